import Verif.Model.Transpose
import Verif.Spec.Transpose
import Verif.Props.Split

/-!
# C22: transpose2, transpose4
-/

namespace Simdpp
open Spec Sh

variable {w n : Nat}

/-- The transposed family. -/
def tr {m : Nat} (a : Fin m → Vec w n) : Fin m → Vec w n := fun i e =>
  if h : 0 < m then (a ⟨e.val % m, Nat.mod_lt _ h⟩).at_ (e.val / m * m + i.val) else 0

theorem tr_at {m : Nat} (hm : 0 < m) (a : Fin m → Vec w n) (i : Fin m) {t : Nat} (ht : t < n) :
    (tr a i).at_ t = (a ⟨t % m, Nat.mod_lt _ hm⟩).at_ (t / m * m + i.val) := by
  rw [Vec.at_lt _ ht]
  exact dif_pos hm

theorem tr_transposed {m : Nat} (a : Fin m → Vec w n) : Transposed m a (tr a) := by
  intro i k j hj
  have hm : 0 < m := Nat.lt_of_le_of_lt (Nat.zero_le _) i.isLt
  have hk := k.isLt
  rw [tr_at hm a i (by omega)]
  have e1 : (m * j + k.val) % m = k.val := by rw [Nat.mul_add_mod, Nat.mod_eq_of_lt hk]
  have e2 : (m * j + k.val) / m = j := by rw [Nat.mul_add_div hm, Nat.div_eq_of_lt hk, Nat.add_zero]
  rw [e2, Nat.mul_comm j m]
  have : (⟨(m * j + k.val) % m, Nat.mod_lt _ hm⟩ : Fin m) = k := Fin.ext e1
  rw [this]

/-! ## Plain loops -/

/-- Where a swap of two elements reads from. -/
def swapIdx {m : Nat} (p q : Fin m) (i j : Nat) (x : Fin m × Nat) : Fin m × Nat :=
  if x.1 = p ∧ x.2 = i then (q, j) else if x.1 = q ∧ x.2 = j then (p, i) else x

/-- `b` reads `a` at `f`. -/
def Reads {m : Nat} (a b : Fin m → Vec w n) (f : Fin m × Nat → Fin m × Nat) : Prop :=
  ∀ t e, e < n → (f (t, e)).2 < n ∧ (b t).at_ e = (a (f (t, e)).1).at_ (f (t, e)).2

theorem Reads.comp {m : Nat} {a b d : Fin m → Vec w n} {f g : Fin m × Nat → Fin m × Nat} (h : Reads a b f)
    (h' : Reads b d g) : Reads a d (fun x => f (g x)) := fun t e he =>
  have p := h' t e he
  have q := h (g (t, e)).1 (g (t, e)).2 p.1
  ⟨q.1, p.2.trans q.2⟩

theorem Null.swapEl_eq {m : Nat} (p q : Fin m) {i j : Nat} (hi : i < n) (hj : j < n) (a : Fin m → Vec w n) :
    ∃ b, Null.swapEl p q i j a = some b ∧ Reads a b (swapIdx p q i j) := by
  refine ⟨_, if_pos ⟨hi, hj⟩, fun t e he => ?_⟩
  rw [Vec.at_lt _ he]
  unfold swapIdx
  dsimp only
  by_cases h1 : t = p ∧ e = i
  · rw [if_pos h1, if_pos h1]; exact ⟨hj, rfl⟩
  · rw [if_neg h1, if_neg h1]
    by_cases h2 : t = q ∧ e = j
    · rw [if_pos h2, if_pos h2]; exact ⟨hi, rfl⟩
    · rw [if_neg h2, if_neg h2]; exact ⟨he, (Vec.at_lt _ he).symm⟩

/-- Shift of the lane number. -/
def shIdx {m : Nat} (d : Nat) (x : Fin m × Nat) : Fin m × Nat := (x.1, d + x.2)

theorem swapIdx_sh {m : Nat} (p q : Fin m) (i j d : Nat) (x : Fin m × Nat) :
    swapIdx p q (d + i) (d + j) (shIdx d x) = shIdx d (swapIdx p q i j x) := by
  unfold swapIdx shIdx
  dsimp only
  simp only [Nat.add_right_inj]
  split_ifs <;> rfl

theorem swapIdx_far {m : Nat} (p q : Fin m) {i j : Nat} {x : Fin m × Nat} (h1 : x.2 ≠ i) (h2 : x.2 ≠ j) :
    swapIdx p q i j x = x := by
  unfold swapIdx
  rw [if_neg (fun g => h1 g.2), if_neg (fun g => h2 g.2)]

/-- A loop over blocks of `m` lanes that transposes one block per iteration. -/
theorem trLoop {m : Nat} (hm : 0 < m) (l : Nat) (body : Nat → (Fin m → Vec w (m * l)) → Option (Fin m → Vec w (m * l)))
    (hb : ∀ u s, u < l → ∃ b f, body (0 + u * m) s = some b ∧ Reads s b f ∧
      (∀ t x : Fin m, f (t, u * m + x.val) = (x, u * m + t.val)) ∧
      ∀ t e, (e < u * m ∨ u * m + m ≤ e) → f (t, e) = (t, e))
    (a : Fin m → Vec w (m * l)) : forS m 0 (m * l) body a = some (tr a) := by
  obtain ⟨s, e, p⟩ := forS_rule (lo := 0) (hi := m * l) (cnt := l) hm (by rw [Nat.mul_comm]; omega)
    body (fun u (b : Fin m → Vec w (m * l)) => ∀ t e, e < m * l → (b t).at_ e =
      if e < u * m then (tr a t).at_ e else (a t).at_ e) a
    (by intro t e he; rw [if_neg (by omega)]) (by
      intro u s hu hP
      obtain ⟨b, f, e, hR, h1, h2⟩ := hb u s hu
      refine ⟨b, e, fun t x hx => ?_⟩
      rw [(hR t x hx).2]
      have hle : (u + 1) * m ≤ m * l := by rw [Nat.mul_comm m]; exact Nat.mul_le_mul_right _ hu
      have hsm : (u + 1) * m = u * m + m := by ring
      by_cases g : x < u * m ∨ u * m + m ≤ x
      · rw [h2 t x g, hP t x hx]
        by_cases g' : x < u * m
        · rw [if_pos g', if_pos (by omega)]
        · rw [if_neg g', if_neg (by omega)]
      · obtain ⟨y, rfl⟩ : ∃ y : Fin m, x = u * m + y.val := ⟨⟨x - u * m, by omega⟩, by simp; omega⟩
        have ht := t.isLt
        have hy := y.isLt
        rw [h1 t y, if_pos (by omega), hP y (u * m + t.val) (by omega), if_neg (by omega), tr_at hm a t hx]
        have e1 : (u * m + y.val) % m = y.val := by rw [Nat.mul_comm, Nat.mul_add_mod, Nat.mod_eq_of_lt hy]
        have e2 : (u * m + y.val) / m = u := by
          rw [Nat.mul_comm, Nat.mul_add_div hm, Nat.div_eq_of_lt hy, Nat.add_zero]
        have e3 : (⟨(u * m + y.val) % m, Nat.mod_lt _ hm⟩ : Fin m) = y := Fin.ext e1
        rw [e2, e3])
  rw [e]
  refine congrArg some (funext fun t => ext_at fun x hx => ?_)
  rw [p t x hx, if_pos (by rw [Nat.mul_comm]; exact hx)]

theorem Null.transpose2_eq (hn : 2 ∣ n) (a : Fin 2 → Vec w n) : Null.transpose2 a = some (tr a) := by
  obtain ⟨l, rfl⟩ := hn
  refine trLoop (by decide) l _ (fun u s hu => ?_) a
  obtain ⟨b, e, p⟩ := Null.swapEl_eq 0 1 (i := u * 2 + 1) (j := u * 2) (by omega) (by omega) s
  refine ⟨b, _, ?_, p, ?_, ?_⟩
  · rw [Nat.zero_add]; exact e
  · intro t x
    have := swapIdx_sh 0 1 1 0 (u * 2) (t, x.val)
    refine this.trans ?_
    have : ∀ t x : Fin 2, swapIdx 0 1 1 0 (t, x.val) = (x, t.val) := by decide
    rw [this t x]; rfl
  · intro t e he
    exact swapIdx_far _ _ (by dsimp only; omega) (by dsimp only; omega)

theorem Null.transpose4_eq (hn : 4 ∣ n) (a : Fin 4 → Vec w n) : Null.transpose4 a = some (tr a) := by
  obtain ⟨l, rfl⟩ := hn
  refine trLoop (by decide) l _ (fun u s hu => ?_) a
  obtain ⟨b1, e1, p1⟩ := Null.swapEl_eq 0 1 (i := u * 4 + 1) (j := u * 4 + 0) (by omega) (by omega) s
  obtain ⟨b2, e2, p2⟩ := Null.swapEl_eq 0 2 (i := u * 4 + 2) (j := u * 4 + 0) (by omega) (by omega) b1
  obtain ⟨b3, e3, p3⟩ := Null.swapEl_eq 0 3 (i := u * 4 + 3) (j := u * 4 + 0) (by omega) (by omega) b2
  obtain ⟨b4, e4, p4⟩ := Null.swapEl_eq 1 2 (i := u * 4 + 2) (j := u * 4 + 1) (by omega) (by omega) b3
  obtain ⟨b5, e5, p5⟩ := Null.swapEl_eq 1 3 (i := u * 4 + 3) (j := u * 4 + 1) (by omega) (by omega) b4
  obtain ⟨b6, e6, p6⟩ := Null.swapEl_eq 2 3 (i := u * 4 + 3) (j := u * 4 + 2) (by omega) (by omega) b5
  refine ⟨b6, _, ?_, ((((p1.comp p2).comp p3).comp p4).comp p5).comp p6, ?_, ?_⟩
  · simp only [Nat.zero_add]
    simp only [Nat.add_zero] at e1 e2 e3
    simp only [e1, e2, e3, e4, e5, e6, Option.bind_eq_bind, Option.bind_some]
  · intro t x
    have : ∀ t x : Fin 4, swapIdx 0 1 1 0 (swapIdx 0 2 2 0 (swapIdx 0 3 3 0 (swapIdx 1 2 2 1 (swapIdx 1 3 3 1
      (swapIdx 2 3 3 2 (t, x.val)))))) = (x, t.val) := by decide
    refine Eq.trans ?_ (congrArg (shIdx (u * 4)) (this t x))
    simp only [← swapIdx_sh]
    rfl
  · intro t e he
    rw [swapIdx_far 2 3 (by dsimp only; omega) (by dsimp only; omega), swapIdx_far 1 3 (by dsimp only; omega) (by dsimp only; omega),
      swapIdx_far 1 2 (by dsimp only; omega) (by dsimp only; omega), swapIdx_far 0 3 (by dsimp only; omega) (by dsimp only; omega),
      swapIdx_far 0 2 (by dsimp only; omega) (by dsimp only; omega), swapIdx_far 0 1 (by dsimp only; omega) (by dsimp only; omega)]

/-! ## Selections of lanes from a family -/

/-- Lane `j` of every block of `L` lanes of `x` is lane `(f j).2` of the same block of vector `(f j).1`. -/
def Sel {m : Nat} (L : Nat) (A : Fin m → Vec w n) (x : Vec w n) (f : Nat → Fin m × Nat) : Prop :=
  (∀ j, j < L → (f j).2 < L) ∧ ∀ i, i < n → x.at_ i = (A (f (i % L)).1).at_ (i / L * L + (f (i % L)).2)

variable {m L : Nat}

theorem Sel.self (A : Fin m → Vec w n) (p : Fin m) : Sel L A (A p) (fun j => (p, j)) :=
  ⟨fun _ h => h, fun i _ => by rw [Nat.div_add_mod']⟩

theorem blk_div_mod (hL : 0 < L) {q j : Nat} (hj : j < L) : (q * L + j) / L = q ∧ (q * L + j) % L = j := by
  constructor
  · rw [Nat.mul_comm, Nat.mul_add_div hL, Nat.div_eq_of_lt hj, Nat.add_zero]
  · rw [Nat.mul_comm, Nat.mul_add_mod, Nat.mod_eq_of_lt hj]

theorem Sel.comp {m' : Nat} (hL : 0 < L) (hn : L ∣ n) {A : Fin m → Vec w n} {B : Fin m' → Vec w n} {x : Vec w n}
    {f : Nat → Fin m' × Nat} {g : Fin m' → Nat → Fin m × Nat} (hx : Sel L B x f) (hB : ∀ p, Sel L A (B p) (g p)) :
    Sel L A x (fun j => g (f j).1 (f j).2) := by
  refine ⟨fun j hj => (hB _).1 _ (hx.1 j hj), fun i hi => ?_⟩
  have hj := hx.1 (i % L) (Nat.mod_lt _ hL)
  obtain ⟨e1, e2⟩ := blk_div_mod hL (q := i / L) hj
  rw [hx.2 i hi, (hB _).2 _ (block_lt hn hi hj), e1, e2]

theorem Sel.gather (hL : 0 < L) (hn : L ∣ n) {A : Fin m → Vec w n} {x y : Vec w n} {f g : Nat → Fin m × Nat}
    {h : Nat → Nat} (hh : ∀ j, j < L → h j < 2 * L) (hx : Sel L A x f) (hy : Sel L A y g) :
    Sel L A (Sh.gather L h x y) (fun j => if h j < L then f (h j) else g (h j - L)) := by
  constructor
  · intro j hj
    have := hh j hj
    dsimp only
    split_ifs with e
    · exact hx.1 _ e
    · exact hy.1 _ (by omega)
  · intro i hi
    have hb := hh (i % L) (Nat.mod_lt _ hL)
    rw [gather_at _ _ hi]
    dsimp only
    by_cases e : h (i % L) < L
    · obtain ⟨e1, e2⟩ := blk_div_mod hL (q := i / L) e
      rw [if_pos e, if_pos e, hx.2 _ (block_lt hn hi e), e1, e2]
    · have e' : h (i % L) - L < L := by omega
      obtain ⟨e1, e2⟩ := blk_div_mod hL (q := i / L) e'
      rw [if_neg e, if_neg e, if_pos hb, hy.2 _ (block_lt hn hi e'), e1, e2]

theorem Sel.tr (hm : 0 < m) (hL : 0 < L) (hmL : m ∣ L) (a : Fin m → Vec w n) (i : Fin m) :
    Sel L a (tr a i) (fun j => (⟨j % m, Nat.mod_lt _ hm⟩, j / m * m + i.val)) := by
  refine ⟨fun j hj => block_lt hmL hj i.isLt, fun t ht => ?_⟩
  rw [tr_at hm a i ht]
  obtain ⟨l, rfl⟩ := hmL
  have e1 : t % (m * l) % m = t % m := Nat.mod_mul_right_mod _ _ _
  have e2 : t / (m * l) * (m * l) + t % (m * l) / m * m = t / m * m := by
    rw [Nat.mod_mul_right_div_self, ← Nat.div_div_eq_div_mul]
    calc t / m / l * (m * l) + t / m % l * m = (t / m / l * l + t / m % l) * m := by ring
      _ = _ := by rw [Nat.div_add_mod']
  dsimp only
  simp only [e1]
  rw [← Nat.add_assoc, e2]

theorem Sel.eq {A : Fin m → Vec w n} {x y : Vec w n} {f g : Nat → Fin m × Nat} (hL : 0 < L) (hx : Sel L A x f)
    (hy : Sel L A y g) (h : ∀ j, j < L → f j = g j) : x = y := by
  apply ext_at
  intro i hi
  rw [hx.2 i hi, hy.2 i hi, h _ (Nat.mod_lt _ hL)]

theorem Sel.congr {A : Fin m → Vec w n} {x y : Vec w n} {f : Nat → Fin m × Nat} (hx : Sel L A x f) (e : y = x) :
    Sel L A y f := e ▸ hx

theorem Sel.recast {v q l L' : Nat} (hw : 0 < w) (hq : 0 < q) (hv : v = q * w) (hl : n = l * q) (hL : 0 < L')
    {A : Fin m → Vec v l} {x : Vec v l} {f : Nat → Fin m × Nat} (hx : Sel L' A x f) :
    Sel (L' * q) (fun p => (A p).recast w n) (x.recast w n) (fun j => ((f (j / q)).1, (f (j / q)).2 * q + j % q)) := by
  constructor
  · intro j hj
    have h1 : j / q < L' := Nat.div_lt_of_lt_mul (by rwa [Nat.mul_comm])
    have h2 : ((f (j / q)).2 + 1) * q ≤ L' * q := Nat.mul_le_mul_right _ (hx.1 _ h1)
    have h3 := Nat.mod_lt j hq
    rw [Nat.add_mul, Nat.one_mul] at h2
    dsimp only
    omega
  · intro i hi
    have h1 : i / q < l := Nat.div_lt_of_lt_mul (by rwa [Nat.mul_comm, ← hl])
    have e1 : i % (L' * q) / q = i / q % L' := by rw [Nat.mul_comm, Nat.mod_mul_right_div_self]
    have e2 : i % (L' * q) % q = i % q := Nat.mod_mul_left_mod _ _ _
    have e3 : i / (L' * q) = i / q / L' := by rw [Nat.mul_comm, Nat.div_div_eq_div_mul]
    dsimp only
    rw [recast_at hw hq hv hl, hx.2 _ h1, recast_at hw hq hv hl, e1, e2, e3]
    have e4 : i / q / L' * (L' * q) + ((f (i / q % L')).2 * q + i % q) =
        (i / q / L' * L' + (f (i / q % L')).2) * q + i % q := by ring
    obtain ⟨d1, d2⟩ := blk_div_mod hq (q := i / q / L' * L' + (f (i / q % L')).2) (Nat.mod_lt i hq)
    rw [e4, d1, d2]

/-- A selection on wider lanes, as one on the narrow lanes. -/
theorem rg {u k v q l L' : Nat} (hw : 0 < w) (hq : 0 < q) (hL : 0 < L') (hv : v = q * w) (hl : n = l * q) (hd : L' ∣ l)
    (f : Nat → Nat) (x y : Vec u k) :
    (Sh.gather L' f (x.recast v l) (y.recast v l)).recast w n =
      Sh.gather (L' * q) (ex q f) (x.recast w n) (y.recast w n) := by
  have hvp : 0 < v := by rw [hv]; exact Nat.mul_pos hq hw
  have hle : w * n ≤ v * l := by rw [hv, hl]; exact Nat.le_of_eq (by ring)
  rw [recast_gather hw hq hL hv hl hd, Vec.recast_trans _ hvp hle, Vec.recast_trans _ hvp hle]

/-! ## transpose4 from zips -/

theorem sse32x4_eq {n m : Nat} {z4lo z4hi : Op2 32 n} {z2lo z2hi : Op2 64 m} (hn : 4 ∣ n) (hm : n = m * 2)
    (h1 : ∀ a b, z4lo a b = some (Sh.gather 4 (zipI 32) a b)) (h2 : ∀ a b, z4hi a b = some (Sh.gather 4 (zipH 32) a b))
    (h3 : ∀ a b, z2lo a b = some (Sh.gather 2 (zipI 64) a b)) (h4 : ∀ a b, z2hi a b = some (Sh.gather 2 (zipH 64) a b))
    (a : Fin 4 → Vec 32 n) : sse32x4 z4lo z4hi z2lo z2hi a = some (tr a) := by
  have hd : 2 ∣ m := by omega
  unfold sse32x4
  simp only [h1, h2, h3, h4, Option.bind_eq_bind, Option.bind_some]
  simp only [rg (w := 32) (n := n) (v := 64) (q := 2) (l := m) (L' := 2) (by decide) (by decide) (by decide) rfl hm hd,
    Vec.recast_self]
  have P (i j : Fin 4) {f : Nat → Nat} (hf : ∀ j, j < 4 → f j < 2 * 4) :=
    Sel.gather (by decide) hn hf (Sel.self (L := 4) a i) (Sel.self a j)
  refine congrArg some (funext fun i => ?_)
  have T := Sel.tr (m := 4) (L := 4) (by decide) (by decide) (by decide) a
  have hi := i.isLt
  obtain rfl | rfl | rfl | rfl : i = 0 ∨ i = 1 ∨ i = 2 ∨ i = 3 := by omega
  · exact Sel.eq (by decide) (Sel.gather (by decide) hn (by decide) (P 0 1 (by decide)) (P 2 3 (by decide))) (T 0) (by decide)
  · exact Sel.eq (by decide) (Sel.gather (by decide) hn (by decide) (P 0 1 (by decide)) (P 2 3 (by decide))) (T 1) (by decide)
  · exact Sel.eq (by decide) (Sel.gather (by decide) hn (by decide) (P 0 1 (by decide)) (P 2 3 (by decide))) (T 2) (by decide)
  · exact Sel.eq (by decide) (Sel.gather (by decide) hn (by decide) (P 0 1 (by decide)) (P 2 3 (by decide))) (T 3) (by decide)

theorem sse16x4_eq {n m l : Nat} {z8lo z8hi : Op2 16 n} {z4lo z4hi : Op2 32 m} {z2lo z2hi : Op2 64 l} (hn : 8 ∣ n)
    (hm : n = m * 2) (hl : n = l * 4)
    (h5 : ∀ a b, z8lo a b = some (Sh.gather 8 (zipI 16) a b)) (h6 : ∀ a b, z8hi a b = some (Sh.gather 8 (zipH 16) a b))
    (h1 : ∀ a b, z4lo a b = some (Sh.gather 4 (zipI 32) a b)) (h2 : ∀ a b, z4hi a b = some (Sh.gather 4 (zipH 32) a b))
    (h3 : ∀ a b, z2lo a b = some (Sh.gather 2 (zipI 64) a b)) (h4 : ∀ a b, z2hi a b = some (Sh.gather 2 (zipH 64) a b))
    (a : Fin 4 → Vec 16 n) : sse16x4 z8lo z8hi z4lo z4hi z2lo z2hi a = some (tr a) := by
  unfold sse16x4
  simp only [h1, h2, h3, h4, h5, h6, Option.bind_eq_bind, Option.bind_some]
  simp only [rg (w := 16) (n := n) (v := 64) (q := 4) (l := l) (L' := 2) (by decide) (by decide) (by decide) rfl hl (by omega),
    rg (w := 16) (n := n) (v := 32) (q := 2) (l := m) (L' := 4) (by decide) (by decide) (by decide) rfl hm (by omega),
    Vec.recast_self]
  have P (i j : Fin 4) {f : Nat → Nat} (hf : ∀ j, j < 8 → f j < 2 * 8) :=
    Sel.gather (by decide) hn hf (Sel.self (L := 8) a i) (Sel.self a j)
  have Q {f g : Nat → Nat} (hf : ∀ j, j < 8 → f j < 2 * 8) (hg : ∀ j, j < 8 → g j < 2 * 8) :=
    Sel.gather (by decide) hn hg (P 0 1 hf) (P 2 3 hf)
  refine congrArg some (funext fun i => ?_)
  have T := Sel.tr (m := 4) (L := 8) (by decide) (by decide) (by decide) a
  obtain rfl | rfl | rfl | rfl : i = 0 ∨ i = 1 ∨ i = 2 ∨ i = 3 := by omega
  · exact Sel.eq (by decide) (Sel.gather (by decide) hn (by decide) (Q (by decide) (by decide)) (Q (by decide) (by decide))) (T 0) (by decide)
  · exact Sel.eq (by decide) (Sel.gather (by decide) hn (by decide) (Q (by decide) (by decide)) (Q (by decide) (by decide))) (T 1) (by decide)
  · exact Sel.eq (by decide) (Sel.gather (by decide) hn (by decide) (Q (by decide) (by decide)) (Q (by decide) (by decide))) (T 2) (by decide)
  · exact Sel.eq (by decide) (Sel.gather (by decide) hn (by decide) (Q (by decide) (by decide)) (Q (by decide) (by decide))) (T 3) (by decide)

theorem vec4_forall {α : Type} {P : Fin 4 → α → Prop} {x y z t : α} (h0 : P 0 x) (h1 : P 1 y) (h2 : P 2 z) (h3 : P 3 t) :
    ∀ i, P i (vec4 x y z t i) := by
  intro i
  obtain rfl | rfl | rfl | rfl : i = 0 ∨ i = 1 ∨ i = 2 ∨ i = 3 := by omega
  · exact h0
  · exact h1
  · exact h2
  · exact h3

/-- Index function of a selection from two equal selections of pairs. -/
def quad (L : Nat) (f g : Nat → Nat) (j : Nat) : Fin 4 × Nat :=
  if g j < L then if f (g j) < L then (0, f (g j)) else (1, f (g j) - L)
  else if f (g j - L) < L then (2, f (g j - L)) else (3, f (g j - L) - L)

theorem sse8x4_eq {n m l : Nat} {z16lo z16hi : Op2 8 n} {z8lo z8hi : Op2 16 m}
    {t4 : (Fin 4 → Vec 32 l) → Option (Fin 4 → Vec 32 l)} (hn : 16 ∣ n)
    (hm : n = m * 2) (hl : n = l * 4)
    (h1 : ∀ a b, z16lo a b = some (Sh.gather 16 (zipI 8) a b)) (h2 : ∀ a b, z16hi a b = some (Sh.gather 16 (zipH 8) a b))
    (h3 : ∀ a b, z8lo a b = some (Sh.gather 8 (zipI 16) a b)) (h4 : ∀ a b, z8hi a b = some (Sh.gather 8 (zipH 16) a b))
    (h5 : ∀ a, t4 a = some (tr a))
    (a : Fin 4 → Vec 8 n) : sse8x4 z16lo z16hi z8lo z8hi t4 a = some (tr a) := by
  unfold sse8x4
  simp only [h1, h2, h3, h4, h5, Option.bind_eq_bind, Option.bind_some]
  refine congrArg some (funext fun i => ?_)
  have P (i j : Fin 4) {f : Nat → Nat} (hf : ∀ j, j < 16 → f j < 2 * 16) :=
    Sel.gather (by decide) hn hf (Sel.self (L := 16) a i) (Sel.self a j)
  have Q {f g : Nat → Nat} (hf : ∀ j, j < 16 → f j < 2 * 16) (hg : ∀ j, j < 16 → g j < 2 * 16) :=
    Sel.gather (by decide) hn hg (P 0 1 hf) (P 2 3 hf)
  have R {f : Nat → Nat} {g : Nat → Nat} (hf : ∀ j, j < 16 → f j < 2 * 16) (hg : ∀ j, j < 16 → ex 2 g j < 2 * 16) :
      Sel 16 a (Vec.recast 8 n (Vec.recast 32 l (Sh.gather 8 g (Vec.recast 16 m (Sh.gather 16 f (a 0) (a 1)))
        (Vec.recast 16 m (Sh.gather 16 f (a 2) (a 3)))))) (quad 16 f (ex 2 g)) := by
    rw [Vec.recast_trans _ (by decide) (by omega), rg (by decide) (by decide) (by decide) rfl hm (by omega), Vec.recast_self,
      Vec.recast_self]
    exact Q hf hg
  have T := Sel.tr (m := 4) (L := 16) (by decide) (by decide) (by decide) a i
  have S := Sel.recast (w := 8) (n := n) (q := 4) (by decide) (by decide) rfl hl (by decide)
    (Sel.tr (m := 4) (L := 4) (by decide) (by decide) (by decide) (vec4 (Vec.recast 32 l (Sh.gather 8 (zipI 16)
      (Vec.recast 16 m (Sh.gather 16 (zipI 8) (a 0) (a 1))) (Vec.recast 16 m (Sh.gather 16 (zipI 8) (a 2) (a 3)))))
      (Vec.recast 32 l (Sh.gather 8 (zipH 16)
      (Vec.recast 16 m (Sh.gather 16 (zipI 8) (a 0) (a 1))) (Vec.recast 16 m (Sh.gather 16 (zipI 8) (a 2) (a 3)))))
      (Vec.recast 32 l (Sh.gather 8 (zipI 16)
      (Vec.recast 16 m (Sh.gather 16 (zipH 8) (a 0) (a 1))) (Vec.recast 16 m (Sh.gather 16 (zipH 8) (a 2) (a 3)))))
      (Vec.recast 32 l (Sh.gather 8 (zipH 16)
      (Vec.recast 16 m (Sh.gather 16 (zipH 8) (a 0) (a 1))) (Vec.recast 16 m (Sh.gather 16 (zipH 8) (a 2) (a 3)))))) i)
  have S' := Sel.comp (m := 4) (L := 16) (A := a) (by decide) hn S (g := vec4 _ _ _ _) (vec4_forall
    (P := fun i g => Sel 16 a (Vec.recast 8 n (vec4 _ _ _ _ i)) g) (R (by decide) (by decide)) (R (by decide) (by decide)) (R (by decide) (by decide)) (R (by decide) (by decide)))
  refine Sel.eq (by decide) S' T ?_
  obtain rfl | rfl | rfl | rfl : i = 0 ∨ i = 1 ∨ i = 2 ∨ i = 3 := by omega
  · decide
  · decide
  · decide
  · decide

/-! ## transpose4 from transpose2 -/

theorem vec2_forall {α : Type} {P : Fin 2 → α → Prop} {x y : α} (h0 : P 0 x) (h1 : P 1 y) : ∀ i, P i (vec2 x y i) := by
  intro i
  obtain rfl | rfl : i = 0 ∨ i = 1 := by omega
  · exact h0
  · exact h1

theorem twice_eq {v l : Nat} {t2 : (Fin 2 → Vec w n) → Option (Fin 2 → Vec w n)}
    {T2 : (Fin 2 → Vec v l) → Option (Fin 2 → Vec v l)} (hw : 0 < w) (hv : v = 2 * w) (hl : n = l * 2) (hn : 4 ∣ n)
    (h1 : ∀ a, t2 a = some (tr a)) (h2 : ∀ a, T2 a = some (tr a)) (a : Fin 4 → Vec w n) :
    twice t2 T2 a = some (tr a) := by
  unfold twice
  simp only [h1, h2, Option.bind_eq_bind, Option.bind_some]
  have A (x y : Fin 4) (p : Fin 2) := Sel.comp (L := 4) (A := a) (by decide) hn
    (Sel.tr (m := 2) (L := 4) (by decide) (by decide) (by decide) (vec2 (a x) (a y)) p)
    (g := vec2 (fun j => (x, j)) (fun j => (y, j)))
    (fun i => by obtain rfl | rfl : i = 0 ∨ i = 1 := by omega
                 · exact Sel.self a x
                 · exact Sel.self a y)
  have A' (x y : Fin 4) (p : Fin 2) := (A x y p).congr (Vec.recast_recast (v := v) (m := l) (tr (vec2 (a x) (a y)) p)
    (by omega) (by rw [hv, hl]; ring))
  have S (p i : Fin 2) := Sel.comp (L := 4) (A := a) (by decide) hn
    (Sel.recast (m := 2) (w := w) (n := n) (q := 2) (L' := 2) hw (by decide) hv hl (by decide)
      (Sel.tr (m := 2) (L := 2) (by decide) (by decide) (by decide) (vec2 (Vec.recast v l (tr (vec2 (a 0) (a 1)) p))
       (Vec.recast v l (tr (vec2 (a 2) (a 3)) p))) i))
    (g := vec2 _ _) (fun t => by
      obtain rfl | rfl : t = 0 ∨ t = 1 := by omega
      · exact A' 0 1 p
      · exact A' 2 3 p)
  have T := Sel.tr (m := 4) (L := 4) (by decide) (by decide) (by decide) a
  refine congrArg some (funext fun i => ?_)
  obtain rfl | rfl | rfl | rfl : i = 0 ∨ i = 1 ∨ i = 2 ∨ i = 3 := by omega
  · exact Sel.eq (by decide) (S 0 0) (T 0) (by decide)
  · exact Sel.eq (by decide) (S 1 0) (T 1) (by decide)
  · exact Sel.eq (by decide) (S 0 1) (T 2) (by decide)
  · exact Sel.eq (by decide) (S 1 1) (T 3) (by decide)

/-! ## One register -/

theorem trn1_eq (a : Fin 2 → Vec w n) : vec2 (Hw.trn1 (a 0) (a 1)) (Hw.trn2 (a 0) (a 1)) = tr a := by
  funext i
  refine ext_at fun t ht => ?_
  rw [tr_at (by decide) a i ht]
  obtain rfl | rfl : i = 0 ∨ i = 1 := by omega
  · show (Hw.trn1 (a 0) (a 1)).at_ t = _
    rw [Vec.at_lt _ ht]
    unfold Hw.trn1
    dsimp only
    by_cases e : t % 2 = 0
    · rw [if_pos e]
      congr 2
      · exact Fin.ext e.symm
      · simp; omega
    · rw [if_neg e]
      congr 2
      · exact Fin.ext (by simp; omega)
      · simp; omega
  · show (Hw.trn2 (a 0) (a 1)).at_ t = _
    rw [Vec.at_lt _ ht]
    unfold Hw.trn2
    dsimp only
    by_cases e : t % 2 = 0
    · rw [if_pos e]
      congr 2
      · exact Fin.ext e.symm
      · show t = t / 2 * 2; omega
    · rw [if_neg e]
      congr 2
      · exact Fin.ext (by simp; omega)
      · simp; omega

/-- Two selections that are a transposition. -/
theorem vec2_gather (hL : 0 < L) (h2 : 2 ∣ L) (hn : L ∣ n) {f g : Nat → Nat}
    (hf : ∀ j, j < L → f j = if j % 2 = 0 then j else L + (j - 1))
    (hg : ∀ j, j < L → g j = if j % 2 = 0 then j + 1 else L + j)
    (a : Fin 2 → Vec w n) : vec2 (Sh.gather L f (a 0) (a 1)) (Sh.gather L g (a 0) (a 1)) = tr a := by
  have bf : ∀ j, j < L → f j < 2 * L := by
    intro j hj
    have := hf j hj
    split_ifs at this <;> omega
  have bg : ∀ j, j < L → g j < 2 * L := by
    intro j hj
    have := hg j hj
    split_ifs at this <;> omega
  have T := Sel.tr (m := 2) (L := L) (by decide) hL h2 a
  funext i
  obtain rfl | rfl : i = 0 ∨ i = 1 := by omega
  · refine Sel.eq hL (Sel.gather hL hn bf (Sel.self a 0) (Sel.self a 1)) (T 0) fun j hj => ?_
    rw [hf j hj]
    by_cases e : j % 2 = 0
    · rw [if_pos e, if_pos hj]
      exact Prod.ext (Fin.ext (by simp [e])) (by simp; omega)
    · rw [if_neg e, if_neg (by omega)]
      exact Prod.ext (Fin.ext (by simp; omega)) (by simp; omega)
  · refine Sel.eq hL (Sel.gather hL hn bg (Sel.self a 0) (Sel.self a 1)) (T 1) fun j hj => ?_
    rw [hg j hj]
    by_cases e : j % 2 = 0
    · rw [if_pos e, if_pos (by omega)]
      exact Prod.ext (Fin.ext (by simp [e])) (by simp; omega)
    · rw [if_neg e, if_neg (by omega)]
      exact Prod.ext (Fin.ext (by simp; omega)) (by simp; omega)

theorem okK32 (k : Kind) : k.okW 32 := by
  cases k
  · exact iw32
  · exact Or.inl rfl

theorem okK64 (k : Kind) : k.okW 64 := by
  cases k
  · exact iw64
  · exact Or.inr rfl

variable {c : Cfg} {k : Kind} {r : Reg} (h : c.Ok)
include h

theorem hasVec_int_up {w v : Nat} (hr : c.hasInt w r = true) (hv : v = 32 ∨ v = 64 := by decide) : c.hasVec .int v r = true := by
  cases r
  · rfl
  · exact hr
  · rcases hv with rfl | rfl
    all_goals
      unfold Cfg.hasInt at hr
      simp only [Cfg.hasVec, Cfg.hasInt]
      split_ifs at hr ⊢ <;> first | exact hr | exact h.avx512bw hr | simp_all

theorem sseTranspose2_16_eq (hr : c.hasInt 16 r = true) (hn : n = r.lanes 16) (a : Fin 2 → Vec 16 n) :
    sseTranspose2_16 c r a = some (tr a) := by
  have hr32 := hasVec_int_up (v := 32) h hr
  have hn2 : n / 2 = r.lanes 32 := by rw [hn]; cases r <;> rfl
  have hd : n = n / 2 * 2 := by rw [hn]; cases r <;> rfl
  have h8 : 8 ∣ n := by rw [hn]; cases r <;> decide
  unfold sseTranspose2_16
  rw [i_zip_lo_eq (k := .int) (r := r) h (w := 16) iw16 hr hn, i_zip_hi_eq (k := .int) (r := r) h (w := 16) iw16 hr hn]
  simp only [Option.bind_eq_bind, Option.bind_some]
  rw [shuffle2_gather h hr32 hn2 (by decide) (by decide) (by decide) (by decide),
    shuffle2_gather h hr32 hn2 (by decide) (by decide) (by decide) (by decide)]
  simp only [Option.bind_some]
  rw [rg (by decide) (by decide) (by decide) rfl hd (by omega), rg (by decide) (by decide) (by decide) rfl hd (by omega)]
  simp only [Vec.recast_self]
  have T := Sel.tr (m := 2) (L := 8) (by decide) (by decide) (by decide) a
  have P {f : Nat → Nat} (hf : ∀ j, j < 8 → f j < 2 * 8) :=
    Sel.gather (by decide) h8 hf (Sel.self (L := 8) a 0) (Sel.self a 1)
  refine congrArg some (funext fun i => ?_)
  obtain rfl | rfl : i = 0 ∨ i = 1 := by omega
  · exact Sel.eq (by decide) (Sel.gather (by decide) h8 (by decide) (P (by decide)) (P (by decide))) (T 0) (by decide)
  · exact Sel.eq (by decide) (Sel.gather (by decide) h8 (by decide) (P (by decide)) (P (by decide))) (T 1) (by decide)

theorem sseTranspose2_32_eq (hr : c.hasVec k 32 r = true) (hr64 : c.hasVec k 64 r = true) (hn : n = r.lanes 32) (a : Fin 2 → Vec 32 n) :
    sseTranspose2_32 c k r a = some (tr a) := by
  have k32 := okK32 k
  have k64 := okK64 k
  have hn2 : n / 2 = r.lanes 64 := by rw [hn]; cases r <;> rfl
  have hd : n = n / 2 * 2 := by rw [hn]; cases r <;> rfl
  have h4 : 4 ∣ n := by rw [hn]; cases r <;> decide
  unfold sseTranspose2_32
  rw [i_zip_lo_eq (k := k) (r := r) h (w := 32) k32 hr hn, i_zip_hi_eq (k := k) (r := r) h (w := 32) k32 hr hn]
  simp only [Option.bind_eq_bind, Option.bind_some]
  rw [i_zip_lo_eq (k := k) (r := r) h (w := 64) k64 hr64 hn2, i_zip_hi_eq (k := k) (r := r) h (w := 64) k64 hr64 hn2]
  simp only [Option.bind_some]
  have e : 128 / 64 = 2 := rfl
  rw [e, rg (by decide) (by decide) (by decide) rfl hd (by omega), rg (by decide) (by decide) (by decide) rfl hd (by omega)]
  simp only [Vec.recast_self]
  have T := Sel.tr (m := 2) (L := 4) (by decide) (by decide) (by decide) a
  have P {f : Nat → Nat} (hf : ∀ j, j < 4 → f j < 2 * 4) :=
    Sel.gather (by decide) h4 hf (Sel.self (L := 4) a 0) (Sel.self a 1)
  refine congrArg some (funext fun i => ?_)
  obtain rfl | rfl : i = 0 ∨ i = 1 := by omega
  · exact Sel.eq (by decide) (Sel.gather (by decide) h4 (by decide) (P (by decide)) (P (by decide))) (T 0) (by decide)
  · exact Sel.eq (by decide) (Sel.gather (by decide) h4 (by decide) (P (by decide)) (P (by decide))) (T 1) (by decide)

theorem zipTranspose2_64_eq (hr : c.hasVec k 64 r = true) (hn : n = r.lanes 64) (a : Fin 2 → Vec 64 n) :
    zipTranspose2_64 c k r a = some (tr a) := by
  have k64 := okK64 k
  have h2 : 2 ∣ n := by rw [hn]; cases r <;> decide
  unfold zipTranspose2_64
  rw [i_zip_lo_eq (k := k) (r := r) h (w := 64) k64 hr hn, i_zip_hi_eq (k := k) (r := r) h (w := 64) k64 hr hn]
  simp only [Option.bind_eq_bind, Option.bind_some]
  exact congrArg some (vec2_gather (L := 2) (by decide) (by decide) h2 (by decide) (by decide) a)

/-- The two byte-mask shuffles that transpose pairs of lanes. -/
theorem mask2_eq {q u : Nat} (hx : c.sse2 = false) (hw : IsW w) (hq : w = q * 8) (hqu : (q, u) ∈ [(1, 16), (2, 8), (4, 4)])
    (hn : n = Reg.r128.lanes w) {f g : Nat → Nat}
    (hf : ∀ j, j < u → f j = if j % 2 = 0 then j else u + (j - 1))
    (hg : ∀ j, j < u → g j = if j % 2 = 0 then j + 1 else u + j) (a : Fin 2 → Vec w n) :
    (do let b0 ← maskShuffle c q u f (a 0) (a 1)
        let b1 ← maskShuffle c q u g (a 0) (a 1)
        some (vec2 b0 b1)) = some (tr a) := by
  have hu : u = 16 / q ∧ 0 < u ∧ 2 ∣ u ∧ 128 / w = u ∧ u ∣ n := by
    subst hn hq
    simp only [List.mem_cons, List.not_mem_nil, or_false, Prod.mk.injEq] at hqu
    rcases hqu with ⟨rfl, rfl⟩ | ⟨rfl, rfl⟩ | ⟨rfl, rfl⟩ <;> decide
  obtain ⟨u1, u2, u3, u4, u5⟩ := hu
  have hqu' : (q, u) ∈ [(1,2),(1,4),(1,8),(1,16),(2,2),(2,4),(2,8),(4,2),(4,4),(8,2)] := by
    simp only [List.mem_cons, List.not_mem_nil, or_false] at hqu ⊢
    rcases hqu with e | e | e <;> simp [e]
  have bf : ∀ j, j < u → f j < u * 2 := by
    intro j hj
    have := hf j hj
    split_ifs at this <;> omega
  have bg : ∀ j, j < u → g j < u * 2 := by
    intro j hj
    have := hg j hj
    split_ifs at this <;> omega
  have hx' : c.sse2 = true → (c.ssse3 = true ∨ c.xop = true) := fun g => by rw [hx] at g; cases g
  rw [maskShuffle_eq h hx' hw hq hqu' bf hn, maskShuffle_eq h hx' hw hq hqu' bg hn, u4]
  simp only [Option.bind_eq_bind, Option.bind_some]
  exact congrArg some (vec2_gather u2 u3 u5 (fun j hj => (maskIdx_nat u1 u2 hj).trans (hf j hj))
    (fun j hj => (maskIdx_nat u1 u2 hj).trans (hg j hj)) a)

theorem i_transpose2_8_eq (hs : c.sse2 = false) (hn : n = Reg.r128.lanes 8) (a : Fin 2 → Vec 8 n) :
    i_transpose2_8 c a = some (tr a) := by
  have N : Null.transpose2 a = some (tr a) := Null.transpose2_eq (by subst hn; decide) a
  have M := mask2_eq (q := 1) (u := 16) h hs isW8 rfl (by decide) hn (f := fun p => if p % 2 = 0 then p else 16 + (p - 1))
    (g := fun p => if p % 2 = 0 then p + 1 else 16 + p) (fun _ _ => rfl) (fun _ _ => rfl) a
  unfold i_transpose2_8
  split_ifs
  · exact N
  · exact congrArg some (trn1_eq a)
  · exact M
  · clear N M; cfg_absurd h

theorem i_transpose2_16_eq (hr : c.hasInt 16 r = true) (hn : n = r.lanes 16) (a : Fin 2 → Vec 16 n) :
    i_transpose2_16 c r a = some (tr a) := by
  cases r
  · have N : Null.transpose2 a = some (tr a) := Null.transpose2_eq (by subst hn; decide) a
    unfold i_transpose2_16
    dsimp only
    split_ifs with h1 h2 h3 h4
    · exact N
    · exact sseTranspose2_16_eq h hr hn a
    · exact congrArg some (trn1_eq a)
    · exact mask2_eq (q := 2) (u := 8) h (by simpa using h2) iw16 rfl (by decide) hn (f := fun p => if p % 2 = 0 then p else 8 + (p - 1))
        (g := fun p => if p % 2 = 0 then p + 1 else 8 + p) (fun _ _ => rfl) (fun _ _ => rfl) a
    · clear N; cfg_absurd h
  · exact (if_pos hr).trans (sseTranspose2_16_eq h hr hn a)
  · exact (if_pos hr).trans (sseTranspose2_16_eq h hr hn a)

theorem i_transpose2_32_eq (hr : c.hasVec k 32 r = true) (hn : n = r.lanes 32) (a : Fin 2 → Vec 32 n) :
    i_transpose2_32 c k r a = some (tr a) := by
  have hr64 : c.hasVec k 64 r = true := by
    cases k
    · exact hasVec_int_up h hr (Or.inr rfl)
    · cases r <;> exact hr
  cases r
  · have N : Null.transpose2 a = some (tr a) := Null.transpose2_eq (by subst hn; decide) a
    unfold i_transpose2_32
    dsimp only
    split_ifs with h1 h2 h3 h4
    · exact N
    · exact sseTranspose2_32_eq h hr hr64 hn a
    · exact congrArg some (trn1_eq a)
    · exact mask2_eq (q := 4) (u := 4) h (by simpa using h2) iw32 rfl (by decide) hn (by decide) (by decide) a
    · clear N hr64; cfg_absurd h
  · exact (if_pos hr).trans (sseTranspose2_32_eq h hr hr64 hn a)
  · exact (if_pos hr).trans (sseTranspose2_32_eq h hr hr64 hn a)

theorem i_transpose2_64_eq (hr : c.hasVec k 64 r = true) (hn : n = r.lanes 64) (a : Fin 2 → Vec 64 n) :
    i_transpose2_64 c k r a = some (tr a) := by
  cases r
  · have N : Null.transpose2 a = some (tr a) := Null.transpose2_eq (by subst hn; decide) a
    unfold i_transpose2_64
    dsimp only
    split_ifs with h1 h2 h3
    · exact zipTranspose2_64_eq h hr hn a
    · refine congrArg some (Eq.trans ?_ (trn1_eq a))
      subst hn
      funext i
      obtain rfl | rfl : i = 0 ∨ i = 1 := by omega
      · funext j
        rcases j with ⟨_ | _ | j, hj⟩ <;> first | rfl | (exact absurd hj (by simp [Reg.lanes, Reg.bits]))
      · funext j
        rcases j with ⟨_ | _ | j, hj⟩ <;> first | rfl | (exact absurd hj (by simp [Reg.lanes, Reg.bits]))
    · exact N
    · clear N; cases k <;> cfg_absurd h
  · exact (if_pos hr).trans (zipTranspose2_64_eq h hr hn a)
  · exact (if_pos hr).trans (zipTranspose2_64_eq h hr hn a)

theorem i_transpose2_eq (hw : k.okW w) (h8 : w ≠ 8) (hr : c.hasVec k w r = true) (hn : n = r.lanes w) (a : Fin 2 → Vec w n) :
    i_transpose2 c k r a = some (tr a) := by
  rcases okW_cases hw with e | e | ⟨e2, e | e⟩ <;> subst e
  · exact i_transpose2_64_eq h hr hn a
  · exact i_transpose2_32_eq h hr hn a
  · exact absurd rfl h8
  · subst e2; exact i_transpose2_16_eq h hr hn a

theorem sse32x4R_eq (hr : c.hasVec k 32 r = true) (hn : n = r.lanes 32) (a : Fin 4 → Vec 32 n) :
    sse32x4R c k r a = some (tr a) := by
  have hr64 : c.hasVec k 64 r = true := by
    cases k
    · exact hasVec_int_up h hr (Or.inr rfl)
    · cases r <;> exact hr
  have hn2 : n / 2 = r.lanes 64 := by rw [hn]; cases r <;> rfl
  have hd : n = n / 2 * 2 := by rw [hn]; cases r <;> rfl
  exact sse32x4_eq (by rw [hn]; cases r <;> decide) hd (i_zip_lo_eq (k := k) (r := r) h (okK32 k) hr hn)
    (i_zip_hi_eq (k := k) (r := r) h (okK32 k) hr hn) (i_zip_lo_eq (k := k) (r := r) h (okK64 k) hr64 hn2)
    (i_zip_hi_eq (k := k) (r := r) h (okK64 k) hr64 hn2) a

theorem i_transpose4_32_eq (hr : c.hasVec k 32 r = true) (hn : n = r.lanes 32) (a : Fin 4 → Vec 32 n) :
    i_transpose4_32 c k r a = some (tr a) := by
  cases r
  · have N : Null.transpose4 a = some (tr a) := Null.transpose4_eq (by subst hn; decide) a
    unfold i_transpose4_32
    dsimp only
    split_ifs
    · exact sse32x4R_eq h hr hn a
    · exact N
    · exact twice_eq (by decide) rfl (by subst hn; decide) (by subst hn; decide)
        (i_transpose2_32_eq (k := .int) (r := .r128) h rfl hn)
        (i_transpose2_64_eq (k := .int) (r := .r128) h rfl (by subst hn; decide)) a
    · clear N; cfg_absurd h
  · exact (if_pos hr).trans (sse32x4R_eq h hr hn a)
  · exact (if_pos hr).trans (sse32x4R_eq h hr hn a)

theorem sse16x4R_eq (hr : c.hasInt 16 r = true) (hn : n = r.lanes 16) (a : Fin 4 → Vec 16 n) :
    sse16x4 (m := n / 2) (l := n / 4) (i_zip_lo c .int r) (i_zip_hi c .int r)
      (i_zip_lo c .int r) (i_zip_hi c .int r) (i_zip_lo c .int r) (i_zip_hi c .int r) a = some (tr a) := by
  have hr32 := hasVec_int_up (v := 32) h hr
  have hr64 := hasVec_int_up (v := 64) h hr
  have hn2 : n / 2 = r.lanes 32 := by rw [hn]; cases r <;> rfl
  have hn4 : n / 4 = r.lanes 64 := by rw [hn]; cases r <;> rfl
  exact sse16x4_eq (by rw [hn]; cases r <;> decide) (by rw [hn]; cases r <;> rfl) (by rw [hn]; cases r <;> rfl)
    (i_zip_lo_eq (k := .int) (r := r) h iw16 hr hn) (i_zip_hi_eq (k := .int) (r := r) h iw16 hr hn)
    (i_zip_lo_eq (k := .int) (r := r) h iw32 hr32 hn2) (i_zip_hi_eq (k := .int) (r := r) h iw32 hr32 hn2)
    (i_zip_lo_eq (k := .int) (r := r) h iw64 hr64 hn4) (i_zip_hi_eq (k := .int) (r := r) h iw64 hr64 hn4) a

theorem i_transpose4_16_eq (hr : c.hasInt 16 r = true) (hn : n = r.lanes 16) (a : Fin 4 → Vec 16 n) :
    i_transpose4_16 c r a = some (tr a) := by
  cases r
  · have N : Null.transpose4 a = some (tr a) := Null.transpose4_eq (by subst hn; decide) a
    unfold i_transpose4_16
    dsimp only
    split_ifs
    · exact N
    · exact sse16x4R_eq h hr hn a
    · exact twice_eq (by decide) rfl (by subst hn; decide) (by subst hn; decide)
        (i_transpose2_16_eq (r := .r128) h rfl hn)
        (i_transpose2_32_eq (k := .int) (r := .r128) h rfl (by subst hn; decide)) a
    · clear N; cfg_absurd h
  · exact (if_pos hr).trans (sse16x4R_eq h hr hn a)
  · exact (if_pos hr).trans (sse16x4R_eq h hr hn a)

theorem sse8x4R_eq (hr : c.hasInt 8 r = true) (hn : n = r.lanes 8) (a : Fin 4 → Vec 8 n) :
    sse8x4 (m := n / 2) (l := n / 4) (i_zip_lo c .int r) (i_zip_hi c .int r)
      (i_zip_lo c .int r) (i_zip_hi c .int r) (i_transpose4_32 c .int r) a = some (tr a) := by
  have hr16 : c.hasVec .int 16 r = true := by cases r <;> exact hr
  have hr32 := hasVec_int_up (v := 32) h hr
  have hn2 : n / 2 = r.lanes 16 := by rw [hn]; cases r <;> rfl
  have hn4 : n / 4 = r.lanes 32 := by rw [hn]; cases r <;> rfl
  exact sse8x4_eq (by rw [hn]; cases r <;> decide) (by rw [hn]; cases r <;> rfl) (by rw [hn]; cases r <;> rfl)
    (i_zip_lo_eq (k := .int) (r := r) h isW8 hr hn) (i_zip_hi_eq (k := .int) (r := r) h isW8 hr hn)
    (i_zip_lo_eq (k := .int) (r := r) h iw16 hr16 hn2) (i_zip_hi_eq (k := .int) (r := r) h iw16 hr16 hn2)
    (i_transpose4_32_eq h hr32 hn4) a

theorem i_transpose4_8_eq (hr : c.hasInt 8 r = true) (hn : n = r.lanes 8) (a : Fin 4 → Vec 8 n) :
    i_transpose4_8 c r a = some (tr a) := by
  cases r
  · have N : Null.transpose4 a = some (tr a) := Null.transpose4_eq (by subst hn; decide) a
    unfold i_transpose4_8
    dsimp only
    split_ifs with h1 h2
    · exact N
    · exact sse8x4R_eq h hr hn a
    · exact twice_eq (by decide) rfl (by subst hn; decide) (by subst hn; decide)
        (i_transpose2_8_eq h (by simpa using h2) hn)
        (i_transpose2_16_eq (r := .r128) h rfl (by subst hn; decide)) a
    · clear N; cfg_absurd h
  · exact (if_pos hr).trans (sse8x4R_eq h hr hn a)
  · exact (if_pos hr).trans (sse8x4R_eq h hr hn a)

theorem i_transpose4_eq (hw : k.okW w) (h64 : w ≠ 64) (hr : c.hasVec k w r = true) (hn : n = r.lanes w) (a : Fin 4 → Vec w n) :
    i_transpose4 c k r a = some (tr a) := by
  rcases okW_cases hw with e | e | ⟨e2, e | e⟩ <;> subst e
  · exact absurd rfl h64
  · exact i_transpose4_32_eq h hr hn a
  · subst e2; exact i_transpose4_8_eq h hr hn a
  · subst e2; exact i_transpose4_16_eq h hr hn a

/-! ## Vectors of several registers -/

omit h

theorem Arr.applyRef_spec {α : Type} {m K : Nat} (op : (Fin m → α) → Option (Fin m → α)) (v : Fin m → Fin K → α)
    (g : Fin K → Fin m → α) (hg : ∀ i, op (fun p => v p i) = some (g i)) (I : Nat) (u : Fin m → Fin K → α)
    (hu : ∀ p i, I ≤ i.val → u p i = v p i) :
    Arr.applyRef op I u = some (fun p i => if I ≤ i.val then g i p else u p i) := by
  by_cases hI : I < K
  · rw [Arr.applyRef, dif_pos hI]
    have e : (fun p => u p ⟨I, hI⟩) = fun p => v p ⟨I, hI⟩ := funext fun p => hu p _ (Nat.le_refl I)
    rw [e, hg ⟨I, hI⟩]
    show Arr.applyRef op (I + 1) _ = _
    rw [Arr.applyRef_spec op v g hg (I + 1) _ (by
      intro p i hi
      have : i ≠ ⟨I, hI⟩ := fun e => by rw [e] at hi; exact absurd hi (by simp)
      simp only [Arr.set, if_neg this]
      exact hu p i (by omega))]
    congr 1; funext p i; simp only [Arr.set, Fin.ext_iff]
    split_ifs <;> first | rfl | omega | (have : i = ⟨I, hI⟩ := Fin.ext (by assumption)); rw [this]
  · rw [Arr.applyRef, dif_neg hI]
    congr 1; funext p i; rw [if_neg (by have := i.isLt; omega)]
termination_by K - I

theorem Arr.applyRef_of {α : Type} {m K : Nat} {op : (Fin m → α) → Option (Fin m → α)} {v : Fin m → Fin K → α}
    {g : Fin K → Fin m → α} (hg : ∀ i, op (fun p => v p i) = some (g i)) :
    Arr.applyRef op 0 v = some (fun p i => g i p) := by
  rw [Arr.applyRef_spec op v g hg 0 v (fun _ _ _ => rfl)]
  simp

theorem Arr.flat_inj {K l : Nat} {x y : Fin K → Vec w l} (e : (Arr.flat x : Vec w (K * l)) = Arr.flat y) : x = y := by
  funext i
  refine ext_at fun j hj => ?_
  rw [← flat_at' x i hj, ← flat_at' y i hj, e]

theorem flat_tr {m K l : Nat} (hm : 0 < m) (hml : m ∣ l) (v : Fin m → Fin K → Vec w l) :
    Transposed m (fun p => (Arr.flat (v p) : Vec w (K * l)))
      (fun p => (Arr.flat (fun i => tr (fun q => v q i) p) : Vec w (K * l))) := by
  obtain ⟨L, rfl⟩ := hml
  intro i k b hb
  have hi := i.isLt
  have hk := k.isLt
  have key (x : Nat) (hx : x < m) : (m * b + x) / (m * L) = b / L ∧ (m * b + x) % (m * L) = m * (b % L) + x := by
    constructor
    · rw [← Nat.div_div_eq_div_mul, Nat.mul_add_div hm, Nat.div_eq_of_lt hx, Nat.add_zero]
    · rw [Nat.mod_mul, Nat.mul_add_mod, Nat.mod_eq_of_lt hx, Nat.mul_add_div hm, Nat.div_eq_of_lt hx, Nat.add_zero, Nat.add_comm]
  dsimp only
  rw [flat_at _ (by omega), flat_at _ (by omega)]
  simp only [(key k.val hk).1, (key k.val hk).2, (key i.val hi).1, (key i.val hi).2]
  refine tr_transposed _ i k (b % L) ?_
  have hL : 0 < L := by
    rcases Nat.eq_zero_or_pos L with rfl | g
    · simp at hb; omega
    · exact g
  calc m * (b % L) + m = m * (b % L + 1) := by ring
    _ ≤ m * L := Nat.mul_le_mul_left _ (Nat.mod_lt _ hL)

/-- A selection of lanes on the registers of a vector, on the whole vector. -/
theorem wholeOp_eq {K N L : Nat} {op : Op2 w n} {f : Nat → Nat} (hL : L ∣ n) (hL0 : 0 < L) (hN : N = K * n)
    (h : ∀ a b, op a b = some (Sh.gather L f a b)) (a b : Vec w N) :
    wholeOp op K a b = some (Sh.gather L f a b) := by
  subst hN
  unfold wholeOp
  dsimp only
  obtain ⟨res, e, p⟩ := long2 (K := K) hL hL0 h (fun i j => a.at_ (i.val * n + j.val)) (fun i j => b.at_ (i.val * n + j.val))
    (fun _ => Vec.splat 0)
  rw [e]
  have fl (x : Vec w (K * n)) : (Arr.flat (fun (i : Fin K) (j : Fin n) => x.at_ (i.val * n + j.val)) : Vec w (K * n)) = x := by
    refine ext_at fun j hj => ?_
    have hn : 0 < n := Nat.pos_of_ne_zero fun h => by subst h; simp at hj
    rw [flat_at _ hj, Vec.at_lt _ (Nat.mod_lt _ hn)]
    show x.at_ (j / n * n + j % n) = _
    rw [Nat.div_add_mod']
  rw [fl, fl] at p
  simp only [Option.map_some]
  refine congrArg some (funext fun i => ?_)
  rw [p, Vec.at_fin]

include h

theorem zip512_eq (hw : IsW w) (h2 : c.avx2 = true) (a b : Vec w (512 / w)) :
    zip512 false c w a b = some (Sh.gather (128 / w) (zipI w) a b) ∧
      zip512 true c w a b = some (Sh.gather (128 / w) (zipH w) a b) := by
  have d (r : Reg) : 128 / w ∣ r.lanes w := lanesW_dvd hw r
  have p := (blkL hw).1
  unfold zip512
  dsimp only
  by_cases e : c.hasInt w .r512 = true
  · constructor
    · exact (congrFun (congrFun (if_pos e) a) b).trans (wholeOp_eq (K := 1) (d .r512) p (by rw [Nat.one_mul]; rfl)
        (i_zip_lo_eq (k := .int) (r := .r512) h hw e rfl) a b)
    · exact (congrFun (congrFun (if_pos e) a) b).trans (wholeOp_eq (K := 1) (d .r512) p (by rw [Nat.one_mul]; rfl)
        (i_zip_hi_eq (k := .int) (r := .r512) h hw e rfl) a b)
  · have hN : 512 / w = 2 * Reg.r256.lanes w := by rcases hw with g | g | g | g <;> subst g <;> rfl
    constructor
    · exact (congrFun (congrFun (if_neg e) a) b).trans (wholeOp_eq (K := 2) (d .r256) p hN
        (i_zip_lo_eq (k := .int) (r := .r256) h hw h2 rfl) a b)
    · exact (congrFun (congrFun (if_neg e) a) b).trans (wholeOp_eq (K := 2) (d .r256) p hN
        (i_zip_hi_eq (k := .int) (r := .r256) h hw h2 rfl) a b)

theorem transpose4_512_eq (hw : w = 16 ∨ w = 32) (h2 : c.avx2 = true) (a : Fin 4 → Vec w (512 / w)) :
    transpose4_512 c w a = some (tr a) := by
  rcases hw with e | e <;> subst e
  · exact sse16x4_eq (by decide) (by decide) (by decide) (fun a b => (zip512_eq h iw16 h2 a b).1)
      (fun a b => (zip512_eq h iw16 h2 a b).2) (fun a b => (zip512_eq h iw32 h2 a b).1)
      (fun a b => (zip512_eq h iw32 h2 a b).2) (fun a b => (zip512_eq h iw64 h2 a b).1)
      (fun a b => (zip512_eq h iw64 h2 a b).2) a
  · exact sse32x4_eq (by decide) (by decide) (fun a b => (zip512_eq h iw32 h2 a b).1)
      (fun a b => (zip512_eq h iw32 h2 a b).2) (fun a b => (zip512_eq h iw64 h2 a b).1)
      (fun a b => (zip512_eq h iw64 h2 a b).2) a

/-! ## The property -/

/-- `transpose2` transposes every 2x2 block, for every configuration, lane type, number of registers and lane value. -/
theorem C22_transpose2 (hw : k.okW w) (h8 : w ≠ 8) (hr : c.hasVec k w r = true) {K : Nat} (v : Fin 2 → Fin K → Vec w (r.lanes w)) :
    ∃ res, transpose2 c k r v = some res ∧
      Transposed 2 (fun p => (Arr.flat (v p) : Vec w (K * r.lanes w))) (fun p => Arr.flat (res p)) :=
  ⟨_, Arr.applyRef_of (fun i => i_transpose2_eq h hw h8 hr rfl fun p => v p i),
    flat_tr (by decide) (Nat.dvd_trans (blkL hw.isW).2 (lanesW_dvd hw.isW r)) v⟩

theorem transpose4_dvd (hw : IsW w) (h64 : w ≠ 64) (r : Reg) : 4 ∣ r.lanes w := by
  rcases hw with e | e | e | e <;> subst e <;> cases r <;> first | decide | exact absurd rfl h64

/-- `transpose4` transposes every 4x4 block. -/
theorem C22_transpose4 (hw : k.okW w) (h64 : w ≠ 64) (hr : c.hasVec k w r = true) {K : Nat} (v : Fin 4 → Fin K → Vec w (r.lanes w)) :
    ∃ res, transpose4 c k r v = some res ∧
      Transposed 4 (fun p => (Arr.flat (v p) : Vec w (K * r.lanes w))) (fun p => Arr.flat (res p)) := by
  unfold transpose4
  have hd := transpose4_dvd h hw.isW h64 r
  by_cases e : k = .int ∧ (w = 16 ∨ w = 32) ∧ r = .r256 ∧ c.avx2 = true ∧ K = 2
  · obtain ⟨e1, e2, e3, e4, e5⟩ := e
    subst e1 e3 e5
    rw [if_pos ⟨rfl, e2, rfl, e4, rfl⟩, transpose4_512_eq h e2 e4]
    have hN : 512 / w = 2 * Reg.r256.lanes w := by rcases e2 with g | g <;> subst g <;> rfl
    refine ⟨_, rfl, fun i k b hb => ?_⟩
    have hi := i.isLt
    have hk := k.isLt
    have hl : 0 < Reg.r256.lanes w := by rcases e2 with g | g <;> subst g <;> decide
    dsimp only
    rw [flat_at _ (by omega), Vec.at_lt _ (Nat.mod_lt _ hl)]
    dsimp only
    rw [Nat.div_add_mod', tr_transposed _ i k b (by omega), Vec.at_lt _ (by omega)]
  · rw [if_neg e, Arr.applyRef_of (fun i => i_transpose4_eq h hw h64 hr rfl fun p => v p i)]
    exact ⟨_, rfl, flat_tr (by decide) hd v⟩

/-- Doing it twice gives back the vectors. -/
theorem C22_transpose2_twice (hw : k.okW w) (h8 : w ≠ 8) (hr : c.hasVec k w r = true) {K : Nat}
    (v : Fin 2 → Fin K → Vec w (r.lanes w)) : (transpose2 c k r v).bind (transpose2 c k r) = some v := by
  obtain ⟨x, e1, p1⟩ := C22_transpose2 h hw h8 hr v
  obtain ⟨y, e2, p2⟩ := C22_transpose2 h hw h8 hr x
  rw [e1, Option.bind_some, e2]
  have hd : 2 ∣ r.lanes w := Nat.dvd_trans (blkL hw.isW).2 (lanesW_dvd hw.isW r)
  have := Transposed.twice (Nat.dvd_trans hd (Nat.dvd_mul_left _ K)) p1 p2
  exact congrArg some (funext fun p => Arr.flat_inj (congrFun this p))

theorem C22_transpose4_twice (hw : k.okW w) (h64 : w ≠ 64) (hr : c.hasVec k w r = true) {K : Nat}
    (v : Fin 4 → Fin K → Vec w (r.lanes w)) : (transpose4 c k r v).bind (transpose4 c k r) = some v := by
  obtain ⟨x, e1, p1⟩ := C22_transpose4 h hw h64 hr v
  obtain ⟨y, e2, p2⟩ := C22_transpose4 h hw h64 hr x
  rw [e1, Option.bind_some, e2]
  have hd := transpose4_dvd h hw.isW h64 r
  have := Transposed.twice (Nat.dvd_trans hd (Nat.dvd_mul_left _ K)) p1 p2
  exact congrArg some (funext fun p => Arr.flat_inj (congrFun this p))

omit h

/-! ## Concrete cases -/

example (v : Fin 4 → Fin 3 → Vec 8 16) : ∃ res, transpose4 Cfg.neonA64 .int .r128 v = some res ∧
    Transposed 4 (fun p => (Arr.flat (v p) : Vec 8 (3 * 16))) (fun p => Arr.flat (res p)) :=
  C22_transpose4 (k := .int) (r := .r128) (w := 8) Cfg.neonA64_ok isW8 (by decide) rfl v

example (v : Fin 4 → Fin 2 → Vec 16 16) : (transpose4 Cfg.avx2Only .int .r256 v).bind (transpose4 Cfg.avx2Only .int .r256) = some v :=
  C22_transpose4_twice (k := .int) (r := .r256) (w := 16) Cfg.avx2Only_ok iw16 (by decide) rfl v

example : i_transpose2 (w := 64) (n := 2) Cfg.sse2Only .flt .r128 (vec2 (fun i => BitVec.ofNat 64 i.val)
    (fun i => BitVec.ofNat 64 (i.val + 2))) =
    some (vec2 (fun i => BitVec.ofNat 64 (2 * i.val)) (fun i => BitVec.ofNat 64 (2 * i.val + 1))) := by
  rw [i_transpose2_eq (k := .flt) (w := 64) (n := 2) (r := .r128) Cfg.sse2Only_ok (Or.inr rfl) (by decide) rfl rfl]
  refine congrArg some (funext fun p => funext fun j => ?_)
  revert p j
  decide

end Simdpp
