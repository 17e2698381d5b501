import Verif.Model.Cfg
import Verif.Model.Array
import Mathlib.Tactic.SplitIfs

/-!
# Lane selection

Vocabulary for the instructions and loops that move lanes: `gather` selects lanes inside
blocks of `L` lanes, `forS`/`rd`/`wr` are the loops of `simdpp/detail/null/shuffle.h`.
-/

namespace Simdpp

/-- Register size in bits. -/
def Reg.bits : Reg → Nat
  | .r128 => 128
  | .r256 => 256
  | .r512 => 512

/-- Number of `w`-bit lanes in a register. -/
def Reg.lanes (r : Reg) (w : Nat) : Nat := r.bits / w

namespace Sh
variable {w n : Nat}

/-- In every block of `L` lanes, lane `j` of the result is lane `idx j` of the block of `a` if
`idx j < L`, lane `idx j - L` of the block of `b` if `L ≤ idx j < 2 L`, and zero otherwise. -/
def gather (L : Nat) (idx : Nat → Nat) (a b : Vec w n) : Vec w n := fun i =>
  let k := idx (i.val % L)
  if k < L then a.at_ (i.val / L * L + k)
  else if k < 2 * L then b.at_ (i.val / L * L + (k - L)) else 0

/-! ## C++ loops over lanes -/

/-- `a.el(k)` (undefined past the end). -/
def rd (a : Vec w n) (k : Nat) : Option (BitVec w) := if h : k < n then some (a ⟨k, h⟩) else none

/-- A local `V r;` being filled: `none` lanes are still indeterminate. -/
abbrev Unset (w n : Nat) := Fin n → Option (BitVec w)

/-- `V r;` -/
def unset : Unset w n := fun _ => none

/-- `r.el(k) = x` (undefined past the end). -/
def wr (r : Unset w n) (k : Nat) (x : BitVec w) : Option (Unset w n) :=
  if k < n then some (fun i => if i.val = k then some x else r i) else none

/-- `return r;`: undefined if a lane was never written. -/
def ret (r : Unset w n) : Option (Vec w n) := lanesM r

/-- `for (unsigned i = lo; i < hi; i += step) body(i)`. -/
def forS {α : Type} (step lo hi : Nat) (body : Nat → α → Option α) (s : α) : Option α :=
  if _h : lo < hi ∧ 0 < step then do
    let s' ← body lo s
    forS step (lo + step) hi body s'
  else some s
termination_by hi - lo

/-- Loop rule: `cnt` iterations; an invariant that each maintains holds at the exit. -/
theorem forS_inv {α : Type} {step : Nat} (hs : 0 < step) (body : Nat → α → Option α)
    (P : Nat → α → Prop) (cnt : Nat) :
    ∀ (t lo : Nat) (s : α), t ≤ cnt → P t s →
    (∀ u s, t ≤ u → u < cnt → P u s →
      ∃ s', body (lo + (u - t) * step) s = some s' ∧ P (u + 1) s') →
    ∃ s', forS step lo (lo + (cnt - t) * step) body s = some s' ∧ P cnt s' := by
  suffices H : ∀ (d t lo : Nat) (s : α), cnt - t = d → t ≤ cnt → P t s →
      (∀ u s, t ≤ u → u < cnt → P u s →
        ∃ s', body (lo + (u - t) * step) s = some s' ∧ P (u + 1) s') →
      ∃ s', forS step lo (lo + (cnt - t) * step) body s = some s' ∧ P cnt s' from
    fun t lo s h0 h1 h2 => H _ t lo s rfl h0 h1 h2
  intro d
  induction d with
  | zero =>
    intro t lo s hd ht hp _
    have : t = cnt := by omega
    subst this
    exact ⟨s, by rw [forS, dif_neg (by simp)], hp⟩
  | succ d ih =>
    intro t lo s hd ht hp hb
    obtain ⟨s1, e1, p1⟩ := hb t s (Nat.le_refl _) (by omega) hp
    rw [Nat.sub_self, Nat.zero_mul, Nat.add_zero] at e1
    have hm : (cnt - t) * step = step + (cnt - (t + 1)) * step := by
      have : cnt - t = (cnt - (t + 1)) + 1 := by omega
      rw [this, Nat.add_mul, Nat.one_mul, Nat.add_comm]
    obtain ⟨s2, e2, p2⟩ := ih (t + 1) (lo + step) s1 (by omega) (by omega) p1 (by
      intro u s hu hlt hP
      obtain ⟨s', e', p'⟩ := hb u s (by omega) hlt hP
      refine ⟨s', ?_, p'⟩
      rw [← e']; congr 1
      have : u - t = (u - (t + 1)) + 1 := by omega
      rw [this, Nat.add_mul, Nat.one_mul]; omega)
    refine ⟨s2, ?_, p2⟩
    rw [forS, dif_pos ⟨by omega, hs⟩, e1]
    rw [hm]
    show forS step (lo + step) (lo + (step + _)) body s1 = _
    rw [← Nat.add_assoc]
    exact e2

/-- Loop rule for `for (i = lo; i < hi; i += step)` with `hi = lo + cnt * step`. -/
theorem forS_rule {α : Type} {step lo hi cnt : Nat} (hs : 0 < step) (hh : hi = lo + cnt * step)
    (body : Nat → α → Option α) (P : Nat → α → Prop) (s : α) (h0 : P 0 s)
    (hb : ∀ u s, u < cnt → P u s → ∃ s', body (lo + u * step) s = some s' ∧ P (u + 1) s') :
    ∃ s', forS step lo hi body s = some s' ∧ P cnt s' := by
  have := forS_inv hs body P cnt 0 lo s (Nat.zero_le _) h0 (by
    intro u s _ hu hP; exact hb u s hu hP)
  rwa [Nat.sub_zero, ← hh] at this

theorem rd_lt (a : Vec w n) {k : Nat} (h : k < n) : rd a k = some (a.at_ k) := by
  rw [rd, dif_pos h, Vec.at_lt a h]

theorem wr_lt (r : Unset w n) {k : Nat} (h : k < n) (x : BitVec w) :
    wr r k x = some (fun i => if i.val = k then some x else r i) := if_pos h

theorem ret_eq {r : Unset w n} {g : Vec w n} (h : ∀ i, r i = some (g i)) : ret r = some g :=
  lanesM_eq_some.2 h

theorem ext_at {a b : Vec w n} (h : ∀ j, j < n → a.at_ j = b.at_ j) : a = b := by
  funext i
  have := h i.val i.isLt
  rwa [Vec.at_fin, Vec.at_fin] at this

/-! ## Algebra of `gather` -/

theorem gather_at {L : Nat} {idx : Nat → Nat} (a b : Vec w n) {i : Nat} (hi : i < n) :
    (gather L idx a b).at_ i =
      if idx (i % L) < L then a.at_ (i / L * L + idx (i % L))
      else if idx (i % L) < 2 * L then b.at_ (i / L * L + (idx (i % L) - L)) else 0 := by
  rw [Vec.at_lt _ hi]; rfl

/-- Lane `j` of block `q`. -/
theorem gather_block {L : Nat} {idx : Nat → Nat} (a b : Vec w n) {q j : Nat} (hj : j < L)
    (hq : q * L + j < n) :
    (gather L idx a b).at_ (q * L + j) =
      if idx j < L then a.at_ (q * L + idx j)
      else if idx j < 2 * L then b.at_ (q * L + (idx j - L)) else 0 := by
  have hL : 0 < L := by omega
  have e1 : (q * L + j) % L = j := by
    rw [Nat.add_comm, Nat.add_mul_mod_self_right, Nat.mod_eq_of_lt hj]
  have e2 : (q * L + j) / L = q := by
    rw [Nat.add_comm, Nat.add_mul_div_right _ _ hL, Nat.div_eq_of_lt hj, Nat.zero_add]
  rw [gather_at _ _ hq, e1, e2]

theorem gather_congr {L : Nat} {f g : Nat → Nat} (hL : 0 < L) (h : ∀ j, j < L → f j = g j)
    (a b : Vec w n) : gather L f a b = gather L g a b := by
  funext i
  unfold gather
  rw [h _ (Nat.mod_lt _ hL)]

/-- `x` is a selection of lanes of `a` and `b`. -/
def IsG (L : Nat) (a b x : Vec w n) (idx : Nat → Nat) : Prop := x = gather L idx a b

/-- Index function of a selection from two selections. -/
def comp (L : Nat) (f g h : Nat → Nat) : Nat → Nat := fun j =>
  if f j < L then g (f j) else if f j < 2 * L then h (f j - L) else 2 * L

theorem IsG.a {L : Nat} (hL : 0 < L) (a b : Vec w n) : IsG L a b a (fun j => j) := by
  funext i
  unfold gather
  have h : i.val % L < L := Nat.mod_lt _ hL
  rw [if_pos h, Nat.div_add_mod', Vec.at_fin]

theorem IsG.b {L : Nat} (hL : 0 < L) (a b : Vec w n) : IsG L a b b (fun j => j + L) := by
  funext i
  unfold gather
  have h : i.val % L < L := Nat.mod_lt _ hL
  dsimp only
  rw [if_neg (by omega), if_pos (by omega), Nat.add_sub_cancel, Nat.div_add_mod', Vec.at_fin]

theorem IsG.zero {L : Nat} (a b : Vec w n) : IsG L a b (Vec.splat 0) (fun _ => 2 * L) := by
  funext i
  unfold gather
  dsimp only
  rw [if_neg (by omega), if_neg (by omega)]; rfl

theorem block_lt {L n i k : Nat} (hn : L ∣ n) (hi : i < n) (hk : k < L) : i / L * L + k < n := by
  obtain ⟨m, rfl⟩ := hn
  have h1 : i / L < m := Nat.div_lt_of_lt_mul hi
  have h2 : i / L * L + L ≤ L * m := by
    have : (i / L + 1) * L ≤ m * L := Nat.mul_le_mul_right _ h1
    rw [Nat.add_mul, Nat.one_mul, Nat.mul_comm m] at this
    exact this
  omega

theorem IsG.gather {L : Nat} (hn : L ∣ n) {a b x y : Vec w n} {f g h : Nat → Nat}
    (hx : IsG L a b x g) (hy : IsG L a b y h) : IsG L a b (gather L f x y) (comp L f g h) := by
  unfold IsG at hx hy ⊢
  funext i
  have key : ∀ (z : Vec w n) (t : Nat → Nat) (k : Nat), z = Sh.gather L t a b → k < L →
      z.at_ (i.val / L * L + k) =
        if t k < L then a.at_ (i.val / L * L + t k)
        else if t k < 2 * L then b.at_ (i.val / L * L + (t k - L)) else 0 := by
    intro z t k hz hk
    rw [hz]
    exact gather_block a b hk (block_lt hn i.isLt hk)
  unfold Sh.gather comp
  dsimp only
  by_cases h1 : f (i.val % L) < L
  · rw [if_pos h1, if_pos h1, key x g _ hx h1]
  · rw [if_neg h1, if_neg h1]
    by_cases h2 : f (i.val % L) < 2 * L
    · rw [if_pos h2, if_pos h2, key y h _ hy (by omega)]
    · rw [if_neg h2, if_neg h2, if_neg (by omega), if_neg (by omega)]

theorem IsG.eq {L : Nat} (hL : 0 < L) {a b x : Vec w n} {f g : Nat → Nat} (hx : IsG L a b x f)
    (h : ∀ j, j < L → f j = g j) : x = Sh.gather L g a b := by
  rw [hx]; exact gather_congr hL h a b

theorem IsG.congr {L : Nat} (hL : 0 < L) {a b x : Vec w n} {f g : Nat → Nat} (hx : IsG L a b x f)
    (h : ∀ j, j < L → f j = g j) : IsG L a b x g := hx.eq hL h

/-- Index function on blocks `m` times as long. -/
def wid (L M : Nat) (f : Nat → Nat) : Nat → Nat := fun j =>
  if f (j % L) < L then j / L * L + f (j % L)
  else if f (j % L) < 2 * L then M + (j / L * L + (f (j % L) - L)) else 2 * M

/-- A selection in blocks of `L` is a selection in blocks of a multiple of `L`. -/
theorem IsG.widen {L m : Nat} (hL : 0 < L) (hm : 0 < m) {a b x : Vec w n} {f : Nat → Nat}
    (hx : IsG L a b x f) : IsG (L * m) a b x (wid L (L * m) f) := by
  unfold IsG at *
  rw [hx]
  funext i
  have hLm : 0 < L * m := Nat.mul_pos hL hm
  have e1 : i.val % (L * m) % L = i.val % L := Nat.mod_mul_right_mod _ _ _
  have e2 : i.val % (L * m) / L = i.val / L % m := Nat.mod_mul_right_div_self _ _ _
  have e3 : i.val / (L * m) * (L * m) + i.val / L % m * L = i.val / L * L := by
    rw [← Nat.div_div_eq_div_mul]
    have := Nat.div_add_mod' (i.val / L) m
    calc i.val / L / m * (L * m) + i.val / L % m * L
        = (i.val / L / m * m + i.val / L % m) * L := by ring
      _ = _ := by rw [this]
  have hlt : i.val / L % m * L + L ≤ L * m := by
    have : i.val / L % m < m := Nat.mod_lt _ hm
    have := Nat.mul_le_mul_right L (Nat.succ_le_of_lt this)
    rw [Nat.mul_comm m L] at this
    have e : (i.val / L % m).succ * L = i.val / L % m * L + L := by
      rw [Nat.succ_mul]
    omega
  unfold Sh.gather wid
  dsimp only
  rw [e1, e2]
  by_cases h1 : f (i.val % L) < L
  · simp only [if_pos h1]
    rw [if_pos (by omega), ← Nat.add_assoc, e3]
  · simp only [if_neg h1]
    by_cases h2 : f (i.val % L) < 2 * L
    · simp only [if_pos h2]
      rw [if_neg (by omega), if_pos (by omega), Nat.add_sub_cancel_left, ← Nat.add_assoc, e3]
    · simp only [if_neg h2]
      rw [if_neg (by omega), if_neg (by omega)]

/-! ## Changing the lane type -/

theorem recast_at {v q m : Nat} (hv : 0 < v) (hq : 0 < q) (hw : w = q * v) (hm : m = n * q)
    (x : Vec w n) (t : Nat) :
    (x.recast v m).at_ t = (x.at_ (t / q)).extractLsb' (t % q * v) v := by
  subst hw hm
  by_cases ht : t < n * q
  · have h1 : t / q < n := Nat.div_lt_of_lt_mul (by rwa [Nat.mul_comm] at ht)
    rw [Vec.at_lt _ ht]
    apply BitVec.eq_of_getLsbD_eq
    intro k hk
    rw [Vec.recast_getLsbD, BitVec.getLsbD_extractLsb']
    have e : t * v + k = (t / q) * (q * v) + (t % q * v + k) := by
      have := Nat.div_add_mod' t q
      calc t * v + k = (t / q * q + t % q) * v + k := by rw [this]
        _ = _ := by ring
    have hlt : t % q * v + k < q * v := by
      have h2 : t % q < q := Nat.mod_lt _ hq
      have : (t % q + 1) * v ≤ q * v := Nat.mul_le_mul_right _ h2
      rw [Nat.add_mul, Nat.one_mul] at this
      omega
    show (decide (k < v) && x.bit (t * v + k)) = _
    rw [e]
    have := Vec.bit_eq x ⟨t / q, h1⟩ hlt
    rw [this, Vec.at_lt x h1]
  · rw [Vec.at_ge _ (by omega), Vec.at_ge]
    · apply BitVec.eq_of_getLsbD_eq
      intro k _
      rw [BitVec.getLsbD_extractLsb']; simp
    · exact (Nat.le_div_iff_mul_le hq).2 (by omega)

/-- Index function on lanes `q` times narrower. -/
def ex (q : Nat) (f : Nat → Nat) : Nat → Nat := fun j => f (j / q) * q + j % q

theorem recast_gather {v q m L : Nat} (hv : 0 < v) (hq : 0 < q) (hL : 0 < L) (hw : w = q * v)
    (hm : m = n * q) (hn : L ∣ n) (f : Nat → Nat) (a b : Vec w n) :
    (gather L f a b).recast v m = gather (L * q) (ex q f) (a.recast v m) (b.recast v m) := by
  apply ext_at
  intro t ht
  have h1 : t / q < n := Nat.div_lt_of_lt_mul (by rw [Nat.mul_comm, ← hm]; exact ht)
  have hLq : 0 < L * q := Nat.mul_pos hL hq
  rw [recast_at hv hq hw hm, gather_at _ _ h1, gather_at _ _ ht]
  have e1 : t % (L * q) / q = t / q % L := by
    rw [Nat.mul_comm, Nat.mod_mul_right_div_self]
  have e2 : t % (L * q) % q = t % q := by rw [Nat.mul_comm]; exact Nat.mod_mul_right_mod _ _ _
  have e3 : t / (L * q) = t / q / L := by rw [Nat.mul_comm, Nat.div_div_eq_div_mul]
  have hr : t % q < q := Nat.mod_lt _ hq
  have d1 : ∀ k, (t / q / L * (L * q) + (k * q + t % q)) / q = t / q / L * L + k := by
    intro k
    have : t / q / L * (L * q) + (k * q + t % q) = t % q + (t / q / L * L + k) * q := by ring
    rw [this, Nat.add_mul_div_right _ _ hq, Nat.div_eq_of_lt hr, Nat.zero_add]
  have d2 : ∀ k, (t / q / L * (L * q) + (k * q + t % q)) % q = t % q := by
    intro k
    have : t / q / L * (L * q) + (k * q + t % q) = t % q + (t / q / L * L + k) * q := by ring
    rw [this, Nat.add_mul_mod_self_right, Nat.mod_mod]
  unfold ex
  rw [e1, e2, e3]
  generalize f (t / q % L) = k
  by_cases h2 : k < L
  · have : k * q + t % q < L * q := by
      have : (k + 1) * q ≤ L * q := Nat.mul_le_mul_right _ h2
      rw [Nat.add_mul, Nat.one_mul] at this; omega
    rw [if_pos h2, if_pos this, recast_at hv hq hw hm, d1, d2]
  · have g2 : ¬ k * q + t % q < L * q := by
      have : L * q ≤ k * q := Nat.mul_le_mul_right _ (by omega)
      omega
    rw [if_neg h2, if_neg g2]
    by_cases h3 : k < 2 * L
    · have : k * q + t % q < 2 * (L * q) := by
        have : (k + 1) * q ≤ 2 * L * q := Nat.mul_le_mul_right _ h3
        rw [Nat.add_mul, Nat.one_mul, Nat.mul_assoc] at this; omega
      have e : k * q + t % q - L * q = (k - L) * q + t % q := by
        rw [Nat.sub_mul]
        have : L * q ≤ k * q := Nat.mul_le_mul_right _ (by omega)
        omega
      rw [if_pos h3, if_pos this, recast_at hv hq hw hm, e, d1, d2]
    · have g3 : ¬ k * q + t % q < 2 * (L * q) := by
        have : 2 * L * q ≤ k * q := Nat.mul_le_mul_right _ (by omega)
        rw [Nat.mul_assoc] at this
        omega
      rw [if_neg h3, if_neg g3]
      apply BitVec.eq_of_getLsbD_eq
      intro j _
      rw [BitVec.getLsbD_extractLsb']; simp

/-- A selection of whole wide lanes made on narrow lanes. -/
theorem gather_recast {v q m L : Nat} (hv : 0 < v) (hq : 0 < q) (hL : 0 < L) (hw : w = q * v)
    (hm : m = n * q) (hn : L ∣ n) (f g : Nat → Nat) (hg : ∀ j, j < L * q → g j = ex q f j)
    (a b : Vec w n) :
    (gather (L * q) g (a.recast v m) (b.recast v m)).recast w n = gather L f a b := by
  rw [gather_congr (Nat.mul_pos hL hq) hg, ← recast_gather hv hq hL hw hm hn]
  apply Vec.recast_recast _ hv
  subst hw hm
  ring

/-! ## Long vectors -/

theorem flat_at {K l : Nat} (x : Fin K → Vec w l) {j : Nat} (hj : j < K * l) :
    Vec.at_ (Arr.flat x : Vec w (K * l)) j =
      (x ⟨j / l, Nat.div_lt_of_lt_mul (by rw [Nat.mul_comm]; exact hj)⟩).at_ (j % l) := by
  have hl : 0 < l := Nat.pos_of_ne_zero fun h => by subst h; simp at hj
  rw [Vec.at_lt _ hj, Vec.at_lt _ (Nat.mod_lt _ hl)]
  rfl

theorem flat_at' {K l : Nat} (x : Fin K → Vec w l) (i : Fin K) {j : Nat} (hj : j < l) :
    Vec.at_ (Arr.flat x : Vec w (K * l)) (i.val * l + j) = (x i).at_ j := by
  have hl : 0 < l := by omega
  have hlt : i.val * l + j < K * l := by
    have : (i.val + 1) * l ≤ K * l := Nat.mul_le_mul_right _ i.isLt
    rw [Nat.add_mul, Nat.one_mul] at this; omega
  rw [flat_at x hlt]
  have e1 : (i.val * l + j) / l = i.val := by
    rw [Nat.add_comm, Nat.add_mul_div_right _ _ hl, Nat.div_eq_of_lt hj, Nat.zero_add]
  have e2 : (i.val * l + j) % l = j := by
    rw [Nat.add_comm, Nat.add_mul_mod_self_right, Nat.mod_eq_of_lt hj]
  simp only [e1, e2]

/-- Selecting in every register of a long vector is selecting in the flat sequence. -/
theorem gather_flat {K l L : Nat} (hL : L ∣ l) (hL0 : 0 < L) (f : Nat → Nat) (x y : Fin K → Vec w l) :
    (Arr.flat (fun i => gather L f (x i) (y i)) : Vec w (K * l)) =
      gather L f (Arr.flat x : Vec w (K * l)) (Arr.flat y : Vec w (K * l)) := by
  apply ext_at
  intro j hj
  have hl : 0 < l := Nat.pos_of_ne_zero fun h => by subst h; simp at hj
  have hjl : j % l < l := Nat.mod_lt _ hl
  have hK : j / l < K := Nat.div_lt_of_lt_mul (by rw [Nat.mul_comm]; exact hj)
  rw [flat_at _ hj, gather_at _ _ hjl, gather_at _ _ hj]
  have e1 : j % l % L = j % L := Nat.mod_mod_of_dvd _ hL
  have e2 : ∀ k, k < L → j / L * L + k = j / l * l + (j % l / L * L + k) := by
    intro k _
    obtain ⟨m, rfl⟩ := hL
    have h1 := Nat.div_add_mod' j (L * m)
    have h2 : j % (L * m) / L = j / L % m := Nat.mod_mul_right_div_self _ _ _
    rw [h2, ← Nat.div_div_eq_div_mul]
    have h3 := Nat.div_add_mod' (j / L) m
    calc j / L * L + k = (j / L / m * m + j / L % m) * L + k := by rw [h3]
      _ = _ := by ring
  rw [e1]
  by_cases h1 : f (j % L) < L
  · rw [if_pos h1, if_pos h1, e2 _ h1]
    rw [flat_at' x ⟨j / l, hK⟩ (block_lt hL hjl h1)]
  · rw [if_neg h1, if_neg h1]
    by_cases h2 : f (j % L) < 2 * L
    · rw [if_pos h2, if_pos h2, e2 _ (by omega : f (j % L) - L < L)]
      rw [flat_at' y ⟨j / l, hK⟩ (block_lt hL hjl (by omega))]
    · rw [if_neg h2, if_neg h2]

end Sh
end Simdpp
