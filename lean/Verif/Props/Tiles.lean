import Verif.Model.Tiles
import Verif.Spec.Gemm
import Verif.Props.Transpose
import Verif.Props.MemPack
import Verif.Props.Kernel

/-!
# C69: transposing matrices in memory
-/

namespace Simdpp
open Spec Sh

variable {w : Nat}

/-! ## Rows in memory -/

theorem pitch_inj {P y x y' x' : Nat} (hx : x < P) (hx' : x' < P) (e : y * P + x = y' * P + x') : y = y' ∧ x = x' := by
  have hP : 0 < P := by omega
  have h1 := congrArg (· / P) e
  have h2 := congrArg (· % P) e
  rw [Nat.mul_comm y, Nat.mul_comm y', Nat.mul_add_div hP, Nat.mul_add_div hP, Nat.div_eq_of_lt hx, Nat.div_eq_of_lt hx'] at h1
  rw [Nat.mul_comm y, Nat.mul_comm y', Nat.mul_add_mod, Nat.mul_add_mod, Nat.mod_eq_of_lt hx, Nat.mod_eq_of_lt hx'] at h2
  exact ⟨by omega, h2⟩

theorem elem_ne {B s t j : Nat} (hj : j < B) (e : s * B + j < t * B + B) (e' : t * B ≤ s * B + j) : s = t := by
  rcases Nat.lt_trichotomy s t with g | g | g
  · have := Nat.mul_le_mul_right B (show s + 1 ≤ t from g)
    rw [Nat.add_mul, Nat.one_mul] at this; omega
  · exact g
  · have := Nat.mul_le_mul_right B (show t + 1 ≤ s from g)
    rw [Nat.add_mul, Nat.one_mul] at this; omega

/-- The memory `m'` differs from `m` only in the matrix at `q`, of `H` rows and `W` columns, `P` elements from row to row, which now holds `f`. -/
structure Mat (m m' : Mem) (q P H W : Nat) (f : Nat → Nat → BitVec w) : Prop where
  ok : m'.ok = m.ok
  val : ∀ y x, y < H → x < W → Holds m'.byte (q + (y * P + x) * (w / 8)) (f y x)
  rest : ∀ a, (∀ y x, y < H → x < W → ¬ (q + (y * P + x) * (w / 8) ≤ a ∧ a < q + (y * P + x) * (w / 8) + w / 8)) → m'.byte a = m.byte a

section
variable {c : Cfg} (h : c.Ok) {k : Kind}
include h

theorem Tile.klen (T : Tile) : c.KLen k T.w T.m := by
  cases T <;> cases k
  · exact Or.inl ⟨.r128, rfl, rfl⟩
  · exact Or.inl ⟨.r128, rfl, rfl⟩
  · exact Or.inl ⟨.r128, rfl, rfl⟩
  · exact Or.inl ⟨.r128, rfl, rfl⟩

omit h in
theorem Tile.okW (T : Tile) : k.okW T.w := by
  cases T
  · exact okK64 k
  · exact okK32 k

theorem Tile.reg (T : Tile) : (c.regK k T.w T.m).bytes = 16 := by
  obtain ⟨-, K, hK, e⟩ := KLen.regs h (T.okW (k := k)) (T.klen h (k := k))
  revert e
  generalize c.regK k T.w T.m = r
  intro e
  cases T <;> cases r
  all_goals first
    | rfl
    | (exfalso; change 2 = K * 4 at e; omega)
    | (exfalso; change 2 = K * 8 at e; omega)
    | (exfalso; change 4 = K * 8 at e; omega)
    | (exfalso; change 4 = K * 16 at e; omega)

omit h in
theorem Tile.row (T : Tile) : T.m * (T.w / 8) = 16 ∧ 0 < T.m ∧ 0 < T.w / 8 := by cases T <;> decide

omit h in
theorem al16 (T : Tile) {p P : Nat} (hp : p % 16 = 0) (hP : T.m ∣ P) (y j : Nat) : (p + (y * P + j * T.m) * (T.w / 8)) % 16 = 0 := by
  obtain ⟨r1, -, -⟩ := T.row
  obtain ⟨z, rfl⟩ := hP
  have e : p + (y * (T.m * z) + j * T.m) * (T.w / 8) = p + (y * z + j) * (T.m * (T.w / 8)) := by ring
  rw [e, r1]; omega

theorem Tile.run_eq (T : Tile) (a : Fin T.m → Vec T.w T.m) : T.run c k a = some fun i l => a l i := by
  cases T
  · obtain ⟨res, e, p⟩ := C22_transpose2 h (okK64 k) (by decide) (r := .r128) (by cases k <;> rfl) (K := 1) (fun i _ => (a i : Vec 64 2))
    show Option.map _ (transpose2 (w := 64) c k .r128 _) = _
    rw [e]
    refine congrArg some (funext fun i => funext fun l => ?_)
    have q := p i l 0 (by decide)
    have hl := l.isLt
    have hi := i.isLt
    rw [Nat.mul_zero, Nat.zero_add, Nat.zero_add, Vec.at_lt _ (by show _ < 1 * 2; change _ < 2 at hl; omega), Vec.at_lt _ (by show _ < 1 * 2; change _ < 2 at hi; omega)] at q
    have z : ∀ (v : Fin 1 → Vec 64 2) (t : Fin 2) (ht : t.val < 1 * 2), (Arr.flat v : Vec 64 (1 * 2)) ⟨t.val, ht⟩ = v 0 t := by
      intro v t ht
      refine (Vec.at_lt (Arr.flat v : Vec 64 (1 * 2)) ht).symm.trans ((flat_at v ht).trans ?_)
      have := t.isLt
      have e1 : t.val / 2 = 0 := by omega
      have e2 : t.val % 2 = t.val := by omega
      simp only [e1, e2, Vec.at_fin]; rfl
    exact (z _ _ _).symm.trans (q.trans (z _ _ _))
  · obtain ⟨res, e, p⟩ := C22_transpose4 h (okK32 k) (by decide) (r := .r128) (by cases k <;> rfl) (K := 1) (fun i _ => (a i : Vec 32 4))
    show Option.map _ (transpose4 (w := 32) c k .r128 _) = _
    rw [e]
    refine congrArg some (funext fun i => funext fun l => ?_)
    have q := p i l 0 (by decide)
    have hl := l.isLt
    have hi := i.isLt
    rw [Nat.mul_zero, Nat.zero_add, Nat.zero_add, Vec.at_lt _ (by show _ < 1 * 4; change _ < 4 at hl; omega), Vec.at_lt _ (by show _ < 1 * 4; change _ < 4 at hi; omega)] at q
    have z : ∀ (v : Fin 1 → Vec 32 4) (t : Fin 4) (ht : t.val < 1 * 4), (Arr.flat v : Vec 32 (1 * 4)) ⟨t.val, ht⟩ = v 0 t := by
      intro v t ht
      refine (Vec.at_lt (Arr.flat v : Vec 32 (1 * 4)) ht).symm.trans ((flat_at v ht).trans ?_)
      have := t.isLt
      have e1 : t.val / 4 = 0 := by omega
      have e2 : t.val % 4 = t.val := by omega
      simp only [e1, e2, Vec.at_fin]; rfl
    exact (z _ _ _).symm.trans (q.trans (z _ _ _))

/-- What a tile load reads from a matrix: the elements `(y0 + t, x0 + l)`. -/
theorem loadTile_eq (T : Tile) {m : Mem} {p P H W : Nat} {f : Nat → Nat → BitVec T.w} (hp : p % 16 = 0) (hP : T.m ∣ P)
    (hv : ∀ y x, y < H → x < W → Holds m.byte (p + (y * P + x) * (T.w / 8)) (f y x)) (hb : ∀ y, y < H → m.Block (p + y * P * (T.w / 8)) (W * (T.w / 8)))
    {i j : Nat} (hi : (i + 1) * T.m ≤ H) (hj : (j + 1) * T.m ≤ W) :
    loadTile c k T P (T.at_ p P i j) m = some fun t l => f (i * T.m + t.val) (j * T.m + l.val) := by
  unfold loadTile Tile.at_
  obtain ⟨r1, r2, r3⟩ := T.row
  refine famM_eq_some fun t => ?_
  have ht := t.isLt
  rw [Nat.add_mul, Nat.one_mul] at hi hj
  have e1 : p + (i * T.m * P + j * T.m) * (T.w / 8) + t.val * P * (T.w / 8) = p + ((i * T.m + t.val) * P + j * T.m) * (T.w / 8) := by ring
  have l1 := Nat.mul_le_mul_right (T.w / 8) hj
  rw [e1, load_eq h T.okW (T.klen h) (by rw [T.reg h]; exact al16 T hp hP _ _) (fun a g1 g2 => hb (i * T.m + t.val) (by omega) a ?_ ?_)]
  · refine congrArg some (Mem.get_eq (T.okW (k := k)).isW fun l => ?_)
    have hl := l.isLt
    have := hv (i * T.m + t.val) (j * T.m + l.val) (by omega) (by omega)
    rwa [show p + ((i * T.m + t.val) * P + (j * T.m + l.val)) * (T.w / 8) = p + ((i * T.m + t.val) * P + j * T.m) * (T.w / 8) + l.val * (T.w / 8) by ring] at this
  · rw [Nat.add_mul _ (j * T.m)] at g1; omega
  · rw [Nat.add_mul _ (j * T.m)] at g2; rw [Nat.add_mul (j * T.m)] at l1; omega

/-- A row vector written at `(y0, x0)`. -/
theorem Mat.storeV {N : Nat} (okW : k.okW w) (hN : c.KLen k w N) {m m' : Mem} {q P H W : Nat} {f : Nat → Nat → BitVec w} (D : Mat m m' q P H W f) (hW : W ≤ P)
    (hb : ∀ y, y < H → m.Block (q + y * P * (w / 8)) (W * (w / 8))) {y0 x0 : Nat} (hy : y0 < H) (hx : x0 + N ≤ W)
    (hal : (q + (y0 * P + x0) * (w / 8)) % (c.regK k w N).bytes = 0) (v : Vec w N) :
    ∃ m'', Simdpp.store c k m' (q + (y0 * P + x0) * (w / 8)) v = some m'' ∧
      Mat m m'' q P H W fun y x => if y = y0 ∧ x0 ≤ x ∧ x < x0 + N then v.at_ (x - x0) else f y x := by
  have l1 := Nat.mul_le_mul_right (w / 8) hx
  have ha : m'.Block (q + (y0 * P + x0) * (w / 8)) (N * (w / 8)) := fun a g1 g2 => by
    rw [D.ok]
    rw [Nat.add_mul _ x0] at g1 g2
    rw [Nat.add_mul x0] at l1
    exact hb y0 hy a (by omega) (by omega)
  obtain ⟨m'', e, s1, s2, s3⟩ := C26_store h okW hN m' hal ha v
  refine ⟨m'', e, s1.trans D.ok, fun y x gy gx => ?_, fun a ga => ?_⟩
  · by_cases g : y = y0 ∧ x0 ≤ x ∧ x < x0 + N
    · rw [if_pos g]
      obtain ⟨rfl, g1, g2⟩ := g
      have := s2 ⟨x - x0, by omega⟩ trivial
      rw [Vec.at_lt v (show x - x0 < N by omega)]
      rw [show q + (y * P + x) * (w / 8) = q + (y * P + x0) * (w / 8) + (x - x0) * (w / 8) by
        rw [Nat.add_assoc, ← Nat.add_mul, Nat.add_assoc, Nat.add_sub_cancel' g1]]
      exact this
    · rw [if_neg g]
      intro b hb'
      rw [← D.val y x gy gx b hb']
      refine s3 _ fun l _ hl => g ?_
      have hl' := l.isLt
      obtain ⟨i1, i2⟩ := hl
      have e1 : (q + (y0 * P + x0) * (w / 8)) + l.val * (w / 8) = q + (y0 * P + (x0 + l.val)) * (w / 8) := by ring
      rw [Nat.add_mul l.val, Nat.one_mul, ← Nat.add_assoc] at i2
      rw [e1] at i1 i2
      have e2 := elem_ne (B := w / 8) (s := y * P + x) (t := y0 * P + (x0 + l.val)) hb' (by omega) (by omega)
      obtain ⟨e3, e4⟩ := pitch_inj (by omega) (by omega) e2
      exact ⟨e3, by omega, by omega⟩
  · refine (s3 a fun l _ hl => ?_).trans (D.rest a ga)
    have hl' := l.isLt
    obtain ⟨i1, i2⟩ := hl
    refine ga y0 (x0 + l.val) hy (by omega) ?_
    have e1 : (q + (y0 * P + x0) * (w / 8)) + l.val * (w / 8) = q + (y0 * P + (x0 + l.val)) * (w / 8) := by ring
    rw [Nat.add_mul l.val, Nat.one_mul, ← Nat.add_assoc] at i2
    rw [e1] at i1 i2
    exact ⟨i1, i2⟩

/-- A matrix with the row `v` written at `(y0, x0)`. -/
theorem Mat.store (T : Tile) {m m' : Mem} {q P H W : Nat} {f : Nat → Nat → BitVec T.w} (D : Mat m m' q P H W f) (hq : q % 16 = 0) (hP : T.m ∣ P) (hW : W ≤ P)
    (hb : ∀ y, y < H → m.Block (q + y * P * (T.w / 8)) (W * (T.w / 8))) {y0 j : Nat} (hy : y0 < H) (hj : (j + 1) * T.m ≤ W) (v : Vec T.w T.m) :
    ∃ m'', Simdpp.store c k m' (q + (y0 * P + j * T.m) * (T.w / 8)) v = some m'' ∧
      Mat m m'' q P H W fun y x => if y = y0 ∧ j * T.m ≤ x ∧ x < j * T.m + T.m then v.at_ (x - j * T.m) else f y x :=
  Mat.storeV h (T.okW (k := k)) (T.klen h) D hW hb hy (by rw [Nat.add_mul, Nat.one_mul] at hj; exact hj) (by rw [T.reg h]; exact al16 T hq hP y0 j) v

/-- A tile written. -/
theorem Mat.storeTile (T : Tile) {m m' : Mem} {q P H W : Nat} {f : Nat → Nat → BitVec T.w} (D : Mat m m' q P H W f) (hq : q % 16 = 0) (hP : T.m ∣ P) (hW : W ≤ P)
    (hb : ∀ y, y < H → m.Block (q + y * P * (T.w / 8)) (W * (T.w / 8))) {i j : Nat} (hi : (i + 1) * T.m ≤ H) (hj : (j + 1) * T.m ≤ W)
    (v : Fin T.m → Vec T.w T.m) {g : Nat → Nat → BitVec T.w}
    (hg : ∀ y x, y < H → x < W → g y x = if hy : i * T.m ≤ y ∧ y < i * T.m + T.m ∧ j * T.m ≤ x ∧ x < j * T.m + T.m then
      v ⟨y - i * T.m, by omega⟩ ⟨x - j * T.m, by omega⟩ else f y x) :
    ∃ m'', Simdpp.storeTile c k T P (T.at_ q P i j) v m' = some m'' ∧ Mat m m'' q P H W g := by
  rw [Nat.add_mul, Nat.one_mul] at hi
  obtain ⟨m'', e, E⟩ := loopM_inv (body := fun t m => if h : t < T.m then Simdpp.store c k m (T.at_ q P i j + t * P * (T.w / 8)) (v ⟨t, h⟩) else none)
    (lo := 0) (m := T.m) (s := m')
    (fun t s => Mat m s q P H W fun y x => if y < i * T.m + t then g y x else f y x)
    ⟨D.ok, fun y x gy gx => by
      split_ifs with z
      · rw [hg y x gy gx, dif_neg (by omega)]; exact D.val y x gy gx
      · exact D.val y x gy gx, D.rest⟩ (fun t ht s S => by
      rw [Nat.zero_add, dif_pos ht]
      obtain ⟨s', e1, S'⟩ := Mat.store h T S hq hP hW hb (y0 := i * T.m + t) (j := j) (by omega) hj (v ⟨t, ht⟩) (k := k)
      refine ⟨s', ?_, S'.ok, fun y x gy gx => ?_, S'.rest⟩
      · refine Eq.trans ?_ e1
        congr 1
        unfold Tile.at_
        ring
      · have := S'.val y x gy gx
        rw [Nat.add_mul, Nat.one_mul] at hj
        have hgy := hg y x gy gx
        have key : (if y < i * T.m + (t + 1) then g y x else f y x) =
            if y = i * T.m + t ∧ j * T.m ≤ x ∧ x < j * T.m + T.m then (v ⟨t, ht⟩).at_ (x - j * T.m) else if y < i * T.m + t then g y x else f y x := by
          rcases Nat.lt_trichotomy y (i * T.m + t) with z | z | z
          · rw [if_pos (by omega), if_neg (by omega), if_pos z]
          · rw [if_pos (by omega), if_neg (c := y < i * T.m + t) (by omega), hgy]
            by_cases zx : j * T.m ≤ x ∧ x < j * T.m + T.m
            · rw [dif_pos (by omega), if_pos (by omega), Vec.at_lt _ (by omega)]
              have et : (⟨y - i * T.m, by omega⟩ : Fin T.m) = ⟨t, ht⟩ := Fin.ext (by show y - i * T.m = t; omega)
              rw [et]
            · rw [dif_neg (by omega), if_neg (by omega)]
          · rw [if_neg (by omega), if_neg (by omega), if_neg (by omega)]
        rw [key]
        exact this)
  refine ⟨m'', e, E.ok, fun y x gy gx => ?_, E.rest⟩
  have := E.val y x gy gx
  rcases Nat.lt_or_ge y (i * T.m + T.m) with z | z
  · rwa [if_pos z] at this
  · rw [if_neg (by omega)] at this
    rw [hg y x gy gx, dif_neg (by omega)]
    exact this

/-! ## C69 -/

/-- A matrix in memory: `H` rows of `W` elements of `w` bits, row `y` at `p + y * P * (w / 8)`, with element `(y, x)` equal to `A y x`; all of it may be
accessed. -/
structure IsMatrix (m : Mem) (p P H W : Nat) (A : Nat → Nat → BitVec w) : Prop where
  val : ∀ y x, y < H → x < W → Holds m.byte (p + (y * P + x) * (w / 8)) (A y x)
  acc : ∀ y, y < H → m.Block (p + y * P * (w / 8)) (W * (w / 8))

omit h in
theorem notIn_rest {q P H W a : Nat} (g : ¬ InMatrix w q P H W a) : ∀ y x, y < H → x < W →
    ¬ (q + (y * P + x) * (w / 8) ≤ a ∧ a < q + (y * P + x) * (w / 8) + w / 8) := fun y x hy hx z =>
  g ⟨y, x, hy, hx, by rw [Nat.add_mul] at z; omega, by rw [Nat.add_mul] at z; rw [Nat.add_mul x, Nat.one_mul]; omega⟩

omit h in
theorem mat_refl (hw : IsW w) (m : Mem) (q P H W : Nat) : ∃ f : Nat → Nat → BitVec w, Mat m m q P H W f :=
  ⟨fun y x => (m.get w 1 (q + (y * P + x) * (w / 8))) 0, rfl, fun y x _ _ => by
    have := Mem.get_holds (n := 1) hw m (q + (y * P + x) * (w / 8)) 0
    rwa [Fin.val_zero, Nat.zero_mul, Nat.add_zero] at this, fun _ _ => rfl⟩

/-- **C69.** Transposing a matrix of `R` by `C` tiles into another place, for every number of tiles, every distance between rows and every build: element
`(x, y)` of the result is element `(y, x)` of the source; no other byte changes. -/
theorem C69_transpose (T : Tile) {p pp q qp R C : Nat} {m : Mem} {A : Nat → Nat → BitVec T.w}
    (hA : IsMatrix m p pp (R * T.m) (C * T.m) A) (hB : ∀ x, x < C * T.m → m.Block (q + x * qp * (T.w / 8)) (R * T.m * (T.w / 8)))
    (hp : p % 16 = 0) (hq : q % 16 = 0) (hpp : T.m ∣ pp) (hqp : T.m ∣ qp) (hw : R * T.m ≤ qp)
    (hd : ∀ a, InMatrix T.w p pp (R * T.m) (C * T.m) a → ¬ InMatrix T.w q qp (C * T.m) (R * T.m) a) :
    ∃ m', transposeTo c k T p pp q qp R C m = some m' ∧ m'.ok = m.ok ∧
      IsMatrix m' q qp (C * T.m) (R * T.m) (fun x y => A y x) ∧
      ∀ a, ¬ InMatrix T.w q qp (C * T.m) (R * T.m) a → m'.byte a = m.byte a := by
  obtain ⟨r1, r2, r3⟩ := T.row
  obtain ⟨B, B0⟩ := mat_refl (T.okW (k := k)).isW m q qp (C * T.m) (R * T.m)
  have src : ∀ {s : Mem} {f}, Mat m s q qp (C * T.m) (R * T.m) f → IsMatrix s p pp (R * T.m) (C * T.m) A := fun {s f} S =>
    ⟨fun y x hy hx b hb => by
      rw [S.rest _ (notIn_rest (hd _ ⟨y, x, hy, hx, ?_, ?_⟩))]
      · exact hA.val y x hy hx b hb
      · rw [Nat.add_mul]; omega
      · rw [Nat.add_mul, Nat.add_mul x, Nat.one_mul]; omega,
    fun y hy a g1 g2 => by rw [S.ok]; exact hA.acc y hy a g1 g2⟩
  obtain ⟨m', e, D⟩ := loopM_inv (body := fun i m => loopM (fun j m => do
      let a ← loadTile c k T pp (T.at_ p pp i j) m
      let a ← T.run c k a
      Simdpp.storeTile c k T qp (T.at_ q qp j i) a m) 0 C m) (lo := 0) (m := R) (s := m)
    (fun i s => Mat m s q qp (C * T.m) (R * T.m) fun x y => if y < i * T.m then A y x else B x y)
    ⟨rfl, fun x y hx hy => by rw [if_neg (by omega)]; exact B0.val x y hx hy, fun _ _ => rfl⟩ (fun i hi s S => by
      have li := Nat.mul_le_mul_right T.m (show i + 1 ≤ R from hi)
      rw [Nat.zero_add]
      obtain ⟨s', e', S'⟩ := loopM_inv (body := fun j m => do
          let a ← loadTile c k T pp (T.at_ p pp i j) m
          let a ← T.run c k a
          Simdpp.storeTile c k T qp (T.at_ q qp j i) a m) (lo := 0) (m := C) (s := s)
        (fun j t => Mat m t q qp (C * T.m) (R * T.m) fun x y => if y < i * T.m ∨ y < (i + 1) * T.m ∧ x < j * T.m then A y x else B x y)
        ⟨S.ok, fun x y hx hy => by
          have := S.val x y hx hy
          by_cases g : y < i * T.m
          · rw [if_pos (Or.inl g)]; rwa [if_pos g] at this
          · rw [if_neg (by omega)]; rwa [if_neg g] at this, S.rest⟩ (fun j hj t U => by
          have lj := Nat.mul_le_mul_right T.m (show j + 1 ≤ C from hj)
          rw [Nat.zero_add]
          have sr := src U
          have e1 := loadTile_eq h (k := k) T hp hpp sr.val sr.acc li lj
          obtain ⟨t', e2, U'⟩ := Mat.storeTile h (k := k) T U hq hqp hw hB (i := j) (j := i) lj li
            (fun t l => A (i * T.m + l.val) (j * T.m + t.val))
            (g := fun x y => if y < i * T.m ∨ y < (i + 1) * T.m ∧ x < (j + 1) * T.m then A y x else B x y) (fun x y hx hy => by
              rw [Nat.add_mul, Nat.add_mul, Nat.one_mul]
              by_cases z : j * T.m ≤ x ∧ x < j * T.m + T.m ∧ i * T.m ≤ y ∧ y < i * T.m + T.m
              · rw [if_pos (by omega), dif_pos z]
                dsimp only
                rw [Nat.add_sub_cancel' z.1, Nat.add_sub_cancel' z.2.2.1]
              · rw [dif_neg z]
                by_cases z1 : y < i * T.m
                · rw [if_pos (Or.inl z1), if_pos (Or.inl z1)]
                · by_cases z2 : y < i * T.m + T.m ∧ x < j * T.m
                  · rw [if_pos (by omega), if_pos (by omega)]
                  · rw [if_neg (by omega), if_neg (by omega)])
          exact ⟨t', (bind_of e1 _).trans ((bind_of (T.run_eq h (k := k) _) _).trans e2), U'⟩)
      refine ⟨s', e', S'.ok, fun x y hx hy => ?_, S'.rest⟩
      have := S'.val x y hx hy
      rw [Nat.add_mul i, Nat.one_mul] at this ⊢
      by_cases g : y < i * T.m + T.m
      · rw [if_pos g]; rwa [if_pos (by omega)] at this
      · rw [if_neg g]; rwa [if_neg (by omega)] at this)
  refine ⟨m', e, D.ok, ⟨fun x y hx hy => ?_, fun y hy a g1 g2 => by rw [D.ok]; exact hB y hy a g1 g2⟩, fun a ga => D.rest a (notIn_rest ga)⟩
  have := D.val x y hx hy
  rwa [if_pos hy] at this

/-- **C69.** Transposing a square matrix of `R` by `R` tiles in its place. -/
theorem C69_transpose_in_place (T : Tile) {p pp R : Nat} {m : Mem} {A : Nat → Nat → BitVec T.w} (hA : IsMatrix m p pp (R * T.m) (R * T.m) A)
    (hp : p % 16 = 0) (hpp : T.m ∣ pp) (hw : R * T.m ≤ pp) :
    ∃ m', transposeIn c k T p pp R m = some m' ∧ m'.ok = m.ok ∧ IsMatrix m' p pp (R * T.m) (R * T.m) (fun y x => A x y) ∧
      ∀ a, ¬ InMatrix T.w p pp (R * T.m) (R * T.m) a → m'.byte a = m.byte a := by
  obtain ⟨r1, r2, r3⟩ := T.row
  have acc : ∀ {s : Mem} {f : Nat → Nat → BitVec T.w}, Mat m s p pp (R * T.m) (R * T.m) f → ∀ y, y < R * T.m → s.Block (p + y * pp * (T.w / 8)) (R * T.m * (T.w / 8)) :=
    fun S y hy a g1 g2 => by rw [S.ok]; exact hA.acc y hy a g1 g2
  obtain ⟨m', e, D⟩ := loopM_inv (body := fun i m => loopM (fun j m => do
      let a ← loadTile c k T pp (T.at_ p pp i j) m
      let b ← loadTile c k T pp (T.at_ p pp j i) m
      let a ← T.run c k a
      let b ← T.run c k b
      let m ← Simdpp.storeTile c k T pp (T.at_ p pp j i) a m
      Simdpp.storeTile c k T pp (T.at_ p pp i j) b m) 0 (i + 1) m) (lo := 0) (m := R) (s := m)
    (fun i s => Mat m s p pp (R * T.m) (R * T.m) fun y x => if y < i * T.m ∧ x < i * T.m then A x y else A y x)
    ⟨rfl, fun x y hx hy => by rw [if_neg (by omega)]; exact hA.val x y hx hy, fun _ _ => rfl⟩ (fun i hi s S => by
      have li := Nat.mul_le_mul_right T.m (show i + 1 ≤ R from hi)
      rw [Nat.zero_add]
      obtain ⟨s', e', S'⟩ := loopM_inv (body := fun j m => do
          let a ← loadTile c k T pp (T.at_ p pp i j) m
          let b ← loadTile c k T pp (T.at_ p pp j i) m
          let a ← T.run c k a
          let b ← T.run c k b
          let m ← Simdpp.storeTile c k T pp (T.at_ p pp j i) a m
          Simdpp.storeTile c k T pp (T.at_ p pp i j) b m) (lo := 0) (m := i + 1) (s := s)
        (fun j t => Mat m t p pp (R * T.m) (R * T.m) fun y x => if y < i * T.m ∧ x < i * T.m ∨ y < (i + 1) * T.m ∧ x < j * T.m ∨ y < j * T.m ∧ x < (i + 1) * T.m then
          A x y else A y x)
        ⟨S.ok, fun y x hy hx => by
          have := S.val y x hy hx
          by_cases g : y < i * T.m ∧ x < i * T.m
          · rw [if_pos (Or.inl g)]; rwa [if_pos g] at this
          · rw [if_neg (by omega)]; rwa [if_neg g] at this, S.rest⟩ (fun j hj t U => by
          have lj := Nat.mul_le_mul_right T.m (show j + 1 ≤ R by omega)
          have lij := Nat.mul_le_mul_right T.m (show j ≤ i by omega)
          have s1 : (i + 1) * T.m = i * T.m + T.m := by rw [Nat.add_mul, Nat.one_mul]
          have s2 : (j + 1) * T.m = j * T.m + T.m := by rw [Nat.add_mul, Nat.one_mul]
          rw [Nat.zero_add]
          have e1 : loadTile c k T pp (T.at_ p pp i j) t = some fun u l => A (i * T.m + u.val) (j * T.m + l.val) := by
            rw [loadTile_eq h (k := k) T hp hpp U.val (acc U) li lj]
            refine congrArg some (funext fun u => funext fun l => ?_)
            have := u.isLt; have := l.isLt
            rw [if_neg (by omega)]
          have e2 : loadTile c k T pp (T.at_ p pp j i) t = some fun u l => A (j * T.m + u.val) (i * T.m + l.val) := by
            rw [loadTile_eq h (k := k) T hp hpp U.val (acc U) lj li]
            refine congrArg some (funext fun u => funext fun l => ?_)
            have := u.isLt; have := l.isLt
            rw [if_neg (by omega)]
          obtain ⟨t1, e3, U1⟩ := Mat.storeTile h (k := k) T U hp hpp hw hA.acc (i := j) (j := i) lj li
            (fun u l => A (i * T.m + l.val) (j * T.m + u.val)) (fun _ _ _ _ => rfl)
          obtain ⟨t2, e4, U2⟩ := Mat.storeTile h (k := k) T U1 hp hpp hw hA.acc (i := i) (j := j) li lj
            (fun u l => A (j * T.m + l.val) (i * T.m + u.val))
            (g := fun y x => if y < i * T.m ∧ x < i * T.m ∨ y < (i + 1) * T.m ∧ x < (j + 1) * T.m ∨ y < (j + 1) * T.m ∧ x < (i + 1) * T.m then A x y else A y x)
            (fun y x hy hx => by
              by_cases z : i * T.m ≤ y ∧ y < i * T.m + T.m ∧ j * T.m ≤ x ∧ x < j * T.m + T.m
              · rw [if_pos (by omega), dif_pos z]
                dsimp only
                rw [Nat.add_sub_cancel' z.1, Nat.add_sub_cancel' z.2.2.1]
              · rw [dif_neg z]
                by_cases z' : j * T.m ≤ y ∧ y < j * T.m + T.m ∧ i * T.m ≤ x ∧ x < i * T.m + T.m
                · rw [if_pos (by omega), dif_pos z']
                  dsimp only
                  rw [Nat.add_sub_cancel' z'.1, Nat.add_sub_cancel' z'.2.2.1]
                · rw [dif_neg z']
                  refine if_congr ?_ rfl rfl
                  omega)
          exact ⟨t2, (bind_of e1 _).trans ((bind_of e2 _).trans ((bind_of (T.run_eq h (k := k) _) _).trans ((bind_of (T.run_eq h (k := k) _) _).trans
            ((bind_of e3 _).trans e4)))), U2⟩)
      refine ⟨s', e', S'.ok, fun y x hy hx => ?_, S'.rest⟩
      have := S'.val y x hy hx
      have e5 : (y < i * T.m ∧ x < i * T.m ∨ y < (i + 1) * T.m ∧ x < (i + 1) * T.m ∨ y < (i + 1) * T.m ∧ x < (i + 1) * T.m) ↔ y < (i + 1) * T.m ∧ x < (i + 1) * T.m := by
        rw [Nat.add_mul, Nat.one_mul]; omega
      rwa [if_congr e5 rfl rfl] at this)
  refine ⟨m', e, D.ok, ⟨fun y x hy hx => ?_, fun y hy a g1 g2 => by rw [D.ok]; exact hA.acc y hy a g1 g2⟩, fun a ga => D.rest a (notIn_rest ga)⟩
  have := D.val y x hy hx
  rwa [if_pos ⟨hy, hx⟩] at this

/-- **C69.** Transposing in place twice gives back the memory. -/
theorem C69_transpose_twice (T : Tile) {p pp R : Nat} {m : Mem} {A : Nat → Nat → BitVec T.w} (hA : IsMatrix m p pp (R * T.m) (R * T.m) A)
    (hp : p % 16 = 0) (hpp : T.m ∣ pp) (hw : R * T.m ≤ pp) : (transposeIn c k T p pp R m).bind (transposeIn c k T p pp R) = some m := by
  obtain ⟨m1, e1, o1, h1, r1⟩ := C69_transpose_in_place h (k := k) T hA hp hpp hw
  obtain ⟨m2, e2, o2, h2, r2⟩ := C69_transpose_in_place h (k := k) T h1 hp hpp hw
  rw [e1, Option.bind_some, e2]
  refine congrArg some (Mem.ext' (o2.trans o1) fun a => ?_)
  by_cases g : InMatrix T.w p pp (R * T.m) (R * T.m) a
  · obtain ⟨y, x, hy, hx, g1, g2⟩ := g
    have e3 : p + y * pp * (T.w / 8) + x * (T.w / 8) = p + (y * pp + x) * (T.w / 8) := by ring
    rw [Nat.add_mul x, Nat.one_mul, ← Nat.add_assoc] at g2
    rw [e3] at g1 g2
    have v1 := h2.val y x hy hx (a - (p + (y * pp + x) * (T.w / 8))) (by omega)
    have v2 := hA.val y x hy hx (a - (p + (y * pp + x) * (T.w / 8))) (by omega)
    rw [Nat.add_sub_cancel' g1] at v1 v2
    exact v1.trans v2.symm
  · exact (r2 a g).trans (r1 a g)

end

/-! ## Concrete cases -/

/-- A matrix of 8 rows of 12 `float` elements, 16 elements from row to row, from address 1024 to address 4096 (8 elements from row to row). -/
example (m : Mem) (hm : ∀ a, m.ok a = true) :
    ∃ m', transposeTo Cfg.sse2Only .flt .t4 1024 16 4096 8 2 3 m = some m' ∧
      ∀ y x, y < 8 → x < 12 → (m'.get 32 1 (4096 + (x * 8 + y) * 4)) 0 = (m.get 32 1 (1024 + (y * 16 + x) * 4)) 0 := by
  have hH : ∀ (m : Mem) a, Holds m.byte a ((m.get 32 1 a) 0) := fun m a => by
    have := Mem.get_holds (n := 1) iw32 m a 0
    rwa [Fin.val_zero, Nat.zero_mul, Nat.add_zero] at this
  have hA : IsMatrix (w := Tile.t4.w) m 1024 16 (2 * Tile.t4.m) (3 * Tile.t4.m) (fun y x => (m.get 32 1 (1024 + (y * 16 + x) * 4)) 0) :=
    ⟨fun _ _ _ _ => hH m _, fun _ _ _ _ _ => hm _⟩
  obtain ⟨m', e, -, D, -⟩ := C69_transpose Cfg.sse2Only_ok (k := .flt) .t4 (q := 4096) (qp := 8) hA (fun _ _ _ _ _ => hm _) (by decide) (by decide) (by decide) (by decide)
    (by decide) (fun a ⟨y, x, hy, hx, _, g2⟩ ⟨y', x', _, _, g1', _⟩ => by
      change y < 8 at hy
      change x < 12 at hx
      change a < 1024 + y * 16 * 4 + (x + 1) * 4 at g2
      change 4096 + y' * 8 * 4 + x' * 4 ≤ a at g1'
      omega)
  exact ⟨m', e, fun y x hy hx => Mem.holds_inj iw32 (hH m' _) (D.val x y hx hy)⟩

/-- A square matrix of 4 by 4 `double` elements at address 256, in place, on AVX. -/
example (m : Mem) (hm : ∀ a, m.ok a = true) :
    (transposeIn Cfg.avxOnly .flt .t2 256 4 2 m).bind (transposeIn Cfg.avxOnly .flt .t2 256 4 2) = some m :=
  C69_transpose_twice Cfg.avxOnly_ok .t2 (A := fun y x => (m.get 64 1 (256 + (y * 4 + x) * 8)) 0)
    ⟨fun y x _ _ => by
      have := Mem.get_holds (n := 1) iw64 m (256 + (y * 4 + x) * 8) 0
      rwa [Fin.val_zero, Nat.zero_mul, Nat.add_zero] at this, fun _ _ _ _ _ => hm _⟩ (by decide) (by decide) (by decide)

end Simdpp
