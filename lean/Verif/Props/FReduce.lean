import Verif.Props.FReduceLemmas
import Verif.Props.FMul
import Verif.Props.FRoundLane
import Mathlib.Data.List.OfFn

/-!
# C48: floating-point reductions
-/

namespace Simdpp
open Spec Spec.Flt Spec.Fp Sh

variable {w n N : Nat}

attribute [local irreducible] Fp.add Fp.mul Fp.fma

/-! ### The kernels -/

/-- What `mul` may deliver. -/
def Spec.Fp.IsProd (x y r : BitVec w) : Prop := SameUpToZero r (Fp.mul x y)

/-- What `min`/`max` may deliver. -/
def Spec.Fp.IsExt (isMax : Bool) (x y r : BitVec w) : Prop := ∃ g, (if isMax then IsMax g else IsMin g) ∧ r = g x y

section
variable {c : Cfg} (h : c.Ok)
include h

theorem lane_fadd {r : Reg} (hr : c.hasVec .flt w r = true) (n : Nat) : LaneBy (fun x y z => z = Fp.add x y) (i_fadd c r (n := n) (w := w)) :=
  fun a b => ⟨_, i_fadd_eq h hr a b, fun _ => rfl⟩

theorem lane_fmul (hw : w = 32 ∨ w = 64) {r : Reg} (hr : c.hasVec .flt w r = true) (n : Nat) : LaneBy IsProd (i_fmul c r (n := n) (w := w)) :=
  fun a b => i_fmul_ex h hr hw a b

theorem lane_fmm (hw : w = 32 ∨ w = 64) (isMax : Bool) {r : Reg} (hr : c.hasVec .flt w r = true) (n : Nat) :
    LaneBy (IsExt isMax) (i_fmm c isMax r (n := n) (w := w)) := by
  intro a b
  unfold i_fmm
  cases isMax
  · obtain ⟨g, hg, e⟩ := i_fmin_ex h hw hr
    exact ⟨_, e _ a b, fun i => ⟨g, hg, rfl⟩⟩
  · obtain ⟨g, hg, e⟩ := i_fmax_ex h hw hr
    exact ⟨_, e _ a b, fun i => ⟨g, hg, rfl⟩⟩

omit h in
theorem ext_ops (hw : w = 32 ∨ w = 64) (isMax : Bool) : (∀ x y : BitVec w, IsExt isMax x y (mmLoopOp isMax x y)) ∧
    (∀ x y : BitVec w, IsExt isMax x y (mmPairOp isMax x y)) ∧ (∀ x y : BitVec w, IsExt isMax x y (mmNumOp isMax x y)) := by
  obtain ⟨-, m2, m3, m4⟩ := isMin_all (w := w) hw
  obtain ⟨-, n2, n3, n4⟩ := isMax_all (w := w) hw
  cases isMax
  · exact ⟨fun x y => ⟨_, m2, rfl⟩, fun x y => ⟨_, m3, rfl⟩, fun x y => ⟨_, m4, rfl⟩⟩
  · exact ⟨fun x y => ⟨_, n2, rfl⟩, fun x y => ⟨_, n3, rfl⟩, fun x y => ⟨_, n4, rfl⟩⟩

theorem fradd32_red (gnuc : Bool) : RedBy (fun x y z => z = Fp.add x y) 4 (fradd32 c gnuc) := by
  unfold fradd32
  split_ifs
  · exact redLoop4 fun _ _ => rfl
  · exact redPairs4 (R := fun x y z => z = Fp.add x y) (op := Fp.add) (fun _ _ => rfl) fun a => rfl
  · exact redHl h gnuc (lane_fadd h rfl 4) (by decide)
  · exact redPairs4 (R := fun x y z => z = Fp.add x y) (op := Fp.add) (fun _ _ => rfl) fun a => rfl
  · exact redMv h (lane_fadd h rfl 4)
  · exfalso; cfg_absurd h

theorem fradd64_red : RedBy (fun x y z => z = Fp.add x y) 2 (fradd64 c) := by
  unfold fradd64
  split_ifs
  · exact redPairs2 (R := fun x y z => z = Fp.add x y) (op := Fp.add) (fun _ _ => rfl) fun a => rfl
  · exact red64 h (lane_fadd h rfl 2) (by decide) _
  · exact redPairs2 (R := fun x y z => z = Fp.add x y) (op := Fp.add) (fun _ _ => rfl) fun a => rfl
  · exact red64 h (lane_fadd h rfl 2) (by decide) _
  · exact redLoop2 fun _ _ => rfl
  · exfalso; cfg_absurd h

omit h in
theorem fradd32_256_red : RedBy (fun x y z => z = Fp.add x y) 8 fradd32_256 := by
  refine ⟨.node (.node (.node (.leaf 0) (.leaf 1)) (.node (.leaf 2) (.leaf 3))) (.node (.node (.leaf 4) (.leaf 5)) (.node (.leaf 6) (.leaf 7))),
    by decide, fun a => ⟨_, rfl, ?_⟩⟩
  rw [Tree.yields_eval]; rfl

omit h in
theorem fradd64_256_red : RedBy (fun x y z => z = Fp.add x y) 4 fradd64_256 := by
  refine ⟨.node (.node (.leaf 0) (.leaf 1)) (.node (.leaf 2) (.leaf 3)), by decide, fun a => ⟨_, rfl, ?_⟩⟩
  rw [Tree.yields_eval]; rfl

theorem frmul32_red (gnuc : Bool) : RedBy IsProd 4 (frmul32 c gnuc) := by
  have hop : ∀ x y : BitVec 32, IsProd x y (Fp.mul x y) := fun _ _ => .inl rfl
  unfold frmul32
  split_ifs
  · exact redLoop4 hop
  · exact redHl h gnuc (lane_fmul h (.inl rfl) rfl 4) (by decide)
  · refine ⟨.node (.node (.leaf 0) (.leaf 2)) (.node (.leaf 1) (.leaf 3)), by decide, fun a => ⟨_, rfl, ?_⟩⟩
    exact ⟨_, _, ⟨_, _, rfl, rfl, hop _ _⟩, ⟨_, _, rfl, rfl, hop _ _⟩, hop _ _⟩
  · exact redMv h (lane_fmul h (.inl rfl) rfl 4)
  · exfalso; cfg_absurd h

theorem frmul64_red : RedBy IsProd 2 (frmul64 c) := by
  have hop : ∀ x y : BitVec 64, IsProd x y (Fp.mul x y) := fun _ _ => .inl rfl
  unfold frmul64
  split_ifs
  · exact red64 h (lane_fmul h (.inr rfl) rfl 2) (by decide) _
  · exact redPairs2 hop fun a => rfl
  · exact red64 h (lane_fmul h (.inr rfl) rfl 2) (by decide) _
  · exact redLoop2 hop
  · exfalso; cfg_absurd h

theorem frmm32_red (gnuc isMax : Bool) : RedBy (IsExt isMax) 4 (frmm32 c gnuc isMax) := by
  obtain ⟨o1, o2, o3⟩ := ext_ops (w := 32) (.inl rfl) isMax
  have hs : (if isMax then 1 else 0) < 2 := by cases isMax <;> decide
  unfold frmm32
  generalize (if isMax = true then 1 else 0) = s at *
  split_ifs
  · exact redLoop4 o1
  · exact redHl h gnuc (lane_fmm h (.inl rfl) isMax rfl 4) hs
  · exact redPairs4 o3 fun a => rfl
  · exact redPairs4 o2 fun a => rfl
  · exact redMv h (lane_fmm h (.inl rfl) isMax rfl 4)
  · exfalso; clear o1 o2 o3; cfg_absurd h

theorem frmm64_red (isMax : Bool) : RedBy (IsExt isMax) 2 (frmm64 c isMax) := by
  obtain ⟨o1, o2, o3⟩ := ext_ops (w := 64) (.inr rfl) isMax
  unfold frmm64
  split_ifs
  · exact red64 h (lane_fmm h (.inr rfl) isMax rfl 2) (by decide) _
  · exact redPairs2 o3 fun a => rfl
  · exact red64 h (lane_fmm h (.inr rfl) isMax rfl 2) (by decide) _
  · exact redLoop2 o1
  · exfalso; clear o1 o2 o3; cfg_absurd h

end

theorem RedBy.evals {op : BitVec w → BitVec w → BitVec w} {f : Vec w N → Option (BitVec w)} (hf : RedBy (fun x y z => z = op x y) N f) :
    ∃ t : Tree, t.leaves.Perm (List.range N) ∧ ∀ a : Vec w N, f a = some (t.eval op a.at_) := by
  obtain ⟨t, ht, p⟩ := hf
  refine ⟨t, ht, fun a => ?_⟩
  obtain ⟨x, e, q⟩ := p a
  rw [e, Tree.yields_eval.1 q]

/-! ### C48 -/

/-- C48: `reduce_add` adds every lane exactly once, in an order that depends on the build and the vector type only. -/
theorem C48_reduce_add {c : Cfg} (h : c.Ok) :
    (∀ gnuc N, c.FLen 32 N → ∃ t : Tree, t.leaves.Perm (List.range N) ∧ ∀ a : Vec 32 N, reduce_fadd32 c gnuc a = some (t.eval Fp.add a.at_)) ∧
    (∀ N, c.FLen 64 N → ∃ t : Tree, t.leaves.Perm (List.range N) ∧ ∀ a : Vec 64 N, reduce_fadd64 c a = some (t.eval Fp.add a.at_)) :=
  ⟨fun gnuc _ hN => RedBy.evals (fredAll_red h (.inl rfl) (fun _ hr n => lane_fadd h hr n) (fradd32_red h gnuc) (fun _ => fradd32_256_red) hN),
   fun _ hN => RedBy.evals (fredAll_red h (.inr rfl) (fun _ hr n => lane_fadd h hr n) (fradd64_red h) (fun _ => fradd64_256_red) hN)⟩

theorem reduce_fmul32_red {c : Cfg} (h : c.Ok) (gnuc : Bool) (hN : c.FLen 32 N) : RedBy IsProd N (reduce_fmul32 c gnuc) :=
  fredAll_red h (.inl rfl) (fun _ hr n => lane_fmul h (.inl rfl) hr n) (frmul32_red h gnuc)
    (fun _ => RedBy.half (by decide) (frmul32_red h gnuc) (lane_fmul h (.inl rfl) rfl _)) hN
theorem reduce_fmul64_red {c : Cfg} (h : c.Ok) (hN : c.FLen 64 N) : RedBy IsProd N (reduce_fmul64 c) :=
  fredAll_red h (.inr rfl) (fun _ hr n => lane_fmul h (.inr rfl) hr n) (frmul64_red h)
    (fun _ => RedBy.half (by decide) (frmul64_red h) (lane_fmul h (.inr rfl) rfl _)) hN
theorem reduce_fmm32_red {c : Cfg} (h : c.Ok) (gnuc isMax : Bool) (hN : c.FLen 32 N) : RedBy (IsExt isMax) N (reduce_fmm32 c gnuc isMax) :=
  fredAll_red h (.inl rfl) (fun _ hr n => lane_fmm h (.inl rfl) isMax hr n) (frmm32_red h gnuc isMax)
    (fun _ => RedBy.half (by decide) (frmm32_red h gnuc isMax) (lane_fmm h (.inl rfl) isMax rfl _)) hN
theorem reduce_fmm64_red {c : Cfg} (h : c.Ok) (isMax : Bool) (hN : c.FLen 64 N) : RedBy (IsExt isMax) N (reduce_fmm64 c isMax) :=
  fredAll_red h (.inr rfl) (fun _ hr n => lane_fmm h (.inr rfl) isMax hr n) (frmm64_red h isMax)
    (fun _ => RedBy.half (by decide) (frmm64_red h isMax) (lane_fmm h (.inr rfl) isMax rfl _)) hN

/-- C48: `reduce_mul` multiplies every lane exactly once, in an order that depends on the build and the vector type only; every product
is the IEEE product up to the sign of zero. -/
theorem C48_reduce_mul {c : Cfg} (h : c.Ok) :
    (∀ gnuc N, c.FLen 32 N → ∃ t : Tree, t.leaves.Perm (List.range N) ∧ ∀ a : Vec 32 N, ∃ x, reduce_fmul32 c gnuc a = some x ∧
      t.Yields (fun y z r => SameUpToZero r (Fp.mul y z)) a.at_ x) ∧
    (∀ N, c.FLen 64 N → ∃ t : Tree, t.leaves.Perm (List.range N) ∧ ∀ a : Vec 64 N, ∃ x, reduce_fmul64 c a = some x ∧
      t.Yields (fun y z r => SameUpToZero r (Fp.mul y z)) a.at_ x) :=
  ⟨fun gnuc _ hN => reduce_fmul32_red h gnuc hN, fun _ hN => reduce_fmul64_red h hN⟩

/-- The least or greatest of numbers combined over a tree. -/
theorem ext_tree {isMax : Bool} {f : Nat → BitVec w} {t : Tree} {x : BitVec w} (hf : ∀ i ∈ t.leaves, isNaN (f i) = false)
    (ht : t.Yields (IsExt isMax) f x) :
    isNaN x = false ∧ (∃ i ∈ t.leaves, x = f i) ∧ ∀ i ∈ t.leaves, (if isMax then Flt.fge x (f i) else Flt.fle x (f i)) = true := by
  induction t generalizing x with
  | leaf i =>
    have e : x = f i := ht
    have hn := hf i (by simp [Tree.leaves])
    subst e
    refine ⟨hn, ⟨i, by simp [Tree.leaves], rfl⟩, fun j hj => ?_⟩
    have : j = i := by simpa [Tree.leaves] using hj
    subst this
    cases isMax <;> simp [Flt.fge, Flt.fle, ordered, hn]
  | node l r hl hr =>
    obtain ⟨y, z, hy, hz, g, hg, hx⟩ := ht
    obtain ⟨ny, ⟨i, hi, ey⟩, py⟩ := hl (fun i hi => hf i (by simp [Tree.leaves, hi])) hy
    obtain ⟨nz, ⟨j, hj, ez⟩, pz⟩ := hr (fun i hi => hf i (by simp [Tree.leaves, hi])) hz
    have ho : ordered y z = true := by unfold ordered; rw [ny, nz]; rfl
    have hx' : (x = y ∨ x = z) := by
      cases isMax
      · exact hx ▸ ((hg y z).1 ho).1
      · exact hx ▸ ((hg y z).1 ho).1
    have nx : isNaN x = false := by rcases hx' with e | e <;> rw [e] <;> assumption
    refine ⟨nx, ?_, fun k hk => ?_⟩
    · rcases hx' with e | e
      · exact ⟨i, by simp [Tree.leaves, hi], e.trans ey⟩
      · exact ⟨j, by simp [Tree.leaves, hj], e.trans ez⟩
    · have nk := hf k hk
      have hk' : k ∈ l.leaves ∨ k ∈ r.leaves := by simpa [Tree.leaves] using hk
      cases isMax
      · have h2 := ((hg y z).1 ho).2
        rw [← hx] at h2
        simp only [Flt.fle, ordered, nx, ny, nz, Bool.not_false, Bool.and_self, Bool.true_and, decide_eq_true_eq, Bool.false_eq_true, if_false] at h2 py pz ⊢
        rw [nk]
        rcases hk' with g' | g'
        · have := py k g'
          rw [nk] at this
          simp only [Bool.not_false, Bool.and_self, Bool.true_and, decide_eq_true_eq] at this ⊢
          omega
        · have := pz k g'
          rw [nk] at this
          simp only [Bool.not_false, Bool.and_self, Bool.true_and, decide_eq_true_eq] at this ⊢
          omega
      · have h2 := ((hg y z).1 ho).2
        rw [← hx] at h2
        simp only [Flt.fge, Flt.fle, ordered, nx, ny, nz, Bool.not_false, Bool.and_self, Bool.true_and, decide_eq_true_eq, if_true] at h2 py pz ⊢
        rw [nk]
        rcases hk' with g' | g'
        · have := py k g'
          rw [nk] at this
          simp only [Bool.not_false, Bool.and_self, Bool.true_and, decide_eq_true_eq] at this ⊢
          omega
        · have := pz k g'
          rw [nk] at this
          simp only [Bool.not_false, Bool.and_self, Bool.true_and, decide_eq_true_eq] at this ⊢
          omega

theorem red_ext {isMax : Bool} {f : Vec w N → Option (BitVec w)} (hf : RedBy (IsExt isMax) N f) (a : Vec w N) (hn : ∀ i, isNaN (a i) = false) :
    ∃ x, f a = some x ∧ (∃ i, x = a i) ∧ ∀ i, (if isMax then Flt.fge x (a i) else Flt.fle x (a i)) = true := by
  obtain ⟨t, ht, p⟩ := hf
  obtain ⟨x, e, q⟩ := p a
  have hm : ∀ {i}, i ∈ t.leaves ↔ i < N := fun {i} => ht.mem_iff.trans List.mem_range
  obtain ⟨-, ⟨i, hi, ei⟩, hall⟩ := ext_tree (fun i hi => by rw [Vec.at_lt _ (hm.1 hi)]; exact hn _) q
  refine ⟨x, e, ⟨⟨i, hm.1 hi⟩, by rw [ei, Vec.at_lt _ (hm.1 hi)]⟩, fun j => ?_⟩
  have := hall j.val (hm.2 j.isLt)
  rwa [Vec.at_fin] at this

/-- C48: `reduce_min` of lanes without NaN is one of the lanes and not greater than any. -/
theorem C48_reduce_min {c : Cfg} (h : c.Ok) :
    (∀ gnuc N, c.FLen 32 N → ∀ a : Vec 32 N, (∀ i, Flt.isNaN (a i) = false) →
      ∃ x, reduce_fmm32 c gnuc false a = some x ∧ (∃ i, x = a i) ∧ ∀ i, Flt.fle x (a i) = true) ∧
    (∀ N, c.FLen 64 N → ∀ a : Vec 64 N, (∀ i, Flt.isNaN (a i) = false) →
      ∃ x, reduce_fmm64 c false a = some x ∧ (∃ i, x = a i) ∧ ∀ i, Flt.fle x (a i) = true) :=
  ⟨fun gnuc _ hN a hn => red_ext (reduce_fmm32_red h gnuc false hN) a hn, fun _ hN a hn => red_ext (reduce_fmm64_red h false hN) a hn⟩

/-- C48: `reduce_max` of lanes without NaN is one of the lanes and not less than any. -/
theorem C48_reduce_max {c : Cfg} (h : c.Ok) :
    (∀ gnuc N, c.FLen 32 N → ∀ a : Vec 32 N, (∀ i, Flt.isNaN (a i) = false) →
      ∃ x, reduce_fmm32 c gnuc true a = some x ∧ (∃ i, x = a i) ∧ ∀ i, Flt.fge x (a i) = true) ∧
    (∀ N, c.FLen 64 N → ∀ a : Vec 64 N, (∀ i, Flt.isNaN (a i) = false) →
      ∃ x, reduce_fmm64 c true a = some x ∧ (∃ i, x = a i) ∧ ∀ i, Flt.fge x (a i) = true) :=
  ⟨fun gnuc _ hN a hn => red_ext (reduce_fmm32_red h gnuc true hN) a hn, fun _ hN a hn => red_ext (reduce_fmm64_red h true hN) a hn⟩

/-! ### Exact sums -/

theorem isInt_add {w : Nat} (hw : FW w) {x y : BitVec w} {a b : Int} (hx : IsInt x a) (hy : IsInt y b) (h : (a + b).natAbs < 2 ^ prec w) :
    IsInt (Fp.add x y) (a + b) := by
  by_cases h0 : a + b = 0
  · have e : num x + num y = 0 := by rw [hx.2, hy.2, ← Int.add_mul, h0, Int.zero_mul]
    obtain ⟨nx, ix⟩ := not_nan_of_finite hx.1
    obtain ⟨ny, iy⟩ := not_nan_of_finite hy.1
    have e2 : Fp.add x y = mk w (x.msb && y.msb) 0 := by
      unfold Fp.add
      simp only [nx, ny, ix, iy, Bool.or_self, Bool.false_eq_true, if_false, e, if_true]
    rw [e2, h0]
    obtain ⟨f1, f2⟩ := finite_zero hw (x.msb && y.msb)
    exact ⟨f1, by rw [f2, Int.zero_mul]⟩
  · rw [add_isInt hx hy h0]; exact ofInt_small hw h

theorem tree_sum (hw : FW w) {f : Nat → BitVec w} {z : Nat → Int} {t : Tree} (hf : ∀ i ∈ t.leaves, IsInt (f i) (z i))
    (hs : (t.leaves.map (fun i => (z i).natAbs)).sum < 2 ^ prec w) :
    IsInt (t.eval Fp.add f) (t.leaves.map z).sum ∧ (t.leaves.map z).sum.natAbs ≤ (t.leaves.map (fun i => (z i).natAbs)).sum := by
  induction t with
  | leaf i => simp only [Tree.leaves, List.map_cons, List.map_nil, List.sum_cons, List.sum_nil, Int.add_zero, Nat.add_zero]
              exact ⟨hf i (by simp [Tree.leaves]), le_refl _⟩
  | node l r hl hr =>
    simp only [Tree.leaves, List.map_append, List.sum_append] at hs ⊢
    obtain ⟨e1, b1⟩ := hl (fun i hi => hf i (by simp [Tree.leaves, hi])) (by omega)
    obtain ⟨e2, b2⟩ := hr (fun i hi => hf i (by simp [Tree.leaves, hi])) (by omega)
    exact ⟨isInt_add hw e1 e2 (by omega), by omega⟩

theorem ofFn_range {α : Type} (z : Fin N → α) (d : α) : List.ofFn z = (List.range N).map (fun i => if h : i < N then z ⟨i, h⟩ else d) := by
  apply List.ext_getElem
  · simp
  · intro i h1 h2
    have : i < N := by simpa using h1
    simp [this]

theorem red_sum (hw : FW w) {f : Vec w N → Option (BitVec w)} (hf : ∃ t : Tree, t.leaves.Perm (List.range N) ∧ ∀ a : Vec w N, f a = some (t.eval Fp.add a.at_))
    (a : Vec w N) (z : Fin N → Int) (hz : ∀ i, IsInt (a i) (z i)) (hs : (List.ofFn fun i => (z i).natAbs).sum < 2 ^ prec w) :
    ∃ x, f a = some x ∧ IsInt x (List.ofFn z).sum := by
  obtain ⟨t, ht, p⟩ := hf
  refine ⟨_, p a, ?_⟩
  let z' : Nat → Int := fun i => if h : i < N then z ⟨i, h⟩ else 0
  have e1 : (List.ofFn z).sum = (t.leaves.map z').sum := by rw [ofFn_range z 0]; exact ((ht.map z').sum_eq).symm
  have e2 : (List.ofFn fun i => (z i).natAbs).sum = (t.leaves.map (fun i => (z' i).natAbs)).sum := by
    rw [ofFn_range _ 0, (ht.map (fun i => (z' i).natAbs)).sum_eq]
    congr 1
    refine List.map_congr_left fun i hi => ?_
    have : i < N := List.mem_range.1 hi
    simp [z', this]
  rw [e1]
  refine (tree_sum hw (z := z') (fun i hi => ?_) (by rwa [← e2])).1
  have hi : i < N := List.mem_range.1 (ht.mem_iff.1 hi)
  rw [Vec.at_lt _ hi]
  simp only [z', hi, dif_pos]
  exact hz _

/-- C48: when the lanes are integers whose magnitudes add up to less than `2 ^ 24` (`2 ^ 53` for `double`), `reduce_add` is the exact sum
on every build. -/
theorem C48_reduce_add_exact {c : Cfg} (h : c.Ok) :
    (∀ gnuc N, c.FLen 32 N → ∀ (a : Vec 32 N) (z : Fin N → Int),
      (∀ i, Fp.isFinite (a i) = true ∧ Fp.num (a i) = z i * 2 ^ unit 32) → (List.ofFn fun i => (z i).natAbs).sum < 2 ^ 24 →
      ∃ x, reduce_fadd32 c gnuc a = some x ∧ Fp.isFinite x = true ∧ Fp.num x = (List.ofFn z).sum * 2 ^ unit 32) ∧
    (∀ N, c.FLen 64 N → ∀ (a : Vec 64 N) (z : Fin N → Int),
      (∀ i, Fp.isFinite (a i) = true ∧ Fp.num (a i) = z i * 2 ^ unit 64) → (List.ofFn fun i => (z i).natAbs).sum < 2 ^ 53 →
      ∃ x, reduce_fadd64 c a = some x ∧ Fp.isFinite x = true ∧ Fp.num x = (List.ofFn z).sum * 2 ^ unit 64) :=
  ⟨fun gnuc N hN a z hz hs => red_sum fw32 ((C48_reduce_add h).1 gnuc N hN) a z hz (by rw [prec32]; exact hs),
   fun N hN a z hz hs => red_sum fw64 ((C48_reduce_add h).2 N hN) a z hz (by rw [prec64]; exact hs)⟩

/-- C48: the order of `reduce_add` does differ between builds, and with it the result: for the lanes `2 ^ 24, 1, 1, -2 ^ 24` it is 1
on SSE3 (pairs) and 0 on the portable build (left to right). -/
theorem C48_reduce_add_order (gnuc : Bool) :
    reduce_fadd32 Cfg.ssse3Only gnuc (fun i => [0x4b800000#32, 0x3f800000#32, 0x3f800000#32, 0xcb800000#32].getD i.val 0 : Vec 32 4) = some 0x3f800000#32 ∧
    reduce_fadd32 Cfg.portable gnuc (fun i => [0x4b800000#32, 0x3f800000#32, 0x3f800000#32, 0xcb800000#32].getD i.val 0 : Vec 32 4) = some 0#32 := by
  constructor
  · exact congrArg some (by decide +kernel : Fp.add (Fp.add 0x4b800000#32 0x3f800000#32) (Fp.add 0x3f800000#32 0xcb800000#32) = 0x3f800000#32)
  · exact congrArg some (by decide +kernel :
      Fp.add (Fp.add (Fp.add 0x4b800000#32 0x3f800000#32) 0x3f800000#32) 0xcb800000#32 = 0#32)

example : Cfg.avxOnly.FLen 32 24 := .inr ⟨3, by decide, rfl⟩
example : Cfg.avx512All.FLen 64 16 := .inr ⟨2, by decide, rfl⟩
example : (List.ofFn fun i : Fin 4 => (([1, -2, 3, -4] : List Int).getD i.val 0).natAbs).sum < 2 ^ 24 := by decide

end Simdpp
