import Verif.Model.Reduce
import Verif.Props.Lanes
import Verif.Props.MinMax
import Verif.Props.Conv
import Verif.Props.PopcntPub

/-!
# Folding lanes: trees, register accumulators and loops compute the same fold
-/

namespace Simdpp
open Spec Sh

variable {w n N : Nat}

/-- A commutative monoid on `α`. -/
structure Mon (α : Type) where
  op : α → α → α
  e : α
  assoc : ∀ x y z, op (op x y) z = op x (op y z)
  comm : ∀ x y, op x y = op y x
  left_e : ∀ x, op e x = x

namespace Mon
variable {α : Type} (M : Mon α)

/-- The fold of `f 0, …, f (m - 1)`. -/
def big (f : Nat → α) : Nat → α
  | 0 => M.e
  | m + 1 => M.op (big f m) (f m)

theorem right_e (x : α) : M.op x M.e = x := by rw [M.comm, M.left_e]

theorem big_congr {f g : Nat → α} {m : Nat} (h : ∀ i, i < m → f i = g i) : M.big f m = M.big g m := by
  induction m with
  | zero => rfl
  | succ m ih => show M.op _ _ = M.op _ _; rw [ih fun i hi => h i (by omega), h m (by omega)]

theorem big_add (f : Nat → α) (m p : Nat) : M.big f (m + p) = M.op (M.big f m) (M.big (fun i => f (m + i)) p) := by
  induction p with
  | zero => exact (M.right_e _).symm
  | succ p ih => show M.op (M.big f (m + p)) _ = M.op _ (M.op _ _); rw [ih, M.assoc]; rfl

theorem op_op (x y z t : α) : M.op (M.op x y) (M.op z t) = M.op (M.op x z) (M.op y t) := by
  rw [M.assoc, M.assoc, ← M.assoc y, M.comm y z, M.assoc z]

theorem big_op (f g : Nat → α) (m : Nat) : M.big (fun i => M.op (f i) (g i)) m = M.op (M.big f m) (M.big g m) := by
  induction m with
  | zero => exact (M.left_e _).symm
  | succ m ih => show M.op (M.big _ m) _ = M.op (M.op _ _) (M.op _ _); rw [ih, M.op_op]

theorem big_half (f : Nat → α) (s : Nat) : M.big (fun i => M.op (f i) (f (i + s))) s = M.big f (2 * s) := by
  rw [Nat.two_mul, M.big_add, M.big_op]
  exact congrArg _ (M.big_congr fun i _ => by rw [Nat.add_comm])

theorem big_e (m : Nat) : M.big (fun _ => M.e) m = M.e := by
  induction m with
  | zero => rfl
  | succ m ih => show M.op _ _ = _; rw [ih, M.left_e]

/-- Rows of length `L`, folded by columns. -/
theorem big_cols (f : Nat → α) (K L : Nat) :
    M.big (fun i => M.big (fun j => f (j * L + i)) K) L = M.big f (K * L) := by
  induction K with
  | zero => rw [Nat.zero_mul]; exact M.big_e L
  | succ K ih => rw [Nat.succ_mul, M.big_add, ← ih]; exact M.big_op _ _ L

/-- Rows of length `L`, folded row by row. -/
theorem big_rows (f : Nat → α) (K L : Nat) :
    M.big (fun j => M.big (fun i => f (j * L + i)) L) K = M.big f (K * L) := by
  induction K with
  | zero => rw [Nat.zero_mul]; rfl
  | succ K ih =>
    show M.op _ _ = _
    rw [Nat.succ_mul, M.big_add f, ← ih]

theorem big_one (f : Nat → α) : M.big f 1 = f 0 := M.left_e _

theorem big_pairs (f : Nat → α) (m : Nat) : M.big (fun i => M.op (f (2 * i)) (f (2 * i + 1))) m = M.big f (2 * m) := by
  rw [Nat.mul_comm 2 m, ← M.big_rows]
  refine M.big_congr fun i _ => ?_
  show _ = M.op (M.op M.e _) _
  rw [M.left_e, Nat.mul_comm 2 i]; rfl

theorem big_succ (f : Nat → α) (m : Nat) : M.big f (m + 1) = M.op (M.big f m) (f m) := rfl

theorem big_succ' (f : Nat → α) (m : Nat) : M.big f (m + 1) = M.op (f 0) (M.big (fun i => f (i + 1)) m) := by
  rw [Nat.add_comm, M.big_add, M.big_one]
  exact congrArg _ (M.big_congr fun i _ => by rw [Nat.add_comm])

end Mon

/-! ## loops -/

theorem loopM_of {σ : Type} {body : Nat → σ → Option σ} {lo m : Nat} (S : Nat → σ)
    (hb : ∀ i, i < m → body (lo + i) (S i) = some (S (i + 1))) : loopM body lo m (S 0) = some (S m) := by
  induction m with
  | zero => rfl
  | succ m ih => show (loopM body lo m _).bind _ = _; rw [ih fun i hi => hb i (by omega)]; exact hb m (by omega)

/-- Loop invariants. -/
theorem loopM_inv {σ : Type} {body : Nat → σ → Option σ} {lo m : Nat} (P : Nat → σ → Prop) {s : σ} (h0 : P 0 s)
    (hb : ∀ i, i < m → ∀ t, P i t → ∃ u, body (lo + i) t = some u ∧ P (i + 1) u) :
    ∃ u, loopM body lo m s = some u ∧ P m u := by
  induction m with
  | zero => exact ⟨s, rfl, h0⟩
  | succ m ih =>
    obtain ⟨t, e, p⟩ := ih fun i hi => hb i (by omega)
    obtain ⟨u, e', p'⟩ := hb m (by omega) t p
    exact ⟨u, (by show (loopM body lo m s).bind _ = _; rw [e]; exact e'), p'⟩

/-! ## trees -/

/-- The shift lists that fold `m` live lanes into one. -/
def Halves : Nat → List Nat → Prop
  | m, [] => m = 1
  | m, s :: ss => m = 2 * s ∧ 0 < s ∧ Halves s ss

theorem redSteps_halves (hw : IsW w) : Halves (128 / w) (redSteps w) := by
  rcases hw with e | e | e | e <;> subst e <;> simp [redSteps, Halves]

variable {c : Cfg}

theorem redTree_of (h : c.Ok) (hw : IsW w) (M : Mon (BitVec w)) {op : Vec w n → Vec w n → Option (Vec w n)}
    (hop : ∀ a b, op a b = some (fun i => M.op (a i) (b i))) (hn : n = 128 / w) :
    ∀ (ss : List Nat) (m : Nat), m ≤ 128 / w → Halves m ss → ∀ a : Vec w n,
      ∃ r, redTree c op ss a = some r ∧ r.at_ 0 = M.big a.at_ m
  | [], m, _, hm, a => ⟨a, rfl, by rw [show m = 1 from hm, M.big_one]⟩
  | s :: ss, m, hmL, ⟨hm, hs, hh⟩, a => by
    obtain ⟨t, e, p⟩ := moveL1_eq (k := .int) h (s := s) hw (by omega) hn a
    obtain ⟨r, e', p'⟩ := redTree_of h hw M hop hn ss s (by omega) hh (fun i => M.op (a i) (t i))
    refine ⟨r, ?_, p'.trans ?_⟩
    · show (moveL1 c .int s a).bind _ = _
      rw [e]; show (op a t).bind _ = _
      rw [hop]; exact e'
    · rw [hm, ← M.big_half]
      refine M.big_congr fun i hi => ?_
      rw [← p i (by omega), Vec.at_lt _ (show i < n by omega), Vec.at_lt _ (show i < n by omega), Vec.at_lt _ (show i < n by omega)]

theorem redTree0_eq (h : c.Ok) (hw : IsW w) (M : Mon (BitVec w)) {sg : Bool}
    {op : Vec w (Reg.r128.lanes w) → Vec w (Reg.r128.lanes w) → Option (Vec w (Reg.r128.lanes w))}
    (hop : ∀ a b, op a b = some (fun i => M.op (a i) (b i))) (hm : ¬ (w = 64 ∧ msa32s c sg))
    (a : Vec w (Reg.r128.lanes w)) : redTree0 c sg op a = some (M.big a.at_ (Reg.r128.lanes w)) := by
  obtain ⟨r, e, p⟩ := redTree_of h hw M hop rfl _ _ (Nat.le_refl _) (redSteps_halves hw) a
  refine (Option.bind_eq_some_iff.2 ⟨r, e, ?_⟩)
  exact (i_extract_eq (k := .int) (r := .r128) h hw rfl (lanes_pos hw _) (fun g => hm ⟨g.1, g.2.2⟩) r).trans (congrArg some p)

/-! ## registers and arrays -/

theorem part_at0 {L j : Nat} (a : Vec w n) (hj : j < L) : (Hw.part L 0 a).at_ j = a.at_ j :=
  (Hw.part_at _ hj).trans (by rw [Nat.zero_mul, Nat.zero_add])

theorem map2_at (f : BitVec w → BitVec w → BitVec w) (a b : Vec w n) {j : Nat} (hj : j < n) :
    Vec.at_ (fun i => f (a i) (b i)) j = f (a.at_ j) (b.at_ j) := by
  rw [Vec.at_lt _ hj, Vec.at_lt _ hj, Vec.at_lt _ hj]

theorem halves_big (M : Mon (BitVec w)) {L : Nat} (a : Vec w n) :
    M.big (Vec.at_ (fun i => M.op (Hw.part L 0 a i) (Hw.part L 1 a i))) L = M.big a.at_ (2 * L) := by
  rw [← M.big_half]
  refine M.big_congr fun i hi => ?_
  rw [map2_at _ _ _ hi, part_at0 _ hi, Hw.part_at _ hi, Nat.one_mul, Nat.add_comm L]

theorem lanes_256 (w : Nat) (hw : IsW w) : Reg.r256.lanes w = 2 * Reg.r128.lanes w := by
  rcases hw with e | e | e | e <;> subst e <;> rfl
theorem lanes_512 (w : Nat) (hw : IsW w) : Reg.r512.lanes w = 2 * Reg.r256.lanes w := by
  rcases hw with e | e | e | e <;> subst e <;> rfl

theorem hasInt_256_of_512 (h : c.Ok) (hw : IsW w) (hr : c.hasInt w .r512 = true) : c.hasInt w .r256 = true := by
  rcases hw with e | e | e | e <;> subst e <;>
  · have h1 := h.avx512f; have h2 := h.avx512bw
    revert hr; simp [Cfg.hasInt]; grind

theorem redReg_eq (h : c.Ok) (hw : IsW w) (M : Mon (BitVec w))
    {op : Reg → {n : Nat} → Vec w n → Vec w n → Option (Vec w n)} {one : Vec w (Reg.r128.lanes w) → Option (BitVec w)}
    {r : Reg} (hr : c.hasInt w r = true)
    (hop : ∀ r', c.hasInt w r' = true → r' ≠ r → (r = .r128 → False) → r' ≠ .r512 →
      ∀ {n : Nat} (a b : Vec w n), op r' a b = some (fun i => M.op (a i) (b i)))
    (hone : ∀ a, one a = some (M.big a.at_ (Reg.r128.lanes w))) (a : Vec w n) (hn : n = r.lanes w) :
    redReg c op one r a = some (M.big a.at_ n) := by
  subst hn
  have h128 : c.hasInt w .r128 = true := rfl
  have h256 : ∀ b : Vec w (Reg.r256.lanes w), r ≠ .r128 →
      ((op .r128 (Hw.part (Reg.r128.lanes w) 0 b) (Hw.part (Reg.r128.lanes w) 1 b)).bind one) =
        some (M.big b.at_ (Reg.r256.lanes w)) := by
    intro b hb
    rw [hop .r128 h128 hb.symm hb (by decide)]
    refine (hone _).trans (congrArg some ?_)
    rw [halves_big, ← lanes_256 w hw]
  cases r with
  | r128 => refine (hone _).trans (congrArg some (M.big_congr fun i hi => part_at0 _ hi))
  | r256 =>
    refine (if_pos hr).trans ((h256 _ (by decide)).trans (congrArg some (M.big_congr fun i hi => part_at0 _ hi)))
  | r512 =>
    refine (if_pos hr).trans ?_
    rw [hop .r256 (hasInt_256_of_512 h hw hr) (by decide) (by decide) (by decide)]
    refine (h256 _ (by decide)).trans (congrArg some ?_)
    rw [halves_big, ← lanes_512 w hw]

theorem accArr_eq (M : Mon (BitVec w)) {L K : Nat} {op : Vec w L → Vec w L → Option (Vec w L)}
    (hop : ∀ a b, op a b = some (fun i => M.op (a i) (b i))) (hK : 0 < K) (hL : 0 < L) (hN : N = K * L) (a : Vec w N) :
    ∃ r, accArr op a = some r ∧ M.big r.at_ L = M.big a.at_ N := by
  subst hN
  refine ⟨fun i => M.big (fun j => a.at_ (j * L + i.val)) K, ?_, ?_⟩
  · unfold accArr
    rw [Nat.mul_div_cancel _ hL]
    have := loopM_of (m := K - 1) (lo := 1) (body := fun j r => op r (Hw.part L j a))
      (fun j i => M.big (fun j => a.at_ (j * L + i.val)) (1 + j)) (fun j hj => by
        rw [hop]; rfl)
    rw [show 1 + (K - 1) = K by omega] at this
    refine Eq.trans ?_ this
    exact congrArg _ (funext fun i => (M.big_one (fun j => a.at_ (j * L + i.val))).symm)
  · rw [← M.big_cols]
    refine M.big_congr fun i hi => ?_
    rw [Vec.at_lt _ hi]

theorem Vec.at_part_block {L : Nat} (a : Vec w N) (j : Nat) {i : Nat} (hi : i < L) : (Hw.part L j a).at_ i = a.at_ (j * L + i) :=
  Hw.part_at _ hi

/-- Length `N` of a vector type: the number of registers is at least two when it is an array. -/
theorem VLen.arr (hw : IsW w) (hN : c.VLen w N) (hs : c.single w N = false) :
    ∃ K, 2 ≤ K ∧ N = K * (c.fast w).lanes w := by
  rcases hN with ⟨r, hr, e⟩ | hK
  · refine absurd ?_ (Bool.eq_false_iff.1 hs)
    rw [Cfg.single, decide_eq_true_eq, e, regOf_single hw hr]
  · exact hK

theorem VLen.one (hw : IsW w) (hN : c.VLen w N) (hs : c.single w N = true) :
    N = (c.regOf w N).lanes w ∧ c.hasInt w (c.regOf w N) = true := by
  refine ⟨by simpa [Cfg.single] using hs, ?_⟩
  unfold Cfg.regOf
  split_ifs with h1 h2 h3
  · rfl
  · exact h2.1
  · exact h3.1
  · exact fast_has c w

end Simdpp
