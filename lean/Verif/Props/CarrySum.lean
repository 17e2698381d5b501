import Verif.Props.Carry
import Mathlib.Algebra.BigOperators.Intervals
import Mathlib.Tactic.Ring

/-!
# C71, instances: running sums and differences of neighbours
-/

namespace Simdpp
open Spec Spec.Prog Spec.FProg Spec.MProg

variable {u : IW}

/-- `128 / u.n` lanes are `2 ^ lg u`. -/
def lg : IW → Nat
  | .b8 => 4
  | .b16 => 3
  | .b32 => 2
  | .b64 => 1

/-- Vectors of unsigned integers. -/
abbrev UG (u : IW) : Nat → ETy := fun _ => .int false u

/-- `a + b` and `a - b`. -/
def opE (o : Spec.Prog.Op2) (a b : SExp (UG u) (.int false u)) : SExp (UG u) (.int false u) :=
  .lanes 2 (UG u) (.ints (u := u) 2 (fun _ => false) (.op2 o (.var 0) (.var 1)) fun x => .var x.val) fun x => if x.val = 0 then a else b

/-- The running sums inside a block: `x += move_r<1>(x); x += move_r<2>(x); ..`, in `k` steps. -/
def scanE : Nat → SExp (UG u) (.int false u)
  | 0 => .var 0
  | k + 1 => opE .add (scanE k) (.shuf (.move_r (2 ^ k)) (scanE k) (scanE k))

/-- `x = scan(load(p)); y = x + s;` -/
def sumE (u : IW) : SExp (UG u) (.int false u) := opE .add (scanE (lg u)) (.var 1)

/-- `s = splat<last>(y)`. -/
def sumNext (u : IW) : SExp (UG u) (.int false u) := .shuf (.splat (128 / u.n - 1)) (sumE u) (sumE u)

/-- `x = load(p); y = x - align<last>(s, x);` -/
def diffE (u : IW) : SExp (UG u) (.int false u) := opE .sub (.var 0) (.shuf (.align (128 / u.n - 1)) (.var 1) (.var 0))

/-- `s = x`. -/
def diffNext (u : IW) : SExp (UG u) (.int false u) := .var 0

theorem ulen (c : Cfg) (u : IW) : c.VLen u.n (128 / u.n) := Or.inl ⟨.r128, rfl, rfl⟩

theorem ubytes (c : Cfg) (u : IW) : (c.regK .int u.n (128 / u.n)).bytes = 16 := by
  show (c.regOf u.n (Reg.r128.lanes u.n)).bytes = 16
  unfold Cfg.regOf
  rw [if_pos rfl]
  rfl

theorem lg_eq (u : IW) : 2 ^ lg u = 128 / u.n := by cases u <;> rfl

theorem clane_add (x y : BitVec u.n) : Spec.lane u.n (val false x + val false y) = x + y := by
  unfold Spec.lane val
  rw [if_neg Bool.false_ne_true, if_neg Bool.false_ne_true]
  rw [BitVec.ofInt_add, BitVec.ofInt_natCast, BitVec.ofInt_natCast, BitVec.ofNat_toNat, BitVec.ofNat_toNat, BitVec.setWidth_eq, BitVec.setWidth_eq]

theorem clane_sub (x y : BitVec u.n) : Spec.lane u.n (val false x - val false y) = x - y := by
  unfold Spec.lane val
  rw [if_neg Bool.false_ne_true, if_neg Bool.false_ne_true]
  rw [Int.sub_eq_add_neg, BitVec.ofInt_add, BitVec.ofInt_neg, ← BitVec.sub_eq_add_neg, BitVec.ofInt_natCast, BitVec.ofInt_natCast, BitVec.ofNat_toNat, BitVec.ofNat_toNat, BitVec.setWidth_eq, BitVec.setWidth_eq]

variable {I : (f : FWd) → Impl f.n} {ρ : Nat → Nat → BitVec u.n}

/-- The meaning, with the width spelled out. -/
def denU (I : (f : FWd) → Impl f.n) (ρ : Nat → Nat → BitVec u.n) (a : SExp (UG u) (.int false u)) (j : Nat) : BitVec u.n := a.den I ρ j

theorem add_den (a b : SExp (UG u) (.int false u)) (j : Nat) : denU I ρ (opE .add a b) j = denU I ρ a j + denU I ρ b j := by
  have := clane_add (denU I ρ a j) (denU I ρ b j)
  exact this

theorem sub_den (a b : SExp (UG u) (.int false u)) (j : Nat) : denU I ρ (opE .sub a b) j = denU I ρ a j - denU I ρ b j := by
  have := clane_sub (denU I ρ a j) (denU I ρ b j)
  exact this

theorem opE_ok {c : Cfg} {N P : Nat} (hN : c.VLen u.n N) {o : Spec.Prog.Op2} (ho : o = .add ∨ o = .sub) {a b : SExp (UG u) (.int false u)} (oa : a.Ok c N I P ρ) (ob : b.Ok c N I P ρ) :
    (opE o a b).Ok c N I P ρ := by
  refine ⟨fun x => ?_, hN, fun _ => hN, ?_⟩
  · match x with
    | ⟨0, _⟩ => exact oa
    | ⟨1, _⟩ => exact ob
  · rcases ho with rfl | rfl <;> exact ⟨trivial, trivial, trivial⟩

/-- The sum of the last `2 ^ k` elements up to `j`. -/
theorem scan_den (k : Nat) (hk : k ≤ lg u) : ∀ j, j < 128 / u.n →
    denU I ρ (scanE k) j = BitVec.ofNat u.n (∑ i ∈ Finset.range (min (2 ^ k) (j + 1)), (ρ 0 (j - i)).toNat) := by
  induction k with
  | zero =>
    intro j hj
    rw [show min (2 ^ 0) (j + 1) = 1 by omega, Finset.sum_range_one, BitVec.ofNat_toNat, BitVec.setWidth_eq]
    rfl
  | succ k ih =>
    have ih := ih (by omega)
    intro j hj
    show denU I ρ (opE .add _ _) j = _
    rw [add_den, ih j hj]
    show _ + (if 2 ^ k ≤ j % (128 / u.n) then denU I ρ (scanE k) (j - 2 ^ k) else 0) = _
    rw [Nat.mod_eq_of_lt hj]
    split_ifs with g
    · rw [ih _ (Nat.lt_of_le_of_lt (Nat.sub_le _ _) hj), ← BitVec.ofNat_add, show min (2 ^ (k + 1)) (j + 1) = 2 ^ k + min (2 ^ k) (j - 2 ^ k + 1) by rw [Nat.pow_succ]; omega,
        show min (2 ^ k) (j + 1) = 2 ^ k by omega, Finset.sum_range_add]
      simp only [Nat.sub_sub]
    · rw [show min (2 ^ (k + 1)) (j + 1) = min (2 ^ k) (j + 1) by rw [Nat.pow_succ]; omega]
      exact BitVec.add_zero _

theorem scan_all {j : Nat} (hj : j < 128 / u.n) : denU I ρ (scanE (lg u)) j = BitVec.ofNat u.n (∑ i ∈ Finset.range (j + 1), (ρ 0 i).toNat) := by
  rw [scan_den _ (Nat.le_refl _) j hj, lg_eq, show min (128 / u.n) (j + 1) = j + 1 by omega]
  refine congrArg _ ?_
  rw [← Finset.sum_range_reflect (fun i => (ρ 0 i).toNat)]
  refine Finset.sum_congr rfl fun i hi => ?_
  have := Finset.mem_range.1 hi
  rw [show j + 1 - 1 - i = j - i by omega]

theorem scan_ok {c : Cfg} {N P : Nat} (hN : c.VLen u.n N) : (k : Nat) → k ≤ lg u → (scanE k : SExp (UG u) (.int false u)).Ok c N I P ρ
  | 0, _ => hN
  | k + 1, hk => by
    have o := scan_ok (P := P) hN k (by omega)
    refine opE_ok hN (.inl rfl) o ⟨o, o, ?_⟩
    show 2 ^ k ≤ 128 / u.n
    rw [← lg_eq]
    exact Nat.pow_le_pow_right (by decide) (by omega)

theorem lanes2 (u : IW) : 2 ≤ 128 / u.n := by cases u <;> decide

theorem sum_ok {c : Cfg} {P : Nat} : (sumE u).Ok c (128 / u.n) I P ρ ∧ (sumNext u).Ok c (128 / u.n) I P ρ := by
  have o : (sumE u).Ok c (128 / u.n) I P ρ := opE_ok (ulen c u) (.inl rfl) (scan_ok (ulen c u) _ (Nat.le_refl _)) (ulen c u)
  exact ⟨o, o, o, Nat.sub_lt (by have := lanes2 u; exact Nat.lt_of_lt_of_le (by decide) this) (by decide)⟩

/-- The array in the form the loop theorem takes. -/
def arr1 (A : Nat → BitVec u.n) : Nat → Nat → BitVec u.n := fun x j => if x = 0 then A j else 0

theorem sum_carried (I : (f : FWd) → Impl f.n) (A : Nat → BitVec u.n) (i : Nat) : ∀ j, j < 128 / u.n →
    (carried (Γ := UG u) I (128 / u.n) 1 (sumNext u) (arr1 A) (fun _ => 0) i j : BitVec u.n) = BitVec.ofNat u.n (∑ l ∈ Finset.range (i * (128 / u.n)), (A l).toNat) ∧
    denU I (stepVars (Γ := UG u) I (128 / u.n) 1 (sumNext u) (arr1 A) (fun _ => 0) i) (sumE u) j = runningSum A (i * (128 / u.n) + j) := by
  have hL := lanes2 u
  induction i with
  | zero =>
    refine fun j hj => ⟨by rw [Nat.zero_mul]; rfl, ?_⟩
    show denU I _ (opE .add _ _) j = _
    rw [add_den, scan_all hj]
    refine (BitVec.add_zero _).trans ?_
    unfold runningSum
    rw [Nat.zero_mul, Nat.zero_add]
    refine congrArg _ (Finset.sum_congr rfl fun l _ => ?_)
    show (A (0 * _ + l)).toNat = _
    rw [Nat.zero_mul, Nat.zero_add]
  | succ i ih =>
    have key : ∀ j, j < 128 / u.n → (carried (Γ := UG u) I (128 / u.n) 1 (sumNext u) (arr1 A) (fun _ => 0) (i + 1) j : BitVec u.n) =
        BitVec.ofNat u.n (∑ l ∈ Finset.range ((i + 1) * (128 / u.n)), (A l).toNat) := fun j hj => by
      have := (ih (128 / u.n - 1) (by omega)).2
      show denU I (stepVars (Γ := UG u) I (128 / u.n) 1 (sumNext u) (arr1 A) (fun _ => 0) i) (sumE u) (j / (128 / u.n) * (128 / u.n) + (128 / u.n - 1)) = _
      rw [Nat.div_eq_of_lt hj, Nat.zero_mul, Nat.zero_add, this]
      unfold runningSum
      rw [show i * (128 / u.n) + (128 / u.n - 1) + 1 = (i + 1) * (128 / u.n) by rw [Nat.add_mul]; omega]
    refine fun j hj => ⟨key j hj, ?_⟩
    show denU I _ (opE .add _ _) j = _
    rw [add_den, scan_all hj]
    show _ + (carried (Γ := UG u) I (128 / u.n) 1 (sumNext u) (arr1 A) (fun _ => 0) (i + 1) j : BitVec u.n) = _
    rw [key j hj, ← BitVec.ofNat_add]
    unfold runningSum
    rw [Nat.add_assoc, Finset.sum_range_add _ ((i + 1) * (128 / u.n)) (j + 1), Nat.add_comm]
    rfl

/-- **C71**, an instance: running sums. The loop writes, for every element width, element count and build, in place or into another array, the sum modulo `2 ^ w` of all
elements up to each one. -/
theorem C71_running_sum {c : Cfg} (h : c.Ok) (gnuc be : Bool) (u : IW) (E : Est) (J : Junk c (128 / u.n)) {p q cnt : Nat} (m : Mem) {A : Nat → BitVec u.n} {P : Nat}
    (hP : P = (cnt + (128 / u.n - 1)) / (128 / u.n) * (128 / u.n)) (hA : ∀ j, j < P → Holds m.byte (p + j * (u.n / 8)) (A j))
    (hp : p % 16 = 0) (hq : q % 16 = 0) (hb : m.Block p (P * (u.n / 8))) (hbq : m.Block q (P * (u.n / 8))) (hd : q ≤ p ∨ p + P * (u.n / 8) ≤ q) :
    ∃ s m', carryLoop c gnuc be E J 1 (sumNext u) (sumE u) (fun _ => p) q cnt (fun _ => 0) m = some (s, m') ∧ m'.ok = m.ok ∧
      (∀ j, j < cnt → Holds m'.byte (q + j * (u.n / 8)) (runningSum A j)) ∧ ∀ a, a < q ∨ q + cnt * (u.n / 8) ≤ a → m'.byte a = m.byte a := by
  have hL := lanes2 u
  have hB := ubytes c u
  obtain ⟨I, -, run⟩ := C71_loop h (128 / u.n) E
  have ez : (Vec.at_ (fun _ => 0 : Vec u.n (128 / u.n))) = fun _ => 0 := funext fun j => by unfold Vec.at_; split_ifs <;> rfl
  obtain ⟨s, m', e1, -, e2, e3, e4⟩ := run gnuc (UG u) (.int false u) 1 (sumNext u) (sumE u) be J (p := fun _ => p) (q := q) (cnt := cnt) m
    (A := arr1 A) (P := P) (fun _ => 0) hP (ulen c u) (fun _ _ => ulen c u) (fun x hx j hj => by
      obtain rfl : x = 0 := by omega
      exact hA j hj) (fun x hx j => if_neg (by omega)) (fun _ _ => hB ▸ hp) (hB ▸ hq) (fun _ _ => hb) hbq
    (fun _ _ => hd.imp (fun g => ⟨g, Nat.le_refl _⟩) Or.inl) (fun i _ => sum_ok)
  refine ⟨s, m', e1, e2, fun j hj => ?_, e4⟩
  have hm := Nat.div_add_mod' j (128 / u.n)
  have hr := Nat.mod_lt j (show 0 < 128 / u.n by omega)
  have := e3 (j / (128 / u.n)) (j % (128 / u.n)) hr (by omega)
  rw [ez] at this
  have e := (sum_carried I A (j / (128 / u.n)) _ hr).2
  rw [hm] at e this
  exact cast (congrArg (fun z : BitVec u.n => Holds m'.byte (q + j * (u.n / 8)) z) e) this

theorem diff_ok {c : Cfg} {P : Nat} : (diffE u).Ok c (128 / u.n) I P ρ ∧ (diffNext u).Ok c (128 / u.n) I P ρ :=
  ⟨opE_ok (ulen c u) (.inr rfl) (ulen c u) ⟨ulen c u, ulen c u, Nat.sub_le _ _⟩, ulen c u⟩

theorem diff_step (I : (f : FWd) → Impl f.n) (A : Nat → BitVec u.n) (i j : Nat) (hj : j < 128 / u.n) :
    denU I (stepVars (Γ := UG u) I (128 / u.n) 1 (diffNext u) (arr1 A) (fun _ => 0) i) (diffE u) j = difference A (i * (128 / u.n) + j) := by
  have hL := lanes2 u
  show denU I _ (opE .sub _ _) j = _
  rw [sub_den, ← clane_sub]
  show Spec.lane u.n (val false (A (i * (128 / u.n) + j)) - val false (if j % (128 / u.n) + (128 / u.n - 1) < 128 / u.n then
    (carried (Γ := UG u) I (128 / u.n) 1 (diffNext u) (arr1 A) (fun _ => 0) i (j + (128 / u.n - 1)) : BitVec u.n)
    else A (i * (128 / u.n) + (j + (128 / u.n - 1) - 128 / u.n)))) = _
  have ev : ∀ x : BitVec u.n, val false x = (x.toNat : Int) := fun x => if_neg Bool.false_ne_true
  unfold difference Spec.lane
  rw [ev, ev, Nat.mod_eq_of_lt hj]
  refine congrArg (fun z => BitVec.ofInt u.n (((A (i * (128 / u.n) + j)).toNat : Int) - z)) ?_
  split_ifs with g1 g2 g2
  · have e0 : j = 0 := by omega
    have ei : i = 0 := by
      rcases Nat.eq_zero_or_pos i with e | e
      · exact e
      · have := Nat.mul_le_mul e (Nat.le_refl (128 / u.n)); omega
    subst ei e0
    show ((0 : BitVec u.n).toNat : Int) = 0
    simp
  · have e0 : j = 0 := by omega
    subst e0
    match i, g2 with
    | 0, g2 => exact absurd (by omega) g2
    | i + 1, _ =>
      show ((A (i * (128 / u.n) + (0 + (128 / u.n - 1)))).toNat : Int) = _
      rw [show (i + 1) * (128 / u.n) + 0 - 1 = i * (128 / u.n) + (0 + (128 / u.n - 1)) by rw [Nat.add_mul]; omega]
  · omega
  · rw [show i * (128 / u.n) + j - 1 = i * (128 / u.n) + (j + (128 / u.n - 1) - 128 / u.n) by omega]

/-- **C71**, an instance: differences of neighbours. The loop writes, in place or into another array, every element minus the one before it (the first one minus zero),
although the vector before it has been overwritten by then. -/
theorem C71_difference {c : Cfg} (h : c.Ok) (gnuc be : Bool) (u : IW) (E : Est) (J : Junk c (128 / u.n)) {p q cnt : Nat} (m : Mem) {A : Nat → BitVec u.n} {P : Nat}
    (hP : P = (cnt + (128 / u.n - 1)) / (128 / u.n) * (128 / u.n)) (hA : ∀ j, j < P → Holds m.byte (p + j * (u.n / 8)) (A j))
    (hp : p % 16 = 0) (hq : q % 16 = 0) (hb : m.Block p (P * (u.n / 8))) (hbq : m.Block q (P * (u.n / 8))) (hd : q ≤ p ∨ p + P * (u.n / 8) ≤ q) :
    ∃ s m', carryLoop c gnuc be E J 1 (diffNext u) (diffE u) (fun _ => p) q cnt (fun _ => 0) m = some (s, m') ∧ m'.ok = m.ok ∧
      (∀ j, j < cnt → Holds m'.byte (q + j * (u.n / 8)) (difference A j)) ∧ ∀ a, a < q ∨ q + cnt * (u.n / 8) ≤ a → m'.byte a = m.byte a := by
  have hL := lanes2 u
  have hB := ubytes c u
  obtain ⟨I, -, run⟩ := C71_loop h (128 / u.n) E
  have ez : (Vec.at_ (fun _ => 0 : Vec u.n (128 / u.n))) = fun _ => 0 := funext fun j => by unfold Vec.at_; split_ifs <;> rfl
  obtain ⟨s, m', e1, -, e2, e3, e4⟩ := run gnuc (UG u) (.int false u) 1 (diffNext u) (diffE u) be J (p := fun _ => p) (q := q) (cnt := cnt) m
    (A := arr1 A) (P := P) (fun _ => 0) hP (ulen c u) (fun _ _ => ulen c u) (fun x hx j hj => by
      obtain rfl : x = 0 := by omega
      exact hA j hj) (fun x hx j => if_neg (by omega)) (fun _ _ => hB ▸ hp) (hB ▸ hq) (fun _ _ => hb) hbq
    (fun _ _ => hd.imp (fun g => ⟨g, Nat.le_refl _⟩) Or.inl) (fun i _ => diff_ok)
  refine ⟨s, m', e1, e2, fun j hj => ?_, e4⟩
  have hm := Nat.div_add_mod' j (128 / u.n)
  have hr := Nat.mod_lt j (show 0 < 128 / u.n by omega)
  have := e3 (j / (128 / u.n)) (j % (128 / u.n)) hr (by omega)
  rw [ez] at this
  have e := diff_step I A (j / (128 / u.n)) _ hr
  rw [hm] at e this
  exact cast (congrArg (fun z : BitVec u.n => Holds m'.byte (q + j * (u.n / 8)) z) e) this

/-- Running sums undo differences. -/
theorem runningSum_difference {w : Nat} {A B : Nat → BitVec w} {n : Nat} (hB : ∀ j, j < n → B j = difference A j) : ∀ j, j < n → runningSum B j = A j := by
  have e : ∀ x : BitVec w, BitVec.ofNat w x.toNat = x := fun x => by rw [BitVec.ofNat_toNat, BitVec.setWidth_eq]
  intro j
  induction j with
  | zero =>
    intro hj
    unfold runningSum
    rw [Finset.sum_range_one, hB 0 hj, e]
    unfold difference
    rw [if_pos rfl, Int.sub_zero, BitVec.ofInt_natCast, e]
  | succ j ih =>
    intro hj
    have ih := ih (by omega)
    unfold runningSum at ih ⊢
    rw [Finset.sum_range_succ, BitVec.ofNat_add, ih, e, hB _ hj]
    unfold difference
    rw [if_neg (Nat.succ_ne_zero j), Int.sub_eq_add_neg, BitVec.ofInt_add, BitVec.ofInt_neg, BitVec.ofInt_natCast, BitVec.ofInt_natCast, e, e, Nat.add_sub_cancel,
      ← BitVec.sub_eq_add_neg, BitVec.add_comm, BitVec.sub_add_cancel]

/-- **C71.** Taking differences in place and then running sums in place restores the array (whole vectors): decoding undoes encoding. -/
theorem C71_round_trip {c c' : Cfg} (h : c.Ok) (h' : c'.Ok) (gnuc gnuc' be be' : Bool) (u : IW) (E E' : Est) (J : Junk c (128 / u.n)) (J' : Junk c' (128 / u.n)) {p V : Nat} (m : Mem)
    (hp : p % 16 = 0) (hb : m.Block p (V * (128 / u.n) * (u.n / 8))) :
    ∃ s m' s', carryLoop c gnuc be E J 1 (diffNext u) (diffE u) (fun _ => p) p (V * (128 / u.n)) (fun _ => 0) m = some (s, m') ∧
      carryLoop c' gnuc' be' E' J' 1 (sumNext u) (sumE u) (fun _ => p) p (V * (128 / u.n)) (fun _ => 0) m' = some (s', m) := by
  have hL := lanes2 u
  have hw : IsW u.n := IW.isW u
  have hB := isW_bpos hw
  have hx : ∀ a, ∃ x : BitVec u.n, Holds m.byte a x := fun a => ⟨_, by
    have := Mem.get_holds (n := 1) hw m a 0
    simpa using this⟩
  choose X hX using hx
  have hP : V * (128 / u.n) = (V * (128 / u.n) + (128 / u.n - 1)) / (128 / u.n) * (128 / u.n) := by
    rw [Nat.mul_comm V, Nat.mul_add_div (by omega), Nat.div_eq_of_lt (show 128 / u.n - 1 < 128 / u.n by omega), Nat.add_zero, Nat.mul_comm]
  obtain ⟨s, m', e1, e2, e3, e4⟩ := C71_difference h gnuc be u E J (p := p) (q := p) (cnt := V * (128 / u.n)) m (A := fun j => X (p + j * (u.n / 8))) hP
    (fun j _ => hX _) hp hp hb hb (Or.inl (Nat.le_refl _))
  obtain ⟨s', m'', f1, f2, f3, f4⟩ := C71_running_sum h' gnuc' be' u E' J' (p := p) (q := p) (cnt := V * (128 / u.n)) m'
    (A := difference fun j => X (p + j * (u.n / 8))) hP e3 hp hp (fun a g1 g2 => e2 ▸ hb a g1 g2) (fun a g1 g2 => e2 ▸ hb a g1 g2) (Or.inl (Nat.le_refl _))
  have hm : m'' = m := by
    have o : m''.ok = m.ok := f2.trans e2
    have b : m''.byte = m.byte := funext fun a => by
      by_cases g : a < p ∨ p + V * (128 / u.n) * (u.n / 8) ≤ a
      · rw [f4 a g, e4 a g]
      · have hj : (a - p) / (u.n / 8) < V * (128 / u.n) := (Nat.div_lt_iff_lt_mul hB).2 (by omega)
        have hk := Nat.mod_lt (a - p) hB
        have e5 := Nat.div_add_mod' (a - p) (u.n / 8)
        have := f3 _ hj _ hk
        rw [runningSum_difference (n := V * (128 / u.n)) (fun _ _ => rfl) _ hj, ← hX _ _ hk, show p + (a - p) / (u.n / 8) * (u.n / 8) + (a - p) % (u.n / 8) = a by omega] at this
        exact this
    cases m; cases m''
    subst o b
    rfl
  exact ⟨s, m', s', e1, f1.trans (by rw [hm])⟩

/-- Three vectors and a rest in place on SSE2, two vectors of 64-bit elements on AArch64. -/
example (m : Mem) (hm : ∀ a, m.ok a = true) (A : Nat → BitVec 32) (hA : ∀ j, j < 16 → Holds m.byte (64 + j * 4) (A j)) (E : Est) (J : Junk Cfg.sse2Only 4) :
    ∃ s m', carryLoop Cfg.sse2Only true false E J 1 (sumNext .b32) (sumE .b32) (fun _ => 64) 64 14 (fun _ => 0) m = some (s, m') ∧
      Holds m'.byte (64 + 5 * 4) (BitVec.ofNat 32 (∑ l ∈ Finset.range 6, (A l).toNat)) ∧ m'.byte 120 = m.byte 120 := by
  obtain ⟨s, m', e, -, f, g⟩ := C71_running_sum Cfg.sse2Only_ok true false .b32 E J (p := 64) (q := 64) (cnt := 14) (P := 16) m rfl hA
    (by decide) (by decide) (fun _ _ _ => hm _) (fun _ _ _ => hm _) (Or.inl (Nat.le_refl _))
  exact ⟨s, m', e, f 5 (by decide), g 120 (Or.inr (Nat.le_refl _))⟩

example (m : Mem) (hm : ∀ a, m.ok a = true) (E : Est) (J : Junk Cfg.neonA64 2) (J' : Junk Cfg.avx2Only 2) :
    ∃ s m' s', carryLoop Cfg.neonA64 true false E J 1 (diffNext .b64) (diffE .b64) (fun _ => 32) 32 4 (fun _ => 0) m = some (s, m') ∧
      carryLoop Cfg.avx2Only true false E J' 1 (sumNext .b64) (sumE .b64) (fun _ => 32) 32 4 (fun _ => 0) m' = some (s', m) :=
  C71_round_trip Cfg.neonA64_ok Cfg.avx2Only_ok true true false false .b64 E E J J' (V := 2) m (by decide) (fun _ _ _ => hm _)

end Simdpp
