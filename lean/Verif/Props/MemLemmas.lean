import Verif.Model.Mem
import Verif.Spec.Mem
import Verif.Props.BlendLemmas
import Verif.Props.ConvArr
import Verif.Props.ReduceLemmas
import Verif.Props.FConv

/-!
# Lemmas about memory
-/

namespace Simdpp
open Spec Sh

variable {w n N L : Nat}

theorem byteOf_getLsbD (x : BitVec w) (j k : Nat) : (byteOf x j).getLsbD k = (decide (k < 8) && x.getLsbD (8 * j + k)) := by
  unfold byteOf; rw [BitVec.getLsbD_extractLsb']

/-- The bytes determine the value. -/
theorem byteOf_inj (hw : IsW w) {x y : BitVec w} (h : ∀ j, j < w / 8 → byteOf x j = byteOf y j) : x = y := by
  apply BitVec.eq_of_getLsbD_eq
  intro i hi
  have := congrArg (·.getLsbD (i % 8)) (h (i / 8) (by rcases hw with e | e | e | e <;> subst e <;> omega))
  simp only [byteOf_getLsbD, show i % 8 < 8 from Nat.mod_lt _ (by decide), decide_true, Bool.true_and, Nat.div_add_mod] at this
  exact this

theorem isW_b8 (hw : IsW w) : w / 8 * 8 = w := by rcases hw with e | e | e | e <;> subst e <;> rfl
theorem isW_bpos (hw : IsW w) : 0 < w / 8 := by rcases hw with e | e | e | e <;> subst e <;> decide

/-- Bytes of a vector. -/
theorem recast8_at (hw : IsW w) (a : Vec w n) {x : Nat} (hx : x < n * (w / 8)) :
    (a.recast 8 (n * (w / 8))).at_ x = byteOf (a.at_ (x / (w / 8))) (x % (w / 8)) := by
  have hB := isW_bpos hw
  have h8 := isW_b8 hw
  rw [Vec.at_lt _ hx]
  apply BitVec.eq_of_getLsbD_eq
  intro k hk
  rw [Vec.recast_getLsbD, byteOf_getLsbD]
  have hd : x / (w / 8) < n := Nat.div_lt_of_lt_mul (by rwa [Nat.mul_comm])
  have e : x * 8 + k = x / (w / 8) * w + (8 * (x % (w / 8)) + k) := by
    conv_lhs => rw [← Nat.div_add_mod x (w / 8)]
    rw [Nat.add_mul, Nat.mul_comm (w / 8), Nat.mul_assoc, h8]
    omega
  have hl : 8 * (x % (w / 8)) + k < w := by
    have := Nat.mod_lt x hB
    omega
  rw [e, Vec.at_lt _ hd, ← Vec.bit_eq a ⟨_, hd⟩ hl]

namespace Mem

/-- The `k` bytes from `p` on may be accessed. -/
def Acc (m : Mem) (p k : Nat) : Prop := ∀ i, i < k → m.ok (p + i) = true

theorem Acc.sub {m : Mem} {p k q l : Nat} (h : m.Acc p k) (h1 : p ≤ q) (h2 : q + l ≤ p + k) : m.Acc q l := fun i hi => by
  have := h (q - p + i) (by omega)
  rwa [show p + (q - p + i) = q + i by omega] at this

theorem Acc.of_ok {m m' : Mem} {p k : Nat} (h : m.Acc p k) (e : m'.ok = m.ok) : m'.Acc p k := fun i hi => by rw [e]; exact h i hi

/-- Memory with the selected elements replaced. -/
def put (m : Mem) (p : Nat) (a : Vec w n) (sel : Nat → Bool) : Mem :=
  { m with byte := fun x => if p ≤ x ∧ x < p + n * (w / 8) ∧ sel ((x - p) / (w / 8)) = true
                            then byteOf (a.at_ ((x - p) / (w / 8))) ((x - p) % (w / 8)) else m.byte x }

/-- The vector in memory. -/
def get (w n : Nat) (m : Mem) (p : Nat) : Vec w n := Vec.recast w n (fun i : Fin (n * (w / 8)) => m.byte (p + i.val))

@[ext] theorem ext' {m m' : Mem} (h1 : m.ok = m'.ok) (h2 : ∀ x, m.byte x = m'.byte x) : m = m' := by
  cases m; cases m'; simp only [Mem.mk.injEq]; exact ⟨h1, funext h2⟩

@[simp] theorem put_ok (m : Mem) (p : Nat) (a : Vec w n) (sel : Nat → Bool) : (m.put p a sel).ok = m.ok := rfl

theorem put_byte (m : Mem) (p : Nat) (a : Vec w n) (sel : Nat → Bool) (x : Nat) : (m.put p a sel).byte x =
    if p ≤ x ∧ x < p + n * (w / 8) ∧ sel ((x - p) / (w / 8)) = true
      then byteOf (a.at_ ((x - p) / (w / 8))) ((x - p) % (w / 8)) else m.byte x := rfl

theorem get_holds (hw : IsW w) (m : Mem) (p : Nat) (i : Fin n) : Holds m.byte (p + i.val * (w / 8)) (get w n m p i) := by
  intro j hj
  have h8 := isW_b8 hw
  have hi := i.isLt
  have hx : i.val * (w / 8) + j < n * (w / 8) := by
    have : (i.val + 1) * (w / 8) ≤ n * (w / 8) := Nat.mul_le_mul_right _ hi
    rw [Nat.add_mul] at this; omega
  have := recast8_at (n := n) hw (get w n m p) (x := i.val * (w / 8) + j) hx
  rw [get, Vec.recast_recast _ (by have := isW_bpos hw; omega) (by rw [Nat.mul_comm w, ← Nat.mul_assoc 8, Nat.mul_comm 8, Nat.mul_assoc, Nat.mul_comm 8, h8])] at this
  rw [Vec.at_lt _ hx] at this
  have e1 : (i.val * (w / 8) + j) / (w / 8) = i.val := by
    rw [Nat.add_comm, Nat.add_mul_div_right _ _ (isW_bpos hw), Nat.div_eq_of_lt hj, Nat.zero_add]
  have e2 : (i.val * (w / 8) + j) % (w / 8) = j := by
    rw [Nat.add_comm, Nat.add_mul_mod_self_right, Nat.mod_eq_of_lt hj]
  refine (congrArg m.byte (Nat.add_assoc ..)).trans (this.trans ?_)
  rw [e1, e2, Vec.at_lt _ hi]
  rfl

theorem holds_inj (hw : IsW w) {f : Nat → BitVec 8} {a : Nat} {x y : BitVec w} (h1 : Holds f a x) (h2 : Holds f a y) : x = y :=
  byteOf_inj hw fun j hj => (h1 j hj).symm.trans (h2 j hj)

/-- A vector whose lanes memory holds is the one `get` returns. -/
theorem get_eq (hw : IsW w) {m : Mem} {p : Nat} {a : Vec w n} (h : ∀ i : Fin n, Holds m.byte (p + i.val * (w / 8)) (a i)) : get w n m p = a :=
  funext fun i => holds_inj hw (get_holds hw m p i) (h i)

theorem ldv_eq {m : Mem} {p : Nat} (h : m.Acc p (n * (w / 8))) : m.ldv w n p = some (get w n m p) := by
  unfold ldv rd
  rw [if_pos (show ∀ i : Fin (n * (w / 8)), m.ok (p + i.val) = true from fun i => h i.val i.isLt)]
  rfl

theorem stv_eq (hw : IsW w) {m : Mem} {p : Nat} (h : m.Acc p (n * (w / 8))) (a : Vec w n) : m.stv p a = some (m.put p a (fun _ => true)) := by
  unfold stv wr
  rw [if_pos (show ∀ i : Fin (n * (w / 8)), m.ok (p + i.val) = true from fun i => h i.val i.isLt)]
  refine congrArg some (Mem.ext' rfl fun x => ?_)
  rw [put_byte]
  by_cases hx : p ≤ x ∧ x < p + n * (w / 8)
  · simp only [hx, and_self, and_true, if_true]
    exact recast8_at hw a (by omega)
  · dsimp only
    rw [if_neg hx, if_neg (fun g => hx ⟨g.1, g.2.1⟩)]

theorem put_congr {m : Mem} {p : Nat} {a b : Vec w n} {sel sel' : Nat → Bool} (hw : IsW w) (h : ∀ i : Fin n, sel i = sel' i)
    (hab : ∀ i : Fin n, sel i = true → a i = b i) : m.put p a sel = m.put p b sel' := by
  refine Mem.ext' rfl fun x => ?_
  rw [put_byte, put_byte]
  by_cases hx : p ≤ x ∧ x < p + n * (w / 8)
  · have hd : (x - p) / (w / 8) < n := Nat.div_lt_of_lt_mul (by rw [Nat.mul_comm]; omega)
    have e := h ⟨_, hd⟩
    have e2 := hab ⟨_, hd⟩
    simp only at e e2
    rw [← e]
    by_cases hs : sel ((x - p) / (w / 8)) = true
    · rw [Vec.at_lt _ hd, Vec.at_lt _ hd, e2 hs]
    · rw [if_neg (by tauto), if_neg (by tauto)]
  · rw [if_neg (by tauto), if_neg (by tauto)]

theorem put_false {m : Mem} {p : Nat} {a : Vec w n} {sel : Nat → Bool} (hw : IsW w) (h : ∀ i : Fin n, sel i = false) : m.put p a sel = m := by
  refine Mem.ext' rfl fun x => ?_
  rw [put_byte]
  by_cases hx : p ≤ x ∧ x < p + n * (w / 8)
  · have hd : (x - p) / (w / 8) < n := Nat.div_lt_of_lt_mul (by rw [Nat.mul_comm]; omega)
    have e := h ⟨_, hd⟩
    simp only at e
    rw [if_neg (by rw [e]; simp)]
  · rw [if_neg (by tauto)]

/-- Replacing by bytes. -/
theorem put_recast (hw : IsW w) {m : Mem} {p : Nat} (a : Vec w n) {sel8 sel : Nat → Bool}
    (h : ∀ x, x < n * (w / 8) → sel8 x = sel (x / (w / 8))) : m.put p (a.recast 8 (n * (w / 8))) sel8 = m.put p a sel := by
  refine Mem.ext' rfl fun x => ?_
  rw [put_byte, put_byte]
  simp only [show (8 : Nat) / 8 = 1 from rfl, Nat.mul_one, Nat.div_one, Nat.mod_one]
  by_cases hx : p ≤ x ∧ x < p + n * (w / 8)
  · rw [h _ (by omega)]
    rw [recast8_at hw a (by omega)]
    have : byteOf (byteOf (a.at_ ((x - p) / (w / 8))) ((x - p) % (w / 8))) 0 = byteOf (a.at_ ((x - p) / (w / 8))) ((x - p) % (w / 8)) := by
      apply BitVec.eq_of_getLsbD_eq
      intro k hk
      rw [byteOf_getLsbD]; simp [hk]
    rw [this]
  · rw [if_neg (by tauto), if_neg (by tauto)]

/-- One step of a loop over parts. -/
theorem put_part (hw : IsW w) (hL : 0 < L) {m : Mem} {p j : Nat} {a : Vec w N} {s0 sel s1 : Nat → Bool} (hj : (j + 1) * L ≤ N)
    (h0 : ∀ i, i < N → (i < j * L ∨ (j + 1) * L ≤ i) → s1 i = s0 i) (hd : ∀ i, i < N → j * L ≤ i → i < (j + 1) * L → s0 i = false)
    (h1 : ∀ i, i < L → s1 (j * L + i) = sel i) :
    (m.put p a s0).put (p + j * (L * (w / 8))) (Hw.part L j a) sel = m.put p a s1 := by
  have hB := isW_bpos hw
  refine Mem.ext' rfl fun x => ?_
  rw [put_byte, put_byte, put_byte]
  have eJ : j * (L * (w / 8)) = j * L * (w / 8) := (Nat.mul_assoc ..).symm
  have hjN : (j * L + L) * (w / 8) ≤ N * (w / 8) := Nat.mul_le_mul_right _ (by rw [Nat.add_mul, Nat.one_mul] at hj; exact hj)
  rw [Nat.add_mul] at hjN
  rw [Nat.add_mul, Nat.one_mul] at hj
  by_cases hx : p ≤ x ∧ x < p + N * (w / 8)
  · have hlt : (x - p) / (w / 8) < N := Nat.div_lt_of_lt_mul (by rw [Nat.mul_comm]; omega)
    by_cases hp : p + j * L * (w / 8) ≤ x ∧ x < p + j * L * (w / 8) + L * (w / 8)
    · -- inside the part
      have ex : x - p = (x - (p + j * L * (w / 8))) + j * L * (w / 8) := by omega
      have e1 : (x - p) / (w / 8) = j * L + (x - (p + j * L * (w / 8))) / (w / 8) := by
        conv_lhs => rw [ex]
        rw [Nat.add_mul_div_right _ _ hB, Nat.add_comm]
      have e2 : (x - p) % (w / 8) = (x - (p + j * L * (w / 8))) % (w / 8) := by
        conv_lhs => rw [ex]
        rw [Nat.add_mul_mod_self_right]
      have hlt' : (x - (p + j * L * (w / 8))) / (w / 8) < L := Nat.div_lt_of_lt_mul (by rw [Nat.mul_comm (w / 8) L]; omega)
      have es0 := hd _ hlt (by rw [e1]; exact Nat.le_add_right _ _) (by rw [Nat.add_mul, Nat.one_mul]; omega)
      have es1 := h1 _ hlt'
      rw [eJ]
      rw [es0, e1, es1, e2, Hw.part_at _ hlt']
      simp only [hp, hx, and_self, true_and, Bool.false_eq_true, if_false, and_false]
    · have hq : (x - p) / (w / 8) < j * L ∨ (j + 1) * L ≤ (x - p) / (w / 8) := by
        by_cases hlo : x < p + j * L * (w / 8)
        · left; exact Nat.div_lt_of_lt_mul (by rw [Nat.mul_comm (w / 8)]; omega)
        · right; rw [Nat.le_div_iff_mul_le hB, Nat.add_mul, Nat.one_mul, Nat.add_mul]; omega
      rw [h0 _ hlt hq]
      rw [eJ, if_neg (by tauto)]
  · rw [if_neg (by rw [eJ]; omega), if_neg (by tauto), if_neg (by tauto)]

/-- A loop storing part after part. -/
theorem loop_put (hw : IsW w) (hL : 0 < L) {m : Mem} {p lo cnt B : Nat} (hB : B = L * (w / 8)) {a : Vec w N} {sel : Nat → Bool} (hN : (lo + cnt) * L ≤ N)
    {f : Nat → Mem → Option Mem}
    (hf : ∀ j, lo ≤ j → j < lo + cnt → ∀ m' : Mem, m'.ok = m.ok → f j m' = some (m'.put (p + j * B) (Hw.part L j a) (fun i => sel (j * L + i)))) :
    loopM f lo cnt m = some (m.put p a (fun i => decide (lo * L ≤ i ∧ i < (lo + cnt) * L) && sel i)) := by
  induction cnt with
  | zero =>
    refine congrArg some (put_false hw fun i => ?_).symm
    rw [decide_eq_false (by simp), Bool.false_and]
  | succ k ih =>
    have hle : (lo + k + 1) * L ≤ N := hN
    have hle2 : (lo + k) * L ≤ N := Nat.le_trans (Nat.mul_le_mul_right _ (by omega)) hle
    show (loopM f lo k m).bind (f (lo + k)) = _
    rw [ih hle2 (fun j h1 h2 => hf j h1 (by omega))]
    refine (hf (lo + k) (by omega) (by omega) (m.put p a fun i => decide (lo * L ≤ i ∧ i < (lo + k) * L) && sel i) rfl).trans (congrArg some ?_)
    have hlk : lo * L ≤ (lo + k) * L := Nat.mul_le_mul_right _ (by omega)
    have e1 : (lo + k + 1) * L = (lo + k) * L + L := by rw [Nat.add_mul, Nat.one_mul]
    have e2 : (lo + (k + 1)) * L = (lo + k) * L + L := e1
    subst hB
    refine put_part hw hL (by omega) (fun i hi g => ?_) (fun i hi g1 g2 => ?_) (fun i hi => ?_)
    · rw [e2]
      congr 1
      rw [decide_eq_decide]
      omega
    · rw [decide_eq_false (by omega), Bool.false_and]
    · rw [decide_eq_true (by omega), Bool.true_and]

/-- Storing a blend of new and old elements. -/
theorem put_blend (hw : IsW w) {m : Mem} {p : Nat} (a : Vec w n) (f : Fin n → Bool) {sel : Nat → Bool} (hs : ∀ i : Fin n, sel i = f i) :
    m.put p (fun i => if f i then a i else get w n m p i) (fun _ => true) = m.put p a sel := by
  refine Mem.ext' rfl fun x => ?_
  rw [put_byte, put_byte]
  by_cases hx : p ≤ x ∧ x < p + n * (w / 8)
  · have hd : (x - p) / (w / 8) < n := Nat.div_lt_of_lt_mul (by rw [Nat.mul_comm]; omega)
    have e := hs ⟨_, hd⟩
    simp only at e
    simp only [hx, and_self, if_true, true_and]
    rw [Vec.at_lt _ hd, Vec.at_lt _ hd, e]
    by_cases hf : f ⟨_, hd⟩ = true
    · rw [if_pos hf, if_pos hf]
    · rw [if_neg hf, if_neg hf]
      have := get_holds hw m p ⟨_, hd⟩ ((x - p) % (w / 8)) (Nat.mod_lt _ (isW_bpos hw))
      rw [← this]
      congr 1
      simp only
      have := Nat.div_add_mod' (x - p) (w / 8)
      omega
  · rw [if_neg (by tauto), if_neg (by tauto)]

end Mem

end Simdpp
