import Verif.Model.ExtractBits
import Verif.Props.ReduceAddLemmas
import Verif.Props.PopcntPub
import Verif.Props.Move
import Verif.Props.Zip
import Verif.Props.Shift

/-!
# C31: extract_bits_any, extract_bits
-/

namespace Simdpp
open Spec Sh

variable {c : Cfg} {w n N W : Nat}

theorem packBits_get {f : Nat → Bool} (hn : n ≤ W) (i : Nat) : (Hw.packBits W f n).getLsbD i = (decide (i < n) && f i) := by
  induction n with
  | zero => simp [Hw.packBits]
  | succ n ih =>
    rw [Hw.packBits, BitVec.getLsbD_or, ih (by omega)]
    by_cases g : f n = true
    · rw [if_pos g]
      simp only [BitVec.getLsbD_shiftLeft, BitVec.getLsbD_one]
      by_cases e : i = n
      · subst e; simp [g, show i < W by omega, show 0 < W by omega]
      · by_cases e2 : i < n
        · simp [e2, show i < n + 1 by omega]
        · simp [e2, show ¬ i < n + 1 by omega, show i - n ≠ 0 by omega]
    · rw [if_neg g]
      by_cases e : i = n
      · subst e; simp [g]
      · simp; by_cases e2 : i < n
        · simp [e2, show i < n + 1 by omega]
        · simp [e2, show ¬ i < n + 1 by omega]

theorem packBits_succ {f : Nat → Bool} (hn : n < W) : Hw.packBits W f (n + 1) = Hw.packBits W f n + (if f n then 1#W <<< n else 0) := by
  rw [BitVec.add_eq_or_of_and_eq_zero]; · rfl
  apply BitVec.eq_of_getLsbD_eq
  intro i hi
  rw [BitVec.getLsbD_and, packBits_get (by omega)]
  split_ifs
  · by_cases e : i < n
    · simp [e]
    · simp [e]
  · simp

theorem null_loop_get (id : Nat) (a : Vec w n) (hw : 0 < w) (hn : n ≤ W) (h0 : 0 < n) : ∀ k, k ≤ n → ∀ j,
    (Null.extract_loop W id a k).getLsbD j = (decide (n - k ≤ j ∧ j < n) && (a.at_ (j - (n - k))).getLsbD id) := by
  intro k
  induction k with
  | zero => intro _ j; simp [Null.extract_loop]
  | succ k ih =>
    intro hk j
    rw [Null.extract_loop, BitVec.getLsbD_or, BitVec.getLsbD_ushiftRight, ih (by omega), BitVec.getLsbD_shiftLeft, BitVec.getLsbD_setWidth,
      BitVec.getLsbD_and, BitVec.getLsbD_ushiftRight, BitVec.getLsbD_one]
    by_cases e1 : j = n - 1
    · have e2 : n - 1 - (n - (k + 1)) = k := by omega
      subst e1
      rw [e2]
      simp [show n - 1 < W by omega, show ¬ (1 + (n - 1) < n) by omega, show 0 < W by omega, show n ≤ n - 1 + (k + 1) by omega, show n - 1 < n by omega, hw, h0]
    · by_cases e2 : j < n - 1
      · have e3 : 1 + j - (n - k) = j - (n - (k + 1)) := by omega
        rw [e3]
        simp [e2, show (n ≤ 1 + j + k ↔ n ≤ j + (k + 1)) by omega, show 1 + j < n by omega, show j < n by omega]
      · simp [e2, show ¬ (1 + j < n) by omega, show ¬ (j < n) by omega, show j - (n - 1) ≠ 0 by omega]

/-- Bit `i` of the result is one of the bits of lane `i`; there are no other bits. -/
def AnyBit (a : Vec w n) (r : BitVec W) : Prop :=
  ∃ sel : Nat → Nat, (∀ i, sel i < w) ∧ ∀ i, r.getLsbD i = (decide (i < n) && (a.at_ i).getLsbD (sel i))

theorem null_loop_all (id : Nat) (a : Vec w n) (hw : 0 < w) (hn : n ≤ W) (h0 : 0 < n) (j : Nat) :
    (Null.extract_loop W id a n).getLsbD j = (decide (j < n) && (a.at_ j).getLsbD id) := by
  rw [null_loop_get id a hw hn h0 n (le_refl n), Nat.sub_self]; simp

theorem movemask_get (a : Vec w n) (hn : n ≤ W) (i : Nat) : (Hw.movemask W a).getLsbD i = (decide (i < n) && (a.at_ i).getLsbD (w - 1)) := by
  unfold Hw.movemask
  rw [packBits_get hn, BitVec.msb_eq_getLsbD_last]

theorem movemask_any (a : Vec w n) (hw : 0 < w) (hn : n ≤ W) : AnyBit a (Hw.movemask W a) :=
  ⟨fun _ => w - 1, fun _ => Nat.sub_lt hw Nat.one_pos, movemask_get a hn⟩

theorem and_pow (x : BitVec w) {k : Nat} (hk : k < w) : x &&& BitVec.ofNat w (2 ^ k) = if x.getLsbD k then 1#w <<< k else 0 := by
  apply BitVec.eq_of_getLsbD_eq
  intro i hi
  rw [BitVec.getLsbD_and, BitVec.getLsbD_ofNat, Nat.testBit_two_pow]
  by_cases e : k = i
  · subst e
    split_ifs with g
    · simp [g, hk, show 0 < w by omega]
    · simp [g]
  · have : (1#w <<< k).getLsbD i = false := by
      rw [BitVec.getLsbD_shiftLeft, BitVec.getLsbD_one]
      by_cases e2 : i < k
      · simp [e2]
      · simp [show i - k ≠ 0 by omega]
    split_ifs
    · rw [this]; simp [e]
    · simp [e]

theorem pows_at {k i : Nat} (hk : 0 < k) (hi : i < n) : (pows k : Vec w n) ⟨i, hi⟩ = BitVec.ofNat w (2 ^ (i % k)) := by
  unfold pows cyc
  have : i % k < k := Nat.mod_lt _ hk
  simp [List.getD_eq_getElem?_getD, this]

/-- After masking with 1, 2, 4, .. lane `j` is its bit `j mod k` in place. -/
theorem masked_at (a : Vec w n) {k : Nat} (hk : 0 < k) (hkw : k ≤ w) {j : Nat} (hj : j < n) :
    Vec.at_ (fun i => a i &&& (pows k : Vec w n) i : Vec w n) j = if (a.at_ j).getLsbD (j % k) then 1#w <<< (j % k) else 0 := by
  rw [Vec.at_lt _ hj]
  show a ⟨j, hj⟩ &&& _ = _
  rw [pows_at hk hj, and_pow _ (by have := Nat.mod_lt j hk; omega), Vec.at_lt a hj]

theorem packBits8 {f : Nat → Bool} (hW : 8 ≤ W) : Hw.packBits W f 8 = (if f 0 then 1#W <<< 0 else 0) + (if f 1 then 1#W <<< 1 else 0) +
    (if f 2 then 1#W <<< 2 else 0) + (if f 3 then 1#W <<< 3 else 0) + (if f 4 then 1#W <<< 4 else 0) + (if f 5 then 1#W <<< 5 else 0) +
    (if f 6 then 1#W <<< 6 else 0) + (if f 7 then 1#W <<< 7 else 0) := by
  rw [packBits_succ (by omega), packBits_succ (by omega), packBits_succ (by omega), packBits_succ (by omega), packBits_succ (by omega),
    packBits_succ (by omega), packBits_succ (by omega), packBits_succ (by omega)]
  simp [Hw.packBits]

theorem packBits4 {f : Nat → Bool} (hW : 4 ≤ W) : Hw.packBits W f 4 = (if f 0 then 1#W <<< 0 else 0) + (if f 1 then 1#W <<< 1 else 0) +
    (if f 2 then 1#W <<< 2 else 0) + (if f 3 then 1#W <<< 3 else 0) := by
  rw [packBits_succ (by omega), packBits_succ (by omega), packBits_succ (by omega), packBits_succ (by omega)]
  simp [Hw.packBits]

theorem packBits_split {f : Nat → Bool} {m k : Nat} (h : m + k ≤ W) :
    Hw.packBits W f (m + k) = Hw.packBits W f m + Hw.packBits W (fun j => f (m + j)) k <<< m := by
  rw [BitVec.add_eq_or_of_and_eq_zero]
  · apply BitVec.eq_of_getLsbD_eq
    intro i hi
    rw [packBits_get h, BitVec.getLsbD_or, packBits_get (by omega), BitVec.getLsbD_shiftLeft, packBits_get (by omega)]
    by_cases e : i < m
    · simp [e, show i < m + k by omega]
    · simp [e, hi, show (i - m < k ↔ i < m + k) by omega, show m + (i - m) = i by omega]
  · apply BitVec.eq_of_getLsbD_eq
    intro i hi
    rw [BitVec.getLsbD_and, packBits_get (by omega), BitVec.getLsbD_shiftLeft]
    by_cases e : i < m <;> simp [e]

/-- The sum of eight bytes in three steps. -/
theorem eb_tree8 : ∀ b0 b1 b2 b3 b4 b5 b6 b7 : Bool,
    ((((if b0 then 1#8 <<< 0 else 0).setWidth 16 + (if b1 then 1#8 <<< 1 else 0).setWidth 16).setWidth 32 +
      ((if b2 then 1#8 <<< 2 else 0).setWidth 16 + (if b3 then 1#8 <<< 3 else 0).setWidth 16).setWidth 32).setWidth 64 +
     (((if b4 then 1#8 <<< 4 else 0).setWidth 16 + (if b5 then 1#8 <<< 5 else 0).setWidth 16).setWidth 32 +
      ((if b6 then 1#8 <<< 6 else 0).setWidth 16 + (if b7 then 1#8 <<< 7 else 0).setWidth 16).setWidth 32).setWidth 64 : BitVec 64) =
    (if b0 then 1#64 <<< 0 else 0) + (if b1 then 1#64 <<< 1 else 0) +
    (if b2 then 1#64 <<< 2 else 0) + (if b3 then 1#64 <<< 3 else 0) + (if b4 then 1#64 <<< 4 else 0) + (if b5 then 1#64 <<< 5 else 0) +
    (if b6 then 1#64 <<< 6 else 0) + (if b7 then 1#64 <<< 7 else 0) := by decide +kernel

theorem eb_tree4 : ∀ b0 b1 b2 b3 : Bool,
    (((if b0 then 1#16 <<< 0 else 0).setWidth 32 + (if b1 then 1#16 <<< 1 else 0).setWidth 32).setWidth 64 +
      ((if b2 then 1#16 <<< 2 else 0).setWidth 32 + (if b3 then 1#16 <<< 3 else 0).setWidth 32).setWidth 64 : BitVec 64) =
    (if b0 then 1#64 <<< 0 else 0) + (if b1 then 1#64 <<< 1 else 0) +
    (if b2 then 1#64 <<< 2 else 0) + (if b3 then 1#64 <<< 3 else 0) := by decide +kernel

theorem eb_tree4h : ∀ b0 b1 b2 b3 : Bool,
    (((if b0 then 1#16 <<< 4 else 0).setWidth 32 + (if b1 then 1#16 <<< 5 else 0).setWidth 32).setWidth 64 +
      ((if b2 then 1#16 <<< 6 else 0).setWidth 32 + (if b3 then 1#16 <<< 7 else 0).setWidth 32).setWidth 64 : BitVec 64) =
    ((if b0 then 1#64 <<< 0 else 0) + (if b1 then 1#64 <<< 1 else 0) +
    (if b2 then 1#64 <<< 2 else 0) + (if b3 then 1#64 <<< 3 else 0)) <<< 4 := by decide +kernel

theorem vpaddl_at {m : Nat} (a : Vec w n) {i : Nat} (hi : i < m) : (Hw.vpaddl a : Vec (2 * w) m).at_ i =
    (a.at_ (2 * i)).setWidth (2 * w) + (a.at_ (2 * i + 1)).setWidth (2 * w) := by rw [Vec.at_lt _ hi]; rfl

theorem hadd2_at {m v : Nat} (a b : Vec w n) {i : Nat} (hi : i < m) : (Hw.hadd2 false v a b : Vec v m).at_ i =
    (b.at_ (2 * i)).setWidth v + (a.at_ (2 * i + 1)).setWidth v := by
  rw [Vec.at_lt _ hi]; unfold Hw.hadd2 Hw.extLane; rw [BitVec.add_comm]; rfl

/-- Three steps, NEON or MSA. -/
theorem eb_chain8 {v : Vec 8 16} {g : Nat → Bool} (hv : ∀ j, j < 16 → v.at_ j = if g j then 1#8 <<< (j % 8) else 0)
    {a16 : Vec 16 8} {a32 : Vec 32 4} {a64 : Vec 64 2}
    (h1 : ∀ i, i < 8 → a16.at_ i = (v.at_ (2 * i)).setWidth 16 + (v.at_ (2 * i + 1)).setWidth 16)
    (h2 : ∀ i, i < 4 → a32.at_ i = (a16.at_ (2 * i)).setWidth 32 + (a16.at_ (2 * i + 1)).setWidth 32)
    (h3 : ∀ i, i < 2 → a64.at_ i = (a32.at_ (2 * i)).setWidth 64 + (a32.at_ (2 * i + 1)).setWidth 64) :
    ∀ q, q < 2 → a64.at_ q = Hw.packBits 64 (fun j => g (8 * q + j)) 8 := by
  intro q hq
  rw [packBits8 (by decide), ← eb_tree8, h3 q hq, h2 _ (by omega), h2 _ (by omega), h1 _ (by omega), h1 _ (by omega), h1 _ (by omega), h1 _ (by omega),
    hv _ (by omega), hv _ (by omega), hv _ (by omega), hv _ (by omega), hv _ (by omega), hv _ (by omega), hv _ (by omega), hv _ (by omega)]
  obtain rfl | rfl : q = 0 ∨ q = 1 := by omega
  all_goals rfl


theorem eb_chain16 {v : Vec 16 8} {g : Nat → Bool} (hv : ∀ j, j < 8 → v.at_ j = if g j then 1#16 <<< (j % 8) else 0)
    {a32 : Vec 32 4} {a64 : Vec 64 2}
    (h2 : ∀ i, i < 4 → a32.at_ i = (v.at_ (2 * i)).setWidth 32 + (v.at_ (2 * i + 1)).setWidth 32)
    (h3 : ∀ i, i < 2 → a64.at_ i = (a32.at_ (2 * i)).setWidth 64 + (a32.at_ (2 * i + 1)).setWidth 64) :
    a64.at_ 0 = Hw.packBits 64 g 4 ∧ a64.at_ 1 = Hw.packBits 64 (fun j => g (4 + j)) 4 <<< 4 := by
  rw [packBits4 (by decide), packBits4 (by decide), ← eb_tree4, ← eb_tree4h, h3 0 (by decide), h3 1 (by decide), h2 _ (by omega), h2 _ (by omega),
    h2 _ (by omega), h2 _ (by omega), hv _ (by omega), hv _ (by omega), hv _ (by omega), hv _ (by omega), hv _ (by omega), hv _ (by omega),
    hv _ (by omega), hv _ (by omega)]
  exact ⟨rfl, rfl⟩

theorem eb_tree2 : ∀ b0 b1 : Bool, ((if b0 then 1#32 <<< 0 else 0).setWidth 64 + (if b1 then 1#32 <<< 1 else 0).setWidth 64 : BitVec 64) =
    (if b0 then 1#64 <<< 0 else 0) + (if b1 then 1#64 <<< 1 else 0) := by decide +kernel
theorem eb_tree2h : ∀ b0 b1 : Bool, ((if b0 then 1#32 <<< 2 else 0).setWidth 64 + (if b1 then 1#32 <<< 3 else 0).setWidth 64 : BitVec 64) =
    ((if b0 then 1#64 <<< 0 else 0) + (if b1 then 1#64 <<< 1 else 0)) <<< 2 := by decide +kernel

theorem packBits2 {f : Nat → Bool} (hW : 2 ≤ W) : Hw.packBits W f 2 = (if f 0 then 1#W <<< 0 else 0) + (if f 1 then 1#W <<< 1 else 0) := by
  rw [packBits_succ (by omega), packBits_succ (by omega)]
  simp [Hw.packBits]

theorem eb_chain32 {v : Vec 32 4} {g : Nat → Bool} (hv : ∀ j, j < 4 → v.at_ j = if g j then 1#32 <<< (j % 4) else 0)
    {a64 : Vec 64 2} (h3 : ∀ i, i < 2 → a64.at_ i = (v.at_ (2 * i)).setWidth 64 + (v.at_ (2 * i + 1)).setWidth 64) :
    a64.at_ 0 = Hw.packBits 64 g 2 ∧ a64.at_ 1 = Hw.packBits 64 (fun j => g (2 + j)) 2 <<< 2 := by
  rw [packBits2 (by decide), packBits2 (by decide), ← eb_tree2, ← eb_tree2h, h3 0 (by decide), h3 1 (by decide), hv _ (by omega), hv _ (by omega), hv _ (by omega), hv _ (by omega)]
  exact ⟨rfl, rfl⟩

/-! ## AltiVec sums -/

theorem sums_at (y : Vec 32 4) (hy : ∀ i, (y i).toNat < 2 ^ 28) : ((Hw.sums y (Vec.splat 0)).recast 16 8 : Vec 16 8).at_ 6 =
    (y 0 + y 1 + y 2 + y 3).setWidth 16 := by
  have e : ((Hw.sums y (Vec.splat 0)).recast 16 8 : Vec 16 8).at_ 6 = ((Hw.sums y (Vec.splat 0)).at_ 3).setWidth 16 := by
    rw [recast_at (w := 32) (v := 16) (q := 2) (by decide) (by decide) (by decide) (by decide)]
    show BitVec.extractLsb' 0 16 _ = _
    apply BitVec.eq_of_getLsbD_eq; intro i hi
    simp [BitVec.getLsbD_extractLsb']
  rw [e, Vec.at_lt _ (by decide)]
  congr 1
  show BitVec.ofInt 32 (Spec.clamp true 32 ((y 0).toInt + (y 1).toInt + (y 2).toInt + (y 3).toInt + (0#32).toInt)) = _
  have h0 := hy 0; have h1 := hy 1; have h2 := hy 2; have h3 := hy 3
  have i0 : (y 0).toInt = (y 0).toNat := BitVec.toInt_eq_toNat_of_lt (by omega)
  have i1 : (y 1).toInt = (y 1).toNat := BitVec.toInt_eq_toNat_of_lt (by omega)
  have i2 : (y 2).toInt = (y 2).toNat := BitVec.toInt_eq_toNat_of_lt (by omega)
  have i3 : (y 3).toInt = (y 3).toNat := BitVec.toInt_eq_toNat_of_lt (by omega)
  rw [i0, i1, i2, i3, show (0#32).toInt = 0 from rfl]
  have hc : Spec.clamp true 32 (((y 0).toNat : Int) + (y 1).toNat + (y 2).toNat + (y 3).toNat + 0) =
      (((y 0).toNat + (y 1).toNat + (y 2).toNat + (y 3).toNat : Nat) : Int) := by
    simp only [Spec.clamp, Spec.lo, Spec.hi]
    norm_num
    omega
  rw [hc, BitVec.ofInt_natCast]
  apply BitVec.eq_of_toNat_eq
  rw [BitVec.toNat_ofNat, BitVec.toNat_add, BitVec.toNat_add, BitVec.toNat_add]
  omega

/-- A word of four masked bytes. -/
theorem sum4_lo : ∀ b0 b1 b2 b3 : Bool, BitVec.ofInt 32 (Spec.clamp false 32 (0 + ((if b0 then 1#8 <<< 0 else 0).toNat : Int) +
      ((if b1 then 1#8 <<< 1 else 0).toNat : Int) + ((if b2 then 1#8 <<< 2 else 0).toNat : Int) + ((if b3 then 1#8 <<< 3 else 0).toNat : Int))) =
    (if b0 then 1#32 <<< 0 else 0) + (if b1 then 1#32 <<< 1 else 0) + (if b2 then 1#32 <<< 2 else 0) + (if b3 then 1#32 <<< 3 else 0) := by
  decide +kernel
theorem sum4_hi : ∀ b0 b1 b2 b3 : Bool, BitVec.ofInt 32 (Spec.clamp false 32 (0 + ((if b0 then 1#8 <<< 4 else 0).toNat : Int) +
      ((if b1 then 1#8 <<< 5 else 0).toNat : Int) + ((if b2 then 1#8 <<< 6 else 0).toNat : Int) + ((if b3 then 1#8 <<< 7 else 0).toNat : Int))) =
    ((if b0 then 1#32 <<< 0 else 0) + (if b1 then 1#32 <<< 1 else 0) + (if b2 then 1#32 <<< 2 else 0) + (if b3 then 1#32 <<< 3 else 0)) <<< 4 := by
  decide +kernel

theorem sum4s_at (a : Vec 8 16) (q : Fin 4) : (Hw.sum4s false a (Vec.splat 0) : Vec 32 4) q = BitVec.ofInt 32 (Spec.clamp false 32
    (0 + ((a.at_ (4 * q.val)).toNat : Int) + ((a.at_ (4 * q.val + 1)).toNat : Int) + ((a.at_ (4 * q.val + 2)).toNat : Int) +
      ((a.at_ (4 * q.val + 3)).toNat : Int))) := rfl

theorem sum4s_masked {v : Vec 8 16} {g : Nat → Bool} (hv : ∀ j, j < 16 → v.at_ j = if g j then 1#8 <<< (j % 8) else 0) (q : Fin 4) :
    (Hw.sum4s false v (Vec.splat 0) : Vec 32 4) q = Hw.packBits 32 (fun j => g (4 * q.val + j)) 4 <<< (4 * (q.val % 2)) := by
  have hq := q.isLt
  rw [sum4s_at, hv _ (by omega), hv _ (by omega), hv _ (by omega), hv _ (by omega), packBits4 (by decide)]
  obtain e | e | e | e : q.val = 0 ∨ q.val = 1 ∨ q.val = 2 ∨ q.val = 3 := by omega
  all_goals rw [e]
  · exact (sum4_lo _ _ _ _).trans (BitVec.shiftLeft_zero _).symm
  · exact sum4_hi _ _ _ _
  · exact (sum4_lo _ _ _ _).trans (BitVec.shiftLeft_zero _).symm
  · exact sum4_hi _ _ _ _

theorem packBits_lt {f : Nat → Bool} (hn : n ≤ W) : (Hw.packBits W f n).toNat < 2 ^ n := by
  apply Nat.lt_pow_two_of_testBit
  intro i hi
  have := packBits_get (f := f) hn i
  rw [BitVec.getLsbD] at this
  rw [this]; simp [show ¬ i < n by omega]

theorem eb_shl_lt {x : BitVec 32} {k s : Nat} (hx : x.toNat < 2 ^ k) (hs : k + s ≤ 28) : (x <<< s).toNat < 2 ^ 28 := by
  rw [BitVec.toNat_shiftLeft, Nat.shiftLeft_eq]
  refine lt_of_le_of_lt (Nat.mod_le _ _) ?_
  calc x.toNat * 2 ^ s < 2 ^ k * 2 ^ s := Nat.mul_lt_mul_of_pos_right hx (Nat.two_pow_pos _)
    _ = 2 ^ (k + s) := (Nat.pow_add _ _ _).symm
    _ ≤ 2 ^ 28 := Nat.pow_le_pow_right (by decide) hs

/-- Four eb_nibbles. -/
theorem eb_nibbles {f : Nat → Bool} : Hw.packBits 32 f 4 + Hw.packBits 32 (fun j => f (4 + j)) 4 <<< 4 + Hw.packBits 32 (fun j => f (8 + j)) 4 <<< 8 +
    Hw.packBits 32 (fun j => f (12 + j)) 4 <<< 12 = Hw.packBits 32 f 16 := by
  rw [packBits_split (f := f) (m := 12) (k := 4) (by decide), packBits_split (f := f) (m := 8) (k := 4) (by decide),
    packBits_split (f := f) (m := 4) (k := 4) (by decide)]

/-! ## MSA: or with the upper half moved down -/

/-- The low bits of `a | (a moved down by 128/w - s lanes)`. -/
theorem move_or (h : c.Ok) (hw : IsW w) {s : Nat} (h0 : 0 < s) (hs : s < 128 / w) (a : Vec w (128 / w)) :
    ∃ b, i_move_l c .int .r128 s a = some b ∧ ∃ d, i_bit_or c .int .r128 a b = some d ∧
      ∀ i, i < s → d.at_ i = a.at_ i ||| (if i + s < 128 / w then a.at_ (i + s) else 0) := by
  have e := i_move_l_eq h (k := .int) (r := .r128) (n := 128 / w) hw h0 hs (by rfl) rfl a
  refine ⟨_, e, _, i_bit_or_eq h (k := .int) (r := .r128) hw (by rfl) _ _, fun i hi => ?_⟩
  have hlt : i < 128 / w := by omega
  have hL : 0 < 128 / w := by omega
  rw [Vec.at_lt _ hlt]
  show a ⟨i, hlt⟩ ||| _ = _
  rw [Vec.at_lt a hlt, ← Vec.at_lt (gather (128 / w) (fun j => j + s) a (Vec.splat 0)) hlt, gather_at _ _ hlt, Nat.mod_eq_of_lt hlt,
    Nat.div_eq_of_lt hlt, Nat.zero_mul, Nat.zero_add]
  congr 1
  split_ifs
  · rfl
  · rw [Nat.zero_add, at_zero]
  · rfl

/-- Bytes of a masked and summed register. -/
theorem byte_packed {v k : Nat} (hk : k ≤ v) (hv : v ≤ 64) (x : Nat → Bool) :
    (Hw.packBits 64 x k).extractLsb' 0 v = Hw.packBits v x k := by
  apply BitVec.eq_of_getLsbD_eq; intro i hi
  rw [BitVec.getLsbD_extractLsb', packBits_get (by omega), packBits_get hk]
  simp [hi]

theorem byte_packed_hi {v s k : Nat} (hk : k ≤ 64) (hs : k ≤ s) (x : Nat → Bool) :
    (Hw.packBits 64 x k).extractLsb' s v = 0#v := by
  apply BitVec.eq_of_getLsbD_eq; intro i hi
  rw [BitVec.getLsbD_extractLsb', packBits_get hk]
  simp [show ¬ s + i < k by omega]

/-- The bit each configuration takes from a byte. -/
def Cfg.sel8 (c : Cfg) (i : Nat) : Nat := if c.null then 0 else if c.sse2 then 7 else i % 8

/-- Two bytes as a halfword. -/
theorem eb_two_bytes {m : Nat} (g : Nat → Bool) (d : Vec 8 n) (hn : n = 2 * m) (hm : 0 < m) (h0 : d.at_ 0 = Hw.packBits 8 g 8)
    (h1 : d.at_ 1 = Hw.packBits 8 (fun j => g (8 + j)) 8) (i : Nat) :
    ((d.recast 16 m : Vec 16 m).at_ 0).getLsbD i = (decide (i < 16) && g i) := by
  rw [Vec.at_lt _ hm]
  by_cases hi : i < 16
  · rw [Vec.recast_getLsbD]
    simp only [hi, decide_true, Bool.true_and, Nat.zero_mul, Nat.zero_add]
    by_cases e : i < 8
    · have := Vec.bit_eq d ⟨0, by omega⟩ e
      rw [Nat.zero_mul, Nat.zero_add] at this
      rw [this, ← Vec.at_lt d, h0, packBits_get (by decide)]
      simp [e]
    · have := Vec.bit_eq d ⟨1, by omega⟩ (show i - 8 < 8 by omega)
      rw [show 1 * 8 + (i - 8) = i by omega] at this
      rw [this, ← Vec.at_lt d, h1, packBits_get (by decide), show 8 + (i - 8) = i by omega]
      simp [show i - 8 < 8 by omega]
  · rw [BitVec.getLsbD_of_ge _ _ (by omega)]; simp [hi]

theorem extract_any8_eq (h : c.Ok) (a : Vec 8 16) : ∃ r, extract_any8 c a = some r ∧
    ∀ i, r.getLsbD i = (decide (i < 16) && (a.at_ i).getLsbD (c.sel8 i)) := by
  unfold extract_any8
  by_cases b1 : c.null = true
  · refine ⟨_, if_pos b1, fun i => ?_⟩
    rw [null_loop_all 0 a (by decide) (by decide) (by decide)]; unfold Cfg.sel8; rw [if_pos b1]
  rw [if_neg b1]
  by_cases b2 : c.sse2 = true
  · refine ⟨_, if_pos b2, fun i => ?_⟩
    rw [movemask_get a (by decide)]; unfold Cfg.sel8; rw [if_neg b1, if_pos b2]
  rw [if_neg b2]
  have hs : ∀ i, c.sel8 i = i % 8 := fun i => by unfold Cfg.sel8; rw [if_neg b1, if_neg b2]
  have ea := i_bit_and_eq h (k := .int) (r := .r128) isW8 (by rfl) a (pows 8)
  have hv : ∀ j, j < 16 → Vec.at_ (fun i => a i &&& (pows 8 : Vec 8 16) i : Vec 8 16) j = if (a.at_ j).getLsbD (j % 8) then 1#8 <<< (j % 8) else 0 :=
    fun j hj => masked_at a (by decide) (by decide) hj
  generalize hva : (fun i => a i &&& (pows 8 : Vec 8 16) i : Vec 8 16) = v at hv ea
  by_cases b3 : c.neon = true
  · rw [if_pos b3]
    refine ⟨_, bind_of ea _, fun i => ?_⟩
    have hc := eb_chain8 hv (a16 := Hw.vpaddl v) (a32 := Hw.vpaddl (Hw.vpaddl v : Vec 16 8)) (a64 := Hw.vpaddl (Hw.vpaddl (Hw.vpaddl v : Vec 16 8) : Vec 32 4))
      (fun i hi => vpaddl_at _ hi) (fun i hi => vpaddl_at _ hi) (fun i hi => vpaddl_at _ hi)
    generalize (Hw.vpaddl (Hw.vpaddl (Hw.vpaddl v : Vec 16 8) : Vec 32 4) : Vec 64 2) = a64 at hc
    rw [hs]
    refine eb_two_bytes (m := 4) (n := 8) (fun i => (a.at_ i).getLsbD (i % 8)) _ (by decide) (by decide) ?_ ?_ i
    · show (a64.recast 8 16).at_ 0 = _
      rw [recast_at (q := 8) (by decide) (by decide) (by decide) (by decide)]
      show (a64.at_ 0).extractLsb' 0 8 = _
      rw [hc 0 (by decide), byte_packed (by decide) (by decide)]
      simp only [Nat.mul_zero, Nat.zero_add]
    · show (a64.recast 8 16).at_ 8 = _
      rw [recast_at (q := 8) (by decide) (by decide) (by decide) (by decide)]
      show (a64.at_ 1).extractLsb' 0 8 = _
      rw [hc 1 (by decide), byte_packed (by decide) (by decide)]
  rw [if_neg b3]
  by_cases b4 : c.altivec = true
  · rw [if_pos b4]
    refine ⟨_, (bind_of ea _).trans (i_extract_eq h (k := .int) (sg := false) (r := .r128) iw16 (by rfl) (id := 6) (by decide) (by rintro ⟨e, -⟩; exact absurd e (by decide)) _), fun i => ?_⟩
    rw [hs]
    refine (congrArg (fun t : BitVec 16 => t.getLsbD i) (sums_at _ ?_)).trans ?_
    rotate_left
    · have hsum : ∀ q : Fin 4, Hw.sl_mod (Hw.sum4s false v (Vec.splat 0) : Vec 32 4) (cyc [0, 0, 8, 8]) q =
          Hw.packBits 32 (fun j => (a.at_ (4 * q.val + j)).getLsbD ((4 * q.val + j) % 8)) 4 <<< (4 * q.val) := by
        intro q
        show (Hw.sum4s false v (Vec.splat 0) : Vec 32 4) q <<< _ = _
        rw [sum4s_masked hv q, ← BitVec.shiftLeft_add]
        congr 1
        obtain rfl | rfl | rfl | rfl : q = 0 ∨ q = 1 ∨ q = 2 ∨ q = 3 := by omega
        all_goals rfl
      rw [hsum, hsum, hsum, hsum]
      have := eb_nibbles (f := fun j => (a.at_ j).getLsbD (j % 8))
      rw [show (((0 : Fin 4).val)) = 0 from rfl, show (((1 : Fin 4).val)) = 1 from rfl, show (((2 : Fin 4).val)) = 2 from rfl, show (((3 : Fin 4).val)) = 3 from rfl]
      simp only [Nat.mul_zero, Nat.zero_add, BitVec.shiftLeft_zero, Nat.mul_one, Nat.reduceMul] at this ⊢
      rw [this, BitVec.getLsbD_setWidth, packBits_get (by decide)]
      by_cases hi : i < 16 <;> simp [hi]
    · intro q
      show BitVec.toNat ((Hw.sum4s false v (Vec.splat 0) : Vec 32 4) q <<< (((cyc [0, 0, 8, 8] : Vec 32 4) q).toNat % 32)) < _
      rw [sum4s_masked hv q, ← BitVec.shiftLeft_add]
      refine eb_shl_lt (packBits_lt (by decide)) ?_
      have hq := q.isLt
      obtain rfl | rfl | rfl | rfl : q = 0 ∨ q = 1 ∨ q = 2 ∨ q = 3 := by omega
      all_goals decide
  rw [if_neg b4]
  by_cases b5 : c.msa = true
  · rw [if_pos b5]
    have hc := eb_chain8 hv (a16 := Hw.hadd2 false 16 v v) (a32 := Hw.hadd2 false 32 (Hw.hadd2 false 16 v v : Vec 16 8) (Hw.hadd2 false 16 v v : Vec 16 8))
      (a64 := Hw.hadd2 false 64 (Hw.hadd2 false 32 (Hw.hadd2 false 16 v v : Vec 16 8) (Hw.hadd2 false 16 v v : Vec 16 8) : Vec 32 4)
        (Hw.hadd2 false 32 (Hw.hadd2 false 16 v v : Vec 16 8) (Hw.hadd2 false 16 v v : Vec 16 8) : Vec 32 4))
      (fun i hi => hadd2_at _ _ hi) (fun i hi => hadd2_at _ _ hi) (fun i hi => hadd2_at _ _ hi)
    refine (fun (q : ∃ r, _ ∧ _) => by obtain ⟨r, e, hr⟩ := q; exact ⟨r, (bind_of ea _).trans e, hr⟩) ?_
    dsimp only
    generalize (Hw.hadd2 false 64 (Hw.hadd2 false 32 (Hw.hadd2 false 16 v v : Vec 16 8) (Hw.hadd2 false 16 v v : Vec 16 8) : Vec 32 4)
        (Hw.hadd2 false 32 (Hw.hadd2 false 16 v v : Vec 16 8) (Hw.hadd2 false 16 v v : Vec 16 8) : Vec 32 4) : Vec 64 2) = a64 at hc ⊢
    obtain ⟨b, eb, d, ed, hd⟩ := move_or h isW8 (s := 7) (by decide) (by decide) (a64.recast 8 16)
    refine ⟨_, (bind_of eb _).trans ((bind_of ed _).trans (i_extract_eq h (k := .int) (sg := false) (r := .r128) iw16 (by rfl) (id := 0) (by decide) (by rintro ⟨e, -⟩; exact absurd e (by decide)) _)), fun i => ?_⟩
    rw [hs]
    have hat : ∀ t, (a64.recast 8 16).at_ t = (a64.at_ (t / 8)).extractLsb' (t % 8 * 8) 8 := fun t =>
      recast_at (q := 8) (by decide) (by decide) (by decide) (by decide) a64 t
    refine eb_two_bytes (m := 8) (n := 16) (fun i => (a.at_ i).getLsbD (i % 8)) d (by decide) (by decide) ?_ ?_ i
    · rw [hd 0 (by decide), if_pos (by decide)]
      rw [hat 0, hat (0 + 7)]
      show (a64.at_ 0).extractLsb' 0 8 ||| (a64.at_ 0).extractLsb' 56 8 = _
      rw [hc 0 (by decide), byte_packed (by decide) (by decide), byte_packed_hi (by decide) (by decide), BitVec.or_zero]
      simp only [Nat.mul_zero, Nat.zero_add]
    · rw [hd 1 (by decide), if_pos (by decide)]
      rw [hat 1, hat (1 + 7)]
      show (a64.at_ 0).extractLsb' 8 8 ||| (a64.at_ 1).extractLsb' 0 8 = _
      rw [hc 0 (by decide), hc 1 (by decide), byte_packed (by decide) (by decide), byte_packed_hi (by decide) (by decide), BitVec.zero_or]
  · exfalso; clear hv ea hs; cfg_absurd h


/-! ## The other element sizes -/

theorem extract_any_combine {L : Nat} (a : Vec w N) (hN : N = L + L) {lo : BitVec W} {hi : BitVec W} (hW : L + L ≤ W)
    (h0 : AnyBit (Hw.part L 0 a) lo) (h1 : AnyBit (Hw.part L 1 a) hi) : AnyBit a (lo ||| hi <<< L) := by
  obtain ⟨s0, l0, g0⟩ := h0
  obtain ⟨s1, l1, g1⟩ := h1
  refine ⟨fun i => if i < L then s0 i else s1 (i - L), fun i => ?_, fun i => ?_⟩
  · dsimp only; split_ifs
    · exact l0 _
    · exact l1 _
  · rw [BitVec.getLsbD_or, BitVec.getLsbD_shiftLeft, g0, g1]
    dsimp only
    by_cases e : i < L
    · rw [if_pos e, Hw.part_at _ e]
      simp [e, show i < N by omega]
    · rw [if_neg e]
      by_cases e2 : i - L < L
      · rw [Hw.part_at _ e2, Nat.one_mul, show L + (i - L) = i by omega]
        simp [e, e2, show i < N by omega, show i < W by omega]
      · simp [e, e2, show ¬ i < N by omega]

theorem AnyBit.widen {V : Nat} {a : Vec w n} {r : BitVec W} (h : AnyBit a r) (hV : W ≤ V) : AnyBit a (r.setWidth V) := by
  obtain ⟨s, l, g⟩ := h
  refine ⟨s, l, fun i => ?_⟩
  rw [BitVec.getLsbD_setWidth, g]
  by_cases e : i < V
  · simp [e]
  · have := g i
    rw [BitVec.getLsbD_of_ge r i (by omega)] at this
    rw [← this]; simp

theorem AnyBit.narrow {V : Nat} {a : Vec w n} {r : BitVec W} (h : AnyBit a r) (hV : n ≤ V) : AnyBit a (r.setWidth V) := by
  obtain ⟨s, l, g⟩ := h
  refine ⟨s, l, fun i => ?_⟩
  rw [BitVec.getLsbD_setWidth, g]
  by_cases e : i < n
  · simp [show i < V by omega]
  · simp [e]

theorem anyBit_packed {a : Vec w n} {sel : Nat → Nat} (hs : ∀ i, sel i < w) {r : BitVec W} (hn : n ≤ W)
    (hr : r = Hw.packBits W (fun i => (a.at_ i).getLsbD (sel i)) n) : AnyBit a r :=
  ⟨sel, hs, fun i => by rw [hr, packBits_get hn]⟩

theorem extract_any8_any (h : c.Ok) (a : Vec 8 16) : ∃ r, extract_any8 c a = some r ∧ AnyBit a r := by
  obtain ⟨r, e, hr⟩ := extract_any8_eq h a
  refine ⟨r, e, c.sel8, fun i => ?_, hr⟩
  unfold Cfg.sel8
  split_ifs
  · decide
  · decide
  · exact Nat.mod_lt _ (by decide)

theorem extract_any8x_any (h : c.Ok) (a : Vec 8 32) : ∃ r, extract_any8x c a = some r ∧ AnyBit a r := by
  unfold extract_any8x
  by_cases g : c.avx2 = true
  · exact ⟨_, if_pos g, movemask_any a (by decide) (by decide)⟩
  · obtain ⟨lo, e0, h0⟩ := extract_any8_any h (Hw.part 16 0 a)
    obtain ⟨hi, e1, h1⟩ := extract_any8_any h (Hw.part 16 1 a)
    exact ⟨_, (if_neg g).trans ((bind_of e0 _).trans (bind_of e1 _)),
      extract_any_combine a (L := 16) rfl (by decide) (h0.widen (by decide)) (h1.widen (by decide))⟩

/-- Bit 7 of the low byte of each halfword. -/
theorem eb_lowbyte (a : Vec 16 n) {m : Nat} (hm : m = n * 2) {j : Nat} :
    ((a.recast 8 m : Vec 8 m).at_ (2 * j)).getLsbD 7 = (a.at_ j).getLsbD 7 := by
  rw [recast_at (w := 16) (v := 8) (q := 2) (by decide) (by decide) (by decide) hm, Nat.mul_div_cancel_left _ (by decide), Nat.mul_mod_right, BitVec.getLsbD_extractLsb']
  simp

/-- Lanes 0, 1, .. 7 as the low 8 bits, from two parts. -/
theorem parts_packed {f : Nat → Bool} {m k V : Nat} (hmk : m + k ≤ V) (hV : V ≤ 64) {x y : BitVec 64} (hx : x = Hw.packBits 64 f m)
    (hy : y = Hw.packBits 64 (fun j => f (m + j)) k <<< m) : (x + y).setWidth V = Hw.packBits V f (m + k) := by
  rw [hx, hy, ← packBits_split (by omega)]
  apply BitVec.eq_of_getLsbD_eq; intro i hi
  rw [BitVec.getLsbD_setWidth, packBits_get (by omega), packBits_get (by omega)]
  simp [hi]

theorem or_packed {f : Nat → Bool} {m k V : Nat} (hmk : m + k ≤ V) (hV : V ≤ 64) {x y : BitVec 64} (hx : x = Hw.packBits 64 f m)
    (hy : y = Hw.packBits 64 (fun j => f (m + j)) k <<< m) : (x ||| y).setWidth V = Hw.packBits V f (m + k) := by
  rw [hx, hy]
  apply BitVec.eq_of_getLsbD_eq; intro i hi
  rw [BitVec.getLsbD_setWidth, BitVec.getLsbD_or, packBits_get (by omega), packBits_get (by omega), BitVec.getLsbD_shiftLeft, packBits_get (by omega)]
  by_cases e : i < m
  · simp [hi, e, show i < m + k by omega]
  · simp [hi, e, show i < 64 by omega, show (i - m < k ↔ i < m + k) by omega, show m + (i - m) = i by omega]

/-- Halfwords on AltiVec: bytes 0 and 2 of each word. -/
theorem sum4_16 : ∀ b0 b1 : Bool, ∀ q : Fin 4, BitVec.ofInt 32 (Spec.clamp false 32 (0 +
      (((if b0 then 1#16 <<< (2 * q.val) else 0).extractLsb' 0 8).toNat : Int) + (((if b0 then 1#16 <<< (2 * q.val) else 0).extractLsb' 8 8).toNat : Int) +
      (((if b1 then 1#16 <<< (2 * q.val + 1) else 0).extractLsb' 0 8).toNat : Int) + (((if b1 then 1#16 <<< (2 * q.val + 1) else 0).extractLsb' 8 8).toNat : Int))) =
    ((if b0 then 1#32 <<< 0 else 0) + (if b1 then 1#32 <<< 1 else 0)) <<< (2 * q.val) := by decide +kernel

/-- Four eb_pairs of bits. -/
theorem eb_pairs {f : Nat → Bool} : Hw.packBits 32 f 2 + Hw.packBits 32 (fun j => f (2 + j)) 2 <<< 2 + Hw.packBits 32 (fun j => f (4 + j)) 2 <<< 4 +
    Hw.packBits 32 (fun j => f (6 + j)) 2 <<< 6 = Hw.packBits 32 f 8 := by
  rw [packBits_split (f := f) (m := 6) (k := 2) (by decide), packBits_split (f := f) (m := 4) (k := 2) (by decide),
    packBits_split (f := f) (m := 2) (k := 2) (by decide)]

theorem setWidth_packed {f : Nat → Bool} {V : Nat} (h1 : n ≤ W) (h2 : n ≤ V) : (Hw.packBits W f n).setWidth V = Hw.packBits V f n := by
  apply BitVec.eq_of_getLsbD_eq; intro i hi
  rw [BitVec.getLsbD_setWidth, packBits_get h1, packBits_get h2]
  simp [hi]

theorem low_recast {v q m : Nat} (hv : 0 < v) (hq : 0 < q) (hw : 64 = q * v) (hm : m = 2 * q) (x : Vec 64 2) :
    (x.recast v m).at_ 0 = (x.at_ 0).setWidth v ∧ (x.recast v m).at_ q = (x.at_ 1).setWidth v := by
  have e0 := low_at hv hq hw hm x 0
  have e1 := low_at hv hq hw hm x 1
  rw [Nat.zero_mul] at e0
  rw [Nat.one_mul] at e1
  exact ⟨e0, e1⟩

theorem extract_any16_any (h : c.Ok) (hvl : c.avx512bw = true → c.avx512vl = true) (a : Vec 16 8) :
    ∃ r, extract_any16 c a = some r ∧ AnyBit a r := by
  unfold extract_any16
  by_cases b1 : c.null = true
  · exact ⟨_, if_pos b1, fun _ => 0, fun _ => Nat.succ_pos _, null_loop_all 0 a (by decide) (by decide) (by decide)⟩
  rw [if_neg b1]
  by_cases b2 : c.avx512bw = true
  · exact ⟨_, (if_pos b2).trans (if_pos (hvl b2)), movemask_any a (by decide) (by decide)⟩
  rw [if_neg b2]
  by_cases b3 : c.sse2 = true
  · rw [if_pos b3]
    refine ⟨_, bind_of (i_unzip_lo_eq h (k := .int) (r := .r128) isW8 (by rfl) (by rfl) (a.recast 8 16) (Vec.splat 0)) _,
      fun _ => 7, fun _ => (by decide : (7 : Nat) < 16), fun i => ?_⟩
    rw [BitVec.getLsbD_setWidth, movemask_get _ (by decide)]
    by_cases hi : i < 8
    · rw [gather_at _ _ (by omega), show i % (128 / 8) = i by omega, if_pos (by omega), show i / (128 / 8) * (128 / 8) + 2 * i = 2 * i by omega]
      rw [eb_lowbyte a (by decide)]
      simp [hi, show i < 16 by omega]
    · simp [hi]
  rw [if_neg b3]
  have ea := i_bit_and_eq h (k := .int) (r := .r128) iw16 (by rfl) a (pows 8)
  have hv : ∀ j, j < 8 → Vec.at_ (fun i => a i &&& (pows 8 : Vec 16 8) i : Vec 16 8) j = if (a.at_ j).getLsbD (j % 8) then 1#16 <<< (j % 8) else 0 :=
    fun j hj => masked_at a (by decide) (by decide) hj
  have hsel : ∀ i : Nat, i % 8 < 16 := fun i => by omega
  obtain ⟨v, hva⟩ : ∃ v : Vec 16 8, v = (fun i => a i &&& (pows 8 : Vec 16 8) i : Vec 16 8) := ⟨_, rfl⟩
  rw [← hva] at hv ea
  by_cases b4 : c.neon = true
  · rw [if_pos b4]
    have hc := eb_chain16 (g := fun j => (a.at_ j).getLsbD (j % 8)) hv (a32 := Hw.vpaddl v) (a64 := Hw.vpaddl (Hw.vpaddl v : Vec 32 4)) (fun i hi => vpaddl_at _ hi) (fun i hi => vpaddl_at _ hi)
    exact ⟨_, bind_of ea _, anyBit_packed (sel := fun i => i % 8) hsel (by decide) (parts_packed (m := 4) (k := 4) (by decide) (by decide) hc.1 hc.2)⟩
  rw [if_neg b4]
  by_cases b5 : c.altivec = true
  · rw [if_pos b5]
    refine ⟨_, (bind_of ea _).trans (bind_of (i_extract_eq h (k := .int) (sg := false) (r := .r128) iw16 (by rfl) (id := 6) (by decide) (by rintro ⟨e, -⟩; exact absurd e (by decide)) _) _),
      anyBit_packed (sel := fun i => i % 8) hsel (by decide) ?_⟩
    have hq : ∀ q : Fin 4, (Hw.sum4s false (v.recast 8 16 : Vec 8 16) (Vec.splat 0) : Vec 32 4) q =
        Hw.packBits 32 (fun j => (a.at_ (2 * q.val + j)).getLsbD ((2 * q.val + j) % 8)) 2 <<< (2 * q.val) := by
      intro q
      have hq := q.isLt
      have hat : ∀ t, (v.recast 8 16 : Vec 8 16).at_ t = (v.at_ (t / 2)).extractLsb' (t % 2 * 8) 8 := fun t =>
        recast_at (q := 2) (by decide) (by decide) (by decide) (by decide) v t
      rw [sum4s_at, hat, hat, hat, hat, show 4 * q.val / 2 = 2 * q.val by omega, show (4 * q.val + 1) / 2 = 2 * q.val by omega,
        show (4 * q.val + 2) / 2 = 2 * q.val + 1 by omega, show (4 * q.val + 3) / 2 = 2 * q.val + 1 by omega, show 4 * q.val % 2 = 0 by omega,
        show (4 * q.val + 1) % 2 = 1 by omega, show (4 * q.val + 2) % 2 = 0 by omega, show (4 * q.val + 3) % 2 = 1 by omega,
        hv _ (by omega), hv _ (by omega), packBits2 (by decide), Nat.zero_mul, Nat.one_mul]
      have e1 : (2 * q.val) % 8 = 2 * q.val := by omega
      have e2 : (2 * q.val + 1) % 8 = 2 * q.val + 1 := by omega
      simp only [Nat.add_zero, e1, e2]
      exact sum4_16 _ _ q
    refine (congrArg (fun t : BitVec 16 => t.setWidth 8) (sums_at _ ?_)).trans ?_
    · intro q; rw [hq]; exact eb_shl_lt (packBits_lt (by decide)) (by have := q.isLt; omega)
    · rw [hq, hq, hq, hq]
      have := eb_pairs (f := fun j => (a.at_ j).getLsbD (j % 8))
      rw [show (((0 : Fin 4).val)) = 0 from rfl, show (((1 : Fin 4).val)) = 1 from rfl, show (((2 : Fin 4).val)) = 2 from rfl, show (((3 : Fin 4).val)) = 3 from rfl]
      simp only [Nat.mul_zero, Nat.zero_add, BitVec.shiftLeft_zero, Nat.mul_one, Nat.reduceMul] at this ⊢
      rw [this, setWidth_packed (by decide) (by decide), setWidth_packed (by decide) (by decide)]
  rw [if_neg b5]
  by_cases b6 : c.msa = true
  · rw [if_pos b6]
    have hc := eb_chain16 (g := fun j => (a.at_ j).getLsbD (j % 8)) hv (a32 := Hw.hadd2 false 32 v v) (a64 := Hw.hadd2 false 64 (Hw.hadd2 false 32 v v : Vec 32 4) (Hw.hadd2 false 32 v v : Vec 32 4))
      (fun i hi => hadd2_at _ _ hi) (fun i hi => hadd2_at _ _ hi)
    refine (fun (q : ∃ r, _ ∧ _) => by obtain ⟨r, e, hr⟩ := q; exact ⟨r, (bind_of ea _).trans e, hr⟩) ?_
    dsimp only
    generalize (Hw.hadd2 false 64 (Hw.hadd2 false 32 v v : Vec 32 4) (Hw.hadd2 false 32 v v : Vec 32 4) : Vec 64 2) = a64 at hc ⊢
    obtain ⟨b, eb, d, ed, hd⟩ := move_or h iw16 (s := 4) (by decide) (by decide) (a64.recast 16 8)
    refine ⟨_, (bind_of eb _).trans ((bind_of ed _).trans (bind_of (i_extract_eq h (k := .int) (sg := false) (r := .r128) iw16 (by rfl) (id := 0) (by decide) (by rintro ⟨e, -⟩; exact absurd e (by decide)) _) _)),
      anyBit_packed (sel := fun i => i % 8) hsel (by decide) ?_⟩
    have hl := low_recast (v := 16) (q := 4) (m := 8) (by decide) (by decide) (by decide) (by decide) a64
    have hd0 := hd 0 (by decide)
    rw [if_pos (by decide)] at hd0
    refine (congrArg (fun t : BitVec 16 => t.setWidth 8) (hd0.trans (congrArg₂ _ hl.1 hl.2))).trans ?_
    refine Eq.trans ?_ (or_packed (m := 4) (k := 4) (V := 8) (by decide) (by decide) hc.1 hc.2)
    apply BitVec.eq_of_getLsbD_eq; intro i hi
    simp [BitVec.getLsbD_setWidth, BitVec.getLsbD_or, hi, show i < 16 by omega]
  · exfalso; clear hv ea; cfg_absurd h

theorem extract_any16x_any (h : c.Ok) (hvl : c.avx512bw = true → c.avx512vl = true) (a : Vec 16 16) :
    ∃ r, extract_any16x c a = some r ∧ AnyBit a r := by
  unfold extract_any16x
  by_cases b1 : c.avx512bw = true
  · exact ⟨_, (if_pos b1).trans (if_pos (hvl b1)), movemask_any a (by decide) (by decide)⟩
  rw [if_neg b1]
  by_cases b2 : c.avx2 = true
  · rw [if_pos b2]
    refine ⟨_, bind_of (i_unzip_lo_eq h (k := .int) (r := .r256) isW8 b2 (by rfl) (a.recast 8 32) (Vec.splat 0)) _,
      fun _ => 7, fun _ => (by decide : (7 : Nat) < 16), fun i => ?_⟩
    dsimp only
    rw [movemask_get _ (by decide)]
    by_cases hi : i < 16
    · rw [Hw.part_at _ hi, Nat.zero_mul, Nat.zero_add,
        recast_at (w := 64) (v := 8) (q := 8) (by decide) (by decide) (by decide) (by decide)]
      have hb : ∀ (g : Vec 8 32) (t : Nat), ((g.recast 64 4 : Vec 64 4).at_ t).extractLsb' (i % 8 * 8) 8 = g.at_ (8 * t + i % 8) := by
        intro g t
        have e := recast_at (w := 64) (v := 8) (q := 8) (m := 32) (by decide) (by decide) (by decide) (by decide) (g.recast 64 4 : Vec 64 4) (8 * t + i % 8)
        rw [Vec.recast_recast g (by decide) (by decide), show (8 * t + i % 8) / 8 = t by omega, show (8 * t + i % 8) % 8 = i % 8 by omega] at e
        exact e.symm
      unfold Hw.permute4x64
      rw [gather_at _ _ (by omega), if_pos (by rcases (by omega : i / 8 = 0 ∨ i / 8 = 1) with e | e <;> rw [e] <;> decide), hb, gather_at _ _ (by rcases (by omega : i / 8 = 0 ∨ i / 8 = 1) with e | e <;> simp only [e, Nat.reduceMod] <;> simp [Hw.imm2] <;> omega)]
      have ht : 8 * (i / 8 / 4 * 4 + Hw.imm2 8 (i / 8 % 4)) + i % 8 = if i < 8 then i else 8 + i := by
        rcases (by omega : i / 8 = 0 ∨ i / 8 = 1) with e | e <;> rw [e] <;> simp [Hw.imm2] <;> split_ifs <;> omega
      generalize 8 * (i / 8 / 4 * 4 + Hw.imm2 8 (i / 8 % 4)) + i % 8 = t at ht ⊢
      rw [if_pos (by split_ifs at ht <;> omega), show t / (128 / 8) * (128 / 8) + 2 * (t % (128 / 8)) = 2 * i by split_ifs at ht <;> omega, eb_lowbyte a (by decide)]
    · simp [hi]
  rw [if_neg b2]
  obtain ⟨lo, e0, h0⟩ := extract_any16_any h hvl (Hw.part 8 0 a)
  obtain ⟨hi, e1, h1⟩ := extract_any16_any h hvl (Hw.part 8 1 a)
  exact ⟨_, (bind_of e0 _).trans (bind_of e1 _),
    extract_any_combine a (L := 8) rfl (by decide) (h0.widen (by decide)) (h1.widen (by decide))⟩

theorem extract_any32_any (h : c.Ok) (a : Vec 32 4) : ∃ r, extract_any32 c a = some r ∧ AnyBit a r := by
  unfold extract_any32
  by_cases b1 : c.null = true
  · exact ⟨_, if_pos b1, fun _ => 0, fun _ => Nat.succ_pos _, null_loop_all 0 a (by decide) (by decide) (by decide)⟩
  rw [if_neg b1]
  by_cases b3 : c.sse2 = true
  · exact ⟨_, if_pos b3, movemask_any a (by decide) (by decide)⟩
  rw [if_neg b3]
  have ea := i_bit_and_eq h (k := .int) (r := .r128) iw32 (by rfl) a (pows 4)
  have hv : ∀ j, j < 4 → Vec.at_ (fun i => a i &&& (pows 4 : Vec 32 4) i : Vec 32 4) j = if (a.at_ j).getLsbD (j % 4) then 1#32 <<< (j % 4) else 0 :=
    fun j hj => masked_at a (by decide) (by decide) hj
  have hsel : ∀ i : Nat, i % 4 < 32 := fun i => by omega
  obtain ⟨v, hva⟩ : ∃ v : Vec 32 4, v = (fun i => a i &&& (pows 4 : Vec 32 4) i : Vec 32 4) := ⟨_, rfl⟩
  rw [← hva] at hv ea
  by_cases b4 : c.neon = true
  · rw [if_pos b4]
    have hc := eb_chain32 (g := fun j => (a.at_ j).getLsbD (j % 4)) hv (a64 := Hw.vpaddl v) (fun i hi => vpaddl_at _ hi)
    exact ⟨_, bind_of ea _, anyBit_packed (sel := fun i => i % 4) hsel (by decide) ((parts_packed (m := 2) (k := 2) (V := 8) (by decide) (by decide) hc.1 hc.2))⟩
  rw [if_neg b4]
  by_cases b5 : c.altivec = true
  · rw [if_pos b5]
    refine ⟨_, (bind_of ea _).trans (bind_of (i_extract_eq h (k := .int) (sg := false) (r := .r128) iw16 (by rfl) (id := 6) (by decide) (by rintro ⟨e, -⟩; exact absurd e (by decide)) _) _),
      anyBit_packed (sel := fun i => i % 4) hsel (by decide) ?_⟩
    have hq : ∀ q : Fin 4, v q = if (a.at_ q.val).getLsbD (q.val % 4) then 1#32 <<< (q.val % 4) else 0 := fun q => by
      rw [← hv _ q.isLt, Vec.at_fin]
    refine (congrArg (fun t : BitVec 16 => t.setWidth 8) (sums_at _ ?_)).trans ?_
    · intro q; rw [hq]
      have := q.isLt
      obtain rfl | rfl | rfl | rfl : q = 0 ∨ q = 1 ∨ q = 2 ∨ q = 3 := by omega
      all_goals split_ifs <;> decide
    · rw [hq, hq, hq, hq]
      have e := packBits4 (W := 32) (f := fun j => (a.at_ j).getLsbD (j % 4)) (by decide)
      refine (congrArg (fun t : BitVec 32 => (t.setWidth 16).setWidth 8) e.symm).trans ?_
      rw [setWidth_packed (by decide) (by decide), setWidth_packed (by decide) (by decide)]
  rw [if_neg b5]
  by_cases b6 : c.msa = true
  · rw [if_pos b6]
    have hc := eb_chain32 (g := fun j => (a.at_ j).getLsbD (j % 4)) hv (a64 := Hw.hadd2 false 64 v v) (fun i hi => hadd2_at _ _ hi)
    refine (fun (q : ∃ r, _ ∧ _) => by obtain ⟨r, e, hr⟩ := q; exact ⟨r, (bind_of ea _).trans e, hr⟩) ?_
    dsimp only
    generalize (Hw.hadd2 false 64 v v : Vec 64 2) = a64 at hc ⊢
    obtain ⟨b, eb, d, ed, hd⟩ := move_or h iw32 (s := 2) (by decide) (by decide) (a64.recast 32 4)
    refine ⟨_, (bind_of eb _).trans ((bind_of ed _).trans (bind_of (i_extract_eq h (k := .int) (sg := false) (r := .r128) iw32 (by rfl) (id := 0) (by decide) (by rintro ⟨e, -⟩; exact absurd e (by decide)) _) _)),
      anyBit_packed (sel := fun i => i % 4) hsel (by decide) ?_⟩
    have hl := low_recast (v := 32) (q := 2) (m := 4) (by decide) (by decide) (by decide) (by decide) a64
    have hd0 := hd 0 (by decide)
    rw [if_pos (by decide)] at hd0
    refine (congrArg (fun t : BitVec 32 => t.setWidth 8) (hd0.trans (congrArg₂ _ hl.1 hl.2))).trans ?_
    refine Eq.trans ?_ (or_packed (m := 2) (k := 2) (V := 8) (by decide) (by decide) hc.1 hc.2)
    apply BitVec.eq_of_getLsbD_eq; intro i hi
    simp [BitVec.getLsbD_setWidth, BitVec.getLsbD_or, hi, show i < 32 by omega]
  · exfalso; clear hv ea; cfg_absurd h

theorem extract_any32x_any (h : c.Ok) (hvl : c.avx512dq = true → c.avx512vl = true) (a : Vec 32 8) :
    ∃ r, extract_any32x c a = some r ∧ AnyBit a r := by
  unfold extract_any32x
  by_cases b1 : c.avx512dq = true
  · exact ⟨_, (if_pos b1).trans (if_pos (hvl b1)), movemask_any a (by decide) (by decide)⟩
  rw [if_neg b1]
  by_cases b2 : c.avx2 = true
  · exact ⟨_, if_pos b2, movemask_any a (by decide) (by decide)⟩
  rw [if_neg b2]
  obtain ⟨lo, e0, h0⟩ := extract_any32_any h (Hw.part 4 0 a)
  obtain ⟨hi, e1, h1⟩ := extract_any32_any h (Hw.part 4 1 a)
  exact ⟨_, (bind_of e0 _).trans (bind_of e1 _), extract_any_combine a (L := 4) rfl (by decide) h0 h1⟩

theorem and_shl (x : BitVec w) {k : Nat} (hk : k < w) : x &&& 1#w <<< k = if x.getLsbD k then 1#w <<< k else 0 := by
  rw [← and_pow x hk]
  congr 1
  apply BitVec.eq_of_toNat_eq
  simp [Nat.shiftLeft_eq]

/-- The low words of two doublewords, masked with 1 and 2. -/
theorem mask64_at (a : Vec 64 2) : ∀ j, j < 4 → Vec.at_ (fun i => (a.recast 32 4 : Vec 32 4) i &&& (cyc [1, 0, 2, 0] : Vec 32 4) i : Vec 32 4) j =
    if j % 2 = 0 then (if (a.at_ (j / 2)).getLsbD (j / 2) then 1#32 <<< (j / 2) else 0) else 0 := by
  intro j hj
  have hr := recast_at (w := 64) (v := 32) (q := 2) (m := 4) (by decide) (by decide) (by decide) (by decide) a j
  rw [Vec.at_lt _ hj] at hr ⊢
  show (a.recast 32 4 : Vec 32 4) ⟨j, hj⟩ &&& _ = _
  rw [hr]
  have hc : ∀ q : Fin 4, (cyc [1, 0, 2, 0] : Vec 32 4) q = if q.val % 2 = 0 then 1#32 <<< (q.val / 2) else 0 := by decide
  rw [hc ⟨j, hj⟩]
  dsimp only
  by_cases e : j % 2 = 0
  · rw [if_pos e, if_pos e, and_shl _ (by omega), BitVec.getLsbD_extractLsb', e]
    simp [show j / 2 < 32 by omega]
  · rw [if_neg e, if_neg e]; simp

theorem extract_any64_any (h : c.Ok) (a : Vec 64 2) : ∃ r, extract_any64 c a = some r ∧ AnyBit a r := by
  unfold extract_any64
  by_cases b1 : c.null = true ∨ (c.altivec = true ∧ ¬ c.vsx207 = true)
  · exact ⟨_, if_pos b1, fun _ => 0, fun _ => Nat.succ_pos _, null_loop_all 0 a (by decide) (by decide) (by decide)⟩
  rw [if_neg b1]
  by_cases b3 : c.sse2 = true
  · exact ⟨_, if_pos b3, movemask_any a (by decide) (by decide)⟩
  rw [if_neg b3]
  have hsel : ∀ i : Nat, i % 2 < 64 := fun i => by omega
  by_cases b4 : c.neon = true
  · rw [if_pos b4]
    have hv : ∀ j, j < 2 → Vec.at_ (fun i => a i &&& (pows 2 : Vec 64 2) i : Vec 64 2) j = if (a.at_ j).getLsbD (j % 2) then 1#64 <<< (j % 2) else 0 :=
      fun j hj => masked_at a (by decide) (by decide) hj
    refine ⟨_, bind_of (i_bit_and_eq h (k := .int) (r := .r128) iw64 (by rfl) a (pows 2)) _, anyBit_packed (sel := fun i => i % 2) hsel (by decide) ?_⟩
    rw [hv 0 (by decide), hv 1 (by decide)]
    refine (congrArg (fun t : BitVec 64 => t.setWidth 8) (packBits2 (W := 64) (f := fun j => (a.at_ j).getLsbD (j % 2)) (by decide)).symm).trans ?_
    exact setWidth_packed (by decide) (by decide)
  rw [if_neg b4]
  have ea := i_bit_and_eq h (k := .int) (r := .r128) iw32 (by rfl) (a.recast 32 4 : Vec 32 4) (cyc [1, 0, 2, 0])
  have hv := mask64_at a
  obtain ⟨v, hva⟩ : ∃ v : Vec 32 4, v = (fun i => (a.recast 32 4 : Vec 32 4) i &&& (cyc [1, 0, 2, 0] : Vec 32 4) i : Vec 32 4) := ⟨_, rfl⟩
  rw [← hva] at hv ea
  by_cases b5 : c.altivec = true
  · rw [if_pos b5]
    refine ⟨_, (bind_of ea _).trans (bind_of (i_extract_eq h (k := .int) (sg := false) (r := .r128) iw16 (by rfl) (id := 6) (by decide) (by rintro ⟨e, -⟩; exact absurd e (by decide)) _) _),
      anyBit_packed (sel := fun i => i % 2) hsel (by decide) ?_⟩
    have hq : ∀ q : Fin 4, v q = if q.val % 2 = 0 then (if (a.at_ (q.val / 2)).getLsbD (q.val / 2) then 1#32 <<< (q.val / 2) else 0) else 0 := fun q => by
      rw [← hv _ q.isLt, Vec.at_fin]
    refine (congrArg (fun t : BitVec 16 => t.setWidth 8) (sums_at _ ?_)).trans ?_
    · intro q; rw [hq]
      have := q.isLt
      obtain rfl | rfl | rfl | rfl : q = 0 ∨ q = 1 ∨ q = 2 ∨ q = 3 := by omega
      all_goals split_ifs <;> decide
    · rw [hq, hq, hq, hq]
      have e := packBits2 (W := 32) (f := fun j => (a.at_ j).getLsbD (j % 2)) (by decide)
      refine Eq.trans ?_ ((congrArg (fun t : BitVec 32 => (t.setWidth 16).setWidth 8) e.symm).trans ?_)
      · show ((((if (a.at_ 0).getLsbD 0 then 1#32 <<< 0 else 0) + 0#32 + (if (a.at_ 1).getLsbD 1 then 1#32 <<< 1 else 0) + 0#32 : BitVec 32)).setWidth 16).setWidth 8 = _
        rw [BitVec.add_zero, BitVec.add_zero]
      · rw [setWidth_packed (by decide) (by decide), setWidth_packed (by decide) (by decide)]
  rw [if_neg b5]
  by_cases b6 : c.msa = true
  · rw [if_pos b6]
    have hc : ∀ i, i < 2 → (Hw.hadd2 false 64 v v : Vec 64 2).at_ i = (v.at_ (2 * i)).setWidth 64 + (v.at_ (2 * i + 1)).setWidth 64 := fun i hi => hadd2_at _ _ hi
    refine (fun (q : ∃ r, _ ∧ _) => by obtain ⟨r, e, hr⟩ := q; exact ⟨r, (bind_of ea _).trans e, hr⟩) ?_
    dsimp only
    generalize (Hw.hadd2 false 64 v v : Vec 64 2) = a64 at hc ⊢
    obtain ⟨b, eb, d, ed, hd⟩ := move_or h iw32 (s := 2) (by decide) (by decide) (a64.recast 32 4)
    refine ⟨_, (bind_of eb _).trans ((bind_of ed _).trans (bind_of (i_extract_eq h (k := .int) (sg := false) (r := .r128) iw32 (by rfl) (id := 0) (by decide) (by rintro ⟨e, -⟩; exact absurd e (by decide)) _) _)),
      anyBit_packed (sel := fun i => i % 2) hsel (by decide) ?_⟩
    have hl := low_recast (v := 32) (q := 2) (m := 4) (by decide) (by decide) (by decide) (by decide) a64
    have hd0 := hd 0 (by decide)
    rw [if_pos (by decide)] at hd0
    refine (congrArg (fun t : BitVec 32 => t.setWidth 8) (hd0.trans (congrArg₂ _ hl.1 hl.2))).trans ?_
    rw [hc 0 (by decide), hc 1 (by decide), hv _ (by decide), hv _ (by decide), hv _ (by decide), hv _ (by decide)]
    have key : ∀ b0 b1 : Bool, ((((if b0 then 1#32 <<< 0 else 0).setWidth 64 + (0 : BitVec 32).setWidth 64 : BitVec 64).setWidth 32 |||
        ((if b1 then 1#32 <<< 1 else 0).setWidth 64 + (0 : BitVec 32).setWidth 64 : BitVec 64).setWidth 32 : BitVec 32).setWidth 8 : BitVec 8) =
        (if b0 then 1#8 <<< 0 else 0) + (if b1 then 1#8 <<< 1 else 0) := by decide +kernel
    refine (key ((a.at_ 0).getLsbD 0) ((a.at_ 1).getLsbD 1)).trans ?_
    exact (packBits2 (W := 8) (f := fun j => (a.at_ j).getLsbD (j % 2)) (by decide)).symm
  · exfalso; clear hv ea; cfg_absurd h

theorem extract_any64x_any (h : c.Ok) (hvl : c.avx512dq = true → c.avx512vl = true) (a : Vec 64 4) :
    ∃ r, extract_any64x c a = some r ∧ AnyBit a r := by
  unfold extract_any64x
  by_cases b0 : c.null = true ∨ (c.altivec = true ∧ ¬ c.vsx207 = true)
  · refine ⟨_, if_pos b0, anyBit_packed (sel := fun i => i % 4) (fun i => by omega) (by decide) ?_⟩
    rw [show (1 : BitVec 64) = 1#64 <<< 0 from rfl, show (2 : BitVec 64) = 1#64 <<< 1 from rfl, show (4 : BitVec 64) = 1#64 <<< 2 from rfl, show (8 : BitVec 64) = 1#64 <<< 3 from rfl,
      and_shl _ (by decide), and_shl _ (by decide), and_shl _ (by decide), and_shl _ (by decide)]
    refine (congrArg (fun t : BitVec 64 => t.setWidth 8) (?_ : _ = Hw.packBits 64 (fun i => (a.at_ i).getLsbD (i % 4)) 4)).trans (setWidth_packed (by decide) (by decide))
    show _ = (((0#64 ||| _) ||| _) ||| _) ||| _
    rw [BitVec.zero_or]
  rw [if_neg b0]
  by_cases b1 : c.avx512dq = true
  · exact ⟨_, (if_pos b1).trans (if_pos (hvl b1)), movemask_any a (by decide) (by decide)⟩
  rw [if_neg b1]
  by_cases b2 : c.avx2 = true
  · exact ⟨_, if_pos b2, movemask_any a (by decide) (by decide)⟩
  rw [if_neg b2]
  obtain ⟨lo, e0, h0⟩ := extract_any64_any h (Hw.part 2 0 a)
  obtain ⟨hi, e1, h1⟩ := extract_any64_any h (Hw.part 2 1 a)
  exact ⟨_, (bind_of e0 _).trans (bind_of e1 _), extract_any_combine a (L := 2) rfl (by decide) h0 h1⟩

/-! ## extract_bits -/

theorem idShifts_toNat {id : Nat} (i : Fin n) : ((idShifts id : Vec 8 n) i).toNat = (((i.val % 8 : Nat) - (id : Int)) % 256).toNat := by
  unfold idShifts
  rw [BitVec.toNat_ofInt]; rfl

theorem vshl_id {id : Nat} (hid : id < 8) (a : Vec 8 n) (i : Fin n) : (Hw.vshl_u a (idShifts id) i).getLsbD (i.val % 8) = (a i).getLsbD id := by
  have hs : (((idShifts id : Vec 8 n) i).setWidth 8).toInt = (i.val % 8 : Nat) - (id : Int) := by
    rw [BitVec.setWidth_eq]
    unfold idShifts
    rw [BitVec.toInt_ofInt]
    exact Int.bmod_eq_of_le (by omega) (by omega)
  unfold Hw.vshl_u
  dsimp only
  rw [hs]
  split_ifs with g
  · rw [BitVec.getLsbD_shiftLeft, show i.val % 8 - ((i.val % 8 : Nat) - (id : Int)).toNat = id by omega]
    simp [show ¬ i.val % 8 < ((i.val % 8 : Nat) - (id : Int)).toNat by omega, show i.val % 8 < 8 by omega]
  · rw [BitVec.getLsbD_ushiftRight]
    congr 1; omega

theorem rl_id {id : Nat} (hid : id < 8) (a : Vec 8 n) (i : Fin n) : (Hw.rl_mod a (idShifts id) i).getLsbD (i.val % 8) = (a i).getLsbD id := by
  unfold Hw.rl_mod
  rw [idShifts_toNat, BitVec.getLsbD_rotateLeft]
  by_cases g : id ≤ i.val % 8
  · rw [show (((i.val % 8 : Nat) - (id : Int)) % 256).toNat % 8 % 8 = i.val % 8 - id by omega]
    simp [show ¬ i.val % 8 < i.val % 8 - id by omega, show i.val % 8 < 8 by omega, show i.val % 8 - (i.val % 8 - id) = id by omega]
  · rw [show (((i.val % 8 : Nat) - (id : Int)) % 256).toNat % 8 % 8 = 8 + i.val % 8 - id by omega]
    simp [show i.val % 8 < 8 + i.val % 8 - id by omega, show 8 - (8 + i.val % 8 - id) + i.val % 8 = id by omega]

theorem slsr_id {id : Nat} (hid : id < 8) (a : Vec 8 n) (i : Fin n) :
    (Hw.sl_mod a (idShifts id) i ||| Hw.sr_mod a (fun i => 0 - (idShifts id : Vec 8 n) i) i).getLsbD (i.val % 8) = (a i).getLsbD id := by
  unfold Hw.sl_mod Hw.sr_mod
  have e : (0 - (idShifts id : Vec 8 n) i).toNat % 8 = (8 + id - i.val % 8) % 8 := by
    rw [BitVec.toNat_sub, idShifts_toNat]
    show (256 - (((i.val % 8 : Nat) - (id : Int)) % 256).toNat + 0) % 256 % 8 = _
    omega
  rw [idShifts_toNat, BitVec.getLsbD_or, BitVec.getLsbD_shiftLeft, BitVec.getLsbD_ushiftRight, e]
  by_cases g : id ≤ i.val % 8
  · rw [show (((i.val % 8 : Nat) - (id : Int)) % 256).toNat % 8 = i.val % 8 - id by omega]
    by_cases g2 : id = i.val % 8
    · simp [g2, show i.val % 8 < 8 by omega]
    · rw [show (8 + id - i.val % 8) % 8 = 8 + id - i.val % 8 by omega, BitVec.getLsbD_of_ge _ (8 + id - i.val % 8 + i.val % 8) (by omega)]
      simp [show ¬ i.val % 8 < i.val % 8 - id by omega, show i.val % 8 < 8 by omega, show i.val % 8 - (i.val % 8 - id) = id by omega]
  · rw [show (((i.val % 8 : Nat) - (id : Int)) % 256).toNat % 8 = 8 + i.val % 8 - id by omega, show (8 + id - i.val % 8) % 8 + i.val % 8 = id by omega]
    simp [show i.val % 8 < 8 + i.val % 8 - id by omega]

/-- Bit 7 of a byte after the halfwords are shifted by `7 - id`. -/
theorem shl16_id {id m : Nat} (hid : id < 8) (a : Vec 8 n) (hn : n = m * 2) (i : Nat) (hi : i < n) :
    ((Vec.recast 8 n (fun j => (a.recast 16 m : Vec 16 m) j <<< (7 - id) : Vec 16 m)).at_ i).getLsbD 7 = (a.at_ i).getLsbD id := by
  rw [recast_at (w := 16) (v := 8) (q := 2) (by decide) (by decide) (by decide) hn, BitVec.getLsbD_extractLsb', Vec.at_lt _ (by omega)]
  rw [BitVec.getLsbD_shiftLeft, Vec.recast_getLsbD]
  rw [show i / 2 * 16 + (i % 2 * 8 + 7 - (7 - id)) = i * 8 + id by omega]
  have := Vec.bit_eq a ⟨i, hi⟩ hid
  rw [Vec.at_lt _ hi, ← this]
  simp [show i % 2 * 8 + 7 < 16 by omega, show ¬ i % 2 * 8 + 7 < 7 - id by omega, show i % 2 * 8 + 7 - (7 - id) < 16 by omega]

theorem extract_bits_eq (h : c.Ok) {id : Nat} (hid : id < 8) (a : Vec 8 16) : ∃ r, extract_bits c id a = some r ∧
    ∀ i, r.getLsbD i = (decide (i < 16) && (a.at_ i).getLsbD id) := by
  unfold extract_bits
  rw [if_neg (by omega)]
  have lift : ∀ b : Vec 8 16, (∀ i, i < 16 → (b.at_ i).getLsbD (c.sel8 i) = (a.at_ i).getLsbD id) →
      ∃ r, extract_any8 c b = some r ∧ ∀ i, r.getLsbD i = (decide (i < 16) && (a.at_ i).getLsbD id) := by
    intro b hb
    obtain ⟨r, e, hr⟩ := extract_any8_eq h b
    refine ⟨r, e, fun i => ?_⟩
    rw [hr]
    by_cases hi : i < 16
    · rw [hb i hi]
    · simp [hi]
  by_cases b1 : c.null = true
  · exact ⟨_, if_pos b1, null_loop_all id a (by decide) (by decide) (by decide)⟩
  rw [if_neg b1]
  by_cases b2 : c.sse2 = true
  · rw [if_pos b2]
    obtain ⟨r, e, hr⟩ := lift _ (fun i hi => by
      unfold Cfg.sel8
      rw [if_neg b1, if_pos b2]
      exact shl16_id (m := 8) hid a (by decide) i hi)
    exact ⟨r, (bind_of (shift_l_imm_eq h iw16 (r := .r128) (by rfl) (by decide) (a.recast 16 8 : Vec 16 8) (k := 7 - id) (by omega)) _).trans e, hr⟩
  rw [if_neg b2]
  have hs : ∀ i, c.sel8 i = i % 8 := fun i => by unfold Cfg.sel8; rw [if_neg b1, if_neg b2]
  by_cases b3 : c.neon = true
  · rw [if_pos b3]
    exact lift _ fun i hi => by rw [hs, Vec.at_lt _ hi, Vec.at_lt _ hi]; exact vshl_id hid a ⟨i, hi⟩
  rw [if_neg b3]
  by_cases b4 : c.altivec = true
  · rw [if_pos b4]
    exact lift _ fun i hi => by rw [hs, Vec.at_lt _ hi, Vec.at_lt _ hi]; exact rl_id hid a ⟨i, hi⟩
  rw [if_neg b4]
  by_cases b5 : c.msa = true
  · rw [if_pos b5]
    obtain ⟨r, e, hr⟩ := lift (fun i => Hw.sl_mod a (idShifts id) i ||| Hw.sr_mod a (fun i => 0 - (idShifts id : Vec 8 16) i) i) fun i hi => by
      rw [hs, Vec.at_lt _ hi, Vec.at_lt _ hi]; exact slsr_id hid a ⟨i, hi⟩
    exact ⟨r, (bind_of (i_isub_eq h isW8 (r := .r128) (by rfl) (Vec.splat 0) (idShifts id)) _).trans
      ((bind_of (i_bit_or_eq h (k := .int) (r := .r128) isW8 (by rfl) _ _) _).trans e), hr⟩
  · exfalso; clear lift hs; cfg_absurd h

theorem extract_bits32_eq (h : c.Ok) {id : Nat} (hid : id < 8) (a : Vec 8 32) : ∃ r, extract_bits32 c id a = some r ∧
    ∀ i, r.getLsbD i = (decide (i < 32) && (a.at_ i).getLsbD id) := by
  unfold extract_bits32
  rw [if_neg (by omega)]
  by_cases b1 : c.avx2 = true
  · rw [if_pos b1]
    refine ⟨_, (bind_of (shift_l_imm_eq h iw16 (r := .r256) b1 (by decide) (a.recast 16 16 : Vec 16 16) (k := 7 - id) (by omega)) _).trans (if_pos b1), fun i => ?_⟩
    rw [movemask_get _ (by decide)]
    by_cases hi : i < 32
    · rw [show 8 - 1 = 7 from rfl, shl16_id (m := 16) hid a (by decide) i hi]
    · simp [hi]
  rw [if_neg b1]
  obtain ⟨lo, e0, h0⟩ := extract_bits_eq h hid (Hw.part 16 0 a)
  obtain ⟨hi, e1, h1⟩ := extract_bits_eq h hid (Hw.part 16 1 a)
  refine ⟨_, (bind_of e0 _).trans (bind_of e1 _), fun i => ?_⟩
  rw [BitVec.getLsbD_or, BitVec.getLsbD_shiftLeft, BitVec.getLsbD_setWidth, BitVec.getLsbD_setWidth, h0, h1]
  by_cases g : i < 16
  · rw [Hw.part_at _ g]; simp [g, show i < 32 by omega]
  · by_cases g2 : i < 32
    · rw [Hw.part_at _ (show i - 16 < 16 by omega), show 1 * 16 + (i - 16) = i by omega]; simp [g, g2, show i - 16 < 16 by omega, show i - 16 < 32 by omega]
    · simp [g, g2]

/-! ## Public theorems -/

/-- The vector types `extract_bits_any` accepts: integer vectors of 16 and 32 bytes. -/
def ExtractLen (w N : Nat) : Prop := IsW w ∧ (w * N = 128 ∨ w * N = 256)

/-- The AVX512 branches that use 128- and 256-bit mask moves are compiled with AVX512VL. -/
def Cfg.ExtractOk (c : Cfg) (w N : Nat) : Prop :=
  (w = 16 → c.avx512bw = true → c.avx512vl = true) ∧ (32 ≤ w → w * N = 256 → c.avx512dq = true → c.avx512vl = true)

theorem anyBit_nat {a : Vec w N} {r : BitVec W} (b : Vec w N) (hab : ∀ i, (b i) = a i) (h : AnyBit b r) : r.toNat < 2 ^ N ∧ ∃ sel : Nat → Nat, (∀ i, sel i < w) ∧
    ∀ i : Fin N, r.toNat.testBit i = (a i).getLsbD (sel i) := by
  obtain ⟨sel, hs, hr⟩ := h
  refine ⟨Nat.lt_pow_two_of_testBit _ fun i hi => ?_, sel, hs, fun i => ?_⟩
  · show r.getLsbD i = false
    rw [hr]; simp [show ¬ i < N by omega]
  · show r.getLsbD i = _
    rw [hr, Vec.at_fin, hab]; simp

/-- **C31.** `extract_bits_any` returns one bit per lane, in lane order, and nothing above them; each bit is one of the bits of its lane. -/
theorem C31_extract_bits_any_one_bit_per_lane (h : c.Ok) (hN : ExtractLen w N) (hc : c.ExtractOk w N) (a : Vec w N) :
    ∃ r, extract_bits_any c w N a = some r ∧ r < 2 ^ N ∧
      ∃ sel : Nat → Nat, (∀ i, sel i < w) ∧ ∀ i : Fin N, r.testBit i = (a i).getLsbD (sel i) := by
  obtain ⟨hw, hN⟩ := hN
  obtain ⟨c1, c2⟩ := hc
  unfold extract_bits_any
  have lift : ∀ {W : Nat} {f : Option (BitVec W)} (b : Vec w N), (∀ i, b i = a i) → (∃ r, f = some r ∧ AnyBit b r) →
      ∃ r, f.map (·.toNat) = some r ∧ r < 2 ^ N ∧ ∃ sel : Nat → Nat, (∀ i, sel i < w) ∧ ∀ i : Fin N, r.testBit i = (a i).getLsbD (sel i) := by
    rintro W f b hb ⟨r, e, hr⟩
    exact ⟨r.toNat, by rw [e]; rfl, anyBit_nat b hb hr⟩
  have hb : ∀ {u : Nat}, w = u → ∀ i : Fin N, (a.at_ i).setWidth u = (a i).setWidth u := fun _ i => by rw [Vec.at_fin]
  rcases hw with rfl | rfl | rfl | rfl
  · obtain rfl | rfl : N = 16 ∨ N = 32 := by omega
    · rw [if_pos ⟨rfl, rfl⟩]
      exact lift _ (fun i => by rw [Vec.at_fin, BitVec.setWidth_eq]) (extract_any8_any h _)
    · rw [if_neg (by omega), if_pos ⟨rfl, rfl⟩]
      exact lift _ (fun i => by rw [Vec.at_fin, BitVec.setWidth_eq]) (extract_any8x_any h _)
  · obtain rfl | rfl : N = 8 ∨ N = 16 := by omega
    · rw [if_neg (by omega), if_neg (by omega), if_pos ⟨rfl, rfl⟩]
      exact lift _ (fun i => by rw [Vec.at_fin, BitVec.setWidth_eq]) (extract_any16_any h (c1 rfl) _)
    · rw [if_neg (by omega), if_neg (by omega), if_neg (by omega), if_pos ⟨rfl, rfl⟩]
      exact lift _ (fun i => by rw [Vec.at_fin, BitVec.setWidth_eq]) (extract_any16x_any h (c1 rfl) _)
  · obtain rfl | rfl : N = 4 ∨ N = 8 := by omega
    · rw [if_neg (by omega), if_neg (by omega), if_neg (by omega), if_neg (by omega), if_pos ⟨rfl, rfl⟩]
      exact lift _ (fun i => by rw [Vec.at_fin, BitVec.setWidth_eq]) (extract_any32_any h _)
    · rw [if_neg (by omega), if_neg (by omega), if_neg (by omega), if_neg (by omega), if_neg (by omega), if_pos ⟨rfl, rfl⟩]
      exact lift _ (fun i => by rw [Vec.at_fin, BitVec.setWidth_eq]) (extract_any32x_any h (c2 (by decide) rfl) _)
  · obtain rfl | rfl : N = 2 ∨ N = 4 := by omega
    · rw [if_neg (by omega), if_neg (by omega), if_neg (by omega), if_neg (by omega), if_neg (by omega), if_neg (by omega), if_pos ⟨rfl, rfl⟩]
      exact lift _ (fun i => by rw [Vec.at_fin, BitVec.setWidth_eq]) (extract_any64_any h _)
    · rw [if_neg (by omega), if_neg (by omega), if_neg (by omega), if_neg (by omega), if_neg (by omega), if_neg (by omega), if_neg (by omega), if_pos ⟨rfl, rfl⟩]
      exact lift _ (fun i => by rw [Vec.at_fin, BitVec.setWidth_eq]) (extract_any64x_any h (c2 (by decide) rfl) _)

/-- **C31.** On a vector whose lanes are all zeros or all ones, bit `i` of the result of `extract_bits_any` is set exactly if lane `i` is
all ones. -/
theorem C31_extract_bits_any_mask (h : c.Ok) (hN : ExtractLen w N) (hc : c.ExtractOk w N) (m : Fin N → Bool) (a : Vec w N)
    (ha : ∀ i, a i = if m i then BitVec.allOnes w else 0) :
    ∃ r, extract_bits_any c w N a = some r ∧ r < 2 ^ N ∧ ∀ i : Fin N, r.testBit i = m i := by
  obtain ⟨r, e, hr, sel, hs, hb⟩ := C31_extract_bits_any_one_bit_per_lane h hN hc a
  refine ⟨r, e, hr, fun i => ?_⟩
  rw [hb i, ha i]
  cases m i
  · simp
  · simp [hs i.val]

example : ∃ r, extract_bits_any Cfg.altivecOnly 16 8 (fun i => if i.val % 3 = 1 then 0xffff#16 else 0) = some r ∧
    ∀ i : Fin 8, r.testBit i = decide (i.val % 3 = 1) := by
  obtain ⟨r, e, -, hr⟩ := C31_extract_bits_any_mask Cfg.altivecOnly_ok (w := 16) (N := 8) ⟨iw16, Or.inl rfl⟩
    ⟨fun _ => by decide, fun e => absurd e (by decide)⟩ (fun i => decide (i.val % 3 = 1)) _ (fun i => by
      show (if i.val % 3 = 1 then 0xffff#16 else 0) = _
      by_cases g : i.val % 3 = 1 <;> simp [g])
  exact ⟨r, e, hr⟩

/-- **C31.** The bit taken from a lane depends on the configuration: for bytes it is bit 0, bit 7 or bit `i % 8`. -/
theorem C31_extract_bits_any_bytes (h : c.Ok) (a : Vec 8 16) : ∃ r, extract_bits_any c 8 16 a = some r ∧
    ∀ i : Fin 16, r.testBit i = (a i).getLsbD (if c.null then 0 else if c.sse2 then 7 else i.val % 8) := by
  obtain ⟨r, e, hr⟩ := extract_any8_eq h (fun i => (a.at_ i).setWidth 8)
  refine ⟨r.toNat, ?_, fun i => ?_⟩
  · unfold extract_bits_any
    rw [if_pos ⟨rfl, rfl⟩, e]; rfl
  · show r.getLsbD i = _
    rw [hr, Vec.at_fin, Vec.at_fin, BitVec.setWidth_eq]
    simp [Cfg.sel8]

/-- Hence `extract_bits_any` of a vector that is not mask-like differs between instruction sets. -/
theorem C31_extract_bits_any_not_portable : extract_bits_any Cfg.portable 8 16 (Vec.splat 1) ≠ extract_bits_any Cfg.sse2Only 8 16 (Vec.splat 1) := by
  obtain ⟨r, e, hr⟩ := C31_extract_bits_any_bytes Cfg.portable_ok (Vec.splat 1)
  obtain ⟨s, f, hs⟩ := C31_extract_bits_any_bytes Cfg.sse2Only_ok (Vec.splat 1)
  rw [e, f]
  intro g
  have := hr 0
  rw [Option.some.inj g, hs 0] at this
  revert this
  decide

/-- **C31.** There is no overload for other vector types, and the AVX512BW branch for 16-bit lanes does not compile without AVX512VL. -/
theorem C31_extract_bits_any_reject (a : Vec w N) (hw : IsW w) (hN : w * N ≠ 128 ∧ w * N ≠ 256) : extract_bits_any c w N a = none := by
  unfold extract_bits_any
  obtain rfl | rfl | rfl | rfl := hw
  all_goals
    repeat rw [if_neg (by omega)]

theorem C31_extract_bits_any_needs_vl (h : c.Ok) (h1 : c.avx512bw = true) (h2 : c.avx512vl = false) (a : Vec 16 8) :
    extract_bits_any c 16 8 a = none := by
  have hn : c.null = false := by
    have hs : c.sse2 = true := by obtain ⟨o1, o2, o3, o4, o5, o6, o7, o8, o9, o10, o11, o12, o13, o14, o15, o16, o17, o18, o19⟩ := h; grind
    rw [h.null, hs]; rfl
  unfold extract_bits_any
  rw [if_neg (by omega), if_neg (by omega), if_pos ⟨rfl, rfl⟩]
  unfold extract_any16
  rw [hn, h1, h2]
  rfl

/-- **C31.** `extract_bits<id>` packs bit `id` of every byte, in lane order. -/
theorem C31_extract_bits (h : c.Ok) {id : Nat} (hid : id < 8) (a : Vec 8 16) :
    ∃ r : BitVec 16, extract_bits c id a = some r ∧ ∀ i : Fin 16, r.getLsbD i = (a i).getLsbD id := by
  obtain ⟨r, e, hr⟩ := extract_bits_eq h hid a
  exact ⟨r, e, fun i => by rw [hr, Vec.at_fin]; simp⟩

/-- **C31.** The same for 32 bytes. -/
theorem C31_extract_bits_32 (h : c.Ok) {id : Nat} (hid : id < 8) (a : Vec 8 32) :
    ∃ r : BitVec 32, extract_bits32 c id a = some r ∧ ∀ i : Fin 32, r.getLsbD i = (a i).getLsbD id := by
  obtain ⟨r, e, hr⟩ := extract_bits32_eq h hid a
  exact ⟨r, e, fun i => by rw [hr, Vec.at_fin]; simp⟩

example : ∃ r : BitVec 16, extract_bits Cfg.msaOnly 5 (fun i => BitVec.ofNat 8 (17 * i.val)) = some r ∧ r.getLsbD 2 = true ∧ r.getLsbD 4 = false := by
  obtain ⟨r, e, hr⟩ := C31_extract_bits Cfg.msaOnly_ok (id := 5) (by decide) (fun i => BitVec.ofNat 8 (17 * i.val))
  exact ⟨r, e, (hr 2).trans (by decide), (hr 4).trans (by decide)⟩

/-- **C31.** `id` must be below 8. -/
theorem C31_extract_bits_reject {id : Nat} (hid : 8 ≤ id) (a : Vec 8 16) (b : Vec 8 32) : extract_bits c id a = none ∧ extract_bits32 c id b = none :=
  ⟨if_pos (by omega), if_pos (by omega)⟩

end Simdpp
