import Verif.Model.ReduceAdd
import Verif.Props.Reduce
import Mathlib.Data.BitVec
import Mathlib.Tactic.Ring

/-!
# Sums of lanes modulo a power of two
-/

namespace Simdpp
open Spec Sh

variable {w n N : Nat} {c : Cfg}

def Mon.add (W : Nat) : Mon (BitVec W) := ⟨(· + ·), 0, BitVec.add_assoc, BitVec.add_comm, fun x => BitVec.zero_add x⟩

/-- the sum of `f 0, …, f (m-1)` -/
abbrev S (W : Nat) (f : Nat → BitVec W) (m : Nat) : BitVec W := (Mon.add W).big f m

/-- lane value modulo `2^W` -/
def E (sg : Bool) (W : Nat) (x : BitVec w) : BitVec W := BitVec.ofInt W (val sg x)

namespace Mon
variable {α : Type} (M : Mon α)

theorem big_swap (f : Nat → Nat → α) (K m : Nat) :
    M.big (fun i => M.big (fun j => f i j) K) m = M.big (fun j => M.big (fun i => f i j) m) K := by
  induction K with
  | zero => exact M.big_e m
  | succ K ih => rw [M.big_succ, ← ih]; exact M.big_op _ _ m

theorem big_hom {β : Type} (M' : Mon β) (φ : α → β) (he : φ M.e = M'.e) (ho : ∀ x y, φ (M.op x y) = M'.op (φ x) (φ y))
    (f : Nat → α) (m : Nat) : φ (M.big f m) = M'.big (fun i => φ (f i)) m := by
  induction m with
  | zero => exact he
  | succ m ih => rw [M.big_succ, ho, ih]; rfl

theorem foldl_big (f : Nat → α) (m : Nat) (t : α) : (List.range m).foldl (fun t j => M.op t (f j)) t = M.op t (M.big f m) := by
  induction m with
  | zero => exact (M.right_e t).symm
  | succ m ih => rw [List.range_succ, List.foldl_append, ih, M.big_succ, ← M.assoc]; rfl

theorem big_two (f : Nat → α) : M.big f 2 = M.op (f 0) (f 1) := by
  show M.op (M.op M.e _) _ = _; rw [M.left_e]
theorem big_four (f : Nat → α) : M.big f 4 = M.op (M.op (M.op (f 0) (f 1)) (f 2)) (f 3) := by
  show M.op (M.op (M.op (M.op M.e _) _) _) _ = _; rw [M.left_e]

/-- rows of length `L`, with the row index first -/
theorem big_rows' (f : Nat → α) (K L : Nat) :
    M.big (fun j => M.big (fun i => f (L * j + i)) L) K = M.big f (K * L) := by
  rw [← M.big_rows]
  exact M.big_congr fun j _ => M.big_congr fun i _ => by rw [Nat.mul_comm]

end Mon

theorem setWidth_ofInt {W v : Nat} (hW : W ≤ v) (z : Int) : (BitVec.ofInt v z).setWidth W = BitVec.ofInt W z := by
  have h : (z % ((2 : Int) ^ v)) % 2 ^ W = z % 2 ^ W := Int.emod_emod_of_dvd z (pow_dvd_pow 2 hW)
  refine BitVec.eq_of_toNat_eq ?_
  rw [BitVec.toNat_setWidth, BitVec.toNat_ofInt, BitVec.toNat_ofInt]
  have h1 := Int.emod_nonneg z (b := (2 : Int) ^ v) (by positivity)
  have h2 := Int.emod_nonneg z (b := (2 : Int) ^ W) (by positivity)
  zify
  rw [Int.toNat_of_nonneg (by exact_mod_cast h1), Int.toNat_of_nonneg (by exact_mod_cast h2)]
  exact_mod_cast h

theorem extLane_E (sg : Bool) (W : Nat) (x : BitVec w) : Hw.extLane sg W x = E sg W x := by
  cases sg
  · show x.setWidth W = BitVec.ofInt W (x.toNat : Int)
    refine BitVec.eq_of_toNat_eq ?_
    rw [BitVec.toNat_setWidth, BitVec.toNat_ofInt]
    omega
  · rfl

theorem E_trunc (sg : Bool) {W : Nat} (hW : W ≤ w) (x : BitVec w) : E sg W x = x.setWidth W := by
  unfold E
  rw [← setWidth_ofInt hW]
  congr 1
  exact lane_val sg x

theorem setWidth_E (sg : Bool) {W v : Nat} (hW : W ≤ v) (x : BitVec w) : (E sg v x).setWidth W = E sg W x :=
  setWidth_ofInt hW _

theorem setWidth_add' {W v : Nat} (hW : W ≤ v) (x y : BitVec v) : (x + y).setWidth W = x.setWidth W + y.setWidth W :=
  BitVec.setWidth_add x y hW

theorem E_add (sg : Bool) {W : Nat} (hW : W ≤ w) (x y : BitVec w) : E sg W (x + y) = E sg W x + E sg W y := by
  rw [E_trunc sg hW, E_trunc sg hW, E_trunc sg hW, setWidth_add' hW]

theorem E_E (sg sg' : Bool) {W v : Nat} (hW : W ≤ v) (x : BitVec w) : E sg W (E sg' v x) = E sg' W x := by
  rw [E_trunc sg hW, setWidth_E sg' hW]

theorem setWidth_S {W v : Nat} (hW : W ≤ v) (f : Nat → BitVec v) (m : Nat) :
    (S v f m).setWidth W = S W (fun i => (f i).setWidth W) m :=
  Mon.big_hom (Mon.add v) (Mon.add W) (fun x => x.setWidth W) (by simp [Mon.add]) (fun x y => setWidth_add' hW x y) f m

theorem E_S (sg : Bool) {W v : Nat} (hW : W ≤ v) (f : Nat → BitVec v) (m : Nat) :
    E sg W (S v f m) = S W (fun i => E sg W (f i)) m := by
  rw [E_trunc sg hW, setWidth_S hW]
  exact Mon.big_congr _ fun i _ => (E_trunc sg hW _).symm

/-- The total of a vector's lanes modulo `2^W`. -/
def tot (sg : Bool) (W : Nat) (a : Vec w n) : BitVec W := S W (fun i => E sg W (a.at_ i)) n

theorem tot_trunc (sg sg' : Bool) {W : Nat} (hW : W ≤ w) (a : Vec w n) : tot sg W a = tot sg' W a :=
  Mon.big_congr _ fun i _ => by rw [E_trunc sg hW, E_trunc sg' hW]

theorem tot_self (sg : Bool) (a : Vec w n) : tot sg w a = S w a.at_ n :=
  Mon.big_congr _ fun i _ => (E_trunc sg (Nat.le_refl _) _).trans (BitVec.setWidth_eq _)

theorem hadd2_tot (sg : Bool) {W v m : Nat} (hW : W ≤ v) (hm : n = 2 * m) (a : Vec w n) :
    tot sg W (Hw.hadd2 (m := m) sg v a a) = tot sg W a := by
  subst hm
  unfold tot
  rw [S, S, ← Mon.big_pairs]
  refine Mon.big_congr _ fun i hi => ?_
  rw [Vec.at_lt _ hi]
  show E sg W (Hw.extLane sg v _ + Hw.extLane sg v _) = _
  rw [E_add sg hW, extLane_E, extLane_E, E_E sg sg hW, E_E sg sg hW]
  exact BitVec.add_comm _ _

theorem haddq_tot (sg : Bool) {W m : Nat} (hW : W ≤ 64) (hm : n = m * (64 / w)) (a : Vec w n) :
    tot sg W (Hw.haddq (m := m) sg a) = tot sg W a := by
  subst hm
  unfold tot
  rw [S, S, ← Mon.big_rows']
  refine Mon.big_congr _ fun i hi => ?_
  rw [Vec.at_lt _ hi]
  show E sg W (List.foldl (fun t j => (Mon.add 64).op t _) (Mon.add 64).e _) = _
  rw [Mon.foldl_big, Mon.left_e, E_S sg hW]
  exact Mon.big_congr _ fun j _ => by rw [extLane_E, E_E sg sg hW]

theorem sad_tot {W m : Nat} (hW : W ≤ 64) (hm : n = m * 8) (a : Vec 8 n) :
    tot false W (Hw.sad (m := m) a) = tot false W a := by
  subst hm
  unfold tot
  rw [S, S, ← Mon.big_rows']
  refine Mon.big_congr _ fun i hi => ?_
  rw [Vec.at_lt _ hi]
  show E false W (List.foldl (fun t j => (Mon.add 64).op t _) (Mon.add 64).e _) = _
  rw [Mon.foldl_big, Mon.left_e, E_S false hW]
  exact Mon.big_congr _ fun j _ => by
    have e : ∀ x : BitVec 8, x.setWidth 64 = E false 64 x := fun x => by rw [← extLane_E]; rfl
    show E false W ((a.at_ (8 * i + j)).setWidth 64) = _
    rw [e, E_E false false hW]

theorem madd_tot {m : Nat} (hm : n = 2 * m) (a : Vec 16 n) :
    tot true 32 (Hw.madd (m := m) a (Vec.splat 1)) = tot true 32 a := by
  subst hm
  unfold tot
  rw [S, S, ← Mon.big_pairs]
  refine Mon.big_congr _ fun i hi => ?_
  rw [Vec.at_lt _ hi, E_trunc true (Nat.le_refl _), BitVec.setWidth_eq]
  show (BitVec.signExtend 32 _) * (BitVec.signExtend 32 (Vec.at_ (Vec.splat 1) (2 * i))) +
    (BitVec.signExtend 32 _) * (BitVec.signExtend 32 (Vec.at_ (Vec.splat 1) (2 * i + 1))) = _
  rw [Vec.at_lt a (show 2 * i < 2 * m by omega), Vec.at_lt a (show 2 * i + 1 < 2 * m by omega)]
  rw [Vec.at_lt (Vec.splat (n := 2 * m) (1 : BitVec 16)) (show 2 * i < 2 * m by omega),
    Vec.at_lt (Vec.splat (n := 2 * m) (1 : BitVec 16)) (show 2 * i + 1 < 2 * m by omega)]
  show _ * 1#32 + _ * 1#32 = _
  rw [BitVec.mul_one, BitVec.mul_one]
  exact congrArg₂ (· + ·) (extLane_E true 32 _) (extLane_E true 32 _)

/-! ## flipped sign bits -/

theorem flip8 (x : BitVec 8) : E false 16 (x ^^^ BitVec.ofNat 8 (2 ^ (8 - 1))) = E true 16 x + 128#16 := by
  revert x; decide +kernel

theorem flip16 (x : BitVec 16) : E true 32 (x ^^^ BitVec.ofNat 16 (2 ^ (16 - 1))) + 0x8000#32 = E false 32 x := by
  unfold E
  rw [show (2 ^ (16 - 1)) = 2 ^ 15 from rfl]
  have h1 := val_bias (w := 16) (by decide) x
  have e : val true (x ^^^ BitVec.ofNat 16 (2 ^ (16 - 1))) = val false x - 32768 := by
    rw [h1]; rfl
  rw [e, show (0x8000#32) = BitVec.ofInt 32 32768 from rfl, ← BitVec.ofInt_add]
  congr 1; omega

theorem S_const (W : Nat) (k : BitVec W) (m : Nat) : S W (fun _ => k) m = BitVec.ofNat W m * k := by
  induction m with
  | zero => simp [S, Mon.big, Mon.add]
  | succ m ih =>
    show S W (fun _ => k) m + k = _
    rw [ih, BitVec.ofNat_add, BitVec.add_mul, BitVec.one_mul]

theorem tot_flip8 (a : Vec 8 n) :
    tot false 16 (fun i => a i ^^^ BitVec.ofNat 8 (2 ^ (8 - 1))) - BitVec.ofNat 16 (n * 0x80) = tot true 16 a := by
  unfold tot
  have : S 16 (fun i => E false 16 (Vec.at_ (fun i => a i ^^^ BitVec.ofNat 8 (2 ^ (8 - 1))) i)) n =
      S 16 (fun i => (Mon.add 16).op (E true 16 (a.at_ i)) 128#16) n :=
    Mon.big_congr _ fun i hi => by rw [Vec.at_lt _ hi, Vec.at_lt _ hi]; exact flip8 _
  rw [this, S, Mon.big_op, show (Mon.add 16).big (fun _ => 128#16) n = _ from S_const 16 _ n]
  show _ + _ - _ = _
  rw [BitVec.ofNat_mul, BitVec.add_sub_cancel]

theorem tot_flip16 (a : Vec 16 n) :
    tot true 32 (fun i => a i ^^^ BitVec.ofNat 16 (2 ^ (16 - 1))) + BitVec.ofNat 32 (0x8000 * n) = tot false 32 a := by
  unfold tot
  have : S 32 (fun i => E false 32 (a.at_ i)) n =
      S 32 (fun i => (Mon.add 32).op (E true 32 (Vec.at_ (fun i => a i ^^^ BitVec.ofNat 16 (2 ^ (16 - 1))) i)) 0x8000#32) n :=
    Mon.big_congr _ fun i hi => by rw [Vec.at_lt _ hi, Vec.at_lt _ hi]; exact (flip16 _).symm
  rw [this, S, S, Mon.big_op, show (Mon.add 32).big (fun _ => 0x8000#32) n = _ from S_const 32 _ n]
  rw [BitVec.ofNat_mul, BitVec.mul_comm]; rfl

/-! ## final steps -/

theorem addMoves_eq (h : c.Ok) (sg : Bool) (v : Vec 32 4) :
    addMoves c sg [2, 1] v = some (S 32 v.at_ 4) := by
  obtain ⟨r, e, p⟩ := redTree_of h (w := 32) (by simp [IsW]) (Mon.add 32) (i_iadd_eq h (by simp [IsW]) (r := .r128) rfl) rfl
    [2, 1] 4 (by decide) (by simp [Halves]) v
  refine (bind_of e _).trans ?_
  exact (i_extract_eq (k := .int) (r := .r128) h (by simp [Kind.okW, IsW]) rfl (by decide) (by simp) r).trans (congrArg some p)

theorem addMoves2_eq (h : c.Ok) (sg : Bool) (v : Vec 32 4) :
    addMoves c sg [2] v = some (v.at_ 0 + v.at_ 2) := by
  obtain ⟨t, e, p⟩ := moveL1_eq (k := .int) h (w := 32) (s := 2) (by simp [Kind.okW, IsW]) (by decide) rfl v
  refine (bind_of (show redTree c (i_iadd c .r128) [2] v = _ from
    (bind_of e _).trans ((bind_of (i_iadd_eq h (by simp [IsW]) (r := .r128) rfl _ _) _).trans rfl)) _).trans ?_
  refine (i_extract_eq (k := .int) (r := .r128) h (by simp [Kind.okW, IsW]) rfl (by decide) (by simp) _).trans (congrArg some ?_)
  show v.at_ 0 + t.at_ 0 = _
  rw [p 0 (by decide)]

theorem sum04_eq (h : c.Ok) (v : Vec 16 8) : sum04 c v = some (v.at_ 0 + v.at_ 4) :=
  (bind_of (i_extract_eq (k := .int) (r := .r128) h (by simp [Kind.okW, IsW]) rfl (by decide) (by simp) v) _).trans
    ((bind_of (i_extract_eq (k := .int) (r := .r128) h (by simp [Kind.okW, IsW]) rfl (by decide) (by simp) v) _).trans rfl)

/-- low parts of 64-bit lanes -/
theorem low_at {v q m : Nat} (hv : 0 < v) (hq : 0 < q) (hw : 64 = q * v) (hm : m = n * q) (x : Vec 64 n) (i : Nat) :
    (x.recast v m).at_ (i * q) = (x.at_ i).setWidth v := by
  rw [recast_at hv hq hw hm, Nat.mul_div_cancel _ hq, Nat.mul_mod_left, Nat.zero_mul]
  apply BitVec.eq_of_getLsbD_eq; intro i hi
  simp [BitVec.getLsbD_extractLsb']

theorem pair32_tot (x : Vec 64 2) {W : Nat} (hW : W ≤ 32) :
    (((x.recast 32 4).at_ 0 + (x.recast 32 4).at_ 2 : BitVec 32)).setWidth W = tot false W x := by
  rw [show (x.recast 32 4).at_ 0 = _ from low_at (q := 2) (by decide) (by decide) rfl rfl x 0,
    show (x.recast 32 4).at_ 2 = _ from low_at (q := 2) (by decide) (by decide) rfl rfl x 1, setWidth_add' hW]
  unfold tot
  rw [S, Mon.big_two]
  rw [BitVec.setWidth_setWidth_of_le _ hW, BitVec.setWidth_setWidth_of_le _ hW, E_trunc _ (by omega), E_trunc _ (by omega)]
  rfl

/-! ## accumulators -/

theorem accAdd_eq (h : c.Ok) {v L m K : Nat} (hv : IsW v) {r : Reg} (hr : c.hasInt v r = true) {get : Nat → Option (Vec w L)}
    (g : Nat → Vec w L) (hg : ∀ j, j < K → get j = some (g j)) (f : Vec w L → Vec v m) :
    accAdd c r get f K = some (fun i => S v (fun j => f (g j) i) K) := by
  refine loopM_of (lo := 0) (fun j i => S v (fun j => f (g j) i) j) fun j hj => ?_
  refine (bind_of (hg _ (by omega)) _).trans ?_
  rw [i_iadd_eq h hv hr, Nat.zero_add]; rfl

theorem acc_at {v m K : Nat} (f : Nat → Vec v m) {i : Nat} (hi : i < m) :
    Vec.at_ (fun i => S v (fun j => f j i) K) i = S v (fun j => (f j).at_ i) K := by
  rw [Vec.at_lt _ hi]
  exact Mon.big_congr _ fun j _ => by rw [Vec.at_lt _ hi]

theorem acc_tot (sg : Bool) {W v m K : Nat} (hW : W ≤ v) (f : Nat → Vec v m) :
    tot sg W (fun i => S v (fun j => f j i) K : Vec v m) = S W (fun j => tot sg W (f j)) K := by
  unfold tot
  rw [S, S, ← Mon.big_swap]
  refine Mon.big_congr _ fun i hi => ?_
  rw [acc_at f hi, E_S sg hW]

/-- The total of an array is the sum of the totals of its registers. -/
theorem parts_tot (sg : Bool) {W K L : Nat} (hN : N = K * L) (a : Vec w N) :
    S W (fun j => tot sg W (Hw.part L j a)) K = tot sg W a := by
  subst hN
  unfold tot
  rw [S, S, ← Mon.big_rows]
  exact Mon.big_congr _ fun j _ => Mon.big_congr _ fun i hi => by rw [Hw.part_at _ hi]

end Simdpp
