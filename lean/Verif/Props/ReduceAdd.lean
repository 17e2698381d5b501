import Verif.Props.ReduceAddLemmas
import Verif.Props.ConvExt
import Mathlib.Algebra.BigOperators.Fin

/-!
# C16 reductions: add
-/

namespace Simdpp
open Spec Sh

variable {w n N : Nat} {c : Cfg}

/-! ## portable loops -/

theorem lane_v (s : Bool) (x : BitVec w) : (C.lane s x).v = val s x := by cases s <;> rfl

theorem ofInt_zero' (W : Nat) : BitVec.ofInt W 0 = 0 := by simp

theorem addLoop_of {s t : Bool} {W start : Nat} (hs : start ≤ 1) (P : Nat → Int → Prop)
    (h0 : start = 0 → P 0 0) (h1 : start = 1 → ∀ x : BitVec w, P 1 (C.wrap ⟨t, W⟩ (val s x)))
    (a : Vec w n) (hn : 0 < n)
    (hstep : ∀ i, i < n → ∀ v, P i v → ∀ x : BitVec w, ∃ v', (C.add ⟨⟨t, W⟩, v⟩ (C.lane s x)).map (C.cast ⟨t, W⟩) = some ⟨⟨t, W⟩, v'⟩ ∧
      P (i + 1) v' ∧ BitVec.ofInt W v' = BitVec.ofInt W v + E s W x) :
    addLoop s t W start a = some (tot s W a) := by
  have hi : ∃ v, (if start = 0 then (⟨⟨t, W⟩, 0⟩ : C.Val) else C.cast ⟨t, W⟩ (C.lane s (a.at_ 0))) = ⟨⟨t, W⟩, v⟩ ∧ P start v ∧
      BitVec.ofInt W v = S W (fun i => E s W (a.at_ i)) start := by
    by_cases e : start = 0
    · exact ⟨0, if_pos e, by rw [e]; exact h0 e, by subst e; exact ofInt_zero' W⟩
    · have e1 : start = 1 := by omega
      refine ⟨C.wrap ⟨t, W⟩ (val s (a.at_ 0)), ?_, by rw [e1]; exact h1 e1 _, ?_⟩
      · rw [if_neg e]; unfold C.cast; rw [lane_v]
      · rw [ofInt_wrap, e1, S, Mon.big_one]; rfl
  obtain ⟨v0, e0, p0, q0⟩ := hi
  unfold addLoop
  dsimp only
  rw [e0]
  obtain ⟨u, eu, v, ev, _, qv⟩ := loopM_inv (m := n - start) (lo := start)
    (body := fun i r => if i < n then (C.add r (C.lane s (a.at_ i))).map (C.cast ⟨t, W⟩) else none)
    (P := fun i r => ∃ v, r = ⟨⟨t, W⟩, v⟩ ∧ P (start + i) v ∧ BitVec.ofInt W v = S W (fun i => E s W (a.at_ i)) (start + i))
    (s := ⟨⟨t, W⟩, v0⟩) ⟨v0, rfl, p0, q0⟩ (by
      rintro i hi r ⟨v, rfl, pv, qv⟩
      obtain ⟨v', e', p', q'⟩ := hstep (start + i) (by omega) v pv (a.at_ (start + i))
      exact ⟨⟨⟨t, W⟩, v'⟩, (if_pos (by omega)).trans e', v', rfl, p', by rw [q', qv]; rfl⟩)
  rw [eu, ev]
  show some (BitVec.ofInt W v) = _
  rw [qv, show start + (n - start) = n by omega]; rfl

theorem val_bounds8 (s : Bool) (x : BitVec 8) : -128 ≤ val s x ∧ val s x ≤ 255 := by
  have := val_mem s (by decide) x
  cases s <;> simp [lo, hi] at this <;> omega

theorem addLoop8 (s t : Bool) {start : Nat} (hs : start ≤ 1) (a : Vec 8 n) (hn : 0 < n) :
    addLoop s t 16 start a = some (tot s 16 a) := by
  have hr : ∀ z : Int, C.InR ⟨t, 16⟩ (C.wrap ⟨t, 16⟩ z) := by
    intro z
    cases t
    · show (0:Int) ≤ z % (65536 : Int) ∧ z % (65536 : Int) ≤ 65535
      omega
    · show (-32768:Int) ≤ Int.bmod z 65536 ∧ Int.bmod z 65536 ≤ 32767
      have h1 := Int.bmod_lt (x := z) (m := 65536) (by decide)
      have h2 := Int.le_bmod (x := z) (m := 65536) (by decide)
      omega
  refine addLoop_of hs (fun _ v => C.InR ⟨t, 16⟩ v) (fun _ => by cases t <;> exact ⟨by decide, by decide⟩) (fun _ x => hr _) a hn ?_
  intro i _ v hv x
  have hx := val_bounds8 s x
  have hv' : -32768 ≤ v ∧ v ≤ 65535 := by
    obtain ⟨h1, h2⟩ := hv
    cases t
    · exact ⟨by change (0:Int) ≤ v at h1; omega, h2⟩
    · exact ⟨h1, by change v ≤ 32767 at h2; omega⟩
  have hu : C.usual ⟨t, 16⟩ ⟨s, 8⟩ = C.int32 := by cases s <;> cases t <;> rfl
  refine ⟨C.wrap ⟨t, 16⟩ (v + val s x), ?_, hr _, ?_⟩
  · have e : C.lane s x = ⟨⟨s, 8⟩, val s x⟩ := by rw [← lane_v]; rfl
    rw [e, C.add_inR (x := v) (y := val s x) hu (by decide)
      ⟨by show (-2147483648:Int) ≤ _; omega, by show _ ≤ (2147483647:Int); omega⟩
      ⟨by show (-2147483648:Int) ≤ _; omega, by show _ ≤ (2147483647:Int); omega⟩
      ⟨by show (-2147483648:Int) ≤ _; omega, by show _ ≤ (2147483647:Int); omega⟩]
    rfl
  · rw [ofInt_wrap, BitVec.ofInt_add]; rfl

theorem addLoopU {W : Nat} (hW : (w = 16 ∧ W = 32) ∨ (w = 32 ∧ W = 32) ∨ (w = 64 ∧ W = 64)) {start : Nat} (hs : start ≤ 1)
    (a : Vec w n) (hn : 0 < n) : addLoop false false W start a = some (tot false W a) := by
  refine addLoop_of hs (fun _ _ => True) (fun _ => trivial) (fun _ _ => trivial) a hn ?_
  intro i _ v _ x
  have hu : C.usual ⟨false, W⟩ ⟨false, w⟩ = ⟨false, W⟩ := by
    rcases hW with ⟨e, e'⟩ | ⟨e, e'⟩ | ⟨e, e'⟩ <;> subst e <;> subst e' <;> rfl
  refine ⟨C.wrap ⟨false, W⟩ (C.wrap ⟨false, W⟩ (C.wrap ⟨false, W⟩ v + C.wrap ⟨false, W⟩ (val false x))), ?_, trivial, ?_⟩
  · have e : C.lane false x = ⟨⟨false, w⟩, val false x⟩ := rfl
    rw [e]
    unfold C.add
    dsimp only
    rw [hu]; rfl
  · rw [ofInt_wrap, ofInt_wrap, BitVec.ofInt_add, ofInt_wrap, ofInt_wrap]; rfl

theorem addLoopS16 {start : Nat} (hs : start ≤ 1) (a : Vec 16 n) (hn : 0 < n) (hN : n ≤ 65536) :
    addLoop true true 32 start a = some (tot true 32 a) := by
  refine addLoop_of hs (fun i v => -32768 * (i : Int) ≤ v ∧ v ≤ 32767 * (i : Int)) (fun _ => by simp) (fun _ x => ?_) a hn ?_
  · have := C.toInt_bounds16 x
    have e : C.wrap ⟨true, 32⟩ (val true x) = x.toInt := C.wrap_i32 (by show _ ≤ x.toInt; omega) (by show x.toInt ≤ _; omega)
    rw [e]; omega
  · intro i hi v hv x
    have hx := C.toInt_bounds16 x
    have e : C.lane true x = ⟨⟨true, 16⟩, x.toInt⟩ := rfl
    refine ⟨v + x.toInt, ?_, by push_cast; omega, ?_⟩
    · rw [e, C.add_inR (x := v) (y := x.toInt) (u := C.int32) rfl (by decide)
        ⟨by show (-2147483648:Int) ≤ _; omega, by show _ ≤ (2147483647:Int); omega⟩
        ⟨by show (-2147483648:Int) ≤ _; omega, by show _ ≤ (2147483647:Int); omega⟩
        ⟨by show (-2147483648:Int) ≤ _; omega, by show _ ≤ (2147483647:Int); omega⟩]
      show some (C.cast _ _) = _
      rw [C.cast_inR (by decide) ⟨by show (-2147483648:Int) ≤ _; omega, by show _ ≤ (2147483647:Int); omega⟩]
    · rw [BitVec.ofInt_add]; rfl

/-! ## AltiVec vec_sum4s -/

def Mon.int : Mon Int := ⟨(· + ·), 0, Int.add_assoc, Int.add_comm, Int.zero_add⟩

theorem intBig_bounds {f : Nat → Int} {l u : Int} (hf : ∀ i, l ≤ f i ∧ f i ≤ u) (m : Nat) :
    l * (m : Int) ≤ Mon.int.big f m ∧ Mon.int.big f m ≤ u * (m : Int) := by
  induction m with
  | zero => simp [Mon.big, Mon.int]
  | succ m ih =>
    rw [Mon.big_succ]
    show l * _ ≤ Mon.int.big f m + f m ∧ Mon.int.big f m + f m ≤ _
    have := hf m
    push_cast
    rw [Int.mul_add, Int.mul_add]; omega

theorem ofInt_big (W : Nat) (f : Nat → Int) (m : Nat) :
    BitVec.ofInt W (Mon.int.big f m) = S W (fun i => BitVec.ofInt W (f i)) m :=
  Mon.big_hom Mon.int (Mon.add W) (BitVec.ofInt W) (ofInt_zero' W) (fun x y => BitVec.ofInt_add x y) f m

theorem sum4s_lane (sg : Bool) {m : Nat} (a : Vec w n) (b : Vec 32 m) (i : Fin m) {z : Int}
    (hz : z = val sg (b i) + Mon.int.big (fun j => val sg (a.at_ (32 / w * i.val + j))) (32 / w))
    (h1 : lo sg 32 ≤ z) (h2 : z ≤ hi sg 32) : val sg (Hw.sum4s sg a b i) = z := by
  unfold Hw.sum4s
  rw [show (List.range (32 / w)).foldl (fun t j => t + val sg (a.at_ (32 / w * i.val + j))) (val sg (b i)) = z from
    (Mon.int.foldl_big _ _ _).trans hz.symm]
  have : clamp sg 32 z = z := by unfold clamp; omega
  rw [this]
  exact val_lane_of_range (by decide) h1 h2

theorem accSum4_eq (sg : Bool) {L m K : Nat} (hw : IsW w) (hL : L = m * (32 / w)) {get : Nat → Option (Vec w L)}
    (g : Nat → Vec w L) (hg : ∀ j, j < K → get j = some (g j))
    (h1 : lo sg 32 ≤ lo sg w * ((32 / w * K : Nat) : Int)) (h2 : hi sg w * ((32 / w * K : Nat) : Int) ≤ hi sg 32) :
    ∃ acc : Vec 32 m, accSum4 sg get K = some acc ∧ ∀ W, W ≤ 32 → tot sg W acc = S W (fun j => tot sg W (g j)) K := by
  obtain ⟨acc, e, p⟩ := loopM_inv (m := K) (lo := 0) (body := fun j (acc : Vec 32 m) => do
      let x ← get j
      some (Hw.sum4s sg x acc))
    (P := fun k acc => ∀ i : Fin m, val sg (acc i) = Mon.int.big (fun j => Mon.int.big (fun t => val sg ((g j).at_ (32 / w * i.val + t))) (32 / w)) k)
    (s := Vec.splat 0) (fun i => by cases sg <;> rfl) (by
      intro k hk acc hacc
      refine ⟨_, bind_of (hg _ (by omega)) _, fun i => ?_⟩
      rw [Nat.zero_add]
      have hb : ∀ j, lo sg w * ((32 / w : Nat) : Int) ≤ Mon.int.big (fun t => val sg ((g j).at_ (32 / w * i.val + t))) (32 / w) ∧
          Mon.int.big (fun t => val sg ((g j).at_ (32 / w * i.val + t))) (32 / w) ≤ hi sg w * ((32 / w : Nat) : Int) :=
        fun j => intBig_bounds (fun t => val_mem sg (isW_pos hw) _) _
      have hb2 := intBig_bounds hb (k + 1)
      have hlo : lo sg w ≤ 0 := by
        have := Int.pow_pos (n := 2) (m := w - 1) (by decide)
        cases sg <;> simp [lo]
      have hhi : 0 ≤ hi sg w := by
        have := Int.pow_pos (n := 2) (m := w - 1) (by decide)
        have := Int.pow_pos (n := 2) (m := w) (by decide)
        cases sg <;> simp [hi] <;> omega
      have hk' : ((k + 1 : Nat) : Int) ≤ (K : Int) := by exact_mod_cast (show k + 1 ≤ K by omega)
      have hd : (0:Int) ≤ ((32 / w : Nat) : Int) := Int.natCast_nonneg _
      push_cast at h1 h2 hb2 hk'
      refine sum4s_lane sg _ _ i (by rw [hacc]; rfl) ?_ ?_
      · refine Int.le_trans h1 (Int.le_trans ?_ hb2.1)
        rw [← Int.mul_assoc]
        exact Int.mul_le_mul_of_nonpos_left (Int.mul_nonpos_of_nonpos_of_nonneg hlo (by exact_mod_cast hd)) (by exact_mod_cast hk')
      · refine Int.le_trans hb2.2 (Int.le_trans ?_ h2)
        rw [← Int.mul_assoc]
        exact Int.mul_le_mul_of_nonneg_left (by exact_mod_cast hk') (Int.mul_nonneg hhi (by exact_mod_cast hd)))
  refine ⟨acc, e, fun W hW => ?_⟩
  subst hL
  have e1 : ∀ j, tot sg W (g j) = S W (fun i => S W (fun t => E sg W ((g j).at_ (32 / w * i + t))) (32 / w)) m :=
    fun j => (Mon.big_rows' _ _ m _).symm
  simp only [e1]
  unfold tot
  rw [S, S, ← Mon.big_swap]
  refine Mon.big_congr _ fun i hi => ?_
  rw [Vec.at_lt _ hi]
  show BitVec.ofInt W (val sg (acc ⟨i, hi⟩)) = _
  rw [p ⟨i, hi⟩, ofInt_big]
  exact Mon.big_congr _ fun j _ => ofInt_big W _ _

/-! ## final steps -/

theorem tot_setWidth (sg sg' : Bool) {W v : Nat} (hW : W ≤ v) (hv : v ≤ w) (a : Vec w n) : (tot sg v a).setWidth W = tot sg' W a := by
  unfold tot
  rw [setWidth_S hW]
  exact Mon.big_congr _ fun i _ => by rw [setWidth_E sg hW, E_trunc sg (by omega), E_trunc sg' (by omega)]

theorem pair16_tot (x : Vec 64 2) : (x.recast 16 8).at_ 0 + (x.recast 16 8).at_ 4 = tot false 16 x := by
  rw [show (x.recast 16 8).at_ 0 = _ from low_at (q := 4) (by decide) (by decide) rfl rfl x 0,
    show (x.recast 16 8).at_ 4 = _ from low_at (q := 4) (by decide) (by decide) rfl rfl x 1]
  unfold tot
  rw [S, Mon.big_two, E_trunc _ (by omega), E_trunc _ (by omega)]; rfl

theorem quad16_tot (x : Vec 64 4) :
    (x.recast 16 16).at_ 0 + (x.recast 16 16).at_ 8 + ((x.recast 16 16).at_ 4 + (x.recast 16 16).at_ 12) = tot false 16 x := by
  rw [show (x.recast 16 16).at_ 0 = _ from low_at (q := 4) (by decide) (by decide) rfl rfl x 0,
    show (x.recast 16 16).at_ 4 = _ from low_at (q := 4) (by decide) (by decide) rfl rfl x 1,
    show (x.recast 16 16).at_ 8 = _ from low_at (q := 4) (by decide) (by decide) rfl rfl x 2,
    show (x.recast 16 16).at_ 12 = _ from low_at (q := 4) (by decide) (by decide) rfl rfl x 3]
  unfold tot
  rw [S, Mon.big_four, E_trunc _ (by omega), E_trunc _ (by omega), E_trunc _ (by omega), E_trunc _ (by omega)]
  show _ = BitVec.setWidth 16 _ + _ + _ + _
  rw [← BitVec.add_assoc, BitVec.add_assoc (BitVec.setWidth 16 (x.at_ 0)), BitVec.add_comm (BitVec.setWidth 16 (x.at_ 2)),
    ← BitVec.add_assoc]

theorem halves16 (h : c.Ok) (v : Vec 16 16) :
    (do let s ← i_iadd c .r128 (Hw.part 8 0 v) (Hw.part 8 1 v); sum04 c s) =
      some (v.at_ 0 + v.at_ 8 + (v.at_ 4 + v.at_ 12)) :=
  (bind_of (i_iadd_eq h (by simp [IsW]) (r := .r128) rfl _ _) _).trans (sum04_eq h _)

theorem addMoves_tot (h : c.Ok) (sg sg' : Bool) (v : Vec 32 4) : addMoves c sg [2, 1] v = some (tot sg' 32 v) :=
  (addMoves_eq h sg v).trans (congrArg some (tot_self sg' v).symm)

/-! ## 32- and 64-bit lanes -/

theorem msa_add32 (h : c.Ok) (a : Vec 32 4) :
    (addMoves c false [2] ((Hw.hadd2 (m := 2) false 64 a a).recast 32 4)).map (BitVec.setWidth 32) = some (S 32 a.at_ 4) := by
  rw [addMoves2_eq h]
  have e1 := pair32_tot (Hw.hadd2 (m := 2) false 64 a a) (W := 32) (Nat.le_refl _)
  have e2 := hadd2_tot (W := 32) (v := 64) (m := 2) false (by decide) rfl a
  have e3 := tot_self false a
  exact congrArg some ((e1.trans e2).trans e3)

theorem i_reduce_add128_eq (h : c.Ok) (hw : w = 32 ∨ w = 64) (a : Vec w (Reg.r128.lanes w)) :
    i_reduce_add128 c a = some (S w a.at_ (Reg.r128.lanes w)) := by
  have hw' : IsW w := by rcases hw with e | e <;> simp [IsW, e]
  have hT := redTree0_eq h hw' (Mon.add w) (sg := false) (i_iadd_eq h hw' (r := .r128) rfl) (by simp [msa32s]) a
  have hL := (addLoopU (w := w) (W := w) (by omega) (start := 1) (by omega) a (lanes_pos hw' _)).trans
    (congrArg some (tot_self false a))
  unfold i_reduce_add128
  split_ifs with g1 g2 g3 g4 g5 g6
  · exact hL
  · subst g2
    exact msa_add32 h a
  · exact hT
  · exact hT
  · have e : w = 64 := by omega
    subst e
    show _ = some (S 64 a.at_ 2)
    rw [S, Mon.big_two]; rfl
  · have e : w = 64 := by omega
    subst e
    refine (bind_of (i_extract_eq (k := .int) (r := .r128) h (by simp [Kind.okW, IsW]) rfl (by decide) (by simp [msa32s]) a) _).trans ?_
    refine (bind_of (i_extract_eq (k := .int) (r := .r128) h (by simp [Kind.okW, IsW]) rfl (by decide) (by simp [msa32s]) a) _).trans ?_
    show _ = some (S 64 a.at_ 2)
    rw [S, Mon.big_two]; rfl
  · exfalso; clear hT hL; cfg_absurd h

theorem reduce_add_wide_eq (h : c.Ok) (hw : w = 32 ∨ w = 64) (hN : c.VLen w N) (a : Vec w N) :
    reduce_add_wide c a = some (tot false w a) := by
  have hw' : IsW w := by rcases hw with e | e <;> simp [IsW, e]
  rw [tot_self]
  have hR : ∀ {n : Nat} (r : Reg) (_ : c.hasInt w r = true) (b : Vec w n) (_ : n = r.lanes w),
      redReg c (fun r => i_iadd c r) (i_reduce_add128 c) r b = some (S w b.at_ n) :=
    fun r hr b hn => redReg_eq h hw' (Mon.add w) hr (fun r' hr' _ _ _ => i_iadd_eq h hw' hr') (i_reduce_add128_eq h hw) b hn
  unfold reduce_add_wide
  split_ifs with h1 h2
  · exact hR _ (VLen.one hw' hN h1).2 a (VLen.one hw' hN h1).1
  · exact (addLoopU (w := w) (W := w) (by omega) (start := 0) (by omega) a (VLen.pos hw' hN)).trans
      (congrArg some (tot_self false a))
  · obtain ⟨K, hK, hN'⟩ := VLen.arr hw' hN (by simpa using h1)
    have hL := lanes_pos hw' (c.fast w)
    subst hN'
    rw [Nat.mul_div_cancel _ hL]
    have key := loopM_of (m := K) (lo := 0) (body := fun j r => i_iadd c (c.fast w) r (Hw.part ((c.fast w).lanes w) j a))
      (fun k i => S w (fun j => a.at_ (j * (c.fast w).lanes w + i.val)) k) (fun j hj => by
        rw [i_iadd_eq h hw' (fast_has c w), Nat.zero_add]; rfl)
    refine (bind_of key _).trans ?_
    rw [hR _ (fast_has c w) _ rfl]
    congr 1
    rw [S, S, ← Mon.big_cols]
    exact Mon.big_congr _ fun i hi => Vec.at_lt _ hi

attribute [local irreducible] tot Mon.big

/-! ## 8-bit lanes -/

theorem sad16_tot (sg : Bool) (h : c.xop = true ∨ sg = false) (x : Vec 8 16) :
    (sad16 c sg x).at_ 0 + (sad16 c sg x).at_ 4 = tot sg 16 x := by
  unfold sad16
  by_cases g : c.xop = true
  · rw [if_pos g]
    exact (pair16_tot _).trans ((tot_trunc false sg (by decide) _).trans (haddq_tot sg (by decide) (by rfl) x))
  · rw [if_neg g]
    have e : sg = false := h.resolve_left g
    subst e
    exact (pair16_tot _).trans (sad_tot (by decide) (by rfl) x)

theorem chain64 (sg : Bool) {W : Nat} (hW : W ≤ 16) (v : Vec 16 8) :
    tot false W (Hw.hadd2 (m := 2) sg 64 (Hw.hadd2 (m := 4) sg 32 v v) (Hw.hadd2 (m := 4) sg 32 v v)) = tot sg W v :=
  (tot_trunc false sg (by omega) _).trans ((hadd2_tot sg (by omega) (by rfl) _).trans (hadd2_tot sg (by omega) (by rfl) v))

theorem chain32 (sg : Bool) {W : Nat} (hW : W ≤ 32) (v : Vec 32 4) :
    tot false W (Hw.hadd2 (m := 2) sg 64 v v) = tot sg W v :=
  (tot_trunc false sg (by omega) _).trans (hadd2_tot sg (by omega) (by rfl) _)

theorem sum4s_tot (sg : Bool) (hw : (w = 8 ∧ n = 16) ∨ (w = 16 ∧ n = 8 ∧ sg = true)) {W : Nat} (hW : W ≤ 32) (a : Vec w n) :
    tot sg W (Hw.sum4s sg a (Vec.splat 0 : Vec 32 4)) = tot sg W a := by
  have hw' : IsW w := by rcases hw with ⟨e, _⟩ | ⟨e, _⟩ <;> simp [IsW, e]
  obtain ⟨acc, e, p⟩ := accSum4_eq (m := 4) (K := 1) sg hw' (by rcases hw with ⟨e, e'⟩ | ⟨e, e', _⟩ <;> subst e <;> subst e' <;> rfl)
    (get := fun _ => some a) (fun _ => a) (fun _ _ => rfl)
    (by rcases hw with ⟨e, e'⟩ | ⟨e, e', e''⟩
        · subst e; cases sg <;> decide
        · subst e; subst e''; decide)
    (by rcases hw with ⟨e, e'⟩ | ⟨e, e', e''⟩
        · subst e; cases sg <;> decide
        · subst e; subst e''; decide)
  cases e
  exact (p W hW).trans (Mon.big_one _ _)

theorem reduce_add8_128_eq (h : c.Ok) (sg : Bool) (hb : sg = true → bias8 c .r128 = false) (a : Vec 8 16) :
    reduce_add8_128 c sg a = some (tot sg 16 a) := by
  unfold reduce_add8_128
  split_ifs with g1 g2 g3 g4 g5
  · exact addLoop8 sg sg (by decide) a (by decide)
  · refine (sum04_eq h _).trans (congrArg some (sad16_tot sg ?_ a))
    cases sg
    · exact Or.inr rfl
    · have := hb rfl
      simp [bias8, g2] at this
      exact Or.inl this
  · refine congrArg some ((pair32_tot _ (by decide)).trans ?_)
    exact (chain64 sg (by decide) _).trans (hadd2_tot sg (by decide) (by rfl) a)
  · rw [addMoves_tot h sg sg]
    exact congrArg some ((tot_setWidth sg sg (by decide) (by decide) _).trans (sum4s_tot sg (Or.inl ⟨rfl, rfl⟩) (by decide) a))
  · show (addMoves c sg [2] _).map _ = _
    rw [addMoves2_eq h]
    refine congrArg some ((pair32_tot _ (by decide)).trans ?_)
    exact (chain64 sg (by decide) _).trans (hadd2_tot sg (by decide) (by rfl) a)
  · exfalso; clear a hb; cfg_absurd h

theorem reduce_add8_256_eq (h : c.Ok) (a : Vec 8 32) : reduce_add8_256 c a = some (tot false 16 a) :=
  (halves16 h _).trans (congrArg some ((quad16_tot _).trans (sad_tot (by decide) (by rfl) a)))

theorem reduce_add8_512_eq (h : c.Ok) (hb : c.avx512bw = true) (a : Vec 8 64) : reduce_add8_512 c a = some (tot false 16 a) := by
  have hf := h.avx512bw hb
  unfold reduce_add8_512
  rw [reduce_add_wide_eq h (Or.inr rfl) (N := 8) (Or.inl ⟨.r512, by simp [Cfg.hasInt, hf], rfl⟩)]
  exact congrArg some ((tot_setWidth false false (by decide) (by decide) _).trans (sad_tot (by decide) (by rfl) a))

theorem part0_tot (sg : Bool) {W : Nat} (a : Vec w n) : tot sg W (Hw.part n 0 a) = tot sg W a :=
  by unfold tot; exact Mon.big_congr _ fun i hi => by rw [part_at0 _ hi]

theorem reduce_add8_reg_eq (h : c.Ok) (sg : Bool) {r : Reg} (hr : c.hasInt 8 r = true) (hb : sg = true → bias8 c r = false)
    (a : Vec 8 n) (hn : n = r.lanes 8) : reduce_add8_reg c sg r a = some (tot sg 16 a) := by
  subst hn
  cases r with
  | r128 => exact (reduce_add8_128_eq h sg hb _).trans (congrArg some (part0_tot sg a))
  | r256 =>
    have hs : sg = false := by
      cases sg
      · rfl
      · have := hb rfl
        have h2 : c.avx2 = true := hr
        obtain ⟨o1, o2, o3, o4, o5, o6, o7, o8, o9, o10, o11, o12, o13, o14, o15, o16, o17, o18, o19⟩ := h
        simp [bias8] at this; grind
    subst hs
    exact (if_pos hr).trans ((reduce_add8_256_eq h _).trans (congrArg some (part0_tot false a)))
  | r512 =>
    have hs : sg = false := by
      cases sg
      · rfl
      · have := hb rfl
        have h2 : c.avx512bw = true := hr
        obtain ⟨o1, o2, o3, o4, o5, o6, o7, o8, o9, o10, o11, o12, o13, o14, o15, o16, o17, o18, o19⟩ := h
        simp [bias8] at this; grind
    subst hs
    exact (if_pos hr).trans ((reduce_add8_512_eq h hr _).trans (congrArg some (part0_tot false a)))

theorem acc2 {v m K : Nat} (f : Nat → Vec v m) {i i' : Nat} (hi : i < m) (hi' : i' < m) :
    Vec.at_ (fun i => S v (fun j => f j i) K) i + Vec.at_ (fun i => S v (fun j => f j i) K) i' =
      S v (fun j => (f j).at_ i + (f j).at_ i') K := by
  rw [acc_at f hi, acc_at f hi']
  exact (Mon.big_op (Mon.add v) _ _ K).symm

theorem acc4 {v m K : Nat} (f : Nat → Vec v m) {i j k l : Nat} (hi : i < m) (hj : j < m) (hk : k < m) (hl : l < m) :
    Vec.at_ (fun i => S v (fun j => f j i) K) i + Vec.at_ (fun i => S v (fun j => f j i) K) j +
      (Vec.at_ (fun i => S v (fun j => f j i) K) k + Vec.at_ (fun i => S v (fun j => f j i) K) l) =
      S v (fun t => (f t).at_ i + (f t).at_ j + ((f t).at_ k + (f t).at_ l)) K := by
  rw [acc2 f hi hj, acc2 f hk hl]
  exact (Mon.big_op (Mon.add v) _ _ K).symm

theorem reduce_add8_arr_eq (h : c.Ok) (hn0 : c.null = false) (hbw : c.avx512bw = false) (sg : Bool) (hb : sg = true → bias8 c (c.fast 8) = false)
    {K : Nat} {get : Nat → Option (Vec 8 ((c.fast 8).lanes 8))} (g : Nat → Vec 8 ((c.fast 8).lanes 8))
    (hg : ∀ j, j < K → get j = some (g j)) (hK : c.altivec = true → K ≤ 2 ^ 22) :
    reduce_add8_arr c sg get K = some (S 16 (fun j => tot sg 16 (g j)) K) := by
  have hf : c.fast 8 = if c.avx2 then .r256 else .r128 := by simp [Cfg.fast, Cfg.hasInt, hbw]; try rfl
  unfold reduce_add8_arr
  rw [if_neg (by simp [hbw])]
  by_cases g2 : c.avx2 = true
  · rw [if_pos g2]
    rw [if_pos g2] at hf
    have hs : sg = false := by
      cases sg
      · rfl
      · have := hb rfl
        rw [hf] at this
        obtain ⟨o1, o2, o3, o4, o5, o6, o7, o8, o9, o10, o11, o12, o13, o14, o15, o16, o17, o18, o19⟩ := h
        simp [bias8] at this; grind
    subst hs
    clear hb
    generalize c.fast 8 = r at hf g get
    subst hf
    refine (bind_of (accAdd_eq h (v := 16) (by simp [IsW]) (r := .r256) g2 g hg _) _).trans ?_
    refine (halves16 h _).trans (congrArg some ((acc4 (fun j => (Hw.sad (m := 4) (g j)).recast 16 16) (by decide) (by decide) (by decide) (by decide)).trans ?_))
    exact Mon.big_congr _ fun j _ => (quad16_tot _).trans (sad_tot (by decide) (by rfl) _)
  · rw [if_neg g2]
    rw [if_neg g2] at hf
    generalize c.fast 8 = r at hf g get hb
    subst hf
    split_ifs with g3 g4 g5 g6
    · refine (bind_of (accAdd_eq h (v := 16) (by simp [IsW]) (r := .r128) rfl g hg _) _).trans ?_
      refine (sum04_eq h _).trans (congrArg some ((acc2 (fun j => sad16 c sg (g j)) (by decide) (by decide)).trans ?_))
      refine Mon.big_congr _ fun j _ => sad16_tot sg ?_ _
      cases sg
      · exact Or.inr rfl
      · have := hb rfl
        simp [bias8, g3] at this
        exact Or.inl this
    · refine (bind_of (accAdd_eq h (v := 16) (by simp [IsW]) (r := .r128) rfl g hg _) _).trans ?_
      refine congrArg some ((pair32_tot _ (by decide)).trans ((chain64 sg (by decide) _).trans ((acc_tot sg (by decide) _).trans ?_)))
      exact Mon.big_congr _ fun j _ => hadd2_tot sg (by decide) (by rfl) _
    · have hK' := hK g5
      obtain ⟨acc, e, p⟩ := accSum4_eq (m := 4) (K := K) sg (by simp [IsW]) rfl g hg
        (by cases sg <;> simp [lo]; omega) (by cases sg <;> simp [hi] <;> omega)
      refine (bind_of e _).trans ?_
      rw [addMoves_tot h sg sg]
      exact congrArg some ((tot_setWidth sg sg (by decide) (by decide) _).trans (p 16 (by decide)))
    · refine (bind_of (accAdd_eq h (v := 16) (by simp [IsW]) (r := .r128) rfl g hg _) _).trans ?_
      show (addMoves c sg [2] _).map _ = _
      rw [addMoves2_eq h]
      refine congrArg some ((pair32_tot _ (by decide)).trans ((chain64 sg (by decide) _).trans ((acc_tot sg (by decide) _).trans ?_)))
      exact Mon.big_congr _ fun j _ => hadd2_tot sg (by decide) (by rfl) _
    · exfalso; clear g get hg hb hK; cfg_absurd h

theorem flip_parts {L K : Nat} (a : Vec 8 (K * L)) :
    S 16 (fun j => tot false 16 (fun i => Hw.part L j a i ^^^ BitVec.ofNat 8 (2 ^ (8 - 1)))) K =
      tot false 16 (fun i => a i ^^^ BitVec.ofNat 8 (2 ^ (8 - 1))) := by
  rw [← parts_tot false (K := K) (L := L) rfl]
  refine Mon.big_congr _ fun j hj => ?_
  unfold tot
  refine Mon.big_congr _ fun i hi => ?_
  have : j * L + i < K * L := by nlinarith
  rw [Vec.at_lt _ hi, Hw.part_at _ hi, Vec.at_lt _ this]
  show E false 16 (a.at_ (j * L + i) ^^^ _) = _
  rw [Vec.at_lt _ this]

/-- What `reduce_add` of 8-bit lanes needs: no arrays under AVX-512BW, no more than `2^26` lanes on AltiVec. -/
def add8Supported (c : Cfg) (N : Nat) : Prop :=
  (c.avx512bw = true → c.single 8 N = true) ∧ (c.altivec = true → N ≤ 2 ^ 26)

theorem reduce_add8_eq (h : c.Ok) (sg : Bool) (hN : c.VLen 8 N) (hS : add8Supported c N) (a : Vec 8 N) :
    reduce_add8 c sg a = some (tot sg 16 a) := by
  have hw : IsW 8 := isW8
  unfold reduce_add8
  dsimp only
  split_ifs with h1 h2 h3 h4
  · obtain ⟨e, hr⟩ := VLen.one hw hN h1
    refine (bind_of (xorBias_eq h hw hr a) _).trans ?_
    refine (bind_of (reduce_add8_reg_eq h false hr (by simp) _ e) _).trans (congrArg some ?_)
    rw [tot_flip8, h2.1]
  · obtain ⟨e, hr⟩ := VLen.one hw hN h1
    exact reduce_add8_reg_eq h sg hr (fun e => by simpa [e] using h2) a e
  · exact addLoop8 sg false (by decide) a (VLen.pos hw hN)
  · obtain ⟨K, hK, hN'⟩ := VLen.arr hw hN (by simpa using h1)
    have hL := lanes_pos hw (c.fast 8)
    have hbw : c.avx512bw = false := by
      by_contra g; exact h1 (hS.1 (by simpa using g))
    subst hN'
    rw [Nat.mul_div_cancel _ hL]
    refine (bind_of (reduce_add8_arr_eq h (by simpa using h3) hbw false (by simp) _ (fun j _ => xorBias_eq h hw (fast_has c 8) _) ?_) _).trans
      (congrArg some ?_)
    · intro g
      have := hS.2 g
      have : (c.fast 8).lanes 8 ≥ 16 := by cases c.fast 8 <;> decide
      nlinarith
    · rw [flip_parts, tot_flip8, h4.1]
  · obtain ⟨K, hK, hN'⟩ := VLen.arr hw hN (by simpa using h1)
    have hL := lanes_pos hw (c.fast 8)
    have hbw : c.avx512bw = false := by
      by_contra g; exact h1 (hS.1 (by simpa using g))
    subst hN'
    rw [Nat.mul_div_cancel _ hL]
    refine (reduce_add8_arr_eq h (by simpa using h3) hbw sg (fun e => by simpa [e] using h4) _ (fun j _ => rfl) ?_).trans
      (congrArg some (parts_tot sg rfl a))
    intro g
    have := hS.2 g
    have : (c.fast 8).lanes 8 ≥ 16 := by cases c.fast 8 <;> decide
    nlinarith

/-! ## 16-bit lanes -/

theorem pair32 (x : Vec 64 2) : (x.recast 32 4).at_ 0 + (x.recast 32 4).at_ 2 = tot false 32 x := by
  rw [← pair32_tot x (Nat.le_refl 32), BitVec.setWidth_eq]

theorem vlen4 (c : Cfg) : c.VLen 32 4 := Or.inl ⟨.r128, rfl, rfl⟩

theorem wide32_128 (h : c.Ok) (sg : Bool) (v : Vec 32 4) : reduce_add_wide c v = some (tot sg 32 v) :=
  (reduce_add_wide_eq h (Or.inl rfl) (vlen4 c) v).trans (congrArg some (tot_trunc false sg (by decide) v))

theorem flip16_tot (a : Vec 16 n) :
    tot true 32 (fun i => a i ^^^ BitVec.ofNat 16 (2 ^ (16 - 1))) + BitVec.ofNat 32 (0x8000 * n) = tot false 32 a := tot_flip16 a

theorem reduce_add16_128_eq (h : c.Ok) (sg : Bool) (a : Vec 16 8) : reduce_add16_128 c sg a = some (tot sg 32 a) := by
  have hx := xorBias_eq h (w := 16) (by simp [IsW]) (r := .r128) rfl a
  unfold reduce_add16_128
  split_ifs with g1 g2 g3 g4 g5 g6 g7 g8
  · cases sg
    · exact addLoopU (Or.inl ⟨rfl, rfl⟩) (by decide) a (by decide)
    · exact addLoopS16 (by decide) a (by decide) (by decide)
  · refine (addMoves2_eq h sg _).trans (congrArg some ((pair32 _).trans ?_))
    exact (tot_trunc false sg (by decide) _).trans (haddq_tot sg (by decide) (by rfl) a)
  · rw [g4]
    exact (wide32_128 h true _).trans (congrArg some (madd_tot (by rfl) a))
  · have e : sg = false := by simpa using g4
    subst e
    refine (bind_of hx _).trans ((bind_of (addMoves_tot h false true _) _).trans (congrArg some ?_))
    rw [madd_tot (by rfl)]
    exact tot_flip16 a
  · exact congrArg some ((pair32 _).trans ((chain32 sg (by decide) _).trans (hadd2_tot sg (by decide) (by rfl) a)))
  · rw [g7]
    exact (addMoves_tot h true true _).trans (congrArg some (sum4s_tot true (Or.inr ⟨rfl, rfl, rfl⟩) (by decide) a))
  · have e : sg = false := by simpa using g7
    subst e
    refine (bind_of hx _).trans ((bind_of (addMoves_tot h true true _) _).trans (congrArg some ?_))
    rw [sum4s_tot true (Or.inr ⟨rfl, rfl, rfl⟩) (by decide)]
    exact tot_flip16 a
  · exact (addMoves2_eq h sg _).trans (congrArg some ((pair32 _).trans ((chain32 sg (by decide) _).trans
      (hadd2_tot sg (by decide) (by rfl) a))))
  · exfalso; clear a hx; cfg_absurd h

theorem reduce_add16_wide_eq (h : c.Ok) (sg : Bool) {r : Reg} (hr : c.hasInt 16 r = true) (h32 : c.hasInt 32 r = true)
    (a : Vec 16 n) (hn : n = r.lanes 16) : reduce_add16_wide c sg r a = some (tot sg 32 a) := by
  have hv : c.VLen 32 (n / 2) := Or.inl ⟨r, h32, by subst hn; cases r <;> rfl⟩
  have h2 : n = 2 * (n / 2) := by subst hn; cases r <;> rfl
  have hW : ∀ b : Vec 32 (n / 2), reduce_add_wide c b = some (tot true 32 b) := fun b =>
    (reduce_add_wide_eq h (Or.inl rfl) hv b).trans (congrArg some (tot_trunc false true (by decide) b))
  unfold reduce_add16_wide
  split_ifs with g
  · rw [g]
    exact (hW _).trans (congrArg some (madd_tot h2 a))
  · have e : sg = false := by simpa using g
    subst e
    refine (bind_of (xorBias_eq h (by simp [IsW]) hr a) _).trans ((bind_of (hW _) _).trans (congrArg some ?_))
    rw [madd_tot h2]
    exact tot_flip16 a

theorem flip16_parts {L K : Nat} (a : Vec 16 (K * L)) :
    S 32 (fun j => tot true 32 (fun i => Hw.part L j a i ^^^ BitVec.ofNat 16 (2 ^ (16 - 1)))) K =
      tot true 32 (fun i => a i ^^^ BitVec.ofNat 16 (2 ^ (16 - 1))) := by
  rw [← parts_tot true (K := K) (L := L) rfl]
  refine Mon.big_congr _ fun j hj => ?_
  unfold tot
  refine Mon.big_congr _ fun i hi => ?_
  have : j * L + i < K * L := by nlinarith
  rw [Vec.at_lt _ hi, Hw.part_at _ hi, Vec.at_lt _ this]
  show E true 32 (a.at_ (j * L + i) ^^^ _) = _
  rw [Vec.at_lt _ this]

/-- What `reduce_add` of 16-bit lanes needs: at most 65536 lanes for the portable signed sum (`int32_t` overflow is
undefined), at most `2^18` lanes on AltiVec (the accumulator saturates). -/
def add16Supported (c : Cfg) (sg : Bool) (N : Nat) : Prop :=
  (c.null = true → sg = true → N ≤ 65536) ∧ (c.altivec = true → N ≤ 2 ^ 18)

theorem reduce_add16_arr_eq (h : c.Ok) (sg : Bool) {K : Nat} (hK : 0 < K) (hN : N = K * (c.fast 16).lanes 16)
    (hS : add16Supported c sg N) (a : Vec 16 N) : reduce_add16_arr c sg a = some (tot sg 32 a) := by
  have hw : IsW 16 := by simp [IsW]
  have hL := lanes_pos hw (c.fast 16)
  have hx : ∀ j, xorBias c (c.fast 16) (Hw.part ((c.fast 16).lanes 16) j a) =
      some (fun i => Hw.part ((c.fast 16).lanes 16) j a i ^^^ BitVec.ofNat 16 (2 ^ (16 - 1))) :=
    fun j => xorBias_eq h hw (fast_has c 16) _
  have hfin : ∀ {f : Vec 16 ((c.fast 16).lanes 16) → BitVec 32}, (∀ x, f x = tot sg 32 x) →
      S 32 (fun j => f (Hw.part ((c.fast 16).lanes 16) j a)) K = tot sg 32 a := by
    intro f hf
    rw [← parts_tot sg hN a]
    exact Mon.big_congr _ fun j _ => hf _
  have hfinX : ∀ {f : Vec 16 ((c.fast 16).lanes 16) → BitVec 32}, (∀ x, f x = tot true 32 x) →
      S 32 (fun j => f (fun i => Hw.part ((c.fast 16).lanes 16) j a i ^^^ BitVec.ofNat 16 (2 ^ (16 - 1)))) K +
        BitVec.ofNat 32 (0x8000 * N) = tot false 32 a := by
    intro f hf
    rw [S, Mon.big_congr (g := fun j => tot true 32 (fun i => Hw.part ((c.fast 16).lanes 16) j a i ^^^ BitVec.ofNat 16 (2 ^ (16 - 1)))) (Mon.add 32)
      fun j _ => hf _]
    subst hN
    have e := flip16_parts a
    rw [S] at e
    rw [e]
    exact tot_flip16 a
  have hpos : 0 < N := by rw [hN]; exact Nat.mul_pos hK hL
  have hKe : N / (c.fast 16).lanes 16 = K := by rw [hN, Nat.mul_div_cancel _ hL]
  unfold reduce_add16_arr
  dsimp only
  rw [hKe]
  by_cases g1 : c.null = true
  · rw [if_pos g1]
    cases sg
    · exact addLoopU (Or.inl ⟨rfl, rfl⟩) (by decide) a hpos
    · exact addLoopS16 (by decide) a hpos (hS.1 g1 rfl)
  rw [if_neg g1]
  by_cases g2 : c.avx2 = true
  · rw [if_pos g2]
    have hv : c.VLen 32 ((c.fast 16).lanes 16 / 2) := by
      have hf := h.avx512bw
      simp only [Cfg.fast, Cfg.hasInt]
      by_cases b : c.avx512bw = true
      · exact Or.inl ⟨.r512, by simp [Cfg.hasInt, hf b], by simp [b]; rfl⟩
      · exact Or.inl ⟨.r256, by simp [Cfg.hasInt, g2], by simp [b, g2]; rfl⟩
    have h32 : c.hasInt 32 (c.fast 16) = true := by
      have hf := h.avx512bw
      simp only [Cfg.fast, Cfg.hasInt]
      by_cases b : c.avx512bw = true
      · simp [b, hf b]
      · simp [b, g2]
    have h2 : (c.fast 16).lanes 16 = 2 * ((c.fast 16).lanes 16 / 2) := by cases c.fast 16 <;> rfl
    have hW : ∀ b : Vec 32 ((c.fast 16).lanes 16 / 2), reduce_add_wide c b = some (tot true 32 b) := fun b =>
      (reduce_add_wide_eq h (Or.inl rfl) hv b).trans (congrArg some (tot_trunc false true (by decide) b))
    split_ifs with s
    · subst s
      refine (bind_of (accAdd_eq h (v := 32) (by simp [IsW]) h32 _ (fun j _ => rfl) _) _).trans ((hW _).trans (congrArg some ?_))
      exact (acc_tot true (by decide) _).trans (hfin (f := fun x => tot true 32 (Hw.madd (m := (c.fast 16).lanes 16 / 2) x (Vec.splat 1))) fun x => madd_tot h2 x)
    · have e : sg = false := by simpa using s
      subst e
      refine (bind_of (accAdd_eq h (v := 32) (by simp [IsW]) h32 _ (fun j _ => hx j) _) _).trans ((bind_of (hW _) _).trans (congrArg some ?_))
      rw [acc_tot true (by decide)]
      exact hfinX (f := fun x => tot true 32 (Hw.madd (m := (c.fast 16).lanes 16 / 2) x (Vec.splat 1))) fun x => madd_tot h2 x
  rw [if_neg g2]
  have hf : c.fast 16 = .r128 := by
    have : c.avx512bw = false := by
      obtain ⟨o1, o2, o3, o4, o5, o6, o7, o8, o9, o10, o11, o12, o13, o14, o15, o16, o17, o18, o19⟩ := h; grind
    simp [Cfg.fast, Cfg.hasInt, this, g2]
  have hK' : c.altivec = true → K ≤ 2 ^ 15 := by
    intro g
    have := hS.2 g
    rw [hN, hf] at this
    change K * 8 ≤ _ at this
    omega
  clear hN hKe hS hL
  generalize c.fast 16 = r at hf hx hfin hfinX
  subst hf
  have h128 : c.hasInt 32 .r128 = true := rfl
  split_ifs with g3 g4 g5 g6 g7 g8 g9 g10
  · refine (bind_of (accAdd_eq h (v := 32) (by simp [IsW]) h128 _ (fun j _ => rfl) _) _).trans ((addMoves2_eq h sg _).trans (congrArg some ?_))
    refine (acc2 (fun j => (Hw.haddq (m := 2) sg (Hw.part (Reg.r128.lanes 16) j a)).recast 32 4) (by decide) (by decide)).trans ?_
    exact hfin (f := fun x => ((Hw.haddq (m := 2) sg x).recast 32 4).at_ 0 + ((Hw.haddq (m := 2) sg x).recast 32 4).at_ 2) fun x =>
      (pair32 _).trans ((tot_trunc false sg (by decide) _).trans (haddq_tot sg (by decide) (by rfl) x))
  · subst g5
    refine (bind_of (accAdd_eq h (v := 32) (by simp [IsW]) h128 _ (fun j _ => rfl) _) _).trans ((wide32_128 h true _).trans (congrArg some ?_))
    exact (acc_tot true (by decide) _).trans (hfin (f := fun x => tot true 32 (Hw.madd (m := 4) x (Vec.splat 1))) fun x => madd_tot (by rfl) x)
  · have e : sg = false := by simpa using g5
    subst e
    refine (bind_of (accAdd_eq h (v := 32) (by simp [IsW]) h128 _ (fun j _ => hx j) _) _).trans ((bind_of (addMoves_tot h false true _) _).trans (congrArg some ?_))
    rw [acc_tot true (by decide)]
    exact hfinX (f := fun x => tot true 32 (Hw.madd (m := 4) x (Vec.splat 1))) fun x => madd_tot (by rfl) x
  · refine (bind_of (accAdd_eq h (v := 32) (by simp [IsW]) h128 _ (fun j _ => rfl) _) _).trans ?_
    refine (wide32_128 h sg _).trans (congrArg some ((acc_tot sg (by decide) _).trans ?_))
    exact hfin (f := fun x => tot sg 32 (Hw.hadd2 (m := 4) sg 32 x x)) fun x => hadd2_tot sg (by decide) (by rfl) x
  · have e : sg = false := by simpa using g7
    subst e
    refine (bind_of (accAdd_eq h (v := 32) (by simp [IsW]) h128 _ (fun j _ => rfl) _) _).trans ?_
    refine congrArg some ((pair32 _).trans ((chain32 false (by decide) _).trans ((acc_tot false (by decide) _).trans ?_)))
    exact hfin (f := fun x => tot false 32 (Hw.hadd2 (m := 4) false 32 x x)) fun x => hadd2_tot false (by decide) (by rfl) x
  · subst g9
    obtain ⟨acc, e, p⟩ := accSum4_eq (m := 4) (K := K) true (w := 16) hw (by rfl)
      (get := fun j => some (Hw.part (Reg.r128.lanes 16) j a)) _ (fun j _ => rfl)
      (by have := hK' g8; simp [lo]; omega) (by have := hK' g8; simp [hi]; omega)
    refine (bind_of e _).trans ((wide32_128 h true _).trans (congrArg some ((p 32 (by decide)).trans ?_)))
    exact hfin (f := fun x => tot true 32 x) fun x => rfl
  · have e : sg = false := by simpa using g9
    subst e
    obtain ⟨acc, e, p⟩ := accSum4_eq (m := 4) (K := K) true (w := 16) hw (by rfl)
      (get := fun j => xorBias c .r128 (Hw.part (Reg.r128.lanes 16) j a)) _ (fun j _ => hx j)
      (by have := hK' g8; simp [lo]; omega) (by have := hK' g8; simp [hi]; omega)
    refine (bind_of e _).trans ((bind_of (addMoves_tot h true true _) _).trans (congrArg some ?_))
    rw [p 32 (by decide)]
    exact hfinX (f := fun x => tot true 32 x) fun x => rfl
  · refine (bind_of (accAdd_eq h (v := 32) (by simp [IsW]) h128 _ (fun j _ => rfl) _) _).trans ?_
    refine (addMoves2_eq h sg _).trans (congrArg some ((pair32 _).trans ((chain32 sg (by decide) _).trans ((acc_tot sg (by decide) _).trans ?_))))
    exact hfin (f := fun x => tot sg 32 (Hw.hadd2 (m := 4) sg 32 x x)) fun x => hadd2_tot sg (by decide) (by rfl) x
  · exfalso; clear hfin hfinX hx a hK'; cfg_absurd h

theorem reduce_add16_eq (h : c.Ok) (sg : Bool) (hN : c.VLen 16 N) (hS : add16Supported c sg N) (a : Vec 16 N) :
    reduce_add16 c sg a = some (tot sg 32 a) := by
  have hw : IsW 16 := by simp [IsW]
  unfold reduce_add16
  by_cases h1 : c.single 16 N = true
  · rw [if_pos h1]
    obtain ⟨e, hr⟩ := VLen.one hw hN h1
    generalize c.regOf 16 N = r at e hr
    subst e
    cases r with
    | r128 => exact (reduce_add16_128_eq h sg _).trans (congrArg some (part0_tot sg a))
    | r256 => exact (if_pos hr).trans ((reduce_add16_wide_eq h sg hr hr _ rfl).trans (congrArg some (part0_tot sg a)))
    | r512 => exact (if_pos hr).trans ((reduce_add16_wide_eq h sg hr (h.avx512bw hr) _ rfl).trans (congrArg some (part0_tot sg a)))
  · rw [if_neg h1]
    obtain ⟨K, hK, hN'⟩ := VLen.arr hw hN (by simpa using h1)
    exact reduce_add16_arr_eq h sg (by omega) hN' hS a

/-! ## public statements -/

theorem tot_sum (sg : Bool) (W : Nat) (a : Vec w N) : tot sg W a = Spec.lane W (∑ i, val sg (a i)) := by
  have key : ∀ (m : Nat) (f : Nat → Int), Mon.int.big f m = ∑ i : Fin m, f i.val := by
    intro m f
    induction m with
    | zero => unfold Mon.big; rfl
    | succ m ih => rw [Mon.big_succ, Fin.sum_univ_castSucc, ih]; rfl
  have e : tot sg W a = BitVec.ofInt W (Mon.int.big (fun i => val sg (a.at_ i)) N) := by
    rw [ofInt_big]; unfold tot; rfl
  rw [e, key]
  show BitVec.ofInt W _ = BitVec.ofInt W _
  congr 1
  exact Finset.sum_congr rfl fun i _ => by rw [Vec.at_fin]

/-- C16 (`reduce_add` of 8-bit lanes): the sum of the lanes, modulo `2^16`. -/
theorem C16_reduce_add8 (h : c.Ok) (sg : Bool) (hN : c.VLen 8 N) (hS : add8Supported c N) (a : Vec 8 N) :
    reduce_add8 c sg a = some (Spec.lane 16 (∑ i, val sg (a i))) :=
  (reduce_add8_eq h sg hN hS a).trans (congrArg some (tot_sum sg 16 a))

/-- C16 (`reduce_add` of 16-bit lanes): the sum of the lanes, modulo `2^32`. -/
theorem C16_reduce_add16 (h : c.Ok) (sg : Bool) (hN : c.VLen 16 N) (hS : add16Supported c sg N) (a : Vec 16 N) :
    reduce_add16 c sg a = some (Spec.lane 32 (∑ i, val sg (a i))) :=
  (reduce_add16_eq h sg hN hS a).trans (congrArg some (tot_sum sg 32 a))

/-- C16 (`reduce_add` of 32- and 64-bit lanes): the sum of the lanes, modulo `2^w`. -/
theorem C16_reduce_add_wide (h : c.Ok) (sg : Bool) (hw : w = 32 ∨ w = 64) (hN : c.VLen w N) (a : Vec w N) :
    reduce_add_wide c a = some (Spec.lane w (∑ i, val sg (a i))) :=
  (reduce_add_wide_eq h hw hN a).trans (congrArg some ((tot_trunc false sg (Nat.le_refl _) a).trans (tot_sum sg w a)))

/-- With at most 256 unsigned 8-bit lanes nothing wraps: the result is the sum itself. -/
theorem C16_reduce_add8_exact (h : c.Ok) (hN : c.VLen 8 N) (hS : add8Supported c N) (h256 : N ≤ 256) (a : Vec 8 N) :
    ∃ r, reduce_add8 c false a = some r ∧ val false r = ∑ i, val false (a i) := by
  refine ⟨_, C16_reduce_add8 h false hN hS a, val_lane_of_range (by decide) ?_ ?_⟩
  · exact Finset.sum_nonneg fun i _ => (val_mem false (by decide) (a i)).1
  · have h1 := Finset.sum_le_card_nsmul Finset.univ (fun i => val false (a i)) 255 fun i _ => (val_mem false (by decide) (a i)).2
    rw [Finset.card_univ, Fintype.card_fin, nsmul_eq_mul] at h1
    show _ ≤ (65535 : Int)
    have : (N : Int) ≤ 256 := by exact_mod_cast h256
    omega

/-- Arrays of 8-bit lanes do not compile under AVX-512BW. -/
theorem C16_reduce_add8_rejects (h : c.Ok) (hb : c.avx512bw = true) (sg : Bool) (hs : c.single 8 N = false) (a : Vec 8 N) :
    reduce_add8 c sg a = none := by
  have hn : c.null = false := by
    obtain ⟨o1, o2, o3, o4, o5, o6, o7, o8, o9, o10, o11, o12, o13, o14, o15, o16, o17, o18, o19⟩ := h; grind
  unfold reduce_add8
  simp [hs, hn, reduce_add8_arr, hb]

theorem addLoopS16_ub {m : Nat} (hm : 65536 < m) : addLoop true true 32 0 (Vec.splat (-32768) : Vec 16 m) = none := by
  have hl : ∀ i, i < m → (Vec.splat (-32768) : Vec 16 m).at_ i = (-32768 : BitVec 16) := fun i hi => Vec.at_lt _ hi
  have h1 : ∀ k, k ≤ 65536 → loopM (fun i r => if i < m then (C.add r (C.lane true ((Vec.splat (-32768) : Vec 16 m).at_ i))).map (C.cast ⟨true, 32⟩) else none)
      0 k ⟨⟨true, 32⟩, 0⟩ = some ⟨⟨true, 32⟩, -32768 * (k : Int)⟩ := by
    intro k hk
    have := loopM_of (m := k) (lo := 0) (body := fun i r => if i < m then (C.add r (C.lane true ((Vec.splat (-32768) : Vec 16 m).at_ i))).map (C.cast ⟨true, 32⟩) else none)
      (fun i => (⟨⟨true, 32⟩, -32768 * (i : Int)⟩ : C.Val)) (fun i hi => by
        rw [Nat.zero_add, if_pos (by omega), hl i (by omega)]
        have e : C.lane true (-32768 : BitVec 16) = ⟨⟨true, 16⟩, -32768⟩ := rfl
        rw [e, C.add_inR (u := C.int32) rfl (by decide)
          ⟨by show (-2147483648:Int) ≤ _; omega, by show _ ≤ (2147483647:Int); omega⟩
          ⟨by show (-2147483648:Int) ≤ _; omega, by show _ ≤ (2147483647:Int); omega⟩
          ⟨by show (-2147483648:Int) ≤ _; omega, by show _ ≤ (2147483647:Int); omega⟩]
        show some (C.cast _ _) = _
        rw [C.cast_inR (by decide) ⟨by show (-2147483648:Int) ≤ _; omega, by show _ ≤ (2147483647:Int); omega⟩]
        push_cast; congr 2; omega)
    simpa using this
  have h2 : ∀ k, loopM (fun i r => if i < m then (C.add r (C.lane true ((Vec.splat (-32768) : Vec 16 m).at_ i))).map (C.cast ⟨true, 32⟩) else none)
      0 (65537 + k) ⟨⟨true, 32⟩, 0⟩ = none := by
    intro k
    induction k with
    | zero =>
      show (loopM _ 0 65536 _).bind _ = none
      rw [h1 65536 (Nat.le_refl _)]
      show (if 0 + 65536 < m then _ else none) = none
      rw [if_pos (by omega), hl _ (by omega)]
      have : C.add ⟨⟨true, 32⟩, -32768 * ((65536 : Nat) : Int)⟩ (C.lane true (-32768 : BitVec 16)) = none := by decide
      rw [this]; rfl
    | succ k ih =>
      show (loopM _ 0 (65537 + k) _).bind _ = none
      rw [ih]; rfl
  have := h2 (m - 65537)
  rw [show 65537 + (m - 65537) = m by omega] at this
  unfold addLoop
  rw [if_pos rfl, Nat.sub_zero]
  dsimp only
  rw [this]; rfl

/-- The bound on the portable signed sum is exact: with one more register of lanes, `int32_t` overflows. -/
theorem C16_reduce_add16_ub (hn : c.null = true) (hs : c.single 16 N = false) (hN : 65536 < N) :
    reduce_add16 c true (Vec.splat (-32768) : Vec 16 N) = none := by
  unfold reduce_add16
  rw [if_neg (by simp [hs])]
  exact (if_pos hn).trans (addLoopS16_ub hN)

/-! ## the hypotheses are met -/

example : add8Supported Cfg.sse2Only 64 := ⟨by decide, by decide⟩
example : add16Supported Cfg.portable true 64 := ⟨by decide, by decide⟩
example : reduce_add8 Cfg.neonA64 true (Vec.splat (-3) : Vec 8 32) = some (Spec.lane 16 (∑ _i : Fin 32, (-3))) :=
  C16_reduce_add8 Cfg.neonA64_ok true (Or.inr ⟨2, by decide, rfl⟩) ⟨by decide, by decide⟩ _
example : Cfg.portable.single 16 65544 = false := by decide

end Simdpp
