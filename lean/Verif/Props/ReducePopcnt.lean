import Verif.Model.ReducePopcnt
import Verif.Props.ReduceAdd
import Verif.Props.PopcntPub

/-!
# C16 reductions: reduce_popcnt
-/

namespace Simdpp
open Spec Sh Swar

variable {w n N v m : Nat} {c : Cfg}

def Mon.nat : Mon Nat := ⟨(· + ·), 0, Nat.add_assoc, Nat.add_comm, Nat.zero_add⟩

/-- number of set bits of a vector -/
def pcTot (a : Vec w n) : Nat := Mon.nat.big (fun i => popcount (a.at_ i)) n

theorem popcount_big (x : BitVec w) : popcount x = Mon.nat.big (fun k => (x.getLsbD k).toNat) w := by
  rw [← bitCount_eq]
  exact (Mon.nat.foldl_big _ _ _).trans (Nat.zero_add _)

theorem pcTot_bits (a : Vec w n) : pcTot a = Mon.nat.big (fun k => (a.bit k).toNat) (n * w) := by
  unfold pcTot
  rw [← Mon.big_rows]
  refine Mon.big_congr _ fun i hi => ?_
  rw [popcount_big]
  refine Mon.big_congr _ fun k hk => ?_
  rw [show i * w + k = (⟨i, hi⟩ : Fin n).val * w + k from rfl, Vec.bit_eq _ _ hk, Vec.at_lt _ hi]

theorem pcTot_recast (a : Vec w n) (hv : 0 < v) (h : v * m = w * n) : pcTot (a.recast v m) = pcTot a := by
  rw [pcTot_bits, pcTot_bits, Nat.mul_comm m v, h, Nat.mul_comm n w]
  exact Mon.big_congr _ fun k hk => by rw [Vec.bit_recast _ hv (by omega)]

theorem ofNat_big (W : Nat) (f : Nat → Nat) (m : Nat) :
    BitVec.ofNat W (Mon.nat.big f m) = S W (fun i => BitVec.ofNat W (f i)) m :=
  Mon.big_hom Mon.nat (Mon.add W) (BitVec.ofNat W) rfl (fun x y => BitVec.ofNat_add x y) f m

theorem pcLane_tot {W : Nat} (hW : W ≤ w) (sg : Bool) (a : Vec v n) :
    tot sg W (fun i => pcLane w (a i)) = BitVec.ofNat W (pcTot a) := by
  unfold pcTot
  rw [ofNat_big]
  unfold tot
  refine Mon.big_congr _ fun i hi => ?_
  rw [Vec.at_lt _ hi, E_trunc sg hW, pcLane_setWidth hW, Vec.at_lt _ hi]; rfl

theorem pcTot_half {L : Nat} (a : Vec w (2 * L)) : pcTot (Hw.part L 0 a) + pcTot (Hw.part L 1 a) = pcTot a := by
  unfold pcTot
  refine Eq.trans ?_ ((Mon.nat.big_add _ L L).symm.trans (congrArg (Mon.nat.big _) (Nat.two_mul L).symm))
  refine congrArg₂ (· + ·) (Mon.big_congr _ fun i hi => ?_) (Mon.big_congr _ fun i hi => ?_)
  · rw [part_at0 _ hi]
  · rw [Hw.part_at _ hi, Nat.one_mul]

theorem pcTot_parts {K L : Nat} (hN : N = K * L) (a : Vec w N) :
    Mon.nat.big (fun j => pcTot (Hw.part L j a)) K = pcTot a := by
  subst hN
  unfold pcTot
  rw [← Mon.big_rows]
  exact Mon.big_congr _ fun j _ => Mon.big_congr _ fun i hi => by rw [Hw.part_at _ hi]

theorem pcTot_part0 (a : Vec w n) : pcTot (Hw.part n 0 a) = pcTot a :=
  Mon.big_congr _ fun i hi => by rw [part_at0 _ hi]

/-! ## pieces -/

theorem el_popcnt32_ty {x y : C.Val} (e : Null.el_popcnt32 x = some y) : y.ty = ⟨false, 32⟩ := by
  unfold Null.el_popcnt32 at e
  simp only [Option.bind_eq_bind, Option.bind_eq_some_iff, Option.some.injEq] at e
  obtain ⟨_, _, _, _, _, _, rfl⟩ := e
  rfl

theorem el_popcnt32_val (x : BitVec 32) : ∃ z, Null.el_popcnt32 (C.lane false x) = some ⟨⟨false, 32⟩, z⟩ ∧ BitVec.ofInt 32 z = pcLane 32 x := by
  have e := el_popcnt32_eq x
  cases g : Null.el_popcnt32 (C.lane false x) with
  | none => rw [g] at e; cases e
  | some y =>
    have ht := el_popcnt32_ty g
    rw [g] at e
    obtain ⟨t, z⟩ := y
    cases ht
    exact ⟨z, rfl, Option.some.inj e⟩

theorem popcntLoop_eq (a : Vec 32 n) : popcntLoop a = some (BitVec.ofNat 32 (pcTot a)) := by
  unfold popcntLoop
  obtain ⟨u, e, z, rfl, hz⟩ := loopM_inv (m := n) (lo := 0) (body := fun i r => if i < n then do
      let p ← Null.el_popcnt32 (C.lane false (a.at_ i))
      (C.add r p).map (C.cast ⟨false, 32⟩)
    else none) (P := fun k r => ∃ z, r = ⟨⟨false, 32⟩, z⟩ ∧ BitVec.ofInt 32 z = S 32 (fun i => pcLane 32 (a.at_ i)) k)
    (s := ⟨⟨false, 32⟩, 0⟩) ⟨0, rfl, rfl⟩ (by
      rintro i hi _ ⟨z, rfl, hz⟩
      obtain ⟨y, e, hy⟩ := el_popcnt32_val (a.at_ (0 + i))
      refine ⟨⟨⟨false, 32⟩, C.wrap ⟨false, 32⟩ (C.wrap ⟨false, 32⟩ (C.wrap ⟨false, 32⟩ z + C.wrap ⟨false, 32⟩ y))⟩, ?_, _, rfl, ?_⟩
      · rw [if_pos (by omega), e]; rfl
      · rw [ofInt_wrap, ofInt_wrap, BitVec.ofInt_add, ofInt_wrap, ofInt_wrap, hz, hy, Nat.zero_add]; rfl)
  rw [e]
  show some (BitVec.ofInt 32 z) = _
  rw [hz]
  unfold pcTot
  rw [ofNat_big]; rfl

theorem popcntInsn128_eq (h : c.Ok) (a : Vec 32 4) : popcntInsn128 c a = some (BitVec.ofNat 32 (pcTot a)) := by
  unfold popcntInsn128
  split_ifs with g
  · refine (bind_of (i_extract_eq (k := .int) (r := .r128) h (by simp [Kind.okW, IsW]) rfl (by decide) (by simp [msa32s]) _) _).trans ?_
    refine (bind_of (i_extract_eq (k := .int) (r := .r128) h (by simp [Kind.okW, IsW]) rfl (by decide) (by simp [msa32s]) _) _).trans ?_
    rw [← pcTot_recast a (v := 64) (m := 2) (by decide) (by decide), popcnt_eq, popcnt_eq, pcLane_setWidth (by decide), pcLane_setWidth (by decide)]
    unfold pcTot
    rw [ofNat_big]; rfl
  · refine (bind_of (i_extract_eq (k := .int) (r := .r128) h (by simp [Kind.okW, IsW]) rfl (by decide) (by simp) _) _).trans ?_
    refine (bind_of (i_extract_eq (k := .int) (r := .r128) h (by simp [Kind.okW, IsW]) rfl (by decide) (by simp) _) _).trans ?_
    refine (bind_of (i_extract_eq (k := .int) (r := .r128) h (by simp [Kind.okW, IsW]) rfl (by decide) (by simp) _) _).trans ?_
    refine (bind_of (i_extract_eq (k := .int) (r := .r128) h (by simp [Kind.okW, IsW]) rfl (by decide) (by simp) _) _).trans ?_
    rw [popcnt_eq, popcnt_eq, popcnt_eq, popcnt_eq]
    unfold pcTot
    rw [ofNat_big]; rfl

attribute [local irreducible] tot Mon.big

theorem popcntSum64_eq (h : c.Ok) {r : Reg} (hr : c.hasInt 64 r = true) (hn : n = r.lanes 32) (a : Vec 32 n) :
    popcntSum64 c r a = some (BitVec.ofNat 32 (pcTot a)) := by
  have hm : n / 2 = r.lanes 64 := by subst hn; cases r <;> rfl
  have h2 : n = 2 * (n / 2) := by subst hn; cases r <;> rfl
  unfold popcntSum64
  refine (bind_of (i_popcnt_eq h (by simp [IsW]) hr hm _) _).trans ?_
  rw [reduce_add_wide_eq h (Or.inr rfl) (Or.inl ⟨r, hr, hm⟩)]
  refine congrArg some ((tot_setWidth false false (by decide) (by decide) _).trans ?_)
  rw [pcLane_tot (by decide), pcTot_recast _ (by decide) (by omega)]

theorem pcTot_le (a : Vec w n) : pcTot a ≤ n * w := by
  unfold pcTot
  have key : ∀ k, Mon.nat.big (fun i => popcount (a.at_ i)) k ≤ k * w := by
    intro k
    induction k with
    | zero => unfold Mon.big; simp [Mon.nat]
    | succ k ih =>
      rw [Mon.big_succ, Nat.succ_mul]
      exact Nat.add_le_add ih (popcount_le _)
  exact key n

theorem reduce_popcnt128_eq (h : c.Ok) (a : Vec 32 4) : reduce_popcnt128 c a = some (BitVec.ofNat 32 (pcTot a)) := by
  unfold reduce_popcnt128
  split_ifs with g1 g2 g3 g4 g5
  · exact popcntLoop_eq a
  · exact popcntInsn128_eq h a
  · have hS : c.avx512bw = true → c.single 8 16 = true := fun _ => by
      rw [Cfg.single, show c.regOf 8 16 = .r128 from rfl]; rfl
    rw [reduce_add8_eq (N := 16) h false (Or.inl ⟨.r128, rfl, rfl⟩) ⟨hS, fun _ => by decide⟩, vcnt_eq]
    show some (BitVec.setWidth 32 (tot false 16 _)) = _
    have e : tot false 16 (fun i => pcLane 8 ((a.recast 8 16 : Vec 8 16) i)) = BitVec.ofNat 16 (pcTot (a.recast 8 16 : Vec 8 16)) := by
      unfold pcTot
      rw [ofNat_big]
      unfold tot
      refine Mon.big_congr _ fun i hi => ?_
      rw [Vec.at_lt _ hi, Vec.at_lt _ hi]
      show BitVec.ofInt 16 ((pcLane 8 _).toNat : Int) = _
      rw [pcLane_toNat (by decide) (by decide)]; simp
    rw [e, pcTot_recast a (by decide) (by decide)]
    have := pcTot_le a
    congr 1
    apply BitVec.eq_of_toNat_eq
    rw [BitVec.toNat_setWidth, BitVec.toNat_ofNat, BitVec.toNat_ofNat]
    omega
  · exact popcntSum64_eq (r := .r128) h rfl rfl a
  · exact popcntSum64_eq (r := .r128) h rfl rfl a
  · refine (bind_of (i_popcnt_eq h (r := .r128) (by simp [IsW]) rfl rfl _) _).trans ?_
    exact (reduce_add_wide_eq h (Or.inl rfl) (Or.inl ⟨.r128, rfl, rfl⟩) _).trans (congrArg some (pcLane_tot (by decide) false a))

theorem reduce_popcnt256_eq (h : c.Ok) (h2 : c.avx2 = true) (a : Vec 32 8) : reduce_popcnt256 c a = some (BitVec.ofNat 32 (pcTot a)) := by
  unfold reduce_popcnt256
  split_ifs
  · refine (bind_of (reduce_popcnt128_eq h _) _).trans ((bind_of (reduce_popcnt128_eq h _) _).trans ?_)
    rw [← BitVec.ofNat_add, pcTot_half]
  · exact popcntSum64_eq h (r := .r256) h2 rfl a

theorem reduce_popcnt512_eq (h : c.Ok) (hf : c.avx512f = true) (a : Vec 32 16) : reduce_popcnt512 c a = some (BitVec.ofNat 32 (pcTot a)) := by
  have h2 := h.avx512f hf
  unfold reduce_popcnt512
  split_ifs
  · refine (bind_of (reduce_popcnt256_eq h h2 _) _).trans ((bind_of (reduce_popcnt256_eq h h2 _) _).trans ?_)
    rw [← BitVec.ofNat_add, pcTot_half]
  · exact popcntSum64_eq h (r := .r512) hf rfl a

theorem reduce_popcnt_reg_eq (h : c.Ok) {r : Reg} (hr : c.hasInt 32 r = true) (a : Vec 32 n) (hn : n = r.lanes 32) :
    reduce_popcnt_reg c r a = some (BitVec.ofNat 32 (pcTot a)) := by
  subst hn
  have e := pcTot_part0 a
  cases r with
  | r128 => exact (reduce_popcnt128_eq h _).trans (congrArg (fun z => some (BitVec.ofNat 32 z)) e)
  | r256 => exact (if_pos hr).trans ((reduce_popcnt256_eq h hr _).trans (congrArg (fun z => some (BitVec.ofNat 32 z)) e))
  | r512 => exact (if_pos hr).trans ((reduce_popcnt512_eq h hr _).trans (congrArg (fun z => some (BitVec.ofNat 32 z)) e))

theorem reduce_popcnt32_eq (h : c.Ok) (hN : c.VLen 32 N) (a : Vec 32 N) : reduce_popcnt32 c a = some (BitVec.ofNat 32 (pcTot a)) := by
  have hw : IsW 32 := by simp [IsW]
  unfold reduce_popcnt32
  split_ifs with h1
  · exact reduce_popcnt_reg_eq h (VLen.one hw hN h1).2 a (VLen.one hw hN h1).1
  · obtain ⟨K, hK, hN'⟩ := VLen.arr hw hN (by simpa using h1)
    have hL := lanes_pos hw (c.fast 32)
    have hd : N / (c.fast 32).lanes 32 = K := by rw [hN', Nat.mul_div_cancel _ hL]
    dsimp only
    rw [hd]
    have key := loopM_of (m := K) (lo := 0) (body := fun j r => (reduce_popcnt_reg c (c.fast 32) (Hw.part ((c.fast 32).lanes 32) j a)).map (r + ·))
      (fun k => S 32 (fun j => BitVec.ofNat 32 (pcTot (Hw.part ((c.fast 32).lanes 32) j a))) k) (fun j _ => by
        rw [reduce_popcnt_reg_eq h (fast_has c 32) _ rfl, Nat.zero_add]
        exact congrArg some (Mon.big_succ (Mon.add 32) (fun j => BitVec.ofNat 32 (pcTot (Hw.part ((c.fast 32).lanes 32) j a))) j).symm)
    have e0 : S 32 (fun j => BitVec.ofNat 32 (pcTot (Hw.part ((c.fast 32).lanes 32) j a))) 0 = 0 := by unfold S Mon.big; rfl
    rw [e0] at key
    rw [key, ← ofNat_big, pcTot_parts hN']

theorem pcTot_sum (a : Vec w N) : pcTot a = ∑ i, popcount (a i) := by
  have key : ∀ (m : Nat) (f : Nat → Nat), Mon.nat.big f m = ∑ i : Fin m, f i.val := by
    intro m f
    induction m with
    | zero => unfold Mon.big; rfl
    | succ m ih => rw [Mon.big_succ, Fin.sum_univ_castSucc, ih]; rfl
  unfold pcTot
  rw [key]
  exact Finset.sum_congr rfl fun i _ => by rw [Vec.at_fin]

/-- C16 (`reduce_popcnt`): the number of set bits of the whole vector, modulo `2^32`. -/
theorem C16_reduce_popcnt (h : c.Ok) (hN : c.VLen 32 m) (hm : w * N = 32 * m) (a : Vec w N) :
    reduce_popcnt c a = some (BitVec.ofNat 32 (∑ i, popcount (a i))) := by
  have e : N * w / 32 = m := by rw [Nat.mul_comm, hm, Nat.mul_div_cancel_left _ (by decide)]
  unfold reduce_popcnt
  rw [← e] at hN hm
  rw [reduce_popcnt32_eq h hN, pcTot_recast a (by decide) hm.symm, pcTot_sum]

/-- For every vector shorter than `2^32` bits the result is the exact number of set bits. -/
theorem C16_reduce_popcnt_exact (h : c.Ok) (hN : c.VLen 32 m) (hm : w * N = 32 * m) (hs : w * N < 2 ^ 32) (a : Vec w N) :
    ∃ r, reduce_popcnt c a = some r ∧ r.toNat = ∑ i, popcount (a i) := by
  refine ⟨_, C16_reduce_popcnt h hN hm a, ?_⟩
  rw [BitVec.toNat_ofNat, Nat.mod_eq_of_lt]
  rw [← pcTot_sum]
  have := pcTot_le a
  rw [Nat.mul_comm] at this
  omega

example : ∃ r, reduce_popcnt Cfg.sse2Only (Vec.splat (-1) : Vec 8 64) = some r ∧ r.toNat = ∑ _i : Fin 64, popcount (-1 : BitVec 8) :=
  C16_reduce_popcnt_exact Cfg.sse2Only_ok (m := 16) (Or.inr ⟨4, by decide, by decide⟩) (by decide) (by decide) (Vec.splat (-1) : Vec 8 64)

end Simdpp
