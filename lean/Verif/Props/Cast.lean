import Verif.Model.Cast
import Verif.Props.MaskLemmas
import Verif.Props.Samples

/-!
# C45: bit_cast preserves bits
-/

namespace Simdpp
open Spec

/-- Bit `q` of a vector stored as `k` registers of `L` lanes of `w` bits, in memory order:
bit `q % w` of lane `q / w`, where lane `j` is lane `j % L` of register `j / L`.
(Specification; no reference to the casting code.) -/
def Spec.bitAt {k w L : Nat} (v : Fin k → Fin L → BitVec w) (q : Nat) : Bool :=
  if h : q / w / L < k ∧ q / w % L < L then
    (v ⟨q / w / L, h.1⟩ ⟨q / w % L, h.2⟩).getLsbD (q % w)
  else false

namespace Cast

variable {wT LT wR LR kT kR w L k : Nat}

theorem bitAt_eq (v : Fin k → Vec w L) (hw : 0 < w) (hL : 0 < L) (q : Nat) (h : q / (w * L) < k) :
    bitAt v q = Vec.bit (v ⟨q / (w * L), h⟩) (q % (w * L)) := by
  have e1 : q / w / L = q / (w * L) := Nat.div_div_eq_div_mul q w L
  have e2 : q % (w * L) / w = q / w % L := by
    rw [Nat.mod_mul_right_div_self]
  have e3 : q % (w * L) % w = q % w := Nat.mod_mul_right_mod q w L
  have h2 : q / w % L < L := Nat.mod_lt _ hL
  unfold bitAt Vec.bit
  rw [dif_pos ⟨by rw [e1]; exact h, h2⟩]
  simp only [e1, e2, e3]
  rw [Vec.at_lt _ h2]

theorem cast11_spec (t : Fin kT → Vec wT LT) (hk : kT = kR) (I : Nat) (r : Fin kR → Vec wR LR) :
    cast11 t hk I r = fun j => if I ≤ j.val then (t ⟨j.val, hk ▸ j.isLt⟩).recast wR LR else r j := by
  by_cases hI : I < kT
  · rw [cast11, dif_pos hI, cast11_spec t hk (I + 1)]
    funext j; simp only [Arr.set, Fin.ext_iff, native_cast]
    split_ifs <;> first | rfl | omega | skip
    rename_i h1 h2 h3
    simp only [h2]
  · rw [cast11, dif_neg hI]
    funext j; rw [if_neg (by have := j.isLt; omega)]
termination_by kT - I

theorem castCombine_spec (t : Fin kT → Vec wT LT) (hk : kT = kR * 2) (I : Nat)
    (r : Fin kR → Vec wR LR) :
    castCombine t hk I r = fun j => if I ≤ j.val then
      native_cast_combine wR LR (t ⟨j.val * 2, by have := j.isLt; omega⟩)
        (t ⟨j.val * 2 + 1, by have := j.isLt; omega⟩) else r j := by
  by_cases hI : I < kR
  · rw [castCombine, dif_pos hI, castCombine_spec t hk (I + 1)]
    funext j; simp only [Arr.set, Fin.ext_iff]
    split_ifs <;> first | rfl | omega | skip
    rename_i h1 h2 h3
    simp only [h2]
  · rw [castCombine, dif_neg hI]
    funext j; rw [if_neg (by have := j.isLt; omega)]
termination_by kR - I

theorem castSplit_spec (t : Fin kT → Vec wT LT) (hk : kT * 2 = kR) (I : Nat)
    (r : Fin kR → Vec wR LR) :
    castSplit t hk I r = fun j => if I * 2 ≤ j.val then
      (if j.val % 2 = 0 then (native_cast_split wR LR (t ⟨j.val / 2, by have := j.isLt; omega⟩)).1
       else (native_cast_split wR LR (t ⟨j.val / 2, by have := j.isLt; omega⟩)).2) else r j := by
  by_cases hI : I < kT
  · rw [castSplit, dif_pos hI]
    dsimp only
    rw [castSplit_spec t hk (I + 1)]
    funext j; simp only [Arr.set, Fin.ext_iff]
    split_ifs <;> first | rfl | omega | skip
    all_goals
      have e : j.val / 2 = I := by omega
      simp only [e]
  · rw [castSplit, dif_neg hI]
    funext j; rw [if_neg (by have := j.isLt; omega)]
termination_by kT - I

/-- Reading a bit of the upper half produced by a split. -/
theorem split_hi_bit (t : Vec wT LT) (hw : 0 < wR) {p : Nat} (hp : p < wR * LR) :
    (native_cast_split wR LR t).2.bit p = t.bit (wR * LR + p) := by
  have hd : p / wR < LR := Nat.div_lt_of_lt_mul hp
  unfold native_cast_split
  show Vec.bit (fun i : Fin LR => (t.recast wR (2 * LR)) ⟨LR + i.val, _⟩) p = _
  unfold Vec.bit
  rw [Vec.at_lt _ hd]
  rw [Vec.recast_getLsbD]
  have hm := Nat.mod_lt p hw
  simp only [hm, decide_true, Bool.true_and]
  have : (LR + p / wR) * wR + p % wR = wR * LR + p := by
    have h1 := Nat.div_add_mod p wR
    calc (LR + p / wR) * wR + p % wR = wR * LR + (wR * (p / wR) + p % wR) := by ring
      _ = _ := by rw [h1]
  rw [this]; rfl

theorem combine_bit (t0 t1 : Vec wT LT) (hw : 0 < wR) (hT : 0 < wT) (hs : wR * LR = wT * LT * 2)
    {p : Nat} (hp : p < wR * LR) :
    (native_cast_combine wR LR t0 t1).bit p =
      if p < wT * LT then t0.bit p else t1.bit (p - wT * LT) := by
  unfold native_cast_combine
  rw [Vec.bit_recast _ hw hp]
  unfold Vec.bit
  have hd : p / wT < 2 * LT := Nat.div_lt_of_lt_mul (by rw [← Nat.mul_assoc, Nat.mul_comm wT 2, Nat.mul_assoc]; omega)
  rw [Vec.at_lt _ hd]
  by_cases hlt : p < wT * LT
  · have h1 : p / wT < LT := Nat.div_lt_of_lt_mul hlt
    simp only [h1, dif_pos, hlt, if_true]
    rw [Vec.at_lt _ h1]
  · have e1 : (p - wT * LT) / wT = p / wT - LT := by
      rw [Nat.sub_mul_div]
    have e2 : (p - wT * LT) % wT = p % wT := by
      conv_rhs => rw [show p = (p - wT * LT) + wT * LT by omega, Nat.add_mul_mod_self_left]
    have h1 : ¬ p / wT < LT := by
      intro h
      have := (Nat.div_lt_iff_lt_mul hT).1 h
      rw [Nat.mul_comm] at this; omega
    simp only [h1, hlt, if_false, dif_neg, not_false_eq_true]
    rw [e1, e2, Vec.at_lt _ (by omega)]

end Cast

open Cast in
/-- C45: `bit_cast` between any two vector types of the same total size, whose base vectors
are equally many, half as many or twice as many, is defined, and every bit of the result (in
memory order) is the corresponding bit of the source, independent of the result's old value. -/
theorem C45_bit_cast {wT LT wR LR kT kR : Nat} (hwT : 0 < wT) (hLT : 0 < LT) (hwR : 0 < wR)
    (hLR : 0 < LR) (hs : kT * (wT * LT) = kR * (wR * LR))
    (hk : kT = kR ∨ kT = kR * 2 ∨ kT * 2 = kR)
    (t : Fin kT → Vec wT LT) (r0 : Fin kR → Vec wR LR) :
    ∃ res, cast_bitwise_vector t r0 = some res ∧
      ∀ q, q < kR * (wR * LR) → bitAt res q = bitAt t q := by
  have pT : 0 < wT * LT := Nat.mul_pos hwT hLT
  have pR : 0 < wR * LR := Nat.mul_pos hwR hLR
  unfold cast_bitwise_vector
  split_ifs with h1 h2 h3
  · refine ⟨_, rfl, fun q hq => ?_⟩
    have hkp : 0 < kR := Nat.pos_of_ne_zero (by rintro rfl; simp at hq)
    subst h1
    have hs' : wT * LT = wR * LR := Nat.eq_of_mul_eq_mul_left hkp hs
    have hq1 : q / (wR * LR) < kT := Nat.div_lt_of_lt_mul (by rw [Nat.mul_comm]; exact hq)
    rw [bitAt_eq _ hwR hLR q hq1, bitAt_eq _ hwT hLT q (by rw [hs']; exact hq1), cast11_spec]
    simp only [Nat.zero_le, if_true, hs']
    rw [Vec.bit_recast _ hwR (Nat.mod_lt _ pR)]
  · refine ⟨_, rfl, fun q hq => ?_⟩
    have hkp : 0 < kR := Nat.pos_of_ne_zero (by rintro rfl; simp at hq)
    have hs' : wR * LR = wT * LT * 2 := by
      subst h2
      apply Nat.eq_of_mul_eq_mul_left hkp
      rw [← hs]; ring
    have hq1 : q / (wR * LR) < kR := Nat.div_lt_of_lt_mul (by rw [Nat.mul_comm]; exact hq)
    have hq2 : q / (wT * LT) < kT := Nat.div_lt_of_lt_mul (by rw [Nat.mul_comm, hs]; exact hq)
    rw [bitAt_eq _ hwR hLR q hq1, bitAt_eq _ hwT hLT q hq2, castCombine_spec]
    simp only [Nat.zero_le, if_true]
    rw [combine_bit _ _ hwR hwT hs' (Nat.mod_lt _ pR)]
    generalize wT * LT = S at *
    have hdm := Nat.div_add_mod q (wR * LR)
    simp only [hs'] at hdm hq1 ⊢
    have hm := Nat.mod_lt q (show 0 < S * 2 by omega)
    by_cases hc : q % (S * 2) < S
    · rw [if_pos hc]
      have e : q / S = q / (S * 2) * 2 := by
        rw [Nat.div_eq_iff pT]
        constructor
        · calc q / (S * 2) * 2 * S = S * 2 * (q / (S * 2)) := by ring
            _ ≤ q := by omega
        · have : q / (S * 2) * 2 * S = S * 2 * (q / (S * 2)) := by ring
          omega
      have e2 : q % S = q % (S * 2) := by
        rw [← Nat.mod_mul_right_mod q S 2, Nat.mod_eq_of_lt hc]
      simp only [e, e2]
    · rw [if_neg hc]
      have e : q / S = q / (S * 2) * 2 + 1 := by
        have h5 : (q / (S * 2) * 2 + 1) * S = S * 2 * (q / (S * 2)) + S := by ring
        rw [Nat.div_eq_iff pT]; omega
      have e2 : q % S = q % (S * 2) - S := by
        rw [← Nat.mod_mul_right_mod q S 2]
        rw [Nat.mod_eq_sub_mod (by omega), Nat.mod_eq_of_lt (by omega)]
      simp only [e, e2]
  · refine ⟨_, rfl, fun q hq => ?_⟩
    have hkp : 0 < kT := Nat.pos_of_ne_zero (by rintro rfl; subst h3; simp at hq)
    have hs' : wT * LT = wR * LR * 2 := by
      subst h3
      apply Nat.eq_of_mul_eq_mul_left hkp
      rw [hs]; ring
    have hq1 : q / (wR * LR) < kR := Nat.div_lt_of_lt_mul (by rw [Nat.mul_comm]; exact hq)
    have hq2 : q / (wT * LT) < kT := Nat.div_lt_of_lt_mul (by rw [Nat.mul_comm, hs]; exact hq)
    rw [bitAt_eq _ hwR hLR q hq1, bitAt_eq _ hwT hLT q hq2, castSplit_spec]
    simp only [Nat.zero_mul, Nat.zero_le, if_true]
    have e1 : q / (wR * LR) / 2 = q / (wT * LT) := by rw [hs', Nat.div_div_eq_div_mul]
    have hqm := Nat.mod_lt q pR
    simp only [e1]
    have hmm : q % (wT * LT) = q % (wR * LR) + (wR * LR) * (q / (wR * LR) % 2) := by
      rw [hs', Nat.mod_mul]
    split_ifs with hpar
    · rw [hmm, hpar]
      show Vec.bit (Vec.recast wR LR _) _ = _
      rw [Vec.bit_recast _ hwR hqm]; simp
    · have hpar : q / (wR * LR) % 2 = 1 := by omega
      rw [split_hi_bit _ hwR hqm, hmm, hpar]
      congr 1; omega
  · omega

/-- C45: casting there and back returns the original vector (same number of base vectors). -/
theorem C45_round_trip {w L v M k : Nat} (hv : 0 < v) (hs : v * M = w * L)
    (t r1 : Fin k → Vec w L) (r0 : Fin k → Vec v M) :
    (Cast.cast_bitwise_vector t r0).bind (fun u => Cast.cast_bitwise_vector u r1) = some t := by
  unfold Cast.cast_bitwise_vector
  simp only [dif_pos, Option.bind_some, Cast.cast11_spec, Nat.zero_le, if_true]
  congr 1; funext j
  exact Vec.recast_recast _ hv hs

/-- C45, split then combine: a vector held in `k` wide registers is recovered from its `2k`
narrow ones. -/
theorem C45_split_combine {w L v M k : Nat} (hw : 0 < w) (hL : 0 < L) (hv : 0 < v) (hM : 0 < M)
    (hk : 0 < k) (hs : w * L = v * M * 2) (t r1 : Fin k → Vec w L) (r0 : Fin (k * 2) → Vec v M) :
    (Cast.cast_bitwise_vector t r0).bind (fun u => Cast.cast_bitwise_vector u r1) = some t := by
  obtain ⟨u, hu, hu2⟩ := C45_bit_cast hw hL hv hM
    (by rw [hs]; ring) (Or.inr (Or.inr rfl)) t r0
  obtain ⟨x, hx, hx2⟩ := C45_bit_cast hv hM hw hL
    (by rw [hs]; ring) (Or.inr (Or.inl rfl)) u r1
  rw [hu, Option.bind_some, hx]
  congr 1; funext j
  have pw : 0 < w * L := Nat.mul_pos hw hL
  apply Vec.ext_bit
  intro p hp
  have hq : (w * L) * j.val + p < k * (w * L) := by
    have := j.isLt
    calc (w * L) * j.val + p < (w * L) * j.val + w * L := by omega
      _ = (j.val + 1) * (w * L) := by ring
      _ ≤ k * (w * L) := Nat.mul_le_mul_right _ (by omega)
  have e := hx2 _ hq
  rw [hu2 _ (by rw [show k * 2 * (v * M) = k * (w * L) by rw [hs]; ring]; exact hq)] at e
  have d1 : ((w * L) * j.val + p) / (w * L) = j.val := by
    rw [Nat.mul_add_div pw, Nat.div_eq_of_lt hp, Nat.add_zero]
  have d2 : ((w * L) * j.val + p) % (w * L) = p := by
    rw [Nat.mul_add_mod, Nat.mod_eq_of_lt hp]
  rw [Cast.bitAt_eq _ hw hL _ (by rw [d1]; exact j.isLt),
    Cast.bitAt_eq _ hw hL _ (by rw [d1]; exact j.isLt)] at e
  simp only [d1, d2] at e
  exact e

/-- Non-vacuity: an AVX build casts `float32<16>` (two 256-bit registers) to `uint8<64>` (four
128-bit registers) and bit 300 of the result is bit 12 of float lane 9. -/
example (t : Fin 2 → Vec 32 8) (r0 : Fin 4 → Vec 8 16) :
    ∃ res, Cast.cast_bitwise_vector t r0 = some res ∧
      bitAt res 300 = (t 1 1).getLsbD 12 := by
  obtain ⟨res, h1, h2⟩ := C45_bit_cast (by decide) (by decide) (by decide) (by decide) (by decide)
    (Or.inr (Or.inr rfl)) t r0
  exact ⟨res, h1, (h2 300 (by decide)).trans rfl⟩

/-- C45 for masks: `bit_cast` between the integer and floating-point mask of one element size keeps
the lane predicate, wherever the library accepts the cast. -/
theorem C45_mask_cast {w n : Nat} {c : Cfg} (h : c.Ok) (src dst : Kind) (hs : src.okW w) (hd : dst.okW w)
    (r : Reg) (f : Fin n → Bool) (m : Mask w n)
    (hm : Cast.bit_cast_mask c src dst r (Mask.of c src r f) = some m) : m = Mask.of c dst r f := by
  unfold Cast.bit_cast_mask at hm
  by_cases h1 : src = dst
  · rw [if_pos h1] at hm; subst h1; exact (Option.some.inj hm).symm
  · rw [if_neg h1] at hm
    split at hm
    · split_ifs at hm with h2
      rw [← Option.some.inj hm]; unfold Mask.of; rw [h2]
    · split_ifs at hm with h2
      rw [← Option.some.inj hm, Mask.unmask_of]; unfold Mask.of; rw [if_neg h2]
    · rw [← Option.some.inj hm, Mask.unmask_of, i_to_mask_maskLane h hd]

/-- C45 for masks: the cast is accepted on every build except 32-bit NEON without
`NEON_FLT_SP`, where the `mask_int32 -> mask_float32` override is the wrong way round. -/
theorem C45_mask_cast_total_partial {w n : Nat} {c : Cfg} (h : c.Ok) (src dst : Kind)
    (hs : src.okW w) (hd : dst.okW w)
    (r : Reg) (hr : c.hasVec src w r = true) (hr' : c.hasVec dst w r = true)
    (hx : ¬ (c.neonNoFltSp = true ∧ w = 32 ∧ src = .int ∧ dst = .flt))
    (f : Fin n → Bool) :
    Cast.bit_cast_mask c src dst r (Mask.of c src r f : Mask w n) = some (Mask.of c dst r f) := by
  have key : ∃ m, Cast.bit_cast_mask c src dst r (Mask.of c src r f : Mask w n) = some m := by
    have h0 := h.null; have h1 := h.excl; have h2 := h.vsx206; have h3 := h.vsx207
    have h4 := h.neonFltSp; have h5 := h.neon64
    have h6 := h.avx512vl; have h7 := h.avx512f; have h8 := h.avx2; have h9 := h.avx
    have h10 := h.sse41; have h11 := h.ssse3; have h12 := h.sse3
    have hw : src = dst ∨ w = 32 ∨ w = 64 := by
      cases src <;> cases dst <;> simp only [Kind.okW] at hs hd <;> simp <;> omega
    unfold Cast.bit_cast_mask
    rcases hw with rfl | hw
    · rw [if_pos rfl]; exact ⟨_, rfl⟩
    by_cases he : src = dst
    · rw [if_pos he]; exact ⟨_, rfl⟩
    rw [if_neg he]
    have hx86 : r = .r128 ∨ c.sse2 = true := by
      cases r
      · exact Or.inl rfl
      · refine Or.inr (h12 (h11 (h10 (h9 ?_))))
        cases src
        · exact h8 hr
        · exact hr
      · refine Or.inr (h12 (h11 (h10 (h9 (h8 (h7 ?_))))))
        cases src
        · rcases hw with rfl | rfl <;> exact hr
        · exact hr
    have hvl : c.avx512vl = true → c.sse2 = true := fun e => h12 (h11 (h10 (h9 (h8 (h7 (h6 e))))))
    generalize (Mask.of c src r f : Mask w n) = m0
    simp only [Cast.cast_mask_override, Cfg.neonNoFltSp, Cfg.neon32, Cfg.maskBits, Cfg.neon64] at *
    clear h hr hr' h6 h7 h8 h9 h10 h11 h12 hs hd
    obtain ⟨_, sse2, _, _, _, _, _, _, _, _, _, _, _, _, vl, neon, fsp, alti, v6, v7, msa, b64⟩ := c
    dsimp only at *
    cases sse2
    · have hr : r = .r128 := by simpa using hx86
      subst hr; clear hx86
      have hv : vl = false := by cases vl <;> simp_all
      subst hv
      rcases hw with rfl | rfl <;> cases src <;> cases dst <;>
      first
      | exact absurd rfl he
      | (cases neon <;> cases alti <;> cases msa <;> cases b64 <;>
          cases fsp <;> cases v6 <;> cases v7 <;>
          first | exact ⟨_, rfl⟩ | (exfalso; revert h1 h2 h3 h4 h5 hx; decide))
    · have hn : neon = false ∧ alti = false := ⟨(h1.1 rfl).1, (h1.1 rfl).2.1⟩
      obtain ⟨rfl, rfl⟩ := hn
      have hv : v6 = false := by cases v6 <;> simp_all
      subst hv
      cases r <;> cases src <;> cases dst <;> cases vl <;> simp
  obtain ⟨m, hm⟩ := key
  rw [hm, C45_mask_cast h src dst hs hd r f m hm]

/-- The full claim fails there: on 32-bit NEON without float support the cast is rejected. -/
theorem C45_mask_cast_neon_rejected {n : Nat} (f : Fin n → Bool) :
    Cast.bit_cast_mask { Cfg.portable with null := false, neon := true, bits64 := false } .int .flt .r128
      (Mask.of { Cfg.portable with null := false, neon := true, bits64 := false } .int .r128 f : Mask 32 n)
      = none := rfl

end Simdpp
