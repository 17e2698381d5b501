import Verif.Props.Splat

/-!
# C24: split and combine are inverse
-/

namespace Simdpp
open Spec Sh

variable {w n : Nat}

theorem splitUnroll_spec {α : Type} {H : Nat} (src : Fin (H + H) → α) (I : Nat) (d1 d2 : Fin H → α) (i : Fin H) :
    (splitUnroll src I d1 d2).1 i = (if I ≤ i.val then src ⟨i.val, by omega⟩ else d1 i) ∧
    (splitUnroll src I d1 d2).2 i = (if I ≤ i.val then src ⟨i.val + H, by omega⟩ else d2 i) := by
  induction I, d1, d2 using splitUnroll.induct (src := src) with
  | case1 I d1 d2 hI ih =>
    rw [splitUnroll, dif_pos hI, ih.1, ih.2]
    unfold Arr.set
    by_cases e : i.val = I
    · have e' : i = ⟨I, hI⟩ := Fin.ext e
      subst e'
      simp
    · rw [if_neg (show ¬ i = ⟨I, hI⟩ from fun e' => e (congrArg Fin.val e')),
        if_neg (show ¬ i = ⟨I, hI⟩ from fun e' => e (congrArg Fin.val e'))]
      by_cases g : I ≤ i.val
      · rw [if_pos g, if_pos g, if_pos (by omega), if_pos (by omega)]; exact ⟨rfl, rfl⟩
      · rw [if_neg g, if_neg g, if_neg (by omega), if_neg (by omega)]; exact ⟨rfl, rfl⟩
  | case2 I d1 d2 hI =>
    rw [splitUnroll, dif_neg hI, if_neg (by omega), if_neg (by omega)]
    exact ⟨rfl, rfl⟩

theorem combineUnroll_spec {α : Type} {H : Nat} (s1 s2 : Fin H → α) (I : Nat) (d : Fin (H + H) → α) (i : Fin (H + H)) :
    combineUnroll s1 s2 I d i =
      if h : i.val < H then (if I ≤ i.val then s1 ⟨i.val, h⟩ else d i)
      else (if I ≤ i.val - H then s2 ⟨i.val - H, by omega⟩ else d i) := by
  induction I, d using combineUnroll.induct (s1 := s1) (s2 := s2) with
  | case1 I d hI ih =>
    rw [combineUnroll, dif_pos hI, ih]
    unfold Arr.set
    by_cases hi : i.val < H
    · rw [dif_pos hi, dif_pos hi, if_neg (show ¬ i = ⟨I + H, _⟩ from fun e => by
        have := congrArg Fin.val e; simp only at this; omega)]
      by_cases e : i.val = I
      · rw [if_neg (by omega), if_pos (Fin.ext e), if_pos (by omega)]
        exact congrArg s1 (Fin.ext e.symm)
      · rw [if_neg (show ¬ i = ⟨I, _⟩ from fun e' => e (congrArg Fin.val e'))]
        by_cases g : I ≤ i.val
        · rw [if_pos g, if_pos (by omega)]
        · rw [if_neg g, if_neg (by omega)]
    · rw [dif_neg hi, dif_neg hi]
      by_cases e : i.val = I + H
      · rw [if_neg (by omega), if_pos (Fin.ext e), if_pos (by omega)]
        exact congrArg s2 (Fin.ext (by simp only; omega))
      · rw [if_neg (show ¬ i = ⟨I + H, _⟩ from fun e' => e (congrArg Fin.val e')),
          if_neg (show ¬ i = ⟨I, _⟩ from fun e' => by have := congrArg Fin.val e'; simp only at this; omega)]
        by_cases g : I ≤ i.val - H
        · rw [if_pos g, if_pos (by omega)]
        · rw [if_neg g, if_neg (by omega)]
  | case2 I d hI =>
    rw [combineUnroll, dif_neg hI]
    split_ifs <;> first | rfl | omega

/-- C24 (`split`, vectors of several registers): the first result is the low half, the second the high half, lanes in
order. -/
theorem C24_split_long {l H : Nat} (src : Fin (H + H) → Vec w l) (d1 d2 : Fin H → Vec w l) :
    (∀ j, j < H * l → Vec.at_ (Arr.flat (splitUnroll src 0 d1 d2).1 : Vec w (H * l)) j =
      Vec.at_ (Arr.flat src : Vec w ((H + H) * l)) j) ∧
    (∀ j, j < H * l → Vec.at_ (Arr.flat (splitUnroll src 0 d1 d2).2 : Vec w (H * l)) j =
      Vec.at_ (Arr.flat src : Vec w ((H + H) * l)) (j + H * l)) := by
  constructor
  · intro j hj
    rw [flat_at _ hj, flat_at _ (by rw [Nat.add_mul]; omega), (splitUnroll_spec src 0 d1 d2 _).1, if_pos (by omega)]
  · intro j hj
    have hl : 0 < l := Nat.pos_of_ne_zero fun e => by subst e; simp at hj
    rw [flat_at _ hj, flat_at _ (by rw [Nat.add_mul]; omega), (splitUnroll_spec src 0 d1 d2 _).2, if_pos (by omega)]
    simp only [Nat.add_mul_div_right _ _ hl, Nat.add_mul_mod_self_right]

/-- C24 (`combine`, vectors of several registers): the first argument becomes the low half, the second the high
half, lanes in order. -/
theorem C24_combine_long {l H : Nat} (s1 s2 : Fin H → Vec w l) (d : Fin (H + H) → Vec w l) :
    (∀ j, j < H * l → Vec.at_ (Arr.flat (combineUnroll s1 s2 0 d) : Vec w ((H + H) * l)) j =
      Vec.at_ (Arr.flat s1 : Vec w (H * l)) j) ∧
    (∀ j, j < H * l → Vec.at_ (Arr.flat (combineUnroll s1 s2 0 d) : Vec w ((H + H) * l)) (j + H * l) =
      Vec.at_ (Arr.flat s2 : Vec w (H * l)) j) := by
  constructor
  · intro j hj
    have hq : j / l < H := Nat.div_lt_of_lt_mul (by rwa [Nat.mul_comm] at hj)
    rw [flat_at _ hj, flat_at _ (by rw [Nat.add_mul]; omega), combineUnroll_spec, dif_pos hq, if_pos (by omega)]
  · intro j hj
    have hl : 0 < l := Nat.pos_of_ne_zero fun e => by subst e; simp at hj
    rw [flat_at _ hj, flat_at _ (by rw [Nat.add_mul]; omega), combineUnroll_spec]
    simp only [Nat.add_mul_div_right _ _ hl, Nat.add_mul_mod_self_right]
    rw [dif_neg (Nat.not_lt.2 (Nat.le_add_left _ _)), if_pos (Nat.zero_le _)]
    simp only [Nat.add_sub_cancel]

/-- C24: `combine(split(v)) == v` and `split(combine(a, b)) == (a, b)` on vectors of several registers, whatever the
uninitialised results held. -/
theorem C24_inverse_long {l H : Nat} (v d : Fin (H + H) → Vec w l) (a b d1 d2 : Fin H → Vec w l) :
    combineUnroll (splitUnroll v 0 d1 d2).1 (splitUnroll v 0 d1 d2).2 0 d = v ∧
    splitUnroll (combineUnroll a b 0 d) 0 d1 d2 = (a, b) := by
  constructor
  · funext i
    rw [combineUnroll_spec]
    by_cases hi : i.val < H
    · rw [dif_pos hi, if_pos (by omega), (splitUnroll_spec v 0 d1 d2 _).1, if_pos (by omega)]
    · rw [dif_neg hi, if_pos (by omega), (splitUnroll_spec v 0 d1 d2 _).2, if_pos (by omega)]
      congr 1
      exact Fin.ext (by simp only; omega)
  · refine Prod.ext (funext fun i => ?_) (funext fun i => ?_)
    · rw [(splitUnroll_spec _ 0 d1 d2 i).1, if_pos (by omega), combineUnroll_spec, dif_pos i.isLt, if_pos (by omega)]
    · rw [(splitUnroll_spec _ 0 d1 d2 i).2, if_pos (by omega), combineUnroll_spec]
      simp

section
variable {c : Cfg} {r : Reg} {k : Kind}

/-- C24 (`split` of one wide register): low half and high half, lanes in order. -/
theorem C24_split (hr : c.hasVec k w r = true) (hr' : r ≠ .r128) (a : Vec w (n + n)) :
    ∃ a1 a2, i_split c k r a = some (a1, a2) ∧
      ∀ j, j < n → a1.at_ j = a.at_ j ∧ a2.at_ j = a.at_ (n + j) := by
  refine ⟨Hw.part n 0 a, Hw.part n 1 a, ?_, fun j hj => ?_⟩
  · cases r
    · exact absurd rfl hr'
    · exact if_pos hr
    · exact if_pos hr
  · rw [Hw.part_at _ hj, Hw.part_at _ hj, Nat.zero_mul, Nat.zero_add, Nat.one_mul]
    exact ⟨rfl, rfl⟩

/-- C24 (`combine` into one wide register): whatever the widening cast leaves in the upper half (`u`), the result is
`a` followed by `b`. -/
theorem C24_combine (hr : c.hasVec k w r = true) (hr' : r ≠ .r128) (u : Vec w (n + n)) (a b : Vec w n) :
    ∃ res, i_combine c k r u a b = some res ∧
      ∀ j, j < n → res.at_ j = a.at_ j ∧ res.at_ (n + j) = b.at_ j := by
  have e : ∃ t : Vec w (n + n), (∀ j, j < n → t.at_ j = a.at_ j) ∧ i_combine c k r u a b = some (Hw.putPart t b 1) := by
    refine ⟨fun i => if i.val < n then a.at_ i.val else u i, fun j hj => ?_, ?_⟩
    · rw [Vec.at_lt _ (by omega)]
      exact if_pos hj
    · cases r
      · exact absurd rfl hr'
      · exact if_pos hr
      · exact if_pos hr
  obtain ⟨t, ht, e⟩ := e
  refine ⟨_, e, fun j hj => ⟨?_, ?_⟩⟩
  · rw [← ht j hj, Vec.at_lt _ (by omega), Vec.at_lt _ (by omega)]
    unfold Hw.putPart
    exact if_neg (show ¬ j / n = 1 by rw [Nat.div_eq_of_lt hj]; decide)
  · rw [Vec.at_lt _ (by omega)]
    unfold Hw.putPart
    have h1 : (n + j) / n = 1 := by rw [Nat.add_div_left _ (by omega), Nat.div_eq_of_lt hj]
    have h2 : (n + j) % n = j := by rw [Nat.add_mod_left, Nat.mod_eq_of_lt hj]
    refine (if_pos h1).trans ?_
    show b.at_ ((n + j) % n) = _
    rw [h2]

/-- C24: inverse both ways on wide registers. -/
theorem C24_inverse (hr : c.hasVec k w r = true) (hr' : r ≠ .r128) (u v : Vec w (n + n)) (a b : Vec w n) :
    (i_split c k r v).bind (fun p => i_combine c k r u p.1 p.2) = some v ∧
    (i_combine c k r u a b).bind (i_split c k r) = some (a, b) := by
  constructor
  · obtain ⟨a1, a2, e, p⟩ := C24_split hr hr' v
    obtain ⟨res, e2, p2⟩ := C24_combine hr hr' u a1 a2
    rw [e]
    refine e2.trans (congrArg some (ext_at fun j hj => ?_))
    by_cases g : j < n
    · rw [(p2 j g).1, (p j g).1]
    · have := (p2 (j - n) (by omega)).2
      rw [show n + (j - n) = j by omega] at this
      rw [this, (p (j - n) (by omega)).2, show n + (j - n) = j by omega]
  · obtain ⟨res, e2, p2⟩ := C24_combine hr hr' u a b
    obtain ⟨a1, a2, e, p⟩ := C24_split hr hr' res
    rw [e2]
    refine e.trans (congrArg some (Prod.ext (ext_at fun j hj => ?_) (ext_at fun j hj => ?_)))
    · rw [(p j hj).1, (p2 j hj).1]
    · rw [(p j hj).2, (p2 j hj).2]

end

/-! ## Concrete configurations -/

example (v u : Vec 32 16) : (i_split Cfg.avx512All .flt .r512 (n := 8) v).bind
    (fun p => i_combine Cfg.avx512All .flt .r512 (n := 8) u p.1 p.2) = some v :=
  (C24_inverse (n := 8) (by decide) (by decide) u v (fun _ => 0) (fun _ => 0)).1

example : (splitUnroll (H := 3) (fun i : Fin (3 + 3) => (fun _ => i.val : Vec 32 4)) 0 (fun _ _ => 9) (fun _ _ => 9)).2 2 = fun _ => 5 := by
  funext i
  rw [(splitUnroll_spec (H := 3) _ 0 _ _ 2).2]
  rfl

/-! ## Examples and the 32-bit MSA exception for C23 -/

example (v : Fin 3 → Vec 16 8) : extract Cfg.sse2Only .int true .r128 21 v = some (Vec.at_ (Arr.flat v : Vec 16 24) 21) :=
  C23_extract_partial (r := .r128) (k := .int) Cfg.sse2Only_ok iw16 rfl (by decide) (fun g => absurd g.1 (by decide)) v

example (v : Fin 2 → Vec 64 4) (x : BitVec 64) : ∃ res, insert Cfg.avx2Only .flt .r256 6 v x = some res ∧
    ∀ j, j < 8 → Vec.at_ (Arr.flat res : Vec 64 8) j = if j = 6 then x else Vec.at_ (Arr.flat v : Vec 64 8) j :=
  C23_insert (r := .r256) (k := .flt) Cfg.avx2Only_ok (Or.inr rfl) rfl (by decide) v x

example (v d : Fin 2 → Vec 8 32) : ∃ res, splat Cfg.avx2Only true .int .r256 45 v d = some res ∧
    ∀ j, j < 64 → Vec.at_ (Arr.flat res : Vec 8 64) j = Vec.at_ (Arr.flat v : Vec 8 64) 45 :=
  C23_splat (r := .r256) (k := .int) Cfg.avx2Only_ok true isW8 rfl (by decide) v d

example (v d : Fin 2 → Vec 8 16) : ∃ res, splat_n Cfg.sse2Only true .int .r128 13 v d = some res ∧
    Picks 16 (fun _ => 13) (Arr.flat v : Vec 8 32) (Arr.flat v) (Arr.flat res) :=
  C23_splat_n (r := .r128) (k := .int) Cfg.sse2Only_ok true isW8 rfl (by decide) v d

/-- The exception in C23: on 32-bit MSA builds, `extract` of a signed 64-bit lane shifts a negative value (undefined)
when the lane is negative, and returns a wrong value when bit 31 of the lane is set. -/
theorem C23_extract_msa32_wrong {c : Cfg} (h : c.Ok) (hm : c.msa = true) (hb : c.bits64 = false) {K id : Nat}
    (hi : id < K * 2) (v : Fin K → Vec 64 2) :
    let x := Vec.at_ (Arr.flat v : Vec 64 (K * 2)) id
    (x.toInt < 0 → extract c .int true .r128 id v = none) ∧
    (0 ≤ x.toInt → x.getLsbD 31 = true → ∃ y, extract c .int true .r128 id v = some y ∧ y ≠ x) ∧
    (0 ≤ x.toInt → x.getLsbD 31 = false → extract c .int true .r128 id v = some x) := by
  intro x
  have hK : id / 2 < K := by omega
  have key : extract c .int true .r128 id v = joinSigned (x.extractLsb' 0 32) (x.extractLsb' 32 32) := by
    have hx : x = (v ⟨id / 2, hK⟩).at_ (id % 2) := flat_at v hi
    have hs : c.sse2 = false ∧ c.neon = false ∧ c.altivec = false := by
      have := h.excl
      rw [hm] at this
      cases e1 : c.sse2 <;> cases e2 : c.neon <;> cases e3 : c.altivec <;> simp_all
    have hn : c.null = false := by rw [h.null, hm]; simp
    have h41 : c.sse41 = false := by
      cases e : c.sse41
      · rfl
      · have := h.sse3 (h.ssse3 (h.sse41 e))
        rw [hs.1] at this; exact absurd this (by decide)
    unfold extract vecRd
    refine (if_neg (not_not.2 hi)).trans ?_
    show Option.bind (if h : id / 2 < K then some (v ⟨id / 2, h⟩) else none) (fun a => i_extract64 c true (id % 2) a) = _
    rw [dif_pos hK]
    show i_extract64 c true (id % 2) (v ⟨id / 2, hK⟩) = _
    rw [hx]
    generalize v ⟨id / 2, hK⟩ = a
    have hj : id % 2 < 2 := Nat.mod_lt _ (by decide)
    generalize id % 2 = j at hj
    unfold i_extract64
    rw [hn, h41, hs.1, hs.2.1, hs.2.2, hm, hb]
    simp only [Bool.false_eq_true, if_false, if_true, or_false, false_or]
    rw [Hw.extr_lt _ (by omega), Hw.extr_lt _ (by omega)]
    simp only [Option.bind_eq_bind, Option.bind_some]
    rw [recast_at (q := 2) (by decide) (by decide) (by rfl) rfl, recast_at (q := 2) (by decide) (by decide) (by rfl) rfl]
    rw [show j * 2 / 2 = j by omega, show (j * 2 + 1) / 2 = j by omega, show j * 2 % 2 = 0 by omega,
      show (j * 2 + 1) % 2 = 1 by omega]
  rw [key]
  clear key
  generalize x = x
  have hneg : (x.extractLsb' 32 32).toInt < 0 ↔ x.toInt < 0 := by
    rw [BitVec.toInt_neg_iff, BitVec.toInt_neg_iff, BitVec.extractLsb'_toNat, Nat.shiftRight_eq_div_pow]
    have := x.isLt
    omega
  unfold joinSigned
  refine ⟨fun g => if_pos (hneg.2 g), fun g g2 => ⟨_, if_neg (fun e => ?_), fun e => ?_⟩, fun g g2 => ?_⟩
  · have := hneg.1 e; omega
  · have hge : x.getLsbD 63 = false := by
      cases e : x.getLsbD 63
      · rfl
      · have : x.msb = true := by rw [BitVec.msb_eq_getLsbD_last]; exact e
        have := BitVec.toInt_neg_iff.2 (BitVec.msb_eq_true_iff_two_mul_ge.1 this)
        omega
    have : ((x.extractLsb' 0 32).signExtend 64 ||| (x.extractLsb' 32 32).signExtend 64 <<< 32).getLsbD 63 = x.getLsbD 63 := by
      rw [e]
    rw [hge] at this
    simp [BitVec.getLsbD_or, BitVec.getLsbD_signExtend, BitVec.msb_eq_getLsbD_last, BitVec.getLsbD_extractLsb'] at this
    have h63 := this.1
    rw [← BitVec.getLsbD_eq_getElem, BitVec.getLsbD_signExtend, BitVec.msb_eq_getLsbD_last, BitVec.getLsbD_extractLsb'] at h63
    simp [g2, ← BitVec.getLsbD_eq_getElem] at h63
  · rw [if_neg (fun e => by have := hneg.1 e; omega)]
    refine congrArg some (BitVec.eq_of_getLsbD_eq fun i hi => ?_)
    have h31 : x[31] = false := by rw [← BitVec.getLsbD_eq_getElem]; exact g2
    simp only [BitVec.getLsbD_or, BitVec.getLsbD_signExtend, BitVec.msb_eq_getLsbD_last, BitVec.getLsbD_extractLsb',
      BitVec.getLsbD_shiftLeft, hi]
    by_cases g3 : i < 32
    · simp [g3]
    · simp [g3, g2, h31, show i - 32 < 32 by omega, show i - 32 < 64 by omega, show 32 + (i - 32) = i by omega]

end Simdpp
