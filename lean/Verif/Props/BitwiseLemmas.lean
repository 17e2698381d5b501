import Verif.Model.Bitwise

/-! Evaluation of the bitwise operations on every configuration. -/

namespace Simdpp
open Spec

variable {w n : Nat}

/-- closes a goal with contradictory configuration hypotheses -/
macro "cfg_absurd" h:ident : tactic => `(tactic|
  (exfalso
   have := ($h).null; have := ($h).sse3; have := ($h).ssse3; have := ($h).sse41
   have := ($h).popcnt; have := ($h).avx; have := ($h).avx2; have := ($h).fma3; have := ($h).fma4
   have := ($h).xop; have := ($h).avx512f; have := ($h).avx512bw; have := ($h).avx512dq
   have := ($h).avx512vl; have := ($h).neonFltSp; have := ($h).vsx206; have := ($h).vsx207
   have := ($h).neon64; have := ($h).excl
   simp_all [Cfg.hasInt, Cfg.hasVec, Cfg.neonNoFltSp, Cfg.neon32, Cfg.neon64, Kind.okW, IsW] <;> grind))

/-- Width bookkeeping for byte casts. -/
theorem isW_dvd (hw : IsW w) : 8 * (w * n / 8) = w * n := by
  rcases hw with rfl | rfl | rfl | rfl <;> omega

theorem isW_pos (hw : IsW w) : 0 < w := by
  rcases hw with rfl | rfl | rfl | rfl <;> omega

theorem Vec.bit_map2 {f : BitVec w → BitVec w → BitVec w} {β : Bool → Bool → Bool}
    (hf : ∀ x y k, k < w → (f x y).getLsbD k = β (x.getLsbD k) (y.getLsbD k))
    (a b : Vec w n) {k : Nat} (hk : k < w * n) :
    Vec.bit (fun i => f (a i) (b i)) k = β (a.bit k) (b.bit k) := by
  have hw : 0 < w := Nat.pos_of_ne_zero fun h => by subst h; simp at hk
  have hq : k / w < n := Nat.div_lt_of_lt_mul hk
  unfold Vec.bit
  rw [Vec.at_lt _ hq, Vec.at_lt _ hq, Vec.at_lt _ hq, hf _ _ _ (Nat.mod_lt _ hw)]

theorem Vec.bit_map1 {f : BitVec w → BitVec w} {β : Bool → Bool}
    (hf : ∀ x k, k < w → (f x).getLsbD k = β (x.getLsbD k))
    (a : Vec w n) {k : Nat} (hk : k < w * n) :
    Vec.bit (fun i => f (a i)) k = β (a.bit k) := by
  have hw : 0 < w := Nat.pos_of_ne_zero fun h => by subst h; simp at hk
  have hq : k / w < n := Nat.div_lt_of_lt_mul hk
  unfold Vec.bit
  rw [Vec.at_lt _ hq, Vec.at_lt _ hq, hf _ _ (Nat.mod_lt _ hw)]

/-- A bitwise operation commutes with register reinterpretation. -/
theorem recast_bitwise2 {u m : Nat} {f : BitVec w → BitVec w → BitVec w}
    {g : BitVec u → BitVec u → BitVec u} {β : Bool → Bool → Bool}
    (hf : ∀ x y k, k < w → (f x y).getLsbD k = β (x.getLsbD k) (y.getLsbD k))
    (hg : ∀ x y k, k < u → (g x y).getLsbD k = β (x.getLsbD k) (y.getLsbD k))
    (hw : 0 < w) (hu : 0 < u) (hs : u * m = w * n) (a b : Vec w n) :
    Vec.recast w n (fun i => g (a.recast u m i) (b.recast u m i)) = fun i => f (a i) (b i) := by
  apply Vec.ext_bit
  intro k hk
  rw [Vec.bit_recast _ hw hk, Vec.bit_map2 hg _ _ (by omega), Vec.bit_map2 hf _ _ hk,
    Vec.bit_recast _ hu (by omega), Vec.bit_recast _ hu (by omega)]

theorem recast_bitwise1 {u m : Nat} {f : BitVec w → BitVec w}
    {g : BitVec u → BitVec u} {β : Bool → Bool}
    (hf : ∀ x k, k < w → (f x).getLsbD k = β (x.getLsbD k))
    (hg : ∀ x k, k < u → (g x).getLsbD k = β (x.getLsbD k))
    (hw : 0 < w) (hu : 0 < u) (hs : u * m = w * n) (a : Vec w n) :
    Vec.recast w n (fun i => g (a.recast u m i)) = fun i => f (a i) := by
  apply Vec.ext_bit
  intro k hk
  rw [Vec.bit_recast _ hw hk, Vec.bit_map1 hg _ (by omega), Vec.bit_map1 hf _ hk,
    Vec.bit_recast _ hu (by omega)]

theorem isW8 : IsW 8 := Or.inl rfl

theorem i_bit_and8_eq {c : Cfg} (h : c.Ok) (a b : Vec 8 n) :
    i_bit_and8 c a b = some (fun i => a i &&& b i) := by
  unfold i_bit_and8
  split_ifs
  · rw [Null.bit_and_eq isW8]
  · rfl
  · rfl
  · rfl
  · rfl
  · cfg_absurd h

theorem i_bit_or8_eq {c : Cfg} (h : c.Ok) (a b : Vec 8 n) :
    i_bit_or8 c a b = some (fun i => a i ||| b i) := by
  unfold i_bit_or8
  split_ifs
  · rw [Null.bit_or_eq isW8]
  · rfl
  · rfl
  · rfl
  · rfl
  · cfg_absurd h

theorem i_bit_xor8_eq {c : Cfg} (h : c.Ok) (a b : Vec 8 n) :
    i_bit_xor8 c a b = some (fun i => a i ^^^ b i) := by
  unfold i_bit_xor8
  split_ifs
  · rw [Null.bit_xor_eq isW8]
  · rfl
  · rfl
  · rfl
  · rfl
  · cfg_absurd h

theorem Hw.pandn_eq (a b : Vec w n) : Hw.pandn b a = fun i => a i &&& ~~~ (b i) := by
  funext i; simp [Hw.pandn, BitVec.and_comm]

theorem i_bit_andnot8_eq {c : Cfg} (h : c.Ok) (a b : Vec 8 n) :
    i_bit_andnot8 c a b = some (fun i => a i &&& ~~~ (b i)) := by
  unfold i_bit_andnot8
  split_ifs
  · rw [Null.bit_andnot_eq isW8]
  · rw [Hw.pandn_eq]
  · rfl
  · rfl
  · rw [show Hw.and a (Hw.nor b b) = fun i => a i &&& ~~~ (b i) from funext fun i => by
      simp [Hw.and, Hw.nor]]
  · cfg_absurd h

theorem viaBytes2_and {c : Cfg} (h : c.Ok) (hw : IsW w) (a b : Vec w n) :
    viaBytes2 (i_bit_and8 c) a b = some (fun i => a i &&& b i) := by
  unfold viaBytes2
  rw [i_bit_and8_eq h, Option.map_some]
  congr 1
  exact recast_bitwise2 (f := (· &&& ·)) (g := (· &&& ·)) (β := (· && ·)) (by simp) (by simp)
    (isW_pos hw) (by omega) (isW_dvd hw) a b

theorem viaBytes2_or {c : Cfg} (h : c.Ok) (hw : IsW w) (a b : Vec w n) :
    viaBytes2 (i_bit_or8 c) a b = some (fun i => a i ||| b i) := by
  unfold viaBytes2
  rw [i_bit_or8_eq h, Option.map_some]
  congr 1
  exact recast_bitwise2 (f := (· ||| ·)) (g := (· ||| ·)) (β := (· || ·)) (by simp) (by simp)
    (isW_pos hw) (by omega) (isW_dvd hw) a b

theorem viaBytes2_xor {c : Cfg} (h : c.Ok) (hw : IsW w) (a b : Vec w n) :
    viaBytes2 (i_bit_xor8 c) a b = some (fun i => a i ^^^ b i) := by
  unfold viaBytes2
  rw [i_bit_xor8_eq h, Option.map_some]
  congr 1
  exact recast_bitwise2 (f := (· ^^^ ·)) (g := (· ^^^ ·)) (β := xor) (by simp) (by simp)
    (isW_pos hw) (by omega) (isW_dvd hw) a b

theorem viaBytes2_andnot {c : Cfg} (h : c.Ok) (hw : IsW w) (a b : Vec w n) :
    viaBytes2 (i_bit_andnot8 c) a b = some (fun i => a i &&& ~~~ (b i)) := by
  unfold viaBytes2
  rw [i_bit_andnot8_eq h, Option.map_some]
  congr 1
  exact recast_bitwise2 (f := fun x y => x &&& ~~~ y) (g := fun x y => x &&& ~~~ y)
    (β := fun x y => x && !y) (by intro x y k hk; simp [hk]) (by intro x y k hk; simp [hk])
    (isW_pos hw) (by omega) (isW_dvd hw) a b

theorem i_bit_and_eq {c : Cfg} (h : c.Ok) {k : Kind} (hw : k.okW w) {r : Reg}
    (hr : c.hasVec k w r = true) (a b : Vec w n) :
    i_bit_and c k r a b = some (fun i => a i &&& b i) := by
  have hw' := hw.isW
  unfold i_bit_and
  split <;> split_ifs <;>
    first
    | rfl
    | rw [Null.bit_and_eq hw']
    | exact viaBytes2_and h hw' a b
    | cfg_absurd h

theorem i_bit_or_eq {c : Cfg} (h : c.Ok) {k : Kind} (hw : k.okW w) {r : Reg}
    (hr : c.hasVec k w r = true) (a b : Vec w n) :
    i_bit_or c k r a b = some (fun i => a i ||| b i) := by
  have hw' := hw.isW
  unfold i_bit_or
  split <;> split_ifs <;>
    first
    | rfl
    | rw [Null.bit_or_eq hw']
    | exact viaBytes2_or h hw' a b
    | cfg_absurd h

theorem i_bit_xor_eq {c : Cfg} (h : c.Ok) {k : Kind} (hw : k.okW w) {r : Reg}
    (hr : c.hasVec k w r = true) (a b : Vec w n) :
    i_bit_xor c k r a b = some (fun i => a i ^^^ b i) := by
  have hw' := hw.isW
  unfold i_bit_xor
  split <;> split_ifs <;>
    first
    | rfl
    | rw [Null.bit_xor_eq hw']
    | exact viaBytes2_xor h hw' a b
    | cfg_absurd h

theorem i_bit_andnot_eq {c : Cfg} (h : c.Ok) {k : Kind} (hw : k.okW w) {r : Reg}
    (hr : c.hasVec k w r = true) (a b : Vec w n) :
    i_bit_andnot c k r a b = some (fun i => a i &&& ~~~ (b i)) := by
  have hw' := hw.isW
  unfold i_bit_andnot
  split <;> split_ifs <;>
    first
    | rfl
    | rw [Hw.pandn_eq]
    | rw [Null.bit_andnot_eq hw']
    | exact viaBytes2_andnot h hw' a b
    | cfg_absurd h

theorem null_bit_not_eq (hw : IsW w) (a : Vec w n) : null_bit_not a = fun i => ~~~ (a i) := by
  funext i
  show C.toLane w (C.valOf (C.promTy ⟨false, w⟩) (~~~ C.bitsOf (C.promTy ⟨false, w⟩) ((a i).toNat : Int))) = _
  have hb : w ≤ (C.promTy ⟨false, w⟩).bits := by rcases hw with rfl | rfl | rfl | rfl <;> decide
  have := toLane_valOf (w := w) _ hb (~~~ C.bitsOf (C.promTy ⟨false, w⟩) ((a i).toNat : Int))
  rw [bitsOf_nat] at *
  rw [show ∀ v, C.toLane w (C.cast ⟨false, w⟩ v) = C.toLane w v from
    fun v => ofInt_emod_pow w v.v] at this
  rw [this]
  ext k hk
  have : k < (C.promTy ⟨false, w⟩).bits := by omega
  simp only [BitVec.getElem_setWidth, BitVec.getLsbD_not, BitVec.getLsbD_setWidth, this, hk,
    decide_true, Bool.true_and, BitVec.getElem_not, BitVec.getLsbD_eq_getElem]

theorem Hw.ternlog_not (a : Vec w n) : Hw.ternlog 1 a a a = fun i => ~~~ (a i) := by
  funext i
  apply BitVec.eq_of_getLsbD_eq
  intro k hk
  unfold Hw.ternlog
  rw [ofBits_getLsbD, BitVec.getLsbD_not]
  cases (a i).getLsbD k
  · simp [hk, Hw.ternBit]
  · simp only [hk, Hw.ternBit, decide_true, if_true]; decide

theorem not_via_bytes (hw : IsW w) (a : Vec w n) :
    Vec.recast w n (fun i => ~~~ (a.recast 8 (w * n / 8) i)) = fun i => ~~~ (a i) :=
  recast_bitwise1 (f := (~~~ ·)) (g := (~~~ ·)) (β := (! ·))
    (by intro x k hk; simp [hk]) (by intro x k hk; simp [hk])
    (isW_pos hw) (by omega) (isW_dvd hw) a

theorem Hw.nor_self (a : Vec w n) : Hw.nor a a = fun i => ~~~ (a i) :=
  funext fun i => by simp [Hw.nor]

theorem i_bit_not8_eq {c : Cfg} (h : c.Ok) (a : Vec 8 n) :
    i_bit_not8 c a = some (fun i => ~~~ (a i)) := by
  unfold i_bit_not8
  split_ifs
  · rw [null_bit_not_eq isW8]
  · rw [i_bit_xor_eq h (k := .int) isW8 rfl]
    congr 1; funext i
    exact BitVec.xor_allOnes (x := a i)
  · rfl
  · rw [Hw.nor_self]
  · rw [Hw.nor_self]
  · cfg_absurd h

theorem viaBytes1_not {c : Cfg} (h : c.Ok) (hw : IsW w) (a : Vec w n) :
    viaBytes1 (i_bit_not8 c) a = some (fun i => ~~~ (a i)) := by
  unfold viaBytes1
  rw [i_bit_not8_eq h, Option.map_some, not_via_bytes hw]

theorem i_bit_not_eq {c : Cfg} (h : c.Ok) {k : Kind} (hw : k.okW w) {r : Reg}
    (hr : c.hasVec k w r = true) (a : Vec w n) :
    i_bit_not c k r a = some (fun i => ~~~ (a i)) := by
  have hw' := hw.isW
  have hx : ∀ x : BitVec 8, x ^^^ 255#8 = ~~~ x := fun x => BitVec.xor_allOnes (x := x)
  have hx32 : ∀ x : BitVec 32, x ^^^ 4294967295#32 = ~~~ x := fun x => BitVec.xor_allOnes (x := x)
  have hx64 : ∀ x : BitVec 64, x ^^^ 18446744073709551615#64 = ~~~ x :=
    fun x => BitVec.xor_allOnes (x := x)
  cases k <;> cases r
  · simp only [i_bit_not]
    split_ifs
    · rw [null_bit_not_eq hw']
    · exact viaBytes1_not h hw' a
  · simp only [i_bit_not]
    simp only [Cfg.hasVec, Cfg.hasInt] at hr
    rw [if_pos hr]
    unfold viaBytes1
    dsimp only
    rw [i_bit_xor_eq (r := .r256) h (k := .int) isW8 (by simpa [Cfg.hasVec, Cfg.hasInt] using hr), Option.map_some]
    simp only [Vec.splat_apply, hx, not_via_bytes hw']
  · simp only [i_bit_not]
    simp only [Cfg.hasVec] at hr
    rw [if_pos hr, Hw.ternlog_not]
  · simp only [i_bit_not]
    rcases hw with rfl | rfl
    · rw [if_pos rfl]
      split_ifs
      · rw [i_bit_xor_eq h (k := .flt) (Or.inl rfl) rfl]; simp only [Vec.splat_apply, hx32]
      · rfl
      · rw [Hw.nor_self]
      · exact viaBytes1_not h hw' a
      · cfg_absurd h
    · rw [if_neg (by decide)]
      split_ifs
      · rw [i_bit_xor_eq h (k := .flt) (Or.inr rfl) rfl]; simp only [Vec.splat_apply, hx64]
      · rfl
      · rw [Hw.nor_self]
      · rw [null_bit_not_eq hw']
      · exact viaBytes1_not h hw' a
      · cfg_absurd h
  · simp only [i_bit_not]
    have hr' : c.avx = true := hr
    rw [if_pos hr', i_bit_xor_eq h hw hr]
    rcases hw with rfl | rfl
    · simp only [Vec.splat_apply, if_true, hx32]
    · simp only [Vec.splat_apply, show ¬ (64 = 32) by decide, if_false, hx64]
  · simp only [i_bit_not]
    have hr' : c.avx512f = true := hr
    rw [if_pos hr', Hw.ternlog_not]

end Simdpp
