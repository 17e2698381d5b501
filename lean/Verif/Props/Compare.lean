import Verif.Props.CompareLemmas
import Verif.Props.Arith
import Verif.Spec.Rel
import Verif.Model.Prog

/-!
# C13: comparisons
-/

namespace Simdpp
open Spec

variable {w n : Nat}

/-- Builds on which the comparison exists and is implemented as documented:
* XOP together with AVX512VL (no such CPU) does not compile;
* ordered 64-bit compares need AVX2 or XOP on x86 and AArch64 on ARM (documented, cmp_lt.h etc.);
* 64-bit `cmp_neq` needs SSE4.1 or XOP on x86: without them the code is wrong
  (`C13_neq_sse2_wrong`). -/
def cmpSupported (c : Cfg) (R : Rel) (w : Nat) (r : Reg) : Prop :=
  ¬ (c.xop = true ∧ c.avx512vl = true) ∧
  (w = 64 → r = .r128 → match R with
    | .eq => True
    | .ne => c.sse2 = true → c.sse41 = true ∨ c.xop = true
    | _ => (c.sse2 = true → c.avx2 = true ∨ c.xop = true) ∧ c.neon32 = false)

theorem cmpInt_eq {c : Cfg} (h : c.Ok) (hw : IsW w) {r : Reg} (hr : c.hasInt w r = true) (R : Rel) (s : Bool)
    (hs : cmpSupported c R w r) (hn : w = 64 → n % 2 = 0) (a b : Vec w n) :
    cmpInt c R s r a b = some (Mask.of c .int r (fun i => R.onInt (val s (a i)) (val s (b i)))) := by
  obtain ⟨hx, h64⟩ := hs
  have h256 : ∀ {r : Reg}, c.hasInt w r = true → r ≠ .r128 → c.neon32 = false := by
    intro r hr hne
    by_contra hc
    cases r <;> first | exact hne rfl | cfg_absurd h
  have e0 : ∀ i, decide (a i = b i) = Rel.onInt .eq (val s (a i)) (val s (b i)) := fun i => by
    simp only [Rel.onInt, val_inj]
  cases R <;> simp only [cmpInt]
  · rw [i_cmp_eq_eq h hw hr (fun _ _ => hx) hn]; simp only [e0]
  · rw [i_cmp_neq_eq h hw hr (fun _ _ => hx) hn h64]
    congr 2; funext i; simp only [Rel.onInt, ne_eq, val_inj]
  all_goals
    have hi : w = 64 → r = .r128 → c.sse2 = true → c.avx2 = true ∨ c.xop = true := fun e1 e2 => (h64 e1 e2).1
    have h32 : w = 64 → c.neon32 = false := fun e1 => by
      by_cases e2 : r = .r128
      · exact (h64 e1 e2).2
      · exact h256 hr e2
  · rw [i_cmp_lt_eq h hw hr s hi h32 (fun _ _ => hx)]; rfl
  · rw [i_cmp_le_eq h hw hr s hi h32]; rfl
  · rw [i_cmp_gt_eq h hw hr s hi h32]; rfl
  · rw [i_cmp_ge_eq h hw hr s hi h32]; rfl

/-- C13, integers: the mask lane is all ones exactly when the relation holds between the two
lanes as integers of the operand type, all zeros otherwise. (Partial: see `cmpSupported`; the
excluded 64-bit `cmp_neq` case is refuted by `C13_neq_sse2_wrong`.) -/
theorem C13_cmp_int_partial {c : Cfg} (h : c.Ok) (hw : IsW w) {r : Reg} (hr : c.hasInt w r = true)
    (R : Rel) (s : Bool) (hs : cmpSupported c R w r) (hn : w = 64 → n % 2 = 0) (a b : Vec w n) :
    ∃ m, cmpInt c R s r a b = some m ∧
      ∀ i, (R.onInt (val s (a i)) (val s (b i)) = true → m.unmask i = BitVec.allOnes w) ∧
           (R.onInt (val s (a i)) (val s (b i)) = false → m.unmask i = 0) := by
  refine ⟨_, cmpInt_eq h hw hr R s hs hn a b, fun i => ?_⟩
  rw [Mask.unmask_of]
  exact ⟨fun e => by simp [maskLane, e], fun e => by simp [maskLane, e]⟩

/-- C13, integers, on vectors of any length. -/
theorem C13_cmp_int_long_partial {c : Cfg} (h : c.Ok) (hw : IsW w) {r : Reg} (hr : c.hasInt w r = true)
    (R : Rel) (s : Bool) (hs : cmpSupported c R w r) {k L : Nat} (hn : w = 64 → L % 2 = 0)
    (a b : Fin k → Vec w L) (d : Fin k → Mask w L) :
    ∃ m, Arr.apply2 (cmpInt c R s r) a b 0 d = some m ∧
      ∀ j, Arr.flat (fun i => (m i).unmask) j =
        maskLane w (R.onInt (val s (Arr.flat a j)) (val s (Arr.flat b j))) := by
  refine ⟨_, Arr.apply2_spec _ a b (fun i => Mask.of c .int r (fun l => R.onInt (val s (a i l)) (val s (b i l))))
    (fun i => cmpInt_eq h hw hr R s hs hn (a i) (b i)) 0 d, fun j => ?_⟩
  simp only [Arr.flat, Nat.zero_le, if_true, Mask.unmask_of]

theorem cmpFlt_eq {c : Cfg} (h : c.Ok) (hw : w = 32 ∨ w = 64) {r : Reg} (hr : c.hasVec .flt w r = true) (R : Rel)
    (a b : Vec w n) :
    cmpFlt c R r a b = some (Mask.of c .flt r (fun i => R.onFlt (a i) (b i))) := by
  have e : ∀ (x y : BitVec w), (!Flt.isNaN x && !Flt.isNaN y) = !(Flt.isNaN x || Flt.isNaN y) := fun x y => by
    cases Flt.isNaN x <;> cases Flt.isNaN y <;> rfl
  have e2 : ∀ (x y : BitVec w), (!Flt.isNaN x && !Flt.isNaN y) = !(Flt.isNaN y || Flt.isNaN x) := fun x y => by
    cases Flt.isNaN x <;> cases Flt.isNaN y <;> rfl
  cases R <;> simp only [cmpFlt]
  · refine f_cmp_eq' h hw hr ?_ ?_ ?_ <;> funext i <;>
      simp only [Hw.feqP, Flt.feq, Flt.ordered, e, Rel.onFlt, Rel.onInt] <;>
      cases (Flt.isNaN (a i) || Flt.isNaN (b i)) <;> simp
  · rw [f_cmp_neq_eq h hw hr]
    congr 2; funext i
    simp only [Flt.fne, Flt.feq, Flt.ordered, e, Rel.onFlt, Rel.onInt]
    cases (Flt.isNaN (a i) || Flt.isNaN (b i)) <;> simp
  · refine f_cmp_eq' h hw hr ?_ ?_ ?_ <;> funext i <;>
      simp only [Hw.fltP, Flt.flt, Hw.fgtP, Flt.fgt, Flt.ordered, e, Rel.onFlt, Rel.onInt] <;>
      cases (Flt.isNaN (a i) || Flt.isNaN (b i)) <;> simp
  · refine f_cmp_eq' h hw hr ?_ ?_ ?_ <;> funext i <;>
      simp only [Hw.fleP, Flt.fle, Hw.fgeP, Flt.fge, Flt.ordered, e, Rel.onFlt, Rel.onInt] <;>
      cases (Flt.isNaN (a i) || Flt.isNaN (b i)) <;> simp
  · refine f_cmp_eq' h hw hr ?_ ?_ ?_ <;> funext i <;>
      simp only [Hw.fltP, Flt.flt, Hw.fgtP, Flt.fgt, Flt.ordered, e2, Rel.onFlt, Rel.onInt] <;>
      cases (Flt.isNaN (a i) || Flt.isNaN (b i)) <;> simp
  · refine f_cmp_eq' h hw hr ?_ ?_ ?_ <;> funext i <;>
      simp only [Hw.fleP, Flt.fle, Hw.fgeP, Flt.fge, Flt.ordered, e2, Rel.onFlt, Rel.onInt] <;>
      cases (Flt.isNaN (a i) || Flt.isNaN (b i)) <;> simp

/-- C13, floating point, every configuration: IEEE comparison per lane. -/
theorem C13_cmp_flt {c : Cfg} (h : c.Ok) (hw : w = 32 ∨ w = 64) {r : Reg} (hr : c.hasVec .flt w r = true)
    (R : Rel) (a b : Vec w n) :
    ∃ m, cmpFlt c R r a b = some m ∧ ∀ i, m.unmask i = maskLane w (R.onFlt (a i) (b i)) :=
  ⟨_, cmpFlt_eq h hw hr R a b, fun i => by rw [Mask.unmask_of]⟩

/-- C13, floating point, long vectors. -/
theorem C13_cmp_flt_long {c : Cfg} (h : c.Ok) (hw : w = 32 ∨ w = 64) {r : Reg} (hr : c.hasVec .flt w r = true)
    (R : Rel) {k L : Nat} (a b : Fin k → Vec w L) (d : Fin k → Mask w L) :
    ∃ m, Arr.apply2 (cmpFlt c R r) a b 0 d = some m ∧
      ∀ j, Arr.flat (fun i => (m i).unmask) j = maskLane w (R.onFlt (Arr.flat a j) (Arr.flat b j)) := by
  refine ⟨_, Arr.apply2_spec _ a b (fun i => Mask.of c .flt r (fun l => R.onFlt (a i l) (b i l)))
    (fun i => cmpFlt_eq h hw hr R (a i) (b i)) 0 d, fun j => ?_⟩
  simp only [Arr.flat, Nat.zero_le, if_true, Mask.unmask_of]

/-! ### the relations are consistent with each other -/

/-- The complementary relation. -/
def Spec.Rel.compl : Rel → Rel
  | .eq => .ne | .ne => .eq | .lt => .ge | .ge => .lt | .gt => .le | .le => .gt
/-- The relation with its operands exchanged. -/
def Spec.Rel.swap : Rel → Rel
  | .eq => .eq | .ne => .ne | .lt => .gt | .gt => .lt | .le => .ge | .ge => .le

/-- C13: on integers, a comparison and the complementary one give complementary masks, and
exchanging the operands exchanges `<` with `>` (stated on the results the library returns). -/
theorem C13_int_consistent_partial {c : Cfg} (h : c.Ok) (hw : IsW w) {r : Reg} (hr : c.hasInt w r = true)
    (R : Rel) (s : Bool) (hs : cmpSupported c R w r) (hs' : cmpSupported c R.compl w r)
    (hs2 : cmpSupported c R.swap w r) (hn : w = 64 → n % 2 = 0) (a b : Vec w n) :
    ∃ m m' m2, cmpInt c R s r a b = some m ∧ cmpInt c R.compl s r a b = some m' ∧
      cmpInt c R.swap s r b a = some m2 ∧
      (∀ i, m'.unmask i = ~~~ (m.unmask i)) ∧ (∀ i, m2.unmask i = m.unmask i) := by
  refine ⟨_, _, _, cmpInt_eq h hw hr R s hs hn a b, cmpInt_eq h hw hr _ s hs' hn a b,
    cmpInt_eq h hw hr _ s hs2 hn b a, fun i => ?_, fun i => ?_⟩
  · rw [Mask.unmask_of, Mask.unmask_of]
    have : R.compl.onInt (val s (a i)) (val s (b i)) = !R.onInt (val s (a i)) (val s (b i)) := by
      cases R <;> simp only [Rel.compl, Rel.onInt, ← decide_not] <;> congr 1 <;> apply propext <;> omega
    show maskLane w _ = ~~~ maskLane w _
    rw [this]; cases R.onInt (val s (a i)) (val s (b i)) <;> simp [maskLane]
  · rw [Mask.unmask_of, Mask.unmask_of]
    have : R.swap.onInt (val s (b i)) (val s (a i)) = R.onInt (val s (a i)) (val s (b i)) := by
      cases R <;> simp only [Rel.swap, Rel.onInt] <;> congr 1 <;> apply propext <;> omega
    show maskLane w _ = maskLane w _
    rw [this]

/-! ### where the code is wrong -/

/-- C13, negative: on an SSE2 build without SSE4.1 (and XOP), `cmp_neq` on 64-bit lanes answers
"different" for equal lanes, at every lane of every pair of equal vectors.
/repo/simdpp/detail/insn/cmp_neq.h:193-200. -/
theorem C13_neq_sse2_wrong {c : Cfg} (h : c.Ok) (hs : c.sse2 = true) (h41 : ¬ c.sse41 = true)
    (hx : ¬ c.xop = true) (hn : n % 2 = 0) (a : Vec 64 n) :
    ∃ m, i_cmp_neq c .r128 a a = some m ∧ ∀ i, m.unmask i = BitVec.allOnes 64 := by
  refine ⟨_, i_cmp_neq_sse2_eq h hs h41 hx hn a a, fun i => ?_⟩
  rw [Mask.unmask_of]; simp [maskLane]

/-- The hypotheses of `C13_neq_sse2_wrong` describe the plain SSE2 build. -/
example : ∃ m, i_cmp_neq Cfg.sse2Only .r128 (fun _ : Fin 2 => 7#64) (fun _ => 7#64) = some m ∧
    ∀ i, m.unmask i = BitVec.allOnes 64 :=
  C13_neq_sse2_wrong Cfg.sse2Only_ok rfl (by decide) (by decide) (by decide) _

/-- C13, negative: with AVX-512, comparing two masks of more than 16 lanes for equality loses the
lanes from 16 on: comparing a mask with itself answers "different" there.
/repo/simdpp/detail/insn/cmp_eq.h:69-75, 83-86. -/
theorem C13_mask_eq_wide_wrong (p : Fin n → Bool) :
    ∃ m, i_cmp_eq_mm (.bits p : Mask w n) (.bits p) = some m ∧
      ∀ i, m.unmask i = maskLane w (decide (i.val < 16)) := by
  refine ⟨_, rfl, fun i => ?_⟩
  simp [Hw.kxnor16, Mask.unmask, maskLane]

/-- C13 for masks of at most 16 lanes on AVX-512: exact. -/
theorem C13_mask_eq_partial {c : Cfg} {k : Kind} {r : Reg} (hb : c.maskBits k w r = true) (hn : n ≤ 16)
    (p q : Fin n → Bool) :
    i_cmp_eq_mm (Mask.of c k r p : Mask w n) (Mask.of c k r q) = some (Mask.of c k r fun i => p i == q i) ∧
    i_cmp_neq_mm (Mask.of c k r p : Mask w n) (Mask.of c k r q) = some (Mask.of c k r fun i => p i ^^ q i) := by
  have e : ∀ i : Fin n, decide (i.val < 16) = true := fun i => by simp; omega
  simp only [i_cmp_eq_mm, i_cmp_neq_mm, Mask.of, hb, Mask.asBits, if_true, Option.bind_eq_bind, Option.bind_some]
  constructor <;> congr 2 <;> funext i <;> simp only [Hw.kxnor16, Hw.kxor16, e, Bool.true_and]

/-! ### examples -/

/-- 200 < 100 as signed bytes (-56 < 100) on a build that has only signed compares. -/
example : ∃ m, cmpInt Cfg.sse2Only .lt true .r128 (fun _ : Fin 16 => 200#8) (fun _ => 100#8) = some m ∧
    ∀ i, m.unmask i = BitVec.allOnes 8 := by
  obtain ⟨m, h1, h2⟩ := C13_cmp_int_partial Cfg.sse2Only_ok (Or.inl rfl) (r := .r128) rfl .lt true
    ⟨by decide, by simp⟩ (by simp) (fun _ : Fin 16 => 200#8) (fun _ => 100#8)
  exact ⟨m, h1, fun i => (h2 i).1 (by decide)⟩

/-- … and not as unsigned bytes (emulated with a bias). -/
example : ∃ m, cmpInt Cfg.sse2Only .lt false .r128 (fun _ : Fin 16 => 200#8) (fun _ => 100#8) = some m ∧
    ∀ i, m.unmask i = 0 := by
  obtain ⟨m, h1, h2⟩ := C13_cmp_int_partial Cfg.sse2Only_ok (Or.inl rfl) (r := .r128) rfl .lt false
    ⟨by decide, by simp⟩ (by simp) (fun _ : Fin 16 => 200#8) (fun _ => 100#8)
  exact ⟨m, h1, fun i => (h2 i).2 (by decide)⟩

/-- 64-bit equality assembled from 32-bit halves on SSE2. -/
example : ∃ m, cmpInt Cfg.sse2Only .eq false .r128 (fun _ : Fin 2 => 0x100000001#64) (fun _ => 1#64) = some m ∧
    ∀ i, m.unmask i = 0 := by
  obtain ⟨m, h1, h2⟩ := C13_cmp_int_partial Cfg.sse2Only_ok (Or.inr (Or.inr (Or.inr rfl))) (r := .r128) rfl .eq false
    ⟨by decide, fun _ _ => trivial⟩ (by simp) (fun _ : Fin 2 => 0x100000001#64) (fun _ => 1#64)
  exact ⟨m, h1, fun i => (h2 i).2 (by decide)⟩

/-- NaN compares unequal to itself; -0 equals +0. -/
example : Rel.onFlt .ne 0x7fc00000#32 0x7fc00000#32 = true ∧ Rel.onFlt .eq 0x80000000#32 0#32 = true ∧
    Rel.onFlt .lt 0xbf800000#32 0#32 = true ∧ Rel.onFlt .le 0x7fc00000#32 0#32 = false := by decide

end Simdpp
