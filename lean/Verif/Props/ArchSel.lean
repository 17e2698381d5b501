import Verif.Model.ArchSel
import Verif.Props.Detect

/-! # C39: compile-time instruction set selection -/

namespace Simdpp.ArchSel

open Dispatch Dispatch.Arch

/-! ### Specification -/

/-- Direct prerequisites of each instruction set. -/
def requires : Insn → List Insn
  | .sse2 => [] | .sse3 => [.sse2] | .ssse3 => [.sse3] | .sse41 => [.ssse3] | .popcnt => [.ssse3]
  | .avx => [.sse41] | .avx2 => [.avx] | .fma3 => [.sse3] | .fma4 => [.sse3] | .xop => [.sse3]
  | .avx512f => [.avx2] | .avx512bw => [.avx512f] | .avx512dq => [.avx512f] | .avx512vl => [.avx512f]
  | .neon => [] | .neonFltSp => [.neon] | .altivec => [] | .vsx206 => [.altivec] | .vsx207 => [.vsx206] | .msa => []

/-- Closed under prerequisites. -/
def ClosedSet (u : Set) : Prop := ∀ i, u i = true → ∀ j ∈ requires i, u j = true

/-! ### Helpers -/

theorem close_sse2 (u : Set) : close u .sse2 = (u .sse2 || close u .sse3) := by simp [close, imp]
theorem close_sse3 (u : Set) : close u .sse3 = (u .sse3 || u .fma3 || u .fma4 || u .xop || close u .ssse3) := by simp [close, imp]
theorem close_ssse3 (u : Set) : close u .ssse3 = (u .ssse3 || close u .sse41 || u .popcnt) := by simp [close, imp]
theorem close_sse41 (u : Set) : close u .sse41 = (u .sse41 || close u .avx) := by simp [close, imp]
theorem close_avx (u : Set) : close u .avx = (u .avx || close u .avx2) := by simp [close, imp]
theorem close_avx2 (u : Set) : close u .avx2 = (u .avx2 || close u .avx512f) := by simp [close, imp]
theorem close_avx512f (u : Set) : close u .avx512f = (u .avx512f || u .avx512vl || u .avx512dq || u .avx512bw) := by simp [close, imp]
theorem close_neon (u : Set) : close u .neon = (u .neon || u .neonFltSp) := by simp [close, imp]
theorem close_altivec (u : Set) : close u .altivec = (u .altivec || close u .vsx206) := by simp [close, imp]
theorem close_vsx206 (u : Set) : close u .vsx206 = (u .vsx206 || u .vsx207) := by simp [close, imp]
theorem close_leaf (u : Set) (i : Insn) (h : i ∈ [Insn.popcnt, .fma3, .fma4, .xop, .avx512bw, .avx512dq, .avx512vl, .neonFltSp, .vsx207, .msa]) :
    close u i = u i := by
  revert h; cases i <;> simp [close, imp]

theorem close_closed (u : Set) : ClosedSet (close u) := by
  intro i hi j hj
  have hl := close_leaf u
  cases i <;> simp only [requires, List.mem_cons, List.not_mem_nil, or_false] at hj <;>
    first
    | exact hj.elim
    | (subst hj
       first
       | (rw [close_sse2, hi]; simp)
       | (rw [close_sse3]; first | (rw [hi]; simp; done) | (rw [hl _ (by decide)] at hi; rw [hi]; simp; done))
       | (rw [close_ssse3]; first | (rw [hi]; simp; done) | (rw [hl _ (by decide)] at hi; rw [hi]; simp; done))
       | (rw [close_sse41, hi]; simp)
       | (rw [close_avx, hi]; simp)
       | (rw [close_avx2, hi]; simp)
       | (rw [hl _ (by decide)] at hi; rw [close_avx512f, hi]; simp)
       | (rw [hl _ (by decide)] at hi; rw [close_neon, hi]; simp)
       | (rw [close_altivec, hi]; simp)
       | (rw [hl _ (by decide)] at hi; rw [close_vsx206, hi]; simp))

theorem imp_le {u v : Set} (huv : ∀ i, u i = true → v i = true) {a b : Insn} (h : v a = true → v b = true) :
    ∀ i, imp a b u i = true → v i = true := by
  intro i hi
  unfold imp at hi
  split_ifs at hi with hb
  · subst hb
    rcases Bool.or_eq_true_iff.1 hi with h1 | h1
    · exact huv _ h1
    · exact h (huv _ h1)
  · exact huv _ hi

theorem le_imp {u v : Set} (huv : ∀ i, u i = true → v i = true) (a b : Insn) : ∀ i, u i = true → imp a b v i = true := by
  intro i hi
  unfold imp
  split_ifs with hb
  · subst hb; rw [huv _ hi]; rfl
  · exact huv _ hi

/-! ### C39 -/

/-- C39: whatever macros the user defines, the enabled set contains what was asked for, is closed
under prerequisites, and is the least such set. -/
theorem C39_least_closed (requested u : Set) (h : preprocess requested = some u) :
    (∀ i, requested i = true → u i = true) ∧ ClosedSet u ∧
    ∀ v : Set, (∀ i, requested i = true → v i = true) → ClosedSet v → ∀ i, u i = true → v i = true := by
  unfold preprocess at h
  dsimp only at h
  split_ifs at h
  have h' := Option.some.inj h
  subst h'
  refine ⟨?_, close_closed _, ?_⟩
  · unfold close
    iterate 16 (apply le_imp)
    exact fun i hi => hi
  · intro v hv hc
    have r : ∀ a b, b ∈ requires a → v a = true → v b = true := fun a b hb ha => hc a ha b hb
    unfold close
    iterate 16 (refine imp_le ?_ (r _ _ (by decide)))
    exact hv

/-- C39: the only rejected requests are those with both FMA3 and FMA4. -/
theorem C39_rejected_iff (requested : Set) :
    preprocess requested = none ↔ requested .fma3 = true ∧ requested .fma4 = true := by
  unfold preprocess
  dsimp only
  rw [close_leaf _ _ (by decide), close_leaf _ _ (by decide)]
  split_ifs with h
  · simpa using h
  · simpa using h

/-- C39: the portable backend is used exactly when no base instruction set is enabled. -/
theorem C39_null_iff (requested u : Set) (h : preprocess requested = some u) :
    useNull u = true ↔ ∀ i, requested i = false := by
  obtain ⟨h1, h2, h3⟩ := C39_least_closed requested u h
  constructor
  · intro hn i
    have hz : u .sse2 = false ∧ u .neon = false ∧ u .neonFltSp = false ∧ u .altivec = false ∧ u .msa = false := by
      simpa [useNull, and_assoc] using hn
    by_contra hi
    have hi := h1 i (by simpa using hi)
    have step : ∀ a b, u b = false → b ∈ requires a → u a = false := fun a b hb hab => by
      by_contra hc; rw [h2 a (by simpa using hc) b hab] at hb; cases hb
    have k3 := step .sse3 .sse2 hz.1 (by decide)
    have ks := step .ssse3 .sse3 k3 (by decide)
    have k41 := step .sse41 .ssse3 ks (by decide)
    have kp := step .popcnt .ssse3 ks (by decide)
    have ka := step .avx .sse41 k41 (by decide)
    have ka2 := step .avx2 .avx ka (by decide)
    have kf3 := step .fma3 .sse3 k3 (by decide)
    have kf4 := step .fma4 .sse3 k3 (by decide)
    have kx := step .xop .sse3 k3 (by decide)
    have kf := step .avx512f .avx2 ka2 (by decide)
    have kb := step .avx512bw .avx512f kf (by decide)
    have kd := step .avx512dq .avx512f kf (by decide)
    have kv := step .avx512vl .avx512f kf (by decide)
    have k6 := step .vsx206 .altivec hz.2.2.2.1 (by decide)
    have k7 := step .vsx207 .vsx206 k6 (by decide)
    cases i <;> simp_all
  · intro hr
    have : ∀ i, u i = false := fun i => by
      by_contra hc
      have := h3 (fun _ => false) (fun i hi => by rw [hr i] at hi; exact hi) (fun i hi => nomatch hi) i (by simpa using hc)
      cases this
    simp [useNull, this]

/-- C39: the configuration that the rest of the library sees satisfies every condition the other
properties assume of a configuration, provided the compiler targets one processor family. -/
theorem C39_cfg_ok (requested u : Set) (bits64 : Bool) (h : preprocess requested = some u)
    (hx : (u .sse2 = true → u .neon = false ∧ u .altivec = false ∧ u .msa = false) ∧
      (u .neon = true → u .altivec = false ∧ u .msa = false) ∧ (u .altivec = true → u .msa = false)) :
    (setup u bits64).Ok := by
  obtain ⟨h1, h2, h3⟩ := C39_least_closed requested u h
  refine ⟨fun h => h2 _ h _ (by decide), fun h => h2 _ h _ (by decide), fun h => h2 _ h _ (by decide), fun h => h2 _ h _ (by decide),
    fun h => h2 _ h _ (by decide), fun h => h2 _ h _ (by decide), fun h => h2 _ h _ (by decide), fun h => h2 _ h _ (by decide),
    fun h => h2 _ h _ (by decide), fun h => h2 _ h _ (by decide), fun h => h2 _ h _ (by decide), fun h => h2 _ h _ (by decide),
    fun h => h2 _ h _ (by decide), ?_, fun h => h2 _ h _ (by decide), fun h => h2 _ h _ (by decide), ?_, ?_, hx⟩
  · simp only [setup]
    split_ifs with hh
    · intro _; simp at hh; exact hh.1
    · exact fun h => h2 _ h _ (by decide)
  · simp only [setup, useNull]
    have := h2 .neonFltSp
    cases hn : u .neonFltSp
    · simp
    · have := this hn .neon (by decide)
      simp [this]
  · intro h1 h2
    simp only [setup] at *
    simp [h1, h2]


theorem orIfUse_eq (b : Bool) (a r : Arch) : orIfUse b a r = orIf b a r := rfl

/-- Whether a configuration enables an instruction set. -/
def enabled (c : Cfg) : Insn → Bool
  | .sse2 => c.sse2 | .sse3 => c.sse3 | .ssse3 => c.ssse3 | .sse41 => c.sse41 | .popcnt => c.popcnt | .avx => c.avx
  | .avx2 => c.avx2 | .fma3 => c.fma3 | .fma4 => c.fma4 | .xop => c.xop | .avx512f => c.avx512f | .avx512bw => c.avx512bw
  | .avx512dq => c.avx512dq | .avx512vl => c.avx512vl | .neon => c.neon | .neonFltSp => c.neonFltSp
  | .altivec => c.altivec | .vsx206 => c.vsx206 | .vsx207 => c.vsx207 | .msa => c.msa

/-- The bit of `Arch` for each instruction set (bits are reused between processor families). -/
def archBit : Insn → Nat
  | .sse2 => 1 | .sse3 => 2 | .ssse3 => 3 | .sse41 => 4 | .popcnt => 5 | .avx => 6
  | .avx2 => 7 | .fma3 => 8 | .fma4 => 9 | .xop => 10 | .avx512f => 11 | .avx512bw => 12
  | .avx512dq => 13 | .avx512vl => 14 | .neon => 0 | .neonFltSp => 1 | .altivec => 0 | .vsx206 => 1 | .vsx207 => 2 | .msa => 0

/-- C39: `this_compile_arch()` has exactly the bits of the enabled instruction sets. -/
theorem C39_this_compile_arch (c : Cfg) (k : Nat) :
    (this_compile_arch c).getLsbD k = true ↔ ∃ i, archBit i = k ∧ enabled c i = true := by
  have e : (this_compile_arch c).getLsbD k = true ↔
      (c.sse2 = true ∧ k = 1) ∨ (c.sse3 = true ∧ k = 2) ∨ (c.ssse3 = true ∧ k = 3) ∨ (c.sse41 = true ∧ k = 4) ∨
      (c.popcnt = true ∧ k = 5) ∨ (c.avx = true ∧ k = 6) ∨ (c.avx2 = true ∧ k = 7) ∨ (c.fma3 = true ∧ k = 8) ∨
      (c.fma4 = true ∧ k = 9) ∨ (c.xop = true ∧ k = 10) ∨ (c.avx512f = true ∧ k = 11) ∨ (c.avx512bw = true ∧ k = 12) ∨
      (c.avx512dq = true ∧ k = 13) ∨ (c.avx512vl = true ∧ k = 14) ∨ (c.neon = true ∧ k = 0) ∨ (c.neonFltSp = true ∧ k = 1) ∨
      (c.altivec = true ∧ k = 0) ∨ (c.vsx206 = true ∧ k = 1) ∨ (c.vsx207 = true ∧ k = 2) ∨ (c.msa = true ∧ k = 0) := by
    simp only [this_compile_arch, orIfUse_eq, orIf_bit, X86_SSE2, X86_SSE3, X86_SSSE3, X86_SSE4_1, X86_POPCNT_INSN, X86_FMA3, X86_AVX,
      X86_AVX2, X86_FMA4, X86_XOP, X86_AVX512F, X86_AVX512BW, X86_AVX512DQ, X86_AVX512VL, ARM_NEON, ARM_NEON_FLT_SP, POWER_ALTIVEC,
      POWER_VSX_206, POWER_VSX_207, MIPS_MSA, bit_const _ (show 0 < 32 by decide),
      bit_const _ (show 1 < 32 by decide), bit_const _ (show 2 < 32 by decide), bit_const _ (show 3 < 32 by decide),
      bit_const _ (show 4 < 32 by decide), bit_const _ (show 5 < 32 by decide), bit_const _ (show 6 < 32 by decide),
      bit_const _ (show 7 < 32 by decide), bit_const _ (show 8 < 32 by decide), bit_const _ (show 9 < 32 by decide),
      bit_const _ (show 10 < 32 by decide), bit_const _ (show 11 < 32 by decide), bit_const _ (show 12 < 32 by decide),
      bit_const _ (show 13 < 32 by decide), bit_const _ (show 14 < 32 by decide),
      Bool.or_eq_true, Bool.and_eq_true, decide_eq_true_eq, none_bit, false_or, or_assoc]
  rw [e]
  constructor
  · intro h
    rcases h with ⟨h, rfl⟩ | ⟨h, rfl⟩ | ⟨h, rfl⟩ | ⟨h, rfl⟩ | ⟨h, rfl⟩ | ⟨h, rfl⟩ | ⟨h, rfl⟩ | ⟨h, rfl⟩ | ⟨h, rfl⟩ | ⟨h, rfl⟩ |
      ⟨h, rfl⟩ | ⟨h, rfl⟩ | ⟨h, rfl⟩ | ⟨h, rfl⟩ | ⟨h, rfl⟩ | ⟨h, rfl⟩ | ⟨h, rfl⟩ | ⟨h, rfl⟩ | ⟨h, rfl⟩ | ⟨h, rfl⟩
    exacts [⟨.sse2, rfl, h⟩, ⟨.sse3, rfl, h⟩, ⟨.ssse3, rfl, h⟩, ⟨.sse41, rfl, h⟩, ⟨.popcnt, rfl, h⟩, ⟨.avx, rfl, h⟩,
      ⟨.avx2, rfl, h⟩, ⟨.fma3, rfl, h⟩, ⟨.fma4, rfl, h⟩, ⟨.xop, rfl, h⟩, ⟨.avx512f, rfl, h⟩, ⟨.avx512bw, rfl, h⟩,
      ⟨.avx512dq, rfl, h⟩, ⟨.avx512vl, rfl, h⟩, ⟨.neon, rfl, h⟩, ⟨.neonFltSp, rfl, h⟩, ⟨.altivec, rfl, h⟩,
      ⟨.vsx206, rfl, h⟩, ⟨.vsx207, rfl, h⟩, ⟨.msa, rfl, h⟩]
  · rintro ⟨i, rfl, h⟩
    cases i <;> simp only [enabled] at h <;> simp [archBit, h]

/-- C39: on x86 the version registered with the dispatcher for a set of macros can run exactly on the
processors that have every enabled instruction set. -/
theorem C39_version_runnable_iff {F : Type} (requested u : Set) (h : preprocess requested = some u)
    (hx : u .neon = false ∧ u .altivec = false ∧ u .msa = false) (f : F) (arch : Arch) :
    Runnable arch (create_fn_version u f) ↔ ∀ i, u i = true → arch.getLsbD (archBit i) = true := by
  obtain ⟨_, h2, _⟩ := C39_least_closed requested u h
  have hfs : u .neonFltSp = false := by
    by_contra hc; rw [h2 _ (by simpa using hc) .neon (by decide)] at hx; exact absurd hx.1 (by decide)
  have h6 : u .vsx206 = false := by
    by_contra hc; rw [h2 _ (by simpa using hc) .altivec (by decide)] at hx; exact absurd hx.2.1 (by decide)
  have h7 : u .vsx207 = false := by
    by_contra hc; rw [h2 _ (by simpa using hc) .vsx206 (by decide)] at h6; exact absurd h6 (by decide)
  have he : ∀ i, enabled (setup u false) i = u i := by
    intro i; cases i <;> simp [enabled, setup]
  unfold Runnable create_fn_version
  simp only [ne_eq, reduceCtorEq, not_false_eq_true, true_and, C39_this_compile_arch, he]
  constructor
  · exact fun hk i hi => hk _ ⟨i, rfl, hi⟩
  · rintro hk _ ⟨i, rfl, hi⟩; exact hk i hi

/-- C39: distinct enabled sets get distinct namespaces, so code compiled for different instruction sets
never shares a symbol name. -/
theorem C39_namespace_injective (u v : Set) (hu : ClosedSet u) (hv : ClosedSet v) (h : nsIds u = nsIds v) : u = v := by
  have e : ∀ i, nsIds u i = nsIds v i := fun i => congrFun h i
  have rec1 : ∀ (w : Set) (a b : Insn), ClosedSet w → b ∈ requires a → w b = ((w b && !w a) || w a) := by
    intro w a b hw hab
    have := hw a
    cases ha : w a
    · simp
    · simp [this ha b hab]
  have l : ∀ i, nsIds u (some i) = u i → nsIds v (some i) = v i → u i = v i := fun i h1 h2 => by rw [← h1, e, h2]
  have hbw := l .avx512bw rfl rfl
  have hdq := l .avx512dq rfl rfl
  have hvl := l .avx512vl rfl rfl
  have hpc := l .popcnt rfl rfl
  have hf3 := l .fma3 rfl rfl
  have hf4 := l .fma4 rfl rfl
  have hxo := l .xop rfl rfl
  have hfs := l .neonFltSp rfl rfl
  have h27 := l .vsx207 rfl rfl
  have hms := l .msa rfl rfl
  have recf : ∀ w : Set, ClosedSet w → w .avx512f = (nsIds w (some .avx512f) || w .avx512bw || w .avx512dq || w .avx512vl) := by
    intro w hw
    have h1 := hw .avx512bw
    have h2 := hw .avx512dq
    have h3 := hw .avx512vl
    simp only [requires, List.mem_cons, List.not_mem_nil, or_false, forall_eq] at h1 h2 h3
    simp only [nsIds]
    cases hb : w .avx512bw
    · cases hd : w .avx512dq
      · cases hl : w .avx512vl
        · simp
        · simp [h3 hl]
      · simp [h2 hd]
    · simp [h1 hb]
  have hf : u .avx512f = v .avx512f := by rw [recf u hu, recf v hv, e, hbw, hdq, hvl]
  have step : ∀ a b, b ∈ requires a → nsIds u (some b) = (u b && !u a) → nsIds v (some b) = (v b && !v a) → u a = v a → u b = v b := by
    intro a b hab h1 h2 hh
    rw [rec1 u a b hu hab, rec1 v a b hv hab, ← h1, ← h2, e, hh]
  have ha2 := step .avx512f .avx2 (by decide) rfl rfl hf
  have ha := step .avx2 .avx (by decide) rfl rfl ha2
  have h41 := step .avx .sse41 (by decide) rfl rfl ha
  have hs3 := step .sse41 .ssse3 (by decide) rfl rfl h41
  have rec3 : ∀ w : Set, ClosedSet w → w .sse3 = (nsIds w (some .sse3) || w .ssse3 || w .xop || w .fma3 || w .fma4) := by
    intro w hw
    have h1 := hw .ssse3
    have h2 := hw .xop
    have h3 := hw .fma3
    have h4 := hw .fma4
    simp only [requires, List.mem_cons, List.not_mem_nil, or_false, forall_eq] at h1 h2 h3 h4
    simp only [nsIds]
    cases hb : w .ssse3
    · cases hd : w .xop
      · cases hl : w .fma3
        · cases hm : w .fma4
          · simp
          · simp [h4 hm]
        · simp [h3 hl]
      · simp [h2 hd]
    · simp [h1 hb]
  have h3 : u .sse3 = v .sse3 := by rw [rec3 u hu, rec3 v hv, e, hs3, hxo, hf3, hf4]
  have h2 := step .sse3 .sse2 (by decide) rfl rfl h3
  have hne := step .neonFltSp .neon (by decide) rfl rfl hfs
  have h26 := step .vsx207 .vsx206 (by decide) rfl rfl h27
  have hal := step .vsx206 .altivec (by decide) rfl rfl h26
  funext i
  cases i <;> assumption

theorem insnMask_eq (i : Insn) : ∃ n, n < 32 ∧ insnMask i = 1#32 <<< n := by
  cases i
  exacts [⟨1, by decide, by decide⟩, ⟨2, by decide, by decide⟩, ⟨3, by decide, by decide⟩, ⟨4, by decide, by decide⟩,
    ⟨5, by decide, by decide⟩, ⟨6, by decide, by decide⟩, ⟨7, by decide, by decide⟩, ⟨8, by decide, by decide⟩,
    ⟨9, by decide, by decide⟩, ⟨10, by decide, by decide⟩, ⟨11, by decide, by decide⟩, ⟨12, by decide, by decide⟩,
    ⟨13, by decide, by decide⟩, ⟨14, by decide, by decide⟩, ⟨15, by decide, by decide⟩, ⟨16, by decide, by decide⟩,
    ⟨17, by decide, by decide⟩, ⟨18, by decide, by decide⟩, ⟨19, by decide, by decide⟩, ⟨20, by decide, by decide⟩]

theorem mask_or (m : BitVec 32) (j i : Insn) : ((m ||| insnMask j) &&& insnMask i = insnMask i) ↔
    (m &&& insnMask i = insnMask i) ∨ i = j := by
  by_cases hij : i = j
  · subst hij
    simp only [or_true, iff_true]
    apply BitVec.eq_of_getLsbD_eq
    intro k _
    simp only [BitVec.getLsbD_and, BitVec.getLsbD_or]
    cases (insnMask i).getLsbD k <;> simp
  · have hd : insnMask j &&& insnMask i = 0 := by revert hij; cases i <;> cases j <;> decide
    have : (m ||| insnMask j) &&& insnMask i = m &&& insnMask i := by
      apply BitVec.eq_of_getLsbD_eq
      intro k _
      have := congrArg (BitVec.getLsbD · k) hd
      simp only [BitVec.getLsbD_and, BitVec.getLsbD_or] at *
      revert this
      cases (insnMask j).getLsbD k <;> cases (insnMask i).getLsbD k <;> simp
    rw [this]; simp [hij]

/-- C39: in list mode (`SIMDPP_DISPATCH_ARCHn`), a list of at most 14 entries requests exactly its
members, whatever their order and repetition. -/
theorem C39_list_mode (l : List Insn) (hl : l.length ≤ 14) (i : Insn) : ofList l i = true ↔ i ∈ l := by
  unfold ofList listMask
  rw [List.take_of_length_le hl, decide_eq_true_eq]
  have gen : ∀ (l : List Insn) (m : BitVec 32), (l.foldl (fun m i => m ||| insnMask i) m &&& insnMask i = insnMask i) ↔
      (m &&& insnMask i = insnMask i) ∨ i ∈ l := by
    intro l
    induction l with
    | nil => intro m; simp
    | cons j l ih =>
      intro m
      rw [List.foldl_cons, ih, mask_or, List.mem_cons, or_assoc]
  rw [gen]
  have : ¬ ((0 : BitVec 32) &&& insnMask i = insnMask i) := by cases i <;> decide
  exact ⟨fun h => h.resolve_left this, .inr⟩

/-- Negative result for C39: entries after the fourteenth are silently ignored. -/
theorem C39_list_truncated (l l' : List Insn) (hl : l.length = 14) : ofList (l ++ l') = ofList l := by
  unfold ofList listMask
  rw [List.take_append_of_le_length (by omega)]

/-- A concrete request: AVX2 and FMA3 enable SSE2 to AVX2, FMA3 and nothing else. -/
example : ∃ u, preprocess (ofList [.avx2, .fma3]) = some u ∧
    ∀ i, u i = true ↔ i ∈ [Insn.sse2, .sse3, .ssse3, .sse41, .avx, .avx2, .fma3] :=
  ⟨_, rfl, by intro i; cases i <;> decide⟩

end Simdpp.ArchSel
