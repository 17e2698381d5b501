import Verif.Model.Dispatch
import Mathlib.Data.List.Sort
import Mathlib.Tactic.Push

/-! # C36, C37: version selection and the dispatcher function -/

namespace Simdpp.Dispatch

/-! ### Specification -/

/-- Every feature the version needs is among the features `arch`, and there is a function. -/
def Runnable {F : Type} (arch : Arch) (v : FnVersion F) : Prop :=
  v.fun_ptr ≠ none ∧ ∀ k, v.needed_arch.getLsbD k = true → arch.getLsbD k = true

/-- `v` is one of the versions, can run, and no version that can run has a greater requirement. -/
def Best {F : Type} (versions : List (FnVersion F)) (arch : Arch) (v : FnVersion F) : Prop :=
  v ∈ versions ∧ Runnable arch v ∧
    ∀ u ∈ versions, Runnable arch u → u.needed_arch.toNat ≤ v.needed_arch.toNat

/-! ### Helpers -/

theorem test_arch_subset_iff (cur req : Arch) :
    test_arch_subset cur req = true ↔ ∀ k, req.getLsbD k = true → cur.getLsbD k = true := by
  unfold test_arch_subset Arch.NONE_NULL
  constructor
  · intro h k hk
    split_ifs at h with h0
    have := congrArg (fun x => BitVec.getLsbD x k) h0
    have hlt : k < 32 := by by_contra hc; rw [BitVec.getLsbD_of_ge _ _ (by omega)] at hk; exact absurd hk (by decide)
    rw [BitVec.getLsbD_and, BitVec.getLsbD_not, hk] at this
    simpa [hlt] using this
  · intro h
    rw [if_pos]
    apply BitVec.eq_of_getLsbD_eq
    intro k hk
    have := h k
    simp only [BitVec.getLsbD_and, BitVec.getLsbD_not, hk, decide_true, Bool.true_and]
    cases hr : req.getLsbD k
    · simp
    · simp [this hr]

theorem runnable_iff {F : Type} (arch : Arch) (v : FnVersion F) :
    Runnable arch v ↔ v.fun_ptr.isNone = false ∧ test_arch_subset arch v.needed_arch = true := by
  unfold Runnable
  rw [test_arch_subset_iff]
  cases v.fun_ptr <;> simp

theorem select_loop_some {F : Type} {arch : Arch} : {l : List (FnVersion F)} → {v : FnVersion F} →
    l.Pairwise (fun l r => ¬ (l.needed_arch.toNat < r.needed_arch.toNat)) →
    select_loop arch l = some v → Best l arch v
  | [], v, _, h => by simp [select_loop] at h
  | u :: us, v, hp, h => by
    have hp' := List.pairwise_cons.1 hp
    have step : ∀ (hn : ¬ Runnable arch u), select_loop arch us = some v → Best (u :: us) arch v := by
      intro hn h
      obtain ⟨h1, h2, h3⟩ := select_loop_some hp'.2 h
      refine ⟨List.mem_cons_of_mem _ h1, h2, fun w hw hr => ?_⟩
      rcases List.mem_cons.1 hw with rfl | hw
      · exact absurd hr hn
      · exact h3 w hw hr
    unfold select_loop at h
    split_ifs at h with h1 h2
    · exact step (by rw [runnable_iff]; simp [h1]) h
    · cases h
      refine ⟨List.mem_cons_self, (runnable_iff _ _).2 ⟨Bool.eq_false_iff.2 h1, h2⟩, fun w hw _ => ?_⟩
      rcases List.mem_cons.1 hw with rfl | hw
      · exact le_rfl
      · exact Nat.le_of_not_lt (hp'.1 w hw)
    · exact step (by rw [runnable_iff]; simp [h2]) h

theorem select_loop_none {F : Type} {arch : Arch} : {l : List (FnVersion F)} →
    (select_loop arch l = none ↔ ∀ u ∈ l, ¬ Runnable arch u)
  | [] => by simp [select_loop]
  | u :: us => by
    unfold select_loop
    simp only [List.mem_cons, forall_eq_or_imp]
    have ih := select_loop_none (arch := arch) (l := us)
    split_ifs with h1 h2
    · rw [ih]
      have : ¬ Runnable arch u := by rw [runnable_iff]; simp [h1]
      simp [this]
    · have : Runnable arch u := (runnable_iff _ _).2 ⟨Bool.eq_false_iff.2 h1, h2⟩
      simp [this]
    · rw [ih]
      have : ¬ Runnable arch u := by rw [runnable_iff]; simp [h2]
      simp [this]

theorem Best.of_perm {F : Type} {l l' : List (FnVersion F)} {arch : Arch} {v : FnVersion F}
    (hp : l.Perm l') (h : Best l arch v) : Best l' arch v :=
  ⟨hp.mem_iff.1 h.1, h.2.1, fun u hu => h.2.2 u (hp.mem_iff.2 hu)⟩

/-! ### C36 -/

/-- C36: whichever order `std::sort` leaves equal elements in, a returned version is one of the
registered ones, non-null, all its features are present, and it has the greatest
requirement value of all runnable versions. -/
theorem C36_selects_best {F : Type} (versions : List (FnVersion F)) (arch : Arch) (v : FnVersion F)
    (h : SelectsAny versions arch (some v)) : Best versions arch v := by
  obtain ⟨sorted, hs, h⟩ := h
  exact (select_loop_some hs.order h).of_perm hs.perm

/-- C36: it aborts exactly when no version can run. -/
theorem C36_aborts_iff {F : Type} (versions : List (FnVersion F)) (arch : Arch) :
    SelectsAny versions arch none ↔ ∀ v ∈ versions, ¬ Runnable arch v := by
  constructor
  · rintro ⟨sorted, hs, h⟩ v hv
    exact select_loop_none.1 h v (hs.perm.mem_iff.2 hv)
  · intro h
    have hs : StdSorted versions (versions.mergeSort fun l r => decide (r.needed_arch.toNat ≤ l.needed_arch.toNat)) := by
      refine ⟨List.mergeSort_perm _ _, ?_⟩
      have := List.pairwise_mergeSort (le := fun (l r : FnVersion F) => decide (r.needed_arch.toNat ≤ l.needed_arch.toNat))
        (by intro a b c h1 h2; simp only [decide_eq_true_eq] at *; omega)
        (by intro a b; simp only [Bool.or_eq_true, decide_eq_true_eq]; omega) versions
      exact this.imp fun h => by simpa using h
    exact ⟨_, hs, select_loop_none.2 fun u hu => h u (hs.perm.mem_iff.1 hu)⟩

/-- C36: there always is an outcome (some sorted order exists), so the statements above are not vacuous. -/
theorem C36_total {F : Type} (versions : List (FnVersion F)) (arch : Arch) :
    ∃ r, SelectsAny versions arch r := by
  refine ⟨_, versions.mergeSort fun l r => decide (r.needed_arch.toNat ≤ l.needed_arch.toNat),
    ⟨List.mergeSort_perm _ _, ?_⟩, rfl⟩
  have := List.pairwise_mergeSort (le := fun (l r : FnVersion F) => decide (r.needed_arch.toNat ≤ l.needed_arch.toNat))
    (by intro a b c h1 h2; simp only [decide_eq_true_eq] at *; omega)
    (by intro a b; simp only [Bool.or_eq_true, decide_eq_true_eq]; omega) versions
  exact this.imp fun h => by simpa using h

/-- C36: the registration order does not matter. -/
theorem C36_order_independent {F : Type} {versions versions' : List (FnVersion F)}
    (hp : versions.Perm versions') (arch : Arch) (r : Option (FnVersion F)) :
    SelectsAny versions arch r ↔ SelectsAny versions' arch r :=
  ⟨fun ⟨s, hs, h⟩ => ⟨s, ⟨hs.perm.trans hp, hs.order⟩, h⟩,
   fun ⟨s, hs, h⟩ => ⟨s, ⟨hs.perm.trans hp.symm, hs.order⟩, h⟩⟩

theorem toNat_le_of_subset {w : Nat} (a b : BitVec w) (h : ∀ k, a.getLsbD k = true → b.getLsbD k = true) :
    a.toNat ≤ b.toNat := by
  have : a = a &&& b := by
    apply BitVec.eq_of_getLsbD_eq
    intro k hk
    have := h k
    rw [BitVec.getLsbD_and]
    cases ha : a.getLsbD k
    · rfl
    · simp [this ha]
  rw [this, BitVec.toNat_and]
  exact Nat.and_le_right

/-- C36: the requirement value refines inclusion of feature sets, so no runnable
version that needs strictly more features than the selected one exists. -/
theorem C36_not_dominated {F : Type} (versions : List (FnVersion F)) (arch : Arch) (v u : FnVersion F)
    (h : SelectsAny versions arch (some v)) (hu : u ∈ versions) (hr : Runnable arch u)
    (hsub : ∀ k, v.needed_arch.getLsbD k = true → u.needed_arch.getLsbD k = true) :
    u.needed_arch = v.needed_arch := by
  have h1 := (C36_selects_best _ _ _ h).2.2 u hu hr
  have h2 := toNat_le_of_subset _ _ hsub
  exact BitVec.eq_of_toNat_eq (by omega)

/-- Three versions (with a null entry, as the unfilled tail of the array has): on an SSE2+SSE3
machine the SSE3 version is selected. -/
example : SelectsAny (F := Nat)
    [⟨Arch.X86_SSE2, some 1⟩, ⟨0, none⟩, ⟨Arch.X86_AVX, some 3⟩, ⟨Arch.X86_SSE2 ||| Arch.X86_SSE3, some 2⟩]
    (Arch.X86_SSE2 ||| Arch.X86_SSE3) (some ⟨Arch.X86_SSE2 ||| Arch.X86_SSE3, some 2⟩) :=
  ⟨[⟨Arch.X86_AVX, some 3⟩, ⟨Arch.X86_SSE2 ||| Arch.X86_SSE3, some 2⟩, ⟨Arch.X86_SSE2, some 1⟩, ⟨0, none⟩],
    ⟨by decide, by decide⟩, by decide⟩

/-! ### C37: the dispatcher under every interleaving -/

section
variable {T F : Type} [DecidableEq T]

/-- Invariant: every pointer stored, about to be stored, or called satisfies `P`. -/
structure Inv (P : Option F → Prop) (s : State T F) : Prop where
  sel : s.selected = none ∨ P s.selected
  store : ∀ t f, s.pc t = .store f → P f
  load : ∀ t, s.pc t = .load → P s.selected
  call : ∀ t f, s.pc t = .call f → P f
  calls : ∀ t f, (t, f) ∈ s.calls → P f

theorem inv_step {P : Option F → Prop} {Sel : Option (FnVersion F) → Prop} (h0 : ¬ P none)
    (hP : ∀ v, Sel (some v) → P v.fun_ptr) {t : T} {s s' : State T F} (hi : Inv P s) (h : Step Sel t s s') :
    Inv P s' := by
  have upd : ∀ (u : T) (x y : Pc F), Function.update s.pc t x u = y → (u = t ∧ x = y) ∨ s.pc u = y := by
    intro u x y h
    by_cases hu : u = t
    · subst hu; rw [Function.update_self] at h; exact .inl ⟨rfl, h⟩
    · rw [Function.update_of_ne hu] at h; exact .inr h
  obtain ⟨i1, i2, i3, i4, i5⟩ := hi
  cases h with
  | selectAbort => exact ⟨i1, i2, i3, i4, i5⟩
  | enter ha hp | testNull ha hp hs =>
    refine ⟨i1, fun u f hu => ?_, fun u hu => ?_, fun u f hu => ?_, i5⟩
    · rcases upd _ _ _ hu with ⟨_, h⟩ | h
      · cases h
      · exact i2 _ _ h
    · rcases upd _ _ _ hu with ⟨_, h⟩ | h
      · cases h
      · exact i3 _ h
    · rcases upd _ _ _ hu with ⟨_, h⟩ | h
      · cases h
      · exact i4 _ _ h
  | testSet f ha hp hs =>
    refine ⟨i1, fun u f hu => ?_, fun u hu => ?_, fun u f hu => ?_, i5⟩
    · rcases upd _ _ _ hu with ⟨_, h⟩ | h
      · cases h
      · exact i2 _ _ h
    · rcases i1 with h | h
      · rw [hs] at h; cases h
      · exact h
    · rcases upd _ _ _ hu with ⟨_, h⟩ | h
      · cases h
      · exact i4 _ _ h
  | selectOk v ha hp hs =>
    refine ⟨i1, fun u f hu => ?_, fun u hu => ?_, fun u f hu => ?_, i5⟩
    · rcases upd _ _ _ hu with ⟨_, h⟩ | h
      · cases h; exact hP v hs
      · exact i2 _ _ h
    · rcases upd _ _ _ hu with ⟨_, h⟩ | h
      · cases h
      · exact i3 _ h
    · rcases upd _ _ _ hu with ⟨_, h⟩ | h
      · cases h
      · exact i4 _ _ h
  | store f ha hp =>
    have hf := i2 _ _ hp
    refine ⟨.inr hf, fun u f hu => ?_, fun u hu => hf, fun u f hu => ?_, i5⟩
    · rcases upd _ _ _ hu with ⟨_, h⟩ | h
      · cases h
      · exact i2 _ _ h
    · rcases upd _ _ _ hu with ⟨_, h⟩ | h
      · cases h
      · exact i4 _ _ h
  | load ha hp =>
    refine ⟨i1, fun u f hu => ?_, fun u hu => ?_, fun u f hu => ?_, i5⟩
    · rcases upd _ _ _ hu with ⟨_, h⟩ | h
      · cases h
      · exact i2 _ _ h
    · exact i3 _ hp
    · rcases upd _ _ _ hu with ⟨_, h⟩ | h
      · cases h; exact i3 _ hp
      · exact i4 _ _ h
  | call f ha hp =>
    refine ⟨i1, fun u f hu => ?_, fun u hu => ?_, fun u f hu => ?_, fun u f hu => ?_⟩
    · rcases upd _ _ _ hu with ⟨_, h⟩ | h
      · cases h
      · exact i2 _ _ h
    · rcases upd _ _ _ hu with ⟨_, h⟩ | h
      · cases h
      · exact i3 _ h
    · rcases upd _ _ _ hu with ⟨_, h⟩ | h
      · cases h
      · exact i4 _ _ h
    · rcases List.mem_cons.1 hu with h | h
      · cases h; exact i4 _ _ hp
      · exact i5 _ _ h

theorem inv_steps {P : Option F → Prop} {Sel : Option (FnVersion F) → Prop} (h0 : ¬ P none)
    (hP : ∀ v, Sel (some v) → P v.fun_ptr) {s s' : State T F} (h : Steps Sel s s') (hi : Inv P s) : Inv P s' := by
  induction h with
  | refl => exact hi
  | tail t _ hs ih => exact inv_step h0 hP ih hs

theorem inv_init (P : Option F → Prop) : Inv P (init T F) :=
  ⟨.inl rfl, fun _ _ h => (nomatch h), fun _ h => (nomatch h), fun _ _ h => (nomatch h), fun _ _ h => (nomatch h)⟩

/-- C37: under every interleaving of any number of threads, every call made goes through
a non-null pointer to a best supported version. -/
theorem C37_every_call_best (versions : List (FnVersion F)) (arch : Arch) (s : State T F)
    (hr : Reach (SelectsAny versions arch) s) (t : T) (f : Option F) (hc : (t, f) ∈ s.calls) :
    f ≠ none ∧ ∃ v, Best versions arch v ∧ v.fun_ptr = f := by
  have hi := inv_steps (P := fun f => f ≠ none ∧ ∃ v, Best versions arch v ∧ v.fun_ptr = f)
    (by simp) (fun v hv => ⟨(C36_selects_best _ _ _ hv).2.1.1, v, C36_selects_best _ _ _ hv, rfl⟩) hr (inv_init _)
  exact hi.calls t f hc

/-- C37: the program is aborted only if no version can run. -/
theorem C37_aborts_only_if_none_runnable (versions : List (FnVersion F)) (arch : Arch) (s : State T F)
    (hr : Reach (SelectsAny versions arch) s) (ha : s.aborted = true) : ∀ v ∈ versions, ¬ Runnable arch v := by
  unfold Reach at hr
  generalize hi : init T F = s0 at hr
  induction hr with
  | refl => subst hi; cases ha
  | tail t _ hs ih =>
    cases hs with
    | selectAbort h1 h2 h3 => exact (C36_aborts_iff _ _).1 h3
    | _ => simp_all

/-- C37: since `std::sort` is deterministic, all calls of all threads, under every interleaving, invoke
one and the same function, which is also what `selected` holds from its first write on. -/
theorem C37_same_function_always (versions : List (FnVersion F)) (arch : Arch)
    (sort : List (FnVersion F) → List (FnVersion F)) (hsort : ∀ l, StdSorted l (sort l))
    (v : FnVersion F) (hv : select_loop arch (sort versions) = some v) (s : State T F)
    (hr : Reach (fun r => r = select_loop arch (sort versions)) s) :
    Best versions arch v ∧ (∀ t f, (t, f) ∈ s.calls → f = v.fun_ptr) ∧ (s.selected = none ∨ s.selected = v.fun_ptr) := by
  have hb := C36_selects_best versions arch v ⟨_, hsort versions, hv⟩
  have hi := inv_steps (P := fun f => f = v.fun_ptr) (fun h => hb.2.1.1 h.symm)
    (fun u hu => by rw [hv] at hu; cases hu; rfl) hr (inv_init _)
  exact ⟨hb, hi.calls, hi.sel⟩

/-- No thread is between seeing a null `selected` and writing it. -/
def Quiet (s : State T F) : Prop := ∀ t, s.pc t ≠ .select ∧ ∀ f, s.pc t ≠ .store f

theorem quiet_step {Sel : Option (FnVersion F) → Prop} {t : T} {s s' : State T F} {f : F}
    (hs : s.selected = some f) (hq : Quiet s) (h : Step Sel t s s') : s'.selected = some f ∧ Quiet s' := by
  have upd : ∀ x : Pc F, (x ≠ .select ∧ ∀ f, x ≠ .store f) →
      ∀ u, Function.update s.pc t x u ≠ .select ∧ ∀ f, Function.update s.pc t x u ≠ .store f := by
    intro x hx u
    by_cases hu : u = t
    · subst hu; rw [Function.update_self]; exact hx
    · rw [Function.update_of_ne hu]; exact hq u
  cases h with
  | enter => exact ⟨hs, upd _ (by simp)⟩
  | testNull h1 h2 h3 => rw [hs] at h3; cases h3
  | testSet => exact ⟨hs, upd _ (by simp)⟩
  | selectOk v h1 h2 => exact absurd h2 (hq t).1
  | selectAbort h1 h2 => exact absurd h2 (hq t).1
  | store g h1 h2 => exact absurd h2 ((hq t).2 g)
  | load => exact ⟨hs, upd _ (by simp)⟩
  | call => exact ⟨hs, upd _ (by simp)⟩

/-- C37: once a version is chosen and no first call is still in progress (as when the
first call is made before other threads start, or under a lock), the choice never changes again and
no later state has a data race, whatever the threads do. -/
theorem C37_stable_after_first_call {Sel : Option (FnVersion F) → Prop} {s s' : State T F} {f : F}
    (hs : s.selected = some f) (hq : Quiet s) (h : Steps Sel s s') : s'.selected = some f ∧ ¬ Race s' := by
  have : s'.selected = some f ∧ Quiet s' := by
    induction h with
    | refl => exact ⟨hs, hq⟩
    | tail t _ h ih => exact quiet_step ih.1 ih.2 h
  refine ⟨this.1, ?_⟩
  rintro ⟨t, u, _, ⟨g, hg⟩, _⟩
  exact (this.2 t).2 g hg

/-- C37: with a single thread there is never a race, and every call invokes the function
chosen by the first. -/
theorem C37_single_thread [Subsingleton T] (versions : List (FnVersion F)) (arch : Arch) (s : State T F)
    (hr : Reach (SelectsAny versions arch) s) :
    ¬ Race s ∧ ∀ t f, (t, f) ∈ s.calls → f = s.selected := by
  constructor
  · rintro ⟨t, u, h, _⟩; exact h (Subsingleton.elim _ _)
  have key : (∀ t, s.pc t = .load → s.selected ≠ none) ∧
      (∀ t f, s.pc t = .call f → f = s.selected ∧ s.selected ≠ none) ∧
      (∀ t f, s.pc t = .store f → s.selected = none ∧ f ≠ none) ∧
      (∀ t, s.pc t = .select → s.selected = none) ∧
      (∀ t f, (t, f) ∈ s.calls → f = s.selected ∧ s.selected ≠ none) := by
    unfold Reach at hr
    generalize hi : init T F = s0 at hr
    induction hr with
    | refl => subst hi; simp [init]
    | tail t _ hs ih =>
      obtain ⟨k1, k2, k3, k4, k5⟩ := ih
      have upd : ∀ (pc : T → Pc F) (x : Pc F) (u : T), Function.update pc t x u = x := by
        intro pc x u; rw [Subsingleton.elim u t, Function.update_self]
      cases hs with
      | enter h1 h2 => simp only [upd]; exact ⟨by simp, by simp, by simp, by simp, k5⟩
      | testNull h1 h2 h3 => simp only [upd]; exact ⟨by simp, by simp, by simp, fun _ _ => h3, k5⟩
      | testSet g h1 h2 h3 => simp only [upd]; exact ⟨by simp [h3], by simp, by simp, by simp, k5⟩
      | selectOk v h1 h2 h3 =>
        simp only [upd]
        refine ⟨by simp, by simp, fun _ f hf => ?_, by simp, k5⟩
        cases hf
        exact ⟨k4 t h2, (C36_selects_best _ _ _ h3).2.1.1⟩
      | selectAbort => exact ⟨k1, k2, k3, k4, k5⟩
      | store g h1 h2 =>
        simp only [upd]
        have := k3 t g h2
        exact ⟨fun _ _ => this.2, by simp, by simp, by simp, fun u f hf => absurd this.1 (k5 u f hf).2⟩
      | load h1 h2 =>
        simp only [upd]
        refine ⟨by simp, fun _ f hf => ?_, by simp, by simp, k5⟩
        cases hf; exact ⟨rfl, k1 t h2⟩
      | call g h1 h2 =>
        simp only [upd]
        refine ⟨by simp, by simp, by simp, by simp, fun u f hf => ?_⟩
        rcases List.mem_cons.1 hf with h | h
        · cases h; exact k2 t _ h2
        · exact k5 u f h
  exact fun t f h => (key.2.2.2.2 t f h).1

/-- Negative result for C37: as soon as two threads make their first call and some version
can run, a state with a data race on the non-atomic static is reachable (the documentation at
/repo/simdpp/dispatch/make_dispatcher.h:364-366 claims otherwise; dispatcher.h:33-35 asks
the user to synchronise). -/
theorem C37_unsynchronised_first_calls_race (versions : List (FnVersion F)) (arch : Arch) (t u : T) (htu : t ≠ u)
    (v : FnVersion F) (hv : SelectsAny versions arch (some v)) :
    ∃ s : State T F, Reach (SelectsAny versions arch) s ∧ Race s := by
  let s1 : State T F := { init T F with pc := Function.update (init T F).pc t .test }
  let s2 : State T F := { s1 with pc := Function.update s1.pc t .select }
  let s3 : State T F := { s2 with pc := Function.update s2.pc t (.store v.fun_ptr) }
  let s4 : State T F := { s3 with pc := Function.update s3.pc u .test }
  have hu : ∀ x, Function.update (Function.update (Function.update (init T F).pc t .test) t .select) t x u = .idle := by
    intro x; simp [Function.update, htu.symm, init]
  refine ⟨s4, ?_, t, u, htu, ⟨v.fun_ptr, ?_⟩, .inr (.inl ?_)⟩
  · refine .tail u (.tail t (.tail t (.tail t (.refl _) (.enter _ rfl rfl)) (.testNull _ rfl ?_ rfl))
      (.selectOk _ v rfl ?_ hv)) (.enter _ rfl (hu _))
    · exact Function.update_self ..
    · exact Function.update_self ..
  · show Function.update _ u _ t = _
    rw [Function.update_of_ne htu]; exact Function.update_self ..
  · exact Function.update_self ..

/-- Negative result for C37: without the determinism of `std::sort` (equal requirement
values), two threads may end up calling different functions. -/
theorem C37_ties_may_differ (arch : Arch) (f g : F) (hfg : f ≠ g) :
    ∃ (versions : List (FnVersion F)) (v w : FnVersion F), SelectsAny versions arch (some v) ∧
      SelectsAny versions arch (some w) ∧ v.fun_ptr ≠ w.fun_ptr :=
  ⟨[⟨0, some f⟩, ⟨0, some g⟩], ⟨0, some f⟩, ⟨0, some g⟩,
    ⟨_, ⟨.refl _, by simp⟩, by simp [select_loop, test_arch_subset, Arch.NONE_NULL]⟩,
    ⟨[⟨0, some g⟩, ⟨0, some f⟩], ⟨.swap _ _ _, by simp⟩, by simp [select_loop, test_arch_subset, Arch.NONE_NULL]⟩,
    by simpa using hfg⟩

end

/-- Non-vacuity: thread 0 completes a first call of the SSE2 version. -/
example : ∃ s : State (Fin 2) Nat, Reach (SelectsAny [⟨Arch.X86_SSE2, some 7⟩, ⟨0, none⟩] Arch.X86_SSE2) s ∧
    (0, some 7) ∈ s.calls :=
  ⟨_, .tail 0 (.tail 0 (.tail 0 (.tail 0 (.tail 0 (.tail 0 (.refl _) (.enter _ rfl rfl))
      (.testNull _ rfl rfl rfl)) (.selectOk _ ⟨Arch.X86_SSE2, some 7⟩ rfl rfl
        ⟨_, ⟨.refl _, by decide⟩, by decide⟩)) (.store _ (some 7) rfl rfl)) (.load _ rfl rfl)) (.call _ (some 7) rfl rfl),
    List.mem_cons_self⟩

end Simdpp.Dispatch
