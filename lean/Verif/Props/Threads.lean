import Verif.Model.Threads
import Verif.Props.MProg

/-!
# C74: loops in several threads

Threads which run loops of C59 on disjoint parts of arrays, with any interleaving of their accesses, leave what they would leave one after the other; `store_first` may only be used
when nobody else writes in the vector it writes.
-/

namespace Simdpp
open Spec Spec.Thr Spec.MProg Sh

variable {w n N L : Nat} {α β : Type}

namespace Act
open Spec.Thr.Act

/-! ## Accesses -/

@[simp] theorem bind_eq (A : Act α) (g : α → Act β) : (A >>= g) = Act.bind A g := rfl

/-- Every read is in `R` or `W` and every write in `W`, whatever values are read. -/
def Safe (R W : Nat → Prop) : Act α → Prop
  | .ret _ => True
  | .fail => True
  | .rd1 p f => (R p ∨ W p) ∧ ∀ b, Safe R W (f b)
  | .wr1 p _ k => W p ∧ Safe R W k

theorem Safe.bind {R W : Nat → Prop} {g : α → Act β} (hg : ∀ x, Safe R W (g x)) : {A : Act α} → Safe R W A → Safe R W (Act.bind A g)
  | .ret x, _ => hg x
  | .fail, _ => trivial
  | .rd1 _ _, h => ⟨h.1, fun b => Safe.bind hg (h.2 b)⟩
  | .wr1 _ _ _, h => ⟨h.1, Safe.bind hg h.2⟩

theorem Safe.mono {R W R' W' : Nat → Prop} (hR : ∀ x, R x → R' x ∨ W' x) (hW : ∀ x, W x → W' x) : {A : Act α} → Safe R W A → Safe R' W' A
  | .ret _, _ => trivial
  | .fail, _ => trivial
  | .rd1 p _, h => ⟨h.1.elim (hR p) (fun g => .inr (hW p g)), fun b => Safe.mono hR hW (h.2 b)⟩
  | .wr1 p _ _, h => ⟨hW p h.1, Safe.mono hR hW h.2⟩

theorem run_bind (g : α → Act β) : (A : Act α) → (m : Mem) → run (Act.bind A g) m = (run A m).bind fun x => run (g x.1) x.2
  | .ret _, _ => rfl
  | .fail, _ => rfl
  | .rd1 p f, m => by
    show (if m.ok p = true then run (Act.bind (f _) g) m else none) = Option.bind (if m.ok p = true then run (f _) m else none) _
    split_ifs
    · exact run_bind g _ m
    · rfl
  | .wr1 p b k, m => by
    show (if m.ok p = true then run (Act.bind k g) _ else none) = Option.bind (if m.ok p = true then run k _ else none) _
    split_ifs
    · exact run_bind g k _
    · rfl

/-- A run depends only on the bytes it may access. -/
theorem run_agree {R W : Nat → Prop} : {A : Act α} → Safe R W A → {m1 m2 : Mem} → m1.ok = m2.ok → (∀ x, R x ∨ W x → m1.byte x = m2.byte x) →
    {x : α} → {M1 : Mem} → run A m1 = some (x, M1) → ∃ M2, run A m2 = some (x, M2) ∧ ∀ y, R y ∨ W y → M1.byte y = M2.byte y
  | .ret _, _, m1, m2, _, hb, x, M1, hr => by
    cases hr
    exact ⟨m2, rfl, hb⟩
  | .fail, _, _, _, _, _, _, _, hr => by cases hr
  | .rd1 p f, h, m1, m2, ho, hb, x, M1, hr => by
    unfold run at hr ⊢
    split_ifs at hr with g
    rw [← ho, if_pos g, ← hb p h.1]
    exact run_agree (h.2 _) ho hb hr
  | .wr1 p b k, h, m1, m2, ho, hb, x, M1, hr => by
    unfold run at hr ⊢
    split_ifs at hr with g
    rw [← ho, if_pos g]
    refine run_agree h.2 ?_ (fun y hy => ?_) hr
    · rfl
    · show (if y = p then b else m1.byte y) = if y = p then b else m2.byte y
      rw [hb y hy]

/-- Runs leave accessibility alone. -/
theorem run_ok : {A : Act α} → {m : Mem} → {x : α} → {M : Mem} → run A m = some (x, M) → M.ok = m.ok
  | .ret _, m, x, M, hr => by cases hr; rfl
  | .fail, _, _, _, hr => by cases hr
  | .rd1 p f, m, x, M, hr => by
    unfold run at hr
    split_ifs at hr
    exact run_ok (A := f _) hr
  | .wr1 p b k, m, x, M, hr => by
    unfold run at hr
    split_ifs at hr
    exact (run_ok (A := k) hr).trans rfl

/-- The number of accesses in a run. -/
def cost : Act α → Mem → Nat
  | .ret _, _ => 0
  | .fail, _ => 0
  | .rd1 p f, m => cost (f (m.byte p)) m + 1
  | .wr1 p b k, m => cost k { m with byte := fun x => if x = p then b else m.byte x } + 1

theorem cost_agree {R W : Nat → Prop} : {A : Act α} → Safe R W A → {m1 m2 : Mem} → (∀ x, R x ∨ W x → m1.byte x = m2.byte x) → cost A m1 = cost A m2
  | .ret _, _, _, _, _ => rfl
  | .fail, _, _, _, _ => rfl
  | .rd1 p f, h, m1, m2, hb => by
    unfold cost
    rw [hb p h.1, cost_agree (h.2 _) hb]
  | .wr1 p b k, h, m1, m2, hb => by
    unfold cost
    rw [cost_agree h.2 fun y hy => ?_]
    show (if y = p then b else m1.byte y) = if y = p then b else m2.byte y
    rw [hb y hy]

end Act

/-- The memory of the model. -/
def Spec.Thr.Shared.mem (m : Shared) : Mem := ⟨m.ok, m.byte⟩

/-- One step of a thread: the rest runs as before, and only bytes it may write change. -/
theorem step_run {R W : Nat → Prop} {A B : Act α} {m m' : Shared} (s : Step A m B m') (h : Act.Safe R W A) :
    Act.Safe R W B ∧ Act.run B m'.mem = Act.run A m.mem ∧ Act.cost A m.mem = Act.cost B m'.mem + 1 ∧ m'.ok = m.ok ∧ ∀ x, ¬ W x → m'.byte x = m.byte x := by
  cases s with
  | rd g => exact ⟨h.2 _, (if_pos g).symm, rfl, rfl, fun _ _ => rfl⟩
  | wr g => exact ⟨h.2, (if_pos g).symm, rfl, rfl, fun x hx => if_neg fun (e : x = _) => hx (e ▸ h.1)⟩

/-- What holds at every point of an execution. -/
structure Going {ι : Type} (R W : ι → Nat → Prop) (m0 : Shared) (M : ι → Mem) (S : ι → Act Unit) (m : Shared) : Prop where
  safe : ∀ i, Act.Safe (R i) (W i) (S i)
  ok : m.ok = m0.ok
  run : ∀ i, ∃ M', Act.run (S i) m.mem = some ((), M') ∧ ∀ x, W i x → M'.byte x = (M i).byte x
  rest : ∀ x, (∀ i, ¬ W i x) → m.byte x = m0.byte x

theorem going_exec {ι : Type} [DecidableEq ι] {R W : ι → Nat → Prop} (hd : ∀ i j, i ≠ j → ∀ x, W i x → ¬ R j x ∧ ¬ W j x) {m0 : Shared} {M : ι → Mem}
    {S S' : ι → Act Unit} {m : Shared} {k : Nat} (h0 : Going R W m0 M S m0) (ex : Exec S m0 S' m k) : Going R W m0 M S' m := by
  induction ex with
  | refl => exact h0
  | @tail S' m n i A m'' _ st ih =>
    obtain ⟨s1, s2, -, s3, s4⟩ := step_run st (ih.safe i)
    refine ⟨fun j => ?_, s3.trans ih.ok, fun j => ?_, fun x hx => (s4 x (hx i)).trans (ih.rest x hx)⟩
    · by_cases e : j = i
      · subst e; rw [Function.update_self]; exact s1
      · rw [Function.update_of_ne e]; exact ih.safe j
    · by_cases e : j = i
      · subst e; rw [Function.update_self, s2]; exact ih.run j
      · rw [Function.update_of_ne e]
        obtain ⟨M', e1, e2⟩ := ih.run j
        have hb : ∀ x, R j x ∨ W j x → m.mem.byte x = m''.mem.byte x := fun x hx =>
          (s4 x fun g => hx.elim (hd i j (Ne.symm e) x g).1 (hd i j (Ne.symm e) x g).2).symm
        obtain ⟨M2, e3, e4⟩ := Act.run_agree (ih.safe j) (m1 := m.mem) (m2 := m''.mem) s3.symm hb e1
        exact ⟨M2, e3, fun x hx => (e4 x (.inr hx)).symm.trans (e2 x hx)⟩

/-- **C74.** Threads none of which writes what another reads or writes, and each of which alone runs to its end: no execution, whatever the order of the accesses, lets
a thread get stuck, and when all have finished every thread has written what it writes alone, and all other bytes are unchanged. -/
theorem C74_disjoint {ι : Type} [DecidableEq ι] {R W : ι → Nat → Prop} (hd : ∀ i j, i ≠ j → ∀ x, W i x → ¬ R j x ∧ ¬ W j x) {m0 : Shared} {M : ι → Mem}
    {S S' : ι → Act Unit} {m : Shared} {k : Nat} (hs : ∀ i, Act.Safe (R i) (W i) (S i)) (hr : ∀ i, Act.run (S i) m0.mem = some ((), M i)) (ex : Exec S m0 S' m k) :
    (∀ i, ¬ Stuck (S' i) m) ∧
    (Finished S' → m.ok = m0.ok ∧ (∀ i x, W i x → m.byte x = (M i).byte x) ∧ ∀ x, (∀ i, ¬ W i x) → m.byte x = m0.byte x) := by
  have G := going_exec hd ⟨hs, rfl, fun i => ⟨_, hr i, fun _ _ => rfl⟩, fun _ _ => rfl⟩ ex
  refine ⟨fun i => ?_, fun hf => ⟨G.ok, fun i x hx => ?_, G.rest⟩⟩
  · obtain ⟨M', e1, -⟩ := G.run i
    rintro ⟨h1, h2⟩
    cases hA : S' i with
    | ret x => exact h1 x hA
    | fail => rw [hA] at e1; cases e1
    | rd1 p f =>
      rw [hA] at e1 h2
      unfold Act.run at e1
      split_ifs at e1 with g
      exact h2 _ _ (.rd g)
    | wr1 p b k =>
      rw [hA] at e1 h2
      unfold Act.run at e1
      split_ifs at e1 with g
      exact h2 _ _ (.wr g)
  · obtain ⟨M', e1, e2⟩ := G.run i
    obtain ⟨y, hy⟩ := hf i
    rw [hy] at e1
    cases e1
    exact e2 x hx

/-- **C74.** Executions end: finitely many such threads make together exactly as many accesses as they make alone, if they have finished, and never more. -/
theorem C74_ends {T : Nat} {R W : Fin T → Nat → Prop} (hd : ∀ i j, i ≠ j → ∀ x, W i x → ¬ R j x ∧ ¬ W j x) {m0 : Shared}
    {S S' : Fin T → Act Unit} {m : Shared} {k : Nat} (hs : ∀ i, Act.Safe (R i) (W i) (S i)) (ex : Exec S m0 S' m k) :
    k + ∑ i, Act.cost (S' i) m.mem = ∑ i, Act.cost (S i) m0.mem := by
  have key : (∀ i, Act.Safe (R i) (W i) (S' i)) ∧ k + ∑ i, Act.cost (S' i) m.mem = ∑ i, Act.cost (S i) m0.mem := by
    induction ex with
    | refl => exact ⟨hs, Nat.zero_add _⟩
    | @tail S' m n i A m'' _ st ih =>
      obtain ⟨ih1, ih2⟩ := ih
      obtain ⟨s1, -, s2, -, s4⟩ := step_run st (ih1 i)
      refine ⟨fun j => ?_, ?_⟩
      · by_cases e : j = i
        · subst e; rw [Function.update_self]; exact s1
        · rw [Function.update_of_ne e]; exact ih1 j
      · rw [← ih2, ← Finset.add_sum_erase _ _ (Finset.mem_univ i), ← Finset.add_sum_erase (a := i) _ (fun i => Act.cost (S' i) m.mem) (Finset.mem_univ i), Function.update_self, s2]
        have e : ∑ j ∈ Finset.univ.erase i, Act.cost (Function.update S' i A j) m''.mem = ∑ j ∈ Finset.univ.erase i, Act.cost (S' j) m.mem := by
          refine Finset.sum_congr rfl fun j hj => ?_
          have hj' := Finset.ne_of_mem_erase hj
          rw [Function.update_of_ne hj']
          exact Act.cost_agree (ih1 j) fun x hx => s4 x fun g => hx.elim (hd i j (Ne.symm hj') x g).1 (hd i j (Ne.symm hj') x g).2
        rw [e]; omega
  exact key.2

end Simdpp
