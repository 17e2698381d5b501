import Verif.Model.ForEach
import Verif.Props.Split

/-!
# C41: for_each
-/

namespace Simdpp
open Spec Sh

variable {w n : Nat} {σ ω : Type}

/-- Specification: call `f` on lanes `i`, `i+1`, ..., `i+m-1` of `v`, threading both the members and the effects. -/
def Spec.callRange {w N : Nat} (f : BitVec w → σ → ω → σ × ω) (v : Vec w N) (i : Nat) : Nat → σ × ω → σ × ω
  | 0, s => s
  | m + 1, s => Spec.callRange f v (i + 1) m (f (v.at_ i) s.1 s.2)

/-- Specification: the lanes of a vector in order. -/
def Spec.lanes {w N : Nat} (v : Vec w N) : List (BitVec w) := (List.range N).map v.at_

theorem memLoop_eq (f : BitVec w → σ → ω → σ × ω) (a : Vec w n) :
    ∀ (m I : Nat) (s : σ × ω), I + m = n → memLoop f a I s = some (callRange f a I m s)
  | 0, I, s, h => by rw [memLoop, if_neg (by omega)]; rfl
  | m + 1, I, s, h => by
    rw [memLoop, if_pos (by omega), rd_lt _ (by omega)]
    exact memLoop_eq f a m (I + 1) _ (by omega)

section
variable {c : Cfg} (h : c.Ok) {r : Reg} {k : Kind}
include h

theorem foreachImpl_eq {sg : Bool} (hw : k.okW w) (hr : c.hasVec k w r = true)
    (hm : ¬ (w = 64 ∧ k = .int ∧ msa32s c sg)) (f : BitVec w → σ → ω → σ × ω) (a : Vec w (r.lanes w)) (s : σ × ω) :
    foreachImpl c k sg r f a s = some (callRange f a 0 (r.lanes w) s) := by
  have h2 : 2 ≤ r.lanes w := by
    rcases hw.isW with e | e | e | e <;> subst e <;> cases r <;> decide
  unfold foreachImpl
  by_cases g : c.sse2 = true ∨ c.neon = true ∨ c.msa = true
  · rw [if_pos g, i_extract_eq h hw hr (by omega) hm, i_extract_eq h hw hr (by omega) hm]
    by_cases g2 : r.lanes w = 2
    · rw [if_pos g2]
      have : callRange f a 0 (r.lanes w) s = callRange f a 0 2 s := congrArg (fun m => callRange f a 0 m s) g2
      rw [this]
      rfl
    rw [if_neg g2]
    by_cases g4 : r.lanes w = 4
    · rw [if_pos g4, i_extract_eq h hw hr (by omega) hm, i_extract_eq h hw hr (by omega) hm]
      have : callRange f a 0 (r.lanes w) s = callRange f a 0 4 s := congrArg (fun m => callRange f a 0 m s) g4
      rw [this]
      rfl
    rw [if_neg g4]
    simp only [callOn, Option.map_some, Option.bind_eq_bind, Option.bind_some]
    rw [memLoop_eq f a (r.lanes w - 2) 2 _ (by omega)]
    have : callRange f a 0 (r.lanes w) s = callRange f a 0 (r.lanes w - 2 + 1 + 1) s :=
      congrArg (fun m => callRange f a 0 m s) (by omega)
    rw [this]
    rfl
  · rw [if_neg g, memLoop_eq f a (r.lanes w) 0 s (by omega)]

/-- What `for_each` does, for any function object: lanes in order, each once; the members start afresh from the
object passed at the first lane of every register. -/
theorem forEachRegs_eq {sg : Bool} (hw : k.okW w) (hr : c.hasVec k w r = true)
    (hm : ¬ (w = 64 ∧ k = .int ∧ msa32s c sg)) (f : BitVec w → σ → ω → σ × ω) (f0 : σ) {K : Nat}
    (v : Fin K → Vec w (r.lanes w)) : ∀ (m I : Nat) (g : ω), I + m = K →
    forEachRegs c k sg r f f0 v I g = some ((List.range m).foldl
      (fun g q => (callRange f (Arr.flat v : Vec w (K * r.lanes w)) ((I + q) * r.lanes w) (r.lanes w) (f0, g)).2) g)
  | 0, I, g, e => by rw [forEachRegs, dif_neg (by omega)]; rfl
  | m + 1, I, g, e => by
    have hI : I < K := by omega
    have hc : ∀ (m i : Nat) (s : σ × ω), i + m ≤ r.lanes w →
        callRange f (v ⟨I, hI⟩) i m s = callRange f (Arr.flat v : Vec w (K * r.lanes w)) (I * r.lanes w + i) m s := by
      intro m
      induction m with
      | zero => intros; rfl
      | succ m ih =>
        intro i s hi
        unfold callRange
        rw [ih _ _ (by omega), flat_at' v ⟨I, hI⟩ (show i < r.lanes w by omega)]
        rfl
    rw [forEachRegs, dif_pos hI, foreachImpl_eq h hw hr hm, Option.bind_some,
      forEachRegs_eq hw hr hm f f0 v m (I + 1) _ (by omega), List.range_succ_eq_map, List.foldl_cons, List.foldl_map,
      hc _ _ _ (by omega)]
    congr 2
    funext g q
    rw [show I + 1 + q = I + (q + 1) by omega]
  termination_by m => m

/-- C41: `for_each(v, f)` for a function object without own data members that change (any lambda, function pointer or
`std::ref`): the effect is that of calling `f` on lane 0, 1, ..., N-1, each exactly once, in this order. -/
theorem C41_for_each_partial {sg : Bool} (hw : k.okW w) (hr : c.hasVec k w r = true)
    (hm : ¬ (w = 64 ∧ k = .int ∧ msa32s c sg)) (f : BitVec w → ω → ω) {K : Nat} (v : Fin K → Vec w (r.lanes w)) (g : ω) :
    forEach c k sg r (fun x (s : Unit) g => (s, f x g)) () v g =
      some ((lanes (Arr.flat v : Vec w (K * r.lanes w))).foldl (fun g x => f x g) g) := by
  have hc : ∀ {N : Nat} (V : Vec w N) (m i : Nat) (g : ω),
      (callRange (fun x (s : Unit) g => (s, f x g)) V i m ((), g)).2 =
        ((List.range m).map fun j => V.at_ (i + j)).foldl (fun g x => f x g) g := by
    intro N V m
    induction m with
    | zero => intros; rfl
    | succ m ih =>
      intro i g
      rw [List.range_succ_eq_map, List.map_cons, List.map_map, List.foldl_cons]
      refine (ih (i + 1) _).trans ?_
      simp only [Nat.add_zero]
      congr 1
      refine List.map_congr_left fun j _ => ?_
      show V.at_ (i + 1 + j) = V.at_ (i + (j + 1))
      rw [show i + 1 + j = i + (j + 1) by omega]
  unfold forEach
  rw [forEachRegs_eq h hw hr hm _ () v K 0 g (by omega)]
  refine congrArg some ?_
  unfold lanes
  generalize (Arr.flat v : Vec w (K * r.lanes w)) = V
  simp only [hc, Nat.zero_add]
  clear v
  generalize r.lanes w = l at V
  change Vec w (K * l) at V
  suffices ∀ m g, (List.range m).foldl (fun g q => ((List.range l).map fun j => V.at_ (q * l + j)).foldl (fun g x => f x g) g) g =
      ((List.range (m * l)).map V.at_).foldl (fun g x => f x g) g from this K g
  intro m
  induction m with
  | zero => intro g; rw [Nat.zero_mul]; rfl
  | succ m ih =>
    intro g
    rw [List.range_succ, List.foldl_append, ih, Nat.succ_mul, List.range_add, List.map_append, List.foldl_append,
      List.foldl_cons, List.foldl_nil, List.map_map]
    rfl

/-- C41: the sequence of calls is exactly the sequence of lanes, whatever the function object does with its own
members: recording the arguments gives the lanes in order, each exactly once. -/
theorem C41_calls_partial {sg : Bool} (hw : k.okW w) (hr : c.hasVec k w r = true)
    (hm : ¬ (w = 64 ∧ k = .int ∧ msa32s c sg)) (f : BitVec w → σ → ω → σ × ω) (f0 : σ) {K : Nat}
    (v : Fin K → Vec w (r.lanes w)) (g : ω) :
    ∃ g', forEach c k sg r (fun x s (p : List (BitVec w) × ω) => ((f x s p.2).1, (p.1 ++ [x], (f x s p.2).2))) f0 v ([], g) =
      some (lanes (Arr.flat v : Vec w (K * r.lanes w)), g') ∧ forEach c k sg r f f0 v g = some g' := by
  set f' : BitVec w → σ → (List (BitVec w) × ω) → σ × (List (BitVec w) × ω) :=
    fun x s (p : List (BitVec w) × ω) => ((f x s p.2).1, (p.1 ++ [x], (f x s p.2).2)) with hf'
  have hc : ∀ {N : Nat} (V : Vec w N) (m i : Nat) (s : σ) (p : List (BitVec w) × ω),
      (callRange f' V i m (s, p)).2 =
        (p.1 ++ ((List.range m).map fun j => V.at_ (i + j)), (callRange f V i m (s, p.2)).2) := by
    intro N V m
    induction m with
    | zero => intro i s p; simp [callRange]
    | succ m ih =>
      intro i s p
      have e : callRange f' V i (m + 1) (s, p) =
        callRange f' V (i + 1) m ((f (V.at_ i) s p.2).1, (p.1 ++ [V.at_ i], (f (V.at_ i) s p.2).2)) := rfl
      rw [e, ih, List.range_succ_eq_map, List.map_cons, List.map_map]
      refine Prod.ext ?_ rfl
      simp only [Nat.add_zero, List.append_assoc, List.cons_append, List.nil_append]
      congr 2
      refine List.map_congr_left fun j _ => ?_
      show V.at_ (i + 1 + j) = V.at_ (i + (j + 1))
      rw [show i + 1 + j = i + (j + 1) by omega]
  unfold forEach
  rw [forEachRegs_eq h hw hr hm f' f0 v K 0 _ (by omega), forEachRegs_eq h hw hr hm f f0 v K 0 _ (by omega)]
  refine ⟨_, congrArg some ?_, rfl⟩
  unfold lanes
  generalize (Arr.flat v : Vec w (K * r.lanes w)) = V
  simp only [hc, Nat.zero_add]
  clear v
  generalize r.lanes w = l at V
  change Vec w (K * l) at V
  suffices ∀ m (p : List (BitVec w) × ω),
      (List.range m).foldl (fun (p : List (BitVec w) × ω) q => (p.1 ++ ((List.range l).map fun j => V.at_ (q * l + j)),
        (callRange f V (q * l) l (f0, p.2)).2)) p =
      (p.1 ++ (List.range (m * l)).map V.at_, (List.range m).foldl (fun g q => (callRange f V (q * l) l (f0, g)).2) p.2) from by
    have := this K ([], g)
    simpa using this
  intro m
  induction m with
  | zero => intro p; simp
  | succ m ih =>
    intro p
    rw [List.range_succ, List.foldl_append, ih, Nat.succ_mul, List.range_add, List.map_append, List.foldl_append,
      List.map_map]
    simp only [List.foldl_cons, List.foldl_nil, List.append_assoc]
    rfl

/-- The function object is copied once per register: members updated while visiting one register are lost before the
next, so an object that counts in a data member sees the counts `0, ..., lanes-1` again in every register
(documented as equivalent to consecutive calls of one object, core/for_each.h:21-30). Here the object adds to the
list the number of calls it has seen. -/
theorem C41_copies_functor {sg : Bool} (hw : k.okW w) (hr : c.hasVec k w r = true)
    (hm : ¬ (w = 64 ∧ k = .int ∧ msa32s c sg)) {K : Nat} (v : Fin K → Vec w (r.lanes w)) :
    forEach c k sg r (fun _ (s : Nat) (g : List Nat) => (s + 1, g ++ [s])) 0 v [] =
      some ((List.range K).flatMap fun _ => List.range (r.lanes w)) := by
  have hc : ∀ {N : Nat} (V : Vec w N) (m i s : Nat) (g : List Nat),
      callRange (fun _ (s : Nat) (g : List Nat) => (s + 1, g ++ [s])) V i m (s, g) = (s + m, g ++ (List.range m).map (s + ·)) := by
    intro N V m
    induction m with
    | zero => intro i s g; simp [callRange]
    | succ m ih =>
      intro i s g
      have e : callRange (fun _ (s : Nat) (g : List Nat) => (s + 1, g ++ [s])) V i (m + 1) (s, g) =
        callRange (fun _ (s : Nat) (g : List Nat) => (s + 1, g ++ [s])) V (i + 1) m (s + 1, g ++ [s]) := rfl
      rw [e, ih, List.range_succ_eq_map, List.map_cons, List.map_map]
      refine Prod.ext (by simp only; omega) ?_
      simp only [List.append_assoc, List.cons_append, List.nil_append, Nat.add_zero]
      congr 2
      refine List.map_congr_left fun j _ => ?_
      show s + 1 + j = s + (j + 1)
      omega
  unfold forEach
  rw [forEachRegs_eq h hw hr hm _ 0 v K 0 [] (by omega)]
  refine congrArg some ?_
  simp only [hc, Nat.zero_add, List.map_id']
  generalize r.lanes w = l
  suffices ∀ m (g : List Nat), (List.range m).foldl (fun g _ => g ++ List.range l) g =
      g ++ (List.range m).flatMap fun _ => List.range l from by simpa using this K []
  intro m
  induction m with
  | zero => intro g; simp
  | succ m ih => intro g; rw [List.range_succ, List.foldl_append, ih]; simp

end

example (v : Fin 3 → Vec 16 8) :
    forEach Cfg.sse2Only .int true .r128 (fun x (s : Unit) (g : List (BitVec 16)) => (s, g ++ [x])) () v [] =
      some ((lanes (Arr.flat v : Vec 16 24)).foldl (fun g x => g ++ [x]) []) :=
  C41_for_each_partial (r := .r128) (k := .int) Cfg.sse2Only_ok iw16 rfl (fun g => absurd g.1 (by decide))
    (fun x g => g ++ [x]) v []

end Simdpp
