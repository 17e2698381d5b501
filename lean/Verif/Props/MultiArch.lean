import Verif.Model.MultiArch
import Verif.Props.ArchSel
import Mathlib.Data.Nat.Bitwise
import Mathlib.Tactic.IntervalCases

/-! # C57: multi-architecture programs -/

namespace Simdpp.ArchSel

open Dispatch

/-! ### Specification -/

/-- The processor families. -/
inductive Family | x86 | arm | power | mips
deriving DecidableEq, Repr

/-- The family an instruction set belongs to. -/
def family : Insn → Family
  | .neon => .arm | .neonFltSp => .arm | .altivec => .power | .vsx206 => .power | .vsx207 => .power | .msa => .mips | _ => .x86

/-- Code compiled with the given macros uses an instruction set if it was asked for or is a prerequisite of one it uses. -/
inductive Needs (requested : Insn → Bool) : Insn → Prop
  | asked {i : Insn} : requested i = true → Needs requested i
  | implied {i j : Insn} : Needs requested i → j ∈ requires i → Needs requested j

/-- `arch` is what the detection functions report on a processor of the family with the instruction sets `cpu`. -/
def Detected (fam : Family) (cpu : Insn → Prop) (arch : Arch) : Prop :=
  ∀ i, family i = fam → (arch.getLsbD (archBit i) = true ↔ cpu i)

/-- A unit was compiled with exactly the macros of a slot's list. -/
def Matches {F : Type} (o : Obj F) (l : List Insn) : Prop := ∀ i, o.requested i = true ↔ i ∈ l

/-- A well-formed multi-architecture program for one processor family: the units are compiled for different instruction sets, every
defined slot (at most 14 macros each) has its unit, and no two slots stand for the same instruction sets. -/
structure Program {F : Type} (fam : Family) (objs : List (Obj F)) (slots : Nat → Option (List Insn)) : Prop where
  fams : ∀ o ∈ objs, ∀ i, o.requested i = true → family i = fam
  fma : ∀ o ∈ objs, ¬ (o.requested .fma3 = true ∧ o.requested .fma4 = true)
  units : objs.Pairwise fun o o' => ∃ i, ¬ (Needs o.requested i ↔ Needs o'.requested i)
  len : ∀ k l, 1 ≤ k → k ≤ 15 → slots k = some l → l.length ≤ 14
  unit : ∀ k l, 1 ≤ k → k ≤ 15 → slots k = some l → ∃ o ∈ objs, Matches o l
  differ : ∀ k k' l l', 1 ≤ k → k ≤ 15 → 1 ≤ k' → k' ≤ 15 → k ≠ k' → slots k = some l → slots k' = some l' →
    ∃ i, ¬ (Needs (fun i => decide (i ∈ l)) i ↔ Needs (fun i => decide (i ∈ l')) i)

/-- A unit is registered with the dispatcher. -/
def Registered {F : Type} (slots : Nat → Option (List Insn)) (o : Obj F) : Prop :=
  ∃ k l, 1 ≤ k ∧ k ≤ 15 ∧ slots k = some l ∧ Matches o l

/-- Every instruction the unit uses exists on the processor. -/
def RunsOn {F : Type} (cpu : Insn → Prop) (o : Obj F) : Prop := ∀ i, Needs o.requested i → cpu i

/-! ### Names -/

theorem prefix_inj {A B : Type} (code : A → List B) (hc : ∀ a b, code a <+: code b → a = b) (hn : ∀ a, code a ≠ []) :
    ∀ l l' : List A, l.flatMap code = l'.flatMap code → l = l'
  | [], [], _ => rfl
  | [], b :: l', h => by
    simp only [List.flatMap_nil, List.flatMap_cons] at h
    exact absurd (List.append_eq_nil_iff.1 h.symm).1 (hn b)
  | a :: l, [], h => by
    simp only [List.flatMap_nil, List.flatMap_cons] at h
    exact absurd (List.append_eq_nil_iff.1 h).1 (hn a)
  | a :: l, b :: l', h => by
    simp only [List.flatMap_cons] at h
    have hab : a = b := by
      rcases List.append_eq_append_iff.1 h with ⟨x, hx, _⟩ | ⟨x, hx, _⟩
      · exact hc a b ⟨x, hx.symm⟩
      · exact (hc b a ⟨x, hx.symm⟩).symm
    subst hab
    rw [prefix_inj code hc hn l l' (List.append_cancel_left h)]

/-- The id without its leading underscore, with an underscore after it. -/
def word (i : Option Insn) : List Char := (insnId i).tail ++ ['_']

theorem insnId_eq (i : Option Insn) : insnId i = '_' :: (insnId i).tail := by
  rcases i with _ | i
  · rfl
  · cases i <;> rfl

theorem rotate (l : List (Option Insn)) : l.flatMap insnId ++ ['_'] = '_' :: l.flatMap word := by
  induction l with
  | nil => rfl
  | cons a l ih =>
    rw [List.flatMap_cons, List.flatMap_cons, List.append_assoc, ih, insnId_eq a]
    simp [word]

theorem word_prefix : ∀ a b, word a <+: word b → a = b := by
  have h : ∀ a ∈ nsOrder, ∀ b ∈ nsOrder, word a <+: word b → a = b := by decide +kernel
  have hm : ∀ a, a ∈ nsOrder := by
    intro a
    rcases a with _ | i
    · decide
    · cases i <;> decide
  exact fun a b => h a (hm a) b (hm b)

theorem word_ne (a : Option Insn) : word a ≠ [] := by simp [word]

theorem mem_nsOrder (a : Option Insn) : a ∈ nsOrder := by
  rcases a with _ | i
  · decide
  · cases i <;> decide

theorem flatMap_if {A B : Type} (b : A → Bool) (f : A → List B) (l : List A) :
    (l.flatMap fun i => if b i then f i else []) = (l.filter b).flatMap f := by
  induction l with
  | nil => rfl
  | cons a l ih =>
    rw [List.flatMap_cons, ih, List.filter_cons]
    cases b a <;> simp

/-- C57: two builds get the same namespace name only if they enable the same instruction sets: as character strings, although `_avx` is a
prefix of `_avx2` and `_vsx_206` contains an underscore. -/
theorem C57_name_injective (u v : Set) (hu : ClosedSet u) (hv : ClosedSet v) (h : nsName u = nsName v) : u = v := by
  apply C39_namespace_injective u v hu hv
  unfold nsName at h
  rw [flatMap_if, flatMap_if] at h
  have h := congrArg (· ++ ['_']) (List.append_cancel_left h)
  simp only [rotate, List.cons.injEq, true_and] at h
  have h := prefix_inj word word_prefix word_ne _ _ h
  funext i
  have e : i ∈ nsOrder.filter (nsIds u) ↔ i ∈ nsOrder.filter (nsIds v) := by rw [h]
  simp only [List.mem_filter, mem_nsOrder, true_and] at e
  cases h1 : nsIds u i <;> cases h2 : nsIds v i <;> simp_all

/-! ### Sets -/

theorem needs_iff {requested u : Set} (h : preprocess requested = some u) (i : Insn) : u i = true ↔ Needs requested i := by
  obtain ⟨h1, h2, h3⟩ := C39_least_closed requested u h
  constructor
  · intro hi
    classical
    have := h3 (fun i => decide (Needs requested i)) (fun i hi => by simpa using Needs.asked hi)
      (fun i hi j hj => by simp only [decide_eq_true_eq] at *; exact Needs.implied hi hj) i hi
    simpa using this
  · intro hi
    induction hi with
    | asked hi => exact h1 _ hi
    | implied _ hj ih => exact h2 _ ih _ hj

theorem preprocess_some {requested : Set} (h : ¬ (requested .fma3 = true ∧ requested .fma4 = true)) :
    preprocess requested = some (close requested) := by
  have h' := (C39_rejected_iff requested).not.2 h
  unfold preprocess at *
  dsimp only at *
  split_ifs at * with hh
  · exact absurd rfl h'
  · rfl

theorem preprocess_closed {requested u : Set} (h : preprocess requested = some u) : ClosedSet u := (C39_least_closed requested u h).2.1

theorem needs_family {requested : Set} {fam : Family} (h : ∀ i, requested i = true → family i = fam) {i : Insn} (hi : Needs requested i) :
    family i = fam := by
  induction hi with
  | asked hi => exact h _ hi
  | implied _ hj ih =>
    rename_i i j _
    revert hj ih
    cases i <;> cases j <;> simp [requires, family]

theorem eq_of_needs {r r' u u' : Set} (h : preprocess r = some u) (h' : preprocess r' = some u') (e : ∀ i, Needs r i ↔ Needs r' i) : u = u' := by
  funext i
  rw [Bool.eq_iff_iff, needs_iff h, needs_iff h', e]

/-! ### Linking -/

theorem mapM_all {A B : Type} (f : A → Option B) (g : A → B) : ∀ l : List A, (∀ x ∈ l, f x = some (g x)) → l.mapM f = some (l.map g)
  | [], _ => rfl
  | a :: l, h => by
    rw [List.mapM_cons, h a List.mem_cons_self, mapM_all f g l fun x hx => h x (List.mem_cons_of_mem _ hx)]
    rfl

theorem mapM_none {A B : Type} (f : A → Option B) : ∀ l : List A, (∃ x ∈ l, f x = none) → l.mapM f = none
  | [], h => by simp at h
  | a :: l, h => by
    rw [List.mapM_cons]
    cases ha : f a with
    | none => rfl
    | some b =>
      obtain ⟨x, hx, h⟩ := h
      rcases List.mem_cons.1 hx with rfl | hx
      · rw [ha] at h; cases h
      · rw [mapM_none f l ⟨x, hx, h⟩]; rfl

theorem mapM_mem {A B : Type} (f : A → Option B) : ∀ (l : List A) (ys : List B), l.mapM f = some ys →
    (∀ x ∈ l, ∃ y ∈ ys, f x = some y) ∧ ∀ y ∈ ys, ∃ x ∈ l, f x = some y
  | [], ys, h => by
    cases h
    exact ⟨fun x hx => (nomatch hx), fun x hx => (nomatch hx)⟩
  | a :: l, ys, h => by
    rw [List.mapM_cons] at h
    cases ha : f a with
    | none => rw [ha] at h; cases h
    | some b =>
      cases hl : l.mapM f with
      | none => rw [ha, hl] at h; cases h
      | some zs =>
        rw [ha, hl] at h
        have h : b :: zs = ys := Option.some.inj h
        subst h
        obtain ⟨h1, h2⟩ := mapM_mem f l zs hl
        refine ⟨fun x hx => ?_, fun y hy => ?_⟩
        · rcases List.mem_cons.1 hx with rfl | hx
          · exact ⟨b, List.mem_cons_self, ha⟩
          · obtain ⟨y, hy, h⟩ := h1 x hx
            exact ⟨y, List.mem_cons_of_mem _ hy, h⟩
        · rcases List.mem_cons.1 hy with rfl | hy
          · exact ⟨a, List.mem_cons_self, ha⟩
          · obtain ⟨x, hx, h⟩ := h2 y hy
            exact ⟨x, List.mem_cons_of_mem _ hx, h⟩

variable {F : Type}

/-- C57: the units link (each compiles and no two define the same symbol) exactly if none was given both FMA variants and no two use the
same instruction sets. -/
theorem C57_links_iff (objs : List (Obj F)) :
    (∃ syms, link objs = some syms) ↔
      (∀ o ∈ objs, ¬ (o.requested .fma3 = true ∧ o.requested .fma4 = true)) ∧
      objs.Pairwise fun o o' => ∃ i, ¬ (Needs o.requested i ↔ Needs o'.requested i) := by
  by_cases hf : ∀ o ∈ objs, ¬ (o.requested .fma3 = true ∧ o.requested .fma4 = true)
  · have hm := mapM_all Obj.symbol (fun o => (nsName (close o.requested), o.fn)) objs fun o ho => by
      unfold Obj.symbol; rw [preprocess_some (hf o ho)]; rfl
    unfold link
    rw [hm]
    have split : ∀ (p : Prop) (d : Decidable p) (x : List (List Char × F)), (∃ syms, @ite _ p d (some x) none = some syms) ↔ p := by
      intro p d x
      split_ifs with h <;> simp [h]
    dsimp only
    rw [split, List.map_map, List.nodup_iff_pairwise_ne, List.pairwise_map, and_iff_right hf]
    have key : ∀ o ∈ objs, ∀ o' ∈ objs, ((Prod.fst ∘ fun o : Obj F => (nsName (close o.requested), o.fn)) o ≠
        (Prod.fst ∘ fun o : Obj F => (nsName (close o.requested), o.fn)) o' ↔ ∃ i, ¬ (Needs o.requested i ↔ Needs o'.requested i)) := by
      intro o ho o' ho'
      have e := preprocess_some (hf o ho)
      have e' := preprocess_some (hf o' ho')
      rw [← not_forall]
      apply not_congr
      constructor
      · intro h i
        have := C57_name_injective _ _ (preprocess_closed e) (preprocess_closed e') h
        rw [← needs_iff e, ← needs_iff e', this]
      · intro h
        simp only [Function.comp_apply]
        rw [eq_of_needs e e' h]
    exact List.Pairwise.iff_of_mem fun {a b} ha hb => key a ha b hb
  · have hn : link objs = none := by
      unfold link
      simp only [not_forall, not_not] at hf
      obtain ⟨o, ho, h⟩ := hf
      rw [mapM_none _ _ ⟨o, ho, by unfold Obj.symbol; rw [(C39_rejected_iff _).2 h]; rfl⟩]
    constructor
    · rintro ⟨s, hs⟩; rw [hn] at hs; cases hs
    · rintro ⟨h, _⟩; exact absurd h hf

/-- C57: a slot beyond the fifteenth is ignored. -/
theorem C57_slots (syms : List (List Char × F)) (slots slots' : Nat → Option (List Insn)) (h : ∀ k, 1 ≤ k → k ≤ 15 → slots k = slots' k) :
    collect syms slots = collect syms slots' := by
  unfold collect maxArchs
  have e : ∀ k ∈ (List.range 15).map (· + 1), slots k = slots' k := by
    intro k hk
    simp only [List.mem_map, List.mem_range] at hk
    obtain ⟨j, hj, rfl⟩ := hk
    exact h _ (by omega) (by omega)
  dsimp only
  rw [List.map_congr_left fun k hk => by rw [e k hk]]
  have : ((List.range 15).map (· + 1)).mapM (fun k => registerSlot syms (slots k)) =
      ((List.range 15).map (· + 1)).mapM (fun k => registerSlot syms (slots' k)) := by
    generalize (List.range 15).map (· + 1) = l at e
    induction l with
    | nil => rfl
    | cons a l ih =>
      rw [List.mapM_cons, List.mapM_cons, e a List.mem_cons_self, ih fun k hk => e k (List.mem_cons_of_mem _ hk)]
  rw [this]

/-! ### Collecting -/

theorem resolve_mem {syms : List (List Char × F)} {n : List Char} {f : F} (hn : (syms.map Prod.fst).Nodup) (hm : (n, f) ∈ syms) :
    resolve syms n = some f := by
  unfold resolve
  induction syms with
  | nil => simp at hm
  | cons s syms ih =>
    rw [List.map_cons, List.nodup_cons] at hn
    rw [List.find?_cons]
    rcases List.mem_cons.1 hm with h | h
    · subst h; simp
    · have : s.1 ≠ n := fun e => hn.1 (e ▸ List.mem_map_of_mem (f := Prod.fst) h)
      simp only [this, decide_false]
      exact ih hn.2 h

theorem link_mem {objs : List (Obj F)} {syms : List (List Char × F)} (h : link objs = some syms) :
    (syms.map Prod.fst).Nodup ∧ ∀ o ∈ objs, ∀ u, preprocess o.requested = some u → (nsName u, o.fn) ∈ syms := by
  unfold link at h
  split at h
  · cases h
  · rename_i ys hm
    split_ifs at h with hn
    cases h
    refine ⟨hn, fun o ho u hu => ?_⟩
    obtain ⟨y, hy, h⟩ := (mapM_mem _ _ _ hm).1 o ho
    unfold Obj.symbol at h
    rw [hu] at h
    cases h
    exact hy

theorem matches_requested {o : Obj F} {l : List Insn} (hl : l.length ≤ 14) (h : Matches o l) : ofList l = o.requested := by
  funext i
  rw [Bool.eq_iff_iff, C39_list_mode l hl, h i]

/-- The version the dispatcher gets for a unit. -/
def versionOf (o : Obj F) : FnVersion F := create_fn_version (close o.requested) o.fn

theorem idx_mem {k : Nat} : k ∈ (List.range maxArchs).map (· + 1) ↔ 1 ≤ k ∧ k ≤ 15 := by
  unfold maxArchs
  simp only [List.mem_map, List.mem_range]
  constructor
  · rintro ⟨j, hj, rfl⟩; omega
  · intro h; exact ⟨k - 1, by omega, by omega⟩

theorem nodup_filterMap {A B : Type} (f : A → Option B) (l : List A) (hl : l.Nodup)
    (h : ∀ a ∈ l, ∀ b ∈ l, a ≠ b → ∀ y, f a = some y → f b ≠ some y) : ((l.map f).filterMap id).Nodup := by
  induction l with
  | nil => simp
  | cons a l ih =>
    rw [List.nodup_cons] at hl
    have ih := ih hl.2 fun x hx y hy => h x (List.mem_cons_of_mem _ hx) y (List.mem_cons_of_mem _ hy)
    rw [List.map_cons]
    cases ha : f a with
    | none => simpa using ih
    | some y =>
      rw [List.filterMap_cons_some (by rfl), List.nodup_cons]
      refine ⟨fun hy => ?_, ih⟩
      simp only [List.mem_filterMap, List.mem_map, id] at hy
      obtain ⟨z, ⟨b, hb, rfl⟩, hz⟩ := hy
      exact h a List.mem_cons_self b (List.mem_cons_of_mem _ hb) (fun e => hl.1 (e ▸ hb)) y ha hz

theorem needs_congr {r r' : Set} (h : ∀ i, r i = true ↔ r' i = true) (i : Insn) : Needs r i ↔ Needs r' i := by
  have : r = r' := by funext i; exact Bool.eq_iff_iff.2 (h i)
  rw [this]

/-- What the array of versions of a well-formed program holds. -/
theorem collect_eq {fam : Family} {objs : List (Obj F)} {slots : Nat → Option (List Insn)} (hp : Program fam objs slots) :
    ∃ syms versions, link objs = some syms ∧ collect syms slots = some versions ∧
      (∀ v ∈ versions, v.fun_ptr = none ∨ ∃ o ∈ objs, Registered slots o ∧ v = versionOf o) ∧
      ∀ o ∈ objs, Registered slots o → versionOf o ∈ versions := by
  obtain ⟨syms, hs⟩ := (C57_links_iff objs).2 ⟨hp.fma, hp.units⟩
  obtain ⟨hn, hm⟩ := link_mem hs
  -- every slot registers
  have hreg : ∀ k, 1 ≤ k → k ≤ 15 → ∀ o ∈ objs, ∀ l, slots k = some l → Matches o l → registerSlot syms (slots k) = some (versionOf o) := by
    intro k h1 h2 o ho l hl ho'
    have e := preprocess_some (hp.fma o ho)
    rw [hl]
    unfold registerSlot
    dsimp only
    rw [matches_requested (hp.len k l h1 h2 hl) ho', e]
    dsimp only
    rw [resolve_mem hn (hm o ho _ e)]
    rfl
  have hall : ∀ k ∈ (List.range maxArchs).map (· + 1), ∃ v, registerSlot syms (slots k) = some v := by
    intro k hk
    obtain ⟨h1, h2⟩ := idx_mem.1 hk
    cases hl : slots k with
    | none => exact ⟨_, rfl⟩
    | some l =>
      obtain ⟨o, ho, ho'⟩ := hp.unit k l h1 h2 hl
      exact ⟨_, hl ▸ hreg k h1 h2 o ho l hl ho'⟩
  have hnd : (((List.range maxArchs).map (· + 1)).map (fun k => slotName (slots k))).filterMap id |>.Nodup := by
    apply nodup_filterMap
    · exact (List.nodup_range).map (fun a b h => by simpa using h)
    · intro a ha b hb hab y hya hyb
      obtain ⟨h1, h2⟩ := idx_mem.1 ha
      obtain ⟨h3, h4⟩ := idx_mem.1 hb
      cases hla : slots a with
      | none => rw [hla] at hya; cases hya
      | some l =>
        cases hlb : slots b with
        | none => rw [hlb] at hyb; cases hyb
        | some l' =>
          obtain ⟨o, ho, hm1⟩ := hp.unit a l h1 h2 hla
          obtain ⟨o', ho', hm2⟩ := hp.unit b l' h3 h4 hlb
          have e := preprocess_some (hp.fma o ho)
          have e' := preprocess_some (hp.fma o' ho')
          rw [hla] at hya
          rw [hlb] at hyb
          unfold slotName at hya hyb
          simp only [Option.bind_some] at hya hyb
          rw [matches_requested (hp.len a l h1 h2 hla) hm1, e] at hya
          rw [matches_requested (hp.len b l' h3 h4 hlb) hm2, e'] at hyb
          have hh := C57_name_injective _ _ (preprocess_closed e) (preprocess_closed e') (Option.some.inj (hya.trans hyb.symm))
          obtain ⟨i, hi⟩ := hp.differ a b l l' h1 h2 h3 h4 hab hla hlb
          apply hi
          rw [needs_congr (r' := o.requested) (fun i => by simp [hm1 i]), needs_congr (r := fun i => decide (i ∈ l')) (r' := o'.requested)
            (fun i => by simp [hm2 i]), ← needs_iff e, ← needs_iff e', hh]
  haveI : Nonempty (FnVersion F) := ⟨⟨0, none⟩⟩
  choose! g hg using hall
  have hcol := mapM_all _ g _ hg
  refine ⟨syms, ((List.range maxArchs).map (· + 1)).map g, hs, ?_, ?_, ?_⟩
  · unfold collect
    dsimp only
    rw [if_pos hnd, hcol]
  · intro v hv
    obtain ⟨k, hk, rfl⟩ := List.mem_map.1 hv
    obtain ⟨h1, h2⟩ := idx_mem.1 hk
    have := hg k hk
    cases hl : slots k with
    | none =>
      rw [hl] at this
      have := Option.some.inj this
      rw [← this]
      exact Or.inl rfl
    | some l =>
      obtain ⟨o, ho, ho'⟩ := hp.unit k l h1 h2 hl
      rw [hreg k h1 h2 o ho l hl ho'] at this
      exact Or.inr ⟨o, ho, ⟨k, l, h1, h2, hl, ho'⟩, (Option.some.inj this).symm⟩
  · rintro o ho ⟨k, l, h1, h2, hl, ho'⟩
    have hk := idx_mem.2 ⟨h1, h2⟩
    have := hg k hk
    rw [hreg k h1 h2 o ho l hl ho'] at this
    rw [Option.some.inj this]
    exact List.mem_map_of_mem hk

/-! ### Selection -/

theorem version_bit {o : Obj F} (h : ¬ (o.requested .fma3 = true ∧ o.requested .fma4 = true)) (k : Nat) :
    (versionOf o).needed_arch.getLsbD k = true ↔ ∃ i, archBit i = k ∧ Needs o.requested i := by
  have e := preprocess_some h
  have he : ∀ i, enabled (setup (close o.requested) false) i = close o.requested i := by
    intro i; cases i <;> simp [enabled, setup]
  unfold versionOf create_fn_version
  simp only [C39_this_compile_arch, he, needs_iff e]

theorem archBit_inj {i j : Insn} (hf : family i = family j) (h : archBit i = archBit j) : i = j := by
  revert hf h
  cases i <;> cases j <;> simp [family, archBit]

theorem runs_iff {o : Obj F} {fam : Family} {cpu : Insn → Prop} {arch : Arch} (hd : Detected fam cpu arch)
    (h : ¬ (o.requested .fma3 = true ∧ o.requested .fma4 = true)) (hf : ∀ i, o.requested i = true → family i = fam) :
    Runnable arch (versionOf o) ↔ RunsOn cpu o := by
  unfold Runnable RunsOn
  simp only [version_bit h]
  constructor
  · rintro ⟨_, h1⟩ i hi
    exact (hd i (needs_family hf hi)).1 (h1 _ ⟨i, rfl, hi⟩)
  · intro h1
    refine ⟨by simp [versionOf, create_fn_version], ?_⟩
    rintro k ⟨i, rfl, hi⟩
    exact (hd i (needs_family hf hi)).2 (h1 i hi)

theorem toNat_lt_bits {w : Nat} (a b : BitVec w) (h : a.toNat ≤ b.toNat) (hne : a ≠ b) :
    ∃ n, a.getLsbD n = false ∧ b.getLsbD n = true ∧ ∀ j, n < j → a.getLsbD j = b.getLsbD j := by
  have hx : a.toNat ^^^ b.toNat ≠ 0 := by
    intro h0
    exact hne (BitVec.eq_of_toNat_eq (Nat.xor_eq_zero_iff.1 h0))
  obtain ⟨n, hn, hh⟩ := Nat.exists_most_significant_bit hx
  have hh' : ∀ j, n < j → a.toNat.testBit j = b.toNat.testBit j := by
    intro j hj
    have := hh j hj
    rw [Nat.testBit_xor] at this
    simpa using this
  rw [Nat.testBit_xor] at hn
  refine ⟨n, ?_⟩
  simp only [BitVec.testBit_toNat] at hn hh'
  cases ha : a.getLsbD n
  · rw [ha] at hn
    exact ⟨rfl, by simpa using hn, hh'⟩
  · rw [ha] at hn
    have hb : b.getLsbD n = false := by simpa using hn
    have := Nat.lt_of_testBit n (by rw [BitVec.testBit_toNat]; exact hb) (by rw [BitVec.testBit_toNat]; exact ha)
      (fun j hj => by rw [BitVec.testBit_toNat, BitVec.testBit_toNat]; exact (hh' j hj).symm)
    omega

variable {fam : Family} {objs : List (Obj F)} {slots : Nat → Option (List Insn)} {cpu : Insn → Prop} {arch : Arch}

theorem dispatch_cases (hp : Program fam objs slots) {r : Option F} (h : Dispatches objs slots arch r) :
    ∃ versions v, SelectsAny versions arch v ∧ v.bind FnVersion.fun_ptr = r ∧
      (∀ v ∈ versions, v.fun_ptr = none ∨ ∃ o ∈ objs, Registered slots o ∧ v = versionOf o) ∧
      ∀ o ∈ objs, Registered slots o → versionOf o ∈ versions := by
  obtain ⟨syms, versions, hs, hc, h1, h2⟩ := collect_eq hp
  obtain ⟨syms', versions', v, hs', hc', hv, hr⟩ := h
  rw [hs] at hs'
  cases hs'
  rw [hc] at hc'
  cases hc'
  exact ⟨_, v, hv, hr, h1, h2⟩

/-- C57: a well-formed program compiles, links and dispatches. -/
theorem C57_builds (hp : Program fam objs slots) (arch : Arch) : ∃ r, Dispatches objs slots arch r := by
  obtain ⟨syms, versions, hs, hc, _⟩ := collect_eq hp
  obtain ⟨v, hv⟩ := C36_total versions arch
  exact ⟨_, syms, versions, v, hs, hc, hv, rfl⟩

/-- C57: the function called is the one of a registered unit, every instruction set that unit was compiled for exists on the processor, and
any other registered unit which could run loses to it: the most advanced instruction set used by only one of the two is used by
the one called. -/
theorem C57_selects (hp : Program fam objs slots) (hd : Detected fam cpu arch) (f : F) (h : Dispatches objs slots arch (some f)) :
    ∃ o ∈ objs, o.fn = f ∧ Registered slots o ∧ RunsOn cpu o ∧
      ∀ o' ∈ objs, Registered slots o' → RunsOn cpu o' →
        (∀ i, Needs o'.requested i ↔ Needs o.requested i) ∨
        ∃ i, Needs o.requested i ∧ ¬ Needs o'.requested i ∧ ∀ j, Needs o'.requested j → ¬ Needs o.requested j → archBit j < archBit i := by
  obtain ⟨versions, v, hv, hr, h1, h2⟩ := dispatch_cases hp h
  cases v with
  | none => cases hr
  | some v =>
    have hr : v.fun_ptr = some f := hr
    obtain ⟨hm, hrun, hbest⟩ := C36_selects_best _ _ _ hv
    obtain h0 | ⟨o, ho, hreg, rfl⟩ := h1 v hm
    · rw [h0] at hr; cases hr
    · refine ⟨o, ho, by simpa [versionOf, create_fn_version] using hr, hreg, (runs_iff hd (hp.fma o ho) (hp.fams o ho)).1 hrun, ?_⟩
      intro o' ho' hreg' hrun'
      have hle := hbest _ (h2 o' ho' hreg') ((runs_iff hd (hp.fma o' ho') (hp.fams o' ho')).2 hrun')
      have key : ∀ (p q : Obj F), p ∈ objs → q ∈ objs → ∀ n i, archBit i = n → Needs p.requested i →
          (versionOf q).needed_arch.getLsbD n = false → ¬ Needs q.requested i := by
        intro p q hpp hq n i hi _ hb hc
        have := (version_bit (hp.fma q hq) n).2 ⟨i, hi, hc⟩
        rw [hb] at this; cases this
      have conv : ∀ (p q : Obj F), p ∈ objs → q ∈ objs → ∀ i, Needs p.requested i → (versionOf q).needed_arch.getLsbD (archBit i) = true →
          Needs q.requested i := by
        intro p q hpp hq i hi hb
        obtain ⟨j, hj, hn⟩ := (version_bit (hp.fma q hq) _).1 hb
        rwa [← archBit_inj ((needs_family (hp.fams q hq) hn).trans (needs_family (hp.fams p hpp) hi).symm) hj]
      by_cases e : (versionOf o').needed_arch = (versionOf o).needed_arch
      · left
        intro i
        constructor
        · intro hi
          exact conv o' o ho' ho i hi (e ▸ (version_bit (hp.fma o' ho') _).2 ⟨i, rfl, hi⟩)
        · intro hi
          exact conv o o' ho ho' i hi (e ▸ (version_bit (hp.fma o ho) _).2 ⟨i, rfl, hi⟩)
      · right
        obtain ⟨n, hn, hn', hh⟩ := toNat_lt_bits _ _ hle e
        obtain ⟨i, hi, hin⟩ := (version_bit (hp.fma o ho) n).1 hn'
        refine ⟨i, hin, key o o' ho ho' n i hi hin hn, fun j hj hj' => ?_⟩
        have hb := (version_bit (hp.fma o' ho') _).2 ⟨j, rfl, hj⟩
        by_contra hc
        rcases Nat.lt_or_ge n (archBit j) with hlt | hge
        · rw [hh _ hlt] at hb
          exact hj' (conv o' o ho' ho j hj hb)
        · have : archBit j = n := by omega
          rw [this, hn] at hb
          cases hb

/-- C57: the dispatcher aborts only if no registered unit can run. -/
theorem C57_aborts (hp : Program fam objs slots) (hd : Detected fam cpu arch) (h : Dispatches objs slots arch none) :
    ∀ o ∈ objs, Registered slots o → ¬ RunsOn cpu o := by
  obtain ⟨versions, v, hv, hr, h1, h2⟩ := dispatch_cases hp h
  intro o ho hreg hrun
  have hrun := (runs_iff hd (hp.fma o ho) (hp.fams o ho)).2 hrun
  cases v with
  | none => exact (C36_aborts_iff _ _).1 hv _ (h2 o ho hreg) hrun
  | some v =>
    have hb := (C36_selects_best _ _ _ hv).2.1.1
    exact hb hr

/-- C57: with a unit for no instruction set at all among the registered ones, the dispatcher never aborts. -/
theorem C57_null_never_aborts (hp : Program fam objs slots) (o : Obj F) (ho : o ∈ objs) (hreg : Registered slots o)
    (hnull : ∀ i, o.requested i = false) (hd : Detected fam cpu arch) : ¬ Dispatches objs slots arch none := by
  intro h
  apply C57_aborts hp hd h o ho hreg
  have hno : ∀ i, ¬ Needs o.requested i := by
    intro i hi
    induction hi with
    | asked hi => rw [hnull] at hi; cases hi
    | implied _ _ ih => exact ih
  exact fun i hi => absurd hi (hno i)

theorem unit_unique (hp : Program fam objs slots) {o o' : Obj F} (ho : o ∈ objs) (ho' : o' ∈ objs)
    (e : ∀ i, Needs o'.requested i ↔ Needs o.requested i) : o = o' := by
  by_contra hne
  have hu := hp.units
  have : ∀ (l : List (Obj F)), l.Pairwise (fun o o' => ∃ i, ¬ (Needs o.requested i ↔ Needs o'.requested i)) → o ∈ l → o' ∈ l → False := by
    intro l hl h1 h2
    induction l with
    | nil => cases h1
    | cons a l ih =>
      rw [List.pairwise_cons] at hl
      rcases List.mem_cons.1 h1 with h1 | h1
      · rcases List.mem_cons.1 h2 with h2 | h2
        · exact hne (h1.trans h2.symm)
        · obtain ⟨i, hi⟩ := hl.1 _ h2
          exact hi (h1 ▸ (e i).symm)
      · rcases List.mem_cons.1 h2 with h2 | h2
        · obtain ⟨i, hi⟩ := hl.1 _ h1
          exact hi (h2 ▸ e i)
        · exact ih hl.2 h1 h2
  exact this objs hu ho ho'

/-- C57: which function is called does not depend on how the unstable sort orders the versions: it is determined by the processor. -/
theorem C57_deterministic (hp : Program fam objs slots) (hd : Detected fam cpu arch) (r r' : Option F) (h : Dispatches objs slots arch r)
    (h' : Dispatches objs slots arch r') : r = r' := by
  cases r with
  | none =>
    cases r' with
    | none => rfl
    | some f =>
      obtain ⟨o, ho, _, h1, h2, _⟩ := C57_selects hp hd f h'
      exact absurd h2 (C57_aborts hp hd h o ho h1)
  | some f =>
    cases r' with
    | none =>
      obtain ⟨o, ho, _, h1, h2, _⟩ := C57_selects hp hd f h
      exact absurd h2 (C57_aborts hp hd h' o ho h1)
    | some f' =>
      obtain ⟨o, ho, rfl, h1, h2, h3⟩ := C57_selects hp hd f h
      obtain ⟨o', ho', rfl, h1', h2', h3'⟩ := C57_selects hp hd f' h'
      rcases h3 o' ho' h1' h2' with e | ⟨i, hi, hi', hj⟩
      · rw [unit_unique hp ho ho' e]
      · rcases h3' o ho h1 h2 with e | ⟨i', hi2, hi2', hj'⟩
        · rw [unit_unique hp ho' ho e]
        · have := hj i' hi2 hi2'
          have := hj' i hi hi'
          omega

/-! ### An example: three builds, a gap in the slots, an ignored sixteenth slot -/

def sampleObjs : List (Obj Nat) := [⟨fun _ => false, 0⟩, ⟨fun i => i = .sse2, 1⟩, ⟨fun i => i = .avx2 || i = .fma3, 2⟩]

def sampleSlots : Nat → Option (List Insn)
  | 1 => some [] | 2 => some [.sse2] | 4 => some [.fma3, .avx2] | 16 => some [.avx512f] | _ => none

theorem not_fma {r : Set} (h : (r .fma3 && r .fma4) = false) : ¬ (r .fma3 = true ∧ r .fma4 = true) := by
  rintro ⟨h1, h2⟩; rw [h1, h2] at h; cases h

theorem not_same {r r' : Set} (h : (r .fma3 && r .fma4) = false) (h' : (r' .fma3 && r' .fma4) = false) (i : Insn)
    (e : close r i ≠ close r' i) : ¬ (Needs r i ↔ Needs r' i) := by
  rw [← needs_iff (preprocess_some (not_fma h)), ← needs_iff (preprocess_some (not_fma h'))]
  exact fun he => e (Bool.eq_iff_iff.2 he)

theorem sampleProgram : Program .x86 sampleObjs sampleSlots where
  fams := by
    intro o ho i hi
    simp only [sampleObjs, List.mem_cons, List.not_mem_nil, or_false] at ho
    rcases ho with rfl | rfl | rfl
    · cases hi
    · cases of_decide_eq_true hi; rfl
    · simp only [Bool.or_eq_true, decide_eq_true_eq] at hi
      rcases hi with rfl | rfl <;> rfl
  fma := by
    intro o ho
    simp only [sampleObjs, List.mem_cons, List.not_mem_nil, or_false] at ho
    rcases ho with rfl | rfl | rfl <;> decide
  units := by
    unfold sampleObjs
    refine List.Pairwise.cons ?_ (List.Pairwise.cons ?_ (List.Pairwise.cons ?_ List.Pairwise.nil))
    · intro o ho
      simp only [List.mem_cons, List.not_mem_nil, or_false] at ho
      rcases ho with rfl | rfl
      · exact ⟨.sse2, not_same (by decide) (by decide) _ (by decide)⟩
      · exact ⟨.sse2, not_same (by decide) (by decide) _ (by decide)⟩
    · intro o ho
      simp only [List.mem_cons, List.not_mem_nil, or_false] at ho
      subst ho
      exact ⟨.avx, not_same (by decide) (by decide) _ (by decide)⟩
    · intro o ho; cases ho
  len := by
    intro k l h1 h2 h
    interval_cases k <;> simp only [sampleSlots, Option.some.injEq, reduceCtorEq] at h <;> subst h <;> decide
  unit := by
    intro k l h1 h2 h
    interval_cases k <;> simp only [sampleSlots, Option.some.injEq, reduceCtorEq] at h <;> subst h
    · exact ⟨_, List.mem_cons_self, fun i => by simp⟩
    · exact ⟨_, List.mem_cons_of_mem _ List.mem_cons_self, fun i => by simp⟩
    · exact ⟨_, List.mem_cons_of_mem _ (List.mem_cons_of_mem _ List.mem_cons_self), fun i => by simp [or_comm]⟩
  differ := by
    intro k k' l l' h1 h2 h3 h4 hne h h'
    interval_cases k <;> simp only [sampleSlots, Option.some.injEq, reduceCtorEq] at h <;> subst h <;>
      interval_cases k' <;> simp only [sampleSlots, Option.some.injEq, reduceCtorEq] at h' <;> subst h' <;>
      first
      | exact absurd rfl hne
      | exact ⟨.avx, not_same (by decide) (by decide) _ (by decide)⟩
      | exact ⟨.sse2, not_same (by decide) (by decide) _ (by decide)⟩

/-- On a processor with SSE2 to AVX2 but no FMA3 the SSE2 function is called, and only that one. -/
example (r : Option Nat) (arch : Arch) (cpu : Insn → Prop) (hd : Detected .x86 cpu arch) (h2 : cpu .sse2) (h3 : ¬ cpu .fma3)
    (h : Dispatches sampleObjs sampleSlots arch r) : r = some 1 := by
  have hrun : RunsOn cpu (⟨fun i => i = .sse2, 1⟩ : Obj Nat) := by
    intro i hi
    rw [← needs_iff (preprocess_some (not_fma (by decide)))] at hi
    revert hi
    cases i <;> first | (intro _; exact h2) | (intro hi; exact absurd hi (by decide))
  have hreg : Registered sampleSlots (⟨fun i => i = .sse2, 1⟩ : Obj Nat) := ⟨2, [.sse2], by decide, by decide, rfl, fun i => by simp⟩
  cases r with
  | none => exact absurd hrun (C57_aborts sampleProgram hd h _ (List.mem_cons_of_mem _ List.mem_cons_self) hreg)
  | some f =>
    obtain ⟨o, ho, rfl, _, ho', hb⟩ := C57_selects sampleProgram hd f h
    simp only [sampleObjs, List.mem_cons, List.not_mem_nil, or_false] at ho
    rcases ho with rfl | rfl | rfl
    · rcases hb _ (List.mem_cons_of_mem _ List.mem_cons_self) hreg hrun with e | ⟨i, hi, _⟩
      · exact absurd (e .sse2) (not_same (by decide) (by decide) _ (by decide))
      · rw [← needs_iff (preprocess_some (not_fma (by decide)))] at hi
        revert hi
        cases i <;> decide
    · rfl
    · exact absurd (ho' .fma3 (Needs.asked (by decide))) h3

/-- The name of the third build, as the compiler sees it. -/
example : nsName (close fun i => i = .avx2 || i = .fma3) = "arch_avx2_fma3".toList := by decide +kernel

/-- Two units compiled for the same instruction sets (asked for in different ways) do not link. -/
example : ¬ ∃ syms, link [(⟨fun i => i = .sse2 || i = .avx, 0⟩ : Obj Nat), ⟨fun i => i = .avx, 1⟩] = some syms := by
  rw [C57_links_iff]
  rintro ⟨_, h⟩
  rw [List.pairwise_cons] at h
  obtain ⟨i, hi⟩ := h.1 _ List.mem_cons_self
  apply hi
  rw [← needs_iff (preprocess_some (not_fma (by decide))), ← needs_iff (preprocess_some (not_fma (by decide)))]
  cases i <;> decide

end Simdpp.ArchSel
