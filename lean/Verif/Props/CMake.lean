import Verif.Model.CMake
import Verif.Props.MultiArch

/-! # C61: the generated multi-architecture build -/

namespace Simdpp.CMake

open ArchSel Dispatch

/-! ### Specification -/

/-- The instruction set an identifier stands for. -/
def Id.insn : Id → Insn
  | .X86_SSE2 => .sse2 | .X86_SSE3 => .sse3 | .X86_SSSE3 => .ssse3 | .X86_SSE4_1 => .sse41 | .X86_POPCNT_INSN => .popcnt
  | .X86_AVX => .avx | .X86_AVX2 => .avx2 | .X86_FMA3 => .fma3 | .X86_FMA4 => .fma4 | .X86_XOP => .xop | .X86_AVX512F => .avx512f
  | .X86_AVX512BW => .avx512bw | .X86_AVX512DQ => .avx512dq | .X86_AVX512VL => .avx512vl | .ARM_NEON => .neon | .ARM64_NEON => .neon
  | .MIPS_MSA => .msa | .POWER_ALTIVEC => .altivec | .POWER_VSX_206 => .vsx206 | .POWER_VSX_207 => .vsx207
  | .ARM_NEON_FLT_SP => .neonFltSp

/-- What the user writes for an element of an architecture definition: an identifier, or `NONE_NULL` (`none`). -/
def itemName : Option Id → List Char
  | none => cs! "NONE_NULL"
  | some i => i.name

/-- An architecture definition as the user writes it: a comma separated list. -/
def archStr (d : List (Option Id)) : List Char := [','].intercalate (d.map itemName)

/-- The instruction sets a definition asks for. -/
def asks (d : List (Option Id)) : Insn → Bool := fun i => decide (some i ∈ d.map (Option.map Id.insn))

/-- The compiler flags of the identifiers define no macros. -/
def Plain (cxx : Id → List Char) : Prop := ∀ i, ∀ w ∈ words (· = ' ') (cxx i), ¬ ['-', 'D'] <+: w

/-- The directory names contain no spaces. -/
def Src.Ok (s : Src) : Prop := ' ' ∉ s.sourceDir ∧ ' ' ∉ s.path

/-! ### Strings -/

theorem split_sep (p : Char → Bool) (a b : List Char) (c : Char) (hc : p c = true) : split p (a ++ c :: b) = split p a ++ split p b := by
  induction a with
  | nil => simp [split, hc]
  | cons x a ih =>
    rw [List.cons_append, split, split]
    split_ifs with h
    · rw [ih]; rfl
    · rw [ih]
      cases h2 : split p a with
      | nil =>
        exfalso
        revert h2
        cases a with
        | nil => simp [split]
        | cons y a =>
          simp only [split]
          split_ifs
          · simp
          · split <;> simp
      | cons y l => rfl

theorem split_none (p : Char → Bool) (a : List Char) (h : ∀ c ∈ a, p c = false) : split p a = [a] := by
  induction a with
  | nil => rfl
  | cons x a ih =>
    rw [split, if_neg (by rw [h x List.mem_cons_self]; exact Bool.false_ne_true), ih fun c hc => h c (List.mem_cons_of_mem _ hc)]

theorem words_sep (p : Char → Bool) (a b : List Char) (c : Char) (hc : p c = true) : words p (a ++ c :: b) = words p a ++ words p b := by
  unfold words
  rw [split_sep p a b c hc, List.filter_append]

theorem words_none (p : Char → Bool) (a : List Char) (h : ∀ c ∈ a, p c = false) (hn : a ≠ []) : words p a = [a] := by
  unfold words
  rw [split_none p a h]
  simp [hn]

theorem defs_sep (a b : List Char) : defs (a ++ ' ' :: b) = defs a ++ defs b := by
  unfold defs
  rw [words_sep _ _ _ _ (by decide), List.filterMap_append]

theorem defs_word (a : List Char) (h : ' ' ∉ a) (hn : a ≠ []) : defs a = (macroDef a).toList := by
  unfold defs
  rw [words_none _ _ (fun c hc => by simp only [decide_eq_false_iff_not]; rintro rfl; exact h hc) hn]
  cases hm : macroDef a <;> simp [hm]

theorem defs_plain {cxx : Id → List Char} (h : Plain cxx) (i : Id) : defs (cxx i) = [] := by
  unfold defs
  rw [List.filterMap_eq_nil_iff]
  intro w hw
  have := h i w hw
  unfold macroDef
  split
  · rename_i t
    exact absurd ⟨t, rfl⟩ this
  · rfl

/-! ### Sorting -/

theorem insert_map {A : Type} (f : A → List Char) (x : A) (l : List A) :
    ∃ l' : List A, l'.Perm (x :: l) ∧ insertStr (f x) (l.map f) = l'.map f := by
  induction l with
  | nil => exact ⟨[x], List.Perm.refl _, rfl⟩
  | cons a l ih =>
    rw [List.map_cons, insertStr]
    split_ifs
    · exact ⟨x :: a :: l, List.Perm.refl _, rfl⟩
    · obtain ⟨l', hp, e⟩ := ih
      exact ⟨a :: l', (hp.cons a).trans (List.Perm.swap _ _ _), by rw [e]; rfl⟩

theorem sort_map {A : Type} (f : A → List Char) (l : List A) : ∃ l' : List A, l'.Perm l ∧ sortStr (l.map f) = l'.map f := by
  induction l with
  | nil => exact ⟨[], List.Perm.refl _, rfl⟩
  | cons a l ih =>
    obtain ⟨l', hp, e⟩ := ih
    obtain ⟨l'', hp', e'⟩ := insert_map f a l'
    exact ⟨l'', hp'.trans (hp.cons a), by rw [List.map_cons, sortStr, e, e']⟩

theorem strLe_total : ∀ a b, strLe a b = true ∨ strLe b a = true
  | [], _ => Or.inl rfl
  | _ :: _, [] => Or.inr rfl
  | a :: s, b :: t => by
    unfold strLe
    by_cases h : a = b
    · subst h
      rw [if_pos rfl, if_pos rfl]
      exact strLe_total s t
    · rw [if_neg h, if_neg (Ne.symm h)]
      simp only [decide_eq_true_eq]
      omega

theorem strLe_trans : ∀ a b c, strLe a b = true → strLe b c = true → strLe a c = true
  | [], _, _, _, _ => rfl
  | _ :: _, [], _, h, _ => by cases h
  | _ :: _, _ :: _, [], _, h => by cases h
  | a :: s, b :: t, c :: u, h1, h2 => by
    unfold strLe at *
    by_cases hab : a = b
    · subst hab
      rw [if_pos rfl] at h1
      by_cases hac : a = c
      · subst hac
        rw [if_pos rfl] at h2 ⊢
        exact strLe_trans s t u h1 h2
      · rw [if_neg hac] at h2 ⊢
        exact h2
    · rw [if_neg hab] at h1
      by_cases hbc : b = c
      · subst hbc
        rw [if_neg hab]
        exact h1
      · rw [if_neg hbc] at h2
        simp only [decide_eq_true_eq] at h1 h2
        by_cases hac : a = c
        · subst hac
          exact absurd (Char.ext (UInt32.toNat.inj (Nat.le_antisymm h1 h2))) hab
        · rw [if_neg hac]
          simp only [decide_eq_true_eq]
          omega

theorem strLe_antisymm : ∀ a b, strLe a b = true → strLe b a = true → a = b
  | [], [], _, _ => rfl
  | [], _ :: _, _, h => by cases h
  | _ :: _, [], h, _ => by cases h
  | a :: s, b :: t, h1, h2 => by
    unfold strLe at *
    by_cases h : a = b
    · subst h
      rw [if_pos rfl] at h1 h2
      rw [strLe_antisymm s t h1 h2]
    · rw [if_neg h] at h1
      rw [if_neg (Ne.symm h)] at h2
      simp only [decide_eq_true_eq] at h1 h2
      exact absurd (Char.ext (UInt32.toNat.inj (Nat.le_antisymm h1 h2))) h

theorem insert_perm (s : List Char) (l : List (List Char)) : (insertStr s l).Perm (s :: l) := by
  obtain ⟨l', hp, e⟩ := insert_map id s l
  simp only [List.map_id, id] at e
  rw [e]; exact hp

theorem sort_perm (l : List (List Char)) : (sortStr l).Perm l := by
  obtain ⟨l', hp, e⟩ := sort_map id l
  simp only [List.map_id] at e
  rw [e]; exact hp

theorem insert_sorted (s : List Char) (l : List (List Char)) (h : l.Pairwise fun a b => strLe a b = true) :
    (insertStr s l).Pairwise fun a b => strLe a b = true := by
  induction l with
  | nil => simp [insertStr]
  | cons t l ih =>
    rw [List.pairwise_cons] at h
    rw [insertStr]
    split_ifs with hs
    · rw [List.pairwise_cons, List.pairwise_cons]
      refine ⟨fun x hx => ?_, h⟩
      rcases List.mem_cons.1 hx with rfl | hx
      · exact hs
      · exact strLe_trans _ _ _ hs (h.1 x hx)
    · rw [List.pairwise_cons]
      refine ⟨fun x hx => ?_, ih h.2⟩
      rcases List.mem_cons.1 ((insert_perm s l).mem_iff.1 hx) with rfl | hx
      · exact (strLe_total x t).resolve_left hs
      · exact h.1 x hx

theorem sort_sorted (l : List (List Char)) : (sortStr l).Pairwise fun a b => strLe a b = true := by
  induction l with
  | nil => exact List.Pairwise.nil
  | cons s l ih => exact insert_sorted s _ ih

theorem sort_eq {l l' : List (List Char)} (h : l.Perm l') : sortStr l = sortStr l' :=
  ((sort_perm l).trans (h.trans (sort_perm l').symm)).eq_of_pairwise (fun a b _ _ => strLe_antisymm a b) (sort_sorted l) (sort_sorted l')

/-! ### Names -/

theorem item_clean (x : Option Id) : (∀ c ∈ itemName x, (decide (c = ',')) = false) ∧ itemName x ≠ [] := by
  rcases x with _ | i
  · decide
  · revert i
    have : ∀ i ∈ allIds, (∀ c ∈ i.name, (decide (c = ',')) = false) ∧ i.name ≠ [] := by decide +kernel
    intro i
    exact this i (by cases i <;> decide)

theorem mem_allIds (i : Id) : i ∈ allIds := by cases i <;> decide

theorem words_arch (d : List (Option Id)) : words (· = ',') (archStr d) = d.map itemName := by
  induction d with
  | nil => rfl
  | cons x d ih =>
    cases d with
    | nil =>
      have e : archStr [x] = itemName x := by simp [archStr, List.intercalate]
      rw [e]
      exact words_none _ _ (item_clean x).1 (item_clean x).2
    | cons y d =>
      have e : archStr (x :: y :: d) = itemName x ++ ',' :: archStr (y :: d) := by
        simp [archStr, List.intercalate, List.intersperse]
      rw [e, words_sep _ _ _ _ (by decide), ih, words_none _ _ (item_clean x).1 (item_clean x).2]
      rfl

theorem findId_name (i : Id) : findId i.name = some i ∧ i.name ≠ cs! "NONE_NULL" := by
  have : ∀ i ∈ allIds, findId i.name = some i ∧ i.name ≠ cs! "NONE_NULL" := by decide +kernel
  exact this i (mem_allIds i)

/-- The part of the unique id of an element. -/
def sfx : Option Id → List Char
  | none => cs! "-null"
  | some i => i.suffix

theorem step_item (cxx : Id → List Char) (r : Info) (x : Option Id) : infoStep cxx r (itemName x) =
    match x with
    | none => { r with unique := r.unique ++ cs! "-null" }
    | some i => { defines := r.defines ++ [i.define], flags := r.flags ++ cs! " " ++ cxx i ++ cs! " -D" ++ i.define,
                  unique := r.unique ++ i.suffix } := by
  rcases x with _ | i
  · exact if_pos rfl
  · obtain ⟨h1, h2⟩ := findId_name i
    have e : itemName (some i) = i.name := rfl
    unfold infoStep
    rw [e, if_neg h2, h1]

theorem fold_unique (cxx : Id → List Char) (d : List (Option Id)) (r : Info) :
    ((d.map itemName).foldl (infoStep cxx) r).unique = r.unique ++ d.flatMap sfx := by
  induction d generalizing r with
  | nil => simp
  | cons x d ih =>
    rw [List.map_cons, List.foldl_cons, ih, step_item, List.flatMap_cons]
    rcases x with _ | i <;> simp [sfx]

theorem fold_defines (cxx : Id → List Char) (d : List (Option Id)) (r : Info) :
    ((d.map itemName).foldl (infoStep cxx) r).defines = r.defines ++ (d.filterMap id).map Id.define := by
  induction d generalizing r with
  | nil => simp
  | cons x d ih =>
    rw [List.map_cons, List.foldl_cons, ih, step_item]
    rcases x with _ | i <;> simp

theorem define_clean (i : Id) : ' ' ∉ i.define ∧ (∀ c ∈ i.define, identChar c = true) ∧ (∀ c ∈ i.define, decide (c = ',') = false) ∧
    i.define = macroName i.insn := by
  have : ∀ i ∈ allIds, ' ' ∉ i.define ∧ (∀ c ∈ i.define, identChar c = true) ∧ (∀ c ∈ i.define, decide (c = ',') = false) ∧
    i.define = macroName i.insn := by decide +kernel
  exact this i (mem_allIds i)

theorem takeWhile_ident (a b : List Char) (h : ∀ c ∈ a, identChar c = true) :
    (a ++ b).takeWhile identChar = a ++ b.takeWhile identChar ∧ (a ++ b).dropWhile identChar = b.dropWhile identChar := by
  induction a with
  | nil => exact ⟨rfl, rfl⟩
  | cons x a ih =>
    obtain ⟨h1, h2⟩ := ih fun c hc => h c (List.mem_cons_of_mem _ hc)
    have hx := h x List.mem_cons_self
    constructor
    · rw [List.cons_append, List.takeWhile_cons, hx]
      simp [h1]
    · rw [List.cons_append, List.dropWhile_cons, hx]
      simpa using h2

theorem macroDef_name (a : List Char) (h : ∀ c ∈ a, identChar c = true) : macroDef ('-' :: 'D' :: a) = some (a, cs! "1") := by
  obtain ⟨h1, h2⟩ := takeWhile_ident a [] h
  simp only [List.append_nil, List.takeWhile_nil, List.dropWhile_nil] at h1 h2
  unfold macroDef
  simp only [h1, h2]

theorem macroDef_val (a v : List Char) (h : ∀ c ∈ a, identChar c = true) : macroDef ('-' :: 'D' :: (a ++ '=' :: v)) = some (a, v) := by
  obtain ⟨h1, h2⟩ := takeWhile_ident a ('=' :: v) h
  have e1 : ('=' :: v).takeWhile identChar = [] := by rw [List.takeWhile_cons]; rfl
  have e2 : ('=' :: v).dropWhile identChar = '=' :: v := by rw [List.dropWhile_cons]; rfl
  rw [e1, List.append_nil] at h1
  rw [e2] at h2
  unfold macroDef
  simp only [h1, h2]

theorem macroDef_dash (a v : List Char) (h : ∀ c ∈ a, identChar c = true) :
    macroDef ('-' :: 'D' :: (a ++ '-' :: v)) = some (a, '-' :: v) := by
  obtain ⟨h1, h2⟩ := takeWhile_ident a ('-' :: v) h
  have e1 : ('-' :: v).takeWhile identChar = [] := by rw [List.takeWhile_cons]; rfl
  have e2 : ('-' :: v).dropWhile identChar = '-' :: v := by rw [List.dropWhile_cons]; rfl
  rw [e1, List.append_nil] at h1
  rw [e2] at h2
  unfold macroDef
  simp only [h1, h2]
  rfl

theorem fold_flags {cxx : Id → List Char} (hx : Plain cxx) (d : List (Option Id)) (r : Info) (a : List Char) :
    defs (a ++ ((d.map itemName).foldl (infoStep cxx) r).flags) =
      defs (a ++ r.flags) ++ (d.filterMap id).map fun i => (i.define, cs! "1") := by
  induction d generalizing r with
  | nil => simp
  | cons x d ih =>
    rw [List.map_cons, List.foldl_cons, ih, step_item]
    rcases x with _ | i
    · simp
    · obtain ⟨h1, h2, _⟩ := define_clean i
      have e : a ++ (r.flags ++ cs! " " ++ cxx i ++ cs! " -D" ++ i.define) =
          (a ++ r.flags) ++ ' ' :: (cxx i ++ ' ' :: ('-' :: 'D' :: i.define)) := by simp
      simp only [e]
      rw [defs_sep, defs_sep, defs_plain hx, defs_word ('-' :: 'D' :: i.define) (by simp [h1]) (by simp), macroDef_name _ h2]
      simp

theorem fold_end (cxx : Id → List Char) (d : List (Option Id)) (r : Info) :
    (d.filterMap id = [] → ((d.map itemName).foldl (infoStep cxx) r).flags = r.flags) ∧
    (d.filterMap id ≠ [] → ∃ f0 i, ((d.map itemName).foldl (infoStep cxx) r).flags = f0 ++ ' ' :: '-' :: 'D' :: Id.define i) := by
  induction d generalizing r with
  | nil => simp
  | cons x d ih =>
    rw [List.map_cons, List.foldl_cons, step_item]
    rcases x with _ | i
    · simpa using ih { r with unique := r.unique ++ cs! "-null" }
    · refine ⟨fun h => by simp at h, fun _ => ?_⟩
      by_cases hd : d.filterMap id = []
      · refine ⟨r.flags ++ cs! " " ++ cxx i, i, ((ih _).1 hd).trans ?_⟩
        simp
      · exact (ih _).2 hd

/-- What `simdpp_get_arch_info` returns for a definition. -/
theorem info_eq {cxx : Id → List Char} (hx : Plain cxx) (d : List (Option Id)) :
    ∃ d' : List (Option Id), d'.Perm d ∧
      (simdpp_get_arch_info cxx (archStr d)).unique = d'.flatMap sfx ∧
      (simdpp_get_arch_info cxx (archStr d)).defines = (d'.filterMap id).map Id.define ∧
      (∀ a, defs (a ++ (simdpp_get_arch_info cxx (archStr d)).flags) = defs a ++ (d'.filterMap id).map fun i => (i.define, cs! "1")) ∧
      (d'.filterMap id = [] → (simdpp_get_arch_info cxx (archStr d)).flags = []) ∧
      (d'.filterMap id ≠ [] → ∃ f0 i, (simdpp_get_arch_info cxx (archStr d)).flags = f0 ++ ' ' :: '-' :: 'D' :: Id.define i) := by
  obtain ⟨d', hp, e⟩ := sort_map itemName d
  unfold simdpp_get_arch_info
  rw [words_arch, e]
  refine ⟨d', hp, ?_, ?_, ?_, ?_, ?_⟩
  · rw [fold_unique]; rfl
  · rw [fold_defines]; rfl
  · intro a
    rw [fold_flags hx]
    simp
  · exact (fold_end cxx d' _).1
  · exact (fold_end cxx d' _).2

/-! ### Unique ids -/

/-- A suffix without its leading dash, with a dash after it. -/
def sword (x : Option Id) : List Char := (sfx x).tail ++ ['-']

theorem mem_items (x : Option Id) : x ∈ none :: allIds.map some := by
  rcases x with _ | i
  · exact List.mem_cons_self
  · exact List.mem_cons_of_mem _ (List.mem_map_of_mem (mem_allIds i))

theorem sfx_cons (x : Option Id) : sfx x = '-' :: (sfx x).tail := by
  rcases x with _ | i
  · rfl
  · cases i <;> rfl

theorem sfx_rotate (l : List (Option Id)) : l.flatMap sfx ++ ['-'] = '-' :: l.flatMap sword := by
  induction l with
  | nil => rfl
  | cons a l ih =>
    rw [List.flatMap_cons, List.flatMap_cons, List.append_assoc, ih, sfx_cons a]
    simp [sword]

theorem sword_prefix (a b : Option Id) (h : sword a <+: sword b) : a = b := by
  have : ∀ a ∈ none :: allIds.map some, ∀ b ∈ none :: allIds.map some, sword a <+: sword b → a = b := by decide +kernel
  exact this a (mem_items a) b (mem_items b) h

theorem unique_inj {d d' : List (Option Id)} (h : d.flatMap sfx = d'.flatMap sfx) : d = d' := by
  have h := congrArg (· ++ ['-']) h
  simp only [sfx_rotate, List.cons.injEq, true_and] at h
  exact prefix_inj sword sword_prefix (fun a => by simp [sword]) _ _ h

/-- The name of the file generated for a definition. -/
def fileOf (cxx : Id → List Char) (s : Src) (d : List (Option Id)) : List Char := dstFile s (simdpp_get_arch_info cxx (archStr d)).unique

/-- C61: two definitions get the same file exactly if they list the same identifiers, in any order. -/
theorem C61_file_names {cxx : Id → List Char} (hx : Plain cxx) (s : Src) (d d' : List (Option Id)) :
    fileOf cxx s d = fileOf cxx s d' ↔ d.Perm d' := by
  unfold fileOf
  constructor
  · intro h
    obtain ⟨e, he, hu, _⟩ := info_eq hx d
    obtain ⟨e', he', hu', _⟩ := info_eq hx d'
    unfold dstFile at h
    have h := List.append_cancel_right h
    have h := List.append_cancel_left h
    rw [hu, hu'] at h
    exact he.symm.trans (unique_inj h ▸ he')
  · intro h
    unfold simdpp_get_arch_info
    rw [words_arch, words_arch, sort_eq (h.map itemName)]

/-! ### Numbers -/

theorem digits_ne (n : Nat) : digits n ≠ [] := by
  rw [digits]; split_ifs <;> simp

theorem digit_inj {m n : Nat} (hm : m < 10) (hn : n < 10) (h : Char.ofNat (48 + m) = Char.ofNat (48 + n)) : m = n := by
  have : ∀ m < 10, ∀ n < 10, Char.ofNat (48 + m) = Char.ofNat (48 + n) → m = n := by decide +kernel
  exact this m hm n hn h

theorem digits_inj (m n : Nat) (h : digits m = digits n) : m = n := by
  induction m using Nat.strongRecOn generalizing n with
  | ind m ih =>
    rw [digits, digits.eq_def n] at h
    split_ifs at h with h1 h2 h2
    · exact digit_inj h1 h2 (List.cons.inj h).1
    · exfalso
      have h3 := congrArg List.length h
      have h4 := List.length_pos_of_ne_nil (digits_ne (n / 10))
      rw [List.length_append, List.length_singleton, List.length_singleton] at h3
      omega
    · exfalso
      have h3 := congrArg List.length h
      have h4 := List.length_pos_of_ne_nil (digits_ne (m / 10))
      rw [List.length_append, List.length_singleton, List.length_singleton] at h3
      omega
    · obtain ⟨h3, h4⟩ := List.append_inj' h rfl
      have h3 := ih (m / 10) (by omega) _ h3
      have h4 := digit_inj (Nat.mod_lt _ (by decide)) (Nat.mod_lt _ (by decide)) (List.cons.inj h4).1
      omega

theorem digits_clean (n : Nat) : ∀ c ∈ digits n, identChar c = true ∧ c ≠ ' ' := by
  have hd : ∀ m < 10, identChar (Char.ofNat (48 + m)) = true ∧ Char.ofNat (48 + m) ≠ ' ' := by decide +kernel
  induction n using Nat.strongRecOn with
  | ind n ih =>
    rw [digits]
    split_ifs with h
    · intro c hc
      rw [List.mem_singleton] at hc
      subst hc
      exact hd n h
    · intro c hc
      rcases List.mem_append.1 hc with hc | hc
      · exact ih _ (by omega) c hc
      · rw [List.mem_singleton] at hc
        subst hc
        exact hd _ (Nat.mod_lt _ (by decide))

/-- The name of a slot macro. -/
def slotMacro (n : Nat) : List Char := cs! "SIMDPP_DISPATCH_ARCH" ++ digits n

theorem slotMacro_inj {m n : Nat} (h : slotMacro m = slotMacro n) : m = n := digits_inj m n (List.append_cancel_left h)

theorem slotMacro_clean (n : Nat) : ∀ c ∈ slotMacro n, identChar c = true ∧ c ≠ ' ' := by
  intro c hc
  rcases List.mem_append.1 hc with hc | hc
  · have : ∀ c ∈ cs! "SIMDPP_DISPATCH_ARCH", identChar c = true ∧ c ≠ ' ' := by decide +kernel
    exact this c hc
  · exact digits_clean n c hc

/-! ### Macros -/

theorem mem_allInsns (i : Insn) : i ∈ allInsns := by cases i <;> decide

theorem macroName_inj {i j : Insn} (h : macroName i = macroName j) : i = j := by
  have : ∀ i ∈ allInsns, ∀ j ∈ allInsns, macroName i = macroName j → i = j := by decide +kernel
  exact this i (mem_allInsns i) j (mem_allInsns j) h

theorem slotMacro_seven (n : Nat) : (slotMacro n)[7]? = some 'D' := rfl

theorem macroName_ne (i : Insn) (n : Nat) : macroName i ≠ slotMacro n ∧ macroName i ≠ cs! "SIMDPP_EMIT_DISPATCHER" := by
  have : ∀ i ∈ allInsns, (macroName i)[7]? = some 'A' ∧ macroName i ≠ cs! "SIMDPP_EMIT_DISPATCHER" := by decide +kernel
  obtain ⟨h1, h2⟩ := this i (mem_allInsns i)
  refine ⟨fun h => ?_, h2⟩
  rw [h, slotMacro_seven] at h1
  exact absurd h1 (by decide)

theorem emit_ne (n : Nat) : slotMacro n ≠ cs! "SIMDPP_EMIT_DISPATCHER" := by
  intro h
  have h1 := slotMacro_seven n
  rw [h] at h1
  exact absurd h1 (by decide)

theorem insnOf_define (i : Id) : insnOf i.define = some i.insn := by
  have : ∀ i ∈ allIds, insnOf i.define = some i.insn := by decide +kernel
  exact this i (mem_allIds i)

theorem slot_value (l : List Id) : (split (· = ',') (commas (l.map Id.define))).filterMap insnOf = l.map Id.insn := by
  induction l with
  | nil => decide
  | cons a l ih =>
    cases l with
    | nil =>
      show (split _ a.define).filterMap insnOf = [a.insn]
      rw [split_none _ _ (define_clean a).2.2.1]
      simp [insnOf_define]
    | cons b l =>
      have e : commas ((a :: b :: l).map Id.define) = a.define ++ ',' :: commas ((b :: l).map Id.define) := rfl
      rw [e, split_sep _ _ _ _ (by decide), List.filterMap_append, ih, split_none _ _ (define_clean a).2.2.1]
      simp [insnOf_define]

theorem lookup_none (f n : List Char) : lookup f n = none ↔ ∀ d ∈ defs f, d.1 ≠ n := by
  unfold lookup
  rw [Option.map_eq_none_iff, List.find?_eq_none]
  simp

theorem lookup_some {f n v : List Char} (hm : (n, v) ∈ defs f) (hu : ∀ d ∈ defs f, d.1 = n → d.2 = v) : lookup f n = some v := by
  unfold lookup
  cases h : (defs f).reverse.find? fun d => d.1 = n with
  | none =>
    rw [List.find?_eq_none] at h
    exact absurd (h (n, v) (List.mem_reverse.2 hm)) (by simp)
  | some d =>
    have h1 := List.find?_some h
    have h2 := List.mem_of_find?_eq_some h
    rw [Option.map_some, hu d (List.mem_reverse.1 h2) (by simpa using h1)]

theorem requested_iff (f : List Char) (i : Insn) : requested f i = true ↔ ∃ d ∈ defs f, d.1 = macroName i := by
  unfold requested
  rw [Option.isSome_iff_ne_none, ne_eq, lookup_none]
  push Not
  rfl

/-! ### The loop -/

/-- The flags of the file of a definition, before those of the dispatcher. -/
def flagsOf (cxx : Id → List Char) (s : Src) (d : List (Option Id)) : List Char :=
  incFlag s ++ cs! " " ++ (simdpp_get_arch_info cxx (archStr d)).flags

/-- The dispatcher flag of a definition. -/
def slotText (cxx : Id → List Char) (p : List (Option Id) × Nat) : List Char :=
  cs! " -DSIMDPP_DISPATCH_ARCH" ++ digits p.2 ++ cs! "=" ++ commas (simdpp_get_arch_info cxx (archStr p.1)).defines

theorem unique_ne {cxx : Id → List Char} (hx : Plain cxx) {d : List (Option Id)} (hd : d ≠ []) :
    (simdpp_get_arch_info cxx (archStr d)).unique ≠ [] := by
  obtain ⟨d', hp, hu, _⟩ := info_eq hx d
  rw [hu]
  cases d' with
  | nil => exact absurd (List.nil_perm.1 hp) hd
  | cons x d' =>
    rw [List.flatMap_cons, sfx_cons]
    simp

theorem fileOf_ne (cxx : Id → List Char) (s : Src) (d : List (Option Id)) : fileOf cxx s d ≠ [] := by
  unfold fileOf dstFile
  simp

theorem archStep_eq {cxx : Id → List Char} (hx : Plain cxx) (s : Src) (st : State) {d : List (Option Id)} (hd : d ≠ []) :
    archStep cxx s st (archStr d) =
      { files := st.files ++ [fileOf cxx s d]
        props := fun f => if f = fileOf cxx s d then flagsOf cxx s d else st.props f
        dispatcher := if st.dispatcher = [] then fileOf cxx s d else st.dispatcher
        dflags := st.dflags ++ slotText cxx (d, st.idx)
        idx := st.idx + 1 } := by
  unfold archStep
  dsimp only
  rw [if_neg (unique_ne hx hd)]
  simp [slotText, fileOf, flagsOf]

theorem fold_files {cxx : Id → List Char} (hx : Plain cxx) (s : Src) (ds : List (List (Option Id))) (hne : ∀ d ∈ ds, d ≠ [])
    (hpd : ds.Pairwise fun d d' => ¬ d.Perm d') (st : State) :
    ((ds.map archStr).foldl (archStep cxx s) st).files = st.files ++ ds.map (fileOf cxx s) ∧
    (∀ d ∈ ds, ((ds.map archStr).foldl (archStep cxx s) st).props (fileOf cxx s d) = flagsOf cxx s d) ∧
    (∀ f, (∀ d ∈ ds, f ≠ fileOf cxx s d) → ((ds.map archStr).foldl (archStep cxx s) st).props f = st.props f) ∧
    ((ds.map archStr).foldl (archStep cxx s) st).dispatcher =
      (if st.dispatcher = [] then (ds.head?.map (fileOf cxx s)).getD [] else st.dispatcher) ∧
    ((ds.map archStr).foldl (archStep cxx s) st).dflags = st.dflags ++ (ds.zipIdx st.idx).flatMap (slotText cxx) := by
  induction ds generalizing st with
  | nil =>
    refine ⟨by simp, fun d hd => (nomatch hd), fun _ _ => rfl, ?_, by simp⟩
    simp only [List.map_nil, List.foldl_nil, List.head?_nil, Option.map_none, Option.getD_none]
    split_ifs with h
    · exact h
    · rfl
  | cons d ds ih =>
    rw [List.pairwise_cons] at hpd
    rw [List.map_cons, List.foldl_cons, archStep_eq hx s st (hne d List.mem_cons_self)]
    obtain ⟨h1, h2, h3, h4, h5⟩ := ih (fun x hx => hne x (List.mem_cons_of_mem _ hx)) hpd.2
      { files := st.files ++ [fileOf cxx s d]
        props := fun f => if f = fileOf cxx s d then flagsOf cxx s d else st.props f
        dispatcher := if st.dispatcher = [] then fileOf cxx s d else st.dispatcher
        dflags := st.dflags ++ slotText cxx (d, st.idx)
        idx := st.idx + 1 }
    refine ⟨by rw [h1]; simp, ?_, ?_, ?_, ?_⟩
    · intro x hx'
      rcases List.mem_cons.1 hx' with rfl | hx'
      · rw [h3 _ fun y hy e => hpd.1 y hy ((C61_file_names hx s _ _).1 e)]
        exact if_pos rfl
      · exact h2 x hx'
    · intro f hf
      rw [h3 f fun y hy => hf y (List.mem_cons_of_mem _ hy)]
      exact if_neg (hf d List.mem_cons_self)
    · rw [h4]
      dsimp only
      by_cases hs : st.dispatcher = []
      · rw [if_pos hs, if_pos hs, if_neg (fileOf_ne cxx s d)]
        rfl
      · rw [if_neg hs, if_neg hs, if_neg hs]
    · rw [h5]
      simp

/-- The compile flags of the dispatcher's file. -/
def dispFlags (cxx : Id → List Char) (s : Src) (d : List (Option Id)) (ds : List (List (Option Id))) : List Char :=
  flagsOf cxx s d ++ (cs! "-DSIMDPP_EMIT_DISPATCHER=1" ++ ((d :: ds).zipIdx 1).flatMap (slotText cxx))

/-- The output of `simdpp_multiarch`. -/
theorem multiarch_eq {cxx : Id → List Char} (hx : Plain cxx) (s : Src) (p0 : List Char → List Char) (v f : List Char)
    (d : List (Option Id)) (ds : List (List (Option Id))) (hne : ∀ x ∈ d :: ds, x ≠ []) (hpd : (d :: ds).Pairwise fun d d' => ¬ d.Perm d') :
    (simdpp_multiarch cxx s p0 [] v f ((d :: ds).map archStr)).1 = (d :: ds).map (fileOf cxx s) ∧
    (simdpp_multiarch cxx s p0 [] v f ((d :: ds).map archStr)).2 (fileOf cxx s d) = dispFlags cxx s d ds ∧
    ∀ x ∈ ds, (simdpp_multiarch cxx s p0 [] v f ((d :: ds).map archStr)).2 (fileOf cxx s x) = flagsOf cxx s x := by
  obtain ⟨h1, h2, _, h4, h5⟩ := fold_files hx s (d :: ds) hne hpd ⟨[], p0, [], cs! "-DSIMDPP_EMIT_DISPATCHER=1", 1⟩
  have h4 : ((List.map archStr (d :: ds)).foldl (archStep cxx s) ⟨[], p0, [], cs! "-DSIMDPP_EMIT_DISPATCHER=1", 1⟩).dispatcher =
      fileOf cxx s d := h4
  have hne' := fileOf_ne cxx s d
  rw [← h4] at hne'
  unfold simdpp_multiarch
  simp only [List.nil_append, List.cons_append, List.drop_succ_cons, List.drop_zero]
  rw [if_neg hne']
  refine ⟨h1, ?_, ?_⟩
  · dsimp only
    rw [if_pos h4.symm, h2 d List.mem_cons_self, h5]
    rfl
  · intro x hx'
    dsimp only
    rw [if_neg, h2 x (List.mem_cons_of_mem _ hx')]
    rw [h4]
    intro e
    exact (List.pairwise_cons.1 hpd).1 x hx' ((C61_file_names hx s _ _).1 e.symm)

/-! ### The macros of the files -/

theorem commas_clean (l : List Id) : ' ' ∉ commas (l.map Id.define) := by
  induction l with
  | nil => decide
  | cons a l ih =>
    cases l with
    | nil => exact (define_clean a).1
    | cons b l =>
      have e : commas ((a :: b :: l).map Id.define) = a.define ++ ',' :: commas ((b :: l).map Id.define) := rfl
      rw [e]
      have := (define_clean a).1
      simp only [List.mem_append, List.mem_cons, not_or]
      exact ⟨this, by decide, ih⟩

/-- The instruction sets of a definition, in the order of the sorted identifiers. -/
noncomputable def sortedIds {cxx : Id → List Char} (hx : Plain cxx) (d : List (Option Id)) : List Id := ((info_eq hx d).choose).filterMap id

theorem sortedIds_mem {cxx : Id → List Char} (hx : Plain cxx) (d : List (Option Id)) (i : Insn) :
    i ∈ (sortedIds hx d).map Id.insn ↔ asks d i = true := by
  have hp := (info_eq hx d).choose_spec.1
  unfold sortedIds asks
  simp only [List.mem_map, List.mem_filterMap, id, decide_eq_true_eq, Option.map_eq_some_iff]
  constructor
  · rintro ⟨a, ⟨x, hx', rfl⟩, rfl⟩
    exact ⟨some a, hp.mem_iff.1 hx', a, rfl, rfl⟩
  · rintro ⟨x, hx', a, rfl, rfl⟩
    exact ⟨a, ⟨_, hp.mem_iff.2 hx', rfl⟩, rfl⟩

theorem sortedIds_len {cxx : Id → List Char} (hx : Plain cxx) (d : List (Option Id)) : (sortedIds hx d).length ≤ d.length := by
  have hp := (info_eq hx d).choose_spec.1
  rw [← hp.length_eq]
  exact List.length_filterMap_le _ _

theorem sortedIds_nil {cxx : Id → List Char} (hx : Plain cxx) (d : List (Option Id)) : sortedIds hx d = [] ↔ ∀ x ∈ d, x = none := by
  have hp := (info_eq hx d).choose_spec.1
  unfold sortedIds
  rw [List.filterMap_eq_nil_iff]
  exact ⟨fun h x hx' => h x (hp.mem_iff.2 hx'), fun h x hx' => h x (hp.mem_iff.1 hx')⟩

theorem defs_slots {cxx : Id → List Char} (hx : Plain cxx) (a : List Char) (l : List (List (Option Id) × Nat)) :
    defs (a ++ l.flatMap (slotText cxx)) =
      defs a ++ l.map fun p => (slotMacro p.2, commas ((sortedIds hx p.1).map Id.define)) := by
  induction l generalizing a with
  | nil => simp
  | cons p l ih =>
    have hd : (simdpp_get_arch_info cxx (archStr p.1)).defines = (sortedIds hx p.1).map Id.define := (info_eq hx p.1).choose_spec.2.2.1
    have e : a ++ (p :: l).flatMap (slotText cxx) =
        (a ++ ' ' :: '-' :: 'D' :: (slotMacro p.2 ++ '=' :: commas ((sortedIds hx p.1).map Id.define))) ++ l.flatMap (slotText cxx) := by
      rw [List.flatMap_cons, slotText, hd]
      simp [slotMacro]
    rw [e, ih, defs_sep]
    have hc := slotMacro_clean p.2
    have hs : ' ' ∉ '-' :: 'D' :: (slotMacro p.2 ++ '=' :: commas ((sortedIds hx p.1).map Id.define)) := by
      have := commas_clean (sortedIds hx p.1)
      simp only [List.mem_cons, List.mem_append, not_or]
      exact ⟨by decide, by decide, fun h => (hc _ h).2 rfl, by decide, this⟩
    rw [defs_word ('-' :: _) hs (by simp), macroDef_val _ _ fun c h => (hc c h).1]
    simp

theorem defs_inc {s : Src} (hs : s.Ok) : defs (incFlag s) = [] := by
  rw [defs_word]
  · rfl
  · unfold incFlag
    have := hs.1
    have := hs.2
    simp only [List.mem_append, not_or]
    refine ⟨⟨⟨⟨by decide, hs.1⟩, by decide⟩, hs.2⟩, by decide⟩
  · unfold incFlag
    simp

theorem defs_flagsOf {cxx : Id → List Char} (hx : Plain cxx) {s : Src} (hs : s.Ok) (d : List (Option Id)) :
    defs (flagsOf cxx s d) = (sortedIds hx d).map fun i => (i.define, cs! "1") := by
  have h := (info_eq hx d).choose_spec.2.2.2.1 (incFlag s ++ cs! " ")
  have e : defs (incFlag s ++ cs! " ") = [] := by
    rw [show incFlag s ++ cs! " " = incFlag s ++ ' ' :: [] from rfl, defs_sep, defs_inc hs]
    rfl
  rw [e] at h
  exact h

/-- The dispatcher's file defines, besides its own macros, one macro per definition; it asks for the dispatcher only if its own
definition has no identifiers, otherwise that flag becomes part of its last macro. -/
theorem defs_dispFlags {cxx : Id → List Char} (hx : Plain cxx) {s : Src} (hs : s.Ok) (d : List (Option Id)) (ds : List (List (Option Id))) :
    ∃ own : List (List Char × List Char),
      defs (dispFlags cxx s d ds) = own ++ ((d :: ds).zipIdx 1).map (fun p => (slotMacro p.2, commas ((sortedIds hx p.1).map Id.define))) ∧
      (sortedIds hx d = [] → own = [(cs! "SIMDPP_EMIT_DISPATCHER", cs! "1")]) ∧
      (sortedIds hx d ≠ [] → own.map Prod.fst = (sortedIds hx d).map Id.define) := by
  have hb : (incFlag s ++ cs! " ") = incFlag s ++ ' ' :: [] := rfl
  have hem : defs (cs! "-DSIMDPP_EMIT_DISPATCHER=1") = [(cs! "SIMDPP_EMIT_DISPATCHER", cs! "1")] := by decide +kernel
  by_cases hn : sortedIds hx d = []
  · refine ⟨[(cs! "SIMDPP_EMIT_DISPATCHER", cs! "1")], ?_, fun _ => rfl, fun h => absurd hn h⟩
    have hf := (info_eq hx d).choose_spec.2.2.2.2.1 hn
    unfold dispFlags flagsOf
    rw [hf, ← List.append_assoc, defs_slots hx]
    congr 1
    have e : incFlag s ++ cs! " " ++ [] ++ cs! "-DSIMDPP_EMIT_DISPATCHER=1" = incFlag s ++ ' ' :: cs! "-DSIMDPP_EMIT_DISPATCHER=1" := by
      simp
    rw [e, defs_sep, defs_inc hs, hem]
    rfl
  · obtain ⟨f0, i, hf⟩ := (info_eq hx d).choose_spec.2.2.2.2.2 hn
    obtain ⟨c1, c2, _⟩ := define_clean i
    have ha := defs_flagsOf hx hs d
    unfold flagsOf at ha
    rw [hf, ← List.append_assoc, defs_sep, defs_word ('-' :: 'D' :: i.define) (by simp [c1]) (by simp), macroDef_name _ c2] at ha
    refine ⟨defs (incFlag s ++ cs! " " ++ f0) ++ [(i.define, cs! "-DSIMDPP_EMIT_DISPATCHER=1")], ?_, fun h => absurd h hn, fun _ => ?_⟩
    · unfold dispFlags flagsOf
      rw [hf, ← List.append_assoc, defs_slots hx]
      congr 1
      have e : incFlag s ++ cs! " " ++ (f0 ++ ' ' :: '-' :: 'D' :: i.define) ++ cs! "-DSIMDPP_EMIT_DISPATCHER=1" =
          (incFlag s ++ cs! " " ++ f0) ++ ' ' :: '-' :: 'D' :: (i.define ++ '-' :: cs! "DSIMDPP_EMIT_DISPATCHER=1") := by simp
      have hsp : ' ' ∉ '-' :: 'D' :: (i.define ++ '-' :: cs! "DSIMDPP_EMIT_DISPATCHER=1") := by
        simp only [List.mem_cons, List.mem_append, not_or]
        exact ⟨by decide, by decide, c1, by decide⟩
      rw [e, defs_sep, defs_word ('-' :: _) hsp (by simp), macroDef_dash _ _ c2]
      rfl
    · have := congrArg (List.map Prod.fst) ha
      simp only [List.map_append, List.map_map] at this ⊢
      exact this

theorem requested_flagsOf {cxx : Id → List Char} (hx : Plain cxx) {s : Src} (hs : s.Ok) (d : List (Option Id)) :
    requested (flagsOf cxx s d) = asks d := by
  funext i
  rw [Bool.eq_iff_iff, requested_iff, defs_flagsOf hx hs, ← sortedIds_mem hx]
  simp only [List.mem_map]
  constructor
  · rintro ⟨_, ⟨a, ha, rfl⟩, h⟩
    exact ⟨a, ha, macroName_inj ((define_clean a).2.2.2.symm.trans h)⟩
  · rintro ⟨a, ha, rfl⟩
    exact ⟨_, ⟨a, ha, rfl⟩, (define_clean a).2.2.2⟩

theorem requested_dispFlags {cxx : Id → List Char} (hx : Plain cxx) {s : Src} (hs : s.Ok) (d : List (Option Id))
    (ds : List (List (Option Id))) : requested (dispFlags cxx s d ds) = asks d := by
  obtain ⟨own, ho, h1, h2⟩ := defs_dispFlags hx hs d ds
  funext i
  rw [Bool.eq_iff_iff, requested_iff, ho, ← sortedIds_mem hx]
  have hown : (∃ p ∈ own, p.1 = macroName i) ↔ i ∈ (sortedIds hx d).map Id.insn := by
    by_cases hn : sortedIds hx d = []
    · rw [h1 hn, hn]
      simp only [List.mem_singleton, exists_eq_left, List.map_nil, List.not_mem_nil, iff_false]
      exact fun h => (macroName_ne i 0).2 h.symm
    · have h2 := h2 hn
      have e : (∃ p ∈ own, p.1 = macroName i) ↔ macroName i ∈ own.map Prod.fst := by simp [List.mem_map]
      rw [e, h2]
      simp only [List.mem_map]
      constructor
      · rintro ⟨a, ha, h⟩
        exact ⟨a, ha, macroName_inj ((define_clean a).2.2.2.symm.trans h)⟩
      · rintro ⟨a, ha, rfl⟩
        exact ⟨a, ha, (define_clean a).2.2.2⟩
  rw [← hown]
  constructor
  · rintro ⟨p, hp, h⟩
    rcases List.mem_append.1 hp with hp | hp
    · exact ⟨p, hp, h⟩
    · obtain ⟨q, _, rfl⟩ := List.mem_map.1 hp
      exact absurd h.symm (macroName_ne i _).1
  · rintro ⟨p, hp, h⟩
    exact ⟨p, List.mem_append_left _ hp, h⟩

theorem emits_flagsOf {cxx : Id → List Char} (hx : Plain cxx) {s : Src} (hs : s.Ok) (d : List (Option Id)) :
    emits (flagsOf cxx s d) = false := by
  unfold emits
  rw [(lookup_none _ _).2]
  · rfl
  · rw [defs_flagsOf hx hs]
    intro p hp
    obtain ⟨a, _, rfl⟩ := List.mem_map.1 hp
    rw [(define_clean a).2.2.2]
    exact (macroName_ne _ 0).2

theorem emits_dispFlags {cxx : Id → List Char} (hx : Plain cxx) {s : Src} (hs : s.Ok) (d : List (Option Id)) (ds : List (List (Option Id))) :
    emits (dispFlags cxx s d ds) = true ↔ ∀ x ∈ d, x = none := by
  obtain ⟨own, ho, h1, h2⟩ := defs_dispFlags hx hs d ds
  rw [← sortedIds_nil hx]
  unfold emits
  rw [decide_eq_true_eq]
  by_cases hn : sortedIds hx d = []
  · refine iff_of_true (lookup_some ?_ ?_) hn
    · rw [ho, h1 hn]; exact List.mem_append_left _ List.mem_cons_self
    · rw [ho, h1 hn]
      intro p hp h
      rcases List.mem_append.1 hp with hp | hp
      · rw [List.mem_singleton] at hp
        rw [hp]
      · obtain ⟨q, _, rfl⟩ := List.mem_map.1 hp
        exact absurd h (emit_ne _)
  · refine iff_of_false ?_ hn
    rw [(lookup_none _ _).2]
    · simp
    · rw [ho]
      intro p hp h
      rcases List.mem_append.1 hp with hp | hp
      · have := List.mem_map_of_mem (f := Prod.fst) hp
        rw [h2 hn, h] at this
        obtain ⟨a, _, ha⟩ := List.mem_map.1 this
        rw [(define_clean a).2.2.2] at ha
        exact (macroName_ne _ 0).2 ha
      · obtain ⟨q, _, rfl⟩ := List.mem_map.1 hp
        exact emit_ne _ h

theorem slots_dispFlags {cxx : Id → List Char} (hx : Plain cxx) {s : Src} (hs : s.Ok) (d : List (Option Id)) (ds : List (List (Option Id)))
    (n : Nat) : slotsOf (dispFlags cxx s d ds) n =
      if 1 ≤ n then ((d :: ds)[n - 1]?).map fun x => (sortedIds hx x).map Id.insn else none := by
  obtain ⟨own, ho, h1, h2⟩ := defs_dispFlags hx hs d ds
  have hown : ∀ p ∈ own, p.1 ≠ slotMacro n := by
    intro p hp h
    by_cases hn : sortedIds hx d = []
    · rw [h1 hn, List.mem_singleton] at hp
      rw [hp] at h
      exact emit_ne n h.symm
    · have := List.mem_map_of_mem (f := Prod.fst) hp
      rw [h2 hn, h] at this
      obtain ⟨a, _, ha⟩ := List.mem_map.1 this
      rw [(define_clean a).2.2.2] at ha
      exact (macroName_ne _ n).1 ha
  have hsl : ∀ p ∈ ((d :: ds).zipIdx 1).map (fun p => (slotMacro p.2, commas ((sortedIds hx p.1).map Id.define))), p.1 = slotMacro n →
      1 ≤ n ∧ ∃ x, (d :: ds)[n - 1]? = some x ∧ p.2 = commas ((sortedIds hx x).map Id.define) := by
    intro p hp h
    obtain ⟨q, hq, rfl⟩ := List.mem_map.1 hp
    obtain ⟨x, k⟩ := q
    have hk : k = n := slotMacro_inj h
    subst hk
    obtain ⟨g1, g2⟩ := List.mem_zipIdx_iff_le_and_getElem?_sub.1 hq
    exact ⟨g1, x, g2, rfl⟩
  unfold slotsOf
  show (lookup _ (slotMacro n)).map _ = _
  by_cases hh : 1 ≤ n ∧ ∃ x, (d :: ds)[n - 1]? = some x
  · obtain ⟨hn, x, hx'⟩ := hh
    rw [lookup_some (v := commas ((sortedIds hx x).map Id.define)), if_pos hn, hx', Option.map_some, Option.map_some, slot_value]
    · rw [ho]
      refine List.mem_append_right _ (List.mem_map.2 ⟨(x, n), ?_, rfl⟩)
      exact List.mem_zipIdx_iff_le_and_getElem?_sub.2 ⟨hn, hx'⟩
    · rw [ho]
      intro p hp h
      rcases List.mem_append.1 hp with hp | hp
      · exact absurd h (hown p hp)
      · obtain ⟨_, y, hy, e⟩ := hsl p hp h
        rw [hx'] at hy
        rw [e, Option.some.inj hy]
  · rw [(lookup_none _ _).2]
    · split_ifs with hn
      · have : (d :: ds)[n - 1]? = none := by
          cases hx' : (d :: ds)[n - 1]? with
          | none => rfl
          | some x => exact absurd ⟨hn, x, hx'⟩ hh
        rw [this]; rfl
      · rfl
    · rw [ho]
      intro p hp h
      rcases List.mem_append.1 hp with hp | hp
      · exact hown p hp h
      · obtain ⟨g1, x, g2, _⟩ := hsl p hp h
        exact hh ⟨g1, x, g2⟩

/-! ### The generated build -/

/-- A list of architecture definitions that makes sense for one processor family: no definition is empty, has more than 14 elements or asks
for both FMA variants, and no two stand for the same instruction sets. -/
structure Definitions (fam : Family) (ds : List (List (Option Id))) : Prop where
  ne : ∀ d ∈ ds, d ≠ []
  len : ∀ d ∈ ds, d.length ≤ 14
  fams : ∀ d ∈ ds, ∀ i, asks d i = true → family i = fam
  fma : ∀ d ∈ ds, ¬ (asks d .fma3 = true ∧ asks d .fma4 = true)
  differ : ds.Pairwise fun d d' => ∃ i, ¬ (Needs (asks d) i ↔ Needs (asks d') i)

theorem asks_perm {d d' : List (Option Id)} (h : d.Perm d') : asks d = asks d' := by
  funext i
  unfold asks
  rw [Bool.eq_iff_iff, decide_eq_true_eq, decide_eq_true_eq]
  exact (h.map _).mem_iff

theorem Definitions.notPerm {fam : Family} {ds : List (List (Option Id))} (h : Definitions fam ds) :
    ds.Pairwise fun d d' => ¬ d.Perm d' := by
  refine h.differ.imp ?_
  rintro d d' ⟨i, hi⟩ hp
  rw [asks_perm hp] at hi
  exact hi Iff.rfl

/-- C61: for every list of different definitions `simdpp_multiarch` generates one file per definition, with different names. Each is compiled
with exactly the macros of its definition. The dispatcher is asked for in the first file only, and there only if the first definition
consists of `NONE_NULL`: otherwise the flag is glued to the file's last macro. -/
theorem C61_files {cxx : Id → List Char} (hx : Plain cxx) {s : Src} (hs : s.Ok) (p0 : List Char → List Char) (v f : List Char)
    (ds : List (List (Option Id))) (hds : ds ≠ []) (hne : ∀ d ∈ ds, d ≠ []) (hpd : ds.Pairwise fun d d' => ¬ d.Perm d') :
    (simdpp_multiarch cxx s p0 [] v f (ds.map archStr)).1.Nodup ∧
    (simdpp_multiarch cxx s p0 [] v f (ds.map archStr)).1.length = ds.length ∧
    ∀ k d, ds[k]? = some d → ∃ file, (simdpp_multiarch cxx s p0 [] v f (ds.map archStr)).1[k]? = some file ∧
      requested ((simdpp_multiarch cxx s p0 [] v f (ds.map archStr)).2 file) = asks d ∧
      (emits ((simdpp_multiarch cxx s p0 [] v f (ds.map archStr)).2 file) = true ↔ k = 0 ∧ ∀ x ∈ d, x = none) := by
  cases ds with
  | nil => exact absurd rfl hds
  | cons d ds =>
    obtain ⟨h1, h2, h3⟩ := multiarch_eq hx s p0 v f d ds hne hpd
    rw [h1]
    refine ⟨?_, List.length_map _, ?_⟩
    · rw [List.nodup_iff_pairwise_ne, List.pairwise_map]
      exact hpd.imp fun h e => h ((C61_file_names hx s _ _).1 e)
    · intro k x hk
      refine ⟨fileOf cxx s x, by rw [List.getElem?_map, hk]; rfl, ?_⟩
      cases k with
      | zero =>
        have e : d = x := Option.some.inj hk
        subst e
        rw [h2]
        refine ⟨requested_dispFlags hx hs _ _, ?_⟩
        rw [emits_dispFlags hx hs]
        simp
      | succ k =>
        have hm : x ∈ ds := List.mem_of_getElem? (i := k) hk
        rw [h3 x hm]
        refine ⟨requested_flagsOf hx hs _, ?_⟩
        rw [emits_flagsOf hx hs]
        simp

/-- C61: the first file's slot `n` lists exactly the macros of the `n`th definition, in a list no longer than the definition, and no other
slots are defined. -/
theorem C61_slots {cxx : Id → List Char} (hx : Plain cxx) {s : Src} (hs : s.Ok) (p0 : List Char → List Char) (v f : List Char)
    (ds : List (List (Option Id))) (hne : ∀ d ∈ ds, d ≠ []) (hpd : ds.Pairwise fun d d' => ¬ d.Perm d') (file : List Char)
    (h0 : (simdpp_multiarch cxx s p0 [] v f (ds.map archStr)).1[0]? = some file) (n : Nat) :
    (∀ l, slotsOf ((simdpp_multiarch cxx s p0 [] v f (ds.map archStr)).2 file) n = some l →
      1 ≤ n ∧ ∃ d, ds[n - 1]? = some d ∧ l.length ≤ d.length ∧ ∀ i, i ∈ l ↔ asks d i = true) ∧
    (1 ≤ n → n ≤ ds.length → ∃ l, slotsOf ((simdpp_multiarch cxx s p0 [] v f (ds.map archStr)).2 file) n = some l) := by
  cases ds with
  | nil => cases h0
  | cons d ds =>
    obtain ⟨h1, h2, h3⟩ := multiarch_eq hx s p0 v f d ds hne hpd
    rw [h1] at h0
    have e : fileOf cxx s d = file := Option.some.inj h0
    rw [← e, h2, slots_dispFlags hx hs]
    constructor
    · intro l hl
      split_ifs at hl with hn
      refine ⟨hn, ?_⟩
      obtain ⟨x, hx', rfl⟩ := Option.map_eq_some_iff.1 hl
      refine ⟨x, hx', ?_, sortedIds_mem hx x⟩
      rw [List.length_map]
      exact sortedIds_len hx x
    · intro hn hl
      rw [if_pos hn, List.getElem?_eq_getElem (by omega)]
      exact ⟨_, rfl⟩

/-- The compiled units of a generated build; `fn` gives the function each file defines. -/
def unitsOf {F : Type} (out : List (List Char) × (List Char → List Char)) (fn : List Char → F) : List (Obj F) :=
  out.1.map fun file => ⟨requested (out.2 file), fn file⟩

/-- The slots of a generated build: those of its first file. -/
def slotsIn (out : List (List Char) × (List Char → List Char)) : Nat → Option (List Insn) :=
  match out.1 with
  | [] => fun _ => none
  | file :: _ => slotsOf (out.2 file)

variable {F : Type}

theorem units_get {cxx : Id → List Char} (hx : Plain cxx) {s : Src} (hs : s.Ok) (p0 : List Char → List Char) (v f : List Char)
    (ds : List (List (Option Id))) (hds : ds ≠ []) (hne : ∀ d ∈ ds, d ≠ []) (hpd : ds.Pairwise fun d d' => ¬ d.Perm d') (fn : List Char → F) :
    ∃ out, simdpp_multiarch cxx s p0 [] v f (ds.map archStr) = out ∧ (unitsOf out fn).length = ds.length ∧
      (unitsOf out fn).map Obj.requested = ds.map asks ∧ out.1.map fn = (unitsOf out fn).map Obj.fn ∧
      ∀ n, (∀ l, slotsIn out n = some l → 1 ≤ n ∧ ∃ d, ds[n - 1]? = some d ∧ l.length ≤ d.length ∧ ∀ i, i ∈ l ↔ asks d i = true) ∧
        (1 ≤ n → n ≤ ds.length → ∃ l, slotsIn out n = some l) := by
  obtain ⟨_, h2, h3⟩ := C61_files hx hs p0 v f ds hds hne hpd
  have h4 := C61_slots hx hs p0 v f ds hne hpd
  generalize simdpp_multiarch cxx s p0 [] v f (ds.map archStr) = out at h2 h3 h4
  refine ⟨out, rfl, by simp [unitsOf, h2], ?_, by simp [unitsOf], ?_⟩
  · apply List.ext_getElem?
    intro k
    unfold unitsOf
    simp only [List.map_map, List.getElem?_map]
    cases hk : ds[k]? with
    | none =>
      rw [List.getElem?_eq_none_iff] at hk
      rw [List.getElem?_eq_none_iff.2 (by omega)]
      rfl
    | some d =>
      obtain ⟨file, hf, hr, _⟩ := h3 k d hk
      rw [hf]
      simp [hr]
  · intro n
    obtain ⟨fs, pr⟩ := out
    cases fs with
    | nil =>
      exfalso
      exact hds (List.length_eq_zero_iff.1 h2.symm)
    | cons file fs => exact h4 file rfl n

/-- C61: for every sensible list of at most fifteen definitions the generated files and the slots of the dispatcher form a well-formed
program (in the sense of C57), and every unit is registered with the dispatcher. -/
theorem C61_program {cxx : Id → List Char} (hx : Plain cxx) {s : Src} (hs : s.Ok) (p0 : List Char → List Char) (v f : List Char)
    {fam : Family} (ds : List (List (Option Id))) (hds : ds ≠ []) (hd : Definitions fam ds) (fn : List Char → F) :
    Program fam (unitsOf (simdpp_multiarch cxx s p0 [] v f (ds.map archStr)) fn)
      (slotsIn (simdpp_multiarch cxx s p0 [] v f (ds.map archStr))) ∧
    (ds.length ≤ 15 → ∀ o ∈ unitsOf (simdpp_multiarch cxx s p0 [] v f (ds.map archStr)) fn,
      Registered (slotsIn (simdpp_multiarch cxx s p0 [] v f (ds.map archStr))) o) := by
  obtain ⟨out, he, hl, hr, _, hsl⟩ := units_get hx hs p0 v f ds hds hd.ne hd.notPerm fn
  rw [he]
  have get : ∀ o ∈ unitsOf out fn, ∃ (k : Nat) (d : List (Option Id)), ds[k]? = some d ∧ o.requested = asks d := by
    intro o ho
    obtain ⟨k, hk⟩ := List.mem_iff_getElem?.1 ho
    have h := congrArg (fun l => l[k]?) hr
    simp only [List.getElem?_map, hk, Option.map_some] at h
    obtain ⟨d, hd, e⟩ := Option.map_eq_some_iff.1 h.symm
    exact ⟨k, d, hd, e.symm⟩
  have put : ∀ (k : Nat) d, ds[k]? = some d → ∃ o ∈ unitsOf out fn, o.requested = asks d := by
    intro k d hk
    have h := congrArg (fun l => l[k]?) hr
    simp only [List.getElem?_map, hk, Option.map_some] at h
    obtain ⟨o, ho, e⟩ := Option.map_eq_some_iff.1 h
    exact ⟨o, List.mem_of_getElem? ho, e⟩
  have hsym : ∀ (k k' : Nat) d d', k ≠ k' → ds[k]? = some d → ds[k']? = some d' → ∃ i, ¬ (Needs (asks d) i ↔ Needs (asks d') i) := by
    intro k k' d d' hkk hk hk'
    obtain ⟨hk1, hk⟩ := List.getElem?_eq_some_iff.1 hk
    obtain ⟨hk1', hk'⟩ := List.getElem?_eq_some_iff.1 hk'
    have hp := List.pairwise_iff_getElem.1 hd.differ
    rcases Nat.lt_or_gt_of_ne hkk with h | h
    · obtain ⟨i, hi⟩ := hp k k' hk1 hk1' h
      exact ⟨i, by rwa [hk, hk'] at hi⟩
    · obtain ⟨i, hi⟩ := hp k' k hk1' hk1 h
      exact ⟨i, fun g => by rw [hk, hk'] at hi; exact hi g.symm⟩
  refine ⟨⟨?_, ?_, ?_, ?_, ?_, ?_⟩, ?_⟩
  · intro o ho i hi
    obtain ⟨k, d, hk, e⟩ := get o ho
    rw [e] at hi
    exact hd.fams d (List.mem_of_getElem? hk) i hi
  · intro o ho
    obtain ⟨k, d, hk, e⟩ := get o ho
    rw [e]
    exact hd.fma d (List.mem_of_getElem? hk)
  · have : ((unitsOf out fn).map Obj.requested).Pairwise fun r r' => ∃ i, ¬ (Needs r i ↔ Needs r' i) := by
      rw [hr, List.pairwise_map]
      exact hd.differ
    rwa [List.pairwise_map] at this
  · intro k l _ _ h
    obtain ⟨_, d, hk, hlen, _⟩ := (hsl k).1 l h
    exact hlen.trans (hd.len d (List.mem_of_getElem? hk))
  · intro k l _ _ h
    obtain ⟨_, d, hk, _, hm⟩ := (hsl k).1 l h
    obtain ⟨o, ho, e⟩ := put _ d hk
    exact ⟨o, ho, fun i => by rw [e, hm]⟩
  · intro k k' l l' _ _ _ _ hkk h h'
    obtain ⟨h1, d, hk, _, hm⟩ := (hsl k).1 l h
    obtain ⟨h1', d', hk', _, hm'⟩ := (hsl k').1 l' h'
    obtain ⟨i, hi⟩ := hsym (k - 1) (k' - 1) d d' (by omega) hk hk'
    refine ⟨i, fun g => hi ?_⟩
    rwa [needs_congr (r' := asks d) (fun i => by rw [decide_eq_true_eq]; exact hm i),
      needs_congr (r := fun i => decide (i ∈ l')) (r' := asks d') (fun i => by rw [decide_eq_true_eq]; exact hm' i)] at g
  · intro h15 o ho
    obtain ⟨k, d, hk, e⟩ := get o ho
    obtain ⟨hk1, _⟩ := List.getElem?_eq_some_iff.1 hk
    obtain ⟨l, hl'⟩ := (hsl (k + 1)).2 (by omega) (by omega)
    obtain ⟨_, d', hk', _, hm⟩ := (hsl (k + 1)).1 l hl'
    rw [Nat.add_sub_cancel, hk] at hk'
    rw [← Option.some.inj hk'] at hm
    exact ⟨k + 1, l, by omega, by omega, hl', fun i => by rw [e, hm]⟩

theorem asks_null {d : List (Option Id)} (h : ∀ x ∈ d, x = none) (i : Insn) : asks d i = false := by
  unfold asks
  rw [decide_eq_false_iff_not, List.mem_map]
  rintro ⟨x, hx, e⟩
  rw [h x hx] at e
  cases e

/-- C61: with `NONE_NULL` as the first of at most fifteen sensible definitions, the generated program builds, contains one dispatcher, and on
every processor of the family the dispatcher calls the function of one of the generated files: one whose instruction sets all exist on the
processor, and the best such one. -/
theorem C61_dispatch {cxx : Id → List Char} (hx : Plain cxx) {s : Src} (hs : s.Ok) (p0 : List Char → List Char) (v f : List Char)
    {fam : Family} (ds : List (List (Option Id))) (hd : Definitions fam ds) (h0 : ds[0]? = some [none]) (h15 : ds.length ≤ 15)
    (fn : List Char → F) (out : List (List Char) × (List Char → List Char))
    (ho : simdpp_multiarch cxx s p0 [] v f (ds.map archStr) = out) (cpu : Insn → Prop) (arch : Arch) (hdet : Detected fam cpu arch) :
    (∀ (k : Nat) file, out.1[k]? = some file → (emits (out.2 file) = true ↔ k = 0)) ∧
    (∃ r, Dispatches (unitsOf out fn) (slotsIn out) arch r) ∧
    ∀ r, Dispatches (unitsOf out fn) (slotsIn out) arch r →
      ∃ (k : Nat) (d : List (Option Id)) (file : List Char), ds[k]? = some d ∧ out.1[k]? = some file ∧ r = some (fn file) ∧
        (∀ i, Needs (asks d) i → cpu i) ∧
        ∀ d' ∈ ds, (∀ i, Needs (asks d') i → cpu i) → d' = d ∨
          ∃ i, Needs (asks d) i ∧ ¬ Needs (asks d') i ∧ ∀ j, Needs (asks d') j → ¬ Needs (asks d) j → archBit j < archBit i := by
  have hds : ds ≠ [] := by rintro rfl; cases h0
  obtain ⟨hp, hreg⟩ := C61_program hx hs p0 v f ds hds hd fn
  have hreg := hreg h15
  obtain ⟨_, hl, hf⟩ := C61_files hx hs p0 v f ds hds hd.ne hd.notPerm
  rw [ho] at hp hreg hl hf
  have lt : ∀ (k : Nat) file, out.1[k]? = some file → ∃ d, ds[k]? = some d := by
    intro k file hk
    obtain ⟨hk, _⟩ := List.getElem?_eq_some_iff.1 hk
    exact ⟨ds[k]'(by omega), List.getElem?_eq_getElem _⟩
  have mem : ∀ (k : Nat) d file, ds[k]? = some d → out.1[k]? = some file → (⟨asks d, fn file⟩ : Obj F) ∈ unitsOf out fn := by
    intro k d file hk hfile
    obtain ⟨file', hf', hr, _⟩ := hf k d hk
    rw [hfile] at hf'
    rw [← Option.some.inj hf'] at hr
    exact List.mem_map.2 ⟨file, List.mem_of_getElem? hfile, by rw [hr]⟩
  refine ⟨?_, C57_builds hp arch, ?_⟩
  · intro k file hk
    obtain ⟨d, hkd⟩ := lt k file hk
    obtain ⟨file', hf', _, he⟩ := hf k d hkd
    rw [hk] at hf'
    rw [← Option.some.inj hf'] at he
    rw [he]
    refine and_iff_left_of_imp ?_
    rintro rfl
    rw [h0] at hkd
    rw [← Option.some.inj hkd]
    simp
  · intro r hr
    cases r with
    | none =>
      exfalso
      obtain ⟨file, hfile, _⟩ := hf 0 [none] h0
      have hm := mem 0 _ file h0 hfile
      exact C57_null_never_aborts hp _ hm (hreg _ hm) (asks_null (d := [none]) (by simp)) hdet hr
    | some g =>
      obtain ⟨o, hom, hog, _, hrun, hbest⟩ := C57_selects hp hdet g hr
      obtain ⟨file, hfm, rfl⟩ := List.mem_map.1 hom
      obtain ⟨k, hk⟩ := List.mem_iff_getElem?.1 hfm
      obtain ⟨d, hkd⟩ := lt k file hk
      obtain ⟨file', hf', hreq, _⟩ := hf k d hkd
      rw [hk] at hf'
      rw [← Option.some.inj hf'] at hreq
      have hrun : ∀ i, Needs (asks d) i → cpu i := by rw [← hreq]; exact hrun
      refine ⟨k, d, file, hkd, hk, by rw [← hog], hrun, ?_⟩
      intro d' hd' hrun'
      obtain ⟨k', hk'⟩ := List.mem_iff_getElem?.1 hd'
      obtain ⟨file'', hf'', _⟩ := hf k' d' hk'
      have hm := mem k' d' file'' hk' hf''
      have hb := hbest _ hm (hreg _ hm) hrun'
      simp only [hreq] at hb
      rcases hb with hb | hb
      · left
        by_contra hne
        have : ∀ l : List (List (Option Id)), l.Pairwise (fun d d' => ∃ i, ¬ (Needs (asks d) i ↔ Needs (asks d') i)) → d' ∈ l → d ∈ l → False := by
          intro l hl h1 h2
          induction l with
          | nil => cases h1
          | cons a l ih =>
            rw [List.pairwise_cons] at hl
            rcases List.mem_cons.1 h1 with h1 | h1
            · rcases List.mem_cons.1 h2 with h2 | h2
              · exact hne (h1.trans h2.symm)
              · obtain ⟨i, hi⟩ := hl.1 d h2
                rw [← h1] at hi
                exact hi (hb i)
            · rcases List.mem_cons.1 h2 with h2 | h2
              · obtain ⟨i, hi⟩ := hl.1 d' h1
                rw [← h2] at hi
                exact hi (hb i).symm
              · exact ih hl.2 h1 h2
        exact this ds hd.differ hd' (List.mem_of_getElem? hkd)
      · exact Or.inr hb

/-- C61: from the sixteenth on the files are generated and compiled but never registered with the dispatcher. -/
theorem C61_sixteenth {cxx : Id → List Char} (hx : Plain cxx) {s : Src} (hs : s.Ok) (p0 : List Char → List Char) (v f : List Char)
    {fam : Family} (ds : List (List (Option Id))) (hd : Definitions fam ds) (fn : List Char → F) (k : Nat) (hk : 15 ≤ k)
    (o : Obj F) (ho : (unitsOf (simdpp_multiarch cxx s p0 [] v f (ds.map archStr)) fn)[k]? = some o) :
    ¬ Registered (slotsIn (simdpp_multiarch cxx s p0 [] v f (ds.map archStr))) o := by
  have hds : ds ≠ [] := by
    rintro rfl
    exact absurd ho (by simp [unitsOf, simdpp_multiarch])
  obtain ⟨out, he, hl, hr, _, hsl⟩ := units_get hx hs p0 v f ds hds hd.ne hd.notPerm fn
  rw [he] at ho ⊢
  rintro ⟨n, l, hn1, hn2, hl', hm⟩
  obtain ⟨_, d, hd', _, hm'⟩ := (hsl n).1 l hl'
  have h := congrArg (fun l => l[k]?) hr
  simp only [List.getElem?_map, ho, Option.map_some] at h
  obtain ⟨d', hkd, e⟩ := Option.map_eq_some_iff.1 h.symm
  obtain ⟨hk1, hk2⟩ := List.getElem?_eq_some_iff.1 hkd
  obtain ⟨hk1', hk2'⟩ := List.getElem?_eq_some_iff.1 hd'
  obtain ⟨i, hi⟩ := List.pairwise_iff_getElem.1 hd.differ (n - 1) k hk1' hk1 (by omega)
  rw [hk2, hk2'] at hi
  apply hi
  have e' : asks d = asks d' := by
    funext j
    rw [Bool.eq_iff_iff, ← hm', ← hm, ← e]
  rw [e']

/-! ### The default lists -/

/-- The default definitions for the identifiers which passed the check. -/
def defaults (sup : Id → Bool) : List (List (Option Id)) :=
  [[none]] ++
    (if sup .X86_SSE2 then [[some .X86_SSE2]] else []) ++
    (if sup .X86_SSE3 then [[some .X86_SSE3]] else []) ++
    (if sup .X86_SSSE3 then [[some .X86_SSSE3]] else []) ++
    (if sup .X86_SSE4_1 then [[some .X86_SSE4_1]] else []) ++
    (if sup .X86_AVX then [[some .X86_AVX, some .X86_POPCNT_INSN]] else []) ++
    (if sup .X86_AVX && sup .X86_FMA4 then [[some .X86_AVX, some .X86_FMA4, some .X86_POPCNT_INSN]] else []) ++
    (if sup .X86_AVX2 && sup .X86_FMA3 then [[some .X86_AVX2, some .X86_FMA3, some .X86_POPCNT_INSN]] else []) ++
    (if sup .X86_AVX512F then [[some .X86_AVX512F, some .X86_FMA3, some .X86_POPCNT_INSN]] else []) ++
    (if sup .X86_AVX512F && sup .X86_AVX512BW && sup .X86_AVX512DQ && sup .X86_AVX512VL then
      [[some .X86_AVX512F, some .X86_FMA3, some .X86_POPCNT_INSN, some .X86_AVX512BW, some .X86_AVX512DQ, some .X86_AVX512VL]] else []) ++
    (if sup .X86_XOP then [[some .X86_XOP]] else []) ++
    (if sup .X86_XOP && sup .X86_AVX then [[some .X86_AVX, some .X86_XOP]] else []) ++
    (if sup .ARM_NEON then [[some .ARM_NEON]] else []) ++
    (if sup .ARM_NEON then [[some .ARM_NEON_FLT_SP]] else []) ++
    (if sup .ARM64_NEON then [[some .ARM64_NEON]] else []) ++
    (if sup .MIPS_MSA then [[some .MIPS_MSA]] else []) ++
    (if sup .POWER_ALTIVEC then [[some .POWER_ALTIVEC]] else []) ++
    (if sup .POWER_VSX_206 then [[some .POWER_VSX_206]] else []) ++
    (if sup .POWER_VSX_207 then [[some .POWER_VSX_207]] else [])

theorem map_if {A B : Type} (g : A → B) (b : Bool) (l : List A) : (if b then l else []).map g = if b then l.map g else [] := by
  cases b <;> rfl

theorem perm_mem (A : List (List Char)) (x : List Char) (hx : x ≠ cs! "ALL_ARCHS") : x ∈ (A ++ [cs! "ALL_ARCHS"] ++ A).drop 1 ↔ x ∈ A := by
  cases A with
  | nil => simp
  | cons a A =>
    simp only [List.cons_append, List.drop_succ_cons, List.drop_zero, List.mem_append, List.mem_cons, List.not_mem_nil, or_false]
    tauto

/-- C61: the lists of architectures the library offers, for every outcome of the checks (with no variable `ARCHS` in the caller's scope). -/
theorem C61_default_list (can : Id → Bool) : simdpp_get_archs can [] = (defaults can).map archStr := by
  have hsup : ∀ i ∈ primary, decide (i.name ∈ ((primary.filter can).map Id.name ++ [cs! "ALL_ARCHS"] ++ (primary.filter can).map Id.name).drop 1) =
      can i := by
    intro i hi
    rw [Bool.eq_iff_iff, decide_eq_true_eq, perm_mem _ _ (by cases i <;> decide), List.mem_map]
    constructor
    · rintro ⟨j, hj, e⟩
      have : j = i := Option.some.inj ((findId_name j).1.symm.trans (e ▸ (findId_name i).1))
      rw [← this]
      exact (List.mem_filter.1 hj).2
    · intro h
      exact ⟨i, List.mem_filter.2 ⟨hi, h⟩, rfl⟩
  unfold simdpp_get_archs simdpp_get_arch_perm defaults
  simp only [List.nil_append]
  have h := fun i => hsup i
  rw [h .X86_SSE2 (by decide), h .X86_SSE3 (by decide), h .X86_SSSE3 (by decide), h .X86_SSE4_1 (by decide), h .X86_AVX (by decide),
    h .X86_FMA4 (by decide), h .X86_AVX2 (by decide), h .X86_FMA3 (by decide), h .X86_AVX512F (by decide), h .X86_AVX512BW (by decide),
    h .X86_AVX512DQ (by decide), h .X86_AVX512VL (by decide), h .X86_XOP (by decide), h .ARM_NEON (by decide), h .ARM64_NEON (by decide),
    h .MIPS_MSA (by decide), h .POWER_ALTIVEC (by decide), h .POWER_VSX_206 (by decide), h .POWER_VSX_207 (by decide)]
  simp only [List.map_append, map_if, List.append_assoc]
  have w1 : ∀ (b : Bool) (l r : List (List Char)), whenA b (l ++ r) = whenA b l ++ whenA b r := by
    intro b l r; cases b <;> rfl
  have w2 : ∀ (b c : Bool) (l : List (List Char)), whenA b (whenA c l) = whenA (b && c) l := by
    intro b c l; cases b <;> cases c <;> rfl
  simp only [w1, w2, List.append_assoc, Bool.and_assoc]
  rfl

/-- All definitions of the default lists for a processor family; on ARM the two NEON checks exclude each other. -/
def fullList : Family → Bool → List (List (Option Id))
  | .x86, _ => defaults fun i => decide (family i.insn = .x86)
  | .arm, false => defaults fun i => decide (i = .ARM_NEON)
  | .arm, true => defaults fun i => decide (i = .ARM64_NEON)
  | .power, _ => defaults fun i => decide (family i.insn = .power)
  | .mips, _ => defaults fun i => decide (family i.insn = .mips)

theorem if_sublist {A : Type} (b b' : Bool) (l : List A) (h : b = true → b' = true) :
    List.Sublist (if b then l else []) (if b' then l else []) := by
  cases b
  · exact List.nil_sublist _
  · rw [h rfl]

theorem defaults_mono {sup sup' : Id → Bool} (h : ∀ i, sup i = true → sup' i = true) : (defaults sup).Sublist (defaults sup') := by
  have h2 : ∀ i j, (sup i && sup j) = true → (sup' i && sup' j) = true := by
    intro i j hh
    rw [Bool.and_eq_true] at *
    exact ⟨h i hh.1, h j hh.2⟩
  unfold defaults
  refine (((((((((((((((((((List.Sublist.refl _).append (if_sublist _ _ _ ?_)).append (if_sublist _ _ _ ?_)).append (if_sublist _ _ _ ?_)).append
    (if_sublist _ _ _ ?_)).append (if_sublist _ _ _ ?_)).append (if_sublist _ _ _ ?_)).append (if_sublist _ _ _ ?_)).append
    (if_sublist _ _ _ ?_)).append (if_sublist _ _ _ ?_)).append (if_sublist _ _ _ ?_)).append (if_sublist _ _ _ ?_)).append
    (if_sublist _ _ _ ?_)).append (if_sublist _ _ _ ?_)).append (if_sublist _ _ _ ?_)).append (if_sublist _ _ _ ?_)).append
    (if_sublist _ _ _ ?_)).append (if_sublist _ _ _ ?_)).append (if_sublist _ _ _ ?_))
  all_goals first | exact h _ | exact h2 _ _ | skip
  intro hh
  simp only [Bool.and_eq_true] at *
  exact ⟨⟨⟨h _ hh.1.1.1, h _ hh.1.1.2⟩, h _ hh.1.2⟩, h _ hh.2⟩

theorem defaults_head (sup : Id → Bool) : (defaults sup)[0]? = some [none] := by
  unfold defaults
  simp only [List.append_assoc, List.cons_append, List.nil_append, List.getElem?_cons_zero]

/-- Only identifiers other than the secondary one are looked at. -/
theorem defaults_primary (sup : Id → Bool) : defaults sup = defaults fun i => sup i && decide (i ≠ .ARM_NEON_FLT_SP) := by
  unfold defaults
  simp only [ne_eq, reduceCtorEq, not_false_eq_true, decide_true, Bool.and_true]

/-- What has to be checked about a list of definitions. -/
def checkDefs (fam : Family) (ds : List (List (Option Id))) : Bool :=
  ds.all (fun d => d ≠ [] && d.length ≤ 14 && (allInsns.all fun i => !asks d i || decide (family i = fam)) &&
    !(asks d .fma3 && asks d .fma4)) &&
  decide (ds.Pairwise fun d d' => (allInsns.any fun i => close (asks d) i != close (asks d') i) = true) && decide (ds.length ≤ 15)

theorem definitions_of_check {fam : Family} {ds : List (List (Option Id))} (h : checkDefs fam ds = true) : Definitions fam ds ∧ ds.length ≤ 15 := by
  unfold checkDefs at h
  simp only [Bool.and_eq_true, List.all_eq_true, decide_eq_true_eq, Bool.not_eq_true', Bool.or_eq_true] at h
  obtain ⟨⟨h1, h2⟩, h3⟩ := h
  have hfma : ∀ d ∈ ds, ¬ (asks d .fma3 = true ∧ asks d .fma4 = true) := by
    rintro d hd ⟨g1, g2⟩
    have := (h1 d hd).2
    rw [g1, g2] at this
    cases this
  refine ⟨⟨fun d hd => (h1 d hd).1.1.1, fun d hd => (h1 d hd).1.1.2, ?_, hfma, ?_⟩, h3⟩
  · intro d hd i hi
    rcases (h1 d hd).1.2 i (mem_allInsns i) with g | g
    · rw [hi] at g; cases g
    · exact g
  · refine List.Pairwise.imp_of_mem ?_ h2
    intro d d' hd hd' hh
    obtain ⟨i, _, hi⟩ := List.any_eq_true.1 hh
    refine ⟨i, fun e => ?_⟩
    rw [← needs_iff (preprocess_some (hfma d hd)), ← needs_iff (preprocess_some (hfma d' hd')), ← Bool.eq_iff_iff] at e
    rw [e] at hi
    simp at hi

theorem full_check (fam : Family) (b : Bool) : checkDefs fam (fullList fam b) = true := by
  have : ∀ fam ∈ [Family.x86, .arm, .power, .mips], ∀ b ∈ [true, false], checkDefs fam (fullList fam b) = true := by decide +kernel
  exact this fam (by cases fam <;> decide) b (by cases b <;> decide)

theorem Definitions.sub {fam : Family} {ds ds' : List (List (Option Id))} (h : Definitions fam ds') (hs : ds.Sublist ds') : Definitions fam ds where
  ne d hd := h.ne d (hs.subset hd)
  len d hd := h.len d (hs.subset hd)
  fams d hd := h.fams d (hs.subset hd)
  fma d hd := h.fma d (hs.subset hd)
  differ := h.differ.sublist hs

/-- C61: whatever the checks find, as long as they find instruction sets of one processor family only and not both kinds of ARM, the default
list is a sensible list of at most fifteen definitions with `NONE_NULL` first, so that C61_dispatch applies to it. -/
theorem C61_default_sensible (fam : Family) (can : Id → Bool) (hf : ∀ i, can i = true → family i.insn = fam)
    (ha : ¬ (can .ARM_NEON = true ∧ can .ARM64_NEON = true)) :
    Definitions fam (defaults can) ∧ (defaults can)[0]? = some [none] ∧ (defaults can).length ≤ 15 := by
  have hsub : ∃ b, (defaults can).Sublist (fullList fam b) := by
    cases fam with
    | x86 => exact ⟨true, defaults_mono (sup' := fun i => decide (family i.insn = .x86)) fun i hi => by rw [decide_eq_true_eq]; exact hf i hi⟩
    | power => exact ⟨true, defaults_mono (sup' := fun i => decide (family i.insn = .power)) fun i hi => by rw [decide_eq_true_eq]; exact hf i hi⟩
    | mips => exact ⟨true, defaults_mono (sup' := fun i => decide (family i.insn = .mips)) fun i hi => by rw [decide_eq_true_eq]; exact hf i hi⟩
    | arm =>
      by_cases h64 : can .ARM64_NEON = true
      · refine ⟨true, ?_⟩
        rw [defaults_primary]
        refine defaults_mono (sup' := fun i => decide (i = .ARM64_NEON)) fun i hi => ?_
        simp only [Bool.and_eq_true, decide_eq_true_eq] at hi ⊢
        have h1 := hf i hi.1
        cases i <;> first | rfl | (exfalso; exact absurd h1 (by decide)) | exact (hi.2 rfl).elim | exact (ha (And.intro hi.1 h64)).elim
      · refine ⟨false, ?_⟩
        rw [defaults_primary]
        refine defaults_mono (sup' := fun i => decide (i = .ARM_NEON)) fun i hi => ?_
        simp only [Bool.and_eq_true, decide_eq_true_eq] at hi ⊢
        have h1 := hf i hi.1
        cases i <;> first | rfl | (exfalso; exact absurd h1 (by decide)) | exact absurd hi.1 h64 | exact absurd rfl hi.2
  obtain ⟨b, hs⟩ := hsub
  obtain ⟨hd, hl⟩ := definitions_of_check (full_check fam b)
  exact ⟨hd.sub hs, defaults_head can, hs.length_le.trans hl⟩

/-- C61: the project's own recipe, `simdpp_get_runnable_archs` (or `compilable`) and then `simdpp_multiarch` on its result: for every outcome of
the checks the program builds and the dispatcher calls, on every processor of the family, the best unit that runs there. -/
theorem C61_default_build {cxx : Id → List Char} (hx : Plain cxx) {s : Src} (hs : s.Ok) (p0 : List Char → List Char) (v f : List Char)
    (fam : Family) (can : Id → Bool) (hf : ∀ i, can i = true → family i.insn = fam) (ha : ¬ (can .ARM_NEON = true ∧ can .ARM64_NEON = true))
    (fn : List Char → F) (out : List (List Char) × (List Char → List Char))
    (ho : simdpp_multiarch cxx s p0 [] v f (simdpp_get_archs can []) = out) (cpu : Insn → Prop) (arch : Arch) (hdet : Detected fam cpu arch) :
    (∃ r, Dispatches (unitsOf out fn) (slotsIn out) arch r) ∧
    ∀ r, Dispatches (unitsOf out fn) (slotsIn out) arch r →
      ∃ (k : Nat) (d : List (Option Id)) (file : List Char), (defaults can)[k]? = some d ∧ out.1[k]? = some file ∧ r = some (fn file) ∧
        (∀ i, Needs (asks d) i → cpu i) ∧
        ∀ d' ∈ defaults can, (∀ i, Needs (asks d') i → cpu i) → d' = d ∨
          ∃ i, Needs (asks d) i ∧ ¬ Needs (asks d') i ∧ ∀ j, Needs (asks d') j → ¬ Needs (asks d) j → archBit j < archBit i := by
  obtain ⟨h1, h2, h3⟩ := C61_default_sensible fam can hf ha
  rw [C61_default_list] at ho
  exact (C61_dispatch hx hs p0 v f (defaults can) h1 h2 h3 fn out ho cpu arch hdet).2

/-- C61: if the checks report exactly what the processor has, every unit of the default list runs on it, provided that the processor has the
instruction sets which the lists take for granted: POPCNT with AVX, FMA3 and POPCNT with AVX-512F, single-precision NEON with NEON. -/
theorem C61_runnable (can : Id → Bool) (cpu : Insn → Prop) (hc : ∀ i, can i = true → cpu i.insn)
    (hcl : ∀ i j, cpu i → j ∈ requires i → cpu j) (h1 : cpu .avx → cpu .popcnt) (h2 : cpu .avx512f → cpu .fma3 ∧ cpu .popcnt)
    (h3 : cpu .neon → cpu .neonFltSp) : ∀ d ∈ defaults can, ∀ i, Needs (asks d) i → cpu i := by
  intro d hd i hi
  have key : ∀ i, asks d i = true → cpu i := by
    intro i hi
    have hi : some i ∈ d.map (Option.map Id.insn) := by simpa [asks] using hi
    have g := fun j => hc j
    unfold defaults at hd
    simp only [List.mem_append, List.mem_ite_nil_right, List.mem_singleton, Bool.and_eq_true] at hd
    have gavx : can .X86_AVX = true → cpu .avx := g _
    have gavx2 : can .X86_AVX2 = true → cpu .avx := fun h => hcl .avx2 .avx (g _ h) (by decide)
    have g512 : can .X86_AVX512F = true → cpu .avx512f := g _
    rcases hd with (((((((((((((((((hd | hd) | hd) | hd) | hd) | hd) | hd) | hd) | hd) | hd) | hd) | hd) | hd) | hd) | hd) | hd) | hd) | hd) | hd
    all_goals simp only [hd, List.map_cons, List.map_nil, Option.map_some, Option.map_none, List.mem_cons, List.not_mem_nil, or_false,
      Option.some.injEq, reduceCtorEq, Id.insn] at hi
    all_goals grind [Id.insn]
  induction hi with
  | asked hi => exact key _ hi
  | implied _ hj ih => exact hcl _ _ ih hj

/-! ### What goes wrong -/

/-- C61: a definition with none of the known identifiers generates nothing: misspelt names are dropped silently. -/
theorem C61_unknown_ignored (cxx : Id → List Char) (s : Src) (st : State) (arch : List Char)
    (h : ∀ w ∈ words (· = ',') arch, w ≠ cs! "NONE_NULL" ∧ ∀ i : Id, i.name ≠ w) : archStep cxx s st arch = st := by
  have hstep : ∀ (l : List (List Char)) (r : Info), (∀ w ∈ l, w ≠ cs! "NONE_NULL" ∧ ∀ i : Id, i.name ≠ w) → l.foldl (infoStep cxx) r = r := by
    intro l
    induction l with
    | nil => exact fun _ _ => rfl
    | cons w l ih =>
      intro r hl
      obtain ⟨h1, h2⟩ := hl w List.mem_cons_self
      have hf : findId w = none := by
        unfold findId
        rw [List.find?_eq_none]
        intro i _
        simpa using h2 i
      have e : infoStep cxx r w = r := by
        unfold infoStep
        rw [if_neg h1, hf]
      rw [List.foldl_cons, e]
      exact ih r fun w hw => hl w (List.mem_cons_of_mem _ hw)
  have e : simdpp_get_arch_info cxx arch = ⟨[], [], []⟩ := hstep _ _ fun w hw => h w ((sort_perm _).mem_iff.1 hw)
  unfold archStep
  rw [e]
  rfl

example (st : State) (cxx : Id → List Char) (s : Src) : archStep cxx s st (cs! "X86_SSE4_2,X86_BMI") = st := by
  apply C61_unknown_ignored
  have e : words (· = ',') (cs! "X86_SSE4_2,X86_BMI") = [cs! "X86_SSE4_2", cs! "X86_BMI"] := by decide +kernel
  rw [e]
  intro w hw
  simp only [List.mem_cons, List.not_mem_nil, or_false] at hw
  rcases hw with rfl | rfl <;> exact ⟨by decide, fun i => by cases i <;> decide⟩

/-- C61: if the first definition contains an identifier, no file contains the dispatcher: the program does not link. -/
theorem C61_no_dispatcher {cxx : Id → List Char} (hx : Plain cxx) {s : Src} (hs : s.Ok) (p0 : List Char → List Char) (v f : List Char)
    (ds : List (List (Option Id))) (hne : ∀ d ∈ ds, d ≠ []) (hpd : ds.Pairwise fun d d' => ¬ d.Perm d')
    (d : List (Option Id)) (i : Id) (h0 : ds[0]? = some d) (hi : some i ∈ d) (file : List Char)
    (hm : file ∈ (simdpp_multiarch cxx s p0 [] v f (ds.map archStr)).1) :
    emits ((simdpp_multiarch cxx s p0 [] v f (ds.map archStr)).2 file) = false := by
  have hds : ds ≠ [] := by rintro rfl; cases h0
  obtain ⟨_, hl, hf⟩ := C61_files hx hs p0 v f ds hds hne hpd
  obtain ⟨k, hk⟩ := List.mem_iff_getElem?.1 hm
  obtain ⟨hk', _⟩ := List.getElem?_eq_some_iff.1 hk
  obtain ⟨file', hf', _, he⟩ := hf k (ds[k]'(by omega)) (List.getElem?_eq_getElem _)
  rw [hk] at hf'
  rw [← Option.some.inj hf'] at he
  rw [Bool.eq_false_iff, ne_eq, he]
  rintro ⟨rfl, hn⟩
  rw [List.getElem?_eq_getElem (by omega)] at h0
  rw [Option.some.inj h0] at hn
  cases hn _ hi

/-- The flags for GCC. Models the `_CXX_FLAGS` lines of /repo/cmake/SimdppMultiarch.cmake:63-913 for GCC. -/
def gccFlags : Id → List Char
  | .X86_SSE2 => cs! "-msse2"
  | .X86_SSE3 => cs! "-msse3"
  | .X86_SSSE3 => cs! "-mssse3"
  | .X86_SSE4_1 => cs! "-msse4.1"
  | .X86_POPCNT_INSN => cs! "-mssse3 -mpopcnt"
  | .X86_AVX => cs! "-mavx"
  | .X86_AVX2 => cs! "-mavx2"
  | .X86_FMA3 => cs! "-mfma"
  | .X86_FMA4 => cs! "-mfma4"
  | .X86_XOP => cs! "-mxop"
  | .X86_AVX512F => cs! "-mavx512f -O1"
  | .X86_AVX512BW => cs! "-mavx512bw"
  | .X86_AVX512DQ => cs! "-mavx512dq"
  | .X86_AVX512VL => cs! "-mavx512vl"
  | .ARM_NEON => cs! "-mfpu=neon"
  | .ARM64_NEON => cs! "-mcpu=generic+simd"
  | .MIPS_MSA => cs! "-mips64r5 -mmsa -mhard-float -mfp64 -mnan=legacy"
  | .POWER_ALTIVEC => cs! "-maltivec"
  | .POWER_VSX_206 => cs! "-mvsx"
  | .POWER_VSX_207 => cs! "-mvsx -mcpu=power8"
  | .ARM_NEON_FLT_SP => cs! "-mfpu=neon"

theorem gcc_plain : Plain gccFlags := by
  have : ∀ i ∈ allIds, ∀ w ∈ words (· = ' ') (gccFlags i), ¬ ['-', 'D'] <+: w := by decide +kernel
  exact fun i => this i (mem_allIds i)

/-- A source file. -/
def sampleSrc : Src := ⟨cs! "/src", cs! "/build", cs! "lib", cs! "mul", cs! ".cc"⟩

theorem sampleSrc_ok : sampleSrc.Ok := by unfold Src.Ok; decide +kernel

/-- A build with three definitions. -/
def sampleDefs : List (List (Option Id)) := [[none], [some .X86_SSE2], [some .X86_FMA3, some .X86_AVX2]]

theorem sampleDefs_ok : Definitions .x86 sampleDefs ∧ sampleDefs.length ≤ 15 := definitions_of_check (by decide +kernel)

/-- The three files of the sample and their flags. -/
example :
    (simdpp_multiarch gccFlags sampleSrc (fun _ => []) [] (cs! "FILES") (cs! "lib/mul.cc") (sampleDefs.map archStr)).1 =
      [cs! "/build/lib/mul_simdpp_-null.cc", cs! "/build/lib/mul_simdpp_-x86_sse2.cc", cs! "/build/lib/mul_simdpp_-x86_avx2-x86_fma3.cc"] ∧
    (simdpp_multiarch gccFlags sampleSrc (fun _ => []) [] (cs! "FILES") (cs! "lib/mul.cc") (sampleDefs.map archStr)).2
        (cs! "/build/lib/mul_simdpp_-x86_avx2-x86_fma3.cc") =
      cs! "-I\"/src/lib\"  -mavx2 -DSIMDPP_ARCH_X86_AVX2 -mfma -DSIMDPP_ARCH_X86_FMA3" ∧
    (simdpp_multiarch gccFlags sampleSrc (fun _ => []) [] (cs! "FILES") (cs! "lib/mul.cc") (sampleDefs.map archStr)).2
        (cs! "/build/lib/mul_simdpp_-null.cc") =
      cs! "-I\"/src/lib\" -DSIMDPP_EMIT_DISPATCHER=1 -DSIMDPP_DISPATCH_ARCH1= -DSIMDPP_DISPATCH_ARCH2=SIMDPP_ARCH_X86_SSE2 -DSIMDPP_DISPATCH_ARCH3=SIMDPP_ARCH_X86_AVX2,SIMDPP_ARCH_X86_FMA3" := by
  decide +kernel

/-- The theorem on the generated build applies to the sample. -/
example (fn : List Char → F) (cpu : Insn → Prop) (arch : Arch) (hdet : Detected .x86 cpu arch) :
    ∃ r, Dispatches (unitsOf (simdpp_multiarch gccFlags sampleSrc (fun _ => []) [] (cs! "FILES") (cs! "lib/mul.cc") (sampleDefs.map archStr)) fn)
      (slotsIn (simdpp_multiarch gccFlags sampleSrc (fun _ => []) [] (cs! "FILES") (cs! "lib/mul.cc") (sampleDefs.map archStr))) arch r :=
  (C61_dispatch gcc_plain sampleSrc_ok _ _ _ sampleDefs sampleDefs_ok.1 rfl sampleDefs_ok.2 fn _ rfl cpu arch hdet).2.1

/-- Without `NONE_NULL` in front: the first file's flags run together. -/
example :
    (simdpp_multiarch gccFlags sampleSrc (fun _ => []) [] (cs! "FILES") (cs! "lib/mul.cc") [cs! "X86_SSE2", cs! "X86_AVX"]).2
        (cs! "/build/lib/mul_simdpp_-x86_sse2.cc") =
      cs! "-I\"/src/lib\"  -msse2 -DSIMDPP_ARCH_X86_SSE2-DSIMDPP_EMIT_DISPATCHER=1 -DSIMDPP_DISPATCH_ARCH1=SIMDPP_ARCH_X86_SSE2 -DSIMDPP_DISPATCH_ARCH2=SIMDPP_ARCH_X86_AVX" := by
  decide +kernel

/-- C61: if the caller keeps the list in a variable of the name `ARCHS`, the function drops the first two definitions of it instead of its own
first two arguments: the last definition is generated twice and no file contains the dispatcher. -/
theorem C61_caller_variable_counterexample :
    ∃ (ds : List (List (Option Id))) (out : List (List Char) × (List Char → List Char)), Definitions .x86 ds ∧ ds[0]? = some [none] ∧
      simdpp_multiarch gccFlags sampleSrc (fun _ => []) (ds.map archStr) (cs! "FILES") (cs! "lib/mul.cc") (ds.map archStr) = out ∧
      ¬ out.1.Nodup ∧ (∀ file ∈ out.1, emits (out.2 file) = false) := by
  refine ⟨sampleDefs, _, sampleDefs_ok.1, rfl, rfl, ?_, ?_⟩ <;> decide +kernel

/-- C61: the same variable makes `simdpp_get_runnable_archs` report architectures whose check failed. -/
theorem C61_caller_variable_runnable_counterexample :
    ∃ (can : Id → Bool) (ambient : List (List Char)), can .X86_SSE2 = false ∧ (cs! "X86_SSE2") ∈ simdpp_get_archs can ambient :=
  ⟨fun _ => false, [cs! "NONE_NULL", cs! "X86_SSE2"], rfl, by decide +kernel⟩

/-- C61: POPCNT is taken for granted: on a processor with AVX but without POPCNT `simdpp_get_runnable_archs` lists a unit that cannot run. -/
theorem C61_runnable_counterexample :
    ∃ (can : Id → Bool) (cpu : Insn → Prop), (∀ i, can i = true ↔ cpu i.insn) ∧ (∀ i j, cpu i → j ∈ requires i → cpu j) ∧
      ∃ d ∈ defaults can, ∃ i, Needs (asks d) i ∧ ¬ cpu i := by
  refine ⟨fun i => decide (i.insn ∈ [Insn.sse2, .sse3, .ssse3, .sse41, .avx]), fun i => i ∈ [Insn.sse2, .sse3, .ssse3, .sse41, .avx],
    fun i => by simp, ?_, [some .X86_AVX, some .X86_POPCNT_INSN], by decide +kernel, .popcnt, Needs.asked (by decide), by decide⟩
  intro i j
  cases i <;> cases j <;> decide

/-- The two NEON definitions. -/
def defaultsTail : List (List (Option Id)) := [[some .ARM_NEON], [some .ARM64_NEON]]

theorem defaultsTail_sub {can : Id → Bool} (h1 : can .ARM_NEON = true) (h2 : can .ARM64_NEON = true) : defaultsTail.Sublist (defaults can) := by
  have h := defaults_mono (sup := fun i => decide (i = .ARM_NEON ∨ i = .ARM64_NEON)) (sup' := can) fun i hi => by
    rw [decide_eq_true_eq] at hi
    rcases hi with rfl | rfl
    · exact h1
    · exact h2
  exact List.Sublist.trans (by decide +kernel) h

/-- C61: if both ARM checks succeed, the default list asks for the same instruction set twice and the program does not link. -/
theorem C61_both_arm_counterexample (can : Id → Bool) (h1 : can .ARM_NEON = true) (h2 : can .ARM64_NEON = true) (fn : List (Option Id) → F) :
    ¬ ∃ syms, link ((defaults can).map fun d => (⟨asks d, fn d⟩ : Obj F)) = some syms := by
  rw [C57_links_iff]
  rintro ⟨_, h⟩
  rw [List.pairwise_map] at h
  have hs : List.Sublist [[some Id.ARM_NEON], [some .ARM64_NEON]] (defaults can) := by
    have e : [[some Id.ARM_NEON], [some .ARM64_NEON]] = defaultsTail := rfl
    exact e ▸ defaultsTail_sub h1 h2
  have h := h.sublist hs
  rw [List.pairwise_cons] at h
  obtain ⟨i, hi⟩ := h.1 _ List.mem_cons_self
  have e : asks [some Id.ARM_NEON] = asks [some .ARM64_NEON] := rfl
  rw [e] at hi
  exact hi Iff.rfl

end Simdpp.CMake
