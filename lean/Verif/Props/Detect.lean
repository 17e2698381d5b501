import Verif.Model.Detect
import Verif.Props.Dispatch
import Mathlib.Data.List.Infix
import Mathlib.Tactic.SplitIfs
import Mathlib.Tactic.IntervalCases

/-! # C38: CPU feature detection -/

namespace Simdpp.Dispatch

open Arch

/-! ### Specification -/

/-- `w` is a maximal non-empty run of characters of `s` none of which is a separator. -/
def IsField (sep : Char → Bool) (s w : List Char) : Prop :=
  w ≠ [] ∧ (∀ c ∈ w, sep c = false) ∧
  ∃ p q, s = p ++ w ++ q ∧ (p = [] ∨ ∃ p' c, p = p' ++ [c] ∧ sep c = true) ∧
    (q = [] ∨ ∃ c q', q = c :: q' ∧ sep c = true)

/-- x86: bit `i` implies bit `j` (AVX2 implies AVX implies SSE4.1 and so on; POPCNT, which
the detection functions treat as independent, implies nothing here). -/
def x86Implies : List (Nat × Nat) :=
  [(2, 1), (3, 2), (4, 3), (6, 4), (7, 6), (8, 2), (9, 2), (10, 2), (11, 7), (12, 11), (13, 11), (14, 11)]

/-- The implications of each target (ARM: FLT_SP implies NEON; POWER: VSX 2.07 implies 2.06 implies Altivec). -/
def implies : Target → List (Nat × Nat)
  | .x86 => x86Implies
  | .arm32 => [(1, 0)]
  | .arm64 => [(1, 0), (0, 1)]
  | .ppc => [(1, 0), (2, 1)]
  | .mips => []

/-- The feature set `a` is downward closed. -/
def Closed (t : Target) (a : Arch) : Prop := ∀ ij ∈ implies t, a.getLsbD ij.1 = true → a.getLsbD ij.2 = true

instance (t : Target) (a : Arch) : Decidable (Closed t a) := by unfold Closed; infer_instance

/-! ### Splitting into lines and words -/

/-- The common shape of `readWords` and of the non-empty lines. -/
def fields (sep : Char → Bool) (cur : List Char) : List Char → List (List Char)
  | [] => if cur = [] then [] else [cur.reverse]
  | c :: cs =>
    if sep c then (if cur = [] then fields sep [] cs else cur.reverse :: fields sep [] cs)
    else fields sep (c :: cur) cs

theorem readWords_eq (cur s : List Char) : readWords cur s = fields isSpace cur s := by
  induction s generalizing cur with
  | nil => rfl
  | cons c cs ih => simp only [readWords, fields, ih]

theorem mem_getlines {l : List Char} (hl : l ≠ []) (cur s : List Char) :
    l ∈ getlines cur s ↔ l ∈ fields (· == '\n') cur s := by
  induction s generalizing cur with
  | nil => rfl
  | cons c cs ih =>
    simp only [getlines, fields, beq_iff_eq]
    split_ifs with h1 h2
    · subst h2; simp [ih, hl]
    · simp [ih]
    · exact ih _

theorem mem_fields (sep : Char → Bool) (w : List Char) (s : List Char) : ∀ cur : List Char, (∀ c ∈ cur, sep c = false) →
    (w ∈ fields sep cur s ↔ IsField sep (cur.reverse ++ s) w) := by
  induction s with
  | nil =>
    intro cur hc
    unfold fields IsField
    rw [List.append_nil]
    constructor
    · intro h
      split_ifs at h with h0
      · simp at h
      · rw [List.mem_singleton] at h; subst h
        exact ⟨by simpa using h0, fun c hcm => hc c (by simpa using hcm), [], [], by simp, .inl rfl, .inl rfl⟩
    · rintro ⟨hw, hs, p, q, he, hp, hq⟩
      have hp' : p = [] := by
        rcases hp with h | ⟨p', c, h, hsep⟩
        · exact h
        · have := hc c (by rw [← List.mem_reverse, he, h]; simp)
          rw [hsep] at this; cases this
      have hq' : q = [] := by
        rcases hq with h | ⟨c, q', h, hsep⟩
        · exact h
        · have := hc c (by rw [← List.mem_reverse, he, h]; simp)
          rw [hsep] at this; cases this
      subst hp' hq'
      simp only [List.nil_append, List.append_nil] at he
      rw [if_neg (by rintro rfl; simp at he; exact hw he), he]
      simp
  | cons c cs ih =>
    intro cur hc
    unfold fields
    by_cases hsep : sep c = true
    · rw [if_pos hsep]
      have e1 : w ∈ (if cur = [] then fields sep [] cs else cur.reverse :: fields sep [] cs) ↔
          (w = cur.reverse ∧ w ≠ []) ∨ w ∈ fields sep [] cs := by
        split_ifs with h0
        · subst h0
          constructor
          · exact .inr
          · rintro (⟨h, h'⟩ | h)
            · exact absurd h h'
            · exact h
        · rw [List.mem_cons]
          constructor
          · rintro (h | h)
            · exact .inl ⟨h, by rw [h]; simpa using h0⟩
            · exact .inr h
          · rintro (⟨h, _⟩ | h)
            · exact .inl h
            · exact .inr h
      rw [e1, ih [] (by simp)]
      simp only [List.reverse_nil, List.nil_append]
      constructor
      · rintro (⟨rfl, h⟩ | ⟨hw, hs, p, q, he, hp, hq⟩)
        · exact ⟨h, fun d hd => hc d (by simpa using hd), [], c :: cs, by simp, .inl rfl, .inr ⟨c, cs, rfl, hsep⟩⟩
        · refine ⟨hw, hs, cur.reverse ++ c :: p, q, by rw [he]; simp, .inr ?_, hq⟩
          rcases hp with rfl | ⟨p', d, rfl, hd⟩
          · exact ⟨cur.reverse, c, rfl, hsep⟩
          · exact ⟨cur.reverse ++ c :: p', d, by simp, hd⟩
      · rintro ⟨hw, hs, p, q, he, hp, hq⟩
        rw [List.append_assoc] at he
        rcases List.append_eq_append_iff.1 he with ⟨a, h1, h2⟩ | ⟨a, h1, h2⟩
        · -- p = cur.reverse ++ a, c :: cs = a ++ (w ++ q)
          right
          cases a with
          | nil =>
            exfalso
            cases w with
            | nil => exact hw rfl
            | cons d ds =>
              simp only [List.nil_append, List.cons_append, List.cons.injEq] at h2
              have := hs d (by simp)
              rw [← h2.1, hsep] at this; cases this
          | cons d ds =>
            simp only [List.cons_append, List.cons.injEq] at h2
            obtain ⟨rfl, h2⟩ := h2
            refine ⟨hw, hs, ds, q, by rw [h2]; simp, ?_, hq⟩
            rcases hp with rfl | ⟨p', e, hpe, he'⟩
            · simp at h1
            · rcases List.eq_nil_or_concat ds with rfl | ⟨ds', x, rfl⟩
              · exact .inl rfl
              · right
                refine ⟨ds', x, by simp, ?_⟩
                rw [hpe] at h1
                have h3 : p' ++ [e] = (cur.reverse ++ c :: ds') ++ [x] := by rw [h1]; simp
                have h4 := (List.append_inj' h3 rfl).2
                rw [List.cons.injEq] at h4
                rw [← h4.1]; exact he'
        · -- cur.reverse = p ++ a, w ++ q = a ++ c :: cs
          have hp' : p = [] := by
            rcases hp with h | ⟨p', d, h, hd⟩
            · exact h
            · have := hc d (by rw [← List.mem_reverse, h1, h]; simp)
              rw [hd] at this; cases this
          subst hp'
          rw [List.nil_append] at h1
          left
          refine ⟨?_, hw⟩
          rcases List.append_eq_append_iff.1 h2 with ⟨b, h3, h4⟩ | ⟨b, h3, h4⟩
          · cases b with
            | nil => simp at h3; rw [← h3, h1]
            | cons d ds =>
              rcases hq with rfl | ⟨d', q', rfl, hd⟩
              · simp at h4
              · simp only [List.cons_append, List.cons.injEq] at h4
                have := hc d (by rw [← List.mem_reverse, h1, h3]; simp)
                rw [← h4.1, hd] at this; cases this
          · cases b with
            | nil => simp at h3; rw [h3, h1]
            | cons d ds =>
              simp only [List.cons_append, List.cons.injEq] at h4
              have := hs d (by rw [h3]; simp)
              rw [← h4.1, hsep] at this; cases this
    · rw [if_neg hsep, ih (c :: cur) (by
        intro d hd
        rcases List.mem_cons.1 hd with rfl | hd
        · simpa using hsep
        · exact hc d hd)]
      simp

theorem mem_readWords (s w : List Char) : w ∈ readWords [] s ↔ IsField isSpace s w := by
  rw [readWords_eq, mem_fields _ _ _ _ (by simp)]; simp

theorem mem_getlines_iff {l : List Char} (hl : l ≠ []) (s : List Char) :
    l ∈ getlines [] s ↔ IsField (· == '\n') s l := by
  rw [mem_getlines hl, mem_fields _ _ _ _ (by simp)]; simp

/-! ### The loops as unions -/

theorem lookup_iff {α β : Type} [BEq α] [LawfulBEq α] {l : List (α × β)} (hn : (l.map Prod.fst).Nodup) (a : α) (b : β) :
    l.lookup a = some b ↔ (a, b) ∈ l := by
  induction l with
  | nil => simp
  | cons x xs ih =>
    obtain ⟨a', b'⟩ := x
    rw [List.map_cons, List.nodup_cons] at hn
    rw [List.lookup_cons]
    by_cases h : a = a'
    · subst h
      simp only [BEq.rfl, Option.some.injEq, List.mem_cons, Prod.mk.injEq, true_and]
      constructor
      · intro h; exact .inl h.symm
      · rintro (h | h)
        · exact h.symm
        · exact absurd (List.mem_map_of_mem (f := Prod.fst) h) hn.1
    · have : (a == a') = false := by simpa using h
      simp only [this, ih hn.2, List.mem_cons, Prod.mk.injEq, h, false_and, false_or]

theorem addItems_bit {fs : List (List Char × Arch)} (hn : (fs.map Prod.fst).Nodup) (k : Nat) (items : List (List Char)) (res : Arch) :
    (addItems fs items res).getLsbD k = true ↔
      res.getLsbD k = true ∨ ∃ w ∈ items, ∃ a, (w, a) ∈ fs ∧ a.getLsbD k = true := by
  induction items generalizing res with
  | nil => simp [addItems]
  | cons w ws ih =>
    unfold addItems
    simp only [List.mem_cons, exists_eq_or_imp]
    cases h : fs.lookup w with
    | none =>
      have : ∀ a, (w, a) ∉ fs := fun a ha => by rw [(lookup_iff hn _ _).2 ha] at h; cases h
      simp [ih, this]
    | some a =>
      have ha := (lookup_iff hn _ _).1 h
      have hu : ∀ a', (w, a') ∈ fs → a' = a := fun a' ha' => by
        rw [(lookup_iff hn _ _).2 ha'] at h; exact Option.some.inj h
      simp only [ih, BitVec.getLsbD_or, Bool.or_eq_true]
      constructor
      · rintro ((h | h) | h)
        · exact .inl h
        · exact .inr (.inl ⟨a, ha, h⟩)
        · exact .inr (.inr h)
      · rintro (h | ⟨a', h1, h2⟩ | h)
        · exact .inl (.inl h)
        · rw [hu a' h1] at h2; exact .inl (.inr h2)
        · exact .inr h

theorem cpuinfoLoop_bit {ident : List Char} {fs : List (List Char × Arch)} (hn : (fs.map Prod.fst).Nodup) (k : Nat)
    (lines : List (List Char)) (res : Arch) :
    (cpuinfoLoop ident fs lines res).getLsbD k = true ↔ res.getLsbD k = true ∨
      ∃ line ∈ lines, ∃ rest, line = ident ++ rest ∧ ∃ w, IsField isSpace rest w ∧ ∃ a, (w, a) ∈ fs ∧ a.getLsbD k = true := by
  induction lines generalizing res with
  | nil => simp [cpuinfoLoop]
  | cons l ls ih =>
    unfold cpuinfoLoop
    simp only [List.mem_cons, exists_eq_or_imp]
    split_ifs with h1 h2
    · rw [ih]
      have : ∀ rest, l ≠ ident ++ rest := by rintro rest rfl; rw [List.length_append] at h1; omega
      simp [this]
    · rw [ih]
      have : ∀ rest, l ≠ ident ++ rest := by rintro rest rfl; simp at h2
      simp [this]
    · rw [ih, addItems_bit hn]
      rw [not_not] at h2
      have e : l = ident ++ l.drop ident.length := by
        conv_lhs => rw [← List.take_append_drop ident.length l]
        rw [h2]
      have : (∃ rest, l = ident ++ rest ∧ ∃ w, IsField isSpace rest w ∧ ∃ a, (w, a) ∈ fs ∧ a.getLsbD k = true) ↔
          ∃ w ∈ readWords [] (l.drop ident.length), ∃ a, (w, a) ∈ fs ∧ a.getLsbD k = true := by
        simp only [mem_readWords]
        constructor
        · rintro ⟨rest, hr, h⟩
          rw [e, List.append_cancel_left_eq] at hr
          rw [hr]; exact h
        · exact fun h => ⟨_, e, h⟩
      rw [this, or_assoc]

theorem cpuinfo_nodup (t : Target) : ((cpuinfo_features t).map Prod.fst).Nodup := by cases t <;> decide

/-- C38 (cpuinfo): exactly the features named by the words of the lines that start with the
identifying prefix are reported, with everything the table lists for them. -/
theorem C38_cpuinfo_reports (t : Target) (txt : List Char) (k : Nat) :
    (get_arch_linux_cpuinfo t (some txt)).getLsbD k = true ↔
      ∃ ident, cpuinfo_ident t = some ident ∧ ∃ rest, IsField (· == '\n') txt (ident ++ rest) ∧
        ∃ w, IsField isSpace rest w ∧ ∃ a, (w, a) ∈ cpuinfo_features t ∧ a.getLsbD k = true := by
  unfold get_arch_linux_cpuinfo
  cases hi : cpuinfo_ident t with
  | none => simp [NONE_NULL]
  | some ident =>
    have hne : ∀ rest, ident ++ rest ≠ [] := by
      intro rest h
      have : ident = [] := (List.append_eq_nil_iff.1 h).1
      subst this
      revert hi; cases t <;> decide
    dsimp only
    rw [cpuinfoLoop_bit (cpuinfo_nodup t)]
    simp only [NONE_NULL, Option.some.injEq, exists_eq_left', BitVec.ofNat_eq_ofNat, BitVec.getLsbD_zero, Bool.false_eq_true, false_or]
    constructor
    · rintro ⟨_, hl, rest, rfl, h⟩
      exact ⟨rest, (mem_getlines_iff (hne rest) _).1 hl, h⟩
    · rintro ⟨rest, hl, h⟩
      exact ⟨_, (mem_getlines_iff (hne rest) _).2 hl, rest, rfl, h⟩

theorem cpuinfo_table_closed (t : Target) : ∀ x ∈ cpuinfo_features t, Closed t x.2 := by cases t <;> decide
theorem string_table_closed (t : Target) : ∀ x ∈ string_features t, Closed t x.2 := by cases t <;> decide

/-- C38 (cpuinfo): whatever the file contains, the reported set is downward closed. -/
theorem C38_cpuinfo_closed (t : Target) (txt : Option (List Char)) : Closed t (get_arch_linux_cpuinfo t txt) := by
  intro ij hij
  cases txt with
  | none => unfold get_arch_linux_cpuinfo; cases cpuinfo_ident t <;> simp [NONE_NULL]
  | some txt =>
    rw [C38_cpuinfo_reports, C38_cpuinfo_reports]
    rintro ⟨i, hi, rest, hr, w, hw, a, ha, hb⟩
    exact ⟨i, hi, rest, hr, w, hw, a, ha, cpuinfo_table_closed t _ ha ij hij hb⟩

/-- C38 (cpuinfo): monotone, hence independent of order, repetition and unknown words: if every word
of every flags line of `s` occurs in some flags line of `s'`, what is reported
for `s` is reported for `s'`. -/
theorem C38_cpuinfo_monotone (t : Target) (s s' : List Char)
    (h : ∀ ident rest w, cpuinfo_ident t = some ident → IsField (· == '\n') s (ident ++ rest) → IsField isSpace rest w →
      ∃ rest', IsField (· == '\n') s' (ident ++ rest') ∧ IsField isSpace rest' w) (k : Nat)
    (hk : (get_arch_linux_cpuinfo t (some s)).getLsbD k = true) :
    (get_arch_linux_cpuinfo t (some s')).getLsbD k = true := by
  rw [C38_cpuinfo_reports] at *
  obtain ⟨i, hi, rest, hr, w, hw, a, ha, hb⟩ := hk
  obtain ⟨rest', h1, h2⟩ := h i rest w hi hr hw
  exact ⟨i, hi, rest', h1, w, h2, a, ha, hb⟩

/-- A concrete cpuinfo text. -/
example : get_arch_linux_cpuinfo .x86 (some "model name\t: x\nflags\t\t: fpu sse2 avx2  pni\nbugs\t: avx512f\n".toList) = a_avx2 := by decide +kernel

/-! ### String lists -/

theorem orFeatures_bit (s : List Char) (k : Nat) (fs : List (List Char × Arch)) (res : Arch) :
    (orFeatures s fs res).getLsbD k = true ↔ res.getLsbD k = true ∨ ∃ a, (s, a) ∈ fs ∧ a.getLsbD k = true := by
  induction fs generalizing res with
  | nil => simp [orFeatures]
  | cons x xs ih =>
    obtain ⟨id, a⟩ := x
    unfold orFeatures
    rw [ih]
    simp only [List.mem_cons, Prod.mk.injEq]
    split_ifs with h
    · subst h
      simp only [BitVec.getLsbD_or, Bool.or_eq_true, true_and]
      constructor
      · rintro ((h | h) | ⟨b, h1, h2⟩)
        · exact .inl h
        · exact .inr ⟨a, .inl rfl, h⟩
        · exact .inr ⟨b, .inr h1, h2⟩
      · rintro (h | ⟨b, rfl | h1, h2⟩)
        · exact .inl (.inl h)
        · exact .inl (.inr h2)
        · exact .inr ⟨b, h1, h2⟩
    · simp [h]

theorem stringLoop_bit (fs : List (List Char × Arch)) (pre : List Char) (k : Nat) (ss : List (List Char)) (res : Arch) :
    (stringLoop fs pre ss res).getLsbD k = true ↔ res.getLsbD k = true ∨
      ∃ id a, pre ++ id ∈ ss ∧ (id, a) ∈ fs ∧ a.getLsbD k = true := by
  induction ss generalizing res with
  | nil => simp [stringLoop]
  | cons s ss ih =>
    unfold stringLoop
    simp only [List.mem_cons]
    split_ifs with h1 h2
    · rw [ih]
      have : ∀ id, pre ++ id ≠ s := by rintro id rfl; rw [List.length_append] at h1; omega
      simp [this]
    · rw [ih]
      have : ∀ id, pre ++ id ≠ s := by rintro id rfl; simp at h2
      simp [this]
    · rw [not_not] at h2
      rw [ih, orFeatures_bit]
      have e : s = pre ++ s.drop pre.length := by
        conv_lhs => rw [← List.take_append_drop pre.length s]
        rw [h2]
      constructor
      · rintro ((h | ⟨a, ha, hb⟩) | ⟨id, a, h, h', h''⟩)
        · exact .inl h
        · exact .inr ⟨_, a, .inl e.symm, ha, hb⟩
        · exact .inr ⟨id, a, .inr h, h', h''⟩
      · rintro (h | ⟨id, a, h | h, h', h''⟩)
        · exact .inl (.inl h)
        · rw [e, List.append_cancel_left_eq] at h
          subst h
          exact .inl (.inr ⟨a, h', h''⟩)
        · exact .inr ⟨id, a, h, h', h''⟩

/-- C38 (string list): a feature bit is reported iff some string is the prefix followed by
the exact name of an instruction set whose entry has the bit. -/
theorem C38_string_list_reports (t : Target) (strings : List (List Char)) (pre : Option (List Char)) (k : Nat) :
    (get_arch_string_list t strings pre).getLsbD k = true ↔
      ∃ id a, pre.getD [] ++ id ∈ strings ∧ (id, a) ∈ string_features t ∧ a.getLsbD k = true := by
  unfold get_arch_string_list
  rw [stringLoop_bit]
  simp [NONE_NULL]

/-- C38 (string list): downward closed whatever the strings and the prefix. -/
theorem C38_string_list_closed (t : Target) (strings : List (List Char)) (pre : Option (List Char)) :
    Closed t (get_arch_string_list t strings pre) := by
  intro ij hij
  rw [C38_string_list_reports, C38_string_list_reports]
  rintro ⟨id, a, h, h', hb⟩
  exact ⟨id, a, h, h', string_table_closed t _ h' ij hij hb⟩

/-- C38 (string list): monotone in the set of strings, hence order- and duplicate-insensitive. -/
theorem C38_string_list_monotone (t : Target) (ss ss' : List (List Char)) (pre : Option (List Char))
    (h : ∀ s ∈ ss, s ∈ ss') (k : Nat) (hk : (get_arch_string_list t ss pre).getLsbD k = true) :
    (get_arch_string_list t ss' pre).getLsbD k = true := by
  rw [C38_string_list_reports] at *
  obtain ⟨id, a, h1, h2⟩ := hk
  exact ⟨id, a, h _ h1, h2⟩

theorem C38_string_list_set (t : Target) (ss ss' : List (List Char)) (pre : Option (List Char))
    (h : ∀ s, s ∈ ss ↔ s ∈ ss') : get_arch_string_list t ss pre = get_arch_string_list t ss' pre := by
  apply BitVec.eq_of_getLsbD_eq
  intro k _
  rw [Bool.eq_iff_iff]
  exact ⟨C38_string_list_monotone t ss ss' pre (fun s => (h s).1) k, C38_string_list_monotone t ss' ss pre (fun s => (h s).2) k⟩

/-- The implied-feature entries mean what arch.h names say: e.g. "sse4p1" turns on exactly
SSE2, SSE3, SSSE3 and SSE4.1. -/
example : get_arch_string_list .x86 ["--sse4p1".toList, "sse2".toList, "--avx9".toList] (some "--".toList) =
    X86_SSE2 ||| X86_SSE3 ||| X86_SSSE3 ||| X86_SSE4_1 := by decide

/-! ### `__builtin_cpu_supports` -/

/-- C38 (gcc builtin): downward closed for every processor. -/
theorem C38_gcc_builtin_closed (g : Bool) (sup : String → Bool) : Closed .x86 (get_arch_gcc_builtin g sup) := by
  unfold get_arch_gcc_builtin
  dsimp only
  split_ifs <;> decide

/-- C38 (gcc builtin): sound for every processor whose supported features are downward
closed (and, for AVX-512F, include FMA, which is not queried). -/
theorem C38_gcc_builtin_sound (g : Bool) (sup : String → Bool)
    (c1 : sup "sse3" = true → sup "sse2" = true) (c2 : sup "ssse3" = true → sup "sse3" = true)
    (c3 : sup "sse4.1" = true → sup "ssse3" = true) (c4 : sup "avx" = true → sup "sse4.1" = true)
    (c5 : sup "avx2" = true → sup "avx" = true) (c6 : sup "avx512f" = true → sup "avx2" = true ∧ sup "fma" = true)
    (k : Nat) (hk : (get_arch_gcc_builtin g sup).getLsbD k = true) :
    ∃ name, (k, name) ∈ [(1, "sse2"), (2, "sse3"), (3, "ssse3"), (4, "sse4.1"), (5, "popcnt"), (6, "avx"), (7, "avx2"),
      (8, "fma"), (11, "avx512f")] ∧ sup name = true := by
  have hlt : k < 32 := by
    by_contra hc; rw [BitVec.getLsbD_of_ge _ _ (by omega)] at hk; cases hk
  have key : ∀ (a : Arch) (ks : List Nat), (∀ k < 32, a.getLsbD k = true → k ∈ ks) → a.getLsbD k = true → k ∈ ks :=
    fun a ks h hk => h k hlt hk
  unfold get_arch_gcc_builtin at hk
  dsimp only at hk
  split_ifs at hk with h1 h2 h3 h4 h5 h6 h7 h8 h9 h10 h11 h12 h13 h14 h15
  all_goals
    simp only [Bool.and_eq_true] at *
    first
    | (have := key _ [5, 1, 2, 3, 4, 6, 7, 8, 11] (by decide) hk
       simp only [List.mem_cons, List.not_mem_nil, or_false] at this
       rcases this with rfl | rfl | rfl | rfl | rfl | rfl | rfl | rfl | rfl <;>
       first
       | exact absurd hk (by decide)
       | (refine ⟨_, by simp; rfl, ?_⟩; simp_all; done))

/-! ### Raw CPUID -/

/-- The processor itself has feature `k` (numbered as in arch.h), from the vendors' CPUID tables. -/
def HwHas (m : Machine) : Nat → Prop
  | 1 => 1 ≤ (m.cpuid 0 0).eax.toNat ∧ (m.cpuid 1 0).edx.getLsbD 26 = true
  | 2 => 1 ≤ (m.cpuid 0 0).eax.toNat ∧ (m.cpuid 1 0).ecx.getLsbD 0 = true
  | 3 => 1 ≤ (m.cpuid 0 0).eax.toNat ∧ (m.cpuid 1 0).ecx.getLsbD 9 = true
  | 4 => 1 ≤ (m.cpuid 0 0).eax.toNat ∧ (m.cpuid 1 0).ecx.getLsbD 19 = true
  | 5 => 1 ≤ (m.cpuid 0 0).eax.toNat ∧ (m.cpuid 1 0).ecx.getLsbD 23 = true
  | 6 => 1 ≤ (m.cpuid 0 0).eax.toNat ∧ (m.cpuid 1 0).ecx.getLsbD 28 = true
  | 7 => 7 ≤ (m.cpuid 0 0).eax.toNat ∧ (m.cpuid 7 0).ebx.getLsbD 5 = true
  | 8 => 1 ≤ (m.cpuid 0 0).eax.toNat ∧ (m.cpuid 1 0).ecx.getLsbD 12 = true
  | 9 => 0x80000001 ≤ (m.cpuid 0x80000000 0).eax.toNat ∧ (m.cpuid 0x80000001 0).ecx.getLsbD 16 = true
  | 10 => 0x80000001 ≤ (m.cpuid 0x80000000 0).eax.toNat ∧ (m.cpuid 0x80000001 0).ecx.getLsbD 11 = true
  | 11 => 7 ≤ (m.cpuid 0 0).eax.toNat ∧ (m.cpuid 7 0).ebx.getLsbD 16 = true
  | 12 => 7 ≤ (m.cpuid 0 0).eax.toNat ∧ (m.cpuid 7 0).ebx.getLsbD 30 = true
  | 13 => 7 ≤ (m.cpuid 0 0).eax.toNat ∧ (m.cpuid 7 0).ebx.getLsbD 17 = true
  | 14 => 7 ≤ (m.cpuid 0 0).eax.toNat ∧ (m.cpuid 7 0).ebx.getLsbD 31 = true
  | _ => False

/-- The OS has set CR4.OSXSAVE (CPUID.1:ECX bit 27). -/
def OsXsave (m : Machine) : Prop := 1 ≤ (m.cpuid 0 0).eax.toNat ∧ (m.cpuid 1 0).ecx.getLsbD 27 = true

/-- The OS saves the XMM and YMM registers: OSXSAVE and XCR0 bits 1 and 2. -/
def OsYmm (m : Machine) : Prop :=
  OsXsave m ∧ ∃ x, m.xgetbv 0 = some x ∧ x.getLsbD 1 = true ∧ x.getLsbD 2 = true

/-- The OS saves the ZMM and opmask registers: additionally XCR0 bits 5, 6, 7. -/
def OsZmm (m : Machine) : Prop :=
  OsXsave m ∧ ∃ x, m.xgetbv 0 = some x ∧ x.getLsbD 1 = true ∧ x.getLsbD 2 = true ∧
    x.getLsbD 5 = true ∧ x.getLsbD 6 = true ∧ x.getLsbD 7 = true

/-- Feature `k` can be used: the processor has it and the OS saves the registers it needs. -/
def Usable (m : Machine) (k : Nat) : Prop :=
  HwHas m k ∧ (k ∈ [6, 7, 8, 9, 10] → OsYmm m) ∧ (k ∈ [11, 12, 13, 14] → OsZmm m)

/-- `xgetbv` raises #UD exactly when CR4.OSXSAVE is clear; OSXSAVE can only be set on a processor with
XSAVE; on Intel SSE4.2 comes with POPCNT. -/
structure Consistent (m : Machine) : Prop where
  ud : m.xgetbv 0 = none ↔ (m.cpuid 1 0).ecx.getLsbD 27 = false
  xsave : (m.cpuid 1 0).ecx.getLsbD 27 = true → (m.cpuid 1 0).ecx.getLsbD 26 = true
  popcnt : isIntel (m.cpuid 0 0) = true → (m.cpuid 1 0).ecx.getLsbD 20 = true → (m.cpuid 1 0).ecx.getLsbD 23 = true

theorem orIf_bit (b : Bool) (a i : Arch) (k : Nat) : (orIf b a i).getLsbD k = (i.getLsbD k || (b && a.getLsbD k)) := by
  unfold orIf; cases b <;> simp

theorem xcr_and6 (x : BitVec 64) : (x &&& 6 = 6) ↔ x.getLsbD 1 = true ∧ x.getLsbD 2 = true := by
  constructor
  · intro h
    have h1 := congrArg (BitVec.getLsbD · 1) h
    have h2 := congrArg (BitVec.getLsbD · 2) h
    have a1 : (6 : BitVec 64).getLsbD 1 = true := by decide
    have a2 : (6 : BitVec 64).getLsbD 2 = true := by decide
    simp only [BitVec.getLsbD_and, a1, a2, Bool.and_true] at h1 h2
    exact ⟨h1, h2⟩
  · rintro ⟨h1, h2⟩
    apply BitVec.eq_of_getLsbD_eq
    intro k hk
    rw [BitVec.getLsbD_and]
    by_cases e1 : k = 1
    · subst e1; rw [h1]; decide
    by_cases e2 : k = 2
    · subst e2; rw [h2]; decide
    have : (6 : BitVec 64).getLsbD k = false := by
      have : ∀ k < 64, k ≠ 1 → k ≠ 2 → (6 : BitVec 64).getLsbD k = false := by decide
      exact this k hk e1 e2
    rw [this, Bool.and_false]

theorem bit_const (j : Nat) (hj : j < 32) (k : Nat) : ((1#32 <<< j : BitVec 32)).getLsbD k = decide (k = j) := by
  rw [BitVec.getLsbD_shiftLeft, BitVec.getLsbD_one]
  by_cases h : k = j
  · subst h; simp [hj]
  · simp only [h, decide_false]
    by_cases h2 : k < j
    · simp [h2]
    · have : ¬ (k - j = 0) := by omega
      simp [this]

theorem orIf_or (b : Bool) (a i j : Arch) : orIf b a (i ||| j) = i ||| orIf b a j := by
  unfold orIf; split_ifs
  · rw [BitVec.or_assoc]
  · rfl
theorem leafEx_or (r : Regs) (i j : Arch) : leafExInfo r (i ||| j) = i ||| leafExInfo r j := by
  simp only [leafExInfo, orIf_or]
theorem leaf7_or (r : Regs) (x : Bool) (i j : Arch) : leaf7Info r x (i ||| j) = i ||| leaf7Info r x j := by
  simp only [leaf7Info, orIf_or]
theorem or_none (i : Arch) : i ||| NONE_NULL = i := by simp [NONE_NULL]

/-- Which bit of the result comes from which condition. -/
def src1 (b1 b2 b3 b4 b5 b6 b7 b8 : Bool) : Nat → Bool
  | 1 => b1 | 2 => b2 | 3 => b3 | 4 => b4 | 5 => b5 || b6 | 8 => b7 | 6 => b8 | _ => false
/-- As `src1`, for the extended leaf. -/
def srcEx (b1 b2 : Bool) : Nat → Bool
  | 9 => b1 | 10 => b2 | _ => false
/-- As `src1`, for leaf 7. -/
def src7 (b1 b2 b3 b4 b5 : Bool) : Nat → Bool
  | 7 => b1 | 11 => b2 | 12 => b3 | 13 => b4 | 14 => b5 | _ => false
/-- `src1` of a leaf. -/
def leaf1Src (r : Regs) (i x : Bool) : Nat → Bool :=
  src1 (r.edx.getLsbD 26) (r.ecx.getLsbD 0) (r.ecx.getLsbD 9) (r.ecx.getLsbD 19) (r.ecx.getLsbD 20 && i)
    (r.ecx.getLsbD 23) (r.ecx.getLsbD 12) (r.ecx.getLsbD 28 && x)
/-- `srcEx` of a leaf. -/
def leafExSrc (r : Regs) : Nat → Bool := srcEx (r.ecx.getLsbD 16) (r.ecx.getLsbD 11)
/-- `src7` of a leaf. -/
def leaf7Src (r : Regs) (x : Bool) : Nat → Bool :=
  src7 (r.ebx.getLsbD 5 && x) (r.ebx.getLsbD 16 && x) (r.ebx.getLsbD 30 && x) (r.ebx.getLsbD 17 && x) (r.ebx.getLsbD 31 && x)

theorem src_ext {a : Arch} {f : Nat → Bool} (hf : ∀ k, 15 ≤ k → f k = false) (ha : a.toNat < 2 ^ 15)
    (h : ∀ k, k < 15 → a.getLsbD k = f k) (k : Nat) : a.getLsbD k = f k := by
  rcases Nat.lt_or_ge k 15 with hk | hk
  · exact h k hk
  · rw [hf k hk]
    rw [BitVec.getLsbD, Nat.testBit_lt_two_pow]
    exact lt_of_lt_of_le ha (Nat.pow_le_pow_right (by decide) hk)

theorem leaf1_bit (r : Regs) (i x : Bool) (k : Nat) : (leaf1Info r i x NONE_NULL).getLsbD k = leaf1Src r i x k := by
  simp only [leaf1Info, leaf1Src]
  generalize r.edx.getLsbD 26 = b1
  generalize r.ecx.getLsbD 0 = b2
  generalize r.ecx.getLsbD 9 = b3
  generalize r.ecx.getLsbD 19 = b4
  generalize (r.ecx.getLsbD 20 && i) = b5
  generalize r.ecx.getLsbD 23 = b6
  generalize r.ecx.getLsbD 12 = b7
  generalize (r.ecx.getLsbD 28 && x) = b8
  refine src_ext (f := src1 b1 b2 b3 b4 b5 b6 b7 b8) ?_ ?_ ?_ k
  · intro k hk; unfold src1; split <;> first | omega | rfl
  · revert b1 b2 b3 b4 b5 b6 b7 b8; decide +kernel
  · revert b1 b2 b3 b4 b5 b6 b7 b8; decide +kernel

theorem leafEx_bit (r : Regs) (k : Nat) : (leafExInfo r NONE_NULL).getLsbD k = leafExSrc r k := by
  simp only [leafExInfo, leafExSrc]
  generalize r.ecx.getLsbD 16 = b1
  generalize r.ecx.getLsbD 11 = b2
  refine src_ext (f := srcEx b1 b2) ?_ ?_ ?_ k
  · intro k hk; unfold srcEx; split <;> first | omega | rfl
  · revert b1 b2; decide +kernel
  · revert b1 b2; decide +kernel

theorem leaf7_bit (r : Regs) (x : Bool) (k : Nat) : (leaf7Info r x NONE_NULL).getLsbD k = leaf7Src r x k := by
  simp only [leaf7Info, leaf7Src]
  generalize (r.ebx.getLsbD 5 && x) = b1
  generalize (r.ebx.getLsbD 16 && x) = b2
  generalize (r.ebx.getLsbD 30 && x) = b3
  generalize (r.ebx.getLsbD 17 && x) = b4
  generalize (r.ebx.getLsbD 31 && x) = b5
  refine src_ext (f := src7 b1 b2 b3 b4 b5) ?_ ?_ ?_ k
  · intro k hk; unfold src7; split <;> first | omega | rfl
  · revert b1 b2 b3 b4 b5; decide +kernel
  · revert b1 b2 b3 b4 b5; decide +kernel

theorem none_bit (k : Nat) : NONE_NULL.getLsbD k = true ↔ False := by simp [NONE_NULL]

theorem raw_bits (m : Machine) (a : Arch) (h : get_arch_raw_cpuid m = some a) (k : Nat) : ∃ x : Bool,
    (if 1 ≤ (m.cpuid 0 0).eax.toNat then xsaveAvail m (m.cpuid 1 0) else some false) = some x ∧
    (a.getLsbD k = true ↔
      (1 ≤ (m.cpuid 0 0).eax.toNat ∧ (leaf1Info (m.cpuid 1 0) (isIntel (m.cpuid 0 0)) x NONE_NULL).getLsbD k = true) ∨
      (0x80000001 ≤ (m.cpuid 0x80000000 0).eax.toNat ∧ (leafExInfo (m.cpuid 0x80000001 0) NONE_NULL).getLsbD k = true) ∨
      (7 ≤ (m.cpuid 0 0).eax.toNat ∧ (leaf7Info (m.cpuid 7 0) x NONE_NULL).getLsbD k = true)) := by
  unfold get_arch_raw_cpuid at h
  dsimp only at h
  generalize (if 1 ≤ (m.cpuid 0 0).eax.toNat then xsaveAvail m (m.cpuid 1 0) else some false) = o at h ⊢
  cases o with
  | none => cases h
  | some x =>
    refine ⟨x, rfl, ?_⟩
    have h' := Option.some.inj h
    rw [← h']
    have e1 : ∀ i : Arch, leafExInfo (m.cpuid 0x80000001 0) i = i ||| leafExInfo (m.cpuid 0x80000001 0) NONE_NULL := fun i => by
      rw [← leafEx_or, or_none]
    have e2 : ∀ i : Arch, leaf7Info (m.cpuid 7 0) x i = i ||| leaf7Info (m.cpuid 7 0) x NONE_NULL := fun i => by
      rw [← leaf7_or, or_none]
    rw [e2, e1]
    generalize leafExInfo (m.cpuid 0x80000001 0) NONE_NULL = A
    generalize leaf7Info (m.cpuid 7 0) x NONE_NULL = B
    generalize leaf1Info (m.cpuid 1 0) (isIntel (m.cpuid 0 0)) x NONE_NULL = D
    by_cases c7 : 7 ≤ (m.cpuid 0 0).eax.toNat <;> by_cases cx : 0x80000001 ≤ (m.cpuid 0x80000000 0).eax.toNat <;>
    by_cases c1 : 1 ≤ (m.cpuid 0 0).eax.toNat <;>
    simp only [c7, cx, c1, if_true, if_false, BitVec.getLsbD_or, Bool.or_eq_true, none_bit, true_and, false_and, false_or, or_false, or_assoc]

/-- C38 (raw cpuid): exactly what is reported. The OS condition is checked for AVX, AVX2 and
the AVX-512 family (as the XMM+YMM condition), and not for FMA3, FMA4 and XOP. -/
theorem C38_raw_cpuid_reports (m : Machine) (hm : Consistent m) (a : Arch) (h : get_arch_raw_cpuid m = some a) (k : Nat) :
    a.getLsbD k = true ↔ HwHas m k ∧ (k ∈ [6, 7, 11, 12, 13, 14] → OsYmm m) := by
  obtain ⟨x, hx, hb⟩ := raw_bits m a h k
  rw [hb]
  have hos : OsYmm m ↔ x = true := by
    unfold OsYmm OsXsave xsaveAvail at *
    split_ifs at hx with h1 h26
    · cases hg : m.xgetbv 0 with
      | none => rw [hg] at hx; cases hx
      | some v =>
        rw [hg] at hx
        have h27 : (m.cpuid 1 0).ecx.getLsbD 27 = true := by
          by_contra hc
          rw [hm.ud.2 (Bool.eq_false_iff.2 hc)] at hg; cases hg
        have hx' := Option.some.inj hx
        rw [← hx', decide_eq_true_eq, xcr_and6]
        exact ⟨fun ⟨_, y, e, h⟩ => by cases e; exact h, fun h => ⟨⟨h1, h27⟩, v, rfl, h⟩⟩
    · cases hx
      refine ⟨fun h => absurd (hm.xsave h.1.2) h26, fun h => nomatch h⟩
    · cases hx
      refine ⟨fun h => absurd h.1.1 h1, fun h => nomatch h⟩
  rw [hos]
  have hpc := hm.popcnt
  rw [leaf1_bit, leafEx_bit, leaf7_bit]
  rcases Nat.lt_or_ge k 15 with hk | hk
  · interval_cases k
    case «5» =>
      simp only [leaf1Src, leafExSrc, leaf7Src, src1, srcEx, src7, HwHas, Bool.or_eq_true, Bool.and_eq_true]
      constructor
      · rintro (⟨h1, h | h⟩ | ⟨_, h⟩ | ⟨_, h⟩)
        · exact ⟨⟨h1, hpc h.2 h.1⟩, fun h => absurd h (by decide)⟩
        · exact ⟨⟨h1, h⟩, fun h => absurd h (by decide)⟩
        · cases h
        · cases h
      · exact fun h => .inl ⟨h.1.1, .inr h.1.2⟩
    all_goals simp [leaf1Src, leafExSrc, leaf7Src, src1, srcEx, src7, HwHas, and_assoc]
  · have e : HwHas m k ↔ False := by unfold HwHas; split <;> first | omega | rfl
    have e1 : leaf1Src (m.cpuid 1 0) (isIntel (m.cpuid 0 0)) x k = false := by unfold leaf1Src src1; split <;> first | omega | rfl
    have e2 : leafExSrc (m.cpuid 0x80000001 0) k = false := by unfold leafExSrc srcEx; split <;> first | omega | rfl
    have e3 : leaf7Src (m.cpuid 7 0) x k = false := by unfold leaf7Src src7; split <;> first | omega | rfl
    rw [e, e1, e2, e3]; simp

/-- C38 (raw cpuid), the part that holds: SSE2 to SSE4.1, POPCNT, AVX and AVX2 are reported
only if usable, processor and OS. For FMA3, FMA4, XOP and AVX-512 see the counterexamples below. -/
theorem C38_raw_cpuid_sound_partial (m : Machine) (hm : Consistent m) (a : Arch) (h : get_arch_raw_cpuid m = some a)
    (k : Nat) (hk : k ≤ 7) (hb : a.getLsbD k = true) : Usable m k := by
  obtain ⟨h1, h2⟩ := (C38_raw_cpuid_reports m hm a h k).1 hb
  refine ⟨h1, fun h => h2 ?_, fun h => ?_⟩
  · simp only [List.mem_cons, List.not_mem_nil, or_false] at h ⊢; omega
  · simp only [List.mem_cons, List.not_mem_nil, or_false] at h; omega

/-- C38 (raw cpuid): every feature reported is present in the processor. -/
theorem C38_raw_cpuid_hw_sound (m : Machine) (hm : Consistent m) (a : Arch) (h : get_arch_raw_cpuid m = some a)
    (k : Nat) (hb : a.getLsbD k = true) : HwHas m k := ((C38_raw_cpuid_reports m hm a h k).1 hb).1

/-- C38 (raw cpuid): every usable feature is reported. -/
theorem C38_raw_cpuid_complete (m : Machine) (hm : Consistent m) (a : Arch) (h : get_arch_raw_cpuid m = some a)
    (k : Nat) (hu : Usable m k) : a.getLsbD k = true := by
  refine (C38_raw_cpuid_reports m hm a h k).2 ⟨hu.1, fun hk => ?_⟩
  by_cases h1 : k ∈ [6, 7, 8, 9, 10]
  · exact hu.2.1 h1
  · obtain ⟨a, x, b, c, d, _⟩ := hu.2.2 (by simp only [List.mem_cons, List.not_mem_nil, or_false] at *; omega)
    exact ⟨a, x, b, c, d⟩

/-- C38 (raw cpuid): on a processor whose own feature bits are downward closed the reported
set is. -/
theorem C38_raw_cpuid_closed (m : Machine) (hm : Consistent m) (a : Arch) (h : get_arch_raw_cpuid m = some a)
    (hcl : ∀ ij ∈ x86Implies, HwHas m ij.1 → HwHas m ij.2) : Closed .x86 a := by
  intro ij hij hb
  obtain ⟨h1, h2⟩ := (C38_raw_cpuid_reports m hm a h _).1 hb
  refine (C38_raw_cpuid_reports m hm a h _).2 ⟨hcl ij hij h1, fun hk => h2 ?_⟩
  revert hk
  have : ∀ ij ∈ x86Implies, ij.2 ∈ [6, 7, 11, 12, 13, 14] → ij.1 ∈ [6, 7, 11, 12, 13, 14] := by decide
  exact this ij hij

/-- Negative result for C38: on a machine with XSAVE on which the OS has not set CR4.OSXSAVE, detection
kills the process (the code tests ECX bit 26, XSAVE, where bit 27, OSXSAVE, is meant). -/
theorem C38_raw_cpuid_faults_without_osxsave (m : Machine) (hm : Consistent m) (h1 : 1 ≤ (m.cpuid 0 0).eax.toNat)
    (h26 : (m.cpuid 1 0).ecx.getLsbD 26 = true) (h27 : (m.cpuid 1 0).ecx.getLsbD 27 = false) :
    get_arch_raw_cpuid m = none := by
  unfold get_arch_raw_cpuid xsaveAvail
  dsimp only
  rw [if_pos h1, if_pos h26, hm.ud.2 h27]

/-- ... and only then. -/
theorem C38_raw_cpuid_total (m : Machine) (hm : Consistent m)
    (h : (m.cpuid 1 0).ecx.getLsbD 26 = true → (m.cpuid 1 0).ecx.getLsbD 27 = true) :
    ∃ a, get_arch_raw_cpuid m = some a := by
  unfold get_arch_raw_cpuid
  dsimp only
  have : ∃ x, (if 1 ≤ (m.cpuid 0 0).eax.toNat then xsaveAvail m (m.cpuid 1 0) else some false) = some x := by
    unfold xsaveAvail
    by_cases h1 : 1 ≤ (m.cpuid 0 0).eax.toNat
    · by_cases h26 : (m.cpuid 1 0).ecx.getLsbD 26 = true
      · rw [if_pos h1, if_pos h26]
        cases hx : m.xgetbv 0 with
        | none => rw [hm.ud, h h26] at hx; cases hx
        | some v => exact ⟨_, rfl⟩
      · rw [if_pos h1, if_neg h26]; exact ⟨_, rfl⟩
    · rw [if_neg h1]; exact ⟨_, rfl⟩
  obtain ⟨x, hx⟩ := this
  rw [hx]
  exact ⟨_, rfl⟩

/-- A machine given by its leaf contents. -/
def mkMachine (ecx1 ebx7 ecxx edx1 : BitVec 32) (xcr : BitVec 64) : Machine where
  cpuid := fun l _ =>
    if l = 0 then ⟨7, 0, 0, 0⟩ else if l = 1 then ⟨0, 0, ecx1, edx1⟩
    else if l = 7 then ⟨0, ebx7, 0, 0⟩ else if l = 0x80000000 then ⟨0x80000001, 0, 0, 0⟩
    else ⟨0, 0, ecxx, 0⟩
  xgetbv := fun _ => if ecx1.getLsbD 27 then some xcr else none

/-- Negative result for C38: an AVX-512 processor under an OS that saves YMM but not ZMM state: AVX512F is reported. -/
theorem C38_raw_cpuid_avx512_unsound : ∃ m a, Consistent m ∧ get_arch_raw_cpuid m = some a ∧
    a.getLsbD 11 = true ∧ ¬ Usable m 11 := by
  refine ⟨mkMachine 0x1C181201 0x10020 0 0x4000000 7, _, ⟨by decide, by decide, by decide⟩, rfl, by decide, ?_⟩
  rintro ⟨_, _, h⟩
  obtain ⟨_, x, hx, _, _, h5, _⟩ := h (by decide)
  cases hx
  exact absurd h5 (by decide)

/-- Negative result for C38: FMA3 (and likewise FMA4, XOP) are reported under an OS that does not save YMM state. -/
theorem C38_raw_cpuid_fma_unsound : ∃ m a, Consistent m ∧ get_arch_raw_cpuid m = some a ∧
    a.getLsbD 8 = true ∧ a.getLsbD 9 = true ∧ a.getLsbD 10 = true ∧ ¬ Usable m 8 ∧ ¬ Usable m 9 ∧ ¬ Usable m 10 := by
  have hn : ¬ OsYmm (mkMachine 0x1C181201 0x20 0x10800 0x4000000 3) := by
    rintro ⟨_, x, hx, _, h⟩
    cases hx
    exact absurd h (by decide)
  refine ⟨mkMachine 0x1C181201 0x20 0x10800 0x4000000 3, _, ⟨by decide, by decide, by decide⟩, rfl,
    by decide, by decide, by decide, ?_, ?_, ?_⟩ <;>
  · rintro ⟨_, h, _⟩
    exact hn (h (by decide))

/-- A Haswell-like machine: consistent, detection succeeds, AVX2 reported. -/
example : Consistent (mkMachine 0x1C981201 0x20 0 0x4000000 7) ∧
    ∃ a, get_arch_raw_cpuid (mkMachine 0x1C981201 0x20 0 0x4000000 7) = some a ∧ a.getLsbD 7 = true :=
  ⟨⟨by decide, by decide, by decide⟩, _, rfl, by decide⟩

end Simdpp.Dispatch
