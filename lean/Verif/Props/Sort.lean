import Verif.Model.Sort
import Verif.Spec.Int
import Mathlib.Order.Lattice
import Mathlib.Order.Fin.Basic
import Mathlib.Data.Fintype.Card
import Mathlib.Data.Multiset.Count
import Mathlib.Algebra.BigOperators.Group.Finset.Basic
import Mathlib.Data.Fintype.BigOperators
import Mathlib.Algebra.BigOperators.Fin
import Verif.Props.MinMax

/-!
# C35: bitonic_sort sorts

The 0-1 principle: a network of `min`/`max` and lane moves commutes with monotone
maps, so it is enough that it sorts every vector of booleans (all 256, by kernel
evaluation) - and this transfers to every linearly ordered key.
-/

namespace Simdpp.Sort
open Simdpp

variable {α β : Type}

/-! ### Networks commute with maps that respect min and max -/

section Nat
variable {mn mx : α → α → α} {mn' mx' : β → β → β} (f : α → β)

theorem permute4_nat (s) (x : Fin 8 → α) : f ∘ permute4 s x = permute4 s (f ∘ x) := rfl
theorem shuffle4x2_nat (s) (x y : Fin 8 → α) : f ∘ shuffle4x2 s x y = shuffle4x2 s (f ∘ x) (f ∘ y) := by
  funext i; unfold shuffle4x2; simp only [Function.comp]; split <;> rfl
theorem shuffle1_128_nat (s t) (x y : Fin 8 → α) :
    f ∘ shuffle1_128 s t x y = shuffle1_128 s t (f ∘ x) (f ∘ y) := by
  funext i; unfold shuffle1_128; simp only [Function.comp]; split <;> rfl
theorem map2_nat {g : α → α → α} {g' : β → β → β} (hg : ∀ x y, f (g x y) = g' (f x) (f y)) (x y : Fin 8 → α) :
    f ∘ map2 g x y = map2 g' (f ∘ x) (f ∘ y) := funext fun _ => hg _ _

variable (hmn : ∀ x y, f (mn x y) = mn' (f x) (f y)) (hmx : ∀ x y, f (mx x y) = mx' (f x) (f y))
include hmn hmx

theorem finalize_asc_nat (x : Fin 8 → α) : f ∘ finalize_asc mn mx x = finalize_asc mn' mx' (f ∘ x) := by
  simp only [finalize_asc, sort_4lane_2el_asc_2el_asc, sort_4lane_corresponding_2el_asc,
    sort_8lane_corresponding_4el_asc, shuffle4x2_nat, shuffle1_128_nat, permute4_nat, map2_nat f hmn, map2_nat f hmx]
theorem finalize_dec_nat (x : Fin 8 → α) : f ∘ finalize_dec mn mx x = finalize_dec mn' mx' (f ∘ x) := by
  simp only [finalize_dec, sort_4lane_2el_dec_2el_dec, sort_4lane_corresponding_2el_dec,
    sort_8lane_corresponding_4el_dec, shuffle4x2_nat, shuffle1_128_nat, permute4_nat, map2_nat f hmn, map2_nat f hmx]
theorem first_asc_nat (x : Fin 8 → α) :
    f ∘ sort_8lane_4el_asc_4el_dec mn mx x = sort_8lane_4el_asc_4el_dec mn' mx' (f ∘ x) := by
  simp only [sort_8lane_4el_asc_4el_dec, sort_4lane_2el_asc_2el_asc, sort_4lane_corresponding_2el_asc,
    sort_4lane_2el_asc_2el_dec, reverse_8lane_top4, shuffle4x2_nat, shuffle1_128_nat, permute4_nat,
    map2_nat f hmn, map2_nat f hmx]
theorem first_dec_nat (x : Fin 8 → α) :
    f ∘ sort_8lane_4el_dec_4el_asc mn mx x = sort_8lane_4el_dec_4el_asc mn' mx' (f ∘ x) := by
  simp only [sort_8lane_4el_dec_4el_asc, sort_4lane_2el_asc_2el_asc, sort_4lane_corresponding_2el_asc,
    sort_4lane_2el_asc_2el_dec, reverse_8lane_bottom4, shuffle4x2_nat, shuffle1_128_nat, permute4_nat,
    map2_nat f hmn, map2_nat f hmx]

end Nat

/-! ### The boolean networks, by kernel evaluation over all inputs -/

/-- Number of `true` lanes. -/
def cnt (y : Fin 8 → Bool) : Nat :=
  (y 0).toNat + (y 1).toNat + (y 2).toNat + (y 3).toNat + (y 4).toNat + (y 5).toNat + (y 6).toNat + (y 7).toNat

/-- The sorted vector with `k` true lanes at the top. -/
def ascOf (k : Nat) : Fin 8 → Bool := fun i => decide (8 ≤ i.val + k)
/-- The sorted vector with `k` true lanes at the bottom. -/
def decOf (k : Nat) : Fin 8 → Bool := fun i => decide (i.val < k)

/-- Two boolean vectors agree lane by lane. -/
def same (x y : Fin 8 → Bool) : Bool :=
  (x 0 == y 0) && (x 1 == y 1) && (x 2 == y 2) && (x 3 == y 3) && (x 4 == y 4) && (x 5 == y 5) && (x 6 == y 6) && (x 7 == y 7)

theorem same_iff (x y : Fin 8 → Bool) : same x y = true ↔ x = y := by
  constructor
  · intro h
    simp only [same, Bool.and_eq_true, beq_iff_eq] at h
    obtain ⟨⟨⟨⟨⟨⟨⟨h0, h1⟩, h2⟩, h3⟩, h4⟩, h5⟩, h6⟩, h7⟩ := h
    funext i; fin_cases i <;> assumption
  · rintro rfl; simp [same]

theorem bool_all {P : (Fin 8 → Bool) → Prop} (h : ∀ a b c d e f g i, P ![a, b, c, d, e, f, g, i]) (x) : P x := by
  have : x = ![x 0, x 1, x 2, x 3, x 4, x 5, x 6, x 7] := by
    funext i; fin_cases i <;> rfl
  rw [this]; exact h _ _ _ _ _ _ _ _

set_option maxRecDepth 100000

theorem bool_asc (x : Fin 8 → Bool) : bitonic_sort_asc and or x = ascOf (cnt x) := by
  rw [← same_iff]
  refine bool_all (P := fun x => same (bitonic_sort_asc and or x) (ascOf (cnt x)) = true) ?_ x
  decide +kernel
theorem bool_dec (x : Fin 8 → Bool) : bitonic_sort_dec and or x = decOf (cnt x) := by
  rw [← same_iff]
  refine bool_all (P := fun x => same (bitonic_sort_dec and or x) (decOf (cnt x)) = true) ?_ x
  decide +kernel
theorem bool_asc_dec (x : Fin 8 → Bool) :
    finalize_dec and or (sort_8lane_4el_asc_4el_dec and or x) = decOf (cnt x) := by
  rw [← same_iff]
  refine bool_all (P := fun x => same (finalize_dec and or (sort_8lane_4el_asc_4el_dec and or x)) (decOf (cnt x)) = true) ?_ x
  decide +kernel
theorem bool_dec_asc (x : Fin 8 → Bool) :
    finalize_asc and or (sort_8lane_4el_dec_4el_asc and or x) = ascOf (cnt x) := by
  rw [← same_iff]
  refine bool_all (P := fun x => same (finalize_asc and or (sort_8lane_4el_dec_4el_asc and or x)) (ascOf (cnt x)) = true) ?_ x
  decide +kernel

theorem cnt_le (x : Fin 8 → Bool) : cnt x < 9 := by
  have h : ∀ b : Bool, b.toNat ≤ 1 := by decide
  have := h (x 0); have := h (x 1); have := h (x 2); have := h (x 3)
  have := h (x 4); have := h (x 5); have := h (x 6); have := h (x 7)
  unfold cnt; omega

/-- The 16-lane merge of an ascending and a descending boolean vector. -/
theorem bool_merge_asc : ∀ p q : Fin 9,
    same (finalize_asc and or (map2 and (ascOf p) (decOf q))) (ascOf (p + q - 8)) = true ∧
    same (finalize_asc and or (map2 or (ascOf p) (decOf q))) (ascOf (min 8 (p.val + q.val))) = true := by
  decide +kernel
theorem bool_merge_dec : ∀ p q : Fin 9,
    same (finalize_dec and or (map2 or (decOf p) (ascOf q))) (decOf (min 8 (p.val + q.val))) = true ∧
    same (finalize_dec and or (map2 and (decOf p) (ascOf q))) (decOf (p + q - 8)) = true := by
  decide +kernel

theorem cnt_ascOf : ∀ k : Fin 9, cnt (ascOf k) = k := by decide +kernel
theorem cnt_decOf : ∀ k : Fin 9, cnt (decOf k) = k := by decide +kernel

/-! ### Transfer to any linearly ordered key -/

theorem list8 (y : Fin 8 → α) : List.ofFn y = [y 0, y 1, y 2, y 3, y 4, y 5, y 6, y 7] := by
  simp [List.ofFn_succ, Fin.succ]

theorem cnt_countP (p : α → Bool) (y : Fin 8 → α) : (List.ofFn y).countP p = cnt (p ∘ y) := by
  rw [list8]
  simp only [List.countP_cons, List.countP_nil, cnt, Function.comp]
  have h : ∀ b : Bool, (if b = true then 1 else 0) = b.toNat := by decide
  simp only [h]; omega

section Key
variable {κ : Type} [LinearOrder κ]

/-- Counting elements `≥ t` and `> t` for all `t` determines a list up to permutation. -/
theorem perm_of_counts {l m : List κ}
    (h1 : ∀ t, l.countP (fun z => decide (t ≤ z)) = m.countP (fun z => decide (t ≤ z)))
    (h2 : ∀ t, l.countP (fun z => decide (t < z)) = m.countP (fun z => decide (t < z))) : l.Perm m := by
  have key : ∀ (l : List κ) (t : κ), l.countP (fun z => decide (t ≤ z)) =
      l.count t + l.countP (fun z => decide (t < z)) := by
    intro l t
    induction l with
    | nil => rfl
    | cons a l ih =>
      simp only [List.countP_cons, List.count_cons, ih, beq_iff_eq, decide_eq_true_eq]
      rcases lt_trichotomy t a with h | h | h
      · simp only [h.le, h, h.ne', if_true, if_false]; omega
      · subst h; simp only [le_refl, lt_irrefl, if_true, if_false]; omega
      · simp only [not_le.2 h, not_lt.2 h.le, h.ne, if_false]; omega
  rw [List.perm_iff_count]
  intro t
  have a := key l t; have b := key m t
  have c := h1 t; have d := h2 t
  omega

/-- A threshold test: a map to the booleans that respects `min` and `max`. -/
structure Thr (f : κ → Bool) : Prop where
  mn : ∀ x y, f (min x y) = (f x && f y)
  mx : ∀ x y, f (max x y) = (f x || f y)

theorem thr_le (t : κ) : Thr (fun z => decide (t ≤ z)) :=
  ⟨fun x y => by simp [le_min_iff], fun x y => by simp [le_max_iff]⟩
theorem thr_lt (t : κ) : Thr (fun z => decide (t < z)) :=
  ⟨fun x y => by simp [lt_min_iff], fun x y => by simp [lt_max_iff]⟩

theorem asc_of_thr {y : Fin 8 → κ} (h : ∀ f : κ → Bool, Thr f → ∃ k, f ∘ y = ascOf k) :
    ∀ i j : Fin 8, i ≤ j → y i ≤ y j := by
  intro i j hij
  obtain ⟨k, hk⟩ := h _ (thr_le (y i))
  have hi := congrFun hk i; have hj := congrFun hk j
  simp only [Function.comp, le_refl, decide_true, ascOf] at hi hj
  have : 8 ≤ i.val + k := by simpa using hi.symm
  have h2 : 8 ≤ j.val + k := by have : i.val ≤ j.val := hij; omega
  rw [decide_eq_true h2] at hj
  simpa using hj

theorem dec_of_thr {y : Fin 8 → κ} (h : ∀ f : κ → Bool, Thr f → ∃ k, f ∘ y = decOf k) :
    ∀ i j : Fin 8, i ≤ j → y j ≤ y i := by
  intro i j hij
  obtain ⟨k, hk⟩ := h _ (thr_le (y j))
  have hi := congrFun hk i; have hj := congrFun hk j
  simp only [Function.comp, le_refl, decide_true, decOf] at hi hj
  have : j.val < k := by simpa using hj.symm
  have h2 : i.val < k := by have : i.val ≤ j.val := hij; omega
  rw [decide_eq_true h2] at hi
  simpa using hi

theorem perm_of_thr {l m : List κ} (h : ∀ f : κ → Bool, Thr f → l.countP f = m.countP f) : l.Perm m :=
  perm_of_counts (fun t => h _ (thr_le t)) (fun t => h _ (thr_lt t))

theorem thr_asc {f : κ → Bool} (hf : Thr f) (x : Fin 8 → κ) :
    f ∘ bitonic_sort_asc min max x = ascOf (cnt (f ∘ x)) := by
  rw [← bool_asc]; unfold bitonic_sort_asc
  rw [finalize_asc_nat f hf.mn hf.mx, first_asc_nat f hf.mn hf.mx]
theorem thr_dec {f : κ → Bool} (hf : Thr f) (x : Fin 8 → κ) :
    f ∘ bitonic_sort_dec min max x = decOf (cnt (f ∘ x)) := by
  rw [← bool_dec]; unfold bitonic_sort_dec
  rw [finalize_dec_nat f hf.mn hf.mx, first_dec_nat f hf.mn hf.mx]

theorem thr_asc2 {f : κ → Bool} (hf : Thr f) (x y : Fin 8 → κ) :
    f ∘ (bitonic_sort_asc2 min max x y).1 = ascOf (cnt (f ∘ x) + cnt (f ∘ y) - 8) ∧
    f ∘ (bitonic_sort_asc2 min max x y).2 = ascOf (min 8 (cnt (f ∘ x) + cnt (f ∘ y))) := by
  have h0 := bool_asc (f ∘ x)
  have h1 := bool_asc_dec (f ∘ y)
  unfold bitonic_sort_asc at h0
  have := bool_merge_asc ⟨cnt (f ∘ x), cnt_le _⟩ ⟨cnt (f ∘ y), cnt_le _⟩
  rw [same_iff, same_iff] at this
  unfold bitonic_sort_asc2
  dsimp only
  rw [finalize_asc_nat f hf.mn hf.mx, finalize_asc_nat f hf.mn hf.mx, map2_nat f hf.mn, map2_nat f hf.mx,
    finalize_asc_nat f hf.mn hf.mx, finalize_dec_nat f hf.mn hf.mx, first_asc_nat f hf.mn hf.mx,
    first_asc_nat f hf.mn hf.mx, h0, h1]
  exact this

theorem thr_dec2 {f : κ → Bool} (hf : Thr f) (x y : Fin 8 → κ) :
    f ∘ (bitonic_sort_dec2 min max x y).1 = decOf (min 8 (cnt (f ∘ x) + cnt (f ∘ y))) ∧
    f ∘ (bitonic_sort_dec2 min max x y).2 = decOf (cnt (f ∘ x) + cnt (f ∘ y) - 8) := by
  have h0 := bool_dec (f ∘ x)
  have h1 := bool_dec_asc (f ∘ y)
  unfold bitonic_sort_dec at h0
  have := bool_merge_dec ⟨cnt (f ∘ x), cnt_le _⟩ ⟨cnt (f ∘ y), cnt_le _⟩
  rw [same_iff, same_iff] at this
  unfold bitonic_sort_dec2
  dsimp only
  rw [finalize_dec_nat f hf.mn hf.mx, finalize_dec_nat f hf.mn hf.mx, map2_nat f hf.mn, map2_nat f hf.mx,
    finalize_asc_nat f hf.mn hf.mx, finalize_dec_nat f hf.mn hf.mx, first_dec_nat f hf.mn hf.mx,
    first_dec_nat f hf.mn hf.mx, h0, h1]
  exact this

/-- C35 on any linearly ordered lane type: `bitonic_sort_asc` of one register. -/
theorem asc_linear (x : Fin 8 → κ) :
    (∀ i j : Fin 8, i ≤ j → bitonic_sort_asc min max x i ≤ bitonic_sort_asc min max x j) ∧
    (List.ofFn (bitonic_sort_asc min max x)).Perm (List.ofFn x) := by
  refine ⟨asc_of_thr fun f hf => ⟨_, thr_asc hf x⟩, perm_of_thr fun f hf => ?_⟩
  rw [cnt_countP, cnt_countP, thr_asc hf]
  exact cnt_ascOf ⟨_, cnt_le _⟩
theorem dec_linear (x : Fin 8 → κ) :
    (∀ i j : Fin 8, i ≤ j → bitonic_sort_dec min max x j ≤ bitonic_sort_dec min max x i) ∧
    (List.ofFn (bitonic_sort_dec min max x)).Perm (List.ofFn x) := by
  refine ⟨dec_of_thr fun f hf => ⟨_, thr_dec hf x⟩, perm_of_thr fun f hf => ?_⟩
  rw [cnt_countP, cnt_countP, thr_dec hf]
  exact cnt_decOf ⟨_, cnt_le _⟩

/-- The 16 lanes of a pair of registers, in order. -/
def pairAt (p : (Fin 8 → α) × (Fin 8 → α)) (i : Fin 16) : α :=
  if h : i.val < 8 then p.1 ⟨i.val, h⟩ else p.2 ⟨i.val - 8, by omega⟩

theorem asc2_linear (x y : Fin 8 → κ) :
    (∀ i j : Fin 16, i ≤ j → pairAt (bitonic_sort_asc2 min max x y) i ≤ pairAt (bitonic_sort_asc2 min max x y) j) ∧
    (List.ofFn (bitonic_sort_asc2 min max x y).1 ++ List.ofFn (bitonic_sort_asc2 min max x y).2).Perm
      (List.ofFn x ++ List.ofFn y) := by
  constructor
  · intro i j hij
    have h1 := asc_of_thr (y := (bitonic_sort_asc2 min max x y).1) fun f hf => ⟨_, (thr_asc2 hf x y).1⟩
    have h2 := asc_of_thr (y := (bitonic_sort_asc2 min max x y).2) fun f hf => ⟨_, (thr_asc2 hf x y).2⟩
    have hij' : i.val ≤ j.val := hij
    unfold pairAt
    split_ifs with hi hj hj
    · exact h1 _ _ hij
    · -- across the two registers
      generalize ht : (bitonic_sort_asc2 min max x y).1 ⟨i.val, hi⟩ = t
      obtain ⟨e1, e2⟩ := thr_asc2 (thr_le t) x y
      have a := congrFun e1 ⟨i.val, hi⟩
      have b := congrFun e2 ⟨j.val - 8, by omega⟩
      simp only [Function.comp, ht, le_refl, decide_true, ascOf] at a b
      have a' := of_decide_eq_true a.symm
      have : 8 ≤ j.val - 8 + min 8 (cnt ((fun z => decide (t ≤ z)) ∘ x) + cnt ((fun z => decide (t ≤ z)) ∘ y)) := by
        simp only [Function.comp_def] at a' ⊢; omega
      simp only [Function.comp_def] at this b
      rw [decide_eq_true this] at b
      exact of_decide_eq_true b
    · omega
    · exact h2 _ _ (by show i.val - 8 ≤ j.val - 8; omega)
  · refine perm_of_thr fun f hf => ?_
    obtain ⟨e1, e2⟩ := thr_asc2 hf x y
    have hx := cnt_le (f ∘ x); have hy := cnt_le (f ∘ y)
    have c1 := cnt_ascOf ⟨cnt (f ∘ x) + cnt (f ∘ y) - 8, by omega⟩
    have c2 := cnt_ascOf ⟨min 8 (cnt (f ∘ x) + cnt (f ∘ y)), by omega⟩
    dsimp only at c1 c2
    rw [List.countP_append, List.countP_append, cnt_countP, cnt_countP, cnt_countP, cnt_countP, e1, e2, c1, c2]
    omega

theorem dec2_linear (x y : Fin 8 → κ) :
    (∀ i j : Fin 16, i ≤ j → pairAt (bitonic_sort_dec2 min max x y) j ≤ pairAt (bitonic_sort_dec2 min max x y) i) ∧
    (List.ofFn (bitonic_sort_dec2 min max x y).1 ++ List.ofFn (bitonic_sort_dec2 min max x y).2).Perm
      (List.ofFn x ++ List.ofFn y) := by
  constructor
  · intro i j hij
    have h1 := dec_of_thr (y := (bitonic_sort_dec2 min max x y).1) fun f hf => ⟨_, (thr_dec2 hf x y).1⟩
    have h2 := dec_of_thr (y := (bitonic_sort_dec2 min max x y).2) fun f hf => ⟨_, (thr_dec2 hf x y).2⟩
    have hij' : i.val ≤ j.val := hij
    unfold pairAt
    split_ifs with hj hi hi
    · exact h1 _ _ hij
    · omega
    · generalize ht : (bitonic_sort_dec2 min max x y).2 ⟨j.val - 8, by omega⟩ = t
      obtain ⟨e1, e2⟩ := thr_dec2 (thr_le t) x y
      have a := congrFun e2 ⟨j.val - 8, by omega⟩
      have b := congrFun e1 ⟨i.val, hi⟩
      simp only [Function.comp, ht, le_refl, decide_true, decOf] at a b
      have a' := of_decide_eq_true a.symm
      have : i.val < min 8 (cnt ((fun z => decide (t ≤ z)) ∘ x) + cnt ((fun z => decide (t ≤ z)) ∘ y)) := by
        simp only [Function.comp_def] at a' ⊢; omega
      simp only [Function.comp_def] at this b
      rw [decide_eq_true this] at b
      exact of_decide_eq_true b
    · exact h2 _ _ (by show i.val - 8 ≤ j.val - 8; omega)
  · refine perm_of_thr fun f hf => ?_
    obtain ⟨e1, e2⟩ := thr_dec2 hf x y
    have hx := cnt_le (f ∘ x); have hy := cnt_le (f ∘ y)
    have c1 := cnt_decOf ⟨cnt (f ∘ x) + cnt (f ∘ y) - 8, by omega⟩
    have c2 := cnt_decOf ⟨min 8 (cnt (f ∘ x) + cnt (f ∘ y)), by omega⟩
    dsimp only at c1 c2
    rw [List.countP_append, List.countP_append, cnt_countP, cnt_countP, cnt_countP, cnt_countP, e1, e2, c1, c2]
    omega

end Key

/-! ### C35, in terms of lanes with a key -/

section
variable {κ : Type} [LinearOrder κ] (key : α → κ) {mn mx : α → α → α}
  (hmn : ∀ x y, key (mn x y) = min (key x) (key y)) (hmx : ∀ x y, key (mx x y) = max (key x) (key y))
include hmn hmx

theorem key_asc (x : Fin 8 → α) : key ∘ bitonic_sort_asc mn mx x = bitonic_sort_asc min max (key ∘ x) := by
  unfold bitonic_sort_asc
  rw [finalize_asc_nat key hmn hmx, first_asc_nat key hmn hmx]
theorem key_dec (x : Fin 8 → α) : key ∘ bitonic_sort_dec mn mx x = bitonic_sort_dec min max (key ∘ x) := by
  unfold bitonic_sort_dec
  rw [finalize_dec_nat key hmn hmx, first_dec_nat key hmn hmx]
theorem key_asc2 (x y : Fin 8 → α) : (key ∘ (bitonic_sort_asc2 mn mx x y).1, key ∘ (bitonic_sort_asc2 mn mx x y).2) =
    bitonic_sort_asc2 min max (key ∘ x) (key ∘ y) := by
  unfold bitonic_sort_asc2
  dsimp only
  rw [finalize_asc_nat key hmn hmx, finalize_asc_nat key hmn hmx, map2_nat key hmn, map2_nat key hmx,
    finalize_asc_nat key hmn hmx, finalize_dec_nat key hmn hmx, first_asc_nat key hmn hmx, first_asc_nat key hmn hmx]
theorem key_dec2 (x y : Fin 8 → α) : (key ∘ (bitonic_sort_dec2 mn mx x y).1, key ∘ (bitonic_sort_dec2 mn mx x y).2) =
    bitonic_sort_dec2 min max (key ∘ x) (key ∘ y) := by
  unfold bitonic_sort_dec2
  dsimp only
  rw [finalize_dec_nat key hmn hmx, finalize_dec_nat key hmn hmx, map2_nat key hmn, map2_nat key hmx,
    finalize_asc_nat key hmn hmx, finalize_dec_nat key hmn hmx, first_dec_nat key hmn hmx, first_dec_nat key hmn hmx]

/-- C35: whatever lane type and whatever `min`/`max` that pick the lesser/greater key, the keys
come out in non-decreasing order and as a multiset are those of the input. -/
theorem C35_asc_key (x : Fin 8 → α) :
    (∀ i j : Fin 8, i ≤ j → key (bitonic_sort_asc mn mx x i) ≤ key (bitonic_sort_asc mn mx x j)) ∧
    ((List.ofFn (bitonic_sort_asc mn mx x)).map key).Perm ((List.ofFn x).map key) := by
  rw [List.map_ofFn, List.map_ofFn]
  have h := asc_linear (key ∘ x)
  rw [← key_asc key hmn hmx] at h
  exact h
theorem C35_dec_key (x : Fin 8 → α) :
    (∀ i j : Fin 8, i ≤ j → key (bitonic_sort_dec mn mx x j) ≤ key (bitonic_sort_dec mn mx x i)) ∧
    ((List.ofFn (bitonic_sort_dec mn mx x)).map key).Perm ((List.ofFn x).map key) := by
  rw [List.map_ofFn, List.map_ofFn]
  have h := dec_linear (key ∘ x)
  rw [← key_dec key hmn hmx] at h
  exact h

omit hmn hmx [LinearOrder κ] in
theorem pairAt_key (p : (Fin 8 → α) × (Fin 8 → α)) (i : Fin 16) : pairAt (key ∘ p.1, key ∘ p.2) i = key (pairAt p i) := by
  unfold pairAt; split_ifs <;> rfl

theorem C35_asc2_key (x y : Fin 8 → α) :
    (∀ i j : Fin 16, i ≤ j → key (pairAt (bitonic_sort_asc2 mn mx x y) i) ≤ key (pairAt (bitonic_sort_asc2 mn mx x y) j)) ∧
    ((List.ofFn (bitonic_sort_asc2 mn mx x y).1 ++ List.ofFn (bitonic_sort_asc2 mn mx x y).2).map key).Perm
      ((List.ofFn x ++ List.ofFn y).map key) := by
  simp only [List.map_append, List.map_ofFn]
  have h := asc2_linear (key ∘ x) (key ∘ y)
  rw [← key_asc2 key hmn hmx] at h
  refine ⟨fun i j hij => ?_, h.2⟩
  have := h.1 i j hij
  rwa [pairAt_key, pairAt_key] at this
theorem C35_dec2_key (x y : Fin 8 → α) :
    (∀ i j : Fin 16, i ≤ j → key (pairAt (bitonic_sort_dec2 mn mx x y) j) ≤ key (pairAt (bitonic_sort_dec2 mn mx x y) i)) ∧
    ((List.ofFn (bitonic_sort_dec2 mn mx x y).1 ++ List.ofFn (bitonic_sort_dec2 mn mx x y).2).map key).Perm
      ((List.ofFn x ++ List.ofFn y).map key) := by
  simp only [List.map_append, List.map_ofFn]
  have h := dec2_linear (key ∘ x) (key ∘ y)
  rw [← key_dec2 key hmn hmx] at h
  refine ⟨fun i j hij => ?_, h.2⟩
  have := h.1 i j hij
  rwa [pairAt_key, pairAt_key] at this

end

/-! ### C35 for integer lanes: the lanes themselves are permuted and sorted -/

open Spec in
theorem val_injective (s : Bool) {w : Nat} : Function.Injective (val s : BitVec w → Int) := fun _ _ h => (val_inj s).1 h

open Spec in
/-- C35: `bitonic_sort_asc` on 8 signed or unsigned integer lanes, with the lane functions
that the library's `min` and `max` compute (`i_min_eq`, `i_max_eq`). -/
theorem C35_asc_int (s : Bool) {w : Nat} (x : Fin 8 → BitVec w) :
    (∀ i j : Fin 8, i ≤ j → val s (bitonic_sort_asc (minLane s) (maxLane s) x i) ≤
      val s (bitonic_sort_asc (minLane s) (maxLane s) x j)) ∧
    (List.ofFn (bitonic_sort_asc (minLane s) (maxLane s) x)).Perm (List.ofFn x) :=
  (C35_asc_key (val s) (val_minLane s) (val_maxLane s) x).imp id (List.map_perm_map_iff (val_injective s)).1

open Spec in
theorem C35_dec_int (s : Bool) {w : Nat} (x : Fin 8 → BitVec w) :
    (∀ i j : Fin 8, i ≤ j → val s (bitonic_sort_dec (minLane s) (maxLane s) x j) ≤
      val s (bitonic_sort_dec (minLane s) (maxLane s) x i)) ∧
    (List.ofFn (bitonic_sort_dec (minLane s) (maxLane s) x)).Perm (List.ofFn x) :=
  (C35_dec_key (val s) (val_minLane s) (val_maxLane s) x).imp id (List.map_perm_map_iff (val_injective s)).1

open Spec in
/-- C35: two registers, 16 lanes. -/
theorem C35_asc2_int (s : Bool) {w : Nat} (x y : Fin 8 → BitVec w) :
    (∀ i j : Fin 16, i ≤ j → val s (pairAt (bitonic_sort_asc2 (minLane s) (maxLane s) x y) i) ≤
      val s (pairAt (bitonic_sort_asc2 (minLane s) (maxLane s) x y) j)) ∧
    (List.ofFn (bitonic_sort_asc2 (minLane s) (maxLane s) x y).1 ++
      List.ofFn (bitonic_sort_asc2 (minLane s) (maxLane s) x y).2).Perm (List.ofFn x ++ List.ofFn y) :=
  (C35_asc2_key (val s) (val_minLane s) (val_maxLane s) x y).imp id (List.map_perm_map_iff (val_injective s)).1

open Spec in
theorem C35_dec2_int (s : Bool) {w : Nat} (x y : Fin 8 → BitVec w) :
    (∀ i j : Fin 16, i ≤ j → val s (pairAt (bitonic_sort_dec2 (minLane s) (maxLane s) x y) j) ≤
      val s (pairAt (bitonic_sort_dec2 (minLane s) (maxLane s) x y) i)) ∧
    (List.ofFn (bitonic_sort_dec2 (minLane s) (maxLane s) x y).1 ++
      List.ofFn (bitonic_sort_dec2 (minLane s) (maxLane s) x y).2).Perm (List.ofFn x ++ List.ofFn y) :=
  (C35_dec2_key (val s) (val_minLane s) (val_maxLane s) x y).imp id (List.map_perm_map_iff (val_injective s)).1

/-- The key hypotheses are met, e.g. by `Nat` with its own `min`/`max`; a concrete run. -/
example : bitonic_sort_asc min max ![5, 3, 8, 1, 9, 2, 7, 3] = (![1, 2, 3, 3, 5, 7, 8, 9] : Fin 8 → Nat) := by
  funext i; fin_cases i <;> decide

end Simdpp.Sort
