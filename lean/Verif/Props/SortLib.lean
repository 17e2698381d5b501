import Verif.Model.SortLib
import Verif.Props.Sort
import Verif.Props.Shuffle32
import Verif.Props.ConvArr
import Verif.Props.MinMax
import Verif.Props.FltOps
import Verif.Props.Samples

/-!
# C35: the library's bitonic sort on every build

Every step of the library's sort is shown to have the effect of the corresponding step of the network in
`Model/Sort.lean`, so the results of `Props/Sort.lean` carry over to the code that runs.
-/

namespace Simdpp.SortLib
open Spec Sh

theorem bind_some' {α β : Type} {x : Option α} {v : α} {f : α → Option β} {o : Option β} (e : x = some v) (g : f v = o) : x.bind f = o := by
  rw [e]; exact g

section
variable {c : Cfg} (h : c.Ok) (k : Kind)
include h

/-- An 8-lane vector is one 256-bit register or two 128-bit registers. -/
theorem reg8 : (c.regK k 32 8 = .r256 ∧ c.hasVec k 32 .r256 = true) ∨ (c.regK k 32 8 = .r128 ∧ c.hasVec k 32 .r128 = true) := by
  cases k
  · unfold Cfg.regK Cfg.regOf Cfg.fast
    dsimp only
    rw [if_neg (by decide)]
    cases g : c.avx2
    · right
      refine ⟨?_, rfl⟩
      have g2 : c.avx512f = false := by cases g2 : c.avx512f; rfl; exfalso; cfg_absurd h
      simp [Cfg.hasInt, g, g2]
    · left
      refine ⟨?_, g⟩
      rw [if_pos]
      exact ⟨g, rfl⟩
  · unfold Cfg.regK Cfg.regF Cfg.fastF
    dsimp only
    rw [if_neg (by decide)]
    cases g : c.avx
    · right
      have g2 : c.avx512f = false := by cases g2 : c.avx512f; rfl; exfalso; cfg_absurd h
      refine ⟨by simp [g, g2], by simp [Cfg.hasVec]⟩
    · left
      refine ⟨?_, by simp [Cfg.hasVec, g]⟩
      rw [if_pos]
      exact ⟨rfl, rfl⟩

omit h in
theorem part_gather {m j : Nat} (hm : m = 4 ∨ m = 8) (hj : j * m + m ≤ 8) (f : Nat → Nat) (a b : Vec 32 8) :
    gather 4 f (Hw.part m j a) (Hw.part m j b) = Hw.part m j (gather 4 f a b) := by
  refine funext fun i => ?_
  have hi := i.isLt
  have h4 : m % 4 = 0 := by rcases hm with e | e <;> subst e <;> rfl
  have e1 : (j * m + i.val) % 4 = i.val % 4 := by rcases hm with e | e <;> subst e <;> omega
  have e2 : (j * m + i.val) / 4 * 4 = j * m + i.val / 4 * 4 := by rcases hm with e | e <;> subst e <;> omega
  have e3 : i.val / 4 * 4 + 4 ≤ m := by rcases hm with e | e <;> subst e <;> omega
  rw [← Vec.at_fin (gather 4 f (Hw.part m j a) (Hw.part m j b)) i, gather_at _ _ hi]
  show _ = Vec.at_ (gather 4 f a b) (j * m + i.val)
  rw [gather_at _ _ (by omega), e1, e2]
  split_ifs with g1 g2
  · rw [Hw.part_at _ (by omega), Nat.add_assoc]
  · rw [Hw.part_at _ (by omega), Nat.add_assoc]
  · rfl

theorem regs1_gather {f : (r : Reg) → Vec 32 (r.lanes 32) → Option (Vec 32 (r.lanes 32))} {idx : Nat → Nat} (a : Vec 32 8)
    (hf : ∀ r, c.hasVec k 32 r = true → ∀ x, f r x = some (gather 4 idx x x)) : regs1 c k f a = some (gather 4 idx a a) := by
  unfold regs1
  dsimp only
  rcases reg8 h k with ⟨e, hr⟩ | ⟨e, hr⟩ <;> rw [e]
  · refine catM_regs (K := 1) (by decide) (by rfl) fun j hj => ?_
    rw [hf _ hr]
    exact congrArg some (part_gather (m := 8) (Or.inr rfl) (by omega) idx a a)
  · refine catM_regs (K := 2) (by decide) (by rfl) fun j hj => ?_
    rw [hf _ hr]
    exact congrArg some (part_gather (m := 4) (Or.inl rfl) (by omega) idx a a)

theorem regs2_gather {f : (r : Reg) → Vec 32 (r.lanes 32) → Vec 32 (r.lanes 32) → Option (Vec 32 (r.lanes 32))} {idx : Nat → Nat} (a b : Vec 32 8)
    (hf : ∀ r, c.hasVec k 32 r = true → ∀ x y, f r x y = some (gather 4 idx x y)) : regs2 c k f a b = some (gather 4 idx a b) := by
  unfold regs2
  dsimp only
  rcases reg8 h k with ⟨e, hr⟩ | ⟨e, hr⟩ <;> rw [e]
  · refine catM_regs (K := 1) (by decide) (by rfl) fun j hj => ?_
    rw [hf _ hr]
    exact congrArg some (part_gather (m := 8) (Or.inr rfl) (by omega) idx a b)
  · refine catM_regs (K := 2) (by decide) (by rfl) fun j hj => ?_
    rw [hf _ hr]
    exact congrArg some (part_gather (m := 4) (Or.inl rfl) (by omega) idx a b)

/-- A lane-wise operation that is the same function of lanes on the register type in use. -/
theorem regs2_map {f : (r : Reg) → Vec 32 (r.lanes 32) → Vec 32 (r.lanes 32) → Option (Vec 32 (r.lanes 32))}
    {g : BitVec 32 → BitVec 32 → BitVec 32} (a b : Vec 32 8)
    (hf : ∀ x y, f (c.regK k 32 8) x y = some (fun i => g (x i) (y i))) : regs2 c k f a b = some (Sort.map2 g a b) := by
  have key : ∀ {m j : Nat}, j * m + m ≤ 8 → (fun i : Fin m => g (Hw.part m j a i) (Hw.part m j b i)) = Hw.part m j (Sort.map2 g a b) := by
    intro m j hj
    refine funext fun i => ?_
    have hi := i.isLt
    show g (Vec.at_ a _) (Vec.at_ b _) = Vec.at_ (Sort.map2 g a b) _
    rw [Vec.at_lt _ (by omega), Vec.at_lt _ (by omega), Vec.at_lt _ (by omega)]
    rfl
  unfold regs2
  dsimp only
  rcases reg8 h k with ⟨e, hr⟩ | ⟨e, hr⟩ <;> rw [e] at hf ⊢
  · refine catM_regs (K := 1) (by decide) (by rfl) fun j hj => ?_
    rw [hf]
    exact congrArg some (key (m := 8) (by omega))
  · refine catM_regs (K := 2) (by decide) (by rfl) fun j hj => ?_
    rw [hf]
    exact congrArg some (key (m := 4) (by omega))

theorem permute4_eq (gnuc : Bool) {s0 s1 s2 s3 : Nat} (h0 : s0 < 4) (h1 : s1 < 4) (h2 : s2 < 4) (h3 : s3 < 4) (a : Vec 32 8) :
    permute4 c gnuc k s0 s1 s2 s3 a = some (gather 4 (sel4 s0 s1 s2 s3) a a) :=
  regs1_gather h k a fun _ hr _ => i_permute4_32_eq h gnuc hr rfl h0 h1 h2 h3 _

theorem shuffle4x2_eq {s0 s1 s2 s3 : Nat} (h0 : s0 < 8) (h1 : s1 < 8) (h2 : s2 < 8) (h3 : s3 < 8) (a b : Vec 32 8) :
    shuffle4x2 c k s0 s1 s2 s3 a b = some (gather 4 (sel4 s0 s1 s2 s3) a b) :=
  regs2_gather h k a b fun _ hr _ _ => i_shuffle4x2_32_eq h hr rfl h0 h1 h2 h3 _ _

theorem shuffle1_128_eq {s0 s1 : Fin 2} (a b : Vec 32 8) :
    shuffle1_128 c k s0 s1 a b = some (Sort.shuffle1_128 s0 s1 a b) := by
  unfold shuffle1_128
  rw [if_pos ⟨s0.isLt, s1.isLt⟩]
  rcases reg8 h k with ⟨e, hr⟩ | ⟨e, hr⟩
  · rw [if_pos e]
    unfold Simdpp.shuffle1_128
    rw [if_pos hr]
    refine congrArg some ?_
    funext i
    fin_cases s0 <;> fin_cases s1 <;> fin_cases i <;> rfl
  · rw [if_neg (by rw [e]; decide)]
    refine catM_regs (K := 2) (by decide) (by rfl) fun j hj => congrArg some ?_
    funext i
    rcases (by omega : j = 0 ∨ j = 1) with rfl | rfl <;> fin_cases s0 <;> fin_cases s1 <;> fin_cases i <;> rfl

end

/-- What the sort needs of the library's `min` and `max`: they act lane by lane. -/
structure LaneOps (c : Cfg) (k : Kind) (s : Bool) (mn mx : BitVec 32 → BitVec 32 → BitVec 32) : Prop where
  min : ∀ a b, vmin c k s a b = some (Sort.map2 mn a b)
  max : ∀ a b, vmax c k s a b = some (Sort.map2 mx a b)

section
variable {c : Cfg} (h : c.Ok) {k : Kind} {s : Bool} (gnuc : Bool) {mn mx : BitVec 32 → BitVec 32 → BitVec 32} (L : LaneOps c k s mn mx)

theorem p1032 (a : Vec 32 8) : gather 4 (sel4 1 0 3 2) a a = Sort.permute4 ![1, 0, 3, 2] a := by funext i; fin_cases i <;> rfl
theorem p2301 (a : Vec 32 8) : gather 4 (sel4 2 3 0 1) a a = Sort.permute4 ![2, 3, 0, 1] a := by funext i; fin_cases i <;> rfl
theorem p3210 (a : Vec 32 8) : gather 4 (sel4 3 2 1 0) a a = Sort.permute4 ![3, 2, 1, 0] a := by funext i; fin_cases i <;> rfl
theorem s1472 (a b : Vec 32 8) : gather 4 (sel4 1 4 7 2) a b = Sort.shuffle4x2 ![1, 4, 7, 2] a b := by funext i; fin_cases i <;> rfl
theorem s1427 (a b : Vec 32 8) : gather 4 (sel4 1 4 2 7) a b = Sort.shuffle4x2 ![1, 4, 2, 7] a b := by funext i; fin_cases i <;> rfl
theorem s0145 (a b : Vec 32 8) : gather 4 (sel4 0 1 4 5) a b = Sort.shuffle4x2 ![0, 1, 4, 5] a b := by funext i; fin_cases i <;> rfl

include h L

theorem asc_dec_eq (a : Vec 32 8) : sort_4lane_2el_asc_2el_dec c gnuc k s a = some (Sort.sort_4lane_2el_asc_2el_dec mn mx a) :=
  bind_some' (permute4_eq h k gnuc (by decide) (by decide) (by decide) (by decide) a) <| by
    rw [p1032]
    exact bind_some' (L.min _ _) <| bind_some' (L.max _ _) <|
      (shuffle4x2_eq h k (by decide) (by decide) (by decide) (by decide) _ _).trans (congrArg some (s1472 _ _))

theorem asc_asc_eq (a : Vec 32 8) : sort_4lane_2el_asc_2el_asc c gnuc k s a = some (Sort.sort_4lane_2el_asc_2el_asc mn mx a) :=
  bind_some' (permute4_eq h k gnuc (by decide) (by decide) (by decide) (by decide) a) <| by
    rw [p1032]
    exact bind_some' (L.min _ _) <| bind_some' (L.max _ _) <|
      (shuffle4x2_eq h k (by decide) (by decide) (by decide) (by decide) _ _).trans (congrArg some (s1427 _ _))

theorem dec_dec_eq (a : Vec 32 8) : sort_4lane_2el_dec_2el_dec c gnuc k s a = some (Sort.sort_4lane_2el_dec_2el_dec mn mx a) :=
  bind_some' (permute4_eq h k gnuc (by decide) (by decide) (by decide) (by decide) a) <| by
    rw [p1032]
    exact bind_some' (L.max _ _) <| bind_some' (L.min _ _) <|
      (shuffle4x2_eq h k (by decide) (by decide) (by decide) (by decide) _ _).trans (congrArg some (s1427 _ _))

theorem corr2_asc_eq (a : Vec 32 8) : sort_4lane_corresponding_2el_asc c gnuc k s a = some (Sort.sort_4lane_corresponding_2el_asc mn mx a) :=
  bind_some' (permute4_eq h k gnuc (by decide) (by decide) (by decide) (by decide) a) <| by
    rw [p2301]
    exact bind_some' (L.min _ _) <| bind_some' (L.max _ _) <|
      (shuffle4x2_eq h k (by decide) (by decide) (by decide) (by decide) _ _).trans (congrArg some (s0145 _ _))

theorem corr2_dec_eq (a : Vec 32 8) : sort_4lane_corresponding_2el_dec c gnuc k s a = some (Sort.sort_4lane_corresponding_2el_dec mn mx a) :=
  bind_some' (permute4_eq h k gnuc (by decide) (by decide) (by decide) (by decide) a) <| by
    rw [p2301]
    exact bind_some' (L.max _ _) <| bind_some' (L.min _ _) <|
      (shuffle4x2_eq h k (by decide) (by decide) (by decide) (by decide) _ _).trans (congrArg some (s0145 _ _))

theorem corr4_asc_eq (a : Vec 32 8) : sort_8lane_corresponding_4el_asc c k s a = some (Sort.sort_8lane_corresponding_4el_asc mn mx a) :=
  bind_some' (shuffle1_128_eq h k (s0 := 0) (s1 := 0) a a) <| bind_some' (shuffle1_128_eq h k (s0 := 1) (s1 := 1) a a) <|
    bind_some' (L.min _ _) <| bind_some' (L.max _ _) <| shuffle1_128_eq h k (s0 := 0) (s1 := 0) _ _

theorem corr4_dec_eq (a : Vec 32 8) : sort_8lane_corresponding_4el_dec c k s a = some (Sort.sort_8lane_corresponding_4el_dec mn mx a) :=
  bind_some' (shuffle1_128_eq h k (s0 := 0) (s1 := 0) a a) <| bind_some' (shuffle1_128_eq h k (s0 := 1) (s1 := 1) a a) <|
    bind_some' (L.min _ _) <| bind_some' (L.max _ _) <| shuffle1_128_eq h k (s0 := 0) (s1 := 0) _ _

omit L in
theorem top4_eq (a : Vec 32 8) : reverse_8lane_top4 c gnuc k a = some (Sort.reverse_8lane_top4 a) :=
  bind_some' (permute4_eq h k gnuc (by decide) (by decide) (by decide) (by decide) a) <| by
    rw [p3210]; exact shuffle1_128_eq h k (s0 := 0) (s1 := 1) _ _

omit L in
theorem bottom4_eq (a : Vec 32 8) : reverse_8lane_bottom4 c gnuc k a = some (Sort.reverse_8lane_bottom4 a) :=
  bind_some' (permute4_eq h k gnuc (by decide) (by decide) (by decide) (by decide) a) <| by
    rw [p3210]; exact shuffle1_128_eq h k (s0 := 0) (s1 := 1) _ _

theorem first_asc_eq (a : Vec 32 8) : sort_8lane_4el_asc_4el_dec c gnuc k s a = some (Sort.sort_8lane_4el_asc_4el_dec mn mx a) :=
  bind_some' (asc_dec_eq h gnuc L a) <| bind_some' (corr2_asc_eq h gnuc L _) <| bind_some' (asc_asc_eq h gnuc L _) <| top4_eq h gnuc _

theorem first_dec_eq (a : Vec 32 8) : sort_8lane_4el_dec_4el_asc c gnuc k s a = some (Sort.sort_8lane_4el_dec_4el_asc mn mx a) :=
  bind_some' (asc_dec_eq h gnuc L a) <| bind_some' (corr2_asc_eq h gnuc L _) <| bind_some' (asc_asc_eq h gnuc L _) <| bottom4_eq h gnuc _

theorem finalize_asc_eq (a : Vec 32 8) : finalize_asc c gnuc k s a = some (Sort.finalize_asc mn mx a) :=
  bind_some' (corr4_asc_eq h L a) <| bind_some' (corr2_asc_eq h gnuc L _) <| asc_asc_eq h gnuc L _

theorem finalize_dec_eq (a : Vec 32 8) : finalize_dec c gnuc k s a = some (Sort.finalize_dec mn mx a) :=
  bind_some' (corr4_dec_eq h L a) <| bind_some' (corr2_dec_eq h gnuc L _) <| dec_dec_eq h gnuc L _

/-- The library's sort is the network of `Model/Sort.lean`. -/
theorem asc_eq (a : Vec 32 8) : bitonic_sort_asc c gnuc k s a = some (Sort.bitonic_sort_asc mn mx a) :=
  bind_some' (first_asc_eq h gnuc L a) <| finalize_asc_eq h gnuc L _

theorem dec_eq (a : Vec 32 8) : bitonic_sort_dec c gnuc k s a = some (Sort.bitonic_sort_dec mn mx a) :=
  bind_some' (first_dec_eq h gnuc L a) <| finalize_dec_eq h gnuc L _

theorem asc2_eq (a b : Vec 32 8) : bitonic_sort_asc2 c gnuc k s a b = some (Sort.bitonic_sort_asc2 mn mx a b) :=
  bind_some' (first_asc_eq h gnuc L a) <| bind_some' (finalize_asc_eq h gnuc L _) <|
  bind_some' (first_asc_eq h gnuc L b) <| bind_some' (finalize_dec_eq h gnuc L _) <|
  bind_some' (L.max _ _) <| bind_some' (L.min _ _) <|
  bind_some' (finalize_asc_eq h gnuc L _) <| bind_some' (finalize_asc_eq h gnuc L _) rfl

theorem dec2_eq (a b : Vec 32 8) : bitonic_sort_dec2 c gnuc k s a b = some (Sort.bitonic_sort_dec2 mn mx a b) :=
  bind_some' (first_dec_eq h gnuc L a) <| bind_some' (finalize_dec_eq h gnuc L _) <|
  bind_some' (first_dec_eq h gnuc L b) <| bind_some' (finalize_asc_eq h gnuc L _) <|
  bind_some' (L.max _ _) <| bind_some' (L.min _ _) <|
  bind_some' (finalize_dec_eq h gnuc L _) <| bind_some' (finalize_dec_eq h gnuc L _) rfl

end

/-! ### Integer lanes -/

section
variable {c : Cfg} (h : c.Ok)
include h

theorem laneOps_int (s : Bool) : LaneOps c .int s (minLane s) (maxLane s) := by
  have hr : c.hasInt 32 (c.regK .int 32 8) = true := by rcases reg8 h .int with ⟨e, hr⟩ | ⟨e, hr⟩ <;> rw [e] <;> exact hr
  refine ⟨fun a b => ?_, fun a b => ?_⟩
  · exact regs2_map h .int (f := fun r => i_min c s r) (g := minLane s) a b fun x y => i_min_eq h iw32 hr s (fun e => absurd e (by decide)) x y
  · exact regs2_map h .int (f := fun r => i_max c s r) (g := maxLane s) a b fun x y => i_max_eq h iw32 hr s (fun e => absurd e (by decide)) x y

variable (gnuc s : Bool)

/-- C35: on every build `bitonic_sort_asc` of eight signed or unsigned 32-bit lanes leaves them in non-decreasing
order and is a rearrangement of the lanes it was given. -/
theorem C35_lib_asc_int (x : Vec 32 8) : ∃ y, bitonic_sort_asc c gnuc .int s x = some y ∧
    (∀ i j : Fin 8, i ≤ j → val s (y i) ≤ val s (y j)) ∧ (List.ofFn y).Perm (List.ofFn x) :=
  ⟨_, asc_eq h gnuc (laneOps_int h s) x, Sort.C35_asc_int s x⟩

/-- C35: `bitonic_sort_dec` leaves them in non-increasing order. -/
theorem C35_lib_dec_int (x : Vec 32 8) : ∃ y, bitonic_sort_dec c gnuc .int s x = some y ∧
    (∀ i j : Fin 8, i ≤ j → val s (y j) ≤ val s (y i)) ∧ (List.ofFn y).Perm (List.ofFn x) :=
  ⟨_, dec_eq h gnuc (laneOps_int h s) x, Sort.C35_dec_int s x⟩

/-- C35: the two-vector form sorts the sixteen lanes together: `a0` gets the eight least. -/
theorem C35_lib_asc2_int (x y : Vec 32 8) : ∃ p, bitonic_sort_asc2 c gnuc .int s x y = some p ∧
    (∀ i j : Fin 8, i ≤ j → val s (p.1 i) ≤ val s (p.1 j) ∧ val s (p.2 i) ≤ val s (p.2 j)) ∧
    (∀ i j : Fin 8, val s (p.1 i) ≤ val s (p.2 j)) ∧
    (List.ofFn p.1 ++ List.ofFn p.2).Perm (List.ofFn x ++ List.ofFn y) := by
  refine ⟨_, asc2_eq h gnuc (laneOps_int h s) x y, fun i j hij => ?_, fun i j => ?_, (Sort.C35_asc2_int s x y).2⟩
  · have q1 := (Sort.C35_asc2_int s x y).1 ⟨i, by omega⟩ ⟨j, by omega⟩ hij
    have q2 := (Sort.C35_asc2_int s x y).1 ⟨i + 8, by omega⟩ ⟨j + 8, by omega⟩ (by simpa using hij)
    refine ⟨?_, ?_⟩
    · simpa [Sort.pairAt] using q1
    · simpa [Sort.pairAt] using q2
  · have q := (Sort.C35_asc2_int s x y).1 ⟨i, by omega⟩ ⟨j + 8, by omega⟩ (by simp only [Fin.mk_le_mk]; omega)
    simpa [Sort.pairAt] using q

theorem C35_lib_dec2_int (x y : Vec 32 8) : ∃ p, bitonic_sort_dec2 c gnuc .int s x y = some p ∧
    (∀ i j : Fin 8, i ≤ j → val s (p.1 j) ≤ val s (p.1 i) ∧ val s (p.2 j) ≤ val s (p.2 i)) ∧
    (∀ i j : Fin 8, val s (p.2 j) ≤ val s (p.1 i)) ∧
    (List.ofFn p.1 ++ List.ofFn p.2).Perm (List.ofFn x ++ List.ofFn y) := by
  refine ⟨_, dec2_eq h gnuc (laneOps_int h s) x y, fun i j hij => ?_, fun i j => ?_, (Sort.C35_dec2_int s x y).2⟩
  · have q1 := (Sort.C35_dec2_int s x y).1 ⟨i, by omega⟩ ⟨j, by omega⟩ hij
    have q2 := (Sort.C35_dec2_int s x y).1 ⟨i + 8, by omega⟩ ⟨j + 8, by omega⟩ (by simpa using hij)
    refine ⟨?_, ?_⟩
    · simpa [Sort.pairAt] using q1
    · simpa [Sort.pairAt] using q2
  · have q := (Sort.C35_dec2_int s x y).1 ⟨i, by omega⟩ ⟨j + 8, by omega⟩ (by simp only [Fin.mk_le_mk]; omega)
    simpa [Sort.pairAt] using q

end

/-! ### Floating-point lanes -/

/-- A `float` lane that is not NaN. -/
abbrev Num := {x : BitVec 32 // Flt.isNaN x = false}

/-- What a `min` and a `max` restricted to numbers give: another of the two numbers, with the lesser (greater) key. -/
structure NumOps (mn mx : BitVec 32 → BitVec 32 → BitVec 32) (mn' mx' : Num → Num → Num) : Prop where
  mn : ∀ x y, (mn' x y).val = mn x.val y.val
  mx : ∀ x y, (mx' x y).val = mx x.val y.val
  kmn : ∀ x y, Flt.key (mn' x y).val = min (Flt.key x.val) (Flt.key y.val)
  kmx : ∀ x y, Flt.key (mx' x y).val = max (Flt.key x.val) (Flt.key y.val)

theorem min_num {g : BitVec 32 → BitVec 32 → BitVec 32} (hg : IsMin g) {x y : BitVec 32} (hx : Flt.isNaN x = false) (hy : Flt.isNaN y = false) :
    Flt.isNaN (g x y) = false ∧ Flt.key (g x y) = min (Flt.key x) (Flt.key y) := by
  obtain ⟨e, l1, l2⟩ := (hg x y).1 (by simp [Flt.ordered, hx, hy])
  simp only [Flt.fle, Bool.and_eq_true, decide_eq_true_eq] at l1 l2
  refine ⟨?_, ?_⟩
  · rcases e with e | e <;> rw [e] <;> assumption
  · refine le_antisymm (le_min l1.2 l2.2) ?_
    rcases e with e | e <;> rw [e]
    · exact min_le_left _ _
    · exact min_le_right _ _

theorem max_num {g : BitVec 32 → BitVec 32 → BitVec 32} (hg : IsMax g) {x y : BitVec 32} (hx : Flt.isNaN x = false) (hy : Flt.isNaN y = false) :
    Flt.isNaN (g x y) = false ∧ Flt.key (g x y) = max (Flt.key x) (Flt.key y) := by
  obtain ⟨e, l1, l2⟩ := (hg x y).1 (by simp [Flt.ordered, hx, hy])
  simp only [Flt.fge, Flt.fle, Bool.and_eq_true, decide_eq_true_eq] at l1 l2
  refine ⟨?_, ?_⟩
  · rcases e with e | e <;> rw [e] <;> assumption
  · refine le_antisymm ?_ (max_le l1.2 l2.2)
    rcases e with e | e <;> rw [e]
    · exact le_max_left _ _
    · exact le_max_right _ _

section
variable {c : Cfg} (h : c.Ok)
include h

theorem laneOps_flt (s : Bool) : ∃ mn mx mn' mx', LaneOps c .flt s mn mx ∧ NumOps mn mx mn' mx' := by
  have hr : c.hasVec .flt 32 (c.regK .flt 32 8) = true := by rcases reg8 h .flt with ⟨e, hr⟩ | ⟨e, hr⟩ <;> rw [e] <;> exact hr
  obtain ⟨mn, i1, e1⟩ := i_fmin_ex h (w := 32) (Or.inl rfl) hr
  obtain ⟨mx, i2, e2⟩ := i_fmax_ex h (w := 32) (Or.inl rfl) hr
  refine ⟨mn, mx, fun x y => ⟨mn x y, (min_num i1 x.2 y.2).1⟩, fun x y => ⟨mx x y, (max_num i2 x.2 y.2).1⟩, ⟨fun a b => ?_, fun a b => ?_⟩,
    ⟨fun _ _ => rfl, fun _ _ => rfl, fun x y => (min_num i1 x.2 y.2).2, fun x y => (max_num i2 x.2 y.2).2⟩⟩
  · exact regs2_map h .flt (f := fun r => i_fmin c r) (g := mn) a b fun x y => e1 _ x y
  · exact regs2_map h .flt (f := fun r => i_fmax c r) (g := mx) a b fun x y => e2 _ x y

variable (gnuc s : Bool)

omit h in
theorem fle_num (x y : Num) : Flt.fle x.val y.val = true ↔ Flt.key x.val ≤ Flt.key y.val := by
  simp [Flt.fle, Flt.ordered, x.2, y.2]

/-- C35: on every build `bitonic_sort_asc` of eight `float` lanes without a NaN leaves them in non-decreasing order
(`y[i] <= y[j]` for `i <= j`), and as a multiset of numbers (the two zeros being one number) the lanes are those given. -/
theorem C35_lib_asc_flt (x : Vec 32 8) (hx : ∀ i, Flt.isNaN (x i) = false) : ∃ y, bitonic_sort_asc c gnuc .flt s x = some y ∧
    (∀ i j : Fin 8, i ≤ j → Flt.fle (y i) (y j) = true) ∧ ((List.ofFn y).map Flt.key).Perm ((List.ofFn x).map Flt.key) := by
  obtain ⟨mn, mx, mn', mx', L, N⟩ := laneOps_flt h s
  let x' : Fin 8 → Num := fun i => ⟨x i, hx i⟩
  have e : Subtype.val ∘ Sort.bitonic_sort_asc mn' mx' x' = Sort.bitonic_sort_asc mn mx x := by
    unfold Sort.bitonic_sort_asc
    rw [Sort.finalize_asc_nat Subtype.val N.mn N.mx, Sort.first_asc_nat Subtype.val N.mn N.mx]; rfl
  have K := Sort.C35_asc_key (fun z : Num => Flt.key z.val) N.kmn N.kmx x'
  refine ⟨_, (asc_eq h gnuc L x).trans (congrArg some e.symm), fun i j hij => (fle_num _ _).2 (K.1 i j hij), ?_⟩
  rw [List.map_ofFn, List.map_ofFn]
  rw [List.map_ofFn, List.map_ofFn] at K
  exact K.2

/-- C35: `bitonic_sort_dec` of eight `float` lanes without a NaN. -/
theorem C35_lib_dec_flt (x : Vec 32 8) (hx : ∀ i, Flt.isNaN (x i) = false) : ∃ y, bitonic_sort_dec c gnuc .flt s x = some y ∧
    (∀ i j : Fin 8, i ≤ j → Flt.fle (y j) (y i) = true) ∧ ((List.ofFn y).map Flt.key).Perm ((List.ofFn x).map Flt.key) := by
  obtain ⟨mn, mx, mn', mx', L, N⟩ := laneOps_flt h s
  let x' : Fin 8 → Num := fun i => ⟨x i, hx i⟩
  have e : Subtype.val ∘ Sort.bitonic_sort_dec mn' mx' x' = Sort.bitonic_sort_dec mn mx x := by
    unfold Sort.bitonic_sort_dec
    rw [Sort.finalize_dec_nat Subtype.val N.mn N.mx, Sort.first_dec_nat Subtype.val N.mn N.mx]; rfl
  have K := Sort.C35_dec_key (fun z : Num => Flt.key z.val) N.kmn N.kmx x'
  refine ⟨_, (dec_eq h gnuc L x).trans (congrArg some e.symm), fun i j hij => (fle_num _ _).2 (K.1 i j hij), ?_⟩
  rw [List.map_ofFn, List.map_ofFn]
  rw [List.map_ofFn, List.map_ofFn] at K
  exact K.2

/-- C35: the two-vector form on `float` lanes. -/
theorem C35_lib_asc2_flt (x y : Vec 32 8) (hx : ∀ i, Flt.isNaN (x i) = false) (hy : ∀ i, Flt.isNaN (y i) = false) :
    ∃ p, bitonic_sort_asc2 c gnuc .flt s x y = some p ∧
    (∀ i j : Fin 8, i ≤ j → Flt.fle (p.1 i) (p.1 j) = true ∧ Flt.fle (p.2 i) (p.2 j) = true) ∧
    (∀ i j : Fin 8, Flt.fle (p.1 i) (p.2 j) = true) ∧
    ((List.ofFn p.1 ++ List.ofFn p.2).map Flt.key).Perm ((List.ofFn x ++ List.ofFn y).map Flt.key) := by
  obtain ⟨mn, mx, mn', mx', L, N⟩ := laneOps_flt h s
  let x' : Fin 8 → Num := fun i => ⟨x i, hx i⟩
  let y' : Fin 8 → Num := fun i => ⟨y i, hy i⟩
  have e : (Subtype.val ∘ (Sort.bitonic_sort_asc2 mn' mx' x' y').1, Subtype.val ∘ (Sort.bitonic_sort_asc2 mn' mx' x' y').2) =
      Sort.bitonic_sort_asc2 mn mx x y := by
    unfold Sort.bitonic_sort_asc2
    dsimp only
    rw [Sort.finalize_asc_nat Subtype.val N.mn N.mx, Sort.finalize_asc_nat Subtype.val N.mn N.mx,
      Sort.map2_nat Subtype.val N.mn, Sort.map2_nat Subtype.val N.mx, Sort.finalize_asc_nat Subtype.val N.mn N.mx,
      Sort.finalize_dec_nat Subtype.val N.mn N.mx, Sort.first_asc_nat Subtype.val N.mn N.mx, Sort.first_asc_nat Subtype.val N.mn N.mx]
    rfl
  have K := Sort.C35_asc2_key (fun z : Num => Flt.key z.val) N.kmn N.kmx x' y'
  refine ⟨_, (asc2_eq h gnuc L x y).trans (congrArg some e.symm), fun i j hij => ⟨?_, ?_⟩, fun i j => ?_, ?_⟩
  · have q := K.1 ⟨i, by omega⟩ ⟨j, by omega⟩ hij
    exact (fle_num _ _).2 (by simpa [Sort.pairAt] using q)
  · have q := K.1 ⟨i + 8, by omega⟩ ⟨j + 8, by omega⟩ (by simpa using hij)
    exact (fle_num _ _).2 (by simpa [Sort.pairAt] using q)
  · have q := K.1 ⟨i, by omega⟩ ⟨j + 8, by omega⟩ (by simp only [Fin.mk_le_mk]; omega)
    exact (fle_num _ _).2 (by simpa [Sort.pairAt] using q)
  · have q := K.2
    simp only [List.map_append, List.map_ofFn] at q ⊢
    exact q

theorem C35_lib_dec2_flt (x y : Vec 32 8) (hx : ∀ i, Flt.isNaN (x i) = false) (hy : ∀ i, Flt.isNaN (y i) = false) :
    ∃ p, bitonic_sort_dec2 c gnuc .flt s x y = some p ∧
    (∀ i j : Fin 8, i ≤ j → Flt.fle (p.1 j) (p.1 i) = true ∧ Flt.fle (p.2 j) (p.2 i) = true) ∧
    (∀ i j : Fin 8, Flt.fle (p.2 j) (p.1 i) = true) ∧
    ((List.ofFn p.1 ++ List.ofFn p.2).map Flt.key).Perm ((List.ofFn x ++ List.ofFn y).map Flt.key) := by
  obtain ⟨mn, mx, mn', mx', L, N⟩ := laneOps_flt h s
  let x' : Fin 8 → Num := fun i => ⟨x i, hx i⟩
  let y' : Fin 8 → Num := fun i => ⟨y i, hy i⟩
  have e : (Subtype.val ∘ (Sort.bitonic_sort_dec2 mn' mx' x' y').1, Subtype.val ∘ (Sort.bitonic_sort_dec2 mn' mx' x' y').2) =
      Sort.bitonic_sort_dec2 mn mx x y := by
    unfold Sort.bitonic_sort_dec2
    dsimp only
    rw [Sort.finalize_dec_nat Subtype.val N.mn N.mx, Sort.finalize_dec_nat Subtype.val N.mn N.mx,
      Sort.map2_nat Subtype.val N.mn, Sort.map2_nat Subtype.val N.mx, Sort.finalize_asc_nat Subtype.val N.mn N.mx,
      Sort.finalize_dec_nat Subtype.val N.mn N.mx, Sort.first_dec_nat Subtype.val N.mn N.mx, Sort.first_dec_nat Subtype.val N.mn N.mx]
    rfl
  have K := Sort.C35_dec2_key (fun z : Num => Flt.key z.val) N.kmn N.kmx x' y'
  refine ⟨_, (dec2_eq h gnuc L x y).trans (congrArg some e.symm), fun i j hij => ⟨?_, ?_⟩, fun i j => ?_, ?_⟩
  · have q := K.1 ⟨i, by omega⟩ ⟨j, by omega⟩ hij
    exact (fle_num _ _).2 (by simpa [Sort.pairAt] using q)
  · have q := K.1 ⟨i + 8, by omega⟩ ⟨j + 8, by omega⟩ (by simpa using hij)
    exact (fle_num _ _).2 (by simpa [Sort.pairAt] using q)
  · have q := K.1 ⟨i, by omega⟩ ⟨j + 8, by omega⟩ (by simp only [Fin.mk_le_mk]; omega)
    exact (fle_num _ _).2 (by simpa [Sort.pairAt] using q)
  · have q := K.2
    simp only [List.map_append, List.map_ofFn] at q ⊢
    exact q

end

/-- C35: the rearrangement is one of numbers, not of bit patterns: SSE2 `min` and `max` of two zeros both return the
second operand, so sorting one negative zero among positive ones changes the number of negative zeros. -/
theorem C35_lib_zeros_not_permuted : ∃ (x y : Vec 32 8), (∀ i, Flt.isNaN (x i) = false) ∧
    bitonic_sort_asc Cfg.sse2Only true .flt true x = some y ∧ ¬ (List.ofFn y).Perm (List.ofFn x) := by
  have L : LaneOps Cfg.sse2Only .flt true Hw.minX Hw.maxX := by
    refine ⟨fun a b => ?_, fun a b => ?_⟩
    · exact regs2_map Cfg.sse2Only_ok .flt (f := fun r => i_fmin Cfg.sse2Only r) (g := Hw.minX) a b fun x y => rfl
    · exact regs2_map Cfg.sse2Only_ok .flt (f := fun r => i_fmax Cfg.sse2Only r) (g := Hw.maxX) a b fun x y => rfl
  refine ⟨![0x80000000#32, 0#32, 0#32, 0#32, 0#32, 0#32, 0#32, 0#32], _, ?_, asc_eq Cfg.sse2Only_ok true L _, ?_⟩
  · decide
  · decide +kernel

/-- A concrete run on an AVX2 build and on a portable one. -/
example : ∃ y, bitonic_sort_asc Cfg.avx2Only true .int true ![5#32, 3#32, 0xffffffff#32, 1#32, 9#32, 2#32, 7#32, 3#32] = some y ∧
    (∀ i j : Fin 8, i ≤ j → val true (y i) ≤ val true (y j)) :=
  (C35_lib_asc_int Cfg.avx2Only_ok true true _).imp fun _ q => ⟨q.1, q.2.1⟩

example : ∃ y, bitonic_sort_asc Cfg.portable true .flt true (fun _ => 0x3f800000#32) = some y ∧
    (∀ i j : Fin 8, i ≤ j → Flt.fle (y i) (y j) = true) :=
  (C35_lib_asc_flt Cfg.portable_ok true true _ fun _ => by decide).imp fun _ q => ⟨q.1, q.2.1⟩

end Simdpp.SortLib
