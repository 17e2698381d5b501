import Verif.Model.FReduce
import Verif.Spec.Tree
import Verif.Props.FConv
import Verif.Props.ReduceLemmas
import Verif.Props.FltOps
import Verif.Props.Shuffle32
import Verif.Props.Shuffle64
import Verif.Props.Lanes
import Mathlib.Data.List.Range
import Mathlib.Data.List.Nodup

/-!
# Lemmas for the floating-point reductions
-/

namespace Simdpp.Spec.Tree
variable {α : Type}

/-- Replace the leaves. -/
def bind (σ : Nat → Tree) : Tree → Tree
  | leaf i => σ i
  | node l r => node (l.bind σ) (r.bind σ)

theorem bind_leaves (σ : Nat → Tree) (t : Tree) : (t.bind σ).leaves = t.leaves.flatMap (fun i => (σ i).leaves) := by
  induction t with
  | leaf i => simp [bind, leaves]
  | node l r hl hr => simp [bind, leaves, hl, hr]

theorem bind_yields {R : α → α → α → Prop} {f g : Nat → α} {σ : Nat → Tree} {t : Tree} {x : α}
    (hσ : ∀ i ∈ t.leaves, (σ i).Yields R f (g i)) (h : t.Yields R g x) : (t.bind σ).Yields R f x := by
  induction t generalizing x with
  | leaf i => rw [show x = g i from h]; exact hσ i (by simp [leaves])
  | node l r hl hr =>
    obtain ⟨y, z, hy, hz, hx⟩ := h
    exact ⟨y, z, hl (fun i hi => hσ i (by simp [leaves, hi])) hy, hr (fun i hi => hσ i (by simp [leaves, hi])) hz, hx⟩

theorem yields_congr {R : α → α → α → Prop} {f g : Nat → α} {t : Tree} {x : α} (hfg : ∀ i ∈ t.leaves, f i = g i)
    (h : t.Yields R f x) : t.Yields R g x := by
  induction t generalizing x with
  | leaf i => exact (show x = f i from h).trans (hfg i (by simp [leaves]))
  | node l r hl hr =>
    obtain ⟨y, z, hy, hz, hx⟩ := h
    exact ⟨y, z, hl (fun i hi => hfg i (by simp [leaves, hi])) hy, hr (fun i hi => hfg i (by simp [leaves, hi])) hz, hx⟩

theorem yields_eval {op : α → α → α} {f : Nat → α} {t : Tree} {x : α} : t.Yields (fun y z x => x = op y z) f x ↔ x = t.eval op f := by
  induction t generalizing x with
  | leaf i => exact Iff.rfl
  | node l r hl hr =>
    constructor
    · rintro ⟨y, z, hy, hz, hx⟩; rw [hx, hl.1 hy, hr.1 hz]; rfl
    · intro h; exact ⟨_, _, hl.2 rfl, hr.2 rfl, h⟩

/-- Lanes `i`, `L + i`, `2 * L + i`, ... combined from left to right. -/
def comb (L i : Nat) : Nat → Tree
  | 0 => leaf i
  | k + 1 => node (comb L i k) (leaf ((k + 1) * L + i))

theorem comb_leaves (L i k : Nat) : (comb L i k).leaves = (List.range (k + 1)).map (fun j => j * L + i) := by
  induction k with
  | zero => simp [comb, leaves]
  | succ k ih => rw [List.range_succ, List.map_append, ← ih]; simp [comb, leaves]

theorem cols_perm {L K : Nat} (hL : 0 < L) {l : List Nat} (hl : l.Perm (List.range L)) :
    (l.flatMap (fun i => (List.range K).map (fun j => j * L + i))).Perm (List.range (K * L)) := by
  refine (hl.flatMap_right _).trans ?_
  have key : ∀ i < L, ∀ j, (j * L + i) % L = i ∧ (j * L + i) / L = j := fun i hi j => by
    rw [Nat.mul_comm]; exact ⟨by rw [Nat.mul_add_mod, Nat.mod_eq_of_lt hi], by rw [Nat.mul_add_div hL, Nat.div_eq_of_lt hi, Nat.add_zero]⟩
  refine (List.perm_ext_iff_of_nodup ?_ List.nodup_range).2 fun x => ?_
  · rw [List.nodup_flatMap]
    refine ⟨fun i hi => ?_, ?_⟩
    · refine List.nodup_range.map_on ?_
      intro j _ k _ e
      have := key i (List.mem_range.1 hi)
      have h1 := (this j).2; have h2 := (this k).2
      rw [e] at h1; omega
    · refine List.Pairwise.imp_of_mem ?_ (List.nodup_range (n := L))
      intro i k hi hk hne
      show List.Disjoint _ _
      intro x hx hy
      obtain ⟨j, -, e1⟩ := List.mem_map.1 hx
      obtain ⟨j', -, e2⟩ := List.mem_map.1 hy
      have h1 := (key i (List.mem_range.1 hi) j).1
      have h2 := (key k (List.mem_range.1 hk) j').1
      rw [e1] at h1; rw [e2] at h2; omega
  · simp only [List.mem_flatMap, List.mem_map, List.mem_range]
    constructor
    · rintro ⟨i, hi, j, hj, rfl⟩
      calc j * L + i < j * L + L := by omega
        _ = (j + 1) * L := by rw [Nat.add_mul, Nat.one_mul]
        _ ≤ K * L := Nat.mul_le_mul_right _ hj
    · intro hx
      refine ⟨x % L, Nat.mod_lt _ hL, x / L, Nat.div_lt_of_lt_mul (by rwa [Nat.mul_comm]), ?_⟩
      rw [Nat.mul_comm]; exact Nat.div_add_mod x L

end Simdpp.Spec.Tree

namespace Simdpp
open Spec Spec.Flt Spec.Fp Sh

variable {w n N : Nat}

/-- A reduction of `L` lanes over a tree that does not depend on the lanes. -/
def RedBy (R : BitVec w → BitVec w → BitVec w → Prop) (L : Nat) (f : Vec w L → Option (BitVec w)) : Prop :=
  ∃ t : Tree, t.leaves.Perm (List.range L) ∧ ∀ a : Vec w L, ∃ x, f a = some x ∧ t.Yields R a.at_ x

/-- A lane-wise operation. -/
def LaneBy (R : BitVec w → BitVec w → BitVec w → Prop) (op : Vec w n → Vec w n → Option (Vec w n)) : Prop :=
  ∀ a b, ∃ x, op a b = some x ∧ ∀ i, R (a i) (b i) (x i)

theorem LaneBy.at {R : BitVec w → BitVec w → BitVec w → Prop} {op : Vec w n → Vec w n → Option (Vec w n)} (h : LaneBy R op) (a b : Vec w n) :
    ∃ x, op a b = some x ∧ ∀ j, j < n → R (a.at_ j) (b.at_ j) (x.at_ j) := by
  obtain ⟨x, e, p⟩ := h a b
  refine ⟨x, e, fun j hj => ?_⟩
  rw [Vec.at_lt _ hj, Vec.at_lt _ hj, Vec.at_lt _ hj]
  exact p ⟨j, hj⟩

theorem RedBy.cols {R : BitVec w → BitVec w → BitVec w → Prop} {L k : Nat} (hL : 0 < L) {f : Vec w L → Option (BitVec w)} (hf : RedBy R L f)
    {g : Vec w ((k + 1) * L) → Option (Vec w L)}
    (hg : ∀ a, ∃ b, g a = some b ∧ ∀ i, i < L → (Tree.comb L i k).Yields R a.at_ (b.at_ i)) :
    RedBy R ((k + 1) * L) (fun a => (g a).bind f) := by
  obtain ⟨t, ht, hf⟩ := hf
  refine ⟨t.bind fun i => Tree.comb L i k, ?_, fun a => ?_⟩
  · rw [Tree.bind_leaves]
    simp only [Tree.comb_leaves]
    exact Tree.cols_perm hL ht
  · obtain ⟨b, e, p⟩ := hg a
    obtain ⟨x, e2, p2⟩ := hf b
    refine ⟨x, by show (g a).bind f = _; rw [e]; exact e2, Tree.bind_yields (fun i hi => p i ?_) p2⟩
    exact List.mem_range.1 (ht.mem_iff.1 hi)

theorem RedBy.half {R : BitVec w → BitVec w → BitVec w → Prop} {L : Nat} (hL : 0 < L) {one : Vec w L → Option (BitVec w)} (ho : RedBy R L one)
    {op : Vec w L → Vec w L → Option (Vec w L)} (hop : LaneBy R op) : RedBy R ((1 + 1) * L) (fredHalf op one) := by
  refine ho.cols hL (g := fun a => op (Hw.part L 0 a) (Hw.part L 1 a)) fun a => ?_
  obtain ⟨x, e, p⟩ := hop.at (Hw.part L 0 a) (Hw.part L 1 a)
  refine ⟨x, e, fun i hi => ⟨_, _, rfl, rfl, ?_⟩⟩
  have := p i hi
  rw [part_at0 _ hi, Hw.part_at _ hi] at this
  rw [Nat.zero_add]; exact this

theorem RedBy.acc {R : BitVec w → BitVec w → BitVec w → Prop} {L k : Nat} (hL : 0 < L) {one : Vec w L → Option (BitVec w)} (ho : RedBy R L one)
    {op : Vec w L → Vec w L → Option (Vec w L)} (hop : LaneBy R op) : RedBy R ((k + 1) * L) (fun a => (accArr op a).bind one) := by
  refine ho.cols hL (g := accArr op) fun a => ?_
  unfold accArr
  rw [Nat.mul_div_cancel _ hL, Nat.add_sub_cancel]
  -- the loop invariant
  have key : ∀ m, ∃ b, loopM (fun j r => op r (Hw.part L j a)) 1 m (Hw.part L 0 a) = some b ∧
      ∀ i, i < L → (Tree.comb L i m).Yields R a.at_ (b.at_ i) := by
    intro m
    induction m with
    | zero => exact ⟨_, rfl, fun i hi => part_at0 _ hi⟩
    | succ m ih =>
      obtain ⟨b, e, p⟩ := ih
      obtain ⟨x, e2, p2⟩ := hop.at b (Hw.part L (1 + m) a)
      refine ⟨x, ?_, fun i hi => ⟨_, _, p i hi, rfl, ?_⟩⟩
      · show (loopM _ 1 m _).bind _ = _
        rw [e]; exact e2
      · have := p2 i hi
        rw [Hw.part_at _ hi, Nat.add_comm 1] at this
        exact this
  exact key k

theorem RedBy.congr {R : BitVec w → BitVec w → BitVec w → Prop} {L : Nat} {f g : Vec w L → Option (BitVec w)} (hf : RedBy R L f) (h : ∀ a, g a = f a) :
    RedBy R L g := by
  obtain ⟨t, ht, p⟩ := hf
  exact ⟨t, ht, fun a => by rw [h]; exact p a⟩

theorem part_all' {L : Nat} (a : Vec w L) : Hw.part L 0 a = a := by
  funext i
  unfold Hw.part
  rw [Nat.zero_mul, Nat.zero_add, Vec.at_fin]

/-- The register types and arrays. -/
theorem fredAll_red {c : Cfg} (h : c.Ok) (hw : w = 32 ∨ w = 64) {R : BitVec w → BitVec w → BitVec w → Prop}
    {op : Reg → {n : Nat} → Vec w n → Vec w n → Option (Vec w n)}
    (hop : ∀ r, c.hasVec .flt w r = true → ∀ n, LaneBy R (op r (n := n)))
    {one : Vec w (Reg.r128.lanes w) → Option (BitVec w)} {two : Vec w (Reg.r256.lanes w) → Option (BitVec w)}
    (h1 : RedBy R (Reg.r128.lanes w) one) (h2 : c.avx = true → RedBy R (Reg.r256.lanes w) two) (hN : c.FLen w N) :
    RedBy R N (fredAll c op one two) := by
  have hreg : ∀ r, c.hasVec .flt w r = true → RedBy R (r.lanes w) (fredReg c op one two r) := by
    intro r hr
    cases r
    · exact h1.congr fun a => congrArg one (part_all' a)
    · have ha : c.avx = true := hr
      refine (h2 ha).congr fun a => ?_
      unfold fredReg; rw [if_pos ha]; exact congrArg two (part_all' a)
    · have ha : c.avx512f = true := hr
      have hav : c.avx = true := by have := h.avx2; have := h.avx512f; simp_all
      have e : Reg.r512.lanes w = (1 + 1) * Reg.r256.lanes w := by rcases hw with e | e <;> subst e <;> rfl
      rw [e]
      refine (RedBy.half (by rcases hw with e | e <;> subst e <;> decide) (h2 hav) (hop .r256 hav _)).congr fun a => ?_
      unfold fredReg; rw [if_pos ha]
  by_cases hs : N = (c.regF w N).lanes w
  · have hr : c.hasVec .flt w (c.regF w N) = true := by
      unfold Cfg.regF
      split_ifs with g1 g2 g3
      · rfl
      · exact g2.1
      · exact g3.1
      · exact fastF_has c w
    have key : ∀ r N, c.regF w N = r → N = r.lanes w → c.hasVec .flt w r = true → RedBy R N (fredAll c op one two) := by
      intro r N hr hN hv
      subst hN
      refine (hreg r hv).congr fun a => ?_
      unfold fredAll
      rw [hr, if_pos rfl]
    exact key _ N rfl hs hr
  · rcases hN with ⟨r, hr, e⟩ | ⟨K, hK, e⟩
    · refine absurd ?_ hs
      rw [e]
      cases r
      · rw [regF_128 c hw]
      · rw [regF_256 c hw hr]
      · rw [regF_512 c hw hr]
    · obtain ⟨k, rfl⟩ : ∃ k, K = k + 1 := ⟨K - 1, by omega⟩
      subst e
      have hL : 0 < c.fastF.lanes w := by rcases hw with e | e <;> subst e <;> cases c.fastF <;> decide
      refine (RedBy.acc hL (hreg _ (fastF_has c w)) (hop _ (fastF_has c w) _)).congr fun a => ?_
      unfold fredAll
      rw [if_neg hs]; rfl

/-! ### 128-bit kernels -/

theorem redLoop4 {R : BitVec 32 → BitVec 32 → BitVec 32 → Prop} {op : BitVec 32 → BitVec 32 → BitVec 32} (hop : ∀ x y, R x y (op x y)) :
    RedBy R 4 (fredLoop op) := by
  refine ⟨.node (.node (.node (.leaf 0) (.leaf 1)) (.leaf 2)) (.leaf 3), by decide, fun a => ⟨_, rfl, ?_⟩⟩
  exact ⟨_, _, ⟨_, _, ⟨_, _, rfl, rfl, hop _ _⟩, rfl, hop _ _⟩, rfl, hop _ _⟩

theorem redLoop2 {R : BitVec 64 → BitVec 64 → BitVec 64 → Prop} {op : BitVec 64 → BitVec 64 → BitVec 64} (hop : ∀ x y, R x y (op x y)) :
    RedBy R 2 (fredLoop op) := by
  refine ⟨.node (.leaf 0) (.leaf 1), by decide, fun a => ⟨_, rfl, ?_⟩⟩
  exact ⟨_, _, rfl, rfl, hop _ _⟩

/-- `((0 1) (2 3))` -/
theorem redPairs4 {R : BitVec 32 → BitVec 32 → BitVec 32 → Prop} {op : BitVec 32 → BitVec 32 → BitVec 32} (hop : ∀ x y, R x y (op x y))
    {f : Vec 32 4 → Option (BitVec 32)} (hf : ∀ a, f a = some (op (op (a.at_ 0) (a.at_ 1)) (op (a.at_ 2) (a.at_ 3)))) : RedBy R 4 f := by
  refine ⟨.node (.node (.leaf 0) (.leaf 1)) (.node (.leaf 2) (.leaf 3)), by decide, fun a => ⟨_, hf a, ?_⟩⟩
  exact ⟨_, _, ⟨_, _, rfl, rfl, hop _ _⟩, ⟨_, _, rfl, rfl, hop _ _⟩, hop _ _⟩

theorem redPairs2 {R : BitVec 64 → BitVec 64 → BitVec 64 → Prop} {op : BitVec 64 → BitVec 64 → BitVec 64} (hop : ∀ x y, R x y (op x y))
    {f : Vec 64 2 → Option (BitVec 64)} (hf : ∀ a, f a = some (op (a.at_ 0) (a.at_ 1))) : RedBy R 2 f := by
  refine ⟨.node (.leaf 0) (.leaf 1), by decide, fun a => ⟨_, hf a, ?_⟩⟩
  exact ⟨_, _, rfl, rfl, hop _ _⟩

section
variable {c : Cfg} (h : c.Ok)
include h

theorem redHl {R : BitVec 32 → BitVec 32 → BitVec 32 → Prop} (gnuc : Bool) {op : Vec 32 4 → Vec 32 4 → Option (Vec 32 4)} (hop : LaneBy R op)
    {s1 : Nat} (hs : s1 < 2) : RedBy R 4 (fredHl c gnuc op s1) := by
  refine ⟨.node (.node (.leaf 0) (.leaf 2)) (.node (.leaf 1) (.leaf 3)), by decide, fun a => ?_⟩
  obtain ⟨b, e1, p1⟩ := hop.at a (Hw.movehl_ps a)
  have e2 := i_permute2_32_eq h gnuc (k := .flt) (r := .r128) rfl rfl (n := 4) (show 1 < 2 by decide) hs b
  obtain ⟨d, e3, p3⟩ := hop.at b (gather 2 (sel2 1 s1) b b)
  refine ⟨d.at_ 0, ?_, ?_⟩
  · unfold fredHl
    exact (bind_of e1 _).trans ((bind_of e2 _).trans ((bind_of e3 _).trans rfl))
  · exact ⟨_, _, ⟨_, _, rfl, rfl, p1 0 (by decide)⟩, ⟨_, _, rfl, rfl, p1 1 (by decide)⟩, p3 0 (by decide)⟩

theorem redMv {R : BitVec 32 → BitVec 32 → BitVec 32 → Prop} {op : Vec 32 4 → Vec 32 4 → Option (Vec 32 4)} (hop : LaneBy R op) :
    RedBy R 4 (fredMv c op) := by
  refine ⟨.node (.node (.leaf 0) (.leaf 1)) (.node (.leaf 2) (.leaf 3)), by decide, fun a => ?_⟩
  obtain ⟨t, e0, q0⟩ := moveL1_eq h (k := .flt) (w := 32) (n := 4) (Or.inl rfl) (show 1 < 128 / 32 by decide) rfl a
  obtain ⟨b, e1, p1⟩ := hop.at a t
  obtain ⟨u, e2, q2⟩ := moveL1_eq h (k := .flt) (w := 32) (n := 4) (Or.inl rfl) (show 2 < 128 / 32 by decide) rfl b
  obtain ⟨d, e3, p3⟩ := hop.at b u
  have e4 : i_extract c .flt false .r128 0 d = some (d.at_ 0) := i_extract32f_eq h (by decide) d
  refine ⟨d.at_ 0, ?_, ?_⟩
  · unfold fredMv
    exact (bind_of e0 _).trans ((bind_of e1 _).trans ((bind_of e2 _).trans ((bind_of e3 _).trans e4)))
  · have a0 := p1 0 (by decide)
    have a2 := p1 2 (by decide)
    rw [q0 0 (by decide)] at a0
    rw [q0 2 (by decide)] at a2
    have a3 := p3 0 (by decide)
    rw [q2 0 (by decide)] at a3
    exact ⟨_, _, ⟨_, _, rfl, rfl, a0⟩, ⟨_, _, rfl, rfl, a2⟩, a3⟩

theorem red64 {R : BitVec 64 → BitVec 64 → BitVec 64 → Prop} {op : Vec 64 2 → Vec 64 2 → Option (Vec 64 2)} (hop : LaneBy R op)
    {s1 : Nat} (hs : s1 < 2) (ext : Bool) : RedBy R 2 (fred64 c op s1 ext) := by
  refine ⟨.node (.leaf 0) (.leaf 1), by decide, fun a => ?_⟩
  have e2 := i_permute2_64_eq h (k := .flt) (r := .r128) rfl rfl (n := 2) (show 1 < 2 by decide) hs a
  obtain ⟨d, e3, p3⟩ := hop.at a (gather 2 (sel2 1 s1) a a)
  have e4 : (if ext then i_extract c .flt false .r128 0 d else some (Hw.low d)) = some (d.at_ 0) := by
    cases ext
    · rfl
    · exact i_extract64f_eq h (by decide) d
  refine ⟨d.at_ 0, ?_, ?_⟩
  · unfold fred64
    exact (bind_of e2 _).trans ((bind_of e3 _).trans e4)
  · exact ⟨_, _, rfl, rfl, p3 0 (by decide)⟩

end

end Simdpp
