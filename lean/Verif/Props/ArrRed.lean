import Verif.Model.ArrRed
import Verif.Props.MProg
import Verif.Props.ReduceAdd
import Verif.Props.FReduce

/-!
# C60: reductions of arrays
-/

namespace Simdpp
open Spec Spec.Prog Spec.FProg Spec.MProg

variable {N : Nat} {Γ : Nat → ETy} {t : ETy}

/-- The input arrays of a loop over `cnt` elements: `V` arrays, array `x` at address `p x`, aligned to the register of its element type and readable;
element `j` of array `x` is `A x j`. -/
structure ArrIn (c : Cfg) (N : Nat) (Γ : Nat → ETy) (V : Nat) (p : Nat → Nat) (cnt : Nat) (m : Mem) (A : (x : Nat) → Nat → BitVec (Γ x).w) : Prop where
  len : ∀ x, x < V → c.TLen (Γ x) N
  holds : ∀ x, x < V → ∀ j, j < cnt → Holds m.byte (p x + j * ((Γ x).w / 8)) (A x j)
  other : ∀ x, V ≤ x → ∀ j, A x j = 0
  aligned : ∀ x, x < V → p x % (c.regK (Γ x).kind (Γ x).w N).bytes = 0
  block : ∀ x, x < V → m.Block (p x) (cnt * ((Γ x).w / 8))

theorem mkernelStep_eq {c : Cfg} (h : c.Ok) {I : (f : FWd) → Impl f.n} (hI : IsImpls c N I) (E : Est) (J : Junk c N) {V : Nat} (e : MExp Γ t)
    {p : Nat → Nat} {n i : Nat} (hi : i < n) {m : Mem} {A : (x : Nat) → Nat → BitVec (Γ x).w} (H : ArrIn c N Γ V p (n * N) m A)
    (ok : e.Ok c N I (fun (j : Fin (n * N)) x => A x j.val)) :
    mkernelStep c E J V e p i m = some (fun l => e.den I fun x => A x (i * N + l.val)) := by
  have hle : (i + 1) * N ≤ n * N := Nat.mul_le_mul_right _ hi
  have ld : ∀ x, x < V → load c (Γ x).kind (Γ x).w N m (p x + i * (N * ((Γ x).w / 8))) = some (fun l : Fin N => A x (i * N + l.val)) := fun x hx => by
    have l1 := Nat.mul_le_mul_right ((Γ x).w / 8) hle
    refine load_done h (ETy.okW _) (H.len x hx) (w := 0) (q := p x + (i + 1) * N * ((Γ x).w / 8)) (R := fun _ => 0)
      (fun j hj => H.holds x hx j (by omega)) (H.aligned x hx) (fun a g1 g2 => H.block x hx a g1 (by omega)) (Or.inr (Nat.le_refl _))
      ⟨rfl, fun j _ k hk => absurd hk (Nat.not_lt_zero k), fun _ _ => rfl⟩
  have el : loadsM (Γ := Γ) c N p i m V = some (fun x (l : Fin N) => A x (i * N + l.val)) := by
    rw [loadsM_eq _ V ld]
    refine congrArg some (funext fun x => ?_)
    split_ifs with g
    · rfl
    · exact funext fun l => (H.other x (by omega) _).symm
  refine (bind_of el _).trans (MExp.run_eq h hI E J _ e ?_)
  exact MExp.Ok.comp (fun j : Fin N => (⟨i * N + j.val, by have := j.isLt; rw [Nat.add_mul, Nat.one_mul] at hle; omega⟩ : Fin (n * N))) e ok

/-- The two variables of an accumulation. -/
def two {w : Nat} (a b : BitVec w) : Nat → BitVec w := fun x => if x = 0 then a else b

/-- Each lane of the accumulator folds, in order, the results for its own elements (`l`, `N + l`, `2 N + l`, ...), as the scalar loop with the same
expressions would. -/
theorem foldArr_eq {c : Cfg} (h : c.Ok) {I : (f : FWd) → Impl f.n} (hI : IsImpls c N I) (E : Est) (J : Nat → Junk c N) {V : Nat} (e : MExp Γ t)
    {init comb : MExp (fun _ => t) t} (oki : init.Ok c N I (fun (_ : Fin N) _ => 0)) (okc : ∀ ρ : Fin N → Nat → BitVec t.w, comb.Ok c N I ρ)
    {p : Nat → Nat} {n : Nat} {m : Mem} {A : (x : Nat) → Nat → BitVec (Γ x).w} (H : ArrIn c N Γ V p (n * N) m A)
    (ok : e.Ok c N I (fun (j : Fin (n * N)) x => A x j.val)) :
    foldArr c E J V e init comb p n m =
      some (fun l => (List.range n).foldl (fun a i => comb.den I (two a (e.den I fun x => A x (i * N + l.val)))) (init.den I fun _ => 0)) := by
  unfold foldArr
  refine (bind_of (MExp.run_eq h hI E (J 0) _ init oki) _).trans ?_
  refine loopM_of (lo := 0) (m := n)
    (fun k (l : Fin N) => (List.range k).foldl (fun a i => comb.den I (two a (e.den I fun x => A x (i * N + l.val)))) (init.den I fun _ => 0)) fun i hi => ?_
  rw [Nat.zero_add]
  refine (bind_of (mkernelStep_eq h hI E _ e hi H ok) _).trans ?_
  refine (MExp.run_eq h hI E _ _ comb (okc _)).trans (congrArg some (funext fun l => ?_))
  rw [List.range_succ, List.foldl_append]
  refine congrArg (fun ρ => comb.den I ρ) (funext fun x => ?_)
  unfold two
  by_cases g : x = 0
  · rw [if_pos g, if_pos g]
  · rw [if_neg g, if_neg g]

/-- Folds which keep an invariant. -/
theorem foldl_inv {α : Type} {f : α → Nat → α} {a : α} (P : Nat → α → Prop) (h0 : P 0 a) {n : Nat} (hs : ∀ i, i < n → ∀ x, P i x → P (i + 1) (f x i)) :
    P n ((List.range n).foldl f a) := by
  induction n with
  | zero => exact h0
  | succ n ih =>
    rw [List.range_succ, List.foldl_append]
    exact hs n (Nat.lt_succ_self n) _ (ih fun i hi => hs i (by omega))

/-- The elements of `n` vectors of `N` lanes, lane by lane. -/
theorem sum_lanes {M : Type} [AddCommMonoid M] (n N : Nat) (f : Nat → M) :
    ∑ j : Fin (n * N), f j.val = ∑ l : Fin N, ∑ i : Fin n, f (i.val * N + l.val) := by
  rw [Finset.sum_comm, ← Fintype.sum_prod_type']
  refine (Fintype.sum_equiv finProdFinEquiv _ _ fun x => ?_).symm
  show _ = f (x.2.val + N * x.1.val)
  rw [Nat.add_comm, Nat.mul_comm]

theorem lane_add' (w : Nat) (a b : Int) : Spec.lane w a + Spec.lane w b = Spec.lane w (a + b) := (BitVec.ofInt_add ..).symm

theorem lane_sum {w : Nat} {ι : Type} (S : Finset ι) (s : Bool) (f : ι → Int) : Spec.lane w (∑ i ∈ S, val s (Spec.lane w (f i))) = Spec.lane w (∑ i ∈ S, f i) := by
  classical
  induction S using Finset.induction_on with
  | empty => rfl
  | insert a S ha ih => rw [Finset.sum_insert ha, Finset.sum_insert ha, ← lane_add', ← lane_add', ih, lane_val]

theorem blk_lt {n N i l : Nat} (hi : i < n) (hl : l < N) : i * N + l < n * N := by
  have := Nat.mul_le_mul_right N (show i + 1 ≤ n from hi)
  rw [Nat.add_mul, Nat.one_mul] at this
  omega

theorem blk_split {n N : Nat} (j : Fin (n * N)) : ∃ i l, i < n ∧ ∃ h : l < N, j.val = i * N + l := by
  have hN : 0 < N := Nat.pos_of_ne_zero fun g => by
    have := j.isLt
    have e : n * N = 0 := by rw [g, Nat.mul_zero]
    omega
  refine ⟨j.val / N, j.val % N, (Nat.div_lt_iff_lt_mul hN).2 j.isLt, Nat.mod_lt _ hN, ?_⟩
  have := Nat.div_add_mod j.val N
  rw [Nat.mul_comm] at this
  omega

section
variable {c : Cfg} (h : c.Ok)
include h

/-- **C60.** The vectorised sum of an array expression with 32- or 64-bit integer values is the sum over all elements, modulo `2 ^ w`. -/
theorem C60_sum (N : Nat) (E : Est) : ∃ I : (f : FWd) → Impl f.n,
    (∀ f, (I f).Ok ∧ (¬ c.mulByFma f.n (c.regK .flt f.n N) → (I f).mul = Fp.mul)) ∧
    ∀ (Γ : Nat → ETy) (s : Bool) (u : IW) (e : MExp Γ (.int s u)) (J : Nat → Junk c N) (V : Nat) (p : Nat → Nat) (n : Nat) (m : Mem)
      (A : (x : Nat) → Nat → BitVec (Γ x).w), (u = .b32 ∨ u = .b64) → ArrIn c N Γ V p (n * N) m A →
      e.Ok c N I (fun (j : Fin (n * N)) x => A x j.val) →
      sumArr c E J V e p n m = some (Spec.lane u.n (∑ j : Fin (n * N), val s (e.den I fun x => A x j.val))) := by
  obtain ⟨I, h1, h2⟩ := impls_ex h N
  refine ⟨I, h2, fun Γ s u e J V p n m A hu H ok => ?_⟩
  have hl : c.TLen (.int s u) N := ok.len
  have ef := foldArr_eq h h1 E J e (init := accInt s u 0) (comb := accOp s u .add) ⟨hl, nofun, trivial⟩
    (fun ρ => ⟨hl, fun _ => hl, trivial, trivial, trivial⟩) H ok
  refine (bind_of ef _).trans ((C16_reduce_add_wide h s (by rcases hu with e | e <;> subst e <;> [left; right] <;> rfl) hl _).trans (congrArg some ?_))
  have ei : ∀ l : Fin N, (List.range n).foldl (fun a i => (accOp s u .add).den I (two a (e.den I fun x => A x (i * N + l.val)))) ((accInt s u 0).den I fun _ => 0) =
      Spec.lane u.n (∑ i : Fin n, val s (e.den I fun x => A x (i.val * N + l.val))) := fun l => by
    have := foldl_inv (f := fun a i => (accOp s u .add).den I (two a (e.den I fun x => A x (i * N + l.val)))) (a := (accInt s u 0).den I fun _ => 0)
      (fun k a => a = Spec.lane u.n (∑ i ∈ Finset.range k, val s (e.den I fun x => A x (i * N + l.val)))) (by
        show Spec.lane u.n (val s 0#64) = _
        rw [Finset.sum_range_zero]
        congr 1
        cases s <;> rfl) (n := n) (fun i _ a ea => by
        show Spec.lane u.n (val s a + val s (e.den I fun x => A x (i * N + l.val))) = _
        rw [Finset.sum_range_succ, ← lane_add', ← lane_add', ea, lane_val])
    rw [this, ← Fin.sum_univ_eq_sum_range (fun i => val s (e.den I fun x => A x (i * N + l.val)))]
  simp only [ei]
  rw [lane_sum, sum_lanes n N fun j => val s (e.den I fun x => A x j)]

omit h in
theorem extreme_le (isMax s : Bool) (u : IW) (x : BitVec u.n) :
    if isMax then val s (Spec.lane u.n (val s (extreme isMax s u))) ≤ val s x else val s x ≤ val s (Spec.lane u.n (val s (extreme isMax s u))) := by
  have hp : 0 < u.n := by cases u <;> decide
  have hv := val_mem s hp x
  have e : ∀ u : IW, (s = true → val s (Spec.lane u.n (val s (extreme true s u))) = lo s u.n ∧ val s (Spec.lane u.n (val s (extreme false s u))) = hi s u.n) ∧
      (s = false → val s (Spec.lane u.n (val s (extreme true s u))) = lo s u.n ∧ val s (Spec.lane u.n (val s (extreme false s u))) = hi s u.n) := by
    cases s <;> intro u <;> cases u <;> decide +kernel
  have e' : val s (Spec.lane u.n (val s (extreme true s u))) = lo s u.n ∧ val s (Spec.lane u.n (val s (extreme false s u))) = hi s u.n := by
    cases s
    · exact (e u).2 rfl
    · exact (e u).1 rfl
  cases isMax
  · rw [if_neg Bool.false_ne_true, e'.2]; exact hv.2
  · rw [if_pos rfl, e'.1]; exact hv.1

/-- **C60.** The vectorised maximum (minimum) of an array expression with integer values is the value at some element, and none is greater (smaller), for every
element size. The functions `max` and `reduce_max` exist on the build for the element type (C12, C16). -/
theorem C60_extremum (N : Nat) (E : Est) : ∃ I : (f : FWd) → Impl f.n,
    (∀ f, (I f).Ok ∧ (¬ c.mulByFma f.n (c.regK .flt f.n N) → (I f).mul = Fp.mul)) ∧
    ∀ (isMax : Bool) (Γ : Nat → ETy) (s : Bool) (u : IW) (e : MExp Γ (.int s u)) (J : Nat → Junk c N) (V : Nat) (p : Nat → Nat) (n : Nat) (m : Mem)
      (A : (x : Nat) → Nat → BitVec (Γ x).w), minmaxSupported c u.n (c.regK .int u.n N) → mmRedSupported c isMax s u.n N → 0 < n → ArrIn c N Γ V p (n * N) m A →
      e.Ok c N I (fun (j : Fin (n * N)) x => A x j.val) →
      ∃ x, mmArr c isMax E J V e p n m = some x ∧ (∃ j : Fin (n * N), x = e.den I fun x => A x j.val) ∧
        ∀ j : Fin (n * N), if isMax then val s (e.den I fun x => A x j.val) ≤ val s x else val s x ≤ val s (e.den I fun x => A x j.val) := by
  obtain ⟨I, h1, h2⟩ := impls_ex h N
  refine ⟨I, h2, fun isMax Γ s u e J V p n m A hm hS hn H ok => ?_⟩
  have hl : c.TLen (.int s u) N := ok.len
  have hw : IsW u.n := IW.isW u
  have hN : 0 < N := VLen.pos hw hl
  have ef := foldArr_eq h h1 E J e (init := accInt s u (extreme isMax s u)) (comb := accFn s u (if isMax then .max else .min)) ⟨hl, nofun, trivial⟩
    (fun ρ => ⟨hl, fun _ => hl, trivial, trivial, by cases isMax <;> exact hm⟩) H ok
  let z : BitVec u.n := Spec.lane u.n (val s (extreme isMax s u))
  let le : BitVec u.n → BitVec u.n → Prop := fun x y => if isMax then val s x ≤ val s y else val s y ≤ val s x
  have le_refl' : ∀ x, le x x := fun x => by show if _ then _ else _; split_ifs <;> exact Int.le_refl _
  have le_trans' : ∀ x y z, le x y → le y z → le x z := fun x y z => by
    show (if _ then _ else _) → (if _ then _ else _) → if _ then _ else _
    split_ifs <;> omega
  have le_anti : ∀ x y, le x y → le y x → x = y := fun x y => by
    show (if _ then _ else _) → (if _ then _ else _) → _
    split_ifs <;> intro p q <;> exact (val_inj s).1 (by omega)
  have hz : ∀ x, le z x := fun x => extreme_le isMax s u x
  have op : ∀ a b : BitVec u.n, ((accFn s u (if isMax then .max else .min)).den I (two a b) = a ∨ (accFn s u (if isMax then .max else .min)).den I (two a b) = b) ∧
      le a ((accFn s u (if isMax then .max else .min)).den I (two a b)) ∧ le b ((accFn s u (if isMax then .max else .min)).den I (two a b)) := fun a b => by
    have en : ∀ q : Bool, (accFn s u (if q then .max else .min)).den I (two a b) = if q then Spec.lane u.n (max (val s a) (val s b)) else Spec.lane u.n (min (val s a) (val s b)) :=
      fun q => by cases q <;> rfl
    rw [en]
    show _ ∧ (if _ then _ else _) ∧ (if _ then _ else _)
    cases isMax
    · simp only [Bool.false_eq_true, if_false]
      rcases Int.le_total (val s a) (val s b) with g | g
      · rw [Int.min_eq_left g, lane_val]; exact ⟨.inl rfl, Int.le_refl _, g⟩
      · rw [Int.min_eq_right g, lane_val]; exact ⟨.inr rfl, g, Int.le_refl _⟩
    · simp only [if_true]
      rcases Int.le_total (val s a) (val s b) with g | g
      · rw [Int.max_eq_right g, lane_val]; exact ⟨.inr rfl, g, Int.le_refl _⟩
      · rw [Int.max_eq_left g, lane_val]; exact ⟨.inl rfl, Int.le_refl _, g⟩
  generalize hacc : (fun l : Fin N => (List.range n).foldl (fun a i => (accFn s u (if isMax then .max else .min)).den I (two a (e.den I fun x => A x (i * N + l.val))))
    ((accInt s u (extreme isMax s u)).den I fun _ => 0)) = acc at ef
  have inv : ∀ l : Fin N, (acc l = z ∨ ∃ i, i < n ∧ acc l = e.den I fun x => A x (i * N + l.val)) ∧ ∀ i, i < n → le (e.den I fun x => A x (i * N + l.val)) (acc l) := fun l => by
    rw [← hacc]
    refine foldl_inv (fun k (a : BitVec u.n) => (a = z ∨ ∃ i, i < k ∧ a = e.den I fun x => A x (i * N + l.val)) ∧ ∀ i, i < k → le (e.den I fun x => A x (i * N + l.val)) a)
      ⟨.inl rfl, fun i hi => absurd hi (Nat.not_lt_zero i)⟩ fun k _ a ⟨p1, p2⟩ => ?_
    obtain ⟨o1, o2, o3⟩ := op a (e.den I fun x => A x (k * N + l.val))
    refine ⟨?_, fun i hi => ?_⟩
    · rcases o1 with o | o
      · rw [o]
        exact p1.imp id fun ⟨i, g1, g2⟩ => ⟨i, by omega, g2⟩
      · exact .inr ⟨k, Nat.lt_succ_self k, o⟩
    · by_cases g : i = k
      · rw [g]; exact o3
      · exact le_trans' _ _ _ (p2 i (by omega)) o2
  have red : ∃ r, reduce_mm c isMax s acc = some r ∧ (∃ l, r = acc l) ∧ ∀ l, le (acc l) r := by
    show ∃ r, _ ∧ _ ∧ ∀ l, if isMax = true then val s (acc l) ≤ val s r else val s r ≤ val s (acc l)
    cases isMax
    · simpa only [Bool.false_eq_true, if_false] using C16_reduce_min h hw s hl hS acc
    · simpa only [if_true] using C16_reduce_max h hw s hl hS acc
  obtain ⟨r, er, ⟨l0, hl0⟩, hr⟩ := red
  have all : ∀ j : Fin (n * N), le (e.den I fun x => A x j.val) r := fun j => by
    obtain ⟨i, l, hi, hl, ej⟩ := blk_split j
    rw [ej]
    exact le_trans' _ _ _ ((inv ⟨l, hl⟩).2 i hi) (hr ⟨l, hl⟩)
  refine ⟨r, (bind_of ef _).trans er, ?_, all⟩
  rcases (inv l0).1 with g | ⟨i, hi, g⟩
  · refine ⟨⟨0 * N + 0, blk_lt hn hN⟩, le_anti _ _ ?_ (all _)⟩
    rw [hl0, g]
    exact hz _
  · exact ⟨⟨i * N + l0.val, blk_lt hi l0.isLt⟩, hl0.trans g⟩

/-- **C60.** The vectorised bitwise or (and) of an array expression: a bit of the result is set exactly when it is set in some (every) element. -/
theorem C60_bits (N : Nat) (E : Est) : ∃ I : (f : FWd) → Impl f.n,
    (∀ f, (I f).Ok ∧ (¬ c.mulByFma f.n (c.regK .flt f.n N) → (I f).mul = Fp.mul)) ∧
    ∀ (Γ : Nat → ETy) (s : Bool) (u : IW) (e : MExp Γ (.int s u)) (J : Nat → Junk c N) (V : Nat) (p : Nat → Nat) (n : Nat) (m : Mem)
      (A : (x : Nat) → Nat → BitVec (Γ x).w), ArrIn c N Γ V p (n * N) m A → e.Ok c N I (fun (j : Fin (n * N)) x => A x j.val) →
      (∃ x, bitArr c false E J V e p n m = some x ∧ ∀ b, x.getLsbD b = true ↔ ∃ j : Fin (n * N), (e.den I fun x => A x j.val).getLsbD b = true) ∧
      ∃ x, bitArr c true E J V e p n m = some x ∧ ∀ b, b < u.n → (x.getLsbD b = true ↔ ∀ j : Fin (n * N), (e.den I fun x => A x j.val).getLsbD b = true) := by
  obtain ⟨I, h1, h2⟩ := impls_ex h N
  refine ⟨I, h2, fun Γ s u e J V p n m A H ok => ?_⟩
  have hl : c.TLen (.int s u) N := ok.len
  have hw : IsW u.n := IW.isW u
  constructor
  · have ef := foldArr_eq h h1 E J e (init := accInt s u 0) (comb := accOp s u .or) ⟨hl, nofun, trivial⟩ (fun ρ => ⟨hl, fun _ => hl, trivial, trivial, trivial⟩) H ok
    generalize hacc : (fun l : Fin N => (List.range n).foldl (fun a i => (accOp s u .or).den I (two a (e.den I fun x => A x (i * N + l.val))))
      ((accInt s u 0).den I fun _ => 0)) = acc at ef
    obtain ⟨r, er, hr⟩ := C16_reduce_or h hw hl acc
    refine ⟨r, (bind_of ef _).trans er, fun b => ?_⟩
    have inv : ∀ l : Fin N, (acc l).getLsbD b = true ↔ ∃ i, i < n ∧ (e.den I fun x => A x (i * N + l.val)).getLsbD b = true := fun l => by
      rw [← hacc]
      refine foldl_inv (fun k (a : BitVec u.n) => a.getLsbD b = true ↔ ∃ i, i < k ∧ (e.den I fun x => A x (i * N + l.val)).getLsbD b = true) ?_ fun k _ a ih => ?_
      · have e0 : ((accInt s u 0).den I fun _ => 0 : BitVec u.n) = 0#u.n := by
          show Spec.lane u.n (val s 0#64) = _
          cases s <;> cases u <;> decide
        rw [e0, BitVec.getLsbD_zero]
        simp
      · show (a ||| e.den I fun x => A x (k * N + l.val)).getLsbD b = true ↔ _
        rw [BitVec.getLsbD_or, Bool.or_eq_true, ih]
        constructor
        · rintro (⟨i, g1, g2⟩ | g)
          · exact ⟨i, by omega, g2⟩
          · exact ⟨k, Nat.lt_succ_self k, g⟩
        · rintro ⟨i, g1, g2⟩
          by_cases g : i = k
          · exact .inr (g ▸ g2)
          · exact .inl ⟨i, by omega, g2⟩
    rw [hr]
    constructor
    · rintro ⟨l, g⟩
      obtain ⟨i, hi, g⟩ := (inv l).1 g
      exact ⟨⟨_, blk_lt hi l.isLt⟩, g⟩
    · rintro ⟨j, g⟩
      obtain ⟨i, l, hi, hl, ej⟩ := blk_split j
      rw [ej] at g
      exact ⟨⟨l, hl⟩, (inv ⟨l, hl⟩).2 ⟨i, hi, g⟩⟩
  · have ef := foldArr_eq h h1 E J e (init := accInt s u (BitVec.allOnes 64)) (comb := accOp s u .and) ⟨hl, nofun, trivial⟩ (fun ρ => ⟨hl, fun _ => hl, trivial, trivial, trivial⟩) H ok
    generalize hacc : (fun l : Fin N => (List.range n).foldl (fun a i => (accOp s u .and).den I (two a (e.den I fun x => A x (i * N + l.val))))
      ((accInt s u (BitVec.allOnes 64)).den I fun _ => 0)) = acc at ef
    obtain ⟨r, er, hr⟩ := C16_reduce_and h hw hl acc
    refine ⟨r, (bind_of ef _).trans er, fun b hb => ?_⟩
    have inv : ∀ l : Fin N, (acc l).getLsbD b = true ↔ ∀ i, i < n → (e.den I fun x => A x (i * N + l.val)).getLsbD b = true := fun l => by
      rw [← hacc]
      refine foldl_inv (fun k (a : BitVec u.n) => a.getLsbD b = true ↔ ∀ i, i < k → (e.den I fun x => A x (i * N + l.val)).getLsbD b = true) ?_ fun k _ a ih => ?_
      · have e0 : ((accInt s u (BitVec.allOnes 64)).den I fun _ => 0 : BitVec u.n) = BitVec.allOnes u.n := by
          show Spec.lane u.n (val s (BitVec.allOnes 64)) = _
          cases s <;> cases u <;> decide
        rw [e0, BitVec.getLsbD_allOnes, decide_eq_true_eq]
        exact ⟨fun _ i hi => absurd hi (Nat.not_lt_zero i), fun _ => hb⟩
      · show (a &&& e.den I fun x => A x (k * N + l.val)).getLsbD b = true ↔ _
        rw [BitVec.getLsbD_and, Bool.and_eq_true, ih]
        constructor
        · rintro ⟨g1, g2⟩ i hi
          by_cases g : i = k
          · exact g ▸ g2
          · exact g1 i (by omega)
        · intro g
          exact ⟨fun i hi => g i (by omega), g k (Nat.lt_succ_self k)⟩
    rw [hr b hb]
    constructor
    · intro g j
      obtain ⟨i, l, hi, hl, ej⟩ := blk_split j
      rw [ej]
      exact (inv ⟨l, hl⟩).1 (g _) i hi
    · intro g l
      exact (inv l).2 fun i hi => g ⟨_, blk_lt hi l.isLt⟩

/-- **C60.** The vectorised sum of floating-point values which are integers small enough for every partial sum to be exact (the absolute values add up to less than
`2 ^ 24` for `float`, `2 ^ 53` for `double`) is the exact sum, whatever the order of the additions. -/
theorem C60_float_sum_exact (N : Nat) (E : Est) : ∃ I : (f : FWd) → Impl f.n,
    (∀ f, (I f).Ok ∧ (¬ c.mulByFma f.n (c.regK .flt f.n N) → (I f).mul = Fp.mul)) ∧
    ∀ (gnuc : Bool) (Γ : Nat → ETy) (f : FWd) (e : MExp Γ (.flt f)) (J : Nat → Junk c N) (V : Nat) (p : Nat → Nat) (n : Nat) (m : Mem)
      (A : (x : Nat) → Nat → BitVec (Γ x).w) (z : Nat → Int), ArrIn c N Γ V p (n * N) m A →
      e.Ok c N I (fun (j : Fin (n * N)) x => A x j.val) →
      (∀ j : Fin (n * N), Fp.isFinite (e.den I fun x => A x j.val) = true ∧ Fp.num (e.den I fun x => A x j.val) = z j * 2 ^ Fp.unit f.n) →
      (∑ j : Fin (n * N), (z j).natAbs < 2 ^ Fp.prec f.n) →
      ∃ x, fsumArr c gnuc E J V e p n m = some x ∧ Fp.isFinite x = true ∧ Fp.num x = (∑ j : Fin (n * N), z j) * 2 ^ Fp.unit f.n := by
  obtain ⟨I, h1, h2⟩ := impls_ex h N
  refine ⟨I, h2, fun gnuc Γ f e J V p n m A z H ok hz hs => ?_⟩
  have hl : c.TLen (.flt f) N := ok.len
  have hw : Fp.FW f.n := FWd.okW f
  have ef := foldArr_eq h h1 E J e (init := accNum f 0) (comb := accFlt f .add) ⟨hl, nofun, trivial⟩
    (fun ρ => ⟨hl, fun _ => hl, trivial, trivial, trivial⟩) H ok
  generalize hacc : (fun l : Fin N => (List.range n).foldl (fun a i => (accFlt f .add).den I (two a (e.den I fun x => A x (i * N + l.val))))
    ((accNum f 0).den I fun _ => 0)) = acc at ef
  rw [sum_lanes n N fun j => (z j).natAbs] at hs
  have hs' : ∀ l : Fin N, ∑ i : Fin n, (z (i.val * N + l.val)).natAbs < 2 ^ Fp.prec f.n := fun l =>
    Nat.lt_of_le_of_lt (Finset.single_le_sum (f := fun l : Fin N => ∑ i : Fin n, (z (i.val * N + l.val)).natAbs) (fun _ _ => Nat.zero_le _) (Finset.mem_univ l)) hs
  have nab : ∀ (k l : Nat), (∑ i ∈ Finset.range k, z (i * N + l)).natAbs ≤ ∑ i ∈ Finset.range k, (z (i * N + l)).natAbs := fun k l => by
    induction k with
    | zero => simp
    | succ k ih => rw [Finset.sum_range_succ, Finset.sum_range_succ]; omega
  have inv : ∀ l : Fin N, Fp.IsInt (acc l) (∑ i : Fin n, z (i.val * N + l.val)) := fun l => by
    rw [← hacc, Fin.sum_univ_eq_sum_range (fun i => z (i * N + l.val))]
    refine foldl_inv (fun k (a : BitVec f.n) => Fp.IsInt a (∑ i ∈ Finset.range k, z (i * N + l.val))) ?_ fun k hk a ih => ?_
    · rw [Finset.sum_range_zero]
      cases f
      · exact (by decide +kernel : Fp.isFinite 0#32 = true ∧ Fp.num 0#32 = 0 * 2 ^ Fp.unit 32)
      · exact (by decide +kernel : Fp.isFinite 0#64 = true ∧ Fp.num 0#64 = 0 * 2 ^ Fp.unit 64)
    · rw [Finset.sum_range_succ]
      refine isInt_add hw ih (hz ⟨_, blk_lt hk l.isLt⟩) ?_
      have q1 := nab (k + 1) l.val
      rw [Finset.sum_range_succ] at q1
      have q2 := hs' l
      rw [Fin.sum_univ_eq_sum_range (fun i => (z (i * N + l.val)).natAbs)] at q2
      have q3 : ∑ i ∈ Finset.range (k + 1), (z (i * N + l.val)).natAbs ≤ ∑ i ∈ Finset.range n, (z (i * N + l.val)).natAbs :=
        Finset.sum_le_sum_of_subset (Finset.range_mono hk)
      omega
  have hs2 : (List.ofFn fun l : Fin N => (∑ i : Fin n, z (i.val * N + l.val)).natAbs).sum < 2 ^ Fp.prec f.n := by
    rw [List.sum_ofFn]
    refine Nat.lt_of_le_of_lt (Finset.sum_le_sum fun l _ => ?_) hs
    rw [Fin.sum_univ_eq_sum_range (fun i => z (i * N + l.val)), Fin.sum_univ_eq_sum_range (fun i => (z (i * N + l.val)).natAbs)]
    exact nab n l.val
  have fin : ∃ x, fredAdd c gnuc f acc = some x ∧ Fp.IsInt x (List.ofFn fun l : Fin N => ∑ i : Fin n, z (i.val * N + l.val)).sum := by
    cases f
    · exact (C48_reduce_add_exact h).1 gnuc N hl acc _ inv hs2
    · exact (C48_reduce_add_exact h).2 N hl acc _ inv hs2
  obtain ⟨x, ex, hx⟩ := fin
  rw [List.sum_ofFn, ← sum_lanes n N z] at hx
  exact ⟨x, (bind_of ef _).trans ex, hx⟩

/-- **C60.** The vectorised maximum (minimum) of floating-point values without NaN is the value at some element, and none is greater (smaller). -/
theorem C60_float_extremum (N : Nat) (E : Est) : ∃ I : (f : FWd) → Impl f.n,
    (∀ f, (I f).Ok ∧ (¬ c.mulByFma f.n (c.regK .flt f.n N) → (I f).mul = Fp.mul)) ∧
    ∀ (gnuc isMax : Bool) (Γ : Nat → ETy) (f : FWd) (e : MExp Γ (.flt f)) (J : Nat → Junk c N) (V : Nat) (p : Nat → Nat) (n : Nat) (m : Mem)
      (A : (x : Nat) → Nat → BitVec (Γ x).w), 0 < n → ArrIn c N Γ V p (n * N) m A →
      e.Ok c N I (fun (j : Fin (n * N)) x => A x j.val) → (∀ j : Fin (n * N), Flt.isNaN (e.den I fun x => A x j.val) = false) →
      ∃ x, fmmArr c gnuc isMax E J V e p n m = some x ∧ (∃ j : Fin (n * N), x = e.den I fun x => A x j.val) ∧
        ∀ j : Fin (n * N), (if isMax then Flt.fge x (e.den I fun x => A x j.val) else Flt.fle x (e.den I fun x => A x j.val)) = true := by
  obtain ⟨I, h1, h2⟩ := impls_ex h N
  refine ⟨I, h2, fun gnuc isMax Γ f e J V p n m A hn H ok hz => ?_⟩
  have hl : c.TLen (.flt f) N := ok.len
  have hw : Fp.FW f.n := FWd.okW f
  have hN : 0 < N := VLen.pos (Kind.okW.isW (k := .flt) hw) (FLen.toVLen h hw hl)
  have ef := foldArr_eq h h1 E J e (init := accNum f (Fp.mk f.n isMax (Flt.infBits f.n))) (comb := accFlt f (if isMax then .max else .min)) ⟨hl, nofun, trivial⟩
    (fun ρ => ⟨hl, fun _ => hl, trivial, trivial, by cases isMax <;> trivial⟩) H ok
  let z : BitVec f.n := Fp.mk f.n isMax (Flt.infBits f.n)
  have hinf : Flt.infBits f.n < 2 ^ (f.n - 1) := by cases f <;> decide
  have zm : Flt.mag z = Flt.infBits f.n := Fp.mk_mag hw hinf
  have zs : z.msb = isMax := Fp.mk_msb hw hinf
  have zn : Flt.isNaN z = false := by unfold Flt.isNaN; rw [zm]; simp
  let le : BitVec f.n → BitVec f.n → Prop := fun x y => if isMax then Flt.key x ≤ Flt.key y else Flt.key y ≤ Flt.key x
  have le_trans' : ∀ x y z, le x y → le y z → le x z := fun x y z => by
    show (if _ then _ else _) → (if _ then _ else _) → if _ then _ else _
    split_ifs <;> omega
  have hz0 : ∀ x, Flt.isNaN x = false → le z x ∧ (le x z → x = z) := fun x nx => by
    have nm : Flt.mag x ≤ Flt.infBits f.n := by simpa [Flt.isNaN] using nx
    show (if _ then _ else _) ∧ ((if _ then _ else _) → _)
    have kz : Flt.key z = if isMax then -(Flt.infBits f.n : Int) else (Flt.infBits f.n : Int) := by unfold Flt.key; rw [zs, zm]
    have kx : Flt.key x = if x.msb then -(Flt.mag x : Int) else (Flt.mag x : Int) := rfl
    have hpos : 0 < Flt.infBits f.n := by cases f <;> decide
    rw [kz, kx]
    cases isMax <;> cases hx : x.msb <;> simp only [Bool.false_eq_true, if_false, if_true]
    · exact ⟨by omega, fun g => Fp.ext_sm hw (hx.trans zs.symm) (by rw [zm]; omega)⟩
    · exact ⟨by omega, fun g => by omega⟩
    · exact ⟨by omega, fun g => by omega⟩
    · exact ⟨by omega, fun g => Fp.ext_sm hw (hx.trans zs.symm) (by rw [zm]; omega)⟩
  have op : ∀ a b : BitVec f.n, Flt.isNaN a = false → Flt.isNaN b = false →
      ((accFlt f (if isMax then .max else .min)).den I (two a b) = a ∨ (accFlt f (if isMax then .max else .min)).den I (two a b) = b) ∧
      le a ((accFlt f (if isMax then .max else .min)).den I (two a b)) ∧ le b ((accFlt f (if isMax then .max else .min)).den I (two a b)) := fun a b na nb => by
    have ho : Flt.ordered a b = true := by unfold Flt.ordered; rw [na, nb]; rfl
    have en : ∀ q : Bool, (accFlt f (if q then .max else .min)).den I (two a b) = if q then (I f).max a b else (I f).min a b := fun q => by cases q <;> rfl
    rw [en]
    show _ ∧ (if _ then _ else _) ∧ (if _ then _ else _)
    cases isMax
    · simp only [Bool.false_eq_true, if_false]
      obtain ⟨g1, g2, g3⟩ := (h2 f).1.min a b ho
      simp only [Flt.fle, Bool.and_eq_true, decide_eq_true_eq] at g2 g3
      exact ⟨g1, g2.2, g3.2⟩
    · simp only [if_true]
      obtain ⟨g1, g2, g3⟩ := (h2 f).1.max a b ho
      simp only [Flt.fge, Flt.fle, Bool.and_eq_true, decide_eq_true_eq] at g2 g3
      exact ⟨g1, g2.2, g3.2⟩
  generalize hacc : (fun l : Fin N => (List.range n).foldl (fun a i => (accFlt f (if isMax then .max else .min)).den I (two a (e.den I fun x => A x (i * N + l.val))))
    ((accNum f (Fp.mk f.n isMax (Flt.infBits f.n))).den I fun _ => 0)) = acc at ef
  have inv : ∀ l : Fin N, Flt.isNaN (acc l) = false ∧ (acc l = z ∨ ∃ i, i < n ∧ acc l = e.den I fun x => A x (i * N + l.val)) ∧
      ∀ i, i < n → le (e.den I fun x => A x (i * N + l.val)) (acc l) := fun l => by
    rw [← hacc]
    refine foldl_inv (fun k (a : BitVec f.n) => Flt.isNaN a = false ∧ (a = z ∨ ∃ i, i < k ∧ a = e.den I fun x => A x (i * N + l.val)) ∧
      ∀ i, i < k → le (e.den I fun x => A x (i * N + l.val)) a) ⟨zn, .inl rfl, fun i hi => absurd hi (Nat.not_lt_zero i)⟩ fun k hk a ⟨pn, p1, p2⟩ => ?_
    have nk := hz ⟨_, blk_lt hk l.isLt⟩
    obtain ⟨o1, o2, o3⟩ := op a (e.den I fun x => A x (k * N + l.val)) pn nk
    refine ⟨?_, ?_, fun i hi => ?_⟩
    · rcases o1 with o | o
      · rw [o]; exact pn
      · rw [o]; exact nk
    · rcases o1 with o | o
      · rw [o]
        exact p1.imp id fun ⟨i, g1, g2⟩ => ⟨i, by omega, g2⟩
      · exact .inr ⟨k, Nat.lt_succ_self k, o⟩
    · by_cases g : i = k
      · rw [g]; exact o3
      · exact le_trans' _ _ _ (p2 i (by omega)) o2
  have red : ∃ r, fredMM c gnuc isMax f acc = some r ∧ (∃ l, r = acc l) ∧ ∀ l, le (acc l) r := by
    have key : ∃ r, fredMM c gnuc isMax f acc = some r ∧ (∃ l, r = acc l) ∧ ∀ l, (if isMax then Flt.fge r (acc l) else Flt.fle r (acc l)) = true := by
      cases f <;> cases isMax
      · exact (C48_reduce_min h).1 gnuc N hl acc fun l => (inv l).1
      · exact (C48_reduce_max h).1 gnuc N hl acc fun l => (inv l).1
      · exact (C48_reduce_min h).2 N hl acc fun l => (inv l).1
      · exact (C48_reduce_max h).2 N hl acc fun l => (inv l).1
    obtain ⟨r, er, hr, hall⟩ := key
    refine ⟨r, er, hr, fun l => ?_⟩
    have q := hall l
    show if _ then _ else _
    split_ifs at q ⊢ <;> simp only [Flt.fge, Flt.fle, Bool.and_eq_true, decide_eq_true_eq] at q <;> exact q.2
  obtain ⟨r, er, ⟨l0, hl0⟩, hr⟩ := red
  have nr : Flt.isNaN r = false := hl0 ▸ (inv l0).1
  have all : ∀ j : Fin (n * N), le (e.den I fun x => A x j.val) r := fun j => by
    obtain ⟨i, l, hi, hl, ej⟩ := blk_split j
    rw [ej]
    exact le_trans' _ _ _ ((inv ⟨l, hl⟩).2.2 i hi) (hr ⟨l, hl⟩)
  refine ⟨r, (bind_of ef _).trans er, ?_, fun j => ?_⟩
  · rcases (inv l0).2.1 with g | ⟨i, hi, g⟩
    · refine ⟨⟨0 * N + 0, blk_lt hn hN⟩, ?_⟩
      have q := all ⟨0 * N + 0, blk_lt hn hN⟩
      rw [hl0, g] at q ⊢
      exact ((hz0 _ (hz ⟨0 * N + 0, blk_lt hn hN⟩)).2 q).symm
    · exact ⟨⟨i * N + l0.val, blk_lt hi l0.isLt⟩, hl0.trans g⟩
  · have q : if _ then _ else _ := all j
    have nj := hz j
    split_ifs at q ⊢ <;> simp only [Flt.fge, Flt.fle, Flt.ordered, nr, nj, Bool.not_false, Bool.and_self, Bool.true_and, decide_eq_true_eq] <;> exact q

end

/-! ## Instances -/

/-- `to_int32(a) * to_int32(b)` for `int16` vectors. -/
def dotSample : MExp (fun _ => .int true .b16) (.int true .b32) :=
  .ints 2 (fun _ => true) (.op2 .mul (.var 0) (.var 1)) fun x => .conv (.int true .b32) (.var x.val)

theorem dotSample_ok {c : Cfg} (hN : c.VLen 16 N) (hN' : c.VLen 32 N) (I : (f : FWd) → Impl f.n) {ι : Type} (ρ : ι → Nat → BitVec 16) : dotSample.Ok c N I ρ :=
  ⟨hN', fun _ => ⟨hN, hN', by show ¬ ConvBroken c 16 32 N; unfold ConvBroken; simp, fun _ => trivial⟩, trivial, trivial, .inr rfl⟩

/-- **C60**, an instance: the dot product of two `int16` arrays with 32-bit products and sums is the integer dot product modulo `2 ^ 32`. -/
theorem C60_dot {c : Cfg} (h : c.Ok) (hN : c.VLen 16 N) (hN' : c.VLen 32 N) (E : Est) (J : Nat → Junk c N) {p : Nat → Nat} {n : Nat} {m : Mem} {A : Nat → Nat → BitVec 16}
    (H : ArrIn c N (fun _ => .int true .b16) 2 p (n * N) m A) :
    sumArr c E J 2 dotSample p n m = some (Spec.lane 32 (∑ j : Fin (n * N), (A 0 j.val).toInt * (A 1 j.val).toInt)) := by
  obtain ⟨I, -, run⟩ := C60_sum h N E
  refine (run _ _ _ dotSample J 2 p n m A (.inl rfl) H (dotSample_ok hN hN' _ _)).trans (congrArg some ?_)
  have e : ∀ x y : BitVec 16, val true (Spec.lane 32 (val true (Spec.lane 32 (val true x)) * val true (Spec.lane 32 (val true y)))) = x.toInt * y.toInt := fun x y => by
    have b : ∀ x : BitVec 16, -32768 ≤ x.toInt ∧ x.toInt ≤ 32767 := fun x => ⟨BitVec.le_toInt x, by have := BitVec.toInt_lt (x := x); omega⟩
    have v : ∀ x : BitVec 16, val true (Spec.lane 32 (val true x)) = x.toInt := fun x =>
      val_lane_of_range (s := true) (by decide) (by show (-2147483648 : Int) ≤ x.toInt; have := b x; omega) (by show x.toInt ≤ (2147483647 : Int); have := b x; omega)
    rw [v, v]
    have hx := b x
    have hy := b y
    exact val_lane_of_range (s := true) (by decide) (by show (-2147483648 : Int) ≤ _; nlinarith) (by show _ ≤ (2147483647 : Int); nlinarith)
  exact congrArg _ (Finset.sum_congr rfl fun j _ => e _ _)

/-- `1 & (a < b)`, or another relation: one where the relation holds, zero elsewhere. -/
def countSample (s : Bool) (u : IW) (R : Rel) : MExp (fun _ => .int s u) (.int s u) :=
  .ints 2 (fun _ => s) (.andm (.lit s 1) (.cmp R (.var 0) (.var 1))) fun x => .var x.val

/-- **C60**, an instance: `acc += 1 & (a < b)` counts the elements for which the relation holds, in 32- and 64-bit lanes, modulo `2 ^ w`. -/
theorem C60_count {c : Cfg} (h : c.Ok) {s : Bool} {u : IW} (hu : u = .b32 ∨ u = .b64) (hN : c.VLen u.n N) (R : Rel) (hR : cmpSupported c R u.n (c.regK .int u.n N))
    (E : Est) (J : Nat → Junk c N) {p : Nat → Nat} {n : Nat} {m : Mem} {A : Nat → Nat → BitVec u.n} (H : ArrIn c N (fun _ => .int s u) 2 p (n * N) m A) :
    sumArr c E J 2 (countSample s u R) p n m =
      some (Spec.lane u.n ((Finset.univ.filter fun j : Fin (n * N) => R.onInt (val s (A 0 j.val)) (val s (A 1 j.val)) = true).card : Int)) := by
  obtain ⟨I, -, run⟩ := C60_sum h N E
  refine (run _ _ _ (countSample s u R) J 2 p n m A hu H ⟨hN, fun _ => hN, trivial, trivial, trivial, hR⟩).trans (congrArg some (congrArg _ ?_))
  have e1 : val s (Spec.lane u.n (val s 1#64)) = 1 := by cases s <;> cases u <;> decide
  have e0 : val s 0#u.n = 0 := by cases s <;> cases u <;> decide
  rw [Finset.card_filter, Nat.cast_sum]
  refine Finset.sum_congr rfl fun j _ => ?_
  show val s (selL (R.onInt (val s (A 0 j.val)) (val s (A 1 j.val))) (Spec.lane u.n (val s 1#64)) 0#u.n) = _
  unfold selL
  split_ifs
  · exact e1
  · exact e0

/-- The hypotheses are met: two `int32` arrays of twelve elements on SSE2. -/
example (m : Mem) (hm : ∀ a, m.ok a = true) (E : Est) (J : Nat → Junk Cfg.sse2Only 4) :
    sumArr Cfg.sse2Only E J 2 (countSample true .b32 .lt) (fun x => 64 + x * 64) 3 m =
      some (Spec.lane 32 ((Finset.univ.filter fun j : Fin (3 * 4) =>
        Rel.lt.onInt (((m.get 32 1 (64 + j.val * 4)).at_ 0).toInt) (((m.get 32 1 (128 + j.val * 4)).at_ 0).toInt) = true).card : Int)) := by
  have hH : ∀ a, Holds m.byte a ((m.get 32 1 a).at_ 0) := fun a => by
    have := Mem.get_holds (n := 1) iw32 m a 0
    rwa [Fin.val_zero, Nat.zero_mul, Nat.add_zero] at this
  exact C60_count (N := 4) Cfg.sse2Only_ok (u := .b32) (.inl rfl) (Or.inl ⟨.r128, by decide +kernel, by decide +kernel⟩) .lt ⟨by decide, fun g => absurd g (by decide)⟩ E J
    (A := fun x j => if x < 2 then (m.get 32 1 (64 + x * 64 + j * 4)).at_ 0 else 0)
    ⟨fun _ _ => Or.inl ⟨.r128, by decide +kernel, by decide +kernel⟩, fun x hx j _ => Eq.mpr (congrArg (Holds (w := 32) m.byte (64 + x * 64 + j * 4)) (if_pos hx)) (hH _), fun x hx j => if_neg (by omega),
      fun x hx => by
        have : Reg.bytes (Cfg.sse2Only.regK .int 32 4) = 16 := by decide +kernel
        show (64 + x * 64) % Reg.bytes (Cfg.sse2Only.regK .int 32 4) = 0
        rw [this]; omega, fun _ _ _ _ _ => hm _⟩

end Simdpp
