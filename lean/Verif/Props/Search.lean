import Verif.Model.Search
import Verif.Props.Kernel
import Verif.Props.FProg
import Verif.Props.ExtractBits

/-!
# C72: searching an array
-/

namespace Simdpp
open Spec Spec.Prog

variable {w N : Nat}

theorem condV_eq {c : Cfg} (h : c.Ok) (hw : IsW w) (hN : c.VLen w N) {sg : Nat → Bool} (e : Exp sg .mask) (jv : Nat → Vec w ((c.regK .int w N).lanes w))
    (jm : Nat → Mask w ((c.regK .int w N).lanes w)) (env : Nat → Vec w N) (ok : e.Ok c (c.regK .int w N) (fun (j : Fin N) x => env x j)) :
    condV c w N jv jm e env = some (fun j => maskLane w (e.den fun x => env x j)) := by
  obtain ⟨hr, K, -, eN⟩ := KLen.regs h (k := .int) hw hN
  unfold condV condR
  generalize c.regK .int w N = r at *
  have hL := lanes_pos hw r
  have eK : N / r.lanes w = K := by rw [eN, Nat.mul_div_cancel _ hL]
  have idx : ∀ (k : Fin (N / r.lanes w)) (l : Fin (r.lanes w)), k.val * r.lanes w + l.val < N := fun k l => by
    have h1 : k.val < K := eK ▸ k.isLt
    have h2 := l.isLt
    have := Nat.mul_le_mul_right (r.lanes w) (show k.val + 1 ≤ K from h1)
    rw [← eN, Nat.add_mul, Nat.one_mul] at this
    omega
  have ep : ∀ x (k : Fin (N / r.lanes w)) (l : Fin (r.lanes w)),
      Hw.part (r.lanes w) k.val (env x) l = env x ⟨k.val * r.lanes w + l.val, idx k l⟩ := fun x k l => Vec.at_lt _ (idx k l)
  rw [Exp.run_eq h hw hr rfl _ _ _ e]
  · show catM (r.lanes w) _ = _
    refine catM_regs hL eN fun j hj => ?_
    rw [dif_pos (eK.symm ▸ hj)]
    refine congrArg some (funext fun l => ?_)
    refine (congrFun (Mask.unmask_of ..) l).trans ?_
    show _ = Vec.at_ _ _
    rw [Vec.at_lt _ (idx ⟨j, eK.symm ▸ hj⟩ l)]
    exact congrArg (fun f => maskLane w (e.den f)) (funext fun x => ep x ⟨j, eK.symm ▸ hj⟩ l)
  · have : (fun (j : Fin (N / r.lanes w) × Fin (r.lanes w)) x => Hw.part (r.lanes w) j.1.val (env x) j.2) =
        fun j x => env x ⟨j.1.val * r.lanes w + j.2.val, idx j.1 j.2⟩ := funext fun j => funext fun x => ep x j.1 j.2
    rw [this]
    exact Exp.Ok.comp (fun j : Fin (N / r.lanes w) × Fin (r.lanes w) => (⟨j.1.val * r.lanes w + j.2.val, idx j.1 j.2⟩ : Fin N)) e ok

/-- The loop stops at the first hit; a step has to be defined only if there is no hit before it. -/
theorem scanM_first {α : Type} {stp : Nat → Option (Option α)} {g : Nat → Option α} : (n i : Nat) →
    (∀ k, i ≤ k → k < i + n → (∀ l, i ≤ l → l < k → g l = none) → stp k = some (g k)) →
    ∃ r, scanM stp i n = some r ∧ (r = none → ∀ k, i ≤ k → k < i + n → g k = none) ∧
      ∀ a, r = some a → ∃ k, i ≤ k ∧ k < i + n ∧ g k = some a ∧ ∀ l, i ≤ l → l < k → g l = none
  | 0, i, _ => ⟨none, rfl, fun _ k h1 h2 => absurd h2 (by omega), fun a ha => nomatch ha⟩
  | n + 1, i, hs => by
    have h0 := hs i (Nat.le_refl _) (by omega) fun l h1 h2 => absurd h2 (by omega)
    cases hg : g i with
    | some a =>
      refine ⟨some a, ?_, ?_, ?_⟩
      · unfold scanM
        rw [h0, hg]; rfl
      · intro h; cases h
      · intro b hb
        exact ⟨i, Nat.le_refl _, by omega, hg.trans hb, fun l h1 h2 => absurd h2 (by omega)⟩
    | none =>
      have ext : ∀ {k}, (∀ l, i + 1 ≤ l → l < k → g l = none) → ∀ l, i ≤ l → l < k → g l = none := fun hl l h1 h2 => by
        rcases Nat.eq_or_lt_of_le h1 with e | e
        · exact e ▸ hg
        · exact hl l e h2
      obtain ⟨r, e, r1, r2⟩ := scanM_first n (i + 1) fun k h1 h2 h3 => hs k (by omega) (by omega) (ext h3)
      refine ⟨r, ?_, fun hr => fun k h1 h2 => ?_, fun a ha => ?_⟩
      · unfold scanM
        rw [h0, hg]; exact e
      · rcases Nat.eq_or_lt_of_le h1 with e | e
        · exact e ▸ hg
        · exact r1 hr k e (by omega)
      · obtain ⟨k, k1, k2, k3, k4⟩ := r2 a ha
        exact ⟨k, by omega, by omega, k3, ext k4⟩

theorem ctz_spec (b : Nat) (hb : b ≠ 0) : b.testBit (ctz b) = true ∧ ∀ j, j < ctz b → b.testBit j = false := by
  induction b using Nat.strongRecOn with
  | ind b ih =>
    unfold ctz
    rw [dif_neg hb]
    split_ifs with h1
    · exact ⟨by rw [Nat.testBit_zero]; simpa using h1, fun j hj => absurd hj (by omega)⟩
    · obtain ⟨i1, i2⟩ := ih (b / 2) (by omega) (by omega)
      refine ⟨by rw [Nat.testBit_succ]; exact i1, fun j hj => ?_⟩
      cases j with
      | zero => rw [Nat.testBit_zero]; simpa using h1
      | succ j => rw [Nat.testBit_succ]; exact i2 j (by omega)

/-- The vector of conditions in step `i`. -/
theorem cond_step {c : Cfg} (h : c.Ok) (hw : IsW w) (hN : c.VLen w N) {sg : Nat → Bool} (e : Exp sg .mask) {V : Nat} {p : Nat → Nat} (m : Mem) {A : Nat → Nat → BitVec w}
    (jv : Nat → Vec w ((c.regK .int w N).lanes w)) (jm : Nat → Mask w ((c.regK .int w N).lanes w)) {S : Nat}
    (hA : ∀ x, x < V → ∀ j, j < S * N → Holds m.byte (p x + j * (w / 8)) (A x j)) (hV : ∀ x, V ≤ x → ∀ j, A x j = 0)
    (hp : ∀ x, x < V → p x % (c.regK .int w N).bytes = 0) (hb : ∀ x, x < V → m.Block (p x) (S * N * (w / 8)))
    (ok : e.Ok c (c.regK .int w N) (fun (j : Fin (S * N)) x => A x j.val)) (i : Nat) (hi : i < S) :
    kernelStep c .int w N V (condV c w N jv jm e) p i m = some (fun l : Fin N => maskLane w (e.den fun x => A x (i * N + l.val))) := by
  have hle := Nat.mul_le_mul_right N (show i + 1 ≤ S from hi)
  have hle' := Nat.mul_le_mul_right (w / 8) hle
  have hx : ∀ a, ∃ x : BitVec w, Holds m.byte a x := fun a => ⟨_, by
    have := Mem.get_holds (n := 1) hw m a 0
    simpa using this⟩
  choose X hX using hx
  obtain ⟨res, e1, e2⟩ := kernelStep_eq h (k := .int) hw hN (ev := condV c w N jv jm e) (F := fun ρ y => y = maskLane w (e.den ρ))
    (G := fun env => e.Ok c (c.regK .int w N) (fun (j : Fin N) x => env x j)) (fun env g => ⟨_, condV_eq h hw hN e jv jm env g, fun _ => rfl⟩)
    (V := V) (p := p) (q := 0) (i := i) (m := m) (m' := m) (A := A) (fun x hx j hj => hA x hx j (by omega)) hV hp (fun x hx a g1 g2 => hb x hx a g1 (by omega))
    (fun x _ => Or.inl (Nat.zero_le _))
    (Exp.Ok.comp (fun j : Fin N => (⟨i * N + j.val, by have := j.isLt; rw [Nat.add_mul, Nat.one_mul] at hle; omega⟩ : Fin (S * N))) e ok)
    (R := fun j => X (0 + j * (w / 8))) ⟨rfl, fun j _ => hX _, fun _ _ => rfl⟩
  rw [e1]
  exact congrArg some (funext e2)

/-- The loop with `extract_bits_any`, given the vector of conditions of each step. -/
theorem find_core {c : Cfg} (h : c.Ok) {k : Kind} (hE : ExtractLen w N) (hc : c.ExtractOk w N) {Q : Nat → Bool} {V : Nat} {p : Nat → Nat} {cnt : Nat}
    {m : Mem} {ev : (Nat → Vec w N) → Option (Vec w N)} {S : Nat} (hS : (cnt + (N - 1)) / N ≤ S ∨ ∃ j, j < S * N ∧ Q j = true)
    (hst : ∀ i, i < S → kernelStep c k w N V ev p i m = some (fun l : Fin N => maskLane w (Q (i * N + l.val)))) :
    ∃ r, findFirst c k w N V ev p cnt m = some r ∧ IsFirst Q cnt r := by
  have hN0 : 0 < N := by
    obtain ⟨-, g⟩ := hE
    rcases Nat.eq_zero_or_pos N with e | e
    · subst e; omega
    · exact e
  have hx : ∀ i, ∃ b, (i < S → extract_bits_any c w N (fun l : Fin N => maskLane w (Q (i * N + l.val))) = some b ∧ b < 2 ^ N ∧
      ∀ l : Fin N, b.testBit l = Q (i * N + l.val)) := fun i => by
    obtain ⟨b, h1, h2, h3⟩ := C31_extract_bits_any_mask h hE hc (fun l => Q (i * N + l.val)) _ (fun l => rfl)
    exact ⟨b, fun _ => ⟨h1, h2, h3⟩⟩
  choose B hB using hx
  obtain ⟨r, e1, r1, r2⟩ := scanM_first (g := fun i => if B i = 0 then none else some (i * N + ctz (B i))) ((cnt + (N - 1)) / N) 0
    (stp := fun i => do
      let v ← kernelStep c k w N V ev p i m
      let b ← extract_bits_any c w N v
      some (if b = 0 then none else some (i * N + ctz b))) fun t _ hk hl => by
    have hkS : t < S := by
      rcases hS with g | ⟨j, hj, ej⟩
      · omega
      · by_contra g
        have h1 : j / N < S := (Nat.div_lt_iff_lt_mul hN0).2 hj
        have h2 := hl (j / N) (Nat.zero_le _) (by omega)
        have h3 := (hB _ h1).2.2 ⟨j % N, Nat.mod_lt _ hN0⟩
        dsimp only at h2 h3
        rw [Nat.div_add_mod', ej] at h3
        split_ifs at h2 with h4
        rw [h4] at h3
        simp at h3
    rw [hst t hkS]
    show (extract_bits_any c w N _ >>= _) = _
    rw [(hB t hkS).1]
    rfl
  have none_of : ∀ i, i < S → B i = 0 → ∀ l, l < N → Q (i * N + l) = false := fun i hi h0 l hl => by
    have := (hB i hi).2.2 ⟨l, hl⟩
    rw [h0, Nat.zero_testBit] at this
    exact this.symm
  unfold findFirst
  rw [e1]
  cases r with
  | none =>
    refine ⟨cnt, rfl, Nat.le_refl _, fun j hj => ?_, fun g => absurd g (by omega)⟩
    have hjn : j / N < (cnt + (N - 1)) / N := by
      rw [Nat.div_lt_iff_lt_mul hN0]
      have := Nat.div_add_mod' (cnt + (N - 1)) N
      have := Nat.mod_lt (cnt + (N - 1)) hN0
      omega
    have hall := r1 rfl
    have hz : ∀ k, k < (cnt + (N - 1)) / N → B k = 0 := fun k hk => by
      have := hall k (Nat.zero_le _) (by omega)
      split_ifs at this with g
      exact g
    have hjS : j / N < S := by
      rcases hS with g | ⟨j', hj', ej'⟩
      · omega
      · by_contra g
        have h1 : j' / N < S := (Nat.div_lt_iff_lt_mul hN0).2 hj'
        have := none_of _ h1 (hz _ (by omega)) _ (Nat.mod_lt j' hN0)
        rw [Nat.div_add_mod', ej'] at this
        exact Bool.noConfusion this
    have := none_of _ hjS (hz _ hjn) _ (Nat.mod_lt j hN0)
    rwa [Nat.div_add_mod'] at this
  | some a =>
    obtain ⟨k, -, hk, ek, hl⟩ := r2 a rfl
    have hz : ∀ l, l < k → B l = 0 := fun l hl' => by
      have := hl l (Nat.zero_le _) hl'
      split_ifs at this with g
      exact g
    have hkS : k < S := by
      rcases hS with g | ⟨j', hj', ej'⟩
      · omega
      · by_contra g
        have h1 : j' / N < S := (Nat.div_lt_iff_lt_mul hN0).2 hj'
        have := none_of _ h1 (hz _ (by omega)) _ (Nat.mod_lt j' hN0)
        rw [Nat.div_add_mod', ej'] at this
        exact Bool.noConfusion this
    split_ifs at ek with g
    have ea : a = k * N + ctz (B k) := (Option.some.inj ek).symm
    obtain ⟨c1, c2⟩ := ctz_spec (B k) g
    have hcl : ctz (B k) < N := by
      by_contra g'
      have := Nat.testBit_lt_two_pow (x := B k) (i := ctz (B k)) (Nat.lt_of_lt_of_le (hB k hkS).2.1 (Nat.pow_le_pow_right (by decide) (by omega)))
      rw [c1] at this
      exact Bool.noConfusion this
    refine ⟨min a cnt, rfl, Nat.min_le_right _ _, fun j hj => ?_, fun hlt => ?_⟩
    · have hja : j < k * N + ctz (B k) := by omega
      by_cases g2 : j < k * N
      · have h1 : j / N < k := (Nat.div_lt_iff_lt_mul hN0).2 g2
        have := none_of _ (by omega) (hz _ h1) _ (Nat.mod_lt j hN0)
        rwa [Nat.div_add_mod'] at this
      · have h1 := (hB k hkS).2.2 ⟨j - k * N, by omega⟩
        dsimp only at h1
        rw [c2 _ (by omega), show k * N + (j - k * N) = j by omega] at h1
        exact h1.symm
    · have : min a cnt = k * N + ctz (B k) := by omega
      rw [this]
      exact ((hB k hkS).2.2 ⟨_, hcl⟩).symm.trans c1

/-- **C72.** The loop returns the position of the first element which satisfies the condition, for any condition, element count, content and build; only the vectors up to the
one with that element have to be readable (`S` vectors are, and they are all or there is such an element among them). -/
theorem C72_find {c : Cfg} (h : c.Ok) (hN : c.VLen w N) (hE : ExtractLen w N) (hc : c.ExtractOk w N) {sg : Nat → Bool} (e : Exp sg .mask) {V : Nat} {p : Nat → Nat} {cnt : Nat}
    (m : Mem) {A : Nat → Nat → BitVec w} (jv : Nat → Vec w ((c.regK .int w N).lanes w)) (jm : Nat → Mask w ((c.regK .int w N).lanes w)) {S : Nat}
    (hS : (cnt + (N - 1)) / N ≤ S ∨ ∃ j, j < S * N ∧ e.den (fun x => A x j) = true)
    (hA : ∀ x, x < V → ∀ j, j < S * N → Holds m.byte (p x + j * (w / 8)) (A x j)) (hV : ∀ x, V ≤ x → ∀ j, A x j = 0)
    (hp : ∀ x, x < V → p x % (c.regK .int w N).bytes = 0) (hb : ∀ x, x < V → m.Block (p x) (S * N * (w / 8)))
    (ok : e.Ok c (c.regK .int w N) (fun (j : Fin (S * N)) x => A x j.val)) :
    ∃ r, findFirst c .int w N V (condV c w N jv jm e) p cnt m = some r ∧ IsFirst (fun j => e.den fun x => A x j) cnt r :=
  find_core h hE hc hS (cond_step h hE.1 hN e m jv jm hA hV hp hb ok)

theorem test_any_mask {c : Cfg} (h : c.Ok) {k : Kind} (okW : k.okW w) (hN : c.KLen k w N) (f : Fin N → Bool) : test_any c k (fun l => maskLane w (f l)) = some (decide (∃ l, f l = true)) := by
  obtain ⟨hr, K, hK, eN⟩ := KLen.regs h okW hN
  have hw := Kind.okW.isW okW
  unfold test_any
  generalize c.regK k w N = r at *
  have hL := lanes_pos hw r
  rw [show N / r.lanes w = K from by rw [eN, Nat.mul_div_cancel _ hL]]
  obtain ⟨K, rfl⟩ : ∃ k, K = k + 1 := ⟨K - 1, by omega⟩
  have hs : r = .r128 → w * r.lanes w = 128 := fun e => by
    subst e
    rcases hw with e | e | e | e <;> subst e <;> rfl
  obtain ⟨b, e1, e2⟩ := C15_test_bits_any_long h okW hr hs (fun k : Fin (K + 1) => Hw.part (r.lanes w) k.val (fun l => maskLane w (f l) : Vec w N))
  refine e1.trans (congrArg some (Bool.eq_iff_iff.2 (e2.trans (Iff.trans ⟨?_, ?_⟩ (decide_eq_true_iff).symm))))
  · rintro ⟨k, l, t, ht⟩
    have hi : k.val * r.lanes w + l.val < N := by
      have := Nat.mul_le_mul_right (r.lanes w) (show k.val + 1 ≤ K + 1 from k.isLt)
      rw [← eN, Nat.add_mul, Nat.one_mul] at this
      have := l.isLt
      omega
    have e : Hw.part (r.lanes w) k.val (fun l => maskLane w (f l) : Vec w N) l = maskLane w (f ⟨_, hi⟩) := Vec.at_lt _ hi
    rw [e] at ht
    refine ⟨⟨_, hi⟩, ?_⟩
    cases hf : f ⟨_, hi⟩ with
    | true => rfl
    | false => rw [hf] at ht; simp [maskLane] at ht
  · rintro ⟨l, hl⟩
    have hk : l.val / r.lanes w < K + 1 := (Nat.div_lt_iff_lt_mul hL).2 (eN ▸ l.isLt)
    refine ⟨⟨_, hk⟩, ⟨l.val % r.lanes w, Nat.mod_lt _ hL⟩, 0, ?_⟩
    have hi : l.val / r.lanes w * r.lanes w + l.val % r.lanes w < N := by rw [Nat.div_add_mod']; exact l.isLt
    have e : Hw.part (r.lanes w) (l.val / r.lanes w) (fun l => maskLane w (f l) : Vec w N) ⟨l.val % r.lanes w, Nat.mod_lt _ hL⟩ = maskLane w (f ⟨_, hi⟩) :=
      Vec.at_lt _ hi
    dsimp only
    rw [e]
    have e' : (⟨_, hi⟩ : Fin N) = l := Fin.ext (Nat.div_add_mod' _ _)
    rw [e', hl]
    have h0 : 0 < w := by rcases hw with e | e | e | e <;> subst e <;> decide
    simp [maskLane, h0]

/-- The loop with `test_bits_any`, given the vector of conditions of each step. -/
theorem find_vector_core {c : Cfg} (h : c.Ok) {k : Kind} (okW : k.okW w) (hN : c.KLen k w N) {P : Nat → Bool} {V : Nat} {p : Nat → Nat} {n : Nat}
    {m : Mem} {ev : (Nat → Vec w N) → Option (Vec w N)} {S : Nat} (hS : n ≤ S ∨ ∃ j, j < S * N ∧ P j = true)
    (hst : ∀ i, i < S → kernelStep c k w N V ev p i m = some (fun l : Fin N => maskLane w (P (i * N + l.val)))) :
    ∃ r, findBlock c k w N V ev p n m = some r ∧ IsFirst (fun i => decide (∃ l, l < N ∧ P (i * N + l) = true)) n r := by
  have hN0 : 0 < N := by
    obtain ⟨-, K, hK, eN⟩ := KLen.regs h okW hN
    rw [eN]
    exact Nat.mul_pos hK (lanes_pos (Kind.okW.isW okW) _)
  let Q : Nat → Bool := fun i => decide (∃ l, l < N ∧ P (i * N + l) = true)
  have hQ : ∀ i, decide (∃ l : Fin N, P (i * N + l.val) = true) = Q i := fun i =>
    decide_eq_decide.2 ⟨fun ⟨l, hl⟩ => ⟨l.val, l.isLt, hl⟩, fun ⟨l, hl, g⟩ => ⟨⟨l, hl⟩, g⟩⟩
  have ofj : ∀ j, P j = true → Q (j / N) = true := fun j hj =>
    decide_eq_true_iff.2 ⟨j % N, Nat.mod_lt _ hN0, by rw [Nat.div_add_mod']; exact hj⟩
  obtain ⟨r, e1, r1, r2⟩ := scanM_first (g := fun i => if Q i then some i else none) n 0
    (stp := fun i => do
      let v ← kernelStep c k w N V ev p i m
      let b ← test_any c k v
      some (if b then some i else none)) fun t _ hk hl => by
    have hkS : t < S := by
      rcases hS with g | ⟨j, hj, ej⟩
      · omega
      · by_contra g
        have h1 : j / N < S := (Nat.div_lt_iff_lt_mul hN0).2 hj
        have h2 := hl (j / N) (Nat.zero_le _) (by omega)
        rw [if_pos (ofj j ej)] at h2
        cases h2
    rw [hst t hkS]
    show (test_any c k _ >>= _) = _
    rw [test_any_mask h okW hN, hQ]
    rfl
  unfold findBlock
  rw [e1]
  cases r with
  | none =>
    refine ⟨n, rfl, Nat.le_refl _, fun j hj => ?_, fun g => absurd g (by omega)⟩
    have := r1 rfl j (Nat.zero_le _) (by omega)
    show Q j = false
    split_ifs at this with g
    exact Bool.eq_false_iff.2 g
  | some a =>
    obtain ⟨k, -, hk, ek, hl⟩ := r2 a rfl
    split_ifs at ek with g
    obtain rfl : k = a := Option.some.inj ek
    refine ⟨k, rfl, by omega, fun j hj => ?_, fun _ => g⟩
    have := hl j (Nat.zero_le _) hj
    show Q j = false
    split_ifs at this with g
    exact Bool.eq_false_iff.2 g

/-- **C72** with `test_bits_any`, for vectors of any length: the loop returns the number of the first vector with an element which satisfies the condition. -/
theorem C72_find_vector {c : Cfg} (h : c.Ok) (hw : IsW w) (hN : c.VLen w N) {sg : Nat → Bool} (e : Exp sg .mask) {V : Nat} {p : Nat → Nat} {n : Nat}
    (m : Mem) {A : Nat → Nat → BitVec w} (jv : Nat → Vec w ((c.regK .int w N).lanes w)) (jm : Nat → Mask w ((c.regK .int w N).lanes w)) {S : Nat}
    (hS : n ≤ S ∨ ∃ j, j < S * N ∧ e.den (fun x => A x j) = true)
    (hA : ∀ x, x < V → ∀ j, j < S * N → Holds m.byte (p x + j * (w / 8)) (A x j)) (hV : ∀ x, V ≤ x → ∀ j, A x j = 0)
    (hp : ∀ x, x < V → p x % (c.regK .int w N).bytes = 0) (hb : ∀ x, x < V → m.Block (p x) (S * N * (w / 8)))
    (ok : e.Ok c (c.regK .int w N) (fun (j : Fin (S * N)) x => A x j.val)) :
    ∃ r, findBlock c .int w N V (condV c w N jv jm e) p n m = some r ∧ IsFirst (fun i => decide (∃ l, l < N ∧ e.den (fun x => A x (i * N + l)) = true)) n r :=
  find_vector_core h (k := .int) hw hN hS (cond_step h hw hN e m jv jm hA hV hp hb ok)

/-- `a == v` on unsigned bytes -/
def eqE (v : BitVec 8) : Exp (fun _ => false) .mask := .cmp .eq (.var 0) (.lit false (v.setWidth 64))

theorem eqE_den (v : BitVec 8) (ρ : Nat → BitVec 8) : (eqE v).den ρ = decide (ρ 0 = v) := by
  have e : Spec.lane 8 (val false (v.setWidth 64)) = v := by
    show BitVec.ofInt 8 ((v.setWidth 64).toNat : Int) = v
    rw [BitVec.ofInt_natCast, BitVec.toNat_setWidth, Nat.mod_eq_of_lt (Nat.lt_of_lt_of_le v.isLt (by decide)), BitVec.ofNat_toNat, BitVec.setWidth_eq]
  show decide (val false (ρ 0) = val false (Spec.lane 8 (val false (v.setWidth 64)))) = _
  rw [e]
  refine decide_eq_decide.2 ⟨fun g => BitVec.eq_of_toNat_eq (Int.ofNat.inj g), fun g => g ▸ rfl⟩

/-- **C72**, an instance: `memchr`. The loop returns the position of the first byte equal to `v` (or `cnt`), if the pointer is aligned, for every length, content and build; `S`
vectors are readable, and they either cover the `cnt` bytes or contain such a byte. -/
theorem C72_memchr {c : Cfg} (h : c.Ok) (hx : ¬ (c.xop = true ∧ c.avx512vl = true)) (v : BitVec 8) {p cnt : Nat} (m : Mem)
    (jv : Nat → Vec 8 ((c.regK .int 8 16).lanes 8)) (jm : Nat → Mask 8 ((c.regK .int 8 16).lanes 8)) {S : Nat}
    (hS : (cnt + 15) / 16 ≤ S ∨ ∃ j, j < S * 16 ∧ m.byte (p + j) = v) (hp : p % 16 = 0) (hb : m.Block p (S * 16)) :
    ∃ r, findFirst c .int 8 16 1 (condV c 8 16 jv jm (eqE v)) (fun _ => p) cnt m = some r ∧ IsFirst (fun j => decide (m.byte (p + j) = v)) cnt r := by
  obtain ⟨r, e1, e2⟩ := C72_find (w := 8) (N := 16) h (Or.inl ⟨.r128, rfl, rfl⟩) ⟨Or.inl rfl, Or.inl rfl⟩ ⟨fun g => absurd g (by decide), fun g => absurd g (by decide)⟩
    (eqE v) (V := 1) (p := fun _ => p) (cnt := cnt) m (A := fun x j => if x = 0 then m.byte (p + j) else 0) jv jm (S := S)
    (hS.imp id fun ⟨j, hj, e⟩ => ⟨j, hj, by rw [eqE_den, if_pos rfl]; exact decide_eq_true_iff.2 e⟩)
    (fun x hx j _ t ht => by
      obtain rfl : x = 0 := by omega
      obtain rfl : t = 0 := by omega
      rw [if_pos rfl]
      show m.byte (p + j * 1 + 0) = _
      rw [Nat.mul_one, Nat.add_zero]
      refine BitVec.eq_of_getLsbD_eq fun k hk => ?_
      simp [byteOf])
    (fun x hx j => if_neg (by omega))
    (fun x _ => by
      have hB : (c.regK .int 8 16).bytes = 16 := by
        show (c.regOf 8 (Reg.r128.lanes 8)).bytes = 16
        unfold Cfg.regOf
        rw [if_pos rfl]
        rfl
      rw [hB]
      exact hp)
    (fun x _ => by simpa using hb)
    (Exp.simple_ok hx _ _ _ rfl)
  refine ⟨r, e1, ?_⟩
  have : (fun j => (eqE v).den fun x => if x = 0 then m.byte (p + j) else 0) = fun j => decide (m.byte (p + j) = v) := funext fun j => by rw [eqE_den, if_pos rfl]
  rwa [this] at e2

/-- **C72**, an instance: `strlen`. The string at the aligned address `p` has `len` characters; nothing behind the vector with the terminator has to be readable, and the limit
`cnt` of the loop may be arbitrarily large. -/
theorem C72_strlen {c : Cfg} (h : c.Ok) (hx : ¬ (c.xop = true ∧ c.avx512vl = true)) {p len cnt : Nat} (m : Mem)
    (jv : Nat → Vec 8 ((c.regK .int 8 16).lanes 8)) (jm : Nat → Mask 8 ((c.regK .int 8 16).lanes 8))
    (hs : ∀ j, j < len → m.byte (p + j) ≠ 0) (hz : m.byte (p + len) = 0) (hl : len ≤ cnt) (hp : p % 16 = 0) (hb : m.Block p ((len / 16 + 1) * 16)) :
    findFirst c .int 8 16 1 (condV c 8 16 jv jm (eqE 0)) (fun _ => p) cnt m = some len := by
  obtain ⟨r, e1, e2⟩ := C72_memchr h hx 0 (p := p) (cnt := cnt) m jv jm (S := len / 16 + 1) (Or.inr ⟨len, by omega, hz⟩) hp hb
  rw [e1]
  exact congrArg some (e2.unique ⟨hl, fun j hj => decide_eq_false (hs j hj), fun _ => decide_eq_true hz⟩)

/-- `a != b` on unsigned bytes -/
def neE : Exp (fun _ => false) .mask := .cmp .ne (.var 0) (.var 1)

/-- **C72**, an instance: `memcmp` / `std::mismatch`. The loop returns the first position at which two arrays of bytes differ (or `cnt`), so they are equal exactly if it returns
`cnt`, for every length, content and build; nothing behind the vector with the difference has to be readable. -/
theorem C72_mismatch {c : Cfg} (h : c.Ok) (hx : ¬ (c.xop = true ∧ c.avx512vl = true)) {p q cnt : Nat} (m : Mem)
    (jv : Nat → Vec 8 ((c.regK .int 8 16).lanes 8)) (jm : Nat → Mask 8 ((c.regK .int 8 16).lanes 8)) {S : Nat}
    (hS : (cnt + 15) / 16 ≤ S ∨ ∃ j, j < S * 16 ∧ m.byte (p + j) ≠ m.byte (q + j)) (hp : p % 16 = 0) (hq : q % 16 = 0) (hb : m.Block p (S * 16)) (hbq : m.Block q (S * 16)) :
    ∃ r, findFirst c .int 8 16 2 (condV c 8 16 jv jm neE) (fun x => if x = 0 then p else q) cnt m = some r ∧
      IsFirst (fun j => decide (m.byte (p + j) ≠ m.byte (q + j))) cnt r ∧ (r = cnt ↔ ∀ j, j < cnt → m.byte (p + j) = m.byte (q + j)) := by
  have hd : ∀ ρ : Nat → BitVec 8, neE.den ρ = decide (ρ 0 ≠ ρ 1) := fun ρ => by
    show decide (val false (ρ 0) ≠ val false (ρ 1)) = _
    exact decide_eq_decide.2 (not_congr ⟨fun g => BitVec.eq_of_toNat_eq (Int.ofNat.inj g), fun g => by rw [g]⟩)
  obtain ⟨r, e1, e2⟩ := C72_find (w := 8) (N := 16) h (Or.inl ⟨.r128, rfl, rfl⟩) ⟨Or.inl rfl, Or.inl rfl⟩ ⟨fun g => absurd g (by decide), fun g => absurd g (by decide)⟩
    neE (V := 2) (p := fun x => if x = 0 then p else q) (cnt := cnt) m (A := fun x j => if x = 0 then m.byte (p + j) else if x = 1 then m.byte (q + j) else 0) jv jm (S := S)
    (hS.imp id fun ⟨j, hj, e⟩ => ⟨j, hj, by rw [hd]; exact decide_eq_true_iff.2 e⟩)
    (fun x hx j _ t ht => by
      obtain rfl : t = 0 := by omega
      have e8 : ∀ y : BitVec 8, byteOf y 0 = y := fun y => BitVec.eq_of_getLsbD_eq fun k hk => by simp [byteOf]
      rw [e8]
      show m.byte ((if x = 0 then p else q) + j * 1 + 0) = _
      rw [Nat.mul_one, Nat.add_zero]
      obtain rfl | rfl : x = 0 ∨ x = 1 := by omega
      · rfl
      · rfl)
    (fun x hx j => by rw [if_neg (by omega), if_neg (by omega)])
    (fun x _ => by
      have hB : (c.regK .int 8 16).bytes = 16 := by
        show (c.regOf 8 (Reg.r128.lanes 8)).bytes = 16
        unfold Cfg.regOf
        rw [if_pos rfl]
        rfl
      rw [hB]
      split_ifs
      · exact hp
      · exact hq)
    (fun x _ => by
      split_ifs
      · simpa using hb
      · simpa using hbq)
    (Exp.simple_ok hx _ _ _ rfl)
  have ef : (fun j => neE.den fun x => if x = 0 then m.byte (p + j) else if x = 1 then m.byte (q + j) else 0) = fun j => decide (m.byte (p + j) ≠ m.byte (q + j)) :=
    funext fun j => hd _
  rw [ef] at e2
  refine ⟨r, e1, e2, fun g j hj => ?_, fun g => ?_⟩
  · exact not_not.1 (of_decide_eq_false (e2.before j (g ▸ hj)))
  · by_contra g'
    have hlt := Nat.lt_of_le_of_ne e2.le g'
    exact of_decide_eq_true (e2.here hlt) (g r hlt)

/-- **C72**, two builds: both find the same position. -/
theorem C72_portable {c c' : Cfg} (h : c.Ok) (h' : c'.Ok) (hx : ¬ (c.xop = true ∧ c.avx512vl = true)) (hx' : ¬ (c'.xop = true ∧ c'.avx512vl = true)) (v : BitVec 8) {p cnt : Nat}
    (m : Mem) (jv : Nat → Vec 8 ((c.regK .int 8 16).lanes 8)) (jm : Nat → Mask 8 ((c.regK .int 8 16).lanes 8))
    (jv' : Nat → Vec 8 ((c'.regK .int 8 16).lanes 8)) (jm' : Nat → Mask 8 ((c'.regK .int 8 16).lanes 8)) {S : Nat}
    (hS : (cnt + 15) / 16 ≤ S ∨ ∃ j, j < S * 16 ∧ m.byte (p + j) = v) (hp : p % 16 = 0) (hb : m.Block p (S * 16)) :
    ∃ r, findFirst c .int 8 16 1 (condV c 8 16 jv jm (eqE v)) (fun _ => p) cnt m = some r ∧
      findFirst c' .int 8 16 1 (condV c' 8 16 jv' jm' (eqE v)) (fun _ => p) cnt m = some r := by
  obtain ⟨r, e1, e2⟩ := C72_memchr h hx v (p := p) (cnt := cnt) m jv jm hS hp hb
  obtain ⟨r', e1', e2'⟩ := C72_memchr h' hx' v (p := p) (cnt := cnt) m jv' jm' hS hp hb
  exact ⟨r, e1, e2.unique e2' ▸ e1'⟩

/-! ### Floating-point conditions -/

section
open Spec.FProg

theorem condFR_eq {c : Cfg} (h : c.Ok) (hw : w = 32 ∨ w = 64) {r : Reg} (hr : c.hasVec .flt w r = true) {K : Nat} (eN : N = K * r.lanes w) {I : Impl w} (hI : IsImpl c r I)
    (E : Est) (e : FExp w .mask) (jv : Nat → Vec w (r.lanes w)) (jm : Nat → Mask w (r.lanes w)) (env : Nat → Vec w N) (ok : e.Ok c r) :
    condFR c E r jv jm e env = some (fun j => maskLane w (e.den I fun x => env x j)) := by
  unfold condFR
  have hL := lanes_pos (Kind.okW.isW (k := .flt) hw) r
  have eK : N / r.lanes w = K := by rw [eN, Nat.mul_div_cancel _ hL]
  have idx : ∀ (k : Fin (N / r.lanes w)) (l : Fin (r.lanes w)), k.val * r.lanes w + l.val < N := fun k l => by
    have h1 : k.val < K := eK ▸ k.isLt
    have h2 := l.isLt
    have := Nat.mul_le_mul_right (r.lanes w) (show k.val + 1 ≤ K from h1)
    rw [← eN, Nat.add_mul, Nat.one_mul] at this
    omega
  have ep : ∀ x (k : Fin (N / r.lanes w)) (l : Fin (r.lanes w)),
      Hw.part (r.lanes w) k.val (env x) l = env x ⟨k.val * r.lanes w + l.val, idx k l⟩ := fun x k l => Vec.at_lt _ (idx k l)
  rw [FExp.run_eq h hw hr hI E rfl _ _ _ e ok]
  show catM (r.lanes w) _ = _
  refine catM_regs hL eN fun j hj => ?_
  rw [dif_pos (eK.symm ▸ hj)]
  refine congrArg some (funext fun l => ?_)
  refine (congrFun (Mask.unmask_of ..) l).trans ?_
  show _ = Vec.at_ _ _
  rw [Vec.at_lt _ (idx ⟨j, eK.symm ▸ hj⟩ l)]
  exact congrArg (fun f => maskLane w (e.den I f)) (funext fun x => ep x ⟨j, eK.symm ▸ hj⟩ l)

theorem condF_step {c : Cfg} (h : c.Ok) (hw : w = 32 ∨ w = 64) (hN : c.FLen w N) {I : Impl w} (hI : IsImpl c (c.regK .flt w N) I) (E : Est) (e : FExp w .mask) {V : Nat}
    {p : Nat → Nat} (m : Mem) {A : Nat → Nat → BitVec w} (jv : Nat → Vec w ((c.regK .flt w N).lanes w)) (jm : Nat → Mask w ((c.regK .flt w N).lanes w)) {S : Nat}
    (hA : ∀ x, x < V → ∀ j, j < S * N → Holds m.byte (p x + j * (w / 8)) (A x j)) (hV : ∀ x, V ≤ x → ∀ j, A x j = 0)
    (hp : ∀ x, x < V → p x % (c.regK .flt w N).bytes = 0) (hb : ∀ x, x < V → m.Block (p x) (S * N * (w / 8)))
    (ok : e.Ok c (c.regK .flt w N)) (i : Nat) (hi : i < S) :
    kernelStep c .flt w N V (condF c E w N jv jm e) p i m = some (fun l : Fin N => maskLane w (e.den I fun x => A x (i * N + l.val))) := by
  have hle := Nat.mul_le_mul_right N (show i + 1 ≤ S from hi)
  have hle' := Nat.mul_le_mul_right (w / 8) hle
  have hx : ∀ a, ∃ x : BitVec w, Holds m.byte a x := fun a => ⟨_, by
    have := Mem.get_holds (n := 1) (Kind.okW.isW (k := .flt) hw) m a 0
    simpa using this⟩
  choose X hX using hx
  obtain ⟨hr, K, -, eN⟩ := KLen.regs h (k := .flt) hw hN
  obtain ⟨res, e1, e2⟩ := kernelStep_eq h (k := .flt) hw hN (ev := condF c E w N jv jm e) (F := fun ρ y => y = maskLane w (e.den I ρ))
    (G := fun _ => True) (fun env _ => ⟨_, condFR_eq h hw hr eN hI E e jv jm env ok, fun _ => rfl⟩)
    (V := V) (p := p) (q := 0) (i := i) (m := m) (m' := m) (A := A) (fun x hx j hj => hA x hx j (by omega)) hV hp (fun x hx a g1 g2 => hb x hx a g1 (by omega))
    (fun x _ => Or.inl (Nat.zero_le _)) trivial (R := fun j => X (0 + j * (w / 8))) ⟨rfl, fun j _ => hX _, fun _ _ => rfl⟩
  rw [e1]
  exact congrArg some (funext e2)

/-- **C72** for arrays of `float` and `double`: the first element which satisfies the condition (first vector, with `test_bits_any`), where the build makes one choice `I` of what
IEEE 754 leaves open (see C56). -/
theorem C72_find_flt {c : Cfg} (h : c.Ok) (hw : w = 32 ∨ w = 64) (hN : c.FLen w N) (E : Est) : ∃ I : Impl w, I.Ok ∧ (¬ c.mulByFma w (c.regK .flt w N) → I.mul = Fp.mul) ∧
    ∀ (e : FExp w .mask) {V : Nat} {p : Nat → Nat} {cnt : Nat} (m : Mem) {A : Nat → Nat → BitVec w} (jv : Nat → Vec w ((c.regK .flt w N).lanes w))
      (jm : Nat → Mask w ((c.regK .flt w N).lanes w)) {S : Nat},
      (∀ x, x < V → ∀ j, j < S * N → Holds m.byte (p x + j * (w / 8)) (A x j)) → (∀ x, V ≤ x → ∀ j, A x j = 0) →
      (∀ x, x < V → p x % (c.regK .flt w N).bytes = 0) → (∀ x, x < V → m.Block (p x) (S * N * (w / 8))) → e.Ok c (c.regK .flt w N) →
      (ExtractLen w N → c.ExtractOk w N → ((cnt + (N - 1)) / N ≤ S ∨ ∃ j, j < S * N ∧ e.den I (fun x => A x j) = true) →
        ∃ r, findFirst c .flt w N V (condF c E w N jv jm e) p cnt m = some r ∧ IsFirst (fun j => e.den I fun x => A x j) cnt r) ∧
      ∀ n, (n ≤ S ∨ ∃ j, j < S * N ∧ e.den I (fun x => A x j) = true) →
        ∃ r, findBlock c .flt w N V (condF c E w N jv jm e) p n m = some r ∧
          IsFirst (fun i => decide (∃ l, l < N ∧ e.den I (fun x => A x (i * N + l)) = true)) n r := by
  obtain ⟨hr, K, -, eN⟩ := KLen.regs h (k := .flt) hw hN
  obtain ⟨I, h1, h2, h3⟩ := impl_ex h hw hr
  refine ⟨I, h2, h3, fun e V p cnt m A jv jm S hA hV hp hb ok => ⟨fun hE hc hS => ?_, fun n hS => ?_⟩⟩
  · exact find_core h hE hc hS (condF_step h hw hN h1 E e m jv jm hA hV hp hb ok)
  · exact find_vector_core h (k := .flt) hw hN hS (condF_step h hw hN h1 E e m jv jm hA hV hp hb ok)

/-- **C72**, two builds: a condition without `min` and `max` on `float` or `double` arrays, on builds other than AltiVec without VSX, gives the same position. -/
theorem C72_portable_flt {c c' : Cfg} (h : c.Ok) (h' : c'.Ok) (hw : w = 32 ∨ w = 64) (hN : c.FLen w N) (hN' : c'.FLen w N) (hE : ExtractLen w N) (hc : c.ExtractOk w N)
    (hc' : c'.ExtractOk w N) (hm : ¬ c.mulByFma w (c.regK .flt w N)) (hm' : ¬ c'.mulByFma w (c'.regK .flt w N)) (E E' : Est) (e : FExp w .mask) (he : e.noMinMax = true)
    {V : Nat} {p : Nat → Nat} {cnt : Nat} (m : Mem) {A : Nat → Nat → BitVec w} (jv : Nat → Vec w ((c.regK .flt w N).lanes w))
    (jm : Nat → Mask w ((c.regK .flt w N).lanes w)) (jv' : Nat → Vec w ((c'.regK .flt w N).lanes w)) (jm' : Nat → Mask w ((c'.regK .flt w N).lanes w)) {S : Nat}
    (hS : (cnt + (N - 1)) / N ≤ S ∨ ∃ j, j < S * N ∧ e.den ieee (fun x => A x j) = true)
    (hA : ∀ x, x < V → ∀ j, j < S * N → Holds m.byte (p x + j * (w / 8)) (A x j)) (hV : ∀ x, V ≤ x → ∀ j, A x j = 0)
    (hp : ∀ x, x < V → p x % (c.regK .flt w N).bytes = 0) (hp' : ∀ x, x < V → p x % (c'.regK .flt w N).bytes = 0) (hb : ∀ x, x < V → m.Block (p x) (S * N * (w / 8)))
    (ok : e.Ok c (c.regK .flt w N)) (ok' : e.Ok c' (c'.regK .flt w N)) :
    ∃ r, findFirst c .flt w N V (condF c E w N jv jm e) p cnt m = some r ∧ findFirst c' .flt w N V (condF c' E' w N jv' jm' e) p cnt m = some r ∧
      IsFirst (fun j => e.den ieee fun x => A x j) cnt r := by
  obtain ⟨I, -, i2, i3⟩ := C72_find_flt h hw hN E
  obtain ⟨J, -, j2, j3⟩ := C72_find_flt h' hw hN' E'
  have eI : ∀ ρ, e.den I ρ = e.den ieee ρ := fun ρ => FExp.den_congr (J := ieee) (i2 hm) ρ e he
  have eJ : ∀ ρ, e.den J ρ = e.den ieee ρ := fun ρ => FExp.den_congr (J := ieee) (j2 hm') ρ e he
  obtain ⟨r, r1, r2⟩ := (i3 e (cnt := cnt) m jv jm hA hV hp hb ok).1 hE hc (by simpa only [eI] using hS)
  obtain ⟨t, t1, t2⟩ := (j3 e (cnt := cnt) m jv' jm' hA hV hp' hb ok').1 hE hc' (by simpa only [eJ] using hS)
  simp only [eI] at r2
  simp only [eJ] at t2
  exact ⟨r, r1, r2.unique t2 ▸ t1, r2⟩

end

/-! ### Concrete cases -/

/-- A string of 20 characters at address 64 of which only the bytes 64 to 95 are readable. -/
def strMem : Mem := ⟨fun a => decide (64 ≤ a ∧ a < 96), fun a => if a < 84 then 65 else 0⟩

example (jv : Nat → Vec 8 ((Cfg.sse2Only.regK .int 8 16).lanes 8)) (jm : Nat → Mask 8 ((Cfg.sse2Only.regK .int 8 16).lanes 8)) :
    findFirst Cfg.sse2Only .int 8 16 1 (condV Cfg.sse2Only 8 16 jv jm (eqE 0)) (fun _ => 64) 1000000 strMem = some 20 :=
  C72_strlen Cfg.sse2Only_ok (by decide) (len := 20) strMem jv jm (fun j hj => by
    show (if 64 + j < 84 then 65 else 0 : BitVec 8) ≠ 0
    rw [if_pos (by omega)]
    decide) rfl (by decide) rfl fun x h1 h2 => decide_eq_true ⟨h1, by omega⟩

example (jv : Nat → Vec 8 ((Cfg.neonA64.regK .int 8 16).lanes 8)) (jm : Nat → Mask 8 ((Cfg.neonA64.regK .int 8 16).lanes 8)) :
    ∃ r, findFirst Cfg.neonA64 .int 8 16 1 (condV Cfg.neonA64 8 16 jv jm (eqE 66)) (fun _ => 64) 30 strMem = some r ∧ r = 30 := by
  obtain ⟨r, e, f⟩ := C72_memchr Cfg.neonA64_ok (by decide) 66 (p := 64) (cnt := 30) strMem jv jm (S := 2) (Or.inl (by decide)) rfl
    fun x h1 h2 => decide_eq_true ⟨h1, by omega⟩
  refine ⟨r, e, f.unique ⟨Nat.le_refl _, fun j _ => decide_eq_false ?_, fun g => absurd g (by decide)⟩⟩
  show (if 64 + j < 84 then 65 else 0 : BitVec 8) ≠ 66
  split_ifs <;> decide

/-- The first `x < y` in two arrays of 22 `float`, on SSE2 (two registers) and AVX (one register). -/
example (E E' : Est) (m : Mem) (hm : ∀ a, m.ok a = true) (A : Nat → Nat → BitVec 32) (hA : ∀ x, x < 2 → ∀ j, j < 3 * 8 → Holds m.byte (1024 + 512 * x + j * 4) (A x j))
    (hV : ∀ x, 2 ≤ x → ∀ j, A x j = 0) (jv jm jv' jm') :
    ∃ r, findFirst Cfg.sse2Only .flt 32 8 2 (condF Cfg.sse2Only E 32 8 jv jm (.cmp .lt (.var 0) (.var 1))) (fun x => 1024 + 512 * x) 22 m = some r ∧
      findFirst Cfg.avxOnly .flt 32 8 2 (condF Cfg.avxOnly E' 32 8 jv' jm' (.cmp .lt (.var 0) (.var 1))) (fun x => 1024 + 512 * x) 22 m = some r ∧
      IsFirst (fun j => Rel.onFlt .lt (A 0 j) (A 1 j)) 22 r :=
  C72_portable_flt (w := 32) (N := 8) Cfg.sse2Only_ok Cfg.avxOnly_ok (Or.inl rfl) (Or.inr ⟨2, by decide, by decide +kernel⟩) (Or.inl ⟨.r256, rfl, rfl⟩) ⟨iw32, Or.inr rfl⟩
    ⟨fun g => absurd g (by decide), fun _ _ g => absurd g (by decide)⟩ ⟨fun g => absurd g (by decide), fun _ _ g => absurd g (by decide)⟩
    (fun q => absurd q.2.2.1 (by decide)) (fun q => absurd q.2.2.1 (by decide)) E E' (.cmp .lt (.var 0) (.var 1)) rfl m (S := 3) jv jm jv' jm' (Or.inl (by decide)) hA hV
    (fun x hx => by
      have : (Cfg.sse2Only.regK .flt 32 8).bytes = 16 := by decide +kernel
      rw [this]
      omega)
    (fun x hx => by
      have : (Cfg.avxOnly.regK .flt 32 8).bytes = 32 := by decide +kernel
      rw [this]
      omega) (fun _ _ _ _ _ => hm _) ⟨trivial, trivial⟩ ⟨trivial, trivial⟩

end Simdpp
