import Verif.Props.CarrySum

/-!
# Filters

A weighted sum of an element and those before it, with one carried vector.
-/

namespace Simdpp
open Spec Spec.Prog Spec.FProg Spec.MProg

variable {u : IW}

/-- `v * a` (`mul_lo` with a scalar). -/
def fir_mulE (v : BitVec 64) (a : SExp (UG u) (.int false u)) : SExp (UG u) (.int false u) :=
  .lanes 1 (UG u) (.ints (u := u) 1 (fun _ => false) (.op2 .mul (.lit false v) (.var 0)) fun x => .var x.val) fun _ => a

/-- `h[0] * x + h[1] * align<L - 1>(s, x) + .. + h[k] * align<L - k>(s, x)`. -/
def firE (u : IW) (h : Nat → BitVec 64) : Nat → SExp (UG u) (.int false u)
  | 0 => fir_mulE (h 0) (.var 0)
  | k + 1 => opE .add (firE u h k) (fir_mulE (h (k + 1)) (.shuf (.align (128 / u.n - (k + 1))) (.var 1) (.var 0)))

variable {I : (f : FWd) → Impl f.n} {ρ : Nat → Nat → BitVec u.n}

theorem mul_den (v : BitVec 64) (a : SExp (UG u) (.int false u)) (j : Nat) : denU I ρ (fir_mulE v a) j = BitVec.ofNat u.n (v.toNat * (denU I ρ a j).toNat) := by
  have : Spec.lane u.n (val false (Spec.lane u.n (val false v)) * val false (denU I ρ a j)) = BitVec.ofNat u.n (v.toNat * (denU I ρ a j).toNat) := by
    have ev : ∀ {w : Nat} (x : BitVec w), val false x = (x.toNat : Int) := fun x => if_neg Bool.false_ne_true
    unfold Spec.lane
    rw [ev, ev, ev, ← Int.natCast_mul, BitVec.ofInt_natCast, BitVec.ofInt_natCast, BitVec.toNat_ofNat]
    apply BitVec.eq_of_toNat_eq
    rw [BitVec.toNat_ofNat, BitVec.toNat_ofNat, Nat.mod_mul_mod]
  exact this

/-- `mul_lo` exists for 16- and 32-bit elements; the portable build multiplies 16-bit elements as `int`, which can overflow. -/
def MulOk (c : Cfg) (u : IW) : Prop := u = .b32 ∨ (u = .b16 ∧ c.null = false)

theorem mulE_ok {c : Cfg} {N P : Nat} (hN : c.VLen u.n N) (hu : MulOk c u) {v : BitVec 64} {a : SExp (UG u) (.int false u)} (oa : a.Ok c N I P ρ) : (fir_mulE v a).Ok c N I P ρ := by
  refine ⟨fun _ => oa, hN, fun _ => hN, trivial, trivial, ?_⟩
  rcases hu with rfl | ⟨rfl, hn⟩
  · exact .inr rfl
  · exact .inl ⟨rfl, fun g => absurd (hn.symm.trans g) Bool.false_ne_true⟩

theorem fir_ok {c : Cfg} {P : Nat} (hu : MulOk c u) (h : Nat → BitVec 64) : (k : Nat) → (firE u h k).Ok c (128 / u.n) I P ρ
  | 0 => mulE_ok (ulen c u) hu (ulen c u)
  | k + 1 => opE_ok (ulen c u) (.inl rfl) (fir_ok hu h k) (mulE_ok (ulen c u) hu ⟨ulen c u, ulen c u, Nat.sub_le _ _⟩)

/-- What `align` finds in step `i`. -/
theorem tap (I : (f : FWd) → Impl f.n) (A : Nat → BitVec u.n) (i j k : Nat) (hj : j < 128 / u.n) (hk : k + 1 ≤ 128 / u.n) :
    denU I (stepVars (Γ := UG u) I (128 / u.n) 1 (diffNext u) (arr1 A) (fun _ => 0) i) (.shuf (.align (128 / u.n - (k + 1))) (.var 1) (.var 0)) j =
      if k + 1 ≤ i * (128 / u.n) + j then A (i * (128 / u.n) + j - (k + 1)) else 0 := by
  have hL := lanes2 u
  show (if j % (128 / u.n) + (128 / u.n - (k + 1)) < 128 / u.n then
    (carried (Γ := UG u) I (128 / u.n) 1 (diffNext u) (arr1 A) (fun _ => 0) i (j + (128 / u.n - (k + 1))) : BitVec u.n)
    else A (i * (128 / u.n) + (j + (128 / u.n - (k + 1)) - 128 / u.n))) = _
  rw [Nat.mod_eq_of_lt hj]
  split_ifs with g1 g2 g2
  · match i, g2 with
    | 0, g2 => exact absurd g2 (by omega)
    | i + 1, _ =>
      show A (i * (128 / u.n) + (j + (128 / u.n - (k + 1)))) = _
      rw [show (i + 1) * (128 / u.n) + j - (k + 1) = i * (128 / u.n) + (j + (128 / u.n - (k + 1))) by rw [Nat.add_mul]; omega]
  · match i, g2 with
    | 0, _ => rfl
    | i + 1, g2 => exact absurd (by rw [Nat.add_mul]; omega) g2
  · rw [show i * (128 / u.n) + j - (k + 1) = i * (128 / u.n) + (j + (128 / u.n - (k + 1)) - 128 / u.n) by omega]
  · omega

theorem fir_step (I : (f : FWd) → Impl f.n) (h : Nat → BitVec 64) (A : Nat → BitVec u.n) (i j : Nat) (hj : j < 128 / u.n) : (k : Nat) → k ≤ 128 / u.n →
    denU I (stepVars (Γ := UG u) I (128 / u.n) 1 (diffNext u) (arr1 A) (fun _ => 0) i) (firE u h k) j = weighted h (k + 1) A (i * (128 / u.n) + j)
  | 0, _ => by
    show denU I _ (fir_mulE _ _) j = _
    rw [mul_den]
    unfold weighted
    rw [Finset.sum_range_one, if_pos (Nat.zero_le _), Nat.sub_zero]
    rfl
  | k + 1, hk => by
    show denU I _ (opE .add _ _) j = _
    rw [add_den, fir_step I h A i j hj k (by omega), mul_den, tap I A i j k hj hk]
    unfold weighted
    rw [Finset.sum_range_succ _ (k + 1), BitVec.ofNat_add]
    refine congrArg (BitVec.ofNat u.n _ + ·) (congrArg (fun z : Nat => BitVec.ofNat u.n ((h (k + 1)).toNat * z)) ?_)
    split_ifs
    · rfl
    · exact BitVec.toNat_zero

/-- **C71**, an instance: a filter with up to one more weight than a vector has elements. The loop writes, in place or into another array, the weighted sum modulo `2 ^ w` of each element
and those before it, whatever the weights and the number of elements. -/
theorem C71_filter {c : Cfg} (h : c.Ok) (gnuc be : Bool) (u : IW) (hu : MulOk c u) (E : Est) (J : Junk c (128 / u.n)) (g : Nat → BitVec 64) {T : Nat} (hT : T ≤ 128 / u.n)
    {p q cnt : Nat} (m : Mem) {A : Nat → BitVec u.n} {P : Nat}
    (hP : P = (cnt + (128 / u.n - 1)) / (128 / u.n) * (128 / u.n)) (hA : ∀ j, j < P → Holds m.byte (p + j * (u.n / 8)) (A j))
    (hp : p % 16 = 0) (hq : q % 16 = 0) (hb : m.Block p (P * (u.n / 8))) (hbq : m.Block q (P * (u.n / 8))) (hd : q ≤ p ∨ p + P * (u.n / 8) ≤ q) :
    ∃ s m', carryLoop c gnuc be E J 1 (diffNext u) (firE u g T) (fun _ => p) q cnt (fun _ => 0) m = some (s, m') ∧ m'.ok = m.ok ∧
      (∀ j, j < cnt → Holds m'.byte (q + j * (u.n / 8)) (weighted g (T + 1) A j)) ∧ ∀ a, a < q ∨ q + cnt * (u.n / 8) ≤ a → m'.byte a = m.byte a := by
  have hL := lanes2 u
  have hB := ubytes c u
  obtain ⟨I, -, run⟩ := C71_loop h (128 / u.n) E
  have ez : (Vec.at_ (fun _ => 0 : Vec u.n (128 / u.n))) = fun _ => 0 := funext fun j => by unfold Vec.at_; split_ifs <;> rfl
  obtain ⟨s, m', e1, -, e2, e3, e4⟩ := run gnuc (UG u) (.int false u) 1 (diffNext u) (firE u g T) be J (p := fun _ => p) (q := q) (cnt := cnt) m
    (A := arr1 A) (P := P) (fun _ => 0) hP (ulen c u) (fun _ _ => ulen c u) (fun x hx j hj => by
      obtain rfl : x = 0 := by omega
      exact hA j hj) (fun x hx j => if_neg (by omega)) (fun _ _ => hB ▸ hp) (hB ▸ hq) (fun _ _ => hb) hbq
    (fun _ _ => hd.imp (fun g => ⟨g, Nat.le_refl _⟩) Or.inl) (fun i _ => ⟨fir_ok hu g T, ulen c u⟩)
  refine ⟨s, m', e1, e2, fun j hj => ?_, e4⟩
  have hm := Nat.div_add_mod' j (128 / u.n)
  have hr := Nat.mod_lt j (show 0 < 128 / u.n by omega)
  have := e3 (j / (128 / u.n)) (j % (128 / u.n)) hr (by omega)
  rw [ez] at this
  have e := fir_step I g A (j / (128 / u.n)) _ hr T hT
  rw [hm] at e this
  exact cast (congrArg (fun z : BitVec u.n => Holds m'.byte (q + j * (u.n / 8)) z) e) this

/-- The binomial filter 1, 2, 1 in place on SSE2 over six elements. -/
example (m : Mem) (hm : ∀ a, m.ok a = true) (A : Nat → BitVec 32) (hA : ∀ j, j < 8 → Holds m.byte (64 + j * 4) (A j)) (E : Est) (J : Junk Cfg.sse2Only 4) :
    ∃ s m', carryLoop Cfg.sse2Only true false E J 1 (diffNext .b32) (firE .b32 (fun k => if k = 1 then 2 else 1) 2) (fun _ => 64) 64 6 (fun _ => 0) m = some (s, m') ∧
      Holds m'.byte (64 + 4 * 4) (BitVec.ofNat 32 ((A 4).toNat + 2 * (A 3).toNat + (A 2).toNat)) ∧ m'.byte 88 = m.byte 88 := by
  obtain ⟨s, m', e, -, f, g⟩ := C71_filter Cfg.sse2Only_ok true false .b32 (.inl rfl) E J (fun k => if k = 1 then 2 else 1) (T := 2) (by decide) (p := 64) (q := 64) (cnt := 6) (P := 8) m rfl hA
    (by decide) (by decide) (fun _ _ _ => hm _) (fun _ _ _ => hm _) (Or.inl (Nat.le_refl _))
  refine ⟨s, m', e, ?_, g 88 (Or.inr (Nat.le_refl _))⟩
  have := f 4 (by decide)
  unfold weighted at this
  simp [Finset.sum_range_succ] at this
  exact this

end Simdpp
