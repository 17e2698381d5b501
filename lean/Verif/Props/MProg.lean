import Verif.Props.MConv
import Verif.Props.FProg

/-!
# C59: a program over several element types means the scalar program, on every build
-/

namespace Simdpp
open Spec Spec.Prog Spec.FProg Spec.MProg

variable {N : Nat} {Γ : Nat → ETy} {t : ETy}

attribute [local irreducible] Fp.mul Fp.fma Fp.sub Fp.add Fp.round Fp.div Fp.sqrt Fp.conv Fp.ofInt Fp.truncInt

/-- `N` is a length of the vectors of the type on the build. -/
def Cfg.TLen (c : Cfg) (t : ETy) (N : Nat) : Prop := c.KLen t.kind t.w N

/-- Every operator and conversion of the expression is defined on the build and on the lanes `ρ i`: integer operators as in C54, floating-point
operators as in C56, conversions as in C29, C46, C49. -/
def Spec.MProg.MExp.Ok (c : Cfg) (N : Nat) (I : (f : FWd) → Impl f.n) {ι : Type} (ρ : ι → (x : Nat) → BitVec (Γ x).w) : {t : ETy} → MExp Γ t → Prop
  | _, .var x => c.TLen (Γ x) N
  | _, .ints (s := s) (u := u) V _ e arg => c.TLen (.int s u) N ∧ (∀ x, (arg x).Ok c N I ρ) ∧
      e.Ok c (c.regK .int u.n N) (fun i x => if h : x < V then (arg ⟨x, h⟩).den I (ρ i) else 0)
  | _, .flts (f := f) _ e arg => c.TLen (.flt f) N ∧ (∀ x, (arg x).Ok c N I ρ) ∧ e.Ok c (c.regK .flt f.n N)
  | _, .conv (t := t) t' a => a.Ok c N I ρ ∧ c.TLen t' N ∧ ConvOk c N t t' ∧ ∀ i, ConvIn c N t t' (a.den I (ρ i))
  | _, .bits t' _ a => a.Ok c N I ρ ∧ c.TLen t' N

theorem Spec.MProg.MExp.Ok.len {c : Cfg} {I : (f : FWd) → Impl f.n} {ι : Type} {ρ : ι → (x : Nat) → BitVec (Γ x).w} : {t : ETy} → {e : MExp Γ t} →
    e.Ok c N I ρ → c.TLen t N
  | _, .var _, ok => ok
  | _, .ints .., ok => ok.1
  | _, .flts .., ok => ok.1
  | _, .conv .., ok => ok.2.1
  | _, .bits .., ok => ok.2

theorem MExp.Ok.comp {c : Cfg} {I : (f : FWd) → Impl f.n} {ι κ : Type} {ρ : ι → (x : Nat) → BitVec (Γ x).w} (g : κ → ι) : {t : ETy} → (e : MExp Γ t) →
    e.Ok c N I ρ → e.Ok c N I (fun i => ρ (g i))
  | _, .var _, ok => ok
  | _, .ints V sg e arg, ok => ⟨ok.1, fun x => MExp.Ok.comp g (arg x) (ok.2.1 x), Exp.Ok.comp g e ok.2.2⟩
  | _, .flts V e arg, ok => ⟨ok.1, fun x => MExp.Ok.comp g (arg x) (ok.2.1 x), ok.2.2⟩
  | _, .conv t' a, ok => ⟨MExp.Ok.comp g a ok.1, ok.2.1, ok.2.2.1, fun i => ok.2.2.2 (g i)⟩
  | _, .bits t' _ a, ok => ⟨MExp.Ok.comp g a ok.1, ok.2⟩

/-- The choices of the build for floating-point operations, in both sizes. -/
def IsImpls (c : Cfg) (N : Nat) (I : (f : FWd) → Impl f.n) : Prop := ∀ f, c.FLen f.n N → IsImpl c (c.regK .flt f.n N) (I f)

theorem impls_ex {c : Cfg} (h : c.Ok) (N : Nat) : ∃ I : (f : FWd) → Impl f.n, IsImpls c N I ∧
    ∀ f, (I f).Ok ∧ (¬ c.mulByFma f.n (c.regK .flt f.n N) → (I f).mul = Fp.mul) := by
  have one : ∀ f : FWd, ∃ I : Impl f.n, (c.FLen f.n N → IsImpl c (c.regK .flt f.n N) I) ∧ I.Ok ∧
      (¬ c.mulByFma f.n (c.regK .flt f.n N) → I.mul = Fp.mul) := fun f => by
    by_cases hN : c.FLen f.n N
    · obtain ⟨hr, -⟩ := KLen.regs h (k := .flt) (FWd.okW f) hN
      obtain ⟨I, h1, h2, h3⟩ := impl_ex h (FWd.okW f) hr
      exact ⟨I, fun _ => h1, h2, h3⟩
    · obtain ⟨I, h1, h2, h3⟩ := impl_ex Cfg.portable_ok (FWd.okW f) (r := .r128) rfl
      exact ⟨I, fun g => absurd g hN, h2, fun _ => h3 (by rintro ⟨-, -, g, -⟩; cases g)⟩
  exact ⟨fun f => (one f).choose, fun f => (one f).choose_spec.1, fun f => (one f).choose_spec.2⟩

theorem dite_app {α : Type} {n : Nat} {p : Prop} [Decidable p] (f : p → Fin n → α) (g : Fin n → α) (j : Fin n) :
    (if h : p then f h else g) j = if h : p then f h j else g j := by
  split_ifs <;> rfl

theorem MExp.run_eq {c : Cfg} (h : c.Ok) {I : (f : FWd) → Impl f.n} (hI : IsImpls c N I) (E : Est) (J : Junk c N) (env : (x : Nat) → Vec (Γ x).w N) :
    {t : ETy} → (e : MExp Γ t) → e.Ok c N I (fun (j : Fin N) x => env x j) → e.run c E J env = some (fun j => e.den I fun x => env x j)
  | _, .var x, _ => rfl
  | _, .ints (u := u) V sg e arg, ok => by
    unfold MExp.run
    refine (bind_of (lanesM_eq_some.2 fun x => MExp.run_eq h hI E J env (arg x) (ok.2.1 x)) _).trans ?_
    refine (C54_eval h (IW.isW u) ok.1 e _ _ _ ?_).trans (congrArg some (funext fun j => ?_))
    · refine cast (congrArg (fun F => e.Ok c (c.regK .int u.n N) F) ?_) ok.2.2
      funext j x
      exact (dite_app (α := BitVec _) (fun h : x < V => fun j => (arg ⟨x, h⟩).den I fun x => env x j) (fun _ => 0) j).symm
    · show e.den _ = e.den _
      refine congrArg (fun F => e.den F) (funext fun x => ?_)
      exact dite_app (α := BitVec _) (fun h : x < V => fun j => (arg ⟨x, h⟩).den I fun x => env x j) (fun _ => 0) j
  | _, .flts (f := f) V e arg, ok => by
    unfold MExp.run
    refine (bind_of (lanesM_eq_some.2 fun x => MExp.run_eq h hI E J env (arg x) (ok.2.1 x)) _).trans ?_
    obtain ⟨hr, K, -, eN⟩ := KLen.regs h (k := .flt) (FWd.okW f) ok.1
    refine (evalFR_eq h (FWd.okW f) hr eN (hI f ok.1) E e _ _ _ ok.2.2).trans (congrArg some (funext fun j => ?_))
    show e.den _ _ = e.den _ _
    refine congrArg (fun F => e.den (I f) F) (funext fun x => ?_)
    exact dite_app (α := BitVec _) (fun h : x < V => fun j => (arg ⟨x, h⟩).den I fun x => env x j) (fun _ => 0) j
  | _, .conv t' a, ok => by
    unfold MExp.run
    refine (bind_of (MExp.run_eq h hI E J env a ok.1) _).trans ?_
    exact convertV_eq h ok.1.len ok.2.1 ok.2.2.1 _ ok.2.2.2
  | _, .bits t' hw a, ok => by
    unfold MExp.run
    refine (bind_of (MExp.run_eq h hI E J env a ok.1) _).trans ?_
    exact bitCastR_cast h hw (ETy.okW _) (ETy.okW _) ok.1.len ok.2 _ _

theorem MExp.den_congr {I I' : (f : FWd) → Impl f.n} (hm : ∀ f, (I f).mul = (I' f).mul) (ρ : (x : Nat) → BitVec (Γ x).w) : {t : ETy} → (e : MExp Γ t) →
    e.noMinMax → e.den I ρ = e.den I' ρ
  | _, .var x, _ => rfl
  | _, .ints (u := u) V sg e arg, q => by
    unfold MExp.den
    refine congrArg (fun F => e.den F) (funext fun x => ?_)
    split_ifs with g
    · exact MExp.den_congr hm ρ (arg ⟨x, g⟩) (q _)
    · rfl
  | _, .flts (f := f) V e arg, q => by
    unfold MExp.den
    refine (congrArg (fun F => e.den (I f) F) (funext fun x => ?_)).trans (FExp.den_congr (hm f) _ e q.1)
    split_ifs with g
    · exact MExp.den_congr hm ρ (arg ⟨x, g⟩) (q.2 _)
    · rfl
  | _, .conv (t := t) t' a, q => congrArg (convLane t t') (MExp.den_congr hm ρ a q)
  | _, .bits t' hw a, q => congrArg (fun x => BitVec.cast hw x) (MExp.den_congr hm ρ a q)

/-- **C59.** On every build there is one choice `I` of what IEEE 754 leaves open such that every expression mixing element types, evaluated vector by
vector through the library, is lane by lane the scalar expression: any nesting of integer and floating-point expressions, conversions between
the ten element types and bit casts, for every vector length. -/
theorem C59_program {c : Cfg} (h : c.Ok) (N : Nat) (E : Est) : ∃ I : (f : FWd) → Impl f.n,
    (∀ f, (I f).Ok ∧ (¬ c.mulByFma f.n (c.regK .flt f.n N) → (I f).mul = Fp.mul)) ∧
    ∀ (Γ : Nat → ETy) (t : ETy) (e : MExp Γ t) (J : Junk c N) (env : (x : Nat) → Vec (Γ x).w N), e.Ok c N I (fun (j : Fin N) x => env x j) →
      ∃ v, e.run c E J env = some v ∧ ∀ j, v j = e.den I fun x => env x j := by
  obtain ⟨I, h1, h2⟩ := impls_ex h N
  exact ⟨I, h2, fun Γ t e J env ok => ⟨_, MExp.run_eq h h1 E J env e ok, fun _ => rfl⟩⟩

/-- The IEEE product in both sizes (and one choice for `min` and `max`). -/
def ieees (f : FWd) : Impl f.n := ieee

theorem MExp.Ok.congr {c : Cfg} {I I' : (f : FWd) → Impl f.n} (hm : ∀ f, (I f).mul = (I' f).mul) {ι : Type} {ρ : ι → (x : Nat) → BitVec (Γ x).w} :
    {t : ETy} → (e : MExp Γ t) → e.noMinMax → e.Ok c N I ρ → e.Ok c N I' ρ
  | _, .var _, _, ok => ok
  | _, .ints (u := u) V sg e arg, q, ok => ⟨ok.1, fun x => MExp.Ok.congr hm (arg x) (q x) (ok.2.1 x), by
      refine cast (congrArg (fun F => e.Ok c (c.regK .int u.n N) F) ?_) ok.2.2
      funext j x
      have e : (fun h : x < V => (arg ⟨x, h⟩).den I (ρ j)) = fun h : x < V => (arg ⟨x, h⟩).den I' (ρ j) :=
        funext fun h => MExp.den_congr hm (ρ j) (arg ⟨x, h⟩) (q _)
      exact congrArg (fun F : x < V → BitVec u.n => if h : x < V then F h else 0) e⟩
  | _, .flts V e arg, q, ok => ⟨ok.1, fun x => MExp.Ok.congr hm (arg x) (q.2 x) (ok.2.1 x), ok.2.2⟩
  | _, .conv t' a, q, ok => ⟨MExp.Ok.congr hm a q ok.1, ok.2.1, ok.2.2.1, fun i => MExp.den_congr hm (ρ i) a q ▸ ok.2.2.2 i⟩
  | _, .bits t' _ a, q, ok => ⟨MExp.Ok.congr hm a q ok.1, ok.2⟩

/-- **C59.** Without floating-point `min` and `max`, and unless it multiplies on AltiVec without VSX, the result is the IEEE computation: no choice is left. -/
theorem C59_ieee {c : Cfg} (h : c.Ok) (E : Est) (hm : ∀ f : FWd, ¬ c.mulByFma f.n (c.regK .flt f.n N)) (e : MExp Γ t) (he : e.noMinMax) (J : Junk c N)
    (env : (x : Nat) → Vec (Γ x).w N) (ok : e.Ok c N ieees (fun (j : Fin N) x => env x j)) :
    e.run c E J env = some (fun j => e.den ieees fun x => env x j) := by
  obtain ⟨I, h1, h2⟩ := impls_ex h N
  have em : ∀ f, (I f).mul = (ieees f).mul := fun f => (h2 f).2 (hm f)
  rw [MExp.run_eq h h1 E J env e (MExp.Ok.congr (fun f => (em f).symm) e he ok)]
  exact congrArg some (funext fun j => MExp.den_congr em _ e he)

/-- **C59.** Two such builds, whatever their registers, compute the same bits. -/
theorem C59_portable {c c' : Cfg} (h : c.Ok) (h' : c'.Ok) (E E' : Est) (hm : ∀ f : FWd, ¬ c.mulByFma f.n (c.regK .flt f.n N))
    (hm' : ∀ f : FWd, ¬ c'.mulByFma f.n (c'.regK .flt f.n N)) (e : MExp Γ t) (he : e.noMinMax) (J : Junk c N) (J' : Junk c' N)
    (env : (x : Nat) → Vec (Γ x).w N) (ok : e.Ok c N ieees (fun (j : Fin N) x => env x j)) (ok' : e.Ok c' N ieees (fun (j : Fin N) x => env x j)) :
    ∃ v, e.run c E J env = some v ∧ e.run c' E' J' env = some v :=
  ⟨_, C59_ieee h E hm e he J env ok, C59_ieee h' E' hm' e he J' env ok'⟩

/-! ## Kernels -/

theorem load_done {c : Cfg} (h : c.Ok) {k : Kind} {v w : Nat} (okW : k.okW v) (hN : c.KLen k v N) {p q i : Nat} {m m' : Mem} {A : Nat → BitVec v}
    (hA : ∀ j, j < (i + 1) * N → Holds m.byte (p + j * (v / 8)) (A j))
    (hp : p % (c.regK k v N).bytes = 0) (hb : m.Block p ((i + 1) * N * (v / 8)))
    (hd : q + i * N * (w / 8) ≤ p + i * N * (v / 8) ∨ p + (i + 1) * N * (v / 8) ≤ q)
    {R : Nat → BitVec w} (D : Done m m' q (i * N) R) :
    load c k v N m' (p + i * (N * (v / 8))) = some (fun l => A (i * N + l.val)) := by
  have hw := okW.isW
  obtain ⟨hr, K, -, eN⟩ := KLen.regs h okW hN
  have hB := isW_bpos hw
  have eB : N * (v / 8) = K * (c.regK k v N).bytes := by
    conv_lhs => rw [eN]
    rw [Nat.mul_assoc, bytes_eq hw]
  have e1 : (i + 1) * N * (v / 8) = i * (N * (v / 8)) + N * (v / 8) := by rw [Nat.add_mul, Nat.add_mul, Nat.one_mul, Nat.mul_assoc]
  rw [load_eq h okW hN]
  · refine congrArg some (funext fun l => ?_)
    refine holds_inj okW (Mem.get_holds hw m' _ l) fun j hj => ?_
    have hl : (i * N + l.val) * (v / 8) + v / 8 ≤ i * (N * (v / 8)) + N * (v / 8) := by
      rw [← e1]
      calc (i * N + l.val) * (v / 8) + v / 8 = (i * N + l.val + 1) * (v / 8) := by rw [Nat.add_mul (i * N + l.val), Nat.one_mul]
        _ ≤ _ := Nat.mul_le_mul_right _ (by have := l.isLt; rw [Nat.add_mul, Nat.one_mul]; omega)
    have e2 : p + i * (N * (v / 8)) + l.val * (v / 8) = p + (i * N + l.val) * (v / 8) := by
      rw [Nat.add_mul (i * N), Nat.mul_assoc]; omega
    have e3 : i * N * (v / 8) = i * (N * (v / 8)) := Nat.mul_assoc _ _ _
    have e4 : i * N * (v / 8) ≤ (i * N + l.val) * (v / 8) := Nat.mul_le_mul_right _ (by omega)
    rw [e2, D.rest, hA (i * N + l.val) (by have := l.isLt; rw [Nat.add_mul, Nat.one_mul]; omega) j hj]
    rcases hd with g | g
    · right; omega
    · left; omega
  · rw [Nat.add_mod, hp, eB, ← Nat.mul_assoc, Nat.mul_mod_left, Nat.zero_mod]
  · intro a g1 g2
    rw [D.ok]
    exact hb a (by omega) (by omega)

theorem loadsM_eq {c : Cfg} {p : Nat → Nat} {i : Nat} {m : Mem} (L : (x : Nat) → Vec (Γ x).w N) : (V : Nat) →
    (∀ x, x < V → load c (Γ x).kind (Γ x).w N m (p x + i * (N * ((Γ x).w / 8))) = some (L x)) →
    loadsM (Γ := Γ) c N p i m V = some (fun x => if x < V then L x else fun _ => 0)
  | 0, _ => by
    unfold loadsM
    refine congrArg some (funext fun x => ?_)
    rw [if_neg (Nat.not_lt_zero x)]
  | V + 1, hl => by
    unfold loadsM
    refine (bind_of (loadsM_eq L V fun x hx => hl x (by omega)) _).trans ((bind_of (hl V (Nat.lt_succ_self V)) _).trans ?_)
    refine congrArg some (funext fun x => ?_)
    by_cases g : x = V
    · subst g
      rw [dif_pos rfl, if_pos (Nat.lt_succ_self x)]
    · rw [dif_neg g]
      show (if x < V then L x else fun _ => 0) = _
      by_cases g' : x < V
      · rw [if_pos g', if_pos (by omega)]
      · rw [if_neg g', if_neg (by omega)]

/-- **C59.** The vectorised loop over arrays of different element types is the scalar loop `for (j = 0; j < cnt; ++j) out[j] = f(in_0[j], ..)`: every element of
the output holds the scalar result on the values the inputs had at the start, no other byte changes, for every element count. Each array is
aligned to the register of its own element type and may be accessed up to a multiple of the vector length; an input which overlaps the output
must not start before it and must not have smaller elements. `A x j` is element `j` of input `x`. -/
theorem C59_kernel {c : Cfg} (h : c.Ok) (N : Nat) (E : Est) : ∃ I : (f : FWd) → Impl f.n,
    (∀ f, (I f).Ok ∧ (¬ c.mulByFma f.n (c.regK .flt f.n N) → (I f).mul = Fp.mul)) ∧
    ∀ (Γ : Nat → ETy) (t : ETy) (e : MExp Γ t) (be : Bool) (J : Junk c N) {V : Nat} {p : Nat → Nat} {q cnt : Nat} (m : Mem)
      {A : (x : Nat) → Nat → BitVec (Γ x).w} {P : Nat},
      P = (cnt + (N - 1)) / N * N →
      (∀ x, x < V → c.TLen (Γ x) N) →
      (∀ x, x < V → ∀ j, j < P → Holds m.byte (p x + j * ((Γ x).w / 8)) (A x j)) → (∀ x, V ≤ x → ∀ j, A x j = 0) →
      (∀ x, x < V → p x % (c.regK (Γ x).kind (Γ x).w N).bytes = 0) → q % (c.regK t.kind t.w N).bytes = 0 →
      (∀ x, x < V → m.Block (p x) (P * ((Γ x).w / 8))) → m.Block q (P * (t.w / 8)) →
      (∀ x, x < V → (q ≤ p x ∧ t.w ≤ (Γ x).w) ∨ p x + P * ((Γ x).w / 8) ≤ q ∨ q + P * (t.w / 8) ≤ p x) →
      e.Ok c N I (fun (j : Fin P) x => A x j.val) →
      ∃ m', mkernel c be E J V e p q cnt m = some m' ∧ m'.ok = m.ok ∧
        (∀ j, j < cnt → Holds m'.byte (q + j * (t.w / 8)) (e.den I fun x => A x j)) ∧
        ∀ a, a < q ∨ q + cnt * (t.w / 8) ≤ a → m'.byte a = m.byte a := by
  obtain ⟨I, h1, h2⟩ := impls_ex h N
  refine ⟨I, h2, fun Γ t e be J V p q cnt m A P hP hT hA hV hp hq hb hbq hd ok => ?_⟩
  obtain ⟨m', e1, e2, e3, e4⟩ := kernelG_all h (ETy.okW t) ok.len (stp := mkernelStep c E J V e p) (F := fun j y => y = e.den I fun x => A x j)
    be t.signed m hP hq hbq fun i hi hle s R D => by
      have ld : ∀ x, x < V → load c (Γ x).kind (Γ x).w N s (p x + i * (N * ((Γ x).w / 8))) = some (fun l : Fin N => A x (i * N + l.val)) := fun x hx => by
        have l1 := Nat.mul_le_mul_right ((Γ x).w / 8) hle
        refine load_done h (ETy.okW _) (hT x hx) (fun j hj => hA x hx j (by omega)) (hp x hx) (fun a g1 g2 => hb x hx a g1 (by omega)) ?_ D
        rcases hd x hx with ⟨g1, g2⟩ | g | g
        · have := Nat.mul_le_mul_left (i * N) (Nat.div_le_div_right (c := 8) g2)
          left; omega
        · right; omega
        · have := Nat.mul_le_mul_right (t.w / 8) (show i * N ≤ P by rw [Nat.add_mul, Nat.one_mul] at hle; omega)
          left; omega
      have el : loadsM (Γ := Γ) c N p i s V = some (fun x (l : Fin N) => A x (i * N + l.val)) := by
        rw [loadsM_eq _ V ld]
        refine congrArg some (funext fun x => ?_)
        split_ifs with g
        · rfl
        · exact funext fun l => (hV x (by omega) _).symm
      refine ⟨_, (bind_of el _).trans (MExp.run_eq h h1 E J _ e ?_), fun l => rfl⟩
      exact MExp.Ok.comp (fun j : Fin N => (⟨i * N + j.val, by have := j.isLt; rw [Nat.add_mul, Nat.one_mul] at hle; omega⟩ : Fin P)) e ok
  refine ⟨m', e1, e2, fun j hj => ?_, e4⟩
  obtain ⟨y, ey, hy⟩ := e3 j hj
  exact ey ▸ hy

/-! ## Instances -/

theorem lane_of_nat {w n : Nat} (hn : n < 2 ^ w) : val false (Spec.lane w (n : Int)) = n := by
  unfold val Spec.lane
  rw [if_neg Bool.false_ne_true, BitVec.toNat_ofInt]
  have h1 : (n : Int) % (2 ^ w : Nat) = n := Int.emod_eq_of_lt (Int.natCast_nonneg n) (by exact_mod_cast hn)
  rw [h1]; rfl

/-- `to_uint8((to_uint16(a) * 3 + to_uint16(b) + 2) >> 2)` for `uint8` vectors `a`, `b`. -/
def mixSample : MExp (fun _ => .int false .b8) (.int false .b8) :=
  .conv (.int false .b8) (.ints (u := .b16) 2 (fun _ => false)
    (.shr (.op2 .add (.op2 .add (.op2 .mul (.var 0) (.lit false 3)) (.var 1)) (.lit false 2)) 2)
    fun x => .conv (.int false .b16) (.var x.val))

/-- **C59**, an instance: the weighted average of two `uint8` vectors through 16-bit intermediates is `(3 a + b + 2) / 4`, rounded down, in every lane,
on every build and for every length. -/
theorem C59_weighted_average {c : Cfg} (h : c.Ok) (hN : c.VLen 8 N) (hN' : c.VLen 16 N) (E : Est) (J : Junk c N) (env : Nat → Vec 8 N) :
    ∃ v, mixSample.run c E J env = some v ∧ ∀ j, (v j).toNat = (3 * (env 0 j).toNat + (env 1 j).toNat + 2) / 4 := by
  obtain ⟨I, -, run⟩ := C59_program h N E
  obtain ⟨v, e, hv⟩ := run _ _ mixSample J env (by
    refine ⟨⟨hN', fun x => ⟨hN, hN', ?_, fun i => trivial⟩, ⟨⟨⟨trivial, trivial, .inl ⟨rfl, fun _ j => ?_⟩⟩, trivial, trivial⟩, trivial, trivial⟩, by decide⟩, hN, ?_, fun i => trivial⟩
    · show ¬ ConvBroken c 8 16 N
      unfold ConvBroken; simp
    · show (BitVec.toNat _) * (Spec.lane 16 (val false 3#64)).toNat < _
      have e3 : (Spec.lane 16 (val false 3#64)).toNat = 3 := by decide
      rw [e3]
      have := BitVec.isLt (w := 16) (Exp.den (fun x => if h : x < 2 then MExp.den I (fun x => env x j) (.conv (.int false .b16) (.var (Γ := fun _ => .int false .b8) x)) else 0)
        (.var 0 : Exp (fun _ => false) (.vec false)))
      exact Nat.lt_trans (Nat.mul_lt_mul_of_pos_right this (by decide)) (by decide)
    · show ¬ ConvBroken c 16 8 N
      unfold ConvBroken; simp)
  refine ⟨v, e, fun j => ?_⟩
  rw [hv j]
  show (Spec.lane 8 (val false (Spec.lane 16 (val false (Spec.lane 16 (val false (Spec.lane 16 (val false (Spec.lane 16 (val false (Spec.lane 16 (val false (env 0 j))) *
    val false (Spec.lane 16 (val false 3#64)))) + val false (Spec.lane 16 (val false (env 1 j))))) + val false (Spec.lane 16 (val false 2#64)))) / 2 ^ 2)))).toNat = _
  have ex : ∀ x : BitVec 8, val false x = (x.toNat : Int) := fun x => by unfold val; rw [if_neg Bool.false_ne_true]
  have l0 := (env 0 j).isLt
  have l1 := (env 1 j).isLt
  rw [ex, ex, lane_of_nat (w := 16) (n := (env 0 j).toNat) (by omega), lane_of_nat (w := 16) (n := (env 1 j).toNat) (by omega),
    show val false (Spec.lane 16 (val false 3#64)) = 3 by decide, show val false (Spec.lane 16 (val false 2#64)) = 2 by decide,
    show ((env 0 j).toNat : Int) * 3 = ((env 0 j).toNat * 3 : Nat) by push_cast; ring, lane_of_nat (by omega), ← Nat.cast_add, lane_of_nat (by omega),
    show ((((env 0 j).toNat * 3 + (env 1 j).toNat : Nat) : Int) + 2) = (((env 0 j).toNat * 3 + (env 1 j).toNat + 2 : Nat) : Int) by push_cast; ring,
    lane_of_nat (by omega), show (((env 0 j).toNat * 3 + (env 1 j).toNat + 2 : Nat) : Int) / 2 ^ 2 = (((env 0 j).toNat * 3 + (env 1 j).toNat + 2) / 4 : Nat) by push_cast; rfl,
    lane_of_nat (by omega)]
  have := lane_of_nat (w := 8) (n := ((env 0 j).toNat * 3 + (env 1 j).toNat + 2) / 4) (by omega)
  rw [ex] at this
  omega

/-- `to_float32(a) * k` for `uint8` lanes. -/
def normSample (k : BitVec 32) : MExp (fun _ => .int false .b8) (.flt .f32) :=
  .flts (f := .f32) 1 (.op2 .mul (.var 0) (.lit k)) fun x => .conv (.flt .f32) (.var x.val)

theorem normSample_ok (k : BitVec 32) {c : Cfg} (h : c.Ok) (hN : c.VLen 8 N) (I : (f : FWd) → Impl f.n) {ι : Type} (ρ : ι → Nat → BitVec 8) :
    (normSample k).Ok c N I ρ :=
  ⟨FLen.of_VLen h (.inl rfl) hN, fun _ => ⟨hN, FLen.of_VLen h (.inl rfl) hN, trivial, fun _ => trivial⟩, trivial, trivial, trivial⟩

/-- **C59**, an instance: `to_float32(a) * k` of `uint8` lanes has the same bits on every two builds but AltiVec without VSX: the IEEE product of the number
and `k`. -/
theorem C59_normalise (k : BitVec 32) {c : Cfg} (h : c.Ok) (hv : c.altivec = true → c.vsx206 = true) (hN : c.VLen 8 N) (E : Est) (J : Junk c N) (env : Nat → Vec 8 N) :
    ∃ v, (normSample k).run c E J env = some v ∧ ∀ j, v j = Fp.mul (Fp.ofInt 32 ((env 0 j).toNat : Int)) k := by
  refine ⟨_, C59_ieee h E (fun f => ?_) (normSample k) ⟨rfl, fun _ => trivial⟩ J env (normSample_ok k h hN _ _), fun j => ?_⟩
  · rintro ⟨-, -, g, g'⟩
    rw [hv g] at g'
    cases g'
  · rfl

/-- The array version on SSE2: twenty `uint8` numbers at address 64, twenty `float`s at address 256; one full vector of sixteen and a partial one. -/
example (m : Mem) (hm : ∀ a, m.ok a = true) (E : Est) (J : Junk Cfg.sse2Only 16) (k : BitVec 32) :
    ∃ m', mkernel Cfg.sse2Only false E J 1 (normSample k) (fun _ => 64) 256 20 m = some m' ∧
      (∀ j, j < 20 → ∃ y, Fp.SameUpToZero y (Fp.mul (Fp.ofInt 32 ((m.byte (64 + j)).toNat : Int)) k) ∧ Holds m'.byte (256 + j * 4) y) ∧
      ∀ a, a < 256 ∨ 336 ≤ a → m'.byte a = m.byte a := by
  obtain ⟨I, hI, run⟩ := C59_kernel Cfg.sse2Only_ok 16 E
  obtain ⟨m', e1, -, e2, e3⟩ := run _ _ (normSample k) false J (V := 1) (p := fun _ => 64) (q := 256) (cnt := 20) m
    (A := fun x j => if x < 1 then m.byte (64 + j) else 0) (P := 32) (by decide) (fun x _ => Or.inl ⟨.r128, by decide +kernel, by decide +kernel⟩)
    (fun x hx j _ i hi => by
      have : i = 0 := by
        have : i < 1 := hi
        omega
      subst this
      have : x = 0 := by omega
      subst this
      show m.byte (64 + j * 1 + 0) = byteOf (m.byte (64 + j)) 0
      rw [Nat.mul_one, Nat.add_zero]
      exact (BitVec.eq_of_getLsbD_eq fun b hb => by unfold byteOf; simp [hb]).symm) (fun x hx j => if_neg (by omega))
    (fun x hx => by decide +kernel) (by decide +kernel) (fun _ _ _ _ _ => hm _) (fun _ _ _ => hm _)
    (fun x _ => Or.inr (.inl (by decide))) (normSample_ok k Cfg.sse2Only_ok (Or.inl ⟨.r128, by decide +kernel, by decide +kernel⟩) _ _)
  refine ⟨m', e1, fun j hj => ⟨_, (hI .f32).1.mul _ _, ?_⟩, e3⟩
  have := e2 j hj
  exact this

/-- A build and a length which meet the hypotheses of the instances, with several registers and with one. -/
example : Cfg.sse2Only.VLen 8 16 ∧ Cfg.sse2Only.VLen 16 16 ∧ Cfg.avx512All.VLen 8 64 ∧ Cfg.avx512All.VLen 16 64 :=
  ⟨Or.inl ⟨.r128, rfl, rfl⟩, Or.inr ⟨2, by decide, by decide +kernel⟩, Or.inl ⟨.r512, by decide +kernel, by decide +kernel⟩, Or.inr ⟨2, by decide, by decide +kernel⟩⟩

end Simdpp
