import Verif.Model.Carry
import Verif.Props.SProg

/-!
# C71: loops which carry a vector from step to step
-/

namespace Simdpp
open Spec Spec.Prog Spec.FProg Spec.MProg

variable {w N : Nat} {Γ : Nat → ETy} {t : ETy}

/-- The loop with a state, for any step which keeps the invariant `S` of the state and gives good results. -/
theorem kernelS_all {c : Cfg} (h : c.Ok) {k : Kind} (okW : k.okW w) (hN : c.KLen k w N) {σ : Type} {stp : Nat → σ → Mem → Option (σ × Vec w N)}
    {S : Nat → σ → Prop} {F : Nat → BitVec w → Prop} (be s : Bool) {q cnt : Nat} (m : Mem) {st : σ} (h0 : S 0 st)
    {P : Nat} (hP : P = (cnt + (N - 1)) / N * N) (hq : q % (c.regK k w N).bytes = 0) (hbq : m.Block q (P * (w / 8)))
    (step : ∀ i, i * N < cnt → (i + 1) * N ≤ P → ∀ x t (R : Nat → BitVec w), S i x → Done m t q (i * N) R →
      ∃ y res, stp i x t = some (y, res) ∧ S (i + 1) y ∧ ∀ l : Fin N, F (i * N + l.val) (res l)) :
    ∃ y m', kernelS c be k s w N stp q cnt st m = some (y, m') ∧ S ((cnt + (N - 1)) / N) y ∧ m'.ok = m.ok ∧
      (∀ j, j < cnt → ∃ y, F j y ∧ Holds m'.byte (q + j * (w / 8)) y) ∧
      ∀ a, a < q ∨ q + cnt * (w / 8) ≤ a → m'.byte a = m.byte a := by
  have hw := okW.isW
  obtain ⟨hr, K, hK, eN⟩ := KLen.regs h okW hN
  have hB := isW_bpos hw
  have hN0 : 0 < N := by rw [eN]; exact Nat.mul_pos hK (lanes_pos hw _)
  have eB : N * (w / 8) = K * (c.regK k w N).bytes := by
    conv_lhs => rw [eN]
    rw [Nat.mul_assoc, bytes_eq hw]
  have hq' : ∀ i, (q + i * (N * (w / 8))) % (c.regK k w N).bytes = 0 := fun i => by
    rw [Nat.add_mod, hq, eB, ← Nat.mul_assoc, Nat.mul_mod_left, Nat.zero_mod]
  have hdm := Nat.div_add_mod cnt N
  have hT : ∀ i, i * N < cnt → (i + 1) * N ≤ P := fun i hi => by
    rw [hP]
    refine Nat.mul_le_mul_right _ ((Nat.le_div_iff_mul_le hN0).2 ?_)
    rw [Nat.add_mul, Nat.one_mul]; omega
  have grow : ∀ i n (t : Mem) (R : Nat → BitVec w) (res : Vec w N), n ≤ N → Done m t q (i * N) R → (∀ j, j < i * N → F j (R j)) →
      (∀ l : Fin N, F (i * N + l.val) (res l)) →
      ∃ R', Done m (t.put (q + i * (N * (w / 8))) res (fun l => decide (l < n))) q (i * N + n) R' ∧
        ∀ j, j < i * N + n → F j (R' j) := fun i n t R res hn D hR hres => by
    let R' : Nat → BitVec w := fun j => if j < i * N then R j else res.at_ (j - i * N)
    have e1 : (fun l : Fin N => R' (i * N + l.val)) = res := funext fun l => by
      show (if _ then _ else _) = _
      rw [if_neg (by omega), Nat.add_sub_cancel_left, Vec.at_fin]
    have D' : Done m t q (i * N) R' := D.of_eq fun j hj => if_pos hj
    have S := D'.put okW hn
    rw [e1] at S
    refine ⟨R', S, fun j hj => ?_⟩
    show F _ (if _ then _ else _)
    split_ifs with g
    · exact hR j g
    · have := hres ⟨j - i * N, by omega⟩
      rw [Vec.at_lt _ (show j - i * N < N by omega)]
      rwa [show i * N + (j - i * N) = j by omega] at this
  have blk : ∀ i, i * N < cnt → ∀ t : Mem, t.ok = m.ok → t.Block (q + i * (N * (w / 8))) (N * (w / 8)) := fun i hi t et a g1 g2 => by
    have hle' := Nat.mul_le_mul_right (w / 8) (hT i hi)
    rw [Nat.add_mul, Nat.one_mul, Nat.add_mul, Nat.mul_assoc] at hle'
    rw [et]
    exact hbq a (by omega) (by omega)
  have hmul : cnt / N * N ≤ cnt := Nat.div_mul_le_self _ _
  obtain ⟨⟨y1, m1⟩, e1, S1, R1, D1, F1⟩ := loopM_inv (body := fun i (x : σ × Mem) => do
      let (st, y) ← stp i x.1 x.2
      let m ← store c k x.2 (q + i * (N * (w / 8))) y
      some (st, m)) (lo := 0)
    (m := cnt / N) (s := (st, m)) (fun i x => S i x.1 ∧ ∃ R, Done m x.2 q (i * N) R ∧ ∀ j, j < i * N → F j (R j))
    ⟨h0, fun _ => 0, ⟨rfl, fun j hj => by omega, fun _ _ => rfl⟩, fun j hj => by omega⟩ (fun i hi ⟨x, t⟩ ⟨hS, R, D, FR⟩ => by
      have hi' : i * N < cnt := by
        have := Nat.mul_le_mul_right N (show i + 1 ≤ cnt / N from hi)
        rw [Nat.add_mul, Nat.one_mul] at this
        omega
      obtain ⟨y, res, e, hS', hres⟩ := step i hi' (hT i hi') x t R hS D
      obtain ⟨R', G, FS⟩ := grow i N t R res (Nat.le_refl N) D FR hres
      rw [show i * N + N = (i + 1) * N by rw [Nat.add_mul, Nat.one_mul]] at G FS
      rw [Nat.zero_add]
      refine ⟨(y, _), (bind_of e _).trans (bind_of (store_eq h okW hN (hq' i) (blk i hi' t D.ok) _) _), hS', R', ?_, FS⟩
      have e2 : ∀ a : Vec w N, t.put (q + i * (N * (w / 8))) a (fun _ => true) = t.put (q + i * (N * (w / 8))) a (fun l => decide (l < N)) := fun a =>
        Mem.put_congr hw (fun i => (decide_eq_true i.isLt).symm) fun _ _ => rfl
      dsimp only
      rw [e2]
      exact G)
  by_cases g : cnt % N = 0
  · have e : cnt / N * N = cnt := by rw [Nat.mul_comm]; omega
    have ec : (cnt + (N - 1)) / N = cnt / N := by
      rw [Nat.div_eq_iff hN0]
      omega
    simp only [e] at D1 F1
    rw [ec]
    exact ⟨y1, m1, (bind_of e1 _).trans (if_pos g), S1, D1.ok, fun j hj => ⟨_, F1 j hj, D1.val j hj⟩, D1.rest⟩
  · have hlt : cnt / N * N < cnt := by rw [Nat.mul_comm]; omega
    have ec : (cnt + (N - 1)) / N = cnt / N + 1 := by
      rw [Nat.div_eq_iff hN0, Nat.add_mul, Nat.one_mul]
      have := Nat.mod_lt cnt hN0
      rw [Nat.mul_comm] at hdm
      omega
    obtain ⟨y, res, e, hS, hres⟩ := step _ hlt (hT _ hlt) y1 m1 R1 S1 D1
    obtain ⟨R', G, FS⟩ := grow _ (cnt % N) m1 R1 res (Nat.mod_lt cnt hN0).le D1 F1 hres
    rw [show cnt / N * N + cnt % N = cnt by rw [Nat.mul_comm]; omega] at G FS
    rw [ec]
    exact ⟨y, _, (bind_of e1 _).trans ((if_neg g).trans ((bind_of e _).trans
      (bind_of (store_first_eq h be s okW hN (hq' _) (blk _ hlt m1 D1.ok) _ (Nat.mod_lt cnt hN0)) _))), hS, G.ok, fun j hj => ⟨_, FS j hj, G.val j hj⟩, G.rest⟩

/-- **C71.** A loop over arrays in which each step hands a vector to the next one, with any expressions of C66 for the result and for the carried vector:
element `j` of step `i` of the output is the meaning of `e` on the elements from `i * N` on and on the carried vector, which is that of the
recurrence `carried`; no other byte changes. The hypotheses on the arrays are those of C66, and the expressions are defined in each step. -/
theorem C71_loop {c : Cfg} (h : c.Ok) (N : Nat) (E : Est) : ∃ I : (f : FWd) → Impl f.n,
    (∀ f, (I f).Ok ∧ (¬ c.mulByFma f.n (c.regK .flt f.n N) → (I f).mul = Fp.mul)) ∧
    ∀ (gnuc : Bool) (Γ : Nat → ETy) (t : ETy) (V : Nat) (nx : SExp Γ (Γ V)) (e : SExp Γ t) (be : Bool) (J : Junk c N) {p : Nat → Nat} {q cnt : Nat} (m : Mem)
      {A : (x : Nat) → Nat → BitVec (Γ x).w} {P : Nat} (s : Vec (Γ V).w N),
      P = (cnt + (N - 1)) / N * N →
      c.TLen t N → (∀ x, x < V → c.TLen (Γ x) N) →
      (∀ x, x < V → ∀ j, j < P → Holds m.byte (p x + j * ((Γ x).w / 8)) (A x j)) → (∀ x, V ≤ x → ∀ j, A x j = 0) →
      (∀ x, x < V → p x % (c.regK (Γ x).kind (Γ x).w N).bytes = 0) → q % (c.regK t.kind t.w N).bytes = 0 →
      (∀ x, x < V → m.Block (p x) (P * ((Γ x).w / 8))) → m.Block q (P * (t.w / 8)) →
      (∀ x, x < V → (q ≤ p x ∧ t.w ≤ (Γ x).w) ∨ p x + P * ((Γ x).w / 8) ≤ q ∨ q + P * (t.w / 8) ≤ p x) →
      (∀ i, i * N < cnt → e.Ok c N I N (stepVars I N V nx A s.at_ i) ∧ nx.Ok c N I N (stepVars I N V nx A s.at_ i)) →
      ∃ s' m', carryLoop c gnuc be E J V nx e p q cnt s m = some (s', m') ∧
        (∀ j : Fin N, s' j = carried I N V nx A s.at_ ((cnt + (N - 1)) / N) j.val) ∧ m'.ok = m.ok ∧
        (∀ i j, j < N → i * N + j < cnt → Holds m'.byte (q + (i * N + j) * (t.w / 8)) (e.den I (stepVars I N V nx A s.at_ i) j)) ∧
        ∀ a, a < q ∨ q + cnt * (t.w / 8) ≤ a → m'.byte a = m.byte a := by
  obtain ⟨I, h1, h2⟩ := impls_ex h N
  refine ⟨I, h2, fun gnuc Γ t V nx e be J p q cnt m A P s hP ht hT hA hV hp hq hb hbq hd ok => ?_⟩
  obtain ⟨s', m', e1, e2, e3, e4, e5⟩ := kernelS_all h (ETy.okW t) ht (stp := carryStep c gnuc E J V nx e p)
    (S := fun i y => ∀ j : Fin N, y j = carried I N V nx A s.at_ i j.val)
    (F := fun j y => y = e.den I (stepVars I N V nx A s.at_ (j / N)) (j % N)) be t.signed (q := q) (cnt := cnt) m (st := s)
    (fun j => (Vec.at_fin s j).symm) hP hq hbq fun i hi hle y r R hS D => by
      have ld : ∀ x, x < V → load c (Γ x).kind (Γ x).w N r (p x + i * (N * ((Γ x).w / 8))) = some (fun l : Fin N => A x (i * N + l.val)) := fun x hx => by
        have l1 := Nat.mul_le_mul_right ((Γ x).w / 8) hle
        refine load_done h (ETy.okW _) (hT x hx) (fun j hj => hA x hx j (by omega)) (hp x hx) (fun a g1 g2 => hb x hx a g1 (by omega)) ?_ D
        rcases hd x hx with ⟨g1, g2⟩ | g | g
        · have := Nat.mul_le_mul_left (i * N) (Nat.div_le_div_right (c := 8) g2)
          left; omega
        · right; omega
        · have := Nat.mul_le_mul_right (t.w / 8) (show i * N ≤ P by rw [Nat.add_mul, Nat.one_mul] at hle; omega)
          left; omega
      have el : loadsM (Γ := Γ) c N p i r V = some (fun x (l : Fin N) => A x (i * N + l.val)) := by
        rw [loadsM_eq _ V ld]
        refine congrArg some (funext fun x => ?_)
        split_ifs with g
        · rfl
        · exact funext fun l => (hV x (by omega) _).symm
      have hρ : ∀ x j, j < N → lanesOf (Function.update (fun x (l : Fin N) => A x (i * N + l.val)) V y) x j = stepVars I N V nx A s.at_ i x (0 + j) := fun x j hj => by
        rw [Nat.zero_add]
        unfold lanesOf stepVars
        refine (Vec.at_lt _ hj).trans ?_
        by_cases g : x = V
        · subst g
          rw [Function.update_self, Function.update_self]
          exact hS ⟨j, hj⟩
        · rw [Function.update_of_ne g, Function.update_of_ne g]
      obtain ⟨o1, o2⟩ := ok i hi
      have r1 := SExp.run_eq h gnuc h1 E J _ e (SExp.Ok.shift h (Nat.dvd_zero N) (Nat.le_of_eq (Nat.zero_add N)) hρ e o1)
      have r2 := SExp.run_eq h gnuc h1 E J _ nx (SExp.Ok.shift h (Nat.dvd_zero N) (Nat.le_of_eq (Nat.zero_add N)) hρ nx o2)
      refine ⟨_, _, (bind_of el _).trans ((bind_of r1 _).trans (bind_of r2 _)), fun j => ?_, fun l => ?_⟩
      · refine (SExp.den_shift h (Nat.dvd_zero N) hρ nx o2 j.val j.isLt).trans ?_
        rw [Nat.zero_add]
        rfl
      · refine (SExp.den_shift h (Nat.dvd_zero N) hρ e o1 l.val l.isLt).trans ?_
        have hN0 : 0 < N := Nat.zero_lt_of_lt l.isLt
        rw [Nat.zero_add, Nat.mul_comm i N, Nat.mul_add_div hN0, Nat.div_eq_of_lt l.isLt, Nat.add_zero, Nat.mul_add_mod, Nat.mod_eq_of_lt l.isLt]
  refine ⟨s', m', e1, e2, e3, fun i j hj hlt => ?_, e5⟩
  obtain ⟨y, ey, hy⟩ := e4 _ hlt
  have hN0 : 0 < N := Nat.zero_lt_of_lt hj
  rw [Nat.mul_comm i N, Nat.mul_add_div hN0, Nat.div_eq_of_lt hj, Nat.add_zero, Nat.mul_add_mod, Nat.mod_eq_of_lt hj] at ey
  exact ey ▸ hy

end Simdpp
