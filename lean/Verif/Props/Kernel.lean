import Verif.Props.Prog
import Verif.Props.Expr

/-!
# C54 (types), C55: array kernels
-/

namespace Simdpp
open Spec Spec.Prog

namespace Expr

/-- The category of a vector of signed or unsigned elements. -/
def catS (s : Bool) : Cat := if s then .int else .uint

/-- **C54.** The signedness of expression results in `Spec.Prog.Exp` is the library's: arithmetic, bitwise operators, operators with a mask, `blend`. -/
theorem C54_types (s t : Bool) (w : Width) (B : Nat) :
    (get_expr_uint (.vec (ty ⟨catS s, w⟩ B)) (.vec (ty ⟨catS t, w⟩ B))).map Expr2.ty = some (ty ⟨catS (s && t), w⟩ B) ∧
    (get_expr_bitwise2_and (.vec (ty ⟨catS s, w⟩ B)) (.vec (ty ⟨catS t, w⟩ B))).map Expr2.ty = some (ty ⟨catS (s && t), w⟩ B) ∧
    (get_expr_bit_or (.vec (ty ⟨catS s, w⟩ B)) (.vec (ty ⟨catS t, w⟩ B))).map Expr2.ty = some (ty ⟨catS (s && t), w⟩ B) ∧
    (get_expr_bitwise2_and (.vec (ty ⟨catS s, w⟩ B)) (.vec (ty ⟨.mask_int, w⟩ B))).map Expr2.ty = some (ty ⟨catS s, w⟩ B) ∧
    (get_expr_blend (ty ⟨catS s, w⟩ B) (ty ⟨catS t, w⟩ B) (ty ⟨.mask_int, w⟩ B)).map Expr3.ty = some (ty ⟨catS (s && t), w⟩ B) := by
  have k1 : ∀ s w, (⟨catS s, w⟩ : Elem).ok = true := by decide +kernel
  have k2 : ∀ s w, (⟨catS s, w⟩ : Elem).isInt = true := by decide +kernel
  have k3 : ∀ w, (⟨.mask_int, w⟩ : Elem).ok = true := by decide +kernel
  have p1 : ∀ s t w, Elem.promote ⟨catS s, w⟩ ⟨catS t, w⟩ = ⟨catS (s && t), w⟩ := by decide +kernel
  have p2 : ∀ s w, Elem.promote ⟨catS s, w⟩ ⟨.mask_int, w⟩ = ⟨catS s, w⟩ := by decide +kernel
  have p3 : ∀ s, (catS s).unmask = catS s := by decide +kernel
  obtain ⟨⟨e2, -, -, q1, -⟩, q2⟩ := C42_bitwise ⟨catS s, w⟩ ⟨catS t, w⟩ (k1 s w) (k1 t w) B
  obtain ⟨⟨e2', -, -, q3, -⟩, -⟩ := C42_bitwise ⟨catS s, w⟩ ⟨.mask_int, w⟩ (k1 s w) (k3 w) B
  obtain ⟨e3, q4, -⟩ := C42_blend ⟨catS s, w⟩ ⟨catS t, w⟩ ⟨.mask_int, w⟩ (k1 s w) (k1 t w) (k3 w) B
  rw [(C42_uint ⟨catS s, w⟩ ⟨catS t, w⟩ (k2 s w) (k2 t w) rfl B).1, q1, q2, q3, q4]
  simp only [Option.map_some, p1, p2, p3, and_self]

end Expr

variable {w N : Nat}

section
variable {c : Cfg} (h : c.Ok) {k : Kind} (okW : k.okW w) (hN : c.KLen k w N)
include h okW hN

omit h hN in
/-- A value is determined by its bytes. -/
theorem holds_inj {byte : Nat → BitVec 8} {a : Nat} {x y : BitVec w} (hx : Holds byte a x) (hy : Holds byte a y) : x = y := by
  have h8 := isW_b8 okW.isW
  apply BitVec.eq_of_getLsbD_eq
  intro i hi
  have hj : i / 8 < w / 8 := by omega
  have e := (hx _ hj).symm.trans (hy _ hj)
  have e := congrArg (fun b : BitVec 8 => b.getLsbD (i % 8)) e
  simp only [byteOf, BitVec.getLsbD_extractLsb', show 8 * (i / 8) + i % 8 = i by omega, show i % 8 < 8 by omega, decide_true, Bool.true_and] at e
  exact e

/-- State after the first `n` elements are written. -/
structure Done (m m' : Mem) (q n : Nat) (R : Nat → BitVec w) : Prop where
  ok : m'.ok = m.ok
  val : ∀ j, j < n → Holds m'.byte (q + j * (w / 8)) (R j)
  rest : ∀ a, a < q ∨ q + n * (w / 8) ≤ a → m'.byte a = m.byte a

/-- What the evaluator does with each lane: `F ρ y` says that `y` is a right result for the lanes `ρ` of the variables. -/
def Evals {w N : Nat} (ev : (Nat → Vec w N) → Option (Vec w N)) (F : (Nat → BitVec w) → BitVec w → Prop) (D : (Nat → Vec w N) → Prop) : Prop :=
  ∀ env, D env → ∃ res, ev env = some res ∧ ∀ j, F (fun x => env x j) (res j)

theorem kernelStep_eq {ev : (Nat → Vec w N) → Option (Vec w N)} {F : (Nat → BitVec w) → BitVec w → Prop} {G : (Nat → Vec w N) → Prop}
    (hev : Evals ev F G) {V : Nat} {p : Nat → Nat} {q i : Nat} {m m' : Mem} {A : Nat → Nat → BitVec w}
    (hA : ∀ x, x < V → ∀ j, j < (i + 1) * N → Holds m.byte (p x + j * (w / 8)) (A x j)) (hV : ∀ x, V ≤ x → ∀ j, A x j = 0)
    (hp : ∀ x, x < V → p x % (c.regK k w N).bytes = 0) (hb : ∀ x, x < V → m.Block (p x) ((i + 1) * N * (w / 8)))
    (hd : ∀ x, x < V → q ≤ p x ∨ p x + (i + 1) * N * (w / 8) ≤ q)
    (ok : G (fun x (j : Fin N) => A x (i * N + j.val)))
    {R : Nat → BitVec w} (D : Done m m' q (i * N) R) :
    ∃ res, kernelStep c k w N V ev p i m' = some res ∧ ∀ l : Fin N, F (fun x => A x (i * N + l.val)) (res l) := by
  have hw := okW.isW
  obtain ⟨hr, K, -, eN⟩ := KLen.regs h okW hN
  have hB := isW_bpos hw
  have eB : N * (w / 8) = K * (c.regK k w N).bytes := by
    conv_lhs => rw [eN]
    rw [Nat.mul_assoc, bytes_eq hw]
  have e1 : (i + 1) * N * (w / 8) = i * (N * (w / 8)) + N * (w / 8) := by rw [Nat.add_mul, Nat.add_mul, Nat.one_mul, Nat.mul_assoc]
  have ld : ∀ x : Fin V, load c k w N m' (p x.val + i * (N * (w / 8))) = some (fun l => A x.val (i * N + l.val)) := fun x => by
    have hb' := hb x.val x.isLt
    rw [load_eq h okW hN]
    · refine congrArg some (funext fun l => ?_)
      refine holds_inj okW (Mem.get_holds hw m' _ l) fun j hj => ?_
      have hl : (i * N + l.val) * (w / 8) + w / 8 ≤ i * (N * (w / 8)) + N * (w / 8) := by
        rw [← e1]
        calc (i * N + l.val) * (w / 8) + w / 8 = (i * N + l.val + 1) * (w / 8) := by rw [Nat.add_mul (i * N + l.val), Nat.one_mul]
          _ ≤ _ := Nat.mul_le_mul_right _ (by have := l.isLt; rw [Nat.add_mul, Nat.one_mul]; omega)
      have e2 : p x.val + i * (N * (w / 8)) + l.val * (w / 8) = p x.val + (i * N + l.val) * (w / 8) := by
        rw [Nat.add_mul (i * N), Nat.mul_assoc]; omega
      have e3 : i * N * (w / 8) = i * (N * (w / 8)) := Nat.mul_assoc _ _ _
      have e4 : i * N * (w / 8) ≤ (i * N + l.val) * (w / 8) := Nat.mul_le_mul_right _ (by omega)
      rw [e2, D.rest, hA x.val x.isLt (i * N + l.val) (by have := l.isLt; rw [Nat.add_mul, Nat.one_mul]; omega) j hj]
      rcases hd x.val x.isLt with g | g
      · right; omega
      · left; omega
    · rw [Nat.add_mod, hp x.val x.isLt, eB, ← Nat.mul_assoc, Nat.mul_mod_left, Nat.zero_mod]
    · intro a g1 g2
      rw [D.ok]
      exact hb' a (by omega) (by omega)
  obtain ⟨res, e, hres⟩ := hev _ ok
  refine ⟨res, ?_, hres⟩
  show (lanesM _).bind _ = _
  rw [lanesM_eq_some.2 ld]
  refine (congrArg ev (?_ : _ = fun x => fun l : Fin N => A x (i * N + l.val))).trans e
  funext x l
  split_ifs with g
  · rfl
  · exact (hV x (by omega) _).symm

omit h hN in
theorem Done.put {m m' : Mem} {q i n : Nat} {R : Nat → BitVec w} (D : Done m m' q (i * N) R) (hn : n ≤ N) :
    Done m (m'.put (q + i * (N * (w / 8))) (fun l : Fin N => R (i * N + l.val)) (fun l => decide (l < n))) q (i * N + n) R := by
  have hw := okW.isW
  have hB := isW_bpos hw
  have S := stored_put hw m' (q + i * (N * (w / 8))) (fun l : Fin N => R (i * N + l.val)) (fun l => decide (l < n))
    (S := fun l => l.val < n) (fun l => by simp)
  have e3 : i * N * (w / 8) = i * (N * (w / 8)) := Nat.mul_assoc _ _ _
  refine ⟨S.1.trans D.ok, fun j hj => ?_, fun a ha => ?_⟩
  · by_cases g : j < i * N
    · intro k hk
      have hl : j * (w / 8) + w / 8 ≤ i * N * (w / 8) := by
        calc j * (w / 8) + w / 8 = (j + 1) * (w / 8) := by rw [Nat.add_mul, Nat.one_mul]
          _ ≤ _ := Nat.mul_le_mul_right _ g
      rw [S.2.2 _ fun l hl' => ?_]
      · exact D.val j g k hk
      · unfold InElem; omega
    · have hjn : j - i * N < N := by omega
      have := S.2.1 ⟨j - i * N, hjn⟩ (show j - i * N < n by omega)
      have e : q + i * (N * (w / 8)) + (j - i * N) * (w / 8) = q + j * (w / 8) := by
        rw [← e3, Nat.sub_mul]
        have := Nat.mul_le_mul_right (w / 8) (show i * N ≤ j by omega)
        omega
      simp only [e, show i * N + (j - i * N) = j by omega] at this
      exact this
  · rw [Nat.add_mul] at ha
    rw [S.2.2 a fun l hl => ?_]
    · refine D.rest a ?_
      omega
    · have hle : l.val * (w / 8) + w / 8 ≤ n * (w / 8) := by
        calc l.val * (w / 8) + w / 8 = (l.val + 1) * (w / 8) := by rw [Nat.add_mul, Nat.one_mul]
          _ ≤ _ := Nat.mul_le_mul_right _ hl
      have e5 : (l.val + 1) * (w / 8) = l.val * (w / 8) + w / 8 := by rw [Nat.add_mul, Nat.one_mul]
      unfold InElem
      rw [e5]
      omega

omit h okW hN in
theorem Done.of_eq {m m' : Mem} {q n : Nat} {R R' : Nat → BitVec w} (D : Done m m' q n R) (e : ∀ j, j < n → R' j = R j) : Done m m' q n R' :=
  ⟨D.ok, fun j hj => (e j hj).symm ▸ D.val j hj, D.rest⟩

/-- The loop, for any step which gives good results (`F j y`: `y` is a right result for element `j`) as long as only earlier elements of the
output are changed. -/
theorem kernelG_all {stp : Nat → Mem → Option (Vec w N)} {F : Nat → BitVec w → Prop} (be s : Bool) {q cnt : Nat} (m : Mem)
    {P : Nat} (hP : P = (cnt + (N - 1)) / N * N) (hq : q % (c.regK k w N).bytes = 0) (hbq : m.Block q (P * (w / 8)))
    (step : ∀ i, i * N < cnt → (i + 1) * N ≤ P → ∀ t (R : Nat → BitVec w), Done m t q (i * N) R → ∃ res, stp i t = some res ∧ ∀ l : Fin N, F (i * N + l.val) (res l)) :
    ∃ m', kernelG c be k s w N stp q cnt m = some m' ∧ m'.ok = m.ok ∧
      (∀ j, j < cnt → ∃ y, F j y ∧ Holds m'.byte (q + j * (w / 8)) y) ∧
      ∀ a, a < q ∨ q + cnt * (w / 8) ≤ a → m'.byte a = m.byte a := by
  have hw := okW.isW
  obtain ⟨hr, K, hK, eN⟩ := KLen.regs h okW hN
  have hB := isW_bpos hw
  have hN0 : 0 < N := by rw [eN]; exact Nat.mul_pos hK (lanes_pos hw _)
  have eB : N * (w / 8) = K * (c.regK k w N).bytes := by
    conv_lhs => rw [eN]
    rw [Nat.mul_assoc, bytes_eq hw]
  have hq' : ∀ i, (q + i * (N * (w / 8))) % (c.regK k w N).bytes = 0 := fun i => by
    rw [Nat.add_mod, hq, eB, ← Nat.mul_assoc, Nat.mul_mod_left, Nat.zero_mod]
  have hdm := Nat.div_add_mod cnt N
  have hT : ∀ i, i * N < cnt → (i + 1) * N ≤ P := fun i hi => by
    rw [hP]
    refine Nat.mul_le_mul_right _ ((Nat.le_div_iff_mul_le hN0).2 ?_)
    rw [Nat.add_mul, Nat.one_mul]; omega
  have grow : ∀ i n (t : Mem) (R : Nat → BitVec w) (res : Vec w N), n ≤ N → Done m t q (i * N) R → (∀ j, j < i * N → F j (R j)) →
      (∀ l : Fin N, F (i * N + l.val) (res l)) →
      ∃ R', Done m (t.put (q + i * (N * (w / 8))) res (fun l => decide (l < n))) q (i * N + n) R' ∧
        ∀ j, j < i * N + n → F j (R' j) := fun i n t R res hn D hR hres => by
    let R' : Nat → BitVec w := fun j => if j < i * N then R j else res.at_ (j - i * N)
    have e1 : (fun l : Fin N => R' (i * N + l.val)) = res := funext fun l => by
      show (if _ then _ else _) = _
      rw [if_neg (by omega), Nat.add_sub_cancel_left, Vec.at_fin]
    have D' : Done m t q (i * N) R' := D.of_eq fun j hj => if_pos hj
    have S := D'.put okW hn
    rw [e1] at S
    refine ⟨R', S, fun j hj => ?_⟩
    show F _ (if _ then _ else _)
    split_ifs with g
    · exact hR j g
    · have := hres ⟨j - i * N, by omega⟩
      rw [Vec.at_lt _ (show j - i * N < N by omega)]
      rwa [show i * N + (j - i * N) = j by omega] at this
  have blk : ∀ i, i * N < cnt → ∀ t : Mem, t.ok = m.ok → t.Block (q + i * (N * (w / 8))) (N * (w / 8)) := fun i hi t et a g1 g2 => by
    have hle' := Nat.mul_le_mul_right (w / 8) (hT i hi)
    rw [Nat.add_mul, Nat.one_mul, Nat.add_mul, Nat.mul_assoc] at hle'
    rw [et]
    exact hbq a (by omega) (by omega)
  have hmul : cnt / N * N ≤ cnt := Nat.div_mul_le_self _ _
  obtain ⟨m1, e1, R1, D1, F1⟩ := loopM_inv (body := fun i m => do store c k m (q + i * (N * (w / 8))) (← stp i m)) (lo := 0)
    (m := cnt / N) (s := m) (fun i t => ∃ R, Done m t q (i * N) R ∧ ∀ j, j < i * N → F j (R j))
    ⟨fun _ => 0, ⟨rfl, fun j hj => by omega, fun _ _ => rfl⟩, fun j hj => by omega⟩ (fun i hi t ⟨R, D, FR⟩ => by
      have hi' : i * N < cnt := by
        have := Nat.mul_le_mul_right N (show i + 1 ≤ cnt / N from hi)
        rw [Nat.add_mul, Nat.one_mul] at this
        omega
      obtain ⟨res, e, hres⟩ := step i hi' (hT i hi') t R D
      obtain ⟨R', S, FS⟩ := grow i N t R res (Nat.le_refl N) D FR hres
      rw [show i * N + N = (i + 1) * N by rw [Nat.add_mul, Nat.one_mul]] at S FS
      rw [Nat.zero_add]
      refine ⟨_, (bind_of e _).trans (store_eq h okW hN (hq' i) (blk i hi' t D.ok) _), ?_⟩
      have e2 : ∀ a : Vec w N, t.put (q + i * (N * (w / 8))) a (fun _ => true) = t.put (q + i * (N * (w / 8))) a (fun l => decide (l < N)) := fun a =>
        Mem.put_congr hw (fun i => (decide_eq_true i.isLt).symm) fun _ _ => rfl
      rw [e2]
      exact ⟨R', S, FS⟩)
  by_cases g : cnt % N = 0
  · have e : cnt / N * N = cnt := by rw [Nat.mul_comm]; omega
    rw [e] at D1 F1
    exact ⟨m1, (bind_of e1 _).trans (if_pos g), D1.ok, fun j hj => ⟨_, F1 j hj, D1.val j hj⟩, D1.rest⟩
  · have hlt : cnt / N * N < cnt := by rw [Nat.mul_comm]; omega
    obtain ⟨res, e, hres⟩ := step _ hlt (hT _ hlt) m1 R1 D1
    obtain ⟨R', S, FS⟩ := grow _ (cnt % N) m1 R1 res (Nat.mod_lt cnt hN0).le D1 F1 hres
    rw [show cnt / N * N + cnt % N = cnt by rw [Nat.mul_comm]; omega] at S FS
    exact ⟨_, (bind_of e1 _).trans ((if_neg g).trans ((bind_of e _).trans
      (store_first_eq h be s okW hN (hq' _) (blk _ hlt m1 D1.ok) _ (Nat.mod_lt cnt hN0)))), S.ok, fun j hj => ⟨_, FS j hj, S.val j hj⟩, S.rest⟩

/-- The loop, for any evaluator which works lane by lane. -/
theorem kernel_all {ev : (Nat → Vec w N) → Option (Vec w N)} {F : (Nat → BitVec w) → BitVec w → Prop} {G : (Nat → Vec w N) → Prop}
    (hev : Evals ev F G) (be s : Bool) {V : Nat} {p : Nat → Nat} {q cnt : Nat} (m : Mem)
    {A : Nat → Nat → BitVec w} {P : Nat} (hP : P = (cnt + (N - 1)) / N * N)
    (hA : ∀ x, x < V → ∀ j, j < P → Holds m.byte (p x + j * (w / 8)) (A x j)) (hV : ∀ x, V ≤ x → ∀ j, A x j = 0)
    (hp : ∀ x, x < V → p x % (c.regK k w N).bytes = 0) (hq : q % (c.regK k w N).bytes = 0)
    (hb : ∀ x, x < V → m.Block (p x) (P * (w / 8))) (hbq : m.Block q (P * (w / 8)))
    (hd : ∀ x, x < V → q ≤ p x ∨ p x + P * (w / 8) ≤ q)
    (ok : ∀ i, (i + 1) * N ≤ P → G (fun x (j : Fin N) => A x (i * N + j.val))) :
    ∃ m', kernel c be k s w N V ev p q cnt m = some m' ∧ m'.ok = m.ok ∧
      (∀ j, j < cnt → ∃ y, F (fun x => A x j) y ∧ Holds m'.byte (q + j * (w / 8)) y) ∧
      ∀ a, a < q ∨ q + cnt * (w / 8) ≤ a → m'.byte a = m.byte a := by
  refine kernelG_all h okW hN (F := fun j => F (fun x => A x j)) be s m hP hq hbq fun i hi hle t R D => ?_
  have hle' := Nat.mul_le_mul_right (w / 8) hle
  exact kernelStep_eq h okW hN hev (fun x hx j hj => hA x hx j (by omega)) hV hp (fun x hx a g1 g2 => hb x hx a g1 (by omega))
    (fun x hx => (hd x hx).imp id (by omega)) (ok i hle) D
end

/-- **C55.** The vectorised loop is the scalar loop `for (j = 0; j < cnt; ++j) out[j] = f(in_0[j], .., in_{V-1}[j])`: after it every element of the output holds the
scalar result on the values the inputs had at the start, and no other byte has changed, for every element count (a multiple of the vector
length or not), every build and every vector length. The arrays are aligned to the register and may be accessed up to a multiple of the vector
length; an input which overlaps the output does not start before it (`in == out` is allowed). `A x j` is element `j` of input `x`;
every operator is defined on the elements, including the padding. -/
theorem C55_kernel {c : Cfg} (h : c.Ok) (hw : IsW w) (hN : c.VLen w N) {sg : Nat → Bool} {s : Bool} (e : Exp sg (.vec s)) (be : Bool) {V : Nat} {p : Nat → Nat} {q cnt : Nat} (m : Mem)
    {A : Nat → Nat → BitVec w} (jv : Nat → Vec w ((c.regK .int w N).lanes w)) (jm : Nat → Mask w ((c.regK .int w N).lanes w)) {P : Nat}
    (hP : P = (cnt + (N - 1)) / N * N)
    (hA : ∀ x, x < V → ∀ j, j < P → Holds m.byte (p x + j * (w / 8)) (A x j)) (hV : ∀ x, V ≤ x → ∀ j, A x j = 0)
    (hp : ∀ x, x < V → p x % (c.regK .int w N).bytes = 0) (hq : q % (c.regK .int w N).bytes = 0)
    (hb : ∀ x, x < V → m.Block (p x) (P * (w / 8))) (hbq : m.Block q (P * (w / 8)))
    (hd : ∀ x, x < V → q ≤ p x ∨ p x + P * (w / 8) ≤ q)
    (ok : e.Ok c (c.regK .int w N) (fun (j : Fin P) x => A x j.val)) :
    ∃ m', kernel c be .int s w N V (evalV c w N jv jm e) p q cnt m = some m' ∧ m'.ok = m.ok ∧
      (∀ j, j < cnt → Holds m'.byte (q + j * (w / 8)) (e.den fun x => A x j)) ∧
      ∀ a, a < q ∨ q + cnt * (w / 8) ≤ a → m'.byte a = m.byte a := by
  obtain ⟨m', e1, e2, e3, e4⟩ := kernel_all h (k := .int) hw hN (ev := evalV c w N jv jm e) (F := fun ρ y => y = e.den ρ)
    (G := fun env => e.Ok c (c.regK .int w N) (fun (j : Fin N) x => env x j))
    (fun env g => ⟨_, C54_eval h hw hN e jv jm env g, fun _ => rfl⟩) be s m hP hA hV hp hq hb hbq hd
    (fun i hi => Exp.Ok.comp (fun j : Fin N => (⟨i * N + j.val, by have := j.isLt; rw [Nat.add_mul, Nat.one_mul] at hi; omega⟩ : Fin P)) e ok)
  refine ⟨m', e1, e2, fun j hj => ?_, e4⟩
  obtain ⟨y, ey, hy⟩ := e3 j hj
  exact ey ▸ hy

/-- `a[j] = a[j] + b[j]` for five `int32` elements, in place, with 128-bit registers: one full vector and one partial one. -/
example (m : Mem) (hm : ∀ x, m.ok x = true) (jv jm) :
    ∃ m', kernel Cfg.sse2Only false .int true 32 4 2 (evalV Cfg.sse2Only 32 4 jv jm (.op2 .add (.var 0) (.var 1) : Exp (fun _ => true) (.vec true))) (fun x => 64 + x * 64) 64 5 m = some m' ∧
      (∀ j, j < 5 → Holds m'.byte (64 + j * 4)
        (Spec.lane 32 (((m.get 32 1 (64 + j * 4)).at_ 0).toInt + ((m.get 32 1 (128 + j * 4)).at_ 0).toInt))) ∧
      ∀ a, a < 64 ∨ 84 ≤ a → m'.byte a = m.byte a := by
  have hH : ∀ a, Holds m.byte a ((m.get 32 1 a).at_ 0) := fun a => by
    have := Mem.get_holds (n := 1) iw32 m a 0
    rwa [Fin.val_zero, Nat.zero_mul, Nat.add_zero] at this
  obtain ⟨m', h1, -, h2, h3⟩ := C55_kernel (w := 32) (N := 4) Cfg.sse2Only_ok iw32 (Or.inl ⟨.r128, by decide +kernel, by decide +kernel⟩)
    (.op2 .add (.var 0) (.var 1) : Exp (fun _ => true) (.vec true)) false (V := 2) (p := fun x => 64 + x * 64) (q := 64) (cnt := 5) m
    (A := fun x j => if x < 2 then (m.get 32 1 (64 + x * 64 + j * 4)).at_ 0 else 0) jv jm (P := 8) (by decide)
    (fun x hx j _ => by rw [if_pos hx]; exact hH _) (fun x hx j => if_neg (by omega))
    (fun x hx => by
      have : Reg.bytes (Cfg.sse2Only.regK .int 32 4) = 16 := by decide +kernel
      rw [this]; omega)
    (by decide +kernel) (fun _ _ _ _ _ => hm _) (fun _ _ _ => hm _) (fun x _ => Or.inl (by omega)) ⟨trivial, trivial, trivial⟩
  exact ⟨m', h1, h2, h3⟩

end Simdpp
