import Verif.Model.Gemm
import Verif.Props.Tiles
import Verif.Props.SetSplat
import Verif.Props.MProg
import Verif.Props.FSum

/-!
# C70: matrix products
-/

namespace Simdpp
open Spec Spec.MProg Spec.FProg Spec.Prog

variable {w N : Nat}

/-- The variables of the inner expression, one lane. -/
def env1 {t a b : ETy} (s : BitVec t.w) (x : BitVec a.w) (y : BitVec b.w) : (v : Nat) → BitVec (Ty3 t a b v).w
  | 0 => s
  | 1 => x
  | _ + 2 => y

theorem env3_lane {t a b : ETy} (s : Vec t.w N) (x : Vec a.w N) (y : Vec b.w N) (j : Fin N) :
    (fun v => env3 s x y v j) = env1 (s j) (x j) (y j) := by
  funext v
  match v with
  | 0 => rfl
  | 1 => rfl
  | _ + 2 => rfl

/-- Element of the result after `n` steps: `e` applied `n` times, in the order of the index. -/
def prodElem {t a b : ETy} (I : (f : FWd) → Impl f.n) (e : MExp (Ty3 t a b) t) (s : BitVec t.w) (x : Nat → BitVec a.w) (y : Nat → BitVec b.w) : Nat → BitVec t.w :=
  foldPairs (fun s x y => e.den I (env1 s x y)) s x y

section
variable {c : Cfg} (h : c.Ok) {k : Kind}
include h

theorem reg_row (okW : k.okW w) (hN : c.KLen k w N) : N * (w / 8) % (c.regK k w N).bytes = 0 := by
  obtain ⟨-, K, -, e⟩ := KLen.regs h okW hN
  revert e
  generalize c.regK k w N = r
  intro e
  have : r.lanes w * (w / 8) = r.bytes := by
    rcases okW.isW with g | g | g | g <;> subst g <;> cases r <;> rfl
  rw [e, Nat.mul_assoc, this, Nat.mul_mod_left]

theorem row_al (okW : k.okW w) (hN : c.KLen k w N) {p P : Nat} (hp : p % (c.regK k w N).bytes = 0) (hP : N ∣ P) (y j : Nat) :
    (p + (y * P + j * N) * (w / 8)) % (c.regK k w N).bytes = 0 := by
  obtain ⟨z, rfl⟩ := hP
  have e : p + (y * (N * z) + j * N) * (w / 8) = p + (y * z + j) * (N * (w / 8)) := by ring
  rw [e, Nat.add_mod, hp, Nat.mul_mod, reg_row h okW hN, Nat.mul_zero, Nat.zero_mod, Nat.zero_mod]

theorem load_row (okW : k.okW w) (hN : c.KLen k w N) {m : Mem} {p P H W : Nat} {A : Nat → Nat → BitVec w} (hA : IsMatrix m p P H W A)
    (hp : p % (c.regK k w N).bytes = 0) (hP : N ∣ P) {y j : Nat} (hy : y < H) (hj : (j + 1) * N ≤ W) :
    load c k w N m (p + (y * P + j * N) * (w / 8)) = some fun l => A y (j * N + l.val) := by
  rw [Nat.add_mul, Nat.one_mul] at hj
  have l1 := Nat.mul_le_mul_right (w / 8) hj
  rw [load_eq h okW hN (row_al h okW hN hp hP y j) (fun a g1 g2 => hA.acc y hy a ?_ ?_)]
  · refine congrArg some (Mem.get_eq okW.isW fun l => ?_)
    have hl := l.isLt
    have := hA.val y (j * N + l.val) hy (by omega)
    rwa [show p + (y * P + (j * N + l.val)) * (w / 8) = p + (y * P + j * N) * (w / 8) + l.val * (w / 8) by ring] at this
  · rw [Nat.add_mul _ (j * N)] at g1; omega
  · rw [Nat.add_mul _ (j * N)] at g2; rw [Nat.add_mul (j * N)] at l1; omega

end

/-- Memory outside of the result is what it was: a matrix disjoint from it keeps its elements. -/
theorem Mat.keep {v : Nat} {m s : Mem} {q Q H' W' : Nat} {f : Nat → Nat → BitVec v} (S : Mat m s q Q H' W' f) {p P H W : Nat} {A : Nat → Nat → BitVec w}
    (hA : ∀ y x, y < H → x < W → Holds m.byte (p + (y * P + x) * (w / 8)) (A y x))
    (hd : ∀ z, InMatrix w p P H W z → ¬ InMatrix v q Q H' W' z) :
    ∀ y x, y < H → x < W → Holds s.byte (p + (y * P + x) * (w / 8)) (A y x) := fun y x hy hx b hb => by
  rw [S.rest _ (notIn_rest (hd _ ⟨y, x, hy, hx, ?_, ?_⟩))]
  · exact hA y x hy hx b hb
  · rw [Nat.add_mul]; omega
  · rw [Nat.add_mul, Nat.add_mul x, Nat.one_mul]; omega

/-- The matrices: `A` with `M` rows and `K` columns, `B` with `K` rows and `V * N` columns, `C` with `M` rows and `V * N` columns; the result `C` overlaps
neither `A` nor `B`; rows of `B` and `C` are aligned. -/
structure Gemm (c : Cfg) (N : Nat) (t a b : ETy) (m : Mem) (pa la pb lb pc lc M K V : Nat) (A : Nat → Nat → BitVec a.w) (B : Nat → Nat → BitVec b.w)
    (C : Nat → Nat → BitVec t.w) : Prop where
  tt : c.TLen t N
  ta : c.TLen a N
  tb : c.TLen b N
  va : ∀ i x, i < M → x < K → Holds m.byte (pa + (i * la + x) * (a.w / 8)) (A i x)
  aa : ∀ i x, i < M → x < K → m.Block (pa + (i * la + x) * (a.w / 8)) (c.splatLen a.kind a.w)
  vb : IsMatrix m pb lb K (V * N) B
  vc : IsMatrix m pc lc M (V * N) C
  ea : pa % (a.w / 8) = 0
  eb : pb % (c.regK b.kind b.w N).bytes = 0
  ec : pc % (c.regK t.kind t.w N).bytes = 0
  wb : N ∣ lb
  wc : N ∣ lc
  wd : V * N ≤ lc
  da : ∀ z, InMatrix a.w pa la M K z → ¬ InMatrix t.w pc lc M (V * N) z
  db : ∀ z, InMatrix b.w pb lb K (V * N) z → ¬ InMatrix t.w pc lc M (V * N) z
  /-- `load_splat` of bytes on SSE builds without AVX2 (C51) -/
  s8 : a.kind = .int → a.w = 8 → c.sse2 = true → c.avx2 = false → ∀ i x, i < M → x < K → (A i x).toNat < 128

section
variable {c : Cfg} (h : c.Ok) {t a b : ETy}
include h

theorem gemmDot_eq {I : (f : FWd) → Impl f.n} (hI : IsImpls c N I) (gnuc : Bool) (E : Est) (J : Nat → Junk c N) (junk : Nat → BitVec a.w) (e : MExp (Ty3 t a b) t)
    {m s : Mem} {pa la pb lb pc lc M K V : Nat} {A : Nat → Nat → BitVec a.w} {B : Nat → Nat → BitVec b.w} {C : Nat → Nat → BitVec t.w}
    (G : Gemm c N t a b m pa la pb lb pc lc M K V A B C)
    (ok : ∀ i x, i < M → x < K → e.Ok c N I fun (j : Fin (V * N)) => env1 (prodElem I e (C i j.val) (A i) (fun x => B x j.val) x) (A i x) (B x j.val))
    {f : Nat → Nat → BitVec t.w} (S : Mat m s pc lc M (V * N) f) {i j : Nat} (hi : i < M) (hj : j < V) :
    gemmDot c gnuc E J junk e (pa + i * la * (a.w / 8)) (pb + j * N * (b.w / 8)) lb K s (fun l => C i (j * N + l.val)) =
      some fun l => prodElem I e (C i (j * N + l.val)) (A i) (fun x => B x (j * N + l.val)) K := by
  have lj := Nat.mul_le_mul_right N (show j + 1 ≤ V from hj)
  have lj' := lj
  rw [Nat.add_mul, Nat.one_mul] at lj'
  unfold gemmDot
  obtain ⟨v, e1, rfl⟩ := loopM_inv (body := fun x acc => do
      let u ← load_splat c gnuc a.kind a.w N junk s (pa + i * la * (a.w / 8) + x * (a.w / 8))
      let v ← load c b.kind b.w N s (pb + j * N * (b.w / 8) + x * lb * (b.w / 8))
      e.run c E (J x) (env3 acc u v)) (lo := 0) (m := K) (s := fun l : Fin N => C i (j * N + l.val))
    (fun n (acc : Vec t.w N) => acc = fun l => prodElem I e (C i (j * N + l.val)) (A i) (fun x => B x (j * N + l.val)) n) rfl (fun x hx acc hacc => by
      subst hacc
      rw [Nat.zero_add]
      have a1 : pa + i * la * (a.w / 8) + x * (a.w / 8) = pa + (i * la + x) * (a.w / 8) := by ring
      have a2 : pb + j * N * (b.w / 8) + x * lb * (b.w / 8) = pb + (x * lb + j * N) * (b.w / 8) := by ring
      obtain ⟨u, e2, hu⟩ := C51_load_splat h gnuc (ETy.okW a) G.ta junk s (p := pa + (i * la + x) * (a.w / 8))
        (by rw [Nat.add_mod, G.ea, Nat.mul_mod_left, Nat.zero_mod]) (fun z g1 g2 => by rw [S.ok]; exact G.aa i x hi hx z g1 g2)
        (S.keep G.va G.da i x hi hx) (fun g1 g2 g3 g4 => G.s8 g1 g2 g3 g4 i x hi hx)
      have e3 := load_row h (ETy.okW b) G.tb (m := s) ⟨S.keep G.vb.val G.db, fun y hy z g1 g2 => by rw [S.ok]; exact G.vb.acc y hy z g1 g2⟩ G.eb G.wb hx lj
      rw [a1, a2]
      have eu : u = fun _ => A i x := funext hu
      subst eu
      refine ⟨_, (bind_of e2 _).trans ((bind_of e3 _).trans (MExp.run_eq h hI E (J x) _ e ?_)), funext fun l => ?_⟩
      · have := MExp.Ok.comp (fun l : Fin N => (⟨j * N + l.val, by have := l.isLt; omega⟩ : Fin (V * N))) e (ok i x hi hx)
        refine cast (congrArg (fun F => e.Ok c N I F) (funext fun l => ?_)) this
        exact (env3_lane (fun l => prodElem I e (C i (j * N + l.val)) (A i) (fun x => B x (j * N + l.val)) x) (fun _ => A i x) (fun l => B x (j * N + l.val)) l).symm
      · exact congrArg (fun F => e.den I F) (env3_lane _ _ _ l))
  exact e1

end

/-- **C70.** The product loop, for every size and placement of the matrices, every inner expression and every build: element `(i, j)` of the result is the
inner expression applied to element `(i, j)` of `C` and the pairs `(A i 0, B 0 j)`, `(A i 1, B 1 j)`, ... in this order; no other byte changes. -/
theorem C70_product {c : Cfg} (h : c.Ok) (N : Nat) (E : Est) : ∃ I : (f : FWd) → Impl f.n,
    (∀ f, (I f).Ok ∧ (¬ c.mulByFma f.n (c.regK .flt f.n N) → (I f).mul = Fp.mul)) ∧
    ∀ (t a b : ETy) (e : MExp (Ty3 t a b) t) (gnuc : Bool) (J : Nat → Nat → Nat → Junk c N) (junk : Nat → BitVec a.w) (pa la pb lb pc lc M K V : Nat) (m : Mem)
      (A : Nat → Nat → BitVec a.w) (B : Nat → Nat → BitVec b.w) (C : Nat → Nat → BitVec t.w), Gemm c N t a b m pa la pb lb pc lc M K V A B C →
      (∀ i x, i < M → x < K → e.Ok c N I fun (j : Fin (V * N)) => env1 (prodElem I e (C i j.val) (A i) (fun x => B x j.val) x) (A i x) (B x j.val)) →
      ∃ m', gemm c gnuc E J junk e pa la pb lb pc lc M K V m = some m' ∧ m'.ok = m.ok ∧
        IsMatrix m' pc lc M (V * N) (fun i j => prodElem I e (C i j) (A i) (fun x => B x j) K) ∧
        ∀ z, ¬ InMatrix t.w pc lc M (V * N) z → m'.byte z = m.byte z := by
  obtain ⟨I, h1, h2⟩ := impls_ex h N
  refine ⟨I, h2, fun t a b e gnuc J junk pa la pb lb pc lc M K V m A B C G ok => ?_⟩
  obtain ⟨m', e1, D⟩ := loopM_inv (body := fun i m => loopM (fun j m => do
      let acc ← load c t.kind t.w N m (pc + (i * lc + j * N) * (t.w / 8))
      let acc ← gemmDot c gnuc E (J i j) junk e (pa + i * la * (a.w / 8)) (pb + j * N * (b.w / 8)) lb K m acc
      store c t.kind m (pc + (i * lc + j * N) * (t.w / 8)) acc) 0 V m) (lo := 0) (m := M) (s := m)
    (fun i s => Mat m s pc lc M (V * N) fun y x => if y < i then prodElem I e (C y x) (A y) (fun z => B z x) K else C y x)
    ⟨rfl, fun y x hy hx => by rw [if_neg (by omega)]; exact G.vc.val y x hy hx, fun _ _ => rfl⟩ (fun i hi s S => by
      rw [Nat.zero_add]
      obtain ⟨s', e', S'⟩ := loopM_inv (body := fun j m => do
          let acc ← load c t.kind t.w N m (pc + (i * lc + j * N) * (t.w / 8))
          let acc ← gemmDot c gnuc E (J i j) junk e (pa + i * la * (a.w / 8)) (pb + j * N * (b.w / 8)) lb K m acc
          store c t.kind m (pc + (i * lc + j * N) * (t.w / 8)) acc) (lo := 0) (m := V) (s := s)
        (fun j s => Mat m s pc lc M (V * N) fun y x => if y < i ∨ y = i ∧ x < j * N then prodElem I e (C y x) (A y) (fun z => B z x) K else C y x)
        ⟨S.ok, fun y x hy hx => by
          have := S.val y x hy hx
          by_cases g : y < i
          · rw [if_pos (Or.inl g)]; rwa [if_pos g] at this
          · rw [if_neg (by omega)]; rwa [if_neg g] at this, S.rest⟩ (fun j hj u U => by
          rw [Nat.zero_add]
          have lj := Nat.mul_le_mul_right N (show j + 1 ≤ V from hj)
          have lj' := lj
          rw [Nat.add_mul, Nat.one_mul] at lj'
          have e2 : load c t.kind t.w N u (pc + (i * lc + j * N) * (t.w / 8)) = some fun l => C i (j * N + l.val) := by
            rw [load_row h (ETy.okW t) G.tt (m := u) ⟨U.val, fun y hy z g1 g2 => by rw [U.ok]; exact G.vc.acc y hy z g1 g2⟩ G.ec G.wc hi lj]
            refine congrArg some (funext fun l => ?_)
            rw [if_neg (by omega)]
          obtain ⟨u', e3, U'⟩ := Mat.storeV h (ETy.okW t) G.tt U G.wd G.vc.acc hi lj' (row_al h (ETy.okW t) G.tt G.ec G.wc i j)
            (fun l => prodElem I e (C i (j * N + l.val)) (A i) (fun x => B x (j * N + l.val)) K)
          refine ⟨u', (bind_of e2 _).trans ((bind_of (gemmDot_eq h h1 gnuc E (J i j) junk e G ok U hi hj) _).trans e3), U'.ok, fun y x hy hx => ?_, U'.rest⟩
          have := U'.val y x hy hx
          rw [Nat.add_mul j, Nat.one_mul]
          by_cases g : y = i ∧ j * N ≤ x ∧ x < j * N + N
          · rw [if_pos g, Vec.at_lt _ (by omega)] at this
            dsimp only at this
            rw [Nat.add_sub_cancel' g.2.1] at this
            rw [if_pos (by omega), g.1]
            rwa [g.1] at this
          · rw [if_neg g] at this
            refine cast (congrArg (fun F => Holds _ _ F) (if_congr ?_ rfl rfl)) this
            omega)
      refine ⟨s', e', S'.ok, fun y x hy hx => ?_, S'.rest⟩
      refine cast (congrArg (fun F => Holds _ _ F) (if_congr ?_ rfl rfl)) (S'.val y x hy hx)
      omega)
  refine ⟨m', e1, D.ok, ⟨fun y x hy hx => ?_, fun y hy z g1 g2 => by rw [D.ok]; exact G.vc.acc y hy z g1 g2⟩, fun z gz => D.rest z (notIn_rest gz)⟩
  have := D.val y x hy hx
  rwa [if_pos hy] at this

/-! ## Integers -/

/-- `acc + to_int32(a) * to_int32(b)` (`to_uint32` for unsigned elements). -/
def gemmInt (s : Bool) (u : IW) : MExp (Ty3 (.int s .b32) (.int s u) (.int s u)) (.int s .b32) :=
  .ints 3 (fun _ => s) (.cast s (.op2 .add (.var 0) (.op2 .mul (.var 1) (.var 2)))) fun x => match x with
    | 0 => .var (Γ := Ty3 (.int s .b32) (.int s u) (.int s u)) 0
    | 1 => .conv _ (.var (Γ := Ty3 (.int s .b32) (.int s u) (.int s u)) 1)
    | 2 => .conv _ (.var (Γ := Ty3 (.int s .b32) (.int s u) (.int s u)) 2)

theorem gemmInt_ok {s : Bool} {u : IW} {c : Cfg} (h1 : c.VLen 32 N) (h2 : c.VLen u.n N) (I : (f : FWd) → Impl f.n) {ι : Type}
    (ρ : ι → (x : Nat) → BitVec (Ty3 (.int s .b32) (.int s u) (.int s u) x).w) : (gemmInt s u).Ok c N I ρ := by
  have cv : ConvOk c N (.int s u) (.int s .b32) := by
    show ¬ ConvBroken c u.n 32 N
    unfold ConvBroken; simp
  have cv' : ∀ v, ConvIn c N (.int s u) (.int s .b32) v := fun v => by cases u <;> cases s <;> trivial
  refine ⟨h1, fun x => ?_, trivial, ⟨trivial, trivial, .inr rfl⟩, trivial⟩
  match x with
  | 0 => exact h1
  | 1 => exact ⟨h2, h1, cv, fun _ => cv' _⟩
  | 2 => exact ⟨h2, h1, cv, fun _ => cv' _⟩

theorem lane_val (s : Bool) (x : BitVec w) : Spec.lane w (val s x) = x := by
  unfold Spec.lane val
  cases s
  · rw [if_neg Bool.false_ne_true, BitVec.ofInt_natCast, BitVec.ofNat_toNat, BitVec.setWidth_eq]
  · rw [if_pos rfl, BitVec.ofInt_toInt]

theorem gemmInt_prod {s : Bool} {u : IW} (I : (f : FWd) → Impl f.n) (z : BitVec 32) (x y : Nat → BitVec u.n) (n : Nat) :
    prodElem (a := .int s u) (b := .int s u) I (gemmInt s u) z x y n = Spec.lane 32 (val s z + dot (fun i => val s (x i)) (fun i => val s (y i)) n) := by
  induction n with
  | zero => exact ((congrArg (Spec.lane 32) (Int.add_zero _)).trans (lane_val s z)).symm
  | succ n ih =>
    show Spec.lane 32 (val s (prodElem (a := .int s u) (b := .int s u) I (gemmInt s u) z x y n) +
      val (s && s) (Spec.lane 32 (val s (Spec.lane 32 (val s (x n))) * val s (Spec.lane 32 (val s (y n)))))) = _
    refine (congrArg (fun F : BitVec 32 => Spec.lane 32 (val s F +
      val (s && s) (Spec.lane 32 (val s (Spec.lane 32 (val s (x n))) * val s (Spec.lane 32 (val s (y n))))))) ih).trans ?_
    have ea : ∀ (p q : Int), Spec.lane 32 (p + q) = Spec.lane 32 p + Spec.lane 32 q := fun p q => BitVec.ofInt_add _ _
    have em : ∀ (p q : Int), Spec.lane 32 (p * q) = Spec.lane 32 p * Spec.lane 32 q := fun p q => BitVec.ofInt_mul _ _
    show _ = Spec.lane 32 (val s z + (dot (fun i => val s (x i)) (fun i => val s (y i)) n + val s (x n) * val s (y n)))
    rw [ea, lane_val, lane_val, em, lane_val, lane_val, ← Int.add_assoc, ea (_ + _), em]

/-- **C70**, integers: `C += A * B` with 32-bit sums, for signed and unsigned elements of 8, 16, 32 or 64 bits, is the product of the matrices modulo `2 ^ 32`,
on every build and for every size. -/
theorem C70_integer {c : Cfg} (h : c.Ok) (E : Est) (s : Bool) (u : IW) (gnuc : Bool) (J : Nat → Nat → Nat → Junk c N) (junk : Nat → BitVec u.n)
    {pa la pb lb pc lc M K V : Nat} {m : Mem} {A B : Nat → Nat → BitVec u.n} {C : Nat → Nat → BitVec 32}
    (G : Gemm c N (.int s .b32) (.int s u) (.int s u) m pa la pb lb pc lc M K V A B C) :
    ∃ m', gemm c gnuc E J junk (gemmInt s u) pa la pb lb pc lc M K V m = some m' ∧ m'.ok = m.ok ∧
      IsMatrix m' pc lc M (V * N) (fun i j => Spec.lane 32 (val s (C i j) + dot (fun x => val s (A i x)) (fun x => val s (B x j)) K)) ∧
      ∀ z, ¬ InMatrix 32 pc lc M (V * N) z → m'.byte z = m.byte z := by
  obtain ⟨I, -, run⟩ := C70_product h N E
  obtain ⟨m', e1, e2, e3, e4⟩ := run _ _ _ (gemmInt s u) gnuc J junk pa la pb lb pc lc M K V m A B C G (fun i x _ _ => gemmInt_ok G.tt G.ta I _)
  refine ⟨m', e1, e2, ⟨fun y x hy hx => ?_, e3.acc⟩, e4⟩
  have := e3.val y x hy hx
  rwa [gemmInt_prod] at this

/-- **C70**, without overflow: if the true sum fits in 32 bits, it is what the element of the result holds. -/
theorem C70_exact (s : Bool) (z : BitVec 32) (x y : Nat → Int) (n : Nat) (hlo : (if s then -2 ^ 31 else 0) ≤ val s z + dot x y n)
    (hhi : val s z + dot x y n < if s then 2 ^ 31 else 2 ^ 32) : val s (Spec.lane 32 (val s z + dot x y n)) = val s z + dot x y n := by
  revert hlo hhi
  generalize val s z + dot x y n = q
  intro hlo hhi
  unfold val Spec.lane
  cases s
  · rw [if_neg Bool.false_ne_true] at hlo hhi ⊢
    rw [BitVec.toNat_ofInt]; omega
  · rw [if_pos rfl] at hlo hhi ⊢
    rw [BitVec.toInt_ofInt]
    rw [Int.bmod_eq_of_le (by omega) (by omega)]

/-! ## Floating point -/

/-- `acc + a * b` -/
def gemmFlt (f : FWd) : MExp (Ty3 (.flt f) (.flt f) (.flt f)) (.flt f) :=
  .flts 3 (.op2 .add (.var 0) (.op2 .mul (.var 1) (.var 2))) fun x => match x with
    | 0 => .var (Γ := Ty3 (.flt f) (.flt f) (.flt f)) 0
    | 1 => .var (Γ := Ty3 (.flt f) (.flt f) (.flt f)) 1
    | 2 => .var (Γ := Ty3 (.flt f) (.flt f) (.flt f)) 2

theorem gemmFlt_ok {f : FWd} {c : Cfg} (h1 : c.TLen (.flt f) N) (I : (f : FWd) → Impl f.n) {ι : Type}
    (ρ : ι → (x : Nat) → BitVec (Ty3 (.flt f) (.flt f) (.flt f) x).w) : (gemmFlt f).Ok c N I ρ := by
  refine ⟨h1, fun x => ?_, trivial, ⟨trivial, trivial, trivial⟩, trivial⟩
  match x with
  | 0 => exact h1
  | 1 => exact h1
  | 2 => exact h1

/-- **C70**, floating point: on every build but AltiVec without VSX, `C += A * B` holds in each element the IEEE operations in the order of the index, so the
bits of the result are the same on all of these builds. -/
theorem C70_float {c : Cfg} (h : c.Ok) (E : Est) (f : FWd) (hv : ¬ c.mulByFma f.n (c.regK .flt f.n N)) (gnuc : Bool) (J : Nat → Nat → Nat → Junk c N)
    (junk : Nat → BitVec f.n) {pa la pb lb pc lc M K V : Nat} {m : Mem} {A B C : Nat → Nat → BitVec f.n}
    (G : Gemm c N (.flt f) (.flt f) (.flt f) m pa la pb lb pc lc M K V A B C) :
    ∃ m', gemm c gnuc E J junk (gemmFlt f) pa la pb lb pc lc M K V m = some m' ∧ m'.ok = m.ok ∧
      IsMatrix m' pc lc M (V * N) (fun i j => foldPairs (fun s x y => Fp.add s (Fp.mul x y)) (C i j) (A i) (fun x => B x j) K) ∧
      ∀ z, ¬ InMatrix f.n pc lc M (V * N) z → m'.byte z = m.byte z := by
  obtain ⟨I, hI, run⟩ := C70_product h N E
  obtain ⟨m', e1, e2, e3, e4⟩ := run _ _ _ (gemmFlt f) gnuc J junk pa la pb lb pc lc M K V m A B C G (fun i x _ _ => gemmFlt_ok G.tt I _)
  refine ⟨m', e1, e2, ⟨fun y x hy hx => ?_, e3.acc⟩, e4⟩
  have := e3.val y x hy hx
  refine cast (congrArg (fun F => Holds _ _ F) ?_) this
  show foldPairs (fun s x y => Fp.add s ((I f).mul x y)) _ _ _ _ = _
  rw [(hI f).2 hv]

/-- Two builds compute the same bytes. -/
theorem C70_portable {c c' : Cfg} (h : c.Ok) (h' : c'.Ok) (E E' : Est) (f : FWd) (hv : ¬ c.mulByFma f.n (c.regK .flt f.n N))
    (hv' : ¬ c'.mulByFma f.n (c'.regK .flt f.n N)) (gnuc gnuc' : Bool) (J : Nat → Nat → Nat → Junk c N) (J' : Nat → Nat → Nat → Junk c' N)
    (junk junk' : Nat → BitVec f.n) {pa la pb lb pc lc M K V : Nat} {m : Mem} {A B C : Nat → Nat → BitVec f.n}
    (G : Gemm c N (.flt f) (.flt f) (.flt f) m pa la pb lb pc lc M K V A B C) (G' : Gemm c' N (.flt f) (.flt f) (.flt f) m pa la pb lb pc lc M K V A B C) :
    ∃ m', gemm c gnuc E J junk (gemmFlt f) pa la pb lb pc lc M K V m = some m' ∧
      gemm c' gnuc' E' J' junk' (gemmFlt f) pa la pb lb pc lc M K V m = some m' := by
  obtain ⟨m1, e1, o1, v1, r1⟩ := C70_float h E f hv gnuc J junk G
  obtain ⟨m2, e2, o2, v2, r2⟩ := C70_float h' E' f hv' gnuc' J' junk' G'
  have : m1 = m2 := Mem.ext' (o1.trans o2.symm) fun z => ?_
  · exact ⟨m1, e1, this ▸ e2⟩
  · by_cases g : InMatrix f.n pc lc M (V * N) z
    · obtain ⟨y, x, hy, hx, g1, g2⟩ := g
      have a1 := v1.val y x hy hx
      have a2 := v2.val y x hy hx
      have e0 : pc + (y * lc + x) * (f.n / 8) = pc + y * lc * (f.n / 8) + x * (f.n / 8) := by ring
      rw [Nat.add_mul, Nat.one_mul] at g2
      change Holds _ (pc + (y * lc + x) * (f.n / 8)) _ at a1 a2
      rw [e0] at a1 a2
      have := (a1 (z - (pc + y * lc * (f.n / 8) + x * (f.n / 8))) (by omega)).trans (a2 (z - (pc + y * lc * (f.n / 8) + x * (f.n / 8))) (by omega)).symm
      rwa [Nat.add_sub_cancel' g1] at this
    · rw [r1 z g, r2 z g]

attribute [local irreducible] Fp.add Fp.mul in
theorem gemmFlt_appr {f : FWd} {I : Impl f.n} (hI : I.Ok) {z : BitVec f.n} {x y : Nat → BitVec f.n} {K : Nat} (hz : Fp.isFinite z = true)
    (hx : ∀ i, i < K → Fp.isFinite (x i) = true) (hy : ∀ i, i < K → Fp.isFinite (y i) = true)
    (hsub : ∀ i, i < K → Fp.real (x i) * Fp.real (y i) = 0 ∨ Fp.tiny f.n ≤ |Fp.real (x i) * Fp.real (y i)|)
    (hbig : (1 + Fp.eps f.n) ^ (K + 1) * (|Fp.real z| + ∑ i ∈ Finset.range K, |Fp.real (x i) * Fp.real (y i)|) < Fp.huge f.n) (n : Nat) (hn : n ≤ K) :
    Appr (n + 1) (foldPairs (fun s x y => Fp.add s (I.mul x y)) z x y n) (Fp.real z + ∑ i ∈ Finset.range n, Fp.real (x i) * Fp.real (y i))
      (|Fp.real z| + ∑ i ∈ Finset.range n, |Fp.real (x i) * Fp.real (y i)|) := by
  have hw : Fp.FW f.n := FWd.okW f
  have nn : ∀ m, 0 ≤ ∑ i ∈ Finset.range m, |Fp.real (x i) * Fp.real (y i)| := fun m => Finset.sum_nonneg fun _ _ => abs_nonneg _
  have lt : ∀ {e : Nat} {t : ℝ}, e ≤ K + 1 → 0 ≤ t → t ≤ |Fp.real z| + ∑ i ∈ Finset.range K, |Fp.real (x i) * Fp.real (y i)| → (1 + Fp.eps f.n) ^ e * t < Fp.huge f.n :=
    fun {e t} he ht hle => lt_of_le_of_lt (mul_le_mul (pow_eps_mono _ he) hle ht (by linarith [one_le_pow_eps f.n (K + 1)])) hbig
  induction n with
  | zero =>
    have := Appr.exact (w := f.n) hz (0 + 1)
    rw [Finset.sum_range_zero, Finset.sum_range_zero, add_zero, add_zero]
    exact this
  | succ n ih =>
    have hn' : n < K := hn
    have mono : ∑ i ∈ Finset.range (n + 1), |Fp.real (x i) * Fp.real (y i)| ≤ ∑ i ∈ Finset.range K, |Fp.real (x i) * Fp.real (y i)| :=
      Finset.sum_le_sum_of_subset_of_nonneg (Finset.range_mono hn) fun _ _ _ => abs_nonneg _
    have e1 := Finset.sum_range_succ (fun i => |Fp.real (x i) * Fp.real (y i)|) n
    obtain ⟨t1, t2, t3⟩ := dot_term hI (hx n hn') (hy n hn') (hsub n hn') (by
      have := lt (e := 0) (t := |Fp.real (x n) * Fp.real (y n)|) (by omega) (abs_nonneg _) (by linarith [nn n, abs_nonneg (Fp.real z)])
      rwa [pow_zero, one_mul] at this)
    have t := (Appr.mk t1 t2 t3).mono (e := n + 1) (by omega)
    have := Appr.add hw (ih (by omega)) t (lt (by omega) (by linarith [nn n, abs_nonneg (Fp.real z), abs_nonneg (Fp.real (x n) * Fp.real (y n))]) (by linarith))
    rw [Finset.sum_range_succ, Finset.sum_range_succ, ← add_assoc, ← add_assoc]
    exact this

/-- **C70**, accuracy: on every build, each element of `C += A * B` for `float` or `double` is finite and within `((1 + eps) ^ (K + 1) - 1) (|c| + ∑ |a b|)` of the
exact value, provided no product of two elements is subnormal and the sums stay below overflow. -/
theorem C70_accuracy {c : Cfg} (h : c.Ok) (E : Est) (f : FWd) (gnuc : Bool) (J : Nat → Nat → Nat → Junk c N)
    (junk : Nat → BitVec f.n) {pa la pb lb pc lc M K V : Nat} {m : Mem} {A B C : Nat → Nat → BitVec f.n}
    (G : Gemm c N (.flt f) (.flt f) (.flt f) m pa la pb lb pc lc M K V A B C)
    (hA : ∀ i x, i < M → x < K → Fp.isFinite (A i x) = true) (hB : ∀ x j, x < K → j < V * N → Fp.isFinite (B x j) = true)
    (hC : ∀ i j, i < M → j < V * N → Fp.isFinite (C i j) = true)
    (hsub : ∀ i x j, i < M → x < K → j < V * N → Fp.real (A i x) * Fp.real (B x j) = 0 ∨ Fp.tiny f.n ≤ |Fp.real (A i x) * Fp.real (B x j)|)
    (hbig : ∀ i j, i < M → j < V * N → (1 + Fp.eps f.n) ^ (K + 1) * (|Fp.real (C i j)| + ∑ x ∈ Finset.range K, |Fp.real (A i x) * Fp.real (B x j)|) < Fp.huge f.n) :
    ∃ m' R, gemm c gnuc E J junk (gemmFlt f) pa la pb lb pc lc M K V m = some m' ∧ m'.ok = m.ok ∧ IsMatrix (w := f.n) m' pc lc M (V * N) R ∧
      (∀ i j, i < M → j < V * N → Fp.isFinite (R i j) = true ∧
        |Fp.real (R i j) - (Fp.real (C i j) + ∑ x ∈ Finset.range K, Fp.real (A i x) * Fp.real (B x j))| ≤
          ((1 + Fp.eps f.n) ^ (K + 1) - 1) * (|Fp.real (C i j)| + ∑ x ∈ Finset.range K, |Fp.real (A i x) * Fp.real (B x j)|)) ∧
      ∀ z, ¬ InMatrix f.n pc lc M (V * N) z → m'.byte z = m.byte z := by
  obtain ⟨I, hI, run⟩ := C70_product h N E
  obtain ⟨m', e1, e2, e3, e4⟩ := run _ _ _ (gemmFlt f) gnuc J junk pa la pb lb pc lc M K V m A B C G (fun i x _ _ => gemmFlt_ok G.tt I _)
  refine ⟨m', _, e1, e2, e3, fun i j hi hj => ?_, e4⟩
  have := gemmFlt_appr (hI f).1 (hC i j hi hj) (fun x hx => hA i x hi hx) (fun x hx => hB x j hx hj) (fun x hx => hsub i x j hi hx hj) (hbig i j hi hj) K (le_refl _)
  exact ⟨this.fin, this.err⟩

/-! ## Examples -/

/-- `uint16` matrices of 3 by 5 and 5 by 16 at addresses 1024 and 2048, sums of 32 bits at address 4096, on SSE2: eight elements in two registers. -/
example (m : Mem) (hm : ∀ a, m.ok a = true) (E : Est) (J : Nat → Nat → Nat → Junk Cfg.sse2Only 8) (junk : Nat → BitVec 16) :
    ∃ m', gemm Cfg.sse2Only false E J junk (gemmInt false .b16) 1024 5 2048 16 4096 16 3 5 2 m = some m' ∧
      ∀ i j, i < 3 → j < 16 → (m'.get 32 1 (4096 + (i * 16 + j) * 4)) 0 = Spec.lane 32 (val false ((m.get 32 1 (4096 + (i * 16 + j) * 4)) 0) +
        dot (fun x => val false ((m.get 16 1 (1024 + (i * 5 + x) * 2)) 0)) (fun x => val false ((m.get 16 1 (2048 + (x * 16 + j) * 2)) 0)) 5) := by
  have h32 : ∀ (m : Mem) a, Holds m.byte a ((m.get 32 1 a) 0) := fun m a => by
    have := Mem.get_holds (n := 1) iw32 m a 0
    rwa [Fin.val_zero, Nat.zero_mul, Nat.add_zero] at this
  have h16 : ∀ (m : Mem) a, Holds m.byte a ((m.get 16 1 a) 0) := fun m a => by
    have := Mem.get_holds (n := 1) iw16 m a 0
    rwa [Fin.val_zero, Nat.zero_mul, Nat.add_zero] at this
  obtain ⟨m', e, -, D, -⟩ := C70_integer Cfg.sse2Only_ok E false .b16 false J junk (N := 8) (pa := 1024) (la := 5) (pb := 2048) (lb := 16) (pc := 4096) (lc := 16)
    (M := 3) (K := 5) (V := 2) (m := m) (A := fun i x => (m.get 16 1 (1024 + (i * 5 + x) * 2)) 0) (B := fun x j => (m.get 16 1 (2048 + (x * 16 + j) * 2)) 0)
    (C := fun i j => (m.get 32 1 (4096 + (i * 16 + j) * 4)) 0)
    { tt := Or.inr ⟨2, by decide, by decide +kernel⟩, ta := Or.inl ⟨.r128, rfl, rfl⟩, tb := Or.inl ⟨.r128, rfl, rfl⟩
      va := fun _ _ _ _ => h16 m _, aa := fun _ _ _ _ _ _ _ => hm _
      vb := ⟨fun _ _ _ _ => h16 m _, fun _ _ _ _ _ => hm _⟩, vc := ⟨fun _ _ _ _ => h32 m _, fun _ _ _ _ _ => hm _⟩
      ea := by decide, eb := by decide +kernel, ec := by decide +kernel, wb := by decide, wc := by decide, wd := by decide
      da := fun a ⟨y, x, hy, hx, _, g2⟩ ⟨y', x', _, _, g1', _⟩ => by
        change a < 1024 + y * 5 * 2 + (x + 1) * 2 at g2
        change 4096 + y' * 16 * 4 + x' * 4 ≤ a at g1'
        omega
      db := fun a ⟨y, x, hy, hx, _, g2⟩ ⟨y', x', _, _, g1', _⟩ => by
        change x < 16 at hx
        change a < 2048 + y * 16 * 2 + (x + 1) * 2 at g2
        change 4096 + y' * 16 * 4 + x' * 4 ≤ a at g1'
        omega
      s8 := fun _ g => absurd g (by decide) }
  exact ⟨m', e, fun i j hi hj => Mem.holds_inj iw32 (h32 m' _) (D.val i j hi hj)⟩

end Simdpp
