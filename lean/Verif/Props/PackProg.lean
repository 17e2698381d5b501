import Verif.Model.PackProg
import Verif.Props.MemPack
import Verif.Props.MProg

/-!
# C64: loops over arrays of structures
-/

namespace Simdpp
open Spec Spec.Prog Spec.FProg Spec.MProg

variable {N : Nat}

attribute [local irreducible] Fp.mul Fp.fma Fp.sub Fp.add Fp.round Fp.div Fp.sqrt Fp.conv Fp.ofInt Fp.truncInt

theorem Rec.pos (M : Rec) : 0 < M.n := by cases M <;> decide

/-- Where `store_packed2` is right although the documentation promises more (C27). -/
def Rec.StoreOk (c : Cfg) (w : Nat) (M : Rec) (q : Nat) : Prop :=
  M = .two → c.sse2 = true ∨ c.altivec = true ∨ c.msa = true ∨ c.neon32 = true ∧ w = 64 → q % 32 = 0

theorem loadRec_eq {c : Cfg} (h : c.Ok) {k : Kind} {w : Nat} (hw : k.okW w) (hN : c.KLen k w N) {m : Mem} {p : Nat} (hp : p % (c.regK k w N).bytes = 0) (M : Rec)
    (ha : m.Block p (M.n * N * (w / 8))) : loadRec c k w N m p M = some (dlv M.n (Mem.get w (M.n * N) m p)) := by
  cases M
  · unfold loadRec
    have ha' : m.Block p (N * (w / 8)) := fun a g1 g2 => ha a g1 (by rw [show Rec.n .one = 1 from rfl, Nat.one_mul]; exact g2)
    show Option.map _ (load c k w N m p) = _
    rw [load_eq h hw hN hp ha']
    refine congrArg some (funext fun x => funext fun l => ?_)
    have hx : x.val = 0 := by have := x.isLt; simp only [Rec.n] at this; omega
    refine holds_inj hw (Mem.get_holds hw.isW m p l) ?_
    have := dlv_holds (M := Rec.one.n) hw.isW m p x l
    have e : p + (Rec.one.n * l.val + 0) * (w / 8) = p + l.val * (w / 8) := by rw [show Rec.n .one = 1 from rfl, Nat.one_mul, Nat.add_zero]
    rwa [hx, e] at this
  · exact load_packed2_eq h hw hN hp ha
  · exact load_packed3_eq h hw hN hp ha
  · exact load_packed4_eq h hw hN hp ha

theorem storeRec_eq {c : Cfg} (h : c.Ok) (gnuc : Bool) {k : Kind} {w : Nat} (hw : k.okW w) (hN : c.KLen k w N) {m : Mem} {p : Nat} (hp : p % (c.regK k w N).bytes = 0) (M : Rec)
    (h32 : M.StoreOk c w p) (ha : m.Block p (M.n * N * (w / 8))) (x : Fin M.n → Vec w N) :
    storeRec c gnuc k m p M x = some (m.put p (ilv x) (fun _ => true)) := by
  cases M
  · have ha' : m.Block p (N * (w / 8)) := fun a g1 g2 => ha a g1 (by rw [show Rec.n .one = 1 from rfl, Nat.one_mul]; exact g2)
    refine (store_eq h hw hN hp ha' _).trans (congrArg some ?_)
    refine Mem.ext' rfl fun a => ?_
    rw [Mem.put_byte, Mem.put_byte]
    have ec : (p ≤ a ∧ a < p + N * (w / 8) ∧ true = true) ↔ (p ≤ a ∧ a < p + Rec.one.n * N * (w / 8) ∧ true = true) := by
      rw [show Rec.n .one * N = N from Nat.one_mul N]
    by_cases g : p ≤ a ∧ a < p + N * (w / 8) ∧ true = true
    · rw [if_pos g, if_pos (ec.1 g)]
      have hd : (a - p) / (w / 8) < N := Nat.div_lt_of_lt_mul (by rw [Nat.mul_comm]; omega)
      have := ilv_at x hd (show 0 < Rec.one.n by decide)
      rw [show Rec.one.n * ((a - p) / (w / 8)) + 0 = (a - p) / (w / 8) by rw [show Rec.n .one = 1 from rfl, Nat.one_mul, Nat.add_zero]] at this
      exact (congrArg (fun y => byteOf y _) this).symm
    · rw [if_neg g, if_neg (fun g' => g (ec.2 g'))]
  · exact store_packed2_eq h hw hN hp (h32 rfl) ha x
  · exact store_packed3_eq h gnuc hw hN hp ha x
  · exact store_packed4_eq h hw hN hp ha x

/-- **C64.** The loop over records: every member of every result holds the scalar result on the members of the same record at the start, and no other
byte changes. `A x j` is member `x` of record `j`. The results may overwrite the inputs from the start on if they are not longer. -/
theorem C64_kernel {c : Cfg} (h : c.Ok) (N : Nat) (E : Est) : ∃ I : (f : FWd) → Impl f.n,
    (∀ f, (I f).Ok ∧ (¬ c.mulByFma f.n (c.regK .flt f.n N) → (I f).mul = Fp.mul)) ∧
    ∀ (u t : ETy) (gnuc : Bool) (J : Junk c N) (M M' : Rec) (e : Fin M'.n → MExp (fun _ => u) t) (p q n : Nat) (m : Mem) (A : Nat → Nat → BitVec u.w),
      c.TLen u N →
      (∀ j, j < n * N → ∀ x, x < M.n → Holds m.byte (p + (M.n * j + x) * (u.w / 8)) (A x j)) → (∀ x, M.n ≤ x → ∀ j, A x j = 0) →
      p % (c.regK u.kind u.w N).bytes = 0 → q % (c.regK t.kind t.w N).bytes = 0 → M'.StoreOk c t.w q →
      m.Block p (M.n * (n * N) * (u.w / 8)) → m.Block q (M'.n * (n * N) * (t.w / 8)) →
      (q ≤ p ∧ M'.n * t.w ≤ M.n * u.w ∨ p + M.n * (n * N) * (u.w / 8) ≤ q ∨ q + M'.n * (n * N) * (t.w / 8) ≤ p) →
      (∀ y, (e y).Ok c N I (fun (j : Fin (n * N)) x => A x j.val)) →
      ∃ m', pkernel c gnuc E J M M' e p q n m = some m' ∧ m'.ok = m.ok ∧
        (∀ j, j < n * N → ∀ y : Fin M'.n, Holds m'.byte (q + (M'.n * j + y.val) * (t.w / 8)) ((e y).den I fun x => A x j)) ∧
        ∀ a, a < q ∨ q + M'.n * (n * N) * (t.w / 8) ≤ a → m'.byte a = m.byte a := by
  obtain ⟨I, h1, h2⟩ := impls_ex h N
  refine ⟨I, h2, fun u t gnuc J M M' e p q n m A hu hA hV hp hq h32 hbp hbq hd ok => ?_⟩
  have okU := ETy.okW u
  have okT := ETy.okW t
  have ht : c.TLen t N := (ok ⟨0, M'.pos⟩).len
  obtain ⟨hr, K, -, eN⟩ := KLen.regs h okU hu
  obtain ⟨hr', K', -, eN'⟩ := KLen.regs h okT ht
  have eB : N * (u.w / 8) = K * (c.regK u.kind u.w N).bytes := by
    conv_lhs => rw [eN]
    rw [Nat.mul_assoc, bytes_eq okU.isW]
  have eB' : N * (t.w / 8) = K' * (c.regK t.kind t.w N).bytes := by
    conv_lhs => rw [eN']
    rw [Nat.mul_assoc, bytes_eq okT.isW]
  have hM := M.pos
  have hM' := M'.pos
  -- flat index of the output: member `k % M'` of record `k / M'`
  let R : Nat → BitVec t.w := fun k => (e ⟨k % M'.n, Nat.mod_lt _ hM'⟩).den I fun x => A x (k / M'.n)
  obtain ⟨m1, e1, D⟩ := loopM_inv (body := fun i m => do storeRec c gnuc t.kind m (q + i * (M'.n * N * (t.w / 8))) M' (← pkernelStep c E J M M' e p i m)) (lo := 0)
    (m := n) (s := m) (fun i s => Done m s q (i * (M'.n * N)) R)
    ⟨rfl, fun j hj => by omega, fun _ _ => rfl⟩ (fun i hi s D => by
      rw [Nat.zero_add]
      have fu : ∀ k, M.n * (k * N) * (u.w / 8) = k * (M.n * N * (u.w / 8)) := fun k => by ring
      have ft : ∀ k, M'.n * (k * N) * (t.w / 8) = k * (M'.n * N * (t.w / 8)) := fun k => by ring
      have ft' : i * (M'.n * N) * (t.w / 8) = i * (M'.n * N * (t.w / 8)) := by ring
      rw [fu, ft] at hd
      rw [fu] at hbp
      rw [ft] at hbq
      have lu := Nat.mul_le_mul_right (M.n * N * (u.w / 8)) hi
      have lt := Nat.mul_le_mul_right (M'.n * N * (t.w / 8)) hi
      rw [Nat.succ_eq_add_one, Nat.add_mul, Nat.one_mul] at lu lt
      have hU := isW_b8 okU.isW
      have hT := isW_b8 okT.isW
      have bl : M'.n * t.w ≤ M.n * u.w → i * (M'.n * N * (t.w / 8)) ≤ i * (M.n * N * (u.w / 8)) := fun g => by
        refine Nat.mul_le_mul_left i ?_
        have : M'.n * (t.w / 8) ≤ M.n * (u.w / 8) := by
          rw [← hU, ← hT] at g
          have e : ∀ a b : Nat, a * (8 * b) = 8 * (a * b) := fun a b => by ring
          rw [Nat.mul_comm _ 8, Nat.mul_comm _ 8] at g
          rw [e, e] at g
          omega
        calc M'.n * N * (t.w / 8) = N * (M'.n * (t.w / 8)) := by ring
          _ ≤ N * (M.n * (u.w / 8)) := Nat.mul_le_mul_left _ this
          _ = _ := by ring
      have el : loadRec c u.kind u.w N s (p + i * (M.n * N * (u.w / 8))) M = some (fun x l => A x.val (i * N + l.val)) := by
        rw [loadRec_eq h okU hu ?_ M ?_]
        · refine congrArg some (funext fun x => funext fun l => ?_)
          refine holds_inj okU (dlv_holds okU.isW s _ x l) ?_
          have hl : i * N + l.val < n * N := by
            have := Nat.mul_le_mul_right N hi
            rw [Nat.succ_eq_add_one, Nat.add_mul, Nat.one_mul] at this
            have := l.isLt
            omega
          have ea : p + i * (M.n * N * (u.w / 8)) + (M.n * l.val + x.val) * (u.w / 8) = p + (M.n * (i * N + l.val) + x.val) * (u.w / 8) := by ring
          rw [ea]
          intro j hj
          have hx : M.n * l.val + x.val + 1 ≤ M.n * N := elem_lt l.isLt x.isLt
          have hx2 := Nat.mul_le_mul_right (u.w / 8) hx
          rw [Nat.add_mul, Nat.one_mul] at hx2
          rw [← hA _ hl _ x.isLt j hj, D.rest, ]
          rw [← ea]
          rcases hd with ⟨g1, g2⟩ | g | g
          · have := bl g2
            right; omega
          · left; omega
          · right; omega
        · rw [Nat.add_mod, hp, show i * (M.n * N * (u.w / 8)) = i * M.n * K * (c.regK u.kind u.w N).bytes by rw [Nat.mul_assoc M.n, eB]; ring, Nat.mul_mod_left, Nat.zero_mod]
        · intro a g1 g2
          rw [D.ok]
          exact hbp a (by omega) (by omega)
      have es : pkernelStep c E J M M' e p i s = some (fun y l => (e y).den I fun x => A x (i * N + l.val)) := by
        refine (bind_of el _).trans (famM_eq_some fun y => ?_)
        have ee : (fun x => if h : x < M.n then (fun l : Fin N => A x (i * N + l.val)) else fun _ => 0) = fun x (l : Fin N) => A x (i * N + l.val) := by
          funext x
          split_ifs with g
          · rfl
          · exact funext fun l => (hV x (by omega) _).symm
        refine (congrArg (fun env => (e y).run c E J env) ee).trans (MExp.run_eq h h1 E J _ (e y) ?_)
        exact MExp.Ok.comp (fun j : Fin N => (⟨i * N + j.val, by
          have := Nat.mul_le_mul_right N hi
          rw [Nat.succ_eq_add_one, Nat.add_mul, Nat.one_mul] at this
          have := j.isLt
          omega⟩ : Fin (n * N))) (e y) (ok y)
      refine ⟨_, (bind_of es _).trans (storeRec_eq h gnuc okT ht ?_ M' (fun g g' => ?_) (fun a g1 g2 => ?_) _), ?_⟩
      · rw [Nat.add_mod, hq, show i * (M'.n * N * (t.w / 8)) = i * M'.n * K' * (c.regK t.kind t.w N).bytes by rw [Nat.mul_assoc M'.n, eB']; ring, Nat.mul_mod_left, Nat.zero_mod]
      · have q0 := h32 g g'
        obtain ⟨r, er⟩ := Nat.dvd_of_mod_eq_zero (show (c.regK t.kind t.w N).bytes % 16 = 0 by cases c.regK t.kind t.w N <;> rfl)
        rw [show i * (M'.n * N * (t.w / 8)) = i * K' * r * 32 by rw [Nat.mul_assoc M'.n, eB', er, g]; simp only [Rec.n]; ring]
        omega
      · rw [D.ok]; exact hbq a (by omega) (by omega)
      · have := Done.put (N := M'.n * N) okT D (Nat.le_refl _)
        rw [show i * (M'.n * N) + M'.n * N = (i + 1) * (M'.n * N) by ring] at this
        refine Eq.subst (motive := fun z => Done m z q ((i + 1) * (M'.n * N)) R) (Mem.put_congr okT.isW (fun l => decide_eq_true l.isLt) fun l _ => ?_) this
        have hd' : l.val / M'.n < N := Nat.div_lt_of_lt_mul l.isLt
        have hm' := Nat.mod_lt l.val hM'
        have a1 := ilv_at (fun y (l : Fin N) => (e y).den I fun x => A x (i * N + l.val)) hd' hm'
        rw [Nat.div_add_mod, Vec.at_fin, Vec.at_lt _ hd'] at a1
        refine Eq.trans ?_ a1.symm
        have m1 : (i * (M'.n * N) + l.val) % M'.n = l.val % M'.n := by rw [show i * (M'.n * N) = M'.n * (i * N) by ring, Nat.mul_add_mod]
        have m2 : (i * (M'.n * N) + l.val) / M'.n = i * N + l.val / M'.n := by rw [show i * (M'.n * N) = M'.n * (i * N) by ring, Nat.mul_add_div hM']
        show MExp.den I (fun x => A x ((i * (M'.n * N) + l.val) / M'.n)) (e ⟨(i * (M'.n * N) + l.val) % M'.n, _⟩) = _
        simp only [m1, m2])
  have en : n * (M'.n * N) = M'.n * (n * N) := by ring
  rw [en] at D
  refine ⟨m1, e1, D.ok, fun j hj y => ?_, D.rest⟩
  have := D.val (M'.n * j + y.val) (elem_lt hj y.isLt)
  have m1 : (M'.n * j + y.val) % M'.n = y.val := by rw [Nat.mul_add_mod, Nat.mod_eq_of_lt y.isLt]
  have m2 : (M'.n * j + y.val) / M'.n = j := by rw [Nat.mul_add_div hM', Nat.div_eq_of_lt y.isLt, Nat.add_zero]
  have eR : R (M'.n * j + y.val) = (e y).den I fun x => A x j := by
    show MExp.den I (fun x => A x ((M'.n * j + y.val) / M'.n)) (e ⟨(M'.n * j + y.val) % M'.n, _⟩) = _
    simp only [m1, m2]
  rwa [eR] at this

/-- Exchange the first and the last member of records of three bytes. -/
def swapRB : Fin (Rec.three.n) → MExp (fun _ => .int false .b8) (.int false .b8) := fun y => .var (2 - y.val)

/-- **C64**, an instance: exchanging red and blue of `n * N` pixels in place, on every build and for every vector length. -/
theorem C64_swap {c : Cfg} (h : c.Ok) (hN : c.VLen 8 N) (E : Est) (gnuc : Bool) (J : Junk c N) (p n : Nat) (m : Mem) (A : Nat → Nat → BitVec 8)
    (hA : ∀ j, j < n * N → ∀ x, x < 3 → m.byte (p + (3 * j + x)) = A x j) (hp : p % (c.regK .int 8 N).bytes = 0) (hb : m.Block p (3 * (n * N))) :
    ∃ m', pkernel c gnuc E J .three .three swapRB p p n m = some m' ∧
      (∀ j, j < n * N → m'.byte (p + 3 * j) = A 2 j ∧ m'.byte (p + 3 * j + 1) = A 1 j ∧ m'.byte (p + 3 * j + 2) = A 0 j) ∧
      ∀ a, a < p ∨ p + 3 * (n * N) ≤ a → m'.byte a = m.byte a := by
  have b8 : ∀ (B : Nat → BitVec 8) a (y : BitVec 8), Holds B a y ↔ B a = y := fun B a y => by
    have e0 : byteOf y 0 = y := BitVec.eq_of_getLsbD_eq fun b hb => by unfold byteOf; simp [hb]
    constructor
    · intro g
      have := g 0 (by decide)
      rwa [Nat.add_zero, e0] at this
    · intro g j hj
      have : j = 0 := by have : j < 1 := hj; omega
      rw [this, Nat.add_zero, e0, g]
  obtain ⟨I, -, run⟩ := C64_kernel h N E
  have h8 : (8 : Nat) / 8 = 1 := rfl
  obtain ⟨m', e1, -, e2, e3⟩ := run (.int false .b8) (.int false .b8) gnuc J .three .three swapRB p p n m (fun x j => if x < 3 then A x j else 0) hN
    (fun j hj x hx => (b8 _ _ _).2 (by
      have hx' : x < 3 := hx
      show m.byte (p + (3 * j + x) * (8 / 8)) = _
      rw [h8, Nat.mul_one]
      exact (hA j hj x hx').trans (if_pos hx').symm))
    (fun x hx j => if_neg (Nat.not_lt.2 hx)) hp hp nofun
    (fun a g1 g2 => hb a g1 (by
      have g3 : a < p + 3 * (n * N) * (8 / 8) := g2
      rw [h8, Nat.mul_one] at g3
      exact g3))
    (fun a g1 g2 => hb a g1 (by
      have g3 : a < p + 3 * (n * N) * (8 / 8) := g2
      rw [h8, Nat.mul_one] at g3
      exact g3))
    (.inl ⟨Nat.le_refl _, Nat.le_refl _⟩) (fun _ => hN)
  refine ⟨m', e1, fun j hj => ?_, fun a ha => e3 a (by
    show a < p ∨ p + 3 * (n * N) * (8 / 8) ≤ a
    rw [h8, Nat.mul_one]
    exact ha)⟩
  have get : ∀ y : Fin 3, m'.byte (p + (3 * j + y.val) * (8 / 8)) = A (2 - y.val) j := fun y => by
    have := (b8 _ _ _).1 (e2 j hj y)
    refine this.trans ?_
    show (if 2 - y.val < 3 then A (2 - y.val) j else 0) = _
    exact if_pos (by omega)
  have g0 := get 0
  have g1 := get 1
  have g2 := get 2
  rw [h8, Nat.mul_one] at g0 g1 g2
  exact ⟨g0, g1, g2⟩

/-- Thirty-two pixels at address 64 with 16-byte registers. -/
example (m : Mem) (hm : ∀ a, m.ok a = true) (E : Est) (J : Junk Cfg.sse2Only 16) :
    ∃ m', pkernel Cfg.sse2Only true E J .three .three swapRB 64 64 2 m = some m' ∧ m'.byte 64 = m.byte 66 ∧ m'.byte 159 = m.byte 157 ∧ m'.byte 160 = m.byte 160 := by
  obtain ⟨m', e, g, r⟩ := C64_swap (N := 16) Cfg.sse2Only_ok (Or.inl ⟨.r128, by decide +kernel, by decide +kernel⟩) E true J 64 2 m
    (fun x j => m.byte (64 + (3 * j + x))) (fun _ _ _ _ => rfl) (by decide +kernel) (fun _ _ _ => hm _)
  exact ⟨m', e, (g 0 (by decide)).1, (g 31 (by decide)).2.2, r 160 (.inr (by decide))⟩

end Simdpp
