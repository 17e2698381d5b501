import Verif.Props.ThreadsPub

/-!
# C74: where other threads must not write
-/

namespace Simdpp
open Spec Spec.Thr Sh

variable {w n N L : Nat} {α β : Type}

attribute [local irreducible] Act.rd Act.wr Act.ldv Act.stv

/-- One thread goes on while the others wait. -/
theorem exec_bind {ι : Type} [DecidableEq ι] {S0 : ι → Act Unit} {m0 : Shared} {i : ι} {g : α → Act Unit} : {A : Act α} → {S : ι → Act Unit} → {m : Mem} → {k : Nat} →
    S i = Act.bind A g → Exec S0 m0 S m.shared k → {x : α} → {M : Mem} → Act.run A m = some (x, M) → ∃ k', Exec S0 m0 (Function.update S i (g x)) M.shared k'
  | .ret _, S, m, k, hS, ex, x, M, hr => by
    cases hr
    refine ⟨k, ?_⟩
    have e := Function.update_eq_self i S
    rw [hS] at e
    exact e.symm ▸ ex
  | .fail, _, _, _, _, _, _, _, hr => by cases hr
  | .rd1 p f, S, m, k, hS, ex, x, M, hr => by
    unfold Act.run at hr
    split_ifs at hr with ok
    have e1 : Exec S0 m0 (Function.update S i (Act.bind (f (m.byte p)) g)) m.shared (k + 1) := .tail ex (by rw [hS]; exact .rd ok)
    obtain ⟨k', e2⟩ := exec_bind (A := f (m.byte p)) (m := m) (Function.update_self i _ S) e1 hr
    rw [Function.update_idem] at e2
    exact ⟨k', e2⟩
  | .wr1 p b B, S, m, k, hS, ex, x, M, hr => by
    unfold Act.run at hr
    split_ifs at hr with ok
    have e1 : Exec S0 m0 (Function.update S i (Act.bind B g)) (m.shared.set p b) (k + 1) := .tail ex (by rw [hS]; exact .wr ok)
    obtain ⟨k', e2⟩ := exec_bind (A := B) (m := { m with byte := fun x => if x = p then b else m.byte x }) (Function.update_self i _ S) e1 hr
    rw [Function.update_idem] at e2
    exact ⟨k', e2⟩

theorem bind_ret : (A : Act Unit) → Act.bind A (fun _ => .ret ()) = A
  | .ret _ => rfl
  | .fail => rfl
  | .rd1 p f => congrArg (Act.rd1 p) (funext fun b => bind_ret (f b))
  | .wr1 p b k => congrArg (Act.wr1 p b) (bind_ret k)

/-- The whole of one thread. -/
theorem exec_all {ι : Type} [DecidableEq ι] {S0 S : ι → Act Unit} {m0 : Shared} {i : ι} {m : Mem} {k : Nat} (ex : Exec S0 m0 S m.shared k) {M : Mem}
    (hr : Act.run (S i) m = some ((), M)) : ∃ k', Exec S0 m0 (Function.update S i (.ret ())) M.shared k' :=
  exec_bind (g := fun _ => .ret ()) (bind_ret _).symm ex hr

/-- Two threads. -/
def twoThreads (A B : Act Unit) : Bool → Act Unit := fun i => if i then B else A

/-- A thread which reads (`A`), then writes what depends on what it read, with a write of one byte by another thread in between. -/
theorem race {A : Act α} {g : α → Act Unit} {m M1 M2 : Mem} {x : Nat} {b : BitVec 8} {v : α} (h1 : Act.run A m = some (v, M1)) (hx : M1.ok x = true)
    (h2 : Act.run (g v) { M1 with byte := fun y => if y = x then b else M1.byte y } = some ((), M2)) :
    ∃ S k, Exec (twoThreads (Act.bind A g) (.wr1 x b (.ret ()))) m.shared S M2.shared k ∧ Finished S := by
  obtain ⟨k1, e1⟩ := exec_bind (i := false) (S := twoThreads (Act.bind A g) (.wr1 x b (.ret ()))) (m := m) rfl .refl h1
  have e2 := Exec.tail (i := true) e1 (A := .ret ()) (m'' := M1.shared.set x b) (by rw [Function.update_of_ne (by decide)]; exact .wr hx)
  obtain ⟨k3, e3⟩ := exec_all (i := false) (m := { M1 with byte := fun y => if y = x then b else M1.byte y }) e2
    (by rw [Function.update_of_ne (by decide), Function.update_self]; exact h2)
  refine ⟨_, k3, e3, fun i => ⟨(), ?_⟩⟩
  cases i
  · rw [Function.update_self]
  · rw [Function.update_of_ne (by decide), Function.update_self]

section
variable {c : Cfg} (h : c.Ok)
include h

omit h in
theorem recast16 (a : Vec 8 16) : (a.recast 8 (16 * (8 / 8)) : Vec 8 16) = a.recast 8 16 := rfl

/-- **C74.** On SSE2, NEON and MSA `store_first` of bytes must not run while another thread writes elsewhere in the same 16 bytes: some execution ends with the other thread's write lost (the old byte is back),
although the first `n` elements and byte `p + y` are disjoint. -/
theorem C74_store_first_race (hn0 : c.null = false) (ha0 : c.altivec = false) (be : Bool) (m : Mem) {p : Nat} (hp : p % 16 = 0) (ha : m.Block p 16) (a : Vec 8 16) {n y : Nat}
    (hn : n ≤ y) (hy : y < 16) (b : BitVec 8) :
    ∃ S m' k, Exec (twoThreads (Act.store_first c be .int false p a n) (.wr1 (p + y) b (.ret ()))) m.shared S m' k ∧ Finished S ∧ m'.byte (p + y) = m.byte (p + y) := by
  have hacc : m.Acc p (16 * (8 / 8)) := ha.acc (le_refl p) (le_refl _)
  have er : c.regK .int 8 16 = .r128 := regOf_single isW8 (r := .r128) rfl
  have ec : (c.sse2 = true ∨ c.neon = true ∨ c.msa = true) := by
    by_contra g
    exfalso; clear hacc ha er; cfg_absurd h
  have e8 : n * (8 / 8) = n := by rw [show (8 : Nat) / 8 = 1 from rfl, Nat.mul_one]
  have hf : Act.store_first c be .int false p a n = Act.bind (Act.ldv 8 16 p) fun old => Act.bind (Act.lift (i_blend c .int .r128 (a.recast 8 16) old (maskVec 8 (fun i => decide (i.val < n)))))
      fun v => Act.stv p (v : Vec 8 16) := by
    have e0 : Act.store_first c be .int false p a n = Act.first8 c be .r128 p (a.recast 8 16 : Vec 8 16) n := by
      unfold Act.store_first
      rw [er]
      dsimp only
      rw [if_pos ⟨rfl, fun g => Bool.false_ne_true g.2⟩]
      unfold Act.first
      dsimp only
      unfold Act.firstInt
      dsimp only
      rw [if_pos rfl, e8]
    rw [e0]
    unfold Act.first8
    dsimp only
    unfold Act.al
    rw [if_pos hp, hn0, ha0, if_neg Bool.false_ne_true, if_neg Bool.false_ne_true, if_pos ec]
    have et := tab_first (w := 8) (h := 16) (n := n) (by omega)
    show Act.bind (Act.lift (Hw.tab 32 (onesZeros 8 16) ((16 : Int) - n) : Option (Vec 8 16))) _ = _
    rw [show (Hw.tab 32 (onesZeros 8 16) ((16 : Int) - n) : Option (Vec 8 16)) = _ from et]
    rfl
  rw [hf]
  have h1 : Act.run (Act.ldv 8 16 p) m = some (Mem.get 8 16 m p, m) := by rw [Act.run_ldv, Mem.ldv_eq hacc]; rfl
  have h2 := Act.run_stv p (fun i : Fin 16 => if decide (i.val < n) = true then (a.recast 8 16 : Vec 8 16) i else Mem.get 8 16 m p i)
    { m with byte := fun z => if z = p + y then b else m.byte z }
  unfold Act.Eff at h2
  rw [Mem.stv_eq (m := { m with byte := fun z => if z = p + y then b else m.byte z }) isW8 (fun i hi => hacc i hi)] at h2
  obtain ⟨S, k, e1, e2⟩ := race (g := fun old => Act.bind (Act.lift (i_blend c .int .r128 (a.recast 8 16) old (maskVec 8 (fun i => decide (i.val < n))))) fun v => Act.stv p (v : Vec 8 16))
    (x := p + y) (b := b) h1 (ha _ (by omega) (by omega)) (by
      show Act.run (Act.bind (Act.lift (i_blend c .int .r128 _ _ _)) _) _ = _
      rw [i_blend_eq h (k := .int) isW8 (r := .r128) rfl]
      exact h2)
  refine ⟨S, _, k, e1, e2, ?_⟩
  show (Mem.put _ p _ (fun _ => true)).byte (p + y) = _
  rw [put8_byte, if_pos (by omega), show p + y - p = y by omega, Vec.at_lt _ hy, if_neg (by simpa using hn)]
  exact get8 m p ⟨y, hy⟩

omit h in
theorem run_stv2 {m : Mem} {q1 q2 : Nat} (h1 : m.Acc q1 (16 * (8 / 8))) (h2 : m.Acc q2 (16 * (8 / 8))) (v1 v2 : Vec 8 16) :
    Act.run (Act.bind (Act.stv q1 v1) fun _ => Act.stv q2 v2) m = some ((), (m.put q1 v1 (fun _ => true)).put q2 v2 (fun _ => true)) := by
  have e1 : Act.run (Act.stv q1 v1) m = some ((), m.put q1 v1 (fun _ => true)) := by
    have := Act.run_stv q1 v1 m
    unfold Act.Eff at this
    rw [Mem.stv_eq isW8 h1] at this
    exact this
  have e2 : Act.run (Act.stv q2 v2) (m.put q1 v1 (fun _ => true)) = some ((), (m.put q1 v1 (fun _ => true)).put q2 v2 (fun _ => true)) := by
    have := Act.run_stv q2 v2 (m.put q1 v1 (fun _ => true))
    unfold Act.Eff at this
    rw [Mem.stv_eq (m := m.put q1 v1 (fun _ => true)) isW8 (fun i hi => h2 i hi)] at this
    exact this
  rw [Act.run_bind, e1]
  exact e2

/-- **C74.** Where `store_first` is exact (`Cfg.firstExact`) the same two threads never lose a write: after every finished execution the other thread's byte `x`, anywhere outside the `n` elements, and all `n`
elements are in memory. -/
theorem C74_store_first_beside {k : Kind} {sg : Bool} (hw : k.okW w) (hN : c.KLen k w N) (he : c.firstExact k w (c.regK k w N)) (be : Bool) (m : Mem) {p : Nat} (hp : p % (c.regK k w N).bytes = 0)
    (ha : m.Block p (N * (w / 8))) (a : Vec w N) {n : Nat} (hn : n < N) {x : Nat} (hx : x < p ∨ p + n * (w / 8) ≤ x) (hok : m.ok x = true) (b : BitVec 8)
    {S : Bool → Act Unit} {m' : Shared} {l : Nat} (ex : Exec (twoThreads (Act.store_first c be k sg p a n) (.wr1 x b (.ret ()))) m.shared S m' l) :
    (∀ i, ¬ Stuck (S i) m') ∧
      (Finished S → m'.byte x = b ∧ (∀ i : Fin N, i.val < n → Holds m'.byte (p + i.val * (w / 8)) (a i)) ∧
        ∀ y, y ≠ x → y < p ∨ p + n * (w / 8) ≤ y → m'.byte y = m.byte y) := by
  have h8 : 0 < w / 8 := by rcases hw.isW with e | e | e | e <;> subst e <;> decide
  obtain ⟨g1, g2⟩ := C74_disjoint (R := fun _ _ => False) (W := fun i y => if i = true then y = x else p ≤ y ∧ y < p + n * (w / 8)) (m0 := m.shared)
    (M := fun i => if i = true then { m with byte := fun y => if y = x then b else m.byte y } else m.put p a (fun i => decide (i < n)))
    (fun i j hij y hy => by
      refine ⟨id, fun g => ?_⟩
      cases i <;> cases j <;> simp at hij hy g <;> omega)
    (S := twoThreads (Act.store_first c be k sg p a n) (.wr1 x b (.ret ()))) (fun i => by
      cases i
      · exact C74_store_first_exact h hw hN he hn
      · exact ⟨rfl, trivial⟩)
    (fun i => by
      cases i
      · have e := Act.eff_store_first h be sg hw hN hp ha a hn
        rw [store_first_eq h be sg hw hN hp ha a hn] at e
        exact e
      · show (if m.ok x = true then some ((), _) else none) = _
        rw [if_pos hok]
        rfl) ex
  refine ⟨g1, fun hf => ?_⟩
  obtain ⟨-, g3, g4⟩ := g2 hf
  refine ⟨?_, fun i hi j hj => ?_, fun y h1 h2 => g4 y fun i => ?_⟩
  · exact (g3 true x rfl).trans (if_pos rfl)
  · have l1 := Nat.mul_le_mul_right (w / 8) (show i.val + 1 ≤ n from hi)
    have l2 := Nat.mul_le_mul_right (w / 8) (show n ≤ N from hn.le)
    rw [Nat.add_mul, Nat.one_mul] at l1
    have e1 : (p + i.val * (w / 8) + j - p) = j + i.val * (w / 8) := by omega
    refine (g3 false (p + i.val * (w / 8) + j) ⟨by omega, by omega⟩).trans ?_
    rw [if_neg Bool.false_ne_true, Mem.put_byte, e1, Nat.add_mul_div_right _ _ h8, Nat.div_eq_of_lt hj, Nat.zero_add, Nat.add_mul_mod_self_right, Nat.mod_eq_of_lt hj, Vec.at_fin,
      if_pos ⟨by omega, by omega, decide_eq_true hi⟩]
  · cases i
    · show ¬ (p ≤ y ∧ y < _)
      omega
    · exact h1

/-- Alone, these accesses are those of `store_u` of 16 bytes. -/
theorem eff_storeU8 {m : Mem} {p : Nat} (ha : c.AccS .r128 m p) (a : Vec 8 16) : Act.Eff (Act.storeU8 c p a) m (i_store_u8 c m p a) := by
  rw [i_store_u8_eq h rfl ha a]
  unfold Act.storeU8
  by_cases g : c.altivec = true ∧ ¬ c.vsx206 = true
  · rw [if_pos g]
    obtain ⟨hv1, hv2⟩ := ha.2 ⟨g.1, by simpa using g.2⟩
    have hv1' : m.Acc (p / 16 * 16) (16 * (8 / 8)) := hv1
    have hv2' : m.Acc ((p + 15) / 16 * 16) (16 * (8 / 8)) := hv2
    have e7 := store_vperm (m := m) (p := p) a rfl
    unfold Act.Eff
    rw [Act.bind_eq, Act.run_bind, Act.run_ldv, Mem.ldv_eq hv1']
    show Act.run (Act.bind _ _) m = _
    rw [Act.run_bind, Act.run_ldv, Mem.ldv_eq hv2']
    refine (run_stv2 hv2' hv1' _ _).trans ?_
    exact congrArg (fun M => some ((), M)) e7
  · rw [if_neg g]
    refine (Act.run_stv _ _ _).trans ?_
    rw [Mem.stv_eq isW8 (show m.Acc p (16 * (8 / 8)) from ha.1)]

omit h in
/-- **C74.** On AltiVec without VSX `store_u` to an address which is not a multiple of 16 must not run while another thread writes elsewhere in the 16-byte block where it begins: the other write may be lost. So
two threads may not store with `store_u` to adjacent parts of an array. -/
theorem C74_store_u_race (hv : c.altivec = true) (hx : c.vsx206 = false) (m : Mem) {p x : Nat} (h1 : p / 16 * 16 ≤ x) (h2 : x < p) (ha : m.Block (p / 16 * 16) 32) (a : Vec 8 16) (b : BitVec 8) :
    ∃ S m' k, Exec (twoThreads (Act.storeU8 c p a) (.wr1 x b (.ret ()))) m.shared S m' k ∧ Finished S ∧ m'.byte x = m.byte x := by
  have hv1 : m.Acc (p / 16 * 16) (16 * (8 / 8)) := ha.acc (le_refl _) (by omega)
  have hv2 : m.Acc ((p + 15) / 16 * 16) (16 * (8 / 8)) := ha.acc (by omega) (by omega)
  have e7 := store_vperm (m := m) (p := p) a rfl
  have e1 : Act.run (Act.bind (Act.ldv 8 16 (p / 16 * 16)) fun msq => Act.bind (Act.ldv 8 16 ((p + 15) / 16 * 16)) fun lsq => .ret (msq, lsq)) m =
      some ((Mem.get 8 16 m (p / 16 * 16), Mem.get 8 16 m ((p + 15) / 16 * 16)), m) := by
    rw [Act.run_bind, Act.run_ldv, Mem.ldv_eq hv1]
    show Act.run (Act.bind _ _) m = _
    rw [Act.run_bind, Act.run_ldv, Mem.ldv_eq hv2]
    rfl
  have assoc : ∀ {α β : Type} (A : Act α) (f : α → Act β) (g : β → Act Unit), Act.bind (Act.bind A f) g = Act.bind A fun x => Act.bind (f x) g := by
    intro α β A f g
    induction A with
    | ret => rfl
    | fail => rfl
    | rd1 p k ih => exact congrArg (Act.rd1 p) (funext fun b => ih b)
    | wr1 p b k ih => exact congrArg (Act.wr1 p b) ih
  have hs : Act.storeU8 c p a = Act.bind (Act.bind (Act.ldv 8 16 (p / 16 * 16)) fun msq => Act.bind (Act.ldv 8 16 ((p + 15) / 16 * 16)) fun lsq => .ret (msq, lsq)) fun v =>
      Act.bind (Act.stv ((p + 15) / 16 * 16) (Hw.vperm a (Hw.vperm v.2 v.1 (Hw.lvsl p) : Vec 8 16) (Hw.lvsr p) : Vec 8 16)) fun _ =>
        Act.stv (p / 16 * 16) (Hw.vperm (Hw.vperm v.2 v.1 (Hw.lvsl p) : Vec 8 16) a (Hw.lvsr p) : Vec 8 16) := by
    unfold Act.storeU8
    rw [if_pos ⟨hv, by rw [hx]; exact Bool.false_ne_true⟩, assoc]
    refine congrArg (Act.bind _) (funext fun msq => ?_)
    show _ = Act.bind (Act.bind _ _) _
    rw [assoc]
    rfl
  rw [hs]
  obtain ⟨S, k, g1, g2⟩ := race (x := x) (b := b) (M2 := ((Mem.put { m with byte := fun y => if y = x then b else m.byte y } ((p + 15) / 16 * 16)
      (Hw.vperm a (Hw.vperm (Mem.get 8 16 m ((p + 15) / 16 * 16)) (Mem.get 8 16 m (p / 16 * 16)) (Hw.lvsl p) : Vec 8 16) (Hw.lvsr p) : Vec 8 16) (fun _ => true)).put (p / 16 * 16)
      (Hw.vperm (Hw.vperm (Mem.get 8 16 m ((p + 15) / 16 * 16)) (Mem.get 8 16 m (p / 16 * 16)) (Hw.lvsl p) : Vec 8 16) a (Hw.lvsr p) : Vec 8 16) (fun _ => true)))
    (g := fun v : Vec 8 16 × Vec 8 16 => Act.bind (Act.stv ((p + 15) / 16 * 16) (Hw.vperm a (Hw.vperm v.2 v.1 (Hw.lvsl p) : Vec 8 16) (Hw.lvsr p) : Vec 8 16)) fun _ =>
        Act.stv (p / 16 * 16) (Hw.vperm (Hw.vperm v.2 v.1 (Hw.lvsl p) : Vec 8 16) a (Hw.lvsr p) : Vec 8 16)) e1 (ha _ h1 (by omega)) (by
      exact run_stv2 (m := { m with byte := fun y => if y = x then b else m.byte y }) (fun i hi => hv2 i hi) (fun i hi => hv1 i hi) _ _)
  refine ⟨S, _, k, g1, g2, ?_⟩
  show (Mem.put _ (p / 16 * 16) _ (fun _ => true)).byte x = _
  have e8 := congrArg (fun M : Mem => M.byte x) e7
  simp only [put8_byte] at e8
  rw [if_pos (by omega), if_neg (show ¬ (p ≤ x ∧ x < p + 16) by omega)] at e8
  rw [put8_byte, if_pos (by omega), e8]

end

end Simdpp
