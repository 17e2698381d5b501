import Verif.Props.ThreadsExact
import Verif.Props.Samples

/-!
# C74: loops in several threads
-/

namespace Simdpp
open Spec Spec.Thr Spec.MProg Spec.FProg Sh

variable {w n N L : Nat} {α β : Type}

namespace Act
open Spec.Thr.Act

section
variable {R W : Nat → Prop} {c : Cfg} (h : c.Ok)
include h

omit h in
theorem safe_first {be : Bool} {k : Kind} (hw : k.okW w) {r : Reg} {p : Nat} {a : Vec w (r.lanes w)} {n : Nat} (hn : n ≤ r.lanes w)
    (hx : ∀ y, p ≤ y → y < p + r.lanes w * (w / 8) → W y) : Safe R W (first c be k r p a n) := by
  cases k
  · exact safe_firstInt hn (lanes_pos hw.isW r) hx
  · refine safe_firstFlt hn ?_ hx
    rcases hw with e | e <;> subst e <;> cases r <;> decide

theorem safe_store_first {be : Bool} {k : Kind} {sg : Bool} (hw : k.okW w) (hN : c.KLen k w N) {p : Nat} {a : Vec w N} {n : Nat} (hn : n < N)
    (hx : ∀ y, p ≤ y → y < p + N * (w / 8) → W y) : Safe R W (store_first c be k sg p a n) := by
  obtain ⟨hr, K, -, e⟩ := KLen.regs h hw hN
  have hB := bytes_eq hw.isW (c.regK k w N)
  unfold store_first
  dsimp only
  generalize c.regK k w N = r at *
  split_ifs with g
  · have e' := g.1
    subst e'
    exact safe_first hw hn.le hx
  · have hv : n / r.lanes w < K := Nat.div_lt_of_lt_mul (by rw [Nat.mul_comm, ← e]; exact hn)
    have hL := lanes_pos hw.isW r
    have hs : ∀ i, i < K → ∀ y, p + i * r.bytes ≤ y → y < p + i * r.bytes + r.lanes w * (w / 8) → W y := fun i hi y h1 h2 => by
      have := reg_sub hw.isW e hi
      exact hx y (by omega) (by omega)
    unfold firstArr
    refine Safe.bind (fun _ => ?_) (safe_loop _ fun i _ h2 => safe_stv (hs i (by omega)))
    split_ifs
    · exact safe_first hw (Nat.mod_lt n hL).le (hs _ hv)
    · trivial

end

theorem safe_loads {R W : Nat → Prop} {Γ : Nat → ETy} {p : Nat → Nat} {i : Nat} : (V : Nat) →
    (∀ x, x < V → ∀ y, p x + i * (N * ((Γ x).w / 8)) ≤ y → y < p x + i * (N * ((Γ x).w / 8)) + N * ((Γ x).w / 8) → R y ∨ W y) → Safe R W (loads (Γ := Γ) N p i V)
  | 0, _ => trivial
  | V + 1, hx => Safe.bind (fun _ => Safe.bind (fun _ => by exact trivial) (safe_ldv (hx V (by omega)))) (safe_loads V fun x h => hx x (by omega))

end Act

/-- Byte `y` belongs to the first `P` elements of the output at `q`. -/
def OutArea (w q P y : Nat) : Prop := q ≤ y ∧ y < q + P * (w / 8)

/-- Byte `y` belongs to the first `P` elements of one of the `V` inputs. -/
def InArea (Γ : Nat → ETy) (V : Nat) (p : Nat → Nat) (P y : Nat) : Prop := ∃ x, x < V ∧ OutArea (Γ x).w (p x) P y

section
variable {c : Cfg} (h : c.Ok) {Γ : Nat → ETy} {t : ETy} {P cnt : Nat}
include h

omit h in
theorem vec_area {w i : Nat} {q y : Nat} (hi : (i + 1) * N ≤ P) (h1 : q + i * (N * (w / 8)) ≤ y) (h2 : y < q + i * (N * (w / 8)) + N * (w / 8)) : OutArea w q P y := by
  have h3 := Nat.mul_le_mul_right (w / 8) hi
  rw [Nat.mul_assoc, Nat.add_mul, Nat.one_mul] at h3
  exact ⟨by omega, by omega⟩

theorem KLen.pos {k : Kind} (hw : k.okW w) (hN : c.KLen k w N) : 0 < N := by
  obtain ⟨-, K, hK, e⟩ := KLen.regs h hw hN
  rw [e]; exact Nat.mul_pos hK (lanes_pos hw.isW _)

omit h in
theorem area_full (hN : 0 < N) (hP : P = (cnt + (N - 1)) / N * N) {i : Nat} (hi : i * N < cnt) : (i + 1) * N ≤ P := by
  rw [hP]
  refine Nat.mul_le_mul_right _ ((Nat.le_div_iff_mul_le hN).2 ?_)
  rw [Nat.add_mul, Nat.one_mul]; omega

omit h in
theorem area_div (hN : 0 < N) {i : Nat} (hi : i < cnt / N) : i * N < cnt := by
  have h1 := Nat.mul_le_mul_right N (show i + 1 ≤ cnt / N from hi)
  have h2 := Nat.div_mul_le_self cnt N
  rw [Nat.add_mul, Nat.one_mul] at h1
  omega

omit h in
theorem area_tail (hN : 0 < N) (ht : ¬ cnt % N = 0) : cnt / N * N < cnt := by
  have h1 := Nat.div_add_mod cnt N
  rw [Nat.mul_comm] at h1
  omega

/-- The loop reads only its inputs and writes only its output, both rounded up to whole vectors. -/
theorem kernel_safe {be : Bool} {E : Est} {J : Junk c N} {V : Nat} {e : MExp Γ t} {p : Nat → Nat} {q : Nat} (hN : c.TLen t N) (hP : P = (cnt + (N - 1)) / N * N) :
    Act.Safe (InArea Γ V p P) (OutArea t.w q P) (Act.kernel c be E J V e p q cnt) := by
  have hN0 := KLen.pos h (ETy.okW t) hN
  have hst : ∀ i, i * N < cnt → Act.Safe (InArea Γ V p P) (OutArea t.w q P) (Act.kstep c E J V e p i) := fun i hi =>
    Act.Safe.bind (fun _ => Act.safe_lift _) (Act.safe_loads V fun x hx y h1 h2 => .inl ⟨x, hx, vec_area (area_full hN0 hP hi) h1 h2⟩)
  unfold Act.kernel
  refine Act.Safe.bind (fun _ => ?_) (Act.safe_loop _ fun i _ hi => Act.Safe.bind (fun _ => ?_) (hst i (area_div hN0 (by omega))))
  · split_ifs with ht
    · trivial
    · refine Act.Safe.bind (fun _ => ?_) (hst _ (area_tail hN0 ht))
      exact Act.safe_store_first h (ETy.okW t) hN (Nat.mod_lt _ hN0) fun y => vec_area (area_full hN0 hP (area_tail hN0 ht))
  · exact Act.safe_stv fun y => vec_area (area_full hN0 hP (area_div hN0 (by omega)))

/-- On the builds where `store_first` is exact the loop writes only the elements. -/
theorem kernel_safeX {be : Bool} {E : Est} {J : Junk c N} {V : Nat} {e : MExp Γ t} {p : Nat → Nat} {q : Nat} (hN : c.TLen t N) (hP : P = (cnt + (N - 1)) / N * N)
    (he : c.firstExact t.kind t.w (c.regK t.kind t.w N)) : Act.Safe (InArea Γ V p P) (OutArea t.w q cnt) (Act.kernel c be E J V e p q cnt) := by
  have hN0 := KLen.pos h (ETy.okW t) hN
  have hst : ∀ i, i * N < cnt → Act.Safe (InArea Γ V p P) (OutArea t.w q cnt) (Act.kstep c E J V e p i) := fun i hi =>
    Act.Safe.bind (fun _ => Act.safe_lift _) (Act.safe_loads V fun x hx y h1 h2 => .inl ⟨x, hx, vec_area (area_full hN0 hP hi) h1 h2⟩)
  unfold Act.kernel
  refine Act.Safe.bind (fun _ => ?_) (Act.safe_loop _ fun i _ hi => Act.Safe.bind (fun _ => ?_) (hst i (area_div hN0 (by omega))))
  · split_ifs with ht
    · trivial
    · refine Act.Safe.bind (fun _ => ?_) (hst _ (area_tail hN0 ht))
      refine Act.Safe.mono (fun _ g => g.elim) (fun y g => ?_) (C74_store_first_exact h (ETy.okW t) hN he (Nat.mod_lt _ hN0))
      have e1 := Nat.div_add_mod' cnt N
      have e2 : cnt * (t.w / 8) = cnt / N * (N * (t.w / 8)) + cnt % N * (t.w / 8) := by
        conv_lhs => rw [← e1]
        rw [Nat.add_mul, Nat.mul_assoc]
      exact ⟨by have := g.1; omega, by have := g.2; omega⟩
  · refine Act.safe_stv fun y => vec_area (P := cnt) ?_
    have := Nat.mul_le_mul_right N (show i + 1 ≤ cnt / N by omega)
    exact Nat.le_trans this (Nat.div_mul_le_self _ _)

theorem vec_aligned {k : Kind} (hw : k.okW w) (hN : c.KLen k w N) {q i : Nat} (hq : q % (c.regK k w N).bytes = 0) : (q + i * (N * (w / 8))) % (c.regK k w N).bytes = 0 := by
  obtain ⟨hr, K, hK, eN⟩ := KLen.regs h hw hN
  have eB : N * (w / 8) = K * (c.regK k w N).bytes := by
    conv_lhs => rw [eN]
    rw [Nat.mul_assoc, bytes_eq hw.isW]
  rw [Nat.add_mod, hq, eB, ← Nat.mul_assoc, Nat.mul_mod_left, Nat.zero_mod]

theorem run_loads {m : Mem} {p : Nat → Nat} {i : Nat} (hi : (i + 1) * N ≤ P) : (V : Nat) → (∀ x, x < V → c.TLen (Γ x) N) →
    (∀ x, x < V → p x % (c.regK (Γ x).kind (Γ x).w N).bytes = 0) → (∀ x, x < V → m.Block (p x) (P * ((Γ x).w / 8))) →
    Act.run (Act.loads (Γ := Γ) N p i V) m = (loadsM (Γ := Γ) c N p i m V).map fun v => (v, m)
  | 0, _, _, _ => rfl
  | V + 1, hT, hp, hb => by
    have ih := run_loads hi V (fun x g => hT x (by omega)) (fun x g => hp x (by omega)) (fun x g => hb x (by omega))
    unfold Act.loads loadsM
    rw [Act.bind_eq, Act.run_bind, ih]
    cases loadsM (Γ := Γ) c N p i m V with
    | none => rfl
    | some a =>
      have e := Act.run_load h (ETy.okW _) (hT V (by omega)) (m := m) (vec_aligned h (ETy.okW _) (hT V (by omega)) (hp V (by omega)) (i := i)) fun y h1 h2 =>
        hb V (by omega) y (vec_area hi h1 h2).1 (vec_area hi h1 h2).2
      show Act.run (Act.bind _ _) m = _
      rw [Act.run_bind, e]
      cases load c (Γ V).kind (Γ V).w N m (p V + i * (N * ((Γ V).w / 8))) <;> rfl

/-- Alone, the accesses of the loop have the effect of the loop of C59. -/
theorem kernel_eff {be : Bool} {E : Est} {J : Junk c N} {V : Nat} {e : MExp Γ t} {p : Nat → Nat} {q : Nat} (hN : c.TLen t N) (hP : P = (cnt + (N - 1)) / N * N) {m : Mem}
    (hT : ∀ x, x < V → c.TLen (Γ x) N) (hp : ∀ x, x < V → p x % (c.regK (Γ x).kind (Γ x).w N).bytes = 0) (hq : q % (c.regK t.kind t.w N).bytes = 0)
    (hb : ∀ x, x < V → m.Block (p x) (P * ((Γ x).w / 8))) (hbq : m.Block q (P * (t.w / 8))) :
    Act.Eff (Act.kernel c be E J V e p q cnt) m (mkernel c be E J V e p q cnt m) := by
  have hN0 := KLen.pos h (ETy.okW t) hN
  have hst : ∀ i, i * N < cnt → ∀ m' : Mem, m'.ok = m.ok → Act.run (Act.kstep c E J V e p i) m' = (mkernelStep c E J V e p i m').map fun v => (v, m') := fun i hi m' ho => by
    unfold Act.kstep mkernelStep
    rw [Act.bind_eq, Act.run_bind, run_loads h (area_full hN0 hP hi) V hT hp fun x hx y h1 h2 => by rw [ho]; exact hb x hx y h1 h2]
    cases loadsM (Γ := Γ) c N p i m' V with
    | none => rfl
    | some a => exact Act.run_lift _ _
  have blk : ∀ i, i * N < cnt → ∀ m' : Mem, m'.ok = m.ok → m'.Block (q + i * (N * (t.w / 8))) (N * (t.w / 8)) := fun i hi m' ho y h1 h2 => by
    have := vec_area (area_full hN0 hP hi) h1 h2
    rw [ho]; exact hbq y this.1 this.2
  have lp := Act.Eff.loop (m := m) (lo := 0) (f := fun i => do
      let v ← Act.kstep c E J V e p i
      Act.store (q + i * (N * (t.w / 8))) v) (g := fun i m => do store c t.kind m (q + i * (N * (t.w / 8))) (← mkernelStep c E J V e p i m)) (cnt / N)
    fun i _ hi m' ho => by
      have hi' := area_div (cnt := cnt) hN0 (show i < cnt / N by omega)
      show Act.run (Act.bind _ _) m' = _
      rw [Act.run_bind, hst i hi' m' ho]
      cases mkernelStep c E J V e p i m' with
      | none => rfl
      | some v => exact Act.eff_store h (ETy.okW t) hN (vec_aligned h (ETy.okW t) hN hq) (blk i hi' m' ho) v
  unfold Act.kernel mkernel kernelG
  refine Act.Eff.bind lp fun m' hm' => ?_
  have ho : m'.ok = m.ok := by
    unfold Act.Eff at lp
    rw [hm'] at lp
    exact Act.run_ok lp
  split_ifs with ht
  · rfl
  · have hi' := area_tail hN0 ht
    show Act.run (Act.bind _ _) m' = _
    rw [Act.run_bind, hst _ hi' m' ho]
    cases mkernelStep c E J V e p (cnt / N) m' with
    | none => rfl
    | some v => exact Act.eff_store_first h be t.signed (ETy.okW t) hN (vec_aligned h (ETy.okW t) hN hq) (blk _ hi' m' ho) v (Nat.mod_lt _ hN0)

end

/-- What one thread runs: on the build `c` (threads may come through the dispatcher to different ones), with `N` lanes, the loop of C59 with body `e` over `V` arrays at `p`, the output at `q`, `cnt` elements. -/
structure Job where
  c : Cfg
  ok : c.Ok
  be : Bool
  N : Nat
  E : Est
  J : Junk c N
  Γ : Nat → ETy
  t : ETy
  e : MExp Γ t
  V : Nat
  p : Nat → Nat
  q : Nat
  cnt : Nat

namespace Job
/-- The elements rounded up to whole vectors. -/
def P (j : Job) : Nat := (j.cnt + (j.N - 1)) / j.N * j.N
/-- The accesses of the loop. -/
def act (j : Job) : Act Unit := Act.kernel j.c j.be j.E j.J j.V j.e j.p j.q j.cnt
/-- Bytes the loop may write: the output rounded up to whole vectors; only the elements themselves where `store_first` is exact. -/
def out (j : Job) (y : Nat) : Prop := OutArea j.t.w j.q j.P y ∧ (j.c.firstExact j.t.kind j.t.w (j.c.regK j.t.kind j.t.w j.N) → OutArea j.t.w j.q j.cnt y)
/-- Bytes the loop may read. -/
def inp (j : Job) (y : Nat) : Prop := InArea j.Γ j.V j.p j.P y
/-- The arrays are aligned, may be accessed up to whole vectors, hold the elements `A x j`, and an input which overlaps the output of this loop does not start before it and does not have smaller elements. -/
structure Ready (j : Job) (m : Mem) (A : (x : Nat) → Nat → BitVec (j.Γ x).w) : Prop where
  len : ∀ x, x < j.V → j.c.TLen (j.Γ x) j.N
  olen : j.c.TLen j.t j.N
  holds : ∀ x, x < j.V → ∀ i, i < j.P → Holds m.byte (j.p x + i * ((j.Γ x).w / 8)) (A x i)
  unused : ∀ x, j.V ≤ x → ∀ i, A x i = 0
  al : ∀ x, x < j.V → j.p x % (j.c.regK (j.Γ x).kind (j.Γ x).w j.N).bytes = 0
  alq : j.q % (j.c.regK j.t.kind j.t.w j.N).bytes = 0
  blk : ∀ x, x < j.V → m.Block (j.p x) (j.P * ((j.Γ x).w / 8))
  blkq : m.Block j.q (j.P * (j.t.w / 8))
  dis : ∀ x, x < j.V → (j.q ≤ j.p x ∧ j.t.w ≤ (j.Γ x).w) ∨ j.p x + j.P * ((j.Γ x).w / 8) ≤ j.q ∨ j.q + j.P * (j.t.w / 8) ≤ j.p x
end Job

theorem Job.safe (j : Job) (hN : j.c.TLen j.t j.N) : Act.Safe j.inp j.out j.act := by
  have s1 : Act.Safe j.inp (OutArea j.t.w j.q j.P) j.act := kernel_safe j.ok hN rfl
  by_cases he : j.c.firstExact j.t.kind j.t.w (j.c.regK j.t.kind j.t.w j.N)
  · have s2 : Act.Safe j.inp (OutArea j.t.w j.q j.cnt) j.act := kernel_safeX j.ok hN rfl he
    refine Act.Safe.mono (fun _ g => .inl g) (fun y g => ⟨⟨g.1, ?_⟩, fun _ => g⟩) s2
    refine lt_of_lt_of_le g.2 (Nat.add_le_add_left (Nat.mul_le_mul_right _ ?_) _)
    have hN0 := KLen.pos j.ok (ETy.okW _) hN
    unfold Job.P
    have h3 := Nat.div_add_mod' (j.cnt + (j.N - 1)) j.N
    have h4 := Nat.mod_lt (j.cnt + (j.N - 1)) hN0
    omega
  · exact Act.Safe.mono (fun _ g => .inl g) (fun y g => ⟨g, fun g' => absurd g' he⟩) s1

/-- The threads together, from each of them alone. -/
theorem loops_of {ι : Type} [DecidableEq ι] (job : ι → Job) (I : ι → (f : FWd) → Impl f.n) (m : Mem) (A : (i : ι) → (x : Nat) → Nat → BitVec ((job i).Γ x).w)
    (hr : ∀ i, (job i).Ready m (A i)) (hd : ∀ i i', i ≠ i' → ∀ y, (job i).out y → ¬ (job i').inp y ∧ ¬ (job i').out y)
    (run : ∀ i, ∃ M, mkernel (job i).c (job i).be (job i).E (job i).J (job i).V (job i).e (job i).p (job i).q (job i).cnt m = some M ∧ M.ok = m.ok ∧
      (∀ j, j < (job i).cnt → Holds M.byte ((job i).q + j * ((job i).t.w / 8)) ((job i).e.den (I i) fun x => A i x j)) ∧
      ∀ a, a < (job i).q ∨ (job i).q + (job i).cnt * ((job i).t.w / 8) ≤ a → M.byte a = m.byte a)
    {S : ι → Act Unit} {m' : Shared} {k : Nat} (ex : Exec (fun i => (job i).act) m.shared S m' k) :
    (∀ i, ¬ Stuck (S i) m') ∧
      (Finished S →
        (∀ i j, j < (job i).cnt → Holds m'.byte ((job i).q + j * ((job i).t.w / 8)) ((job i).e.den (I i) fun x => A i x j)) ∧
        ∀ y, (∀ i, y < (job i).q ∨ (job i).q + (job i).cnt * ((job i).t.w / 8) ≤ y) → m'.byte y = m.byte y) := by
  choose M r1 r2 r3 r4 using run
  obtain ⟨g1, g2⟩ := C74_disjoint (R := fun i => (job i).inp) (W := fun i => (job i).out) (m0 := m.shared) (M := M) hd (fun i => (job i).safe (hr i).olen)
    (fun i => (kernel_eff (job i).ok (hr i).olen rfl (hr i).len (hr i).al (hr i).alq (hr i).blk (hr i).blkq).trans (by rw [r1 i]; rfl)) ex
  refine ⟨g1, fun hf => ?_⟩
  obtain ⟨-, g3, g4⟩ := g2 hf
  have hPc : ∀ i, (job i).cnt ≤ (job i).P := fun i => by
    have hN0 := KLen.pos (job i).ok (ETy.okW _) (hr i).olen
    unfold Job.P
    have h3 := Nat.div_add_mod ((job i).cnt + ((job i).N - 1)) (job i).N
    have h4 := Nat.mod_lt ((job i).cnt + ((job i).N - 1)) hN0
    rw [Nat.mul_comm] at h3
    omega
  refine ⟨fun i j hj b hb => ?_, fun y hy => ?_⟩
  · have l1 := Nat.mul_le_mul_right ((job i).t.w / 8) (show j + 1 ≤ (job i).P from Nat.le_trans hj (hPc i))
    rw [Nat.add_mul, Nat.one_mul] at l1
    rw [g3 i _ ⟨⟨by omega, by omega⟩, fun _ => ⟨by omega, by have l2 := Nat.mul_le_mul_right ((job i).t.w / 8) hj; rw [Nat.succ_mul] at l2; omega⟩⟩]
    exact r3 i j hj b hb
  · by_cases ho : ∀ i, ¬ (job i).out y
    · exact g4 y ho
    · obtain ⟨i, hi⟩ := not_forall.1 ho
      rw [g3 i y (not_not.1 hi)]
      exact r4 i y (hy i)

/-- **C74.** Any number of threads, each running a loop of C59 (on any build, of any expression), where no thread's output overlaps another thread's output or inputs (inputs rounded up to whole vectors,
outputs too except where `store_first` is exact, see `Cfg.firstExact`): whatever the
order in which the single accesses of the threads to memory happen, no thread gets stuck, and when all have finished, every output element is the scalar result on the elements at the start, and no
other byte has changed. -/
theorem C74_loops {ι : Type} [DecidableEq ι] (job : ι → Job) : ∃ I : ι → (f : FWd) → Impl f.n,
    (∀ i f, (I i f).Ok ∧ (¬ (job i).c.mulByFma f.n ((job i).c.regK .flt f.n (job i).N) → (I i f).mul = Fp.mul)) ∧
    ∀ (m : Mem) (A : (i : ι) → (x : Nat) → Nat → BitVec ((job i).Γ x).w),
      (∀ i, (job i).Ready m (A i)) → (∀ i, (job i).e.Ok (job i).c (job i).N (I i) (fun (j : Fin (job i).P) x => A i x j.val)) →
      (∀ i i', i ≠ i' → ∀ y, (job i).out y → ¬ (job i').inp y ∧ ¬ (job i').out y) →
      ∀ (S : ι → Act Unit) (m' : Shared) (k : Nat), Exec (fun i => (job i).act) m.shared S m' k →
        (∀ i, ¬ Stuck (S i) m') ∧
        (Finished S →
          (∀ i j, j < (job i).cnt → Holds m'.byte ((job i).q + j * ((job i).t.w / 8)) ((job i).e.den (I i) fun x => A i x j)) ∧
          ∀ y, (∀ i, y < (job i).q ∨ (job i).q + (job i).cnt * ((job i).t.w / 8) ≤ y) → m'.byte y = m.byte y) := by
  have hI := fun i => C59_kernel (job i).ok (job i).N (job i).E
  choose I h1 h2 using hI
  refine ⟨I, h1, fun m A hr hok hd S m' k ex => ?_⟩
  exact loops_of job I m A hr hd (fun i =>
    h2 i _ _ (job i).e (job i).be (job i).J m rfl (hr i).len (hr i).holds (hr i).unused (hr i).al (hr i).alq (hr i).blk (hr i).blkq (hr i).dis (hok i)) ex

/-- **C74.** There is a number of accesses which no execution of these threads exceeds, and after exactly which all have finished. -/
theorem C74_loops_end {T : Nat} (job : Fin T → Job) (m : Mem) (hN : ∀ i, (job i).c.TLen (job i).t (job i).N)
    (hd : ∀ i i', i ≠ i' → ∀ y, (job i).out y → ¬ (job i').inp y ∧ ¬ (job i').out y) :
    ∃ K, ∀ (S : Fin T → Act Unit) (m' : Shared) (k : Nat), Exec (fun i => (job i).act) m.shared S m' k → k ≤ K ∧ (Finished S → k = K) := by
  refine ⟨∑ i, Act.cost (job i).act m, fun S m' k ex => ?_⟩
  have e := C74_ends (R := fun i => (job i).inp) (W := fun i => (job i).out) hd (fun i => (job i).safe (hN i)) ex
  have e' : k + ∑ i, Act.cost (S i) m'.mem = ∑ i, Act.cost (job i).act m := e
  refine ⟨by omega, fun hf => ?_⟩
  have : ∑ i, Act.cost (S i) m'.mem = 0 := Finset.sum_eq_zero fun i _ => by
    obtain ⟨x, hx⟩ := hf i
    rw [hx]; rfl
  omega

end Simdpp
