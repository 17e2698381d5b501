import Verif.Props.Threads

/-!
# C74: the accesses of the loads and stores
-/

namespace Simdpp
open Spec Spec.Thr Spec.MProg Sh

variable {w n N L : Nat} {α β : Type}

namespace Act
open Spec.Thr.Act

/-- Alone, the accesses `A` have the effect `x` on memory. -/
def Eff (A : Act Unit) (m : Mem) (x : Option Mem) : Prop := run A m = x.map fun m' => ((), m')

theorem run_lift (o : Option α) (m : Mem) : run (lift o) m = o.map fun x => (x, m) := by cases o <;> rfl

theorem run_rd (p : Nat) (m : Mem) : (k : Nat) → run (rd p k) m = (m.rd p k).map fun v => (v, m)
  | 0 => by
    unfold rd Mem.rd
    rw [if_pos (fun i => i.elim0)]
    exact congrArg (fun v => some (v, m)) (funext fun i => i.elim0)
  | k + 1 => by
    unfold rd
    rw [bind_eq, run_bind, run_rd p m k]
    unfold Mem.rd
    by_cases h1 : ∀ i : Fin k, m.ok (p + i.val) = true
    · rw [if_pos h1]
      show (if m.ok (p + k) = true then some _ else none) = _
      by_cases h2 : m.ok (p + k) = true
      · rw [if_pos h2, if_pos (fun i => by
          by_cases g : i.val < k
          · exact h1 ⟨i.val, g⟩
          · rw [show i.val = k from by omega]; exact h2)]
        refine congrArg (fun v => some (v, m)) (funext fun i => ?_)
        by_cases g : i.val < k
        · rw [dif_pos g]
        · rw [dif_neg g, show i.val = k from by omega]
      · rw [if_neg h2, if_neg (fun g => h2 (g ⟨k, by omega⟩))]
        rfl
    · rw [if_neg h1, if_neg (fun g => h1 fun i => g ⟨i.val, by omega⟩)]
      rfl

theorem run_wr (p : Nat) (v : Nat → BitVec 8) (m : Mem) : (k : Nat) → Eff (wr p v k) m (m.wr p (fun i : Fin k => v i.val))
  | 0 => by
    unfold Eff wr Mem.wr
    rw [if_pos (fun i => i.elim0)]
    refine congrArg (fun m => some ((), m)) (Mem.ext' rfl fun x => ?_)
    exact (if_neg (by omega)).symm
  | k + 1 => by
    have ih := run_wr p v m k
    unfold Eff at ih ⊢
    unfold wr
    rw [bind_eq, run_bind, ih]
    unfold Mem.wr
    by_cases h1 : ∀ i : Fin k, m.ok (p + i.val) = true
    · rw [if_pos h1]
      show (if m.ok (p + k) = true then some _ else none) = _
      by_cases h2 : m.ok (p + k) = true
      · rw [if_pos h2, if_pos (fun i => by
          by_cases g : i.val < k
          · exact h1 ⟨i.val, g⟩
          · rw [show i.val = k from by omega]; exact h2)]
        refine congrArg (fun m => some ((), m)) (Mem.ext' rfl fun x => ?_)
        show (if x = p + k then v k else if p ≤ x ∧ x < p + k then _ else m.byte x) = if p ≤ x ∧ x < p + (k + 1) then _ else m.byte x
        by_cases g : x = p + k
        · rw [if_pos g, if_pos (by omega)]
          unfold Vec.at_
          rw [dif_pos (show x - p < k + 1 by omega)]
          exact congrArg v (show k = x - p by omega)
        · rw [if_neg g]
          by_cases g2 : p ≤ x ∧ x < p + k
          · rw [if_pos g2, if_pos (by omega)]
            unfold Vec.at_
            rw [dif_pos (show x - p < k by omega), dif_pos (show x - p < k + 1 by omega)]
          · rw [if_neg g2, if_neg (by omega)]
      · rw [if_neg h2, if_neg (fun g => h2 (g ⟨k, by omega⟩))]
        rfl
    · rw [if_neg h1, if_neg (fun g => h1 fun i => g ⟨i.val, by omega⟩)]
      rfl

theorem run_ldv (w n p : Nat) (m : Mem) : run (ldv w n p) m = (m.ldv w n p).map fun v => (v, m) := by
  unfold ldv Mem.ldv
  rw [bind_eq, run_bind, run_rd]
  cases m.rd p (n * (w / 8)) <;> rfl

theorem run_stv (p : Nat) (a : Vec w n) (m : Mem) : Eff (stv p a) m (m.stv p a) := by
  unfold stv Mem.stv
  refine (run_wr p _ m _).trans (congrArg (fun v => Option.map _ (m.wr p v)) (funext fun i => ?_))
  unfold Vec.at_
  rw [dif_pos i.isLt]

theorem Eff.loop {f : Nat → Act Unit} {g : Nat → Mem → Option Mem} {m : Mem} {lo : Nat} : (n : Nat) → (∀ i, lo ≤ i → i < lo + n → ∀ m' : Mem, m'.ok = m.ok → Eff (f i) m' (g i m')) →
    Eff (loop f lo n) m (loopM g lo n m)
  | 0, _ => rfl
  | n + 1, h => by
    have ih := Eff.loop (f := f) (g := g) (m := m) (lo := lo) n fun i h1 h2 => h i h1 (by omega)
    have rk : ∀ {x : Unit} {M : Mem}, run (Act.loop f lo n) m = some (x, M) → M.ok = m.ok := fun e => run_ok e
    unfold Eff at ih ⊢
    unfold Act.loop loopM
    rw [bind_eq, run_bind]
    rw [ih] at rk ⊢
    cases hx : loopM g lo n m with
    | none => rfl
    | some M =>
      rw [hx] at rk
      exact h (lo + n) (by omega) (by omega) M (rk rfl)

theorem Eff.al {A : Act Unit} {m : Mem} {x : Option Mem} (k p : Nat) (h : Eff A m x) : Eff (al k p A) m (Mem.al k p x) := by
  unfold Act.al Mem.al
  split_ifs
  · exact h
  · rfl

theorem Eff.lift {o : Option α} {f : α → Act Unit} {m : Mem} {g : α → Option Mem} (h : ∀ x, Eff (f x) m (g x)) : Eff (Act.bind (Act.lift o) f) m (o.bind g) := by
  cases o with
  | none => rfl
  | some x => exact h x

theorem eff_ret (m : Mem) : Eff (.ret ()) m (some m) := rfl
theorem eff_fail (m : Mem) : Eff .fail m none := rfl

theorem eff_stm (p : Nat) (a : Vec w n) (sel : Nat → Bool) (m : Mem) : Eff (stm p a sel) m (m.stm p a sel) := by
  unfold stm Mem.stm
  refine Eff.loop n fun i _ _ m' _ => ?_
  split_ifs
  · exact run_stv _ _ _
  · rfl

theorem eff_nullFirst (p : Nat) (a : Vec w N) (n : Nat) (m : Mem) : Eff (nullFirst p a n) m (Null.store_first m p a n) := by
  unfold nullFirst Null.store_first
  exact Eff.loop _ fun i _ _ m' _ => Eff.al _ _ (run_stv _ _ _)

theorem eff_lane (p : Nat) (a : Vec w n) (i : Nat) (m : Mem) : Eff (lane p a i) m (storeLane m p a i) := run_stv _ _ _

theorem eff_maskFirst (h p : Nat) (a : Vec w N) (n : Nat) (m : Mem) : Eff (maskFirst h p a n) m (maskstoreFirst h m p a n) :=
  Eff.lift fun _ => eff_stm _ _ _ _

theorem eff_mask512First (h p : Nat) (a : Vec w N) (n : Nat) (m : Mem) : Eff (mask512First h p a n) m (Simdpp.mask512First h m p a n) := by
  unfold mask512First Simdpp.mask512First
  split_ifs
  · exact eff_stm _ _ _ _
  · rfl

/-- Effects in sequence. -/
theorem Eff.bind {A : Act Unit} {B : Unit → Act Unit} {m : Mem} {x : Option Mem} {y : Mem → Option Mem} (h1 : Eff A m x) (h2 : ∀ m', x = some m' → Eff (B ()) m' (y m')) :
    Eff (Act.bind A B) m (x.bind y) := by
  unfold Eff at h1 ⊢
  rw [run_bind, h1]
  cases x with
  | none => rfl
  | some M => exact h2 M rfl

section
variable {c : Cfg} (h : c.Ok)
include h

theorem eff_blend {k : Kind} (hw : k.okW w) {r : Reg} (hr : c.hasVec k w r = true) (hn : n = r.lanes w) {m : Mem} {p : Nat}
    (hp : p % r.bytes = 0) (ha : m.Acc p r.bytes) (a mask : Vec w n) : Eff (blendStore c k r p a mask) m (Simdpp.blendStore c k r m p a mask) := by
  have ha' : m.Acc p (n * (w / 8)) := by rw [hn, bytes_eq hw.isW r]; exact ha
  unfold Eff blendStore Simdpp.blendStore
  rw [bind_eq, run_bind, run_ldv, Mem.ldv_eq ha', i_load_eq h hw hr hn hp ha]
  refine (Eff.lift (o := i_blend c k r a (Mem.get w n m p) mask) (m := m) (g := fun b => i_store c k r m p b) fun b => ?_)
  rw [i_store_eq h hw hr hn hp ha, ← Mem.stv_eq hw.isW ha']
  exact run_stv _ _ _

theorem eff_blend' {k : Kind} (hw : k.okW w) {r : Reg} (hr : c.hasVec k w r = true) (hn : n = r.lanes w) {m : Mem} {p : Nat}
    (hp : p % r.bytes = 0) (ha : m.Acc p r.bytes) (a mask : Vec w n) : Eff (blendStore' c k r p a mask) m (Simdpp.blendStore' c k r m p a mask) := by
  have ha' : m.Acc p (n * (w / 8)) := by rw [hn, bytes_eq hw.isW r]; exact ha
  unfold Eff blendStore' Simdpp.blendStore'
  rw [bind_eq, run_bind, run_ldv, Mem.ldv_eq ha', i_load_eq h hw hr hn hp ha]
  refine (Eff.lift (o := i_blend c k r (Mem.get w n m p) a mask) (m := m) (g := fun b => i_store c k r m p b) fun b => ?_)
  rw [i_store_eq h hw hr hn hp ha, ← Mem.stv_eq hw.isW ha']
  exact run_stv _ _ _

theorem eff_first8 (be : Bool) {r : Reg} (hr : c.hasVec .int 8 r = true) (hN : N = r.lanes 8) {m : Mem} {p : Nat}
    (hp : p % r.bytes = 0) (ha : m.Acc p r.bytes) (a : Vec 8 N) (n : Nat) : Eff (first8 c be r p a n) m (i_store_first8 c be r m p a n) := by
  have hb := fun mask => eff_blend h (k := .int) isW8 hr hN hp ha a mask
  have hb' := fun mask => eff_blend' h (k := .int) isW8 hr hN hp ha a mask
  unfold first8 i_store_first8
  cases r <;> dsimp only
  · refine Eff.al _ _ ?_
    split_ifs
    · exact eff_nullFirst _ _ _ _
    · exact Eff.lift fun _ => hb _
    · exact hb' _
    · exact Eff.lift fun _ => hb _
    · rfl
  · split_ifs
    · exact Eff.lift fun _ => hb _
    · rfl
  · split_ifs
    · exact Eff.lift fun _ => hb _
    · rfl

theorem eff_firstInt (be : Bool) (hw : IsW w) {r : Reg} (hr : c.hasVec .int w r = true) (hN : N = r.lanes w) {m : Mem} {p : Nat}
    (hp : p % r.bytes = 0) (ha : m.Acc p r.bytes) (a : Vec w N) (n : Nat) : Eff (firstInt c be r p a n) m (i_store_first_int c be r m p a n) := by
  have hv : c.hasVec .int 8 r = true → _ := fun g => eff_first8 h be g (N := N * (w / 8))
    (by rw [hN]; rcases hw with e | e | e | e <;> subst e <;> cases r <;> rfl) hp ha (a.recast 8 (N * (w / 8))) (n * (w / 8))
  unfold firstInt i_store_first_int
  cases r <;> dsimp only
  · replace hv := hv rfl
    split_ifs <;> first | exact hv | skip
    all_goals
      refine Eff.al _ _ ?_
      first | exact eff_nullFirst _ _ _ _ | exact hv | exact eff_lane _ _ _ _ | rfl
  · split_ifs
    · exact hv (by exact hr)
    · exact eff_maskFirst _ _ _ _ _
    · rfl
  · rcases hw with e | e | e | e <;> subst e
    · exact hv hr
    · exact hv hr
    · rw [if_neg (show ¬ ((32 : Nat) = 8 ∨ (32 : Nat) = 16) by decide), if_neg (show ¬ ((32 : Nat) = 8 ∨ (32 : Nat) = 16) by decide)]; split_ifs
      · exact eff_mask512First _ _ _ _ _
      · rfl
    · rw [if_neg (show ¬ ((64 : Nat) = 8 ∨ (64 : Nat) = 16) by decide), if_neg (show ¬ ((64 : Nat) = 8 ∨ (64 : Nat) = 16) by decide)]; split_ifs
      · exact eff_mask512First _ _ _ _ _
      · rfl

theorem eff_firstFlt (be : Bool) (hw : Kind.flt.okW w) {r : Reg} (hr : c.hasVec .flt w r = true) (hN : N = r.lanes w) {m : Mem} {p : Nat}
    (hp : p % r.bytes = 0) (ha : m.Acc p r.bytes) (a : Vec w N) (n : Nat) : Eff (firstFlt c be r p a n) m (i_store_first_flt c be r m p a n) := by
  unfold firstFlt i_store_first_flt
  cases r <;> dsimp only
  · have hi := eff_firstInt h be hw.isW (r := .r128) rfl hN hp ha a n
    refine Eff.al _ _ ?_
    by_cases e : w = 32
    · subst e
      rw [if_pos rfl, if_pos rfl]
      by_cases g1 : c.null = true ∨ c.altivec = true ∨ c.neonNoFltSp = true ∨ c.msa = true
      · rw [if_pos g1, if_pos g1]; exact hi
      rw [if_neg g1, if_neg g1]
      by_cases g2 : c.avx = true
      · rw [if_pos g2, if_pos g2]; exact eff_maskFirst _ _ _ _ _
      rw [if_neg g2, if_neg g2]
      by_cases g3 : c.sse2 = true
      · rw [if_pos g3, if_pos g3]
        exact Eff.lift fun _ => eff_blend h hw rfl hN hp ha _ _
      rw [if_neg g3, if_neg g3]
      by_cases g4 : c.neon = true
      · rw [if_pos g4, if_pos g4]
        by_cases q0 : n < 1
        · rw [if_pos q0, if_pos q0]; rfl
        rw [if_neg q0, if_neg q0]
        refine Eff.bind (eff_lane _ _ _ _) fun m1 _ => ?_
        by_cases q1 : n < 2
        · rw [if_pos q1, if_pos q1]; rfl
        rw [if_neg q1, if_neg q1]
        refine Eff.bind (eff_lane _ _ _ _) fun m1 _ => ?_
        by_cases q2 : n < 3
        · rw [if_pos q2, if_pos q2]; rfl
        rw [if_neg q2, if_neg q2]
        exact eff_lane _ _ _ _
      · rw [if_neg g4, if_neg g4]; rfl
    · rw [if_neg e, if_neg e]
      split_ifs <;> first | exact hi | exact eff_nullFirst _ _ _ _ | exact eff_lane _ _ _ _ | rfl
  · split_ifs
    · exact eff_maskFirst _ _ _ _ _
    · rfl
  · split_ifs
    · exact eff_mask512First _ _ _ _ _
    · rfl

theorem eff_first (be : Bool) {k : Kind} (hw : k.okW w) {r : Reg} (hr : c.hasVec k w r = true) (hN : N = r.lanes w) {m : Mem} {p : Nat}
    (hp : p % r.bytes = 0) (ha : m.Acc p r.bytes) (a : Vec w N) (n : Nat) : Eff (first c be k r p a n) m (i_store_first c be k r m p a n) := by
  cases k
  · exact eff_firstInt h be hw hr hN hp ha a n
  · exact eff_firstFlt h be hw hr hN hp ha a n

/-- Alone, `store` is the `store` of the memory model. -/
theorem eff_store {k : Kind} (hw : k.okW w) (hN : c.KLen k w N) {m : Mem} {p : Nat} (hp : p % (c.regK k w N).bytes = 0)
    (ha : m.Block p (N * (w / 8))) (a : Vec w N) : Eff (store p a) m (Simdpp.store c k m p a) := by
  rw [store_eq h hw hN hp ha a, ← Mem.stv_eq hw.isW (ha.acc (le_refl p) (le_refl _))]
  exact run_stv _ _ _

/-- Alone, `load` is the `load` of the memory model. -/
theorem run_load {k : Kind} (hw : k.okW w) (hN : c.KLen k w N) {m : Mem} {p : Nat} (hp : p % (c.regK k w N).bytes = 0)
    (ha : m.Block p (N * (w / 8))) : run (load w N p) m = (Simdpp.load c k w N m p).map fun v => (v, m) := by
  rw [load_eq h hw hN hp ha, ← Mem.ldv_eq (ha.acc (le_refl p) (le_refl _))]
  exact run_ldv _ _ _ _

/-- Alone, `store_first` is the `store_first` of the memory model. -/
theorem eff_store_first (be : Bool) {k : Kind} (sg : Bool) (hw : k.okW w) (hN : c.KLen k w N) {m : Mem} {p : Nat} (hp : p % (c.regK k w N).bytes = 0)
    (ha : m.Block p (N * (w / 8))) (a : Vec w N) {n : Nat} (hn : n < N) : Eff (store_first c be k sg p a n) m (Simdpp.store_first c be k sg m p a n) := by
  obtain ⟨hr, K, -, e⟩ := KLen.regs h hw hN
  have hB := bytes_eq hw.isW (c.regK k w N)
  unfold store_first Simdpp.store_first
  dsimp only
  generalize c.regK k w N = r at *
  split_ifs with g
  · exact eff_first h be hw hr g.1 hp (ha.acc (le_refl p) (by rw [g.1, hB])) a n
  · have hL := lanes_pos hw.isW r
    have hv : n / r.lanes w < K := Nat.div_lt_of_lt_mul (by rw [Nat.mul_comm, ← e]; exact hn)
    unfold firstArr store_first_arr
    refine Eff.bind (Eff.loop _ fun i _ h2 m' ho => ?_) fun m' hm' => ?_
    · have hs := reg_sub hw.isW e (show i < K by omega)
      have hacc : m'.Acc (p + i * r.bytes) r.bytes := Mem.Acc.of_ok (ha.acc (by omega) (by omega)) ho
      rw [i_store_eq h hw hr rfl (mod_reg hp) hacc, ← Mem.stv_eq hw.isW (by rw [hB]; exact hacc)]
      exact run_stv _ _ _
    · have ho : m'.ok = m.ok := by
        have e1 := Eff.loop (f := fun i => store (p + i * r.bytes) (Hw.part (r.lanes w) i a)) (g := fun i m => i_store c k r m (p + i * r.bytes) (Hw.part (r.lanes w) i a)) (m := m) (lo := 0) (n / r.lanes w)
          fun i _ h2 m' ho => by
            have hs := reg_sub hw.isW e (show i < K by omega)
            have hacc : m'.Acc (p + i * r.bytes) r.bytes := Mem.Acc.of_ok (ha.acc (by omega) (by omega)) ho
            rw [i_store_eq h hw hr rfl (mod_reg hp) hacc, ← Mem.stv_eq hw.isW (by rw [hB]; exact hacc)]
            exact run_stv _ _ _
        unfold Eff at e1
        rw [hm'] at e1
        exact run_ok e1
      have hs := reg_sub hw.isW e hv
      split_ifs
      · exact eff_first h be hw hr rfl (mod_reg hp) (Mem.Acc.of_ok (ha.acc (by omega) (by omega)) ho) _ _
      · rfl

end

/-! ## Footprints -/

theorem safe_rd {R W : Nat → Prop} {p : Nat} : (k : Nat) → (∀ x, p ≤ x → x < p + k → R x ∨ W x) → Safe R W (rd p k)
  | 0, _ => trivial
  | k + 1, hx => Safe.bind (fun _ => by exact ⟨hx _ (by omega) (by omega), fun _ => trivial⟩) (safe_rd k fun x h1 h2 => hx x h1 (by omega))

theorem safe_wr {R W : Nat → Prop} {p : Nat} {v : Nat → BitVec 8} : (k : Nat) → (∀ x, p ≤ x → x < p + k → W x) → Safe R W (wr p v k)
  | 0, _ => trivial
  | k + 1, hx => Safe.bind (fun _ => by exact ⟨hx _ (by omega) (by omega), trivial⟩) (safe_wr k fun x h1 h2 => hx x h1 (by omega))

theorem safe_lift {R W : Nat → Prop} (o : Option α) : Safe R W (lift o) := by cases o <;> exact trivial

theorem safe_ldv {R W : Nat → Prop} {p : Nat} (hx : ∀ x, p ≤ x → x < p + n * (w / 8) → R x ∨ W x) : Safe R W (ldv w n p) :=
  Safe.bind (fun _ => by exact trivial) (safe_rd _ hx)

theorem safe_stv {R W : Nat → Prop} {p : Nat} {a : Vec w n} (hx : ∀ x, p ≤ x → x < p + n * (w / 8) → W x) : Safe R W (stv p a) := safe_wr _ hx

theorem safe_loop {R W : Nat → Prop} {f : Nat → Act Unit} {lo : Nat} : (n : Nat) → (∀ i, lo ≤ i → i < lo + n → Safe R W (f i)) → Safe R W (loop f lo n)
  | 0, _ => trivial
  | n + 1, h => Safe.bind (fun _ => h _ (by omega) (by omega)) (safe_loop n fun i h1 h2 => h i h1 (by omega))

theorem safe_al {R W : Nat → Prop} {A : Act α} {k p : Nat} (h : Safe R W A) : Safe R W (al k p A) := by
  unfold al
  split_ifs
  · exact h
  · trivial

/-- One element. -/
theorem safe_elem {R W : Nat → Prop} {p i : Nat} {x : BitVec w} (hx : ∀ y, p ≤ y → y < p + n * (w / 8) → W y) (hi : i < n) :
    Safe R W (stv (p + i * (w / 8)) (fun _ : Fin 1 => x)) :=
  safe_stv fun y h1 h2 => hx y (by omega) (by
    have := Nat.mul_le_mul_right (w / 8) (show i + 1 ≤ n from hi)
    rw [Nat.add_mul] at this
    omega)

theorem safe_blend {R W : Nat → Prop} {c : Cfg} {k : Kind} {r : Reg} {p : Nat} {a mask : Vec w n} (hx : ∀ y, p ≤ y → y < p + n * (w / 8) → W y) :
    Safe R W (blendStore c k r p a mask) :=
  Safe.bind (fun _ => Safe.bind (fun _ => safe_stv hx) (safe_lift _)) (safe_ldv fun x h1 h2 => .inr (hx x h1 h2))

theorem safe_blend' {R W : Nat → Prop} {c : Cfg} {k : Kind} {r : Reg} {p : Nat} {a mask : Vec w n} (hx : ∀ y, p ≤ y → y < p + n * (w / 8) → W y) :
    Safe R W (blendStore' c k r p a mask) :=
  Safe.bind (fun _ => Safe.bind (fun _ => safe_stv hx) (safe_lift _)) (safe_ldv fun x h1 h2 => .inr (hx x h1 h2))

theorem safe_stm {R W : Nat → Prop} {p : Nat} {a : Vec w n} {sel : Nat → Bool} (hx : ∀ i, i < n → sel i = true → ∀ y, p + i * (w / 8) ≤ y → y < p + (i + 1) * (w / 8) → W y) :
    Safe R W (stm p a sel) := by
  refine safe_loop n fun i _ h2 => ?_
  split_ifs with g
  · exact safe_stv fun y h3 h4 => hx i (by omega) g y h3 (by rw [Nat.add_mul]; omega)
  · trivial

theorem safe_nullFirst {R W : Nat → Prop} {p : Nat} {a : Vec w N} {n : Nat} (hx : ∀ y, p ≤ y → y < p + n * (w / 8) → W y) : Safe R W (nullFirst p a n) :=
  safe_loop _ fun i _ h2 => safe_al (safe_elem hx (by split_ifs at h2 <;> omega))

section
variable {R W : Nat → Prop} {p : Nat}

theorem safe_first8 {c : Cfg} {be : Bool} {r : Reg} {a : Vec 8 N} {n : Nat} (hn : n ≤ N) (hx : ∀ y, p ≤ y → y < p + N → W y) : Safe R W (first8 c be r p a n) := by
  have hx' : ∀ y, p ≤ y → y < p + N * (8 / 8) → W y := fun y h1 h2 => hx y h1 (by omega)
  have h0 : Safe R W (nullFirst p a n) := safe_nullFirst fun y h1 h2 => hx y h1 (by omega)
  unfold first8
  cases r <;> dsimp only
  · refine safe_al ?_
    split_ifs
    · exact h0
    · exact Safe.bind (fun _ => safe_blend hx') (safe_lift _)
    · exact safe_blend' hx'
    · exact Safe.bind (fun _ => safe_blend hx') (safe_lift _)
    · trivial
  · split_ifs
    · exact Safe.bind (fun _ => safe_blend hx') (safe_lift _)
    · trivial
  · split_ifs
    · exact Safe.bind (fun _ => safe_blend hx') (safe_lift _)
    · trivial

theorem safe_stm_all {a : Vec w N} {sel : Nat → Bool} (hx : ∀ y, p ≤ y → y < p + N * (w / 8) → W y) : Safe R W (stm p a sel) :=
  safe_stm fun i hi _ y h1 h2 => hx y (by omega) (lt_of_lt_of_le h2 (Nat.add_le_add_left (Nat.mul_le_mul_right _ hi) _))

theorem safe_firstInt {c : Cfg} {be : Bool} {r : Reg} {a : Vec w N} {n : Nat} (hn : n ≤ N) (hN : 0 < N) (hx : ∀ y, p ≤ y → y < p + N * (w / 8) → W y) : Safe R W (firstInt c be r p a n) := by
  have hv : Safe R W (first8 c be r p (a.recast 8 (N * (w / 8))) (n * (w / 8))) := safe_first8 (Nat.mul_le_mul_right _ hn) hx
  have h0 : Safe R W (nullFirst p a n) := safe_nullFirst fun y h1 h2 => hx y h1 (lt_of_lt_of_le h2 (Nat.add_le_add_left (Nat.mul_le_mul_right _ hn) _))
  have hl : Safe R W (lane p a 0) := safe_elem hx hN
  have hm : ∀ sel, Safe R W (stm p a sel) := fun sel => safe_stm_all hx
  unfold firstInt maskFirst mask512First
  cases r <;> dsimp only
  · split_ifs <;> first | exact hv | skip
    all_goals
      refine safe_al ?_
      first | exact h0 | exact hl | trivial
  · split_ifs
    · exact hv
    · exact Safe.bind (fun _ => hm _) (safe_lift _)
    · trivial
  · split_ifs
    · exact hv
    · exact hm _
    · trivial
    · trivial

theorem safe_firstFlt {c : Cfg} {be : Bool} {r : Reg} {a : Vec w N} {n : Nat} (hn : n ≤ N) (hN : 4 ≤ N ∨ (w ≠ 32 ∧ 0 < N)) (hx : ∀ y, p ≤ y → y < p + N * (w / 8) → W y) :
    Safe R W (firstFlt c be r p a n) := by
  have hv : Safe R W (firstInt c be .r128 p a n) := safe_firstInt hn (by omega) hx
  have h0 : Safe R W (nullFirst p a n) := safe_nullFirst fun y h1 h2 => hx y h1 (lt_of_lt_of_le h2 (Nat.add_le_add_left (Nat.mul_le_mul_right _ hn) _))
  have hl : ∀ i, i < N → Safe R W (lane p a i) := fun i hi => safe_elem hx hi
  have hm : ∀ sel, Safe R W (stm p a sel) := fun sel => safe_stm_all hx
  unfold firstFlt maskFirst mask512First
  cases r <;> dsimp only
  · refine safe_al ?_
    by_cases e : w = 32
    · have h4 : 4 ≤ N := by omega
      rw [if_pos e]
      split_ifs
      · exact hv
      · exact Safe.bind (fun _ => hm _) (safe_lift _)
      · exact Safe.bind (fun _ => safe_blend hx) (safe_lift _)
      · trivial
      · refine Safe.bind (fun _ => ?_) (hl 0 (by omega))
        trivial
      · refine Safe.bind (fun _ => ?_) (hl 0 (by omega))
        exact Safe.bind (fun _ => by exact trivial) (hl 1 (by omega))
      · refine Safe.bind (fun _ => ?_) (hl 0 (by omega))
        exact Safe.bind (fun _ => hl 2 (by omega)) (hl 1 (by omega))
      · trivial
    · rw [if_neg e]
      split_ifs <;> first | exact hv | exact h0 | exact hl 0 (by omega) | trivial
  · split_ifs
    · exact Safe.bind (fun _ => hm _) (safe_lift _)
    · trivial
  · split_ifs
    · exact hm _
    · trivial
    · trivial

end

end Act

end Simdpp
