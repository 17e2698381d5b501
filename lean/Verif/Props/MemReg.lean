import Verif.Props.MemLemmas
import Verif.Props.Zip
import Verif.Props.Move
import Verif.Props.CompareLemmas
import Mathlib.Tactic.IntervalCases

/-!
# Loads and stores of one register
-/

namespace Simdpp
open Spec Sh Mem

variable {w n N L : Nat}

theorem byteOf_recast (hw : IsW w) (v : Vec 8 (n * (w / 8))) (i : Fin n) {j : Nat} (hj : j < w / 8) :
    byteOf (v.recast w n i) j = v.at_ (i.val * (w / 8) + j) := by
  have h8 := isW_b8 hw
  have hi := i.isLt
  have hx : i.val * (w / 8) + j < n * (w / 8) := by
    have : (i.val + 1) * (w / 8) ≤ n * (w / 8) := Nat.mul_le_mul_right _ hi
    rw [Nat.add_mul] at this; omega
  have := recast8_at (n := n) hw (v.recast w n) (x := i.val * (w / 8) + j) hx
  rw [Vec.recast_recast _ (by have := isW_bpos hw; omega) (by rw [Nat.mul_comm w, ← Nat.mul_assoc 8, Nat.mul_comm 8, Nat.mul_assoc, Nat.mul_comm 8, h8])] at this
  have e1 : (i.val * (w / 8) + j) / (w / 8) = i.val := by
    rw [Nat.add_comm, Nat.add_mul_div_right _ _ (isW_bpos hw), Nat.div_eq_of_lt hj, Nat.zero_add]
  have e2 : (i.val * (w / 8) + j) % (w / 8) = j := by
    rw [Nat.add_comm, Nat.add_mul_mod_self_right, Nat.mod_eq_of_lt hj]
  rw [this, e1, e2, Vec.at_lt _ hi]

theorem byteOf8 (x : BitVec 8) : byteOf x 0 = x := by
  apply BitVec.eq_of_getLsbD_eq
  intro k hk
  rw [byteOf_getLsbD]; simp [hk]

theorem get8 (m : Mem) (p : Nat) (i : Fin n) : get 8 n m p i = m.byte (p + i.val) := by
  have := get_holds isW8 m p i 0 (by decide)
  rw [byteOf8] at this
  simpa using this.symm

theorem get8_at (m : Mem) (p : Nat) {i : Nat} (hi : i < n) : (get 8 n m p).at_ i = m.byte (p + i) := by
  rw [Vec.at_lt _ hi, get8]

theorem recast_get8 (hw : IsW w) (m : Mem) (p : Nat) : (get 8 (n * (w / 8)) m p).recast w n = get w n m p := by
  refine (get_eq hw fun i j hj => ?_).symm
  have hi := i.isLt
  have hx : i.val * (w / 8) + j < n * (w / 8) := by
    have : (i.val + 1) * (w / 8) ≤ n * (w / 8) := Nat.mul_le_mul_right _ hi
    rw [Nat.add_mul] at this; omega
  rw [byteOf_recast hw _ i hj, get8_at _ _ hx, Nat.add_assoc]

theorem Acc.sub' {m : Mem} {p k q l : Nat} (h : m.Acc p k) (h1 : p ≤ q) (h2 : q + l ≤ p + k) : m.Acc q l := Acc.sub h h1 h2

/-- Element `i` of an accessible vector. -/
theorem Acc.elem {m : Mem} {p i : Nat} (h : m.Acc p (n * (w / 8))) (hi : i < n) : m.Acc (p + i * (w / 8)) (1 * (w / 8)) := by
  refine Acc.sub' h (by omega) ?_
  have : (i + 1) * (w / 8) ≤ n * (w / 8) := Nat.mul_le_mul_right _ hi
  rw [Nat.add_mul] at this; omega

theorem Null.load_eq (hw : IsW w) {m : Mem} {p : Nat} (hp : p % (w / 8) = 0) (h : m.Acc p (n * (w / 8))) : Null.load w n m p = some (get w n m p) := by
  unfold Null.load Mem.al
  rw [if_pos hp]
  refine lanesM_eq_some.2 fun i => ?_
  rw [ldv_eq (n := 1) (Acc.elem h i.isLt)]
  refine congrArg some ?_
  refine (Vec.at_lt _ Nat.one_pos).trans ?_
  have := get_holds (n := 1) hw m (p + i.val * (w / 8)) ⟨0, Nat.one_pos⟩
  rw [Nat.zero_mul, Nat.add_zero] at this
  exact holds_inj hw this (get_holds hw m p i)

theorem Null.put_eq (hw : IsW w) {m : Mem} {p j : Nat} (hp : p % (w / 8) = 0) (h : m.Acc p (N * (w / 8))) (hj : j < N) (a : Vec w N) :
    Null.put m p j (a.at_ j) = some (m.put (p + j * (w / 8)) (Hw.part 1 j a) (fun _ => true)) := by
  unfold Null.put Mem.al
  rw [if_pos hp, stv_eq (n := 1) hw (Acc.elem h hj)]
  refine congrArg some (put_congr hw (fun _ => rfl) fun i _ => ?_)
  show a.at_ j = a.at_ (j * 1 + i.val)
  congr 1
  omega

theorem Null.loop_eq (hw : IsW w) {m : Mem} {p lo cnt : Nat} (hp : p % (w / 8) = 0) (h : m.Acc p (N * (w / 8))) (hN : lo + cnt ≤ N) (a : Vec w N) :
    loopM (fun i m => Null.put m p i (a.at_ i)) lo cnt m = some (m.put p a (fun i => decide (lo ≤ i ∧ i < lo + cnt))) := by
  rw [loop_put (sel := fun _ => true) (a := a) (L := 1) (p := p) hw Nat.one_pos (Nat.one_mul (w / 8)).symm (by omega)
    (fun j _ h2 m' e => Null.put_eq hw hp (Acc.of_ok h e) (by omega) a)]
  simp only [Nat.mul_one, Bool.and_true]

theorem Null.store_eq (hw : IsW w) {m : Mem} {p : Nat} (hp : p % (w / 8) = 0) (h : m.Acc p (n * (w / 8))) (a : Vec w n) :
    Null.store m p a = some (m.put p a (fun _ => true)) := by
  unfold Null.store
  rw [Null.loop_eq hw hp h (by omega)]
  refine congrArg some (put_congr hw (fun i => ?_) fun _ _ => rfl)
  have := i.isLt
  simp only [decide_eq_true_eq]
  omega

theorem Null.store_first_eq (hw : IsW w) {m : Mem} {p : Nat} (hp : p % (w / 8) = 0) (h : m.Acc p (N * (w / 8))) (a : Vec w N) (n : Nat) :
    Null.store_first m p a n = some (m.put p a (fun i => decide (i < n))) := by
  unfold Null.store_first
  rw [Null.loop_eq hw hp h (by split_ifs <;> omega)]
  refine congrArg some (put_congr hw (fun i => ?_) fun _ _ => rfl)
  have := i.isLt
  rw [decide_eq_decide]
  split_ifs <;> omega

theorem Null.store_last_eq (hw : IsW w) {m : Mem} {p : Nat} (hp : p % (w / 8) = 0) (h : m.Acc p (N * (w / 8))) (a : Vec w N) {n : Nat} (hn : n ≤ N) :
    Null.store_last m p a n = some (m.put p a (fun i => decide (N - n ≤ i))) := by
  unfold Null.store_last
  rw [if_pos hn, Null.loop_eq hw hp h (by omega)]
  refine congrArg some (put_congr hw (fun i => ?_) fun _ _ => rfl)
  have := i.isLt
  rw [decide_eq_decide]
  omega

theorem Null.store_masked_eq (hw : IsW w) {m : Mem} {p : Nat} (hp : p % (w / 8) = 0) (h : m.Acc p (n * (w / 8))) (a : Vec w n) (f : Fin n → Bool)
    {sel : Nat → Bool} (hs : ∀ i : Fin n, sel i = f i) : Null.store_masked m p a f = some (m.put p a sel) := by
  unfold Null.store_masked
  rw [loop_put (sel := sel) (a := a) (L := 1) (p := p) hw Nat.one_pos (Nat.one_mul (w / 8)).symm (by omega) (fun j _ h2 m' e => ?_)]
  · refine congrArg some (put_congr hw (fun i => ?_) fun _ _ => rfl)
    have := i.isLt
    rw [decide_eq_true (by omega), Bool.true_and]
  · have hj : j < n := by omega
    have ej := hs ⟨j, hj⟩
    rw [dif_pos hj, ← ej]
    by_cases g : sel j = true
    · rw [if_pos g, Null.put_eq hw hp (Acc.of_ok h e) hj]
      refine congrArg some (put_congr hw (fun i => ?_) fun _ _ => rfl)
      have : i.val = 0 := by omega
      rw [this, Nat.mul_one, Nat.add_zero, g]
    · rw [if_neg g]
      refine congrArg some (put_false hw fun i => ?_).symm
      have : i.val = 0 := by omega
      rw [this, Nat.mul_one, Nat.add_zero]
      simpa using g

theorem storeLane_eq (hw : IsW w) {m : Mem} {p j : Nat} (h : m.Acc p (N * (w / 8))) (hj : j < N) (a : Vec w N) {sel : Nat → Bool}
    (hs : ∀ i : Fin N, sel i = decide (i.val = j)) : storeLane m p a j = some (m.put p a sel) := by
  unfold storeLane
  rw [stv_eq (n := 1) hw (Acc.elem h hj)]
  have e := put_part (m := m) (p := p) (a := a) (L := 1) (N := N) (j := j) (s0 := fun _ => false) (sel := fun _ => true) (s1 := fun i => decide (i = j)) hw Nat.one_pos
    (by omega) (fun i _ g => decide_eq_false (by omega)) (fun _ _ _ _ => rfl) (fun i hi => decide_eq_true (by omega))
  rw [put_false (sel := fun _ => false) hw (fun _ => rfl), Nat.one_mul] at e
  refine congrArg some ((put_congr hw (fun _ => rfl) fun i _ => ?_).trans (e.trans (put_congr hw (fun i => (hs i).symm) fun _ _ => rfl)))
  show a.at_ j = a.at_ (j * 1 + i.val)
  congr 1
  omega

theorem stm_eq (hw : IsW w) {m : Mem} {p : Nat} (h : m.Acc p (n * (w / 8))) (a : Vec w n) {sel sel' : Nat → Bool} (hs : ∀ i : Fin n, sel i = sel' i) :
    m.stm p a sel = some (m.put p a sel') := by
  unfold Mem.stm
  rw [loop_put (sel := sel) (a := a) (L := 1) (p := p) hw Nat.one_pos (Nat.one_mul (w / 8)).symm (by omega) (fun j _ h2 m' e => ?_)]
  · refine congrArg some (put_congr hw (fun i => ?_) fun _ _ => rfl)
    have := i.isLt
    rw [decide_eq_true (by omega), Bool.true_and, hs]
  · have hj : j < n := by omega
    by_cases g : sel j = true
    · rw [if_pos g, stv_eq (n := 1) hw (Acc.elem (Acc.of_ok h e) hj)]
      refine congrArg some (put_congr hw (fun i => ?_) fun i _ => ?_)
      · have : i.val = 0 := by omega
        rw [this, Nat.mul_one, Nat.add_zero, g]
      · show a.at_ j = a.at_ (j * 1 + i.val)
        congr 1
        omega
    · rw [if_neg g]
      refine congrArg some (put_false hw fun i => ?_).symm
      have : i.val = 0 := by omega
      rw [this, Nat.mul_one, Nat.add_zero]
      simpa using g

/-! ### Loads and stores -/

theorem bytes_eq (hw : IsW w) (r : Reg) : r.lanes w * (w / 8) = r.bytes := by
  rcases hw with e | e | e | e <;> subst e <;> cases r <;> rfl

theorem al_eq {α : Type} {k p : Nat} (h : p % k = 0) (x : Option α) : Mem.al k p x = x := if_pos h

theorem mod_elem (hw : IsW w) {p : Nat} (r : Reg) (h : p % r.bytes = 0) : p % (w / 8) = 0 := by
  rcases hw with e | e | e | e <;> subst e <;> cases r <;>
    simp only [Reg.bytes, Reg.bits, Nat.reduceDiv] at h ⊢ <;> omega

theorem vec_ld_eq {m : Mem} {p : Nat} (hp : p % 16 = 0) (h : m.Acc p (n * (w / 8))) : m.vec_ld w n p = some (get w n m p) := by
  unfold Mem.vec_ld
  rw [show p / 16 * 16 = p by omega, ldv_eq h]

theorem vec_st_eq (hw : IsW w) {m : Mem} {p : Nat} (hp : p % 16 = 0) (h : m.Acc p (n * (w / 8))) (a : Vec w n) :
    m.vec_st p a = some (m.put p a (fun _ => true)) := by
  unfold Mem.vec_st
  rw [show p / 16 * 16 = p by omega, stv_eq hw h]

section
variable {c : Cfg} (h : c.Ok)
include h

theorem i_load8_eq {m : Mem} {p : Nat} (hp : p % 16 = 0) (hn : n = 16) (ha : m.Acc p 16) : i_load8 c m p = some (get 8 n m p) := by
  subst hn
  have e1 := Null.load_eq (n := 16) isW8 (m := m) (p := p) (by omega) ha
  have e2 := ldv_eq (w := 8) (n := 16) ha
  have e3 := ldv_eq (w := 64) (n := 16 / 8) ha
  have e4 := vec_ld_eq (w := 8) (n := 16) hp ha
  have e5 : (some (get 64 (16 / 8) m p)).map (Vec.recast 8 16) = some (get 8 16 m p) := by
    refine congrArg some ?_
    rw [← recast_get8 (w := 64) (n := 2) iw64, Vec.recast_recast _ (by decide) (by decide)]
  unfold i_load8
  rw [al_eq hp, e1, e2, e3, e4, e5]
  split_ifs <;> first | rfl | (exfalso; clear e1 e2 e3 e4 e5 ha hp; cfg_absurd h)

theorem i_load_eq {k : Kind} (hw : k.okW w) {r : Reg} (hr : c.hasVec k w r = true) (hn : n = r.lanes w) {m : Mem} {p : Nat}
    (hp : p % r.bytes = 0) (ha : m.Acc p r.bytes) : i_load c k r m p = some (get w n m p) := by
  subst hn
  have hW := hw.isW
  have hb := bytes_eq hW r
  rw [← hb] at ha
  have e1 := Null.load_eq hW (mod_elem hW r hp) ha
  have e2 := ldv_eq ha
  unfold i_load
  have hp16 : r = .r128 → p % 16 = 0 := fun e => by subst e; exact hp
  have hp32 : r = .r256 → p % 32 = 0 := fun e => by subst e; exact hp
  have hp64 : r = .r512 → p % 64 = 0 := fun e => by subst e; exact hp
  cases k <;> cases r <;> dsimp only
  · have e8 : (i_load8 (n := Reg.r128.lanes w * (w / 8)) c m p).map (Vec.recast w (Reg.r128.lanes w)) = some (get w (Reg.r128.lanes w) m p) := by
      rw [i_load8_eq h hp hb (by rw [hb] at ha; exact ha)]
      exact congrArg some (recast_get8 hW m p)
    rw [al_eq (hp16 rfl), e1, e8]
    split_ifs <;> rfl
  · rw [al_eq (hp32 rfl), e2]; exact if_pos hr
  · rw [al_eq (hp64 rfl), e2]; exact if_pos hr
  · have e4 := vec_ld_eq hp ha
    rw [al_eq (hp16 rfl), e1, e2, e4]
    clear e1 e2 e4 ha hp hr hb hp16 hp32 hp64
    rcases hw with e | e <;> subst e
    · rw [if_pos rfl]
      split_ifs <;> first | rfl | (exfalso; cfg_absurd h)
    · rw [if_neg (by decide)]
      split_ifs <;> first | rfl | (exfalso; cfg_absurd h)
  · rw [al_eq (hp32 rfl), e2]; exact if_pos hr
  · rw [al_eq (hp64 rfl), e2]; exact if_pos hr

omit h in
theorem lvsl_at {p i : Nat} (hi : i < n) (hn : n = 16) : ((Hw.lvsl p : Vec 8 n) ⟨i, hi⟩).toNat = p % 16 + i := by
  unfold Hw.lvsl
  rw [BitVec.toNat_ofNat]
  simp only
  omega

omit h in
theorem lvsr_at {p i : Nat} (hi : i < n) (hn : n = 16) : ((Hw.lvsr p : Vec 8 n) ⟨i, hi⟩).toNat = 16 - p % 16 + i := by
  unfold Hw.lvsr
  rw [BitVec.toNat_ofNat]
  simp only
  omega

omit h in
/-- The AltiVec sequence for an unaligned load. -/
theorem load_vperm {m : Mem} {p : Nat} : (Hw.vperm (get 8 16 m (p / 16 * 16)) (get 8 16 m ((p + 16) / 16 * 16)) (Hw.lvsl p) : Vec 8 16) = get 8 16 m p := by
  funext i
  unfold Hw.vperm
  rw [lvsl_at i.isLt rfl, get8]
  have hi := i.isLt
  split_ifs with g
  · rw [get8_at _ _ (by omega)]; congr 1; omega
  · rw [get8_at _ _ (by omega)]; congr 1; omega

/-- AltiVec without VSX reads the two 16-byte blocks from `p` down to a multiple of 16 on. -/
def Cfg.AccU (c : Cfg) (r : Reg) (m : Mem) (p : Nat) : Prop :=
  m.Acc p r.bytes ∧ (c.altivec = true ∧ c.vsx206 = false → m.Acc (p / 16 * 16) 32)

theorem i_load_u8_eq {m : Mem} {p : Nat} (hn : n = 16) (ha : c.AccU .r128 m p) : i_load_u8 c m p = some (get 8 n m p) := by
  subst hn
  obtain ⟨ha, hv⟩ := ha
  have e1 := Null.load_eq (n := 16) isW8 (m := m) (p := p) (Nat.mod_one _) ha
  have e2 := ldv_eq (w := 8) (n := 16) ha
  unfold i_load_u8
  rw [e1, e2]
  by_cases g : c.altivec = true ∧ c.vsx206 = false
  · have hv := hv g
    have e3 : m.vec_ld 8 16 p = some (get 8 16 m (p / 16 * 16)) := ldv_eq (Acc.sub' hv (by omega) (by omega))
    have e4 : m.vec_ld 8 16 (p + 16) = some (get 8 16 m ((p + 16) / 16 * 16)) := ldv_eq (Acc.sub' hv (by omega) (by omega))
    rw [e3, e4]
    have e5 := load_vperm (m := m) (p := p)
    simp only [Option.bind_eq_bind, Option.bind_some, e5]
    clear e1 e2 e3 e4 e5 ha hv
    split_ifs <;> first | rfl | (exfalso; cfg_absurd h)
  · clear e1 e2 ha hv
    split_ifs <;> first | rfl | (exfalso; grind) | (exfalso; cfg_absurd h)

theorem i_load_u_eq {k : Kind} (hw : k.okW w) {r : Reg} (hr : c.hasVec k w r = true) (hn : n = r.lanes w) {m : Mem} {p : Nat}
    (hp : p % (w / 8) = 0) (ha : c.AccU r m p) : i_load_u c k r m p = some (get w n m p) := by
  subst hn
  have hW := hw.isW
  have hb := bytes_eq hW r
  have ha' := ha.1
  rw [← hb] at ha'
  have e1 := Null.load_eq hW hp ha'
  have e2 := ldv_eq ha'
  unfold i_load_u
  cases k <;> cases r <;> dsimp only
  · have e8 : (i_load_u8 (n := Reg.r128.lanes w * (w / 8)) c m p).map (Vec.recast w (Reg.r128.lanes w)) = some (get w (Reg.r128.lanes w) m p) := by
      rw [i_load_u8_eq h hb ha]
      exact congrArg some (recast_get8 hW m p)
    rw [e1, e2, e8]
    clear e1 e2 e8 ha hp hr hb ha'
    split_ifs <;> first | rfl | (exfalso; cfg_absurd h)
  · rw [e2]; exact if_pos hr
  · rw [e2]; exact if_pos hr
  · have e8 : (i_load_u8 (n := Reg.r128.lanes w * (w / 8)) c m p).map (Vec.recast w (Reg.r128.lanes w)) = some (get w (Reg.r128.lanes w) m p) := by
      rw [i_load_u8_eq h hb ha]
      exact congrArg some (recast_get8 hW m p)
    rw [e1, e2, e8]
    clear e1 e2 e8 ha hp hr hb ha'
    rcases hw with e | e <;> subst e
    · rw [if_pos rfl]
      split_ifs <;> first | rfl | (exfalso; cfg_absurd h)
    · rw [if_neg (by decide)]
      split_ifs <;> first | rfl | (exfalso; cfg_absurd h)
  · rw [e2]; exact if_pos hr
  · rw [e2]; exact if_pos hr

theorem i_store8_eq {m : Mem} {p : Nat} (hp : p % 16 = 0) (hn : n = 16) (ha : m.Acc p 16) (a : Vec 8 n) :
    i_store8 c m p a = some (m.put p a (fun _ => true)) := by
  subst hn
  have e1 := Null.store_eq (n := 16) isW8 (m := m) (p := p) (Nat.mod_one _) ha a
  have e2 := stv_eq (w := 8) (n := 16) isW8 ha a
  have e3 : m.stv p (a.recast 64 (16 / 8)) = some (m.put p a (fun _ => true)) := by
    rw [stv_eq (w := 64) (n := 16 / 8) iw64 ha, ← put_recast (w := 64) (n := 2) iw64 (a.recast 64 (16 / 8)) (sel8 := fun _ => true) (fun _ _ => rfl)]
    rw [Vec.recast_recast _ (by decide) (by decide)]
  have e4 := vec_st_eq (w := 8) (n := 16) isW8 hp ha a
  unfold i_store8
  rw [al_eq hp, e1, e2, e3, e4]
  split_ifs <;> first | rfl | (exfalso; clear e1 e2 e3 e4 ha hp; cfg_absurd h)

omit h in
theorem put_all8 (hw : IsW w) {m : Mem} {p : Nat} (a : Vec w n) :
    m.put p (a.recast 8 (n * (w / 8))) (fun _ => true) = m.put p a (fun _ => true) := put_recast hw a (fun _ _ => rfl)

theorem i_store_eq {k : Kind} (hw : k.okW w) {r : Reg} (hr : c.hasVec k w r = true) (hn : n = r.lanes w) {m : Mem} {p : Nat}
    (hp : p % r.bytes = 0) (ha : m.Acc p r.bytes) (a : Vec w n) : i_store c k r m p a = some (m.put p a (fun _ => true)) := by
  subst hn
  have hW := hw.isW
  have hb := bytes_eq hW r
  rw [← hb] at ha
  have e1 := Null.store_eq hW (mod_elem hW r hp) ha a
  have e2 := stv_eq hW ha a
  have hp16 : r = .r128 → p % 16 = 0 := fun e => by subst e; exact hp
  have hp32 : r = .r256 → p % 32 = 0 := fun e => by subst e; exact hp
  have hp64 : r = .r512 → p % 64 = 0 := fun e => by subst e; exact hp
  unfold i_store
  cases k <;> cases r <;> dsimp only
  · have e8 := i_store8_eq h hp hb (by rw [hb] at ha; exact ha) (a.recast 8 (Reg.r128.lanes w * (w / 8)))
    rw [put_all8 hW] at e8
    rw [al_eq (hp16 rfl), e1, e8]
    split_ifs <;> rfl
  · rw [al_eq (hp32 rfl), e2]; exact if_pos hr
  · rw [al_eq (hp64 rfl), e2]; exact if_pos hr
  · have e4 := vec_st_eq hW hp ha a
    rw [al_eq (hp16 rfl), e1, e2, e4]
    clear e1 e2 e4 ha hp hr hb hp16 hp32 hp64
    rcases hw with e | e <;> subst e
    · rw [if_pos rfl]
      split_ifs <;> first | rfl | (exfalso; cfg_absurd h)
    · rw [if_neg (by decide)]
      split_ifs <;> first | rfl | (exfalso; cfg_absurd h)
  · rw [al_eq (hp32 rfl), e2]; exact if_pos hr
  · rw [al_eq (hp64 rfl), e2]; exact if_pos hr

/-! ### The AltiVec sequence for an unaligned store -/

omit h in
theorem put8_byte (m : Mem) (p : Nat) (a : Vec 8 16) (x : Nat) : (m.put p a (fun _ => true)).byte x =
    if p ≤ x ∧ x < p + 16 then a.at_ (x - p) else m.byte x := by
  rw [put_byte]
  simp only [show (8 : Nat) / 8 = 1 from rfl, Nat.mul_one, Nat.div_one, Nat.mod_one, and_true, byteOf8]

omit h in
theorem vperm_at (a b m : Vec 8 16) {i : Nat} (hi : i < 16) : (Hw.vperm a b m).at_ i =
    if (m ⟨i, hi⟩).toNat % 32 < 16 then a.at_ ((m ⟨i, hi⟩).toNat % 32) else b.at_ ((m ⟨i, hi⟩).toNat % 32 - 16) := by
  rw [Vec.at_lt _ hi]; rfl

omit h in
theorem store_vperm {m : Mem} {p : Nat} (a : Vec 8 16) {edges : Vec 8 16}
    (he : edges = Hw.vperm (get 8 16 m ((p + 15) / 16 * 16)) (get 8 16 m (p / 16 * 16)) (Hw.lvsl p)) :
    (m.put ((p + 15) / 16 * 16) (Hw.vperm a edges (Hw.lvsr p)) (fun _ => true)).put (p / 16 * 16) (Hw.vperm edges a (Hw.lvsr p)) (fun _ => true) =
      m.put p a (fun _ => true) := by
  have hE : ∀ i, i < 16 → edges.at_ i = if p % 16 + i < 16 then m.byte ((p + 15) / 16 * 16 + (p % 16 + i)) else m.byte (p / 16 * 16 + (p % 16 + i - 16)) := by
    intro i hi
    rw [he, vperm_at _ _ _ hi, lvsl_at hi rfl, Nat.mod_eq_of_lt (by omega)]
    split_ifs with g
    · rw [get8_at _ _ g]
    · rw [get8_at _ _ (by omega)]
  refine Mem.ext' rfl fun x => ?_
  rw [put8_byte, put8_byte, put8_byte]
  by_cases h1 : p / 16 * 16 ≤ x ∧ x < p / 16 * 16 + 16
  · have hx : x - p / 16 * 16 < 16 := by omega
    rw [if_pos h1, vperm_at _ _ _ hx, lvsr_at hx rfl]
    by_cases g : p ≤ x
    · have e : (16 - p % 16 + (x - p / 16 * 16)) % 32 = 16 + (x - p) := by omega
      rw [e, if_neg (by omega), if_pos (by omega), Nat.add_sub_cancel_left]
    · have e : (16 - p % 16 + (x - p / 16 * 16)) % 32 = 16 - p % 16 + (x - p / 16 * 16) := by omega
      rw [e, if_pos (by omega), if_neg (by omega), hE _ (by omega), if_neg (by omega)]
      congr 1
      omega
  · rw [if_neg h1]
    by_cases h2 : (p + 15) / 16 * 16 ≤ x ∧ x < (p + 15) / 16 * 16 + 16
    · have hx : x - (p + 15) / 16 * 16 < 16 := by omega
      rw [if_pos h2, vperm_at _ _ _ hx, lvsr_at hx rfl]
      by_cases g : x < p + 16
      · have e : (16 - p % 16 + (x - (p + 15) / 16 * 16)) % 32 = x - p := by omega
        rw [e, if_pos (by omega), if_pos (by omega)]
      · have e : (16 - p % 16 + (x - (p + 15) / 16 * 16)) % 32 = 16 + (x - (p + 16)) := by omega
        rw [e, if_neg (by omega), if_neg (by omega), Nat.add_sub_cancel_left, hE _ (by omega), if_pos (by omega)]
        congr 1
        omega
    · rw [if_neg h2, if_neg (by omega)]

/-- AltiVec without VSX accesses the 16-byte blocks that contain the first and the last byte. -/
def Cfg.AccS (c : Cfg) (r : Reg) (m : Mem) (p : Nat) : Prop :=
  m.Acc p r.bytes ∧ (c.altivec = true ∧ c.vsx206 = false → m.Acc (p / 16 * 16) 16 ∧ m.Acc ((p + 15) / 16 * 16) 16)

theorem i_store_u8_eq {m : Mem} {p : Nat} (hn : n = 16) (ha : c.AccS .r128 m p) (a : Vec 8 n) :
    i_store_u8 c m p a = some (m.put p a (fun _ => true)) := by
  subst hn
  obtain ⟨ha, hv⟩ := ha
  have e1 := Null.store_eq (n := 16) isW8 (m := m) (p := p) (Nat.mod_one _) ha a
  have e2 := stv_eq (w := 8) (n := 16) isW8 ha a
  unfold i_store_u8
  rw [e1, e2]
  by_cases g : c.altivec = true ∧ c.vsx206 = false
  · obtain ⟨hv1, hv2⟩ := hv g
    have e3 : m.vec_ld 8 16 p = some (get 8 16 m (p / 16 * 16)) := ldv_eq hv1
    have e4 : m.vec_ld 8 16 (p + 15) = some (get 8 16 m ((p + 15) / 16 * 16)) := ldv_eq hv2
    have e5 : ∀ x : Vec 8 16, m.vec_st (p + 15) x = some (m.put ((p + 15) / 16 * 16) x (fun _ => true)) := fun x => stv_eq isW8 hv2 x
    have e6 : ∀ (m' : Mem) (_ : m'.ok = m.ok) (x : Vec 8 16), m'.vec_st p x = some (m'.put (p / 16 * 16) x (fun _ => true)) :=
      fun m' e x => stv_eq isW8 (Acc.of_ok hv1 e) x
    have e7 := store_vperm (m := m) (p := p) a rfl
    rw [e3, e4]
    simp only [Option.bind_eq_bind, Option.bind_some, e5]
    rw [e6 (m.put _ _ _) rfl, e7]
    clear e1 e2 e3 e4 e5 e6 e7 ha hv hv1 hv2
    split_ifs <;> first | rfl | (exfalso; cfg_absurd h)
  · clear e1 e2 ha hv
    split_ifs <;> first | rfl | (exfalso; grind) | (exfalso; cfg_absurd h)

theorem i_store_u_eq {k : Kind} (hw : k.okW w) {r : Reg} (hr : c.hasVec k w r = true) (hn : n = r.lanes w) {m : Mem} {p : Nat}
    (hp : k = .flt → p % (w / 8) = 0) (ha : c.AccS r m p) (a : Vec w n) : i_store_u c k r m p a = some (m.put p a (fun _ => true)) := by
  subst hn
  have hW := hw.isW
  have hb := bytes_eq hW r
  have ha' := ha.1
  rw [← hb] at ha'
  have e1 : k = .flt → _ := fun e => Null.store_eq hW (hp e) ha' a
  have e2 := stv_eq hW ha' a
  unfold i_store_u
  cases k <;> cases r <;> dsimp only
  · have e8 := i_store_u8_eq h hb ha (a.recast 8 (Reg.r128.lanes w * (w / 8)))
    rw [put_all8 hW] at e8
    rw [e2, e8]
    split_ifs <;> rfl
  · rw [e2]; exact if_pos hr
  · rw [e2]; exact if_pos hr
  · have e8 := i_store_u8_eq h hb ha (a.recast 8 (Reg.r128.lanes w * (w / 8)))
    rw [put_all8 hW] at e8
    rw [e1 rfl, e2, e8]
    clear e1 e2 e8 ha hp hr hb ha'
    rcases hw with e | e <;> subst e
    · rw [if_pos rfl]
      split_ifs <;> first | rfl | (exfalso; cfg_absurd h)
    · rw [if_neg (by decide)]
      split_ifs <;> first | rfl | (exfalso; cfg_absurd h)
  · rw [e2]; exact if_pos hr
  · rw [e2]; exact if_pos hr

theorem i_stream8_eq {m : Mem} {p : Nat} (hp : p % 16 = 0) (hn : n = 16) (ha : m.Acc p 16) (a : Vec 8 n) :
    i_stream8 c m p a = some (m.put p a (fun _ => true)) := by
  subst hn
  have e1 := Null.store_eq (n := 16) isW8 (m := m) (p := p) (Nat.mod_one _) ha a
  have e2 := stv_eq (w := 8) (n := 16) isW8 ha a
  have e3 := i_store8_eq h hp rfl ha a
  have e4 := vec_st_eq (w := 8) (n := 16) isW8 hp ha a
  unfold i_stream8
  rw [al_eq hp, e1, e2, e3, e4]
  split_ifs <;> first | rfl | (exfalso; clear e1 e2 e3 e4 ha hp; cfg_absurd h)

theorem i_stream_eq {k : Kind} (hw : k.okW w) {r : Reg} (hr : c.hasVec k w r = true) (hn : n = r.lanes w) {m : Mem} {p : Nat}
    (hp : p % r.bytes = 0) (ha : m.Acc p r.bytes) (a : Vec w n) : i_stream c k r m p a = some (m.put p a (fun _ => true)) := by
  subst hn
  have hW := hw.isW
  have hb := bytes_eq hW r
  have hs := i_store_eq h hw hr rfl hp ha a
  rw [← hb] at ha
  have e1 := Null.store_eq hW (mod_elem hW r hp) ha a
  have e2 := stv_eq hW ha a
  have hp16 : r = .r128 → p % 16 = 0 := fun e => by subst e; exact hp
  have hp32 : r = .r256 → p % 32 = 0 := fun e => by subst e; exact hp
  have hp64 : r = .r512 → p % 64 = 0 := fun e => by subst e; exact hp
  unfold i_stream
  cases k <;> cases r <;> dsimp only
  · have e8 := i_stream8_eq h hp hb (by rw [hb] at ha; exact ha) (a.recast 8 (Reg.r128.lanes w * (w / 8)))
    rw [put_all8 hW] at e8
    rw [al_eq (hp16 rfl), e1, e8]
    split_ifs <;> rfl
  · rw [al_eq (hp32 rfl), e2]; exact if_pos hr
  · rw [al_eq (hp64 rfl), e2]; exact if_pos hr
  · have e4 := vec_st_eq hW hp ha a
    rw [al_eq (hp16 rfl), e1, e2, e4, hs]
    clear e1 e2 e4 ha hp hr hb hp16 hp32 hp64 hs
    rcases hw with e | e <;> subst e
    · rw [if_pos rfl]
      split_ifs <;> first | rfl | (exfalso; cfg_absurd h)
    · rw [if_neg (by decide)]
      split_ifs <;> first | rfl | (exfalso; cfg_absurd h)
  · rw [al_eq (hp32 rfl), e2]; exact if_pos hr
  · rw [al_eq (hp64 rfl), e2]; exact if_pos hr

end

end Simdpp
