import Verif.Props.MemReg

/-!
# Partial stores of one register
-/

namespace Simdpp
open Spec Sh Mem

variable {w n N L : Nat}

theorem tab_first {h : Nat} (hn : n ≤ h) : (Hw.tab (2 * h) (onesZeros w h) ((h : Int) - n) : Option (Vec w h)) =
    some (maskVec w (fun i => decide (i.val < n))) := by
  unfold Hw.tab
  rw [if_pos (by omega)]
  refine congrArg some (funext fun i => ?_)
  unfold onesZeros maskVec maskLane
  have : ((h : Int) - n).toNat = h - n := by omega
  rw [this]
  have hi := i.isLt
  by_cases g : i.val < n
  · rw [if_pos (by omega), if_pos (by simpa using g)]
  · rw [if_neg (by omega), if_neg (by simpa using g)]

theorem tab_last {h : Nat} (hn : n ≤ h) : (Hw.tab (2 * h) (zerosOnes w h) (n : Int) : Option (Vec w h)) =
    some (maskVec w (fun i => decide (h - n ≤ i.val))) := by
  unfold Hw.tab
  rw [if_pos (by omega)]
  refine congrArg some (funext fun i => ?_)
  unfold zerosOnes maskVec maskLane
  rw [Int.toNat_natCast]
  have hi := i.isLt
  by_cases g : h - n ≤ i.val
  · rw [if_neg (by omega), if_pos (by simpa using g)]
  · rw [if_pos (by omega), if_neg (by simpa using g)]

theorem signs_mask (hw : IsW w) (f : Fin n → Bool) (i : Fin n) : signs (maskVec w f) i.val = f i := by
  unfold signs
  rw [Vec.at_fin]
  unfold maskVec maskLane
  rcases hw with e | e | e | e <;> subst e <;> cases f i <;> decide

theorem testBit_first {h n i : Nat} (hn : n ≤ h) (hi : i < h) : ((2 ^ h - 1) / 2 ^ (h - n)).testBit i = decide (i < n) := by
  rw [← Nat.shiftRight_eq_div_pow, Nat.testBit_shiftRight, Nat.testBit_two_pow_sub_one]
  rw [decide_eq_decide]
  omega

theorem testBit_last {h n i : Nat} (hn : n ≤ h) (hi : i < h) : ((2 ^ h - 1) * 2 ^ (h - n)).testBit i = decide (h - n ≤ i) := by
  rw [← Nat.shiftLeft_eq, Nat.testBit_shiftLeft, Nat.testBit_two_pow_sub_one]
  by_cases g : h - n ≤ i
  · rw [decide_eq_true (show i ≥ h - n from g), decide_eq_true (show i - (h - n) < h by omega)]; rfl
  · rw [decide_eq_false (show ¬ i ≥ h - n from g), Bool.false_and]

theorem maskstoreFirst_eq (hw : IsW w) {m : Mem} {p : Nat} (ha : m.Acc p (N * (w / 8))) (a : Vec w N) (hn : n ≤ N) :
    maskstoreFirst N m p a n = some (m.put p a (fun i => decide (i < n))) := by
  unfold maskstoreFirst
  rw [tab_first hn]
  exact stm_eq hw ha a (fun i => signs_mask hw _ i)

theorem maskstoreLast_eq (hw : IsW w) {m : Mem} {p : Nat} (ha : m.Acc p (N * (w / 8))) (a : Vec w N) (hn : n ≤ N) :
    maskstoreLast N m p a n = some (m.put p a (fun i => decide (N - n ≤ i))) := by
  unfold maskstoreLast
  rw [tab_last hn]
  exact stm_eq hw ha a (fun i => signs_mask hw _ i)

theorem mask512First_eq (hw : IsW w) {m : Mem} {p : Nat} (ha : m.Acc p (N * (w / 8))) (a : Vec w N) (hn : n ≤ N) :
    mask512First N m p a n = some (m.put p a (fun i => decide (i < n))) := by
  unfold mask512First
  rw [if_pos hn]
  exact stm_eq hw ha a (fun i => testBit_first hn i.isLt)

theorem mask512Last_eq (hw : IsW w) {m : Mem} {p : Nat} (ha : m.Acc p (N * (w / 8))) (a : Vec w N) (hn : n ≤ N) :
    mask512Last N m p a n = some (m.put p a (fun i => decide (N - n ≤ i))) := by
  unfold mask512Last
  rw [if_pos hn]
  exact stm_eq hw ha a (fun i => testBit_last hn i.isLt)

section
variable {c : Cfg} (h : c.Ok)
include h

theorem blendStore_eq {k : Kind} (hw : k.okW w) {r : Reg} (hr : c.hasVec k w r = true) (hn : n = r.lanes w) {m : Mem} {p : Nat}
    (hp : p % r.bytes = 0) (ha : m.Acc p r.bytes) (a : Vec w n) (f : Fin n → Bool) {sel : Nat → Bool} (hs : ∀ i : Fin n, sel i = f i) :
    blendStore c k r m p a (maskVec w f) = some (m.put p a sel) := by
  unfold blendStore
  refine (bind_of (i_load_eq h hw hr hn hp ha) _).trans ((bind_of (i_blend_eq h hw hr a _ f) _).trans ((i_store_eq h hw hr hn hp ha _).trans ?_))
  exact congrArg some (put_blend hw.isW a f hs)

theorem blendStore'_eq {k : Kind} (hw : k.okW w) {r : Reg} (hr : c.hasVec k w r = true) (hn : n = r.lanes w) {m : Mem} {p : Nat}
    (hp : p % r.bytes = 0) (ha : m.Acc p r.bytes) (a : Vec w n) (f : Fin n → Bool) {sel : Nat → Bool} (hs : ∀ i : Fin n, sel i = !f i) :
    blendStore' c k r m p a (maskVec w f) = some (m.put p a sel) := by
  unfold blendStore'
  refine (bind_of (i_load_eq h hw hr hn hp ha) _).trans ((bind_of (i_blend_eq h hw hr _ a f) _).trans ((i_store_eq h hw hr hn hp ha _).trans ?_))
  refine congrArg some (Eq.trans ?_ (put_blend hw.isW a (fun i => !f i) hs))
  refine put_congr hw.isW (fun _ => rfl) fun i _ => ?_
  cases f i <;> rfl

/-! ### store_first -/

omit h in
theorem slo_mask {n : Nat} (hn : n < 16) : (Hw.slo (Vec.splat (BitVec.allOnes 8)) (BitVec.ofNat 8 (n * 8)) : Vec 8 16) =
    maskVec 8 (fun i => decide (n ≤ i.val)) := by
  funext i
  unfold Hw.slo maskVec maskLane
  have e : (BitVec.ofNat 8 (n * 8)).toNat / 8 % 16 = n := by rw [BitVec.toNat_ofNat]; omega
  rw [e]
  have hi := i.isLt
  by_cases g : n ≤ i.val
  · rw [if_pos g, if_pos (by simpa using g), Vec.at_lt _ (by omega)]; rfl
  · rw [if_neg g, if_neg (by simpa using g)]

omit h in
theorem sro_mask {n : Nat} (hn : n < 16) : (Hw.sro (Vec.splat (BitVec.allOnes 8)) (BitVec.ofNat 8 (n * 8)) : Vec 8 16) =
    maskVec 8 (fun i => decide (i.val + n < 16)) := by
  funext i
  unfold Hw.sro maskVec maskLane
  have e : (BitVec.ofNat 8 (n * 8)).toNat / 8 % 16 = n := by rw [BitVec.toNat_ofNat]; omega
  rw [e]
  have hi := i.isLt
  by_cases g : i.val + n < 16
  · rw [if_pos (by simpa using g), Vec.at_lt _ g]; rfl
  · rw [if_neg (by simpa using g), Vec.at_ge _ (by omega)]

theorem cmp_lvsr {n : Nat} (hn : n < 16) : ∃ M, i_cmp_lt c false .r128 (Hw.lvsr n : Vec 8 16) (Vec.splat 0x10) = some M ∧
    M.unmask = maskVec 8 (fun i => decide (i.val < n)) := by
  refine ⟨_, i_cmp_lt_eq h isW8 rfl false (fun e => absurd e (by decide)) (fun e => absurd e (by decide)) (fun e => absurd e (by decide)) _ _, ?_⟩
  rw [Mask.unmask_of]
  funext i
  show maskLane 8 _ = maskLane 8 _
  congr 1
  rw [decide_eq_decide]
  show ((Hw.lvsr n i).toNat : Int) < (16 : Nat) ↔ _
  rw [lvsr_at i.isLt rfl]
  have hi := i.isLt
  omega

theorem cmp_lvsl {n : Nat} (hn : n < 16) : ∃ M, i_cmp_gt c false .r128 (Hw.lvsl n : Vec 8 16) (Vec.splat 0x0f) = some M ∧
    M.unmask = maskVec 8 (fun i => decide (16 - n ≤ i.val)) := by
  refine ⟨_, i_cmp_gt_eq h isW8 rfl false (fun e => absurd e (by decide)) (fun e => absurd e (by decide)) _ _, ?_⟩
  rw [Mask.unmask_of]
  funext i
  show maskLane 8 _ = maskLane 8 _
  congr 1
  rw [decide_eq_decide]
  show ((15 : Nat) : Int) < ((Hw.lvsl n i).toNat : Int) ↔ _
  rw [lvsl_at i.isLt rfl]
  have hi := i.isLt
  omega

theorem i_store_first8_eq (be : Bool) {r : Reg} (hr : c.hasVec .int 8 r = true) (hN : N = r.lanes 8) {m : Mem} {p : Nat}
    (hp : p % r.bytes = 0) (ha : m.Acc p r.bytes) (a : Vec 8 N) (hn : n < N) :
    i_store_first8 c be r m p a n = some (m.put p a (fun i => decide (i < n))) := by
  subst hN
  have hB : ∀ {f : Fin (r.lanes 8) → Bool}, (∀ i, decide (i.val < n) = f i) →
      blendStore c .int r m p a (maskVec 8 f) = some (m.put p a (fun i => decide (i < n))) :=
    fun {f} hs => blendStore_eq h (k := .int) isW8 hr rfl hp ha a f (fun i => hs i)
  unfold i_store_first8
  cases r <;> dsimp only
  · have e1 := Null.store_first_eq (N := 16) isW8 (m := m) (p := p) (Nat.mod_one _) ha a n
    have e2 := tab_first (w := 8) (show n ≤ 16 from le_of_lt hn)
    have e3 := slo_mask hn
    obtain ⟨M, e4, e5⟩ := cmp_lvsr h hn
    have e6 := blendStore'_eq h (k := .int) isW8 hr rfl hp ha a (fun i => decide (n ≤ i.val)) (sel := fun i => decide (i < n)) (fun i => by
        by_cases g : n ≤ i.val
        · rw [decide_eq_true g, decide_eq_false (by omega)]; rfl
        · rw [decide_eq_false g, decide_eq_true (by omega)]; rfl)
    rw [al_eq (show p % 16 = 0 from hp)]
    split_ifs
    · exact e1
    · exact (bind_of e4 _).trans ((congrArg (blendStore c .int .r128 m p a) e5).trans (hB fun _ => rfl))
    · exact (congrArg _ e3).trans e6
    · exact (bind_of e2 _).trans (hB fun _ => rfl)
    · exfalso; clear e1 e2 e3 e4 e5 e6 hB ha hp; cfg_absurd h
  · rw [if_pos (show c.avx2 = true from hr)]
    exact (bind_of (tab_first (w := 8) (h := 32) (le_of_lt hn)) _).trans (hB fun _ => rfl)
  · rw [if_pos (show c.avx512bw = true from hr)]
    exact (bind_of (tab_first (w := 8) (h := 64) (le_of_lt hn)) _).trans (hB fun _ => rfl)

theorem i_store_last8_eq (be : Bool) {r : Reg} (hr : c.hasVec .int 8 r = true) (hN : N = r.lanes 8) {m : Mem} {p : Nat}
    (hp : p % r.bytes = 0) (ha : m.Acc p r.bytes) (a : Vec 8 N) (hn : n < N) :
    i_store_last8 c be r m p a n = some (m.put p a (fun i => decide (N - n ≤ i))) := by
  subst hN
  have hB : ∀ {f : Fin (r.lanes 8) → Bool}, (∀ i, decide (r.lanes 8 - n ≤ i.val) = f i) →
      blendStore c .int r m p a (maskVec 8 f) = some (m.put p a (fun i => decide (r.lanes 8 - n ≤ i))) :=
    fun {f} hs => blendStore_eq h (k := .int) isW8 hr rfl hp ha a f (fun i => hs i)
  unfold i_store_last8
  cases r <;> dsimp only
  · have hn : n < 16 := hn
    have e1 := Null.store_last_eq (N := 16) isW8 (m := m) (p := p) (Nat.mod_one _) ha a (le_of_lt hn)
    have e2 := tab_last (w := 8) (show n ≤ 16 from le_of_lt hn)
    have e3 := sro_mask hn
    obtain ⟨M, e4, e5⟩ := cmp_lvsl h hn
    have e6 := blendStore'_eq h (k := .int) isW8 hr rfl hp ha a (fun i => decide (i.val + n < 16)) (sel := fun i => decide (16 - n ≤ i))
      (fun i => by
        have hi := i.isLt
        by_cases g : i.val + n < 16
        · rw [decide_eq_true g, decide_eq_false (by omega)]; rfl
        · rw [decide_eq_false g, decide_eq_true (by omega)]; rfl)
    have e7 : (Hw.sld_b (Vec.splat (BitVec.allOnes 8)) (Vec.splat 0) n : Vec 8 16) = maskVec 8 (fun i => decide (16 - n ≤ i.val)) := by
      refine ext_at fun i hi => ?_
      unfold Hw.sld_b
      rw [gather_at _ _ hi, Vec.at_lt _ hi, Nat.mod_eq_of_lt hn, Nat.mod_eq_of_lt hi, Nat.div_eq_of_lt hi]
      unfold maskVec maskLane
      by_cases g : 16 - n ≤ i
      · rw [if_neg (by omega), if_pos (by omega), if_pos (by simpa using g), Vec.at_lt _ (by omega)]; rfl
      · rw [if_pos (by omega), if_neg (by simpa using g), Vec.at_lt _ (by omega)]; rfl
    rw [al_eq (show p % 16 = 0 from hp)]
    split_ifs
    · exact e1
    · exact (bind_of e4 _).trans ((congrArg (blendStore c .int .r128 m p a) e5).trans (hB fun _ => rfl))
    · exact (congrArg _ e3).trans e6
    · exact (bind_of e2 _).trans (hB fun _ => rfl)
    · exact (congrArg _ e7).trans (hB fun _ => rfl)
    · exfalso; clear e1 e2 e3 e4 e5 e6 e7 hB ha hp; cfg_absurd h
  · rw [if_pos (show c.avx2 = true from hr)]
    exact (bind_of (tab_last (w := 8) (h := 32) (le_of_lt hn)) _).trans (hB fun _ => rfl)
  · rw [if_pos (show c.avx512bw = true from hr)]
    exact (bind_of (tab_last (w := 8) (h := 64) (le_of_lt hn)) _).trans (hB fun _ => rfl)

theorem first_via8 (be : Bool) (hw : IsW w) {r : Reg} (hr : c.hasVec .int 8 r = true) (hN : N = r.lanes w) {m : Mem} {p : Nat}
    (hp : p % r.bytes = 0) (ha : m.Acc p r.bytes) (a : Vec w N) (hn : n < N) :
    i_store_first8 c be r m p (a.recast 8 (N * (w / 8))) (n * (w / 8)) = some (m.put p a (fun i => decide (i < n))) := by
  have hB := isW_bpos hw
  rw [i_store_first8_eq h be hr (by rw [hN]; rcases hw with e | e | e | e <;> subst e <;> cases r <;> rfl) hp ha _
    (Nat.mul_lt_mul_of_pos_right hn hB)]
  refine congrArg some (put_recast hw a fun x _ => ?_)
  rw [decide_eq_decide, Nat.div_lt_iff_lt_mul hB]

theorem last_via8 (be : Bool) (hw : IsW w) {r : Reg} (hr : c.hasVec .int 8 r = true) (hN : N = r.lanes w) {m : Mem} {p : Nat}
    (hp : p % r.bytes = 0) (ha : m.Acc p r.bytes) (a : Vec w N) (hn : n < N) :
    i_store_last8 c be r m p (a.recast 8 (N * (w / 8))) (n * (w / 8)) = some (m.put p a (fun i => decide (N - n ≤ i))) := by
  have hB := isW_bpos hw
  rw [i_store_last8_eq h be hr (by rw [hN]; rcases hw with e | e | e | e <;> subst e <;> cases r <;> rfl) hp ha _
    (Nat.mul_lt_mul_of_pos_right hn hB)]
  refine congrArg some (put_recast hw a fun x _ => ?_)
  rw [decide_eq_decide, ← Nat.sub_mul, Nat.le_div_iff_mul_le hB]

omit h in
theorem bytes_w {w : Nat} (hw : IsW w) (r : Reg) (p : Nat) (hp : p % r.bytes = 0) : p % (w / 8) = 0 := by
  rcases hw with e | e | e | e <;> subst e <;> cases r <;> simp only [Reg.bytes, Reg.bits] at hp <;> omega

omit h in
theorem sel_lane0 (hw : IsW w) {m : Mem} {p : Nat} (ha : m.Acc p (2 * (w / 8))) (a : Vec w 2) (hn : n < 2) :
    (if n = 1 then storeLane m p a 0 else some m) = some (m.put p a (fun i => decide (i < n))) := by
  split_ifs with e
  · subst e; exact storeLane_eq hw ha (by decide) a (fun i => by rw [decide_eq_decide]; omega)
  · exact congrArg some (put_false hw fun i => decide_eq_false (by omega)).symm

omit h in
theorem sel_lane1 (hw : IsW w) {m : Mem} {p : Nat} (ha : m.Acc p (2 * (w / 8))) (a : Vec w 2) (hn : n < 2) {X : Option Mem}
    (hX : X = storeLane m p a 1) :
    (if n = 1 then X else some m) = some (m.put p a (fun i => decide (2 - n ≤ i))) := by
  subst hX
  split_ifs with e
  · subst e; exact storeLane_eq hw ha (by decide) a (fun i => by have := i.isLt; rw [decide_eq_decide]; omega)
  · exact congrArg some (put_false hw fun i => by have := i.isLt; exact decide_eq_false (by omega)).symm

theorem i_store_first_int_eq (be : Bool) (hw : IsW w) {r : Reg} (hr : c.hasVec .int w r = true) (hN : N = r.lanes w) {m : Mem} {p : Nat}
    (hp : p % r.bytes = 0) (ha : m.Acc p r.bytes) (a : Vec w N) (hn : n < N) :
    i_store_first_int c be r m p a n = some (m.put p a (fun i => decide (i < n))) := by
  have ha' : m.Acc p (N * (w / 8)) := by rw [hN, bytes_eq hw r]; exact ha
  have hv : c.hasVec .int 8 r = true → _ := fun g => first_via8 h be hw g hN hp ha a hn
  have hn' := Null.store_first_eq hw (bytes_w hw r p hp) ha' a n
  unfold i_store_first_int
  cases r <;> dsimp only
  · replace hv := hv rfl
    have hl : w = 64 → (if n = 1 then storeLane m p a 0 else some m) = some (m.put p a (fun i => decide (i < n))) := by
      intro e; subst e; subst hN; exact sel_lane0 hw ha' a hn
    rw [al_eq (show p % 16 = 0 from hp)]
    rcases hw with e | e | e | e <;> subst e <;> (first | rw [if_pos rfl] | rw [if_neg (by decide)])
    · exact hv
    · rw [if_pos (by decide)]
      split_ifs
      · exact hn'
      · exact hv
      · exfalso; clear hv hn' hl ha ha' hp; cfg_absurd h
    · rw [if_pos (by decide)]
      split_ifs
      · exact hn'
      · exact hv
      · exfalso; clear hv hn' hl ha ha' hp; cfg_absurd h
    · rw [if_neg (by decide)]
      replace hl := hl rfl
      by_cases g1 : c.sse2 = true
      · rw [if_pos g1]; exact hl
      rw [if_neg g1]
      by_cases g2 : c.neon = true
      · rw [if_pos g2]; exact hl
      rw [if_neg g2]
      by_cases g3 : c.vsx207 = true
      · rw [if_pos g3]; exact hl
      rw [if_neg g3]
      split_ifs
      · exact hv
      · exact hn'
      · exfalso; clear hv hn' hl ha ha' hp; cfg_absurd h
  · have hm : N = 256 / w := by rw [hN]; rcases hw with e | e | e | e <;> subst e <;> rfl
    split_ifs
    · exact hv (by exact hr)
    · rw [← hm]; exact maskstoreFirst_eq hw ha' a hn.le
    · exact absurd hr ‹_›
  · have hm : N = 512 / w := by rw [hN]; rcases hw with e | e | e | e <;> subst e <;> rfl
    rcases hw with e | e | e | e <;> subst e
    · exact hv hr
    · exact hv hr
    · rw [if_neg (by decide), if_pos (show c.avx512f = true from hr), ← hm]; exact mask512First_eq iw32 ha' a hn.le
    · rw [if_neg (by decide), if_pos (show c.avx512f = true from hr), ← hm]; exact mask512First_eq iw64 ha' a hn.le

theorem i_store_last_int_eq (be : Bool) (hw : IsW w) {r : Reg} (hr : c.hasVec .int w r = true) (hN : N = r.lanes w) {m : Mem} {p : Nat}
    (hp : p % r.bytes = 0) (ha : m.Acc p r.bytes) (a : Vec w N) (hn : n < N) :
    i_store_last_int c be r m p a n = some (m.put p a (fun i => decide (N - n ≤ i))) := by
  have ha' : m.Acc p (N * (w / 8)) := by rw [hN, bytes_eq hw r]; exact ha
  have hv : c.hasVec .int 8 r = true → _ := fun g => last_via8 h be hw g hN hp ha a hn
  have hn' := Null.store_last_eq hw (bytes_w hw r p hp) ha' a hn.le
  unfold i_store_last_int
  cases r <;> dsimp only
  · replace hv := hv rfl
    have hl : w = 64 → ∀ X : Option Mem, X = storeLane m p a 1 → (if n = 1 then X else some m) = some (m.put p a (fun i => decide (N - n ≤ i))) := by
      intro e X hX; subst e; subst hN; exact sel_lane1 hw ha' a hn hX
    have hmv : w = 64 → (do
            let b ← i_move_l c .int .r128 1 a
            m.stv (p + 8) (fun _ : Fin 1 => b.at_ 0)) = storeLane m p a 1 := by
      intro e; subst e; subst hN
      refine (bind_of (i_move_l_eq h (k := .int) (r := .r128) (s := 1) iw64 (by decide) (by decide) rfl rfl a) _).trans ?_
      unfold storeLane
      congr 1
    rw [al_eq (show p % 16 = 0 from hp)]
    rcases hw with e | e | e | e <;> subst e
    · exact hv
    · rw [if_neg (by decide), if_pos rfl]
      split_ifs
      · exact hn'
      · exact hv
      · exfalso; clear hv hn' hl ha ha' hp hmv; cfg_absurd h
    · rw [if_neg (by decide), if_neg (by decide), if_pos rfl]
      split_ifs
      · exact hn'
      · rw [show (4 : Nat) = N from hN.symm]; exact maskstoreLast_eq iw32 ha' a hn.le
      · exact hv
      · exfalso; clear hv hn' hl ha ha' hp hmv; cfg_absurd h
    · rw [if_neg (by decide), if_neg (by decide), if_neg (by decide)]
      replace hl := hl rfl
      by_cases g1 : c.sse2 = true
      · rw [if_pos g1]; exact hl _ (hmv rfl)
      rw [if_neg g1]
      by_cases g2 : c.neon = true
      · rw [if_pos g2]; exact hl _ rfl
      rw [if_neg g2]
      by_cases g3 : c.vsx207 = true
      · rw [if_pos g3]; exact hl _ rfl
      rw [if_neg g3]
      split_ifs
      · exact hv
      · exact hn'
      · exfalso; clear hv hn' hl ha ha' hp hmv; cfg_absurd h
  · have hm : N = 256 / w := by rw [hN]; rcases hw with e | e | e | e <;> subst e <;> rfl
    split_ifs
    · exact hv (by exact hr)
    · rw [← hm]; exact maskstoreLast_eq hw ha' a hn.le
    · exact absurd hr ‹_›
  · have hm : N = 512 / w := by rw [hN]; rcases hw with e | e | e | e <;> subst e <;> rfl
    rcases hw with e | e | e | e <;> subst e
    · exact hv hr
    · exact hv hr
    · rw [if_neg (by decide), if_pos (show c.avx512f = true from hr), ← hm]; exact mask512Last_eq iw32 ha' a hn.le
    · rw [if_neg (by decide), if_pos (show c.avx512f = true from hr), ← hm]; exact mask512Last_eq iw64 ha' a hn.le

/-! ### Floating point -/

omit h in
/-- Two stores of the same vector. -/
theorem put_put (hw : IsW w) {m : Mem} {p : Nat} (a : Vec w N) (s t : Nat → Bool) :
    (m.put p a s).put p a t = m.put p a (fun i => s i || t i) := by
  refine Mem.ext' rfl fun x => ?_
  rw [put_byte, put_byte, put_byte]
  by_cases hx : p ≤ x ∧ x < p + N * (w / 8)
  · simp only [hx, true_and]
    cases s ((x - p) / (w / 8)) <;> cases t ((x - p) / (w / 8)) <;> simp
  · rw [if_neg (by tauto), if_neg (by tauto), if_neg (by tauto)]

omit h in
theorem Acc.put {m : Mem} {p q k : Nat} {a : Vec w N} {s : Nat → Bool} (ha : m.Acc q k) : (m.put p a s).Acc q k := ha

theorem i_store_first_flt_eq (be : Bool) (hw : Kind.flt.okW w) {r : Reg} (hr : c.hasVec .flt w r = true) (hN : N = r.lanes w) {m : Mem} {p : Nat}
    (hp : p % r.bytes = 0) (ha : m.Acc p r.bytes) (a : Vec w N) (hn : n < N) :
    i_store_first_flt c be r m p a n = some (m.put p a (fun i => decide (i < n))) := by
  have hW := hw.isW
  have ha' : m.Acc p (N * (w / 8)) := by rw [hN, bytes_eq hW r]; exact ha
  have hn' := Null.store_first_eq hW (bytes_w hW r p hp) ha' a n
  unfold i_store_first_flt
  cases r <;> dsimp only
  · have hi := i_store_first_int_eq h be hW (r := .r128) rfl hN hp ha a hn
    rw [al_eq (show p % 16 = 0 from hp)]
    rcases hw with e | e <;> subst e <;> (first | rw [if_pos rfl] | rw [if_neg (by decide)])
    · subst hN
      by_cases g1 : c.null = true ∨ c.altivec = true ∨ c.neonNoFltSp = true ∨ c.msa = true
      · rw [if_pos g1]; exact hi
      rw [if_neg g1]
      by_cases g2 : c.avx = true
      · rw [if_pos g2]; exact maskstoreFirst_eq (N := 4) hW ha' a hn.le
      rw [if_neg g2]
      by_cases g3 : c.sse2 = true
      · rw [if_pos g3]
        exact (bind_of (tab_first (w := 32) (h := 4) hn.le) _).trans
          (blendStore_eq h (k := .flt) (r := .r128) (Or.inl rfl) rfl rfl hp ha a _ (fun _ => rfl))
      rw [if_neg g3]
      by_cases g4 : c.neon = true
      · rw [if_pos g4]
        have hL : ∀ (m' : Mem), m'.ok = m.ok → ∀ j, j < 4 → storeLane m' p a j = some (m'.put p a (fun i => decide (i = j))) :=
          fun m' e j hj => storeLane_eq hW (Mem.Acc.of_ok ha' e) hj a (fun _ => rfl)
        have hL2 : ∀ (s : Nat → Bool) j, j < 4 → storeLane (m.put p a s) p a j = some (m.put p a (fun i => s i || decide (i = j))) :=
          fun s j hj => (hL (m.put p a s) rfl j hj).trans (congrArg some (put_put hW a _ _))
        have hn4 : n < 4 := hn
        by_cases q0 : n < 1
        · rw [if_pos q0]; exact congrArg some (put_false hW fun i => decide_eq_false (by omega)).symm
        rw [if_neg q0, hL m rfl 0 (by decide)]
        dsimp only [Option.bind_eq_bind, Option.bind_some]
        by_cases q1 : n < 2
        · rw [if_pos q1]; exact congrArg some (put_congr hW (fun i => by rw [decide_eq_decide]; omega) fun _ _ => rfl)
        rw [if_neg q1, hL2 _ 1 (by decide)]
        dsimp only [Option.bind_eq_bind, Option.bind_some]
        by_cases q2 : n < 3
        · rw [if_pos q2]; exact congrArg some (put_congr hW (fun i => by rw [← Bool.decide_or, decide_eq_decide]; omega) fun _ _ => rfl)
        rw [if_neg q2, hL2 _ 2 (by decide)]
        exact congrArg some (put_congr hW (fun i => by rw [← Bool.decide_or, ← Bool.decide_or, decide_eq_decide]; omega) fun _ _ => rfl)
      · exfalso; clear hi hn' ha ha' hp; cfg_absurd h
    · have hl : (if n = 1 then storeLane m p a 0 else some m) = some (m.put p a (fun i => decide (i < n))) := by
        subst hN; exact sel_lane0 hW ha' a hn
      by_cases g1 : c.sse2 = true
      · rw [if_pos g1]; exact hl
      rw [if_neg g1]
      by_cases g2 : c.neon64 = true
      · rw [if_pos g2]; exact hl
      rw [if_neg g2]
      by_cases g3 : c.vsx206 = true
      · rw [if_pos g3]; exact hl
      rw [if_neg g3]
      split_ifs
      · exact hi
      · exact hn'
      · exfalso; clear hi hn' ha ha' hp hl; cfg_absurd h
  · have hm : N = 256 / w := by rw [hN]; rcases hW with e | e | e | e <;> subst e <;> rfl
    rw [if_pos (show c.avx = true from hr), ← hm]; exact maskstoreFirst_eq hW ha' a hn.le
  · have hm : N = 512 / w := by rw [hN]; rcases hW with e | e | e | e <;> subst e <;> rfl
    rw [if_pos (show c.avx512f = true from hr), ← hm]; exact mask512First_eq hW ha' a hn.le

theorem i_store_last_flt_eq (be : Bool) (hw : Kind.flt.okW w) {r : Reg} (hr : c.hasVec .flt w r = true) (hN : N = r.lanes w) {m : Mem} {p : Nat}
    (hp : p % r.bytes = 0) (ha : m.Acc p r.bytes) (a : Vec w N) (hn : n < N) :
    i_store_last_flt c be r m p a n = some (m.put p a (fun i => decide (N - n ≤ i))) := by
  have hW := hw.isW
  have ha' : m.Acc p (N * (w / 8)) := by rw [hN, bytes_eq hW r]; exact ha
  have hn' := Null.store_last_eq hW (bytes_w hW r p hp) ha' a hn.le
  unfold i_store_last_flt
  cases r <;> dsimp only
  · have hi := i_store_last_int_eq h be hW (r := .r128) rfl hN hp ha a hn
    rw [al_eq (show p % 16 = 0 from hp)]
    rcases hw with e | e <;> subst e <;> (first | rw [if_pos rfl] | rw [if_neg (by decide)])
    · subst hN
      by_cases g1 : c.null = true ∨ c.altivec = true ∨ c.neonFltSp = true ∨ c.msa = true
      · rw [if_pos g1]; exact hi
      rw [if_neg g1]
      by_cases g2 : c.avx = true
      · rw [if_pos g2]; exact maskstoreLast_eq (N := 4) hW ha' a hn.le
      rw [if_neg g2]
      by_cases g3 : c.sse2 = true
      · rw [if_pos g3]
        exact (bind_of (tab_last (w := 32) (h := 4) hn.le) _).trans
          (blendStore_eq h (k := .flt) (r := .r128) (Or.inl rfl) rfl rfl hp ha a _ (fun _ => rfl))
      rw [if_neg g3]
      by_cases g4 : c.neon = true
      · rw [if_pos g4]
        have hL : ∀ (m' : Mem), m'.ok = m.ok → ∀ j, j < 4 → storeLane m' p a j = some (m'.put p a (fun i => decide (i = j))) :=
          fun m' e j hj => storeLane_eq hW (Mem.Acc.of_ok ha' e) hj a (fun _ => rfl)
        have hL2 : ∀ (s : Nat → Bool) j, j < 4 → storeLane (m.put p a s) p a j = some (m.put p a (fun i => s i || decide (i = j))) :=
          fun s j hj => (hL (m.put p a s) rfl j hj).trans (congrArg some (put_put hW a _ _))
        have hn4 : n < 4 := hn
        have h4 : ∀ i : Fin (Reg.r128.lanes 32), i.val < 4 := fun i => i.isLt
        show _ = some (m.put p a (fun i => decide (4 - n ≤ i)))
        by_cases q0 : n < 1
        · rw [if_pos q0]; exact congrArg some (put_false hW fun i => decide_eq_false (by have := h4 i; omega)).symm
        rw [if_neg q0, hL m rfl 3 (by decide)]
        dsimp only [Option.bind_eq_bind, Option.bind_some]
        by_cases q1 : n < 2
        · rw [if_pos q1]; exact congrArg some (put_congr hW (fun i => by have := h4 i; rw [decide_eq_decide]; omega) fun _ _ => rfl)
        rw [if_neg q1, hL2 _ 2 (by decide)]
        dsimp only [Option.bind_eq_bind, Option.bind_some]
        by_cases q2 : n < 3
        · rw [if_pos q2]; exact congrArg some (put_congr hW (fun i => by have := h4 i; rw [← Bool.decide_or, decide_eq_decide]; omega) fun _ _ => rfl)
        rw [if_neg q2, hL2 _ 1 (by decide)]
        exact congrArg some (put_congr hW (fun i => by have := h4 i; rw [← Bool.decide_or, ← Bool.decide_or, decide_eq_decide]; omega) fun _ _ => rfl)
      · exfalso; clear hi hn' ha ha' hp; cfg_absurd h
    · have hl : ∀ X : Option Mem, X = storeLane m p a 1 → (if n = 1 then X else some m) = some (m.put p a (fun i => decide (N - n ≤ i))) := by
        intro X hX; subst hN; exact sel_lane1 hW ha' a hn hX
      have hmv : (do
              let b ← i_zip_hi c .flt .r128 a a
              m.stv (p + 8) (fun _ : Fin 1 => b.at_ 0)) = storeLane m p a 1 := by
        subst hN
        refine (bind_of (i_zip_hi_eq h (k := .flt) (r := .r128) (Or.inr rfl) rfl rfl a a) _).trans ?_
        unfold storeLane
        congr 1
      by_cases g1 : c.sse2 = true
      · rw [if_pos g1]; exact hl _ hmv
      rw [if_neg g1]
      by_cases g2 : c.neon64 = true
      · rw [if_pos g2]; exact hl _ rfl
      rw [if_neg g2]
      by_cases g3 : c.vsx206 = true
      · rw [if_pos g3]; exact hl _ rfl
      rw [if_neg g3]
      split_ifs
      · exact hi
      · exact hn'
      · exfalso; clear hi hn' ha ha' hp hl hmv; cfg_absurd h
  · have hm : N = 256 / w := by rw [hN]; rcases hW with e | e | e | e <;> subst e <;> rfl
    rw [if_pos (show c.avx = true from hr), ← hm]; exact maskstoreLast_eq hW ha' a hn.le
  · have hm : N = 512 / w := by rw [hN]; rcases hW with e | e | e | e <;> subst e <;> rfl
    rw [if_pos (show c.avx512f = true from hr), ← hm]; exact mask512Last_eq hW ha' a hn.le

theorem i_store_first_eq (be : Bool) {k : Kind} (hw : k.okW w) {r : Reg} (hr : c.hasVec k w r = true) (hN : N = r.lanes w) {m : Mem} {p : Nat}
    (hp : p % r.bytes = 0) (ha : m.Acc p r.bytes) (a : Vec w N) (hn : n < N) :
    i_store_first c be k r m p a n = some (m.put p a (fun i => decide (i < n))) := by
  cases k
  · exact i_store_first_int_eq h be hw hr hN hp ha a hn
  · exact i_store_first_flt_eq h be hw hr hN hp ha a hn

theorem i_store_last_eq (be : Bool) {k : Kind} (hw : k.okW w) {r : Reg} (hr : c.hasVec k w r = true) (hN : N = r.lanes w) {m : Mem} {p : Nat}
    (hp : p % r.bytes = 0) (ha : m.Acc p r.bytes) (a : Vec w N) (hn : n < N) :
    i_store_last c be k r m p a n = some (m.put p a (fun i => decide (N - n ≤ i))) := by
  cases k
  · exact i_store_last_int_eq h be hw hr hN hp ha a hn
  · exact i_store_last_flt_eq h be hw hr hN hp ha a hn

/-! ### store_masked -/

omit h in
theorem nullMasked_eq {k : Kind} {r : Reg} (hb : c.maskBits k w r = true) (hw : IsW w) {m : Mem} {p : Nat} (hp : p % (w / 8) = 0)
    (ha : m.Acc p (n * (w / 8))) (a : Vec w n) (f : Fin n → Bool) {sel : Nat → Bool} (hs : ∀ i : Fin n, sel i = f i) :
    nullMasked m p a (Mask.of c k r f) = some (m.put p a sel) := by
  unfold nullMasked
  exact (bind_of (Mask.asBits_of hb f) _).trans (Null.store_masked_eq hw hp ha a f hs)

omit h in
theorem kMasked_eq {k : Kind} {r : Reg} (hb : c.maskBits k w r = true) (hw : IsW w) {m : Mem} {p : Nat}
    (ha : m.Acc p (n * (w / 8))) (a : Vec w n) (f : Fin n → Bool) {sel : Nat → Bool} (hs : ∀ i : Fin n, sel i = f i) :
    kMasked m p a (Mask.of c k r f) = some (m.put p a sel) := by
  unfold kMasked
  exact (bind_of (Mask.asBits_of hb f) _).trans (stm_eq hw ha a (fun i => (dif_pos i.isLt).trans (hs i).symm))

omit h in
theorem vMasked_eq {k : Kind} {r : Reg} (hb : c.maskBits k w r = false) (hw : IsW w) {m : Mem} {p : Nat}
    (ha : m.Acc p (n * (w / 8))) (a : Vec w n) (f : Fin n → Bool) {sel : Nat → Bool} (hs : ∀ i : Fin n, sel i = f i) :
    vMasked m p a (Mask.of c k r f) = some (m.put p a sel) := by
  have e : (Mask.of c k r f : Mask w n).asVec = some (maskVec w f) := by
    unfold Mask.of; rw [if_neg (by rw [hb]; exact Bool.false_ne_true)]; rfl
  unfold vMasked
  exact (bind_of e _).trans (stm_eq hw ha a (fun i => (signs_mask hw f i).trans (hs i).symm))

theorem blendMasked_eq {k : Kind} (hw : k.okW w) (hr : c.hasVec k w .r128 = true) (hn : n = Reg.r128.lanes w) {m : Mem} {p : Nat}
    (hp : p % 16 = 0) (ha : m.Acc p 16) (a : Vec w n) (f : Fin n → Bool) {sel : Nat → Bool} (hs : ∀ i : Fin n, sel i = f i) :
    blendMasked c k m p a (Mask.of c k .r128 f) = some (m.put p a sel) := by
  unfold blendMasked
  refine (bind_of (i_load_eq h hw hr hn hp ha) _).trans ((bind_of (i_blend_vm_eq h hw hr a _ f) _).trans ((i_store_eq h hw hr hn hp ha _).trans ?_))
  exact congrArg some (put_blend hw.isW a f hs)

theorem i_store_masked_eq {k : Kind} (hw : k.okW w) (hw' : w = 32 ∨ w = 64) {r : Reg} (hr : c.hasVec k w r = true) (hN : n = r.lanes w) {m : Mem} {p : Nat}
    (hp : p % r.bytes = 0) (ha : m.Acc p r.bytes) (a : Vec w n) (f : Fin n → Bool) {sel : Nat → Bool} (hs : ∀ i : Fin n, sel i = f i) :
    i_store_masked c k r m p a (Mask.of c k r f) = some (m.put p a sel) := by
  have hW := hw.isW
  have ha' : m.Acc p (n * (w / 8)) := by rw [hN, bytes_eq hW r]; exact ha
  have e1 := fun hb => nullMasked_eq (c := c) (k := k) (r := r) hb hW (bytes_w hW r p hp) ha' a f hs
  have e2 := fun hb => kMasked_eq (c := c) (k := k) (r := r) hb hW ha' a f hs
  have e3 := fun hb => vMasked_eq (c := c) (k := k) (r := r) hb hW ha' a f hs
  unfold i_store_masked
  cases r
  · have e4 := blendMasked_eq h hw hr hN hp ha a f hs
    clear hp ha ha' hs
    obtain ⟨o1, o2, o3, o4, o5, o6, o7, o8, o9, o10, o11, o12, o13, o14, o15, o16, o17, o18, o19⟩ := h
    cases k <;> dsimp only <;> rcases hw' with e | e <;> subst e <;>
      (first | rw [if_pos rfl] | rw [if_neg (by decide)]) <;> split_ifs <;>
      first
      | exact e4
      | (refine e1 ?_; unfold Cfg.maskBits; grind)
      | (refine e2 ?_; unfold Cfg.maskBits; grind)
      | (refine e3 ?_; unfold Cfg.maskBits; grind)
      | (exfalso; grind)
      | (exfalso; grind [Cfg.neon64, Cfg.neon32])
  · cases k <;> dsimp only
    all_goals
      first | rw [if_pos (show c.avx2 = true from hr)] | rw [if_pos (show c.avx = true from hr)]
      split_ifs with g
      · exact e2 g
      · exact e3 (by simpa [Cfg.maskBits] using g)
  · have hf : c.avx512f = true := by
      cases k
      · rcases hw' with e | e <;> subst e <;> exact hr
      · exact hr
    cases k <;> dsimp only <;> rw [if_pos hf] <;> exact e2 rfl


end

end Simdpp
