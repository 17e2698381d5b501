import Verif.Props.ShiftV16

/-! Shifts by a vector of counts, all lane widths and instruction sets. -/

namespace Simdpp
open Spec Sh

variable {w v n : Nat}

section
variable {c : Cfg} (h : c.Ok)
include h

theorem hasInt8_of16 {r : Reg} (hr : c.hasInt 16 r = true) : c.hasInt 8 r = true := by cases r <;> exact hr

theorem lv_ssse3 (hc : c.null = true ∨ c.ssse3 = true ∨ c.neon = true ∨ c.altivec = true ∨ c.msa = true) :
    c.sse2 = true → c.ssse3 = true := fun g => by
  have h1 := h.null
  have h2 := h.excl.1 g
  rw [g] at h1
  rcases hc with e | e | e | e | e
  · rw [e] at h1; simp at h1
  · exact e
  · rw [h2.1] at e; cases e
  · rw [h2.2.1] at e; cases e
  · rw [h2.2.2] at e; cases e

theorem ruv_ssse3 (hc : c.hasShiftRV false 16) : c.sse2 = true → c.ssse3 = true :=
  lv_ssse3 h (by simpa [Cfg.hasShiftRV] using hc)

theorem null_of_avx2 (g : c.avx2 = true) : c.null = false := by
  have h1 := h.null
  rw [h.sse3 (h.ssse3 (h.sse41 (h.avx (h.avx2 g))))] at h1
  simpa using h1

/-! ### 16 bits -/

section v16
variable {r : Reg} (hr : c.hasInt 16 r = true) (hn : n = r.lanes 16) (a k : Vec 16 n) (hk : ∀ i, (k i).toNat < 16)
include hr hn hk

theorem i_shift_l_v16_eq (hc : c.hasShiftLV 16) : i_shift_l_v16 c r a k = some (fun i => a i <<< (k i).toNat) := by
  have hs := lv_ssse3 h hc
  unfold i_shift_l_v16
  cases r
  case r512 => exact (if_pos hr).trans (congrArg some (sllv_eq hk))
  case r256 =>
    refine (if_pos hr).trans ?_
    split_ifs
    · exact congrArg some (sllv_eq hk)
    · exact emul_shift_l_v16_eq h hr hs (null_of_avx2 h hr) hn a k hk
  dsimp only
  by_cases g1 : c.null = true
  · rw [if_pos g1]; exact Null.shift_l_v_eq hk iw16
  rw [if_neg g1]
  split_ifs with g2 g3 g4 g5 g6
  · exact congrArg some (sllv_eq hk)
  · exact emul_shift_l_v16_eq h hr hs (by simpa using g1) hn a k hk
  · exact congrArg some (vshl_u_eq hk iw16)
  · exact congrArg some (sl_mod_eq hk)
  · exact congrArg some (sl_mod_eq hk)
  · simp only [Cfg.hasShiftLV] at hc
    clear hr hk hn a k; cfg_absurd h

theorem i_shift_r_v16u_eq (hc : c.hasShiftRV false 16) :
    i_shift_r_v16u c r a k = some (fun i => bshr false (a i) (k i).toNat) := by
  have hs := ruv_ssse3 h hc
  unfold i_shift_r_v16u
  cases r
  case r512 => exact (if_pos hr).trans (congrArg some (srlv_eq hk))
  case r256 =>
    refine (if_pos hr).trans ?_
    split_ifs
    · exact congrArg some (srlv_eq hk)
    · exact emul_shift_r_u16_eq h hr hs hn a k hk
  dsimp only
  by_cases g1 : c.null = true
  · rw [if_pos g1]; exact Null.shift_r_v_eq hk iw16 false
  rw [if_neg g1]
  split_ifs with g2 g3 g4 g5 g6
  · exact congrArg some (srlv_eq hk)
  · exact emul_shift_r_u16_eq h hr hs hn a k hk
  · exact neonShrV_eq hk h g4 iw16 false
  · exact congrArg some (modShr_eq hk false)
  · exact congrArg some (modShr_eq hk false)
  · simp [Cfg.hasShiftRV] at hc
    clear hr hk hn a k; cfg_absurd h

omit hn in
theorem i_shift_r_v16s_eq (hc : c.hasShiftRV true 16) :
    i_shift_r_v16s c r a k = some (fun i => bshr true (a i) (k i).toNat) := by
  simp [Cfg.hasShiftRV] at hc
  unfold i_shift_r_v16s
  cases r
  case r512 => exact (if_pos hr).trans (congrArg some (srav_eq hk))
  case r256 =>
    refine (if_pos hr).trans ?_
    split_ifs with g
    · exact congrArg some (srav_eq hk)
    · clear hk a k; cfg_absurd h
  dsimp only
  by_cases g1 : c.null = true
  · rw [if_pos g1]; exact Null.shift_r_v_eq hk iw16 true
  rw [if_neg g1]
  split_ifs with g2 g3 g4 g5 g6
  · exact congrArg some (srav_eq hk)
  · exact congrArg some (srav_eq hk)
  · exact neonShrV_eq hk h g4 iw16 true
  · exact congrArg some (modShr_eq hk true)
  · exact congrArg some (modShr_eq hk true)
  · clear hr hk a k; cfg_absurd h

end v16

/-! ### 8 bits -/

section v8
variable {r : Reg} (hr : c.hasInt 8 r = true) (hn : n = r.lanes 8) (a k : Vec 8 n) (hk : ∀ i, (k i).toNat < 8)
include hr hn hk

theorem l8_facts : c.hasInt 16 r = true ∧ n / 2 = r.lanes 16 ∧ n % 2 = 0 ∧ n / 2 % 2 = 0 ∧
    ∀ i b, b < 2 → ((as16 k i).extractLsb' (b * 8) 8).toNat < 8 := by
  have hn2 : n % 2 = 0 := by subst hn; cases r <;> decide
  refine ⟨hasInt16_of8 h hr, by subst hn; cases r <;> rfl, hn2, by subst hn; cases r <;> decide, fun i b hb => ?_⟩
  have hi := i.isLt
  have hlt : i.val * 2 + b < n := by omega
  have := hk ⟨i.val * 2 + b, hlt⟩
  rwa [← Vec.at_lt k hlt, as16_byte hn2, show (i.val * 2 + b) / 2 = i.val by omega, show (i.val * 2 + b) % 2 = b by omega,
    Vec.at_fin] at this

theorem emul_shift_l_v8_v16_eq (hc : c.hasShiftLV 16) :
    emul_shift_l_v8_using_v16 c r a k = some (fun i => a i <<< (k i).toNat) := by
  obtain ⟨hr', hn', hn2, hn3, hb⟩ := l8_facts h hr hn k hk
  unfold emul_shift_l_v8_using_v16
  refine (bind_of (i_bit_and_eq h (k := .int) iw16 hr' _ _) _).trans ?_
  refine (bind_of (i_bit_andnot_eq h (k := .int) iw16 hr' _ _) _).trans ?_
  refine (bind_of (shift_r_imm_eq h false iw16 hr' hn3 (as16 k) (by decide)) _).trans ?_
  refine (bind_of (i_shift_l_v16_eq h hr' hn' (as16 a) _ (fun i => ?_) hc) _).trans ?_
  · have := (lo_byte (as16 k i)).2.1.trans_lt ((hb i 0 (by decide)))
    exact this.trans (by decide)
  refine (bind_of (i_shift_l_v16_eq h hr' hn' _ _ (fun i => ?_) hc) _).trans ?_
  · have := (lo_byte (as16 k i)).2.2.trans_lt ((hb i 1 (by decide)))
    exact this.trans (by decide)
  refine (bind_of (i_bit_andnot_eq h (k := .int) iw16 hr' _ _) _).trans ?_
  refine (bind_of (i_bit_or_eq h (k := .int) iw16 hr' _ _) _).trans ?_
  refine congrArg some (of16_eq hn2 hk fun i h0 h1 => ?_)
  have e0 := (lo_byte (as16 k i)).2.1
  have e1 := (lo_byte (as16 k i)).2.2
  have := l8_v16 (as16 a i) h0 h1
  rw [← e0, ← e1] at this ⊢
  exact this

theorem emul_shift_r_u8_v16_eq (hc : c.hasShiftRV false 16) :
    emul_shift_r_u8_using_v16 c r a k = some (fun i => bshr false (a i) (k i).toNat) := by
  obtain ⟨hr', hn', hn2, hn3, hb⟩ := l8_facts h hr hn k hk
  unfold emul_shift_r_u8_using_v16
  refine (bind_of (i_bit_and_eq h (k := .int) iw16 hr' _ _) _).trans ?_
  refine (bind_of (i_bit_and_eq h (k := .int) iw16 hr' _ _) _).trans ?_
  refine (bind_of (shift_r_imm_eq h false iw16 hr' hn3 (as16 k) (by decide)) _).trans ?_
  refine (bind_of (i_shift_r_v16u_eq h hr' hn' _ _ (fun i => ?_) hc) _).trans ?_
  · have := (lo_byte (as16 k i)).1.trans_lt ((hb i 0 (by decide)))
    exact this.trans (by decide)
  refine (bind_of (i_shift_r_v16u_eq h hr' hn' _ _ (fun i => ?_) hc) _).trans ?_
  · have := (lo_byte (as16 k i)).2.2.trans_lt ((hb i 1 (by decide)))
    exact this.trans (by decide)
  refine (bind_of (i_bit_andnot_eq h (k := .int) iw16 hr' _ _) _).trans ?_
  refine (bind_of (i_bit_or_eq h (k := .int) iw16 hr' _ _) _).trans ?_
  refine congrArg some (of16_eq (f := fun x k => bshr false x k) hn2 hk fun i h0 h1 => ?_)
  have e0 := (lo_byte (as16 k i)).1
  have e1 := (lo_byte (as16 k i)).2.2
  have := u8_v16 (as16 a i) h0 h1
  rw [← e0, ← e1] at this ⊢
  exact this

theorem emul_shift_r_i8_v16_eq (hc : c.hasShiftRV true 16) :
    emul_shift_r_i8_using_v16 c r a k = some (fun i => bshr true (a i) (k i).toNat) := by
  obtain ⟨hr', hn', hn2, hn3, hb⟩ := l8_facts h hr hn k hk
  unfold emul_shift_r_i8_using_v16
  refine (bind_of (shift_l_imm_eq h iw16 hr' hn3 (as16 a) (by decide)) _).trans ?_
  refine (bind_of (i_bit_and_eq h (k := .int) iw16 hr' _ _) _).trans ?_
  refine (bind_of (shift_r_imm_eq h false iw16 hr' hn3 (as16 k) (by decide)) _).trans ?_
  refine (bind_of (i_shift_r_v16s_eq h hr' _ _ (fun i => ?_) hc) _).trans ?_
  · have := (lo_byte (as16 k i)).1.trans_lt ((hb i 0 (by decide)))
    exact this.trans (by decide)
  refine (bind_of (i_shift_r_v16s_eq h hr' _ _ (fun i => ?_) hc) _).trans ?_
  · have := (lo_byte (as16 k i)).2.2.trans_lt ((hb i 1 (by decide)))
    exact this.trans (by decide)
  refine (bind_of (shift_r_imm_eq h false iw16 hr' hn3 _ (by decide)) _).trans ?_
  refine (bind_of (i_bit_andnot_eq h (k := .int) iw16 hr' _ _) _).trans ?_
  refine (bind_of (i_bit_or_eq h (k := .int) iw16 hr' _ _) _).trans ?_
  refine congrArg some (of16_eq (f := fun x k => bshr true x k) hn2 hk fun i h0 h1 => ?_)
  have e0 := (lo_byte (as16 k i)).1
  have e1 := (lo_byte (as16 k i)).2.2
  have := i8_v16 (as16 a i) h0 h1
  rw [← e0, ← e1] at this ⊢
  exact this

/-- The looked up powers of two, as 16-bit lanes. -/
theorem pow8_table (hs : c.sse2 = true → c.ssse3 = true) {l : List Nat} (hl : l.length = 8 ∨ l.length = 16) {g : Nat → Nat}
    (hg : ∀ j, j < 8 → g j < 8 ∧ BitVec.ofNat 8 (l.getD j 0) = BitVec.twoPow 8 (g j)) :
    ∃ P, i_permute_bytes16 c r (cyc l) k = some P ∧
      ∀ i, as16 P i &&& 0x00ff = BitVec.twoPow 16 (g ((as16 k i).extractLsb' (0 * 8) 8).toNat) ∧
        as16 P i >>> 8 = BitVec.twoPow 16 (g ((as16 k i).extractLsb' (1 * 8) 8).toNat) := by
  obtain ⟨hr', hn', hn2, hn3, hb⟩ := l8_facts h hr hn k hk
  refine ⟨_, permTable h hr hs hn hl k (fun i => (hk i).trans (by decide)), fun i => ?_⟩
  have hi := i.isLt
  have key : ∀ b, b < 2 → (as16 (fun i => BitVec.ofNat 8 (l.getD ((k i).toNat % l.length) 0) : Vec 8 n) i).extractLsb' (b * 8) 8 =
      BitVec.twoPow 8 (g ((as16 k i).extractLsb' (b * 8) 8).toNat) := fun b hb' => by
    have hlt : i.val * 2 + b < n := by omega
    have e := as16_byte hn2 (fun i => BitVec.ofNat 8 (l.getD ((k i).toNat % l.length) 0) : Vec 8 n) (i.val * 2 + b)
    have e2 := as16_byte hn2 k (i.val * 2 + b)
    rw [show (i.val * 2 + b) / 2 = i.val by omega, show (i.val * 2 + b) % 2 = b by omega, Vec.at_fin, Vec.at_lt _ hlt] at e e2
    rw [← e, ← e2]
    have h8 := hk ⟨_, hlt⟩
    rw [Nat.mod_eq_of_lt (by rcases hl with q | q <;> omega)]
    exact (hg _ h8).2
  exact bytes_lane (hg _ (hb i 0 (by decide))).1 (hg _ (hb i 1 (by decide))).1 (key 0 (by decide)) (key 1 (by decide))

theorem emul_shift_l_v8_mul_eq (hs : c.sse2 = true → c.ssse3 = true) (h0 : c.null = false) :
    emul_shift_l_v8_using_mul c r a k = some (fun i => a i <<< (k i).toNat) := by
  obtain ⟨hr', hn', hn2, hn3, hb⟩ := l8_facts h hr hn k hk
  obtain ⟨P, eP, hP⟩ := pow8_table h hr hn k hk hs (l := [0x01, 0x02, 0x04, 0x08, 0x10, 0x20, 0x40, 0x80]) (Or.inl rfl) (g := id)
    (by decide)
  unfold emul_shift_l_v8_using_mul
  refine (bind_of eP _).trans ?_
  refine (bind_of (shift_l_imm_eq h iw16 hr' hn3 (as16 a) (by decide)) _).trans ?_
  refine (bind_of (i_bit_and_eq h (k := .int) iw16 hr' _ _) _).trans ?_
  refine (bind_of (i_bit_andnot_eq h (k := .int) iw16 hr' _ _) _).trans ?_
  refine (bind_of (shift_r_imm_eq h false iw16 hr' hn3 (as16 P) (by decide)) _).trans ?_
  refine (bind_of (i_mul_lo16_eq h hr' _ _ (by rw [h0]; intro g; cases g)) _).trans ?_
  refine (bind_of (i_mul_lo16_eq h hr' _ _ (by rw [h0]; intro g; cases g)) _).trans ?_
  refine (bind_of (shift_r_imm_eq h false iw16 hr' hn3 _ (by decide)) _).trans ?_
  refine (bind_of (i_bit_or_eq h (k := .int) iw16 hr' _ _) _).trans ?_
  refine congrArg some (of16_eq hn2 hk fun i h0 h1 => ?_)
  have := l8_mul (as16 a i) h0 h1
  have e0 := (hP i).1
  have e1 := (hP i).2
  simp only [id] at e0 e1
  rw [← BitVec.mul_twoPow_eq_shiftLeft, ← BitVec.mul_twoPow_eq_shiftLeft _ (BitVec.toNat (BitVec.extractLsb' (1 * 8) 8 _)), ← e0, ← e1] at this
  exact this

theorem shr8Products_eq (hs : c.sse2 = true → c.ssse3 = true) (s : Bool) :
    shr8Products c s r a k = some
      (fun i => bshr s (as16 a i <<< 8) (8 + ((as16 k i).extractLsb' (0 * 8) 8).toNat),
       fun i => bshr s (as16 a i &&& ~~~0x00ff) (8 + ((as16 k i).extractLsb' (1 * 8) 8).toNat)) := by
  obtain ⟨hr', hn', hn2, hn3, hb⟩ := l8_facts h hr hn k hk
  obtain ⟨P, eP, hP⟩ := pow8_table h hr hn k hk hs (l := [0x80, 0x40, 0x20, 0x10, 0x08, 0x04, 0x02, 0x01, 0, 0, 0, 0, 0, 0, 0, 0])
    (Or.inr rfl) (g := fun j => 7 - j) (by decide)
  unfold shr8Products
  refine (bind_of eP _).trans ?_
  refine (bind_of (shift_l_imm_eq h iw16 hr' hn3 (as16 a) (by decide)) _).trans ?_
  refine (bind_of (i_bit_and_eq h (k := .int) iw16 hr' _ _) _).trans ?_
  refine (bind_of (shift_l_imm_eq h iw16 hr' hn3 _ (by decide)) _).trans ?_
  refine (bind_of (i_bit_andnot_eq h (k := .int) iw16 hr' _ _) _).trans ?_
  refine (bind_of (shift_r_imm_eq h false iw16 hr' hn3 (as16 P) (by decide)) _).trans ?_
  refine (bind_of (shift_l_imm_eq h iw16 hr' hn3 _ (by decide)) _).trans ?_
  refine (bind_of (i_mul_hi_eq h s hr' hn' _ _) _).trans ?_
  refine (bind_of (i_mul_hi_eq h s hr' hn' _ _) _).trans ?_
  refine congrArg some (Prod.ext (funext fun i => ?_) (funext fun i => ?_))
  · have hb0 := hb i 0 (by decide)
    show (Hw.mulLane s (2 * 16) (as16 a i <<< 8) ((as16 P i &&& 0x00ff) <<< 1)).extractLsb' 16 16 = _
    rw [(hP i).1, twoPow_shl1, mulhi_pow s _ (by omega) (by intro; omega)]
    congr 1; omega
  · have hb0 := hb i 1 (by decide)
    show (Hw.mulLane s (2 * 16) (as16 a i &&& ~~~0x00ff) ((as16 P i >>> 8) <<< 1)).extractLsb' 16 16 = _
    rw [(hP i).2, twoPow_shl1, mulhi_pow s _ (by omega) (by intro; omega)]
    congr 1; omega

theorem emul_shift_r_u8_mul_eq (hs : c.sse2 = true → c.ssse3 = true) :
    emul_shift_r_u8_using_mul c r a k = some (fun i => bshr false (a i) (k i).toNat) := by
  obtain ⟨hr', hn', hn2, hn3, hb⟩ := l8_facts h hr hn k hk
  unfold emul_shift_r_u8_using_mul
  refine (bind_of (shr8Products_eq h hr hn a k hk hs false) _).trans ?_
  refine (bind_of (shift_l_imm_eq h iw16 hr' hn3 _ (by decide)) _).trans ?_
  refine (bind_of (i_bit_or_eq h (k := .int) iw16 hr' _ _) _).trans ?_
  refine congrArg some (of16_eq (f := fun x k => bshr false x k) hn2 hk fun i h0 h1 => ?_)
  exact u8_mul (as16 a i) h0 h1

theorem emul_shift_r_i8_mul_eq (hs : c.sse2 = true → c.ssse3 = true) :
    emul_shift_r_i8_using_mul c r a k = some (fun i => bshr true (a i) (k i).toNat) := by
  obtain ⟨hr', hn', hn2, hn3, hb⟩ := l8_facts h hr hn k hk
  unfold emul_shift_r_i8_using_mul
  refine (bind_of (shr8Products_eq h hr hn a k hk hs true) _).trans ?_
  refine (bind_of (shift_l_imm_eq h iw16 hr' hn3 _ (by decide)) _).trans ?_
  refine (bind_of (i_bit_and_eq h (k := .int) iw16 hr' _ _) _).trans ?_
  refine (bind_of (i_bit_or_eq h (k := .int) iw16 hr' _ _) _).trans ?_
  refine congrArg some (of16_eq (f := fun x k => bshr true x k) hn2 hk fun i h0 h1 => ?_)
  exact i8_mul (as16 a i) h0 h1

theorem i_shift_l_v8_eq (hc : c.hasShiftLV 8) : i_shift_l_v8 c r a k = some (fun i => a i <<< (k i).toNat) := by
  have hs := lv_ssse3 h hc
  unfold i_shift_l_v8
  cases r
  case r512 => exact (if_pos hr).trans (emul_shift_l_v8_v16_eq h hr hn a k hk hc)
  case r256 =>
    refine (if_pos hr).trans ?_
    split_ifs
    · exact emul_shift_l_v8_v16_eq h hr hn a k hk hc
    · exact emul_shift_l_v8_mul_eq h hr hn a k hk hs (null_of_avx2 h hr)
  dsimp only
  by_cases g1 : c.null = true
  · rw [if_pos g1]; exact Null.shift_l_v_eq hk isW8
  rw [if_neg g1]
  split_ifs with g2 g3 g4 g5 g6
  · exact emul_shift_l_v8_v16_eq h hr hn a k hk hc
  · exact emul_shift_l_v8_mul_eq h hr hn a k hk hs (by simpa using g1)
  · exact congrArg some (vshl_u_eq hk isW8)
  · exact congrArg some (sl_mod_eq hk)
  · exact congrArg some (sl_mod_eq hk)
  · simp only [Cfg.hasShiftLV] at hc
    clear hr hk hn a k; cfg_absurd h

theorem i_shift_r_v8_eq (s : Bool) (hc : c.hasShiftRV s 8) :
    i_shift_r_v8 c s r a k = some (fun i => bshr s (a i) (k i).toNat) := by
  have hc' : c.null = true ∨ c.ssse3 = true ∨ c.neon = true ∨ c.altivec = true ∨ c.msa = true := by
    simpa [Cfg.hasShiftRV] using hc
  have hs := lv_ssse3 h hc'
  have hcu : c.hasShiftRV false 16 := by simpa [Cfg.hasShiftRV] using hc'
  have v16 : c.avx512bw = true → (if s then emul_shift_r_i8_using_v16 c r a k else emul_shift_r_u8_using_v16 c r a k) =
      some (fun i => bshr s (a i) (k i).toNat) := fun g => by
    cases s
    · exact emul_shift_r_u8_v16_eq h hr hn a k hk hcu
    · exact emul_shift_r_i8_v16_eq h hr hn a k hk (by simp [Cfg.hasShiftRV, g])
  have mul : (if s then emul_shift_r_i8_using_mul c r a k else emul_shift_r_u8_using_mul c r a k) =
      some (fun i => bshr s (a i) (k i).toNat) := by
    cases s
    · exact emul_shift_r_u8_mul_eq h hr hn a k hk hs
    · exact emul_shift_r_i8_mul_eq h hr hn a k hk hs
  unfold i_shift_r_v8
  cases r
  case r512 => exact (if_pos hr).trans (v16 hr)
  case r256 =>
    refine (if_pos hr).trans ?_
    by_cases g : c.avx512bw = true ∧ c.avx512vl = true
    · exact (if_pos g).trans (v16 g.1)
    · exact (if_neg g).trans mul
  dsimp only
  by_cases g1 : c.null = true
  · rw [if_pos g1]; exact Null.shift_r_v_eq hk isW8 s
  rw [if_neg g1]
  by_cases g : c.avx512bw = true ∧ c.avx512vl = true
  · exact (if_pos g).trans (v16 g.1)
  rw [if_neg g]
  by_cases g3 : c.ssse3 = true
  · exact (if_pos g3).trans mul
  rw [if_neg g3]
  by_cases g4 : c.neon = true
  · exact (if_pos g4).trans (neonShrV_eq hk h g4 isW8 s)
  rw [if_neg g4]
  split_ifs with g5 g6
  · exact congrArg some (modShr_eq hk s)
  · exact congrArg some (modShr_eq hk s)
  · clear v16 mul hc hr hk hn a k; cfg_absurd h

end v8
end
end Simdpp
