import Verif.Model.Popcnt
import Verif.Props.Swar
import Verif.Props.MulPub

/-! Lemmas about population count. -/

namespace Simdpp
open Spec Sh Swar

variable {w v n N : Nat}

theorem popcount_cnt (x : BitVec w) : popcount x = cnt w x.toNat := rfl

theorem bitCount_eq (x : BitVec w) : Hw.bitCount x = popcount x := by
  unfold Hw.bitCount popcount
  have key : ∀ (l : List Nat) (s : Nat), l.foldl (fun s k => s + (x.getLsbD k).toNat) s = s + (l.filter (fun k => x.getLsbD k)).length := by
    intro l
    induction l with
    | nil => intro s; rfl
    | cons k l ih =>
      intro s
      rw [List.foldl_cons, ih, List.filter_cons]
      cases x.getLsbD k <;> simp <;> omega
  rw [key, Nat.zero_add]

theorem popcount_le (x : BitVec w) : popcount x ≤ w := cnt_lt w x.toNat

/-- The lane that holds the count of `x`. -/
def pcLane (v : Nat) (x : BitVec w) : BitVec v := BitVec.ofNat v (popcount x)

theorem popcnt_eq (x : BitVec w) : Hw.popcnt v x = pcLane v x := by
  unfold Hw.popcnt pcLane; rw [bitCount_eq]

theorem vcnt_eq (a : Vec w n) : Hw.vcnt a = fun i => pcLane w (a i) := funext fun i => popcnt_eq (a i)

theorem pcLane_toNat (hw : w ≤ 64) (hv : 8 ≤ v) (x : BitVec w) : (pcLane v x).toNat = popcount x := by
  unfold pcLane
  rw [BitVec.toNat_ofNat]
  have h1 := popcount_le x
  have h2 : 2 ^ 8 ≤ 2 ^ v := Nat.pow_le_pow_right (by decide) hv
  exact Nat.mod_eq_of_lt (by omega)

section
variable {c : Cfg} (h : c.Ok)
include h

/-- The three steps, lane by lane. -/
theorem emulSwar_eq (hw : IsW w) {r : Reg} (hr : c.hasInt w r = true) (hn : n % 2 = 0) {k : Nat} (hk : w = 8 * k)
    {m55 m33 m0f : BitVec w} (h55 : m55.toNat = rep 0x55 k) (h33 : m33.toNat = rep 0x33 k) (h0f : m0f.toNat = rep 15 k) (a : Vec w n) :
    ∃ res, emulSwar c r m55 m33 m0f a = some res ∧ ∀ i, (res i).toNat = bmap (cnt 8) k (a i).toNat := by
  have hw4 : 4 < w := by rcases hw with e | e | e | e <;> omega
  have hp : 2 ^ w = 256 ^ k := by rw [hk, Nat.pow_mul]
  unfold emulSwar
  simp only [shift_r_imm_eq h false hw hr hn _ (show 1 < w by omega), shift_r_imm_eq h false hw hr hn _ (show 2 < w by omega),
    shift_r_imm_eq h false hw hr hn _ (show 4 < w by omega), i_bit_and_eq h (k := .int) hw hr, i_isub_eq h hw hr, i_iadd_eq h hw hr,
    Option.bind_eq_bind, Option.bind_some]
  refine ⟨_, rfl, fun i => ?_⟩
  have hx : (a i).toNat < 256 ^ k := by rw [← hp]; exact (a i).isLt
  generalize a i = x at *
  have es : ∀ (y : BitVec w) (s : Nat), (bshr false y s).toNat = y.toNat >>> s := fun y s => by
    simp [bshr]
  have ea := swar hx
  dsimp only at ea
  obtain ⟨⟨e1, e2⟩, e3, e4, e5⟩ := ea
  have t1 : (x - (bshr false x 1 &&& m55)).toNat = x.toNat - ((x.toNat >>> 1) &&& rep 0x55 k) := by
    rw [BitVec.toNat_sub_of_le (by rw [BitVec.le_def, BitVec.toNat_and, es, h55]; exact e1), BitVec.toNat_and, es, h55]
  show (((((x - (bshr false x 1 &&& m55)) &&& m33) + (bshr false (x - (bshr false x 1 &&& m55)) 2 &&& m33)) +
    bshr false (((x - (bshr false x 1 &&& m55)) &&& m33) + (bshr false (x - (bshr false x 1 &&& m55)) 2 &&& m33)) 4) &&& m0f).toNat = _
  have t2 : (((x - (bshr false x 1 &&& m55)) &&& m33) + (bshr false (x - (bshr false x 1 &&& m55)) 2 &&& m33)).toNat =
      ((x.toNat - ((x.toNat >>> 1) &&& rep 0x55 k)) &&& rep 0x33 k) +
        (((x.toNat - ((x.toNat >>> 1) &&& rep 0x55 k)) >>> 2) &&& rep 0x33 k) := by
    rw [BitVec.toNat_add_of_lt, BitVec.toNat_and, BitVec.toNat_and, es, t1, h33]
    rw [BitVec.toNat_and, BitVec.toNat_and, es, t1, h33, hp]
    exact e3
  rw [BitVec.toNat_and, BitVec.toNat_add_of_lt, es, t2, h0f, e5]
  rw [es, t2, hp]
  exact e4

theorem addShr_eq (hw : IsW w) {r : Reg} (hr : c.hasInt w r = true) (hn : n % 2 = 0) {s : Nat} (hs : s < w) (a : Vec w n) :
    addShr c r s a = some (fun i => a i + bshr false (a i) s) := by
  unfold addShr
  rw [shift_r_imm_eq h false hw hr hn _ hs, Option.bind_eq_bind, Option.bind_some, i_iadd_eq h hw hr]

end

theorem pc8_le (b : Nat) : cnt 8 b ≤ 8 := cnt_lt 8 b

theorem bmap2 (f : Nat → Nat) (x : Nat) : bmap f 2 x = f (x % 256) + 256 * f (x / 256 % 256) := by simp [bmap]
theorem bmap4 (f : Nat → Nat) (x : Nat) : bmap f 4 x = f (x % 256) + 256 * (f (x / 256 % 256) + 256 * (f (x / 256 / 256 % 256) +
    256 * f (x / 256 / 256 / 256 % 256))) := by simp [bmap]
theorem bsum2 (f : Nat → Nat) (x : Nat) : bsum f 2 x = f (x % 256) + f (x / 256 % 256) := by simp [bsum]
theorem bsum4 (f : Nat → Nat) (x : Nat) : bsum f 4 x = f (x % 256) + (f (x / 256 % 256) + (f (x / 256 / 256 % 256) +
    f (x / 256 / 256 / 256 % 256))) := by simp [bsum]

theorem bshr_toNat (y : BitVec w) (s : Nat) : (bshr false y s).toNat = y.toNat / 2 ^ s := by
  simp [bshr, Nat.shiftRight_eq_div_pow]

/-- Sum of two bytes. -/
theorem sum16 {x p : BitVec 16} (e : p.toNat = bmap (cnt 8) 2 x.toNat) : (p + bshr false p 8) &&& 0x00ff = pcLane 16 x := by
  apply BitVec.eq_of_toNat_eq
  rw [pcLane_toNat (by decide) (by decide), popcount_cnt, ← bsum_cnt 2, bsum2, BitVec.toNat_and, BitVec.toNat_add, bshr_toNat, e, bmap2]
  have h0 := pc8_le (x.toNat % 256); have h1 := pc8_le (x.toNat / 256 % 256)
  rw [show (0x00ff : BitVec 16).toNat = 2 ^ 8 - 1 by decide, Nat.and_two_pow_sub_one_eq_mod]
  omega

theorem sum32_nat (b0 b1 b2 b3 : Nat) (h0 : b0 ≤ 8) (h1 : b1 ≤ 8) (h2 : b2 ≤ 8) (h3 : b3 ≤ 8) {p q r : Nat}
    (ep : p = b0 + 256 * (b1 + 256 * (b2 + 256 * b3))) (eq : q = (p + p / 2 ^ 8) % 2 ^ 32) (er : r = (q + q / 2 ^ 16) % 2 ^ 32) :
    r % 2 ^ 8 = b0 + (b1 + (b2 + b3)) ∧ p * 0x01010101 % 2 ^ 32 / 2 ^ 24 = b0 + (b1 + (b2 + b3)) := by
  constructor
  · have d1 : p / 2 ^ 8 = b1 + 256 * (b2 + 256 * b3) := by omega
    have q1 : q = (b0 + b1 + 256 * (b1 + b2)) + 65536 * (b2 + b3 + 256 * b3) := by
      rw [eq, d1, ep, Nat.mod_eq_of_lt (by omega)]; ring
    have d2 : q / 2 ^ 16 = b2 + b3 + 256 * b3 := by omega
    have r1 : r = (b0 + (b1 + (b2 + b3))) + 256 * ((b1 + b2) + b3 + 256 * (b2 + b3 + 256 * b3)) := by
      rw [er, d2, q1, Nat.mod_eq_of_lt (by omega)]; ring
    omega
  · have e : p * 0x01010101 = (b0 + 256 * (b0 + b1) + 65536 * (b0 + b1 + b2)) + 2 ^ 24 * (b0 + (b1 + (b2 + b3))) +
        2 ^ 32 * ((b1 + b2 + b3) + 256 * (b2 + b3) + 65536 * b3) := by rw [ep]; ring
    rw [e, Nat.add_mul_mod_self_left, Nat.mod_eq_of_lt (by omega), Nat.add_mul_div_left _ _ (by decide)]
    omega

theorem sum32 {x p : BitVec 32} (e : p.toNat = bmap (cnt 8) 4 x.toNat) :
    (p + bshr false p 8 + bshr false (p + bshr false p 8) 16) &&& 0x000000ff = pcLane 32 x ∧
    bshr false (p * 0x01010101) 24 = pcLane 32 x := by
  rw [bmap4] at e
  have key := sum32_nat _ _ _ _ (pc8_le (x.toNat % 256)) (pc8_le (x.toNat / 256 % 256)) (pc8_le (x.toNat / 256 / 256 % 256))
    (pc8_le (x.toNat / 256 / 256 / 256 % 256)) e rfl rfl
  constructor <;> apply BitVec.eq_of_toNat_eq <;> rw [pcLane_toNat (by decide) (by decide), popcount_cnt, ← bsum_cnt 4, bsum4]
  · rw [BitVec.toNat_and, BitVec.toNat_add, bshr_toNat, BitVec.toNat_add, bshr_toNat,
      show (0x000000ff : BitVec 32).toNat = 2 ^ 8 - 1 by decide, Nat.and_two_pow_sub_one_eq_mod]
    exact key.1
  · rw [bshr_toNat, BitVec.toNat_mul, show (0x01010101 : BitVec 32).toNat = 0x01010101 by decide]
    exact key.2

theorem bmap8 (f : Nat → Nat) (x : Nat) : bmap f 8 x = f (x % 256) + 256 * (f (x / 256 % 256) + 256 * (f (x / 256 / 256 % 256) +
    256 * (f (x / 256 / 256 / 256 % 256) + 256 * (f (x / 256 / 256 / 256 / 256 % 256) +
    256 * (f (x / 256 / 256 / 256 / 256 / 256 % 256) + 256 * (f (x / 256 / 256 / 256 / 256 / 256 / 256 % 256) +
    256 * f (x / 256 / 256 / 256 / 256 / 256 / 256 / 256 % 256))))))) := by simp [bmap]
theorem bsum8 (f : Nat → Nat) (x : Nat) : bsum f 8 x = f (x % 256) + (f (x / 256 % 256) + (f (x / 256 / 256 % 256) +
    (f (x / 256 / 256 / 256 % 256) + (f (x / 256 / 256 / 256 / 256 % 256) +
    (f (x / 256 / 256 / 256 / 256 / 256 % 256) + (f (x / 256 / 256 / 256 / 256 / 256 / 256 % 256) +
    f (x / 256 / 256 / 256 / 256 / 256 / 256 / 256 % 256))))))) := by simp [bsum]

theorem sum64_nat (b0 b1 b2 b3 b4 b5 b6 b7 : Nat) (h0 : b0 ≤ 8) (h1 : b1 ≤ 8) (h2 : b2 ≤ 8) (h3 : b3 ≤ 8) (h4 : b4 ≤ 8)
    (h5 : b5 ≤ 8) (h6 : b6 ≤ 8) (h7 : b7 ≤ 8) {p q r s : Nat}
    (ep : p = b0 + 256 * (b1 + 256 * (b2 + 256 * (b3 + 256 * (b4 + 256 * (b5 + 256 * (b6 + 256 * b7)))))))
    (eq : q = (p + p / 2 ^ 8) % 2 ^ 64) (er : r = (q + q / 2 ^ 16) % 2 ^ 64) (es : s = (r + r / 2 ^ 32) % 2 ^ 64) :
    s % 2 ^ 8 = b0 + (b1 + (b2 + (b3 + (b4 + (b5 + (b6 + b7)))))) ∧
    p * 0x0101010101010101 % 2 ^ 64 / 2 ^ 56 = b0 + (b1 + (b2 + (b3 + (b4 + (b5 + (b6 + b7)))))) := by
  constructor
  · obtain ⟨R, hR⟩ : ∃ R, R = b1 + 256 * (b2 + 256 * (b3 + 256 * (b4 + 256 * (b5 + 256 * (b6 + 256 * b7))))) := ⟨_, rfl⟩
    have hRb : R < 9 * 2 ^ 48 := by clear ep eq er es; omega
    have d1 : p / 2 ^ 8 = R := by rw [ep, ← hR]; clear ep eq er es hR; omega
    have q1 : q = (b0 + b1 + 256 * (b1 + b2)) + 65536 * (b2 + b3 + 256 * (b3 + b4 + 256 * (b4 + b5 + 256 * (b5 + b6 + 256 * (b6 + b7 + 256 * b7))))) := by
      rw [eq, d1, ep, ← hR, Nat.mod_eq_of_lt (by clear ep eq er es hR; omega), hR]; ring
    obtain ⟨H, hH⟩ : ∃ H, H = b2 + b3 + 256 * (b3 + b4 + 256 * (b4 + b5 + 256 * (b5 + b6 + 256 * (b6 + b7 + 256 * b7)))) := ⟨_, rfl⟩
    have hHb : H < 40 * 2 ^ 40 := by clear ep eq er es d1 hRb q1 hR; omega
    have d2 : q / 2 ^ 16 = H := by rw [q1, ← hH]; clear ep eq er es hR hH q1; omega
    have r1 : r = (b0 + b1 + b2 + b3 + 256 * (b1 + b2 + b3 + b4 + 256 * (b2 + b3 + b4 + b5 + 256 * (b3 + b4 + b5 + b6)))) +
        2 ^ 32 * (b4 + b5 + b6 + b7 + 256 * (b5 + b6 + b7 + 256 * (b6 + b7 + 256 * b7))) := by
      rw [er, d2, q1, ← hH, Nat.mod_eq_of_lt (by clear ep eq er es hR hH q1 d1 d2; omega), hH]; ring
    obtain ⟨G, hG⟩ : ∃ G, G = b4 + b5 + b6 + b7 + 256 * (b5 + b6 + b7 + 256 * (b6 + b7 + 256 * b7)) := ⟨_, rfl⟩
    obtain ⟨L, hL⟩ : ∃ L, L = b1 + b2 + b3 + b4 + 256 * (b2 + b3 + b4 + b5 + 256 * (b3 + b4 + b5 + b6)) := ⟨_, rfl⟩
    rw [← hG, ← hL] at r1
    have hGb : G < 40 * 2 ^ 24 := by clear ep eq er es d1 hRb q1 hR d2 hHb hH r1 hL; omega
    have hLb : L < 40 * 2 ^ 16 := by clear ep eq er es d1 hRb q1 hR d2 hHb hH r1 hG hGb; omega
    have d3 : r / 2 ^ 32 = G := by clear ep eq er es d1 hRb q1 hR d2 hHb hH hG hL; omega
    have s1 : s = b0 + b1 + b2 + b3 + 256 * L + 2 ^ 32 * G + G := by
      rw [es, d3, r1, Nat.mod_eq_of_lt (by clear ep eq er es d1 hRb q1 hR d2 hHb hH hG hL r1 d3; omega)]
    clear ep eq er es d1 hRb q1 hR d2 hHb hH hL r1 d3 hGb hLb
    omega
  · obtain ⟨M, hM⟩ : ∃ M, M = (b1 + b2 + b3 + b4 + b5 + b6 + b7) + 256 * ((b2 + b3 + b4 + b5 + b6 + b7) + 256 * ((b3 + b4 + b5 + b6 + b7) +
      256 * ((b4 + b5 + b6 + b7) + 256 * ((b5 + b6 + b7) + 256 * ((b6 + b7) + 256 * b7))))) := ⟨_, rfl⟩
    obtain ⟨L, hL⟩ : ∃ L, L = b0 + 256 * (b0 + b1 + 256 * (b0 + b1 + b2 + 256 * (b0 + b1 + b2 + b3 + 256 * (b0 + b1 + b2 + b3 + b4 +
      256 * (b0 + b1 + b2 + b3 + b4 + b5 + 256 * (b0 + b1 + b2 + b3 + b4 + b5 + b6)))))) := ⟨_, rfl⟩
    have hLb : L < 2 ^ 56 := by clear ep eq er es hM; omega
    have e : p * 0x0101010101010101 = L + 2 ^ 56 * (b0 + (b1 + (b2 + (b3 + (b4 + (b5 + (b6 + b7))))))) + 2 ^ 64 * M := by
      rw [ep, hM, hL]; ring
    rw [e, Nat.add_mul_mod_self_left, Nat.mod_eq_of_lt (by clear ep eq er es hM hL e; omega), Nat.add_mul_div_left _ _ (by decide)]
    clear ep eq er es hM hL e; omega

theorem sum64 {x p : BitVec 64} (e : p.toNat = bmap (cnt 8) 8 x.toNat) :
    (p + bshr false p 8 + bshr false (p + bshr false p 8) 16 + bshr false (p + bshr false p 8 + bshr false (p + bshr false p 8) 16) 32) &&&
      0x00000000000000ff = pcLane 64 x ∧ bshr false (p * 0x0101010101010101) 56 = pcLane 64 x := by
  rw [bmap8] at e
  have key := sum64_nat _ _ _ _ _ _ _ _ (pc8_le _) (pc8_le _) (pc8_le _) (pc8_le _) (pc8_le _) (pc8_le _) (pc8_le _) (pc8_le _) e rfl rfl rfl
  constructor <;> apply BitVec.eq_of_toNat_eq <;> rw [pcLane_toNat (by decide) (by decide), popcount_cnt, ← bsum_cnt 8, bsum8]
  · rw [BitVec.toNat_and, BitVec.toNat_add, bshr_toNat, BitVec.toNat_add, bshr_toNat, BitVec.toNat_add, bshr_toNat,
      show (0x00000000000000ff : BitVec 64).toNat = 2 ^ 8 - 1 by decide, Nat.and_two_pow_sub_one_eq_mod]
    exact key.1
  · rw [bshr_toNat, BitVec.toNat_mul, show (0x0101010101010101 : BitVec 64).toNat = 0x0101010101010101 by decide]
    exact key.2

end Simdpp
