import Verif.Props.PopcntLemmas
import Verif.Props.Split

/-!
# C08: population count
-/

namespace Simdpp
open Spec Sh Swar

variable {w v n N : Nat}

/-! ## Portable code -/

section nat
open C
variable (hw : IsW w)
include hw

theorem inR_prom {x : Nat} (hx : x < 2 ^ w) : InR (promTy ⟨false, w⟩) (x : Int) := by
  rcases hw with e | e | e | e <;> subst e
  · rw [show promTy ⟨false, 8⟩ = int32 by decide]; inr
  · rw [show promTy ⟨false, 16⟩ = int32 by decide]; inr
  · rw [show promTy ⟨false, 32⟩ = uint32 by decide]; inr
  · rw [show promTy ⟨false, 64⟩ = uint64 by decide]; inr

theorem prom_pos : 0 < (promTy ⟨false, w⟩).bits := by rcases hw with e | e | e | e <;> subst e <;> decide
theorem prom_ge : w ≤ (promTy ⟨false, w⟩).bits := by rcases hw with e | e | e | e <;> subst e <;> decide

theorem nshr {x k : Nat} (hx : x < 2 ^ w) (hk : k < w) :
    C.shr ⟨⟨false, w⟩, (x : Int)⟩ ⟨int32, (k : Int)⟩ = some ⟨promTy ⟨false, w⟩, ((x >>> k : Nat) : Int)⟩ := by
  have h64 : w ≤ 64 := by rcases hw with e | e | e | e <;> omega
  rw [shr_inR (k := k) rfl (prom_pos hw) (inR_prom hw hx) (Nat.lt_of_lt_of_le hk (prom_ge hw))
    (by rw [show promTy int32 = int32 by decide]; inr) (by decide)]
  rw [Nat.shiftRight_eq_div_pow]; push_cast; rfl

theorem nsub {s t : Ty} (hu : usual s t = promTy ⟨false, w⟩) {x y : Nat} (hx : x < 2 ^ w) (hy : y ≤ x) :
    C.sub ⟨s, (x : Int)⟩ ⟨t, (y : Int)⟩ = some ⟨promTy ⟨false, w⟩, ((x - y : Nat) : Int)⟩ := by
  rw [Int.ofNat_sub hy]
  refine sub_inR hu (prom_pos hw) (inR_prom hw hx) (inR_prom hw (by omega)) ?_
  rw [← Int.ofNat_sub hy]; exact inR_prom hw (by omega)

theorem nadd {s t : Ty} (hu : usual s t = promTy ⟨false, w⟩) {x y : Nat} (hxy : x + y < 2 ^ w) :
    C.add ⟨s, (x : Int)⟩ ⟨t, (y : Int)⟩ = some ⟨promTy ⟨false, w⟩, ((x + y : Nat) : Int)⟩ := by
  rw [Int.natCast_add]
  refine add_inR hu (prom_pos hw) (inR_prom hw (by omega)) (inR_prom hw (by omega)) ?_
  rw [← Int.natCast_add]; exact inR_prom hw hxy

theorem nband {s t : Ty} (hu : usual s t = promTy ⟨false, w⟩) {x y : Nat} (hx : x < 2 ^ w) (hy : y < 2 ^ w) :
    C.band ⟨s, (x : Int)⟩ ⟨t, (y : Int)⟩ = ⟨promTy ⟨false, w⟩, ((x &&& y : Nat) : Int)⟩ := by
  unfold C.band
  dsimp only
  rw [hu]
  have hle : 2 ^ w ≤ 2 ^ (promTy ⟨false, w⟩).bits := Nat.pow_le_pow_right (by decide) (prom_ge hw)
  have hxy : x &&& y < 2 ^ w := Nat.lt_of_le_of_lt Nat.and_le_left hx
  have e : (bitsOf (promTy ⟨false, w⟩) x &&& bitsOf (promTy ⟨false, w⟩) y).toNat = x &&& y := by
    unfold bitsOf
    rw [BitVec.toNat_and, BitVec.ofInt_natCast, BitVec.ofInt_natCast, BitVec.toNat_ofNat, BitVec.toNat_ofNat,
      Nat.mod_eq_of_lt (by omega), Nat.mod_eq_of_lt (by omega)]
  unfold valOf
  congr 1
  split_ifs with g
  · rw [BitVec.toInt_eq_toNat_of_lt, e]
    rw [e]
    rcases hw with h8 | h8 | h8 | h8 <;> subst h8
    · show 2 * (x &&& y) < 2 ^ 32; omega
    · show 2 * (x &&& y) < 2 ^ 32; omega
    · exact absurd g (by decide)
    · exact absurd g (by decide)
  · rw [e]

theorem ncast {t : Ty} {x : Nat} (hx : x < 2 ^ w) : C.cast ⟨false, w⟩ ⟨t, (x : Int)⟩ = ⟨⟨false, w⟩, (x : Int)⟩ := by
  refine cast_inR (isW_pos hw) ?_
  constructor
  · simp [Ty.min]
  · simp only [Ty.max, Bool.false_eq_true, if_false]
    have : (x : Int) < 2 ^ w := by exact_mod_cast hx
    omega

theorem usual_uu : usual ⟨false, w⟩ ⟨false, w⟩ = promTy ⟨false, w⟩ ∧ usual (promTy ⟨false, w⟩) ⟨false, w⟩ = promTy ⟨false, w⟩ ∧
    usual ⟨false, w⟩ (promTy ⟨false, w⟩) = promTy ⟨false, w⟩ ∧ usual (promTy ⟨false, w⟩) (promTy ⟨false, w⟩) = promTy ⟨false, w⟩ := by
  rcases hw with e | e | e | e <;> subst e <;> decide

theorem Null.swar_eq {k : Nat} (hk : w = 8 * k) {m55 m33 m0f : Nat} (h55 : m55 = rep 0x55 k) (h33 : m33 = rep 0x33 k)
    (h0f : m0f = rep 15 k) (hm : m55 < 2 ^ w ∧ m33 < 2 ^ w ∧ m0f < 2 ^ w) {x : Nat} (hx : x < 2 ^ w) :
    Null.swar w m55 m33 m0f ⟨⟨false, w⟩, (x : Int)⟩ = some ⟨⟨false, w⟩, (bmap (cnt 8) k x : Int)⟩ ∧ bmap (cnt 8) k x < 2 ^ w := by
  obtain ⟨u1, u2, u3, u4⟩ := usual_uu hw
  have hw4 : 4 < w := by rcases hw with e | e | e | e <;> omega
  have hp : 2 ^ w = 256 ^ k := by rw [hk, Nat.pow_mul]
  have ea := Swar.swar (k := k) (x := x) (by rw [← hp]; exact hx)
  dsimp only at ea
  rw [← h55, ← h33, ← h0f, ← hp] at ea
  obtain ⟨⟨e1, e2⟩, e3, e4, e5⟩ := ea
  have hsh : ∀ y s : Nat, y < 2 ^ w → y >>> s < 2 ^ w := fun y s hy => Nat.lt_of_le_of_lt (Nat.shiftRight_le _ _) hy
  have hand : ∀ y m : Nat, y < 2 ^ w → y &&& m < 2 ^ w := fun y m hy => Nat.lt_of_le_of_lt Nat.and_le_left hy
  have n1 : ∀ y : Nat, y < 2 ^ w → C.shr ⟨⟨false, w⟩, (y : Int)⟩ ⟨int32, 1⟩ = some ⟨promTy ⟨false, w⟩, ((y >>> 1 : Nat) : Int)⟩ :=
    fun y hy => nshr hw hy (k := 1) (by omega)
  have n2 : ∀ y : Nat, y < 2 ^ w → C.shr ⟨⟨false, w⟩, (y : Int)⟩ ⟨int32, 2⟩ = some ⟨promTy ⟨false, w⟩, ((y >>> 2 : Nat) : Int)⟩ :=
    fun y hy => nshr hw hy (k := 2) (by omega)
  have n4 : ∀ y : Nat, y < 2 ^ w → C.shr ⟨⟨false, w⟩, (y : Int)⟩ ⟨int32, 4⟩ = some ⟨promTy ⟨false, w⟩, ((y >>> 4 : Nat) : Int)⟩ :=
    fun y hy => nshr hw hy (k := 4) (by omega)
  refine ⟨?_, by rw [← e5]; exact hand _ _ e4⟩
  unfold Null.swar
  dsimp only
  rw [n1 x hx, Option.bind_eq_bind, Option.bind_some, nband hw u2 (hsh _ _ hx) hm.1, nsub hw u3 hx e1, Option.bind_some, ncast hw e2, n2 _ e2, Option.bind_some, nband hw u1 e2 hm.2.1,
    nband hw u2 (hsh _ _ e2) hm.2.1, nadd hw u4 e3, Option.bind_some, ncast hw e3, n4 _ e3, Option.bind_some, nadd hw u3 e4, Option.bind_some, nband hw u2 e4 hm.2.2, ncast hw (hand _ _ e4), e5]

end nat

theorem Null.popcnt_eq {f : C.Val → Option C.Val} (hf : ∀ x : BitVec w, (f (C.lane false x)).map (C.toLane w) = some (pcLane w x))
    (a : Vec w n) : Null.popcnt f a = some (fun i => pcLane w (a i)) :=
  lanesM_eq_some.2 fun i => hf (a i)

theorem toLane_nat (t : C.Ty) (x : Nat) : C.toLane w ⟨t, (x : Int)⟩ = BitVec.ofNat w x := by
  unfold C.toLane; exact BitVec.ofInt_natCast w x

theorem el_popcnt8_eq (x : BitVec 8) : (Null.el_popcnt8 (C.lane false x)).map (C.toLane 8) = some (pcLane 8 x) := by
  have e := (Null.swar_eq isW8 (k := 1) rfl (m55 := 0x55) (m33 := 0x33) (m0f := 0x0f) rfl rfl rfl (by decide) x.isLt).1
  unfold Null.el_popcnt8
  refine (congrArg (Option.map (C.toLane 8)) e).trans ?_
  rw [Option.map_some, toLane_nat]
  unfold pcLane
  rw [popcount_cnt]
  congr 2
  simp only [bmap, Nat.mul_zero, Nat.add_zero, Nat.mod_eq_of_lt x.isLt]

theorem rep_lit16 : 0x5555 = rep 0x55 2 ∧ 0x3333 = rep 0x33 2 ∧ 0x0f0f = rep 15 2 := by simp [rep]

theorem el_popcnt16_tail {p q : Nat} (hb : p < 2 ^ 16) (ea : p + p >>> 8 < 2 ^ 16) (hq : (p + p >>> 8) &&& 255 = q) :
    ((C.shr ⟨⟨false, 16⟩, (p : Int)⟩ ⟨C.int32, 8⟩).bind fun t => (C.add ⟨⟨false, 16⟩, (p : Int)⟩ t).bind fun u =>
      some (C.cast ⟨false, 16⟩ (C.band (C.cast ⟨false, 16⟩ u) ⟨C.int32, 255⟩))) = some ⟨⟨false, 16⟩, (q : Int)⟩ := by
  have n8 : C.shr ⟨⟨false, 16⟩, (p : Int)⟩ ⟨C.int32, 8⟩ =
      some ⟨C.promTy ⟨false, 16⟩, ((p >>> 8 : Nat) : Int)⟩ := nshr iw16 (x := p) (k := 8) hb (by decide)
  have nb := nband iw16 (s := ⟨false, 16⟩) (t := C.int32) (by decide) ea (y := 0xff) (by decide)
  rw [n8, Option.bind_some, nadd iw16 (by decide) ea, Option.bind_some, ncast iw16 ea]
  rw [show (255 : Int) = ((255 : Nat) : Int) from rfl, nb, ncast iw16 (Nat.lt_of_le_of_lt Nat.and_le_left ea), hq]

theorem el_popcnt16_def (x : C.Val) : Null.el_popcnt16 x = (Null.swar 16 0x5555 0x3333 0x0f0f x).bind fun y =>
    (C.shr y ⟨C.int32, 8⟩).bind fun t => (C.add y t).bind fun u =>
      some (C.cast ⟨false, 16⟩ (C.band (C.cast ⟨false, 16⟩ u) ⟨C.int32, 255⟩)) := rfl

theorem el_popcnt16_eq (x : BitVec 16) : (Null.el_popcnt16 (C.lane false x)).map (C.toLane 16) = some (pcLane 16 x) := by
  obtain ⟨e, hb⟩ := Null.swar_eq iw16 (k := 2) rfl rep_lit16.1 rep_lit16.2.1 rep_lit16.2.2 (by decide) x.isLt
  have h0 := pc8_le (x.toNat % 256); have h1 := pc8_le (x.toNat / 256 % 256)
  have es := bsum_cnt 2 x.toNat
  rw [show 8 * 2 = 16 by decide] at es
  have ep := bmap2 (cnt 8) x.toNat
  rw [bsum2] at es
  have hl : C.lane false x = ⟨⟨false, 16⟩, (x.toNat : Int)⟩ := rfl
  have ea : bmap (cnt 8) 2 x.toNat + bmap (cnt 8) 2 x.toNat >>> 8 < 2 ^ 16 := by rw [Nat.shiftRight_eq_div_pow]; omega
  have key : (bmap (cnt 8) 2 x.toNat + bmap (cnt 8) 2 x.toNat >>> 8) &&& 255 = popcount x := by
    rw [popcount_cnt, ← es, Nat.shiftRight_eq_div_pow, show (255 : Nat) = 2 ^ 8 - 1 by decide, Nat.and_two_pow_sub_one_eq_mod]
    omega
  rw [hl, el_popcnt16_def, e, Option.bind_some, el_popcnt16_tail hb ea key, Option.map_some, toLane_nat]
  rfl

theorem el_popcnt32_eq (x : BitVec 32) : (Null.el_popcnt32 (C.lane false x)).map (C.toLane 32) = some (pcLane 32 x) := by
  obtain ⟨e, hb⟩ := Null.swar_eq iw32 (k := 4) rfl (m55 := 0x55555555) (m33 := 0x33333333) (m0f := 0x0f0f0f0f) rfl rfl rfl (by decide) x.isLt
  have es := bsum_cnt 4 x.toNat
  rw [bsum4] at es
  have key := (sum32_nat _ _ _ _ (pc8_le (x.toNat % 256)) (pc8_le (x.toNat / 256 % 256)) (pc8_le (x.toNat / 256 / 256 % 256))
    (pc8_le (x.toNat / 256 / 256 / 256 % 256)) (bmap4 _ _) rfl rfl).2
  rw [es] at key
  unfold Null.el_popcnt32
  refine (congrArg (fun t => Option.map (C.toLane 32) (t >>= _)) e).trans ?_
  simp only [Option.bind_eq_bind, Option.bind_some]
  generalize bmap (cnt 8) 4 x.toNat = p at *
  have em : C.mul ⟨⟨false, 32⟩, (p : Int)⟩ ⟨C.int32, 0x01010101⟩ = some ⟨C.uint32, ((p * 0x01010101 % 2 ^ 32 : Nat) : Int)⟩ := by
    unfold C.mul
    dsimp only
    rw [show C.usual ⟨false, 32⟩ C.int32 = C.uint32 by decide, C.arith_u32, C.wrap_u32 (by omega) (by omega),
      C.wrap_u32 (by omega) (by omega)]
    push_cast; rfl
  rw [em, Option.bind_some]
  have hq : p * 0x01010101 % 2 ^ 32 < 2 ^ 32 := Nat.mod_lt _ (by decide)
  have n : C.shr ⟨C.uint32, ((p * 0x01010101 % 2 ^ 32 : Nat) : Int)⟩ ⟨C.int32, 24⟩ =
      some ⟨C.promTy ⟨false, 32⟩, (((p * 0x01010101 % 2 ^ 32) >>> 24 : Nat) : Int)⟩ := nshr iw32 (x := p * 0x01010101 % 2 ^ 32) (k := 24) hq (by decide)
  rw [Nat.shiftRight_eq_div_pow, key] at n
  rw [n]
  have h64 := cnt_lt (8 * 4) x.toNat
  rw [Option.bind_some, ncast iw32 (by omega), Option.map_some, toLane_nat]
  rfl

theorem el_popcnt64_eq (x : BitVec 64) : (Null.el_popcnt64 (C.lane false x)).map (C.toLane 64) = some (pcLane 64 x) := by
  obtain ⟨e, hb⟩ := Null.swar_eq iw64 (k := 8) rfl (m55 := 0x5555555555555555) (m33 := 0x3333333333333333) (m0f := 0x0f0f0f0f0f0f0f0f)
    rfl rfl rfl (by decide) x.isLt
  have es := bsum_cnt 8 x.toNat
  rw [bsum8] at es
  have key := (sum64_nat _ _ _ _ _ _ _ _ (pc8_le _) (pc8_le _) (pc8_le _) (pc8_le _) (pc8_le _) (pc8_le _) (pc8_le _) (pc8_le _)
    (bmap8 (cnt 8) x.toNat) rfl rfl rfl).2
  rw [es] at key
  unfold Null.el_popcnt64
  refine (congrArg (fun t => Option.map (C.toLane 64) (t >>= _)) e).trans ?_
  simp only [Option.bind_eq_bind, Option.bind_some]
  generalize bmap (cnt 8) 8 x.toNat = p at *
  have em : C.mul ⟨⟨false, 64⟩, (p : Int)⟩ ⟨C.int64, 0x0101010101010101⟩ = some ⟨C.uint64, ((p * 0x0101010101010101 % 2 ^ 64 : Nat) : Int)⟩ := by
    unfold C.mul
    dsimp only
    rw [show C.usual ⟨false, 64⟩ C.int64 = C.uint64 by decide, C.arith_u64, C.wrap_u64 (by omega) (by omega),
      C.wrap_u64 (by omega) (by omega)]
    push_cast; rfl
  rw [em, Option.bind_some]
  have hq : p * 0x0101010101010101 % 2 ^ 64 < 2 ^ 64 := Nat.mod_lt _ (by decide)
  have n : C.shr ⟨C.uint64, ((p * 0x0101010101010101 % 2 ^ 64 : Nat) : Int)⟩ ⟨C.int32, 56⟩ =
      some ⟨C.promTy ⟨false, 64⟩, (((p * 0x0101010101010101 % 2 ^ 64) >>> 56 : Nat) : Int)⟩ := nshr iw64 (x := p * 0x0101010101010101 % 2 ^ 64) (k := 56) hq (by decide)
  rw [Nat.shiftRight_eq_div_pow, key] at n
  rw [n]
  have h64 := cnt_lt (8 * 8) x.toNat
  rw [Option.bind_some, ncast iw64 (by omega), Option.map_some, toLane_nat]
  rfl

end Simdpp
