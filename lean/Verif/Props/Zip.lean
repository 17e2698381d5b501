import Verif.Model.Zip
import Verif.Props.Shuffle64

/-!
# C17: zip and unzip

On every configuration, element type and number of registers, the four functions are the documented
interleave and de-interleave of each 128-bit block, and the pairs are inverse to each other.
-/

namespace Simdpp
open Spec Sh

variable {w n : Nat}

/-! ## Index functions -/

/-- Interleave. -/
def zipI (w : Nat) (j : Nat) : Nat := if j % 2 = 0 then j / 2 else 128 / w + j / 2
/-- Interleave the high halves. -/
def zipH (w : Nat) (j : Nat) : Nat :=
  if j % 2 = 0 then 128 / w / 2 + j / 2 else 128 / w + 128 / w / 2 + j / 2

theorem gather_swap {L : Nat} (hL : 0 < L) {f g : Nat → Nat} (a b : Vec w n)
    (h : ∀ j, j < L → (f j < L ∧ g j = f j + L) ∨ (L ≤ f j ∧ f j < 2 * L ∧ g j = f j - L)) :
    gather L f b a = gather L g a b := by
  funext i
  unfold gather
  dsimp only
  rcases h _ (Nat.mod_lt i.val hL) with ⟨h1, h2⟩ | ⟨h1, h2, h3⟩
  · rw [if_pos h1, h2, if_neg (by omega), if_pos (by omega), Nat.add_sub_cancel]
  · rw [if_neg (by omega), if_pos h2, h3, if_pos (by omega)]

/-- A single-block register. -/
theorem eq_gather_one {L : Nat} {f : Nat → Nat} {g : Vec w L} (a b : Vec w L)
    (h : ∀ i : Fin L, g i = if f i.val < L then a.at_ (f i.val)
      else if f i.val < 2 * L then b.at_ (f i.val - L) else 0) : g = gather L f a b := by
  funext i
  unfold gather
  dsimp only
  rw [Nat.mod_eq_of_lt i.isLt, Nat.div_eq_of_lt i.isLt, Nat.zero_mul, Nat.zero_add, Nat.zero_add]
  exact h i

theorem okW_cases {k : Kind} (hw : k.okW w) : w = 64 ∨ w = 32 ∨ (k = .int ∧ (w = 8 ∨ w = 16)) := by
  have := hw.isW
  cases k
  · rcases this with h | h | h | h <;> simp [h]
  · rcases hw with h | h <;> simp [h]

section
variable {c : Cfg} (h : c.Ok) {r : Reg} {k : Kind}
include h

theorem i_zip_lo_eq (hw : k.okW w) (hr : c.hasVec k w r = true) (hn : n = r.lanes w) (a b : Vec w n) :
    i_zip_lo c k r a b = some (gather (128 / w) (zipI w) a b) := by
  have hil : Hw.ilvr b a = gather (128 / w) (zipI w) a b := by
    refine gather_swap ?_ a b ?_
    · rcases hw.isW with e | e | e | e <;> subst e <;> decide
    · intro j hj
      unfold zipI
      rcases hw.isW with e | e | e | e <;> subst e <;> dsimp only [Nat.reduceDiv] at hj ⊢ <;> split_ifs <;> omega
  cases r
  · have hz : Null.zip_lo a b = some (gather (128 / w) (zipI w) a b) := by
      subst hn
      rcases hw.isW with e | e | e | e <;> subst e <;>
      · rw [Null.zip_lo_eq (by decide)]
        congr 1
        refine eq_gather_one (L := _) _ _ fun i => ?_
        unfold zipI
        have := i.isLt
        dsimp only [Reg.lanes, Reg.bits, Nat.reduceDiv] at this ⊢
        split_ifs <;> first | omega | rfl | (congr 1; omega)
    unfold i_zip_lo
    dsimp only
    by_cases h64 : w = 64
    · rw [if_pos h64]
      subst h64 hn
      have ht : (neonTranspose2 a b).1 = gather (128 / 64) (zipI 64) a b := by
        refine eq_gather_one (L := 2) a b fun i => ?_
        rcases i with ⟨_ | _ | i, hi'⟩ <;> first | omega | (simp [neonTranspose2, Hw.trn1, Hw.trn2, zipI, zipH] <;> rfl)
      have ht1 : Hw.trn1 a b = gather (128 / 64) (zipI 64) a b := by
        refine eq_gather_one (L := 2) a b fun i => ?_
        rcases i with ⟨_ | _ | i, hi'⟩ <;> first | omega | (simp [neonTranspose2, Hw.trn1, Hw.trn2, zipI, zipH] <;> rfl)
      cases k <;> dsimp only <;> split_ifs <;>
        first | rfl | exact hz | exact congrArg some hil | exact congrArg some ht | exact congrArg some ht1 | (clear hil hz ht ht1; cfg_absurd h)
    · rw [if_neg h64]
      split_ifs <;> first | rfl | exact hz | exact congrArg some hil | (clear hil hz; cfg_absurd h)
  · exact if_pos hr
  · exact if_pos hr

theorem i_zip_hi_eq (hw : k.okW w) (hr : c.hasVec k w r = true) (hn : n = r.lanes w) (a b : Vec w n) :
    i_zip_hi c k r a b = some (gather (128 / w) (zipH w) a b) := by
  have hil : Hw.ilvl b a = gather (128 / w) (zipH w) a b := by
    refine gather_swap ?_ a b ?_
    · rcases hw.isW with e | e | e | e <;> subst e <;> decide
    · intro j hj
      unfold zipH
      rcases hw.isW with e | e | e | e <;> subst e <;> dsimp only [Nat.reduceDiv] at hj ⊢ <;> split_ifs <;> omega
  cases r
  · have hz : Null.zip_hi a b = some (gather (128 / w) (zipH w) a b) := by
      subst hn
      rcases hw.isW with e | e | e | e <;> subst e <;>
      · rw [Null.zip_hi_eq (by decide)]
        congr 1
        refine eq_gather_one (L := _) _ _ fun i => ?_
        unfold zipH
        have := i.isLt
        dsimp only [Reg.lanes, Reg.bits, Nat.reduceDiv] at this ⊢
        split_ifs <;> first | omega | rfl | (congr 1; omega)
    unfold i_zip_hi
    dsimp only
    by_cases h64 : w = 64
    · rw [if_pos h64]
      subst h64 hn
      have ht : (neonTranspose2 a b).2 = gather (128 / 64) (zipH 64) a b := by
        refine eq_gather_one (L := 2) a b fun i => ?_
        rcases i with ⟨_ | _ | i, hi'⟩ <;> first | omega | (simp [neonTranspose2, Hw.trn1, Hw.trn2, zipI, zipH] <;> rfl)
      have ht1 : Hw.trn2 a b = gather (128 / 64) (zipH 64) a b := by
        refine eq_gather_one (L := 2) a b fun i => ?_
        rcases i with ⟨_ | _ | i, hi'⟩ <;> first | omega | (simp [neonTranspose2, Hw.trn1, Hw.trn2, zipI, zipH] <;> rfl)
      have hm : Vec.recast 64 (Reg.r128.lanes 64) (Hw.movehl (b.recast 64 (Reg.r128.lanes 64))
          (a.recast 64 (Reg.r128.lanes 64))) = gather (128 / 64) (zipH 64) a b := by
        rw [Vec.recast_self, Vec.recast_self, Vec.recast_self]
        refine eq_gather_one (L := 2) a b fun i => ?_
        rcases i with ⟨_ | _ | i, hi'⟩ <;> first | omega | (simp [Hw.movehl, gather, zipH] <;> rfl)
      cases k <;> dsimp only <;> split_ifs <;>
        first | rfl | exact hz | exact congrArg some hil | exact congrArg some ht | exact congrArg some ht1 | exact congrArg some hm | (clear hil hz ht ht1 hm; cfg_absurd h)
    · rw [if_neg h64]
      split_ifs <;> first | rfl | exact hz | exact congrArg some hil | (clear hil hz; cfg_absurd h)
  · exact if_pos hr
  · exact if_pos hr

end

/-! ## Narrowing packs -/

/-- If the narrowing step returns lane `2 k + e` of the operand for every wide lane `k`, the pack is the
de-interleave. -/
theorem pack_eq {r : Reg} (hw : w = 8 ∨ w = 16) (hn : n = r.lanes w) {m e : Nat} (he : e < 2)
    {f : BitVec (2 * w) → BitVec w} {a' b' : Vec (2 * w) m} {a b : Vec w n}
    (ha : ∀ k, f (a'.at_ k) = a.at_ (2 * k + e)) (hb : ∀ k, f (b'.at_ k) = b.at_ (2 * k + e)) :
    Hw.pack f a' b' = gather (128 / w) (fun j => 2 * j + e) a b := by
  funext i
  unfold Hw.pack gather
  dsimp only
  have hi := i.isLt
  rcases hw with rfl | rfl <;> dsimp only [Nat.reduceDiv] <;>
  · split_ifs <;> first | omega | (rw [ha]; congr 1; omega) | (rw [hb]; congr 1; omega)

theorem lanes_even {r : Reg} (hw : w = 8 ∨ w = 16) : r.lanes w = r.lanes w / 2 * 2 := by
  rcases hw with rfl | rfl <;> cases r <;> rfl

/-- Halves of the double-width lanes. -/
theorem halves {r : Reg} (hw : w = 8 ∨ w = 16) (hn : n = r.lanes w) (a : Vec w n) (k : Nat) {e : Nat} (he : e < 2) :
    a.at_ (2 * k + e) = ((a.recast (2 * w) (n / 2)).at_ k).extractLsb' (e * w) w := by
  have hp : 0 < w := by omega
  have hn2 : n = n / 2 * 2 := by rw [hn]; exact lanes_even hw
  have e1 : (a.recast (2 * w) (n / 2)).recast w n = a := by
    apply Vec.recast_recast _ (by omega)
    calc 2 * w * (n / 2) = w * (n / 2 * 2) := by ring
      _ = w * n := by rw [← hn2]
  conv => lhs; rw [← e1]
  rw [recast_at (q := 2) hp (by decide) rfl hn2, show (2 * k + e) / 2 = k by omega,
    show (2 * k + e) % 2 = e by omega]

theorem ssat_exact8 (y : BitVec 16) (h1 : -128 ≤ y.toInt) (h2 : y.toInt < 128) : Hw.ssat 8 y.toInt = y.setWidth 8 := by
  apply BitVec.eq_of_toNat_eq
  unfold Hw.ssat
  rw [if_neg (by omega), if_neg (by omega), BitVec.toNat_ofInt, BitVec.toNat_setWidth]
  have := y.isLt
  rw [BitVec.toInt_eq_toNat_cond]
  split <;> omega

theorem ssat_exact16 (y : BitVec 32) (h1 : -32768 ≤ y.toInt) (h2 : y.toInt < 32768) : Hw.ssat 16 y.toInt = y.setWidth 16 := by
  apply BitVec.eq_of_toNat_eq
  unfold Hw.ssat
  rw [if_neg (by omega), if_neg (by omega), BitVec.toNat_ofInt, BitVec.toNat_setWidth]
  have := y.isLt
  rw [BitVec.toInt_eq_toNat_cond]
  split <;> omega

/-- `pack*` of an arithmetically right-shifted double-width lane is exact. -/
theorem ssat_sra (hw : w = 8 ∨ w = 16) (z : BitVec (2 * w)) :
    Hw.ssat w (z.sshiftRight w).toInt = z.extractLsb' w w := by
  have key : (z.sshiftRight w).setWidth w = z.extractLsb' w w := by
    apply BitVec.eq_of_getLsbD_eq
    intro i hi
    rw [BitVec.getLsbD_setWidth, BitVec.getLsbD_sshiftRight, BitVec.getLsbD_extractLsb']
    have : w + i < 2 * w := by omega
    simp [hi, this]; omega
  rw [← key]
  have ht := BitVec.toInt_sshiftRight (x := z) (n := w)
  have h1 := BitVec.le_toInt z
  have h2 := BitVec.toInt_lt (x := z)
  rcases hw with rfl | rfl
  · refine ssat_exact8 _ ?_ ?_ <;> rw [ht, Int.shiftRight_eq_div_pow] <;> simp at h1 h2 ⊢ <;> omega
  · refine ssat_exact16 _ ?_ ?_ <;> rw [ht, Int.shiftRight_eq_div_pow] <;> simp at h1 h2 ⊢ <;> omega

theorem usat_lo (hw : w = 8 ∨ w = 16) (z : BitVec (2 * w)) :
    Hw.usat w (z &&& (BitVec.allOnes (2 * w) >>> w)).toInt = z.extractLsb' 0 w := by
  have key : (z &&& (BitVec.allOnes (2 * w) >>> w)).toNat = z.toNat % 2 ^ w := by
    rw [BitVec.toNat_and, BitVec.toNat_ushiftRight, BitVec.toNat_allOnes, Nat.shiftRight_eq_div_pow]
    have : (2 ^ (2 * w) - 1) / 2 ^ w = 2 ^ w - 1 := by rcases hw with rfl | rfl <;> decide
    rw [this, Nat.and_two_pow_sub_one_eq_mod]
  apply BitVec.eq_of_toNat_eq
  rw [BitVec.extractLsb'_toNat, Nat.shiftRight_zero]
  generalize hy : z &&& (BitVec.allOnes (2 * w) >>> w) = y at key
  have hz := z.isLt
  unfold Hw.usat
  rw [BitVec.toInt_eq_toNat_cond, key]
  rcases hw with rfl | rfl
  all_goals
    simp only [Nat.reduceMul, Nat.reducePow] at *
    rw [if_pos (show 2 * (z.toNat % _) < _ by omega), if_neg (by omega), if_neg (by omega), BitVec.toNat_ofInt]
    omega

section
variable {c : Cfg} (h : c.Ok) {r : Reg} {k : Kind}
include h

theorem keepLo_eq (hw : w = 8 ∨ w = 16) (hr : c.hasInt w r = true) (hn : n = r.lanes w) (a : Vec w n) :
    ∃ res, keepLo c r a = some res ∧ ∀ k, (res.recast (2 * w) (n / 2)).at_ k =
      (a.recast (2 * w) (n / 2)).at_ k &&& (BitVec.allOnes (2 * w) >>> w) := by
  have hp : 0 < w := by omega
  have hn2 : n = n / 2 * 2 := by rw [hn]; exact lanes_even hw
  have hs : 2 * w * (n / 2) = w * n := by
    calc 2 * w * (n / 2) = w * (n / 2 * 2) := by ring
      _ = w * n := by rw [← hn2]
  have hisW : IsW w := by rcases hw with rfl | rfl; exact isW8; exact iw16
  unfold keepLo
  dsimp only
  refine ⟨_, i_bit_and_eq h (k := .int) hisW hr _ _, fun k => ?_⟩
  set M : Vec (2 * w) (n / 2) := Hw.srl (Vec.splat (BitVec.allOnes (2 * w))) w
  have e := recast_bitwise2 (w := 2 * w) (n := n / 2) (u := w) (m := n) (f := fun x y => x &&& y)
    (g := fun x y => x &&& y) (β := and) (by intro x y k _; exact BitVec.getLsbD_and)
    (by intro x y k _; exact BitVec.getLsbD_and) (by omega) hp hs.symm (a.recast (2 * w) (n / 2)) M
  rw [Vec.recast_recast _ (by omega) hs] at e
  rw [e]
  by_cases hk : k < n / 2
  · rw [Vec.at_lt _ hk, Vec.at_lt _ hk]; rfl
  · rw [Vec.at_ge _ (by omega), Vec.at_ge _ (by omega)]; simp

theorem unzipLoPackus_eq (hw : w = 8 ∨ w = 16) (hr : c.hasInt w r = true) (hn : n = r.lanes w) (a b : Vec w n) :
    unzipLoPackus c r a b = some (gather (128 / w) (fun j => 2 * j) a b) := by
  obtain ⟨a1, ea, pa⟩ := keepLo_eq h hw hr hn a
  obtain ⟨b1, eb, pb⟩ := keepLo_eq h hw hr hn b
  unfold unzipLoPackus
  rw [ea, eb]
  show some _ = _
  congr 1
  refine pack_eq hw hn (e := 0) (by decide) (fun k => ?_) (fun k => ?_)
  · rw [pa, usat_lo hw, halves hw hn a k (by decide), Nat.zero_mul]
  · rw [pb, usat_lo hw, halves hw hn b k (by decide), Nat.zero_mul]

omit h in
theorem packs_hi_eq (hw : w = 8 ∨ w = 16) (hn : n = r.lanes w) (a b : Vec w n) :
    (Hw.packs (Hw.sra (a.recast (2 * w) (n / 2)) w) (Hw.sra (b.recast (2 * w) (n / 2)) w) : Vec w n) =
      gather (128 / w) (fun j => 2 * j + 1) a b := by
  have e : ∀ (x : Vec w n) (k : Nat), Hw.ssat w ((Hw.sra (x.recast (2 * w) (n / 2)) w).at_ k).toInt = x.at_ (2 * k + 1) := by
    intro x k
    rw [halves hw hn x k (by decide), Nat.one_mul, ← ssat_sra hw]
    by_cases hk : k < n / 2
    · rw [Vec.at_lt _ hk, Vec.at_lt _ hk]; rfl
    · rw [Vec.at_ge _ (by omega), Vec.at_ge _ (by omega)]; simp
  exact pack_eq hw hn (by decide) (e a) (e b)

omit h in
theorem packs_lo_eq (hn : n = r.lanes 16) (a b : Vec 16 n) :
    (Hw.packs (w := 16) (Hw.sra (Hw.sll (a.recast (2 * 16) (n / 2)) 16) 16)
      (Hw.sra (Hw.sll (b.recast (2 * 16) (n / 2)) 16) 16) : Vec 16 n) =
      gather (128 / 16) (fun j => 2 * j) a b := by
  have e : ∀ (x : Vec 16 n) (k : Nat), Hw.ssat 16 ((Hw.sra (Hw.sll (x.recast (2 * 16) (n / 2)) 16) 16).at_ k).toInt = x.at_ (2 * k + 0) := by
    intro x k
    rw [halves (Or.inr rfl) hn x k (by decide), Nat.zero_mul]
    have : ((x.recast (2 * 16) (n / 2)).at_ k <<< 16).extractLsb' 16 16 = ((x.recast (2 * 16) (n / 2)).at_ k).extractLsb' 0 16 := by
      apply BitVec.eq_of_getLsbD_eq
      intro i hi
      rw [BitVec.getLsbD_extractLsb', BitVec.getLsbD_extractLsb', BitVec.getLsbD_shiftLeft]
      have : 16 + i < 2 * 16 := by omega
      simp [hi, this]
    rw [← this, ← ssat_sra (Or.inr rfl)]
    by_cases hk : k < n / 2
    · rw [Vec.at_lt _ hk, Vec.at_lt _ hk]; rfl
    · rw [Vec.at_ge _ (by omega), Vec.at_ge _ (by omega)]; simp
  exact pack_eq (Or.inr rfl) hn (e := 0) (by decide) (e a) (e b)

omit h in
theorem vpack_eq (hw : w = 8 ∨ w = 16) (hn : n = r.lanes w) (a b : Vec w n) :
    (Hw.vpack (a.recast (2 * w) (n / 2)) (b.recast (2 * w) (n / 2)) : Vec w n) =
      gather (128 / w) (fun j => 2 * j) a b := by
  have e : ∀ (x : Vec w n) (k : Nat), ((x.recast (2 * w) (n / 2)).at_ k).setWidth w = x.at_ (2 * k + 0) := by
    intro x k
    rw [halves hw hn x k (by decide), Nat.zero_mul, BitVec.setWidth_eq_extractLsb' (by omega)]
  exact pack_eq hw hn (e := 0) (by decide) (e a) (e b)

omit h in
theorem unzip_one {L e : Nat} (he : e < 2) (hL : 2 ∣ L) (a b : Vec w L) :
    (fun i : Fin L => if i.val < L / 2 then a.at_ (i.val * 2 + e) else b.at_ ((i.val - L / 2) * 2 + e)) =
      gather L (fun j => 2 * j + e) a b := by
  refine eq_gather_one a b fun i => ?_
  have := i.isLt
  split_ifs <;> first | omega | (congr 1; omega)

omit h in
theorem Null.unzip_gather (hw : IsW w) (hn : n = Reg.r128.lanes w) (a b : Vec w n) :
    Null.unzip_lo a b = some (gather (128 / w) (fun j => 2 * j) a b) ∧
    Null.unzip_hi a b = some (gather (128 / w) (fun j => 2 * j + 1) a b) := by
  subst hn
  have h2 : 2 ∣ 128 / w := by rcases hw with e | e | e | e <;> subst e <;> decide
  exact ⟨(Null.unzip_lo_eq h2 a b).trans (congrArg some (unzip_one (L := 128 / w) (e := 0) (by decide) h2 a b)),
    (Null.unzip_hi_eq h2 a b).trans (congrArg some (unzip_one (L := 128 / w) (e := 1) (by decide) h2 a b))⟩

omit h in
theorem pck_eq (hw : IsW w) (a b : Vec w n) :
    Hw.pckev b a = gather (128 / w) (fun j => 2 * j) a b ∧ Hw.pckod b a = gather (128 / w) (fun j => 2 * j + 1) a b := by
  constructor <;>
  · refine gather_swap ?_ a b ?_
    · rcases hw with e | e | e | e <;> subst e <;> decide
    · intro j hj
      rcases hw with e | e | e | e <;> subst e <;> dsimp only [Nat.reduceDiv] at hj ⊢ <;> split_ifs <;> omega

theorem i_unzip_lo_bw_eq (hw : w = 8 ∨ w = 16) (hr : c.hasInt w r = true) (hn : n = r.lanes w) (a b : Vec w n) :
    i_unzip_lo_bw c r a b = some (gather (128 / w) (fun j => 2 * j) a b) := by
  have hisW : IsW w := by rcases hw with rfl | rfl; exact isW8; exact iw16
  have hp := unzipLoPackus_eq h hw hr hn a b
  unfold i_unzip_lo_bw
  cases r
  · dsimp only
    have h1 := (Null.unzip_gather hisW hn a b).1
    have h2 := congrArg some (vpack_eq hw hn a b)
    have h3 := congrArg some (pck_eq hisW a b).1
    by_cases hc : ¬ c.null ∧ ¬ ((w = 8 ∧ c.sse2) ∨ c.sse41) ∧ c.sse2
    · obtain ⟨g1, g2, g3⟩ := hc
      rw [if_neg g1, if_neg g2, if_pos g3]
      rcases hw with rfl | rfl
      · exact absurd (Or.inl ⟨rfl, g3⟩) g2
      · exact congrArg some (packs_lo_eq hn a b)
    · split_ifs <;> first | rfl | exact h1 | exact h2 | exact h3 | exact hp | (exfalso; tauto) | (clear h1 h2 h3 hp; cfg_absurd h)
  · exact (if_pos hr).trans hp
  · exact (if_pos hr).trans hp

theorem i_unzip_hi_bw_eq (hw : w = 8 ∨ w = 16) (hr : c.hasInt w r = true) (hn : n = r.lanes w) (a b : Vec w n) :
    i_unzip_hi_bw c r a b = some (gather (128 / w) (fun j => 2 * j + 1) a b) := by
  have hisW : IsW w := by rcases hw with rfl | rfl; exact isW8; exact iw16
  have hp := congrArg some (packs_hi_eq hw hn a b)
  unfold i_unzip_hi_bw
  cases r
  · dsimp only
    have h1 := (Null.unzip_gather hisW hn a b).2
    have h3 := congrArg some (pck_eq hisW a b).2
    have h4 : c.altivec = true → maskShuffle c (w / 8) (128 / w) (fun p => 2 * p + 1) a b =
        some (gather (128 / w) (fun j => 2 * j + 1) a b) := by
      intro ha
      have hs : c.sse2 = true → c.ssse3 = true ∨ c.xop = true := by
        intro hs; rw [no_sse_of_altivec h ha] at hs; cases hs
      rcases hw with rfl | rfl
      · rw [maskShuffle_eq (n := n) (q := 1) (u := 16) h hs isW8 rfl (by decide) (by intro p hp; omega) hn]
        congr 1
        refine gather_congr (by decide) (fun j hj => ?_) a b
        dsimp only [Nat.reduceDiv] at hj ⊢
        interval_cases j <;> rfl
      · rw [maskShuffle_eq (n := n) (q := 2) (u := 8) h hs iw16 rfl (by decide) (by intro p hp; omega) hn]
        congr 1
        refine gather_congr (by decide) (fun j hj => ?_) a b
        dsimp only [Nat.reduceDiv] at hj ⊢
        interval_cases j <;> rfl
    split_ifs with g1 g2 g3 g4 g5 <;> first | rfl | exact h1 | exact h4 g4 | exact h3 | exact hp | (clear h1 h3 h4 hp; cfg_absurd h)
  · exact (if_pos hr).trans hp
  · exact (if_pos hr).trans hp

theorem shuffle2_gather (hr : c.hasVec k 32 r = true) (hn : n = r.lanes 32)
    {s0 s1 s2 s3 : Nat} (h0 : s0 < 4) (h1 : s1 < 4) (h2 : s2 < 4) (h3 : s3 < 4) (a b : Vec 32 n) :
    shuffle2 c k r s0 s1 s2 s3 a b = some (gather 4 (sel4 s0 s1 (s2 + 4) (s3 + 4)) a b) := by
  unfold shuffle2
  rw [if_neg (not_not.2 ⟨h0, h1, h2, h3⟩)]
  exact i_shuffle4x2_32_eq h hr hn (by omega) (by omega) (by omega) (by omega) a b

theorem i_unzip_lo_32_eq (hr : c.hasVec k 32 r = true) (hn : n = r.lanes 32) (a b : Vec 32 n) :
    i_unzip_lo_32 c k r a b = some (gather (128 / 32) (fun j => 2 * j) a b) := by
  have hg : gather 4 (sel4 0 2 (0 + 4) (2 + 4)) a b = gather (128 / 32) (fun j => 2 * j) a b :=
    gather_congr (by decide) (fun j hj => by interval_cases j <;> rfl) a b
  have hs := (shuffle2_gather h hr hn (s0 := 0) (s1 := 2) (s2 := 0) (s3 := 2) (by decide) (by decide) (by decide) (by decide) a b).trans (congrArg some hg)
  unfold i_unzip_lo_32
  cases r
  · dsimp only
    have h1 := (Null.unzip_gather iw32 hn a b).1
    have h3 := congrArg some (pck_eq iw32 a b).1
    have h4 : c.altivec = true → maskShuffle c 4 4 (sel4 0 2 4 6) a b = some (gather (128 / 32) (fun j => 2 * j) a b) := by
      intro ha
      have hs : c.sse2 = true → c.ssse3 = true ∨ c.xop = true := by
        intro hs; rw [no_sse_of_altivec h ha] at hs; cases hs
      rw [maskShuffle_eq (n := n) (q := 4) (u := 4) h hs iw32 rfl (by decide) (by intro p hp; interval_cases p <;> decide) hn]
      congr 1
      refine gather_congr (by decide) (fun j hj => ?_) a b
      interval_cases j <;> rfl
    split_ifs with g1 g2 g3 g4 g5 <;> first | rfl | exact h1 | exact h4 g4 | exact h3 | exact hs | (clear h1 h3 h4 hs; cfg_absurd h)
  · exact (if_pos hr).trans hs
  · exact (if_pos hr).trans hs

theorem i_unzip_hi_32_eq (hr : c.hasVec k 32 r = true) (hn : n = r.lanes 32) (a b : Vec 32 n) :
    i_unzip_hi_32 c k r a b = some (gather (128 / 32) (fun j => 2 * j + 1) a b) := by
  have hg : gather 4 (sel4 1 3 (1 + 4) (3 + 4)) a b = gather (128 / 32) (fun j => 2 * j + 1) a b :=
    gather_congr (by decide) (fun j hj => by interval_cases j <;> rfl) a b
  have hs := fun {k : Kind} (hr : c.hasVec k 32 r = true) => (shuffle2_gather h (k := k) hr hn (s0 := 1) (s1 := 3) (s2 := 1) (s3 := 3) (by decide) (by decide) (by decide) (by decide) a b).trans (congrArg some hg)
  have hs1 := hs hr
  unfold i_unzip_hi_32
  cases r
  · dsimp only
    have h1 := (Null.unzip_gather iw32 hn a b).2
    have h3 := congrArg some (pck_eq iw32 a b).2
    have hs2 := hs (k := .int) rfl
    split_ifs with g1 g2 g3 g4 g5 <;> first | rfl | exact h1 | exact h3 | exact hs1 | exact hs2 | (clear h1 h3 hs hs1 hs2; cfg_absurd h)
  · exact (if_pos hr).trans hs1
  · exact (if_pos hr).trans hs1

theorem i_unzip_lo_eq (hw : k.okW w) (hr : c.hasVec k w r = true) (hn : n = r.lanes w) (a b : Vec w n) :
    i_unzip_lo c k r a b = some (gather (128 / w) (fun j => 2 * j) a b) := by
  unfold i_unzip_lo
  rcases okW_cases hw with rfl | rfl | ⟨rfl, h8⟩
  · rw [if_pos rfl, i_zip_lo_eq h hw hr hn]
    congr 1
    exact gather_congr (by decide) (fun j hj => by
      have : j < 2 := hj
      interval_cases j <;> rfl) a b
  · rw [if_neg (by decide), dif_pos rfl]
    exact i_unzip_lo_32_eq h hr hn a b
  · rw [if_neg (by omega), dif_neg (by omega)]
    exact i_unzip_lo_bw_eq h h8 hr hn a b

theorem i_unzip_hi_eq (hw : k.okW w) (hr : c.hasVec k w r = true) (hn : n = r.lanes w) (a b : Vec w n) :
    i_unzip_hi c k r a b = some (gather (128 / w) (fun j => 2 * j + 1) a b) := by
  unfold i_unzip_hi
  rcases okW_cases hw with rfl | rfl | ⟨rfl, h8⟩
  · rw [if_pos rfl, i_zip_hi_eq h hw hr hn]
    congr 1
    exact gather_congr (by decide) (fun j hj => by
      have : j < 2 := hj
      interval_cases j <;> rfl) a b
  · rw [if_neg (by decide), dif_pos rfl]
    exact i_unzip_hi_32_eq h hr hn a b
  · rw [if_neg (by omega), dif_neg (by omega)]
    exact i_unzip_hi_bw_eq h h8 hr hn a b

/-! ## The property -/

omit h in
theorem lanesW_dvd (hw : IsW w) (r : Reg) : 128 / w ∣ r.lanes w := by
  rcases hw with e | e | e | e <;> subst e <;> cases r <;> decide

omit h in
theorem blkL (hw : IsW w) : 0 < 128 / w ∧ 2 ∣ 128 / w := by
  rcases hw with e | e | e | e <;> subst e <;> decide

omit h in
theorem gather_interleaves {N L s : Nat} (hL : 2 ∣ L) (hs : s ≤ L / 2) {f : Nat → Nat}
    (hf : ∀ j, f j = if j % 2 = 0 then s + j / 2 else L + s + j / 2) (a b : Vec w N) :
    Interleaves L s a b (gather L f a b) := by
  intro q j hj hq
  constructor
  · have e : f (2 * j) = s + j := by rw [hf, if_pos (by omega)]; omega
    rw [gather_block a b (by omega) (by omega), e, if_pos (by omega)]
    congr 1; omega
  · have e : f (2 * j + 1) = L + s + j := by rw [hf, if_neg (by omega)]; omega
    rw [Nat.add_assoc, gather_block a b (by omega) (by omega), e, if_neg (by omega), if_pos (by omega)]
    congr 1; omega

omit h in
theorem gather_deinterleaves {N L e : Nat} (hL : 2 ∣ L) (he : e < 2) (a b : Vec w N) :
    Deinterleaves L e a b (gather L (fun j => 2 * j + e) a b) := by
  intro q j hj hq
  constructor
  · rw [gather_block a b (by omega) (by omega), if_pos (by omega)]
    congr 1; omega
  · rw [Nat.add_assoc, gather_block a b (by omega) (by omega), if_neg (by omega), if_pos (by omega)]
    congr 1; omega

/-- C17 (`zip_lo`): every element type, any number of registers, every configuration. -/
theorem C17_zip_lo (hw : k.okW w) (hr : c.hasVec k w r = true) {K : Nat} (a b d : Fin K → Vec w (r.lanes w)) :
    ∃ res, Arr.apply2 (i_zip_lo c k r) a b 0 d = some res ∧
      Interleaves (128 / w) 0 (Arr.flat a : Vec w (K * r.lanes w)) (Arr.flat b) (Arr.flat res) := by
  obtain ⟨res, e1, e2⟩ := long2 (lanesW_dvd hw.isW r) (blkL hw.isW).1 (i_zip_lo_eq h hw hr rfl) a b d
  refine ⟨res, e1, e2 ▸ gather_interleaves (blkL hw.isW).2 (Nat.zero_le _) (fun j => ?_) _ _⟩
  simp [zipI]

/-- C17 (`zip_hi`): interleaves the high halves. -/
theorem C17_zip_hi (hw : k.okW w) (hr : c.hasVec k w r = true) {K : Nat} (a b d : Fin K → Vec w (r.lanes w)) :
    ∃ res, Arr.apply2 (i_zip_hi c k r) a b 0 d = some res ∧
      Interleaves (128 / w) (128 / w / 2) (Arr.flat a : Vec w (K * r.lanes w)) (Arr.flat b) (Arr.flat res) := by
  obtain ⟨res, e1, e2⟩ := long2 (lanesW_dvd hw.isW r) (blkL hw.isW).1 (i_zip_hi_eq h hw hr rfl) a b d
  exact ⟨res, e1, e2 ▸ gather_interleaves (blkL hw.isW).2 (Nat.le_refl _) (fun j => rfl) _ _⟩

/-- C17 (`unzip_lo`): the even elements. -/
theorem C17_unzip_lo (hw : k.okW w) (hr : c.hasVec k w r = true) {K : Nat} (a b d : Fin K → Vec w (r.lanes w)) :
    ∃ res, Arr.apply2 (i_unzip_lo c k r) a b 0 d = some res ∧
      Deinterleaves (128 / w) 0 (Arr.flat a : Vec w (K * r.lanes w)) (Arr.flat b) (Arr.flat res) := by
  obtain ⟨res, e1, e2⟩ := long2 (lanesW_dvd hw.isW r) (blkL hw.isW).1 (i_unzip_lo_eq h hw hr rfl) a b d
  exact ⟨res, e1, e2 ▸ gather_deinterleaves (e := 0) (blkL hw.isW).2 (by decide) _ _⟩

/-- C17 (`unzip_hi`): the odd elements. -/
theorem C17_unzip_hi (hw : k.okW w) (hr : c.hasVec k w r = true) {K : Nat} (a b d : Fin K → Vec w (r.lanes w)) :
    ∃ res, Arr.apply2 (i_unzip_hi c k r) a b 0 d = some res ∧
      Deinterleaves (128 / w) 1 (Arr.flat a : Vec w (K * r.lanes w)) (Arr.flat b) (Arr.flat res) := by
  obtain ⟨res, e1, e2⟩ := long2 (lanesW_dvd hw.isW r) (blkL hw.isW).1 (i_unzip_hi_eq h hw hr rfl) a b d
  exact ⟨res, e1, e2 ▸ gather_deinterleaves (e := 1) (blkL hw.isW).2 (by decide) _ _⟩

omit h in
theorem apply2_of {K l u v x : Nat} {op : Vec w l → Vec u v → Option (Vec x l)} {a : Fin K → Vec w l} {b : Fin K → Vec u v}
    {res : Fin K → Vec x l} (hop : ∀ i, op (a i) (b i) = some (res i)) (d : Fin K → Vec x l) :
    Arr.apply2 op a b 0 d = some res := by
  rw [Arr.apply2_spec op a b res hop 0 d]
  simp

/-- C17: `unzip_lo(zip_lo(a,b), zip_hi(a,b)) = a` and `unzip_hi(zip_lo(a,b), zip_hi(a,b)) = b`. -/
theorem C17_unzip_zip (hw : k.okW w) (hr : c.hasVec k w r = true) {K : Nat} (a b d : Fin K → Vec w (r.lanes w)) :
    ∃ lo hi, Arr.apply2 (i_zip_lo c k r) a b 0 d = some lo ∧ Arr.apply2 (i_zip_hi c k r) a b 0 d = some hi ∧
      Arr.apply2 (i_unzip_lo c k r) lo hi 0 d = some a ∧ Arr.apply2 (i_unzip_hi c k r) lo hi 0 d = some b := by
  have hb := blkL hw.isW
  have hd := lanesW_dvd hw.isW r
  refine ⟨_, _, apply2_of (fun i => i_zip_lo_eq h hw hr rfl _ _) d, apply2_of (fun i => i_zip_hi_eq h hw hr rfl _ _) d,
    apply2_of (fun i => ?_) d, apply2_of (fun i => ?_) d⟩
  · rw [i_unzip_lo_eq h hw hr rfl]
    congr 1
    refine ((IsG.gather hd (x := gather (128 / w) (zipI w) (a i) (b i)) rfl rfl).eq hb.1 (g := fun j => j) ?_).trans (IsG.a hb.1 _ _).symm
    intro j hj
    unfold comp zipI zipH
    dsimp only
    split_ifs <;> omega
  · rw [i_unzip_hi_eq h hw hr rfl]
    congr 1
    refine ((IsG.gather hd (x := gather (128 / w) (zipI w) (a i) (b i)) rfl rfl).eq hb.1 (g := fun j => j + 128 / w) ?_).trans (IsG.b hb.1 _ _).symm
    intro j hj
    unfold comp zipI zipH
    dsimp only
    split_ifs <;> omega

/-- C17: `zip_lo(unzip_lo(a,b), unzip_hi(a,b)) = a` and `zip_hi(unzip_lo(a,b), unzip_hi(a,b)) = b`. -/
theorem C17_zip_unzip (hw : k.okW w) (hr : c.hasVec k w r = true) {K : Nat} (a b d : Fin K → Vec w (r.lanes w)) :
    ∃ lo hi, Arr.apply2 (i_unzip_lo c k r) a b 0 d = some lo ∧ Arr.apply2 (i_unzip_hi c k r) a b 0 d = some hi ∧
      Arr.apply2 (i_zip_lo c k r) lo hi 0 d = some a ∧ Arr.apply2 (i_zip_hi c k r) lo hi 0 d = some b := by
  have hb := blkL hw.isW
  have hd := lanesW_dvd hw.isW r
  refine ⟨_, _, apply2_of (fun i => i_unzip_lo_eq h hw hr rfl _ _) d, apply2_of (fun i => i_unzip_hi_eq h hw hr rfl _ _) d,
    apply2_of (fun i => ?_) d, apply2_of (fun i => ?_) d⟩
  · rw [i_zip_lo_eq h hw hr rfl]
    congr 1
    refine ((IsG.gather hd (x := gather (128 / w) (fun j => 2 * j) (a i) (b i)) rfl rfl).eq hb.1 (g := fun j => j) ?_).trans (IsG.a hb.1 _ _).symm
    intro j hj
    unfold comp zipI
    dsimp only
    split_ifs <;> omega
  · rw [i_zip_hi_eq h hw hr rfl]
    congr 1
    refine ((IsG.gather hd (x := gather (128 / w) (fun j => 2 * j) (a i) (b i)) rfl rfl).eq hb.1 (g := fun j => j + 128 / w) ?_).trans (IsG.b hb.1 _ _).symm
    intro j hj
    unfold comp zipH
    dsimp only
    split_ifs <;> omega

end

/-! Examples: the hypotheses are met by real configurations; 8-bit elements on SSE2, 2 registers. -/

example (a b d : Fin 2 → Vec 8 16) : ∃ lo hi,
    Arr.apply2 (i_zip_lo Cfg.sse2Only .int .r128) a b 0 d = some lo ∧
    Arr.apply2 (i_zip_hi Cfg.sse2Only .int .r128) a b 0 d = some hi ∧
    Arr.apply2 (i_unzip_lo Cfg.sse2Only .int .r128) lo hi 0 d = some a ∧
    Arr.apply2 (i_unzip_hi Cfg.sse2Only .int .r128) lo hi 0 d = some b :=
  C17_unzip_zip Cfg.sse2Only_ok (r := .r128) (k := .int) isW8 rfl a b d

example (a b d : Fin 3 → Vec 32 16) : ∃ res, Arr.apply2 (i_zip_hi Cfg.avx512All .flt .r512) a b 0 d = some res ∧
    Interleaves 4 2 (Arr.flat a : Vec 32 (3 * 16)) (Arr.flat b) (Arr.flat res) :=
  C17_zip_hi Cfg.avx512All_ok (r := .r512) (k := .flt) (Or.inl rfl) rfl a b d

example (a b d : Fin 3 → Vec 16 8) : ∃ res, Arr.apply2 (i_unzip_hi Cfg.altivecOnly .int .r128) a b 0 d = some res ∧
    Deinterleaves 8 1 (Arr.flat a : Vec 16 (3 * 8)) (Arr.flat b) (Arr.flat res) :=
  C17_unzip_hi Cfg.altivecOnly_ok (r := .r128) (k := .int) iw16 rfl a b d

end Simdpp
