import Verif.Model.ShufIntrin

/-!
# Straight-line shuffle programs

The selector-driven shuffles of the library are templates whose body is a short sequence of
lane-moving intrinsics with immediates computed from the selectors. A `Prog` is such a sequence, on
two inputs; `run` executes it with the instruction semantics of `ShufIntrin`, `idx` tracks which
input lane ends in which output lane. `run_eq` is the soundness theorem.
-/

namespace Simdpp

open Sh

/-- A sequence of lane-moving instructions on vectors processed in blocks of `L` lanes. -/
inductive Prog
  /-- the first argument -/
  | a
  /-- the second argument -/
  | b
  /-- an instruction that moves lanes inside each block by a fixed index function -/
  | g (f : Nat → Nat) (x y : Prog)
  /-- a blend: lane `i` of the register from `y` if bit `i` of the immediate is set, else from `x` -/
  | bl (imm : Nat) (x y : Prog)
  /-- zero-masking: lane `i` of the register kept if bit `i` of the immediate is set -/
  | mz (imm : Nat) (x : Prog)
  /-- an instruction that moves narrower lanes (`q` per lane) inside each block -/
  | sub (q : Nat) (f : Nat → Nat) (x y : Prog)
  /-- `shufpd`: even lanes from `x`, odd lanes from `y`, bit `i` of the immediate selects inside the pair -/
  | pd (imm : Nat) (x y : Prog)
  /-- a blend of narrower lanes (`q` per lane) -/
  | blq (q imm : Nat) (x y : Prog)

namespace Prog

/-- Execution. -/
def run (L : Nat) {w n : Nat} : Prog → Vec w n → Vec w n → Vec w n
  | .a, x, _ => x
  | .b, _, y => y
  | .g f p q, x, y => gather L f (p.run L x y) (q.run L x y)
  | .bl imm p q, x, y => Hw.blendi (p.run L x y) (q.run L x y) imm
  | .mz imm p, x, y => Hw.maskzi imm (p.run L x y)
  | .sub k f p q, x, y =>
    Vec.recast w n (gather (L * k) f (Vec.recast (w / k) (n * k) (p.run L x y))
      (Vec.recast (w / k) (n * k) (q.run L x y)))
  | .pd imm p q, x, y => Hw.shuffle_pd (p.run L x y) (q.run L x y) imm
  | .blq k imm p q, x, y =>
    Vec.recast w n (Hw.blendi (Vec.recast (w / k) (n * k) (p.run L x y))
      (Vec.recast (w / k) (n * k) (q.run L x y)) imm)

/-- Source lane (`< L` first input, `< 2L` second input, otherwise zero) of every result lane. -/
def idx (L : Nat) : Prog → Nat → Nat
  | .a => fun j => j
  | .b => fun j => j + L
  | .g f p q => comp L f (p.idx L) (q.idx L)
  | .bl imm p q => fun j => if imm.testBit j then q.idx L j else p.idx L j
  | .mz imm p => fun j => if imm.testBit j then p.idx L j else 2 * L
  | .sub k f p q => comp L (fun j => f (j * k) / k) (p.idx L) (q.idx L)
  | .pd imm p q => fun j =>
    if j % 2 = 0 then p.idx L (j / 2 * 2 + (imm.testBit j).toNat) else q.idx L (j / 2 * 2 + (imm.testBit j).toNat)
  | .blq k imm p q => fun j => if imm.testBit (j * k) then q.idx L j else p.idx L j

/-- The immediates repeat over the `n`-lane register with period `L`, and narrow moves move whole
lanes. -/
def ok (L n w : Nat) : Prog → Bool
  | .a => true
  | .b => true
  | .g _ p q => p.ok L n w && q.ok L n w
  | .bl imm p q => (List.range n).all (fun i => imm.testBit i == imm.testBit (i % L)) &&
      p.ok L n w && q.ok L n w
  | .mz imm p => (List.range n).all (fun i => imm.testBit i == imm.testBit (i % L)) && p.ok L n w
  | .sub k f p q => decide (0 < k) && decide (w = k * (w / k)) && decide (0 < w / k) &&
      (List.range (L * k)).all (fun j => f j == f (j / k * k) / k * k + j % k) &&
      p.ok L n w && q.ok L n w
  | .pd imm p q => decide (L % 2 = 0) && (List.range n).all (fun i => imm.testBit i == imm.testBit (i % L)) &&
      p.ok L n w && q.ok L n w
  | .blq k imm p q => decide (0 < k) && decide (w = k * (w / k)) && decide (0 < w / k) &&
      (List.range (n * k)).all (fun i => imm.testBit i == imm.testBit (i / k % L * k)) &&
      p.ok L n w && q.ok L n w

theorem blendi_eq {L w n : Nat} {imm : Nat} (x y : Vec w n) (hL : 0 < L)
    (h : (List.range n).all (fun i => imm.testBit i == imm.testBit (i % L)) = true) :
    Hw.blendi x y imm = gather L (fun j => if imm.testBit j then j + L else j) x y := by
  funext i
  rw [List.all_eq_true] at h
  have h1 := h i.val (List.mem_range.2 i.isLt)
  rw [beq_iff_eq] at h1
  have h2 := Nat.mod_lt i.val hL
  unfold Hw.blendi gather
  dsimp only
  rw [h1]
  split_ifs with h3 h4 h5
  · omega
  · rw [Nat.add_sub_cancel, Nat.div_add_mod', Vec.at_fin]
  · omega
  · rw [Nat.div_add_mod', Vec.at_fin]

theorem maskzi_eq {L w n : Nat} {imm : Nat} (x : Vec w n) (hL : 0 < L)
    (h : (List.range n).all (fun i => imm.testBit i == imm.testBit (i % L)) = true) :
    Hw.maskzi imm x = gather L (fun j => if imm.testBit j then j else 2 * L) x x := by
  funext i
  rw [List.all_eq_true] at h
  have h1 := h i.val (List.mem_range.2 i.isLt)
  rw [beq_iff_eq] at h1
  have h2 := Nat.mod_lt i.val hL
  unfold Hw.maskzi gather
  dsimp only
  rw [h1]
  split_ifs with h3 h4 h5 h6
  · rw [Nat.div_add_mod', Vec.at_fin]
  · omega
  · omega
  · rfl

theorem shuffle_pd_eq {L w n : Nat} {imm : Nat} (x y : Vec w n) (hL : 0 < L) (hL2 : L % 2 = 0)
    (h : (List.range n).all (fun i => imm.testBit i == imm.testBit (i % L)) = true) :
    Hw.shuffle_pd x y imm = gather L (fun j => if j % 2 = 0 then j / 2 * 2 + (imm.testBit j).toNat
      else L + (j / 2 * 2 + (imm.testBit j).toNat)) x y := by
  funext i
  rw [List.all_eq_true] at h
  have h1 := h i.val (List.mem_range.2 i.isLt)
  rw [beq_iff_eq] at h1
  have h2 := Nat.mod_lt i.val hL
  have h3 := Nat.div_add_mod i.val L
  have hb : (imm.testBit (i.val % L)).toNat ≤ 1 := Bool.toNat_le _
  obtain ⟨m, hm⟩ : ∃ m, L = 2 * m := ⟨L / 2, by omega⟩
  have h4 : L * (i.val / L) = 2 * (m * (i.val / L)) := by
    conv_lhs => rw [hm]
    rw [Nat.mul_assoc, ← hm]
  unfold Hw.shuffle_pd gather
  dsimp only
  rw [h1, Nat.mul_comm (i.val / L) L]
  have h5 : i.val % L % 2 = i.val % 2 := by omega
  rw [h5]
  by_cases h6 : i.val % 2 = 0
  · simp only [h6, if_true]
    rw [if_pos (by omega)]
    congr 1; omega
  · simp only [h6, if_false]
    rw [if_neg (by omega), if_pos (by omega)]
    congr 1; omega

theorem blendq_eq {L w n k : Nat} {imm : Nat} (hk : 0 < k) (hw : w = k * (w / k)) (hv : 0 < w / k)
    (x y : Vec w n) (hL : 0 < L) (hn : L ∣ n)
    (h : (List.range (n * k)).all (fun i => imm.testBit i == imm.testBit (i / k % L * k)) = true) :
    Vec.recast w n (Hw.blendi (Vec.recast (w / k) (n * k) x) (Vec.recast (w / k) (n * k) y) imm) =
      gather L (fun j => if imm.testBit (j * k) then j + L else j) x y := by
  rw [← gather_recast hv hk hL hw rfl hn (fun j => if imm.testBit (j * k) then j + L else j)
    (ex k (fun j => if imm.testBit (j * k) then j + L else j)) (fun _ _ => rfl) x y]
  congr 1
  funext i
  rw [List.all_eq_true] at h
  have h1 := h i.val (List.mem_range.2 i.isLt)
  rw [beq_iff_eq] at h1
  have hLk : 0 < L * k := Nat.mul_pos hL hk
  have e1 : i.val % (L * k) / k = i.val / k % L := by
    rw [Nat.mul_comm L k, Nat.mod_mul_right_div_self]
  have e2 : i.val % (L * k) % k = i.val % k := Nat.mod_mul_left_mod _ _ _
  have e3 := Nat.div_add_mod i.val (L * k)
  have e4 := Nat.div_add_mod (i.val % (L * k)) k
  have e5 := Nat.mod_lt i.val hLk
  unfold Hw.blendi gather ex
  dsimp only
  rw [e1, e2, ← h1]
  rw [e1, e2] at e4
  by_cases h2 : imm.testBit i.val = true
  · simp only [h2, if_true]
    have e6 : (i.val / k % L + L) * k + i.val % k = L * k + i.val % (L * k) := by
      rw [Nat.add_mul, ← e4, Nat.mul_comm k]; omega
    rw [e6, if_neg (by omega), if_pos (by omega), Nat.add_sub_cancel_left, Nat.div_add_mod', Vec.at_fin]
  · simp only [h2, Bool.false_eq_true, if_false]
    have e6 : i.val / k % L * k + i.val % k = i.val % (L * k) := by
      rw [← e4, Nat.mul_comm k]
    rw [e6, if_pos e5, Nat.div_add_mod', Vec.at_fin]

theorem run_isG {L w n : Nat} (hL : 0 < L) (hn : L ∣ n) (p : Prog) (hp : p.ok L n w = true)
    (x y : Vec w n) : IsG L x y (p.run L x y) (p.idx L) := by
  induction p with
  | a => exact IsG.a hL x y
  | b => exact IsG.b hL x y
  | g f p q ihp ihq =>
    rw [ok, Bool.and_eq_true] at hp
    exact IsG.gather hn (ihp hp.1) (ihq hp.2)
  | bl imm p q ihp ihq =>
    rw [ok, Bool.and_eq_true, Bool.and_eq_true] at hp
    rw [run, blendi_eq _ _ hL hp.1.1]
    refine IsG.congr hL (IsG.gather hn (ihp hp.1.2) (ihq hp.2)) fun j hj => ?_
    show comp L _ (p.idx L) (q.idx L) j = (if imm.testBit j then q.idx L j else p.idx L j)
    unfold comp
    dsimp only
    by_cases h : imm.testBit j = true
    · simp only [h, if_true]
      rw [if_neg (show ¬ j + L < L by omega), if_pos (show j + L < 2 * L by omega), Nat.add_sub_cancel]
    · simp only [h, Bool.false_eq_true, if_false, hj, if_true]
  | mz imm p ihp =>
    rw [ok, Bool.and_eq_true] at hp
    rw [run, maskzi_eq _ hL hp.1]
    refine IsG.congr hL (IsG.gather hn (ihp hp.2) (ihp hp.2)) fun j hj => ?_
    show comp L _ (p.idx L) (p.idx L) j = (if imm.testBit j then p.idx L j else 2 * L)
    unfold comp
    dsimp only
    by_cases h : imm.testBit j = true
    · simp only [h, if_true, hj]
    · simp only [h, Bool.false_eq_true, if_false]
      rw [if_neg (show ¬ 2 * L < L by omega), if_neg (show ¬ 2 * L < 2 * L by omega)]
  | sub k f p q ihp ihq =>
    simp only [ok, Bool.and_eq_true, decide_eq_true_eq, List.all_eq_true, List.mem_range, beq_iff_eq] at hp
    obtain ⟨⟨⟨⟨⟨hk, hw⟩, hv⟩, hf⟩, h1⟩, h2⟩ := hp
    rw [run, gather_recast hv hk hL hw rfl hn (fun e => f (e * k) / k) f (fun j hj => hf j hj)]
    exact IsG.gather hn (ihp h1) (ihq h2)
  | pd imm p q ihp ihq =>
    rw [ok, Bool.and_eq_true, Bool.and_eq_true, Bool.and_eq_true, decide_eq_true_eq] at hp
    obtain ⟨⟨⟨h2, hb⟩, h3⟩, h4⟩ := hp
    rw [run, shuffle_pd_eq _ _ hL h2 hb]
    refine IsG.congr hL (IsG.gather hn (ihp h3) (ihq h4)) fun j hj => ?_
    have hbit : (imm.testBit j).toNat ≤ 1 := Bool.toNat_le _
    show comp L _ (p.idx L) (q.idx L) j = (if j % 2 = 0 then p.idx L (j / 2 * 2 + (imm.testBit j).toNat)
      else q.idx L (j / 2 * 2 + (imm.testBit j).toNat))
    unfold comp
    dsimp only
    by_cases h : j % 2 = 0
    · simp only [h, if_true]
      rw [if_pos (by omega)]
    · simp only [h, if_false]
      rw [if_neg (by omega), if_pos (by omega), Nat.add_sub_cancel_left]
  | blq k imm p q ihp ihq =>
    simp only [ok, Bool.and_eq_true, decide_eq_true_eq] at hp
    obtain ⟨⟨⟨⟨⟨hk, hw⟩, hv⟩, hf⟩, h1⟩, h2⟩ := hp
    rw [run, blendq_eq hk hw hv _ _ hL hn hf]
    refine IsG.congr hL (IsG.gather hn (ihp h1) (ihq h2)) fun j hj => ?_
    show comp L _ (p.idx L) (q.idx L) j = (if imm.testBit (j * k) then q.idx L j else p.idx L j)
    unfold comp
    dsimp only
    by_cases h : imm.testBit (j * k) = true
    · simp only [h, if_true]
      rw [if_neg (show ¬ j + L < L by omega), if_pos (show j + L < 2 * L by omega), Nat.add_sub_cancel]
    · simp only [h, Bool.false_eq_true, if_false, hj, if_true]

/-- Soundness: a program whose immediates are periodic selects lanes by `idx`. -/
theorem run_eq {L w n : Nat} (hL : 0 < L) (hn : L ∣ n) (p : Prog) (hp : p.ok L n w = true)
    {f : Nat → Nat} (hf : ∀ j, j < L → p.idx L j = f j) (x y : Vec w n) :
    p.run L x y = gather L f x y := (run_isG hL hn p hp x y).eq hL hf

/-! ## Instructions, 32-bit lanes (blocks of four) -/

/-- `unpcklps`, `punpckldq` -/
def unpacklo32 (x y : Prog) : Prog := .g (fun j => if j % 2 = 0 then j / 2 else 4 + j / 2) x y
/-- `unpckhps`, `punpckhdq` -/
def unpackhi32 (x y : Prog) : Prog := .g (fun j => if j % 2 = 0 then 2 + j / 2 else 6 + j / 2) x y
/-- `shufps` -/
def shufps (x y : Prog) (imm : Nat) : Prog :=
  .g (fun j => if j < 2 then Hw.imm2 imm j else 4 + Hw.imm2 imm j) x y
/-- `pshufd` -/
def pshufd (x : Prog) (imm : Nat) : Prog := .g (fun j => Hw.imm2 imm j) x x
/-- `pblendw` seen on 32-bit lanes -/
def blendw32 (x y : Prog) (imm : Nat) : Prog :=
  .sub 2 (fun j => if imm.testBit j then 8 + j else j) x y
/-- `palignr` seen on 32-bit lanes -/
def alignr32 (hi lo : Prog) (imm : Nat) : Prog := .sub 4 (fun j => j + imm) lo hi

theorem run_unpacklo32 {n : Nat} (p q : Prog) (x y : Vec 32 n) :
    (unpacklo32 p q).run 4 x y = Hw.unpacklo (p.run 4 x y) (q.run 4 x y) := rfl
theorem run_unpackhi32 {n : Nat} (p q : Prog) (x y : Vec 32 n) :
    (unpackhi32 p q).run 4 x y = Hw.unpackhi (p.run 4 x y) (q.run 4 x y) := rfl
theorem run_shufps {n : Nat} (p q : Prog) (imm : Nat) (x y : Vec 32 n) :
    (shufps p q imm).run 4 x y = Hw.shuffle_ps (p.run 4 x y) (q.run 4 x y) imm := rfl
theorem run_pshufd {n : Nat} (p : Prog) (imm : Nat) (x y : Vec 32 n) :
    (pshufd p imm).run 4 x y = Hw.shuffle_epi32 (p.run 4 x y) imm := rfl
theorem run_alignr32 {n : Nat} (p q : Prog) (imm : Nat) (x y : Vec 32 n) :
    (alignr32 p q imm).run 4 x y =
      Vec.recast 32 n (Hw.alignr_epi8 (Vec.recast 8 (n * 4) (p.run 4 x y))
        (Vec.recast 8 (n * 4) (q.run 4 x y)) imm) := rfl

end Prog

/-! ## Immediate macros -/

/-- `unsigned` subtraction. -/
def usub (x y : Nat) : Nat := (x + 2 ^ 32 - y) % 2 ^ 32
/-- `_MM_SHUFFLE(z, y, x, w)` -/
def mmShuffle (z y x w : Nat) : Nat := z <<< 6 ||| y <<< 4 ||| x <<< 2 ||| w
/-- `SIMDPP_SHUFFLE_MASK_2x2`. Models /repo/simdpp/detail/shuffle/shuffle_mask.h:21. -/
def mask2x2 (x0 x1 : Nat) : Nat := (x1 <<< 1 ||| x0) &&& 0x3
/-- `SIMDPP_SHUFFLE_MASK_2x2_2`. Models /repo/simdpp/detail/shuffle/shuffle_mask.h:23-25. -/
def mask2x2_2 (x0 x1 : Nat) : Nat := mask2x2 x0 x1 <<< 2 ||| mask2x2 x0 x1
/-- `SIMDPP_SHUFFLE_MASK_2x2_4`. Models /repo/simdpp/detail/shuffle/shuffle_mask.h:27-29. -/
def mask2x2_4 (x0 x1 : Nat) : Nat := mask2x2_2 x0 x1 <<< 4 ||| mask2x2_2 x0 x1
/-- `SIMDPP_SHUFFLE_MASK_4x2`. Models /repo/simdpp/detail/shuffle/shuffle_mask.h:31-32. -/
def mask4x2 (x0 x1 x2 x3 : Nat) : Nat := (x3 <<< 3 ||| x2 <<< 2 ||| x1 <<< 1 ||| x0) &&& 0xf
/-- `SIMDPP_SHUFFLE_MASK_4x2_2`. Models /repo/simdpp/detail/shuffle/shuffle_mask.h:34-36. -/
def mask4x2_2 (x0 x1 x2 x3 : Nat) : Nat := mask4x2 x0 x1 x2 x3 <<< 4 ||| mask4x2 x0 x1 x2 x3
/-- `SIMDPP_SHUFFLE_MASK_4x2_4`. Models /repo/simdpp/detail/shuffle/shuffle_mask.h:38-40. -/
def mask4x2_4 (x0 x1 x2 x3 : Nat) : Nat := mask4x2_2 x0 x1 x2 x3 <<< 8 ||| mask4x2_2 x0 x1 x2 x3
/-- `SIMDPP_SHUFFLE_MASK_4x4`. Models /repo/simdpp/detail/shuffle/shuffle_mask.h:42-43. -/
def mask4x4 (x0 x1 x2 x3 : Nat) : Nat := (x3 <<< 6 ||| x2 <<< 4 ||| x1 <<< 2 ||| x0) &&& 0xff

end Simdpp
