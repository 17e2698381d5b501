import Verif.Model.Gather
import Verif.Model.Intrin

/-!
# Lane-moving instructions (trusted)

From the Intel SDM, the ARM ARM, the Power ISA / GCC AltiVec manual (little-endian lane
numbering) and the MIPS MSA manual. All 256/512-bit x86 forms used by the library work inside each
128-bit block, which is the block length `128 / w` below.
-/

namespace Simdpp.Hw

open Sh

variable {w n : Nat}

/-- `punpckl*`, `unpcklps/pd` -/
def unpacklo (a b : Vec w n) : Vec w n :=
  gather (128 / w) (fun j => if j % 2 = 0 then j / 2 else 128 / w + j / 2) a b
/-- `punpckh*`, `unpckhps/pd` -/
def unpackhi (a b : Vec w n) : Vec w n :=
  gather (128 / w) (fun j =>
    if j % 2 = 0 then 128 / w / 2 + j / 2 else 128 / w + 128 / w / 2 + j / 2) a b
/-- `vzipq(a,b).val[0]` -/
def zip0 (a b : Vec w n) : Vec w n :=
  gather (128 / w) (fun j => if j % 2 = 0 then j / 2 else 128 / w + j / 2) a b
/-- `vzipq(a,b).val[1]` -/
def zip1 (a b : Vec w n) : Vec w n :=
  gather (128 / w) (fun j =>
    if j % 2 = 0 then 128 / w / 2 + j / 2 else 128 / w + 128 / w / 2 + j / 2) a b
/-- `vec_mergeh` (lane numbering of the element order, i.e. lanes `0 .. n/2-1`) -/
def mergeh (a b : Vec w n) : Vec w n :=
  gather (128 / w) (fun j => if j % 2 = 0 then j / 2 else 128 / w + j / 2) a b
/-- `vec_mergel` -/
def mergel (a b : Vec w n) : Vec w n :=
  gather (128 / w) (fun j =>
    if j % 2 = 0 then 128 / w / 2 + j / 2 else 128 / w + 128 / w / 2 + j / 2) a b
/-- `__msa_ilvr_*(x, y)`: even lanes from the low half of `y`, odd lanes from that of `x`. -/
def ilvr (x y : Vec w n) : Vec w n :=
  gather (128 / w) (fun j => if j % 2 = 0 then 128 / w + j / 2 else j / 2) x y
/-- `__msa_ilvl_*(x, y)`: even lanes from the high half of `y`, odd lanes from that of `x`. -/
def ilvl (x y : Vec w n) : Vec w n :=
  gather (128 / w) (fun j =>
    if j % 2 = 0 then 128 / w + 128 / w / 2 + j / 2 else 128 / w / 2 + j / 2) x y
/-- `vuzpq(a,b).val[0]` -/
def uzp0 (a b : Vec w n) : Vec w n := gather (128 / w) (fun j => 2 * j) a b
/-- `vuzpq(a,b).val[1]` -/
def uzp1 (a b : Vec w n) : Vec w n := gather (128 / w) (fun j => 2 * j + 1) a b
/-- `__msa_pckev_*(x, y)`: low half from the even lanes of `y`, high half from those of `x`. -/
def pckev (x y : Vec w n) : Vec w n :=
  gather (128 / w) (fun j =>
    if j < 128 / w / 2 then 128 / w + 2 * j else 2 * (j - 128 / w / 2)) x y
/-- `__msa_pckod_*(x, y)` -/
def pckod (x y : Vec w n) : Vec w n :=
  gather (128 / w) (fun j =>
    if j < 128 / w / 2 then 128 / w + 2 * j + 1 else 2 * (j - 128 / w / 2) + 1) x y

/-- Two-bit field `j` of an immediate. -/
def imm2 (imm j : Nat) : Nat := imm >>> (2 * j) % 4

/-- `shufps` -/
def shuffle_ps (a b : Vec 32 n) (imm : Nat) : Vec 32 n :=
  gather 4 (fun j => if j < 2 then imm2 imm j else 4 + imm2 imm j) a b
/-- `pshufd` -/
def shuffle_epi32 (a : Vec 32 n) (imm : Nat) : Vec 32 n := gather 4 (fun j => imm2 imm j) a a
/-- `pshuflw` -/
def shufflelo_epi16 (a : Vec 16 n) (imm : Nat) : Vec 16 n :=
  gather 8 (fun j => if j < 4 then imm2 imm j else j) a a
/-- `pshufhw` -/
def shufflehi_epi16 (a : Vec 16 n) (imm : Nat) : Vec 16 n :=
  gather 8 (fun j => if j < 4 then j else 4 + imm2 imm (j - 4)) a a
/-- `__msa_shf_h`, `__msa_shf_w`: within every group of four lanes. -/
def shf (a : Vec w n) (imm : Nat) : Vec w n := gather 4 (fun j => imm2 imm j) a a
/-- `shufpd`: bit `i` of the immediate for result lane `i`. -/
def shuffle_pd (a b : Vec w n) (imm : Nat) : Vec w n := fun i =>
  if i.val % 2 = 0 then a.at_ (i.val / 2 * 2 + (imm.testBit i.val).toNat)
  else b.at_ (i.val / 2 * 2 + (imm.testBit i.val).toNat)
/-- `vpermilpd`/`_mm_permute_pd`: bit `i` of the immediate for result lane `i`. -/
def permute_pd (a : Vec 64 n) (imm : Nat) : Vec 64 n := fun i =>
  a.at_ (i.val / 2 * 2 + (imm.testBit i.val).toNat)
/-- `vpermq`, `vpermpd` (immediate): within every group of four 64-bit lanes. -/
def permute4x64 (a : Vec 64 n) (imm : Nat) : Vec 64 n := gather 4 (fun j => imm2 imm j) a a
/-- `blendps`, `blendpd`, `vpblendd`, `_mm512_mask_blend_*` with an immediate mask:
lane `i` from `b` if bit `i` is set. -/
def blendi (a b : Vec w n) (imm : Nat) : Vec w n := fun i =>
  if imm.testBit i.val then b i else a i
/-- `pblendw`: the same 8-bit immediate in every 128-bit block. -/
def blend_epi16 (a b : Vec 16 n) (imm : Nat) : Vec 16 n := fun i =>
  if imm.testBit (i.val % 8) then b i else a i
/-- Zero-masking with an immediate mask (`_mm512_maskz_*`). -/
def maskzi (imm : Nat) (x : Vec w n) : Vec w n := fun i => if imm.testBit i.val then x i else 0
/-- Merge-masking with an immediate mask (`_mm512_mask_*(src, imm, ...)`). -/
def maski (src : Vec w n) (imm : Nat) (x : Vec w n) : Vec w n := fun i =>
  if imm.testBit i.val then x i else src i

/-- `palignr hi, lo, imm` -/
def alignr_epi8 (hi lo : Vec 8 n) (imm : Nat) : Vec 8 n := gather 16 (fun j => j + imm) lo hi
/-- `psrldq` -/
def bsrli (a : Vec 8 n) (imm : Nat) : Vec 8 n :=
  gather 16 (fun j => if j + imm < 16 then j + imm else 32) a a
/-- `pslldq` -/
def bslli (a : Vec 8 n) (imm : Nat) : Vec 8 n :=
  gather 16 (fun j => if imm ≤ j then j - imm else 32) a a
/-- `vextq_*(a, b, k)`, an immediate below the number of lanes (`none`: does not assemble). -/
def ext (a b : Vec w n) (k : Nat) : Option (Vec w n) :=
  if k < 128 / w then some (gather (128 / w) (fun j => j + k) a b) else none
/-- `vec_sld(x, y, k)`, `0 ≤ k ≤ 15`: bytes `k .. k+15` of the big-endian concatenation `x:y`,
seen in little-endian lane numbers. -/
def sld (x y : Vec 8 n) (k : Nat) : Option (Vec 8 n) :=
  if k < 16 then some (gather 16 (fun j => if k ≤ j then j - k else 16 + (16 + j - k)) x y)
  else none
/-- `__msa_sldi_b(hi, lo, k)`, `0 ≤ k ≤ 15`: bytes `k .. k+15` of `hi:lo`. -/
def sldi_b (hi lo : Vec 8 n) (k : Nat) : Option (Vec 8 n) :=
  if k < 16 then some (gather 16 (fun j => j + k) lo hi) else none
/-- `__msa_sld_b(hi, lo, k)`: count modulo 16. -/
def sld_b (hi lo : Vec 8 n) (k : Nat) : Vec 8 n := gather 16 (fun j => j + k % 16) lo hi

/-! ## Table look-ups on bytes (run-time masks) -/

/-- `pshufb` (all widths; in each 128-bit block) -/
def pshufb (a m : Vec 8 n) : Vec 8 n := fun i =>
  if (m i).getLsbD 7 then 0 else a.at_ (i.val / 16 * 16 + (m i).toNat % 16)
/-- XOP `vpperm a, b, m`: bits 4..0 choose a byte of `b:a`; bits 7..5 an operation. Operation 0 is
"source byte", 4 is "zero"; the others (invert, reverse, ...) are given as uninterpreted by `none`,
which the callers below never need. -/
def vpperm (a b m : Vec 8 n) : Option (Vec 8 n) :=
  lanesM fun i =>
    let op := (m i).toNat / 32
    let k := (m i).toNat % 32
    if op = 0 then
      some (if k < 16 then a.at_ (i.val / 16 * 16 + k) else b.at_ (i.val / 16 * 16 + (k - 16)))
    else if op = 4 then some 0 else none
/-- `vtbl2_u8` on both halves, `vqtbl1q_u8`: indices of 16 or more give zero. -/
def tbl1 (a m : Vec 8 n) : Vec 8 n := fun i =>
  if (m i).toNat < 16 then a.at_ (m i).toNat else 0
/-- `vtbl4_u8` on both halves, `vqtbl2q_u8`: indices of 32 or more give zero. -/
def tbl2 (a b m : Vec 8 n) : Vec 8 n := fun i =>
  if (m i).toNat < 16 then a.at_ (m i).toNat
  else if (m i).toNat < 32 then b.at_ ((m i).toNat - 16) else 0
/-- `vec_perm(a, b, m)`: low five bits of each mask byte. -/
def vperm (a b m : Vec 8 n) : Vec 8 n := fun i =>
  if (m i).toNat % 32 < 16 then a.at_ ((m i).toNat % 32) else b.at_ ((m i).toNat % 32 - 16)
/-- `__msa_vshf_b(m, hi, lo)`: bits 7..6 nonzero give zero; bits 4..0 index `hi:lo`. -/
def vshf_b (m hi lo : Vec 8 n) : Vec 8 n := fun i =>
  if (m i).toNat / 64 ≠ 0 then 0
  else if (m i).toNat % 32 < 16 then lo.at_ ((m i).toNat % 32) else hi.at_ ((m i).toNat % 32 - 16)
/-- `__msa_vshf_h/w/d(m, hi, lo)` with immediate selectors: lane `j` is lane `m j` of `hi:lo`. -/
def vshf (m : Nat → Nat) (hi lo : Vec w n) : Vec w n := gather (128 / w) m lo hi

end Simdpp.Hw
