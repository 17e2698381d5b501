import Verif.Model.Cfg

/-!
# Instruction semantics (trusted)

Lane semantics of the vendor instructions the library uses, from the Intel SDM,
the ARM ARM and the Power/MIPS manuals. Definitions are polymorphic in the number of
lanes, so one definition stands for the 128-, 256- and 512-bit forms.
-/

namespace Simdpp.Hw

variable {w n : Nat}

/-- `pand`, `andps`, `vand`, `vec_and`, `and.v` -/
def and (a b : Vec w n) : Vec w n := fun i => a i &&& b i
/-- `por`, `vorr`, `vec_or`, `or.v` -/
def or (a b : Vec w n) : Vec w n := fun i => a i ||| b i
/-- `pxor`, `veor`, `vec_xor`, `xor.v` -/
def xor (a b : Vec w n) : Vec w n := fun i => a i ^^^ b i
/-- `pandn a b` (x86): complement of the FIRST operand: `~a & b` -/
def pandn (a b : Vec w n) : Vec w n := fun i => ~~~ (a i) &&& b i
/-- `vbic a b` (NEON), `vec_andc a b` (AltiVec): `a & ~b` -/
def bic (a b : Vec w n) : Vec w n := fun i => a i &&& ~~~ (b i)
/-- `vec_nor`, `nor.v` -/
def nor (a b : Vec w n) : Vec w n := fun i => ~~~ (a i ||| b i)
/-- `vmvn` -/
def mvn (a : Vec w n) : Vec w n := fun i => ~~~ (a i)

/-- One bit of `vpternlog`: bit `(a<<2)|(b<<1)|c` of the immediate. -/
def ternBit (imm : Nat) (a b c : Bool) : Bool :=
  imm.testBit ((if a then 4 else 0) + (if b then 2 else 0) + (if c then 1 else 0))
/-- `vpternlogd/q` -/
def ternlog (imm : Nat) (a b c : Vec w n) : Vec w n :=
  fun i => ofBits w fun k => ternBit imm ((a i).getLsbD k) ((b i).getLsbD k) ((c i).getLsbD k)

/-- `vmovdqu8{k}{z}` and siblings (`_mm_maskz_mov_*`): lanes with a clear mask bit are zeroed. -/
def maskz_mov (m : Fin n → Bool) (a : Vec w n) : Vec w n := fun i => if m i then a i else 0
/-- `vpblendm*` (`_mm_mask_blend_*(m, a, b)`): `m ? b : a`. -/
def mask_blend (m : Fin n → Bool) (a b : Vec w n) : Vec w n := fun i => if m i then b i else a i
/-- `vpmovm2*` (`_mm_movm_*`): mask register to all-ones/zeros lanes. -/
def movm (m : Fin n → Bool) : Vec w n := fun i => if m i then BitVec.allOnes w else 0
/-- `vpmov*2m` (`_mm_movepi*_mask`): most significant bit of each lane. -/
def movepi_mask (a : Vec w n) : Fin n → Bool := fun i => (a i).msb
/-- `vptestm` (`_mm_test_epi*_mask(a, b)`): lane of `a & b` nonzero. -/
def test_mask (a b : Vec w n) : Fin n → Bool := fun i => decide (a i &&& b i ≠ 0)

/-- `kand` -/
def kand (a b : Fin n → Bool) : Fin n → Bool := fun i => a i && b i
/-- `kandn a b` = `~a & b` -/
def kandn (a b : Fin n → Bool) : Fin n → Bool := fun i => !(a i) && b i
/-- `kor` -/
def kor (a b : Fin n → Bool) : Fin n → Bool := fun i => a i || b i
/-- `kxor` -/
def kxor (a b : Fin n → Bool) : Fin n → Bool := fun i => a i ^^ b i
/-- `knot` -/
def knot (a : Fin n → Bool) : Fin n → Bool := fun i => !(a i)

/-- `paddX`, `vaddq`, `vec_add`, `addv.X`: modulo `2^w` -/
def add (a b : Vec w n) : Vec w n := fun i => a i + b i
/-- `psubX`, `vsubq`, `vec_sub`, `subv.X` -/
def sub (a b : Vec w n) : Vec w n := fun i => a i - b i

/-- Signed saturation of an integer to `w` bits. -/
def ssat (w : Nat) (z : Int) : BitVec w :=
  BitVec.ofInt w (if z < -(2 ^ (w - 1)) then -(2 ^ (w - 1)) else if 2 ^ (w - 1) - 1 < z then 2 ^ (w - 1) - 1 else z)
/-- Unsigned saturation of an integer to `w` bits. -/
def usat (w : Nat) (z : Int) : BitVec w :=
  BitVec.ofInt w (if z < 0 then 0 else if 2 ^ w - 1 < z then 2 ^ w - 1 else z)

/-- `paddsX`, `vqaddq_s`, `vec_adds`, `adds_s.X` -/
def adds_s (a b : Vec w n) : Vec w n := fun i => ssat w ((a i).toInt + (b i).toInt)
/-- `paddusX`, `vqaddq_u`, `vec_adds`, `adds_u.X` -/
def adds_u (a b : Vec w n) : Vec w n := fun i => usat w ((a i).toNat + (b i).toNat)
/-- `psubsX`, `vqsubq_s`, `vec_subs`, `subs_s.X` -/
def subs_s (a b : Vec w n) : Vec w n := fun i => ssat w ((a i).toInt - (b i).toInt)
/-- `psubusX`, `vqsubq_u`, `vec_subs`, `subs_u.X` -/
def subs_u (a b : Vec w n) : Vec w n := fun i => usat w ((a i).toNat - (b i).toNat)

end Simdpp.Hw
