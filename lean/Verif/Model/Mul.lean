import Verif.Model.Conv
import Verif.Model.Arith
import Verif.Model.Null

/-!
# Integer multiplication

`simdpp/detail/insn/i_mul_lo.h`, `i_mul_hi.h`, `i_mull.h` and the wrappers `simdpp/core/i_mul.h`, `i_mull.h`.
Simplified: the branches for big-endian AltiVec are not modelled; the inline assembly of VSX 2.07 is taken to be the
instruction it names (even and odd lanes numbered as on the little-endian targets).
-/

namespace Simdpp
open Sh

variable {w v n N : Nat}

namespace Hw

/-- Full product of two lanes, in `v` bits. -/
def mulLane (sg : Bool) (v : Nat) (x y : BitVec w) : BitVec v := extLane sg v x * extLane sg v y
/-- `pmullw`, `pmulld`, `vmulq`, `vec_mladd(.., .., 0)`, `vmuluwm`, `mulv.{h,w,d}`: low half of the product. -/
def mullo (a b : Vec w n) : Vec w n := fun i => a i * b i
/-- `pmulhw` / `pmulhuw`: high half of the product. -/
def mulhi (sg : Bool) (a b : Vec w n) : Vec w n := fun i => (mulLane sg (2 * w) (a i) (b i)).extractLsb' w w
/-- `vmull_{s,u}{16,32}`: full products. -/
def vmull (sg : Bool) (v : Nat) (a b : Vec w n) : Vec v n := fun i => mulLane sg v (a i) (b i)
/-- `pmuludq` / `pmuldq`: full products of the low halves of 64-bit lanes. -/
def mul_ep32 (sg : Bool) (a b : Vec 64 n) : Vec 64 n := fun i => mulLane sg 64 ((a i).setWidth 32) ((b i).setWidth 32)
/-- `vec_mule` (`o = 0`), `vec_mulo` (`o = 1`): full products of the even / odd lanes. -/
def vmul_eo {m : Nat} (o : Nat) (sg : Bool) (v : Nat) (a b : Vec w n) : Vec v m := fun i =>
  mulLane sg v (a.at_ (2 * i.val + o)) (b.at_ (2 * i.val + o))
/-- `vpermq` by a register of indices. -/
def permutexvar64 (idx : List Nat) (a : Vec 64 n) : Vec 64 n := fun i => a.at_ (idx.getD i.val 0 % n)

end Hw

/-- `i_mul_lo` on 16-bit lanes. Models /repo/simdpp/detail/insn/i_mul_lo.h:28-59. -/
def i_mul_lo16 (c : Cfg) (r : Reg) (a b : Vec 16 n) : Option (Vec 16 n) :=
  match r with
  | .r128 =>
    if c.null then Null.mul false a b
    else if c.sse2 ∨ c.neon ∨ c.altivec ∨ c.msa then some (Hw.mullo a b)
    else none
  | .r256 => if c.avx2 then some (Hw.mullo a b) else none
  | .r512 => if c.avx512bw then some (Hw.mullo a b) else none

/-- `i_mul_lo` on 32-bit lanes. Models /repo/simdpp/detail/insn/i_mul_lo.h:63-139. -/
def i_mul_lo32 (c : Cfg) (r : Reg) (a b : Vec 32 n) : Option (Vec 32 n) :=
  match r with
  | .r128 =>
    if c.null then Null.mul false a b
    else if c.sse41 then some (Hw.mullo a b)
    else if c.sse2 then do
      let a1 ← moveL1 c .int 1 a
      let b1 ← moveL1 c .int 1 b
      let r0 := (Hw.mul_ep32 false (a.recast 64 (n / 2) : Vec 64 (n / 2)) (b.recast 64 (n / 2))).recast 32 n
      let a1 := (Hw.mul_ep32 false (a1.recast 64 (n / 2) : Vec 64 (n / 2)) (b1.recast 64 (n / 2))).recast 32 n
      let r0 ← shuffle2 c .int .r128 0 2 0 2 r0 a1
      i_permute4_32 c true .int .r128 0 2 1 3 r0
    else if c.neon ∨ c.vsx207 then some (Hw.mullo a b)
    else if c.altivec then do
      let ra : Vec 16 (n * 2) := a.recast 16 (n * 2)
      let rb : Vec 16 (n * 2) := b.recast 16 (n * 2)
      let sa ← moveL1 c .int 1 ra
      let sb ← moveL1 c .int 1 rb
      let l_ab : Vec 32 n := Hw.vmul_eo 0 false 32 ra rb
      let h_ab : Vec 32 n := Hw.vmul_eo 0 false 32 ra sb
      let h_ba : Vec 32 n := Hw.vmul_eo 0 false 32 sa rb
      let t ← i_iadd c .r128 h_ab h_ba
      let h_ab ← shift_l_imm c .r128 16 t
      i_iadd c .r128 h_ab l_ab
    else if c.msa then some (Hw.mullo a b)
    else none
  | .r256 => if c.avx2 then some (Hw.mullo a b) else none
  | .r512 => if c.avx512f then some (Hw.mullo a b) else none

/-! ## Widening multiplication -/

/-- `zip_lo(a, z)`, `zip_hi(a, z)` on one register, seen as `m` lanes of twice the width. -/
def zipPairR (c : Cfg) (r : Reg) (m : Nat) (a z : Vec w n) (p : Nat) : Option (Vec (2 * w) m) :=
  (if p = 0 then i_zip_lo c .int r a z else i_zip_hi c .int r a z).map (·.recast (2 * w) m)

/-- The portable element loops `T(a.el(i)) * b.el(i)`.
Models /repo/simdpp/detail/insn/i_mull.h:60-64, 129-133, 198-203, 278-283, 317-324. -/
def Null.mull (sg : Bool) (v : Nat) (a b : Vec w n) : Option (Vec v n) :=
  lanesM fun i => (C.mul (C.cast ⟨sg, v⟩ (C.lane sg (a i))) (C.lane sg (b i))).map (C.toLane v)

/-- `i_mull(int16<N>)`, `i_mull(uint16<N>)` on one register.
Models /repo/simdpp/detail/insn/i_mull.h:56-111, 125-180. -/
def mull16 (c : Cfg) (sg : Bool) (r : Reg) (a b : Vec 16 n) : Option (Vec 32 n) :=
  match r with
  | .r128 =>
    if c.null then Null.mull sg 32 a b
    else if c.sse2 then catM 4 (zipPairR c .r128 4 (Hw.mullo a b) (Hw.mulhi sg a b))
    else if c.neon then catM 4 (fun p => some (Hw.vmull sg 32 (Hw.part 4 p a) (Hw.part 4 p b)))
    else if c.altivec then
      let lo : Vec 32 4 := Hw.vmul_eo 0 sg 32 a b
      let hi : Vec 32 4 := Hw.vmul_eo 1 sg 32 a b
      catM 4 (fun p => if p = 0 then i_zip_lo c .int .r128 lo hi else i_zip_hi c .int .r128 lo hi)
    else if c.msa then do
      let a32 ← i_ext16_32 c sg a
      let b32 ← i_ext16_32 c sg b
      some (Hw.mullo a32 b32)
    else none
  | .r256 =>
    if c.avx2 then
      let as : Vec 16 n := (Hw.permute4x64 (a.recast 64 4 : Vec 64 4) (mmShuffle 3 1 2 0)).recast 16 n
      let bs : Vec 16 n := (Hw.permute4x64 (b.recast 64 4 : Vec 64 4) (mmShuffle 3 1 2 0)).recast 16 n
      catM 8 (zipPairR c .r256 8 (Hw.mullo as bs) (Hw.mulhi sg as bs))
    else none
  | .r512 =>
    if c.avx512bw then
      let as : Vec 16 n := (Hw.permutexvar64 [0, 4, 1, 5, 2, 6, 3, 7] (a.recast 64 8 : Vec 64 8)).recast 16 n
      let bs : Vec 16 n := (Hw.permutexvar64 [0, 4, 1, 5, 2, 6, 3, 7] (b.recast 64 8 : Vec 64 8)).recast 16 n
      catM 16 (zipPairR c .r512 16 (Hw.mullo as bs) (Hw.mulhi sg as bs))
    else none

/-- `i_mull(int32<N>)`, `i_mull(uint32<N>)` on one register. There is no overload for `int32<16>`: the template calls
itself forever (`none`). Models /repo/simdpp/detail/insn/i_mull.h:194-260, 274-366. -/
def mull32 (c : Cfg) (sg : Bool) (r : Reg) (a b : Vec 32 n) : Option (Vec 64 n) :=
  match r with
  | .r128 =>
    if c.null then Null.mull sg 64 a b
    else if (if sg then c.sse41 else c.sse2) then
      catM 2 (fun p => do
        let al ← zipPairR c .r128 2 a a p
        let bl ← zipPairR c .r128 2 b b p
        some (Hw.mul_ep32 sg al bl))
    else if c.neon then catM 2 (fun p => some (Hw.vmull sg 64 (Hw.part 2 p a) (Hw.part 2 p b)))
    else if c.vsx207 then
      let lo : Vec 64 2 := Hw.vmul_eo 0 sg 64 a b
      let hi : Vec 64 2 := Hw.vmul_eo 1 sg 64 a b
      catM 2 (fun p => if p = 0 then i_zip_lo c .int .r128 lo hi else i_zip_hi c .int .r128 lo hi)
    else if ¬ sg ∧ c.altivec then Null.mull sg 64 a b
    else if c.msa then do
      let a64 ← i_ext32_64 c sg a
      let b64 ← i_ext32_64 c sg b
      some (Hw.mullo a64 b64)
    else none
  | .r256 =>
    if c.avx2 then
      catM 4 (fun p => do
        let al ← i_ext32_64 c sg (Hw.part 4 p a)
        let bl ← i_ext32_64 c sg (Hw.part 4 p b)
        some (Hw.mul_ep32 sg al bl))
    else none
  | .r512 =>
    if c.avx512f ∧ ¬ sg then
      catM 8 (fun p => do
        let al ← i_ext32_64 c sg (Hw.part 8 p a)
        let bl ← i_ext32_64 c sg (Hw.part 8 p b)
        some (Hw.mul_ep32 sg al bl))
    else none

/-- The template loop `subvec_insert(r, mull(a.vec(i), b.vec(i)), i)`: `g I` is the product of registers `I` (of `m`
lanes), in registers of `md` lanes; the result has registers of `md'` lanes.
Models /repo/simdpp/detail/insn/i_mull.h:113-121, 182-190, 262-270, 368-376,
/repo/simdpp/core/detail/subvec_insert.h:24-32. -/
def subvecFill {m : Nat} (md md' cnt : Nat) (g : Nat → Option (Vec v m)) : Option (Vec v N) :=
  if md = md' then do
    let dst ← forS 1 0 cnt (fun I dst => do
      let x ← g I
      forS 1 0 (m / md) (fun p dst => do
        let j ← vecIx (m / md) p
        regWr (N / md) dst (I * (m / md) + p) (Hw.part md j x)) dst) (fun _ => none)
    catM md dst
  else none

/-- An `i_mull` overload set on a whole vector. -/
def mullAll (c : Cfg) (f : Reg → Vec w ((c.regOf w N).lanes w) → Vec w ((c.regOf w N).lanes w) →
    Option (Vec v ((c.regOf w N).lanes w))) (a b : Vec w N) : Option (Vec v N) :=
  let r := c.regOf w N
  if h : N = r.lanes w then (f r (h ▸ a) (h ▸ b)).map (h ▸ ·)
  else subvecFill ((c.regOf v (r.lanes w)).lanes v) ((c.regOf v N).lanes v) (N / r.lanes w)
    (fun I => f r (Hw.part (r.lanes w) I a) (Hw.part (r.lanes w) I b))

/-- `mull(int16<N>, int16<N>)`, `mull(uint16<N>, uint16<N>)`. Models /repo/simdpp/core/i_mull.h:67-71, 91-95. -/
def i_mull16 (c : Cfg) (sg : Bool) (a b : Vec 16 N) : Option (Vec 32 N) := mullAll c (mull16 c sg) a b

/-- `mull(int32<N>, int32<N>)`, `mull(uint32<N>, uint32<N>)`. Models /repo/simdpp/core/i_mull.h:116-120, 140-144. -/
def i_mull32 (c : Cfg) (sg : Bool) (a b : Vec 32 N) : Option (Vec 64 N) := mullAll c (mull32 c sg) a b

/-! ## High half -/

/-- `i_mul_hi`, portable: `(int32_t(a.el(i)) * b.el(i)) >> 16`.
Models /repo/simdpp/detail/insn/i_mul_hi.h:30-34, 76-80. -/
def Null.mul_hi (sg : Bool) (a b : Vec 16 n) : Option (Vec 16 n) :=
  lanesM fun i => ((C.mul (C.cast ⟨sg, 32⟩ (C.lane sg (a i))) (C.lane sg (b i))).bind fun t => C.shr t ⟨C.int32, 16⟩).map (C.toLane 16)

/-- `i_mul_hi(int16<N>)`, `i_mul_hi(uint16<N>)`. Models /repo/simdpp/detail/insn/i_mul_hi.h:26-112. -/
def i_mul_hi (c : Cfg) (sg : Bool) (r : Reg) (a b : Vec 16 n) : Option (Vec 16 n) :=
  match r with
  | .r128 =>
    if c.null then Null.mul_hi sg a b
    else if c.sse2 then some (Hw.mulhi sg a b)
    else if c.neon then do
      let lo : Vec 32 4 := Hw.vmull sg 32 (Hw.part 4 0 a) (Hw.part 4 0 b)
      let hi : Vec 32 4 := Hw.vmull sg 32 (Hw.part 4 1 a) (Hw.part 4 1 b)
      i_unzip_hi c .int .r128 (lo.recast 16 n) (hi.recast 16 n)
    else if c.altivec ∨ c.msa then do
      let ab ← i_mull16 c sg a b
      i_unzip_hi c .int .r128 ((Hw.part 4 0 ab).recast 16 n) ((Hw.part 4 1 ab).recast 16 n)
    else none
  | .r256 => if c.avx2 then some (Hw.mulhi sg a b) else none
  | .r512 => if c.avx512bw then some (Hw.mulhi sg a b) else none

end Simdpp
