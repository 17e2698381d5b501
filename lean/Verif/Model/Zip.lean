import Verif.Model.Shuffle64

/-!
# zip_lo, zip_hi, unzip_lo, unzip_hi

`simdpp/detail/insn/zip_lo.h`, `zip_hi.h`, `unzip_lo.h`, `unzip_hi.h`.
-/

namespace Simdpp

open Sh

namespace Hw

variable {w n : Nat}

/-- Narrowing pack: in every 128-bit block, the low half from `a`, the high half from `b`. -/
def pack {m : Nat} (f : BitVec (2 * w) → BitVec w) (a b : Vec (2 * w) m) : Vec w n := fun i =>
  let L := 128 / w
  if i.val % L < L / 2 then f (a.at_ (i.val / L * (L / 2) + i.val % L))
  else f (b.at_ (i.val / L * (L / 2) + (i.val % L - L / 2)))
/-- `packsswb`, `packssdw`: signed input, signed saturation. -/
def packs {m : Nat} (a b : Vec (2 * w) m) : Vec w n := pack (fun x => ssat w x.toInt) a b
/-- `packuswb`, `packusdw`: signed input, unsigned saturation. -/
def packus {m : Nat} (a b : Vec (2 * w) m) : Vec w n := pack (fun x => usat w x.toInt) a b
/-- `vec_pack`: truncation. -/
def vpack {m : Nat} (a b : Vec (2 * w) m) : Vec w n := pack (fun x => x.setWidth w) a b
/-- `movhlps x, y` seen on 64-bit lanes: low lane is the high lane of `y`, high lane that of `x`. -/
def movehl (x y : Vec 64 n) : Vec 64 n := gather 2 (fun j => if j = 0 then 3 else 1) x y

end Hw

variable {w n : Nat}

/-! ## Interleave -/

/-- `neon::transpose2`: `a = vcombine(al, bl); b = vcombine(ah, bh);` (NEON registers are one 128-bit block).
Models /repo/simdpp/detail/neon/shuffle.h:60-70. -/
def neonTranspose2 (a b : Vec w n) : Vec w n × Vec w n :=
  (fun i => if i.val = 0 then a.at_ 0 else b.at_ 0, fun i => if i.val = 0 then a.at_ 1 else b.at_ 1)

/-- `i_zip{16,8,4,2}_lo`. `w = 64` is `int`: 131-158, `flt`: 211-238; otherwise `int`: 28-128, `flt`: 171-207.
Models /repo/simdpp/detail/insn/zip_lo.h:26-245, /repo/simdpp/detail/neon/shuffle.h:72-78. -/
def i_zip_lo (c : Cfg) (k : Kind) (r : Reg) (a b : Vec w n) : Option (Vec w n) :=
  match r with
  | .r128 =>
    if w = 64 then
      match k with
      | .int =>
        if c.sse2 then some (Hw.unpacklo a b)
        else if c.neon then some (neonTranspose2 a b).1
        else if c.vsx207 then some (Hw.mergeh a b)
        else if c.msa then some (Hw.ilvr b a)
        else if c.null ∨ c.altivec then Null.zip_lo a b
        else none
      | .flt =>
        if c.sse2 then some (Hw.unpacklo a b)
        else if c.neon64 then some (Hw.trn1 a b)
        else if c.vsx206 then some (Hw.mergeh a b)
        else if c.msa then some (Hw.ilvr b a)
        else if c.null ∨ c.altivec ∨ c.neon then Null.zip_lo a b
        else none
    else
      if c.null ∨ (k = .flt ∧ c.neonNoFltSp) then Null.zip_lo a b
      else if c.sse2 then some (Hw.unpacklo a b)
      else if c.neon then some (Hw.zip0 a b)
      else if c.altivec then some (Hw.mergeh a b)
      else if c.msa then some (Hw.ilvr b a)
      else none
  | r => if c.hasVec k w r then some (Hw.unpacklo a b) else none

/-- `i_zip{16,8,4,2}_hi`. Models /repo/simdpp/detail/insn/zip_hi.h:25-262, /repo/simdpp/detail/neon/shuffle.h:80-86. -/
def i_zip_hi (c : Cfg) (k : Kind) (r : Reg) (a b : Vec w n) : Option (Vec w n) :=
  match r with
  | .r128 =>
    if w = 64 then
      match k with
      | .int =>
        if c.sse2 then some (Hw.unpackhi a b)
        else if c.neon then some (neonTranspose2 a b).2
        else if c.vsx207 then some (Hw.mergel a b)
        else if c.null ∨ c.altivec then Null.zip_hi a b
        else if c.msa then some (Hw.ilvl b a)
        else none
      | .flt =>
        if c.sse2 then some (Vec.recast w n (Hw.movehl (b.recast 64 n) (a.recast 64 n)))
        else if c.neon64 then some (Hw.trn2 a b)
        else if c.vsx206 then some (Hw.mergel a b)
        else if c.null ∨ c.altivec ∨ c.neon then Null.zip_hi a b
        else if c.msa then some (Hw.ilvl b a)
        else none
    else
      if c.null ∨ (k = .flt ∧ c.neonNoFltSp) then Null.zip_hi a b
      else if c.sse2 then some (Hw.unpackhi a b)
      else if c.neon then some (Hw.zip1 a b)
      else if c.altivec then some (Hw.mergel a b)
      else if c.msa then some (Hw.ilvl b a)
      else none
  | r => if c.hasVec k w r then some (Hw.unpackhi a b) else none

/-! ## De-interleave -/

/-- `mask = make_ones(); mask = srli(mask, w); a = bit_and(a, mask);`: the low halves of the double-width lanes.
Models /repo/simdpp/detail/insn/unzip_lo.h:35-38, 63-66, 77-80, 102-105, 137-140, 151-154. -/
def keepLo (c : Cfg) (r : Reg) (a : Vec w n) : Option (Vec w n) :=
  let mask : Vec (2 * w) (n / 2) := Hw.srl (Vec.splat (BitVec.allOnes (2 * w))) w
  i_bit_and c .int r a (mask.recast w n)

/-- The `packus` sequence. Models /repo/simdpp/detail/insn/unzip_lo.h:34-40, 61-68, 75-82, 101-107, 135-142. -/
def unzipLoPackus (c : Cfg) (r : Reg) (a b : Vec w n) : Option (Vec w n) := do
  let a ← keepLo c r a
  let b ← keepLo c r b
  some (Hw.packus (a.recast (2 * w) (n / 2)) (b.recast (2 * w) (n / 2)))

/-- `i_unzip{16,8}_lo`, `w` is 8 or 16. Models /repo/simdpp/detail/insn/unzip_lo.h:27-158. -/
def i_unzip_lo_bw (c : Cfg) (r : Reg) (a b : Vec w n) : Option (Vec w n) :=
  let a2 := a.recast (2 * w) (n / 2)
  let b2 := b.recast (2 * w) (n / 2)
  match r with
  | .r128 =>
    if c.null then Null.unzip_lo a b
    else if (w = 8 ∧ c.sse2) ∨ c.sse41 then unzipLoPackus c r a b
    else if c.sse2 then some (Hw.packs (Hw.sra (Hw.sll a2 16) 16) (Hw.sra (Hw.sll b2 16) 16))
    else if c.neon then some (Hw.uzp0 a b)
    else if c.altivec then some (Hw.vpack a2 b2)
    else if c.msa then some (Hw.pckev b a)
    else none
  | r => if c.hasInt w r then unzipLoPackus c r a b else none

/-- `i_unzip4_lo`. Models /repo/simdpp/detail/insn/unzip_lo.h:168-199 (`int`), 217-248 (`flt`). -/
def i_unzip_lo_32 (c : Cfg) (k : Kind) (r : Reg) (a b : Vec 32 n) : Option (Vec 32 n) :=
  match r with
  | .r128 =>
    if c.null ∨ (k = .flt ∧ c.neonNoFltSp) then Null.unzip_lo a b
    else if c.sse2 then shuffle2 c k .r128 0 2 0 2 a b
    else if c.neon then some (Hw.uzp0 a b)
    else if c.altivec then maskShuffle c 4 4 (sel4 0 2 4 6) a b
    else if c.msa then some (Hw.pckev b a)
    else none
  | r => if c.hasVec k 32 r then shuffle2 c k r 0 2 0 2 a b else none

/-- `i_unzip{16,8}_hi`, `w` is 8 or 16. Models /repo/simdpp/detail/insn/unzip_hi.h:25-129. -/
def i_unzip_hi_bw (c : Cfg) (r : Reg) (a b : Vec w n) : Option (Vec w n) :=
  let a2 := a.recast (2 * w) (n / 2)
  let b2 := b.recast (2 * w) (n / 2)
  match r with
  | .r128 =>
    if c.null then Null.unzip_hi a b
    else if c.sse2 then some (Hw.packs (Hw.sra a2 w) (Hw.sra b2 w))
    else if c.neon then some (Hw.uzp1 a b)
    else if c.altivec then maskShuffle c (w / 8) (128 / w) (fun p => 2 * p + 1) a b
    else if c.msa then some (Hw.pckod b a)
    else none
  | r => if c.hasInt w r then some (Hw.packs (Hw.sra a2 w) (Hw.sra b2 w)) else none

/-- `i_unzip4_hi`; the AltiVec `float32` version casts to `uint32`.
Models /repo/simdpp/detail/insn/unzip_hi.h:139-167 (`int`), 185-215 (`flt`). -/
def i_unzip_hi_32 (c : Cfg) (k : Kind) (r : Reg) (a b : Vec 32 n) : Option (Vec 32 n) :=
  match r with
  | .r128 =>
    if c.null ∨ (k = .flt ∧ c.neonNoFltSp) then Null.unzip_hi a b
    else if c.sse2 then shuffle2 c k .r128 1 3 1 3 a b
    else if c.neon then some (Hw.uzp1 a b)
    else if c.altivec then shuffle2 c .int .r128 1 3 1 3 a b
    else if c.msa then some (Hw.pckod b a)
    else none
  | r => if c.hasVec k 32 r then shuffle2 c k r 1 3 1 3 a b else none

/-- `unzip{16,8,4,2}_lo`; the 64-bit version is `zip2_lo`.
Models /repo/simdpp/detail/insn/unzip_lo.h:27-262. -/
def i_unzip_lo (c : Cfg) (k : Kind) (r : Reg) (a b : Vec w n) : Option (Vec w n) :=
  if w = 64 then i_zip_lo c k r a b
  else if h : w = 32 then (h ▸ fun (a b : Vec 32 n) => i_unzip_lo_32 c k r a b : Vec w n → Vec w n → Option (Vec w n)) a b
  else i_unzip_lo_bw c r a b

/-- `unzip{16,8,4,2}_hi`; the 64-bit version is `zip2_hi`.
Models /repo/simdpp/detail/insn/unzip_hi.h:25-230. -/
def i_unzip_hi (c : Cfg) (k : Kind) (r : Reg) (a b : Vec w n) : Option (Vec w n) :=
  if w = 64 then i_zip_hi c k r a b
  else if h : w = 32 then (h ▸ fun (a b : Vec 32 n) => i_unzip_hi_32 c k r a b : Vec w n → Vec w n → Option (Vec w n)) a b
  else i_unzip_hi_bw c r a b

end Simdpp
