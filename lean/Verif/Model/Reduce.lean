import Verif.Model.MinMax
import Verif.Model.Conv
import Verif.Model.Lanes

/-!
# reduce_and, reduce_or, reduce_min, reduce_max

`simdpp/detail/insn/i_reduce_and.h`, `i_reduce_or.h`, `i_reduce_min.h`, `i_reduce_max.h` with the public functions
of `simdpp/core/i_reduce_*.h`.

A vector of `N` lanes is the flat `Vec w N`: one register when `N` is a register length, else an array of the
widest registers, whose register `j` is `Hw.part L j a`.
-/

namespace Simdpp

variable {w n N : Nat}

/-- `for (unsigned j = lo; j < lo + count; ++j) s = body(j, s)`. -/
def loopM {σ : Type} (body : Nat → σ → Option σ) (lo : Nat) : Nat → σ → Option σ
  | 0, s => some s
  | m + 1, s => (loopM body lo m s).bind (body (lo + m))

/-- `r = op(r, moveN_l<s>(r))` for the shifts in `ss`, in order. -/
def redTree (c : Cfg) (op : Vec w n → Vec w n → Option (Vec w n)) : List Nat → Vec w n → Option (Vec w n)
  | [], a => some a
  | s :: ss, a => do
    let t ← moveL1 c .int s a
    let r ← op a t
    redTree c op ss r

/-- The shifts of the 128-bit trees: `move16_l<8,4,2,1>`, `move8_l<4,2,1>`, `move4_l<2,1>`, `move2_l<1>`.
Models e.g. /repo/simdpp/detail/insn/i_reduce_or.h:36-39, 95-97, 153-154, 205. -/
def redSteps (w : Nat) : List Nat :=
  if w = 8 then [8, 4, 2, 1] else if w = 16 then [4, 2, 1] else if w = 32 then [2, 1] else [1]

/-- `redTree`, then `extract<0>`. -/
def redTree0 (c : Cfg) (sg : Bool) (op : Vec w n → Vec w n → Option (Vec w n)) (a : Vec w n) :
    Option (BitVec w) := do
  let r ← redTree c op (redSteps w) a
  i_extract c .int sg .r128 0 r

/-- The wide overloads: split into two halves of the next smaller register (`extract128<0/1>`,
`extract256<0/1>`), combine, and reduce the half. The 32- and 64-bit AVX2 overloads repeat the 128-bit tree
inline instead of calling the 128-bit function; under AVX2 both are the same code.
Models /repo/simdpp/detail/insn/i_reduce_or.h:44-61, 102-119, 159-177, 216-233, and the same lines of
i_reduce_and.h; i_reduce_max.h:49-66, 115-132, 189-206, 257-274, 323-341, 383-401, 445-462, 517-534 and
i_reduce_min.h. -/
def redReg (c : Cfg) (op : Reg → {n : Nat} → Vec w n → Vec w n → Option (Vec w n))
    (one : Vec w (Reg.r128.lanes w) → Option (BitVec w)) (r : Reg) (a : Vec w n) : Option (BitVec w) :=
  let red256 (b : Vec w (Reg.r256.lanes w)) : Option (BitVec w) :=
    (op .r128 (Hw.part (Reg.r128.lanes w) 0 b) (Hw.part (Reg.r128.lanes w) 1 b)).bind one
  match r with
  | .r128 => one (Hw.part (Reg.r128.lanes w) 0 a)
  | .r256 => if c.hasInt w .r256 then red256 (Hw.part (Reg.r256.lanes w) 0 a) else none
  | .r512 =>
    if c.hasInt w .r512 then
      (op .r256 (Hw.part (Reg.r256.lanes w) 0 a) (Hw.part (Reg.r256.lanes w) 1 a)).bind red256
    else none

/-- `r = a.vec<0>(); for (j = 1; ...) r = op(r, a.vec(j))`.
Models e.g. /repo/simdpp/detail/insn/i_reduce_or.h:75-78. -/
def accArr {L : Nat} (op : Vec w L → Vec w L → Option (Vec w L)) (a : Vec w N) : Option (Vec w L) :=
  loopM (fun j r => op r (Hw.part L j a)) 1 (N / L - 1) (Hw.part L 0 a)

/-- Is the vector type of `N` lanes one register (else it is an array)? -/
def Cfg.single (c : Cfg) (w N : Nat) : Bool := decide (N = (c.regOf w N).lanes w)

/-! ## and, or -/

/-- `and` (`isAnd`) or `or` of two registers -/
def redBitOp (c : Cfg) (isAnd : Bool) (r : Reg) {n : Nat} (a b : Vec w n) : Option (Vec w n) :=
  if isAnd then i_bit_and c .int r a b else i_bit_or c .int r a b

/-- `r &= x`, `r |= x` on lanes (unsigned element types). -/
def bitLane (isAnd : Bool) (x y : BitVec w) : BitVec w := if isAnd then x &&& y else x ||| y

/-- The portable loop `r = a.el(0); for (i = start; i < length; i++) r op= a.el(i)`; `start` is 0 or 1.
Models /repo/simdpp/detail/insn/i_reduce_or.h:30-34, 89-93, 147-151, 208-212 and i_reduce_and.h. -/
def bitLoop (isAnd : Bool) (start : Nat) (a : Vec w n) : Option (BitVec w) :=
  (Hw.extr a 0).bind fun r => loopM (fun i r => (Hw.extr a i).map (bitLane isAnd r)) start (n - start) r

/-- The portable loop over an array: `r = init; for j, for i: r op= a.vec(j).el(i)`, where the two loops visit
the lanes in order. Models /repo/simdpp/detail/insn/i_reduce_or.h:67-73, 125-131, 183-189, 239-245 and
i_reduce_and.h. -/
def bitLoopAll (isAnd : Bool) (a : Vec w N) : Option (BitVec w) :=
  loopM (fun i r => (Hw.extr a i).map (bitLane isAnd r)) 0 N (if isAnd then BitVec.allOnes w else 0)

/-- `i_reduce_and`/`i_reduce_or` of one 128-bit register.
Models /repo/simdpp/detail/insn/i_reduce_or.h:26-42, 85-100, 143-157, 201-214 and i_reduce_and.h. -/
def i_reduce_bit128 (c : Cfg) (isAnd : Bool) (a : Vec w (Reg.r128.lanes w)) : Option (BitVec w) :=
  if w = 64 then
    if c.sse2 ∨ c.neon ∨ c.vsx207 ∨ c.msa then redTree0 c false (redBitOp c isAnd .r128) a
    else if c.null ∨ c.altivec then bitLoop isAnd 0 a
    else none
  else if c.null then bitLoop isAnd (if w = 8 ∧ isAnd = false then 1 else 0) a
  else if c.sse2 ∨ c.neon ∨ c.altivec ∨ c.msa then redTree0 c false (redBitOp c isAnd .r128) a
  else none

/-- `reduce_and`/`reduce_or` of `N` lanes. Signed vectors are cast to unsigned ones and back.
Models /repo/simdpp/core/i_reduce_and.h, i_reduce_or.h and, for arrays,
/repo/simdpp/detail/insn/i_reduce_or.h:63-81, 121-139, 179-197, 235-253 and i_reduce_and.h (where 64-bit lanes on
AltiVec without VSX 2.07 take the portable loop). -/
def reduce_bit (c : Cfg) (isAnd : Bool) (a : Vec w N) : Option (BitVec w) :=
  if c.single w N then redReg c (redBitOp c isAnd) (i_reduce_bit128 c isAnd) (c.regOf w N) a
  else if c.null ∨ (isAnd ∧ w = 64 ∧ c.altivec ∧ ¬ c.vsx207) then bitLoopAll isAnd a
  else do
    let r ← accArr (L := (c.fast w).lanes w) (redBitOp c isAnd (c.fast w)) a
    redReg c (redBitOp c isAnd) (i_reduce_bit128 c isAnd) (c.fast w) r

/-! ## min, max -/

/-- `min`/`max` of two registers -/
def redMmOp (c : Cfg) (isMax s : Bool) (r : Reg) {n : Nat} (a b : Vec w n) : Option (Vec w n) :=
  if isMax then i_max c s r a b else i_min c s r a b

open C in
/-- `r = r > x ? r : x` (max), `r = r < x ? r : x` (min). -/
def mmLane (isMax s : Bool) (r x : BitVec w) : BitVec w :=
  if isMax then (if gt (lane s r) (lane s x) then r else x) else (if lt (lane s r) (lane s x) then r else x)

/-- The loop `r = el(0); for (i = start; ...) r = r > el(i) ? r : el(i)`, over vector lanes (portable) or over a
`mem_block` (SSE2). Models /repo/simdpp/detail/insn/i_reduce_max.h:33-37, 94-98, 170-174, 242-246, 302-306,
314-319, 369-373, 432-433, 435-439, 504-505, 507-511 and i_reduce_min.h. -/
def mmLoop (isMax s : Bool) (start : Nat) (a : Vec w n) : Option (BitVec w) :=
  (Hw.extr a 0).bind fun r => loopM (fun i r => (Hw.extr a i).map (mmLane isMax s r)) start (n - start) r

/-- `std::numeric_limits<T>::min()` for max, `max()` for min. -/
def mmInit (isMax s : Bool) (w : Nat) : BitVec w :=
  BitVec.ofInt w (if isMax then (C.Ty.min ⟨s, w⟩) else (C.Ty.max ⟨s, w⟩))

/-- The loop over an array, `r = numeric_limits...; for j, for i: r = r > a.vec(j).el(i) ? ...`.
Models /repo/simdpp/detail/insn/i_reduce_max.h:72-78, 138-144, 212-218, 280-286, 347-353, 407-413, 474-481,
483-489, 546-553, 555-561 and i_reduce_min.h. -/
def mmLoopAll (isMax s : Bool) (a : Vec w N) : Option (BitVec w) :=
  loopM (fun i r => (Hw.extr a i).map (mmLane isMax s r)) 0 N (mmInit isMax s w)

/-- `vmaxvq`, `vminvq` (NEON64): the greatest/least of all lanes. -/
def Hw.mmv (isMax s : Bool) (a : Vec w n) : BitVec w :=
  (List.range n).foldl (fun r i => let x := a.at_ i
    if isMax then (if Spec.val s r < Spec.val s x then x else r) else (if Spec.val s x < Spec.val s r then x else r))
    (a.at_ 0)

/-- `i_reduce_max`/`i_reduce_min` of one 128-bit register, 64-bit lanes. The two files differ: max has no MSA
branch for unsigned lanes; min tests VSX 2.06 for signed lanes and has no 32-bit NEON branch for them.
Models /repo/simdpp/detail/insn/i_reduce_max.h:425-443, 497-515, i_reduce_min.h:423-441, 495-513. -/
def i_reduce_mm64 (c : Cfg) (isMax s : Bool) (a : Vec w (Reg.r128.lanes w)) : Option (BitVec w) :=
  if c.avx2 ∨ c.neon64 ∨ (if ¬ isMax ∧ s then c.vsx206 else c.vsx207) ∨ (c.msa ∧ (s ∨ ¬ isMax)) then
    redTree0 c s (redMmOp c isMax s .r128) a
  else if c.sse2 ∨ (c.neon32 ∧ (isMax ∨ ¬ s)) then mmLoop isMax s 1 a
  else if c.null ∨ c.altivec then mmLoop isMax s 0 a
  else none

/-- `i_reduce_max`/`i_reduce_min` of one 128-bit register of 8-, 16- or 32-bit lanes, except the SSE2 code that
flips the sign bit. Models /repo/simdpp/detail/insn/i_reduce_max.h:31-47, 90-107, 166-181, 238-255, 298-321,
365-381 and i_reduce_min.h. -/
def i_reduce_mm128n (c : Cfg) (isMax s : Bool) (a : Vec w (Reg.r128.lanes w)) : Option (BitVec w) :=
  if c.null then mmLoop isMax s (if w = 32 ∧ isMax = false ∧ s = true then 1 else 0) a
  else if c.neon64 then some (Hw.mmv isMax s a)
  else if c.sse41 ∨ (c.sse2 ∧ ((w = 8 ∧ ¬ s) ∨ (w = 16 ∧ s) ∨ (w = 32 ∧ s))) ∨ c.neon ∨ c.altivec ∨ c.msa then
    redTree0 c s (redMmOp c isMax s .r128) a
  else if c.sse2 ∧ w = 32 then mmLoop isMax s 1 a
  else none

/-- `i_reduce_max`/`i_reduce_min` of one 128-bit register. On SSE2 without SSE4.1, int8 and uint16 flip the sign
bit, use the other signedness and flip back (`i_reduce_max(ca) ^ 0x80`).
Models /repo/simdpp/detail/insn/i_reduce_max.h:31-47, 90-113, 166-187, 238-255, 298-321, 365-381, 425-443, 497-515
and i_reduce_min.h. -/
def i_reduce_mm128 (c : Cfg) (isMax s : Bool) (a : Vec w (Reg.r128.lanes w)) : Option (BitVec w) :=
  if w = 64 then i_reduce_mm64 c isMax s a
  else if c.sse2 ∧ ¬ c.sse41 ∧ ((w = 8 ∧ s) ∨ (w = 16 ∧ ¬ s)) then do
    let ca ← xorBias c .r128 a
    let r ← i_reduce_mm128n c isMax (!s) ca
    some (r ^^^ BitVec.ofNat w (2 ^ (w - 1)))
  else i_reduce_mm128n c isMax s a

/-- Which array overloads loop over the elements instead of combining registers. 64-bit lanes: max tests the
undefined macro `SIMDPP_USE_AXV2` for signed lanes, so AVX2 takes the SSE2 loop there; min tests VSX 2.06.
Models /repo/simdpp/detail/insn/i_reduce_max.h:71, 137, 211, 279, 346, 406, 467-492, 539-564 and
i_reduce_min.h:465-490, 537-562. -/
def mmArrLoops (c : Cfg) (isMax s : Bool) (w : Nat) : Bool :=
  if w = 64 then
    let vec := (c.avx2 && !(isMax && s)) || c.neon64 || (if !isMax && s then c.vsx206 else c.vsx207) || c.msa
    !vec && (c.sse2 || c.neon32 || c.null || c.altivec)
  else c.null

/-- `reduce_max`/`reduce_min` of `N` lanes.
Models /repo/simdpp/core/i_reduce_max.h, i_reduce_min.h and, for arrays,
/repo/simdpp/detail/insn/i_reduce_max.h:68-86, 134-160, 208-234, 276-294, 343-361, 403-421, 464-493, 536-565 and
i_reduce_min.h. -/
def reduce_mm (c : Cfg) (isMax s : Bool) (a : Vec w N) : Option (BitVec w) :=
  if c.single w N then redReg c (redMmOp c isMax s) (i_reduce_mm128 c isMax s) (c.regOf w N) a
  else if mmArrLoops c isMax s w then mmLoopAll isMax s a
  else if c.sse2 ∧ ¬ c.sse41 ∧ ((w = 8 ∧ s) ∨ (w = 16 ∧ ¬ s)) then do
    let r0 ← xorBias c .r128 (Hw.part (Reg.r128.lanes w) 0 a)
    let r ← loopM (fun j r => do
      let ca ← xorBias c .r128 (Hw.part (Reg.r128.lanes w) j a)
      redMmOp c isMax (!s) .r128 r ca) 1 (N / Reg.r128.lanes w - 1) r0
    let r ← i_reduce_mm128n c isMax (!s) r
    some (r ^^^ BitVec.ofNat w (2 ^ (w - 1)))
  else do
    let r ← accArr (L := (c.fast w).lanes w) (redMmOp c isMax s (c.fast w)) a
    redReg c (redMmOp c isMax s) (i_reduce_mm128 c isMax s) (c.fast w) r

end Simdpp
