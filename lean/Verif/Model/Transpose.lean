import Verif.Model.Lanes

/-!
# transpose2, transpose4

`simdpp/detail/insn/transpose.h`, `simdpp/detail/null/transpose.h`. The vectors to transpose are a family
`Fin 2 → Vec` or `Fin 4 → Vec`; the C++ functions update them in place.
-/

namespace Simdpp
open Sh

variable {w n : Nat}

/-- The family `x, y`. -/
def vec2 {α : Type} (x y : α) : Fin 2 → α := fun i => if i = 0 then x else y
/-- The family `x, y, z, t`. -/
def vec4 {α : Type} (x y z t : α) : Fin 4 → α := fun i => if i = 0 then x else if i = 1 then y else if i = 2 then z else t

/-! ## Plain loops -/

namespace Null

/-- `std::swap(ap.el(i), aq.el(j))` (undefined past the end). -/
def swapEl {m : Nat} (p q : Fin m) (i j : Nat) (a : Fin m → Vec w n) : Option (Fin m → Vec w n) :=
  if i < n ∧ j < n then
    some fun t e =>
      if t = p ∧ e.val = i then (a q).at_ j
      else if t = q ∧ e.val = j then (a p).at_ i
      else a t e
  else none

/-- Models /repo/simdpp/detail/null/transpose.h:24-30. -/
def transpose2 (a : Fin 2 → Vec w n) : Option (Fin 2 → Vec w n) :=
  forS 2 0 n (fun j a => swapEl 0 1 (j + 1) j a) a

/-- Models /repo/simdpp/detail/null/transpose.h:32-43. -/
def transpose4 (a : Fin 4 → Vec w n) : Option (Fin 4 → Vec w n) :=
  forS 4 0 n (fun j a => do
    let a ← swapEl 0 1 (j + 1) j a
    let a ← swapEl 0 2 (j + 2) j a
    let a ← swapEl 0 3 (j + 3) j a
    let a ← swapEl 1 2 (j + 2) (j + 1) a
    let a ← swapEl 1 3 (j + 3) (j + 1) a
    swapEl 2 3 (j + 3) (j + 2) a) a

end Null

/-! ## transpose2 on one register -/

/-- `i_transpose2` of bytes (a helper of `transpose4`). Models /repo/simdpp/detail/insn/transpose.h:53-74. -/
def i_transpose2_8 (c : Cfg) (a : Fin 2 → Vec 8 n) : Option (Fin 2 → Vec 8 n) :=
  if c.null then Null.transpose2 a
  else if c.neon then some (vec2 (Hw.trn1 (a 0) (a 1)) (Hw.trn2 (a 0) (a 1)))
  else if c.altivec ∨ c.msa then do
    let b0 ← maskShuffle c 1 16 (fun p => if p % 2 = 0 then p else 16 + (p - 1)) (a 0) (a 1)
    let b1 ← maskShuffle c 1 16 (fun p => if p % 2 = 0 then p + 1 else 16 + p) (a 0) (a 1)
    some (vec2 b0 b1)
  else none

/-- zip, then pick the 32-bit pairs. Models /repo/simdpp/detail/insn/transpose.h:129-133, 152-156, 163-167. -/
def sseTranspose2_16 (c : Cfg) (r : Reg) (a : Fin 2 → Vec 16 n) : Option (Fin 2 → Vec 16 n) := do
  let b0 ← i_zip_lo c .int r (a 0) (a 1)
  let b1 ← i_zip_hi c .int r (a 0) (a 1)
  let b0 : Vec 32 (n / 2) := b0.recast 32 (n / 2)
  let b1 : Vec 32 (n / 2) := b1.recast 32 (n / 2)
  let a0 ← shuffle2 c .int r 0 2 0 2 b0 b1
  let a1 ← shuffle2 c .int r 1 3 1 3 b0 b1
  some (vec2 (a0.recast 16 n) (a1.recast 16 n))

/-- `i_transpose2` of 16-bit lanes. Models /repo/simdpp/detail/insn/transpose.h:123-169. -/
def i_transpose2_16 (c : Cfg) (r : Reg) (a : Fin 2 → Vec 16 n) : Option (Fin 2 → Vec 16 n) :=
  match r with
  | .r128 =>
    if c.null then Null.transpose2 a
    else if c.sse2 then sseTranspose2_16 c .r128 a
    else if c.neon then some (vec2 (Hw.trn1 (a 0) (a 1)) (Hw.trn2 (a 0) (a 1)))
    else if c.altivec ∨ c.msa then do
      let b0 ← maskShuffle c 2 8 (fun p => if p % 2 = 0 then p else 8 + (p - 1)) (a 0) (a 1)
      let b1 ← maskShuffle c 2 8 (fun p => if p % 2 = 0 then p + 1 else 8 + p) (a 0) (a 1)
      some (vec2 b0 b1)
    else none
  | r => if c.hasInt 16 r then sseTranspose2_16 c r a else none

/-- Two rounds of zip. Models /repo/simdpp/detail/insn/transpose.h:185-189, 208-212, 220-224, 287-291, 310-314,
322-326. -/
def sseTranspose2_32 (c : Cfg) (k : Kind) (r : Reg) (a : Fin 2 → Vec 32 n) : Option (Fin 2 → Vec 32 n) := do
  let b0 ← i_zip_lo c k r (a 0) (a 1)
  let b1 ← i_zip_hi c k r (a 0) (a 1)
  let b0 : Vec 64 (n / 2) := b0.recast 64 (n / 2)
  let b1 : Vec 64 (n / 2) := b1.recast 64 (n / 2)
  let a0 ← i_zip_lo c k r b0 b1
  let a1 ← i_zip_hi c k r b0 b1
  some (vec2 (a0.recast 32 n) (a1.recast 32 n))

/-- `i_transpose2` of 32-bit lanes. Models /repo/simdpp/detail/insn/transpose.h:179-226, 281-328. -/
def i_transpose2_32 (c : Cfg) (k : Kind) (r : Reg) (a : Fin 2 → Vec 32 n) : Option (Fin 2 → Vec 32 n) :=
  match r with
  | .r128 =>
    if c.null ∨ (k = .flt ∧ c.neonNoFltSp) then Null.transpose2 a
    else if c.sse2 then sseTranspose2_32 c k .r128 a
    else if c.neon then some (vec2 (Hw.trn1 (a 0) (a 1)) (Hw.trn2 (a 0) (a 1)))
    else if c.altivec ∨ c.msa then do
      let b0 ← maskShuffle c 4 4 (sel4 0 (4 + 0) 2 (4 + 2)) (a 0) (a 1)
      let b1 ← maskShuffle c 4 4 (sel4 1 (4 + 1) 3 (4 + 3)) (a 0) (a 1)
      some (vec2 b0 b1)
    else none
  | r => if c.hasVec k 32 r then sseTranspose2_32 c k r a else none

/-- `b0 = zip2_lo(a0, a1); a1 = zip2_hi(a0, a1); a0 = b0;`.
Models /repo/simdpp/detail/insn/transpose.h:240-243, 255-258, 266-269, 342-345, 360-363, 371-374. -/
def zipTranspose2_64 (c : Cfg) (k : Kind) (r : Reg) (a : Fin 2 → Vec 64 n) : Option (Fin 2 → Vec 64 n) := do
  let b0 ← i_zip_lo c k r (a 0) (a 1)
  let a1 ← i_zip_hi c k r (a 0) (a 1)
  some (vec2 b0 a1)

/-- `i_transpose2` of 64-bit lanes. Models /repo/simdpp/detail/insn/transpose.h:236-271, 338-376. -/
def i_transpose2_64 (c : Cfg) (k : Kind) (r : Reg) (a : Fin 2 → Vec 64 n) : Option (Fin 2 → Vec 64 n) :=
  match r with
  | .r128 =>
    if c.sse2 ∨ (k = .int ∧ c.vsx207) ∨ (k = .flt ∧ c.vsx206) ∨ c.msa then zipTranspose2_64 c k .r128 a
    else if (k = .int ∧ c.neon) ∨ (k = .flt ∧ c.neon64) then
      some (vec2 (neonTranspose2 (a 0) (a 1)).1 (neonTranspose2 (a 0) (a 1)).2)
    else if c.null ∨ (k = .flt ∧ c.neon32) ∨ c.altivec then Null.transpose2 a
    else none
  | r => if c.hasVec k 64 r then zipTranspose2_64 c k r a else none

/-- `i_transpose2` on one register. -/
def i_transpose2 (c : Cfg) (k : Kind) (r : Reg) (a : Fin 2 → Vec w n) : Option (Fin 2 → Vec w n) :=
  if h : w = 16 then (h ▸ fun (a : Fin 2 → Vec 16 n) => i_transpose2_16 c r a : (Fin 2 → Vec w n) → Option (Fin 2 → Vec w n)) a
  else if h : w = 32 then
    (h ▸ fun (a : Fin 2 → Vec 32 n) => i_transpose2_32 c k r a : (Fin 2 → Vec w n) → Option (Fin 2 → Vec w n)) a
  else if h : w = 64 then
    (h ▸ fun (a : Fin 2 → Vec 64 n) => i_transpose2_64 c k r a : (Fin 2 → Vec w n) → Option (Fin 2 → Vec w n)) a
  else none

/-! ## transpose4 -/

/-- A binary operation on vectors: the zip functions the helpers below call. -/
abbrev Op2 (w n : Nat) := Vec w n → Vec w n → Option (Vec w n)

/-- `v_sse_transpose32x4`. Models /repo/simdpp/detail/insn/transpose.h:575-595. -/
def sse32x4 {m : Nat} (z4lo z4hi : Op2 32 n) (z2lo z2hi : Op2 64 m) (a : Fin 4 → Vec 32 n) :
    Option (Fin 4 → Vec 32 n) := do
  let b0 ← z4lo (a 0) (a 1)
  let b1 ← z4hi (a 0) (a 1)
  let b2 ← z4lo (a 2) (a 3)
  let b3 ← z4hi (a 2) (a 3)
  let a0 ← z2lo (b0.recast 64 m) (b2.recast 64 m)
  let a1 ← z2hi (b0.recast 64 m) (b2.recast 64 m)
  let a2 ← z2lo (b1.recast 64 m) (b3.recast 64 m)
  let a3 ← z2hi (b1.recast 64 m) (b3.recast 64 m)
  some (vec4 (a0.recast 32 n) (a1.recast 32 n) (a2.recast 32 n) (a3.recast 32 n))

/-- `v_sse_transpose16x4`. Models /repo/simdpp/detail/insn/transpose.h:597-622. -/
def sse16x4 {m l : Nat} (z8lo z8hi : Op2 16 n) (z4lo z4hi : Op2 32 m) (z2lo z2hi : Op2 64 l) (a : Fin 4 → Vec 16 n) :
    Option (Fin 4 → Vec 16 n) := do
  let b0 ← z8lo (a 0) (a 1)
  let b1 ← z8hi (a 0) (a 1)
  let b2 ← z8lo (a 2) (a 3)
  let b3 ← z8hi (a 2) (a 3)
  let c0 ← z4lo (b0.recast 32 m) (b2.recast 32 m)
  let c1 ← z4hi (b0.recast 32 m) (b2.recast 32 m)
  let c2 ← z4lo (b1.recast 32 m) (b3.recast 32 m)
  let c3 ← z4hi (b1.recast 32 m) (b3.recast 32 m)
  let a0 ← z2lo (c0.recast 64 l) (c2.recast 64 l)
  let a1 ← z2hi (c0.recast 64 l) (c2.recast 64 l)
  let a2 ← z2lo (c1.recast 64 l) (c3.recast 64 l)
  let a3 ← z2hi (c1.recast 64 l) (c3.recast 64 l)
  some (vec4 (a0.recast 16 n) (a1.recast 16 n) (a2.recast 16 n) (a3.recast 16 n))

/-- `v_sse_transpose8x4`; `t4` is the 32-bit transpose. Models /repo/simdpp/detail/insn/transpose.h:628-654. -/
def sse8x4 {m l : Nat} (z16lo z16hi : Op2 8 n) (z8lo z8hi : Op2 16 m)
    (t4 : (Fin 4 → Vec 32 l) → Option (Fin 4 → Vec 32 l)) (a : Fin 4 → Vec 8 n) : Option (Fin 4 → Vec 8 n) := do
  let b0 ← z16lo (a 0) (a 1)
  let b1 ← z16lo (a 2) (a 3)
  let b2 ← z16hi (a 0) (a 1)
  let b3 ← z16hi (a 2) (a 3)
  let c0 ← z8lo (b0.recast 16 m) (b1.recast 16 m)
  let c1 ← z8hi (b0.recast 16 m) (b1.recast 16 m)
  let c2 ← z8lo (b2.recast 16 m) (b3.recast 16 m)
  let c3 ← z8hi (b2.recast 16 m) (b3.recast 16 m)
  let t ← t4 (vec4 (c0.recast 32 l) (c1.recast 32 l) (c2.recast 32 l) (c3.recast 32 l))
  some fun i => (t i).recast 8 n

/-- Transpose pairs at one width, then at twice the width.
Models /repo/simdpp/detail/insn/transpose.h:409-415, 455-461, 499-505. -/
def twice {v m : Nat} (t2 : (Fin 2 → Vec w n) → Option (Fin 2 → Vec w n)) (T2 : (Fin 2 → Vec v m) → Option (Fin 2 → Vec v m))
    (a : Fin 4 → Vec w n) : Option (Fin 4 → Vec w n) := do
  let x ← t2 (vec2 (a 0) (a 1))
  let y ← t2 (vec2 (a 2) (a 3))
  let p ← T2 (vec2 ((x 0).recast v m) ((y 0).recast v m))
  let q ← T2 (vec2 ((x 1).recast v m) ((y 1).recast v m))
  some (vec4 ((p 0).recast w n) ((q 0).recast w n) ((p 1).recast w n) ((q 1).recast w n))

/-- The 32-bit helper with the zip functions of a register class. -/
def sse32x4R (c : Cfg) (k : Kind) (r : Reg) (a : Fin 4 → Vec 32 n) : Option (Fin 4 → Vec 32 n) :=
  sse32x4 (m := n / 2) (i_zip_lo c k r) (i_zip_hi c k r) (i_zip_lo c k r) (i_zip_hi c k r) a

/-- `i_transpose4` of 32-bit lanes. Models /repo/simdpp/detail/insn/transpose.h:490-525, 535-565. -/
def i_transpose4_32 (c : Cfg) (k : Kind) (r : Reg) (a : Fin 4 → Vec 32 n) : Option (Fin 4 → Vec 32 n) :=
  match r with
  | .r128 =>
    if c.sse2 then sse32x4R c k .r128 a
    -- float32 goes through uint32
    else if c.null then Null.transpose4 a
    else if c.neon ∨ c.altivec ∨ c.msa then
      twice (v := 64) (m := n / 2) (i_transpose2_32 c .int .r128) (i_transpose2_64 c .int .r128) a
    else none
  | r => if c.hasVec k 32 r then sse32x4R c k r a else none

/-- `i_transpose4` of 16-bit lanes. Models /repo/simdpp/detail/insn/transpose.h:446-480. -/
def i_transpose4_16 (c : Cfg) (r : Reg) (a : Fin 4 → Vec 16 n) : Option (Fin 4 → Vec 16 n) :=
  let sse := fun r => sse16x4 (m := n / 2) (l := n / 4) (i_zip_lo c .int r) (i_zip_hi c .int r)
    (i_zip_lo c .int r) (i_zip_hi c .int r) (i_zip_lo c .int r) (i_zip_hi c .int r) a
  match r with
  | .r128 =>
    if c.null then Null.transpose4 a
    else if c.sse2 then sse .r128
    else if c.neon ∨ c.altivec ∨ c.msa then
      twice (v := 32) (m := n / 2) (i_transpose2_16 c .r128) (i_transpose2_32 c .int .r128) a
    else none
  | r => if c.hasInt 16 r then sse r else none

/-- `i_transpose4` of bytes. Models /repo/simdpp/detail/insn/transpose.h:396-436. -/
def i_transpose4_8 (c : Cfg) (r : Reg) (a : Fin 4 → Vec 8 n) : Option (Fin 4 → Vec 8 n) :=
  let sse := fun r => sse8x4 (m := n / 2) (l := n / 4) (i_zip_lo c .int r) (i_zip_hi c .int r)
    (i_zip_lo c .int r) (i_zip_hi c .int r) (i_transpose4_32 c .int r) a
  match r with
  | .r128 =>
    if c.null then Null.transpose4 a
    else if c.sse2 then sse .r128
    else if c.neon ∨ c.altivec ∨ c.msa then
      twice (v := 16) (m := n / 2) (i_transpose2_8 c) (i_transpose2_16 c .r128) a
    else none
  | r => if c.hasInt 8 r then sse r else none

/-- `i_transpose4` on one register. -/
def i_transpose4 (c : Cfg) (k : Kind) (r : Reg) (a : Fin 4 → Vec w n) : Option (Fin 4 → Vec w n) :=
  if h : w = 8 then (h ▸ fun (a : Fin 4 → Vec 8 n) => i_transpose4_8 c r a : (Fin 4 → Vec w n) → Option (Fin 4 → Vec w n)) a
  else if h : w = 16 then
    (h ▸ fun (a : Fin 4 → Vec 16 n) => i_transpose4_16 c r a : (Fin 4 → Vec w n) → Option (Fin 4 → Vec w n)) a
  else if h : w = 32 then
    (h ▸ fun (a : Fin 4 → Vec 32 n) => i_transpose4_32 c k r a : (Fin 4 → Vec w n) → Option (Fin 4 → Vec w n)) a
  else none

/-! ## Vectors of several registers -/

/-- `vec_array_impl<I, End>::apply2_ref`, `apply4_ref`: `op` in place on register `I` of all vectors, then `I + 1`.
Models /repo/simdpp/detail/vector_array_macros.h:53-65, 82-86, 115-121. -/
def Arr.applyRef {α : Type} {m K : Nat} (op : (Fin m → α) → Option (Fin m → α)) (I : Nat) (v : Fin m → Fin K → α) :
    Option (Fin m → Fin K → α) :=
  if h : I < K then
    (op fun p => v p ⟨I, h⟩).bind fun x => Arr.applyRef op (I + 1) fun p => Arr.set (v p) ⟨I, h⟩ (x p)
  else some v
termination_by K - I

/-- `transpose2(a0, a1)`, vectors of `K` registers. Models /repo/simdpp/core/transpose.h:48-172 and the array versions
/repo/simdpp/detail/insn/transpose.h:171-175, 228-232, 273-277, 330-334, 378-382. -/
def transpose2 (c : Cfg) (k : Kind) (r : Reg) {K : Nat} (v : Fin 2 → Fin K → Vec w (r.lanes w)) :
    Option (Fin 2 → Fin K → Vec w (r.lanes w)) := Arr.applyRef (i_transpose2 c k r) 0 v

/-- A zip function on a vector of `K` registers of class `r`, on the lanes of the whole vector
(`SIMDPP_VEC_ARRAY_IMPL2`). -/
def wholeOp (op : Op2 w n) (K : Nat) {N : Nat} (a b : Vec w N) : Option (Vec w N) :=
  let regs := fun (a : Vec w N) (i : Fin K) (j : Fin n) => a.at_ (i.val * n + j.val)
  (Arr.apply2 op (regs a) (regs b) 0 (fun _ => Vec.splat 0)).map
    fun x => fun i => Vec.at_ (Arr.flat x : Vec w (K * n)) i.val

/-- Zip on the lanes of a 512-bit vector: one register if there is a class for it, otherwise two 256-bit registers. -/
def zip512 (hi : Bool) (c : Cfg) (w : Nat) : Op2 w (512 / w) :=
  let op := fun (r : Reg) => (if hi then i_zip_hi c .int r else i_zip_lo c .int r : Op2 w (r.lanes w))
  if c.hasInt w .r512 then wholeOp (op .r512) 1 else wholeOp (op .r256) 2

/-- The overloads that exist under AVX2 for 512 bits: `v_sse_transpose16x4` and `v_sse_transpose32x4` on whole vectors.
Models /repo/simdpp/detail/insn/transpose.h:474-480, 518-525. -/
def transpose4_512 (c : Cfg) (w : Nat) (a : Fin 4 → Vec w (512 / w)) : Option (Fin 4 → Vec w (512 / w)) :=
  if h : w = 16 then
    (h ▸ fun (a : Fin 4 → Vec 16 32) => sse16x4 (m := 16) (l := 8) (zip512 false c 16) (zip512 true c 16)
      (zip512 false c 32) (zip512 true c 32) (zip512 false c 64) (zip512 true c 64) a :
      (Fin 4 → Vec w (512 / w)) → Option (Fin 4 → Vec w (512 / w))) a
  else if h : w = 32 then
    (h ▸ fun (a : Fin 4 → Vec 32 16) => sse32x4 (m := 8) (zip512 false c 32) (zip512 true c 32)
      (zip512 false c 64) (zip512 true c 64) a :
      (Fin 4 → Vec w (512 / w)) → Option (Fin 4 → Vec w (512 / w))) a
  else none

/-- `transpose4(a0, a1, a2, a3)`, vectors of `K` registers. Models /repo/simdpp/core/transpose.h:175-313, the array
versions /repo/simdpp/detail/insn/transpose.h:438-442, 482-486, 527-531, 567-571 and the 512-bit overloads. -/
def transpose4 (c : Cfg) (k : Kind) (r : Reg) {K : Nat} (v : Fin 4 → Fin K → Vec w (r.lanes w)) :
    Option (Fin 4 → Fin K → Vec w (r.lanes w)) :=
  if k = .int ∧ (w = 16 ∨ w = 32) ∧ r = .r256 ∧ c.avx2 ∧ K = 2 then
    (transpose4_512 c w fun p i => Vec.at_ (Arr.flat (v p) : Vec w (K * r.lanes w)) i.val).map
      fun x p i j => (x p).at_ (i.val * r.lanes w + j.val)
  else Arr.applyRef (i_transpose4 c k r) 0 v

end Simdpp
