import Verif.Model.Mem
import Verif.Model.Conv
import Verif.Model.Transpose

/-!
# Interleaved loads and stores: load_packed2/3/4, store_packed2/3/4

`simdpp/detail/insn/mem_pack.h`, `mem_unpack.h`, `shuffle128.h`, `load_packed{2,3,4}.h`, `store_packed{2,3,4}.h`. The vectors
are a family `Fin M → Vec`; the C++ functions take them one by one and update them in place. Conversions between vector
types keep the bits: `as1`/`as2` apply a function on `u`-bit lanes to registers of other lanes. Constants given by `make_uint`
are those of property C43.
-/

namespace Simdpp
open Sh

variable {w n N M : Nat}

/-- The family `x, y, z`. -/
def vec3 {α : Type} (x y z : α) : Fin 3 → α := fun i => if i = 0 then x else if i = 1 then y else z

/-- All members of a family. -/
def famM {α : Type} (f : Fin M → Option α) : Option (Fin M → α) :=
  if h : ∀ q, (f q).isSome = true then some (fun q => (f q).get (h q)) else none

/-- `op` on a register seen as `l` lanes of `u` bits. -/
def as1 (u l : Nat) (op : Vec u l → Option (Vec u l)) (a : Vec w n) : Option (Vec w n) :=
  (op (a.recast u l)).map (·.recast w n)
/-- `op` on two registers seen as `l` lanes of `u` bits. -/
def as2 (u l : Nat) (op : Vec u l → Vec u l → Option (Vec u l)) (a b : Vec w n) : Option (Vec w n) :=
  (op (a.recast u l) (b.recast u l)).map (·.recast w n)

/-! ## Shuffles of 128-bit parts -/

/-- `shuffle1_128<s0,s1>` on 256-bit registers. Models /repo/simdpp/detail/insn/shuffle128.h:106-151 (the versions for
arrays of two registers are not used by the callers below). -/
def shuffle1_128 (c : Cfg) (k : Kind) (s0 s1 : Nat) (a b : Vec w n) : Option (Vec w n) :=
  if c.hasVec k w .r256 then some (Hw.permute2x128 a b (((s1 + 2) <<< 4) + s0)) else none

/-- `shuffle2_128<s0,s1,s2,s3>` on 512-bit registers. Models /repo/simdpp/detail/insn/shuffle128.h:49-89. -/
def shuffle2_128 (c : Cfg) (k : Kind) (s0 s1 s2 s3 : Nat) (a b : Vec w n) : Option (Vec w n) :=
  if c.hasVec k w .r512 then some (Hw.shuffle_x128 a b ((s3 <<< 6) + (s2 <<< 4) + (s1 <<< 2) + s0)) else none

/-- `permute4_128<s0,s1,s2,s3>`. Models /repo/simdpp/detail/insn/shuffle128.h:183-189. -/
def permute4_128 (c : Cfg) (k : Kind) (s0 s1 s2 s3 : Nat) (a : Vec w n) : Option (Vec w n) := shuffle2_128 c k s0 s1 s2 s3 a a

/-! ## Two vectors -/

/-- `mem_pack2`. Models /repo/simdpp/detail/insn/mem_pack.h:40-79, /repo/simdpp/detail/insn/zip128.h:40-52. -/
def mem_pack2 (c : Cfg) (k : Kind) (r : Reg) (x : Fin 2 → Vec w n) : Option (Fin 2 → Vec w n) := do
  let c1 ← i_zip_lo c k r (x 0) (x 1)
  let c2 ← i_zip_hi c k r (x 0) (x 1)
  match r with
  | .r128 => some (vec2 c1 c2)
  | .r256 =>
    let a ← shuffle1_128 c k 0 0 c1 c2
    let b ← shuffle1_128 c k 1 1 c1 c2
    some (vec2 a b)
  | .r512 =>
    let d1 ← shuffle2_128 c k 0 1 0 1 c1 c2
    let d2 ← shuffle2_128 c k 2 3 2 3 c1 c2
    let a ← permute4_128 c k 0 2 1 3 d1
    let b ← permute4_128 c k 0 2 1 3 d2
    some (vec2 a b)

/-- `mem_unpack2`. Models /repo/simdpp/detail/insn/mem_unpack.h:42-76, /repo/simdpp/detail/insn/zip128.h:26-38. -/
def mem_unpack2 (c : Cfg) (k : Kind) (r : Reg) (x : Fin 2 → Vec w n) : Option (Fin 2 → Vec w n) := do
  let y ← (match r with
    | .r128 => some x
    | .r256 => do
      let c1 ← shuffle1_128 c k 0 0 (x 0) (x 1)
      let c2 ← shuffle1_128 c k 1 1 (x 0) (x 1)
      some (vec2 c1 c2)
    | .r512 => do
      let c1 ← shuffle2_128 c k 0 2 0 2 (x 0) (x 1)
      let c2 ← shuffle2_128 c k 1 3 1 3 (x 0) (x 1)
      some (vec2 c1 c2))
  let a ← i_unzip_lo c k r (y 0) (y 1)
  let b ← i_unzip_hi c k r (y 0) (y 1)
  some (vec2 a b)

/-! ## Three vectors: interleave -/

/-- The three low bytes of every 32-bit lane moved together, zeros above.
Models /repo/simdpp/detail/insn/mem_pack.h:143-186. -/
def squeeze8 (c : Cfg) (r : Reg) (u : Vec 8 n) : Option (Vec 8 n) :=
  if c.ssse3 then i_permute_bytes16 c r u (maskVec16 n [0, 1, 2, 4, 5, 6, 8, 9, 10, 12, 13, 14, 0xff, 0xff, 0xff, 0xff])
  else do
    let w0 ← as1 64 (r.lanes 64) (fun a => i_shift_r c false r a 8) u
    let u ← i_blend c .int r u w0 (maskVec16 n [0xff, 0xff, 0xff, 0, 0, 0, 0, 0, 0xff, 0xff, 0xff, 0, 0, 0, 0, 0])
    let x0 ← i_move_l c .int r 2 u
    i_blend c .int r u x0 (maskVec16 n [0xff, 0xff, 0xff, 0xff, 0xff, 0xff, 0, 0, 0, 0, 0, 0, 0, 0, 0, 0])

/-- The last steps of the 8- and 16-bit versions, on registers with 12 used bytes in each block.
Models /repo/simdpp/detail/insn/mem_pack.h:191-203, 284-295. -/
def pack3Tail (c : Cfg) (r : Reg) (u0 u1 u2 u3 : Vec w n) : Option (Fin 3 → Vec w n) := do
  let l0 ← as1 32 (r.lanes 32) (i_move_r c .int r 3) u1
  let l3 ← as1 32 (r.lanes 32) (i_move_l c .int r 2) u2
  let k3 ← as1 32 (r.lanes 32) (i_move_r c .int r 1) u3
  let a ← as2 32 (r.lanes 32) (i_bit_or c .int r) u0 l0
  let b ← as2 32 (r.lanes 32) (shuffle2 c .int r 1 2 0 1) u1 u2
  let d ← as2 32 (r.lanes 32) (i_bit_or c .int r) k3 l3
  some (vec3 a b d)

/-- `v_mem_pack3_impl8_128`. Models /repo/simdpp/detail/insn/mem_pack.h:84-205. -/
def pack3_8 (c : Cfg) (r : Reg) (x : Fin 3 → Vec 8 n) : Option (Fin 3 → Vec 8 n) :=
  if c.altivec ∨ c.msa then do
    let a1 ← i_align c .int r 11 (x 0) (x 0)
    let b1 := x 1
    let c1 ← i_align c .int r 5 (x 2) (x 2)
    let mask1 ← i_move_l c .int r 5 (Vec.splat 0xff)
    let a2 ← i_blend c .int r a1 b1 mask1
    let b2 ← i_blend c .int r b1 c1 mask1
    let c2 ← i_blend c .int r c1 a1 mask1
    let s := fun p => [5, 16+0, 16+11, 6, 16+1, 16+12, 7, 16+2, 16+13, 8, 16+3, 16+14, 9, 16+4, 16+15, 10].getD p 0
    let a ← maskShuffle c 1 16 s a2 b2
    let b ← maskShuffle c 1 16 s b2 c2
    let d ← maskShuffle c 1 16 s c2 a2
    some (vec3 a b d)
  else do
    let t0 ← i_zip_lo c .int r (x 0) (x 1)
    let t1 ← i_zip_hi c .int r (x 0) (x 1)
    let t2 ← i_zip_lo c .int r (x 2) (Vec.splat 0)
    let t3 ← i_zip_hi c .int r (x 2) (Vec.splat 0)
    let u0 ← as2 16 (r.lanes 16) (i_zip_lo c .int r) t0 t2
    let u1 ← as2 16 (r.lanes 16) (i_zip_hi c .int r) t0 t2
    let u2 ← as2 16 (r.lanes 16) (i_zip_lo c .int r) t1 t3
    let u3 ← as2 16 (r.lanes 16) (i_zip_hi c .int r) t1 t3
    let u0 ← squeeze8 c r u0
    let u1 ← squeeze8 c r u1
    let u2 ← squeeze8 c r u2
    let u3 ← squeeze8 c r u3
    pack3Tail c r u0 u1 u2 u3

/-- The three low parts of every 64-bit lane moved together, zeros above.
Models /repo/simdpp/detail/insn/mem_pack.h:261-279. -/
def squeeze16 (c : Cfg) (r : Reg) (u : Vec 16 n) : Option (Vec 16 n) :=
  if c.ssse3 then do
    let M ← makeShuffleMask 2 8 (fun p => ([0, 1, 2, 4, 5, 6, -1, -1] : List Int).getD p 0)
    as1 8 (r.lanes 8) (fun a => i_permute_bytes16 c r a (maskVec16 (r.lanes 8) M)) u
  else do
    let x ← i_move_l c .int r 1 u
    i_blend c .int r u x (fun i => if i.val % 8 < 3 then 0xffff else 0)

/-- `v_mem_pack3_impl16_128`. Models /repo/simdpp/detail/insn/mem_pack.h:207-297. -/
def pack3_16 (c : Cfg) (r : Reg) (x : Fin 3 → Vec 16 n) : Option (Fin 3 → Vec 16 n) :=
  if c.altivec ∨ c.msa then do
    let a1 := x 0
    let b1 ← i_align c .int r 5 (x 1) (x 1)
    let c1 ← i_align c .int r 2 (x 2) (x 2)
    let mask2 ← i_move_l c .int r 2 (Vec.splat 0xffff)
    let a2 ← i_blend c .int r a1 b1 mask2
    let b2 ← i_blend c .int r b1 c1 mask2
    let c2 ← i_blend c .int r c1 a1 mask2
    let s := fun p => [0, 8+3, 8+6, 1, 8+4, 8+7, 2, 8+5].getD p 0
    let a ← maskShuffle c 2 8 s a2 b2
    let b ← maskShuffle c 2 8 s c2 a2
    let d ← maskShuffle c 2 8 s b2 c2
    some (vec3 a b d)
  else do
    let t0 ← i_zip_lo c .int r (x 0) (x 1)
    let t1 ← i_zip_hi c .int r (x 0) (x 1)
    let t2 ← i_zip_lo c .int r (x 2) (Vec.splat 0)
    let t3 ← i_zip_hi c .int r (x 2) (Vec.splat 0)
    let u0 ← as2 32 (r.lanes 32) (i_zip_lo c .int r) t0 t2
    let u1 ← as2 32 (r.lanes 32) (i_zip_hi c .int r) t0 t2
    let u2 ← as2 32 (r.lanes 32) (i_zip_lo c .int r) t1 t3
    let u3 ← as2 32 (r.lanes 32) (i_zip_hi c .int r) t1 t3
    let u0 ← squeeze16 c r u0
    let u1 ← squeeze16 c r u1
    let u2 ← squeeze16 c r u2
    let u3 ← squeeze16 c r u3
    pack3Tail c r u0 u1 u2 u3

/-- `v_mem_pack3_impl32_128`. Models /repo/simdpp/detail/insn/mem_pack.h:299-348. -/
def pack3_32 (c : Cfg) (gnuc : Bool) (k : Kind) (r : Reg) (x : Fin 3 → Vec 32 n) : Option (Fin 3 → Vec 32 n) :=
  if c.altivec ∨ c.msa then do
    let a1 := x 0
    let b1 ← i_align c k r 1 (x 1) (x 1)
    let c1 ← i_align c k r 2 (x 2) (x 2)
    let mask2 ← i_move_l c .int r 1 (Vec.splat 0xffffffff)
    let a2 ← i_blend c k r a1 c1 mask2
    let b2 ← i_blend c k r b1 a1 mask2
    let c2 ← i_blend c k r c1 b1 mask2
    let s := fun p => [0, 4+3, 4+2, 1].getD p 0
    let a ← maskShuffle c 4 4 s a2 c2
    let b ← maskShuffle c 4 4 s b2 a2
    let d ← maskShuffle c 4 4 s c2 b2
    some (vec3 a b d)
  else do
    let t0 ← shuffle2 c k r 0 2 0 2 (x 0) (x 1)
    let t1 ← shuffle2 c k r 0 2 1 3 (x 2) (x 0)
    let t2 ← shuffle2 c k r 1 3 1 3 (x 1) (x 2)
    let t0 ← i_permute4_32 c gnuc k r 0 2 1 3 t0
    let t1 ← i_permute4_32 c gnuc k r 0 2 1 3 t1
    let t2 ← i_permute4_32 c gnuc k r 0 2 1 3 t2
    let a ← shuffle2 c k r 0 1 0 1 t0 t1
    let b ← shuffle2 c k r 0 1 2 3 t2 t0
    let d ← shuffle2 c k r 2 3 2 3 t1 t2
    some (vec3 a b d)

/-- `v_mem_pack3_impl64_128`. Models /repo/simdpp/detail/insn/mem_pack.h:350-358. -/
def pack3_64 (c : Cfg) (k : Kind) (r : Reg) (x : Fin 3 → Vec 64 n) : Option (Fin 3 → Vec 64 n) := do
  let d0 ← shuffle1_64 c k r 0 0 (x 0) (x 1)
  let d1 ← shuffle1_64 c k r 0 1 (x 2) (x 0)
  let d2 ← shuffle1_64 c k r 1 1 (x 1) (x 2)
  some (vec3 d0 d1 d2)

/-- `v_mem_pack3_shuffle128`. Models /repo/simdpp/detail/insn/mem_pack.h:360-410. -/
def pack3Lanes (c : Cfg) (k : Kind) (r : Reg) (x : Fin 3 → Vec w n) : Option (Fin 3 → Vec w n) :=
  match r with
  | .r128 => some x
  | .r256 => do
    let a1 ← shuffle1_128 c k 0 0 (x 0) (x 1)
    let b1 ← shuffle1_128 c k 0 1 (x 2) (x 0)
    let c1 ← shuffle1_128 c k 1 1 (x 1) (x 2)
    some (vec3 a1 b1 c1)
  | .r512 => do
    let t0 ← shuffle2_128 c k 0 2 0 2 (x 0) (x 1)
    let t1 ← shuffle2_128 c k 0 2 1 3 (x 2) (x 0)
    let t2 ← shuffle2_128 c k 1 3 1 3 (x 1) (x 2)
    let t0 ← permute4_128 c k 0 2 1 3 t0
    let t1 ← permute4_128 c k 0 2 1 3 t1
    let t2 ← permute4_128 c k 0 2 1 3 t2
    let a ← shuffle2_128 c k 0 1 0 1 t0 t1
    let b ← shuffle2_128 c k 0 1 2 3 t2 t0
    let d ← shuffle2_128 c k 2 3 2 3 t1 t2
    some (vec3 a b d)

/-- `mem_pack3`. Models /repo/simdpp/detail/insn/mem_pack.h:419-459. -/
def mem_pack3 (c : Cfg) (gnuc : Bool) (k : Kind) (r : Reg) (x : Fin 3 → Vec w n) : Option (Fin 3 → Vec w n) := do
  let y ← (if h : w = 8 then (h ▸ fun (x : Fin 3 → Vec 8 n) => pack3_8 c r x : (Fin 3 → Vec w n) → Option (Fin 3 → Vec w n)) x
    else if h : w = 16 then (h ▸ fun (x : Fin 3 → Vec 16 n) => pack3_16 c r x : (Fin 3 → Vec w n) → Option (Fin 3 → Vec w n)) x
    else if h : w = 32 then (h ▸ fun (x : Fin 3 → Vec 32 n) => pack3_32 c gnuc k r x : (Fin 3 → Vec w n) → Option (Fin 3 → Vec w n)) x
    else if h : w = 64 then (h ▸ fun (x : Fin 3 → Vec 64 n) => pack3_64 c k r x : (Fin 3 → Vec w n) → Option (Fin 3 → Vec w n)) x
    else none)
  pack3Lanes c k r y

/-! ## Three vectors: de-interleave -/

/-- `v_mem_unpack3_impl8_128`. Models /repo/simdpp/detail/insn/mem_unpack.h:81-158. -/
def unpack3_8 (c : Cfg) (r : Reg) (x : Fin 3 → Vec 8 n) : Option (Fin 3 → Vec 8 n) :=
  if c.altivec ∨ c.msa then do
    let s := fun p => [1, 4, 7, 10, 13, 16+0, 16+3, 16+6, 16+9, 16+12, 16+15, 2, 5, 8, 11, 14].getD p 0
    let a1 ← maskShuffle c 1 16 s (x 2) (x 0)
    let b1 ← maskShuffle c 1 16 s (x 0) (x 1)
    let c1 ← maskShuffle c 1 16 s (x 1) (x 2)
    let mask2 ← i_move_l c .int r 5 (Vec.splat 0xff)
    let a2 ← i_blend c .int r a1 c1 mask2
    let b2 ← i_blend c .int r b1 a1 mask2
    let c2 ← i_blend c .int r c1 b1 mask2
    let a ← i_align c .int r 5 a2 a2
    let d ← i_align c .int r 11 c2 c2
    some (vec3 a b2 d)
  else do
    let t0 := x 0
    let t1 ← i_align c .int r 12 (x 0) (x 1)
    let t2 ← i_align c .int r 8 (x 1) (x 2)
    let t3 ← i_move_l c .int r 4 (x 2)
    let b0 ← i_zip_lo c .int r t0 t1
    let b1 ← i_zip_lo c .int r t2 t3
    let b2 ← i_zip_hi c .int r t0 t1
    let b3 ← i_zip_hi c .int r t2 t3
    let u0 ← as2 16 (r.lanes 16) (i_zip_lo c .int r) b0 b1
    let u1 ← as2 16 (r.lanes 16) (i_zip_hi c .int r) b0 b1
    let u2 ← as2 16 (r.lanes 16) (i_zip_lo c .int r) b2 b3
    let t0 := u0
    let t1 ← i_align c .int r 12 u0 u1
    let t2 ← i_align c .int r 8 u1 u2
    let t3 ← i_move_l c .int r 4 u2
    let b0 ← i_zip_lo c .int r t0 t1
    let b1 ← i_zip_lo c .int r t2 t3
    let b2 ← i_zip_hi c .int r t0 t1
    let b3 ← i_zip_hi c .int r t2 t3
    let a ← as2 16 (r.lanes 16) (i_zip_lo c .int r) b0 b1
    let b ← as2 16 (r.lanes 16) (i_zip_hi c .int r) b0 b1
    let d ← as2 16 (r.lanes 16) (i_zip_lo c .int r) b2 b3
    some (vec3 a b d)

/-- `v_mem_unpack3_impl16_128`. Models /repo/simdpp/detail/insn/mem_unpack.h:160-227. -/
def unpack3_16 (c : Cfg) (r : Reg) (x : Fin 3 → Vec 16 n) : Option (Fin 3 → Vec 16 n) :=
  if c.altivec ∨ c.msa then do
    let s := fun p => [0, 3, 6, 8+1, 8+4, 8+7, 8+2, 8+5].getD p 0
    let a1 ← maskShuffle c 2 8 s (x 0) (x 1)
    let c1 ← maskShuffle c 2 8 s (x 1) (x 2)
    let b1 ← maskShuffle c 2 8 s (x 2) (x 0)
    let mask2 ← i_move_l c .int r 2 (Vec.splat 0xffff)
    let a2 ← i_blend c .int r a1 c1 mask2
    let b2 ← i_blend c .int r b1 a1 mask2
    let c2 ← i_blend c .int r c1 b1 mask2
    let b ← i_align c .int r 3 b2 b2
    let d ← i_align c .int r 6 c2 c2
    some (vec3 a2 b d)
  else do
    let t0 := x 0
    let t1 ← i_align c .int r 6 (x 0) (x 1)
    let t2 ← i_align c .int r 4 (x 1) (x 2)
    let t3 ← i_move_l c .int r 2 (x 2)
    let b0 ← i_zip_lo c .int r t0 t1
    let b1 ← i_zip_lo c .int r t2 t3
    let b2 ← i_zip_hi c .int r t0 t1
    let b3 ← i_zip_hi c .int r t2 t3
    let c0 ← as2 32 (r.lanes 32) (i_zip_lo c .int r) b0 b1
    let c1 ← as2 32 (r.lanes 32) (i_zip_hi c .int r) b0 b1
    let c2 ← as2 32 (r.lanes 32) (i_zip_lo c .int r) b2 b3
    let t0 := c0
    let t1 ← as2 64 (r.lanes 64) (shuffle1_64 c .int r 1 0) c0 c1
    let t2 ← as1 64 (r.lanes 64) (i_splat2 c .int r 1) c1
    let t3 := c2
    let a ← i_zip_lo c .int r t0 t2
    let b ← i_zip_lo c .int r t1 t3
    let d ← i_zip_hi c .int r t1 t3
    some (vec3 a b d)

/-- `v_mem_unpack3_impl32_128`. Models /repo/simdpp/detail/insn/mem_unpack.h:229-280. -/
def unpack3_32 (c : Cfg) (k : Kind) (r : Reg) (x : Fin 3 → Vec 32 n) : Option (Fin 3 → Vec 32 n) :=
  if c.altivec ∨ c.msa then do
    let s := fun p => [0, 3, 4+2, 4+1].getD p 0
    let a1 ← maskShuffle c 4 4 s (x 0) (x 1)
    let b1 ← maskShuffle c 4 4 s (x 1) (x 2)
    let c1 ← maskShuffle c 4 4 s (x 2) (x 0)
    let mask2 ← i_move_l c .int r 1 (Vec.splat 0xffffffff)
    let a2 ← i_blend c k r a1 b1 mask2
    let b2 ← i_blend c k r b1 c1 mask2
    let c2 ← i_blend c k r c1 a1 mask2
    let b ← i_align c k r 3 b2 b2
    let d ← i_align c k r 2 c2 c2
    some (vec3 a2 b d)
  else do
    let t11 := x 0
    let t12 ← shuffle2 c k r 0 1 2 3 (x 2) (x 1)
    let t21 ← shuffle2 c k r 0 1 0 1 (x 0) (x 1)
    let t22 ← shuffle2 c k r 2 3 2 3 (x 1) (x 2)
    let t31 ← shuffle2 c k r 2 3 0 1 (x 0) (x 1)
    let t32 := x 2
    let a ← shuffle2 c k r 0 3 2 1 t11 t12
    let b ← shuffle2 c k r 1 2 1 2 t21 t22
    let d ← shuffle2 c k r 0 3 0 3 t31 t32
    some (vec3 a b d)

/-- `v_mem_unpack3_impl64_128`. Models /repo/simdpp/detail/insn/mem_unpack.h:282-290. -/
def unpack3_64 (c : Cfg) (k : Kind) (r : Reg) (x : Fin 3 → Vec 64 n) : Option (Fin 3 → Vec 64 n) := do
  let d0 ← shuffle1_64 c k r 0 1 (x 0) (x 1)
  let d1 ← shuffle1_64 c k r 1 0 (x 0) (x 2)
  let d2 ← shuffle1_64 c k r 0 1 (x 1) (x 2)
  some (vec3 d0 d1 d2)

/-- `v_mem_unpack3_shuffle128`. Models /repo/simdpp/detail/insn/mem_unpack.h:292-345. -/
def unpack3Lanes (c : Cfg) (k : Kind) (r : Reg) (x : Fin 3 → Vec w n) : Option (Fin 3 → Vec w n) :=
  match r with
  | .r128 => some x
  | .r256 => do
    let a1 ← shuffle1_128 c k 0 1 (x 0) (x 1)
    let b1 ← shuffle1_128 c k 1 0 (x 0) (x 2)
    let c1 ← shuffle1_128 c k 0 1 (x 1) (x 2)
    some (vec3 a1 b1 c1)
  | .r512 => do
    let t11 := x 0
    let t12 ← shuffle2_128 c k 0 1 2 3 (x 2) (x 1)
    let t21 ← shuffle2_128 c k 0 1 0 1 (x 0) (x 1)
    let t22 ← shuffle2_128 c k 2 3 2 3 (x 1) (x 2)
    let t31 ← shuffle2_128 c k 2 3 0 1 (x 0) (x 1)
    let t32 := x 2
    let a ← shuffle2_128 c k 0 3 2 1 t11 t12
    let b ← shuffle2_128 c k 1 2 1 2 t21 t22
    let d ← shuffle2_128 c k 0 3 0 3 t31 t32
    some (vec3 a b d)

/-- `mem_unpack3`. Models /repo/simdpp/detail/insn/mem_unpack.h:354-394. -/
def mem_unpack3 (c : Cfg) (k : Kind) (r : Reg) (x : Fin 3 → Vec w n) : Option (Fin 3 → Vec w n) := do
  let x ← unpack3Lanes c k r x
  if h : w = 8 then (h ▸ fun (x : Fin 3 → Vec 8 n) => unpack3_8 c r x : (Fin 3 → Vec w n) → Option (Fin 3 → Vec w n)) x
  else if h : w = 16 then (h ▸ fun (x : Fin 3 → Vec 16 n) => unpack3_16 c r x : (Fin 3 → Vec w n) → Option (Fin 3 → Vec w n)) x
  else if h : w = 32 then (h ▸ fun (x : Fin 3 → Vec 32 n) => unpack3_32 c k r x : (Fin 3 → Vec w n) → Option (Fin 3 → Vec w n)) x
  else if h : w = 64 then (h ▸ fun (x : Fin 3 → Vec 64 n) => unpack3_64 c k r x : (Fin 3 → Vec w n) → Option (Fin 3 → Vec w n)) x
  else none

/-! ## Four vectors -/

/-- `transpose_inplace`. Models /repo/simdpp/detail/insn/transpose.h:86-121. -/
def transpose_inplace (c : Cfg) (r : Reg) (a : Vec 8 n) : Option (Vec 8 n) :=
  if r = .r128 ∧ ¬ (c.ssse3 ∨ c.altivec ∨ c.msa) then none
  else i_permute_bytes16 c r a (maskVec16 n [0, 4, 8, 12, 1, 5, 9, 13, 2, 6, 10, 14, 3, 7, 11, 15])

/-- `transpose4` of four registers seen as 32-bit lanes. -/
def transpose4As32 (c : Cfg) (r : Reg) (x : Fin 4 → Vec 8 n) : Option (Fin 4 → Vec 8 n) :=
  (i_transpose4_32 (n := r.lanes 32) c .int r (fun q => (x q).recast 32 (r.lanes 32))).map fun y q => (y q).recast 8 n

/-- `v_mem_pack4_impl8_128`. Models /repo/simdpp/detail/insn/mem_pack.h:464-513. -/
def pack4_8 (c : Cfg) (r : Reg) (x : Fin 4 → Vec 8 n) : Option (Fin 4 → Vec 8 n) :=
  if c.ssse3 ∨ c.altivec ∨ c.msa then do
    let y ← transpose4As32 c r x
    let a ← transpose_inplace c r (y 0)
    let b ← transpose_inplace c r (y 1)
    let d ← transpose_inplace c r (y 2)
    let e ← transpose_inplace c r (y 3)
    some (vec4 a b d e)
  else do
    let e0 ← as2 64 (r.lanes 64) (i_zip_lo c .int r) (x 0) (x 2)
    let e1 ← as2 64 (r.lanes 64) (i_zip_lo c .int r) (x 1) (x 3)
    let e2 ← as2 64 (r.lanes 64) (i_zip_hi c .int r) (x 0) (x 2)
    let e3 ← as2 64 (r.lanes 64) (i_zip_hi c .int r) (x 1) (x 3)
    let f0 ← i_zip_lo c .int r e0 e1
    let f1 ← i_zip_hi c .int r e0 e1
    let f2 ← i_zip_lo c .int r e2 e3
    let f3 ← i_zip_hi c .int r e2 e3
    let a ← as2 16 (r.lanes 16) (i_zip_lo c .int r) f0 f1
    let b ← as2 16 (r.lanes 16) (i_zip_hi c .int r) f0 f1
    let d ← as2 16 (r.lanes 16) (i_zip_lo c .int r) f2 f3
    let e ← as2 16 (r.lanes 16) (i_zip_hi c .int r) f2 f3
    some (vec4 a b d e)

/-- `v_mem_pack4_impl16_128`. Models /repo/simdpp/detail/insn/mem_pack.h:515-546. -/
def pack4_16 (c : Cfg) (r : Reg) (x : Fin 4 → Vec 16 n) : Option (Fin 4 → Vec 16 n) := do
  let e0 ← as2 64 (r.lanes 64) (i_zip_lo c .int r) (x 0) (x 2)
  let e1 ← as2 64 (r.lanes 64) (i_zip_lo c .int r) (x 1) (x 3)
  let e2 ← as2 64 (r.lanes 64) (i_zip_hi c .int r) (x 0) (x 2)
  let e3 ← as2 64 (r.lanes 64) (i_zip_hi c .int r) (x 1) (x 3)
  let f0 ← i_zip_lo c .int r e0 e1
  let f1 ← i_zip_hi c .int r e0 e1
  let f2 ← i_zip_lo c .int r e2 e3
  let f3 ← i_zip_hi c .int r e2 e3
  let a ← as2 32 (r.lanes 32) (i_zip_lo c .int r) f0 f1
  let b ← as2 32 (r.lanes 32) (i_zip_hi c .int r) f0 f1
  let d ← as2 32 (r.lanes 32) (i_zip_lo c .int r) f2 f3
  let e ← as2 32 (r.lanes 32) (i_zip_hi c .int r) f2 f3
  some (vec4 a b d e)

/-- `v_mem_pack4_impl64_128`. Models /repo/simdpp/detail/insn/mem_pack.h:554-563. -/
def pack4_64 (c : Cfg) (k : Kind) (r : Reg) (x : Fin 4 → Vec 64 n) : Option (Fin 4 → Vec 64 n) := do
  let y ← i_transpose2_64 c k r (vec2 (x 0) (x 1))
  let z ← i_transpose2_64 c k r (vec2 (x 2) (x 3))
  some (vec4 (y 0) (z 0) (y 1) (z 1))

/-- `v_mem_pack4_shuffle128`. Models /repo/simdpp/detail/insn/mem_pack.h:565-624. -/
def pack4Lanes (c : Cfg) (k : Kind) (r : Reg) (x : Fin 4 → Vec w n) : Option (Fin 4 → Vec w n) :=
  match r with
  | .r128 => some x
  | .r256 => do
    let a1 ← shuffle1_128 c k 0 0 (x 0) (x 1)
    let b1 ← shuffle1_128 c k 0 0 (x 2) (x 3)
    let c1 ← shuffle1_128 c k 1 1 (x 0) (x 1)
    let d1 ← shuffle1_128 c k 1 1 (x 2) (x 3)
    some (vec4 a1 b1 c1 d1)
  | .r512 => do
    let t1 ← shuffle2_128 c k 0 2 0 2 (x 0) (x 1)
    let t2 ← shuffle2_128 c k 1 3 1 3 (x 0) (x 1)
    let t3 ← shuffle2_128 c k 0 2 0 2 (x 2) (x 3)
    let t4 ← shuffle2_128 c k 1 3 1 3 (x 2) (x 3)
    let a ← shuffle2_128 c k 0 2 0 2 t1 t3
    let b ← shuffle2_128 c k 0 2 0 2 t2 t4
    let d ← shuffle2_128 c k 1 3 1 3 t1 t3
    let e ← shuffle2_128 c k 1 3 1 3 t2 t4
    some (vec4 a b d e)

/-- `mem_pack4`; 32-bit lanes are transposed (/repo/simdpp/detail/insn/mem_pack.h:548-552).
Models /repo/simdpp/detail/insn/mem_pack.h:634-680. -/
def mem_pack4 (c : Cfg) (k : Kind) (r : Reg) (x : Fin 4 → Vec w n) : Option (Fin 4 → Vec w n) := do
  let y ← (if h : w = 8 then (h ▸ fun (x : Fin 4 → Vec 8 n) => pack4_8 c r x : (Fin 4 → Vec w n) → Option (Fin 4 → Vec w n)) x
    else if h : w = 16 then (h ▸ fun (x : Fin 4 → Vec 16 n) => pack4_16 c r x : (Fin 4 → Vec w n) → Option (Fin 4 → Vec w n)) x
    else if h : w = 32 then (h ▸ fun (x : Fin 4 → Vec 32 n) => i_transpose4_32 c k r x : (Fin 4 → Vec w n) → Option (Fin 4 → Vec w n)) x
    else if h : w = 64 then (h ▸ fun (x : Fin 4 → Vec 64 n) => pack4_64 c k r x : (Fin 4 → Vec w n) → Option (Fin 4 → Vec w n)) x
    else none)
  pack4Lanes c k r y

/-- `v_mem_unpack4_impl8_128`. Models /repo/simdpp/detail/insn/mem_unpack.h:396-456. -/
def unpack4_8 (c : Cfg) (r : Reg) (x : Fin 4 → Vec 8 n) : Option (Fin 4 → Vec 8 n) :=
  if c.ssse3 ∨ c.altivec ∨ c.msa then do
    let a ← transpose_inplace c r (x 0)
    let b ← transpose_inplace c r (x 1)
    let d ← transpose_inplace c r (x 2)
    let e ← transpose_inplace c r (x 3)
    transpose4As32 c r (vec4 a b d e)
  else do
    let b0 ← i_zip_lo c .int r (x 0) (x 1)
    let b1 ← i_zip_hi c .int r (x 0) (x 1)
    let b2 ← i_zip_lo c .int r (x 2) (x 3)
    let b3 ← i_zip_hi c .int r (x 2) (x 3)
    let c0 ← i_zip_lo c .int r b0 b1
    let c1 ← i_zip_hi c .int r b0 b1
    let c2 ← i_zip_lo c .int r b2 b3
    let c3 ← i_zip_hi c .int r b2 b3
    let d0 ← i_zip_lo c .int r c0 c1
    let d1 ← i_zip_hi c .int r c0 c1
    let d2 ← i_zip_lo c .int r c2 c3
    let d3 ← i_zip_hi c .int r c2 c3
    let a ← as2 64 (r.lanes 64) (i_zip_lo c .int r) d0 d2
    let b ← as2 64 (r.lanes 64) (i_zip_hi c .int r) d0 d2
    let d ← as2 64 (r.lanes 64) (i_zip_lo c .int r) d1 d3
    let e ← as2 64 (r.lanes 64) (i_zip_hi c .int r) d1 d3
    some (vec4 a b d e)

/-- `v_mem_unpack4_impl16_128`. Models /repo/simdpp/detail/insn/mem_unpack.h:458-489. -/
def unpack4_16 (c : Cfg) (r : Reg) (x : Fin 4 → Vec 16 n) : Option (Fin 4 → Vec 16 n) := do
  let t0 ← i_zip_lo c .int r (x 0) (x 1)
  let t1 ← i_zip_hi c .int r (x 0) (x 1)
  let t2 ← i_zip_lo c .int r (x 2) (x 3)
  let t3 ← i_zip_hi c .int r (x 2) (x 3)
  let u0 ← i_zip_lo c .int r t0 t1
  let u1 ← i_zip_hi c .int r t0 t1
  let u2 ← i_zip_lo c .int r t2 t3
  let u3 ← i_zip_hi c .int r t2 t3
  let a ← as2 64 (r.lanes 64) (i_zip_lo c .int r) u0 u2
  let b ← as2 64 (r.lanes 64) (i_zip_hi c .int r) u0 u2
  let d ← as2 64 (r.lanes 64) (i_zip_lo c .int r) u1 u3
  let e ← as2 64 (r.lanes 64) (i_zip_hi c .int r) u1 u3
  some (vec4 a b d e)

/-- `v_mem_unpack4_impl64_128`. Models /repo/simdpp/detail/insn/mem_unpack.h:497-506. -/
def unpack4_64 (c : Cfg) (k : Kind) (r : Reg) (x : Fin 4 → Vec 64 n) : Option (Fin 4 → Vec 64 n) := do
  let y ← i_transpose2_64 c k r (vec2 (x 0) (x 2))
  let z ← i_transpose2_64 c k r (vec2 (x 1) (x 3))
  some (vec4 (y 0) (y 1) (z 0) (z 1))

/-- `v_mem_unpack4_shuffle128`. Models /repo/simdpp/detail/insn/mem_unpack.h:508-562. -/
def unpack4Lanes (c : Cfg) (k : Kind) (r : Reg) (x : Fin 4 → Vec w n) : Option (Fin 4 → Vec w n) :=
  match r with
  | .r128 => some x
  | .r256 => do
    let a1 ← shuffle1_128 c k 0 0 (x 0) (x 2)
    let b1 ← shuffle1_128 c k 1 1 (x 0) (x 2)
    let c1 ← shuffle1_128 c k 0 0 (x 1) (x 3)
    let d1 ← shuffle1_128 c k 1 1 (x 1) (x 3)
    some (vec4 a1 b1 c1 d1)
  | .r512 => do
    let t1 ← shuffle2_128 c k 0 2 0 2 (x 0) (x 1)
    let t2 ← shuffle2_128 c k 1 3 1 3 (x 0) (x 1)
    let t3 ← shuffle2_128 c k 0 2 0 2 (x 2) (x 3)
    let t4 ← shuffle2_128 c k 1 3 1 3 (x 2) (x 3)
    let a ← shuffle2_128 c k 0 2 0 2 t1 t3
    let b ← shuffle2_128 c k 0 2 0 2 t2 t4
    let d ← shuffle2_128 c k 1 3 1 3 t1 t3
    let e ← shuffle2_128 c k 1 3 1 3 t2 t4
    some (vec4 a b d e)

/-- `mem_unpack4`; 32-bit lanes are transposed (/repo/simdpp/detail/insn/mem_unpack.h:491-495).
Models /repo/simdpp/detail/insn/mem_unpack.h:574-614. -/
def mem_unpack4 (c : Cfg) (k : Kind) (r : Reg) (x : Fin 4 → Vec w n) : Option (Fin 4 → Vec w n) := do
  let x ← unpack4Lanes c k r x
  if h : w = 8 then (h ▸ fun (x : Fin 4 → Vec 8 n) => unpack4_8 c r x : (Fin 4 → Vec w n) → Option (Fin 4 → Vec w n)) x
  else if h : w = 16 then (h ▸ fun (x : Fin 4 → Vec 16 n) => unpack4_16 c r x : (Fin 4 → Vec w n) → Option (Fin 4 → Vec w n)) x
  else if h : w = 32 then (h ▸ fun (x : Fin 4 → Vec 32 n) => i_transpose4_32 c k r x : (Fin 4 → Vec w n) → Option (Fin 4 → Vec w n)) x
  else if h : w = 64 then (h ▸ fun (x : Fin 4 → Vec 64 n) => unpack4_64 c k r x : (Fin 4 → Vec w n) → Option (Fin 4 → Vec w n)) x
  else none

/-! ## Memory -/

/-- `vld2q_*`, `vld3q_*`, `vld4q_*`: lane `i` of vector `q` is element `M i + q`. -/
def Mem.vldM (M w n : Nat) (m : Mem) (p : Nat) : Option (Fin M → Vec w n) :=
  (m.ldv w (M * n) p).map fun v q i => v.at_ (M * i.val + q.val)

/-- Vectors in memory order: element `e` is lane `e / M` of vector `e % M`. -/
def ilv (x : Fin M → Vec w n) : Vec w (M * n) := fun e =>
  if h : e.val % M < M then (x ⟨e.val % M, h⟩).at_ (e.val / M) else 0

/-- `vst2q_*`, `vst3q_*`, `vst4q_*`. -/
def Mem.vstM (m : Mem) (p : Nat) (x : Fin M → Vec w n) : Option Mem := m.stv p (ilv x)

namespace Null

/-- `for (i) { a.el(i) = *pt++; b.el(i) = *pt++; ... }`. Models /repo/simdpp/detail/null/memory.h:33-67. -/
def load_packed (M w n : Nat) (m : Mem) (p : Nat) : Option (Fin M → Vec w n) :=
  famM fun q => lanesM fun i => Mem.al (w / 8) p ((m.ldv w 1 (p + (M * i.val + q.val) * (w / 8))).map (·.at_ 0))

/-- `for (i) { *pt++ = a.el(i); *pt++ = b.el(i); ... }`. Models /repo/simdpp/detail/null/memory.h:112-146. -/
def store_packed (m : Mem) (p : Nat) (x : Fin M → Vec w n) : Option Mem :=
  loopM (fun i m => loopM (fun q m => if h : q < M then put m p (M * i + q) ((x ⟨q, h⟩).at_ i) else none) 0 M m) 0 n m

end Null

/-- `v128_load_packed*`, `v256_load_packed*`, `v512_load_packed*`: consecutive registers, then `unpack`.
Models /repo/simdpp/detail/insn/load_packed2.h:233-258, /repo/simdpp/detail/insn/load_packed3.h:263-291,
/repo/simdpp/detail/insn/load_packed4.h:264-295. -/
def v_load_packed (c : Cfg) (k : Kind) (r : Reg) (unpack : (Fin M → Vec w n) → Option (Fin M → Vec w n)) (m : Mem) (p : Nat) :
    Option (Fin M → Vec w n) :=
  Mem.al r.bytes p ((famM fun q : Fin M => i_load c k r m (p + q.val * r.bytes)).bind unpack)

/-- `v128_store_pack*`, `v256_store_pack*`, `v512_store_pack*`: `pack`, then consecutive registers; `A` is the alignment the
compiler is told to assume. Models /repo/simdpp/detail/insn/store_packed2.h:236-264,
/repo/simdpp/detail/insn/store_packed3.h:256-287, /repo/simdpp/detail/insn/store_packed4.h:288-322. -/
def v_store_pack (c : Cfg) (k : Kind) (r : Reg) (A : Nat) (pack : (Fin M → Vec w n) → Option (Fin M → Vec w n)) (m : Mem) (p : Nat)
    (x : Fin M → Vec w n) : Option Mem :=
  Mem.al A p ((pack x).bind fun y =>
    loopM (fun q m => if h : q < M then i_store c k r m (p + q * r.bytes) (y ⟨q, h⟩) else none) 0 M m)

/-- Models /repo/simdpp/detail/insn/load_packed2.h:37-229. -/
def i_load_packed2 (c : Cfg) (k : Kind) (r : Reg) (m : Mem) (p : Nat) : Option (Fin 2 → Vec w n) :=
  let regs : Option (Fin 2 → Vec w n) := v_load_packed c k r (mem_unpack2 c k r) m p
  match k, r with
  | .int, .r128 =>
    Mem.al 16 p <|
    if w ≤ 32 then
      if c.null then Null.load_packed 2 w n m p
      else if c.sse2 ∨ c.altivec ∨ c.msa then regs
      else if c.neon then m.vldM 2 w n p
      else none
    else
      if c.neon64 then m.vldM 2 w n p
      else if c.sse2 ∨ c.neon ∨ c.vsx207 ∨ c.msa then regs
      else if c.null ∨ c.altivec then Null.load_packed 2 w n m p
      else none
  | .flt, .r128 =>
    Mem.al 16 p <|
    if w = 32 then
      if c.null ∨ c.neonNoFltSp then Null.load_packed 2 w n m p
      else if c.sse2 ∨ c.altivec ∨ c.msa then regs
      else if c.neon then m.vldM 2 w n p
      else none
    else
      if c.neon64 then m.vldM 2 w n p
      else if c.sse2 ∨ c.vsx206 ∨ c.msa then regs
      else if c.null ∨ c.neon32 ∨ c.altivec then Null.load_packed 2 w n m p
      else none
  | k, r => if c.hasVec k w r then regs else none

/-- Models /repo/simdpp/detail/insn/load_packed3.h:38-259. -/
def i_load_packed3 (c : Cfg) (k : Kind) (r : Reg) (m : Mem) (p : Nat) : Option (Fin 3 → Vec w n) :=
  let regs : Option (Fin 3 → Vec w n) := v_load_packed c k r (mem_unpack3 c k r) m p
  match k, r with
  | .int, .r128 =>
    Mem.al 16 p <|
    if w ≤ 32 then
      if c.null then Null.load_packed 3 w n m p
      else if c.sse2 ∨ c.altivec ∨ c.msa then regs
      else if c.neon then m.vldM 3 w n p
      else none
    else
      if c.sse2 ∨ c.vsx207 ∨ c.msa then regs
      else if c.neon64 then m.vldM 3 w n p
      else if c.neon32 then do
        -- `vget_low`, `vget_high`, `vcombine`
        let a0 : Vec w n ← i_load c .int .r128 m p
        let b0 : Vec w n ← i_load c .int .r128 m (p + 16)
        let c0 : Vec w n ← i_load c .int .r128 m (p + 32)
        let comb := fun (l h : BitVec w) => (fun i => if i.val = 0 then l else h : Vec w n)
        some (vec3 (comb (a0.at_ 0) (b0.at_ 1)) (comb (a0.at_ 1) (c0.at_ 0)) (comb (b0.at_ 0) (c0.at_ 1)))
      else if c.null ∨ c.altivec then Null.load_packed 3 w n m p
      else none
  | .flt, .r128 =>
    Mem.al 16 p <|
    if w = 32 then
      if c.null ∨ c.neonNoFltSp then Null.load_packed 3 w n m p
      else if c.sse2 ∨ c.altivec ∨ c.msa then regs
      else if c.neon then m.vldM 3 w n p
      else none
    else
      if c.sse2 ∨ c.vsx206 ∨ c.msa then regs
      else if c.neon64 then m.vldM 3 w n p
      else if c.null ∨ c.neon ∨ c.altivec then Null.load_packed 3 w n m p
      else none
  | k, r => if c.hasVec k w r then regs else none

/-- `uint64x2` has no `assume_aligned`. Models /repo/simdpp/detail/insn/load_packed4.h:37-260. -/
def i_load_packed4 (c : Cfg) (k : Kind) (r : Reg) (m : Mem) (p : Nat) : Option (Fin 4 → Vec w n) :=
  let regs : Option (Fin 4 → Vec w n) := v_load_packed c k r (mem_unpack4 c k r) m p
  match k, r with
  | .int, .r128 =>
    if w ≤ 32 then
      Mem.al 16 p <|
      if c.null then Null.load_packed 4 w n m p
      else if c.sse2 ∨ c.altivec ∨ c.msa then regs
      else if c.neon then m.vldM 4 w n p
      else none
    else
      if c.neon64 then m.vldM 4 w n p
      else if c.sse2 ∨ c.neon ∨ c.vsx207 ∨ c.msa then regs
      else if c.null ∨ c.altivec then Null.load_packed 4 w n m p
      else none
  | .flt, .r128 =>
    Mem.al 16 p <|
    if w = 32 then
      if c.null ∨ c.neonNoFltSp then Null.load_packed 4 w n m p
      else if c.sse2 ∨ c.altivec ∨ c.msa then regs
      else if c.neon then m.vldM 4 w n p
      else none
    else
      if c.sse2 ∨ c.vsx206 ∨ c.msa then regs
      else if c.neon64 then m.vldM 4 w n p
      else if c.null ∨ c.neon ∨ c.altivec then Null.load_packed 4 w n m p
      else none
  | k, r => if c.hasVec k w r then regs else none

/-- The alignment `v128_store_pack2`, `v256_store_pack2` and `v512_store_pack2` assume is always 32; 64-bit lanes have no
other assumption. Models /repo/simdpp/detail/insn/store_packed2.h:36-232. -/
def i_store_packed2 (c : Cfg) (k : Kind) (r : Reg) (m : Mem) (p : Nat) (x : Fin 2 → Vec w n) : Option Mem :=
  let regs : Option Mem := v_store_pack c k r 32 (mem_pack2 c k r) m p x
  match k, r with
  | .int, .r128 =>
    if w ≤ 32 then
      Mem.al 16 p <|
      if c.null then Null.store_packed m p x
      else if c.sse2 ∨ c.altivec ∨ c.msa then regs
      else if c.neon then m.vstM p x
      else none
    else
      if c.neon64 then m.vstM p x
      else if c.sse2 ∨ c.neon ∨ c.vsx207 ∨ c.msa then regs
      else if c.null ∨ c.altivec then Null.store_packed m p x
      else none
  | .flt, .r128 =>
    if w = 32 then
      Mem.al 16 p <|
      if c.null ∨ c.neonNoFltSp then Null.store_packed m p x
      else if c.sse2 ∨ c.altivec ∨ c.msa then regs
      else if c.neon then m.vstM p x
      else none
    else
      if c.neon64 then m.vstM p x
      else if c.sse2 ∨ c.vsx206 ∨ c.msa then regs
      else if c.null ∨ c.neon ∨ c.altivec then Null.store_packed m p x
      else none
  | k, r => if c.hasVec k w r then regs else none

/-- Models /repo/simdpp/detail/insn/store_packed3.h:36-253. -/
def i_store_packed3 (c : Cfg) (gnuc : Bool) (k : Kind) (r : Reg) (m : Mem) (p : Nat) (x : Fin 3 → Vec w n) : Option Mem :=
  let regs : Option Mem := v_store_pack c k r r.bytes (mem_pack3 c gnuc k r) m p x
  match k, r with
  | .int, .r128 =>
    Mem.al 16 p <|
    if w ≤ 32 then
      if c.null then Null.store_packed m p x
      else if c.sse2 ∨ c.altivec ∨ c.msa then regs
      else if c.neon then m.vstM p x
      else none
    else
      if c.sse2 ∨ c.vsx207 ∨ c.msa then regs
      else if c.neon32 then do
        -- `vst2_u64` of pairs of halves
        let pair := fun (l h : BitVec w) => (fun i => if i.val = 0 then l else h : Vec w 2)
        let m ← m.stv p (pair ((x 0).at_ 0) ((x 1).at_ 0))
        let m ← m.stv (p + 2 * (w / 8)) (pair ((x 2).at_ 0) ((x 0).at_ 1))
        m.stv (p + 4 * (w / 8)) (pair ((x 1).at_ 1) ((x 2).at_ 1))
      else if c.neon64 then m.vstM p x
      else if c.null ∨ c.altivec then Null.store_packed m p x
      else none
  | .flt, .r128 =>
    Mem.al 16 p <|
    if w = 32 then
      if c.null ∨ c.neonNoFltSp then Null.store_packed m p x
      else if c.sse2 ∨ c.altivec ∨ c.msa then regs
      else if c.neon then m.vstM p x
      else none
    else
      if c.sse2 ∨ c.vsx206 ∨ c.msa then regs
      else if c.neon64 then m.vstM p x
      else if c.null ∨ c.neon ∨ c.altivec then Null.store_packed m p x
      else none
  | k, r => if c.hasVec k w r then regs else none

/-- Models /repo/simdpp/detail/insn/store_packed4.h:37-284. -/
def i_store_packed4 (c : Cfg) (k : Kind) (r : Reg) (m : Mem) (p : Nat) (x : Fin 4 → Vec w n) : Option Mem :=
  let regs : Option Mem := v_store_pack c k r r.bytes (mem_pack4 c k r) m p x
  match k, r with
  | .int, .r128 =>
    if w ≤ 32 then
      Mem.al 16 p <|
      if c.null then Null.store_packed m p x
      else if c.sse2 ∨ c.altivec ∨ c.msa then regs
      else if c.neon then m.vstM p x
      else none
    else
      if c.neon64 then m.vstM p x
      else if c.sse2 ∨ c.neon ∨ c.vsx207 ∨ c.msa then regs
      else if c.null ∨ c.altivec then Null.store_packed m p x
      else none
  | .flt, .r128 =>
    Mem.al 16 p <|
    if w = 32 then
      if c.null ∨ c.neonNoFltSp then Null.store_packed m p x
      else if c.sse2 ∨ c.altivec ∨ c.msa then regs
      else if c.neon then m.vstM p x
      else none
    else
      if c.sse2 ∨ c.vsx206 ∨ c.msa then regs
      else if c.neon64 then m.vstM p x
      else if c.null ∨ c.neon ∨ c.altivec then Null.store_packed m p x
      else none
  | k, r => if c.hasVec k w r then regs else none

/-- `for (i) { i_load_packedM(a.vec(i), b.vec(i), ..., p); p += veclen*M; }`: register `i` of every vector comes from step `i`.
Models /repo/simdpp/detail/insn/load_packed2.h:260-270, /repo/simdpp/detail/insn/load_packed3.h:294-304,
/repo/simdpp/detail/insn/load_packed4.h:297-307. -/
def loadPackedAll (M L B : Nat) (op : Nat → Option (Fin M → Vec w L)) (p : Nat) : Option (Fin M → Vec w N) :=
  famM fun q => catM L fun i => (op (p + i * (B * M))).map (· q)

/-- `for (i) { i_store_packedM(p, a.vec(i), b.vec(i), ...); p += veclen*M; }`.
Models /repo/simdpp/detail/insn/store_packed2.h:267-278, /repo/simdpp/detail/insn/store_packed3.h:289-300,
/repo/simdpp/detail/insn/store_packed4.h:324-335. -/
def storePackedAll (M L B : Nat) (op : Mem → Nat → (Fin M → Vec w L) → Option Mem) (m : Mem) (p : Nat) (x : Fin M → Vec w N) : Option Mem :=
  loopM (fun i m => op m (p + i * (B * M)) fun q => Hw.part L i (x q)) 0 (N / L) m

/-- `load_packed2(a, b, p)`. Models /repo/simdpp/core/load_packed2.h:34-42. -/
def load_packed2 (c : Cfg) (k : Kind) (w N : Nat) (m : Mem) (p : Nat) : Option (Fin 2 → Vec w N) :=
  loadPackedAll 2 ((c.regK k w N).lanes w) (c.regK k w N).bytes (i_load_packed2 c k (c.regK k w N) m) p
/-- `load_packed3(a, b, c, p)`. Models /repo/simdpp/core/load_packed3.h:35-45. -/
def load_packed3 (c : Cfg) (k : Kind) (w N : Nat) (m : Mem) (p : Nat) : Option (Fin 3 → Vec w N) :=
  loadPackedAll 3 ((c.regK k w N).lanes w) (c.regK k w N).bytes (i_load_packed3 c k (c.regK k w N) m) p
/-- `load_packed4(a, b, c, d, p)`. Models /repo/simdpp/core/load_packed4.h:36-48. -/
def load_packed4 (c : Cfg) (k : Kind) (w N : Nat) (m : Mem) (p : Nat) : Option (Fin 4 → Vec w N) :=
  loadPackedAll 4 ((c.regK k w N).lanes w) (c.regK k w N).bytes (i_load_packed4 c k (c.regK k w N) m) p

/-- `store_packed2(p, a, b)`. Models /repo/simdpp/core/store_packed2.h. -/
def store_packed2 (c : Cfg) (k : Kind) (m : Mem) (p : Nat) (x : Fin 2 → Vec w N) : Option Mem :=
  storePackedAll 2 ((c.regK k w N).lanes w) (c.regK k w N).bytes (i_store_packed2 c k (c.regK k w N)) m p x
/-- `store_packed3(p, a, b, c)`. Models /repo/simdpp/core/store_packed3.h:38-48. -/
def store_packed3 (c : Cfg) (gnuc : Bool) (k : Kind) (m : Mem) (p : Nat) (x : Fin 3 → Vec w N) : Option Mem :=
  storePackedAll 3 ((c.regK k w N).lanes w) (c.regK k w N).bytes (i_store_packed3 c gnuc k (c.regK k w N)) m p x
/-- `store_packed4(p, a, b, c, d)`. Models /repo/simdpp/core/store_packed4.h. -/
def store_packed4 (c : Cfg) (k : Kind) (m : Mem) (p : Nat) (x : Fin 4 → Vec w N) : Option Mem :=
  storePackedAll 4 ((c.regK k w N).lanes w) (c.regK k w N).bytes (i_store_packed4 c k (c.regK k w N)) m p x

end Simdpp
