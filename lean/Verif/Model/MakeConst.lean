import Verif.Model.Mem
import Verif.Model.CInt
import Verif.Spec.Fp

/-!
# Constants and broadcasts: make_uint, make_int, make_float, make_zero, make_ones, splat (of a scalar), load_splat

The MSVC 32-bit branches (/repo/simdpp/detail/insn/make_const.h:444-448, 472-479) are in `Model/Workaround.lean`. make_float to an integer
vector is not modelled (the conversion differs between the builds). Uninitialised bytes of a stack array are the parameter `junk`.
-/

namespace Simdpp

open Sh

variable {w n N M : Nat} {α : Type}

/-- `expr_vec_make_const<VE,M>::val(i)`: `a[i%M]`. Models /repo/simdpp/expr.h:47-51. -/
def cval [NeZero M] (e : Fin M → α) (i : Nat) : α := e (Fin.ofNat M i)

namespace Hw
/-- `_mm*_set_epi8/16/32/64x`, `_mm*_set_ps/pd`: the last argument is lane 0. -/
def mm_set (l : List (BitVec w)) : Vec w n := fun i => l.getD (n - 1 - i.val) 0
/-- A vector literal, or an array of `n` elements loaded from memory. -/
def lit (l : List (BitVec w)) : Vec w n := fun i => l.getD i.val 0
/-- `vcombine_*(half, half)`, `half` of the given elements. -/
def combineSame (l : List (BitVec w)) : Vec w n := fun i => l.getD (i.val % l.length) 0
/-- `vec_lde` of an element that falls in lane `pos`; the other lanes are undefined. -/
def lde (pos : Nat) (x : BitVec w) (junk : Nat → BitVec w) : Vec w n := fun i => if i.val = pos then x else junk i.val
end Hw

/-- `for (i = 0; i < length; i += M) { r.el(i) = v0; ...; r.el(i+M-1) = v(M-1); }`.
Models /repo/simdpp/detail/null/set.h:23-118. -/
def Null.make_vec (l : List (BitVec w)) : Vec w n := fun i => l.getD (i.val % l.length) 0

/-- `f(off+0), f(off+1), ..., f(off+n-1)`. -/
def args (n off : Nat) (f : Nat → BitVec w) : List (BitVec w) := (List.range n).map fun i => f (off + i)
/-- `f(off+n-1), ..., f(off+1), f(off+0)`. -/
def argsR (n off : Nat) (f : Nat → BitVec w) : List (BitVec w) := (List.range n).reverse.map fun i => f (off + i)

/-- One register of floating-point lanes; `cv` is the conversion of a `VE` to the element type.
Models /repo/simdpp/detail/insn/make_const.h:29-133. -/
def i_make_const_flt (c : Cfg) (r : Reg) [NeZero M] (cv : α → BitVec w) (e : Fin M → α) (off : Nat) : Option (Vec w n) :=
  let x := fun i => cv (cval e i)
  match r with
  | .r128 =>
    if w = 32 then
      if c.neonFltSp ∧ M = 1 then some (Vec.splat (x 0))
      else if c.neonFltSp ∧ M = 2 then some (Hw.combineSame (args 2 off x))
      else if c.null ∨ c.neonNoFltSp then some (Null.make_vec (args 4 off x))
      else if c.sse2 then some (Hw.mm_set (argsR 4 off x))
      else if c.neon then some (Hw.lit (args 4 off x))
      else if c.altivec then some (Hw.lit (args 4 off x))
      else if c.msa then some (Hw.lit (args 4 off x))
      else none
    else
      if c.sse2 then some (Hw.mm_set (argsR 2 off x))
      else if c.neon64 then some (Hw.lit (args 2 off x))
      else if c.vsx206 then some (Hw.lit (args 2 off x))
      else if c.msa then some (Hw.lit (args 2 off x))
      else if c.null ∨ c.neon ∨ c.altivec then some (Null.make_vec (args 2 off x))
      else none
  | .r256 => if c.avx then some (Hw.mm_set (argsR (256 / w) off x)) else none
  | .r512 => if c.avx512f then some (Hw.mm_set (argsR (512 / w) off x)) else none

/-- `(a & mask) << s` -/
def maskShl (a : C.Val) (mask s : Int) : Option C.Val := C.shl (C.band a ⟨C.int32, mask⟩) ⟨C.int32, s⟩

/-- `(a0 & mask) | (a1 & mask) << s`. -/
def pack2 (a0 a1 : C.Val) (mask s : Int) : Option C.Val := do
  some (C.bor (C.band a0 ⟨C.int32, mask⟩) (← maskShl a1 mask s))

/-- `(a0 & 0xff) | (a1 & 0xff) << 8 | (a2 & 0xff) << 16 | (a3 & 0xff) << 24`. -/
def pack4 (a0 a1 a2 a3 : C.Val) : Option C.Val := do
  let p := C.bor (C.band a0 ⟨C.int32, 0xff⟩) (← maskShl a1 0xff 8)
  let p := C.bor p (← maskShl a2 0xff 16)
  some (C.bor p (← maskShl a3 0xff 24))

/-- `make_uint32_uint8`: the parameters are `uint8_t`. Models /repo/simdpp/detail/insn/make_const.h:233-236. -/
def make_uint32_uint8 (x : Nat → C.Val) (i : Nat) : Option (BitVec 32) := do
  let u := fun i => C.lane false (C.toLane 8 (x i))
  some (C.toLane 32 (← pack4 (u i) (u (i + 1)) (u (i + 2)) (u (i + 3))))

/-- `make_uint32_uint16`. Models /repo/simdpp/detail/insn/make_const.h:337-340. -/
def make_uint32_uint16 (x : Nat → C.Val) (i : Nat) : Option (BitVec 32) := do
  let u := fun i => C.lane false (C.toLane 16 (x i))
  some (C.toLane 32 (← pack2 (u i) (u (i + 1)) 0xffff 16))

/-- One register of integer lanes. Models /repo/simdpp/detail/insn/make_const.h:137-493. -/
def i_make_const_int (c : Cfg) (r : Reg) [NeZero M] (e : Fin M → C.Val) (off : Nat) : Option (Vec w n) :=
  let v := fun i => cval e i
  let x := fun i => C.toLane w (v i)
  match r with
  | .r128 =>
    if w = 8 ∧ c.neon ∧ M = 1 then some (Vec.splat (x (off + 0)))
    else if w = 8 ∧ c.neon ∧ M = 2 then do
      let rv ← pack2 (v (off + 0)) (v (off + 1)) 0xff 8
      some ((Vec.splat (C.toLane 16 rv) : Vec 16 8).recast w n)
    else if w = 8 ∧ c.neon ∧ M = 4 then do
      let rv ← pack4 (v (off + 0)) (v (off + 1)) (v (off + 2)) (v (off + 3))
      some ((Vec.splat (C.toLane 32 rv) : Vec 32 4).recast w n)
    else if w = 8 ∧ c.neon ∧ M = 8 then some (Hw.combineSame (args 8 off x))
    else if w = 16 ∧ c.neon ∧ M = 1 then some (Vec.splat (x (off + 0)))
    else if w = 16 ∧ c.neon ∧ M = 2 then do
      let rv ← pack2 (v (off + 0)) (v (off + 1)) 0xffff 16
      some ((Vec.splat (C.toLane 32 rv) : Vec 32 4).recast w n)
    else if w = 16 ∧ c.neon ∧ M = 4 then some (Hw.combineSame (args 4 off x))
    else if w = 32 ∧ c.neon ∧ M = 1 then some (Vec.splat (x (off + 0)))
    else if w = 32 ∧ c.neon ∧ M = 2 then some (Hw.combineSame (args 2 off x))
    else if w = 64 ∧ c.neon ∧ M = 1 then some (Vec.splat (x (off + 0)))
    else if w = 64 then
      if c.sse2 then some (Hw.mm_set (argsR 2 off x))
      else if c.neon then some (Hw.lit (args 2 off x))
      else if c.vsx207 then some (Hw.lit (args 2 off x))
      else if c.msa then some (Hw.lit (args 2 off x))
      else if c.null ∨ c.altivec then some (Null.make_vec (args 2 off x))
      else none
    else
      if c.null then some (Null.make_vec (args (128 / w) off x))
      else if c.sse2 then some (Hw.mm_set (argsR (128 / w) off x))
      else if c.neon then some (Hw.lit (args (128 / w) off x))
      else if c.altivec then some (Hw.lit (args (128 / w) off x))
      else if c.msa then some (Hw.lit (args (128 / w) off x))
      else none
  | .r256 => if c.avx2 then some (Hw.mm_set (argsR (256 / w) off x)) else none
  | .r512 =>
    if w = 8 then
      if c.avx512bw then do
        let q ← lanesM fun i : Fin 16 => make_uint32_uint8 v (off + (60 - 4 * i.val))
        some ((Hw.mm_set (List.ofFn q) : Vec 32 16).recast w n)
      else none
    else if w = 16 then
      if c.avx512bw then do
        let q ← lanesM fun i : Fin 16 => make_uint32_uint16 v (off + (30 - 2 * i.val))
        some ((Hw.mm_set (List.ofFn q) : Vec 32 16).recast w n)
      else none
    else if c.avx512f then some (Hw.mm_set (argsR (512 / w) off x)) else none

/-- A vector of `N` integer lanes from integer values: `for (i) i_make_const(v.vec(i), e, off + v.base_length * i)`.
Models /repo/simdpp/detail/insn/make_const.h:497-523. -/
def make_const_int (c : Cfg) (w N : Nat) [NeZero M] (e : Fin M → C.Val) : Option (Vec w N) :=
  catM ((c.regK .int w N).lanes w) fun i => i_make_const_int c (c.regK .int w N) e (0 + (c.regK .int w N).lanes w * i)

/-- A vector of `N` floating-point lanes. Models /repo/simdpp/detail/insn/make_const.h:497-523. -/
def make_const_flt (c : Cfg) (w N : Nat) [NeZero M] (cv : α → BitVec w) (e : Fin M → α) : Option (Vec w N) :=
  catM ((c.regK .flt w N).lanes w) fun i => i_make_const_flt c (c.regK .flt w N) cv e (0 + (c.regK .flt w N).lanes w * i)

/-- The value of an integer constant in a floating-point lane. -/
def cvInt (w : Nat) (v : C.Val) : BitVec w := Spec.Fp.ofInt w v.v

/-- Integer values to a vector of either kind. -/
def make_const (c : Cfg) (k : Kind) (w N : Nat) [NeZero M] (e : Fin M → C.Val) : Option (Vec w N) :=
  match k with
  | .int => make_const_int c w N e
  | .flt => make_const_flt c w N (cvInt w) e

/-- `make_uint(v0, ..)`. Models /repo/simdpp/core/make_uint.h:63-169. -/
def make_uint (c : Cfg) (k : Kind) (w N : Nat) [NeZero M] (e : Fin M → BitVec 64) : Option (Vec w N) :=
  make_const c k w N fun i => ⟨C.uint64, (e i).toNat⟩

/-- `make_int(v0, ..)`. Models /repo/simdpp/core/make_int.h:59-165. -/
def make_int (c : Cfg) (k : Kind) (w N : Nat) [NeZero M] (e : Fin M → BitVec 64) : Option (Vec w N) :=
  make_const c k w N fun i => ⟨C.int64, (e i).toInt⟩

/-- `make_float(v0, ..)` to a floating-point vector; the arguments are `double`. Models /repo/simdpp/core/make_float.h:58-160. -/
def make_float (c : Cfg) (w N : Nat) [NeZero M] (e : Fin M → BitVec 64) : Option (Vec w N) :=
  make_const_flt c w N (fun x => if h : w = 64 then h ▸ x else Spec.Fp.conv w x) e

/-- Models /repo/simdpp/core/make_uint.h:171-181. -/
def make_zero (c : Cfg) (k : Kind) (w N : Nat) : Option (Vec w N) := make_uint (M := 1) c k w N fun _ => 0

/-- `make_ones`: an unsigned integer vector of the same shape, reinterpreted.
Models /repo/simdpp/core/make_uint.h:183-193 and /repo/simdpp/detail/insn/make_const.h:525-532. -/
def make_ones (c : Cfg) (w N : Nat) : Option (Vec w N) :=
  make_const_int (M := 1) c w N fun _ => ⟨C.uint64, 2 ^ 64 - 1⟩

/-- A scalar operand of a vector operation: an unsigned value goes through `make_uint`, a signed one through `make_int`.
Models /repo/simdpp/core/detail/scalar_arg_impl.h:23-59 (`unsigned`, `unsigned long`, `unsigned long long`, `int`, `long`,
`long long`). -/
def scalarArg (c : Cfg) (k : Kind) (w N : Nat) (q : C.Val) : Option (Vec w N) :=
  if q.ty.signed then make_int (M := 1) c k w N fun _ => C.toLane 64 q else make_uint (M := 1) c k w N fun _ => C.toLane 64 q

/-! ## splat of a scalar -/

/-- `i_set_splat(uint32x4&, uint32_t)`. Models /repo/simdpp/detail/insn/set_splat.h:140-161. -/
def i_set_splat32 (c : Cfg) (gnuc : Bool) (junk : Nat → BitVec 32) (x : BitVec 32) : Option (Vec 32 4) :=
  if c.null then some (Null.make_vec [x])
  else if c.avx2 then some (Hw.broadcast (Hw.ofLow x : Vec 32 4))
  else if c.sse2 then i_permute4_32 c gnuc .int .r128 0 0 0 0 (Hw.ofLow x)
  else if c.neon then some (Vec.splat x)
  else if c.altivec then i_splat c gnuc .int .r128 0 (Hw.lde 0 x junk)
  else if c.msa then some (Vec.splat x)
  else none

/-- `_mm_cvtsi32_si128(v0)` seen as narrower lanes. -/
def cvtsi32 (x : BitVec w) : Vec w (128 / w) := (Hw.ofLow (x.setWidth 32) : Vec 32 4).recast w (128 / w)

/-- The value 64-bit x86 code moves into the low half of a register: directly, or from two halves.
Models /repo/simdpp/detail/insn/set_splat.h:196-204, 236-244. -/
def lowX64 (c : Cfg) (x : BitVec 64) : Option (Vec 64 2) :=
  if c.bits64 then some (Hw.ofLow x)
  else do
    let va : Vec 32 4 := Hw.ofLow (x.setWidth 32)
    let vb : Vec 32 4 := Hw.ofLow ((x >>> 32).setWidth 32)
    let z ← i_zip_lo c .int .r128 va vb
    some (z.recast 64 2)

/-- Integer lanes. Models /repo/simdpp/detail/insn/set_splat.h:28-254. -/
def i_set_splat_int (c : Cfg) (gnuc : Bool) (r : Reg) (junk : Nat → BitVec w) (x : BitVec w) : Option (Vec w (r.lanes w)) :=
  match r with
  | .r128 =>
    if w = 8 then
      if c.null then some (Null.make_vec [x])
      else if c.avx2 then some (Hw.broadcast (cvtsi32 x))
      else if c.sse2 then do
        let u0 ← C.mul (C.lane false x) ⟨C.int32, 0x01010101⟩
        let u ← i_set_splat32 c gnuc (fun _ => 0) (C.toLane 32 u0)
        some (u.recast w (128 / w))
      else if c.neon then some (Vec.splat x)
      else if c.altivec then i_splat c gnuc .int .r128 0 (Hw.lde 0 x junk)
      else if c.msa then some (Vec.splat x)
      else none
    else if w = 16 then
      if c.null then some (Null.make_vec [x])
      else if c.avx2 then some (Hw.broadcast (cvtsi32 x))
      else if c.sse2 then do
        let u0 := C.bor (C.lane false x) (← C.shl (C.lane false x) ⟨C.int32, 16⟩)
        let u ← i_set_splat32 c gnuc (fun _ => 0) (C.toLane 32 u0)
        some (u.recast w (128 / w))
      else if c.neon then some (Vec.splat x)
      else if c.altivec then i_splat c gnuc .int .r128 0 (Hw.lde 0 x junk)
      else if c.msa then some (Vec.splat x)
      else none
    else if h : w = 32 then
      (h ▸ fun (junk : Nat → BitVec 32) (x : BitVec 32) => i_set_splat32 c gnuc junk x :
        (Nat → BitVec w) → BitVec w → Option (Vec w (128 / w))) junk x
    else if h : w = 64 then
      (h ▸ fun (junk : Nat → BitVec 64) (x : BitVec 64) =>
        if c.sse2 then do
          let v ← lowX64 c x
          i_permute2_64 c .int .r128 0 0 v
        else if c.neon then some (Vec.splat x)
        else if c.vsx207 then i_splat c gnuc .int .r128 0 (fun i => if i.val = 0 then x else junk i.val)
        else if c.msa then do
          let vr : Vec 32 4 := fun i => (junk i.val).setWidth 32
          let vr ← Hw.ins vr 0 (x.setWidth 32)
          let vr ← Hw.ins vr 1 ((x >>> 32).setWidth 32)
          Hw.dupLane (vr.recast 64 2) 0
        else if c.null ∨ c.altivec then some (Null.make_vec [x])
        else none : (Nat → BitVec w) → BitVec w → Option (Vec w (128 / w))) junk x
    else none
  | .r256 =>
    if c.avx2 then
      if w ≤ 32 then some (Hw.broadcast (cvtsi32 x))
      else (lowX64 c (x.setWidth 64)).map fun v => Hw.broadcast (v.recast w (128 / w))
    else none
  | .r512 =>
    if w ≤ 16 then if c.avx512bw then some (Hw.broadcast (cvtsi32 x)) else none
    else if c.avx512f then some (Vec.splat x) else none

/-- Floating-point lanes. Models /repo/simdpp/detail/insn/set_splat.h:268-366. -/
def i_set_splat_flt (c : Cfg) (gnuc : Bool) (r : Reg) (junk : Nat → BitVec w) (x : BitVec w) : Option (Vec w (r.lanes w)) :=
  let mem : Vec w (128 / w) := fun i => if i.val = 0 then x else junk i.val   -- the array `rv` on the stack
  let x128 : Option (Vec w (128 / w)) :=
    if w = 32 then
      if c.null ∨ c.neonNoFltSp then some (Null.make_vec [x])
      else if c.sse2 then some (Vec.splat x)
      else if c.neon then some (Vec.splat x)
      else if c.altivec then i_splat c gnuc .flt .r128 0 (Hw.lde 0 x junk)
      else if c.msa then Hw.dupLane mem 0
      else none
    else
      if c.sse2 then some (Vec.splat x)
      else if c.neon64 then some (Vec.splat x)
      else if c.vsx206 then i_splat c gnuc .flt .r128 0 mem
      else if c.msa then Hw.dupLane mem 0
      else if c.null ∨ c.neon ∨ c.altivec then some (Null.make_vec [x])
      else none
  match r with
  | .r128 => x128
  | .r256 => if c.avx then some (Vec.splat x) else none
  | .r512 => if c.avx512f then if w = 32 then x128.map fun a => fun i => a.at_ (i.val % 4) else some (Vec.splat x) else none

/-- One register of either kind. -/
def i_set_splat (c : Cfg) (gnuc : Bool) (k : Kind) (r : Reg) (junk : Nat → BitVec w) (x : BitVec w) : Option (Vec w (r.lanes w)) :=
  match k with
  | .int => i_set_splat_int c gnuc r junk x
  | .flt => i_set_splat_flt c gnuc r junk x

/-- A vector of `N` lanes: one register, copied to all. Models /repo/simdpp/detail/insn/set_splat.h:72-80, 128-136, 180-188,
256-264, 308-324, 368-376. -/
def set_splat (c : Cfg) (gnuc : Bool) (k : Kind) (w N : Nat) (junk : Nat → BitVec w) (x : BitVec w) : Option (Vec w N) :=
  catM ((c.regK k w N).lanes w) fun _ => i_set_splat c gnuc k (c.regK k w N) junk x

/-- `splat<V>(x)`, `V v = splat(x)` for an integer `x`, which is converted to the element type.
Models /repo/simdpp/core/set_splat.h:32-50 and /repo/simdpp/detail/insn/set_splat.h:380-410. -/
def splatInt (c : Cfg) (gnuc : Bool) (k : Kind) (w N : Nat) (junk : Nat → BitVec w) (x : C.Val) : Option (Vec w N) :=
  set_splat c gnuc k w N junk (match k with | .int => C.toLane w x | .flt => cvInt w x)

/-! ## load_splat -/

/-- `*v0` for a pointer to a `w`-bit element. -/
def Mem.deref (w : Nat) (m : Mem) (p : Nat) : Option (BitVec w) := Mem.al (w / 8) p ((m.ldv w 1 p).map (·.at_ 0))

/-- One element from any address (`_mm_loadl_epi64`, `_mm_load_ss`, `_mm_load_sd`, `_mm*_broadcast_ss/sd`, `_mm_loaddup_pd`,
`vld1q_dup_*`). -/
def Mem.ld1 (w : Nat) (m : Mem) (p : Nat) : Option (BitVec w) := (m.ldv w 1 p).map (·.at_ 0)

/-- `altivec::load1_u`: `vec_lde` reads the element at `p` rounded down to a multiple of the element size into the lane given by
the low four bits of the address, `vec_perm` with `vec_lvsl` moves it to the front.
Models /repo/simdpp/detail/altivec/load1.h:34-83. -/
def load1_u (junk : Nat → BitVec w) (m : Mem) (p : Nat) : Option (Vec w (128 / w)) := do
  let x ← m.ld1 w (p / (w / 8) * (w / 8))
  let a : Vec w (128 / w) := Hw.lde (p % 16 / (w / 8)) x junk
  let b : Vec 8 16 := a.recast 8 16
  some ((Hw.vperm b b (Hw.lvsl p)).recast w (128 / w))

/-- Integer lanes. Models /repo/simdpp/detail/insn/load_splat.h:24-170. -/
def i_load_splat_int (c : Cfg) (gnuc : Bool) (r : Reg) (junk : Nat → BitVec w) (m : Mem) (p : Nat) : Option (Vec w (r.lanes w)) :=
  match r with
  | .r128 =>
    if w = 8 ∨ w = 16 then
      if c.null then do some (Null.make_vec [← m.deref w p])
      else if c.sse2 ∨ c.msa then do i_set_splat_int c gnuc .r128 junk (← m.deref w p)
      else if c.neon then do some (Vec.splat (← m.ld1 w p))
      else if c.altivec then do i_splat c gnuc .int .r128 0 (← load1_u junk m p)
      else none
    else if h : w = 32 then
      (h ▸ fun (junk : Nat → BitVec 32) =>
        if c.null then do some (Null.make_vec [← m.deref 32 p])
        else if c.sse2 then do i_permute4_32 c gnuc .int .r128 0 0 0 0 (Hw.ofLow (← m.deref 32 p))
        else if c.neon then do some (Vec.splat (← m.ld1 32 p))
        else if c.altivec then do i_splat c gnuc .int .r128 0 (← load1_u junk m p)
        else if c.msa then do i_set_splat_int c gnuc .r128 junk (← m.deref 32 p)
        else none : (Nat → BitVec w) → Option (Vec w (128 / w))) junk
    else if h : w = 64 then
      (h ▸ fun (junk : Nat → BitVec 64) =>
        if c.sse2 then do i_permute2_64 c .int .r128 0 0 (Hw.ofLow (← m.ld1 64 p))
        else if c.neon then do some (Vec.splat (← m.ld1 64 p))
        else if c.vsx207 then do
          i_splat c gnuc .int .r128 0 (← i_load_u c .int .r128 m p)
        else if c.null ∨ c.altivec then do some (Null.make_vec [← m.deref 64 p])
        else if c.msa then do i_set_splat_int c gnuc .r128 junk (← m.deref 64 p)
        else none : (Nat → BitVec w) → Option (Vec w (128 / w))) junk
    else none
  | .r256 =>
    if c.avx2 then
      if w ≤ 32 then do i_set_splat_int c gnuc .r256 junk (← m.deref w p)
      else do some (Hw.broadcast (Hw.ofLow (← m.ld1 w p) : Vec w (128 / w)))
    else none
  | .r512 =>
    if w ≤ 16 then
      if c.avx512bw then do i_set_splat_int c gnuc .r512 junk (← m.deref w p) else none
    else if c.avx512f then do some (Hw.broadcast (Hw.ofLow (← m.ld1 w p) : Vec w (128 / w))) else none

/-- Floating-point lanes. Models /repo/simdpp/detail/insn/load_splat.h:173-250. -/
def i_load_splat_flt (c : Cfg) (gnuc : Bool) (r : Reg) (junk : Nat → BitVec w) (m : Mem) (p : Nat) : Option (Vec w (r.lanes w)) :=
  match r with
  | .r128 =>
    if h : w = 32 then
      (h ▸ fun (junk : Nat → BitVec 32) =>
        if c.null ∨ c.neonNoFltSp then do some (Null.make_vec [← m.deref 32 p])
        else if c.avx then do some (Vec.splat (← m.ld1 32 p))
        else if c.sse2 then do i_permute4_32 c gnuc .flt .r128 0 0 0 0 (Hw.ofLow (← m.ld1 32 p))
        else if c.neon then do some (Vec.splat (← m.ld1 32 p))
        else if c.altivec then do i_splat c gnuc .flt .r128 0 (← load1_u junk m p)
        else if c.msa then do i_set_splat_flt c gnuc .r128 junk (← m.deref 32 p)
        else none : (Nat → BitVec w) → Option (Vec w (128 / w))) junk
    else if h : w = 64 then
      (h ▸ fun (junk : Nat → BitVec 64) =>
        if c.sse3 then do some (Vec.splat (← m.ld1 64 p))
        else if c.sse2 then do i_permute2_64 c .flt .r128 0 0 (Hw.ofLow (← m.ld1 64 p))
        else if c.neon64 then do some (Vec.splat (← m.ld1 64 p))
        else if c.vsx206 then do
          i_splat c gnuc .flt .r128 0 (← i_load_u c .flt .r128 m p)
        else if c.msa then do i_set_splat_flt c gnuc .r128 junk (← m.deref 64 p)
        else if c.null ∨ c.neon ∨ c.altivec then do some (Null.make_vec [← m.deref 64 p])
        else none : (Nat → BitVec w) → Option (Vec w (128 / w))) junk
    else none
  | .r256 => if c.avx then do some (Vec.splat (← m.ld1 w p)) else none
  | .r512 => if c.avx512f then do some (Hw.broadcast (Hw.ofLow (← m.ld1 w p) : Vec w (128 / w))) else none

/-- One register of either kind. -/
def i_load_splat (c : Cfg) (gnuc : Bool) (k : Kind) (r : Reg) (junk : Nat → BitVec w) (m : Mem) (p : Nat) :
    Option (Vec w (r.lanes w)) :=
  match k with
  | .int => i_load_splat_int c gnuc r junk m p
  | .flt => i_load_splat_flt c gnuc r junk m p

/-- `load_splat`: one register, copied to all. Models /repo/simdpp/detail/insn/load_splat.h:254-282,
/repo/simdpp/core/load_splat.h. -/
def load_splat (c : Cfg) (gnuc : Bool) (k : Kind) (w N : Nat) (junk : Nat → BitVec w) (m : Mem) (p : Nat) : Option (Vec w N) :=
  catM ((c.regK k w N).lanes w) fun _ => i_load_splat c gnuc k (c.regK k w N) junk m p

end Simdpp
