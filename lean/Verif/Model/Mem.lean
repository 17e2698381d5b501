import Verif.Model.Blend
import Verif.Model.Compare
import Verif.Model.ShufIntrin
import Verif.Model.Move
import Verif.Model.Zip
import Verif.Model.Lanes
import Verif.Model.Reduce
import Verif.Model.FConv

/-!
# Memory: load, load_u, store, store_u, stream, store_first, store_last, store_masked

Memory is a function from addresses to bytes together with the set of addresses that may be accessed. An access to any other
address, an aligned access to a misaligned address and an undefined operation give `none`. Bytes of a register are in memory
order; wider lanes are little-endian. The `__INTEL_COMPILER` and `SIMDPP_USE_AMD` (never defined, /repo/simdpp/setup_arch.h:412)
branches are not modelled.
-/

namespace Simdpp
open Sh

variable {w n N L : Nat}

/-- Bytes of memory and the addresses that may be accessed. -/
structure Mem where
  ok : Nat → Bool
  byte : Nat → BitVec 8

namespace Mem

/-- Read `k` bytes. -/
def rd (m : Mem) (p k : Nat) : Option (Vec 8 k) :=
  if ∀ i : Fin k, m.ok (p + i.val) = true then some (fun i => m.byte (p + i.val)) else none

/-- Write `k` bytes. -/
def wr {k : Nat} (m : Mem) (p : Nat) (v : Vec 8 k) : Option Mem :=
  if ∀ i : Fin k, m.ok (p + i.val) = true then
    some { m with byte := fun x => if p ≤ x ∧ x < p + k then v.at_ (x - p) else m.byte x }
  else none

/-- An access that needs `p` to be a multiple of `k`. -/
def al {α : Type} (k p : Nat) (x : Option α) : Option α := if p % k = 0 then x else none

/-- Load `n` lanes (`_mm_loadu_*`, `vld1q_*`, `vec_vsx_ld`, `__msa_ld_*`). -/
def ldv (w n : Nat) (m : Mem) (p : Nat) : Option (Vec w n) := (m.rd p (n * (w / 8))).map (Vec.recast w n)

/-- Store `n` lanes (`_mm_storeu_*`, `vst1q_*`, `vec_vsx_st`, `__msa_st_*`). -/
def stv (m : Mem) (p : Nat) (a : Vec w n) : Option Mem := m.wr p (a.recast 8 (n * (w / 8)))

/-- Store the selected lanes one by one (`_mm_maskstore_*`, `_mm*_mask_store_*`): only these are accessed. -/
def stm (m : Mem) (p : Nat) (a : Vec w n) (sel : Nat → Bool) : Option Mem :=
  loopM (fun i m => if sel i then m.stv (p + i * (w / 8)) (fun _ : Fin 1 => a.at_ i) else some m) 0 n m

/-- `vec_ld`: the low four bits of the address are ignored. -/
def vec_ld (w n : Nat) (m : Mem) (p : Nat) : Option (Vec w n) := m.ldv w n (p / 16 * 16)
/-- `vec_st`, `vec_stl`: the low four bits of the address are ignored. -/
def vec_st (m : Mem) (p : Nat) (a : Vec w n) : Option Mem := m.stv (p / 16 * 16) a

end Mem

namespace Hw
/-- `vec_lvsl(0, p)` -/
def lvsl (p : Nat) : Vec 8 n := fun i => BitVec.ofNat 8 (p % 16 + i.val)
/-- `vec_lvsr(0, p)` -/
def lvsr (p : Nat) : Vec 8 n := fun i => BitVec.ofNat 8 (16 - p % 16 + i.val)
/-- `vec_slo(a, splat(s))`: `a` as one 128-bit number shifted left by bits 6..3 of `s` octets, in little-endian lane numbers. -/
def slo (a : Vec 8 n) (s : BitVec 8) : Vec 8 n := fun i => if s.toNat / 8 % 16 ≤ i.val then a.at_ (i.val - s.toNat / 8 % 16) else 0
/-- `vec_sro(a, splat(s))` -/
def sro (a : Vec 8 n) (s : BitVec 8) : Vec 8 n := fun i => a.at_ (i.val + s.toNat / 8 % 16)
/-- Load `n` elements of a static array of `len` elements from element `off` on. -/
def tab (len : Nat) (t : Nat → BitVec w) (off : Int) : Option (Vec w n) :=
  if 0 ≤ off ∧ off + n ≤ len then some (fun i => t (off.toNat + i.val)) else none
end Hw

/-! ## The portable loops -/

namespace Null

/-- `const T* pt = p; for (i) a.el(i) = *pt++;`: dereferencing a misaligned `T*` is undefined.
Models /repo/simdpp/detail/null/memory.h:23-31. -/
def load (w n : Nat) (m : Mem) (p : Nat) : Option (Vec w n) :=
  Mem.al (w / 8) p (lanesM fun i : Fin n => (m.ldv w 1 (p + i.val * (w / 8))).map (·.at_ 0))

/-- `*pt = x` for element `i` -/
def put (m : Mem) (p i : Nat) (x : BitVec w) : Option Mem := Mem.al (w / 8) p (m.stv (p + i * (w / 8)) (fun _ : Fin 1 => x))

/-- Models /repo/simdpp/detail/null/memory.h:69-77. -/
def store (m : Mem) (p : Nat) (a : Vec w n) : Option Mem := loopM (fun i m => put m p i (a.at_ i)) 0 n m

/-- Models /repo/simdpp/detail/null/memory.h:79-89. -/
def store_masked (m : Mem) (p : Nat) (a : Vec w n) (sel : Fin n → Bool) : Option Mem :=
  loopM (fun i m => if h : i < n then if sel ⟨i, h⟩ then put m p i (a.at_ i) else some m else none) 0 n m

/-- `for (i = 0; i < length && i < n; i++)`. Models /repo/simdpp/detail/null/memory.h:91-99. -/
def store_first (m : Mem) (p : Nat) (a : Vec w N) (n : Nat) : Option Mem := loopM (fun i m => put m p i (a.at_ i)) 0 (if N ≤ n then N else n) m

/-- `for (i = length - n; i < length; i++)`; `length - n` wraps around when `n` is larger than the length.
Models /repo/simdpp/detail/null/memory.h:101-110. -/
def store_last (m : Mem) (p : Nat) (a : Vec w N) (n : Nat) : Option Mem :=
  if n ≤ N then loopM (fun i m => put m p i (a.at_ i)) (N - n) n m else some m

end Null

/-! ## load, load_u -/

/-- 16 bytes. Models /repo/simdpp/detail/insn/load.h:27-42. -/
def i_load8 (c : Cfg) (m : Mem) (p : Nat) : Option (Vec 8 n) :=
  Mem.al 16 p <|
    if c.null then Null.load 8 n m p
    else if c.sse2 then m.ldv 8 n p
    else if c.neon then (m.ldv 64 (n / 8) p).map (Vec.recast 8 n)
    else if c.altivec then m.vec_ld 8 n p
    else if c.msa then m.ldv 8 n p
    else none

/-- Models /repo/simdpp/detail/insn/load.h:27-165. -/
def i_load (c : Cfg) (k : Kind) (r : Reg) (m : Mem) (p : Nat) : Option (Vec w n) :=
  match k, r with
  | .int, .r128 =>
    if w = 64 ∧ (c.null ∨ (c.altivec ∧ ¬ c.vsx207)) then Mem.al 16 p (Null.load w n m p)
    else (i_load8 (n := n * (w / 8)) c m p).map (Vec.recast w n)
  | .flt, .r128 =>
    Mem.al 16 p <|
      if w = 32 then
        if c.null ∨ c.neonNoFltSp then Null.load w n m p
        else if c.sse2 then m.ldv w n p
        else if c.neon then m.ldv w n p
        else if c.altivec then m.vec_ld w n p
        else if c.msa then m.ldv w n p
        else none
      else
        if c.sse2 then m.ldv w n p
        else if c.neon64 then m.ldv w n p
        else if c.vsx206 then m.vec_ld w n p
        else if c.msa then m.ldv w n p
        else if c.null ∨ c.altivec ∨ c.neon32 then Null.load w n m p
        else none
  | .int, .r256 => if c.avx2 then Mem.al 32 p (m.ldv w n p) else none
  | .flt, .r256 => if c.avx then Mem.al 32 p (m.ldv w n p) else none
  | .int, .r512 => if c.hasInt w .r512 then Mem.al 64 p (m.ldv w n p) else none
  | .flt, .r512 => if c.avx512f then Mem.al 64 p (m.ldv w n p) else none

/-- 16 bytes from any address. Models /repo/simdpp/detail/insn/load_u.h:33-58. -/
def i_load_u8 (c : Cfg) (m : Mem) (p : Nat) : Option (Vec 8 n) :=
  if c.null then Null.load 8 n m p
  else if c.sse2 then m.ldv 8 n p
  else if c.neon then m.ldv 8 n p
  else if c.vsx206 then m.ldv 8 n p
  else if c.altivec then do
    let l1 ← m.vec_ld 8 n p
    let l2 ← m.vec_ld 8 n (p + 16)
    some (Hw.vperm l1 l2 (Hw.lvsl p))
  else if c.msa then m.ldv 8 n p
  else none

/-- Models /repo/simdpp/detail/insn/load_u.h:33-309. -/
def i_load_u (c : Cfg) (k : Kind) (r : Reg) (m : Mem) (p : Nat) : Option (Vec w n) :=
  match k, r with
  | .int, .r128 =>
    let via8 : Option (Vec w n) := (i_load_u8 (n := n * (w / 8)) c m p).map (Vec.recast w n)
    if w = 8 then via8
    else if c.null then Null.load w n m p
    else if w = 16 then
      if c.sse2 ∨ c.altivec then via8
      else if c.neon then m.ldv w n p
      else if c.msa then m.ldv w n p
      else none
    else if w = 32 then
      if c.vsx206 then m.ldv w n p
      else if c.sse2 ∨ c.altivec then via8
      else if c.neon then m.ldv w n p
      else if c.msa then m.ldv w n p
      else none
    else
      if c.sse2 then via8
      else if c.vsx207 then via8
      else if c.altivec then Null.load w n m p
      else if c.neon then m.ldv w n p
      else if c.msa then m.ldv w n p
      else none
  | .flt, .r128 =>
    if w = 32 then
      if c.null ∨ c.neonNoFltSp then Null.load w n m p
      else if c.sse2 then m.ldv w n p
      else if c.neon then m.ldv w n p
      else if c.vsx206 then m.ldv w n p
      else if c.altivec then (i_load_u8 (n := n * (w / 8)) c m p).map (Vec.recast w n)
      else if c.msa then m.ldv w n p
      else none
    else
      if c.sse2 then m.ldv w n p
      else if c.neon64 then m.ldv w n p
      else if c.vsx206 then m.ldv w n p
      else if c.msa then m.ldv w n p
      else if c.null ∨ c.altivec ∨ c.neon then Null.load w n m p
      else none
  | .int, .r256 => if c.avx2 then m.ldv w n p else none
  | .flt, .r256 => if c.avx then m.ldv w n p else none
  | .int, .r512 => if c.hasInt w .r512 then m.ldv w n p else none
  | .flt, .r512 => if c.avx512f then m.ldv w n p else none

/-- Register type of a vector of `N` lanes. -/
def Cfg.regK (c : Cfg) (k : Kind) (w N : Nat) : Reg := match k with | .int => c.regOf w N | .flt => c.regF w N

/-- Bytes of a register (`length_bytes`). -/
def Reg.bytes (r : Reg) : Nat := r.bits / 8

/-- `load`: one register, or `for (i) { i_load(a.vec(i), p); p += veclen; }`.
Models /repo/simdpp/detail/insn/load.h:167-184, /repo/simdpp/core/load.h. -/
def load (c : Cfg) (k : Kind) (w N : Nat) (m : Mem) (p : Nat) : Option (Vec w N) :=
  catM ((c.regK k w N).lanes w) fun i => i_load c k (c.regK k w N) m (p + i * (c.regK k w N).bytes)

/-- `load_u`. Models /repo/simdpp/detail/insn/load_u.h:313-329, /repo/simdpp/core/load_u.h. -/
def load_u (c : Cfg) (k : Kind) (w N : Nat) (m : Mem) (p : Nat) : Option (Vec w N) :=
  catM ((c.regK k w N).lanes w) fun i => i_load_u c k (c.regK k w N) m (p + i * (c.regK k w N).bytes)

/-! ## store, store_u, stream -/

/-- Models /repo/simdpp/detail/insn/store.h:24-39. -/
def i_store8 (c : Cfg) (m : Mem) (p : Nat) (a : Vec 8 n) : Option Mem :=
  Mem.al 16 p <|
    if c.null then Null.store m p a
    else if c.sse2 then m.stv p a
    else if c.neon then m.stv p (a.recast 64 (n / 8))
    else if c.altivec then m.vec_st p a
    else if c.msa then m.stv p a
    else none

/-- Models /repo/simdpp/detail/insn/store.h:24-213. -/
def i_store (c : Cfg) (k : Kind) (r : Reg) (m : Mem) (p : Nat) (a : Vec w n) : Option Mem :=
  match k, r with
  | .int, .r128 =>
    if w = 64 ∧ (c.null ∨ (c.altivec ∧ ¬ c.vsx207)) then Mem.al 16 p (Null.store m p a)
    else i_store8 c m p (a.recast 8 (n * (w / 8)))
  | .flt, .r128 =>
    Mem.al 16 p <|
      if w = 32 then
        if c.null ∨ c.neonNoFltSp then Null.store m p a
        else if c.sse2 then m.stv p a
        else if c.neon then m.stv p a
        else if c.altivec then m.vec_st p a
        else if c.msa then m.stv p a
        else none
      else
        if c.sse2 then m.stv p a
        else if c.neon64 then m.stv p a
        else if c.vsx206 then m.vec_st p a
        else if c.msa then m.stv p a
        else if c.null ∨ c.neon ∨ c.altivec then Null.store m p a
        else none
  | .int, .r256 => if c.avx2 then Mem.al 32 p (m.stv p a) else none
  | .flt, .r256 => if c.avx then Mem.al 32 p (m.stv p a) else none
  | .int, .r512 => if c.hasInt w .r512 then Mem.al 64 p (m.stv p a) else none
  | .flt, .r512 => if c.avx512f then Mem.al 64 p (m.stv p a) else none

/-- 16 bytes to any address; on AltiVec the two 16-byte blocks around it are read, merged and written.
Models /repo/simdpp/detail/insn/store_u.h:27-63. -/
def i_store_u8 (c : Cfg) (m : Mem) (p : Nat) (a : Vec 8 n) : Option Mem :=
  if c.null then Null.store m p a
  else if c.sse2 then m.stv p a
  else if c.neon then m.stv p a
  else if c.vsx206 then m.stv p a
  else if c.altivec then do
    let msq ← m.vec_ld 8 n p
    let lsq ← m.vec_ld 8 n (p + 15)
    let edges : Vec 8 n := Hw.vperm lsq msq (Hw.lvsl p)
    let msq : Vec 8 n := Hw.vperm edges a (Hw.lvsr p)
    let lsq : Vec 8 n := Hw.vperm a edges (Hw.lvsr p)
    let m ← m.vec_st (p + 15) lsq
    m.vec_st p msq
  else if c.msa then m.stv p a
  else none

/-- Models /repo/simdpp/detail/insn/store_u.h:27-222. -/
def i_store_u (c : Cfg) (k : Kind) (r : Reg) (m : Mem) (p : Nat) (a : Vec w n) : Option Mem :=
  match k, r with
  | .int, .r128 =>
    let via8 := i_store_u8 c m p (a.recast 8 (n * (w / 8)))
    if w = 8 then via8
    else if c.neon then m.stv p a
    else if w = 32 ∧ c.vsx206 then m.stv p a
    else if w = 64 ∧ c.vsx207 then m.stv p a
    else if c.msa then m.stv p a
    else via8
  | .flt, .r128 =>
    if w = 32 then
      if c.null ∨ c.neonNoFltSp then Null.store m p a
      else if c.sse2 then m.stv p a
      else if c.neon then m.stv p a
      else if c.vsx206 then m.stv p a
      else if c.altivec then i_store_u8 c m p (a.recast 8 (n * (w / 8)))
      else if c.msa then m.stv p a
      else none
    else
      if c.sse2 then m.stv p a
      else if c.neon64 then m.stv p a
      else if c.vsx206 then m.stv p a
      else if c.msa then m.stv p a
      else if c.null ∨ c.neon ∨ c.altivec then Null.store m p a
      else none
  | .int, .r256 => if c.avx2 then m.stv p a else none
  | .flt, .r256 => if c.avx then m.stv p a else none
  | .int, .r512 => if c.hasInt w .r512 then m.stv p a else none
  | .flt, .r512 => if c.avx512f then m.stv p a else none

/-- Models /repo/simdpp/detail/insn/stream.h:25-38. -/
def i_stream8 (c : Cfg) (m : Mem) (p : Nat) (a : Vec 8 n) : Option Mem :=
  Mem.al 16 p <|
    if c.null then Null.store m p a
    else if c.sse2 then m.stv p a
    else if c.neon ∨ c.msa then i_store8 c m p a
    else if c.altivec then m.vec_st p a
    else none

/-- Non-temporal stores. Models /repo/simdpp/detail/insn/stream.h:25-204. -/
def i_stream (c : Cfg) (k : Kind) (r : Reg) (m : Mem) (p : Nat) (a : Vec w n) : Option Mem :=
  match k, r with
  | .int, .r128 =>
    if w = 64 ∧ c.altivec ∧ ¬ c.vsx207 then Mem.al 16 p (Null.store m p a)
    else i_stream8 c m p (a.recast 8 (n * (w / 8)))
  | .flt, .r128 =>
    Mem.al 16 p <|
      if w = 32 then
        if c.null then Null.store m p a
        else if c.sse2 then m.stv p a
        else if c.neon ∨ c.msa then i_store c .flt .r128 m p a
        else if c.altivec then m.vec_st p a
        else none
      else
        if c.sse2 then m.stv p a
        else if c.neon64 ∨ c.vsx206 ∨ c.msa then i_store c .flt .r128 m p a
        else if c.null ∨ c.neon32 ∨ c.altivec then Null.store m p a
        else none
  | .int, .r256 => if c.avx2 then Mem.al 32 p (m.stv p a) else none
  | .flt, .r256 => if c.avx then Mem.al 32 p (m.stv p a) else none
  | .int, .r512 => if c.hasInt w .r512 then Mem.al 64 p (m.stv p a) else none
  | .flt, .r512 => if c.avx512f then Mem.al 64 p (m.stv p a) else none

/-- `for (i < vec_length) { f(p, a.vec(i)); p += veclen; }` -/
def storeAll (L B : Nat) (f : Mem → Nat → Vec w L → Option Mem) (m : Mem) (p : Nat) (a : Vec w N) : Option Mem :=
  loopM (fun i m => f m (p + i * B) (Hw.part L i a)) 0 (N / L) m

/-- `store`. Models /repo/simdpp/detail/insn/store.h:217-228, /repo/simdpp/core/store.h. -/
def store (c : Cfg) (k : Kind) (m : Mem) (p : Nat) (a : Vec w N) : Option Mem :=
  storeAll ((c.regK k w N).lanes w) (c.regK k w N).bytes (i_store c k (c.regK k w N)) m p a
/-- `store_u`. Models /repo/simdpp/detail/insn/store_u.h:224-233, /repo/simdpp/core/store_u.h. -/
def store_u (c : Cfg) (k : Kind) (m : Mem) (p : Nat) (a : Vec w N) : Option Mem :=
  storeAll ((c.regK k w N).lanes w) (c.regK k w N).bytes (i_store_u c k (c.regK k w N)) m p a
/-- `stream`. Models /repo/simdpp/detail/insn/stream.h:208-219, /repo/simdpp/core/stream.h. -/
def stream (c : Cfg) (k : Kind) (m : Mem) (p : Nat) (a : Vec w N) : Option Mem :=
  storeAll ((c.regK k w N).lanes w) (c.regK k w N).bytes (i_stream c k (c.regK k w N)) m p a

/-! ## store_first, store_last -/

/-- `b = load(p); b = blend(a, b, mask); store(p, b);` -/
def blendStore (c : Cfg) (k : Kind) (r : Reg) (m : Mem) (p : Nat) (a mask : Vec w n) : Option Mem := do
  let b ← i_load c k r m p
  let b ← i_blend c k r a b mask
  i_store c k r m p b

/-- The same with the operands of `blend` exchanged. -/
def blendStore' (c : Cfg) (k : Kind) (r : Reg) (m : Mem) (p : Nat) (a mask : Vec w n) : Option Mem := do
  let b ← i_load c k r m p
  let b ← i_blend c k r b a mask
  i_store c k r m p b

/-- `mask_d`: `h` elements of all ones, then as many zeros. -/
def onesZeros (w h : Nat) (i : Nat) : BitVec w := if i < h then BitVec.allOnes w else 0
/-- `mask_d`: `h` zeros, then as many elements of all ones. -/
def zerosOnes (w h : Nat) (i : Nat) : BitVec w := if i < h then 0 else BitVec.allOnes w

/-- The sign bits of a mask register. -/
def signs (mask : Vec w n) (i : Nat) : Bool := (mask.at_ i).msb

/-- Bytes. `be`: big-endian AltiVec. Models /repo/simdpp/detail/insn/store_first.h:31-104. -/
def i_store_first8 (c : Cfg) (be : Bool) (r : Reg) (m : Mem) (p : Nat) (a : Vec 8 N) (n : Nat) : Option Mem :=
  match r with
  | .r128 =>
    Mem.al 16 p <|
      if c.null then Null.store_first m p a n
      else if c.altivec then
        if be then do
          let mask ← i_cmp_lt c false .r128 (Hw.lvsr n : Vec 8 N) (Vec.splat 0x10)
          blendStore c .int .r128 m p a mask.unmask
        else blendStore' c .int .r128 m p a (Hw.slo (Vec.splat (BitVec.allOnes 8)) (BitVec.ofNat 8 (n * 8)))
      else if c.sse2 ∨ c.neon ∨ c.msa then do
        let mask ← Hw.tab 32 (onesZeros 8 16) (16 - n)
        blendStore c .int .r128 m p a mask
      else none
  | .r256 => if c.avx2 then do
      let mask ← Hw.tab 64 (onesZeros 8 32) (32 - n)
      blendStore c .int .r256 m p a mask
    else none
  | .r512 => if c.avx512bw then do
      let mask ← Hw.tab 128 (onesZeros 8 64) (64 - n)
      blendStore c .int .r512 m p a mask
    else none

/-- `_mm256_maskstore_epi32(p, load_u(mask_d + h - n), a)` and similar -/
def maskstoreFirst (h : Nat) (m : Mem) (p : Nat) (a : Vec w N) (n : Nat) : Option Mem := do
  let mask : Vec w N ← Hw.tab (2 * h) (onesZeros w h) (h - n)
  m.stm p a (signs mask)
/-- `_mm256_maskstore_epi32(p, load_u(mask_d + n), a)` and similar -/
def maskstoreLast (h : Nat) (m : Mem) (p : Nat) (a : Vec w N) (n : Nat) : Option Mem := do
  let mask : Vec w N ← Hw.tab (2 * h) (zerosOnes w h) n
  m.stm p a (signs mask)
/-- `_mm512_mask_store_epi32(p, 0xffff >> (16-n), a)`; a negative shift count is undefined. -/
def mask512First (h : Nat) (m : Mem) (p : Nat) (a : Vec w N) (n : Nat) : Option Mem :=
  if n ≤ h then m.stm p a (fun i => ((2 ^ h - 1) / 2 ^ (h - n)).testBit i) else none
/-- `_mm512_mask_store_epi32(p, 0xffff << (16-n), a)` -/
def mask512Last (h : Nat) (m : Mem) (p : Nat) (a : Vec w N) (n : Nat) : Option Mem :=
  if n ≤ h then m.stm p a (fun i => ((2 ^ h - 1) * 2 ^ (h - n)).testBit i) else none

/-- Store lane `i` (`neon::store_lane<i,1>(p + ..., a)`, `_mm_store_sd`, `vst1_f64`, `*q = vec_extract(a, i)`). -/
def storeLane (m : Mem) (p : Nat) (a : Vec w n) (i : Nat) : Option Mem := m.stv (p + i * (w / 8)) (fun _ : Fin 1 => a.at_ i)

/-- 16-, 32- and 64-bit integers. Models /repo/simdpp/detail/insn/store_first.h:108-212. -/
def i_store_first_int (c : Cfg) (be : Bool) (r : Reg) (m : Mem) (p : Nat) (a : Vec w N) (n : Nat) : Option Mem :=
  let via8 := i_store_first8 c be r m p (a.recast 8 (N * (w / 8))) (n * (w / 8))
  match r with
  | .r128 =>
    if w = 8 then via8
    else Mem.al 16 p <|
      if w = 16 ∨ w = 32 then
        if c.null then Null.store_first m p a n
        else if c.sse2 ∨ c.neon ∨ c.altivec ∨ c.msa then via8
        else none
      else
        if c.sse2 then if n = 1 then storeLane m p a 0 else some m
        else if c.neon then if n = 1 then storeLane m p a 0 else some m
        else if c.vsx207 then if n = 1 then storeLane m p a 0 else some m
        else if c.msa then via8
        else if c.null ∨ c.altivec then Null.store_first m p a n
        else none
  | .r256 =>
    if w = 8 ∨ w = 16 then via8
    else if c.avx2 then maskstoreFirst (256 / w) m p a n else none
  | .r512 =>
    if w = 8 ∨ w = 16 then via8
    else if c.avx512f then mask512First (512 / w) m p a n else none

/-- Floating point. Models /repo/simdpp/detail/insn/store_first.h:216-317. -/
def i_store_first_flt (c : Cfg) (be : Bool) (r : Reg) (m : Mem) (p : Nat) (a : Vec w N) (n : Nat) : Option Mem :=
  match r with
  | .r128 =>
    Mem.al 16 p <|
      if w = 32 then
        if c.null ∨ c.altivec ∨ c.neonNoFltSp ∨ c.msa then i_store_first_int c be .r128 m p a n
        else if c.avx then maskstoreFirst 4 m p a n
        else if c.sse2 then do
          let mask ← Hw.tab 8 (onesZeros w 4) (4 - n)
          blendStore c .flt .r128 m p a mask
        else if c.neon then
          if n < 1 then some m else do
          let m ← storeLane m p a 0
          if n < 2 then some m else do
          let m ← storeLane m p a 1
          if n < 3 then some m else storeLane m p a 2
        else none
      else
        if c.sse2 then if n = 1 then storeLane m p a 0 else some m
        else if c.neon64 then if n = 1 then storeLane m p a 0 else some m
        else if c.vsx206 then if n = 1 then storeLane m p a 0 else some m
        else if c.msa then i_store_first_int c be .r128 m p a n
        else if c.null ∨ c.neon32 ∨ c.altivec then Null.store_first m p a n
        else none
  | .r256 => if c.avx then maskstoreFirst (256 / w) m p a n else none
  | .r512 => if c.avx512f then mask512First (512 / w) m p a n else none

def i_store_first (c : Cfg) (be : Bool) (k : Kind) (r : Reg) (m : Mem) (p : Nat) (a : Vec w N) (n : Nat) : Option Mem :=
  match k with
  | .int => i_store_first_int c be r m p a n
  | .flt => i_store_first_flt c be r m p a n

/-- Arrays: full registers, then a part of one. Models /repo/simdpp/detail/insn/store_first.h:321-341. -/
def store_first_arr (c : Cfg) (be : Bool) (k : Kind) (r : Reg) (m : Mem) (p : Nat) (a : Vec w N) (n : Nat) : Option Mem := do
  let L := r.lanes w
  let m ← loopM (fun i m => i_store c k r m (p + i * r.bytes) (Hw.part L i a)) 0 (n / L) m
  if 0 < n % L then i_store_first c be k r m (p + n / L * r.bytes) (Hw.part L (n / L) a) (n % L) else some m

/-- `store_first`: the overload for one register, or the template (`sg`: also for one register of signed integers).
Models /repo/simdpp/core/store_first.h:43-49. -/
def store_first (c : Cfg) (be : Bool) (k : Kind) (sg : Bool) (m : Mem) (p : Nat) (a : Vec w N) (n : Nat) : Option Mem :=
  let r := c.regK k w N
  if N = r.lanes w ∧ ¬ (k = .int ∧ sg) then i_store_first c be k r m p a n
  else store_first_arr c be k r m p a n

/-- Bytes. Models /repo/simdpp/detail/insn/store_last.h:34-113. -/
def i_store_last8 (c : Cfg) (be : Bool) (r : Reg) (m : Mem) (p : Nat) (a : Vec 8 N) (n : Nat) : Option Mem :=
  match r with
  | .r128 =>
    Mem.al 16 p <|
      if c.null then Null.store_last m p a n
      else if c.altivec then
        if be then do
          let mask ← i_cmp_gt c false .r128 (Hw.lvsl n : Vec 8 N) (Vec.splat 0x0f)
          blendStore c .int .r128 m p a mask.unmask
        else blendStore' c .int .r128 m p a (Hw.sro (Vec.splat (BitVec.allOnes 8)) (BitVec.ofNat 8 (n * 8)))
      else if c.sse2 ∨ c.neon then do
        let mask ← Hw.tab 32 (zerosOnes 8 16) n
        blendStore c .int .r128 m p a mask
      else if c.msa then
        blendStore c .int .r128 m p a (Hw.sld_b (Vec.splat (BitVec.allOnes 8)) (Vec.splat 0) n)
      else none
  | .r256 => if c.avx2 then do
      let mask ← Hw.tab 64 (zerosOnes 8 32) n
      blendStore c .int .r256 m p a mask
    else none
  | .r512 => if c.avx512bw then do
      let mask ← Hw.tab 128 (zerosOnes 8 64) n
      blendStore c .int .r512 m p a mask
    else none

/-- Models /repo/simdpp/detail/insn/store_last.h:117-227. -/
def i_store_last_int (c : Cfg) (be : Bool) (r : Reg) (m : Mem) (p : Nat) (a : Vec w N) (n : Nat) : Option Mem :=
  let via8 := i_store_last8 c be r m p (a.recast 8 (N * (w / 8))) (n * (w / 8))
  match r with
  | .r128 =>
    if w = 8 then via8
    else Mem.al 16 p <|
      if w = 16 then
        if c.null then Null.store_last m p a n
        else if c.sse2 ∨ c.neon ∨ c.altivec ∨ c.msa then via8
        else none
      else if w = 32 then
        if c.null then Null.store_last m p a n
        else if c.avx2 then maskstoreLast 4 m p a n
        else if c.sse2 ∨ c.neon ∨ c.altivec ∨ c.msa then via8
        else none
      else
        if c.sse2 then
          if n = 1 then do
            let b ← i_move_l c .int .r128 1 a
            m.stv (p + 8) (fun _ : Fin 1 => b.at_ 0)
          else some m
        else if c.neon then if n = 1 then storeLane m p a 1 else some m
        else if c.vsx207 then if n = 1 then storeLane m p a 1 else some m
        else if c.msa then via8
        else if c.null ∨ c.altivec then Null.store_last m p a n
        else none
  | .r256 =>
    if w = 8 ∨ w = 16 then via8
    else if c.avx2 then maskstoreLast (256 / w) m p a n else none
  | .r512 =>
    if w = 8 ∨ w = 16 then via8
    else if c.avx512f then mask512Last (512 / w) m p a n else none

/-- Models /repo/simdpp/detail/insn/store_last.h:231-338. -/
def i_store_last_flt (c : Cfg) (be : Bool) (r : Reg) (m : Mem) (p : Nat) (a : Vec w N) (n : Nat) : Option Mem :=
  match r with
  | .r128 =>
    Mem.al 16 p <|
      if w = 32 then
        if c.null ∨ c.altivec ∨ c.neonFltSp ∨ c.msa then i_store_last_int c be .r128 m p a n
        else if c.avx then maskstoreLast 4 m p a n
        else if c.sse2 then do
          let mask ← Hw.tab 8 (zerosOnes w 4) n
          blendStore c .flt .r128 m p a mask
        else if c.neon then
          if n < 1 then some m else do
          let m ← storeLane m p a 3
          if n < 2 then some m else do
          let m ← storeLane m p a 2
          if n < 3 then some m else storeLane m p a 1
        else none
      else
        if c.sse2 then
          if n = 1 then do
            let b ← i_zip_hi c .flt .r128 a a
            m.stv (p + 8) (fun _ : Fin 1 => b.at_ 0)
          else some m
        else if c.neon64 then if n = 1 then storeLane m p a 1 else some m
        else if c.vsx206 then if n = 1 then storeLane m p a 1 else some m
        else if c.msa then i_store_last_int c be .r128 m p a n
        else if c.null ∨ c.neon32 ∨ c.altivec then Null.store_last m p a n
        else none
  | .r256 => if c.avx then maskstoreLast (256 / w) m p a n else none
  | .r512 => if c.avx512f then mask512Last (512 / w) m p a n else none

def i_store_last (c : Cfg) (be : Bool) (k : Kind) (r : Reg) (m : Mem) (p : Nat) (a : Vec w N) (n : Nat) : Option Mem :=
  match k with
  | .int => i_store_last_int c be r m p a n
  | .flt => i_store_last_flt c be r m p a n

/-- Arrays: skip `length - n` elements, then a part of one register, then full registers (`length - n` wraps around when `n` is
larger than the length: not modelled, `none`). Models /repo/simdpp/detail/insn/store_last.h:342-367. -/
def store_last_arr (c : Cfg) (be : Bool) (k : Kind) (r : Reg) (m : Mem) (p : Nat) (a : Vec w N) (n : Nat) : Option Mem :=
  if N < n then none else do
  let L := r.lanes w
  let v := (N - n) / L
  if 0 < n % L then do
    let m ← i_store_last c be k r m (p + v * r.bytes) (Hw.part L v a) (n % L)
    loopM (fun i m => i_store c k r m (p + i * r.bytes) (Hw.part L i a)) (v + 1) (N / L - (v + 1)) m
  else loopM (fun i m => i_store c k r m (p + i * r.bytes) (Hw.part L i a)) v (N / L - v) m

/-- Models /repo/simdpp/core/store_last.h:43-49. -/
def store_last (c : Cfg) (be : Bool) (k : Kind) (sg : Bool) (m : Mem) (p : Nat) (a : Vec w N) (n : Nat) : Option Mem :=
  let r := c.regK k w N
  if N = r.lanes w ∧ ¬ (k = .int ∧ sg) then i_store_last c be k r m p a n
  else store_last_arr c be k r m p a n

/-! ## store_masked (32- and 64-bit lanes) -/

/-- `null::store_masked(p, a, mask)`: the mask must be an array of `bool`. -/
def nullMasked (m : Mem) (p : Nat) (a : Vec w n) (mask : Mask w n) : Option Mem := do
  let b ← mask.asBits
  Null.store_masked m p a b
/-- `_mm_mask_store_*`: the mask must be a mask register. -/
def kMasked (m : Mem) (p : Nat) (a : Vec w n) (mask : Mask w n) : Option Mem := do
  let b ← mask.asBits
  m.stm p a (fun i => if h : i < n then b ⟨i, h⟩ else false)
/-- `_mm_maskstore_*`: the mask must be a vector register. -/
def vMasked (m : Mem) (p : Nat) (a : Vec w n) (mask : Mask w n) : Option Mem := do
  let v ← mask.asVec
  m.stm p a (signs v)
/-- `b = load(p); b = blend(a, b, mask); store(p, b);` -/
def blendMasked (c : Cfg) (k : Kind) (m : Mem) (p : Nat) (a : Vec w n) (mask : Mask w n) : Option Mem := do
  let b ← i_load c k .r128 m p
  let b ← i_blend_vm c k .r128 a b mask
  i_store c k .r128 m p b

/-- Models /repo/simdpp/detail/insn/store_masked.h:26-209. -/
def i_store_masked (c : Cfg) (k : Kind) (r : Reg) (m : Mem) (p : Nat) (a : Vec w n) (mask : Mask w n) : Option Mem :=
  match k, r with
  | .int, .r128 =>
    if w = 32 then
      if c.null then nullMasked m p a mask
      else if c.avx512vl then kMasked m p a mask
      else if c.avx2 then vMasked m p a mask
      else if c.avx then vMasked m p a mask
      else if c.sse2 ∨ c.neon ∨ c.altivec ∨ c.msa then blendMasked c k m p a mask
      else none
    else
      if c.avx512vl then kMasked m p a mask
      else if c.avx2 then vMasked m p a mask
      else if c.avx then vMasked m p a mask
      else if c.sse2 ∨ c.neon ∨ c.vsx207 ∨ c.msa then blendMasked c k m p a mask
      else if c.null ∨ c.altivec then nullMasked m p a mask
      else none
  | .int, .r256 => if c.avx2 then if c.avx512vl then kMasked m p a mask else vMasked m p a mask else none
  | .int, .r512 => if c.avx512f then kMasked m p a mask else none
  | .flt, .r128 =>
    if w = 32 then
      if c.null then nullMasked m p a mask
      else if c.avx512vl then kMasked m p a mask
      else if c.avx then vMasked m p a mask
      else if c.sse2 ∨ c.neon ∨ c.altivec ∨ c.msa then blendMasked c k m p a mask
      else none
    else
      if c.avx512vl then kMasked m p a mask
      else if c.avx then vMasked m p a mask
      else if c.sse2 ∨ c.neon64 ∨ c.vsx206 ∨ c.msa then blendMasked c k m p a mask
      else if c.null ∨ c.neon32 ∨ c.altivec then nullMasked m p a mask
      else none
  | .flt, .r256 => if c.avx then if c.avx512vl then kMasked m p a mask else vMasked m p a mask else none
  | .flt, .r512 => if c.avx512f then kMasked m p a mask else none

/-- `store_masked`; the mask is given by registers. Models /repo/simdpp/detail/insn/store_masked.h:213-222,
/repo/simdpp/core/store_masked.h. -/
def store_masked (c : Cfg) (k : Kind) (m : Mem) (p : Nat) (a : Vec w N) (mask : Nat → Mask w ((c.regK k w N).lanes w)) : Option Mem :=
  loopM (fun i m => i_store_masked c k (c.regK k w N) m (p + i * (c.regK k w N).bytes) (Hw.part _ i a) (mask i)) 0
    (N / (c.regK k w N).lanes w) m

end Simdpp
