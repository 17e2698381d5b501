import Verif.Model.Arith

/-!
# Uniform shifts

`simdpp/detail/insn/i_shift_l.h`, `i_shift_r.h`, the entry points
`simdpp/core/i_shift_l.h`, `i_shift_r.h`.
-/

namespace Simdpp

variable {w n : Nat}

namespace Hw

/-- `_mm_sll_epi*`, `_mm_slli_epi*` (and 256/512-bit forms), `vshlq_n_*`, `__msa_slli_*`:
every lane left by the same count; counts of `w` or more give zero. -/
def sll (a : Vec w n) (k : Nat) : Vec w n := fun i => a i <<< k
/-- `_mm_srl_epi*`, `_mm_srli_epi*`, `vshrq_n_u*`, `__msa_srli_*` -/
def srl (a : Vec w n) (k : Nat) : Vec w n := fun i => a i >>> k
/-- `_mm_sra_epi*`, `_mm_srai_epi*`, `vshrq_n_s*`, `__msa_srai_*`:
counts of `w` or more fill with the sign. -/
def sra (a : Vec w n) (k : Nat) : Vec w n := fun i => (a i).sshiftRight k

/-- `vshlq_u*` (NEON): the low byte of each count lane is a signed count, negative counts
shift right. -/
def vshl_u (a k : Vec w n) : Vec w n := fun i =>
  let s := ((k i).setWidth 8).toInt
  if 0 ≤ s then a i <<< s.toNat else a i >>> (-s).toNat
/-- `vshlq_s*` (NEON) -/
def vshl_s (a k : Vec w n) : Vec w n := fun i =>
  let s := ((k i).setWidth 8).toInt
  if 0 ≤ s then a i <<< s.toNat else (a i).sshiftRight (-s).toNat

/-- `vec_sl` (AltiVec), `__msa_sll_*`: per-lane count modulo `w`. -/
def sl_mod (a k : Vec w n) : Vec w n := fun i => a i <<< ((k i).toNat % w)
/-- `vec_sr`, `__msa_srl_*` -/
def sr_mod (a k : Vec w n) : Vec w n := fun i => a i >>> ((k i).toNat % w)
/-- `vec_sra`, `__msa_sra_*` -/
def sra_mod (a k : Vec w n) : Vec w n := fun i => (a i).sshiftRight ((k i).toNat % w)

end Hw

/-! ## left, 16-, 32-, 64-bit lanes -/

/-- `i_shift_l(uintW<N>, unsigned)` for `W > 8`.
Models /repo/simdpp/detail/insn/i_shift_l.h:98-134 (16-bit), 141-178 (32-bit), 185-222 (64-bit). -/
def i_shift_l_wide (c : Cfg) (r : Reg) (a : Vec w n) (k : Nat) : Option (Vec w n) :=
  match r with
  | .r128 =>
    if w = 64 then
      if c.sse2 then some (Hw.sll a k)
      else if c.neon then some (Hw.vshl_u a (Vec.splat (BitVec.ofNat w k)))
      else if c.vsx207 then some (Hw.sl_mod a (Vec.splat (BitVec.ofNat w k)))
      else if c.msa then
        some (Hw.sl_mod a (Vec.recast w n (Vec.splat (BitVec.ofNat 32 k) : Vec 32 (2 * n))))
      else if c.null ∨ c.altivec then Null.shift_l false a k
      else none
    else
      if c.null then Null.shift_l false a k
      else if c.sse2 then some (Hw.sll a k)
      else if c.neon then some (Hw.vshl_u a (Vec.splat (BitVec.ofNat w k)))
      else if c.altivec then some (Hw.sl_mod a (Vec.splat (BitVec.ofNat w k)))
      else if c.msa then some (Hw.sl_mod a (Vec.splat (BitVec.ofNat w k)))
      else none
  | .r256 => if c.avx2 then some (Hw.sll a k) else none
  | .r512 => if c.hasInt w .r512 then some (Hw.sll a k) else none

/-- `i_shift_l<count>(uintW<N>)` for `W > 8`. `none` also stands for the failed `static_assert`.
Models /repo/simdpp/detail/insn/i_shift_l.h:286-318, 324-356, 363-395. -/
def i_shift_l_imm_wide (c : Cfg) (r : Reg) (k : Nat) (a : Vec w n) : Option (Vec w n) :=
  if k < w then
    match r with
    | .r128 =>
      if w = 64 then
        if c.null ∨ c.altivec then i_shift_l_wide c .r128 a k
        else if c.sse2 then some (Hw.sll a k)
        else if c.neon then some (Hw.sll a k)
        else if c.msa then some (Hw.sll a k)
        else none
      else
        if c.null then i_shift_l_wide c .r128 a k
        else if c.sse2 then some (Hw.sll a k)
        else if c.neon then some (Hw.sll a k)
        else if c.altivec then some (Hw.sl_mod a (Vec.splat (BitVec.ofNat w k)))
        else if c.msa then some (Hw.sll a k)
        else none
    | .r256 => if c.avx2 then some (Hw.sll a k) else none
    | .r512 => if c.hasInt w .r512 then some (Hw.sll a k) else none
  else none

/-- `shift_l<count>(V)` on lanes wider than 8 bits: the wrapper skips count 0.
Models /repo/simdpp/core/i_shift_l.h:215-297 and
/repo/simdpp/detail/insn/i_shift_l.h:405-414. -/
def shift_l_imm_wide (c : Cfg) (r : Reg) (k : Nat) (a : Vec w n) : Option (Vec w n) :=
  if k = 0 then some a else i_shift_l_imm_wide c r k a

/-! ## right, 16-, 32-, 64-bit lanes -/

/-- `vshlq_s*`/`vshlq_u*` with a splat of `-int(count)`. -/
def neonShr (s : Bool) (a : Vec w n) (k : Nat) : Vec w n :=
  if s then Hw.vshl_s a (Vec.splat (BitVec.ofInt w (-(k : Int))))
  else Hw.vshl_u a (Vec.splat (BitVec.ofInt w (-(k : Int))))

/-- `vec_sra`/`vec_sr`, `__msa_sra`/`__msa_srl` with count register `q`. -/
def modShr (s : Bool) (a q : Vec w n) : Vec w n :=
  if s then Hw.sra_mod a q else Hw.sr_mod a q

/-- `_mm_sra_*`/`_mm_srl_*`. -/
def x86Shr (s : Bool) (a : Vec w n) (k : Nat) : Vec w n :=
  if s then Hw.sra a k else Hw.srl a k

/-- `i_shift_r(uint64<N>, unsigned)`. Models /repo/simdpp/detail/insn/i_shift_r.h:334-371. -/
def i_shift_r_u64 (c : Cfg) (r : Reg) (a : Vec w n) (k : Nat) : Option (Vec w n) :=
  match r with
  | .r128 =>
    if c.sse2 then some (Hw.srl a k)
    else if c.neon then some (neonShr false a k)
    else if c.vsx207 then some (modShr false a (Vec.splat (BitVec.ofNat w k)))
    else if c.msa then
      some (modShr false a (Vec.recast w n (Vec.splat (BitVec.ofNat 32 k) : Vec 32 (2 * n))))
    else if c.null ∨ c.altivec then Null.shift_r false a k
    else none
  | .r256 => if c.avx2 then some (Hw.srl a k) else none
  | .r512 => if c.avx512f then some (Hw.srl a k) else none

/-- The SSE2/AVX2 arithmetic shift of 64-bit lanes: bias to unsigned, shift, remove the bias.
Models /repo/simdpp/detail/insn/i_shift_r.h:381-385, 403-407. -/
def emulSra64 (c : Cfg) (r : Reg) (a : Vec w n) (k : Nat) : Option (Vec w n) := do
  let bias : Vec w n := Vec.splat (BitVec.ofNat w 0x8000000000000000)
  let ret ← i_shift_r_u64 c r (← i_iadd c r a bias) k
  i_isub c r ret (← i_shift_r_u64 c r bias k)

/-- `i_shift_r(V, unsigned)` for lanes wider than 8 bits.
Models /repo/simdpp/detail/insn/i_shift_r.h:160-196 (int16), 203-239 (uint16), 246-283 (int32),
290-327 (uint32), 334-371 (uint64), 378-416 (int64). -/
def i_shift_r_wide (c : Cfg) (s : Bool) (r : Reg) (a : Vec w n) (k : Nat) : Option (Vec w n) :=
  if w = 64 then
    if s then
      match r with
      | .r128 =>
        if c.sse2 then emulSra64 c .r128 a k
        else if c.neon then some (neonShr true a k)
        else if c.vsx207 then some (modShr true a (Vec.splat (BitVec.ofNat w k)))
        else if c.msa then
          some (modShr true a (Vec.recast w n (Vec.splat (BitVec.ofNat 32 k) : Vec 32 (2 * n))))
        else if c.null ∨ c.altivec then Null.shift_r true a k
        else none
      | .r256 => if c.avx2 then emulSra64 c .r256 a k else none
      | .r512 => if c.avx512f then some (Hw.sra a k) else none
    else i_shift_r_u64 c r a k
  else
    match r with
    | .r128 =>
      if c.null then Null.shift_r s a k
      else if c.sse2 then some (x86Shr s a k)
      else if c.neon then some (neonShr s a k)
      else if c.altivec then some (modShr s a (Vec.splat (BitVec.ofNat w k)))
      else if c.msa then some (modShr s a (Vec.splat (BitVec.ofNat w k)))
      else none
    | .r256 => if c.avx2 then some (x86Shr s a k) else none
    | .r512 => if c.hasInt w .r512 then some (x86Shr s a k) else none

/-- `i_shift_r<count>(V)` for lanes wider than 8 bits.
Models /repo/simdpp/detail/insn/i_shift_r.h:550-582, 588-620, 626-658, 664-696, 702-733 (int64),
739-773 (uint64). The 256-bit int64 form (724-728) has no static_assert; the run-time form
it calls is the same function. -/
def i_shift_r_imm_wide (c : Cfg) (s : Bool) (r : Reg) (k : Nat) (a : Vec w n) : Option (Vec w n) :=
  if k < w then
    if w = 64 then
      if s then
        match r with
        | .r128 =>
          if c.neon then some (Hw.sra a k)
          else if c.vsx207 then some (modShr true a (Vec.splat (BitVec.ofNat w k)))
          else if c.msa then some (Hw.sra a k)
          else if c.null ∨ c.sse2 ∨ c.altivec then i_shift_r_wide c true .r128 a k
          else none
        | .r256 => if c.avx2 then i_shift_r_wide c true .r256 a k else none
        | .r512 => if c.avx512f then some (Hw.sra a k) else none
      else
        match r with
        | .r128 =>
          if c.sse2 then some (Hw.srl a k)
          else if c.neon then some (Hw.srl a k)
          else if c.vsx207 then some (modShr false a (Vec.splat (BitVec.ofNat w k)))
          else if c.msa then some (Hw.srl a k)
          else if c.null ∨ c.altivec then i_shift_r_wide c false .r128 a k
          else none
        | .r256 => if c.avx2 then some (Hw.srl a k) else none
        | .r512 => if c.avx512f then some (Hw.srl a k) else none
    else
      match r with
      | .r128 =>
        if c.null then i_shift_r_wide c s .r128 a k
        else if c.sse2 then some (x86Shr s a k)
        else if c.neon then some (x86Shr s a k)
        else if c.altivec then some (modShr s a (Vec.splat (BitVec.ofNat w k)))
        else if c.msa then some (x86Shr s a k)
        else none
      | .r256 => if c.avx2 then some (x86Shr s a k) else none
      | .r512 => if c.hasInt w .r512 then some (x86Shr s a k) else none
  else none

/-- `shift_r<count>(V)` on lanes wider than 8 bits: the wrapper skips count 0.
Models /repo/simdpp/core/i_shift_r.h:275-392, /repo/simdpp/detail/insn/i_shift_r.h:788-797. -/
def shift_r_imm_wide (c : Cfg) (s : Bool) (r : Reg) (k : Nat) (a : Vec w n) : Option (Vec w n) :=
  if k = 0 then some a else i_shift_r_imm_wide c s r k a

/-! ## 8-bit lanes, built from 16-bit shifts -/

/-- `(0x00ff >> (8-count)) << 8` computed in `int`, converted to `uint16_t`. Undefined when
`8 - count` wraps. Models /repo/simdpp/detail/insn/i_shift_l.h:36, 71, 85. -/
def maskL8 (k : Nat) : Option (BitVec 16) :=
  if k ≤ 8 then some (BitVec.ofNat 16 ((0xff >>> (8 - k)) <<< 8)) else none

/-- `shift = 8 - count; (0xff >> shift) << shift`, converted to `uint16_t`.
Models /repo/simdpp/detail/insn/i_shift_r.h:128-129, 144-145. -/
def maskR8 (k : Nat) : Option (BitVec 16) :=
  if k ≤ 8 then some (BitVec.ofNat 16 ((0xff >>> (8 - k)) <<< (8 - k))) else none

/-- Shift the 16-bit view left and clear the bits that crossed into the upper byte.
Models /repo/simdpp/detail/insn/i_shift_l.h:35-42, 70-77, 84-91. -/
def shl8_avx2 (c : Cfg) (r : Reg) (a : Vec w n) (k : Nat) : Option (Vec w n) := do
  let a16 : Vec 16 (n / 2) := a.recast 16 (n / 2)
  let mask : Vec 16 (n / 2) := Vec.splat (← maskL8 k)
  let a16 ← i_shift_l_wide c r a16 k
  let a16 ← i_bit_andnot c .int r a16 mask
  some (a16.recast w n)

/-- The SSE2 variant that builds the mask with shifts.
Models /repo/simdpp/detail/insn/i_shift_l.h:44-52. -/
def shl8_sse2 (c : Cfg) (r : Reg) (a : Vec w n) (k : Nat) : Option (Vec w n) := do
  let mask : Vec 16 (n / 2) := Vec.splat (BitVec.allOnes 16)
  let mask ← i_shift_r_wide c false r mask (16 - k)
  let mask ← i_shift_l_wide c r mask 8
  let a16 ← i_shift_l_wide c r (a.recast 16 (n / 2)) k
  let a16 ← i_bit_andnot c .int r a16 mask
  some (a16.recast w n)

/-- `i_shift_l(V, unsigned)`, all lane widths.
Models /repo/simdpp/detail/insn/i_shift_l.h:31-94 and the wider overloads. -/
def i_shift_l (c : Cfg) (r : Reg) (a : Vec w n) (k : Nat) : Option (Vec w n) :=
  if w = 8 then
    match r with
    | .r128 =>
      if c.null then Null.shift_l false a k
      else if c.avx2 then shl8_avx2 c .r128 a k
      else if c.sse2 then shl8_sse2 c .r128 a k
      else if c.neon then some (Hw.vshl_u a (Vec.splat (BitVec.ofNat w k)))
      else if c.altivec then some (Hw.sl_mod a (Vec.splat (BitVec.ofNat w k)))
      else if c.msa then some (Hw.sl_mod a (Vec.splat (BitVec.ofNat w k)))
      else none
    | .r256 => if c.avx2 then shl8_avx2 c .r256 a k else none
    | .r512 => if c.avx512bw then shl8_avx2 c .r512 a k else none
  else i_shift_l_wide c r a k

/-- `sse_shift_l_8<count>`: mask first, then a 16-bit shift.
Models /repo/simdpp/detail/insn/i_shift_l.h:235-246. -/
def sse_shift_l_8 (c : Cfg) (r : Reg) (k : Nat) (a : Vec w n) : Option (Vec w n) := do
  let mask : Vec w n := Vec.splat (BitVec.ofNat w (0xff >>> k))
  let a16 := (← i_bit_and c .int r a mask).recast 16 (n / 2)
  let a16 ← shift_l_imm_wide c r k a16
  some (a16.recast w n)

/-- `i_shift_l<count>(V)`, all lane widths.
Models /repo/simdpp/detail/insn/i_shift_l.h:248-280 and the wider overloads. -/
def i_shift_l_imm (c : Cfg) (r : Reg) (k : Nat) (a : Vec w n) : Option (Vec w n) :=
  if w = 8 then
    if k < 8 then
      match r with
      | .r128 =>
        if c.null then i_shift_l c .r128 a k
        else if c.sse2 then sse_shift_l_8 c .r128 k a
        else if c.neon then some (Hw.sll a k)
        else if c.altivec then some (Hw.sl_mod a (Vec.splat (BitVec.ofNat w k)))
        else if c.msa then some (Hw.sll a k)
        else none
      | .r256 => if c.avx2 then sse_shift_l_8 c .r256 k a else none
      | .r512 => if c.avx512bw then sse_shift_l_8 c .r512 k a else none
    else none
  else i_shift_l_imm_wide c r k a

/-- `shift_l<count>(V)`. Models /repo/simdpp/core/i_shift_l.h:215-297 (the wrapper skips 0). -/
def shift_l_imm (c : Cfg) (r : Reg) (k : Nat) (a : Vec w n) : Option (Vec w n) :=
  if k = 0 then some a else i_shift_l_imm c r k a

/-- Arithmetic right shift of bytes through 16-bit lanes, run-time count.
Models /repo/simdpp/detail/insn/i_shift_r.h:42-52, 68-77, 84-93. -/
def sar8_x86 (c : Cfg) (r : Reg) (a : Vec w n) (k : Nat) : Option (Vec w n) := do
  let lo : Vec 16 (n / 2) := a.recast 16 (n / 2)
  let hi := lo
  let lo ← shift_l_imm_wide c r 8 lo
  let lo ← i_shift_r_wide c true r lo k
  let lo ← shift_r_imm_wide c false r 8 lo
  let hi ← i_shift_r_wide c true r hi (8 + k)
  let hi ← shift_l_imm_wide c r 8 hi
  some ((← i_bit_or c .int r lo hi).recast w n)

/-- As `sar8_x86` with template counts.
Models /repo/simdpp/detail/insn/i_shift_r.h:442-452, 467-477, 484-494. -/
def sar8_imm_x86 (c : Cfg) (r : Reg) (k : Nat) (a : Vec w n) : Option (Vec w n) := do
  let lo : Vec 16 (n / 2) := a.recast 16 (n / 2)
  let hi := lo
  let lo ← shift_l_imm_wide c r 8 lo
  let lo ← shift_r_imm_wide c true r k lo
  let lo ← shift_r_imm_wide c false r 8 lo
  let hi ← shift_r_imm_wide c true r (8 + k) hi
  let hi ← shift_l_imm_wide c r 8 hi
  some ((← i_bit_or c .int r lo hi).recast w n)

/-- Logical right shift of bytes through 16-bit lanes (SSE2).
Models /repo/simdpp/detail/insn/i_shift_r.h:105-113. -/
def shr8_sse2 (c : Cfg) (r : Reg) (a : Vec w n) (k : Nat) : Option (Vec w n) := do
  let mask : Vec 16 (n / 2) := Vec.splat (BitVec.allOnes 16)
  let mask ← i_shift_l_wide c r mask (16 - k)
  let mask ← shift_r_imm_wide c false r 8 mask
  let a16 ← i_shift_r_wide c false r (a.recast 16 (n / 2)) k
  let a16 ← i_bit_andnot c .int r a16 mask
  some (a16.recast w n)

/-- Logical right shift of bytes through 16-bit lanes (AVX2, AVX512BW).
Models /repo/simdpp/detail/insn/i_shift_r.h:126-137, 142-153. -/
def shr8_avx2 (c : Cfg) (r : Reg) (a : Vec w n) (k : Nat) : Option (Vec w n) := do
  let mask : Vec 16 (n / 2) := Vec.splat (← maskR8 k)
  let a16 ← i_shift_r_wide c false r (a.recast 16 (n / 2)) k
  let a16 ← i_bit_andnot c .int r a16 mask
  some (a16.recast w n)

/-- `i_shift_r(V, unsigned)`, all lane widths.
Models /repo/simdpp/detail/insn/i_shift_r.h:36-155 and the wider overloads. -/
def i_shift_r (c : Cfg) (s : Bool) (r : Reg) (a : Vec w n) (k : Nat) : Option (Vec w n) :=
  if w = 8 then
    match r with
    | .r128 =>
      if c.null then Null.shift_r s a k
      else if c.sse2 then (if s then sar8_x86 c .r128 a k else shr8_sse2 c .r128 a k)
      else if c.neon then some (neonShr s a k)
      else if c.altivec then some (modShr s a (Vec.splat (BitVec.ofNat w k)))
      else if c.msa then some (modShr s a (Vec.splat (BitVec.ofNat w k)))
      else none
    | .r256 =>
      if c.avx2 then (if s then sar8_x86 c .r256 a k else shr8_avx2 c .r256 a k) else none
    | .r512 =>
      if c.avx512bw then (if s then sar8_x86 c .r512 a k else shr8_avx2 c .r512 a k) else none
  else i_shift_r_wide c s r a k

/-- `sse_shift_r_u8<count>`. Models /repo/simdpp/detail/insn/i_shift_r.h:499-510. -/
def sse_shift_r_u8 (c : Cfg) (r : Reg) (k : Nat) (a : Vec w n) : Option (Vec w n) := do
  let mask : Vec w n := Vec.splat (BitVec.ofNat w ((0xff <<< k) &&& 0xff))
  let a16 := (← i_bit_and c .int r a mask).recast 16 (n / 2)
  let a16 ← shift_r_imm_wide c false r k a16
  some (a16.recast w n)

/-- `i_shift_r<count>(V)`, all lane widths.
Models /repo/simdpp/detail/insn/i_shift_r.h:435-544 and the wider overloads. -/
def i_shift_r_imm (c : Cfg) (s : Bool) (r : Reg) (k : Nat) (a : Vec w n) : Option (Vec w n) :=
  if w = 8 then
    if k < 8 then
      match r with
      | .r128 =>
        if c.null then i_shift_r c s .r128 a k
        else if c.sse2 then (if s then sar8_imm_x86 c .r128 k a else sse_shift_r_u8 c .r128 k a)
        else if c.neon then some (x86Shr s a k)
        else if c.altivec then some (modShr s a (Vec.splat (BitVec.ofNat w k)))
        else if c.msa then some (x86Shr s a k)
        else none
      | .r256 =>
        if c.avx2 then (if s then sar8_imm_x86 c .r256 k a else sse_shift_r_u8 c .r256 k a)
        else none
      | .r512 =>
        if c.avx512bw then (if s then sar8_imm_x86 c .r512 k a else sse_shift_r_u8 c .r512 k a)
        else none
    else none
  else i_shift_r_imm_wide c s r k a

/-- `shift_r<count>(V)`. Models /repo/simdpp/core/i_shift_r.h:275-392. -/
def shift_r_imm (c : Cfg) (s : Bool) (r : Reg) (k : Nat) (a : Vec w n) : Option (Vec w n) :=
  if k = 0 then some a else i_shift_r_imm c s r k a

end Simdpp
