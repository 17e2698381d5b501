import Verif.Model.Shuffle32

/-!
# Selector-driven shuffles of 64-bit lanes

`i_permute2`, `i_permute4`, `i_shuffle2x2`, `i_shuffle4x2` on `uint64<N>` and `float64<N>`
(`simdpp/detail/insn/permute2.h`, `permute4.h`, `shuffle2x2.h`, `shuffle4x2.h`, `shuffle_emul.h`,
`simdpp/detail/shuffle/sse_float64_4x2.h`, `sse_int64_4x2.h`, `neon_int64x2.h`).
-/

namespace Simdpp

open Sh

variable {n : Nat}

/-! ## Pairs of lanes (`L = 2`) -/

namespace P64

/-- `unpcklpd`, `punpcklqdq`, `vzip1q_u64`: lane 0 of both, in every 128-bit block (blocks of `L` lanes). -/
def unpacklo (L : Nat) (x y : Prog) : Prog := .g (fun j => if j % 2 = 0 then j else L + (j - 1)) x y
/-- `unpckhpd`, `punpckhqdq`, `vzip2q_u64`: lane 1 of both. -/
def unpackhi (L : Nat) (x y : Prog) : Prog := .g (fun j => if j % 2 = 0 then j + 1 else L + j) x y
/-- `pshufd` seen on pairs of 64-bit lanes. -/
def pshufd (x : Prog) (imm : Nat) : Prog := .sub 2 (fun j => Hw.imm2 imm j) x x
/-- `pblendw` seen on pairs of 64-bit lanes. -/
def blendw (x y : Prog) (imm : Nat) : Prog := .sub 4 (fun j => if imm.testBit j then 8 + j else j) x y
/-- `palignr` seen on pairs of 64-bit lanes. -/
def alignr (hi lo : Prog) (imm : Nat) : Prog := .sub 8 (fun j => j + imm) lo hi
/-- `vec_xxpermdi(x, y, m)`: lane 0 is lane `m >> 1` of `x`, lane 1 is lane `m & 1` of `y`. -/
def xxpermdi (x y : Prog) (m : Nat) : Prog := .g (fun j => if j = 0 then m / 2 % 2 else 2 + m % 2) x y
/-- `SIMDPP_VSX_SHUFFLE_MASK_2x2`, little-endian. Models /repo/simdpp/detail/shuffle/shuffle_mask.h:16. -/
def vsxMask (x0 x1 : Nat) : Nat := (x0 <<< 1 ||| x1) &&& 0x3

theorem run_unpacklo (p q : Prog) (x y : Vec 64 n) :
    (unpacklo 2 p q).run 2 x y = Hw.unpacklo (p.run 2 x y) (q.run 2 x y) := by
  refine gather_congr (by decide) (fun j hj => ?_) _ _
  have : j = 0 ∨ j = 1 := by omega
  rcases this with rfl | rfl <;> rfl
theorem run_unpackhi (p q : Prog) (x y : Vec 64 n) :
    (unpackhi 2 p q).run 2 x y = Hw.unpackhi (p.run 2 x y) (q.run 2 x y) := by
  refine gather_congr (by decide) (fun j hj => ?_) _ _
  have : j = 0 ∨ j = 1 := by omega
  rcases this with rfl | rfl <;> rfl
theorem run_pshufd (p : Prog) (imm : Nat) (x y : Vec 64 n) :
    (pshufd p imm).run 2 x y = Vec.recast 64 n (Hw.shuffle_epi32 (Vec.recast 32 (n * 2) (p.run 2 x y)) imm) := rfl
theorem run_alignr (p q : Prog) (imm : Nat) (x y : Vec 64 n) :
    (alignr p q imm).run 2 x y =
      Vec.recast 64 n (Hw.alignr_epi8 (Vec.recast 8 (n * 8) (p.run 2 x y)) (Vec.recast 8 (n * 8) (q.run 2 x y)) imm) :=
  rfl

/-- NEON, 32-bit ARM (`vcombine` of halves). Models /repo/simdpp/detail/shuffle/neon_int64x2.h:29-34. -/
def lo (x : Prog) : Prog := .g (fun _ => 0) x x
/-- Models /repo/simdpp/detail/shuffle/neon_int64x2.h:31. -/
def hi (x : Prog) : Prog := .g (fun _ => 1) x x
/-- `vcombine_u64` of two half vectors held in lane 0. Models /repo/simdpp/detail/shuffle/neon_int64x2.h:34. -/
def co (l h : Prog) : Prog := .g (fun j => if j = 0 then 0 else 2) l h
/-- `vbslq` with mask `{~0, 0}`. Models /repo/simdpp/detail/shuffle/neon_int64x2.h:94-98. -/
def move_hi (x y : Prog) : Prog := .g (fun j => if j = 0 then 0 else 3) x y
/-- `vextq_u64(x, y, 1)`. -/
def ext1 (x y : Prog) : Prog := .g (fun j => j + 1) x y

/-- Models /repo/simdpp/detail/shuffle/neon_int64x2.h:37-48 (32-bit), 101-112 (64-bit). -/
def neonPermute2 (n64 : Bool) (s0 s1 : Nat) : Prog :=
  if n64 then
    match s0 * 2 + s1 with
    | 1 => .a
    | 2 => ext1 .a .a
    | 3 => unpackhi 2 .a .a
    | _ => unpacklo 2 .a .a
  else
    match s0 * 2 + s1 with
    | 1 => .a
    | 2 => co (hi .a) (lo .a)
    | 3 => co (hi .a) (hi .a)
    | _ => co (lo .a) (lo .a)

/-- Models /repo/simdpp/detail/shuffle/neon_int64x2.h:64-87 (32-bit), 128-151 (64-bit). -/
def neonShuffle2x2 (n64 : Bool) (s0 s1 : Nat) : Prog :=
  if n64 then
    match s0 * 4 + s1 with
    | 1 => .a
    | 2 => unpacklo 2 .a .b
    | 3 => move_hi .a .b
    | 4 => ext1 .a .a
    | 5 => unpackhi 2 .a .a
    | 6 => ext1 .a .b
    | 7 => unpackhi 2 .a .b
    | 8 => unpacklo 2 .b .a
    | 9 => move_hi .b .a
    | 10 => unpacklo 2 .b .b
    | 11 => .b
    | 12 => ext1 .b .a
    | 13 => unpackhi 2 .b .a
    | 14 => ext1 .b .b
    | 15 => unpackhi 2 .b .b
    | _ => unpacklo 2 .a .a
  else
    match s0 * 4 + s1 with
    | 1 => .a
    | 2 => co (lo .a) (lo .b)
    | 3 => co (lo .a) (hi .b)
    | 4 => co (hi .a) (lo .a)
    | 5 => co (hi .a) (hi .a)
    | 6 => co (hi .a) (lo .b)
    | 7 => co (hi .a) (hi .b)
    | 8 => co (lo .b) (lo .a)
    | 9 => co (lo .b) (hi .a)
    | 10 => co (lo .b) (lo .b)
    | 11 => .b
    | 12 => co (hi .b) (lo .a)
    | 13 => co (hi .b) (hi .a)
    | 14 => co (hi .b) (lo .b)
    | 15 => co (hi .b) (hi .b)
    | _ => co (lo .a) (lo .a)

/-- The immediate of `shufpd` for a register. -/
def m2x2 (r : Reg) (x0 x1 : Nat) : Nat :=
  match r with
  | .r128 => mask2x2 x0 x1
  | .r256 => mask2x2_2 x0 x1
  | .r512 => mask2x2_4 x0 x1

/-- `float64`, x86. Models /repo/simdpp/detail/insn/shuffle2x2.h:147-165, 199-215, 224-240. -/
def sseF (sse41 : Bool) (r : Reg) (s0 s1 : Nat) : Prog :=
  let bm := match r with | .r128 => 0x2 | .r256 => 0xa | .r512 => 0xaa
  if s0 < 2 ∧ s1 < 2 then .pd (m2x2 r s0 s1) .a .a
  else if s0 ≥ 2 ∧ s1 ≥ 2 then .pd (m2x2 r (s0 - 2) (s1 - 2)) .b .b
  else if (sse41 ∨ r ≠ .r128) ∧ s0 = 0 ∧ s1 = 3 then .bl bm .a .b
  else if (sse41 ∨ r ≠ .r128) ∧ s0 = 2 ∧ s1 = 1 then .bl bm .b .a
  else if s0 < 2 then .pd (m2x2 r s0 (s1 - 2)) .a .b
  else .pd (m2x2 r s1 (s0 - 2)) .b .a

/-- `uint64<2>`, x86. Models /repo/simdpp/detail/insn/shuffle2x2.h:376-412. -/
def sseI128 (ssse3 sse41 : Bool) (s0 s1 : Nat) : Prog :=
  let m := mask4x4 (s0 * 2) (s0 * 2 + 1) (s1 * 2) (s1 * 2 + 1)
  if s0 < 2 ∧ s1 < 2 then pshufd .a m
  else if s0 ≥ 2 ∧ s1 ≥ 2 then pshufd .b m
  else if s0 = 0 ∧ s1 = 2 then unpacklo 2 .a .b
  else if s0 = 2 ∧ s1 = 0 then unpacklo 2 .b .a
  else if s0 = 1 ∧ s1 = 3 then unpackhi 2 .a .b
  else if s0 = 3 ∧ s1 = 1 then unpackhi 2 .b .a
  else if sse41 ∧ s0 = 0 ∧ s1 = 3 then blendw .a .b 0xf0
  else if sse41 ∧ s0 = 2 ∧ s1 = 1 then blendw .b .a 0xf0
  else if ssse3 ∧ s0 = 1 ∧ s1 = 2 then alignr .b .a 8
  else if ssse3 ∧ s0 = 3 ∧ s1 = 0 then alignr .a .b 8
  else if s0 < 2 then .pd (mask2x2 s0 (s1 - 2)) .a .b
  else .pd (mask2x2 s1 (s0 - 2)) .b .a

/-- `uint64<4>`, x86. Models /repo/simdpp/detail/insn/shuffle2x2.h:447-469. -/
def sseI256 (s0 s1 : Nat) : Prog :=
  let m := mask4x4 (s0 * 2) (s0 * 2 + 1) (s1 * 2) (s1 * 2 + 1)
  if s0 < 2 ∧ s1 < 2 then pshufd .a m
  else if s0 ≥ 2 ∧ s1 ≥ 2 then pshufd .b m
  else if s0 = 0 ∧ s1 = 2 then unpacklo 2 .a .b
  else if s0 = 2 ∧ s1 = 0 then unpacklo 2 .b .a
  else if s0 = 1 ∧ s1 = 3 then unpackhi 2 .a .b
  else if s0 = 3 ∧ s1 = 1 then unpackhi 2 .b .a
  else if s0 = 0 ∧ s1 = 3 then .blq 2 0xcc .a .b
  else if s0 = 2 ∧ s1 = 1 then .blq 2 0xcc .b .a
  else if s0 = 1 ∧ s1 = 2 then alignr .b .a 8
  else alignr .a .b 8

/-- `uint64<8>`, x86, on blocks of four lanes (`vpermq`).
Models /repo/simdpp/detail/insn/shuffle2x2.h:478-506. -/
def sseI512 (s0 s1 : Nat) : Prog :=
  let perm := fun (x : Prog) (imm : Nat) => Prog.g (fun j => Hw.imm2 imm j) x x
  if s0 < 2 ∧ s1 < 2 then perm .a (mask4x4 s0 s1 (s0 + 2) (s1 + 2))
  else if s0 ≥ 2 ∧ s1 ≥ 2 then perm .b (mask4x4 (s0 - 2) (s1 - 2) s0 s1)
  else if s0 = 0 ∧ s1 = 2 then unpacklo 4 .a .b
  else if s0 = 2 ∧ s1 = 0 then unpacklo 4 .b .a
  else if s0 = 1 ∧ s1 = 3 then unpackhi 4 .a .b
  else if s0 = 3 ∧ s1 = 1 then unpackhi 4 .b .a
  else if s0 = 0 ∧ s1 = 3 then .bl 0xaa .a .b
  else if s0 = 2 ∧ s1 = 1 then .bl 0xaa .b .a
  else if s0 < 2 then .pd (mask2x2_4 s0 (s1 - 2)) .a .b
  else .pd (mask2x2_4 s1 (s0 - 2)) .b .a

/-- VSX. Models /repo/simdpp/detail/insn/shuffle2x2.h:169-178, 416-425. -/
def vsx (s0 s1 : Nat) : Prog :=
  if s0 < 2 ∧ s1 < 2 then xxpermdi .a .a (vsxMask s0 s1)
  else if s0 ≥ 2 ∧ s1 ≥ 2 then xxpermdi .b .b (vsxMask (s0 - 2) (s1 - 2))
  else if s0 < 2 then xxpermdi .a .b (vsxMask s0 (s1 - 2))
  else xxpermdi .b .a (vsxMask s1 (s0 - 2))

end P64

namespace Null
/-- Models /repo/simdpp/detail/insn/shuffle2x2.h:185-188, 433-436. -/
def shuffle2x2_64 {w : Nat} (s0 s1 : Nat) (a b : Vec w n) : Option (Vec w n) := do
  let r ← wr unset 0 (← pick 2 s0 a b)
  let r ← wr r 1 (← pick 2 s1 a b)
  ret r
end Null

/-- `i_shuffle2x2<s0,s1>` on a register of 64-bit lanes.
Models /repo/simdpp/detail/insn/shuffle2x2.h:142-242 (`flt`), 371-514 (`int`). -/
def i_shuffle2x2_64 (c : Cfg) (k : Kind) (r : Reg) (s0 s1 : Nat) (a b : Vec 64 n) : Option (Vec 64 n) :=
  if ¬ (s0 < 4 ∧ s1 < 4) then none else
  match k, r with
  | .flt, .r128 =>
    if c.sse2 then some ((P64.sseF c.sse41 .r128 s0 s1).run 2 a b)
    else if c.neon64 then some ((P64.neonShuffle2x2 true s0 s1).run 2 a b)
    else if c.vsx206 then some ((P64.vsx s0 s1).run 2 a b)
    else if c.msa then some (Hw.vshf (sel2 s0 s1) b a)
    else if c.null ∨ c.neon ∨ c.altivec then Null.shuffle2x2_64 s0 s1 a b
    else none
  | .int, .r128 =>
    if c.sse2 then some ((P64.sseI128 c.ssse3 c.sse41 s0 s1).run 2 a b)
    else if c.neon then some ((P64.neonShuffle2x2 c.neon64 s0 s1).run 2 a b)
    else if c.vsx207 then some ((P64.vsx s0 s1).run 2 a b)
    else if c.msa then some (Hw.vshf (sel2 s0 s1) b a)
    else if c.null ∨ c.altivec then Null.shuffle2x2_64 s0 s1 a b
    else none
  | .flt, .r256 => if c.avx then some ((P64.sseF c.sse41 .r256 s0 s1).run 2 a b) else none
  | .int, .r256 => if c.avx2 then some ((P64.sseI256 s0 s1).run 2 a b) else none
  | .flt, .r512 => if c.avx512f then some ((P64.sseF c.sse41 .r512 s0 s1).run 2 a b) else none
  | .int, .r512 => if c.avx512f then some ((P64.sseI512 s0 s1).run 4 a b) else none

/-- `shuffle1<s0,s1>(a, b)` on a register. Models /repo/simdpp/core/shuffle1.h:50-58. -/
def shuffle1_64 (c : Cfg) (k : Kind) (r : Reg) (s0 s1 : Nat) (a b : Vec 64 n) : Option (Vec 64 n) :=
  if ¬ (s0 < 2 ∧ s1 < 2) then none else i_shuffle2x2_64 c k r s0 (s1 + 2) a b

/-- `i_permute2<s0,s1>` on a register of 64-bit lanes; the 256/512-bit integer versions inline
`i_permute4<s0,s1,s0+2,s1+2>`. The SSE2/MSA integer version goes through `i_permute4` on `uint32x4`.
Models /repo/simdpp/detail/insn/permute2.h:55-87 (`int`), 98-134 (`flt`), permute4.h:200, 218. -/
def i_permute2_64 (c : Cfg) (k : Kind) (r : Reg) (s0 s1 : Nat) (a : Vec 64 n) : Option (Vec 64 n) :=
  if ¬ (s0 < 2 ∧ s1 < 2) then none else
  let viaInt := fun (a : Vec 64 n) => do
    let t ← i_permute4_32 c false .int .r128 (s0 * 2) (s0 * 2 + 1) (s1 * 2) (s1 * 2 + 1) (a.recast 32 4)
    some (t.recast 64 n)
  match k, r with
  | .int, .r128 =>
    if c.sse2 ∨ c.msa then viaInt a
    else if c.neon then some ((P64.neonPermute2 c.neon64 s0 s1).run 2 a a)
    else if c.vsx207 then some ((P64.xxpermdi .a .a (P64.vsxMask s0 s1)).run 2 a a)
    else if c.null ∨ c.altivec then Null.permute2 s0 s1 a
    else none
  | .flt, .r128 =>
    if c.sse2 then some (Hw.shuffle_pd a a (mask2x2 s0 s1))
    else if c.vsx206 then some ((P64.xxpermdi .a .a (P64.vsxMask s0 s1)).run 2 a a)
    else if c.neon64 then some ((P64.neonPermute2 true s0 s1).run 2 a a)
    else if c.msa then viaInt a
    else if c.null ∨ c.neon ∨ c.altivec then Null.permute2 s0 s1 a
    else none
  | .int, .r256 => if c.avx2 then some (Hw.permute4x64 a (mmShuffle (s1 + 2) (s0 + 2) s1 s0)) else none
  | .int, .r512 => if c.avx512f then some (Hw.permute4x64 a (mmShuffle (s1 + 2) (s0 + 2) s1 s0)) else none
  | .flt, .r256 =>
    if c.avx2 then some (Hw.permute4x64 a (s0 ||| s1 <<< 2 ||| (s0 + 2) <<< 4 ||| (s1 + 2) <<< 6))
    else if c.avx then some (Hw.permute_pd a (s0 ||| s1 <<< 1 ||| s0 <<< 2 ||| s1 <<< 3))
    else none
  | .flt, .r512 =>
    if c.avx512f then some (Hw.permute_pd a
      (s0 ||| s1 <<< 1 ||| s0 <<< 2 ||| s1 <<< 3 ||| s0 <<< 4 ||| s1 <<< 5 ||| s0 <<< 6 ||| s1 <<< 7))
    else none

/-! ## Groups of four lanes -/

/-- `permute_64x4_half<s0,s1>(a0, a1)`, `a0`, `a1` 128-bit registers.
Models /repo/simdpp/detail/insn/shuffle_emul.h:26-48. -/
def permute_64x4_half (c : Cfg) (k : Kind) (s0 s1 : Nat) (a0 a1 : Vec 64 2) : Option (Vec 64 2) :=
  let perm := fun s0 s1 => i_permute2_64 c k .r128 s0 s1 (n := 2)
  let shuf := fun s0 s1 => shuffle1_64 c k .r128 s0 s1 (n := 2)
  match s0 * 4 + s1 with
  | 1 => some a0
  | 2 => shuf 0 0 a0 a1
  | 3 => shuf 0 1 a0 a1
  | 4 => perm 1 0 a0
  | 5 => perm 1 1 a0
  | 6 => shuf 1 0 a0 a1
  | 7 => shuf 1 1 a0 a1
  | 8 => shuf 0 0 a1 a0
  | 9 => shuf 0 1 a1 a0
  | 10 => perm 0 0 a1
  | 11 => some a1
  | 12 => shuf 1 0 a1 a0
  | 13 => shuf 1 1 a1 a0
  | 14 => perm 1 0 a1
  | 15 => perm 1 1 a1
  | _ => perm 0 0 a0

/-- `i_shuffle_emul_64x4_half<s0,s1>`. Models /repo/simdpp/detail/insn/shuffle4x2.h:35-45,
/repo/simdpp/detail/shuffle/sse_float64_4x2.h:227-237. -/
def shuffle_64x4_half (c : Cfg) (k : Kind) (s0 s1 : Nat) (a0 a1 b0 b1 : Vec 64 2) : Option (Vec 64 2) :=
  let h0 := if s0 < 2 then a0 else if s0 < 4 then a1 else if s0 < 6 then b0 else b1
  let h1 := if s1 < 2 then a0 else if s1 < 4 then a1 else if s1 < 6 then b0 else b1
  i_shuffle2x2_64 c k .r128 (s0 % 2) (s1 % 2 + 2) h0 h1

/-- `r.vec<0>().el(0) = a.vec(s0/2).el(s0%2)` and so on, on two 128-bit registers.
Models /repo/simdpp/detail/insn/permute4.h:204-209, 249-254. -/
def Null.permute4_64 (s0 s1 s2 s3 : Nat) (a0 a1 : Vec 64 2) : Option (Vec 64 2 × Vec 64 2) := do
  let v := fun s => if s / 2 = 0 then a0 else a1
  let r0 ← wr unset 0 (← rd (v s0) (s0 % 2))
  let r0 ← wr r0 1 (← rd (v s1) (s1 % 2))
  let r1 ← wr unset 0 (← rd (v s2) (s2 % 2))
  let r1 ← wr r1 1 (← rd (v s3) (s3 % 2))
  some (← ret r0, ← ret r1)

/-- `split` of a 256-bit register. -/
def lo2 (a : Vec 64 4) : Vec 64 2 := fun i => a ⟨i.val, by omega⟩
/-- `split` of a 256-bit register. -/
def hi2 (a : Vec 64 4) : Vec 64 2 := fun i => a ⟨i.val + 2, by omega⟩
/-- `combine` into a 256-bit register. -/
def comb2 (x y : Vec 64 2) : Vec 64 4 := fun i => if i.val < 2 then x.at_ i.val else y.at_ (i.val - 2)

/-- `i_permute4<s0,s1,s2,s3>(uint64x4/float64x4)` when the 256-bit vector is two 128-bit registers.
Models /repo/simdpp/detail/insn/permute4.h:195-211, 240-256 (branches without AVX2/AVX). -/
def i_permute4_64_pair (c : Cfg) (k : Kind) (s0 s1 s2 s3 : Nat) (a0 a1 : Vec 64 2) :
    Option (Vec 64 2 × Vec 64 2) :=
  if ¬ (s0 < 4 ∧ s1 < 4 ∧ s2 < 4 ∧ s3 < 4) then none else
  let emul := do
    let r0 ← permute_64x4_half c k s0 s1 a0 a1
    let r1 ← permute_64x4_half c k s2 s3 a0 a1
    some (r0, r1)
  match k with
  | .int =>
    if c.sse2 ∨ c.neon ∨ c.vsx207 ∨ c.msa then emul
    else if c.null ∨ c.altivec then Null.permute4_64 s0 s1 s2 s3 a0 a1
    else none
  | .flt =>
    if c.sse2 ∨ c.neon64 ∨ c.vsx206 ∨ c.msa then emul
    else if c.null ∨ c.neon ∨ c.altivec then Null.permute4_64 s0 s1 s2 s3 a0 a1
    else none

/-- `i_permute4` on a native 256-bit or 512-bit register of 64-bit lanes.
Models /repo/simdpp/detail/insn/permute4.h:195-220, 240-265. -/
def i_permute4_64 (c : Cfg) (k : Kind) (r : Reg) (s0 s1 s2 s3 : Nat) (a : Vec 64 (r.lanes 64)) :
    Option (Vec 64 (r.lanes 64)) :=
  if ¬ (s0 < 4 ∧ s1 < 4 ∧ s2 < 4 ∧ s3 < 4) then none else
  match r with
  | .r128 => none
  | .r256 =>
    if c.avx2 then some (Hw.permute4x64 a (mmShuffle s3 s2 s1 s0))
    else if c.hasVec k 64 .r256 then do
      let r0 ← permute_64x4_half c k s0 s1 (lo2 a) (hi2 a)
      let r1 ← permute_64x4_half c k s2 s3 (lo2 a) (hi2 a)
      some (comb2 r0 r1)
    else none
  | .r512 => if c.avx512f then some (Hw.permute4x64 a (mmShuffle s3 s2 s1 s0)) else none

/-- `a.vec(k)` (undefined past the end of the array). -/
def vecRd {K l w : Nat} (a : Fin K → Vec w l) (k : Nat) : Option (Vec w l) :=
  if h : k < K then some (a ⟨k, h⟩) else none

/-- `r.vec(k) = x` (undefined past the end of the array). -/
def vecWr {K l w : Nat} (r : Fin K → Option (Vec w l)) (k : Nat) (x : Vec w l) :
    Option (Fin K → Option (Vec w l)) :=
  if k < K then some (fun i => if i.val = k then some x else r i) else none

/-- `return r;` of an array of registers. -/
def vecRet {K l w : Nat} (r : Fin K → Option (Vec w l)) : Option (Fin K → Vec w l) := lanesA r
where
  /-- all registers written -/
  lanesA (r : Fin K → Option (Vec w l)) : Option (Fin K → Vec w l) :=
    if h : ∀ i, (r i).isSome = true then some (fun i => (r i).get (h i)) else none

/-- `i_permute4` on `uint64<N>`/`float64<N>` held in `K` 128-bit registers (no 256-bit type). The index
`i*2` with the step `i+=2` is in the source. Models /repo/simdpp/detail/insn/permute4.h:229-234, 274-279. -/
def permute4_64_loop (c : Cfg) (k : Kind) {K : Nat} (s0 s1 s2 s3 : Nat) (a : Fin K → Vec 64 2) :
    Option (Fin K → Vec 64 2) := do
  let r ← forS 2 0 K (fun i r => do
    let r ← vecWr r (i * 2) (← permute_64x4_half c k s0 s1 (← vecRd a (i * 2)) (← vecRd a (i * 2 + 1)))
    vecWr r (i * 2 + 1) (← permute_64x4_half c k s2 s3 (← vecRd a (i * 2)) (← vecRd a (i * 2 + 1))))
    (fun _ => none)
  vecRet r

/-- `i_shuffle4x2` on `uint64<N>`/`float64<N>` held in `K` 128-bit registers.
Models /repo/simdpp/detail/insn/shuffle4x2.h:128-136, 221-228. -/
def shuffle4x2_64_loop (c : Cfg) (k : Kind) {K : Nat} (s0 s1 s2 s3 : Nat) (a b : Fin K → Vec 64 2) :
    Option (Fin K → Vec 64 2) := do
  let r ← forS 2 0 K (fun i r => do
    let r ← vecWr r (i * 2) (← shuffle_64x4_half c k s0 s1 (← vecRd a (i * 2)) (← vecRd a (i * 2 + 1))
      (← vecRd b (i * 2)) (← vecRd b (i * 2 + 1)))
    vecWr r (i * 2 + 1) (← shuffle_64x4_half c k s2 s3 (← vecRd a (i * 2)) (← vecRd a (i * 2 + 1))
      (← vecRd b (i * 2)) (← vecRd b (i * 2 + 1))))
    (fun _ => none)
  vecRet r

namespace Sse64

/-- Common first five cases. Models /repo/simdpp/detail/shuffle/sse_float64_4x2.h:38-43, sse_int64_4x2.h:38-43. -/
def zipOrBlend (s0 s1 s2 s3 : Nat) : Nat :=
  if s0 = 0 ∧ s1 = 4 ∧ s2 = 2 ∧ s3 = 6 then 1
  else if s0 = 4 ∧ s1 = 0 ∧ s2 = 6 ∧ s3 = 2 then 2
  else if s0 = 1 ∧ s1 = 5 ∧ s2 = 3 ∧ s3 = 7 then 3
  else if s0 = 5 ∧ s1 = 1 ∧ s2 = 7 ∧ s3 = 3 then 4
  else if (s0 = 0 ∨ s0 = 4) ∧ (s1 = 1 ∨ s1 = 5) ∧ (s2 = 2 ∨ s2 = 6) ∧ (s3 = 3 ∨ s3 = 7) then 5
  else 0

/-- `impl_selector::impl`. Models /repo/simdpp/detail/shuffle/sse_float64_4x2.h:33-72. -/
def implF (avx512f avx2 : Bool) (s0 s1 s2 s3 : Nat) : Nat :=
  let z := zipOrBlend s0 s1 s2 s3
  if z ≠ 0 then z
  else if avx512f then 8
  else if avx2 then
    if s0 = 1 ∧ s1 = 4 ∧ s2 = 3 ∧ s3 = 6 then 6
    else if s0 = 4 ∧ s1 = 1 ∧ s2 = 6 ∧ s3 = 3 then 7 else 9
  else if s0 / 2 = 0 ∧ s1 / 2 = 2 ∧ s2 / 2 = 1 ∧ s3 / 2 = 3 then 6
  else if s0 / 2 = 2 ∧ s1 / 2 = 0 ∧ s2 / 2 = 3 ∧ s3 / 2 = 1 then 7
  else 10

/-- `impl_selector::impl`. Models /repo/simdpp/detail/shuffle/sse_int64_4x2.h:33-61. -/
def implI (avx512f : Bool) (s0 s1 s2 s3 : Nat) : Nat :=
  let z := zipOrBlend s0 s1 s2 s3
  if z ≠ 0 then z
  else if avx512f then 8
  else if s0 = 1 ∧ s1 = 4 ∧ s2 = 3 ∧ s3 = 6 then 6
  else if s0 = 4 ∧ s1 = 1 ∧ s2 = 6 ∧ s3 = 3 then 7
  else 9

/-- Blend immediate, one bit per lane. -/
def bm (s0 s1 s2 s3 : Nat) : Nat :=
  (if s0 < 4 then 0 else 1) ||| (if s1 < 4 then 0 else 2) ||| (if s2 < 4 then 0 else 4) ||| (if s3 < 4 then 0 else 8)
/-- Blend immediate, two bits per lane. -/
def bm2 (s0 s1 s2 s3 : Nat) : Nat :=
  (if s0 < 4 then 0 else 0x03) ||| (if s1 < 4 then 0 else 0x0c) ||| (if s2 < 4 then 0 else 0x30) |||
    (if s3 < 4 then 0 else 0xc0)
/-- `vpermq`/`vpermpd` -/
def perm (x : Prog) (imm : Nat) : Prog := .g (fun j => Hw.imm2 imm j) x x
/-- `vinsertf128 0` -/
def insLo (t x : Prog) : Prog := .g (fun j => if j < 2 then 4 + j else j) t x

/-- Cases 1-7 and 9 of `shuffle_impl` for `float64`, on blocks of four lanes.
Models /repo/simdpp/detail/shuffle/sse_float64_4x2.h:77-183, 214-224. -/
def runF (impl : Nat) (r : Reg) (s0 s1 s2 s3 : Nat) : Prog :=
  match impl with
  | 1 => P64.unpacklo 4 .a .b
  | 2 => P64.unpacklo 4 .b .a
  | 3 => P64.unpackhi 4 .a .b
  | 4 => P64.unpackhi 4 .b .a
  | 5 =>
    let mask := bm s0 s1 s2 s3
    match r with
    | .r512 => .bl (mask ||| mask <<< 4) .a .b
    | _ => .bl mask .a .b
  | 6 =>
    if s0 % 2 ≠ s2 % 2 ∨ s1 % 2 ≠ s3 % 2 then
      insLo (.pd (mask2x2_2 (usub s2 2) (usub s3 6)) .a .b) (.pd (mask2x2 s0 (usub s1 4)) .a .b)
    else .pd (mask2x2_2 s0 (usub s1 4)) .a .b
  | 7 =>
    if s0 % 2 ≠ s2 % 2 ∨ s1 % 2 ≠ s3 % 2 then
      insLo (.pd (mask2x2_2 (usub s3 2) (usub s2 6)) .b .a) (.pd (mask2x2 s1 (usub s0 4)) .b .a)
    else .pd (mask2x2_2 s1 (usub s0 4)) .b .a
  | _ =>
    let m := mask4x4 (s0 % 4) (s1 % 4) (s2 % 4) (s3 % 4)
    .bl (bm s0 s1 s2 s3) (perm .a m) (perm .b m)

/-- Cases 1-7 and 9 of `shuffle_impl` for `uint64`, on blocks of four lanes.
Models /repo/simdpp/detail/shuffle/sse_int64_4x2.h:65-154, 197-208. -/
def runI (impl : Nat) (r : Reg) (s0 s1 s2 s3 : Nat) : Prog :=
  match impl with
  | 1 => P64.unpacklo 4 .a .b
  | 2 => P64.unpacklo 4 .b .a
  | 3 => P64.unpackhi 4 .a .b
  | 4 => P64.unpackhi 4 .b .a
  | 5 =>
    match r with
    | .r512 => .bl (bm s0 s1 s2 s3 ||| bm s0 s1 s2 s3 <<< 4) .a .b
    | _ => .blq 2 (bm2 s0 s1 s2 s3) .a .b
  | 6 => perm (.blq 2 0x33 .a .b) (mmShuffle 2 3 0 1)
  | 7 => perm (.blq 2 0xcc .a .b) (mmShuffle 2 3 0 1)
  | _ =>
    let m := mask4x4 (s0 % 4) (s1 % 4) (s2 % 4) (s3 % 4)
    .blq 2 (bm2 s0 s1 s2 s3) (perm .a m) (perm .b m)

/-- `p = s < 4 ? s : s+4` -/
def p8 (s : Nat) : Nat := if s < 4 then s else s + 4

/-- `_mm512_permutex2var_*` with the eight immediate indices `m`, on 512-bit registers (`L = 8`). -/
def permx2_512 (m : Nat → Nat) : Prog := .g (fun j => m j % 16) .a .b

/-- `_mm256_permutex2var_epi64` (`L = 4`). -/
def permx2_256 (m : Nat → Nat) : Prog := .g (fun j => m j % 8) .a .b

/-- The low half of `_mm512_permutex2var_*` on operands cast from 256 bits: lanes 4 to 7 of both operands
are undefined. -/
def permx2_cast (m : Nat → Nat) (a b : Vec 64 4) : Option (Vec 64 4) :=
  lanesM fun i =>
    let k := m i.val % 16
    if k < 4 then some (a.at_ k) else if 8 ≤ k ∧ k < 12 then some (b.at_ (k - 8)) else none

end Sse64

/-- `i_shuffle4x2` on a native 256-bit or 512-bit register of 64-bit lanes.
Models /repo/simdpp/detail/insn/shuffle4x2.h:105-122 (`flt`), 197-213 (`int`),
/repo/simdpp/detail/shuffle/sse_float64_4x2.h:185-260, sse_int64_4x2.h:156-216. -/
def i_shuffle4x2_64 (c : Cfg) (k : Kind) (r : Reg) (s0 s1 s2 s3 : Nat) (a b : Vec 64 (r.lanes 64)) :
    Option (Vec 64 (r.lanes 64)) :=
  if ¬ (s0 < 8 ∧ s1 < 8 ∧ s2 < 8 ∧ s3 < 8) then none else
  if r = .r128 ∨ ¬ c.hasVec k 64 r then none else
  let i := match k with
    | .flt => Sse64.implF c.avx512f c.avx2 s0 s1 s2 s3
    | .int => Sse64.implI c.avx512f s0 s1 s2 s3
  match k, r with
  | _, .r128 => none
  | .flt, .r256 =>
    if i = 8 then Sse64.permx2_cast (sel4 s0 s1 s2 s3) a b
    else if i = 10 then do
      let r0 ← shuffle_64x4_half c .flt s0 s1 (lo2 a) (hi2 a) (lo2 b) (hi2 b)
      let r1 ← shuffle_64x4_half c .flt s2 s3 (lo2 a) (hi2 a) (lo2 b) (hi2 b)
      some (comb2 r0 r1)
    else some ((Sse64.runF i .r256 s0 s1 s2 s3).run 4 a b)
  | .int, .r256 =>
    if i = 8 then
      if c.avx512vl then some ((Sse64.permx2_256 (sel4 s0 s1 s2 s3)).run 4 a b)
      else Sse64.permx2_cast (sel4 (Sse64.p8 s0) (Sse64.p8 s1) (Sse64.p8 s2) (Sse64.p8 s3)) a b
    else some ((Sse64.runI i .r256 s0 s1 s2 s3).run 4 a b)
  | k, .r512 =>
    if i = 8 then
      let p := sel4 (Sse64.p8 s0) (Sse64.p8 s1) (Sse64.p8 s2) (Sse64.p8 s3)
      some ((Sse64.permx2_512 fun j => if j < 4 then p j else p (j - 4) + 4).run 8 a b)
    else
      match k with
      | .flt => some ((Sse64.runF i .r512 s0 s1 s2 s3).run 4 a b)
      | .int => some ((Sse64.runI i .r512 s0 s1 s2 s3).run 4 a b)

end Simdpp
