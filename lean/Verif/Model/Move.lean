import Verif.Model.Zip

/-!
# move16_l, move8_l, move4_l, move2_l, move*_r, align16, align8, align4, align2

`simdpp/detail/insn/move_l.h`, `move_r.h`, `align.h` and their `simdpp/core` wrappers.
-/

namespace Simdpp

open Sh

variable {w n : Nat}

/-- `vec_sld_biendian<shift>(lower, upper)`, little-endian.
Models /repo/simdpp/detail/insn/move_l.h:26-37. -/
def sldBi (s : Nat) (lower upper : Vec 8 n) : Option (Vec 8 n) := Hw.sld upper lower (16 - s)

/-- Reinterpret as bytes, operate, reinterpret back: `(T) f((uint8<..>) a)`. -/
def onBytes (op : Vec 8 (n * (w / 8)) → Option (Vec 8 (n * (w / 8)))) (a : Vec w n) : Option (Vec w n) :=
  (op (a.recast 8 (n * (w / 8)))).map (fun x => x.recast w n)

/-- The same with two operands. -/
def onBytes2 (op : Vec 8 (n * (w / 8)) → Vec 8 (n * (w / 8)) → Option (Vec 8 (n * (w / 8)))) (a b : Vec w n) :
    Option (Vec w n) :=
  (op (a.recast 8 (n * (w / 8))) (b.recast 8 (n * (w / 8)))).map (fun x => x.recast w n)

/-- `uint8<32>` on AVX without AVX2 is two `uint8<16>`; `SIMDPP_VEC_ARRAY_IMPL1` applies `op` to each. -/
def byPair (op : Vec 8 16 → Option (Vec 8 16)) (a : Vec 8 n) : Option (Vec 8 n) :=
  let parts : Fin 2 → Vec 8 16 := fun i j => a.at_ (i.val * 16 + j.val)
  (Arr.apply1 op parts 0 (fun _ => Vec.splat 0)).map (fun x => fun i => Vec.at_ (Arr.flat x : Vec 8 (2 * 16)) i.val)

/-! ## Moves -/

/-- `i_move16_l<s>` on a register of bytes. Models /repo/simdpp/detail/insn/move_l.h:39-75. -/
def i_move16_l (c : Cfg) (r : Reg) (s : Nat) (a : Vec 8 n) : Option (Vec 8 n) :=
  if 16 < s then none else
  match r with
  | .r128 =>
    if c.null then Null.move_n_l s a
    else if c.sse2 then some (Hw.bsrli a s)
    else if c.neon then Hw.ext a (Vec.splat 0) s
    else if c.altivec then sldBi s a (Vec.splat 0)
    else if c.msa then Hw.sldi_b (Vec.splat 0) a s
    else none
  | r => if c.hasInt 8 r then some (Hw.bsrli a s) else none

/-- `i_move16_r<s>` on a register of bytes. Models /repo/simdpp/detail/insn/move_r.h:25-62. -/
def i_move16_r (c : Cfg) (r : Reg) (s : Nat) (a : Vec 8 n) : Option (Vec 8 n) :=
  if 16 < s then none else
  match r with
  | .r128 =>
    if c.null then Null.move_n_r s a
    else if c.sse2 then some (Hw.bslli a s)
    else if c.neon then Hw.ext (Vec.splat 0) a (16 - s)
    else if c.altivec then sldBi (16 - s) (Vec.splat 0) a
    else if c.msa then Hw.sldi_b a (Vec.splat 0) (16 - s)
    else none
  | r => if c.hasInt 8 r then some (Hw.bslli a s) else none

/-- `_mm512_shuffle_epi32(a, imm)` / `_mm512_shuffle_ps(a, a, imm)`. -/
def shuf32 (k : Kind) (a : Vec 32 n) (imm : Nat) : Vec 32 n :=
  match k with
  | .int => Hw.shuffle_epi32 a imm
  | .flt => Hw.shuffle_ps a a imm

/-- `i_move4_l` on a 512-bit register of 32-bit lanes.
Models /repo/simdpp/detail/insn/move_l.h:141-158 (`int`), 223-240 (`flt`). -/
def move4_l_512 (k : Kind) (s : Nat) (a : Vec 32 n) : Option (Vec 32 n) :=
  if 4 < s then none else
  match s with
  | 0 => some a
  | 1 => some (Hw.maskzi 0x7777 (shuf32 k a 0b11111001))
  | 2 => some (Hw.maskzi 0x3333 (shuf32 k a 0b11111110))
  | 3 => some (Hw.maskzi 0x1111 (shuf32 k a 0b11111111))
  | 4 => some (Vec.splat 0)
  | _ => some a

/-- `i_move4_r` on a 512-bit register of 32-bit lanes.
Models /repo/simdpp/detail/insn/move_r.h:128-145 (`int`), 210-227 (`flt`). -/
def move4_r_512 (k : Kind) (s : Nat) (a : Vec 32 n) : Option (Vec 32 n) :=
  if 4 < s then none else
  match s with
  | 0 => some a
  | 1 => some (Hw.maskzi 0xeeee (shuf32 k a 0b10010000))
  | 2 => some (Hw.maskzi 0xcccc (shuf32 k a 0b01000000))
  | 3 => some (Hw.maskzi 0x8888 (shuf32 k a 0b00000000))
  | 4 => some (Vec.splat 0)
  | _ => some a

/-- `i_move2_l` on `float64<8>`. Models /repo/simdpp/detail/insn/move_l.h:269-282. -/
def move2_l_512f (s : Nat) (a : Vec w n) : Option (Vec w n) :=
  if 2 < s then none else
  match s with
  | 0 => some a
  | 1 => some (Hw.maskzi 0x55 (Hw.shuffle_pd a a (mask2x2_4 1 1)))
  | 2 => some (Vec.splat 0)
  | _ => some a

/-- `i_move2_r` on `float64<8>`. Models /repo/simdpp/detail/insn/move_r.h:256-268. -/
def move2_r_512f (s : Nat) (a : Vec w n) : Option (Vec w n) :=
  if 2 < s then none else
  match s with
  | 0 => some a
  | 1 => some (Hw.maskzi 0xaa (Hw.shuffle_pd a a (mask2x2_4 0 0)))
  | 2 => some (Vec.splat 0)
  | _ => some a

/-- Which 128-bit types use the plain loop (`0`), which go through bytes (`1`); `2`: neither.
`isR` is the difference between move_l.h:255 (`NEON32`) and move_r.h:242 (`NEON`).
Models /repo/simdpp/detail/insn/move_l.h:86-94, 122-130, 168-176, 204-212, 250-258 and
/repo/simdpp/detail/insn/move_r.h:73-81, 109-117, 155-163, 191-199, 237-245. -/
def movePath (c : Cfg) (k : Kind) (w : Nat) (isR : Bool) : Nat :=
  match k with
  | .int =>
    if w = 64 then (if c.null ∨ (c.altivec ∧ ¬ c.vsx207) then 0 else 1)
    else (if c.null then 0 else 1)
  | .flt =>
    if w = 64 then
      (if c.sse2 ∨ c.neon64 ∨ c.vsx206 ∨ c.msa then 1
       else if c.null ∨ (if isR then c.neon else c.neon32) ∨ c.altivec then 0 else 2)
    else (if c.null ∨ c.neonNoFltSp then 0 else 1)

/-- `i_move{8,4,2}_l<s>` (and `i_move16_l` for `w = 8`) on one register.
Models /repo/simdpp/detail/insn/move_l.h:39-282. -/
def i_move_l (c : Cfg) (k : Kind) (r : Reg) (s : Nat) (a : Vec w n) : Option (Vec w n) :=
  match r with
  | .r128 =>
    if w = 8 then onBytes (i_move16_l c .r128 s) a
    else if movePath c k w false = 0 then Null.move_n_l s a
    else if movePath c k w false = 1 then onBytes (i_move16_l c .r128 (s * (w / 8))) a
    else none
  | .r256 =>
    if 128 / w < s then none
    else match k with
    | .int => if c.avx2 then onBytes (fun x => some (Hw.bsrli x (s * (w / 8)))) a else none
    | .flt =>
      if ¬ c.avx then none
      else if c.avx2 then onBytes (i_move16_l c .r256 (s * (w / 8))) a
      else onBytes (byPair (i_move16_l c .r128 (s * (w / 8)))) a
  | .r512 =>
    if w ≤ 16 then
      if 128 / w < s then none
      else if c.avx512bw then onBytes (fun x => some (Hw.bsrli x (s * (w / 8)))) a else none
    else if ¬ c.avx512f then none
    else if w = 64 ∧ k = .flt then move2_l_512f s a
    else (move4_l_512 k (s * (w / 32)) (a.recast 32 (n * (w / 32)))).map (fun x => x.recast w n)

/-- `i_move{8,4,2}_r<s>` (and `i_move16_r` for `w = 8`) on one register.
Models /repo/simdpp/detail/insn/move_r.h:25-268. -/
def i_move_r (c : Cfg) (k : Kind) (r : Reg) (s : Nat) (a : Vec w n) : Option (Vec w n) :=
  match r with
  | .r128 =>
    if w = 8 then onBytes (i_move16_r c .r128 s) a
    else if movePath c k w true = 0 then Null.move_n_r s a
    else if movePath c k w true = 1 then onBytes (i_move16_r c .r128 (s * (w / 8))) a
    else none
  | .r256 =>
    if 128 / w < s then none
    else match k with
    | .int => if c.avx2 then onBytes (fun x => some (Hw.bslli x (s * (w / 8)))) a else none
    | .flt =>
      if ¬ c.avx then none
      else if c.avx2 then onBytes (i_move16_r c .r256 (s * (w / 8))) a
      else onBytes (byPair (i_move16_r c .r128 (s * (w / 8)))) a
  | .r512 =>
    if w ≤ 16 then
      if 128 / w < s then none
      else if c.avx512bw then onBytes (fun x => some (Hw.bslli x (s * (w / 8)))) a else none
    else if ¬ c.avx512f then none
    else if w = 64 ∧ k = .flt then move2_r_512f s a
    else (move4_r_512 k (s * (w / 32)) (a.recast 32 (n * (w / 32)))).map (fun x => x.recast w n)

/-- `i_move*_wrapper<count>::run`: count 0 is the identity, a full count is zero; the `static_assert`
of the public function rejects larger counts.
Models /repo/simdpp/detail/insn/move_l.h:294-356, /repo/simdpp/detail/insn/move_r.h:280-342,
/repo/simdpp/core/move_l.h:39-133, /repo/simdpp/core/move_r.h:39-133. -/
def moveWrap {α : Type} (L s : Nat) (zero : α) (op : α → Option α) (a : α) : Option α :=
  if L < s then none
  else if s = 0 then some a
  else if s = L then some zero
  else op a

/-- `move{16,8,4,2}_l<s>(v)`, `v` of `K` registers (`d`: the uninitialised result).
Models /repo/simdpp/core/move_l.h:39-133 and the array versions in /repo/simdpp/detail/insn/move_l.h. -/
def move_l (c : Cfg) (k : Kind) (r : Reg) (s : Nat) {K : Nat} (a d : Fin K → Vec w n) :
    Option (Fin K → Vec w n) :=
  moveWrap (128 / w) s (fun _ => Vec.splat 0) (fun a => Arr.apply1 (i_move_l c k r s) a 0 d) a

/-- `move{16,8,4,2}_r<s>(v)`.
Models /repo/simdpp/core/move_r.h:39-133 and the array versions in /repo/simdpp/detail/insn/move_r.h. -/
def move_r (c : Cfg) (k : Kind) (r : Reg) (s : Nat) {K : Nat} (a d : Fin K → Vec w n) :
    Option (Fin K → Vec w n) :=
  moveWrap (128 / w) s (fun _ => Vec.splat 0) (fun a => Arr.apply1 (i_move_r c k r s) a 0 d) a

/-! ## Align -/

/-- `i_align16<s>` on a register of bytes. Models /repo/simdpp/detail/insn/align.h:31-81. -/
def i_align16 (c : Cfg) (r : Reg) (s : Nat) (lower upper : Vec 8 n) : Option (Vec 8 n) :=
  match r with
  | .r128 =>
    if c.null then Null.align s lower upper
    else if c.ssse3 then some (Hw.alignr_epi8 upper lower s)
    else if c.sse2 then do
      let lower ← moveWrap 16 s (Vec.splat 0) (i_move16_l c .r128 s) lower
      let upper ← moveWrap 16 (16 - s) (Vec.splat 0) (i_move16_r c .r128 (16 - s)) upper
      i_bit_or c .int .r128 upper lower
    else if c.neon then
      if s = 0 then some lower else if s = 16 then some upper else Hw.ext lower upper (s % 16)
    else if c.altivec then sldBi s lower upper
    else if c.msa then some (Hw.sld_b upper lower s)
    else none
  | r => if c.hasInt 8 r then some (Hw.alignr_epi8 upper lower s) else none

/-- `i_align8<s>`. Models /repo/simdpp/detail/insn/align.h:91-124. -/
def i_align8 (c : Cfg) (r : Reg) (s : Nat) (lower upper : Vec 16 n) : Option (Vec 16 n) :=
  match r with
  | .r128 => if c.null then Null.align s lower upper else onBytes2 (i_align16 c .r128 (s * 2)) lower upper
  | r => if c.hasInt 16 r then onBytes2 (fun l u => some (Hw.alignr_epi8 u l (s * 2))) lower upper else none

/-- `bit_or(move4_l<s>(lower), move4_r<4-s>(upper))`.
Models /repo/simdpp/detail/insn/align.h:160-161, 303-304. -/
def align4Or (c : Cfg) (k : Kind) (s : Nat) (lower upper : Vec 32 n) : Option (Vec 32 n) := do
  let l ← moveWrap 4 s (Vec.splat 0) (i_move_l c k .r128 s) lower
  let u ← moveWrap 4 (4 - s) (Vec.splat 0) (i_move_r c k .r128 (4 - s)) upper
  i_bit_or c k .r128 l u

/-- `i_align4<s>` on `uint32`. Models /repo/simdpp/detail/insn/align.h:134-201. -/
def i_align4_int (c : Cfg) (r : Reg) (s : Nat) (lower upper : Vec 32 n) : Option (Vec 32 n) :=
  match r with
  | .r128 =>
    if c.null then Null.align s lower upper
    else if c.sse2 then
      if s = 1 ∨ s = 2 ∨ s = 3 then
        if c.ssse3 then onBytes2 (fun l u => some (Hw.alignr_epi8 u l (s * 4))) lower upper
        else if s = 2 then some (Hw.shuffle_ps lower upper (mask4x4 2 3 0 1))
        else align4Or c .int s lower upper
      else if s = 4 then some upper else some lower
    else if c.neon then
      if s = 0 then some lower else if s = 4 then some upper else Hw.ext lower upper s
    else if c.altivec then onBytes2 (sldBi (s * 4)) lower upper
    else if c.msa then onBytes2 (fun l u => some (Hw.sld_b u l (s * 4))) lower upper
    else none
  | .r256 =>
    if c.avx2 then onBytes2 (fun l u => some (Hw.alignr_epi8 u l (s * 4))) lower upper else none
  | .r512 =>
    if ¬ c.avx512f then none
    else if s = 1 then i_shuffle4x2_32 c .int .r512 1 2 3 4 lower upper
    else if s = 2 then i_shuffle4x2_32 c .int .r512 2 3 4 5 lower upper
    else if s = 3 then i_shuffle4x2_32 c .int .r512 3 4 5 6 lower upper
    else if s = 4 then some upper else some lower

/-- `i_align4<s>` on `float32`. Models /repo/simdpp/detail/insn/align.h:277-363. -/
def i_align4_flt (c : Cfg) (r : Reg) (s : Nat) (lower upper : Vec 32 n) : Option (Vec 32 n) :=
  match r with
  | .r128 =>
    if c.null ∨ c.neonNoFltSp then Null.align s lower upper
    else if c.sse2 then
      if s = 1 ∨ s = 3 then
        if c.ssse3 then onBytes2 (fun l u => some (Hw.alignr_epi8 u l (s * 4))) lower upper
        else align4Or c .flt s lower upper
      else if s = 2 then some (Hw.shuffle_ps lower upper (mask4x4 2 3 0 1))
      else if s = 4 then some upper else some lower
    else if c.neonFltSp then
      if s = 0 then some lower else if s = 4 then some upper else Hw.ext lower upper s
    else if c.altivec then onBytes2 (sldBi (s * 4)) lower upper
    else if c.msa then onBytes2 (fun l u => some (Hw.sld_b u l (s * 4))) lower upper
    else none
  | .r256 =>
    if ¬ c.avx then none
    else if s = 1 ∨ s = 3 then
      if c.avx2 then onBytes2 (fun l u => some (Hw.alignr_epi8 u l (s * 4))) lower upper
      else if s = 1 then i_shuffle4x2_32 c .flt .r256 1 2 3 4 lower upper
      else i_shuffle4x2_32 c .flt .r256 3 4 5 6 lower upper
    else if s = 2 then some (Hw.shuffle_ps lower upper (mask4x4 2 3 0 1))
    else if s = 4 then some upper else some lower
  | .r512 =>
    if ¬ c.avx512f then none
    else if s = 1 then i_shuffle4x2_32 c .flt .r512 1 2 3 4 lower upper
    else if s = 2 then some (Hw.shuffle_ps lower upper (mask4x4 2 3 0 1))
    else if s = 3 then i_shuffle4x2_32 c .flt .r512 3 4 5 6 lower upper
    else if s = 4 then some upper else some lower

/-- `i_align2<s>`. Models /repo/simdpp/detail/insn/align.h:211-267 (`int`), 373-437 (`flt`). -/
def i_align2 (c : Cfg) (k : Kind) (r : Reg) (s : Nat) (lower upper : Vec 64 n) : Option (Vec 64 n) :=
  match r with
  | .r128 =>
    if c.sse2 then
      if s = 1 then some (Hw.shuffle_pd lower upper (mask2x2 1 0))
      else if s = 2 then some upper else some lower
    else if (k = .int ∧ c.neon) ∨ (k = .flt ∧ c.neon64) then
      if s = 0 then some lower else if s = 2 then some upper
      else Hw.ext lower upper (if k = .int then s % 2 else s)
    else if (k = .int ∧ c.vsx207) ∨ (k = .flt ∧ c.vsx206) then onBytes2 (sldBi (s * 8)) lower upper
    else if c.null ∨ c.altivec ∨ (k = .flt ∧ c.neon32) then Null.align s lower upper
    else if c.msa then onBytes2 (fun l u => some (Hw.sld_b u l (s * 8))) lower upper
    else none
  | .r256 =>
    match k with
    | .int => if c.avx2 then onBytes2 (fun l u => some (Hw.alignr_epi8 u l (s * 8))) lower upper else none
    | .flt =>
      if ¬ c.avx then none
      else if s = 1 then some (Hw.shuffle_pd lower upper (mask2x2_2 1 0))
      else if s = 2 then some upper else some lower
  | .r512 =>
    if ¬ c.avx512f then none
    else if s = 1 then
      match k with
      | .int => i_shuffle2x2_64 c .int .r512 1 2 lower upper
      | .flt => some (Hw.shuffle_pd lower upper (mask2x2_4 1 0))
    else if s = 2 then some upper else some lower

/-- `i_align{16,8,4,2}<s>` by element size. Models /repo/simdpp/detail/insn/align.h:31-442. -/
def i_align (c : Cfg) (k : Kind) (r : Reg) (s : Nat) (lower upper : Vec w n) : Option (Vec w n) :=
  if h : w = 8 then (h ▸ fun (l u : Vec 8 n) => i_align16 c r s l u : Vec w n → Vec w n → Option (Vec w n)) lower upper
  else if h : w = 16 then (h ▸ fun (l u : Vec 16 n) => i_align8 c r s l u : Vec w n → Vec w n → Option (Vec w n)) lower upper
  else if h : w = 32 then
    match k with
    | .int => (h ▸ fun (l u : Vec 32 n) => i_align4_int c r s l u : Vec w n → Vec w n → Option (Vec w n)) lower upper
    | .flt => (h ▸ fun (l u : Vec 32 n) => i_align4_flt c r s l u : Vec w n → Vec w n → Option (Vec w n)) lower upper
  else if h : w = 64 then (h ▸ fun (l u : Vec 64 n) => i_align2 c k r s l u : Vec w n → Vec w n → Option (Vec w n)) lower upper
  else none

/-- `align{16,8,4,2}<s>(lower, upper)`: `static_assert`, count 0 and the full count are returned without
calling `i_align*` (whose instantiation for those counts is compiled but not run, and is not modelled).
Models /repo/simdpp/core/align.h:45-194. -/
def align (c : Cfg) (k : Kind) (r : Reg) (s : Nat) {K : Nat} (lower upper d : Fin K → Vec w n) :
    Option (Fin K → Vec w n) :=
  if 128 / w < s then none
  else if s = 0 then some lower
  else if s = 128 / w then some upper
  else Arr.apply2 (i_align c k r s) lower upper 0 d

end Simdpp
