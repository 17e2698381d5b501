import Verif.Model.Bitwise

/-!
# add, sub, saturating add/sub, neg

`simdpp/detail/insn/i_add.h`, `i_sub.h`, `i_add_sat.h`, `i_sub_sat.h`, `i_neg.h`.
-/

namespace Simdpp

variable {w n : Nat}

/-- `i_iadd`. The public `add` converts both operands to the unsigned vector type
first (/repo/simdpp/core/i_add.h:35-126, `get_expr_uint`).
Models /repo/simdpp/detail/insn/i_add.h:25-158: 8/16/32-bit lanes 25-39, 59-73, 93-107
(same cascade), 64-bit lanes 127-141, 256-bit 41-47 etc., 512-bit 49-56 etc. -/
def i_iadd (c : Cfg) (r : Reg) (a b : Vec w n) : Option (Vec w n) :=
  match r with
  | .r128 =>
    if w = 64 then
      if c.sse2 then some (Hw.add a b)
      else if c.neon then some (Hw.add a b)
      else if c.vsx207 then some (Hw.add a b)
      else if c.null ∨ c.altivec then Null.add false a b
      else if c.msa then some (Hw.add a b)
      else none
    else
      if c.null then Null.add false a b
      else if c.sse2 then some (Hw.add a b)
      else if c.neon then some (Hw.add a b)
      else if c.altivec then some (Hw.add a b)
      else if c.msa then some (Hw.add a b)
      else none
  | .r256 => if c.avx2 then some (Hw.add a b) else none
  | .r512 => if c.hasInt w .r512 then some (Hw.add a b) else none

/-- `i_isub`. Models /repo/simdpp/detail/insn/i_sub.h:25-158 (same structure as `i_iadd`). -/
def i_isub (c : Cfg) (r : Reg) (a b : Vec w n) : Option (Vec w n) :=
  match r with
  | .r128 =>
    if w = 64 then
      if c.sse2 then some (Hw.sub a b)
      else if c.neon then some (Hw.sub a b)
      else if c.vsx207 then some (Hw.sub a b)
      else if c.null ∨ c.altivec then Null.sub false a b
      else if c.msa then some (Hw.sub a b)
      else none
    else
      if c.null then Null.sub false a b
      else if c.sse2 then some (Hw.sub a b)
      else if c.neon then some (Hw.sub a b)
      else if c.altivec then some (Hw.sub a b)
      else if c.msa then some (Hw.sub a b)
      else none
  | .r256 => if c.avx2 then some (Hw.sub a b) else none
  | .r512 => if c.hasInt w .r512 then some (Hw.sub a b) else none

/-- `i_add_sat` on 8- and 16-bit lanes; `s` selects the signed overloads.
Models /repo/simdpp/detail/insn/i_add_sat.h:25-157. -/
def i_add_sat (c : Cfg) (s : Bool) (r : Reg) (a b : Vec w n) : Option (Vec w n) :=
  let hw := if s then Hw.adds_s a b else Hw.adds_u a b
  match r with
  | .r128 =>
    if c.null then Null.add_sat s a b
    else if c.sse2 then some hw
    else if c.neon then some hw
    else if c.altivec then some hw
    else if c.msa then some hw
    else none
  | .r256 => if c.avx2 then some hw else none
  | .r512 => if c.avx512bw then some hw else none

/-- `i_sub_sat` on 8- and 16-bit lanes. Models /repo/simdpp/detail/insn/i_sub_sat.h:24-156. -/
def i_sub_sat (c : Cfg) (s : Bool) (r : Reg) (a b : Vec w n) : Option (Vec w n) :=
  let hw := if s then Hw.subs_s a b else Hw.subs_u a b
  match r with
  | .r128 =>
    if c.null then Null.sub_sat s a b
    else if c.sse2 then some hw
    else if c.neon then some hw
    else if c.altivec then some hw
    else if c.msa then some hw
    else none
  | .r256 => if c.avx2 then some hw else none
  | .r512 => if c.avx512bw then some hw else none

/-- `vnegq_s*` (NEON): two's complement negation. -/
def Hw.neg (a : Vec w n) : Vec w n := fun i => - a i

/-- `i_ineg` on signed vectors; `sub(0, a)` is `i_isub` with a zero vector.
Models /repo/simdpp/detail/insn/i_neg.h:25-140. -/
def i_ineg (c : Cfg) (r : Reg) (a : Vec w n) : Option (Vec w n) :=
  match r with
  | .r128 =>
    if w = 64 then
      if c.sse2 ∨ c.neon ∨ c.vsx207 ∨ c.msa then i_isub c .r128 (Vec.splat 0) a
      else if c.null ∨ c.altivec then Null.neg true a
      else none
    else
      if c.null then Null.neg true a
      else if c.sse2 ∨ c.altivec ∨ c.msa then i_isub c .r128 (Vec.splat 0) a
      else if c.neon then some (Hw.neg a)
      else none
  | .r256 => if c.avx2 then i_isub c .r256 (Vec.splat 0) a else none
  | .r512 => if c.hasInt w .r512 then i_isub c .r512 (Vec.splat 0) a else none

end Simdpp
