import Verif.Model.Lanes

/-!
# `for_each`

A C++ function object is its own data members (`σ`) plus effects on everything it refers to (`ω`); calling it on a
lane updates both. Passing it by value copies the members.
-/

namespace Simdpp
open Sh

variable {w n : Nat} {σ ω : Type}

/-- Call the function object on a lane; `none` if reading the lane is undefined. -/
def callOn (f : BitVec w → σ → ω → σ × ω) (x : Option (BitVec w)) (s : σ × ω) : Option (σ × ω) :=
  x.map fun x => f x s.1 s.2

/-- `for (unsigned i = I; i < N; ++i) function(mem[i]);` where `mem_block<V> mem(v)` holds the stored vector.
Models /repo/simdpp/detail/for_each.h:61-63, 70-72 and /repo/simdpp/detail/mem_block.h:28-46. -/
def memLoop (f : BitVec w → σ → ω → σ × ω) (a : Vec w n) (I : Nat) (s : σ × ω) : Option (σ × ω) :=
  if I < n then (callOn f (rd a I) s).bind (memLoop f a (I + 1)) else some s
termination_by n - I

/-- `foreach_impl` on one register. Models /repo/simdpp/detail/for_each.h:24-74. -/
def foreachImpl (c : Cfg) (k : Kind) (sg : Bool) (r : Reg) (f : BitVec w → σ → ω → σ × ω) (a : Vec w n)
    (s : σ × ω) : Option (σ × ω) :=
  if c.sse2 ∨ c.neon ∨ c.msa then
    if n = 2 then do
      let s ← callOn f (i_extract c k sg r 0 a) s
      callOn f (i_extract c k sg r 1 a) s
    else if n = 4 then do
      let s ← callOn f (i_extract c k sg r 0 a) s
      let s ← callOn f (i_extract c k sg r 1 a) s
      let s ← callOn f (i_extract c k sg r 2 a) s
      callOn f (i_extract c k sg r 3 a) s
    else do
      let s ← callOn f (i_extract c k sg r 0 a) s
      let s ← callOn f (i_extract c k sg r 1 a) s
      memLoop f a 2 s
  else memLoop f a 0 s

/-- The loop over registers; `function` is passed to `foreach_impl` by value, so each register starts from the
members `f0`. Models /repo/simdpp/detail/for_each.h:76-82. -/
def forEachRegs (c : Cfg) (k : Kind) (sg : Bool) (r : Reg) (f : BitVec w → σ → ω → σ × ω) (f0 : σ) {K : Nat}
    (v : Fin K → Vec w n) (I : Nat) (g : ω) : Option ω :=
  if h : I < K then
    (foreachImpl c k sg r f (v ⟨I, h⟩) (f0, g)).bind fun s => forEachRegs c k sg r f f0 v (I + 1) s.2
  else some g
termination_by K - I

/-- `for_each(v, function)`. Models /repo/simdpp/core/for_each.h:31-35. -/
def forEach (c : Cfg) (k : Kind) (sg : Bool) (r : Reg) (f : BitVec w → σ → ω → σ × ω) (f0 : σ) {K : Nat}
    (v : Fin K → Vec w n) (g : ω) : Option ω := forEachRegs c k sg r f f0 v 0 g

end Simdpp
