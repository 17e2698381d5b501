import Verif.Spec.SProg
import Verif.Model.MProg
import Verif.Model.Shuffle32
import Verif.Model.Shuffle64
import Verif.Model.Zip
import Verif.Model.Move
import Verif.Model.Lanes

/-!
# Programs with shuffles (model)

How the library evaluates them: a shuffle of a vector of several registers is applied register by register.
-/

namespace Simdpp
open Spec Spec.Prog Spec.FProg Spec.MProg

variable {N : Nat}

/-- The overloads of `permute2`: none for 8-bit elements. Models /repo/simdpp/core/permute2.h:43-160. -/
def permute2T (c : Cfg) (gnuc : Bool) (r : Reg) (s0 s1 : Nat) {n : Nat} : (t : ETy) → Vec t.w n → Option (Vec t.w n)
  | .int _ .b16, a => i_permute2_16 c r s0 s1 a
  | .int _ .b32, a => i_permute2_32 c gnuc .int r s0 s1 a
  | .int _ .b64, a => i_permute2_64 c .int r s0 s1 a
  | .flt .f32, a => i_permute2_32 c gnuc .flt r s0 s1 a
  | .flt .f64, a => i_permute2_64 c .flt r s0 s1 a
  | .int _ .b8, _ => none

/-- The overloads of `permute4` for 16- and 32-bit elements (those for 64-bit elements, whose groups of four span two blocks, are in `Shuffle64.lean`).
Models /repo/simdpp/core/permute4.h. -/
def permute4T (c : Cfg) (gnuc : Bool) (r : Reg) (s0 s1 s2 s3 : Nat) {n : Nat} : (t : ETy) → Vec t.w n → Option (Vec t.w n)
  | .int _ .b16, a => i_permute4_16 c r s0 s1 s2 s3 a
  | .int _ .b32, a => i_permute4_32 c gnuc .int r s0 s1 s2 s3 a
  | .flt .f32, a => i_permute4_32 c gnuc .flt r s0 s1 s2 s3 a
  | _, _ => none

/-- `shuffle1`, `shuffle2` and `shuffle4x2` by element type. Models /repo/simdpp/core/shuffle1.h, shuffle2.h, shuffle4x2.h. -/
def shuffle1T (c : Cfg) (r : Reg) (s0 s1 : Nat) {n : Nat} : (t : ETy) → Vec t.w n → Vec t.w n → Option (Vec t.w n)
  | .int _ .b64, a, b => shuffle1_64 c .int r s0 s1 a b
  | .flt .f64, a, b => shuffle1_64 c .flt r s0 s1 a b
  | _, _, _ => none

/-- See `shuffle1T`. -/
def shuffle2T (c : Cfg) (r : Reg) (s0 s1 s2 s3 : Nat) {n : Nat} : (t : ETy) → Vec t.w n → Vec t.w n → Option (Vec t.w n)
  | .int _ .b32, a, b => shuffle2 c .int r s0 s1 s2 s3 a b
  | .flt .f32, a, b => shuffle2 c .flt r s0 s1 s2 s3 a b
  | _, _, _ => none

/-- See `shuffle1T`. -/
def shuffle4x2T (c : Cfg) (r : Reg) (s0 s1 s2 s3 : Nat) {n : Nat} : (t : ETy) → Vec t.w n → Vec t.w n → Option (Vec t.w n)
  | .int _ .b32, a, b => i_shuffle4x2_32 c .int r s0 s1 s2 s3 a b
  | .flt .f32, a, b => i_shuffle4x2_32 c .flt r s0 s1 s2 s3 a b
  | _, _, _ => none

/-- A shuffle of vectors of `K` registers; `d` is the uninitialised result. Models the public functions of /repo/simdpp/core (`permute2.h`, `permute4.h`,
`splat_n.h`, `move_l.h`, `move_r.h`, `align.h`, `zip_lo.h`, `zip_hi.h`, `unzip_lo.h`, `unzip_hi.h`, `shuffle1.h`, `shuffle2.h`, `shuffle4x2.h`),
see the modules imported above. -/
def Spec.MProg.Shuf.run (c : Cfg) (gnuc : Bool) (t : ETy) (r : Reg) {K n : Nat} (s : Shuf) (a b d : Fin K → Vec t.w n) : Option (Fin K → Vec t.w n) :=
  match s with
  | .permute2 s0 s1 => Arr.apply1 (permute2T c gnuc r s0 s1 t) a 0 d
  | .permute4 s0 s1 s2 s3 => Arr.apply1 (permute4T c gnuc r s0 s1 s2 s3 t) a 0 d
  | .splat s => splat_n c gnuc t.kind r s a d
  | .move_l s => Simdpp.move_l c t.kind r s a d
  | .move_r s => Simdpp.move_r c t.kind r s a d
  | .align s => Simdpp.align c t.kind r s a b d
  | .zip_lo => Arr.apply2 (i_zip_lo c t.kind r) a b 0 d
  | .zip_hi => Arr.apply2 (i_zip_hi c t.kind r) a b 0 d
  | .unzip_lo => Arr.apply2 (i_unzip_lo c t.kind r) a b 0 d
  | .unzip_hi => Arr.apply2 (i_unzip_hi c t.kind r) a b 0 d
  | .shuffle1 s0 s1 => Arr.apply2 (shuffle1T c r s0 s1 t) a b 0 d
  | .shuffle2 s0 s1 s2 s3 => Arr.apply2 (shuffle2T c r s0 s1 s2 s3 t) a b 0 d
  | .shuffle4x2 s0 s1 s2 s3 => Arr.apply2 (shuffle4x2T c r s0 s1 s2 s3 t) a b 0 d

/-- A shuffle of vectors of `N` lanes, which are held in `N / r.lanes` registers `r`. -/
def shufV (c : Cfg) (gnuc : Bool) (t : ETy) (N : Nat) (s : Shuf) (j : Nat → Vec t.w ((c.regK t.kind t.w N).lanes t.w)) (a b : Vec t.w N) :
    Option (Vec t.w N) := do
  let r := c.regK t.kind t.w N
  let res ← s.run c gnuc t r (K := N / r.lanes t.w) (fun k => Hw.part (r.lanes t.w) k.val a) (fun k => Hw.part (r.lanes t.w) k.val b) (fun k => j k.val)
  some fun i : Fin N => Vec.at_ (Arr.flat res : Vec t.w (N / r.lanes t.w * r.lanes t.w)) i.val

/-- Evaluate every argument (`none` if one does not compile or is undefined). -/
def argsM {V : Nat} {α : Fin V → Type} (a : (x : Fin V) → Option (α x)) : Option ((x : Fin V) → α x) :=
  if h : ∀ x, (a x).isSome = true then some fun x => (a x).get (h x) else none

/-- Evaluate an expression with shuffles on vectors of `N` lanes. Models the call structure of user code. -/
def Spec.MProg.SExp.run {Γ : Nat → ETy} (c : Cfg) (gnuc : Bool) (E : Est) (J : Junk c N) (env : (x : Nat) → Vec (Γ x).w N) :
    {t : ETy} → SExp Γ t → Option (Vec t.w N)
  | _, .var x => some (env x)
  | _, .lanes V _ e arg => do
    let a ← argsM fun x : Fin V => (arg x).run c gnuc E J env
    e.run c E J fun x => if h : x < V then a ⟨x, h⟩ else fun _ => 0
  | t, .shuf s a b => do
    let x ← a.run c gnuc E J env
    let y ← b.run c gnuc E J env
    shufV c gnuc t N s (J.vec t.kind t.w) x y

/-- One step: `load` a vector from element `i * N` on of every input array and evaluate. -/
def skernelStep {Γ : Nat → ETy} {t : ETy} (c : Cfg) (gnuc : Bool) (E : Est) (J : Junk c N) (V : Nat) (e : SExp Γ t) (p : Nat → Nat) (i : Nat) (m : Mem) :
    Option (Vec t.w N) := do
  e.run c gnuc E J (← loadsM c N p i m V)

/-- `for (i = 0; i < cnt / N; ++i) store(q + i * N, f(load(p_0 + i * N), ...)); if (cnt % N != 0) store_first(q + i * N, ..., cnt % N);`
where `f` moves elements between lanes. -/
def skernel {Γ : Nat → ETy} {t : ETy} (c : Cfg) (gnuc be : Bool) (E : Est) (J : Junk c N) (V : Nat) (e : SExp Γ t) (p : Nat → Nat) (q cnt : Nat) (m : Mem) :
    Option Mem :=
  kernelG c be t.kind t.signed t.w N (skernelStep c gnuc E J V e p) q cnt m

end Simdpp
