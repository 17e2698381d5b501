import Verif.Model.MProg

/-!
# Loops over arrays at arbitrary addresses

User code which reads its inputs with `load_u` (moving windows, arrays at odd offsets) and writes the output with `store` and `store_first`, or
with `store_u`.
-/

namespace Simdpp
open Spec Spec.MProg

variable {N : Nat}

/-- One vector of an input array: `load_u` if the array need not be aligned, else `load`.
Models user code around /repo/simdpp/core/load_u.h and /repo/simdpp/core/load.h. -/
def loadAt (c : Cfg) (un : Bool) (k : Kind) (w N : Nat) (m : Mem) (p : Nat) : Option (Vec w N) :=
  if un then load_u c k w N m p else load c k w N m p

/-- One vector of each of the first `V` inputs, from element `i * N` on (later variables are not used by the program and read as zero). -/
def loadsU {Γ : Nat → ETy} (c : Cfg) (N : Nat) (un : Nat → Bool) (p : Nat → Nat) (i : Nat) (m : Mem) : (V : Nat) → Option ((x : Nat) → Vec (Γ x).w N)
  | 0 => some fun _ _ => 0
  | V + 1 => do
    let a ← loadsU (Γ := Γ) c N un p i m V
    let b ← loadAt c (un V) (Γ V).kind (Γ V).w N m (p V + i * (N * ((Γ V).w / 8)))
    some fun x => if h : x = V then h ▸ b else a x

/-- One step: read a vector of every input and evaluate. -/
def ukernelStep {Γ : Nat → ETy} {t : ETy} (c : Cfg) (E : Est) (J : Junk c N) (V : Nat) (e : MExp Γ t) (un : Nat → Bool) (p : Nat → Nat) (i : Nat) (m : Mem) :
    Option (Vec t.w N) := do
  e.run c E J (← loadsU c N un p i m V)

/-- `for (i = 0; i < cnt / N; ++i) store(q + i * N, f(load_u(p_0 + i * N), ...)); if (cnt % N != 0) store_first(q + i * N, ..., cnt % N);` -/
def ukernel {Γ : Nat → ETy} {t : ETy} (c : Cfg) (be : Bool) (E : Est) (J : Junk c N) (V : Nat) (e : MExp Γ t) (un : Nat → Bool) (p : Nat → Nat) (q cnt : Nat)
    (m : Mem) : Option Mem :=
  kernelG c be t.kind t.signed t.w N (ukernelStep c E J V e un p) q cnt m

/-- `for (i = 0; i < n; ++i) store_u(q + i * N, f(load_u(p_0 + i * N), ...));`
Models user code around /repo/simdpp/core/store_u.h. -/
def ukernelU {Γ : Nat → ETy} {t : ETy} (c : Cfg) (E : Est) (J : Junk c N) (V : Nat) (e : MExp Γ t) (un : Nat → Bool) (p : Nat → Nat) (q n : Nat)
    (m : Mem) : Option Mem :=
  loopM (fun i m => do store_u c t.kind m (q + i * (N * (t.w / 8))) (← ukernelStep c E J V e un p i m)) 0 n m

end Simdpp
