import Verif.Spec.Carry
import Verif.Model.SProg

/-!
# Loops which carry a vector (model)

User loops such as running sums, differences of neighbours and filters, where each step hands a vector to the next one.
-/

namespace Simdpp
open Spec Spec.Prog Spec.FProg Spec.MProg

variable {N : Nat}

/-- `for (i = 0; i < cnt / N; ++i) { step; store(q + i * N, y); }`, then `step; store_first(q + i * N, y, cnt % N)` if elements remain, for a step which has a state.
Models user code around /repo/simdpp/core/store.h and store_first.h. -/
def kernelS {σ : Type} (c : Cfg) (be : Bool) (k : Kind) (s : Bool) (w N : Nat) (stp : Nat → σ → Mem → Option (σ × Vec w N)) (q cnt : Nat) (st : σ) (m : Mem) : Option (σ × Mem) := do
  let (st, m) ← loopM (fun i (x : σ × Mem) => do
    let (st, y) ← stp i x.1 x.2
    let m ← store c k x.2 (q + i * (N * (w / 8))) y
    some (st, m)) 0 (cnt / N) (st, m)
  if cnt % N = 0 then some (st, m)
  else
    let (st, y) ← stp (cnt / N) st m
    let m ← store_first c be k s m (q + cnt / N * (N * (w / 8))) y (cnt % N)
    some (st, m)

/-- One step: `load` a vector from element `i * N` on of each of the `V` input arrays; the result `y = e(.., s)`, the next carried vector `s = nx(.., s)`.
Models user code around /repo/simdpp/core/load.h. -/
def carryStep {Γ : Nat → ETy} {t : ETy} (c : Cfg) (gnuc : Bool) (E : Est) (J : Junk c N) (V : Nat) (nx : SExp Γ (Γ V)) (e : SExp Γ t) (p : Nat → Nat) (i : Nat)
    (s : Vec (Γ V).w N) (m : Mem) : Option (Vec (Γ V).w N × Vec t.w N) := do
  let env ← loadsM (Γ := Γ) c N p i m V
  let env := Function.update env V s
  let y ← e.run c gnuc E J env
  let s ← nx.run c gnuc E J env
  some (s, y)

/-- The loop; its result is the last carried vector and the memory. Models user code. -/
def carryLoop {Γ : Nat → ETy} {t : ETy} (c : Cfg) (gnuc be : Bool) (E : Est) (J : Junk c N) (V : Nat) (nx : SExp Γ (Γ V)) (e : SExp Γ t) (p : Nat → Nat) (q cnt : Nat)
    (s : Vec (Γ V).w N) (m : Mem) : Option (Vec (Γ V).w N × Mem) :=
  kernelS c be t.kind t.signed t.w N (carryStep c gnuc E J V nx e p) q cnt s m

end Simdpp
