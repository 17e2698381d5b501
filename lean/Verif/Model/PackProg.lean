import Verif.Model.MProg
import Verif.Model.MemPack

/-!
# Loops over arrays of structures

User code which reads records of up to four elements with `load_packed2/3/4`, computes and writes records with `store_packed2/3/4`.
-/

namespace Simdpp
open Spec Spec.MProg

variable {N : Nat}

/-- The number of elements of a record. -/
inductive Rec | one | two | three | four
deriving DecidableEq

def Rec.n : Rec → Nat | .one => 1 | .two => 2 | .three => 3 | .four => 4

/-- `a_0 = load(p)` or `load_packedM(a_0, .., p)`: vectors of the members of `N` records.
Models user code around /repo/simdpp/core/load_packed2.h, load_packed3.h, load_packed4.h. -/
def loadRec (c : Cfg) (k : Kind) (w N : Nat) (m : Mem) (p : Nat) : (M : Rec) → Option (Fin M.n → Vec w N)
  | .one => (load c k w N m p).map fun a _ => a
  | .two => load_packed2 c k w N m p
  | .three => load_packed3 c k w N m p
  | .four => load_packed4 c k w N m p

/-- `store(p, a_0)` or `store_packedM(p, a_0, ..)`.
Models user code around /repo/simdpp/core/store_packed2.h, store_packed3.h, store_packed4.h. -/
def storeRec (c : Cfg) (gnuc : Bool) (k : Kind) {w : Nat} (m : Mem) (p : Nat) : (M : Rec) → (Fin M.n → Vec w N) → Option Mem
  | .one, x => store c k m p (x ⟨0, by decide⟩)
  | .two, x => store_packed2 c k m p x
  | .three, x => store_packed3 c gnuc k m p x
  | .four, x => store_packed4 c k m p x

/-- One step: the members of records `i * N .. i * N + N - 1`, and the members of the results. -/
def pkernelStep {u t : ETy} (c : Cfg) (E : Est) (J : Junk c N) (M M' : Rec) (e : Fin M'.n → MExp (fun _ => u) t) (p i : Nat) (m : Mem) :
    Option (Fin M'.n → Vec t.w N) := do
  let a ← loadRec c u.kind u.w N m (p + i * (M.n * N * (u.w / 8))) M
  famM fun y => (e y).run c E J fun x => if h : x < M.n then a ⟨x, h⟩ else fun _ => 0

/-- `for (i = 0; i < n; ++i) { load_packedM(a_0, .., p + i * M * N); store_packedM'(q + i * M' * N, f_0(a_0, ..), ..); }` -/
def pkernel {u t : ETy} (c : Cfg) (gnuc : Bool) (E : Est) (J : Junk c N) (M M' : Rec) (e : Fin M'.n → MExp (fun _ => u) t) (p q n : Nat) (m : Mem) : Option Mem :=
  loopM (fun i m => do storeRec c gnuc t.kind m (q + i * (M'.n * N * (t.w / 8))) M' (← pkernelStep c E J M M' e p i m)) 0 n m

end Simdpp
