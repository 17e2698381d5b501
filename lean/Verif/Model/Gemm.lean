import Verif.Model.MProg
import Verif.Model.MakeConst

/-!
# Matrix products

User code which multiplies matrices: one element of the left matrix is copied to all lanes with `load_splat`, the rows of the right matrix and of the
result are read with `load`, the result is written with `store`.
-/

namespace Simdpp
open Spec Spec.MProg

variable {N : Nat}

/-- Types of the accumulator, of the left and of the right matrix. -/
def Ty3 (t a b : ETy) : Nat → ETy
  | 0 => t
  | 1 => a
  | _ => b

/-- The variables of the inner expression. -/
def env3 {t a b : ETy} (s : Vec t.w N) (x : Vec a.w N) (y : Vec b.w N) : (v : Nat) → Vec (Ty3 t a b v).w N
  | 0 => s
  | 1 => x
  | _ + 2 => y

/-- The inner loop: `acc = e(acc, load_splat(pa + x), load(pb + x * lb))` for `x < K`. `J` and `junk` are the uninitialised contents of temporaries.
Models user code around /repo/simdpp/core/load_splat.h and /repo/simdpp/core/load.h. -/
def gemmDot {t a b : ETy} (c : Cfg) (gnuc : Bool) (E : Est) (J : Nat → Junk c N) (junk : Nat → BitVec a.w) (e : MExp (Ty3 t a b) t) (pa pb lb K : Nat) (m : Mem)
    (acc : Vec t.w N) : Option (Vec t.w N) :=
  loopM (fun x acc => do
    let u ← load_splat c gnuc a.kind a.w N junk m (pa + x * (a.w / 8))
    let v ← load c b.kind b.w N m (pb + x * lb * (b.w / 8))
    e.run c E (J x) (env3 acc u v)) 0 K acc

/-- `for (i = 0; i < M; ++i) for (j = 0; j < V; ++j) { acc = load(pc + i * lc + j * N); inner loop; store(pc + i * lc + j * N, acc); }`
Models user code around /repo/simdpp/core/store.h. -/
def gemm {t a b : ETy} (c : Cfg) (gnuc : Bool) (E : Est) (J : Nat → Nat → Nat → Junk c N) (junk : Nat → BitVec a.w) (e : MExp (Ty3 t a b) t)
    (pa la pb lb pc lc M K V : Nat) (m : Mem) : Option Mem :=
  loopM (fun i m => loopM (fun j m => do
    let acc ← load c t.kind t.w N m (pc + (i * lc + j * N) * (t.w / 8))
    let acc ← gemmDot c gnuc E (J i j) junk e (pa + i * la * (a.w / 8)) (pb + j * N * (b.w / 8)) lb K m acc
    store c t.kind m (pc + (i * lc + j * N) * (t.w / 8)) acc) 0 V m) 0 M m

end Simdpp
