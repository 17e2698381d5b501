import Verif.Model.MemPack
import Verif.Model.Transpose

/-!
# Transposition of matrices in memory

User code which transposes a matrix tile by tile with `load`, `transpose2` or `transpose4`, and `store`: tiles of 4 by 4 elements of 32 bits, or of
2 by 2 elements of 64 bits (`int32<4>`, `uint32<4>`, `float32<4>`; `int64<2>`, `uint64<2>`, `float64<2>`).
-/

namespace Simdpp
open Spec

/-- The tiles whose rows are 128-bit vectors. -/
inductive Tile | t2 | t4
deriving DecidableEq

/-- Rows and columns of a tile. -/
def Tile.m : Tile → Nat | .t2 => 2 | .t4 => 4
/-- Bits of an element. -/
def Tile.w : Tile → Nat | .t2 => 64 | .t4 => 32

/-- `transpose2(a0, a1)` or `transpose4(a0, a1, a2, a3)`. Models /repo/simdpp/core/transpose.h:112-173, 274-314 called on one register. -/
def Tile.run (c : Cfg) (k : Kind) : (T : Tile) → (Fin T.m → Vec T.w T.m) → Option (Fin T.m → Vec T.w T.m)
  | .t2, a => (transpose2 (w := 64) c k .r128 (K := 1) (fun i _ => a i)).map fun r i => r i 0
  | .t4, a => (transpose4 (w := 32) c k .r128 (K := 1) (fun i _ => a i)).map fun r i => r i 0

/-- `a0 = load(p); a1 = load(p + pitch); ...`. Models user code around /repo/simdpp/core/load.h. -/
def loadTile (c : Cfg) (k : Kind) (T : Tile) (pitch p : Nat) (m : Mem) : Option (Fin T.m → Vec T.w T.m) :=
  famM fun t => load c k T.w T.m m (p + t.val * pitch * (T.w / 8))

/-- `store(q, a0); store(q + pitch, a1); ...`. Models user code around /repo/simdpp/core/store.h. -/
def storeTile (c : Cfg) (k : Kind) (T : Tile) (pitch q : Nat) (a : Fin T.m → Vec T.w T.m) (m : Mem) : Option Mem :=
  loopM (fun t m => if h : t < T.m then store c k m (q + t * pitch * (T.w / 8)) (a ⟨t, h⟩) else none) 0 T.m m

/-- The address of tile `(i, j)` of a matrix at `p`. -/
def Tile.at_ (T : Tile) (p pitch i j : Nat) : Nat := p + (i * T.m * pitch + j * T.m) * (T.w / 8)

/-- `for (i = 0; i < R; ++i) for (j = 0; j < C; ++j) { load tile (i, j) of p; transpose; store it as tile (j, i) of q; }` -/
def transposeTo (c : Cfg) (k : Kind) (T : Tile) (p pp q qp R C : Nat) (m : Mem) : Option Mem :=
  loopM (fun i m => loopM (fun j m => do
    let a ← loadTile c k T pp (T.at_ p pp i j) m
    let a ← T.run c k a
    storeTile c k T qp (T.at_ q qp j i) a m) 0 C m) 0 R m

/-- `for (i = 0; i < R; ++i) for (j = 0; j <= i; ++j) { load tiles (i, j) and (j, i); transpose both; store them as tiles (j, i) and (i, j); }` -/
def transposeIn (c : Cfg) (k : Kind) (T : Tile) (p pp R : Nat) (m : Mem) : Option Mem :=
  loopM (fun i m => loopM (fun j m => do
    let a ← loadTile c k T pp (T.at_ p pp i j) m
    let b ← loadTile c k T pp (T.at_ p pp j i) m
    let a ← T.run c k a
    let b ← T.run c k b
    let m ← storeTile c k T pp (T.at_ p pp j i) a m
    storeTile c k T pp (T.at_ p pp i j) b m) 0 (i + 1) m) 0 R m

end Simdpp
