import Verif.Spec.Threads
import Verif.Model.MProg

/-!
# The accesses of loads and stores

`load`, `store`, `store_u`, `store_first` and the array loop as sequences of accesses to single bytes (Spec/Threads.lean). The functions of Model/Mem.lean give only the effect on memory when nobody else
accesses it; here the reads and writes of the read-modify-write sequences (`b = load(p); b = blend(a, b, mask); store(p, b)`) are separate, so other threads can come between them.
Props/Threads.lean proves that without other threads they have the effect of Model/Mem.lean.
-/

namespace Simdpp
open Spec Spec.Thr Spec.MProg Sh

variable {w n N L : Nat} {α β : Type}

/-- Memory as seen by the threads. -/
def Mem.shared (m : Mem) : Shared := ⟨m.ok, m.byte⟩

namespace Act
open Spec.Thr.Act

/-- Sequence (`;` in C++). -/
def bind : Act α → (α → Act β) → Act β
  | .ret x, g => g x
  | .fail, _ => .fail
  | .rd1 p f, g => .rd1 p fun b => bind (f b) g
  | .wr1 p b k, g => .wr1 p b (bind k g)

instance : Monad Act where
  pure := .ret
  bind := bind

/-- A computation without accesses; `none` is undefined behaviour. -/
def lift : Option α → Act α
  | some x => .ret x
  | none => .fail

/-- All accesses in order, nobody else accessing memory. -/
def run : Act α → Mem → Option (α × Mem)
  | .ret x, m => some (x, m)
  | .fail, _ => none
  | .rd1 p f, m => if m.ok p = true then run (f (m.byte p)) m else none
  | .wr1 p b k, m => if m.ok p = true then run k { m with byte := fun x => if x = p then b else m.byte x } else none

/-- `for (i = lo; i < lo + n; ++i) f(i);` -/
def loop (f : Nat → Act Unit) (lo : Nat) : Nat → Act Unit
  | 0 => .ret ()
  | n + 1 => do loop f lo n; f (lo + n)

/-- Read the `k` bytes from `p` on. -/
def rd (p : Nat) : (k : Nat) → Act (Vec 8 k)
  | 0 => .ret fun _ => 0
  | k + 1 => do
    let v ← rd p k
    .rd1 (p + k) fun b => .ret fun i => if h : i.val < k then v ⟨i.val, h⟩ else b

/-- Write the `k` bytes `v` from `p` on. -/
def wr (p : Nat) (v : Nat → BitVec 8) : Nat → Act Unit
  | 0 => .ret ()
  | k + 1 => do wr p v k; .wr1 (p + k) (v k) (.ret ())

/-- An access that needs `p` to be a multiple of `k`. -/
def al (k p : Nat) (x : Act α) : Act α := if p % k = 0 then x else .fail

/-- Load `n` lanes. -/
def ldv (w n p : Nat) : Act (Vec w n) := do
  let v ← rd p (n * (w / 8))
  .ret (v.recast w n)

/-- Store `n` lanes. -/
def stv (p : Nat) (a : Vec w n) : Act Unit := wr p (fun i => (a.recast 8 (n * (w / 8))).at_ i) (n * (w / 8))

/-- Store the selected lanes only (`_mm_maskstore_*`, `_mm*_mask_store_*`). -/
def stm (p : Nat) (a : Vec w n) (sel : Nat → Bool) : Act Unit :=
  loop (fun i => if sel i then stv (p + i * (w / 8)) (fun _ : Fin 1 => a.at_ i) else .ret ()) 0 n

/-- The element loop. Models /repo/simdpp/detail/null/memory.h:91-99. -/
def nullFirst (p : Nat) (a : Vec w N) (n : Nat) : Act Unit :=
  loop (fun i => al (w / 8) p (stv (p + i * (w / 8)) (fun _ : Fin 1 => a.at_ i))) 0 (if N ≤ n then N else n)

/-- `b = load(p); b = blend(a, b, mask); store(p, b);`: first the whole register is read, then the whole register is written.
Models /repo/simdpp/detail/insn/store_first.h:39-62, 77-80, 102-105, 238-242. -/
def blendStore (c : Cfg) (k : Kind) (r : Reg) (p : Nat) (a mask : Vec w n) : Act Unit := do
  let b ← ldv w n p
  let b ← lift (i_blend c k r a b mask)
  stv p b

/-- The same with the operands of `blend` exchanged. Models /repo/simdpp/detail/insn/store_first.h:45-52. -/
def blendStore' (c : Cfg) (k : Kind) (r : Reg) (p : Nat) (a mask : Vec w n) : Act Unit := do
  let b ← ldv w n p
  let b ← lift (i_blend c k r b a mask)
  stv p b

/-- Bytes. `be`: big-endian AltiVec. Models /repo/simdpp/detail/insn/store_first.h:31-106. -/
def first8 (c : Cfg) (be : Bool) (r : Reg) (p : Nat) (a : Vec 8 N) (n : Nat) : Act Unit :=
  match r with
  | .r128 =>
    al 16 p <|
      if c.null then nullFirst p a n
      else if c.altivec then
        if be then do
          let mask ← lift (i_cmp_lt c false .r128 (Hw.lvsr n : Vec 8 N) (Vec.splat 0x10))
          blendStore c .int .r128 p a mask.unmask
        else blendStore' c .int .r128 p a (Hw.slo (Vec.splat (BitVec.allOnes 8)) (BitVec.ofNat 8 (n * 8)))
      else if c.sse2 ∨ c.neon ∨ c.msa then do
        let mask ← lift (Hw.tab 32 (onesZeros 8 16) (16 - n))
        blendStore c .int .r128 p a mask
      else .fail
  | .r256 => if c.avx2 then do
      let mask ← lift (Hw.tab 64 (onesZeros 8 32) (32 - n))
      blendStore c .int .r256 p a mask
    else .fail
  | .r512 => if c.avx512bw then do
      let mask ← lift (Hw.tab 128 (onesZeros 8 64) (64 - n))
      blendStore c .int .r512 p a mask
    else .fail

/-- `_mm256_maskstore_epi32(p, load_u(mask_d + h - n), a)` and similar (the table is constant and not shared memory).
Models /repo/simdpp/detail/insn/store_first.h:139-147, 186-198, 233-236, 256-261, 299-305. -/
def maskFirst (h p : Nat) (a : Vec w N) (n : Nat) : Act Unit := do
  let mask : Vec w N ← lift (Hw.tab (2 * h) (onesZeros w h) (h - n))
  stm p a (signs mask)

/-- `_mm512_mask_store_epi32(p, 0xffff >> (16-n), a)`. Models /repo/simdpp/detail/insn/store_first.h:150-156, 201-207, 270-276, 315-321. -/
def mask512First (h p : Nat) (a : Vec w N) (n : Nat) : Act Unit :=
  if n ≤ h then stm p a (fun i => ((2 ^ h - 1) / 2 ^ (h - n)).testBit i) else .fail

/-- Store lane `i`. -/
def lane (p : Nat) (a : Vec w n) (i : Nat) : Act Unit := stv (p + i * (w / 8)) (fun _ : Fin 1 => a.at_ i)

/-- Models /repo/simdpp/detail/insn/store_first.h:108-212. -/
def firstInt (c : Cfg) (be : Bool) (r : Reg) (p : Nat) (a : Vec w N) (n : Nat) : Act Unit :=
  let via8 := first8 c be r p (a.recast 8 (N * (w / 8))) (n * (w / 8))
  match r with
  | .r128 =>
    if w = 8 then via8
    else al 16 p <|
      if w = 16 ∨ w = 32 then
        if c.null then nullFirst p a n
        else if c.sse2 ∨ c.neon ∨ c.altivec ∨ c.msa then via8
        else .fail
      else
        if c.sse2 then if n = 1 then lane p a 0 else .ret ()
        else if c.neon then if n = 1 then lane p a 0 else .ret ()
        else if c.vsx207 then if n = 1 then lane p a 0 else .ret ()
        else if c.msa then via8
        else if c.null ∨ c.altivec then nullFirst p a n
        else .fail
  | .r256 =>
    if w = 8 ∨ w = 16 then via8
    else if c.avx2 then maskFirst (256 / w) p a n else .fail
  | .r512 =>
    if w = 8 ∨ w = 16 then via8
    else if c.avx512f then mask512First (512 / w) p a n else .fail

/-- Models /repo/simdpp/detail/insn/store_first.h:216-321. -/
def firstFlt (c : Cfg) (be : Bool) (r : Reg) (p : Nat) (a : Vec w N) (n : Nat) : Act Unit :=
  match r with
  | .r128 =>
    al 16 p <|
      if w = 32 then
        if c.null ∨ c.altivec ∨ c.neonNoFltSp ∨ c.msa then firstInt c be .r128 p a n
        else if c.avx then maskFirst 4 p a n
        else if c.sse2 then do
          let mask ← lift (Hw.tab 8 (onesZeros w 4) (4 - n))
          blendStore c .flt .r128 p a mask
        else if c.neon then
          if n < 1 then .ret () else do
          lane p a 0
          if n < 2 then .ret () else do
          lane p a 1
          if n < 3 then .ret () else lane p a 2
        else .fail
      else
        if c.sse2 then if n = 1 then lane p a 0 else .ret ()
        else if c.neon64 then if n = 1 then lane p a 0 else .ret ()
        else if c.vsx206 then if n = 1 then lane p a 0 else .ret ()
        else if c.msa then firstInt c be .r128 p a n
        else if c.null ∨ c.neon32 ∨ c.altivec then nullFirst p a n
        else .fail
  | .r256 => if c.avx then maskFirst (256 / w) p a n else .fail
  | .r512 => if c.avx512f then mask512First (512 / w) p a n else .fail

/-- One register. -/
def first (c : Cfg) (be : Bool) (k : Kind) (r : Reg) (p : Nat) (a : Vec w N) (n : Nat) : Act Unit :=
  match k with
  | .int => firstInt c be r p a n
  | .flt => firstFlt c be r p a n

/-- `load`: every byte of the vector is read. Models /repo/simdpp/detail/insn/load.h:27-184 (one instruction for each register, or the element loop). -/
def load (w N p : Nat) : Act (Vec w N) := ldv w N p

/-- `store`: every byte of the vector is written. Models /repo/simdpp/detail/insn/store.h:24-228 (one instruction for each register, or the element loop). -/
def store (p : Nat) (a : Vec w N) : Act Unit := stv p a

/-- 16 bytes to any address; AltiVec without VSX reads both 16-byte blocks which the bytes overlap, merges, and writes both blocks.
Models /repo/simdpp/detail/insn/store_u.h:27-63. -/
def storeU8 (c : Cfg) (p : Nat) (a : Vec 8 n) : Act Unit :=
  if c.altivec ∧ ¬ c.vsx206 then do
    let msq ← ldv 8 n (p / 16 * 16)
    let lsq ← ldv 8 n ((p + 15) / 16 * 16)
    let edges : Vec 8 n := Hw.vperm lsq msq (Hw.lvsl p)
    stv ((p + 15) / 16 * 16) (Hw.vperm a edges (Hw.lvsr p) : Vec 8 n)
    stv (p / 16 * 16) (Hw.vperm edges a (Hw.lvsr p) : Vec 8 n)
  else stv p a

/-- Full registers, then a part of one. Models /repo/simdpp/detail/insn/store_first.h:321-341. -/
def firstArr (c : Cfg) (be : Bool) (k : Kind) (r : Reg) (p : Nat) (a : Vec w N) (n : Nat) : Act Unit := do
  loop (fun i => store (p + i * r.bytes) (Hw.part (r.lanes w) i a)) 0 (n / r.lanes w)
  if 0 < n % r.lanes w then first c be k r (p + n / r.lanes w * r.bytes) (Hw.part (r.lanes w) (n / r.lanes w) a) (n % r.lanes w) else .ret ()

/-- `store_first`. Models /repo/simdpp/core/store_first.h:43-49. -/
def store_first (c : Cfg) (be : Bool) (k : Kind) (sg : Bool) (p : Nat) (a : Vec w N) (n : Nat) : Act Unit :=
  let r := c.regK k w N
  if N = r.lanes w ∧ ¬ (k = .int ∧ sg) then first c be k r p a n
  else firstArr c be k r p a n

/-- One vector of each of the first `V` inputs. -/
def loads {Γ : Nat → ETy} (N : Nat) (p : Nat → Nat) (i : Nat) : (V : Nat) → Act ((x : Nat) → Vec (Γ x).w N)
  | 0 => .ret fun _ _ => 0
  | V + 1 => do
    let a ← loads (Γ := Γ) N p i V
    let b ← load (Γ V).w N (p V + i * (N * ((Γ V).w / 8)))
    .ret fun x => if h : x = V then h ▸ b else a x

/-- Load a vector of every input and evaluate. -/
def kstep {Γ : Nat → ETy} {t : ETy} (c : Cfg) (E : Est) (J : Junk c N) (V : Nat) (e : MExp Γ t) (p : Nat → Nat) (i : Nat) : Act (Vec t.w N) := do
  let v ← loads N p i V
  lift (e.run c E J v)

/-- `for (i = 0; i < cnt / N; ++i) store(q + i * N, f(load(p_0 + i * N), ...)); if (cnt % N != 0) store_first(q + i * N, ..., cnt % N);` (`mkernel` of Model/MProg.lean), access by access. -/
def kernel {Γ : Nat → ETy} {t : ETy} (c : Cfg) (be : Bool) (E : Est) (J : Junk c N) (V : Nat) (e : MExp Γ t) (p : Nat → Nat) (q cnt : Nat) : Act Unit := do
  loop (fun i => do
    let v ← kstep c E J V e p i
    store (q + i * (N * (t.w / 8))) v) 0 (cnt / N)
  if cnt % N = 0 then .ret ()
  else do
    let v ← kstep c E J V e p (cnt / N)
    store_first c be t.kind t.signed (q + cnt / N * (N * (t.w / 8))) v (cnt % N)

end Act

end Simdpp
