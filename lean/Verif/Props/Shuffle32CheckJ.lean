import Verif.Props.Shuffle32CheckI

/-!
# Exhaustive verification of the selector dispatch: `uint32` wide registers and NEON
-/

namespace Simdpp

open Sh

set_option maxRecDepth 100000

theorem chk_i32_256 : all4 8 (fun s0 s1 s2 s3 =>
    (SseI32.run true true true .r256 s0 s1 s2 s3).chk 4 8 32 (sel4 s0 s1 s2 s3)) = true := by
  decide +kernel

theorem chk_i32_512 : all4 8 (fun s0 s1 s2 s3 =>
    if SseI32.impl true true s0 s1 s2 s3 = 6 then
      (SseI32.run6_512 s0).chk 16 16 32 (wid 4 16 (sel4 s0 s1 s2 s3))
    else (SseI32.run true true true .r512 s0 s1 s2 s3).chk 4 16 32 (sel4 s0 s1 s2 s3)) = true := by
  decide +kernel

theorem chk_n32_4x2 : all4 8 (fun s0 s1 s2 s3 =>
    (Neon32.shuffle4x2 s0 s1 s2 s3).chk 4 4 32 (sel4 s0 s1 s2 s3)) = true := by decide +kernel

theorem chk_n32_perm4 : all4 4 (fun s0 s1 s2 s3 =>
    (Neon32.permute4 s0 s1 s2 s3).chk 4 4 32 (sel4 s0 s1 s2 s3)) = true := by decide +kernel

theorem chk_n16_perm4 : all4 4 (fun s0 s1 s2 s3 =>
    match Neon16.perm4 s0 s1 s2 s3 with
    | some p => p.chk 4 8 16 (sel4 s0 s1 s2 s3)
    | none => true) = true := by decide +kernel

end Simdpp
