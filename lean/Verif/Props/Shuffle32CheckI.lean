import Verif.Props.Shuffle32Lemmas

/-!
# Exhaustive verification of the selector dispatch: `uint32`, SSE to AVX2 on 128 bits
-/

namespace Simdpp

open Sh

set_option maxRecDepth 100000

theorem chk_i32_sse2 : all4 8 (fun s0 s1 s2 s3 =>
    (SseI32.run false false false .r128 s0 s1 s2 s3).chk 4 4 32 (sel4 s0 s1 s2 s3)) = true := by
  decide +kernel

theorem chk_i32_ssse3 : all4 8 (fun s0 s1 s2 s3 =>
    (SseI32.run true false false .r128 s0 s1 s2 s3).chk 4 4 32 (sel4 s0 s1 s2 s3)) = true := by
  decide +kernel

theorem chk_i32_sse41 : all4 8 (fun s0 s1 s2 s3 =>
    (SseI32.run true true false .r128 s0 s1 s2 s3).chk 4 4 32 (sel4 s0 s1 s2 s3)) = true := by
  decide +kernel

theorem chk_i32_avx2 : all4 8 (fun s0 s1 s2 s3 =>
    (SseI32.run true true true .r128 s0 s1 s2 s3).chk 4 4 32 (sel4 s0 s1 s2 s3)) = true := by
  decide +kernel

end Simdpp
