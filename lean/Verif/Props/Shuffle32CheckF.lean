import Verif.Props.Shuffle32Lemmas

/-!
# Exhaustive verification of the selector dispatch: `float32`
-/

namespace Simdpp

open Sh

set_option maxRecDepth 100000

theorem chk_f32_sse2 : all4 8 (fun s0 s1 s2 s3 =>
    (SseF32.run false .r128 s0 s1 s2 s3).chk 4 4 32 (sel4 s0 s1 s2 s3)) = true := by decide +kernel

theorem chk_f32_128 : all4 8 (fun s0 s1 s2 s3 =>
    (SseF32.run true .r128 s0 s1 s2 s3).chk 4 4 32 (sel4 s0 s1 s2 s3)) = true := by decide +kernel

theorem chk_f32_256 : all4 8 (fun s0 s1 s2 s3 =>
    (SseF32.run true .r256 s0 s1 s2 s3).chk 4 8 32 (sel4 s0 s1 s2 s3)) = true := by decide +kernel

theorem chk_f32_512 : all4 8 (fun s0 s1 s2 s3 =>
    (SseF32.run true .r512 s0 s1 s2 s3).chk 4 16 32 (sel4 s0 s1 s2 s3)) = true := by decide +kernel

end Simdpp
