import Verif.Model.Shuffle64
import Verif.Props.Shuffle32CheckF

/-!
# Exhaustive verification of the selector dispatch: 64-bit lanes
-/

namespace Simdpp

open Sh

set_option maxRecDepth 100000

namespace Sse64

/-- The `float64x4` instantiations on AVX without AVX2 that select correctly. -/
def okAvx (s0 s1 s2 s3 : Nat) : Bool :=
  !(implF false false s0 s1 s2 s3 == 7 && (s0 % 2 != s1 % 2 || s2 % 2 != s3 % 2))

theorem chk_f_avx : all4 8 (fun s0 s1 s2 s3 => implF false false s0 s1 s2 s3 == 10 ||
    okAvx s0 s1 s2 s3 == (runF (implF false false s0 s1 s2 s3) .r256 s0 s1 s2 s3).chk 4 4 64 (sel4 s0 s1 s2 s3)) =
    true := by decide +kernel

theorem chk_f_avx2 : all4 8 (fun s0 s1 s2 s3 => implF false true s0 s1 s2 s3 != 8 &&
    implF false true s0 s1 s2 s3 != 10 &&
    (runF (implF false true s0 s1 s2 s3) .r256 s0 s1 s2 s3).chk 4 4 64 (sel4 s0 s1 s2 s3)) = true := by
  decide +kernel

theorem chk_f_512 : ∀ b, all4 8 (fun s0 s1 s2 s3 => implF true b s0 s1 s2 s3 == 8 ||
    (implF true b s0 s1 s2 s3 != 10 &&
    (runF (implF true b s0 s1 s2 s3) .r256 s0 s1 s2 s3).chk 4 4 64 (sel4 s0 s1 s2 s3) &&
    (runF (implF true b s0 s1 s2 s3) .r512 s0 s1 s2 s3).chk 4 8 64 (sel4 s0 s1 s2 s3))) = true := by
  intro b; cases b <;> decide +kernel

theorem chk_i_avx2 : all4 8 (fun s0 s1 s2 s3 => implI false s0 s1 s2 s3 != 8 &&
    (runI (implI false s0 s1 s2 s3) .r256 s0 s1 s2 s3).chk 4 4 64 (sel4 s0 s1 s2 s3)) = true := by
  decide +kernel

theorem chk_i_512 : all4 8 (fun s0 s1 s2 s3 => implI true s0 s1 s2 s3 == 8 ||
    ((runI (implI true s0 s1 s2 s3) .r256 s0 s1 s2 s3).chk 4 4 64 (sel4 s0 s1 s2 s3) &&
    (runI (implI true s0 s1 s2 s3) .r512 s0 s1 s2 s3).chk 4 8 64 (sel4 s0 s1 s2 s3))) = true := by
  decide +kernel

theorem chk_p512 : all4 8 (fun s0 s1 s2 s3 =>
    (permx2_512 fun j => if j < 4 then sel4 (p8 s0) (p8 s1) (p8 s2) (p8 s3) j
      else sel4 (p8 s0) (p8 s1) (p8 s2) (p8 s3) (j - 4) + 4).chk 8 8 64 (wid 4 8 (sel4 s0 s1 s2 s3))) = true := by
  decide +kernel

theorem chk_p256 : all4 8 (fun s0 s1 s2 s3 =>
    (permx2_256 (sel4 s0 s1 s2 s3)).chk 4 4 64 (sel4 s0 s1 s2 s3)) = true := by
  decide +kernel

end Sse64

end Simdpp
