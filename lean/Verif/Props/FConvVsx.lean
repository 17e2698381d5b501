import Verif.Model.FConvVsx
import Verif.Props.ShufMask
import Verif.Props.Samples
import Verif.Props.PopcntPub

/-!
# C46: `double` to `float` on little-endian VSX
-/

namespace Simdpp
open Spec Sh

attribute [local irreducible] Fp.conv

/-- C46, finding: on little-endian VSX every lane of the result is a word which the instruction leaves undefined; the converted numbers are in the
other words and are dropped. -/
theorem C46_double_to_float_vsx {c : Cfg} (h : c.Ok) (hv : c.vsx206 = true) (u : Vec 64 2 → Vec 32 4) (a : Vec 64 4) :
    f64f32Vsx c u a = some (fun i => (u (Hw.part 2 (i.val / 2) a)).at_ (2 * (i.val % 2))) := by
  obtain ⟨M, hM⟩ : ∃ M, makeShuffleMask 4 4 (fun p => 2 * p) = some M := C21_accepts (by decide) (fun p hp => by constructor <;> omega)
  obtain ⟨res, e, p⟩ := C21_shuffle_bytes16 (K := 1) (w := 32) (q := 4) (u := 4) h (.inr (.inr (.inl rfl))) rfl (r := .r128) rfl
    (s := fun p => 2 * p) hM (fun g => by cfg_absurd h) (fun p _ => by positivity)
    (fun _ => Hw.xvcvdpspLE u (Hw.part 2 0 a)) (fun _ => Hw.xvcvdpspLE u (Hw.part 2 1 a)) (fun _ => Vec.splat 0)
  unfold f64f32Vsx
  refine (bind_of hM _).trans ((bind_of e _).trans (congrArg some (funext fun i => ?_)))
  have := p 0 0 i.val i.isLt (by decide) (by decide)
  have e1 : Vec.at_ (Arr.flat res : Vec 32 (1 * 4)) i.val = res 0 i := by
    have := flat_at' res 0 (j := i.val) i.isLt
    rw [show (0 : Fin 1).val * Reg.r128.lanes 32 + i.val = i.val by simp] at this
    exact this.trans (Vec.at_fin _ _)
  have e2 : ∀ (x : Fin 1 → Vec 32 (Reg.r128.lanes 32)) j, j < 4 → Vec.at_ (Arr.flat x : Vec 32 (1 * Reg.r128.lanes 32)) j = (x 0).at_ j := fun x j hj => by
    have := flat_at' x 0 (j := j) hj
    rwa [show (0 : Fin 1).val * Reg.r128.lanes 32 + j = j by simp] at this
  have hi : i.val < 4 := i.isLt
  dsimp only at this
  rw [show 0 * (128 / 32) + (0 * 4 + i.val) = i.val by omega] at this
  refine e1.symm.trans (this.trans ?_)
  rw [if_neg (by omega)]
  have ev : ∀ x : Vec 64 2, ∀ j, j < 2 → (Hw.xvcvdpspLE u x).at_ (2 * j) = (u x).at_ (2 * j) := fun x j hj => by
    rw [Vec.at_lt _ (show 2 * j < 4 by omega), Vec.at_lt _ (show 2 * j < 4 by omega)]
    unfold Hw.xvcvdpspLE
    rw [if_neg (by show ¬ 2 * j % 2 = 1; omega)]
  by_cases g : i.val < 2
  · rw [if_pos (by omega), show 0 * (128 / 32) + (0 * 4 + (2 * (i.val : Int)).toNat) = 2 * i.val by omega]
    refine (e2 _ _ (by omega)).trans ((ev _ _ g).trans ?_)
    rw [show i.val / 2 = 0 by omega, show i.val % 2 = i.val by omega]
  · rw [if_neg (by omega), show 0 * (128 / 32) + (0 * 4 + ((2 * (i.val : Int)).toNat - 4)) = 2 * (i.val - 2) by omega]
    refine (e2 _ _ (by omega)).trans ((ev _ _ (by omega)).trans ?_)
    rw [show i.val / 2 = 1 by omega, show i.val % 2 = i.val - 2 by omega]

/-- C46: so it is right for all numbers exactly if the processor also writes the results to the words the architecture leaves undefined. -/
theorem C46_double_to_float_vsx_iff {c : Cfg} (h : c.Ok) (hv : c.vsx206 = true) (u : Vec 64 2 → Vec 32 4) :
    (∀ a, f64f32Vsx c u a = some (fun i => Fp.conv 32 (a i))) ↔ ∀ x, u x 0 = Fp.conv 32 (x 0) ∧ u x 2 = Fp.conv 32 (x 1) := by
  have ep : ∀ (q : Nat) (a : Vec 64 4) (j : Fin 2), q < 2 → Hw.part 2 q a j = a.at_ (q * 2 + j.val) := fun _ _ _ _ => rfl
  constructor
  · intro H x
    have := H (fun i => x ⟨i.val % 2, Nat.mod_lt _ (by decide)⟩)
    rw [C46_double_to_float_vsx h hv] at this
    have := Option.some.inj this
    have ex : Hw.part 2 0 (fun i : Fin 4 => x ⟨i.val % 2, Nat.mod_lt _ (by decide)⟩) = x := by
      funext j
      rw [ep 0 _ j (by decide), Vec.at_lt _ (show 0 * 2 + j.val < 4 by have := j.isLt; omega)]
      exact congrArg x (Fin.ext (by show (0 * 2 + j.val) % 2 = j.val; have := j.isLt; omega))
    have h0 := congrFun this 0
    have h1 := congrFun this 1
    rw [show ((0 : Fin 4).val / 2) = 0 from rfl, ex] at h0
    rw [show ((1 : Fin 4).val / 2) = 0 from rfl, ex] at h1
    exact ⟨h0, h1⟩
  · intro H a
    rw [C46_double_to_float_vsx h hv]
    refine congrArg some (funext fun i => ?_)
    have hi := i.isLt
    have : i.val % 2 = 0 ∨ i.val % 2 = 1 := by omega
    rcases this with g | g <;> rw [g]
    · refine (H _).1.trans (congrArg (Fp.conv 32) ?_)
      rw [ep _ a 0 (by omega), Vec.at_lt _ (show i.val / 2 * 2 + (0 : Fin 2).val < 4 by show i.val / 2 * 2 + 0 < 4; omega)]
      exact congrArg a (Fin.ext (by show i.val / 2 * 2 + 0 = i.val; omega))
    · refine (H _).2.trans (congrArg (Fp.conv 32) ?_)
      rw [ep _ a 1 (by omega), Vec.at_lt _ (show i.val / 2 * 2 + (1 : Fin 2).val < 4 by show i.val / 2 * 2 + 1 < 4; omega)]
      exact congrArg a (Fin.ext (by show i.val / 2 * 2 + 1 = i.val; omega))

/-- A processor which leaves zeros there gives 0 for 1.0. -/
example (a : Vec 64 4) : f64f32Vsx Cfg.vsx207Only (fun _ => Vec.splat 0) a = some (Vec.splat 0) := by
  rw [C46_double_to_float_vsx Cfg.vsx207Only_ok rfl]
  exact congrArg some (funext fun i => Vec.at_lt _ (by have := i.isLt; omega))

end Simdpp
