import Verif.Props.Compare
import Verif.Props.MinMaxLemmas

/-!
# C13: what the wrong 64-bit `cmp_neq` computes
-/

namespace Simdpp
open Spec

variable {n : Nat}

/-- C13: on an SSE2 build without SSE4.1 (and XOP), `cmp_neq` on 64-bit lanes answers "different" exactly where the low halves agree or
the high halves agree, and "equal" elsewhere. -/
theorem C13_neq_sse2_exact {c : Cfg} (h : c.Ok) (hs : c.sse2 = true) (h41 : ¬ c.sse41 = true) (hx : ¬ c.xop = true)
    (hn : n % 2 = 0) (a b : Vec 64 n) :
    ∃ m, i_cmp_neq c .r128 a b = some m ∧ ∀ i,
      m.unmask i = if (a i).setWidth 32 = (b i).setWidth 32 ∨ (a i).extractLsb' 32 32 = (b i).extractLsb' 32 32 then BitVec.allOnes 64 else 0 := by
  refine ⟨_, i_cmp_neq_sse2_eq h hs h41 hx hn a b, fun i => ?_⟩
  rw [Mask.unmask_of]
  simp only [(Vec.recast32_halves _ i).1, (Vec.recast32_halves _ i).2]
  split_ifs with g
  · rw [decide_eq_true g]; rfl
  · rw [decide_eq_false g]; rfl

/-- C13: so the answer is right exactly where one half differs and the other does not; two lanes that differ in both halves compare
equal. -/
theorem C13_neq_sse2_right_iff {c : Cfg} (h : c.Ok) (hs : c.sse2 = true) (h41 : ¬ c.sse41 = true) (hx : ¬ c.xop = true)
    (hn : n % 2 = 0) (a b : Vec 64 n) :
    ∃ m, i_cmp_neq c .r128 a b = some m ∧ ∀ i,
      (m.unmask i = if a i = b i then 0 else BitVec.allOnes 64) ↔
        ((a i).setWidth 32 = (b i).setWidth 32 ↔ (a i).extractLsb' 32 32 ≠ (b i).extractLsb' 32 32) := by
  obtain ⟨m, e, p⟩ := C13_neq_sse2_exact h hs h41 hx hn a b
  refine ⟨m, e, fun i => ?_⟩
  rw [p i]
  have he : a i = b i ↔ ((a i).setWidth 32 = (b i).setWidth 32 ∧ (a i).extractLsb' 32 32 = (b i).extractLsb' 32 32) := by
    refine ⟨fun g => by rw [g]; exact ⟨rfl, rfl⟩, fun g => ?_⟩
    have s : ∀ x : BitVec 64, x = (x.extractLsb' 32 32 ++ x.setWidth 32 : BitVec (32 + 32)) := fun x => by
      apply BitVec.eq_of_getLsbD_eq
      intro k hk
      rw [BitVec.getLsbD_append, BitVec.getLsbD_extractLsb', BitVec.getLsbD_setWidth]
      by_cases hk2 : k < 32
      · simp [hk2]
      · have : 32 + (k - 32) = k := by omega
        have h3 : k - 32 < 32 := by omega
        simp [hk2, this, h3]
    rw [s (a i), s (b i), g.1, g.2]
  have ne : (BitVec.allOnes 64 : BitVec 64) ≠ 0 := by decide
  have ne' : (0 : BitVec 64) ≠ BitVec.allOnes 64 := by decide
  rw [if_congr he rfl rfl]
  by_cases g1 : (a i).setWidth 32 = (b i).setWidth 32 <;> by_cases g2 : (a i).extractLsb' 32 32 = (b i).extractLsb' 32 32 <;>
    simp [g1, g2]

-- 1 and 2 ^ 32 differ, and compare equal; 1 and 2 differ and compare different
example : ∃ m, i_cmp_neq Cfg.sse2Only .r128 (fun _ : Fin 2 => 1#64) (fun i => [0x100000000#64, 2#64].getD i.val 0) = some m ∧
    m.unmask 0 = 0 ∧ m.unmask 1 = BitVec.allOnes 64 := by
  obtain ⟨m, e, p⟩ := C13_neq_sse2_exact (n := 2) Cfg.sse2Only_ok rfl (by decide) (by decide) rfl
    (fun _ : Fin 2 => 1#64) (fun i => [0x100000000#64, 2#64].getD i.val 0)
  exact ⟨m, e, (p 0).trans (by decide), (p 1).trans (by decide)⟩

end Simdpp
