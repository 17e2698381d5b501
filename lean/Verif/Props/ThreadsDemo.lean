import Verif.Props.ThreadsFor
import Verif.Props.ThreadsRace

/-!
# C74: instances
-/

namespace Simdpp
open Spec Spec.Prog Spec.Thr Spec.MProg Spec.FProg Sh

theorem mixSample_ok {N : Nat} {c : Cfg} (hN : c.VLen 8 N) (hN' : c.VLen 16 N) (I : (f : FWd) → Impl f.n) {ι : Type} (ρ : ι → Nat → BitVec 8) : mixSample.Ok c N I ρ := by
  refine ⟨⟨hN', fun x => ⟨hN, hN', ?_, fun i => trivial⟩, ⟨⟨⟨trivial, trivial, .inl ⟨rfl, fun _ j => ?_⟩⟩, trivial, trivial⟩, trivial, trivial⟩, by decide⟩, hN, ?_, fun i => trivial⟩
  · show ¬ ConvBroken c 8 16 N
    unfold ConvBroken; simp
  · show (BitVec.toNat _) * (Spec.lane 16 (val false 3#64)).toNat < _
    have e3 : (Spec.lane 16 (val false 3#64)).toNat = 3 := by decide
    rw [e3]
    have := BitVec.isLt (w := 16) (Exp.den (fun x => if h : x < 2 then MExp.den I (ρ j) (.conv (.int false .b16) (.var (Γ := fun _ => .int false .b8) x)) else 0)
      (.var 0 : Exp (fun _ => false) (.vec false)))
    exact Nat.lt_trans (Nat.mul_lt_mul_of_pos_right this (by decide)) (by decide)
  · show ¬ ConvBroken c 16 8 N
    unfold ConvBroken; simp

/-- Two threads on SSE2: 50 `uint8` numbers at address 64, 50 `float`s at address 256, the second thread from element 32 on (a full vector and a partial one). -/
example (m : Mem) (hm : ∀ a, m.ok a = true) (E : Est) (J : Junk Cfg.sse2Only 16) (k : BitVec 32) (S : Fin 2 → Act Unit) (m' : Shared) (l : Nat)
    (ex : Exec (fun i : Fin 2 => (chunk Cfg.sse2Only Cfg.sse2Only_ok false 16 E J (normSample k) 1 (fun _ => 64) 256 50 32 i.val).act) m.shared S m' l) :
    (∀ i, ¬ Stuck (S i) m') ∧ (Finished S →
      (∀ j, j < 50 → ∃ y, Fp.SameUpToZero y (Fp.mul (Fp.ofInt 32 ((m.byte (64 + j)).toNat : Int)) k) ∧ Holds m'.byte (256 + j * 4) y) ∧
      ∀ a, a < 256 ∨ 456 ≤ a → m'.byte a = m.byte a) := by
  obtain ⟨I, hI, run⟩ := C74_parallel_for Cfg.sse2Only_ok 16 E
  obtain ⟨g1, g2⟩ := run _ _ (normSample k) false J 1 (fun _ => 64) 256 50 32 2 m (fun x j => if x < 1 then m.byte (64 + j) else 0) 64 (by decide) (by decide) (by decide)
    (fun x _ => Or.inl ⟨.r128, by decide +kernel, by decide +kernel⟩)
    (fun x hx j _ i hi => by
      have : i = 0 := by
        have : i < 1 := hi
        omega
      subst this
      have : x = 0 := by omega
      subst this
      show m.byte (64 + j * 1 + 0) = byteOf (m.byte (64 + j)) 0
      rw [Nat.mul_one, Nat.add_zero]
      exact (BitVec.eq_of_getLsbD_eq fun b hb => by unfold byteOf; simp [hb]).symm) (fun x hx j => if_neg (by omega))
    (fun x hx => by decide +kernel) (by decide +kernel) (fun _ _ _ _ _ => hm _) (fun _ _ _ => hm _)
    (fun x _ => Or.inr (.inl (by decide))) (normSample_ok k Cfg.sse2Only_ok (Or.inl ⟨.r128, by decide +kernel, by decide +kernel⟩) _ _) S m' l ex
  exact ⟨g1, fun hf => ⟨fun j hj => ⟨_, (hI .f32).1.mul _ _, (g2 hf).1 j hj⟩, (g2 hf).2⟩⟩

/-- In place: three threads read and write the same array, each its own part. -/
example (m : Mem) (hm : ∀ a, m.ok a = true) (E : Est) (J : Junk Cfg.sse2Only 16) (S : Fin 3 → Act Unit) (m' : Shared) (l : Nat)
    (ex : Exec (fun i : Fin 3 => (chunk Cfg.sse2Only Cfg.sse2Only_ok false 16 E J mixSample 2 (fun x => if x = 0 then 64 else 256) 64 40 16 i.val).act) m.shared S m' l) :
    ∀ i, ¬ Stuck (S i) m' := by
  obtain ⟨I, hI, run⟩ := C74_parallel_for Cfg.sse2Only_ok 16 E
  refine (run _ _ mixSample false J 2 (fun x => if x = 0 then 64 else 256) 64 40 16 3 m (fun x j => if x < 2 then m.byte ((if x = 0 then 64 else 256) + j) else 0) 48 (by decide) (by decide)
    (by decide) (fun x _ => Or.inl ⟨.r128, by decide +kernel, by decide +kernel⟩) (fun x hx j _ i hi => ?_) (fun x hx j => if_neg (by omega)) (fun x hx => ?_) (by decide +kernel)
    (fun _ _ _ _ _ => hm _) (fun _ _ _ => hm _) (fun x hx => ?_) ?_ S m' l ex).1
  · have : i = 0 := by
      have : i < 1 := hi
      omega
    subst this
    show m.byte ((if x = 0 then 64 else 256) + j * 1 + 0) = byteOf (if x < 2 then m.byte ((if x = 0 then 64 else 256) + j) else 0) 0
    rw [if_pos hx, Nat.mul_one, Nat.add_zero]
    exact (BitVec.eq_of_getLsbD_eq fun b hb => by unfold byteOf; simp [hb]).symm
  · show (if x = 0 then 64 else 256) % 16 = 0
    split_ifs <;> rfl
  · by_cases g : x = 0
    · subst g; exact .inl ⟨rfl, rfl⟩
    · exact .inr (.inr (by show 64 + 48 * (8 / 8) ≤ (if x = 0 then 64 else 256); rw [if_neg g]; decide))
  · exact mixSample_ok (Or.inl ⟨.r128, by decide +kernel, by decide +kernel⟩) (Or.inr ⟨2, by decide, by decide +kernel⟩) _ _

/-- The number of accesses of the same threads is bounded, and the same in every execution. -/
example (m : Mem) (E : Est) (J : Junk Cfg.sse2Only 16) (k : BitVec 32) :
    ∃ K, ∀ (S : Fin 2 → Act Unit) (m' : Shared) (l : Nat),
      Exec (fun i : Fin 2 => (chunk Cfg.sse2Only Cfg.sse2Only_ok false 16 E J (normSample k) 1 (fun _ => 64) 256 50 32 i.val).act) m.shared S m' l → l ≤ K ∧ (Finished S → l = K) := by
  refine C74_loops_end _ m (fun i => Or.inr ⟨4, by decide, by show 16 = 4 * Cfg.sse2Only.fastF.lanes 32; decide +kernel⟩) fun i i' hi y ho => ?_
  have hv : i.val ≠ i'.val := fun g => hi (Fin.ext g)
  have b1 : ∀ i : Fin 2, (chunk Cfg.sse2Only Cfg.sse2Only_ok false 16 E J (normSample k) 1 (fun _ => 64) 256 50 32 i.val).out y → 256 + i.val * 128 ≤ y ∧ y < 256 + i.val * 128 + 128 := by
    intro i hy
    replace hy := hy.1
    have hi := i.isLt
    change 256 + i.val * 32 * (32 / 8) ≤ y ∧ y < 256 + i.val * 32 * (32 / 8) + (min 32 (50 - i.val * 32) + (16 - 1)) / 16 * 16 * (32 / 8) at hy
    omega
  have b3 : (chunk Cfg.sse2Only Cfg.sse2Only_ok false 16 E J (normSample k) 1 (fun _ => 64) 256 50 32 i'.val).inp y → y < 128 := by
    rintro ⟨x, -, hy⟩
    have hi := i'.isLt
    change 64 + i'.val * 32 * (8 / 8) ≤ y ∧ y < 64 + i'.val * 32 * (8 / 8) + (min 32 (50 - i'.val * 32) + (16 - 1)) / 16 * 16 * (8 / 8) at hy
    omega
  obtain ⟨h1, h2⟩ := b1 i ho
  refine ⟨fun g => ?_, fun g => ?_⟩
  · have := b3 g; omega
  · have := b1 i' g; omega

/-- SSE2: `store_first(p, a, 3)` at 32 and a write of another thread to byte 40 which is lost. -/
example (a : Vec 8 16) (b : BitVec 8) : ∃ S m' k, Exec (twoThreads (Act.store_first Cfg.sse2Only false .int false 32 a 3) (.wr1 (32 + 8) b (.ret ()))) Mem.demo.shared S m' k ∧ Finished S ∧
    m'.byte (32 + 8) = Mem.demo.byte (32 + 8) :=
  C74_store_first_race Cfg.sse2Only_ok rfl rfl false Mem.demo (by decide) (demo_block (by decide) (by decide)) a (by decide) (by decide) b

/-- AVX: the same with five of eight `float`s at 32; the other thread's byte, in the same register, is never lost. -/
example (a : Vec 32 8) (b : BitVec 8) (S : Bool → Act Unit) (m' : Shared) (l : Nat)
    (ex : Exec (twoThreads (Act.store_first Cfg.avxOnly false .flt false 32 a 5) (.wr1 (32 + 20) b (.ret ()))) Mem.demo.shared S m' l) : Finished S → m'.byte (32 + 20) = b :=
  fun hf => ((C74_store_first_beside Cfg.avxOnly_ok (k := .flt) (Or.inl rfl) (Or.inl ⟨.r256, rfl, rfl⟩) (show Cfg.avxOnly.firstExact .flt 32 .r256 from Or.inl rfl) false Mem.demo (by decide)
    (demo_block (by decide) (by decide)) a (by decide) (.inr (by decide)) rfl b ex).2 hf).1

/-- AltiVec: `store_u` at 36 and a write of another thread to byte 33 which is lost. -/
example (a : Vec 8 16) (b : BitVec 8) : ∃ S m' k, Exec (twoThreads (Act.storeU8 Cfg.altivecOnly 36 a) (.wr1 33 b (.ret ()))) Mem.demo.shared S m' k ∧ Finished S ∧
    m'.byte 33 = Mem.demo.byte 33 :=
  C74_store_u_race rfl rfl Mem.demo (by decide) (by decide) (demo_block (by decide) (by decide)) a b

end Simdpp
