import Verif.Props.Lanes

/-!
# C23: splat
-/

namespace Simdpp
open Spec Sh

variable {w n : Nat}

/-- Lane `s` of every block of `L` lanes copied over that block. -/
def bc (L s : Nat) (a : Vec w n) : Vec w n := fun i => a.at_ (i.val / L * L + s)

theorem bc_at {L s : Nat} (a : Vec w n) {t : Nat} (ht : t < n) : (bc L s a).at_ t = a.at_ (t / L * L + s) := by
  rw [Vec.at_lt _ ht]; rfl

theorem gather_bc {L s : Nat} (hL : 0 < L) (hs : s < L) {f : Nat → Nat} (hf : ∀ j, j < L → f j = s) (a b : Vec w n) :
    gather L f a b = bc L s a := by
  refine ext_at fun t ht => ?_
  rw [gather_at _ _ ht, bc_at _ ht, hf _ (Nat.mod_lt _ hL), if_pos hs]

theorem splat_bc {L s : Nat} (hn : n = L) (a : Vec w n) : Vec.splat (a.at_ s) = bc L s a := by
  refine ext_at fun t ht => ?_
  rw [bc_at _ ht, Nat.div_eq_of_lt (by omega), Nat.zero_mul, Nat.zero_add, Vec.at_lt _ ht]
  rfl

theorem dupLane_eq {L s : Nat} (hn : n = L) (hs : s < L) (a : Vec w n) : Hw.dupLane a s = some (bc L s a) := by
  unfold Hw.dupLane
  rw [if_pos (by omega), splat_bc hn]

theorem nullSplat_eq {L s : Nat} (hn : n = L) (hs : s < L) (a : Vec w n) : Null.splat s a = some (bc L s a) := by
  rw [Null.splat_eq (by omega)]
  exact congrArg some (splat_bc hn a)

theorem neonSplat_eq {L s : Nat} (hn : n = L) (h2 : 2 ∣ L) (hs : s < L) (a : Vec w n) :
    neonSplat s a = some (bc L s a) := by
  unfold neonSplat Hw.dupHalf Hw.half
  obtain ⟨m, e⟩ := h2
  by_cases g : s < n / 2
  · rw [if_pos g, if_pos g, if_pos g, Hw.part_at _ g, ← splat_bc hn]
    simp
  · have g2 : s - n / 2 < n / 2 := by omega
    rw [if_neg g, if_neg g, if_pos g2, Hw.part_at _ g2, ← splat_bc hn]
    rw [if_pos rfl, Nat.one_mul, show n / 2 + (s - n / 2) = s by omega]

section
variable {c : Cfg} (h : c.Ok) {r : Reg} {k : Kind}
include h

theorem moveL1_bcast {L s : Nat} (hw : k.okW w) (hL : L = 128 / w) (hn : n = L) (hs : s < L) (a : Vec w n) :
    (moveL1 c k s a).map Hw.broadcast = some (bc L s a) := by
  obtain ⟨b, e, p⟩ := moveL1_eq h hw (hL ▸ hs) (hn.trans hL) a
  rw [e, ← splat_bc hn]
  have := p 0 (by omega)
  rw [Nat.zero_add] at this
  exact congrArg some (congrArg Vec.splat this)

theorem maskPermute_bc (hx : c.sse2 = true → c.ssse3 = true) {q u s : Nat} (hw : IsW w) (hq : w = q * 8)
    (hqu : (q, u) ∈ [(1,16),(2,8)]) (hs : s < u) (hn : n = u) (a : Vec w n) :
    maskPermute c q u (fun _ => s) a = some (bc u s a) := by
  have hu : u = 16 / q ∧ 128 / w = u := by
    simp only [List.mem_cons, Prod.mk.injEq, List.not_mem_nil, or_false] at hqu
    rcases hqu with ⟨rfl, rfl⟩ | ⟨rfl, rfl⟩ <;> subst hq <;> decide
  rw [maskPermute_eq h hx hw hq (by revert hqu; simp only [List.mem_cons]; tauto) (fun _ _ => hs) (by rw [hn, ← hu.2]; rfl),
    hu.2]
  exact congrArg some (gather_bc (by omega) hs (fun j hj => maskIdx_nat hu.1 (by omega) hj) a a)

/-- The `pshuflw`/`pshufhw` then 64-bit permute sequence. -/
theorem lohi_eq (hr : c.hasInt 16 r = true) (hn : n = r.lanes 16) {s : Nat} (hs : s < 8) (a : Vec 16 n) :
    (if s < 4 then
      (i_permute2_64 c .int r 0 0 ((Hw.shufflelo_epi16 a (mask4x4 s s s s)).recast 64 (n / 4))).map (fun v => v.recast 16 n)
    else
      (i_permute2_64 c .int r 1 1 ((Hw.shufflehi_epi16 a (mask4x4 (s - 4) (s - 4) (s - 4) (s - 4))).recast 64 (n / 4))).map
        (fun v => v.recast 16 n)) = some (bc 8 s a) := by
  have hn8 : 8 ∣ n := by subst hn; cases r <;> decide
  obtain ⟨m, hm⟩ := hn8
  have hr64 : c.hasVec .int 64 r = true := by
    cases r
    · rfl
    · exact hr
    · exact h.avx512bw hr
  have hn64 : n / 4 = r.lanes 64 := by subst hn; cases r <;> decide
  have key : ∀ (x : Vec 16 n) (e : Nat), e < 2 →
      ((i_permute2_64 c .int r e e (x.recast 64 (n / 4))).map (fun v => v.recast 16 n)) =
        some (fun i => x.at_ (i.val / 8 * 8 + (e * 4 + i.val % 4)) : Vec 16 n) := by
    intro x e he
    rw [i_permute2_64_eq h hr64 hn64 he he]
    refine congrArg some ?_
    show (gather 2 (sel2 e e) (x.recast 64 (n / 4)) (x.recast 64 (n / 4))).recast 16 n = _
    rw [recast_gather (q := 4) (by decide) (by decide) (by decide) (by rfl) (by omega) (by omega),
      Vec.recast_recast x (by decide) (by omega)]
    refine ext_at fun t ht => ?_
    have e1 : ∀ j, sel2 e e j = e := by intro j; unfold sel2; split <;> rfl
    have e2 : ex 4 (sel2 e e) (t % (2 * 4)) = e * 4 + t % 4 := by
      unfold ex; rw [e1]; omega
    rw [gather_at _ _ ht, e2, if_pos (by omega), Vec.at_lt _ ht]
  by_cases g : s < 4
  · rw [if_pos g, key _ 0 (by decide)]
    refine congrArg some (ext_at fun t ht => ?_)
    rw [bc_at _ ht, Vec.at_lt _ ht]
    show (Hw.shufflelo_epi16 a _).at_ (t / 8 * 8 + (0 * 4 + t % 4)) = _
    unfold Hw.shufflelo_epi16
    rw [gather_block _ _ (by omega) (by omega), if_pos (show 0 * 4 + t % 4 < 4 by omega), (imm2_mask4x4 g g g g (by omega)).1]
    have e1 : sel4 s s s s (0 * 4 + t % 4) = s := by unfold sel4; split_ifs <;> rfl
    rw [e1, if_pos hs]
  · have g' : s - 4 < 4 := by omega
    rw [if_neg g, key _ 1 (by decide)]
    refine congrArg some (ext_at fun t ht => ?_)
    rw [bc_at _ ht, Vec.at_lt _ ht]
    show (Hw.shufflehi_epi16 a _).at_ (t / 8 * 8 + (1 * 4 + t % 4)) = _
    unfold Hw.shufflehi_epi16
    rw [gather_block _ _ (by omega) (by omega), if_neg (show ¬ 1 * 4 + t % 4 < 4 by omega),
      (imm2_mask4x4 g' g' g' g' (by omega)).1]
    have e1 : sel4 (s - 4) (s - 4) (s - 4) (s - 4) (1 * 4 + t % 4 - 4) = s - 4 := by unfold sel4; split_ifs <;> rfl
    rw [e1, show 4 + (s - 4) = s by omega, if_pos hs]

theorem i_splat8_eq (hr : c.hasInt 16 r = true) (hn : n = r.lanes 16) {s : Nat} (hs : s < 8) (a : Vec 16 n) :
    i_splat8 c r s a = some (bc 8 s a) := by
  have hl := lohi_eq h hr hn hs a
  unfold i_splat8
  dsimp only
  rw [hl, if_neg (not_not.2 hs)]
  cases r
  · have hn : n = 8 := hn
    dsimp only
    rw [nullSplat_eq hn hs, moveL1_bcast h (k := .int) iw16 rfl hn hs, dupLane_eq hn hs, neonSplat_eq hn (by decide) hs]
    clear hl
    by_cases g1 : c.null = true
    · rw [if_pos g1]
    rw [if_neg g1]
    by_cases g2 : c.avx2 = true
    · rw [if_pos g2]
    rw [if_neg g2]
    by_cases g3 : c.ssse3 = true
    · rw [if_pos g3, maskPermute_bc h (fun _ => g3) iw16 rfl (by decide) hs hn]
    rw [if_neg g3]
    by_cases g4 : c.sse2 = true
    · rw [if_pos g4]
    rw [if_neg g4]
    by_cases g5 : c.neon64 = true
    · rw [if_pos g5]
    rw [if_neg g5]
    by_cases g6 : c.neon = true
    · rw [if_pos g6]
    rw [if_neg g6]
    by_cases g7 : c.altivec = true ∨ c.msa = true
    · rw [if_pos g7]
    clear g5
    cfg_absurd h
  · exact if_pos hr
  · exact if_pos hr

omit h in
/-- Both bytes of a 16-bit lane from one of its bytes. -/
theorem dupByte_at {m s : Nat} (hm : n = m * 2) (a : Vec 8 n) {t : Nat} (ht : t < n) :
    ((dupByte s (a.recast 16 m)).recast 8 n).at_ t = a.at_ (t / 2 * 2 + s % 2) := by
  have hx : (a.recast 16 m).recast 8 n = a := Vec.recast_recast a (by decide) (by omega)
  have ha : a.at_ (t / 2 * 2 + s % 2) = ((a.recast 16 m).at_ (t / 2)).extractLsb' (s % 2 * 8) 8 := by
    conv_lhs => rw [← hx]
    rw [recast_at (q := 2) (by decide) (by decide) (by decide) hm, show (t / 2 * 2 + s % 2) / 2 = t / 2 by omega,
      show (t / 2 * 2 + s % 2) % 2 = s % 2 by omega]
  rw [ha, recast_at (q := 2) (by decide) (by decide) (by decide) hm]
  generalize a.recast 16 m = x
  have ht2 : t / 2 < m := by omega
  unfold dupByte
  apply BitVec.eq_of_getLsbD_eq
  intro k hk
  have e : t % 2 = 0 ∨ t % 2 = 1 := by omega
  have hk8 : 8 + k < 16 := by omega
  have hk8b : ¬ 8 + (8 + k) < 16 := by omega
  have hk16 : 16 ≤ 8 + (8 + k) := by omega
  by_cases g : s % 2 = 1
  · rw [if_pos g, Vec.at_lt _ ht2, Vec.at_lt _ ht2, g]
    simp only [Hw.srl, Hw.sll, Vec.map]
    rcases e with e | e <;> rw [e] <;>
      simp [BitVec.getLsbD_extractLsb', hk, BitVec.getLsbD_or, BitVec.getLsbD_shiftLeft, BitVec.getLsbD_ushiftRight, hk8, hk8b,
        BitVec.getLsbD_of_ge _ _ hk16] <;>
      exact (BitVec.getLsbD_eq_getElem (by omega)).symm
  · rw [if_neg g, Vec.at_lt _ ht2, Vec.at_lt _ ht2, show s % 2 = 0 by omega]
    simp only [Hw.srl, Hw.sll, Vec.map]
    rcases e with e | e <;> rw [e] <;>
      simp [BitVec.getLsbD_extractLsb', hk, BitVec.getLsbD_or, BitVec.getLsbD_shiftLeft, BitVec.getLsbD_ushiftRight, hk8, hk8b,
        BitVec.getLsbD_of_ge _ _ hk16] <;>
      exact (BitVec.getLsbD_eq_getElem (by omega)).symm

/-- `i_splat8` on pairs of bytes, seen as bytes. -/
theorem splat8_bytes (hr : c.hasInt 16 r = true) (hn : n = r.lanes 8) {s : Nat} (hs : s < 8) (x : Vec 16 (n / 2)) :
    (i_splat8 c r s x).map (fun v => (v.recast 8 n : Vec 8 n)) =
      some (fun i => (x.recast 8 n : Vec 8 n).at_ (i.val / 16 * 16 + (s * 2 + i.val % 2))) := by
  have hn2 : n / 2 = r.lanes 16 := by subst hn; cases r <;> decide
  have hn8 : 16 ∣ n := by subst hn; cases r <;> decide
  rw [i_splat8_eq h hr hn2 hs, ← gather_bc (by decide) hs (f := fun _ => s) (fun _ _ => rfl) x x]
  refine congrArg some ?_
  show (gather 8 _ x x).recast 8 n = _
  rw [recast_gather (q := 2) (by decide) (by decide) (by decide) (by decide) (by omega) (by omega)]
  refine ext_at fun t ht => ?_
  have e2 : ex 2 (fun _ => s) (t % (8 * 2)) = s * 2 + t % 2 := by unfold ex; dsimp only; omega
  rw [gather_at _ _ ht, e2, if_pos (by omega), Vec.at_lt _ ht]

theorem i_splat16_eq (hr : c.hasInt 8 r = true) (hn : n = r.lanes 8) {s : Nat} (hs : s < 16) (a : Vec 8 n) :
    i_splat16 c r s a = some (bc 16 s a) := by
  have hn16 : 16 ∣ n := by subst hn; cases r <;> decide
  have hr16 : c.hasInt 16 r = true := by cases r <;> exact hr
  have hwide : (do
      let b ← zipSelf c r s a
      let t ← i_splat8 c r (s % 8) (b.recast 16 (n / 2))
      some (t.recast 8 n : Vec 8 n)) = some (bc 16 s a) := by
    have hz : ∃ b, zipSelf c r s a = some b ∧ ∀ t, t < n → b.at_ t = a.at_ (t / 16 * 16 + (s / 8 * 8 + t % 16 / 2)) := by
      unfold zipSelf
      by_cases g : s < 8
      · rw [if_pos g, i_zip_lo_eq h (k := .int) isW8 hr hn]
        refine ⟨_, rfl, fun t ht => ?_⟩
        have e : zipI 8 (t % 16) = t % 16 / 2 ∨ zipI 8 (t % 16) = t % 16 / 2 + 16 := by
          unfold zipI; split_ifs <;> omega
        rw [gather_at _ _ ht, show 128 / 8 = 16 from rfl]
        rcases e with e | e <;> rw [e]
        · rw [if_pos (by omega), show s / 8 * 8 = 0 by omega, Nat.zero_add]
        · rw [if_neg (by omega), if_pos (by omega), show s / 8 * 8 = 0 by omega, Nat.zero_add, Nat.add_sub_cancel]
      · rw [if_neg g, i_zip_hi_eq h (k := .int) isW8 hr hn]
        refine ⟨_, rfl, fun t ht => ?_⟩
        have e : zipH 8 (t % 16) = 8 + t % 16 / 2 ∨ zipH 8 (t % 16) = 8 + t % 16 / 2 + 16 := by
          unfold zipH; split_ifs <;> omega
        rw [gather_at _ _ ht, show 128 / 8 = 16 from rfl]
        rcases e with e | e <;> rw [e]
        · rw [if_pos (by omega), show s / 8 * 8 = 8 by omega]
        · rw [if_neg (by omega), if_pos (by omega), show s / 8 * 8 = 8 by omega, Nat.add_sub_cancel]
    obtain ⟨b, e, p⟩ := hz
    rw [e]
    simp only [Option.bind_eq_bind, Option.bind_some]
    have hb := splat8_bytes h hr16 hn (show s % 8 < 8 by omega) (b.recast 16 (n / 2))
    rw [Vec.recast_recast b (by decide) (by omega)] at hb
    refine (Option.map_eq_bind).symm.trans (hb.trans (congrArg some (ext_at fun t ht => ?_)))
    rw [bc_at _ ht, Vec.at_lt _ ht]
    show b.at_ (t / 16 * 16 + (s % 8 * 2 + t % 2)) = _
    rw [p _ (by omega)]
    congr 1
    omega
  unfold i_splat16
  rw [if_neg (not_not.2 hs)]
  cases r
  · have hn' : n = 16 := hn
    clear hwide
    dsimp only
    have h8 : (i_splat8 c .r128 (s / 2) (dupByte s (a.recast 16 (n / 2)))).map (fun v => (v.recast 8 n : Vec 8 n)) = some (bc 16 s a) := by
      rw [splat8_bytes h rfl hn (show s / 2 < 8 by omega)]
      refine congrArg some (ext_at fun t ht => ?_)
      rw [bc_at _ ht, Vec.at_lt _ ht]
      show ((dupByte s (a.recast 16 (n / 2))).recast 8 n).at_ (t / 16 * 16 + (s / 2 * 2 + t % 2)) = _
      rw [dupByte_at (by omega) a (by omega)]
      congr 1
      omega
    rw [h8, nullSplat_eq hn' hs, moveL1_bcast h (k := .int) isW8 rfl hn' hs, dupLane_eq hn' hs, neonSplat_eq hn' (by decide) hs]
    clear h8
    by_cases g1 : c.null = true
    · rw [if_pos g1]
    rw [if_neg g1]
    by_cases g2 : c.avx2 = true
    · rw [if_pos g2]
    rw [if_neg g2]
    by_cases g3 : c.ssse3 = true
    · rw [if_pos g3, maskPermute_bc h (fun _ => g3) isW8 rfl (by decide) hs hn']
    rw [if_neg g3]
    by_cases g4 : c.sse2 = true
    · rw [if_pos g4]
    rw [if_neg g4]
    by_cases g5 : c.neon64 = true
    · rw [if_pos g5]
    rw [if_neg g5]
    by_cases g6 : c.neon = true
    · rw [if_pos g6]
    rw [if_neg g6]
    by_cases g7 : c.altivec = true ∨ c.msa = true
    · rw [if_pos g7]
    clear g5
    cfg_absurd h
  · exact (if_neg (not_not.2 hr)).trans hwide
  · exact (if_neg (not_not.2 hr)).trans hwide

theorem i_splat4_eq (gnuc : Bool) (hr : c.hasVec k 32 r = true) (hn : n = r.lanes 32) {s : Nat} (hs : s < 4) (a : Vec 32 n) :
    i_splat4 c gnuc k r s a = some (bc 4 s a) := by
  have hp : i_permute4_32 c gnuc k r s s s s a = some (bc 4 s a) := by
    rw [i_permute4_32_eq h gnuc hr hn hs hs hs hs]
    exact congrArg some (gather_bc (by decide) hs (fun j _ => by unfold sel4; split_ifs <;> rfl) a a)
  unfold i_splat4
  rw [if_neg (not_not.2 hs)]
  cases r
  · have hn : n = 4 := hn
    dsimp only
    rw [hp, nullSplat_eq hn hs, dupLane_eq hn hs, neonSplat_eq hn (by decide) hs]
    clear hp
    by_cases g1 : c.null = true ∨ (k = .flt ∧ c.neonNoFltSp = true)
    · rw [if_pos g1]
    rw [if_neg g1]
    by_cases g4 : c.sse2 = true
    · rw [if_pos g4]
    rw [if_neg g4]
    by_cases g5 : c.neon64 = true
    · rw [if_pos g5]
    rw [if_neg g5]
    by_cases g6 : c.neon = true
    · rw [if_pos g6]
    rw [if_neg g6]
    by_cases g7 : c.altivec = true ∨ c.msa = true
    · rw [if_pos g7]
    have g1 : ¬ c.null = true := fun e => g1 (Or.inl e)
    clear g5 hr
    cfg_absurd h
  · exact (if_pos hr).trans hp
  · exact (if_pos hr).trans hp

theorem i_splat2_eq (hr : c.hasVec k 64 r = true) (hn : n = r.lanes 64) {s : Nat} (hs : s < 2) (a : Vec 64 n) :
    i_splat2 c k r s a = some (bc 2 s a) := by
  have hp : ∀ {s}, s < 2 → i_permute2_64 c k r s s a = some (bc 2 s a) := by
    intro s hs
    rw [i_permute2_64_eq h hr hn hs hs]
    exact congrArg some (gather_bc (by decide) hs (fun j _ => by unfold sel2; split_ifs <;> rfl) a a)
  unfold i_splat2
  rw [if_neg (not_not.2 hs)]
  cases r
  · have hn : n = 2 := hn
    dsimp only
    rw [hp (by decide : 0 < 2), hp (by decide : 1 < 2), nullSplat_eq hn hs, dupLane_eq hn hs, neonSplat_eq hn (by decide) hs]
    clear hp
    by_cases g4 : c.sse2 = true
    · rw [if_pos g4]
      have : s = 0 ∨ s = 1 := by omega
      rcases this with rfl | rfl <;> rfl
    rw [if_neg g4]
    by_cases g5 : c.neon64 = true
    · rw [if_pos g5]
    rw [if_neg g5]
    by_cases g6 : k = .int ∧ c.neon = true
    · rw [if_pos g6]
    rw [if_neg g6]
    by_cases g7 : (k = .int ∧ c.vsx207 = true) ∨ (k = .flt ∧ c.vsx206 = true) ∨ c.msa = true
    · rw [if_pos g7]
    rw [if_neg g7]
    by_cases g8 : c.null = true ∨ c.altivec = true ∨ (k = .flt ∧ c.neon = true)
    · rw [if_pos g8]
    have gm : ¬ c.msa = true := fun e => g7 (Or.inr (Or.inr e))
    have gn : ¬ c.neon = true := fun e => by
      cases k
      · exact g6 ⟨rfl, e⟩
      · exact g8 (Or.inr (Or.inr ⟨rfl, e⟩))
    have ga : ¬ c.altivec = true := fun e => g8 (Or.inr (Or.inl e))
    have gu : ¬ c.null = true := fun e => g8 (Or.inl e)
    clear g5 g6 g7 g8 hr
    cfg_absurd h
  · exact (if_pos hr).trans (hp hs)
  · exact (if_pos hr).trans (hp hs)

theorem i_splat_n_eq (gnuc : Bool) (hw : k.okW w) (hr : c.hasVec k w r = true) (hn : n = r.lanes w) {s : Nat}
    (hs : s < 128 / w) (a : Vec w n) : i_splat_n c gnuc k r s a = some (bc (128 / w) s a) := by
  unfold i_splat_n
  rcases okW_cases hw with e | e | ⟨e2, e | e⟩ <;> subst e
  · exact i_splat2_eq h hr hn hs a
  · exact i_splat4_eq h gnuc hr hn hs a
  · subst e2
    exact i_splat16_eq h hr hn hs a
  · subst e2
    exact i_splat8_eq h hr hn hs a

/-- C23 (`splat16/8/4/2<s>`): in every 128-bit block of an arbitrarily long vector, every lane of the result
is lane `s` of that block. -/
theorem C23_splat_n (gnuc : Bool) (hw : k.okW w) (hr : c.hasVec k w r = true) {s : Nat} (hs : s < 128 / w) {K : Nat}
    (v d : Fin K → Vec w (r.lanes w)) :
    ∃ res, splat_n c gnuc k r s v d = some res ∧
      Picks (128 / w) (fun _ => s) (Arr.flat v : Vec w (K * r.lanes w)) (Arr.flat v) (Arr.flat res) := by
  unfold splat_n
  rw [if_neg (not_not.2 hs)]
  have hL := (blkL hw.isW).1
  obtain ⟨res, e, p⟩ := long1 (f := fun _ => s) (op := i_splat_n c gnuc k r s) (lanesW_dvd hw.isW r) hL (fun a => by
    rw [i_splat_n_eq h gnuc hw hr rfl hs, gather_bc hL hs fun _ _ => rfl]) v d
  refine ⟨res, e, ?_⟩
  rw [p]
  exact picks_gather (fun _ _ => by omega) _ _

/-! ## The whole vector -/

omit h in
theorem permute2x128_at {s : Nat} (a : Vec w n) (hn : n = 2 * (128 / w)) (hs : s < 2) {t : Nat} (ht : t < n) :
    (Hw.permute2x128 a a (((s + 2) <<< 4) + s)).at_ t = a.at_ (s * (128 / w) + t % (128 / w)) := by
  have hL : 0 < 128 / w := by omega
  have hq : t / (128 / w) < 2 := Nat.div_lt_of_lt_mul (by rw [Nat.mul_comm, ← hn]; exact ht)
  rw [Vec.at_lt _ ht]
  unfold Hw.permute2x128
  dsimp only
  generalize t / (128 / w) = q at hq
  generalize t % (128 / w) = j
  interval_cases s <;> interval_cases q <;> simp [Nat.shiftLeft_eq, Nat.shiftRight_eq_div_pow, Nat.testBit]

omit h in
theorem shuffle_x128_at {s imm : Nat} (a : Vec w n) (hn : n = 4 * (128 / w)) (hs : ∀ q, q < 4 → Hw.imm2 imm q = s) {t : Nat}
    (ht : t < n) : (Hw.shuffle_x128 a a imm).at_ t = a.at_ (s * (128 / w) + t % (128 / w)) := by
  have hL : 0 < 128 / w := by omega
  have hq : t / (128 / w) < 4 := Nat.div_lt_of_lt_mul (by rw [Nat.mul_comm, ← hn]; exact ht)
  rw [Vec.at_lt _ ht]
  unfold Hw.shuffle_x128
  dsimp only
  rw [hs _ hq, ite_self]

omit h in
theorem imm2_same {s : Nat} (hs : s < 4) {q : Nat} (hq : q < 4) : Hw.imm2 (mask4x4 s s s s) q = s :=
  (imm2_mask4x4 hs hs hs hs hq).1.trans (by unfold sel4; split_ifs <;> rfl)

omit h in
theorem imm2_same' {s : Nat} (hs : s < 4) {q : Nat} (hq : q < 4) :
    Hw.imm2 ((s <<< 6) + (s <<< 4) + (s <<< 2) + s) q = s := by
  interval_cases s <;> interval_cases q <;> rfl

theorem splat256_32_eq (gnuc : Bool) (hr : c.hasVec k 32 .r256 = true) {s : Nat} (hs : s < 8) (a : Vec 32 8) :
    splat256_32 c gnuc k s a = some (Vec.splat (a.at_ s)) := by
  have hp := fun a => i_permute4_32_eq h gnuc hr (n := 8) rfl (show s % 4 < 4 by omega) (show s % 4 < 4 by omega)
    (show s % 4 < 4 by omega) (show s % 4 < 4 by omega) a
  have hb : ∀ a : Vec 32 8, gather 4 (sel4 (s % 4) (s % 4) (s % 4) (s % 4)) a a = bc 4 (s % 4) a := fun a =>
    gather_bc (by decide) (by omega) (fun j _ => by unfold sel4; split_ifs <;> rfl) a a
  unfold splat256_32
  dsimp only
  rw [hp, hp, hb, hb]
  by_cases g : k = .int
  · subst g
    rw [if_pos rfl, if_pos (show c.avx2 = true from hr)]
    refine congrArg some (ext_at fun t ht => ?_)
    rw [permute2x128_at _ (by decide) (by omega) ht, bc_at _ (by omega), Vec.at_lt (Vec.splat _) ht]
    show _ = a.at_ s
    congr 1
    omega
  · have : k = .flt := by cases k <;> trivial
    subst this
    rw [if_neg g, if_pos (show c.avx = true from hr)]
    refine congrArg some (ext_at fun t ht => ?_)
    rw [bc_at _ ht, permute2x128_at _ (by decide) (by omega) (by omega), Vec.at_lt (Vec.splat _) ht]
    show _ = a.at_ s
    congr 1
    omega

theorem splat512_32_eq (gnuc : Bool) (hr : c.hasVec k 32 .r512 = true) {s : Nat} (hs : s < 16) (a : Vec 32 16) :
    splat512_32 c gnuc k s a = some (Vec.splat (a.at_ s)) := by
  have hp := i_permute4_32_eq h gnuc hr (n := 16) rfl (show s % 4 < 4 by omega) (show s % 4 < 4 by omega)
    (show s % 4 < 4 by omega) (show s % 4 < 4 by omega) a
  have hb : gather 4 (sel4 (s % 4) (s % 4) (s % 4) (s % 4)) a a = bc 4 (s % 4) a :=
    gather_bc (by decide) (by omega) (fun j _ => by unfold sel4; split_ifs <;> rfl) a a
  have hf : c.avx512f = true := by cases k <;> exact hr
  unfold splat512_32
  rw [if_pos hf, hp, hb]
  refine congrArg some (ext_at fun t ht => ?_)
  rw [shuffle_x128_at (s := s / 4) _ (by decide) (by
    intro q hq
    by_cases g : k = .int
    · rw [if_pos g]; exact imm2_same' (by omega) hq
    · rw [if_neg g]; exact imm2_same (by omega) hq) ht, bc_at _ (by omega), Vec.at_lt (Vec.splat _) ht]
  show _ = a.at_ s
  congr 1
  omega

theorem splat256_64_eq (hr : c.hasVec k 64 .r256 = true) {s : Nat} (hs : s < 4) (a : Vec 64 4) :
    splat256_64 c k s a = some (Vec.splat (a.at_ s)) := by
  have hp := i_permute4_64_eq h hr (by decide) hs hs hs hs a
  have hb : gather 4 (sel4 s s s s) a a = bc 4 s a :=
    gather_bc (by decide) (by omega) (fun j _ => by unfold sel4; split_ifs <;> rfl) a a
  have hp2 := fun a => i_permute2_64_eq h hr (n := 4) rfl (show s % 2 < 2 by omega) (show s % 2 < 2 by omega) a
  have hb2 : ∀ a : Vec 64 4, gather 2 (sel2 (s % 2) (s % 2)) a a = bc 2 (s % 2) a := fun a =>
    gather_bc (by decide) (by omega) (fun j _ => by unfold sel2; split_ifs <;> rfl) a a
  unfold splat256_64
  by_cases g : c.avx2 = true
  · refine (if_pos g).trans (hp.trans (congrArg some ?_))
    exact hb.trans (splat_bc rfl a).symm
  · refine (if_neg g).trans ?_
    have hk : k = .flt := by
      cases k
      · exact absurd hr g
      · rfl
    subst hk
    refine (if_pos ⟨rfl, show c.avx = true from hr⟩).trans ((hp2 _).trans ?_)
    refine congrArg some (ext_at fun t ht => ?_)
    rw [hb2, bc_at _ ht, permute2x128_at _ (by decide) (by omega) (by omega), Vec.at_lt (Vec.splat _) ht]
    show _ = a.at_ s
    congr 1
    omega

theorem splat512_64_eq (hr : c.hasVec k 64 .r512 = true) {s : Nat} (hs : s < 8) (a : Vec 64 8) :
    splat512_64 c k s a = some (Vec.splat (a.at_ s)) := by
  have hp := i_permute2_64_eq h hr (n := 8) rfl (show s % 2 < 2 by omega) (show s % 2 < 2 by omega) a
  have hb : gather 2 (sel2 (s % 2) (s % 2)) a a = bc 2 (s % 2) a :=
    gather_bc (by decide) (by omega) (fun j _ => by unfold sel2; split_ifs <;> rfl) a a
  have hf : c.avx512f = true := by cases k <;> exact hr
  unfold splat512_64
  rw [if_pos hf, hp, hb]
  refine congrArg some (ext_at fun t ht => ?_)
  rw [shuffle_x128_at (s := s / 2) _ (by decide) (fun q hq => imm2_same (by omega) hq) ht, bc_at _ (by omega),
    Vec.at_lt (Vec.splat _) ht]
  show _ = a.at_ s
  congr 1
  omega

theorem splatBcast_eq (hw : IsW w) (h16 : w ≤ 16) {s : Nat} (a : Vec w n) :
    splatBcast c s a = some (Vec.splat (a.at_ s)) := by
  have hL := (blkL hw).1
  have hk : Kind.okW .int w := hw
  unfold splatBcast
  obtain ⟨b, e, p⟩ := moveL1_eq h hk (Nat.mod_lt s hL) rfl (Hw.part (128 / w) (s / (128 / w)) a)
  have p0 := p 0 (by rw [Nat.zero_add]; exact Nat.mod_lt _ hL)
  rw [Nat.zero_add, Hw.part_at _ (Nat.mod_lt _ hL), Nat.div_add_mod'] at p0
  rw [e]
  exact congrArg some (congrArg Vec.splat p0)

theorem i_splat_eq (gnuc : Bool) (hw : k.okW w) (hr : c.hasVec k w r = true) {s : Nat} (hs : s < r.lanes w)
    (a : Vec w (r.lanes w)) : i_splat c gnuc k r s a = some (Vec.splat (a.at_ s)) := by
  unfold i_splat
  cases r
  · exact (i_splat_n_eq h gnuc hw hr rfl hs a).trans (congrArg some (splat_bc rfl a).symm)
  · rcases okW_cases hw with e | e | ⟨e2, e | e⟩ <;> subst e
    · exact splat256_64_eq h hr hs a
    · exact splat256_32_eq h gnuc hr hs a
    · subst e2
      exact (if_pos (show c.avx2 = true from hr)).trans (splatBcast_eq h isW8 (by decide) a)
    · subst e2
      exact (if_pos (show c.avx2 = true from hr)).trans (splatBcast_eq h iw16 (by decide) a)
  · rcases okW_cases hw with e | e | ⟨e2, e | e⟩ <;> subst e
    · exact splat512_64_eq h hr hs a
    · exact splat512_32_eq h gnuc hr hs a
    · subst e2
      exact (if_pos (show c.avx512bw = true from hr)).trans (splatBcast_eq h isW8 (by decide) a)
    · subst e2
      exact (if_pos (show c.avx512bw = true from hr)).trans (splatBcast_eq h iw16 (by decide) a)

omit h in
theorem fillAll_spec {α : Type} {K : Nat} (one : α) (I : Nat) (r : Fin K → α) (i : Fin K) :
    fillAll one I r i = if I ≤ i.val then one else r i := by
  induction I, r using fillAll.induct (K := K) (one := one) with
  | case1 I r hI ih =>
    rw [fillAll, dif_pos hI, ih]
    unfold Arr.set
    by_cases e : i.val = I
    · rw [if_neg (by omega), if_pos (Fin.ext e), if_pos (by omega)]
    · rw [if_neg (show ¬ i = ⟨I, hI⟩ from fun e' => e (congrArg Fin.val e'))]
      by_cases g : I ≤ i.val
      · rw [if_pos g, if_pos (by omega)]
      · rw [if_neg g, if_neg (by omega)]
  | case2 I r hI =>
    rw [fillAll, dif_neg hI, if_neg (by omega)]

/-- C23 (`splat<s>`): every lane of the result is lane `s` of the vector, for any vector length. -/
theorem C23_splat (gnuc : Bool) (hw : k.okW w) (hr : c.hasVec k w r = true) {K : Nat} {s : Nat} (hs : s < K * r.lanes w)
    (v d : Fin K → Vec w (r.lanes w)) :
    ∃ res, splat c gnuc k r s v d = some res ∧ ∀ j, j < K * r.lanes w →
      Vec.at_ (Arr.flat res : Vec w (K * r.lanes w)) j = Vec.at_ (Arr.flat v : Vec w (K * r.lanes w)) s := by
  have hl : 0 < r.lanes w := Nat.pos_of_ne_zero fun e => by rw [e] at hs; omega
  have hK : s / r.lanes w < K := Nat.div_lt_of_lt_mul (by rwa [Nat.mul_comm] at hs)
  unfold splat vecRd
  rw [if_neg (not_not.2 hs), dif_pos hK]
  simp only [Option.bind_eq_bind, Option.bind_some]
  rw [i_splat_eq h gnuc hw hr (Nat.mod_lt _ hl)]
  refine ⟨_, rfl, fun j hj => ?_⟩
  rw [flat_at _ hj, flat_at _ hs, fillAll_spec, if_pos (by omega), Vec.at_lt _ (Nat.mod_lt _ hl)]
  rfl

end
end Simdpp
