import Verif.Props.Shuffle32CheckF
import Verif.Props.Shuffle32CheckI
import Verif.Props.Shuffle32CheckJ
import Verif.Props.ShufMask
import Verif.Props.Samples
import Verif.Spec.Shuffle

/-!
# C18: selector-driven shuffles, 16- and 32-bit lanes
-/

namespace Simdpp
open Spec Sh

variable {n : Nat}

theorem iw16 : IsW 16 := Or.inr (Or.inl rfl)
theorem iw32 : IsW 32 := Or.inr (Or.inr (Or.inl rfl))
theorem iw64 : IsW 64 := Or.inr (Or.inr (Or.inr rfl))

/-! ## From index functions to the specification -/

theorem picks_gather {w N L : Nat} {f : Nat → Nat} (hf : ∀ j, j < L → f j < 2 * L) (a b : Vec w N) :
    Picks L f a b (gather L f a b) := by
  intro q j hj hq
  rw [gather_block a b hj hq]
  have := hf j hj
  by_cases h : f j < L
  · rw [if_pos h, if_pos h]
  · rw [if_neg h, if_neg h, if_pos this]

/-- Register-wise application of a block selection to a long vector. -/
theorem long2 {w K l L : Nat} {f : Nat → Nat} {op : Vec w l → Vec w l → Option (Vec w l)} (hL : L ∣ l)
    (hL0 : 0 < L) (h : ∀ a b, op a b = some (gather L f a b)) (a b d : Fin K → Vec w l) :
    ∃ res, Arr.apply2 op a b 0 d = some res ∧
      (Arr.flat res : Vec w (K * l)) = gather L f (Arr.flat a : Vec w (K * l)) (Arr.flat b : Vec w (K * l)) := by
  refine ⟨fun i => gather L f (a i) (b i), ?_, gather_flat hL hL0 f a b⟩
  rw [Arr.apply2_spec op a b (fun i => gather L f (a i) (b i)) (fun i => h _ _) 0 d]
  simp

theorem long1 {w K l L : Nat} {f : Nat → Nat} {op : Vec w l → Option (Vec w l)} (hL : L ∣ l)
    (hL0 : 0 < L) (h : ∀ a, op a = some (gather L f a a)) (a d : Fin K → Vec w l) :
    ∃ res, Arr.apply1 op a 0 d = some res ∧
      (Arr.flat res : Vec w (K * l)) = gather L f (Arr.flat a : Vec w (K * l)) (Arr.flat a : Vec w (K * l)) := by
  refine ⟨fun i => gather L f (a i) (a i), ?_, gather_flat hL hL0 f a a⟩
  rw [Arr.apply1_spec op a (fun i => gather L f (a i) (a i)) (fun i => h _) 0 d]
  simp

/-- `sel4`/`sel2` are the selector tuples. -/
theorem sel4_lt {s0 s1 s2 s3 m : Nat} (h0 : s0 < m) (h1 : s1 < m) (h2 : s2 < m) (h3 : s3 < m) (j : Nat) :
    sel4 s0 s1 s2 s3 j < m := by
  unfold sel4; split_ifs <;> assumption

theorem sel2_lt {s0 s1 m : Nat} (h0 : s0 < m) (h1 : s1 < m) (j : Nat) : sel2 s0 s1 j < m := by
  unfold sel2; split_ifs <;> assumption

/-- A pair selector applied to both halves of a group of four. -/
def dup2 (s0 s1 : Nat) : Nat → Nat :=
  sel4 (if s0 < 2 then s0 else s0 + 2) (if s1 < 2 then s1 else s1 + 2)
    (if s0 < 2 then s0 + 2 else s0 + 4) (if s1 < 2 then s1 + 2 else s1 + 4)

theorem dup2_eq {s0 s1 j : Nat} (h0 : s0 < 4) (h1 : s1 < 4) (hj : j < 4) :
    dup2 s0 s1 j = wid 2 4 (sel2 s0 s1) j := by
  interval_cases s0 <;> interval_cases s1 <;> interval_cases j <;> rfl

theorem gather_dup2 {w s0 s1 : Nat} (h0 : s0 < 4) (h1 : s1 < 4) (a b : Vec w n) :
    gather 4 (dup2 s0 s1) a b = gather 2 (sel2 s0 s1) a b :=
  ((IsG.widen (L := 2) (m := 2) (by decide) (by decide) (a := a) (b := b) (f := sel2 s0 s1) rfl).eq (by decide)
    fun j hj => (dup2_eq h0 h1 hj).symm).symm

/-! ## Portable loops -/

namespace Null

theorem shuffle4x2_eq {w s0 s1 s2 s3 : Nat} (h0 : s0 < 8) (h1 : s1 < 8) (h2 : s2 < 8) (h3 : s3 < 8)
    (a b : Vec w 4) : shuffle4x2 s0 s1 s2 s3 a b = some (gather 4 (sel4 s0 s1 s2 s3) a b) := by
  have e : ∀ s, s < 8 → pick 4 s a b =
      some (if s < 4 then a.at_ s else b.at_ (s - 4)) := by
    intro s hs
    unfold pick
    split_ifs with h
    · exact rd_lt a h
    · exact rd_lt b (by omega)
  unfold shuffle4x2
  simp only [e s0 h0, e s1 h1, e s2 h2, e s3 h3, Option.bind_eq_bind, Option.bind_some,
    wr_lt _ (show 0 < 4 by decide), wr_lt _ (show 1 < 4 by decide), wr_lt _ (show 2 < 4 by decide),
    wr_lt _ (show 3 < 4 by decide)]
  apply ret_eq
  intro i
  unfold gather
  have hi := i.isLt
  dsimp only
  rw [Nat.mod_eq_of_lt hi, Nat.div_eq_of_lt hi, Nat.zero_mul]
  simp only [Nat.zero_add]
  rcases i with ⟨_ | _ | _ | _ | i, hi'⟩ <;> first | omega | simp [sel4, h0, h1, h2, h3]

theorem shuffle2x2_32_eq {w s0 s1 : Nat} (h0 : s0 < 4) (h1 : s1 < 4) (a b : Vec w 4) :
    shuffle2x2_32 s0 s1 a b = some (gather 4 (dup2 s0 s1) a b) := by
  have e : ∀ s, s < 4 → pick 2 s a b =
      some (if s < 2 then a.at_ s else b.at_ (s - 2)) := by
    intro s hs
    unfold pick
    split_ifs with h
    · exact rd_lt a (by omega)
    · exact rd_lt b (by omega)
  have e2 : ∀ s, s < 4 → pickHi s a b =
      some (if s < 2 then a.at_ (s + 2) else b.at_ s) := by
    intro s hs
    unfold pickHi
    split_ifs with h
    · exact rd_lt a (by omega)
    · exact rd_lt b (by omega)
  unfold shuffle2x2_32
  simp only [e s0 h0, e s1 h1, e2 s0 h0, e2 s1 h1, Option.bind_eq_bind, Option.bind_some,
    wr_lt _ (show 0 < 4 by decide), wr_lt _ (show 1 < 4 by decide), wr_lt _ (show 2 < 4 by decide),
    wr_lt _ (show 3 < 4 by decide)]
  apply ret_eq
  intro i
  unfold gather
  have hi := i.isLt
  dsimp only
  rw [Nat.mod_eq_of_lt hi, Nat.div_eq_of_lt hi, Nat.zero_mul]
  simp only [Nat.zero_add]
  rcases i with ⟨_ | _ | _ | _ | i, hi'⟩ <;> first | omega | (interval_cases s0 <;> interval_cases s1 <;> rfl)

theorem permute4_gather {w s0 s1 s2 s3 : Nat} (hn : 4 ∣ n) (h0 : s0 < 4) (h1 : s1 < 4) (h2 : s2 < 4)
    (h3 : s3 < 4) (a : Vec w n) : permute4 s0 s1 s2 s3 a = some (gather 4 (sel4 s0 s1 s2 s3) a a) := by
  rw [permute4_eq hn h0 h1 h2 h3]
  congr 1
  funext i
  unfold gather
  dsimp only
  rw [if_pos (sel4_lt h0 h1 h2 h3 _)]
  unfold sel4
  split_ifs <;> rfl

end Null

/-! ## Byte-mask fallbacks -/

theorem maskIdx_nat {q u : Nat} {s : Nat → Nat} (hu : u = 16 / q) (hu0 : 0 < u) {e : Nat} (he : e < u) :
    maskIdx q u (fun p => (s p : Int)) e = s e := by
  unfold maskIdx
  dsimp only
  rw [Nat.mod_eq_of_lt he, Nat.div_eq_of_lt he, if_neg (by omega)]
  split_ifs with h
  · simp
  · rw [← hu, Int.toNat_natCast]; omega

theorem maskShuffle_eq {c : Cfg} (h : c.Ok) (hx : c.sse2 = true → (c.ssse3 = true ∨ c.xop = true))
    {w q u : Nat} (hw : IsW w) (hq : w = q * 8) {s : Nat → Nat}
    (hqu : (q, u) ∈ [(1,2),(1,4),(1,8),(1,16),(2,2),(2,4),(2,8),(4,2),(4,4),(8,2)])
    (hs : ∀ p, p < u → s p < u * 2) (hn : n = Reg.r128.lanes w) (a b : Vec w n) :
    maskShuffle c q u s a b = some (gather (128 / w) (maskIdx q u fun p => (s p : Int)) a b) := by
  subst hn
  obtain ⟨M, hM⟩ := C21_accepts hqu (s := fun p => (s p : Int)) (fun p hp => ⟨by omega, by
    have := hs p hp; omega⟩)
  unfold maskShuffle
  rw [hM]
  have e := i_shuffle_bytes16_eq h (r := .r128) rfl hx (n := 16) rfl (a.recast 8 16) (b.recast 8 16)
    (maskVec16 16 M) (fun i => (byte_of (r := .r128) hM 16 rfl i fun p _ => by omega).1)
  simp only [Option.bind_eq_bind, Option.bind_some, e]
  exact congrArg some (mask_move hq hw .r128 hM a b)

theorem maskPermute_eq {c : Cfg} (h : c.Ok) (hx : c.sse2 = true → c.ssse3 = true)
    {w q u : Nat} (hw : IsW w) (hq : w = q * 8) {s : Nat → Nat}
    (hqu : (q, u) ∈ [(1,2),(1,4),(1,8),(1,16),(2,2),(2,4),(2,8),(4,2),(4,4),(8,2)])
    (hs : ∀ p, p < u → s p < u) (hn : n = Reg.r128.lanes w) (a : Vec w n) :
    maskPermute c q u s a = some (gather (128 / w) (maskIdx q u fun p => (s p : Int)) a a) := by
  subst hn
  obtain ⟨M, hM⟩ := C21_accepts hqu (s := fun p => (s p : Int)) (fun p hp => ⟨by omega, by
    have := hs p hp; omega⟩)
  unfold maskPermute
  rw [hM]
  have e := i_permute_bytes16_eq h (r := .r128) rfl hx (n := 16) rfl (a.recast 8 16)
    (maskVec16 16 M) (fun i => (byte_of (r := .r128) hM 16 rfl i fun p _ => by omega).2 fun p hp => by
      have := hs p hp; omega)
  simp only [Option.bind_eq_bind, Option.bind_some, e]
  exact congrArg some (mask_move hq hw .r128 hM a a)

/-! ## shuffle4x2 -/

section
variable {c : Cfg} (h : c.Ok) {r : Reg}
include h

theorem no_sse_of_altivec (ha : c.altivec = true) : c.sse2 = false := by
  cases e : c.sse2
  · rfl
  · have := (h.excl.1 e).2.1; rw [ha] at this; cases this

theorem i_shuffle4x2_32_eq {k : Kind} (hr : c.hasVec k 32 r = true) (hn : n = r.lanes 32)
    {s0 s1 s2 s3 : Nat} (h0 : s0 < 8) (h1 : s1 < 8) (h2 : s2 < 8) (h3 : s3 < 8) (a b : Vec 32 n) :
    i_shuffle4x2_32 c k r s0 s1 s2 s3 a b = some (gather 4 (sel4 s0 s1 s2 s3) a b) := by
  unfold i_shuffle4x2_32
  rw [if_neg (not_not.2 ⟨h0, h1, h2, h3⟩)]
  cases r
  · have hn : n = 4 := hn
    subst hn
    have hF : ∀ b', (SseF32.run b' .r128 s0 s1 s2 s3).run 4 a b = gather 4 (sel4 s0 s1 s2 s3) a b := by
      intro b'
      cases b'
      · exact Prog.chk_run (by decide) (by decide) (all4_spec chk_f32_sse2 h0 h1 h2 h3) a b
      · exact Prog.chk_run (by decide) (by decide) (all4_spec chk_f32_128 h0 h1 h2 h3) a b
    have hI : (SseI32.run c.ssse3 c.sse41 c.avx2 .r128 s0 s1 s2 s3).run 4 a b =
        gather 4 (sel4 s0 s1 s2 s3) a b := by
      cases e1 : c.ssse3
      · cases e2 : c.sse41
        · cases e3 : c.avx2
          · exact Prog.chk_run (by decide) (by decide) (all4_spec chk_i32_sse2 h0 h1 h2 h3) a b
          · cfg_absurd h
        · cfg_absurd h
      · cases e2 : c.sse41
        · cases e3 : c.avx2
          · exact Prog.chk_run (by decide) (by decide) (all4_spec chk_i32_ssse3 h0 h1 h2 h3) a b
          · cfg_absurd h
        · cases e3 : c.avx2
          · exact Prog.chk_run (by decide) (by decide) (all4_spec chk_i32_sse41 h0 h1 h2 h3) a b
          · exact Prog.chk_run (by decide) (by decide) (all4_spec chk_i32_avx2 h0 h1 h2 h3) a b
    have hA : c.altivec = true → maskShuffle c 4 4 (sel4 s0 s1 s2 s3) a b =
        some (gather 4 (sel4 s0 s1 s2 s3) a b) := by
      intro ha
      rw [maskShuffle_eq (n := 4) (q := 4) (u := 4) h (fun hs => by rw [no_sse_of_altivec h ha] at hs; cases hs) iw32 rfl (by decide)
        (fun p _ => sel4_lt h0 h1 h2 h3 p) rfl]
      exact congrArg some (gather_congr (by decide) (fun j hj => maskIdx_nat rfl (by decide) hj) a b)
    have hS : sse4x2_32 c k .r128 s0 s1 s2 s3 a b = gather 4 (sel4 s0 s1 s2 s3) a b := by
      unfold sse4x2_32
      cases k
      · exact (if_neg (fun hh => by cases hh.2)).trans hI
      · exact hF _
    dsimp only
    rw [hS]
    split_ifs with g1 g2 g3 g4 g5
    · exact Null.shuffle4x2_eq h0 h1 h2 h3 a b
    · rfl
    · exact congrArg some (Prog.chk_run (by decide) (by decide) (all4_spec chk_n32_4x2 h0 h1 h2 h3) a b)
    · exact hA g4
    · rfl
    · cfg_absurd h
  · have hn : n = 8 := hn
    subst hn
    dsimp only
    rw [if_pos hr]
    unfold sse4x2_32
    cases k
    · have ha : c.avx2 = true := hr
      have hb := h.avx2 ha
      have hd := h.avx hb
      have he := h.sse41 hd
      dsimp only
      rw [if_neg (fun hh => by cases hh.2), ha, hd, he]
      exact congrArg some (Prog.chk_run (by decide) (by decide) (all4_spec chk_i32_256 h0 h1 h2 h3) a b)
    · have hd := h.avx hr
      dsimp only
      rw [hd]
      exact congrArg some (Prog.chk_run (by decide) (by decide) (all4_spec chk_f32_256 h0 h1 h2 h3) a b)
  · have hn : n = 16 := hn
    subst hn
    have ha : c.avx512f = true := by cases k <;> exact hr
    have hb := h.avx512f ha
    have hd := h.avx (h.avx2 hb)
    have he := h.sse41 hd
    dsimp only
    rw [if_pos hr]
    unfold sse4x2_32
    cases k
    · dsimp only
      rw [hb, hd, he]
      have hc := all4_spec chk_i32_512 h0 h1 h2 h3
      by_cases g : SseI32.impl true true s0 s1 s2 s3 = 6
      · rw [if_pos ⟨g, rfl⟩]
        rw [if_pos g] at hc
        refine congrArg some ((Prog.chk_run (by decide) (by decide) hc a b).trans ?_)
        exact ((IsG.widen (L := 4) (m := 4) (by decide) (by decide) (a := a) (b := b) rfl).eq (by decide)
          fun j _ => rfl).symm
      · rw [if_neg (fun hh => g hh.1)]
        rw [if_neg g] at hc
        exact congrArg some (Prog.chk_run (by decide) (by decide) hc a b)
    · dsimp only
      rw [hd]
      exact congrArg some (Prog.chk_run (by decide) (by decide) (all4_spec chk_f32_512 h0 h1 h2 h3) a b)


theorem sse_of_wide {k : Kind} {w : Nat} (hr' : r ≠ .r128) (hr : c.hasVec k w r = true) : c.sse2 = true := by
  cases r
  · exact absurd rfl hr'
  · cases k
    · exact h.sse3 (h.ssse3 (h.sse41 (h.avx (h.avx2 hr))))
    · exact h.sse3 (h.ssse3 (h.sse41 (h.avx hr)))
  · have : c.avx512f = true := by
      cases k
      · have hr : (if w ≤ 16 then c.avx512bw else c.avx512f) = true := hr
        split_ifs at hr
        · exact h.avx512bw hr
        · exact hr
      · exact hr
    exact h.sse3 (h.ssse3 (h.sse41 (h.avx (h.avx2 (h.avx512f this)))))

/-! ## permute4, permute2 -/

omit h in
theorem imm2_mask4x4 {s0 s1 s2 s3 : Nat} (h0 : s0 < 4) (h1 : s1 < 4) (h2 : s2 < 4) (h3 : s3 < 4) {j : Nat}
    (hj : j < 4) : Hw.imm2 (mask4x4 s0 s1 s2 s3) j = sel4 s0 s1 s2 s3 j ∧
      Hw.imm2 (mmShuffle s3 s2 s1 s0) j = sel4 s0 s1 s2 s3 j := by
  have : all4 4 (fun s0 s1 s2 s3 => (List.range 4).all fun j =>
      Hw.imm2 (mask4x4 s0 s1 s2 s3) j == sel4 s0 s1 s2 s3 j &&
      Hw.imm2 (mmShuffle s3 s2 s1 s0) j == sel4 s0 s1 s2 s3 j) = true := by decide +kernel
  have := all4_spec this h0 h1 h2 h3
  simp only [List.all_eq_true, List.mem_range, Bool.and_eq_true, beq_iff_eq] at this
  exact this j hj

omit h in
theorem shufflelohi_eq {s0 s1 s2 s3 : Nat} (h0 : s0 < 4) (h1 : s1 < 4) (h2 : s2 < 4) (h3 : s3 < 4)
    (hn : 8 ∣ n) (a : Vec 16 n) :
    Hw.shufflehi_epi16 (Hw.shufflelo_epi16 a (mask4x4 s0 s1 s2 s3)) (mask4x4 s0 s1 s2 s3) =
      gather 4 (sel4 s0 s1 s2 s3) a a := by
  have e := fun j hj => (imm2_mask4x4 h0 h1 h2 h3 (j := j) hj).1
  have hl := fun j => sel4_lt h0 h1 h2 h3 j
  unfold Hw.shufflehi_epi16 Hw.shufflelo_epi16
  have g1 : IsG 8 a a (gather 8 (fun j => if j < 4 then Hw.imm2 (mask4x4 s0 s1 s2 s3) j else j) a a) _ := rfl
  have g2 := (IsG.gather hn (f := fun j => if j < 4 then j else 4 + Hw.imm2 (mask4x4 s0 s1 s2 s3) (j - 4)) g1 g1)
  have g3 : IsG 4 a a (gather 4 (sel4 s0 s1 s2 s3) a a) (sel4 s0 s1 s2 s3) := rfl
  have g4 := IsG.widen (m := 2) (by decide) (by decide) g3
  refine (g2.eq (by decide) fun j hj => ?_).trans g4.symm
  unfold comp wid
  dsimp only
  have hs := hl (j % 4)
  rw [if_pos hs]
  by_cases h4 : j < 4
  · simp only [h4, if_true, hj]
    rw [e j h4, Nat.mod_eq_of_lt h4, Nat.div_eq_of_lt h4]
    simp
  · have e1 : j % 4 = j - 4 := by omega
    have e2 : j / 4 = 1 := by omega
    rw [e1] at hs
    simp only [h4, if_false, e (j - 4) (show j - 4 < 4 by omega), e1, e2,
      if_pos (show 4 + sel4 s0 s1 s2 s3 (j - 4) < 8 by omega),
      if_neg (show ¬ 4 + sel4 s0 s1 s2 s3 (j - 4) < 4 by omega)]

theorem i_permute4_16_eq (hr : c.hasInt 16 r = true) (hn : n = r.lanes 16)
    {s0 s1 s2 s3 : Nat} (h0 : s0 < 4) (h1 : s1 < 4) (h2 : s2 < 4) (h3 : s3 < 4) (a : Vec 16 n) :
    i_permute4_16 c r s0 s1 s2 s3 a = some (gather 4 (sel4 s0 s1 s2 s3) a a) := by
  have hS : 8 ∣ n → some (Hw.shufflehi_epi16 (Hw.shufflelo_epi16 a (mask4x4 s0 s1 s2 s3)) (mask4x4 s0 s1 s2 s3)) =
      some (gather 4 (sel4 s0 s1 s2 s3) a a) := fun hd => congrArg some (shufflelohi_eq h0 h1 h2 h3 hd a)
  unfold i_permute4_16
  rw [if_neg (not_not.2 ⟨h0, h1, h2, h3⟩)]
  cases r
  · have hn : n = 8 := hn
    subst hn
    have hA : c.sse2 = false → maskPermute c 2 4 (sel4 s0 s1 s2 s3) a =
        some (gather 4 (sel4 s0 s1 s2 s3) a a) := by
      intro ha
      rw [maskPermute_eq (n := 8) (q := 2) (u := 4) h (fun hs => by rw [ha] at hs; cases hs) iw16 rfl (by decide)
        (fun p _ => sel4_lt h0 h1 h2 h3 p) rfl]
      have g3 : IsG 4 a a (gather 4 (sel4 s0 s1 s2 s3) a a) (sel4 s0 s1 s2 s3) := rfl
      refine congrArg some ((gather_congr (by decide) (fun j _ => ?_) a a).trans
        (IsG.widen (m := 2) (by decide) (by decide) g3).symm)
      unfold maskIdx wid
      dsimp only
      have := sel4_lt h0 h1 h2 h3 (j % 4)
      rw [if_neg (by omega), if_pos (by omega), if_pos this]
      simp
    dsimp only
    split_ifs with g1 g2 g3 g4 g5
    · exact Null.permute4_gather (by decide) h0 h1 h2 h3 a
    · exact hS (by decide)
    · have hc := all4_spec chk_n16_perm4 h0 h1 h2 h3
      cases e : Neon16.perm4 s0 s1 s2 s3 with
      | none => exact hA (by simpa using g2)
      | some p =>
        rw [e] at hc
        exact congrArg some (Prog.chk_run (by decide) (by decide) hc a a)
    · exact hA (by simpa using g2)
    · exact congrArg some (gather_congr (by decide) (fun j hj => (imm2_mask4x4 h0 h1 h2 h3 hj).1) a a)
    · cfg_absurd h
  · have hn : n = 16 := hn
    exact (if_pos (show c.avx2 = true from hr)).trans (hS (by omega))
  · have hn : n = 32 := hn
    exact (if_pos (show c.avx512bw = true from hr)).trans (hS (by omega))

theorem i_permute4_32_eq (gnuc : Bool) {k : Kind} (hr : c.hasVec k 32 r = true) (hn : n = r.lanes 32)
    {s0 s1 s2 s3 : Nat} (h0 : s0 < 4) (h1 : s1 < 4) (h2 : s2 < 4) (h3 : s3 < 4) (a : Vec 32 n) :
    i_permute4_32 c gnuc k r s0 s1 s2 s3 a = some (gather 4 (sel4 s0 s1 s2 s3) a a) := by
  have e := fun j hj => imm2_mask4x4 h0 h1 h2 h3 (j := j) hj
  have hI : Hw.shuffle_epi32 a (mmShuffle s3 s2 s1 s0) = gather 4 (sel4 s0 s1 s2 s3) a a :=
    gather_congr (by decide) (fun j hj => (e j hj).2) a a
  have h4n : 4 ∣ n := by subst hn; cases r <;> decide
  have hF : Hw.shuffle_ps a a (mmShuffle s3 s2 s1 s0) = gather 4 (sel4 s0 s1 s2 s3) a a := by
    have g := IsG.gather h4n (f := fun j => if j < 2 then Hw.imm2 (mmShuffle s3 s2 s1 s0) j
      else 4 + Hw.imm2 (mmShuffle s3 s2 s1 s0) j) (IsG.a (L := 4) (by decide) a a) (IsG.a (by decide) a a)
    refine g.eq (by decide) fun j hj => ?_
    have hs := sel4_lt h0 h1 h2 h3 j
    unfold comp
    dsimp only
    simp only [(e j hj).2]
    split_ifs <;> omega
  unfold i_permute4_32
  rw [if_neg (not_not.2 ⟨h0, h1, h2, h3⟩)]
  cases r
  · have hn : n = 4 := hn
    subst hn
    have hA : c.sse2 = false → maskPermute c 4 4 (sel4 s0 s1 s2 s3) a =
        some (gather 4 (sel4 s0 s1 s2 s3) a a) := by
      intro ha
      rw [maskPermute_eq (n := 4) (q := 4) (u := 4) h (fun hs => by rw [ha] at hs; cases hs) iw32 rfl (by decide)
        (fun p _ => sel4_lt h0 h1 h2 h3 p) rfl]
      exact congrArg some (gather_congr (by decide) (fun j hj => maskIdx_nat rfl (by decide) hj) a a)
    dsimp only
    split_ifs with g1 g2 g3 g4 g5 g6
    · exact Null.permute4_gather (by decide) h0 h1 h2 h3 a
    · cases k
      · exact congrArg some hI
      · exact congrArg some hF
    · rfl
    · exact congrArg some (Prog.chk_run (by decide) (by decide) (all4_spec chk_n32_perm4 h0 h1 h2 h3) a a)
    · exact hA (by simpa using g2)
    · exact congrArg some (gather_congr (by decide) (fun j hj => (e j hj).1) a a)
    · cfg_absurd h
  · dsimp only
    rw [if_pos hr]
    cases k
    · exact congrArg some hI
    · exact congrArg some hF
  · dsimp only
    rw [if_pos hr]
    cases k
    · exact congrArg some hI
    · exact congrArg some hF

omit h in
theorem gather_pair {w s0 s1 : Nat} (h0 : s0 < 2) (h1 : s1 < 2) (a b : Vec w n) :
    gather 4 (sel4 s0 s1 (s0 + 2) (s1 + 2)) a b = gather 2 (sel2 s0 s1) a b := by
  rw [← gather_dup2 (by omega) (by omega)]
  unfold dup2
  rw [if_pos h0, if_pos h1, if_pos h0, if_pos h1]

theorem i_permute2_16_eq (hr : c.hasInt 16 r = true) (hn : n = r.lanes 16)
    {s0 s1 : Nat} (h0 : s0 < 2) (h1 : s1 < 2) (a : Vec 16 n) :
    i_permute2_16 c r s0 s1 a = some (gather 2 (sel2 s0 s1) a a) := by
  unfold i_permute2_16
  rw [if_neg (not_not.2 ⟨h0, h1⟩), i_permute4_16_eq h hr hn (by omega) (by omega) (by omega) (by omega),
    gather_pair h0 h1]

theorem i_permute2_32_eq (gnuc : Bool) {k : Kind} (hr : c.hasVec k 32 r = true) (hn : n = r.lanes 32)
    {s0 s1 : Nat} (h0 : s0 < 2) (h1 : s1 < 2) (a : Vec 32 n) :
    i_permute2_32 c gnuc k r s0 s1 a = some (gather 2 (sel2 s0 s1) a a) := by
  unfold i_permute2_32
  rw [if_neg (not_not.2 ⟨h0, h1⟩), i_permute4_32_eq h gnuc hr hn (by omega) (by omega) (by omega) (by omega),
    gather_pair h0 h1]

/-! ## shuffle2x2 -/

omit h in
/-- The x86 instantiations of `shuffle2x2` on 32-bit lanes that select correctly. -/
def ok2x2_32 (c : Cfg) (k : Kind) (r : Reg) (s0 s1 : Nat) : Bool :=
  !c.sse2 || decide (s0 < 2 ∧ s1 < 2) || decide (2 ≤ s0 ∧ 2 ≤ s1) ||
    ((c.sse41 || decide (r ≠ .r128)) && decide (¬ (k = .int ∧ r = .r256)) &&
      decide ((s0 = 0 ∧ s1 = 3) ∨ (s0 = 2 ∧ s1 = 1)))

omit h in
theorem chk_2x2 : ∀ (b : Bool) (k : Kind) (r : Reg), all2 4 (fun s0 s1 =>
    (ok2x2_32 { Cfg.sse2Only with sse41 := b } k r s0 s1) ==
      (sse2x2_32 b k r s0 s1).chk 4 (r.lanes 32) 32 (dup2 s0 s1)) = true := by
  intro b k r
  cases b <;> cases k <;> cases r <;> decide +kernel

omit h in
theorem chk_n32_2x2 : all2 4 (fun s0 s1 => (Neon32.shuffle2x2 s0 s1).chk 4 4 32 (dup2 s0 s1)) = true := by
  decide +kernel

theorem i_shuffle2x2_32_eq {k : Kind} (hr : c.hasVec k 32 r = true) (hn : n = r.lanes 32)
    {s0 s1 : Nat} (h0 : s0 < 4) (h1 : s1 < 4) (hok : ok2x2_32 c k r s0 s1 = true) (a b : Vec 32 n) :
    i_shuffle2x2_32 c k r s0 s1 a b = some (gather 2 (sel2 s0 s1) a b) := by
  rw [← gather_dup2 h0 h1]
  have h4n : 4 ∣ n := by subst hn; cases r <;> decide
  have hS : c.sse2 = true → some ((sse2x2_32 c.sse41 k r s0 s1).run 4 a b) = some (gather 4 (dup2 s0 s1) a b) := by
    intro hs
    have := all2_spec (chk_2x2 c.sse41 k r) h0 h1
    rw [beq_iff_eq] at this
    refine congrArg some (Prog.chk_run (by decide) h4n (hn ▸ this ▸ ?_) a b)
    unfold ok2x2_32 at hok ⊢
    rw [hs] at hok
    exact hok
  unfold i_shuffle2x2_32
  rw [if_neg (not_not.2 ⟨h0, h1⟩)]
  cases r
  · have hn : n = 4 := hn
    subst hn
    dsimp only
    split_ifs with g1 g2 g3 g4 g5
    · exact Null.shuffle2x2_32_eq h0 h1 a b
    · exact hS g2
    · exact congrArg some (Prog.chk_run (by decide) (by decide) (all2_spec chk_n32_2x2 h0 h1) a b)
    · rw [maskShuffle_eq (n := 4) (q := 4) (u := 2) h (fun hs => absurd hs g2) iw32 rfl (by decide)
        (fun p _ => sel2_lt h0 h1 p) rfl]
      refine congrArg some (gather_congr (by decide) (fun j hj => ?_) a b)
      interval_cases s0 <;> interval_cases s1 <;> interval_cases j <;> rfl
    all_goals first
      | (refine congrArg some (gather_congr (by decide) (fun j hj => ?_) a b)
         interval_cases s0 <;> interval_cases s1 <;> interval_cases j <;> rfl)
      | (clear hok hS
         cfg_absurd h)
  · exact (if_pos hr).trans (hS (by exact sse_of_wide h (by decide) hr))
  · exact (if_pos hr).trans (hS (by exact sse_of_wide h (by decide) hr))


/-! ## The property -/

omit h in
theorem lanes32_dvd (r : Reg) : 4 ∣ r.lanes 32 ∧ 2 ∣ r.lanes 32 ∧ 4 ∣ r.lanes 16 ∧ 2 ∣ r.lanes 16 := by
  cases r <;> decide

/-- C18 (`shuffle4x2<s0,s1,s2,s3>`, 32-bit elements): for all 4096 selector tuples, all contents, any
number of registers, `float32` and `uint32`/`int32`, on every configuration: element `j` of each group of
four is element `s_j` of the corresponding eight elements `ab`. -/
theorem C18_shuffle4x2_32 {k : Kind} (hr : c.hasVec k 32 r = true)
    {s0 s1 s2 s3 : Nat} (h0 : s0 < 8) (h1 : s1 < 8) (h2 : s2 < 8) (h3 : s3 < 8) {K : Nat}
    (a b d : Fin K → Vec 32 (r.lanes 32)) :
    ∃ res, Arr.apply2 (i_shuffle4x2_32 c k r s0 s1 s2 s3) a b 0 d = some res ∧
      Picks 4 (fun j => if j = 0 then s0 else if j = 1 then s1 else if j = 2 then s2 else s3)
        (Arr.flat a : Vec 32 (K * r.lanes 32)) (Arr.flat b) (Arr.flat res) := by
  obtain ⟨res, e1, e2⟩ := long2 (lanes32_dvd r).1 (by decide)
    (i_shuffle4x2_32_eq h hr rfl h0 h1 h2 h3) a b d
  exact ⟨res, e1, e2 ▸ picks_gather (fun j _ => sel4_lt h0 h1 h2 h3 j) _ _⟩

/-- C18 (`shuffle2<sa0,sa1,sb0,sb1>`): the low two elements of every group of four come from `a`, the
high two from `b`. -/
theorem C18_shuffle2_32 {k : Kind} (hr : c.hasVec k 32 r = true)
    {sa0 sa1 sb0 sb1 : Nat} (h0 : sa0 < 4) (h1 : sa1 < 4) (h2 : sb0 < 4) (h3 : sb1 < 4) {K : Nat}
    (a b d : Fin K → Vec 32 (r.lanes 32)) :
    ∃ res, Arr.apply2 (shuffle2 c k r sa0 sa1 sb0 sb1) a b 0 d = some res ∧
      ∀ q, q * 4 + 4 ≤ K * r.lanes 32 →
        let R : Vec 32 (K * r.lanes 32) := Arr.flat res
        let A : Vec 32 (K * r.lanes 32) := Arr.flat a
        let B : Vec 32 (K * r.lanes 32) := Arr.flat b
        R.at_ (q * 4) = A.at_ (q * 4 + sa0) ∧ R.at_ (q * 4 + 1) = A.at_ (q * 4 + sa1) ∧
        R.at_ (q * 4 + 2) = B.at_ (q * 4 + sb0) ∧ R.at_ (q * 4 + 3) = B.at_ (q * 4 + sb1) := by
  obtain ⟨res, e1, e2⟩ := C18_shuffle4x2_32 h hr (s0 := sa0) (s1 := sa1) (s2 := sb0 + 4) (s3 := sb1 + 4)
    (by omega) (by omega) (by omega) (by omega) a b d
  refine ⟨res, ?_, fun q hq => ?_⟩
  · rw [← e1]
    congr 1
    funext x y
    unfold shuffle2
    rw [if_neg (not_not.2 ⟨h0, h1, h2, h3⟩)]
  · dsimp only
    have p0 := e2 q 0 (by decide) (by omega)
    have p1 := e2 q 1 (by decide) (by omega)
    have p2 := e2 q 2 (by decide) (by omega)
    have p3 := e2 q 3 (by decide) (by omega)
    simp only [Nat.add_zero, if_true, Nat.one_ne_zero, if_false, reduceCtorEq, OfNat.ofNat_ne_zero,
      Nat.reduceEqDiff, h0, h1, if_neg (show ¬ sb0 + 4 < 4 by omega), if_neg (show ¬ sb1 + 4 < 4 by omega),
      Nat.add_sub_cancel] at p0 p1 p2 p3
    exact ⟨p0, p1, p2, p3⟩

/-- C18 (`permute4`, 16-bit elements). -/
theorem C18_permute4_16 (hr : c.hasInt 16 r = true)
    {s0 s1 s2 s3 : Nat} (h0 : s0 < 4) (h1 : s1 < 4) (h2 : s2 < 4) (h3 : s3 < 4) {K : Nat}
    (a d : Fin K → Vec 16 (r.lanes 16)) :
    ∃ res, Arr.apply1 (i_permute4_16 c r s0 s1 s2 s3) a 0 d = some res ∧
      Picks 4 (fun j => if j = 0 then s0 else if j = 1 then s1 else if j = 2 then s2 else s3)
        (Arr.flat a : Vec 16 (K * r.lanes 16)) (Arr.flat a) (Arr.flat res) := by
  obtain ⟨res, e1, e2⟩ := long1 (lanes32_dvd r).2.2.1 (by decide)
    (i_permute4_16_eq h hr rfl h0 h1 h2 h3) a d
  exact ⟨res, e1, e2 ▸ picks_gather (fun j _ => sel4_lt (by omega) (by omega) (by omega) (by omega) j) _ _⟩

/-- C18 (`permute4`, 32-bit elements), with either NEON code path. -/
theorem C18_permute4_32 (gnuc : Bool) {k : Kind} (hr : c.hasVec k 32 r = true)
    {s0 s1 s2 s3 : Nat} (h0 : s0 < 4) (h1 : s1 < 4) (h2 : s2 < 4) (h3 : s3 < 4) {K : Nat}
    (a d : Fin K → Vec 32 (r.lanes 32)) :
    ∃ res, Arr.apply1 (i_permute4_32 c gnuc k r s0 s1 s2 s3) a 0 d = some res ∧
      Picks 4 (fun j => if j = 0 then s0 else if j = 1 then s1 else if j = 2 then s2 else s3)
        (Arr.flat a : Vec 32 (K * r.lanes 32)) (Arr.flat a) (Arr.flat res) := by
  obtain ⟨res, e1, e2⟩ := long1 (lanes32_dvd r).1 (by decide)
    (i_permute4_32_eq h gnuc hr rfl h0 h1 h2 h3) a d
  exact ⟨res, e1, e2 ▸ picks_gather (fun j _ => sel4_lt (by omega) (by omega) (by omega) (by omega) j) _ _⟩

/-- C18 (`permute2`, 16-bit elements). -/
theorem C18_permute2_16 (hr : c.hasInt 16 r = true)
    {s0 s1 : Nat} (h0 : s0 < 2) (h1 : s1 < 2) {K : Nat} (a d : Fin K → Vec 16 (r.lanes 16)) :
    ∃ res, Arr.apply1 (i_permute2_16 c r s0 s1) a 0 d = some res ∧
      Picks 2 (fun j => if j = 0 then s0 else s1)
        (Arr.flat a : Vec 16 (K * r.lanes 16)) (Arr.flat a) (Arr.flat res) := by
  obtain ⟨res, e1, e2⟩ := long1 (lanes32_dvd r).2.2.2 (by decide)
    (i_permute2_16_eq h hr rfl h0 h1) a d
  exact ⟨res, e1, e2 ▸ picks_gather (fun j _ => sel2_lt (by omega) (by omega) j) _ _⟩

/-- C18 (`permute2`, 32-bit elements). -/
theorem C18_permute2_32 (gnuc : Bool) {k : Kind} (hr : c.hasVec k 32 r = true)
    {s0 s1 : Nat} (h0 : s0 < 2) (h1 : s1 < 2) {K : Nat} (a d : Fin K → Vec 32 (r.lanes 32)) :
    ∃ res, Arr.apply1 (i_permute2_32 c gnuc k r s0 s1) a 0 d = some res ∧
      Picks 2 (fun j => if j = 0 then s0 else s1)
        (Arr.flat a : Vec 32 (K * r.lanes 32)) (Arr.flat a) (Arr.flat res) := by
  obtain ⟨res, e1, e2⟩ := long1 (lanes32_dvd r).2.1 (by decide)
    (i_permute2_32_eq h gnuc hr rfl h0 h1) a d
  exact ⟨res, e1, e2 ▸ picks_gather (fun j _ => sel2_lt (by omega) (by omega) j) _ _⟩

/-- C18 (`shuffle2x2`, 32-bit elements): correct on every configuration without SSE2, and on x86 for the
instantiations listed in `ok2x2_32`. The other x86 instantiations are wrong: `C18_shuffle2x2_32_wrong`. -/
theorem C18_shuffle2x2_32_partial {k : Kind} (hr : c.hasVec k 32 r = true)
    {s0 s1 : Nat} (h0 : s0 < 4) (h1 : s1 < 4) (hok : ok2x2_32 c k r s0 s1 = true) {K : Nat}
    (a b d : Fin K → Vec 32 (r.lanes 32)) :
    ∃ res, Arr.apply2 (i_shuffle2x2_32 c k r s0 s1) a b 0 d = some res ∧
      Picks 2 (fun j => if j = 0 then s0 else s1)
        (Arr.flat a : Vec 32 (K * r.lanes 32)) (Arr.flat b) (Arr.flat res) := by
  obtain ⟨res, e1, e2⟩ := long2 (lanes32_dvd r).2.1 (by decide)
    (i_shuffle2x2_32_eq h hr rfl h0 h1 hok) a b d
  exact ⟨res, e1, e2 ▸ picks_gather (fun j _ => sel2_lt (by omega) (by omega) j) _ _⟩

/-- Test vectors whose lanes are all different. -/
def iotaA (w n : Nat) : Vec w n := fun i => BitVec.ofNat w (i.val + 1)
/-- Test vectors whose lanes are all different. -/
def iotaB (w n : Nat) : Vec w n := fun i => BitVec.ofNat w (i.val + 101)

omit h in
theorem wrong_2x2 : ∀ (b : Bool) (k : Kind) (r : Reg), all2 4 (fun s0 s1 =>
    ok2x2_32 { Cfg.sse2Only with sse41 := b } k r s0 s1 ||
    (List.range (r.lanes 32)).any fun i =>
      (((sse2x2_32 b k r s0 s1).run 4 (iotaA 32 (r.lanes 32)) (iotaB 32 (r.lanes 32))).at_ i).toNat !=
      ((gather 2 (sel2 s0 s1) (iotaA 32 (r.lanes 32)) (iotaB 32 (r.lanes 32))).at_ i).toNat) = true := by
  intro b k r
  cases b <;> cases k <;> cases r <;> decide +kernel

/-- The full C18 claim is false for the remaining x86 instantiations of the 32-bit `shuffle2x2`:
there are inputs on which the documented element is not the one returned. -/
theorem C18_shuffle2x2_32_wrong {k : Kind} (hr : c.hasVec k 32 r = true)
    {s0 s1 : Nat} (h0 : s0 < 4) (h1 : s1 < 4) (hok : ok2x2_32 c k r s0 s1 = false) :
    ∃ (a b res : Vec 32 (r.lanes 32)), i_shuffle2x2_32 c k r s0 s1 a b = some res ∧
      ¬ Picks 2 (fun j => if j = 0 then s0 else s1) a b res := by
  have hs : c.sse2 = true := by
    unfold ok2x2_32 at hok
    cases e : c.sse2
    · rw [e] at hok; simp at hok
    · rfl
  refine ⟨iotaA _ _, iotaB _ _, (sse2x2_32 c.sse41 k r s0 s1).run 4 (iotaA _ _) (iotaB _ _), ?_, ?_⟩
  · unfold i_shuffle2x2_32
    rw [if_neg (not_not.2 ⟨h0, h1⟩)]
    cases r
    · dsimp only
      rw [if_neg (show ¬ c.null = true by rw [h.null, hs]; simp), if_pos hs]
    · exact if_pos hr
    · exact if_pos hr
  · intro hp
    have hw := all2_spec (wrong_2x2 c.sse41 k r) h0 h1
    have hok' : ok2x2_32 { Cfg.sse2Only with sse41 := c.sse41 } k r s0 s1 = false := by
      rw [← hok]
      unfold ok2x2_32
      rw [hs]
      rfl
    rw [hok', Bool.false_or, List.any_eq_true] at hw
    obtain ⟨i, hi, hne⟩ := hw
    rw [List.mem_range] at hi
    have p := hp (i / 2) (i % 2) (Nat.mod_lt _ (by decide)) (by omega)
    have q := picks_gather (L := 2) (f := sel2 s0 s1) (fun j _ => sel2_lt (by omega) (by omega) j)
      (iotaA 32 (r.lanes 32)) (iotaB 32 (r.lanes 32)) (i / 2) (i % 2) (Nat.mod_lt _ (by decide)) (by omega)
    rw [show i / 2 * 2 + i % 2 = i by omega] at p q
    have : _ = _ := p.trans q.symm
    rw [this] at hne
    simp at hne

end

/-- C18: an out-of-range selector is a compile-time error. -/
theorem C18_rejects {c : Cfg} {k : Kind} {r : Reg} {s0 s1 s2 s3 : Nat} (a b : Vec 32 n) :
    ((8 ≤ s0 ∨ 8 ≤ s1 ∨ 8 ≤ s2 ∨ 8 ≤ s3) → i_shuffle4x2_32 c k r s0 s1 s2 s3 a b = none) ∧
    ((4 ≤ s0 ∨ 4 ≤ s1) → i_shuffle2x2_32 c k r s0 s1 a b = none) ∧
    ((4 ≤ s0 ∨ 4 ≤ s1 ∨ 4 ≤ s2 ∨ 4 ≤ s3) → ∀ g, i_permute4_32 c g k r s0 s1 s2 s3 a = none) := by
  refine ⟨fun h => if_pos (by omega), fun h => if_pos (by omega), fun h g => if_pos (by omega)⟩

/-! Non-vacuity: concrete configurations meet the hypotheses. -/

example : Cfg.avx2Only.hasVec .int 32 .r256 = true ∧ Cfg.avx512All.hasVec .flt 32 .r512 = true ∧
    ok2x2_32 Cfg.avx512All .int .r512 0 3 = true ∧ ok2x2_32 Cfg.neonA64 .flt .r128 1 2 = true ∧
    ok2x2_32 Cfg.sse2Only .flt .r128 0 2 = false ∧ ok2x2_32 Cfg.avx2Only .int .r256 0 3 = false := by decide

/-- `shuffle4x2<1,4,6,3>` on SSE2 with concrete contents. -/
example : ∃ res, i_shuffle4x2_32 Cfg.sse2Only .int .r128 1 4 6 3
      (fun i => [10, 11, 12, 13].getD i.val 0) (fun i => [20, 21, 22, 23].getD i.val 0 : Vec 32 4) = some res ∧
    res 0 = 11 ∧ res 1 = 20 ∧ res 2 = 22 ∧ res 3 = 13 :=
  ⟨_, i_shuffle4x2_32_eq Cfg.sse2Only_ok rfl rfl (by decide) (by decide) (by decide) (by decide) _ _,
    by decide⟩

end Simdpp
