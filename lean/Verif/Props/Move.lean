import Verif.Model.Move
import Verif.Props.Zip

/-!
# C19: move_l, move_r, align
-/

namespace Simdpp
open Spec Sh

variable {w n : Nat}

theorem at_zero (k : Nat) : (Vec.splat 0 : Vec w n).at_ k = 0 := by
  by_cases h : k < n
  · rw [Vec.at_lt _ h]; rfl
  · exact Vec.at_ge _ (by omega)

theorem recast_zero {v m : Nat} : (Vec.splat 0 : Vec w n).recast v m = Vec.splat 0 := by
  funext i
  apply BitVec.eq_of_getLsbD_eq
  intro k hk
  rw [Vec.recast_getLsbD]
  unfold Vec.bit
  rw [at_zero]
  simp [Vec.splat]

/-- Shifting in zeros from the right. -/
theorem slideL {L s : Nat} (hL : 0 < L) (hs : s ≤ L) (a : Vec w n) :
    gather L (fun j => if j + s < L then j + s else 2 * L) a a = gather L (fun j => j + s) a (Vec.splat 0) := by
  funext i
  unfold gather
  dsimp only
  have := Nat.mod_lt i.val hL
  rw [at_zero]
  split_ifs <;> first | omega | rfl

/-- Shifting in zeros from the left. -/
theorem slideR {L s : Nat} (hL : 0 < L) (hs : s ≤ L) (a : Vec w n) :
    gather L (fun j => if s ≤ j then j - s else 2 * L) a a = gather L (fun j => j + (L - s)) (Vec.splat 0) a := by
  funext i
  unfold gather
  dsimp only
  have := Nat.mod_lt i.val hL
  rw [at_zero]
  split_ifs <;> first | omega | rfl | (congr 1; omega)

theorem Hw.bsrli_eq {s : Nat} (hs : s ≤ 16) (a : Vec 8 n) :
    Hw.bsrli a s = gather 16 (fun j => j + s) a (Vec.splat 0) := slideL (by decide) hs a
theorem Hw.bslli_eq {s : Nat} (hs : s ≤ 16) (a : Vec 8 n) :
    Hw.bslli a s = gather 16 (fun j => j + (16 - s)) (Vec.splat 0) a := slideR (by decide) hs a

theorem sldBi_eq {s : Nat} (h0 : 0 < s) (hs : s ≤ 16) (l u : Vec 8 n) :
    sldBi s l u = some (gather 16 (fun j => j + s) l u) := by
  unfold sldBi Hw.sld
  rw [if_pos (by omega)]
  congr 1
  refine gather_swap (by decide) l u fun j hj => ?_
  split_ifs <;> omega

theorem move_n_l_gather {s : Nat} (hs : s ≤ n) (a : Vec w n) :
    Null.move_n_l s a = some (gather n (fun j => j + s) a (Vec.splat 0)) := by
  rw [Null.move_n_l_eq hs]
  congr 1
  refine eq_gather_one _ _ fun i => ?_
  have := i.isLt
  rw [at_zero]
  split_ifs <;> first | omega | rfl

theorem move_n_r_gather {s : Nat} (hs : s ≤ n) (a : Vec w n) :
    Null.move_n_r s a = some (gather n (fun j => j + (n - s)) (Vec.splat 0) a) := by
  rw [Null.move_n_r_eq hs]
  congr 1
  refine eq_gather_one _ _ fun i => ?_
  have := i.isLt
  rw [at_zero]
  split_ifs <;> first | omega | rfl | (congr 1; omega)

theorem align_gather {s : Nat} (hs : s ≤ n) (l u : Vec w n) :
    Null.align s l u = some (gather n (fun j => j + s) l u) := by
  rw [Null.align_eq hs]
  congr 1
  refine eq_gather_one _ _ fun i => ?_
  have := i.isLt
  split_ifs <;> first | omega | rfl

section
variable {c : Cfg} (h : c.Ok) {r : Reg} {k : Kind}
include h

theorem i_move16_l_eq {s : Nat} (h0 : 0 < s) (hs : s < 16) (hr : c.hasInt 8 r = true) (hn : n = r.lanes 8) (a : Vec 8 n) :
    i_move16_l c r s a = some (gather 16 (fun j => j + s) a (Vec.splat 0)) := by
  unfold i_move16_l
  rw [if_neg (by omega)]
  have hb := congrArg some (Hw.bsrli_eq (s := s) (by omega) a)
  cases r
  · dsimp only
    have hz : Null.move_n_l s a = some (gather 16 (fun j => j + s) a (Vec.splat 0)) := by
      subst hn; exact move_n_l_gather (n := 16) (by omega) a
    have he : Hw.ext a (Vec.splat 0) s = some (gather 16 (fun j => j + s) a (Vec.splat 0)) := if_pos (by omega)
    have hl := sldBi_eq h0 (by omega) a (Vec.splat 0)
    have hd : Hw.sldi_b (Vec.splat 0) a s = some (gather 16 (fun j => j + s) a (Vec.splat 0)) := if_pos (by omega)
    split_ifs <;> first | exact hz | exact he | exact hl | exact hb | exact hd | (clear hz he hl hb hd; cfg_absurd h)
  · exact (if_pos hr).trans hb
  · exact (if_pos hr).trans hb

theorem i_move16_r_eq {s : Nat} (h0 : 0 < s) (hs : s < 16) (hr : c.hasInt 8 r = true) (hn : n = r.lanes 8) (a : Vec 8 n) :
    i_move16_r c r s a = some (gather 16 (fun j => j + (16 - s)) (Vec.splat 0) a) := by
  unfold i_move16_r
  rw [if_neg (by omega)]
  have hb := congrArg some (Hw.bslli_eq (s := s) (by omega) a)
  cases r
  · dsimp only
    have hz : Null.move_n_r s a = some (gather 16 (fun j => j + (16 - s)) (Vec.splat 0) a) := by
      subst hn; exact move_n_r_gather (n := 16) (by omega) a
    have he : Hw.ext (Vec.splat 0) a (16 - s) = some (gather 16 (fun j => j + (16 - s)) (Vec.splat 0) a) := if_pos (by omega)
    have hl := sldBi_eq (s := 16 - s) (by omega) (by omega) (Vec.splat 0) a
    have hd : Hw.sldi_b a (Vec.splat 0) (16 - s) = some (gather 16 (fun j => j + (16 - s)) (Vec.splat 0) a) := if_pos (by omega)
    split_ifs <;> first | exact hz | exact he | exact hl | exact hb | exact hd | (clear hz he hl hb hd; cfg_absurd h)
  · exact (if_pos hr).trans hb
  · exact (if_pos hr).trans hb

omit h in
/-- A byte-level slide is an element-level slide. -/
theorem slide_recast (hw : IsW w) (hn : n = r.lanes w) (t : Nat) (a b : Vec w n) :
    (gather 16 (fun j => j + t * (w / 8)) (a.recast 8 (n * (w / 8))) (b.recast 8 (n * (w / 8)))).recast w n =
      gather (128 / w) (fun j => j + t) a b := by
  have hq : 0 < w / 8 := by rcases hw with e | e | e | e <;> subst e <;> decide
  have hL : 0 < 128 / w := (blkL hw).1
  have e16 : 16 = 128 / w * (w / 8) := by rcases hw with e | e | e | e <;> subst e <;> rfl
  have e := gather_recast (w := w) (v := 8) (q := w / 8) (L := 128 / w) (by decide) hq hL
    (by rcases hw with e | e | e | e <;> subst e <;> rfl) rfl (by rw [hn]; exact lanesW_dvd hw r) (fun j => j + t)
    (fun j => j + t * (w / 8)) (fun j _ => by
      unfold ex
      have := Nat.div_add_mod' j (w / 8)
      rw [Nat.add_mul]; omega) a b
  rw [← e16] at e
  exact e

omit h in
theorem onBytes_l (hw : IsW w) (hn : n = r.lanes w) {t : Nat} {op} (a : Vec w n)
    (hop : ∀ x, op x = some (gather 16 (fun j => j + t * (w / 8)) x (Vec.splat 0))) :
    onBytes op a = some (gather (128 / w) (fun j => j + t) a (Vec.splat 0)) := by
  unfold onBytes
  rw [hop, Option.map_some]
  have := slide_recast hw hn t a (Vec.splat 0)
  rw [recast_zero] at this
  rw [this]

omit h in
theorem onBytes_r (hw : IsW w) (hn : n = r.lanes w) {s : Nat} (hs : s ≤ 128 / w) {op} (a : Vec w n)
    (hop : ∀ x, op x = some (gather 16 (fun j => j + (16 - s * (w / 8))) (Vec.splat 0) x)) :
    onBytes op a = some (gather (128 / w) (fun j => j + (128 / w - s)) (Vec.splat 0) a) := by
  have e16 : 16 - s * (w / 8) = (128 / w - s) * (w / 8) := by
    rw [Nat.sub_mul]
    congr 1
    rcases hw with e | e | e | e <;> subst e <;> rfl
  unfold onBytes
  rw [hop, Option.map_some, e16]
  have := slide_recast hw hn (128 / w - s) (Vec.splat 0) a
  rw [recast_zero] at this
  rw [this]

omit h in
theorem onBytes2_eq (hw : IsW w) (hn : n = r.lanes w) {t : Nat} {op} (a b : Vec w n)
    (hop : ∀ x y, op x y = some (gather 16 (fun j => j + t * (w / 8)) x y)) :
    onBytes2 op a b = some (gather (128 / w) (fun j => j + t) a b) := by
  unfold onBytes2
  rw [hop, Option.map_some, slide_recast hw hn]

omit h in
theorem byPair_eq {f : Nat → Nat} {op : Vec 8 16 → Option (Vec 8 16)} (hn : n = 32)
    (hop : ∀ x, op x = some (gather 16 f x x)) (a : Vec 8 n) : byPair op a = some (gather 16 f a a) := by
  subst hn
  unfold byPair
  dsimp only
  obtain ⟨res, e1, e2⟩ := long1 (L := 16) (l := 16) (K := 2) (Nat.dvd_refl 16) (by decide) hop
    (fun i j => a.at_ (i.val * 16 + j.val)) (fun _ => Vec.splat 0)
  rw [e1, Option.map_some, e2]
  have hf : (Arr.flat (fun (i : Fin 2) (j : Fin 16) => a.at_ (i.val * 16 + j.val)) : Vec 8 (2 * 16)) = a := by
    apply ext_at
    intro j hj
    rw [flat_at _ hj, Vec.at_lt _ (Nat.mod_lt _ (by decide))]
    show a.at_ (j / 16 * 16 + j % 16) = _
    rw [Nat.div_add_mod']
  rw [hf]
  congr 1
  funext i
  exact Vec.at_fin _ i

/-! ### 512-bit sequences -/

omit h in
theorem maskzi_slide {L m : Nat} {f g : Nat → Nat} (hL : 0 < L) (x y : Vec w n)
    (hf : ∀ i, i < n → if m.testBit i then f (i % L) < L ∧ g (i % L) = f (i % L) else L ≤ g (i % L)) (a : Vec w n)
    (hx : x = gather L f a y) : Hw.maskzi m x = gather L g a (Vec.splat 0) := by
  subst hx
  funext i
  unfold Hw.maskzi gather
  have := hf i.val i.isLt
  dsimp only
  rw [at_zero]
  by_cases ht : m.testBit i.val
  · rw [if_pos ht] at this ⊢
    rw [this.2, if_pos this.1, if_pos this.1]
  · rw [if_neg ht] at this ⊢
    rw [if_neg (by omega)]
    split_ifs <;> rfl

omit h in
theorem maskzi_slide' {L m : Nat} {f g : Nat → Nat} (hL : 0 < L) (x y : Vec w n)
    (hf : ∀ i, i < n → if m.testBit i then f (i % L) < L ∧ g (i % L) = L + f (i % L) else g (i % L) < L) (a : Vec w n)
    (hx : x = gather L f a y) : Hw.maskzi m x = gather L g (Vec.splat 0) a := by
  subst hx
  funext i
  unfold Hw.maskzi gather
  have := hf i.val i.isLt
  dsimp only
  rw [at_zero]
  by_cases ht : m.testBit i.val
  · rw [if_pos ht] at this ⊢
    rw [if_pos this.1, this.2, if_neg (by omega), if_pos (by omega), Nat.add_sub_cancel_left]
  · rw [if_neg ht] at this ⊢
    rw [if_pos this]

omit h in
theorem gather_self {L : Nat} (hL : 0 < L) {f : Nat → Nat} (hf : ∀ j, j < L → f j < 2 * L) (a : Vec w n) :
    gather L f a a = gather L (fun j => f j % L) a a := by
  funext i
  unfold gather
  dsimp only
  have h1 := Nat.mod_lt i.val hL
  have h2 := hf _ h1
  generalize f (i.val % L) = t at h2
  by_cases ht : t < L
  · rw [if_pos ht, if_pos (Nat.mod_lt _ hL), Nat.mod_eq_of_lt ht]
  · rw [if_neg ht, if_pos h2, if_pos (Nat.mod_lt _ hL)]
    congr 2
    rw [Nat.mod_eq_sub_mod (by omega), Nat.mod_eq_of_lt (by omega)]

omit h in
theorem shuffle_ps_self (a : Vec 32 n) (imm : Nat) : Hw.shuffle_ps a a imm = Hw.shuffle_epi32 a imm := by
  unfold Hw.shuffle_ps Hw.shuffle_epi32
  rw [gather_self (by decide)]
  · refine gather_congr (by decide) (fun j _ => ?_) a a
    have := imm2_lt imm j
    split_ifs <;> omega
  · intro j _
    have := imm2_lt imm j
    split_ifs <;> omega

omit h in
theorem shuffle_pd_gather {imm : Nat} (hi : ∀ i, i < n → imm.testBit i = imm.testBit (i % 2)) (a b : Vec w n) :
    Hw.shuffle_pd a b imm =
      gather 2 (fun j => if j = 0 then (imm.testBit 0).toNat else 2 + (imm.testBit 1).toNat) a b := by
  funext i
  unfold Hw.shuffle_pd gather
  dsimp only
  rw [hi _ i.isLt]
  have hb : ∀ b : Bool, b.toNat < 2 := by decide
  rcases Nat.mod_two_eq_zero_or_one i.val with e | e
  · rw [e, if_pos rfl, if_pos rfl, if_pos (hb _)]
  · rw [e, if_neg (by decide), if_neg (show ¬ (1 : Nat) = 0 by decide), if_neg (by omega),
      if_pos (by have := hb (imm.testBit 1); omega), Nat.add_sub_cancel_left]

omit h in
theorem move4_l_512_eq {s : Nat} (h0 : 0 < s) (hs : s < 4) (hn : n = 16) (a : Vec 32 n) :
    move4_l_512 k s a = some (gather 4 (fun j => j + s) a (Vec.splat 0)) := by
  subst hn
  have key : ∀ (m imm : Nat), (∀ i, i < 16 → if m.testBit i then Hw.imm2 imm (i % 4) < 4 ∧ i % 4 + s = Hw.imm2 imm (i % 4) else 4 ≤ i % 4 + s) →
      Hw.maskzi m (shuf32 k a imm) = gather 4 (fun j => j + s) a (Vec.splat 0) := by
    intro m imm hm
    refine maskzi_slide (f := fun j => Hw.imm2 imm j) (by decide) _ a hm a ?_
    cases k
    · rfl
    · exact shuffle_ps_self a imm
  unfold move4_l_512
  rw [if_neg (by omega)]
  interval_cases s <;> (refine congrArg some (key _ _ ?_); decide)

omit h in
theorem move4_r_512_eq {s : Nat} (h0 : 0 < s) (hs : s < 4) (hn : n = 16) (a : Vec 32 n) :
    move4_r_512 k s a = some (gather 4 (fun j => j + (4 - s)) (Vec.splat 0) a) := by
  subst hn
  have key : ∀ (m imm : Nat), (∀ i, i < 16 → if m.testBit i then Hw.imm2 imm (i % 4) < 4 ∧ i % 4 + (4 - s) = 4 + Hw.imm2 imm (i % 4) else i % 4 + (4 - s) < 4) →
      Hw.maskzi m (shuf32 k a imm) = gather 4 (fun j => j + (4 - s)) (Vec.splat 0) a := by
    intro m imm hm
    refine maskzi_slide' (f := fun j => Hw.imm2 imm j) (by decide) _ a hm a ?_
    cases k
    · rfl
    · exact shuffle_ps_self a imm
  unfold move4_r_512
  rw [if_neg (by omega)]
  interval_cases s <;> (refine congrArg some (key _ _ ?_); decide)

omit h in
theorem move2_l_512f_eq (hn : n = 8) (a : Vec w n) :
    move2_l_512f 1 a = some (gather 2 (fun j => j + 1) a (Vec.splat 0)) := by
  subst hn
  unfold move2_l_512f
  rw [if_neg (by omega)]
  refine congrArg some ?_
  refine maskzi_slide (f := fun j => 1) (by decide) _ a (by decide) a ?_
  rw [shuffle_pd_gather (by decide), gather_self (by decide) (by decide)]
  exact gather_congr (by decide) (by decide) a a

omit h in
theorem move2_r_512f_eq (hn : n = 8) (a : Vec w n) :
    move2_r_512f 1 a = some (gather 2 (fun j => j + 1) (Vec.splat 0) a) := by
  subst hn
  unfold move2_r_512f
  rw [if_neg (by omega)]
  refine congrArg some ?_
  refine maskzi_slide' (f := fun j => 0) (by decide) _ a (by decide) a ?_
  rw [shuffle_pd_gather (by decide), gather_self (by decide) (by decide)]
  exact gather_congr (by decide) (by decide) a a

omit h in
/-- A 32-bit slide is an element-level slide. -/
theorem slide_recast32 (hw : w = 32 ∨ w = 64) (hn : n = r.lanes w) (t : Nat) (a b : Vec w n) :
    (gather 4 (fun j => j + t * (w / 32)) (a.recast 32 (n * (w / 32))) (b.recast 32 (n * (w / 32)))).recast w n =
      gather (128 / w) (fun j => j + t) a b := by
  have hw' : IsW w := by rcases hw with rfl | rfl; exact iw32; exact iw64
  have hq : 0 < w / 32 := by rcases hw with e | e <;> subst e <;> decide
  have e16 : 4 = 128 / w * (w / 32) := by rcases hw with e | e <;> subst e <;> rfl
  have e := gather_recast (w := w) (v := 32) (q := w / 32) (L := 128 / w) (by decide) hq (blkL hw').1
    (by rcases hw with e | e <;> subst e <;> rfl) rfl (by rw [hn]; exact lanesW_dvd hw' r) (fun j => j + t)
    (fun j => j + t * (w / 32)) (fun j _ => by
      unfold ex
      have := Nat.div_add_mod' j (w / 32)
      rw [Nat.add_mul]; omega) a b
  rw [← e16] at e
  exact e

omit h in
theorem mul_lt16 (hw : IsW w) {s : Nat} (h0 : 0 < s) (hs : s < 128 / w) : 0 < s * (w / 8) ∧ s * (w / 8) < 16 := by
  rcases hw with e | e | e | e <;> subst e <;> simp at hs ⊢ <;> omega

theorem movePath_cases (hw : k.okW w) (isR : Bool) : movePath c k w isR = 0 ∨ movePath c k w isR = 1 := by
  unfold movePath
  cases k <;> cases isR <;> dsimp only <;> split_ifs <;> first | exact Or.inl rfl | exact Or.inr rfl | (simp_all; cfg_absurd h) | cfg_absurd h

theorem i_move_l_eq {s : Nat} (hw : k.okW w) (h0 : 0 < s) (hs : s < 128 / w) (hr : c.hasVec k w r = true)
    (hn : n = r.lanes w) (a : Vec w n) :
    i_move_l c k r s a = some (gather (128 / w) (fun j => j + s) a (Vec.splat 0)) := by
  have hm := mul_lt16 hw.isW h0 hs
  have hnb : n * (w / 8) = r.lanes 8 := by
    subst hn; rcases hw.isW with e | e | e | e <;> subst e <;> cases r <;> rfl
  have hbs : onBytes (fun x => some (Hw.bsrli x (s * (w / 8)))) a = some (gather (128 / w) (fun j => j + s) a (Vec.splat 0)) :=
    onBytes_l hw.isW hn a fun x => congrArg some (Hw.bsrli_eq (by omega) x)
  unfold i_move_l
  cases r
  · dsimp only
    have hb : onBytes (i_move16_l c .r128 (s * (w / 8))) a = some (gather (128 / w) (fun j => j + s) a (Vec.splat 0)) :=
      onBytes_l hw.isW hn a fun x => i_move16_l_eq h (r := .r128) hm.1 hm.2 rfl hnb x
    by_cases h8 : w = 8
    · rw [if_pos h8]
      subst h8
      rw [show s = s * (8 / 8) by omega]
      rw [show s * (8 / 8) = s by omega] at hb
      rw [show s * (8 / 8) = s by omega]
      exact hb
    · rw [if_neg h8]
      rcases movePath_cases h hw false with e | e
      · rw [if_pos e]
        subst hn
        exact move_n_l_gather (n := 128 / w) (by omega) a
      · rw [if_neg (by omega), if_pos e]
        exact hb
  · dsimp only
    rw [if_neg (by omega)]
    cases k
    · exact (if_pos (show c.avx2 = true from hr)).trans hbs
    · have ha : c.avx = true := hr
      refine (if_neg (not_not.2 ha)).trans ?_
      by_cases h2 : c.avx2 = true
      · refine (if_pos h2).trans ?_
        exact onBytes_l hw.isW hn a fun x => i_move16_l_eq h (r := .r256) hm.1 hm.2 h2 hnb x
      · refine (if_neg h2).trans ?_
        refine onBytes_l hw.isW hn a fun x => ?_
        rw [byPair_eq (f := fun j => if j + s * (w / 8) < 16 then j + s * (w / 8) else 2 * 16) hnb]
        · exact congrArg some (slideL (by decide) (by omega) x)
        · intro y
          exact (i_move16_l_eq h (r := .r128) (n := 16) hm.1 hm.2 rfl rfl y).trans
            (congrArg some (slideL (by decide) (by omega) y).symm)
  · dsimp only
    by_cases h16 : w ≤ 16
    · rw [if_pos h16, if_neg (by omega)]
      have hk : k = .int := by
        cases k
        · rfl
        · rcases hw with e | e <;> omega
      subst hk
      have hr : (if w ≤ 16 then c.avx512bw else c.avx512f) = true := hr
      rw [if_pos h16] at hr
      exact (if_pos hr).trans hbs
    · rw [if_neg h16]
      have h32 : w = 32 ∨ w = 64 := by rcases okW_cases hw with e | e | ⟨_, e | e⟩ <;> omega
      have hf : c.avx512f = true := by
        cases k
        · have hr : (if w ≤ 16 then c.avx512bw else c.avx512f) = true := hr
          rwa [if_neg h16] at hr
        · exact hr
      refine (if_neg (not_not.2 hf)).trans ?_
      by_cases hc : w = 64 ∧ k = .flt
      · rw [if_pos hc]
        obtain ⟨rfl, rfl⟩ := hc
        have : s = 1 := by omega
        subst this
        exact move2_l_512f_eq hn a
      · rw [if_neg hc, move4_l_512_eq (by rcases h32 with rfl | rfl <;> omega) (by rcases h32 with rfl | rfl <;> omega)
          (by subst hn; rcases h32 with rfl | rfl <;> rfl), Option.map_some]
        have := slide_recast32 h32 hn s a (Vec.splat 0)
        rw [recast_zero] at this
        rw [this]

theorem i_move_r_eq {s : Nat} (hw : k.okW w) (h0 : 0 < s) (hs : s < 128 / w) (hr : c.hasVec k w r = true)
    (hn : n = r.lanes w) (a : Vec w n) :
    i_move_r c k r s a = some (gather (128 / w) (fun j => j + (128 / w - s)) (Vec.splat 0) a) := by
  have hm := mul_lt16 hw.isW h0 hs
  have hnb : n * (w / 8) = r.lanes 8 := by
    subst hn; rcases hw.isW with e | e | e | e <;> subst e <;> cases r <;> rfl
  have hbs : onBytes (fun x => some (Hw.bslli x (s * (w / 8)))) a = some (gather (128 / w) (fun j => j + (128 / w - s)) (Vec.splat 0) a) :=
    onBytes_r hw.isW hn (by omega) a fun x => congrArg some (Hw.bslli_eq (by omega) x)
  unfold i_move_r
  cases r
  · dsimp only
    have hb : onBytes (i_move16_r c .r128 (s * (w / 8))) a = some (gather (128 / w) (fun j => j + (128 / w - s)) (Vec.splat 0) a) :=
      onBytes_r hw.isW hn (by omega) a fun x => i_move16_r_eq h (r := .r128) hm.1 hm.2 rfl hnb x
    by_cases h8 : w = 8
    · rw [if_pos h8]
      subst h8
      rw [show s * (8 / 8) = s by omega] at hb
      exact hb
    · rw [if_neg h8]
      rcases movePath_cases h hw true with e | e
      · rw [if_pos e]
        subst hn
        exact move_n_r_gather (n := 128 / w) (by omega) a
      · rw [if_neg (by omega), if_pos e]
        exact hb
  · dsimp only
    rw [if_neg (by omega)]
    cases k
    · exact (if_pos (show c.avx2 = true from hr)).trans hbs
    · have ha : c.avx = true := hr
      refine (if_neg (not_not.2 ha)).trans ?_
      by_cases h2 : c.avx2 = true
      · refine (if_pos h2).trans ?_
        exact onBytes_r hw.isW hn (by omega) a fun x => i_move16_r_eq h (r := .r256) hm.1 hm.2 h2 hnb x
      · refine (if_neg h2).trans ?_
        refine onBytes_r hw.isW hn (by omega) a fun x => ?_
        rw [byPair_eq (f := fun j => if s * (w / 8) ≤ j then j - s * (w / 8) else 2 * 16) hnb]
        · exact congrArg some (slideR (by decide) (by omega) x)
        · intro y
          exact (i_move16_r_eq h (r := .r128) (n := 16) hm.1 hm.2 rfl rfl y).trans
            (congrArg some (slideR (by decide) (by omega) y).symm)
  · dsimp only
    by_cases h16 : w ≤ 16
    · rw [if_pos h16, if_neg (by omega)]
      have hk : k = .int := by
        cases k
        · rfl
        · rcases hw with e | e <;> omega
      subst hk
      have hr : (if w ≤ 16 then c.avx512bw else c.avx512f) = true := hr
      rw [if_pos h16] at hr
      exact (if_pos hr).trans hbs
    · rw [if_neg h16]
      have h32 : w = 32 ∨ w = 64 := by rcases okW_cases hw with e | e | ⟨_, e | e⟩ <;> omega
      have hf : c.avx512f = true := by
        cases k
        · have hr : (if w ≤ 16 then c.avx512bw else c.avx512f) = true := hr
          rwa [if_neg h16] at hr
        · exact hr
      refine (if_neg (not_not.2 hf)).trans ?_
      by_cases hc : w = 64 ∧ k = .flt
      · rw [if_pos hc]
        obtain ⟨rfl, rfl⟩ := hc
        have : s = 1 := by omega
        subst this
        exact move2_r_512f_eq hn a
      · rw [if_neg hc, move4_r_512_eq (by rcases h32 with rfl | rfl <;> omega) (by rcases h32 with rfl | rfl <;> omega)
          (by subst hn; rcases h32 with rfl | rfl <;> rfl), Option.map_some]
        have := slide_recast32 h32 hn (128 / w - s) (Vec.splat 0) a
        rw [recast_zero] at this
        rw [← this]
        congr 3
        funext j
        rcases h32 with rfl | rfl <;> omega

/-! ## Align -/

omit h in
theorem or_slide {L s : Nat} (hL : 0 < L) (hs : s ≤ L) (l u : Vec w n) :
    (fun i => gather L (fun j => j + s) l (Vec.splat 0) i ||| gather L (fun j => j + (L - (L - s))) (Vec.splat 0) u i) =
      gather L (fun j => j + s) l u := by
  funext i
  have e : L - (L - s) = s := by omega
  rw [e]
  unfold gather
  dsimp only
  have := Nat.mod_lt i.val hL
  rw [at_zero, at_zero]
  split_ifs <;> simp

omit h in
theorem moveWrap_mid {α : Type} {L s : Nat} {zero : α} {op : α → Option α} {a : α} (h0 : 0 < s) (hs : s < L) :
    moveWrap L s zero op a = op a := by
  unfold moveWrap
  rw [if_neg (by omega), if_neg (by omega), if_neg (by omega)]

theorem i_align16_eq {s : Nat} (h0 : 0 < s) (hs : s < 16) (hr : c.hasInt 8 r = true) (hn : n = r.lanes 8) (l u : Vec 8 n) :
    i_align16 c r s l u = some (gather 16 (fun j => j + s) l u) := by
  unfold i_align16
  cases r
  · dsimp only
    have h1 : Null.align s l u = some (gather 16 (fun j => j + s) l u) := by
      subst hn; exact align_gather (n := 16) (by omega) l u
    have h2 : (do
        let lower ← moveWrap 16 s (Vec.splat 0) (i_move16_l c .r128 s) l
        let upper ← moveWrap 16 (16 - s) (Vec.splat 0) (i_move16_r c .r128 (16 - s)) u
        i_bit_or c .int .r128 upper lower) = some (gather 16 (fun j => j + s) l u) := by
      rw [moveWrap_mid h0 hs, moveWrap_mid (by omega) (by omega), i_move16_l_eq h h0 hs hr hn,
        i_move16_r_eq h (by omega) (by omega) hr hn]
      simp only [Option.bind_eq_bind, Option.bind_some]
      rw [i_bit_or_eq h (k := .int) isW8 (r := .r128) hr]
      rw [← or_slide (by decide) (by omega) l u]
      congr 1
      funext i
      exact BitVec.or_comm _ _
    have h3 : (if s = 0 then some l else if s = 16 then some u else Hw.ext l u (s % 16)) = some (gather 16 (fun j => j + s) l u) := by
      rw [if_neg (by omega), if_neg (by omega), Nat.mod_eq_of_lt hs]
      exact if_pos hs
    have h4 := sldBi_eq h0 (by omega) l u
    have h5 : Hw.sld_b u l s = gather 16 (fun j => j + s) l u := by
      unfold Hw.sld_b; rw [Nat.mod_eq_of_lt hs]
    by_cases g1 : c.null = true
    · exact (if_pos g1).trans h1
    refine (if_neg g1).trans ?_
    by_cases g2 : c.ssse3 = true
    · exact (if_pos g2).trans rfl
    refine (if_neg g2).trans ?_
    by_cases g3 : c.sse2 = true
    · exact (if_pos g3).trans h2
    refine (if_neg g3).trans ?_
    by_cases g4 : c.neon = true
    · exact (if_pos g4).trans h3
    refine (if_neg g4).trans ?_
    by_cases g5 : c.altivec = true
    · exact (if_pos g5).trans h4
    refine (if_neg g5).trans ?_
    by_cases g6 : c.msa = true
    · exact (if_pos g6).trans (congrArg some h5)
    clear h1 h2 h3 h4 h5
    cfg_absurd h
  · exact if_pos hr
  · exact if_pos hr

theorem i_align8_eq {s : Nat} (h0 : 0 < s) (hs : s < 8) (hr : c.hasInt 16 r = true) (hn : n = r.lanes 16) (l u : Vec 16 n) :
    i_align8 c r s l u = some (gather 8 (fun j => j + s) l u) := by
  have hb : onBytes2 (fun l u => some (Hw.alignr_epi8 u l (s * 2))) l u = some (gather 8 (fun j => j + s) l u) :=
    onBytes2_eq iw16 hn l u fun x y => rfl
  unfold i_align8
  cases r
  · dsimp only
    by_cases g1 : c.null = true
    · refine (if_pos g1).trans ?_
      subst hn; exact align_gather (n := 8) (by omega) l u
    · refine (if_neg g1).trans ?_
      exact onBytes2_eq (t := s) iw16 hn l u fun x y => i_align16_eq h (r := .r128) (by omega) (by omega) rfl (by subst hn; rfl) x y
  · exact (if_pos hr).trans hb
  · exact (if_pos hr).trans hb

theorem align4Or_eq {s : Nat} (hk : k.okW 32) (h0 : 0 < s) (hs : s < 4) (hn : n = Reg.r128.lanes 32) (l u : Vec 32 n) :
    align4Or c k s l u = some (gather 4 (fun j => j + s) l u) := by
  have hr : c.hasVec k 32 .r128 = true := by cases k <;> rfl
  unfold align4Or
  rw [moveWrap_mid h0 hs, moveWrap_mid (by omega) (by omega), i_move_l_eq h hk h0 (by omega) hr hn,
    i_move_r_eq h hk (by omega) (by omega) hr hn]
  show i_bit_or c k .r128 _ _ = _
  rw [i_bit_or_eq h hk hr, ← or_slide (by decide) (by omega) l u]

omit h in
theorem shuffle_ps_2301 (l u : Vec 32 n) : Hw.shuffle_ps l u (mask4x4 2 3 0 1) = gather 4 (fun j => j + 2) l u :=
  gather_congr (by decide) (by decide) l u

omit h in
theorem sld_b4 {s : Nat} (hs : s < 4) (l u : Vec 8 n) : Hw.sld_b u l (s * 4) = gather 16 (fun j => j + s * 4) l u := by
  unfold Hw.sld_b; rw [Nat.mod_eq_of_lt (by omega)]

omit h in
theorem gather_sel4 {s : Nat} {s0 s1 s2 s3 : Nat} (e : s0 = s ∧ s1 = s + 1 ∧ s2 = s + 2 ∧ s3 = s + 3) (l u : Vec w n) :
    gather 4 (sel4 s0 s1 s2 s3) l u = gather 4 (fun j => j + s) l u := by
  obtain ⟨rfl, rfl, rfl, rfl⟩ := e
  refine gather_congr (by decide) (fun j hj => ?_) l u
  interval_cases j <;> simp [sel4] <;> omega

theorem i_align4_int_eq {s : Nat} (h0 : 0 < s) (hs : s < 4) (hr : c.hasInt 32 r = true) (hn : n = r.lanes 32) (l u : Vec 32 n) :
    i_align4_int c r s l u = some (gather 4 (fun j => j + s) l u) := by
  have hb : onBytes2 (fun l u => some (Hw.alignr_epi8 u l (s * 4))) l u = some (gather 4 (fun j => j + s) l u) :=
    onBytes2_eq (t := s) iw32 hn l u fun x y => rfl
  unfold i_align4_int
  cases r
  · dsimp only
    have h1 : Null.align s l u = some (gather 4 (fun j => j + s) l u) := by
      subst hn; exact align_gather (n := 4) (by omega) l u
    have h2 := align4Or_eq h (k := .int) iw32 h0 hs hn l u
    have h3 : s = 2 → some (Hw.shuffle_ps l u (mask4x4 2 3 0 1)) = some (gather 4 (fun j => j + s) l u) := by
      rintro rfl; rw [shuffle_ps_2301]
    have h4 : Hw.ext l u s = some (gather 4 (fun j => j + s) l u) := if_pos (by omega)
    have h5 : onBytes2 (sldBi (s * 4)) l u = some (gather 4 (fun j => j + s) l u) :=
      onBytes2_eq (t := s) iw32 hn l u fun x y => sldBi_eq (by omega) (by omega) x y
    have h6 : onBytes2 (fun l u => some (Hw.sld_b u l (s * 4))) l u = some (gather 4 (fun j => j + s) l u) :=
      onBytes2_eq (t := s) iw32 hn l u fun x y => congrArg some (sld_b4 hs x y)
    have h7 : s = 1 ∨ s = 2 ∨ s = 3 := by omega
    by_cases g1 : c.null = true
    · exact (if_pos g1).trans h1
    refine (if_neg g1).trans ?_
    by_cases g2 : c.sse2 = true
    · refine (if_pos g2).trans ((if_pos h7).trans ?_)
      by_cases g : c.ssse3 = true
      · exact (if_pos g).trans hb
      · refine (if_neg g).trans ?_
        by_cases g' : s = 2
        · exact (if_pos g').trans (h3 g')
        · exact (if_neg g').trans h2
    refine (if_neg g2).trans ?_
    by_cases g3 : c.neon = true
    · exact (if_pos g3).trans ((if_neg (by omega)).trans ((if_neg (by omega)).trans h4))
    refine (if_neg g3).trans ?_
    by_cases g4 : c.altivec = true
    · exact (if_pos g4).trans h5
    refine (if_neg g4).trans ?_
    by_cases g5 : c.msa = true
    · exact (if_pos g5).trans h6
    clear h1 h2 h3 h4 h5 h6 hb
    cfg_absurd h
  · exact (if_pos (show c.avx2 = true from hr)).trans hb
  · have hf : c.avx512f = true := hr
    dsimp only
    refine (if_neg (not_not.2 hf)).trans ?_
    have hsh : ∀ s0 s1 s2 s3, s0 = s ∧ s1 = s + 1 ∧ s2 = s + 2 ∧ s3 = s + 3 →
        i_shuffle4x2_32 c .int .r512 s0 s1 s2 s3 l u = some (gather 4 (fun j => j + s) l u) := by
      intro s0 s1 s2 s3 e
      rw [i_shuffle4x2_32_eq h (k := .int) (r := .r512) (s0 := s0) (s1 := s1) (s2 := s2) (s3 := s3) hr hn (by omega) (by omega) (by omega) (by omega), gather_sel4 e]
    have : s = 1 ∨ s = 2 ∨ s = 3 := by omega
    rcases this with e | e | e
    · exact (if_pos e).trans (hsh _ _ _ _ (by omega))
    · exact (if_neg (by omega)).trans ((if_pos e).trans (hsh _ _ _ _ (by omega)))
    · exact (if_neg (by omega)).trans ((if_neg (by omega)).trans ((if_pos e).trans (hsh _ _ _ _ (by omega))))

theorem i_align4_flt_eq {s : Nat} (h0 : 0 < s) (hs : s < 4) (hr : c.hasVec .flt 32 r = true) (hn : n = r.lanes 32) (l u : Vec 32 n) :
    i_align4_flt c r s l u = some (gather 4 (fun j => j + s) l u) := by
  have hb : onBytes2 (fun l u => some (Hw.alignr_epi8 u l (s * 4))) l u = some (gather 4 (fun j => j + s) l u) :=
    onBytes2_eq (t := s) iw32 hn l u fun x y => rfl
  have h3 : s = 2 → some (Hw.shuffle_ps l u (mask4x4 2 3 0 1)) = some (gather 4 (fun j => j + s) l u) := by
    rintro rfl; rw [shuffle_ps_2301]
  have hsh : ∀ s0 s1 s2 s3, s0 = s ∧ s1 = s + 1 ∧ s2 = s + 2 ∧ s3 = s + 3 →
      i_shuffle4x2_32 c .flt r s0 s1 s2 s3 l u = some (gather 4 (fun j => j + s) l u) := by
    intro s0 s1 s2 s3 e
    rw [i_shuffle4x2_32_eq h (k := .flt) hr hn (by omega) (by omega) (by omega) (by omega), gather_sel4 e]
  have h7 : s = 1 ∨ s = 2 ∨ s = 3 := by omega
  unfold i_align4_flt
  cases r
  · dsimp only
    have h1 : Null.align s l u = some (gather 4 (fun j => j + s) l u) := by
      subst hn; exact align_gather (n := 4) (by omega) l u
    have h2 := align4Or_eq h (k := .flt) (Or.inl rfl) h0 hs hn l u
    have h4 : Hw.ext l u s = some (gather 4 (fun j => j + s) l u) := if_pos (by omega)
    have h5 : onBytes2 (sldBi (s * 4)) l u = some (gather 4 (fun j => j + s) l u) :=
      onBytes2_eq (t := s) iw32 hn l u fun x y => sldBi_eq (by omega) (by omega) x y
    have h6 : onBytes2 (fun l u => some (Hw.sld_b u l (s * 4))) l u = some (gather 4 (fun j => j + s) l u) :=
      onBytes2_eq (t := s) iw32 hn l u fun x y => congrArg some (sld_b4 hs x y)
    clear hsh
    by_cases g1 : c.null = true ∨ c.neonNoFltSp = true
    · exact (if_pos g1).trans h1
    refine (if_neg g1).trans ?_
    by_cases g2 : c.sse2 = true
    · refine (if_pos g2).trans ?_
      by_cases g' : s = 1 ∨ s = 3
      · refine (if_pos g').trans ?_
        by_cases g : c.ssse3 = true
        · exact (if_pos g).trans hb
        · exact (if_neg g).trans h2
      · exact (if_neg g').trans ((if_pos (by omega)).trans (h3 (by omega)))
    refine (if_neg g2).trans ?_
    by_cases g3 : c.neonFltSp = true
    · exact (if_pos g3).trans ((if_neg (by omega)).trans ((if_neg (by omega)).trans h4))
    refine (if_neg g3).trans ?_
    by_cases g4 : c.altivec = true
    · exact (if_pos g4).trans h5
    refine (if_neg g4).trans ?_
    by_cases g5 : c.msa = true
    · exact (if_pos g5).trans h6
    clear h1 h2 h3 h4 h5 h6 hb
    cfg_absurd h
  · dsimp only
    have ha : c.avx = true := hr
    refine (if_neg (not_not.2 ha)).trans ?_
    rcases h7 with e | e | e
    · refine (if_pos (Or.inl e)).trans ?_
      by_cases g : c.avx2 = true
      · exact (if_pos g).trans hb
      · exact (if_neg g).trans ((if_pos e).trans (hsh _ _ _ _ (by omega)))
    · exact (if_neg (by omega)).trans ((if_pos e).trans (h3 e))
    · refine (if_pos (Or.inr e)).trans ?_
      by_cases g : c.avx2 = true
      · exact (if_pos g).trans hb
      · exact (if_neg g).trans ((if_neg (by omega)).trans (hsh _ _ _ _ (by omega)))
  · dsimp only
    have ha : c.avx512f = true := hr
    refine (if_neg (not_not.2 ha)).trans ?_
    rcases h7 with e | e | e
    · exact (if_pos e).trans (hsh _ _ _ _ (by omega))
    · exact (if_neg (by omega)).trans ((if_pos e).trans (h3 e))
    · exact (if_neg (by omega)).trans ((if_neg (by omega)).trans ((if_pos e).trans (hsh _ _ _ _ (by omega))))

theorem i_align2_eq (hr : c.hasVec k 64 r = true) (hn : n = r.lanes 64) (l u : Vec 64 n) :
    i_align2 c k r 1 l u = some (gather 2 (fun j => j + 1) l u) := by
  have hpd : ∀ imm : Nat, (∀ i, i < n → imm.testBit i = imm.testBit (i % 2)) → imm.testBit 0 = true → imm.testBit 1 = false →
      some (Hw.shuffle_pd l u imm) = some (gather 2 (fun j => j + 1) l u) := by
    intro imm hi h0 h1
    rw [shuffle_pd_gather hi]
    congr 1
    refine gather_congr (by decide) (fun j hj => ?_) l u
    rw [h0, h1]
    interval_cases j <;> rfl
  unfold i_align2
  cases r
  · dsimp only
    have h0 : some (Hw.shuffle_pd l u (mask2x2 1 0)) = some (gather 2 (fun j => j + 1) l u) :=
      hpd _ (by subst hn; decide) (by decide) (by decide)
    have h1 : Null.align 1 l u = some (gather 2 (fun j => j + 1) l u) := by
      subst hn; exact align_gather (n := 2) (by omega) l u
    have h4 : (if (1 : Nat) = 0 then some l else if (1 : Nat) = 2 then some u
        else Hw.ext l u (if k = .int then 1 % 2 else 1)) = some (gather 2 (fun j => j + 1) l u) := by
      rw [if_neg (by decide), if_neg (by decide)]
      have e1 : (if k = .int then 1 % 2 else 1) = 1 := by cases k <;> rfl
      rw [e1]
      exact if_pos (by decide)
    have h5 : onBytes2 (sldBi (1 * 8)) l u = some (gather 2 (fun j => j + 1) l u) :=
      onBytes2_eq (t := 1) iw64 hn l u fun x y => sldBi_eq (by omega) (by omega) x y
    have h6 : onBytes2 (fun l u => some (Hw.sld_b u l (1 * 8))) l u = some (gather 2 (fun j => j + 1) l u) :=
      onBytes2_eq (t := 1) iw64 hn l u fun x y => rfl
    clear hpd
    by_cases g1 : c.sse2 = true
    · exact (if_pos g1).trans ((if_pos rfl).trans h0)
    refine (if_neg g1).trans ?_
    by_cases g2 : (k = .int ∧ c.neon) ∨ (k = .flt ∧ c.neon64)
    · exact (if_pos g2).trans h4
    refine (if_neg g2).trans ?_
    by_cases g3 : (k = .int ∧ c.vsx207) ∨ (k = .flt ∧ c.vsx206)
    · exact (if_pos g3).trans h5
    refine (if_neg g3).trans ?_
    by_cases g4 : c.null ∨ c.altivec ∨ (k = .flt ∧ c.neon32)
    · exact (if_pos g4).trans h1
    refine (if_neg g4).trans ?_
    by_cases g5 : c.msa = true
    · exact (if_pos g5).trans h6
    clear h0 h1 h4 h5 h6
    cases k <;> simp at g2 g3 g4 <;> cfg_absurd h
  · dsimp only
    cases k
    · refine (if_pos (show c.avx2 = true from hr)).trans ?_
      exact onBytes2_eq (t := 1) iw64 hn l u fun x y => rfl
    · refine (if_neg (not_not.2 (show c.avx = true from hr))).trans ((if_pos rfl).trans ?_)
      exact hpd _ (by subst hn; decide) (by decide) (by decide)
  · dsimp only
    have hf : c.avx512f = true := by cases k <;> exact hr
    refine (if_neg (not_not.2 hf)).trans ((if_pos rfl).trans ?_)
    cases k
    · dsimp only
      rw [i_shuffle2x2_64_eq h (k := .int) hr hn (by decide) (by decide) (by
        unfold ok2x2_64 okSel; simp)]
      congr 1
      exact gather_congr (by decide) (by decide) l u
    · exact hpd _ (by subst hn; decide) (by decide) (by decide)

theorem i_align_eq {s : Nat} (hw : k.okW w) (h0 : 0 < s) (hs : s < 128 / w) (hr : c.hasVec k w r = true)
    (hn : n = r.lanes w) (l u : Vec w n) :
    i_align c k r s l u = some (gather (128 / w) (fun j => j + s) l u) := by
  unfold i_align
  rcases okW_cases hw with rfl | rfl | ⟨rfl, rfl | rfl⟩
  · rw [dif_neg (by decide), dif_neg (by decide), dif_neg (by decide), dif_pos rfl]
    have : s = 1 := by omega
    subst this
    exact i_align2_eq h hr hn l u
  · rw [dif_neg (by decide), dif_neg (by decide), dif_pos rfl]
    cases k
    · exact i_align4_int_eq h h0 hs hr hn l u
    · exact i_align4_flt_eq h h0 hs hr hn l u
  · rw [dif_pos rfl]
    exact i_align16_eq h h0 hs hr hn l u
  · rw [dif_neg (by decide), dif_pos rfl]
    exact i_align8_eq h h0 hs hr hn l u

/-! ## The property -/

/-- C19 (`move*_l<s>`): in every 128-bit block of `L` elements, element `j` is element `j + s`, zero past
the end of the block; every `s` from 0 to `L`. -/
theorem C19_move_l {s : Nat} (hw : k.okW w) (hr : c.hasVec k w r = true) (hs : s ≤ 128 / w) {K : Nat}
    (a d : Fin K → Vec w (r.lanes w)) :
    ∃ res, move_l c k r s a d = some res ∧ ∀ q j, j < 128 / w → q * (128 / w) + j < K * r.lanes w →
      Vec.at_ (Arr.flat res : Vec w (K * r.lanes w)) (q * (128 / w) + j) =
        if j + s < 128 / w then Vec.at_ (Arr.flat a : Vec w (K * r.lanes w)) (q * (128 / w) + (j + s)) else 0 := by
  have hL := blkL hw.isW
  unfold move_l moveWrap
  rw [if_neg (by omega)]
  by_cases e0 : s = 0
  · subst e0
    exact ⟨a, by rw [if_pos rfl], fun q j hj _ => by rw [if_pos (by omega), Nat.add_zero]⟩
  rw [if_neg e0]
  by_cases e1 : s = 128 / w
  · refine ⟨fun _ => Vec.splat 0, by rw [if_pos e1], fun q j hj hq => ?_⟩
    rw [if_neg (by omega), flat_at _ hq, at_zero]
  rw [if_neg e1]
  obtain ⟨res, e, p⟩ := long1 (K := K) (lanesW_dvd hw.isW r) hL.1 (f := fun j => if j + s < 128 / w then j + s else 2 * (128 / w))
    (fun a => (i_move_l_eq h hw (by omega) (by omega) hr rfl a).trans (congrArg some (slideL hL.1 hs a).symm)) a d
  refine ⟨res, e, fun q j hj hq => ?_⟩
  rw [p, gather_block _ _ hj hq]
  split_ifs <;> first | rfl | omega

/-- C19 (`move*_r<s>`): element `j` is element `j - s`, zero before the start of the block. -/
theorem C19_move_r {s : Nat} (hw : k.okW w) (hr : c.hasVec k w r = true) (hs : s ≤ 128 / w) {K : Nat}
    (a d : Fin K → Vec w (r.lanes w)) :
    ∃ res, move_r c k r s a d = some res ∧ ∀ q j, j < 128 / w → q * (128 / w) + j < K * r.lanes w →
      Vec.at_ (Arr.flat res : Vec w (K * r.lanes w)) (q * (128 / w) + j) =
        if s ≤ j then Vec.at_ (Arr.flat a : Vec w (K * r.lanes w)) (q * (128 / w) + (j - s)) else 0 := by
  have hL := blkL hw.isW
  unfold move_r moveWrap
  rw [if_neg (by omega)]
  by_cases e0 : s = 0
  · subst e0
    exact ⟨a, by rw [if_pos rfl], fun q j hj _ => by rw [if_pos (by omega), Nat.sub_zero]⟩
  rw [if_neg e0]
  by_cases e1 : s = 128 / w
  · refine ⟨fun _ => Vec.splat 0, by rw [if_pos e1], fun q j hj hq => ?_⟩
    rw [if_neg (by omega), flat_at _ hq, at_zero]
  rw [if_neg e1]
  obtain ⟨res, e, p⟩ := long1 (K := K) (lanesW_dvd hw.isW r) hL.1 (f := fun j => if s ≤ j then j - s else 2 * (128 / w))
    (fun a => (i_move_r_eq h hw (by omega) (by omega) hr rfl a).trans (congrArg some (slideR hL.1 hs a).symm)) a d
  refine ⟨res, e, fun q j hj hq => ?_⟩
  rw [p, gather_block _ _ hj hq]
  split_ifs <;> first | rfl | omega

/-- C19 (`align*<s>`): element `j` of every block is element `j + s` of the two corresponding blocks
laid end to end, `lower` first. -/
theorem C19_align {s : Nat} (hw : k.okW w) (hr : c.hasVec k w r = true) (hs : s ≤ 128 / w) {K : Nat}
    (lower upper d : Fin K → Vec w (r.lanes w)) :
    ∃ res, align c k r s lower upper d = some res ∧ ∀ q j, j < 128 / w → q * (128 / w) + j < K * r.lanes w →
      Vec.at_ (Arr.flat res : Vec w (K * r.lanes w)) (q * (128 / w) + j) =
        if j + s < 128 / w then Vec.at_ (Arr.flat lower : Vec w (K * r.lanes w)) (q * (128 / w) + (j + s))
        else Vec.at_ (Arr.flat upper : Vec w (K * r.lanes w)) (q * (128 / w) + (j + s - 128 / w)) := by
  have hL := blkL hw.isW
  unfold align
  rw [if_neg (by omega)]
  by_cases e0 : s = 0
  · subst e0
    exact ⟨lower, by rw [if_pos rfl], fun q j hj _ => by rw [if_pos (by omega), Nat.add_zero]⟩
  rw [if_neg e0]
  by_cases e1 : s = 128 / w
  · refine ⟨upper, by rw [if_pos e1], fun q j hj hq => ?_⟩
    rw [if_neg (by omega)]
    congr 1; omega
  rw [if_neg e1]
  obtain ⟨res, e, p⟩ := long2 (K := K) (lanesW_dvd hw.isW r) hL.1
    (fun a b => i_align_eq h hw (s := s) (by omega) (by omega) hr rfl a b) lower upper d
  refine ⟨res, e, fun q j hj hq => ?_⟩
  rw [p, gather_block _ _ hj hq]
  split_ifs <;> first | rfl | omega

omit h in
/-- C19: a count larger than the block is rejected at compile time. -/
theorem C19_rejects {s : Nat} (hs : 128 / w < s) {K : Nat} (a b d : Fin K → Vec w n) :
    move_l c k r s a d = none ∧ move_r c k r s a d = none ∧ align c k r s a b d = none := by
  unfold move_l move_r align moveWrap
  rw [if_pos hs, if_pos hs, if_pos hs]
  exact ⟨rfl, rfl, rfl⟩

end

/-! Examples: `move4_l<3>` on `float32<24>` with AVX only, `align16<5>` on `uint8<32>` with SSE2 only. -/

example (a d : Fin 3 → Vec 32 8) : ∃ res, move_l Cfg.avxOnly .flt .r256 3 a d = some res ∧
    ∀ q j, j < 4 → q * 4 + j < 24 → Vec.at_ (Arr.flat res : Vec 32 24) (q * 4 + j) =
      if j + 3 < 4 then Vec.at_ (Arr.flat a : Vec 32 24) (q * 4 + (j + 3)) else 0 :=
  C19_move_l Cfg.avxOnly_ok (r := .r256) (k := .flt) (Or.inl rfl) rfl (by decide) a d

example (a b d : Fin 2 → Vec 8 16) : ∃ res, align Cfg.sse2Only .int .r128 5 a b d = some res ∧
    ∀ q j, j < 16 → q * 16 + j < 32 → Vec.at_ (Arr.flat res : Vec 8 32) (q * 16 + j) =
      if j + 5 < 16 then Vec.at_ (Arr.flat a : Vec 8 32) (q * 16 + (j + 5))
      else Vec.at_ (Arr.flat b : Vec 8 32) (q * 16 + (j + 5 - 16)) :=
  C19_align Cfg.sse2Only_ok (r := .r128) (k := .int) isW8 rfl (by decide) a b d

end Simdpp
