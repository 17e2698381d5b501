import Verif.Model.SProg
import Verif.Props.MProg
import Verif.Props.Zip
import Verif.Props.Move
import Verif.Props.Shuffle32
import Verif.Props.Shuffle64
import Verif.Props.Splat

/-!
# C66: a program with shuffles means the same movement of elements, on every build
-/

namespace Simdpp
open Spec Sh Spec.Prog Spec.FProg Spec.MProg

variable {N : Nat} {Γ : Nat → ETy} {t : ETy}

attribute [local irreducible] Fp.mul Fp.fma Fp.sub Fp.add Fp.round Fp.div Fp.sqrt Fp.conv Fp.ofInt Fp.truncInt

/-! ## Shuffles as functions of the lane number -/

theorem Shuf.pick_rel {w : Nat} (hw : IsW w) (s : Shuf) (hs : s.Valid w) (a b : Nat → BitVec w) (j : Nat) :
    s.pick a b j = s.pick (fun i => a (j / (128 / w) * (128 / w) + i)) (fun i => b (j / (128 / w) * (128 / w) + i)) (j % (128 / w)) := by
  rcases hw with e | e | e | e <;> subst e <;> cases s <;>
    simp only [Shuf.pick, Shuf.Valid, show 128 / 8 = 16 from rfl, show 128 / 16 = 8 from rfl, show 128 / 32 = 4 from rfl, show 128 / 64 = 2 from rfl] at hs ⊢ <;>
    first
    | (exfalso; omega)
    | skip
  all_goals
    try simp only [Nat.mod_mod, Nat.mod_mod_of_dvd _ (show 2 ∣ 16 by decide), Nat.mod_mod_of_dvd _ (show 2 ∣ 8 by decide), Nat.mod_mod_of_dvd _ (show 2 ∣ 4 by decide),
      Nat.mod_mod_of_dvd _ (show 4 ∣ 8 by decide)]
    first
    | (congr 1; omega)
    | (split_ifs <;> first | rfl | (congr 1; omega))

theorem Shuf.pick_low {w : Nat} (hw : IsW w) (s : Shuf) (hs : s.Valid w) {a b a' b' : Nat → BitVec w} {j : Nat} (hj : j < 128 / w)
    (hab : ∀ i, i < 128 / w → a i = a' i ∧ b i = b' i) : s.pick a b j = s.pick a' b' j := by
  have ha := fun i hi => (hab i hi).1
  have hb := fun i hi => (hab i hi).2
  clear hab
  rcases hw with e | e | e | e <;> subst e <;> cases s <;>
    simp only [Shuf.pick, Shuf.Valid, four, show 128 / 8 = 16 from rfl, show 128 / 16 = 8 from rfl, show 128 / 32 = 4 from rfl, show 128 / 64 = 2 from rfl] at hs hj ha hb ⊢ <;>
    first
    | (exfalso; omega)
    | skip
  all_goals
    first
    | (apply ha; omega)
    | (split_ifs <;> first
      | rfl
      | (apply ha; omega)
      | (apply hb; omega))

theorem Shuf.pick_shift {w : Nat} (hw : IsW w) (s : Shuf) (hs : s.Valid w) {a b a' b' : Nat → BitVec w} {B j : Nat} (hB : 128 / w ∣ B)
    (hab : ∀ i, i / (128 / w) = j / (128 / w) → a (B + i) = a' i ∧ b (B + i) = b' i) : s.pick a b (B + j) = s.pick a' b' j := by
  have hL := (blkL hw).1
  rw [Shuf.pick_rel hw s hs a b, Shuf.pick_rel hw s hs a' b']
  obtain ⟨m, rfl⟩ := hB
  rw [Nat.mul_add_mod, Nat.mul_add_div hL]
  refine Shuf.pick_low hw s hs (Nat.mod_lt _ hL) fun i hi => ?_
  have := hab (j / (128 / w) * (128 / w) + i) (by
    rw [Nat.add_comm, Nat.add_mul_div_right _ _ hL, Nat.div_eq_of_lt hi, Nat.zero_add])
  rw [show 128 / w * m + (j / (128 / w) * (128 / w) + i) = (m + j / (128 / w)) * (128 / w) + i by ring] at this
  exact this

theorem Shuf.pick_local {w : Nat} (hw : IsW w) (s : Shuf) (hs : s.Valid w) {a b a' b' : Nat → BitVec w} {j : Nat}
    (hab : ∀ i, i / (128 / w) = j / (128 / w) → a i = a' i ∧ b i = b' i) : s.pick a b j = s.pick a' b' j := by
  have := Shuf.pick_shift (B := 0) hw s hs (a := a) (b := b) (Nat.dvd_zero _) (fun i hi => by rw [Nat.zero_add]; exact hab i hi)
  rwa [Nat.zero_add] at this

/-! ## The library's shuffles of one vector -/

theorem picks_at {w Z L : Nat} (hL : 0 < L) {f : Nat → Nat} {a b res : Vec w Z} (p : Picks L f a b res) {j : Nat} (hj : j < Z) :
    res.at_ j = if f (j % L) < L then a.at_ (j / L * L + f (j % L)) else b.at_ (j / L * L + (f (j % L) - L)) := by
  have := p (j / L) (j % L) (Nat.mod_lt _ hL) (by rw [Nat.div_add_mod']; exact hj)
  rwa [Nat.div_add_mod'] at this

theorem block_le {L Z j : Nat} (hL : 0 < L) (hZ : L ∣ Z) (hj : j < Z) : j / L * L + L ≤ Z := by
  obtain ⟨k, rfl⟩ := hZ
  have h1 : j / L < k := Nat.div_lt_of_lt_mul hj
  calc j / L * L + L = (j / L + 1) * L := by ring
    _ ≤ k * L := Nat.mul_le_mul_right _ h1
    _ = L * k := Nat.mul_comm _ _

theorem interl_at {w Z L s : Nat} (hL : 0 < L) (h2 : 2 ∣ L) (hZ : L ∣ Z) {a b res : Vec w Z} (p : Interleaves L s a b res) {j : Nat} (hj : j < Z) :
    res.at_ j = (if j % 2 = 0 then a.at_ else b.at_) (j / L * L + s + j % L / 2) := by
  obtain ⟨p1, p2⟩ := p (j / L) (j % L / 2) (by have := Nat.mod_lt j hL; omega) (block_le hL hZ hj)
  have e0 : j / L * L + j % L = j := Nat.div_add_mod' _ _
  have e2 : j % L % 2 = j % 2 := Nat.mod_mod_of_dvd _ h2
  split_ifs with g
  · rw [← p1]; congr 1; omega
  · rw [← p2]; congr 1; omega

theorem deinterl_at {w Z L e : Nat} (hL : 0 < L) (h2 : 2 ∣ L) (hZ : L ∣ Z) {a b res : Vec w Z} (p : Deinterleaves L e a b res) {j : Nat} (hj : j < Z) :
    res.at_ j = if j % L < L / 2 then a.at_ (j / L * L + 2 * (j % L) + e) else b.at_ (j / L * L + 2 * (j % L - L / 2) + e) := by
  have e0 : j / L * L + j % L = j := Nat.div_add_mod' _ _
  have hm := Nat.mod_lt j hL
  split_ifs with g
  · have := (p (j / L) (j % L) g (block_le hL hZ hj)).1
    rwa [e0] at this
  · have := (p (j / L) (j % L - L / 2) (by omega) (block_le hL hZ hj)).2
    rwa [show j / L * L + L / 2 + (j % L - L / 2) = j by omega] at this

/-- Every shuffle of a vector of `K` registers is the lane movement of the specification. -/
theorem Shuf.run_at {c : Cfg} (h : c.Ok) (gnuc : Bool) (t : ETy) {r : Reg} (hr : c.hasVec t.kind t.w r = true) (s : Shuf) (hs : s.Valid t.w) {K : Nat}
    (a b d : Fin K → Vec t.w (r.lanes t.w)) : ∃ res, s.run c gnuc t r a b d = some res ∧ ∀ j, j < K * r.lanes t.w →
      Vec.at_ (Arr.flat res : Vec t.w (K * r.lanes t.w)) j =
        s.pick (Vec.at_ (Arr.flat a : Vec t.w (K * r.lanes t.w))) (Vec.at_ (Arr.flat b : Vec t.w (K * r.lanes t.w))) j := by
  have hw := ETy.okW t
  have hL := blkL hw.isW
  have hZ : 128 / t.w ∣ K * r.lanes t.w := Dvd.dvd.mul_left (lanesW_dvd hw.isW r) K
  cases s with
  | permute2 s0 s1 =>
    obtain ⟨h8, h0, h1⟩ := hs
    have fin : ∀ res : Fin K → Vec t.w (r.lanes t.w), Picks 2 (fun j => if j = 0 then s0 else s1) (Arr.flat a : Vec t.w (K * r.lanes t.w)) (Arr.flat a) (Arr.flat res) →
        ∀ j, j < K * r.lanes t.w → Vec.at_ (Arr.flat res : Vec t.w (K * r.lanes t.w)) j =
          Vec.at_ (Arr.flat a : Vec t.w (K * r.lanes t.w)) (j / 2 * 2 + if j % 2 = 0 then s0 else s1) := fun res p j hj => by
      rw [picks_at (by decide) p hj, if_pos (by split_ifs <;> omega)]
    rcases t with ⟨sg, _ | _ | _ | _⟩ | ⟨_ | _⟩
    · exact absurd rfl h8
    · obtain ⟨res, e, p⟩ := C18_permute2_16 h hr h0 h1 a d; exact ⟨res, e, fin res p⟩
    · obtain ⟨res, e, p⟩ := C18_permute2_32 h gnuc hr h0 h1 a d; exact ⟨res, e, fin res p⟩
    · obtain ⟨res, e, p⟩ := C18_permute2_64 h hr h0 h1 a d; exact ⟨res, e, fin res p⟩
    · obtain ⟨res, e, p⟩ := C18_permute2_32 h gnuc hr h0 h1 a d; exact ⟨res, e, fin res p⟩
    · obtain ⟨res, e, p⟩ := C18_permute2_64 h hr h0 h1 a d; exact ⟨res, e, fin res p⟩
  | permute4 s0 s1 s2 s3 =>
    obtain ⟨h8, h0, h1, h2, h3⟩ := hs
    have fin : ∀ res : Fin K → Vec t.w (r.lanes t.w), Picks 4 (fun j => if j = 0 then s0 else if j = 1 then s1 else if j = 2 then s2 else s3)
        (Arr.flat a : Vec t.w (K * r.lanes t.w)) (Arr.flat a) (Arr.flat res) →
        ∀ j, j < K * r.lanes t.w → Vec.at_ (Arr.flat res : Vec t.w (K * r.lanes t.w)) j =
          Vec.at_ (Arr.flat a : Vec t.w (K * r.lanes t.w)) (j / 4 * 4 + four s0 s1 s2 s3 (j % 4)) := fun res p j hj => by
      rw [picks_at (by decide) p hj, if_pos (by split_ifs <;> omega)]; rfl
    rcases t with ⟨sg, _ | _ | _ | _⟩ | ⟨_ | _⟩
    · rcases h8 with g | g <;> cases g
    · obtain ⟨res, e, p⟩ := C18_permute4_16 h hr h0 h1 h2 h3 a d; exact ⟨res, e, fin res p⟩
    · obtain ⟨res, e, p⟩ := C18_permute4_32 h gnuc hr h0 h1 h2 h3 a d; exact ⟨res, e, fin res p⟩
    · rcases h8 with g | g <;> cases g
    · obtain ⟨res, e, p⟩ := C18_permute4_32 h gnuc hr h0 h1 h2 h3 a d; exact ⟨res, e, fin res p⟩
    · rcases h8 with g | g <;> cases g
  | splat s =>
    obtain ⟨res, e, p⟩ := C23_splat_n h gnuc hw hr hs a d
    exact ⟨res, e, fun j hj => by rw [picks_at hL.1 p hj, if_pos (show s < _ from hs)]; rfl⟩
  | move_l s =>
    obtain ⟨res, e, p⟩ := C19_move_l h hw hr hs a d
    refine ⟨res, e, fun j hj => ?_⟩
    have e0 : j / (128 / t.w) * (128 / t.w) + j % (128 / t.w) = j := Nat.div_add_mod' _ _
    have := p (j / (128 / t.w)) (j % (128 / t.w)) (Nat.mod_lt _ hL.1) (by rw [e0]; exact hj)
    rw [← Nat.add_assoc, e0] at this
    exact this
  | move_r s =>
    obtain ⟨res, e, p⟩ := C19_move_r h hw hr hs a d
    refine ⟨res, e, fun j hj => ?_⟩
    have e0 : j / (128 / t.w) * (128 / t.w) + j % (128 / t.w) = j := Nat.div_add_mod' _ _
    have := p (j / (128 / t.w)) (j % (128 / t.w)) (Nat.mod_lt _ hL.1) (by rw [e0]; exact hj)
    rw [e0] at this
    rw [this]
    simp only [Shuf.pick]
    split_ifs with g
    · congr 1; omega
    · rfl
  | align s =>
    obtain ⟨res, e, p⟩ := C19_align h hw hr hs a b d
    refine ⟨res, e, fun j hj => ?_⟩
    have e0 : j / (128 / t.w) * (128 / t.w) + j % (128 / t.w) = j := Nat.div_add_mod' _ _
    have := p (j / (128 / t.w)) (j % (128 / t.w)) (Nat.mod_lt _ hL.1) (by rw [e0]; exact hj)
    rw [e0] at this
    rw [this]
    simp only [Shuf.pick]
    split_ifs with g
    · congr 1; omega
    · congr 1; omega
  | zip_lo =>
    obtain ⟨res, e, p⟩ := C17_zip_lo h hw hr a b d
    exact ⟨res, e, fun j hj => interl_at hL.1 hL.2 hZ p hj⟩
  | zip_hi =>
    obtain ⟨res, e, p⟩ := C17_zip_hi h hw hr a b d
    exact ⟨res, e, fun j hj => interl_at hL.1 hL.2 hZ p hj⟩
  | unzip_lo =>
    obtain ⟨res, e, p⟩ := C17_unzip_lo h hw hr a b d
    exact ⟨res, e, fun j hj => deinterl_at hL.1 hL.2 hZ p hj⟩
  | unzip_hi =>
    obtain ⟨res, e, p⟩ := C17_unzip_hi h hw hr a b d
    exact ⟨res, e, fun j hj => deinterl_at hL.1 hL.2 hZ p hj⟩
  | shuffle1 s0 s1 =>
    obtain ⟨h8, h0, h1⟩ := hs
    have fin : ∀ res : Fin K → Vec t.w (r.lanes t.w), (∀ q, q * 2 + 2 ≤ K * r.lanes t.w →
        Vec.at_ (Arr.flat res : Vec t.w (K * r.lanes t.w)) (q * 2) = Vec.at_ (Arr.flat a : Vec t.w (K * r.lanes t.w)) (q * 2 + s0) ∧
        Vec.at_ (Arr.flat res : Vec t.w (K * r.lanes t.w)) (q * 2 + 1) = Vec.at_ (Arr.flat b : Vec t.w (K * r.lanes t.w)) (q * 2 + s1)) →
        ∀ j, j < K * r.lanes t.w → Vec.at_ (Arr.flat res : Vec t.w (K * r.lanes t.w)) j =
          if j % 2 = 0 then Vec.at_ (Arr.flat a : Vec t.w (K * r.lanes t.w)) (j / 2 * 2 + s0) else Vec.at_ (Arr.flat b : Vec t.w (K * r.lanes t.w)) (j / 2 * 2 + s1) :=
      fun res p j hj => by
        have hZ : 2 ∣ K * r.lanes t.w := by have e : 128 / t.w = 2 := by rw [h8]
                                            rwa [e] at hZ
        obtain ⟨p1, p2⟩ := p (j / 2) (block_le (by decide) hZ hj)
        split_ifs with g
        · rw [← p1]; congr 1; omega
        · rw [← p2]; congr 1; omega
    rcases t with ⟨sg, _ | _ | _ | _⟩ | ⟨_ | _⟩
    · cases h8
    · cases h8
    · cases h8
    · obtain ⟨res, e, p⟩ := C18_shuffle1_64 h hr h0 h1 a b d; exact ⟨res, e, fin res p⟩
    · cases h8
    · obtain ⟨res, e, p⟩ := C18_shuffle1_64 h hr h0 h1 a b d; exact ⟨res, e, fin res p⟩
  | shuffle2 s0 s1 s2 s3 =>
    obtain ⟨h8, h0, h1, h2, h3⟩ := hs
    have fin : ∀ res : Fin K → Vec t.w (r.lanes t.w), (∀ q, q * 4 + 4 ≤ K * r.lanes t.w →
        Vec.at_ (Arr.flat res : Vec t.w (K * r.lanes t.w)) (q * 4) = Vec.at_ (Arr.flat a : Vec t.w (K * r.lanes t.w)) (q * 4 + s0) ∧
        Vec.at_ (Arr.flat res : Vec t.w (K * r.lanes t.w)) (q * 4 + 1) = Vec.at_ (Arr.flat a : Vec t.w (K * r.lanes t.w)) (q * 4 + s1) ∧
        Vec.at_ (Arr.flat res : Vec t.w (K * r.lanes t.w)) (q * 4 + 2) = Vec.at_ (Arr.flat b : Vec t.w (K * r.lanes t.w)) (q * 4 + s2) ∧
        Vec.at_ (Arr.flat res : Vec t.w (K * r.lanes t.w)) (q * 4 + 3) = Vec.at_ (Arr.flat b : Vec t.w (K * r.lanes t.w)) (q * 4 + s3)) →
        ∀ j, j < K * r.lanes t.w → Vec.at_ (Arr.flat res : Vec t.w (K * r.lanes t.w)) j =
          (if j % 4 < 2 then Vec.at_ (Arr.flat a : Vec t.w (K * r.lanes t.w)) else Vec.at_ (Arr.flat b : Vec t.w (K * r.lanes t.w)))
            (j / 4 * 4 + four s0 s1 s2 s3 (j % 4)) :=
      fun res p j hj => by
        have hZ : 4 ∣ K * r.lanes t.w := by have e : 128 / t.w = 4 := by rw [h8]
                                            rwa [e] at hZ
        obtain ⟨p1, p2, p3, p4⟩ := p (j / 4) (block_le (by decide) hZ hj)
        have e0 : j / 4 * 4 + j % 4 = j := Nat.div_add_mod' _ _
        unfold four
        have : j % 4 = 0 ∨ j % 4 = 1 ∨ j % 4 = 2 ∨ j % 4 = 3 := by omega
        rcases this with g | g | g | g <;> rw [g] at e0 ⊢
        · rw [if_pos (by decide), if_pos rfl, ← p1]; congr 1; omega
        · rw [if_pos (by decide), if_neg (by decide), if_pos rfl, ← p2]; congr 1; omega
        · rw [if_neg (by decide), if_neg (by decide), if_neg (by decide), if_pos rfl, ← p3]; congr 1; omega
        · rw [if_neg (by decide), if_neg (by decide), if_neg (by decide), if_neg (by decide), ← p4]; congr 1; omega
    rcases t with ⟨sg, _ | _ | _ | _⟩ | ⟨_ | _⟩
    · cases h8
    · cases h8
    · obtain ⟨res, e, p⟩ := C18_shuffle2_32 h hr h0 h1 h2 h3 a b d; exact ⟨res, e, fin res p⟩
    · cases h8
    · obtain ⟨res, e, p⟩ := C18_shuffle2_32 h hr h0 h1 h2 h3 a b d; exact ⟨res, e, fin res p⟩
    · cases h8
  | shuffle4x2 s0 s1 s2 s3 =>
    obtain ⟨h8, h0, h1, h2, h3⟩ := hs
    have fin : ∀ res : Fin K → Vec t.w (r.lanes t.w), Picks 4 (fun j => if j = 0 then s0 else if j = 1 then s1 else if j = 2 then s2 else s3)
        (Arr.flat a : Vec t.w (K * r.lanes t.w)) (Arr.flat b) (Arr.flat res) →
        ∀ j, j < K * r.lanes t.w → Vec.at_ (Arr.flat res : Vec t.w (K * r.lanes t.w)) j =
          if four s0 s1 s2 s3 (j % 4) < 4 then Vec.at_ (Arr.flat a : Vec t.w (K * r.lanes t.w)) (j / 4 * 4 + four s0 s1 s2 s3 (j % 4))
          else Vec.at_ (Arr.flat b : Vec t.w (K * r.lanes t.w)) (j / 4 * 4 + (four s0 s1 s2 s3 (j % 4) - 4)) := fun res p j hj =>
      picks_at (by decide) p hj
    rcases t with ⟨sg, _ | _ | _ | _⟩ | ⟨_ | _⟩
    · cases h8
    · cases h8
    · obtain ⟨res, e, p⟩ := C18_shuffle4x2_32 h hr h0 h1 h2 h3 a b d; exact ⟨res, e, fin res p⟩
    · cases h8
    · obtain ⟨res, e, p⟩ := C18_shuffle4x2_32 h hr h0 h1 h2 h3 a b d; exact ⟨res, e, fin res p⟩
    · cases h8

theorem flat_parts {w l N : Nat} (a : Vec w N) (hl : 0 < l) (hN : N / l * l = N) :
    Vec.at_ (Arr.flat (fun k : Fin (N / l) => Hw.part l k.val a) : Vec w (N / l * l)) = a.at_ := by
  funext j
  by_cases hj : j < N / l * l
  · rw [flat_at _ hj, Hw.part_at _ (Nat.mod_lt _ hl), Nat.div_add_mod']
  · rw [Vec.at_ge _ (by omega), Vec.at_ge _ (by omega)]

/-- The shuffles of vectors of `N` lanes. -/
theorem shufV_eq {c : Cfg} (h : c.Ok) (gnuc : Bool) (t : ETy) (hN : c.TLen t N) (s : Shuf) (hs : s.Valid t.w)
    (d : Nat → Vec t.w ((c.regK t.kind t.w N).lanes t.w)) (a b : Vec t.w N) :
    shufV c gnuc t N s d a b = some (fun j => s.pick a.at_ b.at_ j.val) := by
  obtain ⟨hr, K, hK, eN⟩ := KLen.regs h (ETy.okW t) hN
  have hl : 0 < (c.regK t.kind t.w N).lanes t.w := Nat.pos_of_dvd_of_pos (Dvd.intro_left K eN.symm) (by
    rcases Nat.eq_zero_or_pos N with g | g
    · exfalso
      rcases Nat.mul_eq_zero.1 (eN.symm.trans g) with g' | g'
      · omega
      · have := lanes_pos (ETy.okW t).isW (c.regK t.kind t.w N); omega
    · exact g)
  have eD : N / (c.regK t.kind t.w N).lanes t.w * (c.regK t.kind t.w N).lanes t.w = N := Nat.div_mul_cancel (Dvd.intro_left K eN.symm)
  obtain ⟨res, e, p⟩ := Shuf.run_at h gnuc t hr s hs (K := N / (c.regK t.kind t.w N).lanes t.w)
    (fun k => Hw.part _ k.val a) (fun k => Hw.part _ k.val b) (fun k => d k.val)
  unfold shufV
  refine (bind_of e _).trans (congrArg some (funext fun j => ?_))
  have := p j.val (by rw [eD]; exact j.isLt)
  rw [flat_parts a hl eD, flat_parts b hl eD] at this
  exact this

/-! ## Programs -/

theorem argsM_eq {V : Nat} {α : Fin V → Type} {a : (x : Fin V) → Option (α x)} {f : (x : Fin V) → α x} (e : ∀ x, a x = some (f x)) : argsM a = some f := by
  obtain rfl : a = fun x => some (f x) := funext e
  exact dif_pos fun x => rfl

/-- Every operator of the expression is defined on the build and on the first `P` lanes of the variables `ρ`. -/
def Spec.MProg.SExp.Ok (c : Cfg) (N : Nat) (I : (f : FWd) → Impl f.n) (P : Nat) (ρ : (x : Nat) → Nat → BitVec (Γ x).w) : {t : ETy} → SExp Γ t → Prop
  | _, .var x => c.TLen (Γ x) N
  | _, .lanes V _ e arg => (∀ x, (arg x).Ok c N I P ρ) ∧ e.Ok c N I (fun (j : Fin P) x => if h : x < V then (arg ⟨x, h⟩).den I ρ j.val else 0)
  | t, .shuf s a b => a.Ok c N I P ρ ∧ b.Ok c N I P ρ ∧ s.Valid t.w

theorem Spec.MProg.SExp.Ok.len {c : Cfg} {I : (f : FWd) → Impl f.n} {P : Nat} {ρ : (x : Nat) → Nat → BitVec (Γ x).w} : {t : ETy} → {e : SExp Γ t} →
    e.Ok c N I P ρ → c.TLen t N
  | _, .var _, ok => ok
  | _, .lanes .., ok => ok.2.len
  | _, .shuf _ _ _, ok => Spec.MProg.SExp.Ok.len ok.1

theorem TLen.dvd {c : Cfg} (h : c.Ok) (hN : c.TLen t N) : 128 / t.w ∣ N := by
  obtain ⟨-, K, -, eN⟩ := KLen.regs h (ETy.okW t) hN
  rw [eN]
  exact Dvd.dvd.mul_left (lanesW_dvd (ETy.okW t).isW _) K

theorem block_in {L N i j : Nat} (hL : L ∣ N) (hj : j < N) (e : i / L = j / L) : i < N := by
  obtain ⟨k, rfl⟩ := hL
  have hL : 0 < L := Nat.pos_of_ne_zero fun g => by subst g; simp at hj
  exact (Nat.div_lt_iff_lt_mul hL).1 (e ▸ Nat.div_lt_of_lt_mul hj) |>.trans_le (Nat.mul_comm _ _).le

/-- Element `j` of the meaning on the elements from `B` on is element `B + j` of the meaning. -/
theorem SExp.den_shift {c : Cfg} (h : c.Ok) {I : (f : FWd) → Impl f.n} {P B : Nat} {ρ ρ' : (x : Nat) → Nat → BitVec (Γ x).w} (hB : N ∣ B)
    (hρ : ∀ x j, j < N → ρ' x j = ρ x (B + j)) : {t : ETy} → (e : SExp Γ t) → e.Ok c N I P ρ → ∀ j, j < N → e.den I ρ' j = e.den I ρ (B + j)
  | _, .var x, _, j, hj => hρ x j hj
  | _, .lanes V _ e arg, ok, j, hj => by
    unfold SExp.den
    refine congrArg (fun F => e.den I F) (funext fun x => ?_)
    split_ifs with g
    · exact SExp.den_shift h hB hρ (arg ⟨x, g⟩) (ok.1 _) j hj
    · rfl
  | t, .shuf s a b, ok, j, hj => by
    have hL := TLen.dvd h ok.1.len
    unfold SExp.den
    exact (Shuf.pick_shift (ETy.okW t).isW s ok.2.2 (hL.trans hB) fun i hi =>
      ⟨(SExp.den_shift h hB hρ a ok.1 i (block_in hL hj hi)).symm, (SExp.den_shift h hB hρ b ok.2.1 i (block_in hL hj hi)).symm⟩).symm

theorem SExp.Ok.shift {c : Cfg} (h : c.Ok) {I : (f : FWd) → Impl f.n} {P B : Nat} {ρ ρ' : (x : Nat) → Nat → BitVec (Γ x).w} (hB : N ∣ B) (hP : B + N ≤ P)
    (hρ : ∀ x j, j < N → ρ' x j = ρ x (B + j)) : {t : ETy} → (e : SExp Γ t) → e.Ok c N I P ρ → e.Ok c N I N ρ'
  | _, .var x, ok => ok
  | _, .lanes V _ e arg, ok => by
    refine ⟨fun x => SExp.Ok.shift h hB hP hρ (arg x) (ok.1 x), ?_⟩
    refine cast (congrArg (fun F => e.Ok c N I F) ?_) (MExp.Ok.comp (fun j : Fin N => (⟨B + j.val, by omega⟩ : Fin P)) e ok.2)
    funext j x
    split_ifs with g
    · exact (SExp.den_shift h hB hρ (arg ⟨x, g⟩) (ok.1 _) j.val j.isLt).symm
    · rfl
  | t, .shuf s a b, ok => ⟨SExp.Ok.shift h hB hP hρ a ok.1, SExp.Ok.shift h hB hP hρ b ok.2.1, ok.2.2⟩

/-- The lanes of the variables. -/
def lanesOf (env : (x : Nat) → Vec (Γ x).w N) (x : Nat) : Nat → BitVec (Γ x).w := (env x).at_

theorem SExp.run_eq {c : Cfg} (h : c.Ok) (gnuc : Bool) {I : (f : FWd) → Impl f.n} (hI : IsImpls c N I) (E : Est) (J : Junk c N) (env : (x : Nat) → Vec (Γ x).w N) :
    {t : ETy} → (e : SExp Γ t) → e.Ok c N I N (lanesOf env) → e.run c gnuc E J env = some (fun j => e.den I (lanesOf env) j.val)
  | _, .var x, _ => congrArg some (funext fun j => (Vec.at_fin (env x) j).symm)
  | _, .lanes V Δ e arg, ok => by
    unfold SExp.run
    refine (bind_of (argsM_eq fun x => SExp.run_eq h gnuc hI E J env (arg x) (ok.1 x)) _).trans ?_
    refine (MExp.run_eq h hI E J _ e ?_).trans (congrArg some (funext fun j => ?_))
    · refine cast (congrArg (fun F => e.Ok c N I F) ?_) ok.2
      funext j x
      exact (dite_app (α := BitVec (Δ x).w) (fun h : x < V => fun j => (arg ⟨x, h⟩).den I (lanesOf env) j.val) (fun _ => 0) j).symm
    · show e.den I _ = e.den I _
      refine congrArg (fun F => e.den I F) (funext fun x => ?_)
      exact dite_app (α := BitVec (Δ x).w) (fun h : x < V => fun j => (arg ⟨x, h⟩).den I (lanesOf env) j.val) (fun _ => 0) j
  | t, .shuf s a b, ok => by
    unfold SExp.run
    refine (bind_of (SExp.run_eq h gnuc hI E J env a ok.1) _).trans ?_
    refine (bind_of (SExp.run_eq h gnuc hI E J env b ok.2.1) _).trans ?_
    refine (shufV_eq h gnuc t ok.1.len s ok.2.2 _ _ _).trans (congrArg some (funext fun j => ?_))
    have hL := TLen.dvd h ok.1.len
    exact Shuf.pick_local (ETy.okW t).isW s ok.2.2 fun i hi => by
      have := block_in hL j.isLt hi
      rw [Vec.at_lt _ this, Vec.at_lt _ this]
      exact ⟨rfl, rfl⟩

theorem SExp.den_congr {I I' : (f : FWd) → Impl f.n} (hm : ∀ f, (I f).mul = (I' f).mul) (ρ : (x : Nat) → Nat → BitVec (Γ x).w) : {t : ETy} → (e : SExp Γ t) →
    e.noMinMax → e.den I ρ = e.den I' ρ
  | _, .var x, _ => rfl
  | _, .lanes V _ e arg, q => by
    funext j
    unfold SExp.den
    refine (congrArg (fun F => e.den I F) (funext fun x => ?_)).trans (MExp.den_congr hm _ e q.1)
    split_ifs with g
    · rw [SExp.den_congr hm ρ (arg ⟨x, g⟩) (q.2 _)]
    · rfl
  | _, .shuf s a b, q => by
    funext j
    unfold SExp.den
    rw [SExp.den_congr hm ρ a q.1, SExp.den_congr hm ρ b q.2]

theorem SExp.Ok.congr {c : Cfg} {I I' : (f : FWd) → Impl f.n} (hm : ∀ f, (I f).mul = (I' f).mul) {P : Nat} {ρ : (x : Nat) → Nat → BitVec (Γ x).w} :
    {t : ETy} → (e : SExp Γ t) → e.noMinMax → e.Ok c N I P ρ → e.Ok c N I' P ρ
  | _, .var _, _, ok => ok
  | _, .lanes V _ e arg, q, ok => ⟨fun x => SExp.Ok.congr hm (arg x) (q.2 x) (ok.1 x), by
      refine cast (congrArg (fun F => e.Ok c N I' F) ?_) (MExp.Ok.congr hm e q.1 ok.2)
      funext j x
      split_ifs with g
      · rw [SExp.den_congr hm ρ (arg ⟨x, g⟩) (q.2 _)]
      · rfl⟩
  | _, .shuf s a b, q, ok => ⟨SExp.Ok.congr hm a q.1 ok.1, SExp.Ok.congr hm b q.2 ok.2.1, ok.2.2⟩

/-- **C66.** On every build there is one choice `I` of what IEEE 754 leaves open such that every expression of lane-wise operations (of the ten element
types, with conversions and bit casts) and shuffles, nested in any way and evaluated vector by vector through the library, is lane by lane the
expression's meaning, in which a shuffle only names the place every element comes from. `gnuc` is whether the compiler is GCC or Clang. -/
theorem C66_program {c : Cfg} (h : c.Ok) (N : Nat) (E : Est) : ∃ I : (f : FWd) → Impl f.n,
    (∀ f, (I f).Ok ∧ (¬ c.mulByFma f.n (c.regK .flt f.n N) → (I f).mul = Fp.mul)) ∧
    ∀ (gnuc : Bool) (Γ : Nat → ETy) (t : ETy) (e : SExp Γ t) (J : Junk c N) (env : (x : Nat) → Vec (Γ x).w N), e.Ok c N I N (lanesOf env) →
      ∃ v, e.run c gnuc E J env = some v ∧ ∀ j : Fin N, v j = e.den I (lanesOf env) j.val := by
  obtain ⟨I, h1, h2⟩ := impls_ex h N
  exact ⟨I, h2, fun gnuc Γ t e J env ok => ⟨_, SExp.run_eq h gnuc h1 E J env e ok, fun _ => rfl⟩⟩

/-- **C66.** Without floating-point `min` and `max`, and unless it multiplies on AltiVec without VSX, no choice is left: the IEEE results. -/
theorem C66_ieee {c : Cfg} (h : c.Ok) (gnuc : Bool) (E : Est) (hm : ∀ f : FWd, ¬ c.mulByFma f.n (c.regK .flt f.n N)) (e : SExp Γ t) (he : e.noMinMax) (J : Junk c N)
    (env : (x : Nat) → Vec (Γ x).w N) (ok : e.Ok c N ieees N (lanesOf env)) :
    e.run c gnuc E J env = some (fun j => e.den ieees (lanesOf env) j.val) := by
  obtain ⟨I, h1, h2⟩ := impls_ex h N
  have em : ∀ f, (I f).mul = (ieees f).mul := fun f => (h2 f).2 (hm f)
  rw [SExp.run_eq h gnuc h1 E J env e (SExp.Ok.congr (fun f => (em f).symm) e he ok), SExp.den_congr em _ e he]

/-- **C66.** Two such builds, whatever their registers and compilers, compute the same bits. -/
theorem C66_portable {c c' : Cfg} (h : c.Ok) (h' : c'.Ok) (gnuc gnuc' : Bool) (E E' : Est) (hm : ∀ f : FWd, ¬ c.mulByFma f.n (c.regK .flt f.n N))
    (hm' : ∀ f : FWd, ¬ c'.mulByFma f.n (c'.regK .flt f.n N)) (e : SExp Γ t) (he : e.noMinMax) (J : Junk c N) (J' : Junk c' N)
    (env : (x : Nat) → Vec (Γ x).w N) (ok : e.Ok c N ieees N (lanesOf env)) (ok' : e.Ok c' N ieees N (lanesOf env)) :
    ∃ v, e.run c gnuc E J env = some v ∧ e.run c' gnuc' E' J' env = some v :=
  ⟨_, C66_ieee h gnuc E hm e he J env ok, C66_ieee h' gnuc' E' hm' e he J' env ok'⟩

/-- **C66.** The vectorised loop over arrays with a body that shuffles. Because every shuffle stays inside its 128-bit block, the result does not depend
on the vector length: element `j` of the output is element `j` of the meaning of the expression over the whole arrays. `A x j` is element `j` of
input `x` at the start; the other hypotheses are those of C59. -/
theorem C66_kernel {c : Cfg} (h : c.Ok) (N : Nat) (E : Est) : ∃ I : (f : FWd) → Impl f.n,
    (∀ f, (I f).Ok ∧ (¬ c.mulByFma f.n (c.regK .flt f.n N) → (I f).mul = Fp.mul)) ∧
    ∀ (gnuc : Bool) (Γ : Nat → ETy) (t : ETy) (e : SExp Γ t) (be : Bool) (J : Junk c N) {V : Nat} {p : Nat → Nat} {q cnt : Nat} (m : Mem)
      {A : (x : Nat) → Nat → BitVec (Γ x).w} {P : Nat},
      P = (cnt + (N - 1)) / N * N →
      (∀ x, x < V → c.TLen (Γ x) N) →
      (∀ x, x < V → ∀ j, j < P → Holds m.byte (p x + j * ((Γ x).w / 8)) (A x j)) → (∀ x, V ≤ x → ∀ j, A x j = 0) →
      (∀ x, x < V → p x % (c.regK (Γ x).kind (Γ x).w N).bytes = 0) → q % (c.regK t.kind t.w N).bytes = 0 →
      (∀ x, x < V → m.Block (p x) (P * ((Γ x).w / 8))) → m.Block q (P * (t.w / 8)) →
      (∀ x, x < V → (q ≤ p x ∧ t.w ≤ (Γ x).w) ∨ p x + P * ((Γ x).w / 8) ≤ q ∨ q + P * (t.w / 8) ≤ p x) →
      e.Ok c N I P A →
      ∃ m', skernel c gnuc be E J V e p q cnt m = some m' ∧ m'.ok = m.ok ∧
        (∀ j, j < cnt → Holds m'.byte (q + j * (t.w / 8)) (e.den I A j)) ∧
        ∀ a, a < q ∨ q + cnt * (t.w / 8) ≤ a → m'.byte a = m.byte a := by
  obtain ⟨I, h1, h2⟩ := impls_ex h N
  refine ⟨I, h2, fun gnuc Γ t e be J V p q cnt m A P hP hT hA hV hp hq hb hbq hd ok => ?_⟩
  obtain ⟨m', e1, e2, e3, e4⟩ := kernelG_all h (ETy.okW t) ok.len (stp := skernelStep c gnuc E J V e p) (F := fun j y => y = e.den I A j)
    be t.signed m hP hq hbq fun i hi hle s R D => by
      have ld : ∀ x, x < V → load c (Γ x).kind (Γ x).w N s (p x + i * (N * ((Γ x).w / 8))) = some (fun l : Fin N => A x (i * N + l.val)) := fun x hx => by
        have l1 := Nat.mul_le_mul_right ((Γ x).w / 8) hle
        refine load_done h (ETy.okW _) (hT x hx) (fun j hj => hA x hx j (by omega)) (hp x hx) (fun a g1 g2 => hb x hx a g1 (by omega)) ?_ D
        rcases hd x hx with ⟨g1, g2⟩ | g | g
        · have := Nat.mul_le_mul_left (i * N) (Nat.div_le_div_right (c := 8) g2)
          left; omega
        · right; omega
        · have := Nat.mul_le_mul_right (t.w / 8) (show i * N ≤ P by rw [Nat.add_mul, Nat.one_mul] at hle; omega)
          left; omega
      have el : loadsM (Γ := Γ) c N p i s V = some (fun x (l : Fin N) => A x (i * N + l.val)) := by
        rw [loadsM_eq _ V ld]
        refine congrArg some (funext fun x => ?_)
        split_ifs with g
        · rfl
        · exact funext fun l => (hV x (by omega) _).symm
      have hρ : ∀ x j, j < N → lanesOf (fun x (l : Fin N) => A x (i * N + l.val)) x j = A x (i * N + j) := fun x j hj => Vec.at_lt _ hj
      have hB : N ∣ i * N := Nat.dvd_mul_left _ _
      refine ⟨_, (bind_of el _).trans (SExp.run_eq h gnuc h1 E J _ e (SExp.Ok.shift h hB (by rw [Nat.add_mul, Nat.one_mul] at hle; omega) hρ e ok)), fun l => ?_⟩
      exact SExp.den_shift h hB hρ e ok l.val l.isLt
  refine ⟨m', e1, e2, fun j hj => ?_, e4⟩
  obtain ⟨y, ey, hy⟩ := e3 j hj
  exact ey ▸ hy

/-! ## Instances -/

/-- `a + move4_r<1>(a)`, then `s + move4_r<2>(s)`: the running sums of every block of four 32-bit elements. -/
def scanStep (k : Nat) (a : SExp (fun _ => .int false .b32) (.int false .b32)) : SExp (fun _ => .int false .b32) (.int false .b32) :=
  .lanes 2 (fun _ => .int false .b32) (.ints (u := .b32) 2 (fun _ => false) (.op2 .add (.var 0) (.var 1)) fun x => .var x.val)
    fun x => if x.val = 0 then a else .shuf (.move_r k) a a

/-- See `scanStep`. -/
def scanSample : SExp (fun _ => .int false .b32) (.int false .b32) := scanStep 2 (scanStep 1 (.var 0))

theorem lane_add32 (x y : BitVec 32) : (Spec.lane 32 (val false x + val false y)).toNat = (x.toNat + y.toNat) % 2 ^ 32 := by
  have ex : ∀ x : BitVec 32, val false x = (x.toNat : Int) := fun x => by unfold val; rw [if_neg Bool.false_ne_true]
  rw [ex, ex, ← Nat.cast_add]
  unfold Spec.lane
  rw [BitVec.toNat_ofInt]
  rfl

theorem toNat_ite {p : Prop} [Decidable p] (x : BitVec 32) : BitVec.toNat (if p then x else 0) = if p then x.toNat else 0 := by
  split_ifs <;> rfl

/-- Element `j` of the meaning, as a number. -/
def den32 (I : (f : FWd) → Impl f.n) (ρ : Nat → Nat → BitVec 32) (a : SExp (fun _ => .int false .b32) (.int false .b32)) (j : Nat) : Nat :=
  BitVec.toNat (w := 32) (a.den I ρ j)

theorem scanStep_den (I : (f : FWd) → Impl f.n) (ρ : Nat → Nat → BitVec 32) (k : Nat) (a : SExp (fun _ => .int false .b32) (.int false .b32)) (j : Nat) :
    den32 I ρ (scanStep k a) j = (den32 I ρ a j + if k ≤ j % 4 then den32 I ρ a (j - k) else 0) % 2 ^ 32 :=
  (lane_add32 (a.den I ρ j) (if k ≤ j % 4 then a.den I ρ (j - k) else 0)).trans
    (congrArg (fun z => (den32 I ρ a j + z) % 2 ^ 32) (toNat_ite (a.den I ρ (j - k))))

theorem scanSample_ok {c : Cfg} (hN : c.VLen 32 N) (I : (f : FWd) → Impl f.n) (P : Nat) (ρ : Nat → Nat → BitVec 32) : scanSample.Ok c N I P ρ := by
  have step : ∀ k, k ≤ 4 → ∀ a : SExp (fun _ => .int false .b32) (.int false .b32), a.Ok c N I P ρ → (scanStep k a).Ok c N I P ρ := fun k hk a ok =>
    ⟨fun x => match x with
      | ⟨0, _⟩ => ok
      | ⟨1, _⟩ => ⟨ok, ok, show k ≤ 128 / 32 from hk⟩, hN, fun _ => hN, trivial, trivial, trivial⟩
  exact step 2 (by decide) _ (step 1 (by decide) _ hN)

theorem scanSample_den (I : (f : FWd) → Impl f.n) (ρ : Nat → Nat → BitVec 32) (j : Nat) :
    den32 I ρ scanSample j = (∑ i ∈ Finset.range (j % 4 + 1), (ρ 0 (j / 4 * 4 + i)).toNat) % 2 ^ 32 := by
  unfold scanSample
  rw [scanStep_den, scanStep_den, scanStep_den]
  have v : ∀ j, den32 I ρ (.var 0) j = (ρ 0 j).toNat := fun _ => rfl
  simp only [v]
  have hj : j = j / 4 * 4 + j % 4 := (Nat.div_add_mod' _ _).symm
  have : j % 4 = 0 ∨ j % 4 = 1 ∨ j % 4 = 2 ∨ j % 4 = 3 := by omega
  rcases this with g | g | g | g
  · rw [g, Finset.sum_range_one, show j / 4 * 4 + 0 = j by omega]
    simp
  · rw [g, Finset.sum_range_succ, Finset.sum_range_one, show j / 4 * 4 + 0 = j - 1 by omega, show j / 4 * 4 + 1 = j by omega]
    simp [Nat.add_comm]
  · rw [g, Finset.sum_range_succ, Finset.sum_range_succ, Finset.sum_range_one, show (j - 2) % 4 = 0 by omega, show j / 4 * 4 + 0 = j - 2 by omega,
      show j / 4 * 4 + 1 = j - 1 by omega, show j / 4 * 4 + 2 = j by omega]
    simp only [show (1 : Nat) ≤ 2 by decide, show (2 : Nat) ≤ 2 by decide, show ¬ (1 : Nat) ≤ 0 by decide, if_true, if_false]
    omega
  · rw [g, Finset.sum_range_succ, Finset.sum_range_succ, Finset.sum_range_succ, Finset.sum_range_one, show (j - 2) % 4 = 1 by omega, show j / 4 * 4 + 0 = j - 2 - 1 by omega,
      show j / 4 * 4 + 1 = j - 2 by omega, show j / 4 * 4 + 2 = j - 1 by omega, show j / 4 * 4 + 3 = j by omega]
    simp only [show (1 : Nat) ≤ 3 by decide, show (2 : Nat) ≤ 3 by decide, show (1 : Nat) ≤ 1 by decide, if_true]
    omega

/-- **C66**, an instance: the two-step scan computes, on every build and for every vector length, the running sums of every block of four elements. -/
theorem C66_prefix_sum {c : Cfg} (h : c.Ok) (gnuc : Bool) (hN : c.VLen 32 N) (E : Est) (J : Junk c N) (env : Nat → Vec 32 N) :
    ∃ v : Vec 32 N, scanSample.run c gnuc E J env = some v ∧
      ∀ j : Fin N, (v j).toNat = (∑ i ∈ Finset.range (j.val % 4 + 1), ((env 0).at_ (j.val / 4 * 4 + i)).toNat) % 2 ^ 32 := by
  obtain ⟨I, -, run⟩ := C66_program h N E
  obtain ⟨v, e, hv⟩ := run gnuc _ _ scanSample J env (scanSample_ok hN I N _)
  exact ⟨v, e, fun j => by exact (congrArg BitVec.toNat (hv j)).trans (scanSample_den I _ j.val)⟩

/-- **C66**, an instance: the loop over an array of `uint32_t` writes the running sums of every four elements, whatever the vector length. -/
theorem C66_prefix_sum_kernel {c : Cfg} (h : c.Ok) (gnuc be : Bool) (hN : c.VLen 32 N) (E : Est) (J : Junk c N) {p q cnt : Nat} (m : Mem) {A : Nat → BitVec 32} {P : Nat}
    (hP : P = (cnt + (N - 1)) / N * N) (hA : ∀ j, j < P → Holds m.byte (p + j * 4) (A j))
    (hp : p % (c.regK .int 32 N).bytes = 0) (hq : q % (c.regK .int 32 N).bytes = 0) (hb : m.Block p (P * 4)) (hbq : m.Block q (P * 4))
    (hd : q ≤ p ∨ p + P * 4 ≤ q) :
    ∃ m', skernel c gnuc be E J 1 scanSample (fun _ => p) q cnt m = some m' ∧
      (∀ j, j < cnt → Holds m'.byte (q + j * 4) (BitVec.ofNat 32 (∑ i ∈ Finset.range (j % 4 + 1), (A (j / 4 * 4 + i)).toNat))) ∧
      ∀ a, a < q ∨ q + cnt * 4 ≤ a → m'.byte a = m.byte a := by
  obtain ⟨I, -, run⟩ := C66_kernel h N E
  obtain ⟨m', e1, -, e2, e3⟩ := run gnuc (fun _ => .int false .b32) _ scanSample be J (V := 1) (p := fun _ => p) (q := q) (cnt := cnt) m
    (A := fun x j => if x = 0 then A j else 0) (P := P) hP (fun _ _ => hN) (fun x hx j hj => by
      obtain rfl : x = 0 := by omega
      exact hA j hj) (fun x hx j => if_neg (by omega)) (fun _ _ => hp) hq (fun _ _ => hb) hbq
    (fun _ _ => hd.imp (fun g => ⟨g, Nat.le_refl _⟩) Or.inl) (scanSample_ok hN I P _)
  refine ⟨m', e1, fun j hj => ?_, e3⟩
  have e := scanSample_den I (fun x j => if x = 0 then A j else 0) j
  have := e2 j hj
  refine cast (congrArg (fun z : BitVec 32 => Holds m'.byte (q + j * 4) z) ?_) this
  exact BitVec.eq_of_toNat_eq (e.trans (BitVec.toNat_ofNat _ _).symm)

/-- Products of complex numbers stored as pairs of `double`s: with `p = permute2<0,0>(a) * b` and `q = permute2<1,1>(a) * permute2<1,0>(b)`,
`shuffle1<0,1>(p - q, p + q)`. -/
def cmulSample : SExp (fun _ => .flt .f64) (.flt .f64) :=
  let p : SExp (fun _ => .flt .f64) (.flt .f64) := .lanes 2 (fun _ => .flt .f64) (.flts (f := .f64) 2 (.op2 .mul (.var 0) (.var 1)) fun x => .var x.val)
    fun x => if x.val = 0 then .shuf (.permute2 0 0) (.var 0) (.var 0) else .var 1
  let q : SExp (fun _ => .flt .f64) (.flt .f64) := .lanes 2 (fun _ => .flt .f64) (.flts (f := .f64) 2 (.op2 .mul (.var 0) (.var 1)) fun x => .var x.val)
    fun x => if x.val = 0 then .shuf (.permute2 1 1) (.var 0) (.var 0) else .shuf (.permute2 1 0) (.var 1) (.var 1)
  let op (o : FOp2) : SExp (fun _ => .flt .f64) (.flt .f64) := .lanes 2 (fun _ => .flt .f64) (.flts (f := .f64) 2 (.op2 o (.var 0) (.var 1)) fun x => .var x.val)
    fun x => if x.val = 0 then p else q
  .shuf (.shuffle1 0 1) (op .sub) (op .add)

theorem cmul_den (I : (f : FWd) → Impl f.n) (ρ : Nat → Nat → BitVec 64) {M : BitVec 64 → BitVec 64 → BitVec 64} (hM : (I .f64).mul = M) (k : Nat) :
    (cmulSample.den I ρ (2 * k) : BitVec 64) = Fp.sub (M (ρ 0 (2 * k)) (ρ 1 (2 * k))) (M (ρ 0 (2 * k + 1)) (ρ 1 (2 * k + 1))) ∧
    (cmulSample.den I ρ (2 * k + 1) : BitVec 64) = Fp.add (M (ρ 0 (2 * k)) (ρ 1 (2 * k + 1))) (M (ρ 0 (2 * k + 1)) (ρ 1 (2 * k))) := by
  subst hM
  generalize hM : (I .f64).mul = M
  have gen : ∀ j, (cmulSample.den I ρ j : BitVec 64) = if j % 2 = 0 then
      Fp.sub ((I .f64).mul (ρ 0 ((j / 2 * 2 + 0) / 2 * 2 + if (j / 2 * 2 + 0) % 2 = 0 then 0 else 0)) (ρ 1 (j / 2 * 2 + 0)))
        ((I .f64).mul (ρ 0 ((j / 2 * 2 + 0) / 2 * 2 + if (j / 2 * 2 + 0) % 2 = 0 then 1 else 1))
          (ρ 1 ((j / 2 * 2 + 0) / 2 * 2 + if (j / 2 * 2 + 0) % 2 = 0 then 1 else 0)))
    else
      Fp.add ((I .f64).mul (ρ 0 ((j / 2 * 2 + 1) / 2 * 2 + if (j / 2 * 2 + 1) % 2 = 0 then 0 else 0)) (ρ 1 (j / 2 * 2 + 1)))
        ((I .f64).mul (ρ 0 ((j / 2 * 2 + 1) / 2 * 2 + if (j / 2 * 2 + 1) % 2 = 0 then 1 else 1))
          (ρ 1 ((j / 2 * 2 + 1) / 2 * 2 + if (j / 2 * 2 + 1) % 2 = 0 then 1 else 0))) := fun j => rfl
  rw [hM] at gen
  refine ⟨(gen _).trans ?_, (gen _).trans ?_⟩
  · rw [if_pos (by omega), ite_self, ite_self, if_pos (by omega), show 2 * k / 2 * 2 + 0 = 2 * k by omega, show 2 * k / 2 * 2 = 2 * k by omega]
    rfl
  · rw [if_neg (by omega), ite_self, ite_self, if_neg (by omega), show (2 * k + 1) / 2 * 2 + 1 = 2 * k + 1 by omega, show (2 * k + 1) / 2 * 2 = 2 * k by omega]
    rfl

/-- **C66**, an instance: the product of complex numbers has the real part `a.re * b.re - a.im * b.im` and the imaginary part `a.re * b.im + a.im * b.re`,
every operation rounded to double precision, bit for bit the same on every build with vectors of `double`. -/
theorem C66_complex_product {c : Cfg} (h : c.Ok) (gnuc : Bool) (hN : c.FLen 64 N) (E : Est) (J : Junk c N) (env : Nat → Vec 64 N) :
    ∃ v : Vec 64 N, cmulSample.run c gnuc E J env = some v ∧ ∀ k, 2 * k + 1 < N →
      v.at_ (2 * k) = Fp.sub (Fp.mul ((env 0).at_ (2 * k)) ((env 1).at_ (2 * k))) (Fp.mul ((env 0).at_ (2 * k + 1)) ((env 1).at_ (2 * k + 1))) ∧
      v.at_ (2 * k + 1) = Fp.add (Fp.mul ((env 0).at_ (2 * k)) ((env 1).at_ (2 * k + 1))) (Fp.mul ((env 0).at_ (2 * k + 1)) ((env 1).at_ (2 * k))) := by
  obtain ⟨I, hI, run⟩ := C66_program h N E
  have ok : cmulSample.Ok c N I N (lanesOf (Γ := fun _ => .flt .f64) env) := by
    have p : ∀ (o : FOp2) (_ : o.Ok c 64) (a b : SExp (fun _ => .flt .f64) (.flt .f64)) (_ : a.Ok c N I N (lanesOf (Γ := fun _ => .flt .f64) env))
        (_ : b.Ok c N I N (lanesOf (Γ := fun _ => .flt .f64) env)),
        SExp.Ok c N I N (lanesOf (Γ := fun _ => .flt .f64) env) (.lanes 2 (fun _ => .flt .f64) (.flts (f := .f64) 2 (.op2 o (.var 0) (.var 1)) fun x => .var x.val)
          fun x => if x.val = 0 then a else b) := fun o ho a b ha hb =>
      ⟨fun x => match x with
        | ⟨0, _⟩ => ha
        | ⟨1, _⟩ => hb, hN, fun _ => hN, trivial, trivial, ho⟩
    have hv : (2 : Nat) ≠ 8 := by decide
    have sh : ∀ (s0 s1 x : Nat), s0 < 2 → s1 < 2 →
        SExp.Ok c N I N (lanesOf (Γ := fun _ => .flt .f64) env) (.shuf (.permute2 s0 s1) (.var x) (.var x)) := fun s0 s1 x h0 h1 =>
      ⟨hN, hN, (by decide : (64 : Nat) ≠ 8), h0, h1⟩
    have hp := p .mul trivial _ _ (sh 0 0 0 (by decide) (by decide)) (show SExp.Ok c N I N (lanesOf (Γ := fun _ => .flt .f64) env) (.var 1) from hN)
    have hq := p .mul trivial _ _ (sh 1 1 0 (by decide) (by decide)) (sh 1 0 1 (by decide) (by decide))
    exact ⟨p .sub trivial _ _ hp hq, p .add trivial _ _ hp hq, rfl, by decide, by decide⟩
  have em : (I .f64).mul = Fp.mul := (hI .f64).2 (by rintro ⟨e, -⟩; cases e)
  obtain ⟨v, e, hv⟩ := run gnuc _ _ cmulSample J env ok
  refine ⟨v, e, fun k hk => ⟨?_, ?_⟩⟩
  · have hk' : 2 * k < N := by omega
    exact ((Vec.at_lt v hk').trans (hv ⟨_, hk'⟩)).trans (cmul_den I _ em k).1
  · exact ((Vec.at_lt v hk).trans (hv ⟨_, hk⟩)).trans (cmul_den I _ em k).2

/-- Builds, lengths and arrays which meet the hypotheses: ten elements in place on SSE2 (vectors of four), and on AVX2 with vectors of two registers. -/
example (m : Mem) (hm : ∀ a, m.ok a = true) (A : Nat → BitVec 32) (hA : ∀ j, j < 12 → Holds m.byte (64 + j * 4) (A j)) (E : Est) (J : Junk Cfg.sse2Only 4) :
    ∃ m', skernel Cfg.sse2Only true false E J 1 scanSample (fun _ => 64) 64 10 m = some m' ∧
      Holds m'.byte 64 (A 0) ∧ Holds m'.byte (64 + 24) (BitVec.ofNat 32 ((A 4).toNat + (A 5).toNat + (A 6).toNat)) ∧ m'.byte 104 = m.byte 104 := by
  obtain ⟨m', e, f, g⟩ := C66_prefix_sum_kernel Cfg.sse2Only_ok true false (N := 4) (Or.inl ⟨.r128, rfl, rfl⟩) E J (p := 64) (q := 64) (cnt := 10) (P := 12) m rfl hA
    (by decide +kernel) (by decide +kernel) (fun _ _ _ => hm _) (fun _ _ _ => hm _) (Or.inl (Nat.le_refl _))
  refine ⟨m', e, ?_, ?_, g 104 (Or.inr (Nat.le_refl _))⟩
  · have := f 0 (by decide)
    rw [show (0 : Nat) % 4 + 1 = 1 from rfl, Finset.sum_range_one, BitVec.ofNat_toNat, BitVec.setWidth_eq] at this
    exact this
  · have := f 6 (by decide)
    rw [show (6 : Nat) % 4 + 1 = 3 from rfl, Finset.sum_range_succ, Finset.sum_range_succ, Finset.sum_range_one] at this
    exact this

example : Cfg.avx2Only.VLen 32 16 ∧ Cfg.sse2Only.FLen 64 2 ∧ Cfg.avx2Only.FLen 64 8 ∧ Cfg.neonA64.FLen 64 4 :=
  ⟨Or.inr ⟨2, by decide, by decide +kernel⟩, Or.inl ⟨.r128, by decide +kernel, by decide +kernel⟩, Or.inr ⟨2, by decide, by decide +kernel⟩,
    Or.inr ⟨2, by decide, by decide +kernel⟩⟩

end Simdpp
