import Verif.Model.MemPack
import Verif.Props.ByteSel
import Verif.Props.Blend
import Verif.Props.Shift
import Verif.Props.MemReg

/-!
# Byte selections of families of registers
-/

namespace Simdpp
open Sh Spec

variable {w v n N S M : Nat}

/-- The bytes of all registers of a family. -/
def allB (m : Nat) (x : Fin M → Vec w n) : Vec 8 (M * m) := fun i =>
  ((x ⟨i.val / m, Nat.div_lt_of_lt_mul (Nat.mul_comm M m ▸ i.isLt)⟩).recast 8 m).at_ (i.val % m)

theorem allB_at {m : Nat} (x : Fin M → Vec w n) (q : Fin M) {t : Nat} (ht : t < m) :
    (allB m x).at_ (q.val * m + t) = ((x q).recast 8 m).at_ t := by
  have h1 : q.val * m + t < M * m := by
    have : (q.val + 1) * m ≤ M * m := Nat.mul_le_mul_right _ q.isLt
    rw [Nat.add_mul, Nat.one_mul] at this; omega
  have hm : 0 < m := by omega
  have e1 : (q.val * m + t) / m = q.val := by
    rw [Nat.mul_comm, Nat.mul_add_div hm, Nat.div_eq_of_lt ht, Nat.add_zero]
  have e2 : (q.val * m + t) % m = t := by rw [Nat.mul_comm, Nat.mul_add_mod, Nat.mod_eq_of_lt ht]
  rw [Vec.at_lt _ h1]
  show ((x ⟨(q.val * m + t) / m, _⟩).recast 8 m).at_ ((q.val * m + t) % m) = _
  rw [e2]
  congr 3
  exact Fin.ext e1

theorem allB_bs (m : Nat) (x : Fin M → Vec w n) (q : Fin M) : BS (allB m x) m (x q) (fun t => q.val * m + t) :=
  fun _ ht => (allB_at x q ht).symm

/-- `op` moves bytes: byte `t` of register `q` of the result is byte `sel q t` of the family. -/
def FS (M m : Nat) (op : (Fin M → Vec w n) → Option (Fin M → Vec w n)) (sel : Nat → Nat → Nat) : Prop :=
  ∀ x, ∃ y, op x = some y ∧ ∀ q : Fin M, BS (allB m x) m (y q) (sel q.val)

theorem FS.congr {m : Nat} {op : (Fin M → Vec w n) → Option (Fin M → Vec w n)} {s s' : Nat → Nat → Nat} (hs : FS M m op s)
    (h : ∀ q, q < M → ∀ t, t < m → s q t = s' q t) : FS M m op s' := fun x => by
  obtain ⟨y, e, b⟩ := hs x
  exact ⟨y, e, fun q => (b q).congr (h q.val q.isLt)⟩

theorem FS.id (M m : Nat) : FS (w := w) (n := n) M m (fun x => some x) (fun q t => q * m + t) :=
  fun x => ⟨x, rfl, fun q => allB_bs m x q⟩

theorem FS.comp {m : Nat} {op1 op2 : (Fin M → Vec w n) → Option (Fin M → Vec w n)} {s1 s2 : Nat → Nat → Nat}
    (h1 : FS M m op1 s1) (h2 : FS M m op2 s2) (hlt : ∀ q, q < M → ∀ t, t < m → s2 q t < M * m) :
    FS M m (fun x => (op1 x).bind op2) (fun q t => s1 (s2 q t / m) (s2 q t % m)) := fun x => by
  obtain ⟨y, e1, b1⟩ := h1 x
  obtain ⟨z, e2, b2⟩ := h2 y
  refine ⟨z, ?_, fun q t ht => ?_⟩
  · show (op1 x).bind op2 = some z
    rw [e1]; exact e2
  · have hl := hlt q.val q.isLt t ht
    have hm : 0 < m := by omega
    rw [b2 q t ht, Vec.at_lt _ hl]
    exact b1 _ _ (Nat.mod_lt _ hm)

/-- Interleaving of the vectors of `m` bytes with elements of `b` bytes, register `q`, byte `t`. -/
def packSel (M b m q t : Nat) : Nat :=
  (q * (m / b) + t / b) % M * m + (q * (m / b) + t / b) / M * b + t % b

/-- De-interleaving. -/
def unpackSel (M b m q t : Nat) : Nat :=
  (M * (t / b) + q) / (m / b) * m + (M * (t / b) + q) % (m / b) * b + t % b

/-- `packSel` within each block of 16 bytes. -/
def packSel16 (M b m q t : Nat) : Nat :=
  (q * (16 / b) + t % 16 / b) % M * m + t / 16 * 16 + (q * (16 / b) + t % 16 / b) / M * b + t % b

/-- `unpackSel` within each block of 16 bytes. -/
def unpackSel16 (M b m q t : Nat) : Nat :=
  (M * (t % 16 / b) + q) / (16 / b) * m + t / 16 * 16 + (M * (t % 16 / b) + q) % (16 / b) * b + t % b

/-! ## Single operations -/

section
variable {A : Vec 8 S} {r : Reg} {x y : Vec w n} {f g : Nat → Nat}

theorem lanes_bytes (hw : IsW w) (hn : n = r.lanes w) : r.bytes = n * (w / 8) := by
  subst hn; exact (bytes_eq hw r).symm

theorem bs_g (hw : IsW w) (hn : n = r.lanes w) (hx : BS A r.bytes x f) (hy : BS A r.bytes y g) (idx : Nat → Nat) :
    BS A r.bytes (gather (128 / w) idx x y) (gsel 16 S (ex (w / 8) idx) f g) := by
  have hL : 0 < 128 / w ∧ 128 / w ∣ n ∧ 0 < w / 8 ∧ w = w / 8 * 8 ∧ 128 / w * (w / 8) = 16 := by
    subst hn; rcases hw with e | e | e | e <;> subst e <;> cases r <;> decide
  have e := BS.gather hx hy hL.1 hL.2.2.1 hL.2.2.2.1 (lanes_bytes hw hn) hL.2.1 idx
  rw [hL.2.2.2.2] at e
  exact e

theorem bs_zero (A : Vec 8 S) (m : Nat) : BS A m (Vec.splat 0 : Vec w n) (fun _ => S) := by
  intro t ht
  rw [Vec.at_ge A (Nat.le_refl _)]
  refine BitVec.eq_of_getLsbD_eq fun i hi => ?_
  rw [Vec.at_lt _ ht, Vec.recast_getLsbD]
  simp [Vec.bit, Vec.at_, Vec.splat]

theorem bs_as1 {u l : Nat} (hu : IsW u) (hl : l = r.lanes u) (hw : IsW w) (hn : n = r.lanes w) {op : Vec u l → Option (Vec u l)} {F : Nat → Nat}
    (hx : BS A r.bytes x f) (H : ∀ x', BS A r.bytes x' f → ∃ z, op x' = some z ∧ BS A r.bytes z F) :
    ∃ z, as1 u l op x = some z ∧ BS A r.bytes z F := by
  have e1 : 8 * r.bytes = u * l := by
    subst hl; rcases hu with e | e | e | e <;> subst e <;> cases r <;> decide
  have e2 : 8 * r.bytes = w * n := by
    subst hn; rcases hw with e | e | e | e <;> subst e <;> cases r <;> decide
  obtain ⟨z, ez, hz⟩ := H _ (hx.recast u l (isW_pos hu) (by omega))
  refine ⟨z.recast w n, ?_, hz.recast w n (isW_pos hw) (by omega)⟩
  unfold as1; rw [ez]; rfl

theorem bs_as2 {u l : Nat} (hu : IsW u) (hl : l = r.lanes u) (hw : IsW w) (hn : n = r.lanes w) {op : Vec u l → Vec u l → Option (Vec u l)} {F : Nat → Nat}
    (hx : BS A r.bytes x f) (hy : BS A r.bytes y g)
    (H : ∀ x' y', BS A r.bytes x' f → BS A r.bytes y' g → ∃ z, op x' y' = some z ∧ BS A r.bytes z F) :
    ∃ z, as2 u l op x y = some z ∧ BS A r.bytes z F := by
  have e1 : 8 * r.bytes = u * l := by
    subst hl; rcases hu with e | e | e | e <;> subst e <;> cases r <;> decide
  have e2 : 8 * r.bytes = w * n := by
    subst hn; rcases hw with e | e | e | e <;> subst e <;> cases r <;> decide
  obtain ⟨z, ez, hz⟩ := H _ _ (hx.recast u l (isW_pos hu) (by omega)) (hy.recast u l (isW_pos hu) (by omega))
  refine ⟨z.recast w n, ?_, hz.recast w n (isW_pos hw) (by omega)⟩
  unfold as2; rw [ez]; rfl

variable {c : Cfg} (h : c.Ok) {k : Kind} (hw : k.okW w) (hr : c.hasVec k w r = true) (hn : n = r.lanes w)
  (hx : BS A r.bytes x f) (hy : BS A r.bytes y g)
include h hw hr hn hx

theorem zl_bs (hy : BS A r.bytes y g) : ∃ z, i_zip_lo c k r x y = some z ∧ BS A r.bytes z (gsel 16 S (ex (w / 8) (zipI w)) f g) :=
  ⟨_, i_zip_lo_eq h hw hr hn x y, bs_g hw.isW hn hx hy _⟩
theorem zh_bs (hy : BS A r.bytes y g) : ∃ z, i_zip_hi c k r x y = some z ∧ BS A r.bytes z (gsel 16 S (ex (w / 8) (zipH w)) f g) :=
  ⟨_, i_zip_hi_eq h hw hr hn x y, bs_g hw.isW hn hx hy _⟩
theorem ul_bs (hy : BS A r.bytes y g) : ∃ z, i_unzip_lo c k r x y = some z ∧ BS A r.bytes z (gsel 16 S (ex (w / 8) fun j => 2 * j) f g) :=
  ⟨_, i_unzip_lo_eq h hw hr hn x y, bs_g hw.isW hn hx hy _⟩
theorem uh_bs (hy : BS A r.bytes y g) : ∃ z, i_unzip_hi c k r x y = some z ∧ BS A r.bytes z (gsel 16 S (ex (w / 8) fun j => 2 * j + 1) f g) :=
  ⟨_, i_unzip_hi_eq h hw hr hn x y, bs_g hw.isW hn hx hy _⟩
theorem align_bs (hy : BS A r.bytes y g) (s : Nat) (h0 : 0 < s) (hs : s < 128 / w) :
    ∃ z, i_align c k r s x y = some z ∧ BS A r.bytes z (gsel 16 S (ex (w / 8) fun j => j + s) f g) :=
  ⟨_, i_align_eq h hw h0 hs hr hn x y, bs_g hw.isW hn hx hy _⟩
theorem ml_bs (s : Nat) (h0 : 0 < s) (hs : s < 128 / w) :
    ∃ z, i_move_l c k r s x = some z ∧ BS A r.bytes z (gsel 16 S (ex (w / 8) fun j => j + s) f fun _ => S) :=
  ⟨_, i_move_l_eq h hw h0 hs hr hn x, bs_g hw.isW hn hx (bs_zero A _) _⟩
theorem mr_bs (s : Nat) (h0 : 0 < s) (hs : s < 128 / w) :
    ∃ z, i_move_r c k r s x = some z ∧ BS A r.bytes z (gsel 16 S (ex (w / 8) fun j => j + (128 / w - s)) (fun _ => S) f) :=
  ⟨_, i_move_r_eq h hw h0 hs hr hn x, bs_g hw.isW hn (bs_zero A _) hx _⟩
theorem blend_bs (hy : BS A r.bytes y g) {mask : Vec w n} (F : Nat → Bool)
    (hm : mask = maskVec w fun i : Fin n => F (i.val % (128 / w))) :
    ∃ z, i_blend c k r x y mask = some z ∧
      BS A r.bytes z (gsel 16 S (ex (w / 8) fun j => if F j then j else 128 / w + j) f g) := by
  refine ⟨_, ?_, bs_g hw.isW hn hx hy _⟩
  rw [hm, i_blend_eq h hw hr x y]
  refine congrArg some ?_
  have hL : 0 < 128 / w := by rcases hw.isW with e | e | e | e <;> subst e <;> decide
  funext i
  unfold gather
  have h1 := Nat.mod_lt i.val hL
  have h2 : i.val / (128 / w) * (128 / w) + i.val % (128 / w) = i.val := Nat.div_add_mod' _ _
  dsimp only
  cases F (i.val % (128 / w))
  · simp only [Bool.false_eq_true, if_false]
    rw [if_neg (by omega), if_pos (by omega), Nat.add_sub_cancel_left, h2, Vec.at_fin]
  · simp only [if_true]
    rw [if_pos h1, h2, Vec.at_fin]

end

section
variable {A : Vec 8 S} {r : Reg} {f g : Nat → Nat} {c : Cfg}

theorem lanes_dvd4 (r : Reg) : r.bytes = r.lanes 32 * 4 := by cases r <;> rfl

theorem perm4_bs (h : c.Ok) (gnuc : Bool) {k : Kind} (hr : c.hasVec k 32 r = true) (hn : n = r.lanes 32) {x : Vec 32 n} (hx : BS A r.bytes x f)
    (s0 s1 s2 s3 : Nat) (h0 : s0 < 4) (h1 : s1 < 4) (h2 : s2 < 4) (h3 : s3 < 4) :
    ∃ z, i_permute4_32 c gnuc k r s0 s1 s2 s3 x = some z ∧ BS A r.bytes z (gsel 16 S (ex 4 (sel4 s0 s1 s2 s3)) f f) :=
  ⟨_, i_permute4_32_eq h gnuc hr hn h0 h1 h2 h3 x, bs_g iw32 hn hx hx _⟩

theorem sh2_bs (h : c.Ok) {k : Kind} (hr : c.hasVec k 32 r = true) (hn : n = r.lanes 32) {x y : Vec 32 n} (hx : BS A r.bytes x f)
    (hy : BS A r.bytes y g) (s0 s1 s2 s3 : Nat) (h0 : s0 < 4) (h1 : s1 < 4) (h2 : s2 < 4) (h3 : s3 < 4) :
    ∃ z, shuffle2 c k r s0 s1 s2 s3 x y = some z ∧ BS A r.bytes z (gsel 16 S (ex 4 (sel4 s0 s1 (s2 + 4) (s3 + 4))) f g) := by
  refine ⟨_, ?_, bs_g iw32 hn hx hy _⟩
  unfold shuffle2
  rw [if_neg (not_not.2 ⟨h0, h1, h2, h3⟩)]
  exact i_shuffle4x2_32_eq h hr hn (by omega) (by omega) (by omega) (by omega) x y

theorem sh1_bs (h : c.Ok) {k : Kind} (hr : c.hasVec k 64 r = true) (hn : n = r.lanes 64) {x y : Vec 64 n} (hx : BS A r.bytes x f)
    (hy : BS A r.bytes y g) (s0 s1 : Nat) (h0 : s0 < 2) (h1 : s1 < 2) :
    ∃ z, shuffle1_64 c k r s0 s1 x y = some z ∧ BS A r.bytes z (gsel 16 S (ex 8 (sel2 s0 (s1 + 2))) f g) :=
  ⟨_, shuffle1_64_eq h hr hn h0 h1 x y, bs_g iw64 hn hx hy _⟩

theorem splat2_bs (h : c.Ok) {k : Kind} (hr : c.hasVec k 64 r = true) (hn : n = r.lanes 64) {x : Vec 64 n} (hx : BS A r.bytes x f)
    (s : Nat) (hs : s < 2) :
    ∃ z, i_splat2 c k r s x = some z ∧ BS A r.bytes z (gsel 16 S (ex 8 fun _ => s) f f) := by
  refine ⟨_, i_splat2_eq h hr hn hs x, ?_⟩
  rw [← gather_bc (L := 2) (by decide) hs (f := fun _ => s) (fun _ _ => rfl) x x]
  exact bs_g iw64 hn hx hx _

theorem msh_bs (h : c.Ok) (hx' : c.sse2 = true → (c.ssse3 = true ∨ c.xop = true)) {q u : Nat} (hw : IsW w) (hq : w = q * 8) {s : Nat → Nat}
    (hqu : (q, u) ∈ [(1,2),(1,4),(1,8),(1,16),(2,2),(2,4),(2,8),(4,2),(4,4),(8,2)])
    (hs : ∀ p, p < u → s p < u * 2) (hn : n = Reg.r128.lanes w) {x y : Vec w n} (hx : BS A 16 x f) (hy : BS A 16 y g) :
    ∃ z, maskShuffle c q u s x y = some z ∧ BS A 16 z (gsel 16 S (ex (w / 8) (maskIdx q u fun p => (s p : Int))) f g) :=
  ⟨_, maskShuffle_eq h hx' hw hq hqu hs hn x y, bs_g (r := .r128) hw hn hx hy _⟩

/-- The index of a byte shuffle: entries with the top bit set give zero. -/
def bIdx (l : List Nat) (j : Nat) : Nat := if l.getD j 0 < 16 then l.getD j 0 else 32

theorem pshufb_list {l : List Nat} (hl : ∀ j, j < 16 → l.getD j 0 < 16 ∨ (128 ≤ l.getD j 0 ∧ l.getD j 0 < 256)) (x : Vec 8 n) :
    Hw.pshufb x (maskVec16 n l) = gather 16 (bIdx l) x x := by
  funext i
  unfold Hw.pshufb gather maskVec16
  dsimp only
  rw [byte_bit7]
  have hj := hl _ (Nat.mod_lt i.val (by decide : 0 < 16))
  unfold bIdx
  rw [BitVec.toNat_ofNat]
  generalize l.getD (i.val % 16) 0 = v at hj ⊢
  rcases hj with hj | hj
  · rw [if_pos hj, if_pos hj, if_neg (by simp only [decide_eq_true_eq]; omega), Nat.mod_eq_of_lt (by omega : v < 2 ^ 8), Nat.mod_eq_of_lt hj]
  · have e1 : ¬ v < 16 := by omega
    have e2 : 128 ≤ v % 2 ^ 8 := by omega
    simp only [e1, e2, if_false, decide_true, if_true]
    rfl

theorem pbz_bs (h : c.Ok) (hs : c.ssse3 = true) (hr : c.hasInt 8 r = true) (hn : n = r.lanes 8) {x : Vec 8 n} (hx : BS A r.bytes x f) (l : List Nat)
    (hl : ∀ j, j < 16 → l.getD j 0 < 16 ∨ (128 ≤ l.getD j 0 ∧ l.getD j 0 < 256)) :
    ∃ z, i_permute_bytes16 c r x (maskVec16 n l) = some z ∧ BS A r.bytes z (gsel 16 S (bIdx l) f f) := by
  refine ⟨gather 16 (bIdx l) x x, ?_, ?_⟩
  · rw [← pshufb_list hl]
    unfold i_permute_bytes16
    cases r <;> dsimp only
    · rw [if_neg (by intro e; cfg_absurd h), if_pos hs]
    · rw [if_pos (show c.avx2 = true from hr)]
    · rw [if_pos (show c.avx512bw = true from hr)]
  · have e := bs_g isW8 hn hx hx (bIdx l)
    exact e.congr fun t ht => by
      have h1 : ∀ (g : Nat → Nat) , ex (8 / 8) g = g := fun g => by
        funext j; show g (j / 1) * 1 + j % 1 = g j
        rw [Nat.div_one, Nat.mul_one, Nat.mod_one, Nat.add_zero]
      rw [h1]

theorem pb_bs (h : c.Ok) (hs : c.sse2 = true → c.ssse3 = true) (hr : c.hasInt 8 r = true) (hn : n = r.lanes 8) {x : Vec 8 n}
    (hx : BS A r.bytes x f) (l : List Nat) (hl : ∀ j, j < 16 → l.getD j 0 < 16) :
    ∃ z, i_permute_bytes16 c r x (maskVec16 n l) = some z ∧ BS A r.bytes z (gsel 16 S (bIdx l) f f) := by
  have hm : ∀ i, (maskVec16 n l i).toNat = l.getD (i.val % 16) 0 := fun i => by
    have := hl _ (Nat.mod_lt i.val (by decide : 0 < 16))
    unfold maskVec16
    rw [BitVec.toNat_ofNat, Nat.mod_eq_of_lt (by omega)]
  refine ⟨gather 16 (bIdx l) x x, ?_, ?_⟩
  · rw [i_permute_bytes16_eq h hr hs hn x _ (fun i => by
      rw [hm]; exact hl _ (Nat.mod_lt i.val (by decide : 0 < 16)))]
    rw [← pshufb_list (fun j hj => .inl (hl j hj)), pshufb_eq _ _ fun i => by
      rw [hm]; have := hl _ (Nat.mod_lt i.val (by decide : 0 < 16)); omega]
  · have e := bs_g isW8 hn hx hx (bIdx l)
    exact e.congr fun t ht => by
      have h1 : ∀ (g : Nat → Nat) , ex (8 / 8) g = g := fun g => by
        funext j; show g (j / 1) * 1 + j % 1 = g j
        rw [Nat.div_one, Nat.mul_one, Nat.mod_one, Nat.add_zero]
      rw [h1]

/-- A register whose lanes are lanes of one of two registers. -/
theorem bs_lanes (hw : IsW w) (hn : n = r.lanes w) {x y z : Vec w n} (hx : BS A r.bytes x f) (hy : BS A r.bytes y g) (src : Nat → Bool) (idx : Nat → Nat)
    (hi : ∀ i, i < n → idx i < n) (hz : ∀ i, i < n → z.at_ i = if src i then x.at_ (idx i) else y.at_ (idx i)) :
    BS A r.bytes z (fun t => if src (t / (w / 8)) then f (idx (t / (w / 8)) * (w / 8) + t % (w / 8)) else g (idx (t / (w / 8)) * (w / 8) + t % (w / 8))) := by
  intro t ht
  have hb : 0 < w / 8 ∧ w = w / 8 * 8 := by rcases hw with e | e | e | e <;> subst e <;> decide
  have hm := lanes_bytes hw hn
  have h1 : t / (w / 8) < n := Nat.div_lt_of_lt_mul (by rw [Nat.mul_comm, ← hm]; exact ht)
  have h2 := hi _ h1
  have h3 : idx (t / (w / 8)) * (w / 8) + t % (w / 8) < r.bytes := by
    have : (idx (t / (w / 8)) + 1) * (w / 8) ≤ n * (w / 8) := Nat.mul_le_mul_right _ h2
    have := Nat.mod_lt t hb.1
    rw [Nat.add_mul, Nat.one_mul] at *
    omega
  have hs : ∀ v : Vec w n, (v.recast 8 r.bytes).at_ (idx (t / (w / 8)) * (w / 8) + t % (w / 8)) =
      (v.at_ (idx (t / (w / 8)))).extractLsb' (t % (w / 8) * 8) 8 := fun v => by
    rw [recast_at (by decide) hb.1 hb.2 hm, Nat.mul_comm (idx _), Nat.mul_add_div hb.1, Nat.mul_add_mod,
      Nat.div_eq_of_lt (Nat.mod_lt _ hb.1), Nat.mod_eq_of_lt (Nat.mod_lt _ hb.1), Nat.add_zero]
  rw [recast_at (by decide) hb.1 hb.2 hm, hz _ h1]
  dsimp only
  cases src (t / (w / 8))
  · simp only [Bool.false_eq_true, if_false]; rw [← hy _ h3, hs]
  · simp only [if_true]; rw [← hx _ h3, hs]

/-- The selection of `shuffle1_128`. -/
def s1_128 (s0 s1 : Nat) (f g : Nat → Nat) (t : Nat) : Nat :=
  if t / 16 = 0 then f (s0 * 16 + t % 16) else g (s1 * 16 + t % 16)

/-- The selection of `shuffle2_128`. -/
def s2_128 (s0 s1 s2 s3 : Nat) (f g : Nat → Nat) (t : Nat) : Nat :=
  if t / 16 < 2 then f (sel4 s0 s1 s2 s3 (t / 16) * 16 + t % 16) else g (sel4 s0 s1 s2 s3 (t / 16) * 16 + t % 16)

theorem div_lanes (hw : IsW w) (t : Nat) : t / (w / 8) / (128 / w) = t / 16 ∧ t / (w / 8) % (128 / w) * (w / 8) + t % (w / 8) = t % 16 := by
  rcases hw with e | e | e | e <;> subst e <;> dsimp only [Nat.reduceDiv] <;> constructor <;> omega

theorem sh128_bs {k : Kind} (hw : k.okW w) (hr : c.hasVec k w .r256 = true) (hn : n = Reg.r256.lanes w) {x y : Vec w n} (hx : BS A 32 x f)
    (hy : BS A 32 y g) (s0 s1 : Nat) (h0 : s0 < 2) (h1 : s1 < 2) :
    ∃ z, shuffle1_128 c k s0 s1 x y = some z ∧ BS A 32 z (s1_128 s0 s1 f g) := by
  refine ⟨_, if_pos hr, ?_⟩
  have hn2 : n = 2 * (128 / w) ∧ 0 < 128 / w := by
    subst hn; rcases hw.isW with e | e | e | e <;> subst e <;> decide
  refine (bs_lanes (r := .r256) hw.isW hn hx hy (fun i => i / (128 / w) = 0)
    (fun i => (if i / (128 / w) = 0 then s0 else s1) * (128 / w) + i % (128 / w)) ?_ ?_).congr ?_
  · intro i hi
    have := Nat.mod_lt i hn2.2
    have e : (if i / (128 / w) = 0 then s0 else s1) ≤ 1 := by split_ifs <;> omega
    have := Nat.mul_le_mul_right (128 / w) e
    omega
  · intro i hi
    rw [Vec.at_lt _ hi]
    unfold Hw.permute2x128
    dsimp only
    have hq : i / (128 / w) < 2 := Nat.div_lt_of_lt_mul (by rw [Nat.mul_comm]; omega)
    have h0' : s0 = 0 ∨ s0 = 1 := by omega
    have h1' : s1 = 0 ∨ s1 = 1 := by omega
    generalize i / (128 / w) = q at hq
    have hq' : q = 0 ∨ q = 1 := by omega
    rcases hq' with rfl | rfl <;> rcases h0' with rfl | rfl <;> rcases h1' with rfl | rfl <;> rfl
  · intro t ht
    obtain ⟨e1, e2⟩ := div_lanes hw.isW t
    have e3 : 128 / w * (w / 8) = 16 := by rcases hw.isW with e | e | e | e <;> subst e <;> rfl
    rw [e1]
    unfold s1_128
    by_cases ht0 : t / 16 = 0
    · simp only [ht0, if_true, decide_true]
      rw [Nat.add_mul, Nat.mul_assoc, e3, Nat.add_assoc, e2]
    · simp only [ht0, if_false, decide_false, Bool.false_eq_true]
      rw [Nat.add_mul, Nat.mul_assoc, e3, Nat.add_assoc, e2]

theorem imm2_4 {s0 s1 s2 s3 : Nat} (h0 : s0 < 4) (h1 : s1 < 4) (h2 : s2 < 4) (h3 : s3 < 4) {q : Nat} (hq : q < 4) :
    Hw.imm2 ((s3 <<< 6) + (s2 <<< 4) + (s1 <<< 2) + s0) q = sel4 s0 s1 s2 s3 q := by
  have : ∀ s0, s0 < 4 → ∀ s1, s1 < 4 → ∀ s2, s2 < 4 → ∀ s3, s3 < 4 → ∀ q, q < 4 →
    Hw.imm2 ((s3 <<< 6) + (s2 <<< 4) + (s1 <<< 2) + s0) q = sel4 s0 s1 s2 s3 q := by decide +kernel
  exact this _ h0 _ h1 _ h2 _ h3 _ hq

theorem sh2_128_bs {k : Kind} (hw : k.okW w) (hr : c.hasVec k w .r512 = true) (hn : n = Reg.r512.lanes w) {x y : Vec w n} (hx : BS A 64 x f)
    (hy : BS A 64 y g) (s0 s1 s2 s3 : Nat) (h0 : s0 < 4) (h1 : s1 < 4) (h2 : s2 < 4) (h3 : s3 < 4) :
    ∃ z, shuffle2_128 c k s0 s1 s2 s3 x y = some z ∧ BS A 64 z (s2_128 s0 s1 s2 s3 f g) := by
  refine ⟨_, if_pos hr, ?_⟩
  have hn2 : n = 4 * (128 / w) ∧ 0 < 128 / w := by
    subst hn; rcases hw.isW with e | e | e | e <;> subst e <;> decide
  refine (bs_lanes (r := .r512) hw.isW hn hx hy (fun i => i / (128 / w) < 2)
    (fun i => sel4 s0 s1 s2 s3 (i / (128 / w)) * (128 / w) + i % (128 / w)) ?_ ?_).congr ?_
  · intro i hi
    have := Nat.mod_lt i hn2.2
    have e : sel4 s0 s1 s2 s3 (i / (128 / w)) ≤ 3 := by unfold sel4; split_ifs <;> omega
    have := Nat.mul_le_mul_right (128 / w) e
    omega
  · intro i hi
    rw [Vec.at_lt _ hi]
    unfold Hw.shuffle_x128
    dsimp only
    have hq : i / (128 / w) < 4 := Nat.div_lt_of_lt_mul (by rw [Nat.mul_comm]; omega)
    rw [imm2_4 h0 h1 h2 h3 hq]
    simp only [decide_eq_true_eq]
  · intro t ht
    obtain ⟨e1, e2⟩ := div_lanes hw.isW t
    have e3 : 128 / w * (w / 8) = 16 := by rcases hw.isW with e | e | e | e <;> subst e <;> rfl
    rw [e1, Nat.add_mul, Nat.mul_assoc, e3, Nat.add_assoc, e2]
    unfold s2_128
    simp only [decide_eq_true_eq]

theorem or_bs (h : c.Ok) {k : Kind} (hw : k.okW w) (hr : c.hasVec k w r = true) (hn : n = r.lanes w) {x y : Vec w n} (hx : BS A r.bytes x f)
    (hy : BS A r.bytes y g) (hd : ∀ t, t < r.bytes → S ≤ f t ∨ S ≤ g t) :
    ∃ z, i_bit_or c k r x y = some z ∧ BS A r.bytes z (fun t => if f t < S then f t else g t) := by
  refine ⟨_, i_bit_or_eq h hw hr x y, fun t ht => ?_⟩
  have hb : 0 < w / 8 ∧ w = w / 8 * 8 := by rcases hw.isW with e | e | e | e <;> subst e <;> decide
  have hm := lanes_bytes hw.isW hn
  have h1 : t / (w / 8) < n := Nat.div_lt_of_lt_mul (by rw [Nat.mul_comm, ← hm]; exact ht)
  have e : (Vec.recast 8 r.bytes (fun i => x i ||| y i : Vec w n)).at_ t = (x.recast 8 r.bytes).at_ t ||| (y.recast 8 r.bytes).at_ t := by
    rw [recast_at (by decide) hb.1 hb.2 hm, recast_at (by decide) hb.1 hb.2 hm, recast_at (by decide) hb.1 hb.2 hm, Vec.at_lt _ h1,
      Vec.at_lt x h1, Vec.at_lt y h1, BitVec.extractLsb'_or]
  rw [e, hx t ht, hy t ht]
  dsimp only
  rcases hd t ht with d | d
  · rw [if_neg (by omega), Vec.at_ge A d]; simp
  · rw [Vec.at_ge A d]
    by_cases hf : f t < S
    · rw [if_pos hf]; simp
    · rw [if_neg hf, Vec.at_ge A d, Vec.at_ge A (by omega)]; simp

theorem shr8_bs (h : c.Ok) (hr : c.hasInt 64 r = true) (hn : n = r.lanes 64) {x : Vec 64 n} (hx : BS A r.bytes x f) :
    ∃ z, i_shift_r c false r x 8 = some z ∧ BS A r.bytes z (fun t => if t % 8 = 7 then S else f (t + 1)) := by
  have hn2 : n % 2 = 0 := by subst hn; cases r <;> rfl
  refine ⟨_, i_shift_r_eq h false iw64 hr hn2 x (by decide), fun t ht => ?_⟩
  have hm : r.bytes = n * 8 := lanes_bytes iw64 hn
  have h1 : t / 8 < n := by omega
  rw [recast_at (q := 8) (by decide) (by decide) rfl hm, Vec.at_lt _ h1]
  have hd : bshr false (x ⟨t / 8, h1⟩) 8 = x ⟨t / 8, h1⟩ >>> 8 := rfl
  dsimp only
  rw [hd]
  split_ifs with h7
  · rw [Vec.at_ge A (Nat.le_refl _), h7]
    refine BitVec.eq_of_getLsbD_eq fun i hi => ?_
    simp only [BitVec.getLsbD_extractLsb', BitVec.getLsbD_ushiftRight]
    rw [BitVec.getLsbD_of_ge _ _ (by omega)]; simp
  · rw [← hx (t + 1) (by omega), recast_at (q := 8) (by decide) (by decide) rfl hm, show (t + 1) / 8 = t / 8 by omega,
      show (t + 1) % 8 = t % 8 + 1 by omega, Vec.at_lt _ h1]
    refine BitVec.eq_of_getLsbD_eq fun i hi => ?_
    simp only [BitVec.getLsbD_extractLsb', BitVec.getLsbD_ushiftRight]
    congr 2
    omega

theorem mask16_list {F : Nat → Bool} {l : List Nat} (hl : ∀ j, j < 16 → BitVec.ofNat 8 (l.getD j 0) = maskLane 8 (F j)) :
    maskVec16 n l = maskVec 8 fun i : Fin n => F (i.val % (128 / 8)) :=
  funext fun i => hl _ (Nat.mod_lt i.val (by decide : 0 < 16))

theorem move_mask (h : c.Ok) (hw : IsW w) (hr : c.hasInt w r = true) (hn : n = r.lanes w) (s : Nat) (h0 : 0 < s) (hs : s < 128 / w) :
    i_move_l c .int r s (Vec.splat (BitVec.allOnes w) : Vec w n) =
      some (maskVec w fun i : Fin n => decide (i.val % (128 / w) + s < 128 / w)) := by
  rw [i_move_l_eq h (k := .int) hw h0 hs hr hn]
  refine congrArg some (funext fun i => ?_)
  have hL : 0 < 128 / w ∧ 128 / w ∣ n := by
    subst hn; rcases hw with e | e | e | e <;> subst e <;> cases r <;> decide
  have hlt := Nat.mod_lt i.val hL.1
  unfold gather maskVec maskLane
  dsimp only
  by_cases g : i.val % (128 / w) + s < 128 / w
  · have := block_lt hL.2 i.isLt g
    rw [if_pos g, if_pos (decide_eq_true g), Vec.at_lt _ this]; rfl
  · rw [if_neg g, if_pos (by omega), if_neg (by simpa using g)]
    have := block_lt hL.2 i.isLt (by omega : i.val % (128 / w) + s - 128 / w < 128 / w)
    rw [Vec.at_lt _ this]; rfl

end

end Simdpp
