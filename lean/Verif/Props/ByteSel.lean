import Verif.Props.ConvArr
import Verif.Props.Move
import Verif.Props.Splat
import Verif.Props.Transpose

/-!
# Byte selections

`BS A m x f`: byte `t` of the register `x` (of `m` bytes) is byte `f t` of the source bytes `A`. Each shuffle used by the
conversions transforms the selection; a sequence of shuffles on registers of known size is then checked by evaluating
the composed selection on every byte.
-/

namespace Simdpp
open Sh Spec

variable {w v n N S : Nat}

/-- Byte `t` of `x` is byte `f t` of `A` (zero past the end of `A`). -/
def BS (A : Vec 8 S) (m : Nat) (x : Vec w n) (f : Nat → Nat) : Prop :=
  ∀ t, t < m → (x.recast 8 m).at_ t = A.at_ (f t)

/-- Selection after a shuffle of blocks of `B` bytes. -/
def gsel (B S : Nat) (h f g : Nat → Nat) (t : Nat) : Nat :=
  if h (t % B) < B then f (t / B * B + h (t % B))
  else if h (t % B) < 2 * B then g (t / B * B + (h (t % B) - B)) else S

variable {A : Vec 8 S}

theorem BS.self (a : Vec w n) (S : Nat) : BS (a.recast 8 S) S a (fun t => t) := fun _ _ => rfl

theorem BS.recast {m : Nat} {x : Vec w n} {f : Nat → Nat} (hx : BS A m x f) (v l : Nat) (hv : 0 < v) (h : 8 * m ≤ v * l) :
    BS A m (x.recast v l) f := fun t ht => by rw [Vec.recast_trans _ hv h]; exact hx t ht

theorem BS.part {m m' q : Nat} {x : Vec w n} {f : Nat → Nat} (hx : BS A m x f) (L p : Nat) (hq : 0 < q) (hw : w = q * 8)
    (hm : m = n * q) (hm' : m' = L * q) (hp : (p + 1) * L ≤ n) : BS A m' (Hw.part L p x) (fun t => f (p * m' + t)) := by
  intro t ht
  subst hm'
  have h1 : p * (L * q) + t < m := by
    have e1 : (p + 1) * L * q ≤ n * q := Nat.mul_le_mul_right _ hp
    rw [Nat.add_mul, Nat.add_mul, Nat.one_mul] at e1
    rw [← Nat.mul_assoc]; omega
  have h2 : t / q < L := Nat.div_lt_of_lt_mul (by rw [Nat.mul_comm]; exact ht)
  rw [← hx _ h1, recast_at (by decide) hq hw rfl, recast_at (by decide) hq hw hm, Hw.part_at _ h2, ← Nat.mul_assoc,
    Nat.mul_comm (p * L) q, Nat.mul_add_div hq, Nat.mul_add_mod]

theorem BS.gather {m q L : Nat} {x y : Vec w n} {f g : Nat → Nat} (hx : BS A m x f) (hy : BS A m y g)
    (hL : 0 < L) (hq : 0 < q) (hw : w = q * 8) (hm : m = n * q) (hn : L ∣ n) (idx : Nat → Nat) :
    BS A m (gather L idx x y) (gsel (L * q) S (ex q idx) f g) := by
  intro t ht
  have hd : L * q ∣ m := by subst hm; exact Nat.mul_dvd_mul_right hn q
  rw [recast_gather (by decide) hq hL hw hm hn, gather_at _ _ ht]
  unfold gsel
  split_ifs with h1 h2
  · exact hx _ (block_lt hd ht h1)
  · exact hy _ (block_lt hd ht (by omega))
  · rw [Vec.at_ge _ (Nat.le_refl _)]

theorem BS.congr {m : Nat} {x : Vec w n} {f g : Nat → Nat} (hx : BS A m x f) (h : ∀ t, t < m → f t = g t) : BS A m x g :=
  fun t ht => by rw [hx t ht, h t ht]

/-- Registers laid one after another. -/
theorem BS.cat {m q B K : Nat} {F : Nat → Option (Vec w m)} {f : Nat → Nat → Nat} (hm : 0 < m) (hq : 0 < q) (hw : w = q * 8)
    (hB : B = m * q) (hN : N = K * m) (h : ∀ p, p < K → ∃ x, F p = some x ∧ BS A B x (f p)) :
    ∃ y : Vec w N, catM m F = some y ∧ BS A (N * q) y (fun t => f (t / B) (t % B)) := by
  have hB0 : 0 < B := by subst hB; exact Nat.mul_pos hm hq
  have h' : ∀ p, ∃ x : Vec w m, p < K → F p = some x ∧ BS A B x (f p) := fun p => by
    by_cases g : p < K
    · obtain ⟨x, e⟩ := h p g; exact ⟨x, fun _ => e⟩
    · exact ⟨fun _ => 0, fun e => absurd e g⟩
  choose X hX using h'
  have hlt : ∀ {p}, p * m < N → p < K := fun {p} hp => by subst hN; exact Nat.lt_of_mul_lt_mul_right hp
  refine ⟨fun i => (X (i.val / m)).at_ (i.val % m), catM_of hm fun p hp => ⟨X p, (hX p (hlt hp)).1, fun j hj hl => ?_⟩, ?_⟩
  · rw [Vec.at_lt _ hl]
    dsimp only
    rw [Nat.mul_comm, Nat.mul_add_div hm, Nat.div_eq_of_lt hj, Nat.add_zero, Nat.mul_add_mod, Nat.mod_eq_of_lt hj]
  · intro t ht
    have h1 : t / q < N := Nat.div_lt_of_lt_mul (by rw [Nat.mul_comm]; exact ht)
    have h2 : t / q / m = t / B := by rw [Nat.div_div_eq_div_mul, hB, Nat.mul_comm]
    have h3 : t / B < K := by
      rw [← h2]
      exact Nat.div_lt_of_lt_mul (by rw [Nat.mul_comm, ← hN]; exact h1)
    have h4 : t % B / q = t / q % m := by
      rw [hB, Nat.mul_comm m q, Nat.mod_mul_right_div_self]
    have h5 : t % B % q = t % q := by rw [hB, Nat.mod_mul_left_mod]
    rw [recast_at (by decide) hq hw rfl, Vec.at_lt _ h1]
    dsimp only
    rw [← (hX _ h3).2 _ (Nat.mod_lt _ hB0), recast_at (by decide) hq hw hB, h2, h4, h5]

/-- The selection of the low bytes of the lanes `g i`. -/
theorem BS.truncBy {qw qv m : Nat} {a : Vec w N} {y : Vec v N} {f g : Nat → Nat} (hqv : 0 < qv) (hqw : 0 < qw)
    (hw : w = qw * 8) (hv : v = qv * 8) (hvw : qv ≤ qw) (hS : S = N * qw) (hm : m = N * qv) (hy : BS (a.recast 8 S) m y f)
    (hf : ∀ t, t < m → f t = g (t / qv) * qw + t % qv) : y = fun i => (a.at_ (g i.val)).setWidth v := by
  refine ext_at fun i hi => BitVec.eq_of_getLsbD_eq fun k hk => ?_
  have hk8 : k / 8 < qv := Nat.div_lt_of_lt_mul (by omega)
  have ht : i * qv + k / 8 < m := by
    subst hm
    have : (i + 1) * qv ≤ N * qv := Nat.mul_le_mul_right _ hi
    rw [Nat.add_mul, Nat.one_mul] at this; omega
  have e := hy _ ht
  rw [hf _ ht, recast_at (by decide) hqv hv hm, recast_at (by decide) hqw hw hS] at e
  have d1 : (i * qv + k / 8) / qv = i := by
    rw [Nat.mul_comm, Nat.mul_add_div hqv, Nat.div_eq_of_lt hk8, Nat.add_zero]
  have d2 : (i * qv + k / 8) % qv = k / 8 := by
    rw [Nat.mul_comm, Nat.mul_add_mod, Nat.mod_eq_of_lt hk8]
  rw [d1, d2] at e
  have d3 : (g i * qw + k / 8) / qw = g i := by
    rw [Nat.mul_comm, Nat.mul_add_div hqw, Nat.div_eq_of_lt (by omega), Nat.add_zero]
  have d4 : (g i * qw + k / 8) % qw = k / 8 := by
    rw [Nat.mul_comm, Nat.mul_add_mod, Nat.mod_eq_of_lt (by omega)]
  rw [d3, d4] at e
  have e2 := congrArg (fun z => z.getLsbD (k % 8)) e
  simp only [BitVec.getLsbD_extractLsb', Nat.mod_lt k (by decide : 0 < 8), decide_true, Bool.true_and] at e2
  have d5 : k / 8 * 8 + k % 8 = k := Nat.div_add_mod' k 8
  rw [d5] at e2
  rw [e2, Vec.at_lt (fun i : Fin N => _) hi, BitVec.getLsbD_setWidth]
  simp [hk]

/-- The selection of the low bytes of every lane: truncation. -/
theorem BS.trunc {qw qv m : Nat} {a : Vec w N} {y : Vec v N} {f : Nat → Nat} (hqv : 0 < qv) (hqw : 0 < qw)
    (hw : w = qw * 8) (hv : v = qv * 8) (hvw : qv ≤ qw) (hS : S = N * qw) (hm : m = N * qv) (hy : BS (a.recast 8 S) m y f)
    (hf : ∀ t, t < m → f t = t / qv * qw + t % qv) : y = fun i => (a i).setWidth v := by
  rw [BS.truncBy (g := fun i => i) hqv hqw hw hv hvw hS hm hy hf]
  funext i
  rw [Vec.at_fin]

/-! ## The shuffles -/

section
variable {c : Cfg} (h : c.Ok)
include h

theorem maskPermuteR_bs {r : Reg} {q u m : Nat} {s : List Nat} (hs : c.sse2 = true → c.ssse3 = true) (hr : c.hasInt 8 r = true)
    (hqu : (q, u) ∈ [(1,2),(1,4),(1,8),(1,16),(2,2),(2,4),(2,8),(4,2),(4,4),(8,2)])
    (hsu : ∀ p, p < u → s.getD p 0 < u) (hm : m = r.lanes 8) {x : Vec w n} {f : Nat → Nat} (hw : 0 < w) (hn : 8 * m = w * n)
    (hx : BS A m x f) :
    ∃ y, maskPermuteR c r q u s x = some y ∧
      BS A m y (gsel 16 S (ex q (maskIdx q u fun p => ((s.getD p 0 : Nat) : Int))) f f) := by
  subst hm
  obtain ⟨M, hM⟩ := C21_accepts hqu (s := fun p => ((s.getD p 0 : Nat) : Int)) (fun p hp => ⟨by omega, by
    have := hsu p hp; omega⟩)
  unfold maskPermuteR
  rw [hM]
  have e := i_permute_bytes16_eq h (r := r) hr hs (n := r.lanes 8) rfl (x.recast 8 (r.lanes 8))
    (maskVec16 (r.lanes 8) M) (fun i => (byte_of (r := r) hM (r.lanes 8) rfl i fun p _ => by omega).2 fun p hp => by
      have := hsu p hp; omega)
  simp only [Option.bind_eq_bind, Option.bind_some, e]
  refine ⟨_, rfl, ?_⟩
  rw [selB_mask hM]
  have hb := hx.recast 8 (r.lanes 8) (by decide) (Nat.le_refl _)
  have hg := BS.gather (L := 16) (q := 1) hb hb (by decide) (by decide) rfl (Nat.mul_one _).symm (by cases r <;> decide)
    (ex q (maskIdx q u fun p => ((s.getD p 0 : Nat) : Int)))
  refine (hg.recast w n hw (by omega)).congr fun t ht => ?_
  have h1 : ∀ (g : Nat → Nat) , ex 1 g = g := fun g => by
    funext j; unfold ex; rw [Nat.div_one, Nat.mul_one, Nat.mod_one, Nat.add_zero]
  rw [h1, Nat.mul_one]

theorem zipAs_bs {r : Reg} {u l q m : Nat} (hu : IsW u) (hr : c.hasInt u r = true) (hl : l = r.lanes u) (hq : u = q * 8)
    (hm : m = l * q) {x y : Vec w n} {f g : Nat → Nat} (hw : 0 < w) (hn : 8 * m = w * n) (hx : BS A m x f) (hy : BS A m y g) :
    ∃ z, zipAs c r u l x y = some z ∧ BS A m z (gsel (128 / u * q) S (ex q (zipI u)) f g) := by
  unfold zipAs
  have hu0 := isW_pos hu
  have hq0 : 0 < q := by omega
  have hul : 8 * m = u * l := by
    subst hm hq; rw [Nat.mul_comm l q, ← Nat.mul_assoc, Nat.mul_comm 8 q]
  have hL : 0 < 128 / u ∧ 128 / u ∣ l := by
    subst hl; rcases hu with e | e | e | e <;> subst e <;> cases r <;> decide
  rw [i_zip_lo_eq h (k := .int) (w := u) (n := l) (r := r) hu hr hl]
  refine ⟨_, rfl, ?_⟩
  exact (BS.gather (hx.recast u l hu0 (by omega)) (hy.recast u l hu0 (by omega)) hL.1 hq0 hq hm hL.2 _).recast w n hw (by omega)

theorem perm64_bs {s0 s1 s2 s3 : Nat} (h0 : s0 < 4) (h1 : s1 < 4) (h2 : s2 < 4) (h3 : s3 < 4) (hr : c.avx2 = true)
    {x : Vec w n} {f : Nat → Nat} (hw : 0 < w) (hn : 256 = w * n) (hx : BS A 32 x f) :
    ∃ z, perm64 c s0 s1 s2 s3 x = some z ∧ BS A 32 z (gsel 32 S (ex 8 (sel4 s0 s1 s2 s3)) f f) := by
  unfold perm64
  rw [show i_permute4_64 c .int .r256 s0 s1 s2 s3 (x.recast 64 4) = _ from
    i_permute4_64_eq h (r := .r256) (k := .int) hr (by decide) h0 h1 h2 h3 _]
  refine ⟨_, rfl, ?_⟩
  have hb := hx.recast 64 4 (by decide) (by decide)
  exact (BS.gather (L := 4) (q := 8) hb hb (by decide) (by decide) rfl rfl (by decide) _).recast w n hw (by omega)

theorem permute4_bs {r : Reg} {s0 s1 s2 s3 m : Nat} (h0 : s0 < 4) (h1 : s1 < 4) (h2 : s2 < 4) (h3 : s3 < 4)
    (hr : c.hasInt 32 r = true) (hn : n = r.lanes 32) (hm : m = n * 4) {x : Vec 32 n} {f : Nat → Nat} (hx : BS A m x f) :
    ∃ z, i_permute4_32 c true .int r s0 s1 s2 s3 x = some z ∧ BS A m z (gsel 16 S (ex 4 (sel4 s0 s1 s2 s3)) f f) := by
  rw [i_permute4_32_eq h true (k := .int) hr hn h0 h1 h2 h3]
  exact ⟨_, rfl, BS.gather (L := 4) (q := 4) hx hx (by decide) (by decide) rfl hm (by subst hn; cases r <;> decide) _⟩

theorem zip_bs {r : Reg} {q m : Nat} (hw : IsW w) (hr : c.hasInt w r = true) (hn : n = r.lanes w) (hq : w = q * 8) (hm : m = n * q)
    {x y : Vec w n} {f g : Nat → Nat} (hx : BS A m x f) (hy : BS A m y g) :
    ∃ z, i_zip_lo c .int r x y = some z ∧ BS A m z (gsel (128 / w * q) S (ex q (zipI w)) f g) := by
  have hw0 := isW_pos hw
  have hL : 0 < 128 / w ∧ 128 / w ∣ n := by
    subst hn; rcases hw with e | e | e | e <;> subst e <;> cases r <;> decide
  rw [i_zip_lo_eq h (k := .int) (w := w) (n := n) (r := r) hw hr hn]
  exact ⟨_, rfl, BS.gather hx hy hL.1 (by omega) hq hm hL.2 _⟩

theorem unzip_bs {q m : Nat} (hw : IsW w) (hn : n = Reg.r128.lanes w) (hq : w = q * 8) (hm : m = n * q)
    {x y : Vec w n} {f g : Nat → Nat} (hx : BS A m x f) (hy : BS A m y g) :
    ∃ z, i_unzip_lo c .int .r128 x y = some z ∧ BS A m z (gsel (128 / w * q) S (ex q fun j => 2 * j) f g) := by
  have hw0 := isW_pos hw
  have hL : 0 < 128 / w ∧ 128 / w ∣ n := by
    subst hn; rcases hw with e | e | e | e <;> subst e <;> decide
  rw [i_unzip_lo_eq h (k := .int) (w := w) (n := n) (r := .r128) hw rfl hn]
  exact ⟨_, rfl, BS.gather hx hy hL.1 (by omega) hq hm hL.2 _⟩

theorem unzip_hi_bs {q m : Nat} (hw : IsW w) (hn : n = Reg.r128.lanes w) (hq : w = q * 8) (hm : m = n * q)
    {x y : Vec w n} {f g : Nat → Nat} (hx : BS A m x f) (hy : BS A m y g) :
    ∃ z, i_unzip_hi c .int .r128 x y = some z ∧ BS A m z (gsel (128 / w * q) S (ex q fun j => 2 * j + 1) f g) := by
  have hw0 := isW_pos hw
  have hL : 0 < 128 / w ∧ 128 / w ∣ n := by
    subst hn; rcases hw with e | e | e | e <;> subst e <;> decide
  rw [i_unzip_hi_eq h (k := .int) (w := w) (n := n) (r := .r128) hw rfl hn]
  exact ⟨_, rfl, BS.gather hx hy hL.1 (by omega) hq hm hL.2 _⟩

theorem shuffle4x2_bs {s0 s1 s2 s3 : Nat} (h0 : s0 < 8) (h1 : s1 < 8) (h2 : s2 < 8) (h3 : s3 < 8) (hr : c.avx2 = true)
    {x y : Vec 64 4} {f g : Nat → Nat} (hx : BS A 32 x f) (hy : BS A 32 y g) :
    ∃ z, i_shuffle4x2_64 c .int .r256 s0 s1 s2 s3 x y = some z ∧ BS A 32 z (gsel 32 S (ex 8 (sel4 s0 s1 s2 s3)) f g) := by
  rw [show i_shuffle4x2_64 c .int .r256 s0 s1 s2 s3 x y = _ from
    i_shuffle4x2_64_eq h (r := .r256) (k := .int) hr (by decide) h0 h1 h2 h3 rfl _ _]
  exact ⟨_, rfl, BS.gather (L := 4) (q := 8) hx hy (by decide) (by decide) rfl rfl (by decide) _⟩

end

end Simdpp
