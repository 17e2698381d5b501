import Verif.Model.ShufMask
import Verif.Props.Bytes16

/-!
# C21: generated byte masks move whole elements
-/

namespace Simdpp
open Spec Sh

variable {n : Nat}

/-- Where the selector tuple sends element `e` of a 16-byte block: an index into the `2 * L` elements
of the two source blocks, `2 * L` for zero. -/
def maskIdx (q u : Nat) (s : Nat → Int) (e : Nat) : Nat :=
  let x := s (e % u)
  if x = -1 then 2 * (16 / q)
  else if x < u then e / u * u + x.toNat
  else 16 / q + (e / u * u + (x.toNat - u))

/-- The generated list, byte by byte. -/
theorem mask_list {q u : Nat} {s : Nat → Int} {M : List Nat} (hM : makeShuffleMask q u s = some M) :
    (∀ p, p < u → -1 ≤ s p ∧ s p < u * 2) ∧ (q = 1 ∨ q = 2 ∨ q = 4 ∨ q = 8) ∧ 0 < u ∧ u ∣ 16 / q ∧
    ∀ t, t < 16 → M.getD t 0 = getShuffleByte q u (s (t / q % u)) (t % q) + t / q / u * u * q := by
  unfold makeShuffleMask at hM
  split_ifs at hM with hs
  refine ⟨hs, ?_⟩
  split at hM
  all_goals first
    | (injection hM with hM
       subst hM
       refine ⟨by decide, by decide, by decide, fun t ht => ?_⟩
       interval_cases t <;> rfl)
    | exact absurd hM (by simp)

theorem mask_byte {q u : Nat} {s : Nat → Int} {M : List Nat} (hM : makeShuffleMask q u s = some M)
    {t : Nat} (ht : t < 16) :
    (s (t / q % u) = -1 → 128 ≤ M.getD t 0 ∧ M.getD t 0 < 144 ∧ 32 ≤ ex q (maskIdx q u s) t) ∧
    (s (t / q % u) ≠ -1 → M.getD t 0 = ex q (maskIdx q u s) t ∧ M.getD t 0 < 32 ∧
      (s (t / q % u) < u → M.getD t 0 < 16)) := by
  obtain ⟨hs, hq, hu, hd, hb⟩ := mask_list hM
  have hp := hs (t / q % u) (Nat.mod_lt _ hu)
  rw [hb t ht]
  unfold getShuffleByte ex maskIdx
  have hq0 : 0 < q := by omega
  obtain ⟨d, hd⟩ := hd
  have h1 : 16 / q * q = 16 := by rcases hq with rfl | rfl | rfl | rfl <;> rfl
  have h2 : t / q < 16 / q := by
    apply Nat.div_lt_of_lt_mul; rw [Nat.mul_comm, h1]; exact ht
  have h3 : t / q / u < d := by
    apply Nat.div_lt_of_lt_mul; rwa [← hd]
  have h4 : t % q < q := Nat.mod_lt _ hq0
  -- offset of the group, in bytes, plus one whole group fits in the block
  have h5 : t / q / u * u * q + u * q ≤ 16 := by
    have : (t / q / u + 1) * (u * q) ≤ d * (u * q) := Nat.mul_le_mul_right _ h3
    rw [Nat.add_mul, Nat.one_mul, ← Nat.mul_assoc, ← Nat.mul_assoc, Nat.mul_comm d u, ← hd, h1] at this
    exact this
  dsimp only
  have h0 : 0 < u * q := Nat.mul_pos hu hq0
  constructor
  · intro h
    rw [if_pos h, if_pos h, Nat.mul_assoc 2, h1]
    omega
  · intro h
    rw [if_neg h, if_neg h]
    obtain ⟨x, hx⟩ : ∃ x : Nat, s (t / q % u) = x := ⟨(s (t / q % u)).toNat, by omega⟩
    rw [hx] at hp ⊢
    have hx2 : x < 2 * u := by omega
    by_cases h6 : (x : Int) < u
    · rw [if_pos h6, if_pos h6]
      have e1 : ((x : Int) * q).toNat = x * q := by
        rw [← Int.natCast_mul]; rfl
      have e2 : ((x : Int)).toNat = x := rfl
      have h7 : (x + 1) * q ≤ u * q := Nat.mul_le_mul_right _ (by omega)
      rw [Nat.add_mul, Nat.one_mul] at h7
      rw [e1, e2, Nat.add_mul]
      omega
    · rw [if_neg h6, if_neg h6]
      obtain ⟨y, rfl⟩ : ∃ y, x = u + y := ⟨x - u, by omega⟩
      have e1 : (((u + y : Nat) : Int) - u) * q + 16 = ((y * q + 16 : Nat) : Int) := by
        push_cast; ring
      have e2 : (((u + y : Nat) : Int)).toNat - u = y := by
        show u + y - u = y; omega
      have h7 : (y + 1) * q ≤ u * q := Nat.mul_le_mul_right _ (by omega)
      rw [Nat.add_mul, Nat.one_mul] at h7
      rw [e1, e2, Nat.add_mul, Nat.add_mul, h1, Int.toNat_natCast]
      omega

theorem maskVec_legal {q u : Nat} {s : Nat → Int} {M : List Nat} (hM : makeShuffleMask q u s = some M)
    (i : Fin n) : okZ (maskVec16 n M i) := by
  have h := mask_byte hM (Nat.mod_lt i.val (by decide : 0 < 16))
  unfold okZ maskVec16
  rw [BitVec.toNat_ofNat]
  by_cases h1 : s (i.val % 16 / q % u) = -1
  · have := h.1 h1; omega
  · have := h.2 h1; omega

theorem selB_mask {q u : Nat} {s : Nat → Int} {M : List Nat} (hM : makeShuffleMask q u s = some M)
    (a b : Vec 8 n) : selB a b (maskVec16 n M) = gather 16 (ex q (maskIdx q u s)) a b := by
  funext i
  have h := mask_byte hM (Nat.mod_lt i.val (by decide : 0 < 16))
  unfold selB gather maskVec16
  dsimp only
  rw [BitVec.toNat_ofNat]
  by_cases h1 : s (i.val % 16 / q % u) = -1
  · obtain ⟨h2, h3, h4⟩ := h.1 h1
    rw [if_pos (by omega), if_neg (by omega), if_neg (by omega)]
  · obtain ⟨h2, h3, -⟩ := h.2 h1
    rw [Nat.mod_eq_of_lt (by omega), if_neg (by omega), ← h2]
    by_cases h5 : M.getD (i.val % 16) 0 < 16
    · rw [if_pos h5, if_pos h5]
    · rw [if_neg h5, if_neg h5, if_pos (by omega)]

/-- `q` bytes per `w`-bit element. -/
theorem q_of_w {w q : Nat} (hq : w = q * 8) (hw : IsW w) (r : Reg) :
    0 < q ∧ 16 / q * q = 16 ∧ r.lanes 8 = r.lanes w * q ∧ 16 / q ∣ r.lanes w ∧ 0 < 16 / q ∧
      16 / q = 128 / w := by
  subst hq
  rcases hw with h | h | h | h
  · obtain rfl : q = 1 := by omega
    cases r <;> decide
  · obtain rfl : q = 2 := by omega
    cases r <;> decide
  · obtain rfl : q = 4 := by omega
    cases r <;> decide
  · obtain rfl : q = 8 := by omega
    cases r <;> decide

theorem mask_move {w q u : Nat} (hq : w = q * 8) (hw : IsW w) (r : Reg) {s : Nat → Int} {M : List Nat}
    (hM : makeShuffleMask q u s = some M) (a b : Vec w (r.lanes w)) :
    (selB (a.recast 8 (r.lanes 8)) (b.recast 8 (r.lanes 8)) (maskVec16 (r.lanes 8) M)).recast w (r.lanes w) =
      gather (128 / w) (maskIdx q u s) a b := by
  obtain ⟨h0, h1, h2, h3, h4, h5⟩ := q_of_w hq hw r
  rw [selB_mask hM, ← h5]
  have := gather_recast (v := 8) (q := q) (m := r.lanes 8) (L := 16 / q) (by decide) h0 h4 hq h2 h3
    (maskIdx q u s) (ex q (maskIdx q u s)) (fun _ _ => rfl) a b
  rw [h1] at this
  exact this

/-- The statement of C21 for a result vector: element `p` of group `g` of block `B`. `L` elements per
block, groups of `u`. -/
def Moves {w N : Nat} (L u : Nat) (s : Nat → Int) (a b res : Vec w N) : Prop :=
  ∀ B g p, p < u → g * u + u ≤ L → B * L + L ≤ N →
    res.at_ (B * L + (g * u + p)) =
      if s p = -1 then 0
      else if s p < u then a.at_ (B * L + (g * u + (s p).toNat))
      else b.at_ (B * L + (g * u + ((s p).toNat - u)))

theorem moves_gather {w N L q u : Nat} {s : Nat → Int} (hL : L = 16 / q)
    (hs : ∀ p, p < u → -1 ≤ s p ∧ s p < u * 2)
    (a b : Vec w N) : Moves L u s a b (gather L (maskIdx q u s) a b) := by
  intro B g p hp hg hB
  have hu : 0 < u := by omega
  have e1 : (g * u + p) % u = p := by rw [Nat.add_comm, Nat.add_mul_mod_self_right, Nat.mod_eq_of_lt hp]
  have e2 : (g * u + p) / u = g := by
    rw [Nat.add_comm, Nat.add_mul_div_right _ _ hu, Nat.div_eq_of_lt hp, Nat.zero_add]
  have := hs p hp
  rw [gather_block a b (by omega) (by omega)]
  unfold maskIdx
  dsimp only
  rw [e1, e2, ← hL]
  by_cases h1 : s p = -1
  · rw [if_pos h1, if_pos h1, if_neg (by omega), if_neg (by omega)]
  · rw [if_neg h1, if_neg h1]
    by_cases h2 : s p < u
    · rw [if_pos h2, if_pos h2, if_pos (by omega)]
    · rw [if_neg h2, if_neg h2, if_neg (by omega), if_pos (by omega)]
      congr 2; omega

section
variable {w K q u : Nat} {c : Cfg} (h : c.Ok) (hw : IsW w) (hq : w = q * 8) {r : Reg}
  (hr : c.hasInt 8 r = true) {s : Nat → Int} {M : List Nat} (hM : makeShuffleMask q u s = some M)
include h hw hq hr hM

omit h hr in
theorem wide3_mask (op : Vec 8 (r.lanes 8) → Vec 8 (r.lanes 8) → Vec 8 (r.lanes 8) → Option (Vec 8 (r.lanes 8)))
    (hop : ∀ a b, op a b (maskVec16 (r.lanes 8) M) = some (selB a b (maskVec16 (r.lanes 8) M)))
    (a b : Fin K → Vec w (r.lanes w)) (d : Fin K → Vec 8 (r.lanes 8)) :
    ∃ res, bytes16_wide3 op (r.lanes w) a b
        (fun _ => (maskVec16 (r.lanes 8) M).recast w (r.lanes w)) d = some res ∧
      Moves (128 / w) u s (Arr.flat a : Vec w (K * r.lanes w)) (Arr.flat b : Vec w (K * r.lanes w))
        (Arr.flat res : Vec w (K * r.lanes w)) := by
  obtain ⟨h0, h1, h2, h3, h4, h5⟩ := q_of_w hq hw r
  have hback : ((maskVec16 (r.lanes 8) M).recast w (r.lanes w)).recast 8 (r.lanes 8) = maskVec16 (r.lanes 8) M :=
    Vec.recast_recast _ (isW_pos hw) (lanes_mul hw r).symm
  have e := Arr.apply3_spec op (fun i => (a i).recast 8 (r.lanes 8)) (fun i => (b i).recast 8 (r.lanes 8))
    (fun _ => ((maskVec16 (r.lanes 8) M).recast w (r.lanes w)).recast 8 (r.lanes 8))
    (fun i => selB ((a i).recast 8 (r.lanes 8)) ((b i).recast 8 (r.lanes 8)) (maskVec16 (r.lanes 8) M))
    (fun i => by rw [hback]; exact hop _ _) 0 d
  refine ⟨fun i => gather (128 / w) (maskIdx q u s) (a i) (b i), ?_, ?_⟩
  · unfold bytes16_wide3
    rw [e]
    simp only [Nat.zero_le, if_true, Option.bind_eq_bind, Option.bind_some]
    congr 1; funext i
    exact mask_move hq hw r hM (a i) (b i)
  · rw [gather_flat (h5 ▸ h3) (h5 ▸ h4)]
    exact moves_gather h5.symm (mask_list hM).1 _ _

omit h hr in
theorem wide2_mask (op : Vec 8 (r.lanes 8) → Vec 8 (r.lanes 8) → Option (Vec 8 (r.lanes 8)))
    (hop : ∀ a, op a (maskVec16 (r.lanes 8) M) = some (selB a a (maskVec16 (r.lanes 8) M)))
    (a : Fin K → Vec w (r.lanes w)) (d : Fin K → Vec 8 (r.lanes 8)) :
    ∃ res, bytes16_wide2 op (r.lanes w) a
        (fun _ => (maskVec16 (r.lanes 8) M).recast w (r.lanes w)) d = some res ∧
      Moves (128 / w) u s (Arr.flat a : Vec w (K * r.lanes w)) (Arr.flat a : Vec w (K * r.lanes w))
        (Arr.flat res : Vec w (K * r.lanes w)) := by
  obtain ⟨h0, h1, h2, h3, h4, h5⟩ := q_of_w hq hw r
  have hback : ((maskVec16 (r.lanes 8) M).recast w (r.lanes w)).recast 8 (r.lanes 8) = maskVec16 (r.lanes 8) M :=
    Vec.recast_recast _ (isW_pos hw) (lanes_mul hw r).symm
  have e := Arr.apply2_spec op (fun i => (a i).recast 8 (r.lanes 8))
    (fun _ => ((maskVec16 (r.lanes 8) M).recast w (r.lanes w)).recast 8 (r.lanes 8))
    (fun i => selB ((a i).recast 8 (r.lanes 8)) ((a i).recast 8 (r.lanes 8)) (maskVec16 (r.lanes 8) M))
    (fun i => by rw [hback]; exact hop _) 0 d
  refine ⟨fun i => gather (128 / w) (maskIdx q u s) (a i) (a i), ?_, ?_⟩
  · unfold bytes16_wide2
    rw [e]
    simp only [Nat.zero_le, if_true, Option.bind_eq_bind, Option.bind_some]
    congr 1; funext i
    exact mask_move hq hw r hM (a i) (a i)
  · rw [gather_flat (h5 ▸ h3) (h5 ▸ h4)]
    exact moves_gather h5.symm (mask_list hM).1 _ _

omit h hw hq hr in
theorem byte_of (n : Nat) (hr' : n = r.lanes 8) (i : Fin n) (hv : ∀ p, p < u → 0 ≤ s p) :
    (maskVec16 n M i).toNat < 32 ∧ ((∀ p, p < u → s p < u) → (maskVec16 n M i).toNat < 16) := by
  have hb := mask_byte hM (Nat.mod_lt i.val (by decide : 0 < 16))
  have hu := (mask_list hM).2.2.1
  have hp : i.val % 16 / q % u < u := Nat.mod_lt _ hu
  have h1 : s (i.val % 16 / q % u) ≠ -1 := by have := hv _ hp; omega
  have h2 := hb.2 h1
  unfold maskVec16
  rw [BitVec.toNat_ofNat]
  exact ⟨by omega, fun hlt => by have := h2.2.2 (hlt _ hp); omega⟩

/-- C21 (`shuffle_zbytes16`): the mask generated from any legal selector tuple (every selector in
`[-1, 2u)`), for every element type and group size the library offers, moves whole elements exactly
as documented — `-1` gives zero, `s < u` element `s` of the same group of `a`, otherwise element
`s - u` of the same group of `b` — in every group of every 128-bit block, for any vector length and
on every configuration that has the operation. -/
theorem C21_shuffle_zbytes16 (hx : c.sse2 = true → (c.ssse3 = true ∨ c.xop = true))
    (a b : Fin K → Vec w (r.lanes w)) (d : Fin K → Vec 8 (r.lanes 8)) :
    ∃ res, bytes16_wide3 (i_shuffle_zbytes16 c r) (r.lanes w) a b
        (fun _ => (maskVec16 (r.lanes 8) M).recast w (r.lanes w)) d = some res ∧
      Moves (128 / w) u s (Arr.flat a : Vec w (K * r.lanes w)) (Arr.flat b : Vec w (K * r.lanes w))
        (Arr.flat res : Vec w (K * r.lanes w)) :=
  wide3_mask hw hq hM _ (fun a b => i_shuffle_zbytes16_eq h hr hx rfl a b _ fun i => maskVec_legal hM i) a b d

/-- C21 (`shuffle_bytes16`): selectors in `[0, 2u)`. -/
theorem C21_shuffle_bytes16 (hx : c.sse2 = true → (c.ssse3 = true ∨ c.xop = true))
    (hv : ∀ p, p < u → 0 ≤ s p)
    (a b : Fin K → Vec w (r.lanes w)) (d : Fin K → Vec 8 (r.lanes 8)) :
    ∃ res, bytes16_wide3 (i_shuffle_bytes16 c r) (r.lanes w) a b
        (fun _ => (maskVec16 (r.lanes 8) M).recast w (r.lanes w)) d = some res ∧
      Moves (128 / w) u s (Arr.flat a : Vec w (K * r.lanes w)) (Arr.flat b : Vec w (K * r.lanes w))
        (Arr.flat res : Vec w (K * r.lanes w)) :=
  wide3_mask hw hq hM _ (fun a b => i_shuffle_bytes16_eq h hr hx rfl a b _
    fun i => (byte_of hM _ rfl i hv).1) a b d

/-- C21 (`permute_bytes16`): selectors in `[0, u)`. -/
theorem C21_permute_bytes16 (hx : c.sse2 = true → c.ssse3 = true)
    (hv : ∀ p, p < u → 0 ≤ s p ∧ s p < u)
    (a : Fin K → Vec w (r.lanes w)) (d : Fin K → Vec 8 (r.lanes 8)) :
    ∃ res, bytes16_wide2 (i_permute_bytes16 c r) (r.lanes w) a
        (fun _ => (maskVec16 (r.lanes 8) M).recast w (r.lanes w)) d = some res ∧
      Moves (128 / w) u s (Arr.flat a : Vec w (K * r.lanes w)) (Arr.flat a : Vec w (K * r.lanes w))
        (Arr.flat res : Vec w (K * r.lanes w)) :=
  wide2_mask hw hq hM _ (fun a => i_permute_bytes16_eq h hr hx rfl a _
    fun i => (byte_of hM _ rfl i fun p hp => (hv p hp).1).2 fun p hp => (hv p hp).2) a d

/-- C21 (`permute_zbytes16`): selectors in `[-1, u)`. -/
theorem C21_permute_zbytes16 (hx : c.sse2 = true → c.ssse3 = true) (hv : ∀ p, p < u → s p < u)
    (a : Fin K → Vec w (r.lanes w)) (d : Fin K → Vec 8 (r.lanes 8)) :
    ∃ res, bytes16_wide2 (i_permute_zbytes16 c r) (r.lanes w) a
        (fun _ => (maskVec16 (r.lanes 8) M).recast w (r.lanes w)) d = some res ∧
      Moves (128 / w) u s (Arr.flat a : Vec w (K * r.lanes w)) (Arr.flat a : Vec w (K * r.lanes w))
        (Arr.flat res : Vec w (K * r.lanes w)) := by
  refine wide2_mask hw hq hM _ (fun a => i_permute_zbytes16_eq h hr hx rfl a _ fun i => ?_) a d
  have hb := mask_byte hM (Nat.mod_lt i.val (by decide : 0 < 16))
  have hu := (mask_list hM).2.2.1
  have hp : i.val % 16 / q % u < u := Nat.mod_lt _ hu
  unfold maskVec16
  rw [BitVec.toNat_ofNat]
  by_cases h1 : s (i.val % 16 / q % u) = -1
  · have := hb.1 h1; omega
  · have := (hb.2 h1).2.2 (hv _ hp); omega

end

/-- C21: a selector outside `[-1, 2u)` is rejected at compile time. -/
theorem C21_rejects {q u p : Nat} {s : Nat → Int} (hp : p < u) (h : s p < -1 ∨ (u : Int) * 2 ≤ s p) :
    makeShuffleMask q u s = none := by
  unfold makeShuffleMask
  rw [if_neg]
  intro hall
  have := hall p hp
  omega

/-- Every overload the header offers accepts every in-range tuple. -/
theorem C21_accepts {q u : Nat} (hqu : (q, u) ∈ [(1,2),(1,4),(1,8),(1,16),(2,2),(2,4),(2,8),(4,2),(4,4),(8,2)])
    {s : Nat → Int} (hs : ∀ p, p < u → -1 ≤ s p ∧ s p < u * 2) :
    ∃ M, makeShuffleMask q u s = some M := by
  unfold makeShuffleMask
  rw [if_pos hs]
  simp only [List.mem_cons, Prod.mk.injEq, List.not_mem_nil, or_false] at hqu
  rcases hqu with ⟨rfl, rfl⟩ | ⟨rfl, rfl⟩ | ⟨rfl, rfl⟩ | ⟨rfl, rfl⟩ | ⟨rfl, rfl⟩ | ⟨rfl, rfl⟩ | ⟨rfl, rfl⟩ |
    ⟨rfl, rfl⟩ | ⟨rfl, rfl⟩ | ⟨rfl, rfl⟩ <;> exact ⟨_, rfl⟩

/-! Non-vacuity: `make_shuffle_bytes16_mask<3,-1,6,0>` for 32-bit elements. -/
example : makeShuffleMask 4 4 (fun p => [3, -1, 6, 0].getD p 0) =
    some [12, 13, 14, 15, 0x80, 0x80, 0x80, 0x80, 24, 25, 26, 27, 0, 1, 2, 3] := by decide

end Simdpp
