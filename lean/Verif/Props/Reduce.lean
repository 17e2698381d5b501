import Verif.Props.ReduceLemmas

/-!
# C16 reductions: and, or, min, max
-/

namespace Simdpp
open Spec Sh

variable {w n N : Nat} {c : Cfg}

def Mon.or (w : Nat) : Mon (BitVec w) := ⟨(· ||| ·), 0, BitVec.or_assoc, BitVec.or_comm, fun _ => BitVec.zero_or⟩
def Mon.and (w : Nat) : Mon (BitVec w) :=
  ⟨(· &&& ·), BitVec.allOnes w, BitVec.and_assoc, BitVec.and_comm, fun _ => BitVec.allOnes_and⟩
def Mon.bit (isAnd : Bool) (w : Nat) : Mon (BitVec w) := if isAnd then Mon.and w else Mon.or w

theorem minLane_comm (s : Bool) (x y : BitVec w) : minLane s x y = minLane s y x :=
  (val_inj s).1 (by rw [val_minLane, val_minLane, Int.min_comm])
theorem maxLane_comm (s : Bool) (x y : BitVec w) : maxLane s x y = maxLane s y x :=
  (val_inj s).1 (by rw [val_maxLane, val_maxLane, Int.max_comm])

theorem val_mem (s : Bool) (hw : 0 < w) (x : BitVec w) : lo s w ≤ val s x ∧ val s x ≤ hi s w := by
  have hp : (2:Int) ^ w = 2 * 2 ^ (w - 1) := by rw [← Int.pow_succ', Nat.sub_add_cancel hw]
  cases s
  · simp only [lo, hi, val, Bool.false_eq_true, if_false]
    have := x.isLt
    constructor
    · omega
    · have : (x.toNat : Int) < ((2 ^ w : Nat) : Int) := by exact_mod_cast x.isLt
      push_cast at this; omega
  · simp only [lo, hi, val, if_true]
    exact ⟨BitVec.le_toInt x, by have := BitVec.toInt_lt (x := x); omega⟩

theorem lo_le_hi (s : Bool) (w : Nat) : lo s w ≤ hi s w := by
  have h1 := Int.pow_pos (n := 2) (m := w - 1) (by decide)
  have h2 := Int.pow_pos (n := 2) (m := w) (by decide)
  cases s <;> simp [lo, hi] <;> omega

def Mon.min (s : Bool) (hw : 0 < w) : Mon (BitVec w) where
  op := minLane s
  e := mmInit false s w
  assoc x y z := (val_inj s).1 (by simp only [val_minLane]; omega)
  comm := minLane_comm s
  left_e x := (val_inj s).1 (by
    rw [val_minLane]
    have : val s (mmInit false s w) = hi s w := val_lane_of_range hw (lo_le_hi s w) (Int.le_refl _)
    rw [this]; have := (val_mem s hw x).2; omega)

def Mon.max (s : Bool) (hw : 0 < w) : Mon (BitVec w) where
  op := maxLane s
  e := mmInit true s w
  assoc x y z := (val_inj s).1 (by simp only [val_maxLane]; omega)
  comm := maxLane_comm s
  left_e x := (val_inj s).1 (by
    rw [val_maxLane]
    have : val s (mmInit true s w) = lo s w := val_lane_of_range hw (Int.le_refl _) (lo_le_hi s w)
    rw [this]; have := (val_mem s hw x).1; omega)

def Mon.mm (isMax s : Bool) (hw : 0 < w) : Mon (BitVec w) := if isMax then Mon.max s hw else Mon.min s hw

/-! ## what the folds mean -/

theorem big_or_bit (f : Nat → BitVec w) (m b : Nat) :
    ((Mon.or w).big f m).getLsbD b = true ↔ ∃ i, i < m ∧ (f i).getLsbD b = true := by
  induction m with
  | zero => simp [Mon.big, Mon.or]
  | succ m ih =>
    show (BitVec.getLsbD (_ ||| _) b = true) ↔ _
    rw [BitVec.getLsbD_or, Bool.or_eq_true, ih]
    constructor
    · rintro (⟨i, h1, h2⟩ | h)
      · exact ⟨i, by omega, h2⟩
      · exact ⟨m, by omega, h⟩
    · rintro ⟨i, h1, h2⟩
      by_cases e : i = m
      · subst e; exact Or.inr h2
      · exact Or.inl ⟨i, by omega, h2⟩

theorem big_and_bit (f : Nat → BitVec w) (m : Nat) {b : Nat} (hb : b < w) :
    ((Mon.and w).big f m).getLsbD b = true ↔ ∀ i, i < m → (f i).getLsbD b = true := by
  induction m with
  | zero => simp [Mon.big, Mon.and, hb]
  | succ m ih =>
    show (BitVec.getLsbD (_ &&& _) b = true) ↔ _
    rw [BitVec.getLsbD_and, Bool.and_eq_true, ih]
    constructor
    · rintro ⟨h1, h2⟩ i hi
      by_cases e : i = m
      · subst e; exact h2
      · exact h1 i (by omega)
    · exact fun h => ⟨fun i hi => h i (by omega), h m (by omega)⟩

theorem big_min_spec (s : Bool) (hw : 0 < w) (f : Nat → BitVec w) (m : Nat) :
    (∀ i, i < m → val s ((Mon.min s hw).big f m) ≤ val s (f i)) ∧ (0 < m → ∃ i, i < m ∧ (Mon.min s hw).big f m = f i) := by
  induction m with
  | zero => exact ⟨fun i hi => absurd hi (by omega), fun h => absurd h (by omega)⟩
  | succ m ih =>
    have e : val s ((Mon.min s hw).big f (m + 1)) = min (val s ((Mon.min s hw).big f m)) (val s (f m)) := val_minLane s _ _
    constructor
    · intro i hi
      rw [e]
      by_cases h : i = m
      · subst h; omega
      · have := ih.1 i (by omega); omega
    · intro _
      by_cases h : m = 0
      · subst h; exact ⟨0, by omega, (Mon.min s hw).left_e _⟩
      · by_cases g : val s ((Mon.min s hw).big f m) ≤ val s (f m)
        · obtain ⟨i, h1, h2⟩ := ih.2 (by omega)
          exact ⟨i, by omega, (if_pos g).trans h2⟩
        · exact ⟨m, by omega, if_neg g⟩

theorem big_max_spec (s : Bool) (hw : 0 < w) (f : Nat → BitVec w) (m : Nat) :
    (∀ i, i < m → val s (f i) ≤ val s ((Mon.max s hw).big f m)) ∧ (0 < m → ∃ i, i < m ∧ (Mon.max s hw).big f m = f i) := by
  induction m with
  | zero => exact ⟨fun i hi => absurd hi (by omega), fun h => absurd h (by omega)⟩
  | succ m ih =>
    have e : val s ((Mon.max s hw).big f (m + 1)) = max (val s ((Mon.max s hw).big f m)) (val s (f m)) := val_maxLane s _ _
    constructor
    · intro i hi
      rw [e]
      by_cases h : i = m
      · subst h; omega
      · have := ih.1 i (by omega); omega
    · intro _
      by_cases h : m = 0
      · subst h; exact ⟨0, by omega, (Mon.max s hw).left_e _⟩
      · by_cases g : val s (f m) ≤ val s ((Mon.max s hw).big f m)
        · obtain ⟨i, h1, h2⟩ := ih.2 (by omega)
          exact ⟨i, by omega, (if_pos g).trans h2⟩
        · exact ⟨m, by omega, if_neg g⟩

/-! ## loops over lanes -/

theorem extrLoop (M : Mon (BitVec w)) (f : BitVec w → BitVec w → BitVec w) (hf : ∀ x y, f x y = M.op x y)
    {lo m : Nat} (a : Vec w n) (hm : lo + m ≤ n) (r : BitVec w) :
    loopM (fun i r => (Hw.extr a i).map (f r)) lo m r = some (M.op r (M.big (fun i => a.at_ (lo + i)) m)) := by
  have := loopM_of (m := m) (lo := lo) (body := fun i r => (Hw.extr a i).map (f r))
    (fun i => M.op r (M.big (fun i => a.at_ (lo + i)) i)) (fun i hi => by
      show (Hw.extr a (lo + i)).map _ = _
      rw [Hw.extr_lt _ (by omega)]
      show some _ = some _
      rw [hf, M.assoc]; rfl)
  rw [← this]
  exact congrArg _ (M.right_e _).symm

theorem firstLoop (M : Mon (BitVec w)) (hid : ∀ x, M.op x x = x) (f : BitVec w → BitVec w → BitVec w)
    (hf : ∀ x y, f x y = M.op x y) {start : Nat} (hs : start ≤ 1) (a : Vec w n) (hn : 0 < n) :
    ((Hw.extr a 0).bind fun r => loopM (fun i r => (Hw.extr a i).map (f r)) start (n - start) r) = some (M.big a.at_ n) := by
  rw [Hw.extr_lt _ hn]
  refine (extrLoop M f hf a (by omega) _).trans (congrArg some ?_)
  obtain ⟨m, rfl⟩ : ∃ m, n = m + 1 := ⟨n - 1, by omega⟩
  rw [M.big_succ' a.at_]
  interval_cases start
  · rw [show (fun i => a.at_ (0 + i)) = a.at_ from funext fun i => by rw [Nat.zero_add], Nat.sub_zero, M.big_succ',
      ← M.assoc, hid]
  · exact congrArg _ (M.big_congr fun i _ => congrArg a.at_ (Nat.add_comm _ _))

theorem allLoop (M : Mon (BitVec w)) (f : BitVec w → BitVec w → BitVec w)
    (hf : ∀ x y, f x y = M.op x y) (a : Vec w n) {e : BitVec w} (he : e = M.e) :
    loopM (fun i r => (Hw.extr a i).map (f r)) 0 n e = some (M.big a.at_ n) := by
  subst he
  refine (extrLoop M f hf a (by omega) _).trans (congrArg some ?_)
  rw [M.left_e]
  exact M.big_congr fun i _ => by rw [Nat.zero_add]

/-! ## and, or -/

theorem bitLane_eq (isAnd : Bool) (x y : BitVec w) : bitLane isAnd x y = (Mon.bit isAnd w).op x y := by
  cases isAnd <;> rfl

theorem bit_idem (isAnd : Bool) (x : BitVec w) : (Mon.bit isAnd w).op x x = x := by
  cases isAnd
  · exact BitVec.or_self
  · exact BitVec.and_self

theorem redBitOp_eq (h : c.Ok) (hw : IsW w) {r : Reg} (hr : c.hasInt w r = true) (isAnd : Bool) (a b : Vec w n) :
    redBitOp c isAnd r a b = some (fun i => (Mon.bit isAnd w).op (a i) (b i)) := by
  cases isAnd
  · exact i_bit_or_eq h (k := .int) hw hr a b
  · exact i_bit_and_eq h (k := .int) hw hr a b

theorem i_reduce_bit128_eq (h : c.Ok) (hw : IsW w) (isAnd : Bool) (a : Vec w (Reg.r128.lanes w)) :
    i_reduce_bit128 c isAnd a = some ((Mon.bit isAnd w).big a.at_ (Reg.r128.lanes w)) := by
  have hT := redTree0_eq h hw (Mon.bit isAnd w) (sg := false) (redBitOp_eq h hw (r := .r128) rfl isAnd) (by simp [msa32s]) a
  have hL := fun s hs => firstLoop (Mon.bit isAnd w) (bit_idem isAnd) (bitLane isAnd) (bitLane_eq isAnd) (start := s) hs a
    (lanes_pos hw _)
  unfold i_reduce_bit128
  split_ifs <;> first
    | exact hT
    | exact hL _ (by omega)
    | (exfalso; clear hT hL; cfg_absurd h)

theorem reduce_bit_eq (h : c.Ok) (hw : IsW w) (isAnd : Bool) (hN : c.VLen w N) (a : Vec w N) :
    reduce_bit c isAnd a = some ((Mon.bit isAnd w).big a.at_ N) := by
  have hR : ∀ {n : Nat} (r : Reg) (_ : c.hasInt w r = true) (b : Vec w n) (_ : n = r.lanes w),
      redReg c (redBitOp c isAnd) (i_reduce_bit128 c isAnd) r b = some ((Mon.bit isAnd w).big b.at_ n) :=
    fun r hr b hn => redReg_eq h hw _ hr (fun r' hr' _ _ _ => redBitOp_eq h hw hr' isAnd) (i_reduce_bit128_eq h hw isAnd) b hn
  unfold reduce_bit
  split_ifs with h1 h2 h3
  · exact hR _ (VLen.one hw hN h1).2 a (VLen.one hw hN h1).1
  · exact allLoop (Mon.bit isAnd w) _ (bitLane_eq isAnd) a (by cases isAnd <;> rfl)
  · obtain ⟨K, hK, hN'⟩ := VLen.arr hw hN (by simpa using h1)
    obtain ⟨r, e, p⟩ := accArr_eq (Mon.bit isAnd w) (redBitOp_eq h hw (fast_has c w) isAnd) (by omega) (lanes_pos hw _) hN' a
    refine (bind_of e _).trans ?_
    rw [hR _ (fast_has c w) r rfl, p]

/-! ## min, max -/

theorem mmLane_eq (isMax s : Bool) (hw : IsW w) (x y : BitVec w) :
    mmLane isMax s x y = (Mon.mm isMax s (isW_pos hw)).op x y := by
  cases isMax
  · show (if C.lt (C.lane s x) (C.lane s y) = true then x else y) = minLane s x y
    rw [clt_lane s hw]
    refine (val_inj s).1 ?_
    rw [val_minLane]
    by_cases g : val s x < val s y
    · rw [if_pos (by simpa using g)]; omega
    · rw [if_neg (by simpa using g)]; omega
  · show (if C.lt (C.lane s y) (C.lane s x) = true then x else y) = maxLane s x y
    rw [clt_lane s hw]
    refine (val_inj s).1 ?_
    rw [val_maxLane]
    by_cases g : val s y < val s x
    · rw [if_pos (by simpa using g)]; omega
    · rw [if_neg (by simpa using g)]; omega

theorem mm_idem (isMax s : Bool) (hw : 0 < w) (x : BitVec w) : (Mon.mm isMax s hw).op x x = x := by
  cases isMax
  · exact if_pos (Int.le_refl _)
  · exact if_pos (Int.le_refl _)

theorem redMmOp_eq (h : c.Ok) (hw : IsW w) {r : Reg} (hr : c.hasInt w r = true) (isMax s : Bool)
    (hm : minmaxSupported c w r) (a b : Vec w n) :
    redMmOp c isMax s r a b = some (fun i => (Mon.mm isMax s (isW_pos hw)).op (a i) (b i)) := by
  cases isMax
  · exact i_min_eq h hw hr s hm a b
  · exact i_max_eq h hw hr s hm a b

theorem mmv_eq (isMax s : Bool) (hw : IsW w) (a : Vec w n) (hn : 0 < n) :
    Hw.mmv isMax s a = (Mon.mm isMax s (isW_pos hw)).big a.at_ n := by
  have key : ∀ m r, (List.range m).foldl (fun r i => let x := a.at_ i
      if isMax then (if val s r < val s x then x else r) else (if val s x < val s r then x else r)) r =
      (Mon.mm isMax s (isW_pos hw)).op r ((Mon.mm isMax s (isW_pos hw)).big a.at_ m) := by
    intro m
    induction m with
    | zero => intro r; exact ((Mon.mm isMax s (isW_pos hw)).right_e _).symm
    | succ m ih =>
      intro r
      rw [List.range_succ, List.foldl_append, ih, Mon.big_succ, ← Mon.assoc]
      generalize (Mon.mm isMax s (isW_pos hw)).op r _ = t
      cases isMax
      · show (if val s (a.at_ m) < val s t then a.at_ m else t) = minLane s t (a.at_ m)
        refine (val_inj s).1 ?_
        rw [val_minLane]; split_ifs <;> omega
      · show (if val s t < val s (a.at_ m) then a.at_ m else t) = maxLane s t (a.at_ m)
        refine (val_inj s).1 ?_
        rw [val_maxLane]; split_ifs <;> omega
  refine (key n (a.at_ 0)).trans ?_
  obtain ⟨m, rfl⟩ : ∃ m, n = m + 1 := ⟨n - 1, by omega⟩
  rw [Mon.big_succ', ← Mon.assoc, mm_idem]

/-- The sign-flipped lanes fold to the sign-flipped fold of the other signedness. -/
theorem mm_bias (isMax s : Bool) (hw : IsW w) (f : Nat → BitVec w) {m : Nat} (hm : 0 < m) :
    (Mon.mm isMax (!s) (isW_pos hw)).big (fun i => f i ^^^ BitVec.ofNat w (2 ^ (w - 1))) m =
      (Mon.mm isMax s (isW_pos hw)).big f m ^^^ BitVec.ofNat w (2 ^ (w - 1)) := by
  have hop : ∀ x y : BitVec w, (Mon.mm isMax (!s) (isW_pos hw)).op (x ^^^ BitVec.ofNat w (2 ^ (w - 1))) (y ^^^ BitVec.ofNat w (2 ^ (w - 1)))
      = (Mon.mm isMax s (isW_pos hw)).op x y ^^^ BitVec.ofNat w (2 ^ (w - 1)) := by
    intro x y
    cases isMax
    · show minLane (!s) _ _ = minLane s x y ^^^ _
      unfold minLane
      simp only [val_bias_le hw]
      split_ifs <;> rfl
    · show maxLane (!s) _ _ = maxLane s x y ^^^ _
      unfold maxLane
      simp only [val_bias_le hw]
      split_ifs <;> rfl
  obtain ⟨m, rfl⟩ : ∃ k, m = k + 1 := ⟨m - 1, by omega⟩
  clear hm
  induction m with
  | zero => rw [Mon.big_one, Mon.big_one]
  | succ m ih => rw [Mon.big_succ, ih, hop, ← Mon.big_succ]

theorem mm64_sup (h : c.Ok) (g : c.avx2 = true ∨ c.neon64 = true ∨ c.vsx206 = true ∨ c.vsx207 = true ∨ c.msa = true) :
    minmaxSupported c 64 .r128 := by
  intro _ _
  obtain ⟨o1, o2, o3, o4, o5, o6, o7, o8, o9, o10, o11, o12, o13, o14, o15, o16, o17, o18, o19⟩ := h
  revert g; simp only [Cfg.neon64, Cfg.neon32]; grind

theorem i_reduce_mm64_eq (h : c.Ok) (hw : IsW 64) (isMax s : Bool) (h1 : c.msa = true → isMax = true → s = true)
    (h2 : c.neon32 = true → isMax = false → s = false) (h3 : ¬ msa32s c s) (a : Vec 64 (Reg.r128.lanes 64)) :
    i_reduce_mm64 c isMax s a = some ((Mon.mm isMax s (isW_pos hw)).big a.at_ (Reg.r128.lanes 64)) := by
  have hT := fun g => redTree0_eq h hw (Mon.mm isMax s (isW_pos hw)) (sg := s)
    (redMmOp_eq h hw (r := .r128) rfl isMax s g) (fun g => h3 g.2) a
  have hL := fun s' hs => firstLoop (Mon.mm isMax s (isW_pos hw)) (mm_idem isMax s _) (mmLane isMax s)
    (mmLane_eq isMax s hw) (start := s') hs a (by decide)
  unfold i_reduce_mm64
  by_cases g1 : c.avx2 = true ∨ c.neon64 = true ∨ (if ¬ isMax = true ∧ s = true then c.vsx206 else c.vsx207) = true ∨
      (c.msa = true ∧ (s = true ∨ ¬ isMax = true))
  · rw [if_pos g1]
    refine hT (mm64_sup h ?_)
    revert g1
    split_ifs <;> grind
  · rw [if_neg g1]
    split_ifs with g2 g3
    · exact hL 1 (by decide)
    · exact hL 0 (by decide)
    · exfalso
      clear hT hL
      obtain ⟨o1, o2, o3, o4, o5, o6, o7, o8, o9, o10, o11, o12, o13, o14, o15, o16, o17, o18, o19⟩ := h
      revert g1 g2 g3 h1 h2; simp only [Cfg.neon64, Cfg.neon32]
      cases isMax <;> cases s <;> grind

theorem i_reduce_mm128n_eq (h : c.Ok) (hw : IsW w) (h64 : w ≠ 64) (isMax s : Bool)
    (hb : ¬ (c.sse2 = true ∧ c.sse41 = false ∧ ((w = 8 ∧ s = true) ∨ (w = 16 ∧ s = false)))) (a : Vec w (Reg.r128.lanes w)) :
    i_reduce_mm128n c isMax s a = some ((Mon.mm isMax s (isW_pos hw)).big a.at_ (Reg.r128.lanes w)) := by
  have hT := redTree0_eq h hw (Mon.mm isMax s (isW_pos hw)) (sg := s)
    (redMmOp_eq h hw (r := .r128) rfl isMax s (fun g => absurd g h64)) (fun g => h64 g.1) a
  have hL := fun s' hs => firstLoop (Mon.mm isMax s (isW_pos hw)) (mm_idem isMax s _) (mmLane isMax s)
    (mmLane_eq isMax s hw) (start := s') hs a (lanes_pos hw _)
  have hV := mmv_eq isMax s hw a (lanes_pos hw _)
  unfold i_reduce_mm128n
  split_ifs with g1 g2 g3 g4 g5
  · exact hL 1 (by decide)
  · exact hL 0 (by decide)
  · exact congrArg some hV
  · exact hT
  · exact hL 1 (by decide)
  · exfalso
    clear hT hL hV
    obtain ⟨o1, o2, o3, o4, o5, o6, o7, o8, o9, o10, o11, o12, o13, o14, o15, o16, o17, o18, o19⟩ := h
    have h5 : w = 8 ∨ w = 16 ∨ w = 32 := by rcases hw with e | e | e | e <;> simp_all
    revert g1 g3 g4 g5 hb
    cases s <;> rcases h5 with e | e | e <;> subst e <;> simp <;> grind

theorem bias_lanes (isMax s : Bool) (hw : IsW w) {L : Nat} (hL : 0 < L) (a : Vec w L) :
    (Mon.mm isMax (!s) (isW_pos hw)).big (Vec.at_ (fun i => a i ^^^ BitVec.ofNat w (2 ^ (w - 1)))) L ^^^ BitVec.ofNat w (2 ^ (w - 1)) =
      (Mon.mm isMax s (isW_pos hw)).big a.at_ L := by
  rw [Mon.big_congr (g := fun i => a.at_ i ^^^ BitVec.ofNat w (2 ^ (w - 1))) _ fun i hi => by
    rw [Vec.at_lt _ hi, Vec.at_lt _ hi], mm_bias isMax s hw _ hL, bias_bias]

/-- The reductions that exist: all but `reduce_max` of unsigned 64-bit lanes on MSA and `reduce_min` of one
`int64<2>` on 32-bit NEON; on 32-bit MSA, reading a signed 64-bit lane may be undefined (finding on `extract`). -/
def mmRedSupported (c : Cfg) (isMax s : Bool) (w N : Nat) : Prop :=
  w = 64 → (c.msa = true → isMax = true → s = true) ∧
    (c.neon32 = true → isMax = false → s = true → c.single w N = false) ∧ ¬ msa32s c s

theorem i_reduce_mm128_eq (h : c.Ok) (hw : IsW w) (isMax s : Bool)
    (h64 : w = 64 → (c.msa = true → isMax = true → s = true) ∧ (c.neon32 = true → isMax = false → s = false) ∧ ¬ msa32s c s)
    (a : Vec w (Reg.r128.lanes w)) :
    i_reduce_mm128 c isMax s a = some ((Mon.mm isMax s (isW_pos hw)).big a.at_ (Reg.r128.lanes w)) := by
  unfold i_reduce_mm128
  split_ifs with g1 g2
  · subst g1; exact i_reduce_mm64_eq h hw isMax s (h64 rfl).1 (h64 rfl).2.1 (h64 rfl).2.2 a
  · refine (bind_of (xorBias_eq h hw rfl a) _).trans ?_
    refine (bind_of (i_reduce_mm128n_eq h hw g1 isMax (!s) (by
      rintro ⟨_, _, g⟩; have := g2.2.2; cases s <;> simp_all <;> omega) _) _).trans (congrArg some ?_)
    exact bias_lanes isMax s hw (lanes_pos hw _) a
  · refine i_reduce_mm128n_eq h hw g1 isMax s ?_ a
    rintro ⟨k1, k2, k3⟩
    exact g2 ⟨k1, by simp [k2], by simpa using k3⟩

theorem redMm_reg (h : c.Ok) (hw : IsW w) (isMax s : Bool)
    (h64 : w = 64 → (c.msa = true → isMax = true → s = true) ∧ (c.neon32 = true → isMax = false → s = false) ∧ ¬ msa32s c s)
    {r : Reg} (hr : c.hasInt w r = true) (b : Vec w n) (hn : n = r.lanes w) :
    redReg c (redMmOp c isMax s) (i_reduce_mm128 c isMax s) r b = some ((Mon.mm isMax s (isW_pos hw)).big b.at_ n) := by
  refine redReg_eq h hw _ hr (fun r' hr' _ h2 _ => redMmOp_eq h hw hr' isMax s ?_) (i_reduce_mm128_eq h hw isMax s h64) b hn
  intro _ _
  refine mm64_sup h (Or.inl ?_) rfl rfl
  cases r with
  | r128 => exact (h2 rfl).elim
  | r256 => exact hr
  | r512 => exact hasInt_256_of_512 h hw hr

theorem fast_small (h : c.Ok) (hs : ¬ c.sse41 = true) : c.fast w = .r128 := by
  have h2 : c.avx2 = false := by
    obtain ⟨o1, o2, o3, o4, o5, o6, o7, o8, o9, o10, o11, o12, o13, o14, o15, o16, o17, o18, o19⟩ := h; grind
  have h3 : c.avx512f = false := by
    obtain ⟨o1, o2, o3, o4, o5, o6, o7, o8, o9, o10, o11, o12, o13, o14, o15, o16, o17, o18, o19⟩ := h; grind
  have h4 : c.avx512bw = false := by
    obtain ⟨o1, o2, o3, o4, o5, o6, o7, o8, o9, o10, o11, o12, o13, o14, o15, o16, o17, o18, o19⟩ := h; grind
  simp [Cfg.fast, Cfg.hasInt, h2, h3, h4]

theorem reduce_mm_eq (h : c.Ok) (hw : IsW w) (isMax s : Bool) (hN : c.VLen w N) (hS : mmRedSupported c isMax s w N) (a : Vec w N) :
    reduce_mm c isMax s a = some ((Mon.mm isMax s (isW_pos hw)).big a.at_ N) := by
  unfold reduce_mm
  split_ifs with g1 g2 g3
  · refine redMm_reg h hw isMax s (fun e => ⟨(hS e).1, fun k1 k2 => ?_, (hS e).2.2⟩) (VLen.one hw hN g1).2 a (VLen.one hw hN g1).1
    by_contra k3
    exact absurd g1 (by rw [(hS e).2.1 k1 k2 (by simpa using k3)]; decide)
  · exact allLoop _ _ (mmLane_eq isMax s hw) a (by cases isMax <;> rfl)
  · obtain ⟨K, hK, hN'⟩ := VLen.arr hw hN (by simpa using g1)
    rw [fast_small h g3.2.1] at hN'
    have hL := lanes_pos hw .r128
    have h64 : w ≠ 64 := by omega
    subst hN'
    refine (bind_of (xorBias_eq h hw rfl _) _).trans ?_
    have hx : ∀ j, xorBias c .r128 (Hw.part (Reg.r128.lanes w) j a) = some (fun i => a.at_ (j * Reg.r128.lanes w + i.val) ^^^ BitVec.ofNat w (2 ^ (w - 1))) :=
      fun j => xorBias_eq h hw rfl _
    have key := loopM_of (m := K - 1) (lo := 1) (body := fun j r => do
        let ca ← xorBias c .r128 (Hw.part (Reg.r128.lanes w) j a)
        redMmOp c isMax (!s) .r128 r ca)
      (fun j i => (Mon.mm isMax (!s) (isW_pos hw)).big (fun j => a.at_ (j * Reg.r128.lanes w + i.val) ^^^ BitVec.ofNat w (2 ^ (w - 1))) (1 + j))
      (fun j hj => by
        refine (bind_of (hx _) _).trans ?_
        rw [redMmOp_eq h hw (r := .r128) rfl isMax (!s) (fun g => absurd g h64)]; rfl)
    rw [Nat.mul_div_cancel _ hL]
    refine (bind_of (Eq.trans ?_ key) _).trans ?_
    · exact congrArg _ (funext fun i => (Mon.big_one _ (fun j => a.at_ (j * Reg.r128.lanes w + i.val) ^^^ BitVec.ofNat w (2 ^ (w - 1)))).symm)
    · refine (bind_of (i_reduce_mm128n_eq h hw h64 isMax (!s) (by
        rintro ⟨_, _, g⟩; have := g3.2.2; cases s <;> simp_all <;> omega) _) _).trans (congrArg some ?_)
      have e : 1 + (K - 1) = K := by omega
      rw [Mon.big_congr (g := fun i => (Mon.mm isMax (!s) (isW_pos hw)).big
          (fun j => a.at_ (j * Reg.r128.lanes w + i) ^^^ BitVec.ofNat w (2 ^ (w - 1))) K) _ fun i hi => by
        rw [Vec.at_lt _ hi, e],
        Mon.big_cols _ (fun j => a.at_ j ^^^ BitVec.ofNat w (2 ^ (w - 1))),
        mm_bias isMax s hw _ (Nat.mul_pos (by omega) hL), bias_bias]
  · obtain ⟨K, hK, hN'⟩ := VLen.arr hw hN (by simpa using g1)
    have hv : w = 64 → c.avx2 = true ∨ c.neon64 = true ∨ c.vsx206 = true ∨ c.vsx207 = true ∨ c.msa = true := by
      rintro rfl
      obtain ⟨o1, o2, o3, o4, o5, o6, o7, o8, o9, o10, o11, o12, o13, o14, o15, o16, o17, o18, o19⟩ := h
      revert g2
      simp only [mmArrLoops, Cfg.neon64, Cfg.neon32]
      cases isMax <;> cases s <;> simp <;> grind
    have hs := fun e => mm64_sup h (hv e)
    obtain ⟨r, e, p⟩ := accArr_eq (Mon.mm isMax s (isW_pos hw)) (redMmOp_eq h hw (fast_has c w) isMax s
      (fun e' k => by subst e'; exact hs rfl rfl rfl)) (by omega) (lanes_pos hw _) hN' a
    refine (bind_of e _).trans ?_
    rw [redMm_reg h hw isMax s (fun e' => ⟨(hS e').1, fun k1 _ => ?_, (hS e').2.2⟩) (fast_has c w) r rfl, p]
    exact absurd k1 (by rw [(hs e' rfl rfl).2]; decide)

/-! ## public statements -/

theorem VLen.pos (hw : IsW w) (hN : c.VLen w N) : 0 < N := by
  rcases hN with ⟨r, _, e⟩ | ⟨K, hK, e⟩
  · rw [e]; exact lanes_pos hw r
  · rw [e]; exact Nat.mul_pos (by omega) (lanes_pos hw _)

theorem exists_fin {P : BitVec w → Prop} (a : Vec w N) : (∃ i, i < N ∧ P (a.at_ i)) ↔ ∃ i, P (a i) :=
  ⟨fun ⟨i, hi, p⟩ => ⟨⟨i, hi⟩, by rwa [Vec.at_lt _ hi] at p⟩, fun ⟨i, p⟩ => ⟨i.val, i.isLt, by rwa [Vec.at_fin]⟩⟩

theorem forall_fin {P : BitVec w → Prop} (a : Vec w N) : (∀ i, i < N → P (a.at_ i)) ↔ ∀ i, P (a i) :=
  ⟨fun f i => by have := f i.val i.isLt; rwa [Vec.at_fin] at this, fun f i hi => by rw [Vec.at_lt _ hi]; exact f _⟩

/-- C16 (`reduce_or`): a bit of the result is set exactly when it is set in some lane. -/
theorem C16_reduce_or (h : c.Ok) (hw : IsW w) (hN : c.VLen w N) (a : Vec w N) :
    ∃ r, reduce_bit c false a = some r ∧ ∀ b, r.getLsbD b = true ↔ ∃ i, (a i).getLsbD b = true :=
  ⟨_, reduce_bit_eq h hw false hN a, fun b => (big_or_bit _ N b).trans (exists_fin (P := fun x => x.getLsbD b = true) a)⟩

/-- C16 (`reduce_and`): a bit of the result is set exactly when it is set in every lane. -/
theorem C16_reduce_and (h : c.Ok) (hw : IsW w) (hN : c.VLen w N) (a : Vec w N) :
    ∃ r, reduce_bit c true a = some r ∧ ∀ b, b < w → (r.getLsbD b = true ↔ ∀ i, (a i).getLsbD b = true) :=
  ⟨_, reduce_bit_eq h hw true hN a, fun b hb => (big_and_bit _ N hb).trans (forall_fin (P := fun x => x.getLsbD b = true) a)⟩

/-- C16 (`reduce_max`): the result is one of the lanes and no lane is greater. -/
theorem C16_reduce_max (h : c.Ok) (hw : IsW w) (s : Bool) (hN : c.VLen w N) (hS : mmRedSupported c true s w N) (a : Vec w N) :
    ∃ r, reduce_mm c true s a = some r ∧ (∃ i, r = a i) ∧ ∀ i, val s (a i) ≤ val s r :=
  ⟨_, reduce_mm_eq h hw true s hN hS a,
    (exists_fin (P := fun x => (Mon.max s (isW_pos hw)).big a.at_ N = x) a).1 ((big_max_spec s (isW_pos hw) a.at_ N).2 (VLen.pos hw hN)),
    (forall_fin (P := fun x => val s x ≤ val s ((Mon.max s (isW_pos hw)).big a.at_ N)) a).1 (big_max_spec s (isW_pos hw) a.at_ N).1⟩

/-- C16 (`reduce_min`): the result is one of the lanes and no lane is smaller. -/
theorem C16_reduce_min (h : c.Ok) (hw : IsW w) (s : Bool) (hN : c.VLen w N) (hS : mmRedSupported c false s w N) (a : Vec w N) :
    ∃ r, reduce_mm c false s a = some r ∧ (∃ i, r = a i) ∧ ∀ i, val s r ≤ val s (a i) :=
  ⟨_, reduce_mm_eq h hw false s hN hS a,
    (exists_fin (P := fun x => (Mon.min s (isW_pos hw)).big a.at_ N = x) a).1 ((big_min_spec s (isW_pos hw) a.at_ N).2 (VLen.pos hw hN)),
    (forall_fin (P := fun x => val s ((Mon.min s (isW_pos hw)).big a.at_ N) ≤ val s x) a).1 (big_min_spec s (isW_pos hw) a.at_ N).1⟩

/-- The overloads that do not exist: `reduce_max` of unsigned 64-bit lanes on MSA, whatever the length. -/
theorem C16_reduce_max_rejects (h : c.Ok) (hm : c.msa = true) (hN : c.VLen 64 N) (a : Vec 64 N) :
    reduce_mm c true false a = none := by
  have hx : c.avx2 = false ∧ c.neon64 = false ∧ c.vsx207 = false ∧ c.sse2 = false ∧ c.neon32 = false ∧ c.null = false ∧
      c.altivec = false ∧ c.sse41 = false := by
    obtain ⟨o1, o2, o3, o4, o5, o6, o7, o8, o9, o10, o11, o12, o13, o14, o15, o16, o17, o18, o19⟩ := h
    simp only [Cfg.neon64, Cfg.neon32]; grind
  obtain ⟨x1, x2, x3, x4, x5, x6, x7, x8⟩ := hx
  have hf : c.fast 64 = .r128 := fast_small h (by simp [x8])
  have ho : ∀ b : Vec 64 (Reg.r128.lanes 64), i_reduce_mm128 c true false b = none := by
    intro b; simp [i_reduce_mm128, i_reduce_mm64, x1, x2, x3, x4, x5, x6, x7]
  have hR : ∀ {n : Nat} (r : Reg) (b : Vec 64 n), c.hasInt 64 r = true → redReg c (redMmOp c true false) (i_reduce_mm128 c true false) r b = none := by
    intro n r b hr
    cases r with
    | r128 => exact ho _
    | r256 => exact absurd hr (by simp [Cfg.hasInt, x1])
    | r512 => exact absurd (hasInt_256_of_512 h (by simp [IsW]) hr) (by simp [Cfg.hasInt, x1])
  unfold reduce_mm
  split_ifs with g1 g2 g3
  · exact hR _ _ (VLen.one (by simp [IsW]) hN g1).2
  · exact absurd g2 (by simp [mmArrLoops, hm])
  · exact absurd g3.1 (by simp [x4])
  · cases accArr (redMmOp c true false (c.fast 64)) a with
    | none => rfl
    | some r => exact hR _ _ (fast_has c 64)

/-- `reduce_min` of one `int64<2>` does not exist on 32-bit NEON (it does for longer vectors). -/
theorem C16_reduce_min_rejects (h : c.Ok) (hm : c.neon32 = true) (a : Vec 64 2) : reduce_mm c false true a = none := by
  have hx : c.avx2 = false ∧ c.neon64 = false ∧ c.vsx206 = false ∧ c.sse2 = false ∧ c.null = false ∧
      c.altivec = false ∧ c.msa = false := by
    obtain ⟨o1, o2, o3, o4, o5, o6, o7, o8, o9, o10, o11, o12, o13, o14, o15, o16, o17, o18, o19⟩ := h
    revert hm
    simp only [Cfg.neon64, Cfg.neon32]; grind
  obtain ⟨x1, x2, x3, x4, x5, x6, x7⟩ := hx
  have e : c.regOf 64 2 = .r128 := rfl
  have hs : c.single 64 2 = true := by rw [Cfg.single, e]; rfl
  unfold reduce_mm
  rw [if_pos hs, e]
  simp [redReg, i_reduce_mm128, i_reduce_mm64, x1, x2, x3, x4, x5, x6, x7]

/-! ## the hypotheses are met -/

example : Cfg.portable.VLen 16 64 := Or.inr ⟨8, by decide, rfl⟩
example : Cfg.avx512All.VLen 8 256 := Or.inr ⟨4, by decide, rfl⟩
example : mmRedSupported Cfg.sse2Only true true 64 4 := fun _ => ⟨by decide, by decide, by simp [msa32s, Cfg.sse2Only, Cfg.portable]⟩
example : ∃ r, reduce_bit Cfg.neonA64 false (Vec.splat (3 : BitVec 8) : Vec 8 32) = some r ∧
    ∀ b, r.getLsbD b = true ↔ ∃ i : Fin 32, ((Vec.splat (3 : BitVec 8) : Vec 8 32) i).getLsbD b = true :=
  C16_reduce_or Cfg.neonA64_ok isW8 (Or.inr ⟨2, by decide, rfl⟩) _

end Simdpp
