import Verif.Props.MinMaxLemmas

/-!
# C05 averages, C06 min/max, C07 abs
-/

namespace Simdpp
open Spec

variable {w n : Nat}

/-- The configurations in which `min`/`max` of `w`-bit lanes exist: all, except that
64-bit lanes in 128-bit registers need AVX2 on x86 and are missing on 32-bit NEON. -/
def minmaxSupported (c : Cfg) (w : Nat) (r : Reg) : Prop :=
  w = 64 → r = .r128 → (c.sse2 = true → c.avx2 = true) ∧ c.neon32 = false

theorem val_minLane (s : Bool) (x y : BitVec w) : val s (minLane s x y) = min (val s x) (val s y) := by
  unfold minLane; split_ifs <;> omega
theorem val_maxLane (s : Bool) (x y : BitVec w) : val s (maxLane s x y) = max (val s x) (val s y) := by
  unfold maxLane; split_ifs <;> omega

/-- C06: every lane of `min(a, b)` denotes the smaller of the two operands' values. -/
theorem C06_min {c : Cfg} (h : c.Ok) (hw : IsW w) {r : Reg} (hr : c.hasInt w r = true)
    (hm : minmaxSupported c w r) (s : Bool) (a b : Vec w n) :
    ∃ res, i_min c s r a b = some res ∧ ∀ i, val s (res i) = min (val s (a i)) (val s (b i)) :=
  ⟨_, i_min_eq h hw hr s hm a b, fun _ => val_minLane s _ _⟩

/-- C06: every lane of `max(a, b)` denotes the greater of the two operands' values. -/
theorem C06_max {c : Cfg} (h : c.Ok) (hw : IsW w) {r : Reg} (hr : c.hasInt w r = true)
    (hm : minmaxSupported c w r) (s : Bool) (a b : Vec w n) :
    ∃ res, i_max c s r a b = some res ∧ ∀ i, val s (res i) = max (val s (a i)) (val s (b i)) :=
  ⟨_, i_max_eq h hw hr s hm a b, fun _ => val_maxLane s _ _⟩

theorem C06_min_long {c : Cfg} (h : c.Ok) (hw : IsW w) {r : Reg} (hr : c.hasInt w r = true)
    (hm : minmaxSupported c w r) (s : Bool) {k L : Nat} (a b d : Fin k → Vec w L) :
    ∃ res, Arr.apply2 (i_min c s r) a b 0 d = some res ∧
      ∀ j, val s (Arr.flat res j) = min (val s (Arr.flat a j)) (val s (Arr.flat b j)) := by
  obtain ⟨res, h1, h2⟩ := C25_apply2 (i_min c s r) (minLane s) (i_min_eq h hw hr s hm) a b d
  exact ⟨res, h1, fun j => by rw [h2 j, val_minLane]⟩

theorem C06_max_long {c : Cfg} (h : c.Ok) (hw : IsW w) {r : Reg} (hr : c.hasInt w r = true)
    (hm : minmaxSupported c w r) (s : Bool) {k L : Nat} (a b d : Fin k → Vec w L) :
    ∃ res, Arr.apply2 (i_max c s r) a b 0 d = some res ∧
      ∀ j, val s (Arr.flat res j) = max (val s (Arr.flat a j)) (val s (Arr.flat b j)) := by
  obtain ⟨res, h1, h2⟩ := C25_apply2 (i_max c s r) (maxLane s) (i_max_eq h hw hr s hm) a b d
  exact ⟨res, h1, fun j => by rw [h2 j, val_maxLane]⟩

/-- C06: `min` and `max` together are a rearrangement of the two operands (the fact
sorting networks rely on). -/
theorem C06_minmax_exchange {c : Cfg} (h : c.Ok) (hw : IsW w) {r : Reg} (hr : c.hasInt w r = true)
    (hm : minmaxSupported c w r) (s : Bool) (a b : Vec w n) :
    ∃ lo hi, i_min c s r a b = some lo ∧ i_max c s r a b = some hi ∧
      ∀ i, (lo i = a i ∧ hi i = b i) ∨ (lo i = b i ∧ hi i = a i) := by
  refine ⟨_, _, i_min_eq h hw hr s hm a b, i_max_eq h hw hr s hm a b, fun i => ?_⟩
  unfold minLane maxLane
  rcases lt_trichotomy (val s (a i)) (val s (b i)) with hl | he | hg
  · rw [if_pos hl.le, if_neg (by omega)]; exact Or.inl ⟨rfl, rfl⟩
  · rw [if_pos he.le, if_pos he.ge]; have := (val_inj s).1 he; exact Or.inl ⟨rfl, this⟩
  · rw [if_neg (by omega), if_pos hg.le]; exact Or.inr ⟨rfl, rfl⟩

/-- C06: outside `minmaxSupported` the overload does not compile: no silently wrong result. -/
theorem C06_unsupported_rejected {c : Cfg} (h : c.Ok) (hm : ¬ minmaxSupported c w r) (s : Bool)
    (a b : Vec w n) : i_min c s r a b = none ∧ i_max c s r a b = none := by
  unfold minmaxSupported at hm
  have h64 : w = 64 := by by_contra hc; exact hm fun e => absurd e hc
  have hr : r = .r128 := by by_contra hc; exact hm fun _ e => absurd e hc
  have hm' : ¬ ((c.sse2 = true → c.avx2 = true) ∧ c.neon32 = false) := fun hh => hm fun _ _ => hh
  clear hm
  have hd : (c.sse2 = true ∧ c.avx2 = false) ∨ (c.neon = true ∧ c.bits64 = false) := by
    unfold Cfg.neon32 at hm'
    cases h1 : c.sse2 <;> cases h2 : c.avx2 <;> cases h3 : c.neon <;> cases h4 : c.bits64 <;> simp_all
  clear hm'
  subst hr
  unfold i_min i_max
  dsimp only
  rcases hd with hd | hd <;> constructor <;> split_ifs <;> first | rfl | cfg_absurd h

theorem rsum_range (hw : 0 < w) (s : Bool) (x y : BitVec w) :
    val s (rsum s x y) = (val s x + val s y + 1) / 2 := by
  have hx := val_range s hw x; have hy := val_range s hw y
  exact val_lane_of_range hw (by omega) (by omega)

theorem hsum_range (hw : 0 < w) (s : Bool) (x y : BitVec w) :
    val s (hsum s x y) = (val s x + val s y) / 2 := by
  have hx := val_range s hw x; have hy := val_range s hw y
  exact val_lane_of_range hw (by omega) (by omega)

/-- C05: `avg` is the exact half-sum rounded up (`⌊(a+b+1)/2⌋` over the integers), for signed
and unsigned 8-, 16-, 32-bit lanes; nothing overflows. `n % 2 = 0` holds of every register. -/
theorem C05_avg {c : Cfg} (h : c.Ok) (hw : w = 8 ∨ w = 16 ∨ w = 32) {r : Reg}
    (hr : c.hasInt w r = true) (hn : n % 2 = 0) (s : Bool) (a b : Vec w n) :
    ∃ res, i_avg c s r a b = some res ∧
      ∀ i, val s (res i) = (val s (a i) + val s (b i) + 1) / 2 :=
  ⟨_, i_avg_eq h hw hr hn s a b, fun _ => rsum_range (by omega) s _ _⟩

/-- C05: `avg_trunc` is the exact half-sum rounded down. -/
theorem C05_avg_trunc {c : Cfg} (h : c.Ok) (hw : w = 8 ∨ w = 16 ∨ w = 32) {r : Reg}
    (hr : c.hasInt w r = true) (hn : n % 2 = 0) (s : Bool) (a b : Vec w n) :
    ∃ res, i_avg_trunc c s r a b = some res ∧
      ∀ i, val s (res i) = (val s (a i) + val s (b i)) / 2 :=
  ⟨_, i_avg_trunc_eq h hw hr hn s a b, fun _ => hsum_range (by omega) s _ _⟩

theorem C05_avg_long {c : Cfg} (h : c.Ok) (hw : w = 8 ∨ w = 16 ∨ w = 32) {r : Reg}
    (hr : c.hasInt w r = true) {k L : Nat} (hL : L % 2 = 0) (s : Bool) (a b d : Fin k → Vec w L) :
    ∃ res, Arr.apply2 (i_avg c s r) a b 0 d = some res ∧
      ∀ j, val s (Arr.flat res j) = (val s (Arr.flat a j) + val s (Arr.flat b j) + 1) / 2 := by
  obtain ⟨res, h1, h2⟩ := C25_apply2 (i_avg c s r) (rsum s) (i_avg_eq h hw hr hL s) a b d
  exact ⟨res, h1, fun j => by rw [h2 j, rsum_range (by omega)]⟩

theorem C05_avg_trunc_long {c : Cfg} (h : c.Ok) (hw : w = 8 ∨ w = 16 ∨ w = 32) {r : Reg}
    (hr : c.hasInt w r = true) {k L : Nat} (hL : L % 2 = 0) (s : Bool) (a b d : Fin k → Vec w L) :
    ∃ res, Arr.apply2 (i_avg_trunc c s r) a b 0 d = some res ∧
      ∀ j, val s (Arr.flat res j) = (val s (Arr.flat a j) + val s (Arr.flat b j)) / 2 := by
  obtain ⟨res, h1, h2⟩ := C25_apply2 (i_avg_trunc c s r) (hsum s) (i_avg_trunc_eq h hw hr hL s) a b d
  exact ⟨res, h1, fun j => by rw [h2 j, hsum_range (by omega)]⟩

/-- C05: the two averages differ by the parity of the sum: `avg = avg_trunc + (a+b) mod 2`. -/
theorem C05_avg_vs_trunc {c : Cfg} (h : c.Ok) (hw : w = 8 ∨ w = 16 ∨ w = 32) {r : Reg}
    (hr : c.hasInt w r = true) (hn : n % 2 = 0) (s : Bool) (a b : Vec w n) :
    ∃ x y, i_avg c s r a b = some x ∧ i_avg_trunc c s r a b = some y ∧
      ∀ i, val s (x i) = val s (y i) + (val s (a i) + val s (b i)) % 2 := by
  refine ⟨_, _, i_avg_eq h hw hr hn s a b, i_avg_trunc_eq h hw hr hn s a b, fun i => ?_⟩
  show val s (rsum s _ _) = val s (hsum s _ _) + _
  rw [rsum_range (by omega), hsum_range (by omega)]; omega

/-! ### abs (C07) -/

theorem absLane_range (hw : 0 < w) (x : BitVec w) : val false (absLane x) = |val true x| := by
  have hx := val_range true hw x
  have hp : (2:Int) ^ w = 2 * 2 ^ (w - 1) := by rw [← Int.pow_succ', Nat.sub_add_cancel hw]
  unfold absLane
  rw [val_lane_of_range hw]
  · exact Int.natCast_natAbs _
  · simp only [lo]; simp
  · simp only [lo, hi, if_true, Bool.false_eq_true, if_false] at *; omega

/-- The inputs on which `abs` avoids undefined behaviour: the portable code paths compute
`std::abs` in the element type, which overflows on the minimum of a 32- or 64-bit type. -/
def absDefined (c : Cfg) (r : Reg) (a : Vec w n) : Prop :=
  (c.null = true ∧ 32 ≤ w) ∨ (w = 64 ∧ c.altivec = true ∧ c.vsx207 = false) → r = .r128 →
    ∀ i, a i ≠ BitVec.intMin w

/-- C07 (abs): the unsigned result is the exact absolute value, including `|MIN| = 2^(w-1)`.
Missing: on the portable paths with 32- or 64-bit lanes equal to the minimum the claim is false
(`C07_abs_ub`). -/
theorem C07_abs_partial {c : Cfg} (h : c.Ok) (hw : IsW w) {r : Reg} (hr : c.hasInt w r = true)
    (hn : n % 2 = 0) (a : Vec w n) (hub : absDefined c r a) :
    ∃ res, i_iabs c r a = some res ∧ ∀ i, val false (res i) = |val true (a i)| :=
  ⟨_, i_iabs_eq h hw hr (fun _ => hn) a hub, fun _ => absLane_range (isW_pos hw) _⟩

/-- C07 (abs) in full on every build with a hardware path for that lane width. -/
theorem C07_abs_hw {c : Cfg} (h : c.Ok) (hw : IsW w) {r : Reg} (hr : c.hasInt w r = true)
    (hn : n % 2 = 0) (hc : c.null = false) (ha : c.altivec = true → w = 64 → c.vsx207 = true) (a : Vec w n) :
    ∃ res, i_iabs c r a = some res ∧ ∀ i, val false (res i) = |val true (a i)| :=
  C07_abs_partial h hw hr hn a fun h1 _ => by
    rcases h1 with h1 | h1
    · simp [hc] at h1
    · have := ha h1.2.1 h1.1; simp [h1.2.2] at this

/-- C07 (abs): the excluded inputs really are undefined behaviour. -/
theorem C07_abs_ub {c : Cfg} (h : c.Ok) (hw : IsW w) {r : Reg} (a : Vec w n) (hd : ¬ absDefined c r a) :
    i_iabs c r a = none := by
  unfold absDefined at hd
  push Not at hd
  obtain ⟨h1, rfl, i, hi⟩ := hd
  unfold i_iabs
  split_ifs with h64
  · subst h64
    show i_iabs64 c .r128 a = none
    unfold i_iabs64
    have := Null.abs_ub (Or.inr rfl) a i hi
    dsimp only
    split_ifs <;> first | exact this | cfg_absurd h
  · unfold i_iabs_narrow
    rcases h1 with h1 | h1
    · simp only [h1.1, if_true]
      exact Null.abs_ub (by rcases hw with rfl | rfl | rfl | rfl <;> omega) a i hi
    · exact absurd h1.1 h64

/-! ### clamp (C44) -/

theorem i_clamp_eq {c : Cfg} (h : c.Ok) (hw : IsW w) {r : Reg} (hr : c.hasInt w r = true)
    (hm : minmaxSupported c w r) (s : Bool) (v lo hi : Vec w n) :
    i_clamp c s r v lo hi = some (fun i => maxLane s (minLane s (v i) (hi i)) (lo i)) := by
  unfold i_clamp
  rw [i_min_eq h hw hr s hm, Option.bind_eq_bind, Option.bind_some, i_max_eq h hw hr s hm]

/-- C44: whenever `lo ≤ hi`, every lane is `std::clamp(v, lo, hi)`: `lo` if `v < lo`,
`hi` if `hi < v`, otherwise `v` itself. -/
theorem C44_clamp {c : Cfg} (h : c.Ok) (hw : IsW w) {r : Reg} (hr : c.hasInt w r = true)
    (hm : minmaxSupported c w r) (s : Bool) (v lo hi : Vec w n)
    (hle : ∀ i, val s (lo i) ≤ val s (hi i)) :
    ∃ res, i_clamp c s r v lo hi = some res ∧
      ∀ i, res i = if val s (v i) < val s (lo i) then lo i
        else if val s (hi i) < val s (v i) then hi i else v i := by
  refine ⟨_, i_clamp_eq h hw hr hm s v lo hi, fun i => ?_⟩
  have := hle i
  apply (val_inj s).1
  rw [val_maxLane, val_minLane]
  split_ifs <;> omega

/-- C44: the result lies in `[lo, hi]`. -/
theorem C44_clamp_range {c : Cfg} (h : c.Ok) (hw : IsW w) {r : Reg} (hr : c.hasInt w r = true)
    (hm : minmaxSupported c w r) (s : Bool) (v lo hi : Vec w n)
    (hle : ∀ i, val s (lo i) ≤ val s (hi i)) :
    ∃ res, i_clamp c s r v lo hi = some res ∧
      ∀ i, val s (lo i) ≤ val s (res i) ∧ val s (res i) ≤ val s (hi i) := by
  refine ⟨_, i_clamp_eq h hw hr hm s v lo hi, fun i => ?_⟩
  have := hle i
  rw [val_maxLane, val_minLane]
  omega

/-- C44: clamping twice is clamping once (even when `hi < lo`). -/
theorem C44_clamp_idem {c : Cfg} (h : c.Ok) (hw : IsW w) {r : Reg} (hr : c.hasInt w r = true)
    (hm : minmaxSupported c w r) (s : Bool) (v lo hi : Vec w n) :
    (i_clamp c s r v lo hi).bind (fun t => i_clamp c s r t lo hi) = i_clamp c s r v lo hi := by
  rw [i_clamp_eq h hw hr hm, Option.bind_some, i_clamp_eq h hw hr hm]
  congr 1; funext i
  apply (val_inj s).1
  simp only [val_maxLane, val_minLane]
  omega

/-- C44 on vectors of any length. -/
theorem C44_clamp_long {c : Cfg} (h : c.Ok) (hw : IsW w) {r : Reg} (hr : c.hasInt w r = true)
    (hm : minmaxSupported c w r) (s : Bool) {k L : Nat} (v lo hi d : Fin k → Vec w L)
    (hle : ∀ j, val s (Arr.flat lo j) ≤ val s (Arr.flat hi j)) :
    ∃ t res, Arr.apply2 (i_min c s r) v hi 0 d = some t ∧ Arr.apply2 (i_max c s r) t lo 0 d = some res ∧
      ∀ j, Arr.flat res j = if val s (Arr.flat v j) < val s (Arr.flat lo j) then Arr.flat lo j
        else if val s (Arr.flat hi j) < val s (Arr.flat v j) then Arr.flat hi j else Arr.flat v j := by
  obtain ⟨t, h1, h2⟩ := C25_apply2 (i_min c s r) (minLane s) (i_min_eq h hw hr s hm) v hi d
  obtain ⟨res, h3, h4⟩ := C25_apply2 (i_max c s r) (maxLane s) (i_max_eq h hw hr s hm) t lo d
  refine ⟨t, res, h1, h3, fun j => ?_⟩
  have := hle j
  apply (val_inj s).1
  rw [h4 j, h2 j, val_maxLane, val_minLane]
  split_ifs <;> omega

/-! ### The hypotheses are satisfiable, on concrete lanes -/

example : ∃ res, i_min Cfg.sse2Only true .r128 (fun _ => 0x80#8 : Vec 8 16) (fun _ => 0x7f#8) = some res ∧
    ∀ i, val true (res i) = -128 := by
  obtain ⟨res, h1, h2⟩ := C06_min Cfg.sse2Only_ok (w := 8) (Or.inl rfl) (r := .r128) rfl (by intro h; omega) true
    (fun _ => 0x80#8 : Vec 8 16) (fun _ => 0x7f#8)
  exact ⟨res, h1, fun i => by rw [h2 i]; decide⟩

example : ∃ res, i_avg Cfg.sse2Only true .r128 (fun _ => 0x80000000#32 : Vec 32 4) (fun _ => 3#32) = some res ∧
    ∀ i, val true (res i) = -1073741822 := by
  obtain ⟨res, h1, h2⟩ := C05_avg Cfg.sse2Only_ok (w := 32) (by omega) (r := .r128) rfl rfl true
    (fun _ => 0x80000000#32 : Vec 32 4) (fun _ => 3#32)
  exact ⟨res, h1, fun i => by rw [h2 i]; decide⟩

example : ∃ res, i_iabs Cfg.sse2Only .r128 (fun _ => BitVec.intMin 64 : Vec 64 2) = some res ∧
    ∀ i, val false (res i) = 2 ^ 63 := by
  obtain ⟨res, h1, h2⟩ := C07_abs_hw Cfg.sse2Only_ok (w := 64) (by unfold IsW; omega) (r := .r128) rfl rfl rfl
    (by intro h; cases h) (fun _ => BitVec.intMin 64 : Vec 64 2)
  exact ⟨res, h1, fun i => by rw [h2 i]; decide⟩

example : ∃ res, i_clamp Cfg.sse2Only false .r128 (fun i => BitVec.ofNat 16 (i.val * 10000) : Vec 16 8)
    (fun _ => 100#16) (fun _ => 40000#16) = some res ∧ res 0 = 100#16 ∧ res 3 = 30000#16 ∧ res 6 = 40000#16 := by
  obtain ⟨res, h1, h2⟩ := C44_clamp Cfg.sse2Only_ok (w := 16) (by unfold IsW; omega) (r := .r128) rfl (by intro h; omega) false
    (fun i => BitVec.ofNat 16 (i.val * 10000) : Vec 16 8) (fun _ => 100#16) (fun _ => 40000#16) (by decide)
  exact ⟨res, h1, by rw [h2]; decide, by rw [h2]; decide, by rw [h2]; decide⟩

example : ¬ minmaxSupported Cfg.sse2Only 64 .r128 := fun h => by
  have := (h rfl rfl).1 rfl; exact absurd this (by decide)

example : minmaxSupported Cfg.avx2Only 64 .r128 := fun _ _ => ⟨fun _ => rfl, rfl⟩

end Simdpp
