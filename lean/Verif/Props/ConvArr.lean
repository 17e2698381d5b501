import Verif.Props.ConvExt

/-!
# Converters over whole vectors
-/

namespace Simdpp
open Spec Sh

variable {w v n N : Nat}

/-! ## The loops -/

theorem vecIx_lt {K I : Nat} (h : I < K) : vecIx K I = some I := if_pos h

theorem regWr_lt {m K I : Nat} (h : I < K) (d : Regs v m) (x : Vec v m) :
    regWr K d I x = some (fun i => if i = I then some x else d i) := by
  unfold regWr; rw [vecIx_lt h]; rfl

theorem part_eq_of {m : Nat} {x y : Vec w m} (h : ∀ j, j < m → x.at_ j = y.at_ j) : x = y := ext_at h

theorem map_at (G : BitVec w → BitVec v) (a : Vec w n) {i : Nat} (hi : i < n) :
    Vec.at_ (fun i => G (a i) : Vec v n) i = G (a.at_ i) := by rw [Vec.at_lt _ hi, Vec.at_lt _ hi]

/-- Filled registers make the whole vector. -/
theorem catM_regs {m K : Nat} (hm : 0 < m) (hN : N = K * m) {d : Regs v m} {T : Vec v N}
    (h : ∀ j, j < K → d j = some (Hw.part m j T)) : catM m d = some T := by
  refine catM_of hm fun p hp => ⟨_, h p (Nat.lt_of_mul_lt_mul_right (by rw [← hN]; exact hp)), fun j hj _ => ?_⟩
  rw [Hw.part_at _ hj]

theorem convUp_eq' {m q md K : Nat} (hmd : 0 < md) (hq : q * md = m) (hm : 0 < m) (hN : N = K * m)
    {f : Vec w m → Option (Vec v m)} {G : BitVec w → BitVec v} (a : Vec w N)
    (hf : ∀ I, I < K → f (Hw.part m I a) = some (fun i => G (Hw.part m I a i))) :
    convUp q md K f a = some (fun i => G (a i)) := by
  have hmq : m / md = q := by rw [← hq, Nat.mul_div_cancel _ hmd]
  have hNd : N = K * q * md := by rw [hN, ← hq, Nat.mul_assoc]
  have hNq : N / md = K * q := by rw [hNd, Nat.mul_div_cancel _ hmd]
  obtain ⟨s, e, p⟩ := forS_rule (step := 1) (lo := 0) (hi := K) (cnt := K) (by decide) (by omega)
    (fun I (dst : Regs v md) => do
      let sr ← f (Hw.part m I a)
      forS 1 0 q (fun p dst => do
        let j ← vecIx (m / md) p
        regWr (N / md) dst (I * q + p) (Hw.part md j sr)) dst)
    (fun u dst => ∀ j, j < u * q → dst j = some (Hw.part md j (fun i => G (a i) : Vec v N)))
    (fun _ => none) (by intro j hj; omega) (by
      intro u s hu hP
      simp only [Nat.zero_add, Nat.mul_one]
      rw [hf u hu, Option.bind_eq_bind, Option.bind_some]
      obtain ⟨s', e', p'⟩ := forS_rule (step := 1) (lo := 0) (hi := q) (cnt := q) (by decide) (by omega)
        (fun p dst => do
          let j ← vecIx (m / md) p
          regWr (N / md) dst (u * q + p) (Hw.part md j (fun i => G ((Hw.part m u a) i) : Vec v m)))
        (fun t dst => ∀ j, j < u * q + t → dst j = some (Hw.part md j (fun i => G (a i) : Vec v N)))
        s (by simpa using hP) (by
          intro t s ht hP
          have hlt : u * q + t < K * q := by
            calc u * q + t < (u + 1) * q := by rw [Nat.add_mul, Nat.one_mul]; omega
              _ ≤ K * q := Nat.mul_le_mul_right _ hu
          simp only [Nat.zero_add, Nat.mul_one]
          rw [vecIx_lt (by rw [hmq]; exact ht), Option.bind_eq_bind, Option.bind_some, regWr_lt (by rw [hNq]; exact hlt)]
          refine ⟨_, rfl, fun j hj => ?_⟩
          by_cases g : j = u * q + t
          · rw [if_pos g, g]
            refine congrArg some (part_eq_of fun i hi => ?_)
            have h1 : t * md + i < m := by
              rw [← hq]
              calc t * md + i < (t + 1) * md := by rw [Nat.add_mul, Nat.one_mul]; omega
                _ ≤ q * md := Nat.mul_le_mul_right _ ht
            have h2 : (u * q + t) * md + i < N := by
              rw [hNd]
              calc (u * q + t) * md + i < (u * q + t + 1) * md := by rw [Nat.add_mul (u * q + t), Nat.one_mul]; omega
                _ ≤ K * q * md := Nat.mul_le_mul_right _ hlt
            rw [Hw.part_at _ hi, Hw.part_at _ hi, map_at _ _ h1, map_at _ _ h2, Hw.part_at _ h1]
            congr 2
            rw [← hq]; ring
          · rw [if_neg g]; exact hP j (by omega))
      refine ⟨s', e', fun j hj => p' j ?_⟩
      rw [Nat.add_mul, Nat.one_mul] at hj; exact hj)
  unfold convUp
  rw [e, Option.bind_eq_bind, Option.bind_some]
  exact catM_regs hmd hNd p

theorem convUp_eq {m q md K : Nat} (hmd : 0 < md) (hq : q * md = m) (hm : 0 < m) (hN : N = K * m)
    {f : Vec w m → Option (Vec v m)} {G : BitVec w → BitVec v} (hf : ∀ x, f x = some (fun i => G (x i))) (a : Vec w N) :
    convUp q md K f a = some (fun i => G (a i)) := convUp_eq' hmd hq hm hN a fun _ _ => hf _

theorem convDown_eq' {m q ms K : Nat} (hms : 0 < ms) (hq : q * ms = m) (hm : 0 < m) (hN : N = K * m)
    {f : Vec w m → Option (Vec v m)} {G : BitVec w → BitVec v} (a : Vec w N)
    (hf : ∀ I, I < K → f (Hw.part m I a) = some (fun i => G (Hw.part m I a i))) :
    convDown q ms K f a = some (fun i => G (a i)) := by
  have hmq : m / ms = q := by rw [← hq, Nat.mul_div_cancel _ hms]
  have hNd : N = K * q * ms := by rw [hN, ← hq, Nat.mul_assoc]
  have hNq : N / ms = K * q := by rw [hNd, Nat.mul_div_cancel _ hms]
  have hNm : N / m = K := by rw [hN, Nat.mul_div_cancel _ hm]
  obtain ⟨s, e, p⟩ := forS_rule (step := 1) (lo := 0) (hi := K) (cnt := K) (by decide) (by omega)
    (fun I (dst : Regs v m) => do
      let sr ← forS 1 0 q (fun p sr => do
        let j ← vecIx (N / ms) (I * q + p)
        regWr (m / ms) sr p (Hw.part ms j a)) (fun _ => none)
      let x ← catM ms sr
      regWr (N / m) dst I (← f x))
    (fun u dst => ∀ j, j < u → dst j = some (Hw.part m j (fun i => G (a i) : Vec v N)))
    (fun _ => none) (by intro j hj; omega) (by
      intro u s hu hP
      simp only [Nat.zero_add, Nat.mul_one]
      obtain ⟨s', e', p'⟩ := forS_rule (step := 1) (lo := 0) (hi := q) (cnt := q) (by decide) (by omega)
        (fun p sr => do
          let j ← vecIx (N / ms) (u * q + p)
          regWr (m / ms) sr p (Hw.part ms j a))
        (fun t sr => ∀ j, j < t → sr j = some (Hw.part ms j (Hw.part m u a)))
        (fun _ => none) (by intro j hj; omega) (by
          intro t s ht hP
          have hlt : u * q + t < K * q := by
            calc u * q + t < (u + 1) * q := by rw [Nat.add_mul, Nat.one_mul]; omega
              _ ≤ K * q := Nat.mul_le_mul_right _ hu
          simp only [Nat.zero_add, Nat.mul_one]
          rw [vecIx_lt (by rw [hNq]; exact hlt), Option.bind_eq_bind, Option.bind_some, regWr_lt (by rw [hmq]; exact ht)]
          refine ⟨_, rfl, fun j hj => ?_⟩
          by_cases g : j = t
          · rw [if_pos g, g]
            refine congrArg some (part_eq_of fun i hi => ?_)
            have h1 : t * ms + i < m := by
              rw [← hq]
              calc t * ms + i < (t + 1) * ms := by rw [Nat.add_mul, Nat.one_mul]; omega
                _ ≤ q * ms := Nat.mul_le_mul_right _ ht
            rw [Hw.part_at _ hi, Hw.part_at _ hi, Hw.part_at _ h1]
            congr 1
            rw [← hq]; ring
          · rw [if_neg g]; exact hP j (by omega))
      have hx := catM_regs hms hq.symm p'
      simp only [Option.bind_eq_bind] at e'
      simp only [e', hx, hf u hu, Option.bind_eq_bind, Option.bind_some]
      rw [regWr_lt (by rw [hNm]; exact hu)]
      refine ⟨_, rfl, fun j hj => ?_⟩
      by_cases g : j = u
      · rw [if_pos g, g]
        refine congrArg some (part_eq_of fun i hi => ?_)
        have h2 : u * m + i < N := by
          rw [hN]
          calc u * m + i < (u + 1) * m := by rw [Nat.add_mul, Nat.one_mul]; omega
            _ ≤ K * m := Nat.mul_le_mul_right _ hu
        rw [Hw.part_at _ hi, map_at _ _ hi, map_at _ _ h2, Hw.part_at _ hi]
      · rw [if_neg g]; exact hP j (by omega))
  unfold convDown
  rw [e, Option.bind_eq_bind, Option.bind_some]
  exact catM_regs hm hN p

theorem convDown_eq {m q ms K : Nat} (hms : 0 < ms) (hq : q * ms = m) (hm : 0 < m) (hN : N = K * m)
    {f : Vec w m → Option (Vec v m)} {G : BitVec w → BitVec v} (hf : ∀ x, f x = some (fun i => G (x i))) (a : Vec w N) :
    convDown q ms K f a = some (fun i => G (a i)) := convDown_eq' hms hq hm hN a fun _ _ => hf _

/-! ## Lengths of vectors -/

/-- `N` is a length of the vector types with `w`-bit integer lanes: one register of a supported size, or several of
the widest. -/
def Cfg.VLen (c : Cfg) (w N : Nat) : Prop :=
  (∃ r : Reg, c.hasInt w r = true ∧ N = r.lanes w) ∨ ∃ K, 2 ≤ K ∧ N = K * (c.fast w).lanes w

theorem lanes_pos {w : Nat} (hw : IsW w) (r : Reg) : 0 < r.lanes w := by
  rcases hw with e | e | e | e <;> subst e <;> cases r <;> decide

theorem fast_has (c : Cfg) (w : Nat) : c.hasInt w (c.fast w) = true := by
  unfold Cfg.fast
  split_ifs with h1 h2
  · exact h1
  · exact h2
  · rfl

variable {c : Cfg} (h : c.Ok)

theorem regOf_single {r : Reg} (hw : IsW w) (hr : c.hasInt w r = true) : c.regOf w (r.lanes w) = r := by
  unfold Cfg.regOf
  cases r
  · rw [if_pos rfl]
  · rw [if_neg (by rcases hw with e | e | e | e <;> subst e <;> decide), if_pos ⟨hr, rfl⟩]
  · rw [if_neg (by rcases hw with e | e | e | e <;> subst e <;> decide),
      if_neg (by rintro ⟨-, g⟩; rcases hw with e | e | e | e <;> subst e <;> revert g <;> decide), if_pos ⟨hr, rfl⟩]

theorem fast_cases {c : Cfg} (h : c.Ok) : (c.avx2 = false ∧ c.avx512f = false ∧ c.avx512bw = false) ∨
    (c.avx2 = true ∧ c.avx512f = false ∧ c.avx512bw = false) ∨
    (c.avx2 = true ∧ c.avx512f = true ∧ c.avx512bw = false) ∨ (c.avx2 = true ∧ c.avx512f = true ∧ c.avx512bw = true) := by
  have h1 := h.avx512f
  have h2 := h.avx512bw
  revert h1 h2
  cases c.avx2 <;> cases c.avx512f <;> cases c.avx512bw <;> simp

include h

/-- Vectors of several registers are arrays of the widest registers, also for wider lanes. -/
theorem regOf_multi (hw : IsW w) (hv : IsW v) (hwv : w ≤ v) {K : Nat} (hK : 2 ≤ K) : c.regOf v (K * (c.fast w).lanes w) = c.fast v := by
  unfold Cfg.regOf Cfg.fast Cfg.hasInt
  rcases fast_cases h with ⟨h1, h2, h3⟩ | ⟨h1, h2, h3⟩ | ⟨h1, h2, h3⟩ | ⟨h1, h2, h3⟩ <;> simp only [h1, h2, h3] <;>
    rcases hw with e | e | e | e <;> subst e <;> rcases hv with e | e | e | e <;> subst e <;>
    first
    | (exfalso; revert hwv; decide)
    | (simp [Reg.lanes, Reg.bits]; done)
    | (simp [Reg.lanes, Reg.bits]; omega)
    | (simp [Reg.lanes, Reg.bits]; split_ifs <;> first | rfl | omega)

/-- Destination registers per source register. -/
theorem fast_ratio (hw : IsW w) (hv : IsW v) (hwv : w ≤ v) :
    (if c.avx512f ∧ ¬ c.avx512bw ∧ w ≤ 16 ∧ 32 ≤ v then v / w / 2 else v / w) * (c.fast v).lanes v = (c.fast w).lanes w := by
  unfold Cfg.fast Cfg.hasInt
  rcases fast_cases h with ⟨h1, h2, h3⟩ | ⟨h1, h2, h3⟩ | ⟨h1, h2, h3⟩ | ⟨h1, h2, h3⟩ <;> simp only [h1, h2, h3] <;>
    rcases hw with e | e | e | e <;> subst e <;> rcases hv with e | e | e | e <;> subst e <;>
    first
    | (exfalso; revert hwv; decide)
    | decide

theorem VLen.cases (hw : IsW w) (hN : c.VLen w N) : c.hasInt w (c.regOf w N) = true ∧
    (N = (c.regOf w N).lanes w ∨ ∃ K, 2 ≤ K ∧ N = K * (c.fast w).lanes w ∧ c.regOf w N = c.fast w) := by
  rcases hN with ⟨r, hr, e⟩ | ⟨K, hK, e⟩
  · subst e
    rw [regOf_single hw hr]
    exact ⟨hr, Or.inl rfl⟩
  · subst e
    rw [regOf_multi h hw hw (Nat.le_refl _) hK]
    exact ⟨fast_has c w, Or.inr ⟨K, hK, rfl, rfl⟩⟩

omit h in
theorem transport_map {n m : Nat} (e : n = m) (G : BitVec w → BitVec v) (a : Vec w n) :
    (e ▸ (fun i => G ((e ▸ a : Vec w m) i) : Vec v m) : Vec v n) = fun i => G (a i) := by subst e; rfl

/-- An extending overload set, given its single-register overload. -/
theorem extAll_eq (hw : IsW w) (hv : IsW v) (hwv : w ≤ v) (hN : c.VLen w N) {q : Nat} {G : BitVec w → BitVec v}
    {f : Reg → Vec w ((c.regOf w N).lanes w) → Option (Vec v ((c.regOf w N).lanes w))}
    (hf : c.hasInt w (c.regOf w N) = true → ∀ x, f (c.regOf w N) x = some (fun i => G (x i)))
    (hq : N ≠ (c.regOf w N).lanes w → q = if c.avx512f ∧ ¬ c.avx512bw ∧ w ≤ 16 ∧ 32 ≤ v then v / w / 2 else v / w) (a : Vec w N) :
    extAll c q f a = some (fun i => G (a i)) := by
  obtain ⟨hr, hc⟩ := VLen.cases h hw hN
  unfold extAll
  dsimp only
  by_cases g : N = (c.regOf w N).lanes w
  · rw [dif_pos g, hf hr]
    exact congrArg some (transport_map g G a)
  · rw [dif_neg g]
    obtain ⟨K, hK, e, e2⟩ : ∃ K, 2 ≤ K ∧ N = K * (c.fast w).lanes w ∧ c.regOf w N = c.fast w := hc.resolve_left g
    have e3 : c.regOf v N = c.fast v := by
      have := regOf_multi h hw hv hwv hK
      rw [← e] at this; exact this
    have hL := lanes_pos hw (c.fast w)
    have hK' : N / (c.regOf w N).lanes w = K := by
      rw [e2]; exact Nat.div_eq_of_eq_mul_left hL e
    rw [hK', e3]
    refine convUp_eq (lanes_pos hv _) ?_ (by rw [e2]; exact hL) (by rw [e2]; exact e) (hf hr) a
    rw [hq g, e2]
    exact fast_ratio h hw hv hwv

/-- A shrinking overload set, given its single-register overload. -/
theorem truncAll_eq (hw : IsW w) (hv : IsW v) (hwv : v ≤ w) (hN : c.VLen v N) {q : Nat} {G : BitVec w → BitVec v} {stop : Bool}
    {f : Reg → Vec w ((c.regOf v N).lanes v) → Option (Vec v ((c.regOf v N).lanes v))}
    (hf : c.hasInt v (c.regOf v N) = true → ∀ x, f (c.regOf v N) x = some (fun i => G (x i)))
    (hq : N ≠ (c.regOf v N).lanes v → stop = false ∧
      q = if c.avx512f ∧ ¬ c.avx512bw ∧ v ≤ 16 ∧ 32 ≤ w then w / v / 2 else w / v) (a : Vec w N) :
    truncAll c q stop f a = some (fun i => G (a i)) := by
  obtain ⟨hr, hc⟩ := VLen.cases h hv hN
  unfold truncAll
  dsimp only
  by_cases g : N = (c.regOf v N).lanes v
  · rw [dif_pos g, hf hr]
    exact congrArg some (transport_map g G a)
  · rw [dif_neg g]
    obtain ⟨K, hK, e, e2⟩ : ∃ K, 2 ≤ K ∧ N = K * (c.fast v).lanes v ∧ c.regOf v N = c.fast v := hc.resolve_left g
    have e3 : c.regOf w N = c.fast w := by
      have := regOf_multi h hv hw hwv hK
      rw [← e] at this; exact this
    have hL := lanes_pos hv (c.fast v)
    have hK' : N / (c.regOf v N).lanes v = K := by
      rw [e2]; exact Nat.div_eq_of_eq_mul_left hL e
    rw [(hq g).1, if_neg (by decide), hK', e3]
    refine convDown_eq (lanes_pos hw _) ?_ (by rw [e2]; exact hL) (by rw [e2]; exact e) (hf hr) a
    rw [(hq g).2, e2]
    exact fast_ratio h hv hw hwv

/-! ## Extensions of whole vectors -/

omit h in
theorem lanes_vlen (hw : IsW w) (r : Reg) (hr : c.hasInt w r = true) : c.VLen w (r.lanes w) := Or.inl ⟨r, hr, rfl⟩

theorem i_ext8_16_eq (sg : Bool) (hN : c.VLen 8 N) (a : Vec 8 N) : i_ext8_16 c sg a = some (extOf sg 16 a) :=
  extAll_eq h isW8 iw16 (by decide) hN (fun hr x => ext8_16_eq h sg hr rfl x) (fun _ => by simp) a

theorem i_ext16_32_eq (sg : Bool) (hN : c.VLen 16 N) (a : Vec 16 N) : i_ext16_32 c sg a = some (extOf sg 32 a) :=
  extAll_eq h iw16 iw32 (by decide) hN (fun hr x => ext16_32_eq h sg hr rfl x) (fun _ => by simp) a

theorem i_ext32_64_eq (sg : Bool) (hN : c.VLen 32 N) (a : Vec 32 N) : i_ext32_64 c sg a = some (extOf sg 64 a) :=
  extAll_eq h iw32 iw64 (by decide) hN (fun hr x => ext32_64_eq h sg hr rfl x) (fun _ => by simp) a

omit h in
theorem extOf_extOf (sg : Bool) {u : Nat} (hwu : w ≤ u) (huv : u ≤ v) (a : Vec w n) : extOf sg v (extOf sg u a) = extOf sg v a := by
  funext i
  unfold extOf Hw.extLane
  cases sg
  · simp only [Bool.false_eq_true, if_false]
    refine BitVec.eq_of_getLsbD_eq fun k hk => ?_
    simp only [BitVec.getLsbD_setWidth, hk, decide_true, Bool.true_and]
    by_cases g : k < u
    · simp [g]
    · rw [BitVec.getLsbD_of_ge _ _ (by omega : w ≤ k)]; simp
  · simp only [if_true]
    apply BitVec.eq_of_toInt_eq
    rw [BitVec.toInt_signExtend_of_le huv, BitVec.toInt_signExtend_of_le hwu, BitVec.toInt_signExtend_of_le (hwu.trans huv)]

omit h in
/-- Vector lengths of a build without AVX2. -/
theorem vlen_base (h2 : c.avx2 = false) (hf : c.avx512f = false) (hbw : c.avx512bw = false) {K : Nat} (hK : 1 ≤ K) :
    c.VLen w (K * (128 / w)) := by
  by_cases g : K = 1
  · subst g; exact Or.inl ⟨.r128, rfl, by rw [Nat.one_mul]; rfl⟩
  · refine Or.inr ⟨K, by omega, ?_⟩
    have : c.fast w = .r128 := by
      unfold Cfg.fast Cfg.hasInt
      simp [h2, hf, hbw]
    rw [this]; rfl

theorem no_avx_of_sse41 (g : ¬ c.sse41) : c.avx2 = false ∧ c.avx512f = false ∧ c.avx512bw = false := by
  have h1 := h.avx512f
  have h2 := h.avx512bw
  have h3 := h.avx2
  have h4 := h.avx
  revert g h1 h2 h3 h4
  cases c.avx2 <;> cases c.avx512f <;> cases c.avx512bw <;> cases c.avx <;> cases c.sse41 <;> simp

theorem ext8_32_eq (sg : Bool) {r : Reg} (hr : c.hasInt 8 r = true) (hn : n = r.lanes 8) (a : Vec 8 n) :
    ext8_32 c sg r a = some (extOf sg 32 a) := by
  subst hn
  unfold ext8_32
  cases r
  · by_cases g1 : c.null
    · rw [if_pos g1, Null.conv_eq]
    rw [if_neg g1]
    by_cases g2 : c.avx512f
    · rw [if_pos g2, cvt_self]
    rw [if_neg g2]
    by_cases g3 : c.avx2
    · rw [if_pos g3]; exact catM_moves h sg isW8 2 (by decide) rfl rfl (by decide) a
    rw [if_neg g3]
    by_cases g4 : c.sse41
    · rw [if_pos g4]; exact catM_moves h sg isW8 4 (by decide) rfl rfl (by decide) a
    rw [if_neg g4]
    by_cases g5 : c.sse2 ∨ c.neon ∨ c.altivec ∨ c.msa
    · rw [if_pos g5, i_ext8_16_eq h sg (lanes_vlen isW8 .r128 rfl) a, Option.bind_eq_bind, Option.bind_some]
      obtain ⟨f1, f2, f3⟩ := no_avx_of_sse41 h g4
      have := i_ext16_32_eq h sg (N := Reg.r128.lanes 8) (vlen_base (w := 16) f1 f2 f3 (K := 2) (by decide)) (extOf sg 16 a)
      rw [this, extOf_extOf sg (by decide) (by decide)]
    · exfalso; cfg_absurd h
  · refine (if_pos hr).trans ?_
    by_cases g : c.avx512f
    · rw [if_pos g]; exact catM_parts sg (by decide) a
    · rw [if_neg g]; exact catM_parts_moves h sg isW8 2 (by decide) (by decide) rfl rfl (by decide) a
  · exact (if_pos hr).trans (catM_parts sg (by decide) a)

theorem ext16_64_eq (sg : Bool) {r : Reg} (hr : c.hasInt 64 r = true) (hn : n = r.lanes 16) (a : Vec 16 n) :
    ext16_64 c sg r a = some (extOf sg 64 a) := by
  subst hn
  unfold ext16_64
  cases r
  · by_cases g1 : c.null
    · rw [if_pos g1, Null.conv_eq]
    rw [if_neg g1]
    by_cases g2 : c.avx512f
    · rw [if_pos g2, cvt_self]
    rw [if_neg g2]
    by_cases g3 : c.avx2
    · rw [if_pos g3]; exact catM_moves h sg iw16 2 (by decide) rfl rfl (by decide) a
    rw [if_neg g3]
    by_cases g4 : c.sse41
    · rw [if_pos g4]; exact catM_moves h sg iw16 4 (by decide) rfl rfl (by decide) a
    rw [if_neg g4]
    by_cases g5 : c.sse2 ∨ c.neon ∨ c.msa ∨ c.vsx207
    · rw [if_pos g5, i_ext16_32_eq h sg (lanes_vlen iw16 .r128 rfl) a, Option.bind_eq_bind, Option.bind_some]
      obtain ⟨f1, f2, f3⟩ := no_avx_of_sse41 h g4
      have := i_ext32_64_eq h sg (N := Reg.r128.lanes 16) (vlen_base (w := 32) f1 f2 f3 (K := 2) (by decide)) (extOf sg 32 a)
      rw [this, extOf_extOf sg (by decide) (by decide)]
    rw [if_neg g5]
    by_cases g6 : c.altivec
    · rw [if_pos g6, Null.conv_eq]
    · exfalso; cfg_absurd h
  · refine (if_pos hr).trans ?_
    by_cases g : c.avx512f
    · rw [if_pos g]; exact catM_parts sg (by decide) a
    · rw [if_neg g]; exact catM_parts_moves h sg iw16 2 (by decide) (by decide) rfl rfl (by decide) a
  · exact (if_pos hr).trans (catM_parts sg (by decide) a)

theorem i_ext8_32_eq (sg : Bool) (hN : c.VLen 8 N) (a : Vec 8 N) : i_ext8_32 c sg a = some (extOf sg 32 a) :=
  extAll_eq h isW8 iw32 (by decide) hN (fun hr x => ext8_32_eq h sg hr rfl x) (fun _ => by simp) a

theorem ext8_64_eq (sg : Bool) {r : Reg} (hr : c.hasInt 64 r = true) (hn : n = r.lanes 8) (a : Vec 8 n) :
    ext8_64 c sg r a = some (extOf sg 64 a) := by
  subst hn
  unfold ext8_64
  cases r
  · by_cases g1 : c.null
    · rw [if_pos g1, Null.conv_eq]
    rw [if_neg g1]
    by_cases g2 : c.avx512f
    · rw [if_pos g2]; exact catM_moves h sg isW8 2 (by decide) rfl rfl (by decide) a
    rw [if_neg g2]
    by_cases g3 : c.avx2
    · rw [if_pos g3]; exact catM_moves h sg isW8 4 (by decide) rfl rfl (by decide) a
    rw [if_neg g3]
    by_cases g4 : c.sse41
    · rw [if_pos g4]; exact catM_moves h sg isW8 8 (by decide) rfl rfl (by decide) a
    rw [if_neg g4]
    by_cases g5 : c.sse2 ∨ c.neon ∨ c.msa ∨ c.vsx207
    · rw [if_pos g5]
      have e1 := i_ext8_32_eq h sg (lanes_vlen isW8 .r128 rfl) a
      obtain ⟨f1, f2, f3⟩ := no_avx_of_sse41 h g4
      have e2 := i_ext32_64_eq h sg (N := Reg.r128.lanes 8) (vlen_base (w := 32) f1 f2 f3 (K := 4) (by decide)) (extOf sg 32 a)
      unfold i_ext8_32 at e1
      rw [e1, Option.bind_eq_bind, Option.bind_some, e2, extOf_extOf sg (by decide) (by decide)]
    rw [if_neg g5]
    by_cases g6 : c.altivec
    · rw [if_pos g6, Null.conv_eq]
    · exfalso; cfg_absurd h
  · refine (if_pos hr).trans ?_
    by_cases g : c.avx512f
    · rw [if_pos g]; exact catM_parts_moves h sg isW8 2 (by decide) (by decide) rfl rfl (by decide) a
    · rw [if_neg g]; exact catM_parts_moves h sg isW8 4 (by decide) (by decide) rfl rfl (by decide) a
  · exact (if_pos hr).trans (catM_parts_moves h sg isW8 2 (by decide) (by decide) rfl rfl (by decide) a)

omit h in
theorem hasInt64_of {w : Nat} (hw : IsW w) {c : Cfg} (h : c.Ok) {r : Reg} (hr : c.hasInt w r = true) : c.hasInt 64 r = true := by
  have h2 := h.avx512bw
  cases r
  · rfl
  · exact hr
  · revert hr h2
    unfold Cfg.hasInt
    rcases hw with e | e | e | e <;> subst e <;> simp

/-- Where `i_to_(u)int64` of 16-bit lanes works: everywhere but on long vectors of AVX-512F builds without AVX-512BW. -/
theorem i_ext16_64_eq (sg : Bool) (hN : c.VLen 16 N) (hx : c.avx512f = true ∧ c.avx512bw = false → N ≤ 32) (a : Vec 16 N) :
    i_ext16_64 c sg a = some (extOf sg 64 a) := by
  unfold i_ext16_64
  by_cases g : c.avx512f ∧ N = 32
  · rw [if_pos g]
    exact ext16_64_eq h sg (r := .r512) g.1 g.2 a
  rw [if_neg g]
  refine extAll_eq h iw16 iw64 (by decide) hN (fun hr x => ext16_64_eq h sg (hasInt64_of iw16 h hr) rfl x) (fun hne => ?_) a
  rw [if_neg]
  rintro ⟨g1, g2, -, -⟩
  have g2 : c.avx512bw = false := by simpa using g2
  have := hx ⟨g1, g2⟩
  obtain ⟨-, hc⟩ := VLen.cases h iw16 hN
  obtain ⟨K, hK, e, -⟩ := hc.resolve_left hne
  have ef : c.fast 16 = .r256 := by
    unfold Cfg.fast Cfg.hasInt; simp [g2, h.avx512f g1]
  rw [ef] at e
  have e : N = K * 16 := e
  exact g ⟨g1, by omega⟩

theorem i_ext8_64_eq (sg : Bool) (hN : c.VLen 8 N) (hx : c.avx512f = true ∧ c.avx512bw = false → N ≤ 64) (a : Vec 8 N) :
    i_ext8_64 c sg a = some (extOf sg 64 a) := by
  unfold i_ext8_64
  by_cases g : c.avx512f ∧ N = 64
  · rw [if_pos g]
    exact ext8_64_eq h sg (r := .r512) g.1 g.2 a
  rw [if_neg g]
  refine extAll_eq h isW8 iw64 (by decide) hN (fun hr x => ext8_64_eq h sg (hasInt64_of isW8 h hr) rfl x) (fun hne => ?_) a
  rw [if_neg]
  rintro ⟨g1, g2, -, -⟩
  have g2 : c.avx512bw = false := by simpa using g2
  have := hx ⟨g1, g2⟩
  obtain ⟨-, hc⟩ := VLen.cases h isW8 hN
  obtain ⟨K, hK, e, -⟩ := hc.resolve_left hne
  have ef : c.fast 8 = .r256 := by
    unfold Cfg.fast Cfg.hasInt; simp [g2, h.avx512f g1]
  rw [ef] at e
  have e : N = K * 32 := e
  exact g ⟨g1, by omega⟩

end Simdpp
