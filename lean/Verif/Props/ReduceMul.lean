import Verif.Props.ReduceMulLemmas
import Mathlib.Algebra.BigOperators.Fin
import Mathlib.Tactic.Linarith

/-!
# C16 reductions: reduce_mul
-/

namespace Simdpp
open Spec Sh

variable {w n N m : Nat} {c : Cfg}

/-! ## accumulators -/

theorem accE_eq {K : Nat} (hn : n = 2 * m) {get : Nat → Option (Vec 32 n)} (g : Nat → BitVec 32)
    (hg : ∀ j, j < K → ∃ x, get j = some x ∧ evp x m = g j) :
    ∃ acc, loopM (fun j prod => do
        let ra ← get j
        some (mulE prod ra)) 0 K (Vec.splat 1) = some acc ∧ evp acc m = Mon.mul.big g K := by
  refine loopM_inv (fun k acc => evp acc m = Mon.mul.big g k) ?_ ?_
  · refine (Mon.mul.big_congr fun i hi => ?_).trans (Mon.mul.big_e m)
    rw [Vec.at_lt _ (show 2 * i < n by omega)]; rfl
  · intro j hj t ht
    obtain ⟨x, e, p⟩ := hg j hj
    refine ⟨_, by rw [Nat.zero_add]; exact bind_of e _, ?_⟩
    rw [mulE_evp hn, ht, p]; rfl

theorem accL_eq (h : c.Ok) {K : Nat} {get : Nat → Option (Vec 32 4)} (g : Nat → BitVec 32)
    (hg : ∀ j, j < K → ∃ x, get j = some x ∧ Mon.mul.big x.at_ 4 = g j) :
    ∃ acc, loopM (fun j prod => do
        let p ← get j
        i_mul_lo32 c .r128 prod p) 0 K (Vec.splat 1) = some acc ∧ Mon.mul.big acc.at_ 4 = Mon.mul.big g K := by
  refine loopM_inv (lo := 0) (body := fun j prod => do
        let p ← get j
        i_mul_lo32 c .r128 prod p) (fun k acc => Mon.mul.big acc.at_ 4 = Mon.mul.big g k) ?_ ?_
  · refine (Mon.mul.big_congr fun i hi => ?_).trans (Mon.mul.big_e 4)
    rw [Vec.at_lt _ hi]; rfl
  · intro j hj t ht
    obtain ⟨x, e, p⟩ := hg j hj
    refine ⟨_, by rw [Nat.zero_add]; exact (bind_of e _).trans (i_mul_lo32_eq h (r := .r128) rfl rfl _ _), ?_⟩
    refine (Mon.mul.big_congr (g := fun i => t.at_ i * x.at_ i) fun i hi => mullo_at _ _ hi).trans ?_
    refine (Mon.mul.big_op _ _ 4).trans ?_
    rw [ht, p, Mon.big_succ]

/-! ## scalar loops -/

theorem ofInt_mul32 (x y : Int) : BitVec.ofInt 32 (x * y) = BitVec.ofInt 32 x * BitVec.ofInt 32 y := BitVec.ofInt_mul x y

/-- A multiplication on `uint32_t` wraps. -/
theorem mulU {ty : C.Ty} (hu : C.usual ⟨false, 32⟩ ty = ⟨false, 32⟩) (x y : Int) :
    ∃ v, C.mul ⟨⟨false, 32⟩, x⟩ ⟨ty, y⟩ = some ⟨⟨false, 32⟩, v⟩ ∧ BitVec.ofInt 32 v = BitVec.ofInt 32 x * BitVec.ofInt 32 y := by
  refine ⟨C.wrap ⟨false, 32⟩ (C.wrap ⟨false, 32⟩ x * C.wrap ⟨false, 32⟩ y), ?_, ?_⟩
  · unfold C.mul
    dsimp only
    rw [hu]; rfl
  · rw [ofInt_wrap, ofInt_mul32, ofInt_wrap, ofInt_wrap]

/-- A multiplication on `int32_t` is exact while the product stays below `2^31`. -/
theorem mulS {ty : C.Ty} (hu : C.usual ⟨true, 32⟩ ty = ⟨true, 32⟩) {x y : Int} {A B : Nat} (hx : x.natAbs ≤ A) (hy : y.natAbs ≤ B)
    (hA : 1 ≤ A) (hB : 1 ≤ B) (hAB : A * B < 2 ^ 31) :
    C.mul ⟨⟨true, 32⟩, x⟩ ⟨ty, y⟩ = some ⟨⟨true, 32⟩, x * y⟩ ∧ (x * y).natAbs ≤ A * B := by
  have h1 : A ≤ A * B := Nat.le_mul_of_pos_right _ hB
  have h2 : B ≤ A * B := Nat.le_mul_of_pos_left _ hA
  have h3 : (x * y).natAbs ≤ A * B := by rw [Int.natAbs_mul]; exact Nat.mul_le_mul hx hy
  have r : ∀ z : Int, z.natAbs ≤ A * B → C.InR ⟨true, 32⟩ z := fun z hz =>
    ⟨by show (-2147483648:Int) ≤ _; omega, by show _ ≤ (2147483647:Int); omega⟩
  exact ⟨C.mul_inR hu (by decide) (r _ (by omega)) (r _ (by omega)) (r _ h3), h3⟩

theorem mulLoop_of {s t : Bool} {start : Nat} (hs : start ≤ 1) (P : Nat → Int → Prop) (a : Vec w n)
    (h0 : start = 0 → P 0 1) (h1 : start = 1 → P 1 (C.wrap ⟨t, 32⟩ (val s (a.at_ 0))))
    (hn : 0 < n)
    (hstep : ∀ i, i < n → ∀ v, P i v → ∃ v', (C.mul ⟨⟨t, 32⟩, v⟩ (C.lane s (a.at_ i))).map (C.cast ⟨t, 32⟩) = some ⟨⟨t, 32⟩, v'⟩ ∧
      P (i + 1) v' ∧ BitVec.ofInt 32 v' = BitVec.ofInt 32 v * E s 32 (a.at_ i)) :
    mulLoop s t start a = some (ptot s a) := by
  have hi : ∃ v, (if start = 0 then (⟨⟨t, 32⟩, 1⟩ : C.Val) else C.cast ⟨t, 32⟩ (C.lane s (a.at_ 0))) = ⟨⟨t, 32⟩, v⟩ ∧ P start v ∧
      BitVec.ofInt 32 v = Mon.mul.big (fun i => E s 32 (a.at_ i)) start := by
    by_cases e : start = 0
    · exact ⟨1, if_pos e, by rw [e]; exact h0 e, by subst e; rfl⟩
    · have e1 : start = 1 := by omega
      refine ⟨C.wrap ⟨t, 32⟩ (val s (a.at_ 0)), ?_, by rw [e1]; exact h1 e1, ?_⟩
      · rw [if_neg e]; unfold C.cast; rw [lane_v]
      · rw [ofInt_wrap, e1, Mon.big_one]; rfl
  obtain ⟨v0, e0, p0, q0⟩ := hi
  unfold mulLoop
  dsimp only
  rw [e0]
  obtain ⟨u, eu, v, ev, _, qv⟩ := loopM_inv (m := n - start) (lo := start)
    (body := fun i r => if i < n then (C.mul r (C.lane s (a.at_ i))).map (C.cast ⟨t, 32⟩) else none)
    (P := fun i r => ∃ v, r = ⟨⟨t, 32⟩, v⟩ ∧ P (start + i) v ∧ BitVec.ofInt 32 v = Mon.mul.big (fun i => E s 32 (a.at_ i)) (start + i))
    (s := ⟨⟨t, 32⟩, v0⟩) ⟨v0, rfl, p0, q0⟩ (by
      rintro i hi r ⟨v, rfl, pv, qv⟩
      obtain ⟨v', e', p', q'⟩ := hstep (start + i) (by omega) v pv
      exact ⟨⟨⟨t, 32⟩, v'⟩, (if_pos (by omega)).trans e', v', rfl, p', by rw [q', qv]; rfl⟩)
  rw [eu, ev]
  show some (BitVec.ofInt 32 v) = _
  rw [qv, show start + (n - start) = n by omega]; rfl

theorem mulLoopU {s : Bool} (hw : w = 16 ∨ w = 32) {start : Nat} (hs : start ≤ 1) (a : Vec w n) (hn : 0 < n) :
    mulLoop s false start a = some (ptot s a) := by
  refine mulLoop_of hs (fun _ _ => True) a (fun _ => trivial) (fun _ => trivial) hn ?_
  intro i _ v _
  have hu : C.usual ⟨false, 32⟩ ⟨s, w⟩ = ⟨false, 32⟩ := by rcases hw with e | e <;> subst e <;> cases s <;> rfl
  obtain ⟨v', e, p⟩ := mulU hu v (val s (a.at_ i))
  refine ⟨C.wrap ⟨false, 32⟩ v', ?_, trivial, ?_⟩
  · have el : C.lane s (a.at_ i) = ⟨⟨s, w⟩, val s (a.at_ i)⟩ := by rw [← lane_v]; rfl
    rw [el, e]; rfl
  · rw [ofInt_wrap, p]; rfl

/-! ## signed products that fit -/

def Mon.natMul : Mon Nat := ⟨(· * ·), 1, Nat.mul_assoc, Nat.mul_comm, Nat.one_mul⟩

/-- The magnitude of a lane, at least one. -/
def mag (x : BitVec w) : Nat := max 1 (val true x).natAbs

theorem mag_pos (x : BitVec w) : 1 ≤ mag x := Nat.le_max_left _ _

theorem big_pos {f : Nat → Nat} (hf : ∀ i, 1 ≤ f i) (k : Nat) : 1 ≤ Mon.natMul.big f k := by
  induction k with
  | zero => exact Nat.le_refl _
  | succ k ih => rw [Mon.big_succ]; exact Nat.mul_pos ih (hf k)

theorem big_mono {f : Nat → Nat} (hf : ∀ i, 1 ≤ f i) {k l : Nat} (h : k ≤ l) : Mon.natMul.big f k ≤ Mon.natMul.big f l := by
  induction l with
  | zero => rw [Nat.le_zero.1 h]
  | succ l ih =>
    by_cases e : k = l + 1
    · rw [e]
    · refine Nat.le_trans (ih (by omega)) ?_
      rw [Mon.big_succ]; exact Nat.le_mul_of_pos_right _ (hf l)

/-- The product of the magnitudes. -/
def magTot (a : Vec w n) : Nat := Mon.natMul.big (fun i => mag (a.at_ i)) n

theorem mulLoopS (a : Vec 16 n) (hn : 0 < n) (hf : magTot a < 2 ^ 31) : mulLoop true true 1 a = some (ptot true a) := by
  have hp : ∀ i, 1 ≤ mag (a.at_ i) := fun i => mag_pos _
  refine mulLoop_of (by decide) (fun i v => v.natAbs ≤ Mon.natMul.big (fun i => mag (a.at_ i)) i) a (by simp) (fun _ => ?_) hn ?_
  · have hb := C.toInt_bounds16 (a.at_ 0)
    have e : C.wrap ⟨true, 32⟩ (val true (a.at_ 0)) = (a.at_ 0).toInt :=
      C.wrap_i32 (by show _ ≤ (a.at_ 0).toInt; omega) (by show (a.at_ 0).toInt ≤ _; omega)
    rw [e, Mon.big_one]; exact Nat.le_max_right _ _
  · intro i hi v hv
    have hlt := big_mono hp (k := i + 1) (l := n) (by omega)
    obtain ⟨e, q⟩ := mulS (ty := ⟨true, 16⟩) (y := val true (a.at_ i)) rfl hv (Nat.le_max_right 1 _) (big_pos hp i) (Nat.le_max_left 1 _)
      (Nat.lt_of_le_of_lt hlt hf)
    refine ⟨v * val true (a.at_ i), ?_, q, ?_⟩
    · have el : C.lane true (a.at_ i) = ⟨⟨true, 16⟩, val true (a.at_ i)⟩ := rfl
      have hq : (v * val true (a.at_ i)).natAbs < 2 ^ 31 := Nat.lt_of_le_of_lt q (Nat.lt_of_le_of_lt hlt hf)
      rw [el, e]
      show some (C.cast _ _) = _
      rw [C.cast_inR (by decide) ⟨by show (-2147483648:Int) ≤ _; omega, by show _ ≤ (2147483647:Int); omega⟩]
    · rw [ofInt_mul32]; rfl

/-! ## AltiVec -/

theorem mul4U (b : Vec 32 4) : ∃ v, mul4 false b = some ⟨⟨false, 32⟩, v⟩ ∧ BitVec.ofInt 32 v = Mon.mul.big b.at_ 4 := by
  have hl : ∀ i, C.lane false (b.at_ i) = ⟨⟨false, 32⟩, val false (b.at_ i)⟩ := fun i => rfl
  have hv : ∀ i, BitVec.ofInt 32 (val false (b.at_ i)) = b.at_ i := fun i => by
    show E false 32 _ = _
    rw [E_trunc _ (Nat.le_refl _)]; exact BitVec.setWidth_eq _
  obtain ⟨x, e1, p1⟩ := mulU (ty := ⟨false, 32⟩) rfl (val false (b.at_ 0)) (val false (b.at_ 1))
  obtain ⟨y, e2, p2⟩ := mulU (ty := ⟨false, 32⟩) rfl x (val false (b.at_ 2))
  obtain ⟨z, e3, p3⟩ := mulU (ty := ⟨false, 32⟩) rfl y (val false (b.at_ 3))
  refine ⟨z, ?_, ?_⟩
  · unfold mul4
    rw [hl, hl, hl, hl]
    exact (bind_of e1 _).trans ((bind_of e2 _).trans e3)
  · rw [p3, p2, p1, hv, hv, hv, hv, Mon.big_four]; rfl

theorem mul4S (b : Vec 32 4) {A : Nat → Nat} (hA : ∀ i, 1 ≤ A i) (hb : ∀ i, i < 4 → (val true (b.at_ i)).natAbs ≤ A i)
    (hf : Mon.natMul.big A 4 < 2 ^ 31) :
    ∃ v, mul4 true b = some ⟨⟨true, 32⟩, v⟩ ∧ BitVec.ofInt 32 v = Mon.mul.big b.at_ 4 ∧ v.natAbs ≤ Mon.natMul.big A 4 := by
  have hl : ∀ i, C.lane true (b.at_ i) = ⟨⟨true, 32⟩, val true (b.at_ i)⟩ := fun i => rfl
  have hv : ∀ i, BitVec.ofInt 32 (val true (b.at_ i)) = b.at_ i := fun i => by
    show E true 32 _ = _
    rw [E_trunc _ (Nat.le_refl _)]; exact BitVec.setWidth_eq _
  have m2 := big_mono hA (k := 2) (l := 4) (by decide)
  have m3 := big_mono hA (k := 3) (l := 4) (by decide)
  have p1 := big_pos hA 1
  have p2 := big_pos hA 2
  have p3 := big_pos hA 3
  have h1 : (val true (b.at_ 0)).natAbs ≤ Mon.natMul.big A 1 := by rw [Mon.big_one]; exact hb 0 (by decide)
  obtain ⟨e1, q1⟩ := mulS (ty := ⟨true, 32⟩) rfl h1 (hb 1 (by decide)) p1 (hA 1) (Nat.lt_of_le_of_lt m2 hf)
  obtain ⟨e2, q2⟩ := mulS (ty := ⟨true, 32⟩) rfl q1 (hb 2 (by decide)) p2 (hA 2) (Nat.lt_of_le_of_lt m3 hf)
  obtain ⟨e3, q3⟩ := mulS (ty := ⟨true, 32⟩) rfl q2 (hb 3 (by decide)) p3 (hA 3) hf
  refine ⟨_, ?_, ?_, q3⟩
  · unfold mul4
    rw [hl, hl, hl, hl]
    exact (bind_of e1 _).trans ((bind_of e2 _).trans e3)
  · rw [ofInt_mul32, ofInt_mul32, ofInt_mul32, hv, hv, hv, hv, Mon.big_four]; rfl

theorem pairs_mag (a : Vec 16 8) {i : Nat} (hi : i < 4) :
    (val true ((pairsOf true 4 a).at_ i)).natAbs ≤ mag (a.at_ (2 * i)) * mag (a.at_ (2 * i + 1)) := by
  rw [Vec.at_lt _ hi]
  show (val true (Hw.mulLane true 32 _ _)).natAbs ≤ _
  rw [val_mulLane true (by decide) (by decide), Int.natAbs_mul]
  exact Nat.mul_le_mul (Nat.le_max_right _ _) (Nat.le_max_right _ _)

/-- One AltiVec register of 16-bit lanes. -/
theorem alt16 (h : c.Ok) (sg : Bool) (a : Vec 16 8) (hf : sg = true → magTot a < 2 ^ 31) :
    ∃ v, (altPairs c sg a).bind (mul4 sg) = some ⟨⟨sg, 32⟩, v⟩ ∧ BitVec.ofInt 32 v = ptot sg a ∧ (sg = true → v.natAbs ≤ magTot a) := by
  cases sg
  · obtain ⟨v, e, p⟩ := mul4U (pairsOf false 4 a)
    exact ⟨v, (bind_of (altPairs_eq h false a) _).trans e, p.trans (pairsOf_ptot false (by rfl) a), by simp⟩
  · have hm : Mon.natMul.big (fun i => mag (a.at_ (2 * i)) * mag (a.at_ (2 * i + 1))) 4 = magTot a :=
      Mon.natMul.big_pairs (fun i => mag (a.at_ i)) 4
    obtain ⟨v, e, p, q⟩ := mul4S (pairsOf true 4 a) (A := fun i => mag (a.at_ (2 * i)) * mag (a.at_ (2 * i + 1)))
      (fun i => Nat.mul_pos (mag_pos _) (mag_pos _)) (fun i hi => pairs_mag a hi) (by rw [hm]; exact hf rfl)
    exact ⟨v, (bind_of (altPairs_eq h true a) _).trans e, p.trans (pairsOf_ptot true (by rfl) a), fun _ => by rw [← hm]; exact q⟩

theorem mulRegs_of {t : Bool} {f : Nat → Option C.Val} {K : Nat} (hK : 0 < K) (g : Nat → BitVec 32) (A : Nat → Nat) (hA : ∀ i, 1 ≤ A i)
    (hf : ∀ j, j < K → ∃ v, f j = some ⟨⟨t, 32⟩, v⟩ ∧ BitVec.ofInt 32 v = g j ∧ (t = true → v.natAbs ≤ A j))
    (hb : t = true → Mon.natMul.big A K < 2 ^ 31) : mulRegs t f K = some (Mon.mul.big g K) := by
  obtain ⟨v0, e0, p0, q0⟩ := hf 0 hK
  have hc : ∀ v : Int, (t = true → v.natAbs < 2 ^ 31) → ∃ v', C.cast ⟨t, 32⟩ ⟨⟨t, 32⟩, v⟩ = ⟨⟨t, 32⟩, v'⟩ ∧ BitVec.ofInt 32 v' = BitVec.ofInt 32 v ∧
      (t = true → v' = v) := by
    intro v hv
    refine ⟨C.wrap ⟨t, 32⟩ v, rfl, ofInt_wrap _ _ _, fun e => ?_⟩
    subst e
    have := hv rfl
    exact C.wrap_i32 (by omega) (by omega)
  have hle : ∀ j, j < K → t = true → A j < 2 ^ 31 := by
    intro j hj e
    refine Nat.lt_of_le_of_lt ?_ (hb e)
    refine Nat.le_trans ?_ (big_mono hA (k := j + 1) (by omega))
    rw [Mon.big_succ]; exact Nat.le_mul_of_pos_left _ (big_pos hA j)
  obtain ⟨w0, ew0, pw0, qw0⟩ := hc v0 (fun e => Nat.lt_of_le_of_lt (q0 e) (hle 0 hK e))
  obtain ⟨u, eu, v, ev, qv, _⟩ := loopM_inv (m := K - 1) (lo := 1)
    (body := fun j r => do
      let x ← f j
      (C.mul r (C.cast ⟨t, 32⟩ x)).map (C.cast ⟨t, 32⟩))
    (P := fun k r => ∃ v, r = ⟨⟨t, 32⟩, v⟩ ∧ BitVec.ofInt 32 v = Mon.mul.big g (1 + k) ∧ (t = true → v.natAbs ≤ Mon.natMul.big A (1 + k)))
    (s := ⟨⟨t, 32⟩, w0⟩) ⟨w0, rfl, by rw [pw0, p0]; exact (Mon.big_one _ _).symm, fun e => by rw [qw0 e]; exact Nat.le_trans (q0 e) (by rw [Mon.big_one])⟩ (by
      rintro k hk r ⟨v, rfl, pv, qv⟩
      obtain ⟨x, ex, px, qx⟩ := hf (1 + k) (by omega)
      obtain ⟨x', ex', px', qx'⟩ := hc x (fun e => Nat.lt_of_le_of_lt (qx e) (hle _ (by omega) e))
      cases t with
      | false =>
        obtain ⟨z, ez, pz⟩ := mulU (ty := ⟨false, 32⟩) rfl v x'
        refine ⟨_, (bind_of ex _).trans (by rw [ex', ez]; rfl), _, rfl, ?_, by simp⟩
        rw [ofInt_wrap, pz, pv, px', px, ← Nat.add_assoc, Mon.big_succ]; rfl
      | true =>
        have hx : x' = x := qx' rfl
        subst hx
        have hm := big_mono hA (k := 1 + k + 1) (l := K) (by omega)
        obtain ⟨ez, qz⟩ := mulS (ty := ⟨true, 32⟩) rfl (qv rfl) (qx rfl) (big_pos hA _) (hA _) (Nat.lt_of_le_of_lt hm (hb rfl))
        obtain ⟨z', ez', pz', qz'⟩ := hc (v * x') (fun _ => Nat.lt_of_le_of_lt qz (Nat.lt_of_le_of_lt hm (hb rfl)))
        refine ⟨_, (bind_of ex _).trans (by rw [ex', ez]; exact congrArg some ez'), _, rfl, ?_, fun _ => by rw [qz' rfl]; exact qz⟩
        rw [pz', ofInt_mul32, pv, px, ← Nat.add_assoc, Mon.big_succ]; rfl)
  unfold mulRegs
  refine (bind_of e0 _).trans ?_
  rw [ew0]
  refine (bind_of eu _).trans ?_
  rw [ev]
  show some (BitVec.ofInt 32 v) = _
  rw [qv, show 1 + (K - 1) = K by omega]

attribute [local irreducible] Mon.big ptot evp magTot

theorem evens128 (h : c.Ok) (a : Vec 32 4) : ∃ e : Vec 32 4, evens c .r128 a = some e ∧ evp e 2 = Mon.mul.big a.at_ 4 :=
  evens_eq h (r := .r128) rfl rfl a
theorem evens256 (h : c.Ok) (h2 : c.avx2 = true) (a : Vec 32 8) :
    ∃ e : Vec 32 8, evens c .r256 a = some e ∧ evp e 4 = Mon.mul.big a.at_ 8 := evens_eq h (r := .r256) h2 rfl a
theorem prod128 (h : c.Ok) (sg : Bool) (a : Vec 16 8) : prodPairs c sg .r128 a = some (pairsOf sg 4 a : Vec 32 4) :=
  prodPairs_eq h sg (r := .r128) rfl rfl a
theorem prod256 (h : c.Ok) (sg : Bool) (h2 : c.avx2 = true) (a : Vec 16 16) : prodPairs c sg .r256 a = some (pairsOf sg 8 a : Vec 32 8) :=
  prodPairs_eq h sg (r := .r256) h2 rfl a
theorem prod512 (h : c.Ok) (sg : Bool) (h2 : c.avx512f = true) (a : Vec 16 32) : prodPairs c sg .r512 a = some (pairsOf sg 16 a : Vec 32 16) :=
  prodPairs_eq h sg (r := .r512) h2 rfl a

theorem sse128 (h : c.Ok) (sg : Bool) (a : Vec 16 8) :
    ∃ x : Vec 32 4, (prodPairs c sg .r128 a).bind (evens c .r128) = some x ∧ evp x 2 = ptot sg a := by
  obtain ⟨e, he, hp⟩ := evens128 h (pairsOf sg 4 a)
  exact ⟨e, (bind_of (prod128 h sg a) _).trans he, hp.trans (pairsOf_ptot sg (by rfl) a)⟩

theorem sse256 (h : c.Ok) (sg : Bool) (h2 : c.avx2 = true) (a : Vec 16 16) :
    ∃ x : Vec 32 8, (prodPairs c sg .r256 a).bind (evens c .r256) = some x ∧ evp x 4 = ptot sg a := by
  obtain ⟨e, he, hp⟩ := evens256 h h2 (pairsOf sg 8 a)
  exact ⟨e, (bind_of (prod256 h sg h2 a) _).trans he, hp.trans (pairsOf_ptot sg (by rfl) a)⟩

/-! ## 32-bit lanes -/

theorem i_reduce_mul32_128_eq (h : c.Ok) (a : Vec 32 4) : i_reduce_mul32_128 c a = some (ptot false a) := by
  unfold i_reduce_mul32_128
  split_ifs with g1 g2 g3 g4
  · exact mulLoopU (Or.inr rfl) (by decide) a (by decide)
  · obtain ⟨e, he, hp⟩ := evens128 h a
    exact (bind_of he _).trans ((last128_eq h e).trans (congrArg some (hp.trans (ptot_self false a).symm)))
  · exact (mulTree_eq h false a).trans (congrArg some (ptot_self false a).symm)
  · obtain ⟨v, e, p⟩ := mul4U a
    rw [e]
    exact congrArg some (p.trans (ptot_self false a).symm)
  · exfalso; clear a; cfg_absurd h

theorem i_reduce_mul32_256_eq (h : c.Ok) (h2 : c.avx2 = true) (a : Vec 32 8) : i_reduce_mul32_256 c a = some (ptot false a) := by
  obtain ⟨e, he, hp⟩ := evens256 h h2 a
  exact (bind_of he _).trans ((last256_eq h e).trans (congrArg some (hp.trans (ptot_self false a).symm)))

theorem i_reduce_mul32_512_eq (h : c.Ok) (h5 : c.avx512f = true) (a : Vec 32 16) : i_reduce_mul32_512 c a = some (ptot false a) := by
  have h2 := h.avx512f h5
  refine (bind_of (i_mul_lo32_eq h (r := .r256) h2 rfl _ _) _).trans ?_
  refine (i_reduce_mul32_256_eq h h2 _).trans (congrArg some ?_)
  exact (ptot_self false _).trans ((halves_big Mon.mul (L := 8) a).trans (ptot_self false a).symm)

theorem reduce_mul32_eq (h : c.Ok) (hN : c.VLen 32 N) (hS : c.avx512f = true → c.single 32 N = true) (a : Vec 32 N) :
    reduce_mul32 c a = some (ptot false a) := by
  have hw : IsW 32 := by simp [IsW]
  unfold reduce_mul32
  by_cases h1 : c.single 32 N = true
  · rw [if_pos h1]
    obtain ⟨e, hr⟩ := VLen.one hw hN h1
    generalize c.regOf 32 N = r at e hr
    subst e
    cases r with
    | r128 => exact (i_reduce_mul32_128_eq h _).trans (congrArg some (part0_ptot false a))
    | r256 => exact (if_pos hr).trans ((i_reduce_mul32_256_eq h hr _).trans (congrArg some (part0_ptot false a)))
    | r512 => exact (if_pos hr).trans ((i_reduce_mul32_512_eq h hr _).trans (congrArg some (part0_ptot false a)))
  · rw [if_neg h1]
    obtain ⟨K, hK, hN'⟩ := VLen.arr hw hN (by simpa using h1)
    have hf : ¬ c.avx512f = true := fun g => h1 (hS g)
    have hL := lanes_pos hw (c.fast 32)
    have hpos : 0 < N := VLen.pos hw hN
    unfold i_reduce_mul32_arr
    by_cases g1 : c.null = true
    · rw [if_pos g1]; exact mulLoopU (Or.inr rfl) (by decide) a hpos
    rw [if_neg g1, if_neg hf]
    by_cases g2 : c.avx2 = true
    · rw [if_pos g2]
      have hfast : N = K * 8 := hN'.trans (congrArg (K * ·) (by rw [show c.fast 32 = .r256 by simp [Cfg.fast, Cfg.hasInt, hf, g2]]; rfl))
      rw [show N / 8 = K by omega]
      obtain ⟨acc, e, p⟩ := accE_eq (m := 4) (n := 8) (K := K) (by rfl) (get := fun j => evens c .r256 (Hw.part 8 j a))
        (fun j => ptot false (Hw.part 8 j a)) (fun j _ => by
          obtain ⟨x, e, p⟩ := evens256 h g2 (Hw.part 8 j a)
          exact ⟨x, e, p.trans (ptot_self _ _).symm⟩)
      exact (bind_of e _).trans ((last256_eq h acc).trans (congrArg some (p.trans (parts_ptot false hfast a))))
    rw [if_neg g2]
    have hfast : N = K * 4 := hN'.trans (congrArg (K * ·) (by rw [show c.fast 32 = .r128 by simp [Cfg.fast, Cfg.hasInt, hf, g2]]; rfl))
    rw [show N / 4 = K by omega]
    clear hN' hL
    split_ifs with g3 g4 g5
    · obtain ⟨acc, e, p⟩ := accE_eq (m := 2) (n := 4) (K := K) (by rfl) (get := fun j => evens c .r128 (Hw.part 4 j a))
        (fun j => ptot false (Hw.part 4 j a)) (fun j _ => by
          obtain ⟨x, e, p⟩ := evens128 h (Hw.part 4 j a)
          exact ⟨x, e, p.trans (ptot_self _ _).symm⟩)
      exact (bind_of e _).trans ((last128_eq h acc).trans (congrArg some (p.trans (parts_ptot false hfast a))))
    · obtain ⟨acc, e, p⟩ := accL_eq h (K := K) (get := fun j => some (Hw.part 4 j a))
        (fun j => ptot false (Hw.part 4 j a)) (fun j _ => ⟨_, rfl, (ptot_self _ _).symm⟩)
      exact (bind_of e _).trans ((mulTree_eq h false acc).trans (congrArg some (p.trans (parts_ptot false hfast a))))
    · refine (mulRegs_of (t := false) (K := K) (by omega) (fun j => ptot false (Hw.part 4 j a)) (fun _ => 1) (fun _ => Nat.le_refl _)
        (fun j _ => ?_) (by simp)).trans (congrArg some (parts_ptot false hfast a))
      obtain ⟨v, e, p⟩ := mul4U (Hw.part 4 j a)
      exact ⟨v, e, p.trans (ptot_self _ _).symm, by simp⟩
    · exfalso; clear a hN hS hfast; cfg_absurd h

/-! ## 16-bit lanes -/

/-- What `reduce_mul` of 16-bit lanes needs: no arrays under AVX-512BW; for `int16` on the portable backend (single vectors) and
on AltiVec the product is formed in `int32_t`, so it must not overflow. -/
def mul16Supported (c : Cfg) (sg : Bool) (a : Vec 16 N) : Prop :=
  (c.avx512bw = true → c.single 16 N = true) ∧
  (sg = true → (c.null = true ∧ c.single 16 N = true) ∨ c.altivec = true → (∏ i, max 1 (val true (a i)).natAbs) < 2 ^ 31)

theorem natBig_prod (f : Nat → Nat) (k : Nat) : Mon.natMul.big f k = ∏ i : Fin k, f i.val := by
  induction k with
  | zero => unfold Mon.big; rfl
  | succ k ih => rw [Mon.big_succ, Fin.prod_univ_castSucc, ih]; rfl

theorem magTot_prod (a : Vec w n) : magTot a = ∏ i, max 1 (val true (a i)).natAbs := by
  unfold magTot
  rw [natBig_prod]
  exact Finset.prod_congr rfl fun i _ => by rw [Vec.at_fin]; rfl

theorem part0_magTot (a : Vec w n) : magTot (Hw.part n 0 a) = magTot a := by
  unfold magTot; exact Mon.big_congr _ fun i hi => by rw [part_at0 _ hi]

theorem parts_magTot {K L : Nat} (hN : N = K * L) (a : Vec w N) : Mon.natMul.big (fun j => magTot (Hw.part L j a)) K = magTot a := by
  subst hN
  unfold magTot
  refine (Mon.natMul.big_congr fun j _ => ?_).trans (Mon.natMul.big_rows (fun i => mag (a.at_ i)) K L)
  exact Mon.natMul.big_congr fun i hi => by rw [Hw.part_at _ hi]

theorem magTot_pos (a : Vec w n) : 1 ≤ magTot a := by unfold magTot; exact big_pos (fun i => mag_pos _) n

theorem i_reduce_mul16_128_eq (h : c.Ok) (sg : Bool) (a : Vec 16 8)
    (hS : sg = true → c.null = true ∨ c.altivec = true → magTot a < 2 ^ 31) : i_reduce_mul16_128 c sg a = some (ptot sg a) := by
  unfold i_reduce_mul16_128
  split_ifs with g1 g2 g3 g4 g5
  · cases sg
    · exact mulLoopU (Or.inl rfl) (by decide) a (by decide)
    · exact mulLoopS a (by decide) (hS rfl (Or.inl g1))
  · obtain ⟨e, he, hp⟩ := evens128 h (pairsOf sg 4 a)
    exact (bind_of (prod128 h sg a) _).trans
      ((bind_of he _).trans ((last128_eq h e).trans (congrArg some (hp.trans (pairsOf_ptot sg (by rfl) a)))))
  · exact (mulTree_eq h sg _).trans (congrArg some (vmull_ptot sg a))
  · obtain ⟨v, e, p, _⟩ := alt16 h sg a (fun e => hS e (Or.inr g4))
    have : (do let r ← altPairs c sg a; (mul4 sg r).map (C.toLane 32)) = ((altPairs c sg a).bind (mul4 sg)).map (C.toLane 32) := by
      cases altPairs c sg a <;> rfl
    rw [this, e]
    exact congrArg some p
  · obtain ⟨x, e, p⟩ := msaPairs_eq h sg a
    exact (bind_of e _).trans ((mulTree_eq h sg x).trans (congrArg some p))
  · exfalso; clear hS a; cfg_absurd h

theorem hasInt32_of16 (h : c.Ok) {r : Reg} (hr : c.hasInt 16 r = true) : c.hasInt 32 r = true := by
  have := h.avx512bw
  cases r with
  | r128 => rfl
  | r256 => exact hr
  | r512 => exact this hr

theorem reduce_mul16_arr_eq (h : c.Ok) (sg : Bool) {K : Nat} (hK : 2 ≤ K) (hN : N = K * (c.fast 16).lanes 16)
    (hbw : ¬ c.avx512bw = true) (a : Vec 16 N) (hS : sg = true → c.altivec = true → magTot a < 2 ^ 31) :
    i_reduce_mul16_arr c sg a = some (ptot sg a) := by
  have hw : IsW 16 := by simp [IsW]
  have hL := lanes_pos hw (c.fast 16)
  have hpos : 0 < N := by rw [hN]; exact Nat.mul_pos (by omega) hL
  unfold i_reduce_mul16_arr
  by_cases g1 : c.null = true
  · rw [if_pos g1]; exact mulLoopU (Or.inl rfl) (by decide) a hpos
  rw [if_neg g1, if_neg hbw]
  by_cases g2 : c.avx2 = true
  · rw [if_pos g2]
    have hfast : N = K * 16 := hN.trans (congrArg (K * ·) (by rw [show c.fast 16 = .r256 by simp [Cfg.fast, Cfg.hasInt, hbw, g2]]; rfl))
    rw [show N / 16 = K by omega]
    obtain ⟨acc, e, p⟩ := accE_eq (m := 4) (n := 8) (K := K) (by rfl)
      (get := fun j => (prodPairs c sg .r256 (Hw.part 16 j a)).bind (evens c .r256))
      (fun j => ptot sg (Hw.part 16 j a)) (fun j _ => sse256 h sg g2 _)
    have hb : (fun j (prod : Vec 32 8) => do
        let p ← prodPairs c sg .r256 (Hw.part 16 j a)
        let p ← evens c .r256 p
        some (mulE prod p)) = (fun j prod => do
        let ra ← (prodPairs c sg .r256 (Hw.part 16 j a)).bind (evens c .r256)
        some (mulE prod ra)) := by
      funext j prod; cases prodPairs c sg .r256 (Hw.part 16 j a) <;> rfl
    refine Eq.trans ?_ ((bind_of e (last256 c)).trans ((last256_eq h acc).trans (congrArg some (p.trans (parts_ptot sg hfast a)))))
    exact congrArg (fun b => (loopM b 0 K (Vec.splat 1)).bind (last256 c)) hb
  rw [if_neg g2]
  have hfast : N = K * 8 := hN.trans (congrArg (K * ·) (by rw [show c.fast 16 = .r128 by simp [Cfg.fast, Cfg.hasInt, hbw, g2]]; rfl))
  rw [show N / 8 = K by omega]
  clear hN hL
  split_ifs with g3 g4 g5 g6
  · obtain ⟨acc, e, p⟩ := accE_eq (m := 2) (n := 4) (K := K) (by rfl)
      (get := fun j => (prodPairs c sg .r128 (Hw.part 8 j a)).bind (evens c .r128))
      (fun j => ptot sg (Hw.part 8 j a)) (fun j _ => sse128 h sg _)
    have hb : (fun j (prod : Vec 32 4) => do
        let p ← prodPairs c sg .r128 (Hw.part 8 j a)
        let p ← evens c .r128 p
        some (mulE prod p)) = (fun j prod => do
        let ra ← (prodPairs c sg .r128 (Hw.part 8 j a)).bind (evens c .r128)
        some (mulE prod ra)) := by
      funext j prod; cases prodPairs c sg .r128 (Hw.part 8 j a) <;> rfl
    refine Eq.trans ?_ ((bind_of e (last128 c)).trans ((last128_eq h acc).trans (congrArg some (p.trans (parts_ptot sg hfast a)))))
    exact congrArg (fun b => (loopM b 0 K (Vec.splat 1)).bind (last128 c)) hb
  · obtain ⟨acc, e, p⟩ := accL_eq h (K := K)
      (get := fun j => some (Hw.vmull sg 32 (Hw.part 4 0 (Hw.part 8 j a)) (Hw.part 4 1 (Hw.part 8 j a))))
      (fun j => ptot sg (Hw.part 8 j a)) (fun j _ => ⟨_, rfl, vmull_ptot sg _⟩)
    exact (bind_of e _).trans ((mulTree_eq h sg acc).trans (congrArg some (p.trans (parts_ptot sg hfast a))))
  · refine (mulRegs_of (t := sg) (K := K) (by omega) (fun j => ptot sg (Hw.part 8 j a)) (fun j => magTot (Hw.part 8 j a)) (fun _ => magTot_pos _)
      (fun j hj => alt16 h sg _ (fun e => ?_)) (fun e => by rw [parts_magTot hfast]; exact hS e g5)).trans (congrArg some (parts_ptot sg hfast a))
    refine Nat.lt_of_le_of_lt ?_ (hS e g5)
    rw [← parts_magTot hfast a]
    have hA : ∀ j, 1 ≤ magTot (Hw.part 8 j a) := fun j => magTot_pos _
    refine Nat.le_trans ?_ (big_mono hA (k := j + 1) (by omega))
    rw [Mon.big_succ]; exact Nat.le_mul_of_pos_left _ (big_pos hA j)
  · obtain ⟨acc, e, p⟩ := accL_eq h (K := K) (get := fun j => msaPairs c sg (Hw.part 8 j a))
      (fun j => ptot sg (Hw.part 8 j a)) (fun j _ => msaPairs_eq h sg _)
    exact (bind_of e _).trans ((mulTree_eq h sg acc).trans (congrArg some (p.trans (parts_ptot sg hfast a))))
  · exfalso; clear hS a hfast; cfg_absurd h

theorem reduce_mul16_eq (h : c.Ok) (sg : Bool) (hN : c.VLen 16 N) (a : Vec 16 N) (hS : mul16Supported c sg a) :
    reduce_mul16 c sg a = some (ptot sg a) := by
  have hw : IsW 16 := by simp [IsW]
  obtain ⟨hS1, hS2⟩ := hS
  rw [← magTot_prod] at hS2
  unfold reduce_mul16
  by_cases h1 : c.single 16 N = true
  · rw [if_pos h1]
    obtain ⟨e, hr⟩ := VLen.one hw hN h1
    have hS3 : sg = true → c.null = true ∨ c.altivec = true → magTot a < 2 ^ 31 := fun e g => hS2 e (g.imp (fun g => ⟨g, h1⟩) id)
    clear hS2 hS1 h1
    generalize c.regOf 16 N = r at e hr
    subst e
    cases r with
    | r128 => exact (i_reduce_mul16_128_eq h sg _ (fun e g => by rw [← part0_magTot] at hS3; exact hS3 e g)).trans (congrArg some (part0_ptot sg a))
    | r256 =>
      refine (if_pos hr).trans ?_
      refine (bind_of (prod256 h sg hr _) _).trans ?_
      obtain ⟨e, he, hp⟩ := evens256 h hr (pairsOf sg 8 (Hw.part 16 0 a))
      exact (bind_of he _).trans ((last256_eq h e).trans (congrArg some (hp.trans ((pairsOf_ptot sg (by rfl) _).trans (part0_ptot sg a)))))
    | r512 =>
      refine (if_pos hr).trans ?_
      have h32 : c.hasInt 32 .r512 = true := hasInt32_of16 h hr
      refine (bind_of (prod512 h sg h32 _) _).trans ?_
      have hs : c.single 32 16 = true := by
        have hf := h.avx512bw hr
        have := h.avx512f hf
        simp [Cfg.single, Cfg.regOf, Cfg.hasInt, Reg.lanes, Reg.bits, hf]
      refine (reduce_mul32_eq h (N := 16) (Or.inl ⟨.r512, h32, rfl⟩) (fun _ => hs) _).trans (congrArg some ?_)
      exact (ptot_self false _).trans ((pairsOf_ptot sg (by rfl) _).trans (part0_ptot sg a))
  · rw [if_neg h1]
    obtain ⟨K, hK, hN'⟩ := VLen.arr hw hN (by simpa using h1)
    exact reduce_mul16_arr_eq h sg hK hN' (fun g => h1 (hS1 g)) a (fun e g => hS2 e (Or.inr g))

/-! ## the properties -/

theorem ptot_prod (sg : Bool) (a : Vec w n) : ptot sg a = Spec.lane 32 (∏ i, val sg (a i)) := by
  have key : ∀ k (f : Nat → BitVec w), Mon.mul.big (fun i => E sg 32 (f i)) k = BitVec.ofInt 32 (∏ i : Fin k, val sg (f i.val)) := by
    intro k f
    induction k with
    | zero => unfold Mon.big; rfl
    | succ k ih => rw [Mon.big_succ, ih, Fin.prod_univ_castSucc, ofInt_mul32]; rfl
  unfold ptot
  rw [key]
  simp only [Vec.at_fin]; rfl

/-- C16 (`reduce_mul` of 16-bit lanes): the product of the lanes, modulo `2^32`. -/
theorem C16_reduce_mul16 (h : c.Ok) (sg : Bool) (hN : c.VLen 16 N) (a : Vec 16 N) (hS : mul16Supported c sg a) :
    reduce_mul16 c sg a = some (Spec.lane 32 (∏ i, val sg (a i))) :=
  (reduce_mul16_eq h sg hN a hS).trans (congrArg some (ptot_prod sg a))

/-- C16 (`reduce_mul` of 32-bit lanes): the product of the lanes, modulo `2^32`. -/
theorem C16_reduce_mul32 (h : c.Ok) (sg : Bool) (hN : c.VLen 32 N) (hS : c.avx512f = true → c.single 32 N = true) (a : Vec 32 N) :
    reduce_mul32 c a = some (Spec.lane 32 (∏ i, val sg (a i))) := by
  refine (reduce_mul32_eq h hN hS a).trans (congrArg some ?_)
  rw [← ptot_prod sg a, ptot_self, ptot_self]

/-- Arrays of 32-bit lanes do not compile under AVX-512F. -/
theorem C16_reduce_mul32_rejects (h : c.Ok) (hf : c.avx512f = true) (hs : c.single 32 N = false) (a : Vec 32 N) :
    reduce_mul32 c a = none := by
  have hn : c.null = false := by
    obtain ⟨o1, o2, o3, o4, o5, o6, o7, o8, o9, o10, o11, o12, o13, o14, o15, o16, o17, o18, o19⟩ := h; grind
  unfold reduce_mul32
  simp [hs, hn, i_reduce_mul32_arr, hf]

/-- The overflow condition is real: eight lanes of 32767 overflow the portable `int32_t` product. -/
theorem C16_reduce_mul16_ub : reduce_mul16 Cfg.portable true (Vec.splat 32767 : Vec 16 8) = none := by decide +kernel

theorem mulE_ones (hn : n = 2 * m) (a b : Vec 32 n) {i : Nat} (hi : i < m) (ha : a.at_ (2 * i) = 1) (hb : b.at_ (2 * i) = 1) :
    (mulE a b).at_ (2 * i) = 1 ∧ (mulE a b).at_ (2 * i + 1) = 0 := by
  refine ⟨by rw [mulE_at hn a b hi, ha, hb]; rfl, ?_⟩
  unfold mulE
  have hm : n / 2 = m := by omega
  rw [hm]
  have := recast_at (v := 32) (q := 2) (m := n) (by decide) (by decide) rfl (by omega)
    (Hw.mul_ep32 false (a.recast 64 m : Vec 64 m) (b.recast 64 m)) (2 * i + 1)
  rw [show (2 * i + 1) / 2 = i by omega, show (2 * i + 1) % 2 = 1 by omega] at this
  rw [this, Vec.at_lt _ hi]
  have e1 := lowE64 hn a i
  have e2 := lowE64 hn b i
  rw [Vec.at_lt _ hi] at e1 e2
  show (Hw.mulLane false 64 (((a.recast 64 m : Vec 64 m) ⟨i, hi⟩).setWidth 32) (((b.recast 64 m : Vec 64 m) ⟨i, hi⟩).setWidth 32)).extractLsb' (1 * 32) 32 = 0
  rw [e1, e2, ha, hb]
  decide

theorem mul_big_zero {f : Nat → BitVec 32} {k i : Nat} (hi : i < k) (h : f i = 0) : Mon.mul.big f k = 0 := by
  induction k with
  | zero => omega
  | succ k ih =>
    rw [Mon.big_succ]
    show Mon.mul.big f k * f k = 0
    by_cases e : i = k
    · rw [← e, h]; simp
    · rw [ih (by omega)]; simp

/-- AVX-512BW, arrays of 16-bit lanes of any length: the accumulator keeps the high halves of 64-bit products in its odd lanes and
the last step multiplies all lanes, so the product of ones is returned as zero. -/
theorem C16_reduce_mul16_broken (h : c.Ok) (hbw : c.avx512bw = true) (sg : Bool) {K : Nat} (hK : 2 ≤ K) :
    reduce_mul16 c sg (Vec.splat 1 : Vec 16 (K * 32)) = some 0 := by
  have hf := h.avx512bw hbw
  have hn : ¬ c.null = true := by
    obtain ⟨o1, o2, o3, o4, o5, o6, o7, o8, o9, o10, o11, o12, o13, o14, o15, o16, o17, o18, o19⟩ := h; grind
  have hs : ¬ c.single 16 (K * 32) = true := by
    intro g
    have g' : K * 32 = (c.regOf 16 (K * 32)).lanes 16 := by simpa [Cfg.single] using g
    have : ∀ r : Reg, r.lanes 16 ≤ 32 := by intro r; cases r <;> decide
    have := this (c.regOf 16 (K * 32))
    omega
  unfold reduce_mul16
  rw [if_neg hs]
  unfold i_reduce_mul16_arr
  rw [if_neg hn, if_pos hbw, Nat.mul_div_cancel _ (by decide : 0 < 32)]
  have hp : ∀ j, j < K → ∀ i, i < 16 → (pairsOf sg 16 (Hw.part 32 j (Vec.splat 1 : Vec 16 (K * 32)))).at_ i = 1 := by
    intro j hj i hi
    rw [Vec.at_lt _ hi]
    show Hw.mulLane sg 32 ((Hw.part 32 j (Vec.splat 1 : Vec 16 (K * 32))).at_ (2 * i)) ((Hw.part 32 j (Vec.splat 1 : Vec 16 (K * 32))).at_ (2 * i + 1)) = 1
    rw [Hw.part_at _ (show 2 * i < 32 by omega), Hw.part_at _ (show 2 * i + 1 < 32 by omega), Vec.at_lt _ (by omega), Vec.at_lt _ (by omega)]
    show Hw.mulLane sg 32 (1 : BitVec 16) 1 = 1
    cases sg <;> decide
  obtain ⟨acc, e, p⟩ := loopM_inv (lo := 0) (m := K) (body := fun j (prod : Vec 32 16) => do
      let p ← prodPairs c sg .r512 (Hw.part 32 j (Vec.splat 1 : Vec 16 (K * 32)))
      let p ← evens c .r512 p
      some (mulE prod p)) (P := fun k acc => acc.at_ 0 = 1 ∧ (0 < k → acc.at_ 1 = 0)) (s := Vec.splat 1) ⟨rfl, by omega⟩ (by
    intro j hj t ht
    have e1 : moveL c .r512 1 (pairsOf sg 16 (Hw.part 32 j (Vec.splat 1 : Vec 16 (K * 32)))) = some (gather 4 (fun j => j + 1) _ (Vec.splat 0)) :=
      (moveWrap_mid (by decide) (by decide)).trans
        (i_move_l_eq (w := 32) (n := 16) (k := .int) (r := .r512) h (by simp [Kind.okW, IsW]) (by decide) (by decide) hf rfl _)
    have he : evens c .r512 (pairsOf sg 16 (Hw.part 32 j (Vec.splat 1 : Vec 16 (K * 32)))) = _ := bind_of e1 _
    rw [Nat.zero_add]
    refine ⟨_, (bind_of (prod512 h sg hf _) _).trans (bind_of he _), ?_⟩
    have h1 := mulE_ones (m := 8) (i := 0) (by rfl) (pairsOf sg 16 (Hw.part 32 j (Vec.splat 1 : Vec 16 (K * 32))))
      (gather 4 (fun j => j + 1) (pairsOf sg 16 (Hw.part 32 j (Vec.splat 1 : Vec 16 (K * 32)))) (Vec.splat 0)) (by decide)
      (hp j hj 0 (by decide)) (by rw [gather_at _ _ (by decide), if_pos (by decide)]; exact hp j hj 1 (by decide))
    have h2 := mulE_ones (m := 8) (i := 0) (by rfl) t _ (by decide) ht.1 h1.1
    exact ⟨h2.1, fun _ => h2.2⟩)
  refine (bind_of e _).trans ?_
  have h16 : c.single 32 16 = true := by
    have := h.avx512f hf
    simp [Cfg.single, Cfg.regOf, Cfg.hasInt, Reg.lanes, Reg.bits, hf]
  refine (reduce_mul32_eq h (N := 16) (Or.inl ⟨.r512, hf, rfl⟩) (fun _ => h16) acc).trans (congrArg some ?_)
  rw [ptot_self]
  exact mul_big_zero (i := 1) (by decide) (p.2 (by omega))

/-! ## the hypotheses are met -/

example : mul16Supported Cfg.portable true (Vec.splat 14 : Vec 16 8) := ⟨by decide, fun _ _ => by decide⟩
example : reduce_mul16 Cfg.sse2Only true (Vec.splat (-3) : Vec 16 32) = some (Spec.lane 32 (∏ _i : Fin 32, (-3))) :=
  C16_reduce_mul16 Cfg.sse2Only_ok true (Or.inr ⟨4, by decide, rfl⟩) _ ⟨by decide, fun _ h => by revert h; decide⟩
example : reduce_mul32 Cfg.neonA64 (Vec.splat 3 : Vec 32 8) = some (Spec.lane 32 (∏ _i : Fin 8, 3)) :=
  C16_reduce_mul32 Cfg.neonA64_ok false (Or.inr ⟨2, by decide, rfl⟩) (by decide) _

example (sg : Bool) : reduce_mul16 Cfg.avx512All sg (Vec.splat 1 : Vec 16 64) = some 0 :=
  C16_reduce_mul16_broken Cfg.avx512All_ok rfl sg (K := 2) (by decide)

end Simdpp
