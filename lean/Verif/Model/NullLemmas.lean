import Verif.Model.Null
import Verif.Spec.Int

/-! Evaluation of the portable backend's lane expressions. -/

namespace Simdpp
open C Spec

theorem toNat_lt8 (x : BitVec 8) : (x.toNat : Int) < 256 := by have := x.isLt; omega
theorem toNat_lt16 (x : BitVec 16) : (x.toNat : Int) < 65536 := by have := x.isLt; omega
theorem toNat_lt32 (x : BitVec 32) : (x.toNat : Int) < 4294967296 := by have := x.isLt; omega
theorem toNat_lt64 (x : BitVec 64) : (x.toNat : Int) < 18446744073709551616 := by
  have := x.isLt; omega

theorem nullAdd_lane {w} (hw : IsW w) (x y : BitVec w) :
    (C.add (lane false x) (lane false y)).map (toLane w) = some (x + y) := by
  rcases hw with rfl | rfl | rfl | rfl
  · have := toNat_lt8 x; have := toNat_lt8 y
    show Option.map _ (arith int32 (wrap int32 (x.toNat:Int) + wrap int32 (y.toNat:Int))) = _
    rw [wrap_i32 (by omega) (by omega), wrap_i32 (by omega) (by omega), arith_i32 (by omega) (by omega)]
    simp [toLane, BitVec.ofInt_add]
  · have := toNat_lt16 x; have := toNat_lt16 y
    show Option.map _ (arith int32 (wrap int32 (x.toNat:Int) + wrap int32 (y.toNat:Int))) = _
    rw [wrap_i32 (by omega) (by omega), wrap_i32 (by omega) (by omega), arith_i32 (by omega) (by omega)]
    simp [toLane, BitVec.ofInt_add]
  · have := toNat_lt32 x; have := toNat_lt32 y
    show Option.map _ (arith uint32 (wrap uint32 (x.toNat:Int) + wrap uint32 (y.toNat:Int))) = _
    rw [wrap_u32 (by omega) (by omega), wrap_u32 (by omega) (by omega), arith_u32]
    simp [toLane, BitVec.ofInt_add, ofInt_emod_32]
  · have := toNat_lt64 x; have := toNat_lt64 y
    show Option.map _ (arith uint64 (wrap uint64 (x.toNat:Int) + wrap uint64 (y.toNat:Int))) = _
    rw [wrap_u64 (by omega) (by omega), wrap_u64 (by omega) (by omega), arith_u64]
    simp [toLane, BitVec.ofInt_add, ofInt_emod_64]

theorem ofInt_sub' (w : Nat) (x y : BitVec w) :
    BitVec.ofInt w ((x.toNat : Int) - (y.toNat : Int)) = x - y := by
  rw [Int.sub_eq_add_neg, BitVec.ofInt_add, BitVec.ofInt_neg, ofInt_toNat, ofInt_toNat, BitVec.sub_eq_add_neg]

theorem nullSub_lane {w} (hw : IsW w) (x y : BitVec w) :
    (C.sub (lane false x) (lane false y)).map (toLane w) = some (x - y) := by
  rcases hw with rfl | rfl | rfl | rfl
  · have := toNat_lt8 x; have := toNat_lt8 y
    show Option.map _ (arith int32 (wrap int32 (x.toNat:Int) - wrap int32 (y.toNat:Int))) = _
    rw [wrap_i32 (by omega) (by omega), wrap_i32 (by omega) (by omega), arith_i32 (by omega) (by omega)]
    simp [toLane, ofInt_sub']
  · have := toNat_lt16 x; have := toNat_lt16 y
    show Option.map _ (arith int32 (wrap int32 (x.toNat:Int) - wrap int32 (y.toNat:Int))) = _
    rw [wrap_i32 (by omega) (by omega), wrap_i32 (by omega) (by omega), arith_i32 (by omega) (by omega)]
    simp [toLane, ofInt_sub']
  · have := toNat_lt32 x; have := toNat_lt32 y
    show Option.map _ (arith uint32 (wrap uint32 (x.toNat:Int) - wrap uint32 (y.toNat:Int))) = _
    rw [wrap_u32 (by omega) (by omega), wrap_u32 (by omega) (by omega), arith_u32]
    simp [toLane, ofInt_emod_32, ofInt_sub']
  · have := toNat_lt64 x; have := toNat_lt64 y
    show Option.map _ (arith uint64 (wrap uint64 (x.toNat:Int) - wrap uint64 (y.toNat:Int))) = _
    rw [wrap_u64 (by omega) (by omega), wrap_u64 (by omega) (by omega), arith_u64]
    simp [toLane, ofInt_emod_64, ofInt_sub']

theorem Null.add_eq {w n} (hw : IsW w) (a b : Vec w n) :
    Null.add false a b = some (fun i => a i + b i) :=
  lanesM_eq_some.2 fun _ => nullAdd_lane hw _ _

theorem Null.sub_eq {w n} (hw : IsW w) (a b : Vec w n) :
    Null.sub false a b = some (fun i => a i - b i) :=
  lanesM_eq_some.2 fun _ => nullSub_lane hw _ _

/-! ### saturation -/

theorem saturate_eq (s : Bool) {w} (hw : w = 8 ∨ w = 16) (t : Int)
    (h1 : -2147483648 ≤ t) (h2 : t ≤ 2147483647) :
    toLane w (Null.saturate ⟨s, w⟩ ⟨int32, t⟩) = Spec.lane w (Spec.clamp s w t) := by
  have key : ∀ (T : Ty) (mn mx : Int), T.min = mn → T.max = mx → mn ≤ mx →
      -2147483648 ≤ mn → mx ≤ 2147483647 →
      Null.saturate T ⟨int32, t⟩ = cast T ⟨int32, if t < mn then mn else if mx < t then mx else t⟩ := by
    intro T mn mx hmn hmx hle hl hh
    have hc : ∀ z : Int, -2147483648 ≤ z → z ≤ 2147483647 → cast int32 ⟨T, z⟩ = ⟨int32, z⟩ := by
      intro z _ _; simp [C.cast, wrap_i32, *]
    have hlt : ∀ x y : Int, -2147483648 ≤ x → x ≤ 2147483647 → -2147483648 ≤ y → y ≤ 2147483647 →
        lt ⟨int32, x⟩ ⟨int32, y⟩ = decide (x < y) := by
      intro x y _ _ _ _
      show decide (wrap int32 x < wrap int32 y) = _
      rw [wrap_i32 (by omega) (by omega), wrap_i32 (by omega) (by omega)]
    unfold Null.saturate
    rw [hmn, hmx, hc mn (by omega) (by omega), hc mx (by omega) (by omega)]
    simp only [gt]
    rw [hlt t mn (by omega) (by omega) (by omega) (by omega)]
    by_cases c1 : t < mn
    · simp only [c1, decide_true, if_true]
      rw [hlt _ _ (by omega) (by omega) (by omega) (by omega)]
      have : ¬ mx < mn := by omega
      simp [this]
    · simp only [c1, decide_false, Bool.false_eq_true, if_false]
      rw [hlt _ _ (by omega) (by omega) (by omega) (by omega)]
      by_cases c2 : mx < t <;> simp [c2]
  rcases hw with rfl | rfl <;> cases s
  · rw [key ⟨false, 8⟩ 0 255 (by decide) (by decide) (by omega) (by omega) (by omega)]
    rw [C.cast, wrap_u8 (by dsimp only; split_ifs <;> omega) (by dsimp only; split_ifs <;> omega)]; rfl
  · rw [key ⟨true, 8⟩ (-128) 127 (by decide) (by decide) (by omega) (by omega) (by omega)]
    rw [C.cast, wrap_i8 (by dsimp only; split_ifs <;> omega) (by dsimp only; split_ifs <;> omega)]; rfl
  · rw [key ⟨false, 16⟩ 0 65535 (by decide) (by decide) (by omega) (by omega) (by omega)]
    rw [C.cast, wrap_u16 (by dsimp only; split_ifs <;> omega) (by dsimp only; split_ifs <;> omega)]; rfl
  · rw [key ⟨true, 16⟩ (-32768) 32767 (by decide) (by decide) (by omega) (by omega) (by omega)]
    rw [C.cast, wrap_i16 (by dsimp only; split_ifs <;> omega) (by dsimp only; split_ifs <;> omega)]; rfl

theorem val_bounds (s : Bool) {w} (hw : w = 8 ∨ w = 16) (x : BitVec w) :
    -32768 ≤ val s x ∧ val s x ≤ 65535 := by
  rcases hw with rfl | rfl <;> cases s
  · have := toNat_lt8 x; simp [val]; omega
  · have := toInt_bounds8 x; simp [val]; omega
  · have := toNat_lt16 x; simp [val]; omega
  · have := toInt_bounds16 x; simp [val]; omega

theorem small_add (s : Bool) {w} (hw : w = 8 ∨ w = 16) (x y : BitVec w) :
    C.add (cast int32 (lane s x)) (lane s y) = some ⟨int32, val s x + val s y⟩ := by
  have hx := val_bounds s hw x; have hy := val_bounds s hw y
  have h1 : (cast int32 (lane s x)) = ⟨int32, val s x⟩ := by
    show (⟨int32, wrap int32 (val s x)⟩ : Val) = _
    rw [wrap_i32 (by omega) (by omega)]
  have hu : usual int32 ⟨s, w⟩ = int32 := by rcases hw with rfl | rfl <;> cases s <;> decide
  rw [h1]
  unfold C.add
  rw [C.lane_ty]; dsimp only; rw [hu]
  show arith int32 (wrap int32 (val s x) + wrap int32 (val s y)) = _
  rw [wrap_i32 (by omega) (by omega), wrap_i32 (by omega) (by omega), arith_i32 (by omega) (by omega)]

theorem small_sub (s : Bool) {w} (hw : w = 8 ∨ w = 16) (x y : BitVec w) :
    C.sub (cast int32 (lane s x)) (lane s y) = some ⟨int32, val s x - val s y⟩ := by
  have hx := val_bounds s hw x; have hy := val_bounds s hw y
  have h1 : (cast int32 (lane s x)) = ⟨int32, val s x⟩ := by
    show (⟨int32, wrap int32 (val s x)⟩ : Val) = _
    rw [wrap_i32 (by omega) (by omega)]
  have hu : usual int32 ⟨s, w⟩ = int32 := by rcases hw with rfl | rfl <;> cases s <;> decide
  rw [h1]
  unfold C.sub
  rw [C.lane_ty]; dsimp only; rw [hu]
  show arith int32 (wrap int32 (val s x) - wrap int32 (val s y)) = _
  rw [wrap_i32 (by omega) (by omega), wrap_i32 (by omega) (by omega), arith_i32 (by omega) (by omega)]

theorem Null.add_sat_eq (s : Bool) {w n} (hw : w = 8 ∨ w = 16) (a b : Vec w n) :
    Null.add_sat s a b = some (fun i => Spec.lane w (Spec.clamp s w (val s (a i) + val s (b i)))) :=
  lanesM_eq_some.2 fun i => by
    have hx := val_bounds s hw (a i); have hy := val_bounds s hw (b i)
    rw [small_add s hw, Option.map_some, saturate_eq s hw _ (by omega) (by omega)]

theorem Null.sub_sat_eq (s : Bool) {w n} (hw : w = 8 ∨ w = 16) (a b : Vec w n) :
    Null.sub_sat s a b = some (fun i => Spec.lane w (Spec.clamp s w (val s (a i) - val s (b i)))) :=
  lanesM_eq_some.2 fun i => by
    have hx := val_bounds s hw (a i); have hy := val_bounds s hw (b i)
    rw [small_sub s hw, Option.map_some, saturate_eq s hw _ (by omega) (by omega)]

/-! ### comparisons -/

theorem wrap_prom (s : Bool) {w} (hw : IsW w) (x : BitVec w) :
    wrap (usual ⟨s, w⟩ ⟨s, w⟩) (val s x) = val s x := by
  rcases hw with rfl | rfl | rfl | rfl <;> cases s
  · have := toNat_lt8 x; exact wrap_i32 (by unfold val; simp only [Bool.false_eq_true, if_false]; omega) (by simp [val]; omega)
  · have := toInt_bounds8 x; exact wrap_i32 (by simp [val]; omega) (by simp [val]; omega)
  · have := toNat_lt16 x; exact wrap_i32 (by unfold val; simp only [Bool.false_eq_true, if_false]; omega) (by simp [val]; omega)
  · have := toInt_bounds16 x; exact wrap_i32 (by simp [val]; omega) (by simp [val]; omega)
  · have := toNat_lt32 x; exact wrap_u32 (by simp [val]) (by simpa [val] using this)
  · have := toInt_bounds32 x; exact wrap_i32 (by simp [val]; omega) (by simp [val]; omega)
  · have := toNat_lt64 x; exact wrap_u64 (by simp [val]) (by simpa [val] using this)
  · have := toInt_bounds64 x; exact wrap_i64 (by simp [val]; omega) (by simp [val]; omega)

theorem clt_lane (s : Bool) {w} (hw : IsW w) (x y : BitVec w) :
    C.lt (lane s x) (lane s y) = decide (val s x < val s y) := by
  show decide (wrap (usual ⟨s, w⟩ ⟨s, w⟩) (val s x) < wrap (usual ⟨s, w⟩ ⟨s, w⟩) (val s y)) = _
  rw [wrap_prom s hw, wrap_prom s hw]

theorem cle_lane (s : Bool) {w} (hw : IsW w) (x y : BitVec w) :
    C.le (lane s x) (lane s y) = decide (val s x ≤ val s y) := by
  show decide (wrap (usual ⟨s, w⟩ ⟨s, w⟩) (val s x) ≤ wrap (usual ⟨s, w⟩ ⟨s, w⟩) (val s y)) = _
  rw [wrap_prom s hw, wrap_prom s hw]

theorem ceq_lane (s : Bool) {w} (hw : IsW w) (x y : BitVec w) :
    C.eq (lane s x) (lane s y) = decide (x = y) := by
  show decide (wrap (usual ⟨s, w⟩ ⟨s, w⟩) (val s x) = wrap (usual ⟨s, w⟩ ⟨s, w⟩) (val s y)) = _
  rw [wrap_prom s hw, wrap_prom s hw]; simp [val_inj]

theorem Null.cmp_eq_eq (s : Bool) {w n} (hw : IsW w) (a b : Vec w n) :
    Null.cmp_eq s a b = fun i => decide (a i = b i) := funext fun _ => ceq_lane s hw _ _
theorem Null.cmp_neq_eq (s : Bool) {w n} (hw : IsW w) (a b : Vec w n) :
    Null.cmp_neq s a b = fun i => decide (a i ≠ b i) :=
  funext fun _ => by unfold Null.cmp_neq; rw [ceq_lane s hw]; simp
theorem Null.cmp_lt_eq (s : Bool) {w n} (hw : IsW w) (a b : Vec w n) :
    Null.cmp_lt s a b = fun i => decide (val s (a i) < val s (b i)) := funext fun _ => clt_lane s hw _ _
theorem Null.cmp_le_eq (s : Bool) {w n} (hw : IsW w) (a b : Vec w n) :
    Null.cmp_le s a b = fun i => decide (val s (a i) ≤ val s (b i)) := funext fun _ => cle_lane s hw _ _
theorem Null.cmp_gt_eq (s : Bool) {w n} (hw : IsW w) (a b : Vec w n) :
    Null.cmp_gt s a b = fun i => decide (val s (b i) < val s (a i)) := funext fun _ => clt_lane s hw _ _
theorem Null.cmp_ge_eq (s : Bool) {w n} (hw : IsW w) (a b : Vec w n) :
    Null.cmp_ge s a b = fun i => decide (val s (b i) ≤ val s (a i)) := funext fun _ => cle_lane s hw _ _

theorem Null.min_eq (s : Bool) {w n} (hw : IsW w) (a b : Vec w n) :
    Null.min s a b = fun i => if val s (a i) ≤ val s (b i) then a i else b i :=
  funext fun _ => by unfold Null.min; rw [cle_lane s hw]; simp
theorem Null.max_eq (s : Bool) {w n} (hw : IsW w) (a b : Vec w n) :
    Null.max s a b = fun i => if val s (b i) ≤ val s (a i) then a i else b i :=
  funext fun _ => by unfold Null.max C.ge; rw [cle_lane s hw]; simp

/-! ### bitwise -/

theorem bitsOf_nat {w} (x : BitVec w) (t : Ty) : bitsOf t (x.toNat : Int) = x.setWidth t.bits := by
  unfold bitsOf
  apply BitVec.eq_of_toNat_eq
  simp

theorem ofInt_emod_pow (w : Nat) (z : Int) : BitVec.ofInt w (z % 2 ^ w) = BitVec.ofInt w z := by
  apply BitVec.eq_of_toNat_eq
  rw [BitVec.toNat_ofInt, BitVec.toNat_ofInt]
  congr 1
  have e : ((2 ^ w : Nat) : Int) = 2 ^ w := by push_cast; rfl
  rw [e, Int.emod_emod]

theorem toLane_valOf {w} (t : Ty) (hb : w ≤ t.bits) (b : BitVec t.bits) :
    toLane w (C.cast ⟨false, w⟩ (valOf t b)) = b.setWidth w := by
  show BitVec.ofInt w (_ % 2 ^ w) = _
  rw [ofInt_emod_pow]
  unfold valOf
  dsimp only
  split_ifs
  · rw [← BitVec.signExtend_eq_setWidth_of_le _ hb]; rfl
  · apply BitVec.eq_of_toNat_eq; simp

theorem usual_bits {w} (hw : IsW w) : w ≤ (usual ⟨false, w⟩ ⟨false, w⟩).bits := by
  rcases hw with rfl | rfl | rfl | rfl <;> decide

theorem and_key {w} (x y : BitVec w) (t : Ty) (hb : w ≤ t.bits) :
    toLane w (C.cast ⟨false, w⟩ (valOf t (bitsOf t (x.toNat : Int) &&& bitsOf t (y.toNat : Int)))) = x &&& y := by
  rw [toLane_valOf _ hb, bitsOf_nat, bitsOf_nat]
  ext k hk
  have : k < t.bits := by omega
  simp only [BitVec.getElem_setWidth, BitVec.getLsbD_and, BitVec.getLsbD_or, BitVec.getLsbD_xor,
    BitVec.getLsbD_not, BitVec.getLsbD_setWidth, this, hk, decide_true, Bool.true_and,
    BitVec.getElem_and, BitVec.getElem_or, BitVec.getElem_xor, BitVec.getElem_not,
    BitVec.getLsbD_eq_getElem]

theorem or_key {w} (x y : BitVec w) (t : Ty) (hb : w ≤ t.bits) :
    toLane w (C.cast ⟨false, w⟩ (valOf t (bitsOf t (x.toNat : Int) ||| bitsOf t (y.toNat : Int)))) = x ||| y := by
  rw [toLane_valOf _ hb, bitsOf_nat, bitsOf_nat]
  ext k hk
  have : k < t.bits := by omega
  simp only [BitVec.getElem_setWidth, BitVec.getLsbD_and, BitVec.getLsbD_or, BitVec.getLsbD_xor,
    BitVec.getLsbD_not, BitVec.getLsbD_setWidth, this, hk, decide_true, Bool.true_and,
    BitVec.getElem_and, BitVec.getElem_or, BitVec.getElem_xor, BitVec.getElem_not,
    BitVec.getLsbD_eq_getElem]

theorem xor_key {w} (x y : BitVec w) (t : Ty) (hb : w ≤ t.bits) :
    toLane w (C.cast ⟨false, w⟩ (valOf t (bitsOf t (x.toNat : Int) ^^^ bitsOf t (y.toNat : Int)))) = x ^^^ y := by
  rw [toLane_valOf _ hb, bitsOf_nat, bitsOf_nat]
  ext k hk
  have : k < t.bits := by omega
  simp only [BitVec.getElem_setWidth, BitVec.getLsbD_and, BitVec.getLsbD_or, BitVec.getLsbD_xor,
    BitVec.getLsbD_not, BitVec.getLsbD_setWidth, this, hk, decide_true, Bool.true_and,
    BitVec.getElem_and, BitVec.getElem_or, BitVec.getElem_xor, BitVec.getElem_not,
    BitVec.getLsbD_eq_getElem]

theorem bitsOf_valOf (t : Ty) (b : BitVec t.bits) : bitsOf t (valOf t b).v = b := by
  unfold bitsOf valOf
  cases t.signed <;> simp

theorem andnot_key {w} (x y : BitVec w) (t t' : Ty) (ht : t = t') (hb : w ≤ t.bits) :
    toLane w (C.cast ⟨false, w⟩ (valOf t (bitsOf t (x.toNat : Int) &&&
      bitsOf t (valOf t' (~~~ bitsOf t' (y.toNat : Int))).v))) = x &&& ~~~ y := by
  subst ht
  rw [toLane_valOf _ hb, bitsOf_valOf, bitsOf_nat, bitsOf_nat]
  ext k hk
  have : k < t.bits := by omega
  simp only [BitVec.getElem_setWidth, BitVec.getLsbD_and, BitVec.getLsbD_or, BitVec.getLsbD_xor,
    BitVec.getLsbD_not, BitVec.getLsbD_setWidth, this, hk, decide_true, Bool.true_and,
    BitVec.getElem_and, BitVec.getElem_or, BitVec.getElem_xor, BitVec.getElem_not,
    BitVec.getLsbD_eq_getElem]

theorem Null.bit_and_eq {w n} (hw : IsW w) (a b : Vec w n) :
    Null.bit_and a b = fun i => a i &&& b i := funext fun _ => and_key _ _ _ (usual_bits hw)

theorem Null.bit_or_eq {w n} (hw : IsW w) (a b : Vec w n) :
    Null.bit_or a b = fun i => a i ||| b i := funext fun _ => or_key _ _ _ (usual_bits hw)

theorem Null.bit_xor_eq {w n} (hw : IsW w) (a b : Vec w n) :
    Null.bit_xor a b = fun i => a i ^^^ b i := funext fun _ => xor_key _ _ _ (usual_bits hw)

theorem usual_prom {w} (hw : IsW w) : usual ⟨false, w⟩ (promTy ⟨false, w⟩) = promTy ⟨false, w⟩ := by
  rcases hw with rfl | rfl | rfl | rfl <;> decide

theorem Null.bit_andnot_eq {w n} (hw : IsW w) (a b : Vec w n) :
    Null.bit_andnot a b = fun i => a i &&& ~~~ (b i) :=
  funext fun _ => andnot_key _ _ _ _ (usual_prom hw)
    (by
      show w ≤ (usual ⟨false, w⟩ (promTy ⟨false, w⟩)).bits
      rcases hw with rfl | rfl | rfl | rfl <;> decide)

end Simdpp
