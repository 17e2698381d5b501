import Verif.Model.Vec

/-!
# Expression result types

The template metaprograms that choose the type of an expression from the types of its operands. A vector type is modelled by its
three constants `type_tag`, `size_tag`, `length_bytes`.
-/

namespace Simdpp.Expr

/-- The tags. Models /repo/simdpp/types/tag.h:72-80. -/
abbrev MASK_INT : Nat := 1
abbrev MASK_FLOAT : Nat := 2
abbrev INT : Nat := 3
abbrev UINT : Nat := 4
abbrev FLOAT : Nat := 5
abbrev SIZE8 : Nat := 10
abbrev SIZE16 : Nat := 20
abbrev SIZE32 : Nat := 30
abbrev SIZE64 : Nat := 40

/-- A vector type `V`, by the constants `V::type_tag`, `V::size_tag`, `V::length_bytes`.
Models the constants of /repo/simdpp/types/*.h (all vector classes define them). -/
structure VTy where
  tt : Nat
  st : Nat
  B : Nat
deriving DecidableEq, Repr

/-- `type_of_tag<Tag, B>::type`; `none` where the primary template is not specialised.
Models /repo/simdpp/detail/get_expr.h:37-53. -/
def typeOfTag (tag B : Nat) : Option VTy :=
  if tag = INT + SIZE8 then some ⟨INT, SIZE8, B⟩
  else if tag = INT + SIZE16 then some ⟨INT, SIZE16, B⟩
  else if tag = INT + SIZE32 then some ⟨INT, SIZE32, B⟩
  else if tag = INT + SIZE64 then some ⟨INT, SIZE64, B⟩
  else if tag = UINT + SIZE8 then some ⟨UINT, SIZE8, B⟩
  else if tag = UINT + SIZE16 then some ⟨UINT, SIZE16, B⟩
  else if tag = UINT + SIZE32 then some ⟨UINT, SIZE32, B⟩
  else if tag = UINT + SIZE64 then some ⟨UINT, SIZE64, B⟩
  else if tag = MASK_INT + SIZE8 then some ⟨MASK_INT, SIZE8, B⟩
  else if tag = MASK_INT + SIZE16 then some ⟨MASK_INT, SIZE16, B⟩
  else if tag = MASK_INT + SIZE32 then some ⟨MASK_INT, SIZE32, B⟩
  else if tag = MASK_INT + SIZE64 then some ⟨MASK_INT, SIZE64, B⟩
  else if tag = FLOAT + SIZE32 then some ⟨FLOAT, SIZE32, B⟩
  else if tag = FLOAT + SIZE64 then some ⟨FLOAT, SIZE64, B⟩
  else if tag = MASK_FLOAT + SIZE32 then some ⟨MASK_FLOAT, SIZE32, B⟩
  else if tag = MASK_FLOAT + SIZE64 then some ⟨MASK_FLOAT, SIZE64, B⟩
  else none

/-- `a > b ? a : b` -/
def gtMax (a b : Nat) : Nat := if a > b then a else b

/-- `get_expr<V>`. Models /repo/simdpp/detail/get_expr.h:208-212. -/
def get_expr (v : VTy) : Option VTy := typeOfTag (v.tt + v.st) v.B

/-- `get_expr_nomask<V>`. Models /repo/simdpp/detail/get_expr.h:214-220. -/
def get_expr_nomask (v : VTy) : Option VTy :=
  let tt := if v.tt = MASK_FLOAT then FLOAT else if v.tt = MASK_INT then UINT else v.tt
  typeOfTag (tt + v.st) v.B

/-- `get_expr_nosign<V>`. Models /repo/simdpp/detail/get_expr.h:222-227. -/
def get_expr_nosign (v : VTy) : Option VTy :=
  let tt := if v.tt = INT then UINT else v.tt
  typeOfTag (tt + v.st) v.B

/-- `get_expr_nomask_nosign<V>`. Models /repo/simdpp/detail/get_expr.h:229-236. -/
def get_expr_nomask_nosign (v : VTy) : Option VTy :=
  let tt := if v.tt = MASK_FLOAT then FLOAT else if v.tt = INT then UINT else if v.tt = MASK_INT then UINT else v.tt
  typeOfTag (tt + v.st) v.B

/-- `get_expr2<V1, V2>::type`. Models /repo/simdpp/detail/get_expr.h:248-258. -/
def get_expr2 (v1 v2 : VTy) : Option VTy :=
  let is_mask_op := (v1.tt = MASK_FLOAT ∨ v1.tt = MASK_INT) ∧ (v2.tt = MASK_FLOAT ∨ v2.tt = MASK_INT)
  let st := gtMax v1.st v2.st
  let tt := if is_mask_op ∧ v1.st ≠ v2.st then UINT else gtMax v1.tt v2.tt
  typeOfTag (tt + st) v1.B

/-- `get_expr2_nomask<V1, V2>::type`. Models /repo/simdpp/detail/get_expr.h:262-272. -/
def get_expr2_nomask (v1 v2 : VTy) : Option VTy :=
  let t1 := gtMax v1.tt v2.tt
  let st := gtMax v1.st v2.st
  let tt := if t1 = MASK_FLOAT then FLOAT else if t1 = MASK_INT then UINT else t1
  typeOfTag (tt + st) v1.B

/-- `get_expr2_nosign<V1, V2>::type`. Models /repo/simdpp/detail/get_expr.h:274-283. -/
def get_expr2_nosign (v1 v2 : VTy) : Option VTy :=
  let t1 := gtMax v1.tt v2.tt
  let st := gtMax v1.st v2.st
  let tt := if t1 = INT then UINT else t1
  typeOfTag (tt + st) v1.B

/-- `get_expr2_nomask_nosign<V1, V2>::type`. Models /repo/simdpp/detail/get_expr.h:286-297. -/
def get_expr2_nomask_nosign (v1 v2 : VTy) : Option VTy :=
  let t1 := gtMax v1.tt v2.tt
  let is_mask_op := t1 = MASK_FLOAT ∨ t1 = MASK_INT
  let st := gtMax v1.st v2.st
  let tt := if is_mask_op ∧ v1.st ≠ v2.st then UINT else if t1 = INT then UINT else t1
  typeOfTag (tt + st) v1.B

/-- The C++ scalar types accepted beside a vector. -/
inductive Scalar | int | long | llong | uint | ulong | ullong | float | double
deriving DecidableEq, Repr

/-- An operand: a vector or a scalar. -/
inductive Opd | vec (v : VTy) | sc (s : Scalar)
deriving DecidableEq, Repr

/-- `expr2_maybe_scalar_tags<V1, V2>`: a scalar takes the tags of the other operand. Two scalars have no specialisation.
Models /repo/simdpp/detail/get_expr.h:55-206. -/
def scalarTags : Opd → Opd → Option (VTy × VTy)
  | .vec v1, .vec v2 => some (v1, ⟨v2.tt, v2.st, v1.B⟩)
  | .sc _, .vec v => some (v, v)
  | .vec v, .sc _ => some (v, v)
  | .sc _, .sc _ => none

/-- The three types of a binary expression: `v1_final_type`, `v2_final_type` and `type`. -/
structure Expr2 where
  v1 : VTy
  v2 : VTy
  ty : VTy
deriving DecidableEq, Repr

/-- `get_expr_bitwise2_and<V1, V2>`. Models /repo/simdpp/core/detail/get_expr_bitwise.h:59-96. -/
def get_expr_bitwise2_and (a b : Opd) : Option Expr2 := do
  let (x, y) ← scalarTags a b
  let st := gtMax x.st y.st
  let t1 := gtMax x.tt y.tt
  let is_mask_op1 := t1 = MASK_INT ∨ t1 = MASK_FLOAT
  let tt := if is_mask_op1 ∧ x.st ≠ y.st then UINT else t1
  let v1tt := if tt = INT then UINT else tt
  let is_v2_mask := y.tt = MASK_INT ∨ y.tt = MASK_FLOAT
  let is_v1_float := tt = FLOAT ∨ tt = MASK_FLOAT
  let v2tt := if ¬ is_v2_mask then v1tt else if is_v1_float then MASK_FLOAT else MASK_INT
  let r1 ← typeOfTag (v1tt + st) x.B
  let r2 ← typeOfTag (v2tt + st) x.B
  let r ← typeOfTag (tt + st) x.B
  some ⟨r1, r2, r⟩

/-- `get_expr_bit_or<V1, V2>`. Models /repo/simdpp/core/detail/get_expr_bitwise.h:124-151. -/
def get_expr_bit_or (a b : Opd) : Option Expr2 := do
  let (x, y) ← scalarTags a b
  let st := gtMax x.st y.st
  let t1 := gtMax x.tt y.tt
  let is_mask_op1 := t1 = MASK_INT ∨ t1 = MASK_FLOAT
  let tt := if is_mask_op1 ∧ x.st ≠ y.st then UINT else t1
  let v12 := if tt = INT then UINT else tt
  let r1 ← typeOfTag (v12 + st) x.B
  let r ← typeOfTag (tt + st) x.B
  some ⟨r1, r1, r⟩

/-- The type tag of a scalar operand in integer expressions.
Models /repo/simdpp/core/detail/get_expr_uint.h:43-186. -/
def Scalar.tag : Scalar → Nat
  | .int | .long | .llong | .float | .double => INT
  | .uint | .ulong | .ullong => UINT

/-- `expr2_uint_maybe_scalar_tags<V1, V2>`. Models /repo/simdpp/core/detail/get_expr_uint.h:34-186. -/
def uintTags : Opd → Opd → Option (VTy × VTy)
  | .vec v1, .vec v2 => some (v1, ⟨v2.tt, v2.st, v1.B⟩)
  | .sc s, .vec v => some (⟨s.tag, v.st, v.B⟩, v)
  | .vec v, .sc s => some (v, ⟨s.tag, v.st, v.B⟩)
  | .sc _, .sc _ => none

/-- `get_expr_uint<V1, V2>`. Models /repo/simdpp/core/detail/get_expr_uint.h:188-217. -/
def get_expr_uint (a b : Opd) : Option Expr2 := do
  let (x, y) ← uintTags a b
  let t1 := gtMax x.tt y.tt
  let tt := if t1 = MASK_INT then UINT else t1
  let r1 ← typeOfTag (UINT + x.st) x.B
  let r ← typeOfTag (tt + x.st) x.B
  some ⟨r1, r1, r⟩

/-- The four types of a blend expression. -/
structure Expr3 where
  v12 : VTy
  v3 : VTy
  ty : VTy
deriving DecidableEq, Repr

/-- `get_expr_blend<V1, V2, V3>`. Models /repo/simdpp/detail/get_expr_blend.h:62-110. -/
def get_expr_blend (v1 v2 v3 : VTy) : Option Expr3 := do
  let st1 := gtMax v1.st v2.st
  let st := gtMax st1 v3.st
  let t1 := gtMax v1.tt v2.tt
  let is_mask_op1 := t1 = MASK_INT ∨ t1 = MASK_FLOAT
  let t2 := if is_mask_op1 ∧ v1.st ≠ v2.st then UINT else t1
  let t3 := gtMax t2 v3.tt
  let is_mask_op2 := t3 = MASK_INT ∨ t3 = MASK_FLOAT
  let tt := if is_mask_op2 ∧ v3.st ≠ st1 then UINT else t3
  let v12 := if tt = INT then UINT else tt
  let is_v3_mask := v3.tt = MASK_INT ∨ v3.tt = MASK_FLOAT
  let is_v12_float := v12 = FLOAT ∨ v12 = MASK_FLOAT
  let v3tt := if ¬ is_v3_mask ∨ st ≠ v3.st then v12 else if is_v12_float then MASK_FLOAT else MASK_INT
  let r1 ← typeOfTag (v12 + st) v1.B
  let r3 ← typeOfTag (v3tt + st) v1.B
  let r ← typeOfTag (tt + st) v1.B
  some ⟨r1, r3, r⟩

end Simdpp.Expr
