import Verif.Model.Expr

/-!
# C42: expression result types

The specification: an element category and an element width; the promotion of two of them. The theorems say the template
metaprograms compute exactly that, on every pair of vector types of every length, and settle commutativity and associativity.
-/

namespace Simdpp.Spec

/-- Element categories, in promotion order. -/
inductive Cat | mask_int | mask_float | int | uint | float
deriving DecidableEq, Repr

/-- Element widths. -/
inductive Width | w8 | w16 | w32 | w64
deriving DecidableEq, Repr

/-- Rank in the promotion order. -/
def Cat.rank : Cat → Nat
  | .mask_int => 0 | .mask_float => 1 | .int => 2 | .uint => 3 | .float => 4

/-- Bits of the element. -/
def Width.bits : Width → Nat
  | .w8 => 8 | .w16 => 16 | .w32 => 32 | .w64 => 64

/-- An element type. -/
structure Elem where
  cat : Cat
  width : Width
deriving DecidableEq, Repr

instance (p : Cat → Prop) [DecidablePred p] : Decidable (∀ x, p x) :=
  decidable_of_iff (p .mask_int ∧ p .mask_float ∧ p .int ∧ p .uint ∧ p .float)
    ⟨fun ⟨h1, h2, h3, h4, h5⟩ x => by cases x <;> assumption, fun h => ⟨h _, h _, h _, h _, h _⟩⟩

instance (p : Width → Prop) [DecidablePred p] : Decidable (∀ x, p x) :=
  decidable_of_iff (p .w8 ∧ p .w16 ∧ p .w32 ∧ p .w64)
    ⟨fun ⟨h1, h2, h3, h4⟩ x => by cases x <;> assumption, fun h => ⟨h _, h _, h _, h _⟩⟩

instance (p : Elem → Prop) [DecidablePred p] : Decidable (∀ x, p x) :=
  decidable_of_iff (∀ c w, p ⟨c, w⟩) ⟨fun h x => h x.cat x.width, fun h _ _ => h _⟩

/-- The element types that exist: floating-point ones have 32 or 64 bits. -/
def Elem.ok (e : Elem) : Bool :=
  match e.cat with
  | .float | .mask_float => 32 ≤ e.width.bits
  | _ => true

def Cat.isMask : Cat → Bool
  | .mask_int | .mask_float => true
  | _ => false

/-- The later category. -/
def Cat.join (a b : Cat) : Cat := if a.rank ≤ b.rank then b else a

/-- The wider width. -/
def Width.join (a b : Width) : Width := if a.bits ≤ b.bits then b else a

/-- The usual promotion: the later category and the wider width, except that two masks of different width give an unsigned
integer. -/
def Elem.promote (a b : Elem) : Elem :=
  if a.cat.isMask && b.cat.isMask && decide (a.width ≠ b.width) then ⟨.uint, a.width.join b.width⟩
  else ⟨a.cat.join b.cat, a.width.join b.width⟩

/-- The element type behind a mask. -/
def Cat.unmask : Cat → Cat
  | .mask_int => .uint
  | .mask_float => .float
  | c => c

/-- Signed becomes unsigned. -/
def Cat.unsign : Cat → Cat
  | .int => .uint
  | c => c

end Simdpp.Spec

namespace Simdpp.Expr
open Spec

/-- The type tag of a category. Models /repo/simdpp/types/tag.h:72-76. -/
def catTag : Cat → Nat
  | .mask_int => MASK_INT | .mask_float => MASK_FLOAT | .int => INT | .uint => UINT | .float => FLOAT

/-- The size tag of a width. Models /repo/simdpp/types/tag.h:77-80. -/
def widthTag : Width → Nat
  | .w8 => SIZE8 | .w16 => SIZE16 | .w32 => SIZE32 | .w64 => SIZE64

/-- The vector type of `B` bytes with elements `e`. -/
def ty (e : Elem) (B : Nat) : VTy := ⟨catTag e.cat, widthTag e.width, B⟩

/-- Different elements, different vector types. -/
theorem ty_inj {e f : Elem} {B : Nat} (h : ty e B = ty f B) : e = f := by
  obtain ⟨c, w⟩ := e; obtain ⟨d, v⟩ := f
  cases c <;> cases w <;> cases d <;> cases v <;> first | rfl | (simp [ty, catTag, widthTag] at h)

/-- Case split on all the categories and widths. -/
macro "all_ty" : tactic => `(tactic| (first | rfl | contradiction))

/-- The same type with another length. -/
def VTy.len (B : Nat) (v : VTy) : VTy := { v with B := B }

theorem typeOfTag_len (t B : Nat) : typeOfTag t B = (typeOfTag t 0).map (VTy.len B) := by
  simp only [typeOfTag, apply_ite (Option.map (VTy.len B)), Option.map_some, Option.map_none, VTy.len]

theorem tail2 (t1 t3 t B : Nat) :
    (do
      let r1 ← typeOfTag t1 B
      let r3 ← typeOfTag t3 B
      let r ← typeOfTag t B
      some (⟨r1, r3, r⟩ : Expr2)) =
    (do
      let r1 ← typeOfTag t1 0
      let r3 ← typeOfTag t3 0
      let r ← typeOfTag t 0
      some (⟨r1, r3, r⟩ : Expr2)).map (fun r : Expr2 => ⟨r.v1.len B, r.v2.len B, r.ty.len B⟩) := by
  rw [typeOfTag_len t1 B, typeOfTag_len t3 B, typeOfTag_len t B]
  generalize typeOfTag t1 0 = o1
  generalize typeOfTag t3 0 = o2
  generalize typeOfTag t 0 = o3
  cases o1 <;> cases o2 <;> cases o3 <;> rfl

theorem tail1 (t1 t B : Nat) :
    (do
      let r1 ← typeOfTag t1 B
      let r ← typeOfTag t B
      some (⟨r1, r1, r⟩ : Expr2)) =
    (do
      let r1 ← typeOfTag t1 0
      let r ← typeOfTag t 0
      some (⟨r1, r1, r⟩ : Expr2)).map (fun r : Expr2 => ⟨r.v1.len B, r.v2.len B, r.ty.len B⟩) := by
  rw [typeOfTag_len t1 B, typeOfTag_len t B]
  generalize typeOfTag t1 0 = o1
  generalize typeOfTag t 0 = o3
  cases o1 <;> cases o3 <;> rfl

/-- **C42.** The result type of an operation on two vectors is the promotion of the operand types. -/
theorem C42_get_expr2 (a b : Elem) (ha : a.ok) (hb : b.ok) (B : Nat) :
    get_expr2 (ty a B) (ty b B) = some (ty (a.promote b) B) := by
  have key : ∀ a b : Elem, a.ok → b.ok → get_expr2 (ty a 0) (ty b 0) = some (ty (a.promote b) 0) := by decide +kernel
  exact (typeOfTag_len _ B).trans (congrArg (Option.map (VTy.len B)) (key a b ha hb))

/-- **C42.** The promoted type exists. -/
theorem C42_promote_ok : ∀ a b : Elem, a.ok → b.ok → (a.promote b).ok := by decide +kernel

/-- **C42.** Promotion does not depend on the order of the operands, and promoting a type with itself does nothing. -/
theorem C42_comm (a b : Elem) (ha : a.ok) (hb : b.ok) (B : Nat) :
    get_expr2 (ty a B) (ty b B) = get_expr2 (ty b B) (ty a B) ∧ get_expr2 (ty a B) (ty a B) = some (ty a B) := by
  have h1 : ∀ a b : Elem, a.promote b = b.promote a := by decide +kernel
  have h2 : ∀ a : Elem, a.promote a = a := by decide +kernel
  rw [C42_get_expr2 a b ha hb, C42_get_expr2 b a hb ha, C42_get_expr2 a a ha ha, h1 a b, h2 a]
  exact ⟨rfl, rfl⟩

/-- The two groupings of three operands. -/
def left3 (a b c : VTy) : Option VTy := do get_expr2 (← get_expr2 a b) c

def right3 (a b c : VTy) : Option VTy := do get_expr2 a (← get_expr2 b c)

/-- Two masks of different widths. -/
def mixedMasks (a b : Elem) : Bool := a.cat.isMask && b.cat.isMask && decide (a.width ≠ b.width)

theorem left3_eq (a b c : Elem) (ha : a.ok) (hb : b.ok) (hc : c.ok) (B : Nat) :
    left3 (ty a B) (ty b B) (ty c B) = some (ty ((a.promote b).promote c) B) := by
  simp only [left3, C42_get_expr2 a b ha hb, C42_get_expr2 _ c (C42_promote_ok a b ha hb) hc, Option.bind_eq_bind,
    Option.bind_some]

theorem right3_eq (a b c : Elem) (ha : a.ok) (hb : b.ok) (hc : c.ok) (B : Nat) :
    right3 (ty a B) (ty b B) (ty c B) = some (ty (a.promote (b.promote c)) B) := by
  simp only [right3, C42_get_expr2 b c hb hc, C42_get_expr2 a _ ha (C42_promote_ok b c hb hc), Option.bind_eq_bind,
    Option.bind_some]

/-- **C42.** Regrouping three operands keeps the result type exactly when it is not the case that two neighbouring masks of
different widths meet a signed vector. -/
theorem C42_regroup (a b c : Elem) (ha : a.ok) (hb : b.ok) (hc : c.ok) (B : Nat) :
    left3 (ty a B) (ty b B) (ty c B) = right3 (ty a B) (ty b B) (ty c B) ↔
      ¬ ((mixedMasks a b ∧ c.cat = .int) ∨ (mixedMasks b c ∧ a.cat = .int)) := by
  have key : ∀ a b c : Elem, (a.promote b).promote c = a.promote (b.promote c) ↔
      ¬ ((mixedMasks a b ∧ c.cat = .int) ∨ (mixedMasks b c ∧ a.cat = .int)) := by decide +kernel
  rw [left3_eq a b c ha hb hc, right3_eq a b c ha hb hc, ← key a b c]
  constructor
  · intro h; exact ty_inj (Option.some.inj h)
  · intro h; rw [h]

/-- **C42.** So regrouping is free when no operand is a mask. -/
theorem C42_assoc (a b c : Elem) (ha : a.ok) (hb : b.ok) (hc : c.ok) (ma : ¬ a.cat.isMask) (mb : ¬ b.cat.isMask)
    (mc : ¬ c.cat.isMask) (B : Nat) :
    left3 (ty a B) (ty b B) (ty c B) = right3 (ty a B) (ty b B) (ty c B) := by
  rw [C42_regroup a b c ha hb hc]
  simp [mixedMasks, ma, mb, mc]

/-- **C42.** ... and when all the elements have one width. -/
theorem C42_assoc_same (a b c : Elem) (ha : a.ok) (hb : b.ok) (hc : c.ok) (e : a.width = b.width) (e' : b.width = c.width)
    (B : Nat) : left3 (ty a B) (ty b B) (ty c B) = right3 (ty a B) (ty b B) (ty c B) := by
  rw [C42_regroup a b c ha hb hc]
  simp [mixedMasks, e, e']

/-- **C42.** In general it is not free: `(mask_int8, mask_int16), int16` is `uint16` but `mask_int8, (mask_int16, int16)` is
`int16`. -/
theorem C42_regroup_counterexample :
    left3 (ty ⟨.mask_int, .w8⟩ 16) (ty ⟨.mask_int, .w16⟩ 16) (ty ⟨.int, .w16⟩ 16) = some (ty ⟨.uint, .w16⟩ 16) ∧
    right3 (ty ⟨.mask_int, .w8⟩ 16) (ty ⟨.mask_int, .w16⟩ 16) (ty ⟨.int, .w16⟩ 16) = some (ty ⟨.int, .w16⟩ 16) :=
  ⟨rfl, rfl⟩

/-- **C42.** Unary expressions: the type itself, without masks, without signs, without both. -/
theorem C42_unary (a : Elem) (ha : a.ok) (B : Nat) :
    get_expr (ty a B) = some (ty a B) ∧
    get_expr_nomask (ty a B) = some (ty ⟨a.cat.unmask, a.width⟩ B) ∧
    get_expr_nosign (ty a B) = some (ty ⟨a.cat.unsign, a.width⟩ B) ∧
    get_expr_nomask_nosign (ty a B) = some (ty ⟨a.cat.unmask.unsign, a.width⟩ B) := by
  obtain ⟨c, w⟩ := a
  cases c <;> cases w <;> first | contradiction | exact ⟨rfl, rfl, rfl, rfl⟩

/-- **C42.** Operations without mask support: the underlying type of the later category at the wider width. -/
theorem C42_nomask (a b : Elem) (ha : a.ok) (hb : b.ok) (B : Nat) :
    get_expr2_nomask (ty a B) (ty b B) = some (ty ⟨(a.cat.join b.cat).unmask, a.width.join b.width⟩ B) := by
  have key : ∀ a b : Elem, a.ok → b.ok → get_expr2_nomask (ty a 0) (ty b 0) = some (ty (⟨(a.cat.join b.cat).unmask, a.width.join b.width⟩) 0) := by decide +kernel
  exact (typeOfTag_len _ B).trans (congrArg (Option.map (VTy.len B)) (key a b ha hb))

/-- **C42.** It is the underlying type of the usual promotion unless two masks of different width, one of them floating-point,
meet. -/
theorem C42_nomask_usual (a b : Elem) (ha : a.ok) (hb : b.ok)
    (hm : ¬ (mixedMasks a b ∧ (a.cat = .mask_float ∨ b.cat = .mask_float))) (B : Nat) :
    get_expr2_nomask (ty a B) (ty b B) = some (ty ⟨(a.promote b).cat.unmask, (a.promote b).width⟩ B) := by
  have key : ∀ a b : Elem, ¬ (mixedMasks a b ∧ (a.cat = .mask_float ∨ b.cat = .mask_float)) →
      (⟨(a.cat.join b.cat).unmask, a.width.join b.width⟩ : Elem) = ⟨(a.promote b).cat.unmask, (a.promote b).width⟩ := by
    decide +kernel
  rw [C42_nomask a b ha hb, key a b hm]

/-- **C42.** For those the documented rule is not followed: `mask_float32` with `mask_int64` should give `uint64` and gives
`float64`; and regrouping with `uint32` gives two different types. -/
theorem C42_nomask_counterexample :
    get_expr2_nomask (ty ⟨.mask_float, .w32⟩ 16) (ty ⟨.mask_int, .w64⟩ 16) = some (ty ⟨.float, .w64⟩ 16) ∧
    Elem.promote ⟨.mask_float, .w32⟩ ⟨.mask_int, .w64⟩ = ⟨.uint, .w64⟩ ∧
    (do get_expr2_nomask (← get_expr2_nomask (ty ⟨.mask_float, .w32⟩ 16) (ty ⟨.mask_int, .w64⟩ 16)) (ty ⟨.uint, .w32⟩ 16))
      = some (ty ⟨.float, .w64⟩ 16) ∧
    (do get_expr2_nomask (ty ⟨.mask_float, .w32⟩ 16) (← get_expr2_nomask (ty ⟨.mask_int, .w64⟩ 16) (ty ⟨.uint, .w32⟩ 16)))
      = some (ty ⟨.uint, .w64⟩ 16) :=
  ⟨rfl, rfl, rfl, rfl⟩

/-- **C42.** The variants for operations where the sign does not matter. The last one keeps two masks of the same width, though
its name promises otherwise. -/
theorem C42_nosign (a b : Elem) (ha : a.ok) (hb : b.ok) (B : Nat) :
    get_expr2_nosign (ty a B) (ty b B) = some (ty ⟨(a.cat.join b.cat).unsign, a.width.join b.width⟩ B) ∧
    get_expr2_nomask_nosign (ty a B) (ty b B) = some (ty ⟨(a.promote b).cat.unsign, (a.promote b).width⟩ B) := by
  have key : ∀ a b : Elem, a.ok → b.ok →
      get_expr2_nosign (ty a 0) (ty b 0) = some (ty ⟨(a.cat.join b.cat).unsign, a.width.join b.width⟩ 0) ∧
      get_expr2_nomask_nosign (ty a 0) (ty b 0) = some (ty ⟨(a.promote b).cat.unsign, (a.promote b).width⟩ 0) := by
    decide +kernel
  exact ⟨(typeOfTag_len _ B).trans (congrArg (Option.map (VTy.len B)) (key a b ha hb).1),
    (typeOfTag_len _ B).trans (congrArg (Option.map (VTy.len B)) (key a b ha hb).2)⟩

/-- **C42.** So two masks stay a mask under the "no mask, no sign" rule, and under the "no sign" rule two masks of different
width stay a mask where the usual rule gives `uint`. -/
theorem C42_nosign_counterexample :
    get_expr2_nomask_nosign (ty ⟨.mask_int, .w8⟩ 16) (ty ⟨.mask_int, .w8⟩ 16) = some (ty ⟨.mask_int, .w8⟩ 16) ∧
    get_expr2_nosign (ty ⟨.mask_int, .w8⟩ 16) (ty ⟨.mask_int, .w16⟩ 16) = some (ty ⟨.mask_int, .w16⟩ 16) ∧
    get_expr2 (ty ⟨.mask_int, .w8⟩ 16) (ty ⟨.mask_int, .w16⟩ 16) = some (ty ⟨.uint, .w16⟩ 16) :=
  ⟨rfl, rfl, rfl⟩

/-- **C42.** Bitwise operations on two vectors have the usual type, and their operands are converted to vectors of that type,
signed ones taken as unsigned; a mask as second operand of `bit_and` or `bit_andnot` is kept as a mask of the kind of the
result. -/
theorem C42_bitwise (a b : Elem) (ha : a.ok) (hb : b.ok) (B : Nat) :
    (∃ e2 : Elem, e2.ok ∧ e2.width = (a.promote b).width ∧
      get_expr_bitwise2_and (.vec (ty a B)) (.vec (ty b B)) =
        some ⟨ty ⟨(a.promote b).cat.unsign, (a.promote b).width⟩ B, ty e2 B, ty (a.promote b) B⟩ ∧
      (¬ b.cat.isMask → e2.cat = (a.promote b).cat.unsign) ∧
      (b.cat.isMask → e2.cat = if (a.promote b).cat = .float ∨ (a.promote b).cat = .mask_float then .mask_float else .mask_int)) ∧
    get_expr_bit_or (.vec (ty a B)) (.vec (ty b B)) =
      some ⟨ty ⟨(a.promote b).cat.unsign, (a.promote b).width⟩ B, ty ⟨(a.promote b).cat.unsign, (a.promote b).width⟩ B,
        ty (a.promote b) B⟩ := by
  have key : ∀ a b : Elem, a.ok → b.ok →
      (fun p e2 : Elem => e2.ok ∧
        get_expr_bitwise2_and (.vec (ty a 0)) (.vec (ty b 0)) = some ⟨ty ⟨p.cat.unsign, p.width⟩ 0, ty e2 0, ty p 0⟩ ∧
        get_expr_bit_or (.vec (ty a 0)) (.vec (ty b 0)) =
          some ⟨ty ⟨p.cat.unsign, p.width⟩ 0, ty ⟨p.cat.unsign, p.width⟩ 0, ty p 0⟩) (a.promote b)
        ⟨if b.cat.isMask then
          (if (a.promote b).cat = .float ∨ (a.promote b).cat = .mask_float then .mask_float else .mask_int)
        else (a.promote b).cat.unsign, (a.promote b).width⟩ := by decide +kernel
  obtain ⟨k1, k2, k3⟩ := key a b ha hb
  exact ⟨⟨_, k1, rfl, (tail2 _ _ _ B).trans (congrArg (Option.map _) k2), fun h => by simp [h], fun h => by simp [h]⟩,
    (tail1 _ _ B).trans (congrArg (Option.map _) k3)⟩

/-- **C42.** A scalar beside a vector in a bitwise operation does not change the type. -/
theorem C42_bitwise_scalar (a : Elem) (ha : a.ok) (s : Scalar) (B : Nat) :
    (get_expr_bitwise2_and (.vec (ty a B)) (.sc s)).map Expr2.ty = some (ty a B) ∧
    (get_expr_bitwise2_and (.sc s) (.vec (ty a B))).map Expr2.ty = some (ty a B) ∧
    (get_expr_bit_or (.vec (ty a B)) (.sc s)).map Expr2.ty = some (ty a B) ∧
    (get_expr_bit_or (.sc s) (.vec (ty a B))).map Expr2.ty = some (ty a B) := by
  obtain ⟨c, w⟩ := a
  cases c <;> cases w <;> first | contradiction | exact ⟨rfl, rfl, rfl, rfl⟩

/-- An integer or integer mask. -/
def _root_.Simdpp.Spec.Elem.isInt (e : Elem) : Bool :=
  match e.cat with
  | .float | .mask_float => false
  | _ => true

/-- **C42.** Integer arithmetic on two vectors of one width: both operands are taken as unsigned, the result is the underlying
type of the promotion. -/
theorem C42_uint (a b : Elem) (ha : a.isInt) (hb : b.isInt) (e : a.width = b.width) (B : Nat) :
    get_expr_uint (.vec (ty a B)) (.vec (ty b B)) =
      some ⟨ty ⟨.uint, a.width⟩ B, ty ⟨.uint, a.width⟩ B, ty ⟨(a.promote b).cat.unmask, a.width⟩ B⟩ ∧
    get_expr_uint (.vec (ty a B)) (.vec (ty b B)) = get_expr_uint (.vec (ty b B)) (.vec (ty a B)) ∧
    get_expr_uint (.vec (ty a B)) (.vec (ty b B)) >>= (fun r => some r.ty) = get_expr2_nomask (ty a B) (ty b B) := by
  obtain ⟨c, w⟩ := a; obtain ⟨d, v⟩ := b
  dsimp only at e; subst e
  cases c <;> cases d <;> first | contradiction | (cases w <;> exact ⟨rfl, rfl, rfl⟩)

/-- The signedness of a scalar: unsigned types are unsigned, everything else, `float` and `double` included, counts as
signed. -/
def scalarCat : Scalar → Cat
  | .uint | .ulong | .ullong => .uint
  | _ => .int

/-- **C42.** Integer arithmetic with a scalar: the width is the vector's, the signedness that of the promotion. -/
theorem C42_uint_scalar (a : Elem) (ha : a.isInt) (s : Scalar) (B : Nat) :
    get_expr_uint (.vec (ty a B)) (.sc s) =
      some ⟨ty ⟨.uint, a.width⟩ B, ty ⟨.uint, a.width⟩ B, ty ⟨a.cat.join (scalarCat s), a.width⟩ B⟩ ∧
    get_expr_uint (.sc s) (.vec (ty a B)) = get_expr_uint (.vec (ty a B)) (.sc s) := by
  obtain ⟨c, w⟩ := a
  cases c <;> first | contradiction | (cases w <;> cases s <;> exact ⟨rfl, rfl⟩)

/-- **C42.** Two vectors of different widths in integer arithmetic have a type that depends on their order. -/
theorem C42_uint_counterexample :
    (get_expr_uint (.vec (ty ⟨.int, .w8⟩ 16)) (.vec (ty ⟨.int, .w16⟩ 16))).map Expr2.ty = some (ty ⟨.int, .w8⟩ 16) ∧
    (get_expr_uint (.vec (ty ⟨.int, .w16⟩ 16)) (.vec (ty ⟨.int, .w8⟩ 16))).map Expr2.ty = some (ty ⟨.int, .w16⟩ 16) :=
  ⟨rfl, rfl⟩

theorem tail3 (t1 t3 t B : Nat) :
    (do
      let r1 ← typeOfTag t1 B
      let r3 ← typeOfTag t3 B
      let r ← typeOfTag t B
      some (⟨r1, r3, r⟩ : Expr3)) =
    (do
      let r1 ← typeOfTag t1 0
      let r3 ← typeOfTag t3 0
      let r ← typeOfTag t 0
      some (⟨r1, r3, r⟩ : Expr3)).map (fun r : Expr3 => ⟨r.v12.len B, r.v3.len B, r.ty.len B⟩) := by
  rw [typeOfTag_len t1 B, typeOfTag_len t3 B, typeOfTag_len t B]
  generalize typeOfTag t1 0 = o1
  generalize typeOfTag t3 0 = o2
  generalize typeOfTag t 0 = o3
  cases o1 <;> cases o2 <;> cases o3 <;> rfl

/-- The length is only passed through. -/
theorem blend_len (a b c : Elem) (B : Nat) : get_expr_blend (ty a B) (ty b B) (ty c B) =
    (get_expr_blend (ty a 0) (ty b 0) (ty c 0)).map (fun r => ⟨r.v12.len B, r.v3.len B, r.ty.len B⟩) :=
  tail3 _ _ _ B

/-- **C42.** A blend has the type of the promotion of its three operands, first two first; the first two are converted to it,
signed taken as unsigned; so is the third, unless it is a mask of the width of the result: then it becomes a mask of its kind. -/
theorem C42_blend (a b c : Elem) (ha : a.ok) (hb : b.ok) (hc : c.ok) (B : Nat) :
    ∃ e3 : Elem, get_expr_blend (ty a B) (ty b B) (ty c B) = some
      ⟨ty ⟨((a.promote b).promote c).cat.unsign, ((a.promote b).promote c).width⟩ B, ty e3 B, ty ((a.promote b).promote c) B⟩ ∧
      e3.ok ∧ e3.width = ((a.promote b).promote c).width ∧
      e3.cat = if c.cat.isMask ∧ c.width = e3.width then
          (if ((a.promote b).promote c).cat = .float ∨ ((a.promote b).promote c).cat = .mask_float then .mask_float else .mask_int)
        else ((a.promote b).promote c).cat.unsign := by
  have key : ∀ a b c : Elem, a.ok → b.ok → c.ok →
      (fun p e3 : Elem => get_expr_blend (ty a 0) (ty b 0) (ty c 0) = some ⟨ty ⟨p.cat.unsign, p.width⟩ 0, ty e3 0, ty p 0⟩ ∧
        e3.ok) ((a.promote b).promote c)
        ⟨if c.cat.isMask ∧ c.width = ((a.promote b).promote c).width then
          (if ((a.promote b).promote c).cat = .float ∨ ((a.promote b).promote c).cat = .mask_float then .mask_float else .mask_int)
        else ((a.promote b).promote c).cat.unsign, ((a.promote b).promote c).width⟩ := by decide +kernel
  obtain ⟨k1, k2⟩ := key a b c ha hb hc
  refine ⟨_, ?_, k2, rfl, rfl⟩
  rw [blend_len, k1]
  rfl

/-- `int32 + uint32` is `uint32`, `float32 + int64` would be `float64`, two masks of one width stay a mask. -/
example : get_expr2 (ty ⟨.int, .w32⟩ 32) (ty ⟨.uint, .w32⟩ 32) = some (ty ⟨.uint, .w32⟩ 32) := rfl
example : get_expr2 (ty ⟨.float, .w32⟩ 16) (ty ⟨.int, .w64⟩ 16) = some (ty ⟨.float, .w64⟩ 16) := rfl
example : get_expr2 (ty ⟨.mask_int, .w32⟩ 16) (ty ⟨.mask_int, .w32⟩ 16) = some (ty ⟨.mask_int, .w32⟩ 16) := rfl

/-- **C42.** The table in the documentation says a mask with a signed vector gives unsigned; the code (and the example below the
table) gives signed. -/
theorem C42_mask_int_table (w : Width) (B : Nat) :
    get_expr2 (ty ⟨.mask_int, w⟩ B) (ty ⟨.int, w⟩ B) = some (ty ⟨.int, w⟩ B) := by
  cases w <;> rfl

end Simdpp.Expr
