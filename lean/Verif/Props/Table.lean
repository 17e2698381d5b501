import Verif.Model.Table
import Verif.Props.Kernel
import Verif.Props.Bytes16
import Verif.Props.MakeConst

/-!
# C73: programs with table lookups
-/

namespace Simdpp
open Spec Spec.Prog Spec.Table

variable {N : Nat}

/-- The expressions are defined and the indices are inside the tables. -/
def Spec.Table.Rhs.Ok {ι : Type} (c : Cfg) (r : Reg) (E : ι → Nat → BitVec 8) : Rhs → Prop
  | .calc e => e.Ok c r E
  | .tab _ x => ∀ j, (E j x).toNat < 16
  | .tabz _ x => ∀ j, (E j x).toNat % 128 < 16
  | .tab2 _ _ x => ∀ j, (E j x).toNat < 32

/-- The same for every statement, on the values its variables have then. -/
def Spec.Table.POk {ι : Type} (c : Cfg) (r : Reg) : List (Nat × Rhs) → (ι → Nat → BitVec 8) → Prop
  | [], _ => True
  | s :: t, E => s.2.Ok c r E ∧ POk c r t fun j => Spec.Table.set (E j) s.1 (s.2.den (E j))

theorem Rhs.Ok.comp {ι κ : Type} {c : Cfg} {r : Reg} {E : ι → Nat → BitVec 8} (f : κ → ι) : (s : Rhs) → s.Ok c r E → s.Ok c r fun j => E (f j)
  | .calc e, ok => Exp.Ok.comp f e ok
  | .tab _ _, ok => fun j => ok (f j)
  | .tabz _ _, ok => fun j => ok (f j)
  | .tab2 _ _ _, ok => fun j => ok (f j)

theorem POk.comp {ι κ : Type} {c : Cfg} {r : Reg} (f : κ → ι) : (P : List (Nat × Rhs)) → (E : ι → Nat → BitVec 8) → POk c r P E → POk c r P fun j => E (f j)
  | [], _, _ => trivial
  | s :: t, E, ok => ⟨Rhs.Ok.comp f s.2 ok.1, POk.comp f t (fun j => Spec.Table.set (E j) s.1 (s.2.den (E j))) ok.2⟩

theorem lane16 (T : Fin 16 → BitVec 8) {k L l m : Nat} (hL : 16 ∣ L) (hm : m < 16) : T (Fin.ofNat 16 (k * L + (l / 16 * 16 + m))) = T (Fin.ofNat 16 m) := by
  obtain ⟨a, rfl⟩ := hL
  refine congrArg T (Fin.ext ?_)
  show (k * (16 * a) + (l / 16 * 16 + m)) % 16 = m % 16
  rw [show k * (16 * a) + (l / 16 * 16 + m) = m + 16 * (k * a + l / 16) by ring, Nat.add_mul_mod_self_left]

section
variable {c : Cfg} (h : c.Ok) (hN : c.VLen 8 N)
include h hN

theorem tableV_eq (T : Fin 16 → BitVec 8) : tableV c N T = some (fun i => T (Fin.ofNat 16 i.val)) := by
  obtain ⟨res, e, f⟩ := C43_make_uint h (Or.inl rfl : IsW 8) hN (M := 16) fun i => (T i).setWidth 64
  refine e.trans (congrArg some (funext fun i => (f i).trans ?_))
  rw [BitVec.toNat_setWidth, Nat.mod_eq_of_lt (Nat.lt_of_lt_of_le (T _).isLt (by decide)), BitVec.ofNat_toNat, BitVec.setWidth_eq]

omit h hN in
/-- A byte selection with a mask lane naming a byte of the same block of a repeated table. -/
theorem selB_table (T U : Fin 16 → BitVec 8) {k L : Nat} (hL : 16 ∣ L) (hk : (k + 1) * L ≤ N) (l : Fin L) {m' : Vec 8 L} (hm : (m' l).toNat % 128 < 32) :
    selB (Hw.part L k (fun i : Fin N => T (Fin.ofNat 16 i.val))) (Hw.part L k (fun i : Fin N => U (Fin.ofNat 16 i.val))) m' l =
      if 128 ≤ (m' l).toNat then 0 else if (m' l).toNat < 16 then T (Fin.ofNat 16 (m' l).toNat) else U (Fin.ofNat 16 ((m' l).toNat - 16)) := by
  have hl := l.isLt
  have at1 : ∀ (W : Fin 16 → BitVec 8) {x : Nat}, x < 16 → Vec.at_ (Hw.part L k (fun i : Fin N => W (Fin.ofNat 16 i.val))) (l.val / 16 * 16 + x) = W (Fin.ofNat 16 x) := by
    intro W x hx
    have h1 : l.val / 16 * 16 + x < L := by
      obtain ⟨a, rfl⟩ := hL
      have : l.val / 16 < a := Nat.div_lt_of_lt_mul hl
      omega
    have h2 : k * L + (l.val / 16 * 16 + x) < N := by
      rw [Nat.add_mul, Nat.one_mul] at hk
      omega
    rw [Vec.at_lt _ h1]
    refine (Vec.at_lt _ h2).trans (lane16 W hL hx)
  unfold selB
  split_ifs with g1 g2
  · rfl
  · exact at1 T g2
  · exact at1 U (by have := (m' l).isLt; omega)


/-- The registers of a vector, and what a register-wise function makes of them. -/
theorem regs_split : c.hasInt 8 (c.regK .int 8 N) = true ∧ 0 < (c.regK .int 8 N).lanes 8 ∧ ∃ K, N = K * (c.regK .int 8 N).lanes 8 ∧ N / (c.regK .int 8 N).lanes 8 = K := by
  obtain ⟨hr, K, -, eN⟩ := KLen.regs h (k := .int) (w := 8) (Or.inl rfl : IsW 8) hN
  have hL := lanes_pos (Or.inl rfl : IsW 8) (c.regK .int 8 N)
  exact ⟨hr, hL, K, eN, Nat.div_eq_of_eq_mul_left hL eN⟩

omit h hN in
theorem cat_lanes {L K : Nat} (hL : 0 < L) (eN : N = K * L) (eK : N / L = K) (v : Fin (N / L) → Vec 8 L) (R : Vec 8 N)
    (hv : ∀ (k : Fin (N / L)) (l : Fin L) (hi : k.val * L + l.val < N), v k l = R ⟨k.val * L + l.val, hi⟩) :
    (catM L fun k => if h : k < N / L then some (v ⟨k, h⟩) else none) = some R := by
  refine catM_regs hL eN fun j hj => ?_
  rw [dif_pos (eK.symm ▸ hj)]
  refine congrArg some (funext fun l => ?_)
  have hi : j * L + l.val < N := by
    have := Nat.mul_le_mul_right L (show j + 1 ≤ K from hj)
    rw [← eN, Nat.add_mul, Nat.one_mul] at this
    have := l.isLt
    omega
  rw [hv ⟨j, eK.symm ▸ hj⟩ l hi]
  exact (Vec.at_lt R hi).symm

theorem rhsV_eq (hs : c.sse2 = true → c.ssse3 = true) (jv : Nat → Vec 8 ((c.regK .int 8 N).lanes 8)) (jm : Nat → Mask 8 ((c.regK .int 8 N).lanes 8)) (env : Nat → Vec 8 N) :
    (s : Rhs) → s.Ok c (c.regK .int 8 N) (fun (j : Fin N) x => env x j) → rhsV c N jv jm env s = some (fun j => s.den fun x => env x j)
  | .calc e, ok => C54_eval h (Or.inl rfl : IsW 8) hN e jv jm env ok
  | .tab T x, ok => by
    obtain ⟨hr, hL, K, eN, eK⟩ := regs_split h hN
    dsimp only [rhsV]
    rw [tableV_eq h hN T]
    show bytesV2 _ _ jv _ _ = _
    generalize c.regK .int 8 N = r at *
    have hb : ∀ (k : Fin (N / r.lanes 8)) (l : Fin (r.lanes 8)), ∃ hi, Hw.part (r.lanes 8) k.val (env x) l = env x ⟨k.val * r.lanes 8 + l.val, hi⟩ := fun k l => by
      have hi : k.val * r.lanes 8 + l.val < N := by
        have := Nat.mul_le_mul_right (r.lanes 8) (show k.val + 1 ≤ K from lt_of_lt_of_eq k.isLt eK)
        rw [← eN, Nat.add_mul, Nat.one_mul] at this
        have := l.isLt
        omega
      exact ⟨hi, Vec.at_lt _ hi⟩
    unfold bytesV2
    rw [Arr.apply2_all (fun k => i_permute_bytes16_eq h hr hs rfl _ _ fun l => by
      obtain ⟨hi, e⟩ := hb k l
      rw [e]
      exact ok _)]
    simp only [Option.bind_eq_bind, Option.bind_some]
    refine cat_lanes hL eN eK (fun k => selB (Hw.part (r.lanes 8) k.val fun i : Fin N => T (Fin.ofNat 16 i.val)) (Hw.part (r.lanes 8) k.val fun i : Fin N => T (Fin.ofNat 16 i.val))
      (Hw.part (r.lanes 8) k.val (env x))) _ fun k l hi => ?_
    obtain ⟨hi', e⟩ := hb k l
    have ho := ok ⟨k.val * r.lanes 8 + l.val, hi'⟩
    dsimp only at ho
    refine (selB_table T T (lanes8 r) (le_of_le_of_eq (Nat.mul_le_mul_right _ (show k.val + 1 ≤ K from lt_of_lt_of_eq k.isLt eK)) eN.symm) l (by rw [e]; omega)).trans ?_
    rw [e, if_neg (by omega), if_pos ho]
    rfl
  | .tabz T x, ok => by
    obtain ⟨hr, hL, K, eN, eK⟩ := regs_split h hN
    dsimp only [rhsV]
    rw [tableV_eq h hN T]
    show bytesV2 _ _ jv _ _ = _
    generalize c.regK .int 8 N = r at *
    have hb : ∀ (k : Fin (N / r.lanes 8)) (l : Fin (r.lanes 8)), ∃ hi, Hw.part (r.lanes 8) k.val (env x) l = env x ⟨k.val * r.lanes 8 + l.val, hi⟩ := fun k l => by
      have hi : k.val * r.lanes 8 + l.val < N := by
        have := Nat.mul_le_mul_right (r.lanes 8) (show k.val + 1 ≤ K from lt_of_lt_of_eq k.isLt eK)
        rw [← eN, Nat.add_mul, Nat.one_mul] at this
        have := l.isLt
        omega
      exact ⟨hi, Vec.at_lt _ hi⟩
    unfold bytesV2
    rw [Arr.apply2_all (fun k => i_permute_zbytes16_eq h hr hs rfl _ _ fun l => by
      obtain ⟨hi, e⟩ := hb k l
      rw [e]
      exact ok _)]
    simp only [Option.bind_eq_bind, Option.bind_some]
    refine cat_lanes hL eN eK (fun k => selB (Hw.part (r.lanes 8) k.val fun i : Fin N => T (Fin.ofNat 16 i.val)) (Hw.part (r.lanes 8) k.val fun i : Fin N => T (Fin.ofNat 16 i.val))
      (Hw.part (r.lanes 8) k.val (env x))) _ fun k l hi => ?_
    obtain ⟨hi', e⟩ := hb k l
    have ho := ok ⟨k.val * r.lanes 8 + l.val, hi'⟩
    dsimp only at ho
    have hx := (env x ⟨k.val * r.lanes 8 + l.val, hi'⟩).isLt
    refine (selB_table T T (lanes8 r) (le_of_le_of_eq (Nat.mul_le_mul_right _ (show k.val + 1 ≤ K from lt_of_lt_of_eq k.isLt eK)) eN.symm) l (by rw [e]; omega)).trans ?_
    rw [e]
    show _ = if 128 ≤ (env x ⟨k.val * r.lanes 8 + l.val, hi'⟩).toNat then _ else _
    split_ifs with g1 g2
    · rfl
    · rfl
    · exact absurd ho (by omega)
  | .tab2 T U x, ok => by
    obtain ⟨hr, hL, K, eN, eK⟩ := regs_split h hN
    dsimp only [rhsV]
    rw [tableV_eq h hN T, tableV_eq h hN U]
    show bytesV3 _ _ jv _ _ _ = _
    generalize c.regK .int 8 N = r at *
    have hb : ∀ (k : Fin (N / r.lanes 8)) (l : Fin (r.lanes 8)), ∃ hi, Hw.part (r.lanes 8) k.val (env x) l = env x ⟨k.val * r.lanes 8 + l.val, hi⟩ := fun k l => by
      have hi : k.val * r.lanes 8 + l.val < N := by
        have := Nat.mul_le_mul_right (r.lanes 8) (show k.val + 1 ≤ K from lt_of_lt_of_eq k.isLt eK)
        rw [← eN, Nat.add_mul, Nat.one_mul] at this
        have := l.isLt
        omega
      exact ⟨hi, Vec.at_lt _ hi⟩
    unfold bytesV3
    rw [Arr.apply3_all (fun k => i_shuffle_bytes16_eq h hr (fun g => Or.inl (hs g)) rfl _ _ _ fun l => by
      obtain ⟨hi, e⟩ := hb k l
      rw [e]
      exact ok _)]
    simp only [Option.bind_eq_bind, Option.bind_some]
    refine cat_lanes hL eN eK (fun k => selB (Hw.part (r.lanes 8) k.val fun i : Fin N => T (Fin.ofNat 16 i.val)) (Hw.part (r.lanes 8) k.val fun i : Fin N => U (Fin.ofNat 16 i.val))
      (Hw.part (r.lanes 8) k.val (env x))) _ fun k l hi => ?_
    obtain ⟨hi', e⟩ := hb k l
    have ho := ok ⟨k.val * r.lanes 8 + l.val, hi'⟩
    dsimp only at ho
    refine (selB_table T U (lanes8 r) (le_of_le_of_eq (Nat.mul_le_mul_right _ (show k.val + 1 ≤ K from lt_of_lt_of_eq k.isLt eK)) eN.symm) l (by rw [e]; omega)).trans ?_
    rw [e, if_neg (by omega)]
    rfl

theorem runV_eq (hs : c.sse2 = true → c.ssse3 = true) (jv : Nat → Vec 8 ((c.regK .int 8 N).lanes 8)) (jm : Nat → Mask 8 ((c.regK .int 8 N).lanes 8)) :
    (P : List (Nat × Rhs)) → (env : Nat → Vec 8 N) → POk c (c.regK .int 8 N) P (fun (j : Fin N) x => env x j) →
    runV c N jv jm P env = some (fun x j => run P (fun x => env x j) x)
  | [], env, _ => rfl
  | s :: t, env, ok => by
    unfold runV
    rw [rhsV_eq h hN hs jv jm env s.2 ok.1]
    have e : ∀ j : Fin N, (fun x => Spec.Table.set env s.1 (fun j => s.2.den fun x => env x j) x j) = Spec.Table.set (fun x => env x j) s.1 (s.2.den fun x => env x j) :=
      fun j => funext fun x => by unfold Spec.Table.set; split_ifs <;> rfl
    refine (runV_eq hs jv jm t _ ?_).trans (congrArg some (funext fun x => funext fun j => ?_))
    · have := ok.2
      rw [show (fun (j : Fin N) x => Spec.Table.set env s.1 (fun j => s.2.den fun x => env x j) x j) = _ from funext e]
      exact this
    · show run t _ x = run t _ x
      rw [e j]

/-- **C73.** A program of lane-wise expressions and table lookups on `uint8<N>` variables is in every lane the scalar program, on every build with the lookups and for every vector
length. -/
theorem C73_program (hs : c.sse2 = true → c.ssse3 = true) (jv : Nat → Vec 8 ((c.regK .int 8 N).lanes 8)) (jm : Nat → Mask 8 ((c.regK .int 8 N).lanes 8))
    (P : List (Nat × Rhs)) (y : Nat) (env : Nat → Vec 8 N) (ok : POk c (c.regK .int 8 N) P (fun (j : Fin N) x => env x j)) :
    ∃ res, progV c N jv jm P y env = some res ∧ ∀ j, res j = run P (fun x => env x j) y := by
  unfold progV
  rw [runV_eq h hN hs jv jm P env ok]
  exact ⟨_, rfl, fun _ => rfl⟩

/-- **C73.** The loop over arrays of bytes: `out[j]` is the value the scalar program computes from element `j` of the inputs, for every element count, in place or not; no other byte
changes. -/
theorem C73_kernel (hs : c.sse2 = true → c.ssse3 = true) (jv : Nat → Vec 8 ((c.regK .int 8 N).lanes 8)) (jm : Nat → Mask 8 ((c.regK .int 8 N).lanes 8))
    (Pr : List (Nat × Rhs)) (y : Nat) (be : Bool) {V : Nat} {p : Nat → Nat} {q cnt : Nat} (m : Mem) {P : Nat} (hP : P = (cnt + (N - 1)) / N * N)
    (hp : ∀ x, x < V → p x % (c.regK .int 8 N).bytes = 0) (hq : q % (c.regK .int 8 N).bytes = 0)
    (hb : ∀ x, x < V → m.Block (p x) P) (hbq : m.Block q P) (hd : ∀ x, x < V → q ≤ p x ∨ p x + P ≤ q)
    (ok : POk c (c.regK .int 8 N) Pr (fun (j : Fin P) x => if x < V then m.byte (p x + j.val) else 0)) :
    ∃ m', kernel c be .int false 8 N V (progV c N jv jm Pr y) p q cnt m = some m' ∧ m'.ok = m.ok ∧
      (∀ j, j < cnt → m'.byte (q + j) = run Pr (fun x => if x < V then m.byte (p x + j) else 0) y) ∧
      ∀ a, a < q ∨ q + cnt ≤ a → m'.byte a = m.byte a := by
  have b1 : ∀ {byte : Nat → BitVec 8} {a : Nat} {x : BitVec 8}, Holds byte a x ↔ byte a = x := fun {byte a x} => by
    have e : byteOf x 0 = x := BitVec.eq_of_getLsbD_eq fun k hk => by simp [byteOf]
    constructor
    · intro g
      have := g 0 (by decide)
      rwa [e, Nat.add_zero] at this
    · intro g t ht
      obtain rfl : t = 0 := by omega
      rw [e, Nat.add_zero]
      exact g
  obtain ⟨m', e1, e2, e3, e4⟩ := kernel_all h (k := .int) (w := 8) (Or.inl rfl : IsW 8) hN (ev := progV c N jv jm Pr y) (F := fun ρ z => z = run Pr ρ y)
    (G := fun env => POk c (c.regK .int 8 N) Pr (fun (j : Fin N) x => env x j))
    (fun env g => C73_program h hN hs jv jm Pr y env g) be false m (V := V) (p := p) (A := fun x j => if x < V then m.byte (p x + j) else 0) hP
    (fun x hx j _ => b1.2 (by rw [if_pos hx, Nat.mul_one])) (fun x hx j => if_neg (by omega)) hp hq (fun x hx => by simpa using hb x hx) (by simpa using hbq)
    (fun x hx => by simpa using hd x hx)
    (fun i hi => POk.comp (fun j : Fin N => (⟨i * N + j.val, by have := j.isLt; rw [Nat.add_mul, Nat.one_mul] at hi; omega⟩ : Fin P)) Pr _ ok)
  refine ⟨m', e1, e2, fun j hj => ?_, fun a ha => e4 a (by simpa using ha)⟩
  obtain ⟨z, ez, hz⟩ := e3 j hj
  rw [← ez]
  simpa using b1.1 hz

end

/-! ### Instances -/

/-- `v1 = v0 & 15; v2 = v0 >> 4`. -/
def nibbles : List (Nat × Rhs) := [(1, .calc (.op2 .and (.var 0) (.lit false 15))), (2, .calc (.shr (.var 0) 4))]

/-- Two lookups by the halves of a byte, combined by an expression of variables 3 and 4. -/
def byNibble (T U : Fin 16 → BitVec 8) (e : Exp (fun _ => false) (.vec false)) : List (Nat × Rhs) := nibbles ++ [(3, .tab T 1), (4, .tab U 2), (5, .calc e)]

/-- The halves of a byte. -/
theorem nibbles_run (ρ : Nat → BitVec 8) : run nibbles ρ 1 = BitVec.ofNat 8 ((ρ 0).toNat % 16) ∧ run nibbles ρ 2 = BitVec.ofNat 8 ((ρ 0).toNat / 16) := by
  have k : ∀ x : BitVec 8, (Op2.and.lane 8 false false x (Spec.lane 8 (val false (15 : BitVec 64))) = BitVec.ofNat 8 (x.toNat % 16)) ∧
      Spec.lane 8 (val false x / 2 ^ 4) = BitVec.ofNat 8 (x.toNat / 16) := by decide +kernel
  exact k (ρ 0)

theorem byNibble_ok {c : Cfg} (hx : ¬ (c.xop = true ∧ c.avx512vl = true)) (r : Reg) {ι : Type} (E : ι → Nat → BitVec 8) (T U : Fin 16 → BitVec 8)
    (e : Exp (fun _ => false) (.vec false)) (he : e.simple 8 = true) : POk c r (byNibble T U e) E := by
  have k1 : ∀ x : BitVec 8, (Op2.and.lane 8 false false x (Spec.lane 8 (val false (15 : BitVec 64)))).toNat < 16 := by decide +kernel
  have k2 : ∀ x : BitVec 8, (Spec.lane 8 (val false x / 2 ^ 4)).toNat < 16 := by decide +kernel
  exact ⟨Exp.simple_ok hx _ _ _ rfl, Exp.simple_ok hx _ _ _ rfl, fun j => k1 _, fun j => k2 _, Exp.simple_ok hx _ _ _ he, trivial⟩

/-- The number of bits set in each number below 16. -/
def popT : Fin 16 → BitVec 8 := fun i => [0, 1, 1, 2, 1, 2, 2, 3, 1, 2, 2, 3, 2, 3, 3, 4].getD i.val 0

/-- The bits of each number below 16 in reverse order. -/
def revT : Fin 16 → BitVec 8 := fun i => [0, 8, 4, 12, 2, 10, 6, 14, 1, 9, 5, 13, 3, 11, 7, 15].getD i.val 0

/-- Counting the bits of each byte: `permute_bytes16(popT, x & 15) + permute_bytes16(popT, x >> 4)`. -/
def popP : List (Nat × Rhs) := byNibble popT popT (.op2 .add (.var 3) (.var 4))

/-- Reversing the bits of each byte: `(permute_bytes16(revT, x & 15) << 4) | permute_bytes16(revT, x >> 4)`. -/
def revP : List (Nat × Rhs) := byNibble revT revT (.op2 .or (.shl (.var 3) 4) (.var 4))

/-- The hexadecimal digits of the numbers below 16, in ASCII. -/
def hexT : Fin 16 → BitVec 8 := fun i => [48, 49, 50, 51, 52, 53, 54, 55, 56, 57, 97, 98, 99, 100, 101, 102].getD i.val 0

theorem popP_run (ρ : Nat → BitVec 8) : (run popP ρ 5).toNat = ∑ i ∈ Finset.range 8, ((ρ 0).getLsbD i).toNat := by
  have k : ∀ x : BitVec 8, (run popP (fun y => if y = 0 then x else 0) 5).toNat = ∑ i ∈ Finset.range 8, (x.getLsbD i).toNat := by decide +kernel
  exact k (ρ 0)

theorem revP_run (ρ : Nat → BitVec 8) (i : Nat) (hi : i < 8) : (run revP ρ 5).getLsbD i = (ρ 0).getLsbD (7 - i) := by
  have k : ∀ (x : BitVec 8) (i : Fin 8), (run revP (fun y => if y = 0 then x else 0) 5).getLsbD i.val = x.getLsbD (7 - i.val) := by decide +kernel
  exact k (ρ 0) ⟨i, hi⟩

section
variable {c : Cfg} (h : c.Ok) (hN : c.VLen 8 N) (hs : c.sse2 = true → c.ssse3 = true) (hx : ¬ (c.xop = true ∧ c.avx512vl = true))
  (jv : Nat → Vec 8 ((c.regK .int 8 N).lanes 8)) (jm : Nat → Mask 8 ((c.regK .int 8 N).lanes 8))
include h hN hs hx

/-- **C73**, an instance: the number of bits set in every byte of an array. -/
theorem C73_popcount (be : Bool) {p q cnt : Nat} (m : Mem) {P : Nat} (hP : P = (cnt + (N - 1)) / N * N) (hp : p % (c.regK .int 8 N).bytes = 0)
    (hq : q % (c.regK .int 8 N).bytes = 0) (hb : m.Block p P) (hbq : m.Block q P) (hd : q ≤ p ∨ p + P ≤ q) :
    ∃ m', kernel c be .int false 8 N 1 (progV c N jv jm popP 5) (fun _ => p) q cnt m = some m' ∧ m'.ok = m.ok ∧
      (∀ j, j < cnt → (m'.byte (q + j)).toNat = ∑ i ∈ Finset.range 8, ((m.byte (p + j)).getLsbD i).toNat) ∧ ∀ a, a < q ∨ q + cnt ≤ a → m'.byte a = m.byte a := by
  obtain ⟨m', e1, e2, e3, e4⟩ := C73_kernel h hN hs jv jm popP 5 be (V := 1) (p := fun _ => p) (q := q) (cnt := cnt) m hP (fun _ _ => hp) hq (fun _ _ => hb) hbq (fun _ _ => hd)
    (byNibble_ok hx _ _ _ _ _ rfl)
  exact ⟨m', e1, e2, fun j hj => by rw [e3 j hj, popP_run]; rfl, e4⟩

/-- **C73**, an instance: reversing the bits of every byte of an array. -/
theorem C73_bit_reverse (be : Bool) {p q cnt : Nat} (m : Mem) {P : Nat} (hP : P = (cnt + (N - 1)) / N * N) (hp : p % (c.regK .int 8 N).bytes = 0)
    (hq : q % (c.regK .int 8 N).bytes = 0) (hb : m.Block p P) (hbq : m.Block q P) (hd : q ≤ p ∨ p + P ≤ q) :
    ∃ m', kernel c be .int false 8 N 1 (progV c N jv jm revP 5) (fun _ => p) q cnt m = some m' ∧ m'.ok = m.ok ∧
      (∀ j, j < cnt → ∀ i, i < 8 → (m'.byte (q + j)).getLsbD i = (m.byte (p + j)).getLsbD (7 - i)) ∧ ∀ a, a < q ∨ q + cnt ≤ a → m'.byte a = m.byte a := by
  obtain ⟨m', e1, e2, e3, e4⟩ := C73_kernel h hN hs jv jm revP 5 be (V := 1) (p := fun _ => p) (q := q) (cnt := cnt) m hP (fun _ _ => hp) hq (fun _ _ => hb) hbq (fun _ _ => hd)
    (byNibble_ok hx _ _ _ _ _ rfl)
  exact ⟨m', e1, e2, fun j hj i hi => by rw [e3 j hj, revP_run _ _ hi]; rfl, e4⟩

/-- **C73**, an instance: looking up numbers below 16 in any table of 16 bytes (`hexT` for hexadecimal digits), in place or not. -/
theorem C73_lookup (T : Fin 16 → BitVec 8) (be : Bool) {p q cnt : Nat} (m : Mem) {P : Nat} (hP : P = (cnt + (N - 1)) / N * N) (hp : p % (c.regK .int 8 N).bytes = 0)
    (hq : q % (c.regK .int 8 N).bytes = 0) (hb : m.Block p P) (hbq : m.Block q P) (hd : q ≤ p ∨ p + P ≤ q) :
    ∃ m', kernel c be .int false 8 N 1 (progV c N jv jm [(1, .calc (.op2 .and (.var 0) (.lit false 15))), (2, .tab T 1)] 2) (fun _ => p) q cnt m = some m' ∧ m'.ok = m.ok ∧
      (∀ j, j < cnt → m'.byte (q + j) = T (Fin.ofNat 16 (m.byte (p + j)).toNat)) ∧ ∀ a, a < q ∨ q + cnt ≤ a → m'.byte a = m.byte a := by
  have k1 : ∀ x : BitVec 8, (Op2.and.lane 8 false false x (Spec.lane 8 (val false (15 : BitVec 64)))).toNat = x.toNat % 16 := by decide +kernel
  obtain ⟨m', e1, e2, e3, e4⟩ := C73_kernel h hN hs jv jm [(1, .calc (.op2 .and (.var 0) (.lit false 15))), (2, .tab T 1)] 2 be (V := 1) (p := fun _ => p) (q := q) (cnt := cnt) m hP
    (fun _ _ => hp) hq (fun _ _ => hb) hbq (fun _ _ => hd)
    ⟨Exp.simple_ok hx _ _ _ rfl, fun j => (k1 _).trans_lt (Nat.mod_lt _ (by decide)), trivial⟩
  refine ⟨m', e1, e2, fun j hj => (e3 j hj).trans (congrArg T (Fin.ext ?_)), e4⟩
  show (Op2.and.lane 8 false false (m.byte (p + j)) (Spec.lane 8 (val false (15 : BitVec 64)))).toNat % 16 = (m.byte (p + j)).toNat % 16
  rw [k1, Nat.mod_mod]

end

/-! ### Concrete cases -/

/-- 20 bytes, two registers each, in place. -/
example (m : Mem) (hm : ∀ a, m.ok a = true) (jv jm) : ∃ m', kernel Cfg.ssse3Only false .int false 8 16 1 (progV Cfg.ssse3Only 16 jv jm popP 5) (fun _ => 64) 64 20 m = some m' ∧
    (m.byte 70 = 0xb5 → m'.byte 70 = 5) ∧ m'.byte 84 = m.byte 84 := by
  obtain ⟨m', e, -, f, g⟩ := C73_popcount Cfg.ssse3Only_ok (N := 16) (Or.inl ⟨.r128, by decide +kernel, by decide +kernel⟩) (by decide) (by decide) jv jm false (p := 64) (q := 64)
    (cnt := 20) m (P := 32) (by decide) (by decide +kernel) (by decide +kernel) (fun _ _ _ => hm _) (fun _ _ _ => hm _) (Or.inl (Nat.le_refl _))
  refine ⟨m', e, fun h => ?_, g 84 (Or.inr (Nat.le_refl _))⟩
  have := f 6 (by decide)
  rw [show 64 + 6 = 70 from rfl, h] at this
  exact BitVec.eq_of_toNat_eq (this.trans (by decide +kernel))

/-- Hexadecimal digits of 40 bytes with a vector of two 256-bit registers. -/
example (m : Mem) (hm : ∀ a, m.ok a = true) (jv jm) :
    ∃ m', kernel Cfg.avx2Only false .int false 8 64 1 (progV Cfg.avx2Only 64 jv jm [(1, .calc (.op2 .and (.var 0) (.lit false 15))), (2, .tab hexT 1)] 2) (fun _ => 128) 512 40 m = some m' ∧
      (m.byte 139 = 12 → m'.byte 523 = 99) := by
  obtain ⟨m', e, -, f, -⟩ := C73_lookup Cfg.avx2Only_ok (N := 64) (Or.inr ⟨2, by decide, by decide +kernel⟩) (by decide) (by decide) jv jm hexT false (p := 128) (q := 512)
    (cnt := 40) m (P := 64) (by decide) (by decide +kernel) (by decide +kernel) (fun _ _ _ => hm _) (fun _ _ _ => hm _) (Or.inr (by decide))
  refine ⟨m', e, fun h => ?_⟩
  have := f 11 (by decide)
  rw [show 128 + 11 = 139 from rfl, h] at this
  exact this

end Simdpp
