import Verif.Model.UProg
import Verif.Props.MProg

/-!
# C63: loops over arrays at arbitrary addresses
-/

namespace Simdpp
open Spec Spec.Prog Spec.FProg Spec.MProg

variable {N : Nat} {Γ : Nat → ETy} {t : ETy}

attribute [local irreducible] Fp.mul Fp.fma Fp.sub Fp.add Fp.round Fp.div Fp.sqrt Fp.conv Fp.ofInt Fp.truncInt

/-- Where the array `p` of `P` elements of `w` bits may be and what may be accessed, read with `load` or (`un`) with `load_u`: `load` wants the alignment of
the register; `load_u` the alignment of the element, and on AltiVec without VSX it also reads the rest of the 16-byte blocks the array lies in. -/
def InArr (c : Cfg) (un : Bool) (k : Kind) (w N P p : Nat) (m : Mem) : Prop :=
  if un then p % (w / 8) = 0 ∧ m.Block p (P * (w / 8)) ∧ (c.altivec = true → c.vsx206 = false → m.Block (p / 16 * 16) (P * (w / 8) + 16))
  else p % (c.regK k w N).bytes = 0 ∧ m.Block p (P * (w / 8))

/-- The bytes of a register are a multiple of 16. -/
theorem reg16 (r : Reg) : r.bytes % 16 = 0 := by cases r <;> rfl

/-- The vector read from element `i * N` of an array, after the first `i * N` elements of the output have been written. -/
theorem loadAt_done {c : Cfg} (h : c.Ok) {un : Bool} {k : Kind} {v w : Nat} (okW : k.okW v) (hN : c.KLen k v N) {p q i : Nat} {m m' : Mem} {A : Nat → BitVec v}
    (hA : ∀ j, j < (i + 1) * N → Holds m.byte (p + j * (v / 8)) (A j)) (hp : InArr c un k v N ((i + 1) * N) p m)
    (hd : q + i * N * (w / 8) ≤ p + i * N * (v / 8) ∨ p + (i + 1) * N * (v / 8) ≤ q)
    {R : Nat → BitVec w} (D : Done m m' q (i * N) R) :
    loadAt c un k v N m' (p + i * (N * (v / 8))) = some (fun l => A (i * N + l.val)) := by
  unfold loadAt
  unfold InArr at hp
  cases un
  · rw [if_neg Bool.false_ne_true] at hp ⊢
    exact load_done h okW hN hA hp.1 hp.2 hd D
  rw [if_pos rfl] at hp ⊢
  have hw := okW.isW
  obtain ⟨hr, K, -, eN⟩ := KLen.regs h okW hN
  have eB : N * (v / 8) = K * (c.regK k v N).bytes := by
    conv_lhs => rw [eN]
    rw [Nat.mul_assoc, bytes_eq hw]
  have e1 : (i + 1) * N * (v / 8) = i * (N * (v / 8)) + N * (v / 8) := by rw [Nat.add_mul, Nat.add_mul, Nat.one_mul, Nat.mul_assoc]
  have e16 : i * (N * (v / 8)) % 16 = 0 := by
    rw [eB, ← Nat.mul_assoc]
    exact Nat.mod_eq_zero_of_dvd (Nat.dvd_trans (Nat.dvd_of_mod_eq_zero (reg16 _)) (Nat.dvd_mul_left _ _))
  rw [load_u_eq h okW hN]
  · refine congrArg some (funext fun l => ?_)
    refine holds_inj okW (Mem.get_holds hw m' _ l) fun j hj => ?_
    have hl : (i * N + l.val) * (v / 8) + v / 8 ≤ i * (N * (v / 8)) + N * (v / 8) := by
      rw [← e1]
      calc (i * N + l.val) * (v / 8) + v / 8 = (i * N + l.val + 1) * (v / 8) := by rw [Nat.add_mul (i * N + l.val), Nat.one_mul]
        _ ≤ _ := Nat.mul_le_mul_right _ (by have := l.isLt; rw [Nat.add_mul, Nat.one_mul]; omega)
    have e2 : p + i * (N * (v / 8)) + l.val * (v / 8) = p + (i * N + l.val) * (v / 8) := by
      rw [Nat.add_mul (i * N), Nat.mul_assoc]; omega
    have e3 : i * N * (v / 8) = i * (N * (v / 8)) := Nat.mul_assoc _ _ _
    have e4 : i * N * (v / 8) ≤ (i * N + l.val) * (v / 8) := Nat.mul_le_mul_right _ (by omega)
    rw [e2, D.rest, hA (i * N + l.val) (by have := l.isLt; rw [Nat.add_mul, Nat.one_mul]; omega) j hj]
    rcases hd with g | g
    · right; omega
    · left; omega
  · rw [Nat.add_mod, hp.1, ← Nat.mul_assoc, Nat.mul_mod_left, Nat.zero_mod]
  · intro a g1 g2
    rw [D.ok]
    exact hp.2.1 a (by omega) (by omega)
  · intro g g' a g1 g2
    rw [D.ok]
    have := hp.2.2 g g'
    exact this a (by omega) (by omega)

theorem loadsU_eq {c : Cfg} {un : Nat → Bool} {p : Nat → Nat} {i : Nat} {m : Mem} (L : (x : Nat) → Vec (Γ x).w N) : (V : Nat) →
    (∀ x, x < V → loadAt c (un x) (Γ x).kind (Γ x).w N m (p x + i * (N * ((Γ x).w / 8))) = some (L x)) →
    loadsU (Γ := Γ) c N un p i m V = some (fun x => if x < V then L x else fun _ => 0)
  | 0, _ => by
    unfold loadsU
    refine congrArg some (funext fun x => ?_)
    rw [if_neg (Nat.not_lt_zero x)]
  | V + 1, hl => by
    unfold loadsU
    refine (bind_of (loadsU_eq L V fun x hx => hl x (by omega)) _).trans ((bind_of (hl V (Nat.lt_succ_self V)) _).trans ?_)
    refine congrArg some (funext fun x => ?_)
    by_cases g : x = V
    · subst g
      rw [dif_pos rfl, if_pos (Nat.lt_succ_self x)]
    · rw [dif_neg g]
      exact if_congr (by omega) rfl rfl

/-- The inputs of a loop: `V` arrays of element types `Γ`, the elements `A`, which may be read as `un` says, up to `P` elements; an array which
overlaps the output (`P` elements at `q`) does not start before it and does not have smaller elements. -/
structure Inputs (c : Cfg) (N P V : Nat) (Γ : Nat → ETy) (t : ETy) (un : Nat → Bool) (p : Nat → Nat) (q : Nat) (m : Mem)
    (A : (x : Nat) → Nat → BitVec (Γ x).w) : Prop where
  len : ∀ x, x < V → c.TLen (Γ x) N
  val : ∀ x, x < V → ∀ j, j < P → Holds m.byte (p x + j * ((Γ x).w / 8)) (A x j)
  rest : ∀ x, V ≤ x → ∀ j, A x j = 0
  acc : ∀ x, x < V → InArr c (un x) (Γ x).kind (Γ x).w N P (p x) m
  apart : ∀ x, x < V → (q ≤ p x ∧ t.w ≤ (Γ x).w) ∨ p x + P * ((Γ x).w / 8) ≤ q ∨ q + P * (t.w / 8) ≤ p x

theorem InArr.le {c : Cfg} {un : Bool} {k : Kind} {w N P P' p : Nat} {m : Mem} (H : InArr c un k w N P p m) (hle : P' ≤ P) : InArr c un k w N P' p m := by
  have l1 := Nat.mul_le_mul_right (w / 8) hle
  unfold InArr at *
  split_ifs at *
  · exact ⟨H.1, fun a g1 g2 => H.2.1 a g1 (by omega), fun g g' a g1 g2 => H.2.2 g g' a g1 (by omega)⟩
  · exact ⟨H.1, fun a g1 g2 => H.2 a g1 (by omega)⟩

theorem ukernelStep_eq {c : Cfg} (h : c.Ok) {I : (f : FWd) → Impl f.n} (hI : IsImpls c N I) (E : Est) (J : Junk c N) {V P : Nat} {e : MExp Γ t} {un : Nat → Bool}
    {p : Nat → Nat} {q : Nat} {m : Mem} {A : (x : Nat) → Nat → BitVec (Γ x).w} (H : Inputs c N P V Γ t un p q m A)
    (ok : e.Ok c N I (fun (j : Fin P) x => A x j.val)) {i : Nat} (hle : (i + 1) * N ≤ P) {s : Mem} {R : Nat → BitVec t.w} (D : Done m s q (i * N) R) :
    ukernelStep c E J V e un p i s = some (fun l : Fin N => e.den I fun x => A x (i * N + l.val)) := by
  have ld : ∀ x, x < V → loadAt c (un x) (Γ x).kind (Γ x).w N s (p x + i * (N * ((Γ x).w / 8))) = some (fun l : Fin N => A x (i * N + l.val)) := fun x hx => by
    have l1 := Nat.mul_le_mul_right ((Γ x).w / 8) hle
    refine loadAt_done h (ETy.okW _) (H.len x hx) (fun j hj => H.val x hx j (by omega)) ((H.acc x hx).le hle) ?_ D
    rcases H.apart x hx with ⟨g1, g2⟩ | g | g
    · have := Nat.mul_le_mul_left (i * N) (Nat.div_le_div_right (c := 8) g2)
      left; omega
    · right; omega
    · have := Nat.mul_le_mul_right (t.w / 8) (show i * N ≤ P by rw [Nat.add_mul, Nat.one_mul] at hle; omega)
      left; omega
  have el : loadsU (Γ := Γ) c N un p i s V = some (fun x (l : Fin N) => A x (i * N + l.val)) := by
    rw [loadsU_eq _ V ld]
    refine congrArg some (funext fun x => ?_)
    split_ifs with g
    · rfl
    · exact funext fun l => (H.rest x (by omega) _).symm
  refine (bind_of el _).trans (MExp.run_eq h hI E J _ e ?_)
  exact MExp.Ok.comp (fun j : Fin N => (⟨i * N + j.val, by have := j.isLt; rw [Nat.add_mul, Nat.one_mul] at hle; omega⟩ : Fin P)) e ok

/-- **C63.** The loop with inputs at arbitrary addresses and an aligned output is the scalar loop. -/
theorem C63_kernel {c : Cfg} (h : c.Ok) (N : Nat) (E : Est) : ∃ I : (f : FWd) → Impl f.n,
    (∀ f, (I f).Ok ∧ (¬ c.mulByFma f.n (c.regK .flt f.n N) → (I f).mul = Fp.mul)) ∧
    ∀ (Γ : Nat → ETy) (t : ETy) (e : MExp Γ t) (be : Bool) (J : Junk c N) (V : Nat) (un : Nat → Bool) (p : Nat → Nat) (q cnt : Nat) (m : Mem)
      (A : (x : Nat) → Nat → BitVec (Γ x).w) (P : Nat), P = (cnt + (N - 1)) / N * N →
      Inputs c N P V Γ t un p q m A → e.Ok c N I (fun (j : Fin P) x => A x j.val) →
      q % (c.regK t.kind t.w N).bytes = 0 → m.Block q (P * (t.w / 8)) →
      ∃ m', ukernel c be E J V e un p q cnt m = some m' ∧ m'.ok = m.ok ∧
        (∀ j, j < cnt → Holds m'.byte (q + j * (t.w / 8)) (e.den I fun x => A x j)) ∧
        ∀ a, a < q ∨ q + cnt * (t.w / 8) ≤ a → m'.byte a = m.byte a := by
  obtain ⟨I, h1, h2⟩ := impls_ex h N
  refine ⟨I, h2, fun Γ t e be J V un p q cnt m A P hP H ok hq hbq => ?_⟩
  obtain ⟨m', e1, e2, e3, e4⟩ := kernelG_all h (ETy.okW t) ok.len (stp := ukernelStep c E J V e un p) (F := fun j y => y = e.den I fun x => A x j)
    be t.signed m hP hq hbq fun i hi hle s R D => ⟨_, ukernelStep_eq h h1 E J H ok hle D, fun l => rfl⟩
  refine ⟨m', e1, e2, fun j hj => ?_, e4⟩
  obtain ⟨y, ey, hy⟩ := e3 j hj
  exact ey ▸ hy

/-- **C63.** The loop with `store_u`, over `n` vectors: the output may lie at any address (a multiple of the element size for floating point; on
AltiVec without VSX the whole 16-byte blocks are accessed). -/
theorem C63_kernel_unaligned {c : Cfg} (h : c.Ok) (N : Nat) (E : Est) : ∃ I : (f : FWd) → Impl f.n,
    (∀ f, (I f).Ok ∧ (¬ c.mulByFma f.n (c.regK .flt f.n N) → (I f).mul = Fp.mul)) ∧
    ∀ (Γ : Nat → ETy) (t : ETy) (e : MExp Γ t) (J : Junk c N) (V : Nat) (un : Nat → Bool) (p : Nat → Nat) (q n : Nat) (m : Mem)
      (A : (x : Nat) → Nat → BitVec (Γ x).w),
      Inputs c N (n * N) V Γ t un p q m A → e.Ok c N I (fun (j : Fin (n * N)) x => A x j.val) →
      (t.kind = .flt → q % (t.w / 8) = 0) → m.Block q (n * N * (t.w / 8)) →
      (c.altivec = true → c.vsx206 = false → m.Block (q / 16 * 16) ((q + 15) / 16 * 16 - q / 16 * 16 + n * N * (t.w / 8))) →
      ∃ m', ukernelU c E J V e un p q n m = some m' ∧ m'.ok = m.ok ∧
        (∀ j, j < n * N → Holds m'.byte (q + j * (t.w / 8)) (e.den I fun x => A x j)) ∧
        ∀ a, a < q ∨ q + n * N * (t.w / 8) ≤ a → m'.byte a = m.byte a := by
  obtain ⟨I, h1, h2⟩ := impls_ex h N
  refine ⟨I, h2, fun Γ t e J V un p q n m A H ok hq hbq hal => ?_⟩
  have okW := ETy.okW t
  have hw := okW.isW
  obtain ⟨hr, K, -, eN⟩ := KLen.regs h okW ok.len
  have eB : N * (t.w / 8) = K * (c.regK t.kind t.w N).bytes := by
    conv_lhs => rw [eN]
    rw [Nat.mul_assoc, bytes_eq hw]
  have e16 : ∀ i, i * (N * (t.w / 8)) % 16 = 0 := fun i => by
    rw [eB, ← Nat.mul_assoc]
    exact Nat.mod_eq_zero_of_dvd (Nat.dvd_trans (Nat.dvd_of_mod_eq_zero (reg16 _)) (Nat.dvd_mul_left _ _))
  obtain ⟨m1, e1, D⟩ := loopM_inv (body := fun i m => do store_u c t.kind m (q + i * (N * (t.w / 8))) (← ukernelStep c E J V e un p i m)) (lo := 0)
    (m := n) (s := m) (fun i s => Done m s q (i * N) (fun j => e.den I fun x => A x j))
    ⟨rfl, fun j hj => by omega, fun _ _ => rfl⟩ (fun i hi s D => by
      rw [Nat.zero_add]
      have hle : (i + 1) * N ≤ n * N := Nat.mul_le_mul_right N hi
      have l1 := Nat.mul_le_mul_right (t.w / 8) hle
      have e3 : (i + 1) * N * (t.w / 8) = i * (N * (t.w / 8)) + N * (t.w / 8) := by rw [Nat.add_mul, Nat.one_mul, Nat.add_mul, Nat.mul_assoc]
      have ei := e16 i
      refine ⟨_, (bind_of (ukernelStep_eq h h1 E J H ok hle D) _).trans (store_u_eq h okW ok.len (fun g => ?_) (fun a g1 g2 => ?_) (fun g g' a g1 g2 => ?_) _), ?_⟩
      · rw [Nat.add_mod, hq g, ← Nat.mul_assoc, Nat.mul_mod_left, Nat.zero_mod]
      · rw [D.ok]; exact hbq a (by omega) (by omega)
      · rw [D.ok]; exact hal g g' a (by omega) (by omega)
      · have e2 : ∀ a : Vec t.w N, s.put (q + i * (N * (t.w / 8))) a (fun _ => true) = s.put (q + i * (N * (t.w / 8))) a (fun l => decide (l < N)) := fun a =>
          Mem.put_congr hw (fun i => (decide_eq_true i.isLt).symm) fun _ _ => rfl
        rw [e2]
        have := D.put okW (Nat.le_refl N)
        rwa [show i * N + N = (i + 1) * N by rw [Nat.add_mul, Nat.one_mul]] at this)
  exact ⟨m1, e1, D.ok, D.val, D.rest⟩

/-- **C63.** Moving windows: `out[j] = f(in[j], in[j + 1], .., in[j + V - 1])` for `j < cnt`, computed with one `load_u` per tap, on one array of elements of the
type `u` which starts at any element address `b`. The input may be the output (`q = b`, elements of the same size) or start anywhere after it. -/
theorem C63_window {c : Cfg} (h : c.Ok) (N : Nat) (E : Est) : ∃ I : (f : FWd) → Impl f.n,
    (∀ f, (I f).Ok ∧ (¬ c.mulByFma f.n (c.regK .flt f.n N) → (I f).mul = Fp.mul)) ∧
    ∀ (u t : ETy) (e : MExp (fun _ => u) t) (be : Bool) (J : Junk c N) (V b q cnt : Nat) (m : Mem) (B : Nat → BitVec u.w) (P : Nat),
      P = (cnt + (N - 1)) / N * N → c.TLen u N →
      (∀ j, j + 1 < P + V → Holds m.byte (b + j * (u.w / 8)) (B j)) → b % (u.w / 8) = 0 → m.Block b ((P + V - 1) * (u.w / 8)) →
      (c.altivec = true → c.vsx206 = false → m.Block (b / 16 * 16) ((P + V) * (u.w / 8) + 32)) →
      (q ≤ b ∧ t.w ≤ u.w ∨ b + (P + V) * (u.w / 8) ≤ q ∨ q + P * (t.w / 8) ≤ b) →
      e.Ok c N I (fun (j : Fin P) x => if x < V then B (j.val + x) else 0) →
      q % (c.regK t.kind t.w N).bytes = 0 → m.Block q (P * (t.w / 8)) →
      ∃ m', ukernel c be E J V e (fun _ => true) (fun x => b + x * (u.w / 8)) q cnt m = some m' ∧ m'.ok = m.ok ∧
        (∀ j, j < cnt → Holds m'.byte (q + j * (t.w / 8)) (e.den I fun x => if x < V then B (j + x) else 0)) ∧
        ∀ a, a < q ∨ q + cnt * (t.w / 8) ≤ a → m'.byte a = m.byte a := by
  obtain ⟨I, h2, h3⟩ := C63_kernel h N E
  refine ⟨I, h2, fun u t e be J V b q cnt m B P hP hu hB hb hbb hba hd ok hq hbq => ?_⟩
  refine h3 (fun _ => u) t e be J V (fun _ => true) (fun x => b + x * (u.w / 8)) q cnt m (fun x j => if x < V then B (j + x) else 0) P hP ?_ ok hq hbq
  have hw := (ETy.okW u).isW
  have hx : ∀ x, x < V → (x + 1) * (u.w / 8) ≤ V * (u.w / 8) := fun x g => Nat.mul_le_mul_right _ g
  have e1 : ∀ x, (x + 1) * (u.w / 8) = x * (u.w / 8) + u.w / 8 := fun x => by rw [Nat.add_mul, Nat.one_mul]
  have e2 : (P + V) * (u.w / 8) = P * (u.w / 8) + V * (u.w / 8) := Nat.add_mul _ _ _
  refine ⟨fun x _ => hu, fun x g j gj => ?_, fun x g j => if_neg (by omega), fun x g => ?_, fun x g => ?_⟩
  · rw [if_pos g, show b + x * (u.w / 8) + j * (u.w / 8) = b + (j + x) * (u.w / 8) by rw [Nat.add_mul]; omega]
    exact hB (j + x) (by omega)
  · have := hx x g
    rw [e1] at this
    unfold InArr
    rw [if_pos rfl]
    refine ⟨by rw [Nat.add_mod, hb, Nat.mul_mod_left, Nat.zero_mod], fun a g1 g2 => hbb a (by omega) ?_, fun q q' a g1 g2 => hba q q' a (by omega) (by omega)⟩
    have e3 := Nat.mul_le_mul_right (u.w / 8) (show P + x ≤ P + V - 1 by omega)
    rw [Nat.add_mul] at e3
    omega
  · have := hx x g
    rw [e1] at this
    rcases hd with ⟨g1, g2⟩ | g1 | g1
    · exact .inl ⟨by omega, g2⟩
    · right; left; show b + x * (u.w / 8) + P * (u.w / 8) ≤ q; omega
    · right; right; omega

/-- `in[j] + in[j + 1] + in[j + 2]` of `int32` elements. -/
def tap3 : MExp (fun _ => .int true .b32) (.int true .b32) :=
  .ints (u := .b32) 3 (fun _ => true) (.op2 .add (.op2 .add (.var 0) (.var 1)) (.var 2)) fun x => .var x.val

/-- A sum of three neighbours over five `int32` elements at address 64, in place: `load_u` at 64, 68 and 72. -/
example (m : Mem) (hm : ∀ a, m.ok a = true) (E : Est) (J : Junk Cfg.sse2Only 4) :
    ∃ m', ukernel Cfg.sse2Only false E J 3 tap3 (fun _ => true) (fun x => 64 + x * 4) 64 5 m = some m' ∧
      (∀ j, j < 5 → ∃ y : BitVec 32, Holds m'.byte (64 + j * 4) y ∧
        y = (m.get 32 1 (64 + j * 4)).at_ 0 + (m.get 32 1 (64 + (j + 1) * 4)).at_ 0 + (m.get 32 1 (64 + (j + 2) * 4)).at_ 0) ∧
      ∀ a, a < 64 ∨ 84 ≤ a → m'.byte a = m.byte a := by
  have hH : ∀ a, Holds m.byte a ((m.get 32 1 a).at_ 0) := fun a => by
    have := Mem.get_holds (n := 1) iw32 m a 0
    rwa [Fin.val_zero, Nat.zero_mul, Nat.add_zero] at this
  have hl : Cfg.sse2Only.VLen 32 4 := Or.inl ⟨.r128, by decide +kernel, by decide +kernel⟩
  obtain ⟨I, -, run⟩ := C63_window Cfg.sse2Only_ok 4 E
  obtain ⟨m', e1, -, e2, e3⟩ := run (.int true .b32) (.int true .b32) tap3 false J 3 64 64 5 m (fun j => (m.get 32 1 (64 + j * 4)).at_ 0) 8 (by decide) hl
    (fun j _ => hH _) (by decide) (fun _ _ _ => hm _) (fun _ _ _ _ _ => hm _) (.inl ⟨by decide, by decide⟩) ⟨hl, fun _ => hl, ⟨trivial, trivial, trivial⟩, trivial, trivial⟩ (by decide +kernel) (fun _ _ _ => hm _)
  refine ⟨m', e1, fun j hj => ⟨_, e2 j hj, ?_⟩, e3⟩
  have key : ∀ x y : BitVec 32, Spec.lane 32 (val true x + val true y) = x + y := fun x y => by
    unfold Spec.lane val
    rw [if_pos rfl, if_pos rfl, BitVec.ofInt_add, BitVec.ofInt_toInt, BitVec.ofInt_toInt]
  refine (key _ _).trans ?_
  exact congrArg₂ (· + ·) (key _ _) rfl

end Simdpp
