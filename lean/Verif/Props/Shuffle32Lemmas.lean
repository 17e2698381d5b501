import Verif.Model.Shuffle32

/-!
# Exhaustive verification of the selector dispatch

The selectors of a template are compile-time constants below 4 or 8 (`static_assert`); every
instantiation is checked here by kernel evaluation of its `Prog`. The vectors are not involved:
`Prog.run_eq` extends each check to all register contents.
-/

namespace Simdpp

open Sh

/-- All tuples below `m`. -/
def all2 (m : Nat) (f : Nat → Nat → Bool) : Bool :=
  (List.range m).all fun a => (List.range m).all fun b => f a b

/-- All tuples below `m`. -/
def all4 (m : Nat) (f : Nat → Nat → Nat → Nat → Bool) : Bool :=
  all2 m fun a b => all2 m fun c d => f a b c d

theorem all2_spec {m : Nat} {f : Nat → Nat → Bool} (h : all2 m f = true) {a b : Nat} (ha : a < m)
    (hb : b < m) : f a b = true := by
  unfold all2 at h
  simp only [List.all_eq_true, List.mem_range] at h
  exact h a ha b hb

theorem all4_spec {m : Nat} {f : Nat → Nat → Nat → Nat → Bool} (h : all4 m f = true) {a b c d : Nat}
    (ha : a < m) (hb : b < m) (hc : c < m) (hd : d < m) : f a b c d = true :=
  all2_spec (all2_spec (f := fun a b => all2 m fun c d => f a b c d) h ha hb) hc hd

/-- The program is well formed on an `n`-lane register and selects by `t`. -/
def Prog.chk (L n w : Nat) (p : Prog) (t : Nat → Nat) : Bool :=
  p.ok L n w && (List.range L).all fun j => p.idx L j == t j

theorem Prog.chk_run {L n w : Nat} (hL : 0 < L) (hn : L ∣ n) {p : Prog} {t : Nat → Nat}
    (h : p.chk L n w t = true) (x y : Vec w n) : p.run L x y = gather L t x y := by
  unfold Prog.chk at h
  simp only [Bool.and_eq_true, List.all_eq_true, List.mem_range, beq_iff_eq] at h
  exact Prog.run_eq hL hn p h.1 h.2 x y

end Simdpp
