import Mathlib.Logic.Function.Basic

/-!
# Threads which share memory

A thread is a sequence of accesses to single bytes; several threads run in any interleaving of these accesses. A vector access is the accesses to its bytes,
so no atomicity of vector loads and stores is assumed.
-/

namespace Simdpp.Spec.Thr

/-- Shared memory: the addresses which may be accessed and the bytes. -/
structure Shared where
  ok : Nat → Bool
  byte : Nat → BitVec 8

/-- The byte at `p` replaced. -/
def Shared.set (m : Shared) (p : Nat) (b : BitVec 8) : Shared := { m with byte := fun x => if x = p then b else m.byte x }

/-- What a thread has still to do: finished with a result, undefined behaviour, read a byte and go on with its value, or write a byte and go on. -/
inductive Act (α : Type) : Type where
  | ret (x : α) : Act α
  | fail : Act α
  | rd1 (p : Nat) (f : BitVec 8 → Act α) : Act α
  | wr1 (p : Nat) (b : BitVec 8) (k : Act α) : Act α

variable {α β : Type}

/-- One access of one thread. -/
inductive Step : Act α → Shared → Act α → Shared → Prop where
  | rd {p f m} : m.ok p = true → Step (.rd1 p f) m (f (m.byte p)) m
  | wr {p b k m} : m.ok p = true → Step (.wr1 p b k) m k (m.set p b)

/-- Any number of accesses of the threads `S`, in any order that keeps the order of each thread; the last argument counts them. -/
inductive Exec {ι : Type} [DecidableEq ι] : (ι → Act α) → Shared → (ι → Act α) → Shared → Nat → Prop where
  | refl {S m} : Exec S m S m 0
  | tail {S m S' m' n i A m''} : Exec S m S' m' n → Step (S' i) m' A m'' → Exec S m (Function.update S' i A) m'' (n + 1)

/-- All threads have finished. -/
def Finished {ι : Type} (S : ι → Act α) : Prop := ∀ i, ∃ x, S i = .ret x

/-- A thread which has neither finished nor can go on: it would access memory it may not, or has undefined behaviour. -/
def Stuck (A : Act α) (m : Shared) : Prop := (∀ x, A ≠ .ret x) ∧ ∀ B m', ¬ Step A m B m'

end Simdpp.Spec.Thr
