import Verif.Model.Vec

/-!
# `aligned_allocator<T, A>` (`simdpp/core/aligned_allocator.h`)

Addresses and sizes are `W = 8 * P` bit numbers, `P = sizeof(void*)`; all size arithmetic wraps
as in C++. Memory is byte addressed. `operator new` is nondeterministic.
-/

namespace Simdpp.Alloc

/-- The parameters: `P = sizeof(void*)`, `A` the requested alignment, `S = sizeof(T)`. -/
structure Params where
  P : Nat
  A : Nat
  S : Nat

/-- Number of address bits. -/
def Params.W (q : Params) : Nat := 8 * q.P

/-- What the compiler accepts: pointers of 4 or 8 bytes, `sizeof(T) > 0`, `A` a `size_t` that passes
the static assertion. Models /repo/simdpp/core/aligned_allocator.h:22-26. -/
structure Params.Ok (q : Params) : Prop where
  ptr : q.P = 4 ∨ q.P = 8
  size : 0 < q.S
  afits : q.A < 2 ^ q.W
  pow2 : q.A &&& (q.A - 1) = 0

/-- `max_size()`. Models /repo/simdpp/core/aligned_allocator.h:57-60. -/
def max_size (q : Params) : Nat := (2 ^ q.W - 1) / q.S

/-- `al`. Models /repo/simdpp/core/aligned_allocator.h:94. -/
def al (q : Params) : Nat := if q.A < 2 * q.P then 2 * q.P else q.A

/-- The argument of `new char[...]`, as a `size_t`. Models /repo/simdpp/core/aligned_allocator.h:96. -/
def newSize (q : Params) (n : Nat) : Nat := (n * q.S + al q) % 2 ^ q.W

/-- `upv = (upv + al) & ~(al - 1)`. Models /repo/simdpp/core/aligned_allocator.h:97-98. -/
def alignUp (q : Params) (pv : Nat) : Nat :=
  (BitVec.ofNat q.W (pv + al q) &&& ~~~(BitVec.ofNat q.W (al q - 1))).toNat

/-- Memory: a byte for every address. -/
abbrev Mem := Nat → BitVec 8

/-- `*(char**)a = v`: little-endian store of a pointer. Models the assignment in
/repo/simdpp/core/aligned_allocator.h:101. -/
def storePtr (q : Params) (m : Mem) (a v : Nat) : Mem := fun x =>
  if a ≤ x ∧ x < a + q.P then ofBits 8 (fun k => (BitVec.ofNat q.W v).getLsbD (8 * (x - a) + k)) else m x

/-- `*(char**)a`. Models the read in /repo/simdpp/core/aligned_allocator.h:113. -/
def loadPtr (q : Params) (m : Mem) (a : Nat) : Nat :=
  (ofBits q.W (fun k => (m (a + k / 8)).getLsbD (k % 8))).toNat

/-- A live object array handed to the user (ghost record): the pointer returned, the number of
elements asked for, and the block `operator new` had returned. -/
structure Live where
  user : Nat
  n : Nat
  raw : Nat
deriving DecidableEq

/-- State: memory, the blocks (address, size) obtained from `operator new[]` and not yet passed to
`operator delete[]`, the live user arrays (ghost), and whether `delete[]` was ever called with
something that is not a live block (undefined behaviour). -/
structure State where
  mem : Mem
  blocks : List (Nat × Nat)
  live : List Live
  badFree : Bool

/-- Start of the program. -/
def init (m : Mem) : State := ⟨m, [], [], false⟩

/-- Half-open address ranges do not meet. -/
def Disj (a la b lb : Nat) : Prop := a + la ≤ b ∨ b + lb ≤ a

/-- What `operator new[](size)` guarantees about the block it returns: not null, in the address space,
aligned for a pointer, and disjoint from all other live blocks. -/
structure NewOk (q : Params) (s : State) (size p : Nat) : Prop where
  nonnull : 0 < p
  fits : p + size ≤ 2 ^ q.W
  aligned : q.P ∣ p
  fresh : ∀ b ∈ s.blocks, Disj p size b.1 b.2

/-- The result of `allocate(n)`. -/
inductive Result
  | null
  | lengthError
  | ptr (u : Nat)
deriving DecidableEq

/-- `allocate(n)` when `operator new[]`, if called, returns `p`. The state after it and the result.
Models /repo/simdpp/core/aligned_allocator.h:77-104. (A `bad_alloc` from `operator new` leaves
the state as it is.) -/
def allocate (q : Params) (s : State) (n p : Nat) : State × Result :=
  if n = 0 then (s, .null)
  else if max_size q < n then (s, .lengthError)
  else
    let u := alignUp q p
    ({ s with
        blocks := (p, newSize q n) :: s.blocks
        mem := storePtr q s.mem (u - q.P) p
        live := ⟨u, n, p⟩ :: s.live }, .ptr u)

/-- `deallocate(u, _)`. Models /repo/simdpp/core/aligned_allocator.h:106-114. -/
def deallocate (q : Params) (s : State) (u : Nat) : State :=
  if u = 0 then s
  else
    let p := loadPtr q s.mem (u - q.P)
    match s.blocks.find? (fun b => b.1 == p) with
    | some b => { s with blocks := s.blocks.erase b, live := s.live.filter (fun l => l.user != u) }
    | none => { s with badFree := true }

/-- One step of a program using the allocator. -/
inductive Step (q : Params) : State → State → Prop
  /-- a call of `allocate` that reaches `operator new` -/
  | alloc (s : State) (n p : Nat) : n ≠ 0 → n ≤ max_size q → NewOk q s (newSize q n) p →
      Step q s (allocate q s n p).1
  /-- a call of `allocate(0)`, or with too large `n` -/
  | allocFail (s : State) (n p : Nat) : n = 0 ∨ max_size q < n → Step q s (allocate q s n p).1
  /-- the user gives back a live array -/
  | dealloc (s : State) (l : Live) : l ∈ s.live → Step q s (deallocate q s l.user)
  /-- `deallocate(nullptr)` -/
  | deallocNull (s : State) : Step q s (deallocate q s 0)
  /-- the user writes a byte of a live array -/
  | write (s : State) (l : Live) (x : Nat) (v : BitVec 8) : l ∈ s.live → l.user ≤ x → x < l.user + l.n * q.S →
      Step q s { s with mem := Function.update s.mem x v }
  /-- the rest of the program writes a byte outside all blocks of the allocator -/
  | other (s : State) (x : Nat) (v : BitVec 8) : (∀ b ∈ s.blocks, x < b.1 ∨ b.1 + b.2 ≤ x) →
      Step q s { s with mem := Function.update s.mem x v }

/-- States reached by any history of calls in which no request is so large that
`n * sizeof(T) + al` wraps around. -/
inductive Reach (q : Params) : State → Prop
  | init (m : Mem) : Reach q (init m)
  | step {s s' : State} : Reach q s → Step q s s' →
      (∀ l ∈ s'.live, l.n * q.S + al q < 2 ^ q.W) → Reach q s'

end Simdpp.Alloc
