import Verif.Model.Gather

/-!
# Lane movement of the portable backend

`simdpp/detail/null/shuffle.h`, loop by loop. Reads and writes outside the vector, and lanes
left unwritten, give `none`.
-/

namespace Simdpp.Null
open Sh

variable {w n : Nat}

/-- `move_n_l<count>`. Models /repo/simdpp/detail/null/shuffle.h:26-37.
(`V::length - count` is unsigned; `count <= length` at every call.) -/
def move_n_l (count : Nat) (a : Vec w n) : Option (Vec w n) := do
  let r ← forS 1 0 (n - count) (fun i r => do wr r i (← rd a (i + count))) unset
  let r ← forS 1 (n - count) n (fun i r => wr r i 0) r
  ret r

/-- `move_n_r<count>`. Models /repo/simdpp/detail/null/shuffle.h:39-50. -/
def move_n_r (count : Nat) (a : Vec w n) : Option (Vec w n) := do
  let r ← forS 1 0 count (fun i r => wr r i 0) unset
  let r ← forS 1 0 (n - count) (fun i r => do wr r (i + count) (← rd a i)) r
  ret r

/-- `zip_lo_impl`. Models /repo/simdpp/detail/null/shuffle.h:53-61. -/
def zip_lo (a b : Vec w n) : Option (Vec w n) := do
  let r ← forS 1 0 (n / 2) (fun i r => do
    let r ← wr r (i * 2) (← rd a i)
    wr r (i * 2 + 1) (← rd b i)) unset
  ret r

/-- `zip_hi_impl`. Models /repo/simdpp/detail/null/shuffle.h:64-73. -/
def zip_hi (a b : Vec w n) : Option (Vec w n) := do
  let half := n / 2
  let r ← forS 1 0 half (fun i r => do
    let r ← wr r (i * 2) (← rd a (half + i))
    wr r (i * 2 + 1) (← rd b (half + i))) unset
  ret r

/-- `unzip_lo_impl`. Models /repo/simdpp/detail/null/shuffle.h:77-86. -/
def unzip_lo (a b : Vec w n) : Option (Vec w n) := do
  let half := n / 2
  let r ← forS 1 0 half (fun i r => do
    let r ← wr r i (← rd a (i * 2))
    wr r (i + half) (← rd b (i * 2))) unset
  ret r

/-- `unzip_hi_impl`. Models /repo/simdpp/detail/null/shuffle.h:89-98. -/
def unzip_hi (a b : Vec w n) : Option (Vec w n) := do
  let half := n / 2
  let r ← forS 1 0 half (fun i r => do
    let r ← wr r i (← rd a (i * 2 + 1))
    wr r (i + half) (← rd b (i * 2 + 1))) unset
  ret r

/-- `splat<pos>`. Models /repo/simdpp/detail/null/shuffle.h:118-126. -/
def splat (pos : Nat) (v : Vec w n) : Option (Vec w n) := do
  let r ← forS 1 0 n (fun i r => do wr r i (← rd v pos)) unset
  ret r

/-- The `align` loops, `len` lanes. Models /repo/simdpp/detail/insn/align.h:36-44 (16 lanes),
95-103 (8), 138-146 and 281-289 (4), 233-241 and 394-402 (2). -/
def align (shift : Nat) (lower upper : Vec w n) : Option (Vec w n) := do
  let r ← forS 1 0 (n - shift) (fun i r => do wr r i (← rd lower (i + shift))) unset
  let r ← forS 1 (n - shift) n (fun i r => do wr r i (← rd upper (i + shift - n))) r
  ret r

/-- `permute<s0,s1>`. Models /repo/simdpp/detail/null/shuffle.h:206-215. -/
def permute2 (s0 s1 : Nat) (a : Vec w n) : Option (Vec w n) := do
  let r ← forS 2 0 n (fun i r => do
    let r ← wr r i (← rd a (i + s0))
    wr r (i + 1) (← rd a (i + s1))) unset
  ret r

/-- `permute<s0,s1,s2,s3>`. Models /repo/simdpp/detail/null/shuffle.h:217-228. -/
def permute4 (s0 s1 s2 s3 : Nat) (a : Vec w n) : Option (Vec w n) := do
  let r ← forS 4 0 n (fun i r => do
    let r ← wr r i (← rd a (i + s0))
    let r ← wr r (i + 1) (← rd a (i + s1))
    let r ← wr r (i + 2) (← rd a (i + s2))
    wr r (i + 3) (← rd a (i + s3))) unset
  ret r

/-- `shuffle1<s0,s1>`. Models /repo/simdpp/detail/null/shuffle.h:230-239. -/
def shuffle1 (s0 s1 : Nat) (a b : Vec w n) : Option (Vec w n) := do
  let r ← forS 2 0 n (fun i r => do
    let r ← wr r i (← rd a (i + s0))
    wr r (i + 1) (← rd b (i + s1))) unset
  ret r

/-- `shuffle2<s0,s1,s2,s3>`. Models /repo/simdpp/detail/null/shuffle.h:241-252. -/
def shuffle2 (s0 s1 s2 s3 : Nat) (a b : Vec w n) : Option (Vec w n) := do
  let r ← forS 4 0 n (fun i r => do
    let r ← wr r i (← rd a (i + s0))
    let r ← wr r (i + 1) (← rd a (i + s1))
    let r ← wr r (i + 2) (← rd b (i + s2))
    wr r (i + 3) (← rd b (i + s3))) unset
  ret r

/-! ## Closed forms -/

theorem zip_lo_eq (hn : 2 ∣ n) (a b : Vec w n) :
    zip_lo a b = some (fun i => if i.val % 2 = 0 then a.at_ (i.val / 2) else b.at_ (i.val / 2)) := by
  obtain ⟨r, e, p⟩ := forS_rule (lo := 0) (hi := n / 2) (cnt := n / 2) (by decide : 0 < 1) (by omega)
    (fun i r => do
      let r ← wr r (i * 2) (← rd a i)
      wr r (i * 2 + 1) (← rd b i))
    (fun t (r : Unset w n) => ∀ i : Fin n, r i = if i.val < 2 * t then some (if i.val % 2 = 0 then a.at_ (i.val / 2) else b.at_ (i.val / 2)) else none) unset
    (by intro i; rw [if_neg (by omega)]; rfl) (by
      intro t r ht hP
      simp (disch := omega) only [rd_lt, wr_lt, Option.bind_eq_bind, Option.bind_some]
      refine ⟨_, rfl, ?_⟩
      intro i
      try dsimp only
      have := i.isLt
      rw [hP i]
      split_ifs <;> first | rfl | omega | (congr 2; omega))
  unfold zip_lo
  try dsimp only
  rw [e]
  show ret r = _
  apply ret_eq
  intro i
  rw [p i, if_pos (by have := i.isLt; omega)]

theorem zip_hi_eq (hn : 2 ∣ n) (a b : Vec w n) :
    zip_hi a b = some (fun i => if i.val % 2 = 0 then a.at_ (n / 2 + i.val / 2) else b.at_ (n / 2 + i.val / 2)) := by
  obtain ⟨r, e, p⟩ := forS_rule (lo := 0) (hi := n / 2) (cnt := n / 2) (by decide : 0 < 1) (by omega)
    (fun i r => do
      let r ← wr r (i * 2) (← rd a (n / 2 + i))
      wr r (i * 2 + 1) (← rd b (n / 2 + i)))
    (fun t (r : Unset w n) => ∀ i : Fin n, r i = if i.val < 2 * t then some (if i.val % 2 = 0 then a.at_ (n / 2 + i.val / 2) else b.at_ (n / 2 + i.val / 2)) else none) unset
    (by intro i; rw [if_neg (by omega)]; rfl) (by
      intro t r ht hP
      simp (disch := omega) only [rd_lt, wr_lt, Option.bind_eq_bind, Option.bind_some]
      refine ⟨_, rfl, ?_⟩
      intro i
      try dsimp only
      have := i.isLt
      rw [hP i]
      split_ifs <;> first | rfl | omega | (congr 2; omega))
  unfold zip_hi
  try dsimp only
  rw [e]
  show ret r = _
  apply ret_eq
  intro i
  rw [p i, if_pos (by have := i.isLt; omega)]

theorem unzip_lo_eq (hn : 2 ∣ n) (a b : Vec w n) :
    unzip_lo a b = some (fun i => if i.val < n / 2 then a.at_ (i.val * 2) else b.at_ ((i.val - n / 2) * 2)) := by
  obtain ⟨r, e, p⟩ := forS_rule (lo := 0) (hi := n / 2) (cnt := n / 2) (by decide : 0 < 1) (by omega)
    (fun i r => do
      let r ← wr r i (← rd a (i * 2))
      wr r (i + n / 2) (← rd b (i * 2)))
    (fun t (r : Unset w n) => ∀ i : Fin n, r i = if (i.val < n / 2 ∧ i.val < t) ∨ (n / 2 ≤ i.val ∧ i.val < n / 2 + t) then some (if i.val < n / 2 then a.at_ (i.val * 2) else b.at_ ((i.val - n / 2) * 2)) else none) unset
    (by intro i; rw [if_neg (by omega)]; rfl) (by
      intro t r ht hP
      simp (disch := omega) only [rd_lt, wr_lt, Option.bind_eq_bind, Option.bind_some]
      refine ⟨_, rfl, ?_⟩
      intro i
      try dsimp only
      have := i.isLt
      rw [hP i]
      split_ifs <;> first | rfl | omega | (congr 2; omega))
  unfold unzip_lo
  try dsimp only
  rw [e]
  show ret r = _
  apply ret_eq
  intro i
  rw [p i, if_pos (by have := i.isLt; omega)]

theorem unzip_hi_eq (hn : 2 ∣ n) (a b : Vec w n) :
    unzip_hi a b = some (fun i => if i.val < n / 2 then a.at_ (i.val * 2 + 1) else b.at_ ((i.val - n / 2) * 2 + 1)) := by
  obtain ⟨r, e, p⟩ := forS_rule (lo := 0) (hi := n / 2) (cnt := n / 2) (by decide : 0 < 1) (by omega)
    (fun i r => do
      let r ← wr r i (← rd a (i * 2 + 1))
      wr r (i + n / 2) (← rd b (i * 2 + 1)))
    (fun t (r : Unset w n) => ∀ i : Fin n, r i = if (i.val < n / 2 ∧ i.val < t) ∨ (n / 2 ≤ i.val ∧ i.val < n / 2 + t) then some (if i.val < n / 2 then a.at_ (i.val * 2 + 1) else b.at_ ((i.val - n / 2) * 2 + 1)) else none) unset
    (by intro i; rw [if_neg (by omega)]; rfl) (by
      intro t r ht hP
      simp (disch := omega) only [rd_lt, wr_lt, Option.bind_eq_bind, Option.bind_some]
      refine ⟨_, rfl, ?_⟩
      intro i
      try dsimp only
      have := i.isLt
      rw [hP i]
      split_ifs <;> first | rfl | omega | (congr 2; omega))
  unfold unzip_hi
  try dsimp only
  rw [e]
  show ret r = _
  apply ret_eq
  intro i
  rw [p i, if_pos (by have := i.isLt; omega)]

theorem splat_eq {pos : Nat} (hp : pos < n) (v : Vec w n) :
    splat pos v = some (fun i => v.at_ pos) := by
  obtain ⟨r, e, p⟩ := forS_rule (lo := 0) (hi := n) (cnt := n) (by decide : 0 < 1) (by omega)
    (fun i r => do wr r i (← rd v pos))
    (fun t (r : Unset w n) => ∀ i : Fin n, r i = if i.val < t then some (v.at_ pos) else none) unset
    (by intro i; rw [if_neg (by omega)]; rfl) (by
      intro t r ht hP
      simp (disch := omega) only [rd_lt, wr_lt, Option.bind_eq_bind, Option.bind_some]
      refine ⟨_, rfl, ?_⟩
      intro i
      try dsimp only
      have := i.isLt
      rw [hP i]
      split_ifs <;> first | rfl | omega | (congr 2; omega))
  unfold splat
  try dsimp only
  rw [e]
  show ret r = _
  apply ret_eq
  intro i
  rw [p i, if_pos (by have := i.isLt; omega)]

theorem permute2_eq {s0 s1 : Nat} (hn : 2 ∣ n) (h0 : s0 < 2) (h1 : s1 < 2) (a : Vec w n) :
    permute2 s0 s1 a = some (fun i => if i.val % 2 = 0 then a.at_ (i.val / 2 * 2 + s0) else a.at_ (i.val / 2 * 2 + s1)) := by
  obtain ⟨r, e, p⟩ := forS_rule (lo := 0) (hi := n) (cnt := n / 2) (by decide : 0 < 2) (by omega)
    (fun i r => do
      let r ← wr r i (← rd a (i + s0))
      wr r (i + 1) (← rd a (i + s1)))
    (fun t (r : Unset w n) => ∀ i : Fin n, r i = if i.val < 2 * t then some (if i.val % 2 = 0 then a.at_ (i.val / 2 * 2 + s0) else a.at_ (i.val / 2 * 2 + s1)) else none) unset
    (by intro i; rw [if_neg (by omega)]; rfl) (by
      intro t r ht hP
      simp (disch := omega) only [rd_lt, wr_lt, Option.bind_eq_bind, Option.bind_some]
      refine ⟨_, rfl, ?_⟩
      intro i
      try dsimp only
      have := i.isLt
      rw [hP i]
      split_ifs <;> first | rfl | omega | (congr 2; omega))
  unfold permute2
  try dsimp only
  rw [e]
  show ret r = _
  apply ret_eq
  intro i
  rw [p i, if_pos (by have := i.isLt; omega)]

theorem shuffle1_eq {s0 s1 : Nat} (hn : 2 ∣ n) (h0 : s0 < 2) (h1 : s1 < 2) (a b : Vec w n) :
    shuffle1 s0 s1 a b = some (fun i => if i.val % 2 = 0 then a.at_ (i.val / 2 * 2 + s0) else b.at_ (i.val / 2 * 2 + s1)) := by
  obtain ⟨r, e, p⟩ := forS_rule (lo := 0) (hi := n) (cnt := n / 2) (by decide : 0 < 2) (by omega)
    (fun i r => do
      let r ← wr r i (← rd a (i + s0))
      wr r (i + 1) (← rd b (i + s1)))
    (fun t (r : Unset w n) => ∀ i : Fin n, r i = if i.val < 2 * t then some (if i.val % 2 = 0 then a.at_ (i.val / 2 * 2 + s0) else b.at_ (i.val / 2 * 2 + s1)) else none) unset
    (by intro i; rw [if_neg (by omega)]; rfl) (by
      intro t r ht hP
      simp (disch := omega) only [rd_lt, wr_lt, Option.bind_eq_bind, Option.bind_some]
      refine ⟨_, rfl, ?_⟩
      intro i
      try dsimp only
      have := i.isLt
      rw [hP i]
      split_ifs <;> first | rfl | omega | (congr 2; omega))
  unfold shuffle1
  try dsimp only
  rw [e]
  show ret r = _
  apply ret_eq
  intro i
  rw [p i, if_pos (by have := i.isLt; omega)]

theorem permute4_eq {s0 s1 s2 s3 : Nat} (hn : 4 ∣ n) (h0 : s0 < 4) (h1 : s1 < 4) (h2 : s2 < 4) (h3 : s3 < 4) (a : Vec w n) :
    permute4 s0 s1 s2 s3 a = some (fun i => if i.val % 4 = 0 then a.at_ (i.val / 4 * 4 + s0) else if i.val % 4 = 1 then a.at_ (i.val / 4 * 4 + s1)
      else if i.val % 4 = 2 then a.at_ (i.val / 4 * 4 + s2) else a.at_ (i.val / 4 * 4 + s3)) := by
  obtain ⟨r, e, p⟩ := forS_rule (lo := 0) (hi := n) (cnt := n / 4) (by decide : 0 < 4) (by omega)
    (fun i r => do
      let r ← wr r i (← rd a (i + s0))
      let r ← wr r (i + 1) (← rd a (i + s1))
      let r ← wr r (i + 2) (← rd a (i + s2))
      wr r (i + 3) (← rd a (i + s3)))
    (fun t (r : Unset w n) => ∀ i : Fin n, r i = if i.val < 4 * t then some (if i.val % 4 = 0 then a.at_ (i.val / 4 * 4 + s0) else if i.val % 4 = 1 then a.at_ (i.val / 4 * 4 + s1)
      else if i.val % 4 = 2 then a.at_ (i.val / 4 * 4 + s2) else a.at_ (i.val / 4 * 4 + s3)) else none) unset
    (by intro i; rw [if_neg (by omega)]; rfl) (by
      intro t r ht hP
      simp (disch := omega) only [rd_lt, wr_lt, Option.bind_eq_bind, Option.bind_some]
      refine ⟨_, rfl, ?_⟩
      intro i
      try dsimp only
      have := i.isLt
      rw [hP i]
      rcases (by omega : i.val % 4 = 0 ∨ i.val % 4 = 1 ∨ i.val % 4 = 2 ∨ i.val % 4 = 3) with h | h | h | h <;>
        simp only [h, Nat.reduceEqDiff, if_true, if_false, Nat.one_ne_zero, OfNat.ofNat_ne_zero] <;>
        split_ifs <;> first | rfl | omega | (congr 2; omega))
  unfold permute4
  try dsimp only
  rw [e]
  show ret r = _
  apply ret_eq
  intro i
  rw [p i, if_pos (by have := i.isLt; omega)]

theorem shuffle2_eq {s0 s1 s2 s3 : Nat} (hn : 4 ∣ n) (h0 : s0 < 4) (h1 : s1 < 4) (h2 : s2 < 4) (h3 : s3 < 4) (a b : Vec w n) :
    shuffle2 s0 s1 s2 s3 a b = some (fun i => if i.val % 4 = 0 then a.at_ (i.val / 4 * 4 + s0) else if i.val % 4 = 1 then a.at_ (i.val / 4 * 4 + s1)
      else if i.val % 4 = 2 then b.at_ (i.val / 4 * 4 + s2) else b.at_ (i.val / 4 * 4 + s3)) := by
  obtain ⟨r, e, p⟩ := forS_rule (lo := 0) (hi := n) (cnt := n / 4) (by decide : 0 < 4) (by omega)
    (fun i r => do
      let r ← wr r i (← rd a (i + s0))
      let r ← wr r (i + 1) (← rd a (i + s1))
      let r ← wr r (i + 2) (← rd b (i + s2))
      wr r (i + 3) (← rd b (i + s3)))
    (fun t (r : Unset w n) => ∀ i : Fin n, r i = if i.val < 4 * t then some (if i.val % 4 = 0 then a.at_ (i.val / 4 * 4 + s0) else if i.val % 4 = 1 then a.at_ (i.val / 4 * 4 + s1)
      else if i.val % 4 = 2 then b.at_ (i.val / 4 * 4 + s2) else b.at_ (i.val / 4 * 4 + s3)) else none) unset
    (by intro i; rw [if_neg (by omega)]; rfl) (by
      intro t r ht hP
      simp (disch := omega) only [rd_lt, wr_lt, Option.bind_eq_bind, Option.bind_some]
      refine ⟨_, rfl, ?_⟩
      intro i
      try dsimp only
      have := i.isLt
      rw [hP i]
      rcases (by omega : i.val % 4 = 0 ∨ i.val % 4 = 1 ∨ i.val % 4 = 2 ∨ i.val % 4 = 3) with h | h | h | h <;>
        simp only [h, Nat.reduceEqDiff, if_true, if_false, Nat.one_ne_zero, OfNat.ofNat_ne_zero] <;>
        split_ifs <;> first | rfl | omega | (congr 2; omega))
  unfold shuffle2
  try dsimp only
  rw [e]
  show ret r = _
  apply ret_eq
  intro i
  rw [p i, if_pos (by have := i.isLt; omega)]

theorem move_n_l_eq {s : Nat} (hs : s ≤ n) (a : Vec w n) :
    move_n_l s a = some (fun i => if i.val + s < n then a.at_ (i.val + s) else 0) := by
  obtain ⟨r, e, p⟩ := forS_rule (lo := 0) (hi := (n - s)) (cnt := (n - s) - 0) (by decide : 0 < 1) (by omega)
    (fun i r => do wr r i (← rd a (i + s)))
    (fun t (r : Unset w n) => ∀ i : Fin n, r i = if i.val < t then some (a.at_ (i.val + s)) else none) unset
    (by intro i; rw [if_neg (by omega)]; rfl) (by
      intro t r ht hP
      simp (disch := omega) only [rd_lt, wr_lt, Option.bind_eq_bind, Option.bind_some]
      refine ⟨_, rfl, ?_⟩
      intro i
      try dsimp only
      have := i.isLt
      rw [hP i]
      split_ifs <;> first | rfl | omega | (congr 2; omega))
  obtain ⟨r', e', p'⟩ := forS_rule (lo := n - s) (hi := n) (cnt := n - (n - s)) (by decide : 0 < 1) (by omega)
    (fun i r => wr r i 0)
    (fun t (r : Unset w n) => ∀ i : Fin n, r i = if i.val < n - s + t then some (if i.val + s < n then a.at_ (i.val + s) else 0) else none) r
    (by intro i; rw [p i]; have := i.isLt; split_ifs <;> first | rfl | omega) (by
      intro t r ht hP
      simp (disch := omega) only [rd_lt, wr_lt, Option.bind_eq_bind, Option.bind_some]
      refine ⟨_, rfl, ?_⟩
      intro i
      try dsimp only
      have := i.isLt
      rw [hP i]
      split_ifs <;> first | rfl | omega | (congr 2; omega))
  unfold move_n_l
  try dsimp only
  rw [e]
  show (forS 1 _ _ _ r).bind _ = _
  rw [e']
  show ret r' = _
  apply ret_eq
  intro i
  rw [p' i, if_pos (by have := i.isLt; omega)]

theorem move_n_r_eq {s : Nat} (hs : s ≤ n) (a : Vec w n) :
    move_n_r s a = some (fun i => if s ≤ i.val then a.at_ (i.val - s) else 0) := by
  obtain ⟨r, e, p⟩ := forS_rule (lo := 0) (hi := s) (cnt := s - 0) (by decide : 0 < 1) (by omega)
    (fun i r => wr r i 0)
    (fun t (r : Unset w n) => ∀ i : Fin n, r i = if i.val < t then some (0) else none) unset
    (by intro i; rw [if_neg (by omega)]; rfl) (by
      intro t r ht hP
      simp (disch := omega) only [rd_lt, wr_lt, Option.bind_eq_bind, Option.bind_some]
      refine ⟨_, rfl, ?_⟩
      intro i
      try dsimp only
      have := i.isLt
      rw [hP i]
      split_ifs <;> first | rfl | omega | (congr 2; omega))
  obtain ⟨r', e', p'⟩ := forS_rule (lo := 0) (hi := (n - s)) (cnt := (n - s) - (0)) (by decide : 0 < 1) (by omega)
    (fun i r => do wr r (i + s) (← rd a i))
    (fun t (r : Unset w n) => ∀ i : Fin n, r i = if i.val < s + t then some (if s ≤ i.val then a.at_ (i.val - s) else 0) else none) r
    (by intro i; rw [p i]; have := i.isLt; split_ifs <;> first | rfl | omega) (by
      intro t r ht hP
      simp (disch := omega) only [rd_lt, wr_lt, Option.bind_eq_bind, Option.bind_some]
      refine ⟨_, rfl, ?_⟩
      intro i
      try dsimp only
      have := i.isLt
      rw [hP i]
      split_ifs <;> first | rfl | omega | (congr 2; omega))
  unfold move_n_r
  try dsimp only
  rw [e]
  show (forS 1 _ _ _ r).bind _ = _
  rw [e']
  show ret r' = _
  apply ret_eq
  intro i
  rw [p' i, if_pos (by have := i.isLt; omega)]

theorem align_eq {s : Nat} (hs : s ≤ n) (lower upper : Vec w n) :
    align s lower upper = some (fun i => if i.val + s < n then lower.at_ (i.val + s) else upper.at_ (i.val + s - n)) := by
  obtain ⟨r, e, p⟩ := forS_rule (lo := 0) (hi := (n - s)) (cnt := (n - s) - 0) (by decide : 0 < 1) (by omega)
    (fun i r => do wr r i (← rd lower (i + s)))
    (fun t (r : Unset w n) => ∀ i : Fin n, r i = if i.val < t then some (lower.at_ (i.val + s)) else none) unset
    (by intro i; rw [if_neg (by omega)]; rfl) (by
      intro t r ht hP
      simp (disch := omega) only [rd_lt, wr_lt, Option.bind_eq_bind, Option.bind_some]
      refine ⟨_, rfl, ?_⟩
      intro i
      try dsimp only
      have := i.isLt
      rw [hP i]
      split_ifs <;> first | rfl | omega | (congr 2; omega))
  obtain ⟨r', e', p'⟩ := forS_rule (lo := n - s) (hi := n) (cnt := n - (n - s)) (by decide : 0 < 1) (by omega)
    (fun i r => do wr r i (← rd upper (i + s - n)))
    (fun t (r : Unset w n) => ∀ i : Fin n, r i = if i.val < n - s + t then some (if i.val + s < n then lower.at_ (i.val + s) else upper.at_ (i.val + s - n)) else none) r
    (by intro i; rw [p i]; have := i.isLt; split_ifs <;> first | rfl | omega) (by
      intro t r ht hP
      simp (disch := omega) only [rd_lt, wr_lt, Option.bind_eq_bind, Option.bind_some]
      refine ⟨_, rfl, ?_⟩
      intro i
      try dsimp only
      have := i.isLt
      rw [hP i]
      split_ifs <;> first | rfl | omega | (congr 2; omega))
  unfold align
  try dsimp only
  rw [e]
  show (forS 1 _ _ _ r).bind _ = _
  rw [e']
  show ret r' = _
  apply ret_eq
  intro i
  rw [p' i, if_pos (by have := i.isLt; omega)]

end Simdpp.Null
