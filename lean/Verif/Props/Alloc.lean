import Verif.Model.Alloc
import Mathlib.Data.Nat.Bitwise
import Mathlib.Tactic.Linarith
import Mathlib.Data.List.Pairwise

/-! # C40: aligned_allocator over all allocation histories -/

namespace Simdpp.Alloc

/-! ### Helpers: arithmetic -/

theorem pow2_of_and {A : Nat} (h : A &&& (A - 1) = 0) : A = 0 ∨ ∃ a, A = 2 ^ a := by
  rcases Nat.eq_zero_or_pos A with h0 | h0
  · exact .inl h0
  right
  refine ⟨A.log2, ?_⟩
  by_contra hne
  have h1 : 2 ^ A.log2 ≤ A := Nat.log2_self_le (by omega)
  have h2 : A < 2 ^ (A.log2 + 1) := Nat.lt_log2_self
  have hb := congrArg (fun x => Nat.testBit x A.log2) h
  simp only [Nat.testBit_and, Nat.zero_testBit] at hb
  rw [pow_succ] at h2
  have e1 : A / 2 ^ A.log2 = 1 := Nat.div_eq_of_lt_le (by omega) (by omega)
  have e2 : (A - 1) / 2 ^ A.log2 = 1 := Nat.div_eq_of_lt_le (by omega) (by omega)
  rw [Nat.testBit_eq_decide_div_mod_eq, Nat.testBit_eq_decide_div_mod_eq, e1, e2] at hb
  simp at hb

variable {q : Params}

theorem al_pow2 (hq : q.Ok) : ∃ k, k < q.W ∧ al q = 2 ^ k ∧ 2 * q.P ≤ al q := by
  unfold al
  split_ifs with h
  · rcases hq.ptr with hp | hp <;> unfold Params.W <;> rw [hp]
    · exact ⟨3, by decide, by decide, by decide⟩
    · exact ⟨4, by decide, by decide, by decide⟩
  · rcases pow2_of_and hq.pow2 with h0 | ⟨a, ha⟩
    · have := hq.ptr; omega
    · refine ⟨a, ?_, ha, by omega⟩
      have := hq.afits
      rw [ha] at this
      exact (Nat.pow_lt_pow_iff_right (by decide)).1 this

theorem A_dvd_al (hq : q.Ok) (hA : q.A ≠ 0) : q.A ∣ al q := by
  unfold al
  split_ifs with h
  · rcases pow2_of_and hq.pow2 with h0 | ⟨a, ha⟩
    · exact absurd h0 hA
    · have hp : ∃ j, 2 * q.P = 2 ^ j := by
        rcases hq.ptr with hp | hp <;> rw [hp]
        · exact ⟨3, rfl⟩
        · exact ⟨4, rfl⟩
      obtain ⟨j, hj⟩ := hp
      rw [ha, hj] at h
      rw [hj, ha]
      exact Nat.pow_dvd_pow _ ((Nat.pow_lt_pow_iff_right (a := 2) (by decide)).1 h).le
  · exact dvd_rfl

theorem and_not_mask (W k x : Nat) (hk : k < W) (hx : x < 2 ^ W) :
    (BitVec.ofNat W x &&& ~~~(BitVec.ofNat W (2 ^ k - 1))).toNat = x / 2 ^ k * 2 ^ k := by
  have e : BitVec.ofNat W x &&& ~~~(BitVec.ofNat W (2 ^ k - 1)) = BitVec.ofNat W (x / 2 ^ k * 2 ^ k) := by
    apply BitVec.eq_of_getLsbD_eq
    intro i hi
    rw [BitVec.getLsbD_and, BitVec.getLsbD_not, BitVec.getLsbD_ofNat, BitVec.getLsbD_ofNat, BitVec.getLsbD_ofNat,
      Nat.testBit_two_pow_sub_one, Nat.testBit_mul_two_pow]
    simp only [hi, decide_true, Bool.true_and]
    by_cases h : i < k
    · simp [h, Nat.not_le.2 h]
    · have h' : k ≤ i := by omega
      simp only [h, decide_false, Bool.not_false, Bool.and_true, h', decide_true, Bool.true_and]
      rw [Nat.testBit_div_two_pow, Nat.sub_add_cancel h']
  rw [e, BitVec.toNat_ofNat, Nat.mod_eq_of_lt]
  exact lt_of_le_of_lt (Nat.div_mul_le_self _ _) hx

/-- The facts about one allocation: `u` is the aligned pointer inside block `[p, p + size)`. -/
theorem alignUp_spec (hq : q.Ok) {p size : Nat} (ha : q.P ∣ p) (hf : p + size ≤ 2 ^ q.W) (hs : al q < size) :
    al q ∣ alignUp q p ∧ p + q.P ≤ alignUp q p ∧ alignUp q p ≤ p + al q := by
  obtain ⟨k, hk, he, h2⟩ := al_pow2 hq
  have hPpos : 0 < q.P := by rcases hq.ptr with h | h <;> omega
  have hu : alignUp q p = (p + al q) / al q * al q := by
    unfold alignUp
    conv_lhs => rw [he]
    rw [and_not_mask q.W k _ hk (by rw [← he]; omega)]
    rw [← he]
  have hpos : 0 < al q := by omega
  have hPal : q.P ∣ al q := by
    have hp : ∃ j, q.P = 2 ^ j := by
      rcases hq.ptr with hp | hp <;> rw [hp]
      · exact ⟨2, rfl⟩
      · exact ⟨3, rfl⟩
    obtain ⟨j, hj⟩ := hp
    rw [he, hj]
    apply Nat.pow_dvd_pow
    have : (2 : Nat) ^ j ≤ 2 ^ k := by rw [← he, ← hj]; omega
    exact (Nat.pow_le_pow_iff_right (by decide)).1 this
  have hdiv : (p + al q) / al q * al q ≤ p + al q := Nat.div_mul_le_self _ _
  have hlt : p < (p + al q) / al q * al q := by
    have := Nat.lt_div_mul_add (a := p + al q) hpos
    omega
  refine ⟨hu ▸ Nat.dvd_mul_left _ _, ?_, by omega⟩
  have h3 : q.P ∣ (p + al q) / al q * al q := Dvd.dvd.mul_left hPal _
  have h4 := Nat.le_of_dvd (by omega) (Nat.dvd_sub h3 ha)
  omega

/-! ### Helpers: memory -/

theorem load_store (hq : q.Ok) (m : Mem) (a v : Nat) (hv : v < 2 ^ q.W) : loadPtr q (storePtr q m a v) a = v := by
  unfold loadPtr
  have e : ofBits q.W (fun k => (storePtr q m a v (a + k / 8)).getLsbD (k % 8)) = BitVec.ofNat q.W v := by
    apply BitVec.eq_of_getLsbD_eq
    intro k hk
    rw [ofBits_getLsbD]
    have hk8 : k / 8 < q.P := by unfold Params.W at hk; omega
    unfold storePtr
    rw [if_pos ⟨by omega, by omega⟩, ofBits_getLsbD]
    have : k % 8 < 8 := Nat.mod_lt _ (by decide)
    simp only [hk, this, decide_true, Bool.true_and]
    congr 1
    omega
  rw [e, BitVec.toNat_ofNat, Nat.mod_eq_of_lt hv]

theorem load_congr {m m' : Mem} {a : Nat} (h : ∀ x, a ≤ x → x < a + q.P → m x = m' x) : loadPtr q m a = loadPtr q m' a := by
  unfold loadPtr
  congr 1
  apply BitVec.eq_of_getLsbD_eq
  intro k hk
  rw [ofBits_getLsbD, ofBits_getLsbD, h (a + k / 8) (by omega) (by unfold Params.W at hk; omega)]

/-! ### The invariant -/

/-- What holds of one live array. -/
structure Good (q : Params) (s : State) (l : Live) : Prop where
  npos : 0 < l.n
  block : (l.raw, newSize q l.n) ∈ s.blocks
  aligned : al q ∣ l.user
  below : l.raw + q.P ≤ l.user
  above : l.user + l.n * q.S ≤ l.raw + newSize q l.n
  back : loadPtr q s.mem (l.user - q.P) = l.raw
  fits : l.raw + newSize q l.n ≤ 2 ^ q.W

structure Inv (q : Params) (s : State) : Prop where
  good : ∀ l ∈ s.live, Good q s l
  /-- no leak: every block belongs to a live array -/
  owner : ∀ b ∈ s.blocks, ∃ l ∈ s.live, b = (l.raw, newSize q l.n)
  ldisj : s.live.Pairwise (fun l l' => Disj l.raw (newSize q l.n) l'.raw (newSize q l'.n))
  disj : s.blocks.Pairwise (fun b c => Disj b.1 b.2 c.1 c.2)
  noBad : s.badFree = false

theorem Disj.symm {a la b lb : Nat} (h : Disj a la b lb) : Disj b lb a la := Or.symm h

theorem Ppos (hq : q.Ok) : 0 < q.P := by rcases hq.ptr with h | h <;> omega

/-- Two different live arrays live in disjoint blocks. -/
theorem Inv.sep {s : State} (hi : Inv q s) {l l' : Live} (hl : l ∈ s.live) (hl' : l' ∈ s.live) (hne : l ≠ l') :
    Disj l.raw (newSize q l.n) l'.raw (newSize q l'.n) :=
  haveI : Std.Symm (fun l l' : Live => Disj l.raw (newSize q l.n) l'.raw (newSize q l'.n)) := ⟨fun _ _ h => Disj.symm h⟩
  hi.ldisj.forall hl hl' hne

theorem Inv.user_inj (hq : q.Ok) {s : State} (hi : Inv q s) {l l' : Live} (hl : l ∈ s.live) (hl' : l' ∈ s.live)
    (h : l.user = l'.user) : l = l' := by
  by_contra hne
  have d := hi.sep hl hl' hne
  have g := hi.good l hl
  have g' := hi.good l' hl'
  have := g.below; have := g.above; have := g'.below; have := g'.above
  have := Nat.mul_pos g.npos hq.size
  have := Nat.mul_pos g'.npos hq.size
  rcases d with d | d <;> omega

theorem Inv.find (hq : q.Ok) {s : State} (hi : Inv q s) {l : Live} (hl : l ∈ s.live) :
    s.blocks.find? (fun b => b.1 == l.raw) = some (l.raw, newSize q l.n) := by
  have g := hi.good l hl
  cases hf : s.blocks.find? (fun b => b.1 == l.raw) with
  | none =>
    have := List.find?_eq_none.1 hf _ g.block
    simp at this
  | some b =>
    have hb := List.mem_of_find?_eq_some hf
    have he := List.find?_some hf
    obtain ⟨l', hl', rfl⟩ := hi.owner b hb
    have he' : l'.raw = l.raw := by simpa using he
    by_cases hll : l' = l
    · rw [hll]
    · have d := hi.sep hl' hl hll
      have g' := hi.good l' hl'
      have := g.below; have := g.above; have := g'.below; have := g'.above
      have := Ppos hq
      rcases d with d | d <;> omega

theorem inv_init (m : Mem) : Inv q (init m) :=
  ⟨by simp [init], by simp [init], by simp [init], by simp [init], rfl⟩

/-- A write to one byte that is in no back pointer keeps the invariant. -/
theorem Inv.write {s : State} (hi : Inv q s) (x : Nat) (v : BitVec 8)
    (hx : ∀ l ∈ s.live, x < l.user - q.P ∨ l.user ≤ x) : Inv q { s with mem := Function.update s.mem x v } := by
  refine ⟨fun l hl => ?_, hi.owner, hi.ldisj, hi.disj, hi.noBad⟩
  have g := hi.good l hl
  refine ⟨g.npos, g.block, g.aligned, g.below, g.above, ?_, g.fits⟩
  rw [← g.back]
  apply load_congr
  intro y hy hy'
  have : y ≠ x := by
    have := hx l hl
    have := g.below
    omega
  simp [Function.update_of_ne this]

theorem Inv.alloc (hq : q.Ok) {s : State} (hi : Inv q s) {n p : Nat} (h0 : n ≠ 0) (hm : n ≤ max_size q)
    (hn : NewOk q s (newSize q n) p) (hw : n * q.S + al q < 2 ^ q.W) : Inv q (allocate q s n p).1 := by
  have hsz : newSize q n = n * q.S + al q := Nat.mod_eq_of_lt hw
  have hpos := Nat.mul_pos (Nat.pos_of_ne_zero h0) hq.size
  obtain ⟨ha, hb, hc⟩ := alignUp_spec hq hn.aligned hn.fits (by omega)
  have hP := Ppos hq
  have hst : (allocate q s n p).1 = { s with
        blocks := (p, newSize q n) :: s.blocks
        mem := storePtr q s.mem (alignUp q p - q.P) p
        live := ⟨alignUp q p, n, p⟩ :: s.live } := by
    unfold allocate
    rw [if_neg h0, if_neg (Nat.not_lt.2 hm)]
  rw [hst]
  have hfl : ∀ l ∈ s.live, Disj p (newSize q n) l.raw (newSize q l.n) := fun l hl => hn.fresh _ (hi.good l hl).block
  refine ⟨?_, ?_, ?_, ?_, hi.noBad⟩
  · intro l hl
    rcases List.mem_cons.1 hl with rfl | hl
    · refine ⟨Nat.pos_of_ne_zero h0, by simp, ha, hb, ?_, ?_, hn.fits⟩
      · show alignUp q p + n * q.S ≤ p + newSize q n
        omega
      · apply load_store hq
        have := hn.fits
        omega
    · have g := hi.good l hl
      refine ⟨g.npos, List.mem_cons_of_mem _ g.block, g.aligned, g.below, g.above, ?_, g.fits⟩
      rw [← g.back]
      apply load_congr
      intro y hy hy'
      have d := hfl l hl
      have := g.below; have := g.above
      show storePtr q s.mem _ p y = _
      unfold storePtr
      rw [if_neg]
      rcases d with d | d <;> omega
  · intro b hb
    rcases List.mem_cons.1 hb with rfl | hb
    · exact ⟨⟨alignUp q p, n, p⟩, by simp, rfl⟩
    · obtain ⟨l, hl, he⟩ := hi.owner b hb
      exact ⟨l, List.mem_cons_of_mem _ hl, he⟩
  · exact List.pairwise_cons.2 ⟨hfl, hi.ldisj⟩
  · exact List.pairwise_cons.2 ⟨hn.fresh, hi.disj⟩

theorem dealloc_eq (hq : q.Ok) {s : State} (hi : Inv q s) {l : Live} (hl : l ∈ s.live) :
    deallocate q s l.user = { s with blocks := s.blocks.erase (l.raw, newSize q l.n),
                                     live := s.live.filter (fun l' => l'.user != l.user) } := by
  have g := hi.good l hl
  have hP := Ppos hq
  unfold deallocate
  rw [if_neg (by have := g.below; omega)]
  simp only [g.back, hi.find hq hl]

theorem blocks_nodup (hq : q.Ok) {s : State} (hi : Inv q s) : s.blocks.Nodup := by
  have hpos : ∀ b ∈ s.blocks, 0 < b.2 := by
    intro b hb
    obtain ⟨l, hl, rfl⟩ := hi.owner b hb
    have g := hi.good l hl
    have := g.below; have := g.above; have := Ppos hq
    show 0 < newSize q l.n
    omega
  refine (List.Pairwise.and_mem.1 hi.disj).imp ?_
  rintro b c ⟨hb, hc, d⟩ rfl
  have := hpos b hb
  rcases d with d | d <;> omega

theorem Inv.dealloc (hq : q.Ok) {s : State} (hi : Inv q s) {l : Live} (hl : l ∈ s.live) :
    Inv q (deallocate q s l.user) := by
  rw [dealloc_eq hq hi hl]
  have hnd := blocks_nodup hq hi
  refine ⟨?_, ?_, hi.ldisj.sublist List.filter_sublist, hi.disj.sublist List.erase_sublist, hi.noBad⟩
  · intro l' hl'
    obtain ⟨hl', hne⟩ := List.mem_filter.1 hl'
    have hne' : l'.user ≠ l.user := by simpa using hne
    have g := hi.good l' hl'
    have g0 := hi.good l hl
    refine ⟨g.npos, ?_, g.aligned, g.below, g.above, g.back, g.fits⟩
    refine (hnd.mem_erase_iff).2 ⟨?_, g.block⟩
    intro he
    have d := hi.sep hl' hl (fun e => hne' (e ▸ rfl))
    have e1 : l'.raw = l.raw := congrArg Prod.fst he
    have := g.below; have := g.above; have := g0.below; have := g0.above; have := Ppos hq
    rcases d with d | d <;> omega
  · intro b hb
    obtain ⟨hne, hb⟩ := (hnd.mem_erase_iff).1 hb
    obtain ⟨l', hl', he⟩ := hi.owner b hb
    refine ⟨l', List.mem_filter.2 ⟨hl', ?_⟩, he⟩
    by_contra hc
    have hu : l'.user = l.user := by simpa using hc
    rw [hi.user_inj hq hl' hl hu] at he
    exact hne he

theorem inv_step (hq : q.Ok) {s s' : State} (hi : Inv q s) (h : Step q s s')
    (hw : ∀ l ∈ s'.live, l.n * q.S + al q < 2 ^ q.W) : Inv q s' := by
  cases h with
  | alloc n p h0 hm hn =>
    refine hi.alloc hq h0 hm hn ?_
    refine hw ⟨alignUp q p, n, p⟩ ?_
    unfold allocate
    rw [if_neg h0, if_neg (Nat.not_lt.2 hm)]
    simp
  | allocFail n p h0 =>
    have : (allocate q s n p).1 = s := by
      unfold allocate
      split_ifs with h1 h2
      · rfl
      · rfl
      · omega
    rwa [this]
  | dealloc l hl => exact hi.dealloc hq hl
  | deallocNull => simpa [deallocate] using hi
  | write l x v hl hx hx' =>
    apply hi.write
    intro l' hl'
    by_cases he : l = l'
    · subst he; exact .inr hx
    · have d := hi.sep hl hl' he
      have g := hi.good l hl
      have g' := hi.good l' hl'
      have := g.below; have := g.above; have := g'.below; have := g'.above
      rcases d with d | d <;> omega
  | other x v hx =>
    apply hi.write
    intro l hl
    have g := hi.good l hl
    have hx' : x < l.raw ∨ l.raw + newSize q l.n ≤ x := hx _ g.block
    have := g.below; have := g.above; have := Ppos hq
    omega

theorem reach_inv (hq : q.Ok) {s : State} (h : Reach q s) : Inv q s := by
  induction h with
  | init m => exact inv_init m
  | step _ hs hw ih => exact inv_step hq ih hs hw

/-! ### Public theorems -/

/-- C40: in every history, every array the user holds is aligned to `A` (and to the larger `al`), is not null
and lies in the address space. -/
theorem C40_aligned (hq : q.Ok) (hA : q.A ≠ 0) {s : State} (h : Reach q s) {l : Live} (hl : l ∈ s.live) :
    q.A ∣ l.user ∧ 0 < l.user ∧ l.user + l.n * q.S ≤ 2 ^ q.W := by
  have g := (reach_inv hq h).good l hl
  have := g.below; have := g.above; have := g.fits; have := Ppos hq
  exact ⟨(A_dvd_al hq hA).trans g.aligned, by omega, by omega⟩

/-- C40: every array the user holds, together with the hidden pointer cell in front of it, lies inside one
block obtained from `operator new[]` that has not been given back. -/
theorem C40_in_bounds (hq : q.Ok) {s : State} (h : Reach q s) {l : Live} (hl : l ∈ s.live) :
    ∃ b ∈ s.blocks, b.1 + q.P ≤ l.user ∧ l.user + l.n * q.S ≤ b.1 + b.2 := by
  have g := (reach_inv hq h).good l hl
  exact ⟨_, g.block, g.below, g.above⟩

/-- C40: two different arrays held by the user do not overlap, and no array overlaps the hidden pointer
cell of another. -/
theorem C40_disjoint (hq : q.Ok) {s : State} (h : Reach q s) {l l' : Live} (hl : l ∈ s.live) (hl' : l' ∈ s.live)
    (hne : l.user ≠ l'.user) :
    Disj (l.user - q.P) (q.P + l.n * q.S) (l'.user - q.P) (q.P + l'.n * q.S) := by
  have hi := reach_inv hq h
  have d := hi.sep hl hl' (fun e => hne (e ▸ rfl))
  have g := hi.good l hl
  have g' := hi.good l' hl'
  have := g.below; have := g.above; have := g'.below; have := g'.above
  unfold Disj at *
  omega

/-- C40: nothing the user writes into live arrays, or elsewhere outside the allocator's blocks, makes
`deallocate` misbehave: in no history is `delete[]` called with a pointer that is not a live block. -/
theorem C40_never_bad_free (hq : q.Ok) {s : State} (h : Reach q s) : s.badFree = false := (reach_inv hq h).noBad

/-- C40: giving back a live array frees exactly the block from which it came, keeps all other arrays and
changes no memory. -/
theorem C40_dealloc_exact (hq : q.Ok) {s : State} (h : Reach q s) {l : Live} (hl : l ∈ s.live) :
    ∃ size, (l.raw, size) ∈ s.blocks ∧
      (∀ b, b ∈ (deallocate q s l.user).blocks ↔ b ∈ s.blocks ∧ b ≠ (l.raw, size)) ∧
      (∀ l', l' ∈ (deallocate q s l.user).live ↔ l' ∈ s.live ∧ l' ≠ l) ∧
      (deallocate q s l.user).mem = s.mem ∧ (deallocate q s l.user).badFree = false := by
  have hi := reach_inv hq h
  have g := hi.good l hl
  refine ⟨newSize q l.n, g.block, ?_, ?_, ?_, ?_⟩ <;> rw [dealloc_eq hq hi hl]
  · intro b
    rw [(blocks_nodup hq hi).mem_erase_iff, and_comm]
  · intro l'
    rw [List.mem_filter]
    constructor
    · rintro ⟨h1, h2⟩
      exact ⟨h1, fun e => by simp [e] at h2⟩
    · rintro ⟨h1, h2⟩
      refine ⟨h1, ?_⟩
      by_contra hc
      exact h2 (hi.user_inj hq h1 hl (by simpa using hc))
  · exact hi.noBad

/-- C40: no leak. When the user has given back everything, no block is left. -/
theorem C40_no_leak (hq : q.Ok) {s : State} (h : Reach q s) (he : s.live = []) : s.blocks = [] := by
  have hi := reach_inv hq h
  cases hb : s.blocks with
  | nil => rfl
  | cons b bs =>
    obtain ⟨l, hl, _⟩ := hi.owner b (by rw [hb]; simp)
    rw [he] at hl
    simp at hl

/-- C40: `allocate(0)` returns a null pointer and changes nothing, and `deallocate(nullptr)` does nothing. -/
theorem C40_zero_null (s : State) (p : Nat) :
    allocate q s 0 p = (s, .null) ∧ deallocate q s 0 = s := by
  simp [allocate, deallocate]

/-- C40: a request for more than `max_size()` elements throws `length_error` and changes nothing; and
`n ≤ max_size()` says exactly that `n * sizeof(T)` is a `size_t`. -/
theorem C40_oversize_throws (hq : q.Ok) (s : State) (n p : Nat) :
    (max_size q < n → allocate q s n p = (s, .lengthError)) ∧ (n ≤ max_size q ↔ n * q.S < 2 ^ q.W) := by
  constructor
  · intro h
    unfold allocate
    rw [if_neg (by omega), if_pos h]
  · unfold max_size
    rw [Nat.le_div_iff_mul_le hq.size]
    have := Nat.two_pow_pos q.W
    omega

/-- C40, the converse of the restriction in `Reach` (a defect): a request that passes the `max_size()` check but for which
`n * sizeof(T) + al` wraps asks `operator new[]` for fewer than `al` bytes: the block is smaller than the
array which `allocate` then hands out, wherever the block is. -/
theorem C40_size_wraps (hq : q.Ok) {n : Nat} (hm : n ≤ max_size q) (hbig : 2 ^ q.W ≤ n * q.S + al q) :
    newSize q n < al q ∧ newSize q n < n * q.S := by
  have h1 := ((C40_oversize_throws hq (init fun _ => 0) n 0).2).1 hm
  obtain ⟨k, hk, he, h2⟩ := al_pow2 hq
  have h3 : al q < 2 ^ q.W := by rw [he]; exact (Nat.pow_lt_pow_iff_right (by decide)).2 hk
  have : newSize q n = n * q.S + al q - 2 ^ q.W := by
    unfold newSize
    rw [Nat.mod_eq_sub_mod hbig, Nat.mod_eq_of_lt (by omega)]
  omega

/-! ### The hypotheses are met -/

/-- `aligned_allocator<int, 64>` on a 64-bit machine. -/
def q64 : Params := ⟨8, 64, 4⟩

theorem q64_ok : q64.Ok := ⟨by decide, by decide, by decide, by decide⟩

/-- A history: allocate 3 ints at block 1000, then 5 at block 2000. -/
def hist : State := (allocate q64 (allocate q64 (init fun _ => 0) 3 1000).1 5 2000).1

example : hist.live = [⟨2048, 5, 2000⟩, ⟨1024, 3, 1000⟩] ∧ hist.blocks = [(2000, 84), (1000, 76)] := by decide

theorem hist_reach : Reach q64 hist := by
  refine .step (.step (.init fun _ => 0) (.alloc _ 3 1000 (by decide) (by decide) ?_) (by decide))
    (.alloc _ 5 2000 (by decide) (by decide) ?_) (by decide)
  · exact ⟨by decide, by decide, by decide, by simp [init]⟩
  · refine ⟨by decide, by decide, by decide, ?_⟩
    intro b hb
    have : b = (1000, 76) := by simpa [allocate, init, q64, max_size, newSize, al, Params.W] using hb
    subst this
    exact .inr (by decide)

example : (deallocate q64 hist 2048).blocks = [(1000, 76)] := by
  have h := C40_dealloc_exact q64_ok hist_reach (l := ⟨2048, 5, 2000⟩) (by decide)
  rw [dealloc_eq q64_ok (reach_inv q64_ok hist_reach) (l := ⟨2048, 5, 2000⟩) (by decide)]
  decide

/-- A request to which `C40_size_wraps` applies. -/
example : newSize q64 (2 ^ 62 - 1) < al q64 ∧ newSize q64 (2 ^ 62 - 1) < (2 ^ 62 - 1) * q64.S :=
  C40_size_wraps q64_ok (by decide) (by decide)

end Simdpp.Alloc
