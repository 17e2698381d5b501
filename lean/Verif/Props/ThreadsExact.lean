import Verif.Props.ThreadsMem

/-!
# C74: `store_first` which writes only the elements
-/

namespace Simdpp
open Spec Spec.Thr Spec.MProg Sh

variable {w n N L : Nat} {α β : Type}

/-- Builds, kinds, element sizes and registers on which `store_first` accesses only the elements it stores (by single elements or masked stores) and not the rest of the register. -/
def Cfg.firstExact (c : Cfg) (k : Kind) (w : Nat) : Reg → Prop
  | .r128 => c.null = true ∨ (w = 64 ∧ c.msa = false) ∨
      (k = .flt ∧ w = 32 ∧ c.altivec = false ∧ c.neonNoFltSp = false ∧ c.msa = false ∧ (c.avx = true ∨ c.sse2 = false))
  | _ => w = 32 ∨ w = 64

namespace Act
open Spec.Thr.Act

section
variable {R W : Nat → Prop} {p : Nat}

theorem safe_sel {a : Vec w N} {sel : Nat → Bool} (hx : ∀ y, p ≤ y → y < p + n * (w / 8) → W y) (hs : ∀ i, i < N → sel i = true → i < n) : Safe R W (stm p a sel) :=
  safe_stm fun i hi g y h1 h2 => hx y (by omega) (lt_of_lt_of_le h2 (Nat.add_le_add_left (Nat.mul_le_mul_right _ (hs i hi g)) _))

theorem safe_maskFirst (hw : IsW w) {a : Vec w N} (hn : n ≤ N) (hx : ∀ y, p ≤ y → y < p + n * (w / 8) → W y) : Safe R W (maskFirst N p a n) := by
  unfold maskFirst
  rw [tab_first hn]
  refine safe_sel hx fun i hi g => ?_
  have := signs_mask hw (fun i : Fin N => decide (i.val < n)) ⟨i, hi⟩
  rw [g] at this
  exact of_decide_eq_true this.symm

theorem safe_mask512First {a : Vec w N} (hn : n ≤ N) (hx : ∀ y, p ≤ y → y < p + n * (w / 8) → W y) : Safe R W (mask512First N p a n) := by
  unfold mask512First
  rw [if_pos hn]
  refine safe_sel hx fun i hi g => ?_
  rw [testBit_first hn hi] at g
  exact of_decide_eq_true g

variable {c : Cfg} (h : c.Ok) {k : Kind} {r : Reg}
include h

theorem safe_firstIntX {be : Bool} (hw : IsW w) (he : c.firstExact .int w r) {a : Vec w (r.lanes w)} (hn : n ≤ r.lanes w) (hx : ∀ y, p ≤ y → y < p + n * (w / 8) → W y) :
    Safe R W (firstInt c be r p a n) := by
  have h0 : Safe R W (nullFirst p a n) := safe_nullFirst hx
  have hl : n = 1 → Safe R W (lane p a 0) := fun e => safe_elem hx (by omega)
  cases r
  · have hm : c.msa = false := by
      rcases he with g | g | g
      · by_contra e; exfalso; clear hn hx h0 hl; cfg_absurd h
      · exact g.2
      · cases g.1
    unfold firstInt
    dsimp only
    by_cases e8 : w = 8
    · have hn0 : c.null = true := by
        rcases he with g | g | g
        · exact g
        · omega
        · cases g.1
      subst e8
      rw [if_pos rfl]
      unfold first8
      dsimp only
      rw [if_pos hn0]
      exact safe_al (safe_nullFirst fun y h1 h2 => hx y h1 (by omega))
    · rw [if_neg e8]
      refine safe_al ?_
      by_cases e : w = 16 ∨ w = 32
      · have hn0 : c.null = true := by
          rcases he with g | g | g
          · exact g
          · omega
          · cases g.1
        rw [if_pos e, if_pos hn0]
        exact h0
      · rw [if_neg e, hm]
        split_ifs <;> first | exact h0 | exact hl ‹_› | trivial | (exact absurd ‹_› Bool.false_ne_true)
  · have e : 256 / w = Reg.r256.lanes w := by rcases hw with e | e | e | e <;> subst e <;> rfl
    have he' : w = 32 ∨ w = 64 := he
    unfold firstInt
    dsimp only
    rw [if_neg (by omega), e]
    split_ifs
    · exact safe_maskFirst hw hn hx
    · trivial
  · have e : 512 / w = Reg.r512.lanes w := by rcases hw with e | e | e | e <;> subst e <;> rfl
    have he' : w = 32 ∨ w = 64 := he
    unfold firstInt
    dsimp only
    rw [if_neg (by omega), e]
    split_ifs
    · exact safe_mask512First hn hx
    · trivial

theorem safe_firstFltX {be : Bool} (hw : w = 32 ∨ w = 64) (he : c.firstExact .flt w r) {a : Vec w (r.lanes w)} (hn : n < r.lanes w) (hx : ∀ y, p ≤ y → y < p + n * (w / 8) → W y) :
    Safe R W (firstFlt c be r p a n) := by
  have hW : IsW w := by rcases hw with e | e <;> subst e <;> first | exact iw32 | exact iw64
  have h0 : Safe R W (nullFirst p a n) := safe_nullFirst hx
  have hl : ∀ i, i < n → Safe R W (lane p a i) := fun i e => safe_elem hx e
  cases r
  · unfold firstFlt
    dsimp only
    refine safe_al ?_
    by_cases e : w = 32
    · rw [if_pos e]
      subst e
      by_cases g1 : c.null = true ∨ c.altivec = true ∨ c.neonNoFltSp = true ∨ c.msa = true
      · rw [if_pos g1]
        refine safe_firstIntX h hW (r := .r128) ?_ hn.le hx
        rcases he with g | g | g
        · exact .inl g
        · exact absurd g.1 (by decide)
        · obtain ⟨-, -, g2, g3, g4, -⟩ := g
          rw [g2, g3, g4] at g1
          rcases g1 with g1 | g1 | g1 | g1
          · exact .inl g1
          all_goals cases g1
      · rw [if_neg g1]
        have he' : c.avx = true ∨ c.sse2 = false := by
          rcases he with g | g | g
          · exact absurd (.inl g) g1
          · exact absurd g.1 (by decide)
          · exact g.2.2.2.2.2
        by_cases g2 : c.avx = true
        · rw [if_pos g2]
          exact safe_maskFirst (N := 4) hW hn.le hx
        · rw [if_neg g2, if_neg (by rw [he'.resolve_left g2]; exact Bool.false_ne_true)]
          have h4 : n < 4 := hn
          split_ifs
          · trivial
          · exact Safe.bind (fun _ => by exact trivial) (hl 0 (by omega))
          · exact Safe.bind (fun _ => Safe.bind (fun _ => by exact trivial) (hl 1 (by omega))) (hl 0 (by omega))
          · exact Safe.bind (fun _ => Safe.bind (fun _ => hl 2 (by omega)) (hl 1 (by omega))) (hl 0 (by omega))
          · trivial
    · rw [if_neg e]
      have hm : c.msa = false := by
        rcases he with g | g | g
        · by_contra e; exfalso; clear hn hx h0 hl hw hW; cfg_absurd h
        · exact g.2
        · exact absurd g.2.1 e
      rw [hm]
      split_ifs <;> first | exact h0 | exact hl 0 (by omega) | trivial | (exact absurd ‹_› Bool.false_ne_true)
  · have e : 256 / w = Reg.r256.lanes w := by rcases hw with e | e <;> subst e <;> rfl
    unfold firstFlt
    dsimp only
    rw [e]
    split_ifs
    · exact safe_maskFirst hW hn.le hx
    · trivial
  · have e : 512 / w = Reg.r512.lanes w := by rcases hw with e | e <;> subst e <;> rfl
    unfold firstFlt
    dsimp only
    rw [e]
    split_ifs
    · exact safe_mask512First hn.le hx
    · trivial

theorem safe_firstX {be : Bool} (hw : k.okW w) (he : c.firstExact k w r) {a : Vec w (r.lanes w)} (hn : n < r.lanes w) (hx : ∀ y, p ≤ y → y < p + n * (w / 8) → W y) :
    Safe R W (first c be k r p a n) := by
  cases k
  · exact safe_firstIntX h hw.isW he hn.le hx
  · exact safe_firstFltX h hw he hn hx

end

end Act

/-- **C74.** On the builds of `firstExact`, `store_first` of `n` elements (of a vector of one or several registers) neither reads nor writes any byte but those of the `n` elements, so other threads may access
the bytes behind them at the same time. -/
theorem C74_store_first_exact {c : Cfg} (h : c.Ok) {be : Bool} {k : Kind} {sg : Bool} (hw : k.okW w) (hN : c.KLen k w N) (he : c.firstExact k w (c.regK k w N)) {p : Nat} {a : Vec w N} {n : Nat}
    (hn : n < N) : Act.Safe (fun _ => False) (fun y => p ≤ y ∧ y < p + n * (w / 8)) (Act.store_first c be k sg p a n) := by
  obtain ⟨hr, K, -, e⟩ := KLen.regs h hw hN
  have hB := bytes_eq hw.isW (c.regK k w N)
  unfold Act.store_first
  dsimp only
  generalize c.regK k w N = r at *
  split_ifs with g
  · have e' := g.1
    subst e'
    exact Act.safe_firstX h hw he hn fun y h1 h2 => ⟨h1, h2⟩
  · have hL := lanes_pos hw.isW r
    have hdm := Nat.div_add_mod' n (r.lanes w)
    have ev : n * (w / 8) = n / r.lanes w * r.bytes + n % r.lanes w * (w / 8) := by
      conv_lhs => rw [← hdm]
      rw [Nat.add_mul, Nat.mul_assoc, hB]
    unfold Act.firstArr
    refine Act.Safe.bind (fun _ => ?_) (Act.safe_loop _ fun i _ h2 => Act.safe_stv fun y h3 h4 => ?_)
    · split_ifs
      · exact Act.safe_firstX h hw he (Nat.mod_lt n hL) fun y h3 h4 => ⟨by omega, by omega⟩
      · trivial
    · have := Nat.mul_le_mul_right r.bytes (show i + 1 ≤ n / r.lanes w by omega)
      rw [Nat.add_mul, Nat.one_mul] at this
      rw [hB] at h4
      exact ⟨by omega, by omega⟩

end Simdpp
