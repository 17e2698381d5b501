import Verif.Props.ThreadsPub

/-!
# C74: one array, several threads
-/

namespace Simdpp
open Spec Spec.Thr Spec.MProg Spec.FProg Sh

variable {w n N L : Nat} {α β : Type}

/-- The loop over elements `i*B .. min (i*B+B) n` of the arrays at `p`, the output at `q`. -/
def chunk (c : Cfg) (h : c.Ok) (be : Bool) (N : Nat) (E : Est) (J : Junk c N) {Γ : Nat → ETy} {t : ETy} (e : MExp Γ t) (V : Nat) (p : Nat → Nat) (q n B i : Nat) : Job where
  c := c
  ok := h
  be := be
  N := N
  E := E
  J := J
  Γ := Γ
  t := t
  e := e
  V := V
  p := fun x => p x + i * B * ((Γ x).w / 8)
  q := q + i * B * (t.w / 8)
  cnt := min B (n - i * B)

/-- **C74.** `T` threads share the work on arrays of `n` elements: thread `i` runs the loop of C59 over elements `i * B .. min (i * B + B) n`, with `B` a multiple of the number of lanes. Whatever the order of the
accesses to memory, no thread gets stuck, and when all have finished, every output element is the scalar result and no other byte has changed: the same as one loop over the whole arrays (C59). The output may
be in place of an input with elements of the same size, and may not overlap the inputs in another way. -/
theorem C74_parallel_for {c : Cfg} (h : c.Ok) (N : Nat) (E : Est) : ∃ I : (f : FWd) → Impl f.n,
    (∀ f, (I f).Ok ∧ (¬ c.mulByFma f.n (c.regK .flt f.n N) → (I f).mul = Fp.mul)) ∧
    ∀ (Γ : Nat → ETy) (t : ETy) (e : MExp Γ t) (be : Bool) (J : Junk c N) (V : Nat) (p : Nat → Nat) (q n B T : Nat) (m : Mem) (A : (x : Nat) → Nat → BitVec (Γ x).w) (P : Nat),
      P = (n + (N - 1)) / N * N → N ∣ B → n ≤ T * B →
      (∀ x, x < V → c.TLen (Γ x) N) →
      (∀ x, x < V → ∀ j, j < P → Holds m.byte (p x + j * ((Γ x).w / 8)) (A x j)) → (∀ x, V ≤ x → ∀ j, A x j = 0) →
      (∀ x, x < V → p x % (c.regK (Γ x).kind (Γ x).w N).bytes = 0) → q % (c.regK t.kind t.w N).bytes = 0 →
      (∀ x, x < V → m.Block (p x) (P * ((Γ x).w / 8))) → m.Block q (P * (t.w / 8)) →
      (∀ x, x < V → (q = p x ∧ t.w = (Γ x).w) ∨ p x + P * ((Γ x).w / 8) ≤ q ∨ q + P * (t.w / 8) ≤ p x) →
      e.Ok c N I (fun (j : Fin P) x => A x j.val) →
      ∀ (S : Fin T → Act Unit) (m' : Shared) (k : Nat), Exec (fun i : Fin T => (chunk c h be N E J e V p q n B i.val).act) m.shared S m' k →
        (∀ i, ¬ Stuck (S i) m') ∧
        (Finished S →
          (∀ j, j < n → Holds m'.byte (q + j * (t.w / 8)) (e.den I fun x => A x j)) ∧
          ∀ y, y < q ∨ q + n * (t.w / 8) ≤ y → m'.byte y = m.byte y) := by
  obtain ⟨I, h1, h2⟩ := C59_kernel h N E
  refine ⟨I, h1, fun Γ t e be J V p q n B T m A P hP hB hn hT hA hV hp hq hb hbq hd ok S m' k ex => ?_⟩
  have hN : c.TLen t N := ok.len
  have hN0 := KLen.pos h (ETy.okW t) hN
  obtain ⟨b, rfl⟩ := hB
  -- the elements of chunk `i`, rounded up, are elements of the whole
  have hPi : ∀ i j, j < (min (N * b) (n - i * (N * b)) + (N - 1)) / N * N → i * (N * b) + j < P ∧ j < N * b := fun i j hj => by
    have e1 : (min (N * b) (n - i * (N * b)) + (N - 1)) / N ≤ b := by
      have := Nat.min_le_left (N * b) (n - i * (N * b))
      exact Nat.lt_succ_iff.1 (Nat.div_lt_of_lt_mul (by rw [Nat.mul_succ]; omega))
    have e2 := Nat.mul_le_mul_right N e1
    rw [Nat.mul_comm b N] at e2
    refine ⟨?_, by omega⟩
    have hpos : 0 < n - i * (N * b) := by
      by_contra g
      have g' : n - i * (N * b) = 0 := by omega
      rw [g', Nat.min_zero, Nat.zero_add, Nat.div_eq_of_lt (by omega), Nat.zero_mul] at hj
      omega
    have e3 : (min (N * b) (n - i * (N * b)) + (N - 1)) / N ≤ (n - i * (N * b) + (N - 1)) / N := Nat.div_le_div_right (by have := Nat.min_le_right (N * b) (n - i * (N * b)); omega)
    have e4 : (n + (N - 1)) / N = i * b + (n - i * (N * b) + (N - 1)) / N := by
      rw [show n + (N - 1) = (n - i * (N * b) + (N - 1)) + N * (i * b) by rw [show N * (i * b) = i * (N * b) by ring]; omega, Nat.add_mul_div_left _ _ hN0, Nat.add_comm]
    have e5 := Nat.mul_le_mul_right N e3
    rw [hP, e4, Nat.add_mul, show i * b * N = i * (N * b) by ring]
    omega
  -- where the bytes of chunk `i` lie
  have hin : ∀ (s q' i y : Nat), q' + i * (N * b) * s ≤ y → y < q' + i * (N * b) * s + (min (N * b) (n - i * (N * b)) + (N - 1)) / N * N * s →
      y < q' + (i * (N * b) + N * b) * s ∧ y < q' + P * s := fun s q' i y l1 l2 => by
    have hpos : 0 < (min (N * b) (n - i * (N * b)) + (N - 1)) / N * N := by
      rcases Nat.eq_zero_or_pos ((min (N * b) (n - i * (N * b)) + (N - 1)) / N * N) with g | g
      · rw [g] at l2; omega
      · exact g
    obtain ⟨g1, g2⟩ := hPi i _ (Nat.sub_lt hpos Nat.one_pos)
    rw [Nat.add_assoc q', ← Nat.add_mul] at l2
    have k1 := Nat.mul_le_mul_right s (show i * (N * b) + (min (N * b) (n - i * (N * b)) + (N - 1)) / N * N ≤ P by omega)
    have k2 := Nat.mul_le_mul_right s (show i * (N * b) + (min (N * b) (n - i * (N * b)) + (N - 1)) / N * N ≤ i * (N * b) + N * b by omega)
    exact ⟨by omega, by omega⟩
  have hch : ∀ (s q' i i' y : Nat), i < i' → y < q' + (i * (N * b) + N * b) * s → ¬ q' + i' * (N * b) * s ≤ y := fun s q' i i' y hi l1 l2 => by
    have k1 := Nat.mul_le_mul_right s (Nat.mul_le_mul_right (N * b) (show i + 1 ≤ i' from hi))
    rw [Nat.add_mul, Nat.one_mul] at k1
    omega
  have hal : ∀ {w : Nat} {k : Kind} (hw : k.okW w) (hK : c.KLen k w N) {q' : Nat} (i : Nat), q' % (c.regK k w N).bytes = 0 → (q' + i * (N * b) * (w / 8)) % (c.regK k w N).bytes = 0 := by
    intro w k hw hK q' i hq'
    have := vec_aligned h hw hK (i := i * b) hq'
    rwa [show i * b * (N * (w / 8)) = i * (N * b) * (w / 8) by ring] at this
  have hA' : ∀ i : Fin T, (chunk c h be N E J e V p q n (N * b) i.val).Ready m (fun x j => A x (i.val * (N * b) + j)) := fun i =>
    { len := hT
      olen := hN
      holds := fun x hx j hj => by
        have := hA x hx _ (hPi i.val j hj).1
        rw [Nat.add_mul, ← Nat.add_assoc] at this
        exact this
      unused := fun x hx j => hV x hx _
      al := fun x hx => hal (ETy.okW _) (hT x hx) _ (hp x hx)
      alq := hal (ETy.okW _) hN _ hq
      blk := fun x hx y l1 l2 => hb x hx y (Nat.le_trans (Nat.le_add_right _ _) l1) (hin _ _ i.val y l1 l2).2
      blkq := fun y l1 l2 => hbq y (Nat.le_trans (Nat.le_add_right _ _) l1) (hin _ _ i.val y l1 l2).2
      dis := fun x hx => by
        by_cases g0 : (min (N * b) (n - i.val * (N * b)) + (N - 1)) / N * N = 0
        · have g0' : (chunk c h be N E J e V p q n (N * b) i.val).P = 0 := g0
          rw [g0', Nat.zero_mul, Nat.zero_mul]
          exact .inr (Nat.le_total _ _)
        · have g1 := (hPi i.val _ (Nat.sub_lt (Nat.pos_of_ne_zero g0) Nat.one_pos)).1
          have g2 : ∀ s, i.val * (N * b) * s + (min (N * b) (n - i.val * (N * b)) + (N - 1)) / N * N * s ≤ P * s := fun s => by
            rw [← Nat.add_mul]
            exact Nat.mul_le_mul_right s (by omega)
          have g3 := g2 (t.w / 8)
          have g4 := g2 ((Γ x).w / 8)
          rcases hd x hx with ⟨e1, e2⟩ | g | g
          · refine .inl ⟨?_, e2.le⟩
            show q + i.val * (N * b) * (t.w / 8) ≤ p x + i.val * (N * b) * ((Γ x).w / 8)
            rw [e1, e2]
          · refine .inr (.inl ?_)
            show p x + i.val * (N * b) * ((Γ x).w / 8) + (min (N * b) (n - i.val * (N * b)) + (N - 1)) / N * N * ((Γ x).w / 8) ≤ q + i.val * (N * b) * (t.w / 8)
            omega
          · refine .inr (.inr ?_)
            show q + i.val * (N * b) * (t.w / 8) + (min (N * b) (n - i.val * (N * b)) + (N - 1)) / N * N * (t.w / 8) ≤ p x + i.val * (N * b) * ((Γ x).w / 8)
            omega }
  obtain ⟨r1, r2⟩ := loops_of (fun i : Fin T => chunk c h be N E J e V p q n (N * b) i.val) (fun _ => I) m (fun i x j => A x (i.val * (N * b) + j)) hA'
    (fun i i' hne y ho => by
      have hne' : i.val ≠ i'.val := fun g => hne (Fin.ext g)
      obtain ⟨o1, o2⟩ := ho.1
      change q + i.val * (N * b) * (t.w / 8) ≤ y at o1
      obtain ⟨o3, o4⟩ := hin _ _ i.val y o1 o2
      refine ⟨fun hi => ?_, fun hi => ?_⟩
      · obtain ⟨x, hx, u1, u2⟩ := hi
        change p x + i'.val * (N * b) * ((Γ x).w / 8) ≤ y at u1
        obtain ⟨u3, u4⟩ := hin _ _ i'.val y u1 u2
        rcases hd x hx with ⟨e1, e2⟩ | g | g
        · rw [← e1, ← e2] at u1 u3
          rcases Nat.lt_or_gt_of_ne hne' with g | g
          · exact hch _ _ _ _ _ g o3 u1
          · exact hch _ _ _ _ _ g u3 o1
        · omega
        · omega
      · obtain ⟨u1, u2⟩ := hi.1
        change q + i'.val * (N * b) * (t.w / 8) ≤ y at u1
        obtain ⟨u3, u4⟩ := hin _ _ i'.val y u1 u2
        rcases Nat.lt_or_gt_of_ne hne' with g | g
        · exact hch _ _ _ _ _ g o3 u1
        · exact hch _ _ _ _ _ g u3 o1)
    (fun i => h2 Γ t e be J m rfl hT (hA' i).holds (hA' i).unused (hA' i).al (hA' i).alq (hA' i).blk (hA' i).blkq (hA' i).dis
      (MExp.Ok.comp (fun j : Fin (chunk c h be N E J e V p q n (N * b) i.val).P => (⟨i.val * (N * b) + j.val, (hPi i.val j.val j.isLt).1⟩ : Fin P)) e ok)) ex
  refine ⟨r1, fun hf => ?_⟩
  obtain ⟨r3, r4⟩ := r2 hf
  refine ⟨fun j hj => ?_, fun y hy => r4 y fun i => ?_⟩
  · have hB0 : 0 < N * b := by
      rcases Nat.eq_zero_or_pos (N * b) with g | g
      · rw [g, Nat.mul_zero] at hn; omega
      · exact g
    have hi : j / (N * b) < T := Nat.div_lt_of_lt_mul (by rw [Nat.mul_comm]; omega)
    have ej := Nat.div_add_mod' j (N * b)
    have hm := Nat.mod_lt j hB0
    have := r3 ⟨j / (N * b), hi⟩ (j % (N * b)) (by
      show j % (N * b) < min (N * b) (n - j / (N * b) * (N * b))
      omega)
    change Holds m'.byte (q + j / (N * b) * (N * b) * (t.w / 8) + j % (N * b) * (t.w / 8)) (e.den I fun x => A x (j / (N * b) * (N * b) + j % (N * b))) at this
    rw [Nat.add_assoc, ← Nat.add_mul, ej] at this
    exact this
  · show y < q + i.val * (N * b) * (t.w / 8) ∨ q + i.val * (N * b) * (t.w / 8) + min (N * b) (n - i.val * (N * b)) * (t.w / 8) ≤ y
    rcases hy with g | g
    · exact .inl (by omega)
    · by_cases g0 : n ≤ i.val * (N * b)
      · rw [Nat.sub_eq_zero_of_le g0, Nat.min_zero, Nat.zero_mul, Nat.add_zero]
        exact Nat.lt_or_ge _ _
      · have k1 := Nat.mul_le_mul_right (t.w / 8) (show i.val * (N * b) + min (N * b) (n - i.val * (N * b)) ≤ n by omega)
        rw [Nat.add_mul] at k1
        exact .inr (by omega)

end Simdpp
