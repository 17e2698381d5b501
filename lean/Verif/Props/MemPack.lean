import Verif.Props.MemPack24
import Verif.Props.MemPack4
import Verif.Props.MemPack3B
import Verif.Props.Mem
import Verif.Props.MakeConst

/-!
# C27: interleaved loads and stores
-/

namespace Simdpp
open Sh Spec Mem

variable {w n N M : Nat}

/-! ## Registers -/

/-- Vector `q` of the `M` interleaved in `e`. -/
def dlv (M : Nat) (e : Vec w (M * n)) : Fin M → Vec w n := fun q i => e.at_ (M * i.val + q.val)

theorem famM_eq_some {α : Type} {f : Fin M → Option α} {T : Fin M → α} (h : ∀ q, f q = some (T q)) : famM f = some T := by
  unfold famM
  rw [dif_pos fun q => by rw [h q]; rfl]
  refine congrArg some (funext fun q => ?_)
  exact Option.get_of_eq_some _ (h q)

theorem div_fam {q i : Nat} (hi : i < n) : (q * n + i) / n = q := by
  rw [Nat.mul_comm, Nat.mul_add_div (by omega), Nat.div_eq_of_lt hi, Nat.add_zero]
theorem mod_fam {q i : Nat} (hi : i < n) : (q * n + i) % n = i := by
  rw [Nat.mul_comm, Nat.mul_add_mod, Nat.mod_eq_of_lt hi]

theorem lane_of_bs (hw : IsW w) {x : Fin M → Vec w n} {y : Vec w n} {sel : Nat → Nat} (b : BS (allB (n * (w / 8)) x) (n * (w / 8)) y sel)
    {i q' i' : Nat} (hi : i < n) (hq' : q' < M) (hi' : i' < n) (hs : ∀ j, j < w / 8 → sel (i * (w / 8) + j) = q' * (n * (w / 8)) + i' * (w / 8) + j) :
    y.at_ i = (x ⟨q', hq'⟩).at_ i' := by
  refine byteOf_inj hw fun j hj => ?_
  have lt : ∀ {i}, i < n → i * (w / 8) + j < n * (w / 8) := fun {i} hi => by
    calc i * (w / 8) + j < (i + 1) * (w / 8) := by rw [Nat.add_mul, Nat.one_mul]; omega
      _ ≤ n * (w / 8) := Nat.mul_le_mul_right _ hi
  have e := b (i * (w / 8) + j) (lt hi)
  rw [hs j hj, Nat.add_assoc, allB_at x ⟨q', hq'⟩ (lt hi'), recast8_at hw _ (lt hi), recast8_at hw _ (lt hi'), div_fam hj, mod_fam hj, div_fam hj,
    mod_fam hj] at e
  exact e

theorem pack_of_fs (hw : IsW w) {op : (Fin M → Vec w n) → Option (Fin M → Vec w n)} {b : Nat} (hb : b = n * (w / 8))
    (hf : FS M b op (packSel M (w / 8) b)) (x : Fin M → Vec w n) : op x = some (fun q => Hw.part n q.val (ilv x)) := by
  subst hb
  obtain ⟨y, e, s⟩ := hf x
  rw [e]
  refine congrArg some (funext fun q => funext fun i => ?_)
  have hM : 0 < M := Nat.zero_lt_of_lt q.isLt
  have hn : 0 < n := Nat.zero_lt_of_lt i.isLt
  have hlt : q.val * n + i.val < M * n := by
    calc q.val * n + i.val < (q.val + 1) * n := by rw [Nat.add_mul, Nat.one_mul]; have := i.isLt; omega
      _ ≤ M * n := Nat.mul_le_mul_right _ q.isLt
  have hB := isW_bpos hw
  rw [← Vec.at_fin (y q) i]
  unfold Hw.part
  rw [Vec.at_lt _ hlt]
  unfold ilv
  dsimp only
  rw [dif_pos (Nat.mod_lt _ hM)]
  refine lane_of_bs hw (s q) i.isLt _ (Nat.div_lt_of_lt_mul hlt) fun j hj => ?_
  unfold packSel
  rw [Nat.mul_div_cancel _ hB, div_fam hj, mod_fam hj]

theorem unpack_of_fs (hw : IsW w) {op : (Fin M → Vec w n) → Option (Fin M → Vec w n)} {b : Nat} (hb : b = n * (w / 8))
    (hf : FS M b op (unpackSel M (w / 8) b)) (e : Vec w (M * n)) : op (fun q => Hw.part n q.val e) = some (dlv M e) := by
  subst hb
  obtain ⟨y, e1, s⟩ := hf (fun q => Hw.part n q.val e)
  rw [e1]
  refine congrArg some (funext fun q => funext fun i => ?_)
  have hM : 0 < M := Nat.zero_lt_of_lt q.isLt
  have hn : 0 < n := Nat.zero_lt_of_lt i.isLt
  have hlt : M * i.val + q.val < n * M := by
    calc M * i.val + q.val < M * (i.val + 1) := by rw [Nat.mul_add, Nat.mul_one]; have := q.isLt; omega
      _ ≤ M * n := Nat.mul_le_mul_left _ i.isLt
      _ = n * M := Nat.mul_comm _ _
  have hB := isW_bpos hw
  rw [← Vec.at_fin (y q) i]
  have hd : (M * i.val + q.val) / n < M := Nat.div_lt_of_lt_mul hlt
  have hm := Nat.mod_lt (M * i.val + q.val) hn
  rw [lane_of_bs hw (s q) i.isLt hd hm fun j hj => ?_]
  · show (Hw.part n ((M * i.val + q.val) / n) e).at_ _ = e.at_ _
    rw [Hw.part_at _ hm, Nat.div_add_mod']
  · unfold unpackSel
    rw [Nat.mul_div_cancel _ hB, div_fam hj, mod_fam hj]

theorem elem_lt {i q : Nat} (hi : i < n) (hq : q < M) : M * i + q < M * n := by
  calc M * i + q < M * (i + 1) := by rw [Nat.mul_add, Nat.mul_one]; omega
    _ ≤ M * n := Nat.mul_le_mul_left _ hi

/-! ## One register per vector -/

theorem vldM_eq {m : Mem} {p : Nat} (ha : m.Acc p (M * n * (w / 8))) : m.vldM M w n p = some (dlv M (get w (M * n) m p)) := by
  unfold Mem.vldM
  rw [ldv_eq ha]
  rfl

theorem vstM_eq (hw : IsW w) {m : Mem} {p : Nat} (ha : m.Acc p (M * n * (w / 8))) (x : Fin M → Vec w n) :
    m.vstM p x = some (m.put p (ilv x) (fun _ => true)) := stv_eq hw ha _

theorem Null.load_packed_eq (hw : IsW w) {m : Mem} {p : Nat} (hp : p % (w / 8) = 0) (ha : m.Acc p (M * n * (w / 8))) :
    Null.load_packed M w n m p = some (dlv M (get w (M * n) m p)) := by
  unfold Null.load_packed Mem.al
  simp only [if_pos hp]
  refine famM_eq_some fun q => lanesM_eq_some.2 fun i => ?_
  have hl := elem_lt i.isLt q.isLt
  rw [ldv_eq (n := 1) (Acc.elem ha hl)]
  refine congrArg some ?_
  refine (Vec.at_lt _ Nat.one_pos).trans ?_
  have := get_holds (n := 1) hw m (p + (M * i.val + q.val) * (w / 8)) ⟨0, Nat.one_pos⟩
  rw [Nat.zero_mul, Nat.add_zero] at this
  unfold dlv
  rw [Vec.at_lt _ hl]
  exact holds_inj hw this (get_holds hw m p ⟨_, hl⟩)

theorem ilv_at (x : Fin M → Vec w n) {i q : Nat} (hi : i < n) (hq : q < M) : (ilv x).at_ (M * i + q) = (x ⟨q, hq⟩).at_ i := by
  rw [Vec.at_lt _ (elem_lt hi hq)]
  unfold ilv
  have hM : 0 < M := by omega
  have e1 : (M * i + q) % M = q := by rw [Nat.mul_add_mod, Nat.mod_eq_of_lt hq]
  have e2 : (M * i + q) / M = i := by rw [Nat.mul_add_div hM, Nat.div_eq_of_lt hq, Nat.add_zero]
  dsimp only
  rw [dif_pos (Nat.mod_lt _ hM), e2]
  congr 2
  exact Fin.ext e1

theorem loop_split {σ : Type} (f : Nat → σ → Option σ) (A B : Nat) (s : σ) :
    loopM f 0 (A + B) s = (loopM f 0 A s).bind (loopM (fun i => f (A + i)) 0 B) := by
  induction B with
  | zero => cases loopM f 0 A s <;> rfl
  | succ B ih =>
    show (loopM f 0 (A + B) s).bind (f (0 + (A + B))) = _
    rw [ih, Nat.zero_add]
    cases loopM f 0 A s
    · rfl
    · show _ = (loopM (fun i => f (A + i)) 0 B _).bind _
      rw [Nat.zero_add]; rfl

theorem loop_congr {σ : Type} {f g : Nat → σ → Option σ} {lo cnt : Nat} (h : ∀ i, i < cnt → f (lo + i) = g (lo + i)) (s : σ) :
    loopM f lo cnt s = loopM g lo cnt s := by
  induction cnt with
  | zero => rfl
  | succ k ih =>
    show (loopM f lo k s).bind _ = (loopM g lo k s).bind _
    rw [ih fun i hi => h i (by omega), h k (by omega)]

theorem loop_nest {σ : Type} (f : Nat → σ → Option σ) (M n : Nat) (s : σ) :
    loopM (fun i => loopM (fun q => f (M * i + q)) 0 M) 0 n s = loopM f 0 (M * n) s := by
  induction n with
  | zero => rfl
  | succ n ih =>
    show (loopM _ 0 n s).bind (loopM (fun q => f (M * (0 + n) + q)) 0 M) = _
    rw [ih, Nat.zero_add, Nat.mul_add, Nat.mul_one, loop_split]

theorem Null.store_packed_eq (hw : IsW w) {m : Mem} {p : Nat} (hp : p % (w / 8) = 0) (ha : m.Acc p (M * n * (w / 8))) (x : Fin M → Vec w n) :
    Null.store_packed m p x = some (m.put p (ilv x) (fun _ => true)) := by
  rw [← Null.store_eq hw hp ha (ilv x)]
  unfold Null.store_packed Null.store
  rw [← loop_nest]
  refine loop_congr (fun i hi => ?_) m
  funext m'
  refine loop_congr (fun q hq => ?_) m'
  rw [Nat.zero_add, Nat.zero_add]
  funext m2
  rw [dif_pos hq, ilv_at x hi hq]

section
variable {c : Cfg} (h : c.Ok) {k : Kind} {r : Reg}
include h

theorem v_load_packed_eq (hw : k.okW w) (hr : c.hasVec k w r = true) (hn : n = r.lanes w) {unpack : (Fin M → Vec w n) → Option (Fin M → Vec w n)}
    (hf : FS M r.bytes unpack (unpackSel M (w / 8) r.bytes)) {m : Mem} {p : Nat} (hp : p % r.bytes = 0) (ha : m.Acc p (M * n * (w / 8))) :
    v_load_packed c k r unpack m p = some (dlv M (get w (M * n) m p)) := by
  unfold v_load_packed
  have hb := bytes_eq hw.isW r
  rw [← hn] at hb
  rw [al_eq hp, famM_eq_some (T := fun q => Hw.part n q.val (get w (M * n) m p)) fun q => ?_]
  · exact unpack_of_fs hw.isW hb.symm hf _
  · have h1 : q.val * r.bytes + r.bytes ≤ M * n * (w / 8) := reg_sub hw.isW (by rw [hn]) q.isLt
    rw [i_load_eq h hw hr hn (mod_reg hp) (Acc.sub ha (by omega) (by omega))]
    subst hn
    exact congrArg some (get_part hw.isW rfl q.isLt m p)

theorem v_store_pack_eq (hw : k.okW w) (hr : c.hasVec k w r = true) (hn : n = r.lanes w) {pack : (Fin M → Vec w n) → Option (Fin M → Vec w n)}
    (hf : FS M r.bytes pack (packSel M (w / 8) r.bytes)) {m : Mem} {p A : Nat} (hA : p % A = 0) (hp : p % r.bytes = 0)
    (ha : m.Acc p (M * n * (w / 8))) (x : Fin M → Vec w n) :
    v_store_pack c k r A pack m p x = some (m.put p (ilv x) (fun _ => true)) := by
  unfold v_store_pack
  have hb := bytes_eq hw.isW r
  rw [← hn] at hb
  have hL : 0 < n := by rw [hn]; exact lanes_pos hw.isW r
  rw [al_eq hA]
  refine (bind_of (pack_of_fs hw.isW hb.symm hf x) _).trans ?_
  rw [loop_put (sel := fun _ => true) (a := ilv x) (p := p) hw.isW hL hb.symm (by rw [Nat.zero_add]) (fun j _ h2 m' e' => ?_)]
  · refine congrArg some (put_congr hw.isW (fun i => ?_) fun _ _ => rfl)
    have := i.isLt
    rw [decide_eq_true (by rw [Nat.zero_mul, Nat.zero_add]; exact ⟨Nat.zero_le _, this⟩)]
    rfl
  · have hj : j < M := by omega
    have h1 : j * r.bytes + r.bytes ≤ M * n * (w / 8) := reg_sub hw.isW (by rw [hn]) hj
    dsimp only
    rw [dif_pos hj]
    exact i_store_eq h hw hr hn (mod_reg hp) (Acc.of_ok (Acc.sub ha (by omega) (by omega)) e') _

/-- Closes the branches of the dispatch over instruction sets. -/
local macro "packed_cases" h:ident : tactic =>
  `(tactic| (split_ifs <;> first | assumption | cfg_absurd $h))

theorem i_load_packed2_eq (hw : k.okW w) (hr : c.hasVec k w r = true) (hn : n = r.lanes w) {m : Mem} {p : Nat} (hp : p % r.bytes = 0)
    (ha : m.Acc p (2 * n * (w / 8))) : i_load_packed2 c k r m p = some (dlv 2 (get w (2 * n) m p)) := by
  have hR := v_load_packed_eq h hw hr hn (mem_unpack2_fs h hw hr hn) hp ha
  have hV := vldM_eq ha
  have hN := Null.load_packed_eq hw.isW (mod_elem hw.isW r hp) ha
  have h0 := h.null
  unfold i_load_packed2
  dsimp only
  cases k <;> cases r <;> dsimp only
  · rw [al_eq (show p % 16 = 0 from hp)]
    packed_cases h
  · exact (if_pos hr).trans hR
  · exact (if_pos hr).trans hR
  · rw [al_eq (show p % 16 = 0 from hp)]
    packed_cases h
  · exact (if_pos hr).trans hR
  · exact (if_pos hr).trans hR

theorem i_load_packed4_eq (hw : k.okW w) (hr : c.hasVec k w r = true) (hn : n = r.lanes w) {m : Mem} {p : Nat} (hp : p % r.bytes = 0)
    (ha : m.Acc p (4 * n * (w / 8))) : i_load_packed4 c k r m p = some (dlv 4 (get w (4 * n) m p)) := by
  have hR := v_load_packed_eq h hw hr hn (mem_unpack4_fs h hw hr hn) hp ha
  have hV := vldM_eq ha
  have hN := Null.load_packed_eq hw.isW (mod_elem hw.isW r hp) ha
  have h0 := h.null
  unfold i_load_packed4
  dsimp only
  cases k <;> cases r <;> dsimp only
  · rw [al_eq (show p % 16 = 0 from hp)]
    packed_cases h
  · exact (if_pos hr).trans hR
  · exact (if_pos hr).trans hR
  · rw [al_eq (show p % 16 = 0 from hp)]
    packed_cases h
  · exact (if_pos hr).trans hR
  · exact (if_pos hr).trans hR

theorem i_store_packed4_eq (hw : k.okW w) (hr : c.hasVec k w r = true) (hn : n = r.lanes w) {m : Mem} {p : Nat} (hp : p % r.bytes = 0)
    (ha : m.Acc p (4 * n * (w / 8))) (x : Fin 4 → Vec w n) : i_store_packed4 c k r m p x = some (m.put p (ilv x) (fun _ => true)) := by
  have hR := v_store_pack_eq h hw hr hn (mem_pack4_fs h hw hr hn) hp hp ha x
  have hV := vstM_eq hw.isW ha x
  have hN := Null.store_packed_eq hw.isW (mod_elem hw.isW r hp) ha x
  have h0 := h.null
  unfold i_store_packed4
  dsimp only
  cases k <;> cases r <;> dsimp only
  · rw [al_eq (show p % 16 = 0 from hp)]
    packed_cases h
  · exact (if_pos hr).trans hR
  · exact (if_pos hr).trans hR
  · rw [al_eq (show p % 16 = 0 from hp)]
    packed_cases h
  · exact (if_pos hr).trans hR
  · exact (if_pos hr).trans hR

theorem i_store_packed2_eq (hw : k.okW w) (hr : c.hasVec k w r = true) (hn : n = r.lanes w) {m : Mem} {p : Nat} (hp : p % r.bytes = 0)
    (h32 : c.sse2 = true ∨ c.altivec = true ∨ c.msa = true ∨ c.neon32 = true ∧ w = 64 → p % 32 = 0)
    (ha : m.Acc p (2 * n * (w / 8))) (x : Fin 2 → Vec w n) : i_store_packed2 c k r m p x = some (m.put p (ilv x) (fun _ => true)) := by
  have hN := Null.store_packed_eq hw.isW (mod_elem hw.isW r hp) ha x
  have h0 := h.null
  have hV := vstM_eq hw.isW ha x
  by_cases hreg : ¬ (c.sse2 = true ∨ c.altivec = true ∨ c.msa = true ∨ c.neon32 = true ∧ w = 64)
  · unfold i_store_packed2
    dsimp only
    cases k <;> cases r <;> dsimp only
    · rw [al_eq (show p % 16 = 0 from hp)]
      packed_cases h
    · exfalso; have := sse_of_wide h (r := .r256) (by decide) hr; grind
    · exfalso; have := sse_of_wide h (r := .r512) (by decide) hr; grind
    · rw [al_eq (show p % 16 = 0 from hp)]
      packed_cases h
    · exfalso; have := sse_of_wide h (r := .r256) (by decide) hr; grind
    · exfalso; have := sse_of_wide h (r := .r512) (by decide) hr; grind
  have hR := v_store_pack_eq h hw hr hn (mem_pack2_fs h hw hr hn) (h32 (not_not.1 hreg)) hp ha x
  unfold i_store_packed2
  dsimp only
  cases k <;> cases r <;> dsimp only
  · rw [al_eq (show p % 16 = 0 from hp)]
    packed_cases h
  · exact (if_pos hr).trans hR
  · exact (if_pos hr).trans hR
  · rw [al_eq (show p % 16 = 0 from hp)]
    packed_cases h
  · exact (if_pos hr).trans hR
  · exact (if_pos hr).trans hR

omit h in
theorem stv_step (hw : IsW w) {m : Mem} {p j : Nat} {e : Vec w N} (hj : (j + 1) * 2 ≤ N) (ha : m.Acc p (N * (w / 8))) {m' : Mem}
    (hm : m' = m.put p e (fun i => decide (i < j * 2))) {y : Vec w 2} (hy : y = Hw.part 2 j e) :
    m'.stv (p + j * (2 * (w / 8))) y = some (m.put p e (fun i => decide (i < (j + 1) * 2))) := by
  subst hm hy
  have h1 : (j + 1) * (2 * (w / 8)) ≤ N * (w / 8) := by rw [← Nat.mul_assoc]; exact Nat.mul_le_mul_right _ hj
  rw [Nat.add_mul, Nat.one_mul] at h1
  rw [stv_eq hw (Acc.put (Acc.sub ha (by omega) (by omega)))]
  refine congrArg some (put_part hw (by decide) hj (fun i _ g => ?_) (fun i _ g1 g2 => decide_eq_false (by omega)) (fun i hi => decide_eq_true (by omega)))
  rw [decide_eq_decide]; omega

theorem i_load_packed3_eq (hw : k.okW w) (hr : c.hasVec k w r = true) (hn : n = r.lanes w) {m : Mem} {p : Nat} (hp : p % r.bytes = 0)
    (ha : m.Acc p (3 * n * (w / 8))) : i_load_packed3 c k r m p = some (dlv 3 (get w (3 * n) m p)) := by
  have hR := v_load_packed_eq h hw hr hn (mem_unpack3_fs h hw hr hn) hp ha
  have hV := vldM_eq ha
  have hN := Null.load_packed_eq hw.isW (mod_elem hw.isW r hp) ha
  have h0 := h.null
  unfold i_load_packed3
  dsimp only
  cases k <;> cases r <;> dsimp only
  · rw [al_eq (show p % 16 = 0 from hp)]
    by_cases h32 : w ≤ 32
    · rw [if_pos h32]; packed_cases h
    rw [if_neg h32]
    have hw64 : w = 64 := by rcases hw with e | e | e | e <;> omega
    subst hw64
    have hn2 : n = 2 := hn
    subst hn2
    have hl : ∀ q, q < 3 → i_load c .int .r128 m (p + q * 16) = some (Hw.part 2 q (get 64 6 m p)) := fun q hq => by
      have h1 : q * Reg.r128.bytes + Reg.r128.bytes ≤ 3 * 2 * (64 / 8) := reg_sub (K := 3) iw64 rfl hq
      have e := i_load_eq (n := 2) h (k := .int) hw hr rfl (mod_reg (j := q) hp) (Acc.sub ha (by omega) (by omega))
      exact e.trans (congrArg some (get_part (K := 3) (r := .r128) iw64 rfl hq m p))
    have l0 := hl 0 (by decide)
    rw [Nat.zero_mul, Nat.add_zero] at l0
    have l1 := hl 1 (by decide)
    have l2 := hl 2 (by decide)
    refine ite_cases (fun _ => hR) fun _ => ite_cases (fun _ => hV) fun _ => ite_cases (fun _ => ?_) fun _ => ?_
    · refine (bind_of l0 _).trans ((bind_of l1 _).trans ((bind_of l2 _).trans (congrArg some (funext fun q => funext fun i => ?_))))
      generalize get 64 (3 * 2) m p = e
      unfold dlv
      fin_cases q <;> fin_cases i <;> rfl
    · packed_cases h
  · exact (if_pos hr).trans hR
  · exact (if_pos hr).trans hR
  · rw [al_eq (show p % 16 = 0 from hp)]
    packed_cases h
  · exact (if_pos hr).trans hR
  · exact (if_pos hr).trans hR

theorem i_store_packed3_eq (gnuc : Bool) (hw : k.okW w) (hr : c.hasVec k w r = true) (hn : n = r.lanes w) {m : Mem} {p : Nat} (hp : p % r.bytes = 0)
    (ha : m.Acc p (3 * n * (w / 8))) (x : Fin 3 → Vec w n) : i_store_packed3 c gnuc k r m p x = some (m.put p (ilv x) (fun _ => true)) := by
  have hR := v_store_pack_eq h hw hr hn (mem_pack3_fs h gnuc hw hr hn) hp hp ha x
  have hV := vstM_eq hw.isW ha x
  have hN := Null.store_packed_eq hw.isW (mod_elem hw.isW r hp) ha x
  have h0 := h.null
  unfold i_store_packed3
  dsimp only
  cases k <;> cases r <;> dsimp only
  · rw [al_eq (show p % 16 = 0 from hp)]
    by_cases h32 : w ≤ 32
    · rw [if_pos h32]; packed_cases h
    rw [if_neg h32]
    have hw64 : w = 64 := by rcases hw with e | e | e | e <;> omega
    subst hw64
    have hn2 : n = 2 := hn
    subst hn2
    refine ite_cases (fun _ => hR) fun _ => ite_cases (fun _ => ?_) fun _ => ite_cases (fun _ => hV) fun _ => ?_
    · have s0 := stv_step (j := 0) (e := ilv x) iw64 (by decide) ha (m' := m) (put_false iw64 fun i => rfl).symm
        (y := (fun i => if i.val = 0 then (x 0).at_ 0 else (x 1).at_ 0)) (by funext i; fin_cases i <;> rfl)
      have s1 := stv_step (j := 1) (e := ilv x) iw64 (by decide) ha rfl
        (y := (fun i => if i.val = 0 then (x 2).at_ 0 else (x 0).at_ 1)) (by funext i; fin_cases i <;> rfl)
      have s2 := stv_step (j := 2) (e := ilv x) iw64 (by decide) ha rfl
        (y := (fun i => if i.val = 0 then (x 1).at_ 1 else (x 2).at_ 1)) (by funext i; fin_cases i <;> rfl)
      refine (bind_of s0 _).trans ((bind_of s1 _).trans (s2.trans (congrArg some (put_congr iw64 (fun i => ?_) fun _ _ => rfl))))
      exact decide_eq_true (by have := i.isLt; omega)
    · packed_cases h
  · exact (if_pos hr).trans hR
  · exact (if_pos hr).trans hR
  · rw [al_eq (show p % 16 = 0 from hp)]
    packed_cases h
  · exact (if_pos hr).trans hR
  · exact (if_pos hr).trans hR

/-! ## Arrays of registers -/

omit h in
theorem loadPackedAll_eq (hw : IsW w) {K : Nat} (hN : N = K * r.lanes w) {m : Mem} {p : Nat} {op : Nat → Option (Fin M → Vec w (r.lanes w))}
    (hop : ∀ i, i < K → op (p + i * (r.bytes * M)) = some (dlv M (get w (M * r.lanes w) m (p + i * (r.bytes * M))))) :
    loadPackedAll M (r.lanes w) r.bytes op p = some (dlv M (get w (M * N) m p)) := by
  unfold loadPackedAll
  refine famM_eq_some fun q => catM_regs (lanes_pos hw r) hN fun i hi => ?_
  rw [hop i hi]
  refine congrArg some (funext fun j => ?_)
  have hj : i * r.lanes w + j.val < N := by
    rw [hN]
    calc i * r.lanes w + j.val < (i + 1) * r.lanes w := by rw [Nat.add_mul, Nat.one_mul]; have := j.isLt; omega
      _ ≤ K * r.lanes w := Nat.mul_le_mul_right _ hi
  unfold dlv Hw.part
  dsimp only
  rw [Vec.at_lt _ hj, Vec.at_lt _ (elem_lt j.isLt q.isLt), Vec.at_lt _ (elem_lt hj q.isLt)]
  refine holds_inj hw (get_holds hw m _ _) ?_
  have := get_holds hw m p (⟨M * (i * r.lanes w + j.val) + q.val, elem_lt hj q.isLt⟩ : Fin (M * N))
  dsimp only at this ⊢
  rw [show p + i * (r.bytes * M) + (M * j.val + q.val) * (w / 8) = p + (M * (i * r.lanes w + j.val) + q.val) * (w / 8) by
    rw [← bytes_eq hw r]; ring]
  exact this

omit h in
theorem ilv_part {L : Nat} (x : Fin M → Vec w N) {i : Nat} (hi : (i + 1) * L ≤ N) :
    (ilv fun q => (Hw.part L i (x q) : Vec w L)) = Hw.part (M * L) i (ilv x) := by
  funext e
  have he := e.isLt
  have hM : 0 < M := Nat.pos_of_ne_zero fun g => by subst g; omega
  have hd : e.val / M < L := Nat.div_lt_of_lt_mul he
  have hq := Nat.mod_lt e.val hM
  have hlt : i * L + e.val / M < N := by rw [Nat.add_mul, Nat.one_mul] at hi; omega
  have e1 := ilv_at (fun q => (Hw.part L i (x q) : Vec w L)) hd hq
  rw [Nat.div_add_mod] at e1
  rw [← Vec.at_fin (ilv _) e, e1, Hw.part_at _ hd, ← ilv_at x hlt hq]
  show _ = (ilv x).at_ (i * (M * L) + e.val)
  congr 1
  have := Nat.div_add_mod e.val M
  calc M * (i * L + e.val / M) + e.val % M = i * (M * L) + (M * (e.val / M) + e.val % M) := by ring
    _ = _ := by rw [this]

omit h in
theorem storePackedAll_eq (hw : IsW w) {K : Nat} (hN : N = K * r.lanes w) (hM : 0 < M) {m : Mem} {p : Nat} {op : Mem → Nat → (Fin M → Vec w (r.lanes w)) → Option Mem}
    (hop : ∀ i, i < K → ∀ m' : Mem, m'.ok = m.ok → ∀ y, op m' (p + i * (r.bytes * M)) y = some (m'.put (p + i * (r.bytes * M)) (ilv y) (fun _ => true)))
    (x : Fin M → Vec w N) : storePackedAll M (r.lanes w) r.bytes op m p x = some (m.put p (ilv x) (fun _ => true)) := by
  have hL := lanes_pos hw r
  have hK : N / r.lanes w = K := by rw [hN]; exact Nat.mul_div_cancel _ hL
  unfold storePackedAll
  rw [hK, loop_put (sel := fun _ => true) (a := ilv x) (p := p) (L := M * r.lanes w) hw (Nat.mul_pos hM hL)
    (B := r.bytes * M) (by rw [← bytes_eq hw r]; ring) (by rw [Nat.zero_add, hN]; exact le_of_eq (by ring)) (fun j _ h2 m' e' => ?_)]
  · refine congrArg some (put_congr hw (fun i => ?_) fun _ _ => rfl)
    have := i.isLt
    rw [decide_eq_true (by rw [Nat.zero_mul, Nat.zero_add]; exact ⟨Nat.zero_le _, lt_of_lt_of_eq this (by rw [hN]; ring)⟩)]
    rfl
  · have hj : j < K := by omega
    rw [hop j hj m' e', ilv_part x (by rw [hN]; exact Nat.mul_le_mul_right _ hj)]

omit h in
theorem packed_sub (hw : IsW w) {K : Nat} (hN : N = K * r.lanes w) {i : Nat} (hi : i < K) :
    i * (r.bytes * M) + M * r.lanes w * (w / 8) ≤ M * N * (w / 8) := by
  have h1 : (i + 1) * (M * r.lanes w * (w / 8)) ≤ K * (M * r.lanes w * (w / 8)) := Nat.mul_le_mul_right _ hi
  have h2 : K * (M * r.lanes w * (w / 8)) = M * N * (w / 8) := by rw [hN]; ring
  have h3 : i * (r.bytes * M) = i * (M * r.lanes w * (w / 8)) := by rw [← bytes_eq hw r]; ring
  rw [Nat.add_mul, Nat.one_mul] at h1
  omega

omit h in
theorem packed_mod {p B : Nat} (hp : p % B = 0) (i : Nat) : (p + i * (B * M)) % B = 0 := by
  rw [Nat.mul_left_comm, Nat.add_mul_mod_self_left]; exact hp

theorem load_packed2_eq (hw : k.okW w) (hN : c.KLen k w N) {m : Mem} {p : Nat} (hp : p % (c.regK k w N).bytes = 0)
    (ha : m.Block p (2 * N * (w / 8))) : load_packed2 c k w N m p = some (dlv 2 (get w (2 * N) m p)) := by
  obtain ⟨hr, K, -, e⟩ := KLen.regs h hw hN
  unfold load_packed2
  generalize c.regK k w N = r at *
  refine loadPackedAll_eq hw.isW e fun i hi => ?_
  have := packed_sub (M := 2) hw.isW e hi
  exact i_load_packed2_eq h hw hr rfl (packed_mod hp i) (ha.acc (by omega) (by omega))

theorem load_packed3_eq (hw : k.okW w) (hN : c.KLen k w N) {m : Mem} {p : Nat} (hp : p % (c.regK k w N).bytes = 0)
    (ha : m.Block p (3 * N * (w / 8))) : load_packed3 c k w N m p = some (dlv 3 (get w (3 * N) m p)) := by
  obtain ⟨hr, K, -, e⟩ := KLen.regs h hw hN
  unfold load_packed3
  generalize c.regK k w N = r at *
  refine loadPackedAll_eq hw.isW e fun i hi => ?_
  have := packed_sub (M := 3) hw.isW e hi
  exact i_load_packed3_eq h hw hr rfl (packed_mod hp i) (ha.acc (by omega) (by omega))

theorem load_packed4_eq (hw : k.okW w) (hN : c.KLen k w N) {m : Mem} {p : Nat} (hp : p % (c.regK k w N).bytes = 0)
    (ha : m.Block p (4 * N * (w / 8))) : load_packed4 c k w N m p = some (dlv 4 (get w (4 * N) m p)) := by
  obtain ⟨hr, K, -, e⟩ := KLen.regs h hw hN
  unfold load_packed4
  generalize c.regK k w N = r at *
  refine loadPackedAll_eq hw.isW e fun i hi => ?_
  have := packed_sub (M := 4) hw.isW e hi
  exact i_load_packed4_eq h hw hr rfl (packed_mod hp i) (ha.acc (by omega) (by omega))

theorem store_packed2_eq (hw : k.okW w) (hN : c.KLen k w N) {m : Mem} {p : Nat} (hp : p % (c.regK k w N).bytes = 0)
    (h32 : c.sse2 = true ∨ c.altivec = true ∨ c.msa = true ∨ c.neon32 = true ∧ w = 64 → p % 32 = 0)
    (ha : m.Block p (2 * N * (w / 8))) (x : Fin 2 → Vec w N) : store_packed2 c k m p x = some (m.put p (ilv x) (fun _ => true)) := by
  obtain ⟨hr, K, -, e⟩ := KLen.regs h hw hN
  unfold store_packed2
  generalize c.regK k w N = r at *
  refine storePackedAll_eq hw.isW e (by decide) (fun i hi m' e' y => ?_) x
  have := packed_sub (M := 2) hw.isW e hi
  refine i_store_packed2_eq h hw hr rfl (packed_mod hp i) (fun g => ?_) (Acc.of_ok (ha.acc (by omega) (by omega)) e') y
  have h1 := h32 g
  have h2 : r.bytes * 2 = r.bytes / 16 * 32 := by cases r <;> rfl
  rw [h2, Nat.mul_comm (r.bytes / 16), Nat.mul_left_comm, Nat.add_mul_mod_self_left]
  exact h1

theorem store_packed3_eq (gnuc : Bool) (hw : k.okW w) (hN : c.KLen k w N) {m : Mem} {p : Nat} (hp : p % (c.regK k w N).bytes = 0)
    (ha : m.Block p (3 * N * (w / 8))) (x : Fin 3 → Vec w N) : store_packed3 c gnuc k m p x = some (m.put p (ilv x) (fun _ => true)) := by
  obtain ⟨hr, K, -, e⟩ := KLen.regs h hw hN
  unfold store_packed3
  generalize c.regK k w N = r at *
  refine storePackedAll_eq hw.isW e (by decide) (fun i hi m' e' y => ?_) x
  have := packed_sub (M := 3) hw.isW e hi
  exact i_store_packed3_eq h gnuc hw hr rfl (packed_mod hp i) (Acc.of_ok (ha.acc (by omega) (by omega)) e') y

theorem store_packed4_eq (hw : k.okW w) (hN : c.KLen k w N) {m : Mem} {p : Nat} (hp : p % (c.regK k w N).bytes = 0)
    (ha : m.Block p (4 * N * (w / 8))) (x : Fin 4 → Vec w N) : store_packed4 c k m p x = some (m.put p (ilv x) (fun _ => true)) := by
  obtain ⟨hr, K, -, e⟩ := KLen.regs h hw hN
  unfold store_packed4
  generalize c.regK k w N = r at *
  refine storePackedAll_eq hw.isW e (by decide) (fun i hi m' e' y => ?_) x
  have := packed_sub (M := 4) hw.isW e hi
  exact i_store_packed4_eq h hw hr rfl (packed_mod hp i) (Acc.of_ok (ha.acc (by omega) (by omega)) e') y

/-! ## C27 -/

omit h in
theorem dlv_holds (hw : IsW w) (m : Mem) (p : Nat) (q : Fin M) (j : Fin n) :
    Holds m.byte (p + (M * j.val + q.val) * (w / 8)) (dlv M (get w (M * n) m p) q j) := by
  have hl := elem_lt j.isLt q.isLt
  unfold dlv
  rw [Vec.at_lt _ hl]
  exact get_holds hw m p ⟨_, hl⟩

/-- What an interleaving store does: element `M j + q` of the array at `p` is lane `j` of vector `q`; no other byte changes. -/
def Interleaved (m m' : Mem) (p : Nat) (x : Fin M → Vec w N) : Prop :=
  m'.ok = m.ok ∧ (∀ (q : Fin M) (j : Fin N), Holds m'.byte (p + (M * j.val + q.val) * (w / 8)) (x q j)) ∧
    ∀ a, a < p ∨ p + M * N * (w / 8) ≤ a → m'.byte a = m.byte a

omit h in
theorem interleaved_put (hw : IsW w) (m : Mem) (p : Nat) (x : Fin M → Vec w N) : Interleaved m (m.put p (ilv x) (fun _ => true)) p x := by
  have hs := stored_put hw m p (ilv x) (fun _ => true) (S := fun _ => True) (fun _ => by simp)
  refine ⟨rfl, fun q j => ?_, fun a ha => ?_⟩
  · have hl := elem_lt j.isLt q.isLt
    have := hs.2.1 ⟨_, hl⟩ trivial
    rw [← Vec.at_fin (ilv x), ilv_at x j.isLt q.isLt, Vec.at_fin] at this
    exact this
  · rw [put_byte, if_neg]
    omega

omit h in
theorem dlv_ilv (x : Fin M → Vec w N) : dlv M (ilv x) = x := by
  funext q j
  unfold dlv
  rw [ilv_at x j.isLt q.isLt, Vec.at_fin]

/-- **C27.** `load_packed2`: lane `j` of vector `q` is element `2 j + q` of the array at `p`; nothing but the array is read. For
every kind of lane, every vector length, every memory content and every address aligned to the native register. -/
theorem C27_load_packed2 (hw : k.okW w) (hN : c.KLen k w N) (m : Mem) {p : Nat} (hp : p % (c.regK k w N).bytes = 0)
    (ha : m.Block p (2 * N * (w / 8))) :
    ∃ x : Fin 2 → Vec w N, load_packed2 c k w N m p = some x ∧
      ∀ (q : Fin 2) (j : Fin N), Holds m.byte (p + (2 * j.val + q.val) * (w / 8)) (x q j) :=
  ⟨_, load_packed2_eq h hw hN hp ha, fun q j => dlv_holds hw.isW m p q j⟩

/-- **C27.** `load_packed3`. -/
theorem C27_load_packed3 (hw : k.okW w) (hN : c.KLen k w N) (m : Mem) {p : Nat} (hp : p % (c.regK k w N).bytes = 0)
    (ha : m.Block p (3 * N * (w / 8))) :
    ∃ x : Fin 3 → Vec w N, load_packed3 c k w N m p = some x ∧
      ∀ (q : Fin 3) (j : Fin N), Holds m.byte (p + (3 * j.val + q.val) * (w / 8)) (x q j) :=
  ⟨_, load_packed3_eq h hw hN hp ha, fun q j => dlv_holds hw.isW m p q j⟩

/-- **C27.** `load_packed4`. -/
theorem C27_load_packed4 (hw : k.okW w) (hN : c.KLen k w N) (m : Mem) {p : Nat} (hp : p % (c.regK k w N).bytes = 0)
    (ha : m.Block p (4 * N * (w / 8))) :
    ∃ x : Fin 4 → Vec w N, load_packed4 c k w N m p = some x ∧
      ∀ (q : Fin 4) (j : Fin N), Holds m.byte (p + (4 * j.val + q.val) * (w / 8)) (x q j) :=
  ⟨_, load_packed4_eq h hw hN hp ha, fun q j => dlv_holds hw.isW m p q j⟩

/-- **C27.** `store_packed2`. Missing from the full property: all builds but the portable one and NEON need an address that is a multiple of 32, also when the
registers have 16 bytes (`C27_store_packed2_misaligned`). -/
theorem C27_store_packed2_partial (hw : k.okW w) (hN : c.KLen k w N) (m : Mem) {p : Nat} (hp : p % (c.regK k w N).bytes = 0)
    (h32 : c.sse2 = true ∨ c.altivec = true ∨ c.msa = true ∨ c.neon32 = true ∧ w = 64 → p % 32 = 0) (ha : m.Block p (2 * N * (w / 8))) (x : Fin 2 → Vec w N) :
    ∃ m', store_packed2 c k m p x = some m' ∧ Interleaved m m' p x :=
  ⟨_, store_packed2_eq h hw hN hp h32 ha x, interleaved_put hw.isW m p x⟩

/-- **C27.** `store_packed2` with registers of 32 or 64 bytes. -/
theorem C27_store_packed2_wide (hw : k.okW w) (hN : c.KLen k w N) (hW : c.regK k w N ≠ .r128) (m : Mem) {p : Nat}
    (hp : p % (c.regK k w N).bytes = 0) (ha : m.Block p (2 * N * (w / 8))) (x : Fin 2 → Vec w N) :
    ∃ m', store_packed2 c k m p x = some m' ∧ Interleaved m m' p x := by
  refine C27_store_packed2_partial h hw hN m hp (fun _ => ?_) ha x
  revert hp hW
  generalize c.regK k w N = r
  cases r
  · exact fun g => absurd rfl g
  · exact fun _ hp => hp
  · intro _ hp
    have hp : p % 64 = 0 := hp
    omega

/-- **C27.** `store_packed3`; `gnuc`: a GNU compiler. -/
theorem C27_store_packed3 (gnuc : Bool) (hw : k.okW w) (hN : c.KLen k w N) (m : Mem) {p : Nat} (hp : p % (c.regK k w N).bytes = 0)
    (ha : m.Block p (3 * N * (w / 8))) (x : Fin 3 → Vec w N) :
    ∃ m', store_packed3 c gnuc k m p x = some m' ∧ Interleaved m m' p x :=
  ⟨_, store_packed3_eq h gnuc hw hN hp ha x, interleaved_put hw.isW m p x⟩

/-- **C27.** `store_packed4`. -/
theorem C27_store_packed4 (hw : k.okW w) (hN : c.KLen k w N) (m : Mem) {p : Nat} (hp : p % (c.regK k w N).bytes = 0)
    (ha : m.Block p (4 * N * (w / 8))) (x : Fin 4 → Vec w N) :
    ∃ m', store_packed4 c k m p x = some m' ∧ Interleaved m m' p x :=
  ⟨_, store_packed4_eq h hw hN hp ha x, interleaved_put hw.isW m p x⟩

/-- **C27.** The loads read back what the stores wrote. -/
theorem C27_round_trip2 (hw : k.okW w) (hN : c.KLen k w N) (m : Mem) {p : Nat} (hp : p % (c.regK k w N).bytes = 0)
    (h32 : c.sse2 = true ∨ c.altivec = true ∨ c.msa = true ∨ c.neon32 = true ∧ w = 64 → p % 32 = 0) (ha : m.Block p (2 * N * (w / 8))) (x : Fin 2 → Vec w N) :
    ∃ m', store_packed2 c k m p x = some m' ∧ load_packed2 c k w N m' p = some x := by
  refine ⟨_, store_packed2_eq h hw hN hp h32 ha x, ?_⟩
  rw [load_packed2_eq (m := m.put p (ilv x) (fun _ => true)) h hw hN hp ha, get_put hw.isW, dlv_ilv]

theorem C27_round_trip3 (gnuc : Bool) (hw : k.okW w) (hN : c.KLen k w N) (m : Mem) {p : Nat} (hp : p % (c.regK k w N).bytes = 0)
    (ha : m.Block p (3 * N * (w / 8))) (x : Fin 3 → Vec w N) :
    ∃ m', store_packed3 c gnuc k m p x = some m' ∧ load_packed3 c k w N m' p = some x := by
  refine ⟨_, store_packed3_eq h gnuc hw hN hp ha x, ?_⟩
  rw [load_packed3_eq (m := m.put p (ilv x) (fun _ => true)) h hw hN hp ha, get_put hw.isW, dlv_ilv]

theorem C27_round_trip4 (hw : k.okW w) (hN : c.KLen k w N) (m : Mem) {p : Nat} (hp : p % (c.regK k w N).bytes = 0)
    (ha : m.Block p (4 * N * (w / 8))) (x : Fin 4 → Vec w N) :
    ∃ m', store_packed4 c k m p x = some m' ∧ load_packed4 c k w N m' p = some x := by
  refine ⟨_, store_packed4_eq h hw hN hp ha x, ?_⟩
  rw [load_packed4_eq (m := m.put p (ilv x) (fun _ => true)) h hw hN hp ha, get_put hw.isW, dlv_ilv]

/-- **C27.** All configurations agree: two builds that load the same array get the same vectors. -/
theorem C27_load_packed3_same {c' : Cfg} (h' : c'.Ok) (hw : k.okW w) (hN : c.KLen k w N) (hN' : c'.KLen k w N) (m : Mem) {p : Nat}
    (hp : p % (c.regK k w N).bytes = 0) (hp' : p % (c'.regK k w N).bytes = 0) (ha : m.Block p (3 * N * (w / 8))) :
    load_packed3 c k w N m p = load_packed3 c' k w N m p :=
  (load_packed3_eq h hw hN hp ha).trans (load_packed3_eq h' hw hN' hp' ha).symm

end

/-- **C27.** `store_packed2` at an address aligned to the 16-byte register but not to 32 bytes: the compiler is told the address is a multiple
of 32, which is undefined behaviour, on every SSE build with 16-byte registers, whatever is stored. -/
theorem C27_store_packed2_misaligned (m : Mem) {p : Nat} (hp : p % 32 = 16) (x : Fin 2 → Vec 32 4) :
    p % (Cfg.sse2Only.regK .int 32 4).bytes = 0 ∧ store_packed2 Cfg.sse2Only .int m p x = none := by
  refine ⟨show p % 16 = 0 by omega, ?_⟩
  have e : ∀ y : Fin 2 → Vec 32 4, i_store_packed2 Cfg.sse2Only .int .r128 m (p + 0 * (16 * 2)) y = none := fun y => by
    show Mem.al 16 (p + 0 * (16 * 2)) (Mem.al 32 (p + 0 * (16 * 2)) _) = none
    unfold Mem.al
    rw [if_neg (show ¬ (p + 0 * (16 * 2)) % 32 = 0 by omega)]
    exact ite_self _
  exact e _

/-! ### Instances -/

/-- Interleaved byte triples, SSE2. -/
example (x : Fin 3 → Vec 8 16) : ∃ m', store_packed3 Cfg.sse2Only true .int Mem.demo 48 x = some m' ∧ Interleaved Mem.demo m' 48 x :=
  C27_store_packed3 Cfg.sse2Only_ok true (k := .int) isW8 (.inl ⟨.r128, rfl, rfl⟩) Mem.demo (by decide) (demo_block (by decide) (by decide)) x

example : ∃ x : Fin 4 → Vec 32 4, load_packed4 Cfg.neonA64 .flt 32 4 Mem.demo 32 = some x ∧
    ∀ (q : Fin 4) (j : Fin 4), Holds Mem.demo.byte (32 + (4 * j.val + q.val) * 4) (x q j) :=
  C27_load_packed4 Cfg.neonA64_ok (k := .flt) (Or.inl rfl) (.inl ⟨.r128, rfl, rfl⟩) Mem.demo (by decide) (demo_block (by decide) (by decide))

/-- AltiVec, two registers per vector. -/
example : ∃ x : Fin 2 → Vec 16 16, load_packed2 Cfg.altivecOnly .int 16 16 Mem.demo 32 = some x ∧
    ∀ (q : Fin 2) (j : Fin 16), Holds Mem.demo.byte (32 + (2 * j.val + q.val) * 2) (x q j) :=
  C27_load_packed2 Cfg.altivecOnly_ok (k := .int) iw16 (.inr ⟨2, by decide, rfl⟩) Mem.demo (by decide) (demo_block (by decide) (by decide))

end Simdpp
