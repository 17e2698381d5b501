import Verif.Props.MemPart
import Verif.Props.FConv
import Verif.Props.Samples

/-!
# C26, C28: loads and stores

Bytes are numbered by address; `m.ok x` says that the byte at `x` may be accessed, an access to any other byte gives
`none`, and so does an instruction that needs alignment when the address has none.
-/

namespace Simdpp
open Spec Sh Mem

variable {w n N : Nat}

/-- `N` is a length of the vector types with `w`-bit lanes of the given kind. -/
def Cfg.KLen (c : Cfg) (k : Kind) (w N : Nat) : Prop := match k with | .int => c.VLen w N | .flt => c.FLen w N

/-- The `len` bytes at `p` may be accessed. -/
def Mem.Block (m : Mem) (p len : Nat) : Prop := ∀ x, p ≤ x → x < p + len → m.ok x = true

theorem Mem.Block.acc {m : Mem} {p k q l : Nat} (h : m.Block p k) (h1 : p ≤ q) (h2 : q + l ≤ p + k) : m.Acc q l :=
  fun i hi => h _ (by omega) (by omega)

section
variable {c : Cfg} (h : c.Ok)
include h

theorem KLen.regs {k : Kind} (hw : k.okW w) (hN : c.KLen k w N) :
    c.hasVec k w (c.regK k w N) = true ∧ ∃ K, 0 < K ∧ N = K * (c.regK k w N).lanes w := by
  cases k
  · unfold Cfg.regK; dsimp only
    rcases hN with ⟨r, hr, e⟩ | ⟨K, hK, e⟩
    · rw [e, regOf_single hw hr]; exact ⟨hr, 1, by decide, (Nat.one_mul _).symm⟩
    · rw [e, regOf_multi h hw hw (le_refl w) hK]; exact ⟨fast_has c w, K, by omega, rfl⟩
  · unfold Cfg.regK; dsimp only
    by_cases h4 : N = Reg.r128.lanes w
    · subst h4; rw [regF_128 c hw]; exact ⟨rfl, 1, by decide, (Nat.one_mul _).symm⟩
    by_cases h8 : c.avx = true ∧ N = Reg.r256.lanes w
    · obtain ⟨g, e⟩ := h8; subst e; rw [regF_256 c hw g]; exact ⟨g, 1, by decide, (Nat.one_mul _).symm⟩
    by_cases h16 : c.avx512f = true ∧ N = Reg.r512.lanes w
    · obtain ⟨g, e⟩ := h16; subst e; rw [regF_512 c hw g]; exact ⟨g, 1, by decide, (Nat.one_mul _).symm⟩
    obtain ⟨e, K, e2⟩ := FLen.multi hN h4 h8 h16
    rw [e]
    refine ⟨fastF_has c w, K, ?_, e2⟩
    rcases Nat.eq_zero_or_pos K with g | g
    · exfalso
      rw [g, Nat.zero_mul] at e2
      rcases hN with ⟨r, hr, e3⟩ | ⟨K', hK, e3⟩
      · have := lanes_pos hw.isW r; omega
      · have := lanes_pos hw.isW c.fastF
        have := Nat.mul_pos (show 0 < K' by omega) this
        omega
    · exact g

omit h in
/-- Register `j` of the vector. -/
theorem reg_sub (hw : IsW w) {r : Reg} {K : Nat} (hN : N = K * r.lanes w) {j : Nat} (hj : j < K) : j * r.bytes + r.bytes ≤ N * (w / 8) := by
  rw [hN, Nat.mul_assoc, bytes_eq hw r]
  calc j * r.bytes + r.bytes = (j + 1) * r.bytes := by rw [Nat.add_mul, Nat.one_mul]
    _ ≤ K * r.bytes := Nat.mul_le_mul_right _ hj

omit h in
theorem get_part (hw : IsW w) {r : Reg} {K : Nat} (hN : N = K * r.lanes w) {j : Nat} (hj : j < K) (m : Mem) (p : Nat) :
    get w (r.lanes w) m (p + j * r.bytes) = Hw.part (r.lanes w) j (get w N m p) := by
  funext i
  have hi : j * r.lanes w + i.val < N := by
    rw [hN]
    calc j * r.lanes w + i.val < (j + 1) * r.lanes w := by rw [Nat.add_mul, Nat.one_mul]; have := i.isLt; omega
      _ ≤ K * r.lanes w := Nat.mul_le_mul_right _ hj
  unfold Hw.part
  rw [Vec.at_lt _ hi]
  refine holds_inj hw (get_holds hw m _ i) ?_
  have := get_holds hw m p (⟨j * r.lanes w + i.val, hi⟩ : Fin N)
  rw [show p + j * r.bytes + i.val * (w / 8) = p + (j * r.lanes w + i.val) * (w / 8) by
    rw [Nat.add_mul, Nat.mul_assoc, bytes_eq hw r]; omega]
  exact this

omit h in
theorem mod_reg {p B j : Nat} (hp : p % B = 0) : (p + j * B) % B = 0 := by rw [Nat.add_mul_mod_self_right]; exact hp

theorem load_eq {k : Kind} (hw : k.okW w) (hN : c.KLen k w N) {m : Mem} {p : Nat} (hp : p % (c.regK k w N).bytes = 0)
    (ha : m.Block p (N * (w / 8))) : load c k w N m p = some (get w N m p) := by
  obtain ⟨hr, K, -, e⟩ := KLen.regs h hw hN
  unfold load
  generalize c.regK k w N = r at *
  refine catM_regs (lanes_pos hw.isW r) e fun j hj => ?_
  have := reg_sub hw.isW e hj
  rw [i_load_eq h hw hr rfl (mod_reg hp) (ha.acc (by omega) (by omega)), get_part hw.isW e hj]

theorem altivec_r128 {k : Kind} (hw : k.okW w) {r : Reg} (hr : c.hasVec k w r = true) (g : c.altivec = true) : r = .r128 := by
  cases r
  · rfl
  · exfalso
    cases k
    · have hr : c.avx2 = true := hr
      cfg_absurd h
    · have hr : c.avx = true := hr
      cfg_absurd h
  · exfalso
    have hr : c.avx512f = true := by
      cases k
      · rcases hw with e | e | e | e <;> subst e
        · exact h.avx512bw hr
        · exact h.avx512bw hr
        · exact hr
        · exact hr
      · exact hr
    cfg_absurd h

theorem load_u_eq {k : Kind} (hw : k.okW w) (hN : c.KLen k w N) {m : Mem} {p : Nat} (hp : p % (w / 8) = 0)
    (ha : m.Block p (N * (w / 8))) (hv : c.altivec = true → c.vsx206 = false → m.Block (p / 16 * 16) (N * (w / 8) + 16)) :
    load_u c k w N m p = some (get w N m p) := by
  obtain ⟨hr, K, -, e⟩ := KLen.regs h hw hN
  have hB := isW_bpos hw.isW
  unfold load_u
  generalize c.regK k w N = r at *
  refine catM_regs (lanes_pos hw.isW r) e fun j hj => ?_
  have := reg_sub hw.isW e hj
  rw [i_load_u_eq h hw hr rfl ?_ ⟨ha.acc (by omega) (by omega), fun g => ?_⟩, get_part hw.isW e hj]
  · rw [Nat.add_mod, hp, Nat.zero_add, Nat.mod_mod, ← bytes_eq hw.isW r, ← Nat.mul_assoc, Nat.mul_mod_left]
  · have hr1 := altivec_r128 h hw hr g.1
    subst hr1
    have e16 : Reg.r128.bytes = 16 := rfl
    rw [e16] at this ⊢
    exact (hv g.1 g.2).acc (by omega) (by omega)

theorem storeAll_eq {k : Kind} (hw : k.okW w) (hN : c.KLen k w N) {m : Mem} {p : Nat}
    {f : Mem → Nat → Vec w ((c.regK k w N).lanes w) → Option Mem} (a : Vec w N)
    (hf : ∀ j, (j + 1) * (c.regK k w N).bytes ≤ N * (w / 8) → ∀ m' : Mem, m'.ok = m.ok → ∀ x,
      f m' (p + j * (c.regK k w N).bytes) x = some (m'.put (p + j * (c.regK k w N).bytes) x (fun _ => true))) :
    storeAll ((c.regK k w N).lanes w) (c.regK k w N).bytes f m p a = some (m.put p a (fun _ => true)) := by
  obtain ⟨hr, K, -, e⟩ := KLen.regs h hw hN
  unfold storeAll
  generalize c.regK k w N = r at *
  have hL := lanes_pos hw.isW r
  have hK : N / r.lanes w = K := by rw [e]; exact Nat.mul_div_cancel _ hL
  rw [hK, loop_put (sel := fun _ => true) hw.isW hL (bytes_eq hw.isW r).symm (p := p) (a := a) (by rw [Nat.zero_add, e])
    (fun j _ h2 m' e' => hf j (by have := reg_sub hw.isW e (show j < K by omega); rw [Nat.add_mul, Nat.one_mul]; exact this) m' e' _)]
  refine congrArg some (put_congr hw.isW (fun i => ?_) fun _ _ => rfl)
  have := i.isLt
  rw [decide_eq_true (by rw [Nat.zero_mul, Nat.zero_add]; exact ⟨Nat.zero_le _, by omega⟩)]
  rfl

theorem store_eq {k : Kind} (hw : k.okW w) (hN : c.KLen k w N) {m : Mem} {p : Nat} (hp : p % (c.regK k w N).bytes = 0)
    (ha : m.Block p (N * (w / 8))) (a : Vec w N) : store c k m p a = some (m.put p a (fun _ => true)) := by
  obtain ⟨hr, K, -, e⟩ := KLen.regs h hw hN
  refine storeAll_eq h hw hN a fun j hj m' e' x => ?_
  rw [Nat.add_mul, Nat.one_mul] at hj
  exact i_store_eq h hw hr rfl (mod_reg hp) (Mem.Acc.of_ok (ha.acc (by omega) (by omega)) e') x

theorem stream_eq {k : Kind} (hw : k.okW w) (hN : c.KLen k w N) {m : Mem} {p : Nat} (hp : p % (c.regK k w N).bytes = 0)
    (ha : m.Block p (N * (w / 8))) (a : Vec w N) : stream c k m p a = some (m.put p a (fun _ => true)) := by
  obtain ⟨hr, K, -, e⟩ := KLen.regs h hw hN
  refine storeAll_eq h hw hN a fun j hj m' e' x => ?_
  rw [Nat.add_mul, Nat.one_mul] at hj
  exact i_stream_eq h hw hr rfl (mod_reg hp) (Mem.Acc.of_ok (ha.acc (by omega) (by omega)) e') x

theorem store_u_eq {k : Kind} (hw : k.okW w) (hN : c.KLen k w N) {m : Mem} {p : Nat} (hp : k = .flt → p % (w / 8) = 0)
    (ha : m.Block p (N * (w / 8)))
    (hv : c.altivec = true → c.vsx206 = false → m.Block (p / 16 * 16) ((p + 15) / 16 * 16 - p / 16 * 16 + N * (w / 8))) (a : Vec w N) :
    store_u c k m p a = some (m.put p a (fun _ => true)) := by
  obtain ⟨hr, K, -, e⟩ := KLen.regs h hw hN
  refine storeAll_eq h hw hN a fun j hj m' e' x => ?_
  rw [Nat.add_mul, Nat.one_mul] at hj
  refine i_store_u_eq h hw hr rfl (fun g => ?_) ⟨Mem.Acc.of_ok (ha.acc (by omega) (by omega)) e', fun g => ?_⟩ x
  · rw [Nat.add_mod, hp g, Nat.zero_add, Nat.mod_mod, ← bytes_eq hw.isW, ← Nat.mul_assoc, Nat.mul_mod_left]
  · have hr1 := altivec_r128 h hw hr g.1
    rw [hr1] at hj ⊢
    have e16 : Reg.r128.bytes = 16 := rfl
    rw [e16] at hj ⊢
    exact ⟨Mem.Acc.of_ok ((hv g.1 g.2).acc (by omega) (by omega)) e', Mem.Acc.of_ok ((hv g.1 g.2).acc (by omega) (by omega)) e'⟩

/-! ### Partial stores -/

theorem store_first_arr_eq (be : Bool) {k : Kind} (hw : k.okW w) {r : Reg} (hr : c.hasVec k w r = true) {K : Nat} (hN : N = K * r.lanes w) {m : Mem} {p : Nat}
    (hp : p % r.bytes = 0) (ha : m.Block p (N * (w / 8))) (a : Vec w N) (hn : n < N) :
    store_first_arr c be k r m p a n = some (m.put p a (fun i => decide (i < n))) := by
  have hW := hw.isW
  have hL := lanes_pos hW r
  have hB := bytes_eq hW r
  have hv : n / r.lanes w < K := Nat.div_lt_of_lt_mul (by rw [Nat.mul_comm, ← hN]; exact hn)
  have hdm := Nat.div_add_mod n (r.lanes w)
  rw [Nat.mul_comm] at hdm
  have hml := Nat.mod_lt n hL
  have hKn : (n / r.lanes w + 1) * r.lanes w ≤ N := by rw [hN]; exact Nat.mul_le_mul_right _ hv
  have e1 := loop_put (sel := fun _ => true) (m := m) hW hL hB.symm (p := p) (a := a) (lo := 0) (cnt := n / r.lanes w) (f := fun i m => i_store c k r m (p + i * r.bytes) (Hw.part (r.lanes w) i a))
    (by rw [Nat.zero_add]; exact (Nat.mul_le_mul_right _ hv.le).trans (le_of_eq hN.symm))
    (fun j _ h2 m' e' => by
      have := reg_sub hW hN (show j < K by omega)
      exact i_store_eq h hw hr rfl (mod_reg hp) (Mem.Acc.of_ok (ha.acc (by omega) (by omega)) e') _)
  simp only [Nat.zero_mul, Nat.zero_add, Nat.zero_le, true_and, Bool.and_true] at e1
  unfold store_first_arr
  refine (bind_of e1 _).trans ?_
  have hs := reg_sub hW hN hv
  split_ifs with g
  · rw [i_store_first_eq h be hw hr rfl (mod_reg hp) (Acc.put (ha.acc (by omega) (by omega))) _ hml, ← hB]
    refine congrArg some (put_part hW hL hKn (fun i hi g => ?_) (fun i hi g1 g2 => decide_eq_false (by omega)) (fun i hi => ?_))
    · rw [Nat.add_mul, Nat.one_mul] at g; rw [decide_eq_decide]; omega
    · rw [decide_eq_decide]; omega
  · refine congrArg some (put_congr hW (fun i => ?_) fun _ _ => rfl)
    rw [decide_eq_decide]; omega

theorem store_last_arr_eq (be : Bool) {k : Kind} (hw : k.okW w) {r : Reg} (hr : c.hasVec k w r = true) {K : Nat} (hN : N = K * r.lanes w) {m : Mem} {p : Nat}
    (hp : p % r.bytes = 0) (ha : m.Block p (N * (w / 8))) (a : Vec w N) (hn : n < N) :
    store_last_arr c be k r m p a n = some (m.put p a (fun i => decide (N - n ≤ i))) := by
  have hW := hw.isW
  have hL := lanes_pos hW r
  have hB := bytes_eq hW r
  have hdm := Nat.div_add_mod (N - n) (r.lanes w)
  rw [Nat.mul_comm] at hdm
  have hml := Nat.mod_lt n hL
  have hml' := Nat.mod_lt (N - n) hL
  have hNK : N / r.lanes w = K := by rw [hN]; exact Nat.mul_div_cancel _ hL
  have e1 : ∀ v, v ≤ K → ∀ m1 : Mem, m1.ok = m.ok →
      loopM (fun i m => i_store c k r m (p + i * r.bytes) (Hw.part (r.lanes w) i a)) v (K - v) m1 =
        some (m1.put p a (fun i => decide (v * r.lanes w ≤ i ∧ i < N))) := fun v hv m1 e1 => by
    rw [loop_put (sel := fun _ => true) (m := m1) hW hL hB.symm (p := p) (a := a) (lo := v) (cnt := K - v) (by rw [hN]; exact Nat.mul_le_mul_right _ (by omega))
      (fun j _ h2 m' e' => by
        have := reg_sub hW hN (show j < K by omega)
        exact i_store_eq h hw hr rfl (mod_reg hp) (Mem.Acc.of_ok (ha.acc (by omega) (by omega)) (e'.trans e1)) _)]
    refine congrArg some (put_congr hW (fun i => ?_) fun _ _ => rfl)
    rw [Bool.and_true, show v + (K - v) = K by omega, ← hN]
  unfold store_last_arr
  rw [if_neg (by omega)]
  dsimp only
  rw [hNK]
  have hsum : (N - n + n) % r.lanes w = 0 := by rw [Nat.sub_add_cancel hn.le, hN, Nat.mul_mod_left]
  by_cases g : 0 < n % r.lanes w
  · rw [if_pos g]
    have hmm : (N - n) % r.lanes w + n % r.lanes w = r.lanes w := by
      rw [Nat.add_mod] at hsum
      have h1 := Nat.dvd_of_mod_eq_zero hsum
      obtain ⟨q, hq⟩ := h1
      rcases q with _ | _ | q
      · omega
      · omega
      · exfalso
        have : r.lanes w * (q + 1 + 1) = r.lanes w * q + r.lanes w + r.lanes w := by ring
        omega
    have hnle := Nat.mod_le n (r.lanes w)
    have hv : (N - n) / r.lanes w < K := Nat.div_lt_of_lt_mul (by rw [Nat.mul_comm, ← hN]; omega)
    have hKn : ((N - n) / r.lanes w + 1) * r.lanes w ≤ N := (Nat.mul_le_mul_right _ hv).trans (le_of_eq hN.symm)
    have hs := reg_sub hW hN hv
    have e2 := i_store_last_eq h be hw hr rfl (m := m) (p := p + (N - n) / r.lanes w * r.bytes) (mod_reg hp) (ha.acc (by omega) (by omega))
      (Hw.part (r.lanes w) ((N - n) / r.lanes w) a) hml
    have e3 := put_part (m := m) (p := p) (a := a) (s0 := fun _ => false) (sel := fun i => decide (r.lanes w - n % r.lanes w ≤ i))
      (s1 := fun i => decide (N - n ≤ i ∧ i < ((N - n) / r.lanes w + 1) * r.lanes w)) hW hL hKn
      (fun i _ g => decide_eq_false (by omega)) (fun _ _ _ _ => rfl)
      (fun i hi => by rw [decide_eq_decide, Nat.add_mul, Nat.one_mul]; omega)
    rw [put_false (sel := fun _ => false) hW (fun _ => rfl), hB] at e3
    rw [e3] at e2
    have e4 := e1 _ hv (m.put p a fun i => decide (N - n ≤ i ∧ i < ((N - n) / r.lanes w + 1) * r.lanes w)) rfl
    rw [put_put hW] at e4
    refine (bind_of e2 _).trans (e4.trans (congrArg some (put_congr hW (fun i => ?_) fun _ _ => rfl)))
    have := i.isLt
    rw [← Bool.decide_or, decide_eq_decide, Nat.succ_mul]
    rw [Nat.add_mul, Nat.one_mul] at hKn
    omega
  · rw [if_neg g]
    have hm0 : (N - n) % r.lanes w = 0 := by
      rw [Nat.add_mod, show n % r.lanes w = 0 by omega, Nat.add_zero, Nat.mod_mod] at hsum
      exact hsum
    have hv : (N - n) / r.lanes w ≤ K := by
      have := Nat.div_le_div_right (c := r.lanes w) (Nat.sub_le N n); omega
    refine (e1 _ hv _ rfl).trans (congrArg some (put_congr hW (fun i => ?_) fun _ _ => rfl))
    have := i.isLt
    rw [decide_eq_decide]; omega

theorem store_first_eq (be : Bool) {k : Kind} (sg : Bool) (hw : k.okW w) (hN : c.KLen k w N) {m : Mem} {p : Nat} (hp : p % (c.regK k w N).bytes = 0)
    (ha : m.Block p (N * (w / 8))) (a : Vec w N) (hn : n < N) :
    store_first c be k sg m p a n = some (m.put p a (fun i => decide (i < n))) := by
  obtain ⟨hr, K, -, e⟩ := KLen.regs h hw hN
  unfold store_first
  dsimp only
  generalize c.regK k w N = r at *
  split_ifs with g
  · exact i_store_first_eq h be hw hr g.1 hp (ha.acc (le_refl p) (by rw [g.1, bytes_eq hw.isW r])) a hn
  · exact store_first_arr_eq h be hw hr e hp ha a hn

theorem store_last_eq (be : Bool) {k : Kind} (sg : Bool) (hw : k.okW w) (hN : c.KLen k w N) {m : Mem} {p : Nat} (hp : p % (c.regK k w N).bytes = 0)
    (ha : m.Block p (N * (w / 8))) (a : Vec w N) (hn : n < N) :
    store_last c be k sg m p a n = some (m.put p a (fun i => decide (N - n ≤ i))) := by
  obtain ⟨hr, K, -, e⟩ := KLen.regs h hw hN
  unfold store_last
  dsimp only
  generalize c.regK k w N = r at *
  split_ifs with g
  · exact i_store_last_eq h be hw hr g.1 hp (ha.acc (le_refl p) (by rw [g.1, bytes_eq hw.isW r])) a hn
  · exact store_last_arr_eq h be hw hr e hp ha a hn

theorem store_masked_eq {k : Kind} (hw : k.okW w) (hw' : w = 32 ∨ w = 64) (hN : c.KLen k w N) {m : Mem} {p : Nat} (hp : p % (c.regK k w N).bytes = 0)
    (ha : m.Block p (N * (w / 8))) (a : Vec w N) (sel : Nat → Bool) :
    store_masked c k m p a (fun j => Mask.of c k (c.regK k w N) (fun i => sel (j * (c.regK k w N).lanes w + i.val))) = some (m.put p a sel) := by
  obtain ⟨hr, K, -, e⟩ := KLen.regs h hw hN
  unfold store_masked
  generalize c.regK k w N = r at *
  have hW := hw.isW
  have hL := lanes_pos hw.isW r
  have hK : N / r.lanes w = K := by rw [e]; exact Nat.mul_div_cancel _ hL
  rw [hK, loop_put (sel := sel) hW hL (bytes_eq hW r).symm (p := p) (a := a) (by rw [Nat.zero_add, e])
    (fun j _ h2 m' e' => by
      have := reg_sub hW e (show j < K by omega)
      exact i_store_masked_eq h hw hw' hr rfl (mod_reg hp) (Mem.Acc.of_ok (ha.acc (by omega) (by omega)) e') _ _ (fun _ => rfl))]
  refine congrArg some (put_congr hw.isW (fun i => ?_) fun _ _ => rfl)
  have := i.isLt
  rw [decide_eq_true (by rw [Nat.zero_mul, Nat.zero_add]; exact ⟨Nat.zero_le _, by omega⟩)]
  rfl

end

/-! ## C26 -/

/-- What a store of the selected lanes does: the selected elements hold the lanes, every other byte and the set of accessible
bytes are as before. -/
def Stored (m m' : Mem) (p : Nat) (a : Vec w N) (sel : Fin N → Prop) : Prop :=
  m'.ok = m.ok ∧ (∀ i : Fin N, sel i → Holds m'.byte (p + i.val * (w / 8)) (a i)) ∧
    ∀ x, (∀ i : Fin N, sel i → ¬ InElem w p i.val x) → m'.byte x = m.byte x

theorem stored_put (hw : IsW w) (m : Mem) (p : Nat) (a : Vec w N) (sel : Nat → Bool) {S : Fin N → Prop} (hS : ∀ i, S i ↔ sel i.val = true) :
    Stored m (m.put p a sel) p a S := by
  have hB := isW_bpos hw
  refine ⟨rfl, fun i hi j hj => ?_, fun x hx => ?_⟩
  · have h1 : (p + i.val * (w / 8) + j - p) / (w / 8) = i.val := by
      rw [show p + i.val * (w / 8) + j - p = j + i.val * (w / 8) by omega, Nat.add_mul_div_right _ _ hB, Nat.div_eq_of_lt hj, Nat.zero_add]
    have h2 : (p + i.val * (w / 8) + j - p) % (w / 8) = j := by
      rw [show p + i.val * (w / 8) + j - p = j + i.val * (w / 8) by omega, Nat.add_mul_mod_self_right, Nat.mod_eq_of_lt hj]
    have h3 : i.val * (w / 8) + j < N * (w / 8) := by
      calc i.val * (w / 8) + j < (i.val + 1) * (w / 8) := by rw [Nat.add_mul, Nat.one_mul]; omega
        _ ≤ N * (w / 8) := Nat.mul_le_mul_right _ i.isLt
    rw [put_byte, h1, h2, if_pos ⟨by omega, by omega, (hS i).1 hi⟩, Vec.at_fin]
  · rw [put_byte, if_neg]
    rintro ⟨g1, g2, g3⟩
    have hd : (x - p) / (w / 8) < N := Nat.div_lt_of_lt_mul (by rw [Nat.mul_comm]; omega)
    refine hx ⟨_, hd⟩ ((hS ⟨_, hd⟩).2 g3) ?_
    have e := Nat.div_add_mod (x - p) (w / 8)
    have e2 := Nat.mod_lt (x - p) hB
    rw [Nat.mul_comm] at e
    unfold InElem
    dsimp only
    rw [Nat.add_mul, Nat.one_mul]
    omega

section
variable {c : Cfg} (h : c.Ok)
include h

/-- **C26.** `load` reads the lanes at `p` in order and touches nothing but the vector's bytes, for every kind of lane, every vector length,
every memory content and every address aligned to the native register. -/
theorem C26_load {k : Kind} (hw : k.okW w) (hN : c.KLen k w N) (m : Mem) {p : Nat} (hp : p % (c.regK k w N).bytes = 0)
    (ha : m.Block p (N * (w / 8))) :
    ∃ v : Vec w N, load c k w N m p = some v ∧ ∀ i : Fin N, Holds m.byte (p + i.val * (w / 8)) (v i) :=
  ⟨_, load_eq h hw hN hp ha, fun i => get_holds hw.isW m p i⟩

/-- **C26.** `load_u`: `p` need only be aligned to the element; AltiVec also reads the 16-byte blocks around the vector, and the one after it. -/
theorem C26_load_u {k : Kind} (hw : k.okW w) (hN : c.KLen k w N) (m : Mem) {p : Nat} (hp : p % (w / 8) = 0)
    (ha : m.Block p (N * (w / 8))) (hv : c.altivec = true → c.vsx206 = false → m.Block (p / 16 * 16) (N * (w / 8) + 16)) :
    ∃ v : Vec w N, load_u c k w N m p = some v ∧ ∀ i : Fin N, Holds m.byte (p + i.val * (w / 8)) (v i) :=
  ⟨_, load_u_eq h hw hN hp ha hv, fun i => get_holds hw.isW m p i⟩

/-- **C26.** `store` writes every lane at `p` in order and changes no other byte. -/
theorem C26_store {k : Kind} (hw : k.okW w) (hN : c.KLen k w N) (m : Mem) {p : Nat} (hp : p % (c.regK k w N).bytes = 0)
    (ha : m.Block p (N * (w / 8))) (a : Vec w N) :
    ∃ m', store c k m p a = some m' ∧ Stored m m' p a (fun _ => True) :=
  ⟨_, store_eq h hw hN hp ha a, stored_put hw.isW m p a _ (fun _ => by simp)⟩

/-- **C26.** `stream` (non-temporal store), observed by the storing thread. -/
theorem C26_stream {k : Kind} (hw : k.okW w) (hN : c.KLen k w N) (m : Mem) {p : Nat} (hp : p % (c.regK k w N).bytes = 0)
    (ha : m.Block p (N * (w / 8))) (a : Vec w N) :
    ∃ m', stream c k m p a = some m' ∧ Stored m m' p a (fun _ => True) :=
  ⟨_, stream_eq h hw hN hp ha a, stored_put hw.isW m p a _ (fun _ => by simp)⟩

/-- **C26.** `store_u`: any address for integers; element-aligned for floating point (the portable code stores through a pointer to the
element type). AltiVec rewrites the 16-byte blocks which the vector overlaps. -/
theorem C26_store_u {k : Kind} (hw : k.okW w) (hN : c.KLen k w N) (m : Mem) {p : Nat} (hp : k = .flt → p % (w / 8) = 0)
    (ha : m.Block p (N * (w / 8)))
    (hv : c.altivec = true → c.vsx206 = false → m.Block (p / 16 * 16) ((p + 15) / 16 * 16 - p / 16 * 16 + N * (w / 8))) (a : Vec w N) :
    ∃ m', store_u c k m p a = some m' ∧ Stored m m' p a (fun _ => True) :=
  ⟨_, store_u_eq h hw hN hp ha hv a, stored_put hw.isW m p a _ (fun _ => by simp)⟩

omit h in
theorem get_put (hw : IsW w) (m : Mem) (p : Nat) (a : Vec w N) : get w N (m.put p a (fun _ => true)) p = a :=
  funext fun i => holds_inj hw (get_holds hw _ p i) ((stored_put hw m p a (fun _ => true) (S := fun _ => True) (fun _ => by simp)).2.1 i trivial)

/-- **C26.** A stored vector is read back unchanged, and again after any later change to bytes outside it. -/
theorem C26_round_trip {k : Kind} (hw : k.okW w) (hN : c.KLen k w N) (m : Mem) {p : Nat} (hp : p % (c.regK k w N).bytes = 0)
    (ha : m.Block p (N * (w / 8))) (a : Vec w N) :
    ∃ m', store c k m p a = some m' ∧ ∀ m'' : Mem, m''.ok = m'.ok → (∀ x, p ≤ x → x < p + N * (w / 8) → m''.byte x = m'.byte x) →
      load c k w N m'' p = some a := by
  refine ⟨_, store_eq h hw hN hp ha a, fun m'' e1 e2 => ?_⟩
  rw [load_eq h hw hN hp (fun x h1 h2 => by rw [e1]; exact ha x h1 h2)]
  refine congrArg some (Eq.trans ?_ (get_put hw.isW m p a))
  unfold Mem.get
  congr 1
  funext i
  exact e2 _ (by omega) (by have := i.isLt; omega)

/-- **C26.** The same with `store_u` and `load_u`. -/
theorem C26_round_trip_u {k : Kind} (hw : k.okW w) (hN : c.KLen k w N) (m : Mem) {p : Nat} (hp : p % (w / 8) = 0)
    (ha : m.Block p (N * (w / 8))) (hv : c.altivec = true → c.vsx206 = false → m.Block (p / 16 * 16) (N * (w / 8) + 16)) (a : Vec w N) :
    ∃ m', store_u c k m p a = some m' ∧ load_u c k w N m' p = some a := by
  refine ⟨_, store_u_eq h hw hN (fun _ => hp) ha (fun g1 g2 x h1 h2 => hv g1 g2 x h1 (by omega)) a, ?_⟩
  rw [load_u_eq (m := m.put p a (fun _ => true)) h hw hN hp ha hv]
  exact congrArg some (get_put hw.isW m p a)

/-- **C26.** A load depends on the vector's bytes only. -/
theorem C26_load_depends {k : Kind} (hw : k.okW w) (hN : c.KLen k w N) (m m' : Mem) {p : Nat} (hp : p % (c.regK k w N).bytes = 0)
    (ha : m.Block p (N * (w / 8))) (ha' : m'.Block p (N * (w / 8))) (e : ∀ x, p ≤ x → x < p + N * (w / 8) → m'.byte x = m.byte x) :
    load c k w N m' p = load c k w N m p := by
  rw [load_eq h hw hN hp ha, load_eq h hw hN hp ha']
  unfold Mem.get
  congr 2
  funext i
  exact e _ (by omega) (by have := i.isLt; omega)

/-! ## C28 -/

/-- **C28.** `store_first(p, a, n)` with `n` in the documented range writes the first `n` lanes and changes nothing else.
`be`: big-endian AltiVec; `sg`: signed lanes. -/
theorem C28_store_first (be : Bool) {k : Kind} (sg : Bool) (hw : k.okW w) (hN : c.KLen k w N) (m : Mem) {p : Nat} (hp : p % (c.regK k w N).bytes = 0)
    (ha : m.Block p (N * (w / 8))) (a : Vec w N) (hn : n < N) :
    ∃ m', store_first c be k sg m p a n = some m' ∧ Stored m m' p a (fun i => i.val < n) :=
  ⟨_, store_first_eq h be sg hw hN hp ha a hn, stored_put hw.isW m p a _ (fun _ => by simp)⟩

/-- **C28.** `store_last(p, a, n)` writes the last `n` lanes, at their places in the vector, and changes nothing else. -/
theorem C28_store_last (be : Bool) {k : Kind} (sg : Bool) (hw : k.okW w) (hN : c.KLen k w N) (m : Mem) {p : Nat} (hp : p % (c.regK k w N).bytes = 0)
    (ha : m.Block p (N * (w / 8))) (a : Vec w N) (hn : n < N) :
    ∃ m', store_last c be k sg m p a n = some m' ∧ Stored m m' p a (fun i => N - n ≤ i.val) :=
  ⟨_, store_last_eq h be sg hw hN hp ha a hn, stored_put hw.isW m p a _ (fun _ => by simp)⟩

/-- **C28.** `store_masked` (32- and 64-bit lanes) writes the lanes selected by the mask and changes nothing else; the mask holds one
truth value per lane in the representation of the build, as `cmp_*` makes it. -/
theorem C28_store_masked {k : Kind} (hw : k.okW w) (hw' : w = 32 ∨ w = 64) (hN : c.KLen k w N) (m : Mem) {p : Nat} (hp : p % (c.regK k w N).bytes = 0)
    (ha : m.Block p (N * (w / 8))) (a : Vec w N) (sel : Nat → Bool) :
    ∃ m', store_masked c k m p a (fun j => Mask.of c k (c.regK k w N) (fun i => sel (j * (c.regK k w N).lanes w + i.val))) = some m' ∧
      Stored m m' p a (fun i => sel i.val = true) :=
  ⟨_, store_masked_eq h hw hw' hN hp ha a sel, stored_put hw.isW m p a _ (fun _ => Iff.rfl)⟩

end

/-! ## What the documentation does not say -/

theorem rd_none {m : Mem} {p k x : Nat} (h1 : p ≤ x) (h2 : x < p + k) (hx : m.ok x = false) : m.rd p k = none := by
  unfold Mem.rd
  refine if_neg fun g => ?_
  have := g ⟨x - p, by omega⟩
  rw [show p + (x - p) = x by omega, hx] at this
  exact absurd this (by decide)

/-- `load_u` on AltiVec without VSX reads the 16 bytes after the vector even when `p` is a multiple of 16: if one of them may not be
accessed the load fails, although the documentation promises that only the referenced block is accessed. -/
theorem C26_load_u_altivec_overread (m : Mem) {p x : Nat} (hp : p % 16 = 0) (h1 : p + 16 ≤ x) (h2 : x < p + 32) (hx : m.ok x = false) :
    load_u Cfg.altivecOnly .int 8 16 m p = none := by
  have e : i_load_u (w := 8) (n := 16) Cfg.altivecOnly .int .r128 m (p + 0 * 16) = none := by
    show (i_load_u8 (n := 16) Cfg.altivecOnly m (p + 0 * 16)).map _ = none
    have : i_load_u8 (n := 16) Cfg.altivecOnly m (p + 0 * 16) = none := by
      show ((m.vec_ld 8 16 (p + 0 * 16)).bind fun l1 => (m.vec_ld 8 16 (p + 0 * 16 + 16)).bind fun l2 => _) = none
      have e2 : m.vec_ld 8 16 (p + 0 * 16 + 16) = none := by
        unfold Mem.vec_ld Mem.ldv
        rw [rd_none (x := x) (by omega) (by omega) hx]
        rfl
      rw [e2]
      cases m.vec_ld 8 16 (p + 0 * 16) <;> rfl
    rw [this]; rfl
  unfold load_u catM
  exact Option.eq_none_iff_forall_ne_some.2 fun v hv => by
    rw [lanesM_eq_some] at hv
    obtain ⟨q, hq, -⟩ := Option.map_eq_some_iff.1 (hv ⟨0, by decide⟩)
    exact absurd (hq.symm.trans e) (by simp)

/-- `load` at an address that is not a multiple of 16 is an error in the SSE2 build. -/
theorem C26_load_misaligned (m : Mem) {p : Nat} (hp : p % 16 ≠ 0) : i_load (w := 8) (n := 16) Cfg.sse2Only .int .r128 m p = none := by
  show (i_load8 (n := 16) Cfg.sse2Only m p).map _ = none
  have : i_load8 (n := 16) Cfg.sse2Only m p = none := if_neg hp
  rw [this]; rfl

/-- `store_u` of floating-point vectors in the portable build writes through a pointer to the element type: undefined when `p` is not a
multiple of the element size, although nothing in the documentation of `store_u` asks for it. -/
theorem C26_store_u_float_portable_ub (m : Mem) {p : Nat} (hp : p % 4 ≠ 0) (a : Vec 32 4) : store_u Cfg.portable .flt m p a = none := by
  have e : Null.put m (p + 0 * 16) 0 ((Hw.part 4 0 a : Vec 32 4).at_ 0) = none := if_neg (by rw [Nat.zero_mul]; exact hp)
  have e2 : Null.store m (p + 0 * 16) (Hw.part 4 0 a : Vec 32 4) = none := by
    have e3 : loopM (fun i m => Null.put m (p + 0 * 16) i ((Hw.part 4 0 a : Vec 32 4).at_ i)) 0 1 m = none := e
    show ((((loopM _ 0 1 m).bind _).bind _).bind _) = none
    rw [e3]; rfl
  exact e2

/-- `store_first` and `store_last` of bytes read and write back the whole register: the other bytes of the vector must be accessible (and
writable) too, whatever `n` is. Here the SSE2 build. -/
theorem C28_store_first_needs_block (m : Mem) {p x n : Nat} (h1 : p ≤ x) (h2 : x < p + 16) (hx : m.ok x = false)
    (a : Vec 8 16) : store_first Cfg.sse2Only false .int false m p a n = none := by
  show i_store_first8 (N := 16) Cfg.sse2Only false .r128 m p (a.recast 8 16) (n * 1) = none
  unfold i_store_first8
  dsimp only
  unfold Mem.al
  by_cases hp : p % 16 = 0
  · rw [if_pos hp, if_neg (by decide), if_neg (by decide), if_pos (by decide)]
    have e : blendStore Cfg.sse2Only .int .r128 m p (a.recast 8 16) = fun _ => none := by
      funext mask
      unfold blendStore
      have : i_load (w := 8) (n := 16) Cfg.sse2Only .int .r128 m p = none := by
        show (i_load8 (n := 16) Cfg.sse2Only m p).map _ = none
        have : i_load8 (n := 16) Cfg.sse2Only m p = none := by
          unfold i_load8
          rw [al_eq hp, if_neg (by decide), if_pos (by decide)]
          unfold Mem.ldv
          rw [rd_none h1 h2 hx]
          rfl
        rw [this]; rfl
      rw [this]; rfl
    rw [e]
    cases (Hw.tab 32 (onesZeros 8 16) (16 - ((n * 1 : Nat) : Int)) : Option (Vec 8 16)) <;> rfl
  · exact if_neg hp

/-- Outside of the documented range: with `n` equal to the number of lanes `store_first` stores nothing for 64-bit lanes on SSE2. -/
theorem C28_store_first_full_64 (m : Mem) {p : Nat} (hp : p % 16 = 0) (a : Vec 64 2) :
    store_first Cfg.sse2Only false .int false m p a 2 = some m := by
  show i_store_first_int (N := 2) Cfg.sse2Only false .r128 m p a 2 = some m
  unfold i_store_first_int
  dsimp only
  rw [if_neg (by decide), al_eq hp, if_neg (by decide), if_pos (by decide), if_neg (by decide)]

/-! ## Examples -/

/-- 100 accessible bytes, holding their own addresses. -/
def Mem.demo : Mem := { ok := fun x => decide (16 ≤ x ∧ x < 116), byte := fun x => BitVec.ofNat 8 x }

theorem demo_block {p k : Nat} (h1 : 16 ≤ p) (h2 : p + k ≤ 116) : Mem.demo.Block p k := fun x g1 g2 => by
  show decide _ = true
  exact decide_eq_true (by omega)

example : ∃ v : Vec 16 8, load Cfg.sse2Only .int 16 8 Mem.demo 32 = some v ∧ ∀ i : Fin 8, Holds Mem.demo.byte (32 + i.val * 2) (v i) :=
  C26_load Cfg.sse2Only_ok (k := .int) iw16 (.inl ⟨.r128, rfl, rfl⟩) Mem.demo (by decide) (demo_block (by decide) (by decide))

/-- Two NEON registers, at an address that is a multiple of 4 only. -/
example (a : Vec 32 8) : ∃ m', store_u Cfg.neonA64 .flt Mem.demo 20 a = some m' ∧ Stored Mem.demo m' 20 a (fun _ => True) :=
  C26_store_u Cfg.neonA64_ok (k := .flt) (Or.inl rfl) (.inr ⟨2, by decide, rfl⟩) Mem.demo (by decide) (demo_block (by decide) (by decide))
    (fun g => absurd g (by decide)) a

/-- AltiVec: the vector at 36, blocks 32 .. 63 accessible. -/
example (a : Vec 8 16) : ∃ m', store_u Cfg.altivecOnly .int Mem.demo 36 a = some m' ∧ load_u Cfg.altivecOnly .int 8 16 m' 36 = some a :=
  C26_round_trip_u Cfg.altivecOnly_ok (k := .int) isW8 (.inl ⟨.r128, rfl, rfl⟩) Mem.demo (by decide) (demo_block (by decide) (by decide))
    (fun _ _ => demo_block (by decide) (by decide)) a

/-- Three SSE2 registers of signed words, 11 of 12 lanes. -/
example (a : Vec 32 12) : ∃ m', store_last Cfg.sse2Only false .int true Mem.demo 48 a 11 = some m' ∧
    Stored Mem.demo m' 48 a (fun i => 12 - 11 ≤ i.val) :=
  C28_store_last Cfg.sse2Only_ok false (k := .int) true iw32 (.inr ⟨3, by decide, rfl⟩) Mem.demo (by decide) (demo_block (by decide) (by decide)) a
    (by decide)

example (a : Vec 32 8) : ∃ m', store_masked Cfg.avx2Only .flt Mem.demo 64 a
      (fun j => Mask.of Cfg.avx2Only .flt .r256 (fun i => decide ((j * 8 + i.val) % 3 = 0))) = some m' ∧
    Stored Mem.demo m' 64 a (fun i => decide (i.val % 3 = 0) = true) :=
  C28_store_masked Cfg.avx2Only_ok (k := .flt) (Or.inl rfl) (Or.inl rfl) (.inl ⟨.r256, rfl, rfl⟩) Mem.demo (by decide)
    (demo_block (by decide) (by decide)) a (fun i => decide (i % 3 = 0))

end Simdpp
