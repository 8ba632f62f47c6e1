import Verif.Proofs.DivZero
import Verif.Props.Divider

/-! # C53: the divider with a zero operand -/
set_option linter.unusedSectionVars false
namespace Axon
open Spec
variable {K : Type*} [Field K] [LinearOrder K] [IsStrictOrderedRing K] [FloorRing K]

set_option maxHeartbeats 2000000 in
/-- **C53, zero operands.** If one of the operands is 0 (and the other is 0 or at least `2*dt/Tcod` away from 0 and 1), and
the time step divides the delays, the `DivNetwork` emits nothing: neither `0 / v2` nor `v1 / 0` has an answer. -/
theorem C53_zero_silent (H : EventHeap K) {ord : ℕ → List ℕ → List ℕ} (hord : SetOrder ord) {enc : Encoder K}
    {dt : K} (hdt : 0 < dt) (hdt' : dt < 1 / 50) (h2 : 0 < enc.Tcod) (hd : 1 + dt ≤ enc.Tmin) {k l : ℕ} (hk : (k : K) * dt = 1)
    (hl : (l : K) * dt = enc.Tmin) (name : Option String) {v1 v2 t1 t2 : K} (T : K)
    (hv1 : v1 = 0 ∨ 2 * dt / enc.Tcod < v1 ∧ v1 ≤ 1 - 2 * dt / enc.Tcod) (hv2 : v2 = 0 ∨ 2 * dt / enc.Tcod < v2 ∧ v2 ≤ 1 - 2 * dt / enc.Tcod)
    (h0 : v1 = 0 ∨ v2 = 0) (ht1 : 0 ≤ t1) (ht2 : 0 ≤ t2) :
    let p := (divNetwork enc name World.empty).1
    let w := (divNetwork enc name World.empty).2
    ∃ st, session H ord enc dt T w p.mod [.value v1 p.input1 t1, .value v2 p.input2 t2] = .ok st ∧ Quiet (st.spikeLog p.output) := by
  intro p w
  have h1 : 0 < enc.Tmin := by linarith
  have hd20 : dt < 20 := by linarith
  have hε : 0 < 2 * dt / enc.Tcod := by positivity
  have rng : ∀ v, (v = 0 ∨ 2 * dt / enc.Tcod < v ∧ v ≤ 1 - 2 * dt / enc.Tcod) → 0 ≤ v ∧ v ≤ 1 := by
    rintro v (rfl | ⟨a, b⟩)
    · exact ⟨le_rfl, zero_le_one⟩
    · constructor <;> linarith
  obtain ⟨ns, S, F, st, hses, R, hm⟩ := div_setup H hord hdt h2 hd name T (v1 := v1) (v2 := v2) (rng v1 hv1).1 (rng v1 hv1).2 (rng v2 hv2).1
    (rng v2 hv2).2 ht1 ht2
  refine ⟨st, hses, R.quiet (k := 24) (by norm_num) rfl ?_⟩
  have e1 : dly dt (1 : K) = k := dly_exact hdt one_pos hk
  have e1' : dly dt (2 * 1 : K) = 2 * k := dly_exact hdt (by norm_num) (by push_cast; linarith)
  have e2 : dly dt (1 + enc.Tmin) = k + l := dly_exact hdt (by linarith) (by push_cast; linarith)
  have hk1 : 1 ≤ k := by rw [← e1]; exact one_le_dly dt 1
  have hkl : k + 1 ≤ l := step_le hdt (by push_cast; linarith)
  have hw : enc.waccBar = (10 * 100 / enc.Tcod : K) := rfl
  have hw0 : 0 ≤ enc.waccBar := by rw [hw]; positivity
  have hb : ∀ t : K, 0 ≤ t → arrInj dt (t + enc.Tmin + 0 * enc.Tcod) 1 = arrInj dt t 1 + l := by
    intro t ht
    unfold arrInj firstStep
    rw [zero_mul, add_zero, ← hl, show t + (l : K) * dt + 1 = (t + 1) + (l : K) * dt by ring, add_div,
      mul_div_cancel_right₀ _ hdt.ne', Nat.ceil_add_natCast (by positivity)]
    have : 1 ≤ ⌈(t + 1) / dt⌉₊ := Nat.one_le_iff_ne_zero.mpr (Nat.ceil_pos.mpr (by positivity)).ne'
    omega
  obtain ⟨L1, L2, -⟩ := hm.front R.run hdt
  -- an accumulator is silent for the value 0, and fires once after the sync neuron for the others
  have acc : ∀ (x : ℕ) (v t : K), IsStd (w.net ns) fresh x → 0 ≤ t → (v = 0 ∨ 2 * dt / enc.Tcod < v ∧ v ≤ 1 - 2 * dt / enc.Tcod) → ∀ G, 
      arrInj dt (t + enc.Tmin + v * enc.Tcod) 1 + dly dt 1 ≤ G →
      LogIn (w.net ns) dt [(0, t1), (0, t1 + enc.Tmin + v1 * enc.Tcod), (5, t2), (5, t2 + enc.Tmin + v2 * enc.Tcod)] F x enc.waccBar
        (arrInj dt t 1 + dly dt (1 + enc.Tmin)) (arrInj dt (t + enc.Tmin + v * enc.Tcod) 1 + dly dt 1) G →
      (v = 0 → Train F x []) ∧ (Train F x [] ∨ ∃ Q, Train F x [Q] ∧ G ≤ Q) := by
    intro x v t hx ht hv G hG L
    have z : v = 0 → Train F x [] := by
      rintro rfl
      exact log_acc_none R.run hdt hd20 hx hw0 L (by omega) (by rw [hb t ht, e1, e2]; omega)
    refine ⟨z, ?_⟩
    rcases hv with rfl | ⟨ha, hb'⟩
    · exact Or.inl (z rfl)
    · right
      obtain ⟨k1, k2⟩ := charge hdt h1 h2 (by linarith) ha ht rfl rfl
      obtain ⟨X, hX⟩ : ∃ X, X = ((arrInj dt (t + enc.Tmin + v * enc.Tcod) 1 + dly dt 1 - (arrInj dt t 1 + dly dt (1 + enc.Tmin)) : ℕ) : K) * dt / enc.Tcod := ⟨_, rfl⟩
      rw [← hX] at k2
      have k3 := abs_lt.mp k2
      obtain ⟨n, hn⟩ := decay_exists hdt hd20 (show 0 < X by linarith)
      have := hn.pos (show X < 1 by linarith)
      have := arrInj_pos dt t (1 : K)
      exact ⟨_, log_acc R.run hdt hd20 hx hw0 L (by omega) k1.le hG (X := X) (by rw [hX, hw]; ring) (by linarith) hn, by omega⟩
  obtain ⟨z1, c1⟩ := acc _ v1 t1 (hm.emb.std 3 (by simp [divInner])) ht1 hv1 _ (by omega) L1
  obtain ⟨z2, c2⟩ := acc _ v2 t2 (hm.emb.std 8 (by simp [divInner])) ht2 hv2 _ (by omega) L2
  have late : ∀ x, (Train F x [] ∨ ∃ Q, Train F x [Q] ∧ max (arrInj dt (t1 + enc.Tmin + v1 * enc.Tcod) 1)
        (arrInj dt (t2 + enc.Tmin + v2 * enc.Tcod) 1) + dly dt 1 + dly dt 1 ≤ Q) →
      (Train F x [] ∨ ∃ Q, Train F x [Q] ∧ max (arrInj dt (t1 + enc.Tmin + v1 * enc.Tcod) 1)
        (arrInj dt (t2 + enc.Tmin + v2 * enc.Tcod) 1) + dly dt 1 + dly dt (2 * 1) < Q + dly dt (1 + enc.Tmin)) := by
    rintro x (h | ⟨Q, h, hQ⟩)
    · exact Or.inl h
    · exact Or.inr ⟨Q, h, by rw [e1', e1, e2]; rw [e1] at hQ; omega⟩
  exact hm.lame R.run hdt hdt' hd (late _ c1) (late _ c2) (h0.imp z1 z2)

/-- Concrete cases with the default parameters: 0 over 1/2, 1/2 over 0 and 0 over 0. -/
example (H : EventHeap ℚ) : ∃ st, session H (fun _ l => l) ⟨10, 100⟩ (1 / 100) 500 (divNetwork (⟨10, 100⟩ : Encoder ℚ) none World.empty).2 0
    [.value 0 0 0, .value (1 / 2) 5 3] = .ok st ∧ Quiet (st.spikeLog 24) :=
  C53_zero_silent H (fun _ l => List.Perm.refl l) (enc := ⟨10, 100⟩) (by norm_num) (by norm_num) (by norm_num) (by norm_num) (k := 100) (l := 1000)
    (by norm_num) (by norm_num) none 500 (Or.inl rfl) (Or.inr (by norm_num)) (Or.inl rfl) le_rfl (by norm_num)

example (H : EventHeap ℚ) : ∃ st, session H (fun _ l => l) ⟨10, 100⟩ (1 / 100) 500 (divNetwork (⟨10, 100⟩ : Encoder ℚ) none World.empty).2 0
    [.value (1 / 2) 0 0, .value 0 5 0] = .ok st ∧ Quiet (st.spikeLog 24) :=
  C53_zero_silent H (fun _ l => List.Perm.refl l) (enc := ⟨10, 100⟩) (by norm_num) (by norm_num) (by norm_num) (by norm_num) (k := 100) (l := 1000)
    (by norm_num) (by norm_num) none 500 (Or.inr (by norm_num)) (Or.inl rfl) (Or.inr rfl) le_rfl le_rfl

end Axon
