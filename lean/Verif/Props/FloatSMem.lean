import Verif.Props.FloatDiv

/-! # C113: signed constant and signed memory in floating-point arithmetic -/
set_option linter.unusedSectionVars false
namespace Axon
open Spec

theorem signedMemoryFl_neurons (enc : Encoder Double) (name) : (signedMemoryFl enc name World.empty).2.neurons 0 = .ok (List.range 16) := by
  generalize hw : (signedMemoryFl enc name World.empty).2 = w
  have c : w.mCount = 2 := by rw [← hw]; rfl
  have s0 : w.subnetworks 0 = [1] := by rw [← hw]; rfl
  have s1 : w.subnetworks 1 = [] := by rw [← hw]; rfl
  have t0 : w.topNeurons 0 = [0, 1, 2, 3, 4, 5, 6, 7] := by rw [← hw]; rfl
  have t1 : w.topNeurons 1 = [8, 9, 10, 11, 12, 13, 14, 15] := by rw [← hw]; rfl
  clear hw
  rw [World.neurons, c, World.neuronsFuel, s0]
  have e : ([1] : List ℕ).mapM (fun s => w.neuronsFuel 2 s) = .ok [w.topNeurons 1] := by
    simp only [List.mapM_cons, List.mapM_nil, neuronsFuel_leaf s1]
    rfl
  rw [e, t0, t1]
  rfl

theorem signedMemoryFl_ports (enc : Encoder Double) (name) : (signedMemoryFl enc name World.empty).1 = (0, 0, 1, 4, 5, 6, 7) := rfl

theorem signedMemoryFl_net (enc : Encoder Double) (name) : ((signedMemoryFl enc name World.empty).2.net (List.range 16)).syns =
    [⟨8, 9, weFl, tsynFl, .V⟩, ⟨8, 10, Fl.of (1 / 2) * weFl, tsynFl, .V⟩, ⟨9, 9, wiFl, tsynFl, .V⟩, ⟨9, 11, enc.waccFl, tsynFl, .ge⟩,
      ⟨10, 12, enc.waccFl, Fl.of 2 * tsynFl, .ge⟩, ⟨11, 12, -enc.waccFl, tsynFl, .ge⟩, ⟨13, 12, enc.waccFl, tsynFl, .ge⟩, ⟨13, 15, weFl, Fl.of 2 * tsynFl, .V⟩,
      ⟨12, 15, weFl, tsynFl, .V⟩, ⟨11, 14, weFl, tsynFl, .V⟩,
      ⟨0, 2, weFl, tsynFl, .V⟩, ⟨1, 3, weFl, tsynFl, .V⟩, ⟨0, 3, Fl.of (1 / 4) * weFl, tsynFl, .V⟩, ⟨1, 2, Fl.of (1 / 4) * weFl, tsynFl, .V⟩,
      ⟨2, 3, Fl.of (1 / 2) * wiFl, tsynFl, .V⟩, ⟨3, 2, Fl.of (1 / 2) * wiFl, tsynFl, .V⟩, ⟨4, 2, Fl.of (1 / 2) * weFl, tsynFl, .V⟩, ⟨4, 3, Fl.of (1 / 2) * weFl, tsynFl, .V⟩,
      ⟨0, 8, weFl, tsynFl, .V⟩, ⟨1, 8, weFl, tsynFl, .V⟩, ⟨4, 13, weFl, tsynFl, .V⟩, ⟨15, 5, weFl, tsynFl, .V⟩, ⟨15, 6, weFl, tsynFl, .V⟩,
      ⟨2, 6, Fl.of 2 * wiFl, tsynFl, .V⟩, ⟨3, 5, Fl.of 2 * wiFl, tsynFl, .V⟩, ⟨15, 7, weFl, tsynFl, .V⟩] := rfl

theorem w_quarter : (Fl.of (1 / 4) * weFl : Double) = wz 1 := by decide +kernel

/-- The `ready` neuron of the rail that carries the value. -/
theorem smem_ready {a b r : ℕ} (h0 : 0 < a) (h1 : a < b) (h2 : b < r) : VFires (evl [(4, [a, b]), (1, []), (-2, []), (2, [r])]) 0 [a, b] := by
  show 0 < a ∧ (∀ i, 0 < i → i < a → vZ [(a, 4), (b, 4), (r, 2)] 0 i < 4) ∧ 4 ≤ vZ [(a, 4), (b, 4), (r, 2)] 0 a ∧ a < b ∧
    (∀ i, a < i → i < b → vZ [(a, 4), (b, 4), (r, 2)] a i < 4) ∧ 4 ≤ vZ [(a, 4), (b, 4), (r, 2)] a b ∧ ∀ i, b < i → vZ [(a, 4), (b, 4), (r, 2)] b i < 4
  exact ⟨h0, fun i _ _ => by vz_omega, by vz_omega, h1, fun i _ _ => by vz_omega, by vz_omega, fun i _ => by vz_omega⟩

/-- The `ready` neuron of the other rail stays silent. -/
theorem smem_other {a b A B r : ℕ} (h0 : 0 < A) (h1 : A < r) : VFires (evl [(4, []), (1, [a, b]), (-2, [A, B]), (2, [r])]) 0 [] := by
  show ∀ i, 0 < i → vZ [(a, 1), (b, 1), (A, -2), (B, -2), (r, 2)] 0 i < 4
  exact fun i _ => by vz_omega

/-- The output of the other rail stays silent. -/
theorem smem_mute {x y A B : ℕ} (h0 : 0 < A) (h3 : 0 < B) (h1 : A < x) (h4 : B < x) (h2 : x < y) : VFires (evl [(4, [x, y]), (-8, [A, B])]) 0 [] := by
  show ∀ i, 0 < i → vZ [(x, 4), (y, 4), (A, -8), (B, -8)] 0 i < 4
  exact fun i _ => by vz_omega

theorem one_fires {x : ℕ} (h0 : 0 < x) : VFires (evl [(4, [x])]) 0 [x] := by
  show 0 < x ∧ (∀ i, 0 < i → i < x → vZ [(x, 4)] 0 i < 4) ∧ 4 ≤ vZ [(x, 4)] 0 x ∧ ∀ i, x < i → vZ [(x, 4)] x i < 4
  exact ⟨h0, fun i _ _ => by vz_omega, by vz_omega, fun i _ => by vz_omega⟩

set_option maxHeartbeats 4000000 in
/-- **C113 (signed memory).** In Python floats: a `SignedMemoryNetwork` that is given the magnitude `v` on one rail at `t0` and is recalled at `ρ` emits `v` on the output
of the same rail, up to nineteen simulation steps, together with `ready`; the other output never spikes. -/
theorem C113_signed_memory (H : EventHeap Double) {ord : ℕ → List ℕ → List ℕ} (hord : SetOrder ord) {enc : Encoder Double} {dt : Double}
    (hdt : 0 < dt.val) (hdt1 : dt.val ≤ 1) (hC : 0 < enc.Tcod.val) (hmin : 1 + 19 * dt.val ≤ enc.Tmin.val) (hmax : enc.Tmax.val ≤ 2 ^ 24 * dt.val)
    (name : Option String) (neg : Bool) {v t0 ρ T : Double} (hv0 : 0 ≤ v.val) (hv1 : v.val ≤ 1) (ht : 0 ≤ t0.val) (hρ : t0.val + enc.Tmax.val + 2 + 10 * dt.val ≤ ρ.val)
    (hρ' : ρ.val ≤ 2 ^ 48 * dt.val) (hT : ρ.val + enc.Tmax.val + 4 + 24 * dt.val ≤ T.val) :
    let p := (signedMemoryFl enc name World.empty).1
    let w := (signedMemoryFl enc name World.empty).2
    ∃ st, sessionFl H ord enc dt T w p.1 [.value v (if neg then p.2.2.1 else p.2.1) t0, .spike p.2.2.2.1 ρ] = .ok st ∧
      CarriesFl enc (19 * dt.val / enc.Tcod.val) (st.spikeLog (if neg then p.2.2.2.2.2.1 else p.2.2.2.2.1)) v.val ∧
      st.spikeLog (if neg then p.2.2.2.2.1 else p.2.2.2.2.2.1) = some [] ∧
      CarriesFl enc (19 * dt.val / enc.Tcod.val) (st.spikeLog p.2.2.2.2.2.2) v.val := by
  intro p w
  have hT0 : 0 ≤ enc.Tmin.val := by linarith
  obtain ⟨eτ, eM⟩ := encoded (t0 := t0) (dt := dt) hT0 hC.le hmax hv0 hv1 ht (by linarith [tmin_le (e := enc) hC.le]) hdt
  set τ := t0 + (enc.Tmin + v * enc.Tcod) with hτ
  have hp0 : 0 ≤ v.val * enc.Tcod.val := by positivity
  have hp1 : v.val * enc.Tcod.val ≤ enc.Tcod.val := mul_le_of_le_one_left hC.le hv1
  have eτ' := abs_le.mp eτ
  have eM' := abs_le.mp eM
  have G := wacc_slope (enc := enc) hdt (by linarith [tmin_le (e := enc) hC.le]) hmax
  have hq1 : 1 ≤ 1 / dt.val := by rw [le_div_iff₀ hdt]; linarith
  obtain ⟨q, hq⟩ : ∃ q, q = 1 / dt.val := ⟨_, rfl⟩
  obtain ⟨X, hx⟩ : ∃ q, q = t0.val / dt.val := ⟨_, rfl⟩
  obtain ⟨Y, hy⟩ : ∃ q, q = τ.val / dt.val := ⟨_, rfl⟩
  obtain ⟨Z, hz⟩ : ∃ q, q = ρ.val / dt.val := ⟨_, rfl⟩
  obtain ⟨n, hn⟩ : ∃ q, q = enc.Tmax.val / dt.val := ⟨_, rfl⟩
  obtain ⟨e, he⟩ : ∃ q, q = (enc.Tmin.val + v.val * enc.Tcod.val) / dt.val := ⟨_, rfl⟩
  have u0 : ∀ a : ℚ, a / dt.val * dt.val = a := fun a => div_mul_cancel₀ _ hdt.ne'
  have mv : ∀ a b : ℚ, a * dt.val ≤ b * dt.val → a ≤ b := fun a b h => le_of_mul_le_mul_right h hdt
  have qm : q * dt.val = 1 := by rw [hq, u0]
  have xm : X * dt.val = t0.val := by rw [hx, u0]
  have ym : Y * dt.val = τ.val := by rw [hy, u0]
  have zm : Z * dt.val = ρ.val := by rw [hz, u0]
  have nm : n * dt.val = enc.Tmax.val := by rw [hn, u0]
  have em : e * dt.val = enc.Tmin.val + v.val * enc.Tcod.val := by rw [he, u0]
  have A1 : Y - X - e ≤ 3 / 16 := mv _ _ (by linarith)
  have A2 : -(3 / 16) ≤ Y - X - e := mv _ _ (by linarith)
  have A3 : q + 19 ≤ e := mv _ _ (by linarith)
  have A4 : e ≤ n + 1 / 16 := mv _ _ (by linarith)
  have A5 : X + n + 2 * q + 10 ≤ Z := mv _ _ (by linarith)
  have A6 : Z ≤ 2 ^ 48 := mv _ _ (by linarith)
  have A7 : n ≤ 2 ^ 24 := mv _ _ (by linarith)
  have A8 : 0 ≤ X := mv _ _ (by linarith)
  have A9 : 0 ≤ q := by rw [hq]; positivity
  rw [← hn] at G
  rw [← hq] at hq1
  have d1 : (tsynFl : Double).val / dt.val = q := by rw [tsyn_val, hq]
  have d2 : (Fl.of 2 * tsynFl : Double).val / dt.val = 2 * q := by rw [two_tsyn, hq]; ring
  have big : (2 : ℚ) ^ 48 + 10 * 2 ^ 24 + 100 ≤ 2 ^ 49 := by norm_num
  have dpos : 0 ≤ (tsynFl : Double).val := by rw [tsyn_val]; norm_num
  have dpos2 : 0 ≤ (Fl.of 2 * tsynFl : Double).val := by rw [two_tsyn]; norm_num
  have hτ0 : 0 ≤ τ.val := by linarith
  have hρ0 : 0 ≤ ρ.val := by linarith
  clear eτ eM eτ' he xm ym hρ hρ'
  obtain ⟨a0, a0i, a0p, a0l, a0u⟩ := arrives_inj (τ := t0) (D := tsynFl) hdt ht dpos (by rw [d1, ← hx]; linarith)
  obtain ⟨b0, b0i, b0p, b0l, b0u⟩ := arrives_inj (τ := τ) (D := tsynFl) hdt hτ0 dpos (by rw [d1, ← hy]; linarith)
  obtain ⟨r0, r0i, r0p, r0l, r0u⟩ := arrives_inj (τ := ρ) (D := tsynFl) hdt hρ0 dpos (by rw [d1, ← hz]; linarith)
  rw [d1, ← hx] at a0l a0u
  rw [d1, ← hy] at b0l b0u
  rw [d1, ← hz] at r0l r0u
  clear hx hy hz
  obtain ⟨a1, a1i, a1j, a1l, a1u⟩ := arrives (j := a0) (D := tsynFl) hdt dpos (by rw [d1]; linarith)
  obtain ⟨b1, b1i, b1j, b1l, b1u⟩ := arrives (j := b0) (D := tsynFl) hdt dpos (by rw [d1]; linarith)
  obtain ⟨r1, r1i, r1j, r1l, r1u⟩ := arrives (j := r0) (D := tsynFl) hdt dpos (by rw [d1]; linarith)
  obtain ⟨o1, o1i, o1j, o1l, o1u⟩ := arrives (j := r0) (D := Fl.of 2 * tsynFl) hdt dpos2 (by rw [d2]; linarith)
  rw [d1] at a1l a1u b1l b1u r1l r1u
  rw [d2] at o1l o1u
  obtain ⟨c, ci, cj, cl, cu⟩ := arrives (j := a1) (D := tsynFl) hdt dpos (by rw [d1]; linarith)
  rw [d1] at cl cu
  obtain ⟨k, k1, k2, k3, k4⟩ := ramp_count G
  obtain ⟨b2, b2i, b2j, b2l, b2u⟩ := arrives (j := b1) (D := Fl.of 2 * tsynFl) hdt dpos2 (by rw [d2]; linarith)
  rw [d2] at b2l b2u
  obtain ⟨f2, f2i, f2j, f2l, f2u⟩ := arrives (j := c + k) (D := tsynFl) hdt dpos (by rw [d1]; push_cast; linarith)
  rw [d1] at f2l f2u
  push_cast at f2l f2u
  have lt_of : ∀ {a b : ℕ}, (a : ℚ) < b → a < b := fun h => by exact_mod_cast h
  have ab0 : a0 < b0 := lt_of (by linarith)
  have br0 : b0 < r0 := lt_of (by linarith)
  have cb1 : c < b1 := lt_of (by linarith)
  have Ar0 : a1 < r0 := lt_of (by linarith)
  have b2r : b2 < r1 := lt_of (by linarith)
  have f2r : f2 < r1 := lt_of (by linarith)
  obtain ⟨k', g1, g2, g3⟩ := store_fits (dt := dt) (w := enc.waccFl) (a := b2) (b := f2) (c := r1) (n := n)
    (hits := fun i => (if i = b2 then [(SynKind.ge, enc.waccFl)] else []) ++ (if i = f2 then [(SynKind.ge, -enc.waccFl)] else []) ++ (if i = r1 then [(SynKind.ge, enc.waccFl)] else []))
    G (by omega) (by omega) b2r f2r (by linarith) (by linarith) (fun _ => rfl)
  obtain ⟨o2, o2i, o2j, o2l, o2u⟩ := arrives (j := r1 + k') (D := tsynFl) hdt dpos (by rw [d1]; push_cast; linarith)
  rw [d1] at o2l o2u
  push_cast at o2l o2u
  obtain ⟨x, xi, xj, xl, xu⟩ := arrives (j := o1) (D := tsynFl) hdt dpos (by rw [d1]; linarith)
  obtain ⟨y, yi, yj, yl, yu⟩ := arrives (j := o2) (D := tsynFl) hdt dpos (by rw [d1]; linarith)
  rw [d1] at xl xu yl yu
  have W1 : (y : ℚ) - x ≤ e + 37 / 2 := by linarith
  have W2 : e - 37 / 2 ≤ (y : ℚ) - x := by linarith
  have oo : o1 < o2 := lt_of (by linarith)
  have xy : x < y := lt_of (by linarith)
  have x0 : 0 < x := by omega
  have Ax : a1 < x := by omega
  have Bx : b1 < x := lt_of (by linarith)
  have W3 : (y : ℚ) ≤ Z + 4 * q + n + 23 := by linarith
  have W4 : y ≤ 2 ^ 49 := by
    have : (y : ℚ) ≤ 2 ^ 49 := by linarith
    exact_mod_cast this
  have W5 : y ≤ numStepsFl T dt := by
    refine enough_steps (by omega) ?_
    rw [le_div_iff₀ hdt]
    have := mul_le_mul_of_nonneg_right W3 hdt.le
    rw [add_mul, add_mul, add_mul, mul_assoc, qm, nm, zm] at this
    linarith
  have key := decoded (e := enc) (dt := dt) (v := v.val) (a := x) (b := y) (δ := 37 / 2) hT0 hC hmax hdt (by linarith) (by linarith) (by omega) W4 (by norm_num) (by
    rw [← em, ← sub_mul, abs_mul, abs_of_pos hdt]
    refine mul_le_mul_of_nonneg_right ?_ hdt.le
    rw [abs_le]; constructor <;> linarith)
  have key' := key.trans (div_le_div_of_nonneg_right (mul_le_mul_of_nonneg_right (show (37 / 2 + 5 / 16 : ℚ) ≤ 19 by norm_num) hdt.le) hC.le)
  have nil : AL dt tsynFl [] [] := .nil
  have hAB : AL dt tsynFl [a0, b0] [a1, b1] := .cons a1i (.cons b1i .nil)
  have hab1 : AL dt tsynFl [a0, b0] [a1, b1] := hAB
  have hxy : AL dt tsynFl [o1, o2] [x, y] := .cons xi (.cons yi .nil)
  have ci : AtStep dt tsynFl a1 c := ci
  have f2i : AtStep dt tsynFl (c + k) f2 := f2i
  have o1i : AtStep dt (Fl.of 2 * tsynFl) r0 o1 := o1i
  have o2i : AtStep dt tsynFl (r1 + k') o2 := o2i
  have ls1 : c + k < r1 := by omega
  have ls2 : r1 + k' < y := by omega
  clear A1 A2 A3 A4 A5 A6 A7 A8 A9 a0l a0u b0l b0u r0l r0u a1l a1u b1l b1u r1l r1u o1l o1u cl cu b2l b2u f2l f2u o2l o2u xl xu yl yu W1 W2 W3 k3 k4 g2 g3 key
  have z0 : b0 < y := by omega
  cases neg with
  | false =>
    obtain ⟨st, s1, s2⟩ := lib_run H hord (enc := enc) hdt (signedMemoryFl_neurons enc name)
          (fun n hn => by interval_cases n <;> rfl) (by rw [signedMemoryFl_net]; simp) (cs := [.value v 0 t0, .spike 4 ρ])
          (by simp only [List.mem_cons, List.not_mem_nil, or_false, forall_eq_or_imp, forall_eq, CallOK, and_true]; exact ⟨hv0, hv1⟩)
          (Ls := [[], [], [a0, b0], [], [], [x, y], [], [x, y], [a0, b0], [a1], [b1], [c + k], [r1 + k'], [r0], [f2], [o1, o2]]) rfl (by
            simp only [List.mem_cons, List.not_mem_nil, or_false, forall_eq_or_imp, forall_eq, List.pairwise_cons, List.Pairwise.nil, and_true, true_and, false_imp_iff, implies_true]
            exact ⟨ab0, xy, xy, ab0, oo⟩) T (by
            simp only [List.mem_cons, List.not_mem_nil, or_false, forall_eq_or_imp, forall_eq, false_imp_iff, implies_true, true_and]
            omega) (by
          intro n hn
          show FitsR stdFl dt (hitsR (w.net (List.range 16)) dt [(0, t0), (0, τ), (4, ρ)] _ n) _
          have hin : ALI dt tsynFl [t0, τ] [a0, b0] := .cons a0i (.cons b0i .nil)
          have noin : ALI dt tsynFl [] [] := .nil
          have hre : ALI dt tsynFl [ρ] [r0] := .cons r0i .nil
          interval_cases n
          · exact FitsR.silent fun i => hits_eq rfl i
          · exact FitsR.silent fun i => hits_eq rfl i
          · exact fits_vs (l := [⟨0, 2, weFl, tsynFl, .V⟩, ⟨1, 2, Fl.of (1 / 4) * weFl, tsynFl, .V⟩, ⟨3, 2, Fl.of (1 / 2) * wiFl, tsynFl, .V⟩, ⟨4, 2, Fl.of (1 / 2) * weFl, tsynFl, .V⟩]) rfl
              (.cons ⟨rfl, w_full, hin.brings rfl rfl⟩ (.cons ⟨rfl, w_quarter, noin.brings rfl rfl⟩ (.cons ⟨rfl, w_negh, nil.brings rfl rfl⟩ (.cons ⟨rfl, w_half, hre.brings rfl rfl⟩ .nil))))
              (evl_small (by simp)) (by simp) (smem_ready a0p ab0 br0)
          · exact fits_vs (l := [⟨1, 3, weFl, tsynFl, .V⟩, ⟨0, 3, Fl.of (1 / 4) * weFl, tsynFl, .V⟩, ⟨2, 3, Fl.of (1 / 2) * wiFl, tsynFl, .V⟩, ⟨4, 3, Fl.of (1 / 2) * weFl, tsynFl, .V⟩]) rfl
              (.cons ⟨rfl, w_full, noin.brings rfl rfl⟩ (.cons ⟨rfl, w_quarter, hin.brings rfl rfl⟩ (.cons ⟨rfl, w_negh, hAB.brings rfl rfl⟩ (.cons ⟨rfl, w_half, hre.brings rfl rfl⟩ .nil))))
              (evl_small (by simp)) (by simp) (smem_other (by omega) Ar0)
          · exact FitsR.silent fun i => hits_eq rfl i
          · exact fits_vs (LA := [(4, [x, y]), (-8, [])]) (l := [⟨15, 5, weFl, tsynFl, .V⟩, ⟨3, 5, Fl.of 2 * wiFl, tsynFl, .V⟩]) rfl
              (.cons ⟨rfl, w_full, hxy.brings rfl rfl⟩ (.cons ⟨rfl, w_neg2, nil.brings rfl rfl⟩ .nil)) (evl_small (by simp)) (by simp) (relay_fires x0 xy)
          · exact fits_vs (l := [⟨15, 6, weFl, tsynFl, .V⟩, ⟨2, 6, Fl.of 2 * wiFl, tsynFl, .V⟩]) rfl
              (.cons ⟨rfl, w_full, hxy.brings rfl rfl⟩ (.cons ⟨rfl, w_neg2, hAB.brings rfl rfl⟩ .nil)) (evl_small (by simp)) (by simp) (smem_mute (by omega) (by omega) Ax Bx xy)
          · exact fits_vs (l := [⟨15, 7, weFl, tsynFl, .V⟩]) rfl (.cons ⟨rfl, w_full, hxy.brings rfl rfl⟩ .nil) (evl_small (by simp)) (by simp) (relay_fires x0 xy)
          · exact fits_vs (LA := [(4, [a0, b0]), (4, [])]) (l := [⟨0, 8, weFl, tsynFl, .V⟩, ⟨1, 8, weFl, tsynFl, .V⟩]) rfl
              (.cons ⟨rfl, w_full, hin.brings rfl rfl⟩ (.cons ⟨rfl, w_full, noin.brings rfl rfl⟩ .nil)) (evl_small (by simp)) (by simp) (relay_fires a0p ab0)
          · exact fits_vs (l := [⟨8, 9, weFl, tsynFl, .V⟩, ⟨9, 9, wiFl, tsynFl, .V⟩]) rfl
              (.cons ⟨rfl, w_full, hab1.brings rfl rfl⟩ (.cons ⟨rfl, w_neg, ci.al.brings rfl rfl⟩ .nil)) (evl_small (by simp)) (by simp) (first_fires (by omega) cj cb1)
          · exact fits_vs (l := [⟨8, 10, Fl.of (1 / 2) * weFl, tsynFl, .V⟩]) rfl
              (.cons ⟨rfl, w_half, hab1.brings rfl rfl⟩ .nil) (evl_small (by simp)) (by simp) (second_fires (by omega) (cj.trans cb1))
          · refine FitsR.ramp (a := c) (k := k) (w := enc.waccFl) (by omega) (fun i => ?_) k1 k2
            rw [hits_eq (l := [⟨9, 11, enc.waccFl, tsynFl, .ge⟩]) rfl i]
            rw [List.flatMap_cons, List.flatMap_nil, contrib_one rfl rfl ci, List.append_nil]
          · refine g1.of_eq fun i => ?_
            rw [hits_eq (l := [⟨10, 12, enc.waccFl, Fl.of 2 * tsynFl, .ge⟩, ⟨11, 12, -enc.waccFl, tsynFl, .ge⟩, ⟨13, 12, enc.waccFl, tsynFl, .ge⟩]) rfl i]
            rw [List.flatMap_cons, List.flatMap_cons, List.flatMap_cons, List.flatMap_nil, contrib_one rfl rfl b2i, contrib_one rfl rfl f2i, contrib_one rfl rfl r1i, List.append_nil, List.append_assoc]
          · exact fits_vs (l := [⟨4, 13, weFl, tsynFl, .V⟩]) rfl (.cons ⟨rfl, w_full, hre.brings rfl rfl⟩ .nil) (evl_small (by simp)) (by simp) (one_fires r0p)
          · exact fits_vs (l := [⟨11, 14, weFl, tsynFl, .V⟩]) rfl (.cons ⟨rfl, w_full, f2i.al.brings rfl rfl⟩ .nil) (evl_small (by simp)) (by simp) (one_fires (by omega))
          · exact fits_vs (l := [⟨13, 15, weFl, Fl.of 2 * tsynFl, .V⟩, ⟨12, 15, weFl, tsynFl, .V⟩]) rfl
              (.cons ⟨rfl, w_full, o1i.al.brings rfl rfl⟩ (.cons ⟨rfl, w_full, o2i.al.brings rfl rfl⟩ .nil)) (evl_small (by simp)) (by simp) (join_fires (by omega) oo))
    exact ⟨st, s1, ⟨(x : Double) * dt, (y : Double) * dt, s2 5 (by norm_num), key'⟩, s2 6 (by norm_num), (x : Double) * dt, (y : Double) * dt, s2 7 (by norm_num), key'⟩
  | true =>
    obtain ⟨st, s1, s2⟩ := lib_run H hord (enc := enc) hdt (signedMemoryFl_neurons enc name)
          (fun n hn => by interval_cases n <;> rfl) (by rw [signedMemoryFl_net]; simp) (cs := [.value v 1 t0, .spike 4 ρ])
          (by simp only [List.mem_cons, List.not_mem_nil, or_false, forall_eq_or_imp, forall_eq, CallOK, and_true]; exact ⟨hv0, hv1⟩)
          (Ls := [[], [], [], [a0, b0], [], [], [x, y], [x, y], [a0, b0], [a1], [b1], [c + k], [r1 + k'], [r0], [f2], [o1, o2]]) rfl (by
            simp only [List.mem_cons, List.not_mem_nil, or_false, forall_eq_or_imp, forall_eq, List.pairwise_cons, List.Pairwise.nil, and_true, true_and, false_imp_iff, implies_true]
            exact ⟨ab0, xy, xy, ab0, oo⟩) T (by
            simp only [List.mem_cons, List.not_mem_nil, or_false, forall_eq_or_imp, forall_eq, false_imp_iff, implies_true, true_and]
            omega) (by
          intro n hn
          show FitsR stdFl dt (hitsR (w.net (List.range 16)) dt [(1, t0), (1, τ), (4, ρ)] _ n) _
          have hin : ALI dt tsynFl [t0, τ] [a0, b0] := .cons a0i (.cons b0i .nil)
          have noin : ALI dt tsynFl [] [] := .nil
          have hre : ALI dt tsynFl [ρ] [r0] := .cons r0i .nil
          interval_cases n
          · exact FitsR.silent fun i => hits_eq rfl i
          · exact FitsR.silent fun i => hits_eq rfl i
          · exact fits_vs (l := [⟨0, 2, weFl, tsynFl, .V⟩, ⟨1, 2, Fl.of (1 / 4) * weFl, tsynFl, .V⟩, ⟨3, 2, Fl.of (1 / 2) * wiFl, tsynFl, .V⟩, ⟨4, 2, Fl.of (1 / 2) * weFl, tsynFl, .V⟩]) rfl
              (.cons ⟨rfl, w_full, noin.brings rfl rfl⟩ (.cons ⟨rfl, w_quarter, hin.brings rfl rfl⟩ (.cons ⟨rfl, w_negh, hAB.brings rfl rfl⟩ (.cons ⟨rfl, w_half, hre.brings rfl rfl⟩ .nil))))
              (evl_small (by simp)) (by simp) (smem_other (by omega) Ar0)
          · exact fits_vs (l := [⟨1, 3, weFl, tsynFl, .V⟩, ⟨0, 3, Fl.of (1 / 4) * weFl, tsynFl, .V⟩, ⟨2, 3, Fl.of (1 / 2) * wiFl, tsynFl, .V⟩, ⟨4, 3, Fl.of (1 / 2) * weFl, tsynFl, .V⟩]) rfl
              (.cons ⟨rfl, w_full, hin.brings rfl rfl⟩ (.cons ⟨rfl, w_quarter, noin.brings rfl rfl⟩ (.cons ⟨rfl, w_negh, nil.brings rfl rfl⟩ (.cons ⟨rfl, w_half, hre.brings rfl rfl⟩ .nil))))
              (evl_small (by simp)) (by simp) (smem_ready a0p ab0 br0)
          · exact FitsR.silent fun i => hits_eq rfl i
          · exact fits_vs (l := [⟨15, 5, weFl, tsynFl, .V⟩, ⟨3, 5, Fl.of 2 * wiFl, tsynFl, .V⟩]) rfl
              (.cons ⟨rfl, w_full, hxy.brings rfl rfl⟩ (.cons ⟨rfl, w_neg2, hAB.brings rfl rfl⟩ .nil)) (evl_small (by simp)) (by simp) (smem_mute (by omega) (by omega) Ax Bx xy)
          · exact fits_vs (LA := [(4, [x, y]), (-8, [])]) (l := [⟨15, 6, weFl, tsynFl, .V⟩, ⟨2, 6, Fl.of 2 * wiFl, tsynFl, .V⟩]) rfl
              (.cons ⟨rfl, w_full, hxy.brings rfl rfl⟩ (.cons ⟨rfl, w_neg2, nil.brings rfl rfl⟩ .nil)) (evl_small (by simp)) (by simp) (relay_fires x0 xy)
          · exact fits_vs (l := [⟨15, 7, weFl, tsynFl, .V⟩]) rfl (.cons ⟨rfl, w_full, hxy.brings rfl rfl⟩ .nil) (evl_small (by simp)) (by simp) (relay_fires x0 xy)
          · exact fits_vs (LA := [(4, []), (4, [a0, b0])]) (l := [⟨0, 8, weFl, tsynFl, .V⟩, ⟨1, 8, weFl, tsynFl, .V⟩]) rfl
              (.cons ⟨rfl, w_full, noin.brings rfl rfl⟩ (.cons ⟨rfl, w_full, hin.brings rfl rfl⟩ .nil)) (evl_small (by simp)) (by simp) (relay_fires a0p ab0)
          · exact fits_vs (l := [⟨8, 9, weFl, tsynFl, .V⟩, ⟨9, 9, wiFl, tsynFl, .V⟩]) rfl
              (.cons ⟨rfl, w_full, hab1.brings rfl rfl⟩ (.cons ⟨rfl, w_neg, ci.al.brings rfl rfl⟩ .nil)) (evl_small (by simp)) (by simp) (first_fires (by omega) cj cb1)
          · exact fits_vs (l := [⟨8, 10, Fl.of (1 / 2) * weFl, tsynFl, .V⟩]) rfl
              (.cons ⟨rfl, w_half, hab1.brings rfl rfl⟩ .nil) (evl_small (by simp)) (by simp) (second_fires (by omega) (cj.trans cb1))
          · refine FitsR.ramp (a := c) (k := k) (w := enc.waccFl) (by omega) (fun i => ?_) k1 k2
            rw [hits_eq (l := [⟨9, 11, enc.waccFl, tsynFl, .ge⟩]) rfl i]
            rw [List.flatMap_cons, List.flatMap_nil, contrib_one rfl rfl ci, List.append_nil]
          · refine g1.of_eq fun i => ?_
            rw [hits_eq (l := [⟨10, 12, enc.waccFl, Fl.of 2 * tsynFl, .ge⟩, ⟨11, 12, -enc.waccFl, tsynFl, .ge⟩, ⟨13, 12, enc.waccFl, tsynFl, .ge⟩]) rfl i]
            rw [List.flatMap_cons, List.flatMap_cons, List.flatMap_cons, List.flatMap_nil, contrib_one rfl rfl b2i, contrib_one rfl rfl f2i, contrib_one rfl rfl r1i, List.append_nil, List.append_assoc]
          · exact fits_vs (l := [⟨4, 13, weFl, tsynFl, .V⟩]) rfl (.cons ⟨rfl, w_full, hre.brings rfl rfl⟩ .nil) (evl_small (by simp)) (by simp) (one_fires r0p)
          · exact fits_vs (l := [⟨11, 14, weFl, tsynFl, .V⟩]) rfl (.cons ⟨rfl, w_full, f2i.al.brings rfl rfl⟩ .nil) (evl_small (by simp)) (by simp) (one_fires (by omega))
          · exact fits_vs (l := [⟨13, 15, weFl, Fl.of 2 * tsynFl, .V⟩, ⟨12, 15, weFl, tsynFl, .V⟩]) rfl
              (.cons ⟨rfl, w_full, o1i.al.brings rfl rfl⟩ (.cons ⟨rfl, w_full, o2i.al.brings rfl rfl⟩ .nil)) (evl_small (by simp)) (by simp) (join_fires (by omega) oo))
    exact ⟨st, s1, ⟨(x : Double) * dt, (y : Double) * dt, s2 6 (by norm_num), key'⟩, s2 5 (by norm_num), (x : Double) * dt, (y : Double) * dt, s2 7 (by norm_num), key'⟩

/-- A concrete case: the default encoder, dt = 0.001, the value -0.3 stored at 0 and recalled at 200. -/
example : ∃ st, sessionFl (sortedHeap _) (fun _ l => l) ⟨Fl.of 10, Fl.of 100⟩ (Fl.of (1 / 1000)) (Fl.of 400) (signedMemoryFl ⟨Fl.of 10, Fl.of 100⟩ none World.empty).2 0
      [.value (Fl.of (3 / 10)) 1 0, .spike 4 (Fl.of 200)] = .ok st ∧
      CarriesFl ⟨Fl.of 10, Fl.of 100⟩ (19 * (Fl.of (1 / 1000) : Double).val / (Fl.of 100 : Double).val) (st.spikeLog 6) (Fl.of (3 / 10) : Double).val ∧ st.spikeLog 5 = some [] ∧
      CarriesFl ⟨Fl.of 10, Fl.of 100⟩ (19 * (Fl.of (1 / 1000) : Double).val / (Fl.of 100 : Double).val) (st.spikeLog 7) (Fl.of (3 / 10) : Double).val :=
  C113_signed_memory (sortedHeap _) id_setOrder (enc := ⟨Fl.of 10, Fl.of 100⟩) (dt := Fl.of (1 / 1000)) (by decide +kernel) (by decide +kernel) (by decide +kernel)
    (by decide +kernel) (by decide +kernel) none true (v := Fl.of (3 / 10)) (t0 := 0) (by decide +kernel) (by decide +kernel) (by decide +kernel) (by decide +kernel)
    (by decide +kernel) (by decide +kernel)

/-! ## The signed constant -/

theorem signedConstantFl_neurons (enc : Encoder Double) (v name) : (signedConstantFl enc v name World.empty).2.neurons 0 = .ok (List.range 3) := by
  unfold signedConstantFl
  by_cases h : 0 ≤ v
  · simp only [if_pos h]; rfl
  · simp only [if_neg h]; rfl

theorem signedConstantFl_ports (enc : Encoder Double) (v name) : (signedConstantFl enc v name World.empty).1 = (0, 0, 1, 2) := by
  unfold signedConstantFl
  by_cases h : 0 ≤ v
  · simp only [if_pos h]; rfl
  · simp only [if_neg h]; rfl

theorem signedConstantFl_net (enc : Encoder Double) (v name) : ((signedConstantFl enc v name World.empty).2.net (List.range 3)).syns =
    if 0 ≤ v then [⟨0, 1, weFl, tsynFl, .V⟩, ⟨0, 1, weFl, tsynFl + (v * enc.Tcod + enc.Tmin), .V⟩]
    else [⟨0, 2, weFl, tsynFl, .V⟩, ⟨0, 2, weFl, tsynFl + (-v * enc.Tcod + enc.Tmin), .V⟩] := by
  unfold signedConstantFl
  by_cases h : 0 ≤ v
  · simp only [if_pos h]; rfl
  · simp only [if_neg h]; rfl

/-- The two arrivals at the output of a constant, one step apart from the exact distance. -/
theorem const_steps {enc : Encoder Double} {dt : Double}
    (hdt : 0 < dt.val) (hdt1 : dt.val ≤ 1) (hC : 0 < enc.Tcod.val) (hmin : 4 * dt.val ≤ enc.Tmin.val) (hmax : enc.Tmax.val ≤ 2 ^ 24 * dt.val)
    (hq' : 1 ≤ 2 ^ 24 * dt.val) {v ρ T D : Double} (hD : D = tsynFl + (v * enc.Tcod + enc.Tmin)) (hv0 : 0 ≤ v.val) (hv1 : v.val ≤ 1) (ht : 0 ≤ ρ.val) (ht' : ρ.val ≤ 2 ^ 48 * dt.val)
    (hT : ρ.val + enc.Tmax.val + 1 + 2 * dt.val ≤ T.val) :
    ∃ o1 o2 : ℕ, (∀ k, FirstAt dt 1 (ρ + tsynFl) k ↔ k = o1) ∧ (∀ k, FirstAt dt 1 (ρ + D) k ↔ k = o2) ∧ 0 < o1 ∧ o1 < o2 ∧ o2 ≤ numStepsFl T dt ∧
      |(enc.decodeInterval ((o2 : Double) * dt - (o1 : Double) * dt)).val - v.val| ≤ 3 * dt.val / enc.Tcod.val := by
  have hT0 : 0 ≤ enc.Tmin.val := by linarith
  have hcomm : tsynFl + (enc.Tmin + v * enc.Tcod) = D := by
    rw [hD]; exact Fl.val_injective (by rw [Fl.val_add, Fl.val_add, Fl.val_add, Fl.val_add, add_comm enc.Tmin.val])
  obtain ⟨q, q', y, n, m, pp, hq, hq2, hy, hn, hm, hpp, B1, B2, B3, B4, B5, B6, B7, B8, B9, B10, B11⟩ := units (t0 := tsynFl) hdt hdt1 hC hT0 hmax hv0 hv1
    (by rw [tsyn_val]; norm_num) (by rw [tsyn_val]; linarith)
  rw [hcomm] at hy
  rw [tsyn_val, ← hq] at hq2
  have hq3 := hq2.symm
  subst hq3
  have u0 : ∀ a : ℚ, a / dt.val * dt.val = a := fun a => div_mul_cancel₀ _ hdt.ne'
  have mv : ∀ a b : ℚ, a * dt.val ≤ b * dt.val → a ≤ b := fun a b h => le_of_mul_le_mul_right h hdt
  obtain ⟨x, hx⟩ : ∃ q, q = ρ.val / dt.val := ⟨_, rfl⟩
  have qm : q * dt.val = 1 := by rw [hq, u0]
  have xm : x * dt.val = ρ.val := by rw [hx, u0]
  have nm : n * dt.val = enc.Tmax.val := by rw [hn, u0]
  have mm : m * dt.val = enc.Tmin.val := by rw [hm, u0]
  have pm : pp * dt.val = v.val * enc.Tcod.val := by rw [hpp, u0]
  have A3 : 4 ≤ m := mv _ _ (by linarith)
  have A4 : q ≤ 2 ^ 24 := mv _ _ (by linarith)
  have A5 : x ≤ 2 ^ 48 := mv _ _ (by linarith)
  have d1 : (tsynFl : Double).val / dt.val = q := by rw [tsyn_val, hq]
  have dpos : 0 ≤ (tsynFl : Double).val := by rw [tsyn_val]; norm_num
  have big : (2 : ℚ) ^ 48 + 5 * 2 ^ 24 + 100 ≤ 2 ^ 49 := by norm_num
  obtain ⟨o1, o1i, o1p, o1l, o1u⟩ := arrives_inj (τ := ρ) (D := tsynFl) hdt ht dpos (by rw [d1, ← hx]; linarith)
  obtain ⟨o2, o2i, o2p, o2l, o2u⟩ := arrives_inj (τ := ρ) (D := D) hdt ht (by
    have : 0 ≤ y * dt.val := mul_nonneg (by linarith) hdt.le
    rwa [hy, u0] at this) (by rw [← hx, ← hy]; linarith)
  rw [d1, ← hx] at o1l o1u
  rw [← hx, ← hy] at o2l o2u
  have oo : o1 < o2 := by
    have : (o1 : ℚ) < o2 := by linarith
    exact_mod_cast this
  have W3 : (o2 : ℚ) ≤ x + q + n + 2 := by linarith
  have W4 : o2 ≤ 2 ^ 49 := by
    have : (o2 : ℚ) ≤ 2 ^ 49 := by linarith
    exact_mod_cast this
  have W5 : o2 ≤ numStepsFl T dt := by
    refine enough_steps (by omega) ?_
    rw [le_div_iff₀ hdt]
    have := mul_le_mul_of_nonneg_right W3 hdt.le
    linarith
  have hp0 : 0 ≤ v.val * enc.Tcod.val := by positivity
  have key := decoded (e := enc) (dt := dt) (v := v.val) (a := o1) (b := o2) (δ := 5 / 2) hT0 hC hmax hdt (by linarith)
    (by have := mul_le_mul_of_nonneg_right (show pp ≤ n by linarith) hdt.le; linarith) (by omega) W4 (by norm_num) (by
    rw [← mm, ← pm, ← add_mul, ← sub_mul, abs_mul, abs_of_pos hdt]
    refine mul_le_mul_of_nonneg_right ?_ hdt.le
    rw [abs_le]; constructor <;> linarith)
  have key' := key.trans (div_le_div_of_nonneg_right (mul_le_mul_of_nonneg_right (show (5 / 2 + 5 / 16 : ℚ) ≤ 3 by norm_num) hdt.le) hC.le)
  exact ⟨o1, o2, o1i, o2i, o1p, oo, W5, key'⟩

set_option maxHeartbeats 1000000 in
/-- **C113 (signed constant).** In Python floats: a `SignedConstantNetwork` with a value between -1 and 1 that is recalled at `ρ` emits the magnitude of the value on
the output of its sign, up to three simulation steps; the other output never spikes. -/
theorem C113_signed_constant (H : EventHeap Double) {ord : ℕ → List ℕ → List ℕ} (hord : SetOrder ord) {enc : Encoder Double} {dt : Double}
    (hdt : 0 < dt.val) (hdt1 : dt.val ≤ 1) (hC : 0 < enc.Tcod.val) (hmin : 4 * dt.val ≤ enc.Tmin.val) (hmax : enc.Tmax.val ≤ 2 ^ 24 * dt.val)
    (hq' : 1 ≤ 2 ^ 24 * dt.val)
    (name : Option String) {v ρ T : Double} (hv : |v.val| ≤ 1) (ht : 0 ≤ ρ.val) (ht' : ρ.val ≤ 2 ^ 48 * dt.val)
    (hT : ρ.val + enc.Tmax.val + 1 + 2 * dt.val ≤ T.val) :
    let p := (signedConstantFl enc v name World.empty).1
    let w := (signedConstantFl enc v name World.empty).2
    ∃ st, sessionFl H ord enc dt T w p.1 [.spike p.2.1 ρ] = .ok st ∧
      CarriesFl enc (3 * dt.val / enc.Tcod.val) (st.spikeLog (if 0 ≤ v.val then p.2.2.1 else p.2.2.2)) |v.val| ∧
      st.spikeLog (if 0 ≤ v.val then p.2.2.2 else p.2.2.1) = some [] := by
  intro p w
  have I0 : (([(0, ρ)] : List (ℕ × Double)).filter fun q => q.1 = 0) = [(0, ρ)] := rfl
  have hz : (0 ≤ v ↔ 0 ≤ v.val) := by rw [Fl.le_iff, Fl.val_zero]
  have hpar : ∀ n < 3, w.par n = stdFl := by
    intro n hn
    show (signedConstantFl enc v name World.empty).2.par n = stdFl
    unfold signedConstantFl
    by_cases h : 0 ≤ v
    · simp only [if_pos h]; interval_cases n <;> rfl
    · simp only [if_neg h]; interval_cases n <;> rfl
  have hports : p = (0, 0, 1, 2) := signedConstantFl_ports enc v name
  rw [hports]
  dsimp only
  have hnet := signedConstantFl_net enc v name
  by_cases h : 0 ≤ v
  · have h' := hz.mp h
    rw [abs_of_nonneg h'] at hv ⊢
    rw [if_pos h] at hnet
    obtain ⟨o1, o2, o1i, o2i, o1p, oo, W5, key'⟩ := const_steps (enc := enc) (T := T) hdt hdt1 hC hmin hmax hq' rfl h' hv ht ht' hT
    obtain ⟨st, s1, s2⟩ := lib_run H hord (enc := enc) hdt (signedConstantFl_neurons enc v name)
      hpar (by rw [hnet]; simp) (cs := [.spike 0 ρ]) (by simp [CallOK])
      (Ls := [[], [o1, o2], []]) rfl (by simp [oo]) T (by simp; omega) (by
      intro n hn
      show FitsR stdFl dt (hitsR (w.net (List.range 3)) dt [(0, ρ)] _ n) _
      have hs : ∀ n l, ([⟨0, 1, weFl, tsynFl, .V⟩, ⟨0, 1, weFl, tsynFl + (v * enc.Tcod + enc.Tmin), .V⟩] : List (Synapse Double)).filter (fun s => s.post = n) = l →
          (w.net (List.range 3)).syns.filter (fun s => s.post = n) = l := fun n l h => by rw [← h, hnet]
      interval_cases n
      · exact FitsR.silent fun i => hits_eq (hs 0 [] rfl) i
      · refine FitsR.relay (by show 0 ∉ [o1, o2]; simp; omega) fun i => ?_
        rw [hits_eq (hs 1 [⟨0, 1, weFl, tsynFl, .V⟩, ⟨0, 1, weFl, tsynFl + (v * enc.Tcod + enc.Tmin), .V⟩] rfl) i]
        rw [List.flatMap_cons, List.flatMap_cons, List.flatMap_nil, contrib_inj I0 rfl o1i, contrib_inj I0 rfl o2i, List.append_nil]
        show _ = if i ∈ [o1, o2] then _ else _
        by_cases e1 : i = o1
        · simp [e1, show o1 ≠ o2 by omega]
        · simp [e1]
      · exact FitsR.silent fun i => hits_eq (hs 2 [] rfl) i)
    rw [if_pos h', if_pos h']
    exact ⟨st, s1, ⟨(o1 : Double) * dt, (o2 : Double) * dt, s2 1 (by norm_num), key'⟩, s2 2 (by norm_num)⟩
  · have h' : ¬ 0 ≤ v.val := fun c => h (hz.mpr c)
    have hneg : (-v : Double).val = -v.val := rfl
    rw [abs_of_neg (not_le.mp h'), ← hneg] at hv ⊢
    rw [if_neg h] at hnet
    obtain ⟨o1, o2, o1i, o2i, o1p, oo, W5, key'⟩ := const_steps (enc := enc) (T := T) hdt hdt1 hC hmin hmax hq' rfl (by rw [hneg]; linarith) hv ht ht' hT
    obtain ⟨st, s1, s2⟩ := lib_run H hord (enc := enc) hdt (signedConstantFl_neurons enc v name)
      hpar (by rw [hnet]; simp) (cs := [.spike 0 ρ]) (by simp [CallOK])
      (Ls := [[], [], [o1, o2]]) rfl (by simp [oo]) T (by simp; omega) (by
      intro n hn
      show FitsR stdFl dt (hitsR (w.net (List.range 3)) dt [(0, ρ)] _ n) _
      have hs : ∀ n l, ([⟨0, 2, weFl, tsynFl, .V⟩, ⟨0, 2, weFl, tsynFl + (-v * enc.Tcod + enc.Tmin), .V⟩] : List (Synapse Double)).filter (fun s => s.post = n) = l →
          (w.net (List.range 3)).syns.filter (fun s => s.post = n) = l := fun n l h => by rw [← h, hnet]
      interval_cases n
      · exact FitsR.silent fun i => hits_eq (hs 0 [] rfl) i
      · exact FitsR.silent fun i => hits_eq (hs 1 [] rfl) i
      · refine FitsR.relay (by show 0 ∉ [o1, o2]; simp; omega) fun i => ?_
        rw [hits_eq (hs 2 [⟨0, 2, weFl, tsynFl, .V⟩, ⟨0, 2, weFl, tsynFl + (-v * enc.Tcod + enc.Tmin), .V⟩] rfl) i]
        rw [List.flatMap_cons, List.flatMap_cons, List.flatMap_nil, contrib_inj I0 rfl o1i, contrib_inj I0 rfl o2i, List.append_nil]
        show _ = if i ∈ [o1, o2] then _ else _
        by_cases e1 : i = o1
        · simp [e1, show o1 ≠ o2 by omega]
        · simp [e1])
    rw [if_neg h', if_neg h']
    exact ⟨st, s1, ⟨(o1 : Double) * dt, (o2 : Double) * dt, s2 2 (by norm_num), key'⟩, s2 1 (by norm_num)⟩

/-- A concrete case: the constant -0.25, recalled at 5. -/
example : ∃ st, sessionFl (sortedHeap _) (fun _ l => l) ⟨Fl.of 10, Fl.of 100⟩ (Fl.of (1 / 1000)) (Fl.of 400)
      (signedConstantFl ⟨Fl.of 10, Fl.of 100⟩ (-Fl.of (1 / 4)) none World.empty).2 0 [.spike 0 (Fl.of 5)] = .ok st ∧
      CarriesFl ⟨Fl.of 10, Fl.of 100⟩ (3 * (Fl.of (1 / 1000) : Double).val / (Fl.of 100 : Double).val) (st.spikeLog 2) (1 / 4) ∧ st.spikeLog 1 = some [] := by
  have := C113_signed_constant (sortedHeap _) id_setOrder (enc := ⟨Fl.of 10, Fl.of 100⟩) (dt := Fl.of (1 / 1000)) (by decide +kernel) (by decide +kernel) (by decide +kernel)
    (by decide +kernel) (by decide +kernel) (by decide +kernel) none (v := -Fl.of (1 / 4)) (ρ := Fl.of 5) (T := Fl.of 400) (by decide +kernel) (by decide +kernel) (by decide +kernel)
    (by decide +kernel)
  have e : ¬ 0 ≤ (-Fl.of (1 / 4) : Double).val := by decide +kernel
  have a : |(-Fl.of (1 / 4) : Double).val| = 1 / 4 := by decide +kernel
  simp only [if_neg e, a, signedConstantFl_ports] at this
  exact this

/-- **C113 (the same networks).** The float networks are those of `Verif/Model/Networks.lean` with every weight and delay rounded. -/
theorem C113_same_memory (enc : Encoder Double) (hT : enc.Tmax.val = enc.Tmin.val + enc.Tcod.val) (name : Option String) :
    List.Forall₂ Rounds (signedMemoryFl enc name World.empty).2.syns (signedMemoryNetwork enc.exact name World.empty).2.syns := by
  have w1 : enc.waccFl.val = fl 53 (enc.exact.wacc) := by
    rw [Encoder.waccFl, Fl.val_div, d1000, hT]; congr 1; norm_num [Encoder.wacc, Encoder.Tmax, Encoder.exact, cVt, ctm]
  have w2 : (-enc.waccFl).val = fl 53 (-enc.exact.wacc) := by rw [fl_neg, ← w1]; rfl
  have c1 : (weFl : Double).val = fl 53 10 := by decide +kernel
  have c2 : (Fl.of (1 / 2) * weFl : Double).val = fl 53 (1 / 2 * 10) := by decide +kernel
  have c3 : (wiFl : Double).val = fl 53 (-10) := by decide +kernel
  have c4 : (tsynFl : Double).val = fl 53 1 := by decide +kernel
  have c5 : (Fl.of 2 * tsynFl : Double).val = fl 53 (2 * 1) := by decide +kernel
  have c6 : (Fl.of (1 / 4) * weFl : Double).val = fl 53 (1 / 4 * 10) := by decide +kernel
  have c7 : (Fl.of (1 / 2) * wiFl : Double).val = fl 53 (1 / 2 * -10) := by decide +kernel
  have c8 : (Fl.of 2 * wiFl : Double).val = fl 53 (2 * -10) := by decide +kernel
  show List.Forall₂ Rounds [⟨15, 7, weFl, tsynFl, .V⟩, ⟨3, 5, Fl.of 2 * wiFl, tsynFl, .V⟩, ⟨2, 6, Fl.of 2 * wiFl, tsynFl, .V⟩, ⟨15, 6, weFl, tsynFl, .V⟩, ⟨15, 5, weFl, tsynFl, .V⟩,
      ⟨4, 13, weFl, tsynFl, .V⟩, ⟨1, 8, weFl, tsynFl, .V⟩, ⟨0, 8, weFl, tsynFl, .V⟩, ⟨4, 3, Fl.of (1 / 2) * weFl, tsynFl, .V⟩, ⟨4, 2, Fl.of (1 / 2) * weFl, tsynFl, .V⟩,
      ⟨3, 2, Fl.of (1 / 2) * wiFl, tsynFl, .V⟩, ⟨2, 3, Fl.of (1 / 2) * wiFl, tsynFl, .V⟩, ⟨1, 2, Fl.of (1 / 4) * weFl, tsynFl, .V⟩, ⟨0, 3, Fl.of (1 / 4) * weFl, tsynFl, .V⟩,
      ⟨1, 3, weFl, tsynFl, .V⟩, ⟨0, 2, weFl, tsynFl, .V⟩,
      ⟨11, 14, weFl, tsynFl, .V⟩, ⟨12, 15, weFl, tsynFl, .V⟩, ⟨13, 15, weFl, Fl.of 2 * tsynFl, .V⟩, ⟨13, 12, enc.waccFl, tsynFl, .ge⟩, ⟨11, 12, -enc.waccFl, tsynFl, .ge⟩,
      ⟨10, 12, enc.waccFl, Fl.of 2 * tsynFl, .ge⟩, ⟨9, 11, enc.waccFl, tsynFl, .ge⟩, ⟨9, 9, wiFl, tsynFl, .V⟩, ⟨8, 10, Fl.of (1 / 2) * weFl, tsynFl, .V⟩,
      ⟨8, 9, weFl, tsynFl, .V⟩]
    [⟨15, 7, 10, 1, .V⟩, ⟨3, 5, 2 * -10, 1, .V⟩, ⟨2, 6, 2 * -10, 1, .V⟩, ⟨15, 6, 10, 1, .V⟩, ⟨15, 5, 10, 1, .V⟩,
      ⟨4, 13, 10, 1, .V⟩, ⟨1, 8, 10, 1, .V⟩, ⟨0, 8, 10, 1, .V⟩, ⟨4, 3, 1 / 2 * 10, 1, .V⟩, ⟨4, 2, 1 / 2 * 10, 1, .V⟩,
      ⟨3, 2, 1 / 2 * -10, 1, .V⟩, ⟨2, 3, 1 / 2 * -10, 1, .V⟩, ⟨1, 2, 1 / 4 * 10, 1, .V⟩, ⟨0, 3, 1 / 4 * 10, 1, .V⟩, ⟨1, 3, 10, 1, .V⟩, ⟨0, 2, 10, 1, .V⟩,
      ⟨11, 14, 10, 1, .V⟩, ⟨12, 15, 10, 1, .V⟩, ⟨13, 15, 10, 2 * 1, .V⟩, ⟨13, 12, enc.exact.wacc, 1, .ge⟩, ⟨11, 12, -enc.exact.wacc, 1, .ge⟩,
      ⟨10, 12, enc.exact.wacc, 2 * 1, .ge⟩, ⟨9, 11, enc.exact.wacc, 1, .ge⟩, ⟨9, 9, -10, 1, .V⟩, ⟨8, 10, 1 / 2 * 10, 1, .V⟩, ⟨8, 9, 10, 1, .V⟩]
  simp only [List.forall₂_cons, Rounds, w1, w2, c1, c2, c3, c4, c5, c6, c7, c8, true_and, and_self, List.forall₂_nil_left_iff]

end Axon
