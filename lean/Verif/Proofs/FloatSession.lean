import Verif.Proofs.FloatRamp
import Verif.Spec.FloatSession

/-! # Sessions in doubles: arrival steps and logs -/
set_option linter.unusedSectionVars false
namespace Axon
open Spec

theorem filter_sorted {L : List ℕ} {N : ℕ} (hs : L.Pairwise (· < ·)) (hb : ∀ i ∈ L, 1 ≤ i ∧ i ≤ N) : (List.range' 1 N).filter (fun i => i ∈ L) = L := by
  refine (List.perm_ext_iff_of_nodup (((List.pairwise_lt_range' 1).imp fun h => h.ne).filter _) (hs.imp (fun h => h.ne))).mpr (fun i => ?_) |>.eq_of_pairwise (le := (· < ·))
    (fun a b _ _ h1 h2 => by omega) ((List.pairwise_lt_range' 1).filter _) hs
  simp only [List.mem_filter, List.mem_range'_1, decide_eq_true_eq]
  constructor
  · exact fun h => h.2
  · intro h; have := hb i h; exact ⟨by omega, h⟩

/-- The outcome of a session whose spikes are known. -/
theorem session_run (H : EventHeap Double) {ord} (hord : SetOrder ord) {enc : Encoder Double} {dt : Double} (hdt : 0 < dt) {w : World Double} {m : ℕ}
    {ns : List ℕ} (hns : w.neurons m = .ok ns) (wf : WellFormed (w.net ns)) {cs : List (Call Double)} (hcs : ∀ c ∈ cs, CallOK c) {LS : ℕ → List ℕ}
    (hpar : ∀ n ∈ ns, w.par n = stdFl)
    (hsort : ∀ n, (LS n).Pairwise (· < ·)) (hout : ∀ n, n ∉ ns → LS n = [])
    (hfit : ∀ n ∈ ns, FitsR stdFl dt (hitsR (w.net ns) dt (cs.flatMap (callSpikesR enc)) LS n) (LS n)) (T : Double)
    (hT : ∀ n, ∀ i ∈ LS n, 1 ≤ i ∧ i ≤ numStepsFl T dt) :
    ∃ st, sessionFl H ord enc dt T w m cs = .ok st ∧
      ∀ n ∈ ns, st.spikeLog n = some (injTimes (cs.flatMap (callSpikesR enc)) n ++ (LS n).map fun i : ℕ => (i : Double) * dt) := by
  have hrest : Resting (w.net ns) (fun _ => ⟨0, 0, 0, 0⟩) := by
    intro n hn
    have : (w.net ns).par n = stdFl := hpar n hn
    rw [this]
    exact ⟨lt0, rfl, rfl, rfl⟩
  obtain ⟨st0, h0, S, F, B, hr, hall⟩ := C72_doubles H hord wf hdt enc cs hcs hrest
  have hF := consistR wf hr (LS := LS) (fun n => (hsort n).imp (fun h => h.ne)) hout (fun n hn => by
    have : (w.net ns).par n = stdFl := hpar n hn
    rw [this]; exact hfit n hn)
  obtain ⟨st, h1, h2⟩ := hall T
  refine ⟨st, ?_, fun n hn => ?_⟩
  · unfold sessionFl
    rw [hns]; dsimp only
    rw [h0]; exact h1
  · rw [h2.spikes n hn]
    congr 2
    unfold emitted
    have : (fun i => F i n) = fun i => decide (i ∈ LS n) := funext fun i => hF i n
    rw [this, filter_sorted (hsort n) (hT n)]

/-- A spike fired in step `j` arrives after a delay `D` in one step, which is `j + D/dt` up to the rounding to the grid and one step. -/
theorem arrives {dt D : Double} (hdt : 0 < dt.val) (hD : 0 ≤ D.val) {j : ℕ} (hb : (j : ℚ) + D.val / dt.val ≤ 2 ^ 49) :
    ∃ i, (∀ k, FirstAt dt (j + 1) ((j : Double) * dt + D) k ↔ k = i) ∧ j < i ∧ (j : ℚ) + D.val / dt.val - 1 ≤ i ∧ (i : ℚ) ≤ j + D.val / dt.val + 2 := by
  have hq : 0 ≤ D.val / dt.val := by positivity
  have e : arrInt dt.val j D.val = max (j + 1) ⌈(j : ℚ) + D.val / dt.val⌉₊ := by
    unfold arrInt firstStep
    rw [add_div, mul_div_cancel_right₀ _ hdt.ne']
  have hc1 := Nat.le_ceil ((j : ℚ) + D.val / dt.val)
  have hc2 := Nat.ceil_lt_add_one (show 0 ≤ (j : ℚ) + D.val / dt.val by positivity)
  have l1 : (j : ℚ) + D.val / dt.val ≤ arrInt dt.val j D.val := by
    rw [e]; push_cast; exact hc1.trans (le_max_right _ _)
  have l2 : (arrInt dt.val j D.val : ℚ) ≤ j + D.val / dt.val + 1 := by
    rw [e]; push_cast; exact max_le (by linarith) hc2.le
  have hlt : arrInt dt.val j D.val < 2 ^ 50 := by
    have : (arrInt dt.val j D.val : ℚ) < 2 ^ 50 := by
      have h2' : (2 : ℚ) ^ 49 + 1 < 2 ^ 50 := by norm_num
      linarith
    exact_mod_cast this
  obtain ⟨i, h1, h2, h3⟩ := C73_arrival_within_one_step dt D hdt j hlt
  refine ⟨i, fun k => ⟨fun h => h.unique h1, fun h => h ▸ h1⟩, h1.1, ?_, ?_⟩
  · have : (arrInt dt.val j D.val : ℚ) ≤ i + 1 := by exact_mod_cast h3
    linarith
  · have : (i : ℚ) ≤ arrInt dt.val j D.val + 1 := by exact_mod_cast h2
    linarith

/-- A spike injected at time `τ` arrives after a delay `D` in one step, which is `(τ + D)/dt` up to one step. -/
theorem arrives_inj {dt τ D : Double} (hdt : 0 < dt.val) (hτ : 0 ≤ τ.val) (hD : 0 ≤ D.val) (hb : τ.val / dt.val + D.val / dt.val ≤ 2 ^ 49) :
    ∃ i, (∀ k, FirstAt dt 1 (τ + D) k ↔ k = i) ∧ 0 < i ∧ τ.val / dt.val + D.val / dt.val - 1 ≤ i ∧ (i : ℚ) ≤ τ.val / dt.val + D.val / dt.val + 1 := by
  have e : arrInj dt.val τ.val D.val = max 1 ⌈τ.val / dt.val + D.val / dt.val⌉₊ := by
    unfold arrInj firstStep
    rw [add_div]
  have h0 : 0 ≤ τ.val / dt.val + D.val / dt.val := by positivity
  have hc1 := Nat.le_ceil (τ.val / dt.val + D.val / dt.val)
  have hc2 := Nat.ceil_lt_add_one h0
  have l1 : τ.val / dt.val + D.val / dt.val ≤ arrInj dt.val τ.val D.val := by
    rw [e]; push_cast; exact hc1.trans (le_max_right _ _)
  have l2 : (arrInj dt.val τ.val D.val : ℚ) ≤ τ.val / dt.val + D.val / dt.val + 1 := by
    rw [e]; push_cast; exact max_le (by linarith) hc2.le
  have hlt : arrInj dt.val τ.val D.val < 2 ^ 50 := by
    have : (arrInj dt.val τ.val D.val : ℚ) < 2 ^ 50 := by
      have h2' : (2 : ℚ) ^ 49 + 1 < 2 ^ 50 := by norm_num
      linarith
    exact_mod_cast this
  obtain ⟨i, h1, h2, h3⟩ := C73_injected dt τ D hdt hlt
  refine ⟨i, fun k => ⟨fun h => h.unique h1, fun h => h ▸ h1⟩, h1.1, ?_, ?_⟩
  · have : (arrInj dt.val τ.val D.val : ℚ) ≤ i + 1 := by exact_mod_cast h3
    linarith
  · have : (i : ℚ) ≤ arrInj dt.val τ.val D.val := by exact_mod_cast h2
    linarith

/-! ### What the synapses deliver -/

/-- What one synapse delivers in step `i`. -/
def contrib (dt : Double) (inj : List (ℕ × Double)) (LS : ℕ → List ℕ) (i : ℕ) (s : Synapse Double) : List (SynKind × Double) :=
  (inj.filter fun q => q.1 = s.pre ∧ FirstAt dt 1 (q.2 + s.delay) i).map (fun _ => (s.kind, s.weight)) ++
    ((LS s.pre).filter fun j => FirstAt dt (j + 1) ((j : Double) * dt + s.delay) i).map (fun _ => (s.kind, s.weight))

theorem hits_eq {net : Net Double} {dt : Double} {inj : List (ℕ × Double)} {LS : ℕ → List ℕ} {n : ℕ} {l : List (Synapse Double)}
    (h : (net.syns.filter fun s => s.post = n) = l) (i : ℕ) : hitsR net dt inj LS n i = l.flatMap (contrib dt inj LS i) := by
  unfold hitsR; rw [h]; rfl

variable {dt : Double} {inj : List (ℕ × Double)} {LS : ℕ → List ℕ}

theorem filter_pre (pre : ℕ) (P : Double → Prop) [DecidablePred P] :
    (inj.filter fun q => q.1 = pre ∧ P q.2) = (inj.filter fun q => q.1 = pre).filter fun q => P q.2 := by
  rw [List.filter_filter]
  congr 1; funext q
  simp [and_comm]

/-- From a neuron that fires once and gets no injections. -/
theorem contrib_one {pre post : ℕ} {k : SynKind} {w D : Double} {j a : ℕ} (h1 : (inj.filter fun q => q.1 = pre) = []) (h2 : LS pre = [j])
    (ha : ∀ i, FirstAt dt (j + 1) ((j : Double) * dt + D) i ↔ i = a) (i : ℕ) :
    contrib dt inj LS i ⟨pre, post, w, D, k⟩ = if i = a then [(k, w)] else [] := by
  unfold contrib
  dsimp only
  rw [filter_pre pre (fun t => FirstAt dt 1 (t + D) i), h1, h2]
  by_cases h : i = a
  · simp [ha, h]
  · simp [ha, h]

/-- From a neuron that gets one injection and never fires. -/
theorem contrib_inj {pre post : ℕ} {k : SynKind} {w D τ : Double} {a : ℕ} (h1 : (inj.filter fun q => q.1 = pre) = [(pre, τ)]) (h2 : LS pre = [])
    (ha : ∀ i, FirstAt dt 1 (τ + D) i ↔ i = a) (i : ℕ) :
    contrib dt inj LS i ⟨pre, post, w, D, k⟩ = if i = a then [(k, w)] else [] := by
  unfold contrib
  dsimp only
  rw [filter_pre pre (fun t => FirstAt dt 1 (t + D) i), h1, h2]
  by_cases h : i = a
  · simp [ha, h]
  · simp [ha, h]

/-- From a neuron that gets two injections and never fires. -/
theorem contrib_inj2 {pre post : ℕ} {k : SynKind} {w D τ τ' : Double} {a b : ℕ} (h1 : (inj.filter fun q => q.1 = pre) = [(pre, τ), (pre, τ')]) (h2 : LS pre = [])
    (ha : ∀ i, FirstAt dt 1 (τ + D) i ↔ i = a) (hb : ∀ i, FirstAt dt 1 (τ' + D) i ↔ i = b) (hab : a ≠ b) (i : ℕ) :
    contrib dt inj LS i ⟨pre, post, w, D, k⟩ = if i = a ∨ i = b then [(k, w)] else [] := by
  unfold contrib
  dsimp only
  rw [filter_pre pre (fun t => FirstAt dt 1 (t + D) i), h1, h2]
  by_cases h : i = a
  · simp [ha, hb, h, hab]
  · by_cases h' : i = b
    · simp [ha, hb, h', hab.symm]
    · simp [ha, hb, h, h']

/-! ### Roundings of moderate numbers -/

theorem fl_small {x t : ℚ} (h : |x| ≤ 2 ^ 49 * t) : |fl 53 x - x| ≤ t / 16 := by
  refine (fl_err (p := 53) x).trans ?_
  rw [div_le_iff₀ (by positivity)]
  have : t / 16 * 2 ^ 53 = 2 ^ 49 * t := by ring
  rw [this]; exact h

theorem tmin_le {e : Encoder Double} (hC0 : 0 ≤ e.Tcod.val) : e.Tmin.val ≤ e.Tmax.val := by
  rw [Encoder.Tmax, Fl.val_add]
  conv_lhs => rw [← e.Tmin.exact]
  exact fl_mono (by linarith)

/-- The interval that encodes a value, and the time of the second injected spike. -/
theorem encoded {e : Encoder Double} {dt v t0 : Double} (hT0 : 0 ≤ e.Tmin.val) (hC0 : 0 ≤ e.Tcod.val) (hT : e.Tmax.val ≤ 2 ^ 24 * dt.val)
    (hv0 : 0 ≤ v.val) (hv1 : v.val ≤ 1) (ht : 0 ≤ t0.val) (ht' : t0.val ≤ 2 ^ 48 * dt.val) (hdt : 0 < dt.val) :
    |(t0 + (e.Tmin + v * e.Tcod)).val - (t0.val + (e.Tmin.val + v.val * e.Tcod.val))| ≤ 3 / 16 * dt.val ∧
    |e.Tmax.val - (e.Tmin.val + e.Tcod.val)| ≤ 1 / 16 * dt.val := by
  have hm1 : e.Tmin.val ≤ e.Tmax.val := by
    rw [Encoder.Tmax, Fl.val_add]
    conv_lhs => rw [← e.Tmin.exact]
    exact fl_mono (by linarith)
  have hm2 : e.Tcod.val ≤ e.Tmax.val := by
    rw [Encoder.Tmax, Fl.val_add]
    conv_lhs => rw [← e.Tcod.exact]
    exact fl_mono (by linarith)
  have hp0 : 0 ≤ v.val * e.Tcod.val := by positivity
  have hp1 : v.val * e.Tcod.val ≤ e.Tcod.val := mul_le_of_le_one_left hC0 hv1
  have r1 := abs_le.mp (fl_small (x := v.val * e.Tcod.val) (t := dt.val) (by rw [abs_of_nonneg hp0]; linarith))
  rw [Fl.val_add, Fl.val_add, Fl.val_mul]
  generalize fl 53 (v.val * e.Tcod.val) = A at *
  have r2 := abs_le.mp (fl_small (x := e.Tmin.val + A) (t := dt.val) (by rw [abs_le]; constructor <;> linarith))
  generalize fl 53 (e.Tmin.val + A) = B at *
  have r3 := abs_le.mp (fl_small (x := t0.val + B) (t := dt.val) (by rw [abs_le]; constructor <;> linarith))
  generalize fl 53 (t0.val + B) = C at *
  refine ⟨by rw [abs_le]; constructor <;> linarith, ?_⟩
  rw [Encoder.Tmax, Fl.val_add]
  have := fl_small (x := e.Tmin.val + e.Tcod.val) (t := dt.val) (by rw [abs_of_nonneg (by linarith)]; linarith)
  linarith

/-- Reading two spikes at the steps `a` and `b`. -/
theorem decoded_any {e : Encoder Double} {dt : Double} {v : ℚ} (hT0 : 0 ≤ e.Tmin.val) (hC0 : 0 < e.Tcod.val) (hT : e.Tmax.val ≤ 2 ^ 24 * dt.val)
    (hdt : 0 < dt.val) (hv0 : -(2 ^ 24 * dt.val) ≤ v * e.Tcod.val) (hv1 : v * e.Tcod.val ≤ 2 ^ 24 * dt.val) {a b : ℕ} (ha : a ≤ 2 ^ 49) (hb : b ≤ 2 ^ 49) {δ : ℚ} (hδ : δ ≤ 2 ^ 26)
    (h : |((b : ℚ) - a) * dt.val - (e.Tmin.val + v * e.Tcod.val)| ≤ δ * dt.val) :
    |(e.decodeInterval ((b : Double) * dt - (a : Double) * dt)).val - v| ≤ (δ + 5 / 16) * dt.val / e.Tcod.val := by
  have hm1 : e.Tmin.val ≤ e.Tmax.val := by
    rw [Encoder.Tmax, Fl.val_add]
    conv_lhs => rw [← e.Tmin.exact]
    exact fl_mono (by linarith)
  have ha' : (a : ℚ) ≤ 2 ^ 49 := by exact_mod_cast ha
  have hb' : (b : ℚ) ≤ 2 ^ 49 := by exact_mod_cast hb
  have ra := abs_le.mp (fl_small (x := a * dt.val) (t := dt.val) (by rw [abs_of_nonneg (by positivity)]; exact mul_le_mul_of_nonneg_right ha' hdt.le))
  have rb := abs_le.mp (fl_small (x := b * dt.val) (t := dt.val) (by rw [abs_of_nonneg (by positivity)]; exact mul_le_mul_of_nonneg_right hb' hdt.le))
  rw [sub_mul] at h
  have h' := abs_le.mp h
  have hδ' : δ * dt.val ≤ 2 ^ 26 * dt.val := mul_le_mul_of_nonneg_right hδ hdt.le
  rw [Encoder.decodeInterval, Fl.val_div, Fl.val_sub, Fl.val_sub, tick_val (by omega), tick_val (by omega)]
  generalize fl 53 (a * dt.val) = A at *
  generalize fl 53 (b * dt.val) = B at *
  have r2 := abs_le.mp (fl_small (x := B - A) (t := dt.val) (by rw [abs_le]; constructor <;> linarith))
  generalize fl 53 (B - A) = D at *
  have r3 := abs_le.mp (fl_small (x := D - e.Tmin.val) (t := dt.val) (by rw [abs_le]; constructor <;> linarith))
  generalize fl 53 (D - e.Tmin.val) = E at *
  have r4 := abs_le.mp (fl_small (x := E / e.Tcod.val) (t := dt.val / e.Tcod.val) (by
    rw [abs_div, abs_of_pos hC0, ← mul_div_assoc]
    refine div_le_div_of_nonneg_right ?_ hC0.le
    rw [abs_le]; constructor <;> linarith))
  generalize fl 53 (E / e.Tcod.val) = F at *
  have q1 : E / e.Tcod.val - v ≤ (δ + 1 / 4) * dt.val / e.Tcod.val := by
    rw [sub_le_iff_le_add, div_le_iff₀ hC0, add_mul, div_mul_cancel₀ _ hC0.ne']; linarith
  have q2 : -((δ + 1 / 4) * dt.val / e.Tcod.val) ≤ E / e.Tcod.val - v := by
    rw [neg_le_sub_iff_le_add, ← sub_le_iff_le_add', le_div_iff₀ hC0, sub_mul, div_mul_cancel₀ _ hC0.ne']; linarith
  have q3 : (δ + 5 / 16) * dt.val / e.Tcod.val = (δ + 1 / 4) * dt.val / e.Tcod.val + dt.val / e.Tcod.val / 16 := by ring
  rw [q3, abs_le]
  constructor <;> linarith

theorem decoded {e : Encoder Double} {dt : Double} {v : ℚ} (hT0 : 0 ≤ e.Tmin.val) (hC0 : 0 < e.Tcod.val) (hT : e.Tmax.val ≤ 2 ^ 24 * dt.val)
    (hdt : 0 < dt.val) (hv0 : -(2 ^ 24 * dt.val) ≤ v * e.Tcod.val) (hv1 : v * e.Tcod.val ≤ 2 ^ 24 * dt.val) {a b : ℕ} (ha : a ≤ 2 ^ 49) (hb : b ≤ 2 ^ 49) {δ : ℚ} (hδ : δ ≤ 20)
    (h : |((b : ℚ) - a) * dt.val - (e.Tmin.val + v * e.Tcod.val)| ≤ δ * dt.val) :
    |(e.decodeInterval ((b : Double) * dt - (a : Double) * dt)).val - v| ≤ (δ + 5 / 16) * dt.val / e.Tcod.val :=
  decoded_any hT0 hC0 hT hdt hv0 hv1 ha hb (hδ.trans (by norm_num)) h

/-- Enough time for `k` steps. -/
theorem enough_steps {T dt : Double} {k : ℕ} (hk : k ≤ 2 ^ 53) (h : (k : ℚ) ≤ T.val / dt.val) : k ≤ numStepsFl T dt := by
  unfold numStepsFl
  rw [Fl.val_div]
  have h1 : (k : ℚ) ≤ fl 53 (T.val / dt.val) := by
    have := fl_mono (p := 53) h
    rwa [fl_nat _ (by exact_mod_cast hk)] at this
  have h2 : (k : ℤ) ≤ ⌊fl 53 (T.val / dt.val)⌋ := Int.le_floor.mpr (by exact_mod_cast h1)
  omega


/-- The outcome of a session on a network of `N` standard neurons whose spikes are known. -/
theorem lib_run (H : EventHeap Double) {ord} (hord : SetOrder ord) {enc : Encoder Double} {dt : Double} (hdt : 0 < dt) {w : World Double} {N : ℕ}
    (hns : w.neurons 0 = .ok (List.range N)) (hpar : ∀ n < N, w.par n = stdFl)
    (hsyn : ∀ s ∈ (w.net (List.range N)).syns, s.post < N ∧ (s.kind = .V ∨ s.kind = .ge ∨ s.kind = .gf ∨ s.kind = .gate))
    {cs : List (Call Double)} (hcs : ∀ c ∈ cs, CallOK c) {Ls : List (List ℕ)} (hN : Ls.length = N) (hsort : ∀ L ∈ Ls, L.Pairwise (· < ·)) (T : Double)
    (hT : ∀ L ∈ Ls, ∀ i ∈ L, 1 ≤ i ∧ i ≤ numStepsFl T dt)
    (hfit : ∀ n < N, FitsR stdFl dt (hitsR (w.net (List.range N)) dt (cs.flatMap (callSpikesR enc)) (fun n => Ls.getD n []) n) (Ls.getD n [])) :
    ∃ st, sessionFl H ord enc dt T w 0 cs = .ok st ∧
      ∀ n < N, st.spikeLog n = some (injTimes (cs.flatMap (callSpikesR enc)) n ++ (Ls.getD n []).map fun i : ℕ => (i : Double) * dt) := by
  have h10 : stdFl.tm ≠ 0 := by decide +kernel
  have h20 : stdFl.tf ≠ 0 := by decide +kernel
  have hp : ∀ n ∈ (w.net (List.range N)).neurons, (w.net (List.range N)).par n = stdFl := fun n hn => hpar n (List.mem_range.mp hn)
  have wf : WellFormed (w.net (List.range N)) :=
    ⟨fun s hs => List.mem_range.mpr (hsyn s hs).1, fun s hs => (hsyn s hs).2, fun n hn => by rw [hp n hn]; exact h10,
      fun n hn => by rw [hp n hn]; exact h20, fun n hn => by rw [hp n hn]; exact lt0⟩
  have hout : ∀ n, N ≤ n → Ls.getD n [] = [] := fun n hn => by
    rw [List.getD_eq_getElem?_getD, List.getElem?_eq_none (by omega)]; rfl
  have hin : ∀ n, n < N → Ls.getD n [] ∈ Ls := fun n hn => by
    rw [List.getD_eq_getElem?_getD, List.getElem?_eq_getElem (by omega)]; exact List.getElem_mem _
  obtain ⟨st, h1, h2⟩ := session_run H hord hdt hns wf hcs (LS := fun n => Ls.getD n []) (fun n hn => hpar n (List.mem_range.mp hn))
    (fun n => by
      by_cases hn : n < N
      · exact hsort _ (hin n hn)
      · rw [hout n (by omega)]; exact List.Pairwise.nil)
    (fun n hn => hout n (by simpa using hn)) (fun n hn => hfit n (List.mem_range.mp hn)) T
    (fun n i hi => by
      by_cases hn : n < N
      · exact hT _ (hin n hn) i hi
      · rw [hout n (by omega)] at hi; cases hi)
  exact ⟨st, h1, fun n hn => h2 n (List.mem_range.mpr hn)⟩

/-- The second spike of an injected value, in units of the step. -/
theorem units {e : Encoder Double} {dt v t0 : Double} (hdt : 0 < dt.val) (hdt1 : dt.val ≤ 1) (hC : 0 < e.Tcod.val) (hT0 : 0 ≤ e.Tmin.val)
    (hmax : e.Tmax.val ≤ 2 ^ 24 * dt.val)
    (hv0 : 0 ≤ v.val) (hv1 : v.val ≤ 1) (ht : 0 ≤ t0.val) (ht' : t0.val ≤ 2 ^ 48 * dt.val) :
    ∃ q x y n m p : ℚ, q = 1 / dt.val ∧ x = t0.val / dt.val ∧ y = (t0 + (e.Tmin + v * e.Tcod)).val / dt.val ∧ n = e.Tmax.val / dt.val ∧
      m = e.Tmin.val / dt.val ∧ p = v.val * e.Tcod.val / dt.val ∧ 1 ≤ q ∧ 0 ≤ x ∧ x ≤ 2 ^ 48 ∧ n ≤ 2 ^ 24 ∧ m ≤ n ∧ 0 ≤ m ∧ 0 ≤ p ∧ m + p ≤ n + 1 / 16 ∧
      -(3 / 16) ≤ y - x - (m + p) ∧ y - x - (m + p) ≤ 3 / 16 ∧ |n - (m + e.Tcod.val / dt.val)| ≤ 1 / 16 := by
  obtain ⟨eτ, eM⟩ := encoded (t0 := t0) (dt := dt) hT0 hC.le hmax hv0 hv1 ht ht' hdt
  have hp0 : 0 ≤ v.val * e.Tcod.val := by positivity
  have hp1 : v.val * e.Tcod.val ≤ e.Tcod.val := mul_le_of_le_one_left hC.le hv1
  have eτ' := abs_le.mp eτ
  have eM' := abs_le.mp eM
  have hm := tmin_le (e := e) hC.le
  refine ⟨_, _, _, _, _, _, rfl, rfl, rfl, rfl, rfl, rfl, ?_, ?_, ?_, ?_, ?_, ?_, ?_, ?_, ?_, ?_, ?_⟩
  · rw [le_div_iff₀ hdt]; linarith
  · positivity
  · rw [div_le_iff₀ hdt]; exact ht'
  · rw [div_le_iff₀ hdt]; exact hmax
  · exact div_le_div_of_nonneg_right hm hdt.le
  · positivity
  · positivity
  · rw [← add_div, div_le_iff₀ hdt, add_mul, div_mul_cancel₀ _ hdt.ne']; linarith
  · rw [← add_div, ← sub_div, ← sub_div, le_div_iff₀ hdt]; linarith
  · rw [← add_div, ← sub_div, ← sub_div, div_le_iff₀ hdt]; linarith
  · rw [← add_div, ← sub_div, abs_div, abs_of_pos hdt, div_le_iff₀ hdt]; exact eM

end Axon
