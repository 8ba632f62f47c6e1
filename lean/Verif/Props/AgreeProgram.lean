import Verif.Props.EndToEnd
import Verif.Props.PredProgram

/-! # C108: compiled programs converge linearly, and both simulators agree on them -/
set_option linter.unusedSectionVars false
namespace Axon
open Spec

/-- Every node in range can be budgeted with an error proportional to the time step. -/
theorem budget_linear {zeros : Prop} {h : SHeap ℝ} (ho : OperandsOlder h) (ha : AritiesOK h) (hd : DataOK h) {r : ℝ} (hr : 0 < r) :
    ∀ v < h.length, (∀ u, Spec.Reach h v u → InRange zeros h r u) →
      ∃ D, ∃ C ≥ 0, ∃ d0 > 0, ∀ dt, 0 < dt → dt ≤ d0 → (zeros → ∃ k : ℕ, (k : ℝ) * dt = 1) → Budget h r dt v (h.data v) (C * dt) D := by
  intro v
  induction v using Nat.strong_induction_on with
  | _ v ih =>
    intro hv hR
    have hself := hR v .refl
    have har := ha v hv
    have sub : ∀ u ∈ h.prev v, ∃ D, ∃ C ≥ 0, ∃ d0 > 0, ∀ dt, 0 < dt → dt ≤ d0 → (zeros → ∃ k : ℕ, (k : ℝ) * dt = 1) →
        Budget h r dt u (h.data u) (C * dt) D := fun u hu =>
      ih u (ho v hv u hu) ((ho v hv u hu).trans hv) (fun y hy => hR y (.head hu hy))
    have hdat := hd v hv
    unfold InRange at hself
    cases hop : h.op v with
    | load =>
      simp only [hop] at hself har
      refine ⟨112, 1, zero_le_one, 1, one_pos, fun dt h0 h1 hk => ?_⟩
      exact .load hop (List.length_eq_zero_iff.mp har) hself (by linarith) (by linarith)
    | neg =>
      simp only [hop] at har
      obtain ⟨u, hp⟩ := List.length_eq_one_iff.mp har
      have hval := hdat (by rw [hop]; simp)
      rw [hop, hp] at hval
      simp only [opValue, List.map_cons, List.map_nil, Option.some.injEq] at hval
      obtain ⟨D, C, hC, d, hd0, hdB⟩ := sub u (by rw [hp]; simp)
      refine ⟨D + 4, C, hC, min d 1, lt_min hd0 one_pos, fun dt h0 h1 hk => ?_⟩
      rw [← hval]
      exact .neg hop hp (hdB dt h0 (h1.trans (min_le_left _ _)) hk) (by linarith [h1.trans (min_le_right _ _)])
    | add =>
      simp only [hop] at har
      obtain ⟨u₁, u₂, hp⟩ := List.length_eq_two.mp har
      have hval := hdat (by rw [hop]; simp)
      rw [hop, hp] at hval
      simp only [opValue, List.map_cons, List.map_nil, Option.some.injEq] at hval
      simp only [hop, hp] at hself
      obtain ⟨hpos, hneg, hz⟩ := hself
      obtain ⟨D₁, C₁, hC₁, d₁, hd₁, hB₁⟩ := sub u₁ (by rw [hp]; simp)
      obtain ⟨D₂, C₂, hC₂, d₂, hd₂, hB₂⟩ := sub u₂ (by rw [hp]; simp)
      have hCC : 0 < C₁ + C₂ + 1 := by linarith
      set P := (max (h.data u₁) 0 + max (h.data u₂) 0) / r * 100 with hP
      set N := (max (-h.data u₁) 0 + max (-h.data u₂) 0) / r * 100 with hN
      set s := (h.data u₁ + h.data u₂) / r * 100 with hs
      have hP' : P < 100 := by
        have := (div_lt_one hr).mpr hpos; linarith
      have hN' : N < 100 := by
        have := (div_lt_one hr).mpr hneg; linarith
      obtain ⟨z, hz0, hz1⟩ : ∃ z : ℝ, 0 < z ∧ ∀ e, 0 < e → e ≤ z → (4 * e ≤ s ∨ s + 5 * e + 1 / 100 ≤ 0) := by
        rcases hz with hz | hz
        · have : 0 < s := by positivity
          exact ⟨s / 4, by positivity, fun e _ he => .inl (by linarith)⟩
        · have : s < -(1 / 100) := by
            have h3 : (h.data u₁ + h.data u₂) / r < -(1 / 10000) := by rw [div_lt_iff₀ hr]; linarith
            linarith
          exact ⟨(-(1 / 100) - s) / 5, by linarith, fun e _ he => .inr (by linarith)⟩
      obtain ⟨e, e0, he⟩ := small_enough [(100 - P) / 4, (100 - N) / 4, z, 1 / 50] (by
        intro b hb; simp at hb
        rcases hb with rfl | rfl | rfl | rfl <;> first | positivity | linarith | norm_num)
      simp only [List.mem_cons, List.not_mem_nil, or_false, forall_eq_or_imp, forall_eq] at he
      obtain ⟨e2, e3, e4, e5⟩ := he
      refine ⟨max D₁ D₂ + 372, C₁ + C₂ + 4, by linarith, min (e / (C₁ + C₂ + 1)) (min d₁ d₂), lt_min (by positivity) (lt_min hd₁ hd₂), fun dt h0 h1 hk => ?_⟩
      obtain ⟨h1, h2, h3⟩ : dt ≤ e / (C₁ + C₂ + 1) ∧ dt ≤ d₁ ∧ dt ≤ d₂ := by simpa [le_min_iff] using h1
      rw [le_div_iff₀ hCC] at h1
      have t1 : 0 ≤ C₁ * dt := by positivity
      have t2 : 0 ≤ C₂ * dt := by positivity
      have hsum : C₁ * dt + C₂ * dt + dt ≤ e := by linarith
      have m1 := le_max_left D₁ D₂
      have m2 := le_max_right D₁ D₂
      rw [← hval]
      refine .add hop hp (hB₁ dt h0 h2 hk) (hB₂ dt h0 h3 hk) (by linarith) (by linarith) ?_ ?_ ?_ (by linarith) (by linarith) (by linarith)
      · rw [← hP]; linarith
      · rw [← hN]; linarith
      · rw [← hs]; rcases hz1 e e0 e4 with hz | hz
        · left; linarith
        · right; linarith
    | mul =>
      simp only [hop] at har
      obtain ⟨u₁, u₂, hp⟩ := List.length_eq_two.mp har
      have hval := hdat (by rw [hop]; simp)
      rw [hop, hp] at hval
      simp only [opValue, List.map_cons, List.map_nil, Option.some.injEq] at hval
      simp only [hop, hp] at hself
      obtain ⟨ha1, hb1, hself⟩ := hself
      obtain ⟨D₁, C₁, hC₁, d₁, hd₁, hB₁⟩ := sub u₁ (by rw [hp]; simp)
      obtain ⟨D₂, C₂, hC₂, d₂, hd₂, hB₂⟩ := sub u₂ (by rw [hp]; simp)
      have hCC : 0 < C₁ + C₂ + 1 := by linarith
      set a := |h.data u₁| / r with hA
      set b := |h.data u₂| / r with hBb
      have a1 : a < 1 := (div_lt_one hr).mpr ha1
      have b1 : b < 1 := (div_lt_one hr).mpr hb1
      rcases hself with ⟨ha0, hb0, hxx, hexp⟩ | ⟨hz, hsrc⟩
      · have a0 : 0 < a := div_pos (abs_pos.mpr ha0) hr
        have b0 : 0 < b := div_pos (abs_pos.mpr hb0) hr
        have hab : Real.exp (-343 / 20) < a * b := by
          rw [hA, hBb, div_mul_div_comm, lt_div_iff₀ (by positivity), ← abs_mul, ← pow_two]; exact hexp
        obtain ⟨e, e0, he⟩ := small_enough [a * 50, (1 - a) * 50, b * 50, (1 - b) * 50, a * b, 10 / (28 * r),
            (a * b - Real.exp (-343 / 20)) / 2, 1 / 50] (by
          intro c hc; simp at hc
          rcases hc with rfl | rfl | rfl | rfl | rfl | rfl | rfl | rfl <;> first | positivity | linarith | norm_num)
        simp only [List.mem_cons, List.not_mem_nil, or_false, forall_eq_or_imp, forall_eq] at he
        obtain ⟨e2, e3, e4, e5, e6, e7, e8, e9⟩ := he
        rw [le_div_iff₀ (by positivity)] at e7
        refine ⟨max D₁ D₂ + 598 + 110 / r, r * (C₁ + C₂ + 26) + 2, by positivity, min (e / (C₁ + C₂ + 1)) (min d₁ d₂), lt_min (by positivity) (lt_min hd₁ hd₂), fun dt h0 h1 hk => ?_⟩
        obtain ⟨h1, h2, h3⟩ : dt ≤ e / (C₁ + C₂ + 1) ∧ dt ≤ d₁ ∧ dt ≤ d₂ := by simpa [le_min_iff] using h1
        rw [le_div_iff₀ hCC] at h1
        have t1 : 0 ≤ C₁ * dt := by positivity
        have t2 : 0 ≤ C₂ * dt := by positivity
        have hsum0 : C₁ * dt + C₂ * dt + dt ≤ e := by linarith
        have m1 := le_max_left D₁ D₂
        have m2 := le_max_right D₁ D₂
        have hloss := decayLoss_le h0 (by linarith)
        have hsum : C₁ * dt + C₂ * dt + 6 * dt + decayLoss dt ≤ 28 * e := by linarith
        have hrs : r * (C₁ * dt + C₂ * dt + 6 * dt + decayLoss dt) ≤ r * (28 * e) := mul_le_mul_of_nonneg_left hsum hr.le
        have hrt : r * (C₁ * dt + C₂ * dt + 6 * dt + decayLoss dt) ≤ r * ((C₁ + C₂ + 26) * dt) := mul_le_mul_of_nonneg_left (by linarith) hr.le
        rw [← hval]
        refine .mul hop hp (hB₁ dt h0 h2 hk) (hB₂ dt h0 h3 hk) ?_ ?_ ?_ ?_ hxx ?_ ?_ (by linarith) (by linarith) (by linarith) (by linarith)
        · rw [← hA]; linarith
        · rw [← hA]; linarith
        · rw [← hBb]; linarith
        · rw [← hBb]; linarith
        · rw [← hA, ← hBb]
          refine decay_in_time h0 (by linarith) ?_
          have : (C₁ * dt + dt) / 100 ≤ e / 50 := by linarith
          have : (C₂ * dt + dt) / 100 ≤ e / 50 := by linarith
          have h4 : (a - e / 50) * (b - e / 50) ≤ (a - (C₁ * dt + dt) / 100) * (b - (C₂ * dt + dt) / 100) :=
            mul_le_mul (by linarith) (by linarith) (by linarith) (by linarith)
          nlinarith
        · rw [← hA, ← hBb]; linarith
      · obtain ⟨e, e0, he⟩ := small_enough [(1 - a) * 50, (1 - b) * 50, 10 / (2 * r), 1 / 50] (by
          intro c hc; simp at hc
          rcases hc with rfl | rfl | rfl | rfl <;> first | positivity | linarith | norm_num)
        simp only [List.mem_cons, List.not_mem_nil, or_false, forall_eq_or_imp, forall_eq] at he
        obtain ⟨e2, e3, e4, e5⟩ := he
        rw [le_div_iff₀ (by positivity)] at e4
        refine ⟨max D₁ D₂ + 598 + 110 / r, r * 2 + 2, by positivity, min (e / (C₁ + C₂ + 1)) (min d₁ d₂), lt_min (by positivity) (lt_min hd₁ hd₂), fun dt h0 h1 hk => ?_⟩
        obtain ⟨h1, h2, h3⟩ : dt ≤ e / (C₁ + C₂ + 1) ∧ dt ≤ d₁ ∧ dt ≤ d₂ := by simpa [le_min_iff] using h1
        rw [le_div_iff₀ hCC] at h1
        have t1 : 0 ≤ C₁ * dt := by positivity
        have t2 : 0 ≤ C₂ * dt := by positivity
        have hsum0 : C₁ * dt + C₂ * dt + dt ≤ e := by linarith
        have m1 := le_max_left D₁ D₂
        have m2 := le_max_right D₁ D₂
        have hrs : r * (2 * dt) ≤ r * (2 * e) := mul_le_mul_of_nonneg_left (by linarith) hr.le
        rw [← hval]
        refine .mulZero hop hp (hB₁ dt h0 h2 hk) (hB₂ dt h0 h3 hk) hsrc (hk hz) (by linarith) (by linarith) ?_ ?_ (by linarith) (by linarith)
          (by linarith) (by linarith)
        · rw [← hA]; linarith
        · rw [← hBb]; linarith
    | pow => simp only [hop] at hself
    | div => simp only [hop] at hself


/-- **C108 (linear rate).** If the values of all operations are in range, there are a simulation time, a constant `C` and a largest time step such that compiling,
loading, simulating and decoding gives the value of the program up to `C * dt`. -/
theorem C108_linear {zeros : Prop} {h : SHeap ℝ} (ho : OperandsOlder h) (ha : AritiesOK h) (hd : DataOK h) {limit root : ℕ} (hroot : root < h.length)
    (hl : h.length ≤ limit) {r : ℝ} (hr : 0 < r) (hr' : r ≤ 100) (hR : ∀ u, Spec.Reach h root u → InRange zeros h r u) :
    ∃ T0 C, ∃ d0 > 0, ∀ dt, 0 < dt → dt ≤ d0 → (zeros → ∃ k : ℕ, (k : ℝ) * dt = 1) → ∀ T, T0 ≤ T →
      ∀ (H : EventHeap ℝ) (ord : ℕ → List ℕ → List ℕ), SetOrder ord →
      ∃ y, pipeline H ord h limit root r dt T = .ok (some y) ∧ |y - h.data root| ≤ C * dt := by
  obtain ⟨D, C, -, d, hd0, hB⟩ := budget_linear ho ha hd hr root hroot hR
  refine ⟨D, r * C / 100, min d (1 / 100), lt_min hd0 (by norm_num), fun dt h0 h1 hk T hT H ord hord => ?_⟩
  obtain ⟨y, hy, he⟩ := C59_end_to_end H hord ho ha hroot hl hr hr' h0 (by linarith [h1.trans (min_le_right _ _)])
    (hB dt h0 (h1.trans (min_le_left _ _)) hk) hT
  exact ⟨y, hy, he.trans (le_of_eq (by ring))⟩

/-- What the predictive simulator can handle, the time-stepped one can (products with zero need a time step that divides 1 ms). -/
theorem inRange_of_pred {h : SHeap ℝ} {r : ℝ} (hr : 0 < r) {v : ℕ} (hR : PredInRange h r v) : InRange True h r v := by
  unfold PredInRange at hR
  unfold InRange
  split at hR
  · rename_i e; simp only [e]; exact hR
  · rename_i e; simp only [e]
  · rename_i e1 e2; simp only [e1, e2]; exact hR
  · rename_i u w e1 e2
    simp only [e1, e2]
    obtain ⟨h1, h2, h3⟩ := hR
    refine ⟨h1, h2, ?_⟩
    rcases h3 with ⟨h3, h4, -⟩ | ⟨-, h3⟩
    · have : 0 < |h.data u * h.data w| := lt_trans (by positivity) h4
      have := abs_pos.mp this
      exact .inl ⟨left_ne_zero_of_mul this, right_ne_zero_of_mul this, h3, h4⟩
    · exact .inr ⟨trivial, h3.imp_right And.left⟩
  · exact hR.elim

/-- **C108 (both simulators agree).** On every program in range both simulators finish and decode results that differ by at most `C * dt` (and both
are within `C * dt` of the value of the program). -/
theorem C108_simulators_agree {zeros : Prop} {h : SHeap ℝ} (ho : OperandsOlder h) (ha : AritiesOK h) (hd : DataOK h) {limit root : ℕ} (hroot : root < h.length)
    (hl : h.length ≤ limit) {r : ℝ} (hr : 0 < r) (hr' : r ≤ 100) (hR : ∀ u, Spec.Reach h root u → PredInRange h r u)
    (hR' : ∀ u, Spec.Reach h root u → InRange zeros h r u) :
    ∃ T0 C, ∃ d0 > 0, ∀ dt, Sane Real.exp dt → dt ≤ d0 → (zeros → ∃ k : ℕ, (k : ℝ) * dt = 1) → ∀ T, T0 ≤ T →
      ∀ (H : EventHeap ℝ) (ord : ℕ → List ℕ → List ℕ), SetOrder ord → ∀ H' : TimeHeap ℝ,
      ∃ y y' N, pipeline H ord h limit root r dt T = .ok (some y) ∧ (∀ fuel ≥ N, predPipeline H' Real.exp h limit root r dt fuel = some (.ok (some y'))) ∧
        |y - y'| ≤ C * dt ∧ |y - h.data root| ≤ C * dt ∧ |y' - h.data root| ≤ C * dt := by
  obtain ⟨T0, C, d, hd0, hS⟩ := C108_linear ho ha hd hroot hl hr hr' hR'
  obtain ⟨C', d', hd0', hP⟩ := C103_converges ho ha hd hroot hl hr hr' hR
  refine ⟨T0, |C| + |C'|, min d d', lt_min hd0 hd0', fun dt hs h1 hk T hT H ord hord H' => ?_⟩
  have h0 := hs.pos
  obtain ⟨y, hy, e1⟩ := hS dt h0 (h1.trans (min_le_left _ _)) hk T hT H ord hord
  obtain ⟨y', N, hy', e2⟩ := hP dt hs (h1.trans (min_le_right _ _)) H'
  have c1 : C * dt ≤ |C| * dt := mul_le_mul_of_nonneg_right (le_abs_self _) h0.le
  have c2 : C' * dt ≤ |C'| * dt := mul_le_mul_of_nonneg_right (le_abs_self _) h0.le
  have c3 : 0 ≤ |C| * dt := by positivity
  have c4 : 0 ≤ |C'| * dt := by positivity
  refine ⟨y, y', N, hy, hy', ?_, by linarith, by linarith⟩
  have := abs_sub_le y (h.data root) y'
  rw [abs_sub_comm (h.data root) y'] at this
  linarith

/-- **C108 (expressions).** The same for an expression written with the operators of Scalar on freshly made Scalars; time steps that divide 1 ms. -/
theorem C108_expression (inputs : List ℝ) (e : SExpr ℝ) (hu : UsesBelow inputs.length e) {limit root : ℕ} {h : SHeap ℝ}
    (he : evalPy limit e (inputs.map fun x => ⟨x, [], .load⟩) = .ok (.sc root, h)) (hl : h.length ≤ limit) {r : ℝ} (hr : 0 < r) (hr' : r ≤ 100)
    (hR : ∀ u, Spec.Reach h root u → PredInRange h r u) :
    ∃ x, denote (fun i => inputs.getD i 0) e = some x ∧ ∃ T0 C, ∃ d0 > 0, ∀ dt, Sane Real.exp dt → dt ≤ d0 → (∃ k : ℕ, (k : ℝ) * dt = 1) → ∀ T, T0 ≤ T →
      ∀ (H : EventHeap ℝ) (ord : ℕ → List ℕ → List ℕ), SetOrder ord → ∀ H' : TimeHeap ℝ,
      ∃ y y' N, pipeline H ord h limit root r dt T = .ok (some y) ∧ (∀ fuel ≥ N, predPipeline H' Real.exp h limit root r dt fuel = some (.ok (some y'))) ∧
        |y - y'| ≤ C * dt ∧ |y - x| ≤ C * dt ∧ |y' - x| ≤ C * dt := by
  obtain ⟨l1, l2, l3⟩ := loads_ok inputs
  have hu' : UsesBelow (inputs.map fun x => (⟨x, [], .load⟩ : SNode ℝ)).length e := by rwa [List.length_map]
  obtain ⟨o1, o2⟩ := C54_graph_ok limit e _ hu' l1 l2 he
  have o3 := C54_data_ok limit e _ hu' l1 l2 l3 he
  obtain ⟨v1, -, v3⟩ := C54_value limit e _ hu' he
  have hdat : SHeap.data (inputs.map fun x => (⟨x, [], .load⟩ : SNode ℝ)) = fun i => inputs.getD i 0 := by
    funext i
    by_cases hi : i < inputs.length <;> simp [SHeap.data, hi]
  rw [hdat] at v1
  have hroot : root < h.length := by
    rcases evalOK limit e _ hu' with ⟨v, h1, x, e1, d1, n1, s1, m1⟩ | ⟨-, he'⟩
    · rw [e1] at he
      obtain ⟨rfl, rfl⟩ := Prod.mk.inj (Except.ok.inj he)
      exact m1.valid
    · rcases he' with h | h <;> rw [h] at he <;> cases he
  obtain ⟨T0, C, d0, hd0, hC⟩ := C108_simulators_agree o1 o2 o3 hroot hl hr hr' hR (fun u hu => inRange_of_pred hr (hR u hu))
  exact ⟨_, v1, T0, C, d0, hd0, fun dt hs hd hk => hC dt hs hd (fun _ => hk)⟩

/-- Both simulators agree on `(2 + 3) * 4`. -/
example : ∃ T0 C, ∃ d0 > 0, ∀ dt, Sane Real.exp dt → dt ≤ d0 → (∃ k : ℕ, (k : ℝ) * dt = 1) → ∀ T, T0 ≤ T →
      ∀ (H : EventHeap ℝ) (ord : ℕ → List ℕ → List ℕ), SetOrder ord → ∀ H' : TimeHeap ℝ,
      ∃ y y' N, pipeline H ord (exSum ℝ) 1000 4 100 dt T = .ok (some y) ∧
        (∀ fuel ≥ N, predPipeline H' Real.exp (exSum ℝ) 1000 4 100 dt fuel = some (.ok (some y'))) ∧
        |y - y'| ≤ C * dt ∧ |y - 20| ≤ C * dt ∧ |y' - 20| ≤ C * dt := by
  obtain ⟨x, hx, h⟩ := C108_expression [2, 3, 4] _ (by simp [UsesBelow]) exSum_eval (by simp [exSum]) (by norm_num) le_rfl exSum_predRange
  have : x = 20 := by
    simp [denote] at hx; rw [← hx]; norm_num
  simpa [this] using h

end Axon
