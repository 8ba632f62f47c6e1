import Verif.Proofs.Session

/-! # The value networks: sign flipper, constants -/
set_option linter.unusedSectionVars false
namespace Axon
open Spec
variable {K : Type*} [Field K] [LinearOrder K] [IsStrictOrderedRing K] [FloorRing K]

/-- Times of an injected value. -/
theorem value_arr {dt : K} (hdt : 0 < dt) {enc : Encoder K} (h1 : 0 < enc.Tmin) (h2 : 0 < enc.Tcod) {v t0 : K} (hd : dt ≤ enc.Tmin)
    (hv : 0 ≤ v) (ht : 0 ≤ t0) :
    1 ≤ arrInj dt t0 1 ∧ arrInj dt t0 1 < arrInj dt (t0 + enc.Tmin + v * enc.Tcod) 1 ∧
    |((arrInj dt (t0 + enc.Tmin + v * enc.Tcod) 1 : K) * dt - (arrInj dt t0 1 : K) * dt) - (enc.Tmin + v * enc.Tcod)| < dt ∧
    (arrInj dt t0 1 : K) * dt < t0 + 1 + dt ∧
    (arrInj dt (t0 + enc.Tmin + v * enc.Tcod) 1 : K) * dt < t0 + enc.Tmin + v * enc.Tcod + 1 + dt := by
  have hvc : 0 ≤ v * enc.Tcod := mul_nonneg hv h2.le
  obtain ⟨a1, a2⟩ := arrInj_bd (τ := t0) (D := 1) hdt (by linarith)
  obtain ⟨b1, b2⟩ := arrInj_bd (τ := t0 + enc.Tmin + v * enc.Tcod) (D := 1) hdt (by linarith)
  refine ⟨arrInj_pos _ _ _, step_lt hdt (by linarith), ?_, a2, b2⟩
  rw [abs_lt]
  constructor <;> linarith

theorem signFlipper_lib (name) : LibOK (signFlipperNetwork name (World.empty : World K)).2 4 :=
  LibOK.of (signFlipper_ok name) rfl

/-- A block relaying `inp` to `out`. -/
theorem flip_block {net : Net K} {dt : K} {inj : List (ℕ × K)} {s0 : ℕ → NState K} {S : ℕ → ℕ → NState K}
    {F : ℕ → ℕ → Bool} (hr : IsRun net dt inj s0 S F) {b : ℕ}
    (hE : Embeds net s0 inj b (signFlipperNetwork none (World.empty : World K)).2.syns [2, 3]) {A B : List ℕ}
    (hA : Arr dt inj F b 1 A) (hB : Arr dt inj F (b + 1) 1 B) (hA1 : ∀ a ∈ A, 1 ≤ a) (hB1 : ∀ a ∈ B, 1 ≤ a) :
    Train F (b + 3) A ∧ Train F (b + 2) B :=
  ⟨relay1 hr (hE.std 3 (by simp)) (le_refl 10) (hE.ins 3 (by simp)) hA hA1,
   relay1 hr (hE.std 2 (by simp)) (le_refl 10) (hE.ins 2 (by simp)) hB hB1⟩

/-- **C39.** Feeding a value on one rail of a `SignFlipperNetwork` produces the value on the opposite output rail,
and nothing on the other one. -/
theorem C39_sign_flip (H : EventHeap K) {ord : ℕ → List ℕ → List ℕ} (hord : SetOrder ord) {enc : Encoder K}
    (h1 : 0 < enc.Tmin) (h2 : 0 < enc.Tcod) {dt : K} (hdt : 0 < dt) (hd : dt ≤ enc.Tmin) (name : Option String)
    (neg : Bool) {v t0 T : K} (hv0 : 0 ≤ v) (hv1 : v ≤ 1) (ht : 0 ≤ t0)
    (hT : t0 + enc.Tmin + v * enc.Tcod + 1 + dt ≤ T) :
    let p := (signFlipperNetwork name (World.empty : World K)).1
    let w := (signFlipperNetwork name (World.empty : World K)).2
    ∃ st, session H ord enc dt T w p.mod [.value v (if neg then p.inpMinus else p.inpPlus) t0] = .ok st ∧
      Carries enc dt dt (st.spikeLog (if neg then p.outpPlus else p.outpMinus)) v ∧
      Quiet (st.spikeLog (if neg then p.outpMinus else p.outpPlus)) := by
  intro p w
  obtain ⟨c1, c2, c3, c4, c5⟩ := value_arr hdt h1 h2 hd hv0 ht
  cases neg with
  | false =>
    obtain ⟨ns, S, F, st, hses, R⟩ := (signFlipper_lib name).run H hord enc hdt T
      (cs := [.value v 0 t0]) (by simp [CallOK, hv0, hv1])
    have i0 := R.input hdt (k := 0) (by norm_num) rfl rfl 1
    have i1 := R.input hdt (k := 1) (by norm_num) rfl rfl 1
    obtain ⟨t1, t2⟩ := flip_block R.run (b := 0) (R.embeds [2, 3] (by simp) (by simp [injTimes, callSpikes])) i0 i1
      (by simp [injTimes, callSpikes, arrInj_pos]) (by simp [injTimes, callSpikes])
    exact ⟨st, hses, ⟨_, _, R.pair (k := 3) (by norm_num) hdt rfl t1 c2 (by linarith), c3.le⟩, R.quiet (k := 2) (by norm_num) rfl t2⟩
  | true =>
    obtain ⟨ns, S, F, st, hses, R⟩ := (signFlipper_lib name).run H hord enc hdt T
      (cs := [.value v 1 t0]) (by simp [CallOK, hv0, hv1])
    have i0 := R.input hdt (k := 0) (by norm_num) rfl rfl 1
    have i1 := R.input hdt (k := 1) (by norm_num) rfl rfl 1
    obtain ⟨t1, t2⟩ := flip_block R.run (b := 0) (R.embeds [2, 3] (by simp) (by simp [injTimes, callSpikes])) i0 i1
      (by simp [injTimes, callSpikes]) (by simp [injTimes, callSpikes, arrInj_pos])
    exact ⟨st, hses, ⟨_, _, R.pair (k := 2) (by norm_num) hdt rfl t2 c2 (by linarith), c3.le⟩, R.quiet (k := 3) (by norm_num) rfl t1⟩

/-- A concrete case of C39: the default encoder, the value 3/4 at time 5, dt = 1/1000. -/
example : ∃ st, session (sortedHeap _) (fun _ l => l) ⟨10, 100⟩ (1 / 1000) 200
    (signFlipperNetwork none (World.empty : World ℚ)).2 0 [.value (3 / 4) 0 5] = .ok st ∧
    Carries ⟨10, 100⟩ (1 / 1000) (1 / 1000) (st.spikeLog 3) (3 / 4) ∧ Quiet (st.spikeLog 2) :=
  C39_sign_flip (sortedHeap _) id_setOrder (by norm_num) (by norm_num) (by norm_num) (by norm_num) none false
    (by norm_num) (by norm_num) (by norm_num) (by norm_num)

/-! ## Constants -/

theorem injTimes_spikes (x : ℕ) (enc : Encoder K) (ts : List K) :
    injTimes ((ts.map (fun t => Call.spike x t)).flatMap (callSpikes enc)) x = ts := by
  induction ts with
  | nil => rfl
  | cons t ts ih =>
    simp only [List.map_cons, List.flatMap_cons, callSpikes, injTimes, List.cons_append, List.nil_append] at ih ⊢
    simp [ih]

theorem injTimes_spikes_ne {x y : ℕ} (h : x ≠ y) (enc : Encoder K) (ts : List K) :
    injTimes ((ts.map (fun t => Call.spike x t)).flatMap (callSpikes enc)) y = [] := by
  induction ts with
  | nil => rfl
  | cons t ts ih =>
    simp only [List.map_cons, List.flatMap_cons, callSpikes, injTimes, List.cons_append, List.nil_append] at ih ⊢
    simp [ih, h]

/-- What the log of a constant's output looks like after recalls at times `ts`: for each recall a pair of spikes,
the first one synaptic delay after the recall, `I` apart. -/
def Spec.Answers (dt I : K) (ts : List K) (log : Option (List K)) : Prop :=
  ∃ pqs : List (ℕ × ℕ), log = some (pqs.flatMap (fun pq => [(pq.1 : K) * dt, (pq.2 : K) * dt])) ∧
    List.Forall₂ (fun t pq => t + 1 ≤ (pq.1 : K) * dt ∧ (pq.1 : K) * dt < t + 1 + dt ∧ pq.1 < pq.2 ∧
      |((pq.2 : K) * dt - (pq.1 : K) * dt) - I| < dt) ts pqs

theorem const_block {net : Net K} {dt : K} {inj : List (ℕ × K)} {s0 : ℕ → NState K} {S : ℕ → ℕ → NState K}
    {F : ℕ → ℕ → Bool} (hr : IsRun net dt inj s0 S F) {x p : ℕ} {I : K} (hx : IsStd net s0 x)
    (hL : InS net x [⟨p, x, 10, 1 + I, .V⟩, ⟨p, x, 10, 1, .V⟩]) {ts : List K}
    (hA : ∀ D, Arr dt inj F p D (ts.map (fun τ => arrInj dt τ D))) :
    Train F x (ts.flatMap (fun t => [arrInj dt t 1, arrInj dt t (1 + I)])) := by
  refine relay2 hr hx (le_refl 10) (le_refl 10) hL (hA _) (hA _) (by simp [arrInj_pos]) (by simp [arrInj_pos]) ?_
  intro i
  simp only [List.mem_flatMap, List.mem_cons, List.not_mem_nil, or_false, List.mem_map]
  constructor
  · rintro ⟨t, ht, h | h⟩
    · exact Or.inr ⟨t, ht, h.symm⟩
    · exact Or.inl ⟨t, ht, h.symm⟩
  · rintro (⟨t, ht, h⟩ | ⟨t, ht, h⟩)
    · exact ⟨t, ht, Or.inr h.symm⟩
    · exact ⟨t, ht, Or.inl h.symm⟩

/-- Recall times in order, with room for one value between them. -/
theorem const_log {dt : K} (hdt : 0 < dt) {I : K} (hI : dt ≤ I) : ∀ {ts : List K} (_ : ∀ t ∈ ts, 0 ≤ t)
    (_ : ts.Pairwise (fun s t => s + I + dt ≤ t)),
    (ts.flatMap (fun t => [arrInj dt t 1, arrInj dt t (1 + I)])).Pairwise (· < ·) ∧
    List.Forall₂ (fun t (pq : ℕ × ℕ) => t + 1 ≤ (pq.1 : K) * dt ∧ (pq.1 : K) * dt < t + 1 + dt ∧ pq.1 < pq.2 ∧
      |((pq.2 : K) * dt - (pq.1 : K) * dt) - I| < dt) ts (ts.map (fun t => (arrInj dt t 1, arrInj dt t (1 + I)))) := by
  intro ts
  induction ts with
  | nil => intro _ _; simp
  | cons t ts ih =>
    intro h0 hp
    rw [List.pairwise_cons] at hp
    obtain ⟨i1, i2⟩ := ih (fun s hs => h0 s (by simp [hs])) hp.2
    have ht := h0 t (by simp)
    obtain ⟨a1, a2⟩ := arrInj_bd (τ := t) (D := 1) hdt (by linarith)
    obtain ⟨b1, b2⟩ := arrInj_bd (τ := t) (D := 1 + I) hdt (by linarith)
    have hlt : arrInj dt t 1 < arrInj dt t (1 + I) := step_lt hdt (by linarith)
    have hlater : ∀ s ∈ ts, arrInj dt t (1 + I) < arrInj dt s 1 ∧ arrInj dt t (1 + I) < arrInj dt s (1 + I) := by
      intro s hs
      have h := hp.1 s hs
      obtain ⟨c1, c2⟩ := arrInj_bd (τ := s) (D := 1) hdt (by linarith)
      obtain ⟨d1, d2⟩ := arrInj_bd (τ := s) (D := 1 + I) hdt (by linarith)
      exact ⟨step_lt hdt (by linarith), step_lt hdt (by linarith)⟩
    refine ⟨?_, ?_⟩
    · rw [List.flatMap_cons, List.pairwise_append]
      refine ⟨by simp [hlt], i1, ?_⟩
      intro a ha b hb
      obtain ⟨s, hs, hb⟩ := List.mem_flatMap.mp hb
      obtain ⟨l1, l2⟩ := hlater s hs
      simp only [List.mem_cons, List.not_mem_nil, or_false] at ha hb
      rcases ha with rfl | rfl <;> rcases hb with rfl | rfl <;> omega
    · refine List.Forall₂.cons ⟨a1, a2, hlt, ?_⟩ i2
      rw [abs_lt]
      constructor <;> linarith

theorem constant_lib (enc : Encoder K) (value name) : LibOK (constantNetwork enc value name World.empty).2 2 :=
  LibOK.of (blockOK_of_check rfl) rfl

/-- **C40**, `ConstantNetwork`: every recall is answered by the stored constant (any constant whose interval is at
least one step long), provided recalls are not closer to each other than that interval. -/
theorem C40_constant (H : EventHeap K) {ord : ℕ → List ℕ → List ℕ} (hord : SetOrder ord) {enc : Encoder K}
    {dt : K} (hdt : 0 < dt) (name : Option String) {value : K} (hv : dt ≤ value * enc.Tcod + enc.Tmin)
    {ts : List K} (h0 : ∀ t ∈ ts, 0 ≤ t)
    (hsep : ts.Pairwise (fun s t => s + (value * enc.Tcod + enc.Tmin) + dt ≤ t)) {T : K}
    (hT : ∀ t ∈ ts, t + 1 + (value * enc.Tcod + enc.Tmin) + dt ≤ T) :
    let p := (constantNetwork enc value name World.empty).1
    let w := (constantNetwork enc value name World.empty).2
    ∃ st, session H ord enc dt T w p.mod (ts.map (Call.spike p.recall)) = .ok st ∧
      Answers dt (value * enc.Tcod + enc.Tmin) ts (st.spikeLog p.output) := by
  intro p w
  obtain ⟨ns, S, F, st, hses, R⟩ := (constant_lib enc value name).run H hord enc hdt T
    (cs := ts.map (Call.spike 0)) (by simp [CallOK])
  have E := R.embeds [1] (by simp) (by simpa using injTimes_spikes_ne (by norm_num) enc ts)
  have tr := const_block R.run (E.std 1 (by simp)) (E.ins 1 (by simp))
    (fun D => R.input hdt (k := 0) (by norm_num) rfl (injTimes_spikes 0 enc ts) D)
  obtain ⟨s1, s2⟩ := const_log hdt hv h0 hsep
  refine ⟨st, hses, _, ?_, s2⟩
  rw [show p.output = 1 from rfl, R.log 1 (by norm_num) _ tr s1, injTimes_spikes_ne (by norm_num) enc ts]
  · rw [List.nil_append, List.map_flatMap, List.flatMap_map]; rfl
  · intro i hi
    obtain ⟨t, ht, hi⟩ := List.mem_flatMap.mp hi
    have h := h0 t ht
    have hTt := hT t ht
    obtain ⟨a1, a2⟩ := arrInj_bd (τ := t) (D := 1) hdt (by linarith)
    obtain ⟨b1, b2⟩ := arrInj_bd (τ := t) (D := 1 + (value * enc.Tcod + enc.Tmin)) hdt (by linarith)
    simp only [List.mem_cons, List.not_mem_nil, or_false] at hi
    rcases hi with rfl | rfl <;> linarith

/-- `signedConstantNetwork` with the sign test resolved. -/
def signedConst' (pos : Bool) (enc : Encoder K) (I : K) (name : Option String) : Build K SConstPorts := do
  let m ← newModule .plain name
  let recall ← addStd m "recall"
  let outputPlus ← addStd m "output_plus"
  let outputMinus ← addStd m "output_minus"
  connect recall (if pos then outputPlus else outputMinus) .V cwe cTsyn
  connect recall (if pos then outputPlus else outputMinus) .V cwe (cTsyn + (I * enc.Tcod + enc.Tmin))
  return ⟨m, recall, outputPlus, outputMinus⟩

theorem signedConst_eq (enc : Encoder K) (value : K) (name) (w : World K) :
    signedConstantNetwork enc value name w = signedConst' (decide (0 ≤ value)) enc |value| name w := by
  by_cases h : 0 ≤ value
  · simp only [signedConstantNetwork, if_pos h, h, decide_true]; rfl
  · simp only [signedConstantNetwork, if_neg h, h, decide_false]; rfl

theorem signedConst_lib (pos : Bool) (enc : Encoder K) (I name) : LibOK (signedConst' pos enc I name World.empty).2 3 := by
  cases pos <;> exact LibOK.of (blockOK_of_check rfl) rfl

/-- **C40**, `SignedConstantNetwork`: every recall is answered by the magnitude of the constant on the rail of its
sign; the other rail is silent. -/
theorem C40_signed_constant (H : EventHeap K) {ord : ℕ → List ℕ → List ℕ} (hord : SetOrder ord) {enc : Encoder K}
    {dt : K} (hdt : 0 < dt) (name : Option String) {value : K} (hv : dt ≤ |value| * enc.Tcod + enc.Tmin)
    {ts : List K} (h0 : ∀ t ∈ ts, 0 ≤ t)
    (hsep : ts.Pairwise (fun s t => s + (|value| * enc.Tcod + enc.Tmin) + dt ≤ t)) {T : K}
    (hT : ∀ t ∈ ts, t + 1 + (|value| * enc.Tcod + enc.Tmin) + dt ≤ T) :
    let p := (signedConstantNetwork enc value name World.empty).1
    let w := (signedConstantNetwork enc value name World.empty).2
    ∃ st, session H ord enc dt T w p.mod (ts.map (Call.spike p.recall)) = .ok st ∧
      Answers dt (|value| * enc.Tcod + enc.Tmin) ts (st.spikeLog (if 0 ≤ value then p.outputPlus else p.outputMinus)) ∧
      Quiet (st.spikeLog (if 0 ≤ value then p.outputMinus else p.outputPlus)) := by
  rw [signedConst_eq]
  obtain ⟨s1, s2⟩ := const_log hdt hv h0 hsep
  have hb : ∀ i ∈ ts.flatMap (fun t => [arrInj dt t 1, arrInj dt t (1 + (|value| * enc.Tcod + enc.Tmin))]), (i : K) * dt ≤ T := by
    intro i hi
    obtain ⟨t, ht, hi⟩ := List.mem_flatMap.mp hi
    have h := h0 t ht
    have hTt := hT t ht
    obtain ⟨a1, a2⟩ := arrInj_bd (τ := t) (D := 1) hdt (by linarith)
    obtain ⟨b1, b2⟩ := arrInj_bd (τ := t) (D := 1 + (|value| * enc.Tcod + enc.Tmin)) hdt (by linarith)
    simp only [List.mem_cons, List.not_mem_nil, or_false] at hi
    rcases hi with rfl | rfl <;> linarith
  intro p w
  by_cases h : 0 ≤ value
  · have e : decide (0 ≤ value) = true := decide_eq_true h
    simp only [if_pos h]
    obtain ⟨ns, S, F, st, hses, R⟩ := (signedConst_lib true enc |value| name).run H hord enc hdt T
      (cs := ts.map (Call.spike 0)) (by simp [CallOK])
    have E := R.embeds [1, 2] (by simp) (by
      simpa using ⟨injTimes_spikes_ne (by norm_num) enc ts, injTimes_spikes_ne (by norm_num) enc ts⟩)
    have tr := const_block R.run (E.std 1 (by simp)) (E.ins 1 (by simp))
      (fun D => R.input hdt (k := 0) (by norm_num) rfl (injTimes_spikes 0 enc ts) D)
    have tq := silent R.run (E.std 2 (by simp)) (E.ins 2 (by simp))
    have ep : p = ⟨0, 0, 1, 2⟩ := by simp only [p, e]; rfl
    have ew : w = (signedConst' true enc |value| name World.empty).2 := by simp only [w, e]
    rw [ep, ew]
    refine ⟨st, hses, ⟨_, ?_, s2⟩, R.quiet (by norm_num) (injTimes_spikes_ne (by norm_num) enc ts) tq⟩
    rw [R.log 1 (by norm_num) _ tr s1 hb, injTimes_spikes_ne (by norm_num) enc ts]
    rw [List.nil_append, List.map_flatMap, List.flatMap_map]; rfl
  · have e : decide (0 ≤ value) = false := decide_eq_false h
    simp only [if_neg h]
    obtain ⟨ns, S, F, st, hses, R⟩ := (signedConst_lib false enc |value| name).run H hord enc hdt T
      (cs := ts.map (Call.spike 0)) (by simp [CallOK])
    have E := R.embeds [1, 2] (by simp) (by
      simpa using ⟨injTimes_spikes_ne (by norm_num) enc ts, injTimes_spikes_ne (by norm_num) enc ts⟩)
    have tr := const_block R.run (E.std 2 (by simp)) (E.ins 2 (by simp))
      (fun D => R.input hdt (k := 0) (by norm_num) rfl (injTimes_spikes 0 enc ts) D)
    have tq := silent R.run (E.std 1 (by simp)) (E.ins 1 (by simp))
    have ep : p = ⟨0, 0, 1, 2⟩ := by simp only [p, e]; rfl
    have ew : w = (signedConst' false enc |value| name World.empty).2 := by simp only [w, e]
    rw [ep, ew]
    refine ⟨st, hses, ⟨_, ?_, s2⟩, R.quiet (by norm_num) (injTimes_spikes_ne (by norm_num) enc ts) tq⟩
    rw [R.log 2 (by norm_num) _ tr s1 hb, injTimes_spikes_ne (by norm_num) enc ts]
    rw [List.nil_append, List.map_flatMap, List.flatMap_map]; rfl

/-- A concrete case of C40: the constant -1/2, recalled twice. -/
example : ∃ st, session (sortedHeap _) (fun _ l => l) ⟨10, 100⟩ (1 / 1000) 400
    (signedConstantNetwork (⟨10, 100⟩ : Encoder ℚ) (-1 / 2) none World.empty).2 0 [.spike 0 0, .spike 0 100] = .ok st ∧
    Answers (1 / 1000) (|(-1 / 2 : ℚ)| * 100 + 10) [0, 100] (st.spikeLog 2) ∧ Quiet (st.spikeLog 1) := by
  have h := C40_signed_constant (sortedHeap _) id_setOrder (enc := (⟨10, 100⟩ : Encoder ℚ)) (dt := 1 / 1000) (by norm_num) none
    (value := -1 / 2) (by norm_num [abs_of_neg]) (ts := [0, 100]) (by simp) (by norm_num [abs_of_neg]) (T := 400)
    (by norm_num [abs_of_neg])
  rw [signedConst_eq] at h ⊢
  have e : decide ((0 : ℚ) ≤ -1 / 2) = false := by norm_num
  rw [e] at h ⊢
  simp only [if_neg (show ¬ (0 : ℚ) ≤ -1 / 2 by norm_num)] at h
  exact h

/-! ## The theorems of this file on concrete cases -/

/-- `C40_constant`: the constant 1/2 recalled at 0 and at 100. -/
example : ∃ st, session (sortedHeap _) (fun _ l => l) ⟨10, 100⟩ (1 / 1000) 400
    (constantNetwork (⟨10, 100⟩ : Encoder ℚ) (1 / 2) none World.empty).2 0 [.spike 0 0, .spike 0 100] = .ok st ∧
    Answers (1 / 1000) (1 / 2 * 100 + 10 : ℚ) [0, 100] (st.spikeLog 1) :=
  C40_constant (sortedHeap _) id_setOrder (enc := ⟨10, 100⟩) (dt := 1 / 1000) (by norm_num) none (value := 1 / 2)
    (by norm_num) (ts := [0, 100]) (by simp) (by norm_num) (T := 400) (by norm_num)

end Axon
