import Verif.Spec.Session
import Verif.Proofs.Gadgets

/-! # Sessions on library networks -/
set_option linter.unusedSectionVars false
namespace Axon
open Spec
variable {K : Type*} [Field K] [LinearOrder K] [IsStrictOrderedRing K] [FloorRing K]

/-- A network made of `n` library neurons, all in the tree of module 0. -/
structure LibOK (w : World K) (n : ℕ) : Prop where
  block : BlockOK w
  par : ∀ o ∈ w.neus, o.par = stdPar
  len : w.neus.length = n

theorem LibOK.of {w : World K} (h : BlockOK w) {n : ℕ} (hp : w.neus.map (·.par) = List.replicate n stdPar) :
    LibOK w n := ⟨h, fun o ho => by
  have : o.par ∈ w.neus.map (·.par) := List.mem_map_of_mem ho
  rw [hp] at this
  exact List.eq_of_mem_replicate this, by
  have := congrArg List.length hp
  simpa using this⟩

theorem BlockOK.acyclic {w : World K} (h : BlockOK w) (m : ℕ) : ¬ Cyclic w m := by
  have htr : ∀ m m', Relation.TransGen (Child w) m m' → m < m' := by
    intro m m' ht
    induction ht with
    | single h1 => exact h.sub_lt _ h1
    | tail h1 h2 ih => exact ih.trans (h.sub_lt _ h2)
  exact fun ⟨m, _, h2⟩ => absurd (htr m m h2) (lt_irrefl m)

theorem BlockOK.neurons {w : World K} (h : BlockOK w) : ∃ ns, w.neurons 0 = .ok ns ∧ ∀ n, n ∈ ns ↔ n < w.neus.length := by
  cases e : w.neurons 0 with
  | error err =>
    exfalso
    -- the stack is as deep as there are modules
    have : ∀ f m err, m < w.mods.length → w.mods.length < f + m + 1 → w.neuronsFuel f m ≠ .error err := by
      intro f
      induction f with
      | zero => intro m err h1 h2; omega
      | succ f ih =>
        intro m err h1 h2 h3
        rw [World.neuronsFuel] at h3
        cases e2 : (w.subnetworks m).mapM (fun s => w.neuronsFuel f s) with
        | ok ls => rw [e2] at h3; cases h3
        | error e' =>
          obtain ⟨c, hc, hc'⟩ := mapM_error e2
          have hch := mem_subnetworks.mp hc
          exact ih c e' (h.sub_bd _ hch).2 (by have := h.sub_lt _ hch; simp at this; omega) hc'
    exact this (w.mCount + 1) 0 err h.pos (by simp [World.mCount]) e
  | ok ns =>
    refine ⟨ns, rfl, fun n => ?_⟩
    rw [neuronsFuel_mem e]
    exact ⟨fun ⟨m, _, ho⟩ => (h.own_bd _ ho).2, fun hn => h.tree n hn⟩

theorem LibOK.wpar {w : World K} {n0 : ℕ} (h : LibOK w n0) {n : ℕ} (hn : n < w.neus.length) : w.par n = stdPar := by
  unfold World.par
  rw [List.getElem?_eq_getElem (by simpa using hn)]
  exact h.par _ (by rw [← List.mem_reverse]; exact List.getElem_mem _)

theorem LibOK.wf {w : World K} {n0 : ℕ} (h : LibOK w n0) {ns : List ℕ} (hns : ∀ n, n ∈ ns ↔ n < w.neus.length) :
    WellFormed (w.net ns) := by
  have hp : ∀ n ∈ ns, w.par n = stdPar := fun n hn => h.wpar ((hns n).mp hn)
  refine ⟨?_, ?_, ?_, ?_, ?_⟩
  · intro s hs
    exact (hns _).mpr (h.block.syn_bd s (by simpa [World.net] using hs)).2
  · intro s hs
    exact h.block.kinds s (by simpa [World.net] using hs)
  all_goals
    intro n hn
    simp only [World.net, hp n hn, stdPar]
    norm_num

theorem emitted_of_train {dt : K} {F : ℕ → ℕ → Bool} {x : ℕ} {T : List ℕ} (hT : Train F x T)
    (hs : T.Pairwise (· < ·)) {N : ℕ} (hN : ∀ i ∈ T, 1 ≤ i ∧ i ≤ N) :
    emitted dt F N x = T.map (fun i : ℕ => (i : K) * dt) := by
  unfold emitted
  congr 1
  have h1 : ((List.range' 1 N).filter (fun i => F i x)).Pairwise (· < ·) :=
    List.Pairwise.filter _ (List.pairwise_lt_range' (s := 1) (n := N))
  refine List.Perm.eq_of_pairwise (le := (· < ·)) (fun a b _ _ h h' => absurd h (by omega)) h1 hs ?_
  refine (List.perm_ext_iff_of_nodup (h1.imp (fun h => by omega)) (hs.imp (fun h => by omega))).mpr ?_
  intro i
  rw [List.mem_filter, List.mem_range'_1]
  constructor
  · rintro ⟨_, h⟩; exact (hT i).mp h
  · intro h
    have := hN i h
    exact ⟨by omega, (hT i).mpr h⟩

theorem le_numSteps {T dt : K} (hdt : 0 < dt) {i : ℕ} (h : (i : K) * dt ≤ T) : i ≤ numSteps T dt := by
  unfold numSteps
  have : ((i : ℤ) : K) ≤ T / dt := by rw [le_div_iff₀ hdt]; push_cast; exact h
  have := Int.le_floor.mpr this
  omega

/-- A session on a library network is the naive run. -/
structure SessionRun (enc : Encoder K) (dt T : K) (w : World K) (n : ℕ) (inj : List (ℕ × K)) (ns : List ℕ)
    (S : ℕ → ℕ → NState K) (F : ℕ → ℕ → Bool) (st : Sim K) : Prop where
  run : IsRun (w.net ns) dt inj fresh S F
  mem : ∀ k, k ∈ ns ↔ k < n
  std : ∀ k < n, IsStd (w.net ns) fresh k
  log : ∀ x < n, ∀ Tr : List ℕ, Train F x Tr → Tr.Pairwise (· < ·) → (∀ i ∈ Tr, (i : K) * dt ≤ T) →
        st.spikeLog x = some (injTimes inj x ++ Tr.map (fun i : ℕ => (i : K) * dt))

theorem LibOK.run {w : World K} {n : ℕ} (h : LibOK w n) (H : EventHeap K) {ord : ℕ → List ℕ → List ℕ} (hord : SetOrder ord)
    (enc : Encoder K) {dt : K} (hdt : 0 < dt) (T : K) {cs : List (Call K)} (hcs : ∀ c ∈ cs, CallOK c) :
    ∃ ns S F st, session H ord enc dt T w 0 cs = .ok st ∧
      SessionRun enc dt T w n (cs.flatMap (callSpikes enc)) ns S F st := by
  obtain ⟨ns, hns, hmem⟩ := h.block.neurons
  have wf := h.wf hmem
  have hrest : Resting (w.net ns) fresh := by
    intro n hn
    have : (w.net ns).par n = stdPar := h.wpar ((hmem n).mp hn)
    rw [this]
    simp [fresh, stdPar]
  have hrun := dense_isRun (w.net ns) dt (cs.flatMap (callSpikes enc)) fresh
  obtain ⟨st, h1, o⟩ := simulate_outcome H hord wf hdt hrest hrun T
  refine ⟨ns, _, _, st, ?_, hrun, ?_, ?_, ?_⟩
  · unfold session
    rw [hns]
    simp only [calls_eq H (w.net ns) enc cs _ hcs]
    exact h1
  · rw [← h.len]; exact hmem
  · intro k hk
    rw [← h.len] at hk
    exact ⟨(hmem k).mpr hk, h.wpar hk, rfl⟩
  · intro x hx Tr hT hs hb
    rw [← h.len] at hx
    rw [o.log_mem ((hmem x).mpr hx), emitted_of_train hT hs]
    intro i hi
    refine ⟨?_, le_numSteps hdt (hb i hi)⟩
    by_contra h0
    have : i = 0 := by omega
    subst this
    have := (hT 0).mpr hi
    rw [(hrun.start x).2] at this
    cases this

section
variable {enc : Encoder K} {dt T : K} {w : World K} {n : ℕ} {inj : List (ℕ × K)} {ns : List ℕ}
  {S : ℕ → ℕ → NState K} {F : ℕ → ℕ → Bool} {st : Sim K}

theorem SessionRun.embeds (h : SessionRun enc dt T w n inj ns S F st) (I : List ℕ) (hI : ∀ k ∈ I, k < n)
    (hi : ∀ k ∈ I, injTimes inj k = []) : Embeds (w.net ns) fresh inj 0 w.syns I :=
  Embeds.whole (fun k hk => h.std k (hI k hk)) hi

/-- Arrivals from an input neuron (one without incoming synapses). -/
theorem SessionRun.input (h : SessionRun enc dt T w n inj ns S F st) (hdt : 0 < dt) {k : ℕ} (hk : k < n)
    (hin : insOf w.syns k = []) {A : List K} (hA : injTimes inj k = A) (D : K) :
    Arr dt inj F k D (A.map (fun τ => arrInj dt τ D)) := by
  have : InS (w.net ns) k [] := by rw [← hin]; exact (List.reverse_perm w.syns).filter _
  have := (silent h.run (h.std k hk) this).arr_inj (inj := inj) hdt D
  rwa [hA] at this

theorem SessionRun.quiet (h : SessionRun enc dt T w n inj ns S F st) {k : ℕ} (hk : k < n)
    (hi : injTimes inj k = []) (hT : Train F k []) : Quiet (st.spikeLog k) := by
  have := h.log k hk [] hT (by simp) (by simp)
  rw [hi] at this
  exact this

theorem SessionRun.pair (h : SessionRun enc dt T w n inj ns S F st) {k : ℕ} (hk : k < n) (hdt : 0 < dt)
    (hi : injTimes inj k = []) {p q : ℕ} (hT : Train F k [p, q]) (hpq : p < q) (hq : (q : K) * dt ≤ T) :
    Pair dt (st.spikeLog k) p q := by
  have := h.log k hk [p, q] hT (by simp [hpq]) (by
    intro i hi; simp at hi
    rcases hi with rfl | rfl
    · have : (i : K) * dt ≤ (q : K) * dt := mul_le_mul_of_nonneg_right (Nat.cast_le.mpr hpq.le) hdt.le
      linarith
    · exact hq)
  rw [hi] at this
  exact ⟨hpq, this⟩

end

/-! ## Bounds on arrival steps -/

theorem arrInj_pos (dt τ D : K) : 1 ≤ arrInj dt τ D := le_max_left _ _

theorem arrInj_bd {dt τ D : K} (hdt : 0 < dt) (h : 0 < τ + D) :
    τ + D ≤ (arrInj dt τ D : K) * dt ∧ (arrInj dt τ D : K) * dt < τ + D + dt := by
  unfold arrInj firstStep
  have hp : 0 < (τ + D) / dt := div_pos h hdt
  rw [max_eq_right (Nat.one_le_iff_ne_zero.mpr (Nat.ceil_pos.mpr hp).ne')]
  refine ⟨?_, ?_⟩
  · have := Nat.le_ceil ((τ + D) / dt)
    rwa [div_le_iff₀ hdt] at this
  · have := Nat.ceil_lt_add_one hp.le
    have h2 := mul_lt_mul_of_pos_right this hdt
    rwa [add_mul, div_mul_cancel₀ _ hdt.ne', one_mul] at h2

theorem dly_bd {dt D : K} (hdt : 0 < dt) (h : 0 < D) : D ≤ (dly dt D : K) * dt ∧ (dly dt D : K) * dt < D + dt := by
  have := arrInj_bd (τ := 0) (D := D) hdt (by simpa using h)
  simpa [dly, arrInj, firstStep] using this

theorem dly_eq_ceil {dt D : K} (hdt : 0 < dt) (h : 0 < D) : dly dt D = ⌈D / dt⌉₊ := by
  unfold dly
  exact max_eq_right (Nat.one_le_iff_ne_zero.mpr (Nat.ceil_pos.mpr (div_pos h hdt)).ne')

theorem dly_mono {dt D D' : K} (hdt : 0 < dt) (h : D ≤ D') : dly dt D ≤ dly dt D' :=
  max_le_max le_rfl (Nat.ceil_mono (div_le_div_of_nonneg_right h hdt.le))

theorem dly_add_le {dt D D' : K} (hdt : 0 < dt) (hD : 0 < D) (hD' : 0 < D') : dly dt (D + D') ≤ dly dt D + dly dt D' := by
  have a := dly_bd hdt hD
  have b := dly_bd hdt hD'
  have c := dly_bd hdt (add_pos hD hD')
  have : (dly dt (D + D') : K) * dt < ((dly dt D + dly dt D' : ℕ) : K) * dt + dt := by push_cast; rw [add_mul]; linarith
  have : (dly dt (D + D') : K) < ((dly dt D + dly dt D' + 1 : ℕ) : K) := by
    have h2 : (dly dt (D + D') : K) * dt < ((dly dt D + dly dt D' + 1 : ℕ) : K) * dt := by push_cast at this ⊢; linarith
    exact lt_of_mul_lt_mul_right h2 hdt.le
  have := Nat.cast_lt.mp this
  omega

/-- Comparing step numbers through times. -/
theorem step_le {dt : K} (hdt : 0 < dt) {a b : ℕ} (h : (a : K) * dt < (b : K) * dt + dt) : a ≤ b := by
  have : (a : K) * dt < ((b + 1 : ℕ) : K) * dt := by push_cast; linarith
  have := Nat.cast_lt.mp (lt_of_mul_lt_mul_right this hdt.le)
  omega

theorem step_lt {dt : K} (hdt : 0 < dt) {a b : ℕ} (h : (a : K) * dt < (b : K) * dt) : a < b :=
  Nat.cast_lt.mp (lt_of_mul_lt_mul_right h hdt.le)

end Axon
