import Verif.Proofs.FloatSession
import Verif.Proofs.Blocks
import Verif.Proofs.Modules

/-! # Construction of the synchronizer in floats -/
set_option linter.unusedSectionVars false
namespace Axon
open Spec

/-- Synapses of a channel, newest first. -/
def roundSynsFl (enc : Encoder Double) (N sync b : ℕ) : List (Synapse Double) :=
  [⟨sync, b + 7, weFl, tsynFl, .V⟩, ⟨b + 8, sync, syncWFl N, tsynFl, .V⟩, ⟨b + 9, b + 1, weFl, tsynFl, .V⟩, ⟨b, b + 2, weFl, tsynFl, .V⟩,
    ⟨b + 5, b + 8, weFl, tsynFl, .V⟩, ⟨b + 6, b + 9, weFl, tsynFl, .V⟩, ⟨b + 7, b + 9, weFl, Fl.of 2 * tsynFl, .V⟩, ⟨b + 7, b + 6, enc.waccFl, tsynFl, .ge⟩,
    ⟨b + 5, b + 6, -enc.waccFl, tsynFl, .ge⟩, ⟨b + 4, b + 6, enc.waccFl, Fl.of 2 * tsynFl, .ge⟩, ⟨b + 3, b + 5, enc.waccFl, tsynFl, .ge⟩, ⟨b + 3, b + 3, wiFl, tsynFl, .V⟩,
    ⟨b + 2, b + 4, Fl.of (1 / 2) * weFl, tsynFl, .V⟩, ⟨b + 2, b + 3, weFl, tsynFl, .V⟩]

/-- Neurons of a channel, newest first. -/
def roundNeusFl (i m M : ℕ) : List (NeuronObj Double) :=
  (["output", "ready", "recall", "acc2", "acc", "last", "first", "input"].map (fun n => ⟨stdFl, some n, some M⟩)) ++
  [⟨stdFl, some ("output_" ++ toString i), some m⟩, ⟨stdFl, some ("input_" ++ toString i), some m⟩]

theorem roundFl_world (enc : Encoder Double) (N m sync i : ℕ) (w : World Double) :
    (synchronizerRoundFl enc N m sync i w).2 =
      ⟨roundNeusFl i m w.mods.length ++ w.neus, ⟨some ("mem_" ++ toString i), .plain⟩ :: w.mods,
       [(w.mods.length, w.neus.length + 9), (w.mods.length, w.neus.length + 8), (w.mods.length, w.neus.length + 7),
        (w.mods.length, w.neus.length + 6), (w.mods.length, w.neus.length + 5), (w.mods.length, w.neus.length + 4),
        (w.mods.length, w.neus.length + 3), (w.mods.length, w.neus.length + 2), (m, w.neus.length + 1), (m, w.neus.length)] ++ w.own,
       (m, w.mods.length) :: w.sub, roundSynsFl enc N sync w.neus.length ++ w.syns⟩ := rfl

theorem roundFl_ports (enc : Encoder Double) (N m sync i : ℕ) (w : World Double) :
    (synchronizerRoundFl enc N m sync i w).1 =
      (w.neus.length, w.neus.length + 1, ⟨w.mods.length, w.neus.length + 2, w.neus.length + 9, w.neus.length + 7,
        w.neus.length + 8⟩) := rfl

theorem roundSynsFl_post (enc : Encoder Double) (N sync b : ℕ) : ∀ s ∈ roundSynsFl enc N sync b,
    (s.pre = sync ∨ (b ≤ s.pre ∧ s.pre < b + 10)) ∧ (s.post = sync ∨ (b ≤ s.post ∧ s.post < b + 10)) ∧
    (s.kind = .V ∨ s.kind = .ge) := by
  intro s hs
  simp only [roundSynsFl, List.mem_cons, List.not_mem_nil, or_false] at hs
  rcases hs with rfl | rfl | rfl | rfl | rfl | rfl | rfl | rfl | rfl | rfl | rfl | rfl | rfl | rfl <;> simp

/-- A channel keeps the world well-formed. -/
theorem roundFl_ok (enc : Encoder Double) (N sync i : ℕ) {w : World Double} (h : BlockOK w) (hs : sync < w.neus.length) :
    BlockOK (synchronizerRoundFl enc N 0 sync i w).2 := by
  rw [roundFl_world]
  have hl : (roundNeusFl i 0 w.mods.length).length = 10 := rfl
  have hpos := h.pos
  refine ⟨by simp, ?_, ?_, ?_, ?_, ?_, ?_, ?_, ?_⟩
  · intro x hx
    rcases List.mem_cons.mp hx with rfl | hx
    · simp
    · have := h.sub_bd x hx
      simp only [List.length_cons]; omega
  · intro x hx
    simp only [List.length_cons, List.length_append, hl]
    simp only [List.cons_append, List.nil_append, List.mem_cons] at hx
    rcases hx with rfl | rfl | rfl | rfl | rfl | rfl | rfl | rfl | rfl | rfl | hx
    any_goals (simp only []; omega)
    have := h.own_bd x hx
    omega
  · intro s hs'
    simp only [List.length_append, hl]
    rcases List.mem_append.mp hs' with hs' | hs'
    · have := roundSynsFl_post enc N sync _ s hs'
      omega
    · have := h.syn_bd s hs'
      omega
  · simp only [List.length_append, hl]
    intro n hn
    have hin : ∀ {m}, InTree w 0 m → InTree (⟨roundNeusFl i 0 w.mods.length ++ w.neus, ⟨some ("mem_" ++ toString i), .plain⟩ :: w.mods,
       [(w.mods.length, w.neus.length + 9), (w.mods.length, w.neus.length + 8), (w.mods.length, w.neus.length + 7),
        (w.mods.length, w.neus.length + 6), (w.mods.length, w.neus.length + 5), (w.mods.length, w.neus.length + 4),
        (w.mods.length, w.neus.length + 3), (w.mods.length, w.neus.length + 2), (0, w.neus.length + 1), (0, w.neus.length)] ++ w.own,
       (0, w.mods.length) :: w.sub, roundSynsFl enc N sync w.neus.length ++ w.syns⟩ : World Double) 0 m := by
      intro m hm
      induction hm with
      | refl => exact .refl
      | tail _ hab ih => exact ih.tail (List.mem_cons_of_mem _ hab)
    by_cases h1 : n < w.neus.length
    · obtain ⟨m, hm, ho⟩ := h.tree n h1
      exact ⟨m, hin hm, List.mem_append_right _ ho⟩
    · by_cases h2 : n < w.neus.length + 2
      · refine ⟨0, .refl, ?_⟩
        show (0, n) ∈ _ ++ _
        refine List.mem_append_left _ ?_
        simp
        omega
      · refine ⟨w.mods.length, Relation.ReflTransGen.single (List.mem_cons_self ..), ?_⟩
        show (w.mods.length, n) ∈ _ ++ _
        refine List.mem_append_left _ ?_
        simp
        omega
  · simp only [List.map_cons, List.nodup_cons]
    refine ⟨?_, h.nodup⟩
    intro hc
    obtain ⟨x, hx, e⟩ := List.mem_map.mp hc
    have := (h.sub_bd x hx).2
    omega
  · intro s hs'
    rcases List.mem_append.mp hs' with hs' | hs'
    · rcases (roundSynsFl_post enc N sync _ s hs').2.2 with h' | h' <;> simp [h']
    · exact h.kinds s hs'
  · intro x hx
    rcases List.mem_cons.mp hx with rfl | hx
    · exact h.pos
    · exact h.sub_lt x hx
  · simp only [List.map_append, List.map_cons, List.map_nil]
    rw [List.nodup_append]
    refine ⟨by simp, h.own_nd, ?_⟩
    intro a ha b hb
    obtain ⟨x, hx, rfl⟩ := List.mem_map.mp hb
    have := (h.own_bd x hx).2
    simp only [List.mem_cons, List.not_mem_nil, or_false] at ha
    omega

/-- All synapses after `k` channels, newest first. -/
def chanSynsFl (enc : Encoder Double) (N sync b : ℕ) : ℕ → List (Synapse Double)
  | 0 => []
  | k + 1 => roundSynsFl enc N sync (b + 10 * k) ++ chanSynsFl enc N sync b k

/-- The loop of the constructor. -/
theorem loopFl_spec (enc : Encoder Double) (N sync b : ℕ) : ∀ (k i : ℕ) (w : World Double), BlockOK w → sync < w.neus.length →
    w.neus.length = b + 10 * i → (∀ o ∈ w.neus, o.par = stdFl) →
    BlockOK (synchronizerLoopFl enc N 0 sync i k w).2 ∧
    (synchronizerLoopFl enc N 0 sync i k w).2.neus.length = b + 10 * (i + k) ∧
    (∀ o ∈ (synchronizerLoopFl enc N 0 sync i k w).2.neus, o.par = stdFl) ∧
    (w.syns = chanSynsFl enc N sync b i → (synchronizerLoopFl enc N 0 sync i k w).2.syns = chanSynsFl enc N sync b (i + k)) ∧
    (synchronizerLoopFl enc N 0 sync i k w).1.map (·.1) = (List.range k).map (fun j => b + 10 * (i + j)) ∧
    (synchronizerLoopFl enc N 0 sync i k w).1.map (·.2.1) = (List.range k).map (fun j => b + 10 * (i + j) + 1) ∧
    (synchronizerLoopFl enc N 0 sync i k w).1.map (·.2.2.ready) = (List.range k).map (fun j => b + 10 * (i + j) + 8)
  | 0, i, w, h, hs, hl, hp => by
    exact ⟨h, hl, hp, fun e => e, rfl, rfl, rfl⟩
  | k + 1, i, w, h, hs, hl, hp => by
    have h1 := roundFl_ok enc N sync i h hs
    have e := roundFl_world enc N 0 sync i w
    have hlen : (synchronizerRoundFl enc N 0 sync i w).2.neus.length = b + 10 * (i + 1) := by
      rw [e]; simp only [List.length_append]
      rw [show (roundNeusFl i 0 w.mods.length).length = 10 from rfl, hl]; ring
    obtain ⟨r1, r2, r3, r4, r5, r6, r7⟩ := loopFl_spec enc N sync b k (i + 1) (synchronizerRoundFl enc N 0 sync i w).2 h1 (by omega) hlen (by
      rw [e]
      intro o ho
      rcases List.mem_append.mp ho with ho | ho
      · simp only [roundNeusFl, List.map_cons, List.map_nil, List.cons_append, List.nil_append, List.mem_cons, List.not_mem_nil, or_false] at ho
        rcases ho with rfl | rfl | rfl | rfl | rfl | rfl | rfl | rfl | rfl | rfl <;> rfl
      · exact hp o ho)
    have hstep : synchronizerLoopFl enc N 0 sync i (k + 1) w =
      ((synchronizerRoundFl enc N 0 sync i w).1 :: (synchronizerLoopFl enc N 0 sync (i + 1) k (synchronizerRoundFl enc N 0 sync i w).2).1,
        (synchronizerLoopFl enc N 0 sync (i + 1) k (synchronizerRoundFl enc N 0 sync i w).2).2) := rfl
    rw [hstep]
    refine ⟨r1, by rw [r2]; ring, r3, ?_, ?_, ?_, ?_⟩
    · intro es
      have := r4 (by
        rw [e]
        show roundSynsFl enc N sync w.neus.length ++ w.syns = roundSynsFl enc N sync (b + 10 * i) ++ chanSynsFl enc N sync b i
        rw [hl, es])
      rw [this]
      congr 1; ring
    · simp only [List.map_cons, r5, roundFl_ports, hl, List.range_succ_eq_map, List.map_map, Nat.add_zero]
      congr 1
      apply List.map_congr_left
      intro j _; simp; ring
    · simp only [List.map_cons, r6, roundFl_ports, hl, List.range_succ_eq_map, List.map_map, Nat.add_zero]
      congr 1
      apply List.map_congr_left
      intro j _; simp; ring
    · simp only [List.map_cons, r7, roundFl_ports, hl, List.range_succ_eq_map, List.map_map, Nat.add_zero]
      congr 1
      apply List.map_congr_left
      intro j _; simp; ring


/-- The world after the statements before the loop. -/
def syncStartFl (name : Option String) : World Double :=
  (addFl 0 "sync" (newModule .plain name (World.empty : World Double)).2).2

theorem syncFl_spec (enc : Encoder Double) (N : ℕ) (name) :
    BlockOK (synchronizerFl enc N name World.empty).2 ∧ (synchronizerFl enc N name World.empty).2.neus.length = 1 + 10 * N ∧
    (∀ o ∈ (synchronizerFl enc N name World.empty).2.neus, o.par = stdFl) ∧
    (synchronizerFl enc N name World.empty).2.syns = chanSynsFl enc N 0 1 N ∧
    (synchronizerFl enc N name World.empty).1.mod = 0 ∧
    (synchronizerFl enc N name World.empty).1.sync = 0 ∧
    (synchronizerFl enc N name World.empty).1.inputs = (List.range N).map (fun j => 1 + 10 * j) ∧
    (synchronizerFl enc N name World.empty).1.outputs = (List.range N).map (fun j => 1 + 10 * j + 1) ∧
    (synchronizerFl enc N name World.empty).1.blocks.map (·.ready) = (List.range N).map (fun j => 1 + 10 * j + 8) := by
  obtain ⟨r1, r2, r3, r4, r5, r6, r7⟩ := loopFl_spec enc N 0 1 N 0 (syncStartFl name) (blockOK_of_check rfl) (show 0 < 1 from Nat.one_pos) rfl
    (by intro o ho; rcases List.mem_singleton.mp ho with rfl; rfl)
  simp only [Nat.zero_add] at r2 r4 r5 r6 r7
  refine ⟨r1, r2, r3, r4 rfl, rfl, rfl, r5, r6, ?_⟩
  rw [← r7]
  exact List.map_map

theorem blockFl_neurons {w : World Double} (h : BlockOK w) : ∃ ns, w.neurons 0 = .ok ns ∧ ∀ n, n ∈ ns ↔ n < w.neus.length := by
  cases e : w.neurons 0 with
  | error err =>
    exfalso
    have : ∀ f m err, m < w.mods.length → w.mods.length < f + m + 1 → w.neuronsFuel f m ≠ .error err := by
      intro f
      induction f with
      | zero => intro m err h1 h2; omega
      | succ f ih =>
        intro m err h1 h2 h3
        rw [World.neuronsFuel] at h3
        cases e2 : (w.subnetworks m).mapM (fun s => w.neuronsFuel f s) with
        | ok ls => rw [e2] at h3; cases h3
        | error e' =>
          obtain ⟨c, hc, hc'⟩ := mapM_error e2
          have hch := mem_subnetworks.mp hc
          exact ih c e' (h.sub_bd _ hch).2 (by have := h.sub_lt _ hch; simp at this; omega) hc'
    exact this (w.mCount + 1) 0 err h.pos (by simp [World.mCount]) e
  | ok ns =>
    refine ⟨ns, rfl, fun n => ?_⟩
    rw [neuronsFuel_mem e]
    exact ⟨fun ⟨m, _, ho⟩ => (h.own_bd _ ho).2, fun hn => h.tree n hn⟩

/-- The synapses onto a neuron of channel `j`. -/
theorem postFl_chan (enc : Encoder Double) (N : ℕ) {sync b : ℕ} (hs : sync < b) : ∀ (k j o : ℕ), j < k → o < 10 →
    (chanSynsFl enc N sync b k).filter (fun s => s.post = b + 10 * j + o) = (roundSynsFl enc N sync (b + 10 * j)).filter (fun s => s.post = b + 10 * j + o)
  | 0, j, o, hj, _ => by omega
  | k + 1, j, o, hj, ho => by
    rw [chanSynsFl, List.filter_append]
    by_cases e : j = k
    · subst e
      have : ∀ k' ≤ j, (chanSynsFl enc N sync b k').filter (fun s => s.post = b + 10 * j + o) = [] := by
        intro k'
        induction k' with
        | zero => intro _; rfl
        | succ k' ih =>
          intro hk
          rw [chanSynsFl, List.filter_append, ih (by omega), List.append_nil, List.filter_eq_nil_iff]
          intro s hs'
          have := roundSynsFl_post enc N sync _ s hs'
          simp; omega
      rw [this j le_rfl, List.append_nil]
    · rw [postFl_chan enc N hs k j o (by omega) ho]
      have : (roundSynsFl enc N sync (b + 10 * k)).filter (fun s => s.post = b + 10 * j + o) = [] := by
        rw [List.filter_eq_nil_iff]
        intro s hs'
        have := roundSynsFl_post enc N sync _ s hs'
        simp; omega
      rw [this, List.nil_append]

/-- The synapses onto the `sync` neuron, newest first. -/
theorem postFl_sync (enc : Encoder Double) (N : ℕ) : ∀ k,
    ((chanSynsFl enc N 0 1 k).filter fun s => s.post = 0).Perm ((List.range k).map (fun j => ⟨1 + 10 * j + 8, 0, syncWFl N, tsynFl, .V⟩))
  | 0 => .refl _
  | k + 1 => by
    rw [chanSynsFl, List.filter_append, List.range_succ, List.map_append]
    have : (roundSynsFl enc N 0 (1 + 10 * k)).filter (fun s => s.post = 0) = [⟨1 + 10 * k + 8, 0, syncWFl N, tsynFl, .V⟩] := by
      simp [roundSynsFl]
    rw [this]
    exact List.perm_append_comm.trans ((postFl_sync enc N k).append_right _)

end Axon
