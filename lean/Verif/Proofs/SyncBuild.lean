import Verif.Proofs.Sync

/-! # The world built by `SynchronizerNetwork(N)` -/
set_option linter.unusedSectionVars false
namespace Axon
open Spec
variable {K : Type*} [Field K] [LinearOrder K] [IsStrictOrderedRing K] [FloorRing K]

/-- Synapses of the channel whose input neuron is `b`. -/
def roundSyns (enc : Encoder K) (N sync b : ℕ) : List (Synapse K) :=
  [⟨sync, b + 7, 10, 1, .V⟩, ⟨b + 8, sync, syncW N, 1, .V⟩, ⟨b + 9, b + 1, 10, 1, .V⟩, ⟨b, b + 2, 10, 1, .V⟩] ++
    (memSyns enc).map (Synapse.shift (b + 2))

/-- Neurons of a channel, newest first. -/
def roundNeus (i m M : ℕ) : List (NeuronObj K) :=
  (["output", "ready", "recall", "acc2", "acc", "last", "first", "input"].map (fun n => ⟨stdPar, some n, some M⟩)) ++
  [⟨stdPar, some ("output_" ++ toString i), some m⟩, ⟨stdPar, some ("input_" ++ toString i), some m⟩]

theorem round_world (enc : Encoder K) (N m sync i : ℕ) (w : World K) :
    (synchronizerRound enc N m sync i w).2 =
      ⟨roundNeus i m w.mods.length ++ w.neus, ⟨some ("mem_" ++ toString i), .plain⟩ :: w.mods,
       [(w.mods.length, w.neus.length + 9), (w.mods.length, w.neus.length + 8), (w.mods.length, w.neus.length + 7),
        (w.mods.length, w.neus.length + 6), (w.mods.length, w.neus.length + 5), (w.mods.length, w.neus.length + 4),
        (w.mods.length, w.neus.length + 3), (w.mods.length, w.neus.length + 2), (m, w.neus.length + 1), (m, w.neus.length)] ++ w.own,
       (m, w.mods.length) :: w.sub, roundSyns enc N sync w.neus.length ++ w.syns⟩ := rfl

theorem round_ports (enc : Encoder K) (N m sync i : ℕ) (w : World K) :
    (synchronizerRound enc N m sync i w).1 =
      (w.neus.length, w.neus.length + 1, ⟨w.mods.length, w.neus.length + 2, w.neus.length + 9, w.neus.length + 7,
        w.neus.length + 8⟩) := rfl

theorem memSyns_bd (enc : Encoder K) : ∀ s ∈ memSyns enc, (s.pre < 8 ∧ 1 ≤ s.post ∧ s.post ≠ 5 ∧ s.post < 8) ∧ (s.kind = .V ∨ s.kind = .ge) := by
  have : (memSyns enc).map (fun s => (s.pre, s.post, s.kind)) = [(3, 6, .V), (4, 7, .V), (5, 7, .V), (5, 4, .ge),
    (3, 4, .ge), (2, 4, .ge), (1, 3, .ge), (1, 1, .V), (0, 2, .V), (0, 1, .V)] := rfl
  intro s hs
  have h := List.mem_map_of_mem (f := fun s : Synapse K => (s.pre, s.post, s.kind)) hs
  rw [this] at h
  simp only [List.mem_cons, List.not_mem_nil, or_false, Prod.mk.injEq] at h
  rcases h with h | h | h | h | h | h | h | h | h | h <;> (rw [h.1, h.2.1, h.2.2]; simp)

theorem roundSyns_post (enc : Encoder K) (N sync b : ℕ) : ∀ s ∈ roundSyns enc N sync b,
    (s.pre = sync ∨ (b ≤ s.pre ∧ s.pre < b + 10)) ∧ (s.post = sync ∨ (b ≤ s.post ∧ s.post < b + 10)) ∧
    (s.kind = .V ∨ s.kind = .ge) := by
  intro s hs
  simp only [roundSyns, List.mem_append, List.mem_cons, List.not_mem_nil, or_false, List.mem_map] at hs
  rcases hs with (rfl | rfl | rfl | rfl) | ⟨t, ht, rfl⟩
  · simp
  · simp
  · simp
  · simp
  · have := memSyns_bd enc t ht
    simp only [Synapse.shift]
    exact ⟨by omega, by omega, this.2⟩

/-- A channel keeps the world well-formed. -/
theorem round_ok (enc : Encoder K) (N sync i : ℕ) {w : World K} (h : BlockOK w) (hs : sync < w.neus.length) :
    BlockOK (synchronizerRound enc N 0 sync i w).2 := by
  rw [round_world]
  have hl : (roundNeus (K := K) i 0 w.mods.length).length = 10 := rfl
  have hpos := h.pos
  refine ⟨by simp, ?_, ?_, ?_, ?_, ?_, ?_, ?_, ?_⟩
  · intro x hx
    rcases List.mem_cons.mp hx with rfl | hx
    · simp
    · have := h.sub_bd x hx
      simp only [List.length_cons]; omega
  · intro x hx
    simp only [List.length_cons, List.length_append, hl]
    simp only [List.cons_append, List.nil_append, List.mem_cons] at hx
    rcases hx with rfl | rfl | rfl | rfl | rfl | rfl | rfl | rfl | rfl | rfl | hx
    any_goals (simp only []; omega)
    have := h.own_bd x hx
    omega
  · intro s hs'
    simp only [List.length_append, hl]
    rcases List.mem_append.mp hs' with hs' | hs'
    · have := roundSyns_post enc N sync _ s hs'
      omega
    · have := h.syn_bd s hs'
      omega
  · simp only [List.length_append, hl]
    intro n hn
    have hin : ∀ {m}, InTree w 0 m → InTree (⟨roundNeus i 0 w.mods.length ++ w.neus, ⟨some ("mem_" ++ toString i), .plain⟩ :: w.mods,
       [(w.mods.length, w.neus.length + 9), (w.mods.length, w.neus.length + 8), (w.mods.length, w.neus.length + 7),
        (w.mods.length, w.neus.length + 6), (w.mods.length, w.neus.length + 5), (w.mods.length, w.neus.length + 4),
        (w.mods.length, w.neus.length + 3), (w.mods.length, w.neus.length + 2), (0, w.neus.length + 1), (0, w.neus.length)] ++ w.own,
       (0, w.mods.length) :: w.sub, roundSyns enc N sync w.neus.length ++ w.syns⟩ : World K) 0 m := by
      intro m hm
      induction hm with
      | refl => exact .refl
      | tail _ hab ih => exact ih.tail (List.mem_cons_of_mem _ hab)
    by_cases h1 : n < w.neus.length
    · obtain ⟨m, hm, ho⟩ := h.tree n h1
      exact ⟨m, hin hm, List.mem_append_right _ ho⟩
    · by_cases h2 : n < w.neus.length + 2
      · refine ⟨0, .refl, ?_⟩
        show (0, n) ∈ _ ++ _
        refine List.mem_append_left _ ?_
        simp
        omega
      · refine ⟨w.mods.length, Relation.ReflTransGen.single (List.mem_cons_self ..), ?_⟩
        show (w.mods.length, n) ∈ _ ++ _
        refine List.mem_append_left _ ?_
        simp
        omega
  · simp only [List.map_cons, List.nodup_cons]
    refine ⟨?_, h.nodup⟩
    intro hc
    obtain ⟨x, hx, e⟩ := List.mem_map.mp hc
    have := (h.sub_bd x hx).2
    omega
  · intro s hs'
    rcases List.mem_append.mp hs' with hs' | hs'
    · rcases (roundSyns_post enc N sync _ s hs').2.2 with h' | h' <;> simp [h']
    · exact h.kinds s hs'
  · intro x hx
    rcases List.mem_cons.mp hx with rfl | hx
    · exact h.pos
    · exact h.sub_lt x hx
  · simp only [List.map_append, List.map_cons, List.map_nil]
    rw [List.nodup_append]
    refine ⟨by simp, h.own_nd, ?_⟩
    intro a ha b hb
    obtain ⟨x, hx, rfl⟩ := List.mem_map.mp hb
    have := (h.own_bd x hx).2
    simp only [List.mem_cons, List.not_mem_nil, or_false] at ha
    omega

/-- All synapses after `k` channels, newest first. -/
def chanSyns (enc : Encoder K) (N sync b : ℕ) : ℕ → List (Synapse K)
  | 0 => []
  | k + 1 => roundSyns enc N sync (b + 10 * k) ++ chanSyns enc N sync b k

/-- The loop of the constructor. -/
theorem loop_spec (enc : Encoder K) (N sync b : ℕ) : ∀ (k i : ℕ) (w : World K), BlockOK w → sync < w.neus.length →
    w.neus.length = b + 10 * i → (∀ o ∈ w.neus, o.par = stdPar) →
    BlockOK (synchronizerLoop enc N 0 sync i k w).2 ∧
    (synchronizerLoop enc N 0 sync i k w).2.neus.length = b + 10 * (i + k) ∧
    (∀ o ∈ (synchronizerLoop enc N 0 sync i k w).2.neus, o.par = stdPar) ∧
    (w.syns = chanSyns enc N sync b i → (synchronizerLoop enc N 0 sync i k w).2.syns = chanSyns enc N sync b (i + k)) ∧
    (synchronizerLoop enc N 0 sync i k w).1.map (·.1) = (List.range k).map (fun j => b + 10 * (i + j)) ∧
    (synchronizerLoop enc N 0 sync i k w).1.map (·.2.1) = (List.range k).map (fun j => b + 10 * (i + j) + 1) ∧
    (synchronizerLoop enc N 0 sync i k w).1.map (·.2.2.ready) = (List.range k).map (fun j => b + 10 * (i + j) + 8)
  | 0, i, w, h, hs, hl, hp => by
    exact ⟨h, hl, hp, fun e => e, rfl, rfl, rfl⟩
  | k + 1, i, w, h, hs, hl, hp => by
    have h1 := round_ok enc N sync i h hs
    have e := round_world enc N 0 sync i w
    have hlen : (synchronizerRound enc N 0 sync i w).2.neus.length = b + 10 * (i + 1) := by
      rw [e]; simp only [List.length_append]
      rw [show (roundNeus (K := K) i 0 w.mods.length).length = 10 from rfl, hl]; ring
    obtain ⟨r1, r2, r3, r4, r5, r6, r7⟩ := loop_spec enc N sync b k (i + 1) (synchronizerRound enc N 0 sync i w).2 h1 (by omega) hlen (by
      rw [e]
      intro o ho
      rcases List.mem_append.mp ho with ho | ho
      · simp only [roundNeus, List.map_cons, List.map_nil, List.cons_append, List.nil_append, List.mem_cons, List.not_mem_nil, or_false] at ho
        rcases ho with rfl | rfl | rfl | rfl | rfl | rfl | rfl | rfl | rfl | rfl <;> rfl
      · exact hp o ho)
    have hstep : synchronizerLoop enc N 0 sync i (k + 1) w =
      ((synchronizerRound enc N 0 sync i w).1 :: (synchronizerLoop enc N 0 sync (i + 1) k (synchronizerRound enc N 0 sync i w).2).1,
        (synchronizerLoop enc N 0 sync (i + 1) k (synchronizerRound enc N 0 sync i w).2).2) := rfl
    rw [hstep]
    refine ⟨r1, by rw [r2]; ring, r3, ?_, ?_, ?_, ?_⟩
    · intro es
      have := r4 (by
        rw [e]
        show roundSyns enc N sync w.neus.length ++ w.syns = roundSyns enc N sync (b + 10 * i) ++ chanSyns enc N sync b i
        rw [hl, es])
      rw [this]
      congr 1; ring
    · simp only [List.map_cons, r5, round_ports, hl, List.range_succ_eq_map, List.map_map, Nat.add_zero]
      congr 1
      apply List.map_congr_left
      intro j _; simp; ring
    · simp only [List.map_cons, r6, round_ports, hl, List.range_succ_eq_map, List.map_map, Nat.add_zero]
      congr 1
      apply List.map_congr_left
      intro j _; simp; ring
    · simp only [List.map_cons, r7, round_ports, hl, List.range_succ_eq_map, List.map_map, Nat.add_zero]
      congr 1
      apply List.map_congr_left
      intro j _; simp; ring

/-- The world after the statements before the loop. -/
def syncStart (name : Option String) : World K :=
  (addStd 0 "sync" (newModule .plain name (World.empty : World K)).2).2

theorem sync_spec (enc : Encoder K) (N : ℕ) (name) :
    LibOK (synchronizerNetwork enc N name World.empty).2 (1 + 10 * N) ∧
    (synchronizerNetwork enc N name World.empty).2.syns = chanSyns enc N 0 1 N ∧
    (synchronizerNetwork enc N name World.empty).1.mod = 0 ∧
    (synchronizerNetwork enc N name World.empty).1.sync = 0 ∧
    (synchronizerNetwork enc N name World.empty).1.inputs = (List.range N).map (fun j => 1 + 10 * j) ∧
    (synchronizerNetwork enc N name World.empty).1.outputs = (List.range N).map (fun j => 1 + 10 * j + 1) ∧
    (synchronizerNetwork enc N name World.empty).1.blocks.map (·.ready) = (List.range N).map (fun j => 1 + 10 * j + 8) := by
  obtain ⟨r1, r2, r3, r4, r5, r6, r7⟩ := loop_spec enc N 0 1 N 0 (syncStart name) (blockOK_of_check rfl) (show 0 < 1 from Nat.one_pos) rfl
    (by intro o ho; rcases List.mem_singleton.mp ho with rfl; rfl)
  simp only [Nat.zero_add] at r2 r4 r5 r6 r7
  refine ⟨⟨r1, r3, r2⟩, r4 rfl, rfl, rfl, r5, r6, ?_⟩
  rw [← r7]
  exact List.map_map

theorem insOf_append (a b : List (Synapse K)) (k : ℕ) : insOf (a ++ b) k = insOf a k ++ insOf b k := List.filter_append ..

theorem insOf_chan (enc : Encoder K) (N : ℕ) {sync b : ℕ} (hs : sync < b) : ∀ (k j o : ℕ), j < k → o < 10 →
    insOf (chanSyns enc N sync b k) (b + 10 * j + o) = insOf (roundSyns enc N sync (b + 10 * j)) (b + 10 * j + o)
  | 0, j, o, hj, _ => by omega
  | k + 1, j, o, hj, ho => by
    rw [chanSyns, insOf_append]
    by_cases e : j = k
    · subst e
      have : ∀ k' ≤ j, insOf (chanSyns enc N sync b k') (b + 10 * j + o) = [] := by
        intro k'
        induction k' with
        | zero => intro _; rfl
        | succ k' ih =>
          intro hk
          rw [chanSyns, insOf_append, ih (by omega), List.append_nil]
          unfold insOf
          rw [List.filter_eq_nil_iff]
          intro s hs'
          have := roundSyns_post enc N sync _ s hs'
          simp; omega
      rw [this j le_rfl, List.append_nil]
    · rw [insOf_chan enc N hs k j o (by omega) ho]
      have : insOf (roundSyns enc N sync (b + 10 * k)) (b + 10 * j + o) = [] := by
        unfold insOf
        rw [List.filter_eq_nil_iff]
        intro s hs'
        have := roundSyns_post enc N sync _ s hs'
        simp; omega
      rw [this, List.nil_append]

theorem insOf_memShift (enc : Encoder K) (b k : ℕ) :
    insOf ((memSyns enc).map (Synapse.shift b)) (b + k) = (insOf (memSyns enc) k).map (Synapse.shift b) := by
  unfold insOf
  rw [List.filter_map]
  congr 1
  apply List.filter_congr
  intro s _
  simp [Synapse.shift]

theorem insOf_sync (enc : Encoder K) (N : ℕ) {sync b : ℕ} (hs : sync < b) : ∀ k,
    (insOf (chanSyns enc N sync b k) sync).Perm ((List.range k).map (fun j => ⟨b + 10 * j + 8, sync, syncW N, 1, .V⟩))
  | 0 => .refl _
  | k + 1 => by
    rw [chanSyns, insOf_append, List.range_succ, List.map_append]
    have : insOf (roundSyns enc N sync (b + 10 * k)) sync = [⟨b + 10 * k + 8, sync, syncW N, 1, .V⟩] := by
      have hm : insOf ((memSyns enc).map (Synapse.shift (b + 10 * k + 2))) sync = [] := by
        unfold insOf
        rw [List.filter_eq_nil_iff]
        intro s hs'
        obtain ⟨t, _, rfl⟩ := List.mem_map.mp hs'
        intro hc
        have := of_decide_eq_true hc
        simp only [Synapse.shift] at this; omega
      rw [roundSyns, insOf_append, hm, List.append_nil]
      unfold insOf
      rw [List.filter_cons_of_neg (by intro hc; have := of_decide_eq_true hc; dsimp only at this; omega), List.filter_cons_of_pos (by simp),
        List.filter_cons_of_neg (by intro hc; have := of_decide_eq_true hc; dsimp only at this; omega), List.filter_cons_of_neg (by intro hc; have := of_decide_eq_true hc; dsimp only at this; omega)]
      rfl
    rw [this]
    exact List.perm_append_comm.trans ((insOf_sync enc N hs k).append_right _)

end Axon
