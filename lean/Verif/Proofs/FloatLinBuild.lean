import Verif.Model.FloatLin
import Verif.Proofs.FloatSync

/-! # Construction of the linear combinator in floats -/
set_option linter.unusedSectionVars false
namespace Axon
open Spec

/-- Synapses of the channel with coefficient `c` whose first neuron is `b`, newest first. -/
def linRoundFl (enc : Encoder Double) (N : ℕ) (c : Double) (b : ℕ) : List (Synapse Double) :=
  [⟨b + 5, if 0 < c then 1 else 0, -absFl c * enc.waccFl, tsynFl, .ge⟩, ⟨b + 3, if 0 < c then 1 else 0, absFl c * enc.waccFl, tsynFl + enc.Tmin, .ge⟩,
   ⟨b + 4, if 0 < c then 0 else 1, -absFl c * enc.waccFl, tsynFl, .ge⟩, ⟨b + 2, if 0 < c then 0 else 1, absFl c * enc.waccFl, tsynFl + enc.Tmin, .ge⟩,
   ⟨b + 5, 9, linWFl N, tsynFl, .V⟩, ⟨b + 4, 9, linWFl N, tsynFl, .V⟩, ⟨b + 3, b + 3, wiFl, tsynFl, .V⟩, ⟨b + 2, b + 2, wiFl, tsynFl, .V⟩,
   ⟨b + 1, b + 5, Fl.of (1 / 2) * weFl, tsynFl, .V⟩, ⟨b + 1, b + 3, weFl, tsynFl, .V⟩, ⟨b, b + 4, Fl.of (1 / 2) * weFl, tsynFl, .V⟩, ⟨b, b + 2, weFl, tsynFl, .V⟩]

/-- Neurons of a channel, newest first. -/
def linNeusFl (i : ℕ) : List (NeuronObj Double) :=
  ["last_minus_", "last_plus_", "first_minus_", "first_plus_", "input_minus_", "input_plus_"].map
    (fun n => ⟨stdFl, some (n ++ toString i), some 0⟩)

theorem linFl_round_world (enc : Encoder Double) (N i : ℕ) (c : Double) (w : World Double) :
    (linCombRoundFl enc N 0 0 1 9 i c w).2 =
      ⟨linNeusFl i ++ w.neus, w.mods,
       [(0, w.neus.length + 5), (0, w.neus.length + 4), (0, w.neus.length + 3), (0, w.neus.length + 2), (0, w.neus.length + 1), (0, w.neus.length)] ++ w.own,
       w.sub, linRoundFl enc N c w.neus.length ++ w.syns⟩ := rfl

theorem linFl_round_ports (enc : Encoder Double) (N i : ℕ) (c : Double) (w : World Double) :
    (linCombRoundFl enc N 0 0 1 9 i c w).1 = (w.neus.length, w.neus.length + 1) := rfl

theorem linRoundFl_post (enc : Encoder Double) (N b : ℕ) (c : Double) : ∀ s ∈ linRoundFl enc N c b,
    (b ≤ s.pre ∧ s.pre < b + 6) ∧ (s.post = 0 ∨ s.post = 1 ∨ s.post = 9 ∨ (b + 2 ≤ s.post ∧ s.post < b + 6)) ∧
    (s.kind = .V ∨ s.kind = .ge) := by
  intro s hs
  simp only [linRoundFl, List.mem_cons, List.not_mem_nil, or_false] at hs
  rcases hs with rfl | rfl | rfl | rfl | rfl | rfl | rfl | rfl | rfl | rfl | rfl | rfl <;> by_cases h : 0 < c <;> simp [h]

/-- A channel keeps the world well-formed. -/
theorem linFl_round_ok (enc : Encoder Double) (N i : ℕ) (c : Double) {w : World Double} (h : BlockOK w) (hs : 9 < w.neus.length) :
    BlockOK (linCombRoundFl enc N 0 0 1 9 i c w).2 := by
  rw [linFl_round_world]
  have hl : (linNeusFl i).length = 6 := rfl
  have hpos := h.pos
  refine ⟨h.pos, h.sub_bd, ?_, ?_, ?_, h.nodup, ?_, h.sub_lt, ?_⟩
  · intro x hx
    simp only [List.length_append, hl]
    simp only [List.cons_append, List.nil_append, List.mem_cons] at hx
    rcases hx with rfl | rfl | rfl | rfl | rfl | rfl | hx
    any_goals (simp only []; omega)
    have := h.own_bd x hx
    omega
  · intro s hs'
    simp only [List.length_append, hl]
    rcases List.mem_append.mp hs' with hs' | hs'
    · have := linRoundFl_post enc N _ c s hs'
      omega
    · have := h.syn_bd s hs'
      omega
  · simp only [List.length_append, hl]
    intro n hn
    by_cases h1 : n < w.neus.length
    · obtain ⟨m, hm, ho⟩ := h.tree n h1
      exact ⟨m, hm, List.mem_append_right _ ho⟩
    · refine ⟨0, .refl, ?_⟩
      show (0, n) ∈ _ ++ _
      refine List.mem_append_left _ ?_
      simp
      omega
  · intro s hs'
    rcases List.mem_append.mp hs' with hs' | hs'
    · rcases (linRoundFl_post enc N _ c s hs').2.2 with h' | h' <;> simp [h']
    · exact h.kinds s hs'
  · simp only [List.map_append, List.map_cons, List.map_nil]
    rw [List.nodup_append]
    refine ⟨by simp, h.own_nd, ?_⟩
    intro a ha b hb
    obtain ⟨x, hx, rfl⟩ := List.mem_map.mp hb
    have := (h.own_bd x hx).2
    simp only [List.mem_cons, List.not_mem_nil, or_false] at ha
    omega

/-- The synapses of a linear combinator that do not belong to a channel, newest first. -/
def linCoreFl (enc : Encoder Double) : List (Synapse Double) :=
  [⟨3, 4, weFl, tsynFl + enc.Tmin, .V⟩, ⟨2, 5, weFl, tsynFl + enc.Tmin, .V⟩, ⟨1, 4, weFl, tsynFl, .V⟩, ⟨0, 5, weFl, tsynFl, .V⟩,
   ⟨9, 3, enc.waccFl, tsynFl, .ge⟩, ⟨9, 2, enc.waccFl, tsynFl, .ge⟩, ⟨9, 1, enc.waccFl, tsynFl, .ge⟩, ⟨9, 0, enc.waccFl, tsynFl, .ge⟩,
   ⟨4, 21, weFl, tsynFl, .V⟩, ⟨5, 11, weFl, tsynFl, .V⟩, ⟨8, 8, wiFl, tsynFl, .V⟩, ⟨38, 7, weFl, tsynFl, .V⟩,
   ⟨37, 6, weFl, tsynFl, .V⟩, ⟨38, 8, weFl, tsynFl, .V⟩, ⟨37, 8, weFl, tsynFl, .V⟩, ⟨22, 32, weFl, tsynFl, .V⟩,
   ⟨12, 31, weFl, tsynFl, .V⟩, ⟨39, 36, wiFl, tneuFl, .V⟩, ⟨39, 38, Fl.of 2 * wiFl, tneuFl, .V⟩, ⟨34, 39, Fl.of (1 / 2) * weFl, tneuFl, .V⟩,
   ⟨33, 39, Fl.of (1 / 2) * weFl, tneuFl, .V⟩, ⟨34, 39, Fl.of (1 / 2) * wiFl, Fl.of 2 * tneuFl, .V⟩, ⟨33, 39, Fl.of (1 / 2) * wiFl, Fl.of 2 * tneuFl, .V⟩, ⟨39, 39, weFl, tneuFl, .V⟩,
   ⟨38, 35, Fl.of (1 / 2) * weFl, tsynFl, .V⟩, ⟨37, 36, Fl.of (1 / 2) * weFl, tsynFl, .V⟩, ⟨35, 37, Fl.of 2 * wiFl, tsynFl, .V⟩, ⟨36, 38, Fl.of 2 * wiFl, tsynFl, .V⟩,
   ⟨33, 38, weFl, Fl.of 3 * tsynFl + Fl.of 2 * tneuFl, .V⟩, ⟨34, 37, weFl, Fl.of 3 * tsynFl + Fl.of 2 * tneuFl, .V⟩, ⟨34, 38, weFl, enc.Tmin + (Fl.of 3 * tsynFl + Fl.of 2 * tneuFl), .V⟩, ⟨33, 37, weFl, enc.Tmin + (Fl.of 3 * tsynFl + Fl.of 2 * tneuFl), .V⟩,
   ⟨34, 35, wiFl, tsynFl, .V⟩, ⟨33, 36, wiFl, tsynFl, .V⟩, ⟨34, 36, weFl, tsynFl, .V⟩, ⟨33, 35, weFl, tsynFl, .V⟩,
   ⟨32, 34, Fl.of (1 / 2) * weFl, tsynFl, .V⟩, ⟨31, 33, Fl.of (1 / 2) * weFl, tsynFl, .V⟩, ⟨10, 28, weFl, tsynFl, .V⟩, ⟨29, 10, syncWFl 2, tsynFl, .V⟩,
   ⟨30, 22, weFl, tsynFl, .V⟩, ⟨21, 23, weFl, tsynFl, .V⟩, ⟨26, 29, weFl, tsynFl, .V⟩, ⟨27, 30, weFl, tsynFl, .V⟩,
   ⟨28, 30, weFl, Fl.of 2 * tsynFl, .V⟩, ⟨28, 27, enc.waccFl, tsynFl, .ge⟩, ⟨26, 27, -enc.waccFl, tsynFl, .ge⟩, ⟨25, 27, enc.waccFl, Fl.of 2 * tsynFl, .ge⟩,
   ⟨24, 26, enc.waccFl, tsynFl, .ge⟩, ⟨24, 24, wiFl, tsynFl, .V⟩, ⟨23, 25, Fl.of (1 / 2) * weFl, tsynFl, .V⟩, ⟨23, 24, weFl, tsynFl, .V⟩,
   ⟨10, 18, weFl, tsynFl, .V⟩, ⟨19, 10, syncWFl 2, tsynFl, .V⟩, ⟨20, 12, weFl, tsynFl, .V⟩, ⟨11, 13, weFl, tsynFl, .V⟩,
   ⟨16, 19, weFl, tsynFl, .V⟩, ⟨17, 20, weFl, tsynFl, .V⟩, ⟨18, 20, weFl, Fl.of 2 * tsynFl, .V⟩, ⟨18, 17, enc.waccFl, tsynFl, .ge⟩,
   ⟨16, 17, -enc.waccFl, tsynFl, .ge⟩, ⟨15, 17, enc.waccFl, Fl.of 2 * tsynFl, .ge⟩, ⟨14, 16, enc.waccFl, tsynFl, .ge⟩, ⟨14, 14, wiFl, tsynFl, .V⟩,
   ⟨13, 15, Fl.of (1 / 2) * weFl, tsynFl, .V⟩, ⟨13, 14, weFl, tsynFl, .V⟩]

/-- All synapses after `k` channels, newest first. -/
def linSynsFl (enc : Encoder Double) (N : ℕ) (c : ℕ → Double) : ℕ → List (Synapse Double)
  | 0 => linCoreFl enc
  | k + 1 => linRoundFl enc N (c k) (40 + 6 * k) ++ linSynsFl enc N c k

/-- The loop of the constructor. -/
theorem linFl_loop_spec (enc : Encoder Double) (N : ℕ) (c : ℕ → Double) : ∀ (cs : List Double) (i : ℕ) (w : World Double), BlockOK w →
    w.neus.length = 40 + 6 * i → (∀ o ∈ w.neus, o.par = stdFl) → (∀ j < cs.length, cs.getD j 0 = c (i + j)) →
    BlockOK (linCombLoopFl enc N 0 0 1 9 i cs w).2 ∧
    (linCombLoopFl enc N 0 0 1 9 i cs w).2.neus.length = 40 + 6 * (i + cs.length) ∧
    (∀ o ∈ (linCombLoopFl enc N 0 0 1 9 i cs w).2.neus, o.par = stdFl) ∧
    (w.syns = linSynsFl enc N c i → (linCombLoopFl enc N 0 0 1 9 i cs w).2.syns = linSynsFl enc N c (i + cs.length)) ∧
    (linCombLoopFl enc N 0 0 1 9 i cs w).1 = (List.range cs.length).map (fun j => (40 + 6 * (i + j), 40 + 6 * (i + j) + 1))
  | [], i, w, h, hl, hp, _ => ⟨h, hl, hp, fun e => e, rfl⟩
  | c0 :: cs, i, w, h, hl, hp, hc => by
    have h1 := linFl_round_ok enc N i c0 h (by omega)
    have e := linFl_round_world enc N i c0 w
    have ec : c0 = c i := by simpa using hc 0 (by simp)
    have hlen : (linCombRoundFl enc N 0 0 1 9 i c0 w).2.neus.length = 40 + 6 * (i + 1) := by
      rw [e]; simp only [List.length_append]
      rw [show (linNeusFl i).length = 6 from rfl, hl]; ring
    obtain ⟨r1, r2, r3, r4, r5⟩ := linFl_loop_spec enc N c cs (i + 1) (linCombRoundFl enc N 0 0 1 9 i c0 w).2 h1 hlen (by
      rw [e]
      intro o ho
      rcases List.mem_append.mp ho with ho | ho
      · obtain ⟨_, _, rfl⟩ := List.mem_map.mp ho
        rfl
      · exact hp o ho) (by
      intro j hj
      have := hc (j + 1) (by simpa using hj)
      rw [List.getD_cons_succ] at this
      rw [this]; congr 1; ring)
    have hstep : linCombLoopFl enc N 0 0 1 9 i (c0 :: cs) w =
      ((linCombRoundFl enc N 0 0 1 9 i c0 w).1 :: (linCombLoopFl enc N 0 0 1 9 (i + 1) cs (linCombRoundFl enc N 0 0 1 9 i c0 w).2).1,
        (linCombLoopFl enc N 0 0 1 9 (i + 1) cs (linCombRoundFl enc N 0 0 1 9 i c0 w).2).2) := rfl
    rw [hstep]
    refine ⟨r1, by rw [r2, List.length_cons]; ring, r3, ?_, ?_⟩
    · intro es
      have := r4 (by
        rw [e]
        show linRoundFl enc N c0 w.neus.length ++ w.syns = linRoundFl enc N (c i) (40 + 6 * i) ++ linSynsFl enc N c i
        rw [hl, es, ec])
      rw [this, List.length_cons]
      congr 1; ring
    · simp only [List.length_cons, r5, linFl_round_ports, hl, List.range_succ_eq_map, List.map_cons, List.map_map, Nat.add_zero]
      congr 1
      apply List.map_congr_left
      intro j _; simp; ring

theorem linFlStart_ok0 : BlockOK (linearCombinatorFl .plain ⟨Fl.of 10, Fl.of 100⟩ [] none World.empty).2 :=
  blockOK_of_check (by decide +kernel)

set_option maxRecDepth 20000 in
theorem linFlStart_skel (enc : Encoder Double) (k : ModKind) (n : Option String) : skel (linearCombinatorFl k enc [] n World.empty).2 =
    (40, 5, [(4, 39), (4, 38), (4, 37), (4, 36), (4, 35), (4, 34), (4, 33), (4, 32), (4, 31), (3, 30), (3, 29), (3, 28), (3, 27),
      (3, 26), (3, 25), (3, 24), (3, 23), (1, 22), (1, 21), (2, 20), (2, 19), (2, 18), (2, 17), (2, 16), (2, 15), (2, 14),
      (2, 13), (1, 12), (1, 11), (1, 10), (0, 9), (0, 8), (0, 7), (0, 6), (0, 5), (0, 4), (0, 3), (0, 2), (0, 1), (0, 0)],
      [(0, 4), (0, 1), (1, 3), (1, 2)], (linCoreFl ⟨Fl.of 10, Fl.of 100⟩).map (fun s => (s.pre, s.post, s.kind))) := rfl

theorem linFlStart_ok (enc : Encoder Double) (k : ModKind) (n : Option String) : BlockOK (linearCombinatorFl k enc [] n World.empty).2 :=
  blockOK_skel ((linFlStart_skel enc k n).trans (linFlStart_skel _ _ _).symm) linFlStart_ok0

set_option maxRecDepth 20000 in
theorem linFlStart_par (enc : Encoder Double) (k : ModKind) (n : Option String) :
    (linearCombinatorFl k enc [] n World.empty).2.neus.map (·.par) = List.replicate 40 stdFl := rfl

set_option maxRecDepth 20000 in
theorem linFlStart_syns (enc : Encoder Double) (k : ModKind) (n : Option String) :
    (linearCombinatorFl k enc [] n World.empty).2.syns = linCoreFl enc := rfl

set_option maxRecDepth 20000 in
theorem linFl_split (enc : Encoder Double) (k : ModKind) (n : Option String) (cs : List Double) :
    linearCombinatorFl k enc cs n World.empty =
      (⟨⟨0, 6, 7, 8, (linCombLoopFl enc cs.length 0 0 1 9 0 cs (linearCombinatorFl k enc [] n World.empty).2).1.map (·.1),
        (linCombLoopFl enc cs.length 0 0 1 9 0 cs (linearCombinatorFl k enc [] n World.empty).2).1.map (·.2)⟩, 2, 3, 5, 4, 9⟩,
       (linCombLoopFl enc cs.length 0 0 1 9 0 cs (linearCombinatorFl k enc [] n World.empty).2).2) := rfl

theorem linFl_spec (enc : Encoder Double) (k : ModKind) (n : Option String) (cs : List Double) :
    BlockOK (linearCombinatorFl k enc cs n World.empty).2 ∧ (linearCombinatorFl k enc cs n World.empty).2.neus.length = 40 + 6 * cs.length ∧
    (∀ o ∈ (linearCombinatorFl k enc cs n World.empty).2.neus, o.par = stdFl) ∧
    (linearCombinatorFl k enc cs n World.empty).2.syns = linSynsFl enc cs.length (fun i => cs.getD i 0) cs.length ∧
    (linearCombinatorFl k enc cs n World.empty).1 = ⟨⟨0, 6, 7, 8, (List.range cs.length).map (fun j => 40 + 6 * j),
      (List.range cs.length).map (fun j => 40 + 6 * j + 1)⟩, 2, 3, 5, 4, 9⟩ := by
  have hl : (linearCombinatorFl k enc [] n World.empty).2.neus.length = 40 := by
    have := congrArg List.length (linFlStart_par enc k n)
    simpa using this
  have hp : ∀ o ∈ (linearCombinatorFl k enc [] n World.empty).2.neus, o.par = stdFl := by
    intro o ho
    have := List.mem_map_of_mem (f := (·.par)) ho
    rw [linFlStart_par] at this
    exact List.eq_of_mem_replicate this
  obtain ⟨r1, r2, r3, r4, r5⟩ := linFl_loop_spec enc cs.length (fun i => cs.getD i 0) cs 0 _ (linFlStart_ok enc k n) hl hp
    (fun j _ => by rw [Nat.zero_add])
  simp only [Nat.zero_add] at r2 r4 r5
  rw [linFl_split, r5]
  refine ⟨r1, r2, r3, r4 (linFlStart_syns enc k n), ?_⟩
  simp only [List.map_map]
  rfl

/-- The synapses onto a neuron of the core that is not shared by the channels. -/
theorem postLinFl_core (enc : Encoder Double) (N : ℕ) (c : ℕ → Double) {k : ℕ} (h0 : k ≠ 0) (h1 : k ≠ 1) (h9 : k ≠ 9) (hk : k < 40) : ∀ M,
    ((linSynsFl enc N c M).filter fun s => s.post = k) = (linCoreFl enc).filter fun s => s.post = k
  | 0 => rfl
  | M + 1 => by
    rw [linSynsFl, List.filter_append, postLinFl_core enc N c h0 h1 h9 hk M]
    have : ((linRoundFl enc N (c M) (40 + 6 * M)).filter fun s => s.post = k) = [] := by
      rw [List.filter_eq_nil_iff]
      intro s hs hc
      have := linRoundFl_post enc N _ (c M) s hs
      have := of_decide_eq_true hc
      omega
    rw [this, List.nil_append]

theorem linCoreFl_bd (enc : Encoder Double) : ∀ s ∈ linCoreFl enc, s.pre < 40 ∧ s.post < 40 := by
  simp [linCoreFl]

/-- The synapses onto a neuron of channel `i`. -/
theorem postLinFl_chan (enc : Encoder Double) (N : ℕ) (c : ℕ → Double) : ∀ (M i o : ℕ), i < M → o < 6 →
    ((linSynsFl enc N c M).filter fun s => s.post = 40 + 6 * i + o) = (linRoundFl enc N (c i) (40 + 6 * i)).filter fun s => s.post = 40 + 6 * i + o
  | 0, i, o, hi, _ => by omega
  | M + 1, i, o, hi, ho => by
    have other : ∀ j, j ≠ i → ((linRoundFl enc N (c j) (40 + 6 * j)).filter fun s => s.post = 40 + 6 * i + o) = [] := by
      intro j hj
      rw [List.filter_eq_nil_iff]
      intro s hs hc
      have := linRoundFl_post enc N _ (c j) s hs
      have := of_decide_eq_true hc
      omega
    rw [linSynsFl, List.filter_append]
    by_cases e : i = M
    · subst e
      have : ∀ M' ≤ i, ((linSynsFl enc N c M').filter fun s => s.post = 40 + 6 * i + o) = [] := by
        intro M'
        induction M' with
        | zero =>
          intro _
          unfold linSynsFl
          rw [List.filter_eq_nil_iff]
          intro s hs hc
          have := linCoreFl_bd enc s hs
          have := of_decide_eq_true hc
          omega
        | succ M' ih =>
          intro hM
          rw [linSynsFl, List.filter_append, ih (by omega), List.append_nil, other M' (by omega)]
      rw [this i le_rfl, List.append_nil]
    · rw [other M (Ne.symm e), postLinFl_chan enc N c M i o (by omega) ho, List.nil_append]

/-- The synapses onto a neuron shared by the channels. -/
theorem postLinFl_shared (enc : Encoder Double) (N : ℕ) (c : ℕ → Double) {k : ℕ} {f : ℕ → List (Synapse Double)}
    (hf : ∀ i, ((linRoundFl enc N (c i) (40 + 6 * i)).filter fun s => s.post = k) = f i) : ∀ M,
    ((linSynsFl enc N c M).filter fun s => s.post = k).Perm (((linCoreFl enc).filter fun s => s.post = k) ++ (List.range M).flatMap f)
  | 0 => by simp [linSynsFl]
  | M + 1 => by
    rw [linSynsFl, List.filter_append, hf, List.range_succ, List.flatMap_append, List.flatMap_singleton, ← List.append_assoc]
    exact List.perm_append_comm.trans ((postLinFl_shared enc N c hf M).append_right _)

theorem linRoundFl_9 (enc : Encoder Double) (N : ℕ) (c : Double) (b : ℕ) (hb : 40 ≤ b) : ((linRoundFl enc N c b).filter fun s => s.post = 9) =
    [⟨b + 5, 9, linWFl N, tsynFl, .V⟩, ⟨b + 4, 9, linWFl N, tsynFl, .V⟩] := by
  unfold linRoundFl
  obtain ⟨b, rfl⟩ := Nat.exists_eq_add_of_le' hb
  by_cases h : 0 < c <;> simp [h]

end Axon
