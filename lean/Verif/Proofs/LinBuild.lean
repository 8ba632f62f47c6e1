import Verif.Proofs.LinComb
import Verif.Proofs.SyncBuild

/-! # The world built by `LinearCombinatorNetwork(coeffs)` -/
set_option linter.unusedSectionVars false
namespace Axon
open Spec
variable {K : Type*} [Field K] [LinearOrder K] [IsStrictOrderedRing K] [FloorRing K]

/-- Synapses of the channel with coefficient `c` whose first neuron is `b`. -/
def linRoundSyns (enc : Encoder K) (N : ℕ) (c : K) (b : ℕ) : List (Synapse K) :=
  [⟨b + 5, if 0 < c then 1 else 0, -|c| * enc.wacc, 1, .ge⟩, ⟨b + 3, if 0 < c then 1 else 0, |c| * enc.wacc, 1 + enc.Tmin, .ge⟩,
   ⟨b + 4, if 0 < c then 0 else 1, -|c| * enc.wacc, 1, .ge⟩, ⟨b + 2, if 0 < c then 0 else 1, |c| * enc.wacc, 1 + enc.Tmin, .ge⟩,
   ⟨b + 5, 9, 10 / (N : K), 1, .V⟩, ⟨b + 4, 9, 10 / (N : K), 1, .V⟩, ⟨b + 3, b + 3, -10, 1, .V⟩, ⟨b + 2, b + 2, -10, 1, .V⟩,
   ⟨b + 1, b + 5, 1 / 2 * 10, 1, .V⟩, ⟨b + 1, b + 3, 10, 1, .V⟩, ⟨b, b + 4, 1 / 2 * 10, 1, .V⟩, ⟨b, b + 2, 10, 1, .V⟩]

/-- Neurons of a channel, newest first. -/
def linRoundNeus (i : ℕ) : List (NeuronObj K) :=
  ["last_minus_", "last_plus_", "first_minus_", "first_plus_", "input_minus_", "input_plus_"].map
    (fun n => ⟨stdPar, some (n ++ toString i), some 0⟩)

theorem lin_round_world (enc : Encoder K) (N i : ℕ) (c : K) (w : World K) :
    (linCombRound enc N 0 0 1 9 i c w).2 =
      ⟨linRoundNeus i ++ w.neus, w.mods,
       [(0, w.neus.length + 5), (0, w.neus.length + 4), (0, w.neus.length + 3), (0, w.neus.length + 2), (0, w.neus.length + 1), (0, w.neus.length)] ++ w.own,
       w.sub, linRoundSyns enc N c w.neus.length ++ w.syns⟩ := rfl

theorem lin_round_ports (enc : Encoder K) (N i : ℕ) (c : K) (w : World K) :
    (linCombRound enc N 0 0 1 9 i c w).1 = (w.neus.length, w.neus.length + 1) := rfl

theorem linRoundSyns_post (enc : Encoder K) (N b : ℕ) (c : K) : ∀ s ∈ linRoundSyns enc N c b,
    (b ≤ s.pre ∧ s.pre < b + 6) ∧ (s.post = 0 ∨ s.post = 1 ∨ s.post = 9 ∨ (b + 2 ≤ s.post ∧ s.post < b + 6)) ∧
    (s.kind = .V ∨ s.kind = .ge) := by
  intro s hs
  simp only [linRoundSyns, List.mem_cons, List.not_mem_nil, or_false] at hs
  rcases hs with rfl | rfl | rfl | rfl | rfl | rfl | rfl | rfl | rfl | rfl | rfl | rfl <;> by_cases h : 0 < c <;> simp [h]

/-- A channel keeps the world well-formed. -/
theorem lin_round_ok (enc : Encoder K) (N i : ℕ) (c : K) {w : World K} (h : BlockOK w) (hs : 9 < w.neus.length) :
    BlockOK (linCombRound enc N 0 0 1 9 i c w).2 := by
  rw [lin_round_world]
  have hl : (linRoundNeus (K := K) i).length = 6 := rfl
  have hpos := h.pos
  refine ⟨h.pos, h.sub_bd, ?_, ?_, ?_, h.nodup, ?_, h.sub_lt, ?_⟩
  · intro x hx
    simp only [List.length_append, hl]
    simp only [List.cons_append, List.nil_append, List.mem_cons] at hx
    rcases hx with rfl | rfl | rfl | rfl | rfl | rfl | hx
    any_goals (simp only []; omega)
    have := h.own_bd x hx
    omega
  · intro s hs'
    simp only [List.length_append, hl]
    rcases List.mem_append.mp hs' with hs' | hs'
    · have := linRoundSyns_post enc N _ c s hs'
      omega
    · have := h.syn_bd s hs'
      omega
  · simp only [List.length_append, hl]
    intro n hn
    by_cases h1 : n < w.neus.length
    · obtain ⟨m, hm, ho⟩ := h.tree n h1
      exact ⟨m, hm, List.mem_append_right _ ho⟩
    · refine ⟨0, .refl, ?_⟩
      show (0, n) ∈ _ ++ _
      refine List.mem_append_left _ ?_
      simp
      omega
  · intro s hs'
    rcases List.mem_append.mp hs' with hs' | hs'
    · rcases (linRoundSyns_post enc N _ c s hs').2.2 with h' | h' <;> simp [h']
    · exact h.kinds s hs'
  · simp only [List.map_append, List.map_cons, List.map_nil]
    rw [List.nodup_append]
    refine ⟨by simp, h.own_nd, ?_⟩
    intro a ha b hb
    obtain ⟨x, hx, rfl⟩ := List.mem_map.mp hb
    have := (h.own_bd x hx).2
    simp only [List.mem_cons, List.not_mem_nil, or_false] at ha
    omega

/-- All synapses after `k` channels, newest first. -/
def linSyns (enc : Encoder K) (N : ℕ) (c : ℕ → K) : ℕ → List (Synapse K)
  | 0 => linCore enc
  | k + 1 => linRoundSyns enc N (c k) (40 + 6 * k) ++ linSyns enc N c k

/-- The loop of the constructor. -/
theorem lin_loop_spec (enc : Encoder K) (N : ℕ) (c : ℕ → K) : ∀ (cs : List K) (i : ℕ) (w : World K), BlockOK w →
    w.neus.length = 40 + 6 * i → (∀ o ∈ w.neus, o.par = stdPar) → (∀ j < cs.length, cs.getD j 0 = c (i + j)) →
    BlockOK (linCombLoop enc N 0 0 1 9 i cs w).2 ∧
    (linCombLoop enc N 0 0 1 9 i cs w).2.neus.length = 40 + 6 * (i + cs.length) ∧
    (∀ o ∈ (linCombLoop enc N 0 0 1 9 i cs w).2.neus, o.par = stdPar) ∧
    (w.syns = linSyns enc N c i → (linCombLoop enc N 0 0 1 9 i cs w).2.syns = linSyns enc N c (i + cs.length)) ∧
    (linCombLoop enc N 0 0 1 9 i cs w).1 = (List.range cs.length).map (fun j => (40 + 6 * (i + j), 40 + 6 * (i + j) + 1))
  | [], i, w, h, hl, hp, _ => ⟨h, hl, hp, fun e => e, rfl⟩
  | c0 :: cs, i, w, h, hl, hp, hc => by
    have h1 := lin_round_ok enc N i c0 h (by omega)
    have e := lin_round_world enc N i c0 w
    have ec : c0 = c i := by simpa using hc 0 (by simp)
    have hlen : (linCombRound enc N 0 0 1 9 i c0 w).2.neus.length = 40 + 6 * (i + 1) := by
      rw [e]; simp only [List.length_append]
      rw [show (linRoundNeus (K := K) i).length = 6 from rfl, hl]; ring
    obtain ⟨r1, r2, r3, r4, r5⟩ := lin_loop_spec enc N c cs (i + 1) (linCombRound enc N 0 0 1 9 i c0 w).2 h1 hlen (by
      rw [e]
      intro o ho
      rcases List.mem_append.mp ho with ho | ho
      · obtain ⟨_, _, rfl⟩ := List.mem_map.mp ho
        rfl
      · exact hp o ho) (by
      intro j hj
      have := hc (j + 1) (by simpa using hj)
      rw [List.getD_cons_succ] at this
      rw [this]; congr 1; ring)
    have hstep : linCombLoop enc N 0 0 1 9 i (c0 :: cs) w =
      ((linCombRound enc N 0 0 1 9 i c0 w).1 :: (linCombLoop enc N 0 0 1 9 (i + 1) cs (linCombRound enc N 0 0 1 9 i c0 w).2).1,
        (linCombLoop enc N 0 0 1 9 (i + 1) cs (linCombRound enc N 0 0 1 9 i c0 w).2).2) := rfl
    rw [hstep]
    refine ⟨r1, by rw [r2, List.length_cons]; ring, r3, ?_, ?_⟩
    · intro es
      have := r4 (by
        rw [e]
        show linRoundSyns enc N c0 w.neus.length ++ w.syns = linRoundSyns enc N (c i) (40 + 6 * i) ++ linSyns enc N c i
        rw [hl, es, ec])
      rw [this, List.length_cons]
      congr 1; ring
    · simp only [List.length_cons, r5, lin_round_ports, hl, List.range_succ_eq_map, List.map_cons, List.map_map, Nat.add_zero]
      congr 1
      apply List.map_congr_left
      intro j _; simp; ring

theorem linStart_ok0 : BlockOK (linearCombinatorNetwork .plain (⟨10, 100⟩ : Encoder ℚ) [] none World.empty).2 :=
  blockOK_of_check (by decide +kernel)

set_option maxRecDepth 20000 in
theorem linStart_skel (enc : Encoder K) (k : ModKind) (n : Option String) : skel (linearCombinatorNetwork k enc [] n World.empty).2 =
    (40, 5, [(4, 39), (4, 38), (4, 37), (4, 36), (4, 35), (4, 34), (4, 33), (4, 32), (4, 31), (3, 30), (3, 29), (3, 28), (3, 27),
      (3, 26), (3, 25), (3, 24), (3, 23), (1, 22), (1, 21), (2, 20), (2, 19), (2, 18), (2, 17), (2, 16), (2, 15), (2, 14),
      (2, 13), (1, 12), (1, 11), (1, 10), (0, 9), (0, 8), (0, 7), (0, 6), (0, 5), (0, 4), (0, 3), (0, 2), (0, 1), (0, 0)],
      [(0, 4), (0, 1), (1, 3), (1, 2)], (linCore (⟨10, 100⟩ : Encoder ℚ)).map (fun s => (s.pre, s.post, s.kind))) := rfl

theorem linStart_ok (enc : Encoder K) (k : ModKind) (n : Option String) : BlockOK (linearCombinatorNetwork k enc [] n World.empty).2 :=
  blockOK_skel ((linStart_skel enc k n).trans (linStart_skel _ _ _).symm) linStart_ok0

set_option maxRecDepth 20000 in
theorem linStart_par (enc : Encoder K) (k : ModKind) (n : Option String) :
    (linearCombinatorNetwork k enc [] n World.empty).2.neus.map (·.par) = List.replicate 40 stdPar := rfl

set_option maxRecDepth 20000 in
theorem lin_split (enc : Encoder K) (k : ModKind) (n : Option String) (cs : List K) :
    linearCombinatorNetwork k enc cs n World.empty =
      (⟨0, 6, 7, 8, (linCombLoop enc cs.length 0 0 1 9 0 cs (linearCombinatorNetwork k enc [] n World.empty).2).1.map (·.1),
        (linCombLoop enc cs.length 0 0 1 9 0 cs (linearCombinatorNetwork k enc [] n World.empty).2).1.map (·.2)⟩,
       (linCombLoop enc cs.length 0 0 1 9 0 cs (linearCombinatorNetwork k enc [] n World.empty).2).2) := rfl

theorem lin_spec (enc : Encoder K) (k : ModKind) (n : Option String) (cs : List K) :
    LibOK (linearCombinatorNetwork k enc cs n World.empty).2 (40 + 6 * cs.length) ∧
    (linearCombinatorNetwork k enc cs n World.empty).2.syns = linSyns enc cs.length (fun i => cs.getD i 0) cs.length ∧
    (linearCombinatorNetwork k enc cs n World.empty).1 = ⟨0, 6, 7, 8, (List.range cs.length).map (fun j => 40 + 6 * j),
      (List.range cs.length).map (fun j => 40 + 6 * j + 1)⟩ := by
  have hb := LibOK.of (linStart_ok enc k n) (linStart_par enc k n)
  obtain ⟨r1, r2, r3, r4, r5⟩ := lin_loop_spec enc cs.length (fun i => cs.getD i 0) cs 0 _ hb.block hb.len hb.par
    (fun j _ => by rw [Nat.zero_add])
  simp only [Nat.zero_add] at r2 r4 r5
  rw [lin_split, r5]
  refine ⟨⟨r1, r3, r2⟩, r4 (linCore_eq enc k n), ?_⟩
  simp only [List.map_map, LinPorts.mk.injEq, true_and]
  exact ⟨rfl, rfl⟩

theorem insOf_lin_core (enc : Encoder K) (N : ℕ) (c : ℕ → K) {k : ℕ} (h0 : k ≠ 0) (h1 : k ≠ 1) (h9 : k ≠ 9) (hk : k < 40) : ∀ M,
    insOf (linSyns enc N c M) k = insOf (linCore enc) k
  | 0 => rfl
  | M + 1 => by
    rw [linSyns, insOf_append, insOf_lin_core enc N c h0 h1 h9 hk M]
    have : insOf (linRoundSyns enc N (c M) (40 + 6 * M)) k = [] := by
      unfold insOf
      rw [List.filter_eq_nil_iff]
      intro s hs hc
      have := linRoundSyns_post enc N _ (c M) s hs
      have := of_decide_eq_true hc
      omega
    rw [this, List.nil_append]

theorem linCore_bd (enc : Encoder K) : ∀ s ∈ linCore enc, s.pre < 40 ∧ s.post < 40 := by
  have : (linCore enc).map (fun s => (s.pre, s.post)) = (linCore (⟨10, 100⟩ : Encoder ℚ)).map (fun s => (s.pre, s.post)) := rfl
  intro s hs
  have h := List.mem_map_of_mem (f := fun s : Synapse K => (s.pre, s.post)) hs
  rw [this] at h
  have h2 : ∀ p ∈ (linCore (⟨10, 100⟩ : Encoder ℚ)).map (fun s => (s.pre, s.post)), p.1 < 40 ∧ p.2 < 40 := by
    simp [linCore]
  exact h2 _ h

theorem insOf_lin_chan (enc : Encoder K) (N : ℕ) (c : ℕ → K) : ∀ (M i o : ℕ), i < M → o < 6 →
    insOf (linSyns enc N c M) (40 + 6 * i + o) = insOf (linRoundSyns enc N (c i) (40 + 6 * i)) (40 + 6 * i + o)
  | 0, i, o, hi, _ => by omega
  | M + 1, i, o, hi, ho => by
    have other : ∀ j, j ≠ i → insOf (linRoundSyns enc N (c j) (40 + 6 * j)) (40 + 6 * i + o) = [] := by
      intro j hj
      unfold insOf
      rw [List.filter_eq_nil_iff]
      intro s hs hc
      have := linRoundSyns_post enc N _ (c j) s hs
      have := of_decide_eq_true hc
      omega
    rw [linSyns, insOf_append]
    by_cases e : i = M
    · subst e
      have : ∀ M' ≤ i, insOf (linSyns enc N c M') (40 + 6 * i + o) = [] := by
        intro M'
        induction M' with
        | zero =>
          intro _
          unfold insOf linSyns
          rw [List.filter_eq_nil_iff]
          intro s hs hc
          have := linCore_bd enc s hs
          have := of_decide_eq_true hc
          omega
        | succ M' ih =>
          intro hM
          rw [linSyns, insOf_append, ih (by omega), List.append_nil, other M' (by omega)]
      rw [this i le_rfl, List.append_nil]
    · rw [other M (Ne.symm e), insOf_lin_chan enc N c M i o (by omega) ho, List.nil_append]

/-- Inputs of a neuron shared by the channels. -/
theorem insOf_lin_shared (enc : Encoder K) (N : ℕ) (c : ℕ → K) {k : ℕ} {f : ℕ → List (Synapse K)}
    (hf : ∀ i, insOf (linRoundSyns enc N (c i) (40 + 6 * i)) k = f i) : ∀ M,
    (insOf (linSyns enc N c M) k).Perm (insOf (linCore enc) k ++ (List.range M).flatMap f)
  | 0 => by simp [linSyns]
  | M + 1 => by
    rw [linSyns, insOf_append, hf, List.range_succ, List.flatMap_append, List.flatMap_singleton, ← List.append_assoc]
    exact List.perm_append_comm.trans ((insOf_lin_shared enc N c hf M).append_right _)

theorem linRound_0 (enc : Encoder K) (N : ℕ) (c : K) (b : ℕ) : insOf (linRoundSyns enc N c b) 0 =
    [⟨b + (if 0 < c then 4 else 5), 0, -|c| * enc.wacc, 1, .ge⟩, ⟨b + (if 0 < c then 2 else 3), 0, |c| * enc.wacc, 1 + enc.Tmin, .ge⟩] := by
  unfold linRoundSyns insOf
  by_cases h : 0 < c <;> simp [h]

theorem linRound_1 (enc : Encoder K) (N : ℕ) (c : K) (b : ℕ) (hb : 40 ≤ b) : insOf (linRoundSyns enc N c b) 1 =
    [⟨b + (if 0 < c then 5 else 4), 1, -|c| * enc.wacc, 1, .ge⟩, ⟨b + (if 0 < c then 3 else 2), 1, |c| * enc.wacc, 1 + enc.Tmin, .ge⟩] := by
  unfold linRoundSyns insOf
  obtain ⟨b, rfl⟩ := Nat.exists_eq_add_of_le' hb
  by_cases h : 0 < c <;> simp [h]

theorem linRound_9 (enc : Encoder K) (N : ℕ) (c : K) (b : ℕ) (hb : 40 ≤ b) : insOf (linRoundSyns enc N c b) 9 =
    [⟨b + 5, 9, 10 / (N : K), 1, .V⟩, ⟨b + 4, 9, 10 / (N : K), 1, .V⟩] := by
  unfold linRoundSyns insOf
  obtain ⟨b, rfl⟩ := Nat.exists_eq_add_of_le' hb
  by_cases h : 0 < c <;> simp [h]

theorem linRound_first (enc : Encoder K) (N : ℕ) (c : K) (b : ℕ) (hb : 40 ≤ b) {k : ℕ} (hk : k < 2) : insOf (linRoundSyns enc N c b) (b + (2 + k)) =
    [⟨b + (2 + k), b + (2 + k), -10, 1, .V⟩, ⟨b + k, b + (2 + k), 10, 1, .V⟩] := by
  unfold linRoundSyns insOf
  obtain ⟨b, rfl⟩ := Nat.exists_eq_add_of_le' hb
  by_cases h : 0 < c <;> interval_cases k <;> simp [h]

theorem linRound_last (enc : Encoder K) (N : ℕ) (c : K) (b : ℕ) (hb : 40 ≤ b) {k : ℕ} (hk : k < 2) : insOf (linRoundSyns enc N c b) (b + (4 + k)) =
    [⟨b + k, b + (4 + k), 1 / 2 * 10, 1, .V⟩] := by
  unfold linRoundSyns insOf
  obtain ⟨b, rfl⟩ := Nat.exists_eq_add_of_le' hb
  by_cases h : 0 < c <;> interval_cases k <;> simp [h]

/-- The neurons of a linear combinator that are not inputs. -/
def linInner (N : ℕ) : List ℕ := (List.range (40 + 6 * N)).filter (fun k => k < 40 || (k - 40) % 6 ≥ 2)

theorem LinAt.of {net : Net K} {s0 inj} {enc : Encoder K} {x N : ℕ} {c : ℕ → K}
    (E : Embeds net s0 inj x (linSyns enc N c N) (linInner N)) : LinAt net s0 inj enc x N c := by
  have mem : ∀ k < 40, k ∈ linInner N := fun k hk => by simp [linInner]; omega
  have memc : ∀ i < N, ∀ k < 6, 2 ≤ k → 40 + 6 * i + k ∈ linInner N := fun i hi k hk hk' => by
    simp [linInner]; omega
  have shared : ∀ k < 40, ∀ {f : ℕ → List (Synapse K)} (_ : ∀ i, insOf (linRoundSyns enc N (c i) (40 + 6 * i)) k = f i),
      InS net (x + k) ((insOf (linCore enc) k).map (Synapse.shift x) ++ (List.range N).flatMap (fun i => (f i).map (Synapse.shift x))) := by
    intro k hk f hf
    refine (E.ins k (mem k hk)).trans (((insOf_lin_shared enc N c hf N).map _).trans (List.Perm.of_eq ?_))
    rw [List.map_append, List.map_flatMap]
  refine ⟨⟨?_, ?_, ?_⟩, ?_, ?_, ?_, ?_, ?_, ?_, ?_, ?_, ?_⟩
  · intro k hk; exact E.std k (mem k (by simp at hk; omega))
  · intro k hk; exact E.noinj k (mem k (by simp at hk; omega))
  · intro k hk
    have hk' : k ≠ 0 ∧ k ≠ 1 ∧ k ≠ 9 ∧ k < 40 := by simp at hk; omega
    have := E.ins k (mem k hk'.2.2.2)
    rwa [insOf_lin_core enc N c hk'.1 hk'.2.1 hk'.2.2.1 hk'.2.2.2] at this
  · intro k hk; exact E.std k (mem k (by simp at hk; omega))
  · intro k hk; exact E.noinj k (mem k (by simp at hk; omega))
  · refine (shared 0 (by omega) (fun i => linRound_0 enc N (c i) (40 + 6 * i))).trans (List.Perm.of_eq ?_)
    rw [show insOf (linCore enc) 0 = [⟨9, 0, enc.wacc, 1, .ge⟩] from rfl]
    simp only [List.map_cons, List.map_nil, Synapse.shift, List.cons_append, List.nil_append, Nat.add_zero, Nat.add_assoc]
  · refine (shared 1 (by omega) (fun i => linRound_1 enc N (c i) (40 + 6 * i) (by omega))).trans (List.Perm.of_eq ?_)
    rw [show insOf (linCore enc) 1 = [⟨9, 1, enc.wacc, 1, .ge⟩] from rfl]
    simp only [List.map_cons, List.map_nil, Synapse.shift, List.cons_append, List.nil_append, Nat.add_assoc]
  · refine (shared 9 (by omega) (fun i => linRound_9 enc N (c i) (40 + 6 * i) (by omega))).trans (List.Perm.of_eq ?_)
    rw [show insOf (linCore enc) 9 = [] from rfl]
    simp only [List.map_cons, List.map_nil, Synapse.shift, List.nil_append, Nat.add_assoc]
  · intro i hi k hk
    rw [Nat.add_assoc, Nat.add_assoc, ← Nat.add_assoc 40]
    exact E.std _ (memc i hi k (by simp at hk; omega) (by simp at hk; omega))
  · intro i hi k hk
    rw [Nat.add_assoc, Nat.add_assoc, ← Nat.add_assoc 40]
    exact E.noinj _ (memc i hi k (by simp at hk; omega) (by simp at hk; omega))
  · intro i hi k hk
    have := E.ins _ (memc i hi (2 + k) (by omega) (by omega))
    rw [insOf_lin_chan enc N c N i _ hi (by omega), linRound_first enc N (c i) _ (by omega) hk] at this
    rw [show x + 40 + 6 * i + (2 + k) = x + (40 + 6 * i + (2 + k)) by omega, show x + 40 + 6 * i + k = x + (40 + 6 * i + k) by omega]
    exact this
  · intro i hi k hk
    have := E.ins _ (memc i hi (4 + k) (by omega) (by omega))
    rw [insOf_lin_chan enc N c N i _ hi (by omega), linRound_last enc N (c i) _ (by omega) hk] at this
    rw [show x + 40 + 6 * i + (4 + k) = x + (40 + 6 * i + (4 + k)) by omega, show x + 40 + 6 * i + k = x + (40 + 6 * i + k) by omega]
    exact this

end Axon
