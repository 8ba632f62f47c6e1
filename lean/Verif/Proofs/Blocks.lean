import Verif.Spec.Compiler
import Verif.Proofs.Modules
import Mathlib.Algebra.Order.Field.Basic
import Mathlib.Algebra.Order.Field.Rat

/-! # Library modules as blocks: building a module in any world appends a shifted copy -/
set_option linter.unusedSectionVars false
namespace Axon
open Spec
variable {K : Type*} [Field K] [LinearOrder K] [IsStrictOrderedRing K]

/-- Renumber the parent module of a neuron. -/
def NeuronObj.shift {K : Type*} (m : ℕ) (o : NeuronObj K) : NeuronObj K := { o with mod := o.mod.map (m + ·) }

/-- The world `w` with a shifted copy of the world `b` on top. -/
def World.append {K : Type*} (w b : World K) : World K where
  neus := b.neus.map (NeuronObj.shift w.mods.length) ++ w.neus
  mods := b.mods ++ w.mods
  own := b.own.map (fun x => (w.mods.length + x.1, w.neus.length + x.2)) ++ w.own
  sub := b.sub.map (fun x => (w.mods.length + x.1, w.mods.length + x.2)) ++ w.sub
  syns := b.syns.map (Synapse.shift w.neus.length) ++ w.syns

/-- Move the description of a spawned module. -/
def Spawned.shift (m b : ℕ) (s : Spawned) : Spawned := ⟨m + s.mod, s.ins.map (Header.shift b), s.out.shift b⟩

/-- `linCombRound` for a positive coefficient. -/
def linCombRoundPos (enc : Encoder K) (N m acc1p acc1m sync i : ℕ) (c : K) :
    Build K (ℕ × ℕ) := do
  let inputPlus ← addStd m ("input_plus_" ++ toString i)
  let inputMinus ← addStd m ("input_minus_" ++ toString i)
  let firstPlus ← addStd m ("first_plus_" ++ toString i)
  let firstMinus ← addStd m ("first_minus_" ++ toString i)
  let lastPlus ← addStd m ("last_plus_" ++ toString i)
  let lastMinus ← addStd m ("last_minus_" ++ toString i)
  connect inputPlus firstPlus .V cwe cTsyn
  connect inputPlus lastPlus .V (1 / 2 * cwe) cTsyn
  connect inputMinus firstMinus .V cwe cTsyn
  connect inputMinus lastMinus .V (1 / 2 * cwe) cTsyn
  connect firstPlus firstPlus .V cwi cTsyn
  connect firstMinus firstMinus .V cwi cTsyn
  connect lastPlus sync .V (cwe / (N : K)) cTsyn
  connect lastMinus sync .V (cwe / (N : K)) cTsyn
  connect firstPlus acc1p .ge (|c| * enc.wacc) (cTsyn + enc.Tmin)
  connect lastPlus acc1p .ge (-|c| * enc.wacc) cTsyn
  connect firstMinus acc1m .ge (|c| * enc.wacc) (cTsyn + enc.Tmin)
  connect lastMinus acc1m .ge (-|c| * enc.wacc) cTsyn
  return (inputPlus, inputMinus)

theorem linCombRound_pos (enc : Encoder K) (N m acc1p acc1m sync i : ℕ) {c : K} (hc : 0 < c) :
    linCombRound enc N m acc1p acc1m sync i c = linCombRoundPos enc N m acc1p acc1m sync i c := by
  simp only [linCombRound, if_pos hc]; rfl

theorem adder_loop (enc : Encoder K) (N m acc1p acc1m sync : ℕ) :
    linCombLoop enc N m acc1p acc1m sync 0 [1, 1] = (do
      let r ← linCombRoundPos enc N m acc1p acc1m sync 0 1
      let r' ← linCombRoundPos enc N m acc1p acc1m sync 1 1
      return [r, r']) := by
  simp only [linCombLoop, linCombRound_pos _ _ _ _ _ _ _ (zero_lt_one (α := K))]
  rfl

/-- `adderNetwork` with the loop and the sign tests resolved. -/
def adderNetwork' (enc : Encoder K) 
    (name : Option String) : Build K LinPorts := do
  let m ← newModule .adder name
  let acc1p ← addStd m "acc1_plus"
  let acc1m ← addStd m "acc1_minus"
  let acc2p ← addStd m "acc2_plus"
  let acc2m ← addStd m "acc2_minus"
  let interMinus ← addStd m "inter_minus"
  let interPlus ← addStd m "inter_plus"
  let outputPlus ← addStd m "output_plus"
  let outputMinus ← addStd m "output_minus"
  let start ← addStd m "start"
  let sync ← addStd m "sync"
  let syncNet ← synchronizerNetwork enc 2 (some "sync_net")
  let sub ← subtractorNetwork enc (some "sub_net")
  addSubnetwork m syncNet.mod
  addSubnetwork m sub.mod
  connect (syncNet.outputs.getD 0 0) sub.input1 .V cwe cTsyn
  connect (syncNet.outputs.getD 1 0) sub.input2 .V cwe cTsyn
  connect sub.outputPlus start .V cwe cTsyn
  connect sub.outputMinus start .V cwe cTsyn
  connect sub.outputPlus outputPlus .V cwe cTsyn
  connect sub.outputMinus outputMinus .V cwe cTsyn
  connect start start .V cwi cTsyn
  connect interPlus (syncNet.inputs.getD 0 0) .V cwe cTsyn
  connect interMinus (syncNet.inputs.getD 1 0) .V cwe cTsyn
  connect sync acc1p .ge enc.wacc cTsyn
  connect sync acc1m .ge enc.wacc cTsyn
  connect sync acc2p .ge enc.wacc cTsyn
  connect sync acc2m .ge enc.wacc cTsyn
  connect acc1p interPlus .V cwe cTsyn
  connect acc1m interMinus .V cwe cTsyn
  connect acc2p interPlus .V cwe (cTsyn + enc.Tmin)
  connect acc2m interMinus .V cwe (cTsyn + enc.Tmin)
  let r ← linCombRoundPos enc 2 m acc1p acc1m sync 0 1
  let r' ← linCombRoundPos enc 2 m acc1p acc1m sync 1 1
  return ⟨m, outputPlus, outputMinus, start, [r.1, r'.1], [r.2, r'.2]⟩

theorem adder_eq (enc : Encoder K) (name) : adderNetwork enc name = adderNetwork' enc name := by
  simp only [adderNetwork, linearCombinatorNetwork, List.length_cons, List.length_nil, adder_loop]
  rfl


set_option maxHeartbeats 4000000 in
set_option maxRecDepth 20000 in
theorem adder_append (w : World K) (e n) :
    (adderNetwork' e n w).2 = w.append (adderNetwork' e n World.empty).2 := rfl

set_option maxRecDepth 20000 in
theorem adder_ports (w : World K) (e n) :
    (adderNetwork' e n w).1 = ⟨w.mods.length, w.neus.length + 6, w.neus.length + 7, w.neus.length + 8,
      [w.neus.length + 40, w.neus.length + 46], [w.neus.length + 41, w.neus.length + 47]⟩ := rfl

set_option maxRecDepth 20000 in
theorem mulNorm_append (w : World K) (e f n) :
    (signedMultiplierNormNetwork e f n w).2 = w.append (signedMultiplierNormNetwork e f n World.empty).2 := rfl

set_option maxRecDepth 20000 in
theorem mulNorm_ports (w : World K) (e f n) :
    (signedMultiplierNormNetwork e f n w).1 = ⟨w.mods.length, w.neus.length + 18, w.neus.length + 19,
      w.neus.length + 20, w.neus.length + 21, w.neus.length + 22, w.neus.length + 23⟩ := rfl

/-- The spawned adder, with explicit ports. -/
theorem spawn_add (norm : K) : ∃ b, spawn .add norm = .ok b ∧ ∀ w : World K, b w =
    (⟨w.mods.length, [⟨w.neus.length + 40, w.neus.length + 41⟩, ⟨w.neus.length + 46, w.neus.length + 47⟩],
      ⟨w.neus.length + 6, w.neus.length + 7⟩⟩, (adderNetwork' defaultEncoder (some "adder_mod") w).2) := by
  refine ⟨_, rfl, fun w => ?_⟩
  have key : ∀ (a : Build K LinPorts) (f : LinPorts → Spawned), (do let m ← a; return f m : Build K Spawned) w =
    (f (a w).1, (a w).2) := fun _ _ => rfl
  rw [key, adder_eq, adder_ports]
  rfl

theorem spawn_mul (norm : K) : ∃ b, spawn .mul norm = .ok b ∧ ∀ w : World K, b w =
    (⟨w.mods.length, [⟨w.neus.length + 18, w.neus.length + 19⟩, ⟨w.neus.length + 20, w.neus.length + 21⟩],
      ⟨w.neus.length + 22, w.neus.length + 23⟩⟩,
      (signedMultiplierNormNetwork defaultEncoder norm (some "mul_norm_mod") w).2) := by
  refine ⟨_, rfl, fun w => ?_⟩
  have key : ∀ (a : Build K SMulPorts) (f : SMulPorts → Spawned), (do let m ← a; return f m : Build K Spawned) w =
    (f (a w).1, (a w).2) := fun _ _ => rfl
  rw [key, mulNorm_ports]

theorem spawn_at {op : OpType} {norm : K} {b : Build K Spawned} (h : spawn op norm = .ok b) (w : World K) :
    b w = ((spawnEmpty op norm).1.shift w.mods.length w.neus.length, w.append (spawnEmpty op norm).2) := by
  cases op with
  | add =>
    obtain ⟨b', h', e⟩ := spawn_add norm
    have hb : b' = b := Except.ok.inj (h'.symm.trans h)
    subst hb
    have es : spawnEmpty .add norm = b' World.empty := by simp only [spawnEmpty, h']
    rw [es, e w, e World.empty, adder_append]
    rfl
  | mul =>
    obtain ⟨b', h', e⟩ := spawn_mul norm
    have hb : b' = b := Except.ok.inj (h'.symm.trans h)
    subst hb
    have es : spawnEmpty .mul norm = b' World.empty := by simp only [spawnEmpty, h']
    rw [es, e w, e World.empty, mulNorm_append]
    rfl
  | load => obtain rfl := Except.ok.inj h; rfl
  | neg => obtain rfl := Except.ok.inj h; rfl
  | pow => cases h
  | div => cases h

/-- Facts about the contents of a block. -/
structure BlockOK {K : Type*} (B : World K) : Prop where
  pos : 0 < B.mods.length
  sub_bd : ∀ x ∈ B.sub, x.1 < B.mods.length ∧ x.2 < B.mods.length
  own_bd : ∀ x ∈ B.own, x.1 < B.mods.length ∧ x.2 < B.neus.length
  syn_bd : ∀ s ∈ B.syns, s.pre < B.neus.length ∧ s.post < B.neus.length
  tree : ∀ n < B.neus.length, ∃ m, InTree B 0 m ∧ Owns B m n
  nodup : (B.sub.map (·.2)).Nodup
  kinds : ∀ s ∈ B.syns, s.kind = .V ∨ s.kind = .ge ∨ s.kind = .gf ∨ s.kind = .gate
  sub_lt : ∀ x ∈ B.sub, x.1 < x.2
  own_nd : (B.own.map (·.2)).Nodup

/-- The same facts in checkable form. -/
def blockCheck {K : Type*} (B : World K) : Bool :=
  decide (0 < B.mods.length) && decide (∀ x ∈ B.sub, x.1 < B.mods.length ∧ x.2 < B.mods.length) &&
  decide (∀ x ∈ B.own, x.1 < B.mods.length ∧ x.2 < B.neus.length) &&
  decide (∀ s ∈ B.syns, s.pre < B.neus.length ∧ s.post < B.neus.length) &&
  decide ((B.sub.map (·.2)).Nodup) &&
  decide (∀ s ∈ B.syns, s.kind = .V ∨ s.kind = .ge ∨ s.kind = .gf ∨ s.kind = .gate) &&
  (match B.neurons 0 with
    | .ok ns => decide (∀ n < B.neus.length, n ∈ ns)
    | .error _ => false) &&
  decide (∀ x ∈ B.sub, x.1 < x.2) && decide ((B.own.map (·.2)).Nodup)

theorem blockOK_of_check {K : Type*} {B : World K} (h : blockCheck B = true) : BlockOK B := by
  simp only [blockCheck, Bool.and_eq_true, decide_eq_true_eq] at h
  obtain ⟨⟨⟨⟨⟨⟨⟨⟨h1, h2⟩, h3⟩, h4⟩, h5⟩, h6⟩, h7⟩, h8⟩, h9⟩ := h
  refine ⟨h1, h2, h3, h4, ?_, h5, h6, h8, h9⟩
  intro n hn
  cases e : B.neurons 0 with
  | error _ => rw [e] at h7; cases h7
  | ok ns =>
    rw [e] at h7
    exact (neuronsFuel_mem e n).mp (of_decide_eq_true h7 n hn)

/-- The part of a world that does not mention numbers. -/
def skel {K : Type*} (B : World K) : ℕ × ℕ × List (ℕ × ℕ) × List (ℕ × ℕ) × List (ℕ × ℕ × SynKind) :=
  (B.neus.length, B.mods.length, B.own, B.sub, B.syns.map (fun s => (s.pre, s.post, s.kind)))

theorem blockOK_skel {K K' : Type*} {B : World K} {B' : World K'} (h : skel B = skel B') (h' : BlockOK B') :
    BlockOK B := by
  simp only [skel, Prod.mk.injEq] at h
  obtain ⟨e1, e2, e3, e4, e5⟩ := h
  have es : ∀ s ∈ B.syns, ∃ s' ∈ B'.syns, s'.pre = s.pre ∧ s'.post = s.post ∧ s'.kind = s.kind := by
    intro s hs
    have : (s.pre, s.post, s.kind) ∈ B'.syns.map (fun s => (s.pre, s.post, s.kind)) := by
      rw [← e5]; exact List.mem_map_of_mem hs
    obtain ⟨s', hs', e⟩ := List.mem_map.mp this
    simp only [Prod.mk.injEq] at e
    exact ⟨s', hs', e⟩
  refine ⟨e2 ▸ h'.pos, by rw [e4, e2]; exact h'.sub_bd, by rw [e3, e2, e1]; exact h'.own_bd, ?_, ?_, by rw [e4]; exact h'.nodup, ?_,
    by rw [e4]; exact h'.sub_lt, by rw [e3]; exact h'.own_nd⟩
  · intro s hs
    obtain ⟨s', hs', a, b, -⟩ := es s hs
    rw [← a, ← b, e1]; exact h'.syn_bd s' hs'
  · rw [e1]
    intro n hn
    obtain ⟨m, hm, ho⟩ := h'.tree n hn
    refine ⟨m, ?_, by unfold Owns; rw [e3]; exact ho⟩
    have : Child B = Child B' := by funext a b; simp only [Child, e4]
    unfold InTree; rw [this]; exact hm
  · intro s hs
    obtain ⟨s', hs', -, -, c⟩ := es s hs
    rw [← c]; exact h'.kinds s' hs'

theorem adder_ok0 : BlockOK (adderNetwork' (⟨10, 100⟩ : Encoder ℚ) none World.empty).2 :=
  blockOK_of_check (by decide +kernel)

theorem mulNorm_ok0 : BlockOK (signedMultiplierNormNetwork (⟨10, 100⟩ : Encoder ℚ) 1 none World.empty).2 :=
  blockOK_of_check (by decide +kernel)

set_option maxRecDepth 20000 in
theorem mulNorm_skel {K : Type*} [Field K] (e : Encoder K) (f n) :
    skel (signedMultiplierNormNetwork e f n World.empty).2 =
      (28, 3, [(0, 27), (0, 26), (0, 25), (0, 24), (0, 23), (0, 22), (0, 21), (0, 20), (0, 19), (0, 18), (2,
      17), (2, 16), (2, 15), (2, 14), (2, 13), (2, 12), (1, 11), (1, 10), (1, 9), (1, 8), (1, 7), (1, 6), (1,
      5), (1, 4), (1, 3), (1, 2), (1, 1), (1, 0)], [(0, 2), (0, 1)], [(27, 23, .V), (26, 22, .V), (25, 22,
      .V), (24, 23, .V), (17, 23, .V), (17, 22, .V), (11, 12, .V), (27, 26, .V), (27, 25, .V), (26, 27, .V),
      (26, 24, .V), (25, 27, .V), (25, 24, .V), (24, 26, .V), (24, 25, .V), (21, 27, .V), (21, 26, .V), (20,
      25, .V), (20, 24, .V), (19, 27, .V), (19, 25, .V), (18, 26, .V), (18, 24, .V), (21, 1, .V), (20, 1, .V),
      (19, 0, .V), (18, 0, .V), (15, 17, .V), (15, 16, .ge), (16, 17, .V), (15, 16, .ge), (14, 16, .ge), (13,
      15, .ge), (13, 13, .V), (12, 14, .V), (12, 13, .V), (5, 11, .V), (5, 11, .V), (11, 5, .V), (1, 5, .V),
      (0, 5, .V), (10, 11, .V), (9, 10, .gf), (9, 10, .gate), (9, 4, .gate), (9, 4, .gf), (8, 11, .V), (8, 10,
      .ge), (8, 10, .gate), (4, 8, .gate), (4, 8, .gf), (7, 9, .V), (7, 8, .ge), (6, 8, .ge), (6, 6, .V), (1,
      7, .V), (1, 6, .V), (3, 9, .V), (3, 4, .ge), (2, 4, .ge), (2, 2, .V), (0, 3, .V), (0, 2, .V)]) := rfl

set_option maxHeartbeats 1000000 in
set_option maxRecDepth 20000 in
theorem adder_skel (e : Encoder K) (n) : skel (adderNetwork' e n World.empty).2 =
      (52, 5, [(0, 51), (0, 50), (0, 49), (0, 48), (0, 47), (0, 46), (0, 45), (0, 44), (0, 43), (0, 42), (0,
      41), (0, 40), (4, 39), (4, 38), (4, 37), (4, 36), (4, 35), (4, 34), (4, 33), (4, 32), (4, 31), (3, 30),
      (3, 29), (3, 28), (3, 27), (3, 26), (3, 25), (3, 24), (3, 23), (1, 22), (1, 21), (2, 20), (2, 19), (2,
      18), (2, 17), (2, 16), (2, 15), (2, 14), (2, 13), (1, 12), (1, 11), (1, 10), (0, 9), (0, 8), (0, 7), (0,
      6), (0, 5), (0, 4), (0, 3), (0, 2), (0, 1), (0, 0)], [(0, 4), (0, 1), (1, 3), (1, 2)], [(51, 1, .ge),
      (49, 1, .ge), (50, 0, .ge), (48, 0, .ge), (51, 9, .V), (50, 9, .V), (49, 49, .V), (48, 48, .V), (47, 51,
      .V), (47, 49, .V), (46, 50, .V), (46, 48, .V), (45, 1, .ge), (43, 1, .ge), (44, 0, .ge), (42, 0, .ge),
      (45, 9, .V), (44, 9, .V), (43, 43, .V), (42, 42, .V), (41, 45, .V), (41, 43, .V), (40, 44, .V), (40, 42,
      .V), (3, 4, .V), (2, 5, .V), (1, 4, .V), (0, 5, .V), (9, 3, .ge), (9, 2, .ge), (9, 1, .ge), (9, 0, .ge),
      (4, 21, .V), (5, 11, .V), (8, 8, .V), (38, 7, .V), (37, 6, .V), (38, 8, .V), (37, 8, .V), (22, 32, .V),
      (12, 31, .V), (39, 36, .V), (39, 38, .V), (34, 39, .V), (33, 39, .V), (34, 39, .V), (33, 39, .V), (39,
      39, .V), (38, 35, .V), (37, 36, .V), (35, 37, .V), (36, 38, .V), (33, 38, .V), (34, 37, .V), (34, 38,
      .V), (33, 37, .V), (34, 35, .V), (33, 36, .V), (34, 36, .V), (33, 35, .V), (32, 34, .V), (31, 33, .V),
      (10, 28, .V), (29, 10, .V), (30, 22, .V), (21, 23, .V), (26, 29, .V), (27, 30, .V), (28, 30, .V), (28,
      27, .ge), (26, 27, .ge), (25, 27, .ge), (24, 26, .ge), (24, 24, .V), (23, 25, .V), (23, 24, .V), (10,
      18, .V), (19, 10, .V), (20, 12, .V), (11, 13, .V), (16, 19, .V), (17, 20, .V), (18, 20, .V), (18, 17,
      .ge), (16, 17, .ge), (15, 17, .ge), (14, 16, .ge), (14, 14, .V), (13, 15, .V), (13, 14, .V)]) := rfl

theorem mulNorm_ok (e : Encoder K) (f n) : BlockOK (signedMultiplierNormNetwork e f n World.empty).2 :=
  blockOK_skel ((mulNorm_skel e f n).trans (mulNorm_skel _ _ _).symm) mulNorm_ok0

theorem adder_ok (e : Encoder K) (n) : BlockOK (adderNetwork' e n World.empty).2 :=
  blockOK_skel ((adder_skel e n).trans (adder_skel _ _).symm) adder_ok0

theorem signFlipper_ok (n) : BlockOK (signFlipperNetwork n (World.empty : World K)).2 :=
  blockOK_of_check rfl

theorem injector_ok (n) : BlockOK (injectorNetwork n (World.empty : World K)).2 :=
  blockOK_of_check rfl

end Axon
