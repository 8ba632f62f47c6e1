import Verif.Proofs.Blocks
import Verif.Proofs.Scalar
import Verif.Spec.Compiler
import Mathlib.Tactic.Linarith

/-! # Lemmas on the compiler -/
set_option linter.unusedSectionVars false
namespace Axon
open Spec
variable {K : Type*} [Field K] [LinearOrder K] [IsStrictOrderedRing K]

theorem spawn_error {op : OpType} (norm : K) (h : ¬ Compilable op) : spawn op norm = .error .exception := by
  cases op <;> simp [Compilable] at h <;> rfl

theorem spawn_some {op : OpType} (norm : K) (h : Compilable op) : ∃ b, spawn op norm = .ok b := by
  rcases h with rfl | rfl | rfl | rfl <;> exact ⟨_, rfl⟩

/-- Description of the module and its ports, in the empty world. -/
structure SpawnFacts (op : OpType) (S : Spawned) (B : World K) : Prop where
  ok : BlockOK B
  mod : S.mod = 0
  ins : S.ins.length = arity op
  kind : B.mods.reverse[0]?.map (·.kind) = some (kindFor op)
  out : PortOf B 0 (outNames op) S.out
  inp : ∀ (k : ℕ) hd nm, S.ins[k]? = some hd → (inNames op)[k]? = some nm → PortOf B 0 nm hd
  par : ∀ o ∈ B.neus, o.par = ⟨10, 100, 20, 0⟩
  nmod : ∀ o ∈ B.neus, o.mod.isSome

theorem spawnEmpty_add (norm : K) : spawnEmpty .add norm =
    (⟨0, [⟨40, 41⟩, ⟨46, 47⟩], ⟨6, 7⟩⟩, (adderNetwork' defaultEncoder (some "adder_mod") World.empty).2) := by
  obtain ⟨b, h, e⟩ := spawn_add norm
  simp only [spawnEmpty, h, e]; rfl

theorem spawnEmpty_mul (norm : K) : spawnEmpty .mul norm =
    (⟨0, [⟨18, 19⟩, ⟨20, 21⟩], ⟨22, 23⟩⟩,
      (signedMultiplierNormNetwork defaultEncoder norm (some "mul_norm_mod") World.empty).2) := by
  obtain ⟨b, h, e⟩ := spawn_mul norm
  simp only [spawnEmpty, h, e]; rfl

/-- Names of the neurons, newest first. -/
def nameList {K : Type*} (B : World K) : List (Option String) := B.neus.map (·.name)

set_option maxRecDepth 20000 in
theorem mulNorm_names {K : Type*} [Field K] (e : Encoder K) (f n) :
    nameList (signedMultiplierNormNetwork e f n World.empty).2 =
      [some "sign4", some "sign3", some "sign2", some "sign1", some "output_minus", some "output_plus", some
      "input2_minus", some "input2_plus", some "input1_minus", some "input1_plus", some "output", some "acc",
      some "acc", some "last", some "first", some "input", some "output", some "acc_exp", some "sync", some
      "acc_log2", some "last2", some "first2", some "zero", some "acc_log1", some "last1", some "first1", some
      "input2", some "input1"] := rfl

set_option maxHeartbeats 1000000 in
set_option maxRecDepth 20000 in
theorem adder_names (e : Encoder K) (n) : nameList (adderNetwork' e n World.empty).2 =
      [some "last_minus_1", some "last_plus_1", some "first_minus_1", some "first_plus_1", some
      "input_minus_1", some "input_plus_1", some "last_minus_0", some "last_plus_0", some "first_minus_0",
      some "first_plus_0", some "input_minus_0", some "input_plus_0", some "zero", some "output_minus", some
      "output_plus", some "inb2", some "inb1", some "sync2", some "sync1", some "input2", some "input1", some
      "output", some "ready", some "recall", some "acc2", some "acc", some "last", some "first", some "input",
      some "output_1", some "input_1", some "output", some "ready", some "recall", some "acc2", some "acc",
      some "last", some "first", some "input", some "output_0", some "input_0", some "sync", some "sync", some
      "start", some "output_minus", some "output_plus", some "inter_plus", some "inter_minus", some
      "acc2_minus", some "acc2_plus", some "acc1_minus", some "acc1_plus"] := rfl

set_option maxRecDepth 20000 in
theorem mulNorm_par {K : Type*} [Field K] (e : Encoder K) (f n) :
    (signedMultiplierNormNetwork e f n World.empty).2.neus.map (·.par) = List.replicate 28 ⟨10, 100, 20, 0⟩ := rfl

set_option maxHeartbeats 1000000 in
set_option maxRecDepth 20000 in
theorem adder_par (e : Encoder K) (n) :
    (adderNetwork' e n World.empty).2.neus.map (·.par) = List.replicate 52 ⟨10, 100, 20, 0⟩ := rfl

set_option maxRecDepth 20000 in
theorem mulNorm_nmod {K : Type*} [Field K] (e : Encoder K) (f n) :
    (signedMultiplierNormNetwork e f n World.empty).2.neus.map (·.mod.isSome) = List.replicate 28 true := rfl

set_option maxHeartbeats 1000000 in
set_option maxRecDepth 20000 in
theorem adder_nmod (e : Encoder K) (n) :
    (adderNetwork' e n World.empty).2.neus.map (·.mod.isSome) = List.replicate 52 true := rfl

theorem nmod_of_replicate {B : World K} {k : ℕ} (h : B.neus.map (·.mod.isSome) = List.replicate k true) :
    ∀ o ∈ B.neus, o.mod.isSome := by
  intro o ho
  have : o.mod.isSome ∈ List.replicate k true := h ▸ List.mem_map_of_mem (f := fun o => o.mod.isSome) ho
  exact List.eq_of_mem_replicate this

theorem par_of_replicate {B : World K} {k : ℕ} {p : Params K} (h : B.neus.map (·.par) = List.replicate k p) :
    ∀ o ∈ B.neus, o.par = p := by
  intro o ho
  have : o.par ∈ List.replicate k p := h ▸ List.mem_map_of_mem ho
  exact List.eq_of_mem_replicate this

theorem portOf_of {B : World K} {nm : String × String} {hd : Header} {ns : List (Option String)}
    (h1 : nameList B = ns) (h2 : (0, hd.plus) ∈ B.own) (h3 : (0, hd.minus) ∈ B.own)
    (h4 : ns.reverse[hd.plus]? = some (some nm.1)) (h5 : ns.reverse[hd.minus]? = some (some nm.2)) :
    PortOf B 0 nm hd := by
  refine ⟨h2, h3, ?_, ?_⟩
  · rw [← h4, ← h1, nameList, ← List.map_reverse, List.getElem?_map]
  · rw [← h5, ← h1, nameList, ← List.map_reverse, List.getElem?_map]

theorem mulNorm_kinds {K : Type*} [Field K] (e : Encoder K) (f n) :
    (signedMultiplierNormNetwork e f n World.empty).2.mods.map (·.kind) = [.plain, .plain, .signedMulNorm] := rfl

set_option maxHeartbeats 1000000 in
set_option maxRecDepth 20000 in
theorem adder_kinds (e : Encoder K) (n) :
    (adderNetwork' e n World.empty).2.mods.map (·.kind) = [.plain, .plain, .plain, .plain, .adder] := rfl

theorem kind_of {B : World K} {ks : List ModKind} {k : ModKind} (h : B.mods.map (·.kind) = ks)
    (hk : ks.reverse[0]? = some k) : B.mods.reverse[0]?.map (·.kind) = some k := by
  rw [← hk, ← h, ← List.map_reverse, List.getElem?_map]

theorem facts_add (e : Encoder K) (n : Option String) :
    SpawnFacts .add ⟨0, [⟨40, 41⟩, ⟨46, 47⟩], ⟨6, 7⟩⟩ (adderNetwork' e n World.empty).2 := by
  have hs := adder_skel (K := K) e n
  have hn := adder_names (K := K) e n
  have hk := adder_kinds (K := K) e n
  have ho := adder_ok (K := K) e n
  have hp := par_of_replicate (adder_par (K := K) e n)
  have hm := nmod_of_replicate (adder_nmod (K := K) e n)
  generalize (adderNetwork' e n World.empty).2 = B at *
  simp only [skel, Prod.mk.injEq] at hs
  obtain ⟨e1, e2, e3, e4, e5⟩ := hs
  refine ⟨ho, rfl, rfl, kind_of hk rfl, portOf_of hn (by rw [e3]; decide) (by rw [e3]; decide) rfl rfl, ?_, hp, hm⟩
  intro k hd nm h1 h2
  match k with
  | 0 => cases h1; cases h2; exact portOf_of hn (by rw [e3]; decide) (by rw [e3]; decide) rfl rfl
  | 1 => cases h1; cases h2; exact portOf_of hn (by rw [e3]; decide) (by rw [e3]; decide) rfl rfl
  | k + 2 => simp at h1

theorem facts_mul (e : Encoder K) (f : K) (n : Option String) :
    SpawnFacts .mul ⟨0, [⟨18, 19⟩, ⟨20, 21⟩], ⟨22, 23⟩⟩ (signedMultiplierNormNetwork e f n World.empty).2 := by
  have hs := mulNorm_skel (K := K) e f n
  have hn := mulNorm_names (K := K) e f n
  have hk := mulNorm_kinds (K := K) e f n
  have ho := mulNorm_ok (K := K) e f n
  have hp := par_of_replicate (mulNorm_par (K := K) e f n)
  have hm := nmod_of_replicate (mulNorm_nmod (K := K) e f n)
  generalize (signedMultiplierNormNetwork e f n World.empty).2 = B at *
  simp only [skel, Prod.mk.injEq] at hs
  obtain ⟨e1, e2, e3, e4, e5⟩ := hs
  refine ⟨ho, rfl, rfl, kind_of hk rfl, portOf_of hn (by rw [e3]; decide) (by rw [e3]; decide) rfl rfl, ?_, hp, hm⟩
  intro k hd nm h1 h2
  match k with
  | 0 => cases h1; cases h2; exact portOf_of hn (by rw [e3]; decide) (by rw [e3]; decide) rfl rfl
  | 1 => cases h1; cases h2; exact portOf_of hn (by rw [e3]; decide) (by rw [e3]; decide) rfl rfl
  | k + 2 => simp at h1

theorem facts_load (norm : K) :
    SpawnFacts .load (spawnEmpty .load norm).1 (spawnEmpty .load norm).2 := by
  have e3 : (spawnEmpty .load norm).2.own = [(0, 1), (0, 0)] := rfl
  refine ⟨injector_ok _, rfl, rfl, rfl, ⟨?_, ?_, rfl, rfl⟩, ?_, par_of_replicate (k := 2) rfl,
    nmod_of_replicate (k := 2) rfl⟩
  · unfold Owns; rw [e3]; exact List.mem_cons_of_mem _ List.mem_cons_self
  · unfold Owns; rw [e3]; exact List.mem_cons_self
  · intro k hd nm h1; cases h1

theorem facts_neg (norm : K) :
    SpawnFacts .neg (spawnEmpty .neg norm).1 (spawnEmpty .neg norm).2 := by
  have e3 : (spawnEmpty .neg norm).2.own = [(0, 3), (0, 2), (0, 1), (0, 0)] := rfl
  have hn : nameList (spawnEmpty .neg norm).2 = [some "outp_minus", some "outp_plus", some "inp_minus", some "inp_plus"] := rfl
  have h0 : (spawnEmpty .neg norm).1 = ⟨0, [⟨0, 1⟩], ⟨2, 3⟩⟩ := rfl
  have hk : (spawnEmpty .neg norm).2.mods.map (·.kind) = [.signFlipper] := rfl
  have ho : BlockOK (spawnEmpty .neg norm).2 := signFlipper_ok _
  have hp : ∀ o ∈ (spawnEmpty .neg norm).2.neus, o.par = ⟨10, 100, 20, 0⟩ := par_of_replicate (k := 4) rfl
  have hm : ∀ o ∈ (spawnEmpty .neg norm).2.neus, o.mod.isSome := nmod_of_replicate (k := 4) rfl
  rw [h0]
  generalize (spawnEmpty .neg norm).2 = B at *
  refine ⟨ho, rfl, rfl, kind_of hk rfl, portOf_of hn (by rw [e3]; decide) (by rw [e3]; decide) rfl rfl, ?_, hp, hm⟩
  intro k hd nm h1 h2
  match k with
  | 0 => cases h1; cases h2; exact portOf_of hn (by rw [e3]; decide) (by rw [e3]; decide) rfl rfl
  | k + 1 => simp at h1

theorem spawnFacts {op : OpType} (norm : K) (h : Compilable op) :
    SpawnFacts op (spawnEmpty op norm).1 (spawnEmpty op norm).2 := by
  rcases h with rfl | rfl | rfl | rfl
  · exact facts_load norm
  · have e := spawnEmpty_add norm
    have f := facts_add (K := K) defaultEncoder (some "adder_mod")
    generalize (adderNetwork' (defaultEncoder : Encoder K) (some "adder_mod") World.empty).2 = B at e f
    generalize spawnEmpty .add norm = q at e ⊢
    subst e; exact f
  · have e := spawnEmpty_mul norm
    have f := facts_mul (K := K) defaultEncoder norm (some "mul_norm_mod")
    generalize (signedMultiplierNormNetwork (defaultEncoder : Encoder K) norm (some "mul_norm_mod") World.empty).2 = B at e f
    generalize spawnEmpty .mul norm = q at e ⊢
    subst e; exact f
  · exact facts_neg norm

end Axon
