import Verif.Model.Report
import Verif.Props.Compiler
import Mathlib.Tactic.Positivity

/-! # C62, C63, C64: spike and energy estimation -/
set_option linter.unusedSectionVars false
namespace Axon
open Spec
variable {K : Type*}

/-- Number of direct submodules of `m` of class `k`. -/
def Spec.numKind (w : World K) (m : ℕ) (k : ModKind) : ℕ := (w.subnetworks m).countP (fun s => w.kindOf s = k)

/-- The published number of spikes of one module of each class. -/
def Spec.tableSpikes : ModKind → ℕ
  | .injector => 2
  | .signFlipper => 4
  | .signedMulNorm => 29
  | .adder => 58
  | .div => 31
  | .plain => 0

theorem spikeFold (w : World K) : ∀ (l : List ℕ) (acc : List (ℕ × ℕ) × ℕ),
    let f := w.spikeStep
    ((∀ s ∈ l, w.kindOf s ≠ .plain) → ∃ ks, l.foldlM f acc = .ok (acc.1 ++ ks, acc.2 + (ks.map (·.2)).sum) ∧
      ks.map (·.1) = l ∧ (∀ x ∈ ks, moduleTotalSpikes (w.kindOf x.1) = .ok x.2) ∧
      (ks.map (·.2)).sum = 2 * l.countP (fun s => w.kindOf s = .injector) + 4 * l.countP (fun s => w.kindOf s = .signFlipper) +
        29 * l.countP (fun s => w.kindOf s = .signedMulNorm) + 58 * l.countP (fun s => w.kindOf s = .adder) +
        31 * l.countP (fun s => w.kindOf s = .div)) ∧
    ((∃ s ∈ l, w.kindOf s = .plain) → l.foldlM f acc = .error .valueError)
  | [], acc => by
    intro f
    exact ⟨fun _ => ⟨[], by simp [pure, Except.pure], rfl, by simp, by simp⟩, by simp⟩
  | s :: l, acc => by
    intro f
    have ih := fun acc => spikeFold w l acc
    simp only at ih
    constructor
    · intro hk
      have hs := hk s (by simp)
      obtain ⟨k, hkk⟩ : ∃ k, moduleTotalSpikes (w.kindOf s) = .ok k := by
        cases e : w.kindOf s <;> first | exact ⟨_, rfl⟩ | exact (hs e).elim
      obtain ⟨ks, h1, h2, h3, h4⟩ := (ih (acc.1 ++ [(s, k)], acc.2 + k)).1 (fun x hx => hk x (by simp [hx]))
      refine ⟨(s, k) :: ks, ?_, by simp [h2], ?_, ?_⟩
      · rw [List.foldlM_cons]
        simp only [f, World.spikeStep, hkk]
        refine h1.trans ?_
        simp [add_assoc]
      · intro x hx
        rcases List.mem_cons.mp hx with rfl | hx
        · exact hkk
        · exact h3 x hx
      · simp only [List.map_cons, List.sum_cons, h4, List.countP_cons]
        cases e : w.kindOf s <;> rw [e] at hkk <;> simp [moduleTotalSpikes] at hkk <;> subst hkk <;> simp <;> ring
    · rintro ⟨x, hx, hxp⟩
      rw [List.foldlM_cons]
      by_cases hs : w.kindOf s = .plain
      · simp only [f, World.spikeStep, hs, moduleTotalSpikes]; rfl
      · rcases List.mem_cons.mp hx with rfl | hx
        · exact (hs hxp).elim
        · obtain ⟨k, hkk⟩ : ∃ k, moduleTotalSpikes (w.kindOf s) = .ok k := by
            cases e : w.kindOf s <;> first | exact ⟨_, rfl⟩ | exact (hs e).elim
          simp only [f, World.spikeStep, hkk]
          exact (ih _).2 ⟨x, hx, hxp⟩

/-- C62: the spike estimation succeeds iff every direct submodule is of a known class; it then prints one
line per direct submodule, in order, and the total is the sum of the table entries; otherwise it raises
ValueError.  The warning is printed iff the module has own neurons. -/
theorem C62_spike_estimation (w : World K) (m : ℕ) :
    ((∀ s ∈ w.subnetworks m, w.kindOf s ≠ .plain) → ∃ lines,
      w.spikeEstimation m = .ok (decide (w.topNeurons m ≠ []), lines,
        2 * numKind w m .injector + 4 * numKind w m .signFlipper + 29 * numKind w m .signedMulNorm +
          58 * numKind w m .adder + 31 * numKind w m .div) ∧
      lines = (w.subnetworks m).map (fun s => (s, tableSpikes (w.kindOf s)))) ∧
    ((∃ s ∈ w.subnetworks m, w.kindOf s = .plain) → w.spikeEstimation m = .error .valueError) := by
  have h := spikeFold w (w.subnetworks m) ([], 0)
  simp only [List.nil_append, zero_add] at h
  constructor
  · intro hk
    obtain ⟨ks, h1, h2, h3, h4⟩ := h.1 hk
    refine ⟨ks, ?_, ?_⟩
    swap
    · rw [← h2, List.map_map]
      refine (List.map_id' ks).symm.trans (List.map_congr_left (fun x hx => ?_))
      have := h3 x hx
      refine Prod.ext rfl ?_
      show x.2 = tableSpikes (w.kindOf x.1)
      cases e : w.kindOf x.1 <;> rw [e] at this <;> simp [moduleTotalSpikes] at this <;> simp [tableSpikes, this]
    unfold World.spikeEstimation
    have h1' : (w.subnetworks m).foldlM w.spikeStep ([], 0) = .ok (ks, (ks.map (·.2)).sum) := h1
    rw [h1']
    simp only [h4, numKind, ne_eq, List.length_eq_zero_iff]
  · intro hk
    unfold World.spikeEstimation
    have h1' : (w.subnetworks m).foldlM w.spikeStep ([], 0) = .error .valueError := h.2 hk
    rw [h1']

theorem energyFold (w : World K) : ∀ (l : List ℕ) (acc : SynCounts),
    let f := fun (acc : SynCounts) (s : ℕ) =>
      match moduleSpikes (w.kindOf s) with
      | .error e => (.error e : Except PyErr SynCounts)
      | .ok k => .ok ⟨acc.V + k.V, acc.ge + k.ge, acc.gf + k.gf, acc.gm + k.gm⟩
    let c := fun k => l.countP (fun s => w.kindOf s = k)
    ((∀ s ∈ l, w.kindOf s ≠ .plain) → l.foldlM f acc = .ok
      ⟨acc.V + (2 * c .signFlipper + 42 * c .signedMulNorm + 76 * c .adder + 48 * c .div),
       acc.ge + (9 * c .signedMulNorm + 16 * c .adder + 5 * c .div),
       acc.gf + (3 * c .signedMulNorm + 3 * c .div), acc.gm + (4 * c .signedMulNorm + 4 * c .div)⟩) ∧
    ((∃ s ∈ l, w.kindOf s = .plain) → l.foldlM f acc = .error .valueError)
  | [], acc => by
    intro f c
    exact ⟨fun _ => by simp [pure, Except.pure, c], by simp⟩
  | s :: l, acc => by
    intro f c
    have ih := fun acc => energyFold w l acc
    simp only at ih
    constructor
    · intro hk
      have hs := hk s (by simp)
      have hl := fun x (hx : x ∈ l) => hk x (by simp [hx])
      rw [List.foldlM_cons]
      cases e : w.kindOf s
      case plain => exact (hs e).elim
      all_goals
        simp only [f, e, moduleSpikes]
        refine ((ih _).1 hl).trans ?_
        simp only [c, List.countP_cons, e]
        simp only [Except.ok.injEq, SynCounts.mk.injEq]
        refine ⟨?_, ?_, ?_, ?_⟩ <;> simp <;> ring
    · rintro ⟨x, hx, hxp⟩
      rw [List.foldlM_cons]
      by_cases hs : w.kindOf s = .plain
      · simp only [f, hs, moduleSpikes]; rfl
      · rcases List.mem_cons.mp hx with rfl | hx
        · exact (hs hxp).elim
        · obtain ⟨k, hkk⟩ : ∃ k, moduleSpikes (w.kindOf s) = .ok k := by
            cases e : w.kindOf s <;> first | exact ⟨_, rfl⟩ | exact (hs e).elim
          simp only [f, hkk]
          exact (ih _).2 ⟨x, hx, hxp⟩

/-- C62: the counts used for the energy estimation are the sums of the table entries over the direct
submodules; ValueError iff some direct submodule is of an unknown class. -/
theorem C62_energy_counts (w : World K) (m : ℕ) :
    ((∀ s ∈ w.subnetworks m, w.kindOf s ≠ .plain) → w.energyCounts m = .ok
      ⟨2 * numKind w m .signFlipper + 42 * numKind w m .signedMulNorm + 76 * numKind w m .adder + 48 * numKind w m .div,
       9 * numKind w m .signedMulNorm + 16 * numKind w m .adder + 5 * numKind w m .div,
       3 * numKind w m .signedMulNorm + 3 * numKind w m .div, 4 * numKind w m .signedMulNorm + 4 * numKind w m .div⟩) ∧
    ((∃ s ∈ w.subnetworks m, w.kindOf s = .plain) → w.energyCounts m = .error .valueError) := by
  have h := energyFold w (w.subnetworks m) ⟨0, 0, 0, 0⟩
  simp only [zero_add] at h
  exact ⟨fun hk => h.1 hk, fun hk => h.2 hk⟩

/-- C62: for a compiled program the estimates are per-operation sums over the reachable Scalars, whatever the
program: 2 spikes per load, 4 per negation, 29 per product, 58 per sum. -/
theorem C62_compiled [Field K] [LinearOrder K] [IsStrictOrderedRing K] {h : SHeap K} (ho : OperandsOlder h)
    {limit root : ℕ} (hroot : root < h.length) (hl : h.length ≤ limit) {r : K} {w : World K} (hw : Built w)
    {plan : Plan K} {w' : World K} (hc : compileComputation h limit root r w = .ok (plan, w')) :
    ∃ (nodes : List ℕ) (lines : List (ℕ × ℕ)), nodes.Nodup ∧ (∀ v, v ∈ nodes ↔ Reach h root v) ∧
      w'.spikeEstimation plan.net = .ok (false, lines,
        2 * nodes.countP (fun v => h.op v = .load) + 4 * nodes.countP (fun v => h.op v = .neg) +
          29 * nodes.countP (fun v => h.op v = .mul) + 58 * nodes.countP (fun v => h.op v = .add)) ∧
      w'.energyCounts plan.net = .ok
        ⟨2 * nodes.countP (fun v => h.op v = .neg) + 42 * nodes.countP (fun v => h.op v = .mul) +
          76 * nodes.countP (fun v => h.op v = .add),
         9 * nodes.countP (fun v => h.op v = .mul) + 16 * nodes.countP (fun v => h.op v = .add),
         3 * nodes.countP (fun v => h.op v = .mul), 4 * nodes.countP (fun v => h.op v = .mul)⟩ := by
  obtain ⟨L, ns, F, -, -, hg, -⟩ := compiled_net ho hroot hl hw hc
  have hkind : ∀ v ∈ L.nodes, w'.kindOf (L.place v) = kindFor (h.op v) := by
    intro v hv; unfold World.kindOf; rw [F.kind v hv]; rfl
  have hnp : ∀ s ∈ w'.subnetworks plan.net, w'.kindOf s ≠ .plain := by
    rw [F.modules]
    intro s hs
    obtain ⟨v, hv, rfl⟩ := List.mem_map.mp hs
    rw [hkind v hv]
    rcases (hg v hv).1 with e | e | e | e <;> rw [e] <;> simp [kindFor]
  have hnum : ∀ k op, (∀ v ∈ L.nodes, kindFor (h.op v) = k ↔ h.op v = op) →
      numKind w' plan.net k = L.nodes.countP (fun v => h.op v = op) := by
    intro k op hko
    unfold numKind
    rw [F.modules, List.countP_map]
    refine List.countP_congr (fun v hv => ?_)
    simp only [Function.comp, decide_eq_true_eq, hkind v hv]
    exact hko v hv
  have hdiv : numKind w' plan.net .div = 0 := by
    unfold numKind
    rw [F.modules, List.countP_map, List.countP_eq_zero]
    intro v hv
    simp only [Function.comp, decide_eq_true_eq, hkind v hv]
    rcases (hg v hv).1 with e | e | e | e <;> rw [e] <;> simp [kindFor]
  have h1 := hnum .injector .load (fun v hv => by rcases (hg v hv).1 with e | e | e | e <;> rw [e] <;> simp [kindFor])
  have h2 := hnum .signFlipper .neg (fun v hv => by rcases (hg v hv).1 with e | e | e | e <;> rw [e] <;> simp [kindFor])
  have h3 := hnum .signedMulNorm .mul (fun v hv => by rcases (hg v hv).1 with e | e | e | e <;> rw [e] <;> simp [kindFor])
  have h4 := hnum .adder .add (fun v hv => by rcases (hg v hv).1 with e | e | e | e <;> rw [e] <;> simp [kindFor])
  obtain ⟨lines, hl1, -⟩ := (C62_spike_estimation w' plan.net).1 hnp
  refine ⟨L.nodes, lines, F.nodup, F.nodes, ?_, ?_⟩
  · rw [hl1, h1, h2, h3, h4, hdiv, F.top]; simp
  · rw [(C62_energy_counts w' plan.net).1 hnp, h2, h3, h4, hdiv]; simp

section
variable [Field K] [LinearOrder K] [IsStrictOrderedRing K] [FloorRing K]

/-- C63: `estimate_performance` computes `total = V + L·(ge+gf+gm)` with `L` the least number of halvings that
covers the search steps, and `cycles = 3·⌈total/batch⌉ + 5`, `time = cycles / clock`. -/
theorem C63_formula (v ge gf gm : ℕ) (steps : ℤ) (mhz : K) (batch : ℤ) (hs : 0 < steps) (hb : batch ≠ 0) (hm : mhz ≠ 0) :
    ∃ (p : Perf K) (L : ℕ) (c : ℤ), estimatePerformance v ge gf gm steps mhz batch = .ok p ∧
      IsLeast {k : ℕ | steps ≤ 2 ^ k} L ∧ p.updates = v + L * (ge + gf + gm) ∧
      IsLeast {c : ℤ | (p.updates : ℚ) / batch ≤ c} c ∧ p.cycles = 3 * c + 5 ∧ p.seconds * (mhz * 1000000) = p.cycles := by
  have hm' : mhz * 1000000 ≠ 0 := mul_ne_zero hm (by norm_num)
  refine ⟨_, Nat.clog 2 steps.toNat, ⌈(((v + Nat.clog 2 steps.toNat * (ge + gf + gm) : ℕ) : ℤ) : ℚ) / (batch : ℚ)⌉,
    by unfold estimatePerformance; rw [if_neg (not_le.mpr hs), if_neg hb, if_neg hm'], ?_, rfl, ?_, ?_, ?_⟩
  · have e : ∀ k : ℕ, steps ≤ 2 ^ k ↔ steps.toNat ≤ 2 ^ k := by
      intro k
      have : steps = (steps.toNat : ℤ) := (Int.toNat_of_nonneg hs.le).symm
      constructor
      · intro h; rw [this] at h; exact_mod_cast h
      · intro h; rw [this]; exact_mod_cast h
    constructor
    · exact (e _).mpr (Nat.le_pow_clog (by norm_num) _)
    · intro k hk
      exact (Nat.clog_le_iff_le_pow (by norm_num)).mpr ((e k).mp hk)
  · constructor
    · simpa using Int.le_ceil ((((v + Nat.clog 2 steps.toNat * (ge + gf + gm) : ℕ) : ℤ) : ℚ) / (batch : ℚ))
    · intro c hc
      rw [Int.ceil_le]; simpa using hc
  · simp only; ring
  · simp only
    field_simp

/-- C63: the errors. -/
theorem C63_errors (v ge gf gm : ℕ) (steps : ℤ) (mhz : K) (batch : ℤ) :
    (steps ≤ 0 → estimatePerformance v ge gf gm steps mhz batch = .error .valueError) ∧
    (0 < steps → (batch = 0 ∨ mhz = 0) → estimatePerformance v ge gf gm steps mhz batch = .error .zeroDivision) := by
  constructor
  · intro h; unfold estimatePerformance; rw [if_pos h]
  · intro h h'
    unfold estimatePerformance; rw [if_neg (not_le.mpr h)]
    by_cases hb : batch = 0
    · rw [if_pos hb]
    · rw [if_neg hb, if_pos (by rcases h' with h' | h'; exact (hb h').elim; rw [h', zero_mul])]

/-- C63: more events or more search steps never mean fewer updates or cycles; more parallelism never more
cycles; a faster clock never more time. -/
theorem C63_monotone {v ge gf gm v' ge' gf' gm' : ℕ} {steps steps' batch batch' : ℤ} {mhz mhz' : K}
    (hv : v ≤ v') (hge : ge ≤ ge') (hgf : gf ≤ gf') (hgm : gm ≤ gm') (hs : 0 < steps) (hss : steps ≤ steps')
    (hb' : 0 < batch') (hbb : batch' ≤ batch) (hm' : 0 < mhz') (hmm : mhz' ≤ mhz) {p p' : Perf K}
    (hp : estimatePerformance v ge gf gm steps mhz batch = .ok p)
    (hp' : estimatePerformance v' ge' gf' gm' steps' mhz' batch' = .ok p') :
    p.updates ≤ p'.updates ∧ p.cycles ≤ p'.cycles ∧ p.seconds ≤ p'.seconds := by
  have hb : 0 < batch := hb'.trans_le hbb
  have hm : 0 < mhz := hm'.trans_le hmm
  have hmm1 : mhz * 1000000 ≠ 0 := by positivity
  have hmm2 : mhz' * 1000000 ≠ 0 := by positivity
  unfold estimatePerformance at hp hp'
  rw [if_neg (not_le.mpr hs), if_neg hb.ne', if_neg hmm1] at hp
  rw [if_neg (not_le.mpr (hs.trans_le hss)), if_neg hb'.ne', if_neg hmm2] at hp'
  obtain rfl := Except.ok.inj hp
  obtain rfl := Except.ok.inj hp'
  have hu : v + Nat.clog 2 steps.toNat * (ge + gf + gm) ≤ v' + Nat.clog 2 steps'.toNat * (ge' + gf' + gm') := by
    refine Nat.add_le_add hv (Nat.mul_le_mul (Nat.clog_mono_right 2 (Int.toNat_le_toNat hss)) (by omega))
  have hc : ⌈(((v + Nat.clog 2 steps.toNat * (ge + gf + gm) : ℕ) : ℤ) : ℚ) / (batch : ℚ)⌉ ≤
      ⌈(((v' + Nat.clog 2 steps'.toNat * (ge' + gf' + gm') : ℕ) : ℤ) : ℚ) / (batch' : ℚ)⌉ := by
    refine Int.ceil_le_ceil ?_
    have hbq : (0 : ℚ) < batch' := by exact_mod_cast hb'
    refine div_le_div₀ (by positivity) (by exact_mod_cast hu) hbq (by exact_mod_cast hbb)
  have hc0 : (0 : ℤ) ≤ ⌈(((v + Nat.clog 2 steps.toNat * (ge + gf + gm) : ℕ) : ℤ) : ℚ) / (batch : ℚ)⌉ := by
    refine Int.ceil_nonneg (div_nonneg (by positivity) (by exact_mod_cast hb.le))
  have hcc : ⌈(((v + Nat.clog 2 steps.toNat * (ge + gf + gm) : ℕ) : ℤ) : ℚ) / (batch : ℚ)⌉ * 3 + 5 ≤
      ⌈(((v' + Nat.clog 2 steps'.toNat * (ge' + gf' + gm') : ℕ) : ℤ) : ℚ) / (batch' : ℚ)⌉ * 3 + 5 := by omega
  refine ⟨hu, hcc, ?_⟩
  refine div_le_div₀ ?_ ?_ (by positivity) (mul_le_mul_of_nonneg_right hmm (by norm_num))
  · have : (0 : ℤ) ≤ ⌈(((v' + Nat.clog 2 steps'.toNat * (ge' + gf' + gm') : ℕ) : ℤ) : ℚ) / (batch' : ℚ)⌉ * 3 + 5 := by omega
    exact_mod_cast this
  · exact_mod_cast hcc

/-- C63: the total energy is static power times time plus the energy per synaptic operation times the number
of updates; the total power is the sum of the three parts. -/
theorem C63_energy (perf : Perf K) (mhz Esop Pleak Pidle Vdd : K) (ht : 0 < perf.seconds) (hV : Vdd ≠ 0) :
    ∃ q, estimatePower perf mhz Esop Pleak Pidle Vdd = .ok q ∧ q.total = q.leak + q.idle + q.dyn ∧
      q.energy = (Pleak / 10 ^ 6 + Pidle * mhz / 10 ^ 6) * perf.seconds + Esop / 10 ^ 12 * perf.updates ∧
      q.current * Vdd = q.total ∧ q.rate * perf.seconds = perf.updates := by
  refine ⟨_, by unfold estimatePower; simp only [if_pos ht, if_neg hV]; rfl, rfl, ?_, ?_, ?_⟩
  · simp only
    field_simp
  · simp only; field_simp
  · simp only; field_simp

/-- C63 example: the adder example of the tables, 76 V and 16 ge updates. -/
example : (match estimatePerformance 76 16 0 0 5000 (200 : ℚ) 1 with
    | .ok p => decide (p.updates = 284 ∧ p.cycles = 857) | _ => false) = true := by decide +kernel

theorem prefixes_pos : ∀ x ∈ (prefixes : List (K × String)), 0 < x.1 := by
  intro x hx
  simp only [prefixes, List.mem_cons, List.not_mem_nil, or_false] at hx
  rcases hx with rfl | rfl | rfl | rfl | rfl | rfl | rfl | rfl <;> positivity

theorem humanReadable_cases (v : K) :
    humanReadable v = if (10 : K) ^ 9 ≤ v then (v / 10 ^ 9, "G") else if (10 : K) ^ 6 ≤ v then (v / 10 ^ 6, "M")
      else if (10 : K) ^ 3 ≤ v then (v / 10 ^ 3, "K") else if 1 ≤ v then (v / 1, "")
      else if 1 / (10 : K) ^ 3 ≤ v then (v / (1 / 10 ^ 3), "m") else if 1 / (10 : K) ^ 6 ≤ v then (v / (1 / 10 ^ 6), "μ")
      else if 1 / (10 : K) ^ 9 ≤ v then (v / (1 / 10 ^ 9), "n") else (v / (1 / 10 ^ 12), "p") := by
  have h1 : ¬ ((10 : K) ^ 9 = 1 / 10 ^ 12) := by norm_num
  have h2 : ¬ ((10 : K) ^ 6 = 1 / 10 ^ 12) := by norm_num
  have h3 : ¬ ((10 : K) ^ 3 = 1 / 10 ^ 12) := by norm_num
  have h4 : ¬ ((1 : K) = 1 / 10 ^ 12) := by norm_num
  have h5 : ¬ (1 / (10 : K) ^ 3 = 1 / 10 ^ 12) := by norm_num
  have h6 : ¬ (1 / (10 : K) ^ 6 = 1 / 10 ^ 12) := by norm_num
  have h7 : ¬ (1 / (10 : K) ^ 9 = 1 / 10 ^ 12) := by norm_num
  simp only [humanReadable, prefixes, humanLoop, h1, h2, h3, h4, h5, h6, h7, or_false, or_true, if_true]
  split_ifs <;> rfl

/-- The SI factor of a prefix. -/
def Spec.siFactor (p : String) : K :=
  if p = "G" then 10 ^ 9 else if p = "M" then 10 ^ 6 else if p = "K" then 10 ^ 3 else if p = "" then 1
  else if p = "m" then 1 / 10 ^ 3 else if p = "μ" then 1 / 10 ^ 6 else if p = "n" then 1 / 10 ^ 9 else 1 / 10 ^ 12

/-- C64: the scaled number times the SI factor of the prefix is the value, for every value. -/
theorem C64_lossless (v : K) : (humanReadable v).1 * siFactor (humanReadable v).2 = v := by
  rw [humanReadable_cases]
  split_ifs <;> simp [siFactor]

/-- C64: values from 1e-12 up to 1e12 are displayed with a number between 1 and 1000. -/
theorem C64_range {v : K} (h1 : 1 / 10 ^ 12 ≤ v) (h2 : v < 10 ^ 12) :
    1 ≤ (humanReadable v).1 ∧ (humanReadable v).1 < 1000 := by
  rw [humanReadable_cases]
  split_ifs with a b c d e f g
  · exact ⟨(one_le_div (by positivity)).mpr a, (div_lt_iff₀ (by positivity)).mpr (by linarith)⟩
  · exact ⟨(one_le_div (by positivity)).mpr b, (div_lt_iff₀ (by positivity)).mpr (by linarith)⟩
  · exact ⟨(one_le_div (by positivity)).mpr c, (div_lt_iff₀ (by positivity)).mpr (by linarith)⟩
  · exact ⟨by simpa using d, by simp; linarith⟩
  · exact ⟨(one_le_div (by positivity)).mpr e, (div_lt_iff₀ (by positivity)).mpr (by linarith)⟩
  · exact ⟨(one_le_div (by positivity)).mpr f, (div_lt_iff₀ (by positivity)).mpr (by linarith)⟩
  · exact ⟨(one_le_div (by positivity)).mpr g, (div_lt_iff₀ (by positivity)).mpr (by linarith)⟩
  · exact ⟨(one_le_div (by positivity)).mpr h1, (div_lt_iff₀ (by positivity)).mpr (by linarith)⟩

/-- C64: outside that range the smallest or largest prefix is used; in particular negative values are shown
in pico units. -/
theorem C64_outside {v : K} : (v < 1 / 10 ^ 12 → (humanReadable v).2 = "p") ∧ (10 ^ 12 ≤ v → (humanReadable v).2 = "G") := by
  constructor
  · intro h
    rw [humanReadable_cases]
    have e : (1 : K) / 10 ^ 12 < 1 / 10 ^ 9 := by norm_num
    have e1 : (1 : K) / 10 ^ 9 < 1 / 10 ^ 6 := by norm_num
    have e2 : (1 : K) / 10 ^ 6 < 1 / 10 ^ 3 := by norm_num
    have e3 : (1 : K) / 10 ^ 3 < 1 := by norm_num
    rw [if_neg (by linarith), if_neg (by linarith), if_neg (by linarith), if_neg (by linarith), if_neg (by linarith),
      if_neg (by linarith), if_neg (by linarith)]
  · intro h
    rw [humanReadable_cases, if_pos (by linarith)]

example : humanReadable (1500 : ℚ) = (3 / 2, "K") ∧ (humanReadable (-1 : ℚ)).2 = "p" := by decide +kernel

end

/-- C62 example: an enclosing module with an adder and a sign flipper inside and no own neurons. -/
example : (match (do
      let m ← newModule .plain none
      let a ← newModule .adder none
      let b ← newModule .signFlipper none
      addSubnetwork m a
      addSubnetwork m b : Build ℚ Unit) World.empty with
    | (_, w) => decide (w.spikeEstimation 0 = .ok (false, [(1, 58), (2, 4)], 62)) &&
        decide (w.energyCounts 0 = .ok ⟨78, 16, 0, 0⟩)) = true := by decide +kernel

end Axon
