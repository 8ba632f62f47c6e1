import Verif.Spec.Print
import Verif.Props.Report
import Verif.Props.ReportText
import Verif.Props.Modules
import Verif.Props.Predictive

/-! # C117: what the reports print -/
set_option linter.unusedSectionVars false
namespace Axon
open Spec Printed
variable {K : Type*}

namespace Printed

theorem andThen_ok {p q : Printed} (h : p.result = .ok ()) : p.andThen q = ⟨p.lines ++ q.lines, q.result⟩ := by
  unfold andThen; rw [h]

theorem andThen_error {p q : Printed} {e} (h : p.result = .error e) : p.andThen q = p := by
  unfold andThen; rw [h]

theorem seq_nil : seq [] = ⟨[], .ok ()⟩ := rfl

theorem seq_ok : ∀ {l : List Printed}, (∀ p ∈ l, p.result = .ok ()) → seq l = ⟨l.flatMap (·.lines), .ok ()⟩
  | [], _ => rfl
  | p :: l, h => by
    rw [seq, andThen_ok (h p (by simp)), seq_ok (fun q hq => h q (by simp [hq]))]
    rfl

theorem seq_cons_ok {p : Printed} {l : List Printed} (h : p.result = .ok ()) : seq (p :: l) = ⟨p.lines ++ (seq l).lines, (seq l).result⟩ := by
  rw [seq, andThen_ok h]

theorem seq_cons_error {p : Printed} {l : List Printed} {e} (h : p.result = .error e) : seq (p :: l) = p := by
  rw [seq, andThen_error h]

theorem seq_one (p : Printed) : seq [p] = p := by
  rcases h : p.result with e | ⟨⟩
  · exact seq_cons_error h
  · rw [seq_cons_ok h]; cases p; simp only at h; subst h; simp [seq, skip]

end Printed

theorem says_mk (k : ℕ) (who : List Char) (n : ℕ) (what : String) {t : List Char} (h : t = spaces k ++ who ++ ": ".toList ++ decimal n ++ (" ".toList ++ what.toList)) :
    Says k who n what (.text t) := by
  subst h
  exact ⟨decimal n, by simp [spaces], decimal_ne_nil n, decimal_digits n, digitsVal_decimal n⟩

theorem counts_mk (label : String) (n : ℕ) {t : List Char} (h : t = label.toList ++ (": ".toList ++ decimal n)) : Counts label n (.text t) := by
  subst h
  exact ⟨decimal n, by simp, decimal_ne_nil n, decimal_digits n, digitsVal_decimal n⟩

/-- The number on a line can be read in one way only. -/
theorem counts_unique {label : String} {n n' : ℕ} {l : Line} (h : Counts label n l) (h' : Counts label n' l) : n = n' := by
  obtain ⟨ds, rfl, -, -, rfl⟩ := h
  obtain ⟨ds', e, -, -, rfl⟩ := h'
  simp only [Line.text.injEq, List.append_cancel_left_eq] at e
  rw [e]

/-- **C117.** `report_neuron_usage(net, print_depth)`: a title, a line with the number of neurons of the module, and (unless `print_depth` is 0 or there are no
submodules) its own neurons and one line per direct submodule in the order of attachment, never more levels; then the total, which is the number on the first
line and the sum of the indented ones. -/
theorem C117_neuron_usage {w : World K} (hw : Built w) {m : ℕ} {l : List ℕ} (h : w.neurons m = .ok l) (depth : ℕ) :
    ∃ first own subs total, w.reportNeuronUsage m depth =
        ⟨title "--------------- NEURON USAGE REPORT --------------" :: first :: (own ++ subs ++ [total, title "\n"]), .ok ()⟩ ∧
      Says 0 (w.moduleUidOf m) l.length "neurons" first ∧ Says 0 "-> Total".toList l.length "neurons" total ∧
      (depth = 0 ∨ w.subnetworks m = [] → own = [] ∧ subs = []) ∧
      (0 < depth → w.subnetworks m ≠ [] → ∃ (ds : List Char) (c : ℕ → ℕ), own = [.text ("    own ".toList ++ ds)] ∧ digitsVal ds = (w.topNeurons m).length ∧
        List.Forall₂ (fun s line => (∃ ls, w.neurons s = .ok ls ∧ c s = ls.length) ∧ Says 4 (w.moduleUidOf s) (c s) "neurons" line) (w.subnetworks m) subs ∧
        l.length = (w.topNeurons m).length + ((w.subnetworks m).map c).sum) := by
  obtain ⟨c, hc1, hc2, -⟩ := C61_usage_totals hw h
  set first : Line := .text (spaces 0 ++ w.moduleUidOf m ++ ": ".toList ++ decimal l.length ++ " neurons".toList) with hfirst
  set total : Line := .text ("-> Total: ".toList ++ decimal l.length ++ " neurons".toList) with htotal
  have hf : Says 0 (w.moduleUidOf m) l.length "neurons" first := says_mk _ _ _ _ rfl
  have ht : Says 0 "-> Total".toList l.length "neurons" total := says_mk _ _ _ _ (by simp [spaces])
  have key : ∀ body : List Line, (w.printTree 3 m depth 0 0) = ⟨first :: body, .ok ()⟩ → w.reportNeuronUsage m depth =
        ⟨title "--------------- NEURON USAGE REPORT --------------" :: first :: (body ++ [total, title "\n"]), .ok ()⟩ := by
    intro body hb
    rw [World.reportNeuronUsage, hb, h]
    simp [seq, andThen, skip, say, line, title, htotal]
  by_cases hd : 0 < depth ∧ w.subnetworks m ≠ []
  · obtain ⟨hd, hs⟩ := hd
    have hsub : ∀ s ∈ w.subnetworks m, w.printTree 2 s 1 4 1 = line (spaces 4 ++ w.moduleUidOf s ++ ": ".toList ++ decimal (c s) ++ " neurons".toList) := by
      intro s hs'
      obtain ⟨ls, hls, he⟩ := hc1 s hs'
      rw [World.printTree, hls]
      simp [seq, andThen, line, skip, he]
    refine ⟨first, [.text ("    own ".toList ++ decimal (w.topNeurons m).length)],
      (w.subnetworks m).map (fun s => .text (spaces 4 ++ w.moduleUidOf s ++ ": ".toList ++ decimal (c s) ++ " neurons".toList)), total, ?_, hf, ht, ?_, ?_⟩
    · refine key _ ?_
      rw [World.printTree, h]
      have hl : (w.subnetworks m).length ≠ 0 := by simpa using hs
      have hm : (w.subnetworks m).map (fun s => w.printTree 2 s 1 (0 + 4) (0 + 1)) =
          (w.subnetworks m).map (fun s => line (spaces 4 ++ w.moduleUidOf s ++ ": ".toList ++ decimal (c s) ++ " neurons".toList)) :=
        List.map_congr_left hsub
      have hseq : ∀ (f : ℕ → List Char) (L : List ℕ), seq (L.map (fun s => line (f s))) = ⟨L.map (fun s => .text (f s)), .ok ()⟩ := by
        intro f L
        rw [seq_ok (by simp [line])]
        simp [line, List.flatMap_map, ← List.map_eq_flatMap]
      simp only [hd, if_true, hm, hl, ne_eq, not_false_eq_true, hseq]
      simp [seq, andThen, line, skip, hfirst, spaces, List.replicate]
    · rintro (h0 | h0)
      · omega
      · exact (hs h0).elim
    · intro _ _
      refine ⟨_, c, rfl, digitsVal_decimal _, ?_, hc2⟩
      rw [List.forall₂_map_right_iff, List.forall₂_same]
      exact fun s hs' => ⟨hc1 s hs', says_mk _ _ _ _ rfl⟩
  · refine ⟨first, [], [], total, key _ ?_, hf, ht, fun _ => ⟨rfl, rfl⟩, fun h1 h2 => (hd ⟨h1, h2⟩).elim⟩
    rw [World.printTree, h]
    by_cases hd0 : 0 < depth
    · have hs : w.subnetworks m = [] := by by_contra hs; exact hd ⟨hd0, hs⟩
      simp only [hs, hd0, if_pos]
      simp [seq, skip, andThen, line, hfirst]
    · simp only [hd0, if_false]
      simp [seq, skip, andThen, line, hfirst]

theorem first_split {α : Type*} {p : α → Bool} : ∀ {l : List α}, (∃ x ∈ l, p x = true) → ∃ a as bs, l = as ++ a :: bs ∧ p a = true ∧ ∀ x ∈ as, p x = false
  | [], h => by simp at h
  | y :: l, h => by
    by_cases hy : p y = true
    · exact ⟨y, [], l, rfl, hy, by simp⟩
    · obtain ⟨x, hx, hp⟩ := h
      rcases List.mem_cons.mp hx with rfl | hx
      · exact (hy hp).elim
      · obtain ⟨a, as, bs, rfl, h2, h3⟩ := first_split ⟨x, hx, hp⟩
        exact ⟨a, y :: as, bs, rfl, h2, fun z hz => by
          rcases List.mem_cons.mp hz with rfl | hz
          · simpa using hy
          · exact h3 z hz⟩

/-- **C117.** The energy part never fails and has always the same seventeen lines: the four numbers of updates, then latency, energy, power and its parts, which
satisfy the equations of the hardware estimate. -/
theorem C117_energy (v ge gf gm : ℕ) :
    ∃ (lv lge lgf lgm : Line) (sec en pow leak idle dyn cur rate : ℚ), reportEnergy v ge gf gm = ⟨[title "-------", title "Predictive logic report:", lv, lge, lgf, lgm,
        title "-------", .value "Latency per iteration: " sec " s", .text ("Energy per iteration:  ".toList ++ humanText en "J"),
        .text ("Power:                 ".toList ++ humanText pow "W"), title "-------", .text ("P_leak:                ".toList ++ humanText leak "W"),
        .text ("P_idle:                ".toList ++ humanText idle "W"), .text ("P_dynamic:             ".toList ++ humanText dyn "W"),
        .text ("I_total:               ".toList ++ humanText cur "A"), .text ("r_SOP:                 ".toList ++ humanText rate "SOP/s"), title "\n"], .ok ()⟩ ∧
      Counts "V-type updates" v lv ∧ Counts "ge-type updates" ge lge ∧ Counts "gf-type updates" gf lgf ∧ Counts "gm-type updates" gm lgm ∧
      let U : ℚ := v + 13 * (ge + gf + gm)
      sec = (3 * U + 5) / 200000000 ∧ en = pow * sec ∧ pow = leak + idle + dyn ∧ leak = 27 / 10 ^ 6 ∧ idle = 356 / 10 ^ 4 ∧ dyn * sec = 12 / 10 ^ 12 * U ∧
      pow = 9 / 10 * cur ∧ rate * sec = U := by
  obtain ⟨p, q, h, h1, h2, h3, h4, h5⟩ := C102_report v ge gf gm
  have hpos : 0 < p.seconds := by rw [h1]; positivity
  have hq : q.total = q.leak + q.idle + q.dyn ∧ q.leak = 27 / 10 ^ 6 ∧ q.idle = 356 / 10 ^ 4 ∧ q.dyn = 12 / 10 ^ 12 * q.rate := by
    have h' := h
    unfold energyReport at h'
    split at h'
    · cases h'
    · split at h'
      · cases h'
      next e =>
        simp only [Except.ok.injEq, Prod.mk.injEq] at h'
        obtain ⟨rfl, rfl⟩ := h'
        unfold estimatePower at e
        simp only at e
        split at e
        · cases e
        · cases e
          refine ⟨rfl, rfl, ?_, rfl⟩
          norm_num
  refine ⟨.text ("V-type updates: ".toList ++ decimal v), .text ("ge-type updates: ".toList ++ decimal ge), .text ("gf-type updates: ".toList ++ decimal gf),
    .text ("gm-type updates: ".toList ++ decimal gm), p.seconds, q.energy, q.total, q.leak, q.idle, q.dyn, q.current, q.rate, ?_, ?_, ?_, ?_, ?_, h1, h3.symm, hq.1, hq.2.1, hq.2.2.1, ?_, ?_, h5⟩
  · rw [reportEnergy, h]
    simp only [seq, andThen, skip, say, line, title, List.cons_append, List.nil_append]
  · exact counts_mk _ _ (by simp)
  · exact counts_mk _ _ (by simp)
  · exact counts_mk _ _ (by simp)
  · exact counts_mk _ _ (by simp)
  · rw [hq.2.2.2, mul_assoc, h5]
  · linarith

theorem tableSpikes_ok {k : ModKind} (h : k ≠ .plain) : moduleTotalSpikes k = .ok (tableSpikes k) := by
  cases k <;> first | rfl | exact (h rfl).elim

/-- The line of one submodule in the spike report. -/
def spikeLine (w : World K) (s : ℕ) : Line := .text (spaces 4 ++ w.moduleUidOf s ++ ": ".toList ++ decimal (tableSpikes (w.kindOf s)) ++ " spikes".toList)

theorem spikeLine_says (w : World K) (s : ℕ) : Says 4 (w.moduleUidOf s) (tableSpikes (w.kindOf s)) "spikes" (spikeLine w s) := says_mk _ _ _ _ rfl

theorem spikeLines_ok (w : World K) (after : ℕ → Printed) : ∀ (l : List ℕ) (rest : List ℕ) (n : ℕ), (∀ s ∈ l, w.kindOf s ≠ .plain) →
    w.spikeLines after (l ++ rest) n = ⟨l.map (spikeLine w) ++ (w.spikeLines after rest (n + (l.map (fun s => tableSpikes (w.kindOf s))).sum)).lines,
      (w.spikeLines after rest (n + (l.map (fun s => tableSpikes (w.kindOf s))).sum)).result⟩
  | [], rest, n, _ => by simp
  | s :: l, rest, n, h => by
    rw [List.cons_append, World.spikeLines, tableSpikes_ok (h s (by simp))]
    simp only
    rw [seq_cons_ok (by rfl), seq_one, spikeLines_ok w after l rest _ (fun x hx => h x (by simp [hx]))]
    simp [line, spikeLine, add_assoc]

/-- The warning of the spike report about neurons in the top module. -/
def Spec.topWarning (w : World K) (m : ℕ) : List Line :=
  if w.topNeurons m = [] then [] else
    [title "IMP: Spike count estimation might not be accurate", title "     Noticed your net has neurons in the top module",
      title "     Spikes in top module neurons are not counted", title "     Use estimation with care."]

theorem reportSpike_eq (w : World K) (m : ℕ) (l rest : List ℕ) (hs : w.subnetworks m = l ++ rest) (hl : ∀ s ∈ l, w.kindOf s ≠ .plain) :
    let r := w.spikeLines (fun count => seq [line ("-> Total: ".toList ++ decimal count ++ " spikes".toList), say "\n"]) rest
      (l.map (fun s => tableSpikes (w.kindOf s))).sum
    w.reportSpikeEstimation m = ⟨title "--------- SPIKE COUNT REPORT (ESTIMATION) --------" :: (topWarning w m ++ l.map (spikeLine w) ++ r.lines), r.result⟩ := by
  intro r
  rw [World.reportSpikeEstimation, hs, seq_cons_ok (by rfl)]
  by_cases ht : w.topNeurons m = []
  · rw [if_neg (by simp [ht]), seq_cons_ok (by rfl), seq_one, spikeLines_ok w _ l rest 0 hl, zero_add]
    simp [say, line, skip, topWarning, ht, title, r]
  · rw [if_pos (by simpa using ht), seq_cons_ok (by rfl), seq_one, spikeLines_ok w _ l rest 0 hl, zero_add]
    simp [say, line, skip, seq, andThen, topWarning, ht, title, r]

/-- **C117.** `benchmark_net(net)`.  If every direct submodule is of a class with published counts, the call succeeds and prints an introduction, the neuron report,
one line with the published number of spikes per submodule, their sum, and the energy report for the published numbers of updates.  Otherwise it raises
ValueError; what has been printed by then is the introduction, the complete neuron report and the lines of the submodules attached before the first one of another
class: no total and no energy. -/
theorem C117_net {w : World K} (hw : Built w) {m : ℕ} {l : List ℕ} (h : w.neurons m = .ok l) :
    let intro := [title "IMP: Benchmarks on a net are estimations!", title "To benchmark actual runtime behaviour, use 'benchmark_simulation()'"]
    let head := intro ++ (w.reportNeuronUsage m 1).lines ++ (title "--------- SPIKE COUNT REPORT (ESTIMATION) --------" :: topWarning w m)
    ((w.benchmarkNet m).result = .ok () ↔ ∀ s ∈ w.subnetworks m, w.kindOf s ≠ .plain) ∧
    ((w.benchmarkNet m).result = .ok () → ∃ spikes total, (w.benchmarkNet m).lines = head ++ spikes ++ [total, title "\n"] ++
        (title "------ ENERGY & LATENCY REPORT (ESTIMATION) ------" :: (reportEnergy
          (2 * numKind w m .signFlipper + 42 * numKind w m .signedMulNorm + 76 * numKind w m .adder + 48 * numKind w m .div)
          (9 * numKind w m .signedMulNorm + 16 * numKind w m .adder + 5 * numKind w m .div)
          (3 * numKind w m .signedMulNorm + 3 * numKind w m .div) (4 * numKind w m .signedMulNorm + 4 * numKind w m .div)).lines) ∧
      List.Forall₂ (fun s line => Says 4 (w.moduleUidOf s) (tableSpikes (w.kindOf s)) "spikes" line) (w.subnetworks m) spikes ∧
      Says 0 "-> Total".toList ((w.subnetworks m).map (fun s => tableSpikes (w.kindOf s))).sum "spikes" total) ∧
    ∀ pre s post, w.subnetworks m = pre ++ s :: post → (∀ x ∈ pre, w.kindOf x ≠ .plain) → w.kindOf s = .plain →
      ∃ spikes, w.benchmarkNet m = ⟨head ++ spikes, .error .valueError⟩ ∧
        List.Forall₂ (fun s line => Says 4 (w.moduleUidOf s) (tableSpikes (w.kindOf s)) "spikes" line) pre spikes := by
  intro intro head
  obtain ⟨first, own, subs, total, hu, -⟩ := C117_neuron_usage hw h 1
  have hures : (w.reportNeuronUsage m 1).result = .ok () := by rw [hu]
  have hb : w.benchmarkNet m = ⟨intro ++ (w.reportNeuronUsage m 1).lines ++ (seq [w.reportSpikeEstimation m, w.reportEnergyEstimation m]).lines,
      (seq [w.reportSpikeEstimation m, w.reportEnergyEstimation m]).result⟩ := by
    rw [World.benchmarkNet, seq_cons_ok (by rfl), seq_cons_ok (by rfl), seq_cons_ok hures]
    simp [intro, say, line, title]
  have hfail : ∀ pre s post, w.subnetworks m = pre ++ s :: post → (∀ x ∈ pre, w.kindOf x ≠ .plain) → w.kindOf s = .plain →
      w.benchmarkNet m = ⟨head ++ pre.map (spikeLine w), .error .valueError⟩ := by
    intro pre s post hs hpre hp
    have e := reportSpike_eq w m pre (s :: post) hs hpre
    simp only [World.spikeLines, hp, moduleTotalSpikes, fail] at e
    rw [hb, seq_cons_error (e := .valueError) (by rw [e]), e]
    simp [head]
  have hok : (∀ s ∈ w.subnetworks m, w.kindOf s ≠ .plain) → ∃ total, w.benchmarkNet m = ⟨head ++ (w.subnetworks m).map (spikeLine w) ++ [total, title "\n"] ++
        (title "------ ENERGY & LATENCY REPORT (ESTIMATION) ------" :: (reportEnergy
          (2 * numKind w m .signFlipper + 42 * numKind w m .signedMulNorm + 76 * numKind w m .adder + 48 * numKind w m .div)
          (9 * numKind w m .signedMulNorm + 16 * numKind w m .adder + 5 * numKind w m .div)
          (3 * numKind w m .signedMulNorm + 3 * numKind w m .div) (4 * numKind w m .signedMulNorm + 4 * numKind w m .div)).lines), .ok ()⟩ ∧
      Says 0 "-> Total".toList ((w.subnetworks m).map (fun s => tableSpikes (w.kindOf s))).sum "spikes" total := by
    intro hk
    refine ⟨.text ("-> Total: ".toList ++ decimal ((w.subnetworks m).map (fun s => tableSpikes (w.kindOf s))).sum ++ " spikes".toList), ?_, says_mk _ _ _ _ (by simp [spaces])⟩
    have e := reportSpike_eq w m (w.subnetworks m) [] (by simp) hk
    simp only [World.spikeLines] at e
    have e2 : seq [line ("-> Total: ".toList ++ decimal ((w.subnetworks m).map (fun s => tableSpikes (w.kindOf s))).sum ++ " spikes".toList), say "\n"] =
        ⟨[.text ("-> Total: ".toList ++ decimal ((w.subnetworks m).map (fun s => tableSpikes (w.kindOf s))).sum ++ " spikes".toList), title "\n"], .ok ()⟩ := rfl
    rw [e2] at e
    rw [hb, seq_cons_ok (by rw [e]), seq_one, e, World.reportEnergyEstimation, (C62_energy_counts w m).1 hk]
    obtain ⟨_, _, _, _, _, _, _, _, _, _, _, _, he, -⟩ := C117_energy
          (2 * numKind w m .signFlipper + 42 * numKind w m .signedMulNorm + 76 * numKind w m .adder + 48 * numKind w m .div)
          (9 * numKind w m .signedMulNorm + 16 * numKind w m .adder + 5 * numKind w m .div)
          (3 * numKind w m .signedMulNorm + 3 * numKind w m .div) (4 * numKind w m .signedMulNorm + 4 * numKind w m .div)
    simp only
    rw [seq_cons_ok (by rfl), seq_one, he]
    simp [head, say, line, title]
  have hforall : ∀ L : List ℕ, List.Forall₂ (fun s line => Says 4 (w.moduleUidOf s) (tableSpikes (w.kindOf s)) "spikes" line) L (L.map (spikeLine w)) := by
    intro L
    rw [List.forall₂_map_right_iff, List.forall₂_same]
    exact fun s _ => spikeLine_says w s
  have hiff : (w.benchmarkNet m).result = .ok () ↔ ∀ s ∈ w.subnetworks m, w.kindOf s ≠ .plain := by
    constructor
    · intro hr
      by_contra hne
      push Not at hne
      obtain ⟨s, pre, post, hs, hp, hpre⟩ : ∃ s pre post, w.subnetworks m = pre ++ s :: post ∧ w.kindOf s = .plain ∧ ∀ x ∈ pre, w.kindOf x ≠ .plain := by
        obtain ⟨s, hsm, hsp⟩ := hne
        have hex : ∃ x ∈ w.subnetworks m, decide (w.kindOf x = .plain) = true := ⟨s, hsm, by simpa using hsp⟩
        obtain ⟨a, as, bs, h1, h2, h3⟩ := first_split hex
        exact ⟨a, as, bs, h1, by simpa using h2, fun x hx => by simpa using h3 x hx⟩
      rw [hfail pre s post hs hpre hp] at hr
      cases hr
    · intro hk
      obtain ⟨t, ht, -⟩ := hok hk
      rw [ht]
  refine ⟨hiff, fun hr => ?_, fun pre s post hs hpre hp => ⟨_, hfail pre s post hs hpre hp, hforall pre⟩⟩
  obtain ⟨t, ht, hs⟩ := hok (hiff.mp hr)
  exact ⟨_, t, by rw [ht], hforall _, hs⟩

section
variable [Field K] [LinearOrder K] [FloorRing K]

theorem propagate_log (E : PEnv K) (st : PSim K) (t : K) (n : ℕ) : (st.propagate E t n).spikeLog = st.spikeLog := by
  unfold PSim.propagate
  generalize E.net.out n = ss
  induction ss generalizing st with
  | nil => rfl
  | cons s ss ih => rw [List.foldl_cons, ih]; rfl

theorem handleHit_log {E : PEnv K} {st st' : PSim K} {t : K} {n : ℕ} {k : SynKind} {w : K} (h : st.handleHit E t n k w = .ok st') : st'.spikeLog = st.spikeLog := by
  unfold PSim.handleHit at h
  split at h
  · cases h
  next st1 hd =>
    have h1 : st1.spikeLog = st.spikeLog := by
      unfold PSim.dequeue at hd
      split at hd <;> cases hd <;> rfl
    rw [← h1]
    split at h
    · cases h
    · simp only at h
      split at h
      · cases h
      · split at h
        · cases h
        · split at h <;> cases h <;> rfl

theorem spikeFold_log (E : PEnv K) : ∀ (evs : List (UEvent K)) {st st' : PSim K}, evs.foldlM (PSim.spikePhase E) st = .ok st' →
    (∀ n, (st.spikeLog n).isSome ↔ (st'.spikeLog n).isSome) ∧ ∀ e ∈ evs, ∀ n, e.payload = .predicted n → (st'.spikeLog n).isSome
  | [], st, st', h => by cases h; exact ⟨fun _ => Iff.rfl, by simp⟩
  | e :: evs, st, st', h => by
    rw [List.foldlM_cons] at h
    obtain ⟨st1, h1, h2⟩ : ∃ st1, PSim.spikePhase E st e = .ok st1 ∧ evs.foldlM (PSim.spikePhase E) st1 = .ok st' := by
      cases h1 : PSim.spikePhase E st e with
      | error x => rw [h1] at h; cases h
      | ok s => rw [h1] at h; exact ⟨s, rfl, h⟩
    have ih := spikeFold_log E evs h2
    have key : (∀ n, (st.spikeLog n).isSome ↔ (st1.spikeLog n).isSome) ∧ ∀ n, e.payload = .predicted n → (st1.spikeLog n).isSome := by
      unfold PSim.spikePhase at h1
      split at h1
      next m hm =>
        unfold PSim.handleSpike at h1
        simp only [propagate_log] at h1
        split at h1
        · cases h1
        next l hl =>
          cases h1
          refine ⟨fun n => ?_, fun n hn => ?_⟩
          · by_cases e : n = m
            · subst e; simp [hl]
            · simp [Function.update_of_ne e]
          · rw [hm] at hn
            cases hn
            simp
      next hm =>
        cases h1
        exact ⟨fun _ => Iff.rfl, fun n hn => by rw [hm] at hn; cases hn⟩
    refine ⟨fun n => (key.1 n).trans (ih.1 n), fun x hx n hn => ?_⟩
    rcases List.mem_cons.mp hx with rfl | hx
    · exact (ih.1 n).mp (key.2 n hn)
    · exact ih.2 x hx n hn

theorem hitFold_log (E : PEnv K) : ∀ (evs : List (UEvent K)) {st st' : PSim K}, evs.foldlM (PSim.hitPhase E) st = .ok st' → st'.spikeLog = st.spikeLog
  | [], st, st', h => by cases h; rfl
  | e :: evs, st, st', h => by
    rw [List.foldlM_cons] at h
    cases h1 : PSim.hitPhase E st e with
    | error x => rw [h1] at h; cases h
    | ok s =>
      rw [h1] at h
      rw [hitFold_log E evs h]
      unfold PSim.hitPhase at h1
      split at h1
      · cases h1; rfl
      · exact handleHit_log h1

/-- A run adds no entries to the spike log, and every spike is a spike of a neuron with an entry. -/
theorem steps_logged {E : PEnv K} {st0 st : PSim K} {bs : List (List (UEvent K))} (h : Steps E st0 bs st) :
    (∀ n, (st0.spikeLog n).isSome ↔ (st.spikeLog n).isSome) ∧ ∀ e ∈ bs.flatten, ∀ n, e.payload = .predicted n → (st.spikeLog n).isSome := by
  induction h with
  | start => simp
  | @step bs st1 m b st2 _ _ hi ih =>
    unfold PSim.iter at hi
    split at hi
    · cases hi
    · split at hi
      · cases hi
      next s1 h1 =>
        split at hi
        · cases hi
        next s2 h2 =>
          cases hi
          rw [hitFold_log E _ h2]
          obtain ⟨a, c⟩ := spikeFold_log E _ h1
          refine ⟨fun n => (ih.1 n).trans (a n), ?_⟩
          intro e he n hn
          rw [List.flatten_append, List.mem_append] at he
          rcases he with he | he
          · exact (a n).mp (ih.2 e he n hn)
          · exact c e (by simpa using he) n hn

theorem sum_spikesOf {keys : List ℕ} (hnd : keys.Nodup) : ∀ (es : List (UEvent K)), (∀ e ∈ es, ∀ n, e.payload = .predicted n → n ∈ keys) →
    (keys.map (fun n => spikesOf n es)).sum = es.countP (fun e => e.isPred)
  | [], _ => by simp [spikesOf]
  | e :: es, h => by
    have ih := sum_spikesOf hnd es (fun x hx => h x (by simp [hx]))
    rw [List.countP_cons, ← ih]
    have hs : ∀ n, spikesOf n (e :: es) = spikesOf n es + (if e.payload = .predicted n then 1 else 0) := by
      intro n
      unfold spikesOf
      rw [List.countP_cons]
      congr 1
      cases hp : e.payload with
      | hit => simp
      | predicted m => simp
    simp only [hs]
    rw [List.sum_map_add]
    congr 1
    cases hp : e.payload with
    | hit => simp [UEvent.isPred, hp]
    | predicted m =>
      have hm := h e (by simp) m hp
      simp only [UEvent.isPred, hp, UPayload.predicted.injEq, if_true]
      have hcount : (keys.map (fun n => if m = n then 1 else 0)).sum = keys.count m := by
        clear hnd hm h ih
        induction keys with
        | nil => rfl
        | cons a l ihl =>
          rw [List.map_cons, List.sum_cons, ihl, List.count_cons, Nat.add_comm]
          congr 1
          by_cases e : m = a
          · subst e; simp
          · rw [if_neg e, if_neg (by simpa using fun e' => e e'.symm)]
      rw [hcount, List.count_eq_one_of_mem hnd hm]

end

section
variable [Field K] [LinearOrder K] [IsStrictOrderedRing K] [FloorRing K]

/-- **C117.** `benchmark_simulation(sim)` before `simulate`: ValueError, and nothing is printed.  After a successful `simulate`: it succeeds and prints one line with
the number of neurons of the network, one with the number of spikes of the run, and the energy report for the numbers of processed V, ge and gf events, and always
0 for gates.  (`keys` enumerates the keys of the spike log.) -/
theorem C117_simulation {w : World K} (hw : Built w) {m : ℕ} {l : List ℕ} (hn : w.neurons m = .ok l) (E : PEnv K) (st0 st : PSim K) (h0 : Started E st0)
    (fuel : ℕ) (h : st0.simulate E fuel = some (.ok st)) (keys : List ℕ) (hnd : keys.Nodup)
    (hkeys : ∀ n, n ∈ keys ↔ (st.spikeLog n).isSome) :
    (∀ n, n ∈ keys ↔ n ∈ E.net.neurons) ∧
    w.benchmarkSimulation m st0 keys = ⟨[], .error .valueError⟩ ∧
    ∃ (bs : List (List (UEvent K))) (st' : PSim K) (neurons all spikes : Line), Steps E st0 bs st' ∧ st = { st' with finished := true } ∧ st'.queue.len = .ok 0 ∧
      w.benchmarkSimulation m st keys = ⟨[title "\n", title "--------------------------------------------------", title "---------- SIMULATION BENCHMARK REPORT -----------",
          title "--------------------------------------------------", title "\n", title "--------------- NEURON USAGE REPORT --------------", neurons, all, title "\n",
          title "--------------- SPIKE COUNT REPORT ---------------", spikes, title "\n", title "------------ ENERGY & LATENCY REPORT -------------"] ++
        (reportEnergy (hitsOfKind .V bs.flatten) (hitsOfKind .ge bs.flatten) (hitsOfKind .gf bs.flatten) 0).lines, .ok ()⟩ ∧
      Says 0 (w.moduleUidOf m) l.length "neurons" neurons ∧ Says 0 "-> Total".toList l.length "neurons" all ∧
      Says 0 "-> Total".toList (bs.flatten.countP (fun e => e.isPred)) "spikes" spikes := by
  obtain ⟨p0, -, -, -, -, -, hlog0, -, hfin0, -⟩ := h0.spec
  rw [← and_assoc, and_comm (a := ∀ n, n ∈ keys ↔ n ∈ E.net.neurons), and_assoc]
  refine ⟨by simp [World.benchmarkSimulation, hfin0, fail], ?_⟩
  unfold PSim.simulate at h
  rw [hfin0] at h
  simp only [Bool.false_eq_true, if_false] at h
  split at h
  · cases h
  · cases h
  next st' hloop =>
    simp only [Option.some.injEq, Except.ok.injEq] at h
    subst h
    obtain ⟨bs, hs, hlen⟩ := loop_steps fuel Steps.start hloop
    obtain ⟨first, own, subs, total, hu, hu1, hu2, hu3, -⟩ := C117_neuron_usage hw hn 0
    obtain ⟨rfl, rfl⟩ := hu3 (Or.inl rfl)
    have hsum : keys.map (fun n => ((st'.spikeLog n).getD []).length) = keys.map (fun n => spikesOf n bs.flatten) := by
      refine List.map_congr_left fun n hn => ?_
      obtain ⟨L, hL⟩ := Option.isSome_iff_exists.mp ((hkeys n).mp hn)
      have hL' : st'.spikeLog n = some L := hL
      rw [hL', Option.getD_some]
      exact (C33_one_prediction_and_spikes_le_hits E st0 st' bs h0 hs n).2.1 L hL'
    have htot := sum_spikesOf hnd bs.flatten (fun e he n hn => (hkeys n).mpr ((steps_logged hs).2 e he n hn))
    have hc : reportedUpdates { st' with finished := true } = .ok (hitsOfKind .V bs.flatten, hitsOfKind .ge bs.flatten, hitsOfKind .gf bs.flatten, 0) :=
      (C37_report_counts E st0 st' bs h0 hs).1
    refine ⟨fun n => ?_, bs, st', first, total, .text ("-> Total: ".toList ++ decimal (bs.flatten.countP (fun e => e.isPred)) ++ " spikes".toList), hs, rfl, hlen, ?_, hu1, hu2,
      says_mk _ _ _ _ (by simp [spaces])⟩
    · rw [hkeys n, ← show (st'.spikeLog n).isSome ↔ _ from Iff.rfl, ← (steps_logged hs).1 n, hlog0 n]
      split <;> simp_all
    · obtain ⟨_, _, _, _, _, _, _, _, _, _, _, _, he, -⟩ := C117_energy (hitsOfKind .V bs.flatten) (hitsOfKind .ge bs.flatten) (hitsOfKind .gf bs.flatten) 0
      simp only [World.benchmarkSimulation, reportSpikeUsage, reportEnergySimulation, hc, hu, he, hsum, htot]
      simp [seq, andThen, skip, say, line, title]

/-- **C117.** A module that contains itself: `benchmark_net` ends with RecursionError, after the introduction and the title. -/
theorem C117_cyclic {w : World K} (hw : Built w) {m : ℕ} (hm : m < w.mCount) (hc : Cyclic w m) :
    w.benchmarkNet m = ⟨[title "IMP: Benchmarks on a net are estimations!", title "To benchmark actual runtime behaviour, use 'benchmark_simulation()'",
      title "--------------- NEURON USAGE REPORT --------------"], .error .recursionError⟩ := by
  have h := (C07_recursion_error_iff_cycle hw hm).1.mpr hc
  simp only [World.benchmarkNet, World.reportNeuronUsage, World.printTree, h]
  simp [seq, andThen, skip, fail, say, line, title]

end

/-- **C117.** The single reports.  The energy estimate of a net with a submodule without published counts raises ValueError before anything is printed (it forms the sums first),
while the spike estimate has printed its title by then; the spike report of a simulation refuses an unfinished one without printing, whereas the energy report of a
simulation accepts it at any point of the run. -/
theorem C117_single_reports (w : World K) (m : ℕ) :
    ((∃ s ∈ w.subnetworks m, w.kindOf s = .plain) → w.reportEnergyEstimation m = ⟨[], .error .valueError⟩ ∧
      (w.reportSpikeEstimation m).result = .error .valueError ∧
      (w.reportSpikeEstimation m).lines.head? = some (title "--------- SPIKE COUNT REPORT (ESTIMATION) --------") ∧
      ∀ n, .text ("-> Total: ".toList ++ decimal n ++ " spikes".toList) ∉ (w.reportSpikeEstimation m).lines) ∧
    ((∀ s ∈ w.subnetworks m, w.kindOf s ≠ .plain) → (w.reportEnergyEstimation m).result = .ok () ∧ (w.reportSpikeEstimation m).result = .ok () ∧
      (w.reportEnergyEstimation m).lines.head? = some (title "------ ENERGY & LATENCY REPORT (ESTIMATION) ------") ∧ (w.reportEnergyEstimation m).lines.length = 18) ∧
    ∀ (st : PSim K) (keys : List ℕ), (st.finished = false → reportSpikeUsage st keys = ⟨[], .error .valueError⟩) ∧
      reportEnergySimulation { st with finished := true } = reportEnergySimulation { st with finished := false } := by
  refine ⟨fun hp => ?_, fun hk => ?_, fun st keys => ⟨fun h => by simp [reportSpikeUsage, h, fail], rfl⟩⟩
  · have he := (C62_energy_counts w m).2 hp
    refine ⟨by simp [World.reportEnergyEstimation, he, fail], ?_⟩
    have hex : ∃ x ∈ w.subnetworks m, decide (w.kindOf x = .plain) = true := by simpa using hp
    obtain ⟨s, pre, post, hs, hp, hpre⟩ := first_split hex
    have e := reportSpike_eq w m pre (s :: post) hs (fun x hx => by simpa using hpre x hx)
    simp only [World.spikeLines, of_decide_eq_true hp, moduleTotalSpikes, fail] at e
    rw [e]
    refine ⟨rfl, rfl, fun n hn => ?_⟩
    simp only [List.append_nil, List.mem_cons, List.mem_append, List.mem_map] at hn
    rcases hn with hn | hn | ⟨a, -, ha⟩
    · simp [title] at hn
    · unfold topWarning at hn
      split at hn
      · simp at hn
      · simp [title] at hn
    · simp [spikeLine, spaces, List.replicate] at ha
  · have he := (C62_energy_counts w m).1 hk
    have e := reportSpike_eq w m (w.subnetworks m) [] (by simp) hk
    obtain ⟨_, _, _, _, _, _, _, _, _, _, _, _, h, -⟩ := C117_energy
          (2 * numKind w m .signFlipper + 42 * numKind w m .signedMulNorm + 76 * numKind w m .adder + 48 * numKind w m .div)
          (9 * numKind w m .signedMulNorm + 16 * numKind w m .adder + 5 * numKind w m .div)
          (3 * numKind w m .signedMulNorm + 3 * numKind w m .div) (4 * numKind w m .signedMulNorm + 4 * numKind w m .div)
    have hr : w.reportEnergyEstimation m = ⟨title "------ ENERGY & LATENCY REPORT (ESTIMATION) ------" :: (reportEnergy
          (2 * numKind w m .signFlipper + 42 * numKind w m .signedMulNorm + 76 * numKind w m .adder + 48 * numKind w m .div)
          (9 * numKind w m .signedMulNorm + 16 * numKind w m .adder + 5 * numKind w m .div)
          (3 * numKind w m .signedMulNorm + 3 * numKind w m .div) (4 * numKind w m .signedMulNorm + 4 * numKind w m .div)).lines, .ok ()⟩ := by
      simp only [World.reportEnergyEstimation, he]
      rw [seq_cons_ok (by rfl), seq_one, h]
      simp [say, line, title]
    rw [hr, e, h]
    exact ⟨rfl, rfl, rfl, rfl⟩

/-! ### Concrete reports -/

/-- `C117_single_reports` on `exTree`. -/
example : exTree.reportEnergyEstimation 0 = ⟨[], .error .valueError⟩ ∧ (exTree.reportEnergyEstimation 1).lines.length = 18 :=
  ⟨((C117_single_reports exTree 0).1 ⟨1, by decide, by decide⟩).1, ((C117_single_reports exTree 1).2.1 (by decide)).2.2.2⟩

/-- The neuron report of the three-level tree `exTree`: the innermost module is not shown. -/
example : (exTree.reportNeuronUsage 0 1).lines = [title "--------------- NEURON USAGE REPORT --------------", title "(m0)_top: 3 neurons", title "    own 1",
    title "    (m1): 2 neurons", title "-> Total: 3 neurons", title "\n"] := by decide +kernel

/-- `C117_net` on `exTree`: its only direct submodule has no published counts, so `benchmark_net` raises, after the neuron report, the title of the spike report and
the warning. -/
example : (exTree.benchmarkNet 0).result = .error .valueError ∧ (exTree.benchmarkNet 0).lines.length = 2 + 6 + 5 ∧
    (exTree.benchmarkNet 0).lines.getLast? = some (title "     Use estimation with care.") := by
  obtain ⟨spikes, h, -⟩ := (C117_net exTree_built (m := 0) (l := [0, 2, 1]) (by decide)).2.2 [] 1 [] (by decide) (by decide) (by decide)
  refine ⟨by rw [h], by decide +kernel, by decide +kernel⟩

/-- `C117_net` on the submodule `mid` of `exTree`, which holds an adder: 58 spikes. -/
example : (exTree.benchmarkNet 1).result = .ok () ∧ title "    (m2)_leaf: 58 spikes" ∈ (exTree.benchmarkNet 1).lines ∧
    title "-> Total: 58 spikes" ∈ (exTree.benchmarkNet 1).lines ∧ title "V-type updates: 76" ∈ (exTree.benchmarkNet 1).lines := by
  refine ⟨(C117_net exTree_built (m := 1) (l := [2, 1]) (by decide)).1.mpr (by decide), by decide +kernel, by decide +kernel, by decide +kernel⟩

/-- `C117_energy` on the counts of one adder: 284 updates, (3 * 284 + 5) / 200 MHz. -/
example : (reportEnergy 76 16 0 0).lines.take 8 = [title "-------", title "Predictive logic report:", title "V-type updates: 76", title "ge-type updates: 16",
    title "gf-type updates: 0", title "gm-type updates: 0", title "-------", .value "Latency per iteration: " (857 / 200000000) " s"] := by decide +kernel

/-- `C117_cyclic` on a module attached to itself. -/
example : ((addSubnetwork 0 0 (newModule .plain none (World.empty : World ℚ)).2).2.benchmarkNet 0).result = .error .recursionError := by
  rw [C117_cyclic (.addSubnetwork _ _ (.newModule _ _ .empty) (by decide) (by decide)) (by decide)
    ⟨0, .refl, .single (show (0, 0) ∈ _ by decide)⟩]

theorem simulated (r : Option (Except PyErr (PSim ℚ))) (P : PSim ℚ → Prop) [DecidablePred P]
    (h : ((r.bind Except.toOption).map (fun st => decide (P st))).getD false = true) : ∃ st, r = some (.ok st) ∧ P st := by
  match r, h with
  | some (.ok st), h => exact ⟨st, rfl, of_decide_eq_true h⟩

/-- `C117_simulation` on the run of `chainEnv`: two spikes, two V events. -/
example : ∃ st, chainStart.simulate chainEnv 4 = some (.ok st) ∧
    (exTree.benchmarkSimulation 0 st [0, 1]).result = .ok () ∧ title "-> Total: 2 spikes" ∈ (exTree.benchmarkSimulation 0 st [0, 1]).lines ∧
    title "V-type updates: 2" ∈ (exTree.benchmarkSimulation 0 st [0, 1]).lines ∧ (exTree.benchmarkSimulation 0 chainStart [0, 1]).lines = [] := by
  have hs : ∃ st, chainStart.simulate chainEnv 4 = some (.ok st) ∧ title "-> Total: 2 spikes" ∈ (exTree.benchmarkSimulation 0 st [0, 1]).lines ∧
      title "V-type updates: 2" ∈ (exTree.benchmarkSimulation 0 st [0, 1]).lines ∧ ∀ n ∈ [0, 1], (st.spikeLog n).isSome :=
    simulated _ (fun st => title "-> Total: 2 spikes" ∈ (exTree.benchmarkSimulation 0 st [0, 1]).lines ∧
      title "V-type updates: 2" ∈ (exTree.benchmarkSimulation 0 st [0, 1]).lines ∧ ∀ n ∈ [0, 1], (st.spikeLog n).isSome) (by decide +kernel)
  obtain ⟨st, h, h1, h2, hk⟩ := hs
  obtain ⟨-, h3, bs, st', a, b, c, -, -, -, h4, -⟩ := C117_simulation exTree_built (m := 0) (l := [0, 2, 1]) (by decide) chainEnv _ _ chainStart_started 4 h [0, 1] (by decide)
    (fun n => ⟨fun hn => hk n hn, fun hn => by
      unfold PSim.simulate at h
      split at h
      · cases h
      · split at h
        · cases h
        · cases h
        next st' hloop =>
          cases h
          obtain ⟨bs, hs, -⟩ := loop_steps 4 Steps.start hloop
          obtain ⟨-, -, -, -, -, -, hl, -⟩ := chainStart_started.spec
          have h5 := ((steps_logged hs).1 n).mpr hn
          rw [hl] at h5
          by_contra hne
          rw [if_neg (show n ∉ chainEnv.net.neurons from hne)] at h5
          cases h5⟩)
  exact ⟨st, h, by rw [h4], h1, h2, by rw [h3]⟩

end Axon
