import Verif.Proofs.FloatSession

/-! # Spikes of a part of a network

If a set of neurons hears only from itself and from injections, its spikes can be computed without knowing what the other neurons do. -/
set_option linter.unusedSectionVars false
namespace Axon
open Spec

theorem consistR_closed {net : Net Double} (wf : WellFormed net) {dt : Double} {inj : List (ℕ × Double)} {S : ℕ → ℕ → NState Double} {F : ℕ → ℕ → Bool}
    {B : ℕ → List (Event Double)} (hr : IsRunR net dt inj (fun _ => ⟨0, 0, 0, 0⟩) S F B) {P : ℕ → Prop} {LS : ℕ → List ℕ}
    (hcl : ∀ s ∈ net.syns, P s.post → P s.pre) (hnd : ∀ m, (LS m).Nodup) (hout : ∀ m, m ∉ net.neurons → LS m = [])
    (hfit : ∀ n ∈ net.neurons, P n → FitsR (net.par n) dt (hitsR net dt inj LS n) (LS n)) : ∀ i n, P n → F i n = decide (i ∈ LS n) := by
  classical
  intro i
  induction i using Nat.strong_induction_on with
  | _ i ih =>
    intro n hP
    by_cases hn : n ∈ net.neurons
    · -- what the other neurons really do
      obtain ⟨LS', hLS'⟩ : ∃ LS' : ℕ → List ℕ, LS' = fun m => if P m then LS m else (List.range i).filter fun j => F j m := ⟨_, rfl⟩
      have e1 : ∀ m, P m → LS' m = LS m := fun m hm => by rw [hLS']; exact if_pos hm
      have hnd' : ∀ m, (LS' m).Nodup := by
        intro m
        rw [hLS']; dsimp only
        split
        · exact hnd m
        · exact List.nodup_range.filter _
      have hF' : ∀ j < i, ∀ m, F j m = decide (j ∈ LS' m) := by
        intro j hj m
        by_cases hm : P m
        · rw [e1 m hm]; exact ih j hj m hm
        · have e2 : LS' m = (List.range i).filter fun j => F j m := by rw [hLS']; exact if_neg hm
          rw [e2]
          by_cases hf : F j m = true <;> simp [hj, hf]
      have hout' : ∀ m, m ∉ net.neurons → LS' m = [] := by
        intro m hm
        rw [hLS']; dsimp only
        split
        · exact hout m hm
        · rw [List.filter_eq_nil_iff]
          intro j _
          rw [(hr.outside j m hm).2]; simp
      have hh : ∀ k, hitsR net dt inj LS' n k = hitsR net dt inj LS n k := by
        intro k
        unfold hitsR
        refine List.flatMap_congr fun s hs => ?_
        obtain ⟨h1, h2⟩ := List.mem_filter.mp hs
        rw [e1 s.pre (hcl s h1 (by rw [of_decide_eq_true h2]; exact hP))]
      have hst : ∀ k < i, ∃ l : List (SynKind × Double), l.Perm (hitsR net dt inj LS n (k + 1)) ∧ (S (k + 1) n, F (k + 1) n) = euler (net.par n) dt (l.foldl addHit (S k n)) := by
        intro k hk
        refine ⟨((B (k + 1)).filter fun e => e.neuron = n).map fun e => (e.kind, e.weight), ?_, ?_⟩
        · rw [← hh]
          exact (((hr.batch k).filter _).map _).trans (due_perm wf hnd' (fun j hj m => hF' j (by omega) m) hout' n)
        · rw [← foldl_addEv]; exact hr.step k n hn
      obtain ⟨s', f', h1, h2⟩ := extend_run (s := fun i => S i n) (f := fun i => F i n) (hr.start n) hst
      rw [← (h2 i le_rfl).2]
      exact hfit n hn hP s' f' h1 i
    · rw [(hr.outside i n hn).2, hout n hn]; simp

/-- The logs of a part of a network whose spikes are known. -/
theorem session_closed (H : EventHeap Double) {ord} (hord : SetOrder ord) {enc : Encoder Double} {dt : Double} (hdt : 0 < dt) {w : World Double} {m : ℕ}
    {ns : List ℕ} (hns : w.neurons m = .ok ns) (wf : WellFormed (w.net ns)) {cs : List (Call Double)} (hcs : ∀ c ∈ cs, CallOK c) {LS : ℕ → List ℕ}
    (hpar : ∀ n ∈ ns, w.par n = stdFl) {P : ℕ → Prop} (hcl : ∀ s ∈ w.syns, P s.post → P s.pre)
    (hsort : ∀ n, (LS n).Pairwise (· < ·)) (hout : ∀ n, n ∉ ns → LS n = [])
    (hfit : ∀ n ∈ ns, P n → FitsR stdFl dt (hitsR (w.net ns) dt (cs.flatMap (callSpikesR enc)) LS n) (LS n)) (T : Double)
    (hT : ∀ n, ∀ i ∈ LS n, 1 ≤ i ∧ i ≤ numStepsFl T dt) :
    ∃ st, sessionFl H ord enc dt T w m cs = .ok st ∧
      ∀ n ∈ ns, P n → st.spikeLog n = some (injTimes (cs.flatMap (callSpikesR enc)) n ++ (LS n).map fun i : ℕ => (i : Double) * dt) := by
  have hrest : Resting (w.net ns) (fun _ => ⟨0, 0, 0, 0⟩) := by
    intro n hn
    have : (w.net ns).par n = stdFl := hpar n hn
    rw [this]
    exact ⟨lt0, rfl, rfl, rfl⟩
  obtain ⟨st0, h0, S, F, B, hr, hall⟩ := C72_doubles H hord wf hdt enc cs hcs hrest
  have hF := consistR_closed wf hr (P := P) (LS := LS) (fun s hs => hcl s (by simpa [World.net] using hs)) (fun n => (hsort n).imp (fun h => h.ne)) hout (fun n hn hP => by
    have : (w.net ns).par n = stdFl := hpar n hn
    rw [this]; exact hfit n hn hP)
  obtain ⟨st, h1, h2⟩ := hall T
  refine ⟨st, ?_, fun n hn hP => ?_⟩
  · unfold sessionFl
    rw [hns]; dsimp only
    rw [h0]; exact h1
  · rw [h2.spikes n hn]
    congr 2
    unfold emitted
    have : (fun i => F i n) = fun i => decide (i ∈ LS n) := funext fun i => hF i n hP
    rw [this, filter_sorted (hsort n) (hT n)]

end Axon
