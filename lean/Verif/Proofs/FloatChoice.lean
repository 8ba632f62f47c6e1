import Verif.Proofs.FloatSession

/-! # Runs whose outcome depends on the order of simultaneous arrivals

`Proofs/FloatNet.lean` asks that a neuron fires in the same steps whatever the order in which simultaneous spikes are handed to it.  Where two
simultaneous weights do not commute in floats, the spikes depend on the order; here they may be chosen after the order is known. -/
set_option linter.unusedSectionVars false
namespace Axon
open Spec

section Generic
variable {K : Type*} [LinearOrder K] [Add K] [Sub K] [Mul K] [Div K] [Zero K] [One K] [NatCast K] [RoundedArith K]

open Classical in
/-- The arrivals in the order in which they are handed over, if `c` is such an order. -/
noncomputable def pick (c h : List (SynKind × K)) : List (SynKind × K) := if c.Perm h then c else h

theorem pick_perm (c h : List (SynKind × K)) : (pick c h).Perm h := by
  unfold pick; split
  · assumption
  · exact List.Perm.refl _

theorem pick_of_perm {c h : List (SynKind × K)} (e : c.Perm h) : pick c h = c := if_pos e

/-- A run of a single neuron, from rest, on a list of arrivals per step. -/
structure NRunX (p : Params K) (dt : K) (hits : ℕ → List (SynKind × K)) (s : ℕ → NState K) (f : ℕ → Bool) : Prop where
  start : s 0 = ⟨0, 0, 0, 0⟩ ∧ f 0 = false
  step : ∀ i, (s (i + 1), f (i + 1)) = euler p dt ((hits (i + 1)).foldl addHit (s i))

/-- Driven by exactly these lists, the neuron fires exactly in the steps `L`. -/
def FitsX (p : Params K) (dt : K) (hits : ℕ → List (SynKind × K)) (L : List ℕ) : Prop :=
  ∀ s f, NRunX p dt hits s f → ∀ i, f i = decide (i ∈ L)

theorem NRunX.toR {p : Params K} {dt : K} {hits hits' : ℕ → List (SynKind × K)} {s : ℕ → NState K} {f : ℕ → Bool} (h : NRunX p dt hits' s f)
    (e : ∀ i, (hits' i).Perm (hits i)) : NRun p dt hits s f :=
  ⟨h.start, fun i => ⟨_, e (i + 1), h.step i⟩⟩

theorem FitsR.toX {p : Params K} {dt : K} {hits hits' : ℕ → List (SynKind × K)} {L : List ℕ} (h : FitsR p dt hits L) (e : ∀ i, (hits' i).Perm (hits i)) :
    FitsX p dt hits' L := fun s f hr => h s f (hr.toR e)

/-- A run up to step `N` can be continued. -/
theorem extend_runX {p : Params K} {dt : K} {hits : ℕ → List (SynKind × K)} {s : ℕ → NState K} {f : ℕ → Bool} (h0 : s 0 = ⟨0, 0, 0, 0⟩ ∧ f 0 = false)
    {N : ℕ} (h : ∀ i < N, (s (i + 1), f (i + 1)) = euler p dt ((hits (i + 1)).foldl addHit (s i))) :
    ∃ s' f', NRunX p dt hits s' f' ∧ ∀ i ≤ N, s' i = s i ∧ f' i = f i := by
  let nx : ℕ → ℕ → NState K × Bool := fun i k => Nat.rec (s N, f N) (fun k r => euler p dt ((hits (N + k + 1)).foldl addHit r.1)) k
  refine ⟨fun i => if i ≤ N then s i else (nx i (i - N)).1, fun i => if i ≤ N then f i else (nx i (i - N)).2, ⟨by simpa using h0, fun i => ?_⟩,
    fun i hi => by simp [hi]⟩
  rcases lt_trichotomy i N with hi | rfl | hi
  · simp only [show i + 1 ≤ N from hi, show i ≤ N from hi.le, if_true]; exact h i hi
  · simp only [show ¬ i + 1 ≤ i by omega, le_refl, if_true, if_false, show i + 1 - i = 1 by omega]
    rfl
  · simp only [show ¬ i + 1 ≤ N by omega, show ¬ i ≤ N by omega, if_false]
    obtain ⟨k, rfl⟩ : ∃ k, i = N + k + 1 := ⟨i - N - 1, by omega⟩
    rw [show N + k + 1 + 1 - N = k + 1 + 1 by omega, show N + k + 1 - N = k + 1 by omega]
    rfl

/-- **A consistent assignment of spike steps is what the simulator computes**, also if it is chosen after the order of simultaneous arrivals. -/
theorem consistX {net : Net K} (wf : WellFormed net) {dt : K} {inj : List (ℕ × K)} {S : ℕ → ℕ → NState K} {F : ℕ → ℕ → Bool} {B : ℕ → List (Event K)}
    (hr : IsRunR net dt inj (fun _ => ⟨0, 0, 0, 0⟩) S F B) {LS : ℕ → List ℕ} (hnd : ∀ m, (LS m).Nodup) (hout : ∀ m, m ∉ net.neurons → LS m = [])
    (hfit : ∀ n ∈ net.neurons, FitsX (net.par n) dt
      (fun i => pick (((B i).filter fun e => e.neuron = n).map fun e => (e.kind, e.weight)) (hitsR net dt inj LS n i)) (LS n)) :
    ∀ i n, F i n = decide (i ∈ LS n) := by
  intro i
  induction i using Nat.strong_induction_on with
  | _ i ih =>
    intro n
    by_cases hn : n ∈ net.neurons
    · have hst : ∀ k < i, (S (k + 1) n, F (k + 1) n) = euler (net.par n) dt
          ((pick (((B (k + 1)).filter fun e => e.neuron = n).map fun e => (e.kind, e.weight)) (hitsR net dt inj LS n (k + 1))).foldl addHit (S k n)) := by
        intro k hk
        rw [pick_of_perm ((((hr.batch k).filter _).map _).trans (due_perm wf hnd (fun j hj m => ih j (by omega) m) hout n)), ← foldl_addEv]
        exact hr.step k n hn
      obtain ⟨s', f', h1, h2⟩ := extend_runX (hits := fun i => pick (((B i).filter fun e => e.neuron = n).map fun e => (e.kind, e.weight)) (hitsR net dt inj LS n i))
        (s := fun i => S i n) (f := fun i => F i n) (hr.start n) hst
      rw [← (h2 i le_rfl).2]
      exact hfit n hn s' f' h1 i
    · rw [(hr.outside i n hn).2, hout n hn]; simp

end Generic

/-- The outcome of a session on a network of `N` standard neurons whose spikes are known once the order of simultaneous arrivals is known. -/
theorem lib_runX (H : EventHeap Double) {ord} (hord : SetOrder ord) {enc : Encoder Double} {dt : Double} (hdt : 0 < dt) {w : World Double} {N : ℕ}
    (hns : w.neurons 0 = .ok (List.range N)) (hpar : ∀ n < N, w.par n = stdFl)
    (hsyn : ∀ s ∈ (w.net (List.range N)).syns, s.post < N ∧ (s.kind = .V ∨ s.kind = .ge ∨ s.kind = .gf ∨ s.kind = .gate))
    {cs : List (Call Double)} (hcs : ∀ c ∈ cs, CallOK c) (T : Double) {P : List (List ℕ) → Prop}
    (hfit : ∀ c : ℕ → ℕ → List (SynKind × Double), ∃ Ls : List (List ℕ), P Ls ∧ Ls.length = N ∧ (∀ L ∈ Ls, L.Pairwise (· < ·)) ∧
      (∀ L ∈ Ls, ∀ i ∈ L, 1 ≤ i ∧ i ≤ numStepsFl T dt) ∧
      ∀ n < N, FitsX stdFl dt (fun i => pick (c n i) (hitsR (w.net (List.range N)) dt (cs.flatMap (callSpikesR enc)) (fun n => Ls.getD n []) n i)) (Ls.getD n [])) :
    ∃ st Ls, P Ls ∧ sessionFl H ord enc dt T w 0 cs = .ok st ∧
      ∀ n < N, st.spikeLog n = some (injTimes (cs.flatMap (callSpikesR enc)) n ++ (Ls.getD n []).map fun i : ℕ => (i : Double) * dt) := by
  have h10 : stdFl.tm ≠ 0 := by decide +kernel
  have h20 : stdFl.tf ≠ 0 := by decide +kernel
  have hp : ∀ n ∈ (w.net (List.range N)).neurons, (w.net (List.range N)).par n = stdFl := fun n hn => hpar n (List.mem_range.mp hn)
  have wf : WellFormed (w.net (List.range N)) :=
    ⟨fun s hs => List.mem_range.mpr (hsyn s hs).1, fun s hs => (hsyn s hs).2, fun n hn => by rw [hp n hn]; exact h10,
      fun n hn => by rw [hp n hn]; exact h20, fun n hn => by rw [hp n hn]; exact lt0⟩
  have hrest : Resting (w.net (List.range N)) (fun _ => ⟨0, 0, 0, 0⟩) := by
    intro n hn
    rw [hp n hn]
    exact ⟨lt0, rfl, rfl, rfl⟩
  obtain ⟨st0, h0, S, F, B, hr, hall⟩ := C72_doubles H hord wf hdt enc cs hcs hrest
  obtain ⟨Ls, hP, hN, hsort, hT, hf⟩ := hfit fun n i => ((B i).filter fun e => e.neuron = n).map fun e => (e.kind, e.weight)
  have hout : ∀ n, N ≤ n → Ls.getD n [] = [] := fun n hn => by
    rw [List.getD_eq_getElem?_getD, List.getElem?_eq_none (by omega)]; rfl
  have hin : ∀ n, n < N → Ls.getD n [] ∈ Ls := fun n hn => by
    rw [List.getD_eq_getElem?_getD, List.getElem?_eq_getElem (by omega)]; exact List.getElem_mem _
  have hs' : ∀ n, (Ls.getD n []).Pairwise (· < ·) := fun n => by
    by_cases hn : n < N
    · exact hsort _ (hin n hn)
    · rw [hout n (by omega)]; exact List.Pairwise.nil
  have hF := consistX wf hr (LS := fun n => Ls.getD n []) (fun n => (hs' n).imp (fun h => h.ne)) (fun n hn => hout n (by simpa [World.net] using hn))
    (fun n hn => by rw [hp n hn]; exact hf n (List.mem_range.mp hn))
  obtain ⟨st, h1, h2⟩ := hall T
  refine ⟨st, Ls, hP, ?_, fun n hn => ?_⟩
  · unfold sessionFl
    rw [hns]; dsimp only
    rw [h0]; exact h1
  · rw [h2.spikes n (List.mem_range.mpr hn)]
    congr 2
    unfold emitted
    have : (fun i => F i n) = fun i => decide (i ∈ Ls.getD n []) := funext fun i => hF i n
    rw [this, filter_sorted (hs' n) (hT _ (hin n hn))]

end Axon
