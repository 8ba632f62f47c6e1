import Verif.Proofs.PredRest
import Verif.Proofs.PredBlocks

/-! # Networks as state machines, in the predictive simulator: what one use leaves behind is where the next one starts -/
set_option linter.unusedSectionVars false
namespace Axon
open Spec
variable {K : Type*} [Field K] [LinearOrder K] [IsStrictOrderedRing K] [FloorRing K]

/-- Neuron `x` starts with voltage `V`, spikes as `LS` says, and is left with voltage `V'`; no currents are left. -/
def Goes (E : PEnv K) (V V' l0 : K) (inj : List (ℕ × K)) (LS : ℕ → List K) (x : ℕ) : Prop :=
  ∃ (vs : List (Volley K)) (l : K), (vs.flatMap Volley.items).Perm (arriving E.net inj LS x) ∧
    Done E x ⟨V, 0, 0, 0⟩ l0 vs (LS x) ⟨V', 0, 0, 0⟩ l none

theorem Goes.append {E : PEnv K} {V V' V'' l0 : K} {inj1 inj2 : List (ℕ × K)} {L1 L2 : ℕ → List K} {x : ℕ} (h1 : Goes E V V' l0 inj1 L1 x)
    (h2 : Goes E V' V'' l0 inj2 L2 x)
    {A1 B1 A2 B2 : K} (w1 : Within E.net inj1 L1 A1 B1 x) (w2 : Within E.net inj2 L2 A2 B2 x) (hlt : B1 < A2) :
    Goes E V V'' l0 (inj1 ++ inj2) (fun x => L1 x ++ L2 x) x := by
  obtain ⟨vs, l, a1, a2⟩ := h1
  obtain ⟨ws, m, b1, b2⟩ := h2
  obtain ⟨m', b3⟩ := b2.restart' l
  refine ⟨vs ++ ws, m', ?_, ?_⟩
  · rw [List.flatMap_append]
    exact (a1.append b1).trans (arriving_append _ _ _ _ _ _)
  · refine a2.append b3 fun w hw => ?_
    have hw' : A2 ≤ w.time := by
      obtain ⟨y, hy⟩ := List.exists_mem_of_ne_nil _ (b2.sorted.2 w hw)
      exact (w2.1 (Item.hit w.time y.1 y.2) (b1.mem_iff.mp (List.mem_flatMap.mpr ⟨w, hw, List.mem_map.mpr ⟨y, hy, rfl⟩⟩))).1
    refine ⟨fun v hv => ?_, fun y hy => (w1.2 y hy).trans (hlt.le.trans hw')⟩
    obtain ⟨y, hy⟩ := List.exists_mem_of_ne_nil _ (a2.sorted.2 v hv)
    exact ((w1.1 (Item.hit v.time y.1 y.2) (a1.mem_iff.mp (List.mem_flatMap.mpr ⟨v, hv, List.mem_map.mpr ⟨y, hy, rfl⟩⟩))).2.trans_lt hlt).trans_le hw'

theorem Goes.fits {E : PEnv K} {V' : K} {inj LS x} (h : Goes E 0 V' 0 inj LS x) : Fits E inj LS x := by
  obtain ⟨vs, l, h1, h2⟩ := h
  refine ⟨vs, h2.sorted.1, h2.sorted.2, h1, ?_⟩
  have := h2.reacts (ws := []) (L' := []) Reacts.done (by simp)
  rwa [List.append_nil, List.append_nil] at this

/-- A neuron that is hit through `V` synapses only. -/
theorem Goes.ofV {E : PEnv K} {n : ℕ} (hpar : E.net.par n = stdPar) (hs : Sane E.exp E.dt) {V l0 : K} {inj : List (ℕ × K)} {LS : ℕ → List K}
    (vs : List (K × K)) (h1 : (vs.map Prod.fst).Pairwise (· < ·)) (ha : (vs.map (fun v => Item.hit v.1 .V v.2)).Perm (arriving E.net inj LS n))
    (hL : vrun V vs = LS n) : Goes E V (vend V vs) l0 inj LS n := by
  have hr := reacts_V hpar hs (vs.map (fun v => (v.1, [v.2]))) V l0 (by rw [List.map_map]; exact h1)
  have e : (vs.map (fun v => (v.1, [v.2]))).map (fun v : K × List K => (v.1, v.2.sum)) = vs := by
    rw [List.map_map]
    conv_rhs => rw [← List.map_id vs]
    exact List.map_congr_left fun v _ => by simp
  rw [e, hL] at hr
  obtain ⟨s', l', h5⟩ := hr.toDone (by simpa [List.map_map, Function.comp_def] using h1) (by
    intro v hv
    simp only [List.map_map, List.mem_map, Function.comp] at hv
    obtain ⟨u, -, rfl⟩ := hv
    simp)
  obtain ⟨h6, -⟩ := h5.ofV hpar hs (fun v => v.hits.map Prod.snd) (by
    intro v hv
    simp only [List.map_map, List.mem_map, Function.comp] at hv
    obtain ⟨u, -, rfl⟩ := hv
    simp)
  rcases h6 with ⟨-, rfl⟩ | ⟨⟨u, -, h⟩, -⟩
  · refine ⟨(vs.map (fun v => (v.1, [v.2]))).map (fun v => ⟨v.1, v.2.map (fun w => (SynKind.V, w))⟩), l', ?_, ?_⟩
    rotate_left
    · have e2 : ((vs.map (fun v => (v.1, [v.2]))).map (fun v : K × List K => (⟨v.1, v.2.map (fun w => (SynKind.V, w))⟩ : Volley K))).map
          (fun v => (v.time, (v.hits.map Prod.snd).sum)) = vs := by
        rw [List.map_map, List.map_map]
        conv_rhs => rw [← List.map_id vs]
        exact List.map_congr_left fun v _ => by simp
      rw [e2] at h5
      exact h5
    · refine (List.Perm.of_eq ?_).trans ha
      rw [List.flatMap_map, List.flatMap_map, ← List.flatMap_singleton' (vs.map _), List.flatMap_map]
      rfl
  · cases h

theorem Done.move {E E' : PEnv K} {n n' : ℕ} (h1 : E'.exp = E.exp) (h2 : E'.dt = E.dt) (h3 : E'.net.par n' = E.net.par n) {s0 l0 vs L s l o}
    (h : Done E' n' s0 l0 vs L s l o) : Done E n s0 l0 vs L s l o := by
  induction h with
  | start => exact .start
  | volley _ a b c d e f ih => rw [h1, h3] at e; rw [h1, h2, h3] at f; rw [h2]; exact .volley ih a b c d e f
  | fire _ ih => rw [h3]; exact .fire ih

/-- A neuron that receives the same in two networks does the same. -/
theorem RestsAs.goes {E E' : PEnv K} {n n' : ℕ} {V l0 : K} {inj inj' : List (ℕ × K)} {LS LS' : ℕ → List K} (h1 : E'.exp = E.exp) (h2 : E'.dt = E.dt)
    (h3 : E'.net.par n' = E.net.par n) (hL : LS' n' = LS n) (ha : (arriving E'.net inj' LS' n').Perm (arriving E.net inj LS n))
    (h : RestsAs E' V l0 inj' LS' n') : Goes E V V l0 inj LS n := by
  obtain ⟨vs, l, a, b⟩ := h
  exact ⟨vs, l, a.trans ha, hL ▸ b.move h1 h2 h3⟩

theorem Within.move {net net' : Net K} {n n' : ℕ} {A B : K} {inj inj' : List (ℕ × K)} {LS LS' : ℕ → List K} (hL : LS' n' = LS n)
    (ha : (arriving net' inj' LS' n').Perm (arriving net inj LS n)) (h : Within net' inj' LS' A B n') : Within net inj LS A B n :=
  ⟨fun i hi => h.1 i (ha.mem_iff.mpr hi), fun y hy => h.2 y (hL ▸ hy)⟩

theorem Goes.ofV' {E : PEnv K} {n : ℕ} (hpar : E.net.par n = stdPar) (hs : Sane E.exp E.dt) {V V' l0 A B : K} {inj : List (ℕ × K)} {LS : ℕ → List K}
    (vs : List (K × K)) (h1 : (vs.map Prod.fst).Pairwise (· < ·)) (ha : (vs.map (fun v => Item.hit v.1 .V v.2)).Perm (arriving E.net inj LS n))
    (hL : vrun V vs = LS n) (hV : vend V vs = V') (hlo : ∀ v ∈ vs, A ≤ v.1 ∧ v.1 ≤ B) (hy : ∀ y ∈ LS n, y ≤ B) :
    Goes E V V' l0 inj LS n ∧ Within E.net inj LS A B n := by
  refine ⟨hV ▸ Goes.ofV hpar hs vs h1 ha hL, fun i hi => ?_, hy⟩
  obtain ⟨v, hv, rfl⟩ := List.mem_map.mp (ha.mem_iff.mpr hi)
  exact hlo v hv

/-- What a state machine does with a sequence of inputs: the trains of spikes of all neurons. -/
def machine {σ ι : Type*} (f : σ → ι → σ) (LS : σ → ι → ℕ → List K) : σ → List ι → ℕ → List K
  | _, [], _ => []
  | s, o :: os, x => LS s o x ++ machine f LS (f s o) os x

theorem machine_goes {E : PEnv K} {σ ι : Type*} {x : ℕ} (f : σ → ι → σ) (LS : σ → ι → ℕ → List K) (inj : ι → List (ℕ × K)) (lo hi : ι → K) (V : σ → K) :
    ∀ (os : List ι) (s : σ), (∀ o ∈ os, ∀ s, Goes E (V s) (V (f s o)) 0 (inj o) (LS s o) x ∧ Within E.net (inj o) (LS s o) (lo o) (hi o) x) →
    os.Pairwise (fun o o' => hi o < lo o') →
    (∃ V', Goes E (V s) V' 0 (os.flatMap inj) (machine f LS s os) x) ∧
      ∀ A B, (∀ o ∈ os, A ≤ lo o ∧ hi o ≤ B) → Within E.net (os.flatMap inj) (machine f LS s os) A B x := by
  intro os
  have hnil : ∀ s, arriving E.net [] (machine f LS s []) x = [] := by
    intro s
    unfold arriving
    simp [machine]
  induction os with
  | nil =>
    intro s _ _
    refine ⟨⟨V s, [], 0, ?_, Done.start⟩, fun A B _ => ⟨?_, ?_⟩⟩
    · exact (List.Perm.of_eq (hnil s)).symm
    · intro i hi
      have hi : i ∈ arriving E.net [] (machine f LS s []) x := hi
      rw [hnil] at hi
      simp at hi
    · intro y hy; simp [machine] at hy
  | cons o os ih =>
    intro s h hp
    rw [List.pairwise_cons] at hp
    obtain ⟨h1, h2⟩ := h o (by simp) s
    obtain ⟨⟨V', i1⟩, i2⟩ := ih (f s o) (fun v hv => h v (by simp [hv])) hp.2
    have hm : machine f LS s (o :: os) = fun x => LS s o x ++ machine f LS (f s o) os x := by funext x; rfl
    rw [List.flatMap_cons, hm]
    obtain ⟨A2, hA2, hA2'⟩ : ∃ A2, (∀ w ∈ os, A2 ≤ lo w) ∧ hi o < A2 := by
      have := hp.1
      clear i1 i2 ih h hp h1 h2 hm
      induction os with
      | nil => exact ⟨hi o + 1, by simp, by linarith⟩
      | cons w l ih =>
        obtain ⟨A, a1, a2⟩ := ih (fun w hw => this w (by simp [hw]))
        refine ⟨min A (lo w), ?_, lt_min a2 (this w (by simp))⟩
        intro z hz
        rcases List.mem_cons.mp hz with rfl | hz
        · exact min_le_right _ _
        · exact (min_le_left _ _).trans (a1 z hz)
    obtain ⟨B2, hB2⟩ : ∃ B2, ∀ w ∈ os, hi w ≤ B2 := by
      clear i1 i2 ih h hp h1 h2 hm hA2 hA2'
      induction os with
      | nil => exact ⟨0, by simp⟩
      | cons w l ih =>
        obtain ⟨B, b1⟩ := ih
        refine ⟨max B (hi w), ?_⟩
        intro z hz
        rcases List.mem_cons.mp hz with rfl | hz
        · exact le_max_right _ _
        · exact (b1 z hz).trans (le_max_left _ _)
    refine ⟨⟨V', h1.append i1 h2 (i2 A2 B2 fun w hw => ⟨hA2 w hw, hB2 w hw⟩) hA2'⟩, fun A B hAB => ?_⟩
    have w2 := i2 A B fun w hw => hAB w (by simp [hw])
    obtain ⟨hA, hB⟩ := hAB o (by simp)
    refine Within.append (A1 := A) (B1 := B) (A2 := A) (B2 := B) ⟨fun i hi => ⟨hA.trans (h2.1 i hi).1, (h2.1 i hi).2.trans hB⟩, fun y hy => (h2.2 y hy).trans hB⟩ w2 le_rfl le_rfl

/-- A library network used several times in one predictive simulation; every use starts from what the one before it has left behind. -/
theorem LibOK.predMachine {w : World K} {n : ℕ} (h : LibOK w n) (H : TimeHeap K) {exp : K → K} (enc : Encoder K) {dt : K} (hdt : 0 < dt)
    (hdel : ∀ s ∈ w.syns, 0 < s.delay) {σ ι : Type*} (s0 : σ) (f : σ → ι → σ) (V : σ → ℕ → K) (hV : ∀ x < n, V s0 x = 0)
    (ops : List ι) (cs : ι → List (Call K)) (hcs : ∀ o ∈ ops, ∀ c ∈ cs o, CallOK c)
    (hin : ∀ o ∈ ops, ∀ q ∈ (cs o).flatMap (predSpikes enc), q.1 < n) {P : (ℕ → Option (List K)) → Prop} (LS : σ → ι → ℕ → List K)
    (hLS : ∀ s o x, n ≤ x → LS s o x = []) (lo hi : ι → K) (hsep : ops.Pairwise (fun o o' => hi o < lo o'))
    (huse : ∀ o ∈ ops, ∀ E : PEnv K, E.exp = exp → E.dt = dt → E.net.syns = w.syns.reverse → (∀ x < n, E.net.par x = stdPar) →
      ∀ s, ∀ x < n, Goes E (V s x) (V (f s o) x) 0 ((cs o).flatMap (predSpikes enc)) (LS s o) x ∧ Within E.net ((cs o).flatMap (predSpikes enc)) (LS s o) (lo o) (hi o) x)
    (hP : ∀ log : ℕ → Option (List K), (∀ x < n, log x = some (machine f LS s0 ops x)) → P log) :
    PredEnds H exp enc dt w 0 (ops.flatMap cs) P := by
  have einj : (ops.flatMap cs).flatMap (predSpikes enc) = ops.flatMap (fun o => (cs o).flatMap (predSpikes enc)) := List.flatMap_assoc
  refine h.pred H enc hdt hdel ?_ ?_ (machine f LS s0 ops) ?_ ?_ hP
  · intro c hc
    obtain ⟨o, ho, hc⟩ := List.mem_flatMap.mp hc
    exact hcs o ho c hc
  · rw [einj]
    intro q hq
    obtain ⟨o, ho, hq⟩ := List.mem_flatMap.mp hq
    exact hin o ho q hq
  · intro x hx
    clear hP huse hin hcs hsep einj hV
    generalize s0 = s
    induction ops generalizing s with
    | nil => rfl
    | cons o os ih => rw [machine, hLS s o x hx, ih, List.nil_append]
  · intro E e1 e2 e3 e4 x hx
    rw [einj]
    obtain ⟨⟨V', hg⟩, -⟩ := machine_goes (E := E) (x := x) f LS (fun o => (cs o).flatMap (predSpikes enc)) lo hi (fun s => V s x) ops s0
      (fun o ho s => huse o ho E e1 e2 e3 e4 s x hx) hsep
    rw [hV x hx] at hg
    exact hg.fits

end Axon
