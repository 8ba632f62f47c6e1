import Verif.Spec.Excitation
import Verif.Proofs.Consistent

/-! # Termination of the predictive simulator when excitation does not go round in circles -/
set_option linter.unusedSectionVars false
namespace Axon
open Spec
variable {K : Type*} [Field K] [LinearOrder K] [FloorRing K]

/-- What a spike of `n` costs: one for the spike, one for each hit, and what the excited neurons may spend. -/
def PaysE (net : Net K) (W : ℕ → ℕ) : Prop :=
  ∀ n, W n = 1 + ((net.out n).map (fun s => 1 + open Classical in if Inhibits s then 0 else W s.post)).sum

open Classical in
theorem excites_wf {net : Net K} (h : ExcitesAcyclic net) :
    WellFounded (fun b a : ℕ => ∃ s ∈ net.syns, s.pre = a ∧ s.post = b ∧ ¬ Inhibits s) := by
  have := acyclic_wf (net := { net with syns := net.syns.filter fun s => ¬ Inhibits s }) (by
    intro n hn
    refine h n (Relation.TransGen.mono (p := fun a b => ∃ s ∈ net.syns, s.pre = a ∧ s.post = b ∧ ¬ Inhibits s) (fun a b hab => ?_) n n hn)
    obtain ⟨s, hs, h1, h2⟩ := hab
    obtain ⟨h3, h4⟩ := List.mem_filter.mp hs
    exact ⟨s, h3, h1, h2, by simpa using h4⟩)
  refine Subrelation.wf ?_ this
  rintro b a ⟨s, hs, h1, h2, h3⟩
  exact ⟨s, List.mem_filter.mpr ⟨hs, by simpa using h3⟩, h1, h2⟩

open Classical in
theorem excites_pays {net : Net K} (h : ExcitesAcyclic net) : ∃ W, PaysE net W := by
  have hwf := excites_wf h
  refine ⟨hwf.fix (fun n rec => 1 + ((net.out n).attach.map (fun s => 1 + if hs : Inhibits s.1 then 0 else rec s.1.post
    ⟨s.1, (List.mem_filter.mp s.2).1, by simpa using (List.mem_filter.mp s.2).2, rfl, hs⟩)).sum), ?_⟩
  intro n
  rw [hwf.fix_eq]
  congr 2
  apply List.ext_getElem
  · simp
  · intro i h1 h2
    simp

open Classical in
/-- The weight of an unprocessed hit. -/
noncomputable def hitWeight (W : ℕ → ℕ) (e : UEvent K) : ℕ :=
  match e.payload with
  | .predicted _ => 0
  | .hit n k w => 1 + if (k = .V ∨ k = .ge) ∧ w ≤ 0 then 0 else W n

noncomputable def hitsWeight (W : ℕ → ℕ) (U : List (UEvent K)) : ℕ := (U.map (hitWeight W)).sum

open Classical in
theorem hitsWeight_out (W : ℕ → ℕ) (t : K) (ss : List (Synapse K)) : ∀ i,
    hitsWeight W (hitsOf t i ss) = (ss.map (fun s => 1 + if Inhibits s then 0 else W s.post)).sum := by
  induction ss with
  | nil => intro i; rfl
  | cons s ss ih => intro i; simp only [hitsWeight, hitsOf, List.map_cons, List.sum_cons] at ih ⊢
                    rw [ih]; simp only [hitWeight, Inhibits]; congr

/-- A neuron that will not spike unless something excites it. -/
def Calm (p : Params K) (s : NState K) (l T : K) : Prop := s.V < p.Vt ∧ s.ge ≤ 0 ∧ s.gf = 0 ∧ s.gate = 0 ∧ (s.ge = 0 ∨ l ≤ T)

theorem calm_predict [IsStrictOrderedRing K] {exp : K → K} {p : Params K} {s : NState K} {l T dt : K} (hdt : 0 < dt) (hM : maxSteps dt < 2 ^ 64) (hp : 0 < p.tm) (h : Calm p s l T)
    {r : Option ℤ} (hr : predictSteps exp p s dt = .ok r) : r = none := by
  cases r with
  | none => rfl
  | some k =>
    exfalso
    obtain ⟨h1, -, h2, -⟩ := predictSteps_some hdt hM hr
    obtain ⟨c1, c2, c3, c4, -⟩ := h
    have hk : (0 : K) ≤ (k : K) * dt := mul_nonneg (by exact_mod_cast h1) hdt.le
    have hg : s.ge / p.tm ≤ 0 := div_nonpos_of_nonpos_of_nonneg c2 hp.le
    have : s.ge / p.tm * ((k : K) * dt) ≤ 0 := mul_nonpos_of_nonpos_of_nonneg hg hk
    simp only [predVoltage, c4] at h2
    simp at h2
    linarith

theorem calm_hit [IsStrictOrderedRing K] {exp : K → K} {p : Params K} {s s' : NState K} {l l' T w : K} {k : SynKind} (hp : 0 < p.tm) (h : Calm p s l T) (hk : (k = .V ∨ k = .ge) ∧ w ≤ 0)
    (hr : receivePred exp p s l k w T = .ok (s', l')) : Calm p s' l' T := by
  obtain ⟨h1, rfl⟩ := receivePred_bump hr
  obtain ⟨c1, c2, c3, c4, c5⟩ := h
  have c : Calm p (if l' = l then s else pass exp p s (l' - l)) l' l' := by
    by_cases e : l' = l
    · rw [if_pos e]; exact ⟨c1, c2, c3, c4, Or.inr le_rfl⟩
    · rw [if_neg e]
      have : s.ge / p.tm * (l' - l) ≤ 0 := by
        rcases c5 with c5 | c5
        · rw [c5]; simp
        · exact mul_nonpos_of_nonpos_of_nonneg (div_nonpos_of_nonpos_of_nonneg c2 hp.le) (by linarith)
      refine ⟨?_, c2, ?_, c4, Or.inr le_rfl⟩
      · simp only [pass, c4, if_true]; linarith
      · simp [pass, c3]
  generalize (if l' = l then s else pass exp p s (l' - l)) = x at h1 c
  obtain ⟨d1, d2, d3, d4, -⟩ := c
  rcases hk.1 with rfl | rfl
  · simp only [bump, Option.some.injEq] at h1
    subst h1
    exact ⟨by simp only; linarith [hk.2], d2, d3, d4, Or.inr le_rfl⟩
  · simp only [bump, Option.some.injEq] at h1
    subst h1
    exact ⟨d1, by simp only; linarith [hk.2], d3, d4, Or.inr le_rfl⟩

theorem Calm.later {p : Params K} {s : NState K} {l T T' : K} (h : Calm p s l T) (hT : T ≤ T') : Calm p s l T' :=
  ⟨h.1, h.2.1, h.2.2.1, h.2.2.2.1, h.2.2.2.2.imp_right (fun x => x.trans hT)⟩

/-- The invariant: all neurons outside the finite set `A` are calm, and what is pending, together with what the neurons of `A` may still spend, is
bounded. -/
def Paying (E : PEnv K) (W : ℕ → ℕ) (C : ℕ) (st : PSim K) (D U : List (UEvent K)) : Prop :=
  PInv st U ∧ (∀ e ∈ U, GoodEv E.net e) ∧ ∃ A : Finset ℕ,
    (∀ n ∈ E.net.neurons, n ∉ A → ∀ x ∈ U, Calm (E.net.par n) (st.nst n) (st.last n) x.time) ∧
    (∀ e ∈ U, ∀ n, e.payload = .predicted n → n ∈ A) ∧ (∑ n ∈ A, W n) + hitsWeight W U + D.length ≤ C

theorem paying_induct [IsStrictOrderedRing K] (E : PEnv K) (hE : Runnable E.net) (hdt : 0 < E.dt) (hM : maxSteps E.dt < 2 ^ 64)
    (hdel : ∀ s ∈ E.net.syns, 0 ≤ s.delay)
    (hpar : ∀ n ∈ E.net.neurons, 0 < (E.net.par n).tm ∧ (E.net.par n).Vreset < (E.net.par n).Vt)
    (W : ℕ → ℕ) (hW : PaysE E.net W) (C : ℕ) (T : K) :
    PInduct E T (fun st D U => (∀ x ∈ U, T ≤ x.time) ∧ Paying E W C st D U) where
  perm := by
    rintro st D D' U U' hD hU ⟨h2, h1, hg, A, h3, h4, h5⟩
    refine ⟨fun x hx => h2 x (hU.mem_iff.mpr hx), (pinv_induct E T).perm st D D' U U' hD hU h1, fun e he => hg e (hU.mem_iff.mpr he), A,
      fun n hn hA x hx => h3 n hn hA x (hU.mem_iff.mpr hx), fun e he => h4 e (hU.mem_iff.mpr he), ?_⟩
    unfold hitsWeight at *
    rw [← (hU.map _).sum_eq, ← hD.length_eq]; exact h5
  queue := fun st q D U ⟨h2, h1, hg, A, h3, h4, h5⟩ => ⟨h2, (pinv_induct E T).queue st q D U h1, hg, A, h3, h4, h5⟩
  spike := by
    rintro st st' i n p D R l hp ⟨h2, h1, hg, A, h3, h4, h5⟩ hl hst
    have g1 := (pinv_induct E T).spike st st' i n p D R l hp h1 hl hst
    have g2 := (good_induct E hE T).spike st st' i n p D R l hp hg hl hst
    generalize hq : st'.queue = q at hst
    subst hst
    have hnA : n ∈ A := h4 _ List.mem_cons_self n rfl
    have htime : ∀ x ∈ ((p ++ hitsOf T st.nextId (E.net.out n)) ++ R), T ≤ x.time := by
      intro x hx
      simp only [List.mem_append] at hx
      rcases hx with (hx | hx) | hx
      · exact h2 x (by simp [hx])
      · obtain ⟨s, hs, ht, -⟩ := hitsOf_mem hx
        have := hdel s (List.mem_of_mem_filter hs)
        rw [ht]; linarith
      · exact h2 x (by simp [hx])
    refine ⟨htime, g1, g2, A.erase n, ?_, ?_, ?_⟩
    · intro m hmn hm x hx
      by_cases e : m = n
      · subst e
        simp only [Function.update_self]
        exact ⟨(hpar m hmn).2, le_rfl, rfl, rfl, Or.inl rfl⟩
      · simp only [ne_eq, e, not_false_eq_true, Function.update_of_ne]
        exact (h3 m hmn (fun hA => hm (Finset.mem_erase.mpr ⟨e, hA⟩)) _ List.mem_cons_self).later (htime x hx)
    · intro e he m hm
      have hU : e ∈ p ++ R := by
        simp only [List.mem_append] at he ⊢
        rcases he with (he | he) | he
        · exact Or.inl he
        · obtain ⟨s, -, -, hh, -⟩ := hitsOf_mem he
          rw [hm] at hh; simp at hh
        · exact Or.inr he
      refine Finset.mem_erase.mpr ⟨?_, h4 e (List.mem_cons_of_mem _ hU) m hm⟩
      rintro rfl
      have e1 := h1.pred e (List.mem_cons_of_mem _ hU) m hm
      have e2 := h1.pred _ List.mem_cons_self m rfl
      rw [e1] at e2
      simp only [Option.some.injEq] at e2
      subst e2
      exact (List.nodup_cons.mp h1.nodup).1 hU
    · have hz := hitsWeight_out W T (E.net.out n) st.nextId
      have hn := hW n
      have hA := Finset.add_sum_erase A W hnA
      unfold hitsWeight at *
      simp only [List.map_cons, List.map_append, List.sum_cons, List.sum_append, hz, List.length_cons] at h5 ⊢
      have h0 : hitWeight W (⟨i, T, .predicted n⟩ : UEvent K) = 0 := rfl
      rw [h0] at h5
      omega
  hit := by
    rintro st st' i n k w p D R o s l r c hp hR ⟨h2, h1, hg, A, h3, h4, h5⟩ ho hr hpr hc hst
    have g1 := (pinv_induct E T).hit st st' i n k w p D R o s l r c hp hR h1 ho hr hpr hc hst
    have g2 := (good_induct E hE T).hit st st' i n k w p D R o s l r c hp hR hg ho hr hpr hc hst
    have hnn : n ∈ E.net.neurons := (hg ⟨i, T, .hit n k w⟩ List.mem_cons_self).1
    generalize hq : st'.queue = q at hst
    subst hst
    have hsub : ∀ x ∈ (o.elim p p.erase), x ∈ p := by
      intro x hx
      cases o with
      | none => exact hx
      | some e => exact List.mem_of_mem_erase hx
    have hle : hitsWeight W (o.elim p p.erase) ≤ hitsWeight W p := by
      cases o with
      | none => exact le_rfl
      | some x => exact (List.erase_sublist.map _).sum_le_sum (by simp)
    have hpe : hitsWeight W (predEv E st.nextId T n r).toList = 0 := by
      cases r with
      | none => simp [predEv, hitsWeight]
      | some m => simp [predEv, hitsWeight, hitWeight]
    have htime : ∀ x ∈ (((o.elim p p.erase) ++ (predEv E st.nextId T n r).toList) ++ R), T ≤ x.time := by
      intro x hx
      simp only [List.mem_append] at hx
      rcases hx with (hx | hx) | hx
      · exact h2 x (by simp [hsub x hx])
      · obtain ⟨m, rfl, rfl⟩ := predEv_mem hx
        have h0 := predictSteps_nonneg hdt hpr
        have : (0 : K) ≤ (m : K) * E.dt := mul_nonneg (by exact_mod_cast h0) hdt.le
        simp only; linarith
      · exact h2 x (by simp [hx])
    have h3' : ∀ m ∈ E.net.neurons, m ∉ A → Calm (E.net.par m) (st.nst m) (st.last m) T := fun m hm hA => h3 m hm hA _ List.mem_cons_self
    have fin : ∀ B : Finset ℕ, A ⊆ B →
        (∀ m ∈ E.net.neurons, m ∉ B → Calm (E.net.par m) (Function.update st.nst n s m) (Function.update st.last n l m) T) →
        (∀ x ∈ (predEv E st.nextId T n r).toList, ∀ m, x.payload = .predicted m → m ∈ B) →
        ((∑ m ∈ B, W m) ≤ (∑ m ∈ A, W m) + (hitWeight W ⟨i, T, .hit n k w⟩ - 1)) →
        ∃ B : Finset ℕ, (∀ m ∈ E.net.neurons, m ∉ B → ∀ x ∈ (((o.elim p p.erase) ++ (predEv E st.nextId T n r).toList) ++ R),
            Calm (E.net.par m) (Function.update st.nst n s m) (Function.update st.last n l m) x.time) ∧
          (∀ e ∈ (((o.elim p p.erase) ++ (predEv E st.nextId T n r).toList) ++ R), ∀ m, e.payload = .predicted m → m ∈ B) ∧
          (∑ m ∈ B, W m) + hitsWeight W (((o.elim p p.erase) ++ (predEv E st.nextId T n r).toList) ++ R) +
            (⟨i, T, .hit n k w⟩ :: D).length ≤ C := by
      intro B hAB hB1 hB2 hB3
      refine ⟨B, fun m hm hmB x hx => (hB1 m hm hmB).later (htime x hx), ?_, ?_⟩
      · intro e he m hm
        simp only [List.mem_append] at he
        rcases he with (he | he) | he
        · exact hAB (h4 e (by simp [hsub e he]) m hm)
        · exact hB2 e he m hm
        · exact hAB (h4 e (by simp [he]) m hm)
      · have hpos : 1 ≤ hitWeight W (⟨i, T, .hit n k w⟩ : UEvent K) := by simp only [hitWeight]; omega
        unfold hitsWeight at *
        simp only [List.map_cons, List.map_append, List.sum_cons, List.sum_append, List.length_cons] at h5 ⊢
        omega
    refine ⟨htime, g1, g2, ?_⟩
    by_cases hk : (k = .V ∨ k = .ge) ∧ w ≤ 0
    · refine fin A subset_rfl ?_ ?_ (by omega)
      · intro m hmn hm
        by_cases e : m = n
        · subst e
          simp only [Function.update_self]
          exact calm_hit (hpar m hmn).1 (h3' m hmn hm) hk hr
        · simp only [ne_eq, e, not_false_eq_true, Function.update_of_ne]; exact h3' m hmn hm
      · intro x hx m hm
        by_contra hA
        obtain ⟨j, hj, rfl⟩ := predEv_mem hx
        simp only [UPayload.predicted.injEq] at hm
        subst hm
        have := calm_predict hdt hM (hpar n hnn).1 (calm_hit (hpar n hnn).1 (h3' n hnn hA) hk hr) hpr
        rw [this] at hj; cases hj
    · refine fin (insert n A) (Finset.subset_insert _ _) ?_ ?_ ?_
      · intro m hmn hm
        have e : m ≠ n := fun e => hm (e ▸ Finset.mem_insert_self _ _)
        simp only [ne_eq, e, not_false_eq_true, Function.update_of_ne]
        exact h3' m hmn (fun hA => hm (Finset.mem_insert_of_mem hA))
      · intro x hx m hm
        obtain ⟨j, hj, rfl⟩ := predEv_mem hx
        simp only [UPayload.predicted.injEq] at hm
        subst hm
        exact Finset.mem_insert_self _ _
      · have : hitWeight W (⟨i, T, .hit n k w⟩ : UEvent K) = 1 + W n := by simp only [hitWeight, if_neg hk]
        rw [this]
        by_cases hA : n ∈ A
        · rw [Finset.insert_eq_of_mem hA]; omega
        · rw [Finset.sum_insert hA]; omega

end Axon
