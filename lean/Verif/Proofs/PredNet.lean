import Verif.Props.PredReplay
import Verif.Proofs.Session
import Verif.Spec.PredSession
import Mathlib.Data.Multiset.AddSub
import Mathlib.Tactic.Abel

/-! # Library networks in the predictive simulator: tools -/
set_option linter.unusedSectionVars false
namespace Axon
open Spec
variable {K : Type*} [Field K] [LinearOrder K] [IsStrictOrderedRing K] [FloorRing K]

/-- Proves that two explicit lists are permutations of each other. -/
macro "perm_tac" : tactic => `(tactic| (rw [← Multiset.coe_eq_coe]; simp only [← Multiset.cons_coe, Multiset.coe_nil, ← Multiset.singleton_add]; abel))

/-- Finishes the comparison of two explicit lists of hits. -/
macro "arr_finish" : tactic => `(tactic| first | done | ring1 | (perm_tac; done) | (ring_nf; done) | (ring_nf; exact List.Perm.refl _) | (ring_nf; perm_tac; done) | (norm_num; done) | (norm_num; exact List.Perm.refl _) | (norm_num; ring_nf; exact List.Perm.refl _) | (norm_num; perm_tac; done) | (norm_num; ring_nf; done) | (norm_num; ring_nf; perm_tac; done))

/-- Computes the hits a neuron receives (given the list of synapses `h`) and compares them with an explicit list. -/
macro "arr_tac" h:term : tactic => `(tactic| (simp [arriving, $h:term, predSpikes, Volley.items] <;> try arr_finish))

example (a b c : ℕ × K) : [a, b, c, a].Perm [c, a, a, b] := by perm_tac

/-- `x` rounded up to a multiple of `dt`. -/
def up (dt x : K) : K := (⌈x / dt⌉ : K) * dt

theorem le_up {dt : K} (hdt : 0 < dt) (x : K) : x ≤ up dt x := by
  have := Int.le_ceil (x / dt)
  unfold up
  rwa [div_le_iff₀ hdt] at this

theorem up_lt {dt : K} (hdt : 0 < dt) (x : K) : up dt x < x + dt := by
  have := Int.ceil_lt_add_one (x / dt)
  unfold up
  calc (⌈x / dt⌉ : K) * dt < (x / dt + 1) * dt := mul_lt_mul_of_pos_right this hdt
    _ = x + dt := by rw [add_mul, div_mul_cancel₀ _ hdt.ne', one_mul]

theorem up_mul {dt : K} (hdt : 0 < dt) (k : ℤ) : up dt (k * dt) = k * dt := by
  unfold up; rw [mul_div_cancel_right₀ _ hdt.ne', Int.ceil_intCast]

/-- The state of a neuron with no exponential current. -/
abbrev lin (V ge : K) : NState K := ⟨V, ge, 0, 0⟩

section
variable {E : PEnv K} {n : ℕ}

theorem pass_lin (hpar : E.net.par n = stdPar) (V ge t l : K) :
    (if t = l then lin V ge else pass E.exp (E.net.par n) (lin V ge) (t - l)) = lin (V + ge / 100 * (t - l)) ge := by
  by_cases h : t = l
  · simp [h]
  · simp [h, pass, hpar, stdPar]

theorem expected_lin (V ge d : K) : expectedV E.exp stdPar (lin V ge) d = V + ge / 100 * d := by
  simp [expectedV, stdPar]

theorem predict_ok (hpar : E.net.par n = stdPar) (s : NState K) : ∃ r, predictSteps E.exp (E.net.par n) s E.dt = .ok r := by
  rw [hpar]
  unfold predictSteps
  rw [if_neg (by simp [stdPar])]
  exact ⟨_, rfl⟩

/-- Nothing is predicted if the threshold is never reached. -/
theorem predict_never (hpar : E.net.par n = stdPar) (hdt : 0 < E.dt) (hM : maxSteps E.dt < 2 ^ 64) {s : NState K}
    (h : ∀ d, 0 ≤ d → expectedV E.exp stdPar s d < 10) : predictSteps E.exp (E.net.par n) s E.dt = .ok none := by
  obtain ⟨r, hr⟩ := predict_ok hpar s
  rw [hr]
  cases r with
  | none => rfl
  | some m =>
    rw [hpar] at hr
    obtain ⟨h0, -, h1, -⟩ := C30_prediction_is_crossing E.exp stdPar s E.dt hdt hM m hr
    have := h (m * E.dt) (mul_nonneg (by exact_mod_cast h0) hdt.le)
    exact absurd h1 (not_le.mpr this)

theorem quiet_never (hpar : E.net.par n = stdPar) (hdt : 0 < E.dt) (hM : maxSteps E.dt < 2 ^ 64)
    {V ge l t : K} {hits vs L} {V' ge' : K}
    (hb : bumps (lin (V + ge / 100 * (t - l)) ge) hits = some (lin V' ge')) (hV : V' < 10) (hg : ge' ≤ 0)
    (h : Reacts E n (lin V' ge') t vs L) : Reacts E n (lin V ge) l (⟨t, hits⟩ :: vs) L := by
  refine Reacts.quiet (r := none) (by rw [pass_lin hpar]; exact hb) (predict_never hpar hdt hM ?_) (by simp) h
  intro d hd
  rw [expected_lin]
  have : ge' / 100 * d ≤ 0 := mul_nonpos_of_nonpos_of_nonneg (div_nonpos_of_nonpos_of_nonneg hg (by norm_num)) hd
  linarith

theorem quiet_next (hpar : E.net.par n = stdPar) (hdt : 0 < E.dt) (hM : maxSteps E.dt < 2 ^ 64)
    {V ge l t : K} {hits v vs L} {V' ge' : K}
    (hb : bumps (lin (V + ge / 100 * (t - l)) ge) hits = some (lin V' ge')) (hg : 0 ≤ ge') (hV : V' + ge' / 100 * (v.time - t) < 10)
    (h : Reacts E n (lin V' ge') t (v :: vs) L) : Reacts E n (lin V ge) l (⟨t, hits⟩ :: v :: vs) L := by
  obtain ⟨r, hr⟩ := predict_ok hpar (lin V' ge')
  refine Reacts.quiet (r := r) (by rw [pass_lin hpar]; exact hb) hr ?_ h
  rintro m rfl
  refine ⟨v, rfl, ?_⟩
  rw [hpar] at hr
  obtain ⟨h0, -, h1, -⟩ := C30_prediction_is_crossing E.exp stdPar _ E.dt hdt hM m hr
  rw [expected_lin] at h1
  change (10 : K) ≤ _ at h1
  by_contra hlt
  push Not at hlt
  simp only at hlt
  have : ge' / 100 * (m * E.dt) ≤ ge' / 100 * (v.time - t) :=
    mul_le_mul_of_nonneg_left (by linarith) (by positivity)
  linarith

theorem maxSteps_gt {dt x : K} (hdt : 0 < dt) (hx0 : 0 ≤ x) (hx : x + 2 * dt ≤ 500) : ⌈x / dt⌉ < maxSteps dt := by
  unfold maxSteps
  rw [if_pos (by positivity)]
  have h1 := Int.ceil_lt_add_one (x / dt)
  have h2 := Int.lt_floor_add_one ((500 : K) / dt)
  have h3 : x / dt + 2 ≤ 500 / dt := by
    rw [le_div_iff₀ hdt, add_mul, div_mul_cancel₀ _ hdt.ne']; linarith
  have : ((⌈x / dt⌉ : ℤ) : K) < ((⌊(500 : K) / dt⌋ : ℤ) : K) := by linarith
  exact_mod_cast this

/-- The first crossing, for a neuron with non-decreasing drive. -/
theorem predict_first (hpar : E.net.par n = stdPar) (hexp : Monotone E.exp) (hdt : 0 < E.dt) (hM : maxSteps E.dt < 2 ^ 64) {s : NState K} {m : ℤ}
    (hge : 0 ≤ s.ge) (hgf : 0 ≤ s.gate * s.gf) (hm : m < maxSteps E.dt) (h0 : 0 ≤ m) (h1 : 10 ≤ expectedV E.exp stdPar s (m * E.dt))
    (h2 : ∀ k : ℤ, 0 ≤ k → k < m → expectedV E.exp stdPar s (k * E.dt) < 10) : predictSteps E.exp (E.net.par n) s E.dt = .ok (some m) := by
  rw [hpar]
  refine ((C31_prediction_is_first_crossing E.exp hexp stdPar s E.dt hdt hM (by norm_num [stdPar]) (by norm_num [stdPar]) hge hgf).1 m).mpr
    ⟨hm, ⟨h0, h1⟩, ?_⟩
  rintro k ⟨k0, k1⟩
  by_contra hk
  exact absurd k1 (not_le.mpr (h2 k k0 (not_le.mp hk)))

theorem fire_now (hpar : E.net.par n = stdPar) (hexp : Monotone E.exp) (hdt : 0 < E.dt) (hM : maxSteps E.dt < 2 ^ 64) (h2 : 2 * E.dt ≤ 500)
    {V ge l t : K} {hits vs L} {V' ge' : K}
    (hb : bumps (lin (V + ge / 100 * (t - l)) ge) hits = some (lin V' ge')) (hV : 10 ≤ V') (hg : 0 ≤ ge')
    (hn : ∀ v ∈ vs.head?, t ≤ v.time) (h : Reacts E n (lin 0 0) t vs L) : Reacts E n (lin V ge) l (⟨t, hits⟩ :: vs) (t :: L) := by
  have hp : predictSteps E.exp (E.net.par n) (lin V' ge') E.dt = .ok (some 0) := by
    refine predict_first hpar hexp hdt hM hg (by simp) ?_ le_rfl ?_ (fun k a b => absurd a (not_le.mpr b))
    · have := maxSteps_gt (x := 0) hdt le_rfl (by linarith)
      simpa using this
    · rw [expected_lin]; simpa using hV
  have := Reacts.fires (E := E) (n := n) (v := ⟨t, hits⟩) (vs := vs) (L := L) (s := lin V ge) (l := l) (by rw [pass_lin hpar]; exact hb) hp
    (by simpa using hn) (by rw [hpar]; exact h)
  simpa using this

theorem fire_later (hpar : E.net.par n = stdPar) (hexp : Monotone E.exp) (hdt : 0 < E.dt) (hM : maxSteps E.dt < 2 ^ 64) {V ge l t : K} {hits vs L}
    {V' ge' x : K}
    (hb : bumps (lin (V + ge / 100 * (t - l)) ge) hits = some (lin V' ge')) (hg : 0 < ge')
    (hx : V' + ge' / 100 * x = 10) (hx0 : 0 ≤ x) (hx5 : x + 2 * E.dt ≤ 500)
    (hn : ∀ v ∈ vs.head?, t + up E.dt x ≤ v.time) (h : Reacts E n (lin 0 0) t vs L) :
    Reacts E n (lin V ge) l (⟨t, hits⟩ :: vs) ((t + up E.dt x) :: L) := by
  have hp : predictSteps E.exp (E.net.par n) (lin V' ge') E.dt = .ok (some ⌈x / E.dt⌉) := by
    refine predict_first hpar hexp hdt hM hg.le (by simp) (maxSteps_gt hdt hx0 hx5) (Int.ceil_nonneg (by positivity)) ?_ ?_
    · rw [expected_lin]
      have h1 : x ≤ ⌈x / E.dt⌉ * E.dt := le_up hdt x
      have : ge' / 100 * x ≤ ge' / 100 * (⌈x / E.dt⌉ * E.dt) := mul_le_mul_of_nonneg_left h1 (by positivity)
      linarith
    · intro k k0 k1
      rw [expected_lin]
      have h1 : (k : K) * E.dt < x := by
        rw [← lt_div_iff₀ hdt]; exact Int.lt_ceil.mp k1
      have : ge' / 100 * (k * E.dt) < ge' / 100 * x := mul_lt_mul_of_pos_left h1 (by positivity)
      linarith
  exact Reacts.fires (E := E) (n := n) (v := ⟨t, hits⟩) (vs := vs) (L := L) (s := lin V ge) (l := l) (by rw [pass_lin hpar]; exact hb) hp
    hn (by rw [hpar]; exact h)

end

end Axon

namespace Axon
open Spec
variable {K : Type*} [Field K] [LinearOrder K] [IsStrictOrderedRing K] [FloorRing K]

/-- Neuron `x` of the network, hit by the injected spikes and the spikes `LS` of the others, spikes as `LS` says. -/
def Fits (E : PEnv K) (inj : List (ℕ × K)) (LS : ℕ → List K) (x : ℕ) : Prop :=
  ∃ vs : List (Volley K), (vs.map Volley.time).Pairwise (· < ·) ∧ (∀ v ∈ vs, v.hits ≠ []) ∧
    (vs.flatMap Volley.items).Perm (arriving E.net inj LS x) ∧ Reacts E x (lin 0 0) 0 vs (LS x)

theorem pred_calls_ok (E : PEnv K) {cs : List (Call K)} (hcs : ∀ c ∈ cs, CallOK c) : ∀ st : PSim K, ∃ st', st.calls E cs = .ok st' := by
  induction cs with
  | nil => intro st; exact ⟨st, rfl⟩
  | cons c cs ih =>
    intro st
    have hc := hcs c (by simp)
    have : ∃ st1, st.call E c = .ok st1 := by
      cases c with
      | spike n t => exact ⟨_, rfl⟩
      | value v n t =>
        simp only [CallOK] at hc
        simp only [PSim.call, PSim.applyInputValue, hc, and_self, not_true_eq_false, if_false, Encoder.encodeValue, if_true]
        exact ⟨_, rfl⟩
    obtain ⟨st1, h1⟩ := this
    obtain ⟨st', h2⟩ := ih (fun c hc => hcs c (by simp [hc])) st1
    refine ⟨st', ?_⟩
    simp only [PSim.calls, List.foldlM_cons, bind, Except.bind, h1] at h2 ⊢
    exact h2

/-- A library network in the predictive simulator: exhibit the spike trains. -/
theorem LibOK.pred {w : World K} {n : ℕ} (h : LibOK w n) (H : TimeHeap K) {exp : K → K} (enc : Encoder K) {dt : K} (hdt : 0 < dt)
    (hdel : ∀ s ∈ w.syns, 0 < s.delay) {cs : List (Call K)} (hcs : ∀ c ∈ cs, CallOK c)
    (hin : ∀ q ∈ cs.flatMap (predSpikes enc), q.1 < n) {P : (ℕ → Option (List K)) → Prop} (LS : ℕ → List K)
    (hLS : ∀ x, n ≤ x → LS x = [])
    (hfit : ∀ E : PEnv K, E.exp = exp → E.dt = dt → E.net.syns = w.syns.reverse → (∀ x < n, E.net.par x = stdPar) →
      ∀ x < n, Fits E (cs.flatMap (predSpikes enc)) LS x)
    (hP : ∀ log : ℕ → Option (List K), (∀ x < n, log x = some (LS x)) → P log) :
    PredEnds H exp enc dt w 0 cs P := by
  obtain ⟨ns, hns, hmem⟩ := h.block.neurons
  rw [h.len] at hmem
  have hpar : ∀ x < n, w.par x = stdPar := fun x hx => h.wpar (by rw [h.len]; exact hx)
  have hbd : ∀ s ∈ w.syns, s.pre < n ∧ s.post < n := by
    intro s hs; have := h.block.syn_bd s hs; rwa [h.len] at this
  set E : PEnv K := ⟨H, exp, w.net ns, enc, dt⟩ with hEdef
  have hrun : Runnable E.net := by
    refine ⟨?_, ?_, ?_⟩
    · intro s hs
      have := h.block.kinds s (by simpa [hEdef, World.net] using hs)
      exact this
    · intro s hs
      exact (hmem _).mpr (hbd s (by simpa [hEdef, World.net] using hs)).2
    · intro x hx
      have : E.net.par x = stdPar := hpar x ((hmem x).mp hx)
      rw [this]; norm_num [stdPar]
  obtain ⟨st0, hi⟩ : ∃ st0, PSim.init E fresh (fun _ => (0 : K)) 0 = .ok st0 := by
    unfold PSim.init; rw [if_neg hdt.ne']; exact ⟨_, rfl⟩
  obtain ⟨st1, hc⟩ := pred_calls_ok E hcs st0
  have hcon : Consistent E fresh (fun _ => 0) (cs.flatMap (predSpikes E.enc)) LS := by
    intro x
    by_cases hx : x < n
    · exact hfit E rfl rfl rfl hpar x hx
    · refine ⟨[], by simp, by simp, ?_, ?_⟩
      · have : arriving E.net (cs.flatMap (predSpikes E.enc)) LS x = [] := by
          unfold arriving
          rw [List.filter_eq_nil_iff.mpr, List.filter_eq_nil_iff.mpr]
          · rfl
          · intro s hs hh
            have := (hbd s (by simpa [hEdef, World.net] using hs)).2
            simp at hh; omega
          · intro q hq hh
            have := hin q hq
            simp at hh; omega
        rw [this]; simp
      · rw [hLS x (by omega)]; exact Reacts.done
  obtain ⟨N, st, h1, h2⟩ := C78_computes_the_behaviour E hdt (by intro s hs; exact hdel s (by simpa [hEdef, World.net] using hs)) hrun hi hc
    (fun q hq => (hmem _).mpr (hin q hq)) hcon
  refine ⟨N, st, fun fuel hf => ?_, hP _ fun x hx => h2 x ((hmem x).mpr hx)⟩
  unfold predSession
  rw [hns]
  simp only
  rw [hi]
  simp only
  rw [hc]
  exact h1 fuel hf

/-- A neuron that is hit through `V` synapses only: the spikes it emits, from the total weight arriving at each time. -/
def vrun (V : K) : List (K × K) → List K
  | [] => []
  | (t, w) :: r => if 10 ≤ V + w then t :: vrun 0 r else vrun (V + w) r

theorem bumps_V (ws : List K) : ∀ V ge : K, bumps (lin V ge) (ws.map (fun w => (SynKind.V, w))) = some (lin (V + ws.sum) ge) := by
  induction ws with
  | nil => intro V ge; simp [bumps]
  | cons w ws ih => intro V ge; simp [bumps, bump, ih, add_assoc]

theorem reacts_V {E : PEnv K} {n : ℕ} (hpar : E.net.par n = stdPar) (hs : Sane E.exp E.dt) : ∀ (vs : List (K × List K)) (V l : K),
    (vs.map Prod.fst).Pairwise (· < ·) →
    Reacts E n (lin V 0) l (vs.map (fun v => ⟨v.1, v.2.map (fun w => (.V, w))⟩)) (vrun V (vs.map (fun v => (v.1, v.2.sum)))) := by
  intro vs
  induction vs with
  | nil => intro V l _; exact Reacts.done
  | cons v vs ih =>
    intro V l h
    rw [List.map_cons, List.pairwise_cons] at h
    simp only [List.map_cons, vrun]
    split
    next hV =>
      refine fire_now hpar hs.exp hs.pos hs.steps (by linarith [hs.small]) (V' := V + v.2.sum) (ge' := 0) (by rw [bumps_V]; simp) hV le_rfl ?_ (ih 0 _ h.2)
      intro u hu
      cases vs with
      | nil => simp at hu
      | cons a b => simp at hu; subst hu; exact (h.1 a.1 (by simp)).le
    next hV =>
      exact quiet_never hpar hs.pos hs.steps (V' := V + v.2.sum) (ge' := 0) (by rw [bumps_V]; simp) (not_le.mp hV) le_rfl (ih _ _ h.2)

/-- A neuron that is hit through `V` synapses only. -/
theorem Fits.ofV {E : PEnv K} {n : ℕ} (hpar : E.net.par n = stdPar) (hs : Sane E.exp E.dt) {inj : List (ℕ × K)} {LS : ℕ → List K}
    (vs : List (K × List K)) (h1 : (vs.map Prod.fst).Pairwise (· < ·)) (h2 : ∀ v ∈ vs, v.2 ≠ [])
    (ha : (vs.flatMap (fun v => v.2.map (fun w => Item.hit v.1 .V w))).Perm (arriving E.net inj LS n))
    (hL : vrun 0 (vs.map (fun v => (v.1, v.2.sum))) = LS n) : Fits E inj LS n := by
  refine ⟨vs.map (fun v => ⟨v.1, v.2.map (fun w => (.V, w))⟩), ?_, ?_, ?_, hL ▸ reacts_V hpar hs vs 0 0 h1⟩
  · rw [List.map_map]; exact h1
  · intro v hv
    obtain ⟨u, hu, rfl⟩ := List.mem_map.mp hv
    simpa using h2 u hu
  · refine (List.Perm.of_eq ?_).trans ha
    rw [List.flatMap_map]
    refine List.flatMap_congr fun v _ => ?_
    simp [Volley.items, List.map_map, Function.comp_def]

/-- A neuron that is hit by the volleys `vs`. -/
theorem Fits.of {E : PEnv K} {n : ℕ} {inj : List (ℕ × K)} {LS : ℕ → List K}
    (vs : List (Volley K)) (h1 : (vs.map Volley.time).Pairwise (· < ·)) (h2 : ∀ v ∈ vs, v.hits ≠ [])
    (ha : (vs.flatMap Volley.items).Perm (arriving E.net inj LS n)) (hL : Reacts E n (lin 0 0) 0 vs (LS n)) : Fits E inj LS n :=
  ⟨vs, h1, h2, ha, hL⟩

/-- Relays a pair of spikes. -/
theorem Fits.pair {E : PEnv K} {n : ℕ} (hpar : E.net.par n = stdPar) (hs : Sane E.exp E.dt) {inj : List (ℕ × K)} {LS : ℕ → List K} {a b : K}
    (hab : a < b) (ha : [Item.hit a .V 10, Item.hit b .V 10].Perm (arriving E.net inj LS n)) (hL : LS n = [a, b]) : Fits E inj LS n :=
  Fits.ofV hpar hs [(a, [10]), (b, [10])] (by simpa using hab) (by simp) ha (by rw [hL]; norm_num [vrun])

/-- Relays a single spike. -/
theorem Fits.single {E : PEnv K} {n : ℕ} (hpar : E.net.par n = stdPar) (hs : Sane E.exp E.dt) {inj : List (ℕ × K)} {LS : ℕ → List K} {a : K}
    (ha : [Item.hit a .V 10].Perm (arriving E.net inj LS n)) (hL : LS n = [a]) : Fits E inj LS n :=
  Fits.ofV hpar hs [(a, [10])] (by simp) (by simp) ha (by rw [hL]; norm_num [vrun])

/-- Receives nothing. -/
theorem Fits.none {E : PEnv K} {n : ℕ} {inj : List (ℕ × K)} {LS : ℕ → List K}
    (ha : arriving E.net inj LS n = []) (hL : LS n = []) : Fits E inj LS n :=
  ⟨[], by simp, by simp, by rw [ha]; simp, hL ▸ Reacts.done⟩

/-- Picks the first spike of a pair. -/
theorem Fits.first {E : PEnv K} {n : ℕ} (hpar : E.net.par n = stdPar) (hs : Sane E.exp E.dt) {inj : List (ℕ × K)} {LS : ℕ → List K} {a b : K}
    (hab : a + 1 ≤ b) (ha : [Item.hit a .V 10, Item.hit (a + 1) .V (-10), Item.hit b .V 10].Perm (arriving E.net inj LS n))
    (hL : LS n = [a]) : Fits E inj LS n := by
  rcases hab.lt_or_eq with hab | rfl
  · exact Fits.ofV hpar hs [(a, [10]), (a + 1, [-10]), (b, [10])] (by simp; constructor <;> linarith) (by simp) ha (by rw [hL]; norm_num [vrun])
  · exact Fits.ofV hpar hs [(a, [10]), (a + 1, [-10, 10])] (by simp) (by simp) ha (by rw [hL]; norm_num [vrun])

/-- Picks the second spike of a pair. -/
theorem Fits.last {E : PEnv K} {n : ℕ} (hpar : E.net.par n = stdPar) (hs : Sane E.exp E.dt) {inj : List (ℕ × K)} {LS : ℕ → List K} {a b : K}
    (hab : a < b) (ha : [Item.hit a .V 5, Item.hit b .V 5].Perm (arriving E.net inj LS n))
    (hL : LS n = [b]) : Fits E inj LS n :=
  Fits.ofV hpar hs [(a, [5]), (b, [5])] (by simpa using hab) (by simp) ha (by rw [hL]; norm_num [vrun])

end Axon
