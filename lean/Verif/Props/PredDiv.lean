import Verif.Proofs.PredSubBlock

/-! # C90: the divider in the predictive simulator -/
set_option linter.unusedSectionVars false
namespace Axon
open Spec

/-- The synapses of the divider before its subtractor. -/
noncomputable def pdivFront (enc : Encoder ℝ) : List (Synapse ℝ) :=
  [⟨0, 1, 10, 1, .V⟩, ⟨1, 1, -10, 1, .V⟩, ⟨0, 2, 1 / 2 * 10, 1, .V⟩, ⟨1, 3, enc.waccBar, 1 + enc.Tmin, .ge⟩, ⟨2, 3, -enc.waccBar, 1, .ge⟩,
   ⟨5, 6, 10, 1, .V⟩, ⟨6, 6, -10, 1, .V⟩, ⟨5, 7, 1 / 2 * 10, 1, .V⟩, ⟨6, 8, enc.waccBar, 1 + enc.Tmin, .ge⟩, ⟨7, 8, -enc.waccBar, 1, .ge⟩,
   ⟨2, 10, 1 / 2 * 10, 1, .V⟩, ⟨7, 10, 1 / 2 * 10, 1, .V⟩, ⟨10, 4, 10, 2 * 1, .V⟩, ⟨10, 9, 10, 2 * 1, .V⟩,
   ⟨10, 3, 10 * 100 / 20, 1, .gf⟩, ⟨10, 3, 1, 1, .gate⟩, ⟨3, 4, 10, 1 + enc.Tmin, .V⟩,
   ⟨10, 8, 10 * 100 / 20, 1, .gf⟩, ⟨10, 8, 1, 1, .gate⟩, ⟨8, 9, 10, 1 + enc.Tmin, .V⟩]

/-- The synapses of the divider after its subtractor. -/
noncomputable def pdivBack (enc : Encoder ℝ) : List (Synapse ℝ) :=
  [⟨20, 21, 10, 1, .V⟩, ⟨20, 22, 1 / 2 * 10, 1, .V⟩, ⟨21, 21, -10, 1, .V⟩, ⟨21, 23, 10 * 100 / 20, 1 + enc.Tmin, .gf⟩, ⟨21, 23, 1, 1 + enc.Tmin, .gate⟩,
   ⟨22, 23, -1, 1, .gate⟩, ⟨22, 23, enc.waccBar, 1, .ge⟩, ⟨23, 24, 10, 1 + enc.Tmin, .V⟩, ⟨22, 24, 10, 2 * 1, .V⟩,
   ⟨4, 11, 10, 1, .V⟩, ⟨9, 12, 10, 1, .V⟩, ⟨17, 20, 10, 1, .V⟩]

/-- The synapses of the divider's subtractor. -/
noncomputable def pdivSub (enc : Encoder ℝ) : List (Synapse ℝ) := (psubSyns enc).map (fun s => { s with pre := s.pre + 11, post := s.post + 11 })

theorem pdiv_syns (enc : Encoder ℝ) (name : Option String) : (divNetwork enc name World.empty).2.syns.reverse =
    pdivFront enc ++ pdivSub enc ++ pdivBack enc := rfl

theorem filter_inj (k n : ℕ) (f : ℝ → ℝ) (L : List ℝ) : (L.map (fun t => (n, f t))).filter (fun q => decide (q.1 = k)) = if n = k then L.map (fun t => (n, f t)) else [] := by
  by_cases h : n = k
  · rw [if_pos h, List.filter_eq_self]; simp [h]
  · rw [if_neg h, List.filter_eq_nil_iff]; simp [h]

/-- The trains of a divider whose inputs spike at 0 and `I1`, `I2`. -/
def divLS (I1 I2 M : ℝ) (L3 L4 L8 L9 : List ℝ) (S : ℕ → List ℝ) (L17 L20 L21 L22 L23 L24 : List ℝ) (x : ℕ) : List ℝ :=
  [[0, I1], [1], [I1 + 1], L3, L4, [0, I2], [1], [I2 + 1], L8, L9, [M + 2],
   S 0, S 1, S 2, S 3, S 4, S 5, L17, S 7, S 8, L20, L21, L22, L23, L24].getD x []

set_option maxHeartbeats 4000000 in
/-- The trains of the divider, once those of its output part are guessed. -/
theorem div_pred (H : TimeHeap ℝ) {enc : Encoder ℝ} (h1 : 1 ≤ enc.Tmin) (h2 : 0 < enc.Tcod) {dt : ℝ} (hs : Sane Real.exp dt) (name : Option String)
    {v1 v2 : ℝ} (hv1 : 0 ≤ v1 ∧ v1 ≤ 1) (hv2 : 0 ≤ v2 ∧ v2 ≤ 1) (t1 t2 : ℝ) {I1 I2 M : ℝ} (hI1 : I1 = enc.Tmin + v1 * enc.Tcod) (hI2 : I2 = enc.Tmin + v2 * enc.Tcod)
    (hM : M = max I1 I2) (L3 L4 L8 L9 : List ℝ) (S : ℕ → List ℝ) (L17 L20 L21 L22 L23 L24 : List ℝ)
    (hS0 : S 0 = L4.map (· + 1)) (hS1 : S 1 = L9.map (· + 1)) (hS6 : S 6 = L17)
    (hfit : ∀ E : PEnv ℝ, Sane E.exp E.dt → E.exp = Real.exp → E.dt = dt → E.net.syns = pdivFront enc ++ pdivSub enc ++ pdivBack enc → (∀ x < 25, E.net.par x = stdPar) →
      ∀ x ∈ [3, 4, 8, 9, 20, 21, 22, 23, 24], Fits E [(0, 0), (0, I1), (5, 0), (5, I2)] (divLS I1 I2 M L3 L4 L8 L9 S L17 L20 L21 L22 L23 L24) x)
    (hsub : ∀ E : PEnv ℝ, Sane E.exp E.dt → E.net.syns = psubSyns enc → (∀ x < 9, E.net.par x = stdPar) → ∀ x < 9,
      Fits E ((S 0).map (fun t => (0, t)) ++ (S 1).map (fun t => (1, t))) S x) :
    PredEnds H Real.exp enc dt (divNetwork enc name World.empty).2 0 [.value v1 0 t1, .value v2 5 t2] (fun log => log 24 = some L24) := by
  set w := (divNetwork enc name World.empty).2 with hwdef
  have hdt := hs.pos
  have i1 := mul_nonneg hv1.1 h2.le
  have i2 := mul_nonneg hv2.1 h2.le
  have hsyn : w.syns.reverse = pdivFront enc ++ pdivSub enc ++ pdivBack enc := pdiv_syns enc name
  have hpos : ∀ s ∈ w.syns, 0 < s.delay := by
    intro s hs
    rw [← List.mem_reverse, hsyn] at hs
    unfold pdivFront pdivSub pdivBack psubSyns at hs
    simp only [List.map_cons, List.map_nil, List.cons_append, List.nil_append] at hs
    fin_cases hs <;> simp only <;> first | linarith | norm_num
  refine LibOK.pred (div_lib enc name) H enc hdt hpos (by simp [CallOK, hv1, hv2]) (by simp [predSpikes])
    (divLS I1 I2 M L3 L4 L8 L9 S L17 L20 L21 L22 L23 L24)
    (fun x hx => getD_none _ hx) ?_ (fun log h => h 24 (by norm_num))
  intro E e1 e2 e3 e4 x hx
  have hsE : Sane E.exp E.dt := by rw [e1, e2]; exact hs
  have hp := e4 x hx
  have hinj : [Call.value v1 0 t1, .value v2 5 t2].flatMap (predSpikes enc) = [(0, 0), (0, I1), (5, 0), (5, I2)] := by
    simp [predSpikes, hI1, hI2]
  rw [hinj]
  have g1 : 1 ≤ I1 := by linarith
  have g2 : 1 ≤ I2 := by linarith
  rw [hsyn] at e3
  have hm1 : I1 ≤ M := by rw [hM]; exact le_max_left _ _
  have hm2 : I2 ≤ M := by rw [hM]; exact le_max_right _ _
  by_cases hx3 : x ∈ [3, 4, 8, 9, 20, 21, 22, 23, 24]
  · exact hfit E hsE e1 e2 e3 e4 x hx3
  unfold pdivFront pdivSub pdivBack at e3
  unfold psubSyns at e3
  simp only [List.map_cons, List.map_nil, List.cons_append, List.nil_append] at e3
  by_cases hx11 : 11 ≤ x ∧ x < 20
  · obtain ⟨hx1, hx2⟩ := hx11
    refine Fits.move (E' := E.only (psubSyns enc)) (n' := x - 11) rfl rfl hp.symm ?_ ?_
      (hsub (E.only (psubSyns enc)) hsE rfl (fun _ _ => rfl) (x - 11) (by omega))
    · interval_cases x <;> first | rfl | exact hS6
    · unfold psubSyns
      interval_cases x <;> simp [arriving, PEnv.only, e3, divLS, stdPar, hS0, hS1, hS6, Function.comp_def, filter_inj]
  · have hx' : x = 0 ∨ x = 1 ∨ x = 2 ∨ x = 5 ∨ x = 6 ∨ x = 7 ∨ x = 10 := by
      simp only [List.mem_cons, List.not_mem_nil, or_false, not_or] at hx3; omega
    clear hfit hsub
    rcases hx' with rfl | rfl | rfl | rfl | rfl | rfl | rfl
    · exact Fits.pair hp hsE (a := 0) (b := I1) (by linarith) (by simp [arriving, e3, e4, stdPar]) rfl
    · exact Fits.first hp hsE (a := 1) (b := I1 + 1) (by linarith) (by arr_tac2 e3 divLS) rfl
    · exact Fits.last hp hsE (a := 1) (b := I1 + 1) (by linarith) (by arr_tac2 e3 divLS) rfl
    · exact Fits.pair hp hsE (a := 0) (b := I2) (by linarith) (by simp [arriving, e3, e4, stdPar]) rfl
    · exact Fits.first hp hsE (a := 1) (b := I2 + 1) (by linarith) (by arr_tac2 e3 divLS) rfl
    · exact Fits.last hp hsE (a := 1) (b := I2 + 1) (by linarith) (by arr_tac2 e3 divLS) rfl
    · refine Fits.sums hp hsE [(I1 + 2, 5), (I2 + 2, 5)] 0 (by simp; constructor <;> linarith) (by arr_tac2 e3 divLS) ?_
      show VOK _ _ [M + 2]
      rw [hM]
      rcases le_total I1 I2 with h | h
      · rw [max_eq_right h]; vok_tac
      · rw [max_eq_left h]; vok_tac

set_option maxHeartbeats 4000000 in
/-- The divider answers with the exponential of the difference of its logarithms. -/
theorem div_answers (H : TimeHeap ℝ) {enc : Encoder ℝ} (h1 : 1 ≤ enc.Tmin) (h2 : 0 < enc.Tcod) {dt : ℝ} (hs : Sane Real.exp dt) (name : Option String)
    {v1 v2 : ℝ} (hv1 : 0 ≤ v1 ∧ v1 ≤ 1) (hv2 : 0 ≤ v2 ∧ v2 ≤ 1) (t1 t2 : ℝ) {I1 I2 M D1 D2 D3 : ℝ} (hI1 : I1 = enc.Tmin + v1 * enc.Tcod) (hI2 : I2 = enc.Tmin + v2 * enc.Tcod)
    (hM : M = max I1 I2) (hD : D2 ≤ D1) (hD2 : 0 < enc.Tmin + D2) (h6 : enc.Tcod + 2 * dt ≤ 500) (hD3 : D3 = up dt (enc.Tcod * Real.exp (-(D1 - D2) / 20)))
    (hacc : ∀ E : PEnv ℝ, Sane E.exp E.dt → E.exp = Real.exp → E.dt = dt → (∀ x < 25, E.net.par x = stdPar) → ∀ (inj : List (ℕ × ℝ)) (LS : ℕ → List ℝ),
      ([Item.hit (enc.Tmin + 2) .ge enc.waccBar, .hit (I1 + 2) .ge (-enc.waccBar), .hit (M + 3) .gf 50, .hit (M + 3) .gate 1].Perm (arriving E.net inj LS 3) →
        LS 3 = [M + 3 + D1] → Fits E inj LS 3) ∧
      ([Item.hit (enc.Tmin + 2) .ge enc.waccBar, .hit (I2 + 2) .ge (-enc.waccBar), .hit (M + 3) .gf 50, .hit (M + 3) .gate 1].Perm (arriving E.net inj LS 8) →
        LS 8 = [M + 3 + D2] → Fits E inj LS 8)) :
    PredEnds H Real.exp enc dt (divNetwork enc name World.empty).2 0 [.value v1 0 t1, .value v2 5 t2] (fun log => ∃ q, log 24 = some [q, q + enc.Tmin + D3]) := by
  have hdt := hs.pos
  have i1 := mul_nonneg hv1.1 h2.le
  have i2 := mul_nonneg hv2.1 h2.le
  have hm1 : I1 ≤ M := by rw [hM]; exact le_max_left _ _
  have hm2 : I2 ≤ M := by rw [hM]; exact le_max_right _ _
  have he := Real.exp_pos (-(D1 - D2) / 20)
  have c1 := le_up hdt (enc.Tcod * Real.exp (-(D1 - D2) / 20))
  have c0 : 0 < enc.Tcod * Real.exp (-(D1 - D2) / 20) := by positivity
  rw [← hD3] at c1
  obtain ⟨L5, L8, hsub⟩ : ∃ L5 L8 : List ℝ, ∀ E : PEnv ℝ, Sane E.exp E.dt → E.net.syns = psubSyns enc → (∀ x < 9, E.net.par x = stdPar) → ∀ x < 9,
      Fits E [(0, M + 4 + 1), (0, M + 4 + enc.Tmin + D1 + 1), (1, M + 4 + 1), (1, M + 4 + enc.Tmin + D2 + 1)]
        (subLS (M + 4 + 1) (M + 4 + enc.Tmin + D1 + 1) (M + 4 + 1) (M + 4 + enc.Tmin + D2 + 1) [] L5
          [M + 4 + enc.Tmin + D2 + 1 + 402 / 100, M + 4 + enc.Tmin + D1 + 1 + enc.Tmin + 402 / 100] [] L8) x := by
    rcases le_or_gt (1 / 100) (D1 - D2) with h | h
    · exact ⟨_, _, fun E hsE e3 e4 x hx => sub_fits_plus h1 hsE e3 e4 (by linarith) (by linarith) (by linarith) x hx⟩
    · exact ⟨_, _, fun E hsE e3 e4 x hx => sub_fits_near h1 hsE e3 e4 (by linarith) (by linarith) (by linarith) (by linarith) x hx⟩
  have key := div_pred H h1 h2 hs name hv1 hv2 t1 t2 hI1 hI2 hM [M + 3 + D1] [M + 4, M + 4 + enc.Tmin + D1] [M + 3 + D2] [M + 4, M + 4 + enc.Tmin + D2]
    (subLS (M + 4 + 1) (M + 4 + enc.Tmin + D1 + 1) (M + 4 + 1) (M + 4 + enc.Tmin + D2 + 1) [] L5
          [M + 4 + enc.Tmin + D2 + 1 + 402 / 100, M + 4 + enc.Tmin + D1 + 1 + enc.Tmin + 402 / 100] [] L8)
    [M + 4 + enc.Tmin + D2 + 1 + 402 / 100, M + 4 + enc.Tmin + D1 + 1 + enc.Tmin + 402 / 100]
    [M + enc.Tmin + D2 + 1002 / 100, M + 2 * enc.Tmin + D1 + 1002 / 100] [M + enc.Tmin + D2 + 1102 / 100] [M + 2 * enc.Tmin + D1 + 1102 / 100]
    [M + 2 * enc.Tmin + D1 + 1202 / 100 + D3] [M + 2 * enc.Tmin + D1 + 1302 / 100, M + 2 * enc.Tmin + D1 + 1302 / 100 + enc.Tmin + D3] rfl rfl rfl ?_
    (fun E hsE e3 e4 x hx => hsub E hsE e3 e4 x hx)
  · obtain ⟨N, st, a, b⟩ := key
    exact ⟨N, st, a, _, b⟩
  · intro E hsE hexp hE e3 e4 x hx
    have g1 : 1 ≤ I1 := by linarith
    have g2 : 1 ≤ I2 := by linarith
    unfold pdivFront pdivSub pdivBack at e3
    unfold psubSyns at e3
    simp only [List.map_cons, List.map_nil, List.cons_append, List.nil_append] at e3
    simp only [List.mem_cons, List.not_mem_nil, or_false] at hx
    have hp := e4 x (by omega)
    rcases hx with rfl | rfl | rfl | rfl | rfl | rfl | rfl | rfl | rfl
    · exact (hacc E hsE hexp hE e4 _ _).1 (by arr_tac2 e3 divLS) rfl
    · exact Fits.pair hp hsE (a := M + 4) (b := M + 4 + enc.Tmin + D1) (by linarith) (by arr_tac2 e3 divLS) rfl
    · exact (hacc E hsE hexp hE e4 _ _).2 (by arr_tac2 e3 divLS) rfl
    · exact Fits.pair hp hsE (a := M + 4) (b := M + 4 + enc.Tmin + D2) (by linarith) (by arr_tac2 e3 divLS) rfl
    · exact Fits.pair hp hsE (a := M + enc.Tmin + D2 + 1002 / 100) (b := M + 2 * enc.Tmin + D1 + 1002 / 100) (by linarith) (by arr_tac2 e3 divLS) rfl
    · exact Fits.first hp hsE (a := M + enc.Tmin + D2 + 1102 / 100) (b := M + 2 * enc.Tmin + D1 + 1102 / 100) (by linarith) (by arr_tac2 e3 divLS) rfl
    · exact Fits.last hp hsE (a := M + enc.Tmin + D2 + 1102 / 100) (b := M + 2 * enc.Tmin + D1 + 1102 / 100) (by linarith) (by arr_tac2 e3 divLS) rfl
    · refine Fits.exp hp hexp hsE (a := M + 2 * enc.Tmin + D2 + 1202 / 100) (b := M + 2 * enc.Tmin + D1 + 1202 / 100) h2 (waccBar_mul h2) (by linarith) (by rw [hE]; exact h6)
        (by arr_tac2 e3 divLS) ?_
      rw [show M + 2 * enc.Tmin + D1 + 1202 / 100 - (M + 2 * enc.Tmin + D2 + 1202 / 100) = D1 - D2 by ring, hE, ← hD3]; rfl
    · exact Fits.pair hp hsE (a := M + 2 * enc.Tmin + D1 + 1302 / 100) (b := M + 2 * enc.Tmin + D1 + 1302 / 100 + enc.Tmin + D3) (by linarith) (by arr_tac2 e3 divLS) rfl

/-- The trains of a subtractor whose first input lacks its second spike. -/
noncomputable def noFirstLS (a1 a2 b2 : ℝ) (x : ℕ) : List ℝ := [[a1], [a2, b2], [], [b2 + 1], [], [b2 + 2], [b2 + 402 / 100], [], []].getD x []

/-- The trains of a subtractor whose second input lacks its second spike. -/
noncomputable def noSecondLS (a1 b1 a2 : ℝ) (x : ℕ) : List ℝ := [[a1, b1], [a2], [b1 + 1], [], [b1 + 2], [], [], [b1 + 402 / 100], []].getD x []

/-- The trains of a subtractor both of whose inputs lack the second spike. -/
def neitherLS (a1 a2 : ℝ) (x : ℕ) : List ℝ := [[a1], [a2], [], [], [], [], [], [], []].getD x []

section
variable {E : PEnv ℝ} {enc : Encoder ℝ} {a1 b1 a2 b2 : ℝ}

set_option maxHeartbeats 4000000 in
/-- A subtractor whose first input lacks its second spike. -/
theorem sub_fits_noFirst (h1 : 1 ≤ enc.Tmin) (hs : Sane E.exp E.dt) (e3 : E.net.syns = psubSyns enc) (e4 : ∀ x < 9, E.net.par x = stdPar) (hb2 : a2 < b2)
    (x : ℕ) (hx : x < 9) :
    Fits E [(0, a1), (1, a2), (1, b2)] (noFirstLS a1 a2 b2) x := by
  unfold psubSyns at e3
  have hp := e4 x hx
  generalize enc.Tmin = Tm at *
  interval_cases x
  · exact Fits.single hp hs (a := a1) (by simp [arriving, e3, e4, stdPar, noFirstLS]) rfl
  · exact Fits.pair hp hs hb2 (by simp [arriving, e3, e4, stdPar, noFirstLS]) rfl
  · exact Fits.sums hp hs [(a1 + 1, 5)] a1 (by simp) (by arr_tac2 e3 noFirstLS) (by show VOK _ _ []; vok_tac)
  · exact Fits.last hp hs (a := a2 + 1) (b := b2 + 1) (by linarith) (by arr_tac2 e3 noFirstLS) rfl
  · exact Fits.sums hp hs [(b2 + 2, -10)] b2 (by simp) (by arr_tac2 e3 noFirstLS) (by show VOK _ _ []; vok_tac)
  · exact Fits.sums hp hs [(b2 + 2, 10), (b2 + 502 / 100, 5)] b2 (by simp) (by arr_tac2 e3 noFirstLS) (by show VOK _ _ [b2 + 2]; vok_tac)
  · exact Fits.single hp hs (a := b2 + 402 / 100) (by arr_tac2 e3 noFirstLS) rfl
  · exact Fits.sums hp hs [(b2 + Tm + 402 / 100, 10), (b2 + 3, -20)] b2 (by simp; linarith) (by arr_tac2 e3 noFirstLS) (by show VOK _ _ []; vok_tac)
  · exact Fits.sums hp hs [(b2 + 102 / 100, -5), (b2 + 101 / 100, 5)] b2 (by simp) (by arr_tac2 e3 noFirstLS) (by show VOK _ _ []; vok_tac)

set_option maxHeartbeats 4000000 in
/-- A subtractor whose second input lacks its second spike. -/
theorem sub_fits_noSecond (h1 : 1 ≤ enc.Tmin) (hs : Sane E.exp E.dt) (e3 : E.net.syns = psubSyns enc) (e4 : ∀ x < 9, E.net.par x = stdPar) (hb1 : a1 < b1)
    (x : ℕ) (hx : x < 9) :
    Fits E [(0, a1), (0, b1), (1, a2)] (noSecondLS a1 b1 a2) x := by
  unfold psubSyns at e3
  have hp := e4 x hx
  generalize enc.Tmin = Tm at *
  interval_cases x
  · exact Fits.pair hp hs hb1 (by simp [arriving, e3, e4, stdPar, noSecondLS]) rfl
  · exact Fits.single hp hs (a := a2) (by simp [arriving, e3, e4, stdPar, noSecondLS]) rfl
  · exact Fits.last hp hs (a := a1 + 1) (b := b1 + 1) (by linarith) (by arr_tac2 e3 noSecondLS) rfl
  · exact Fits.sums hp hs [(a2 + 1, 5)] a2 (by simp) (by arr_tac2 e3 noSecondLS) (by show VOK _ _ []; vok_tac)
  · exact Fits.sums hp hs [(b1 + 2, 10), (b1 + 502 / 100, 5)] b1 (by simp) (by arr_tac2 e3 noSecondLS) (by show VOK _ _ [b1 + 2]; vok_tac)
  · exact Fits.sums hp hs [(b1 + 2, -10)] b1 (by simp) (by arr_tac2 e3 noSecondLS) (by show VOK _ _ []; vok_tac)
  · exact Fits.sums hp hs [(b1 + Tm + 402 / 100, 10), (b1 + 3, -20)] b1 (by simp; linarith) (by arr_tac2 e3 noSecondLS) (by show VOK _ _ []; vok_tac)
  · exact Fits.single hp hs (a := b1 + 402 / 100) (by arr_tac2 e3 noSecondLS) rfl
  · exact Fits.sums hp hs [(b1 + 102 / 100, -5), (b1 + 101 / 100, 5)] b1 (by simp) (by arr_tac2 e3 noSecondLS) (by show VOK _ _ []; vok_tac)

set_option maxHeartbeats 4000000 in
/-- A subtractor both of whose inputs lack the second spike. -/
theorem sub_fits_neither (hs : Sane E.exp E.dt) (e3 : E.net.syns = psubSyns enc) (e4 : ∀ x < 9, E.net.par x = stdPar)
    (x : ℕ) (hx : x < 9) :
    Fits E [(0, a1), (1, a2)] (neitherLS a1 a2) x := by
  unfold psubSyns at e3
  have hp := e4 x hx
  interval_cases x
  · exact Fits.single hp hs (a := a1) (by simp [arriving, e3, e4, stdPar, neitherLS]) rfl
  · exact Fits.single hp hs (a := a2) (by simp [arriving, e3, e4, stdPar, neitherLS]) rfl
  · exact Fits.sums hp hs [(a1 + 1, 5)] a1 (by simp) (by arr_tac2 e3 neitherLS) (by show VOK _ _ []; vok_tac)
  · exact Fits.sums hp hs [(a2 + 1, 5)] a2 (by simp) (by arr_tac2 e3 neitherLS) (by show VOK _ _ []; vok_tac)
  all_goals exact Fits.none (by simp [arriving, e3, neitherLS]) rfl

end

set_option maxHeartbeats 4000000 in
/-- The divider emits nothing if its subtractor's plus output does not answer. -/
theorem div_silent (H : TimeHeap ℝ) {enc : Encoder ℝ} (h1 : 1 ≤ enc.Tmin) (h2 : 0 < enc.Tcod) {dt : ℝ} (hs : Sane Real.exp dt) (name : Option String)
    {v1 v2 : ℝ} (hv1 : 0 ≤ v1 ∧ v1 ≤ 1) (hv2 : 0 ≤ v2 ∧ v2 ≤ 1) (t1 t2 : ℝ) {I1 I2 M : ℝ} {o1 o2 o17 : Option ℝ} (hI1 : I1 = enc.Tmin + v1 * enc.Tcod) (hI2 : I2 = enc.Tmin + v2 * enc.Tcod)
    (hM : M = max I1 I2) (hD1 : ∀ D ∈ o1, 0 < enc.Tmin + D) (hD2 : ∀ D ∈ o2, 0 < enc.Tmin + D)
    (hacc : ∀ E : PEnv ℝ, Sane E.exp E.dt → E.exp = Real.exp → E.dt = dt → (∀ x < 25, E.net.par x = stdPar) → ∀ (inj : List (ℕ × ℝ)) (LS : ℕ → List ℝ),
      ([Item.hit (enc.Tmin + 2) .ge enc.waccBar, .hit (I1 + 2) .ge (-enc.waccBar), .hit (M + 3) .gf 50, .hit (M + 3) .gate 1].Perm (arriving E.net inj LS 3) →
        LS 3 = o1.elim [] (fun D => [M + 3 + D]) → Fits E inj LS 3) ∧
      ([Item.hit (enc.Tmin + 2) .ge enc.waccBar, .hit (I2 + 2) .ge (-enc.waccBar), .hit (M + 3) .gf 50, .hit (M + 3) .gate 1].Perm (arriving E.net inj LS 8) →
        LS 8 = o2.elim [] (fun D => [M + 3 + D]) → Fits E inj LS 8))
    {S : ℕ → List ℝ} (hS0 : S 0 = (M + 4 + 1) :: o1.elim [] (fun D => [M + 4 + enc.Tmin + D + 1])) (hS1 : S 1 = (M + 4 + 1) :: o2.elim [] (fun D => [M + 4 + enc.Tmin + D + 1]))
    (hS6 : S 6 = o17.elim [] (fun t => [t]))
    (hsub : ∀ E : PEnv ℝ, Sane E.exp E.dt → E.net.syns = psubSyns enc → (∀ x < 9, E.net.par x = stdPar) → ∀ x < 9,
      Fits E ((S 0).map (fun t => (0, t)) ++ (S 1).map (fun t => (1, t))) S x) :
    PredEnds H Real.exp enc dt (divNetwork enc name World.empty).2 0 [.value v1 0 t1, .value v2 5 t2] (fun log => Quiet (log 24)) := by
  have hdt := hs.pos
  have i1 := mul_nonneg hv1.1 h2.le
  have i2 := mul_nonneg hv2.1 h2.le
  have hm1 : I1 ≤ M := by rw [hM]; exact le_max_left _ _
  have hm2 : I2 ≤ M := by rw [hM]; exact le_max_right _ _
  have key := div_pred H h1 h2 hs name hv1 hv2 t1 t2 hI1 hI2 hM (o1.elim [] (fun D => [M + 3 + D])) ((M + 4) :: o1.elim [] (fun D => [M + 4 + enc.Tmin + D]))
    (o2.elim [] (fun D => [M + 3 + D])) ((M + 4) :: o2.elim [] (fun D => [M + 4 + enc.Tmin + D])) S (o17.elim [] (fun t => [t]))
    (o17.elim [] (fun t => [t + 1])) (o17.elim [] (fun t => [t + 2])) [] [] []
    (by rw [hS0]; cases o1 <;> rfl) (by rw [hS1]; cases o2 <;> rfl) hS6 ?_ hsub
  · obtain ⟨N, st, a, b⟩ := key
    exact ⟨N, st, a, b⟩
  · intro E hsE hexp hE e3 e4 x hx
    have g1 : 1 ≤ I1 := by linarith
    have g2 : 1 ≤ I2 := by linarith
    unfold pdivFront pdivSub pdivBack at e3
    unfold psubSyns at e3
    simp only [List.map_cons, List.map_nil, List.cons_append, List.nil_append] at e3
    simp only [List.mem_cons, List.not_mem_nil, or_false] at hx
    have hp := e4 x (by omega)
    clear hsub
    rcases hx with rfl | rfl | rfl | rfl | rfl | rfl | rfl | rfl | rfl
    · exact (hacc E hsE hexp hE e4 _ _).1 (by arr_tac2 e3 divLS) rfl
    · cases o1 with
      | none => exact Fits.single hp hsE (a := M + 4) (by arr_tac2 e3 divLS) rfl
      | some D =>
        have := hD1 D rfl
        exact Fits.pair hp hsE (a := M + 4) (b := M + 4 + enc.Tmin + D) (by linarith) (by arr_tac2 e3 divLS) rfl
    · exact (hacc E hsE hexp hE e4 _ _).2 (by arr_tac2 e3 divLS) rfl
    · cases o2 with
      | none => exact Fits.single hp hsE (a := M + 4) (by arr_tac2 e3 divLS) rfl
      | some D =>
        have := hD2 D rfl
        exact Fits.pair hp hsE (a := M + 4) (b := M + 4 + enc.Tmin + D) (by linarith) (by arr_tac2 e3 divLS) rfl
    · cases o17 with
      | none => exact Fits.none (by simp [arriving, e3, divLS]) rfl
      | some t => exact Fits.single hp hsE (a := t + 1) (by arr_tac2 e3 divLS) rfl
    · cases o17 with
      | none => exact Fits.none (by simp [arriving, e3, divLS]) rfl
      | some t => exact Fits.sums hp hsE [(t + 2, 10), (t + 3, -10)] t (by simp) (by arr_tac2 e3 divLS) (by show VOK _ _ [t + 2]; vok_tac)
    · cases o17 with
      | none => exact Fits.none (by simp [arriving, e3, divLS]) rfl
      | some t => exact Fits.sums hp hsE [(t + 2, 5)] t (by simp) (by arr_tac2 e3 divLS) (by show VOK _ _ []; vok_tac)
    · cases o17 with
      | none => exact Fits.none (by simp [arriving, e3, divLS]) rfl
      | some t =>
        have hnone : predictSteps E.exp (E.net.par 23) (gated 0 50) E.dt = .ok Option.none := by
          refine predict_never hp hsE.pos hsE.steps fun d _ => ?_
          rw [hexp, expected_gated]
          have := Real.exp_pos (-d / 20)
          linarith
        refine Fits.of [⟨t + enc.Tmin + 3, [(.gf, 50), (.gate, 1)]⟩] (by simp) (by simp) (by arr_tac2 e3 divLS) ?_
        exact Reacts.quiet (s' := gated 0 50) (v := ⟨t + enc.Tmin + 3, [(.gf, 50), (.gate, 1)]⟩) (by rw [pass_lin hp]; simp [bumps, bump]) hnone (by simp) Reacts.done
    · exact Fits.none (by simp [arriving, e3, divLS]) rfl

theorem up_mono {dt : ℝ} (hdt : 0 < dt) {x y : ℝ} (h : x ≤ y) : up dt x ≤ up dt y := by
  unfold up
  exact mul_le_mul_of_nonneg_right (by exact_mod_cast Int.ceil_le_ceil (div_le_div_of_nonneg_right h hdt.le)) hdt.le

/-- An integrator that is exactly full when it stops at `b` spikes then, and the exponential current from `c` on does not fill it again. -/
theorem Fits.log_full {E : PEnv ℝ} {n : ℕ} {inj : List (ℕ × ℝ)} {LS : ℕ → List ℝ} (hp : E.net.par n = stdPar) (hexp : E.exp = Real.exp) (hs : Sane E.exp E.dt)
    {W x a b c : ℝ} (hx : 0 < x) (hW : W * x = 1000) (hb : b = a + x) (hbc : b < c) (h5 : x + 2 * E.dt ≤ 500)
    (ha : [Item.hit a .ge W, Item.hit b .ge (-W), Item.hit c .gf 50, Item.hit c .gate 1].Perm (arriving E.net inj LS n))
    (hL : LS n = [b]) : Fits E inj LS n := by
  have hW0 : 0 < W := by by_contra h; nlinarith
  have hWx : W / 100 * x = 10 := by linear_combination hW / 100
  have hnone : predictSteps E.exp (E.net.par n) (gated 0 50) E.dt = .ok Option.none := by
    refine predict_never hp hs.pos hs.steps fun d _ => ?_
    rw [hexp, expected_gated]
    have := Real.exp_pos (-d / 20)
    linarith
  refine Fits.of [⟨a, [(.ge, W)]⟩, ⟨b, [(.ge, -W)]⟩, ⟨c, [(.gf, 50), (.gate, 1)]⟩] (by simp; repeat' (first | linarith | apply And.intro)) (by simp) ha ?_
  rw [hL]
  rcases (le_up hs.pos x).lt_or_eq with hlt | heq
  · have hp0 : predictSteps E.exp (E.net.par n) (lin 0 W) E.dt = .ok (some ⌈x / E.dt⌉) := by
      have := predict_ramp (gf := 0) hp hs (V := 0) (y := x) hW0 hx.le (by linarith) h5
      exact this
    refine Reacts.quiet (s' := lin 0 W) (v := ⟨a, [(.ge, W)]⟩) (by rw [pass_lin hp]; simp [bumps, bump]) hp0 ?_ ?_
    · intro m hm
      injection hm with hm
      refine ⟨_, rfl, ?_⟩
      subst hm
      show b < a + up E.dt x
      linarith
    · refine fire_now hp hs.exp hs.pos hs.steps (by linarith [hs.small]) (V' := 10) (ge' := 0) ?_ le_rfl le_rfl (by simp; linarith) ?_
      · rw [hb]; simp [bumps, bump, hWx]
      · exact Reacts.quiet (s' := gated 0 50) (v := ⟨c, [(.gf, 50), (.gate, 1)]⟩) (by rw [pass_lin hp]; simp [bumps, bump]) hnone (by simp) Reacts.done
  · have := fire_later (E := E) (n := n) (vs := [⟨b, [(.ge, -W)]⟩, ⟨c, [(.gf, 50), (.gate, 1)]⟩]) (L := []) (V := 0) (ge := 0) (l := 0) (V' := 0) (hits := [(.ge, W)])
      (ge' := W) (x := x) (t := a) hp hs.exp hs.pos hs.steps (by simp [bumps, bump]) hW0 (by linarith) hx.le h5 (by simp [← heq, hb]) ?_
    · rw [← heq, ← hb] at this; exact this
    · have hneg : ∀ V gf g d, V ≤ 0 → 0 ≤ d → (g = 0 ∨ g = 1 ∧ gf = 50) → expectedV E.exp stdPar ⟨V, -W, gf, g⟩ d < 10 := by
        intro V gf g d hV hd hg
        have h1 : 0 ≤ W / 100 * d := by positivity
        have h2 := Real.exp_pos (-d / 20)
        rcases hg with rfl | ⟨rfl, rfl⟩
        · have e : expectedV E.exp stdPar ⟨V, -W, gf, 0⟩ d = V - (W / 100 * d) := by simp [expectedV, stdPar]; ring
          rw [e]; linarith
        · have e : expectedV E.exp stdPar ⟨V, -W, 50, 1⟩ d = V - (W / 100 * d) + 10 * (1 - Real.exp (-d / 20)) := by simp [expectedV, stdPar, hexp]; ring
          rw [e]; linarith
      refine Reacts.quiet (s' := lin 0 (-W)) (v := ⟨b, [(.ge, -W)]⟩) (by rw [pass_lin hp]; simp [bumps, bump])
        (predict_never hp hs.pos hs.steps fun d hd => hneg 0 0 0 d le_rfl hd (Or.inl rfl)) (by simp) ?_
      have hV : -W / 100 * (c - b) ≤ 0 := by have := mul_pos hW0 (sub_pos.mpr hbc); nlinarith
      exact Reacts.quiet (s' := ⟨-W / 100 * (c - b), -W, 50, 1⟩) (v := ⟨c, [(.gf, 50), (.gate, 1)]⟩) (by rw [pass_lin hp]; simp [bumps, bump])
        (predict_never hp hs.pos hs.steps fun d hd => hneg _ 50 1 d hV hd (Or.inr ⟨rfl, rfl⟩)) (by simp) Reacts.done

/-- **C90.** In the predictive simulator, a `DivNetwork` that is given `v1` and `v2` with `0 < v1 ≤ v2 < 1` shows `v1 / v2`, up to a time
step and the effect of one time step on the exponential. -/
theorem C90_quotient (H : TimeHeap ℝ) {enc : Encoder ℝ} (h1 : 1 ≤ enc.Tmin) (h2 : 0 < enc.Tcod) {dt : ℝ} (hs : Sane Real.exp dt) (name : Option String)
    {v1 v2 : ℝ} (hv1 : 0 < v1) (h12 : v1 ≤ v2) (hv2 : v2 < 1) (h5 : -20 * Real.log v1 + 2 * dt ≤ 500) (h6 : enc.Tcod + 2 * dt ≤ 500) (t1 t2 : ℝ) :
    let p := (divNetwork enc name World.empty).1
    let w := (divNetwork enc name World.empty).2
    PredEnds H Real.exp enc dt w p.mod [.value v1 p.input1 t1, .value v2 p.input2 t2] (fun log =>
      Shows enc (dt + v1 / v2 * enc.Tcod * (Real.exp (dt / 20) - 1)) (log p.output) (v1 / v2)) := by
  intro p w
  show PredEnds H Real.exp enc dt w 0 [.value v1 0 t1, .value v2 5 t2] (fun log =>
      Shows enc (dt + v1 / v2 * enc.Tcod * (Real.exp (dt / 20) - 1)) (log 24) (v1 / v2))
  have hdt := hs.pos
  have hp2 : 0 < v2 := by linarith
  have hlog : Real.log v1 ≤ Real.log v2 := Real.log_le_log hv1 h12
  have l2 : Real.log v2 ≤ 0 := Real.log_nonpos hp2.le hv2.le
  have q1 := le_up hdt (-20 * Real.log v1)
  have q2 := up_lt hdt (-20 * Real.log v1)
  have r1 := le_up hdt (-20 * Real.log v2)
  have r2 := up_lt hdt (-20 * Real.log v2)
  have hmono : up dt (-20 * Real.log v2) ≤ up dt (-20 * Real.log v1) := up_mono hdt (by linarith)
  have key := div_answers H h1 h2 hs name (v1 := v1) (v2 := v2) ⟨hv1.le, by linarith⟩ ⟨hp2.le, hv2.le⟩ t1 t2 (D1 := up dt (-20 * Real.log v1)) (D2 := up dt (-20 * Real.log v2)) rfl rfl rfl hmono
    (by linarith) h6 rfl ?_
  · obtain ⟨N, st, a, q, b⟩ := key
    refine ⟨N, st, a, q, _, ?_, b, ?_⟩
    all_goals
      set D := up dt (-20 * Real.log v1) - up dt (-20 * Real.log v2) with hD
      have c1 := le_up hdt (enc.Tcod * Real.exp (-D / 20))
      have c2 := up_lt hdt (enc.Tcod * Real.exp (-D / 20))
      have c0 := mul_pos h2 (Real.exp_pos (-D / 20))
    · linarith
    · have hv : Real.exp (Real.log v1 - Real.log v2) = v1 / v2 := by rw [Real.exp_sub, Real.exp_log hv1, Real.exp_log hp2]
      have f1 : Real.exp (-D / 20) ≤ v1 / v2 * Real.exp (dt / 20) := by
        rw [← hv, ← Real.exp_add]; exact Real.exp_le_exp.mpr (by linarith)
      have f2 : v1 / v2 * Real.exp (-(dt / 20)) ≤ Real.exp (-D / 20) := by
        rw [← hv, ← Real.exp_add]; exact Real.exp_le_exp.mpr (by linarith)
      have f3 : 2 - Real.exp (dt / 20) ≤ Real.exp (-(dt / 20)) := by
        have := Real.add_one_le_exp (dt / 20)
        have := Real.add_one_le_exp (-(dt / 20))
        have hm : Real.exp (dt / 20) * Real.exp (-(dt / 20)) = 1 := by rw [← Real.exp_add]; simp
        nlinarith [sq_nonneg (Real.exp (dt / 20) - 1)]
      have hq : 0 < v1 / v2 := div_pos hv1 hp2
      have g1 := mul_le_mul_of_nonneg_left f1 h2.le
      have g2 := mul_le_mul_of_nonneg_left f2 h2.le
      have g3 := mul_le_mul_of_nonneg_left f3 (mul_pos hq h2).le
      rw [abs_le]
      constructor <;> nlinarith
  · intro E hsE hexp hE e4 inj LS
    have i1 := mul_pos hv1 h2
    have i2 := mul_pos hp2 h2
    constructor
    · intro ha hL
      exact Fits.log (e4 3 (by norm_num)) hexp hsE h2 (waccBar_mul h2) hv1 (by linarith) (by ring)
        (by linarith [le_max_left (enc.Tmin + v1 * enc.Tcod) (enc.Tmin + v2 * enc.Tcod)]) (by rw [hE]; exact h5) ha (by rw [hE]; exact hL)
    · intro ha hL
      exact Fits.log (e4 8 (by norm_num)) hexp hsE h2 (waccBar_mul h2) hp2 hv2 (by ring)
        (by linarith [le_max_right (enc.Tmin + v1 * enc.Tcod) (enc.Tmin + v2 * enc.Tcod)]) (by rw [hE]; linarith) ha (by rw [hE]; exact hL)

/-- **C90 fails for a divisor of 1**: its accumulator fills before the exponential current starts and spikes 1 ms early, so the answer is
about `exp(-1/20) = 0.951` times the quotient. -/
theorem C90_divisor_one (H : TimeHeap ℝ) {enc : Encoder ℝ} (h1 : 1 < enc.Tmin) (h2 : 0 < enc.Tcod) {dt : ℝ} (hs : Sane Real.exp dt) (name : Option String)
    {v : ℝ} (hv0 : 0 < v) (hv1 : v < 1) (h5 : -20 * Real.log v + 2 * dt ≤ 500) (h6 : enc.Tcod + 2 * dt ≤ 500) (t1 t2 : ℝ) :
    let p := (divNetwork enc name World.empty).1
    let w := (divNetwork enc name World.empty).2
    PredEnds H Real.exp enc dt w p.mod [.value v p.input1 t1, .value 1 p.input2 t2] (fun log =>
      Shows enc (dt + v * enc.Tcod * (dt / 20)) (log p.output) (v * Real.exp (-1 / 20))) := by
  intro p w
  show PredEnds H Real.exp enc dt w 0 [.value v 0 t1, .value 1 5 t2] (fun log =>
      Shows enc (dt + v * enc.Tcod * (dt / 20)) (log 24) (v * Real.exp (-1 / 20)))
  have hdt := hs.pos
  have l2 : Real.log v ≤ 0 := Real.log_nonpos hv0.le hv1.le
  have q1 := le_up hdt (-20 * Real.log v)
  have q2 := up_lt hdt (-20 * Real.log v)
  have hI : enc.Tmin + v * enc.Tcod ≤ enc.Tmin + 1 * enc.Tcod := by nlinarith
  have key := div_answers H h1.le h2 hs name (v1 := v) (v2 := 1) ⟨hv0.le, hv1.le⟩ (by norm_num) t1 t2 (D1 := up dt (-20 * Real.log v)) (D2 := -1) rfl rfl (max_eq_right hI).symm (by linarith)
    (by linarith) h6 rfl ?_
  · obtain ⟨N, st, a, q, b⟩ := key
    refine ⟨N, st, a, q, _, ?_, b, ?_⟩
    all_goals
      set D := up dt (-20 * Real.log v) - -1 with hD
      have c1 := le_up hdt (enc.Tcod * Real.exp (-D / 20))
      have c2 := up_lt hdt (enc.Tcod * Real.exp (-D / 20))
      have c0 := mul_pos h2 (Real.exp_pos (-D / 20))
    · linarith
    · have hv : Real.exp (Real.log v + -1 / 20) = v * Real.exp (-1 / 20) := by rw [Real.exp_add, Real.exp_log hv0]
      have f1 : Real.exp (-D / 20) ≤ v * Real.exp (-1 / 20) := by
        rw [← hv]; exact Real.exp_le_exp.mpr (by linarith)
      have f2 : v * Real.exp (-1 / 20) * Real.exp (-(dt / 20)) ≤ Real.exp (-D / 20) := by
        rw [← hv, ← Real.exp_add]; exact Real.exp_le_exp.mpr (by linarith)
      have f3 : 1 - dt / 20 ≤ Real.exp (-(dt / 20)) := by have := Real.add_one_le_exp (-(dt / 20)); linarith
      have f4 : Real.exp (-1 / 20) ≤ 1 := by rw [Real.exp_le_one_iff]; norm_num
      have f5 := Real.exp_pos (-1 / 20)
      have g1 := mul_le_mul_of_nonneg_left f1 h2.le
      have g2 := mul_le_mul_of_nonneg_left f2 h2.le
      have g3 := mul_le_mul_of_nonneg_left f3 (mul_pos (mul_pos hv0 f5) h2).le
      have g4 := mul_le_mul_of_nonneg_left f4 (mul_pos (mul_pos hv0 h2) (by positivity : 0 < dt / 20)).le
      rw [abs_le]
      constructor <;> nlinarith
  · intro E hsE hexp hE e4 inj LS
    have i1 := mul_pos hv0 h2
    constructor
    · intro ha hL
      exact Fits.log (e4 3 (by norm_num)) hexp hsE h2 (waccBar_mul h2) hv0 hv1 (by ring)
        (by linarith) (by rw [hE]; exact h5) ha (by rw [hE]; exact hL)
    · intro ha hL
      exact Fits.log_full (e4 8 (by norm_num)) hexp hsE h2 (waccBar_mul h2) (by ring) (by linarith) (by rw [hE]; exact h6) ha (by rw [hL]; congr 1; ring)

/-- **C90, wrong order.** If `v1` exceeds `v2` (by a little more than the precision of the network), nothing is emitted. -/
theorem C90_reversed_silent (H : TimeHeap ℝ) {enc : Encoder ℝ} (h1 : 1 ≤ enc.Tmin) (h2 : 0 < enc.Tcod) {dt : ℝ} (hs : Sane Real.exp dt) (name : Option String)
    {v1 v2 : ℝ} (hv2 : 0 < v2) (h12 : v2 * Real.exp (dt / 20) ≤ v1) (hv1 : v1 < 1) (h5 : -20 * Real.log v2 + 2 * dt ≤ 500) (t1 t2 : ℝ) :
    let p := (divNetwork enc name World.empty).1
    let w := (divNetwork enc name World.empty).2
    PredEnds H Real.exp enc dt w p.mod [.value v1 p.input1 t1, .value v2 p.input2 t2] (fun log => Quiet (log p.output)) := by
  intro p w
  show PredEnds H Real.exp enc dt w 0 [.value v1 0 t1, .value v2 5 t2] (fun log => Quiet (log 24))
  have hdt := hs.pos
  have hp1 : 0 < v1 := by have := mul_pos hv2 (Real.exp_pos (dt / 20)); linarith
  have hlog : Real.log v2 + dt / 20 ≤ Real.log v1 := by
    rw [Real.le_log_iff_exp_le hp1, Real.exp_add, Real.exp_log hv2]; exact h12
  have l1 : Real.log v1 ≤ 0 := Real.log_nonpos hp1.le hv1.le
  have q1 := le_up hdt (-20 * Real.log v1)
  have q2 := up_lt hdt (-20 * Real.log v1)
  have r1 := le_up hdt (-20 * Real.log v2)
  obtain ⟨I1, e1⟩ : ∃ I1, I1 = enc.Tmin + v1 * enc.Tcod := ⟨_, rfl⟩
  obtain ⟨I2, e2⟩ : ∃ I2, I2 = enc.Tmin + v2 * enc.Tcod := ⟨_, rfl⟩
  obtain ⟨M, hM⟩ : ∃ M, M = max I1 I2 := ⟨_, rfl⟩
  have hm1 : I1 ≤ M := by rw [hM]; exact le_max_left _ _
  have hm2 : I2 ≤ M := by rw [hM]; exact le_max_right _ _
  obtain ⟨L7, L8, hsub⟩ : ∃ L7 L8 : List ℝ, ∀ E : PEnv ℝ, Sane E.exp E.dt → E.net.syns = psubSyns enc → (∀ x < 9, E.net.par x = stdPar) → ∀ x < 9,
      Fits E [(0, M + 4 + 1), (0, M + 4 + enc.Tmin + up dt (-20 * Real.log v1) + 1), (1, M + 4 + 1), (1, M + 4 + enc.Tmin + up dt (-20 * Real.log v2) + 1)]
        (subLS (M + 4 + 1) (M + 4 + enc.Tmin + up dt (-20 * Real.log v1) + 1) (M + 4 + 1) (M + 4 + enc.Tmin + up dt (-20 * Real.log v2) + 1)
          [M + 4 + enc.Tmin + up dt (-20 * Real.log v1) + 1 + 2] [] [] L7 L8) x := by
    rcases le_or_gt (1 / 100) (up dt (-20 * Real.log v2) - up dt (-20 * Real.log v1)) with h | h
    · exact ⟨_, _, fun E hsE e3 e4 x hx => sub_fits_minus h1 hsE e3 e4 (by linarith) (by linarith) (by linarith) x hx⟩
    · exact ⟨_, _, fun E hsE e3 e4 x hx => sub_fits_dead h1 hsE e3 e4 (by linarith) (by linarith) (by linarith) (by linarith) x hx⟩
  refine div_silent H h1 h2 hs name (v1 := v1) (v2 := v2) ⟨hp1.le, hv1.le⟩ ⟨hv2.le, by nlinarith [Real.add_one_le_exp (dt / 20)]⟩ t1 t2
    (o1 := some (up dt (-20 * Real.log v1))) (o2 := some (up dt (-20 * Real.log v2))) (o17 := none) (S := subLS (M + 4 + 1) (M + 4 + enc.Tmin + up dt (-20 * Real.log v1) + 1) (M + 4 + 1) (M + 4 + enc.Tmin + up dt (-20 * Real.log v2) + 1)
          [M + 4 + enc.Tmin + up dt (-20 * Real.log v1) + 1 + 2] [] [] L7 L8) e1 e2 hM ?_ ?_ ?_ rfl rfl rfl hsub
  · rintro D ⟨⟩; linarith
  · rintro D ⟨⟩; linarith
  · intro E hsE hexp hE e4 inj LS
    have i1 := mul_pos hp1 h2
    have i2 := mul_pos hv2 h2
    constructor
    · intro ha hL
      exact Fits.log (e4 3 (by norm_num)) hexp hsE h2 (waccBar_mul h2) hp1 hv1 (by rw [e1]; ring)
        (by linarith) (by rw [hE]; linarith) ha (by rw [hE]; exact hL)
    · intro ha hL
      exact Fits.log (e4 8 (by norm_num)) hexp hsE h2 (waccBar_mul h2) hv2 (by nlinarith [Real.add_one_le_exp (dt / 20)]) (by rw [e2]; ring)
        (by linarith) (by rw [hE]; linarith) ha (by rw [hE]; exact hL)

/-- **C90, zero operands.** If the dividend or the divisor is 0, nothing is emitted: neither `0 / v` nor a division by zero is answered. -/
theorem C90_zero_silent (H : TimeHeap ℝ) {enc : Encoder ℝ} (h1 : 1 ≤ enc.Tmin) (h2 : 0 < enc.Tcod) {dt : ℝ} (hs : Sane Real.exp dt) (name : Option String)
    {v1 v2 : ℝ} (hv1 : 0 ≤ v1 ∧ v1 < 1) (hv2 : 0 ≤ v2 ∧ v2 < 1) (h0 : v1 = 0 ∨ v2 = 0) (h5 : ∀ v, 0 < v → v = v1 ∨ v = v2 → -20 * Real.log v + 2 * dt ≤ 500) (t1 t2 : ℝ) :
    let p := (divNetwork enc name World.empty).1
    let w := (divNetwork enc name World.empty).2
    PredEnds H Real.exp enc dt w p.mod [.value v1 p.input1 t1, .value v2 p.input2 t2] (fun log => Quiet (log p.output)) := by
  intro p w
  show PredEnds H Real.exp enc dt w 0 [.value v1 0 t1, .value v2 5 t2] (fun log => Quiet (log 24))
  have hdt := hs.pos
  obtain ⟨I1, e1⟩ : ∃ I1, I1 = enc.Tmin + v1 * enc.Tcod := ⟨_, rfl⟩
  obtain ⟨I2, e2⟩ : ∃ I2, I2 = enc.Tmin + v2 * enc.Tcod := ⟨_, rfl⟩
  obtain ⟨M, hM⟩ : ∃ M, M = max I1 I2 := ⟨_, rfl⟩
  have i1 := mul_nonneg hv1.1 h2.le
  have i2 := mul_nonneg hv2.1 h2.le
  have hm1 : I1 ≤ M := by rw [hM]; exact le_max_left _ _
  have hm2 : I2 ≤ M := by rw [hM]; exact le_max_right _ _
  have hlog : ∀ v, 0 < v → v < 1 → 0 ≤ up dt (-20 * Real.log v) := fun v h h' => by
    have := Real.log_nonpos h.le h'.le
    have := le_up hdt (-20 * Real.log v)
    linarith
  have accPos : ∀ {v I : ℝ}, 0 < v → v < 1 → v = v1 ∨ v = v2 → I = enc.Tmin + v * enc.Tcod → I ≤ M → ∀ E : PEnv ℝ, Sane E.exp E.dt → E.exp = Real.exp → E.dt = dt → ∀ n, E.net.par n = stdPar →
      ∀ (inj : List (ℕ × ℝ)) (LS : ℕ → List ℝ),
      [Item.hit (enc.Tmin + 2) .ge enc.waccBar, .hit (I + 2) .ge (-enc.waccBar), .hit (M + 3) .gf 50, .hit (M + 3) .gate 1].Perm (arriving E.net inj LS n) →
        LS n = [M + 3 + up dt (-20 * Real.log v)] → Fits E inj LS n := fun p p' e eI hI E hsE hexp hE n hp inj LS ha hL =>
    Fits.log hp hexp hsE h2 (waccBar_mul h2) p p' (by linarith) (by linarith) (by rw [hE]; exact h5 _ p e) ha (by rw [hE]; exact hL)
  have accZero : ∀ {v I : ℝ}, v = 0 → I = enc.Tmin + v * enc.Tcod → I ≤ M → ∀ E : PEnv ℝ, Sane E.exp E.dt → E.exp = Real.exp → E.dt = dt → ∀ n, E.net.par n = stdPar →
      ∀ (inj : List (ℕ × ℝ)) (LS : ℕ → List ℝ),
      [Item.hit (enc.Tmin + 2) .ge enc.waccBar, .hit (I + 2) .ge (-enc.waccBar), .hit (M + 3) .gf 50, .hit (M + 3) .gate 1].Perm (arriving E.net inj LS n) →
        LS n = [] → Fits E inj LS n := fun e eI hI E hsE hexp hE n hp inj LS ha hL => by
    rw [e, zero_mul, add_zero] at eI
    subst eI
    exact Fits.log_zero hp hexp hsE (by linarith) ha hL
  rcases hv1.1.lt_or_eq with p1 | z1
  · have z2 : v2 = 0 := by rcases h0 with h | h; · exact absurd h p1.ne'
                           · exact h
    refine div_silent H h1 h2 hs name (v1 := v1) (v2 := v2) ⟨hv1.1, hv1.2.le⟩ ⟨hv2.1, hv2.2.le⟩ t1 t2
      (o1 := some (up dt (-20 * Real.log v1))) (o2 := none) (o17 := none) (S := noSecondLS (M + 4 + 1) (M + 4 + enc.Tmin + up dt (-20 * Real.log v1) + 1) (M + 4 + 1)) e1 e2 hM ?_ (by simp) ?_ ?_ ?_ ?_
      (fun E hsE e3 e4 x hx => sub_fits_noSecond h1 hsE e3 e4 (a1 := M + 4 + 1) (b1 := M + 4 + enc.Tmin + up dt (-20 * Real.log v1) + 1) (a2 := M + 4 + 1) ?_ x hx)
    · rintro D ⟨⟩; linarith [hlog v1 p1 hv1.2]
    · exact fun E hsE hexp hE e4 inj LS => ⟨accPos p1 hv1.2 (Or.inl rfl) e1 hm1 E hsE hexp hE 3 (e4 3 (by norm_num)) inj LS, accZero z2 e2 hm2 E hsE hexp hE 8 (e4 8 (by norm_num)) inj LS⟩
    · rfl
    · rfl
    · rfl
    · linarith [hlog v1 p1 hv1.2]
  · rcases hv2.1.lt_or_eq with p2 | z2
    · refine div_silent H h1 h2 hs name (v1 := v1) (v2 := v2) ⟨hv1.1, hv1.2.le⟩ ⟨hv2.1, hv2.2.le⟩ t1 t2
        (o1 := none) (o2 := some (up dt (-20 * Real.log v2))) (o17 := some (M + 4 + enc.Tmin + up dt (-20 * Real.log v2) + 1 + 402 / 100))
        (S := noFirstLS (M + 4 + 1) (M + 4 + 1) (M + 4 + enc.Tmin + up dt (-20 * Real.log v2) + 1)) e1 e2 hM (by simp) ?_ ?_ ?_ ?_ ?_
        (fun E hsE e3 e4 x hx => sub_fits_noFirst h1 hsE e3 e4 (a1 := M + 4 + 1) (b2 := M + 4 + enc.Tmin + up dt (-20 * Real.log v2) + 1) (a2 := M + 4 + 1) ?_ x hx)
      · rintro D ⟨⟩; linarith [hlog v2 p2 hv2.2]
      · exact fun E hsE hexp hE e4 inj LS => ⟨accZero z1.symm e1 hm1 E hsE hexp hE 3 (e4 3 (by norm_num)) inj LS, accPos p2 hv2.2 (Or.inr rfl) e2 hm2 E hsE hexp hE 8 (e4 8 (by norm_num)) inj LS⟩
      · rfl
      · rfl
      · rfl
      · linarith [hlog v2 p2 hv2.2]
    · refine div_silent H h1 h2 hs name (v1 := v1) (v2 := v2) ⟨hv1.1, hv1.2.le⟩ ⟨hv2.1, hv2.2.le⟩ t1 t2
        (o1 := none) (o2 := none) (o17 := none) (S := neitherLS (M + 4 + 1) (M + 4 + 1)) e1 e2 hM (by simp) (by simp) ?_ ?_ ?_ ?_
        (fun E hsE e3 e4 x hx => sub_fits_neither hsE e3 e4 (a1 := M + 4 + 1) (a2 := M + 4 + 1) x hx)
      · exact fun E hsE hexp hE e4 inj LS => ⟨accZero z1.symm e1 hm1 E hsE hexp hE 3 (e4 3 (by norm_num)) inj LS, accZero z2.symm e2 hm2 E hsE hexp hE 8 (e4 8 (by norm_num)) inj LS⟩
      · rfl
      · rfl
      · rfl

theorem log_half : -20 * Real.log (1 / 2) ≤ 20 := by
  have := Real.one_sub_inv_le_log_of_pos (show (0 : ℝ) < 1 / 2 by norm_num)
  norm_num at this ⊢
  linarith

theorem log_quarter : -20 * Real.log (1 / 4) ≤ 60 := by
  have := Real.one_sub_inv_le_log_of_pos (show (0 : ℝ) < 1 / 4 by norm_num)
  norm_num at this ⊢
  linarith

/-- Concrete cases with the default parameters: 1/4 over 1/2; 1/2 over 1; 1/2 over 1/4; 0 over 1/2. -/
example (H : TimeHeap ℝ) : PredEnds H Real.exp ⟨10, 100⟩ (1 / 100) (divNetwork (⟨10, 100⟩ : Encoder ℝ) none World.empty).2 0
    [.value (1 / 4) 0 0, .value (1 / 2) 5 0] (fun log =>
      Shows ⟨10, 100⟩ (1 / 100 + (1 / 4) / (1 / 2) * 100 * (Real.exp (1 / 100 / 20) - 1)) (log 24) ((1 / 4) / (1 / 2))) :=
  C90_quotient H (enc := ⟨10, 100⟩) (by norm_num) (by norm_num) (sane_real (by norm_num) (by norm_num)) none (by norm_num) (by norm_num) (by norm_num)
    (by linarith [log_quarter]) (by norm_num) 0 0

example (H : TimeHeap ℝ) : PredEnds H Real.exp ⟨10, 100⟩ (1 / 100) (divNetwork (⟨10, 100⟩ : Encoder ℝ) none World.empty).2 0
    [.value (1 / 2) 0 0, .value 1 5 0] (fun log =>
      Shows ⟨10, 100⟩ (1 / 100 + 1 / 2 * 100 * (1 / 100 / 20)) (log 24) (1 / 2 * Real.exp (-1 / 20))) :=
  C90_divisor_one H (enc := ⟨10, 100⟩) (by norm_num) (by norm_num) (sane_real (by norm_num) (by norm_num)) none (by norm_num) (by norm_num)
    (by linarith [log_half]) (by norm_num) 0 0

example (H : TimeHeap ℝ) : PredEnds H Real.exp ⟨10, 100⟩ (1 / 100) (divNetwork (⟨10, 100⟩ : Encoder ℝ) none World.empty).2 0
    [.value (1 / 2) 0 0, .value (1 / 4) 5 0] (fun log => Quiet (log 24)) := by
  refine C90_reversed_silent H (enc := ⟨10, 100⟩) (by norm_num) (by norm_num) (sane_real (by norm_num) (by norm_num)) none (by norm_num) ?_ (by norm_num)
    (by linarith [log_quarter]) 0 0
  have h : Real.exp (1 / 100 / 20) ≤ 2 := by
    have := Real.exp_bound_div_one_sub_of_interval (show (0 : ℝ) ≤ 1 / 100 / 20 by norm_num) (by norm_num)
    refine this.trans (by norm_num)
  linarith

example (H : TimeHeap ℝ) : PredEnds H Real.exp ⟨10, 100⟩ (1 / 100) (divNetwork (⟨10, 100⟩ : Encoder ℝ) none World.empty).2 0
    [.value 0 0 0, .value (1 / 2) 5 0] (fun log => Quiet (log 24)) := by
  refine C90_zero_silent H (enc := ⟨10, 100⟩) (by norm_num) (by norm_num) (sane_real (by norm_num) (by norm_num)) none (by norm_num) (by norm_num) (Or.inl rfl) ?_ 0 0
  rintro v hv (rfl | rfl)
  · exact absurd hv (lt_irrefl _)
  · linarith [log_half]

end Axon
