import Verif.Proofs.PredBlocks

/-! # The signed multiplier in the predictive simulator -/
set_option linter.unusedSectionVars false
namespace Axon
open Spec

/-- The synapses of the signed multiplier around its multiplier. -/
noncomputable def smulOuter (enc : Encoder ℝ) : List (Synapse ℝ) :=
  [⟨12, 0, 10, 1, .V⟩, ⟨13, 0, 10, 1, .V⟩, ⟨14, 1, 10, 1, .V⟩, ⟨15, 1, 10, 1, .V⟩,
   ⟨12, 19, 1 / 4 * 10, 1, .V⟩, ⟨12, 21, 1 / 4 * 10, 1, .V⟩, ⟨13, 20, 1 / 4 * 10, 1, .V⟩, ⟨13, 22, 1 / 4 * 10, 1, .V⟩,
   ⟨14, 19, 1 / 4 * 10, 1, .V⟩, ⟨14, 20, 1 / 4 * 10, 1, .V⟩, ⟨15, 21, 1 / 4 * 10, 1, .V⟩, ⟨15, 22, 1 / 4 * 10, 1, .V⟩,
   ⟨19, 20, 1 / 2 * -10, 1, .V⟩, ⟨19, 21, 1 / 2 * -10, 1, .V⟩, ⟨20, 19, 1 / 2 * -10, 1, .V⟩, ⟨20, 22, 1 / 2 * -10, 1, .V⟩,
   ⟨21, 19, 1 / 2 * -10, 1, .V⟩, ⟨21, 22, 1 / 2 * -10, 1, .V⟩, ⟨22, 20, 1 / 2 * -10, 1, .V⟩, ⟨22, 21, 1 / 2 * -10, 1, .V⟩,
   ⟨11, 16, 10, 1, .V⟩, ⟨11, 17, 10, 1, .V⟩, ⟨19, 17, 2 * -10, 1, .V⟩, ⟨20, 16, 2 * -10, 1, .V⟩, ⟨21, 16, 2 * -10, 1, .V⟩, ⟨22, 17, 2 * -10, 1, .V⟩,
   ⟨12, 18, 10 / 4, 350, .V⟩, ⟨13, 18, 10 / 4, 350, .V⟩, ⟨14, 18, 10 / 4, 350, .V⟩, ⟨15, 18, 10 / 4, 350, .V⟩,
   ⟨16, 18, -10 / 2, 1, .V⟩, ⟨17, 18, -10 / 2, 1, .V⟩, ⟨18, 16, 10, 1, .V⟩, ⟨18, 16, 10, 1 + enc.Tmin, .V⟩]

theorem psmul_syns (enc : Encoder ℝ) (name : Option String) : (signedMultiplierNetwork enc name World.empty).2.syns.reverse =
    pmulSyns enc ++ smulOuter enc := rfl

/-- The spikes `l` if the condition does not hold. -/
def off (c : Bool) (l : List ℝ) : List ℝ := bif c then [] else l

@[simp] theorem off_true (l : List ℝ) : off true l = [] := rfl
@[simp] theorem off_false (l : List ℝ) : off false l = l := rfl

/-- The trains of a signed multiplier whose input rails spike at 0 and `I1`, `I2`. -/
def smulLS (m1 m2 : Bool) (I1 I2 M : ℝ) (L4 L5 L8 L10 L11 L16 L17 L18 : List ℝ) (x : ℕ) : List ℝ :=
  [[1, I1 + 1], [1, I2 + 1], [1 + 1], [I1 + 1 + 1], L4, L5, [1 + 1], [I2 + 1 + 1], L8, [M + 1 + 2], L10, L11,
   off m1 [0, I1], off (!m1) [0, I1], off m2 [0, I2], off (!m2) [0, I2], L16, L17, L18,
   off (m1 || m2) [M + 1], off (!m1 || m2) [M + 1], off (m1 || !m2) [M + 1], off (!m1 || !m2) [M + 1]].getD x []

set_option maxHeartbeats 4000000 in
/-- The trains of the signed multiplier, once those of its output part are guessed. -/
theorem smul_pred (H : TimeHeap ℝ) {enc : Encoder ℝ} (h1 : 1 ≤ enc.Tmin) (h2 : 0 < enc.Tcod) {dt : ℝ} (hs : Sane Real.exp dt) (name : Option String)
    (m1 m2 : Bool) {v1 v2 : ℝ} (hv1 : 0 ≤ v1 ∧ v1 ≤ 1) (hv2 : 0 ≤ v2 ∧ v2 ≤ 1) (t1 t2 : ℝ) {I1 I2 M : ℝ} (hI1 : I1 = enc.Tmin + v1 * enc.Tcod) (hI2 : I2 = enc.Tmin + v2 * enc.Tcod)
    (hM : M = max I1 I2) (L4 L5 L8 L10 L11 L16 L17 L18 : List ℝ)
    (hmul : ∀ E : PEnv ℝ, E.exp = Real.exp → E.dt = dt → E.net.syns = pmulSyns enc → (∀ x < 12, E.net.par x = stdPar) → ∀ x < 12,
      Fits E [(0, 1), (0, I1 + 1), (1, 1), (1, I2 + 1)] (mulLS 1 (I1 + 1) 1 (I2 + 1) (M + 1) L4 L5 L8 L10 L11) x)
    (hfit : ∀ E : PEnv ℝ, Sane E.exp E.dt → E.net.syns = pmulSyns enc ++ smulOuter enc → (∀ x < 23, E.net.par x = stdPar) →
      ∀ x ∈ [16, 17, 18], Fits E [(bif m1 then 13 else 12, 0), (bif m1 then 13 else 12, I1), (bif m2 then 15 else 14, 0), (bif m2 then 15 else 14, I2)]
        (smulLS m1 m2 I1 I2 M L4 L5 L8 L10 L11 L16 L17 L18) x) :
    PredEnds H Real.exp enc dt (signedMultiplierNetwork enc name World.empty).2 0 [.value v1 (bif m1 then 13 else 12) t1, .value v2 (bif m2 then 15 else 14) t2]
      (fun log => log 16 = some L16 ∧ log 17 = some L17) := by
  set w := (signedMultiplierNetwork enc name World.empty).2 with hwdef
  have hdt := hs.pos
  have i1 := mul_nonneg hv1.1 h2.le
  have i2 := mul_nonneg hv2.1 h2.le
  have hsyn : w.syns.reverse = pmulSyns enc ++ smulOuter enc := psmul_syns enc name
  have hpos : ∀ s ∈ w.syns, 0 < s.delay := by
    intro s hs
    rw [← List.mem_reverse, hsyn] at hs
    unfold pmulSyns smulOuter at hs
    simp only [List.cons_append, List.nil_append] at hs
    fin_cases hs <;> simp only <;> first | linarith | norm_num
  refine LibOK.pred (signedMultiplier_lib enc name) H enc hdt hpos (by simp [CallOK, hv1, hv2]) (by cases m1 <;> cases m2 <;> simp [predSpikes])
    (smulLS m1 m2 I1 I2 M L4 L5 L8 L10 L11 L16 L17 L18)
    (fun x hx => getD_none _ hx) ?_ (fun log h => ⟨h 16 (by norm_num), h 17 (by norm_num)⟩)
  intro E e1 e2 e3 e4 x hx
  have hsE : Sane E.exp E.dt := by rw [e1, e2]; exact hs
  have hp := e4 x hx
  have hinj : [Call.value v1 (bif m1 then 13 else 12) t1, .value v2 (bif m2 then 15 else 14) t2].flatMap (predSpikes enc) =
      [(bif m1 then 13 else 12, 0), (bif m1 then 13 else 12, I1), (bif m2 then 15 else 14, 0), (bif m2 then 15 else 14, I2)] := by
    simp [predSpikes, hI1, hI2]
  rw [hinj]
  have g1 : 1 ≤ I1 := by linarith
  have g2 : 1 ≤ I2 := by linarith
  rw [hsyn] at e3
  have hm1 : I1 ≤ M := by rw [hM]; exact le_max_left _ _
  have hm2 : I2 ≤ M := by rw [hM]; exact le_max_right _ _
  by_cases hx3 : x ∈ [16, 17, 18]
  · exact hfit E hsE e3 e4 x hx3
  by_cases hx12 : x < 12
  · refine Fits.move (E' := E.only (pmulSyns enc)) (n' := x) rfl rfl hp.symm (by interval_cases x <;> rfl) ?_
      (hmul (E.only (pmulSyns enc)) e1 e2 rfl (fun _ _ => rfl) x hx12)
    unfold smulOuter at e3
    unfold pmulSyns at e3 ⊢
    simp only [List.cons_append, List.nil_append] at e3
    cases m1 <;> cases m2 <;> interval_cases x <;> simp [arriving, PEnv.only, e3, mulLS, smulLS, stdPar]
  · have hx' : x = 12 ∨ x = 13 ∨ x = 14 ∨ x = 15 ∨ x = 19 ∨ x = 20 ∨ x = 21 ∨ x = 22 := by
      simp only [List.mem_cons, List.not_mem_nil, or_false, not_or] at hx3; omega
    unfold smulOuter pmulSyns at e3
    simp only [List.cons_append, List.nil_append] at e3
    have key : VOK [(1, (5 / 2 : ℝ)), (I1 + 1, 5 / 2), (1, 5 / 2), (I2 + 1, 5 / 2)] 0 [M + 1] := by
      rcases max_choice I1 I2 with h | h
      · rw [← hM] at h
        clear hmul hfit hI1 hI2 hM hinj
        subst h; vok_tac
      · rw [← hM] at h
        clear hmul hfit hI1 hI2 hM hinj
        subst h; vok_tac
    clear hmul hfit
    rcases hx' with rfl | rfl | rfl | rfl | rfl | rfl | rfl | rfl
    · cases m1
      · exact Fits.pair hp hsE (a := 0) (b := I1) (by linarith) (by cases m2 <;> simp [arriving, e3, e4, stdPar]) rfl
      · exact Fits.none (by cases m2 <;> simp [arriving, e3, e4, stdPar]) rfl
    · cases m1
      · exact Fits.none (by cases m2 <;> simp [arriving, e3, e4, stdPar]) rfl
      · exact Fits.pair hp hsE (a := 0) (b := I1) (by linarith) (by cases m2 <;> simp [arriving, e3, e4, stdPar]) rfl
    · cases m2
      · exact Fits.pair hp hsE (a := 0) (b := I2) (by linarith) (by cases m1 <;> simp [arriving, e3, e4, stdPar]) rfl
      · exact Fits.none (by cases m1 <;> simp [arriving, e3, e4, stdPar]) rfl
    · cases m2
      · exact Fits.none (by cases m1 <;> simp [arriving, e3, e4, stdPar]) rfl
      · exact Fits.pair hp hsE (a := 0) (b := I2) (by linarith) (by cases m1 <;> simp [arriving, e3, e4, stdPar]) rfl
    · cases m1 <;> cases m2
      · exact Fits.sums hp hsE [(1, 5 / 2), (I1 + 1, 5 / 2), (1, 5 / 2), (I2 + 1, 5 / 2)] 0 (by simp; constructor <;> linarith) (by arr_tac2 e3 smulLS) key
      · exact Fits.sums hp hsE [(1, 5 / 2), (I1 + 1, 5 / 2), (M + 1 + 1, -5)] 0 (by simp; constructor <;> linarith) (by arr_tac2 e3 smulLS) (by show VOK _ _ []; vok_tac)
      · exact Fits.sums hp hsE [(1, 5 / 2), (I2 + 1, 5 / 2), (M + 1 + 1, -5)] 0 (by simp; constructor <;> linarith) (by arr_tac2 e3 smulLS) (by show VOK _ _ []; vok_tac)
      · exact Fits.none (by simp [arriving, e3, e4, stdPar, smulLS]) rfl
    · cases m1 <;> cases m2
      · exact Fits.sums hp hsE [(1, 5 / 2), (I2 + 1, 5 / 2), (M + 1 + 1, -5)] 0 (by simp; constructor <;> linarith) (by arr_tac2 e3 smulLS) (by show VOK _ _ []; vok_tac)
      · exact Fits.none (by simp [arriving, e3, e4, stdPar, smulLS]) rfl
      · exact Fits.sums hp hsE [(1, 5 / 2), (I1 + 1, 5 / 2), (1, 5 / 2), (I2 + 1, 5 / 2)] 0 (by simp; constructor <;> linarith) (by arr_tac2 e3 smulLS) key
      · exact Fits.sums hp hsE [(1, 5 / 2), (I1 + 1, 5 / 2), (M + 1 + 1, -5)] 0 (by simp; constructor <;> linarith) (by arr_tac2 e3 smulLS) (by show VOK _ _ []; vok_tac)
    · cases m1 <;> cases m2
      · exact Fits.sums hp hsE [(1, 5 / 2), (I1 + 1, 5 / 2), (M + 1 + 1, -5)] 0 (by simp; constructor <;> linarith) (by arr_tac2 e3 smulLS) (by show VOK _ _ []; vok_tac)
      · exact Fits.sums hp hsE [(1, 5 / 2), (I1 + 1, 5 / 2), (1, 5 / 2), (I2 + 1, 5 / 2)] 0 (by simp; constructor <;> linarith) (by arr_tac2 e3 smulLS) key
      · exact Fits.none (by simp [arriving, e3, e4, stdPar, smulLS]) rfl
      · exact Fits.sums hp hsE [(1, 5 / 2), (I2 + 1, 5 / 2), (M + 1 + 1, -5)] 0 (by simp; constructor <;> linarith) (by arr_tac2 e3 smulLS) (by show VOK _ _ []; vok_tac)
    · cases m1 <;> cases m2
      · exact Fits.none (by simp [arriving, e3, e4, stdPar, smulLS]) rfl
      · exact Fits.sums hp hsE [(1, 5 / 2), (I2 + 1, 5 / 2), (M + 1 + 1, -5)] 0 (by simp; constructor <;> linarith) (by arr_tac2 e3 smulLS) (by show VOK _ _ []; vok_tac)
      · exact Fits.sums hp hsE [(1, 5 / 2), (I1 + 1, 5 / 2), (M + 1 + 1, -5)] 0 (by simp; constructor <;> linarith) (by arr_tac2 e3 smulLS) (by show VOK _ _ []; vok_tac)
      · exact Fits.sums hp hsE [(1, 5 / 2), (I1 + 1, 5 / 2), (1, 5 / 2), (I2 + 1, 5 / 2)] 0 (by simp; constructor <;> linarith) (by arr_tac2 e3 smulLS) key

set_option maxHeartbeats 4000000 in
/-- The signed product, with the exact answer. -/
theorem pred_smul (H : TimeHeap ℝ) {enc : Encoder ℝ} (h1 : 1 ≤ enc.Tmin) (h2 : 0 < enc.Tcod) {dt : ℝ} (hs : Sane Real.exp dt) (name : Option String)
    (m1 m2 : Bool) {v1 v2 : ℝ} (hv1 : 0 < v1 ∧ v1 < 1) (hv2 : 0 < v2 ∧ v2 < 1) (h5 : -20 * Real.log v1 + -20 * Real.log v2 + 2 * dt ≤ 341) (h6 : enc.Tcod + 2 * dt ≤ 500) (t1 t2 : ℝ) :
    PredEnds H Real.exp enc dt (signedMultiplierNetwork enc name World.empty).2 0 [.value v1 (bif m1 then 13 else 12) t1, .value v2 (bif m2 then 15 else 14) t2]
      (fun log => ∃ q, log 16 = some (off (m1 != m2) [q, q + enc.Tmin + up dt (enc.Tcod * Real.exp (-(up dt (-20 * Real.log v1) + up dt (-20 * Real.log v2)) / 20))]) ∧
        log 17 = some (off (m1 == m2) [q, q + enc.Tmin + up dt (enc.Tcod * Real.exp (-(up dt (-20 * Real.log v1) + up dt (-20 * Real.log v2)) / 20))])) := by
  have hdt := hs.pos
  have hI1 := mul_pos hv1.1 h2
  have hI2 := mul_pos hv2.1 h2
  have l1 : 0 ≤ -20 * Real.log v1 := by have := Real.log_nonpos hv1.1.le hv1.2.le; linarith
  have l2 : 0 ≤ -20 * Real.log v2 := by have := Real.log_nonpos hv2.1.le hv2.2.le; linarith
  obtain ⟨D1, hD1⟩ : ∃ D1, D1 = up dt (-20 * Real.log v1) := ⟨_, rfl⟩
  obtain ⟨D2, hD2⟩ : ∃ D2, D2 = up dt (-20 * Real.log v2) := ⟨_, rfl⟩
  obtain ⟨D3, hD3⟩ : ∃ D3, D3 = up dt (enc.Tcod * Real.exp (-(D1 + D2) / 20)) := ⟨_, rfl⟩
  rw [← hD1, ← hD2, ← hD3]
  have q1 := le_up hdt (-20 * Real.log v1)
  have q2 := up_lt hdt (-20 * Real.log v1)
  have r1 := le_up hdt (-20 * Real.log v2)
  have r2 := up_lt hdt (-20 * Real.log v2)
  rw [← hD1] at q1 q2
  rw [← hD2] at r1 r2
  have c1 := le_up hdt (enc.Tcod * Real.exp (-(D1 + D2) / 20))
  rw [← hD3] at c1
  have he := Real.exp_pos (-(D1 + D2) / 20)
  have c0 : 0 < enc.Tcod * Real.exp (-(D1 + D2) / 20) := by positivity
  obtain ⟨I1, e1⟩ : ∃ I1, I1 = enc.Tmin + v1 * enc.Tcod := ⟨_, rfl⟩
  obtain ⟨I2, e2⟩ : ∃ I2, I2 = enc.Tmin + v2 * enc.Tcod := ⟨_, rfl⟩
  obtain ⟨M, hM⟩ : ∃ M, M = max I1 I2 := ⟨_, rfl⟩
  have key := smul_pred H h1 h2 hs name m1 m2 ⟨hv1.1.le, hv1.2.le⟩ ⟨hv2.1.le, hv2.2.le⟩ t1 t2 e1 e2 hM [M + 1 + 3 + D1] [] [M + 1 + 4 + D1 + D2] [M + 1 + 5 + D1 + D2 + D3]
    [M + 1 + 6 + D1 + D2, M + 1 + 6 + D1 + D2 + enc.Tmin + D3] (off (m1 != m2) [M + 8 + D1 + D2, M + 8 + D1 + D2 + enc.Tmin + D3])
    (off (m1 == m2) [M + 8 + D1 + D2, M + 8 + D1 + D2 + enc.Tmin + D3]) [] ?_ ?_
  · obtain ⟨N, st, a, b⟩ := key
    exact ⟨N, st, a, M + 8 + D1 + D2, b⟩
  · intro E hexp hE e3 e4 x hx
    subst hE
    refine mul_fits hexp h1 h2 (by rw [hexp]; exact hs) e3 e4 hv1 hv2 (by linarith) (by linarith) ?_ (by linarith) h6 hD1 hD2 hD3 x hx
    rw [hM, max_add_add_right]
  · intro E hsE e3 e4 x hx
    have hm1 : I1 ≤ M := by rw [hM]; exact le_max_left _ _
    have hm2 : I2 ≤ M := by rw [hM]; exact le_max_right _ _
    have g1 : 1 ≤ I1 := by linarith
    have g2 : 1 ≤ I2 := by linarith
    have hq : D1 + D2 < 341 := by linarith
    have hD1' : 0 ≤ D1 := by linarith
    have hD2' : 0 ≤ D2 := by linarith
    have hD3' : 0 < D3 := by linarith
    unfold smulOuter pmulSyns at e3
    simp only [List.cons_append, List.nil_append] at e3
    simp only [List.mem_cons, List.not_mem_nil, or_false] at hx
    have hp := e4 x (by omega)
    have hMor := max_choice I1 I2
    rw [← hM] at hMor
    clear hD1 hD2 hD3 e1 e2 hM h5 h6 l1 l2 q1 q2 r1 r2 c1 c0 he
    have pairFit : ∀ x, E.net.par x = stdPar → ∀ (inj : List (ℕ × ℝ)) (LS : ℕ → List ℝ), [Item.hit (M + 8 + D1 + D2) .V 10, Item.hit (M + 8 + D1 + D2 + enc.Tmin + D3) .V 10].Perm (arriving E.net inj LS x) →
        LS x = [M + 8 + D1 + D2, M + 8 + D1 + D2 + enc.Tmin + D3] → Fits E inj LS x := fun x hp inj LS ha hL =>
      Fits.pair hp hsE (a := M + 8 + D1 + D2) (b := M + 8 + D1 + D2 + enc.Tmin + D3) (by linarith) ha hL
    have muteFit : ∀ x, E.net.par x = stdPar → ∀ (inj : List (ℕ × ℝ)) (LS : ℕ → List ℝ), [Item.hit (M + 2) .V (-20), Item.hit (M + 8 + D1 + D2) .V 10, Item.hit (M + 8 + D1 + D2 + enc.Tmin + D3) .V 10].Perm (arriving E.net inj LS x) →
        LS x = [] → Fits E inj LS x := fun x hp inj LS ha hL =>
      Fits.sums hp hsE [(M + 2, -20), (M + 8 + D1 + D2, 10), (M + 8 + D1 + D2 + enc.Tmin + D3, 10)] 0 (by simp; refine ⟨?_, ?_, ?_⟩ <;> linarith) ha (by rw [hL]; vok_tac)
    rcases hx with rfl | rfl | rfl
    · cases m1 <;> cases m2
      · exact pairFit 16 hp _ _ (by arr_tac2 e3 smulLS) rfl
      · exact muteFit 16 hp _ _ (by arr_tac2 e3 smulLS) rfl
      · exact muteFit 16 hp _ _ (by arr_tac2 e3 smulLS) rfl
      · exact pairFit 16 hp _ _ (by arr_tac2 e3 smulLS) rfl
    · cases m1 <;> cases m2
      · exact muteFit 17 hp _ _ (by arr_tac2 e3 smulLS) rfl
      · exact pairFit 17 hp _ _ (by arr_tac2 e3 smulLS) rfl
      · exact pairFit 17 hp _ _ (by arr_tac2 e3 smulLS) rfl
      · exact muteFit 17 hp _ _ (by arr_tac2 e3 smulLS) rfl
    · refine Fits.sums hp hsE [(350, 5 / 2), (I1 + 350, 5 / 2), (350, 5 / 2), (I2 + 350, 5 / 2), (M + 8 + D1 + D2 + 1, -5), (M + 8 + D1 + D2 + enc.Tmin + D3 + 1, -5)] 0
        (by simp; refine ⟨?_, ?_, ?_, ?_⟩ <;> linarith) (by cases m1 <;> cases m2 <;> arr_tac2 e3 smulLS) ?_
      show VOK _ _ []
      rcases hMor with h | h
      · subst h; vok_tac
      · subst h; vok_tac

/-- **C89.** In the predictive simulator, a `SignedMultiplierNetwork` that is given two signed values with magnitudes strictly between 0 and 1
(product above about `4e-8`) shows their product: the magnitude on the rail of its sign, nothing on the other rail. -/
theorem C89_signed_multiplier (H : TimeHeap ℝ) {enc : Encoder ℝ} (h1 : 1 ≤ enc.Tmin) (h2 : 0 < enc.Tcod) {dt : ℝ} (hs : Sane Real.exp dt) (name : Option String)
    {x1 x2 : ℝ} (hx1 : x1 ≠ 0) (hx1' : |x1| < 1) (hx2 : x2 ≠ 0) (hx2' : |x2| < 1) (h5 : -20 * Real.log |x1 * x2| + 2 * dt ≤ 341) (h6 : enc.Tcod + 2 * dt ≤ 500) :
    let p := (signedMultiplierNetwork enc name World.empty).1
    let w := (signedMultiplierNetwork enc name World.empty).2
    PredEnds H Real.exp enc dt w p.mod [giveSigned x1 p.input1Plus p.input1Minus, giveSigned x2 p.input2Plus p.input2Minus] (fun log =>
      ShowsSigned enc (max dt (|x1 * x2| * enc.Tcod * (dt / 10))) (log p.outputPlus) (log p.outputMinus) (x1 * x2)) := by
  intro p w
  show PredEnds H Real.exp enc dt w 0 [.value |x1| (if x1 < 0 then 13 else 12) 0, .value |x2| (if x2 < 0 then 15 else 14) 0] (fun log =>
      ShowsSigned enc (max dt (|x1 * x2| * enc.Tcod * (dt / 10))) (log 16) (log 17) (x1 * x2))
  have hdt := hs.pos
  have p1 := abs_pos.mpr hx1
  have p2 := abs_pos.mpr hx2
  have habs : |x1 * x2| = |x1| * |x2| := abs_mul _ _
  rw [habs] at h5 ⊢
  generalize hv1 : |x1| = v1 at *
  generalize hv2 : |x2| = v2 at *
  rw [Real.log_mul p1.ne' p2.ne'] at h5
  have key := pred_smul H h1 h2 hs name (decide (x1 < 0)) (decide (x2 < 0)) ⟨p1, hx1'⟩ ⟨p2, hx2'⟩ (by linarith) h6 0 0
  have b1 : (bif decide (x1 < 0) then 13 else 12) = if x1 < 0 then 13 else 12 := by by_cases h : x1 < 0 <;> simp [h]
  have b2 : (bif decide (x2 < 0) then 15 else 14) = if x2 < 0 then 15 else 14 := by by_cases h : x2 < 0 <;> simp [h]
  rw [b1, b2] at key
  have a1 := le_up hdt (-20 * Real.log v1)
  have a2 := up_lt hdt (-20 * Real.log v1)
  have b1 := le_up hdt (-20 * Real.log v2)
  have b2 := up_lt hdt (-20 * Real.log v2)
  set D1 := up dt (-20 * Real.log v1)
  set D2 := up dt (-20 * Real.log v2)
  have c1 := le_up hdt (enc.Tcod * Real.exp (-(D1 + D2) / 20))
  have c2 := up_lt hdt (enc.Tcod * Real.exp (-(D1 + D2) / 20))
  have hv : Real.exp (Real.log v1 + Real.log v2) = v1 * v2 := by rw [Real.exp_add, Real.exp_log p1, Real.exp_log p2]
  have e1 : Real.exp (-(D1 + D2) / 20) ≤ v1 * v2 := by rw [← hv]; exact Real.exp_le_exp.mpr (by linarith)
  have e2 : v1 * v2 * Real.exp (-dt / 10) ≤ Real.exp (-(D1 + D2) / 20) := by
    rw [← hv, ← Real.exp_add]; exact Real.exp_le_exp.mpr (by linarith)
  have e3 : 1 - dt / 10 ≤ Real.exp (-dt / 10) := by have := Real.add_one_le_exp (-dt / 10); linarith
  have f1 := mul_le_mul_of_nonneg_left e1 h2.le
  have f2 := mul_le_mul_of_nonneg_left e2 h2.le
  have f3 := mul_le_mul_of_nonneg_left e3 (mul_pos p1 p2).le
  have f4 := mul_le_mul_of_nonneg_left f3 h2.le
  have he := mul_pos h2 (Real.exp_pos (-(D1 + D2) / 20))
  set D3 := up dt (enc.Tcod * Real.exp (-(D1 + D2) / 20))
  have hshow : ∀ q log, log = some [q, q + enc.Tmin + D3] → Shows enc (max dt (v1 * v2 * enc.Tcod * (dt / 10))) log |x1 * x2| := by
    intro q log hl
    refine ⟨q, q + enc.Tmin + D3, by linarith, hl, ?_⟩
    rw [habs, abs_le]
    have m1 := le_max_left dt (v1 * v2 * enc.Tcod * (dt / 10))
    have m2 := le_max_right dt (v1 * v2 * enc.Tcod * (dt / 10))
    constructor <;> nlinarith
  obtain ⟨N, st, a, q, k1, k2⟩ := key
  refine ⟨N, st, a, ?_⟩
  unfold ShowsSigned
  beta_reduce
  by_cases s1 : x1 < 0 <;> by_cases s2 : x2 < 0
  · rw [if_neg (not_lt.mpr (mul_pos_of_neg_of_neg s1 s2).le), if_neg (not_lt.mpr (mul_pos_of_neg_of_neg s1 s2).le)]
    simp only [s1, s2, decide_true, bne_self_eq_false, off_false, beq_self_eq_true, off_true] at k1 k2
    exact ⟨hshow q _ k1, k2⟩
  · have s2' : 0 < x2 := lt_of_le_of_ne (not_lt.mp s2) (Ne.symm hx2)
    rw [if_pos (mul_neg_of_neg_of_pos s1 s2'), if_pos (mul_neg_of_neg_of_pos s1 s2')]
    simp only [s1, s2, decide_true, decide_false] at k1 k2
    exact ⟨hshow q _ k2, k1⟩
  · have s1' : 0 < x1 := lt_of_le_of_ne (not_lt.mp s1) (Ne.symm hx1)
    rw [if_pos (mul_neg_of_pos_of_neg s1' s2), if_pos (mul_neg_of_pos_of_neg s1' s2)]
    simp only [s1, s2, decide_true, decide_false] at k1 k2
    exact ⟨hshow q _ k2, k1⟩
  · rw [if_neg (not_lt.mpr (mul_nonneg (not_lt.mp s1) (not_lt.mp s2))), if_neg (not_lt.mpr (mul_nonneg (not_lt.mp s1) (not_lt.mp s2)))]
    simp only [s1, s2, decide_false] at k1 k2
    exact ⟨hshow q _ k1, k2⟩

set_option maxHeartbeats 4000000 in
/-- **C89 fails for zero**, as in the other simulator (C51): if one operand is 0, operands on rails of equal sign make the plus rail spike four
times, the first two spikes 2 ms apart; operands on rails of different sign make both rails spike, the plus rail with two spikes 2 ms apart. -/
theorem C89_signed_zero_ambiguous (H : TimeHeap ℝ) {enc : Encoder ℝ} (h1 : 2 < enc.Tmin) (h2 : 0 < enc.Tcod) {dt : ℝ} (hs : Sane Real.exp dt) (name : Option String)
    (m1 m2 : Bool) {v1 v2 : ℝ} (hv1 : 0 ≤ v1 ∧ v1 < 1) (hv2 : 0 ≤ v2 ∧ v2 < 1) (h0 : v1 * v2 = 0) (h7 : 0 < v1 → -20 * Real.log v1 + 2 * dt ≤ 500) (t1 t2 : ℝ) :
    let p := (signedMultiplierNetwork enc name World.empty).1
    let w := (signedMultiplierNetwork enc name World.empty).2
    PredEnds H Real.exp enc dt w p.mod [.value v1 (bif m1 then p.input1Minus else p.input1Plus) t1, .value v2 (bif m2 then p.input2Minus else p.input2Plus) t2] (fun log => ∃ q,
      if m1 = m2 then log p.outputPlus = some [q, q + 2, q + enc.Tmin, q + 2 + enc.Tmin] ∧ Quiet (log p.outputMinus)
      else log p.outputPlus = some [q + enc.Tmin, q + 2 + enc.Tmin] ∧ log p.outputMinus = some [q + 2, q + 2 + enc.Tmin]) := by
  intro p w
  have hdt := hs.pos
  have hI1 := mul_nonneg hv1.1 h2.le
  have hI2 := mul_nonneg hv2.1 h2.le
  obtain ⟨I1, e1⟩ : ∃ I1, I1 = enc.Tmin + v1 * enc.Tcod := ⟨_, rfl⟩
  obtain ⟨I2, e2⟩ : ∃ I2, I2 = enc.Tmin + v2 * enc.Tcod := ⟨_, rfl⟩
  obtain ⟨M, hM⟩ : ∃ M, M = max I1 I2 := ⟨_, rfl⟩
  have key := smul_pred H (by linarith) h2 hs name m1 m2 ⟨hv1.1, hv1.2.le⟩ ⟨hv2.1, hv2.2.le⟩ t1 t2 e1 e2 hM (mulZeroL4 dt (M + 1) v1) [M + 1 + 350] [] []
    [M + 1 + 351, M + 1 + 351 + enc.Tmin]
    (bif m1 == m2 then [M + 351, M + 351 + 2, M + 351 + enc.Tmin, M + 351 + 2 + enc.Tmin] else [M + 351 + enc.Tmin, M + 351 + 2 + enc.Tmin])
    (off (m1 == m2) [M + 351 + 2, M + 351 + 2 + enc.Tmin]) [M + 350] ?_ ?_
  · obtain ⟨N, st, a, b⟩ := key
    refine ⟨N, st, a, M + 351, ?_⟩
    cases m1 <;> cases m2 <;> exact b
  · intro E hexp hE e3 e4 x hx
    subst hE
    refine mul_fits_zero hexp (by linarith) h2 (by rw [hexp]; exact hs) e3 e4 hv1 hv2 h0 (by linarith) (by linarith) ?_ h7 x hx
    rw [hM, max_add_add_right]
  · intro E hsE e3 e4 x hx
    have hm1 : I1 ≤ M := by rw [hM]; exact le_max_left _ _
    have hm2 : I2 ≤ M := by rw [hM]; exact le_max_right _ _
    have g1 : 1 ≤ I1 := by linarith
    have g2 : 1 ≤ I2 := by linarith
    unfold smulOuter pmulSyns at e3
    simp only [List.cons_append, List.nil_append] at e3
    simp only [List.mem_cons, List.not_mem_nil, or_false] at hx
    have hp := e4 x (by omega)
    have hMor := max_choice I1 I2
    rw [← hM] at hMor
    clear e1 e2 hM h7
    rcases hx with rfl | rfl | rfl
    · have same : ∀ (inj : List (ℕ × ℝ)) (LS : ℕ → List ℝ), [Item.hit (M + 351) .V 10, Item.hit (M + 351 + enc.Tmin) .V 10, Item.hit (M + 351 + 2) .V 10, Item.hit (M + 351 + 2 + enc.Tmin) .V 10].Perm (arriving E.net inj LS 16) →
          LS 16 = [M + 351, M + 351 + 2, M + 351 + enc.Tmin, M + 351 + 2 + enc.Tmin] → Fits E inj LS 16 := fun inj LS ha hL =>
        Fits.sums hp hsE [(M + 351, 10), (M + 351 + enc.Tmin, 10), (M + 351 + 2, 10), (M + 351 + 2 + enc.Tmin, 10)] 0 (by simp; refine ⟨?_, ?_, ?_, ?_⟩ <;> linarith) ha (by rw [hL]; vok_tac)
      have diff : ∀ (inj : List (ℕ × ℝ)) (LS : ℕ → List ℝ), [Item.hit (M + 2) .V (-20), Item.hit (M + 351) .V 10, Item.hit (M + 351 + enc.Tmin) .V 10, Item.hit (M + 351 + 2) .V 10, Item.hit (M + 351 + 2 + enc.Tmin) .V 10].Perm (arriving E.net inj LS 16) →
          LS 16 = [M + 351 + enc.Tmin, M + 351 + 2 + enc.Tmin] → Fits E inj LS 16 := fun inj LS ha hL =>
        Fits.sums hp hsE [(M + 2, -20), (M + 351, 10), (M + 351 + enc.Tmin, 10), (M + 351 + 2, 10), (M + 351 + 2 + enc.Tmin, 10)] 0 (by simp; refine ⟨?_, ?_, ?_, ?_, ?_⟩ <;> linarith) ha (by rw [hL]; vok_tac)
      cases m1 <;> cases m2
      · exact same _ _ (by arr_tac2 e3 smulLS) rfl
      · exact diff _ _ (by arr_tac2 e3 smulLS) rfl
      · exact diff _ _ (by arr_tac2 e3 smulLS) rfl
      · exact same _ _ (by arr_tac2 e3 smulLS) rfl
    · have same : ∀ (inj : List (ℕ × ℝ)) (LS : ℕ → List ℝ), [Item.hit (M + 2) .V (-20), Item.hit (M + 351 + 2) .V 10, Item.hit (M + 351 + 2 + enc.Tmin) .V 10].Perm (arriving E.net inj LS 17) →
          LS 17 = [] → Fits E inj LS 17 := fun inj LS ha hL =>
        Fits.sums hp hsE [(M + 2, -20), (M + 351 + 2, 10), (M + 351 + 2 + enc.Tmin, 10)] 0 (by simp; refine ⟨?_, ?_, ?_⟩ <;> linarith) ha (by rw [hL]; vok_tac)
      have diff : ∀ (inj : List (ℕ × ℝ)) (LS : ℕ → List ℝ), [Item.hit (M + 351 + 2) .V 10, Item.hit (M + 351 + 2 + enc.Tmin) .V 10].Perm (arriving E.net inj LS 17) →
          LS 17 = [M + 351 + 2, M + 351 + 2 + enc.Tmin] → Fits E inj LS 17 := fun inj LS ha hL =>
        Fits.pair hp hsE (by linarith) ha hL
      cases m1 <;> cases m2
      · exact same _ _ (by arr_tac2 e3 smulLS) rfl
      · exact diff _ _ (by arr_tac2 e3 smulLS) rfl
      · exact diff _ _ (by arr_tac2 e3 smulLS) rfl
      · exact same _ _ (by arr_tac2 e3 smulLS) rfl
    · have same : ∀ (inj : List (ℕ × ℝ)) (LS : ℕ → List ℝ) (ws : List (ℝ × ℝ)), (∀ p ∈ ws, M + 350 < p.1 ∧ p.2 < 0) →
          ((([(350, 5 / 2), (I1 + 350, 5 / 2), (350, 5 / 2), (I2 + 350, 5 / 2)] : List (ℝ × ℝ)) ++ ws).map (fun p => Item.hit p.1 .V p.2)).Perm (arriving E.net inj LS 18) →
          LS 18 = [M + 350] → Fits E inj LS 18 := by
        intro inj LS ws hws ha hL
        refine Fits.sums hp hsE _ 0 ?_ ha ?_
        · intro p hp
          rcases List.mem_append.mp hp with hp | hp
          · simp only [List.mem_cons, List.not_mem_nil, or_false] at hp
            rcases hp with rfl | rfl | rfl | rfl <;> simp only <;> linarith
          · linarith [(hws p hp).1]
        · rw [hL]
          have z1 : ∀ t, t ≤ M + 350 → sumIn ws 0 t = 0 := fun t ht => sumIn_late fun p hp => lt_of_le_of_lt ht (hws p hp).1
          have z2 : ∀ lo t, sumIn ws lo t ≤ 0 := by
            intro lo t
            unfold sumIn
            clear ha z1
            induction ws with
            | nil => simp
            | cons p ws ih =>
              rw [List.map_cons, List.sum_cons]
              have := ih (fun q hq => hws q (by simp [hq]))
              have hp := (hws p (by simp)).2
              split <;> linarith
          have base : VOK [(350, (5 / 2 : ℝ)), (I1 + 350, 5 / 2), (350, 5 / 2), (I2 + 350, 5 / 2)] 0 [M + 350] := by
            rcases hMor with h | h
            · subst h; vok_tac
            · subst h; vok_tac
          obtain ⟨w1, w2, w3, w4⟩ := base
          refine ⟨w1, fun t ht => ?_, ?_, fun t => ?_⟩
          · rw [sumIn_append, z1 t ht.le, add_zero]; exact w2 t ht
          · rw [sumIn_append, z1 _ le_rfl, add_zero]; exact w3
          · rw [sumIn_append]; linarith [w4 t, z2 (M + 350) t]
      cases m1 <;> cases m2
      · exact same _ _ [(M + 351 + 1, -5), (M + 351 + 2 + 1, -5), (M + 351 + enc.Tmin + 1, -5), (M + 351 + 2 + enc.Tmin + 1, -5)] (by simp; refine ⟨?_, ?_, ?_, ?_⟩ <;> linarith) (by arr_tac2 e3 smulLS) rfl
      · exact same _ _ [(M + 351 + enc.Tmin + 1, -5), (M + 351 + 2 + enc.Tmin + 1, -5), (M + 351 + 2 + 1, -5), (M + 351 + 2 + enc.Tmin + 1, -5)] (by simp; repeat' (first | linarith | apply And.intro)) (by arr_tac2 e3 smulLS) rfl
      · exact same _ _ [(M + 351 + enc.Tmin + 1, -5), (M + 351 + 2 + enc.Tmin + 1, -5), (M + 351 + 2 + 1, -5), (M + 351 + 2 + enc.Tmin + 1, -5)] (by simp; repeat' (first | linarith | apply And.intro)) (by arr_tac2 e3 smulLS) rfl
      · exact same _ _ [(M + 351 + 1, -5), (M + 351 + 2 + 1, -5), (M + 351 + enc.Tmin + 1, -5), (M + 351 + 2 + enc.Tmin + 1, -5)] (by simp; refine ⟨?_, ?_, ?_, ?_⟩ <;> linarith) (by arr_tac2 e3 smulLS) rfl

/-- Concrete cases: 1/2 times -1/2, and 0 times 1/2, with the default parameters. -/
example (H : TimeHeap ℝ) : PredEnds H Real.exp ⟨10, 100⟩ (1 / 100) (signedMultiplierNetwork (⟨10, 100⟩ : Encoder ℝ) none World.empty).2 0
    [giveSigned (1 / 2) 12 13, giveSigned (-1 / 2) 14 15] (fun log =>
      ShowsSigned ⟨10, 100⟩ (max (1 / 100) (|1 / 2 * (-1 / 2)| * 100 * (1 / 100 / 10))) (log 16) (log 17) (1 / 2 * (-1 / 2))) := by
  refine C89_signed_multiplier H (enc := ⟨10, 100⟩) (by norm_num) (by norm_num) (sane_real (by norm_num) (by norm_num)) none (x1 := 1 / 2) (x2 := -1 / 2)
    (by norm_num) (by rw [abs_lt]; norm_num) (by norm_num) (by rw [abs_lt]; norm_num) ?_ (by norm_num)
  rw [show |(1 / 2 : ℝ) * (-1 / 2)| = 1 / 4 by rw [abs_of_neg] <;> norm_num]
  have := Real.one_sub_inv_le_log_of_pos (show (0 : ℝ) < 1 / 4 by norm_num)
  norm_num at this ⊢
  linarith

example (H : TimeHeap ℝ) : PredEnds H Real.exp ⟨10, 100⟩ (1 / 100) (signedMultiplierNetwork (⟨10, 100⟩ : Encoder ℝ) none World.empty).2 0
    [.value 0 12 0, .value (1 / 2) 15 0] (fun log => ∃ q, log 16 = some [q + 10, q + 2 + 10] ∧ log 17 = some [q + 2, q + 2 + 10]) :=
  C89_signed_zero_ambiguous H (enc := ⟨10, 100⟩) (by norm_num) (by norm_num) (sane_real (by norm_num) (by norm_num)) none false true (v1 := 0) (v2 := 1 / 2) (by norm_num) (by norm_num)
    (by norm_num) (fun h => absurd h (lt_irrefl _)) 0 0

end Axon
