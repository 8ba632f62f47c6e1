import Verif.Props.PredLin

/-! # Linear combinators inside larger networks, in the predictive simulator -/
set_option linter.unusedSectionVars false
namespace Axon
open Spec
variable {K : Type*} [Field K] [LinearOrder K] [IsStrictOrderedRing K] [FloorRing K]

set_option maxHeartbeats 1000000 in
/-- A linear combinator, with any inputs: its trains exist, and the output rails are as expected. -/
theorem lin_block {exp : K → K} {enc : Encoder K} (h1 : 1 ≤ enc.Tmin) (h2 : 0 < enc.Tcod) {dt : K} (hs : Sane exp dt) (hd : dt ≤ 1)
    (h5 : enc.Tmax + 2 * dt ≤ 500) {N : ℕ} (hN1 : 1 ≤ N) {neg : ℕ → Bool} {a b : ℕ → K} {c : ℕ → K}
    (hab : ∀ i < N, a i + enc.Tmin ≤ b i) {PP QQ : K}
    (hP : (((List.range N).filter (toPlus c neg)).map (fun i => |c i| * (b i - a i - enc.Tmin))).sum = PP) (hPA : PP + (up dt enc.Tmax - enc.Tmax) ≤ enc.Tcod)
    (hQ : (((List.range N).filter (fun i => !toPlus c neg i)).map (fun i => |c i| * (b i - a i - enc.Tmin))).sum = QQ)
    (hQA : QQ + (up dt enc.Tmax - enc.Tmax) ≤ enc.Tcod) :
    ∃ LS : ℕ → List K, (∀ E : PEnv K, E.exp = exp → E.dt = dt → E.net.syns.Perm (linSyns enc N c N) → (∀ x < 40 + 6 * N, E.net.par x = stdPar) → ∀ x < 40 + 6 * N,
        Fits E ((List.range N).flatMap (fun i => [(40 + 6 * i + (bif neg i then 1 else 0), a i), (40 + 6 * i + (bif neg i then 1 else 0), b i)])) LS x) ∧
      ∃ y D, (∀ i < N, b i ≤ y) ∧ D = up dt (enc.Tmax - QQ) - up dt (enc.Tmax - PP) ∧
        (0 ≤ D → LS 6 = [y, y + enc.Tmin + D] ∧ LS 7 = []) ∧
        (D ≤ -(1 / 100) → LS 7 = [y, y + enc.Tmin - D] ∧ LS 6 = []) ∧
        (D < 0 → -(1 / 100) < D → LS 6 = [] ∧ LS 7 = []) := by
  have hdt := hs.pos
  have hTm : enc.Tmax = enc.Tmin + enc.Tcod := rfl
  have term : ∀ i < N, 0 ≤ |c i| * (b i - a i - enc.Tmin) := fun i hi => mul_nonneg (abs_nonneg _) (by have := hab i hi; linarith)
  have hp0 : 0 ≤ PP := by
    rw [← hP]
    refine List.sum_nonneg fun z hz => ?_
    obtain ⟨i, hi, rfl⟩ := List.mem_map.mp hz
    exact term i (by simpa using (List.mem_filter.mp hi).1)
  have hq0 : 0 ≤ QQ := by
    rw [← hQ]
    refine List.sum_nonneg fun z hz => ?_
    obtain ⟨i, hi, rfl⟩ := List.mem_map.mp hz
    exact term i (by simpa using (List.mem_filter.mp hi).1)
  obtain ⟨i0, hi0, hmax⟩ : ∃ i0 < N, ∀ i < N, b i ≤ b i0 := by
    obtain ⟨i0, h, h'⟩ := Finset.exists_max_image (Finset.range N) b ⟨0, by simp; omega⟩
    exact ⟨i0, by simpa using h, fun j hj => h' j (by simpa using hj)⟩
  have hP1 := le_up hdt (enc.Tmax - PP)
  have hQ1 := le_up hdt (enc.Tmax - QQ)
  have hP2 : up dt (enc.Tmax - PP) ≤ up dt enc.Tmax := up_le_up hdt (by linarith)
  have hQ2 : up dt (enc.Tmax - QQ) ≤ up dt enc.Tmax := up_le_up hdt (by linarith)
  have hA1 := le_up hdt enc.Tmax
  set S := b i0 + 2 with hS
  set A := up dt enc.Tmax with hAdef
  set P' := up dt (enc.Tmax - PP) with hP'
  set Q' := up dt (enc.Tmax - QQ) with hQ'
  set B := up dt (enc.Tmin + enc.Tmax) with hB
  have hB1 : enc.Tmin + enc.Tmax ≤ B := le_up hdt _
  have hAT := up_lt hdt enc.Tmax
  set R := max (S + 1 + P') (S + 1 + Q') + A + 8 with hR
  have hRS' : ∀ z, R ≤ z → S ≤ z := by
    intro z hz
    have := le_max_left (S + 1 + P') (S + 1 + Q')
    linarith
  have hC0 : B - P' = up dt (enc.Tmin + (S + 1 + A - (S + 1 + P')) - (A - enc.Tmax)) := by
    rw [show enc.Tmin + (S + 1 + A - (S + 1 + P')) - (A - enc.Tmax) = enc.Tmin + enc.Tmax - P' by ring, hP', up_sub_up hdt]
  have hC1 : B - Q' = up dt (enc.Tmin + (S + 1 + A - (S + 1 + Q')) - (A - enc.Tmax)) := by
    rw [show enc.Tmin + (S + 1 + A - (S + 1 + Q')) - (A - enc.Tmax) = enc.Tmin + enc.Tmax - Q' by ring, hQ', up_sub_up hdt]
  have ex : ∃ L35 L36 L37 L38 L39 : List K, (∀ E' : PEnv K, Sane E'.exp E'.dt → E'.net.syns = psubSyns enc → (∀ x < 9, E'.net.par x = stdPar) → ∀ x < 9,
      Fits E' [(0, R + 4), (0, R + 4 + (B - P')), (1, R + 4), (1, R + 4 + (B - Q'))] (subLS (R + 4) (R + 4 + (B - P')) (R + 4) (R + 4 + (B - Q')) L35 L36 L37 L38 L39) x) ∧
      ((∃ a b, a + 1 ≤ b ∧ L37 = [a, b] ∧ L38 = []) ∨ (∃ a b, a + 1 ≤ b ∧ L37 = [] ∧ L38 = [a, b]) ∨ (L37 = [] ∧ L38 = [])) ∧
      ∃ y, S ≤ y ∧ (0 ≤ Q' - P' → L37.map (· + 1) = [y, y + enc.Tmin + (Q' - P')] ∧ L38 = []) ∧
        (Q' - P' ≤ -(1 / 100) → L38.map (· + 1) = [y, y + enc.Tmin - (Q' - P')] ∧ L37 = []) ∧
        (Q' - P' < 0 → -(1 / 100) < Q' - P' → L37 = [] ∧ L38 = []) := by
    rcases le_or_gt 0 (Q' - P') with hD | hD
    · have hlist : ([R + 4 + (B - Q') + 402 / 100, R + 4 + (B - P') + enc.Tmin + 402 / 100].map (· + 1)) =
          [R + 4 + (B - Q') + 402 / 100 + 1, R + 4 + (B - Q') + 402 / 100 + 1 + enc.Tmin + (Q' - P')] := by
        simp only [List.map_cons, List.map_nil]
        congr 2; ring
      rcases le_or_gt (1 / 100) (Q' - P') with h | h
      · exact ⟨_, _, _, _, _, fun E' hs' e3 e4 x hx => sub_fits_plus h1 hs' e3 e4 (by linarith) (by linarith) (by linarith) x hx, Or.inl ⟨_, _, by linarith, rfl, rfl⟩,
          R + 4 + (B - Q') + 402 / 100 + 1, hRS' _ (by linarith), fun _ => ⟨hlist, rfl⟩, fun h => by linarith, fun h => by linarith⟩
      · exact ⟨_, _, _, _, _, fun E' hs' e3 e4 x hx => sub_fits_near h1 hs' e3 e4 (by linarith) (by linarith) (by linarith) (by linarith) x hx, Or.inl ⟨_, _, by linarith, rfl, rfl⟩,
          R + 4 + (B - Q') + 402 / 100 + 1, hRS' _ (by linarith), fun _ => ⟨hlist, rfl⟩, fun h => by linarith, fun h => by linarith⟩
    · have hlist : ([R + 4 + (B - P') + 402 / 100, R + 4 + (B - Q') + enc.Tmin + 402 / 100].map (· + 1)) =
          [R + 4 + (B - P') + 402 / 100 + 1, R + 4 + (B - P') + 402 / 100 + 1 + enc.Tmin - (Q' - P')] := by
        simp only [List.map_cons, List.map_nil]
        congr 2; ring
      rcases le_or_gt (Q' - P') (-(1 / 100)) with h | h
      · exact ⟨_, _, _, _, _, fun E' hs' e3 e4 x hx => sub_fits_minus h1 hs' e3 e4 (by linarith) (by linarith) (by linarith) x hx, Or.inr (Or.inl ⟨_, _, by linarith, rfl, rfl⟩),
          R + 4 + (B - P') + 402 / 100 + 1, hRS' _ (by linarith), fun h => by linarith, fun _ => ⟨hlist, rfl⟩, fun _ h' => by linarith⟩
      · exact ⟨_, _, _, _, _, fun E' hs' e3 e4 x hx => sub_fits_dead h1 hs' e3 e4 (by linarith) (by linarith) (by linarith) (by linarith) x hx, Or.inr (Or.inr ⟨rfl, rfl⟩),
          S, le_rfl, fun h => by linarith, fun h' => by linarith, fun _ _ => ⟨rfl, rfl⟩⟩
  obtain ⟨L35, L36, L37, L38, L39, hsub, hout, y, hSy, o1, o2, o3⟩ := ex
  refine ⟨linLS N (coreLS enc.Tmin A S (S + 1 + P') (S + 1 + Q') (S + 1 + A) R (B - P') (B - Q') L35 L36 L37 L38 L39) (fun i => linChanLS (neg i) (a i) (b i)), ?_,
    y, Q' - P', fun i hi => by have := hmax i hi; linarith, rfl, fun hD => ?_, fun hD => ?_, fun hD hD' => ?_⟩
  · intro E e1 e2 e3 e4 x hx
    refine lin_fits h1 h2 hs h5 hN1 hab (S := S) (fun i hi => by have := hmax i hi; linarith) ⟨i0, hi0, rfl⟩ hP (by linarith) hQ (by linarith) _ rfl rfl rfl ?_ e1 e2 e3 e4 x hx
    intro E hsE hE e3 e4 x hx x0 x1 x9
    subst hE
    exact lin_core_fits h1 h2 hsE hd h5 e3 e4 hAdef rfl (by linarith) (by linarith) (by linarith) (by linarith) hR hC0 hC1 L35 L36 L37 L38 L39 hsub hout x hx x0 x1 x9
  · rw [linLS_core (by omega), linLS_core (by omega)]
    obtain ⟨u, v⟩ := o1 hD
    exact ⟨u, by show L38.map (· + 1) = []; rw [v]; rfl⟩
  · rw [linLS_core (by omega), linLS_core (by omega)]
    obtain ⟨u, v⟩ := o2 hD
    exact ⟨u, by show L37.map (· + 1) = []; rw [v]; rfl⟩
  · rw [linLS_core (by omega), linLS_core (by omega)]
    obtain ⟨u, v⟩ := o3 hD hD'
    exact ⟨by show L37.map (· + 1) = []; rw [u]; rfl, by show L38.map (· + 1) = []; rw [v]; rfl⟩

end Axon
