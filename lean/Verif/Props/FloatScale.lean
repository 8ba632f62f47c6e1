import Verif.Proofs.FloatScale
import Verif.Props.FloatMem

/-! # C111: the scalar multiplier in floating-point arithmetic -/
set_option linter.unusedSectionVars false
namespace Axon
open Spec

theorem scalarMultiplierFl_neurons (φ : Double) (enc : Encoder Double) (name) : (scalarMultiplierFl φ enc name World.empty).2.neurons 0 = .ok (List.range 6) := rfl

theorem scalarMultiplierFl_net (φ : Double) (enc : Encoder Double) (name) : ((scalarMultiplierFl φ enc name World.empty).2.net (List.range 6)).syns =
    [⟨0, 1, weFl, tsynFl, .V⟩, ⟨0, 2, Fl.of (1 / 2) * weFl, tsynFl, .V⟩, ⟨1, 1, wiFl, tsynFl, .V⟩, ⟨1, 3, φ * enc.waccFl, tsynFl + enc.Tmin, .ge⟩,
      ⟨2, 4, φ * enc.waccFl, Fl.of 2 * tsynFl, .ge⟩, ⟨3, 4, -(φ * enc.waccFl), tsynFl, .ge⟩, ⟨4, 5, weFl, tsynFl + enc.Tmin, .V⟩,
      ⟨3, 4, enc.waccFl, tsynFl, .ge⟩, ⟨3, 5, weFl, Fl.of 2 * tsynFl, .V⟩] := rfl

set_option maxHeartbeats 4000000 in
/-- **C111 (rescaling).** In Python floats: a `ScalarMultiplierNetwork` with factor `φ > 0` that is given the value `v` at `t0` emits `φ * v`, up to
`8 φ + 7` simulation steps, if `v` and the room left below the largest value `Tmax / (φ Tcod)` are at least nine steps - whatever the order in which
the simulator hands over simultaneous spikes (the weights `-φ wacc` and `wacc` that reach the accumulator together do not commute in floats). -/
theorem C111_rescale (H : EventHeap Double) {ord : ℕ → List ℕ → List ℕ} (hord : SetOrder ord) {enc : Encoder Double} {dt : Double}
    (hdt : 0 < dt.val) (hdt1 : dt.val ≤ 1) (hC : 0 < enc.Tcod.val) (hmin : 1 + 12 * dt.val ≤ enc.Tmin.val) (hmax : enc.Tmax.val ≤ 2 ^ 24 * dt.val)
    (name : Option String) {φ v t0 T : Double} (hφ : 0 < φ.val) (hslow : enc.Tmax.val ≤ 2 ^ 23 * (φ.val * dt.val))
    (hv0 : 9 * dt.val ≤ v.val * enc.Tcod.val) (hv1 : v.val ≤ 1) (hφv : φ.val * (v.val * enc.Tcod.val + 9 * dt.val) ≤ enc.Tmax.val)
    (ht : 0 ≤ t0.val) (ht' : t0.val ≤ 2 ^ 48 * dt.val)
    (hT : t0.val + 2 * enc.Tmin.val + enc.Tmax.val + enc.Tmax.val / φ.val + 4 + 20 * dt.val ≤ T.val) :
    let p := (scalarMultiplierFl φ enc name World.empty).1
    let w := (scalarMultiplierFl φ enc name World.empty).2
    ∃ st, sessionFl H ord enc dt T w p.1 [.value v p.2.1 t0] = .ok st ∧
      CarriesFl enc ((8 * φ.val + 7) * dt.val / enc.Tcod.val) (st.spikeLog p.2.2) (φ.val * v.val) := by
  intro p w
  have hT0 : 0 ≤ enc.Tmin.val := by linarith
  have hv0' : 0 ≤ v.val := by
    by_contra hc
    push Not at hc
    have := mul_neg_of_neg_of_pos hc hC
    linarith
  have hmm := tmin_le (e := enc) hC.le
  have hTm : 0 < enc.Tmax.val := by linarith
  obtain ⟨q, x, y, n, m, pp, hq, hx, hy, hn, hm, hpp, B1, B2, B3, B4, B5, B6, B7, B8, B9, B10, B11⟩ := units hdt hdt1 hC hT0 hmax hv0' hv1 ht ht'
  set τ := t0 + (enc.Tmin + v * enc.Tcod) with hτ
  obtain ⟨nl, hnl⟩ : ∃ q, q = enc.Tmax.val / (φ.val * dt.val) := ⟨_, rfl⟩
  have u0 : ∀ a : ℚ, a / dt.val * dt.val = a := fun a => div_mul_cancel₀ _ hdt.ne'
  have mv : ∀ a b : ℚ, a * dt.val ≤ b * dt.val → a ≤ b := fun a b h => le_of_mul_le_mul_right h hdt
  have qm : q * dt.val = 1 := by rw [hq, u0]
  have xm : x * dt.val = t0.val := by rw [hx, u0]
  have nm : n * dt.val = enc.Tmax.val := by rw [hn, u0]
  have mm : m * dt.val = enc.Tmin.val := by rw [hm, u0]
  have pm : pp * dt.val = v.val * enc.Tcod.val := by rw [hpp, u0]
  have nlm : nl * dt.val = enc.Tmax.val / φ.val := by rw [hnl]; field_simp
  have hFn : φ.val * nl = n := by rw [hnl, hn]; field_simp
  have A1 : 9 ≤ pp := mv _ _ (by linarith)
  have A2 : pp + 9 ≤ nl := by
    have h1 : φ.val * ((pp + 9) * dt.val) ≤ φ.val * (nl * dt.val) := by
      rw [nlm, mul_div_cancel₀ _ hφ.ne', add_mul, pm]; exact hφv
    exact mv _ _ (le_of_mul_le_mul_left h1 hφ)
  have A3 : q + 12 ≤ m := mv _ _ (by linarith)
  have A4 : nl ≤ 2 ^ 23 := by rw [hnl, div_le_iff₀ (by positivity)]; exact hslow
  have d1 : (tsynFl : Double).val / dt.val = q := by rw [tsyn_val, hq]
  have d2 : (Fl.of 2 * tsynFl : Double).val / dt.val = 2 * q := by rw [two_tsyn, hq]; ring
  have dpos : 0 ≤ (tsynFl : Double).val := by rw [tsyn_val]; norm_num
  have dpos2 : 0 ≤ (Fl.of 2 * tsynFl : Double).val := by rw [two_tsyn]; norm_num
  obtain ⟨D, hD⟩ : ∃ D : Double, D = tsynFl + enc.Tmin := ⟨_, rfl⟩
  have D0 := abs_le.mp (fl_small (x := (tsynFl : Double).val + enc.Tmin.val) (t := dt.val) (by rw [tsyn_val, abs_of_nonneg (by linarith)]; linarith))
  have Dv : D.val = fl 53 ((tsynFl : Double).val + enc.Tmin.val) := by rw [hD]; rfl
  rw [← Dv, tsyn_val] at D0
  have dposD : 0 ≤ D.val := by linarith
  obtain ⟨δ, hδ⟩ : ∃ q, q = D.val / dt.val := ⟨_, rfl⟩
  have δm : δ * dt.val = D.val := by rw [hδ, u0]
  have δ1 : q + m - 1 / 16 ≤ δ := mv _ _ (by linarith)
  have δ2 : δ ≤ q + m + 1 / 16 := mv _ _ (by linarith)
  have big : (2 : ℚ) ^ 48 + 10 * 2 ^ 24 + 100 ≤ 2 ^ 49 := by norm_num
  -- the spikes up to the first accumulator
  obtain ⟨a1, a1i, a1p, a1l, a1u⟩ := arrives_inj (τ := t0) (D := tsynFl) hdt ht dpos (by rw [d1, ← hx]; linarith)
  obtain ⟨b1, b1i, b1p, b1l, b1u⟩ := arrives_inj (τ := τ) (D := tsynFl) hdt (by
    have : 0 ≤ y * dt.val := mul_nonneg (by linarith) hdt.le
    rwa [hy, u0] at this) dpos (by rw [d1, ← hy]; linarith)
  rw [d1, ← hx] at a1l a1u
  rw [d1, ← hy] at b1l b1u
  obtain ⟨c, ci, cj, cl, cu⟩ := arrives (j := a1) (D := tsynFl) hdt dpos (by rw [d1]; linarith)
  rw [d1] at cl cu
  obtain ⟨e, ei, ej, el, eu⟩ := arrives (j := a1) (D := D) hdt dposD (by rw [← hδ]; linarith)
  rw [← hδ] at el eu
  obtain ⟨a, ai, aj, al, au⟩ := arrives (j := b1) (D := Fl.of 2 * tsynFl) hdt dpos2 (by rw [d2]; linarith)
  rw [d2] at al au
  obtain ⟨N, GN, hN, -⟩ := scale_slopes (dt := dt) (enc := enc) (φ := φ) (n := n) (nl := nl) hdt hTm hφ hn hnl (by linarith) B4 (by linarith) A4 (Or.inl rfl)
  obtain ⟨hN1, hN2⟩ := abs_le.mp hN
  obtain ⟨k, k1, k2, k3, k4⟩ := ramp_count GN
  obtain ⟨b, bi, bj, bl, bu⟩ := arrives (j := e + k) (D := tsynFl) hdt dpos (by rw [d1]; push_cast; linarith)
  rw [d1] at bl bu
  obtain ⟨o1, o1i, o1j, o1l, o1u⟩ := arrives (j := e + k) (D := Fl.of 2 * tsynFl) hdt dpos2 (by rw [d2]; push_cast; linarith)
  rw [d2] at o1l o1u
  push_cast at bl bu o1l o1u
  have lt_of : ∀ {a b : ℕ}, (a : ℚ) < b → a < b := fun h => by exact_mod_cast h
  have cb1 : c < b1 := lt_of (by linarith)
  have ab : a < b := lt_of (by linarith)
  have hM : ((b - a : ℕ) : ℚ) = (b : ℚ) - a := by push_cast [ab.le]; ring
  have M1 : (b : ℚ) - a ≤ nl - pp + 15 / 2 := by linarith
  have M2 : nl - pp - 15 / 2 ≤ (b : ℚ) - a := by linarith
  have hlow : ∀ j ≤ b - a, climb (slopeR stdFl dt (0 + φ * enc.waccFl)) 0 j < d10 := fun j hj => k1 j (by
    have h1 : (j : ℚ) ≤ ((b - a : ℕ) : ℚ) := by exact_mod_cast hj
    rw [hM] at h1
    have : (j : ℚ) < (k : ℚ) + 1 := by linarith
    have : j < k + 1 := by exact_mod_cast this
    omega)
  have F1 : φ.val * ((b : ℚ) - a) ≤ n - φ.val * pp + 15 / 2 * φ.val := by
    have := mul_le_mul_of_nonneg_left M1 hφ.le
    linarith
  have F2 : n - φ.val * pp - 15 / 2 * φ.val ≤ φ.val * ((b : ℚ) - a) := by
    have := mul_le_mul_of_nonneg_left M2 hφ.le
    linarith
  have F3 : φ.val * pp + 9 * φ.val ≤ n := by
    have := mul_le_mul_of_nonneg_left A2 hφ.le
    linarith
  have F4 : 0 < φ.val * pp := mul_pos hφ (by linarith)
  have I0 : (([(0, t0), (0, τ)] : List (ℕ × Double)).filter fun q => q.1 = 0) = [(0, t0), (0, τ)] := rfl
  obtain ⟨st, Ls, hP, s1, s2⟩ := lib_runX H hord (enc := enc) hdt (scalarMultiplierFl_neurons φ enc name)
    (fun n hn => by interval_cases n <;> rfl) (by rw [scalarMultiplierFl_net]; simp) (cs := [.value v 0 t0])
    (by simp only [List.mem_cons, List.not_mem_nil, or_false, forall_eq, CallOK]; exact ⟨hv0', hv1⟩) T
    (P := fun Ls => ∃ o2 : ℕ, Ls.getD 5 [] = [o1, o2] ∧ o1 < o2 ∧ o2 ≤ 2 ^ 49 ∧
      (o2 : ℚ) - o1 ≤ m + φ.val * pp + (15 / 2 * φ.val + 6) ∧ m + φ.val * pp - (15 / 2 * φ.val + 6) ≤ (o2 : ℚ) - o1) (by
    intro ch
    -- the order in which the two weights arrive
    obtain ⟨g, hg, hturn⟩ : ∃ g : Double, (g = enc.waccFl ∨ g = 0 + φ * enc.waccFl + enc.waccFl + -(φ * enc.waccFl)) ∧
        ∀ V : Double, (pick (ch 4 b) [(SynKind.ge, -(φ * enc.waccFl)), (SynKind.ge, enc.waccFl)]).foldl addHit ⟨V, 0 + φ * enc.waccFl, 0, 0⟩ = ⟨V, g, 0, 0⟩ := by
      rcases perm_pair (pick_perm (ch 4 b) [(SynKind.ge, -(φ * enc.waccFl)), (SynKind.ge, enc.waccFl)]) with h | h
      · refine ⟨_, Or.inl rfl, fun V => ?_⟩
        rw [h, List.foldl_cons, List.foldl_cons, List.foldl_nil, hitGe, hitGe, add_negD, zero_addD]
      · refine ⟨_, Or.inr rfl, fun V => ?_⟩
        rw [h, List.foldl_cons, List.foldl_cons, List.foldl_nil, hitGe, hitGe]
    obtain ⟨N', -, hN', hcount⟩ := scale_slopes (dt := dt) (enc := enc) (φ := φ) (n := n) (nl := nl) hdt hTm hφ hn hnl (by linarith) B4 (by linarith) A4 hg
    obtain ⟨hN1', hN2'⟩ := abs_le.mp hN'
    obtain ⟨k', r1, r2, r3, r4⟩ := hcount (b - a) (by rw [hM]; linarith) hlow
    rw [hM] at r3 r4
    obtain ⟨o2, o2i, o2j, o2l, o2u⟩ := arrives (j := b + k') (D := D) hdt dposD (by rw [← hδ]; push_cast; linarith)
    rw [← hδ] at o2l o2u
    push_cast at o2l o2u
    have W1 : (o2 : ℚ) - o1 ≤ m + φ.val * pp + (15 / 2 * φ.val + 6) := by linarith
    have W2 : m + φ.val * pp - (15 / 2 * φ.val + 6) ≤ (o2 : ℚ) - o1 := by linarith
    have hk' : (0 : ℚ) ≤ k' := Nat.cast_nonneg _
    have oo : o1 < o2 := lt_of (by linarith)
    have W3 : (o2 : ℚ) ≤ x + 4 * q + 2 * m + nl + n + 20 := by linarith
    have W4 : o2 ≤ 2 ^ 49 := by
      have : (o2 : ℚ) ≤ 2 ^ 49 := by linarith
      exact_mod_cast this
    have W5 : o2 ≤ numStepsFl T dt := by
      refine enough_steps (by omega) ?_
      rw [le_div_iff₀ hdt]
      have := mul_le_mul_of_nonneg_right W3 hdt.le
      linarith
    have hpi : ∀ n : ℕ, ∀ h : ℕ → List (SynKind × Double), ∀ i, (pick (ch n i) (h i)).Perm (h i) := fun n h i => pick_perm _ _
    refine ⟨[[], [a1], [b1], [e + k], [b + k'], [o1, o2]], ⟨o2, rfl, oo, W4, W1, W2⟩, rfl, by simp [oo], by simp; omega, ?_⟩
    intro n hn
    show FitsX stdFl dt (fun i => pick (ch n i) (hitsR (w.net (List.range 6)) dt [(0, t0), (0, τ)] _ n i)) _
    interval_cases n
    · exact (FitsR.silent fun i => hits_eq rfl i).toX (hpi 0 _)
    · refine (FitsR.first (a := a1) (b := b1) (c := c) a1p cj cb1 fun i => ?_).toX (hpi 1 _)
      rw [hits_eq (l := [⟨0, 1, weFl, tsynFl, .V⟩, ⟨1, 1, wiFl, tsynFl, .V⟩]) rfl i]
      rw [List.flatMap_cons, List.flatMap_cons, List.flatMap_nil, contrib_inj2 I0 rfl a1i b1i (by omega), contrib_one rfl rfl ci, List.append_nil]
      by_cases e1 : i = a1 ∨ i = b1
      · rw [if_pos e1, if_pos e1, if_neg (by omega)]; rfl
      · rw [if_neg e1, if_neg e1]; rfl
    · refine (FitsR.second (a := a1) (b := b1) a1p (by omega) fun i => ?_).toX (hpi 2 _)
      rw [hits_eq (l := [⟨0, 2, Fl.of (1 / 2) * weFl, tsynFl, .V⟩]) rfl i, half_we]
      rw [List.flatMap_cons, List.flatMap_nil, contrib_inj2 I0 rfl a1i b1i (by omega), List.append_nil]
    · refine (FitsR.ramp (a := e) (k := k) (w := φ * enc.waccFl) (by omega) (fun i => ?_) k1 k2).toX (hpi 3 _)
      rw [hits_eq (l := [⟨1, 3, φ * enc.waccFl, tsynFl + enc.Tmin, .ge⟩]) rfl i, ← hD]
      rw [List.flatMap_cons, List.flatMap_nil, contrib_one rfl rfl ei, List.append_nil]
    · have hh : ∀ i, hitsR (w.net (List.range 6)) dt [(0, t0), (0, τ)] (fun n => [[], [a1], [b1], [e + k], [b + k'], [o1, o2]].getD n []) 4 i =
          (if i = a then [(SynKind.ge, φ * enc.waccFl)] else []) ++ ((if i = b then [(SynKind.ge, -(φ * enc.waccFl))] else []) ++ (if i = b then [(SynKind.ge, enc.waccFl)] else [])) := by
        intro i
        rw [hits_eq (l := [⟨2, 4, φ * enc.waccFl, Fl.of 2 * tsynFl, .ge⟩, ⟨3, 4, -(φ * enc.waccFl), tsynFl, .ge⟩, ⟨3, 4, enc.waccFl, tsynFl, .ge⟩]) rfl i]
        rw [List.flatMap_cons, List.flatMap_cons, List.flatMap_cons, List.flatMap_nil, contrib_one rfl rfl ai, contrib_one rfl rfl bi, contrib_one rfl rfl bi, List.append_nil]
      refine FitsX.two (dt := dt) (wl := φ * enc.waccFl) (g := g) (a := a) (b := b) (k := k') (by omega) ab ?_ (fun V => ?_) (fun i h1 h2 => ?_) hlow r1 r2
      · beta_reduce
        have := pick_perm (ch 4 a) (hitsR (w.net (List.range 6)) dt [(0, t0), (0, τ)] (fun n => [[], [a1], [b1], [e + k], [b + k'], [o1, o2]].getD n []) 4 a)
        rw [hh a, if_pos rfl, if_neg (by omega), if_neg (by omega)] at this
        rw [hh a, if_pos rfl, if_neg (by omega), if_neg (by omega)]
        exact List.perm_singleton.mp this
      · beta_reduce
        rw [hh b, if_neg (by omega), if_pos rfl, if_pos rfl]
        exact hturn V
      · beta_reduce
        have := pick_perm (ch 4 i) (hitsR (w.net (List.range 6)) dt [(0, t0), (0, τ)] (fun n => [[], [a1], [b1], [e + k], [b + k'], [o1, o2]].getD n []) 4 i)
        rw [hh i, if_neg h1, if_neg h2, if_neg h2] at this
        rw [hh i, if_neg h1, if_neg h2, if_neg h2]
        exact this.eq_nil
    · refine (FitsR.relay (by show 0 ∉ [o1, o2]; simp; omega) fun i => ?_).toX (hpi 5 _)
      rw [hits_eq (l := [⟨4, 5, weFl, tsynFl + enc.Tmin, .V⟩, ⟨3, 5, weFl, Fl.of 2 * tsynFl, .V⟩]) rfl i, ← hD]
      rw [List.flatMap_cons, List.flatMap_cons, List.flatMap_nil, contrib_one rfl rfl o2i, contrib_one rfl rfl o1i, List.append_nil]
      show _ = if i ∈ [o1, o2] then _ else _
      by_cases e1 : i = o1
      · simp [e1, show o1 ≠ o2 by omega]
      · simp [e1])
  obtain ⟨o2, hL, oo, W4, W1, W2⟩ := hP
  refine ⟨st, s1, (o1 : Double) * dt, (o2 : Double) * dt, ?_, ?_⟩
  · have := s2 5 (by norm_num)
    rw [hL] at this
    exact this
  have hpe : φ.val * pp * dt.val = φ.val * v.val * enc.Tcod.val := by rw [mul_assoc, pm]; ring
  have F5 := mul_le_mul_of_nonneg_right (show φ.val * pp ≤ n by linarith) hdt.le
  have hφb : φ.val ≤ 2 ^ 24 := by
    have : φ.val * 18 ≤ φ.val * nl := mul_le_mul_of_nonneg_left (by linarith) hφ.le
    linarith
  have key := decoded_any (e := enc) (dt := dt) (v := φ.val * v.val) (a := o1) (b := o2) (δ := 15 / 2 * φ.val + 6) hT0 hC hmax hdt
    (by rw [← hpe]; have := mul_pos F4 hdt; linarith) (by rw [← hpe]; linarith) (by omega) W4 (by linarith) (by
    rw [← hpe, ← mm, ← add_mul, ← sub_mul, abs_mul, abs_of_pos hdt]
    refine mul_le_mul_of_nonneg_right ?_ hdt.le
    rw [abs_le]; constructor <;> linarith)
  refine key.trans ?_
  refine div_le_div_of_nonneg_right (mul_le_mul_of_nonneg_right (by linarith) hdt.le) hC.le

/-- A concrete case: default encoder, dt = 0.001, the factor 5/2 and the value 0.25. -/
example : ∃ st, sessionFl (sortedHeap _) (fun _ l => l) ⟨Fl.of 10, Fl.of 100⟩ (Fl.of (1 / 1000)) (Fl.of 200)
      (scalarMultiplierFl (Fl.of (5 / 2)) ⟨Fl.of 10, Fl.of 100⟩ none World.empty).2 0 [.value (Fl.of (1 / 4)) 0 0] = .ok st ∧
      CarriesFl ⟨Fl.of 10, Fl.of 100⟩ ((8 * (Fl.of (5 / 2) : Double).val + 7) * (Fl.of (1 / 1000) : Double).val / (Fl.of 100 : Double).val) (st.spikeLog 5)
        ((Fl.of (5 / 2) : Double).val * (Fl.of (1 / 4) : Double).val) :=
  C111_rescale (sortedHeap _) id_setOrder (enc := ⟨Fl.of 10, Fl.of 100⟩) (dt := Fl.of (1 / 1000)) (by decide +kernel) (by decide +kernel) (by decide +kernel)
    (by decide +kernel) (by decide +kernel) none (φ := Fl.of (5 / 2)) (v := Fl.of (1 / 4)) (t0 := 0) (by decide +kernel) (by decide +kernel) (by decide +kernel)
    (by decide +kernel) (by decide +kernel) (by decide +kernel) (by decide +kernel) (by decide +kernel)

/-- The two orders really differ: with the default encoder and the factor 3, the drive after the two simultaneous weights depends on their order. -/
example : (0 + (Fl.of 3 : Double) * (⟨Fl.of 10, Fl.of 100⟩ : Encoder Double).waccFl + -(Fl.of 3 * (⟨Fl.of 10, Fl.of 100⟩ : Encoder Double).waccFl)) +
      (⟨Fl.of 10, Fl.of 100⟩ : Encoder Double).waccFl ≠
    (0 + (Fl.of 3 : Double) * (⟨Fl.of 10, Fl.of 100⟩ : Encoder Double).waccFl + (⟨Fl.of 10, Fl.of 100⟩ : Encoder Double).waccFl) +
      -(Fl.of 3 * (⟨Fl.of 10, Fl.of 100⟩ : Encoder Double).waccFl) := by decide +kernel

/-- The float synapse `s` is the exact synapse `s'`, its weight and delay up to a relative error of `ε`. -/
def Near (ε : ℚ) (s : Synapse Double) (s' : Synapse ℚ) : Prop :=
  s.pre = s'.pre ∧ s.post = s'.post ∧ s.kind = s'.kind ∧ |s.weight.val - s'.weight| ≤ |s'.weight| * ε ∧ |s.delay.val - s'.delay| ≤ |s'.delay| * ε

/-- **C111 (the same network).** The network of this file is the `ScalarMultiplierNetwork` of `Verif/Model/Networks.lean` with every weight and delay
rounded: the same synapses in the same order, weights and delays up to a relative error of `3 * 2^-53` (if `Tmin + Tcod` is a float, as it is for the
default encoder). -/
theorem C111_same_network (φ : Double) (enc : Encoder Double) (hT : enc.Tmax.val = enc.Tmin.val + enc.Tcod.val) (name : Option String) :
    List.Forall₂ (Near (3 / 2 ^ 53)) (scalarMultiplierFl φ enc name World.empty).2.syns (scalarMultiplierNetwork φ.val enc.exact name World.empty).2.syns := by
  have e3 : (3 : ℚ) / 2 ^ 53 = 3 * uu := by norm_num
  have hu0 : (0 : ℚ) < uu := by norm_num
  have one : ∀ x : ℚ, |fl 53 x - x| ≤ |x| * (3 / 2 ^ 53) := fun x => by
    rw [e3]
    refine (fl_near x).trans ?_
    have := mul_nonneg (abs_nonneg x) hu0.le
    linarith
  have w1 : enc.waccFl.val = fl 53 (enc.exact.wacc) := by
    rw [Encoder.waccFl, Fl.val_div, d1000, hT]; congr 1; norm_num [Encoder.wacc, Encoder.Tmax, Encoder.exact, cVt, ctm]
  have n1 : |enc.waccFl.val - enc.exact.wacc| ≤ |enc.exact.wacc| * (3 / 2 ^ 53) := by rw [w1]; exact one _
  have n2 : |(φ * enc.waccFl).val - φ.val * enc.exact.wacc| ≤ |φ.val * enc.exact.wacc| * (3 / 2 ^ 53) := by
    rw [Fl.val_mul, w1, e3]
    set W := enc.exact.wacc
    have h1 := fl_near (φ.val * fl 53 W)
    have h2 := fl_near W
    have hus : uu ≤ 1 / 100 := by norm_num
    generalize uu = u at *
    have h3 : |φ.val * fl 53 W - φ.val * W| ≤ |φ.val * W| * u := by
      rw [← mul_sub, abs_mul, abs_mul, mul_assoc]; exact mul_le_mul_of_nonneg_left h2 (abs_nonneg _)
    have h4 : |φ.val * fl 53 W| ≤ |φ.val * W| + |φ.val * W| * u := by
      calc |φ.val * fl 53 W| = |(φ.val * fl 53 W - φ.val * W) + φ.val * W| := by rw [sub_add_cancel]
        _ ≤ |φ.val * fl 53 W - φ.val * W| + |φ.val * W| := abs_add_le _ _
        _ ≤ |φ.val * W| + |φ.val * W| * u := by linarith
    have h5 : |φ.val * fl 53 W| * u ≤ (|φ.val * W| + |φ.val * W| * u) * u := mul_le_mul_of_nonneg_right h4 hu0.le
    have h6 : |φ.val * W| * u * u ≤ |φ.val * W| * u * (1 / 100) := mul_le_mul_of_nonneg_left hus (by positivity)
    have h7 : 0 ≤ |φ.val * W| * u := by positivity
    calc |fl 53 (φ.val * fl 53 W) - φ.val * W| = |(fl 53 (φ.val * fl 53 W) - φ.val * fl 53 W) + (φ.val * fl 53 W - φ.val * W)| := by rw [sub_add_sub_cancel]
      _ ≤ |fl 53 (φ.val * fl 53 W) - φ.val * fl 53 W| + |φ.val * fl 53 W - φ.val * W| := abs_add_le _ _
      _ ≤ |φ.val * W| * (3 * u) := by linarith
  have n3 : |(-(φ * enc.waccFl)).val - -(φ.val * enc.exact.wacc)| ≤ |-(φ.val * enc.exact.wacc)| * (3 / 2 ^ 53) := by
    rw [show (-(φ * enc.waccFl)).val = -(φ * enc.waccFl).val from rfl, abs_neg, neg_sub_neg, abs_sub_comm]; exact n2
  have c1 : |(weFl : Double).val - 10| ≤ |10| * (3 / 2 ^ 53) := by decide +kernel
  have c2 : |(Fl.of (1 / 2) * weFl : Double).val - 1 / 2 * 10| ≤ |1 / 2 * 10| * (3 / 2 ^ 53) := by decide +kernel
  have c3 : |(wiFl : Double).val - -10| ≤ |-10| * (3 / 2 ^ 53) := by decide +kernel
  have c4 : |(tsynFl : Double).val - 1| ≤ |1| * (3 / 2 ^ 53) := by decide +kernel
  have c5 : |(Fl.of 2 * tsynFl : Double).val - 2 * 1| ≤ |2 * 1| * (3 / 2 ^ 53) := by decide +kernel
  have c7 : |(tsynFl + enc.Tmin).val - (1 + enc.Tmin.val)| ≤ |1 + enc.Tmin.val| * (3 / 2 ^ 53) := by rw [Fl.val_add, tsyn_val]; exact one _
  show List.Forall₂ (Near (3 / 2 ^ 53)) [⟨3, 5, weFl, Fl.of 2 * tsynFl, .V⟩, ⟨3, 4, enc.waccFl, tsynFl, .ge⟩, ⟨4, 5, weFl, tsynFl + enc.Tmin, .V⟩,
      ⟨3, 4, -(φ * enc.waccFl), tsynFl, .ge⟩, ⟨2, 4, φ * enc.waccFl, Fl.of 2 * tsynFl, .ge⟩, ⟨1, 3, φ * enc.waccFl, tsynFl + enc.Tmin, .ge⟩, ⟨1, 1, wiFl, tsynFl, .V⟩,
      ⟨0, 2, Fl.of (1 / 2) * weFl, tsynFl, .V⟩, ⟨0, 1, weFl, tsynFl, .V⟩]
    [⟨3, 5, 10, 2 * 1, .V⟩, ⟨3, 4, enc.exact.wacc, 1, .ge⟩, ⟨4, 5, 10, 1 + enc.Tmin.val, .V⟩, ⟨3, 4, -(φ.val * enc.exact.wacc), 1, .ge⟩,
      ⟨2, 4, φ.val * enc.exact.wacc, 2 * 1, .ge⟩, ⟨1, 3, φ.val * enc.exact.wacc, 1 + enc.Tmin.val, .ge⟩, ⟨1, 1, -10, 1, .V⟩, ⟨0, 2, 1 / 2 * 10, 1, .V⟩, ⟨0, 1, 10, 1, .V⟩]
  refine .cons ?_ (.cons ?_ (.cons ?_ (.cons ?_ (.cons ?_ (.cons ?_ (.cons ?_ (.cons ?_ (.cons ?_ .nil))))))))
  · exact ⟨rfl, rfl, rfl, c1, c5⟩
  · exact ⟨rfl, rfl, rfl, n1, c4⟩
  · exact ⟨rfl, rfl, rfl, c1, c7⟩
  · exact ⟨rfl, rfl, rfl, n3, c4⟩
  · exact ⟨rfl, rfl, rfl, n2, c5⟩
  · exact ⟨rfl, rfl, rfl, n2, c7⟩
  · exact ⟨rfl, rfl, rfl, c3, c4⟩
  · exact ⟨rfl, rfl, rfl, c2, c4⟩
  · exact ⟨rfl, rfl, rfl, c1, c4⟩

end Axon
