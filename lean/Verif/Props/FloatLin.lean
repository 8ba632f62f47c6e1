import Verif.Proofs.FloatLin
import Verif.Proofs.LinBuild

/-! # C115: the linear combinator in floating-point arithmetic waits for a sum that rounding can make unreachable -/
set_option linter.unusedSectionVars false
namespace Axon
open Spec

/-- The steps of one input: where its two spikes arrive at `last`, and where `last` reaches `sync`. -/
theorem lin_steps {enc : Encoder Double} {dt : Double} (hdt : 0 < dt.val) (hC : 0 < enc.Tcod.val) (hmin : 4 * dt.val ≤ enc.Tmin.val)
    (hsyn : 1 ≤ 2 ^ 24 * dt.val) (hmax : enc.Tmax.val ≤ 2 ^ 24 * dt.val) {v t : Double} (hv : 0 ≤ v.val ∧ v.val ≤ 1) (ht : 0 ≤ t.val ∧ t.val ≤ 2 ^ 48 * dt.val) :
    ∃ a b g : ℕ, (∀ k, FirstAt dt 1 (t + tsynFl) k ↔ k = a) ∧ (∀ k, FirstAt dt 1 (t + (enc.Tmin + v * enc.Tcod) + tsynFl) k ↔ k = b) ∧
      AtStep dt tsynFl b g ∧ 0 < a ∧ a < b ∧ b < g ∧ g ≤ 2 ^ 49 ∧
      t.val + (enc.Tmin.val + v.val * enc.Tcod.val) + 2 ≤ (g + 3) * dt.val ∧ g * dt.val ≤ t.val + (enc.Tmin.val + v.val * enc.Tcod.val) + 2 + 4 * dt.val ∧
      g * dt.val ≤ t.val + enc.Tmax.val + 2 + 5 * dt.val := by
  have hT0 : 0 ≤ enc.Tmin.val := by linarith
  have u0 : ∀ a : ℚ, a / dt.val * dt.val = a := fun a => div_mul_cancel₀ _ hdt.ne'
  have mv : ∀ a b : ℚ, a * dt.val ≤ b * dt.val → a ≤ b := fun a b h => le_of_mul_le_mul_right h hdt
  have mu : ∀ {a b : ℚ}, a ≤ b → a * dt.val ≤ b * dt.val := fun h => mul_le_mul_of_nonneg_right h hdt.le
  obtain ⟨eτ, eM⟩ := encoded (t0 := t) (dt := dt) hT0 hC.le hmax hv.1 hv.2 ht.1 ht.2 hdt
  obtain ⟨e1, e2⟩ := abs_le.mp eτ
  obtain ⟨e3, e4⟩ := abs_le.mp eM
  have hp0 : 0 ≤ v.val * enc.Tcod.val := mul_nonneg hv.1 hC.le
  have hp1 : v.val * enc.Tcod.val ≤ enc.Tcod.val := mul_le_of_le_one_left hC.le hv.2
  generalize t + (enc.Tmin + v * enc.Tcod) = τ at *
  have d1 : (tsynFl : Double).val / dt.val = 1 / dt.val := by rw [tsyn_val]
  have dpos : 0 ≤ (tsynFl : Double).val := by rw [tsyn_val]; norm_num
  have qm := u0 1
  have xm := u0 t.val
  have ym := u0 τ.val
  have ht1 := ht.1
  have ht2 := ht.2
  have x2 : t.val / dt.val ≤ 2 ^ 48 := mv _ _ (by linarith)
  have y2 : τ.val / dt.val ≤ 2 ^ 48 + 2 ^ 24 + 1 := mv _ _ (by linarith)
  have q2 : 1 / dt.val ≤ 2 ^ 24 := mv _ _ (by linarith)
  have q0 : 0 ≤ 1 / dt.val := by positivity
  have xy : t.val / dt.val + 7 / 2 ≤ τ.val / dt.val := mv _ _ (by linarith)
  have big : (2 : ℚ) ^ 48 + 20 * 2 ^ 24 + 100 ≤ 2 ^ 49 := by norm_num
  obtain ⟨a, ai, ap, al, au⟩ := arrives_inj (τ := t) (D := tsynFl) hdt ht.1 dpos (by rw [d1]; linarith)
  obtain ⟨b, bi, bp, bl, bu⟩ := arrives_inj (τ := τ) (D := tsynFl) hdt (by linarith) dpos (by rw [d1]; linarith)
  rw [d1] at al au bl bu
  obtain ⟨g, gi, gj, gl, gu⟩ := arrives (j := b) (D := tsynFl) hdt dpos (by rw [d1]; linarith)
  rw [d1] at gl gu
  have lt_of : ∀ {a b : ℕ}, (a : ℚ) < b → a < b := fun h => by exact_mod_cast h
  have g49 : (g : ℚ) ≤ 2 ^ 49 := by linarith
  have k1 := mu (show τ.val / dt.val + 2 * (1 / dt.val) - 2 ≤ g by linarith)
  have k2 := mu (show (g : ℚ) ≤ τ.val / dt.val + 2 * (1 / dt.val) + 3 by linarith)
  have k3 : (τ.val / dt.val + 2 * (1 / dt.val) - 2) * dt.val = τ.val / dt.val * dt.val + 2 * (1 / dt.val * dt.val) - 2 * dt.val := by ring
  have k4 : (τ.val / dt.val + 2 * (1 / dt.val) + 3) * dt.val = τ.val / dt.val * dt.val + 2 * (1 / dt.val * dt.val) + 3 * dt.val := by ring
  rw [k3, ym, qm] at k1
  rw [k4, ym, qm] at k2
  refine ⟨a, b, g, ai, bi, gi, ap, lt_of (by linarith), gj, by exact_mod_cast g49, ?_, ?_, ?_⟩ <;> linarith

set_option maxHeartbeats 4000000 in
/-- **C115.** In Python floats: every input of a `LinearCombinatorNetwork` - any coefficients, up to 2²⁰ of them - is given a value on one of its two rails, at any time.
If the rounded sum of `N` times the rounded weight `we / N` reaches the threshold 10, `sync` fires once, within four steps of 2 ms after the last spike of the latest input.
If it does not, `sync` and the accumulators `acc2_plus`, `acc2_minus`, which only `sync` drives, never fire. -/
theorem C115_sync (H : EventHeap Double) {ord : ℕ → List ℕ → List ℕ} (hord : SetOrder ord) {enc : Encoder Double} {dt : Double}
    (hdt : 0 < dt.val) (hC : 0 < enc.Tcod.val) (hmin : 4 * dt.val ≤ enc.Tmin.val) (hsyn : 1 ≤ 2 ^ 24 * dt.val) (hmax : enc.Tmax.val ≤ 2 ^ 24 * dt.val)
    (kind : ModKind) (name : Option String) {coeff : List Double} (hN1 : 1 ≤ coeff.length) (hN : coeff.length ≤ 2 ^ 20) (plus : ℕ → Bool) {v t : ℕ → Double} {T : Double}
    (hv : ∀ j < coeff.length, 0 ≤ (v j).val ∧ (v j).val ≤ 1)
    (ht : ∀ j < coeff.length, 0 ≤ (t j).val ∧ (t j).val ≤ 2 ^ 48 * dt.val) (hT : ∀ j < coeff.length, (t j).val + enc.Tmax.val + 2 + 5 * dt.val ≤ T.val) :
    let N := coeff.length
    let p := (linearCombinatorFl kind enc coeff name World.empty).1
    let w := (linearCombinatorFl kind enc coeff name World.empty).2
    let total : Double := (List.replicate N (Fl.of 10 / (N : Double))).foldl (· + ·) 0
    ∃ st, sessionFl H ord enc dt T w p.mod ((List.range N).map fun j => .value (v j) ((if plus j then p.inputPlus else p.inputMinus).getD j 0) (t j)) = .ok st ∧
      (Fl.of 10 ≤ total → ∃ M : ℕ, st.spikeLog p.sync = some [(M : Double) * dt] ∧
        (∀ j < N, (t j).val + (enc.Tmin.val + (v j).val * enc.Tcod.val) + 2 ≤ (M + 3) * dt.val) ∧
        (∃ j < N, M * dt.val ≤ (t j).val + (enc.Tmin.val + (v j).val * enc.Tcod.val) + 2 + 4 * dt.val)) ∧
      (total < Fl.of 10 → st.spikeLog p.sync = some [] ∧ st.spikeLog p.acc2Plus = some [] ∧ st.spikeLog p.acc2Minus = some []) := by
  intro N p w total
  obtain ⟨B, hlen, hstd, hsyns, hp⟩ := linFl_spec enc kind name coeff
  change BlockOK w at B
  change w.neus.length = _ at hlen
  change ∀ o ∈ w.neus, _ at hstd
  change w.syns = _ at hsyns
  change p = _ at hp
  rw [hp]
  dsimp only
  have hN' : coeff.length = N := rfl
  rw [hN'] at hN1 hN hv ht hT hlen hsyns ⊢
  have htot : total = climb (linWFl N) 0 N := fold_climb _ _
  rw [htot]
  generalize (fun i => coeff.getD i 0) = c at hsyns
  clear_value p w N total
  have getm : ∀ (f : ℕ → ℕ), ∀ j < N, ((List.range N).map f).getD j 0 = f j := fun f j hj => by
    rw [List.getD_eq_getElem?_getD, List.getElem?_map, List.getElem?_range hj]; rfl
  obtain ⟨u, hu⟩ : ∃ u : ℕ → ℕ, ∀ j, u j = 40 + 6 * j + (if plus j then 0 else 1) := ⟨_, fun _ => rfl⟩
  have hub : ∀ j, 40 + 6 * j ≤ u j ∧ u j ≤ 40 + 6 * j + 1 := fun j => by rw [hu]; split <;> omega
  have huinj : ∀ i j, u i = u j → i = j := fun i j h => by have := hub i; have := hub j; omega
  have hcs : ((List.range N).map fun j => Call.value (v j) ((if plus j then (List.range N).map (fun j => 40 + 6 * j) else (List.range N).map (fun j => 40 + 6 * j + 1)).getD j 0) (t j)) =
      callsAt u (List.range N) v t :=
    List.map_congr_left fun j hj => by
      have hj' := List.mem_range.mp hj
      rw [hu]
      cases plus j
      · rw [if_neg (by simp), getm _ j hj']; rfl
      · rw [if_pos rfl, getm _ j hj']; rfl
  rw [hcs]
  obtain ⟨ns, hns, hmem⟩ := blockFl_neurons B
  have steps := fun j (hj : j < N) => lin_steps (enc := enc) hdt hC hmin hsyn hmax (hv j hj) (ht j hj)
  choose! a b g h1 h2 h3 h4 h5 h6 h7 h8 h9 h10 using steps
  obtain ⟨jm, hjm, hmx⟩ := Finset.exists_max_image (Finset.range N) g ⟨0, Finset.mem_range.mpr hN1⟩
  rw [Finset.mem_range] at hjm
  have hmx' : ∀ j < N, g j ≤ g jm := fun j hj => hmx j (Finset.mem_range.mpr hj)
  obtain ⟨M, hM⟩ : ∃ M, M = g jm := ⟨_, rfl⟩
  rw [← hM] at hmx'
  have gN : ∀ j < N, g j ≤ numStepsFl T dt := fun j hj => by
    refine enough_steps ((h7 j hj).trans (by norm_num)) ?_
    rw [le_div_iff₀ hdt]
    have := h10 j hj
    have := hT j hj
    linarith
  have t10 : (Fl.of 10 : Double).val = 10 := by decide +kernel
  obtain ⟨S9, hS9⟩ : ∃ S9 : List ℕ, S9 = if Fl.of 10 ≤ climb (linWFl N) 0 N then [M] else [] := ⟨_, rfl⟩
  obtain ⟨LS, hLS⟩ : ∃ LS : ℕ → List ℕ, LS = fun m => if m = 9 then S9 else if 40 ≤ m ∧ m < 40 + 6 * N ∧ (m - 40) % 6 = (if plus ((m - 40) / 6) then 4 else 5) then
    [b ((m - 40) / 6)] else [] := ⟨_, rfl⟩
  have L9 : LS 9 = S9 := by rw [hLS]; rfl
  have Ll : ∀ j < N, ∀ k < 2, LS (40 + 6 * j + (4 + k)) = if (if plus j then 0 else 1) = k then [b j] else [] := by
    intro j hj k hk
    rw [hLS]
    dsimp only
    rw [if_neg (by omega), show (40 + 6 * j + (4 + k) - 40) / 6 = j by omega, show (40 + 6 * j + (4 + k) - 40) % 6 = 4 + k by omega]
    by_cases e : (if plus j then 0 else 1) = k
    · rw [if_pos e, if_pos ⟨by omega, by omega, by cases hpl : plus j <;> simp [hpl] at e ⊢ <;> omega⟩]
    · rw [if_neg e, if_neg]
      rintro ⟨-, -, h⟩
      cases hpl : plus j <;> simp [hpl] at e h <;> omega
  have Li : ∀ j k, k < 2 → LS (40 + 6 * j + k) = [] := by
    intro j k hk
    rw [hLS]
    dsimp only
    rw [if_neg (by omega), show (40 + 6 * j + k - 40) / 6 = j by omega, show (40 + 6 * j + k - 40) % 6 = k by omega, if_neg]
    rintro ⟨-, -, h⟩
    split at h <;> omega
  have L2 : LS 2 = [] := by rw [hLS]; rfl
  have L3 : LS 3 = [] := by rw [hLS]; rfl
  have Lz : ∀ m, 40 + 6 * N ≤ m → LS m = [] := by
    intro m hm
    rw [hLS]
    dsimp only
    rw [if_neg (by omega), if_neg (by omega)]
  have M0 : 1 ≤ M := by have := h6 jm hjm; omega
  have hform : ∀ m, LS m = [] ∨ LS m = [M] ∨ ∃ j < N, LS m = [b j] := by
    intro m
    rw [hLS]
    dsimp only
    split
    · rw [hS9]; split
      · exact .inr (.inl rfl)
      · exact .inl rfl
    · by_cases h : 40 ≤ m ∧ m < 40 + 6 * N ∧ (m - 40) % 6 = (if plus ((m - 40) / 6) then 4 else 5)
      · rw [if_pos h]
        exact .inr (.inr ⟨_, by omega, rfl⟩)
      · rw [if_neg h]
        exact .inl rfl
  obtain ⟨P, hP⟩ : ∃ P : ℕ → Prop, ∀ m, P m ↔ ((m = 2 ∨ m = 3) ∧ climb (linWFl N) 0 N < Fl.of 10) ∨ m = 9 ∨
      (40 ≤ m ∧ ((m - 40) % 6 = 0 ∨ (m - 40) % 6 = 1 ∨ (m - 40) % 6 = 4 ∨ (m - 40) % 6 = 5)) := ⟨_, fun _ => Iff.rfl⟩
  have hpar : ∀ m ∈ ns, w.par m = stdFl := fun m hm => par_all hstd ((hmem m).mp hm)
  have z10 : stdFl.tm ≠ 0 := by decide +kernel
  have z20 : stdFl.tf ≠ 0 := by decide +kernel
  have wf : WellFormed (w.net ns) :=
    ⟨fun a ha => (hmem _).mpr (B.syn_bd a (by simpa [World.net] using ha)).2, fun a ha => B.kinds a (by simpa [World.net] using ha),
      fun m hm => by rw [show (w.net ns).par m = stdFl from hpar m hm]; exact z10,
      fun m hm => by rw [show (w.net ns).par m = stdFl from hpar m hm]; exact z20,
      fun m hm => by rw [show (w.net ns).par m = stdFl from hpar m hm]; exact lt0⟩
  have hsy : ∀ j < N, ∀ o < 6, ((w.net ns).syns.filter fun s => s.post = 40 + 6 * j + o) = (linRoundFl enc N (c j) (40 + 6 * j)).reverse.filter fun s => s.post = 40 + 6 * j + o := by
    intro j hj o ho
    show ((w.syns.reverse).filter _) = _
    rw [hsyns, List.filter_reverse, postLinFl_chan enc N c N j o hj ho, List.filter_reverse]
  have offU : ∀ m, (∀ j, u j ≠ m) → (((callsAt u (List.range N) v t).flatMap (callSpikesR enc)).filter fun q => q.1 = m) = [] :=
    fun m hm => callsAt_off enc u (List.range N) v t fun j _ => hm j
  obtain ⟨st, s1, s2⟩ := session_closed H hord hdt hns wf (cs := callsAt u (List.range N) v t) (enc := enc) (P := P) (by
      intro c hc
      obtain ⟨j, hj, rfl⟩ := List.mem_map.mp hc
      have := hv j (List.mem_range.mp hj)
      exact ⟨by rw [Fl.le_iff, Fl.val_zero]; exact this.1, by rw [Fl.le_iff, Fl.val_one]; exact this.2⟩)
    (LS := LS) hpar (by
      intro s hs
      rw [hsyns] at hs
      rw [hP, hP]
      rcases linSynsFl_mem hs with hs | ⟨i, hi, hs⟩
      · obtain ⟨k1, k2, k3, k4⟩ := linCoreFl_closed enc s hs
        rintro (⟨h | h, -⟩ | h | h)
        · exact .inr (.inl (k1 h))
        · exact .inr (.inl (k2 h))
        · exact absurd h k3
        · omega
      · have := linRoundFl_closed enc N (40 + 6 * i) (c i) s hs
        rintro (⟨h, -⟩ | h | h)
        · omega
        · omega
        · omega)
    (by
      intro m
      rcases hform m with h | h | ⟨j, -, h⟩ <;> rw [h] <;> simp)
    (fun m hm => by
      rw [hmem, hlen] at hm
      exact Lz m (by omega)) (by
      intro m hm hPm
      rw [hmem, hlen] at hm
      rw [hP] at hPm
      rcases hPm with ⟨h, hlow⟩ | rfl | ⟨hm40, hmod⟩
      · have S0 : S9 = [] := by rw [hS9, if_neg (not_le.mpr hlow)]
        have key : ∀ k, (k = 2 ∨ k = 3) → LS k = [] → FitsR stdFl dt (hitsR (w.net ns) dt ((callsAt u (List.range N) v t).flatMap (callSpikesR enc)) LS k) (LS k) := by
          intro k hk e
          rw [e]
          refine FitsR.silent fun i => (hits_eq (l := [⟨9, k, enc.waccFl, tsynFl, .ge⟩]) ?_ i).trans ?_
          · show ((w.syns.reverse).filter _) = _
            rw [hsyns, List.filter_reverse, postLinFl_core enc N c (by omega) (by omega) (by omega) (by omega)]
            rcases hk with rfl | rfl <;> rfl
          · rw [List.flatMap_cons, List.flatMap_nil, contrib_none _ (offU 9 fun j => by have := hub j; omega) (by rw [L9, S0])]; rfl
        rcases h with rfl | rfl
        · exact key 2 (.inl rfl) L2
        · exact key 3 (.inr rfl) L3
      · rw [L9]
        have hh : ∀ i, (hitsR (w.net ns) dt ((callsAt u (List.range N) v t).flatMap (callSpikesR enc)) LS 9 i).Perm
            (List.replicate (((List.range N).map g).count i) (.V, linWFl N)) := by
          intro i
          rw [hits_eq rfl i]
          refine List.Perm.trans (List.Perm.flatMap_right (l₂ := (List.range N).flatMap fun j => [⟨40 + 6 * j + 5, 9, linWFl N, tsynFl, .V⟩, ⟨40 + 6 * j + 4, 9, linWFl N, tsynFl, .V⟩]) _ ?_) (.of_eq ?_)
          · show ((w.syns.reverse).filter _).Perm _
            rw [hsyns]
            exact ((List.reverse_perm _).filter _).trans (postLinFl_shared enc N c (fun i => linRoundFl_9 enc N (c i) (40 + 6 * i) (by omega)) N)
          · refine gather_lin (r := plus) i fun j hj k hk => ?_
            by_cases e : (if plus j then 0 else 1) = k
            · rw [if_pos e]
              exact contrib_one (offU _ fun i => by have := hub i; omega) (by rw [Ll j hj k hk, if_pos e]) (h3 j hj) i
            · rw [if_neg e]
              exact contrib_none _ (offU _ fun i => by have := hub i; dsimp only; omega) (by dsimp only; rw [Ll j hj k hk, if_neg e]) i
        have hpos : ∀ x ∈ (List.range N).map g, 0 < x := by
          intro x hx
          obtain ⟨j, hj, rfl⟩ := List.mem_map.mp hx
          have := h6 j (List.mem_range.mp hj)
          omega
        have hlen' : ((List.range N).map g).length = N := by rw [List.length_map, List.length_range]
        by_cases hr : Fl.of 10 ≤ climb (linWFl N) 0 N
        · rw [hS9, if_pos hr]
          refine FitsR.perm (hits' := fun i => List.replicate (((List.range N).map g).count i) (.V, linWFl N))
            (FitsR.gather (A := (List.range N).map g) (List.mem_map.mpr ⟨jm, List.mem_range.mpr hjm, hM.symm⟩) ?_ hpos ?_ ?_ fun _ => rfl) hh
          · intro x hx
            obtain ⟨j, hj, rfl⟩ := List.mem_map.mp hx
            exact hmx' j (List.mem_range.mp hj)
          · intro m hm
            rw [hlen'] at hm
            exact lin_low hN hm
          · rw [hlen', ← t10, ← Fl.le_iff]; exact hr
        · rw [hS9, if_neg hr]
          refine FitsR.perm (hits' := fun i => List.replicate (((List.range N).map g).count i) (.V, linWFl N))
            (FitsR.gather_few (A := (List.range N).map g) hpos ?_ fun _ => rfl) hh
          intro m hm
          rw [hlen'] at hm
          rcases hm.lt_or_eq with hm | rfl
          · exact lin_low hN hm
          · rw [← t10, ← Fl.lt_iff]; exact not_le.mp hr
      · obtain ⟨j, o, ho, rfl⟩ : ∃ j, ∃ o < 6, m = 40 + 6 * j + o := ⟨(m - 40) / 6, (m - 40) % 6, by omega, by omega⟩
        have hj : j < N := by omega
        rw [show (40 + 6 * j + o - 40) % 6 = o by omega] at hmod
        have S := hsy j hj o ho
        have inp : ∀ k < 2, o = k → FitsR stdFl dt (hitsR (w.net ns) dt ((callsAt u (List.range N) v t).flatMap (callSpikesR enc)) LS (40 + 6 * j + o)) (LS (40 + 6 * j + o)) := by
          rintro k hk rfl
          rw [Li j o hk]
          exact FitsR.silent fun i => hits_eq (l := []) (S.trans (linRoundFl_in enc N (c j) (40 + 6 * j) (by omega) hk)) i
        have las : ∀ k < 2, o = 4 + k → FitsR stdFl dt (hitsR (w.net ns) dt ((callsAt u (List.range N) v t).flatMap (callSpikesR enc)) LS (40 + 6 * j + o)) (LS (40 + 6 * j + o)) := by
          rintro k hk rfl
          rw [Ll j hj k hk]
          have S' := S.trans (linRoundFl_last enc N (c j) (40 + 6 * j) (by omega) hk)
          by_cases e : (if plus j then 0 else 1) = k
          · rw [if_pos e]
            have hin : ALI dt tsynFl [t j, t j + (enc.Tmin + v j * enc.Tcod)] [a j, b j] := .cons (h1 j hj) (.cons (h2 j hj) .nil)
            have eu : u j = 40 + 6 * j + k := by rw [hu, e]
            have at' := callsAt_at enc huinj List.nodup_range v t (List.mem_range.mpr hj)
            rw [eu] at at'
            exact fits_vs S' (.cons ⟨rfl, w_half, hin.brings (Li j k hk) at'⟩ .nil) (evl_small (by simp)) (by simp) (second_fires (h4 j hj) (h5 j hj))
          · rw [if_neg e]
            refine FitsR.silent fun i => (hits_eq S' i).trans ?_
            rw [List.flatMap_cons, List.flatMap_nil, contrib_none _ (offU _ fun i => ?_) (Li j k hk)]
            · rfl
            · intro h
              dsimp only at h
              have hi : i = j := by have := hub i; omega
              subst hi
              rw [hu] at h
              exact e (by omega)
        rcases hmod with h | h | h | h
        · exact inp 0 (by norm_num) h
        · exact inp 1 (by norm_num) h
        · exact las 0 (by norm_num) h
        · exact las 1 (by norm_num) h) T (by
      intro m i hi
      rcases hform m with h | h | ⟨j, hj, h⟩ <;> rw [h] at hi
      · cases hi
      · rw [List.mem_singleton.mp hi]
        exact ⟨M0, by rw [hM]; exact gN jm hjm⟩
      · rw [List.mem_singleton.mp hi]
        have := h4 j hj
        have := h5 j hj
        have := h6 j hj
        have := gN j hj
        exact ⟨by omega, by omega⟩)
  have log : ∀ m, m < 40 → P m → st.spikeLog m = some ((LS m).map fun i : ℕ => (i : Double) * dt) := by
    intro m hm hPm
    rw [s2 m ((hmem m).mpr (by omega)) hPm, injTimes, offU m fun j => by have := hub j; omega]
    rfl
  refine ⟨st, s1, fun hr => ⟨M, ?_, fun j hj => ?_, jm, hjm, ?_⟩, fun hr => ⟨?_, ?_, ?_⟩⟩
  · rw [log 9 (by norm_num) ((hP 9).mpr (.inr (.inl rfl))), L9, hS9, if_pos hr]; rfl
  · have := h8 j hj
    have hq : (g j : ℚ) ≤ M := by exact_mod_cast hmx' j hj
    have := mul_le_mul_of_nonneg_right (show (g j : ℚ) + 3 ≤ M + 3 by linarith) hdt.le
    linarith
  · rw [hM]; exact h9 jm hjm
  · rw [log 9 (by norm_num) ((hP 9).mpr (.inr (.inl rfl))), L9, hS9, if_neg (not_le.mpr hr)]; rfl
  · rw [log 2 (by norm_num) ((hP 2).mpr (.inl ⟨.inl rfl, hr⟩)), L2]; rfl
  · rw [log 3 (by norm_num) ((hP 3).mpr (.inl ⟨.inr rfl, hr⟩)), L3]; rfl

/-- **C115 (nine inputs).** Nine times the float `10.0 / 9` adds up to less than `10.0`: a `LinearCombinatorNetwork` with nine coefficients, whatever they are, never starts
its readout, whatever it is given. -/
theorem C115_nine_inputs (H : EventHeap Double) {ord : ℕ → List ℕ → List ℕ} (hord : SetOrder ord) {enc : Encoder Double} {dt : Double}
    (hdt : 0 < dt.val) (hC : 0 < enc.Tcod.val) (hmin : 4 * dt.val ≤ enc.Tmin.val) (hsyn : 1 ≤ 2 ^ 24 * dt.val) (hmax : enc.Tmax.val ≤ 2 ^ 24 * dt.val)
    (kind : ModKind) (name : Option String) {coeff : List Double} (h9 : coeff.length = 9) (plus : ℕ → Bool) {v t : ℕ → Double} {T : Double}
    (hv : ∀ j < 9, 0 ≤ (v j).val ∧ (v j).val ≤ 1)
    (ht : ∀ j < 9, 0 ≤ (t j).val ∧ (t j).val ≤ 2 ^ 48 * dt.val) (hT : ∀ j < 9, (t j).val + enc.Tmax.val + 2 + 5 * dt.val ≤ T.val) :
    let p := (linearCombinatorFl kind enc coeff name World.empty).1
    let w := (linearCombinatorFl kind enc coeff name World.empty).2
    ∃ st, sessionFl H ord enc dt T w p.mod ((List.range 9).map fun j => .value (v j) ((if plus j then p.inputPlus else p.inputMinus).getD j 0) (t j)) = .ok st ∧
      st.spikeLog p.sync = some [] ∧ st.spikeLog p.acc2Plus = some [] ∧ st.spikeLog p.acc2Minus = some [] := by
  obtain ⟨st, s1, -, s3⟩ := C115_sync H hord hdt hC hmin hsyn hmax kind name (coeff := coeff) (by omega) (by rw [h9]; norm_num) plus
    (by rw [h9]; exact hv) (by rw [h9]; exact ht) (by rw [h9]; exact hT)
  rw [h9] at s1 s3
  exact ⟨st, s1, s3 (by decide +kernel)⟩

/-- **C115 (two inputs).** Two times `10.0 / 2` is `10.0`: an `AdderNetwork` starts its readout once, 2 ms after the last input spike, up to four steps. -/
theorem C115_two_inputs (H : EventHeap Double) {ord : ℕ → List ℕ → List ℕ} (hord : SetOrder ord) {enc : Encoder Double} {dt : Double}
    (hdt : 0 < dt.val) (hC : 0 < enc.Tcod.val) (hmin : 4 * dt.val ≤ enc.Tmin.val) (hsyn : 1 ≤ 2 ^ 24 * dt.val) (hmax : enc.Tmax.val ≤ 2 ^ 24 * dt.val)
    (name : Option String) (plus : ℕ → Bool) {v t : ℕ → Double} {T : Double} (hv : ∀ j < 2, 0 ≤ (v j).val ∧ (v j).val ≤ 1)
    (ht : ∀ j < 2, 0 ≤ (t j).val ∧ (t j).val ≤ 2 ^ 48 * dt.val) (hT : ∀ j < 2, (t j).val + enc.Tmax.val + 2 + 5 * dt.val ≤ T.val) :
    let p := (linearCombinatorFl .adder enc [1, 1] name World.empty).1
    let w := (linearCombinatorFl .adder enc [1, 1] name World.empty).2
    ∃ st, sessionFl H ord enc dt T w p.mod ((List.range 2).map fun j => .value (v j) ((if plus j then p.inputPlus else p.inputMinus).getD j 0) (t j)) = .ok st ∧
      ∃ M : ℕ, st.spikeLog p.sync = some [(M : Double) * dt] ∧
        (∀ j < 2, (t j).val + (enc.Tmin.val + (v j).val * enc.Tcod.val) + 2 ≤ (M + 3) * dt.val) ∧
        (∃ j < 2, M * dt.val ≤ (t j).val + (enc.Tmin.val + (v j).val * enc.Tcod.val) + 2 + 4 * dt.val) := by
  obtain ⟨st, s1, s2, -⟩ := C115_sync H hord hdt hC hmin hsyn hmax .adder name (coeff := [1, 1]) (by norm_num) (by norm_num) plus hv ht hT
  exact ⟨st, s1, s2 (by decide +kernel)⟩

/-- For a power of two the weight and all its partial sums are exact. -/
theorem lin_exact {k : ℕ} (hk : k ≤ 20) : ∀ m ≤ 2 ^ k, (climb (Fl.of 10 / ((2 ^ k : ℕ) : Double)) 0 m).val = ((10 * m : ℕ) : ℤ) * (2 : ℚ) ^ (-(k : ℤ)) := by
  have hk2 : 2 ^ k ≤ 2 ^ 20 := Nat.pow_le_pow_right (by norm_num) hk
  have e1 : ((2 ^ k : ℕ) : Double).val = ((2 ^ k : ℕ) : ℚ) := by rw [Fl.val_nat]; exact fl_nat _ (hk2.trans (by norm_num))
  have e2 : (Fl.of 10 : Double).val = 10 := by decide +kernel
  have p0 : ((2 : ℚ) ^ (-(k : ℤ))) = 1 / ((2 ^ k : ℕ) : ℚ) := by rw [zpow_neg, zpow_natCast]; push_cast; rw [one_div]
  have v : (Fl.of 10 / ((2 ^ k : ℕ) : Double)).val = 10 * (2 : ℚ) ^ (-(k : ℤ)) := by
    rw [Fl.val_div, e1, e2]
    have := fl_exact (p := 53) 10 (-(k : ℤ)) (by norm_num)
    push_cast at this
    rw [← this, p0]
    push_cast
    rw [mul_one_div]
  intro m
  induction m with
  | zero => intro _; simp [climb]; rfl
  | succ m ih =>
    intro hm
    rw [climb_val, ih (by omega), v]
    have : (((10 * m : ℕ) : ℤ) : ℚ) * (2 : ℚ) ^ (-(k : ℤ)) + 10 * (2 : ℚ) ^ (-(k : ℤ)) = (((10 * (m + 1) : ℕ) : ℤ) : ℚ) * (2 : ℚ) ^ (-(k : ℤ)) := by
      push_cast; ring
    rw [this, fl_exact]
    rw [abs_of_nonneg (by positivity)]
    have : 10 * (m + 1) ≤ 2 ^ 53 := by omega
    exact_mod_cast this

/-- **C115 (powers of two).** With 1, 2, 4, ..., 2²⁰ coefficients nothing is rounded: the readout starts once, 2 ms after the last input spike, up to four steps. -/
theorem C115_powers_of_two (H : EventHeap Double) {ord : ℕ → List ℕ → List ℕ} (hord : SetOrder ord) {enc : Encoder Double} {dt : Double}
    (hdt : 0 < dt.val) (hC : 0 < enc.Tcod.val) (hmin : 4 * dt.val ≤ enc.Tmin.val) (hsyn : 1 ≤ 2 ^ 24 * dt.val) (hmax : enc.Tmax.val ≤ 2 ^ 24 * dt.val)
    (kind : ModKind) (name : Option String) {coeff : List Double} {k : ℕ} (hk : k ≤ 20) (hc : coeff.length = 2 ^ k) (plus : ℕ → Bool) {v t : ℕ → Double} {T : Double}
    (hv : ∀ j < 2 ^ k, 0 ≤ (v j).val ∧ (v j).val ≤ 1)
    (ht : ∀ j < 2 ^ k, 0 ≤ (t j).val ∧ (t j).val ≤ 2 ^ 48 * dt.val) (hT : ∀ j < 2 ^ k, (t j).val + enc.Tmax.val + 2 + 5 * dt.val ≤ T.val) :
    let p := (linearCombinatorFl kind enc coeff name World.empty).1
    let w := (linearCombinatorFl kind enc coeff name World.empty).2
    ∃ st, sessionFl H ord enc dt T w p.mod ((List.range (2 ^ k)).map fun j => .value (v j) ((if plus j then p.inputPlus else p.inputMinus).getD j 0) (t j)) = .ok st ∧
      ∃ M : ℕ, st.spikeLog p.sync = some [(M : Double) * dt] ∧
        (∀ j < 2 ^ k, (t j).val + (enc.Tmin.val + (v j).val * enc.Tcod.val) + 2 ≤ (M + 3) * dt.val) ∧
        (∃ j < 2 ^ k, M * dt.val ≤ (t j).val + (enc.Tmin.val + (v j).val * enc.Tcod.val) + 2 + 4 * dt.val) := by
  obtain ⟨st, s1, s2, -⟩ := C115_sync H hord hdt hC hmin hsyn hmax kind name (coeff := coeff) (by rw [hc]; exact Nat.one_le_two_pow)
    (by rw [hc]; exact Nat.pow_le_pow_right (by norm_num) hk) plus (by rw [hc]; exact hv) (by rw [hc]; exact ht) (by rw [hc]; exact hT)
  rw [hc] at s1 s2
  refine ⟨st, s1, s2 ?_⟩
  rw [fold_climb]
  change (Fl.of 10 : Double).val ≤ _
  rw [lin_exact hk _ le_rfl, show (Fl.of 10 : Double).val = 10 by decide +kernel, zpow_neg, zpow_natCast]
  push_cast
  rw [mul_assoc, mul_inv_cancel₀ (by positivity), mul_one]

/-- A concrete case: nine times the coefficient 1/9, all inputs 0.5, dt = 0.01 - no readout within a second. -/
example : ∃ st, sessionFl (sortedHeap _) (fun _ l => l) ⟨Fl.of 10, Fl.of 100⟩ (Fl.of (1 / 100)) (Fl.of 1000)
      (linearCombinatorFl .plain ⟨Fl.of 10, Fl.of 100⟩ (List.replicate 9 (Fl.of (1 / 9))) none World.empty).2 0
      ((List.range 9).map fun j => .value (Fl.of (1 / 2)) (40 + 6 * j) 0) = .ok st ∧ st.spikeLog 9 = some [] := by
  obtain ⟨st, h, h1, -⟩ := C115_nine_inputs (sortedHeap _) id_setOrder (enc := ⟨Fl.of 10, Fl.of 100⟩) (dt := Fl.of (1 / 100)) (by decide +kernel) (by decide +kernel)
    (by decide +kernel) (by decide +kernel) (by decide +kernel) .plain none (coeff := List.replicate 9 (Fl.of (1 / 9))) rfl (fun _ => true) (v := fun _ => Fl.of (1 / 2)) (t := fun _ => 0)
    (T := Fl.of 1000) (fun _ _ => ⟨by decide +kernel, by decide +kernel⟩) (fun _ _ => ⟨by decide +kernel, by decide +kernel⟩) (fun _ _ => by decide +kernel)
  exact ⟨st, h, h1⟩

/-- A concrete case: 0.5 + 0.3 at two times - the adder does start. -/
example : ∃ st, sessionFl (sortedHeap _) (fun _ l => l) ⟨Fl.of 10, Fl.of 100⟩ (Fl.of (1 / 100)) (Fl.of 1000)
      (linearCombinatorFl .adder ⟨Fl.of 10, Fl.of 100⟩ [1, 1] none World.empty).2 0 [.value (Fl.of (1 / 2)) 40 0, .value (Fl.of (3 / 10)) 47 (Fl.of 7)] = .ok st ∧
      ∃ x, st.spikeLog 9 = some [x] := by
  obtain ⟨st, h, M, h1, -⟩ := C115_two_inputs (sortedHeap _) id_setOrder (enc := ⟨Fl.of 10, Fl.of 100⟩) (dt := Fl.of (1 / 100)) (by decide +kernel) (by decide +kernel)
    (by decide +kernel) (by decide +kernel) (by decide +kernel) none (fun j => j == 0) (v := fun j => if j = 0 then Fl.of (1 / 2) else Fl.of (3 / 10))
    (t := fun j => if j = 0 then 0 else Fl.of 7) (T := Fl.of 1000) (fun j hj => by interval_cases j <;> exact ⟨by decide +kernel, by decide +kernel⟩)
    (fun j hj => by interval_cases j <;> exact ⟨by decide +kernel, by decide +kernel⟩) (fun j hj => by interval_cases j <;> decide +kernel)
  exact ⟨st, h, _, h1⟩

/-- A concrete case: four coefficients of either sign, all inputs 0.5 on the minus rail. -/
example : ∃ st, sessionFl (sortedHeap _) (fun _ l => l) ⟨Fl.of 10, Fl.of 100⟩ (Fl.of (1 / 100)) (Fl.of 1000)
      (linearCombinatorFl .plain ⟨Fl.of 10, Fl.of 100⟩ [1, Fl.of (-1 / 3), Fl.of (1 / 7), 0] none World.empty).2 0
      ((List.range 4).map fun j => .value (Fl.of (1 / 2)) (40 + 6 * j + 1) 0) = .ok st ∧ ∃ x, st.spikeLog 9 = some [x] := by
  obtain ⟨st, h, M, h1, -⟩ := C115_powers_of_two (sortedHeap _) id_setOrder (enc := ⟨Fl.of 10, Fl.of 100⟩) (dt := Fl.of (1 / 100)) (by decide +kernel) (by decide +kernel)
    (by decide +kernel) (by decide +kernel) (by decide +kernel) .plain none (coeff := [1, Fl.of (-1 / 3), Fl.of (1 / 7), 0]) (k := 2) (by norm_num) rfl (fun _ => false)
    (v := fun _ => Fl.of (1 / 2)) (t := fun _ => 0) (T := Fl.of 1000) (fun _ _ => ⟨by decide +kernel, by decide +kernel⟩)
    (fun _ _ => ⟨by decide +kernel, by decide +kernel⟩) (fun _ _ => by decide +kernel)
  exact ⟨st, h, _, h1⟩

/-- The float synapse `s` is the exact synapse `s'` with its weight and its delay off by at most three roundings. -/
def RoundsRel (s : Synapse Double) (s' : Synapse ℚ) : Prop :=
  s.pre = s'.pre ∧ s.post = s'.post ∧ s.kind = s'.kind ∧ |s.weight.val - s'.weight| ≤ 3 / 2 ^ 53 * |s'.weight| ∧ |s.delay.val - s'.delay| ≤ 3 / 2 ^ 53 * |s'.delay|

theorem rel_one {x y : ℚ} (h : x = fl 53 y) : |x - y| ≤ 3 / 2 ^ 53 * |y| := by
  rw [h]
  refine (fl_near y).trans ?_
  have : uu ≤ 3 / 2 ^ 53 := by norm_num
  rw [mul_comm]
  exact mul_le_mul_of_nonneg_right this (abs_nonneg _)

theorem rel_mul (a w : ℚ) : |fl 53 (a * fl 53 w) - a * w| ≤ 3 / 2 ^ 53 * |a * w| := by
  have n1 := fl_near w
  have n2 := fl_near (a * fl 53 w)
  have u0 : (0 : ℚ) ≤ uu := by norm_num
  have u1 : uu ≤ 1 := by norm_num
  have u3 : (3 : ℚ) / 2 ^ 53 = 3 * uu := by norm_num
  rw [u3]
  generalize fl 53 w = W at *
  generalize fl 53 (a * W) = z at *
  generalize uu = u at *
  have e1 : |a * W - a * w| ≤ |a * w| * u := by
    rw [← mul_sub, abs_mul, abs_mul, mul_assoc]
    exact mul_le_mul_of_nonneg_left n1 (abs_nonneg _)
  have e2 : |a * W| ≤ |a * w| * 2 := by
    have := abs_sub_abs_le_abs_sub (a * W) (a * w)
    have := mul_le_mul_of_nonneg_left u1 (abs_nonneg (a * w))
    linarith
  have e3 := abs_sub_le z (a * W) (a * w)
  have e4 := mul_le_mul_of_nonneg_right e2 u0
  linarith

/-- **C115 (the same network).** The float network is that of `Verif/Model/Networks.lean` with every weight and delay rounded. -/
theorem C115_same_network (enc : Encoder Double) (hT : enc.Tmax.val = enc.Tmin.val + enc.Tcod.val) (hT0 : 0 ≤ enc.Tmin.val) (kind : ModKind) (name : Option String)
    {coeff : List Double} (hN : coeff.length ≤ 2 ^ 53) :
    List.Forall₂ RoundsRel (linearCombinatorFl kind enc coeff name World.empty).2.syns
      (linearCombinatorNetwork kind enc.exact (coeff.map (·.val)) name World.empty).2.syns := by
  rw [(linFl_spec enc kind name coeff).2.2.2.1, (lin_spec enc.exact kind name (coeff.map (·.val))).2.1, List.length_map]
  have w1 : enc.waccFl.val = fl 53 (enc.exact.wacc) := by
    rw [Encoder.waccFl, Fl.val_div, d1000, hT]; congr 1; norm_num [Encoder.wacc, Encoder.Tmax, Encoder.exact, cVt, ctm]
  have w2 : (-enc.waccFl).val = fl 53 (-enc.exact.wacc) := by rw [fl_neg, ← w1]; rfl
  have c1 : (weFl : Double).val = fl 53 10 := by decide +kernel
  have c2 : (Fl.of (1 / 2) * weFl : Double).val = fl 53 (1 / 2 * 10) := by decide +kernel
  have c3 : (wiFl : Double).val = fl 53 (-10) := by decide +kernel
  have c4 : (tsynFl : Double).val = fl 53 1 := by decide +kernel
  have c5 : (Fl.of 2 * wiFl : Double).val = fl 53 (2 * -10) := by decide +kernel
  have c6 : (Fl.of (1 / 2) * wiFl : Double).val = fl 53 (1 / 2 * -10) := by decide +kernel
  have c7 : (tneuFl : Double).val = fl 53 (1 / 100) := by decide +kernel
  have c8 : (Fl.of 2 * tneuFl : Double).val = fl 53 (2 * (1 / 100)) := by decide +kernel
  have c9 : (Fl.of 3 * tsynFl + Fl.of 2 * tneuFl : Double).val = fl 53 (3 * 1 + 2 * (1 / 100)) := by decide +kernel
  have c10 : (Fl.of 2 * tsynFl : Double).val = fl 53 (2 * 1) := by decide +kernel
  have c11 : (tsynFl + enc.Tmin : Double).val = fl 53 (1 + enc.exact.Tmin) := by rw [Fl.val_add, tsyn_val]; rfl
  have r1 := rel_one w1
  have r2 := rel_one w2
  have q1 := rel_one c1
  have q2 := rel_one c2
  have q3 := rel_one c3
  have q4 := rel_one c4
  have q5 := rel_one c5
  have q6 := rel_one c6
  have q7 := rel_one c7
  have q8 := rel_one c8
  have q9 := rel_one c9
  have q10 := rel_one c10
  have q11 := rel_one c11
  have q12 : |(enc.Tmin + (Fl.of 3 * tsynFl + Fl.of 2 * tneuFl) : Double).val - (enc.exact.Tmin + (3 * 1 + 2 * (1 / 100)))| ≤ 3 / 2 ^ 53 * |enc.exact.Tmin + (3 * 1 + 2 * (1 / 100))| := by
    rw [Fl.val_add, c9, show enc.exact.Tmin = enc.Tmin.val from rfl]
    have n1 := fl_near (3 * 1 + 2 * (1 / 100))
    have n2 := fl_near (enc.Tmin.val + fl 53 (3 * 1 + 2 * (1 / 100)))
    have u0 : (0 : ℚ) ≤ uu := by norm_num
    have u1 : uu ≤ 1 / 100 := by norm_num
    have u3 : (3 : ℚ) / 2 ^ 53 = 3 * uu := by norm_num
    rw [u3]
    generalize fl 53 (3 * 1 + 2 * (1 / 100)) = W at *
    generalize fl 53 (enc.Tmin.val + W) = z at *
    generalize uu = u at *
    generalize enc.Tmin.val = m at *
    rw [abs_of_pos (show (0 : ℚ) < 3 * 1 + 2 * (1 / 100) by norm_num)] at n1
    obtain ⟨a1, a2⟩ := abs_le.mp n1
    rw [abs_of_nonneg (show (0 : ℚ) ≤ m + W by linarith)] at n2
    obtain ⟨b1, b2⟩ := abs_le.mp n2
    have k := mul_le_mul_of_nonneg_right (show m + W ≤ m + 4 by linarith) u0
    have k' := mul_nonneg hT0 u0
    have e : 3 * u * (m + (3 * 1 + 2 * (1 / 100))) = 3 * (m * u) + 3 * (u * (302 / 100)) := by ring
    have e' : (m + 4) * u = m * u + 4 * u := by ring
    rw [abs_of_pos (show (0 : ℚ) < m + (3 * 1 + 2 * (1 / 100)) by linarith), e, abs_le]
    rw [e'] at k
    constructor <;> linarith
  have q13 : |(syncWFl 2).val - syncW 2| ≤ 3 / 2 ^ 53 * |syncW (K := ℚ) 2| := by decide +kernel
  have core : List.Forall₂ RoundsRel (linCoreFl enc) (linCore enc.exact) := by
    unfold linCoreFl linCore
    simp only [List.forall₂_cons, RoundsRel, r1, r2, q1, q2, q3, q4, q5, q6, q7, q8, q9, q10, q11, q12, q13, true_and, and_self, List.forall₂_nil_left_iff]
  have eN : |(linWFl coeff.length).val - 10 / (coeff.length : ℚ)| ≤ 3 / 2 ^ 53 * |10 / (coeff.length : ℚ)| := by
    refine rel_one ?_
    unfold linWFl
    have e1 : ((coeff.length : ℕ) : Double).val = coeff.length := by rw [Fl.val_nat]; exact fl_nat _ hN
    have e2 : (weFl : Double).val = 10 := by decide +kernel
    rw [Fl.val_div, e1, e2]
  have habs : ∀ c : Double, (absFl c).val = |c.val| := by
    intro c
    unfold absFl
    by_cases h : 0 ≤ c
    · rw [if_pos h]; rw [Fl.le_iff, Fl.val_zero] at h; rw [abs_of_nonneg h]
    · rw [if_neg h]; rw [Fl.le_iff, Fl.val_zero, not_le] at h; rw [abs_of_neg h]; rfl
  have p1 : ∀ c : Double, |(absFl c * enc.waccFl).val - |c.val| * enc.exact.wacc| ≤ 3 / 2 ^ 53 * |(|c.val|) * enc.exact.wacc| := by
    intro c; rw [Fl.val_mul, habs, w1]; exact rel_mul _ _
  have p2 : ∀ c : Double, |(-absFl c * enc.waccFl).val - -(|c.val|) * enc.exact.wacc| ≤ 3 / 2 ^ 53 * |-(|c.val|) * enc.exact.wacc| := by
    intro c; rw [Fl.val_mul, show (-absFl c).val = -(absFl c).val from rfl, habs, w1]; exact rel_mul _ _
  suffices h : ∀ k ≤ coeff.length, List.Forall₂ RoundsRel (linSynsFl enc coeff.length (fun i => coeff.getD i 0) k)
      (linSyns enc.exact coeff.length (fun i => (coeff.map (·.val)).getD i 0) k) from h _ le_rfl
  intro k
  induction k with
  | zero => intro _; exact core
  | succ k ih =>
    intro hk
    refine List.rel_append ?_ (ih (by omega))
    have ec : (coeff.map (·.val)).getD k 0 = (coeff.getD k 0).val := by
      rw [List.getD_eq_getElem?_getD, List.getD_eq_getElem?_getD, List.getElem?_map, List.getElem?_eq_getElem (by omega)]; rfl
    dsimp only; rw [ec]
    generalize coeff.getD k 0 = c
    generalize 40 + 6 * k = b
    have hc : (0 < c) ↔ (0 < c.val) := by rw [Fl.lt_iff, Fl.val_zero]
    unfold linRoundFl linRoundSyns
    simp only [List.forall₂_cons, RoundsRel, hc, p1, p2, eN, q1, q2, q3, q4, q11, true_and, and_self, List.forall₂_nil_left_iff]

end Axon
