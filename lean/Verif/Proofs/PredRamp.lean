import Verif.Proofs.PredMem

/-! # Neurons driven by several constant currents, in the predictive simulator -/
set_option linter.unusedSectionVars false
namespace Axon
open Spec
variable {K : Type*} [Field K] [LinearOrder K] [IsStrictOrderedRing K] [FloorRing K]

/-- The potential that the currents `ws` (start, strength) have built up at `t`. -/
def rampAt (ws : List (K × K)) (t : K) : K := (ws.map (fun p => if p.1 ≤ t then p.2 / 100 * (t - p.1) else 0)).sum

theorem rampAt_perm {ws ws' : List (K × K)} (h : ws.Perm ws') (t : K) : rampAt ws t = rampAt ws' t := (h.map _).sum_eq

theorem rampAt_append (a b : List (K × K)) (t : K) : rampAt (a ++ b) t = rampAt a t + rampAt b t := by simp [rampAt]

theorem rampAt_volley (T : K) (t : K) : ∀ l : List K, rampAt (l.map (fun w => (T, w))) t = if T ≤ t then l.sum / 100 * (t - T) else 0
  | [] => by simp [rampAt]
  | w :: l => by
    have ih := rampAt_volley T t l
    unfold rampAt at ih ⊢
    rw [List.map_cons, List.map_cons, List.sum_cons, ih, List.sum_cons]
    split_ifs
    · ring
    · ring

theorem rampAt_late {ws : List (K × K)} {t : K} (h : ∀ p ∈ ws, t ≤ p.1) : rampAt ws t = 0 := by
  unfold rampAt
  refine List.sum_eq_zero fun x hx => ?_
  obtain ⟨p, hp, rfl⟩ := List.mem_map.mp hx
  split_ifs with h'
  · have : p.1 = t := le_antisymm h' (h p hp)
    rw [this]; ring
  · rfl

theorem bumps_ge (V : K) : ∀ (ge : K) (l : List K), bumps (lin V ge) (l.map (fun w => (SynKind.ge, w))) = some (lin V (ge + l.sum))
  | ge, [] => by simp [bumps]
  | ge, w :: l => by
    rw [List.map_cons, bumps]
    show (some (lin V (ge + w))).bind _ = _
    rw [Option.bind_some, bumps_ge V (ge + w) l, List.sum_cons, add_assoc]

theorem quiet_ramp {E : PEnv K} {n : ℕ} (hpar : E.net.par n = stdPar) (hs : Sane E.exp E.dt)
    {V ge l t : K} {hits v vs L} {V' ge' : K}
    (hb : bumps (lin (V + ge / 100 * (t - l)) ge) hits = some (lin V' ge')) (hV0 : V' < 10) (hV : V' + ge' / 100 * (v.time - t) < 10)
    (h : Reacts E n (lin V' ge') t (v :: vs) L) : Reacts E n (lin V ge) l (⟨t, hits⟩ :: v :: vs) L := by
  rcases le_total 0 ge' with hg | hg
  · exact quiet_next hpar hs.pos hs.steps hb hg hV h
  · exact quiet_never hpar hs.pos hs.steps hb hV0 hg h

theorem ungroup_cons (v : K × List K) (vs : List (K × List K)) : ungroup (v :: vs) = v.2.map (fun w => (v.1, w)) ++ ungroup vs := rfl

theorem time_ungroup {vs : List (K × List K)} {p : K × K} (h : p ∈ ungroup vs) : ∃ v ∈ vs, p.1 = v.1 := by
  obtain ⟨v, hv, h⟩ := List.mem_flatMap.mp h
  obtain ⟨w, -, rfl⟩ := List.mem_map.mp h
  exact ⟨v, hv, rfl⟩

/-- Currents that stay below the threshold until all of them have stopped, and then one last current. -/
theorem reacts_ramps {E : PEnv K} {n : ℕ} (hpar : E.net.par n = stdPar) (hs : Sane E.exp E.dt) {W x M V0 : K} (hW : 0 < W) (hx : V0 + W / 100 * x = 10) (hx0 : 0 ≤ x)
    (h5 : x + 2 * E.dt ≤ 500) : ∀ (vs : List (K × List K)) (V ge l lo : K), (vs.map Prod.fst).Pairwise (· < ·) → (∀ v ∈ vs, lo ≤ v.1 ∧ v.1 < M) → lo ≤ M →
    (∀ t, lo ≤ t → t ≤ M → V + ge / 100 * (t - l) + rampAt (ungroup vs) t < 10) → ge + ((ungroup vs).map Prod.snd).sum = 0 →
    V + ge / 100 * (M - l) + rampAt (ungroup vs) M = V0 →
    Reacts E n (lin V ge) l (vs.map (fun v => ⟨v.1, v.2.map (fun w => (SynKind.ge, w))⟩) ++ [⟨M, [(.ge, W)]⟩]) [M + up E.dt x] := by
  intro vs
  induction vs with
  | nil =>
    intro V ge l lo _ _ _ _ hsum hM
    have hge : ge = 0 := by simpa [ungroup] using hsum
    subst hge
    refine fire_later (V' := V0) (ge' := W) (x := x) hpar hs.exp hs.pos hs.steps ?_ hW hx hx0 h5 (by simp) Reacts.done
    simp [ungroup, rampAt] at hM
    simp [bumps, bump, hM]
  | cons v vs ih =>
    intro V ge l lo hpw hlo hloM hlt hsum hM
    rw [List.map_cons, List.pairwise_cons] at hpw
    obtain ⟨hv1, hv2⟩ := hlo v (by simp)
    have later : ∀ u ∈ vs, v.1 < u.1 := fun u hu => hpw.1 u.1 (List.mem_map_of_mem hu)
    have split : ∀ t, v.1 ≤ t → V + ge / 100 * (t - l) + rampAt (ungroup (v :: vs)) t =
        (V + ge / 100 * (v.1 - l)) + (ge + v.2.sum) / 100 * (t - v.1) + rampAt (ungroup vs) t := by
      intro t ht
      rw [ungroup_cons, rampAt_append, rampAt_volley, if_pos ht]
      ring
    have hrest := ih (V + ge / 100 * (v.1 - l)) (ge + v.2.sum) v.1 v.1 hpw.2 (fun u hu => ⟨(later u hu).le, (hlo u (by simp [hu])).2⟩) hv2.le
      (fun t h1 h2 => by rw [← split t h1]; exact hlt t (hv1.trans h1) h2)
      (by
        rw [ungroup_cons, List.map_append, List.sum_append, List.map_map] at hsum
        have : (Prod.snd ∘ fun w : K => (v.1, w)) = id := rfl
        rw [this, List.map_id] at hsum
        linarith)
      (by rw [← split M hv2.le]; exact hM)
    have h0 : V + ge / 100 * (v.1 - l) < 10 := by
      have := hlt v.1 hv1 hv2.le
      rw [split v.1 le_rfl, rampAt_late] at this
      · linarith [show (ge + v.2.sum) / 100 * (v.1 - v.1) = 0 by ring]
      · intro p hp
        obtain ⟨u, hu, e⟩ := time_ungroup hp
        rw [e]; exact (later u hu).le
    cases vs with
    | nil =>
      refine quiet_ramp hpar hs (bumps_ge _ ge v.2) h0 ?_ hrest
      have := hlt M (hv1.trans hv2.le) le_rfl
      rw [split M hv2.le] at this
      simpa [ungroup, rampAt] using this
    | cons u us =>
      refine quiet_ramp hpar hs (bumps_ge _ ge v.2) h0 ?_ hrest
      have hu := later u (by simp)
      have := hlt u.1 (hv1.trans hu.le) (hlo u (by simp)).2.le
      rw [split u.1 hu.le, rampAt_late] at this
      · simpa using this
      · intro p hp
        obtain ⟨z, hz, e⟩ := time_ungroup hp
        rw [e]
        rcases List.mem_cons.mp hz with rfl | hz
        · exact le_rfl
        · have := hpw.2
          rw [List.map_cons, List.pairwise_cons] at this
          exact (this.1 z.1 (List.mem_map_of_mem hz)).le

/-- Hit by currents only: they stay below the threshold until all of them have stopped, and then comes one last current. -/
theorem Fits.ramps {E : PEnv K} {n : ℕ} {inj : List (ℕ × K)} {LS : ℕ → List K} (hpar : E.net.par n = stdPar) (hs : Sane E.exp E.dt) {W x M : K} (ws : List (K × K))
    (hW : 0 < W) (hx : rampAt ws M + W / 100 * x = 10) (hx0 : 0 ≤ x) (h5 : x + 2 * E.dt ≤ 500) (hM : ∀ p ∈ ws, p.1 < M) (hlt : ∀ t ≤ M, rampAt ws t < 10)
    (hsum : (ws.map Prod.snd).sum = 0)
    (ha : (Item.hit M .ge W :: ws.map (fun p => Item.hit p.1 .ge p.2)).Perm (arriving E.net inj LS n)) (hL : LS n = [M + up E.dt x]) : Fits E inj LS n := by
  obtain ⟨vs, h1, h2, h3⟩ := group_exists ws
  have hvM : ∀ v ∈ vs, v.1 < M := by
    intro v hv
    obtain ⟨w, hw⟩ := List.exists_mem_of_ne_nil _ (h2 v hv)
    have : (v.1, w) ∈ ungroup vs := List.mem_flatMap.mpr ⟨v, hv, List.mem_map.mpr ⟨w, hw, rfl⟩⟩
    exact hM _ (h3.subset this)
  obtain ⟨lo, hlo, hloM⟩ : ∃ lo, (∀ v ∈ vs, lo ≤ v.1) ∧ lo ≤ M := by
    clear h1 h2 h3
    induction vs with
    | nil => exact ⟨M, by simp, le_rfl⟩
    | cons u vs ih =>
      obtain ⟨lo, a, b⟩ := ih (fun v hv => hvM v (by simp [hv]))
      refine ⟨min lo u.1, ?_, (min_le_left _ _).trans b⟩
      intro v hv
      rcases List.mem_cons.mp hv with rfl | hv
      · exact min_le_right _ _
      · exact (min_le_left _ _).trans (a v hv)
  have key := reacts_ramps hpar hs hW hx hx0 h5 vs 0 0 0 lo h1 (fun v hv => ⟨hlo v hv, hvM v hv⟩) hloM
    (fun t _ ht => by rw [rampAt_perm h3]; simpa using hlt t ht) (by rw [(h3.map _).sum_eq, hsum]; simp)
    (by rw [rampAt_perm h3]; simp)
  refine Fits.of (vs.map (fun v => ⟨v.1, v.2.map (fun w => (SynKind.ge, w))⟩) ++ [⟨M, [(.ge, W)]⟩]) ?_ ?_ ?_ (hL ▸ key)
  · rw [List.map_append, List.map_map, List.pairwise_append]
    refine ⟨h1, by simp, ?_⟩
    intro a ha b hb
    obtain ⟨v, hv, rfl⟩ := List.mem_map.mp ha
    simp only [List.map_cons, List.map_nil, List.mem_singleton] at hb
    subst hb
    exact hvM v hv
  · intro v hv
    rcases List.mem_append.mp hv with hv | hv
    · obtain ⟨u, hu, rfl⟩ := List.mem_map.mp hv
      simpa using h2 u hu
    · simp only [List.mem_singleton] at hv
      subst hv; simp
  · refine List.Perm.trans ?_ ha
    rw [List.flatMap_append]
    refine (List.perm_append_comm).trans ?_
    show (Item.hit M SynKind.ge W :: (vs.map (fun v => (⟨v.1, v.2.map (fun w => (SynKind.ge, w))⟩ : Volley K))).flatMap Volley.items).Perm _
    refine List.Perm.cons _ ?_
    refine (List.Perm.of_eq ?_).trans (h3.map (fun p => Item.hit p.1 SynKind.ge p.2))
    rw [List.flatMap_map, ungroup, List.map_flatMap, List.flatMap_def, List.flatMap_def]
    congr 1
    apply List.map_congr_left
    intro v _
    simp [Volley.items, Function.comp_def]

/-- Weighted currents, each from `s i` to `e i`, then the recall: a weighted sum is stored. -/
theorem Fits.weigh {E : PEnv K} {n : ℕ} {inj : List (ℕ × K)} {LS : ℕ → List K} (hpar : E.net.par n = stdPar) (hs : Sane E.exp E.dt) {W x M p : K} (l : List ℕ) (a s e : ℕ → K)
    (hW : W * x = 1000) (hx : 0 < x) (ha0 : ∀ i ∈ l, 0 ≤ a i) (hse : ∀ i ∈ l, s i ≤ e i) (heM : ∀ i ∈ l, e i < M)
    (hp : (l.map (fun i => a i * (e i - s i))).sum = p) (hpx : p < x) (h5 : x + 2 * E.dt ≤ 500)
    (ha : (Item.hit M .ge W :: l.flatMap (fun i => [Item.hit (e i) .ge (-a i * W), Item.hit (s i) .ge (a i * W)])).Perm (arriving E.net inj LS n))
    (hL : LS n = [M + up E.dt (x - p)]) : Fits E inj LS n := by
  have hW0 : 0 < W := by by_contra h; nlinarith
  have hp0 : 0 ≤ p := by
    rw [← hp]
    refine List.sum_nonneg fun y hy => ?_
    obtain ⟨i, hi, rfl⟩ := List.mem_map.mp hy
    exact mul_nonneg (ha0 i hi) (by linarith [hse i hi])
  have hramp : ∀ t, rampAt (l.flatMap (fun i => [(e i, -a i * W), (s i, a i * W)])) t =
      (l.map (fun i => (if s i ≤ t then a i * W / 100 * (t - s i) else 0) - (if e i ≤ t then a i * W / 100 * (t - e i) else 0))).sum := by
    intro t
    unfold rampAt
    clear ha hp heM hse ha0
    induction l with
    | nil => simp
    | cons i l ih =>
      rw [List.flatMap_cons, List.map_append, List.sum_append, ih, List.map_cons, List.sum_cons]
      congr 1
      simp only [List.map_cons, List.map_nil, List.sum_cons, List.sum_nil]
      split_ifs <;> ring
  have hle : ∀ t, rampAt (l.flatMap (fun i => [(e i, -a i * W), (s i, a i * W)])) t ≤ W / 100 * p := by
    intro t
    rw [hramp, ← hp, ← List.sum_map_mul_left]
    refine List.sum_le_sum fun i hi => ?_
    have h1 := hse i hi
    have h2 : 0 ≤ a i * W / 100 := div_nonneg (mul_nonneg (ha0 i hi) hW0.le) (by norm_num)
    have h3 : W / 100 * (a i * (e i - s i)) = a i * W / 100 * (e i - s i) := by ring
    rw [h3]
    split_ifs with c1 c2 c2
    · exact le_of_eq (by ring)
    · rw [sub_zero]; exact mul_le_mul_of_nonneg_left (by linarith) h2
    · exfalso; linarith
    · rw [sub_zero]; exact mul_nonneg h2 (by linarith)
  have hend : rampAt (l.flatMap (fun i => [(e i, -a i * W), (s i, a i * W)])) M = W / 100 * p := by
    rw [hramp, ← hp, ← List.sum_map_mul_left]
    congr 1
    apply List.map_congr_left
    intro i hi
    have h1 := hse i hi
    have h2 := heM i hi
    rw [if_pos (by linarith), if_pos (by linarith)]; ring
  refine Fits.ramps hpar hs (l.flatMap (fun i => [(e i, -a i * W), (s i, a i * W)])) hW0 (x := x - p) (M := M) ?_ (by linarith) (by linarith) ?_ ?_ ?_ ?_ hL
  · rw [hend]; linear_combination hW / 100
  · intro q hq
    obtain ⟨i, hi, hq⟩ := List.mem_flatMap.mp hq
    have h1 := hse i hi
    have h2 := heM i hi
    simp only [List.mem_cons, List.not_mem_nil, or_false] at hq
    rcases hq with rfl | rfl <;> (dsimp only; linarith)
  · intro t _
    refine lt_of_le_of_lt (hle t) ?_
    have := mul_lt_mul_of_pos_left hpx (show 0 < W / 100 by positivity)
    linarith
  · clear ha hp heM hse ha0 hramp hle hend
    induction l with
    | nil => simp
    | cons i l ih => rw [List.flatMap_cons, List.map_append, List.sum_append, ih]; simp
  · rw [List.map_flatMap]; exact ha

end Axon
