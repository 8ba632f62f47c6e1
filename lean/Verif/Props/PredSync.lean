import Verif.Proofs.PredMem

/-! # C91: the synchronizer in the predictive simulator -/
set_option linter.unusedSectionVars false
namespace Axon
open Spec
variable {K : Type*} [Field K] [LinearOrder K] [IsStrictOrderedRing K] [FloorRing K]

theorem filter_pairs {f : ℕ → ℕ} (hf : ∀ i j, f i = f j → i = j) (t u : ℕ → K) : ∀ (l : List ℕ), l.Nodup → ∀ j,
    (l.flatMap (fun j => [(f j, t j), (f j, u j)])).filter (fun q => decide (q.1 = f j)) = if j ∈ l then [(f j, t j), (f j, u j)] else []
  | [], _, j => by simp
  | i :: l, h, j => by
    have ih := filter_pairs hf t u l (List.nodup_cons.mp h).2 j
    rw [List.flatMap_cons, List.filter_append, ih]
    by_cases e : i = j
    · subst e
      have := (List.nodup_cons.mp h).1
      simp [this]
    · have e' : f i ≠ f j := fun h => e (hf _ _ h)
      simp [e', Ne.symm e]

theorem filter_pairs_none {f : ℕ → ℕ} (t u : ℕ → K) (l : List ℕ) {n : ℕ} (h : ∀ i, f i ≠ n) :
    (l.flatMap (fun j => [(f j, t j), (f j, u j)])).filter (fun q => decide (q.1 = n)) = [] := by
  rw [List.filter_eq_nil_iff]
  intro q hq
  obtain ⟨i, -, hq⟩ := List.mem_flatMap.mp hq
  simp only [List.mem_cons, List.not_mem_nil, or_false] at hq
  rcases hq with rfl | rfl <;> simpa using h i

/-- The trains of a synchronizer: those of the `sync` neuron and of the neurons of each channel. -/
def syncLS (N : ℕ) (S0 : List K) (Ch : ℕ → ℕ → List K) (x : ℕ) : List K :=
  if x = 0 then S0 else if x < 1 + 10 * N then Ch ((x - 1) / 10) ((x - 1) % 10) else []

theorem syncLS_chan {N j o : ℕ} (hj : j < N) (ho : o < 10) (S0 : List K) (Ch : ℕ → ℕ → List K) : syncLS N S0 Ch (1 + 10 * j + o) = Ch j o := by
  unfold syncLS
  rw [if_neg (by omega), if_pos (by omega), show (1 + 10 * j + o - 1) / 10 = j by omega, show (1 + 10 * j + o - 1) % 10 = o by omega]

theorem chanSyns_delay (enc : Encoder K) (N sync b : ℕ) : ∀ k, ∀ s ∈ chanSyns enc N sync b k, 0 < s.delay
  | 0, s, h => by simp [chanSyns] at h
  | k + 1, s, h => by
    rw [chanSyns, List.mem_append] at h
    rcases h with h | h
    · rw [roundSyns, memSyns_eq] at h
      simp only [List.map_cons, List.map_nil, List.cons_append, List.nil_append, Synapse.shift] at h
      fin_cases h <;> norm_num
    · exact chanSyns_delay enc N sync b k s h

/-- The spike trains of a synchronizer, in terms of those of its parts. -/
theorem sync_pred (H : TimeHeap K) {exp : K → K} {enc : Encoder K} {dt : K} (hs : Sane exp dt) (name : Option String) {N : ℕ} {t u : ℕ → K} (act : ℕ → Bool)
    {cs : List (Call K)} (hcs : ∀ c ∈ cs, CallOK c)
    (hinj : cs.flatMap (predSpikes enc) = ((List.range N).filter act).flatMap (fun j => [(1 + 10 * j, t j), (1 + 10 * j, u j)]))
    (htu : ∀ j < N, t j < u j) (S0 : List K) (Ch : ℕ → ℕ → List K) (hCh : ∀ j < N, Ch j 0 = if act j then [t j, u j] else [])
    (hmem : ∀ j < N, ∀ E : PEnv K, Sane E.exp E.dt → E.dt = dt → E.net.syns = memSyns enc → (∀ x < 8, E.net.par x = stdPar) → ∀ x < 8,
      Fits E ((Ch j 0).map (fun t => (0, t + 1)) ++ S0.map (fun t => (5, t + 1))) (fun k => Ch j (k + 2)) x)
    (hout : ∀ j < N, ∀ E : PEnv K, Sane E.exp E.dt → ∀ (n : ℕ) (inj : List (ℕ × K)) (LS : ℕ → List K), E.net.par n = stdPar →
      ((Ch j 9).map (fun t => Item.hit (t + 1) .V 10)).Perm (arriving E.net inj LS n) → LS n = Ch j 1 → Fits E inj LS n)
    (hsync : ∀ E : PEnv K, Sane E.exp E.dt → ∀ (n : ℕ) (inj : List (ℕ × K)) (LS : ℕ → List K), E.net.par n = stdPar →
      ((List.range N).flatMap (fun j => (Ch j 8).map (fun t => Item.hit (t + 1) .V (syncW N)))).Perm (arriving E.net inj LS n) → LS n = S0 → Fits E inj LS n)
    {P : (ℕ → Option (List K)) → Prop} (hP : ∀ log : ℕ → Option (List K), log 0 = some S0 → (∀ j < N, ∀ o < 10, log (1 + 10 * j + o) = some (Ch j o)) → P log) :
    PredEnds H exp enc dt (synchronizerNetwork enc N name World.empty).2 0 cs P := by
  obtain ⟨lib, syns, -⟩ := sync_spec enc N name
  have hdt := hs.pos
  refine LibOK.pred lib H enc hdt (by rw [syns]; exact chanSyns_delay enc N 0 1 N) hcs ?_ (syncLS N S0 Ch) ?_ ?_ ?_
  · rw [hinj]
    intro q hq
    obtain ⟨j, hj, hq⟩ := List.mem_flatMap.mp hq
    have : j < N := by simpa using (List.mem_filter.mp hj).1
    simp only [List.mem_cons, List.not_mem_nil, or_false] at hq
    rcases hq with rfl | rfl <;> (dsimp only; omega)
  · intro x hx
    unfold syncLS; rw [if_neg (by omega), if_neg (by omega)]
  · intro E e1 e2 e3 e4 x hx
    have hsE : Sane E.exp E.dt := by rw [e1, e2]; exact hs
    have hp := e4 x hx
    rw [hinj]
    rw [syns] at e3
    have hins : ∀ n, (insOf E.net.syns n).Perm (insOf (chanSyns enc N 0 1 N) n) := by
      intro n; rw [e3]; exact (List.reverse_perm _).filter _
    rcases Nat.eq_zero_or_pos x with rfl | hx0
    · refine hsync E hsE 0 _ _ hp ?_ rfl
      rw [arriving_ins, filter_pairs_none (f := fun j => 1 + 10 * j) t u _ (by intro i; omega), List.map_nil, List.nil_append]
      refine ((List.Perm.flatMap_right _ ((hins 0).trans (insOf_sync enc N (by omega) N))).trans ?_).symm
      rw [List.flatMap_map]
      refine List.Perm.of_eq ?_
      rw [List.flatMap_def, List.flatMap_def]
      congr 1
      apply List.map_congr_left
      intro j hj
      have hj : j < N := by simpa using hj
      rw [syncLS_chan hj (by omega)]
    · obtain ⟨j, o, hj, ho, rfl⟩ : ∃ j o, j < N ∧ o < 10 ∧ x = 1 + 10 * j + o := ⟨(x - 1) / 10, (x - 1) % 10, by omega, by omega, by omega⟩
      have hb := (hins (1 + 10 * j + o)).trans (List.Perm.of_eq (insOf_chan enc N (by omega) N j o hj ho))
      rw [round_rest _ _ _ _ _ (by omega)] at hb
      have four : ∀ o', (∀ o'' ∈ [7, 1, 2], o'' ≠ o') → insOf [⟨0, 1 + 10 * j + 7, 10, 1, .V⟩, ⟨1 + 10 * j + 8, 0, syncW N, 1, .V⟩, ⟨1 + 10 * j + 9, 1 + 10 * j + 1, 10, 1, .V⟩,
          (⟨1 + 10 * j, 1 + 10 * j + 2, 10, 1, .V⟩ : Synapse K)] (1 + 10 * j + o') = [] := by
        intro o' ho'
        unfold insOf
        rw [List.filter_eq_nil_iff]
        intro s hs hc
        have := of_decide_eq_true hc
        have h7 := ho' 7 (by simp)
        have h1 := ho' 1 (by simp)
        have h2 := ho' 2 (by simp)
        simp only [List.mem_cons, List.not_mem_nil, or_false] at hs
        rcases hs with rfl | rfl | rfl | rfl <;> (dsimp only at this; omega)
      have hLS : syncLS N S0 Ch (1 + 10 * j + o) = Ch j o := syncLS_chan hj ho _ _
      rcases Nat.lt_or_ge o 2 with ho2 | ho2
      · interval_cases o
        · have hin : insOf E.net.syns (1 + 10 * j + 0) = [] := by
            rw [four 0 (by decide), memShift_low _ _ _ (by omega), List.append_nil] at hb
            exact hb.eq_nil
          rw [Nat.add_zero] at hin hLS hp ⊢
          have harr : arriving E.net (((List.range N).filter act).flatMap (fun j => [(1 + 10 * j, t j), (1 + 10 * j, u j)])) (syncLS N S0 Ch) (1 + 10 * j) =
              if act j then [Item.hit (t j) .V 10, Item.hit (u j) .V 10] else [] := by
            rw [arriving_ins, hin, filter_pairs (f := fun j => 1 + 10 * j) (by intro a b; omega) t u _ (List.nodup_range.filter _) j, hp]
            by_cases h : act j <;> simp [h, hj, stdPar]
          by_cases h : act j
          · exact Fits.pair hp hsE (htu j hj) (by rw [harr, if_pos h]) (by rw [hLS, hCh j hj, if_pos h])
          · exact Fits.none (by rw [harr, if_neg h]) (by rw [hLS, hCh j hj, if_neg h])
        · refine hout j hj E hsE _ _ _ hp ?_ hLS
          rw [memShift_low _ _ _ (by omega), List.append_nil] at hb
          rw [arriving_ins, filter_pairs_none (f := fun j => 1 + 10 * j) t u _ (by intro i; omega), List.map_nil, List.nil_append]
          refine ((List.Perm.flatMap_right _ hb).trans (List.Perm.of_eq ?_)).symm
          unfold insOf
          rw [List.filter_cons_of_neg (by intro hc; have := of_decide_eq_true hc; dsimp only at this; omega),
            List.filter_cons_of_neg (by intro hc; have := of_decide_eq_true hc; dsimp only at this; omega),
            List.filter_cons_of_pos (by simp),
            List.filter_cons_of_neg (by intro hc; have := of_decide_eq_true hc; dsimp only at this; omega)]
          simp [syncLS_chan hj (show 9 < 10 by omega)]
      · obtain ⟨k, rfl⟩ : ∃ k, o = k + 2 := ⟨o - 2, by omega⟩
        refine Fits.move (E' := E.only (memSyns enc)) (n' := k) rfl rfl hp.symm (by rw [hLS]) ?_
          (hmem j hj (E.only (memSyns enc)) hsE e2 rfl (fun _ _ => rfl) k (by omega))
        rw [arriving_ins, arriving_ins, filter_pairs_none (f := fun j => 1 + 10 * j) t u _ (by intro i; omega), List.map_nil, List.nil_append]
        refine List.Perm.trans ?_ (List.Perm.flatMap_right _ hb).symm
        rw [List.flatMap_append, show 1 + 10 * j + (k + 2) = 1 + 10 * j + 2 + k by omega, insOf_memShift, List.flatMap_map]
        refine List.Perm.append (List.Perm.of_eq ?_) (List.Perm.of_eq ?_)
        · rw [List.filter_append, List.map_append]
          have hz : ∀ (m : ℕ) (L : List K), (L.map (fun t => (m, t + 1))).filter (fun q => decide (q.1 = k)) = if m = k then L.map (fun t => (m, t + 1)) else [] := by
            intro m L
            by_cases h : m = k
            · rw [if_pos h, List.filter_eq_self]; simp [h]
            · rw [if_neg h, List.filter_eq_nil_iff]; simp [h]
          rw [hz, hz]
          have hS0 : syncLS N S0 Ch 0 = S0 := rfl
          have hC0 : syncLS N S0 Ch (1 + 10 * j) = Ch j 0 := syncLS_chan (o := 0) hj (by omega) S0 Ch
          by_cases h0 : k = 0
          · subst h0
            unfold insOf
            rw [List.filter_cons_of_neg (by intro hc; have := of_decide_eq_true hc; dsimp only at this; omega),
              List.filter_cons_of_neg (by intro hc; have := of_decide_eq_true hc; dsimp only at this; omega),
              List.filter_cons_of_neg (by intro hc; have := of_decide_eq_true hc; dsimp only at this; omega),
              List.filter_cons_of_pos (by simp)]
            simp [PEnv.only, stdPar, hC0]
          · by_cases h5 : k = 5
            · subst h5
              unfold insOf
              rw [List.filter_cons_of_pos (by simp),
                List.filter_cons_of_neg (by intro hc; have := of_decide_eq_true hc; dsimp only at this; omega),
                List.filter_cons_of_neg (by intro hc; have := of_decide_eq_true hc; dsimp only at this; omega),
                List.filter_cons_of_neg (by intro hc; have := of_decide_eq_true hc; dsimp only at this; omega)]
              simp [PEnv.only, stdPar, hS0]
            · rw [show 1 + 10 * j + 2 + k = 1 + 10 * j + (k + 2) by omega, four (k + 2) (by intro o''; simp; omega), if_neg (by omega), if_neg (by omega)]
              rfl
        · rw [List.flatMap_def, List.flatMap_def]
          congr 1
          apply List.map_congr_left
          intro s hs
          have hs : s ∈ memSyns enc := (List.mem_filter.mp hs).1
          have := (memSyns_bd enc s hs).1.1
          simp only [Synapse.shift]
          rw [show 1 + 10 * j + 2 + s.pre = 1 + 10 * j + (s.pre + 2) by omega, syncLS_chan hj (by omega)]
  · intro log h
    refine hP log (h 0 (by omega)) (fun j hj o ho => ?_)
    rw [h _ (by omega), syncLS_chan hj ho]

/-- The trains of a channel that is given a value and recalled at `R`. -/
def chanLS (t u ready R C : K) : ℕ → List K
  | 0 => [t, u]
  | 1 => [R + 3, R + 3 + C]
  | k + 2 => memLS (t + 1) (u + 1) ready [R + 1 + C] [R] [R + 2, R + 2 + C] k

theorem sync_full (H : TimeHeap K) {exp : K → K} {enc : Encoder K} (h1 : 1 ≤ enc.Tmin) (h2 : 0 < enc.Tcod) {dt : K} (hs : Sane exp dt) (hd : dt ≤ 1) (h5 : enc.Tmax + 2 * dt ≤ 500)
    (name : Option String) {N : ℕ} (hN1 : 1 ≤ N) (hN : N ≤ 316) {v t : ℕ → K} (hv : ∀ j < N, 0 ≤ v j ∧ v j ≤ 1) {cs : List (Call K)} (hcs : ∀ c ∈ cs, CallOK c)
    (hinj : cs.flatMap (predSpikes enc) = (List.range N).flatMap (fun j => [(1 + 10 * j, t j), (1 + 10 * j, t j + (enc.Tmin + v j * enc.Tcod))])) :
    let p := (synchronizerNetwork enc N name World.empty).1
    PredEnds H exp enc dt (synchronizerNetwork enc N name World.empty).2 0 cs (fun log =>
      (∃ q, ∀ j < N, ∃ r, q < r ∧ log p.outputs[j]! = some [q, r] ∧ |r - q - (enc.Tmin + v j * enc.Tcod)| ≤ dt) ∧
      ∃ s, log p.sync = some [s] ∧ ∀ j < N, ∃ r, r < s ∧ log (p.blocks.map (·.ready))[j]! = some [r]) := by
  intro p
  have hdt := hs.pos
  obtain ⟨-, -, -, e1, -, e3, e4⟩ := sync_spec enc N name
  obtain ⟨j0, hj0, hmax⟩ : ∃ j0 < N, ∀ j < N, t j ≤ t j0 := by
    obtain ⟨j0, h, h'⟩ := Finset.exists_max_image (Finset.range N) t ⟨0, by simp; omega⟩
    exact ⟨j0, by simpa using h, fun j hj => h' j (by simpa using hj)⟩
  have hTm : enc.Tmax = enc.Tmin + enc.Tcod := rfl
  have hA1 := le_up hdt enc.Tmax
  have hA2 := up_lt hdt enc.Tmax
  have hC : ∀ j < N, 0 < enc.Tmin + v j * enc.Tcod - (up dt enc.Tmax - enc.Tmax) := by
    intro j hj
    have := mul_nonneg (hv j hj).1 h2.le
    linarith
  refine sync_pred H hs name (N := N) (t := t) (u := fun j => t j + (enc.Tmin + v j * enc.Tcod)) (fun _ => true) hcs (by rw [hinj, List.filter_true]) ?_
    [t j0 + up dt enc.Tmax + 5]
    (fun j => chanLS (t j) (t j + (enc.Tmin + v j * enc.Tcod)) (t j + 1 + up dt enc.Tmax + 3) (t j0 + up dt enc.Tmax + 5 + 1)
      (up dt (enc.Tmin + v j * enc.Tcod - (up dt enc.Tmax - enc.Tmax)))) ?_ ?_ ?_ ?_ ?_
  · intro j hj
    have := mul_nonneg (hv j hj).1 h2.le
    show t j < t j + (enc.Tmin + v j * enc.Tcod)
    linarith
  · intro j hj; rfl
  · intro j hj E hsE hE e3 e4 x hx
    subst hE
    have := hmax j hj
    exact mem_fits h1 h2 hsE hd h5 e3 e4 (hv j hj).1 (hv j hj).2 (by ring) (by linarith) rfl x hx
  · intro j hj E hsE n inj LS hp ha hL
    have := hC j hj
    have := le_up hdt (enc.Tmin + v j * enc.Tcod - (up dt enc.Tmax - enc.Tmax))
    refine Fits.pair hp hsE ?_ (List.Perm.trans (List.Perm.of_eq ?_) ha) hL
    · linarith
    · simp only [chanLS, memLS, List.getD_cons_succ, List.getD_cons_zero, List.map_cons, List.map_nil]
      generalize up dt (enc.Tmin + v j * enc.Tcod - (up dt enc.Tmax - enc.Tmax)) = C
      rw [show t j0 + up dt enc.Tmax + 5 + 1 + 3 = t j0 + up dt enc.Tmax + 5 + 1 + 2 + 1 by ring,
        show t j0 + up dt enc.Tmax + 5 + 1 + 2 + 1 + C = t j0 + up dt enc.Tmax + 5 + 1 + 2 + C + 1 by ring]
  · intro E hsE n inj LS hp ha hL
    refine Fits.gather hp hsE (w := syncW N) (N := N) (c := fun j => t j + up dt enc.Tmax + 5) ((syncW_lt hN1).mpr hN) (syncW_all hN1)
      (fun j hj => by have := hmax j hj; linarith) ⟨j0, hj0, rfl⟩ (List.Perm.trans (List.Perm.of_eq ?_) ha) hL
    rw [List.flatMap_def, ← List.flatMap_def, ← List.flatMap_pure_eq_map]
    rw [List.flatMap_def, List.flatMap_def]
    congr 1
    apply List.map_congr_left
    intro j _
    simp only [chanLS, memLS, List.getD_cons_succ, List.getD_cons_zero, List.map_cons, List.map_nil]
    rw [show t j + 1 + up dt enc.Tmax + 3 + 1 = t j + up dt enc.Tmax + 5 by ring]
    rfl
  · intro log l0 lj
    refine ⟨⟨t j0 + up dt enc.Tmax + 5 + 1 + 3, fun j hj => ?_⟩, t j0 + up dt enc.Tmax + 5, ?_, fun j hj => ?_⟩
    · have e : p.outputs[j]! = 1 + 10 * j + 1 := by
        show (synchronizerNetwork enc N name World.empty).1.outputs[j]! = _
        rw [e3]; simp [hj]
      rw [e]
      have c0 := hC j hj
      have c1 := le_up hdt (enc.Tmin + v j * enc.Tcod - (up dt enc.Tmax - enc.Tmax))
      have c2 := up_lt hdt (enc.Tmin + v j * enc.Tcod - (up dt enc.Tmax - enc.Tmax))
      refine ⟨_, ?_, lj j hj 1 (by omega), ?_⟩
      · linarith
      · rw [abs_le]; constructor <;> linarith
    · show log (synchronizerNetwork enc N name World.empty).1.sync = _
      rw [e1]; exact l0
    · have e : (p.blocks.map (·.ready))[j]! = 1 + 10 * j + 8 := by
        show ((synchronizerNetwork enc N name World.empty).1.blocks.map (·.ready))[j]! = _
        rw [e4]; simp [hj]
      rw [e]
      have := hmax j hj
      exact ⟨_, by linarith, lj j hj 8 (by omega)⟩

/-- **C91.** In the predictive simulator, a `SynchronizerNetwork` with `N ≤ 316` inputs that receives the value `v j` on its `j`-th input from
time `t j` on (as two spikes): all outputs start at the same time and carry `v j` up to `dt`; the `sync` neuron fires exactly once, after each
of the `ready` signals. -/
theorem C91_synchronizer (H : TimeHeap K) {exp : K → K} {enc : Encoder K} (h1 : 1 ≤ enc.Tmin) (h2 : 0 < enc.Tcod) {dt : K} (hs : Sane exp dt) (hd : dt ≤ 1)
    (h5 : enc.Tmax + 2 * dt ≤ 500) (name : Option String) {N : ℕ} (hN1 : 1 ≤ N) (hN : N ≤ 316) {v t : ℕ → K} (hv : ∀ j < N, 0 ≤ v j ∧ v j ≤ 1) :
    let p := (synchronizerNetwork enc N name World.empty).1
    let w := (synchronizerNetwork enc N name World.empty).2
    PredEnds H exp enc dt w p.mod ((List.range N).flatMap (fun j => [.spike p.inputs[j]! (t j), .spike p.inputs[j]! (t j + (enc.Tmin + v j * enc.Tcod))])) (fun log =>
      (∃ q, ∀ j < N, ∃ r, q < r ∧ log p.outputs[j]! = some [q, r] ∧ |r - q - (enc.Tmin + v j * enc.Tcod)| ≤ dt) ∧
      ∃ s, log p.sync = some [s] ∧ ∀ j < N, ∃ r, r < s ∧ log (p.blocks.map (·.ready))[j]! = some [r]) := by
  intro p w
  have e0 : p.mod = 0 := (sync_spec enc N name).2.2.1
  have e2 := (sync_spec enc N name).2.2.2.2.1
  have hi : ∀ j < N, p.inputs[j]! = 1 + 10 * j := by
    intro j hj
    show (synchronizerNetwork enc N name World.empty).1.inputs[j]! = _
    rw [e2]; simp [hj]
  rw [e0]
  refine sync_full H h1 h2 hs hd h5 name hN1 hN (t := t) hv ?_ ?_
  · intro c hc
    obtain ⟨j, -, hc⟩ := List.mem_flatMap.mp hc
    simp only [List.mem_cons, List.not_mem_nil, or_false] at hc
    rcases hc with rfl | rfl <;> trivial
  · rw [List.flatMap_assoc, List.flatMap_def, List.flatMap_def]
    congr 1
    apply List.map_congr_left
    intro j hj
    simp only [List.flatMap_cons, List.flatMap_nil, predSpikes, hi j (by simpa using hj)]
    rfl

/-- **C91**, for values given with `apply_input_value` (which enter at time 0). -/
theorem C91_synchronizer_values (H : TimeHeap K) {exp : K → K} {enc : Encoder K} (h1 : 1 ≤ enc.Tmin) (h2 : 0 < enc.Tcod) {dt : K} (hs : Sane exp dt) (hd : dt ≤ 1)
    (h5 : enc.Tmax + 2 * dt ≤ 500) (name : Option String) {N : ℕ} (hN1 : 1 ≤ N) (hN : N ≤ 316) {v t : ℕ → K} (hv : ∀ j < N, 0 ≤ v j ∧ v j ≤ 1) :
    let p := (synchronizerNetwork enc N name World.empty).1
    let w := (synchronizerNetwork enc N name World.empty).2
    PredEnds H exp enc dt w p.mod ((List.range N).map (fun j => .value (v j) p.inputs[j]! (t j))) (fun log =>
      (∃ q, ∀ j < N, ∃ r, q < r ∧ log p.outputs[j]! = some [q, r] ∧ |r - q - (enc.Tmin + v j * enc.Tcod)| ≤ dt) ∧
      ∃ s, log p.sync = some [s] ∧ ∀ j < N, ∃ r, r < s ∧ log (p.blocks.map (·.ready))[j]! = some [r]) := by
  intro p w
  have e0 : p.mod = 0 := (sync_spec enc N name).2.2.1
  have e2 := (sync_spec enc N name).2.2.2.2.1
  have hi : ∀ j < N, p.inputs[j]! = 1 + 10 * j := by
    intro j hj
    show (synchronizerNetwork enc N name World.empty).1.inputs[j]! = _
    rw [e2]; simp [hj]
  rw [e0]
  refine sync_full H h1 h2 hs hd h5 name hN1 hN (t := fun _ => 0) hv ?_ ?_
  · intro c hc
    obtain ⟨j, hj, rfl⟩ := List.mem_map.mp hc
    exact hv j (by simpa using hj)
  · rw [List.flatMap_map, List.flatMap_def, List.flatMap_def]
    congr 1
    apply List.map_congr_left
    intro j hj
    simp [predSpikes, hi j (by simpa using hj)]

/-- The trains of a channel that is given a value and not recalled, or given nothing. -/
def waitLS (act : Bool) (t u ready : K) : ℕ → List K
  | 0 => if act then [t, u] else []
  | 1 => []
  | k + 2 => if act then memLS (t + 1) (u + 1) ready [] [] [] k else []

/-- **C91 (waiting).** With `N ≤ 316` inputs, whenever some input has received no value, the `sync` neuron and all outputs stay silent. -/
theorem C91_waits_for_all (H : TimeHeap K) {exp : K → K} {enc : Encoder K} (h1 : 1 ≤ enc.Tmin) (h2 : 0 < enc.Tcod) {dt : K} (hs : Sane exp dt) (hd : dt ≤ 1)
    (h5 : enc.Tmax + 2 * dt ≤ 500) (name : Option String) {N : ℕ} (hN : N ≤ 316) {v t : ℕ → K} (hv : ∀ j < N, 0 ≤ v j ∧ v j ≤ 1)
    (act : ℕ → Bool) (hact : ∃ j < N, act j = false) :
    let p := (synchronizerNetwork enc N name World.empty).1
    let w := (synchronizerNetwork enc N name World.empty).2
    PredEnds H exp enc dt w p.mod (((List.range N).filter act).flatMap (fun j => [.spike p.inputs[j]! (t j), .spike p.inputs[j]! (t j + (enc.Tmin + v j * enc.Tcod))])) (fun log =>
      Quiet (log p.sync) ∧ ∀ j < N, Quiet (log p.outputs[j]!)) := by
  intro p w
  have hdt := hs.pos
  obtain ⟨-, -, e0, e1, e2, e3, -⟩ := sync_spec enc N name
  have e0 : p.mod = 0 := e0
  have hi : ∀ j < N, p.inputs[j]! = 1 + 10 * j := by
    intro j hj
    show (synchronizerNetwork enc N name World.empty).1.inputs[j]! = _
    rw [e2]; simp [hj]
  rw [e0]
  obtain ⟨j0, hj0, hja⟩ := hact
  refine sync_pred H hs name (N := N) (t := t) (u := fun j => t j + (enc.Tmin + v j * enc.Tcod)) act ?_ ?_ ?_ []
    (fun j => waitLS (act j) (t j) (t j + (enc.Tmin + v j * enc.Tcod)) (t j + 1 + up dt enc.Tmax + 3)) ?_ ?_ ?_ ?_ ?_
  · intro c hc
    obtain ⟨j, -, hc⟩ := List.mem_flatMap.mp hc
    simp only [List.mem_cons, List.not_mem_nil, or_false] at hc
    rcases hc with rfl | rfl <;> trivial
  · rw [List.flatMap_assoc, List.flatMap_def, List.flatMap_def]
    congr 1
    apply List.map_congr_left
    intro j hj
    have hj : j < N := by simpa using (List.mem_filter.mp hj).1
    simp only [List.flatMap_cons, List.flatMap_nil, predSpikes, hi j hj]
    rfl
  · intro j hj
    have := mul_nonneg (hv j hj).1 h2.le
    show t j < t j + (enc.Tmin + v j * enc.Tcod)
    linarith
  · intro j hj; rfl
  · intro j hj E hsE hE e3 e4 x hx
    subst hE
    by_cases ha : act j
    · have := mem_fits_stored h1 h2 hsE hd h5 e3 e4 (hv j hj).1 (hv j hj).2 (a := t j + 1) (b := t j + (enc.Tmin + v j * enc.Tcod) + 1) (by ring) x hx
      simpa [waitLS, ha] using this
    · refine Fits.none ?_ ?_
      · rw [arriving_ins]
        simp [waitLS, ha]
      · simp [waitLS, ha]
  · intro j hj E hsE n inj LS hp ha hL
    refine Fits.none ?_ hL
    have : (waitLS (act j) (t j) (t j + (enc.Tmin + v j * enc.Tcod)) (t j + 1 + up dt enc.Tmax + 3)) 9 = [] := by
      by_cases h : act j <;> simp [waitLS, memLS, h]
    rw [this] at ha
    exact ha.symm.eq_nil
  · intro E hsE n inj LS hp ha hL
    refine Fits.gather_none hp hsE (w := syncW N) (l := (List.range N).filter act) (c := fun j => t j + up dt enc.Tmax + 5) syncW_pos ?_ (List.Perm.trans (List.Perm.of_eq ?_) ha) hL
    · have hlen : ((List.range N).filter act).length ≤ N - 1 := by
        have h : ((List.range N).filter act).length < (List.range N).length := by
          rw [List.length_filter_lt_length_iff_exists]
          exact ⟨j0, by simpa using hj0, by simp [hja]⟩
        rw [List.length_range] at h; omega
      exact lt_of_le_of_lt (mul_le_mul_of_nonneg_right (Nat.cast_le.mpr hlen) syncW_pos.le) ((syncW_lt (by omega)).mpr hN)
    · clear ha hj0
      induction (List.range N) with
      | nil => rfl
      | cons j l ih =>
        rw [List.flatMap_cons, ← ih]
        by_cases h : act j
        · rw [List.filter_cons_of_pos h, List.map_cons]
          simp only [waitLS, memLS, h, if_true, List.getD_cons_succ, List.getD_cons_zero, List.map_cons, List.map_nil, List.cons_append, List.nil_append]
          congr 2; ring
        · rw [List.filter_cons_of_neg h]
          simp [waitLS, h]
  · intro log l0 lj
    refine ⟨?_, fun j hj => ?_⟩
    · show Quiet (log (synchronizerNetwork enc N name World.empty).1.sync)
      rw [e1]; exact l0
    · have e : p.outputs[j]! = 1 + 10 * j + 1 := by
        show (synchronizerNetwork enc N name World.empty).1.outputs[j]! = _
        rw [e3]; simp [hj]
      rw [e]
      exact lj j hj 1 (by omega)

/-- A concrete case of C91: three values at three different times. -/
example : PredEnds (sortedHeap _) (fun _ => 0) ⟨10, 100⟩ (1 / 100) (synchronizerNetwork (⟨10, 100⟩ : Encoder ℚ) 3 none World.empty).2 0
    ((List.range 3).flatMap (fun j : ℕ => [.spike (synchronizerNetwork (⟨10, 100⟩ : Encoder ℚ) 3 none World.empty).1.inputs[j]! (50 * (j : ℚ)),
      .spike (synchronizerNetwork (⟨10, 100⟩ : Encoder ℚ) 3 none World.empty).1.inputs[j]! (50 * (j : ℚ) + (10 + (j : ℚ) / 3 * 100))])) (fun log =>
      ∃ q, ∀ j : ℕ, j < 3 → ∃ r, q < r ∧ log (synchronizerNetwork (⟨10, 100⟩ : Encoder ℚ) 3 none World.empty).1.outputs[j]! = some [q, r] ∧ |r - q - (10 + (j : ℚ) / 3 * 100)| ≤ 1 / 100) := by
  obtain ⟨N, st, a, b, -⟩ := C91_synchronizer (sortedHeap _) (exp := fun _ => (0 : ℚ)) (enc := ⟨10, 100⟩) (by norm_num) (by norm_num) sane0 (by norm_num)
    (by norm_num [Encoder.Tmax]) none (N := 3) (by norm_num) (by norm_num) (v := fun j => (j : ℚ) / 3) (t := fun j => 50 * (j : ℚ)) (by intro j hj; interval_cases j <;> norm_num)
  exact ⟨N, st, a, b⟩

/-! ## The theorems of this file on concrete cases -/

/-- `C91_synchronizer_values`: three values given with `apply_input_value`. -/
example : PredEnds (sortedHeap _) (fun _ => 0) ⟨10, 100⟩ (1 / 100) (synchronizerNetwork (⟨10, 100⟩ : Encoder ℚ) 3 none World.empty).2
    (synchronizerNetwork (⟨10, 100⟩ : Encoder ℚ) 3 none World.empty).1.mod
    ((List.range 3).map (fun j : ℕ => .value ((j : ℚ) / 3) (synchronizerNetwork (⟨10, 100⟩ : Encoder ℚ) 3 none World.empty).1.inputs[j]! 0)) (fun log =>
      ∃ q, ∀ j : ℕ, j < 3 → ∃ r, q < r ∧ log (synchronizerNetwork (⟨10, 100⟩ : Encoder ℚ) 3 none World.empty).1.outputs[j]! = some [q, r] ∧ |r - q - (10 + (j : ℚ) / 3 * 100)| ≤ 1 / 100) := by
  obtain ⟨N, st, a, b, -⟩ := C91_synchronizer_values (sortedHeap _) (exp := fun _ => (0 : ℚ)) (enc := ⟨10, 100⟩) (by norm_num) (by norm_num) sane0 (by norm_num)
    (by norm_num [Encoder.Tmax]) none (N := 3) (by norm_num) (by norm_num) (v := fun j => (j : ℚ) / 3) (t := fun _ => 0) (by intro j hj; interval_cases j <;> norm_num)
  exact ⟨N, st, a, b⟩

/-- `C91_waits_for_all`: with the second of three values missing nothing comes out. -/
example : PredEnds (sortedHeap _) (fun _ => 0) ⟨10, 100⟩ (1 / 100) (synchronizerNetwork (⟨10, 100⟩ : Encoder ℚ) 3 none World.empty).2
    (synchronizerNetwork (⟨10, 100⟩ : Encoder ℚ) 3 none World.empty).1.mod
    (((List.range 3).filter (fun j => j != 1)).flatMap (fun j : ℕ => [.spike (synchronizerNetwork (⟨10, 100⟩ : Encoder ℚ) 3 none World.empty).1.inputs[j]! (50 * (j : ℚ)),
      .spike (synchronizerNetwork (⟨10, 100⟩ : Encoder ℚ) 3 none World.empty).1.inputs[j]! (50 * (j : ℚ) + (10 + (j : ℚ) / 3 * 100))])) (fun log =>
      Quiet (log (synchronizerNetwork (⟨10, 100⟩ : Encoder ℚ) 3 none World.empty).1.sync) ∧
      ∀ j < 3, Quiet (log (synchronizerNetwork (⟨10, 100⟩ : Encoder ℚ) 3 none World.empty).1.outputs[j]!)) :=
  C91_waits_for_all (sortedHeap _) (exp := fun _ => (0 : ℚ)) (enc := ⟨10, 100⟩) (by norm_num) (by norm_num) sane0 (by norm_num)
    (by norm_num [Encoder.Tmax]) none (N := 3) (by norm_num) (v := fun j => (j : ℚ) / 3) (t := fun j => 50 * (j : ℚ)) (by intro j hj; interval_cases j <;> norm_num)
    (fun j => j != 1) ⟨1, by norm_num, rfl⟩

end Axon
