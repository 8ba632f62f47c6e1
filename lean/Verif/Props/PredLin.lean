import Verif.Proofs.PredLin
import Verif.Props.PredSync
import Verif.Props.LinComb

/-! # C92: linear combinations in the predictive simulator -/
set_option linter.unusedSectionVars false
namespace Axon
open Spec
variable {K : Type*} [Field K] [LinearOrder K] [IsStrictOrderedRing K] [FloorRing K]

/-- The trains of a channel whose value comes in from `a` to `b`, on the negative rail if `u`. -/
def linChanLS (u : Bool) (a b : K) (o : ℕ) : List K :=
  [bif u then [] else [a, b], bif u then [a, b] else [], bif u then [] else [a + 1], bif u then [a + 1] else [], bif u then [] else [b + 1], bif u then [b + 1] else []].getD o []

/-- The trains of a linear combinator. -/
def linLS (N : ℕ) (core : ℕ → List K) (Ch : ℕ → ℕ → List K) (x : ℕ) : List K :=
  if x < 40 then core x else if x < 40 + 6 * N then Ch ((x - 40) / 6) ((x - 40) % 6) else []

theorem linLS_core {N x : ℕ} (hx : x < 40) (core : ℕ → List K) (Ch : ℕ → ℕ → List K) : linLS N core Ch x = core x := if_pos hx

theorem linLS_chan {N i o : ℕ} (hi : i < N) (ho : o < 6) (core : ℕ → List K) (Ch : ℕ → ℕ → List K) : linLS N core Ch (40 + 6 * i + o) = Ch i o := by
  unfold linLS
  rw [if_neg (by omega), if_pos (by omega), show (40 + 6 * i + o - 40) / 6 = i by omega, show (40 + 6 * i + o - 40) % 6 = o by omega]

set_option maxRecDepth 20000 in
theorem linSyns_delay {enc : Encoder K} (h1 : 1 ≤ enc.Tmin) (N : ℕ) (c : ℕ → K) : ∀ M, ∀ s ∈ linSyns enc N c M, 0 < s.delay
  | 0, s, h => by
    unfold linSyns linCore at h
    fin_cases h <;> simp only <;> first | linarith | norm_num
  | M + 1, s, h => by
    rw [linSyns, List.mem_append] at h
    rcases h with h | h
    · unfold linRoundSyns at h
      simp only [List.mem_cons, List.not_mem_nil, or_false] at h
      rcases h with rfl | rfl | rfl | rfl | rfl | rfl | rfl | rfl | rfl | rfl | rfl | rfl <;> simp only <;> first | linarith | norm_num
    · exact linSyns_delay h1 N c M s h

theorem flatMap_ite {α β : Type*} (P : α → Bool) (f : α → List β) : ∀ l : List α, (l.flatMap fun i => if P i then f i else []) = (l.filter P).flatMap f
  | [] => rfl
  | a :: l => by
    rw [List.flatMap_cons, flatMap_ite P f l]
    by_cases h : P a <;> simp [h]

set_option maxHeartbeats 4000000 in
/-- The trains of a linear combinator, in terms of those of its shared part. -/
theorem lin_fits {exp : K → K} {enc : Encoder K} (h1 : 1 ≤ enc.Tmin) (h2 : 0 < enc.Tcod) {dt : K} (hs : Sane exp dt) (h5 : enc.Tmax + 2 * dt ≤ 500)
    {N : ℕ} (hN1 : 1 ≤ N) {neg : ℕ → Bool} {a b : ℕ → K} {c : ℕ → K}
    (hab : ∀ i < N, a i + enc.Tmin ≤ b i) {S PP QQ : K} (hS : ∀ i < N, b i + 2 ≤ S) (hS' : ∃ i < N, b i + 2 = S)
    (hP : (((List.range N).filter (toPlus c neg)).map (fun i => |c i| * (b i - a i - enc.Tmin))).sum = PP) (hPT : PP < enc.Tmax)
    (hQ : (((List.range N).filter (fun i => !toPlus c neg i)).map (fun i => |c i| * (b i - a i - enc.Tmin))).sum = QQ) (hQT : QQ < enc.Tmax)
    (core : ℕ → List K) (hc0 : core 0 = [S + 1 + up dt (enc.Tmax - PP)]) (hc1 : core 1 = [S + 1 + up dt (enc.Tmax - QQ)]) (hc9 : core 9 = [S])
    (hcore : ∀ E : PEnv K, Sane E.exp E.dt → E.dt = dt → E.net.syns = linCore enc → (∀ x < 40, E.net.par x = stdPar) → ∀ x < 40, x ≠ 0 → x ≠ 1 → x ≠ 9 → Fits E [] core x)
    {E : PEnv K} (e1 : E.exp = exp) (e2 : E.dt = dt) (e3 : E.net.syns.Perm (linSyns enc N c N)) (e4 : ∀ x < 40 + 6 * N, E.net.par x = stdPar) (x : ℕ) (hx : x < 40 + 6 * N) :
    Fits E ((List.range N).flatMap (fun i => [(40 + 6 * i + (bif neg i then 1 else 0), a i), (40 + 6 * i + (bif neg i then 1 else 0), b i)]))
      (linLS N core (fun i => linChanLS (neg i) (a i) (b i))) x := by
  have hdt := hs.pos
  have hT0 : 0 < enc.Tmax := by have : enc.Tmax = enc.Tmin + enc.Tcod := rfl; linarith
  have hw : enc.wacc * enc.Tmax = 1000 := by unfold Encoder.wacc; field_simp; norm_num
  let f : ℕ → ℕ := fun i => 40 + 6 * i + (bif neg i then 1 else 0)
  have hf : ∀ i, f i = 40 + 6 * i ∧ neg i = false ∨ f i = 40 + 6 * i + 1 ∧ neg i = true := by
    intro i; by_cases h : neg i <;> simp [f, h]
  have finj : ∀ i j, f i = f j → i = j := by
    intro i j h; have := hf i; have := hf j; omega
  have nof : ∀ x, (x < 40 ∨ 2 ≤ (x - 40) % 6) → ∀ i, f i ≠ x := by
    intro x hx i; have := hf i; omega
  let Ch : ℕ → ℕ → List K := fun i => linChanLS (neg i) (a i) (b i)
  have hsE : Sane E.exp E.dt := by rw [e1, e2]; exact hs
  have hp := e4 x hx
  have hins : ∀ n, (insOf E.net.syns n).Perm (insOf (linSyns enc N c N) n) := by
    intro n; exact e3.filter _
  have harr : ∀ x, (x < 40 ∨ 2 ≤ (x - 40) % 6) → ∀ L : List (Synapse K), (insOf (linSyns enc N c N) x).Perm L →
      (L.flatMap (fun s => (linLS N core Ch s.pre).map (fun t => Item.hit (t + s.delay) s.kind s.weight))).Perm
        (arriving E.net ((List.range N).flatMap (fun i => [(f i, a i), (f i, b i)])) (linLS N core Ch) x) := by
    intro x hx L hL
    rw [arriving_ins, filter_pairs_none (f := f) a b _ (nof x hx), List.map_nil, List.nil_append]
    exact List.Perm.flatMap_right _ ((hins x).trans hL).symm
  change Fits E ((List.range N).flatMap (fun i => [(f i, a i), (f i, b i)])) (linLS N core Ch) x
  rcases Nat.lt_or_ge x 40 with hx40 | hx40
  · by_cases hsp : x = 0 ∨ x = 1 ∨ x = 9
    · rcases hsp with rfl | rfl | rfl
      · refine Fits.weigh hp hsE ((List.range N).filter (toPlus c neg)) (fun i => |c i|) (fun i => a i + 2 + enc.Tmin) (fun i => b i + 2) hw hT0 (fun _ _ => abs_nonneg _) ?_ ?_
          (p := PP) (M := S + 1) ?_ hPT (by rw [e2]; exact h5) (List.Perm.trans (List.Perm.of_eq ?_)
            (harr 0 (by omega) _ (insOf_lin_shared enc N c (fun i => linRound_0 enc N (c i) (40 + 6 * i)) N))) ?_
        · intro i hi
          have := hab i (by simpa using (List.mem_filter.mp hi).1); linarith
        · intro i hi
          have := hS i (by simpa using (List.mem_filter.mp hi).1); linarith
        · rw [← hP]; congr 1
          apply List.map_congr_left
          intro i _; ring
        · rw [show insOf (linCore enc) 0 = [⟨9, 0, enc.wacc, 1, .ge⟩] from rfl, List.flatMap_append, List.flatMap_cons, List.flatMap_nil, List.append_nil,
            linLS_core (show 9 < 40 by omega), hc9, List.map_cons, List.map_nil, List.singleton_append, List.flatMap_assoc, ← flatMap_ite]
          congr 1
          rw [List.flatMap_def, List.flatMap_def]
          congr 1
          apply List.map_congr_left
          intro i hi
          have hi : i < N := by simpa using hi
          simp only [List.flatMap_cons, List.flatMap_nil]
          by_cases h : 0 < c i
          · simp only [h, if_true]
            rw [linLS_chan hi (by omega), linLS_chan hi (by omega)]
            by_cases hn : neg i <;> simp [toPlus, h, hn, Ch, linChanLS]
            constructor <;> ring
          · simp only [h, if_false]
            rw [linLS_chan hi (by omega), linLS_chan hi (by omega)]
            by_cases hn : neg i <;> simp [toPlus, h, hn, Ch, linChanLS]
            constructor <;> ring
        · rw [e2, linLS_core (by omega), hc0]
      · refine Fits.weigh hp hsE ((List.range N).filter (fun i => !toPlus c neg i)) (fun i => |c i|) (fun i => a i + 2 + enc.Tmin) (fun i => b i + 2) hw hT0 (fun _ _ => abs_nonneg _) ?_ ?_
          (p := QQ) (M := S + 1) ?_ hQT (by rw [e2]; exact h5) (List.Perm.trans (List.Perm.of_eq ?_)
            (harr 1 (by omega) _ (insOf_lin_shared enc N c (fun i => linRound_1 enc N (c i) (40 + 6 * i) (by omega)) N))) ?_
        · intro i hi
          have := hab i (by simpa using (List.mem_filter.mp hi).1); linarith
        · intro i hi
          have := hS i (by simpa using (List.mem_filter.mp hi).1); linarith
        · rw [← hQ]; congr 1
          apply List.map_congr_left
          intro i _; ring
        · rw [show insOf (linCore enc) 1 = [⟨9, 1, enc.wacc, 1, .ge⟩] from rfl, List.flatMap_append, List.flatMap_cons, List.flatMap_nil, List.append_nil,
            linLS_core (show 9 < 40 by omega), hc9, List.map_cons, List.map_nil, List.singleton_append, List.flatMap_assoc, ← flatMap_ite]
          congr 1
          rw [List.flatMap_def, List.flatMap_def]
          congr 1
          apply List.map_congr_left
          intro i hi
          have hi : i < N := by simpa using hi
          simp only [List.flatMap_cons, List.flatMap_nil]
          by_cases h : 0 < c i
          · simp only [h, if_true]
            rw [linLS_chan hi (by omega), linLS_chan hi (by omega)]
            by_cases hn : neg i <;> simp [toPlus, h, hn, Ch, linChanLS]
            constructor <;> ring
          · simp only [h, if_false]
            rw [linLS_chan hi (by omega), linLS_chan hi (by omega)]
            by_cases hn : neg i <;> simp [toPlus, h, hn, Ch, linChanLS]
            constructor <;> ring
        · rw [e2, linLS_core (by omega), hc1]
      · have hNK : (0 : K) < N := Nat.cast_pos.mpr hN1
        refine Fits.gather hp hsE (w := 10 / (N : K)) (N := N) (c := fun i => b i + 2) (M := S) ?_ ?_ hS hS' (List.Perm.trans (List.Perm.of_eq ?_)
            (harr 9 (by omega) _ (insOf_lin_shared enc N c (fun i => linRound_9 enc N (c i) (40 + 6 * i) (by omega)) N))) ?_
        · rw [← mul_div_assoc, div_lt_iff₀ hNK, Nat.cast_sub hN1]
          push_cast; linarith
        · rw [mul_div_cancel₀ _ hNK.ne']
        · rw [show insOf (linCore enc) 9 = [] from rfl, List.nil_append, List.flatMap_assoc, ← List.flatMap_pure_eq_map, List.flatMap_def, List.flatMap_def]
          congr 1
          apply List.map_congr_left
          intro i hi
          have hi : i < N := by simpa using hi
          simp only [List.flatMap_cons, List.flatMap_nil]
          rw [linLS_chan hi (by omega), linLS_chan hi (by omega)]
          by_cases hn : neg i <;> simp [hn, Ch, linChanLS] <;> ring
        · rw [linLS_core (by omega), hc9]
    · push Not at hsp
      refine Fits.move (E' := E.only (linCore enc)) (n' := x) rfl rfl hp.symm (linLS_core hx40 core Ch).symm ?_
        (hcore (E.only (linCore enc)) hsE e2 rfl (fun _ _ => rfl) x hx40 hsp.1 hsp.2.1 hsp.2.2)
      refine List.Perm.trans (List.Perm.of_eq ?_) (harr x (Or.inl hx40) _ (List.Perm.of_eq (insOf_lin_core enc N c hsp.1 hsp.2.1 hsp.2.2 hx40 N)))
      rw [arriving_ins, List.filter_nil, List.map_nil, List.nil_append, List.flatMap_def, List.flatMap_def]
      congr 1
      apply List.map_congr_left
      intro s hs
      have hs : s ∈ linCore enc := (List.mem_filter.mp hs).1
      rw [linLS_core (linCore_bd enc s hs).1]
  · obtain ⟨i, o, hi, ho, rfl⟩ : ∃ i o, i < N ∧ o < 6 ∧ x = 40 + 6 * i + o := ⟨(x - 40) / 6, (x - 40) % 6, by omega, by omega, by omega⟩
    have hL : linLS N core Ch (40 + 6 * i + o) = linChanLS (neg i) (a i) (b i) o := linLS_chan hi ho core Ch
    have hI0 : linLS N core Ch (40 + 6 * i + 0) = linChanLS (neg i) (a i) (b i) 0 := linLS_chan hi (by omega) core Ch
    have hI1 : linLS N core Ch (40 + 6 * i + 1) = linChanLS (neg i) (a i) (b i) 1 := linLS_chan hi (by omega) core Ch
    have hab := hab i hi
    have inp : ∀ k < 2, arriving E.net ((List.range N).flatMap (fun i => [(f i, a i), (f i, b i)])) (linLS N core Ch) (40 + 6 * i + k) =
        if k = (bif neg i then 1 else 0) then [Item.hit (a i) .V 10, Item.hit (b i) .V 10] else [] := by
      intro k hk
      have hin : insOf E.net.syns (40 + 6 * i + k) = [] := by
        have := hins (40 + 6 * i + k)
        rw [insOf_lin_chan _ _ _ _ _ _ hi (by omega)] at this
        refine (this.trans (List.Perm.of_eq ?_)).eq_nil
        unfold insOf
        rw [List.filter_eq_nil_iff]
        intro s hs hc
        have := linRoundSyns_post enc _ _ _ s hs
        have := of_decide_eq_true hc
        omega
      rw [arriving_ins, hin, e4 _ (by omega), List.flatMap_nil, List.append_nil]
      by_cases h : k = (bif neg i then 1 else 0)
      · have := filter_pairs finj a b (List.range N) List.nodup_range i
        rw [if_pos h, show 40 + 6 * i + k = f i by rw [h], this, if_pos (List.mem_range.mpr hi)]
        rfl
      · rw [if_neg h, filter_pairs_none (f := f) a b _ (n := 40 + 6 * i + k) (by
          intro j hj
          have h1 := hf j
          have : j = i := by omega
          subst this
          exact h (by simp only [f] at hj; omega))]
        rfl
    interval_cases o
    · by_cases h : neg i
      · exact Fits.none (by rw [inp 0 (by omega)]; simp [h]) (by rw [hL]; simp [linChanLS, h])
      · exact Fits.pair hp hsE (a := a i) (b := b i) (by linarith) (by rw [inp 0 (by omega)]; simp [h]) (by rw [hL]; simp [linChanLS, h])
    · by_cases h : neg i
      · exact Fits.pair hp hsE (a := a i) (b := b i) (by linarith) (by rw [inp 1 (by omega)]; simp [h]) (by rw [hL]; simp [linChanLS, h])
      · exact Fits.none (by rw [inp 1 (by omega)]; simp [h]) (by rw [hL]; simp [linChanLS, h])
    · have := harr (40 + 6 * i + 2) (by omega) _ (List.Perm.of_eq ((insOf_lin_chan enc N c N i 2 hi (by omega)).trans (linRound_first enc N (c i) (40 + 6 * i) (by omega) (k := 0) (by omega))))
      simp only [List.flatMap_cons, List.flatMap_nil, Nat.add_zero, hL] at this
      rw [Nat.add_zero] at hI0
      rw [hI0] at this
      by_cases h : neg i
      · exact Fits.none (by simpa [linChanLS, h] using this) (by rw [hL]; simp [linChanLS, h])
      · refine Fits.first hp hsE (a := a i + 1) (b := b i + 1) (by linarith) (List.Perm.trans ?_ this) (by rw [hL]; simp [linChanLS, h])
        simp [linChanLS, h]
        exact List.Perm.swap _ _ _
    · have := harr (40 + 6 * i + 3) (by omega) _ (List.Perm.of_eq ((insOf_lin_chan enc N c N i 3 hi (by omega)).trans (linRound_first enc N (c i) (40 + 6 * i) (by omega) (k := 1) (by omega))))
      simp only [List.flatMap_cons, List.flatMap_nil, hL, hI1] at this
      by_cases h : neg i
      · refine Fits.first hp hsE (a := a i + 1) (b := b i + 1) (by linarith) (List.Perm.trans ?_ this) (by rw [hL]; simp [linChanLS, h])
        simp [linChanLS, h]
        exact List.Perm.swap _ _ _
      · exact Fits.none (by simpa [linChanLS, h] using this) (by rw [hL]; simp [linChanLS, h])
    · have := harr (40 + 6 * i + 4) (by omega) _ (List.Perm.of_eq ((insOf_lin_chan enc N c N i 4 hi (by omega)).trans (linRound_last enc N (c i) (40 + 6 * i) (by omega) (k := 0) (by omega))))
      simp only [List.flatMap_cons, List.flatMap_nil, Nat.add_zero] at this
      rw [Nat.add_zero] at hI0
      rw [hI0] at this
      by_cases h : neg i
      · exact Fits.none (by simpa [linChanLS, h] using this) (by rw [hL]; simp [linChanLS, h])
      · refine Fits.last hp hsE (a := a i + 1) (b := b i + 1) (by linarith) (List.Perm.trans (List.Perm.of_eq ?_) this) (by rw [hL]; simp [linChanLS, h])
        norm_num [linChanLS, h]
    · have := harr (40 + 6 * i + 5) (by omega) _ (List.Perm.of_eq ((insOf_lin_chan enc N c N i 5 hi (by omega)).trans (linRound_last enc N (c i) (40 + 6 * i) (by omega) (k := 1) (by omega))))
      simp only [List.flatMap_cons, List.flatMap_nil, hI1] at this
      by_cases h : neg i
      · refine Fits.last hp hsE (a := a i + 1) (b := b i + 1) (by linarith) (List.Perm.trans (List.Perm.of_eq ?_) this) (by rw [hL]; simp [linChanLS, h])
        norm_num [linChanLS, h]
      · exact Fits.none (by simpa [linChanLS, h] using this) (by rw [hL]; simp [linChanLS, h])

/-- The trains of a linear combinator, in terms of those of its shared part. -/
theorem lin_pred (H : TimeHeap K) {exp : K → K} {enc : Encoder K} (h1 : 1 ≤ enc.Tmin) (h2 : 0 < enc.Tcod) {dt : K} (hs : Sane exp dt) (h5 : enc.Tmax + 2 * dt ≤ 500)
    (kind : ModKind) (name : Option String) {coeff : List K} {N : ℕ} (hN : N = coeff.length) (hN1 : 1 ≤ N) {neg : ℕ → Bool} {a b : ℕ → K}
    {c : ℕ → K} (hc : c = fun i => coeff.getD i 0)
    (hab : ∀ i < N, a i + enc.Tmin ≤ b i) {S PP QQ : K} (hS : ∀ i < N, b i + 2 ≤ S) (hS' : ∃ i < N, b i + 2 = S)
    (hP : (((List.range N).filter (toPlus c neg)).map (fun i => |c i| * (b i - a i - enc.Tmin))).sum = PP) (hPT : PP < enc.Tmax)
    (hQ : (((List.range N).filter (fun i => !toPlus c neg i)).map (fun i => |c i| * (b i - a i - enc.Tmin))).sum = QQ) (hQT : QQ < enc.Tmax)
    {cs : List (Call K)} (hcs : ∀ c ∈ cs, CallOK c)
    (hinj : cs.flatMap (predSpikes enc) = (List.range N).flatMap (fun i => [(40 + 6 * i + (bif neg i then 1 else 0), a i), (40 + 6 * i + (bif neg i then 1 else 0), b i)]))
    (core : ℕ → List K) (hc0 : core 0 = [S + 1 + up dt (enc.Tmax - PP)]) (hc1 : core 1 = [S + 1 + up dt (enc.Tmax - QQ)]) (hc9 : core 9 = [S])
    (hcore : ∀ E : PEnv K, Sane E.exp E.dt → E.dt = dt → E.net.syns = linCore enc → (∀ x < 40, E.net.par x = stdPar) → ∀ x < 40, x ≠ 0 → x ≠ 1 → x ≠ 9 → Fits E [] core x)
    {P : (ℕ → Option (List K)) → Prop} (hPP : ∀ log : ℕ → Option (List K), (∀ x < 40, log x = some (core x)) → P log) :
    PredEnds H exp enc dt (linearCombinatorNetwork kind enc coeff name World.empty).2 0 cs P := by
  obtain ⟨lib, syns, -⟩ := lin_spec enc kind name coeff
  rw [← hN] at lib
  rw [← hN, ← hc] at syns
  let f : ℕ → ℕ := fun i => 40 + 6 * i + (bif neg i then 1 else 0)
  have hf : ∀ i, f i = 40 + 6 * i ∧ neg i = false ∨ f i = 40 + 6 * i + 1 ∧ neg i = true := by
    intro i; by_cases h : neg i <;> simp [f, h]
  refine LibOK.pred lib H enc hs.pos (by rw [syns]; exact linSyns_delay h1 N c N) hcs ?_ (linLS N core (fun i => linChanLS (neg i) (a i) (b i))) ?_ ?_ ?_
  · rw [hinj]
    intro q hq
    obtain ⟨i, hi, hq⟩ := List.mem_flatMap.mp hq
    have : i < N := by simpa using hi
    have := hf i
    simp only [List.mem_cons, List.not_mem_nil, or_false] at hq
    rcases hq with rfl | rfl <;> (show f i < _; omega)
  · intro x hx
    unfold linLS; rw [if_neg (by omega), if_neg (by omega)]
  · intro E e1 e2 e3 e4 x hx
    rw [hinj]
    exact lin_fits h1 h2 hs h5 hN1 hab hS hS' hP hPT hQ hQT core hc0 hc1 hc9 hcore e1 e2 (by rw [e3, syns]; exact List.reverse_perm _) e4 x hx
  · intro log h
    refine hPP log (fun x hx => ?_)
    rw [h x (by omega), linLS_core hx]

theorem up_le_up {dt : K} (hdt : 0 < dt) {x y : K} (h : x ≤ y) : up dt x ≤ up dt y :=
  mul_le_mul_of_nonneg_right (Int.cast_le.mpr (Int.ceil_le_ceil ((div_le_div_iff_of_pos_right hdt).mpr h))) hdt.le

theorem up_sub_up {dt : K} (hdt : 0 < dt) (x y : K) : up dt (x - up dt y) = up dt x - up dt y := by
  unfold up
  rw [sub_div, mul_div_assoc, div_self hdt.ne', mul_one, Int.ceil_sub_intCast]
  push_cast; ring

theorem sum_filter_range (P : ℕ → Bool) (g : ℕ → K) : ∀ N, (((List.range N).filter P).map g).sum = ∑ i ∈ Finset.range N, if P i then g i else 0
  | 0 => by simp
  | N + 1 => by
    rw [List.range_succ, List.filter_append, List.map_append, List.sum_append, sum_filter_range P g N, Finset.sum_range_succ]
    by_cases h : P N <;> simp [h]

theorem part_nonneg (coeff : List K) (x : ℕ → K) : 0 ≤ plusPart coeff x ∧ 0 ≤ minusPart coeff x :=
  ⟨Finset.sum_nonneg fun _ _ => le_max_right _ _, Finset.sum_nonneg fun _ _ => le_max_right _ _⟩

theorem part_diff (coeff : List K) (x : ℕ → K) : plusPart coeff x - minusPart coeff x = combination coeff x := by
  unfold plusPart minusPart combination
  rw [← Finset.sum_sub_distrib]
  refine Finset.sum_congr rfl fun i _ => ?_
  rcases le_total 0 (coeff.getD i 0 * x i) with h | h
  · rw [max_eq_left h, max_eq_right (neg_nonpos.mpr h), sub_zero]
  · rw [max_eq_right h, max_eq_left (neg_nonneg.mpr h)]; ring

set_option maxHeartbeats 1000000 in
/-- The output rails of a linear combinator, exactly. -/
theorem lin_outcome_pred (H : TimeHeap K) {exp : K → K} {enc : Encoder K} (h1 : 1 ≤ enc.Tmin) (h2 : 0 < enc.Tcod) {dt : K} (hs : Sane exp dt) (hd : dt ≤ 1)
    (h5 : enc.Tmax + 2 * dt ≤ 500) (kind : ModKind) (name : Option String) {coeff : List K} (hN : coeff ≠ []) {x t : ℕ → K} {n : ℕ} (hn : enc.Tmax ≤ n * dt)
    (hP : plusPart coeff x * enc.Tcod + (n * dt - enc.Tmax) ≤ enc.Tcod) (hQ : minusPart coeff x * enc.Tcod + (n * dt - enc.Tmax) ≤ enc.Tcod)
    {cs : List (Call K)} (hcs : ∀ c ∈ cs, CallOK c)
    (hinj : cs.flatMap (predSpikes enc) = (List.range coeff.length).flatMap (fun i => [(40 + 6 * i + (bif decide (x i < 0) then 1 else 0), t i),
      (40 + 6 * i + (bif decide (x i < 0) then 1 else 0), t i + (enc.Tmin + |x i| * enc.Tcod))])) :
    PredEnds H exp enc dt (linearCombinatorNetwork kind enc coeff name World.empty).2 0 cs (fun log =>
      ∃ y, ∃ D, D = up dt (enc.Tmax - minusPart coeff x * enc.Tcod) - up dt (enc.Tmax - plusPart coeff x * enc.Tcod) ∧
        (0 ≤ D → log 6 = some [y, y + enc.Tmin + D] ∧ log 7 = some []) ∧
        (D ≤ -(1 / 100) → log 7 = some [y, y + enc.Tmin - D] ∧ log 6 = some []) ∧
        (D < 0 → -(1 / 100) < D → log 6 = some [] ∧ log 7 = some [])) := by
  have hdt := hs.pos
  have hTm : enc.Tmax = enc.Tmin + enc.Tcod := rfl
  have hN1 : 1 ≤ coeff.length := List.length_pos_iff.mpr hN
  obtain ⟨p0, q0⟩ := part_nonneg coeff x
  have hp0 := mul_nonneg p0 h2.le
  have hq0 := mul_nonneg q0 h2.le
  set c : ℕ → K := fun i => coeff.getD i 0 with hc
  set b : ℕ → K := fun i => t i + (enc.Tmin + |x i| * enc.Tcod) with hb
  obtain ⟨i0, hi0, hmax⟩ : ∃ i0 < coeff.length, ∀ i < coeff.length, b i ≤ b i0 := by
    obtain ⟨i0, h, h'⟩ := Finset.exists_max_image (Finset.range coeff.length) b ⟨0, by simp; omega⟩
    exact ⟨i0, by simpa using h, fun j hj => h' j (by simpa using hj)⟩
  have hA : up dt enc.Tmax ≤ n * dt := by
    have := up_le_up hdt hn
    rw [show ((n : K) * dt) = ((n : ℤ) : K) * dt by push_cast; rfl, up_mul hdt] at this
    exact_mod_cast this
  have hP1 := le_up hdt (enc.Tmax - plusPart coeff x * enc.Tcod)
  have hQ1 := le_up hdt (enc.Tmax - minusPart coeff x * enc.Tcod)
  have hP2 : up dt (enc.Tmax - plusPart coeff x * enc.Tcod) ≤ up dt enc.Tmax := up_le_up hdt (by linarith)
  have hQ2 : up dt (enc.Tmax - minusPart coeff x * enc.Tcod) ≤ up dt enc.Tmax := up_le_up hdt (by linarith)
  have hA1 := le_up hdt enc.Tmax
  set S := b i0 + 2 with hS
  set A := up dt enc.Tmax with hAdef
  set P' := up dt (enc.Tmax - plusPart coeff x * enc.Tcod) with hP'
  set Q' := up dt (enc.Tmax - minusPart coeff x * enc.Tcod) with hQ'
  set B := up dt (enc.Tmin + enc.Tmax) with hB
  have hB1 : enc.Tmin + enc.Tmax ≤ B := le_up hdt _
  have hAT := up_lt hdt enc.Tmax
  set R := max (S + 1 + P') (S + 1 + Q') + A + 8 with hR
  have hC0 : B - P' = up dt (enc.Tmin + (S + 1 + A - (S + 1 + P')) - (A - enc.Tmax)) := by
    rw [show enc.Tmin + (S + 1 + A - (S + 1 + P')) - (A - enc.Tmax) = enc.Tmin + enc.Tmax - P' by ring, hP', up_sub_up hdt]
  have hC1 : B - Q' = up dt (enc.Tmin + (S + 1 + A - (S + 1 + Q')) - (A - enc.Tmax)) := by
    rw [show enc.Tmin + (S + 1 + A - (S + 1 + Q')) - (A - enc.Tmax) = enc.Tmin + enc.Tmax - Q' by ring, hQ', up_sub_up hdt]
  have ex : ∃ L35 L36 L37 L38 L39 : List K, (∀ E' : PEnv K, Sane E'.exp E'.dt → E'.net.syns = psubSyns enc → (∀ x < 9, E'.net.par x = stdPar) → ∀ x < 9,
      Fits E' [(0, R + 4), (0, R + 4 + (B - P')), (1, R + 4), (1, R + 4 + (B - Q'))] (subLS (R + 4) (R + 4 + (B - P')) (R + 4) (R + 4 + (B - Q')) L35 L36 L37 L38 L39) x) ∧
      ((∃ a b, a + 1 ≤ b ∧ L37 = [a, b] ∧ L38 = []) ∨ (∃ a b, a + 1 ≤ b ∧ L37 = [] ∧ L38 = [a, b]) ∨ (L37 = [] ∧ L38 = [])) ∧
      ∃ y, (0 ≤ Q' - P' → L37.map (· + 1) = [y, y + enc.Tmin + (Q' - P')] ∧ L38 = []) ∧
        (Q' - P' ≤ -(1 / 100) → L38.map (· + 1) = [y, y + enc.Tmin - (Q' - P')] ∧ L37 = []) ∧
        (Q' - P' < 0 → -(1 / 100) < Q' - P' → L37 = [] ∧ L38 = []) := by
    rcases le_or_gt 0 (Q' - P') with hD | hD
    · have hlist : ([R + 4 + (B - Q') + 402 / 100, R + 4 + (B - P') + enc.Tmin + 402 / 100].map (· + 1)) =
          [R + 4 + (B - Q') + 402 / 100 + 1, R + 4 + (B - Q') + 402 / 100 + 1 + enc.Tmin + (Q' - P')] := by
        simp only [List.map_cons, List.map_nil]
        congr 2; ring
      rcases le_or_gt (1 / 100) (Q' - P') with h | h
      · exact ⟨_, _, _, _, _, fun E' hs' e3 e4 x hx => sub_fits_plus h1 hs' e3 e4 (by linarith) (by linarith) (by linarith) x hx, Or.inl ⟨_, _, by linarith, rfl, rfl⟩,
          R + 4 + (B - Q') + 402 / 100 + 1, fun _ => ⟨hlist, rfl⟩, fun h => by linarith, fun h => by linarith⟩
      · exact ⟨_, _, _, _, _, fun E' hs' e3 e4 x hx => sub_fits_near h1 hs' e3 e4 (by linarith) (by linarith) (by linarith) (by linarith) x hx, Or.inl ⟨_, _, by linarith, rfl, rfl⟩,
          R + 4 + (B - Q') + 402 / 100 + 1, fun _ => ⟨hlist, rfl⟩, fun h => by linarith, fun h => by linarith⟩
    · have hlist : ([R + 4 + (B - P') + 402 / 100, R + 4 + (B - Q') + enc.Tmin + 402 / 100].map (· + 1)) =
          [R + 4 + (B - P') + 402 / 100 + 1, R + 4 + (B - P') + 402 / 100 + 1 + enc.Tmin - (Q' - P')] := by
        simp only [List.map_cons, List.map_nil]
        congr 2; ring
      rcases le_or_gt (Q' - P') (-(1 / 100)) with h | h
      · exact ⟨_, _, _, _, _, fun E' hs' e3 e4 x hx => sub_fits_minus h1 hs' e3 e4 (by linarith) (by linarith) (by linarith) x hx, Or.inr (Or.inl ⟨_, _, by linarith, rfl, rfl⟩),
          R + 4 + (B - P') + 402 / 100 + 1, fun h => by linarith, fun _ => ⟨hlist, rfl⟩, fun _ h' => by linarith⟩
      · exact ⟨_, _, _, _, _, fun E' hs' e3 e4 x hx => sub_fits_dead h1 hs' e3 e4 (by linarith) (by linarith) (by linarith) (by linarith) x hx, Or.inr (Or.inr ⟨rfl, rfl⟩),
          0, fun h => by linarith, fun h' => by linarith, fun _ _ => ⟨rfl, rfl⟩⟩
  obtain ⟨L35, L36, L37, L38, L39, hsub, hout, y, o1, o2, o3⟩ := ex
  have hlen : ∀ i < coeff.length, t i + enc.Tmin ≤ b i := by
    intro i _
    have := mul_nonneg (abs_nonneg (x i)) h2.le
    simp only [hb]; linarith
  refine lin_pred H h1 h2 hs h5 kind name (N := coeff.length) rfl hN1 (neg := fun i => decide (x i < 0)) (a := t) (b := b) (c := c) hc hlen (S := S)
    (PP := plusPart coeff x * enc.Tcod) (QQ := minusPart coeff x * enc.Tcod) (fun i hi => by have := hmax i hi; linarith) ⟨i0, hi0, rfl⟩ ?_ (by linarith) ?_ (by linarith)
    hcs hinj (coreLS enc.Tmin A S (S + 1 + P') (S + 1 + Q') (S + 1 + A) R (B - P') (B - Q') L35 L36 L37 L38 L39) rfl rfl rfl ?_ ?_
  · rw [sum_filter_range, plusPart, Finset.sum_mul]
    refine Finset.sum_congr rfl fun i _ => ?_
    rw [← term_pos]
    unfold toPlus
    split_ifs
    · simp only [hb]; ring
    · ring
  · rw [sum_filter_range, minusPart, Finset.sum_mul]
    refine Finset.sum_congr rfl fun i _ => ?_
    rw [← term_neg]
    unfold toPlus
    split_ifs
    · simp only [hb]; ring
    · ring
  · intro E hsE hE e3 e4 x hx x0 x1 x9
    subst hE
    exact lin_core_fits h1 h2 hsE hd h5 e3 e4 hAdef rfl (by linarith) (by linarith) (by linarith) (by linarith) hR hC0 hC1 L35 L36 L37 L38 L39 hsub hout x hx x0 x1 x9
  · intro log h
    have h6 : log 6 = some (L37.map (· + 1)) := h 6 (by omega)
    have h7 : log 7 = some (L38.map (· + 1)) := h 7 (by omega)
    refine ⟨y, Q' - P', rfl, fun hD => ?_, fun hD => ?_, fun hD hD' => ?_⟩
    · obtain ⟨u, v⟩ := o1 hD
      exact ⟨by rw [h6, u], by rw [h7, v]; rfl⟩
    · obtain ⟨u, v⟩ := o2 hD
      exact ⟨by rw [h7, u], by rw [h6, v]; rfl⟩
    · obtain ⟨u, v⟩ := o3 hD hD'
      exact ⟨by rw [h6, u]; rfl, by rw [h7, v]; rfl⟩

theorem PredEnds.weaken {H : TimeHeap K} {exp : K → K} {enc : Encoder K} {dt : K} {w : World K} {m : ℕ} {cs : List (Call K)} {P Q : (ℕ → Option (List K)) → Prop}
    (hPQ : ∀ log, P log → Q log) : PredEnds H exp enc dt w m cs P → PredEnds H exp enc dt w m cs Q := fun ⟨N, st, a, b⟩ => ⟨N, st, a, hPQ _ b⟩

/-- From the exact outcome to the statement of the property. -/
theorem lin_answer {enc : Encoder K} {dt : K} (hdt : 0 < dt) (h1 : 1 ≤ enc.Tmin) (h2 : 0 < enc.Tcod) {coeff : List K} {x : ℕ → K} {l6 l7 : Option (List K)}
    (h : ∃ y, ∃ D, D = up dt (enc.Tmax - minusPart coeff x * enc.Tcod) - up dt (enc.Tmax - plusPart coeff x * enc.Tcod) ∧
        (0 ≤ D → l6 = some [y, y + enc.Tmin + D] ∧ l7 = some []) ∧
        (D ≤ -(1 / 100) → l7 = some [y, y + enc.Tmin - D] ∧ l6 = some []) ∧
        (D < 0 → -(1 / 100) < D → l6 = some [] ∧ l7 = some [])) :
    ((0 ≤ combination coeff x ∨ combination coeff x * enc.Tcod ≤ -(1 / 100 + dt)) → ShowsSigned enc dt l6 l7 (combination coeff x)) ∧
    ((dt - 1 / 100 ≤ combination coeff x * enc.Tcod ∧ combination coeff x * enc.Tcod ≤ -dt) → Quiet l6 ∧ Quiet l7) := by
  obtain ⟨y, D, hD, o1, o2, o3⟩ := h
  have hdiff := part_diff coeff x
  have a1 := le_up hdt (enc.Tmax - minusPart coeff x * enc.Tcod)
  have a2 := up_lt hdt (enc.Tmax - minusPart coeff x * enc.Tcod)
  have b1 := le_up hdt (enc.Tmax - plusPart coeff x * enc.Tcod)
  have b2 := up_lt hdt (enc.Tmax - plusPart coeff x * enc.Tcod)
  have e : combination coeff x * enc.Tcod = plusPart coeff x * enc.Tcod - minusPart coeff x * enc.Tcod := by rw [← hdiff]; ring
  have d1 : combination coeff x * enc.Tcod - dt < D := by rw [hD]; linarith
  have d2 : D < combination coeff x * enc.Tcod + dt := by rw [hD]; linarith
  constructor
  · intro hc
    by_cases h0 : 0 ≤ combination coeff x
    · have hm : up dt (enc.Tmax - plusPart coeff x * enc.Tcod) ≤ up dt (enc.Tmax - minusPart coeff x * enc.Tcod) :=
        up_le_up hdt (by have := mul_nonneg h0 h2.le; linarith)
      obtain ⟨u, v⟩ := o1 (by linarith)
      unfold ShowsSigned
      rw [if_neg (not_lt.mpr h0), if_neg (not_lt.mpr h0), abs_of_nonneg h0]
      refine ⟨⟨y, _, ?_, u, ?_⟩, v⟩
      · linarith
      · rw [abs_le]; constructor <;> linarith
    · have h0 := not_le.mp h0
      have hc : combination coeff x * enc.Tcod ≤ -(1 / 100 + dt) := hc.resolve_left (not_le.mpr h0)
      obtain ⟨u, v⟩ := o2 (by linarith)
      unfold ShowsSigned
      rw [if_pos h0, if_pos h0, abs_of_neg h0]
      refine ⟨⟨y, _, ?_, u, ?_⟩, v⟩
      · linarith
      · rw [abs_le]; constructor <;> linarith
  · rintro ⟨hc1, hc2⟩
    exact o3 (by linarith) (by linarith)

theorem put_inj {enc : Encoder K} (kind : ModKind) (name : Option String) (coeff : List K) (x t : ℕ → K) :
    (putAll (linearCombinatorNetwork kind enc coeff name World.empty).1 coeff.length x t).flatMap (predSpikes enc) =
      (List.range coeff.length).flatMap (fun i => [(40 + 6 * i + (bif decide (x i < 0) then 1 else 0), 0),
        (40 + 6 * i + (bif decide (x i < 0) then 1 else 0), 0 + (enc.Tmin + |x i| * enc.Tcod))]) := by
  obtain ⟨-, -, ports⟩ := lin_spec enc kind name coeff
  rw [ports]
  unfold putAll putSigned
  rw [List.flatMap_map, List.flatMap_def, List.flatMap_def]
  congr 1
  apply List.map_congr_left
  intro i hi
  have hi : i < coeff.length := by simpa using hi
  by_cases h : x i < 0 <;> simp [h, hi, predSpikes]

theorem put_ok {p : LinPorts} {N : ℕ} {x t : ℕ → K} (hx : ∀ i < N, |x i| ≤ 1) : ∀ c ∈ putAll p N x t, CallOK c := by
  intro c hc
  obtain ⟨i, hi, rfl⟩ := List.mem_map.mp hc
  exact ⟨abs_nonneg _, hx i (by simpa using hi)⟩

/-- **C92.** In the predictive simulator, a `LinearCombinatorNetwork` (or `AdderNetwork`) with any number of inputs, given the values `x i ∈ [-1, 1]`:
if neither the positive nor the negative terms of `∑ coeff[i]·x i` add up to more than 1 (with the rounding of `Tmax` to time steps: `n` steps cover
`Tmax`), the sum comes out within `dt` on the rail of its sign, with nothing on the other rail — unless it is negative and smaller than
`1/100 + dt` ms in magnitude. -/
theorem C92_linear_combination (H : TimeHeap K) {exp : K → K} {enc : Encoder K} (h1 : 1 ≤ enc.Tmin) (h2 : 0 < enc.Tcod) {dt : K} (hs : Sane exp dt) (hd : dt ≤ 1)
    (h5 : enc.Tmax + 2 * dt ≤ 500) (kind : ModKind) (name : Option String) {coeff : List K} (hN : coeff ≠ []) {x t : ℕ → K} (hx : ∀ i < coeff.length, |x i| ≤ 1)
    {n : ℕ} (hn : enc.Tmax ≤ n * dt)
    (hP : plusPart coeff x * enc.Tcod + (n * dt - enc.Tmax) ≤ enc.Tcod) (hQ : minusPart coeff x * enc.Tcod + (n * dt - enc.Tmax) ≤ enc.Tcod)
    (hc : 0 ≤ combination coeff x ∨ combination coeff x * enc.Tcod ≤ -(1 / 100 + dt)) :
    let p := (linearCombinatorNetwork kind enc coeff name World.empty).1
    let w := (linearCombinatorNetwork kind enc coeff name World.empty).2
    PredEnds H exp enc dt w p.mod (putAll p coeff.length x t) (fun log => ShowsSigned enc dt (log p.outputPlus) (log p.outputMinus) (combination coeff x)) := by
  intro p w
  obtain ⟨-, -, ports⟩ := lin_spec enc kind name coeff
  have e0 : p.mod = 0 := by show (linearCombinatorNetwork kind enc coeff name World.empty).1.mod = 0; rw [ports]
  have e6 : p.outputPlus = 6 := by show (linearCombinatorNetwork kind enc coeff name World.empty).1.outputPlus = 6; rw [ports]
  have e7 : p.outputMinus = 7 := by show (linearCombinatorNetwork kind enc coeff name World.empty).1.outputMinus = 7; rw [ports]
  rw [e0, e6, e7]
  obtain ⟨N, st, a, b⟩ := lin_outcome_pred H h1 h2 hs hd h5 kind name hN (x := x) (t := fun _ => 0) hn hP hQ (cs := putAll p coeff.length x t) (put_ok hx) (put_inj kind name coeff x t)
  exact ⟨N, st, a, (lin_answer hs.pos h1 h2 b).1 hc⟩

/-- **C92 (inputs at any time).** The same for values that come in as two spikes, the `i`-th one starting at `t i`. -/
theorem C92_any_times (H : TimeHeap K) {exp : K → K} {enc : Encoder K} (h1 : 1 ≤ enc.Tmin) (h2 : 0 < enc.Tcod) {dt : K} (hs : Sane exp dt) (hd : dt ≤ 1)
    (h5 : enc.Tmax + 2 * dt ≤ 500) (kind : ModKind) (name : Option String) {coeff : List K} (hN : coeff ≠ []) {x t : ℕ → K}
    {n : ℕ} (hn : enc.Tmax ≤ n * dt)
    (hP : plusPart coeff x * enc.Tcod + (n * dt - enc.Tmax) ≤ enc.Tcod) (hQ : minusPart coeff x * enc.Tcod + (n * dt - enc.Tmax) ≤ enc.Tcod)
    (hc : 0 ≤ combination coeff x ∨ combination coeff x * enc.Tcod ≤ -(1 / 100 + dt)) :
    let p := (linearCombinatorNetwork kind enc coeff name World.empty).1
    let w := (linearCombinatorNetwork kind enc coeff name World.empty).2
    PredEnds H exp enc dt w p.mod ((List.range coeff.length).flatMap (fun i => [.spike (if x i < 0 then p.inputMinus[i]! else p.inputPlus[i]!) (t i),
        .spike (if x i < 0 then p.inputMinus[i]! else p.inputPlus[i]!) (t i + (enc.Tmin + |x i| * enc.Tcod))]))
      (fun log => ShowsSigned enc dt (log p.outputPlus) (log p.outputMinus) (combination coeff x)) := by
  intro p w
  obtain ⟨-, -, ports⟩ := lin_spec enc kind name coeff
  have e0 : p.mod = 0 := by show (linearCombinatorNetwork kind enc coeff name World.empty).1.mod = 0; rw [ports]
  have e6 : p.outputPlus = 6 := by show (linearCombinatorNetwork kind enc coeff name World.empty).1.outputPlus = 6; rw [ports]
  have e7 : p.outputMinus = 7 := by show (linearCombinatorNetwork kind enc coeff name World.empty).1.outputMinus = 7; rw [ports]
  have ei : ∀ i < coeff.length, p.inputPlus[i]! = 40 + 6 * i ∧ p.inputMinus[i]! = 40 + 6 * i + 1 := by
    intro i hi
    show (linearCombinatorNetwork kind enc coeff name World.empty).1.inputPlus[i]! = _ ∧ (linearCombinatorNetwork kind enc coeff name World.empty).1.inputMinus[i]! = _
    rw [ports]; simp [hi]
  rw [e0, e6, e7]
  refine PredEnds.weaken ?_ (lin_outcome_pred H h1 h2 hs hd h5 kind name hN (x := x) (t := t) hn hP hQ ?_ ?_)
  · intro log h; exact (lin_answer hs.pos h1 h2 h).1 hc
  · intro c hc
    obtain ⟨j, -, hc⟩ := List.mem_flatMap.mp hc
    simp only [List.mem_cons, List.not_mem_nil, or_false] at hc
    rcases hc with rfl | rfl <;> trivial
  · rw [List.flatMap_assoc, List.flatMap_def, List.flatMap_def]
    congr 1
    apply List.map_congr_left
    intro i hi
    obtain ⟨u, v⟩ := ei i (by simpa using hi)
    simp only [List.flatMap_cons, List.flatMap_nil, predSpikes, u, v]
    by_cases h : x i < 0 <;> simp [h]

/-- **C92 (dead zone).** A negative sum of at least `dt` and at most `1/100 - dt` ms in magnitude is not answered at all: both rails stay silent. -/
theorem C92_dead_zone (H : TimeHeap K) {exp : K → K} {enc : Encoder K} (h1 : 1 ≤ enc.Tmin) (h2 : 0 < enc.Tcod) {dt : K} (hs : Sane exp dt) (hd : dt ≤ 1)
    (h5 : enc.Tmax + 2 * dt ≤ 500) (kind : ModKind) (name : Option String) {coeff : List K} (hN : coeff ≠ []) {x t : ℕ → K} (hx : ∀ i < coeff.length, |x i| ≤ 1)
    {n : ℕ} (hn : enc.Tmax ≤ n * dt)
    (hP : plusPart coeff x * enc.Tcod + (n * dt - enc.Tmax) ≤ enc.Tcod) (hQ : minusPart coeff x * enc.Tcod + (n * dt - enc.Tmax) ≤ enc.Tcod)
    (hc : dt - 1 / 100 ≤ combination coeff x * enc.Tcod ∧ combination coeff x * enc.Tcod ≤ -dt) :
    let p := (linearCombinatorNetwork kind enc coeff name World.empty).1
    let w := (linearCombinatorNetwork kind enc coeff name World.empty).2
    PredEnds H exp enc dt w p.mod (putAll p coeff.length x t) (fun log => Quiet (log p.outputPlus) ∧ Quiet (log p.outputMinus)) := by
  intro p w
  obtain ⟨-, -, ports⟩ := lin_spec enc kind name coeff
  have e0 : p.mod = 0 := by show (linearCombinatorNetwork kind enc coeff name World.empty).1.mod = 0; rw [ports]
  have e6 : p.outputPlus = 6 := by show (linearCombinatorNetwork kind enc coeff name World.empty).1.outputPlus = 6; rw [ports]
  have e7 : p.outputMinus = 7 := by show (linearCombinatorNetwork kind enc coeff name World.empty).1.outputMinus = 7; rw [ports]
  rw [e0, e6, e7]
  obtain ⟨N, st, a, b⟩ := lin_outcome_pred H h1 h2 hs hd h5 kind name hN (x := x) (t := fun _ => 0) hn hP hQ (cs := putAll p coeff.length x t) (put_ok hx) (put_inj kind name coeff x t)
  exact ⟨N, st, a, (lin_answer hs.pos h1 h2 b).2 hc⟩

/-- A concrete case of C92: 0.5·0.8 − 1·0.9 + 0.25·(−0.4) = −0.6. -/
example : PredEnds (sortedHeap _) (fun _ => 0) ⟨10, 100⟩ (1 / 100) (linearCombinatorNetwork .plain (⟨10, 100⟩ : Encoder ℚ) [1 / 2, -1, 1 / 4] none World.empty).2 0
    (putAll (linearCombinatorNetwork .plain (⟨10, 100⟩ : Encoder ℚ) [1 / 2, -1, 1 / 4] none World.empty).1 3 (fun i => [8 / 10, 9 / 10, -4 / 10].getD i 0) (fun _ => 0))
    (fun log => ShowsSigned ⟨10, 100⟩ (1 / 100) (log 6) (log 7) (-6 / 10)) := by
  have hc : combination [1 / 2, -1, 1 / 4] (fun i => [8 / 10, 9 / 10, -4 / 10].getD i 0) = (-6 / 10 : ℚ) := by norm_num [combination, Finset.sum_range_succ]
  have key := C92_linear_combination (sortedHeap _) (exp := fun _ => (0 : ℚ)) (enc := ⟨10, 100⟩) (by norm_num) (by norm_num) sane0 (by norm_num)
    (by norm_num [Encoder.Tmax]) .plain none (coeff := [1 / 2, -1, 1 / 4]) (by simp) (x := fun i => [8 / 10, 9 / 10, -4 / 10].getD i 0) (t := fun _ => 0)
    (by intro i hi; simp at hi; interval_cases i <;> norm_num [abs_le]) (n := 11000) (by norm_num [Encoder.Tmax])
    (by norm_num [plusPart, Finset.sum_range_succ, Encoder.Tmax]) (by norm_num [minusPart, Finset.sum_range_succ, Encoder.Tmax]) (by rw [hc]; norm_num)
  rw [hc] at key
  exact key

/-- A concrete case of the dead zone: 0.5 − 0.50005, with `dt = 0.001`. -/
example : PredEnds (sortedHeap _) (fun _ => 0) ⟨10, 100⟩ (1 / 1000) (linearCombinatorNetwork .plain (⟨10, 100⟩ : Encoder ℚ) [1, -1] none World.empty).2 0
    (putAll (linearCombinatorNetwork .plain (⟨10, 100⟩ : Encoder ℚ) [1, -1] none World.empty).1 2 (fun i => [1 / 2, 50005 / 100000].getD i 0) (fun _ => 0))
    (fun log => Quiet (log 6) ∧ Quiet (log 7)) := by
  have hc : combination [1, -1] (fun i => [1 / 2, 50005 / 100000].getD i 0) = (-5 / 100000 : ℚ) := by norm_num [combination, Finset.sum_range_succ]
  exact C92_dead_zone (sortedHeap _) (exp := fun _ => (0 : ℚ)) (enc := ⟨10, 100⟩) (by norm_num) (by norm_num) ⟨fun _ _ _ => le_rfl, by norm_num, by norm_num, by decide +kernel⟩ (by norm_num)
    (by norm_num [Encoder.Tmax]) .plain none (coeff := [1, -1]) (by simp) (x := fun i => [1 / 2, 50005 / 100000].getD i 0) (t := fun _ => 0)
    (by intro i hi; simp at hi; interval_cases i <;> norm_num [abs_le]) (n := 110000) (by norm_num [Encoder.Tmax])
    (by norm_num [plusPart, Finset.sum_range_succ, Encoder.Tmax]) (by norm_num [minusPart, Finset.sum_range_succ, Encoder.Tmax]) (by rw [hc]; norm_num)

/-! ## The theorems of this file on concrete cases -/

/-- `C92_any_times` on the same combination, with the three values arriving at three different times. -/
example : PredEnds (sortedHeap _) (fun _ => 0) ⟨10, 100⟩ (1 / 100) (linearCombinatorNetwork .plain (⟨10, 100⟩ : Encoder ℚ) [1 / 2, -1, 1 / 4] none World.empty).2
    (linearCombinatorNetwork .plain (⟨10, 100⟩ : Encoder ℚ) [1 / 2, -1, 1 / 4] none World.empty).1.mod
    ((List.range 3).flatMap (fun i => [.spike (if [8 / 10, 9 / 10, -4 / 10].getD i (0 : ℚ) < 0 then
          (linearCombinatorNetwork .plain (⟨10, 100⟩ : Encoder ℚ) [1 / 2, -1, 1 / 4] none World.empty).1.inputMinus[i]! else
          (linearCombinatorNetwork .plain (⟨10, 100⟩ : Encoder ℚ) [1 / 2, -1, 1 / 4] none World.empty).1.inputPlus[i]!) (70 * (i : ℚ)),
        .spike (if [8 / 10, 9 / 10, -4 / 10].getD i (0 : ℚ) < 0 then
          (linearCombinatorNetwork .plain (⟨10, 100⟩ : Encoder ℚ) [1 / 2, -1, 1 / 4] none World.empty).1.inputMinus[i]! else
          (linearCombinatorNetwork .plain (⟨10, 100⟩ : Encoder ℚ) [1 / 2, -1, 1 / 4] none World.empty).1.inputPlus[i]!)
          (70 * (i : ℚ) + (10 + |[8 / 10, 9 / 10, -4 / 10].getD i (0 : ℚ)| * 100))]))
    (fun log => ShowsSigned ⟨10, 100⟩ (1 / 100)
      (log (linearCombinatorNetwork .plain (⟨10, 100⟩ : Encoder ℚ) [1 / 2, -1, 1 / 4] none World.empty).1.outputPlus)
      (log (linearCombinatorNetwork .plain (⟨10, 100⟩ : Encoder ℚ) [1 / 2, -1, 1 / 4] none World.empty).1.outputMinus) (-6 / 10)) := by
  have hc : combination [1 / 2, -1, 1 / 4] (fun i => [8 / 10, 9 / 10, -4 / 10].getD i 0) = (-6 / 10 : ℚ) := by norm_num [combination, Finset.sum_range_succ]
  have key := C92_any_times (sortedHeap _) (exp := fun _ => (0 : ℚ)) (enc := ⟨10, 100⟩) (by norm_num) (by norm_num) sane0 (by norm_num)
    (by norm_num [Encoder.Tmax]) .plain none (coeff := [1 / 2, -1, 1 / 4]) (by simp) (x := fun i => [8 / 10, 9 / 10, -4 / 10].getD i 0) (t := fun i => 70 * (i : ℚ))
    (n := 11000) (by norm_num [Encoder.Tmax])
    (by norm_num [plusPart, Finset.sum_range_succ, Encoder.Tmax]) (by norm_num [minusPart, Finset.sum_range_succ, Encoder.Tmax]) (by rw [hc]; norm_num)
  rw [hc] at key
  exact key

end Axon
