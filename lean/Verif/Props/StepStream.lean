import Verif.Proofs.StepRest
import Verif.Props.Memory
import Verif.Props.Multiplier
import Verif.Proofs.PredMem
import Verif.Spec.Reuse

/-! # Streams of values through one network, in the time-stepped simulator -/
set_option linter.unusedSectionVars false
namespace Axon
open Spec
variable {K : Type*} [Field K] [LinearOrder K] [IsStrictOrderedRing K] [FloorRing K]

set_option maxHeartbeats 1000000 in
/-- One use of a memory, from rest to rest. -/
theorem mem_use {enc : Encoder K} {dt : K} (hdt : 0 < dt) (h2 : 0 < enc.Tcod) (hd : 1 + dt ≤ enc.Tmin) (hd3 : 3 * dt ≤ enc.Tmin)
    (name : Option String) {v t0 : K} (hv0 : 0 ≤ v) (hv1 : v ≤ 1) (ht : 0 ≤ t0) {tr : K} (htr : t0 + enc.Tmax + 3 + 3 * dt ≤ tr)
    {T : K} (hT : tr + enc.Tmax + 2 + 3 * dt ≤ T) {k : ℕ} (hk : tr + enc.Tmax + 2 + 3 * dt ≤ (k : K) * dt)
    {ns S F st} (R : SessionRun enc dt T (memoryNetwork enc name World.empty).2 8
      (([.value v 0 t0, .spike 5 tr] : List (Call K)).flatMap (callSpikes enc)) ns S F st) :
    ∃ Tr : ℕ → List ℕ, (∀ x < 8, Train F x (Tr x) ∧ (Tr x).Pairwise (· < ·)) ∧ (∀ x < 8, ∀ i ∈ Tr x, (i : K) * dt ≤ T) ∧
      (∃ p q : ℕ, p < q ∧ Tr 7 = [p, q] ∧ tr + 2 ≤ (p : K) * dt ∧ (p : K) * dt < tr + 2 + dt ∧
        |(q : K) * dt - (p : K) * dt - (enc.Tmin + v * enc.Tcod)| ≤ 3 * dt) ∧
      Settled ((memoryNetwork enc name World.empty).2.net ns) dt (([.value v 0 t0, .spike 5 tr] : List (Call K)).flatMap (callSpikes enc)) F k ∧
      ∀ x < 8, S k x = ⟨0, 0, 0, 0⟩ := by
  have h1 : 0 < enc.Tmin := by linarith
  have hTmax : 0 < enc.Tmax := add_pos h1 h2
  have hTm : enc.Tmax = enc.Tmin + enc.Tcod := rfl
  have hvc : 0 ≤ v * enc.Tcod := mul_nonneg hv0 h2.le
  have hvc' : v * enc.Tcod ≤ enc.Tcod := mul_le_of_le_one_left h2.le hv1
  obtain ⟨c1, c2, c3, c4, c5⟩ := value_arr hdt h1 h2 (by linarith) hv0 ht
  obtain ⟨g1, g2⟩ := value_gap hdt h1 h2 hd hv0 hv1 ht
  obtain ⟨d1, d2⟩ := dly_bd hdt (one_pos (α := K))
  obtain ⟨e1, e2⟩ := dly_bd hdt (two_pos (α := K))
  have hm := Nat.ceil_lt_add_one (div_pos hTmax hdt).le
  have hm' := mul_lt_mul_of_pos_right hm hdt
  rw [add_mul, div_mul_cancel₀ _ hdt.ne', one_mul] at hm'
  have hm1 : 1 ≤ ⌈enc.Tmax / dt⌉₊ := Nat.one_le_iff_ne_zero.mpr (Nat.ceil_pos.mpr (div_pos hTmax hdt)).ne'
  have hrdy : ((arrInj dt t0 1 + dly dt 1 + ⌈enc.Tmax / dt⌉₊ - 1 + dly dt 1 : ℕ) : K) * dt < t0 + enc.Tmax + 3 + 3 * dt := by
    rw [Nat.add_sub_assoc hm1]
    push_cast [Nat.cast_sub hm1]
    linarith
  obtain ⟨r1, r1'⟩ := arrInj_bd (τ := tr) (D := 1) hdt (by linarith)
  obtain ⟨r2, r2'⟩ := arrInj_bd (τ := tr) (D := 2) hdt (by linarith)
  have E := R.embeds [1, 2, 3, 4, 6, 7] (by simp) (by simp [injTimes, callSpikes])
  have iI := R.input hdt (k := 0) (by norm_num) rfl (A := [t0, t0 + enc.Tmin + v * enc.Tcod]) rfl 1
  have iR := fun D => R.input hdt (k := 5) (by norm_num) rfl (A := [tr]) rfl D
  rw [abs_lt] at c3
  have hba : ((arrInj dt (t0 + enc.Tmin + v * enc.Tcod) 1 - arrInj dt t0 1 : ℕ) : K) =
      (arrInj dt (t0 + enc.Tmin + v * enc.Tcod) 1 : K) - (arrInj dt t0 1 : K) := Nat.cast_sub c2.le
  have hd1 : dly dt (1 : K) ≤ arrInj dt tr 1 + (arrInj dt (t0 + enc.Tmin + v * enc.Tcod) 1 - arrInj dt t0 1) + dly dt 2 := by
    have := dly_mono hdt (show (1 : K) ≤ 2 by norm_num); omega
  have hrr : arrInj dt tr 2 < arrInj dt tr 1 + (arrInj dt (t0 + enc.Tmin + v * enc.Tcod) 1 - arrInj dt t0 1) + dly dt 2 - dly dt 1 := by
    apply step_lt hdt
    rw [Nat.cast_sub hd1]
    push_cast [hba]
    linarith
  have hrd : arrInj dt t0 1 + dly dt 1 + ⌈enc.Tmax / dt⌉₊ - 1 + dly dt 1 < arrInj dt tr 1 :=
    step_lt hdt (by linarith)
  obtain ⟨⟨t6, t7⟩, t1, t2, t3, t4⟩ := mem_trains R.run hdt hTmax (x := 0) E iI c1 g1 g2 (iR 1) (iR 2) hrd (arrInj_pos _ _ _) hrr
  have hq : ((arrInj dt tr 1 + (arrInj dt (t0 + enc.Tmin + v * enc.Tcod) 1 - arrInj dt t0 1) + dly dt 2 - dly dt 1 : ℕ) : K)
      = (arrInj dt tr 1 : K) + ((arrInj dt (t0 + enc.Tmin + v * enc.Tcod) 1 : K) - (arrInj dt t0 1 : K)) + (dly dt 2 : K) - (dly dt 1 : K) := by
    rw [Nat.cast_sub hd1]
    push_cast [hba]
    ring
  rw [Nat.zero_add] at t1 t2 t3 t4 t6 t7
  beta_reduce at t1 t2 t3 t4 t6 t7
  generalize ha : arrInj dt t0 1 = a at *
  generalize hb : arrInj dt (t0 + enc.Tmin + v * enc.Tcod) 1 = b at *
  generalize hmdef : ⌈enc.Tmax / dt⌉₊ = m at *
  have hq1 : ((arrInj dt tr 1 + (b - a) + dly dt 2 - dly dt 1 : ℕ) : K) * dt < tr + enc.Tmax + 2 + 3 * dt := by rw [hq]; linarith
  have hd12 : dly dt (1 : K) ≤ dly dt 2 := dly_mono hdt (by norm_num)
  have hdd := one_le_dly dt (1 : K)
  have hqk : arrInj dt tr 1 + (b - a) + dly dt 2 - dly dt 1 < k := step_lt hdt (by linarith)
  have hrk : arrInj dt tr 2 < k := by omega
  have hr12 : arrInj dt tr 1 ≤ arrInj dt tr 2 := arrInj_mono hdt (by norm_num)
  have t0' : Train F 0 [] := silent R.run (R.std 0 (by norm_num)) ((List.reverse_perm (memSyns enc)).filter _)
  have t5' : Train F 5 [] := silent R.run (R.std 5 (by norm_num)) ((List.reverse_perm (memSyns enc)).filter _)
  have hT : ∀ x < 8, Train F x ((fun x => ([[], [a], [b], [a + dly dt 1 + m - 1], [arrInj dt tr 1 + (b - a) + dly dt 2 - dly dt 1 - dly dt 1], [],
      [a + dly dt 1 + m - 1 + dly dt 1], [arrInj dt tr 2, arrInj dt tr 1 + (b - a) + dly dt 2 - dly dt 1]] : List (List ℕ)).getD x []) x) ∧
      ((fun x => ([[], [a], [b], [a + dly dt 1 + m - 1], [arrInj dt tr 1 + (b - a) + dly dt 2 - dly dt 1 - dly dt 1], [],
      [a + dly dt 1 + m - 1 + dly dt 1], [arrInj dt tr 2, arrInj dt tr 1 + (b - a) + dly dt 2 - dly dt 1]] : List (List ℕ)).getD x []) x).Pairwise (· < ·) := by
    intro x hx
    interval_cases x
    · exact ⟨t0', by simp⟩
    · exact ⟨t1, by simp⟩
    · exact ⟨t2, by simp⟩
    · exact ⟨t3, by simp⟩
    · exact ⟨t4, by simp⟩
    · exact ⟨t5', by simp⟩
    · exact ⟨t6, by simp⟩
    · exact ⟨t7, by simpa using hrr⟩
  set Tr : ℕ → List ℕ := fun x => ([[], [a], [b], [a + dly dt 1 + m - 1], [arrInj dt tr 1 + (b - a) + dly dt 2 - dly dt 1 - dly dt 1], [],
      [a + dly dt 1 + m - 1 + dly dt 1], [arrInj dt tr 2, arrInj dt tr 1 + (b - a) + dly dt 2 - dly dt 1]] : List (List ℕ)).getD x [] with hTr
  have hkk : ∀ x < 8, ∀ j ∈ Tr x, j < k := by
    intro x hx j hj
    interval_cases x <;> simp [hTr] at hj <;> omega
  refine ⟨Tr, hT, ?_, ⟨_, _, hrr, rfl, r2, r2', ?_⟩, ?_, ?_⟩
  · intro x hx i hi
    have h3 : i ≤ arrInj dt tr 1 + (b - a) + dly dt 2 - dly dt 1 := by
      interval_cases x <;> simp [hTr] at hi <;> omega
    have : (i : K) * dt ≤ ((arrInj dt tr 1 + (b - a) + dly dt 2 - dly dt 1 : ℕ) : K) * dt :=
      mul_le_mul_of_nonneg_right (by exact_mod_cast h3) hdt.le
    linarith
  · rw [hq, abs_le]
    constructor <;> linarith
  · refine R.settled' hdt Tr hT (fun x hx j hj => (hkk x hx j hj).le) ?_
    intro s hs i hi
    have hs : s ∈ memSyns enc := hs
    rw [memSyns_eq] at hs
    simp only [List.mem_cons, List.not_mem_nil, or_false] at hs
    rcases hs with rfl | rfl | rfl | rfl | rfl | rfl | rfl | rfl | rfl | rfl <;>
      simp [arrOf, injTimes, callSpikes, hTr] at hi <;> omega
  · intro x hx
    have hsyn : ∀ x, insOf (memoryNetwork enc name World.empty).2.syns x = (insOf (memSyns enc) x) := fun _ => rfl
    interval_cases x
    · exact R.rest_last hdt Tr hT (by norm_num) [] rfl (by simp) 0 (by simp) (by simp [hTr]) (by simp) (by omega)
    · refine R.rest_of hdt Tr hT (by norm_num) [⟨1, 1, -10, 1, .V⟩, ⟨0, 1, 10, 1, .V⟩] rfl (by simp) a (by simp [hTr]) (by simp [hTr]) (by simp) ?_ (by omega)
      simp [Gsum, evs, arrOf, injTimes, callSpikes, hTr, ha, hb]
      rw [if_pos (by omega), if_pos (by omega)]
      norm_num
    · refine R.rest_last hdt Tr hT (by norm_num) [⟨0, 2, 1 / 2 * 10, 1, .V⟩] rfl (by simp) b (by simp [hTr]) (by simp [hTr]) ?_ (by omega)
      simp [arrOf, injTimes, callSpikes, hTr, ha, hb]
      omega
    · refine R.rest_last hdt Tr hT (by norm_num) [⟨1, 3, enc.wacc, 1, .ge⟩] rfl (by simp) _ (.inl (List.mem_singleton.mpr rfl)) (by simp [hTr]) ?_ (by omega)
      simp [arrOf, injTimes, callSpikes, hTr, ha, hb]
      omega
    · refine R.rest_last hdt Tr hT (by norm_num) [⟨5, 4, enc.wacc, 1, .ge⟩, ⟨3, 4, -enc.wacc, 1, .ge⟩, ⟨2, 4, enc.wacc, 2 * 1, .ge⟩] rfl (by simp) _ (.inl (List.mem_singleton.mpr rfl)) (by simp [hTr]) ?_ (by omega)
      simp [arrOf, injTimes, callSpikes, hTr, ha, hb]
      omega
    · exact R.rest_last hdt Tr hT (by norm_num) [] rfl (by simp) 0 (by simp) (by simp [hTr]) (by simp) (by omega)
    · refine R.rest_last hdt Tr hT (by norm_num) [⟨3, 6, 10, 1, .V⟩] rfl (by simp) _ (.inl (List.mem_singleton.mpr rfl)) (by simp [hTr]) ?_ (by omega)
      simp [arrOf, injTimes, callSpikes, hTr, ha, hb]
    · refine R.rest_last hdt Tr hT (by norm_num) [⟨4, 7, 10, 1, .V⟩, ⟨5, 7, 10, 2 * 1, .V⟩] rfl (by simp) _ (.inl (List.mem_cons_of_mem _ (List.mem_singleton.mpr rfl))) (by simp [hTr]; omega) ?_ (by omega)
      simp [arrOf, injTimes, callSpikes, hTr, ha, hb]
      omega

/-- Pairs of spikes one after the other are a stream of answers. -/
theorem stream_of_pairs {ι : Type*} {dt : K} (L : ι → List ℕ) (Q : ι → K × K → Prop) : ∀ ops : List ι,
    (∀ o ∈ ops, ∃ p q : ℕ, L o = [p, q] ∧ Q o ((p : K) * dt, (q : K) * dt)) →
    ∃ answers, (ops.flatMap L).map (fun i : ℕ => (i : K) * dt) = stream answers ∧ List.Forall₂ Q ops answers
  | [], _ => ⟨[], rfl, .nil⟩
  | o :: ops, h => by
    obtain ⟨p, q, e, hQ⟩ := h o (by simp)
    obtain ⟨A, e', hA⟩ := stream_of_pairs L Q ops (fun o ho => h o (by simp [ho]))
    refine ⟨_ :: A, ?_, .cons hQ hA⟩
    rw [List.flatMap_cons, List.map_append, e', e]
    rfl

theorem injTimes_flatMap_none {ι : Type*} {ops : List ι} {f : ι → List (ℕ × K)} {x : ℕ} (h : ∀ o ∈ ops, injTimes (f o) x = []) :
    injTimes (ops.flatMap f) x = [] := by
  unfold injTimes at h ⊢
  rw [List.map_eq_nil_iff, List.filter_eq_nil_iff]
  intro q hq
  obtain ⟨o, ho, hq⟩ := List.mem_flatMap.mp hq
  have := h o ho
  rw [List.map_eq_nil_iff, List.filter_eq_nil_iff] at this
  exact this q hq

theorem lt_arrInj {dt : K} (hdt : 0 < dt) {τ D : K} (h0 : 0 < τ + D) {x : K} (hx0 : 0 ≤ x) (hx : x + dt ≤ τ + D) : ⌈x / dt⌉₊ < arrInj dt τ D := by
  have h1 := (arrInj_bd (τ := τ) (D := D) hdt h0).1
  have h2 := Nat.ceil_lt_add_one (div_nonneg hx0 hdt.le)
  have h3 := mul_lt_mul_of_pos_right h2 hdt
  rw [add_mul, div_mul_cancel₀ _ hdt.ne', one_mul] at h3
  exact step_lt hdt (by linarith)

/-- **C98**, `MemoryNetwork` as a register in the time-stepped simulator: any number of values in `[0, 1]`, each stored at some time, recalled
at least `Tmax + 3 + 3*dt` ms later, and the next one stored at least `Tmax + 2 + 4*dt` ms after the recall: within one simulation,
the recalls answer with the values stored just before, in order, each within `3*dt`, starting 2 ms after the recall (rounded up to a step). -/
theorem C98_register (H : EventHeap K) {ord : ℕ → List ℕ → List ℕ} (hord : SetOrder ord) {enc : Encoder K}
    {dt : K} (hdt : 0 < dt) (h2 : 0 < enc.Tcod) (hd : 1 + dt ≤ enc.Tmin) (hd3 : 3 * dt ≤ enc.Tmin) (name : Option String) (ops : List (Stored K))
    (hv : ∀ o ∈ ops, 0 ≤ o.v ∧ o.v ≤ 1) (ht : ∀ o ∈ ops, 0 ≤ o.t) (hR : ∀ o ∈ ops, o.t + enc.Tmax + 3 + 3 * dt ≤ o.r)
    (hsep : ops.Pairwise (fun o o' => o.r + enc.Tmax + 2 + 4 * dt ≤ o'.t)) {T : K} (hT : ∀ o ∈ ops, o.r + enc.Tmax + 2 + 3 * dt ≤ T) :
    let p := (memoryNetwork enc name World.empty).1
    let w := (memoryNetwork enc name World.empty).2
    ∃ st answers, session H ord enc dt T w p.mod (ops.flatMap (fun o => [.value o.v p.input o.t, .spike p.recall o.r])) = .ok st ∧
      st.spikeLog p.output = some (stream answers) ∧
      List.Forall₂ (fun o r => o.r + 2 ≤ r.1 ∧ r.1 < o.r + 2 + dt ∧ |r.2 - r.1 - (enc.Tmin + o.v * enc.Tcod)| ≤ 3 * dt) ops answers := by
  intro p w
  have h1 : 0 < enc.Tmin := by linarith
  have hTmax : 0 < enc.Tmax := add_pos h1 h2
  obtain ⟨st, Tr, h3, hP, hlog⟩ := (memory_lib enc name).stream H hord enc hdt T ops (fun o => [.value o.v 0 o.t, .spike 5 o.r])
    (by intro o ho c hc; simp at hc; rcases hc with rfl | rfl <;> simp [CallOK, hv o ho])
    (fun o Tr => ∃ p q : ℕ, Tr 7 = [p, q] ∧ o.r + 2 ≤ (p : K) * dt ∧ (p : K) * dt < o.r + 2 + dt ∧ |(q : K) * dt - (p : K) * dt - (enc.Tmin + o.v * enc.Tcod)| ≤ 3 * dt)
    (fun o => ⌈(o.r + enc.Tmax + 2 + 3 * dt) / dt⌉₊)
    (by
      intro o ho ns S F st R
      have hle := Nat.le_ceil ((o.r + enc.Tmax + 2 + 3 * dt) / dt)
      rw [div_le_iff₀ hdt] at hle
      obtain ⟨Tr, a, b, ⟨p, q, -, c⟩, d⟩ := mem_use hdt h2 hd hd3 name (hv o ho).1 (hv o ho).2 (ht o ho) (hR o ho) (hT o ho) hle R
      exact ⟨Tr, a, b, ⟨p, q, c⟩, d⟩)
    (by
      refine hsep.imp_of_mem ?_
      intro o o' ho ho' hs q hq s hs' hp
      have hD : 0 < s.delay := by
        have hs' : s ∈ memSyns enc := hs'
        rw [memSyns_eq] at hs'
        fin_cases hs' <;> simp only <;> norm_num
      have hq2 : o'.t ≤ q.2 := by
        have := mul_nonneg (hv o' ho').1 h2.le
        have := hR o' ho'
        simp [callSpikes] at hq
        rcases hq with rfl | rfl | rfl <;> simp <;> linarith
      have := ht o' ho'
      have := ht o ho
      have := hR o ho
      exact lt_arrInj hdt (by linarith) (by linarith) (by linarith))
  obtain ⟨A, e, hA⟩ := stream_of_pairs (dt := dt) (fun o => Tr o 7)
    (fun o r => o.r + 2 ≤ r.1 ∧ r.1 < o.r + 2 + dt ∧ |r.2 - r.1 - (enc.Tmin + o.v * enc.Tcod)| ≤ 3 * dt) ops hP
  refine ⟨st, A, h3, ?_, hA⟩
  have := hlog 7 (by norm_num)
  rw [List.flatMap_assoc, injTimes_flatMap_none, e] at this
  · exact this
  · intro o _
    simp [injTimes, callSpikes]

/-- Three values through one register. -/
example : [(⟨0, 1 / 4, 120⟩ : Stored ℚ), ⟨300, 1, 500⟩, ⟨700, 0, 900⟩].Pairwise (fun o o' => o.r + (⟨10, 100⟩ : Encoder ℚ).Tmax + 2 + 4 * (1 / 1000) ≤ o'.t) ∧
    ∀ o ∈ [(⟨0, 1 / 4, 120⟩ : Stored ℚ), ⟨300, 1, 500⟩, ⟨700, 0, 900⟩], o.t + (⟨10, 100⟩ : Encoder ℚ).Tmax + 3 + 3 * (1 / 1000) ≤ o.r := by decide +kernel

end Axon
