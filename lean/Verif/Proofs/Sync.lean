import Verif.Proofs.Memory

/-! # The synchronizer -/
set_option linter.unusedSectionVars false
namespace Axon
open Spec
variable {K : Type*} [Field K] [LinearOrder K] [IsStrictOrderedRing K] [FloorRing K]

/-- Weight of the synapses to the sync neuron. -/
def syncW (N : ℕ) : K := 10 / (N : K) + 1 / 10000

/-- Fewer than `N` ready signals do not reach the threshold iff `N ≤ 316`. -/
theorem syncW_lt {N : ℕ} (h1 : 1 ≤ N) : ((N - 1 : ℕ) : K) * syncW N < 10 ↔ N ≤ 316 := by
  have hN : (0 : K) < N := by exact_mod_cast h1
  have e : ((N - 1 : ℕ) : K) * syncW N < 10 ↔ ((N * (N - 1) : ℕ) : K) < 100000 := by
    unfold syncW
    push_cast [Nat.cast_sub h1]
    have e2 : ((N : K) - 1) * (10 / (N : K) + 1 / 10000) - 10 = ((N : K) * ((N : K) - 1) - 100000) / (10000 * N) := by
      field_simp; ring
    rw [← sub_neg, e2, div_neg_iff]
    constructor
    · rintro (⟨_, h⟩ | ⟨h, _⟩)
      · exfalso; nlinarith
      · linarith
    · intro h; right; exact ⟨by linarith, by positivity⟩
  rw [e]
  constructor
  · intro h
    have : N * (N - 1) < 100000 := by exact_mod_cast h
    by_contra hc
    have h3 : 317 ≤ N := by omega
    have : 317 * 316 ≤ N * (N - 1) := Nat.mul_le_mul h3 (by omega)
    omega
  · intro h
    have : N * (N - 1) ≤ 316 * 315 := Nat.mul_le_mul h (by omega)
    have h2 : N * (N - 1) < 100000 := by omega
    exact_mod_cast h2

theorem syncW_pos {N : ℕ} : (0 : K) < syncW N := by
  unfold syncW
  have : (0 : K) ≤ 10 / (N : K) := by positivity
  linarith

/-- `N` ready signals reach the threshold. -/
theorem syncW_all {N : ℕ} (h1 : 1 ≤ N) : 10 ≤ (N : K) * syncW N := by
  have hN : (0 : K) < N := by exact_mod_cast h1
  unfold syncW
  rw [mul_add, mul_div_cancel₀ _ hN.ne']
  have : (0 : K) ≤ (N : K) * (1 / 10000) := by positivity
  linarith

section run
variable {net : Net K} {dt : K} {inj : List (ℕ × K)} {s0 : ℕ → NState K} {S : ℕ → ℕ → NState K}
  {F : ℕ → ℕ → Bool}

theorem sum_evs_const (l : List ℕ) (c : ℕ → ℕ) (w : K) (lo i : ℕ) :
    ((l.map (fun j => (c j, w))).map (fun e : ℕ × K => if lo < e.1 ∧ e.1 ≤ i then e.2 else 0)).sum =
      ((l.filter (fun j => decide (lo < c j ∧ c j ≤ i))).length : K) * w := by
  induction l with
  | nil => simp
  | cons j l ih =>
    simp only [List.map_cons, List.sum_cons, ih, List.filter_cons, decide_eq_true_eq]
    split_ifs
    · rw [List.length_cons]; push_cast; ring
    · ring

/-- A neuron driven by `N` V events of equal weight `w`, where `N - 1` events are not enough and `N` are, fires exactly once:
when the last event arrives. -/
theorem gather_evs (hr : IsRun net dt inj s0 S F) {x N n : ℕ} (hx : IsStd net s0 x) {w : K} (hw : 0 < w) {c : ℕ → ℕ}
    (hE : InE net dt inj F n x .V ((List.range N).map (fun j => (c j, w)))) (hge : InE net dt inj F n x .ge [])
    (hgf : InE net dt inj F n x .gf []) (hga : InE net dt inj F n x .gate []) (hN : ((N - 1 : ℕ) : K) * w < 10)
    (hN' : 10 ≤ (N : K) * w) {s : ℕ} (h1 : ∀ j < N, 1 ≤ c j ∧ c j ≤ s) (h2 : ∃ j < N, c j = s) : TrainTo F n x [s] := by
  obtain ⟨j0, hj0, hs⟩ := h2
  have hlen : ∀ lo i, ((List.range N).filter (fun j => decide (lo < c j ∧ c j ≤ i))).length ≤ N := fun lo i => by
    have := List.length_filter_le (fun j => decide (lo < c j ∧ c j ≤ i)) (List.range N)
    simpa using this
  refine train_one hr hx hE hge hgf hga
    (p := s) (by have := h1 j0 hj0; omega) ?_ ?_ ?_
  · intro i hi his
    rw [Phi_V, sum_evs_const]
    have : ((List.range N).filter (fun j => decide (0 < c j ∧ c j ≤ i))).length ≤ N - 1 := by
      by_contra hc
      have he := hlen 0 i
      have heq : ((List.range N).filter (fun j => decide (0 < c j ∧ c j ≤ i))).length = (List.range N).length := by
        rw [List.length_range]; omega
      have := List.length_filter_eq_length_iff.mp heq j0 (by simpa using hj0)
      simp at this; omega
    calc _ ≤ ((N - 1 : ℕ) : K) * w := mul_le_mul_of_nonneg_right (Nat.cast_le.mpr this) hw.le
      _ < 10 := hN
  · rw [Phi_V, sum_evs_const]
    have heq : ((List.range N).filter (fun j => decide (0 < c j ∧ c j ≤ s))).length = N := by
      have : ((List.range N).filter (fun j => decide (0 < c j ∧ c j ≤ s))).length = (List.range N).length := by
        rw [List.length_filter_eq_length_iff]
        intro j hj
        have := h1 j (by simpa using hj)
        simp; omega
      simpa using this
    rw [heq]; exact hN'
  · intro i hi
    rw [Phi_V, sum_evs_const]
    have : (List.range N).filter (fun j => decide (s < c j ∧ c j ≤ i)) = [] := by
      rw [List.filter_eq_nil_iff]
      intro j hj
      have := h1 j (by simpa using hj)
      simp; omega
    rw [this]; norm_num

/-- A neuron driven once by each of `N` sources with equal weight `w`, where `N - 1` events are not enough and `N` are,
fires exactly once: when the last event arrives. -/
theorem gather_train (hr : IsRun net dt inj s0 S F) {x N : ℕ} (hx : IsStd net s0 x) {src : ℕ → ℕ} {D w : K} (hw : 0 < w)
    (hL : InS net x ((List.range N).map (fun j => ⟨src j, x, w, D, .V⟩))) (hN : ((N - 1 : ℕ) : K) * w < 10)
    (hN' : 10 ≤ (N : K) * w) {c : ℕ → ℕ} (hA : ∀ j < N, Arr dt inj F (src j) D [c j]) {s : ℕ}
    (h1 : ∀ j < N, 1 ≤ c j ∧ c j ≤ s) (h2 : ∃ j < N, c j = s) : Train F x [s] := by
  refine Train.of fun n => ?_
  have hev : evs ((List.range N).map (fun j => ((⟨src j, x, w, D, .V⟩ : Synapse K), [c j]))) =
      (List.range N).map (fun j => (c j, w)) := by
    unfold evs
    rw [List.flatMap_map, List.map_eq_flatMap]; rfl
  have hE := inE_of (dt := dt) (inj := inj) (F := F) (n := n) hL .V
    ((List.range N).map (fun j => ((⟨src j, x, w, D, .V⟩ : Synapse K), [c j])))
    (by rw [List.filter_eq_self.mpr (by simp), List.map_map]; rfl)
    (by intro p hp; obtain ⟨j, hj, rfl⟩ := List.mem_map.mp hp; exact (hA j (by simpa using hj)).to _)
  rw [hev] at hE
  exact gather_evs hr hx hw hE (inE_nil hL .ge (by simp)) (inE_nil hL .gf (by simp)) (inE_nil hL .gate (by simp)) hN hN' h1 h2

/-- A `SynchronizerNetwork` with `N` channels sits in the network: neuron `x` is `sync`, channel `j` consists of the
ten neurons from `x + 1 + 10 * j` on (input, output, then the eight neurons of a memory). -/
structure SyncAt (net : Net K) (s0 : ℕ → NState K) (inj : List (ℕ × K)) (enc : Encoder K) (x N : ℕ) : Prop where
  std : ∀ k, k = 0 ∨ (1 ≤ k ∧ k < 1 + 10 * N ∧ k % 10 ≠ 1) → IsStd net s0 (x + k)
  noinj : ∀ k, k = 0 ∨ (1 ≤ k ∧ k < 1 + 10 * N ∧ k % 10 ≠ 1) → injTimes inj (x + k) = []
  sync : InS net x ((List.range N).map (fun j => ⟨x + 10 * j + 9, x, syncW N, 1, .V⟩))
  mem : ∀ j < N, Embeds net s0 inj (x + 10 * j + 3) (memSyns enc) [1, 2, 3, 4, 6, 7]
  inp : ∀ j < N, InS net (x + 10 * j + 3) [⟨x + 10 * j + 1, x + 10 * j + 3, 10, 1, .V⟩]
  rcl : ∀ j < N, InS net (x + 10 * j + 8) [⟨x, x + 10 * j + 8, 10, 1, .V⟩]
  out : ∀ j < N, InS net (x + 10 * j + 2) [⟨x + 10 * j + 10, x + 10 * j + 2, 10, 1, .V⟩]

/-- The synchronizer: all outputs start in the same step `s + …`, with the intervals of the inputs; how often each neuron
fires. -/
theorem sync_core_full (hr : IsRun net dt inj s0 S F) (hdt : 0 < dt) {enc : Encoder K} (hT : 0 < enc.Tmax) {x N : ℕ}
    (h : SyncAt net s0 inj enc x N) (hN1 : 1 ≤ N) (hN : N ≤ 316) {a b : ℕ → ℕ}
    (hI : ∀ j < N, Arr dt inj F (x + 10 * j + 1) 1 [a j, b j]) (ha : ∀ j < N, 1 ≤ a j)
    (hab : ∀ j < N, a j + dly dt 1 ≤ b j) (hb : ∀ j < N, b j ≤ a j + ⌈enc.Tmax / dt⌉₊) {M : ℕ}
    (hM : ∀ j < N, a j ≤ M) (hM' : ∃ j < N, a j = M) :
    Train F x [M + dly dt 1 + dly dt 1 + ⌈enc.Tmax / dt⌉₊ - 1 + dly dt 1 + dly dt 1] ∧
    ∀ j < N, Train F (x + 10 * j + 2)
      [M + dly dt 1 + dly dt 1 + ⌈enc.Tmax / dt⌉₊ - 1 + dly dt 1 + dly dt 1 + dly dt 1 + dly dt 2 + dly dt 1,
       M + dly dt 1 + dly dt 1 + ⌈enc.Tmax / dt⌉₊ - 1 + dly dt 1 + dly dt 1 + dly dt 1 + dly dt 2 + dly dt 1 + (b j - a j)] ∧
      Train F (x + 10 * j + 9) [a j + dly dt 1 + dly dt 1 + ⌈enc.Tmax / dt⌉₊ - 1 + dly dt 1] ∧
      ∀ k < 9, Fires F (x + 10 * j + 2 + k) ([2, 2, 1, 1, 1, 1, 1, 1, 2].getD k 0) := by
  have hd := one_le_dly dt (1 : K)
  have hd2 : dly dt (1 : K) ≤ dly dt 2 := dly_mono hdt (by norm_num)
  have t3 : ∀ j < N, Fires F (x + 10 * j + 3) 2 := by
    intro j hj
    have s3 := h.std (10 * j + 3) (by omega)
    rw [← Nat.add_assoc] at s3
    have t := relay1 hr s3 (le_refl 10) (h.inp j hj) (hI j hj) (by have := ha j hj; have := hab j hj; simp; omega)
    exact t.fires2 (by have := hab j hj; omega)
  have aI : ∀ j < N, Arr dt inj F (x + 10 * j + 3) 1 [a j + dly dt 1, b j + dly dt 1] := by
    intro j hj
    have n3 := h.noinj (10 * j + 3) (by omega)
    rw [← Nat.add_assoc] at n3
    have s3 := h.std (10 * j + 3) (by omega)
    rw [← Nat.add_assoc] at s3
    have t := relay1 hr s3 (le_refl 10) (h.inp j hj) (hI j hj) (by have := ha j hj; have := hab j hj; simp; omega)
    exact t.arr2 hdt (by have := hab j hj; omega) n3 1
  have tr : ∀ j < N, Train F (x + 10 * j + 9) [a j + dly dt 1 + dly dt 1 + ⌈enc.Tmax / dt⌉₊ - 1 + dly dt 1] := by
    intro j hj
    exact (mem_store hr hdt hT (h.mem j hj) (aI j hj) (by omega) (by have := hab j hj; omega)).2.2
  have hm1 : 1 ≤ ⌈enc.Tmax / dt⌉₊ := Nat.one_le_iff_ne_zero.mpr (Nat.ceil_pos.mpr (div_pos hT hdt)).ne'
  have ts : Train F x [M + dly dt 1 + dly dt 1 + ⌈enc.Tmax / dt⌉₊ - 1 + dly dt 1 + dly dt 1] := by
    have hs := h.std 0 (by simp)
    rw [Nat.add_zero] at hs
    refine gather_train hr hs syncW_pos h.sync ((syncW_lt hN1).mpr hN) (syncW_all hN1)
      (c := fun j => a j + dly dt 1 + dly dt 1 + ⌈enc.Tmax / dt⌉₊ - 1 + dly dt 1 + dly dt 1) ?_ ?_ ?_
    · intro j hj
      have n9 := h.noinj (10 * j + 9) (by omega)
      rw [← Nat.add_assoc] at n9
      exact (tr j hj).arr1 hdt n9 1
    · intro j hj
      have := hM j hj
      refine ⟨?_, ?_⟩
      · show 1 ≤ a j + dly dt 1 + dly dt 1 + ⌈enc.Tmax / dt⌉₊ - 1 + dly dt 1 + dly dt 1
        omega
      · show a j + dly dt 1 + dly dt 1 + ⌈enc.Tmax / dt⌉₊ - 1 + dly dt 1 + dly dt 1 ≤ _
        omega
    · obtain ⟨j, hj, e⟩ := hM'
      exact ⟨j, hj, by rw [← e]⟩
  refine ⟨ts, fun j hj => ?_⟩
  have n0 := h.noinj 0 (by simp)
  rw [Nat.add_zero] at n0
  have as := ts.arr1 hdt n0 1
  have s8 := h.std (10 * j + 8) (by omega)
  have n8 := h.noinj (10 * j + 8) (by omega)
  have s2 := h.std (10 * j + 2) (by omega)
  have n10 := h.noinj (10 * j + 10) (by omega)
  rw [← Nat.add_assoc] at s8 n8 s2 n10
  have t8 := relay1 hr s8 (le_refl 10) (h.rcl j hj) as (by simp; omega)
  have a8 := fun D => t8.arr1 hdt n8 D
  have hMj := hM j hj
  have habj := hab j hj
  have hbj := hb j hj
  have haj := ha j hj
  obtain ⟨⟨t9, t10⟩, f4, f5, f6, f7⟩ := mem_recall_full hr hdt hT (h.mem j hj) (aI j hj) (by omega) (by omega) (by omega) (a8 1) (a8 2)
    (by omega) (by omega) (by omega)
  have a10 := t10.arr2 hdt (by omega) n10 1
  have t2 := relay1 hr s2 (le_refl 10) (h.out j hj) a10 (by simp; omega)
  refine ⟨?_, tr j hj, ?_⟩
  · convert t2 using 3
    all_goals omega
  · have f2 := t2.fires2 (by omega)
    have f8 := t8.fires1
    have f9 := t9.fires1
    have f10 := t10.fires2 (by omega)
    intro k hk
    have : k = 0 ∨ k = 1 ∨ k = 2 ∨ k = 3 ∨ k = 4 ∨ k = 5 ∨ k = 6 ∨ k = 7 ∨ k = 8 := by omega
    rcases this with rfl | rfl | rfl | rfl | rfl | rfl | rfl | rfl | rfl
    exacts [f2, t3 j hj, f4, f5, f6, f7, f8, f9, f10]

/-- The synchronizer: all outputs start in the same step `s + …`, with the intervals of the inputs. -/
theorem sync_core (hr : IsRun net dt inj s0 S F) (hdt : 0 < dt) {enc : Encoder K} (hT : 0 < enc.Tmax) {x N : ℕ}
    (h : SyncAt net s0 inj enc x N) (hN1 : 1 ≤ N) (hN : N ≤ 316) {a b : ℕ → ℕ}
    (hI : ∀ j < N, Arr dt inj F (x + 10 * j + 1) 1 [a j, b j]) (ha : ∀ j < N, 1 ≤ a j)
    (hab : ∀ j < N, a j + dly dt 1 ≤ b j) (hb : ∀ j < N, b j ≤ a j + ⌈enc.Tmax / dt⌉₊) {M : ℕ}
    (hM : ∀ j < N, a j ≤ M) (hM' : ∃ j < N, a j = M) :
    Train F x [M + dly dt 1 + dly dt 1 + ⌈enc.Tmax / dt⌉₊ - 1 + dly dt 1 + dly dt 1] ∧
    ∀ j < N, Train F (x + 10 * j + 2)
      [M + dly dt 1 + dly dt 1 + ⌈enc.Tmax / dt⌉₊ - 1 + dly dt 1 + dly dt 1 + dly dt 1 + dly dt 2 + dly dt 1,
       M + dly dt 1 + dly dt 1 + ⌈enc.Tmax / dt⌉₊ - 1 + dly dt 1 + dly dt 1 + dly dt 1 + dly dt 2 + dly dt 1 + (b j - a j)] ∧
      Train F (x + 10 * j + 9) [a j + dly dt 1 + dly dt 1 + ⌈enc.Tmax / dt⌉₊ - 1 + dly dt 1] := by
  obtain ⟨h1, h2⟩ := sync_core_full hr hdt hT h hN1 hN hI ha hab hb hM hM'
  exact ⟨h1, fun j hj => ⟨(h2 j hj).1, (h2 j hj).2.1⟩⟩

end run
end Axon
