import Verif.Proofs.FloatLinBuild
import Verif.Proofs.FloatClosed
import Verif.Proofs.FloatGather
import Verif.Props.FloatSync

/-! # The linear combinator in floats: what reaches its `sync` neuron -/
set_option linter.unusedSectionVars false
namespace Axon
open Spec

theorem fold_climb (W : Double) : ∀ N, (List.replicate N W).foldl (· + ·) 0 = climb W 0 N
  | 0 => rfl
  | N + 1 => by
    rw [List.replicate_succ', List.foldl_append, fold_climb W N]; rfl

/-- The sum of less than `N` of the weights stays below the threshold. -/
theorem lin_low {N : ℕ} (h2 : N ≤ 2 ^ 20) {m : ℕ} (hm : m < N) : (climb (linWFl N) 0 m).val < 10 := by
  have h1 : 1 ≤ N := by omega
  have hN : (1 : ℚ) ≤ N := by exact_mod_cast h1
  have hN' : (N : ℚ) ≤ 2 ^ 20 := by exact_mod_cast h2
  have e1 : ((N : ℕ) : Double).val = N := by rw [Fl.val_nat]; exact fl_nat N (h2.trans (by norm_num))
  have e2 : (weFl : Double).val = 10 := by decide +kernel
  have v : (linWFl N).val = fl 53 (10 / N) := by unfold linWFl; rw [Fl.val_div, e1, e2]
  have n1 := fl_near (10 / (N : ℚ))
  rw [← v] at n1
  have a1 : (10 : ℚ) / N ≤ 10 := div_le_self (by norm_num) hN
  have aN : (10 : ℚ) / N * N = 10 := div_mul_cancel₀ _ (by linarith)
  have a0 : (10 : ℚ) / 2 ^ 20 ≤ 10 / N := div_le_div_of_nonneg_left (by norm_num) (by linarith) hN'
  have a00 : (0 : ℚ) < 10 / 2 ^ 20 := by norm_num
  have hm1 : (m : ℚ) + 1 ≤ N := by exact_mod_cast hm
  have hm0 : (0 : ℚ) ≤ m := Nat.cast_nonneg _
  rw [abs_of_pos (show (0 : ℚ) < 10 / N by linarith)] at n1
  obtain ⟨w, w'⟩ := abs_le.mp n1
  have u1 : uu ≤ 1 / 10 ^ 14 := by norm_num
  have u0 : (0 : ℚ) ≤ uu := by norm_num
  have k1 : (10 : ℚ) / 2 ^ 20 ≥ 9 / 10 ^ 6 := by norm_num
  have k2 : (2 : ℚ) ^ 20 * (12 * uu) ≤ 1 / 10 ^ 7 := by norm_num
  generalize (linWFl N) = W at *
  generalize (10 : ℚ) / N = a at *
  generalize uu = u at *
  have au : a * u ≤ a * (1 / 10 ^ 14) := mul_le_mul_of_nonneg_left u1 (by linarith)
  have W0 : 0 ≤ W.val := by linarith
  have mW' : ((m : ℚ) + 1) * W.val ≤ 10 + 1 / 10 ^ 12 := by
    have s : ((m : ℚ) + 1) * W.val ≤ N * (a * (1 + 1 / 10 ^ 14)) := mul_le_mul hm1 (by linarith) W0 (by linarith)
    have e : (N : ℚ) * (a * (1 + 1 / 10 ^ 14)) = a * N * (1 + 1 / 10 ^ 14) := by ring
    rw [e, aN] at s
    linarith
  have e : ((m : ℚ) + 1) * W.val = m * W.val + W.val := by ring
  rw [e] at mW'
  have g := gather_err (W := W) W0 (by linarith) m (by omega) (by linarith)
  have t : (m : ℚ) * (12 * uu) ≤ 1 / 10 ^ 7 := (mul_le_mul_of_nonneg_right (show (m : ℚ) ≤ 2 ^ 20 by linarith) (by norm_num)).trans (by norm_num)
  have := (abs_le.mp g).2
  generalize (m : ℚ) * (12 * uu) = z at *
  generalize (m : ℚ) * W.val = y at *
  linarith

/-- The calls that give the neurons `u j` their values. -/
def callsAt (u : ℕ → ℕ) (l : List ℕ) (v t : ℕ → Double) : List (Call Double) := l.map fun j => .value (v j) (u j) (t j)

theorem callsAt_inj (enc : Encoder Double) (u : ℕ → ℕ) (l : List ℕ) (v t : ℕ → Double) (m : ℕ) :
    (((callsAt u l v t).flatMap (callSpikesR enc)).filter fun q => q.1 = m) =
      l.flatMap fun j => if u j = m then [(u j, t j), (u j, t j + (enc.Tmin + v j * enc.Tcod))] else [] := by
  unfold callsAt
  rw [List.flatMap_map, List.filter_flatMap]
  congr 1
  funext j
  show List.filter _ [(u j, t j), (u j, t j + (enc.Tmin + v j * enc.Tcod))] = _
  by_cases h : u j = m
  · simp [h]
  · simp [h]

theorem callsAt_at (enc : Encoder Double) {u : ℕ → ℕ} (hu : ∀ i j, u i = u j → i = j) {l : List ℕ} (hl : l.Nodup) (v t : ℕ → Double) {j : ℕ} (hj : j ∈ l) :
    (((callsAt u l v t).flatMap (callSpikesR enc)).filter fun q => q.1 = u j) = [(u j, t j), (u j, t j + (enc.Tmin + v j * enc.Tcod))] := by
  rw [callsAt_inj, ← flatMap_at (fun j => [(u j, t j), (u j, t j + (enc.Tmin + v j * enc.Tcod))]) hl hj]
  congr 1
  funext i
  by_cases h : i = j
  · rw [if_pos (by rw [h]), if_pos h]
  · rw [if_neg (fun e => h (hu _ _ e)), if_neg h]

theorem callsAt_off (enc : Encoder Double) (u : ℕ → ℕ) (l : List ℕ) (v t : ℕ → Double) {m : ℕ} (hm : ∀ j ∈ l, u j ≠ m) :
    (((callsAt u l v t).flatMap (callSpikesR enc)).filter fun q => q.1 = m) = [] := by
  rw [callsAt_inj, List.flatMap_eq_nil_iff]
  intro j hj
  exact if_neg (hm j hj)

theorem linSynsFl_mem {enc : Encoder Double} {N : ℕ} {c : ℕ → Double} {s : Synapse Double} : ∀ {M : ℕ}, s ∈ linSynsFl enc N c M →
    s ∈ linCoreFl enc ∨ ∃ i < M, s ∈ linRoundFl enc N (c i) (40 + 6 * i)
  | 0, h => .inl h
  | M + 1, h => by
    rcases List.mem_append.mp h with h | h
    · exact .inr ⟨M, by omega, h⟩
    · rcases linSynsFl_mem h with h | ⟨i, hi, h⟩
      · exact .inl h
      · exact .inr ⟨i, by omega, h⟩

theorem linCoreFl_closed (enc : Encoder Double) : ∀ s ∈ linCoreFl enc, (s.post = 2 → s.pre = 9) ∧ (s.post = 3 → s.pre = 9) ∧ s.post ≠ 9 ∧ s.post < 40 := by
  simp [linCoreFl]

theorem linRoundFl_closed (enc : Encoder Double) (N b : ℕ) (c : Double) : ∀ s ∈ linRoundFl enc N c b,
    (s.post = 0 ∨ s.post = 1) ∨ (s.post = 9 ∧ (s.pre = b + 4 ∨ s.pre = b + 5)) ∨ (s.post = b + 4 ∧ s.pre = b) ∨ (s.post = b + 5 ∧ s.pre = b + 1) ∨ s.post = b + 2 ∨ s.post = b + 3 := by
  intro s hs
  simp only [linRoundFl, List.mem_cons, List.not_mem_nil, or_false] at hs
  rcases hs with rfl | rfl | rfl | rfl | rfl | rfl | rfl | rfl | rfl | rfl | rfl | rfl <;> by_cases h : 0 < c <;> simp [h]

theorem linRoundFl_last (enc : Encoder Double) (N : ℕ) (c : Double) (b : ℕ) (hb : 40 ≤ b) {k : ℕ} (hk : k < 2) :
    ((linRoundFl enc N c b).reverse.filter fun s => s.post = b + (4 + k)) = [⟨b + k, b + (4 + k), Fl.of (1 / 2) * weFl, tsynFl, .V⟩] := by
  unfold linRoundFl
  obtain ⟨b, rfl⟩ := Nat.exists_eq_add_of_le' hb
  by_cases h : 0 < c <;> interval_cases k <;> simp [h]

theorem linRoundFl_in (enc : Encoder Double) (N : ℕ) (c : Double) (b : ℕ) (hb : 40 ≤ b) {k : ℕ} (hk : k < 2) :
    ((linRoundFl enc N c b).reverse.filter fun s => s.post = b + k) = [] := by
  rw [List.filter_eq_nil_iff]
  intro s hs hc
  have := linRoundFl_post enc N _ c s (List.mem_reverse.mp hs)
  have := of_decide_eq_true hc
  omega

theorem gather_lin {dt : Double} {inj : List (ℕ × Double)} {LS : ℕ → List ℕ} {W : Double} {g : ℕ → ℕ} {r : ℕ → Bool} {N : ℕ} (i : ℕ)
    (h : ∀ j < N, ∀ k < 2, contrib dt inj LS i ⟨40 + 6 * j + (4 + k), 9, W, tsynFl, .V⟩ = if (if r j then 0 else 1) = k then (if i = g j then [(.V, W)] else []) else []) :
    ((List.range N).flatMap (fun j => ([⟨40 + 6 * j + 5, 9, W, tsynFl, .V⟩, ⟨40 + 6 * j + 4, 9, W, tsynFl, .V⟩] : List (Synapse Double)))).flatMap (contrib dt inj LS i) =
      List.replicate (((List.range N).map g).count i) (.V, W) := by
  induction N with
  | zero => rfl
  | succ N ih =>
    rw [List.range_succ, List.map_append, List.flatMap_append, List.flatMap_append, ih (fun j hj => h j (by omega)), List.count_append, List.replicate_add]
    congr 1
    rw [List.map_cons, List.map_nil, List.flatMap_cons, List.flatMap_nil, List.append_nil, List.flatMap_cons, List.flatMap_cons, List.flatMap_nil, List.append_nil,
      h N (by omega) 1 (by norm_num), h N (by omega) 0 (by norm_num), List.count_singleton]
    by_cases e : i = g N
    · cases r N <;> simp [e]
    · cases r N <;> simp [e, Ne.symm e]

end Axon
