import Verif.Proofs.Gate
import Verif.Proofs.Memory
import Mathlib.Algebra.Order.Archimedean.Basic

/-! # The accumulators of the logarithm and exponential networks -/
set_option linter.unusedSectionVars false
namespace Axon
open Spec
variable {K : Type*} [Field K] [LinearOrder K] [IsStrictOrderedRing K] [FloorRing K]

/-- `n` is the least number of decay steps after which at most `X` is left. -/
def DecayTo (dt X : K) (n : ℕ) : Prop := ∀ k, rho dt ^ k ≤ X ↔ n ≤ k

theorem decay_exists {dt X : K} (h0 : 0 < dt) (h1 : dt < 20) (hX : 0 < X) : ∃ n, DecayTo dt X n := by
  classical
  obtain ⟨n, hn⟩ := exists_pow_lt_of_lt_one hX (rho_lt h0)
  have hex : ∃ k, rho dt ^ k ≤ X := ⟨n, hn.le⟩
  refine ⟨Nat.find hex, fun k => ⟨fun h => Nat.find_min' hex h, fun h => ?_⟩⟩
  exact (pow_le_pow_of_le_one (rho_pos h1).le (rho_lt h0).le h).trans (Nat.find_spec hex)

theorem DecayTo.pos {dt X : K} {n : ℕ} (h : DecayTo dt X n) (hX : X < 1) : 1 ≤ n := by
  rcases Nat.eq_zero_or_pos n with rfl | h'
  · have := (h 0).mpr le_rfl
    rw [pow_zero] at this
    exact absurd this (not_le.mpr hX)
  · exact h'

theorem Phi_pair (dt w : K) {A B lo : ℕ} (hAB : A ≤ B) (hlo : lo < A) (i : ℕ) :
    Phi dt 100 [] [(A, w), (B, -w)] lo i = w * dt / 100 * (((i + 1 - A) - (i + 1 - B) : ℕ) : K) := by
  simp only [Phi, List.map_nil, List.sum_nil, List.map_cons, List.sum_cons, zero_add, add_zero]
  by_cases h1 : i < A
  · rw [if_neg (by omega), if_neg (by omega), show i + 1 - A = 0 by omega]; simp
  · by_cases h2 : i < B
    · rw [if_pos (by omega), if_neg (by omega), show i + 1 - B = 0 by omega, show i + 1 - A - 0 = i - A + 1 by omega]; ring
    · rw [if_pos (by omega), if_pos (by omega), show i - A + 1 = (i - B + 1) + (B - A) by omega, show (i + 1 - A) - (i + 1 - B) = B - A by omega]
      push_cast; ring

section run
variable {net : Net K} {dt : K} {inj : List (ℕ × K)} {s0 : ℕ → NState K} {S : ℕ → ℕ → NState K}
  {F : ℕ → ℕ → Bool}

/-- Inputs of an accumulator for logarithms: ramp from `A` to `B`, then the gate opens in step `G`. -/
structure LogIn (net : Net K) (dt : K) (inj : List (ℕ × K)) (F : ℕ → ℕ → Bool) (x : ℕ) (w : K) (A B G : ℕ) : Prop where
  V : ∀ n, InE net dt inj F n x .V []
  ge : ∀ n, InE net dt inj F n x .ge [(A, w), (B, -w)]
  gf : ∀ n, InE net dt inj F n x .gf [(G, 50)]
  gate : ∀ n, InE net dt inj F n x .gate [(G, 1)]

theorem LogIn.gate' {x : ℕ} {w : K} {A B G : ℕ} (h : LogIn net dt inj F x w A B G) (n : ℕ) :
    ∀ i ≤ n, input net dt inj F .gate x i = (if i = G then 1 else 0) - (if i = n + 1 then 1 else 0) := by
  intro i hi
  rw [h.gate n i hi, if_neg (show ¬ i = n + 1 by omega)]
  simp [evAt, eq_comm]

/-- The accumulator fires when the decay has reached the accumulated level. -/
theorem log_acc (hr : IsRun net dt inj s0 S F) (hdt : 0 < dt) (hdt' : dt < 20) {x : ℕ} (hx : IsStd net s0 x) {w X : K} (hw : 0 ≤ w)
    {A B G n : ℕ} (h : LogIn net dt inj F x w A B G) (hA : 1 ≤ A) (hAB : A ≤ B) (hBG : B ≤ G)
    (hX : w * dt / 100 * ((B - A : ℕ) : K) = 10 * X) (hX1 : X < 1) (hn : DecayTo dt X n) : Train F x [G - 1 + n] := by
  have hn1 := hn.pos hX1
  refine Train.of fun N => ?_
  have hopen : ∀ i ≤ N, openSteps G (N + 1) 0 i = i + 1 - G := by
    intro i hi
    unfold openSteps; rw [if_pos (by omega)]; omega
  have hwd : 0 ≤ w * dt / 100 := by positivity
  have hlow : ∀ i, Phi dt 100 [] [(A, w), (B, -w)] 0 i ≤ 10 * X := by
    intro i
    rw [Phi_pair dt w hAB hA, ← hX]
    refine mul_le_mul_of_nonneg_left ?_ hwd
    exact_mod_cast (by omega : (i + 1 - A) - (i + 1 - B) ≤ B - A)
  have hpre : ∀ i, 1 ≤ i → i < G - 1 + n → i ≤ N → PhiG dt [] [(A, w), (B, -w)] G (N + 1) 0 i < 10 := by
    intro i h1 h2 h3
    have h4 := hlow i
    unfold PhiG Psi
    rw [if_pos (by omega), hopen i h3]
    by_cases hi : i + 1 - G < n
    · have := (hn (i + 1 - G)).not.mpr (by omega)
      rw [not_le] at this
      linarith
    · omega
  by_cases hN : G - 1 + n ≤ N
  · refine gate_one hr hx (h.V N) (h.ge N) (h.gf N) (h.gate' N) (by omega) (fun i a b => hpre i a b (by omega)) ?_ ?_
    · have := (hn n).mpr le_rfl
      unfold PhiG Psi
      rw [if_pos (by omega), hopen _ hN, Phi_pair dt w hAB hA, show G - 1 + n + 1 - A - (G - 1 + n + 1 - B) = B - A by omega, hX,
        show G - 1 + n + 1 - G = n by omega]
      linarith
    · intro i h1 h2
      unfold PhiG Psi
      rw [if_neg (by omega)]
      simp only [Phi, List.map_nil, List.sum_nil, List.map_cons, List.sum_cons]
      rw [if_neg (by omega), if_neg (by omega)]; norm_num
  · intro i hi
    have := gate_none hr hx (h.V N) (h.ge N) (h.gf N) (h.gate' N) (fun i a b => hpre i a (by omega) b) i hi
    rw [this]; simp; omega

/-- An accumulator without accumulated level never fires. -/
theorem log_acc_none (hr : IsRun net dt inj s0 S F) (hdt : 0 < dt) (hdt' : dt < 20) {x : ℕ} (hx : IsStd net s0 x) {w : K} (hw : 0 ≤ w)
    {A B G : ℕ} (h : LogIn net dt inj F x w A B G) (hB : 1 ≤ B) (hAB : B ≤ A) : Train F x [] := by
  refine Train.of fun N => gate_none hr hx (h.V N) (h.ge N) (h.gf N) (h.gate' N) ?_
  intro i h1 h2
  have h3 := Psi_lt hdt' G (N + 1) 0 i
  have h4 : Phi dt 100 [] [(A, w), (B, -w)] 0 i ≤ 0 := by
    simp only [Phi, List.map_nil, List.sum_nil, List.map_cons, List.sum_cons, zero_add, add_zero]
    have h6 : 0 ≤ w * ((i - B + 1 : ℕ) : K) * dt / 100 := by positivity
    have e : -w * ((i - B + 1 : ℕ) : K) * dt / 100 = - (w * ((i - B + 1 : ℕ) : K) * dt / 100) := by ring
    by_cases c1 : 0 < A ∧ A ≤ i
    · rw [if_pos c1, if_pos (by omega)]
      have : ((i - A + 1 : ℕ) : K) ≤ ((i - B + 1 : ℕ) : K) := by exact_mod_cast (by omega)
      have h5 : w * ((i - A + 1 : ℕ) : K) * dt / 100 ≤ w * ((i - B + 1 : ℕ) : K) * dt / 100 := by gcongr
      linarith
    · rw [if_neg c1]
      split_ifs <;> linarith
  unfold PhiG
  linarith

/-- An accumulator that fills up before the ramp ends fires once, and never again. -/
theorem log_acc_early (hr : IsRun net dt inj s0 S F) (hdt : 0 < dt) (hdt' : dt < 20) {x : ℕ} (hx : IsStd net s0 x) {w : K} (hw : 0 ≤ w)
    {m A B G : ℕ} (hm : Reach w dt m) (h : LogIn net dt inj F x w A B G) (hA : 1 ≤ A) (hm1 : 1 ≤ m) (hAB : A + m ≤ B) (hBG : B ≤ G) :
    Train F x [A + m - 1] := by
  refine Train.of fun N => ?_
  refine gate_one hr hx (h.V N) (h.ge N) (h.gf N) (h.gate' N) (by omega) ?_ ?_ ?_
  · intro i h1 h2
    unfold PhiG Psi
    rw [if_pos (by omega), show openSteps G (N + 1) 0 i = 0 by unfold openSteps; omega, Phi_pair dt w (by omega) (by omega)]
    have := (hm ((i + 1 - A - (i + 1 - B) : ℕ) : ℤ)).not.mpr (by omega)
    rw [not_le] at this
    push_cast at this ⊢
    simpa using this
  · unfold PhiG Psi
    rw [if_pos (by omega), show openSteps G (N + 1) 0 (A + m - 1) = 0 by unfold openSteps; omega, Phi_pair dt w (by omega) (by omega)]
    have := (hm ((A + m - 1 + 1 - A - (A + m - 1 + 1 - B) : ℕ) : ℤ)).mpr (by omega)
    push_cast at this ⊢
    simpa using this
  · intro i h1 h2
    have h3 := Psi_lt hdt' G (N + 1) (A + m - 1) i
    unfold PhiG
    simp only [Phi, List.map_nil, List.sum_nil, List.map_cons, List.sum_cons, zero_add, add_zero]
    rw [if_neg (by omega)]
    have h6 : 0 ≤ w * ((i - B + 1 : ℕ) : K) * dt / 100 := by positivity
    have e : -w * ((i - B + 1 : ℕ) : K) * dt / 100 = - (w * ((i - B + 1 : ℕ) : K) * dt / 100) := by ring
    split_ifs <;> linarith

/-- The accumulator of the exponential: the gate is open from `A` to `B`, then a ramp starts. -/
theorem exp_acc (hr : IsRun net dt inj s0 S F) (hdt : 0 < dt) (hdt' : dt < 20) {x : ℕ} (hx : IsStd net s0 x) {w : K} (hw : 0 ≤ w)
    {A B j : ℕ} (hV : ∀ n, InE net dt inj F n x .V []) (hge : ∀ n, InE net dt inj F n x .ge [(B, w)])
    (hgf : ∀ n, InE net dt inj F n x .gf [(A, 50)]) (hga : ∀ n, InE net dt inj F n x .gate [(A, 1), (B, -1)])
    (hA : 1 ≤ A) (hB : 1 ≤ B) (hj : ∀ z : ℕ, 10 * rho dt ^ (B - A) ≤ w * dt / 100 * (z : K) ↔ j ≤ z) (hAj : A ≤ B + j - 1) :
    Train F x [B + j - 1] ∧ 1 ≤ j := by
  have hrp := rho_pos hdt'
  have hj1 : 1 ≤ j := by
    rcases Nat.eq_zero_or_pos j with rfl | h'
    · have := (hj 0).mpr le_rfl
      have h2 := pow_pos hrp (B - A)
      simp at this; linarith
    · exact h'
  refine ⟨Train.of fun N => ?_, hj1⟩
  have hg : ∀ i ≤ N, input net dt inj F .gate x i = (if i = A then 1 else 0) - (if i = B then 1 else 0) := by
    intro i hi
    rw [hga N i hi]
    simp only [evAt, List.map_cons, List.map_nil, List.sum_cons, List.sum_nil, add_zero, eq_comm (a := i)]
    by_cases h1 : A = i <;> by_cases h2 : B = i <;> simp [h1, h2]
  have hPhi : ∀ i, Phi dt 100 [] [(B, w)] 0 i = w * dt / 100 * ((i + 1 - B : ℕ) : K) := by
    intro i
    simp only [Phi, List.map_nil, List.sum_nil, List.map_cons, List.sum_cons, zero_add, add_zero]
    by_cases h1 : B ≤ i
    · rw [if_pos (by omega), show i + 1 - B = i - B + 1 by omega]; ring
    · rw [if_neg (by omega), show i + 1 - B = 0 by omega]; simp
  have hop : ∀ i, openSteps A B 0 i ≤ B - A ∧ (B ≤ i → A ≤ i → openSteps A B 0 i = B - A) := by
    intro i
    unfold openSteps; rw [if_pos (by omega)]
    omega
  refine gate_one hr hx (hV N) (hge N) (hgf N) hg (by omega) ?_ ?_ ?_
  · intro i h1 h2
    unfold PhiG Psi
    rw [if_pos (by omega), hPhi]
    have h3 := (hj (i + 1 - B)).not.mpr (by omega)
    rw [not_le] at h3
    have h4 : rho dt ^ (B - A) ≤ rho dt ^ openSteps A B 0 i := pow_le_pow_of_le_one hrp.le (rho_lt hdt).le (hop i).1
    linarith
  · unfold PhiG Psi
    rw [if_pos (by omega), hPhi, (hop _).2 (by omega) hAj, show B + j - 1 + 1 - B = j by omega]
    have h3 := (hj j).mpr le_rfl
    linarith
  · intro i h1 h2
    unfold PhiG Psi
    rw [if_neg (by omega)]
    simp only [Phi, List.map_nil, List.sum_nil, List.map_cons, List.sum_cons, zero_add, add_zero]
    rw [if_neg (by omega)]; norm_num

/-- The `first`/`last` gadgets in front of the accumulators. -/
theorem firstlast (hr : IsRun net dt inj s0 S F) (hdt : 0 < dt) {x f l : ℕ} (hf : IsStd net s0 f) (hl : IsStd net s0 l)
    (hfi : injTimes inj f = []) (hli : injTimes inj l = []) (if_ : InS net f [⟨f, f, -10, 1, .V⟩, ⟨x, f, 10, 1, .V⟩])
    (il : InS net l [⟨x, l, 1 / 2 * 10, 1, .V⟩]) {a b : ℕ} (hI : Arr dt inj F x 1 [a, b]) (ha : 1 ≤ a) (hab : a + dly dt 1 ≤ b) :
    (∀ D, Arr dt inj F f D [a + dly dt D]) ∧ (∀ D, Arr dt inj F l D [b + dly dt D]) := by
  have t1 : Train F f [a] := first_train hr hdt hf hfi if_ hI ha hab
  have t2 : Train F l [b] := last_train hr (by norm_num) hl il hI ha (by omega)
  exact ⟨fun D => t1.arr1 hdt hfi D, fun D => t2.arr1 hdt hli D⟩

/-- The synapses of a `LogNetwork`. -/
def logSyns (enc : Encoder K) : List (Synapse K) := (logNetwork enc none World.empty).2.syns

theorem log_core (hr : IsRun net dt inj s0 S F) (hdt : 0 < dt) {enc : Encoder K} {x : ℕ}
    (hE : Embeds net s0 inj x (logSyns enc) [1, 2, 3, 4]) {a b : ℕ} (hI : Arr dt inj F x 1 [a, b])
    (ha : 1 ≤ a) (hab : a + dly dt 1 ≤ b) :
    LogIn net dt inj F (x + 3) enc.waccBar (a + dly dt (1 + enc.Tmin)) (b + dly dt 1) (b + dly dt 1) ∧
    ∀ T : List ℕ, T.Nodup → Train F (x + 3) T → Train F (x + 4) ((b + dly dt 2) :: T.map (· + dly dt (1 + enc.Tmin))) := by
  obtain ⟨a1, a2⟩ := firstlast hr hdt (hE.std 1 (by simp)) (hE.std 2 (by simp)) (hE.noinj 1 (by simp)) (hE.noinj 2 (by simp))
    (hE.ins 1 (by simp)) (hE.ins 2 (by simp)) hI ha hab
  have i3 : InS net (x + 3) [⟨x + 2, x + 3, 50, 1, .gf⟩, ⟨x + 2, x + 3, -enc.waccBar, 1, .ge⟩, ⟨x + 2, x + 3, 1, 1, .gate⟩,
      ⟨x + 1, x + 3, enc.waccBar, 1 + enc.Tmin, .ge⟩] := by
    have := hE.ins 3 (by simp)
    have e : ((insOf (logSyns enc) 3).map (Synapse.shift x)) = [⟨x + 2, x + 3, 10 * 100 / 20, 1, .gf⟩, ⟨x + 2, x + 3, -enc.waccBar, 1, .ge⟩,
      ⟨x + 2, x + 3, 1, 1, .gate⟩, ⟨x + 1, x + 3, enc.waccBar, 1 + enc.Tmin, .ge⟩] := rfl
    rwa [e, show (10 * 100 / 20 : K) = 50 by norm_num] at this
  have i4 : InS net (x + 4) [⟨x + 2, x + 4, 10, 2, .V⟩, ⟨x + 3, x + 4, 10, 1 + enc.Tmin, .V⟩] := by
    have := hE.ins 4 (by simp)
    have e : ((insOf (logSyns enc) 4).map (Synapse.shift x)) = [⟨x + 2, x + 4, 10, 2 * 1, .V⟩, ⟨x + 3, x + 4, 10, 1 + enc.Tmin, .V⟩] := rfl
    rwa [e, mul_one] at this
  refine ⟨⟨?_, ?_, ?_, ?_⟩, ?_⟩
  · intro n; exact inE_nil i3 .V (by simp)
  · intro n
    have := inE_of (dt := dt) (inj := inj) (F := F) (n := n) i3 .ge [(_, [b + dly dt 1]), (_, [a + dly dt (1 + enc.Tmin)])] (by rfl) (by
      intro p hp; simp only [List.mem_cons, List.not_mem_nil, or_false] at hp
      rcases hp with rfl | rfl
      · exact (a2 1).to _
      · exact (a1 _).to _)
    intro i hi
    rw [this i hi]
    exact evAt_perm (List.Perm.swap _ _ _) i
  · intro n
    exact inE_of (n := n) i3 .gf [(_, [b + dly dt 1])] (by rfl) (by
      intro p hp; simp only [List.mem_cons, List.not_mem_nil, or_false] at hp; subst hp; exact (a2 1).to _)
  · intro n
    exact inE_of (n := n) i3 .gate [(_, [b + dly dt 1])] (by rfl) (by
      intro p hp; simp only [List.mem_cons, List.not_mem_nil, or_false] at hp; subst hp; exact (a2 1).to _)
  · intro T hnd hT
    have a3 := hT.arr hdt hnd (hE.noinj 3 (by simp)) (1 + enc.Tmin)
    have := one_le_dly dt (1 + enc.Tmin)
    refine relay2 hr (hE.std 4 (by simp)) (le_refl 10) (le_refl 10) i4 (a2 2) a3 (by simp; omega) (by simp; omega) ?_
    intro i
    simp

/-- The synapses of an `ExponentialNetwork`. -/
def expSyns (enc : Encoder K) : List (Synapse K) := (exponentialNetwork enc none World.empty).2.syns

theorem exp_core (hr : IsRun net dt inj s0 S F) (hdt : 0 < dt) (hdt' : dt < 20) {enc : Encoder K} (hT : 0 < enc.Tcod) {x : ℕ}
    (hE : Embeds net s0 inj x (expSyns enc) [1, 2, 3, 4]) {a b : ℕ} (hI : Arr dt inj F x 1 [a, b])
    (ha : 1 ≤ a) (hab : a + dly dt 1 ≤ b) {A B j : ℕ} (hA : A = a + dly dt (1 + enc.Tmin)) (hB : B = b + dly dt 1)
    (hj : j = ⌈rho dt ^ (B - A) * enc.Tcod / dt⌉₊) (hAj : A ≤ B + j - 1) :
    Train F (x + 4) [b + dly dt 2, B + j - 1 + dly dt (1 + enc.Tmin)] ∧ 1 ≤ j := by
  obtain ⟨a1, a2⟩ := firstlast hr hdt (hE.std 1 (by simp)) (hE.std 2 (by simp)) (hE.noinj 1 (by simp)) (hE.noinj 2 (by simp))
    (hE.ins 1 (by simp)) (hE.ins 2 (by simp)) hI ha hab
  have i3 : InS net (x + 3) [⟨x + 2, x + 3, enc.waccBar, 1, .ge⟩, ⟨x + 2, x + 3, -1, 1, .gate⟩, ⟨x + 1, x + 3, 1, 1 + enc.Tmin, .gate⟩,
      ⟨x + 1, x + 3, 50, 1 + enc.Tmin, .gf⟩] := by
    have := hE.ins 3 (by simp)
    have e : ((insOf (expSyns enc) 3).map (Synapse.shift x)) = [⟨x + 2, x + 3, enc.waccBar, 1, .ge⟩, ⟨x + 2, x + 3, -1, 1, .gate⟩,
      ⟨x + 1, x + 3, 1, 1 + enc.Tmin, .gate⟩, ⟨x + 1, x + 3, 10 * 100 / 20, 1 + enc.Tmin, .gf⟩] := rfl
    rwa [e, show (10 * 100 / 20 : K) = 50 by norm_num] at this
  have i4 : InS net (x + 4) [⟨x + 2, x + 4, 10, 2, .V⟩, ⟨x + 3, x + 4, 10, 1 + enc.Tmin, .V⟩] := by
    have := hE.ins 4 (by simp)
    have e : ((insOf (expSyns enc) 4).map (Synapse.shift x)) = [⟨x + 2, x + 4, 10, 2 * 1, .V⟩, ⟨x + 3, x + 4, 10, 1 + enc.Tmin, .V⟩] := rfl
    rwa [e, mul_one] at this
  have hwb : (0 : K) < enc.waccBar * dt / 100 := by
    rw [show enc.waccBar = (10 * 100 / enc.Tcod : K) from rfl]; positivity
  obtain ⟨t3, hj1⟩ := exp_acc hr hdt hdt' (hE.std 3 (by simp)) (w := enc.waccBar) (A := A) (B := B) (j := j)
    (by rw [show enc.waccBar = (10 * 100 / enc.Tcod : K) from rfl]; positivity)
    (fun n => inE_nil i3 .V (by simp))
    (fun n => inE_of (n := n) i3 .ge [(_, [B])] (by rfl) (by
      intro p hp; simp only [List.mem_cons, List.not_mem_nil, or_false] at hp; subst hp; rw [hB]; exact (a2 1).to _))
    (fun n => inE_of (n := n) i3 .gf [(_, [A])] (by rfl) (by
      intro p hp; simp only [List.mem_cons, List.not_mem_nil, or_false] at hp; subst hp; rw [hA]; exact (a1 _).to _))
    (fun n => by
      have := inE_of (dt := dt) (inj := inj) (F := F) (n := n) i3 .gate [(_, [B]), (_, [A])] (by rfl) (by
        intro p hp; simp only [List.mem_cons, List.not_mem_nil, or_false] at hp
        rcases hp with rfl | rfl
        · rw [hB]; exact (a2 1).to _
        · rw [hA]; exact (a1 _).to _)
      intro i hi
      rw [this i hi]
      exact evAt_perm (List.Perm.swap _ _ _) i)
    (by omega) (by omega)
    (by
      intro z
      rw [hj, Nat.ceil_le, div_le_iff₀ hdt]
      rw [show enc.waccBar * dt / 100 * (z : K) = 10 * ((z : K) * dt / enc.Tcod) by
        rw [show enc.waccBar = (10 * 100 / enc.Tcod : K) from rfl]; field_simp]
      rw [mul_le_mul_iff_right₀ (by norm_num : (0 : K) < 10), le_div_iff₀ hT]) hAj
  refine ⟨?_, hj1⟩
  have a3 := t3.arr1 hdt (hE.noinj 3 (by simp)) (1 + enc.Tmin)
  have := one_le_dly dt (1 + enc.Tmin)
  refine relay2 hr (hE.std 4 (by simp)) (le_refl 10) (le_refl 10) i4 (a2 2) a3 (by simp; omega) (by simp; omega) ?_
  intro i
  simp

end run
end Axon
