import Verif.Props.FloatSub

/-! # C107: the subtractor in floating-point arithmetic, case by case -/
set_option linter.unusedSectionVars false
namespace Axon
open Spec

/-- **C107 (non-negative difference).** With steps of at most 1/800: if `v2 ≤ v1` — equal operands included — the plus output shows `v1 - v2` up to six steps and
the minus output is silent. -/
theorem C107_nonnegative (H : EventHeap Double) {ord : ℕ → List ℕ → List ℕ} (hord : SetOrder ord) {enc : Encoder Double} {dt : Double}
    (hdt : 0 < dt.val) (hdt1 : dt.val ≤ 1 / 800) (hC : 0 < enc.Tcod.val) (hmin : 1 ≤ enc.Tmin.val) (hmax : enc.Tmax.val ≤ 2 ^ 24 * dt.val)
    (name : Option String) {v1 v2 t0 T : Double} (hv1 : v1.val ≤ 1) (hv2 : 0 ≤ v2.val) (hv : v2.val ≤ v1.val) (ht : 0 ≤ t0.val) (ht' : t0.val ≤ 2 ^ 48 * dt.val)
    (hT : t0.val + enc.Tmax.val + enc.Tmin.val + 5 ≤ T.val) :
    let p := (subtractorFl enc name World.empty).1
    let w := (subtractorFl enc name World.empty).2
    ∃ st, sessionFl H ord enc dt T w p.1 [.value v1 p.2.1 t0, .value v2 p.2.2.1 t0] = .ok st ∧
      CarriesFl enc (6 * dt.val / enc.Tcod.val) (st.spikeLog p.2.2.2.1) (v1.val - v2.val) ∧ st.spikeLog p.2.2.2.2 = some [] := by
  intro p w
  obtain ⟨st, h1, h2 | h2 | h2⟩ := C107_subtractor H hord hdt (by linarith) hC hmin hmax name ⟨by linarith, hv1⟩ ⟨hv2, by linarith⟩ ht ht' hT (.inl hdt1)
  · exact ⟨st, h1, h2.1, h2.2.1⟩
  · exfalso
    have := mul_nonneg (sub_nonneg.mpr hv) hC.le
    have := h2.2.2
    linarith
  · exfalso
    have := h2.2.2.1
    linarith

/-- **C107 (positive difference, coarse steps).** With steps of at most 1/20: if `v1` exceeds `v2` by at least `Tneu = 0.01` and six steps in time, the plus output
shows `v1 - v2` up to six steps and the minus output is silent. -/
theorem C107_positive (H : EventHeap Double) {ord : ℕ → List ℕ → List ℕ} (hord : SetOrder ord) {enc : Encoder Double} {dt : Double}
    (hdt : 0 < dt.val) (hdt1 : dt.val ≤ 1 / 20) (hC : 0 < enc.Tcod.val) (hmin : 1 ≤ enc.Tmin.val) (hmax : enc.Tmax.val ≤ 2 ^ 24 * dt.val)
    (name : Option String) {v1 v2 t0 T : Double} (hv1 : v1.val ≤ 1) (hv2 : 0 ≤ v2.val) (hv : 1 / 100 + 6 * dt.val ≤ (v1.val - v2.val) * enc.Tcod.val)
    (ht : 0 ≤ t0.val) (ht' : t0.val ≤ 2 ^ 48 * dt.val) (hT : t0.val + enc.Tmax.val + enc.Tmin.val + 5 ≤ T.val) :
    let p := (subtractorFl enc name World.empty).1
    let w := (subtractorFl enc name World.empty).2
    ∃ st, sessionFl H ord enc dt T w p.1 [.value v1 p.2.1 t0, .value v2 p.2.2.1 t0] = .ok st ∧
      CarriesFl enc (6 * dt.val / enc.Tcod.val) (st.spikeLog p.2.2.2.1) (v1.val - v2.val) ∧ st.spikeLog p.2.2.2.2 = some [] := by
  intro p w
  have hlt : v2.val < v1.val := by
    by_contra h
    have := mul_nonpos_of_nonpos_of_nonneg (sub_nonpos.mpr (not_lt.mp h)) hC.le
    linarith
  obtain ⟨st, h1, h2 | h2 | h2⟩ := C107_subtractor H hord hdt hdt1 hC hmin hmax name ⟨by linarith, hv1⟩ ⟨hv2, by linarith⟩ ht ht' hT
    (.inr (by rwa [abs_of_pos (by linarith)]))
  · exact ⟨st, h1, h2.1, h2.2.1⟩
  · exfalso
    have := h2.2.2
    linarith
  · exfalso
    have := h2.2.2.1
    linarith

/-- **C107 (negative difference).** With steps of at most 1/20: if `v2` exceeds `v1` by at least `Tneu = 0.01` and six steps in time, the minus output
shows `v2 - v1` up to six steps and the plus output is silent. -/
theorem C107_negative (H : EventHeap Double) {ord : ℕ → List ℕ → List ℕ} (hord : SetOrder ord) {enc : Encoder Double} {dt : Double}
    (hdt : 0 < dt.val) (hdt1 : dt.val ≤ 1 / 20) (hC : 0 < enc.Tcod.val) (hmin : 1 ≤ enc.Tmin.val) (hmax : enc.Tmax.val ≤ 2 ^ 24 * dt.val)
    (name : Option String) {v1 v2 t0 T : Double} (hv1 : 0 ≤ v1.val) (hv2 : v2.val ≤ 1) (hv : 1 / 100 + 6 * dt.val ≤ (v2.val - v1.val) * enc.Tcod.val)
    (ht : 0 ≤ t0.val) (ht' : t0.val ≤ 2 ^ 48 * dt.val) (hT : t0.val + enc.Tmax.val + enc.Tmin.val + 5 ≤ T.val) :
    let p := (subtractorFl enc name World.empty).1
    let w := (subtractorFl enc name World.empty).2
    ∃ st, sessionFl H ord enc dt T w p.1 [.value v1 p.2.1 t0, .value v2 p.2.2.1 t0] = .ok st ∧
      CarriesFl enc (6 * dt.val / enc.Tcod.val) (st.spikeLog p.2.2.2.2) (v2.val - v1.val) ∧ st.spikeLog p.2.2.2.1 = some [] := by
  intro p w
  have hlt : v1.val < v2.val := by
    by_contra h
    have := mul_nonpos_of_nonpos_of_nonneg (sub_nonpos.mpr (not_lt.mp h)) hC.le
    linarith
  obtain ⟨st, h1, h2 | h2 | h2⟩ := C107_subtractor H hord hdt hdt1 hC hmin hmax name ⟨hv1, by linarith⟩ ⟨by linarith, hv2⟩ ht ht' hT
    (.inr (by rw [abs_sub_comm, abs_of_pos (by linarith)]; exact hv))
  · exfalso
    have := h2.2.2
    linarith
  · exact ⟨st, h1, h2.1, h2.2.1⟩
  · exfalso
    have := h2.2.2.2
    linarith

/-- **C107 (dead zone).** With steps of at most 1/800: if `v2` exceeds `v1` by more than six steps and less than `Tneu = 0.01` less six steps in time, both outputs
are silent: the difference is lost. -/
theorem C107_dead_zone (H : EventHeap Double) {ord : ℕ → List ℕ → List ℕ} (hord : SetOrder ord) {enc : Encoder Double} {dt : Double}
    (hdt : 0 < dt.val) (hdt1 : dt.val ≤ 1 / 800) (hC : 0 < enc.Tcod.val) (hmin : 1 ≤ enc.Tmin.val) (hmax : enc.Tmax.val ≤ 2 ^ 24 * dt.val)
    (name : Option String) {v1 v2 t0 T : Double} (hv1 : 0 ≤ v1.val) (hv2 : v2.val ≤ 1) (hv : 6 * dt.val < (v2.val - v1.val) * enc.Tcod.val)
    (hv' : (v2.val - v1.val) * enc.Tcod.val < 1 / 100 - 6 * dt.val)
    (ht : 0 ≤ t0.val) (ht' : t0.val ≤ 2 ^ 48 * dt.val) (hT : t0.val + enc.Tmax.val + enc.Tmin.val + 5 ≤ T.val) :
    let p := (subtractorFl enc name World.empty).1
    let w := (subtractorFl enc name World.empty).2
    ∃ st, sessionFl H ord enc dt T w p.1 [.value v1 p.2.1 t0, .value v2 p.2.2.1 t0] = .ok st ∧
      st.spikeLog p.2.2.2.1 = some [] ∧ st.spikeLog p.2.2.2.2 = some [] := by
  intro p w
  have hlt : v1.val < v2.val := by
    by_contra h
    have := mul_nonpos_of_nonpos_of_nonneg (sub_nonpos.mpr (not_lt.mp h)) hC.le
    linarith
  obtain ⟨st, h1, h2 | h2 | h2⟩ := C107_subtractor H hord hdt (by linarith) hC hmin hmax name ⟨hv1, by linarith⟩ ⟨by linarith, hv2⟩ ht ht' hT (.inl hdt1)
  · exact absurd h2.2.2 (not_le.mpr hv)
  · exact absurd h2.2.2 (not_le.mpr hv')
  · exact ⟨st, h1, h2.1, h2.2.1⟩

/-- The example of the module's own demonstration (subtractor.py:89-101): 0.73 - 0.62 with dt = 0.01. -/
example : ∃ st, sessionFl (sortedHeap _) (fun _ l => l) ⟨Fl.of 10, Fl.of 100⟩ (Fl.of (1 / 100)) (Fl.of 300) (subtractorFl ⟨Fl.of 10, Fl.of 100⟩ (some "sub") World.empty).2 0
      [.value (Fl.of (73 / 100)) 0 0, .value (Fl.of (62 / 100)) 1 0] = .ok st ∧
      CarriesFl ⟨Fl.of 10, Fl.of 100⟩ (6 * (Fl.of (1 / 100) : Double).val / (Fl.of 100 : Double).val) (st.spikeLog 6)
        ((Fl.of (73 / 100) : Double).val - (Fl.of (62 / 100) : Double).val) ∧ st.spikeLog 7 = some [] :=
  C107_positive (sortedHeap _) id_setOrder (enc := ⟨Fl.of 10, Fl.of 100⟩) (dt := Fl.of (1 / 100)) (by decide +kernel) (by decide +kernel) (by decide +kernel)
    (by decide +kernel) (by decide +kernel) (some "sub") (v1 := Fl.of (73 / 100)) (v2 := Fl.of (62 / 100)) (t0 := 0) (by decide +kernel) (by decide +kernel) (by decide +kernel)
    (by decide +kernel) (by decide +kernel) (by decide +kernel)

/-- Equal operands with dt = 0.001: the difference 0. -/
example : ∃ st, sessionFl (sortedHeap _) (fun _ l => l) ⟨Fl.of 10, Fl.of 100⟩ (Fl.of (1 / 1000)) (Fl.of 300) (subtractorFl ⟨Fl.of 10, Fl.of 100⟩ none World.empty).2 0
      [.value (Fl.of (51 / 1000)) 0 0, .value (Fl.of (51 / 1000)) 1 0] = .ok st ∧
      CarriesFl ⟨Fl.of 10, Fl.of 100⟩ (6 * (Fl.of (1 / 1000) : Double).val / (Fl.of 100 : Double).val) (st.spikeLog 6)
        ((Fl.of (51 / 1000) : Double).val - (Fl.of (51 / 1000) : Double).val) ∧ st.spikeLog 7 = some [] :=
  C107_nonnegative (sortedHeap _) id_setOrder (enc := ⟨Fl.of 10, Fl.of 100⟩) (dt := Fl.of (1 / 1000)) (by decide +kernel) (by decide +kernel) (by decide +kernel)
    (by decide +kernel) (by decide +kernel) none (v1 := Fl.of (51 / 1000)) (v2 := Fl.of (51 / 1000)) (t0 := 0) (by decide +kernel) (by decide +kernel) (by decide +kernel)
    (by decide +kernel) (by decide +kernel) (by decide +kernel)

/-- 0.25 - 0.75 with dt = 0.01. -/
example : ∃ st, sessionFl (sortedHeap _) (fun _ l => l) ⟨Fl.of 10, Fl.of 100⟩ (Fl.of (1 / 100)) (Fl.of 300) (subtractorFl ⟨Fl.of 10, Fl.of 100⟩ none World.empty).2 0
      [.value (Fl.of (1 / 4)) 0 0, .value (Fl.of (3 / 4)) 1 0] = .ok st ∧
      CarriesFl ⟨Fl.of 10, Fl.of 100⟩ (6 * (Fl.of (1 / 100) : Double).val / (Fl.of 100 : Double).val) (st.spikeLog 7)
        ((Fl.of (3 / 4) : Double).val - (Fl.of (1 / 4) : Double).val) ∧ st.spikeLog 6 = some [] :=
  C107_negative (sortedHeap _) id_setOrder (enc := ⟨Fl.of 10, Fl.of 100⟩) (dt := Fl.of (1 / 100)) (by decide +kernel) (by decide +kernel) (by decide +kernel)
    (by decide +kernel) (by decide +kernel) none (v1 := Fl.of (1 / 4)) (v2 := Fl.of (3 / 4)) (t0 := 0) (by decide +kernel) (by decide +kernel) (by decide +kernel)
    (by decide +kernel) (by decide +kernel) (by decide +kernel)

/-- 0.5 - 0.50005 with dt = 1/4096 is lost. -/
example : ∃ st, sessionFl (sortedHeap _) (fun _ l => l) ⟨Fl.of 10, Fl.of 100⟩ (Fl.of (1 / 4096)) (Fl.of 300) (subtractorFl ⟨Fl.of 10, Fl.of 100⟩ none World.empty).2 0
      [.value (Fl.of (1 / 2)) 0 0, .value (Fl.of (50005 / 100000)) 1 0] = .ok st ∧ st.spikeLog 6 = some [] ∧ st.spikeLog 7 = some [] :=
  C107_dead_zone (sortedHeap _) id_setOrder (enc := ⟨Fl.of 10, Fl.of 100⟩) (dt := Fl.of (1 / 4096)) (by decide +kernel) (by decide +kernel) (by decide +kernel)
    (by decide +kernel) (by decide +kernel) none (v1 := Fl.of (1 / 2)) (v2 := Fl.of (50005 / 100000)) (t0 := 0) (by decide +kernel) (by decide +kernel) (by decide +kernel)
    (by decide +kernel) (by decide +kernel) (by decide +kernel) (by decide +kernel)

/-! ## Equal operands with dt = 0.01 -/

theorem firstAt_of {dt : Double} (hdt : 0 < dt) {lo : ℕ} {x : Double} {a : ℕ} (h1 : lo ≤ a) (h2 : x ≤ (a : Double) * dt) (h3 : ¬ x ≤ ((a - 1 : ℕ) : Double) * dt) :
    ∀ k, FirstAt dt lo x k ↔ k = a := by
  have h : FirstAt dt lo x a := ⟨h1, h2, fun k hk _ hx => h3 (hx.trans (RoundedArith.ticks dt hdt k (a - 1) (by omega)))⟩
  intro k
  exact ⟨fun hk => hk.unique h, fun e => e ▸ h⟩

theorem vk_inb_tie {d r r' : ℕ} (h0 : 0 < d) (h1 : d < r) (h2 : r < r') : VFires (evl [(4, [d]), (-4, [d]), (2, [r, r'])]) 0 [r'] := by
  show 0 < r' ∧ (∀ i, 0 < i → i < r' → vZ [(d, 4), (d, -4), (r, 2), (r', 2)] 0 i < 4) ∧ 4 ≤ vZ [(d, 4), (d, -4), (r, 2), (r', 2)] 0 r' ∧
    ∀ i, r' < i → vZ [(d, 4), (d, -4), (r, 2), (r', 2)] r' i < 4
  exact ⟨by omega, fun i _ _ => by vz_omega, by vz_omega, fun i _ => by vz_omega⟩

theorem vk_out_tie {g h b : ℕ} (h0 : 0 < g) (h1 : g < h) (h2 : h < b) : VFires (evl [(4, [h]), (4, [g]), (-8, [b])]) 0 [g, h] := by
  show 0 < g ∧ (∀ i, 0 < i → i < g → vZ [(h, 4), (g, 4), (b, -8)] 0 i < 4) ∧ 4 ≤ vZ [(h, 4), (g, 4), (b, -8)] 0 g ∧ g < h ∧
    (∀ i, g < i → i < h → vZ [(h, 4), (g, 4), (b, -8)] g i < 4) ∧ 4 ≤ vZ [(h, 4), (g, 4), (b, -8)] g h ∧ ∀ i, h < i → vZ [(h, 4), (g, 4), (b, -8)] h i < 4
  exact ⟨h0, fun i _ _ => by vz_omega, by vz_omega, h1, fun i _ _ => by vz_omega, by vz_omega, fun i _ => by vz_omega⟩

/-- **C107 (equal operands, coarse steps).** With the default encoder and dt = 0.01 — the step of the module's own demonstration — the restriction to fine steps
in `C107_nonnegative` is needed: subtracting 0.051 from itself makes *both* outputs emit a value. -/
theorem C107_coarse_equal (H : EventHeap Double) {ord : ℕ → List ℕ → List ℕ} (hord : SetOrder ord) (name : Option String) :
    let enc : Encoder Double := ⟨Fl.of 10, Fl.of 100⟩
    let p := (subtractorFl enc name World.empty).1
    let w := (subtractorFl enc name World.empty).2
    ∃ st, sessionFl H ord enc (Fl.of (1 / 100)) (Fl.of 300) w p.1 [.value (Fl.of (51 / 1000)) p.2.1 0, .value (Fl.of (51 / 1000)) p.2.2.1 0] = .ok st ∧
      (∃ x y, st.spikeLog p.2.2.2.1 = some [x, y]) ∧ ∃ x y, st.spikeLog p.2.2.2.2 = some [x, y] := by
  intro enc p w
  have hdt : (0 : Double) < Fl.of (1 / 100) := by decide +kernel
  have at' : ∀ {D : Double} {j a : ℕ}, j + 1 ≤ a → (j : Double) * Fl.of (1 / 100) + D ≤ (a : Double) * Fl.of (1 / 100) →
      ¬ (j : Double) * Fl.of (1 / 100) + D ≤ ((a - 1 : ℕ) : Double) * Fl.of (1 / 100) → AtStep (Fl.of (1 / 100)) D j a := fun h1 h2 h3 => firstAt_of hdt h1 h2 h3
  have hs : ∀ k, FirstAt (Fl.of (1 / 100)) 1 ((0 + (enc.Tmin + Fl.of (51 / 1000) * enc.Tcod)) + tsynFl) k ↔ k = 1610 :=
    firstAt_of hdt (by norm_num) (by decide +kernel) (by decide +kernel)
  have he : AtStep (Fl.of (1 / 100)) tneuFl 1610 1612 := at' (by norm_num) (by decide +kernel) (by decide +kernel)
  have hf : AtStep (Fl.of (1 / 100)) (Fl.of 2 * tneuFl) 1610 1612 := at' (by norm_num) (by decide +kernel) (by decide +kernel)
  have hd : AtStep (Fl.of (1 / 100)) tsynFl 1610 1710 := at' (by norm_num) (by decide +kernel) (by decide +kernel)
  have hg : AtStep (Fl.of (1 / 100)) dirFl 1610 1912 := at' (by norm_num) (by decide +kernel) (by decide +kernel)
  have hh : AtStep (Fl.of (1 / 100)) (enc.Tmin + dirFl) 1610 2912 := at' (by norm_num) (by decide +kernel) (by decide +kernel)
  have hr1 : AtStep (Fl.of (1 / 100)) tsynFl 1912 2012 := at' (by norm_num) (by decide +kernel) (by decide +kernel)
  have hr2 : AtStep (Fl.of (1 / 100)) tsynFl 2912 3012 := at' (by norm_num) (by decide +kernel) (by decide +kernel)
  have hb : AtStep (Fl.of (1 / 100)) tsynFl 3012 3112 := at' (by norm_num) (by decide +kernel) (by decide +kernel)
  have inb : VFires (evl [(4, [1710]), (-4, [1710]), (2, [2012, 3012])]) 0 [3012] := vk_inb_tie (by norm_num) (by norm_num) (by norm_num)
  have out : VFires (evl [(4, [2912]), (4, [1912]), (-8, [3112])]) 0 [1912, 2912] := vk_out_tie (by norm_num) (by norm_num) (by norm_num)
  obtain ⟨st, h1, h2, h3⟩ := sub_run H hord (enc := enc) (dt := Fl.of (1 / 100)) hdt name (v1 := Fl.of (51 / 1000)) (v2 := Fl.of (51 / 1000)) (t0 := 0) (T := Fl.of 300)
    (by decide +kernel) (by decide +kernel) (a := 100) (Z := []) (P := [1912, 2912]) (M := [1912, 2912]) (B1 := [3012]) (B2 := [3012]) (Zn := [])
    (Pd := [2012, 3012]) (Md := [2012, 3012]) (B1d := [3112]) (B2d := [3112])
    (firstAt_of hdt (by norm_num) (by decide +kernel) (by decide +kernel)) hs hs (by norm_num) (by norm_num) (by norm_num) he he hf hf hd hd hg hg hh hh
    List.Forall₂.nil (.cons hr1 (.cons hr2 .nil)) (.cons hr1 (.cons hr2 .nil)) (.cons hb .nil) (.cons hb .nil)
    (by simp) (by simp) (by simp) (by simp) (by simp) inb inb out out (vk_zero0 (.inl le_rfl) le_rfl le_rfl) (by decide +kernel)
  exact ⟨st, h1, ⟨_, _, h2⟩, _, _, h3⟩

/-- **C107 (the same network).** The float subtractor is the subtractor of `Verif/Model/Networks.lean` with every weight and delay rounded (the long delays in two
roundings). -/
theorem C107_same_network (enc : Encoder Double) (name : Option String) :
    List.Forall₂ (fun s s' => s.pre = s'.pre ∧ s.post = s'.post ∧ s.kind = s'.kind ∧ s.weight.val = fl 53 s'.weight ∧
        (s.delay.val = fl 53 s'.delay ∨ s'.delay = enc.Tmin.val + (3 * 1 + 2 * (1 / 100)) ∧ s.delay.val = fl 53 (enc.Tmin.val + fl 53 (3 * 1 + 2 * (1 / 100)))))
      (subtractorFl enc name World.empty).2.syns (subtractorNetwork enc.exact name World.empty).2.syns := by
  have c1 : (weFl : Double).val = fl 53 10 := by decide +kernel
  have c2 : (Fl.of (1 / 2) * weFl : Double).val = fl 53 (1 / 2 * 10) := by decide +kernel
  have c3 : (wiFl : Double).val = fl 53 (-10) := by decide +kernel
  have c4 : (tsynFl : Double).val = fl 53 1 := by decide +kernel
  have c5 : (Fl.of 2 * wiFl : Double).val = fl 53 (2 * -10) := by decide +kernel
  have c6 : (Fl.of (1 / 2) * wiFl : Double).val = fl 53 (1 / 2 * -10) := by decide +kernel
  have c7 : (tneuFl : Double).val = fl 53 (1 / 100) := by decide +kernel
  have c8 : (Fl.of 2 * tneuFl : Double).val = fl 53 (2 * (1 / 100)) := by decide +kernel
  have c9 : (dirFl : Double).val = fl 53 (3 * 1 + 2 * (1 / 100)) := by decide +kernel
  have c10 : (enc.Tmin + dirFl : Double).val = fl 53 (enc.Tmin.val + fl 53 (3 * 1 + 2 * (1 / 100))) := by rw [Fl.val_add, c9]
  show List.Forall₂ _ ([⟨8, 5, wiFl, tneuFl, .V⟩, ⟨8, 7, Fl.of 2 * wiFl, tneuFl, .V⟩, ⟨3, 8, Fl.of (1 / 2) * weFl, tneuFl, .V⟩, ⟨2, 8, Fl.of (1 / 2) * weFl, tneuFl, .V⟩, ⟨3, 8, Fl.of (1 / 2) * wiFl, Fl.of 2 * tneuFl, .V⟩,
        ⟨2, 8, Fl.of (1 / 2) * wiFl, Fl.of 2 * tneuFl, .V⟩, ⟨8, 8, weFl, tneuFl, .V⟩, ⟨7, 4, Fl.of (1 / 2) * weFl, tsynFl, .V⟩, ⟨6, 5, Fl.of (1 / 2) * weFl, tsynFl, .V⟩, ⟨4, 6, Fl.of 2 * wiFl, tsynFl, .V⟩,
        ⟨5, 7, Fl.of 2 * wiFl, tsynFl, .V⟩, ⟨2, 7, weFl, dirFl, .V⟩, ⟨3, 6, weFl, dirFl, .V⟩, ⟨3, 7, weFl, enc.Tmin + dirFl, .V⟩, ⟨2, 6, weFl, enc.Tmin + dirFl, .V⟩,
        ⟨3, 4, wiFl, tsynFl, .V⟩, ⟨2, 5, wiFl, tsynFl, .V⟩, ⟨3, 5, weFl, tsynFl, .V⟩, ⟨2, 4, weFl, tsynFl, .V⟩, ⟨1, 3, Fl.of (1 / 2) * weFl, tsynFl, .V⟩,
        ⟨0, 2, Fl.of (1 / 2) * weFl, tsynFl, .V⟩] : List (Synapse Double))
      ([⟨8, 5, -10, 1 / 100, .V⟩, ⟨8, 7, 2 * -10, 1 / 100, .V⟩, ⟨3, 8, 1 / 2 * 10, 1 / 100, .V⟩, ⟨2, 8, 1 / 2 * 10, 1 / 100, .V⟩, ⟨3, 8, 1 / 2 * -10, 2 * (1 / 100), .V⟩,
        ⟨2, 8, 1 / 2 * -10, 2 * (1 / 100), .V⟩, ⟨8, 8, 10, 1 / 100, .V⟩, ⟨7, 4, 1 / 2 * 10, 1, .V⟩, ⟨6, 5, 1 / 2 * 10, 1, .V⟩, ⟨4, 6, 2 * -10, 1, .V⟩,
        ⟨5, 7, 2 * -10, 1, .V⟩, ⟨2, 7, 10, 3 * 1 + 2 * (1 / 100), .V⟩, ⟨3, 6, 10, 3 * 1 + 2 * (1 / 100), .V⟩, ⟨3, 7, 10, enc.Tmin.val + (3 * 1 + 2 * (1 / 100)), .V⟩, ⟨2, 6, 10, enc.Tmin.val + (3 * 1 + 2 * (1 / 100)), .V⟩,
        ⟨3, 4, -10, 1, .V⟩, ⟨2, 5, -10, 1, .V⟩, ⟨3, 5, 10, 1, .V⟩, ⟨2, 4, 10, 1, .V⟩, ⟨1, 3, 1 / 2 * 10, 1, .V⟩,
        ⟨0, 2, 1 / 2 * 10, 1, .V⟩] : List (Synapse ℚ))
  simp only [List.forall₂_cons, c1, c2, c3, c4, c5, c6, c7, c8, c9, c10, true_and, and_self, or_true, true_or, List.forall₂_nil_left_iff]

end Axon
