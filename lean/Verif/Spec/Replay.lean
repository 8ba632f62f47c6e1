import Verif.Model.Predictive

/-!
# The life of a neuron in the predictive simulator

What the spike logs of a finished predictive simulation should be: every neuron reacts to exactly the
spikes it receives, following the exact solution of its equations between them.
-/
namespace Axon.Spec
variable {K : Type*}

/-- What happens to a neuron: it is hit by a spike, or it spikes itself. -/
inductive Item (K : Type*)
  | hit (t : K) (k : SynKind) (w : K)
  | spike (t : K)
  deriving DecidableEq

/-- When it happens. -/
def Item.time : Item K → K
  | .hit t _ _ => t
  | .spike t => t

/-- The times at which the neuron spiked. -/
def Item.spikes (h : List (Item K)) : List K :=
  h.filterMap (fun i => match i with | .spike t => some t | _ => none)

/-- The hits it received. -/
def Item.hits (h : List (Item K)) : List (Item K) :=
  h.filter (fun i => match i with | .hit _ _ _ => true | _ => false)

section
variable [Field K]

/-- The neuron after receiving nothing for a time `d`: the input current `ge` is integrated, the
exponential current decays, and is integrated if the gate is open. -/
def pass [DecidableEq K] (exp : K → K) (p : Params K) (s : NState K) (d : K) : NState K :=
  { V := s.V + s.ge / p.tm * d + (if s.gate = 0 then 0 else s.gf * p.tf / p.tm * (1 - exp (-d / p.tf)))
    ge := s.ge
    gf := s.gf * exp (-d / p.tf)
    gate := s.gate }

/-- A hit adds its weight to the variable it is directed at. -/
def bump (s : NState K) : SynKind → K → Option (NState K)
  | .V, w => some { s with V := s.V + w }
  | .ge, w => some { s with ge := s.ge + w }
  | .gf, w => some { s with gf := s.gf + w }
  | .gate, w => some { s with gate := s.gate + w }
  | .other _, _ => none

variable [LinearOrder K] [FloorRing K]

/-- `Life E n s0 l0 h s l o`: a neuron in state `s0` (as of time `l0`) has gone through `h`; it is now in
state `s` as of time `l` and has announced its next spike for time `o`.  Each hit lets the state pass to
the time of the hit, adds the weight, and replaces the announced spike by the one predicted from the
new state (see C30 and C31 for what is predicted); a hit can come no later than the announced spike.
When the announced spike is due the neuron spikes and is reset. -/
inductive Life (E : PEnv K) (n : ℕ) (s0 : NState K) (l0 : K) :
    List (Item K) → NState K → K → Option K → Prop
  | start : Life E n s0 l0 [] s0 l0 none
  | hit {h s l o t k w s' r} : Life E n s0 l0 h s l o → (∀ x ∈ o, t ≤ x) →
      bump (if t = l then s else pass E.exp (E.net.par n) s (t - l)) k w = some s' →
      predictSteps E.exp (E.net.par n) s' E.dt = .ok r →
      Life E n s0 l0 (h ++ [.hit t k w]) s' t (r.map (fun m : ℤ => t + (m : K) * E.dt))
  | spike {h s l x} : Life E n s0 l0 h s l (some x) →
      Life E n s0 l0 (h ++ [.spike x]) ⟨(E.net.par n).Vreset, 0, 0, 0⟩ l none

end

/-- The spikes a sequence of injection calls on the predictive simulator stands for (the time offset of
`apply_input_value` is ignored, see C36). -/
def predSpikes [Add K] [Mul K] [Zero K] (enc : Encoder K) : Call K → List (ℕ × K)
  | .spike n t => [(n, t)]
  | .value v n _ => [(n, 0), (n, enc.Tmin + v * enc.Tcod)]

/-- The hits neuron `n` should receive: one of type `V` and weight `Vt` per injected spike, and one per
synapse onto `n` and spike of its presynaptic neuron (`L`: the spikes of every neuron). -/
def arriving [Add K] (net : Net K) (inj : List (ℕ × K)) (L : ℕ → List K) (n : ℕ) : List (Item K) :=
  (inj.filter (fun q => q.1 = n)).map (fun q => .hit q.2 .V (net.par n).Vt) ++
  (net.syns.filter (fun s => s.post = n)).flatMap (fun s => (L s.pre).map (fun t => .hit (t + s.delay) s.kind s.weight))

end Axon.Spec

/-!
## Self-consistent spike trains

The behaviour of a network in continuous time, with no reference to an event queue.
-/
namespace Axon.Spec
variable {K : Type*}

/-- All hits a neuron receives at one instant. -/
structure Volley (K : Type*) where
  time : K
  hits : List (SynKind × K)

/-- The hits of a volley, one by one. -/
def Volley.items (v : Volley K) : List (Item K) := v.hits.map (fun x => .hit v.time x.1 x.2)

section
variable [Field K] [LinearOrder K] [FloorRing K]

/-- The effect of a volley: the weights are added up. -/
def bumps (s : NState K) : List (SynKind × K) → Option (NState K)
  | [] => some s
  | (k, w) :: l => (bump s k w).bind (fun s' => bumps s' l)

/-- `Reacts E n s l vs L`: hit by the volleys `vs`, a neuron in state `s` (as of time `l`) that has no spike
ahead of it spikes exactly at the times `L`.  After each volley the next spike is predicted from the new state
(C30, C31); if it comes no later than the next volley, the neuron spikes and is reset; otherwise it is
superseded by that volley. -/
inductive Reacts (E : PEnv K) (n : ℕ) : NState K → K → List (Volley K) → List K → Prop
  | done {s l} : Reacts E n s l [] []
  | quiet {s l v vs L s' r} :
      bumps (if v.time = l then s else pass E.exp (E.net.par n) s (v.time - l)) v.hits = some s' →
      predictSteps E.exp (E.net.par n) s' E.dt = .ok r →
      (∀ m : ℤ, r = some m → ∃ v' ∈ vs.head?, v'.time < v.time + (m : K) * E.dt) →
      Reacts E n s' v.time vs L → Reacts E n s l (v :: vs) L
  | fires {s l v vs L s'} {m : ℤ} :
      bumps (if v.time = l then s else pass E.exp (E.net.par n) s (v.time - l)) v.hits = some s' →
      predictSteps E.exp (E.net.par n) s' E.dt = .ok (some m) →
      (∀ v' ∈ vs.head?, v.time + (m : K) * E.dt ≤ v'.time) →
      Reacts E n ⟨(E.net.par n).Vreset, 0, 0, 0⟩ v.time vs L →
      Reacts E n s l (v :: vs) ((v.time + (m : K) * E.dt) :: L)

/-- The spike trains `L` are a possible behaviour of the network on the injected spikes `inj`: every neuron,
hit by exactly the injected spikes and the delayed spikes of its presynaptic neurons, spikes exactly as `L` says. -/
def Consistent (E : PEnv K) (s0 : ℕ → NState K) (l0 : ℕ → K) (inj : List (ℕ × K)) (L : ℕ → List K) : Prop :=
  ∀ n, ∃ vs : List (Volley K), (vs.map Volley.time).Pairwise (· < ·) ∧ (∀ v ∈ vs, v.hits ≠ []) ∧
    (vs.flatMap Volley.items).Perm (arriving E.net inj L n) ∧ Reacts E n (s0 n) (l0 n) vs (L n)

end

end Axon.Spec
