# Formal model of axon-sdk in Lean 4

## Architecture

* **Layer A – the code.** `Verif/Model/*.lean` transcribes the Python function by function (each
  definition cites file and lines).  Python objects become records, exceptions become
  `Except PyErr`, mutable state is threaded explicitly, object identity becomes a natural number
  (the creation counter).  `heapq` is a parameter (`Heap`, `EventHeap`) constrained by a small contract
  (push keeps everything, the head is least, popping leaves the rest); `Model/Heapq.lean` transcribes CPython's
  sift-up/sift-down and `cpythonHeap` (`Proofs/Heapq.lean`) proves that it meets the contract (C70).
  The iteration order of Python sets is a parameter too (any permutation, chosen anew in each
  step).  Networks are built by running the constructors' `add_neuron`/`connect_neurons`/
  `add_subnetwork` calls in a state monad, so the neuron/synapse tables are computed, not stated.
* **Layer B – small independent specifications.** `Verif/Spec/*.lean`: the naive dense simulator
  (every neuron, every step, sums of arriving weights), the abstract pending-event list, ordinary arithmetic on expressions,
  "this network contains that graph", "the neuron carries the value v up to ε", the error budget of a program.
* **Layer C – properties.** `Verif/Props/*.lean`: theorems `Cxx_…`, each with an `example` that shows that a concrete,
  non-trivial instance meets the hypotheses.  `Verif/Proofs/*.lean` holds the lemmas.

Numbers.  The queue, scheduling and bookkeeping theorems only need a totally ordered time type and
*no* law of arithmetic, so they hold for any rounding (in particular for NaN-free doubles).  All
theorems about the values of voltages/intervals are over an arbitrary linearly ordered field
(ℚ, ℝ, …) with floor, i.e. exact arithmetic, except C72–C76, which are about IEEE doubles (and the queue theorems C03–C07, C70, which hold for any order of times).  Corollaries that mention `exp`/`log` are
over ℝ (C12, C47–C49, C53, C59).

## How the network theorems are proved

1. *Refinement* (C14–C16): the Layer A simulator, with any lawful heap and any set order, produces the
   spike log and states of the dense recurrence of Layer B.
2. *Certificates*: because a spike can only influence later steps, a candidate assignment of
   states/spike trains that satisfies the one-step recurrence locally for every neuron **is** the
   run (`train_cert`).  Cyclic networks (self-inhibition, mutual inhibition) need no special treatment.
3. *Gadget lemmas* (`relay`, `first`, `last`, `acc`, ramps, gates, decays) say which spike train a neuron with given inputs emits.
   For each network they are composed along its wiring; the number of steps, dt, the values and the injection times stay
   symbolic throughout.  The bound on the interval error is then arithmetic on ceilings.
4. *Placement* (`Embeds`, `Proofs/Placed.lean`): the lemmas are about a block of synapses at an arbitrary offset in an arbitrary network, so they apply to
   networks used inside other networks and to the modules of a compiled program.
5. *Compiled programs* (C59): the layout of the compiled world (C56) gives, for every operation, its block and its operand wires; induction over the
   graph with the error budget gives the spikes at the root; `decode_output` (C27) gives the number.

## Plan per property

| id | modelled | proof |
|----|----------|-------|
| C01, C02 | `DataEncoder` | field arithmetic |
| C03 | `SpikeEventQueue` over a lawful heap | invariant over operation lists, refinement to a multiset |
| C04, C05 | `CancelableEventQueue` (heap of times + dict) | representation invariant, refinement to a list of pending events |
| C06, C07, C09, C61, C68 | module trees | structural induction |
| C08 | uid strings as `String`, decimal printing | injectivity of the format |
| C10–C13 | neuron update, events, reset, fast-forward | induction on steps; `HasDerivAt` for the ODE over ℝ |
| C14–C23, C26, C28, C29 | `Simulator` | refinement to the dense recurrence, then corollaries |
| C24, C27 | injection, `decode_output` | case analysis |
| C25 | `simulate` twice | the expected behaviour is false: the theorem proves what happens instead |
| C30, C31, C38 | `_predict_spike_steps_fixed` | loop invariant of the binary search |
| C32–C35 | `PredSimulator` with fuel | invariants over batches; potential function for termination |
| C36, C37 | injection / energy report | the expected behaviour is false: exact statements of what holds |
| C39–C53 | all network constructors except `IntegratorNetwork` | certificates on the dense recurrence |
| C54, C55 | `Scalar` operators and `trace` (with the recursion limit) | induction over expressions / graphs |
| C56–C58 | compiler, plan loading | invariant of the build loop, placement of modules |
| C59 | the whole pipeline | composition of the above, induction over the graph |
| C60 | example matrix products | ring identities through C54 |
| C62–C64 | usage report, power metrics | list induction / arithmetic |
| C65–C67, C69 | topology view, chronogram | list reasoning; C69 through C15 and C29 |
| C71 | published spike counts = simulated spike counts | spike trains of all neurons of the compiled modules (`Fires`, `BlockFires`), summed over the modules |
| C72, C76 | the simulator in rounded arithmetic (`Spec/Rounded`), instance: doubles | refinement to a naive run with ordered batches, using only the laws of `RoundedArith` |
| C73–C75 | IEEE doubles (`Model/Double`, `Model/DoubleOps`) | monotonicity and relative error of rounding |
| C70 | CPython's heapq | heap invariant of sift-up/sift-down |
| C77–C79 | predictive simulator against a description without event queue (`Spec/Replay`: `Life`, `Reacts`, `Consistent`) | invariant relating each neuron's history and pending hits to the others' logs; for C78 an invariant relative to the given spike trains plus a budget of pending work; its converse by a second two-phase invariant (`Done`); C79 combines the two |
| C80–C87 | library networks (`Model/Networks`) in the predictive simulator (`Model/Predictive`), sessions of `Spec/PredSession`; C86, C87 over the reals with the real exponential | exhibit the spike train of every neuron, check each neuron separately against the trains of its presynaptic neurons (`Fits`, `LibOK.pred`) and conclude with C78 that the simulator produces exactly these trains; integrators with `up` (rounding up to a step), `V`-only neurons by window sums (`Fits.sums`), exponential currents in `Proofs/PredGate` |
| C88 | update counters of `Model/Simulator`, table of `Model/Report`, compiled programs of `Model/Compiler` | exchange of summation over the tagged events of the dense semantics (every event processed when the queue is empty); per-block spike lists of C71 give per-block synapse sums; the published V figures are proved too low |
| C89 | SignedMultiplierNetwork in the predictive simulator, over the reals | the multiplier block proved once for arbitrary start times of its two inputs (`Proofs/PredBlocks`: `mul_fits`, `mul_fits_zero`) and moved into the larger network by `Fits.move` (a neuron that receives the same updates in two networks behaves the same); the eleven outer neurons checked directly; the zero case proved ambiguous |
| C90 | DivNetwork in the predictive simulator, over the reals | front and back neurons checked directly, the subtractor block (`Proofs/PredSubBlock`, proved for arbitrary input times) moved in by `Fits.move`; cases for a full accumulator (divisor 1), reversed order and missing spikes (zero operands) |
| C91 | SynchronizerNetwork in the predictive simulator, any number of inputs | the memory block is checked once for arbitrary input and recall times (`Proofs/PredMem`), moved to each channel with `Fits.move`; the sync neuron is a gathering neuron (`Fits.gather`), its silence is `Fits.gather_none` |
| C92 | LinearCombinatorNetwork in the predictive simulator, any number of inputs | a neuron driven by arbitrarily many overlapping currents (`Fits.ramps`, `Fits.weigh`, by induction over the volleys), the shared part as one block of 40 neurons with the memory and subtractor blocks moved in (`Proofs/PredLin`), then the channels by arithmetic on neuron numbers |
| C93 | Re-use and time invariance in the predictive simulator | a neuron's complete run ending in a given state (`Done`), runs concatenate when the state at the junction is at rest (`Done.append`, `Done.restart`), causality (nothing arrives before the first injection), then uniqueness of the behaviour (C78) |
| C94 | Streams of products; the multiplier after a zero product | each of the 12 neurons comes to rest after a use (`mul_rests`: weights since the last spike cancel, or the last spike comes after all hits), any number of uses in a row by induction (`LibOK.predMany`); the zero case by following all 12 neurons through two uses |
| C95 | Registers and streams of differences | as C94: `mem_rests`, `sub_rests`, `LibOK.predMany` |
| C96 | The signed memory as a register | one use as a step of a state machine whose state is the voltages left on the two rails and the two `ready` neurons (`smem_goes`), any number of steps by induction (`LibOK.predMachine`) |
| C97 | A network used again in the time-stepped simulator | the dense run of both groups is the first run up to `T1` and the second run shifted onto it (`Spec.IsRun.next`), transported by the refinement `simulate_outcome` |
| C98 | A memory as a register in the time-stepped simulator | one use from rest to rest with all spike trains (`mem_use`), any number of uses by induction (`LibOK.stream`) |
| C99 | The graph sent to the browser is consistent | `World.graphData` models `vis_topology` up to `start_server`; C65/C66 and injectivity of the uids (C08) |
| C100 | Port search and colours | induction on the distance to the first free port; list arithmetic |
| C101 | draw_comp_graph draws exactly the computation | `drawCompGraph` on top of `trace` (C55); names are digits followed by a non-digit label |
| C102 | What the energy report prints | `fixed3` models `:.3f` (round half to even), a separate reader `readNumber` in Spec/Text; `energyReport` composes C63 |
| C103 | Compiled programs in the predictive simulator | `predPipeline`; each block's spike trains are computed from its inputs (`norm_fits`, `add_runs`, ...), placed in the compiled network by C56's copy map and combined by C78 (any consistent assignment of spike trains is the result of simulate) |
| C104 | Memories, constants, sign flips in floats | `memoryFl` etc. (constructors in floats), `sessionFl`; error bounds of the rounded ramp (`FloatRamp`), single-neuron runs in rounded arithmetic (`FloatSeg`, `FloatGates`), consistency of spike assignments in rounded arithmetic (`consistR`, on top of C72), arrival steps by C73 |
| C105 | Predictive engine stops when excitation is acyclic | `ExcitesAcyclic` (Spec/Excitation); potential argument: every neuron that may spike is paid for by an exciting hit, inhibitory hits keep calm neurons calm (`Paying`, `PInduct`); library networks by a rank function; divergence of the subtractor by C78 (a finished run would be a self-consistent finite train) |
| C106 | Engines agree on potential synapses | `PotentialOnly`, `PureInput`, `GridInputs` (Spec/Agree); the log of the predictive run is a self-consistent behaviour (C78), reactions to V volleys are a step-by-step recursion (`reacts_steps`), strong induction over steps against the naive run (C15); the subtractor by combining with C85 |
| C107 | Subtractor in floats | `subtractorFl` (Model/FloatNets); sums of multiples of Vt/4 are exact in doubles (`fold_exact`), so a neuron with potential synapses fires by an integer recursion on arrival steps (`VFires`, `FitsR.vlist`); arrival steps within [-1,+2] of the exact ones (C73); case analysis on the zero detector (silent, one spike, two spikes); the coarse counterexample from the same run lemma with kernel-computed arrival steps |
| C108 | Linear rate and agreement on programs | Induction over the graph builds an error budget at each step proportional to dt (`budget_linear`), with each block's error constant taken from the block theorems; combined with C103 by the triangle inequality |
| C109 | Logarithm and exponential in floats | `logFl`, `exponentialFl` (Model/FloatNets); the gated decay `gf := gf - gf/20*dt`, `V := V + ...` in doubles against `(1-dt/20)^k` by induction with an explicit error (`gf_err`, `v_err`); the ramps by `ramp_count`; arrival steps within [-1,+2] (C73); real corollaries by `log_rho` |
| C110 | Multiplier in floats | `multiplierFl` (Model/FloatNets); two `log_fits` and one `exp_any` accumulator (C109) chained through arrival steps, the synchronising neuron and the zero detector by the integer recursion of C107 (`VFires`); error budget: seven steps of decay, 8 steps of decoding |
| C111 | Scalar multiplier in floats | `scalarMultiplierFl` (Model/FloatNets); `lib_runX` (Proofs/FloatChoice) lets the spike assignment be chosen after the order of simultaneous arrivals is known; `two_count`/`scale_slopes` (Proofs/FloatScale) count the increments of an accumulator with two slopes for either order |
| C112 | Divider in floats | `logAndSyncFl`, `divFl` (Model/FloatNets); `div_run` (Props/FloatDiv) splits the 25 neurons into front (two logarithms and join), subtractor and exponential; `div_steps` (Props/FloatDiv2) gives the step numbers of all spikes; `quotient_close` (Props/FloatDiv3) bounds the decoded value |
| C113 | Signed constant and memory in floats | `signedConstantFl`, `signedMemoryFl` (Model/FloatNets); Props/FloatSMem reuses `store_fits` (Proofs/FloatRamp) for the accumulators and `fits_vs` for the thirteen V-driven neurons, for either rail |
| C114 | Synchronizer in floats | `synchronizerFl` (Model/FloatNets); Proofs/FloatSync gives the network for every N, Proofs/FloatGather the neuron that sums N rounded weights (`sync_low`, `sync_full_fl`) and the store that is never recalled; Props/FloatSync puts N channels together with `session_run` |
| C115 | Linear combinator in floats: the readout | `linearCombinatorFl` (Model/FloatLin); Proofs/FloatLinBuild gives the network for every coefficient list, Proofs/FloatClosed computes the spikes of a predecessor-closed part of a network (`consistR_closed`), Proofs/FloatLin the sum of rounded weights; Props/FloatLin |
| C116 | Numbers in pictures | Model/Labels: `fixedN` (Python's `:.df`), `edgeLabel`, `drawLabels`, `compileInfo`; Spec/Labels says which texts print a number; proofs in Props/Labels by reading the digits back and, for compiled programs, by following the plugs through `instantiateModules` |
| C117 | Printed reports | Model/Print: every report as a list of print calls ended by a result or an exception (`Printed`); Spec/Print says what a line says; proofs in Props/Print by splitting at the first unknown submodule, C61, C62, C102, C33 and C37 |

None of the properties is not_applicable.  Where the code does not do what one would expect, the property states what it does, or the
restriction under which the expectation holds, and a separate theorem proves the violation (C25, C36, C37, C42, C45, C46, C49, C51, C52, C53, C54, C58, C68, C69;
the notes in MANIFEST.json say which).

## Trusted base

* Lean 4.33.0's kernel. No axioms beyond Lean's own `propext`, `Classical.choice`, `Quot.sound` (each theorem depends on a subset of these three;
  `#print axioms` on every theorem named in MANIFEST.json shows nothing else). No `native_decide`, no `bv_decide`, no own axioms.
* The correspondence between `/repo` and `Verif/Model` is by transcription (file and lines in each comment); it is not machine-checked.
* The English statements in properties.jsonl against the theorem statements and `Verif/Spec`.

Modelled, by file of `/repo/axon_sdk`:

| file | model | not modelled |
|---|---|---|
| primitives/encoders.py | all | |
| primitives/events.py | both queues, uid counters as creation numbers | `__repr__` |
| primitives/elements.py | neuron update, events, reset, fast-forward, synapse types, uids | |
| primitives/networks.py, primitives/helpers.py | module trees, neuron collection, connecting, uids | `recurse_neurons` printing |
| simulator.py | all of `Simulator` | the environment variable `VIS` and launching the visualiser; `plot_chronogram` beyond the plotted data |
| predictive_simulator.py | all of `PredSimulator` | printing |
| networks/** | every constructor | `IntegratorNetwork` (its constructor raises TypeError in this commit: it passes `prefix=` to constructors that do not take it); `__main__` demos |
| compilation/scalar.py | operators, `trace`, nodes, labels and arrows of `draw_comp_graph` | layout in `draw_comp_graph`, `__pow__` (it always raises), `__repr__` |
| compilation/compiler.py | all | `__repr__` |
| usagereport/** | all, with the lines printed | digits of the latency (printed with `str`) |
| visualization/topovis.py, chronogram.py | mapping, display, groups, `graph_data` with its labels, `build_array`, plotted data, colour values | matplotlib calls |
| helpers.py | nothing | `Timing` |
| visualization/server.py | `find_available_port` | HTTP/threads/browser |
| networks/examples/matmul.py | `regular_matmul`, `strassen_matmul`, `sum_mat` | demo code |

Simplifications common to all: numbers are exact except in C72–C76, C104, C107 and C109–C115 (see above; there: no overflow, underflow, infinities, NaNs or signed zeros), Python integers and floats are one type, strings that label things are kept only where they matter
(C08, ports), and Python's recursion limit is modelled only where the code recurses on user data (`trace`, reflected division).
