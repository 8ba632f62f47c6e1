import json
P=[]
def p(id,title,statement,quantifier,why,anchors):
    P.append(dict(id=id,title=title,statement=statement,quantifier=quantifier,why_tests_cant=why,anchors=anchors))
A="axon_sdk/"
p("C01","Encoder round trip and input guard",
 "For a DataEncoder with Tcod != 0, encode_value(v) for 0<=v<=1 returns a pair (0, I) whose interval decodes back to exactly v (real arithmetic); for v outside [0,1] encode_value raises and returns nothing.",
 "every Tmin, every Tcod != 0, every value v (inside and outside [0,1])",
 "A test samples a few values; the round trip and the guard must hold on a continuum and on both sides of both boundaries.",
 [A+"primitives/encoders.py: DataEncoder.encode_value, DataEncoder.decode_interval"])
p("C02","Encoding is an order isomorphism onto [Tmin, Tmax] with error 1/Tcod",
 "For Tcod > 0 the encoder maps [0,1] strictly monotonically onto [Tmin, Tmax]: every interval in [Tmin,Tmax] is the encoding of exactly one value, and a timing error e in an interval changes the decoded value by exactly e/Tcod.",
 "every Tmin, every Tcod>0, every pair of values, every interval, every timing error",
 "Surjectivity, injectivity and the sensitivity constant are statements over all reals.",
 [A+"primitives/encoders.py: DataEncoder"])
p("C03","SpikeEventQueue delivers every due event exactly once, in time order",
 "After any sequence of add_event and pop_events calls, pop_events(t) returns precisely the still-pending events with time <= t (each exactly once, none lost, none duplicated), sorted by time, and leaves precisely the others pending.",
 "every sequence of add/pop calls, every event payload, every totally ordered time type, including equal times",
 "The heap's array layout depends on the whole history; tests exercise a handful of insertion orders.",
 [A+"primitives/events.py: SpikeEventQueue.add_event, SpikeEventQueue.pop_events, SpikeEvent.__lt__"])
p("C04","CancelableEventQueue behaves like a plain collection of pending events",
 "After any sequence of add_event, remove and pop calls the queue behaves like a simple list of pending events: pop returns exactly the pending events whose time is the minimum among the pending ones, in insertion order, and removes them; a removed event is never popped; removing an absent or already popped event changes nothing.",
 "every history of add/remove/pop calls, every event set, equal times included",
 "Cancellation leaves stale times in the heap; whether they can ever surface depends on the whole history.",
 [A+"primitives/events.py: CancelableEventQueue.add_event, remove, pop"])
p("C05","CancelableEventQueue length and emptiness are consistent with pop",
 "len(queue) is the number of distinct times that still have a pending event; if len(queue)>0 then pop returns a non-empty batch and lowers len by exactly one; pop raises only if no time is stored at all, and never a KeyError.",
 "every reachable queue state",
 "Consistency between the heap and the dictionary is an invariant over histories.",
 [A+"primitives/events.py: CancelableEventQueue.__len__, pop"])
p("C06","flatten_nested_list is depth-first flattening",
 "flatten_nested_list returns all non-list leaves of an arbitrarily nested list, each exactly once, in depth-first left-to-right order; flattening a flat list changes nothing and flattening is compatible with concatenation.",
 "every nested list of any depth and width",
 "Nesting depth is unbounded.",
 [A+"primitives/helpers.py: flatten_nested_list", A+"primitives/networks.py: flatten_nested_list"])
p("C07","A module's neurons are exactly the neurons of its whole subtree",
 "SpikingNetworkModule.neurons lists the module's own neurons followed by those of all nested submodules, depth-first; a neuron occurs in the list iff it was added to the module or to one of its (transitive) submodules, and when no module is attached twice each neuron is listed exactly once.",
 "every module tree, any depth and fan-out",
 "Trees are unbounded.",
 [A+"primitives/networks.py: SpikingNetworkModule.neurons, add_neuron, add_subnetwork"])
p("C08","Neuron and module uids never collide",
 "Two different neurons created through add_neuron in one process never have the same uid string, and two different modules never have the same uid string, whatever names the user chooses.",
 "every creation history, all module and neuron names (including names containing parentheses, commas or digits)",
 "Collision freedom of string formatting for arbitrary names cannot be sampled; spike_log and voltage_log are keyed by uid so a collision would merge neurons silently.",
 [A+"primitives/elements.py: AbstractNeuron.__init__ (_uid)", A+"primitives/networks.py: SpikingNetworkModule.__init__ (_uid), add_neuron"])
p("C09","neurons_with_module_uid assigns every neuron its directly containing module",
 "neurons_with_module_uid has exactly the neurons of the subtree as keys and maps each neuron to the uid of the module it was added to.",
 "every module tree in which no module is attached twice",
 "Trees are unbounded.",
 [A+"primitives/networks.py: recurse_neurons_with_module_uid, neurons_with_module_uid"])
p("C10","Closed form of the time-stepped membrane dynamics",
 "n calls of update_and_spike(dt) on a neuron receiving no events give exactly V_n = V_0 + n*dt*ge/tm + gate*gf*(tf/tm)*(1-(1-dt/tf)^n) and gf_n = gf*(1-dt/tf)^n when the gate is open (gate != 0), and V_n = V_0 + n*dt*ge/tm with gf unchanged when it is closed; the neuron reports a spike in a step iff the updated V is >= Vt.",
 "every neuron parameter set with tm,tf != 0, every state, every dt, every number of steps n",
 "Number of steps and parameters are unbounded.",
 [A+"primitives/elements.py: AbstractNeuron.update_and_spike"])
p("C11","Synaptic events touch one variable, commute, and unknown types are rejected",
 "receive_synaptic_event adds the weight to exactly the variable named by the synapse type and leaves the other three unchanged; applying a batch of events gives the same state in every order; an unknown type raises ValueError and changes nothing.",
 "every state, every weight, every finite batch of events and every permutation of it",
 "All permutations of all batches.",
 [A+"primitives/elements.py: AbstractNeuron.receive_synaptic_event"])
p("C12","Fast-forward is the exact flow of the neuron equations",
 "For gate in {0,1}, the predictive engine's fast-forward over an interval is the exact solution of tm*V' = ge + gate*gf, tf*gf' = -gf: it is the identity for interval 0, fast-forwarding by a then b equals fast-forwarding by a+b, and the resulting V and gf satisfy the differential equations at every instant.",
 "every state, all real intervals, tm,tf != 0",
 "Continuum of intervals; a semigroup law.",
 [A+"primitives/elements.py: ExplicitNeuron._fast_forward"])
p("C13","A reset neuron is inert until the next event",
 "After a spike the neuron is reset to V=Vreset, ge=gf=gate=0, and then neither time-stepping (if Vreset<Vt, without spiking) nor fast-forwarding over any interval changes its state, so the predictive engine's stale last-event time after a spike is harmless.",
 "every neuron, every number of steps, every interval",
 "Universally quantified over durations.",
 [A+"primitives/elements.py: ExplicitNeuron.reset, _fast_forward, AbstractNeuron.update_and_spike", A+"predictive_simulator.py: PredSimulator.simulate"])
p("C14","Every spike is delivered exactly once per synapse at the right step",
 "In Simulator.simulate a spike emitted at step j by a neuron reaches each of its out-synapses' targets exactly once, at the first step i>j with i*dt >= j*dt+delay (input spikes at time t: the first step i>=1 with i*dt >= t+delay), with the synapse's type and weight, and no other event is ever delivered.",
 "every network, every input set, every dt>0, every horizon",
 "Interleavings of pending events are unbounded.",
 [A+"simulator.py: Simulator.simulate, apply_input_value, apply_input_spike", A+"primitives/events.py: SpikeEventQueue"])
p("C15","Skipping inactive neurons does not change the simulation",
 "Simulator.simulate (which only updates neurons that received an event or have non-zero ge, gf or gate) produces the same spike_log and final neuron states as the naive simulation that updates every neuron in every step.",
 "every network whose neurons satisfy Vreset<Vt, every input set, every dt, every number of steps",
 "The equivalence is over whole histories.",
 [A+"simulator.py: Simulator.simulate (active_state_neurons)"])
p("C16","Simulation results do not depend on set iteration order or heap tie-breaking",
 "The spike_log and the neuron states produced by Simulator.simulate are the same for every order in which the set of neurons to simulate is iterated in each step and for every order in which the heap returns events with equal times.",
 "every network, every input set, every schedule of set iteration orders, every correct heap",
 "Python set order depends on object addresses: a test sees one schedule per run.",
 [A+"simulator.py: Simulator.simulate (neurons_to_simulate)", A+"primitives/events.py: SpikeEventQueue"])
p("C17","The order of input injection calls is irrelevant to the dynamics",
 "Performing the same multiset of apply_input_spike / apply_input_value calls in any order before simulate gives the same emitted spikes for every neuron and the same final states.",
 "every network, every finite list of input calls, every permutation",
 "All permutations of all input lists.",
 [A+"simulator.py: Simulator.apply_input_value, apply_input_spike, simulate"])
p("C18","A longer simulation extends a shorter one",
 "For the same network and inputs, the spikes emitted by simulate(T1) are exactly those emitted by simulate(T2) at times <= floor(T1/dt)*dt when T1<=T2: extending the horizon never changes the past.",
 "every network, inputs, dt>0, horizons T1<=T2",
 "Horizons are unbounded.",
 [A+"simulator.py: Simulator.simulate"])
p("C19","Shifting inputs by whole steps shifts the outputs",
 "Delaying every injected input by k*dt delays every emitted spike by exactly k*dt and changes nothing else.",
 "every well-formed network, every input set none of whose events is already due at time 0, every k (the proviso is necessary: events due at or before time 0 are all delivered in step 1)",
 "Time-invariance is over all shifts and all histories.",
 [A+"simulator.py: Simulator.simulate"])
p("C20","Spike logs are on the grid, strictly increasing, and bounded by the horizon",
 "Every spike emitted during simulate is logged once with time i*dt, 1<=i<=num_steps, and for every neuron the emitted spike times appear in strictly increasing order after the injected ones.",
 "every network, every input set, every dt>0",
 "Invariant over histories.",
 [A+"simulator.py: Simulator._log_spike_occurrence, simulate"])
p("C21","A neuron never spikes more often than it was hit (time-stepped engine)",
 "In Simulator.simulate, for each neuron with Vreset<Vt, between two consecutive emitted spikes at least one synaptic event was delivered to it; hence the number of emitted spikes is at most the number of events delivered to it.",
 "every network, every run",
 "Invariant over histories.",
 [A+"simulator.py: Simulator.simulate"])
p("C22","processed_syn_per_type counts exactly the delivered events",
 "After simulate, processed_syn_per_type[k] is the number of events of type k that were due by the last step; every enqueued event is either counted once or still pending.",
 "every network with valid synapse types, every run",
 "Conservation law over histories.",
 [A+"simulator.py: Simulator.simulate (processed_syn_per_type)"])
p("C23","Well-formed networks never crash the simulator",
 "If every synapse of the network has a known type, every synapse target is a neuron of the simulated module tree and the neurons have non-zero time constants, simulate never raises; if a delivered event has an unknown type simulate raises ValueError, and if it targets a neuron outside the tree simulate raises KeyError.",
 "every network, every input set, every horizon",
 "Crash freedom over all executions.",
 [A+"simulator.py: Simulator.simulate, _log_voltage_value", A+"primitives/elements.py: receive_synaptic_event"])
p("C24","Value injection places exactly the encoded spike pair",
 "apply_input_value(v, n, t0) with 0<=v<=1 appends exactly t0 and t0+Tmin+v*Tcod to n's spike log, enqueues one event per out-synapse and spike, and changes no neuron state; for v outside [0,1] it raises and changes nothing.",
 "every value, t0, neuron, prior simulator state",
 "Quantifies over all prior states and reals.",
 [A+"simulator.py: Simulator.apply_input_value, apply_input_spike"])
p("C25","Continuing a simulation",
 "simulate is not resumable: calling simulate(T1) and then simulate(T2) on the same Simulator restarts the clock at step 1 and forgets which neurons were active, so the result in general differs from simulate(T1+T2) (the behaviour a user would expect; the code violates it).",
 "every network, inputs, T1, T2",
 "Compares two unbounded executions.",
 [A+"simulator.py: Simulator.simulate"])
p("C26","Silence in, silence out",
 "Without injected input (and with Vreset<Vt, resting initial states) no neuron ever spikes, for any horizon; more generally a neuron that no input neuron can reach along synapses never spikes and keeps its state.",
 "every network, every horizon",
 "Unbounded horizon and topology.",
 [A+"simulator.py: Simulator.simulate"])
p("C27","decode_output returns the signed, re-normalised value or a precise error",
 "decode_output returns norm*decode(interval) when only the plus neuron has exactly two spikes, -norm*decode(interval) when only the minus neuron has exactly two, None when neither has any, and raises ValueError in every other case.",
 "every pair of spike logs of any length, every norm, every encoder",
 "Decision logic over unbounded logs.",
 [A+"simulator.py: decode_output"])
p("C28","count_spikes is the total number of logged spikes",
 "count_spikes(sim) equals the sum over all neurons of the number of injected and emitted spikes.",
 "every network, every run",
 "Sum over arbitrary runs.",
 [A+"simulator.py: count_spikes"])
p("C29","Voltage log discipline",
 "During simulate each neuron's voltage_log gets at most one entry per step, with strictly increasing step indices, and for neurons with Vreset<Vt every logged voltage is below Vt.",
 "every network, every run",
 "Invariant over histories.",
 [A+"simulator.py: Simulator._log_voltage_value, simulate"])
p("C30","Spike prediction returns a genuine threshold crossing",
 "Whenever the predictive engine predicts a spike k steps ahead, the predicted voltage at step k is >= Vt and, if k>0, the predicted voltage at step k-1 is < Vt - for any voltage function, even non-monotone ones.",
 "every neuron state, every dt with fewer than 2^64 search steps",
 "Binary search with a fixed iteration count over an unbounded horizon.",
 [A+"predictive_simulator.py: PredSimulator._predict_spike_steps_fixed"])
p("C31","Spike prediction finds the first crossing for non-decreasing drive",
 "If ge>=0 and gate*gf>=0 (and tm,tf,dt>0) the prediction is the least number of steps k with V(k*dt)>=Vt if one exists below the search horizon, and None otherwise.",
 "every neuron state with non-negative drive, every dt",
 "Unbounded horizon, continuum of parameters.",
 [A+"predictive_simulator.py: PredSimulator._predict_spike_steps_fixed"])
p("C32","The predictive engine processes events in time order",
 "If all synaptic delays are >=0 and dt>=0, PredSimulator.simulate processes batches in non-decreasing time order, so every spike_log list is non-decreasing in time.",
 "every network, every input set, every number of processed batches",
 "Invariant over unbounded event histories with cancellation.",
 [A+"predictive_simulator.py: PredSimulator.simulate", A+"primitives/events.py: CancelableEventQueue"])
p("C33","At most one outstanding prediction per neuron; spikes never exceed hits",
 "At any moment of PredSimulator.simulate each neuron has at most one pending predicted spike in the queue; hence a neuron spikes at most as often as it was hit.",
 "every network, every input set, every number of processed batches",
 "Invariant over histories with cancellation.",
 [A+"predictive_simulator.py: PredSimulator.simulate, _dequeue_possible_spike_event_for, _enqueue_possible_spike_event"])
p("C34","Termination of the predictive engine",
 "PredSimulator.simulate terminates for every feed-forward (acyclic) network and every finite input; for networks with an excitatory loop it can run forever.",
 "every acyclic network of any size, every finite input set",
 "Termination cannot be tested.",
 [A+"predictive_simulator.py: PredSimulator.simulate"])
p("C35","A finished predictive simulation cannot be rerun",
 "After PredSimulator.simulate returns normally, finished is True and every later call of simulate raises ValueError without changing any log.",
 "every network, every input set",
 "State machine property over all histories.",
 [A+"predictive_simulator.py: PredSimulator.simulate"])
p("C36","Predictive value injection and t0",
 "PredSimulator.apply_input_value(v, n, t0) ignores t0: for every t0 it schedules the spike pair at the absolute times 0 and Tmin+v*Tcod (a user would expect t0 and t0+Tmin+v*Tcod, as in Simulator; the code violates that).",
 "every value, every neuron, every t0",
 "Quantifies over all t0.",
 [A+"predictive_simulator.py: PredSimulator.apply_input_value"])
p("C37","What the energy report counts",
 "The numbers of V, ge and gf updates fed to the energy/latency report after a predictive simulation are the numbers of synaptic events of these types processed; gate events are never reported (the report reads the key 'gm', they are counted under 'gate'), so the reported total is the number of processed synaptic events exactly if no gate event was processed.",
 "every network, every run",
 "Conservation over histories.",
 [A+"usagereport/usagereport.py: report_energy_and_latency_for_simulation", A+"predictive_simulator.py: _log_predicition_routine_run"])
p("C38","Both engines agree on a single constantly driven neuron",
 "For a neuron with gate closed, hit once, the time-stepped engine's first spike step and the predictive engine's predicted step count are both determined by the least k with V0+k*dt*ge/tm>=Vt (the stepped engine applies the first increment in the arrival step itself).",
 "every neuron, every state, every dt>0",
 "Continuum of parameters.",
 [A+"predictive_simulator.py: _predict_spike_steps_fixed", A+"simulator.py: Simulator.simulate"])
p("C39","Sign flipper swaps the rails and preserves the value",
 "Feeding a value on one rail of SignFlipperNetwork produces exactly two spikes on the opposite output rail whose interval differs from the encoded one by less than dt, and nothing on the other rail.",
 "every value in [0,1], every t0>=0, every dt>0, every encoder with positive Tmin, Tcod, every sufficiently long horizon",
 "Continuum of values, start times and step sizes.",
 [A+"networks/functional/signflip.py: SignFlipperNetwork"])
p("C40","Constant networks emit their constant on every recall",
 "After a recall spike, ConstantNetwork / SignedConstantNetwork emit exactly two spikes on the output (of the matching sign) whose interval decodes to the stored constant within dt/Tcod, and nothing on the other rail.",
 "every constant, every recall time, every dt>0, every encoder",
 "Continuum of values and step sizes.",
 [A+"networks/memory/constant.py: ConstantNetwork", A+"networks/memory/signed_constant.py: SignedConstantNetwork"])
p("C41","Memory recall reproduces the stored value",
 "MemoryNetwork: after storing v and a recall spike issued after the ready signal, output emits exactly two spikes whose interval equals the stored interval up to a few dt, regardless of when the recall comes; ready fires exactly once.",
 "every value in [0,1], every store and recall time, every sufficiently small dt, every encoder with Tmin large enough against Tsyn",
 "Continuum of values, recall times and step sizes.",
 [A+"networks/memory/memory.py: MemoryNetwork"])
p("C42","Inverting memory recalls 1-v",
 "InvertingMemoryNetwork: after storing v and a later recall, output emits exactly two spikes whose interval is Tmin+(1-v)*Tcod-Tneu (Tneu = 0.01 ms, a systematic bias of the code) up to a few dt.",
 "every value, store and recall time, sufficiently small dt, encoder",
 "Continuum of values and step sizes.",
 [A+"networks/memory/inverting_memory.py: InvertingMemoryNetwork"])
p("C43","Signed memory recalls value and sign",
 "SignedMemoryNetwork: after storing a signed value and a recall, exactly two spikes appear on the rail of the stored sign with the stored interval up to a few dt and none on the other rail.",
 "every value, sign, store and recall time, sufficiently small dt",
 "Continuum of values; depends on races between inhibition and excitation.",
 [A+"networks/memory/signed_memory.py: SignedMemoryNetwork"])
p("C44","Synchronizer aligns and preserves N values",
 "SynchronizerNetwork(N): for any N inputs stored at arbitrary times the N outputs emit their first spikes in the same step and each output interval equals its input interval up to a few dt.",
 "every number N of channels up to the limit of C45, all values, all arrival times, sufficiently small dt",
 "Unbounded N, continuum of values and arrival patterns.",
 [A+"networks/connecting/synchronizer.py: SynchronizerNetwork"])
p("C45","The synchronizer waits for all N inputs",
 "The sync neuron's input weight is we/N+0.0001: up to N = 316 inputs it fires exactly once, and only after all N ready signals arrived; for every N > 316 it already fires when one value is still missing.",
 "every N >= 1, every arrival pattern",
 "Tests use N<=6; the claim quantifies over all N.",
 [A+"networks/connecting/synchronizer.py: SynchronizerNetwork.__init__ (memory.ready -> sync weight)"])
p("C46","Subtractor computes the signed difference",
 "SubtractorNetwork: for simultaneous inputs v1,v2 exactly two spikes appear on output_plus if v1>=v2, and on output_minus if v2 exceeds v1 by at least (Tneu+dt)/Tcod, encoding |v1-v2| up to 2*dt; the other rail is silent. In between there is a dead zone: for dt/Tcod <= v2-v1 <= (Tneu-2*dt)/Tcod both rails stay silent.",
 "all pairs of values, all start times, every dt below 0.02 ms and at most Tmin",
 "Continuum of pairs and races between inhibition and excitation.",
 [A+"networks/functional/subtractor.py: SubtractorNetwork"])
p("C47","Logarithm network",
 "LogNetwork: for v in (2*dt/Tcod, 1] output emits exactly two spikes with interval Tmin + n*dt up to 3*dt, where n is the least number of Euler steps in which the exponential current decays to v (known up to 2*dt/Tcod); over the reals, the interval lies between Tmin + (20-dt)*ln(1/(v+2*dt/Tcod)) - 3*dt and Tmin + 20*ln(1/(v-2*dt/Tcod)) + 4*dt.",
 "every value in (2*dt/Tcod,1], every start time, every dt < 20 with 1+dt<=Tmin, 3*dt<=Tmin",
 "Continuum of values and step sizes.",
 [A+"networks/functional/natural_log.py: LogNetwork"])
p("C48","Exponential network",
 "ExponentialNetwork: for v in [0,1] output emits exactly two spikes that carry (1-dt/20)^n up to 2*dt, n*dt being v*Tcod up to 2*dt; over the reals, exp(-v*Tcod/20) up to 2*dt + Tcod*(dt/10 + (Tcod+2*dt)/20*dt/(20-dt)).",
 "every value in [0,1], every start time, every dt < 20, dt < Tcod with 1+dt<=Tmin, 2*dt<=Tmin",
 "Continuum of values and step sizes.",
 [A+"networks/functional/exponential.py: ExponentialNetwork"])
p("C49","Multiplier computes the product",
 "MultiplierNetwork: for v1,v2 at least 2*dt/Tcod away from 0 and 1 whose product is above about 4e-8, output emits exactly two spikes encoding v1*v2 up to 6*dt + Tcod*(1/(1-dt/20)^2-1); if a factor is 0 (and dt divides 1 ms and Tmin) it emits exactly 0. Outside: a second factor of exactly 1 yields 1 whatever the first factor is (0*1 = 1), and products too small for the 350 ms zero detector yield four spikes.",
 "all pairs of values in the stated ranges, all start times, every dt < 20 with 1+dt<=Tmin, 2*dt<=Tmin",
 "Continuum of pairs and step sizes.",
 [A+"networks/functional/multiplier.py: MultiplierNetwork"])
p("C50","Scalar multiplier rescales",
 "ScalarMultiplierNetwork(factor): output emits exactly two spikes whose distance encodes factor*v up to (3*factor+2)*dt, for factor*v<=1.",
 "every factor > 0 and value in range with 3*factor*dt<=Tmin, every dt (either dt divides 1 ms and Tmin, or the value is not within 3*dt/Tcod of 0)",
 "Continuum of values, factors and step sizes.",
 [A+"networks/functional/scalar_multiplier.py: ScalarMultiplierNetwork"])
p("C51","Signed multipliers get the sign right",
 "SignedMultiplierNetwork and SignedMultiplierNormNetwork(factor), given x1 and x2 (magnitudes at least 2*dt/Tcod away from 0 and 1, product not too small): exactly the output rail of the sign of x1*x2 fires, with exactly two spikes, which encode x1*x2 up to 6*dt+D resp. factor*x1*x2 up to factor*(8*dt+D)+2*dt, D = Tcod*(1/(1-dt/20)^2-1). With an operand 0 the Norm network emits 0 on the rail given by the operands' rails, but SignedMultiplierNetwork's two zero detectors both answer: equal rails give four spikes on the plus rail (the first two 2 ms apart), different rails make both output rails fire.",
 "all sign combinations, all value pairs in range, all start times, factors, every dt < 20 with 1+dt<=Tmin, 2*dt<=Tmin",
 "Continuum of pairs; inhibition races.",
 [A+"networks/functional/signed_multiplier.py: SignedMultiplierNetwork", A+"networks/functional/signed_multipler_norm.py: SignedMultiplierNormNetwork"])
p("C52","Linear combination / adder",
 "LinearCombinatorNetwork(coeffs) / AdderNetwork: for any arrival times the rails carry sum(c_i*x_i) - magnitude on the rail of its sign, nothing on the other - up to 2*dt*sum|c_i|+2*dt, provided the positive and the negative terms each sum up to at most 1 and the result is not within the error of zero; a result in the dead zone just below zero (width Tneu=0.01ms) gets no answer at all.",
 "every N, all coefficients and signed inputs in range, sufficiently small dt",
 "Unbounded N, continuum of inputs.",
 [A+"networks/functional/linear_combinator.py: LinearCombinatorNetwork", A+"networks/functional/adder.py: AdderNetwork"])
p("C53","Divider",
 "DivNetwork: for x1 and x2 between 0 and 1 (not within 2*dt/Tcod of either end) with x1 <= x2 given at the same time - or x1 smaller by 4*dt/Tcod at any two times - the output shows exactly the pair of x1/x2 up to an explicit dt-dependent error, within an explicit time; if x1 > x2 (beyond the precision) it stays silent; for a divisor of exactly 1 it answers about 5% too little; if an operand is 0 (and dt divides the delays) it stays silent.",
 "all such pairs, input times, encoders with Tmin >= 1+dt, dt < 1/50",
 "Continuum of pairs.",
 [A+"networks/functional/divider.py: DivNetwork, LogAndSyncNetwork"])
p("C54","Scalar operators compute ordinary arithmetic",
 "Any expression built from Scalars and numbers with +, -, *, / and unary minus (reflected variants included) carries in .data the value of the same expression on plain numbers and leaves existing Scalars untouched; it succeeds exactly when no division by zero occurs and no plain number is divided by a Scalar (that raises RecursionError); foreign operand types are rejected.",
 "every expression",
 "Unbounded expressions.",
 [A+"compilation/scalar.py: Scalar"])
p("C55","trace collects exactly the computation graph",
 "trace(root) terminates and returns each Scalar reachable from root through operands exactly once (root first) and each operand edge exactly once; nothing else - provided the recursion limit exceeds the number of Scalars; its only failure is RecursionError, and chains as deep as the limit do fail.",
 "every computation graph (shared subexpressions included)",
 "Unbounded DAGs.",
 [A+"compilation/scalar.py: trace"])
p("C56","Compilation preserves the graph",
 "compile_computation creates exactly one module per reachable Scalar of the matching kind and, for the k-th operand of every operation, exactly one plus->plus and one minus->minus excitatory synapse from the operand module's outputs to the k-th input of the operation's module, and no other inter-module synapse; the output reader reads the root's module.",
 "every computation graph of +,*,-,load",
 "Unbounded DAGs.",
 [A+"compilation/compiler.py: flatten, instantiate_stick_modules, wire_modules, compile_computation"])
p("C57","When compilation succeeds and when it fails",
 "compile_computation(root, r) succeeds iff r<=100, r != 0, no reachable operation is Div or Pow, and every reachable loaded value v satisfies v/r<=1; otherwise it raises.",
 "every computation graph, every range",
 "Unbounded DAGs.",
 [A+"compilation/compiler.py: compile_computation, spawn_stick_module, InputTrigger"])
p("C58","Which compiled plans can be loaded",
 "If compile_computation(root, r) succeeds with r>0, Simulator.init_with_plan injects every loaded value v as |v|/r on the rail of its sign, unless some loaded value is below -r, in which case (accepted by the compiler nevertheless) it raises ValueError; a loaded plan can always be simulated without exception; with r<0 only zero values can be loaded.",
 "every computation graph, every range",
 "Unbounded DAGs, continuum of values.",
 [A+"compilation/compiler.py: InputTrigger, get_input_triggers", A+"simulator.py: Simulator.init_with_plan"])
p("C59","End-to-end: compiled programs compute the expression",
 "Compiling a Scalar in a fresh process, loading the plan in a simulator with the default encoder, simulating long enough and decoding returns the value of the expression: with an explicit bound on the error for each time step (errors of operands add up in an addition and are amplified by max_range in a multiplication), and, for a simulation time that does not depend on the time step, an error that tends to zero with the time step. Loaded values must be within the range; for an addition the positive and the negative parts must each sum to less than max_range, and the result must be positive or below -max_range/10000; for a multiplication the factors must be strictly within the range and, unless one is a loaded zero (or its negation; then the time step must divide 1 ms), nonzero with the product within the range and above about 3.6e-8*max_range^2 (the network cannot do the excluded cases).",
 "every expression graph (any size, with sharing) of additions, multiplications and negations whose values are in range, every time step that is small enough, every simulation time that is long enough, every heap and set order",
 "Unbounded expressions.",
 [A+"compilation/compiler.py: compile_computation", A+"simulator.py: Simulator.init_with_plan, simulate, decode_output"])
p("C60","Example matrix products agree",
 "regular_matmul and strassen_matmul return the same 2x2 matrix product, and sum_mat the sum of its entries.",
 "all 2x2 matrices of numbers",
 "All reals.",
 [A+"networks/examples/matmul.py: regular_matmul, strassen_matmul, sum_mat"])
p("C61","Neuron usage totals add up",
 "For every module the reported neuron count equals its own neurons plus the counts reported for its submodules.",
 "every module tree",
 "Unbounded trees.",
 [A+"usagereport/usagereport.py: _print_neurons, report_neuron_usage"])
p("C62","Spike and energy estimation is additive over modules",
 "report_spike_estimation_for_net / report_energy_and_latency_estimation_for_net give the sum of the per-module table entries over the direct submodules; they raise iff some direct submodule is of an unknown kind.",
 "every compiled network of any number of modules",
 "Unbounded module lists.",
 [A+"usagereport/usagereport.py: _module_to_total_spikes, _module_to_spikes, report_spike_estimation_for_net"])
p("C63","Performance estimate is monotone and exact",
 "estimate_performance: total_updates = V + ceil(log2(steps))*(ge+gf+gm); cycles = 3*ceil(updates/batch)+5; more updates never take fewer cycles, more parallelism never more cycles, and a faster clock never more time; energy = static power * time + E_sop * updates; non-positive step counts raise ValueError, zero batch/clock ZeroDivisionError.",
 "all counts, batch sizes, clock speeds",
 "Unbounded integers.",
 [A+"usagereport/power_metrics.py: estimate_performance, estimate_power_and_energy"])
p("C64","human_readable scales losslessly",
 "human_readable picks the largest SI prefix not exceeding the value: scaled*factor = value, and 1<=scaled<1000 for 1e-12<=value<1e12 (before rounding to three decimals); smaller (also negative) values are shown in pico, larger ones in giga units.",
 "all values",
 "Continuum of values.",
 [A+"usagereport/power_metrics.py: human_readable"])
p("C65","Topology view shows exactly the top-level wiring",
 "get_neurons_and_synapses_to_display returns exactly the synapses that start in a top-level neuron or cross between direct submodules (or top level), and exactly the neurons that are endpoints of such synapses; it never raises when all synapse targets belong to the net.",
 "every network",
 "Unbounded networks.",
 [A+"visualization/topovis.py: generate_mapping_neuron_to_net, get_neurons_and_synapses_to_display"])
p("C66","Topology groups partition the displayed submodule neurons",
 "format_groups lists every displayed neuron that belongs to a submodule in exactly one group, labelled with the direct submodule of the net containing it; top-level neurons are in no group.",
 "every network",
 "Unbounded networks.",
 [A+"visualization/topovis.py: get_groups_to_display, format_groups"])
p("C67","Chronogram reconstruction holds the last logged value",
 "build_array(length, entries) has the given length and at index i holds the value logged at the greatest entry index <= i (the last one logged if several share it), or 0.0 before the first entry.",
 "every length and entry list (any order, duplicates allowed)",
 "Unbounded lists.",
 [A+"visualization/chronogram.py: build_array"])
p("C68","The neuron usage report is limited to two levels",
 "report_neuron_usage(net, print_depth=d) prints the same lines for every d >= 1: the requested depth is not passed on to the recursive call, so levels below the direct submodules are never printed.",
 "every module tree, every depth d >= 1",
 "Trees and depths are unbounded.",
 [A+"usagereport/usagereport.py: _print_neurons"])
p("C69","The chronogram shows the true voltages",
 "For every neuron that starts at voltage 0, the curve plot_chronogram reconstructs from the sparse voltage_log of a finished run is, at every step, the voltage of the naive simulation that updates every neuron in every step - unless the log happens to have exactly one entry per step, in which case the raw (voltage, step) pairs are plotted.",
 "every well-formed network, input, duration, time step",
 "The log is sparse; that nothing is lost is a statement about all runs.",
 [A+"visualization/chronogram.py: build_array, plot_chronogram", A+"simulator.py: Simulator.simulate, _log_voltage_value"])
p("C70","The heap algorithm behind the queues keeps and orders everything",
 "After any history of heapq.heappush and heapq.heappop calls (CPython's sift-up/sift-down algorithm, comparing by time), heappush stores the new item and loses none, heappop returns an item with the least time and leaves exactly the others, and popping everything returns the stored items in order of time.",
 "every history of pushes and pops, every total order, items with equal times included",
 "Heap shapes are unbounded.",
 [A+"primitives/events.py: SpikeEventQueue, CancelableEventQueue (heapq.heappush, heapq.heappop)"])
p("C71","The published spike counts are exact",
 "For a program of additions, multiplications and negations that compiles and whose values are in range (no multiplication by a loaded zero), every simulation that is long enough logs exactly as many spikes as report_spike_estimation_for_net announces: count_spikes returns the announced total, and each module's neurons have as many spikes in the log as announced for that module (2 per load, 4 per negation, 29 per product, 58 per sum), whatever the loaded values are.",
 "every such program, loaded values, range, small enough time step, long enough simulation, heap, set order",
 "The counts are constants in a table; that the network emits that number of spikes for all values needs the spike trains of all its neurons.",
 [A+"usagereport/usagereport.py: report_spike_estimation_for_net, _module_to_total_spikes", A+"simulator.py: Simulator.count_spikes", A+"compilation/compiler.py: compile_computation", A+"networks/functional/signed_multipler_norm.py: SignedMultiplierNormNetwork", A+"networks/functional/adder.py: AdderNetwork"])
p("C72","The simulator is exact about events and skipping in floating-point arithmetic too",
 "In IEEE double arithmetic (sums depend on their order, times are rounded), after any injections, simulate never raises on a well-formed resting network, and its states, spike_log, voltage_log and processed_syn_per_type are those of a naive simulation that updates every neuron in every step: every event is delivered exactly once, in the first later step whose computed time (i*dt) has reached the event's computed time (t + delay), the events of one step are applied one by one in order of their times, and skipping idle neurons changes nothing, not even by rounding.",
 "every well-formed network, injections, time step, duration, heap, set order; every arithmetic in which 0 is neutral and computed step times do not decrease",
 "Rounding errors occur on some inputs only; no sample shows they cannot lose or duplicate an event or make skipping unsound.",
 [A+"simulator.py: Simulator.simulate, apply_input_value, apply_input_spike", A+"primitives/elements.py: ExplicitNeuron.update_and_spike, receive_synaptic_event", A+"primitives/events.py: SpikeEventQueue"])
p("C73","Rounding moves a spike's arrival by at most one step",
 "In doubles a spike fired in step j arrives over a synapse with any delay at most one step earlier or later than in exact arithmetic (j + max(1, ceil(delay/dt))), for steps below 2^50; an injected spike arrives in the exact step or one step earlier. The deviation really occurs: with dt = 0.001 and delay 1.0 a spike fired in step 280 takes 1000 steps and one fired in step 281 takes 1001.",
 "every positive time step, delay, firing step and injection time (doubles)",
 "The deviation depends on the bits of j*dt + delay; only a proof covers all of them.",
 [A+"simulator.py: Simulator.simulate (timesteps, add_event)", A+"primitives/events.py: SpikeEventQueue.pop_events"])
p("C74","Number of steps of a simulation in floating-point arithmetic",
 "In doubles simulate(T) performs floor(T/dt) steps (of the exact quotient) or one more; if T was computed as k*dt it performs k or k-1 steps. The last step can really be lost: simulate(2001*dt) with dt = 0.001 performs 2000 steps.",
 "every duration and positive time step (doubles, T/dt < 2^52, k <= 2^50)",
 "Depends on the rounding of the quotient.",
 [A+"simulator.py: Simulator.simulate (num_steps)"])
p("C75","Encoding and decoding in floating-point arithmetic",
 "In doubles, decoding the interval between the two spikes encode_value produces for a value in [0,1] returns the value up to (2*Tmin/Tcod + 5)*2^-53, and preserves the order of values.",
 "every encoder with Tmin >= 0 and Tcod > 0, every value in [0,1] (doubles)",
 "2^62 values; the bound is about the worst of them.",
 [A+"primitives/encoders.py: DataEncoder.encode_value, decode_interval"])
p("C76","Causality in floating-point arithmetic",
 "Whatever the rounding, a neuron receives at least one event between any two of its spikes, and a neuron that no injected spike can reach along synapses never fires and never changes.",
 "every well-formed network, injections, time step, arithmetic as in C72",
 "Rounding could in principle make an idle neuron drift over its threshold; excluded for all runs.",
 [A+"simulator.py: Simulator.simulate", A+"primitives/elements.py: ExplicitNeuron.update_and_spike, reset"])
p("C77","A predictive simulation delivers exactly the right spikes to every neuron",
 "When PredSimulator.simulate has finished, every neuron has lived exactly on the spikes it should have received: ordered in time, one hit per injected spike and one per incoming synapse and spike of its presynaptic neuron, delayed by the synapse's delay, with its type and weight; nothing is lost, invented, or delivered twice; between hits its state follows the exact solution of its equations; it spikes exactly when an announced spike is not superseded by a further hit, and these spikes are its spike_log; no announced spike is left over.",
 "every network with delays >= 0, injections, positive time step, heap, exponential function; recurrent networks included",
 "Event queues, cancellations and feedback make the set of histories unbounded.",
 [A+"predictive_simulator.py: PredSimulator.simulate, apply_input_value, apply_input_spike", A+"primitives/elements.py: ExplicitNeuron", A+"primitives/events.py: CancelableEventQueue"])
p("C78","The predictive simulator computes the behaviour of the network",
 "If spike trains are a self-consistent behaviour of the network on the injected spikes (every neuron, hit by exactly the injected spikes and the delayed spikes of its presynaptic neurons, all hits of one instant acting together, spikes exactly as the trains say), then PredSimulator.simulate terminates without an exception and its spike_log is these trains; conversely the spike_log of every finished simulation is such a behaviour; so a network with positive delays has at most one.",
 "every runnable network with positive delays, injections, positive time step, heap, exponential function",
 "It relates the event loop to a description without any event loop, for all networks at once.",
 [A+"predictive_simulator.py: PredSimulator.simulate", A+"primitives/elements.py: ExplicitNeuron.receive_synaptic_event_pred, reset", A+"primitives/events.py: CancelableEventQueue"])
p("C79","The result of a predictive simulation depends only on the injected spikes",
 "If one predictive simulation finishes, then so does every other simulation of the same network (same initial states, same time step, positive delays) into which the same spikes were injected, in any order and by any mixture of apply_input_spike and apply_input_value, with any encoder and however the heap breaks ties, and all spike logs are the same.",
 "every runnable network with positive delays, pairs of injection histories with the same spikes, heaps, encoders",
 "Orders of simultaneous events are not enumerable by tests.",
 [A+"predictive_simulator.py: PredSimulator.simulate, apply_input_value, apply_input_spike", A+"primitives/events.py: CancelableEventQueue"])
p("C80","Constants and sign flips in the predictive simulator",
 "In PredSimulator, ConstantNetwork answers every recall with exactly the stored constant, one synaptic delay after the recall (recalls farther apart than the constant's interval); SignFlipperNetwork moves a value to the opposite rail exactly, one synaptic delay later, with nothing on the other rail. The run terminates without an exception.",
 "every encoder, constant, list of recall times, value, rail, monotone exponential function, time step and heap",
 "Ranges over all values, recall schedules and orders of simultaneous events.",
 [A+"predictive_simulator.py: PredSimulator", A+"networks/memory/constant.py: ConstantNetwork", A+"networks/functional/signflip.py: SignFlipperNetwork"])
p("C81","Memory in the predictive simulator",
 "In PredSimulator, a MemoryNetwork given a value v signals ready once, between Tmax+3 and Tmax+3+dt, and answers a recall (from Tmax+dt+2 on) with v up to one time step; exactly v if dt divides Tmax and the interval of v. (Needs Tmax+2dt <= 500 ms, the engine's search horizon.)",
 "every encoder with Tmin >= 1, value in [0,1], recall time, dt <= 1, exponential function, heap",
 "Ranges over all values, recall times, time steps.",
 [A+"predictive_simulator.py: PredSimulator", A+"networks/memory/memory.py: MemoryNetwork"])
p("C82","Inverting memory in the predictive simulator",
 "In PredSimulator, an InvertingMemoryNetwork given v answers a recall (from one synaptic delay after the second input spike on) with 1-v, too short by the neuron delay 1/100 and less than one time step longer than that.",
 "every encoder with Tmin >= 1, value in [0,1], recall time, time step, exponential function, heap",
 "Ranges over all values, recall times, time steps.",
 [A+"predictive_simulator.py: PredSimulator", A+"networks/memory/inverting_memory.py: InvertingMemoryNetwork"])
p("C83","Signed memory in the predictive simulator",
 "In PredSimulator, a SignedMemoryNetwork given a signed value answers a recall with its magnitude on the rail of its sign, up to one time step, and nothing on the other rail.",
 "every encoder with Tmin >= 1, value in [-1,1], recall time, dt <= 1, exponential function, heap",
 "Ranges over all signed values, recall times, time steps.",
 [A+"predictive_simulator.py: PredSimulator", A+"networks/memory/signed_memory.py: SignedMemoryNetwork"])
p("C84","Scalar multiplication in the predictive simulator",
 "In PredSimulator, a ScalarMultiplierNetwork with a positive factor f turns v in (0,1] with f*v <= 1 into f*v, at most f*dt too short and less than dt too long; 0 is answered with exactly 0 if f >= 1, but with f < 1 the answer 0 is followed by a third, spurious spike.",
 "every encoder with Tmin >= 1, factor, value, time step (within the search horizon of the engine), exponential function, heap",
 "Ranges over all factors, values, time steps.",
 [A+"predictive_simulator.py: PredSimulator", A+"networks/functional/scalar_multiplier.py: ScalarMultiplierNetwork"])
p("C85","Subtraction in the predictive simulator is exact",
 "In PredSimulator, a SubtractorNetwork answers two values with exactly their difference on the rail of its sign and nothing on the other rail, provided that it is not negative or its interval is at least 1/100 ms long; a smaller negative difference is not answered at all.",
 "every encoder with Tmin >= 1, pair of values in [0,1], time step, exponential function, heap",
 "Ranges over all pairs of values, including arbitrarily close ones and ties.",
 [A+"predictive_simulator.py: PredSimulator", A+"networks/functional/subtractor.py: SubtractorNetwork"])
p("C86","Logarithm and exponential in the predictive simulator",
 "With the real exponential function, LogNetwork in PredSimulator turns v in (0,1] into -(20/Tcod)*ln v and ExponentialNetwork turns v into exp(-v*Tcod/20), each up to one time step; the logarithm of 0 is answered by a single spike.",
 "every encoder with Tmin >= 1, value (within the 500 ms search horizon), time step, heap",
 "Ranges over all real values and time steps.",
 [A+"predictive_simulator.py: PredSimulator", A+"networks/functional/natural_log.py: LogNetwork", A+"networks/functional/exponential.py: ExponentialNetwork"])
p("C87","Multiplication in the predictive simulator",
 "With the real exponential function, MultiplierNetwork in PredSimulator turns two values strictly between 0 and 1 (with -20*ln(v1*v2)+2dt <= 343, i.e. a product above about 3.6e-8) into their product: the answer's interval lies between Tmin+Tcod*v1*v2*exp(-dt/10) and Tmin+Tcod*v1*v2+dt; if one factor is 0 and the other below 1 the answer is exactly 0.",
 "every encoder with Tmin >= 1, pair of values, time step, heap",
 "Ranges over all pairs of real values and time steps.",
 [A+"predictive_simulator.py: PredSimulator", A+"networks/functional/multiplier.py: MultiplierNetwork"])
p("C88","Processed synaptic updates, against the spike log and against the published energy table",
 "When a simulation has ended and no event is pending, the number of synaptic updates counted per synapse type is the number of (synapse of the type, spike logged at its source) pairs. For a compiled program (no zero factor) run to the end, the ge, gf and gate counts are exactly the sums of the published per-module counts; the V count exceeds the published sum by 2 per operand edge, by 6 per multiplication, and by 2 for each of at most all of the additions: the published V estimate is too low.",
 "every network, time step, injected spikes and simulated time; every program graph within the precision budget of C59, every dt < 1/50, heap, set order",
 "Ranges over all networks, programs and runs.",
 [A+"simulator.py: Simulator.processed_syn_per_type", A+"usagereport/usagereport.py: _module_to_spikes, report_energy_and_latency_estimation_for_net"])
p("C89","Signed multiplication in the predictive simulator",
 "With the real exponential function, SignedMultiplierNetwork in PredSimulator shows the product of two signed values with magnitudes strictly between 0 and 1 (product above about 4e-8): the magnitude on the rail of the sign of the product, nothing on the other rail, within max(dt, |x1*x2|*Tcod*dt/10). With a zero operand the answer is ambiguous: the plus rail spikes four times or both rails spike.",
 "every encoder with Tmin >= 1 (Tmin > 2 for the zero case), pair of values, signs, time step, heap",
 "Ranges over all pairs of real values, signs and time steps.",
 [A+"predictive_simulator.py: PredSimulator", A+"networks/functional/signed_multiplier.py: SignedMultiplierNetwork"])
p("C90","Division in the predictive simulator",
 "With the real exponential function, DivNetwork in PredSimulator shows v1/v2 for 0 < v1 <= v2 < 1, within dt + (v1/v2)*Tcod*(exp(dt/20)-1). If v1 >= v2*exp(dt/20) it emits nothing; if an operand is 0 it emits nothing (neither 0/v nor v/0 is answered); for a divisor of exactly 1 the answer is too small by the factor exp(-1/20).",
 "every encoder with Tmin >= 1, pair of values (within the 500 ms search horizon), time step, heap",
 "Ranges over all pairs of real values and time steps.",
 [A+"predictive_simulator.py: PredSimulator", A+"networks/functional/divider.py: DivNetwork"])
p("C91","The synchronizer in the predictive simulator",
 "In PredSimulator, a SynchronizerNetwork with 1 <= N <= 316 inputs that receives value v_j on input j (as two spikes starting at t_j, or through apply_input_value): all outputs start at exactly the same instant, output j carries v_j within dt, and the sync neuron fires exactly once, strictly after every ready signal. If any input has received nothing, sync and all outputs stay silent.",
 "every encoder with Tmin >= 1 and Tmax within the 500 ms search horizon, number of inputs up to 316, values, arrival times, time step <= 1 ms, heap",
 "Ranges over all numbers of inputs, all vectors of values and all arrival times.",
 [A+"predictive_simulator.py: PredSimulator", A+"networks/connecting/synchronizer.py: SynchronizerNetwork"])
p("C92","Linear combinations in the predictive simulator",
 "In PredSimulator, LinearCombinatorNetwork (and AdderNetwork) with any number N >= 1 of inputs and any coefficients, given signed values x_i in [-1,1] (at time 0, or as two spikes at arbitrary times): if the positive terms and the negative terms of sum c_i*x_i each add up to at most 1 (up to the rounding of Tmax to time steps), the sum appears within dt on the output rail of its sign and the other rail is silent, provided the sum is >= 0 or its interval is at least 1/100 ms + dt long. A negative sum whose interval is between dt and 1/100 ms - dt is not answered at all: both rails stay silent.",
 "every encoder with Tmin >= 1 and Tmax within the 500 ms horizon, number of inputs, coefficients, values, arrival times, time step <= 1 ms, heap",
 "Ranges over all numbers of inputs, all coefficient and value vectors and all arrival times.",
 [A+"predictive_simulator.py: PredSimulator", A+"networks/functional/linear_combinator.py: LinearCombinatorNetwork", A+"networks/functional/adder.py: AdderNetwork"])
p("C93","A network at rest can be used again, at any time, in the predictive simulator",
 "PredSimulator: take any number of simulations of one network, each started with every neuron at rest and each ending with every neuron at rest (V at its reset value, ge = gf = gate = 0). If the inputs of each are given only after everything is over in the ones before it (all injections, spikes and arrivals over synapses), then giving all these inputs to one single simulator yields, for every neuron, exactly the spike logs of the separate simulations concatenated in order. Moreover a simulation whose inputs are all given later by the same amount logs the same spikes, later by that amount.",
 "every network with positive delays, number of uses, inputs, times, time step, initial last-update times, heap",
 "Ranges over all networks, all sequences of uses and all times; a state left over from one use may show only in a particular later one.",
 [A+"predictive_simulator.py: PredSimulator.simulate, apply_input_spike", A+"primitives/elements.py: ExplicitNeuron"])
p("C94","Streams of products in the predictive simulator, and what a zero leaves behind",
 "In PredSimulator, one MultiplierNetwork multiplies pair after pair: for any number of pairs of values strictly between 0 and 1 (each product at least about 3.6e-8), the spikes of each pair at any times but 350 ms plus twice Tmax (plus dt) after the pair before, the output is a stream of exactly one answer per pair, in order, each as accurate as for a fresh network (C87) and over before the next pair begins. A product that is zero does not leave the network at rest: multiplying 0 by 0 twice, however far apart (at least 380 ms + 4*Tmin), answers the first with two spikes Tmin apart and the second with one single spike, which encodes nothing.",
 "every encoder with Tmin >= 1 and Tcod within the 500 ms horizon, number of pairs, values, times, time step, heap",
 "Ranges over sequences of any length, all values and times: what is left over from one use may disturb only a later one.",
 [A+"predictive_simulator.py: PredSimulator", A+"networks/functional/multiplier.py: MultiplierNetwork"])
p("C95","Registers and streams of differences in the predictive simulator",
 "In PredSimulator, MemoryNetwork is a rewritable register: any number of values in [0,1], each stored (as two spikes) at some time, recalled at least Tmax + dt + 2 ms later, and followed by the next one more than Tmax + dt + 3 ms after the recall; every recall answers, 2 ms later, with the value stored just before it, within dt, and there are no other output spikes. SubtractorNetwork computes differences one after the other: any number of pairs given 2*Tmin + Tcod + 6 ms apart, none in the dead zone of C85, the non-negative differences appear on the plus rail, the negative ones on the minus rail, each rail in order and exact.",
 "every encoder with Tmin >= 1 (and Tmax within the 500 ms horizon for the memory), number of uses, values, times, time step (<= 1 ms for the memory), heap",
 "Ranges over sequences of any length, all values and times.",
 [A+"predictive_simulator.py: PredSimulator", A+"networks/memory/memory.py: MemoryNetwork", A+"networks/functional/subtractor.py: SubtractorNetwork"])
p("C96","The signed memory as a register in the predictive simulator: what it loses",
 "In PredSimulator, a SignedMemoryNetwork that stores and recalls signed values one after the other (each recalled at least Tmax + dt + 2 ms after it was stored, the next one stored more than Tmax + dt + 4 ms after the recall) shows on its ready neuron, 4 ms after each recall and within dt, the magnitude stored just before. On the output rails the values appear in order and within dt, except that every value makes the rail of the other sign swallow one value later on. So if all values have one sign, every recall is answered on the rail of this sign and the other rail is silent; but after a non-negative value has been stored and recalled, a negative value stored next is lost: its recall is answered on neither rail.",
 "every encoder with Tmin > 1 and Tmax within the 500 ms horizon, number of values, values in [-1,1], times, time step <= 1 ms, heap",
 "Ranges over sequences of any length, all values and times: the rails are disturbed only in later uses.",
 [A+"predictive_simulator.py: PredSimulator", A+"networks/memory/signed_memory.py: SignedMemoryNetwork"])
p("C97","Using a network again in the time-stepped simulator",
 "If simulate(T1) of a first group of injected spikes ends with an empty event queue and all neurons without currents, then one simulate(T2), T2 >= T1, of both groups together, the second group arriving only after T1, logs for every neuron the spikes of the first simulation followed by the spikes of a simulation of the second group alone by a new Simulator created on the neurons as the first simulation has left them (a new Simulator does not reset them), and ends in the same neuron states.",
 "every network of valid synapses, initial neuron states, groups of injected spikes, times T1 <= T2, time step > 0, heap and set iteration order",
 "Ranges over all networks, inputs and lengths of simulations; the equality must hold for every later history.",
 [A+"simulator.py: Simulator.simulate", A+"simulator.py: Simulator.apply_input_spike", A+"primitives/events.py: SpikeEventQueue"])
p("C98","A memory as a register in the time-stepped simulator",
 "In Simulator, a MemoryNetwork that stores and recalls values in [0,1] one after the other within one simulation (each recalled at least Tmax + 3 + 3*dt ms after it was stored, the next one stored at least Tmax + 2 + 4*dt ms after the recall) answers every recall on its output neuron with the value stored just before, in order: the log of the output neuron is exactly one pair of spikes for each recall, the first of them 2 ms after the recall rounded up to a time step, the interval between them that of the value within 3*dt.",
 "every encoder with Tmin >= 1 + dt and >= 3*dt, number of values, values in [0,1], times, time step, heap and set iteration order",
 "Ranges over sequences of any length, all values and times: a residue of one use would show only in a later one.",
 [A+"simulator.py: Simulator.simulate", A+"networks/memory/memory.py: MemoryNetwork"])
p("C99","The graph sent to the browser is consistent",
 "vis_topology sends a graph in which no two nodes share an id, no two edges a uid, no two groups an id; both ends of every edge are nodes and every node is an end of an edge; groups are non-empty, their members are nodes, and no node is in two groups. The edges are exactly the synapses that start in a neuron of the displayed module itself or connect different direct parts of it, with source and target uids, the synapse's uid and the colour of its type; the groups are the direct submodules with displayed neurons. If a synapse leads out of the module, KeyError is raised and nothing is sent.",
 "every network built with the module API, displayed module, enumeration order of Python sets",
 "Ranges over module trees and wirings of any size; a dangling id breaks the page only for particular topologies.",
 [A+"visualization/topovis.py: vis_topology", A+"visualization/topovis.py: format_nodes", A+"visualization/topovis.py: format_edges", A+"visualization/topovis.py: format_groups"])
p("C100","Port search and colours of the visualisation",
 "find_available_port(initial) returns the smallest free port from the initial one on, and never returns if there is none. plot_chronogram gives every neuron its own colour value in [0,1], increasing, the first 0 and the last 1 - except for a network with exactly one neuron, where it raises ZeroDivisionError.",
 "every set of free ports and initial port; every number of neurons",
 "Ranges over all port states and numbers of neurons.",
 [A+"visualization/server.py: find_available_port", A+"visualization/chronogram.py: plot_chronogram"])
p("C101","draw_comp_graph draws exactly the computation",
 "For every Scalar the root depends on, draw_comp_graph declares one node for its value and one for its operation, all with different names; it draws an arrow from each operation to its value and, for every Scalar and each of its different operands, one arrow from the operand's value to the operation; nothing else and nothing twice (so x*x has a single operand arrow).",
 "every computation graph built with the Scalar operators, every assignment of distinct addresses to the objects, recursion limit at least the number of Scalars",
 "Ranges over graphs of any size and sharing, and all addresses (node names are concatenated strings that could collide).",
 [A+"compilation/scalar.py: Scalar", A+"compilation/scalar.py: trace"])
p("C102","What the energy report prints",
 "human_readable(value, unit) is a number with three decimals, followed (unless prefix and unit are both empty) by a blank, the SI prefix and the unit; read back, number times prefix is the value up to half a unit of the last digit, i.e. with relative error at most 0.05 % for values of at least 1e-12. The energy report of a simulation or net never fails for any synaptic counts: with U = V + 13*(ge+gf+gm) updates the latency is (3U+5)/200 MHz, the energy is latency * 35.627 mW + 12 pJ * U, the mean power is energy/latency, the current power/0.9 V.",
 "all rational values, all units without white space, all counts of processed synapses",
 "Continuum of values, rounding boundaries included, and unbounded counts.",
 [A+"usagereport/power_metrics.py: human_readable", A+"usagereport/power_metrics.py: estimate_power_and_energy", A+"usagereport/usagereport.py: _report_energy_and_latency"])
p("C103","Compiled programs compute their value in the predictive simulator",
 "Compiling a Scalar in a fresh process, creating a PredSimulator on the network of the plan, injecting the plan's triggers with apply_input_value, calling simulate() and decoding: simulate() ends by itself and the decoded result is the value of the expression up to an explicit bound, proportional to the time step (loads, negations and products with a loaded zero are exact, an addition adds the errors and one time step, a multiplication amplifies the errors by max_range). The values must be in the range of C59; products also need max_range > 0.22 (products with zero max_range >= 1).",
 "every expression graph (any size, with sharing) of additions, multiplications and negations whose values are in range, every time step below a bound that depends on the expression, every tie-breaking of the heap",
 "Unbounded expressions; the engine jumps between predicted events, so every schedule of interleaved jumps matters.",
 [A+"compilation/compiler.py: compile_computation", A+"predictive_simulator.py: PredSimulator.simulate, apply_input_value", A+"simulator.py: decode_output"])
p("C104","Memories, constants and sign flips in floating-point arithmetic",
 "With every number a Python float and every operation rounded as IEEE 754 prescribes: a MemoryNetwork given a value and recalled signals ready exactly once and emits exactly two spikes whose decoded interval is the stored value up to 12*dt/Tcod; an InvertingMemoryNetwork emits 1-v-0.01/Tcod up to 12*dt/Tcod; a ConstantNetwork emits its value and a SignFlipperNetwork its input on the opposite rail up to 3*dt/Tcod. Accumulated rounding errors of the membrane potential never add or lose a spike.",
 "every encoder, time step, value, storage and recall time (floats) with 0 < dt <= 1, Tmin >= 1+12*dt (4*dt for constants and sign flips), Tmax/dt <= 2^24, recall at least Tmax+2+7*dt after storage and before 2^48 steps, every set iteration order and heap tie-breaking",
 "The accumulator adds a rounded increment up to 2^24 times; whether it crosses the threshold one step early, late or twice depends on all roundings of all steps, which tests sample only for a few constants.",
 [A+"networks/memory/memory.py: MemoryNetwork", A+"networks/memory/inverting_memory.py: InvertingMemoryNetwork", A+"networks/memory/constant.py: ConstantNetwork", A+"networks/functional/signflip.py: SignFlipperNetwork", A+"simulator.py: Simulator.simulate"])
p("C105","The predictive engine stops when excitation does not go round in circles",
 "If every directed cycle of synapses contains an inhibitory one (type V or ge, weight <= 0), PredSimulator.simulate ends without an exception whatever spikes and values are injected into whatever neurons, in whatever state the neurons are, and the injected spikes have exactly one self-consistent behaviour. In particular it ends for every injection into any neuron of the memories, the synchronizer (any number of channels), the scalar multiplier (any factor), the logarithm, exponential, multiplier and both signed multipliers. It need not end for the subtractor: one spike injected into its neuron 'zero' keeps it running forever.",
 "every network in which excitation is acyclic, every finite list of injections, every initial state of the neurons, every dt > 0 with fewer than 2^64 search steps",
 "Termination cannot be tested, and the injections range over all finite patterns into all neurons, not only the intended inputs.",
 [A+"predictive_simulator.py: PredSimulator.simulate", A+"networks/functional/multiplier.py: MultiplierNetwork", A+"networks/functional/subtractor.py: SubtractorNetwork"])
p("C106","Both simulators agree spike for spike on networks of potential synapses",
 "If all synapses are of type V with delays that are a whole number of time steps, and spikes are injected on the time grid into neurons that nothing else excites, then whenever PredSimulator.simulate() ends, Simulator.simulate(T) with the same calls (values at t0 = 0) does not raise and logs, for every other neuron, exactly the predictive simulator's spikes up to time T in the same order, and for the inputs the same spikes; every spike of the predictive run lies on the time grid. As a consequence the SubtractorNetwork with step 1/(100k) ms and operands on the grid is exact in the time-stepped simulator, with the dead zone exactly 0 < (v2 - v1)*Tcod < 1/100 ms.",
 "every network of V synapses with delays on the grid (any topology, weights, thresholds above the reset potential, positive time constants), every finite list of calls on the grid, every simulation time T, every iteration order of the active set; every k <= 10^12 and every pair of operands on the grid for the subtractor",
 "The two engines use different algorithms (Euler steps and a skipping loop; predicted events in a priority queue); their agreement ranges over all networks and all injected spikes.",
 [A+"simulator.py: Simulator.simulate", A+"predictive_simulator.py: PredSimulator.simulate", A+"networks/functional/subtractor.py: SubtractorNetwork"])
p("C107","The SubtractorNetwork in floating-point arithmetic",
 "With every number a Python float: a SubtractorNetwork given v1 on input1 and v2 on input2 at the same time t0 never makes Simulator.simulate raise, and with time step at most 1/800 ms exactly one of three things happens: output_plus emits v1 - v2 within 6*dt/Tcod and output_minus is silent (always if v2 <= v1, equal operands included); or output_minus emits v2 - v1 within 6*dt/Tcod and output_plus is silent (always if v2 - v1 is at least 0.01 ms plus six steps in time); or both are silent, which happens only if v2 exceeds v1 by less than 0.01 ms plus six steps. With coarser steps up to 1/20 ms the same holds if the operands differ by at least 0.01 ms plus six steps; for equal operands it does not: with dt = 0.01 subtracting 0.051 from itself makes both outputs emit a value.",
 "all operands in [0,1], all encoders with Tmin at least 1 and Tmax at most 2^24 steps, all time steps up to 1/800 (1/20), all start times up to 2^48 steps, all sufficiently long simulation times, every iteration order of the active set and every heap",
 "The arrival steps of the network's 21 synapses depend on how the products k*dt and the sums t + delay round; a test can only sample operands and steps, and the failure for equal operands at dt = 0.01 occurs for some values and not for others.",
 [A+"networks/functional/subtractor.py: SubtractorNetwork", A+"simulator.py: Simulator.simulate", A+"primitives/encoders.py: DataEncoder"])
p("C108","Linear convergence and agreement of the two simulators on compiled programs",
 "For every program of Scalar operations whose values are in range, compiling it, loading the inputs, simulating and decoding the output gives the value of the program up to a constant times the time step, in Simulator as well as in PredSimulator; both runs finish without an exception, the needed simulation time does not depend on the time step, and so the results of the two simulators differ by at most a constant times the time step.",
 "all programs over +, -, * and unary minus with arbitrary nesting and sharing, all inputs whose operations stay in range, all normalisations r up to 100, all sufficiently small time steps (dividing 1 ms where a factor is zero), all sufficiently long simulation times, every iteration order of the active set, every heap",
 "A convergence rate is a statement about all small time steps at once, and agreement must hold for all programs; two tests at two step sizes do not bound the error at a third.",
 [A+"compilation/compiler.py: compile_computation", A+"simulator.py: Simulator.simulate", A+"predictive_simulator.py: PredSimulator.simulate", A+"compilation/scalar.py: Scalar"])
p("C109","Logarithm and exponential in floating-point arithmetic",
 "With every number a Python float: a LogNetwork given v with 6*dt/Tcod < v <= 1 - 7*dt/Tcod, simulated long enough, never makes Simulator.simulate raise and its output spikes exactly twice, with an interval between Tmin + (20-dt)*ln(1/(v + 6*dt/Tcod)) - 6*dt and Tmin + 20*ln(1/(v - 6*dt/Tcod)) + 7*dt; an ExponentialNetwork given any v in [0,1] never makes it raise, spikes exactly twice and the decoded interval is exp(-v*Tcod/20) up to 8*dt/Tcod + 0.3*dt + (Tcod + 6*dt)/20 * dt/(20 - dt), and within 8*dt/Tcod of (1 - dt/20)^n, where n*dt is v*Tcod up to six steps. The networks are those of the exact model with every weight and delay rounded to the nearest float.",
 "all values in the stated ranges, all encoders with Tmin at least 1 ms plus 12 steps, Tcod at least 13 steps (for the exponential at most 300 ms) and Tmax at most 2^24 steps, all time steps up to 1 ms, all start times up to 2^48 steps, all sufficiently long simulation times, every iteration order of the active set and every heap",
 "The potential of the accumulator is a sum of up to millions of rounded increments of a rounded geometric decay; a test can only sample values and steps, and cannot bound the accumulated rounding error.",
 [A+"networks/functional/natural_log.py: LogNetwork", A+"networks/functional/exponential.py: ExponentialNetwork", A+"primitives/elements.py: ExplicitNeuron", A+"simulator.py: Simulator.simulate"])
p("C110","The MultiplierNetwork in floating-point arithmetic",
 "With every number a Python float: a MultiplierNetwork given v1 at time t1 and v2 at time t2, both between 6*dt/Tcod and 1 - 7*dt/Tcod and with 20*ln(1/((v1 - 6*dt/Tcod)*(v2 - 6*dt/Tcod))) at most 343 - 12*dt ms, simulated long enough, never makes Simulator.simulate raise, and its output spikes exactly twice, with an interval that decodes to v1*v2 up to 20*dt/Tcod + 9*dt/20; in particular its zero detector stays silent. The network is that of the exact model with every weight and delay rounded to the nearest float.",
 "all factors in the stated range, all pairs of start times up to 2^48 steps in any order, all encoders with Tmin at least 1 ms plus 12 steps, Tcod at least 13 steps and Tmax at most 2^24 steps, all time steps from 0.0001 to 1 ms (any smaller positive step if the decay takes at most 2^23 steps), all sufficiently long simulation times, every iteration order of the active set and every heap",
 "The result depends on three chained accumulators, each summing up to hundreds of thousands of rounded increments, and on arrival steps that jitter by rounding; a test can only sample factors, start times and steps.",
 [A+"networks/functional/multiplier.py: MultiplierNetwork", A+"primitives/elements.py: ExplicitNeuron", A+"simulator.py: Simulator.simulate", A+"primitives/encoders.py: DataEncoder"])
p("C111","The ScalarMultiplierNetwork in floating-point arithmetic",
 "With every number a Python float: a ScalarMultiplierNetwork with a positive factor f that is given the value v at time t0, where v*Tcod is at least 9 time steps and f*(v*Tcod + 9*dt) is at most Tmax, simulated long enough, never makes Simulator.simulate raise, and its output spikes exactly twice, with an interval that decodes to f*v up to (8*f + 7)*dt/Tcod - whichever of the two weights that reach its second accumulator at the same time is handed over first, although their sum depends on that order. The network is that of the exact model with weights and delays up to a relative error of 3*2^-53.",
 "all positive float factors for which the long ramp takes at most 2^23 steps, all values in the stated range, all start times up to 2^48 steps, all encoders with Tmin at least 1 ms plus 12 steps and Tmax at most 2^24 steps, all time steps up to 1 ms, all sufficiently long simulation times, every iteration order of the active set, every heap and therefore every order of simultaneous arrivals",
 "The result depends on two accumulators summing up to millions of rounded increments with two different slopes, on arrival steps that jitter by rounding, and on the order in which the heap returns equal times; a test sees one order and samples factors, values and steps.",
 [A+"networks/functional/scalar_multiplier.py: ScalarMultiplierNetwork", A+"primitives/elements.py: ExplicitNeuron", A+"simulator.py: Simulator.simulate", A+"primitives/events.py: SpikeEventQueue"])
p("C112","The DivNetwork in floating-point arithmetic",
 "With every number a Python float: a DivNetwork that is given a dividend v1 and a divisor v2, both above 6 time steps of Tcod, with v2 at most 1 - 7*dt/Tcod and v1 clearly below v2 (the divisor is still above the dividend, by 6 steps either side, after g steps of decay with g*dt at least Tneu plus 14 steps; for dt up to 1/800 ms a difference of 12 steps is enough, and so is v1 = v2 at the same time), with 20*ln(1/v1) below 343 ms, simulated long enough, never makes Simulator.simulate raise, and its output spikes exactly twice, with an interval that decodes to v1/v2 up to 8*dt/Tcod + (12*dt/Tcod)/(v2 - 6*dt/Tcod) + 6*dt/5. With the operands clearly in the other order the output never spikes. The network is that of the exact model with weights and delays rounded.",
 "all float operands in the stated range, all pairs of start times up to 2^48 steps, all encoders with Tmin at least 1 ms plus 12 steps, Tcod at least 25 steps and Tmax at most 2^24 steps, all time steps up to 1/20 ms, all sufficiently long simulation times, every iteration order of the active set, every heap",
 "Two logarithms, a subtraction and an exponential are computed one after another by accumulators and gated decays that sum millions of rounded increments, and the sign decision compares two times each of which jitters by rounding; a test samples operands and steps and cannot separate an unlucky rounding from an error.",
 [A+"networks/functional/divider.py: DivNetwork", A+"networks/functional/divider.py: LogAndSyncNetwork", A+"networks/functional/subtractor.py: SubtractorNetwork", A+"networks/functional/exponential.py: ExponentialNetwork", A+"simulator.py: Simulator.simulate"])
p("C113","SignedConstantNetwork and SignedMemoryNetwork in floating-point arithmetic",
 "With every number a Python float: a SignedConstantNetwork with a value in [-1, 1] that is recalled emits the magnitude of the value on the output of its sign, up to 3*dt/Tcod, and its other output never spikes. A SignedMemoryNetwork that is given a magnitude v in [0, 1] on one of its rails at time t0 and is recalled at least Tmax + 2 ms + 10 steps later emits v on the output of the same rail, and at the same time on ready, up to 19*dt/Tcod, and the output of the other rail never spikes. Neither makes Simulator.simulate raise.",
 "all float values in the stated ranges, both signs and both rails, all start and recall times up to 2^48 steps, all encoders with Tmin at least 1 ms plus 19 steps (4 steps for the constant) and Tmax at most 2^24 steps, all time steps up to 1 ms, all sufficiently long simulation times, every iteration order of the active set, every heap",
 "The stored value passes through three accumulator runs of up to millions of rounded increments and ten synapses whose arrival steps jitter by rounding, and the suppression of the other rail depends on the order of excitation and inhibition; tests sample values, recall times and steps.",
 [A+"networks/memory/signed_constant.py: SignedConstantNetwork", A+"networks/memory/signed_memory.py: SignedMemoryNetwork", A+"networks/memory/memory.py: MemoryNetwork", A+"simulator.py: Simulator.simulate"])
p("C114","SynchronizerNetwork in floating-point arithmetic",
 "With every number a Python float: a SynchronizerNetwork of 1 to 316 channels whose inputs each receive one value in [0, 1], at any times and in any order, fires sync exactly once, in a step after the ready spike of every memory; afterwards every output emits exactly two spikes, the first spikes of all outputs fall in the same step, and the interval of each output decodes to the value given to its input up to 19*dt/Tcod. While any input has not been given a value, neither sync nor any output spikes: the sum of the rounded weights (we/N)+0.0001 of fewer than N channels stays below the threshold. Simulator.simulate does not raise.",
 "every number of channels from 1 to 316, all float values in [0, 1] and start times up to 2^48 steps for each channel, every subset of the inputs that is given a value, all encoders with Tmin at least 1 ms plus 19 steps and Tmax at most 2^24 steps, all time steps up to 0.2 ms, all sufficiently long simulation times, every iteration order of the active set, every heap",
 "Whether N rounded weights reach the threshold exactly with the N-th depends on the accumulated rounding for each N, and the N channels interleave in every possible order; tests sample a few sizes and schedules.",
 [A+"networks/connecting/synchronizer.py: SynchronizerNetwork", A+"networks/memory/memory.py: MemoryNetwork", A+"simulator.py: Simulator.simulate"])
p("C115","LinearCombinatorNetwork in floating-point arithmetic: the readout starts only if the rounded weights add up",
 "With every number a Python float: every input of a LinearCombinatorNetwork with N coefficients is given one value in [0, 1] on its plus or its minus rail. If the float sum of N times the float we/N is at least the threshold 10.0, the sync neuron, which starts the readout, spikes exactly once, within four steps of 2 ms after the last input spike of the latest input. If that float sum is below 10.0, sync and the accumulators acc2_plus and acc2_minus, which only sync drives, never spike, whatever the coefficients, values and times. The first case is that of the AdderNetwork (N = 2) and of every power of two up to 2^20; the second happens, e.g., for N = 9. Simulator.simulate does not raise in either case.",
 "all lists of 1 to 2^20 float coefficients of any sign, all float values in [0, 1], rails and start times up to 2^48 steps for each input, all encoders with Tmin at least four steps and Tmax at most 2^24 steps, all time steps of at least 2^-24 ms, all sufficiently long simulation times, every iteration order of the active set, every heap",
 "Whether the network works at all depends on how N roundings of we/N add up, and differs between neighbouring N; tests with N = 2 and N = 3 pass.",
 [A+"networks/functional/linear_combinator.py: LinearCombinatorNetwork", A+"networks/functional/adder.py: AdderNetwork", A+"simulator.py: Simulator.simulate"])
p("C116","The numbers written into the pictures",
 "A number printed with d decimals by the topology view or the drawing of a computation is a nearest fraction with d decimals: off by at most half a unit of the last one, exact for numbers with d decimals, and never smaller for a larger number. In the topology view every edge has exactly one label, '(weight; delay)' of its synapse with three decimals each, and whatever two numbers are read from it are within 0.0005 of weight and delay; differences below that are invisible, e.g. the weight 5.0001 of a synchronizer for two values is shown as 5.000. In draw_comp_graph the box of each value shows the value with four decimals and the box of each operation its sign. After compile_computation each Scalar that loads a value x has its own module with two injection neurons, one of which is the one its trigger names; vis_topology labels both, whatever the sign of x, with <LOAD x> (two decimals), and every other neuron with its uid only.",
 "all rational numbers (every float is one) and numbers of decimals, all networks that can be displayed and set iteration orders, all computation graphs, object addresses and recursion limits not reached, all compiled programs",
 "Rounding, signs and the assignment of texts to neurons must be right for every number and every program; the tests do not look at labels.",
 [A+"visualization/topovis.py: format_edges, format_nodes, vis_topology", A+"compilation/scalar.py: Scalar.draw_comp_graph", A+"compilation/compiler.py: spawn_stick_module, compile_computation"])
p("C117","What the benchmark reports print, also before an exception",
 "benchmark_net(net) succeeds iff every direct submodule is of one of the five classes with published counts. It then prints an introduction, the neuron report, one line 'uid: n spikes' per submodule in the order of attachment, their sum, and the energy report for the published numbers of updates; if the net has neurons of its own a warning precedes the lines. Otherwise it raises ValueError, and what has been printed by then is the introduction, the complete neuron report and the lines of the submodules attached before the first one without published counts: no total and no energy; report_energy_and_latency_estimation_for_net alone prints nothing in that case. For a net that contains itself it raises RecursionError after the introduction and one title. report_neuron_usage prints one line for the module and, unless print_depth is 0, its own neurons and its direct submodules; the total equals the first number and the sum of the indented ones. The energy part never fails and always has the same seventeen lines, whose numbers satisfy energy = power * latency, power = leakage + idle + dynamic power = 0.9 V * current. benchmark_simulation(sim) before simulate raises ValueError without printing anything; after a successful simulate it prints the number of neurons, the number of spikes of the run and the energy report of the V, ge and gf events processed (0 for gates).",
 "all networks built through the API, modules, print depths, counts of updates, and all finished or unfinished predictive simulations",
 "Which lines appear before an exception, and that printed totals equal the sums of the printed parts, must hold for every network and every run; the tests do not look at printed output.",
 [A+"usagereport/usagereport.py: benchmark_net, benchmark_simulation, report_neuron_usage, _print_neurons, report_spike_estimation_for_net, report_energy_and_latency_estimation_for_net, report_spike_usage_for_simulation, report_energy_and_latency_for_simulation, _report_energy_and_latency"])
if __name__=="__main__":
    with open("/verif/properties.jsonl","w") as f:
        for d in P: f.write(json.dumps(d)+"\n")
    print(len(P))
