STATUS={}
NOTES={
"C65":"The labels of the edges: C116.",
"C44":"In floats see C114.",
"C19":"Holds when no injected event is already due at time 0 (proviso in the statement); C19_needs_positive_arrival_time shows the proviso is needed.",
"C23":"Time constants must be non-zero; the two other theorems give the exact errors for unknown synapse types and foreign targets.",
"C25":"The code violates the expected behaviour: the theorem exhibits the violation (a second simulate call starts at step 1 again and does not continue).",
"C30":"Needs int(500/dt) < 2^64 (the 64 bisection steps), i.e. dt above about 3e-17.",
"C34":"Termination with and without exceptions for acyclic networks; divergence proved for every self-exciting neuron.",
"C36":"The code violates the expected behaviour; the theorem states what it does instead.",
"C37":"The code violates the expected behaviour (gate events are not reported); the theorems state exactly what is reported and when it is complete.",
"C38":"Stated for the neuron update functions of the two engines.",
"C42":"The code delays the first output spike by Tneu=0.01 ms, so the recalled value is biased by -Tneu/Tcod; the theorem states the exact interval.",
"C43":"Covers one store/recall on a fresh network. Error at most dt. In floats see C113.",
"C45":"The claim that it always waits for all inputs holds exactly up to N = 316 (weight slack 0.0001 per input). In floats the bound is the subject of C114.",
"C46":"The code has a dead zone of width about Tneu/Tcod where neither output answers; it is proved as part of the claim.",
"C49":"C49_times_one and C49_too_small prove that the code violates the unrestricted claim. C49_times_one is about exact arithmetic; whether floating-point rounding keeps the accumulator just below its threshold depends on dt and Tcod (e.g. it fires for dt=0.005, Tcod=100 and does not for dt=0.001).",
"C51":"The unrestricted claim is violated for a zero operand of SignedMultiplierNetwork (C51_signed_zero_ambiguous); SignedMultiplierNormNetwork handles zero.",
"C52":"The subtractor's dead zone makes results slightly below zero disappear (C52_dead_zone); C52_any_result covers results near zero. Exact arithmetic: the sync weight we/N summed N times reaches the threshold exactly; in floats it does not for some N (C115).",
"C53":"C53_divisor_one proves that the code violates the unrestricted claim for a divisor of exactly 1 (exact arithmetic). C53_zero_silent: an operand of 0 gives no answer (time step dividing the delays). In floats see C112.",
"C54":"Number/Scalar raises RecursionError (C54_number_over_scalar): the reflected division calls itself.",
"C55":"Needs a recursion limit above the number of Scalars; C55_deep_chain_fails shows the limit matters.",
"C57":"Values below -max_range are accepted by the compiler (see C58).",
"C58":"The expected 'every compiled plan loads' is violated by values below -max_range; the theorem gives the exact condition.",
"C59":"Excluded (the network cannot do them, see C49, C51, C52): sums in the dead zone just below zero, computed zero factors (loaded zeros are covered when dt divides 1 ms), factors of exactly max_range, products too small for the decay. Exact arithmetic. How fast the error vanishes with dt, and agreement with the predictive simulator: C108.",
"C62":"C62_compiled specialises to compiled programs: per-operation sums over the reachable Scalars.",
"C64":"The final rounding to three decimals is not part of this claim. The printed text, with its rounding, is C102.",
"C71":"Within the budget of C59 (C71_spike_estimation_exact) or, over the reals, for in-range values and small steps (C71_small_steps). A multiplication by a loaded zero emits fewer spikes (27 or 28 in simulations; not proved).",
"C72":"Doubles are modelled as rationals with 53 significant bits and round-to-nearest-even (Model/Double, Model/DoubleOps); no overflow, underflow, signed zeros. C72_rounded_run holds for any arithmetic with the laws of Spec.RoundedArith, C72_doubles is the instance.",
"C73":"C73_jitter is the concrete deviation. Consequence for users: equal synapses do not always take the same number of steps, so the exact-arithmetic answers of C39-C59 can be off by steps in a real run.",
"C74":"C74_loses_last_step is the concrete loss.",
"C88":"Finding: the published V update counts are too low (42 per multiplication against 48, operand edges not counted); the statement says by how much. Multiplications by a loaded zero are excluded.",
"C89":"Finding: with a zero operand the answer is ambiguous (C89_signed_zero_ambiguous), as in the stepped engine (C51).",
"C90":"Findings: a divisor of exactly 1 gives an answer about 5% too small (C90_divisor_one); a zero dividend is not answered (C90_zero_silent).",
"C91":"The bound 316 is the same as in the stepped engine (C45): it comes from the weight we/N + 1e-4. In floats see C114.",
"C92":"The dead zone of C46/C52/C85 is inherited from the subtractor; C92_dead_zone proves the silence. Exact arithmetic; for floats see C115.",
"C93":"The converse matters: a network that does not return to rest (for example the multiplier after a product with a zero factor) is outside this theorem, see C94.",
"C94":"C94_after_zero is a defect of the network: the two logarithm neurons stay charged just below threshold with their gates open, and the next use makes them fire at once.",
"C95":"A difference in the dead zone leaves two neurons of the subtractor at -10 and is excluded.",
"C96":"C96_loses is a defect of the network: a stored value inhibits the rail of the other sign by twice two thresholds, and the recall gives back only half of it.",
"C97":"Stepped counterpart of C93. What is left over from the first use are voltages only; C25 shows that a second simulate call does not continue the first.",
"C98":"Stepped counterpart of C95_register.",
"C99":"Uses the uids of C08 and the display/groups of C65/C66. The labels of the edges: C116.",
"C100":"C100_colours includes a defect: with VIS=1 a network with a single neuron makes simulate raise after the simulation. The port model assumes that the set of free ports does not change during the search.",
"C101":"Names are id() followed by the operation label; the proof shows that they cannot collide. Layout attributes are not modelled. The labels: C116.",
"C102":"The text shows 1000.000 m for 0.9999996 (rounding after the choice of the prefix; example). Arithmetic before formatting is exact.",
"C103":"PredSimulator has no init_with_plan; the user injects plan.triggers and decodes with decode_output. Real.exp is the exponential; the time step must be large enough for the 500 ms search horizon to have fewer than 2^64 steps (Sane). Same exclusions as C59. Agreement with the time-stepped simulator: C108.",
"C104":"Floats are modelled as rationals with 53 significant bits, round to nearest even, no overflow and no subnormals (as in C72-C76). The constructors are transcribed with float literals and float operations (Verif/Model/FloatNets.lean); C104_same_networks relates them to the exact ones.",
"C105":"Strengthens C34 (which needs a network without any cycle; all the library networks have inhibitory self-loops). The subtractor, and with it the adder, linear combinator and divider, contains the self-exciting neuron zero and is not covered by the theorem; C105_subtractor_zero_never_ends shows that it cannot be.",
"C106":"For synapses of type ge the engines differ by one step (C38), and for gf by the Euler error, so the restriction to V is essential. The agreement of results (not spikes) on compiled programs follows from C59 and C103.",
"C107":"The positive cases C107_nonnegative, C107_positive, C107_negative and C107_dead_zone follow from C107_subtractor. C107_coarse_equal is a negative result about the pinned code: at dt = 0.01, the step used by the module's own demonstration, the delays Tneu = 0.01 and 2*Tneu of the zero detector can land in the same step (k*dt + 0.01 > (k+1)*dt in floats), so it never fires and both rails answer; measured on 1000 equal operands this happens for 263 of them.",
"C108":"C108_linear strengthens the convergence of C59 (epsilon-delta there) to a linear rate; C108_simulators_agree combines it with C103. The range conditions are those of C59 and C103 (products above the multiplier's smallest value or exactly zero). Values are exact reals.",
"C109":"C109_log_steps and C109_exponential state the result in whole steps of decay, C109_log and C109_exponential_real against the real functions. The forward error of the rounded decay is at most 63*k*2^-53 after k steps (v_err), so only the discretisation and the rounding of arrival steps matter. Tcod <= 300 ms for the exponential keeps what is left of the decay above the rounding error.",
"C110":"C110_product_steps states the result in whole steps of decay, C110_product with a number M of steps that suffice for the decay, C110_product_real with the real logarithm. Zero factors and factors of exactly 1 in floats are not covered (see C49, C53 for the exact arithmetic).",
"C111":"Values smaller than nine steps (including 0, for which the two accumulators race, see C50 and C84) and negative factors are not covered in floats.",
"C112":"Operands within a few steps of 0 or 1 are not covered in floats: see C53 (zero operands, divisor exactly 1) and C90 for the exact model.",
"C113":"One value and one recall from rest; reuse of the memory is C96-C98 in the exact model.",
"C114":"C114_waits_for_all speaks about simulations long enough for every channel to finish storing. For more than 316 channels see C45.",
"C115":"A defect of the code: SynchronizerNetwork adds 0.0001 to we/N, LinearCombinatorNetwork does not, so it never reads out for N = 9 (also 11, 14, 15, 17, ...). C52/C92 are about exact arithmetic, where N * (we/N) = we. What acc1 and the outputs do is not part of C115.",
"C116":"Negative zero, infinities and NaN are not modelled. That both rails of an injection module carry the same <LOAD x>, also the one that never gets a spike, is what the code does.",
"C117":"The digits of the one float printed with str (the latency) are not modelled; its value is. That gate events are reported as 0 is what the code does (C37)."
}
