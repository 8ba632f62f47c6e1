{
 "claims": [
  {
   "property": "C01",
   "status": "proved",
   "theorems": [
    "Axon.C01_round_trip"
   ],
   "note": ""
  },
  {
   "property": "C02",
   "status": "proved",
   "theorems": [
    "Axon.C02_order_isomorphism"
   ],
   "note": ""
  },
  {
   "property": "C03",
   "status": "proved",
   "theorems": [
    "Axon.C03_pop_due_exactly_once",
    "Axon.C03_conservation"
   ],
   "note": ""
  },
  {
   "property": "C04",
   "status": "proved",
   "theorems": [
    "Axon.C04_pop_earliest_batch",
    "Axon.C04_remove_absent",
    "Axon.C04_removed_never_popped"
   ],
   "note": ""
  },
  {
   "property": "C05",
   "status": "proved",
   "theorems": [
    "Axon.C05_len",
    "Axon.C05_pop_decrements_len",
    "Axon.C05_pop_error"
   ],
   "note": ""
  },
  {
   "property": "C06",
   "status": "proved",
   "theorems": [
    "Axon.C06_leaves_in_path_order",
    "Axon.C06_flat_unchanged",
    "Axon.C06_append"
   ],
   "note": ""
  },
  {
   "property": "C07",
   "status": "proved",
   "theorems": [
    "Axon.C07_depth_first",
    "Axon.C07_members",
    "Axon.C07_exactly_once",
    "Axon.C07_recursion_error_iff_cycle"
   ],
   "note": ""
  },
  {
   "property": "C08",
   "status": "proved",
   "theorems": [
    "Axon.C08_neuron_uids",
    "Axon.C08_module_uids"
   ],
   "note": ""
  },
  {
   "property": "C09",
   "status": "proved",
   "theorems": [
    "Axon.C09_owner_map"
   ],
   "note": ""
  },
  {
   "property": "C10",
   "status": "proved",
   "theorems": [
    "Axon.C10_closed_form_open",
    "Axon.C10_closed_form_closed",
    "Axon.C10_spike_iff"
   ],
   "note": ""
  },
  {
   "property": "C11",
   "status": "proved",
   "theorems": [
    "Axon.C11_touches_one_variable",
    "Axon.C11_batch_order_irrelevant"
   ],
   "note": ""
  },
  {
   "property": "C12",
   "status": "proved",
   "theorems": [
    "Axon.C12_flow",
    "Axon.C12_solves_ode",
    "Axon.C12_gate_sign_ignored"
   ],
   "note": ""
  },
  {
   "property": "C13",
   "status": "proved",
   "theorems": [
    "Axon.C13_reset_inert_stepped",
    "Axon.C13_reset_inert_predictive"
   ],
   "note": ""
  },
  {
   "property": "C14",
   "status": "proved",
   "theorems": [
    "Axon.C14_firstStep_is_first",
    "Axon.C14_delivered_exactly_once",
    "Axon.C14_internal_delay"
   ],
   "note": ""
  },
  {
   "property": "C15",
   "status": "proved",
   "theorems": [
    "Axon.C15_skipping_is_sound",
    "Axon.C15_naive_run_exists_unique"
   ],
   "note": ""
  },
  {
   "property": "C16",
   "status": "proved",
   "theorems": [
    "Axon.C16_order_independent"
   ],
   "note": ""
  },
  {
   "property": "C17",
   "status": "proved",
   "theorems": [
    "Axon.C17_injection_order_irrelevant"
   ],
   "note": ""
  },
  {
   "property": "C18",
   "status": "proved",
   "theorems": [
    "Axon.C18_longer_extends_shorter"
   ],
   "note": ""
  },
  {
   "property": "C19",
   "status": "proved",
   "theorems": [
    "Axon.C19_shift_invariance",
    "Axon.C19_needs_positive_arrival_time"
   ],
   "note": "Holds when no injected event is already due at time 0 (proviso in the statement); C19_needs_positive_arrival_time shows the proviso is needed."
  },
  {
   "property": "C20",
   "status": "proved",
   "theorems": [
    "Axon.C20_log_on_grid"
   ],
   "note": ""
  },
  {
   "property": "C21",
   "status": "proved",
   "theorems": [
    "Axon.C21_hit_between_spikes",
    "Axon.C21_spikes_le_hits"
   ],
   "note": ""
  },
  {
   "property": "C22",
   "status": "proved",
   "theorems": [
    "Axon.C22_counters"
   ],
   "note": ""
  },
  {
   "property": "C23",
   "status": "proved",
   "theorems": [
    "Axon.C23_no_crash",
    "Axon.C23_unknown_type",
    "Axon.C23_foreign_target"
   ],
   "note": "Time constants must be non-zero; the two other theorems give the exact errors for unknown synapse types and foreign targets."
  },
  {
   "property": "C24",
   "status": "proved",
   "theorems": [
    "Axon.C24_value_injection"
   ],
   "note": ""
  },
  {
   "property": "C25",
   "status": "proved",
   "theorems": [
    "Axon.C25_second_call_does_not_continue"
   ],
   "note": "The code violates the expected behaviour: the theorem exhibits the violation (a second simulate call starts at step 1 again and does not continue)."
  },
  {
   "property": "C26",
   "status": "proved",
   "theorems": [
    "Axon.C26_unreached_silent",
    "Axon.C26_silence"
   ],
   "note": ""
  },
  {
   "property": "C27",
   "status": "proved",
   "theorems": [
    "Axon.C27_decode_output"
   ],
   "note": ""
  },
  {
   "property": "C28",
   "status": "proved",
   "theorems": [
    "Axon.C28_count_spikes"
   ],
   "note": ""
  },
  {
   "property": "C29",
   "status": "proved",
   "theorems": [
    "Axon.C29_voltage_log"
   ],
   "note": ""
  },
  {
   "property": "C30",
   "status": "proved",
   "theorems": [
    "Axon.C30_prediction_is_crossing"
   ],
   "note": "Needs int(500/dt) < 2^64 (the 64 bisection steps), i.e. dt above about 3e-17."
  },
  {
   "property": "C31",
   "status": "proved",
   "theorems": [
    "Axon.C31_prediction_is_first_crossing"
   ],
   "note": ""
  },
  {
   "property": "C32",
   "status": "proved",
   "theorems": [
    "Axon.C32_time_order",
    "Axon.C32_logs_sorted_after_simulate"
   ],
   "note": ""
  },
  {
   "property": "C33",
   "status": "proved",
   "theorems": [
    "Axon.C33_one_prediction_and_spikes_le_hits"
   ],
   "note": ""
  },
  {
   "property": "C34",
   "status": "proved",
   "theorems": [
    "Axon.C34_terminates",
    "Axon.C34_terminates_normally",
    "Axon.C34_self_excitation_diverges"
   ],
   "note": "Termination with and without exceptions for acyclic networks; divergence proved for every self-exciting neuron."
  },
  {
   "property": "C35",
   "status": "proved",
   "theorems": [
    "Axon.C35_no_rerun"
   ],
   "note": ""
  },
  {
   "property": "C36",
   "status": "proved",
   "theorems": [
    "Axon.C36_value_injection_ignores_t0"
   ],
   "note": "The code violates the expected behaviour; the theorem states what it does instead."
  },
  {
   "property": "C37",
   "status": "proved",
   "theorems": [
    "Axon.C37_report_counts",
    "Axon.C37_report_complete_iff"
   ],
   "note": "The code violates the expected behaviour (gate events are not reported); the theorems state exactly what is reported and when it is complete."
  },
  {
   "property": "C38",
   "status": "proved",
   "theorems": [
    "Axon.C38_engines_agree"
   ],
   "note": "Stated for the neuron update functions of the two engines."
  },
  {
   "property": "C39",
   "status": "proved",
   "theorems": [
    "Axon.C39_sign_flip"
   ],
   "note": ""
  },
  {
   "property": "C40",
   "status": "proved",
   "theorems": [
    "Axon.C40_constant",
    "Axon.C40_signed_constant"
   ],
   "note": ""
  },
  {
   "property": "C41",
   "status": "proved",
   "theorems": [
    "Axon.C41_memory"
   ],
   "note": ""
  },
  {
   "property": "C42",
   "status": "proved",
   "theorems": [
    "Axon.C42_inverting_memory"
   ],
   "note": "The code delays the first output spike by Tneu=0.01 ms, so the recalled value is biased by -Tneu/Tcod; the theorem states the exact interval."
  },
  {
   "property": "C43",
   "status": "proved",
   "theorems": [
    "Axon.C43_signed_memory"
   ],
   "note": "Covers one store/recall on a fresh network. Error at most dt. In floats see C113."
  },
  {
   "property": "C44",
   "status": "proved",
   "theorems": [
    "Axon.C44_synchronizer"
   ],
   "note": "In floats see C114."
  },
  {
   "property": "C45",
   "status": "proved",
   "theorems": [
    "Axon.C45_waits_for_all",
    "Axon.C45_limit"
   ],
   "note": "The claim that it always waits for all inputs holds exactly up to N = 316 (weight slack 0.0001 per input). In floats the bound is the subject of C114."
  },
  {
   "property": "C46",
   "status": "proved",
   "theorems": [
    "Axon.C46_subtractor_plus",
    "Axon.C46_subtractor_minus",
    "Axon.C46_subtractor_dead_zone"
   ],
   "note": "The code has a dead zone of width about Tneu/Tcod where neither output answers; it is proved as part of the claim."
  },
  {
   "property": "C47",
   "status": "proved",
   "theorems": [
    "Axon.C47_log",
    "Axon.C47_log_real"
   ],
   "note": ""
  },
  {
   "property": "C48",
   "status": "proved",
   "theorems": [
    "Axon.C48_exponential",
    "Axon.C48_exponential_real"
   ],
   "note": ""
  },
  {
   "property": "C49",
   "status": "proved",
   "theorems": [
    "Axon.C49_product",
    "Axon.C49_zero",
    "Axon.C49_times_one",
    "Axon.C49_too_small",
    "Axon.C49_product_real"
   ],
   "note": "C49_times_one and C49_too_small prove that the code violates the unrestricted claim. C49_times_one is about exact arithmetic; whether floating-point rounding keeps the accumulator just below its threshold depends on dt and Tcod (e.g. it fires for dt=0.005, Tcod=100 and does not for dt=0.001)."
  },
  {
   "property": "C50",
   "status": "proved",
   "theorems": [
    "Axon.C50_scalar_multiplier"
   ],
   "note": ""
  },
  {
   "property": "C51",
   "status": "proved",
   "theorems": [
    "Axon.C51_signed_scaled_product",
    "Axon.C51_signed_product",
    "Axon.C51_signed_scaled_zero",
    "Axon.C51_signed_zero_ambiguous"
   ],
   "note": "The unrestricted claim is violated for a zero operand of SignedMultiplierNetwork (C51_signed_zero_ambiguous); SignedMultiplierNormNetwork handles zero."
  },
  {
   "property": "C52",
   "status": "proved",
   "theorems": [
    "Axon.C52_linear_combination",
    "Axon.C52_any_result",
    "Axon.C52_dead_zone",
    "Axon.C52_adder"
   ],
   "note": "The subtractor's dead zone makes results slightly below zero disappear (C52_dead_zone); C52_any_result covers results near zero. Exact arithmetic: the sync weight we/N summed N times reaches the threshold exactly; in floats it does not for some N (C115)."
  },
  {
   "property": "C53",
   "status": "proved",
   "theorems": [
    "Axon.C53_zero_silent",
    "Axon.C53_quotient",
    "Axon.C53_reversed_silent",
    "Axon.C53_divisor_one",
    "Axon.C53_quotient_real"
   ],
   "note": "C53_divisor_one proves that the code violates the unrestricted claim for a divisor of exactly 1 (exact arithmetic). C53_zero_silent: an operand of 0 gives no answer (time step dividing the delays). In floats see C112."
  },
  {
   "property": "C54",
   "status": "proved",
   "theorems": [
    "Axon.C54_value",
    "Axon.C54_succeeds_iff",
    "Axon.C54_number_over_scalar",
    "Axon.C54_wrong_type",
    "Axon.C54_graph_ok",
    "Axon.C54_data_ok"
   ],
   "note": "Number/Scalar raises RecursionError (C54_number_over_scalar): the reflected division calls itself."
  },
  {
   "property": "C55",
   "status": "proved",
   "theorems": [
    "Axon.C55_trace_exact",
    "Axon.C55_only_recursion_error",
    "Axon.C55_deep_chain_fails"
   ],
   "note": "Needs a recursion limit above the number of Scalars; C55_deep_chain_fails shows the limit matters."
  },
  {
   "property": "C56",
   "status": "proved",
   "theorems": [
    "Axon.C56_faithful"
   ],
   "note": ""
  },
  {
   "property": "C57",
   "status": "proved",
   "theorems": [
    "Axon.C57_succeeds_iff",
    "Axon.C57_range_error",
    "Axon.C57_positive_range"
   ],
   "note": "Values below -max_range are accepted by the compiler (see C58)."
  },
  {
   "property": "C58",
   "status": "proved",
   "theorems": [
    "Axon.C58_load",
    "Axon.C58_negative_range",
    "Axon.C58_simulates"
   ],
   "note": "The expected 'every compiled plan loads' is violated by values below -max_range; the theorem gives the exact condition."
  },
  {
   "property": "C59",
   "status": "proved",
   "theorems": [
    "Axon.C59_end_to_end",
    "Axon.C59_converges",
    "Axon.C59_expression"
   ],
   "note": "Excluded (the network cannot do them, see C49, C51, C52): sums in the dead zone just below zero, computed zero factors (loaded zeros are covered when dt divides 1 ms), factors of exactly max_range, products too small for the decay. Exact arithmetic. How fast the error vanishes with dt, and agreement with the predictive simulator: C108."
  },
  {
   "property": "C60",
   "status": "proved",
   "theorems": [
    "Axon.C60_regular",
    "Axon.C60_strassen",
    "Axon.C60_sum",
    "Axon.C60_agree"
   ],
   "note": ""
  },
  {
   "property": "C61",
   "status": "proved",
   "theorems": [
    "Axon.C61_usage_totals"
   ],
   "note": ""
  },
  {
   "property": "C62",
   "status": "proved",
   "theorems": [
    "Axon.C62_spike_estimation",
    "Axon.C62_energy_counts",
    "Axon.C62_compiled"
   ],
   "note": "C62_compiled specialises to compiled programs: per-operation sums over the reachable Scalars."
  },
  {
   "property": "C63",
   "status": "proved",
   "theorems": [
    "Axon.C63_formula",
    "Axon.C63_errors",
    "Axon.C63_monotone",
    "Axon.C63_energy"
   ],
   "note": ""
  },
  {
   "property": "C64",
   "status": "proved",
   "theorems": [
    "Axon.C64_lossless",
    "Axon.C64_range",
    "Axon.C64_outside"
   ],
   "note": "The final rounding to three decimals is not part of this claim. The printed text, with its rounding, is C102."
  },
  {
   "property": "C65",
   "status": "proved",
   "theorems": [
    "Axon.C65_display",
    "Axon.C65_foreign_target"
   ],
   "note": "The labels of the edges: C116."
  },
  {
   "property": "C66",
   "status": "proved",
   "theorems": [
    "Axon.C66_groups"
   ],
   "note": ""
  },
  {
   "property": "C67",
   "status": "proved",
   "theorems": [
    "Axon.C67_length",
    "Axon.C67_before_first",
    "Axon.C67_holds_last"
   ],
   "note": ""
  },
  {
   "property": "C68",
   "status": "proved",
   "theorems": [
    "Axon.C68_print_depth_ineffective"
   ],
   "note": ""
  },
  {
   "property": "C69",
   "status": "proved",
   "theorems": [
    "Axon.C69_chronogram_faithful"
   ],
   "note": ""
  },
  {
   "property": "C70",
   "status": "proved",
   "theorems": [
    "Axon.C70_heapq",
    "Axon.C70_drains_sorted"
   ],
   "note": ""
  },
  {
   "property": "C71",
   "status": "proved",
   "theorems": [
    "Axon.C71_spike_estimation_exact",
    "Axon.C71_small_steps"
   ],
   "note": "Within the budget of C59 (C71_spike_estimation_exact) or, over the reals, for in-range values and small steps (C71_small_steps). A multiplication by a loaded zero emits fewer spikes (27 or 28 in simulations; not proved)."
  },
  {
   "property": "C72",
   "status": "proved",
   "theorems": [
    "Axon.C72_rounded_run",
    "Axon.C72_doubles"
   ],
   "note": "Doubles are modelled as rationals with 53 significant bits and round-to-nearest-even (Model/Double, Model/DoubleOps); no overflow, underflow, signed zeros. C72_rounded_run holds for any arithmetic with the laws of Spec.RoundedArith, C72_doubles is the instance."
  },
  {
   "property": "C73",
   "status": "proved",
   "theorems": [
    "Axon.C73_arrival_within_one_step",
    "Axon.C73_injected",
    "Axon.C73_jitter"
   ],
   "note": "C73_jitter is the concrete deviation. Consequence for users: equal synapses do not always take the same number of steps, so the exact-arithmetic answers of C39-C59 can be off by steps in a real run."
  },
  {
   "property": "C74",
   "status": "proved",
   "theorems": [
    "Axon.C74_number_of_steps",
    "Axon.C74_grid_time",
    "Axon.C74_loses_last_step"
   ],
   "note": "C74_loses_last_step is the concrete loss."
  },
  {
   "property": "C75",
   "status": "proved",
   "theorems": [
    "Axon.C75_round_trip",
    "Axon.C75_monotone"
   ],
   "note": ""
  },
  {
   "property": "C76",
   "status": "proved",
   "theorems": [
    "Axon.C76_hit_between_spikes",
    "Axon.C76_unreached_silent"
   ],
   "note": ""
  },
  {
   "property": "C77",
   "status": "proved",
   "theorems": [
    "Axon.C77_lives_on_its_input"
   ],
   "note": ""
  },
  {
   "property": "C78",
   "status": "proved",
   "theorems": [
    "Axon.C78_computes_the_behaviour",
    "Axon.C78_unique",
    "Axon.C78_logs_are_consistent"
   ],
   "note": ""
  },
  {
   "property": "C79",
   "status": "proved",
   "theorems": [
    "Axon.C79_only_the_spikes_matter"
   ],
   "note": ""
  },
  {
   "property": "C80",
   "status": "proved",
   "theorems": [
    "Axon.C80_constant",
    "Axon.C80_sign_flip"
   ],
   "note": ""
  },
  {
   "property": "C81",
   "status": "proved",
   "theorems": [
    "Axon.C81_memory",
    "Axon.C81_memory_exact"
   ],
   "note": ""
  },
  {
   "property": "C82",
   "status": "proved",
   "theorems": [
    "Axon.C82_inverting_memory"
   ],
   "note": ""
  },
  {
   "property": "C83",
   "status": "proved",
   "theorems": [
    "Axon.C83_signed_memory"
   ],
   "note": ""
  },
  {
   "property": "C84",
   "status": "proved",
   "theorems": [
    "Axon.C84_scalar_multiplier",
    "Axon.C84_scalar_zero"
   ],
   "note": ""
  },
  {
   "property": "C85",
   "status": "proved",
   "theorems": [
    "Axon.C85_subtractor"
   ],
   "note": ""
  },
  {
   "property": "C86",
   "status": "proved",
   "theorems": [
    "Axon.C86_log",
    "Axon.C86_log_zero",
    "Axon.C86_exponential"
   ],
   "note": ""
  },
  {
   "property": "C87",
   "status": "proved",
   "theorems": [
    "Axon.C87_multiplier",
    "Axon.C87_multiplier_zero"
   ],
   "note": ""
  },
  {
   "property": "C88",
   "status": "proved",
   "theorems": [
    "Axon.C88_counters_from_log",
    "Axon.C88_energy_table"
   ],
   "note": "Finding: the published V update counts are too low (42 per multiplication against 48, operand edges not counted); the statement says by how much. Multiplications by a loaded zero are excluded."
  },
  {
   "property": "C89",
   "status": "proved",
   "theorems": [
    "Axon.C89_signed_multiplier",
    "Axon.C89_signed_zero_ambiguous"
   ],
   "note": "Finding: with a zero operand the answer is ambiguous (C89_signed_zero_ambiguous), as in the stepped engine (C51)."
  },
  {
   "property": "C90",
   "status": "proved",
   "theorems": [
    "Axon.C90_quotient",
    "Axon.C90_divisor_one",
    "Axon.C90_reversed_silent",
    "Axon.C90_zero_silent"
   ],
   "note": "Findings: a divisor of exactly 1 gives an answer about 5% too small (C90_divisor_one); a zero dividend is not answered (C90_zero_silent)."
  },
  {
   "property": "C91",
   "status": "proved",
   "theorems": [
    "Axon.C91_synchronizer",
    "Axon.C91_synchronizer_values",
    "Axon.C91_waits_for_all"
   ],
   "note": "The bound 316 is the same as in the stepped engine (C45): it comes from the weight we/N + 1e-4. In floats see C114."
  },
  {
   "property": "C92",
   "status": "proved",
   "theorems": [
    "Axon.C92_linear_combination",
    "Axon.C92_any_times",
    "Axon.C92_dead_zone"
   ],
   "note": "The dead zone of C46/C52/C85 is inherited from the subtractor; C92_dead_zone proves the silence. Exact arithmetic; for floats see C115."
  },
  {
   "property": "C93",
   "status": "proved",
   "theorems": [
    "Axon.C93_use_again",
    "Axon.C93_another_time"
   ],
   "note": "The converse matters: a network that does not return to rest (for example the multiplier after a product with a zero factor) is outside this theorem, see C94."
  },
  {
   "property": "C94",
   "status": "proved",
   "theorems": [
    "Axon.C94_products",
    "Axon.C94_after_zero"
   ],
   "note": "C94_after_zero is a defect of the network: the two logarithm neurons stay charged just below threshold with their gates open, and the next use makes them fire at once."
  },
  {
   "property": "C95",
   "status": "proved",
   "theorems": [
    "Axon.C95_register",
    "Axon.C95_differences"
   ],
   "note": "A difference in the dead zone leaves two neurons of the subtractor at -10 and is excluded."
  },
  {
   "property": "C96",
   "status": "proved",
   "theorems": [
    "Axon.C96_signed_register",
    "Axon.C96_one_sign",
    "Axon.C96_loses"
   ],
   "note": "C96_loses is a defect of the network: a stored value inhibits the rail of the other sign by twice two thresholds, and the recall gives back only half of it."
  },
  {
   "property": "C97",
   "status": "proved",
   "theorems": [
    "Axon.C97_used_again"
   ],
   "note": "Stepped counterpart of C93. What is left over from the first use are voltages only; C25 shows that a second simulate call does not continue the first."
  },
  {
   "property": "C98",
   "status": "proved",
   "theorems": [
    "Axon.C98_register"
   ],
   "note": "Stepped counterpart of C95_register."
  },
  {
   "property": "C99",
   "status": "proved",
   "theorems": [
    "Axon.C99_graph",
    "Axon.C99_foreign_target"
   ],
   "note": "Uses the uids of C08 and the display/groups of C65/C66. The labels of the edges: C116."
  },
  {
   "property": "C100",
   "status": "proved",
   "theorems": [
    "Axon.C100_port",
    "Axon.C100_colours"
   ],
   "note": "C100_colours includes a defect: with VIS=1 a network with a single neuron makes simulate raise after the simulation. The port model assumes that the set of free ports does not change during the search."
  },
  {
   "property": "C101",
   "status": "proved",
   "theorems": [
    "Axon.C101_drawing"
   ],
   "note": "Names are id() followed by the operation label; the proof shows that they cannot collide. Layout attributes are not modelled. The labels: C116."
  },
  {
   "property": "C102",
   "status": "proved",
   "theorems": [
    "Axon.C102_text",
    "Axon.C102_report"
   ],
   "note": "The text shows 1000.000 m for 0.9999996 (rounding after the choice of the prefix; example). Arithmetic before formatting is exact."
  },
  {
   "property": "C103",
   "status": "proved",
   "theorems": [
    "Axon.C103_end_to_end",
    "Axon.C103_converges",
    "Axon.C103_expression"
   ],
   "note": "PredSimulator has no init_with_plan; the user injects plan.triggers and decodes with decode_output. Real.exp is the exponential; the time step must be large enough for the 500 ms search horizon to have fewer than 2^64 steps (Sane). Same exclusions as C59. Agreement with the time-stepped simulator: C108."
  },
  {
   "property": "C104",
   "status": "proved",
   "theorems": [
    "Axon.C104_memory",
    "Axon.C104_inverting_memory",
    "Axon.C104_sign_flip",
    "Axon.C104_constant",
    "Axon.C104_same_networks"
   ],
   "note": "Floats are modelled as rationals with 53 significant bits, round to nearest even, no overflow and no subnormals (as in C72-C76). The constructors are transcribed with float literals and float operations (Verif/Model/FloatNets.lean); C104_same_networks relates them to the exact ones."
  },
  {
   "property": "C105",
   "status": "proved",
   "theorems": [
    "Axon.C105_terminates",
    "Axon.C105_one_behaviour",
    "Axon.C105_memories",
    "Axon.C105_scalar_multiplier",
    "Axon.C105_products",
    "Axon.C105_synchronizer",
    "Axon.C105_subtractor_zero_never_ends"
   ],
   "note": "Strengthens C34 (which needs a network without any cycle; all the library networks have inhibitory self-loops). The subtractor, and with it the adder, linear combinator and divider, contains the self-exciting neuron zero and is not covered by the theorem; C105_subtractor_zero_never_ends shows that it cannot be."
  },
  {
   "property": "C106",
   "status": "proved",
   "theorems": [
    "Axon.C106_engines_agree",
    "Axon.C106_subtractor_exact"
   ],
   "note": "For synapses of type ge the engines differ by one step (C38), and for gf by the Euler error, so the restriction to V is essential. The agreement of results (not spikes) on compiled programs follows from C59 and C103."
  },
  {
   "property": "C107",
   "status": "proved",
   "theorems": [
    "Axon.C107_subtractor",
    "Axon.C107_nonnegative",
    "Axon.C107_positive",
    "Axon.C107_negative",
    "Axon.C107_dead_zone",
    "Axon.C107_coarse_equal",
    "Axon.C107_same_network"
   ],
   "note": "The positive cases C107_nonnegative, C107_positive, C107_negative and C107_dead_zone follow from C107_subtractor. C107_coarse_equal is a negative result about the pinned code: at dt = 0.01, the step used by the module's own demonstration, the delays Tneu = 0.01 and 2*Tneu of the zero detector can land in the same step (k*dt + 0.01 > (k+1)*dt in floats), so it never fires and both rails answer; measured on 1000 equal operands this happens for 263 of them."
  },
  {
   "property": "C108",
   "status": "proved",
   "theorems": [
    "Axon.C108_linear",
    "Axon.C108_simulators_agree",
    "Axon.C108_expression"
   ],
   "note": "C108_linear strengthens the convergence of C59 (epsilon-delta there) to a linear rate; C108_simulators_agree combines it with C103. The range conditions are those of C59 and C103 (products above the multiplier's smallest value or exactly zero). Values are exact reals."
  },
  {
   "property": "C109",
   "status": "proved",
   "theorems": [
    "Axon.C109_log_steps",
    "Axon.C109_exponential",
    "Axon.C109_log",
    "Axon.C109_exponential_real",
    "Axon.C109_same_networks"
   ],
   "note": "C109_log_steps and C109_exponential state the result in whole steps of decay, C109_log and C109_exponential_real against the real functions. The forward error of the rounded decay is at most 63*k*2^-53 after k steps (v_err), so only the discretisation and the rounding of arrival steps matter. Tcod <= 300 ms for the exponential keeps what is left of the decay above the rounding error."
  },
  {
   "property": "C110",
   "status": "proved",
   "theorems": [
    "Axon.C110_product_steps",
    "Axon.C110_product",
    "Axon.C110_product_real",
    "Axon.C110_same_network"
   ],
   "note": "C110_product_steps states the result in whole steps of decay, C110_product with a number M of steps that suffice for the decay, C110_product_real with the real logarithm. Zero factors and factors of exactly 1 in floats are not covered (see C49, C53 for the exact arithmetic)."
  },
  {
   "property": "C111",
   "status": "proved",
   "theorems": [
    "Axon.C111_rescale",
    "Axon.C111_same_network"
   ],
   "note": "Values smaller than nine steps (including 0, for which the two accumulators race, see C50 and C84) and negative factors are not covered in floats."
  },
  {
   "property": "C112",
   "status": "proved",
   "theorems": [
    "Axon.C112_quotient_steps",
    "Axon.C112_quotient",
    "Axon.C112_quotient_fine",
    "Axon.C112_reversed_silent",
    "Axon.C112_same_network"
   ],
   "note": "Operands within a few steps of 0 or 1 are not covered in floats: see C53 (zero operands, divisor exactly 1) and C90 for the exact model."
  },
  {
   "property": "C113",
   "status": "proved",
   "theorems": [
    "Axon.C113_signed_memory",
    "Axon.C113_signed_constant",
    "Axon.C113_same_memory"
   ],
   "note": "One value and one recall from rest; reuse of the memory is C96-C98 in the exact model."
  },
  {
   "property": "C114",
   "status": "proved",
   "theorems": [
    "Axon.C114_synchronizer",
    "Axon.C114_waits_for_all",
    "Axon.C114_same_network"
   ],
   "note": "C114_waits_for_all speaks about simulations long enough for every channel to finish storing. For more than 316 channels see C45."
  },
  {
   "property": "C115",
   "status": "proved",
   "theorems": [
    "Axon.C115_sync",
    "Axon.C115_nine_inputs",
    "Axon.C115_two_inputs",
    "Axon.C115_powers_of_two",
    "Axon.C115_same_network"
   ],
   "note": "A defect of the code: SynchronizerNetwork adds 0.0001 to we/N, LinearCombinatorNetwork does not, so it never reads out for N = 9 (also 11, 14, 15, 17, ...). C52/C92 are about exact arithmetic, where N * (we/N) = we. What acc1 and the outputs do is not part of C115."
  },
  {
   "property": "C116",
   "status": "proved",
   "theorems": [
    "Axon.C116_numbers",
    "Axon.C116_edges",
    "Axon.C116_hidden",
    "Axon.C116_drawing",
    "Axon.C116_loads"
   ],
   "note": "Negative zero, infinities and NaN are not modelled. That both rails of an injection module carry the same <LOAD x>, also the one that never gets a spike, is what the code does."
  },
  {
   "property": "C117",
   "status": "proved",
   "theorems": [
    "Axon.C117_neuron_usage",
    "Axon.C117_energy",
    "Axon.C117_net",
    "Axon.C117_simulation",
    "Axon.C117_cyclic",
    "Axon.C117_single_reports"
   ],
   "note": "The digits of the one float printed with str (the latency) are not modelled; its value is. That gate events are reported as 0 is what the code does (C37)."
  }
 ]
}