# Formal model of google/distbench in Lean 4

The properties are in `properties.jsonl`, the claims in `MANIFEST.json`, and the record of tests against
wrong programs in `seeded/LOG.jsonl`.

## Layout

* `lean/Verif/Model/*.lean`  the model, one file for each area.  Each definition cites the C++ it models and says where it simplifies.
* `lean/Verif/Spec/*.lean`   small specifications, written without the functions of the model that they judge.
* `lean/Verif/Lemmas/*.lean` helper lemmas.
* `lean/Verif/Props/*.lean`  the property theorems; beside each an `example` that meets its hypotheses.

`cd lean && lake build` builds everything.  All files use core Lean only, but for `Lemmas/LoopsCancelMark.lean`, which uses the Dershowitz-Manna order of Mathlib.

## Trusted base

* Lean 4.33.0's kernel.
* The axioms `propext`, `Classical.choice` and `Quot.sound`, and no others.  No `sorry`, `native_decide` or `bv_decide`
  and no axioms of our own.  The list of properties below gives, after each theorem, the axioms that
  `#print axioms` reports: p = `propext`, c = `Classical.choice`, q = `Quot.sound`, - = none.
* The translation of the C++ to Lean, made by reading.  Nothing was extracted, built or run.
* The assumptions about what is not modelled, listed next.

## Tests against wrong programs

`seeded/LOG.jsonl` has a line for each edit that was tried: `failed` lists the theorems and lemmas whose proofs
broke ("example" for an example), `tightened` what was added because the edit survived at first, and
`blocked_properties` the property theorems that use a broken lemma.  The last is computed from the constants each
checked proof term uses.  Up to commit 4590829 it was computed by matching names and listed many theorems that do
not depend on the broken lemma; these entries have been recomputed.  An edit that breaks a proof shows that the proof
depends on the edited code; it does not show by itself that the statement is false of the edited program.

## How the code is modelled

* Functions without shared state are total functions on lists, numbers, options and records.
* Code with threads is a transition system.  A step is a critical section the code delimits with a mutex, an
  atomic operation, or a callback.  Theorems quantify over all runs of any length, for any number of threads
  and RPCs.  Memory is sequentially consistent: relaxed atomics are not modelled more weakly.
* Integers are unbounded unless the width matters to the property; then the range is a hypothesis, or
  wrap-around and overflow are modelled.
* Undefined behaviour, a failed `CHECK` and an error status are distinct outcomes.
* Random draws are arbitrary values within the contract of the standard library's distributions.
* Times are whole nanoseconds.  Floating point probabilities are rational numbers; rounding is not modelled.
* Failures of the network and of libraries are events that may happen at any point.
* Bugs are modelled as they are.  Where the code does not have a property, the manifest says "partial": a theorem
  with the suffix `_partial` states the part that holds, and a further theorem refutes the full property with a
  concrete witness.

## Parts that are modelled, and parts that are not

| source | modelled | not modelled |
|--------|----------|--------------|
| distbench_engine.cc, .h | everything but what is on the right | log messages, wording of some errors, names of threads |
| distbench_test_sequencer.cc, .h | registration, placement, the rounds of RPCs, sequences, concurrency, cancelling, shutdown | gRPC itself, `Initialize` beyond what is cited |
| distbench_node_manager.cc, .h | control RPCs, services, results, aliases, arguments, both mutexes | gRPC itself |
| distbench_utils.cc | names, settings, distributions, constraints, resource usage, copies, reading and writing of files, status conversions | protobuf's text parser and printer, thread names |
| distbench_payload.cc | everything | protobuf's own serializer, given by its wire format |
| distbench_netutils.cc | choice and printing of addresses | `getifaddrs`, `getnameinfo` |
| distbench_summary.cc | everything but the text layout | `absl::StrFormat` |
| distbench_threadpool.cc | simple and elastic pools | the Mercury pool |
| distbench_thread_support.cc | everything | pthreads |
| distbench_busybox.cc | arguments, `check_test`, timeouts, `run_tests`, `test_preview`, dispatch of the command name, exit statuses | help texts, flag parsing by abseil |
| activity.cc | accepting, creating and running activities, their metrics | what the work does to caches |
| joint_distribution_sample_generator.cc | everything | the random generator |
| protocol_driver.cc, protocol_driver_allocator.cc | waits, choice and allocation of drivers | the lists of known drivers of other builds |
| protocol_driver_grpc.cc | options, three clients, polling server, shutdown and lifetimes of the others | gRPC itself: completion order and failures are arbitrary |
| protocol_driver_homa.cc | threads, RPCs, shutdown | the Homa library and kernel module |
| protocol_driver_mercury.cc | client, message format | the Mercury library, server side |
| protocol_driver_double_barrel.cc, composable_rpc_counter.cc | everything but log messages | |
| analysis/results_conversion.py | samples, summaries, files of a test, default, statistics and trace formats, exit status | the Homa format (floating point), floating point in percentiles, creation of directories |
| test_builder/test_builder | parameters, drivers and patterns, sweeps, names, attributes, what distbench reads from the text, reuse of results | the pattern homa_cp_node, help texts, arithmetic expressions as values, overload limits, running of the tests |
| homa_experiments/cp_node_analysis.py | reading of latencies, digest, axis and curves | the drawing by matplotlib |
| workloads/*.sh | options, the call of distbench and its test, exit statuses | the text of the usage |
| start_distbench_localhost.sh | options, processes and ports, exit status | the build, signals |
| git_clone_or_update.sh | everything, over a model of the git commands it uses | git itself, crashes in the middle of a git command |
| deploy_to_cloudlab.sh | choice of the network device, check and mirror of the local repository, the number of nodes, the processes on them | installation of packages, ssh |
| setup_mercury.sh | the directories and links of the installations, interrupted at any point | fetching (see git_clone_or_update.sh) and building |
| tests, benchmarks, build files | nothing | |

## Properties: what is modelled, how it is proved, what is proved

### Payloads and their encoding

Model: `Model/Payload.lean`. Theorems: `Props/Payload.lean`.

Byte lists; `ReadVarInt`, `MakeVarInt`, padding and metadata length as recursive functions.  Induction on the number of 7-bit groups and over the fields of a message; size classes of varints by case analysis.

* **C01 Varint encode/decode round trip** — proved. `C01_varint_roundtrip` (pcq), `C01_varIntSize_class` (pq). All 2^64 values, any surrounding bytes and buffer end.
* **C02 Varint decoding never over-reads and rejects truncated input** — proved. `C02_readVarInt_total` (pcq), `C02_truncated_rejected` (pcq). Complete characterisation on arbitrary buffers, out-of-bounds reads are a distinct outcome.
* **C03 Padding reaches the requested serialized size** — proved. `C03_addPadding_size` (pq). Includes the exact result for the targets that cannot be met.
* **C04 Zero-copy serialization is a faithful serialization** — proved. `C04_serializeToCord_faithful` (pq), `C04_zeroCopy_identical` (pq). Protobuf wire format of GenericRequestResponse modelled; WF says integers and strings fit the proto types.
* **C05 Metadata length of a fragment locates the payload** — partial. `C05_metaDataLength_partial` (pcq), `C05_homa_fastParse_partial` (pcq), `C05_no_payload_aborts` (pcq), `C05_negative_length_hangs` (pcq), `C05_homa_large_metadata_aborts` (pcq). Proved for fragments that reach the payload header. The full property is false: payload-less fragments abort, crafted ones loop; both proved.

### Services, instance names, name tables, settings

Model: `Model/Services.lean`, `Model/Basic.lean`. Theorems: `Props/Services.lean`.

Grid arithmetic by the laws of division; names by a decimal round trip; tables as folds over lists, by induction.

* **C06 Grid coordinates and instance numbers are inverse** — proved. `C06_grid_instance_bijection` (pcq). Includes absence of integer overflow.
* **C07 Instance names identify instances** — proved. `C07_name_roundtrip` (pcq), `C07_names_unique` (pcq), `C07_slash_names_collide` (pq). The slash-free hypothesis is shown necessary.
* **C08 Service canonicalization makes count and shape agree** — proved. `C08_canonical_iff` (pcq), `C08_accepted_consistent` (pcq), `C08_mismatch_rejected` (pcq). Exact acceptance condition; signed overflow is a separate outcome.
* **C09 Name tables assign dense unique indices** — proved. `C09_service_indices` (pq), `C09_service_sizes` (pq), `C09_service_lookup` (pcq), `C09_rpc_indices` (pq), `C09_instance_ids` (pcq), `C09_duplicate_names_collide` (p). Distinct names are a hypothesis of the property; shown necessary.
* **C10 Named setting lookup** — proved. `C10_string_setting` (pcq), `C10_int_setting` (pcq). Exact characterisation of the returned value.
* **C58 Canonicalization is idempotent** — partial. `C58_canonical_idempotent_partial` (pcq), `C58_not_idempotent` (pq). Proved for positive counts or explicit sizes; false otherwise, with witness.

### Distributions

Model: `Model/Distribution.lean`. Theorems: `Props/Distribution.lean`.

Probabilities are rational numbers with NaN as a separate value: rounding is not modelled.  Draws are arbitrary within the contract of the standard library.  Induction over the points and over the fields.

* **C11 Distribution validation accepts exactly the valid distributions** — proved. `C11_cdf_accepted_iff` (pcq), `C11_pmf_accepted_iff` (pcq), `C11_exactly_one` (pcq), `C11_total` (pcq). Acceptance characterised exactly for finite numbers; float addition rounds by an arbitrary function.
* **C12 CDF conversion preserves the distribution** — proved. `C12_exact` (pcq), `C12_uniform` (pcq), `C12_intervals_cover` (pq). Exact arithmetic (rounding function = id).
* **C13 Field reordering keeps the joint distribution** — proved. `C13_reorder` (pcq), `C13_missing_rejected` (pcq), `C13_idempotent` (pcq). Any number of points, fields and any rounding.
* **C14 Samples lie in the configured support** — proved. `C14_pmf_support` (pcq), `C14_cdf_exact_support` (pcq), `C14_cdf_uniform_support` (pcq), `C14_scalar_needs_one_dimension` (pq). Random draws are arbitrary choices within the std:: contracts.
* **C59 Only real probabilities are accepted** — partial. `C59_cdf_nonneg_partial` (pcq), `C59_negative_pmf_accepted` (pcq), `C59_nan_accepted` (pcq). True for finite CDFs; false for PMFs and NaN, with witnesses.
* **C60 64-bit value ranges are honoured** — partial. `C60_in_range_partial` (pq), `C60_wide_bounds_truncated` (pcq), `C60_max_value_overflows` (pcq). Holds for exact values and 32-bit bounds; false beyond, with witnesses.

### Constraints and placement

Model: `Model/Placement.lean`. Theorems: `Props/Placement.lean`.

C++ `%` as `Int.tmod` with an undefined outcome for zero; the solver as the loops of the code.  Loop invariants; counterexamples for the greedy choice.

* **C15 Constraint semantics** — proved. `C15_constraint_semantics` (pq), `C15_verdict_sound` (pq), `C15_integer_text` (pq), `C15_missing_attribute` (p). Verdict equals the independently stated semantics.
* **C16 Placement puts every service instance on exactly one node** — proved. `C16_exactly_one_node` (pcq), `C16_every_node_listed` (pq), `C16_names_distinct` (pcq). Any problem with distinct names; wildcard matching is an arbitrary function.
* **C17 Placement honours node bundles** — proved. `C17_bundles_honoured` (pcq), `C17_bad_bundles_rejected` (pq), `Sequencer.C17_in_a_test` (pcq).
* **C18 Placement honours constraints** — proved. `C18_constraints_honoured` (pcq), `C18_explicit_wins` (pcq), `Sequencer.C18_in_a_test` (pcq). Constraint satisfaction is the specification of C15, not the checker.
* **C19 Placement spreads unbundled services over distinct nodes** — proved. `C19_distinct_nodes` (pcq), `C19_enough_nodes` (pcq).
* **C61 Checking constraints always gives a verdict** — partial. `C61_verdict_partial` (pq), `C61_unset_modulus_undefined` (pcq). True for usable moduli; an unset modulus divides by zero (witness).
* **C62 Bundled and constrained instances are placed once** — partial. `C62_at_least_one_partial` (pcq), `C62_placed_twice` (pcq). Existence proved; uniqueness false, with witness.
* **C63 Placement finds a placement if there is one** — partial. `C63_unconstrained_complete_partial` (pcq), `C63_greedy_fails` (pcq). Complete without constraints; greedy choice fails otherwise, with witness.

### Fan-out

Model: `Model/Fanout.lean`. Theorems: `Props/Fanout.lean`.

The parser and the choice of targets as functions of the draws.  Arithmetic, bijections, and invariants over a sequence of iterations.

* **C20 Fan-out targets are valid and exclude self** — proved. `C20_targets_eligible` (pcq). All filters; random draws arbitrary within their contract.
* **C21 Fan-out all reaches every peer once** — proved. `C21_all_once` (pcq), `C21_order` (pcq).
* **C22 Round-robin fan-out is fair** — proved. `C22_round_robin_fair` (pcq), `C22_sequential` (pq). Iterations one after the other; overlapping ones are C64.
* **C23 Random fan-out can reach exactly the eligible targets** — proved. `C23_random_uniform` (pcq). Bijection between draws and eligible instances, and the draw requested has exactly that range.
* **C24 Stochastic fan-out picks distinct random targets** — partial. `C24_stochastic_count_partial` (pcq), `C24_all_to_instance_zero` (pcq), `C24_duplicate_targets` (pcq). Only the number of RPCs is right; every target is instance 0, proved.
* **C25 Ring fan-out forms cycles** — proved. `C25_ring_target` (pcq), `C25_alternating_target` (pcq), `C25_cycle` (pcq), `C25_unique_sender` (pcq). Axis lengths below 2^30.
* **C26 Linear fan-out stays in range and within distance** — proved. `C26_linear_target` (pcq). Coordinate plus distance within int.
* **C27 Same-coordinate fan-out selects exactly the matching hyperplane** — proved. `C27_same_coordinates` (pcq).
* **C64 Round-robin stays fair when iterations overlap** — partial. `C64_sequential_partial` (pq), `C64_overlapping_iterations_collide` (-). True one after the other; false when overlapping (witness schedule).
* **C65 Same-coordinate filters between services of different shapes** — partial. `C65_same_filters_in_range_partial` (pcq), `C65_out_of_range_target` (pcq). True when the sender lies in the server's grid; false otherwise, with witness.
* **C66 Fan-out filter texts denote the filter they name** — proved. `C66_plain_names` (pcq), `C66_linear_distance` (pcq), `C66_stochastic_wellformed` (pcq), `C66_stochastic_text` (pcq), `C66_unknown_rejected` (pcq). absl::SimpleAtof is an arbitrary function.
* **C67 Malformed linear distances are rejected** — partial. `C67_bad_distance_rejected_partial` (pq), `C67_missing_distance_accepted` (pcq). Rejects non-numbers; accepts a missing number and trailing text, with witnesses.

### Action lists that are accepted

Model: `Model/Tables.lean`. Theorems: `Props/Tables.lean`.

The resolution of names as a fold that keeps the first error.  Induction over the list of actions.

* **C28 Accepted action lists have acyclic resolvable dependencies** — proved. `C28_accepted` (pcq), `C28_rejected` (pcq), `C28_targets` (pcq), `C28_errors` (pcq), `C28_complete` (pcq). Covers payload overrides; the payload names of RPCs are covered by C69.
* **C258 Every RPC finds a place in the log of its action list** — proved. `C258_lists` (pcq), `Whole.C258_rows` (pcq), `Whole.C258_place` (pcq). For tests without multi-server channels; the RPCs of replay traces are recorded elsewhere.

### Running an action list

Model: `Model/ActionList.lean`, `Model/Tables.lean`. Theorems: `Props/ActionList.lean`.

A transition system whose steps are the critical sections of the list's thread and of the callbacks.  Inductive invariants over `Run`.

* **C29 An action starts only after its dependencies** — proved. `C29_order` (pcq), `C29_finish` (pcq), `C29_delay` (pcq). Transition system of the list's thread, callbacks on other threads, cancellation and the clock.
* **C31 Exactly one response per RPC** — proved. `C31_once` (pcq), `C31_always` (pcq), `C31_when` (pcq).
* **C32 Predicates gate actions** — proved. `C32_draws` (pq), `C32_predicates` (pcq), `C32_all` (pcq). Skipping is specified inductively from the predicates and dependencies alone.
* **C77 Running an action list never aborts the process** — partial. `C77_partial` (pcq), `C77_logs_partial` (pcq), `C77_skipped_activity` (pcq), `C77_empty_action` (pcq), `C77_open_loop_activity` (pcq). Three witnesses of aborts or invalid memory accesses.
* **C78 Response size overrides** — proved. `C78_override` (pcq).

### Progress of action lists

Model: `Model/ActionList.lean`. Theorems: `Props/Progress.lean`.

A step is enabled in every state that is not over, and a measure bounds the number of steps (progress and termination for all schedules).

* **C30 Action lists make progress and terminate** — proved. `C30_progress` (pcq), `C30_not_stuck` (pcq). Weak fairness of the list's thread and a clock that advances; aborts are C77, actions that never finish C79.
* **C79 A started RPC action can finish** — partial. `C79_can_finish_partial` (pcq), `C79_wrong_client_hangs` (pcq), `C79_no_peers_hangs` (pcq). Holds when this service is a client of the RPC and the server has instances; two witnesses otherwise.

### Iterations of an action

Model: `Model/Iterations.lean`. Theorems: `Props/Iterations.lean`.

Transition system over mutex-delimited steps, any number of threads.  Inductive invariants over the ledger of starts and ends.

* **C33 Closed-loop iteration counts are exact** — proved. `C33_exact` (pcq), `C33_never_more` (pcq), `C33_report_last` (pcq), `C33_ends` (pcq).
* **C34 Parallelism bound** — proved. `C34_bound` (pcq), `C34_full` (pcq).
* **C35 Cancellation stops new iterations** — proved. `C35_cancel` (pcq), `C35_time_limit` (pcq), `C35_once` (pcq), `C35_ends` (pcq). Closed-loop actions; open-loop ones are C83.
* **C36 Warmup marking** — proved. `C36_iteration` (pcq), `C36_chain` (pq). Chains of RPCs and nested lists; replayed traces are a separate property.

### Samples and logs

Model: `Model/Sampling.lean`, `Model/Logs.lean`. Theorems: `Props/Sampling.lean`.

Recording as a function of the sample number; induction over the records, permutation invariance, counting.  Probabilities (C87) as counts over all sequences of draws.

* **C37 Latency sample retention** — proved. `Sampling.C37_retained` (pcq), `Sampling.C37_all_when_few` (pcq), `Sampling.C37_unlimited` (pcq), `Sampling.C37_completes` (pcq). The limit is per run of an action list.
* **C38 Sample retention does not depend on completion order** — proved. `Sampling.C38_order_independent` (pcq).
* **C39 Error dictionary** — proved. `Sampling.C39_value` (pcq), `Sampling.C39_stable` (pcq), `Sampling.C39_contents` (pcq).
* **C86 Samples describe the RPC they were taken from** — proved. `Sampling.C86_same_sample` (pcq), `Sampling.C37_retained` (pcq), `Sampling.C37_unlimited` (pcq). Absent fields count as their default values.
* **C87 Every RPC has the same chance of being sampled** — proved. `Sampling.C87_uniform` (pcq), `Sampling.C87_all_draws` (pcq), `Sampling.C87_draws_possible` (pcq). Counting statement over all draws that the uniform distribution makes equally likely.
* **C88 The log of a service instance is complete** — proved. `Logs.C88_logs_complete` (pcq), `Logs.C88_nothing_else` (pcq).

### Trace replay

Model: `Model/Replay.lean`. Theorems: `Props/Replay.lean`.

The thread of `Run` and the callbacks as steps.  Inductive invariants; possibility of ending by construction of a run.

* **C40 Replay executes each record of this client exactly once** — proved. `Replay.C40_at_most_once` (pcq), `Replay.C40_defaults` (pq), `Replay.C40_done` (pcq), `Replay.C40_samples` (pcq), `Replay.C40_starts` (pcq), `Replay.C40_ends` (pcq), `Replay.C40_bounded` (pcq), `Replay.C40_moves` (pcq).
* **C41 Replay respects prior-RPC dependencies** — proved. `Replay.C41_after_starts` (pcq), `Replay.C41_after_ends` (pcq), `Replay.C41_absolute` (pcq).
* **C89 Replay delay counts from the latest end** — partial. `Replay.C89_latest_partial` (pcq), `Replay.C89_latest_false` (pq). Proved when callbacks take the lock in the order of the end times; refuted otherwise.
* **C90 Every accepted trace is replayed to its end** — partial. `Replay.C90_ends_partial` (pcq), `Replay.C90_stuck` (pcq), `Replay.C90_ends_false` (pcq). Exactly the traces whose records with distances are timed relative to prior RPCs can end; refuted for the others.
* **C91 Without distances the preceding RPC is meant** — partial. `Replay.C91_explicit_partial` (pcq), `Replay.C91_no_distances` (pcq), `Replay.C91_preceding_false` (pq). Holds with an explicit distance 0; refuted without one.
* **C92 Replayed RPCs have the recorded sizes** — partial. `Replay.C92_sizes_partial` (pcq), `Replay.C92_channel` (pcq), `Replay.C92_sizes_false` (p). Holds for RPCs to a server instance; refuted over multi-server channels.

### Configurations

Model: `Model/Tables.lean`. Theorems: `Props/Config.lean`.

Exact acceptance conditions of `InitializeTables` and its parts by case analysis and induction.

* **C42 Accepted traces only reference existing instances and records** — partial. `C42_accepted_iff_partial` (pq), `C42_valid_accepted` (pcq), `C42_tables_partial` (pcq), `C42_out_of_range_accepted` (pcq). Exact acceptance condition; index = count, negative indices and any distance are accepted, with a witness.
* **C68 Accepted activities are runnable** — partial. `C68_accepted_runnable_partial` (pcq), `C68_unknown_rejected` (pcq), `C68_wrapped_size_accepted` (pcq), `C68_accepted` (pcq). Holds for sizes that fit 32 bits; witness for 2^32.
* **C69 RPC payload sizes are the configured ones** — partial. `C69_sizes_partial` (pcq), `C69_large_size_wrapped` (pcq). Holds for sizes below 2^31; witness above.
* **C70 Unknown multi-server channels are rejected** — partial. `C70_channel_partial` (pcq), `C70_unknown_channel_undefined` (pcq). Undefined behaviour in the error path, with a witness.
* **C71 Predicate names do not start with an exclamation mark** — partial. `C71_predicates_partial` (pcq), `C71_bang_accepted` (pcq). Swapped arguments of StartsWith; witness.
* **C72 An action runs the RPC it names** — partial. `C72_rpc_by_name_partial` (pcq), `C72_duplicate_names_shift` (pcq). Needs distinct RPC names; witness for a duplicate.
* **C73 Drawing from accepted distributions does not abort** — partial. `C73_scalar_draws_partial` (pcq), `C73_joint_size_distribution_aborts` (pcq). Delays and one-dimensional sizes never abort; witness for two dimensions.
* **C74 RPCs are bound to their handler, clients and servers** — proved. `C74_rpc_bindings` (pcq).
* **C75 A validated configuration is accepted by every engine** — proved. `C75_validated_everywhere` (pcq), `C75_empty_name_aborts` (pcq). An empty service name aborts the check instead of being rejected.
* **C76 Canonical descriptions** — proved. `C76_canonical_description` (pcq).
* **C253 The names of the fields of a distribution decide their use** — proved. `C253_joint_sizes` (pcq), `C253_single_sizes` (pcq), `C253_delays` (pcq). For distributions given by probabilities, with finite numbers and 32-bit intervals (see C59, C60); those given by a CDF have one value for all fields (C12).

### The test sequencer

Model: `Model/Sequencer.lean`. Theorems: `Props/Sequencer.lean`.

Registration as a fold over requests; rounds of RPCs as functions of the answers; concurrent `RunTestSequence` calls as a transition system over the mutex.

* **C43 Node registration gives unique ids and aliases** — proved. `Sequencer.C43_unique` (pcq), `Sequencer.C43_rejected` (pcq), `Sequencer.C43_answer` (pcq), `Sequencer.C43_table` (pcq). Over all histories of registrations. A node is identified by its registration; NewStub does not fail and the table has fewer than 2^31 entries.
* **C44 One test sequence at a time** — proved. `Sequencer.C44_one_at_a_time` (pcq), `Sequencer.C44_starts_alone` (pcq), `Sequencer.C44_arrival_cancels` (pcq), `Sequencer.C44_cancelled_stops` (pcq). Over all interleavings of any number of calls; each critical section of the mutex is one step.
* **C45 Sequence results are a prefix** — proved. `Sequencer.C45_running` (pcq), `Sequencer.C45_answer` (pcq). Includes cancelled sequences and results too big to send. Outcomes of the tests, the summary and the size of the response are arbitrary functions.
* **C46 A node failure fails the test** — proved. `Sequencer.C46_succeeds_iff` (pcq), `Sequencer.C46_error_names_node` (pcq). For tests whose timeout attribute, if present, is a number (otherwise the test fails with that error after the second round).
* **C100 Registration is defined for every request** — partial. `Sequencer.C100_defined_partial` (pcq), `Sequencer.C100_largest_id` (pcq). False of the code: a node that asks for id 2147483647 makes node_id + 1 overflow. Proved for every other request.
* **C101 Every registered node takes part in every round of a test** — proved. `Sequencer.C101_every_node` (pcq), `Sequencer.C101_rounds_in_order` (pcq).
* **C102 Nodes are introduced to the right endpoints** — proved. `Sequencer.C102_endpoints` (pcq). For problems as in C16: distinct instance names, and no instance both bundled and constrained (see C62).
* **C103 Registrations during a test do not bring the sequencer down** — proved. `Sequencer.C103_no_abort` (pcq). Undefined behaviour from overflowing sizes or modulus 0 is the subject of other properties.
* **C104 Every RunTestSequence call is answered** — proved. `Sequencer.C104_bounded` (pcq), `Sequencer.C104_never_stuck` (pcq). Fairness of the scheduler and that each test ends are assumptions of the English property.
* **C105 A sequence is cancelled only for a newer request** — partial. `Sequencer.C105_other_call_partial` (pcq), `Sequencer.C105_older_cancels_newer` (pcq). False of the code: a call that has waited longer can cancel a newer one that took over first. Proved: only another call cancels.
* **C106 Endpoints tell the place in the grid** — proved. `Sequencer.C106_grid_attributes` (pcq).
* **C254 A test needs a positive thread limit** — proved. `Sequencer.C254_thread_limit` (pcq).

### Thread pools

Model: `Model/Threadpool.lean`. Theorems: `Props/Threadpool.lean`.

A critical section is one operation; lists of operations of any length.  Inductive invariants.

* **C47 Thread pools run every task exactly once** — proved. `Threadpool.C47_elastic_once` (pcq), `Threadpool.C47_elastic_destroyed` (pcq), `Threadpool.C47_elastic_never_stuck` (pcq), `Threadpool.C47_elastic_decreases` (pq), `Threadpool.C47_simple_once` (pcq), `Threadpool.C47_simple_destroyed` (pcq), `Threadpool.C47_simple_never_stuck` (pcq), `Threadpool.C47_simple_decreases` (pq), `Threadpool.C47_null_once` (pq), `Threadpool.C47_null_destroyed` (pq), `Threadpool.C47_null_never_stuck` (pcq), `Threadpool.C47_null_decreases` (pq). Each critical section of the mutex is one step. Tasks are assumed to end and the scheduler to be fair: then never_stuck and decreases give completion.
* **C48 Elastic pool never strands a queued task** — partial. `Threadpool.C48_idle_worker_partial` (pcq), `Threadpool.C48_stranded` (p). False of the code for sizes of three and more. Proved for sizes one and two; the bound on idle workers is C120.
* **C119 A task waits only when enough threads exist** — proved. `Threadpool.C119_enough_threads` (pcq).
* **C120 Surplus idle threads retire** — proved. `Threadpool.C120_idle_bound` (pcq), `Threadpool.C120_time_limit` (pcq), `Threadpool.C120_retires` (pcq).
* **C121 Thread pool statistics** — proved. `Threadpool.C121_stats` (pcq).
* **C122 Thread pool creation** — proved. `Threadpool.C122_create` (pcq). The mercury type, if compiled in, is not modelled.

### Overload protection

Model: `Model/Overload.lean`. Theorems: `Props/Overload.lean`.

Operations under the mutex, and the read of the callback outside of it as a separate step.

* **C49 Overload callback fires at most once** — proved. `Overload.C49_once` (p), `Overload.C49_exceeds` (pq), `Overload.C49_calls` (pq).
* **C123 Exceeding the thread limit is always noticed** — proved. `Overload.C123_noticed` (pq).
* **C124 The overload callback exists when it is called** — partial. `Overload.C124_callback_partial` (pq), `Overload.C124_broken` (p). False of the code: the callback is read without the mutex and can be removed between check and call. Proved if nothing is configured in between.

### Choice of protocol drivers; composite drivers

Model: `Model/Drivers.lean`. Theorems: `Props/Drivers.lean`.

Allocation as a function with a depth counter; composite drivers as functions of the sequence of calls.

* **C50 Protocol driver allocation terminates** — proved. `Drivers.C50_terminates` (pcq), `Drivers.C50_too_deep` (pcq), `Drivers.C50_cycle` (pcq), `Drivers.C50_within` (pcq). The resolver and the initialisation of real drivers are arbitrary functions.
* **C51 Double barrel balances the two instances** — proved. `Drivers.C51_alternates` (pq), `Drivers.C51_balance` (pcq). Atomic int wraps around in the model.
* **C52 RPC counters count every RPC** — proved. `Drivers.C52_counts` (pcq), `Drivers.C52_stats` (pcq). Statement made precise: the client counter is incremented when the call returns (see C141).
* **C135 An allocated protocol driver is the one described** — proved. `Drivers.C135_built` (pcq), `Drivers.C135_unique` (pcq).
* **C136 Composite drivers hand down the options** — proved. `Drivers.C136_composites` (pcq).
* **C137 Driver options that do not exist are refused** — partial. `Drivers.C137_partial` (pcq), `Drivers.C137_negation` (pcq). False of the code: the error is dropped and the service silently gets the default protocol without settings. Proved for names used as protocol names.
* **C138 The driver options of a service** — proved. `Drivers.C138_named` (pcq), `Drivers.C138_default` (pcq), `Drivers.C138_generated` (pcq), `Drivers.C138_empty` (pcq).
* **C139 Every driver has a network device** — partial. `Drivers.C139_partial` (pcq), `Drivers.C139_negation` (pcq). False of the code: options reached through an alias are not completed. Proved without aliases or if every entry names a device.
* **C140 Both connections to a peer are used equally** — partial. `Drivers.C140_partial` (pcq), `Drivers.C140_negation` (pq). False of the code: alternation is over all RPCs, not per peer. Proved for a single peer.
* **C141 A completed RPC is in the client count** — partial. `Drivers.C141_partial` (pcq), `Drivers.C141_negation` (pq). False of the code: the counter is incremented after the call returns. Proved: short by no more than the calls under way.
* **C142 Statistics of the double barrel** — proved. `Drivers.C142_stats` (pcq).

### Network addresses

Model: `Model/Netutils.lean`. Theorems: `Props/Netutils.lean`.

Addresses as texts; the ranking as a function; characterisations by case analysis.

* **C53 Address selection** — proved. `Netutils.C53_usable` (pcq), `Netutils.C53_fails_iff` (pcq), `Netutils.C53_family` (pcq), `Netutils.C53_version` (pcq).
* **C112 Link-local addresses are never chosen** — partial. `Netutils.C112_never_partial` (pcq), `Netutils.C112_chosen` (pcq). False of the code: of 169.254.0.0/16 only 169.254.255.0/24 is recognised.
* **C113 An address of the demanded IP version is found** — partial. `Netutils.C113_found_partial` (pcq), `Netutils.C113_not_found` (pcq). Proved for named devices. False without a device: a private IPv4 address ties with an IPv6 address and hides it.
* **C114 Private addresses are preferred** — partial. `Netutils.C114_private_partial` (pcq), `Netutils.C114_private_missed` (pcq), `Netutils.C114_public_preferred` (pcq), `Netutils.isPrivate_quad` (pcq). False of the code: 172.17 to 172.31 are not recognised and 172.160 to 172.169 are taken for private. Proved for the other networks; isPrivate_quad is the exact set.
* **C115 Loopback addresses rank below all others** — partial. `Netutils.C115_loopback_last_partial` (pcq), `Netutils.C115_loopback_chosen` (pcq). False of the code: a private address on the loopback device can tie with an address of another device. Proved for loopback addresses not taken for private.
* **C116 Socket address texts are unambiguous** — proved. `Netutils.C116_determined` (pcq). For non-negative ports and IPv4 texts without brackets.
* **C117 Bind addresses** — proved. `Netutils.C117_bind` (pcq), `Netutils.C117_announced` (pcq). The interfaces are assumed not to change during the call.
* **C118 6to4 addresses rank like the IPv4 address in them** — proved. `Netutils.C118_6to4` (pcq), `Netutils.isPrivate_quad` (pcq).

### The summary of a result

Model: `Model/Summary.lean`. Theorems: `Props/Summary.lean`.

Folds over the logs; a specification by counting and sorting.

* **C54 Latency summary reports order statistics** — proved. `Summary.C54_ranks` (pcq), `Summary.C54_in_order` (pcq). Ranks for up to 2^42 samples, order and membership for any number; double arithmetic is modelled exactly (53 bits, ties to even).
* **C125 One latency line for each RPC** — proved. `Summary.C125_one_line` (pcq), `Summary.C54_ranks` (pcq).
* **C126 One traffic line for each pair** — proved. `Summary.C126_traffic` (pcq), `Summary.C126_every_pair` (pcq).
* **C127 Warmup RPCs are left out of the RPC rates** — partial. `Summary.C127_measured_partial` (pcq), `Summary.C127_counts_warmup` (pcq). False of the code: warmup RPCs are counted but their sizes and times are not. Proved for pairs without warmup samples.
* **C128 Bytes sent and received balance** — proved. `Summary.C128_instance` (pcq), `Summary.C128_balance` (pcq).
* **C129 Global counts of samples** — proved. `Summary.C129_counts` (pcq).
* **C130 All warmup samples are counted** — partial. `Summary.C130_warmups_partial` (pcq), `Summary.C130_failed_warmup` (pcq). False of the code: failed warmup samples are not counted.
* **C131 Rates are over the longest measured time** — proved. `Summary.C131_time` (pcq), `Summary.C131_empty` (pcq).
* **C132 A test with samples has a summary** — partial. `Summary.C132_summary_partial` (pcq), `Summary.C132_no_summary` (pcq). False of the code: if all RPCs fail the summary is empty. Proved if a measured RPC took time.
* **C133 The summary does not depend on map order** — proved. `Summary.C133_order` (pcq).
* **C134 A summary is always made** — proved. `Summary.C134_defined` (pcq). int64 does not overflow in the model.

### Requests and responses

Model: `Model/Handler.lean`, `Model/ActionList.lean`. Theorems: `Props/Handler.lean`.

Functions for the contents; transition systems for answering and cancelling.

* **C55 Trace context records the path** — proved. `Handler.C55_path` (pcq), `Handler.C55_lengths` (pcq). For the first 2^31 iterations of each RPC (see C93).  Replay logs are C97.
* **C56 Cancellation keeps the first reason** — proved. `Handler.C56_first` (pcq), `Handler.C56_peers` (pcq).
* **C93 Tracing interval** — partial. `Handler.C93_interval_partial` (pcq), `Handler.C93_interval_false` (p). Proved for the first 2^31 iterations, refuted after.
* **C94 Contents of requests** — proved. `Handler.C94_requests` (pq), `Handler.C94_made` (q).
* **C95 Every request is answered once** — proved. `Handler.C95_once` (pcq), `Handler.C95_cancelled` (pcq), `Handler.C95_rejected` (pcq), `Handler.C95_handled` (pcq), `Handler.C95_list_size` (pq), `Handler.C95_joint` (pcq). That a list answers once is C31.
* **C96 Replayed RPCs are answered** — partial. `Handler.C96_answered_partial` (pcq), `Handler.C96_unanswered` (pcq), `Handler.C96_answered_false` (pcq). Answered (with an error) only over channels or after cancellation; refuted otherwise.
* **C97 Replay logs tell where they come from** — partial. `Handler.C97_place_partial` (p), `Handler.C97_lengths_false` (pcq), `Handler.C97_warmup_false` (-). False of the code for the lengths and the warmup mark, with witnesses. Proved for the place.
* **C98 Overload spreads one hop** — proved. `Handler.C98_spreads` (pcq), `Handler.C98_one_hop` (pcq).
* **C99 Limit on pending RPCs** — partial. `Handler.C99_limit_partial` (pq), `Handler.C99_enforced` (pq), `Handler.C99_limit_false` (-). Only-if proved with running callbacks counted; refuted for RPCs in flight.

### Timeouts

Model: `Model/Timeout.lean`. Theorems: `Props/Timeout.lean`.

Functions on `Int` with the conversions of the code.

* **C57 Test sequence timeout** — proved. `Timeout.C57_sum` (pcq), `Timeout.C57_default` (pcq), `Timeout.C57_error` (pcq).
* **C107 Negative timeouts are refused** — partial. `Timeout.C107_negative_refused_partial` (pcq), `Timeout.C107_smallest_accepted` (pcq). False of the code: -9223372036854775808 is taken for an absent timeout. Proved for all other negative timeouts.
* **C108 The sequence timeout is always computed** — partial. `Timeout.C108_defined_partial` (pcq), `Timeout.C108_overflow` (pcq). False of the code: the sum overflows. Proved when the sums of the timeouts fit in 64 bits.
* **C109 The client waits as long as the tests may take** — partial. `Timeout.C109_client_waits_partial` (pcq), `Timeout.C109_too_short` (pcq). False of the code: one test without a timeout makes the client wait one hour in all. Proved when all tests give one.
* **C110 A test may run for its timeout** — partial. `Timeout.C110_deadline_partial` (pcq), `Timeout.C110_long_timeout_lost` (pcq). False of the code: seconds are converted to a 32-bit int. Proved below 2^31 seconds.
* **C111 The maximum test duration flag overrides all timeouts** — proved. `Timeout.C111_flag_overrides` (pcq).

### Open loops and cancellation of iterations

Model: `Model/Iterations.lean`. Theorems: `Props/OpenLoop.lean`.

The same transition system with timer events.  Invariants; witnesses by explicit runs.

* **C80 Activities run as often as configured** — proved. `C80_exact` (pcq), `C80_ends` (pcq).
* **C81 Open-loop iteration counts are exact** — proved. `C81_never_more` (pcq), `C81_once` (pcq), `C81_progress` (pcq).
* **C82 Open-loop start times** — proved. `C82_constant` (pcq), `C82_sync_burst` (pcq). Times in whole nanoseconds.
* **C83 Cancelled open-loop actions finish exactly once** — partial. `C83_in_flight_partial` (pcq), `C83_cancelled_between` (pcq), `C83_reported_twice` (pcq). Holds if an iteration is running and none is ending at the moment of cancellation and no further one is started; two witnesses otherwise.
* **C84 Every accepted iteration count works** — partial. `C84_sensible_partial` (pcq), `C84_hang` (pcq), `C84_abort` (pcq). Holds for positive values; witnesses for zero, 2^32 and negative values.
* **C85 Iteration counters never overflow** — partial. `C85_short_partial` (pcq), `C85_overflow` (pcq). Holds for fewer than 2^31-1-parallelism iterations; witness with 2^31.
* **C299 The iteration counter of an open loop** — partial. `C299_short_partial` (pcq), `C299_overflow` (pcq). Holds for fewer than 2^31-1 iterations; witness with 2^31-1.

### Peers and multi-server channels

Model: `Model/Peers.lean`. Theorems: `Props/Peers.lean`.

The table of peers as a fold over introductions; induction.

* **C143 The table of peers after introductions** — proved. `C143_peer_table` (pcq). Hypotheses: accepted services with distinct slash-free names, one endpoint for each instance (shown satisfiable by sample_introduced).
* **C144 RPCs go to the instance they are meant for** — proved. `C144_right_connection` (pcq).
* **C145 A failed connection fails the introductions** — proved. `C145_connection_failures_reported` (pcq).
* **C146 The members of a multi-server channel** — proved. `C146_channel_members` (pcq).
* **C147 Unusable channels are refused** — proved. `C147_unusable_channels_refused` (pcq).
* **C148 Negative instance numbers in a channel are refused** — partial. `C148_selection_in_range_partial` (pcq), `C148_negation` (pcq). False of the code: a negative number is an out-of-range index (undefined behaviour). Proved: introductions that succeed have all selections in range.
* **C149 An RPC that names a channel uses that channel** — partial. `C149_named_channel_partial` (pcq), `C149_negation` (pcq). False of the code: the RPC uses the position among its server's channels, channels are numbered over all services. Proved when no earlier service has channels.
* **C150 Channel numbers of a replay trace** — partial. `C150_trace_channels_partial` (pcq), `C150_negation` (p). False of the code: unknown names are skipped and shift the rest. Proved if all names are known.

### The gRPC driver: options and clients

Model: `Model/Grpc.lean`. Theorems: `Props/Grpc.lean`.

Options by case analysis; clients as transition systems with completion events in any order.

* **C151 Which gRPC client and server a driver has** — proved. `Grpc.C151_driver_kind` (pcq).
* **C152 grpc_async_callback means callback client and handoff server** — partial. `Grpc.C152_async_partial` (pcq), `Grpc.C152_negation` (pcq). False of the code: the default depends on the name of the options being grpc_async, not on the protocol. Proved for options with that name.
* **C153 gRPC connects to the servers of a channel** — partial. `Grpc.C153_targets_partial` (pcq), `Grpc.C153_negation` (pcq). False of the code for addresses of both versions: the scheme is that of the first. Proved for addresses of one version.
* **C154 Server settings reach gRPC unchanged** — partial. `Grpc.C154_arguments_partial` (pq), `Grpc.C154_negation` (p). False of the code: numbers are cut to 32 bits. Proved for numbers that fit.
* **C155 The gRPC client calls each done callback once** — proved. `Grpc.C155_one_callback` (pcq).
* **C156 What a done callback sees** — proved. `Grpc.C156_callback_sees` (pcq).
* **C157 ShutdownClient waits for all RPCs** — proved. `Grpc.C157_shutdown` (pcq).
* **C158 Samples describe the request** — partial. `Grpc.C158_request_partial` (pcq), `Grpc.C158_negation` (pq). False of the code for failed RPCs: the request was moved out of the state. Proved for successful RPCs.
* **C159 A failed RPC has no response** — partial. `Grpc.C159_failure_partial` (pcq), `Grpc.C159_negation` (pq). False of the code: the response of an earlier RPC with the same state is still there. Proved if no earlier RPC with the state was answered.
* **C160 Orderly use of the gRPC client does not abort** — proved. `Grpc.C160_no_abort` (pcq), `Grpc.C160_after_shutdown` (pcq).

### The polling gRPC server

Model: `Model/GrpcServer.lean`. Theorems: `Props/GrpcServer.lean`.

Objects with reference counts, a completion queue, one thread; inductive invariants and a measure for termination.

* **C161 The polling server is memory safe and does not leak** — proved. `GrpcServer.C161_memory` (pq). A handler that is never set is not modelled.
* **C162 The polling server handles and answers each request once** — proved. `GrpcServer.C162_requests` (pq). A handler that is never set is not modelled; the handler answers and frees each state it is given once (C95 is about the engine).
* **C163 The polling server accepts requests until it is shut down** — partial. `GrpcServer.C163_accepts_partial` (pq), `GrpcServer.C163_negation` (pq). False of the code: one response that gRPC cannot send makes the server act as if shut down; it takes one more request only. Proved if no send fails.
* **C164 The polling server comes to rest and can be shut down** — proved. `GrpcServer.C164_shutdown` (pq).

### Lifetime of requests

Model: `Model/Lifetime.lean`, `Model/ActionList.lean`. Theorems: `Props/Lifetime.lean`.

Transition system of list, response and the server's object.

* **C165 The request outlives its use** — partial. `Lifetime.C165_request_partial` (pcq), `Lifetime.C165_readers` (pq), `Lifetime.C165_negation` (pcq). False of the code: with the handoff server and send_response_when_done, later actions read a request that gRPC has freed. Proved for the inline and the polling server, and for the handoff server if no action of the list is marked.

### The node manager

Model: `Model/Node.lean`. Theorems: `Props/Node.lean`.

Histories of control RPCs; several node managers in one process.

* **C166 A node hosts the services of its last configuration** — proved. `Node.C166_services` (pcq), `Node.C166_all` (pcq), `Node.C166_rejected` (pcq), `Node.C166_failed` (pcq). Calls on a node are taken one at a time, as its mutex orders them.
* **C167 Driver aliases are resolved with the node's own configuration** — partial. `Node.C167_negation` (pcq), `Node.C167_aliases_partial` (pcq). False: the alias resolver is global to the process and belongs to the node manager created last, so with several local nodes a node's aliases are looked up in another node's configuration. Proved for the node manager created last with none destroyed since, in particular for one node manager per process.
* **C168 A node starts its traffic as a whole** — partial. `Node.C168_negation` (pcq), `Node.C168_run_partial` (pcq). False after a failed introduction of peers: the services before the failing one start, the request fails at the others. Proved exactly when the last introduction succeeded and no run has failed since the configuration.
* **C169 Asking a node to run traffic does not end its process** — partial. `Node.C169_negation` (pcq), `Node.C169_returns_partial` (pcq). False: a run that failed part way leaves main threads that were not joined, and the next run assigns to them, which calls std::terminate. Proved when no run has failed since the services were made.
* **C170 The results of a node hold everything its services recorded** — partial. `Node.C170_negation` (pcq), `Node.C170_results_partial` (pcq). False for replay traces, which are moved out by the first collection. Proved for everything else in any collection, and for everything in the first.
* **C171 The reason for which traffic was cancelled is in the results** — partial. `Node.C171_negation` (pcq), `Node.C171_reason_partial` (pcq). False for service instances that recorded nothing: they are left out of the results and the reason with them. Proved for every entry that is in the results.

### Activities

Model: `Model/Activity.lean`, `Model/Tables.lean`. Theorems: `Props/Activity.lean`.

Functions with undefined outcomes; counters by induction over runs.

* **C172 An accepted activity can always be created and run** — partial. `Activity.C172_negation` (pcq), `Activity.C172_many_runs` (pcq), `Activity.C172_runs_partial` (pcq). False of the code: a data-cache activity over 2^32 elements is accepted and its creation is undefined, and the 2^31th run of any counting activity overflows. Proved for sizes that fit 32 bits, fewer than 2^31 runs and array size plus accesses at most 2^31.
* **C173 The results report how often the activities of each configuration ran** — proved. `Activity.C173_reported` (pcq).
* **C295 Polluting the data cache changes what was drawn and nothing else** — proved. `Activity.C295_accesses` (pcq). For all runs without undefined behaviour; which those are is C172. The number of draws in a run is that of the loop (LegalDraws).

### Collecting results of running lists

Model: `Model/Collect.lean`. Theorems: `Props/Collect.lean`.

Transition system of lists that end and a collection; happens-before for the race.

* **C174 Results have every RPC that ended before they were collected** — partial. `Collect.C174_negation` (p), `Collect.C174_all_partial` (pcq), `Collect.C174_quiet_partial` (pcq). False of the code when a list that handled an incoming RPC has responded but not yet moved its samples. Proved for all lists that were over before the collection; nothing is reported more often than it occurred.
* **C175 Collecting results does not race with lists that end** — partial. `Collect.C175_negation` (p), `Collect.C175_races_partial` (pcq). False of the code: AddActivityLogs reads without the lock. Proved that any race is of this form.
* **C293 Collecting results comes to an end** — proved. `Collect.C293_goes_on` (pq), `Collect.C293_bound` (pcq). In the model of C174: a step reads the log of one peer or the logs of the activities.

### Commands

Model: `Model/Cli.lean`. Theorems: `Props/Cli.lean`.

The argument loop as a function on texts; `check_test` compared with the engines' own validation.

* **C176 Arguments of a node manager** — proved. `Cli.C176_arguments` (pcq), `Cli.C176_registered` (pcq).
* **C177 Node attributes can have any name** — partial. `Cli.C177_negation` (pcq), `Cli.C177_refused` (pcq), `Cli.C177_accepted_partial` (pcq), `Cli.C177_after_node` (pcq). False of the code for the first argument: name=value with a name that begins with node is refused. Proved for all other first arguments and for all later arguments.
* **C178 check_test predicts what the engines say** — proved. `Cli.C178_accepted` (pcq), `Cli.C178_refused` (pcq). Service names are distinct and the integer fields hold int32 values.

### Cancelling and shutting down a sequence

Model: `Model/Cancel.lean`. Theorems: `Props/Cancel.lean`.

Functions of the nodes' states and the answers; interleaving of request and configuration.

* **C179 A new request stops running traffic** — partial. `Cancel.C179_negation` (pq), `Cancel.C179_stopped_partial` (pq). False of the code: a request that comes after a test was configured and before its traffic starts, or while it is being started, does not stop the nodes that are started later. Proved for all nodes that have traffic when the request begins to cancel.
* **C180 All nodes are asked to shut down** — proved. `Cancel.C180_each` (pcq), `Cancel.C180_everybody` (pcq).
* **C294 A test that is over leaves nothing to cancel** — partial. `Cancel.C294_not_told_partial` (pq), `Cancel.C294_clean_partial` (pq), `Cancel.C294_ends` (pq), `Cancel.C294_negation` (pq). False of the code for a test that fails: its nodes stay marked as active, and the next request tells them to stop although they have no traffic (C294_negation). Proved for tests whose results are collected.

### The Homa driver

Model: `Model/Homa.lean`. Theorems: `Props/Homa.lean`.

Transition system of any number of threads, sockets and RPCs; inductive invariants with ghost counts, measures for termination.

* **C181 Homa callbacks run once** — proved. `Homa.C181_once` (pcq), `Homa.C181_success` (pq), `Homa.C181_all` (pcq).
* **C182 Homa client shutdown ends** — partial. `Homa.C182_negation` (pcq), `Homa.C182_failed` (pcq), `Homa.C182_never` (pcq), `Homa.C182_progress_partial` (pcq), `Homa.C182_bounded_partial` (pcq). False of the code: the first of two threads can use up both wake-ups, and an RPC that fails after it was accepted is never called back, after which ShutdownClient never returns. Proved with one thread, without failures, when no call of InitiateRpc is under way.
* **C183 Homa server buffer outlives its readers** — partial. `Homa.C183_negation` (p), `Homa.C183_one_partial` (pcq). False of the code: the buffer is unmapped when the first thread is joined. Proved for one thread.
* **C184 Homa requests are answered before the server is gone** — proved. `Homa.C184_once` (pcq), `Homa.C184_all` (pcq), `Homa.C184_after` (pcq).
* **C185 Homa server shutdown ends** — proved. `Homa.C185_progress` (pcq), `Homa.C185_bounded` (pcq). Something can always happen until it has returned, and only a bounded number of things can happen.
* **C186 Homa thread settings** — partial. `Homa.C186_negation` (pcq), `Homa.C186_clients_partial` (pcq), `Homa.C186_unknown` (pcq). False of the code: the number of server threads is that of client_threads. Proved for the client threads and for unknown settings.

### The Mercury driver

Model: `Model/Mercury.lean`. Theorems: `Props/Mercury.lean`.

Transition system of the client; round trip for the message format.

* **C187 Mercury callbacks run once** — partial. `Mercury.C187_negation` (pq), `Mercury.C187_once` (pcq), `Mercury.C187_given_up` (pcq), `Mercury.C187_all_partial` (pcq). False of the code: when HG_Create, HG_Forward or HG_Get_output fails, the callback never runs. Proved: at most once; and for all other RPCs exactly once by the time ShutdownClient returns.
* **C188 Mercury client shutdown ends** — proved. `Mercury.C188_progress` (pcq), `Mercury.C188_bounded` (pcq). Something can always happen until it has returned, and only a bounded number of things can happen.
* **C189 Mercury callbacks see the request** — partial. `Mercury.C189_negation` (-), `Mercury.C189_success_partial` (-), `Mercury.C189_failure` (-). False of the code: the request is lost when the response cannot be parsed. Proved for RPCs that succeed.
* **C190 Mercury messages survive the wire** — proved. `Mercury.C190_roundtrip` (pq), `Mercury.C190_size` (pq).

### Destroying an engine

Model: `Model/Teardown.lean`. Theorems: `Props/Teardown.lean`.

Transition system of the destructor and the threads of the servers.

* **C191 No thread uses a destroyed engine** — proved. `Teardown.C191_unused` (pq), `Teardown.C191_no_new` (pq).
* **C192 Destroying an engine ends** — partial. `Teardown.C192_negation` (p), `Teardown.C192_progress_partial` (pcq), `Teardown.C192_bounded` (pq). False of the code: a replayed RPC with a pause is never answered by the handoff server, and a request that comes before the handler was set is never handled if it never is; the destructor then waits forever. Proved when no such call is there: something can always happen until the engine is destroyed, and only a bounded number of things can happen.

### Copies of requests, resource usage

Model: `Model/Usage.lean`. Theorems: `Props/Usage.lean`.

Records of counters; text by the decimal round trip.

* **C193 Copying a request** — partial. `Usage.C193_negation` (-), `Usage.C193_copy_partial` (p), `Usage.C193_iff` (pq). False of the code: the copy's response_payload_size is the rpc_index (distbench_utils.cc:954). Proved for the other fields, with the exact condition under which the size is right.
* **C194 Resource usage adds up** — proved. `Usage.C194_usage` (pcq). The two times are whole microseconds in the model; in the program they are doubles in seconds.

### Waits

Model: `Model/Clock.lean`. Theorems: `Props/Clock.lean`.

The loops as relations between readings of the clocks; induction over the readings.

* **C195 Waiting for a condition with a deadline** — proved. `Clock.C195_mutex` (pq), `Clock.C195_value` (pq), `Clock.C195_spins` (pq), `Clock.C195_no_deadline` (pq), `Clock.C195_ends` (pcq), `Clock.C195_at_once` (pq). The contract of absl::Mutex is a hypothesis where it is needed (C195_value).
* **C196 Spinning for a duration** — proved. `Clock.C196_spin` (pcq), `Clock.C196_ends` (pq).

### Composite drivers and the driver interface

Model: `Model/Compose.lean`. Theorems: `Props/Compose.lean`.

A driver is a tree; induction over the tree.

* **C197 Composite drivers pass calls on** — proved. `Compose.C197_all` (p), `Compose.C197_one` (p), `Compose.C197_rpcs` (pq), `Compose.C197_counted` (p), `Compose.C197_connect` (pq), `Compose.C197_server` (pq).
* **C198 Multi-server channels are not lost** — proved. `Compose.C198_refused` (p), `Compose.C198_only` (p), `Compose.C198_real` (p).

### An RPC action from its first iteration to the log

Model: `Model/RpcAction.lean`, `Model/Iterations.lean`, `Model/Sampling.lean`. Theorems: `Props/RpcAction.lean`.

The product of the iteration machine with the RPCs of every iteration; an invariant that counts calls, records and targets; combined with the theorems on iterations and samples.

* **C199 An iteration ends with its last RPC** — proved. `C199_ended` (pcq), `C199_never_more` (pcq), `C199_ends` (pcq), `C199_reaches` (pcq). The RPCs of an iteration are initiated in any order in the model.  Progress is for closed loops with an iteration count; an RPC in flight may come back at any time.
* **C200 The log has one sample for each configured RPC** — proved. `C200_log` (pcq), `C200_all` (pcq). The action is the only one of its list; the list is run once.

### Commands, files, exit statuses

Model: `Model/Commands.lean`, `Model/Timeout.lean`, `Model/Placement.lean`. Theorems: `Props/Commands.lean`.

The wire format as a scanner on byte lists, by induction with a suffix measure; the commands as functions of the answers of the file system and of the sequencer; witnesses for what goes unnoticed.

* **C201 A test sequence in text form is read as text** — partial. `Commands.C201_text_partial` (pcq), `Commands.C201_false` (pcq). False of the code: a text whose bytes are valid binary is read as binary; witness of one test read as none. Proved for texts that begin with t, or with a comment and have no dollar sign. The wire format is modelled; the parsers of tests and of the text format are arbitrary.
* **C202 A test sequence in binary form is read as it is** — proved. `Commands.C202_binary` (pcq). Parts of up to 2 GB; the parsers of single tests and of the settings are arbitrary.
* **C203 The exit status of run_tests** — partial. `Commands.C203_status_partial` (pcq), `Commands.C203_success` (pcq), `Commands.C203_false` (pcq). False of the code: the last block of text is written by a destructor and a full disk goes unnoticed. Proved for the tests, and for the file if the disk has room.
* **C204 No test runs longer than max_test_duration** — partial. `Commands.C204_seconds_partial` (pcq), `Commands.C204_false` (pcq). False of the code: fractions are cut off and a duration below a second counts as none. Proved from one second on (totals below 2^31 seconds).
* **C205 Any test can be previewed on one node** — partial. `Commands.C205_placed_partial` (pcq), `Commands.C205_one_node` (pq), `Commands.C205_constraints_fail` (pcq). False of the code: any constraint on an instance makes the preview fail, as the only node is taken by the bundle. Proved without constraints.
* **C206 Servers that cannot serve exit with an error** — partial. `Commands.C206_node_manager_partial` (pcq), `Commands.C206_false` (p). False of the code: a test sequencer that cannot listen waits for ever. Proved for node managers.
* **C207 Results on standard output are complete** — partial. `Commands.C207_flushed_partial` (p), `Commands.C207_bytes` (pcq), `Commands.C207_false` (pq). False of the code: /dev/stdout is opened anew and truncated, and summaries still in the buffer are written over the beginning of the results at exit. Proved if the buffer is empty.
* **C208 Errors keep their code and message** — proved. `Commands.C208_roundtrip` (p), `Commands.C208_errors` (p).
* **C298 A binary test sequence that was cut short** — partial. `Commands.C298_cut_partial` (pq), `Commands.C298_cut_negation` (pcq). False of the code: a file cut between two tests is run as the tests before the cut (C298_cut_negation). Proved for every cut: the file is not read as binary, or what is left is the binary form of the first of the tests and settings. What is not read as binary goes to the parser of the text format, which is arbitrary.

### Locks of the engines and thread pools

Model: `Model/Locks.lean`. Theorems: `Props/Locks.lean`.

A grammar of the lock operations of every function, with one rule per path; an order on the locks, kept by every word of the grammar, by induction over the derivations; absence of deadlock by descent along the order.

* **C209 Engines do not deadlock on their locks** — proved. `Locks.C209_no_deadlock` (pq), `Locks.C209_waits_free` (pq), `Locks.C209_progress` (pcq). Locks inside protocol drivers and gRPC are not modelled; the callbacks of drivers are taken to run with no lock of the driver held.

### Locks of a node manager

Model: `Model/NodeLocks.lean`. Theorems: `Props/NodeLocks.lean`.

Transition systems of the two mutexes, with the policy of the shared mutex as a parameter; invariants that show that nothing gets through.

* **C210 CancelTraffic gets through to a node** — partial. `NodeLocks.C210_cancel_partial` (p), `NodeLocks.C210_false` (p). False of the code with a mutex that lets waiting exclusive calls go first, as absl::Mutex does: RunTraffic shares the mutex while the traffic runs, and a waiting ConfigureNode or GetTrafficResult keeps CancelTraffic out. Proved if no such call waits, no traffic runs, or readers may overtake.
* **C211 A node manager that cannot register gives up** — partial. `NodeLocks.C211_startup_partial` (-), `NodeLocks.C211_false` (p). False of the code: the start-up holds the mutex of the configuration while it waits for the running calls, and CancelTraffic, GetTrafficResult and ShutdownNode wait for that mutex. Proved if none of these is being served.

### The analysis of results

Model: `Model/Analysis.lean`, `Model/Services.lean`. Theorems: `Props/Analysis.lean`.

The summaries as lists of samples, compared with a count of all samples up to order; the files as a list of writes, told apart by cutting paths at their slashes; the formats as texts that are read back; statistics by counting.  Python's sets go in any order.

* **C212 The overall summary of an analysis is complete** — proved. `Analysis.C212_overall` (pq). The default and statistics formats; the trace format selects its samples as in C217.
* **C213 The summaries of clients and servers are complete** — partial. `Analysis.C213_client_partial` (pcq), `Analysis.C213_service_partial` (pcq), `Analysis.C213_false` (pcq). False of the code for services with two or three dimensions: the script cuts instance names at the last slash, the summary is empty and the files are missing. Proved for services with a count or one dimension.
* **C214 Each RPC between two instances has its own file** — partial. `Analysis.C214_rpc_file_partial` (pcq), `Analysis.C214_own_directory_partial` (pcq), `Analysis.C214_false` (pcq). False of the code: of two RPCs with the same name the second one overwrites the file, and an RPC called pairwise_summary has its file overwritten by the summary. Proved for different names without slashes, for services of any dimension.
* **C215 The printed numbers of samples are right** — partial. `Analysis.C215_counts_partial` (pcq), `Analysis.C215_false` (pcq). False of the code whenever there is a sample: each call of summarize counts its samples again. Proved: at least twice the number, and zero for none.
* **C216 The statistics of an analysis are right** — proved. `Analysis.C216_statistics` (pcq), `Analysis.C216_interpolated` (pcq). Exact arithmetic instead of floating point.
* **C217 The trace output has the longest latency of each iteration** — proved. `Analysis.C217_longest` (pcq), `Analysis.C217_rows` (pq).
* **C218 The default output can be read back** — proved. `Analysis.C218_default` (pcq).
* **C219 The analysis looks at all instances of a service** — proved. `Analysis.C219_instances` (pcq).
* **C220 The exit status of an analysis tells of failures** — partial. `Analysis.C220_status_partial` (-), `Analysis.C220_false` (-). False of the code: exit() without an argument is status 0. Proved for results that do not parse or do not fit.

### Requests and the servers of the drivers

Model: `Model/Serving.lean`. Theorems: `Props/Serving.lean`.

Transition system of the requests of one server, with the five servers as a parameter; one inductive invariant that ties the state to what has happened; the failing step of a run is singled out.

* **C221 A request that comes early is held until the handler is set** — partial. `Serving.C221_early_requests_partial` (pcq), `Serving.C221_false` (p). False of the code for Mercury, which calls an empty function and ends the process. Proved for the gRPC servers and Homa, and for Mercury if no request comes before the handler is set.
* **C222 The handler may be set again while requests come in** — partial. `Serving.C222_set_again_partial` (pcq), `Serving.C222_no_overlap_partial` (pcq), `Serving.C222_false` (p). False of the code for every server: the handler is assigned without a lock while other threads may read it. Proved: this needs a request that is taken during the assignment, and for all but Mercury an assignment that is not the first.
* **C223 Shutting down a server ends** — partial. `Serving.C223_shutdown_partial` (pcq), `Serving.C223_false` (pcq). False of the code if a request came and the handler was never set: the gRPC servers wait for ever, Homa calls an empty function. Proved if no request came, or the handler was set and answers.
* **C224 A response goes out when it is sent** — partial. `Serving.C224_sent_partial` (pcq), `Serving.C224_false` (p). False of the code for the inline gRPC server, which answers when handler and remaining work are done. Proved for the others, and for the inline server from that time on.
* **C225 An RPC that succeeded was answered by the handler** — partial. `Serving.C225_success_partial` (pcq), `Serving.C225_false` (p). False of the code for the inline gRPC server, which reports success with an empty response for a request that the handler did not answer. Proved for the others, and for the inline server if the handler answers.

### The traffic of a whole test

Model: `Model/Traffic.lean`. Theorems: `Props/Traffic.lean`.

Transition system of all engines, lists and RPCs of a test; one inductive invariant; a potential that accounts for all work that is left and falls with every step; a descent along layers and the order in which lists began shows that a waiting list waits for something that can go on.

* **C226 The number of RPCs of a test follows from its configuration** — proved. `Traffic.C226_rpcs` (pcq), `Traffic.C226_never_more` (pcq), `Traffic.C226_predicted` (pq). Every RPC is delivered and completed in the model; no cancellation, no time limits.
* **C227 A test ends** — proved. `Traffic.C227_ends` (pcq), `Traffic.C227_loop` (pq). C227_loop: with a list that leads to itself there is no bound.
* **C228 A test does not get stuck** — partial. `Traffic.C228_negation` (pq), `Traffic.C228_stuck_partial` (pcq), `Traffic.C228_elastic_partial` (pcq), `Traffic.C228_finish_partial` (pcq). False of the code with the simple thread pool: two servers with one thread each whose handlers call each other. Proved for elastic pools, and for limited pools if engines with them are called only from higher layers.
* **C229 The latency of an RPC covers the RPCs made for it** — partial. `Traffic.C229_negation` (p), `Traffic.C229_nested_partial` (pcq). False with send_response_when_done: the rest of the list goes on after the response. Proved for tests without it.
* **C230 When the traffic is over nothing is left to do** — partial. `Traffic.C230_negation` (p), `Traffic.C230_done_partial` (pcq). False with send_response_when_done: the rest of a handler may still be running and its RPCs on their way. Proved for tests without it.
* **C231 Every RPC is handled once by the list named for it** — proved. `Traffic.C231_once` (pcq).

### The cancellation of a whole test

Model: `Model/TrafficCancel.lean`. Theorems: `Props/TrafficCancel.lean`.

The transition system of Traffic with cancellations of engines at any time; the same invariant; the iterations that an action may still begin bound what it begins, and a second potential, in which iteration counts do not occur, falls with every step once all engines refuse RPCs.

* **C232 Cancelling stops new iterations** — proved. `Traffic.C232_bound` (pcq), `Traffic.C232_rest` (pcq). For closed loops (open loops are in C83). An iteration that ends is taken to see a cancellation at once; one that looked just before may begin one more, which is within the same bound.
* **C233 Cancelled traffic ends** — partial. `Traffic.C233_negation` (pcq), `Traffic.C233_ends_partial` (pcq), `Traffic.C233_exists_partial` (pq). False of the code for a list one of whose actions runs the same list: each run starts its first actions before it sees the cancellation. Proved if no list runs itself in this way, even if RPCs go round for ever. Every RPC is assumed to be delivered or refused.
* **C234 Cancelled traffic does not get stuck** — partial. `Traffic.C234_negation` (pq), `Traffic.C234_stuck_partial` (pcq), `Traffic.C234_elastic_partial` (pcq), `Traffic.C234_finish_partial` (pcq). False of the code with the simple thread pool: two servers with one thread each whose handlers call each other stay stuck when cancelled. Proved for elastic pools, and for limited pools if engines with them are called only from higher layers. Open loops cancelled between two iterations hang as well (C83).
* **C235 A refused RPC is answered and not handled** — proved. `Traffic.C235_refused` (pcq), `Traffic.C235_once` (pcq).

### From the traffic of a whole test to its results and summary

Model: `Model/Report.lean`, `Model/Traffic.lean`, `Model/Sampling.lean`, `Model/Logs.lean`, `Model/Summary.lean`. Theorems: `Props/Report.lean`.

The models of traffic, samples, logs and summary put together; weighted sums over samples are carried from the summary back through the logs of nodes, engines and runs to the RPCs of the traffic, by exchange of finite sums.

* **C236 Results have a sample for each RPC that was made** — proved. `Report.C236_exists` (pcq), `Report.C236_samples` (pcq), `Report.C236_cancelled` (pcq). Activities, replay traces and multi-server channels, which have logs of their own, are left out; all nodes return their results.
* **C237 The total number of samples in the summary** — proved. `Report.C237_limits` (pcq), `Report.C237_cancelled` (pcq), `Report.C237_predicted` (pcq). As C236. Exactly the numbers of C226 for tests whose traffic can be predicted.
* **C238 The number of samples in the latency line of an RPC** — proved. `Report.C238_measured` (pcq), `Report.C238_predicted` (pcq), `Report.C238_line` (pcq). As C236. RPCs with the same name share a line.
* **C239 The number of RPCs in the line of a client and a server** — proved. `Report.C239_pairs` (pcq), `Report.C239_line` (pcq). As C236. Warmup RPCs are counted in this number (C127).

### Connections of clients to servers

Model: `Model/Connect.lean`, `Model/Netutils.lean`. Theorems: `Props/Connect.lean`.

The text of addresses as inductive predicates after RFC 4291; the C library's loops accept exactly these, by induction over groups in one direction and over the length of the text in the other; connection histories by induction.

* **C240 Clients are connected to where the servers listen** — partial. `Connect.C240_grpc` (pcq), `Connect.C240_homa_partial` (pcq), `Connect.C240_false` (pcq). False of the Homa driver for addresses of the link other than fe80: (such as fe90::1): they are chosen, their text ends with the name of the interface, and the client refuses it. Proved for gRPC with TCP and for Homa with all other addresses. inet_pton is modelled after the C library and shown to accept exactly the texts of addresses; what gRPC makes of a target is not modelled.
* **C241 Connection data that names no place is refused** — partial. `Connect.C241_homa_partial` (pcq), `Connect.C241_false` (pcq), `Connect.C241_port_false` (pcq). False of the gRPC drivers (data that does not parse is accepted, with an empty target) and of the Homa driver (port 70000 becomes 4464). Proved: the Homa driver accepts only texts of addresses, up to a zero byte.
* **C242 The last connection counts** — partial. `Connect.C242_grpc` (pcq), `Connect.C242_homa_partial` (pcq), `Connect.C242_false` (pcq). False of the Homa driver when a peer changes from IPv4 to IPv6: the IPv4 address stays as the flow information. Proved for gRPC and, with Homa, for peers that keep their IP version.

### Homa messages

Model: `Model/HomaWire.lean`, `Model/Payload.lean`. Theorems: `Props/HomaWire.lean`.

The two ways to parse a received message, as a relation, reduced to the theorems on serialization and on the fast path; the chunk loop by induction over its pages.

* **C243 Homa messages arrive as they were sent** — partial. `HomaWire.C243_delivered_partial` (pcq), `HomaWire.C243_stale` (pq), `HomaWire.C243_aborts` (pcq). False of the code with nocopy (the default): an empty response leaves the earlier response in a response object that is used again, and a long message without payload aborts the receiver. Proved for all other messages whose payload header is in the first page and, if the sender copies, with no field behind the payload; with copying receivers proved for all messages. Memory of received payloads is not modelled.
* **C244 Ping-pong mode echoes** — proved. `HomaWire.C244_echo` (pq), `HomaWire.C244_homa` (pq), `HomaWire.C244_response` (pcq). Homa's page size (65536), number of pages (16) and largest message (1000000) are those of its kernel module; C244_echo holds for any.

### A whole test, from the text of its configuration

Model: `Model/Whole.lean`, `Model/Tables.lean`, `Model/Fanout.lean`, `Model/Iterations.lean`, `Model/Traffic.lean`, `Model/Report.lean`. Theorems: `Props/Whole.lean`.

The engines act by their own tables and choices of targets; a refinement shows that what they do together is a run of the transition system of Traffic; numbers by position in the tables are tied to numbers by name in the text; then the theorems on traffic, results and summary apply.

* **C245 The configuration says how many RPCs a test makes** — proved. `Whole.C245_accepted` (pcq), `Whole.C245_rpcs` (pcq), `Whole.C245_never_more` (pcq), `Whole.C245_predicted` (pcq). The engines act on tables built from the configuration, each on its own; fan-outs with the filters all, random, random_single and round_robin. Delays, timing and network failures are left to the schedule, as in C226.
* **C246 A test whose lists do not lead to themselves ends** — proved. `Whole.C246_ends` (pcq), `Whole.C246_stuck` (pcq), `Whole.C246_finish` (pcq), `Whole.C246_undeclared` (pcq). C246_undeclared: without the condition on clients a test whose configuration is accepted never ends (the engine logs an error and the action never finishes). For the condition on threads see C228.
* **C247 The summary counts what the configuration asks for** — proved. `Whole.C247_total` (pcq), `Whole.C247_line` (pcq). As C245 and C237, C238. Names of services have no slash; otherwise names of instances may collide (C07).

### Time limits in a whole test

Model: `Model/TrafficTime.lean`, `Model/Traffic.lean`, `Model/Report.lean`. Theorems: `Props/TrafficTime.lean`.

The transition system of Traffic, with time limits that pass at any moment; the same invariant; the potentials of Traffic with a bound on iterations in place of their number, which every step lowers as long as the bound holds.

* **C248 How many RPCs a test with time limits makes** — proved. `Traffic.C248_at_least` (pcq), `Traffic.C248_at_most` (pcq), `Traffic.C248_never_more` (pcq), `Traffic.C248_exact` (pcq), `Traffic.C248_predicted` (pq). There is no clock: the limit of an action may pass at any moment after its start. An iteration that ends is taken to see at once that the limit has passed.
* **C249 A test with time limits ends** — proved. `Traffic.C249_steps` (pcq), `Traffic.C249_bound` (pq), `Traffic.C249_ends` (pcq).
* **C250 After its time limit an action begins no more iterations** — proved. `Traffic.C250_late` (pcq), `Traffic.C250_none` (pcq), `Traffic.C250_first` (pq). An iteration that ends is taken to see at once that the limit has passed; in the code one that looked just before may begin one more per parallel copy.
* **C251 A test with time limits does not get stuck** — partial. `Traffic.C251_negation` (pq), `Traffic.C251_stuck_partial` (pcq), `Traffic.C251_finish_partial` (pcq). False of the code with the simple thread pool (as C228). Proved for elastic pools, and for limited pools if engines with them are called only from higher layers.
* **C252 The results of a test with time limits are complete** — proved. `Report.C252_samples` (pcq), `Report.C252_total` (pcq), `Report.C252_measured` (pcq). As C236 to C238.

### A whole test with time limits, from the text of its configuration

Model: `Model/WholeTime.lean`, `Model/Whole.lean`, `Model/TrafficTime.lean`. Theorems: `Props/WholeTime.lean`.

The refinement of Whole for the transition system of TrafficTime; numbers of iterations by their text.  Every engine looks at its own tables and its own clock.

* **C255 The configuration bounds how many RPCs a test with time limits makes** — proved. `Whole.C255_at_least` (pcq), `Whole.C255_at_most` (pcq), `Whole.C255_predicted` (pcq). As C245 and C248. Iteration counts below 2^31 (without a count, as many parallel iterations).
* **C256 A test with time limits ends, by its configuration** — proved. `Whole.C256_ends` (pcq), `Whole.C256_stuck` (pcq), `Whole.C256_finish` (pcq). As C246; for the condition on threads see C228.
* **C257 The summary of a test with time limits counts the RPCs that were made** — proved. `Whole.C257_total` (pcq), `Whole.C257_line` (pcq), `Whole.C257_between` (pcq). As C247.

### A whole test with the loops of the engines in full

Model: `Model/Loops.lean`. Theorems: `Props/Loops.lean`.

The traffic with, for each run of a list, the state machine of ActionList and, for each action under way, the one of Iterations, all interleaved.  Proved by simulation: the view of each reachable state is a state of WholeTime; then the theorems there carry over.  That a test can be brought to its end (C263) is proved by a measure: the view has a bounded number of steps, and from each state that is not over a few steps of the loops lead to another one of the view.

* **C259 With all threads at work, a test makes the RPCs that its configuration adds up to** — proved. `Loops.C259_at_least` (pcq), `Loops.C259_at_most` (pcq), `Loops.C259_exact` (pcq). Every reachable state of the model with all loops is related to one of the model of C255 (Loops.sim in Lemmas/LoopsRun.lean). RPCs are delivered and completed; replay, activities and cancellation are left out; iteration counts below 2^31.
* **C260 With all threads at work, every RPC is handled once, by the list of its name** — proved. `Loops.C260_once` (pcq). As C259; predicates are allowed.
* **C261 With all threads at work, an RPC is back only after all that is done for it** — proved. `Loops.C261_nested` (pcq), `Loops.C261_done` (pcq). As C260. With send_response_when_done it is false of the code (C229, C230).
* **C262 When a list is over, each of its actions has had its iterations** — proved. `Loops.C262_begun` (pcq), `Loops.C262_most` (pcq). As C260.
* **C263 A test never gets stuck half way** — proved. `Loops.C263_finish` (pcq), `Loops.C263_counted` (pcq). As C260. The conditions are needed: see C246 and C251 for tests that get stuck without them.

### Cancellation with the loops of the engines in full

Model: `Model/LoopsCancel.lean`. Theorems: `Props/LoopsCancel.lean`.

The traffic of Loops with, for each engine, the flag that its traffic is cancelled and whether its grace period is over; a step of Loops is taken, then all runs of the cancelled engines are told.  Proved directly, by two invariants of the traffic: where each run and each RPC comes from, and what is still under way for each iteration; they hold for four kinds of moves (a turn of one run, a step of one RPC, a thread that begins to handle one, telling runs), to which all steps come down.  After cancellation the iterations begun and those that may still begin do not grow (C266).  For C267 what is left of each run of a list and of each RPC is a pair of its level in the call graph and of its own remaining work; the multiset of these pairs goes down in the Dershowitz-Manna order (from Mathlib), and what is not over can go on.  For C268 every step after cancellation makes this multiset less or changes nothing but time and flags.  For C269 the same multiset, with the iterations and actions that have not begun yet counted as well, goes down with every step that does anything, cancelled or not.

* **C264 Cancelled or not, an RPC is handled at most once, and comes back unhandled only from a cancelled engine** — proved. `LoopsCancel.C264_once` (pcq), `LoopsCancel.C264_forward` (pcq). As C260, with cancellation; open loops are left out.
* **C265 Also when traffic is cancelled, an RPC is back only after all that is done for it** — proved. `LoopsCancel.C265_nested` (pcq), `LoopsCancel.C265_over` (pcq). As C264. With send_response_when_done the first part is false of the code (C229, C230).
* **C266 After cancellation no action begins more than its parallel iterations** — proved. `LoopsCancel.C266_bound` (pcq), `LoopsCancel.C266_stays` (pcq). As C264.
* **C267 A cancelled test can always be brought to its end** — proved. `LoopsCancel.C267_finish` (pcq), `LoopsCancel.C267_counted` (pcq). As C264. Where a loop has no maximal count, its number of iterations plus its parallel ones must fit an int at the moment of cancellation.
* **C268 A cancelled test comes to rest and ends under every schedule** — proved. `LoopsCancel.C268_rest` (pcq), `LoopsCancel.C268_end` (pcq), `LoopsCancel.C268_counted` (pcq). As C267. The only fairness asked for is that the schedule does not do nothing for ever while some thread could go on.
* **C269 A test whose loops are counted does a finite amount of work under every schedule** — proved. `LoopsCancel.C269_rest` (pcq), `LoopsCancel.C269_end` (pcq). As C264. Rounds of the threads of lists that find nothing to do are not counted as work: their waits may time out at any moment.

### The test builder

Model: `Model/Builder.lean`, `Model/Fanout.lean`. Theorems: `Props/Builder.lean`.

The bash script as functions on texts and arrays of parameters; what distbench reads from the text as a function of the parameters; induction over configurations, values of sweeps and tests.

* **C270 Tests of one name are one test** — proved. `Builder.C270_one_test` (pcq). A test with extra_test_contents, which is any text, is read as refused (both tests are, with the same text).
* **C271 Tests of a sequence do not depend on each other** — proved. `Builder.C271_configs` (pcq), `Builder.C271_sweep` (pcq). The three numbers of a sweep are whole numbers.
* **C272 Configuration strings mean what they say** — partial. `Builder.C272_attributes` (pcq), `Builder.C272_sweep` (pcq), `Builder.C272_refused_partial` (pcq), `Builder.C272_refused_negation` (pcq). The last part is false of the code: bash's readarray drops an empty field at the end, and clique:node_count=4= is taken as clique:node_count=4 (C272_refused_negation). Proved: everything else; each part of an accepted configuration means something or ends with an equals sign.
* **C273 Results in the output directory are results of the tests** — partial. `Builder.C273_runs` (pcq), `Builder.C273_results_partial` (pcq), `Builder.C273_results_negation` (pcq). The last sentence is false of the code: names of files leave out the duration, and the results of a run with -t 30 pass for those of one with -t 60 (C273_results_negation). Proved: all else; and the last sentence if what was there under the names of the tests were results of them, for instance in a new directory.
* **C274 Attributes are read as they were given** — partial. `Builder.C274_quoting_partial` (pq), `Builder.C274_quoting_negation` (pcq). False of the code: single_quote_string escapes quotes but no backslashes and line breaks, and echo takes -e and the like as options. Proved: an exact characterization of the texts that are read as given; all texts without these are.

### What distbench makes of the tests of the test builder

Model: `Model/Builder.lean`, `Model/Tables.lean`, `Model/Drivers.lean`, `Model/Cli.lean`. Theorems: `Props/BuilderLoad.lean`.

The numbers of the text are followed through the script's arithmetic and the widths of the fields; acceptance is by evaluation of the tables on the six patterns; drivers by C138.

* **C275 Tests that the tool writes are accepted** — partial. `Builder.C275_accepted_partial` (pcq), `Builder.C275_duration_negation` (pcq), `Builder.C275_mode_negation` (pcq). False of the code: with -t 2148 the tool writes tests whose max_duration_us does not fit its field (C275_duration_negation), and a synchronization_mode that distbench does not know is passed on (C275_mode_negation). Proved: tests that can be read, with a known mode, a readable fan-out and a grid that is not empty and not too large, are accepted by check_test, the sequencer and all engines; rounding leaves 1 as it is.
* **C276 A test has the load that was asked for** — partial. `Builder.C276_clique_partial` (pcq), `Builder.C276_rectangular_partial` (pcq), `Builder.C276_client_server_partial` (pcq), `Builder.C276_tripartite_partial` (pcq), `Builder.C276_multi_level_partial` (pcq), `Builder.C276_variable_partial` (pcq), `Builder.C276_load_negation` (pcq). False of the code for numbers with leading zeros: with rpc_interval_us=0200 the interval is 65536 ns (C276_load_negation). Proved: for parameters that are decimal numbers without leading zeros, every test that can be read has exactly the load that its parameters give.
* **C277 A test uses the protocol driver that was asked for** — proved. `Builder.C277_driver` (pcq), `Builder.C277_grpc` (pcq), `Builder.C277_mercury` (pcq), `Builder.C277_homa` (pcq), `Builder.C277_ip` (pcq). The settings are those of the test's attributes; numbers are decimal without leading zeros, as in C276. The driver exists if distbench was built with it; whether it can be initialized is outside the model.

### Defaults, ranges and timeouts of the tests of the test builder

Model: `Model/Builder.lean`, `Model/Timeout.lean`. Theorems: `Props/BuilderCheck.lean`.

The set-up of a test is brought into one shape (defaults, then names); defaults, checks and the timeout are read off that shape.

* **C278 A test of the test builder has an attribute for every parameter, with the documented default** — partial. `Builder.C278_defaults_partial` (pcq), `Builder.C278_present_partial` (pcq), `Builder.C278_attributes_negation` (pcq). False of the code for parameters whose default is empty: no attribute is written for threadpool_type, nor for transport with gRPC (C278_attributes_negation). Proved: every other parameter has its attribute in every test, with the value given last or the documented default.
* **C279 The test builder refuses parameters that make no sense** — partial. `Builder.C279_ranges_partial` (pcq), `Builder.C279_duration_partial` (pcq), `Builder.C279_ranges_negation` (pcq). False of the code for the sides of a grid, of which only the product is checked, and for a duration given in a configuration (C279_ranges_negation). Proved: all other numbers, the product of the sides, and the duration of the command line.
* **C280 The sequencer and the client give a test of the test builder its duration and two minutes** — proved. `Builder.C280_timeout` (pcq), `Builder.C280_client` (pcq). Of tests whose duration distbench can read; the attribute map is any that agrees with the test on test_timeout.

### Latency reports

Model: `Model/Digest.lean`, `Model/Analysis.lean`. Theorems: `Props/Digest.lean`.

The text of a file, its words and lines by induction; a spec that groups messages by length; the loops of the digest, the axis and the curve by induction over the sorted lengths, with the number of messages up to a length as the invariant.

* **C281 Latency files are read back with the same messages** — proved. `Digest.C281_read` (pcq), `Digest.C281_summary` (pcq), `Digest.C281_header` (pcq). Floats are modelled by rational numbers; that Python reads back what it writes is a hypothesis (Faithful), shown to be met by an example.
* **C282 The latency digest has one right row for each message length** — partial. `Digest.C282_digest_partial` (pcq), `Digest.C282_long_negation` (pcq). False of the code for messages of 999999999 bytes, which have no row, and longer ones, with which get_digest fails (C282_long_negation): that length is the sentinel. Proved for all shorter lengths.
* **C283 The axis of a latency plot is labelled with deciles of the message lengths** — partial. `Digest.C283_axis_partial` (pcq), `Digest.C283_long_negation` (pcq). False of the code for messages of more than 999999999 bytes (C283_long_negation). Proved for shorter lengths, with exact quotients.
* **C284 A latency curve is the staircase of the percentiles by message length** — partial. `Digest.C284_curve_partial` (pcq), `Digest.C284_selector` (pcq), `Digest.C284_long_negation` (pcq). False of the code for messages of 999999999 bytes and more (C284_long_negation). Proved for all shorter lengths.

### Starting the binary

Model: `Model/Modes.lean`, `Model/Commands.lean`, `Model/Cli.lean`. Theorems: `Props/Modes.lean`.

The choice of the mode by cases for every command line, with the flag library as a parameter; test_preview as a function of its input, its sequencer and the disk; the nodes of a test sequencer as a relation whose steps are registrations of its own and other nodes, with the history of registrations as the invariant.

* **C285 The mode that the binary runs** — proved. `Modes.C285_runs` (pcq), `Modes.C285_usage` (pcq). The flag library is a parameter: what it leaves of the command line is arbitrary.
* **C286 The exit status of test_preview** — partial. `Modes.C286_status_partial` (pcq), `Modes.C286_success` (pcq), `Modes.C286_one_node` (pcq), `Modes.C286_false` (pcq). False of the code: results in text form of up to 8192 bytes are reported as saved although the disk is full (C286_false), as in C203. The rest is proved in both directions.
* **C287 A preview waits as long as its tests may take** — partial. `Modes.C287_waits_partial` (pcq), `Modes.C287_negation` (pcq). False of the code: the RPC of a preview has a deadline of 3000 seconds whatever its tests say, and a test without a timeout may take an hour (C287_negation). Proved for tests whose timeouts are all given and add up to at most 3000 seconds.
* **C288 The nodes of a test sequencer** — partial. `Modes.C288_names` (pcq), `Modes.C288_all_partial` (pcq), `Modes.C288_count` (pcq), `Modes.C288_taken_negation` (pcq), `Modes.C288_negative_negation` (pcq). False of the code: if another node registers first it becomes node0, and the sequencer's own node is refused while the sequencer goes on (C288_taken_negation); a negative number of nodes aborts the process (C288_negative_negation). Proved without other nodes; and with them, that an own node that takes part has its own number.

### The workload scripts

Model: `Model/Workloads.lean`. Theorems: `Props/Workloads.lean`.

bash's getopts as a function on the words of the command line, against a separate inductive relation that says which options a list of arguments gives; both directions by induction on the arguments and the letters of a word. The text of a test becomes the configuration that distbench reads; the acceptance goes through C178 and the time limits through C111.

* **C289 A workload script runs the load that its options ask for** — partial. `Workloads.C289_clique_partial` (pcq), `Workloads.C289_multi_level_partial` (pcq), `Workloads.C289_client_server_partial` (pcq), `Workloads.C289_stochastic` (pcq), `Workloads.C289_tripartite_partial` (pcq), `Workloads.C289_results_negation` (pcq), `Workloads.C289_duration_negation` (pcq). False of the code for -l of tripartite_rpc_pattern.sh, which is accepted and ignored (C289_results_negation), and for times above 2147 seconds, with which the test cannot be read (C289_duration_negation). Proved for each script otherwise: the run takes place, with the load that was asked for. Values that the shell or the text format would split are outside the model.
* **C290 Wrong use of a workload script** — partial. `Workloads.C290_usage` (pcq), `Workloads.C290_otherwise` (pcq), `Workloads.C290_unambiguous` (pcq), `Workloads.C290_nodes` (pcq), `Workloads.C290_signed` (pcq), `Workloads.C290_status_partial` (pcq), `Workloads.C290_status_negation` (pcq). False of the code for the status: wrong use exits with 0 (C290_status_negation). The rest is proved for all arguments.
* **C291 The time that the test of a workload script is allowed** — proved. `Workloads.C291_limit` (pcq), `Workloads.C291_no_limit` (pcq). The number of seconds is decimal; that it is small enough follows from the test being run. The deadlines are those of the client and the sequencer (C111).
* **C292 The tests of the workload scripts are accepted** — partial. `Workloads.C292_accepted_partial` (pcq), `Workloads.C292_mode_negation` (pcq). False of the code for the mode nosync in the usage of clique_rpc_pattern.sh (C292_mode_negation). Proved for the modes that distbench knows; for test_stochastic.sh it is a hypothesis that the decimals 0.7 and 0.3 are read as numbers from 0 to 1.

### Answering RPCs and freeing their states

Model: `Model/ServerState.lean`, `Model/Handler.lean`, `Model/ActionList.lean`, `Model/Replay.lean`. Theorems: `Props/ServerState.lean`.

The object with its two functions as a state machine, one per server and build, in which reading or deleting what is gone is undefined; the calls come from the models of the handler, of the lists and of traces; a relation between the states of the two builds is kept by all calls.

* **C296 Answering an RPC and freeing its state** — partial. `ServerState.C296_list_partial` (pcq), `ServerState.C296_handler_partial` (pcq), `ServerState.C296_trace_partial` (pcq), `ServerState.C296_builds` (pq), `ServerState.C296_touches` (pcq), `ServerState.C296_trace_negation` (pcq), `ServerState.C296_handler_negation` (pcq). False of the code in two cases: the state made for the replay of a trace is not freed if the trace has no record for this instance (C296_trace_negation), and a replayed RPC is neither answered nor its state freed (C296_handler_negation, see C96). Proved for all other requests, lists and traces. The model of C31 has no requests in it: that a list sends and frees once is taken from there.
* **C297 A second response** — partial. `ServerState.C297_debug_partial` (pq), `ServerState.C297_release_negation` (pq), `ServerState.C297_free_negation` (p). False of the code: release builds send every response again (C297_release_negation), and after the first free there is nothing left that could report the second (C297_free_negation). Proved for responses in debug builds.

### Options added by name

Model: `Model/Options.lean`, `Model/Grpc.lean`, `Model/Services.lean`. Theorems: `Props/Options.lean`.

Appending to a list and reading its first usable entry; induction over the calls.

* **C300 An option that was added is the one that is read** — partial. `Options.C300_first_partial` (pcq), `Options.C300_others` (p), `Options.C300_kept` (pcq), `Options.C300_activity_partial` (pcq), `Options.C300_benchmark` (pcq), `Options.C300_again_negation` (pcq). The helpers append and the readers take the first usable entry, so that the first value wins: holds for names that have no value of this kind yet and are added once; whenever one is added again the new value is not read.

### Checkouts of repositories by the scripts

Model: `Model/Checkout.lean`. Theorems: `Props/Checkout.lean`.

git as functions on files, index and version of a tree; every way through the script by cases; the file system as an association list with the first entry in force; repeated calls by induction with an invariant.

* **C301 Updating a checkout loses nothing that exists nowhere else** — partial. `Checkout.C301_lost_partial` (pq), `Checkout.C301_refused` (pq), `Checkout.C301_unchanged` (pq), `Checkout.C301_guard` (pq), `Checkout.C301_untracked_negation` (pq). Holds for all tracked files and for local commits. Files that git was never told about are overwritten, with success reported, where the new version has a file of the same path: git diff does not look at them and git reset --hard does not spare them.
* **C302 A checkout that was updated holds the version asked for** — partial. `Checkout.C302_version_partial` (pq), `Checkout.C302_missing` (pq), `Checkout.C302_gone_negation` (pq). Holds whenever the remote has the version. Once the branch is gone from the remote, an existing tree stays at the old version and success is reported.
* **C303 A checkout can be updated again** — partial. `Checkout.C303_again_partial` (pq), `Checkout.C303_slash_negation` (pcq). Holds if the version is the last component of the path of the tree. For a branch with a slash in its name, which the deployment script puts into GITDIR/branch, every later call is refused: git names the tree after the last component, and the script compares with the whole name.

### The local start script

Model: `Model/LocalStart.lean`, `Model/Workloads.lean`. Theorems: `Props/LocalStart.lean`.

The options by the model of getopts of Workloads, by induction over the arguments; the processes as a list.

* **C304 Starting a local test bed** — partial. `LocalStart.C304_plain` (pcq), `LocalStart.C304_debug_partial` (pcq), `LocalStart.C304_status` (pcq), `LocalStart.C304_ports_negation` (pcq). Holds without debugging (the sequencer is told the number, see C288 for what it does with it) and with debugging for up to 9998 nodes. Ports count down from 9998, so that from 10000 nodes on some port is negative.

### The deployment script

Model: `Model/Deploy.lean`. Theorems: `Props/Deploy.lean`.

The choice of the device by induction over the list of devices, as an equivalence with the first candidate; the processes as a list, by membership and order; the branches and the mirror as lists of files by name, by lookup.

* **C305 A deployment uses the device that was named, or a private one** — partial. `Deploy.C305_first_partial` (pcq), `Deploy.C305_named_negation` (pcq), `Deploy.C305_lo_negation` (pcq). The choice without an argument is as stated for devices that have no lo in their names (and SEQUENCER_IP not in the environment). A device that is named is never used: SEQUENCER_IP is then not set, and under set -u the script ends with an error. A device such as flow0 is passed over, because grep -v lo drops it.
* **C306 A deployment starts one node manager on each node** — proved. `Deploy.C306_started` (pcq), `Deploy.C306_order` (pcq). For the sequence of commands of the remote script; those of one loop run concurrently and are awaited before the next loop, and are listed by node.
* **C307 A local deployment deploys what is in the working tree** — partial. `Deploy.C307_tree_partial` (pcq), `Deploy.C307_refused` (pcq), `Deploy.C307_accepted` (pcq), `Deploy.C307_mirror` (pcq), `Deploy.C307_staged_negation` (pcq). Holds if nothing is staged that is not committed. git diff without HEAD compares the working tree with the index only, so that a staged change passes the check, and the version without it is deployed.
* **C309 The number of nodes of a deployment** — partial. `Deploy.C309_asked` (pcq), `Deploy.C309_counted_partial` (pcq), `Deploy.C309_other_negation` (pcq). Counted right if no other address begins with 10: the lines are matched with ^10, without the dot, so that 100.64.0.1 is counted as a node.

### Installing Mercury

Model: `Model/Setup.lean`. Theorems: `Props/Setup.lean`.

The script as a list of steps, of which any number is done; what a link leads to is complete, as an invariant over any sequence of runs.

* **C308 An interrupted installation is noticed** — partial. `Setup.C308_completed` (pq), `Setup.C308_whole_partial` (pq), `Setup.C308_ready_partial` (pq), `Setup.C308_first` (pcq), `Setup.C308_removal_negation` (pq), `Setup.C308_removing_negation` (pq), `Setup.C308_against_negation` (pq). Holds if no run ends during a removal and all runs are for the same libfabric. rm -rf removes the directory before the link, so that after an interruption in between the link alone is taken for an installation; and after an interruption between the two libraries a Mercury is used that was built with an earlier libfabric.

