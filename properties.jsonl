{"id": "C01", "title": "Varint encode/decode round trip", "statement": "Encoding any unsigned 64-bit number as a varint and decoding the bytes gives the number back and consumes exactly the encoded bytes, whatever bytes follow; the encoded length is the number reported by VarIntSize, between 1 and 10.", "quantifier": "every uint64 value and every byte string that follows the encoding", "why_tests_cant": "2^64 values; the tests check 19 of them near powers of 128.", "anchors": ["distbench_payload.cc:MakeVarInt", "distbench_payload.cc:ReadVarInt", "distbench_payload.cc:VarIntSize"]}
{"id": "C02", "title": "Varint decoding never over-reads and rejects truncated input", "statement": "ReadVarInt, given the inclusive end of a buffer, never consumes a byte past the end; it fails on every proper prefix of an encoding, on the empty buffer and on ten continuation bytes, and whenever it succeeds the bytes consumed are one byte without a continuation bit preceded only by continuation bytes.", "quantifier": "every byte buffer, well-formed or not", "why_tests_cant": "An arbitrary buffer comes from the network; the tests only decode well-formed encodings.", "anchors": ["distbench_payload.cc:ReadVarInt"]}
{"id": "C03", "title": "Padding reaches the requested serialized size", "statement": "After AddPadding(msg, n) the serialized size of msg is exactly n whenever n is at least two bytes larger than the message without payload and trim (or equal to it); the result is never smaller than n nor smaller than the message without padding; no field other than payload and trim changes.", "quantifier": "every message (any serialized size of the other fields) and every target size", "why_tests_cant": "The unreachable sizes sit at every power of 128 plus the metadata size; tests scan a few windows with one message.", "anchors": ["distbench_payload.cc:AddPadding", "distbench_payload.cc:GetPaddingForSerializedSize"]}
{"id": "C04", "title": "Zero-copy serialization is a faithful serialization", "statement": "SerializeToCord produces a byte string of exactly the message's serialized size that parses back to the same message, with or without the zero-copy path, and with an empty, small or large payload.", "quantifier": "every GenericRequestResponse message", "why_tests_cant": "Message contents and sizes are unbounded.", "anchors": ["distbench_payload.cc:SerializeToCord"]}
{"id": "C05", "title": "Metadata length of a fragment locates the payload", "statement": "For a serialized message whose payload is the last field, MetaDataLength applied to any prefix that reaches into the payload field returns the offset of the payload field and the offset of the first payload byte, so that the metadata parses to the message without payload and the rest of the message is the payload.", "quantifier": "every message and every prefix length delivered by the transport", "why_tests_cant": "The split point is chosen by the transport; tests use a fixed 4096.", "anchors": ["distbench_payload.cc:MetaDataLength", "protocol_driver_homa.cc:FastParse"]}
{"id": "C06", "title": "Grid coordinates and instance numbers are inverse", "statement": "For a service laid out on an x*y*z grid, mapping an instance number to its grid coordinates and back is the identity, every coordinate is inside the grid, and distinct instances have distinct coordinates; conversely every in-grid coordinate is the coordinate of exactly one instance below count.", "quantifier": "every grid shape and every instance number / coordinate", "why_tests_cant": "Shapes are unbounded; fan-out tests use one 3x3x3 grid.", "anchors": ["distbench_utils.cc:GetServiceIndex", "distbench_utils.cc:GetInstanceFromGridIndex"]}
{"id": "C07", "title": "Instance names identify instances", "statement": "Within a canonical configuration with distinct slash-free service names, GetInstanceName is injective over (service, instance), and parsing an instance name gives back the same grid coordinates and instance number.", "quantifier": "every canonical service list, service and instance", "why_tests_cant": "Names are strings over unbounded numbers; collisions would silently merge two instances' logs.", "anchors": ["distbench_utils.cc:GetInstanceName", "distbench_utils.cc:GetGridIndexFromName"]}
{"id": "C08", "title": "Service canonicalization makes count and shape agree", "statement": "When a service specification is accepted, its count equals the product of its grid sizes, every grid size is set consistently, a service given only a count becomes a one-dimensional grid of that size, and a specification whose count disagrees with its shape is rejected.", "quantifier": "every service specification (any subset of count/x/y/z present, any values)", "why_tests_cant": "Value and presence combinations are unbounded.", "anchors": ["distbench_utils.cc:GetCanonicalServiceSpec"]}
{"id": "C09", "title": "Name tables assign dense unique indices", "statement": "Enumerating the services (or RPCs, or service instances) of a configuration with distinct names gives each name a distinct index, the indices are exactly 0..n-1 in declaration order, and every peer computes the same table.", "quantifier": "every configuration with any number of services and instances", "why_tests_cant": "All nodes compute the table independently and exchange indices only; tests use a handful of names.", "anchors": ["distbench_utils.cc:EnumerateServiceTypes", "distbench_utils.cc:EnumerateRpcs", "distbench_utils.cc:EnumerateServiceInstanceIds"]}
{"id": "C10", "title": "Named setting lookup", "statement": "GetNamedSetting{Int64,String,Double...} return the value of the first entry that has the requested name and the requested type, and the default exactly when there is none; entries with another name or type never influence the result.", "quantifier": "every list of settings, name and default", "why_tests_cant": "Lists of settings are unbounded, and duplicates and mistyped entries interact.", "anchors": ["distbench_utils.cc:GetNamedSettingInt64", "distbench_utils.cc:GetNamedSettingString"]}
{"id": "C11", "title": "Distribution validation accepts exactly the valid distributions", "statement": "A distribution with finite numbers is accepted iff exactly one of PMF and CDF is given, no field name repeats, and: for a PMF, the probabilities sum to 1 within 1e-6 and all points have the same number of data points, matching the field names if there are any; for a CDF, the values are strictly increasing, the probabilities never decrease, the first is not negative and the last is 1.  Validation always gives a verdict.", "quantifier": "every distribution configuration", "why_tests_cant": "Number of points and values are unbounded.", "anchors": ["distbench_utils.cc:ValidateDistributionConfig", "distbench_utils.cc:ValidatePmfConfig", "distbench_utils.cc:ValidateCdfConfig"]}
{"id": "C12", "title": "CDF conversion preserves the distribution", "statement": "Converting an accepted CDF to a PMF yields, for every value v listed, cumulative mass up to v equal to the given cdf; for a piecewise uniform CDF the produced intervals are disjoint, consecutive and cover exactly [first value, last value]; no mass is negative and they total 1 (in exact arithmetic; values below the largest 64-bit integer).", "quantifier": "every accepted CDF of any length", "why_tests_cant": "Number of points and values are unbounded.", "anchors": ["distbench_utils.cc:GetCanonicalDistributionConfig"]}
{"id": "C13", "title": "Field reordering keeps the joint distribution", "statement": "Canonicalizing a joint PMF reorders the dimensions into the canonical field order without changing which value belongs to which field, keeps every probability, drops fields not asked for, rejects configurations with a missing field, and is idempotent.", "quantifier": "every joint PMF with any number of points and dimensions", "why_tests_cant": "Permutations and dimensions are unbounded.", "anchors": ["distbench_utils.cc:GetCanonicalDistributionConfig"]}
{"id": "C14", "title": "Samples lie in the configured support", "statement": "Every sample drawn from a generator built from a canonical distribution has one coordinate per dimension and each coordinate equals the exact value or lies in the closed interval of one of the configured points, all coordinates from the same point, which has positive probability; and every such tuple can be drawn.  (Interval bounds within 32 bits.)", "quantifier": "every distribution and every random draw", "why_tests_cant": "Random draws are sampled by tests; a rare out-of-range sample would go unnoticed.", "anchors": ["joint_distribution_sample_generator.cc:InitializeWithPmf", "joint_distribution_sample_generator.cc:GetRandomSample"]}
{"id": "C15", "title": "Constraint semantics", "statement": "A constraint list is satisfied iff every constraint set in it has at least one satisfied constraint; a constraint is satisfied iff the node has the attribute and one of the listed values compares as requested; an unparsable integer attribute or a missing attribute never satisfies a constraint.", "quantifier": "every attribute list and every constraint list", "why_tests_cant": "Nesting and lengths are unbounded.", "anchors": ["distbench_utils.cc:CheckConstraintList", "distbench_utils.cc:CheckConstraintSet", "distbench_utils.cc:CheckConstraint", "distbench_utils.cc:CheckStringConstraint", "distbench_utils.cc:CheckIntConstraint"]}
{"id": "C16", "title": "Placement puts every service instance on exactly one node", "statement": "When placement succeeds, only instances of the test are placed, only on registered nodes, and every service instance of the test that is not at the same time bundled and constrained is on exactly one node; every registered node has an entry in the result.", "quantifier": "every set of registered nodes, bundles, constraints and services", "why_tests_cant": "The solver's greedy choices depend on every combination of bundles, constraints and free nodes.", "anchors": ["distbench_test_sequencer.cc:ConstraintSolver", "distbench_test_sequencer.cc:PlaceServices"]}
{"id": "C17", "title": "Placement honours node bundles", "statement": "When placement succeeds every instance listed in a node-service bundle is placed on the node named by the bundle, and a bundle naming an unknown node, an unknown instance, or an instance already bundled is an error.", "quantifier": "every set of registered nodes, bundles, constraints and services", "why_tests_cant": "Combinatorial space of inputs.", "anchors": ["distbench_test_sequencer.cc:ConstraintSolver"]}
{"id": "C18", "title": "Placement honours constraints", "statement": "When placement succeeds, each instance that is constrained (by its own name or by a wildcard for its service, the former taking precedence) and not bundled sits on a node whose attributes satisfy the constraint list.", "quantifier": "every set of registered nodes, bundles, constraints and services", "why_tests_cant": "Combinatorial space of inputs.", "anchors": ["distbench_test_sequencer.cc:ConstraintSolver"]}
{"id": "C19", "title": "Placement spreads unbundled services over distinct nodes", "statement": "When placement succeeds, a node that is not named in a bundle hosts at most one service instance, bundle nodes host only bundled instances, and placement fails when there are more unbundled instances than free nodes.", "quantifier": "every set of registered nodes, bundles, constraints and services", "why_tests_cant": "Combinatorial space of inputs.", "anchors": ["distbench_test_sequencer.cc:ConstraintSolver"]}
{"id": "C20", "title": "Fan-out targets are valid and exclude self", "statement": "For every fan-out filter, every target chosen is an instance of the server service, and an instance never targets itself when the RPC stays within its own service, provided the sender's coordinate lies in the server's grid for the same_* filters.", "quantifier": "every filter, service size, client instance, iteration and random draw", "why_tests_cant": "Random draws and sizes are unbounded; the fan-out tests use a few shapes.", "anchors": ["distbench_engine.cc:PickRpcFanoutTargets"]}
{"id": "C21", "title": "Fan-out all reaches every peer once", "statement": "With filter all, one iteration sends exactly one RPC to every instance of the server service, except the sender itself when client and server service coincide; the order starts after the sender and wraps around.", "quantifier": "every service size and sender", "why_tests_cant": "Sizes are unbounded.", "anchors": ["distbench_engine.cc:PickRpcFanoutTargets"]}
{"id": "C22", "title": "Round-robin fan-out is fair", "statement": "With filter round_robin, any run of iterations that follow one another and whose length is the number of eligible targets hits each eligible target exactly once.", "quantifier": "every service size, sender and starting iteration", "why_tests_cant": "Unbounded iteration histories.", "anchors": ["distbench_engine.cc:PickRpcFanoutTargets", "distbench_engine.cc:RunRpcActionIterationCommon"]}
{"id": "C23", "title": "Random fan-out can reach exactly the eligible targets", "statement": "With filter random, each draw selects exactly one eligible target and each eligible target is selected by exactly one value of the uniform draw (so the choice is uniform).", "quantifier": "every service size, sender and random draw", "why_tests_cant": "A statistical test cannot establish uniformity.", "anchors": ["distbench_engine.cc:PickRpcFanoutTargets"]}
{"id": "C24", "title": "Stochastic fan-out picks distinct random targets", "statement": "With filter stochastic{p:n,...}, an iteration targets min(n, eligible) distinct instances chosen at random.", "quantifier": "every stochastic specification, service size and random draw", "why_tests_cant": "Random; existing test only checks the total number of RPCs.", "anchors": ["distbench_engine.cc:PickRpcFanoutTargets"]}
{"id": "C25", "title": "Ring fan-out forms cycles", "statement": "With filter ring_x/y/z each instance targets exactly its successor along the axis with the other coordinates unchanged; every instance is the target of exactly one sender, and following targets returns to the sender after exactly the axis length; alternating rings reverse direction on odd rows.", "quantifier": "every grid shape and instance", "why_tests_cant": "Shapes unbounded.", "anchors": ["distbench_engine.cc:PickRingTargets"]}
{"id": "C26", "title": "Linear fan-out stays in range and within distance", "statement": "With filter linear_x/y/z{d} the only target is the instance at distance d along the axis with the other coordinates unchanged; there is none if that lies outside the grid or is the sender itself.", "quantifier": "every grid shape, instance and distance", "why_tests_cant": "Shapes unbounded.", "anchors": ["distbench_engine.cc:PickLinearTargets"]}
{"id": "C27", "title": "Same-coordinate fan-out selects exactly the matching hyperplane", "statement": "With filter same_x/y/z/xy/xz/yz/xyz the targets are exactly the instances agreeing with the sender on the named coordinates, without the sender itself in its own service, each once, when client and server grids have the same shape.", "quantifier": "every grid shape, instance and filter of the family", "why_tests_cant": "Shapes unbounded.", "anchors": ["distbench_engine.cc:PickGridTargets"]}
{"id": "C28", "title": "Accepted action lists have acyclic resolvable dependencies", "statement": "When the engine accepts a traffic configuration, every action's dependencies refer to actions listed earlier in the same action list, every RPC, action list, activity, trace, delay distribution and payload override an action names exists, and configurations violating this are rejected with an error.", "quantifier": "every traffic configuration", "why_tests_cant": "Unbounded number of names and reference graphs.", "anchors": ["distbench_engine.cc:InitializeTables"]}
{"id": "C29", "title": "An action starts only after its dependencies", "statement": "In every execution of an action list, an action is started at most once and only after every action it depends on has finished (or was skipped), and after the delay drawn for it, if it has one, has passed since then.", "quantifier": "every accepted action list and every order in which started actions finish", "why_tests_cant": "The completion order is chosen by the network; tests see a handful of schedules.", "anchors": ["distbench_engine.cc:RunActionList"]}
{"id": "C30", "title": "Action lists make progress and terminate", "statement": "As long as every started action eventually finishes, RunActionList eventually finishes all actions: if the list has not been canceled every action has then finished or been skipped, and at no time is its thread blocked while nothing is running.", "quantifier": "every accepted action list and completion order", "why_tests_cant": "Deadlock freedom over all schedules.", "anchors": ["distbench_engine.cc:RunActionList", "distbench_engine.cc:HandleFinishedActions"]}
{"id": "C31", "title": "Exactly one response per RPC", "statement": "Each execution of an action list on behalf of an incoming RPC sends the response exactly once, at the completion of the first action started that is marked send_response_when_done (or is the only one of the list), or else at the end of the list, and frees the RPC state exactly once afterwards.", "quantifier": "every action list, flags and completion order", "why_tests_cant": "Double-send or lost response depends on schedule.", "anchors": ["distbench_engine.cc:RunActionList", "protocol_driver.cc:ServerRpcState"]}
{"id": "C32", "title": "Predicates gate actions", "statement": "An action with predicates is run iff all its predicates hold and is otherwise skipped, as are the actions depending on a skipped action; skipped actions run no iterations.", "quantifier": "every action list and predicate outcome", "why_tests_cant": "Unbounded combinations.", "anchors": ["distbench_engine.cc:RunActionList"]}
{"id": "C33", "title": "Closed-loop iteration counts are exact", "statement": "An action with max_iteration_count n>0 and no other limit performs exactly n iterations, numbered 0..n-1 without repetition, whatever the order in which iterations complete, and then finishes exactly once.", "quantifier": "every n, parallelism and completion schedule", "why_tests_cant": "Concurrent completions race on the iteration counters.", "anchors": ["distbench_engine.cc:StartNewIterations", "distbench_engine.cc:FinishIteration", "distbench_engine.cc:InitiateAction"]}
{"id": "C34", "title": "Parallelism bound", "statement": "At any time at most max_parallel_iterations iterations of a closed-loop action are in flight, and while unissued iterations remain and no limit or cancellation occurred exactly that many are in flight after every completion.", "quantifier": "every schedule of completions", "why_tests_cant": "Depends on interleavings.", "anchors": ["distbench_engine.cc:StartNewIterations", "distbench_engine.cc:FinishIteration"]}
{"id": "C35", "title": "Cancellation stops new iterations", "statement": "After cancellation (or expiry of the time limit) a closed-loop action starts no further iterations than those already being issued, and finishes exactly once when the in-flight ones complete.  (Open-loop actions are the subject of a separate property.)", "quantifier": "every schedule of completions and cancellation point", "why_tests_cant": "Cancellation point is arbitrary.", "anchors": ["distbench_engine.cc:FinishIteration", "distbench_engine.cc:CancelActivities", "distbench_engine.cc:WaitForAllPendingActions"]}
{"id": "C36", "title": "Warmup marking", "statement": "An RPC is marked warmup iff the enclosing action list runs on behalf of a warmup RPC or the iteration number is below warmup_iterations; the flag travels with the request through every chain of RPCs and nested action lists.  (Replayed traces are the subject of a separate property.)", "quantifier": "every iteration number, nesting depth and configuration", "why_tests_cant": "Unbounded nesting.", "anchors": ["distbench_engine.cc:StartIteration", "distbench_engine.cc:RunRpcActionIterationCommon"]}
{"id": "C37", "title": "Latency sample retention", "statement": "When a run of an action list makes at most max_rpc_samples RPCs, all samples are reported; otherwise exactly max_rpc_samples distinct recorded samples are reported; nothing else is ever reported.  Without a positive max_rpc_samples all are reported.  No sample is read before it was written, and recording never blocks for ever.", "quantifier": "every number of RPCs, limit, random draw and thread schedule", "why_tests_cant": "Unbounded histories and random draws.", "anchors": ["distbench_engine.cc:RecordLatency", "distbench_engine.cc:UnpackLatencySamples"]}
{"id": "C38", "title": "Sample retention does not depend on completion order", "statement": "The retained samples depend only on the sample numbers and the slot drawn for each, not on the order in which threads deliver them.", "quantifier": "every permutation of deliveries", "why_tests_cant": "Thread scheduling picks the permutation.", "anchors": ["distbench_engine.cc:RecordLatency", "distbench_engine.cc:UnpackLatencySamples"]}
{"id": "C39", "title": "Error dictionary", "statement": "Index 0 always denotes the empty message; asking for the index of a message twice gives the same index, distinct messages get distinct indices, and the reported dictionary maps each returned index back to the message.", "quantifier": "every sequence of lookups", "why_tests_cant": "Unbounded history.", "anchors": ["distbench_engine.cc:ThreadSafeDictionary"]}
{"id": "C40", "title": "Replay executes each record of this client exactly once", "statement": "A replayed trace never issues a record twice, nor one that belongs to another client instance, and each goes to the server its record names; fields a record leaves out are those of the trace's defaults.  The replay ends only when every record of this instance has been issued and has completed, each with exactly one sample giving its start and duration; if the records with distances are timed relative to prior RPCs and all name a server, it can always come to that end and takes a bounded number of steps.", "quantifier": "every trace and completion order", "why_tests_cant": "Unbounded traces and schedules.", "anchors": ["distbench_engine.cc:RunRpcReplayTrace"]}
{"id": "C41", "title": "Replay respects prior-RPC dependencies", "statement": "A record timed relative to the start of prior RPCs is issued only after each of those it refers to was issued and the delay has passed since; one timed relative to their end only after each has ended and the delay has passed since the end of one of them; one that refers to none only when its time since the start of traffic or of the trace has passed.", "quantifier": "every trace, delay and completion order", "why_tests_cant": "Unbounded traces and schedules.", "anchors": ["distbench_engine.cc:RunRpcReplayTrace"]}
{"id": "C42", "title": "Accepted traces only reference existing instances and records", "statement": "A replay trace that passes validation names only existing client and server instances, and distances only reach records of the same trace.", "quantifier": "every trace", "why_tests_cant": "Unbounded traces.", "anchors": ["distbench_utils.cc:ValidateRpcReplayTrace"]}
{"id": "C43", "title": "Node registration gives unique ids and aliases", "statement": "After any sequence of registrations, distinct nodes have distinct ids and aliases, alias equals \"node\" followed by the id, a node keeps its id when it registers again, and a conflicting or malformed registration is rejected without changing the table.", "quantifier": "every sequence of registration requests", "why_tests_cant": "Unbounded histories.", "anchors": ["distbench_test_sequencer.cc:RegisterNode"]}
{"id": "C44", "title": "One test sequence at a time", "statement": "At most one test sequence runs at any moment; when a new one arrives the running one is cancelled and the new one starts only after it has ended.", "quantifier": "every interleaving of RunTestSequence calls", "why_tests_cant": "Concurrent callers.", "anchors": ["distbench_test_sequencer.cc:RunTestSequence", "distbench_test_sequencer.cc:DoRunTestSequence"]}
{"id": "C45", "title": "Sequence results are a prefix", "statement": "The reported results are those of the tests in order; when a test fails, the sequence stops and returns the error; later tests are not run.", "quantifier": "every sequence and failure point", "why_tests_cant": "Unbounded sequences.", "anchors": ["distbench_test_sequencer.cc:DoRunTestSequence"]}
{"id": "C46", "title": "A node failure fails the test", "statement": "ConfigureNodes, IntroducePeers and RunTraffic report success iff every involved node reported success, whatever the order in which nodes answer.", "quantifier": "every set of nodes, outcomes and answer order", "why_tests_cant": "Unbounded node sets and orders.", "anchors": ["distbench_test_sequencer.cc:ConfigureNodes", "distbench_test_sequencer.cc:IntroducePeers", "distbench_test_sequencer.cc:RunTraffic"]}
{"id": "C47", "title": "Thread pools run every task exactly once", "statement": "Every task added to an elastic or simple thread pool is executed exactly once, and destroying the pool returns only after all added tasks have finished.", "quantifier": "every interleaving of AddTask calls, worker steps and destruction", "why_tests_cant": "Interleavings are unbounded.", "anchors": ["distbench_threadpool.cc:ElasticThreadpool", "distbench_threadpool.cc:SimpleThreadpool"]}
{"id": "C48", "title": "Elastic pool never strands a queued task", "statement": "Whenever a task is waiting in an elastic pool's queue there is an idle worker committed to take it, and idle workers never exceed the configured maximum by more than those committed.", "quantifier": "every interleaving", "why_tests_cant": "Interleavings are unbounded.", "anchors": ["distbench_threadpool.cc:ElasticThreadpool"]}
{"id": "C49", "title": "Overload callback fires at most once", "statement": "The overload abort callback is invoked at most once per configured threshold, only when the number of live registered threads exceeds it.", "quantifier": "every interleaving of thread starts, exits and threshold changes", "why_tests_cant": "Interleavings are unbounded.", "anchors": ["distbench_thread_support.cc:RunRegisteredThread", "distbench_thread_support.cc:SetOverloadAbortThreshhold"]}
{"id": "C50", "title": "Protocol driver allocation terminates", "statement": "Allocating a protocol driver always terminates: alias chains, alias cycles and nested composite drivers deeper than the limit produce an error rather than looping.", "quantifier": "every alias resolver and option set", "why_tests_cant": "Alias graphs are arbitrary.", "anchors": ["protocol_driver_allocator.cc:AllocateProtocolDriver"]}
{"id": "C51", "title": "Double barrel balances the two instances", "statement": "After any sequence of RPCs the two underlying instances have been used a number of times differing by at most one.", "quantifier": "every sequence of RPC initiations", "why_tests_cant": "Unbounded histories.", "anchors": ["protocol_driver_double_barrel.cc:InitiateRpc"]}
{"id": "C52", "title": "RPC counters count every RPC", "statement": "The client counter reported by the composable counter is the number of InitiateRpc calls that have returned and the server counter the number of RPCs received, so that with no call under way they are the numbers of RPCs initiated and handled; other transport statistics pass through unchanged.", "quantifier": "every interleaving of initiations and handlings", "why_tests_cant": "Unbounded histories.", "anchors": ["composable_rpc_counter.cc:ComposableRpcCounter"]}
{"id": "C53", "title": "Address selection", "statement": "Call an address usable if its text begins neither with fe80: nor with 169.254.255. The address chosen for a device is a usable address of that device (of any device if none is named); choosing fails exactly if there is none; on a named device the preferred IP version is chosen whenever a usable address has it; and when IP version 4 or 6 is demanded the chosen address has it.", "quantifier": "every list of interface addresses", "why_tests_cant": "Depends on host configuration.", "anchors": ["distbench_netutils.cc:GetBestAddress", "distbench_netutils.cc:IpAddressForDevice"]}
{"id": "C54", "title": "Latency summary reports order statistics", "statement": "The reported min, median, percentiles and max are elements of the recorded latencies in ascending order with the stated ranks.", "quantifier": "every non-empty list of latencies", "why_tests_cant": "Unbounded lists.", "anchors": ["distbench_summary.cc:LatencySummary"]}
{"id": "C55", "title": "Trace context records the path", "statement": "Each hop appends exactly one entry to every parallel array of the trace context, so after any chain of RPCs the arrays have equal length and list the hops in order.", "quantifier": "every chain of nested RPCs", "why_tests_cant": "Unbounded nesting.", "anchors": ["distbench_engine.cc:RunRpcActionIterationCommon"]}
{"id": "C56", "title": "Cancellation keeps the first reason", "statement": "When traffic is cancelled several times the reported reason is that of the first cancellation.", "quantifier": "every sequence of cancellations", "why_tests_cant": "Racing cancellations.", "anchors": ["distbench_engine.cc:CancelTraffic"]}
{"id": "C57", "title": "Test sequence timeout", "statement": "The timeout the client computes for a test sequence is the sum of the tests' timeouts if all give a positive one; otherwise the first test that does not decides: the default is used if it gives none (or if there are no tests), and the sequence is refused if it gives a non-positive or non-numeric one. (The smallest 64-bit integer is C107, sums beyond 64 bits are C108.)", "quantifier": "every sequence of tests", "why_tests_cant": "Unbounded sequences.", "anchors": ["distbench_busybox.cc:GetTestSequenceTimeout", "distbench_utils.cc:GetNamedAttributeInt64"]}
{"id": "C58", "title": "Canonicalization is idempotent", "statement": "Canonicalizing an accepted service specification again accepts it and changes nothing.", "quantifier": "every accepted service specification", "why_tests_cant": "Value and presence combinations are unbounded, and nodes re-canonicalize what the sequencer already canonicalized.", "anchors": ["distbench_utils.cc:GetCanonicalServiceSpec"]}
{"id": "C59", "title": "Only real probabilities are accepted", "statement": "Every accepted distribution has only finite, non-negative probabilities. ", "quantifier": "every distribution configuration", "why_tests_cant": "Values are unbounded and floating-point comparisons have special cases.", "anchors": ["distbench_utils.cc:ValidatePmfConfig", "distbench_utils.cc:ValidateCdfConfig"]}
{"id": "C60", "title": "64-bit value ranges are honoured", "statement": "Distributions whose values do not fit in 32 bits are converted and sampled like any other. ", "quantifier": "every distribution with 64-bit bounds", "why_tests_cant": "The range of values is 2^64; defects sit at the boundaries.", "anchors": ["joint_distribution_sample_generator.cc:InitializeWithPmf", "distbench_utils.cc:GetCanonicalDistributionConfig"]}
{"id": "C61", "title": "Checking constraints always gives a verdict", "statement": "For every constraint list and every set of node attributes, checking the constraints gives true or false; it never crashes the sequencer.", "quantifier": "every attribute list and every constraint list, including modulo constraints with the modulus left unset", "why_tests_cant": "The crash needs a particular attribute value together with a particular (unset) field of the constraint.", "anchors": ["distbench_utils.cc:CheckIntConstraint", "distbench_utils.cc:CheckConstraintList"]}
{"id": "C62", "title": "Bundled and constrained instances are placed once", "statement": "When placement succeeds, an instance that is both listed in a node bundle and subject to a constraint is on exactly one node.", "quantifier": "every set of registered nodes, bundles, constraints and services", "why_tests_cant": "Needs the interaction of two independent configuration features.", "anchors": ["distbench_test_sequencer.cc:ConstraintSolver"]}
{"id": "C63", "title": "Placement finds a placement if there is one", "statement": "If the bundles are consistent and some assignment of the remaining instances to distinct free nodes satisfies every constraint, placement succeeds.", "quantifier": "every set of registered nodes, bundles, constraints and services", "why_tests_cant": "Whether a greedy choice is good depends on every later constraint; examples cannot show that no instance is missed.", "anchors": ["distbench_test_sequencer.cc:ConstraintSolver"]}
{"id": "C64", "title": "Round-robin stays fair when iterations overlap", "statement": "Also when iterations of a round_robin RPC run in parallel, any run of iterations as long as the number of eligible targets hits each of them once.", "quantifier": "every interleaving of the iterations", "why_tests_cant": "Needs two iterations to choose between the same two increments of a counter.", "anchors": ["distbench_engine.cc:PickRpcFanoutTargets", "distbench_engine.cc:RunRpcActionIterationCommon"]}
{"id": "C65", "title": "Same-coordinate filters between services of different shapes", "statement": "A same_* filter only ever selects existing instances of the server service, also when the sender's coordinate lies outside the server's grid.", "quantifier": "every pair of grid shapes and every sender", "why_tests_cant": "Existing tests only use equal shapes.", "anchors": ["distbench_engine.cc:PickGridTargets"]}
{"id": "C66", "title": "Fan-out filter texts denote the filter they name", "statement": "The documented filter names select the corresponding filter, linear_a{d} uses exactly the number written as distance, an accepted stochastic filter has at least one entry with probabilities in [0,1] and non-negative target counts, and any other name is rejected with an error.", "quantifier": "every filter text", "why_tests_cant": "Infinite set of texts.", "anchors": ["distbench_engine.cc:InitializeRpcFanoutFilter"]}
{"id": "C67", "title": "Malformed linear distances are rejected", "statement": "A linear filter whose parameter is not exactly a number in braces is rejected with an error.", "quantifier": "every parameter text", "why_tests_cant": "Infinite set of texts; the accepted malformed ones are corner cases of the scanning function used.", "anchors": ["distbench_engine.cc:InitializeRpcFanoutFilter"]}
{"id": "C68", "title": "Accepted activities are runnable", "statement": "An accepted activity configuration names one of the known activities, and its array sizes, read counts and durations are positive; an unknown activity is rejected. A configuration of a known activity with positive sizes, counts and durations (or none where there is a default) is accepted, with these values.", "quantifier": "every activity configuration", "why_tests_cant": "Settings are arbitrary 64-bit values.", "anchors": ["activity.cc:ParseActivityConfig", "distbench_engine.cc:InitializeActivityConfigMap"]}
{"id": "C69", "title": "RPC payload sizes are the configured ones", "statement": "An RPC without a joint distribution sends requests and responses of the size its payload specification gives, or of a size drawn from the size distribution the payload names, and of 16 and 32 bytes when there is no such payload or it gives no size.", "quantifier": "every accepted configuration and every RPC in it", "why_tests_cant": "Arbitrary combinations of names and 64-bit sizes.", "anchors": ["distbench_engine.cc:InitializeRpcDefinitionsMap", "distbench_engine.cc:GetPayloadSize", "distbench_engine.cc:GetPayloadSizeIndex"]}
{"id": "C70", "title": "Unknown multi-server channels are rejected", "statement": "An RPC that names a multi-server channel uses the first channel of that name of its server; naming one the server does not have is an error. ", "quantifier": "every configuration and every RPC in it", "why_tests_cant": "Arbitrary numbers of channels and RPCs.", "anchors": ["distbench_engine.cc:InitializeRpcDefinitionsMap"]}
{"id": "C71", "title": "Predicate names do not start with an exclamation mark", "statement": "No accepted description has a predicate whose name is empty or starts with '!'.", "quantifier": "every system description", "why_tests_cant": "Infinite set of names.", "anchors": ["distbench_utils.cc:GetCanonicalDistributedSystemDescription"]}
{"id": "C72", "title": "An action runs the RPC it names", "statement": "In an accepted configuration every action that names an RPC issues an RPC of that name.", "quantifier": "every accepted configuration and every action in it", "why_tests_cant": "Arbitrary sets of names.", "anchors": ["distbench_engine.cc:InitializeTables", "distbench_utils.cc:EnumerateRpcs"]}
{"id": "C73", "title": "Drawing from accepted distributions does not abort", "statement": "In an accepted configuration no draw of an action delay or of a payload size aborts the process. ", "quantifier": "every accepted configuration and every random outcome", "why_tests_cant": "Arbitrary distributions and random outcomes.", "anchors": ["distbench_engine.cc:InitializeSampleGenerators", "joint_distribution_sample_generator.cc:GetScalarRandomSample"]}
{"id": "C74", "title": "RPCs are bound to their handler, clients and servers", "statement": "In an accepted configuration an engine serves exactly the RPCs whose server is its service, may send exactly those it is listed as a client of, handles a received RPC with the action list of the same name (or replies at once if that list is empty), and connects to exactly the services it is a client of.", "quantifier": "every accepted configuration with distinct names, and every service", "why_tests_cant": "Arbitrary sets of names.", "anchors": ["distbench_engine.cc:InitializeTables", "distbench_engine.cc:InitializeRpcDefinitionsMap"]}
{"id": "C75", "title": "A validated configuration is accepted by every engine", "statement": "If the configuration check accepts a configuration, then the engine of every instance of every service accepts it.", "quantifier": "every configuration with distinct canonical services, every instance", "why_tests_cant": "The check only ever looks at one fixed grid position per service.", "anchors": ["distbench_engine.cc:ValidateTrafficConfig", "distbench_engine.cc:InitializeConfig"]}
{"id": "C76", "title": "Canonical descriptions", "statement": "Canonicalizing a system description canonicalizes every service, in order, changes nothing else, and accepts only known open-loop interval distributions.", "quantifier": "every system description", "why_tests_cant": "Arbitrary descriptions.", "anchors": ["distbench_utils.cc:GetCanonicalDistributedSystemDescription", "distbench_utils.cc:ValidateIterations"]}
{"id": "C77", "title": "Running an action list never aborts the process", "statement": "Running an accepted action list and collecting its results never aborts the process or touches invalid memory. ", "quantifier": "every accepted action list, every schedule and every outcome of the predicates", "why_tests_cant": "Arbitrary lists and schedules.", "anchors": ["distbench_engine.cc:RunActionList", "distbench_engine.cc:InitiateAction", "distbench_engine.cc:UpdateActivitiesLog"]}
{"id": "C78", "title": "Response size overrides", "statement": "The response has the payload size selected by an action that does nothing but name a response payload: that of the action whose completion sends it, or else of the last such action to have finished; skipped actions do not count, and without one the size of the RPC applies.", "quantifier": "every accepted action list and completion order", "why_tests_cant": "Depends on the order in which actions finish.", "anchors": ["distbench_engine.cc:RunActionList", "distbench_engine.cc:FinishAction", "distbench_engine.cc:ComputeResponseSize"]}
{"id": "C79", "title": "A started RPC action can finish", "statement": "An RPC action that was started never leaves its action list waiting forever: whatever the state of the list, it can still finish. ", "quantifier": "every accepted action list and every reachable state", "why_tests_cant": "A hang is an infinite execution.", "anchors": ["distbench_engine.cc:InitiateAction", "distbench_engine.cc:RunActionList"]}
{"id": "C80", "title": "Activities run as often as configured", "statement": "An activity with max_iteration_count n>0 and no time limit, if it is not cancelled, runs exactly n times, never two runs at once, and then finishes exactly once.", "quantifier": "every n, parallelism setting and schedule", "why_tests_cant": "Unbounded counts; the runs are spread over visits of the list's thread.", "anchors": ["distbench_engine.cc:RunActivity", "distbench_engine.cc:FinishIteration", "distbench_engine.cc:StartNewIterations"]}
{"id": "C81", "title": "Open-loop iteration counts are exact", "statement": "An open-loop action with max_iteration_count n>0 starts iterations 0,1,2,... without repetition and never more than n; if it is not cancelled it finishes at most once, only when nothing is in flight and it is over, and it has finished when nothing is in flight after all n iterations were started or the next one would be beyond the time limit.", "quantifier": "every n, every schedule of visits, completions and clock readings", "why_tests_cant": "Visits of the list's thread race with completions.", "anchors": ["distbench_engine.cc:StartOpenLoopIteration", "distbench_engine.cc:FinishIteration"]}
{"id": "C82", "title": "Open-loop start times", "statement": "With a constant interval, iteration k of an open-loop action starts later than k intervals after the action was initiated, and no iteration but the first is due beyond the time limit; with sync_burst the first is due at the next multiple of the interval, so services with synchronized clocks start together.", "quantifier": "every interval, clock history and schedule", "why_tests_cant": "Arbitrary clock readings.", "anchors": ["distbench_engine.cc:StartOpenLoopIteration", "distbench_engine.cc:InitiateAction"]}
{"id": "C83", "title": "Cancelled open-loop actions finish exactly once", "statement": "An open-loop action that is cancelled finishes exactly once. ", "quantifier": "every schedule and cancellation point", "why_tests_cant": "Cancellation point is arbitrary; a hang is an infinite execution.", "anchors": ["distbench_engine.cc:FinishIteration", "distbench_engine.cc:WaitForAllPendingActions"]}
{"id": "C84", "title": "Every accepted iteration count works", "statement": "An accepted action with a limited number of iterations is initiated without aborting the process and finishes. ", "quantifier": "every iteration count, parallelism setting and schedule", "why_tests_cant": "A hang is an infinite execution.", "anchors": ["distbench_engine.cc:InitiateAction", "distbench_engine.cc:StartNewIterations"]}
{"id": "C85", "title": "Iteration counters never overflow", "statement": "However long a closed-loop action runs, its iteration counters do not overflow. ", "quantifier": "every length of the execution", "why_tests_cant": "Needs 2^31 iterations.", "anchors": ["distbench_engine.cc:FinishIteration", "distbench_engine.h:ActionState"]}
{"id": "C86", "title": "Samples describe the RPC they were taken from", "statement": "A reported sample has the sizes, start time, latency, weight, trace, warmup flag and error message of the RPC it was taken from and is filed under its peer, RPC and outcome, whether or not the number of samples is limited.", "quantifier": "every RPC and state of the error dictionary", "why_tests_cant": "Every combination of field values and of earlier errors.", "anchors": ["distbench_engine.cc:RecordPackedLatency", "distbench_engine.cc:UnpackLatencySamples", "distbench_engine.cc:RecordLatency"]}
{"id": "C87", "title": "Every RPC has the same chance of being sampled", "statement": "When an action list makes more RPCs than max_rpc_samples, each of them is reported in the same fraction, max_rpc_samples divided by the number of RPCs, of the equally likely random draws.", "quantifier": "every number of RPCs and every limit", "why_tests_cant": "A statement about all possible draws.", "anchors": ["distbench_engine.cc:RecordLatency"]}
{"id": "C88", "title": "The log of a service instance is complete", "statement": "The log lists, under the name of each peer and for each RPC and outcome, exactly the samples reported by the runs of action lists, once each, run by run; under other names it lists nothing.", "quantifier": "every set of distinctly named peers and every sequence of runs", "why_tests_cant": "Unbounded number of runs and samples.", "anchors": ["distbench_engine.cc:GetLogs", "distbench_engine.cc:RunActionList"]}
{"id": "C89", "title": "Replay delay counts from the latest end", "statement": "A record timed relative to the end of several prior RPCs is not issued before the delay has passed since the end of each of them.", "quantifier": "every trace, schedule of callbacks and completion order", "why_tests_cant": "Depends on a race between completion callbacks.", "anchors": ["distbench_engine.cc:ActivateEndDeps", "distbench_engine.cc:Run"]}
{"id": "C90", "title": "Every accepted trace is replayed to its end", "statement": "A trace that the replay starts on comes to an end if all its RPCs complete.", "quantifier": "every trace with valid distances and servers", "why_tests_cant": "Absence of an ending over all schedules cannot be tested.", "anchors": ["distbench_engine.cc:SetupDependencies", "distbench_engine.cc:Run"]}
{"id": "C91", "title": "Without distances the preceding RPC is meant", "statement": "A record timed relative to a prior RPC that lists no distances is timed relative to the immediately preceding record, as documented.", "quantifier": "every trace and schedule", "why_tests_cant": "Ranges over all traces and schedules.", "anchors": ["traffic_config.proto:RpcReplayTraceRecord", "distbench_engine.cc:SetupDependencies"]}
{"id": "C92", "title": "Replayed RPCs have the recorded sizes", "statement": "Each replayed RPC is sent with the request size of its record and asks for its response size.", "quantifier": "every trace and schedule", "why_tests_cant": "Ranges over all traces and schedules.", "anchors": ["distbench_engine.cc:Run"]}
{"id": "C93", "title": "Tracing interval", "statement": "Of the iterations of an RPC with a positive tracing_interval, exactly those whose number is a multiple of it start a trace; without one, none does.", "quantifier": "every iteration number and interval", "why_tests_cant": "The deviation needs two billion iterations.", "anchors": ["distbench_engine.cc:RunRpcActionIterationCommon", "distbench_engine.h:rpc_tracing_counter"]}
{"id": "C94", "title": "Contents of requests", "statement": "An iteration of an RPC action makes exactly one RPC to each chosen target, with the index of the RPC and the warmup flag of the iteration; all have the same request size: the joint sample's first field, else the draw for the action's payload override, else the draw for the RPC's payload, else the fixed size; the response size is asked for only with a joint sample (its second field, or the first if there is one only).", "quantifier": "every iteration, list of targets and way to choose sizes", "why_tests_cant": "Ranges over arbitrary target lists and samples.", "anchors": ["distbench_engine.cc:RunRpcActionIterationCommon"]}
{"id": "C95", "title": "Every request is answered once", "statement": "Every request except a replayed one gets exactly one response and then its state is freed once, whichever server driver is used; requests after the grace period of a cancellation, with an index out of range or one not meant for the service, are answered with an error that says so; others run their action list, or without one are answered at once with the size asked for or else the size of the RPC.", "quantifier": "every server table, cancellation state, request and server driver", "why_tests_cant": "Ranges over arbitrary (also malformed) requests.", "anchors": ["distbench_engine.cc:RpcHandler", "distbench_engine.cc:ComputeResponseSize", "protocol_driver_grpc.cc", "protocol_driver_homa.cc", "protocol_driver_mercury.cc"]}
{"id": "C96", "title": "Replayed RPCs are answered", "statement": "A replayed RPC gets exactly one response, of the size its record asks for.", "quantifier": "every server state and replayed request", "why_tests_cant": "Absence of a response in all executions.", "anchors": ["distbench_engine.cc:RpcHandler", "protocol_driver_grpc.cc:TrafficServiceAsyncCallback", "protocol_driver_homa.cc:ServerThread"]}
{"id": "C97", "title": "Replay logs tell where they come from", "statement": "The log of a replay carries the warmup flag and a trace context whose arrays have one entry for every hop, ending with the place the replay was started from.", "quantifier": "every chain of RPCs and place", "why_tests_cant": "Ranges over unbounded chains.", "anchors": ["distbench_engine.cc:InitiateAction", "distbench_engine.cc:RunRpcReplayTrace", "distbench.proto:RpcReplayTraceLog"]}
{"id": "C98", "title": "Overload spreads one hop", "statement": "When traffic on an engine was cancelled because resources are exhausted, each client that gets a response from it after the grace period cancels its own traffic, naming the peer's reason; other reasons do not spread, and neither does a cancellation caused by a peer.", "quantifier": "every cancellation reason, request and time", "why_tests_cant": "Ranges over arbitrary reasons and chains of engines.", "anchors": ["distbench_engine.cc:RunRpcActionIterationCommon", "distbench_engine.cc:RpcHandler", "distbench_engine.cc:CancelTraffic"]}
{"id": "C99", "title": "Limit on pending RPCs", "statement": "Traffic is cancelled because of too many pending RPCs if there are more in flight than the limit when one has been initiated, and only then.", "quantifier": "every interleaving of initiations and completions", "why_tests_cant": "Depends on the interleaving of callbacks and initiations.", "anchors": ["distbench_engine.cc:RunRpcActionIterationCommon"]}
{"id": "C100", "title": "Registration is defined for every request", "statement": "Every registration request a node can send is answered, without undefined behaviour in the sequencer.", "quantifier": "every registration table and request", "why_tests_cant": "Depends on extreme ids.", "anchors": ["distbench_test_sequencer.cc:RegisterNode"]}
{"id": "C101", "title": "Every registered node takes part in every round of a test", "statement": "A test consists of four rounds of RPCs (configure, introduce, run, collect). In every round that takes place each node registered when the test began is sent exactly one RPC and nobody else any; a round begins only after all RPCs of the rounds before it succeeded; a test that succeeds had all four rounds.", "quantifier": "every test, set of nodes, outcome of each RPC, answer order and registrations in between", "why_tests_cant": "Unbounded node sets, failures and orders.", "anchors": ["distbench_test_sequencer.cc:DoRunTest", "distbench_test_sequencer.cc:ConfigureNodes", "distbench_test_sequencer.cc:IntroducePeers", "distbench_test_sequencer.cc:RunTraffic"]}
{"id": "C102", "title": "Nodes are introduced to the right endpoints", "statement": "All nodes are introduced to the same endpoint map, which is also the placement in the result: it has one endpoint for every service instance of the test and no others, and the endpoint of an instance has the host name, attributes and address of the only node told to run it.", "quantifier": "every test, placement, set of nodes and answer order", "why_tests_cant": "Unbounded placements and orders.", "anchors": ["distbench_test_sequencer.cc:ConfigureNodes", "distbench_test_sequencer.cc:IntroducePeers", "distbench_node_manager.cc:ConfigureNode"]}
{"id": "C103", "title": "Registrations during a test do not bring the sequencer down", "statement": "No internal check of the sequencer fails while a test runs, even when nodes register or register again at any moment of it.", "quantifier": "every test and every interleaving with registrations", "why_tests_cant": "Interleavings are unbounded.", "anchors": ["distbench_test_sequencer.cc:DoRunTest", "distbench_test_sequencer.cc:RegisterNode"]}
{"id": "C104", "title": "Every RunTestSequence call is answered", "statement": "If each test ends, every RunTestSequence call is answered: the number of steps other than waiting is bounded, and as long as a call is unanswered some such step is possible.", "quantifier": "every set of concurrent calls and every schedule", "why_tests_cant": "Concurrent callers; liveness.", "anchors": ["distbench_test_sequencer.cc:RunTestSequence"]}
{"id": "C105", "title": "A sequence is cancelled only for a newer request", "statement": "A running test sequence is cancelled only because of a RunTestSequence call that came in after it.", "quantifier": "every interleaving of RunTestSequence calls", "why_tests_cant": "Concurrent callers.", "anchors": ["distbench_test_sequencer.cc:RunTestSequence"]}
{"id": "C106", "title": "Endpoints tell the place in the grid", "statement": "The endpoint a node reports for a service instance carries, after the node's attributes, exactly the coordinates of the instance in the grid of its service: \"index\" for one dimension, \"x_index\" and \"y_index\" for two, and \"z_index\" as well for three.", "quantifier": "every accepted service with a slash-free name and every instance", "why_tests_cant": "Grids are unbounded.", "anchors": ["distbench_node_manager.cc:ConfigureNode", "distbench_utils.cc:GetGridIndexFromName"]}
{"id": "C107", "title": "Negative timeouts are refused", "statement": "The client refuses every test sequence whose first test has a negative timeout.", "quantifier": "every timeout text and every rest of the sequence", "why_tests_cant": "Depends on one extreme value.", "anchors": ["distbench_busybox.cc:GetTestSequenceTimeout"]}
{"id": "C108", "title": "The sequence timeout is always computed", "statement": "For every test sequence the computation of its timeout is defined.", "quantifier": "every list of timeouts", "why_tests_cant": "Overflow needs unbounded sums.", "anchors": ["distbench_busybox.cc:GetTestSequenceTimeout"]}
{"id": "C109", "title": "The client waits as long as the tests may take", "statement": "The time the client waits for a test sequence is not shorter than the sum of the times the sequencer allows its tests.", "quantifier": "every test sequence and every combination of given and absent timeouts", "why_tests_cant": "Two components with separate defaults; combinations are unbounded.", "anchors": ["distbench_busybox.cc:MainRunTests", "distbench_busybox.cc:GetTestSequenceTimeout", "distbench_test_sequencer.cc:DoRunTest"]}
{"id": "C110", "title": "A test may run for its timeout", "statement": "The deadline the sequencer sets for a test that gives a timeout is that number of seconds.", "quantifier": "every timeout", "why_tests_cant": "Depends on extreme values.", "anchors": ["distbench_test_sequencer.cc:DoRunTest", "distbench_utils.cc:SetGrpcClientContextDeadline"]}
{"id": "C111", "title": "The maximum test duration flag overrides all timeouts", "statement": "With --max_test_duration of n >= 1 whole seconds, every test sent to the sequencer may run for n seconds whatever timeout it gave, all its other attributes are as in the file, and the client waits n seconds for each test in the sequence (totals below 2^31 seconds).", "quantifier": "every test sequence and flag value", "why_tests_cant": "Unbounded sequences.", "anchors": ["distbench_busybox.cc:MainRunTests", "distbench_busybox.cc:SetAllTestTimeoutAttributesTo"]}
{"id": "C112", "title": "Link-local addresses are never chosen", "statement": "No link-local address (169.254.0.0/16, fe80::/10) is ever chosen for a device or for the host.", "quantifier": "every list of interface addresses", "why_tests_cant": "Depends on host configuration.", "anchors": ["distbench_netutils.cc:isLinkLocal", "distbench_netutils.cc:GetBestAddress"]}
{"id": "C113", "title": "An address of the demanded IP version is found", "statement": "When IP version 4 or 6 is demanded, an address is found whenever the device (or the host, if no device is named) has a usable address of that version.", "quantifier": "every list of interface addresses, device and version", "why_tests_cant": "Depends on host configuration.", "anchors": ["distbench_netutils.cc:IpAddressForDevice", "distbench_netutils.cc:GetBestAddress"]}
{"id": "C114", "title": "Private addresses are preferred", "statement": "If no device is named, an IPv4 address outside the private networks (10.0.0.0/8, 172.16.0.0/12, 192.168.0.0/16) is chosen only if no usable IPv4 address, equally on or off the loopback device, is inside them.", "quantifier": "every list of interface addresses", "why_tests_cant": "Depends on host configuration.", "anchors": ["distbench_netutils.cc:isPrivate", "distbench_netutils.cc:GetBestAddress"]}
{"id": "C115", "title": "Loopback addresses rank below all others", "statement": "If no device is named, an address of the loopback device is chosen only if no other device has a usable address.", "quantifier": "every list of interface addresses", "why_tests_cant": "Depends on host configuration.", "anchors": ["distbench_netutils.cc:isLoopback", "distbench_netutils.cc:GetBestAddress"]}
{"id": "C116", "title": "Socket address texts are unambiguous", "statement": "The text of a socket address determines the IP address, its version and the port.", "quantifier": "every pair of addresses and ports", "why_tests_cant": "All pairs of inputs.", "anchors": ["distbench_netutils.cc:SocketAddressForIp"]}
{"id": "C117", "title": "Bind addresses", "statement": "The address to bind for a named device with a usable address is the chosen one; otherwise it is a wildcard, and the IPv6 wildcard is used only if IPv4 is not preferred and a usable IPv6 address exists (and always then, if no device is named). The address that a node announces for a service is one of the usable addresses, of the preferred version if the named device has one, and it is the bound one if a device is named; announcing fails exactly if there is no usable address.", "quantifier": "every list of interface addresses, device, port and preference", "why_tests_cant": "Depends on host configuration.", "anchors": ["distbench_netutils.cc:GetBindAddressFromPort", "distbench_netutils.cc:HasOnlyIPv4"]}
{"id": "C118", "title": "6to4 addresses rank like the IPv4 address in them", "statement": "An IPv6 address 2002:uuvv:wwxx::... is taken for private exactly if the IPv4 address u.v.w.x is.", "quantifier": "every 6to4 address", "why_tests_cant": "All addresses.", "anchors": ["distbench_netutils.cc:isPrivate"]}
{"id": "C119", "title": "A task waits only when enough threads exist", "statement": "A task is queued in an elastic thread pool while none of its threads is idle only if at least as many threads as the configured size exist.", "quantifier": "every interleaving of AddTask calls, worker steps and time limits", "why_tests_cant": "Interleavings are unbounded.", "anchors": ["distbench_threadpool.cc:ElasticThreadpool::AddTask"]}
{"id": "C120", "title": "Surplus idle threads retire", "statement": "At most as many threads of an elastic pool as its configured size wait without a time limit. A thread that starts waiting gets a time limit exactly if more threads than that are waiting, and when it is reached the thread ends unless fewer than that would be left waiting.", "quantifier": "every interleaving", "why_tests_cant": "Interleavings are unbounded.", "anchors": ["distbench_threadpool.cc:ElasticThreadpool::TaskLoop"]}
{"id": "C121", "title": "Thread pool statistics", "statement": "The statistics of an elastic pool count exactly the threads it has started, and the completed tasks except those whose thread has not yet come back from the task.", "quantifier": "every interleaving", "why_tests_cant": "Interleavings are unbounded.", "anchors": ["distbench_threadpool.cc:ElasticThreadpool::GetStats"]}
{"id": "C122", "title": "Thread pool creation", "statement": "Creating a thread pool succeeds exactly for positive sizes and known types; the empty type means an elastic pool.", "quantifier": "every type name and size", "why_tests_cant": "All names and sizes.", "anchors": ["distbench_threadpool.cc:CreateThreadpool"]}
{"id": "C123", "title": "Exceeding the thread limit is always noticed", "statement": "While an overload callback is set, the first start of a registered thread that makes more threads live than the positive threshold set last leads to the decision to call it, whatever was set or happened before.", "quantifier": "every interleaving of thread starts, exits and settings", "why_tests_cant": "Interleavings are unbounded.", "anchors": ["distbench_thread_support.cc:RunRegisteredThread", "distbench_thread_support.cc:SetOverloadAbortThreshhold"]}
{"id": "C124", "title": "The overload callback exists when it is called", "statement": "An empty or replaced overload callback is never called.", "quantifier": "every interleaving of thread starts, exits and settings", "why_tests_cant": "A race between a check and a call.", "anchors": ["distbench_thread_support.cc:RunRegisteredThread", "distbench_thread_support.cc:SetOverloadAbortCallback"]}
{"id": "C125", "title": "One latency line for each RPC", "statement": "A summary that is not empty has exactly one latency line for each RPC name with logs, and none for other names; it counts all successful samples after warmup of that RPC, whichever instances exchanged them.", "quantifier": "every test result", "why_tests_cant": "All logs.", "anchors": ["distbench_summary.cc:SummarizeTestResult"]}
{"id": "C126", "title": "One traffic line for each pair", "statement": "A summary that is not empty has exactly one communication line for each pair of initiator and target with logs. It gives the number of their successful RPCs and the total request and response sizes of those after warmup.", "quantifier": "every test result", "why_tests_cant": "All logs.", "anchors": ["distbench_summary.cc:AddCommunicationSummaryTo"]}
{"id": "C127", "title": "Warmup RPCs are left out of the RPC rates", "statement": "The number of RPCs in a communication line is the number of RPCs whose sizes are added up in it.", "quantifier": "every test result", "why_tests_cant": "All logs.", "anchors": ["distbench_summary.cc:SummarizeTestResult"]}
{"id": "C128", "title": "Bytes sent and received balance", "statement": "The summary line of an instance gives the bytes it sent and received in measured RPCs as initiator and as target. Over all instances bytes sent equal bytes received, and equal the total printed.", "quantifier": "every test result", "why_tests_cant": "All logs.", "anchors": ["distbench_summary.cc:AddInstanceSummaryTo"]}
{"id": "C129", "title": "Global counts of samples", "statement": "The summary's total samples, failed samples and total RPCs are the numbers of all, failed and successful samples in the logs.", "quantifier": "every test result", "why_tests_cant": "All logs.", "anchors": ["distbench_summary.cc:AddInstanceSummaryTo"]}
{"id": "C130", "title": "All warmup samples are counted", "statement": "The summary's number of warmup samples is the number of warmup samples in the logs.", "quantifier": "every test result", "why_tests_cant": "All logs.", "anchors": ["distbench_summary.cc:SummarizeTestResult"]}
{"id": "C131", "title": "Rates are over the longest measured time", "statement": "All rates of a summary are over the longest time from the first start to the last end of the measured RPCs of a pair; the summary is empty exactly if no such time is positive.", "quantifier": "every test result with clock readings in range", "why_tests_cant": "All logs.", "anchors": ["distbench_summary.cc:SummarizeTestResult"]}
{"id": "C132", "title": "A test with samples has a summary", "statement": "If samples were logged the summary is not empty and gives their number.", "quantifier": "every test result", "why_tests_cant": "All logs.", "anchors": ["distbench_summary.cc:SummarizeTestResult"]}
{"id": "C133", "title": "The summary does not depend on map order", "statement": "Two results that differ only in the order in which their maps are iterated over have the same summary.", "quantifier": "every test result and every order", "why_tests_cant": "Iteration order of the maps is unspecified.", "anchors": ["distbench_summary.cc:SummarizeTestResult"]}
{"id": "C134", "title": "A summary is always made", "statement": "If the RPC indices in the logs belong to RPC descriptions of the test, summarizing is free of undefined behaviour; no percentile reads beyond the latencies.", "quantifier": "every test result", "why_tests_cant": "All logs and sizes; percentile indices are computed in floating point.", "anchors": ["distbench_summary.cc:LatencySummary", "distbench_summary.cc:SummarizeTestResult"]}
{"id": "C135", "title": "An allocated protocol driver is the one described", "statement": "If allocating a protocol driver succeeds, the driver is the one the options describe: aliases are replaced by the options they stand for, a composite driver stands on the driver named by its last setting for that purpose, both barrels of a double barrel are made from the same options.", "quantifier": "every option table and options, every nesting", "why_tests_cant": "Nestings and alias chains are unbounded.", "anchors": ["protocol_driver_allocator.cc:AllocateProtocolDriver", "protocol_driver_double_barrel.cc:Initialize", "composable_rpc_counter.cc:Initialize"]}
{"id": "C136", "title": "Composite drivers hand down the options", "statement": "The real drivers under composite drivers get the device, the client settings, the IP version and all server settings of the options, apart from the settings that name the drivers.", "quantifier": "every options without aliases, every nesting", "why_tests_cant": "All settings lists and nestings.", "anchors": ["protocol_driver_double_barrel.cc:Initialize", "composable_rpc_counter.cc:Initialize"]}
{"id": "C137", "title": "Driver options that do not exist are refused", "statement": "A service naming protocol driver options that are not in the traffic configuration is refused with an error.", "quantifier": "every traffic configuration and service", "why_tests_cant": "All configurations.", "anchors": ["distbench_node_manager.cc:GetProtocolDriverOptionsFor", "distbench_node_manager.cc:ResolveProtocolDriverAlias"]}
{"id": "C138", "title": "The driver options of a service", "statement": "A service that names driver options gets the first entry with that name; one that names none gets default_protocol_driver_options, or generated options if there is none; a missing protocol or device is filled in with the default protocol of the test or the data-plane device of the node, and what is set is kept; an empty name is refused.", "quantifier": "every traffic configuration and service", "why_tests_cant": "All tables and services.", "anchors": ["distbench_node_manager.cc:GetProtocolDriverOptionsFor"]}
{"id": "C139", "title": "Every driver has a network device", "statement": "Every real driver of a service uses the network device named in its options, or the data-plane device of its node.", "quantifier": "every traffic configuration, every nesting of drivers and aliases", "why_tests_cant": "All tables, chains and nestings.", "anchors": ["distbench_node_manager.cc:GetProtocolDriverOptionsFor", "protocol_driver_allocator.cc:AllocateProtocolDriver"]}
{"id": "C140", "title": "Both connections to a peer are used equally", "statement": "With the double-barrelled driver, the two connections to any one peer have been used a number of times differing by at most one.", "quantifier": "every sequence of RPCs to any peers", "why_tests_cant": "All sequences of peers.", "anchors": ["protocol_driver_double_barrel.cc:InitiateRpc"]}
{"id": "C141", "title": "A completed RPC is in the client count", "statement": "The client counter of the composable counter includes every RPC whose completion has been reported.", "quantifier": "every interleaving of calls and completions", "why_tests_cant": "Schedules.", "anchors": ["composable_rpc_counter.cc:InitiateRpc"]}
{"id": "C142", "title": "Statistics of the double barrel", "statement": "The double-barrelled driver reports every transport statistic of both instances exactly once, under a name that tells the instance; names of the two instances never meet.", "quantifier": "every list of statistics of the instances", "why_tests_cant": "All lists of statistics.", "anchors": ["protocol_driver_double_barrel.cc:GetTransportStats"]}
{"id": "C143", "title": "The table of peers after introductions", "statement": "After introductions every instance of every service is known under its own name and its number among all instances of the test, and the engine knows its own number, whatever the order in which the endpoints are listed.", "quantifier": "every test, every assignment of addresses and every order of the endpoints", "why_tests_cant": "All tests and all iteration orders of a protobuf map, which is unspecified.", "anchors": ["distbench_engine.cc:ConnectToPeers", "distbench_engine.h:PeerMetadata"]}
{"id": "C144", "title": "RPCs go to the instance they are meant for", "statement": "There is exactly one connection to each instance of each service that the engine sends RPCs to, and an RPC to an instance travels on the connection made to that instance's own address; different instances use different connections.", "quantifier": "every test, every order of the endpoints, every order in which connections complete", "why_tests_cant": "All iteration and completion orders.", "anchors": ["distbench_engine.cc:ConnectToPeers", "distbench_engine.cc:RunRpcActionIteration"]}
{"id": "C145", "title": "A failed connection fails the introductions", "statement": "If any connection fails, introductions fail with an error, in whatever order the connections end; if all are made, they succeed; without any endpoint they fail.", "quantifier": "every test and every pattern and order of connection failures", "why_tests_cant": "Any subset of the connections may fail, at either of two steps.", "anchors": ["distbench_engine.cc:ConnectToPeers", "distbench_engine.cc:ConfigurePeers"]}
{"id": "C146", "title": "The members of a multi-server channel", "statement": "Each multi-server channel of a service that the engine sends RPCs to is set up, in the order of the configuration, with exactly the instances that it selects by number or by constraints, once each.", "quantifier": "every test, channel, selection, constraint list and set of node attributes", "why_tests_cant": "All configurations and attributes.", "anchors": ["distbench_engine.cc:ConnectToPeers", "traffic_config.proto:MultiServerChannel"]}
{"id": "C147", "title": "Unusable channels are refused", "statement": "A channel that selects an instance number the service does not have, or that reaches no instance, makes introductions fail with an error; sound channels do not.", "quantifier": "every test with non-negative instance numbers and usable moduli", "why_tests_cant": "All configurations.", "anchors": ["distbench_engine.cc:ConnectToPeers"]}
{"id": "C148", "title": "Negative instance numbers in a channel are refused", "statement": "A channel that selects a negative instance number makes introductions fail with an error.", "quantifier": "every test", "why_tests_cant": "All configurations; the effect of an index before the start of an array is undefined.", "anchors": ["distbench_engine.cc:ConnectToPeers"]}
{"id": "C149", "title": "An RPC that names a channel uses that channel", "statement": "An RPC whose description names a multi-server channel of its server is sent to the instances of that channel.", "quantifier": "every test with any number of services with channels", "why_tests_cant": "All configurations.", "anchors": ["distbench_engine.cc:ConnectToPeers", "distbench_engine.cc:InitializeRpcDefinitionsMap", "distbench_engine.cc:RunRpcActionIteration"]}
{"id": "C150", "title": "Channel numbers of a replay trace", "statement": "Entry i of the channel names listed in a replay trace stands for the server's channel of that name.", "quantifier": "every list of names and channels", "why_tests_cant": "All lists, including names that the server does not have.", "anchors": ["distbench_engine.cc:RunRpcReplayTrace"]}
{"id": "C151", "title": "Which gRPC client and server a driver has", "statement": "A gRPC protocol driver starts exactly when its settings name a known client type, a known server type (with a usable thread pool unless it is inline) and a transport that was compiled in; it then has the named client and server, and the documented defaults where nothing is named. Otherwise starting it returns an error.", "quantifier": "every list of client and server settings, number of CPUs and build option", "why_tests_cant": "All settings, including repeated and oddly typed ones.", "anchors": ["protocol_driver_grpc.cc:ProtocolDriverGrpc::Initialize", "distbench_utils.cc:GetNamedServerSettingString"]}
{"id": "C152", "title": "grpc_async_callback means callback client and handoff server", "statement": "A driver for the protocol grpc_async_callback without further settings has the callback client and the handoff server.", "quantifier": "every name of the driver options", "why_tests_cant": "All names.", "anchors": ["protocol_driver_grpc.cc:ProtocolDriverGrpc::Initialize", "protocol_driver_allocator.cc:AllocateProtocolDriver", "docs/distbench-test-format.md"]}
{"id": "C153", "title": "gRPC connects to the servers of a channel", "statement": "The target string of a multi-server channel tells gRPC to connect to exactly the addresses of its servers.", "quantifier": "every non-empty list of addresses", "why_tests_cant": "All lists, mixing address versions.", "anchors": ["protocol_driver_grpc.cc:GrpcCommonClientDriver::SetupMultiServerChannel"]}
{"id": "C154", "title": "Server settings reach gRPC unchanged", "statement": "Every named server setting is passed to the gRPC server as a channel argument of that name and value.", "quantifier": "every list of settings with 64-bit values", "why_tests_cant": "All values.", "anchors": ["protocol_driver_grpc.cc:ApplyServerSettingsToGrpcBuilder"]}
{"id": "C155", "title": "The gRPC client calls each done callback once", "statement": "The done callback of an RPC is called at most once, and only after the RPC has ended; when nothing but new RPCs is left to happen, the callback of every RPC started has been called and has returned.", "quantifier": "every history of starts, endings, callbacks and returns, for both client types", "why_tests_cant": "All interleavings of any number of RPCs.", "anchors": ["protocol_driver_grpc.cc:GrpcPollingClientDriver", "protocol_driver_grpc.cc:GrpcCallbackClientDriver"]}
{"id": "C156", "title": "What a done callback sees", "statement": "When a done callback is called, and until the engine starts another RPC with the same state, the state shows how that RPC ended: for a response, success, the request that was sent and the response; for a failure, no success and the error message.", "quantifier": "every history and every RPC in it", "why_tests_cant": "All interleavings, with RPCs that end in any order.", "anchors": ["protocol_driver_grpc.cc:GrpcPollingClientDriver::RpcCompletionThread", "protocol_driver_grpc.cc:GrpcCallbackClientDriver::InitiateRpc"]}
{"id": "C157", "title": "ShutdownClient waits for all RPCs", "statement": "When ShutdownClient of the gRPC driver returns, every RPC started before it has ended and its callback has returned; nothing happens to these RPCs afterwards. It can return whenever nothing else is left to happen.", "quantifier": "every history before and after the shutdown", "why_tests_cant": "All interleavings.", "anchors": ["protocol_driver_grpc.cc:GrpcPollingClientDriver::ShutdownClient", "protocol_driver_grpc.cc:GrpcCallbackClientDriver::ShutdownClient"]}
{"id": "C158", "title": "Samples describe the request", "statement": "The sample of an RPC over gRPC, taken in its callback, has the payload size and the warmup flag of the request that was sent.", "quantifier": "every history, including failed RPCs", "why_tests_cant": "All endings.", "anchors": ["protocol_driver_grpc.cc", "distbench_engine.cc:ActionListState::RecordLatency"]}
{"id": "C159", "title": "A failed RPC has no response", "statement": "In the sample of an RPC that failed, the response contains only the error message.", "quantifier": "every history, including states used for several RPCs", "why_tests_cant": "All histories of reuse.", "anchors": ["protocol_driver_grpc.cc", "distbench_engine.cc:ActionListState::RecordLatency"]}
{"id": "C160", "title": "Orderly use of the gRPC client does not abort", "statement": "If every RPC goes to a connected peer or channel and none is started after ShutdownClient, the gRPC client neither aborts nor has undefined behaviour.", "quantifier": "every history", "why_tests_cant": "All histories.", "anchors": ["protocol_driver_grpc.cc"]}
{"id": "C161", "title": "The polling server is memory safe and does not leak", "statement": "In whatever order requests, responses, completions and the shutdown happen, the polling gRPC server never uses a deleted call object or misuses the completion queue; and when nothing but new requests is left to happen, at most one call object exists, which waits for a request.", "quantifier": "every history of any number of requests", "why_tests_cant": "All interleavings of the server thread, handlers and gRPC, where reference counts reach zero in any order.", "anchors": ["protocol_driver_grpc.cc:PollingRpcHandlerFsm", "protocol_driver_grpc.cc:GrpcPollingServerDriver"]}
{"id": "C162", "title": "The polling server handles and answers each request once", "statement": "The handler is called at most once for each request that arrives, and only for those; each is answered at most once, after the handler was called; and when nothing but new requests is left to happen, every request that arrived was handled and answered.", "quantifier": "every history of any number of requests", "why_tests_cant": "All interleavings.", "anchors": ["protocol_driver_grpc.cc:PollingRpcHandlerFsm", "protocol_driver_grpc.cc:GrpcPollingServerDriver"]}
{"id": "C163", "title": "The polling server accepts requests until it is shut down", "statement": "Until ShutdownServer is called, whenever the thread of the polling server has nothing to do, the server can receive a request, however many requests are being worked on.", "quantifier": "every history without shutdown", "why_tests_cant": "All histories, including responses that cannot be sent.", "anchors": ["protocol_driver_grpc.cc:PollingRpcHandlerFsm::RpcHandlerFsm", "protocol_driver_grpc.cc:GrpcPollingServerDriver::HandleRpcs"]}
{"id": "C164", "title": "The polling server comes to rest and can be shut down", "statement": "A polling server that receives n requests takes at most 5 + 7n steps in all; and if ShutdownServer was called, then once nothing is left to happen it has returned and every call object was deleted.", "quantifier": "every history of any number of requests", "why_tests_cant": "All interleavings; a missed case shows as a hang.", "anchors": ["protocol_driver_grpc.cc:GrpcPollingServerDriver::ShutdownServer", "protocol_driver_grpc.cc:GrpcPollingServerDriver::HandleRpcs"]}
{"id": "C165", "title": "The request outlives its use", "statement": "As long as an action of a list that handles an RPC is running and may read the request of that RPC (for its trace context, or to hand it to another list), the request message exists, whichever gRPC server type received it.", "quantifier": "every server type, accepted configuration and execution of the list", "why_tests_cant": "All interleavings of early responses with the other actions.", "anchors": ["protocol_driver_grpc.cc:TrafficServiceAsyncCallback", "distbench_engine.cc:RunActionList", "distbench_engine.cc:InitiateAction", "distbench_engine.cc:RunRpcActionIterationCommon", "protocol_driver.h:ServerRpcState"]}
{"id": "C166", "title": "A node hosts the services of its last configuration", "statement": "After any history of control calls, the service instances a node hosts have distinct names, belong to the last configuration request that was not turned down for its thread limit, run with exactly that request's configuration, and nothing has ended them since. After a request that succeeded, every service of the request is there. A request that is turned down leaves the services as they are; one that fails at some service leaves those before it, none after it and none of the earlier configuration.", "quantifier": "every history of node manager creations, destructions, configurations, introductions, runs, cancellations and collections, in a process with any number of node managers, every configuration and every outcome of driver and engine start-up", "why_tests_cant": "a test runs one configuration after another a few times; the claim is about every history and every point of failure", "anchors": ["distbench_node_manager.cc:NodeManager::ConfigureNode", "distbench_node_manager.cc:AllocService", "distbench_node_manager.cc:ClearServices", "distbench_node_manager.cc:GetTrafficResult", "distbench_engine.cc:DistBenchEngine::Initialize"]}
{"id": "C167", "title": "Driver aliases are resolved with the node's own configuration", "statement": "The drivers of a node's services are those that the driver options of the configuration sent to that node describe.", "quantifier": "every history of calls to the node managers of a process, every configuration and every table of driver options", "why_tests_cant": "tests use one node manager per process, or the same configuration for all; the answer depends on which node manager was created last and on what it was sent before", "anchors": ["distbench_node_manager.cc:NodeManager::NodeManager", "distbench_node_manager.cc:~NodeManager", "distbench_node_manager.cc:ResolveProtocolDriverAlias", "protocol_driver_allocator.cc:SetProtocolDriverAliasResolver", "protocol_driver_allocator.cc:AllocateProtocolDriver", "distbench_busybox.cc:MainTestSequencer"]}
{"id": "C168", "title": "A node starts its traffic as a whole", "statement": "A request to run traffic starts each service instance that has an action list of its type, once, and no other; if it fails, it has started nothing.", "quantifier": "every history of control calls, every set of services and every outcome of connecting to peers", "why_tests_cant": "needs the failure of one service among several at the right moment", "anchors": ["distbench_node_manager.cc:NodeManager::RunTraffic", "distbench_node_manager.cc:IntroducePeers", "distbench_engine.cc:DistBenchEngine::RunTraffic", "distbench_engine.cc:ConfigurePeers"]}
{"id": "C169", "title": "Asking a node to run traffic does not end its process", "statement": "Whatever calls were made before, a request to run traffic returns a status.", "quantifier": "every history of control calls to the node managers of a process", "why_tests_cant": "the abort needs a particular history: a failed introduction of peers, a failed run, and another run", "anchors": ["distbench_node_manager.cc:NodeManager::RunTraffic", "distbench_engine.cc:DistBenchEngine::RunTraffic", "distbench_engine.cc:FinishTraffic"]}
{"id": "C170", "title": "The results of a node hold everything its services recorded", "statement": "A collection of results returns one entry for each service instance that recorded something since it was made, with everything it recorded, and no other entries.", "quantifier": "every history of control calls and records, every number of collections", "why_tests_cant": "tests collect once after one run; the claim is about every history", "anchors": ["distbench_node_manager.cc:NodeManager::GetTrafficResult", "distbench_engine.cc:DistBenchEngine::GetLogs", "distbench_engine.cc:AddActivityLogs", "distbench_engine.cc:AddRpcReplayTraceLogs"]}
{"id": "C171", "title": "The reason for which traffic was cancelled is in the results", "statement": "If traffic on a node was cancelled, the results of each of its service instances give the reason, the first if there were several.", "quantifier": "every history of control calls and records", "why_tests_cant": "needs a cancellation while some services have recorded nothing", "anchors": ["distbench_node_manager.cc:NodeManager::GetTrafficResult", "distbench_node_manager.cc:CancelTraffic", "distbench_engine.cc:DistBenchEngine::CancelTraffic", "distbench_engine.cc:GetLogs"]}
{"id": "C172", "title": "An accepted activity can always be created and run", "statement": "Once an activity configuration has been accepted, creating the activity and running it any number of times never crashes or has undefined behaviour, whatever random positions are drawn.", "quantifier": "all activity configurations, all numbers of runs, all random draws within the array or function table", "why_tests_cant": "It needs 2^31 runs, or arrays of 2^32 elements, to show; no test runs that long, and draws are random.", "anchors": ["activity.cc:AllocateActivity", "activity.cc:ParseActivityConfig", "activity.cc:PolluteDataCache", "activity.cc:ConsumeCpu", "activity.cc:PolluteInstructionCache"]}
{"id": "C173", "title": "The results report how often the activities of each configuration ran", "statement": "For every activity configuration the results report as iteration_count the total number of times its activities ran, added up over all actions of all action lists that ended, in whatever order the lists ended; nothing is reported for a configuration whose activities did not run or are of a kind that only waits, and no other metric is reported.", "quantifier": "all sets of action lists that ended, in all orders, all activities in them, all numbers of runs that did not overflow, fewer than 2^32 activity actions", "why_tests_cant": "Tests check two or three activities on one list; the sum must be right for any lists that end in any order.", "anchors": ["distbench_engine.cc:UpdateActivitiesLog", "distbench_engine.cc:AddActivityLogs", "activity.cc:GetActivityLog"]}
{"id": "C174", "title": "Results have every RPC that ended before they were collected", "statement": "When the results of a test are collected, every RPC that has ended by then is in them, exactly as often as it occurred.", "quantifier": "all histories of action lists starting, RPCs ending, responses, lists ending and collections, on any number of peers", "why_tests_cant": "It depends on the schedule of server threads after their response; a test that passes shows one schedule.", "anchors": ["distbench_engine.cc:RunActionList", "distbench_engine.cc:GetLogs", "distbench_node_manager.cc:GetTrafficResult"]}
{"id": "C175", "title": "Collecting results does not race with lists that end", "statement": "Whatever action lists end while results are collected, there is no data race.", "quantifier": "all histories of action lists, responses and collections", "why_tests_cant": "A data race shows only in a particular interleaving of a collection with the end of a list for an incoming RPC.", "anchors": ["distbench_engine.cc:AddActivityLogs", "distbench_engine.cc:GetLogs", "distbench_engine.cc:RunActionList"]}
{"id": "C176", "title": "Arguments of a node manager", "statement": "A node manager accepts exactly these arguments: an optional first nodeN with N a plain decimal number below 2^31, then name=value arguments, split at the first equals sign. It registers with id N and the attribute node_alias=nodeN first if nodeN was given, with any id otherwise, and with the attributes in the order given; the sequencer then knows it as node N under the name nodeN, or refuses it.", "quantifier": "all lists of arguments and all registration histories", "why_tests_cant": "The arguments are unbounded text; leading zeros, signs, spaces, overflow, and empty names or values must all be classified correctly.", "anchors": ["distbench_busybox.cc:MainNodeManager", "distbench_node_manager.cc:Initialize", "distbench_test_sequencer.cc:RegisterNode"]}
{"id": "C177", "title": "Node attributes can have any name", "statement": "Arguments of the form name=value are accepted as attributes of the node, whatever the names and values are.", "quantifier": "all lists of name=value arguments", "why_tests_cant": "It quantifies over all names and values in all positions.", "anchors": ["distbench_busybox.cc:MainNodeManager"]}
{"id": "C178", "title": "check_test predicts what the engines say", "statement": "If check_test accepts a file, the sequencer accepts its tests and every engine of every service instance accepts the configuration it is sent; if check_test refuses a file, the sequencer refuses it or every engine of some service refuses its configuration, with the same message.", "quantifier": "all test sequences, all services and all grid positions", "why_tests_cant": "check_test validates the tests as written at one fixed grid position, while engines see the canonical tests at every position; a test can compare them on a few files only.", "anchors": ["distbench_busybox.cc:MainCheckTest", "distbench_utils.cc:GetCanonicalTestSequence", "distbench_engine.cc:ValidateTrafficConfig", "distbench_engine.cc:InitializeConfig"]}
{"id": "C179", "title": "A new request stops running traffic", "statement": "When a new test sequence request has cancelled, every node that is running traffic of the current test has been told to stop.", "quantifier": "all interleavings of starting and ending traffic, and of any number of new requests", "why_tests_cant": "It depends on where in the start of the traffic the new request comes; a test shows a few of these places.", "anchors": ["distbench_test_sequencer.cc:CancelTraffic", "distbench_test_sequencer.cc:RunTraffic", "distbench_test_sequencer.cc:RunTestSequence", "distbench_test_sequencer.h:GetActiveNodes"]}
{"id": "C180", "title": "All nodes are asked to shut down", "statement": "When the test sequencer ends, exactly the nodes it ever accepted have been asked to shut down, including those that registered while it was shutting down; a single shutdown asks each node once.", "quantifier": "all histories of registrations before and during the shutdown", "why_tests_cant": "Nodes may register at any moment of the shutdown and leave holes in the table.", "anchors": ["distbench_test_sequencer.cc:Shutdown", "distbench_test_sequencer.cc:Wait", "distbench_test_sequencer.cc:RegisterNode"]}
{"id": "C181", "title": "Homa callbacks run once", "statement": "With the Homa driver, the done callback of an RPC runs at most once and only if the RPC was initiated, it reports success only if the request was accepted, and when ShutdownClient returns the callback of every RPC whose request was accepted has run exactly once.", "quantifier": "all numbers of completion threads and all interleavings of initiating, sending, failing, receiving and shutting down", "why_tests_cant": "Several threads receive responses, and the shutdown may come at any point of any RPC.", "anchors": ["protocol_driver_homa.cc:InitiateRpc", "protocol_driver_homa.cc:ClientCompletionThread", "protocol_driver_homa.cc:ShutdownClient"]}
{"id": "C182", "title": "Homa client shutdown ends", "statement": "With the Homa driver, once every RPC has been answered or has failed, ShutdownClient returns.", "quantifier": "all numbers of completion threads and all interleavings", "why_tests_cant": "Which thread receives which wake-up and which response is up to the kernel.", "anchors": ["protocol_driver_homa.cc:ClientCompletionThread", "protocol_driver_homa.cc:ShutdownClient"]}
{"id": "C183", "title": "Homa server buffer outlives its readers", "statement": "With the Homa driver, no server thread reads a request from the receive buffer after ShutdownServer has unmapped it.", "quantifier": "all numbers of server threads and all interleavings of requests with the shutdown", "why_tests_cant": "A thread may be at any point of its loop when another one ends.", "anchors": ["protocol_driver_homa.cc:ServerThread", "protocol_driver_homa.cc:ShutdownServer"]}
{"id": "C184", "title": "Homa requests are answered before the server is gone", "statement": "With the Homa driver, a request is handed to the handler at most once and answered at most once; when ShutdownServer returns, every request that was handed to the handler has been answered, and after that none is handed over or answered.", "quantifier": "all numbers of server threads and all interleavings of requests, responses and the shutdown", "why_tests_cant": "Responses may come from other threads at any point of the shutdown.", "anchors": ["protocol_driver_homa.cc:ServerThread", "protocol_driver_homa.cc:ShutdownServer"]}
{"id": "C185", "title": "Homa server shutdown ends", "statement": "With the Homa driver, if the requests that were handed out are answered and no thread reads the receive buffer after it was unmapped, ShutdownServer returns, however many new requests come.", "quantifier": "all numbers of server threads and all interleavings of requests, responses and wake-ups", "why_tests_cant": "A wake-up may be received by any thread, and requests may take the place of wake-ups.", "anchors": ["protocol_driver_homa.cc:ServerThread", "protocol_driver_homa.cc:ShutdownServer"]}
{"id": "C186", "title": "Homa thread settings", "statement": "The Homa driver refuses settings it does not know, and otherwise starts as many client threads as client_threads says (2 if it is not set) and as many server threads as server_threads says (3 if it is not set).", "quantifier": "all lists of settings", "why_tests_cant": "The settings are an arbitrary list of names and values.", "anchors": ["protocol_driver_homa.cc:Initialize", "distbench_utils.cc:GetNamedServerSettingInt64"]}
{"id": "C187", "title": "Mercury callbacks run once", "statement": "With the Mercury driver, the done callback of every RPC that was initiated before ShutdownClient is called runs exactly once, and has run when ShutdownClient returns.", "quantifier": "all interleavings of initiations, answers and errors of Mercury, and the shutdown", "why_tests_cant": "Errors may come at any point of any RPC, and the shutdown may come at any point.", "anchors": ["protocol_driver_mercury.cc:InitiateRpc", "protocol_driver_mercury.cc:RpcClientCallback", "protocol_driver_mercury.cc:ShutdownClient"]}
{"id": "C188", "title": "Mercury client shutdown ends", "statement": "With the Mercury driver, if Mercury answers or fails every RPC it took and no more are initiated, ShutdownClient returns.", "quantifier": "all numbers of RPCs under way and all interleavings of their ends with the shutdown", "why_tests_cant": "The shutdown may come at any point of any RPC, and errors take other paths than answers.", "anchors": ["protocol_driver_mercury.cc:InitiateRpc", "protocol_driver_mercury.cc:RpcClientCallback", "protocol_driver_mercury.cc:ShutdownClient", "protocol_driver_mercury.cc:ClientPollingThread"]}
{"id": "C189", "title": "Mercury callbacks see the request", "statement": "With the Mercury driver, when the done callback of an RPC runs, its state holds the request that was sent; it says success exactly if a response came that could be parsed, and holds that response.", "quantifier": "all requests, responses and errors", "why_tests_cant": "A response may be any sequence of bytes.", "anchors": ["protocol_driver_mercury.cc:InitiateRpc", "protocol_driver_mercury.cc:RpcClientCallback"]}
{"id": "C190", "title": "Mercury messages survive the wire", "statement": "With the Mercury driver, a request or response that was serialized for the network and deserialized again is the same string of bytes.", "quantifier": "all strings of bytes with lengths that fit 64 bits", "why_tests_cant": "Strings of all lengths and contents can be sent.", "anchors": ["protocol_driver_mercury.cc:GenericRpcSerializer"]}
{"id": "C191", "title": "No thread uses a destroyed engine", "statement": "With the inline and the handoff gRPC server: when an engine has been destroyed, no thread is handling a request with it, running one of its action lists or setting up a connection to it, and none will; once its server was shut down no further request is handed to it.", "quantifier": "all numbers of incoming RPCs and all interleavings of their handling with the destruction", "why_tests_cant": "The destruction may begin at any point of the handling of any request.", "anchors": ["distbench_engine.cc:~DistBenchEngine", "distbench_engine.cc:RpcHandler", "protocol_driver_grpc.cc:GenericRpc"]}
{"id": "C192", "title": "Destroying an engine ends", "statement": "With the inline and the handoff gRPC server: if action lists end and no new calls come, the destruction of an engine ends, whatever requests it is handling.", "quantifier": "all states an engine may be in when it is destroyed, and all interleavings from then on", "why_tests_cant": "The destruction may begin at any point of the handling of any request.", "anchors": ["distbench_engine.cc:~DistBenchEngine", "distbench_engine.cc:RpcHandler", "protocol_driver_grpc.cc:GenericRpc"]}
{"id": "C193", "title": "Copying a request", "statement": "CopyRequestFields copies the five metadata fields of a request (rpc_index, trace_context, warmup, response_payload_size, server_processing_time_ns) to an empty message, and not its payload.", "quantifier": "all requests, with any of the fields set or not", "why_tests_cant": "Each field may be present or absent and have any value.", "anchors": ["distbench_utils.cc:CopyRequestFields", "protocol_driver.h:ServerRpcState"]}
{"id": "C194", "title": "Resource usage adds up", "statement": "The resource usage a node reports shows what the operating system said when traffic was started, and every field of it together with the same field of the difference makes what the operating system said when the results were collected; no subtraction overflows.", "quantifier": "all values the operating system can report (counters from 0 to 2^63-1)", "why_tests_cant": "The counters can have any value.", "anchors": ["distbench_utils.cc:GetRUsageStatsFromStructs", "distbench_utils.cc:DiffStructRUsageToMessage", "distbench_utils.cc:StructRUsageToMessage"]}
{"id": "C195", "title": "Waiting for a condition with a deadline", "statement": "MutexLockWhenWithDeadline and MutexAwaitWithDeadline, spinning or not, return with the mutex held, and never lock a mutex that is held or release one that is not; what they return is whether the condition holds then; they return false only after the deadline, and if they were to spin only after as much CPU time as there was until the deadline; without a deadline they spin, if they are to spin, and never sleep; they return as soon as they see the condition hold, and return at all if the CPU clock goes forward.", "quantifier": "all deadlines, finite or infinite, all sequences of values of the condition, and all readings of the clocks", "why_tests_cant": "The condition may change between any two looks at it, and the clocks may advance by any amounts.", "anchors": ["protocol_driver.cc:MutexLockWhenWithDeadline", "protocol_driver.cc:MutexAwaitWithDeadline", "simple_clock.h"]}
{"id": "C196", "title": "Spinning for a duration", "statement": "SpinFor returns the first time the CPU clock of the thread shows that the thread has used the duration, and not before; and it returns if that clock goes forward.", "quantifier": "all durations and all readings of the clock", "why_tests_cant": "The clock may advance by any amounts.", "anchors": ["protocol_driver.cc:SpinFor", "simple_clock.h"]}
{"id": "C197", "title": "Composite drivers pass calls on", "statement": "Through any tree of composite drivers: SetHandler, SetNumPeers, HandleConnectFailure, ChurnConnection, ShutdownClient and ShutdownServer are called once on every real driver; every RPC is initiated on exactly one real driver, with its peer and callback; an RPC counter counts each RPC it is given once; a connection is made exactly if every real driver makes it; and the server that peers connect to has the handler.", "quantifier": "all trees of drivers and all sequences of calls", "why_tests_cant": "Composite drivers can be nested, and calls come in any order.", "anchors": ["protocol_driver_double_barrel.cc", "composable_rpc_counter.cc", "protocol_driver.cc"]}
{"id": "C198", "title": "Multi-server channels are not lost", "statement": "A driver hands calls about multi-server channels to a real driver, or refuses: it then says so when a channel is to be set up, and ends an RPC to a channel at once with an error, calling its done callback exactly once; no other call is ended in this way.", "quantifier": "all trees of drivers and all calls", "why_tests_cant": "Composite drivers can be nested, and inherit the handling of some calls.", "anchors": ["protocol_driver.cc:SetupMultiServerChannel", "protocol_driver.cc:InitiateRpcToMultiServerChannel", "protocol_driver_double_barrel.cc", "composable_rpc_counter.cc"]}
{"id": "C199", "title": "An iteration ends with its last RPC", "statement": "In an iteration of an action that runs an RPC exactly one RPC is initiated for each instance that the iteration fans out to, and none before the iteration has started; the iteration ends exactly once, after all its RPCs have come back and have been recorded, and at once if there is no target. If RPCs come back the action reports that it is done, after a number of steps bounded by the number of iterations and RPCs.", "quantifier": "every RPC action with sensible limits, closed or open loop, every choice of targets, and every interleaving of initiating RPCs, callbacks on any threads, recording, cancellation and other iterations", "why_tests_cant": "Callbacks of the RPCs of one iteration run concurrently with each other and with the loop that initiates the rest; which is the last depends on the schedule.", "anchors": ["distbench_engine.cc:RunRpcActionIterationCommon", "distbench_engine.cc:FinishIteration", "distbench_engine.cc:RecordLatency"]}
{"id": "C200", "title": "The log has one sample for each configured RPC", "statement": "After an action list with a single action, which runs an RPC n times without a time limit, has come to its end without being cancelled, and unless samples were dropped because of max_rpc_samples, the performance log has for each peer exactly as many samples of that RPC as the iterations fan out to it; with fan-out to all instances that is n for each instance of the service other than the sender. Of these exactly those of the first warmup_iterations iterations are marked as warmup.", "quantifier": "every RPC action with a positive iteration count and any parallelism, every service size, every warmup count, with and without a limit on samples that is not reached, and every schedule of RPCs and threads", "why_tests_cant": "The count depends on the iteration control, the fan-out, the concurrent recording of samples and the merging of logs together, under every interleaving.", "anchors": ["distbench_engine.cc:RunActionList", "distbench_engine.cc:RunRpcActionIterationCommon", "distbench_engine.cc:PickRpcFanoutTargets", "distbench_engine.cc:RecordLatency", "distbench_engine.cc:UnpackLatencySamples", "distbench_engine.cc:GetLogs"]}
{"id": "C201", "title": "A test sequence in text form is read as text", "statement": "Whatever text-format test sequence is in the input file, check_test, run_tests and test_preview work on the tests the text describes.", "quantifier": "every file that is a test sequence in protobuf's text format, with any comments and layout", "why_tests_cant": "Binary is tried first; whether some text happens to be valid binary depends on every byte of it.", "anchors": ["distbench_utils.cc:ParseTestSequenceProtoFromFile", "distbench_utils.cc:ParseTestSequenceTextProto"]}
{"id": "C202", "title": "A test sequence in binary form is read as it is", "statement": "A file with the binary form of a test sequence is read as exactly the tests and settings in it, in order, whatever else its bytes might look like.", "quantifier": "every binary test sequence, with tests and settings in any order and of any size up to the limits of protobuf", "why_tests_cant": "There are infinitely many files.", "anchors": ["distbench_utils.cc:ParseTestSequenceProtoFromFile", "distbench_utils.cc:ReadFileToString"]}
{"id": "C203", "title": "The exit status of run_tests", "statement": "run_tests exits with status 0 exactly if the input could be read, every test in it ran and succeeded, and the results of all of them, in order, are in the output file (if one is named).", "quantifier": "every input file, every outcome of the tests, every history of concurrent sequences at the test sequencer, text and binary output, every file system and amount of room on it", "why_tests_cant": "Combines the parsing of the file, the timeouts, the histories of the sequencer and the failures of the file system.", "anchors": ["distbench_busybox.cc:MainRunTests", "distbench_utils.cc:SaveResultProtoToFile", "distbench_utils.cc:SaveResultProtoToFileBinary", "distbench_test_sequencer.cc:RunTestSequence"]}
{"id": "C204", "title": "No test runs longer than max_test_duration", "statement": "With a positive --max_test_duration no test may run longer than that duration, and the duration is used up to the second.", "quantifier": "every positive duration and every sequence of tests with any attributes", "why_tests_cant": "Unbounded set of durations, including fractions of seconds.", "anchors": ["distbench_busybox.cc:MainRunTests", "distbench_busybox.cc:SetAllTestTimeoutAttributesTo"]}
{"id": "C205", "title": "Any test can be previewed on one node", "statement": "test_preview runs every test with all its service instances on a single node, whatever bundles and constraints the test has and however many services.", "quantifier": "every test with any services, bundles and constraints, and any attributes of the node", "why_tests_cant": "Combinatorial space of tests.", "anchors": ["distbench_busybox.cc:MainTestPreview", "distbench_test_sequencer_tester.cc:RunTestSequenceOnSingleNodeManager", "distbench_test_sequencer.cc:ConstraintSolver"]}
{"id": "C206", "title": "Servers that cannot serve exit with an error", "statement": "A test_sequencer or node_manager that cannot listen on its port, and a node_manager that is given no test sequencer or cannot register with it, ends with a status other than 0; it does not abort and does not stay around.", "quantifier": "every configuration of the host, every device and port, and every sequence of requests", "why_tests_cant": "Needs hosts with every configuration of interfaces, and waiting for ever cannot be observed.", "anchors": ["distbench_busybox.cc:MainTestSequencer", "distbench_busybox.cc:MainNodeManager", "distbench_node_manager.cc:Initialize", "distbench_test_sequencer.cc:Initialize", "distbench_test_sequencer.cc:Wait"]}
{"id": "C207", "title": "Results on standard output are complete", "statement": "When run_tests is run without --outfile and its standard output is redirected to a file, that file contains the results.", "quantifier": "every set of results and summaries and every state of the output buffer", "why_tests_cant": "The result depends on how much of the summaries has left the buffer, which depends on their size.", "anchors": ["distbench_busybox.cc:MainRunTests", "distbench_utils.cc:SaveResultProtoToFile"]}
{"id": "C208", "title": "Errors keep their code and message", "statement": "An error that is passed from gRPC to Abseil or back keeps its message and, if it is one of the known codes, its code; an error never turns into success nor success into an error.", "quantifier": "every code and message", "why_tests_cant": "Codes outside the known ones are possible.", "anchors": ["distbench_utils.cc:abslStatusToGrpcStatus", "distbench_utils.cc:grpcStatusToAbslStatus"]}
{"id": "C209", "title": "Engines do not deadlock on their locks", "statement": "Whatever the threads of a node that runs traffic are doing, no group of them waits for locks that the group itself holds; a thread that waits for something other than a lock holds none; and as long as some thread is not finished and not waiting for such a thing, some thread can go on.", "quantifier": "every number of engines and threads, every sequence of actions, iterations, RPCs, replays, cancelations and responses, and every interleaving", "why_tests_cant": "Deadlocks depend on the interleaving of several threads at particular locks.", "anchors": ["distbench_engine.cc:RunActionList", "distbench_engine.cc:FinishIteration", "distbench_engine.cc:RecordLatency", "distbench_engine.cc:CancelTraffic", "distbench_engine.cc:RpcHandler", "distbench_engine.cc:GetLogs", "distbench_utils.h:SafeNotification", "distbench_threadpool.cc"]}
{"id": "C210", "title": "CancelTraffic gets through to a node", "statement": "A CancelTraffic call to a node that is running traffic is carried out, however long the traffic would otherwise go on and whatever other control calls are waiting.", "quantifier": "every history of control calls to the node and every order in which they get through", "why_tests_cant": "Needs several control calls at the same time and traffic that never ends.", "anchors": ["distbench_node_manager.cc:CancelTraffic", "distbench_node_manager.cc:RunTraffic", "distbench_node_manager.cc:ConfigureNode", "distbench_node_manager.cc:GetTrafficResult"]}
{"id": "C211", "title": "A node manager that cannot register gives up", "statement": "When the registration of a node manager with the test sequencer fails, its start-up comes to an end with an error, whatever control calls it is serving.", "quantifier": "every set of control calls and every interleaving with the registration", "why_tests_cant": "Needs a control call in the interval between the start of the server and the failure of the registration.", "anchors": ["distbench_node_manager.cc:Initialize", "distbench_node_manager.h:NodeAlias", "distbench_node_manager.cc:ShutdownNode"]}
{"id": "C212", "title": "The overall summary of an analysis is complete", "statement": "The overall summary written by the analysis script has the request size and latency of every successful sample of every test that counts (all samples, or those outside the warm-up), each exactly once, and the summary of a test has those of the test.", "quantifier": "every list of test results, with any services, instances, RPCs and samples", "why_tests_cant": "The nesting, the names and the numbers of entries are unbounded.", "anchors": ["analysis/results_conversion.py:get_summary", "analysis/results_conversion.py:write_overall_summary", "analysis/results_conversion.py:summarize"]}
{"id": "C213", "title": "The summaries of clients and servers are complete", "statement": "The summary of a client service has exactly the samples recorded by all of its instances, and the summary of a server as seen by an instance of a client has exactly the samples of that instance with all instances of the server.", "quantifier": "every test result, every client and server, with services of any dimension", "why_tests_cant": "The mapping from instance names to services depends on names and dimensions.", "anchors": ["analysis/results_conversion.py:get_summary_per_client", "analysis/results_conversion.py:get_summary_per_service"]}
{"id": "C214", "title": "Each RPC between two instances has its own file", "statement": "For each instance of a client, each instance of a server and each RPC, the file named after them holds exactly the samples recorded for that RPC between the two, and there is no file if there are none.", "quantifier": "every test result with any names of services and RPCs, and any order of going through them", "why_tests_cant": "Two names may lead to the same path; this depends on all names at once.", "anchors": ["analysis/results_conversion.py:write_pairwise_logs", "analysis/results_conversion.py:create_directory_tree", "analysis/results_conversion.py:write_summary"]}
{"id": "C215", "title": "The printed numbers of samples are right", "statement": "The numbers of total samples and of warm-up samples the analysis prints in the end are the numbers of such samples in the results.", "quantifier": "every list of test results", "why_tests_cant": "Depends on how often each sample is looked at, for every shape of a result.", "anchors": ["analysis/results_conversion.py:summarize", "analysis/results_conversion.py:main"]}
{"id": "C216", "title": "The statistics of an analysis are right", "statement": "The statistics have one row for each request size, in increasing order, with the number of its samples; minimum and maximum are those of its latencies, and the percentiles lie where that share of the latencies has been passed, interpolated between the neighbouring latencies and rounded to hundredths.", "quantifier": "every list of sizes and latencies", "why_tests_cant": "Needs all multisets of latencies.", "anchors": ["analysis/results_conversion.py:StatisticFormatter"]}
{"id": "C217", "title": "The trace output has the longest latency of each iteration", "statement": "The trace format has one row for each iteration number that has a sample with a trace context, in increasing order, with the largest latency among these samples.", "quantifier": "every list of samples", "why_tests_cant": "Needs all orders and repetitions of iteration numbers.", "anchors": ["analysis/results_conversion.py:TraceContextFormatter"]}
{"id": "C218", "title": "The default output can be read back", "statement": "Splitting the default output into lines and words gives back the sizes and latencies of the rows in order, after the header if there is one, for numbers of any length.", "quantifier": "every list of sizes and latencies, with or without a header", "why_tests_cant": "Numbers may be longer than the column.", "anchors": ["analysis/results_conversion.py:DefaultFormatter"]}
{"id": "C219", "title": "The analysis looks at all instances of a service", "statement": "The instances the analysis goes through for a service are exactly those that a test has under that service, each one once, and with the same names.", "quantifier": "every service specification that is accepted, with any count or dimensions", "why_tests_cant": "Needs all sizes in up to three dimensions.", "anchors": ["analysis/results_conversion.py:enumerate_service_instances", "distbench_utils.cc:GetCanonicalServiceSpec", "distbench_utils.cc:GetInstanceName"]}
{"id": "C220", "title": "The exit status of an analysis tells of failures", "statement": "The analysis script ends with status 0 exactly if the results could be read and all output was written.", "quantifier": "every combination of failures while reading, parsing and writing", "why_tests_cant": "Failures of the file system are not part of unit tests.", "anchors": ["analysis/results_conversion.py:main", "analysis/results_conversion.py:write_summary", "analysis/results_conversion.py:create_directory"]}
{"id": "C221", "title": "A request that comes early is held until the handler is set", "statement": "A request that reaches a protocol driver before its handler has been set is held until the handler is set and then handled, each request once, and none of it fails; this does not depend on the order in which requests and the setting of the handler occur.", "quantifier": "every server, every number of requests and every interleaving of requests with the first setting of the handler", "why_tests_cant": "The order in which nodes of a test get ready is up to the scheduler.", "anchors": ["protocol_driver_grpc.cc:GenericRpc", "protocol_driver_grpc.cc:HandleRpcs", "protocol_driver_homa.cc:ServerThread", "protocol_driver_mercury.cc:SetHandler", "distbench_engine.cc:ConfigurePeers"]}
{"id": "C222", "title": "The handler may be set again while requests come in", "statement": "Introducing peers again, which sets the handler of the protocol driver again, has no data race with requests that are being taken.", "quantifier": "every server and every interleaving of settings of the handler with requests", "why_tests_cant": "A data race need not show in any number of runs.", "anchors": ["distbench_engine.cc:ConfigurePeers", "protocol_driver_grpc.cc:SetHandler", "protocol_driver_homa.cc:SetHandler", "protocol_driver_mercury.cc:SetHandler"]}
{"id": "C223", "title": "Shutting down a server ends", "statement": "A call that shuts down a protocol driver's server returns once the engine is done with its requests, and does not end the process, whether or not the handler was ever set.", "quantifier": "every server and every interleaving of requests, setting of the handler, handling and shutdown", "why_tests_cant": "A shutdown that hangs depends on the point at which a request comes.", "anchors": ["protocol_driver_grpc.cc:ShutdownServer", "protocol_driver_homa.cc:ShutdownServer", "protocol_driver_mercury.cc:ShutdownServer"]}
{"id": "C224", "title": "A response goes out when it is sent", "statement": "When the handler sends the response for a request, the client of this request gets this response and no other, without waiting for the handler to return or for the work that it left.", "quantifier": "every server and every interleaving of requests, responses and the ends of handlers", "why_tests_cant": "Needs all orders of sending and finishing of concurrent requests.", "anchors": ["protocol_driver_grpc.cc:SetSendResponseFunction", "protocol_driver_homa.cc:ServerThread", "protocol_driver_mercury.cc:RpcServerCallback"]}
{"id": "C225", "title": "An RPC that succeeded was answered by the handler", "statement": "What a client gets as the successful response to an RPC was sent by the server's handler for this RPC, and a client gets at most one response.", "quantifier": "every server and every interleaving of requests, responses and the ends of handlers", "why_tests_cant": "Needs all orders, and handlers that never answer.", "anchors": ["protocol_driver_grpc.cc:GenericRpc", "protocol_driver_homa.cc:ServerThread", "protocol_driver_mercury.cc:RpcServerCallback"]}
{"id": "C226", "title": "The number of RPCs of a test follows from its configuration", "statement": "When a test without predicates is over, the number of RPCs of each kind that were made is exactly what its action lists, iteration counts, fanouts and handlers add up to; at no time, and with predicates too, is it more.", "quantifier": "every test with iteration counts, every schedule of its engines and network, and every choice of targets", "why_tests_cant": "Needs all configurations and all interleavings of all engines.", "anchors": ["distbench_engine.cc:RunActionList", "distbench_engine.cc:InitiateAction", "distbench_engine.cc:RunRpcActionIteration", "distbench_engine.cc:RpcHandler"]}
{"id": "C227", "title": "A test ends", "statement": "If no action list leads to itself, directly or through RPCs and their handlers, the traffic of a test ends after a number of steps that depends on its configuration only.", "quantifier": "every test with iteration counts and every schedule", "why_tests_cant": "A bound for all schedules cannot be had from finitely many runs.", "anchors": ["distbench_engine.cc:RunActionList", "distbench_engine.cc:RpcHandler", "distbench_engine.cc:InitiateAction"]}
{"id": "C228", "title": "A test does not get stuck", "statement": "The traffic of a test cannot reach a state in which nothing more can happen before all its lists and RPCs are over, whatever thread pools the drivers use.", "quantifier": "every test with iteration counts, every kind and size of thread pools and every schedule", "why_tests_cant": "A deadlock across engines needs a particular interleaving of requests.", "anchors": ["distbench_engine.cc:RpcHandler", "distbench_engine.cc:RunActionList", "distbench_threadpool.cc:SimpleThreadpool", "distbench_threadpool.cc:ElasticThreadpool"]}
{"id": "C229", "title": "The latency of an RPC covers the RPCs made for it", "statement": "When an RPC is back at its client, all RPCs that were made for its sake, by the list that handles it, by the lists that it runs and by the handlers of those RPCs, are back at their clients.", "quantifier": "every test, every schedule and every depth of nested RPCs", "why_tests_cant": "Needs all interleavings and unbounded nesting.", "anchors": ["distbench_engine.cc:RpcHandler", "distbench_engine.cc:RunActionList", "distbench_engine.cc:FinishIteration"]}
{"id": "C230", "title": "When the traffic is over nothing is left to do", "statement": "When the lists with which the engines began their traffic are all over, all RPCs of the test are back at their clients and all actions of all lists that handle RPCs have ended.", "quantifier": "every test and every schedule", "why_tests_cant": "What is left over depends on the interleaving of engines.", "anchors": ["distbench_engine.cc:RunTraffic", "distbench_engine.cc:RunActionList", "distbench_test_sequencer.cc:RunTraffic"]}
{"id": "C231", "title": "Every RPC is handled once by the list named for it", "statement": "For an RPC that reaches its server exactly one run of an action list is begun, of the list that the test names for the RPC, at the engine the RPC was sent to; if there is no such list none is begun.", "quantifier": "every test and every schedule", "why_tests_cant": "Needs all interleavings of all engines.", "anchors": ["distbench_engine.cc:RpcHandler", "distbench_engine.cc:RunActionList"]}
{"id": "C232", "title": "Cancelling stops new iterations", "statement": "Once the traffic of an engine is cancelled, each action of a closed loop begins at most as many further iterations as it may run at a time, and only those that it begins without waiting for another one to end, whatever the number of iterations it was configured with.", "quantifier": "every test, every moment of cancellation on every engine and every schedule before and after", "why_tests_cant": "The number of iterations after a cancellation depends on the race between it and the ends of iterations; tests see some of these races only.", "anchors": ["distbench_engine.cc:CancelTraffic", "distbench_engine.cc:FinishIteration", "distbench_engine.cc:InitiateAction"]}
{"id": "C233", "title": "Cancelled traffic ends", "statement": "Once all engines of a test are cancelled and their grace periods are over, the traffic ends after a number of steps that depends on what is running at that time and not on how many iterations or rounds of RPCs were still to be made.", "quantifier": "every test with closed loops, every history before the cancellation and every schedule after it", "why_tests_cant": "A bound for all schedules, and for traffic that would otherwise go on for ever, cannot be had from runs.", "anchors": ["distbench_engine.cc:CancelTraffic", "distbench_engine.cc:RpcHandler", "distbench_engine.cc:RunActionList", "distbench_engine.cc:FinishIteration"]}
{"id": "C234", "title": "Cancelled traffic does not get stuck", "statement": "Whenever and on whichever engines a test is cancelled, its traffic cannot reach a state in which nothing more can happen before all its lists and RPCs are over.", "quantifier": "every test with closed loops, every kind and size of thread pools, every moment and place of cancellation and every schedule", "why_tests_cant": "A deadlock needs a particular interleaving of requests and cancellations.", "anchors": ["distbench_engine.cc:CancelTraffic", "distbench_engine.cc:RpcHandler", "distbench_engine.cc:RunActionList", "distbench_threadpool.cc:SimpleThreadpool"]}
{"id": "C235", "title": "A refused RPC is answered and not handled", "statement": "An RPC that is refused because traffic was cancelled is answered, no action list is ever run for it, and its server was cancelled; no RPC is handled twice, cancelled or not.", "quantifier": "every test, every moment and place of cancellation, every RPC and every schedule", "why_tests_cant": "Whether an RPC is refused depends on when it arrives relative to the end of the grace period.", "anchors": ["distbench_engine.cc:RpcHandler", "distbench_engine.cc:CancelTraffic"]}
{"id": "C236", "title": "Results have a sample for each RPC that was made", "statement": "When the traffic of a test is over, cancelled or not, and no action list limits the number of samples, its results have for each client, each server and each kind of RPC exactly as many samples as this client made RPCs of this kind to this server.", "quantifier": "every test, every deployment of its services, every schedule of its traffic, every order in which RPCs are recorded and logs are collected", "why_tests_cant": "Samples pass through the logs of runs, of engines and of nodes; a sample lost or counted twice under one interleaving is seen in no particular run.", "anchors": ["distbench_engine.cc:RecordLatency", "distbench_engine.cc:UnpackLatencySamples", "distbench_engine.cc:GetLogs", "distbench_node_manager.cc:GetTrafficResult", "distbench_test_sequencer.cc:RunTraffic"]}
{"id": "C237", "title": "The total number of samples in the summary", "statement": "The number of samples that the summary of a finished test gives is that of all RPCs made, where a run of an action list with max_rpc_samples counts for at most that many; without such limits it is the number that follows from the configuration alone.", "quantifier": "every test, every schedule, every max_rpc_samples, every order of recording and collecting", "why_tests_cant": "The number is the result of the whole pipeline from traffic to summary under all schedules.", "anchors": ["distbench_summary.cc:SummarizeTestResult", "distbench_engine.cc:RecordLatency", "distbench_engine.cc:RunActionList", "distbench_test_sequencer.cc:RunTraffic"]}
{"id": "C238", "title": "The number of samples in the latency line of an RPC", "statement": "A summary that is not empty has exactly one latency line for the name of each RPC that was made; its number is that of the RPCs of this name that succeeded and were not for warmup, and if none fails and there is no warmup, it is the number that follows from the configuration alone.", "quantifier": "every test without sample limits, every schedule, every choice of failing and warmup RPCs", "why_tests_cant": "The number is the result of the whole pipeline from traffic to summary under all schedules.", "anchors": ["distbench_summary.cc:SummarizeTestResult", "distbench_summary.cc:LatencySummary", "distbench_engine.cc:RecordLatency", "distbench_engine.cc:GetLogs"]}
{"id": "C239", "title": "The number of RPCs in the line of a client and a server", "statement": "A summary that is not empty has a line for each client and server with an RPC between them, and its number is that of the RPCs from this client to this server that succeeded.", "quantifier": "every test without sample limits, every schedule, every choice of failing RPCs", "why_tests_cant": "The number is the result of the whole pipeline from traffic to summary under all schedules.", "anchors": ["distbench_summary.cc:AddCommunicationSummaryTo", "distbench_summary.cc:SummarizeTestResult", "distbench_engine.cc:GetLogs"]}
{"id": "C240", "title": "Clients are connected to where the servers listen", "statement": "When a server of the gRPC or the Homa driver has been initialised on any address of its host, the caller is told the port where it listens, and a client that is given what the server tells about itself directs the RPCs for that peer to the server's address and port.", "quantifier": "every IPv4 and IPv6 address a host can have, every way to write it, every port, every peer number", "why_tests_cant": "Addresses have many written forms (gaps, embedded IPv4 addresses, names of interfaces) and a test has the few of its own host.", "anchors": ["protocol_driver_grpc.cc:CreateClientChannel", "protocol_driver_grpc.cc:HandleConnect", "protocol_driver_homa.cc:HandleConnect", "protocol_driver_homa.cc:HandlePreConnect", "protocol_driver_homa.cc:Initialize"]}
{"id": "C241", "title": "Connection data that names no place is refused", "statement": "A driver accepts connection data for a peer only if it names an IP address and a port; whatever it is given, the connections to the other peers stay as they are.", "quantifier": "every connection data, well-formed or not, every peer", "why_tests_cant": "There are infinitely many texts that are no addresses.", "anchors": ["protocol_driver_grpc.cc:HandleConnect", "protocol_driver_homa.cc:HandleConnect"]}
{"id": "C242", "title": "The last connection counts", "statement": "After any number of calls that connect peers, each peer is at the address given in the last call for it, and peers that were never connected have no address.", "quantifier": "every history of connections, every peer, every order of addresses", "why_tests_cant": "What is left over of an earlier connection depends on the history.", "anchors": ["protocol_driver_grpc.cc:HandleConnect", "protocol_driver_homa.cc:HandleConnect", "protocol_driver_homa.cc:SetNumPeers"]}
{"id": "C243", "title": "Homa messages arrive as they were sent", "statement": "A request or response that fits a Homa message is received exactly as it was sent, whatever the nocopy settings of the two sides and whatever the message object held before.", "quantifier": "every message, every combination of the nocopy settings, every earlier content of the message object, every position of page boundaries", "why_tests_cant": "The receive path depends on where pages end, on the order of fields and on what an object held before.", "anchors": ["protocol_driver_homa.cc:SlowParse", "protocol_driver_homa.cc:FastParse", "protocol_driver_homa.cc:InitiateRpc", "protocol_driver_homa.cc:ServerThread", "protocol_driver_homa.cc:ClientCompletionThread"]}
{"id": "C244", "title": "Ping-pong mode echoes", "statement": "A Homa server in ping-pong mode answers every request that Homa can carry with the request's own bytes and never ends the process; the client gets its own request as the response.", "quantifier": "every request, of every size", "why_tests_cant": "The number of pieces of a request depends on its size; the fatal error would need a size that no test has.", "anchors": ["protocol_driver_homa.cc:ServerThread"]}
{"id": "C245", "title": "The configuration says how many RPCs a test makes", "statement": "When a test whose configuration fixes all numbers (no predicates, no replay traces, no iterations limited by time, fan-outs of fixed size) is over, the number of RPCs made under each name is the one that the instance counts, action lists, iterations and fan-out filters of its text add up to, and at no time is it more.", "quantifier": "every accepted configuration with such numbers, every schedule of engines, network and thread pools, every random draw", "why_tests_cant": "The number is the joint result of tables, target choice and traffic in all engines, for every configuration and interleaving.", "anchors": ["distbench_engine.cc:InitializeConfig", "distbench_engine.cc:InitializeTables", "distbench_engine.cc:RunTraffic", "distbench_engine.cc:PickRpcFanoutTargets", "distbench_engine.cc:RpcHandler", "distbench_engine.cc:RunRpcActionIteration"]}
{"id": "C246", "title": "A test whose lists do not lead to themselves ends", "statement": "If in an accepted configuration no action list leads to itself, every service is a declared client of the RPCs it makes, and engines with a limited number of threads are called only from higher services, then a test ends after a bounded number of steps and can never get stuck before all lists are over and all RPCs are answered.", "quantifier": "every such configuration, every schedule, every random draw, every reachable state", "why_tests_cant": "Termination and absence of deadlock are statements about all executions.", "anchors": ["distbench_engine.cc:RunTraffic", "distbench_engine.cc:InitiateAction", "distbench_engine.cc:RunActionList", "distbench_engine.cc:RpcHandler", "distbench_threadpool.cc:CreateThreadpool"]}
{"id": "C247", "title": "The summary counts what the configuration asks for", "statement": "For such a test without sample limits, the total number of samples in the summary is the number of RPCs that the text of the configuration adds up to, and without failures and warmups so is the number in the latency line of each RPC.", "quantifier": "every accepted configuration with fixed numbers, every schedule, every order in which logs are collected", "why_tests_cant": "The number in the summary is the result of the whole program, from the parsing of the configuration to the last report, under all schedules.", "anchors": ["distbench_summary.cc:SummarizeTestResult", "distbench_engine.cc:GetLogs", "distbench_engine.cc:InitializeTables", "distbench_test_sequencer.cc:RunTraffic"]}
{"id": "C248", "title": "How many RPCs a test with time limits makes", "statement": "When a test without predicates is over, it has made at least the RPCs of each kind that its lists add up to if every action limited by time makes only the iterations that begin in any case (one per parallel copy, or one for an open loop), and at no time has it made more than they add up to if every such action makes as many iterations as the largest number that one of them has begun.", "quantifier": "every configuration, every schedule, every moment at which a time limit passes", "why_tests_cant": "When a limit passes relative to everything else in the test is a matter of the schedule.", "anchors": ["distbench_engine.cc:RunAction", "distbench_engine.cc:FinishIteration", "distbench_engine.cc:StartOpenLoopIteration", "distbench_engine.h:ActionState"]}
{"id": "C249", "title": "A test with time limits ends", "statement": "If no action list leads to itself, the number of steps of a test is bounded by a number that depends on its lists and on how many iterations the actions limited by time begin, not on their maximal iteration counts.", "quantifier": "every such configuration, every schedule, every moment at which a time limit passes", "why_tests_cant": "Termination is a statement about all executions.", "anchors": ["distbench_engine.cc:RunAction", "distbench_engine.cc:FinishIteration", "distbench_engine.cc:StartOpenLoopIteration", "distbench_engine.cc:RunActionList"]}
{"id": "C250", "title": "After its time limit an action begins no more iterations", "statement": "Once the time limit of an action has passed, the action begins no more iterations, except those that begin in any case; when it ends because of the limit these have begun.", "quantifier": "every run of every list, every schedule of the rest of the test", "why_tests_cant": "The limit passes while other iterations, lists and engines are in arbitrary states.", "anchors": ["distbench_engine.cc:FinishIteration", "distbench_engine.cc:StartOpenLoopIteration", "distbench_engine.cc:RunAction"]}
{"id": "C251", "title": "A test with time limits does not get stuck", "statement": "A test in which actions have time limits never reaches a state in which nothing more can happen (other than that limits pass) although lists are not over or RPCs not answered; every run of it can be continued to its end.", "quantifier": "every configuration, every schedule, every reachable state", "why_tests_cant": "Absence of deadlock is a statement about all reachable states.", "anchors": ["distbench_engine.cc:FinishIteration", "distbench_engine.cc:RunActionList", "distbench_engine.cc:RpcHandler", "distbench_threadpool.cc:CreateThreadpool"]}
{"id": "C252", "title": "The results of a test with time limits are complete", "statement": "When a test with time limits is over, its results hold every RPC that was made, for each client, server and kind of RPC, up to the sample limits of the lists; the summary's numbers of samples are those of the RPCs made.", "quantifier": "every configuration, every schedule, every moment at which a time limit passes, every order in which logs are collected", "why_tests_cant": "How many RPCs are made is not known beforehand, and the logs of the last iterations are written while the lists end.", "anchors": ["distbench_engine.cc:GetLogs", "distbench_engine.cc:FinishIteration", "distbench_summary.cc:SummarizeTestResult"]}
{"id": "C253", "title": "The names of the fields of a distribution decide their use", "statement": "In a joint distribution of RPC sizes with fields request_payload_size and response_payload_size, listed in any order and possibly among others, the sizes of a request and of its response are values that one and the same point admits for these two fields, and every such pair can be drawn; a one-dimensional size distribution is drawn from by its field payload_size and a delay distribution by its field action_delay_ns.", "quantifier": "every accepted configuration, every distribution given by probabilities, every order of fields, every draw", "why_tests_cant": "A test sees some draws from some distributions; that fields are never mixed up is a statement about all of them.", "anchors": ["distbench_engine.cc:InitializeSampleGenerators", "distbench_utils.cc:GetCanonicalDistributionConfig", "joint_distribution_sample_generator.cc:GetRandomSample"]}
{"id": "C254", "title": "A test needs a positive thread limit", "statement": "If a registered node is given a thread limit that is not positive, the test fails, and no node is introduced to its peers, told to run traffic or asked for results.", "quantifier": "every test, every set of registered nodes, every order of answers, every limit", "why_tests_cant": "The limit, the number of nodes and the order of the answers vary independently.", "anchors": ["distbench_node_manager.cc:ConfigureNode", "distbench_test_sequencer.cc:ConfigureNodes", "distbench_test_sequencer.cc:DoRunTest"]}
{"id": "C255", "title": "The configuration bounds how many RPCs a test with time limits makes", "statement": "When a test whose actions are limited by number or by time (max_duration_us) is over, the number of RPCs made under each name is at least what the text of its configuration adds up to if each action with a time limit has only the iterations that begin in any case, that is max_parallel_iterations of them (or max_iteration_count if less), or one with open_loop_interval_ns; and it is never more than the text adds up to if each of them has as many iterations as there was time for.", "quantifier": "every accepted configuration without predicates and replay traces and with fan-outs of fixed size, every schedule, every moment at which a time limit passes, every random draw", "why_tests_cant": "The moment at which a limit passes is arbitrary, and the number is the joint result of all engines.", "anchors": ["distbench_engine.cc:InitializeTables", "distbench_engine.cc:InitiateAction", "distbench_engine.cc:FinishIteration", "distbench_engine.cc:StartOpenLoopIteration", "distbench_engine.cc:PickRpcFanoutTargets", "distbench_engine.cc:RunTraffic"]}
{"id": "C256", "title": "A test with time limits ends, by its configuration", "statement": "If in an accepted configuration no action list leads to itself, every service is a declared client of the RPCs it makes, and engines with a limited number of threads are called only from higher services, then a test whose actions are limited by number or by time makes a number of steps that is bounded by the number of iterations there is time for, and never gets stuck before all lists are over and all RPCs are answered.", "quantifier": "every such configuration, every schedule, every moment at which a time limit passes, every reachable state", "why_tests_cant": "Termination and absence of deadlock are statements about all executions.", "anchors": ["distbench_engine.cc:RunTraffic", "distbench_engine.cc:InitiateAction", "distbench_engine.cc:FinishIteration", "distbench_engine.cc:RunActionList", "distbench_engine.cc:RpcHandler"]}
{"id": "C257", "title": "The summary of a test with time limits counts the RPCs that were made", "statement": "For such a test without sample limits, the total number of samples in the summary is the number of RPCs that were made, and without failures and warmups the number in the latency line of each RPC is the number made under this name, and so lies between the two numbers that the text of the configuration adds up to.", "quantifier": "every accepted configuration, every schedule, every moment at which a time limit passes, every order in which logs are collected", "why_tests_cant": "The number in the summary is the result of the whole program under all schedules.", "anchors": ["distbench_summary.cc:SummarizeTestResult", "distbench_engine.cc:GetLogs", "distbench_engine.cc:FinishIteration", "distbench_engine.cc:InitializeTables"]}
{"id": "C258", "title": "Every RPC finds a place in the log of its action list", "statement": "Whatever RPC a test makes, the action list that makes it has set up a log with an entry for the instance that the RPC goes to, so that recording its outcome never runs into the checks that abort the process. A list sets up such a log, with an entry for every instance of every service, exactly if one of its actions is an RPC.", "quantifier": "all configurations that are accepted, all engines, all schedules of the traffic with and without time limits, all RPCs made in them", "why_tests_cant": "The entry that is needed depends on the list, on the random choice of targets and on the sizes of all services; tests only run a few configurations, and a missing entry aborts only when its RPC completes.", "anchors": ["distbench_engine.cc:InitializeTables", "distbench_engine.cc:RunActionList", "distbench_engine.cc:RecordLatency", "distbench_engine.cc:UnpackLatencySamples"]}
{"id": "C259", "title": "With all threads at work, a test makes the RPCs that its configuration adds up to", "statement": "Let every action list of every engine be run by its own thread loop, every action by its own iteration loop with its own clock, threads and counters, and let all of these be interleaved. When all of them are through, the number of RPCs made under each name is exactly what the text of the configuration adds up to if no action has a time limit; with time limits it is at least the sum with the iterations that begin in any case, and at no time more than the sum with as many iterations as there was time for.", "quantifier": "every accepted configuration without predicates, replay traces and activities and with fan-outs of fixed size, every interleaving of the threads, every course of the clocks, every random draw", "why_tests_cant": "The number is the joint result of all threads of all engines, of which a test sees one interleaving.", "anchors": ["distbench_engine.cc:RunActionList", "distbench_engine.cc:InitiateAction", "distbench_engine.cc:StartNewIterations", "distbench_engine.cc:StartOpenLoopIteration", "distbench_engine.cc:FinishIteration", "distbench_engine.cc:RpcHandler", "distbench_engine.cc:RunTraffic"]}
{"id": "C260", "title": "With all threads at work, every RPC is handled once, by the list of its name", "statement": "However the threads of the engines are interleaved, no action list is run for an RPC as long as it has not reached a thread of its server; from then on exactly one run has been started for it, of the action list that has the name of the RPC, by the engine that the RPC was sent to; and none if that list is empty.", "quantifier": "every accepted configuration without activities, every interleaving of the threads, every RPC", "why_tests_cant": "A lost or doubled dispatch appears only under some interleavings.", "anchors": ["distbench_engine.cc:RpcHandler", "distbench_engine.cc:RunRpcActionList", "distbench_engine.cc:InitializeTables"]}
{"id": "C261", "title": "With all threads at work, an RPC is back only after all that is done for it", "statement": "If no action sends the response before its list ends, then however the threads are interleaved, by the time an RPC is back at its client all RPCs made for its sake, directly or through others, are back at theirs; and when the lists with which the engines began are over, all RPCs of the test are back and all actions of all lists have ended.", "quantifier": "every accepted configuration without activities and without send_response_when_done, every interleaving of the threads, every RPC", "why_tests_cant": "The response is sent by whichever thread ends the last action; a test sees one order.", "anchors": ["distbench_engine.cc:RunActionList", "distbench_engine.cc:FinishAction", "distbench_engine.cc:FinishIteration", "distbench_engine.cc:RunTraffic"]}
{"id": "C262", "title": "When a list is over, each of its actions has had its iterations", "statement": "When a run of an action list is over, each of its actions either was skipped and has begun no iteration, or has begun max_iteration_count iterations (one if it has no iterations), or, if it has a time limit, at least those that begin in any case; and at no time has an action of a run begun more than max_iteration_count iterations.", "quantifier": "every accepted configuration without activities, every interleaving of the threads, every course of the clocks, every run of a list at every engine", "why_tests_cant": "Whether the list waits for the last iteration of each of its actions depends on the interleaving of its thread with all others.", "anchors": ["distbench_engine.cc:RunActionList", "distbench_engine.cc:InitiateAction", "distbench_engine.cc:FinishIteration", "distbench_engine.cc:StartOpenLoopIteration", "distbench_engine.cc:FinishAction"]}
{"id": "C263", "title": "A test never gets stuck half way", "statement": "At every moment of a test whose lists do not call each other in circles, whose clients are declared, in which engines with limited threads get RPCs only from higher services, and whose loops are bounded, the threads can still go on until all lists have ended and all RPCs are back; if each loop has a maximal number of iterations this holds without exception, and otherwise as long as no number of iterations has exceeded the range of an int.", "quantifier": "every accepted configuration of this kind, every schedule of all threads of all engines up to the moment in question, and every way in which time passed", "why_tests_cant": "A test run that ends shows that one schedule ends; a deadlock or a lost wakeup needs one particular interleaving of list threads, iterations, RPC handlers and thread pools on several machines.", "anchors": ["distbench_engine.cc:RunActionList", "distbench_engine.cc:InitiateAction", "distbench_engine.cc:FinishIteration", "distbench_engine.cc:StartNewIterations", "distbench_engine.cc:StartOpenLoopIteration", "distbench_engine.cc:RpcHandler"]}
{"id": "C264", "title": "Cancelled or not, an RPC is handled at most once, and comes back unhandled only from a cancelled engine", "statement": "For each RPC at most one list is ever run, the one with its name, at the engine it was sent to: none before it has reached a thread of its server, one while it is handled, and one when it has come back, unless that list is empty or the engine had been cancelled and its grace period was over; what an RPC is never changes, and it never goes back to an earlier stage.", "quantifier": "every accepted configuration without activities and open loops, every interleaving of the threads, cancellation of any engines at any times, every RPC", "why_tests_cant": "Cancellation races with RPCs on their way, RPCs that wait for a thread and RPCs that are being handled; a test sees one order.", "anchors": ["distbench_engine.cc:RpcHandler", "distbench_engine.cc:CancelTraffic", "distbench_engine.cc:RunRpcActionList"]}
{"id": "C265", "title": "Also when traffic is cancelled, an RPC is back only after all that is done for it", "statement": "If no action sends the response before its list ends, then by the time an RPC is back at its client all RPCs made for its sake, directly or through others, are back at theirs, even if engines were cancelled in between; and when a run of a list is over, all RPCs it made are back and all lists it ran are over.", "quantifier": "every accepted configuration without activities and open loops, every interleaving of the threads, cancellation of any engines at any times, every RPC and every run of a list", "why_tests_cant": "A list that is cancelled leaves its scan early, and whether it still waits for all that it began depends on the interleaving.", "anchors": ["distbench_engine.cc:RunActionList", "distbench_engine.cc:CancelTraffic", "distbench_engine.cc:FinishAction", "distbench_engine.cc:FinishIteration"]}
{"id": "C266", "title": "After cancellation no action begins more than its parallel iterations", "statement": "Once an engine is cancelled it stays cancelled, and each action of each of its runs of lists, those under way and those that begin later, begins at most max_parallel_iterations further iterations (one if it has no iterations).", "quantifier": "every accepted configuration without activities and open loops, every interleaving of the threads, cancellation of any engines at any times, every action of every run", "why_tests_cant": "How many iterations slip through depends on which threads have read the flag, and on which iterations had not been issued yet.", "anchors": ["distbench_engine.cc:CancelTraffic", "distbench_engine.cc:FinishIteration", "distbench_engine.cc:StartNewIterations", "distbench_engine.cc:RunActionList"]}
{"id": "C267", "title": "A cancelled test can always be brought to its end", "statement": "Once the traffic of all engines is cancelled, at every later moment the test can still go on until all runs of lists are over and all RPCs are back, even if its loops have no bounds at all: no state after cancellation is a dead end.", "quantifier": "every accepted configuration without activities and open loops whose lists and RPCs do not call in circles, whose RPCs are made only by declared clients and whose thread pools are layered and not empty; every interleaving, every moment of cancellation (with no iteration number near the end of int where a loop has no maximal count), every later moment", "why_tests_cant": "A test sees one schedule of a cancelled run; whether some order of threads leaves a list waiting for ever needs all reachable states.", "anchors": ["distbench_engine.cc:RunActionList", "distbench_engine.cc:CancelTraffic", "distbench_engine.cc:FinishIteration", "distbench_engine.cc:StartNewIterations", "distbench_engine.cc:RpcHandler"]}
{"id": "C268", "title": "A cancelled test comes to rest and ends under every schedule", "statement": "Once the traffic of all engines is cancelled, under every infinite schedule there is a moment from which on no iteration begins or ends, no RPC moves and no list goes on. If the schedule never idles for ever while something could be done, then from some moment on all lists are over and all RPCs are back.", "quantifier": "every accepted configuration without activities and open loops whose lists and RPCs do not call in circles and whose RPCs are made only by declared clients, with loops that may be unbounded; every moment of cancellation (with no iteration number near the end of int where a loop has no maximal count); every infinite schedule; for the end, thread pools that are layered and not empty", "why_tests_cant": "Termination of all schedules is a statement about infinite runs, which no test can make.", "anchors": ["distbench_engine.cc:RunActionList", "distbench_engine.cc:CancelTraffic", "distbench_engine.cc:FinishIteration", "distbench_engine.cc:StartNewIterations", "distbench_engine.cc:RpcHandler"]}
{"id": "C269", "title": "A test whose loops are counted does a finite amount of work under every schedule", "statement": "If each action with iterations has a maximal number of them, then under every infinite schedule, whenever and on whichever engines traffic is cancelled or not, there is a moment from which on no list or action starts, no iteration begins or ends and no RPC moves. If nobody cancels and the schedule never stops for good while something could still be brought about, then from some moment on all lists are over and all RPCs are back.", "quantifier": "every accepted configuration without activities and open loops whose lists and RPCs do not call in circles and whose RPCs are made only by declared clients; every reachable state, every infinite schedule; for the end, no cancellation and thread pools that are layered and not empty", "why_tests_cant": "Termination of all schedules is a statement about infinite runs; the threads of lists may wake and look again any number of times without doing anything.", "anchors": ["distbench_engine.cc:RunActionList", "distbench_engine.cc:CancelTraffic", "distbench_engine.cc:FinishIteration", "distbench_engine.cc:StartNewIterations", "distbench_engine.cc:RpcHandler"]}
{"id": "C270", "title": "Tests of one name are one test", "statement": "When test_builder writes a sequence, tests of it that have the same name have the same attributes, and distbench reads the same test from them: the same driver options and the same traffic. A sequence in which a name would stand for two different tests is not written.", "quantifier": "all flags, configuration strings, files that values name, and sweeps", "why_tests_cant": "Names leave out some parameters, so only all pairs of configurations can tell.", "anchors": ["test_builder/test_builder:convert_params_dict_to_test_config_proto", "test_builder/test_builder:format_test_proto"]}
{"id": "C271", "title": "Tests of a sequence do not depend on each other", "statement": "test_builder makes one test for each configuration, in their order, and in a sweep one for each value and each configuration, in the order of the values; the values are start, start + step, ... as far as they do not go beyond the end. Each test is the same as if its configuration (and its value of the sweep) had been the only one.", "quantifier": "all flags, lists of configurations, names, starts, steps and ends of sweeps, positive and negative", "why_tests_cant": "The parameters of all tests of a run go through one array, and any earlier value could stay in it.", "anchors": ["test_builder/test_builder:build_config_test_protos", "test_builder/test_builder:build_parameter_sweep_test_protos", "test_builder/test_builder:build_test_sequence_protos"]}
{"id": "C272", "title": "Configuration strings mean what they say", "statement": "A test has every parameter that its configuration string (with the common prefix) gives, with the value given last, as an attribute, besides the few attributes that the tool sets itself; config_label is the configuration with the label prefix; the test is of the traffic pattern that was given last, and uses the protocol driver that was given last, or gRPC. A swept parameter has the value of the sweep unless the configuration gives it another one. A configuration with a part that is no assignment, driver, pattern or IP version is refused, and so is one that names a file that cannot be read.", "quantifier": "all flags, configuration strings, files and sweeps", "why_tests_cant": "Configurations are any texts with any number of parts, and a given parameter may be overwritten by a default or by a part before it.", "anchors": ["test_builder/test_builder:parse_params_dict_from_config_string", "test_builder/test_builder:set_parameter_default", "test_builder/test_builder:build_parameter_sweep_test_protos"]}
{"id": "C273", "title": "Results in the output directory are results of the tests", "statement": "When test_builder runs the tests of a sequence, a test is run only if there is no file with results for it, and at most once; files that exist are never changed, and nothing is written but the results of tests that were run. Afterwards the directory has, for each test, a file with results of that test.", "quantifier": "all sequences the tool makes, all contents of the output directory before", "why_tests_cant": "It depends on every earlier use of the directory.", "anchors": ["test_builder/test_builder:run_all_tests", "test_builder/test_builder:maybe_run_test_sequence"]}
{"id": "C274", "title": "Attributes are read as they were given", "statement": "The keys and values of attributes that test_builder writes into a test are read by distbench as they were given to the tool.", "quantifier": "all texts of keys and values", "why_tests_cant": "Quoting goes through the shell, sed and the protobuf text format; each has its own special characters.", "anchors": ["test_builder/test_builder:single_quote_string", "test_builder/test_builder:format_test_proto"]}
{"id": "C275", "title": "Tests that the tool writes are accepted", "statement": "Every sequence that test_builder writes without complaint can be read by distbench, is accepted by check_test and by the test sequencer, and in each of its tests the engine of every instance of every service accepts the configuration.", "quantifier": "all flags, configuration strings, files and sweeps; all traffic patterns and protocol drivers", "why_tests_cant": "The tool and distbench check different things, so only all values of all parameters can tell.", "anchors": ["test_builder/test_builder:convert_params_dict_to_test_config_proto", "test_builder/test_builder:validate_integer", "distbench_engine.cc:ValidateTrafficConfig", "distbench_utils.cc:GetCanonicalTestSequence"]}
{"id": "C276", "title": "A test has the load that was asked for", "statement": "In a test written by test_builder, the services have the numbers of instances, the RPCs go between them with the fan-out, payload sizes and tracing interval, and the loops have the duration, interval, mode and number of parallel calls that the parameters of the test give; the interval of a rate of n queries per second is the n-th part of a second, rounded down to nanoseconds.", "quantifier": "all six traffic patterns and all values of their parameters", "why_tests_cant": "Units are changed by putting zeros behind texts and by shell arithmetic, and fields of the test have different widths.", "anchors": ["test_builder/test_builder:clique_traffic_pattern_setup", "test_builder/test_builder:rectangular_traffic_pattern_setup", "test_builder/test_builder:multi_level_rpc_traffic_pattern_setup", "traffic_config.proto:Iterations"]}
{"id": "C277", "title": "A test uses the protocol driver that was asked for", "statement": "Every service of a test written by test_builder uses the protocol driver that the attributes of the test name, with the settings they give, on the node's own device, whatever default driver distbench was started with.", "quantifier": "all flags, configuration strings and sweeps; the three drivers and all their settings; all default drivers and devices of nodes", "why_tests_cant": "The settings pass from a shell array through text to the node manager's lookup by name and the driver allocator.", "anchors": ["test_builder/test_builder:grpc_protocol_driver_setup", "test_builder/test_builder:homa_protocol_driver_setup", "distbench_node_manager.cc:GetProtocolDriverOptionsFor", "protocol_driver_allocator.cc:AllocateProtocolDriver"]}
{"id": "C278", "title": "A test of the test builder has an attribute for every parameter, with the documented default", "statement": "Every test that the test builder makes carries an attribute for every parameter of its traffic pattern and of its protocol driver; the attribute is the value that the configuration gave last, or else the default that the tool documents.", "quantifier": "every option set, every list of configurations and sweep, every pattern and driver", "why_tests_cant": "Attributes are how results are told apart later; a default missing for one combination of pattern and driver among all configurations shows only when such results are analysed.", "anchors": ["test_builder/test_builder:set_default_param", "test_builder/test_builder:clique_traffic_pattern_setup", "test_builder/test_builder:usage"]}
{"id": "C279", "title": "The test builder refuses parameters that make no sense", "statement": "A test is built only if its numeric parameters are decimal numbers at or above the smallest value that makes sense: at least two nodes or cells, at least one instance of each service, at least one query, thread and byte, an interval of at least 100 microseconds, and a duration of at least a second.", "quantifier": "every configuration and sweep, every pattern and driver, every text given for a number", "why_tests_cant": "The texts that can be given for a number are unbounded, and each pattern has its own list of checks.", "anchors": ["test_builder/test_builder:validate_integer", "test_builder/test_builder:clique_traffic_pattern_setup", "test_builder/test_builder:homa_protocol_driver_setup"]}
{"id": "C280", "title": "The sequencer and the client give a test of the test builder its duration and two minutes", "statement": "In a test that the test builder makes, every loop is limited to the duration of the test; the sequencer lets the test run for that duration and 120 seconds more, and the client waits for the sequence as long as all its tests may take together.", "quantifier": "every option set, configuration and sweep, every pattern, every duration that distbench can read", "why_tests_cant": "The duration reaches the loops as text with six zeros appended and the deadline as an attribute computed by the shell; that both agree must hold for every duration and pattern.", "anchors": ["test_builder/test_builder:RESULTS_COLLECTION_TIMEOUT", "test_builder/test_builder:clique_traffic_pattern_setup", "distbench_test_sequencer.cc:RunTraffic", "distbench_busybox.cc:GetTestSequenceTimeout"]}
{"id": "C281", "title": "Latency files are read back with the same messages", "statement": "A latency file that results_conversion writes in the homa format without a header is read by the plotting script with exactly its messages: each message length that occurs once, with the latencies of its messages in microseconds. In particular, from the overall summary of a result it gets the messages of all samples of all tests that count. A file with a header or with an empty line is refused.", "quantifier": "every result, every list of sizes and latencies, in any order and of any length", "why_tests_cant": "Columns run together or are split wrongly only for certain widths of numbers, and messages are mixed up only for certain orders of lengths; tests use one small file.", "anchors": ["homa_experiments/cp_node_analysis.py:read_rtts", "analysis/results_conversion.py:HomaFormatter"]}
{"id": "C282", "title": "The latency digest has one right row for each message length", "statement": "The digest of an experiment has exactly one row for each message length that occurs, in ascending order; a row has the number of messages of the length, the fraction of all messages that are no longer, and the minimum, median, 99% and 99.9% values of the latencies of this length, which are order statistics of these latencies.", "quantifier": "every collection of messages with at least one message, any lengths and latencies", "why_tests_cant": "The loop closes a row when it sees the next length and relies on a sentinel for the last row; an index that is off by one shows only for certain numbers of messages.", "anchors": ["homa_experiments/cp_node_analysis.py:get_digest", "homa_experiments/cp_node_analysis.py:get_buckets"]}
{"id": "C283", "title": "The axis of a latency plot is labelled with deciles of the message lengths", "statement": "The x-axis of a latency plot has exactly eleven marks, at 0, 10%, ..., 100% of the messages, and the mark at a share is labelled with the smallest message length such that at least this share of the messages is no longer.", "quantifier": "every collection of messages with at least one message", "why_tests_cant": "One length can span several marks or none; whether marks are lost or repeated depends on the distribution of lengths.", "anchors": ["homa_experiments/cp_node_analysis.py:start_rtt_plot"]}
{"id": "C284", "title": "A latency curve is the staircase of the percentiles by message length", "statement": "A latency curve (min, p50, p99 or p999) is a staircase with one step for each message length that occurs, in ascending order: the step of a length extends from the fraction of messages that are shorter to the fraction of messages that are no longer, at the height of the percentile of the latencies of this length. Any other selector is refused.", "quantifier": "every collection of messages with at least one message, every selector", "why_tests_cant": "The picture looks plausible also when steps are shifted by one length; that they are right must hold for any number of lengths.", "anchors": ["homa_experiments/cp_node_analysis.py:plot_rtts", "homa_experiments/cp_node_analysis.py:make_histogram"]}
{"id": "C285", "title": "The mode that the binary runs", "statement": "distbench runs a mode exactly if the first argument that is not a flag names it (test_sequencer, node_manager, run_tests, check_test, test_preview), and hands it the remaining ones; only node_manager may get any. With -h among its arguments, or as distbench help, it prints its usage and exits with status 0; with anything else, unless the flags themselves end it, it prints its usage and exits with status 1.", "quantifier": "every command line and every meaning of the flags in it", "why_tests_cant": "Unbounded set of command lines.", "anchors": ["distbench_busybox.cc:main", "distbench_busybox.cc:ValidateArgumentsOrExit"]}
{"id": "C286", "title": "The exit status of test_preview", "statement": "test_preview exits with status 0 exactly if the input could be read, every test in it, in canonical form and with all instances on one node, ran and succeeded, and the results of all of them, in order, are printed or in the output file. It starts at most one node.", "quantifier": "every input file, every outcome of the tests and history of the sequencer, text and binary output, every amount of room on the disk", "why_tests_cant": "Combines the parsing of the file, the canonical form, the histories of the sequencer and the failures of the file system.", "anchors": ["distbench_busybox.cc:MainTestPreview", "distbench_test_sequencer_tester.cc:RunTestSequenceOnSingleNodeManager", "distbench_test_sequencer_tester.cc:RunTestSequence", "distbench_utils.cc:GetCanonicalTestSequence"]}
{"id": "C287", "title": "A preview waits as long as its tests may take", "statement": "The time that test_preview waits for its tests is not shorter than the sum of the times the sequencer allows them.", "quantifier": "every sequence of tests with any timeouts", "why_tests_cant": "Sequences are unbounded, and the times are in hours.", "anchors": ["distbench_busybox.cc:MainTestPreview", "distbench_test_sequencer.cc:DoRunTest"]}
{"id": "C288", "title": "The nodes of a test sequencer", "statement": "distbench test_sequencer --local_nodes=n has the n nodes node0 to node(n-1) of its own once it is started.", "quantifier": "every number of nodes and every interleaving with registrations of other nodes", "why_tests_cant": "Depends on the interleaving of registrations from elsewhere, and on numbers of nodes no test starts.", "anchors": ["distbench_busybox.cc:MainTestSequencer", "distbench_test_sequencer.cc:RegisterNode"]}
{"id": "C289", "title": "A workload script runs the load that its options ask for", "statement": "A script in workloads/ runs one test at the given sequencer, with the given protocol driver, into the given output file. Its services have the given numbers of instances, and its loop lasts the given time at the given rate. Options can be given in one word or in two, -v can stand before another one, the last value counts, and an option that is not given has the documented default, which for the time and the rate comes from the environment. Calls, message sizes and dependencies are those of the script's pattern.", "quantifier": "every list of arguments, every environment, all decimal values", "why_tests_cant": "Unbounded argument lists in several notations, combined with the text of a test that only distbench itself reads.", "anchors": ["workloads/clique_rpc_pattern.sh", "workloads/multi_level_rpc_pattern.sh", "workloads/simple_client_server_rpc_pattern.sh", "workloads/tripartite_rpc_pattern.sh", "workloads/test_stochastic.sh"]}
{"id": "C290", "title": "Wrong use of a workload script", "statement": "A workload script that is given an option it does not have, an option without its argument, or -h, shows its usage and runs no test, wherever among the arguments that is; on wrong use it exits with a status other than 0. For all other arguments it is unambiguous what they ask for. The clique script refuses to run with fewer than two nodes, with status 1. Otherwise the status of a script is that of the run.", "quantifier": "every list of arguments and every environment", "why_tests_cant": "The set of command lines is unbounded.", "anchors": ["workloads/clique_rpc_pattern.sh:getopts", "workloads/tripartite_rpc_pattern.sh:getopts"]}
{"id": "C291", "title": "The time that the test of a workload script is allowed", "statement": "If a workload script runs a test for a given number of seconds, then both the client and the test sequencer allow it 100 seconds more than that. A script without such an option allows an hour.", "quantifier": "every list of arguments and every environment with which a test is run", "why_tests_cant": "Shell arithmetic, the flags of the client and the attributes of the test must agree for every number of seconds.", "anchors": ["workloads/clique_rpc_pattern.sh", "distbench_busybox.cc:MainRunTests", "distbench_test_sequencer.cc:DoRunTest"]}
{"id": "C292", "title": "The tests of the workload scripts are accepted", "statement": "With the modes its usage lists, and all other values that are well formed, the test that a workload script runs is accepted by check_test, by the test sequencer, and by the engine of every instance of every service.", "quantifier": "every list of arguments and every environment with which a test is run, every instance", "why_tests_cant": "The numbers of instances are unbounded, and every instance decides for itself.", "anchors": ["workloads/clique_rpc_pattern.sh", "workloads/test_stochastic.sh", "distbench_utils.cc:GetCanonicalTestSequence", "distbench_engine.cc:ValidateTrafficConfig"]}
{"id": "C293", "title": "Collecting results comes to an end", "statement": "Collecting the results of a node takes one step per peer and two more, each of which can be taken at once: it never waits for action lists that are still running, however much they do in the meantime.", "quantifier": "every number of peers and every interleaving with running action lists", "why_tests_cant": "Depends on the interleaving; a test sees a hang only if it meets it.", "anchors": ["distbench_engine.cc:GetLogs", "distbench_engine.cc:AddActivityLogs"]}
{"id": "C294", "title": "A test that is over leaves nothing to cancel", "statement": "When a test is over, a later request tells none of its nodes to stop, until the next test is set up, whichever requests cancelled while it ended. A test whose results are being collected can come to its end without anybody's help.", "quantifier": "every history of tests and requests", "why_tests_cant": "Depends on the interleaving of the end of a test with requests that cancel it.", "anchors": ["distbench_test_sequencer.cc:RunTraffic", "distbench_test_sequencer.cc:CancelTraffic", "distbench_test_sequencer.h:MarkNodeInactive"]}
{"id": "C295", "title": "Polluting the data cache changes what was drawn and nothing else", "statement": "A PolluteDataCache activity has an array of the configured size with element i starting at i, and each access adds one to the element that was drawn and changes no other: after any number of runs an element differs from its start by exactly the number of times it was drawn.", "quantifier": "every accepted configuration, every number of runs and all random draws", "why_tests_cant": "The draws are random and the runs unbounded in number; the array itself is not reported.", "anchors": ["activity.cc:PolluteDataCache::Initialize", "activity.cc:PolluteDataCache::DoActivity"]}
{"id": "C296", "title": "Answering an RPC and freeing its state", "statement": "Whatever request comes in, by whichever server, and whatever action list or trace is run for it or started by the engine itself, in a debug and in a release build alike: the functions that send the response and free the state touch nothing that was freed before and free nothing twice, one response goes to a waiting client, and in the end nothing is left of what was allocated. As long as neither function is called twice, both builds do the same.", "quantifier": "every request and state of the engine, every run of every action list and trace, every server, both kinds of build, every moment at which the polling server learns that a response has gone out", "why_tests_cant": "Tests run in one build and look at the responses: a leak or a use of freed memory depends on the build, the server and the order of two threads.", "anchors": ["protocol_driver.cc:ServerRpcState::SendResponseIfSet", "protocol_driver.cc:ServerRpcState::FreeStateIfSet", "distbench_engine.cc:DistBenchEngine::RunTraffic", "distbench_engine.cc:DistBenchEngine::InitiateAction", "distbench_engine.cc:DistBenchEngine::RpcHandler", "protocol_driver_grpc.cc:PollingRpcHandlerFsm::HandleRpc"]}
{"id": "C297", "title": "A second response", "statement": "Whatever a handler calls and in whichever order, at most one response to an RPC is sent: a second attempt ends the process with a message. So does a second attempt to free the state.", "quantifier": "every sequence of calls on a state, every server, both kinds of build", "why_tests_cant": "The engine makes no such calls, so that its tests do not see what would happen; a handler of another kind might.", "anchors": ["protocol_driver.cc:ServerRpcState::SendResponseIfSet", "protocol_driver.cc:ServerRpcState::FreeStateIfSet"]}
{"id": "C298", "title": "A binary test sequence that was cut short", "statement": "If only the beginning of the binary form of a test sequence is in the input file, because writing it was interrupted at some byte, then it is refused, and not run as another test sequence.", "quantifier": "every test sequence in binary form and every byte at which it is cut", "why_tests_cant": "The crash point is any byte of any file; a test can try a few.", "anchors": ["distbench_utils.cc:ParseTestSequenceProtoFromFile", "distbench.proto:TestSequence"]}
{"id": "C299", "title": "The iteration counter of an open loop", "statement": "However long an open-loop action runs, its iteration counters do not overflow.", "quantifier": "every action with an open-loop interval, every schedule, every number of iterations", "why_tests_cant": "It takes two billion iterations.", "anchors": ["distbench_engine.cc:DistBenchEngine::StartOpenLoopIteration", "distbench_engine.cc:DistBenchEngine::FinishIteration", "distbench_engine.h:ActionState"]}
{"id": "C300", "title": "An option that was added is the one that is read", "statement": "After any sequence of calls that add a named option to the options of a protocol driver (a number or a text for its server, a text for its client) or to an activity, what is read under a name, for that side and kind, is the value that was added last; what is read under other names, for the other side and of the other kind stays as it was.", "quantifier": "every starting set of options, every sequence of calls, every name, value and default", "why_tests_cant": "Options may already be there, and calls may repeat a name; a test tries one short sequence on empty options.", "anchors": ["distbench_utils.cc:AddServerInt64OptionTo", "distbench_utils.cc:AddServerStringOptionTo", "distbench_utils.cc:AddClientStringOptionTo", "distbench_utils.cc:AddActivitySettingIntTo", "distbench_utils.cc:AddActivitySettingStringTo", "distbench_utils.cc:GetNamedSettingString", "distbench_utils.cc:GetNamedSettingInt64", "protocol_driver_benchmark.cc:GrpcPollingClientHandoffSimpleServer"]}
{"id": "C301", "title": "Updating a checkout loses nothing that exists nowhere else", "statement": "When the set-up and deployment scripts bring a working tree up to date, the user's work in it is safe, whatever the arguments, the remote and the state of the tree: if a call does not succeed, then the working tree is as it was; if tracked files were changed or the version in the tree was never published, then the call is refused; and a file content that is not there any more afterwards is in a published version.", "quantifier": "every state of the working tree and of the repository, every answer of the remote, all arguments", "why_tests_cant": "The states of a working tree are unbounded and the loss shows only for a user who has work of their own in it.", "anchors": ["git_clone_or_update.sh:git_clone_or_update", "deploy_to_cloudlab.sh", "setup_mercury.sh:install_libfabric", "setup_mercury.sh:install_mercury"]}
{"id": "C302", "title": "A checkout that was updated holds the version asked for", "statement": "If fetching or updating a working tree succeeds, then the tree holds the files of the version that the remote has under the name asked for, files of the version before that are not in it are gone, and files that belong to neither are untouched.", "quantifier": "every state of the working tree and of the repository, every answer of the remote, all arguments", "why_tests_cant": "Versions, trees and the times at which branches disappear are arbitrary.", "anchors": ["git_clone_or_update.sh:git_clone_or_update"]}
{"id": "C303", "title": "A checkout can be updated again", "statement": "Once a version was fetched into a working tree, every later update of it with the same arguments succeeds, any number of times, however the version has changed on the remote, as long as the remote has it and nobody touches the tree.", "quantifier": "all arguments, every branch name, every sequence of states of the remote", "why_tests_cant": "It is about any number of later calls and any name of a branch.", "anchors": ["git_clone_or_update.sh:git_clone_or_update", "deploy_to_cloudlab.sh"]}
{"id": "C304", "title": "Starting a local test bed", "statement": "Whatever options the local start script is given and in whichever order, it starts one test sequencer and as many nodes as were asked for, all of which know the sequencer, at valid ports that differ from each other and from the sequencer's; it reports by its status if it cannot build, and if the sequencer does not answer.", "quantifier": "every list of options, every number of nodes, with and without debugging", "why_tests_cant": "The script is run by hand with a few nodes; the numbers and combinations of options are unbounded.", "anchors": ["start_distbench_localhost.sh"]}
{"id": "C305", "title": "A deployment uses the device that was named, or a private one", "statement": "If a network device is named to the deployment script, then that one is used. Otherwise the first one listed is used, other than the loopback, that does not have the public address and has an address that is not confined to the link; the test sequencer is reached at that address, by preference that of IPv6. If there is no such device, then the deployment fails.", "quantifier": "every argument, every list of devices with all names and addresses", "why_tests_cant": "Depends on the devices of the cluster; a test bed has one arrangement of them.", "anchors": ["deploy_to_cloudlab.sh", "deploy_to_cloudlab.sh:dev_is_usable"]}
{"id": "C306", "title": "A deployment starts one node manager on each node", "statement": "On a cluster of n nodes the deployment script, if its commands succeed, starts one test sequencer on the first node, and on each of the nodes 0 to n-1, and no others, one node manager, named after its node and with a port that no other has. Before anything is started, previous processes on all nodes are ended, and after that the new program is put there.", "quantifier": "every number of nodes", "why_tests_cant": "The number of nodes is unbounded; clusters for tests are small.", "anchors": ["deploy_to_cloudlab.sh:remote_main"]}
{"id": "C307", "title": "A local deployment deploys what is in the working tree", "statement": "When the local repository is deployed and no branch is named, the version that is built on the cluster is the one checked out, with all tracked files as they are in the working tree: if something is not committed, then the deployment is refused, unless the check was declined. Every local branch is on the cluster then as it is committed locally, also if it was there in another version; branches that are only on the cluster stay.", "quantifier": "every state of the repository, of its branches and working tree, and of the mirror on the cluster", "why_tests_cant": "The states of a working tree are unbounded; that an old version was measured does not show in the results.", "anchors": ["deploy_to_cloudlab.sh"]}
{"id": "C308", "title": "An interrupted installation is noticed", "statement": "However often the script that installs libfabric and Mercury was run before, with whichever versions, and at whichever point each run was interrupted or failed: a deployment either runs it again, or both libraries are completely there in the versions it wants, and Mercury was built with this libfabric. A run that comes to its end leaves them so.", "quantifier": "every sequence of runs, all versions, every point at which a run ends", "why_tests_cant": "The crash points and their combinations over several runs are unbounded.", "anchors": ["setup_mercury.sh:install_libfabric", "setup_mercury.sh:install_mercury", "deploy_to_cloudlab.sh"]}
{"id": "C309", "title": "The number of nodes of a deployment", "statement": "A deployment uses the number of nodes that it was given, if the last of them answers, and otherwise fails. Without a number it uses as many as the first node knows addresses of the private network 10, and fails if there are none.", "quantifier": "every number, every list of hosts, every set of nodes that answer", "why_tests_cant": "The lists of hosts and the sizes of clusters are unbounded.", "anchors": ["deploy_to_cloudlab.sh"]}
