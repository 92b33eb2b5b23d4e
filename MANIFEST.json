{
 "claims": [
  {
   "property": "C01",
   "status": "proved",
   "theorems": [
    "Distbench.C01_varint_roundtrip",
    "Distbench.C01_varIntSize_class"
   ],
   "note": "All 2^64 values, any surrounding bytes and buffer end."
  },
  {
   "property": "C02",
   "status": "proved",
   "theorems": [
    "Distbench.C02_readVarInt_total",
    "Distbench.C02_truncated_rejected"
   ],
   "note": "Complete characterisation on arbitrary buffers, out-of-bounds reads are a distinct outcome."
  },
  {
   "property": "C03",
   "status": "proved",
   "theorems": [
    "Distbench.C03_addPadding_size"
   ],
   "note": "Includes the exact result for the targets that cannot be met."
  },
  {
   "property": "C04",
   "status": "proved",
   "theorems": [
    "Distbench.C04_serializeToCord_faithful",
    "Distbench.C04_zeroCopy_identical"
   ],
   "note": "Protobuf wire format of GenericRequestResponse modelled; WF says integers and strings fit the proto types."
  },
  {
   "property": "C05",
   "status": "partial",
   "theorems": [
    "Distbench.C05_metaDataLength_partial",
    "Distbench.C05_homa_fastParse_partial",
    "Distbench.C05_no_payload_aborts",
    "Distbench.C05_negative_length_hangs",
    "Distbench.C05_homa_large_metadata_aborts"
   ],
   "note": "Proved for fragments that reach the payload header. The full property is false: payload-less fragments abort, crafted ones loop; both proved."
  },
  {
   "property": "C06",
   "status": "proved",
   "theorems": [
    "Distbench.C06_grid_instance_bijection"
   ],
   "note": "Includes absence of integer overflow."
  },
  {
   "property": "C07",
   "status": "proved",
   "theorems": [
    "Distbench.C07_name_roundtrip",
    "Distbench.C07_names_unique",
    "Distbench.C07_slash_names_collide"
   ],
   "note": "The slash-free hypothesis is shown necessary."
  },
  {
   "property": "C08",
   "status": "proved",
   "theorems": [
    "Distbench.C08_canonical_iff",
    "Distbench.C08_accepted_consistent",
    "Distbench.C08_mismatch_rejected"
   ],
   "note": "Exact acceptance condition; signed overflow is a separate outcome."
  },
  {
   "property": "C09",
   "status": "proved",
   "theorems": [
    "Distbench.C09_service_indices",
    "Distbench.C09_service_sizes",
    "Distbench.C09_service_lookup",
    "Distbench.C09_rpc_indices",
    "Distbench.C09_instance_ids",
    "Distbench.C09_duplicate_names_collide"
   ],
   "note": "Distinct names are a hypothesis of the property; shown necessary."
  },
  {
   "property": "C10",
   "status": "proved",
   "theorems": [
    "Distbench.C10_string_setting",
    "Distbench.C10_int_setting"
   ],
   "note": "Exact characterisation of the returned value."
  },
  {
   "property": "C100",
   "status": "partial",
   "theorems": [
    "Distbench.Sequencer.C100_defined_partial",
    "Distbench.Sequencer.C100_largest_id"
   ],
   "note": "False of the code: a node that asks for id 2147483647 makes node_id + 1 overflow. Proved for every other request."
  },
  {
   "property": "C101",
   "status": "proved",
   "theorems": [
    "Distbench.Sequencer.C101_every_node",
    "Distbench.Sequencer.C101_rounds_in_order"
   ],
   "note": ""
  },
  {
   "property": "C102",
   "status": "proved",
   "theorems": [
    "Distbench.Sequencer.C102_endpoints"
   ],
   "note": "For problems as in C16: distinct instance names, and no instance both bundled and constrained (see C62)."
  },
  {
   "property": "C103",
   "status": "proved",
   "theorems": [
    "Distbench.Sequencer.C103_no_abort"
   ],
   "note": "Undefined behaviour from overflowing sizes or modulus 0 is the subject of other properties."
  },
  {
   "property": "C104",
   "status": "proved",
   "theorems": [
    "Distbench.Sequencer.C104_bounded",
    "Distbench.Sequencer.C104_never_stuck"
   ],
   "note": "Fairness of the scheduler and that each test ends are assumptions of the English property."
  },
  {
   "property": "C105",
   "status": "partial",
   "theorems": [
    "Distbench.Sequencer.C105_other_call_partial",
    "Distbench.Sequencer.C105_older_cancels_newer"
   ],
   "note": "False of the code: a call that has waited longer can cancel a newer one that took over first. Proved: only another call cancels."
  },
  {
   "property": "C106",
   "status": "proved",
   "theorems": [
    "Distbench.Sequencer.C106_grid_attributes"
   ],
   "note": ""
  },
  {
   "property": "C107",
   "status": "partial",
   "theorems": [
    "Distbench.Timeout.C107_negative_refused_partial",
    "Distbench.Timeout.C107_smallest_accepted"
   ],
   "note": "False of the code: -9223372036854775808 is taken for an absent timeout. Proved for all other negative timeouts."
  },
  {
   "property": "C108",
   "status": "partial",
   "theorems": [
    "Distbench.Timeout.C108_defined_partial",
    "Distbench.Timeout.C108_overflow"
   ],
   "note": "False of the code: the sum overflows. Proved when the sums of the timeouts fit in 64 bits."
  },
  {
   "property": "C109",
   "status": "partial",
   "theorems": [
    "Distbench.Timeout.C109_client_waits_partial",
    "Distbench.Timeout.C109_too_short"
   ],
   "note": "False of the code: one test without a timeout makes the client wait one hour in all. Proved when all tests give one."
  },
  {
   "property": "C11",
   "status": "proved",
   "theorems": [
    "Distbench.C11_cdf_accepted_iff",
    "Distbench.C11_pmf_accepted_iff",
    "Distbench.C11_exactly_one",
    "Distbench.C11_total"
   ],
   "note": "Acceptance characterised exactly for finite numbers; float addition rounds by an arbitrary function."
  },
  {
   "property": "C110",
   "status": "partial",
   "theorems": [
    "Distbench.Timeout.C110_deadline_partial",
    "Distbench.Timeout.C110_long_timeout_lost"
   ],
   "note": "False of the code: seconds are converted to a 32-bit int. Proved below 2^31 seconds."
  },
  {
   "property": "C111",
   "status": "proved",
   "theorems": [
    "Distbench.Timeout.C111_flag_overrides"
   ],
   "note": ""
  },
  {
   "property": "C112",
   "status": "partial",
   "theorems": [
    "Distbench.Netutils.C112_never_partial",
    "Distbench.Netutils.C112_chosen"
   ],
   "note": "False of the code: of 169.254.0.0/16 only 169.254.255.0/24 is recognised."
  },
  {
   "property": "C113",
   "status": "partial",
   "theorems": [
    "Distbench.Netutils.C113_found_partial",
    "Distbench.Netutils.C113_not_found"
   ],
   "note": "Proved for named devices. False without a device: a private IPv4 address ties with an IPv6 address and hides it."
  },
  {
   "property": "C114",
   "status": "partial",
   "theorems": [
    "Distbench.Netutils.C114_private_partial",
    "Distbench.Netutils.C114_private_missed",
    "Distbench.Netutils.C114_public_preferred",
    "Distbench.Netutils.isPrivate_quad"
   ],
   "note": "False of the code: 172.17 to 172.31 are not recognised and 172.160 to 172.169 are taken for private. Proved for the other networks; isPrivate_quad is the exact set."
  },
  {
   "property": "C115",
   "status": "partial",
   "theorems": [
    "Distbench.Netutils.C115_loopback_last_partial",
    "Distbench.Netutils.C115_loopback_chosen"
   ],
   "note": "False of the code: a private address on the loopback device can tie with an address of another device. Proved for loopback addresses not taken for private."
  },
  {
   "property": "C116",
   "status": "proved",
   "theorems": [
    "Distbench.Netutils.C116_determined"
   ],
   "note": "For non-negative ports and IPv4 texts without brackets."
  },
  {
   "property": "C117",
   "status": "proved",
   "theorems": [
    "Distbench.Netutils.C117_bind",
    "Distbench.Netutils.C117_announced"
   ],
   "note": "The interfaces are assumed not to change during the call."
  },
  {
   "property": "C118",
   "status": "proved",
   "theorems": [
    "Distbench.Netutils.C118_6to4",
    "Distbench.Netutils.isPrivate_quad"
   ],
   "note": ""
  },
  {
   "property": "C119",
   "status": "proved",
   "theorems": [
    "Distbench.Threadpool.C119_enough_threads"
   ],
   "note": ""
  },
  {
   "property": "C12",
   "status": "proved",
   "theorems": [
    "Distbench.C12_exact",
    "Distbench.C12_uniform",
    "Distbench.C12_intervals_cover"
   ],
   "note": "Exact arithmetic (rounding function = id)."
  },
  {
   "property": "C120",
   "status": "proved",
   "theorems": [
    "Distbench.Threadpool.C120_idle_bound",
    "Distbench.Threadpool.C120_time_limit",
    "Distbench.Threadpool.C120_retires"
   ],
   "note": ""
  },
  {
   "property": "C121",
   "status": "proved",
   "theorems": [
    "Distbench.Threadpool.C121_stats"
   ],
   "note": ""
  },
  {
   "property": "C122",
   "status": "proved",
   "theorems": [
    "Distbench.Threadpool.C122_create"
   ],
   "note": "The mercury type, if compiled in, is not modelled."
  },
  {
   "property": "C123",
   "status": "proved",
   "theorems": [
    "Distbench.Overload.C123_noticed"
   ],
   "note": ""
  },
  {
   "property": "C124",
   "status": "partial",
   "theorems": [
    "Distbench.Overload.C124_callback_partial",
    "Distbench.Overload.C124_broken"
   ],
   "note": "False of the code: the callback is read without the mutex and can be removed between check and call. Proved if nothing is configured in between."
  },
  {
   "property": "C125",
   "status": "proved",
   "theorems": [
    "Distbench.Summary.C125_one_line",
    "Distbench.Summary.C54_ranks"
   ],
   "note": ""
  },
  {
   "property": "C126",
   "status": "proved",
   "theorems": [
    "Distbench.Summary.C126_traffic",
    "Distbench.Summary.C126_every_pair"
   ],
   "note": ""
  },
  {
   "property": "C127",
   "status": "partial",
   "theorems": [
    "Distbench.Summary.C127_measured_partial",
    "Distbench.Summary.C127_counts_warmup"
   ],
   "note": "False of the code: warmup RPCs are counted but their sizes and times are not. Proved for pairs without warmup samples."
  },
  {
   "property": "C128",
   "status": "proved",
   "theorems": [
    "Distbench.Summary.C128_instance",
    "Distbench.Summary.C128_balance"
   ],
   "note": ""
  },
  {
   "property": "C129",
   "status": "proved",
   "theorems": [
    "Distbench.Summary.C129_counts"
   ],
   "note": ""
  },
  {
   "property": "C13",
   "status": "proved",
   "theorems": [
    "Distbench.C13_reorder",
    "Distbench.C13_missing_rejected",
    "Distbench.C13_idempotent"
   ],
   "note": "Any number of points, fields and any rounding."
  },
  {
   "property": "C130",
   "status": "partial",
   "theorems": [
    "Distbench.Summary.C130_warmups_partial",
    "Distbench.Summary.C130_failed_warmup"
   ],
   "note": "False of the code: failed warmup samples are not counted."
  },
  {
   "property": "C131",
   "status": "proved",
   "theorems": [
    "Distbench.Summary.C131_time",
    "Distbench.Summary.C131_empty"
   ],
   "note": ""
  },
  {
   "property": "C132",
   "status": "partial",
   "theorems": [
    "Distbench.Summary.C132_summary_partial",
    "Distbench.Summary.C132_no_summary"
   ],
   "note": "False of the code: if all RPCs fail the summary is empty. Proved if a measured RPC took time."
  },
  {
   "property": "C133",
   "status": "proved",
   "theorems": [
    "Distbench.Summary.C133_order"
   ],
   "note": ""
  },
  {
   "property": "C134",
   "status": "proved",
   "theorems": [
    "Distbench.Summary.C134_defined"
   ],
   "note": "int64 does not overflow in the model."
  },
  {
   "property": "C135",
   "status": "proved",
   "theorems": [
    "Distbench.Drivers.C135_built",
    "Distbench.Drivers.C135_unique"
   ],
   "note": ""
  },
  {
   "property": "C136",
   "status": "proved",
   "theorems": [
    "Distbench.Drivers.C136_composites"
   ],
   "note": ""
  },
  {
   "property": "C137",
   "status": "partial",
   "theorems": [
    "Distbench.Drivers.C137_partial",
    "Distbench.Drivers.C137_negation"
   ],
   "note": "False of the code: the error is dropped and the service silently gets the default protocol without settings. Proved for names used as protocol names."
  },
  {
   "property": "C138",
   "status": "proved",
   "theorems": [
    "Distbench.Drivers.C138_named",
    "Distbench.Drivers.C138_default",
    "Distbench.Drivers.C138_generated",
    "Distbench.Drivers.C138_empty"
   ],
   "note": ""
  },
  {
   "property": "C139",
   "status": "partial",
   "theorems": [
    "Distbench.Drivers.C139_partial",
    "Distbench.Drivers.C139_negation"
   ],
   "note": "False of the code: options reached through an alias are not completed. Proved without aliases or if every entry names a device."
  },
  {
   "property": "C14",
   "status": "proved",
   "theorems": [
    "Distbench.C14_pmf_support",
    "Distbench.C14_cdf_exact_support",
    "Distbench.C14_cdf_uniform_support",
    "Distbench.C14_scalar_needs_one_dimension"
   ],
   "note": "Random draws are arbitrary choices within the std:: contracts."
  },
  {
   "property": "C140",
   "status": "partial",
   "theorems": [
    "Distbench.Drivers.C140_partial",
    "Distbench.Drivers.C140_negation"
   ],
   "note": "False of the code: alternation is over all RPCs, not per peer. Proved for a single peer."
  },
  {
   "property": "C141",
   "status": "partial",
   "theorems": [
    "Distbench.Drivers.C141_partial",
    "Distbench.Drivers.C141_negation"
   ],
   "note": "False of the code: the counter is incremented after the call returns. Proved: short by no more than the calls under way."
  },
  {
   "property": "C142",
   "status": "proved",
   "theorems": [
    "Distbench.Drivers.C142_stats"
   ],
   "note": ""
  },
  {
   "property": "C143",
   "status": "proved",
   "theorems": [
    "Distbench.C143_peer_table"
   ],
   "note": "Hypotheses: accepted services with distinct slash-free names, one endpoint for each instance (shown satisfiable by sample_introduced)."
  },
  {
   "property": "C144",
   "status": "proved",
   "theorems": [
    "Distbench.C144_right_connection"
   ],
   "note": ""
  },
  {
   "property": "C145",
   "status": "proved",
   "theorems": [
    "Distbench.C145_connection_failures_reported"
   ],
   "note": ""
  },
  {
   "property": "C146",
   "status": "proved",
   "theorems": [
    "Distbench.C146_channel_members"
   ],
   "note": ""
  },
  {
   "property": "C147",
   "status": "proved",
   "theorems": [
    "Distbench.C147_unusable_channels_refused"
   ],
   "note": ""
  },
  {
   "property": "C148",
   "status": "partial",
   "theorems": [
    "Distbench.C148_selection_in_range_partial",
    "Distbench.C148_negation"
   ],
   "note": "False of the code: a negative number is an out-of-range index (undefined behaviour). Proved: introductions that succeed have all selections in range."
  },
  {
   "property": "C149",
   "status": "partial",
   "theorems": [
    "Distbench.C149_named_channel_partial",
    "Distbench.C149_negation"
   ],
   "note": "False of the code: the RPC uses the position among its server's channels, channels are numbered over all services. Proved when no earlier service has channels."
  },
  {
   "property": "C15",
   "status": "proved",
   "theorems": [
    "Distbench.C15_constraint_semantics",
    "Distbench.C15_verdict_sound",
    "Distbench.C15_integer_text",
    "Distbench.C15_missing_attribute"
   ],
   "note": "Verdict equals the independently stated semantics."
  },
  {
   "property": "C150",
   "status": "partial",
   "theorems": [
    "Distbench.C150_trace_channels_partial",
    "Distbench.C150_negation"
   ],
   "note": "False of the code: unknown names are skipped and shift the rest. Proved if all names are known."
  },
  {
   "property": "C151",
   "status": "proved",
   "theorems": [
    "Distbench.Grpc.C151_driver_kind"
   ],
   "note": ""
  },
  {
   "property": "C152",
   "status": "partial",
   "theorems": [
    "Distbench.Grpc.C152_async_partial",
    "Distbench.Grpc.C152_negation"
   ],
   "note": "False of the code: the default depends on the name of the options being grpc_async, not on the protocol. Proved for options with that name."
  },
  {
   "property": "C153",
   "status": "partial",
   "theorems": [
    "Distbench.Grpc.C153_targets_partial",
    "Distbench.Grpc.C153_negation"
   ],
   "note": "False of the code for addresses of both versions: the scheme is that of the first. Proved for addresses of one version."
  },
  {
   "property": "C154",
   "status": "partial",
   "theorems": [
    "Distbench.Grpc.C154_arguments_partial",
    "Distbench.Grpc.C154_negation"
   ],
   "note": "False of the code: numbers are cut to 32 bits. Proved for numbers that fit."
  },
  {
   "property": "C155",
   "status": "proved",
   "theorems": [
    "Distbench.Grpc.C155_one_callback"
   ],
   "note": ""
  },
  {
   "property": "C156",
   "status": "proved",
   "theorems": [
    "Distbench.Grpc.C156_callback_sees"
   ],
   "note": ""
  },
  {
   "property": "C157",
   "status": "proved",
   "theorems": [
    "Distbench.Grpc.C157_shutdown"
   ],
   "note": ""
  },
  {
   "property": "C158",
   "status": "partial",
   "theorems": [
    "Distbench.Grpc.C158_request_partial",
    "Distbench.Grpc.C158_negation"
   ],
   "note": "False of the code for failed RPCs: the request was moved out of the state. Proved for successful RPCs."
  },
  {
   "property": "C159",
   "status": "partial",
   "theorems": [
    "Distbench.Grpc.C159_failure_partial",
    "Distbench.Grpc.C159_negation"
   ],
   "note": "False of the code: the response of an earlier RPC with the same state is still there. Proved if no earlier RPC with the state was answered."
  },
  {
   "property": "C16",
   "status": "proved",
   "theorems": [
    "Distbench.C16_exactly_one_node",
    "Distbench.C16_every_node_listed",
    "Distbench.C16_names_distinct"
   ],
   "note": "Any problem with distinct names; wildcard matching is an arbitrary function."
  },
  {
   "property": "C160",
   "status": "proved",
   "theorems": [
    "Distbench.Grpc.C160_no_abort",
    "Distbench.Grpc.C160_after_shutdown"
   ],
   "note": ""
  },
  {
   "property": "C161",
   "status": "proved",
   "theorems": [
    "Distbench.GrpcServer.C161_memory"
   ],
   "note": "A handler that is never set is not modelled."
  },
  {
   "property": "C162",
   "status": "proved",
   "theorems": [
    "Distbench.GrpcServer.C162_requests"
   ],
   "note": "A handler that is never set is not modelled; the handler answers and frees each state it is given once (C95 is about the engine)."
  },
  {
   "property": "C163",
   "status": "partial",
   "theorems": [
    "Distbench.GrpcServer.C163_accepts_partial",
    "Distbench.GrpcServer.C163_negation"
   ],
   "note": "False of the code: one response that gRPC cannot send makes the server act as if shut down; it takes one more request only. Proved if no send fails."
  },
  {
   "property": "C164",
   "status": "proved",
   "theorems": [
    "Distbench.GrpcServer.C164_shutdown"
   ],
   "note": ""
  },
  {
   "property": "C165",
   "status": "partial",
   "theorems": [
    "Distbench.Lifetime.C165_request_partial",
    "Distbench.Lifetime.C165_readers",
    "Distbench.Lifetime.C165_negation"
   ],
   "note": "False of the code: with the handoff server and send_response_when_done, later actions read a request that gRPC has freed. Proved for the inline and the polling server, and for the handoff server if no action of the list is marked."
  },
  {
   "property": "C166",
   "status": "proved",
   "theorems": [
    "Distbench.Node.C166_services",
    "Distbench.Node.C166_all",
    "Distbench.Node.C166_rejected",
    "Distbench.Node.C166_failed"
   ],
   "note": "Calls on a node are taken one at a time, as its mutex orders them."
  },
  {
   "property": "C167",
   "status": "partial",
   "theorems": [
    "Distbench.Node.C167_negation",
    "Distbench.Node.C167_aliases_partial"
   ],
   "note": "False: the alias resolver is global to the process and belongs to the node manager created last, so with several local nodes a node's aliases are looked up in another node's configuration. Proved for the node manager created last with none destroyed since, in particular for one node manager per process."
  },
  {
   "property": "C168",
   "status": "partial",
   "theorems": [
    "Distbench.Node.C168_negation",
    "Distbench.Node.C168_run_partial"
   ],
   "note": "False after a failed introduction of peers: the services before the failing one start, the request fails at the others. Proved exactly when the last introduction succeeded and no run has failed since the configuration."
  },
  {
   "property": "C169",
   "status": "partial",
   "theorems": [
    "Distbench.Node.C169_negation",
    "Distbench.Node.C169_returns_partial"
   ],
   "note": "False: a run that failed part way leaves main threads that were not joined, and the next run assigns to them, which calls std::terminate. Proved when no run has failed since the services were made."
  },
  {
   "property": "C17",
   "status": "proved",
   "theorems": [
    "Distbench.C17_bundles_honoured",
    "Distbench.C17_bad_bundles_rejected",
    "Distbench.Sequencer.C17_in_a_test"
   ],
   "note": ""
  },
  {
   "property": "C170",
   "status": "partial",
   "theorems": [
    "Distbench.Node.C170_negation",
    "Distbench.Node.C170_results_partial"
   ],
   "note": "False for replay traces, which are moved out by the first collection. Proved for everything else in any collection, and for everything in the first."
  },
  {
   "property": "C171",
   "status": "partial",
   "theorems": [
    "Distbench.Node.C171_negation",
    "Distbench.Node.C171_reason_partial"
   ],
   "note": "False for service instances that recorded nothing: they are left out of the results and the reason with them. Proved for every entry that is in the results."
  },
  {
   "property": "C172",
   "status": "partial",
   "theorems": [
    "Distbench.Activity.C172_negation",
    "Distbench.Activity.C172_many_runs",
    "Distbench.Activity.C172_runs_partial"
   ],
   "note": "False of the code: a data-cache activity over 2^32 elements is accepted and its creation is undefined, and the 2^31th run of any counting activity overflows. Proved for sizes that fit 32 bits, fewer than 2^31 runs and array size plus accesses at most 2^31."
  },
  {
   "property": "C173",
   "status": "proved",
   "theorems": [
    "Distbench.Activity.C173_reported"
   ],
   "note": ""
  },
  {
   "property": "C174",
   "status": "partial",
   "theorems": [
    "Distbench.Collect.C174_negation",
    "Distbench.Collect.C174_all_partial",
    "Distbench.Collect.C174_quiet_partial"
   ],
   "note": "False of the code when a list that handled an incoming RPC has responded but not yet moved its samples. Proved for all lists that were over before the collection; nothing is reported more often than it occurred."
  },
  {
   "property": "C175",
   "status": "partial",
   "theorems": [
    "Distbench.Collect.C175_negation",
    "Distbench.Collect.C175_races_partial"
   ],
   "note": "False of the code: AddActivityLogs reads without the lock. Proved that any race is of this form."
  },
  {
   "property": "C176",
   "status": "proved",
   "theorems": [
    "Distbench.Cli.C176_arguments",
    "Distbench.Cli.C176_registered"
   ],
   "note": ""
  },
  {
   "property": "C177",
   "status": "partial",
   "theorems": [
    "Distbench.Cli.C177_negation",
    "Distbench.Cli.C177_refused",
    "Distbench.Cli.C177_accepted_partial",
    "Distbench.Cli.C177_after_node"
   ],
   "note": "False of the code for the first argument: name=value with a name that begins with node is refused. Proved for all other first arguments and for all later arguments."
  },
  {
   "property": "C178",
   "status": "proved",
   "theorems": [
    "Distbench.Cli.C178_accepted",
    "Distbench.Cli.C178_refused"
   ],
   "note": "Service names are distinct and the integer fields hold int32 values."
  },
  {
   "property": "C179",
   "status": "partial",
   "theorems": [
    "Distbench.Cancel.C179_negation",
    "Distbench.Cancel.C179_stopped_partial"
   ],
   "note": "False of the code: a request that comes after a test was configured and before its traffic starts, or while it is being started, does not stop the nodes that are started later. Proved for all nodes that have traffic when the request begins to cancel."
  },
  {
   "property": "C18",
   "status": "proved",
   "theorems": [
    "Distbench.C18_constraints_honoured",
    "Distbench.C18_explicit_wins",
    "Distbench.Sequencer.C18_in_a_test"
   ],
   "note": "Constraint satisfaction is the specification of C15, not the checker."
  },
  {
   "property": "C180",
   "status": "proved",
   "theorems": [
    "Distbench.Cancel.C180_each",
    "Distbench.Cancel.C180_everybody"
   ],
   "note": ""
  },
  {
   "property": "C181",
   "status": "proved",
   "theorems": [
    "Distbench.Homa.C181_once",
    "Distbench.Homa.C181_success",
    "Distbench.Homa.C181_all"
   ],
   "note": ""
  },
  {
   "property": "C182",
   "status": "partial",
   "theorems": [
    "Distbench.Homa.C182_negation",
    "Distbench.Homa.C182_failed",
    "Distbench.Homa.C182_never",
    "Distbench.Homa.C182_progress_partial",
    "Distbench.Homa.C182_bounded_partial"
   ],
   "note": "False of the code: the first of two threads can use up both wake-ups, and an RPC that fails after it was accepted is never called back, after which ShutdownClient never returns. Proved with one thread, without failures, when no call of InitiateRpc is under way."
  },
  {
   "property": "C183",
   "status": "partial",
   "theorems": [
    "Distbench.Homa.C183_negation",
    "Distbench.Homa.C183_one_partial"
   ],
   "note": "False of the code: the buffer is unmapped when the first thread is joined. Proved for one thread."
  },
  {
   "property": "C184",
   "status": "proved",
   "theorems": [
    "Distbench.Homa.C184_once",
    "Distbench.Homa.C184_all",
    "Distbench.Homa.C184_after"
   ],
   "note": ""
  },
  {
   "property": "C185",
   "status": "proved",
   "theorems": [
    "Distbench.Homa.C185_progress",
    "Distbench.Homa.C185_bounded"
   ],
   "note": "Something can always happen until it has returned, and only a bounded number of things can happen."
  },
  {
   "property": "C186",
   "status": "partial",
   "theorems": [
    "Distbench.Homa.C186_negation",
    "Distbench.Homa.C186_clients_partial",
    "Distbench.Homa.C186_unknown"
   ],
   "note": "False of the code: the number of server threads is that of client_threads. Proved for the client threads and for unknown settings."
  },
  {
   "property": "C187",
   "status": "partial",
   "theorems": [
    "Distbench.Mercury.C187_negation",
    "Distbench.Mercury.C187_once",
    "Distbench.Mercury.C187_given_up",
    "Distbench.Mercury.C187_all_partial"
   ],
   "note": "False of the code: when HG_Create, HG_Forward or HG_Get_output fails, the callback never runs. Proved: at most once; and for all other RPCs exactly once by the time ShutdownClient returns."
  },
  {
   "property": "C188",
   "status": "proved",
   "theorems": [
    "Distbench.Mercury.C188_progress",
    "Distbench.Mercury.C188_bounded"
   ],
   "note": "Something can always happen until it has returned, and only a bounded number of things can happen."
  },
  {
   "property": "C189",
   "status": "partial",
   "theorems": [
    "Distbench.Mercury.C189_negation",
    "Distbench.Mercury.C189_success_partial",
    "Distbench.Mercury.C189_failure"
   ],
   "note": "False of the code: the request is lost when the response cannot be parsed. Proved for RPCs that succeed."
  },
  {
   "property": "C19",
   "status": "proved",
   "theorems": [
    "Distbench.C19_distinct_nodes",
    "Distbench.C19_enough_nodes"
   ],
   "note": ""
  },
  {
   "property": "C190",
   "status": "proved",
   "theorems": [
    "Distbench.Mercury.C190_roundtrip",
    "Distbench.Mercury.C190_size"
   ],
   "note": ""
  },
  {
   "property": "C191",
   "status": "proved",
   "theorems": [
    "Distbench.Teardown.C191_unused",
    "Distbench.Teardown.C191_no_new"
   ],
   "note": ""
  },
  {
   "property": "C192",
   "status": "partial",
   "theorems": [
    "Distbench.Teardown.C192_negation",
    "Distbench.Teardown.C192_progress_partial",
    "Distbench.Teardown.C192_bounded"
   ],
   "note": "False of the code: a replayed RPC with a pause is never answered by the handoff server, and a request that comes before the handler was set is never handled if it never is; the destructor then waits forever. Proved when no such call is there: something can always happen until the engine is destroyed, and only a bounded number of things can happen."
  },
  {
   "property": "C193",
   "status": "partial",
   "theorems": [
    "Distbench.Usage.C193_negation",
    "Distbench.Usage.C193_copy_partial",
    "Distbench.Usage.C193_iff"
   ],
   "note": "False of the code: the copy's response_payload_size is the rpc_index (distbench_utils.cc:954). Proved for the other fields, with the exact condition under which the size is right."
  },
  {
   "property": "C194",
   "status": "proved",
   "theorems": [
    "Distbench.Usage.C194_usage"
   ],
   "note": "The two times are whole microseconds in the model; in the program they are doubles in seconds."
  },
  {
   "property": "C195",
   "status": "proved",
   "theorems": [
    "Distbench.Clock.C195_mutex",
    "Distbench.Clock.C195_value",
    "Distbench.Clock.C195_spins",
    "Distbench.Clock.C195_no_deadline",
    "Distbench.Clock.C195_ends",
    "Distbench.Clock.C195_at_once"
   ],
   "note": "The contract of absl::Mutex is a hypothesis where it is needed (C195_value)."
  },
  {
   "property": "C196",
   "status": "proved",
   "theorems": [
    "Distbench.Clock.C196_spin",
    "Distbench.Clock.C196_ends"
   ],
   "note": ""
  },
  {
   "property": "C197",
   "status": "proved",
   "theorems": [
    "Distbench.Compose.C197_all",
    "Distbench.Compose.C197_one",
    "Distbench.Compose.C197_rpcs",
    "Distbench.Compose.C197_counted",
    "Distbench.Compose.C197_connect",
    "Distbench.Compose.C197_server"
   ],
   "note": ""
  },
  {
   "property": "C198",
   "status": "proved",
   "theorems": [
    "Distbench.Compose.C198_refused",
    "Distbench.Compose.C198_only",
    "Distbench.Compose.C198_real"
   ],
   "note": ""
  },
  {
   "property": "C199",
   "status": "proved",
   "theorems": [
    "Distbench.C199_ended",
    "Distbench.C199_never_more",
    "Distbench.C199_ends",
    "Distbench.C199_reaches"
   ],
   "note": "The RPCs of an iteration are initiated in any order in the model.  Progress is for closed loops with an iteration count; an RPC in flight may come back at any time."
  },
  {
   "property": "C20",
   "status": "proved",
   "theorems": [
    "Distbench.C20_targets_eligible"
   ],
   "note": "All filters; random draws arbitrary within their contract."
  },
  {
   "property": "C200",
   "status": "proved",
   "theorems": [
    "Distbench.C200_log",
    "Distbench.C200_all"
   ],
   "note": "The action is the only one of its list; the list is run once."
  },
  {
   "property": "C201",
   "status": "partial",
   "theorems": [
    "Distbench.Commands.C201_text_partial",
    "Distbench.Commands.C201_false"
   ],
   "note": "False of the code: a text whose bytes are valid binary is read as binary; witness of one test read as none. Proved for texts that begin with t, or with a comment and have no dollar sign. The wire format is modelled; the parsers of tests and of the text format are arbitrary."
  },
  {
   "property": "C202",
   "status": "proved",
   "theorems": [
    "Distbench.Commands.C202_binary"
   ],
   "note": "Parts of up to 2 GB; the parsers of single tests and of the settings are arbitrary."
  },
  {
   "property": "C203",
   "status": "partial",
   "theorems": [
    "Distbench.Commands.C203_status_partial",
    "Distbench.Commands.C203_success",
    "Distbench.Commands.C203_false"
   ],
   "note": "False of the code: the last block of text is written by a destructor and a full disk goes unnoticed. Proved for the tests, and for the file if the disk has room."
  },
  {
   "property": "C204",
   "status": "partial",
   "theorems": [
    "Distbench.Commands.C204_seconds_partial",
    "Distbench.Commands.C204_false"
   ],
   "note": "False of the code: fractions are cut off and a duration below a second counts as none. Proved from one second on (totals below 2^31 seconds)."
  },
  {
   "property": "C205",
   "status": "partial",
   "theorems": [
    "Distbench.Commands.C205_placed_partial",
    "Distbench.Commands.C205_one_node",
    "Distbench.Commands.C205_constraints_fail"
   ],
   "note": "False of the code: any constraint on an instance makes the preview fail, as the only node is taken by the bundle. Proved without constraints."
  },
  {
   "property": "C206",
   "status": "partial",
   "theorems": [
    "Distbench.Commands.C206_node_manager_partial",
    "Distbench.Commands.C206_false"
   ],
   "note": "False of the code: a test sequencer that cannot listen waits for ever. Proved for node managers."
  },
  {
   "property": "C207",
   "status": "partial",
   "theorems": [
    "Distbench.Commands.C207_flushed_partial",
    "Distbench.Commands.C207_bytes",
    "Distbench.Commands.C207_false"
   ],
   "note": "False of the code: /dev/stdout is opened anew and truncated, and summaries still in the buffer are written over the beginning of the results at exit. Proved if the buffer is empty."
  },
  {
   "property": "C208",
   "status": "proved",
   "theorems": [
    "Distbench.Commands.C208_roundtrip",
    "Distbench.Commands.C208_errors"
   ],
   "note": ""
  },
  {
   "property": "C209",
   "status": "proved",
   "theorems": [
    "Distbench.Locks.C209_no_deadlock",
    "Distbench.Locks.C209_waits_free",
    "Distbench.Locks.C209_progress"
   ],
   "note": "Locks inside protocol drivers and gRPC are not modelled; the callbacks of drivers are taken to run with no lock of the driver held."
  },
  {
   "property": "C21",
   "status": "proved",
   "theorems": [
    "Distbench.C21_all_once",
    "Distbench.C21_order"
   ],
   "note": ""
  },
  {
   "property": "C210",
   "status": "partial",
   "theorems": [
    "Distbench.NodeLocks.C210_cancel_partial",
    "Distbench.NodeLocks.C210_false"
   ],
   "note": "False of the code with a mutex that lets waiting exclusive calls go first, as absl::Mutex does: RunTraffic shares the mutex while the traffic runs, and a waiting ConfigureNode or GetTrafficResult keeps CancelTraffic out. Proved if no such call waits, no traffic runs, or readers may overtake."
  },
  {
   "property": "C211",
   "status": "partial",
   "theorems": [
    "Distbench.NodeLocks.C211_startup_partial",
    "Distbench.NodeLocks.C211_false"
   ],
   "note": "False of the code: the start-up holds the mutex of the configuration while it waits for the running calls, and CancelTraffic, GetTrafficResult and ShutdownNode wait for that mutex. Proved if none of these is being served."
  },
  {
   "property": "C212",
   "status": "proved",
   "theorems": [
    "Distbench.Analysis.C212_overall"
   ],
   "note": "The default and statistics formats; the trace format selects its samples as in C217."
  },
  {
   "property": "C213",
   "status": "partial",
   "theorems": [
    "Distbench.Analysis.C213_client_partial",
    "Distbench.Analysis.C213_service_partial",
    "Distbench.Analysis.C213_false"
   ],
   "note": "False of the code for services with two or three dimensions: the script cuts instance names at the last slash, the summary is empty and the files are missing. Proved for services with a count or one dimension."
  },
  {
   "property": "C214",
   "status": "partial",
   "theorems": [
    "Distbench.Analysis.C214_rpc_file_partial",
    "Distbench.Analysis.C214_own_directory_partial",
    "Distbench.Analysis.C214_false"
   ],
   "note": "False of the code: of two RPCs with the same name the second one overwrites the file, and an RPC called pairwise_summary has its file overwritten by the summary. Proved for different names without slashes, for services of any dimension."
  },
  {
   "property": "C215",
   "status": "partial",
   "theorems": [
    "Distbench.Analysis.C215_counts_partial",
    "Distbench.Analysis.C215_false"
   ],
   "note": "False of the code whenever there is a sample: each call of summarize counts its samples again. Proved: at least twice the number, and zero for none."
  },
  {
   "property": "C216",
   "status": "proved",
   "theorems": [
    "Distbench.Analysis.C216_statistics",
    "Distbench.Analysis.C216_interpolated"
   ],
   "note": "Exact arithmetic instead of floating point."
  },
  {
   "property": "C217",
   "status": "proved",
   "theorems": [
    "Distbench.Analysis.C217_longest",
    "Distbench.Analysis.C217_rows"
   ],
   "note": ""
  },
  {
   "property": "C218",
   "status": "proved",
   "theorems": [
    "Distbench.Analysis.C218_default"
   ],
   "note": ""
  },
  {
   "property": "C219",
   "status": "proved",
   "theorems": [
    "Distbench.Analysis.C219_instances"
   ],
   "note": ""
  },
  {
   "property": "C22",
   "status": "proved",
   "theorems": [
    "Distbench.C22_round_robin_fair",
    "Distbench.C22_sequential"
   ],
   "note": "Iterations one after the other; overlapping ones are C64."
  },
  {
   "property": "C220",
   "status": "partial",
   "theorems": [
    "Distbench.Analysis.C220_status_partial",
    "Distbench.Analysis.C220_false"
   ],
   "note": "False of the code: exit() without an argument is status 0. Proved for results that do not parse or do not fit."
  },
  {
   "property": "C221",
   "status": "partial",
   "theorems": [
    "Distbench.Serving.C221_early_requests_partial",
    "Distbench.Serving.C221_false"
   ],
   "note": "False of the code for Mercury, which calls an empty function and ends the process. Proved for the gRPC servers and Homa, and for Mercury if no request comes before the handler is set."
  },
  {
   "property": "C222",
   "status": "partial",
   "theorems": [
    "Distbench.Serving.C222_set_again_partial",
    "Distbench.Serving.C222_no_overlap_partial",
    "Distbench.Serving.C222_false"
   ],
   "note": "False of the code for every server: the handler is assigned without a lock while other threads may read it. Proved: this needs a request that is taken during the assignment, and for all but Mercury an assignment that is not the first."
  },
  {
   "property": "C223",
   "status": "partial",
   "theorems": [
    "Distbench.Serving.C223_shutdown_partial",
    "Distbench.Serving.C223_false"
   ],
   "note": "False of the code if a request came and the handler was never set: the gRPC servers wait for ever, Homa calls an empty function. Proved if no request came, or the handler was set and answers."
  },
  {
   "property": "C224",
   "status": "partial",
   "theorems": [
    "Distbench.Serving.C224_sent_partial",
    "Distbench.Serving.C224_false"
   ],
   "note": "False of the code for the inline gRPC server, which answers when handler and remaining work are done. Proved for the others, and for the inline server from that time on."
  },
  {
   "property": "C225",
   "status": "partial",
   "theorems": [
    "Distbench.Serving.C225_success_partial",
    "Distbench.Serving.C225_false"
   ],
   "note": "False of the code for the inline gRPC server, which reports success with an empty response for a request that the handler did not answer. Proved for the others, and for the inline server if the handler answers."
  },
  {
   "property": "C226",
   "status": "proved",
   "theorems": [
    "Distbench.Traffic.C226_rpcs",
    "Distbench.Traffic.C226_never_more",
    "Distbench.Traffic.C226_predicted"
   ],
   "note": "Every RPC is delivered and completed in the model; no cancellation, no time limits."
  },
  {
   "property": "C227",
   "status": "proved",
   "theorems": [
    "Distbench.Traffic.C227_ends",
    "Distbench.Traffic.C227_loop"
   ],
   "note": "C227_loop: with a list that leads to itself there is no bound."
  },
  {
   "property": "C228",
   "status": "partial",
   "theorems": [
    "Distbench.Traffic.C228_negation",
    "Distbench.Traffic.C228_stuck_partial",
    "Distbench.Traffic.C228_elastic_partial",
    "Distbench.Traffic.C228_finish_partial"
   ],
   "note": "False of the code with the simple thread pool: two servers with one thread each whose handlers call each other. Proved for elastic pools, and for limited pools if engines with them are called only from higher layers."
  },
  {
   "property": "C229",
   "status": "partial",
   "theorems": [
    "Distbench.Traffic.C229_negation",
    "Distbench.Traffic.C229_nested_partial"
   ],
   "note": "False with send_response_when_done: the rest of the list goes on after the response. Proved for tests without it."
  },
  {
   "property": "C23",
   "status": "proved",
   "theorems": [
    "Distbench.C23_random_uniform"
   ],
   "note": "Bijection between draws and eligible instances, and the draw requested has exactly that range."
  },
  {
   "property": "C230",
   "status": "partial",
   "theorems": [
    "Distbench.Traffic.C230_negation",
    "Distbench.Traffic.C230_done_partial"
   ],
   "note": "False with send_response_when_done: the rest of a handler may still be running and its RPCs on their way. Proved for tests without it."
  },
  {
   "property": "C231",
   "status": "proved",
   "theorems": [
    "Distbench.Traffic.C231_once"
   ],
   "note": ""
  },
  {
   "property": "C232",
   "status": "proved",
   "theorems": [
    "Distbench.Traffic.C232_bound",
    "Distbench.Traffic.C232_rest"
   ],
   "note": "For closed loops (open loops are in C83). An iteration that ends is taken to see a cancellation at once; one that looked just before may begin one more, which is within the same bound."
  },
  {
   "property": "C233",
   "status": "partial",
   "theorems": [
    "Distbench.Traffic.C233_negation",
    "Distbench.Traffic.C233_ends_partial",
    "Distbench.Traffic.C233_exists_partial"
   ],
   "note": "False of the code for a list one of whose actions runs the same list: each run starts its first actions before it sees the cancellation. Proved if no list runs itself in this way, even if RPCs go round for ever. Every RPC is assumed to be delivered or refused."
  },
  {
   "property": "C234",
   "status": "partial",
   "theorems": [
    "Distbench.Traffic.C234_negation",
    "Distbench.Traffic.C234_stuck_partial",
    "Distbench.Traffic.C234_elastic_partial",
    "Distbench.Traffic.C234_finish_partial"
   ],
   "note": "False of the code with the simple thread pool: two servers with one thread each whose handlers call each other stay stuck when cancelled. Proved for elastic pools, and for limited pools if engines with them are called only from higher layers. Open loops cancelled between two iterations hang as well (C83)."
  },
  {
   "property": "C235",
   "status": "proved",
   "theorems": [
    "Distbench.Traffic.C235_refused",
    "Distbench.Traffic.C235_once"
   ],
   "note": ""
  },
  {
   "property": "C236",
   "status": "proved",
   "theorems": [
    "Distbench.Report.C236_exists",
    "Distbench.Report.C236_samples",
    "Distbench.Report.C236_cancelled"
   ],
   "note": "Activities, replay traces and multi-server channels, which have logs of their own, are left out; all nodes return their results."
  },
  {
   "property": "C237",
   "status": "proved",
   "theorems": [
    "Distbench.Report.C237_limits",
    "Distbench.Report.C237_cancelled",
    "Distbench.Report.C237_predicted"
   ],
   "note": "As C236. Exactly the numbers of C226 for tests whose traffic can be predicted."
  },
  {
   "property": "C238",
   "status": "proved",
   "theorems": [
    "Distbench.Report.C238_measured",
    "Distbench.Report.C238_predicted",
    "Distbench.Report.C238_line"
   ],
   "note": "As C236. RPCs with the same name share a line."
  },
  {
   "property": "C239",
   "status": "proved",
   "theorems": [
    "Distbench.Report.C239_pairs",
    "Distbench.Report.C239_line"
   ],
   "note": "As C236. Warmup RPCs are counted in this number (C127)."
  },
  {
   "property": "C24",
   "status": "partial",
   "theorems": [
    "Distbench.C24_stochastic_count_partial",
    "Distbench.C24_all_to_instance_zero",
    "Distbench.C24_duplicate_targets"
   ],
   "note": "Only the number of RPCs is right; every target is instance 0, proved."
  },
  {
   "property": "C240",
   "status": "partial",
   "theorems": [
    "Distbench.Connect.C240_grpc",
    "Distbench.Connect.C240_homa_partial",
    "Distbench.Connect.C240_false"
   ],
   "note": "False of the Homa driver for addresses of the link other than fe80: (such as fe90::1): they are chosen, their text ends with the name of the interface, and the client refuses it. Proved for gRPC with TCP and for Homa with all other addresses. inet_pton is modelled after the C library and shown to accept exactly the texts of addresses; what gRPC makes of a target is not modelled."
  },
  {
   "property": "C241",
   "status": "partial",
   "theorems": [
    "Distbench.Connect.C241_homa_partial",
    "Distbench.Connect.C241_false",
    "Distbench.Connect.C241_port_false"
   ],
   "note": "False of the gRPC drivers (data that does not parse is accepted, with an empty target) and of the Homa driver (port 70000 becomes 4464). Proved: the Homa driver accepts only texts of addresses, up to a zero byte."
  },
  {
   "property": "C242",
   "status": "partial",
   "theorems": [
    "Distbench.Connect.C242_grpc",
    "Distbench.Connect.C242_homa_partial",
    "Distbench.Connect.C242_false"
   ],
   "note": "False of the Homa driver when a peer changes from IPv4 to IPv6: the IPv4 address stays as the flow information. Proved for gRPC and, with Homa, for peers that keep their IP version."
  },
  {
   "property": "C243",
   "status": "partial",
   "theorems": [
    "Distbench.HomaWire.C243_delivered_partial",
    "Distbench.HomaWire.C243_stale",
    "Distbench.HomaWire.C243_aborts"
   ],
   "note": "False of the code with nocopy (the default): an empty response leaves the earlier response in a response object that is used again, and a long message without payload aborts the receiver. Proved for all other messages whose payload header is in the first page and, if the sender copies, with no field behind the payload; with copying receivers proved for all messages. Memory of received payloads is not modelled."
  },
  {
   "property": "C244",
   "status": "proved",
   "theorems": [
    "Distbench.HomaWire.C244_echo",
    "Distbench.HomaWire.C244_homa",
    "Distbench.HomaWire.C244_response"
   ],
   "note": "Homa's page size (65536), number of pages (16) and largest message (1000000) are those of its kernel module; C244_echo holds for any."
  },
  {
   "property": "C245",
   "status": "proved",
   "theorems": [
    "Distbench.Whole.C245_accepted",
    "Distbench.Whole.C245_rpcs",
    "Distbench.Whole.C245_never_more",
    "Distbench.Whole.C245_predicted"
   ],
   "note": "The engines act on tables built from the configuration, each on its own; fan-outs with the filters all, random, random_single and round_robin. Delays, timing and network failures are left to the schedule, as in C226."
  },
  {
   "property": "C246",
   "status": "proved",
   "theorems": [
    "Distbench.Whole.C246_ends",
    "Distbench.Whole.C246_stuck",
    "Distbench.Whole.C246_finish",
    "Distbench.Whole.C246_undeclared"
   ],
   "note": "C246_undeclared: without the condition on clients a test whose configuration is accepted never ends (the engine logs an error and the action never finishes). For the condition on threads see C228."
  },
  {
   "property": "C247",
   "status": "proved",
   "theorems": [
    "Distbench.Whole.C247_total",
    "Distbench.Whole.C247_line"
   ],
   "note": "As C245 and C237, C238. Names of services have no slash; otherwise names of instances may collide (C07)."
  },
  {
   "property": "C248",
   "status": "proved",
   "theorems": [
    "Distbench.Traffic.C248_at_least",
    "Distbench.Traffic.C248_at_most",
    "Distbench.Traffic.C248_never_more",
    "Distbench.Traffic.C248_exact",
    "Distbench.Traffic.C248_predicted"
   ],
   "note": "There is no clock: the limit of an action may pass at any moment after its start. An iteration that ends is taken to see at once that the limit has passed."
  },
  {
   "property": "C249",
   "status": "proved",
   "theorems": [
    "Distbench.Traffic.C249_steps",
    "Distbench.Traffic.C249_bound",
    "Distbench.Traffic.C249_ends"
   ],
   "note": ""
  },
  {
   "property": "C25",
   "status": "proved",
   "theorems": [
    "Distbench.C25_ring_target",
    "Distbench.C25_alternating_target",
    "Distbench.C25_cycle",
    "Distbench.C25_unique_sender"
   ],
   "note": "Axis lengths below 2^30."
  },
  {
   "property": "C250",
   "status": "proved",
   "theorems": [
    "Distbench.Traffic.C250_late",
    "Distbench.Traffic.C250_none",
    "Distbench.Traffic.C250_first"
   ],
   "note": "An iteration that ends is taken to see at once that the limit has passed; in the code one that looked just before may begin one more per parallel copy."
  },
  {
   "property": "C251",
   "status": "partial",
   "theorems": [
    "Distbench.Traffic.C251_negation",
    "Distbench.Traffic.C251_stuck_partial",
    "Distbench.Traffic.C251_finish_partial"
   ],
   "note": "False of the code with the simple thread pool (as C228). Proved for elastic pools, and for limited pools if engines with them are called only from higher layers."
  },
  {
   "property": "C252",
   "status": "proved",
   "theorems": [
    "Distbench.Report.C252_samples",
    "Distbench.Report.C252_total",
    "Distbench.Report.C252_measured"
   ],
   "note": "As C236 to C238."
  },
  {
   "property": "C253",
   "status": "proved",
   "theorems": [
    "Distbench.C253_joint_sizes",
    "Distbench.C253_single_sizes",
    "Distbench.C253_delays"
   ],
   "note": "For distributions given by probabilities, with finite numbers and 32-bit intervals (see C59, C60); those given by a CDF have one value for all fields (C12)."
  },
  {
   "property": "C254",
   "status": "proved",
   "theorems": [
    "Distbench.Sequencer.C254_thread_limit"
   ],
   "note": ""
  },
  {
   "property": "C255",
   "status": "proved",
   "theorems": [
    "Distbench.Whole.C255_at_least",
    "Distbench.Whole.C255_at_most",
    "Distbench.Whole.C255_predicted"
   ],
   "note": "As C245 and C248. Iteration counts below 2^31 (without a count, as many parallel iterations)."
  },
  {
   "property": "C256",
   "status": "proved",
   "theorems": [
    "Distbench.Whole.C256_ends",
    "Distbench.Whole.C256_stuck",
    "Distbench.Whole.C256_finish"
   ],
   "note": "As C246; for the condition on threads see C228."
  },
  {
   "property": "C257",
   "status": "proved",
   "theorems": [
    "Distbench.Whole.C257_total",
    "Distbench.Whole.C257_line",
    "Distbench.Whole.C257_between"
   ],
   "note": "As C247."
  },
  {
   "property": "C258",
   "status": "proved",
   "theorems": [
    "Distbench.C258_lists",
    "Distbench.Whole.C258_rows",
    "Distbench.Whole.C258_place"
   ],
   "note": "For tests without multi-server channels; the RPCs of replay traces are recorded elsewhere."
  },
  {
   "property": "C259",
   "status": "proved",
   "theorems": [
    "Distbench.Loops.C259_at_least",
    "Distbench.Loops.C259_at_most",
    "Distbench.Loops.C259_exact"
   ],
   "note": "Every reachable state of the model with all loops is related to one of the model of C255 (Loops.sim in Lemmas/LoopsRun.lean). RPCs are delivered and completed; replay, activities and cancellation are left out; iteration counts below 2^31."
  },
  {
   "property": "C26",
   "status": "proved",
   "theorems": [
    "Distbench.C26_linear_target"
   ],
   "note": "Coordinate plus distance within int."
  },
  {
   "property": "C260",
   "status": "proved",
   "theorems": [
    "Distbench.Loops.C260_once"
   ],
   "note": "As C259; predicates are allowed."
  },
  {
   "property": "C261",
   "status": "proved",
   "theorems": [
    "Distbench.Loops.C261_nested",
    "Distbench.Loops.C261_done"
   ],
   "note": "As C260. With send_response_when_done it is false of the code (C229, C230)."
  },
  {
   "property": "C262",
   "status": "proved",
   "theorems": [
    "Distbench.Loops.C262_begun",
    "Distbench.Loops.C262_most"
   ],
   "note": "As C260."
  },
  {
   "property": "C263",
   "status": "proved",
   "theorems": [
    "Distbench.Loops.C263_finish",
    "Distbench.Loops.C263_counted"
   ],
   "note": "As C260. The conditions are needed: see C246 and C251 for tests that get stuck without them."
  },
  {
   "property": "C264",
   "status": "proved",
   "theorems": [
    "Distbench.LoopsCancel.C264_once",
    "Distbench.LoopsCancel.C264_forward"
   ],
   "note": "As C260, with cancellation; open loops are left out."
  },
  {
   "property": "C265",
   "status": "proved",
   "theorems": [
    "Distbench.LoopsCancel.C265_nested",
    "Distbench.LoopsCancel.C265_over"
   ],
   "note": "As C264. With send_response_when_done the first part is false of the code (C229, C230)."
  },
  {
   "property": "C266",
   "status": "proved",
   "theorems": [
    "Distbench.LoopsCancel.C266_bound",
    "Distbench.LoopsCancel.C266_stays"
   ],
   "note": "As C264."
  },
  {
   "property": "C267",
   "status": "proved",
   "theorems": [
    "Distbench.LoopsCancel.C267_finish",
    "Distbench.LoopsCancel.C267_counted"
   ],
   "note": "As C264. Where a loop has no maximal count, its number of iterations plus its parallel ones must fit an int at the moment of cancellation."
  },
  {
   "property": "C268",
   "status": "proved",
   "theorems": [
    "Distbench.LoopsCancel.C268_rest",
    "Distbench.LoopsCancel.C268_end",
    "Distbench.LoopsCancel.C268_counted"
   ],
   "note": "As C267. The only fairness asked for is that the schedule does not do nothing for ever while some thread could go on."
  },
  {
   "property": "C269",
   "status": "proved",
   "theorems": [
    "Distbench.LoopsCancel.C269_rest",
    "Distbench.LoopsCancel.C269_end"
   ],
   "note": "As C264. Rounds of the threads of lists that find nothing to do are not counted as work: their waits may time out at any moment."
  },
  {
   "property": "C27",
   "status": "proved",
   "theorems": [
    "Distbench.C27_same_coordinates"
   ],
   "note": ""
  },
  {
   "property": "C270",
   "status": "proved",
   "theorems": [
    "Distbench.Builder.C270_one_test"
   ],
   "note": "A test with extra_test_contents, which is any text, is read as refused (both tests are, with the same text)."
  },
  {
   "property": "C271",
   "status": "proved",
   "theorems": [
    "Distbench.Builder.C271_configs",
    "Distbench.Builder.C271_sweep"
   ],
   "note": "The three numbers of a sweep are whole numbers."
  },
  {
   "property": "C272",
   "status": "partial",
   "theorems": [
    "Distbench.Builder.C272_attributes",
    "Distbench.Builder.C272_sweep",
    "Distbench.Builder.C272_refused_partial",
    "Distbench.Builder.C272_refused_negation"
   ],
   "note": "The last part is false of the code: bash's readarray drops an empty field at the end, and clique:node_count=4= is taken as clique:node_count=4 (C272_refused_negation). Proved: everything else; each part of an accepted configuration means something or ends with an equals sign."
  },
  {
   "property": "C273",
   "status": "partial",
   "theorems": [
    "Distbench.Builder.C273_runs",
    "Distbench.Builder.C273_results_partial",
    "Distbench.Builder.C273_results_negation"
   ],
   "note": "The last sentence is false of the code: names of files leave out the duration, and the results of a run with -t 30 pass for those of one with -t 60 (C273_results_negation). Proved: all else; and the last sentence if what was there under the names of the tests were results of them, for instance in a new directory."
  },
  {
   "property": "C274",
   "status": "partial",
   "theorems": [
    "Distbench.Builder.C274_quoting_partial",
    "Distbench.Builder.C274_quoting_negation"
   ],
   "note": "False of the code: single_quote_string escapes quotes but no backslashes and line breaks, and echo takes -e and the like as options. Proved: an exact characterization of the texts that are read as given; all texts without these are."
  },
  {
   "property": "C275",
   "status": "partial",
   "theorems": [
    "Distbench.Builder.C275_accepted_partial",
    "Distbench.Builder.C275_duration_negation",
    "Distbench.Builder.C275_mode_negation"
   ],
   "note": "False of the code: with -t 2148 the tool writes tests whose max_duration_us does not fit its field (C275_duration_negation), and a synchronization_mode that distbench does not know is passed on (C275_mode_negation). Proved: tests that can be read, with a known mode, a readable fan-out and a grid that is not empty and not too large, are accepted by check_test, the sequencer and all engines; rounding leaves 1 as it is."
  },
  {
   "property": "C276",
   "status": "partial",
   "theorems": [
    "Distbench.Builder.C276_clique_partial",
    "Distbench.Builder.C276_rectangular_partial",
    "Distbench.Builder.C276_client_server_partial",
    "Distbench.Builder.C276_tripartite_partial",
    "Distbench.Builder.C276_multi_level_partial",
    "Distbench.Builder.C276_variable_partial",
    "Distbench.Builder.C276_load_negation"
   ],
   "note": "False of the code for numbers with leading zeros: with rpc_interval_us=0200 the interval is 65536 ns (C276_load_negation). Proved: for parameters that are decimal numbers without leading zeros, every test that can be read has exactly the load that its parameters give."
  },
  {
   "property": "C277",
   "status": "proved",
   "theorems": [
    "Distbench.Builder.C277_driver",
    "Distbench.Builder.C277_grpc",
    "Distbench.Builder.C277_mercury",
    "Distbench.Builder.C277_homa",
    "Distbench.Builder.C277_ip"
   ],
   "note": "The settings are those of the test's attributes; numbers are decimal without leading zeros, as in C276. The driver exists if distbench was built with it; whether it can be initialized is outside the model."
  },
  {
   "property": "C278",
   "status": "partial",
   "theorems": [
    "Distbench.Builder.C278_defaults_partial",
    "Distbench.Builder.C278_present_partial",
    "Distbench.Builder.C278_attributes_negation"
   ],
   "note": "False of the code for parameters whose default is empty: no attribute is written for threadpool_type, nor for transport with gRPC (C278_attributes_negation). Proved: every other parameter has its attribute in every test, with the value given last or the documented default."
  },
  {
   "property": "C279",
   "status": "partial",
   "theorems": [
    "Distbench.Builder.C279_ranges_partial",
    "Distbench.Builder.C279_duration_partial",
    "Distbench.Builder.C279_ranges_negation"
   ],
   "note": "False of the code for the sides of a grid, of which only the product is checked, and for a duration given in a configuration (C279_ranges_negation). Proved: all other numbers, the product of the sides, and the duration of the command line."
  },
  {
   "property": "C28",
   "status": "proved",
   "theorems": [
    "Distbench.C28_accepted",
    "Distbench.C28_rejected",
    "Distbench.C28_targets",
    "Distbench.C28_errors",
    "Distbench.C28_complete"
   ],
   "note": "Covers payload overrides; the payload names of RPCs are covered by C69."
  },
  {
   "property": "C280",
   "status": "proved",
   "theorems": [
    "Distbench.Builder.C280_timeout",
    "Distbench.Builder.C280_client"
   ],
   "note": "Of tests whose duration distbench can read; the attribute map is any that agrees with the test on test_timeout."
  },
  {
   "property": "C281",
   "status": "proved",
   "theorems": [
    "Distbench.Digest.C281_read",
    "Distbench.Digest.C281_summary",
    "Distbench.Digest.C281_header"
   ],
   "note": "Floats are modelled by rational numbers; that Python reads back what it writes is a hypothesis (Faithful), shown to be met by an example."
  },
  {
   "property": "C282",
   "status": "partial",
   "theorems": [
    "Distbench.Digest.C282_digest_partial",
    "Distbench.Digest.C282_long_negation"
   ],
   "note": "False of the code for messages of 999999999 bytes, which have no row, and longer ones, with which get_digest fails (C282_long_negation): that length is the sentinel. Proved for all shorter lengths."
  },
  {
   "property": "C283",
   "status": "partial",
   "theorems": [
    "Distbench.Digest.C283_axis_partial",
    "Distbench.Digest.C283_long_negation"
   ],
   "note": "False of the code for messages of more than 999999999 bytes (C283_long_negation). Proved for shorter lengths, with exact quotients."
  },
  {
   "property": "C284",
   "status": "partial",
   "theorems": [
    "Distbench.Digest.C284_curve_partial",
    "Distbench.Digest.C284_selector",
    "Distbench.Digest.C284_long_negation"
   ],
   "note": "False of the code for messages of 999999999 bytes and more (C284_long_negation). Proved for all shorter lengths."
  },
  {
   "property": "C285",
   "status": "proved",
   "theorems": [
    "Distbench.Modes.C285_runs",
    "Distbench.Modes.C285_usage"
   ],
   "note": "The flag library is a parameter: what it leaves of the command line is arbitrary."
  },
  {
   "property": "C286",
   "status": "partial",
   "theorems": [
    "Distbench.Modes.C286_status_partial",
    "Distbench.Modes.C286_success",
    "Distbench.Modes.C286_one_node",
    "Distbench.Modes.C286_false"
   ],
   "note": "False of the code: results in text form of up to 8192 bytes are reported as saved although the disk is full (C286_false), as in C203. The rest is proved in both directions."
  },
  {
   "property": "C287",
   "status": "partial",
   "theorems": [
    "Distbench.Modes.C287_waits_partial",
    "Distbench.Modes.C287_negation"
   ],
   "note": "False of the code: the RPC of a preview has a deadline of 3000 seconds whatever its tests say, and a test without a timeout may take an hour (C287_negation). Proved for tests whose timeouts are all given and add up to at most 3000 seconds."
  },
  {
   "property": "C288",
   "status": "partial",
   "theorems": [
    "Distbench.Modes.C288_names",
    "Distbench.Modes.C288_all_partial",
    "Distbench.Modes.C288_count",
    "Distbench.Modes.C288_taken_negation",
    "Distbench.Modes.C288_negative_negation"
   ],
   "note": "False of the code: if another node registers first it becomes node0, and the sequencer's own node is refused while the sequencer goes on (C288_taken_negation); a negative number of nodes aborts the process (C288_negative_negation). Proved without other nodes; and with them, that an own node that takes part has its own number."
  },
  {
   "property": "C289",
   "status": "partial",
   "theorems": [
    "Distbench.Workloads.C289_clique_partial",
    "Distbench.Workloads.C289_multi_level_partial",
    "Distbench.Workloads.C289_client_server_partial",
    "Distbench.Workloads.C289_stochastic",
    "Distbench.Workloads.C289_tripartite_partial",
    "Distbench.Workloads.C289_results_negation",
    "Distbench.Workloads.C289_duration_negation"
   ],
   "note": "False of the code for -l of tripartite_rpc_pattern.sh, which is accepted and ignored (C289_results_negation), and for times above 2147 seconds, with which the test cannot be read (C289_duration_negation). Proved for each script otherwise: the run takes place, with the load that was asked for. Values that the shell or the text format would split are outside the model."
  },
  {
   "property": "C29",
   "status": "proved",
   "theorems": [
    "Distbench.C29_order",
    "Distbench.C29_finish",
    "Distbench.C29_delay"
   ],
   "note": "Transition system of the list's thread, callbacks on other threads, cancellation and the clock."
  },
  {
   "property": "C290",
   "status": "partial",
   "theorems": [
    "Distbench.Workloads.C290_usage",
    "Distbench.Workloads.C290_otherwise",
    "Distbench.Workloads.C290_unambiguous",
    "Distbench.Workloads.C290_nodes",
    "Distbench.Workloads.C290_signed",
    "Distbench.Workloads.C290_status_partial",
    "Distbench.Workloads.C290_status_negation"
   ],
   "note": "False of the code for the status: wrong use exits with 0 (C290_status_negation). The rest is proved for all arguments."
  },
  {
   "property": "C291",
   "status": "proved",
   "theorems": [
    "Distbench.Workloads.C291_limit",
    "Distbench.Workloads.C291_no_limit"
   ],
   "note": "The number of seconds is decimal; that it is small enough follows from the test being run. The deadlines are those of the client and the sequencer (C111)."
  },
  {
   "property": "C292",
   "status": "partial",
   "theorems": [
    "Distbench.Workloads.C292_accepted_partial",
    "Distbench.Workloads.C292_mode_negation"
   ],
   "note": "False of the code for the mode nosync in the usage of clique_rpc_pattern.sh (C292_mode_negation). Proved for the modes that distbench knows; for test_stochastic.sh it is a hypothesis that the decimals 0.7 and 0.3 are read as numbers from 0 to 1."
  },
  {
   "property": "C293",
   "status": "proved",
   "theorems": [
    "Distbench.Collect.C293_goes_on",
    "Distbench.Collect.C293_bound"
   ],
   "note": "In the model of C174: a step reads the log of one peer or the logs of the activities."
  },
  {
   "property": "C294",
   "status": "partial",
   "theorems": [
    "Distbench.Cancel.C294_not_told_partial",
    "Distbench.Cancel.C294_clean_partial",
    "Distbench.Cancel.C294_ends",
    "Distbench.Cancel.C294_negation"
   ],
   "note": "False of the code for a test that fails: its nodes stay marked as active, and the next request tells them to stop although they have no traffic (C294_negation). Proved for tests whose results are collected."
  },
  {
   "property": "C295",
   "status": "proved",
   "theorems": [
    "Distbench.Activity.C295_accesses"
   ],
   "note": "For all runs without undefined behaviour; which those are is C172. The number of draws in a run is that of the loop (LegalDraws)."
  },
  {
   "property": "C296",
   "status": "partial",
   "theorems": [
    "Distbench.ServerState.C296_list_partial",
    "Distbench.ServerState.C296_handler_partial",
    "Distbench.ServerState.C296_trace_partial",
    "Distbench.ServerState.C296_builds",
    "Distbench.ServerState.C296_touches",
    "Distbench.ServerState.C296_trace_negation",
    "Distbench.ServerState.C296_handler_negation"
   ],
   "note": "False of the code in two cases: the state made for the replay of a trace is not freed if the trace has no record for this instance (C296_trace_negation), and a replayed RPC is neither answered nor its state freed (C296_handler_negation, see C96). Proved for all other requests, lists and traces. The model of C31 has no requests in it: that a list sends and frees once is taken from there."
  },
  {
   "property": "C297",
   "status": "partial",
   "theorems": [
    "Distbench.ServerState.C297_debug_partial",
    "Distbench.ServerState.C297_release_negation",
    "Distbench.ServerState.C297_free_negation"
   ],
   "note": "False of the code: release builds send every response again (C297_release_negation), and after the first free there is nothing left that could report the second (C297_free_negation). Proved for responses in debug builds."
  },
  {
   "property": "C298",
   "status": "partial",
   "theorems": [
    "Distbench.Commands.C298_cut_partial",
    "Distbench.Commands.C298_cut_negation"
   ],
   "note": "False of the code: a file cut between two tests is run as the tests before the cut (C298_cut_negation). Proved for every cut: the file is not read as binary, or what is left is the binary form of the first of the tests and settings. What is not read as binary goes to the parser of the text format, which is arbitrary."
  },
  {
   "property": "C299",
   "status": "partial",
   "theorems": [
    "Distbench.C299_short_partial",
    "Distbench.C299_overflow"
   ],
   "note": "Holds for fewer than 2^31-1 iterations; witness with 2^31-1."
  },
  {
   "property": "C30",
   "status": "proved",
   "theorems": [
    "Distbench.C30_progress",
    "Distbench.C30_not_stuck"
   ],
   "note": "Weak fairness of the list's thread and a clock that advances; aborts are C77, actions that never finish C79."
  },
  {
   "property": "C300",
   "status": "partial",
   "theorems": [
    "Distbench.Options.C300_first_partial",
    "Distbench.Options.C300_others",
    "Distbench.Options.C300_kept",
    "Distbench.Options.C300_activity_partial",
    "Distbench.Options.C300_benchmark",
    "Distbench.Options.C300_again_negation"
   ],
   "note": "The helpers append and the readers take the first usable entry, so that the first value wins: holds for names that have no value of this kind yet and are added once; whenever one is added again the new value is not read."
  },
  {
   "property": "C301",
   "status": "partial",
   "theorems": [
    "Distbench.Checkout.C301_lost_partial",
    "Distbench.Checkout.C301_refused",
    "Distbench.Checkout.C301_unchanged",
    "Distbench.Checkout.C301_guard",
    "Distbench.Checkout.C301_untracked_negation"
   ],
   "note": "Holds for all tracked files and for local commits. Files that git was never told about are overwritten, with success reported, where the new version has a file of the same path: git diff does not look at them and git reset --hard does not spare them."
  },
  {
   "property": "C302",
   "status": "partial",
   "theorems": [
    "Distbench.Checkout.C302_version_partial",
    "Distbench.Checkout.C302_missing",
    "Distbench.Checkout.C302_gone_negation"
   ],
   "note": "Holds whenever the remote has the version. Once the branch is gone from the remote, an existing tree stays at the old version and success is reported."
  },
  {
   "property": "C303",
   "status": "partial",
   "theorems": [
    "Distbench.Checkout.C303_again_partial",
    "Distbench.Checkout.C303_slash_negation"
   ],
   "note": "Holds if the version is the last component of the path of the tree. For a branch with a slash in its name, which the deployment script puts into GITDIR/branch, every later call is refused: git names the tree after the last component, and the script compares with the whole name."
  },
  {
   "property": "C304",
   "status": "partial",
   "theorems": [
    "Distbench.LocalStart.C304_plain",
    "Distbench.LocalStart.C304_debug_partial",
    "Distbench.LocalStart.C304_status",
    "Distbench.LocalStart.C304_ports_negation"
   ],
   "note": "Holds without debugging (the sequencer is told the number, see C288 for what it does with it) and with debugging for up to 9998 nodes. Ports count down from 9998, so that from 10000 nodes on some port is negative."
  },
  {
   "property": "C305",
   "status": "partial",
   "theorems": [
    "Distbench.Deploy.C305_first_partial",
    "Distbench.Deploy.C305_named_negation",
    "Distbench.Deploy.C305_lo_negation"
   ],
   "note": "The choice without an argument is as stated for devices that have no lo in their names (and SEQUENCER_IP not in the environment). A device that is named is never used: SEQUENCER_IP is then not set, and under set -u the script ends with an error. A device such as flow0 is passed over, because grep -v lo drops it."
  },
  {
   "property": "C306",
   "status": "proved",
   "theorems": [
    "Distbench.Deploy.C306_started",
    "Distbench.Deploy.C306_order"
   ],
   "note": "For the sequence of commands of the remote script; those of one loop run concurrently and are awaited before the next loop, and are listed by node."
  },
  {
   "property": "C307",
   "status": "partial",
   "theorems": [
    "Distbench.Deploy.C307_tree_partial",
    "Distbench.Deploy.C307_refused",
    "Distbench.Deploy.C307_accepted",
    "Distbench.Deploy.C307_mirror",
    "Distbench.Deploy.C307_staged_negation"
   ],
   "note": "Holds if nothing is staged that is not committed. git diff without HEAD compares the working tree with the index only, so that a staged change passes the check, and the version without it is deployed."
  },
  {
   "property": "C308",
   "status": "partial",
   "theorems": [
    "Distbench.Setup.C308_completed",
    "Distbench.Setup.C308_whole_partial",
    "Distbench.Setup.C308_ready_partial",
    "Distbench.Setup.C308_first",
    "Distbench.Setup.C308_removal_negation",
    "Distbench.Setup.C308_removing_negation",
    "Distbench.Setup.C308_against_negation"
   ],
   "note": "Holds if no run ends during a removal and all runs are for the same libfabric. rm -rf removes the directory before the link, so that after an interruption in between the link alone is taken for an installation; and after an interruption between the two libraries a Mercury is used that was built with an earlier libfabric."
  },
  {
   "property": "C309",
   "status": "partial",
   "theorems": [
    "Distbench.Deploy.C309_asked",
    "Distbench.Deploy.C309_counted_partial",
    "Distbench.Deploy.C309_other_negation"
   ],
   "note": "Counted right if no other address begins with 10: the lines are matched with ^10, without the dot, so that 100.64.0.1 is counted as a node."
  },
  {
   "property": "C31",
   "status": "proved",
   "theorems": [
    "Distbench.C31_once",
    "Distbench.C31_always",
    "Distbench.C31_when"
   ],
   "note": ""
  },
  {
   "property": "C32",
   "status": "proved",
   "theorems": [
    "Distbench.C32_draws",
    "Distbench.C32_predicates",
    "Distbench.C32_all"
   ],
   "note": "Skipping is specified inductively from the predicates and dependencies alone."
  },
  {
   "property": "C33",
   "status": "proved",
   "theorems": [
    "Distbench.C33_exact",
    "Distbench.C33_never_more",
    "Distbench.C33_report_last",
    "Distbench.C33_ends"
   ],
   "note": ""
  },
  {
   "property": "C34",
   "status": "proved",
   "theorems": [
    "Distbench.C34_bound",
    "Distbench.C34_full"
   ],
   "note": ""
  },
  {
   "property": "C35",
   "status": "proved",
   "theorems": [
    "Distbench.C35_cancel",
    "Distbench.C35_time_limit",
    "Distbench.C35_once",
    "Distbench.C35_ends"
   ],
   "note": "Closed-loop actions; open-loop ones are C83."
  },
  {
   "property": "C36",
   "status": "proved",
   "theorems": [
    "Distbench.C36_iteration",
    "Distbench.C36_chain"
   ],
   "note": "Chains of RPCs and nested lists; replayed traces are a separate property."
  },
  {
   "property": "C37",
   "status": "proved",
   "theorems": [
    "Distbench.Sampling.C37_retained",
    "Distbench.Sampling.C37_all_when_few",
    "Distbench.Sampling.C37_unlimited",
    "Distbench.Sampling.C37_completes"
   ],
   "note": "The limit is per run of an action list."
  },
  {
   "property": "C38",
   "status": "proved",
   "theorems": [
    "Distbench.Sampling.C38_order_independent"
   ],
   "note": ""
  },
  {
   "property": "C39",
   "status": "proved",
   "theorems": [
    "Distbench.Sampling.C39_value",
    "Distbench.Sampling.C39_stable",
    "Distbench.Sampling.C39_contents"
   ],
   "note": ""
  },
  {
   "property": "C40",
   "status": "proved",
   "theorems": [
    "Distbench.Replay.C40_at_most_once",
    "Distbench.Replay.C40_defaults",
    "Distbench.Replay.C40_done",
    "Distbench.Replay.C40_samples",
    "Distbench.Replay.C40_starts",
    "Distbench.Replay.C40_ends",
    "Distbench.Replay.C40_bounded",
    "Distbench.Replay.C40_moves"
   ],
   "note": ""
  },
  {
   "property": "C41",
   "status": "proved",
   "theorems": [
    "Distbench.Replay.C41_after_starts",
    "Distbench.Replay.C41_after_ends",
    "Distbench.Replay.C41_absolute"
   ],
   "note": ""
  },
  {
   "property": "C42",
   "status": "partial",
   "theorems": [
    "Distbench.C42_accepted_iff_partial",
    "Distbench.C42_valid_accepted",
    "Distbench.C42_tables_partial",
    "Distbench.C42_out_of_range_accepted"
   ],
   "note": "Exact acceptance condition; index = count, negative indices and any distance are accepted, with a witness."
  },
  {
   "property": "C43",
   "status": "proved",
   "theorems": [
    "Distbench.Sequencer.C43_unique",
    "Distbench.Sequencer.C43_rejected",
    "Distbench.Sequencer.C43_answer",
    "Distbench.Sequencer.C43_table"
   ],
   "note": "Over all histories of registrations. A node is identified by its registration; NewStub does not fail and the table has fewer than 2^31 entries."
  },
  {
   "property": "C44",
   "status": "proved",
   "theorems": [
    "Distbench.Sequencer.C44_one_at_a_time",
    "Distbench.Sequencer.C44_starts_alone",
    "Distbench.Sequencer.C44_arrival_cancels",
    "Distbench.Sequencer.C44_cancelled_stops"
   ],
   "note": "Over all interleavings of any number of calls; each critical section of the mutex is one step."
  },
  {
   "property": "C45",
   "status": "proved",
   "theorems": [
    "Distbench.Sequencer.C45_running",
    "Distbench.Sequencer.C45_answer"
   ],
   "note": "Includes cancelled sequences and results too big to send. Outcomes of the tests, the summary and the size of the response are arbitrary functions."
  },
  {
   "property": "C46",
   "status": "proved",
   "theorems": [
    "Distbench.Sequencer.C46_succeeds_iff",
    "Distbench.Sequencer.C46_error_names_node"
   ],
   "note": "For tests whose timeout attribute, if present, is a number (otherwise the test fails with that error after the second round)."
  },
  {
   "property": "C47",
   "status": "proved",
   "theorems": [
    "Distbench.Threadpool.C47_elastic_once",
    "Distbench.Threadpool.C47_elastic_destroyed",
    "Distbench.Threadpool.C47_elastic_never_stuck",
    "Distbench.Threadpool.C47_elastic_decreases",
    "Distbench.Threadpool.C47_simple_once",
    "Distbench.Threadpool.C47_simple_destroyed",
    "Distbench.Threadpool.C47_simple_never_stuck",
    "Distbench.Threadpool.C47_simple_decreases",
    "Distbench.Threadpool.C47_null_once",
    "Distbench.Threadpool.C47_null_destroyed",
    "Distbench.Threadpool.C47_null_never_stuck",
    "Distbench.Threadpool.C47_null_decreases"
   ],
   "note": "Each critical section of the mutex is one step. Tasks are assumed to end and the scheduler to be fair: then never_stuck and decreases give completion."
  },
  {
   "property": "C48",
   "status": "partial",
   "theorems": [
    "Distbench.Threadpool.C48_idle_worker_partial",
    "Distbench.Threadpool.C48_stranded"
   ],
   "note": "False of the code for sizes of three and more. Proved for sizes one and two; the bound on idle workers is C120."
  },
  {
   "property": "C49",
   "status": "proved",
   "theorems": [
    "Distbench.Overload.C49_once",
    "Distbench.Overload.C49_exceeds",
    "Distbench.Overload.C49_calls"
   ],
   "note": ""
  },
  {
   "property": "C50",
   "status": "proved",
   "theorems": [
    "Distbench.Drivers.C50_terminates",
    "Distbench.Drivers.C50_too_deep",
    "Distbench.Drivers.C50_cycle",
    "Distbench.Drivers.C50_within"
   ],
   "note": "The resolver and the initialisation of real drivers are arbitrary functions."
  },
  {
   "property": "C51",
   "status": "proved",
   "theorems": [
    "Distbench.Drivers.C51_alternates",
    "Distbench.Drivers.C51_balance"
   ],
   "note": "Atomic int wraps around in the model."
  },
  {
   "property": "C52",
   "status": "proved",
   "theorems": [
    "Distbench.Drivers.C52_counts",
    "Distbench.Drivers.C52_stats"
   ],
   "note": "Statement made precise: the client counter is incremented when the call returns (see C141)."
  },
  {
   "property": "C53",
   "status": "proved",
   "theorems": [
    "Distbench.Netutils.C53_usable",
    "Distbench.Netutils.C53_fails_iff",
    "Distbench.Netutils.C53_family",
    "Distbench.Netutils.C53_version"
   ],
   "note": ""
  },
  {
   "property": "C54",
   "status": "proved",
   "theorems": [
    "Distbench.Summary.C54_ranks",
    "Distbench.Summary.C54_in_order"
   ],
   "note": "Ranks for up to 2^42 samples, order and membership for any number; double arithmetic is modelled exactly (53 bits, ties to even)."
  },
  {
   "property": "C55",
   "status": "proved",
   "theorems": [
    "Distbench.Handler.C55_path",
    "Distbench.Handler.C55_lengths"
   ],
   "note": "For the first 2^31 iterations of each RPC (see C93).  Replay logs are C97."
  },
  {
   "property": "C56",
   "status": "proved",
   "theorems": [
    "Distbench.Handler.C56_first",
    "Distbench.Handler.C56_peers"
   ],
   "note": ""
  },
  {
   "property": "C57",
   "status": "proved",
   "theorems": [
    "Distbench.Timeout.C57_sum",
    "Distbench.Timeout.C57_default",
    "Distbench.Timeout.C57_error"
   ],
   "note": ""
  },
  {
   "property": "C58",
   "status": "partial",
   "theorems": [
    "Distbench.C58_canonical_idempotent_partial",
    "Distbench.C58_not_idempotent"
   ],
   "note": "Proved for positive counts or explicit sizes; false otherwise, with witness."
  },
  {
   "property": "C59",
   "status": "partial",
   "theorems": [
    "Distbench.C59_cdf_nonneg_partial",
    "Distbench.C59_negative_pmf_accepted",
    "Distbench.C59_nan_accepted"
   ],
   "note": "True for finite CDFs; false for PMFs and NaN, with witnesses."
  },
  {
   "property": "C60",
   "status": "partial",
   "theorems": [
    "Distbench.C60_in_range_partial",
    "Distbench.C60_wide_bounds_truncated",
    "Distbench.C60_max_value_overflows"
   ],
   "note": "Holds for exact values and 32-bit bounds; false beyond, with witnesses."
  },
  {
   "property": "C61",
   "status": "partial",
   "theorems": [
    "Distbench.C61_verdict_partial",
    "Distbench.C61_unset_modulus_undefined"
   ],
   "note": "True for usable moduli; an unset modulus divides by zero (witness)."
  },
  {
   "property": "C62",
   "status": "partial",
   "theorems": [
    "Distbench.C62_at_least_one_partial",
    "Distbench.C62_placed_twice"
   ],
   "note": "Existence proved; uniqueness false, with witness."
  },
  {
   "property": "C63",
   "status": "partial",
   "theorems": [
    "Distbench.C63_unconstrained_complete_partial",
    "Distbench.C63_greedy_fails"
   ],
   "note": "Complete without constraints; greedy choice fails otherwise, with witness."
  },
  {
   "property": "C64",
   "status": "partial",
   "theorems": [
    "Distbench.C64_sequential_partial",
    "Distbench.C64_overlapping_iterations_collide"
   ],
   "note": "True one after the other; false when overlapping (witness schedule)."
  },
  {
   "property": "C65",
   "status": "partial",
   "theorems": [
    "Distbench.C65_same_filters_in_range_partial",
    "Distbench.C65_out_of_range_target"
   ],
   "note": "True when the sender lies in the server's grid; false otherwise, with witness."
  },
  {
   "property": "C66",
   "status": "proved",
   "theorems": [
    "Distbench.C66_plain_names",
    "Distbench.C66_linear_distance",
    "Distbench.C66_stochastic_wellformed",
    "Distbench.C66_stochastic_text",
    "Distbench.C66_unknown_rejected"
   ],
   "note": "absl::SimpleAtof is an arbitrary function."
  },
  {
   "property": "C67",
   "status": "partial",
   "theorems": [
    "Distbench.C67_bad_distance_rejected_partial",
    "Distbench.C67_missing_distance_accepted"
   ],
   "note": "Rejects non-numbers; accepts a missing number and trailing text, with witnesses."
  },
  {
   "property": "C68",
   "status": "partial",
   "theorems": [
    "Distbench.C68_accepted_runnable_partial",
    "Distbench.C68_unknown_rejected",
    "Distbench.C68_wrapped_size_accepted",
    "Distbench.C68_accepted"
   ],
   "note": "Holds for sizes that fit 32 bits; witness for 2^32."
  },
  {
   "property": "C69",
   "status": "partial",
   "theorems": [
    "Distbench.C69_sizes_partial",
    "Distbench.C69_large_size_wrapped"
   ],
   "note": "Holds for sizes below 2^31; witness above."
  },
  {
   "property": "C70",
   "status": "partial",
   "theorems": [
    "Distbench.C70_channel_partial",
    "Distbench.C70_unknown_channel_undefined"
   ],
   "note": "Undefined behaviour in the error path, with a witness."
  },
  {
   "property": "C71",
   "status": "partial",
   "theorems": [
    "Distbench.C71_predicates_partial",
    "Distbench.C71_bang_accepted"
   ],
   "note": "Swapped arguments of StartsWith; witness."
  },
  {
   "property": "C72",
   "status": "partial",
   "theorems": [
    "Distbench.C72_rpc_by_name_partial",
    "Distbench.C72_duplicate_names_shift"
   ],
   "note": "Needs distinct RPC names; witness for a duplicate."
  },
  {
   "property": "C73",
   "status": "partial",
   "theorems": [
    "Distbench.C73_scalar_draws_partial",
    "Distbench.C73_joint_size_distribution_aborts"
   ],
   "note": "Delays and one-dimensional sizes never abort; witness for two dimensions."
  },
  {
   "property": "C74",
   "status": "proved",
   "theorems": [
    "Distbench.C74_rpc_bindings"
   ],
   "note": ""
  },
  {
   "property": "C75",
   "status": "proved",
   "theorems": [
    "Distbench.C75_validated_everywhere",
    "Distbench.C75_empty_name_aborts"
   ],
   "note": "An empty service name aborts the check instead of being rejected."
  },
  {
   "property": "C76",
   "status": "proved",
   "theorems": [
    "Distbench.C76_canonical_description"
   ],
   "note": ""
  },
  {
   "property": "C77",
   "status": "partial",
   "theorems": [
    "Distbench.C77_partial",
    "Distbench.C77_logs_partial",
    "Distbench.C77_skipped_activity",
    "Distbench.C77_empty_action",
    "Distbench.C77_open_loop_activity"
   ],
   "note": "Three witnesses of aborts or invalid memory accesses."
  },
  {
   "property": "C78",
   "status": "proved",
   "theorems": [
    "Distbench.C78_override"
   ],
   "note": ""
  },
  {
   "property": "C79",
   "status": "partial",
   "theorems": [
    "Distbench.C79_can_finish_partial",
    "Distbench.C79_wrong_client_hangs",
    "Distbench.C79_no_peers_hangs"
   ],
   "note": "Holds when this service is a client of the RPC and the server has instances; two witnesses otherwise."
  },
  {
   "property": "C80",
   "status": "proved",
   "theorems": [
    "Distbench.C80_exact",
    "Distbench.C80_ends"
   ],
   "note": ""
  },
  {
   "property": "C81",
   "status": "proved",
   "theorems": [
    "Distbench.C81_never_more",
    "Distbench.C81_once",
    "Distbench.C81_progress"
   ],
   "note": ""
  },
  {
   "property": "C82",
   "status": "proved",
   "theorems": [
    "Distbench.C82_constant",
    "Distbench.C82_sync_burst"
   ],
   "note": "Times in whole nanoseconds."
  },
  {
   "property": "C83",
   "status": "partial",
   "theorems": [
    "Distbench.C83_in_flight_partial",
    "Distbench.C83_cancelled_between",
    "Distbench.C83_reported_twice"
   ],
   "note": "Holds if an iteration is running and none is ending at the moment of cancellation and no further one is started; two witnesses otherwise."
  },
  {
   "property": "C84",
   "status": "partial",
   "theorems": [
    "Distbench.C84_sensible_partial",
    "Distbench.C84_hang",
    "Distbench.C84_abort"
   ],
   "note": "Holds for positive values; witnesses for zero, 2^32 and negative values."
  },
  {
   "property": "C85",
   "status": "partial",
   "theorems": [
    "Distbench.C85_short_partial",
    "Distbench.C85_overflow"
   ],
   "note": "Holds for fewer than 2^31-1-parallelism iterations; witness with 2^31."
  },
  {
   "property": "C86",
   "status": "proved",
   "theorems": [
    "Distbench.Sampling.C86_same_sample",
    "Distbench.Sampling.C37_retained",
    "Distbench.Sampling.C37_unlimited"
   ],
   "note": "Absent fields count as their default values."
  },
  {
   "property": "C87",
   "status": "proved",
   "theorems": [
    "Distbench.Sampling.C87_uniform",
    "Distbench.Sampling.C87_all_draws",
    "Distbench.Sampling.C87_draws_possible"
   ],
   "note": "Counting statement over all draws that the uniform distribution makes equally likely."
  },
  {
   "property": "C88",
   "status": "proved",
   "theorems": [
    "Distbench.Logs.C88_logs_complete",
    "Distbench.Logs.C88_nothing_else"
   ],
   "note": ""
  },
  {
   "property": "C89",
   "status": "partial",
   "theorems": [
    "Distbench.Replay.C89_latest_partial",
    "Distbench.Replay.C89_latest_false"
   ],
   "note": "Proved when callbacks take the lock in the order of the end times; refuted otherwise."
  },
  {
   "property": "C90",
   "status": "partial",
   "theorems": [
    "Distbench.Replay.C90_ends_partial",
    "Distbench.Replay.C90_stuck",
    "Distbench.Replay.C90_ends_false"
   ],
   "note": "Exactly the traces whose records with distances are timed relative to prior RPCs can end; refuted for the others."
  },
  {
   "property": "C91",
   "status": "partial",
   "theorems": [
    "Distbench.Replay.C91_explicit_partial",
    "Distbench.Replay.C91_no_distances",
    "Distbench.Replay.C91_preceding_false"
   ],
   "note": "Holds with an explicit distance 0; refuted without one."
  },
  {
   "property": "C92",
   "status": "partial",
   "theorems": [
    "Distbench.Replay.C92_sizes_partial",
    "Distbench.Replay.C92_channel",
    "Distbench.Replay.C92_sizes_false"
   ],
   "note": "Holds for RPCs to a server instance; refuted over multi-server channels."
  },
  {
   "property": "C93",
   "status": "partial",
   "theorems": [
    "Distbench.Handler.C93_interval_partial",
    "Distbench.Handler.C93_interval_false"
   ],
   "note": "Proved for the first 2^31 iterations, refuted after."
  },
  {
   "property": "C94",
   "status": "proved",
   "theorems": [
    "Distbench.Handler.C94_requests",
    "Distbench.Handler.C94_made"
   ],
   "note": ""
  },
  {
   "property": "C95",
   "status": "proved",
   "theorems": [
    "Distbench.Handler.C95_once",
    "Distbench.Handler.C95_cancelled",
    "Distbench.Handler.C95_rejected",
    "Distbench.Handler.C95_handled",
    "Distbench.Handler.C95_list_size",
    "Distbench.Handler.C95_joint"
   ],
   "note": "That a list answers once is C31."
  },
  {
   "property": "C96",
   "status": "partial",
   "theorems": [
    "Distbench.Handler.C96_answered_partial",
    "Distbench.Handler.C96_unanswered",
    "Distbench.Handler.C96_answered_false"
   ],
   "note": "Answered (with an error) only over channels or after cancellation; refuted otherwise."
  },
  {
   "property": "C97",
   "status": "partial",
   "theorems": [
    "Distbench.Handler.C97_place_partial",
    "Distbench.Handler.C97_lengths_false",
    "Distbench.Handler.C97_warmup_false"
   ],
   "note": "False of the code for the lengths and the warmup mark, with witnesses. Proved for the place."
  },
  {
   "property": "C98",
   "status": "proved",
   "theorems": [
    "Distbench.Handler.C98_spreads",
    "Distbench.Handler.C98_one_hop"
   ],
   "note": ""
  },
  {
   "property": "C99",
   "status": "partial",
   "theorems": [
    "Distbench.Handler.C99_limit_partial",
    "Distbench.Handler.C99_enforced",
    "Distbench.Handler.C99_limit_false"
   ],
   "note": "Only-if proved with running callbacks counted; refuted for RPCs in flight."
  }
 ]
}