{
 "claims": [
  {
   "property": "C01",
   "status": "proved",
   "theorems": [
    "Craft.C01_majority_committed_exact",
    "Craft.C01_majority_committed_empty"
   ],
   "note": ""
  },
  {
   "property": "C02",
   "status": "proved",
   "theorems": [
    "Craft.C02_majority_vote_exact",
    "Craft.C02_majority_vote_final",
    "Craft.C02_majority_vote_empty"
   ],
   "note": ""
  },
  {
   "property": "C03",
   "status": "proved",
   "theorems": [
    "Craft.C03_joint_committed_exact",
    "Craft.C03_joint_vote_exact"
   ],
   "note": ""
  },
  {
   "property": "C04",
   "status": "proved",
   "theorems": [
    "Craft.C04_majority_intersect",
    "Craft.C04_joint_intersect",
    "Craft.C04_not_both_won"
   ],
   "note": ""
  },
  {
   "property": "C05",
   "status": "proved",
   "theorems": [
    "Craft.C05_inflights_fifo",
    "Craft.C05_inflights_add_full"
   ],
   "note": ""
  },
  {
   "property": "C06",
   "status": "partial",
   "theorems": [
    "Craft.C06_inflights_every_size_false",
    "Craft.C06_inflights_partial"
   ],
   "note": "The property is FALSE of the code; C06_inflights_every_size_false is the negation (int32 truncation of the configured window); C06_inflights_partial proves it for sizes up to 2^30."
  },
  {
   "property": "C07",
   "status": "proved",
   "theorems": [
    "Craft.C07_match_monotone",
    "Craft.C07_maybeUpdate_exact",
    "Craft.C07_rejection"
   ],
   "note": ""
  },
  {
   "property": "C08",
   "status": "partial",
   "theorems": [
    "Craft.C08_match_lt_next_false",
    "Craft.C08_match_lt_next_partial"
   ],
   "note": "The property is FALSE of the code for arbitrary response sequences; C08_match_lt_next_false is the negation (a delayed rejection sets Next at or below Match); C08_match_lt_next_partial proves it without such a rejection."
  },
  {
   "property": "C09",
   "status": "proved",
   "theorems": [
    "Craft.C09_probe_pauses",
    "Craft.C09_isPaused_iff",
    "Craft.C09_paused_sends_nothing"
   ],
   "note": ""
  },
  {
   "property": "C10",
   "status": "proved",
   "theorems": [
    "Craft.C10_confchange_invariants",
    "Craft.C10_simple_fails_iff",
    "Craft.C10_malformed_refused",
    "Craft.C10_results_acceptable",
    "Craft.C10_simple_refused_iff",
    "Craft.C10_enterJoint_refused_iff"
   ],
   "note": ""
  },
  {
   "property": "C11",
   "status": "proved",
   "theorems": [
    "Craft.C11_simple_overlap"
   ],
   "note": ""
  },
  {
   "property": "C12",
   "status": "proved",
   "theorems": [
    "Craft.C12_enterJoint",
    "Craft.C12_simple",
    "Craft.C12_leaveJoint"
   ],
   "note": ""
  },
  {
   "property": "C13",
   "status": "proved",
   "theorems": [
    "Craft.C13_voters_nonempty"
   ],
   "note": ""
  },
  {
   "property": "C14",
   "status": "proved",
   "theorems": [
    "Craft.C14_restore_roundtrip"
   ],
   "note": ""
  },
  {
   "property": "C15",
   "status": "proved",
   "theorems": [
    "Craft.C15_confchange_text_roundtrip"
   ],
   "note": ""
  },
  {
   "property": "C16",
   "status": "proved",
   "theorems": [
    "Craft.C16_confstate_eq_iff",
    "Craft.C16_confstate_eq_equivalence"
   ],
   "note": ""
  },
  {
   "property": "C17",
   "status": "proved",
   "theorems": [
    "Craft.C17_limitSize"
   ],
   "note": ""
  },
  {
   "property": "C18",
   "status": "proved",
   "theorems": [
    "Craft.C18_storage_is_a_log",
    "Craft.C18_append_replaces_suffix"
   ],
   "note": ""
  },
  {
   "property": "C19",
   "status": "partial",
   "theorems": [
    "Craft.C19_snapshot_stable_false",
    "Craft.C19_snapshot_stable_partial"
   ],
   "note": "The property is FALSE of the code; C19_snapshot_stable_false is the negation (CreateSnapshot mutates the snapshot object already handed out); C19_snapshot_stable_partial proves stability for callers that do not call CreateSnapshot while holding one."
  },
  {
   "property": "C20",
   "status": "proved",
   "theorems": [
    "Craft.C20_answers_as_one_log",
    "Craft.C20_persist_invisible",
    "Craft.C20_late_ack"
   ],
   "note": ""
  },
  {
   "property": "C21",
   "status": "proved",
   "theorems": [
    "Craft.C21_maybeAppend",
    "Craft.C21_maybeAppend_total"
   ],
   "note": ""
  },
  {
   "property": "C22",
   "status": "proved",
   "theorems": [
    "Craft.C22_committed_never_overwritten",
    "Craft.C22_overwrite_aborts"
   ],
   "note": ""
  },
  {
   "property": "C23",
   "status": "proved",
   "theorems": [
    "Craft.C23_ordered",
    "Craft.C23_monotone"
   ],
   "note": ""
  },
  {
   "property": "C24",
   "status": "proved",
   "theorems": [
    "Craft.C24_delivered_once_in_order",
    "Craft.C24_batch"
   ],
   "note": ""
  },
  {
   "property": "C25",
   "status": "proved",
   "theorems": [
    "Craft.C25_findConflictByTerm"
   ],
   "note": ""
  },
  {
   "property": "C26",
   "status": "proved",
   "theorems": [
    "Craft.C26_isUpToDate_iff",
    "Craft.C26_total_preorder"
   ],
   "note": ""
  },
  {
   "property": "C27",
   "status": "proved",
   "theorems": [
    "Craft.C27_fifo",
    "Craft.C27_advance_exact"
   ],
   "note": ""
  },
  {
   "property": "C28",
   "status": "proved",
   "theorems": [
    "Craft.C28_term_never_decreases",
    "Craft.C28_calls"
   ],
   "note": ""
  },
  {
   "property": "C29",
   "status": "proved",
   "theorems": [
    "Craft.C29_vote_stable",
    "Craft.C29_grant",
    "Craft.C29_one_vote_per_term",
    "Craft.C29_sent_votes_durable"
   ],
   "note": ""
  },
  {
   "property": "C30",
   "status": "proved",
   "theorems": [
    "Craft.C30_commit_never_decreases"
   ],
   "note": ""
  },
  {
   "property": "C31",
   "status": "proved",
   "theorems": [
    "Craft.C31_leader_append_only",
    "Craft.C31_call"
   ],
   "note": ""
  },
  {
   "property": "C32",
   "status": "proved",
   "theorems": [
    "Craft.C32_call",
    "Craft.C32_applyConfChange",
    "Craft.C32_advance"
   ],
   "note": ""
  },
  {
   "property": "C33",
   "status": "proved",
   "theorems": [
    "Craft.C33_stale_message",
    "Craft.C33_stale_message_answer",
    "Craft.C33_stale_message_state"
   ],
   "note": ""
  },
  {
   "property": "C34",
   "status": "proved",
   "theorems": [
    "Craft.C34_prevote_request",
    "Craft.C34_entering_precandidate"
   ],
   "note": ""
  },
  {
   "property": "C35",
   "status": "proved",
   "theorems": [
    "Craft.C35_lease",
    "Craft.C35_lease_after_heartbeat"
   ],
   "note": ""
  },
  {
   "property": "C36",
   "status": "proved",
   "theorems": [
    "Craft.C36_check_quorum",
    "Craft.C36_check_quorum_reachable"
   ],
   "note": ""
  },
  {
   "property": "C37",
   "status": "proved",
   "theorems": [
    "Craft.C37_quota",
    "Craft.C37_never_refused",
    "Craft.C37_refused_log",
    "Craft.C37_released",
    "Craft.C37_counted",
    "Craft.C37_exact",
    "Craft.C37_drained"
   ],
   "note": ""
  },
  {
   "property": "C38",
   "status": "proved",
   "theorems": [
    "Craft.C38_one_pending",
    "Craft.C38_refused"
   ],
   "note": ""
  },
  {
   "property": "C39",
   "status": "proved",
   "theorems": [
    "Craft.C39_propose",
    "Craft.C39_proposeConfChange"
   ],
   "note": ""
  },
  {
   "property": "C40",
   "status": "proved",
   "theorems": [
    "Craft.C40_tick",
    "Craft.C40_campaign",
    "Craft.C40_timeoutNow"
   ],
   "note": ""
  },
  {
   "property": "C41",
   "status": "proved",
   "theorems": [
    "Craft.C41_outgoing_messages"
   ],
   "note": ""
  },
  {
   "property": "C42",
   "status": "proved",
   "theorems": [
    "Craft.C42_local_refused",
    "Craft.C42_unknown_peer_refused",
    "Craft.C42_rest_passed"
   ],
   "note": ""
  },
  {
   "property": "C43",
   "status": "proved",
   "theorems": [
    "Craft.C43_has_ready_exact"
   ],
   "note": ""
  },
  {
   "property": "C44",
   "status": "proved",
   "theorems": [
    "Craft.C44_must_sync",
    "Craft.C44_no_loss",
    "Craft.C44_persisted"
   ],
   "note": ""
  },
  {
   "property": "C45",
   "status": "partial",
   "theorems": [
    "Craft.C45_bootstrap_false",
    "Craft.C45_bootstrap_no_peers_partial",
    "Craft.C45_bootstrap_committed_partial"
   ],
   "note": "The property is false of the code: Bootstrap reads the storage's last index and never looks at it. C45_bootstrap_false is a concrete counterexample (term goes back, persisted entry overwritten). Proved instead: an empty peer list is an error, and with a positive commit index Bootstrap aborts."
  },
  {
   "property": "C46",
   "status": "proved",
   "theorems": [
    "Craft.C46_timeout_range",
    "Craft.C46_timeout_configured",
    "Craft.C46_timeout_kept",
    "Craft.C46_no_early_campaign",
    "Craft.C46_campaign_at_timeout",
    "Craft.C46_campaign_starts",
    "Craft.C46_ticks_exact"
   ],
   "note": ""
  },
  {
   "property": "C47",
   "status": "proved",
   "theorems": [
    "Craft.Cluster.C47_election_safety"
   ],
   "note": ""
  },
  {
   "property": "C48",
   "status": "proved",
   "theorems": [
    "Craft.Cluster.C48_log_matching"
   ],
   "note": ""
  },
  {
   "property": "C49",
   "status": "proved",
   "theorems": [
    "Craft.Cluster.C49_leader_completeness"
   ],
   "note": ""
  },
  {
   "property": "C50",
   "status": "proved",
   "theorems": [
    "Craft.Cluster.C50_state_machine_safety"
   ],
   "note": ""
  },
  {
   "property": "C51",
   "status": "proved",
   "theorems": [
    "Craft.C51_restart"
   ],
   "note": ""
  },
  {
   "property": "C52",
   "status": "proved",
   "theorems": [
    "Craft.Cluster.C52_never_aborts",
    "Craft.Cluster.C52_calls_return"
   ],
   "note": "Fixed membership; Live = executions of Spec/Live.lean (made-up messages excluded; membership messages parse; compaction not beyond the snapshot)."
  },
  {
   "property": "C53",
   "status": "proved",
   "theorems": [
    "Craft.Cluster.C53_read_index_linearizable",
    "Craft.Cluster.C53_needs_distinct_requests"
   ],
   "note": "Proved for clusters with fixed membership, safe reads, and distinct (leader, context) requests; C53_needs_distinct_requests is a concrete execution showing that the last condition cannot be dropped (a duplicated MsgReadIndex plus a duplicated MsgHeartbeatResp makes a deposed leader answer with a stale index)."
  },
  {
   "property": "C54",
   "status": "proved",
   "theorems": [
    "Craft.C54_round_sends",
    "Craft.C54_terminates",
    "Craft.C54_bound_immaterial",
    "Craft.C54_model_bound"
   ],
   "note": ""
  },
  {
   "property": "C55",
   "status": "proved",
   "theorems": [
    "Craft.Dyn.C55_election_safety_members"
   ],
   "note": ""
  },
  {
   "property": "C56",
   "status": "proved",
   "theorems": [
    "Craft.Dyn.C56_log_matching_members"
   ],
   "note": ""
  },
  {
   "property": "C57",
   "status": "proved",
   "theorems": [
    "Craft.Dyn.C57_leader_completeness_members"
   ],
   "note": ""
  },
  {
   "property": "C58",
   "status": "proved",
   "theorems": [
    "Craft.Dyn.C58_state_machine_safety_members"
   ],
   "note": ""
  },
  {
   "property": "C59",
   "status": "proved",
   "theorems": [
    "Craft.Dyn.C59_configuration_history"
   ],
   "note": "What conf changes do is specified in Spec/Members.lean (Changed), in terms of sets of ids."
  },
  {
   "property": "C60",
   "status": "proved",
   "theorems": [
    "Craft.Dyn.C60_one_conf_change"
   ],
   "note": ""
  },
  {
   "property": "C61",
   "status": "proved",
   "theorems": [
    "Craft.Dyn.C61_election_safety_bootstrapped"
   ],
   "note": ""
  },
  {
   "property": "C62",
   "status": "proved",
   "theorems": [
    "Craft.Dyn.C62_log_matching_bootstrapped"
   ],
   "note": ""
  },
  {
   "property": "C63",
   "status": "proved",
   "theorems": [
    "Craft.Dyn.C63_leader_completeness_bootstrapped"
   ],
   "note": ""
  },
  {
   "property": "C64",
   "status": "proved",
   "theorems": [
    "Craft.Dyn.C64_state_machine_safety_bootstrapped"
   ],
   "note": ""
  },
  {
   "property": "C65",
   "status": "proved",
   "theorems": [
    "Craft.Dyn.C65_configuration_history_bootstrapped"
   ],
   "note": ""
  },
  {
   "property": "C66",
   "status": "proved",
   "theorems": [
    "Craft.Dyn.C66_bootstrap_prefix"
   ],
   "note": ""
  },
  {
   "property": "C67",
   "status": "proved",
   "theorems": [
    "Craft.Dyn.C67_read_index_linearizable_members",
    "Craft.Dyn.C67_removed_leader_stale_read"
   ],
   "note": "The condition on single-voter configurations is necessary: C67_removed_leader_stale_read is a concrete execution where a leader that removed itself answers a read from its own commit index. Actions as in Spec/MembersLive.lean (no made-up messages)."
  },
  {
   "property": "C68",
   "status": "proved",
   "theorems": [
    "Craft.C68_which_changes_apply"
   ],
   "note": ""
  },
  {
   "property": "C69",
   "status": "proved",
   "theorems": [
    "Craft.Dyn.C69_never_aborts_members",
    "Craft.Dyn.C69_demoted_leader_crashes",
    "Craft.Dyn.C69_explicit_leave_aborts"
   ],
   "note": ""
  },
  {
   "property": "C70",
   "status": "proved",
   "theorems": [
    "Craft.C70_request",
    "Craft.C70_removed_target",
    "Craft.C70_campaigns",
    "Craft.C70_timeout_now",
    "Craft.C70_only_on_request",
    "Craft.C70_gives_up"
   ],
   "note": ""
  },
  {
   "property": "C71",
   "status": "proved",
   "theorems": [
    "Craft.C71_vote_requests",
    "Craft.C71_pre_vote_requests"
   ],
   "note": ""
  },
  {
   "property": "C72",
   "status": "proved",
   "theorems": [
    "Craft.C72_commit_prompt"
   ],
   "note": ""
  },
  {
   "property": "C73",
   "status": "proved",
   "theorems": [
    "Craft.Cluster.C73_recovers"
   ],
   "note": ""
  },
  {
   "property": "C74",
   "status": "proved",
   "theorems": [
    "Craft.C74_node",
    "Craft.Dyn.C74_members",
    "Craft.Dyn.C74_bootstrapped",
    "Craft.Cluster.C74_reported_leader"
   ],
   "note": ""
  },
  {
   "property": "C75",
   "status": "proved",
   "theorems": [
    "Craft.C75_fresh_timeouts"
   ],
   "note": ""
  },
  {
   "property": "C76",
   "status": "proved",
   "theorems": [
    "Craft.Given.C76_entries",
    "Craft.Given.C76_snapshots"
   ],
   "note": "Almost no conditions on the environment; see Spec/Given.lean."
  },
  {
   "property": "C77",
   "status": "partial",
   "theorems": [
    "Craft.C77_reuse_false",
    "Craft.C77_retry_false",
    "Craft.C77_others_partial",
    "Craft.C77_accepted_partial"
   ],
   "note": "The property is FALSE of the code; C77_reuse_false (a follower acknowledges an entry it lacks) and C77_retry_false (a proposal is accepted with its data gone) are concrete negations. Proved: types other than append, snapshot, proposal are left alone (C77_others_partial); an accepted append may be handed in again (C77_accepted_partial)."
  },
  {
   "property": "C78",
   "status": "proved",
   "theorems": [
    "Craft.C78_flow_control",
    "Craft.C78_window_configured",
    "Craft.C78_window"
   ],
   "note": "Over all reachable leaders; calls of any kind except messages from, or reports about, the silent peer, and except conf changes being applied."
  },
  {
   "property": "C79",
   "status": "proved",
   "theorems": [
    "Craft.C79_unreachable",
    "Craft.C79_snapshot",
    "Craft.C79_retry"
   ],
   "note": "Every node state, no reachability assumed; C79_retry needs a well-formed log (invariant, C52)."
  },
  {
   "property": "C80",
   "status": "proved",
   "theorems": [
    "Craft.C80_records"
   ],
   "note": "No reachability assumed. That every member has a record is part of C10/C12 (ConfInv)."
  },
  {
   "property": "C81",
   "status": "proved",
   "theorems": [
    "Craft.C81_first_answer",
    "Craft.C81_counts"
   ],
   "note": "The configuration invariant ConfInv (C10) is assumed for the counts."
  },
  {
   "property": "C82",
   "status": "proved",
   "theorems": [
    "Craft.Dyn.C82_read_index_linearizable_boot"
   ],
   "note": ""
  },
  {
   "property": "C83",
   "status": "proved",
   "theorems": [
    "Craft.Dyn.C83_never_aborts_boot",
    "Craft.Dyn.C83_bootstrap_runs"
   ],
   "note": ""
  },
  {
   "property": "C84",
   "status": "proved",
   "theorems": [
    "Craft.C84_crash_between",
    "Craft.C84_torn_entries",
    "Craft.C84_torn_snapshot",
    "Craft.C84_hard_state_first"
   ],
   "note": ""
  },
  {
   "property": "C85",
   "status": "proved",
   "theorems": [
    "Craft.Dyn.C85_match_is_durable",
    "Craft.Dyn.C85_match_is_durable_boot",
    "Craft.Dyn.C85_report_is_tidy",
    "Craft.Dyn.C85_report_is_tidy_boot"
   ],
   "note": ""
  },
  {
   "property": "C86",
   "status": "proved",
   "theorems": [
    "Craft.Proto.C86_message_schema",
    "Craft.Proto.C86_entry_schema",
    "Craft.Proto.C86_hardState_schema",
    "Craft.Proto.C86_confState_schema",
    "Craft.Proto.C86_snapshotMetadata_schema",
    "Craft.Proto.C86_snapshot_schema",
    "Craft.Proto.C86_confChange_schema",
    "Craft.Proto.C86_confChangeSingle_schema",
    "Craft.Proto.C86_confChangeV2_schema",
    "Craft.Proto.C86_message_understood",
    "Craft.Proto.C86_hardState_understood",
    "Craft.Proto.C86_entry_understood",
    "Craft.Proto.C86_snapshot_understood",
    "Craft.Proto.C86_confChange_understood",
    "Craft.Proto.C86_confChangeV2_understood",
    "Craft.Pb.C86_message_roundtrip",
    "Craft.Pb.C86_entry_roundtrip",
    "Craft.Pb.C86_hardState_roundtrip",
    "Craft.Pb.C86_snapshot_roundtrip",
    "Craft.Pb.C86_snapshotMetadata_roundtrip",
    "Craft.Pb.C86_confState_roundtrip",
    "Craft.Pb.C86_confChange_roundtrip",
    "Craft.Pb.C86_confChangeSingle_roundtrip",
    "Craft.Pb.C86_confChangeV2_roundtrip",
    "Craft.Pb.C86_entry_newer",
    "Craft.Pb.C86_hardState_newer",
    "Craft.Pb.C86_confState_newer",
    "Craft.Pb.C86_snapshotMetadata_newer",
    "Craft.Pb.C86_snapshot_newer",
    "Craft.Pb.C86_message_newer",
    "Craft.Pb.C86_confChange_newer",
    "Craft.Pb.C86_confChangeSingle_newer",
    "Craft.Pb.C86_confChangeV2_newer",
    "Craft.Pb.C86_unknown_kind_adds"
   ],
   "note": ""
  },
  {
   "property": "C87",
   "status": "proved",
   "theorems": [
    "Craft.Pb.C87_conf_change_arrives",
    "Craft.Pb.C87_conf_change_readable",
    "Craft.Pb.C87_never_aborts_members",
    "Craft.Pb.C87_never_aborts_boot"
   ],
   "note": ""
  },
  {
   "property": "C88",
   "status": "proved",
   "theorems": [
    "Craft.C88_cut_off"
   ],
   "note": ""
  },
  {
   "property": "C89",
   "status": "proved",
   "theorems": [
    "Craft.C89_configuration_valid"
   ],
   "note": ""
  },
  {
   "property": "C90",
   "status": "proved",
   "theorems": [
    "Craft.C90_lost_quorum"
   ],
   "note": ""
  },
  {
   "property": "C91",
   "status": "proved",
   "theorems": [
    "Craft.C91_heartbeats"
   ],
   "note": ""
  },
  {
   "property": "C92",
   "status": "proved",
   "theorems": [
    "Craft.C92_looked_after"
   ],
   "note": ""
  },
  {
   "property": "C93",
   "status": "proved",
   "theorems": [
    "Craft.C93_members_nodes",
    "Craft.C93_boot_nodes",
    "Craft.C93_cluster_nodes",
    "Craft.C93_guarantees",
    "Craft.C93_members_guarantees",
    "Craft.C93_boot_guarantees",
    "Craft.C93_cluster_guarantees"
   ],
   "note": ""
  },
  {
   "property": "C94",
   "status": "proved",
   "theorems": [
    "Craft.C94_minority_contained",
    "Craft.C94_boot"
   ],
   "note": ""
  },
  {
   "property": "C95",
   "status": "proved",
   "theorems": [
    "Craft.C95_size_limits"
   ],
   "note": ""
  },
  {
   "property": "C96",
   "status": "proved",
   "theorems": [
    "Craft.Cluster.C96_lease_read",
    "Craft.Cluster.C96_lease_read_current",
    "Craft.Cluster.C96_lease_outlives_followers"
   ],
   "note": ""
  },
  {
   "property": "C97",
   "status": "proved",
   "theorems": [
    "Craft.Dyn.C97_lease_read_members",
    "Craft.Dyn.C97_lease_read_boot"
   ],
   "note": ""
  },
  {
   "property": "C98",
   "status": "proved",
   "theorems": [
    "Craft.Handed.C98_not_multiplied",
    "Craft.Handed.C98_once"
   ],
   "note": ""
  },
  {
   "property": "C99",
   "status": "proved",
   "theorems": [
    "Craft.Dyn.C99_replicated_machine",
    "Craft.Dyn.C99_replicated_machine_boot"
   ],
   "note": ""
  },
  {
   "property": "C100",
   "status": "proved",
   "theorems": [
    "Craft.Dyn.C100_linearizable",
    "Craft.Dyn.C100_linearizable_boot"
   ],
   "note": ""
  },
  {
   "property": "C101",
   "status": "proved",
   "theorems": [
    "Craft.Given.C101_terms",
    "Craft.Given.C101_step",
    "Craft.Given.C101_no_wrap"
   ],
   "note": ""
  },
  {
   "property": "C102",
   "status": "proved",
   "theorems": [
    "Craft.Dyn.C102_lease_linearizable",
    "Craft.Dyn.C102_lease_linearizable_boot"
   ],
   "note": ""
  },
  {
   "property": "C103",
   "status": "proved",
   "theorems": [
    "Craft.C103_in_order",
    "Craft.C103_taken"
   ],
   "note": ""
  }
 ]
}