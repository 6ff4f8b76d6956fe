{
 "C06": {
  "note": "The property is FALSE of the code; C06_inflights_every_size_false is the negation (int32 truncation of the configured window); C06_inflights_partial proves it for sizes up to 2^30."
 },
 "C08": {
  "note": "The property is FALSE of the code for arbitrary response sequences; C08_match_lt_next_false is the negation (a delayed rejection sets Next at or below Match); C08_match_lt_next_partial proves it without such a rejection."
 },
 "C19": {
  "note": "The property is FALSE of the code; C19_snapshot_stable_false is the negation (CreateSnapshot mutates the snapshot object already handed out); C19_snapshot_stable_partial proves stability for callers that do not call CreateSnapshot while holding one."
 },
 "C45": {
  "note": "The property is false of the code: Bootstrap reads the storage's last index and never looks at it. C45_bootstrap_false is a concrete counterexample (term goes back, persisted entry overwritten). Proved instead: an empty peer list is an error, and with a positive commit index Bootstrap aborts."
 },
 "C52": {
  "note": "Fixed membership; Live = executions of Spec/Live.lean (made-up messages excluded; membership messages parse; compaction not beyond the snapshot)."
 },
 "C53": {
  "note": "Proved for clusters with fixed membership, safe reads, and distinct (leader, context) requests; C53_needs_distinct_requests is a concrete execution showing that the last condition cannot be dropped (a duplicated MsgReadIndex plus a duplicated MsgHeartbeatResp makes a deposed leader answer with a stale index)."
 },
 "C59": {
  "note": "What conf changes do is specified in Spec/Members.lean (Changed), in terms of sets of ids."
 },
 "C67": {
  "note": "The condition on single-voter configurations is necessary: C67_removed_leader_stale_read is a concrete execution where a leader that removed itself answers a read from its own commit index. Actions as in Spec/MembersLive.lean (no made-up messages)."
 },
 "C77": {
  "note": "The property is FALSE of the code; C77_reuse_false (a follower acknowledges an entry it lacks) and C77_retry_false (a proposal is accepted with its data gone) are concrete negations. Proved: types other than append, snapshot, proposal are left alone (C77_others_partial); an accepted append may be handed in again (C77_accepted_partial)."
 },
 "C76": {
  "note": "Almost no conditions on the environment; see Spec/Given.lean."
 },
 "C78": {
  "note": "Over all reachable leaders; calls of any kind except messages from, or reports about, the silent peer, and except conf changes being applied."
 },
 "C79": {
  "note": "Every node state, no reachability assumed; C79_retry needs a well-formed log (invariant, C52)."
 },
 "C80": {
  "note": "No reachability assumed. That every member has a record is part of C10/C12 (ConfInv)."
 },
 "C81": {
  "note": "The configuration invariant ConfInv (C10) is assumed for the counts."
 }
}