{"id": "C01", "title": "Majority commit index is exact", "statement": "MajorityConfig::CommittedIndex returns the largest index that a strict majority of the configured voters have acknowledged (a voter that reported nothing counts as having acknowledged 0); for the empty configuration it returns UINT64_MAX.", "quantifier": "every finite voter set, every partial map voter->acked index", "why_tests_cant": "ack maps and voter sets are infinite; the sort/stack-buffer logic must be right for every size, including n>7", "anchors": ["src/quorum/majority.cc: MajorityConfig::CommittedIndex, insertionSort"]}
{"id": "C02", "title": "Majority vote result is exact and final", "statement": "VoteResult is Won iff a strict majority voted yes, Lost iff a strict majority of yes is no longer possible, Pending otherwise; once Won or Lost, further votes from voters that had not voted cannot change it.", "quantifier": "every voter set, every vote map and every extension of it", "why_tests_cant": "all extensions of all vote maps cannot be enumerated", "anchors": ["src/quorum/majority.cc: MajorityConfig::VoteResult"]}
{"id": "C03", "title": "Joint quorum decisions need both halves", "statement": "JointConfig::CommittedIndex is the largest index acknowledged by a majority of each non-empty half; VoteResult is Won iff both halves are won, Lost iff one is lost, Pending otherwise.", "quantifier": "every pair of voter sets, ack map and vote map", "why_tests_cant": "unbounded configurations", "anchors": ["src/quorum/joint.cc: JointConfig::CommittedIndex, JointConfig::VoteResult"]}
{"id": "C04", "title": "Two elections cannot both be won", "statement": "If each voter supports at most one of two candidates then the vote cannot be Won for both, for majority and for joint configurations; equivalently any two winning sets of voters share a voter.", "quantifier": "every non-empty configuration and every pair of vote maps", "why_tests_cant": "quorum intersection is a statement about all pairs of subsets", "anchors": ["src/quorum/majority.cc: VoteResult", "src/quorum/joint.cc: VoteResult"]}
{"id": "C05", "title": "Inflights is a bounded FIFO window", "statement": "Through any sequence of Add (when not Full), FreeLE, FreeFirstOne and Reset the Inflights ring buffer behaves like a bounded FIFO of indexes: Add appends, FreeLE(to) removes the longest prefix of elements <= to, Count is its length and Full iff the length equals the size; it never indexes outside its buffer. (Sizes up to 2^30.)", "quantifier": "every size and every operation sequence", "why_tests_cant": "ring wrap-around combined with on-demand growth has unboundedly many states", "anchors": ["src/tracker/inflights.cc", "src/tracker/inflights.h"]}
{"id": "C06", "title": "Inflights is correct for every accepted size", "statement": "The FIFO-window behaviour of C05 holds for every max_inflight_msgs that Config::Validate accepts (any positive int64).", "quantifier": "every positive int64 size and operation sequence", "why_tests_cant": "needs sizes above 2^31 that tests do not exercise", "anchors": ["src/tracker/inflights.cc: Inflights::Add", "src/raft.cc: Raft::Config::Validate"]}
{"id": "C07", "title": "Replication progress: match only moves forward", "statement": "MaybeUpdate/MaybeDecrTo/OptimisticUpdate/Become* never decrease a peer's Match; MaybeUpdate returns true exactly if the acked index is new; a genuine rejection never raises Next and leaves Next >= 1.", "quantifier": "every Progress state and operation sequence", "why_tests_cant": "operation sequences are unbounded", "anchors": ["src/tracker/progress.cc"]}
{"id": "C08", "title": "Replication progress: Match < Next", "statement": "In every Progress reached from a freshly initialised one, Match < Next.", "quantifier": "every sequence of Progress operations", "why_tests_cant": "depends on stale/duplicated rejections arriving in any order", "anchors": ["src/tracker/progress.cc: Progress::MaybeDecrTo"]}
{"id": "C09", "title": "Flow control decision is exact", "statement": "A peer is paused iff it is probing with a probe outstanding, replicating with a full inflight window, or waiting for a snapshot; in probe state sending an append with entries pauses the peer until it answers, and in replicate state the inflight window never holds more than max_inflight_msgs appends, each append with entries taking a place (an acknowledgement frees the places up to its index, a heartbeat response of a peer with a full window frees one).", "quantifier": "every sequence of sends and responses", "why_tests_cant": "unbounded histories", "anchors": ["src/tracker/progress.cc: Progress::IsPaused", "src/raft.cc: Raft::MaybeSendAppend"]}
{"id": "C10", "title": "Configuration changes preserve the configuration invariants", "statement": "Every successful Simple/EnterJoint/LeaveJoint yields a configuration where learners and voters are disjoint, every staged learner is an outgoing voter, every member has a Progress, nothing is staged and auto_leave is off when not joint; on any error the input configuration is unchanged. A configuration that is not acceptable (a member without Progress, a learner that is a voter or not marked as a learner, a staged learner that is no outgoing voter or marked as a learner, something staged or auto_leave outside a joint configuration) is refused by all three, whatever the changes, and Simple and EnterJoint refuse changes to a valid one only when it is joint, when no voter would remain or, for Simple, when more than one voter would change.", "quantifier": "every starting configuration satisfying the invariants, every list of changes", "why_tests_cant": "configurations and change lists are unbounded", "anchors": ["src/confchange/confchange.cc: Changer::Simple, EnterJoint, LeaveJoint, CheckInvariants"]}
{"id": "C11", "title": "Simple changes keep quorums overlapping", "statement": "A successful Simple change adds or removes at most one voter, so every majority of the old voters intersects every majority of the new ones.", "quantifier": "every configuration and change list", "why_tests_cant": "all pairs of quorums of all configurations", "anchors": ["src/confchange/confchange.cc: Changer::Simple, Symdiff"]}
{"id": "C12", "title": "Joint transitions are what the thesis prescribes", "statement": "EnterJoint makes the outgoing half the previous voters and applies the changes to the incoming half only; LeaveJoint keeps exactly the incoming voters; every joint quorum contains a majority of the old and of the new voters.", "quantifier": "every configuration and change list", "why_tests_cant": "all configurations", "anchors": ["src/confchange/confchange.cc: Changer::EnterJoint, LeaveJoint"]}
{"id": "C13", "title": "The last voter cannot be removed", "statement": "No successful configuration change results in a configuration without voters.", "quantifier": "every configuration and change list", "why_tests_cant": "unbounded inputs", "anchors": ["src/confchange/confchange.cc: Changer::Apply"]}
{"id": "C14", "title": "ConfState restore round-trip", "statement": "Restoring a tracker from the ConfState reported for any configuration satisfying the invariants succeeds and reproduces exactly that configuration.", "quantifier": "every valid configuration (joint or not)", "why_tests_cant": "unbounded configurations; the chain of Simple/EnterJoint calls must never fail", "anchors": ["src/confchange/restore.cc: Restore, toConfChangeSingle", "src/tracker/tracker.cc: ProgressTracker::ConfState"]}
{"id": "C15", "title": "Conf-change text round-trip", "statement": "ConfChangesFromString(ConfChangesToString(ccs)) returns ccs for every list of known-type changes with 64-bit ids.", "quantifier": "every list of changes", "why_tests_cant": "all strings", "anchors": ["src/raftpb/confchange.cc: ConfChangesFromString, ConfChangesToString"]}
{"id": "C16", "title": "ConfState equality is set-like equality", "statement": "operator== on ConfState holds iff the four id lists are equal up to order (with multiplicity) and auto_leave agrees; it is an equivalence.", "quantifier": "every pair of ConfStates", "why_tests_cant": "all permutations of unbounded lists", "anchors": ["src/raftpb/confstate.cc: operator=="]}
{"id": "C17", "title": "LimitSize keeps a maximal prefix", "statement": "LimitSize returns a prefix of its input, non-empty if the input is, whose total size is within the limit unless it is a single entry, and which cannot be extended (the last two provided the sizes do not add up to 2^64 or more; otherwise the 64-bit sum wraps around).", "quantifier": "every entry list, size function and limit", "why_tests_cant": "unbounded inputs", "anchors": ["src/util.cc: Util::LimitSize"]}
{"id": "C18", "title": "MemoryStorage behaves as a log", "statement": "After any sequence of Append/Compact/ApplySnapshot/CreateSnapshot accepted by the storage, entries are contiguous, FirstIndex/LastIndex/Term/Entries agree with one abstract log, and Append replaces exactly the suffix starting at its first index.", "quantifier": "every operation sequence", "why_tests_cant": "unbounded histories, overlapping appends around the compaction point", "anchors": ["src/storage.cc: MemoryStorage"]}
{"id": "C19", "title": "Returned snapshots are stable", "statement": "A snapshot obtained from MemoryStorage::SnapShot() is not changed by later storage operations.", "quantifier": "every operation sequence", "why_tests_cant": "aliasing bug visible only for particular interleavings", "anchors": ["src/storage.cc: MemoryStorage::CreateSnapshot, SnapShot"]}
{"id": "C20", "title": "The unstable/stable split is invisible", "statement": "RaftLog::FirstIndex, LastIndex, Term, Slice/Entries answer as one contiguous log made of storage overlaid with the unstable part; persisting the unstable entries and acknowledging them does not change any answer.", "quantifier": "every well-formed storage + unstable state", "why_tests_cant": "unbounded logs and all positions of the stable/unstable boundary", "anchors": ["src/log.cc", "src/log_unstable.cc"]}
{"id": "C21", "title": "MaybeAppend implements the AppendEntries rule", "statement": "MaybeAppend succeeds iff the log has the given term at the given index; then the log agrees with the given entries, entries before the first conflict are untouched, nothing is truncated when there is no conflict, and commit becomes max(old, min(leader commit, last new index)); otherwise nothing changes.", "quantifier": "every log, index, term, commit and contiguous entry list", "why_tests_cant": "unbounded logs", "anchors": ["src/log.cc: RaftLog::MaybeAppend, FindConflict, Append"]}
{"id": "C22", "title": "Committed entries are never overwritten", "statement": "No log operation (append, maybe-append, truncate, restore of a newer snapshot) changes or removes an entry at or below the commit index; the code aborts instead.", "quantifier": "every log state and operation", "why_tests_cant": "all histories", "anchors": ["src/log.cc: RaftLog::Append, MaybeAppend"]}
{"id": "C23", "title": "Commit and applied are monotone and ordered", "statement": "applied <= committed <= last_index and first_index-1 <= committed in every reachable log, first_index-1 <= applied unless a received snapshot is still pending, and committed and applied never decrease.", "quantifier": "every sequence of log operations", "why_tests_cant": "all histories", "anchors": ["src/log.cc: CommitTo, AppliedTo, MaybeCommit, Restore"]}
{"id": "C24", "title": "Committed entries are delivered once, in order, without gaps", "statement": "Successive Ready batches hand out exactly the committed entries after the applied index, in index order, each exactly once, however pagination by size splits them; if any is outstanding the batch is non-empty.", "quantifier": "every log, commit sequence and size limit", "why_tests_cant": "unbounded sequences of Ready/Advance", "anchors": ["src/log.cc: NextEnts, HasNextEnts", "src/rawnode.cc: NewReady, Advance", "src/raft.cc: Raft::Advance"]}
{"id": "C25", "title": "Conflict search is exact and terminates", "statement": "FindConflictByTerm(index, term) terminates and returns the largest index i <= index with term(i) <= term.", "quantifier": "every log, index, term", "why_tests_cant": "loop termination over every log", "anchors": ["src/log.cc: RaftLog::FindConflictByTerm"]}
{"id": "C26", "title": "Up-to-date check is the Raft order", "statement": "IsUpToData(lasti, term) holds iff (term, lasti) is lexicographically >= the log's last (term, index): a total preorder.", "quantifier": "every log and candidate position", "why_tests_cant": "all inputs", "anchors": ["src/log.cc: RaftLog::IsUpToData"]}
{"id": "C27", "title": "Read-only queue is FIFO and consistent", "statement": "Through any sequence of AddRequest/RecvAck/Advance the pending map and queue hold the same contexts without duplicates, Advance(ctx) returns exactly the requests up to and including ctx in arrival order, and never aborts.", "quantifier": "every operation sequence", "why_tests_cant": "unbounded sequences", "anchors": ["src/read_only.cc"]}
{"id": "C28", "title": "Term never decreases", "statement": "No API call (Step, Tick, Campaign, Propose, Ready, Advance, ApplyConfChange, ...) on a running node decreases its term.", "quantifier": "every node state and call", "why_tests_cant": "all message sequences", "anchors": ["src/raft.cc: Raft::Step and handlers"]}
{"id": "C29", "title": "At most one vote per term", "statement": "While the term stays the same a node's recorded vote never changes once cast; a vote is granted only to the recorded candidate and only if its log is at least as up to date.", "quantifier": "every node state and call sequence", "why_tests_cant": "all message interleavings", "anchors": ["src/raft.cc: Raft::Step, BecomeCandidate, Reset"]}
{"id": "C30", "title": "Commit never decreases", "statement": "No API call decreases the commit index reported in the HardState.", "quantifier": "every node state and call", "why_tests_cant": "all histories", "anchors": ["src/raft.cc", "src/log.cc"]}
{"id": "C31", "title": "Leader append-only", "statement": "While a node is leader of a term no call removes or changes an entry of its log.", "quantifier": "every call sequence during a leadership", "why_tests_cant": "all histories", "anchors": ["src/raft.cc: StepLeader, AppendEntry"]}
{"id": "C32", "title": "A leader only commits entries of its own term by counting", "statement": "A leader advances its commit index to i only if the entry at i has its current term and a quorum has Match >= i.", "quantifier": "every leader state and response", "why_tests_cant": "all ack histories", "anchors": ["src/raft.cc: Raft::MaybeCommit", "src/log.cc: RaftLog::MaybeCommit"]}
{"id": "C33", "title": "Stale messages have no effect", "statement": "A message with a lower non-zero term leaves term, vote, role, log, commit, leader and timers unchanged. With check_quorum or pre_vote on, the sender of a stale append or heartbeat (a deposed leader) is told the term with an empty MsgAppResp; the sender of a stale pre-vote is refused; nothing else is answered.", "quantifier": "every node state and message", "why_tests_cant": "all inputs", "anchors": ["src/raft.cc: Raft::Step"]}
{"id": "C34", "title": "Pre-vote is side-effect free", "statement": "Handling MsgPreVote changes nothing but the outbox; entering the pre-candidate state changes neither term nor vote.", "quantifier": "every node state and message", "why_tests_cant": "all inputs", "anchors": ["src/raft.cc: Raft::Step, BecomePreCandidate"]}
{"id": "C35", "title": "Leader lease protects a live leader", "statement": "With check_quorum on, a node that heard from a leader within the election timeout ignores non-transfer vote and pre-vote requests of higher terms entirely.", "quantifier": "every node state and request", "why_tests_cant": "all inputs", "anchors": ["src/raft.cc: Raft::Step"]}
{"id": "C36", "title": "CheckQuorum steps down a partitioned leader", "statement": "When an election timeout passes, a leader with check_quorum that has not heard from a quorum of voters becomes follower in the same term; otherwise it stays leader.", "quantifier": "every leader state", "why_tests_cant": "all activity histories", "anchors": ["src/raft.cc: Raft::TickHeartbeat, StepLeader MsgCheckQuorum", "src/tracker/tracker.cc: QuorumActive"]}
{"id": "C37", "title": "Uncommitted size quota", "statement": "A leader refuses a non-empty proposal that would push a non-zero uncommitted size over the limit and never refuses empty payloads or a proposal when the size is zero; a refused proposal leaves the log unchanged and is reported as dropped. What it counts is never more than the data in its log that has not been applied, so that a leader that has applied everything refuses nothing for its size; what it does not count of that can only get less during its leadership, and from a moment on when it had nothing unapplied the size it compares with the limit is exactly the unapplied data in its log.", "quantifier": "every leader state and proposal; every history of the node", "why_tests_cant": "unbounded sizes and histories", "anchors": ["src/raft.cc: IncreaseUncommittedSize, ReduceUncommittedSize, AppendEntry, StepLeader MsgProp"]}
{"id": "C38", "title": "At most one configuration change in flight", "statement": "A leader never appends a configuration-change entry while an earlier one may be unapplied: above its applied index its log tail since becoming leader contains at most one configuration-change entry, refused ones become empty normal entries.", "quantifier": "every leader state and proposal sequence", "why_tests_cant": "all histories", "anchors": ["src/raft.cc: StepLeader MsgProp, BecomeLeader, Advance"]}
{"id": "C39", "title": "Proposals are dropped, never lost silently", "statement": "Propose returns the dropped error when there is no leader, forwarding is disabled, the node is a (pre)candidate, a leadership transfer is in progress, the node left the configuration or the quota is exceeded; on OK the entry is in the log (leader) or a forward to the leader is in the outbox (follower).", "quantifier": "every node state and proposal", "why_tests_cant": "all states", "anchors": ["src/raft.cc: StepLeader, StepFollower, StepCandidate"]}
{"id": "C40", "title": "Learners and removed nodes never campaign", "statement": "A node that is a learner, not in the configuration, or has an unapplied snapshot never starts an election from a tick, Campaign or MsgTimeoutNow.", "quantifier": "every node state and input", "why_tests_cant": "all inputs", "anchors": ["src/raft.cc: Raft::Promotable, Hup, TickElection"]}
{"id": "C41", "title": "Outgoing messages are well-formed", "statement": "Every message in the outbox has this node (or the forwarded origin) as sender and carries the sender's current term, except proposals and read-index forwards (term 0), pre-vote requests (term+1) and granted pre-vote responses (the requested term).", "quantifier": "every call", "why_tests_cant": "all messages of all executions", "anchors": ["src/raft.cc: Raft::Send"]}
{"id": "C42", "title": "RawNode::Step filters", "statement": "RawNode::Step refuses local message types and responses from unknown peers without changing the node.", "quantifier": "every node and message", "why_tests_cant": "all inputs", "anchors": ["src/rawnode.cc: RawNode::Step", "src/util.cc: IsLocalMsg, IsResponseMsg"]}
{"id": "C43", "title": "HasReady is exact", "statement": "HasReady is true iff the Ready that would be returned contains an update.", "quantifier": "every node state", "why_tests_cant": "all states", "anchors": ["src/rawnode.cc: HasReady, NewReady"]}
{"id": "C44", "title": "MustSync never misses durable state", "statement": "A Ready with must_sync = false contains no entries and does not change term or vote relative to the last acknowledged HardState.", "quantifier": "every node state", "why_tests_cant": "all states", "anchors": ["src/rawnode.cc: MustSync, NewReady"]}
{"id": "C45", "title": "Bootstrap refuses non-empty storage", "statement": "Bootstrap returns an error if the storage is non-empty.", "quantifier": "every storage", "why_tests_cant": "documented contract over all storages", "anchors": ["src/rawnode.h: RawNode::Bootstrap", "src/rawnode.cc: RawNode::Bootstrap"]}
{"id": "C46", "title": "Election timeout is randomised within bounds", "statement": "Whenever a node resets its election timer its timeout lies in [election_tick, 2*election_tick-1], and ticks alone make a promotable follower campaign exactly when that many ticks passed.", "quantifier": "every random stream and tick sequence", "why_tests_cant": "all random outcomes", "anchors": ["src/raft.cc: ResetRandomizedElectionTimeout, TickElection, PastElectionTimeout"]}
{"id": "C47", "title": "Election safety", "statement": "At most one node is leader in any term, whatever messages are lost, duplicated, delayed or reordered and wherever nodes crash and restart (membership fixed).", "quantifier": "every cluster size, schedule, crash point", "why_tests_cant": "unbounded executions of many nodes", "anchors": ["src/raft.cc", "src/rawnode.cc"]}
{"id": "C48", "title": "Log matching", "statement": "If two logs of a cluster with fixed membership (on a node's disk, in a running node's memory, or of a past leader) have the same term at an index, they agree on that entry and everything before it that neither has compacted.", "quantifier": "every cluster, schedule, crash point", "why_tests_cant": "unbounded executions", "anchors": ["src/raft.cc", "src/log.cc"]}
{"id": "C49", "title": "Leader completeness", "statement": "Every entry handed to an application or recorded as committed on a disk is in the log of every leader of a later term (membership fixed), unless already compacted there.", "quantifier": "every cluster, schedule, crash point", "why_tests_cant": "unbounded executions", "anchors": ["src/raft.cc"]}
{"id": "C50", "title": "State machine safety", "statement": "No two nodes ever hand different entries for the same index to their applications, across crashes and restarts (membership fixed).", "quantifier": "every cluster, schedule, crash point", "why_tests_cant": "unbounded executions", "anchors": ["src/raft.cc", "src/rawnode.cc", "src/log.cc"]}
{"id": "C51", "title": "Restart restores the persisted state", "statement": "Raft::New on storage written by a previous incarnation starts a follower with the persisted term, vote, commit and log, and does not abort.", "quantifier": "every persisted state", "why_tests_cant": "all crash points", "anchors": ["src/raft.cc: Raft::New, LoadState", "src/log.cc: RaftLog::RaftLog"]}
{"id": "C52", "title": "A cluster never aborts itself", "statement": "In any execution of nodes (fixed membership) that follow the Ready contract no node reaches a fatal abort or undefined behaviour.", "quantifier": "every cluster, schedule, crash point", "why_tests_cant": "unbounded executions", "anchors": ["src/raft.cc", "src/log.cc", "src/log_unstable.cc", "src/storage.cc"]}
{"id": "C53", "title": "ReadIndex is linearizable (safe option)", "statement": "With the safe option, and if no leader is handed the same request context twice, the read index a Ready reports for a context covers everything that was committed before the first request with this context reached a leader: every entry any application had received, and every index any disk recorded as committed. (Without distinct requests this is false: see C53_needs_distinct_requests.)", "quantifier": "every execution of a cluster of any size (crashes, restarts, lost, duplicated, delayed and reordered messages), every moment before the request, every node that reports the read", "why_tests_cant": "unbounded executions", "anchors": ["src/raft.cc: MsgReadIndex, MsgHeartbeatResp", "src/read_only.cc"]}
{"id": "C54", "title": "Sending loop terminates", "statement": "The `while (MaybeSendAppend(from,false))` loop terminates for every leader state, and each iteration sends at least one new entry.", "quantifier": "every leader state", "why_tests_cant": "non-termination cannot be tested", "anchors": ["src/raft.cc: StepLeader MsgAppResp"]}
{"id": "C55", "title": "Election safety while the membership changes", "statement": "At most one node ever leads a term, and all append, snapshot and heartbeat messages of a term come from one node, while configuration changes (simple, joint, automatic and explicit leave) are proposed, committed and applied, nodes join, leave and are brought up with snapshots, and nodes crash and restart anywhere.", "quantifier": "every initial configuration, every sequence of conf changes, every schedule, loss, duplication, delay and crash point, every cluster size", "why_tests_cant": "quorums before and after a change must meet for every interleaving of elections with unapplied changes", "anchors": ["src/raft.cc: Raft::Hup, StepLeader MsgProp, ApplyConfChange, SwitchToConfig, Advance", "src/confchange/confchange.cc", "src/rawnode.cc"]}
{"id": "C56", "title": "Log matching while the membership changes", "statement": "If two logs of a cluster that changes its membership (on disk, in memory, or of a past leader) have the same term at an index, they agree on that entry and on everything before it that neither has compacted.", "quantifier": "every initial configuration, sequence of conf changes, schedule and crash point", "why_tests_cant": "unbounded executions", "anchors": ["src/raft.cc", "src/log.cc"]}
{"id": "C57", "title": "Leader completeness while the membership changes", "statement": "Every entry handed to an application or recorded as committed on a disk is in the log of every leader of a later term, even if that leader was elected by a different configuration, unless already compacted there.", "quantifier": "every initial configuration, sequence of conf changes, schedule and crash point", "why_tests_cant": "the electing and the committing quorum belong to different configurations; all histories", "anchors": ["src/raft.cc", "src/confchange/confchange.cc"]}
{"id": "C58", "title": "State machine safety while the membership changes", "statement": "No two nodes ever hand different entries for the same index to their applications, across membership changes, crashes and restarts.", "quantifier": "every initial configuration, sequence of conf changes, schedule and crash point", "why_tests_cant": "unbounded executions", "anchors": ["src/raft.cc", "src/rawnode.cc", "src/log.cc"]}
{"id": "C59", "title": "All nodes go through the same configurations", "statement": "There is one sequence of configurations, one per log index, starting with the initial one, each obtained from its predecessor by the conf change in the entry of that index; at every index, every application's record of the configuration, every running node's own configuration, every snapshot on disk and every snapshot sent agree with it.", "quantifier": "every initial configuration, sequence of conf changes, schedule, crash point and restart", "why_tests_cant": "unbounded histories; nodes apply changes, restore snapshots and restart at different times", "anchors": ["src/raft.cc: ApplyConfChange, SwitchToConfig, Restore", "src/confchange/restore.cc", "src/rawnode.cc: ApplyConfChange"]}
{"id": "C60", "title": "Configuration changes go one at a time", "statement": "In every execution a leader's log holds at most one conf change that its application has not applied, and no log in memory or on disk holds more than one that is not committed there.", "quantifier": "every node of every cluster, every sequence of proposals, elections and crashes", "why_tests_cant": "depends on the history of several leaders", "anchors": ["src/raft.cc: StepLeader MsgProp, BecomeLeader, Hup"]}
{"id": "C61", "title": "Election safety of a bootstrapped cluster", "statement": "A cluster begun with Bootstrap on empty disks (each founder with the same peer list, again if it crashed before it persisted anything), in which other nodes join later, never has two leaders of one term.", "quantifier": "every nonempty peer list, number of joining nodes, sequence of conf changes, schedule, crash point (also during bootstrap) and restart", "why_tests_cant": "the founders act on a configuration kept only in memory; all interleavings of bootstrapping, crashing and electing", "anchors": ["src/rawnode.h: RawNode::Start, RawNode::ReStart", "src/rawnode.cc: RawNode::Bootstrap", "src/raft.cc"]}
{"id": "C62", "title": "Log matching in a bootstrapped cluster", "statement": "In a cluster begun with Bootstrap, two logs that know the same term for an index agree on everything up to it.", "quantifier": "every nonempty peer list, number of joining nodes, sequence of conf changes, schedule, crash point (also during bootstrap) and restart", "why_tests_cant": "unbounded executions", "anchors": ["src/rawnode.h: RawNode::Start, RawNode::ReStart", "src/rawnode.cc: RawNode::Bootstrap", "src/raft.cc"]}
{"id": "C63", "title": "Leader completeness in a bootstrapped cluster", "statement": "In a cluster begun with Bootstrap, an entry handed to an application or recorded as committed is in the log of every leader of a later term, unless compacted there.", "quantifier": "every nonempty peer list, number of joining nodes, sequence of conf changes, schedule, crash point (also during bootstrap) and restart", "why_tests_cant": "unbounded executions; bootstrap entries are committed without any quorum", "anchors": ["src/rawnode.h: RawNode::Start, RawNode::ReStart", "src/rawnode.cc: RawNode::Bootstrap", "src/raft.cc"]}
{"id": "C64", "title": "State machine safety of a bootstrapped cluster", "statement": "In a cluster begun with Bootstrap, no two nodes ever hand out different entries for the same index.", "quantifier": "every nonempty peer list, number of joining nodes, sequence of conf changes, schedule, crash point (also during bootstrap) and restart", "why_tests_cant": "unbounded executions; bootstrap entries are committed without any quorum", "anchors": ["src/rawnode.h: RawNode::Start, RawNode::ReStart", "src/rawnode.cc: RawNode::Bootstrap", "src/raft.cc"]}
{"id": "C65", "title": "Configurations of a bootstrapped cluster", "statement": "In a cluster begun with Bootstrap there is one sequence of configurations from the last bootstrap entry on, beginning with exactly the peers as voters; all nodes, applications and snapshots agree with it, and conf changes go one at a time.", "quantifier": "every nonempty peer list, number of joining nodes, sequence of conf changes, schedule, crash point (also during bootstrap) and restart", "why_tests_cant": "unbounded histories", "anchors": ["src/rawnode.h: RawNode::Start, RawNode::ReStart", "src/rawnode.cc: RawNode::Bootstrap", "src/raft.cc"]}
{"id": "C66", "title": "Bootstrap prefix", "statement": "In a cluster begun with Bootstrap, every log and every application holds the announcement of the i-th peer at index i for all peers; a node whose application has not applied all of them is a follower that knows founders only.", "quantifier": "every nonempty peer list, number of joining nodes, sequence of conf changes, schedule, crash point (also during bootstrap) and restart", "why_tests_cant": "unbounded histories; founders may crash half way and join by snapshot instead", "anchors": ["src/rawnode.h: RawNode::Start, RawNode::ReStart", "src/rawnode.cc: RawNode::Bootstrap", "src/raft.cc"]}
{"id": "C67", "title": "ReadIndex is linearizable while the membership changes (safe option)", "statement": "With the safe option, if no leader is handed the same request context twice, and a leader whose configuration has a single voter is asked for reads only when it is that voter itself, the read index a Ready reports for a context covers everything that was committed, under any configuration, before the first request with this context reached a leader: every entry any application had received and every index any disk recorded as committed.", "quantifier": "every initial configuration, sequence of conf changes, schedule, crash point and sequence of reads", "why_tests_cant": "unbounded executions; a leader may be removed while its read is pending, and the quorum that confirms it is not the quorum that committed", "anchors": ["src/raft.cc: StepLeader MsgReadIndex, MsgHeartbeatResp, SwitchToConfig", "src/read_only.cc", "src/tracker/tracker.h: IsSingleton"]}
{"id": "C68", "title": "Which membership changes can be applied", "statement": "Whether applying a membership change aborts the node depends on its configuration and the change only: a change aborts iff the configuration is joint and the change is not the one that leaves it, or the configuration is not joint and the change is that one, has a part of an unknown kind, or leaves no voter. So nodes with the same configuration agree on it, whatever their logs, terms and peers' progress.", "quantifier": "every node state with a valid configuration, every change", "why_tests_cant": "all configurations and change lists", "anchors": ["src/raft.cc: ApplyConfChange", "src/confchange/confchange.cc", "src/raftpb/confchange.cc: EnterJoint, LeaveJoint"]}
{"id": "C69", "title": "Nothing aborts while the membership changes", "statement": "In a cluster that changes its membership, whose applications follow the Ready contract and ask a leader only for conf changes that make sense for its configuration (they leave a voter, have known kinds of parts, and in a joint configuration the empty change is the automatic one) and only while this leader is a voter of it, no call ever aborts or reaches undefined behaviour: starting, calls, deliveries, handling a Ready, applying conf changes, leaving joint configurations, compacting, making snapshots. Both conditions are needed: without either a cluster can crash.", "quantifier": "every initial configuration, sequence of conf changes, schedule, crash point, restart, loss, duplication, delay and reordering of messages", "why_tests_cant": "an abort needs one bad interleaving out of infinitely many", "anchors": ["src/raft.cc: AppendEntry, Advance, ApplyConfChange, SwitchToConfig, StepLeader", "src/confchange/confchange.cc", "src/log.cc", "src/log_unstable.cc", "src/rawnode.cc"]}
{"id": "C70", "title": "Leadership transfer", "statement": "TransferLeader on a leader is ignored for an unknown node, a learner and the current target; for the leader itself it gives up a pending transfer; otherwise it notes the target (replacing an earlier one) and restarts the election clock. MsgTimeoutNow is only ever sent by a leader, to the noted target, when that target has acknowledged the leader's whole log. A transfer is pending only on a leader and only because it was asked for; it is given up at the latest an election timeout after the last request, when the node stops leading, and when a conf change takes the target out of the voters while the leader stays one. A promotable follower that receives MsgTimeoutNow of its term starts an election of the next term at once, without a pre-vote, unless a committed conf change is not applied yet.", "quantifier": "every node history, call, message and number of ticks", "why_tests_cant": "the waits and interleavings of a transfer are unbounded", "anchors": ["src/raft.cc: StepLeader MsgTransferLeader, MsgAppResp, TickHeartbeat, SwitchToConfig, SendTimeoutNow, StepFollower MsgTimeoutNow", "src/rawnode.cc: TransferLeader"]}
{"id": "C71", "title": "Whom a candidate asks", "statement": "Whenever a call leaves a node a candidate, it was one already at the same term, or the term rose, the node voted for itself, and the call queued exactly one vote request for each other voter of its configuration (of both halves of a joint one) and nothing else; each carries the new term and the index and term of the node's last entry, and the mark of a leadership transfer exactly if the call delivered MsgTimeoutNow. A Campaign with pre_vote likewise asks each other voter once for a pre-vote of the next term, and changes neither term, vote nor log.", "quantifier": "every node state, configuration, call and message", "why_tests_cant": "all configurations, logs and calls", "anchors": ["src/raft.cc: Campaign, Hup, BecomeCandidate, BecomePreCandidate, StepCandidate"]}
{"id": "C72", "title": "A leader commits as soon as it can", "statement": "Whatever was called on a node before: if it leads and is a voter in its own configuration, and i is the highest index it knows a quorum (of both halves of a joint configuration) to have, and the entry there is of its own term, then it has already committed it. Commitment never waits for a further message, tick or Ready, also after the configuration changed.", "quantifier": "every node, every history of calls, conf changes and crashes", "why_tests_cant": "a missed commit shows only in the history (e.g. after a conf change or an own append) in which it was missed", "anchors": ["src/raft.cc: MaybeCommit, AppendEntry, StepLeader MsgAppResp, SwitchToConfig, BecomeLeader"]}
{"id": "C73", "title": "A majority can always go on", "statement": "From every state a cluster (fixed membership) can get into, by whatever losses, delays, elections, crashes and half-written Readys, every majority of the voters (of both halves of a joint configuration) can make progress on its own: there are calls, deliveries of messages among these nodes, Readys and restarts, involving no other node, after which a given piece of data has been proposed, committed and handed to an application, at an index above everything handed out before. (Two more entries must fit below the largest 64-bit index.)", "quantifier": "every reachable state of every cluster, every majority, every data", "why_tests_cant": "every state reachable by any history must be left again; a deadlock hides in histories no test runs", "anchors": ["src/raft.cc", "src/rawnode.cc", "src/log.cc", "src/tracker/progress.cc"]}
{"id": "C74", "title": "The reported leader", "statement": "A node that leads reports itself as the leader; candidates and pre-candidates report none; after any call a node reports nobody, the one it reported before in the same term, itself (it leads), or the sender of the leader's message it was just handed, in that message's term. Across a cluster (fixed or changing membership, bootstrapped or not): all nodes that report a leader for the same term report the same one, it is the one that leads or ever led this term, and all append, snapshot and heartbeat messages of the term are its own.", "quantifier": "every node history; every cluster, schedule and crash point", "why_tests_cant": "depends on what was sent by others at any earlier time", "anchors": ["src/raft.cc: BecomeFollower, BecomeCandidate, BecomePreCandidate, BecomeLeader, Step, StepFollower, StepCandidate", "src/rawnode.cc: BasicStatus, Ready (SoftState)"]}
{"id": "C75", "title": "Fresh election timeouts", "statement": "The election timeout a node waits for is a value drawn from its random source, in [t, 2t-1] for the configured t, and every change of term or of role (except becoming a pre-candidate) draws a new one and restarts the election clock; nothing else changes it.", "quantifier": "every node history, every call, every random source", "why_tests_cant": "every history; repeated elections rest on the draws being fresh", "anchors": ["src/raft.cc: Reset, ResetRandomizedElectionTimeout, BecomeFollower, BecomeCandidate, BecomeLeader"]}
{"id": "C76", "title": "Nothing is made up", "statement": "Whatever the applications, the network and crashes do (any settings, any calls at any time, any peers given to Bootstrap, anything on the disks in the beginning), as long as appends, heartbeats and snapshots arrive only if a node sent them: every entry that is delivered, stored, held in memory or under way has the type and the data, unaltered, of something that was proposed (or given to Bootstrap) or was on a disk in the beginning, or it is empty (a leader's first entry, a refused conf change, the end of a joint configuration); and every snapshot that is stored, held or under way is, with its index, configuration and data, one that an application made or that was on a disk in the beginning.", "quantifier": "every number of nodes, initial disks, course of events, schedule and crash point", "why_tests_cant": "entries and snapshots pass through forwarding, batching, truncation, storage and snapshots in unboundedly many ways", "anchors": ["src/raft.cc: AppendEntry, SendAppend, StepFollower, HandleAppendEntries, HandleSnapshot", "src/log.cc", "src/log_unstable.cc", "src/storage.cc", "src/rawnode.cc"]}
{"id": "C77", "title": "A message object may be handed in again", "statement": "Whatever happens to a node after it was handed a message (a shared pointer), handing it the same object again is like handing it an equal message: in particular it acknowledges only entries it has, and a proposal that was refused and is accepted when handed in again is proposed with its data.", "quantifier": "every node history, message object and later time of handing it in again", "why_tests_cant": "the damage shows only if the first handling was a rejection and the log was completed by other messages in between", "anchors": ["src/util.cc: Util::MakeEntries", "src/raft.cc: HandleAppendEntries, HandleSnapshot, StepLeader MsgProp", "src/rawnode.cc: RawNode::Step"]}
{"id": "C78", "title": "Flow control", "statement": "While a leader hears nothing from or about a peer and its membership stays, the messages with entries or a snapshot it makes for that peer, whatever else is called on it (proposals, ticks, messages of others, Readys, reads, transfers), come out of the room it had for it: none while the peer is sent a snapshot, one while it is probed, and what is left of the window while it replicates; so never more than max_inflight_msgs, the configured value throughout.", "quantifier": "every reachable leader, peer, and sequence of calls during which the peer is silent, of any length", "why_tests_cant": "unbounded sequences of calls from every reachable state", "anchors": ["src/raft.cc: MaybeSendAppend, StepLeader", "src/tracker/progress.cc: IsPaused, BecomeProbe, BecomeReplicate, BecomeSnapshot", "src/tracker/inflights.cc"]}
{"id": "C79", "title": "Reports about peers", "statement": "ReportUnreachable(j) and ReportSnapshot(j, status) always return and do nothing except on a leader that is replicating to j (resp. sending j a snapshot): there they change only the record of j, which is then probed with nothing in flight, from the first entry j has not acknowledged, after a successful snapshot from behind it; after a snapshot report the leader waits until j is heard from, and after a failed one j's next heartbeat answer makes it send the entries after those j acknowledged, or a snapshot if they are compacted.", "quantifier": "every node state, peer and report", "why_tests_cant": "every state and every record of a peer", "anchors": ["src/rawnode.cc: ReportUnreachable, ReportSnapshot", "src/raft.cc: StepLeader MsgUnreachable, MsgSnapStatus, MsgHeartbeatResp", "src/tracker/progress.cc: BecomeProbe"]}
{"id": "C80", "title": "Peer records across membership changes", "statement": "After ApplyConfChange, a node that was already a member keeps what it acknowledged and whether it was heard from (on a node that does not lead its whole record, up to the learner mark); a node that joined has acknowledged nothing and counts as heard from. No other record exists.", "quantifier": "every node state, configuration and change", "why_tests_cant": "every configuration and every list of changes", "anchors": ["src/confchange/confchange.cc: MakeVoter, MakeLearner, Remove, InitProgress, LeaveJoint", "src/raft.cc: SwitchToConfig"]}
{"id": "C81", "title": "Vote counting", "statement": "Of several answers of one node the first counts. The numbers TallyVotes returns are how many voters of the configuration (either half, each once) answered yes and how many no; learners and strangers do not count.", "quantifier": "every configuration, every sequence of answers", "why_tests_cant": "every configuration and sequence", "anchors": ["src/tracker/tracker.cc: RecordVote, TallyVotes"]}
{"id": "C82", "title": "ReadIndex is linearizable in a bootstrapped cluster (safe option)", "statement": "In a cluster begun with Bootstrap, under the conditions of the read property for changing memberships, the read index a Ready reports for a context covers everything committed anywhere before the first request with that context reached a leader, the bootstrap entries included.", "quantifier": "every nonempty peer list, number of joining nodes, sequence of conf changes, schedule, crash point (also during bootstrap) and restart", "why_tests_cant": "the founders begin with configurations known only from memory and with entries committed without a quorum; all schedules", "anchors": ["src/rawnode.cc: RawNode::Bootstrap", "src/raft.cc: Raft::StepLeader (kMsgReadIndex)", "src/read_only.cc"]}
{"id": "C83", "title": "Nothing aborts in a bootstrapped cluster", "statement": "In a cluster begun with Bootstrap, whose applications follow the Ready contract and ask leaders only for conf changes that make sense (as for given disks), no call aborts or reaches undefined behaviour: not creating and bootstrapping a founder (again after a crash before anything was persisted), not starting a joining node with nothing, no call, delivery, Ready, snapshot, compaction or restart. Bootstrapping an allowed founder is never refused; it then follows in term 1 with exactly the peers as voters and their announcements committed.", "quantifier": "every nonempty peer list, number of joining nodes, sequence of conf changes, schedule, crash point (also during bootstrap) and restart", "why_tests_cant": "every schedule; a founder can crash at every point while the bootstrap entries are only in memory", "anchors": ["src/rawnode.h: RawNode::Start, RawNode::ReStart", "src/rawnode.cc: RawNode::Bootstrap", "src/raft.cc"]}
{"id": "C84", "title": "A crash while a Ready is being saved", "statement": "A node that crashes between two Readys restarts from its disk. If it crashes while the application writes a Ready without a snapshot (entries first, then the hard state), at any point, it restarts too: with the term, vote and commit index of before or of after, and with every entry the disk had recorded as committed. If the Ready has a snapshot and it is on disk without the new hard state, the restart aborts, unless the disk had no hard state at all; so a snapshot and the hard state must be written in one piece. If the hard state is written before the entries, the restart aborts exactly if it records as committed an entry the disk does not have yet.", "quantifier": "every life of a node: any calls, Readys, compactions, snapshots and any number of earlier crashes, also torn ones; every number of entries written", "why_tests_cant": "crashes at every point of every write in every history", "anchors": ["src/raft.cc: NewRaft, Raft::LoadState, Raft::Restore", "src/storage.cc: MemoryStorage::Append, ApplySnapshot, SetHardState", "src/rawnode.cc: GetReady, Advance", "example/multi_mem_node.cc: onReady"]}
{"id": "C85", "title": "Status reports tell the truth", "statement": "At every moment, if GetStatus of a leader reports Match = k for another node, and that node has not moved to a later term, then that node has the leader's log up to index k on its disk (both sides as far as not compacted). Only leaders report peers; the reported peers are exactly the members of the reported configuration, those marked as learners its learners, and Match and Next stay within the log; applied is at most commit, commit is in the log. WithProgress visits every member once, in ascending order, marking exactly the learners.", "quantifier": "every reachable state of a cluster with changing membership, from given disks or bootstrapped; every running node", "why_tests_cant": "Match is raised by acknowledgements that may be old, duplicated or overtaken by crashes; it must be true on disk at every moment of every schedule", "anchors": ["src/rawnode.cc: RawNode::GetStatus, RawNode::WithProgress", "src/raft.cc: Raft::StepLeader (kMsgAppResp), Raft::HandleAppendEntries", "src/tracker/tracker.cc: ProgressTracker::Visit"]}
{"id": "C86", "title": "What is written on the wire is what is read", "statement": "Every message of the API (Message, Entry, HardState, Snapshot, SnapshotMetadata, ConfState, ConfChange, ConfChangeSingle, ConfChangeV2) that is serialized and parsed again comes out with every field, and the presence of every optional field, as it was, and ByteSizeLong is the number of bytes (64-bit numbers, less than 2 GB, known enumeration values); fields of newer versions of the schema, anywhere in between, are ignored. The bytes written are exactly the ones raft.proto and the published encoding prescribe, and whatever another implementation of the schema writes for a value is read as that value. A conf change of a kind outside the enumeration is read as a request to add the node.", "quantifier": "every value of each message type; every list of unknown fields mixed in", "why_tests_cant": "all numbers, lengths, and combinations of set and unset fields", "anchors": ["src/raftpb/raft.pb.cc: SerializeWithCachedSizes, MergePartialFromCodedStream, ByteSizeLong", "src/raftpb/raft.pb.h"]}
{"id": "C87", "title": "Conf changes survive the log", "statement": "With the generated protobuf code, whichever fields the application leaves unset, the conf change in the entry made by ProposeConfChange is read back by the library and by applications as the one that was asked for (known kinds, 64-bit ids, at most 2^20 parts, context below 1 GB), and can be read in any case; so clusters with changing membership, bootstrapped or not, never abort with the generated code.", "quantifier": "every conf change; every encoding choice about unset fields; every reachable cluster state and next action", "why_tests_cant": "the encoding and the protocol meet only in long executions", "anchors": ["src/raftpb/confchange.cc: ConfChangeI::Marshal", "src/raftpb/raft.pb.cc", "src/raft.cc: StepLeader (kMsgProp)", "src/rawnode.cc: ProposeConfChange, ApplyConfChange"]}
{"id": "C88", "title": "A cut-off node with pre-vote keeps its term", "statement": "A node created with pre_vote that, together with the set S of nodes that grant it pre-votes, is short of a quorum of its configuration never raises its term, never becomes a candidate and never becomes leader, however long it ticks, campaigns and hears from S, as long as no message of a later term and no MsgTimeoutNow reaches it.", "quantifier": "every set S, every node, every sequence of calls, Readys and configuration changes of any length, every storage change", "why_tests_cant": "a disruptive server shows only after arbitrarily many timeouts and answers", "anchors": ["src/raft.cc: Hup, Campaign, StepCandidate, Step, TickElection", "src/rawnode.cc: Tick, Campaign, Step"]}
{"id": "C89", "title": "A node's configuration is always valid", "statement": "Whatever calls, messages, snapshots, configuration changes, restarts and crashes happen, the configuration a node keeps and reports in its status is valid: the member lists are sorted sets, exactly the members have a progress, exactly the learners are marked so, learners are no voters, staged learners are outgoing voters, and nothing is staged outside a joint configuration.", "quantifier": "every history of a node, with arbitrary messages and snapshots", "why_tests_cant": "the configuration is the result of an unbounded sequence of changes and restores", "anchors": ["src/confchange/confchange.cc", "src/confchange/restore.cc", "src/raft.cc: New, Restore, ApplyConfChange, SwitchToConfig", "src/rawnode.cc: GetStatus"]}
{"id": "C90", "title": "A leader that lost its quorum steps down", "statement": "A leader with check_quorum whose appends and heartbeats are answered only by nodes that together with it are short of a quorum is no longer leader of its term once 2 * election_tick ticks have passed, provided that meanwhile nobody asks it for a leadership transfer and it applies no configuration change.", "quantifier": "every reachable leader, every set of answering nodes, every sequence of calls and Readys", "why_tests_cant": "it must hold for every interleaving of ticks, answers, proposals and stale messages", "anchors": ["src/raft.cc: TickHeartbeat, StepLeader (kMsgCheckQuorum)", "src/tracker/tracker.cc: QuorumActive"]}
{"id": "C91", "title": "Leaders send heartbeats", "statement": "While a node is leader of a term it sends, at least once in every heartbeat_tick consecutive ticks, a heartbeat of that term to every other member of its configuration, whatever else is called in between.", "quantifier": "every reachable leader, every sequence of calls, Readys and configuration changes", "why_tests_cant": "a schedule of messages that starves the heartbeats would show only after a long run", "anchors": ["src/raft.cc: TickHeartbeat, BcastHeartbeat, SendHeartbeat"]}
{"id": "C92", "title": "A follower that is looked after stays with its leader", "statement": "A node that hears from a leader of term T (not behind its own) and hears from a leader of that term again before election_tick ticks have passed since the last time stays a follower of term T with a known leader and never campaigns, whatever else reaches it: messages of its term or older, pre-vote requests of any term and, with check_quorum, vote requests of any term, proposals, reads, Readys, configuration changes.", "quantifier": "every reachable node, every such run of any length", "why_tests_cant": "stability of a healthy cluster depends on every interleaving", "anchors": ["src/raft.cc: Step, StepFollower, StepCandidate, TickElection, PastElectionTimeout"]}
{"id": "C93", "title": "Nodes of a cluster are nodes", "statement": "Every guarantee about the possible histories of one node (its first start from any disk or its bootstrap, calls, Readys, crashes and restarts) holds for every running node of every cluster, of fixed or changing membership or founded with Bootstrap, and what such a history has sent is on the cluster's network. In particular every running node knows its own name, a leader names itself as the leader, campaigners name nobody, configuration and progress table fit, the drawn timeout is in its range, and no vote request without a source and no append, heartbeat or snapshot message without a term is ever sent.", "quantifier": "every reachable state of every cluster, every node", "why_tests_cant": "a guarantee proved for one node in isolation might rest on inputs that clusters do not respect", "anchors": ["src/rawnode.cc: Bootstrap, Ready, Step", "src/raft.cc: Raft::Create, Step"]}
{"id": "C94", "title": "A minority with pre-vote is contained", "statement": "Nodes with pre_vote that are cut off from the rest of the cluster, and together are short of a quorum of the configurations they are in, never get beyond the highest term T they had when the cut happened, neither in memory nor on disk, never become candidates, and lead no term they did not lead at that time, however long the cut lasts, through crashes, restarts and any scheduling, as long as nobody asks them for a leadership transfer. Nothing they send meanwhile makes a follower of term T or later leave its leader, whenever it is delivered.", "quantifier": "every reachable state of every cluster, every group of nodes, every run of both sides of the cut of any length", "why_tests_cant": "needs every interleaving of both sides of a partition of any length", "anchors": ["src/raft.cc: Step, hup, Campaign, StepCandidate, BecomePreCandidate", "src/rawnode.cc: Ready, Advance"]}
{"id": "C95", "title": "Size limits", "statement": "While a node runs with a configuration, every append message it hands out carries entries whose sizes add up to at most max_size_per_msg, and every Ready hands the state machine committed entries of at most max_committed_size_per_ready in all (max_size_per_msg if that is not set); the only exception is a batch of a single entry, which may be larger. (Sizes and limits are supposed to be below 2^63.)", "quantifier": "every configuration, every disk the node starts from, bootstrapped or not, every sequence of calls and Readys", "why_tests_cant": "the batches depend on the whole history of the log, the flow control and the split between storage and memory", "anchors": ["src/util.cc: LimitSize", "src/log.cc: Slice, Entries, NextEnts", "src/raft.cc: MaybeSendAppend, Config::Validate", "src/rawnode.cc: GetReady"]}
{"id": "C96", "title": "What a lease-based read guarantees", "statement": "With read_only_option = ReadOnlyLeaseBased, the index a Ready reports for a request context was given by a leader that was handed the request, and it covers everything that nodes in terms up to that leader's term knew to be committed (delivered to an application, or recorded as committed on disk) at any moment before the request reached a leader. In particular the read is linearizable whenever nothing had been delivered in a later term. It is not linearizable without that condition, even with check_quorum on and all clocks ticking in step: a leader that was cut off goes on for up to two election timeouts, while its followers elect another one after one.", "quantifier": "every cluster with a fixed membership and lease-based reads, every schedule of calls, deliveries (lost, duplicated, reordered), Readys, compactions, crashes, every moment, every request context", "why_tests_cant": "whether a read is stale depends on what happened on other nodes, in every interleaving of ticks, elections and messages", "anchors": ["src/raft.cc: StepLeader (MsgReadIndex), SendMsgReadIndexResponse, ReleasePendingReadIndexMessages, CommittedEntryinCurrentTerm, TickHeartbeat", "src/read_only.h: ReadOnlyOption", "src/rawnode.cc: ReadIndex, GetReady"]}
{"id": "C97", "title": "What a lease-based read guarantees while the membership changes", "statement": "The same for clusters whose membership changes, also bootstrapped ones: the index a Ready reports for a request context was given by a leader that was handed the request, and it covers everything that nodes in terms up to that leader's term knew to be committed, under whatever configuration", "quantifier": "every initial configuration or list of founders, sequence of conf changes, schedule, crash point and sequence of reads", "why_tests_cant": "reads, elections and conf changes interleave without bound", "anchors": ["src/raft.cc: StepLeader (MsgReadIndex), ReleasePendingReadIndexMessages, CommittedEntryinCurrentTerm, SwitchToConfig", "src/tracker/tracker.h: IsSingleton", "src/rawnode.cc: ReadIndex, Bootstrap"]}
{"id": "C98", "title": "A proposal is not multiplied", "statement": "An entry with a payload (type and data) exists, in anything delivered, on the disks, in memory and in appends on their way, at no more log indexes than the number of times it was handed to a leader, by a call at the leader or by the arrival of a forwarded proposal (not counting indexes where it was on a disk from the beginning or was put by Bootstrap). So the nodes never multiply a proposal; handed to a leader once, it exists at one index only, and is applied at most once by every state machine that applies indexes in order. (If the transport delivers a forwarded proposal twice, it may be applied twice.)", "quantifier": "any number of nodes, anything on their disks, any calls at any time, every scheduling of honest message delivery, crashes, restarts, snapshots, configuration changes", "why_tests_cant": "duplicates would come from retransmission, leader changes and restarts in any interleaving", "anchors": ["src/raft.cc: AppendEntry, StepLeader (kMsgProp), StepFollower (kMsgProp), HandleAppendEntries", "src/log.cc: MaybeAppend, FindConflict", "src/rawnode.cc: Propose, ProposeConfChange, Bootstrap"]}
{"id": "C99", "title": "Replicated state machines agree", "statement": "Let every application run the same deterministic state machine over the committed entries it is handed (skipping those it has applied already), save the machine's state in the snapshots it creates at the index it has applied, and load it from the snapshot on its disk when it restarts and from the snapshots a Ready hands it. Then there is one sequence of entries (which begins with the entries the cluster started with) such that at all times every node's machine is in exactly the state after the first k entries of the sequence, k being the index its application has applied: the states of any two replicas that ever applied up to the same index are equal, also if one of them got there by a snapshot, after crashes and restarts, across membership changes, and whether or not the cluster was bootstrapped. Every entry handed to any application is from that sequence.", "quantifier": "every deterministic state machine whose state can be saved and loaded, every initial situation or list of founders, every schedule of calls, message deliveries (lost, duplicated, reordered), Readys, snapshots, compactions, conf changes, crashes and restarts, of any length", "why_tests_cant": "that is what the whole protocol is for: equality of replicas depends on every interleaving of elections, log repair, snapshots and crashes", "anchors": ["src/rawnode.cc: GetReady, Advance, Restart paths", "src/log.cc: NextEnts, Restore, MaybeAppend, MaybeCommit", "src/storage.cc: CreateSnapshot, ApplySnapshot, Compact", "src/raft.cc: HandleSnapshot, Restore, MaybeSendAppend", "example/multi_mem_node.cc"]}
{"id": "C100", "title": "Reads from replicated state machines are linearizable", "statement": "In a cluster of replicated state machines (as in C99) with safe reads (each request context handed to leaders once; a leader whose configuration has a single voter is asked only if it is that voter), once a Ready reports index i for a request, then every machine of any node that has applied up to index i or further, at that time or any later time, is in a state that continues every state that any machine of any node was in, or had been seen in, before the request was made: all of them are states after k entries of one and the same sequence, with k <= i for the earlier ones. So a read never misses the effect of anything applied anywhere before it was asked for, whichever node serves it.", "quantifier": "every deterministic state machine, every initial situation or list of founders, every schedule of calls, reads, message deliveries, Readys, snapshots, compactions, conf changes, crashes and restarts before, during and after the read, of any length", "why_tests_cant": "linearizability compares the read with everything that happened on all nodes in every interleaving", "anchors": ["src/raft.cc: StepLeader (MsgReadIndex), SendMsgReadIndexResponse, HandleHeartbeat", "src/read_only.cc: AddRequest, RecvAck, Advance", "src/rawnode.cc: ReadIndex, GetReady, Advance", "src/log.cc: NextEnts", "example/multi_mem_node.cc"]}
{"id": "C101", "title": "Terms grow only by elections, one at a time", "statement": "One call of Step, Tick or Campaign raises the term of a node at most to one above the larger of its own term and that of the message; without beginning an election, at most to that larger one. In a cluster, if the disks knew no term beyond T in the beginning and at most k events may have begun an election (ticks, Campaign, Bootstrap, MsgTimeoutNow or pre-vote answers delivered), no node, disk or message is ever in a term beyond T + k (pre-votes and their grants may carry T + k + 1). So the 64-bit terms do not wrap around within 2^64 - 2 - T elections, and a node that cannot campaign cannot raise anybody's term.", "quantifier": "every cluster of any size and membership, all settings, every schedule of calls, deliveries (lost, repeated, reordered, handed to anybody), Readys, conf changes, snapshots, crashes and restarts, of any length", "why_tests_cant": "a bound on the terms of every reachable state over unbounded schedules, which no finite test reaches", "anchors": ["src/raft.cc: Step, BecomeFollower, BecomeCandidate, BecomePreCandidate, Campaign", "src/rawnode.cc: Bootstrap, Tick, Campaign, Step"]}
{"id": "C102", "title": "Lease-based reads from replicated state machines", "statement": "In a cluster of replicated state machines (as in C99) with lease-based reads (each leader's log indexes fit 64 bits), once a Ready reports index i for a request, some leader was handed the request after it was made, in a term T; and if no application anywhere had been handed an entry in a term later than T before the request was made, the read is linearizable as in C100: every machine that has applied up to i is in a state that continues every state any machine of any node was in before the request. (Without that condition it need not be: the lease of a deposed leader can outlive its leadership, C96.)", "quantifier": "every deterministic state machine, every initial situation or list of founders, every schedule of calls, reads, message deliveries, Readys, snapshots, compactions, conf changes, crashes and restarts before, during and after the read, of any length", "why_tests_cant": "the condition and the conclusion compare the read with everything that happened on all nodes in every interleaving", "anchors": ["src/raft.cc: StepLeader (MsgReadIndex), ResponseToReadIndexReq", "src/read_only.h: ReadOnlyOption", "src/rawnode.cc: ReadIndex, GetReady, Advance", "src/log.cc: NextEnts"]}
{"id": "C103", "title": "Messages are handed out once, in order", "statement": "However a node is called and whenever Readys are taken, the messages of the Readys, one after the other, followed by those still waiting, form one sequence to which calls only append: no message that was queued is lost, repeated, changed or overtaken by a later one (not by a role or term change, a conf change or a snapshot either). A Ready takes everything that is waiting and leaves nothing to be taken again.", "quantifier": "every node state and every sequence of calls and Readys, of any length (messages of types MsgApp, MsgHeartbeat and MsgSnap that are stepped in carry a term)", "why_tests_cant": "the queue must survive every sequence of calls between two Readys", "anchors": ["src/rawnode.cc: GetReady, AcceptReady, ReadyWithoutAccept", "src/raft.cc: Send, Step, BecomeFollower, BecomeCandidate, BecomeLeader"]}
