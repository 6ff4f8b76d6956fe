# Formal model of ImSjt/raft-cpp in Lean 4 — design

`/repo` is a C++ port of etcd/raft (3.5 line).  This file says what is modelled, how each property of
`properties.jsonl` is proved, what is trusted and what is left out.

## 1. Layers

| layer | Lean modules | models / purpose |
|---|---|---|
| base | `Verif/Basic.lean` | outcome monad `Res` (ok / fatal / ub), wrapping `sub64`, `std::map`/`std::set` as ordered lists |
| data | `Verif/Model/Types.lean` | `raftpb/raft.proto` messages |
| components | `Verif/Model/{Util,Quorum,Inflights,Progress,Tracker,ConfChange,PbConf,Storage,Unstable,Log,ReadOnly}.lean` | the same-named `.cc/.h` |
| aliasing | `Verif/Model/StorageAlias.lean` | `MemoryStorage` snapshots with a heap (C19) |
| node | `Verif/Model/{Raft,RawNode}.lean` | `raft.cc`, `rawnode.cc` function by function |
| specs | `Verif/Spec/*.lean` | short specifications that do not use the model's helpers: `Spec/Node` (calls of an application on one node, Ready cycle), `Spec/Resume` (sane settings on restart), `Spec/Cluster` (clusters: state, genesis, steps, crash points), `Spec/Live` (the same as a program that may abort), `Spec/Reads` (what a read is) |
| proofs about components | `Verif/Proofs/*.lean` | helper lemmas |
| one node | `Verif/Node/*.lean` | `Core` = a small-step relation (`CStep`) that every call of the node refines (`Sim`, `Calls`, `New`, `ReadyLog`, `ReadyConf`); invariants over it (`Durable`, `LogInv`, `Leader`, `Commit`, `Facts`, `Append`, `Plain`, `ReadIndex`, `Send`, `History`) |
| no abort | `Verif/Safe/*.lean` | every `Res` of the node model is `ok` under an invariant |
| abstract protocol | `Verif/Abs/*.lean` | a proof device: Raft over ghost logs with a fixed quorum system; `Inv` is its safety invariant |
| cluster | `Verif/Cluster/*.lean` | simulation of the concrete cluster by `Abs` (`Rel`, `Core`, `Main`), liveness of the program (`Live`), reads (`Reads`, `ReadsMain`), concrete executions (`Demo`) |
| membership changes | `Verif/Spec/Members.lean`, `Verif/Dyn/*.lean` | clusters that change their membership: `Protocol` = the abstract protocol with a quorum system per log prefix (a proof device), `Lemmas`, `Inv` its safety, `Conf` what conf changes do to quorums, `Rel`, `Core`, `Up`, `Ready`, `Main` the simulation of the code, `Demo` a concrete execution |
| properties | `Verif/Props/*.lean` | the theorems named in MANIFEST.json, each with a non-vacuity `example` |

### Conventions of the model
* `CRAFT_LOG_FATAL` → `Res.fatal "file:line"` (the default `ConsoleLogger` calls `abort()`); `assert` → `Res.fatal`;
  null dereference, out-of-range indexing, reading a missing element → `Res.ub "file:line"`.
* `uint64_t` is `Nat`.  Subtractions that can wrap use `sub64` (wraps mod 2^64).  Additions are not wrapped:
  indexes, terms and sizes are assumed to stay below 2^64 (trusted).
* `int32_t` truncation *is* modelled in `Inflights` (that is where it matters).
* `std::set<uint64_t>`/`std::map<uint64_t,_>` are lists kept in ascending key order.
* Randomness (`Util::Random`) is an arbitrary stream stored in the node state; theorems hold for every stream.
* `step_`/`tick_` function pointers are always set together with `state_`, so the model dispatches on `state`.
* Protobuf serialisation and `ByteSizeLong` are parameters of the node model: an `Env` record of arbitrary functions (`entSize`, `parseV1`,
  `parseV2`, `serV1`, `serV2`). The generated code `raft.pb.cc` is modelled separately (`Model/Wire`, C86), and C87 shows that it provides
  what the theorems that need something of `Env` (C52, C69, C83) ask for.
* Storage is `MemoryStorage`; raft and the application share it (a field of the node state that application operations update).
* Snapshots have value semantics in the main model.  The aliasing of `MemoryStorage::snapshot_` (returned by pointer and then
  mutated in place) is modelled apart, with a heap, in `Verif/Model/StorageAlias.lean`.
* Log output (INFO/DEBUG...) has no effect in the model.  Status strings are an `Err` enumeration.

## 2. Cluster proof

*Cluster* (`Spec/Cluster.lean`): a process is down (a `Storage`) or up (a `RawNode`).  Steps: start, any API call, delivery of any message that was
ever sent (loss, duplication, reordering, delay), a whole Ready cycle, compaction, snapshot creation, a crash between calls, and a crash in the
middle of a Ready cycle after the state was persisted (any subset of the messages sent, any prefix of the committed entries applied).
Ghost components record what was handed out as committed (`out`) and who led (`led`).

*Abstract protocol* (`Abs`): node = (term, vote, role, full ghost log, commit); network = monotone set of abstract facts
(`voteReq`, `voteGrant`, `lead`, `ack`, `chosen`); a quorum system with pairwise intersection (majority and any fixed joint configuration qualify).
Local atomic steps: term update, step down, become candidate, grant, win, append, receive, commit by acks, commit by a chosen fact.

*Simulation*: every operation of the node model on a volatile state corresponds to a path of local abstract steps that consumes only messages
in the network and emits (at least) what is put in the outbox.  Messages leave a node only after the Ready that contains them was
persisted, so the abstract node performs the whole path at persist time ("delayed execution"); a crash throws the volatile path away and is a
stutter for the abstract system.

*Assumptions of the cluster theorems* (all visible in `Spec/Cluster.lean`, `Spec/Live.lean`):
  * the application persists entries, hard state and snapshot of a Ready atomically, before sending its messages;
  * every node runs with the same `Env`, its id is its position, and membership does not change (configuration changes may be proposed, but are not applied);
  * all disks at the beginning hold a prefix of one common log (`Genesis`) — clusters begun with `Bootstrap` are the subject of C61–C66;
  * a restarted node is given settings that agree with its storage (`Sane`);
  * C52 in addition: window at most 2^30, protobuf round trip (`Lossless`), compaction not beyond the snapshot, no made-up messages;
  * C53 and C67 in addition: safe option, and no two reads with the same (leader, context); C67 also that a leader using a single-voter configuration is asked only if it is that voter.

### Clusters that change their membership (C55-C60)

*Cluster* (`Spec/Members.lean`): as above, but the application of each node calls `ApplyConfChange` for every committed conf change, in order,
remembers the `ConfState` it got back last, records it in the snapshots it creates, and restarts from its last snapshot
(`/repo/example/multi_mem_node.cc`).  `dec`, the applications' way to decode a conf-change entry, is an arbitrary function (one that skips some
conf changes, as the example application does, is included).  There is no bound on the number of changes; nodes that are not in the initial
configuration may start at any time.

*Abstract protocol* (`Dyn/Protocol.lean`): quorums are a function of a log prefix; each node knows which prefix its configuration reflects.
Needed of the quorums: two quorums of one prefix meet, normal entries change nothing, and quorums of neighbouring configurations meet
(`Dyn/Conf.lean` proves this of `Simple`, `EnterJoint`, `LeaveJoint`).  What makes it safe: a leader appends a conf change only when the previous
one is applied (`pending_conf_index_`), a node does not campaign while a committed conf change is unapplied (`Hup`), and a leader counts only
entries of its term.  The invariant (`Inv`) includes that every log holds at most one uncommitted conf change, and that for each
configuration passed there is a chosen prefix counted in the configuration before it.

*Additional assumptions*: compaction not beyond the last snapshot; nodes that join start from the initial situation (`GenesisDisk`).

### Clusters started with Bootstrap (C61-C66)

*Cluster* (`Spec/Boot.lean`): all disks are empty.  A founder (a node in the peer list) with an empty disk is started with `RawNode::Start`, i.e.
`Bootstrap` with the common peer list; if it crashes before it persisted anything it is bootstrapped again.  Every other node starts with
nothing (`RawNode::ReStart`), and so does a founder with something on disk.  The rest is as for C55-C60.

*Proof* (`Dyn/Boot.lean`): the run of the abstract protocol in which the first founder, alone in its configuration, is elected in term 1 and
replicates the bootstrap entries; a bootstrapped founder has received them.  Founders that have not applied all of them (`Early`) may not campaign,
because `Hup` refuses while a committed conf change is unapplied; that is why founders never act on a partial configuration.

*Assumptions* (`PeersOK`): the peer list is nonempty, ids are positive, and the applications decode a bootstrap entry as what `Bootstrap` serialised.

## 3. Plan per property

| id | modelled by | how it is proved |
|---|---|---|
| C01 | `Majority.committedIndex` | insertion sort yields the sorted permutation; k-th smallest ⇔ counting characterisation |
| C02 | `Majority.voteResult` | counting lemmas over the voter list; all extensions of the vote map |
| C03 | `JointConfig.*` | from C01/C02 |
| C04 | `voteResult` | pigeonhole on disjoint sub-lists |
| C05 | `Inflights` | refinement to a bounded list queue, induction over operation sequences |
| C06 | `Inflights` | expected false: witness for a size that truncates to a small `int32_t` |
| C07, C08 | `Progress` | case analysis per operation; C08 expected false for arbitrary rejections: witness + partial theorem under the leader's discipline |
| C09 | `Progress.isPaused`, `maybeSendAppend` | case analysis; window bound from C05 |
| C10–C13 | `Changer.*` | invariant of the configuration as a separate specification, induction over change lists; `Props/ConfCheck`: the code's own check accepts exactly the `Acceptable` configurations |
| C14 | `Changer.restore`, `Tracker.confState` | induction over the chain of `simple` calls |
| C15 | string functions | round trip by induction over the list and over digits |
| C16 | `confStateEq` | merge sort permutation/sortedness |
| C17 | `limitSize` (64-bit sum wraps) | induction; size bound and maximality when the sizes add up to less than 2^64 |
| C18 | `Storage` | well-formedness invariant + abstraction to (offset, offset term, list), induction over operations |
| C19 | `Model/StorageAlias` (heap) | expected false: witness |
| C20 | `RaftLog` | abstraction to one contiguous log; each query refines the query of the abstraction |
| C21–C23, C25, C26 | `RaftLog` | via the abstraction of C20 |
| C24 | `nextEnts`, `RawNode.getReady/advance` | via the abstraction of C20; induction over Ready cycles |
| C27 | `ReadOnly` | invariant, induction over operations |
| C28–C31 | `Raft.step`, `tick`, ... | one step relation that every handler refines, closed under composition |
| C32 | `Raft.maybeCommit` | inversion of `maybeCommit` plus C01/C03 |
| C33–C36 | `stepGate`, `stepVote`, `tickHeartbeat` | case analysis |
| C37–C40 | `leaderProp`, `gateConf`, `hup` | case analysis / invariant over steps |
| C37 (accounting) | `RawNode.outstanding` in `Spec/Quota`: data in the log beyond the applied index | the uncommitted size is part of `Core`; invariants `QInv`, `Counted` over elementary steps, Readys, compaction (`Props/Quota`) |
| C41 | `send` and every caller | outbox invariant carried through every handler |
| C42–C44 | `RawNode.*` | case analysis |
| C45 | `RawNode.bootstrap` | expected false: witness |
| C46 | `reset`, `tickElection` | induction over ticks |
| C47–C50 | `Cluster` | abstract protocol + simulation (section 2) |
| C51 | `Raft.new` | direct computation from a well-formed storage |
| C52 | all `Res` results | well-formedness invariants; per component first, cluster last |
| C53 | `Cluster` with read requests | on top of the cluster invariants |
| C54 | `sendLoop` | progress measure |
| C55–C58 | `Members` | abstract protocol with membership changes + simulation (section 2) |
| C59 | `Members` | every configuration known is that of a chosen prefix; chosen prefixes are comparable; conf changes are functions of the configuration |
| C60 | `Members` | two invariants of the abstract protocol |
| C61–C66 | `Boot` | the abstract protocol of C55–C60 after an initial run that produces the bootstrap log |
| C67 | `Members.Run` (Spec/MembersReads) | the read invariant of C53 (Cluster/ReadInv, generic) over the protocol of C55–C60 |
| C68 | any `Raft` state with a valid configuration; specification `Works` (Spec/Works) | success of `Changer` operations from `ConfInv`, by cases on the kind of change |
| C69 | the clusters of C55-C60 as a program (`Members.Act.run`, Spec/MembersLive), with sensible conf changes (`Live`, Spec/MembersSafe) | `MGen.act_ok` (Dyn/LiveStep): the refinement invariant of C55-C60 together with the per-node `Safe` invariant of C52, `Own` (a leader that can still append is a voter of every configuration to come) and C68 |
| C70 | `leaderTransfer`, `sendTimeoutNow`, `tickHeartbeat*`, `switchToConfig`, `hup`; runs that count ticks (`NoAsk`, Spec/Transfer) | `Xfer` (Node/Transfer): one lemma per function on what becomes of a pending transfer and who is told to campaign, lifted to calls (`Call.waits`) and histories (`WaitInv`); a node never sends itself a vote request, which is why `NoAsk` leaves such deliveries out (they restart the election clock) |
| C71 | `campaign`, `campaignElection`, `sendVotes`, `hup`, `candidateVoteResp` | `VoteRequests` (Spec/Requests) says what the requests are; `step_asks` (Node/Ask) by cases over `Step`; other calls by `NPath.candidate` |
| C72 | all of `Raft::Step`, ticks, conf changes and Ready | `Front`/`Prompt` (Node/Prompt): what functions leave the acknowledged indexes, log, term and configuration alone, and that every function that changes one of them ends in `maybeCommit`; lifted to histories |
| C73 | the whole node model in the cluster of C52 (no abort) | constructive: `Can` (Spec/Recover) lets only the nodes of the majority act. Recover/*: they are restarted with plain settings (`restart_all`), the one with the best log is made to campaign often enough and wins (`win`), the data is proposed (`Raft.proposes`), each other node of the majority is brought up to date by rounds of heartbeat, append or snapshot, and their answers, where a measure on the probed index goes down (`Work.round`, `Work.catch_all`), so by promptness (C72) the entry is committed (`Work.commits`) and Readys hand it out (`drain`); every call returns by C52. That the index is new follows from the abstract protocol (`delivered_behind`). It says no state is a dead end, nothing about time or probability |
| C74 | one node (`NodeReach`), and the clusters of C47, C55, C61 | node: the relation `Turn` between the states before and after each piece of work (Node/Turn), kept by every function of `Raft`; clusters: every running node has heard, in its term, from the node it reports (`HeardIn`, by induction over the executions), and whoever sends a leader's message won its term (refinement, as for C47/C55/C61) |
| C75 | one node (`NodeReach`), random source = any function `env.rand id k` of the node and the number of the draw | the same relation `Turn`: either nothing was drawn and term, role and timeout are as before, or the timeout is the last draw and the clock is 0 |
| C76 | any nodes and disks, `Members.Act` plus `Bootstrap`, almost no rules (`Spec/Given.lean`): only appends, heartbeats and snapshots must have been sent | any condition on type and data that the empty entries meet is kept by every node transition (`Node/From.lean`), instantiated with "offered, empty or initial" |
| C77 | `Model/Reuse.lean`: what `Step` leaves of the message object (`Util::MakeEntries` and `HandleSnapshot` move out of it) | false of the code: two concrete runs (`C77_reuse_false`, `C77_retry_false`); proved: other message types are left alone, and an append that was accepted may be handed in again |
| C78 | `Spec/Flow.lean`: messages with entries or snapshots, room of a peer, runs in which a peer is silent; per-function relations `Flow` and `Wnd` in `Node/Flow.lean`, `Node/Window.lean` | invariant of all reachable nodes (window has the configured size, not overdrawn) plus induction over the silent run |
| C79 | `RawNode.reportUnreachable`, `RawNode.reportSnapshot` on every node state | exact result by unfolding; the retry composes it with the heartbeat answer of a leader with a well-formed log |
| C80 | `Changer` operations on the progress map, `Raft.switchToConfig` | invariant over the list of changes (`Changer.Record`); sending keeps `Match` and `RecentActive` (`Kept`) |
| C81 | `Tracker.recordVote`, `Tracker.tallyCounts` | induction over the answers; sorted lists with equal members |
| C82 | as C67, with the bootstrap rules of C61–C66 | the read invariant of C67 over the generator `bgen` (`Dyn/BootReads`): bootstrapping extends the committed prefix by the fixed prefix every log has |
| C83 | as C69, with `RawNode.bootstrap`, for `Boot.Live` | the invariant of C69 is proved for every `MGen` whose bootstrap entries can be applied early (`EarlyWorks`), and instantiated with `bgenX` (`Dyn/BootLive`); `Bootstrap` itself is run symbolically (`boot_safe`) |
| C84 | `Spec/Crash`: the disks a torn save can leave (`Storage.Torn`, any prefix of the entries), lives with torn crashes (`Life`) | invariant `DiskInv` (`Node/Disk`): the hard state on disk covers what is compacted, snapshotted and applied, and nothing unstable (entries or snapshot) touches what is at or below its commit index; then C51 |
| C85 | `Model/Status`: `GetBasicStatus`, `GetStatus`, `WithProgress`; `Holds`/`Honest`/`Tidy` in `Spec/Status` | from the correspondence `MGen.Rel`: `Match` is backed by an acknowledgement in the abstract protocol, which is about the acknowledging node's disk (`Dyn/Status`) |
| C86 | `Model/Wire`: tags, varints, length-delimited fields, `SerializeWithCachedSizes`, `MergePartialFromCodedStream`, `ByteSizeLong` and the getters of all nine message types; `InRange`, `Newer`, `Mixed` in `Spec/Wire`; `Spec/Proto`: raft.proto and the published encoding as an independent relation between values and bytes | induction over the fields (`Proofs/Wire`: reading an encoded field gives it back and the rest), then field by field per message type, inner messages first (`Proofs/WireMsgs`); `Props/Proto`: the encoder meets the schema, and the decoder reads every encoding the schema allows |
| C87 | `Protobuf env` in `Spec/Wire` says that an `Env` is the generated code; `Fits` in `Spec/ConfEntry` | C86 for `ConfChange` and `ConfChangeV2` with the size bounded from `Fits`; readability without `Fits` by a weaker induction (`Proofs/WireEnv`); then C69 and C83 |
| C88 | `Timed` runs (calls, Readys, ticks counted), `Call.Within`, `ShortOf` in `Spec/Cut` | invariant `Quiet` (the granted pre-votes of a pre-candidate come from the node and `S`, so the tally is never won), one call at a time over `NPath` and the code of `Hup`, `Step` (`Props/Cut`) |
| C89 | `ConfInv` of `Spec/ConfChange` on every `NodeReach` history | C10 for each operation, induction over `Restore`'s chain of changes and over the elementary steps of every call (`Node/Valid`) |
| C90 | `Timed` with `AnswersFrom` | relation `Deaf` (no new sign of life of a peer, clocks go on) through all leader code (`Node/Deaf`); two-phase invariant `Waning` around the check of C36 (`Props/Quorate`) |
| C91 | `Timed` with no tick that satisfies `HeartbeatAll` | the heartbeat clock only moves with ticks (`Deaf.beats`), and a tick that makes it full broadcasts |
| C92 | `LookedAfter` in `Spec/Cut` | invariant `Tended` (follower, term, election clock below the timeout) over the code of `Step` on a follower (`Props/Tended`) |
| C93 | `LivedAs` in `Spec/Hist`: the node's state is one of `NodeReach` (which includes `Bootstrap`ped founders, `NodeReach.boot`) and all it sent is on the network | induction over the cluster's steps, each mapped to a `NodeStep`/`NodeCrash`; messages on the network are signed and stamped (`Fine`), so that delivering them is a legal call (`Props/Hist`, `Props/HistUse`) |
| C94 | `CutOff`, `Short`, `Alone`, `Contained` in `Spec/Group`: a cluster execution in which nodes of `M` receive only what nodes of `M` sent since the cut (and harmless older messages) | invariant `Meek` per node of the group (C88's `Quiet`, no transfer pending, harmless outbox, disk term) kept by every call; C93 supplies the single-node invariants (`Props/Group`, demo `Props/GroupDemo`) |
| C95 | `Configured`, `Fits` in `Spec/Size` | `Slice` always returns the result of `LimitSize` (`RaftLog.slice_fits`); limits are constants of the node (`NPath.limits`), and every append in the outbox was cut with them (`Emit`, `Props/Size`) |
| C96 | `LeaseRun`, `CoversUpTo`, `InStep` in `Spec/Lease` | as C53, but only with what holds without heartbeat acknowledgements: a leader that committed in its term covers everything chosen in terms up to its own (`Gen.Good`); `Cluster/LeaseInv` follows answers, waiting requests and forwarded answers. `C96_lease_outlives_followers` is a concrete execution in lock-step time |
| C97 | `LeaseRun`, `CoversUpTo` in `Spec/MembersLease`, `Boot.LeaseRun` in `Spec/BootLease` | the invariant of C96 (`Cluster/LeaseInv`) over the protocol facts of C67 (`Dyn/Reads`: a leader that committed in its term covers everything chosen in terms up to its own, whatever the configurations), in `Dyn/LeaseMain`. Unlike C67 there is no condition on single-voter leaders: a leader whose configuration has a single voter answers at once, and it has always committed in its term (`Dyn/Home`: candidates are voters, a leader keeps its configuration until it commits in its term, and a leader that is the only voter commits at once) |
| C98 | as C76, with a count of what is handed to leaders (`Spec/Handed.lean`) | any condition on index, type and data that the empty entries meet is kept by every node transition except a proposal on a leader, which adds its entries once behind the last one (`Node/Handed.lean`); with a ghost list of (index, type, data), one item per entry handed over, distinct indexes need distinct items. No consensus is involved |
| C99 | as C22 and C53, with a state machine per node (`Spec/Machine.lean`): an arbitrary type of states, a step function, save and load with load ∘ save = id; the actions of the cluster move the machines as the loop of `example/multi_mem_node.cc` does, snapshots created carry the saved state | an invariant beside the cluster's (`Dyn/Machine.lean`): every machine, every machine state seen earlier, and the data of every snapshot (on disks, pending in memory, on the network; via `Deed.from` of C76) is the fold of the step function over a gap-free list of delivered or initial entries of the right length; a Ready continues the list without a gap (`nextOut_contig`, after the snapshot it installs). State machine safety (`Rel.agreement`) makes all those lists prefixes of one sequence |
| C100 | C99 with the read requests of C67 and C82 (`Spec/MachineReads.lean`) | the invariant of C99 and the read invariant of C67 along the same execution: a machine that has applied index k before the request was made has entry k from the initial log or from what was handed out by then, and the index given to the read covers both; the states before the request and now come from the one sequence of C99 |
| C101 | the courses of C76 with a count of the events that may begin an election (`Spec/Terms.lean`) | per call: every step of the core either keeps the term, adopts the message's or is the campaign's one increment (`Node/Terms`); then a bound on nodes, disks and messages by induction along the course |
| C102 | C99 with the read requests of C97 (`Spec/MachineLease.lean`) | the invariant of C99 and the lease invariant of C97 along the same execution, combined as in C100, with the terms of what was handed out |
| C103 | courses of calls on one node, with the messages of the Readys taken in it (`Spec/Outbox.lean`) | every call appends to the outbox (`Call.run_path`), a Ready takes all of it; induction along the course |

## 4. Trusted base

* Lean 4.33.0 kernel; axioms at most `propext`, `Classical.choice`, `Quot.sound` (checked with `#print axioms`).
  `decide +kernel` is used only to evaluate concrete executions in examples and counterexamples; it is checked by the kernel and adds no axiom.
* The reading of `/repo/src` recorded in the doc comments of `Verif/Model/*`.
* The protobuf runtime (not in `/repo`): its primitives are modelled after the published encoding (`Model/Wire`); unknown fields are skipped
  and not kept, groups are refused.
* `CRAFT_LOG_FATAL` ends the run (`fatal`). In the code this is the doing of the `Logger`: the built-in `ConsoleLogger` aborts on
  `kFatal`; a logger supplied by the user is assumed to do so too (one that returned would continue past the failed check).
* Not modelled: the mutex of `MemoryStorage`, log output,
  `Status` message texts, `String()`/`Describe` functions, memory management, `uint64_t` overflow of additions,
  `MemoryStorage::IgnoreSize` (a test knob).

## 5. Findings about the code

Properties a user would expect that are false of the code (negation proved):
* **C06** the configured inflight window is truncated to `int32_t`; a size such as `2^32+1` behaves as 1 and the growth computation overflows for sizes above 2^30.
* **C08** a delayed rejection (`Progress::MaybeDecrTo` in probe state) can put `Next` at or below `Match`.
* **C19** `MemoryStorage::CreateSnapshot` mutates the snapshot object it handed out before.
* **C45** `RawNode::Bootstrap` reads the last index of the storage and never looks at it.
* **C53** a re-used (or duplicated in the network) ReadIndex context is confirmed by stale heartbeat responses.
* **C67** a leader that removed itself (or was demoted) keeps leading; if one other voter remains, `IsSingleton()` holds and it answers `MsgReadIndex` at once from its own commit index, without confirming anything: stale reads after the remaining voter was elected. `C67_removed_leader_stale_read`. (etcd has the same code.)
* **C69** a leader that made itself a learner keeps leading, and after it applies a joint change that removes it, the automatic leave entry it appends dereferences its own missing progress (raft.cc 526): `C69_demoted_leader_crashes`. A change without parts but with a transition other than auto is accepted by a leader in a joint configuration (raft.cc: it looks at the number of changes only) and aborts every node that applies it (raft.cc 1711): `C69_explicit_leave_aborts`.
* **C84** a snapshot written without the new hard state leaves a disk from which the node can never be restarted (`LoadState` aborts: commit below the compacted base), and the API has no atomic save; entries without the hard state are harmless. `C84_torn_snapshot`. (The example program never saves the hard state at all.)
* **C77** `Step` moves the entries out of the caller's message object, also when it rejects the append or drops the proposal (util.cc 39-46). The emptied object still has the same number of entries, all blank. Handed in again (in-process delivery of `MsgPtr`, as in the example program, with retransmission), a follower acknowledges entries it does not have, and a leader accepts a proposal whose data is gone.
* **C96** lease-based reads are not linearizable, even with all clocks in step: `leaderCheckQuorum` counts every answer since the previous check, so a cut-off leader goes on for up to two election timeouts, while its followers' lease ends after one. `C96_lease_outlives_followers`. (etcd has the same code.)
* **C86** a conf change whose kind is outside the enumeration (a C++ cast, or a newer version of the schema) loses its kind on the wire and is read by every node as a request to add the node: `C86_unknown_kind_adds`.

Other observations made while modelling (each is visible as a `fatal`/`ub` branch or as an odd definition in the model):
* `JointConfig::At`-style `sizeof` bug; `Ready::String` dereferences a null soft state (raft.cc 126).
* `MemoryStorage::CreateSnapshot` with an index below the offset reads out of range (storage.cc 154).
* `RaftLog::MatchTerm` is true for an index beyond the log with term 0, because out-of-range terms read as 0.
* `election_tick` is truncated to `int`.
* A forwarded `MsgTransferLeader` with non-zero term makes a follower abort in `Send`; so does rejecting a `MsgPreVote` in term 0.
* `MsgReadIndex` without entries is undefined behaviour.
* `MsgApp`/`MsgHeartbeat`/`MsgSnap` with term 0 resets a (pre-)candidate's term to 0.
* A leader whose storage was compacted beyond its snapshot aborts when a follower needs that part (raft.cc 354).
* `pending_conf_index_` is raised even if the proposal is then refused by the quota.
* `pending_read_index_messages_` survives `Reset`; a later leadership answers these reads.
* The commit index of a leader counts its own entries that are not persisted yet; this is safe only because entries and commit index are in the same Ready.
* A non-empty hard state whose commit is below the compacted base makes `LoadState` abort.
* On restart membership comes only from the snapshot's `ConfState`; `Config.applied` beyond the snapshot index skips the configuration changes in between.
* The example application skips entries with empty data, and with them the auto-leave entry of a joint configuration.
