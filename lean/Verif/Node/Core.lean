import Verif.Model.RawNode
import Verif.Proofs.Sets
import Verif.Spec.RaftLog
import Verif.Spec.ConfEntry

/-! # The protocol core of a node and its elementary steps

`Raft.core` keeps the part of the node state the protocol is about and drops timers, uncommitted sizes and random numbers. `CStep` lists the elementary changes of the core, each with the condition under which the code performs
it and the messages it sends. `Verif.Node.Sim` proves that every call of `Raft::Step` and `Raft::Tick` is a sequence of
such steps; the node properties are then proved step by step. -/

namespace Craft

/-- The part of `Raft` that serves linearizable reads: `read_only_`, `read_states_` and `pending_read_index_messages_`. -/
structure Reads where
  ro : ReadOnly := {}
  states : List ReadState := []
  waiting : List Message := []

/-- The protocol part of `Raft` (`/repo/src/raft.h`, private members). -/
structure Core where
  id : Nat
  term : Nat
  vote : Nat
  state : Role
  log : RaftLog
  config : TConfig
  votes : AMap Bool
  progress : ProgressMap
  pci : Nat
  reads : Reads
  maxMsg : Nat
  size : Nat

def Raft.reads (r : Raft) : Reads := { ro := r.readOnly, states := r.readStates, waiting := r.pendingReadIndexMessages }

def Raft.core (r : Raft) : Core :=
  { id := r.id, term := r.term, vote := r.vote, state := r.state, log := r.log, config := r.trk.config, votes := r.trk.votes
    progress := r.trk.progress, pci := r.pendingConfIndex, reads := r.reads, maxMsg := r.maxMsgSize
    size := r.uncommittedSize }

/-- The configuration of the node: never changed by any call. -/
structure Consts where
  id : Nat
  maxMsgSize : Nat
  maxUncommittedSize : Nat
  checkQuorum : Bool
  preVote : Bool
  heartbeatTimeout : Nat
  electionTimeout : Nat
  disableProposalForwarding : Bool
  readOnlyOption : ReadOnlyOption
  maxInflight : Int

def Raft.consts (r : Raft) : Consts :=
  { id := r.id, maxMsgSize := r.maxMsgSize, maxUncommittedSize := r.maxUncommittedSize, checkQuorum := r.checkQuorum
    preVote := r.preVote, heartbeatTimeout := r.heartbeatTimeout, electionTimeout := r.electionTimeout
    disableProposalForwarding := r.disableProposalForwarding, readOnlyOption := r.readOnly.option
    maxInflight := r.trk.maxInflight }

/-- `trk_.Committed()` on the core (`/repo/src/tracker/tracker.cc` 81-83). -/
def Core.quorumIndex (c : Core) : Nat := c.config.voters.committedIndex fun id => (c.progress.find id).map (·.mtch)

/-- `trk_.TallyVotes()` on the core. -/
def Core.tally (c : Core) : VoteState := c.config.voters.voteResult c.votes

/-- `trk_.RecordVote` on the recorded votes (`/repo/src/tracker/tracker.cc` 124-129). -/
def recordVote (votes : AMap Bool) (id : Nat) (v : Bool) : AMap Bool :=
  match votes.find id with
  | none => votes.insert id v
  | some _ => votes

/-- A peer's bookkeeping stays inside the log. -/
structure PrOk (last : Nat) (p : Progress) : Prop where
  next_pos : 1 ≤ p.next
  next_le : p.next ≤ last + 1
  mtch_le : p.mtch ≤ last
  pend_le : p.pendingSnapshot ≤ last

/-- A change of a peer's flow-control state that leaves `Match` alone. -/
structure PrQuiet (l : RaftLog) (p p' : Progress) : Prop where
  mtch : p'.mtch = p.mtch
  learner : p'.isLearner = p.isLearner
  ok : l.WF → l.snapshot.metadata.index ≤ l.lastIndex → PrOk l.lastIndex p → PrOk l.lastIndex p'

/-- The same peers, each changed by `R`; the map stays in canonical form. -/
def PrsRel (R : Nat → Progress → Progress → Prop) (P P' : ProgressMap) : Prop :=
  (∀ id, (P.find id = none ∧ P'.find id = none) ∨ ∃ p p', P.find id = some p ∧ P'.find id = some p' ∧ R id p p') ∧
    ((P.map Prod.fst).Pairwise (· < ·) → (P'.map Prod.fst).Pairwise (· < ·))

/-- What `Reset` (`/repo/src/raft.cc` 490-497) does to a peer. -/
structure PrReset (self last : Nat) (id : Nat) (p p' : Progress) : Prop where
  mtch : p'.mtch = if id = self then last else 0
  next : p'.next = last + 1
  pend : p'.pendingSnapshot = 0
  learner : p'.isLearner = p.isLearner
  state : p'.state = .probe

/-- The message passed the term comparison of `Step`: no term, this term, or a pre-vote message of a later term. -/
def GateOk (im : Message) (c : Core) : Prop :=
  im.term = 0 ∨ im.term = c.term ∨
    (c.term < im.term ∧ (im.type = .preVote ∨ (im.type = .preVoteResp ∧ im.reject = false)))

/-- The pending reads forgotten by `Reset` (`/repo/src/raft.cc` 501). -/
def Reads.reset (x : Reads) : Reads := { x with ro := { option := x.ro.option } }

/-- `CommittedEntryinCurrentTerm` (`/repo/src/raft.cc` 1798-1801). -/
def InTerm (c : Core) : Prop := ∃ t, c.log.term c.log.committed = .ok t ∧ RaftLog.zeroTermOnErrCompacted t = .ok c.term

/-- The read request of status `st` is confirmed: it is queued no later than a request that a quorum acknowledged
(`/repo/src/raft.cc` 1270-1275, `/repo/src/read_only.cc` 49-60). -/
def Confirmed (c : Core) (st : ReadIndexStatus) : Prop :=
  ∃ ctx x rss, ReadOnly.findPending c.reads.ro.pending ctx = some x ∧ c.config.voters.voteResult x.acks = .won ∧
    ReadOnly.advanceScan c.reads.ro.pending ctx c.reads.ro.queue = .ok (rss, true) ∧ st ∈ rss

/-- The request `req` may be answered with index `i` (`/repo/src/raft.cc` 1042-1046, 1276-1279, 1891-1894). -/
def Answer (im : Message) (c : Core) (req : Message) (i : Nat) : Prop :=
  (∃ st, Confirmed c st ∧ req = st.req ∧ i = st.index) ∨
  (i = c.log.committed ∧
    (((c.config.voters.incoming.length = 1 ∧ c.config.voters.outgoing.length = 0) ∧ im.type = .readIndex ∧ req = im) ∨
      (c.reads.ro.option = .leaseBased ∧ InTerm c ∧ ((im.type = .readIndex ∧ req = im) ∨ req ∈ c.reads.waiting))))

/-- Messages sent without a change of the core, while handling `im`. -/
def Emit (env : Env) (im : Message) (c : Core) (m : Message) : Prop :=
  match m.type with
  | .app => m.src = c.id ∧ m.term = c.term ∧ c.state = .leader ∧ m.commit = c.log.committed ∧ m.snapshot = none ∧
      ∃ p mx, c.progress.find m.to = some p ∧ p.isPaused = false ∧ m.index = sub64 p.next 1 ∧
        c.log.term m.index = .ok (.ok m.logTerm) ∧ c.log.entries env p.next mx = .ok (.ok m.entries) ∧ mx = c.maxMsg
  | .snap => m.src = c.id ∧ m.term = c.term ∧ c.state = .leader ∧ m.snapshot = some c.log.snapshot ∧
      c.log.snapshot.metadata.index ≠ 0 ∧ ∃ p, c.progress.find m.to = some p ∧ p.isPaused = false
  | .heartbeat => m.src = c.id ∧ m.term = c.term ∧ c.state = .leader ∧
      (∃ p, c.progress.find m.to = some p ∧ m.commit = min p.mtch c.log.committed) ∧
      (m.context = [] ∨ m.context ∈ c.reads.ro.queue ∨ (ReadOnly.findPending c.reads.ro.pending m.context).isSome)
  | .timeoutNow => m.src = c.id ∧ m.term = c.term ∧ c.state = .leader
  | .readIndexResp => m.src = c.id ∧ m.term = c.term ∧ c.state = .leader ∧
      ∃ req, m.entries = req.entries ∧ m.to = req.src ∧ Answer im c req m.index
  | .vote => m.src = c.id ∧ m.term = c.term ∧ c.state = .candidate ∧ m.index = c.log.lastIndex ∧ c.log.lastTerm = .ok m.logTerm
  | .preVote => m.src = c.id ∧ m.term = c.term + 1 ∧ c.state = .preCandidate ∧ m.index = c.log.lastIndex ∧
      c.log.lastTerm = .ok m.logTerm
  | .voteResp => m.src = c.id ∧ m.term = c.term ∧ m.reject = true ∧ im.type = .vote ∧ m.to = im.src
  | .preVoteResp => m.src = c.id ∧ im.type = .preVote ∧ m.to = im.src ∧
      ((m.reject = true ∧ m.term = c.term) ∨
        (m.reject = false ∧ m.term = im.term ∧ c.log.isUpToDate im.index im.logTerm = .ok true))
  | .appResp => m.src = c.id ∧ m.term = c.term ∧ m.to = im.src ∧
      ((m.index = 0 ∧ m.reject = false ∧ 0 < im.term ∧ im.term < c.term) ∨
       (m.index = c.log.committed ∧ m.reject = false ∧ c.state = .follower ∧ (im.type = .app ∨ im.type = .snap) ∧ GateOk im c) ∨
       (m.reject = true ∧ m.index = im.index ∧ c.state = .follower ∧ im.type = .app ∧ GateOk im c ∧
          c.log.findConflictByTerm (min im.index c.log.lastIndex) im.logTerm = .ok m.rejectHint ∧
          c.log.term m.rejectHint = .ok (.ok m.logTerm)))
  | .prop | .readIndex => (m.src = c.id ∨ (m.src = im.src ∧ im.src ≠ 0)) ∧ m.term = 0 ∧ c.state = .follower ∧ m.type = im.type ∧
      m.entries = im.entries
  | .transferLeader => (m.src = c.id ∨ (m.src = im.src ∧ im.src ≠ 0)) ∧ m.term = c.term ∧ c.state = .follower ∧ m.type = im.type
  | _ => False

/-- The conf-change rule for appending `es` (`/repo/src/raft.cc` 993-1032): either no conf change, or a single one while
none can be pending, which then is the pending one. -/
def ConfGate (c : Core) (es : List Entry) (pci : Nat) : Prop :=
  c.log.applied ≤ c.log.lastIndex →
    ((∀ e ∈ es, e.type = .normal) ∧ pci = c.pci) ∨
    (c.pci ≤ c.log.applied ∧ ∃ a e b, es = a ++ e :: b ∧ e.type ≠ .normal ∧ (∀ x ∈ a ++ b, x.type = .normal) ∧
      pci = c.log.lastIndex + a.length + 1)

/-- Where a conf change that a leader appends comes from: it was proposed, can be parsed, and leaves a joint configuration if and
only if there is one (`/repo/src/raft.cc` 993-1032); or it is the empty change of an automatic leave (543-554). -/
def Asked (env : Env) (im : Message) (c : Core) (e : Entry) : Prop :=
  (im.type = .prop ∧ e ∈ im.entries ∧ ∃ cc, env.conf e = some cc ∧ (cc.asV2.changes = [] ↔ c.config.voters.outgoing ≠ [])) ∨
    (c.config.autoLeave = true ∧ e = { type := .confChangeV2 })

/-- Where any entry that a leader appends comes from: it was proposed, or it is empty (of a new leader, in place of a refused conf
change, or of an automatic leave). -/
def Given (im : Message) (e : Entry) : Prop := e = {} ∨ e = { type := .confChangeV2 } ∨ (im.type = .prop ∧ e ∈ im.entries)

/-- The inputs that can start an election: a tick or `Campaign` (both step `MsgHup`), a leader's `MsgTimeoutNow`, a won
pre-vote. -/
def CampMsg (im : Message) : Prop := im.type = .hup ∨ im.type = .timeoutNow ∨ im.type = .preVoteResp

/-- The message is of a later term that `Step` adopts (`/repo/src/raft.cc` 830-852: not a pre-vote request, not a granted
pre-vote). -/
def Adopts (im : Message) (t : Nat) : Prop :=
  t < im.term ∧ ¬ (im.type = .preVote ∨ (im.type = .preVoteResp ∧ im.reject = false))

theorem GateOk.not_adopts {im : Message} {c : Core} (h : GateOk im c) : ¬ Adopts im c.term := by
  rintro ⟨h1, h2⟩
  rcases h with h | h | ⟨_, h⟩
  · omega
  · omega
  · exact h2 h

theorem Adopts.mono {im : Message} {t t' : Nat} (h : ¬ Adopts im t) (ht : t ≤ t') : ¬ Adopts im t' :=
  fun ⟨h1, h2⟩ => h ⟨by omega, h2⟩

/-- The node knows of no committed conf change it has not applied (`/repo/src/raft.cc` 670-683), nor of a snapshot. -/
def NoPend (c : Core) : Prop := (∀ s, c.log.unstable.snapshot = some s → s.metadata.index = 0) ∧ ∃ env es,
  c.log.slice env (c.log.applied + 1) (c.log.committed + 1) u64Max = .ok (.ok es) ∧
    (Raft.numOfPendingConf es = 0 ∨ c.log.committed ≤ c.log.applied)

/-- The node is a voter as far as it knows (`Promotable`, `/repo/src/raft.cc` 1701-1704), and no conf change is pending. -/
def MayRun (c : Core) : Prop := (∃ p, c.progress.find c.id = some p ∧ p.isLearner = false) ∧ NoPend c

/-- Elementary steps of the core while handling the message `im`, with the messages sent. -/
inductive CStep (env : Env) (im : Message) : Core → List Message → Core → Prop
  /-- Sending something. -/
  | emit {c m} : Emit env im c m → CStep env im c [m] c
  /-- Flow-control updates. -/
  | prs {c} (P : ProgressMap) : PrsRel (fun _ => PrQuiet c.log) c.progress P → CStep env im c [] { c with progress := P }
  /-- `BecomeFollower` (`/repo/src/raft.cc` 586-593). -/
  | follower {c} (T : Nat) (P : ProgressMap) : (T = c.term ∨ (c.term < T ∧ T = im.term)) →
      PrsRel (PrReset c.id c.log.lastIndex) c.progress P → (c.state = .leader → ¬ CampMsg im ∨ Adopts im c.term) →
      CStep env im c [] { c with term := T, vote := if T = c.term then c.vote else 0, state := .follower, votes := []
                                 progress := P, pci := 0, reads := c.reads.reset, size := 0 }
  /-- `BecomeCandidate` (595-606). -/
  | candidate {c} (P : ProgressMap) : CampMsg im → c.state ≠ .leader → PrsRel (PrReset c.id c.log.lastIndex) c.progress P →
      (c.state = .preCandidate ∨ MayRun c) →
      CStep env im c [] { c with term := c.term + 1, vote := c.id, state := .candidate, votes := [], progress := P, pci := 0
                                 reads := c.reads.reset, size := 0 }
  /-- `BecomePreCandidate` (608-622). -/
  | preCandidate {c} : CampMsg im → c.state ≠ .leader → MayRun c → CStep env im c [] { c with state := .preCandidate, votes := [] }
  /-- The node's own vote in `Campaign` (707). -/
  | pollSelf {c} : c.state = .candidate ∨ c.state = .preCandidate →
      CStep env im c [] { c with votes := recordVote c.votes c.id true }
  /-- A vote response (1398). -/
  | pollResp {c} : (c.state = .candidate ∧ im.type = .voteResp) ∨ (c.state = .preCandidate ∧ im.type = .preVoteResp) →
      GateOk im c → CStep env im c [] { c with votes := recordVote c.votes im.src (!im.reject) }
  /-- `BecomeLeader` (624-659), up to the empty entry. -/
  | leader {c} (P : ProgressMap) : c.state = .candidate → c.tally = .won → PrsRel (PrReset c.id c.log.lastIndex) c.progress P →
      (CampMsg im ∨ im.type = .voteResp) → CStep env im c [] { c with state := .leader, votes := [], progress := P, pci := c.log.lastIndex, reads := c.reads.reset, size := 0 }
  /-- `AppendEntry` (509-530), up to the commit. -/
  | append {c} (es : List Entry) (l : RaftLog) (p : Progress) (pci : Nat) : c.state = .leader →
      c.log.append (Raft.stamp c.term (c.log.lastIndex + 1) es) = .ok l → c.progress.find c.id = some p → ConfGate c es pci →
      (∀ e ∈ es, e.type ≠ .normal → Asked env im c e) → (∀ e ∈ es, Given im e) →
      CStep env im c [] { c with log := l, progress := c.progress.insert c.id (p.maybeUpdate l.lastIndex).1, pci := pci
                                 size := c.size + Raft.payloads es }
  /-- `pending_conf_index_` raised for a proposal that was then refused (1023). -/
  | pciUp {c} (n : Nat) : c.state = .leader → c.log.lastIndex < n → CStep env im c [] { c with pci := n }
  /-- `MaybeCommit` (471-474) that committed something. -/
  | commit {c} (l : RaftLog) : c.state = .leader → c.log.maybeCommit c.quorumIndex c.term = .ok (l, true) → ¬ Adopts im c.term →
      CStep env im c [] { c with log := l }
  /-- An acknowledgement (1208-1225). -/
  | ackRecv {c} (p p' : Progress) : c.state = .leader → im.type = .appResp → im.reject = false → GateOk im c →
      c.progress.find im.src = some p → p'.mtch = max p.mtch im.index → p'.isLearner = p.isLearner →
      (im.index ≤ c.log.lastIndex → PrOk c.log.lastIndex p → PrOk c.log.lastIndex p') →
      CStep env im c [] { c with progress := c.progress.insert im.src p' }
  /-- A granted vote (907-921). -/
  | grant {c} : im.type = .vote → im.term ≠ 0 → GateOk im c → (c.vote = im.src ∨ c.vote = 0) →
      c.log.isUpToDate im.index im.logTerm = .ok true →
      CStep env im c [{ type := .voteResp, to := im.src, src := c.id, term := im.term }] { c with vote := im.src }
  /-- An accepted append (1523-1529). -/
  | recvApp {c} (l : RaftLog) (last : Nat) : c.state = .follower → im.type = .app → GateOk im c → c.log.committed ≤ im.index →
      c.log.maybeAppend im.index im.logTerm im.commit im.entries = .ok (l, some last) →
      CStep env im c [{ type := .appResp, to := im.src, src := c.id, term := c.term, index := last }] { c with log := l }
  /-- A heartbeat (1558-1565). -/
  | recvHeartbeat {c} (l : RaftLog) : c.state = .follower → im.type = .heartbeat → GateOk im c →
      c.log.commitTo im.commit = .ok l →
      CStep env im c [{ type := .heartbeatResp, to := im.src, src := c.id, term := c.term, context := im.context }]
        { c with log := l }
  /-- A snapshot the log already contains (1647-1653). -/
  | recvSnapCommit {c} (l : RaftLog) : c.state = .follower → im.type = .snap → GateOk im c →
      c.log.committed < (im.snapshot.getD {}).metadata.index →
      c.log.matchTerm (im.snapshot.getD {}).metadata.index (im.snapshot.getD {}).metadata.term = .ok true →
      c.log.commitTo (im.snapshot.getD {}).metadata.index = .ok l → CStep env im c [] { c with log := l }
  /-- A restored snapshot (1656-1684). -/
  | recvSnap {c} (cfg : TConfig) (P0 : ProgressMap) (p : Progress) (mi : Int) : c.state = .follower → im.type = .snap → GateOk im c →
      c.log.committed < (im.snapshot.getD {}).metadata.index →
      c.log.matchTerm (im.snapshot.getD {}).metadata.index (im.snapshot.getD {}).metadata.term = .ok false →
      Changer.restore { tracker := { maxInflight := mi }, lastIndex := (im.snapshot.getD {}).metadata.index }
        (im.snapshot.getD {}).metadata.confState = .ok (cfg, P0) →
      P0.find c.id = some p →
      CStep env im c [] { c with log := c.log.restore (im.snapshot.getD {}), config := cfg, votes := []
                                 progress := P0.insert c.id (p.maybeUpdate (sub64 p.next 1)).1 }
  /-- A read request that has to wait for a commit in this term (1049-1052). -/
  | readWait {c} : c.state = .leader → im.type = .readIndex →
      CStep env im c [] { c with reads := { c.reads with waiting := c.reads.waiting ++ [im] } }
  /-- A read request is queued (1884-1889). -/
  | readTake {c} (ro : ReadOnly) (e : Entry) (es : List Entry) : c.state = .leader → im.type = .readIndex → c.reads.ro.option = .safe →
      InTerm c → im.entries = e :: es → c.reads.ro.addRequest c.log.committed im = .ok ro →
      CStep env im c [] { c with reads := { c.reads with ro := (ro.recvAck c.id e.data).1 } }
  /-- A waiting read request is queued (1875-1877, 1884-1889). -/
  | readNext {c} (m : Message) (ms : List Message) (ro : ReadOnly) (e : Entry) (es : List Entry) : c.state = .leader →
      c.reads.waiting = m :: ms → c.reads.ro.option = .safe → InTerm c → m.entries = e :: es →
      c.reads.ro.addRequest c.log.committed m = .ok ro →
      CStep env im c [] { c with reads := { c.reads with ro := (ro.recvAck c.id e.data).1, waiting := ms } }
  /-- A waiting read request has been answered (1875-1877, 1891-1894; lease-based reads). -/
  | readSkip {c} (m : Message) (ms : List Message) : c.state = .leader → c.reads.waiting = m :: ms →
      CStep env im c [] { c with reads := { c.reads with waiting := ms } }
  /-- The answer to one of this node's own read requests (1804-1808). -/
  | readState {c} (req : Message) (i : Nat) (e : Entry) (es : List Entry) : c.state = .leader → Answer im c req i → req.entries = e :: es →
      CStep env im c [] { c with reads := { c.reads with states := c.reads.states ++ [{ index := i, requestCtx := e.data }] } }
  /-- A heartbeat response that carries a read request (1266-1270). -/
  | readAck {c} : c.state = .leader → im.type = .heartbeatResp → GateOk im c → c.reads.ro.option = .safe → im.context ≠ [] →
      CStep env im c [] { c with reads := { c.reads with ro := (c.reads.ro.recvAck im.src im.context).1 } }
  /-- `Advance` (1275, `/repo/src/read_only.cc` 44-70). -/
  | readAdvance {c} (ctx : Bytes) (ro : ReadOnly) (rss : List ReadIndexStatus) : c.state = .leader → c.reads.ro.advance ctx = .ok (ro, rss) →
      CStep env im c [] { c with reads := { c.reads with ro := ro } }
  /-- The leader's answer to a forwarded read request (1485-1492). -/
  | readResp {c} (e : Entry) : c.state = .follower → im.type = .readIndexResp → im.entries = [e] →
      CStep env im c [] { c with reads := { c.reads with states := c.reads.states ++ [{ index := im.index, requestCtx := e.data }] } }

/-- Sequences of elementary steps. -/
inductive CPath (env : Env) (im : Message) : Core → List Message → Core → Prop
  | nil {c} : CPath env im c [] c
  | cons {c c' c'' ms ms'} : CStep env im c ms c' → CPath env im c' ms' c'' → CPath env im c (ms ++ ms') c''

theorem CPath.trans {env : Env} {im : Message} {a b c : Core} {ms ms' : List Message} (h1 : CPath env im a ms b)
    (h2 : CPath env im b ms' c) : CPath env im a (ms ++ ms') c := by
  induction h1 with
  | nil => exact h2
  | cons hs _ ih => rw [List.append_assoc]; exact .cons hs (ih h2)

theorem CPath.emits {env : Env} {im : Message} {c : Core} {ms : List Message} (h : ∀ m ∈ ms, Emit env im c m) : CPath env im c ms c := by
  induction ms with
  | nil => exact .nil
  | cons m ms ih => exact .cons (ms := [m]) (.emit (h m (by simp))) (ih fun m hm => h m (by simp [hm]))

theorem CPath.single {env : Env} {im : Message} {a b : Core} {ms : List Message} (h : CStep env im a ms b) : CPath env im a ms b := by
  have := CPath.cons h .nil
  rwa [List.append_nil] at this

/-- The randomised election timeout lies in `[election_tick, 2 * election_tick - 1]`. -/
def TimerOk (r : Raft) : Prop :=
  r.electionTimeout ≤ r.randomizedElectionTimeout ∧ r.randomizedElectionTimeout + 1 ≤ 2 * r.electionTimeout

/-- The randomised election timeout is unchanged, or was drawn again (the draw is defined for this `election_tick`). -/
def TimerRel (a b : Raft) : Prop :=
  b.randomizedElectionTimeout = a.randomizedElectionTimeout ∨ (0 ≤ toI32 ((b.electionTimeout : Int) - 1) → TimerOk b)

/-- What every call keeps: the configuration of the node and the range of its timeout. -/
def Keep (a b : Raft) : Prop := b.consts = a.consts ∧ TimerRel a b

namespace Keep
variable {a b c : Raft}

theorem refl : Keep a a := ⟨rfl, Or.inl rfl⟩

theorem trans (h1 : Keep a b) (h2 : Keep b c) : Keep a c := by
  obtain ⟨k1, t1⟩ := h1
  obtain ⟨k2, t2⟩ := h2
  refine ⟨k2.trans k1, ?_⟩
  rcases t2 with t2 | t2
  · rcases t1 with t1 | t1
    · exact Or.inl (t2.trans t1)
    · right
      have he : c.electionTimeout = b.electionTimeout := congrArg Consts.electionTimeout k2
      intro hg
      have := t1 (by rw [← he]; exact hg)
      unfold TimerOk at *
      rw [he, t2]
      exact this
  · exact Or.inr t2

theorem of (hk : b.consts = a.consts) (ht : b.randomizedElectionTimeout = a.randomizedElectionTimeout) : Keep a b :=
  ⟨hk, Or.inl ht⟩

theorem timerOk (h : Keep a b) (hg : 0 ≤ toI32 ((a.electionTimeout : Int) - 1)) (ht : TimerOk a) : TimerOk b := by
  have he : b.electionTimeout = a.electionTimeout := congrArg Consts.electionTimeout h.1
  rcases h.2 with h | h
  · unfold TimerOk at *
    rw [he, h]; exact ht
  · exact h (by rw [he]; exact hg)

end Keep

/-- The node `r'` comes from `r` by elementary steps, its outbox extended by what these steps send, its configuration
unchanged. -/
def Sim (env : Env) (im : Message) (r r' : Raft) : Prop :=
  Keep r r' ∧ ∃ ms, r'.msgs = r.msgs ++ ms ∧ CPath env im r.core ms r'.core

namespace Sim
variable {env : Env} {im : Message} {a b c : Raft}

theorem refl : Sim env im a a := ⟨.refl, [], by simp, .nil⟩

theorem trans (h1 : Sim env im a b) (h2 : Sim env im b c) : Sim env im a c := by
  obtain ⟨k1, ms1, e1, p1⟩ := h1
  obtain ⟨k2, ms2, e2, p2⟩ := h2
  exact ⟨k1.trans k2, ms1 ++ ms2, by rw [e2, e1, List.append_assoc], p1.trans p2⟩

/-- Changes outside the core. -/
theorem of_core (hk : b.consts = a.consts) (hm : b.msgs = a.msgs) (hc : b.core = a.core)
    (ht : b.randomizedElectionTimeout = a.randomizedElectionTimeout := by rfl) : Sim env im a b :=
  ⟨.of hk ht, [], by rw [hm, List.append_nil], by rw [hc]; exact .nil⟩

theorem of_core' (hk : Keep a b) (hm : b.msgs = a.msgs) (hc : b.core = a.core) : Sim env im a b :=
  ⟨hk, [], by rw [hm, List.append_nil], by rw [hc]; exact .nil⟩

theorem step {ms : List Message} (hk : b.consts = a.consts) (hm : b.msgs = a.msgs ++ ms) (hs : CStep env im a.core ms b.core)
    (ht : b.randomizedElectionTimeout = a.randomizedElectionTimeout := by rfl) :
    Sim env im a b := ⟨.of hk ht, ms, hm, .single hs⟩

theorem step0 (hk : b.consts = a.consts) (hm : b.msgs = a.msgs) (hs : CStep env im a.core [] b.core)
    (ht : b.randomizedElectionTimeout = a.randomizedElectionTimeout := by rfl) :
    Sim env im a b := ⟨.of hk ht, [], by rw [hm, List.append_nil], .single hs⟩

theorem step0' (hk : Keep a b) (hm : b.msgs = a.msgs) (hs : CStep env im a.core [] b.core) :
    Sim env im a b := ⟨hk, [], by rw [hm, List.append_nil], .single hs⟩

theorem id_eq (h : Sim env im a b) : b.id = a.id := congrArg Consts.id h.1.1

end Sim
end Craft
