import Verif.Model.ConfChange
import Verif.Model.PbConf
import Verif.Model.Log
import Verif.Model.ReadOnly

/-! # `/repo/src/raft.{h,cc}`

Log statements have no effect, except that their arguments are evaluated: calls such as `raft_log_->LastTerm()` inside
them can abort and are kept in the model. -/

namespace Craft

/-- `RaftStateType` (`/repo/src/raft.h`). -/
inductive Role where
  | follower | candidate | leader | preCandidate
deriving Repr, DecidableEq, Inhabited

/-- `CampaignType` (`/repo/src/raft.h`). -/
inductive CampaignType where
  | preElection | election | transfer
deriving Repr, DecidableEq, Inhabited

/-- `CampaignTypeName(kTransfer)` = "CampaignTransfer" (`/repo/src/raft.cc` 36) as bytes. -/
def campaignTransferCtx : Bytes :=
  [67, 97, 109, 112, 97, 105, 103, 110, 84, 114, 97, 110, 115, 102, 101, 114]

/-- `SoftState` (`/repo/src/raft.h`). -/
structure SoftState where
  lead : Nat := 0
  raftState : Role := .follower
deriving Repr, DecidableEq, Inhabited

/-- `Ready` (`/repo/src/raft.h`). `snapshot` is never null: `NewReady` stores an empty one (`/repo/src/rawnode.cc` 293). -/
structure Ready where
  softState : Option SoftState := none
  hardState : HardState := {}
  readStates : List ReadState := []
  entries : List Entry := []
  snapshot : Snapshot := {}
  committedEntries : List Entry := []
  messages : List Message := []
  mustSync : Bool := false
deriving Repr, DecidableEq, Inhabited

/-- `Raft::Config` (`/repo/src/raft.h`), without the storage (passed apart) and the logger. -/
structure Config where
  id : Nat := 0
  electionTick : Int := 0
  heartbeatTick : Int := 0
  applied : Nat := 0
  maxSizePerMsg : Nat := 0
  maxCommittedSizePerReady : Nat := 0
  maxUncommittedEntriesSize : Nat := 0
  maxInflightMsgs : Int := 0
  checkQuorum : Bool := false
  preVote : Bool := false
  readOnlyOption : ReadOnlyOption := .safe
  disableProposalForwarding : Bool := false
deriving Repr, DecidableEq, Inhabited

/-- `Config::Validate` (`/repo/src/raft.cc` 158-196): `none` is an error; otherwise the configuration with its
defaults filled in. The storage is never null in the model. -/
def Config.validate (c : Config) : Option Config :=
  if c.id = 0 then none
  else if c.heartbeatTick ≤ 0 then none
  else if c.electionTick ≤ c.heartbeatTick then none
  else
    let c := if c.maxUncommittedEntriesSize = 0 then { c with maxUncommittedEntriesSize := u64Max } else c
    let c := if c.maxCommittedSizePerReady = 0 then { c with maxCommittedSizePerReady := c.maxSizePerMsg } else c
    if c.maxInflightMsgs ≤ 0 then none
    else if c.readOnlyOption = .leaseBased ∧ ¬ c.checkQuorum then none
    else some c

/-- `Raft` (`/repo/src/raft.h`, private members). `step_`/`tick_` are determined by `state`. The random generator is the
position `rngPos` in the stream `env.rand id`. Tick counters are unbounded naturals. -/
structure Raft where
  id : Nat
  term : Nat := 0
  vote : Nat := 0
  readStates : List ReadState := []
  log : RaftLog
  maxMsgSize : Nat
  maxUncommittedSize : Nat
  trk : Tracker
  state : Role := .follower
  isLearner : Bool := false
  msgs : List Message := []
  lead : Nat := 0
  leadTransferee : Nat := 0
  pendingConfIndex : Nat := 0
  uncommittedSize : Nat := 0
  readOnly : ReadOnly := {}
  electionElapsed : Nat := 0
  heartbeatElapsed : Nat := 0
  checkQuorum : Bool := false
  preVote : Bool := false
  heartbeatTimeout : Nat := 0
  electionTimeout : Nat := 0
  randomizedElectionTimeout : Nat := 0
  disableProposalForwarding : Bool := false
  pendingReadIndexMessages : List Message := []
  rngPos : Nat := 0
deriving Repr, DecidableEq, Inhabited

/-- `IsEmptyHardState` (`/repo/src/raft.cc` 67-71). -/
def isEmptyHardState (h : HardState) : Bool := decide (h = {})

/-- `IsEmptySnap` (`/repo/src/raft.cc` 73-75). -/
def isEmptySnap (s : Snapshot) : Bool := decide (s.metadata.index = 0)

/-- `Ready::AppliedCursor` (`/repo/src/raft.cc` 77-87). -/
def Ready.appliedCursor (rd : Ready) : Nat :=
  match rd.committedEntries.getLast? with
  | some e => e.index
  | none => rd.snapshot.metadata.index

namespace Raft

/-- `GetSoftState` (`/repo/src/raft.h`). -/
def softState (r : Raft) : SoftState := { lead := r.lead, raftState := r.state }

/-- `GetHardState` (`/repo/src/raft.h`). -/
def hardState (r : Raft) : HardState := { term := r.term, vote := r.vote, commit := r.log.committed }

/-- Writes a progress object back (mutation through the shared pointer). -/
def setPr (r : Raft) (id : Nat) (p : Progress) : Raft := { r with trk := r.trk.setPr id p }

/-- `trk_.GetProgress(id)` (`/repo/src/tracker/tracker.cc` 155-157); `none` is the null pointer. -/
def pr (r : Raft) (id : Nat) : Option Progress := r.trk.progress.find id

/-- `trk_.GetProgress(id)->...`: dereference. -/
def getPr (r : Raft) (id : Nat) (site : String) : Res Progress :=
  match r.pr id with
  | none => .ub site
  | some p => .ok p

/-- `Send` (`/repo/src/raft.cc` 275-314). -/
def send (r : Raft) (m : Message) : Res Raft :=
  let m := if m.src = 0 then { m with src := r.id } else m
  match m.type with
  | .vote | .voteResp | .preVote | .preVoteResp =>
    if m.term = 0 then .fatal "raft.cc:296" else .ok { r with msgs := r.msgs ++ [m] }
  | .prop | .readIndex =>
    if m.term ≠ 0 then .fatal "raft.cc:301" else .ok { r with msgs := r.msgs ++ [m] }
  | _ =>
    if m.term ≠ 0 then .fatal "raft.cc:301" else .ok { r with msgs := r.msgs ++ [{ m with term := r.term }] }

/-- `MaybeSendAppend` (`/repo/src/raft.cc` 318-390). `MemoryStorage::SnapShot` cannot fail, so lines 343-352 are
unreachable. -/
def maybeSendAppend (env : Env) (r : Raft) (to : Nat) (sendIfEmpty : Bool) : Res (Raft × Bool) := do
  let pr ← r.getPr to "raft.cc:320"
  if pr.isPaused then pure (r, false)
  else
    let st ← r.log.term (sub64 pr.next 1)
    let se ← r.log.entries env pr.next r.maxMsgSize
    let ents := match se with
      | .ok es => es
      | .error _ => []
    if ents = [] ∧ ¬ sendIfEmpty then pure (r, false)
    else match st, se with
      | .ok term, .ok _ =>
        let m : Message :=
          { type := .app, to := to, index := sub64 pr.next 1, logTerm := term, entries := ents,
            commit := r.log.committed }
        let pr ←
          match ents.getLast? with
          | none => pure pr
          | some e =>
            match pr.state with
            | .replicate => do
              let pr := pr.optimisticUpdate e.index
              let infl ← pr.inflights.add e.index
              pure { pr with inflights := infl }
            | .probe => pure { pr with probeSent := true }
            | .snapshot => Res.fatal "raft.cc:383"
        let r ← (r.setPr to pr).send m
        pure (r, true)
      | _, _ =>
        if ¬ pr.recentActive then pure (r, false)
        else
          let snap := r.log.snapshot
          if isEmptySnap snap then .fatal "raft.cc:354"
          else
            let m : Message := { type := .snap, to := to, snapshot := some snap }
            let r ← (r.setPr to (pr.becomeSnapshot snap.metadata.index)).send m
            pure (r, true)

/-- `SendAppend` (`/repo/src/raft.cc` 316). -/
def sendAppend (env : Env) (r : Raft) (to : Nat) : Res Raft := do
  let (r, _) ← r.maybeSendAppend env to true
  pure r

/-- `while (MaybeSendAppend(to, false)) {}` (`/repo/src/raft.cc` 1238-1239) with a bound on the number of iterations. -/
def sendLoop (env : Env) (to : Nat) : Nat → Raft → Res Raft
  | 0, _ => .ub "raft.cc:1238 unbounded loop"
  | fuel + 1, r => do
    let (r, more) ← r.maybeSendAppend env to false
    if more then sendLoop env to fuel r else pure r

/-- `SendHeartbeat` (`/repo/src/raft.cc` 392-406). -/
def sendHeartbeat (r : Raft) (to : Nat) (ctx : Bytes) : Res Raft := do
  let pr ← r.getPr to "raft.cc:399"
  r.send { type := .heartbeat, to := to, commit := min pr.mtch r.log.committed, context := ctx }

/-- `trk_.Visit` with a closure that skips this node and sends (`/repo/src/raft.cc` 408-415, 422-429): the closure never
adds or removes keys. -/
def visitOthers (f : Raft → Nat → Res Raft) : List Nat → Raft → Res Raft
  | [], r => .ok r
  | id :: ids, r =>
    if id = r.id then visitOthers f ids r
    else do
      let r ← f r id
      visitOthers f ids r

/-- `BcastAppend` (`/repo/src/raft.cc` 408-415). -/
def bcastAppend (env : Env) (r : Raft) : Res Raft :=
  visitOthers (fun r id => r.sendAppend env id) r.trk.progress.keys r

/-- `BcastHeartbeatWithCtx` (`/repo/src/raft.cc` 422-429). -/
def bcastHeartbeatWithCtx (r : Raft) (ctx : Bytes) : Res Raft :=
  visitOthers (fun r id => r.sendHeartbeat id ctx) r.trk.progress.keys r

/-- `BcastHeartbeat` (`/repo/src/raft.cc` 417-420). -/
def bcastHeartbeat (r : Raft) : Res Raft := r.bcastHeartbeatWithCtx r.readOnly.lastPendingRequestCtx

/-- `MaybeCommit` (`/repo/src/raft.cc` 471-474). -/
def maybeCommit (r : Raft) : Res (Raft × Bool) := do
  let (l, b) ← r.log.maybeCommit r.trk.committed r.term
  pure ({ r with log := l }, b)

/-- Upper bound (exclusive) of the draw in `ResetRandomizedElectionTimeout`: the range is
`[0, static_cast<int>(election_timeout_ - 1)]`. -/
def randBound (electionTimeout : Nat) : Nat := (toI32 ((electionTimeout : Int) - 1) + 1).toNat

/-- `ResetRandomizedElectionTimeout` (`/repo/src/raft.cc` 1786-1789). A negative upper bound is excluded in `Raft.new`. -/
def resetRandomizedElectionTimeout (env : Env) (r : Raft) : Raft :=
  { r with
    randomizedElectionTimeout := r.electionTimeout + env.rand r.id r.rngPos % randBound r.electionTimeout
    rngPos := r.rngPos + 1 }

/-- The closure of `Reset` (`/repo/src/raft.cc` 490-497) for one peer. -/
def resetPr (r : Raft) (id : Nat) (p : Progress) : Progress :=
  let q := Progress.new (r.log.lastIndex + 1) 0 r.trk.maxInflight p.isLearner false
  if id = r.id then { q with mtch := r.log.lastIndex } else q

/-- `Reset` (`/repo/src/raft.cc` 476-502). -/
def reset (env : Env) (r : Raft) (term : Nat) : Raft :=
  let r := if r.term ≠ term then { r with term := term, vote := 0 } else r
  let r := { r with lead := 0, electionElapsed := 0, heartbeatElapsed := 0 }
  let r := r.resetRandomizedElectionTimeout env
  { r with
    leadTransferee := 0
    trk := { r.trk with votes := [], progress := r.trk.progress.map fun (id, p) => (id, r.resetPr id p) }
    pendingConfIndex := 0
    uncommittedSize := 0
    readOnly := { option := r.readOnly.option } }

/-- Sum of payload sizes (`/repo/src/raft.cc` 1818-1821). -/
def payloads (es : List Entry) : Nat := (es.map payloadSize).sum

/-- `IncreaseUncommittedSize` (`/repo/src/raft.cc` 1817-1836). -/
def increaseUncommittedSize (r : Raft) (es : List Entry) : Raft × Bool :=
  let s := payloads es
  if r.uncommittedSize > 0 ∧ s > 0 ∧ r.uncommittedSize + s > r.maxUncommittedSize then (r, false)
  else ({ r with uncommittedSize := r.uncommittedSize + s }, true)

/-- `ReduceUncommittedSize` (`/repo/src/raft.cc` 1838-1853). -/
def reduceUncommittedSize (r : Raft) (es : List Entry) : Raft :=
  if r.uncommittedSize = 0 then r
  else
    let s := payloads es
    if s > r.uncommittedSize then { r with uncommittedSize := 0 }
    else { r with uncommittedSize := r.uncommittedSize - s }

/-- The stamping loop of `AppendEntry` (`/repo/src/raft.cc` 511-514): sets term and consecutive indexes starting at `i`. -/
def stamp (term : Nat) : Nat → List Entry → List Entry
  | _, [] => []
  | i, e :: es => { e with term := term, index := i } :: stamp term (i + 1) es

/-- `AppendEntry` (`/repo/src/raft.cc` 509-530). -/
def appendEntry (r : Raft) (es : List Entry) : Res (Raft × Bool) :=
  let es := stamp r.term (r.log.lastIndex + 1) es
  let (r, ok) := r.increaseUncommittedSize es
  if ¬ ok then .ok (r, false)
  else do
    let l ← r.log.append es
    let r := { r with log := l }
    let pr ← r.getPr r.id "raft.cc:526"
    let r := r.setPr r.id (pr.maybeUpdate l.lastIndex).1
    let (r, _) ← r.maybeCommit
    pure (r, true)

/-- `BecomeFollower` (`/repo/src/raft.cc` 586-593). -/
def becomeFollower (env : Env) (r : Raft) (term lead : Nat) : Raft :=
  { r.reset env term with lead := lead, state := .follower }

/-- `BecomeCandidate` (`/repo/src/raft.cc` 595-606). -/
def becomeCandidate (env : Env) (r : Raft) : Res Raft :=
  if r.state = .leader then .fatal "raft.cc:598"
  else .ok { r.reset env (r.term + 1) with vote := r.id, state := .candidate }

/-- `BecomePreCandidate` (`/repo/src/raft.cc` 608-622). -/
def becomePreCandidate (r : Raft) : Res Raft :=
  if r.state = .leader then .fatal "raft.cc:611"
  else .ok { r with trk := r.trk.resetVotes, lead := 0, state := .preCandidate }

/-- `BecomeLeader` (`/repo/src/raft.cc` 624-659). -/
def becomeLeader (env : Env) (r : Raft) : Res Raft :=
  if r.state = .follower then .fatal "raft.cc:627"
  else do
    let r := { r.reset env r.term with lead := r.id, state := .leader }
    let pr ← r.getPr r.id "raft.cc:639"
    let r := r.setPr r.id pr.becomeReplicate
    let r := { r with pendingConfIndex := r.log.lastIndex }
    let (r, ok) ← r.appendEntry [{}]
    if ¬ ok then .fatal "raft.cc:651"
    else pure (r.reduceUncommittedSize [{}])

/-- `Promotable` (`/repo/src/raft.cc` 1687-1690). -/
def promotable (r : Raft) : Bool :=
  match r.pr r.id with
  | none => false
  | some p => !p.isLearner && !r.log.hasPendingSnapshot

/-- `Poll` (`/repo/src/raft.cc` 744-756). -/
def poll (r : Raft) (id : Nat) (v : Bool) : Raft × VoteState :=
  let r := { r with trk := r.trk.recordVote id v }
  (r, r.trk.tallyVotes)

/-- The request loop of `Campaign` (`/repo/src/raft.cc` 722-741). -/
def sendVotes (r : Raft) (voteMsg : MsgType) (term : Nat) (ctx : Bytes) : List Nat → Res Raft
  | [] => .ok r
  | id :: ids =>
    if id = r.id then sendVotes r voteMsg term ctx ids
    else do
      let lt ← r.log.lastTerm
      let r ← r.send { type := voteMsg, to := id, term := term, index := r.log.lastIndex, logTerm := lt, context := ctx }
      sendVotes r voteMsg term ctx ids

/-- `Campaign` (`/repo/src/raft.cc` 689-742) for `kElection` and `kTransfer`. -/
def campaignElection (env : Env) (r : Raft) (transfer : Bool) : Res Raft := do
  let r ← r.becomeCandidate env
  let term := r.term
  let (r, res) := r.poll r.id true
  if res = .won then r.becomeLeader env
  else r.sendVotes .vote term (if transfer then campaignTransferCtx else []) r.trk.voterNodes

/-- `Campaign` (`/repo/src/raft.cc` 689-742); the recursive call at line 715 is `campaignElection`. -/
def campaign (env : Env) (r : Raft) (t : CampaignType) : Res Raft :=
  match t with
  | .preElection => do
    let r ← r.becomePreCandidate
    let term := r.term + 1
    let (r, res) := r.poll r.id true
    if res = .won then r.campaignElection env false
    else r.sendVotes .preVote term [] r.trk.voterNodes
  | .election => r.campaignElection env false
  | .transfer => r.campaignElection env true

/-- `NumOfPendingConf` (`/repo/src/raft.cc` 1855-1864). -/
def numOfPendingConf (es : List Entry) : Nat := (es.filter fun e => decide (e.type ≠ .normal)).length

/-- `Hup` (`/repo/src/raft.cc` 661-687). -/
def hup (env : Env) (r : Raft) (t : CampaignType) : Res Raft :=
  if r.state = .leader then .ok r
  else if ¬ r.promotable then .ok r
  else do
    match ← r.log.slice env (r.log.applied + 1) (r.log.committed + 1) u64Max with
    | .error _ => .fatal "raft.cc:674"
    | .ok ents =>
      if numOfPendingConf ents ≠ 0 ∧ r.log.committed > r.log.applied then pure r
      else r.campaign env t

/-- `CommittedEntryinCurrentTerm` (`/repo/src/raft.cc` 1798-1801). -/
def committedEntryInCurrentTerm (r : Raft) : Res Bool := do
  let t ← RaftLog.zeroTermOnErrCompacted (← r.log.term r.log.committed)
  pure (decide (t = r.term))

/-- `ResponseToReadIndexReq` (`/repo/src/raft.cc` 1803-1815). -/
def responseToReadIndexReq (r : Raft) (req : Message) (readIndex : Nat) : Res (Raft × Message) :=
  if req.src = 0 ∨ req.src = r.id then do
    let ctx ← ReadOnly.reqCtx req "raft.cc:1806"
    pure ({ r with readStates := r.readStates ++ [{ index := readIndex, requestCtx := ctx }] }, {})
  else .ok (r, { type := .readIndexResp, to := req.src, index := readIndex, entries := req.entries })

/-- `auto resp = ResponseToReadIndexReq(..); if (resp->to() != kNone) Send(resp);`
(`/repo/src/raft.cc` 1043-1046, 1276-1279, 1891-1894). -/
def respondReadIndex (r : Raft) (req : Message) (readIndex : Nat) : Res Raft := do
  let (r, resp) ← r.responseToReadIndexReq req readIndex
  if resp.to ≠ 0 then r.send resp else pure r

/-- `SendMsgReadIndexResponse` (`/repo/src/raft.cc` 1880-1896). -/
def sendMsgReadIndexResponse (r : Raft) (m : Message) : Res Raft :=
  match r.readOnly.option with
  | .safe => do
    let ro ← r.readOnly.addRequest r.log.committed m
    let ctx ← ReadOnly.reqCtx m "raft.cc:1888"
    let (ro, _) := ro.recvAck r.id ctx
    ({ r with readOnly := ro } : Raft).bcastHeartbeatWithCtx ctx
  | .leaseBased => r.respondReadIndex m r.log.committed

/-- Loop of `ReleasePendingReadIndexMessages` (`/repo/src/raft.cc` 1875-1877). -/
def releaseLoop : List Message → Raft → Res Raft
  | [], r => .ok r
  | m :: ms, r => do
    let r ← r.sendMsgReadIndexResponse m
    releaseLoop ms r

/-- `ReleasePendingReadIndexMessages` (`/repo/src/raft.cc` 1866-1878). The deque is moved from, i.e. emptied. -/
def releasePendingReadIndexMessages (r : Raft) : Res Raft := do
  let c ← r.committedEntryInCurrentTerm
  if ¬ c then pure r
  else releaseLoop r.pendingReadIndexMessages { r with pendingReadIndexMessages := [] }

/-- `SendTimeoutNow` (`/repo/src/raft.cc` 1791-1796). -/
def sendTimeoutNow (r : Raft) (to : Nat) : Res Raft := r.send { type := .timeoutNow, to := to }

/-- `HandleAppendEntries` (`/repo/src/raft.cc` 1507-1556). -/
def handleAppendEntries (r : Raft) (m : Message) : Res Raft :=
  if m.index < r.log.committed then
    r.send { type := .appResp, to := m.src, index := r.log.committed }
  else do
    let (l, res) ← r.log.maybeAppend m.index m.logTerm m.commit m.entries
    match res with
    | some lastIndex => ({ r with log := l } : Raft).send { type := .appResp, to := m.src, index := lastIndex }
    | none =>
      let _ ← RaftLog.zeroTermOnErrCompacted (← r.log.term m.index)
      let hintIndex ← r.log.findConflictByTerm (min m.index r.log.lastIndex) m.logTerm
      match ← r.log.term hintIndex with
      | .error _ => .fatal "raft.cc:1544"
      | .ok hintTerm =>
        r.send { type := .appResp, to := m.src, index := m.index, reject := true, rejectHint := hintIndex,
                 logTerm := hintTerm }

/-- `HandleHearbeat` (`/repo/src/raft.cc` 1558-1565). -/
def handleHeartbeat (r : Raft) (m : Message) : Res Raft := do
  let l ← r.log.commitTo m.commit
  ({ r with log := l } : Raft).send { type := .heartbeatResp, to := m.src, context := m.context }

/-- The final `Visit` of `SwitchToConfig` (`/repo/src/raft.cc` 1759-1760): every peer, this node included. -/
def visitSend (env : Env) : List Nat → Raft → Res Raft
  | [], r => .ok r
  | id :: ids, r => do
    let (r, _) ← r.maybeSendAppend env id false
    visitSend env ids r

/-- `is_learner_ = pr != nullptr && pr->IsLearner()` (`/repo/src/raft.cc` 1727-1729). -/
def selfLearner (r : Raft) : Bool :=
  match r.pr r.id with
  | some p => p.isLearner
  | none => false

/-- Sends after a configuration change on a leader (`/repo/src/raft.cc` 1752-1761). -/
def switchSend (env : Env) (r : Raft) : Res Raft := do
  let (r, c) ← r.maybeCommit
  if c then r.bcastAppend env else visitSend env r.trk.progress.keys r

/-- `SwitchToConfig` (`/repo/src/raft.cc` 1716-1769). -/
def switchToConfig (env : Env) (r : Raft) (cfg : TConfig) (prs : ProgressMap) : Res (Raft × ConfState) := do
  let r := { r with trk := { r.trk with config := cfg, progress := prs } }
  let cs := r.trk.confState
  let r := { r with isLearner := r.selfLearner }
  if ((r.pr r.id).isNone ∨ r.isLearner) ∧ r.state = .leader then pure (r, cs)
  else if r.state ≠ .leader ∨ cs.voters.length = 0 then pure (r, cs)
  else
    let r ← r.switchSend env
    if ¬ (r.trk.config.voters.ids.has r.leadTransferee) ∧ r.leadTransferee ≠ 0 then
      pure ({ r with leadTransferee := 0 }, cs)
    else pure (r, cs)

/-- `Restore` (`/repo/src/raft.cc` 1590-1685). -/
def restore (env : Env) (r : Raft) (s : Snapshot) : Res (Raft × Bool) :=
  if s.metadata.index ≤ r.log.committed then .ok (r, false)
  else if r.state ≠ .follower then .ok (r.becomeFollower env (r.term + 1) 0, false)
  else
    let cs := s.metadata.confState
    if ¬ (r.id ∈ cs.voters ∨ r.id ∈ cs.learners ∨ r.id ∈ cs.votersOutgoing) then .ok (r, false)
    else do
      let m ← r.log.matchTerm s.metadata.index s.metadata.term
      if m then
        let _ ← r.log.lastTerm
        let l ← r.log.commitTo s.metadata.index
        pure ({ r with log := l }, false)
      else
        let r := { r with log := r.log.restore s, trk := { maxInflight := r.trk.maxInflight } }
        match Changer.restore { tracker := r.trk, lastIndex := r.log.lastIndex } cs with
        | .error _ => .fatal "raft.cc:1668"
        | .ok (cfg, prs) =>
          let (r, cs2) ← r.switchToConfig env cfg prs
          if ¬ confStateEq cs cs2 then .fatal "raft.cc:1673"
          else
            let pr ← r.getPr r.id "raft.cc:1676"
            let r := r.setPr r.id (pr.maybeUpdate (sub64 pr.next 1)).1
            let _ ← r.log.lastTerm
            pure (r, true)

/-- `HandleSnapshot` (`/repo/src/raft.cc` 1567-1588). A missing snapshot field reads as the empty snapshot. -/
def handleSnapshot (env : Env) (r : Raft) (m : Message) : Res Raft := do
  let (r, ok) ← r.restore env (m.snapshot.getD {})
  if ok then r.send { type := .appResp, to := m.src, index := r.log.lastIndex }
  else r.send { type := .appResp, to := m.src, index := r.log.committed }

/-- The conf-change gate of the `MsgProp` case of `StepLeader` (`/repo/src/raft.cc` 993-1032): `i` counts entries, `pci` is
`pending_conf_index_`. Returns the possibly rewritten entries and the new `pending_conf_index_`. -/
def gateConf (env : Env) (r : Raft) : Nat → Nat → List Entry → Res (List Entry × Nat)
  | _, pci, [] => .ok ([], pci)
  | i, pci, e :: es => do
    -- number of changes of the parsed conf change, if it is one
    let n : Option Nat ←
      match e.type with
      | .normal => pure none
      | .confChange =>
        match env.parseV1 e.data with
        | none => .fatal "raft.cc:999"
        | some _ => pure (some 1)
      | .confChangeV2 =>
        match env.parseV2 e.data with
        | none => .fatal "raft.cc:1005"
        | some cc => pure (some cc.changes.length)
    match n with
    | none => do
      let (es, pci) ← gateConf env r (i + 1) pci es
      pure (e :: es, pci)
    | some n =>
      let alreadyPending := decide (pci > r.log.applied)
      let alreadyJoint := decide (r.trk.config.voters.outgoing.length > 0)
      let wantsLeave := decide (n = 0)
      if alreadyPending || (alreadyJoint && !wantsLeave) || (!alreadyJoint && wantsLeave) then do
        let (es, pci) ← gateConf env r (i + 1) pci es
        pure ({} :: es, pci)
      else do
        let (es, pci) ← gateConf env r (i + 1) (r.log.lastIndex + i + 1) es
        pure (e :: es, pci)

/-- `MsgProp` case of `StepLeader` (`/repo/src/raft.cc` 975-1039). -/
def leaderProp (env : Env) (r : Raft) (m : Message) : Res (Raft × Option Err) :=
  if m.entries = [] then .fatal "raft.cc:977"
  else if (r.pr r.id).isNone then .ok (r, some .proposalDropped)
  else if r.leadTransferee ≠ 0 then .ok (r, some .proposalDropped)
  else do
    let (es, pci) ← gateConf env r 0 r.pendingConfIndex m.entries
    let r := { r with pendingConfIndex := pci }
    let (r, ok) ← r.appendEntry es
    if ¬ ok then pure (r, some .proposalDropped)
    else
      let r ← r.bcastAppend env
      pure (r, none)

/-- `MsgReadIndex` case of `StepLeader` (`/repo/src/raft.cc` 1040-1060). -/
def leaderReadIndex (r : Raft) (m : Message) : Res Raft :=
  if r.trk.isSingleton then r.respondReadIndex m r.log.committed
  else do
    let c ← r.committedEntryInCurrentTerm
    if ¬ c then pure { r with pendingReadIndexMessages := r.pendingReadIndexMessages ++ [m] }
    else r.sendMsgReadIndexResponse m

/-- `MsgCheckQuorum` case of `StepLeader` (`/repo/src/raft.cc` 950-974). -/
def leaderCheckQuorum (env : Env) (r : Raft) : Raft :=
  let r := match r.pr r.id with
    | some p => r.setPr r.id { p with recentActive := true }
    | none => r
  let r := if ¬ r.trk.quorumActive then r.becomeFollower env r.term 0 else r
  { r with trk := { r.trk with
      progress := r.trk.progress.map fun (id, p) =>
        (id, if id ≠ r.id then { p with recentActive := false } else p) } }

/-- Rejected `MsgAppResp` (`/repo/src/raft.cc` 1075-1207); `pr` is the sender's progress. -/
def leaderAppReject (env : Env) (r : Raft) (m : Message) (pr : Progress) : Res Raft := do
  let nextProbe ← if m.logTerm > 0 then r.log.findConflictByTerm m.rejectHint m.logTerm else pure m.rejectHint
  let (pr, decr) := pr.maybeDecrTo m.index nextProbe
  if decr then
    let pr := if pr.state = .replicate then pr.becomeProbe else pr
    (r.setPr m.src pr).sendAppend env m.src
  else pure (r.setPr m.src pr)

/-- Accepted `MsgAppResp` (`/repo/src/raft.cc` 1208-1249). -/
def leaderAppAccept (env : Env) (r : Raft) (m : Message) (pr : Progress) : Res Raft := do
  let oldPaused := pr.isPaused
  let (pr, updated) := pr.maybeUpdate m.index
  if ¬ updated then pure (r.setPr m.src pr)
  else
    let pr ←
      match pr.state with
      | .probe => pure pr.becomeReplicate
      | .snapshot => if pr.mtch ≥ pr.pendingSnapshot then pure pr.becomeProbe.becomeReplicate else pure pr
      | .replicate => do
        let infl ← pr.inflights.freeLE m.index
        pure { pr with inflights := infl }
    let r := r.setPr m.src pr
    let (r, c) ← r.maybeCommit
    let r ←
      if c then do
        let r ← r.releasePendingReadIndexMessages
        r.bcastAppend env
      else if oldPaused then r.sendAppend env m.src
      else pure r
    let r ← sendLoop env m.src (r.log.lastIndex + 2) r
    let pr ← r.getPr m.src "raft.cc:1242"
    if m.src = r.leadTransferee ∧ pr.mtch = r.log.lastIndex then r.sendTimeoutNow m.src
    else pure r

/-- Response loop after `read_only_->Advance` (`/repo/src/raft.cc` 1275-1280). -/
def respondAll : List ReadIndexStatus → Raft → Res Raft
  | [], r => .ok r
  | rs :: rss, r => do
    let r ← r.respondReadIndex rs.req rs.index
    respondAll rss r

/-- `MsgHeartbeatResp` case of `StepLeader` (`/repo/src/raft.cc` 1252-1282). -/
def leaderHeartbeatResp (env : Env) (r : Raft) (m : Message) (pr : Progress) : Res Raft := do
  let pr := { pr with recentActive := true, probeSent := false }
  let pr ←
    if pr.state = .replicate ∧ pr.inflights.full then do
      let infl ← pr.inflights.freeFirstOne
      pure { pr with inflights := infl }
    else pure pr
  let r := r.setPr m.src pr
  let r ← if pr.mtch < r.log.lastIndex then r.sendAppend env m.src else pure r
  if r.readOnly.option ≠ .safe ∨ m.context = [] then pure r
  else
    let (ro, acks) := r.readOnly.recvAck m.src m.context
    let r := { r with readOnly := ro }
    if r.trk.config.voters.voteResult acks ≠ .won then pure r
    else
      let (ro, rss) ← r.readOnly.advance m.context
      respondAll rss { r with readOnly := ro }

/-- `MsgSnapStatus` case of `StepLeader` (`/repo/src/raft.cc` 1283-1312). -/
def leaderSnapStatus (r : Raft) (m : Message) (pr : Progress) : Raft :=
  if pr.state ≠ .snapshot then r
  else
    let pr := if ¬ m.reject then pr.becomeProbe else ({ pr with pendingSnapshot := 0 } : Progress).becomeProbe
    r.setPr m.src { pr with probeSent := true }

/-- `MsgTransferLeader` case of `StepLeader` (`/repo/src/raft.cc` 1324-1364). -/
def leaderTransfer (env : Env) (r : Raft) (m : Message) (pr : Progress) : Res Raft :=
  if pr.isLearner then .ok r
  else if r.leadTransferee ≠ 0 ∧ r.leadTransferee = m.src then .ok r
  else
    let r := if r.leadTransferee ≠ 0 then { r with leadTransferee := 0 } else r
    if m.src = r.id then .ok r
    else
      let r := { r with electionElapsed := 0, leadTransferee := m.src }
      if pr.mtch = r.log.lastIndex then r.sendTimeoutNow m.src
      else r.sendAppend env m.src

/-- `StepLeader` (`/repo/src/raft.cc` 943-1370). -/
def stepLeader (env : Env) (r : Raft) (m : Message) : Res (Raft × Option Err) :=
  match m.type with
  | .beat => do let r ← r.bcastHeartbeat; pure (r, none)
  | .checkQuorum => .ok (r.leaderCheckQuorum env, none)
  | .prop => r.leaderProp env m
  | .readIndex => do let r ← r.leaderReadIndex m; pure (r, none)
  | _ =>
    match r.pr m.src with
    | none => .ok (r, none)
    | some pr =>
      match m.type with
      | .appResp => do
        let pr := { pr with recentActive := true }
        let r := r.setPr m.src pr
        let r ← if m.reject then r.leaderAppReject env m pr else r.leaderAppAccept env m pr
        pure (r, none)
      | .heartbeatResp => do let r ← r.leaderHeartbeatResp env m pr; pure (r, none)
      | .snapStatus => .ok (r.leaderSnapStatus m pr, none)
      | .unreachable =>
        .ok (if pr.state = .replicate then r.setPr m.src pr.becomeProbe else r, none)
      | .transferLeader => do let r ← r.leaderTransfer env m pr; pure (r, none)
      | _ => .ok (r, none)

/-- Vote-response case of `StepCandidate` (`/repo/src/raft.cc` 1398-1416). -/
def candidateVoteResp (env : Env) (r : Raft) (m : Message) : Res Raft :=
  let (r, res) := r.poll m.src (!m.reject)
  match res with
  | .won =>
    if r.state = .preCandidate then r.campaignElection env false
    else do
      let r ← r.becomeLeader env
      r.bcastAppend env
  | .lost => .ok (r.becomeFollower env r.term 0)
  | .pending => .ok r

/-- `StepCandidate` (`/repo/src/raft.cc` 1372-1423). -/
def stepCandidate (env : Env) (r : Raft) (m : Message) : Res (Raft × Option Err) :=
  match m.type with
  | .prop => .ok (r, some .proposalDropped)
  | .app => do
    let r ← (r.becomeFollower env m.term m.src).handleAppendEntries m
    pure (r, none)
  | .heartbeat => do
    let r ← (r.becomeFollower env m.term m.src).handleHeartbeat m
    pure (r, none)
  | .snap => do
    let r ← (r.becomeFollower env m.term m.src).handleSnapshot env m
    pure (r, none)
  | .preVoteResp =>
    if r.state = .preCandidate then do let r ← r.candidateVoteResp env m; pure (r, none) else .ok (r, none)
  | .voteResp =>
    if r.state ≠ .preCandidate then do let r ← r.candidateVoteResp env m; pure (r, none) else .ok (r, none)
  | _ => .ok (r, none)

/-- `StepFollower` (`/repo/src/raft.cc` 1425-1505). -/
def stepFollower (env : Env) (r : Raft) (m : Message) : Res (Raft × Option Err) :=
  match m.type with
  | .prop =>
    if r.lead = 0 then .ok (r, some .proposalDropped)
    else if r.disableProposalForwarding then .ok (r, some .proposalDropped)
    else do let r ← r.send { m with to := r.lead }; pure (r, none)
  | .app => do
    let r ← ({ r with electionElapsed := 0, lead := m.src } : Raft).handleAppendEntries m
    pure (r, none)
  | .heartbeat => do
    let r ← ({ r with electionElapsed := 0, lead := m.src } : Raft).handleHeartbeat m
    pure (r, none)
  | .snap => do
    let r ← ({ r with electionElapsed := 0, lead := m.src } : Raft).handleSnapshot env m
    pure (r, none)
  | .transferLeader =>
    if r.lead = 0 then .ok (r, none) else do let r ← r.send { m with to := r.lead }; pure (r, none)
  | .timeoutNow => do let r ← r.hup env .transfer; pure (r, none)
  | .readIndex =>
    if r.lead = 0 then .ok (r, none) else do let r ← r.send { m with to := r.lead }; pure (r, none)
  | .readIndexResp =>
    match m.entries with
    | [e] => .ok ({ r with readStates := r.readStates ++ [{ index := m.index, requestCtx := e.data }] }, none)
    | _ => .ok (r, none)
  | _ => .ok (r, none)

/-- `step_(m)`: the handler installed by the last `Become*` call (`/repo/src/raft.cc` 587, 600, 616, 629). -/
def stepState (env : Env) (r : Raft) (m : Message) : Res (Raft × Option Err) :=
  match r.state with
  | .follower => r.stepFollower env m
  | .candidate | .preCandidate => r.stepCandidate env m
  | .leader => r.stepLeader env m

/-- Outcome of the term comparison at the start of `Step`: go on with a (possibly demoted) node, or return. -/
inductive Gate where
  | go (r : Raft)
  | stop (r : Raft)
deriving Repr, DecidableEq

/-- First part of `Step` (`/repo/src/raft.cc` 761-858): compares the message term with the node's. -/
def stepGate (env : Env) (r : Raft) (m : Message) : Res Gate :=
  if m.term = 0 then .ok (.go r)
  else if m.term > r.term then
    if (m.type = .vote ∨ m.type = .preVote) ∧ m.context ≠ campaignTransferCtx ∧
        (r.checkQuorum ∧ r.lead ≠ 0 ∧ r.electionElapsed < r.electionTimeout) then do
      let _ ← r.log.lastTerm
      pure (.stop r)
    else if m.type = .preVote then .ok (.go r)
    else if m.type = .preVoteResp ∧ ¬ m.reject then .ok (.go r)
    else if m.type = .app ∨ m.type = .heartbeat ∨ m.type = .snap then
      .ok (.go (r.becomeFollower env m.term m.src))
    else .ok (.go (r.becomeFollower env m.term 0))
  else if m.term < r.term then
    if (r.checkQuorum ∨ r.preVote) ∧ (m.type = .heartbeat ∨ m.type = .app) then do
      let r ← r.send { type := .appResp, to := m.src }
      pure (.stop r)
    else if m.type = .preVote then do
      let _ ← r.log.lastTerm
      let r ← r.send { type := .preVoteResp, to := m.src, term := r.term, reject := true }
      pure (.stop r)
    else .ok (.stop r)
  else .ok (.go r)

/-- `can_vote && raft_log_->IsUpToData(...)` (`/repo/src/raft.cc` 867-877). -/
def canGrant (r : Raft) (m : Message) : Res Bool :=
  if r.vote = m.src ∨ (r.vote = 0 ∧ r.lead = 0) ∨ (m.type = .preVote ∧ m.term > r.term) then
    r.log.isUpToDate m.index m.logTerm
  else .ok false

/-- `MsgVote`/`MsgPreVote` case of `Step` (`/repo/src/raft.cc` 866-933). -/
def stepVote (r : Raft) (m : Message) : Res Raft := do
  let up ← r.canGrant m
  let _ ← r.log.lastTerm
  let rt ← voteRespMsgType m.type
  if up then
    let r ← r.send { type := rt, to := m.src, term := m.term }
    if m.type = .vote then pure { r with electionElapsed := 0, vote := m.src } else pure r
  else r.send { type := rt, to := m.src, term := r.term, reject := true }

/-- Second part of `Step` (`/repo/src/raft.cc` 860-940). -/
def stepBody (env : Env) (r : Raft) (m : Message) : Res (Raft × Option Err) :=
  match m.type with
  | .hup => do
    let r ← r.hup env (if r.preVote then .preElection else .election)
    pure (r, none)
  | .vote | .preVote => do
    let r ← r.stepVote m
    pure (r, none)
  | _ => r.stepState env m

/-- `Step` (`/repo/src/raft.cc` 758-941). -/
def step (env : Env) (r : Raft) (m : Message) : Res (Raft × Option Err) := do
  match ← r.stepGate env m with
  | .stop r => pure (r, none)
  | .go r => r.stepBody env m

/-- `PastElectionTimeout` (`/repo/src/raft.cc` 1782-1784). -/
def pastElectionTimeout (r : Raft) : Bool := decide (r.electionElapsed ≥ r.randomizedElectionTimeout)

/-- `TickElection` (`/repo/src/raft.cc` 533-545). -/
def tickElection (env : Env) (r : Raft) : Res Raft :=
  let r := { r with electionElapsed := r.electionElapsed + 1 }
  if r.promotable ∧ r.pastElectionTimeout then do
    let (r, _) ← ({ r with electionElapsed := 0 } : Raft).step env { type := .hup, src := r.id }
    pure r
  else .ok r

/-- Election-timeout part of `TickHeartbeat` (`/repo/src/raft.cc` 551-569). -/
def tickHeartbeatTimeout (env : Env) (r : Raft) : Res Raft :=
  if r.electionElapsed ≥ r.electionTimeout then do
    let r := { r with electionElapsed := 0 }
    let (r, _) ← if r.checkQuorum then r.step env { type := .checkQuorum, src := r.id } else pure (r, none)
    if r.state = .leader ∧ r.leadTransferee ≠ 0 then pure { r with leadTransferee := 0 } else pure r
  else .ok r

/-- Heartbeat part of `TickHeartbeat` (`/repo/src/raft.cc` 571-583). -/
def tickHeartbeatBeat (env : Env) (r : Raft) : Res Raft :=
  if r.state ≠ .leader then .ok r
  else if r.heartbeatElapsed ≥ r.heartbeatTimeout then do
    let (r, _) ← ({ r with heartbeatElapsed := 0 } : Raft).step env { type := .beat, src := r.id }
    pure r
  else .ok r

/-- `TickHeartbeat` (`/repo/src/raft.cc` 547-584). -/
def tickHeartbeat (env : Env) (r : Raft) : Res Raft := do
  let r ← ({ r with heartbeatElapsed := r.heartbeatElapsed + 1, electionElapsed := r.electionElapsed + 1 } : Raft).tickHeartbeatTimeout env
  r.tickHeartbeatBeat env

/-- `Tick` = `tick_()` (`/repo/src/raft.h`; set at `/repo/src/raft.cc` 589, 602, 618, 631). -/
def tick (env : Env) (r : Raft) : Res Raft :=
  match r.state with
  | .leader => r.tickHeartbeat env
  | _ => r.tickElection env

/-- `TickQuiesced` (`/repo/src/raft.h`). -/
def tickQuiesced (r : Raft) : Raft := { r with electionElapsed := r.electionElapsed + 1 }

/-- Applied part of `Advance` (`/repo/src/raft.cc` 437-457). -/
def advanceApplied (r : Raft) (newApplied : Nat) : Res Raft :=
  if newApplied > 0 then do
    let oldApplied := r.log.applied
    let l ← r.log.appliedTo newApplied
    let r := { r with log := l }
    if r.trk.config.autoLeave ∧ oldApplied ≤ r.pendingConfIndex ∧ newApplied ≥ r.pendingConfIndex ∧ r.state = .leader then do
      let (r, ok) ← r.appendEntry [{ type := .confChangeV2 }]
      if ¬ ok then .fatal "raft.cc:455" else pure { r with pendingConfIndex := r.log.lastIndex }
    else pure r
  else .ok r

/-- `StableTo` part of `Advance` (`/repo/src/raft.cc` 459-464). -/
def advanceStable (l : RaftLog) (entries : List Entry) : Res RaftLog :=
  match entries.getLast? with
  | some e => l.stableTo e.index e.term
  | none => .ok l

/-- `Advance` (`/repo/src/raft.cc` 431-469). -/
def advance (r : Raft) (rd : Ready) : Res Raft := do
  let r ← (r.reduceUncommittedSize rd.committedEntries).advanceApplied rd.appliedCursor
  let l ← advanceStable r.log rd.entries
  pure { r with log := if isEmptySnap rd.snapshot then l else l.stableSnapTo rd.snapshot.metadata.index }

/-- `ApplyConfChange` (`/repo/src/raft.cc` 1692-1714). -/
def applyConfChange (env : Env) (r : Raft) (cc : ConfChangeV2) : Res (Raft × ConfState) :=
  let chg : Changer := { tracker := r.trk, lastIndex := r.log.lastIndex }
  let res :=
    if ccLeaveJoint cc then chg.leaveJoint
    else
      let (autoLeave, useJoint) := ccEnterJoint cc
      if useJoint then chg.enterJoint autoLeave cc.changes else chg.simple cc.changes
  match res with
  | .error _ => .fatal "raft.cc:1711"
  | .ok (cfg, prs) => r.switchToConfig env cfg prs

/-- `LoadState` (`/repo/src/raft.cc` 1771-1780). -/
def loadState (r : Raft) (h : HardState) : Res Raft :=
  if h.commit < r.log.committed ∨ h.commit > r.log.lastIndex then .fatal "raft.cc:1774"
  else .ok { r with log := { r.log with committed := h.commit }, term := h.term, vote := h.vote }

/-- `if (!IsEmptyHardState(hs)) LoadState(hs)` (`/repo/src/raft.cc` 224-226). -/
def newState (r : Raft) (h : HardState) : Res Raft := if isEmptyHardState h then .ok r else r.loadState h

/-- `if (c.applied > 0) AppliedTo(c.applied)` (`/repo/src/raft.cc` 227-229). -/
def newApplied (r : Raft) (i : Nat) : Res Raft :=
  if i > 0 then do
    let l ← r.log.appliedTo i
    pure { r with log := l }
  else .ok r

/-- `Raft::New` (`/repo/src/raft.cc` 198-248) with the constructor (250-273). `rngPos` is where the random stream
stands when the node is created. An `election_tick` whose `int` truncation minus one is negative makes the draw in
`ResetRandomizedElectionTimeout` undefined; it is reported here, before the first use. -/
def new (env : Env) (c : Config) (storage : Storage) (rngPos : Nat) : Res Raft :=
  match c.validate with
  | none => .fatal "raft.cc:201"
  | some c => do
    let log := RaftLog.new storage c.maxCommittedSizePerReady
    let (hs, cs) := storage.initialState
    let r : Raft :=
      { id := c.id, log := log, maxMsgSize := c.maxSizePerMsg
        maxUncommittedSize := c.maxUncommittedEntriesSize
        trk := { maxInflight := c.maxInflightMsgs }
        readOnly := { option := c.readOnlyOption }
        checkQuorum := c.checkQuorum, preVote := c.preVote
        heartbeatTimeout := c.heartbeatTick.toNat, electionTimeout := c.electionTick.toNat
        disableProposalForwarding := c.disableProposalForwarding, rngPos := rngPos }
    match Changer.restore { tracker := r.trk, lastIndex := log.lastIndex } cs with
    | .error _ => .fatal "raft.cc:217"
    | .ok (cfg, prs) =>
      let (r, cs2) ← r.switchToConfig env cfg prs
      if ¬ confStateEq cs cs2 then .fatal "raft.cc:221"
      else
        let r ← r.newState hs
        let r ← r.newApplied c.applied
        if toI32 (c.electionTick - 1) < 0 then .ub "raft.cc:1787"
        else
          let r := r.becomeFollower env r.term 0
          let _ ← r.log.lastTerm
          pure r

end Raft
end Craft
