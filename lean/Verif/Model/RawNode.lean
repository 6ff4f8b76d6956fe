import Verif.Model.Raft

/-! # `/repo/src/rawnode.{h,cc}` -/

namespace Craft

/-- `RawNode` (`/repo/src/rawnode.h` 182-188). -/
structure RawNode where
  raft : Raft
  prevSoftSt : SoftState := {}
  prevHardSt : HardState := {}
  ready : Option Ready := none
deriving Repr, DecidableEq, Inhabited

/-- `MustSync` (`/repo/src/rawnode.cc` 36-43). -/
def mustSync (st prevst : HardState) (entsum : Nat) : Bool :=
  decide (entsum ≠ 0 ∨ st.vote ≠ prevst.vote ∨ st.term ≠ prevst.term)

/-- `NewReady` (`/repo/src/rawnode.cc` 273-302). -/
def newReady (env : Env) (r : Raft) (prevSoft : SoftState) (prevHard : HardState) : Res Ready := do
  let committed ← r.log.nextEnts env
  pure
    { entries := r.log.unstableEntries
      committedEntries := committed
      messages := r.msgs
      softState := if r.softState = prevSoft then none else some r.softState
      hardState := if r.hardState = prevHard then {} else r.hardState
      snapshot := match r.log.unstable.snapshot with
        | some s => s
        | none => {}
      readStates := r.readStates
      mustSync := mustSync r.hardState prevHard r.log.unstableEntries.length }

namespace RawNode

/-- `RawNode::New` (`/repo/src/rawnode.cc` 49-53) and constructor (`/repo/src/rawnode.h` 85-88). -/
def new (env : Env) (c : Config) (storage : Storage) (rngPos : Nat) : Res RawNode := do
  let r ← Raft.new env c storage rngPos
  pure { raft := r, prevSoftSt := r.softState, prevHardSt := r.hardState }

/-- Loop over peers in `Bootstrap` (`/repo/src/rawnode.cc` 103-108). -/
def bootstrapApply (env : Env) : List (Nat × Bytes) → Raft → Res Raft
  | [], r => .ok r
  | p :: ps, r => do
    let (r, _) ← r.applyConfChange env (ConfChangeI.v1 { type := .addNode, nodeId := p.1 }).asV2
    bootstrapApply env ps r

/-- Entries built by `Bootstrap` (`/repo/src/rawnode.cc` 73-87), starting at index `i`. -/
def bootstrapEntries (env : Env) : Nat → List (Nat × Bytes) → List Entry
  | _, [] => []
  | i, p :: ps =>
    { type := .confChange, term := 1, index := i
      data := env.serV1 { type := .addNode, nodeId := p.1, context := p.2 } } :: bootstrapEntries env (i + 1) ps

/-- `Bootstrap` (`/repo/src/rawnode.cc` 55-110). The storage's last index is read (line 59) and then never used. -/
def bootstrap (env : Env) (n : RawNode) (peers : List (Nat × Bytes)) : Res (RawNode × Option Err) :=
  if peers = [] then .ok (n, some (.invalid "must provide at least one peer to Bootstrap"))
  else do
    let r := n.raft.becomeFollower env 1 0
    let ents := bootstrapEntries env 1 peers
    let l ← r.log.append ents
    let r := { r with log := { l with committed := ents.length } }
    let r ← bootstrapApply env peers r
    pure ({ n with raft := r, prevHardSt := {} }, none)

/-- Lifts a `Raft` operation to the node. -/
def onRaft (n : RawNode) (f : Raft → Res (Raft × Option Err)) : Res (RawNode × Option Err) := do
  let (r, e) ← f n.raft
  pure ({ n with raft := r }, e)

/-- `Tick` (`/repo/src/rawnode.cc` 112-114). -/
def tick (env : Env) (n : RawNode) : Res RawNode := do
  let r ← n.raft.tick env
  pure { n with raft := r }

/-- `TickQuiesced` (`/repo/src/rawnode.cc` 116-118). -/
def tickQuiesced (n : RawNode) : RawNode := { n with raft := n.raft.tickQuiesced }

/-- `Campaign` (`/repo/src/rawnode.cc` 120-124). -/
def campaign (env : Env) (n : RawNode) : Res (RawNode × Option Err) :=
  n.onRaft fun r => r.step env { type := .hup }

/-- `Propose` (`/repo/src/rawnode.cc` 126-133). -/
def propose (env : Env) (n : RawNode) (data : Bytes) : Res (RawNode × Option Err) :=
  n.onRaft fun r => r.step env { type := .prop, src := r.id, entries := [{ data := data }] }

/-- `ProposeConfChange` (`/repo/src/rawnode.cc` 135-141, `ConfChangeToMsg` 21-32). Serialisation is assumed to succeed. -/
def proposeConfChange (env : Env) (n : RawNode) (cc : ConfChangeI) : Res (RawNode × Option Err) :=
  let (ty, data) := cc.marshal env
  n.onRaft fun r => r.step env { type := .prop, entries := [{ type := ty, data := data }] }

/-- `ApplyConfChange` (`/repo/src/rawnode.cc` 143-145). -/
def applyConfChange (env : Env) (n : RawNode) (cc : ConfChangeI) : Res (RawNode × ConfState) := do
  let (r, cs) ← n.raft.applyConfChange env cc.asV2
  pure ({ n with raft := r }, cs)

/-- `Step` (`/repo/src/rawnode.cc` 147-157). -/
def step (env : Env) (n : RawNode) (m : Message) : Res (RawNode × Option Err) :=
  if isLocalMsg m.type then .ok (n, some .stepLocalMsg)
  else if (n.raft.pr m.src).isSome ∨ ¬ isResponseMsg m.type then n.onRaft fun r => r.step env m
  else .ok (n, some .stepPeerNotFound)

/-- `ReadyWithoutAccept` (`/repo/src/rawnode.cc` 165-167). -/
def readyWithoutAccept (env : Env) (n : RawNode) : Res Ready := newReady env n.raft n.prevSoftSt n.prevHardSt

/-- `AcceptReady` (`/repo/src/rawnode.cc` 169-177). -/
def acceptReady (n : RawNode) (rd : Ready) : RawNode :=
  { n with
    prevSoftSt := rd.softState.getD n.prevSoftSt
    raft := { n.raft with
      readStates := if rd.readStates = [] then n.raft.readStates else []
      msgs := [] } }

/-- `GetReady` (`/repo/src/rawnode.cc` 159-163). -/
def getReady (env : Env) (n : RawNode) : Res (RawNode × Ready) := do
  let rd ← n.readyWithoutAccept env
  pure ({ n.acceptReady rd with ready := some rd }, rd)

/-- `HasReady` (`/repo/src/rawnode.cc` 179-199). -/
def hasReady (n : RawNode) : Bool :=
  decide (n.raft.softState ≠ n.prevSoftSt) ||
  (!isEmptyHardState n.raft.hardState && decide (n.raft.hardState ≠ n.prevHardSt)) ||
  n.raft.log.hasPendingSnapshot ||
  (decide (n.raft.msgs ≠ []) || decide (n.raft.log.unstableEntries ≠ []) || n.raft.log.hasNextEnts) ||
  decide (n.raft.readStates ≠ [])

/-- `Advance` (`/repo/src/rawnode.cc` 201-207); `ready_` null is dereferenced without a check. -/
def advance (n : RawNode) : Res RawNode :=
  match n.ready with
  | none => .ub "rawnode.cc:202"
  | some rd => do
    let prevHard := if isEmptyHardState rd.hardState then n.prevHardSt else rd.hardState
    let r ← n.raft.advance rd
    pure { n with prevHardSt := prevHard, raft := r, ready := none }

/-- `ReportUnreachable` (`/repo/src/rawnode.cc` 242-247). -/
def reportUnreachable (env : Env) (n : RawNode) (id : Nat) : Res RawNode := do
  let (n, _) ← n.onRaft fun r => r.step env { type := .unreachable, src := id }
  pure n

/-- `ReportSnapshot` (`/repo/src/rawnode.cc` 249-256). -/
def reportSnapshot (env : Env) (n : RawNode) (id : Nat) (failure : Bool) : Res RawNode := do
  let (n, _) ← n.onRaft fun r => r.step env { type := .snapStatus, src := id, reject := failure }
  pure n

/-- `TransferLeader` (`/repo/src/rawnode.cc` 258-263). -/
def transferLeader (env : Env) (n : RawNode) (transferee : Nat) : Res RawNode := do
  let (n, _) ← n.onRaft fun r => r.step env { type := .transferLeader, src := transferee }
  pure n

/-- `ReadIndex` (`/repo/src/rawnode.cc` 265-271). -/
def readIndex (env : Env) (n : RawNode) (rctx : Bytes) : Res RawNode := do
  let (n, _) ← n.onRaft fun r => r.step env { type := .readIndex, entries := [{ data := rctx }] }
  pure n

end RawNode
end Craft
