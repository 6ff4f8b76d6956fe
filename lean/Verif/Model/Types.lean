import Verif.Basic

/-!
# Wire and storage data types

Models `/repo/src/raftpb/raft.proto`.  proto2 `optional` scalar fields are read in the code through their
getters, so an unset field is its default value (0 / false / empty); presence (`has_x`) is only consulted
where noted in the node model.
-/

namespace Craft

/-- Opaque byte strings. -/
abbrev Bytes := List Nat

/-- raft.proto `EntryType` (`raftpb/raft.proto`, enum EntryType). -/
inductive EntryType where
  | normal
  | confChange
  | confChangeV2
deriving Repr, DecidableEq, Inhabited

/-- raft.proto `Entry`. -/
structure Entry where
  term : Nat := 0
  index : Nat := 0
  type : EntryType := .normal
  data : Bytes := []
deriving Repr, DecidableEq, Inhabited

/-- raft.proto `ConfState`. -/
structure ConfState where
  voters : List Nat := []
  learners : List Nat := []
  votersOutgoing : List Nat := []
  learnersNext : List Nat := []
  autoLeave : Bool := false
deriving Repr, DecidableEq, Inhabited

/-- raft.proto `SnapshotMetadata` (`conf_state`, `index`, `term`). -/
structure SnapMeta where
  confState : ConfState := {}
  index : Nat := 0
  term : Nat := 0
deriving Repr, DecidableEq, Inhabited

/-- raft.proto `Snapshot`. -/
structure Snapshot where
  data : Bytes := []
  metadata : SnapMeta := {}
deriving Repr, DecidableEq, Inhabited

/-- raft.proto `MessageType`, in the order of their numeric values 0..18. -/
inductive MsgType where
  | hup | beat | prop | app | appResp | vote | voteResp | snap | heartbeat | heartbeatResp
  | unreachable | snapStatus | checkQuorum | transferLeader | timeoutNow | readIndex
  | readIndexResp | preVote | preVoteResp
deriving Repr, DecidableEq, Inhabited

/-- raft.proto `Message`. `snapshot` is `none` when the field is unset. -/
structure Message where
  type : MsgType := .hup
  to : Nat := 0
  src : Nat := 0          -- field `from`
  term : Nat := 0
  logTerm : Nat := 0
  index : Nat := 0
  entries : List Entry := []
  commit : Nat := 0
  snapshot : Option Snapshot := none
  reject : Bool := false
  rejectHint : Nat := 0
  context : Bytes := []
deriving Repr, DecidableEq, Inhabited

/-- raft.proto `HardState`. -/
structure HardState where
  term : Nat := 0
  vote : Nat := 0
  commit : Nat := 0
deriving Repr, DecidableEq, Inhabited

/-- raft.proto `ConfChangeTransition`. -/
inductive CCTransition where
  | auto | jointImplicit | jointExplicit
deriving Repr, DecidableEq, Inhabited

/-- raft.proto `ConfChangeType`; `unknown n` stands for an enum value outside 0..3 (reachable by a C++ cast;
proto2 parsing puts unknown enum values aside). -/
inductive CCType where
  | addNode | removeNode | updateNode | addLearnerNode | unknown (n : Nat)
deriving Repr, DecidableEq, Inhabited

/-- raft.proto `ConfChangeSingle`. -/
structure CCSingle where
  type : CCType := .addNode
  nodeId : Nat := 0
deriving Repr, DecidableEq, Inhabited

/-- raft.proto `ConfChange` (V1). -/
structure ConfChange where
  type : CCType := .addNode
  nodeId : Nat := 0
  context : Bytes := []
  id : Nat := 0
deriving Repr, DecidableEq, Inhabited

/-- raft.proto `ConfChangeV2`. -/
structure ConfChangeV2 where
  transition : CCTransition := .auto
  changes : List CCSingle := []
  context : Bytes := []
deriving Repr, DecidableEq, Inhabited

/-- Status strings of `storage.h` 31-48 and `raft.h`/`rawnode.h` as an enumeration.
Simplification: message texts are not modelled, only which error it is. -/
inductive Err where
  | compacted | snapOutOfDate | unavailable | snapshotTemporarilyUnavailable
  | proposalDropped | stepLocalMsg | stepPeerNotFound | invalid (what : String)
  | nullDeref (site : String)  -- undefined behaviour inside an error-returning function (proved unreachable)
deriving Repr, DecidableEq, Inhabited

/-- External functions the code calls, taken as parameters of the model (trusted base: arbitrary functions).
`entSize` is protobuf `Entry::ByteSizeLong()`; `parseV1`/`parseV2` are `ConfChange::ParseFromString` and
`ConfChangeV2::ParseFromString`; `serV2` is `ConfChangeV2::SerializeToString`, `serV1` the V1 one. -/
structure Env where
  entSize : Entry → Nat
  parseV1 : Bytes → Option ConfChange
  parseV2 : Bytes → Option ConfChangeV2
  serV1 : ConfChange → Bytes
  /-- Random stream of node `id`: the `pos`-th draw of `Util::Random` (`/repo/src/util.cc` 107-110), reduced to the
  requested range by the caller. -/
  rand : (id pos : Nat) → Nat
  serV2 : ConfChangeV2 → Bytes

end Craft
