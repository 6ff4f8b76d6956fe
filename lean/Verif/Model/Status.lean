import Verif.Model.RawNode

/-! # `GetBasicStatus`, `GetStatus`, `WithProgress` -/

namespace Craft

/-- `NodeBasicStatus` (`/repo/src/rawnode.h` 42-49). -/
structure BasicStatus where
  id : Nat
  hardState : HardState
  softState : SoftState
  applied : Nat
  leadTransferee : Nat

/-- `NodeStatus` (`/repo/src/rawnode.h` 51-57). -/
structure Status where
  basic : BasicStatus
  config : TConfig
  progress : ProgressMap

/-- `ProgressType` (`/repo/src/rawnode.h` 29-32). -/
inductive ProgressType where
  | peer
  | learner
deriving DecidableEq

namespace RawNode

/-- `RawNode::GetBasicStatus` (`/repo/src/rawnode.cc` 221-229). -/
def getBasicStatus (n : RawNode) : BasicStatus :=
  { id := n.raft.id, leadTransferee := n.raft.leadTransferee, hardState := n.raft.hardState, softState := n.raft.softState,
    applied := n.raft.log.applied }

/-- `RawNode::GetStatus` (`/repo/src/rawnode.cc` 209-219). `Clone` (`/repo/src/tracker/progress.h` 113-124) copies every field:
the result shares nothing with the node, as values here do not. -/
def getStatus (n : RawNode) : Status :=
  { basic := n.getBasicStatus
    progress := if n.getBasicStatus.softState.raftState = .leader then n.raft.trk.progress else []
    config := n.raft.trk.config }

/-- `RawNode::WithProgress` (`/repo/src/rawnode.cc` 231-240): what the visitor is called with, in order (`Visit`,
`/repo/src/tracker/tracker.cc` 85-89, goes through a `std::map`). -/
def withProgress (n : RawNode) : List (Nat × ProgressType × Progress) :=
  n.raft.trk.progress.map fun x => (x.1, if x.2.isLearner then .learner else .peer, x.2)

end RawNode
end Craft
