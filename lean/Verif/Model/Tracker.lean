import Verif.Model.Quorum
import Verif.Model.Progress

/-! # `/repo/src/tracker/tracker.{h,cc}` -/

namespace Craft

/-- `ProgressTracker::Config` (`/repo/src/tracker/tracker.h` 42-118). -/
structure TConfig where
  voters : JointConfig := {}
  autoLeave : Bool := false
  learners : USet := []
  learnersNext : USet := []
deriving Repr, DecidableEq, Inhabited

/-- `Config::Joint` (`/repo/src/tracker/tracker.h` 102). -/
def TConfig.joint (c : TConfig) : Bool := decide (c.voters.outgoing.length > 0)

/-- `ProgressMap` (`/repo/src/tracker/tracker.h` 31). The shared pointers are modelled by value: the only owner of
the `Progress` objects at any time is the map (a handler's local `ProgressPtr` is written back at each use). -/
abbrev ProgressMap := AMap Progress

/-- `ProgressTracker` (`/repo/src/tracker/tracker.h` 188-193). -/
structure Tracker where
  config : TConfig := {}
  progress : ProgressMap := []
  votes : AMap Bool := []
  maxInflight : Int
deriving Repr, DecidableEq, Inhabited

namespace Tracker

/-- `ConfState` (`/repo/src/tracker/tracker.cc` 55-79). `Slice()` sorts an already ordered set. -/
def confState (t : Tracker) : ConfState :=
  { voters := t.config.voters.incoming
    votersOutgoing := t.config.voters.outgoing
    learners := t.config.learners
    learnersNext := t.config.learnersNext
    autoLeave := t.config.autoLeave }

/-- `IsSingleton` (`/repo/src/tracker/tracker.h` 129-132). -/
def isSingleton (t : Tracker) : Bool :=
  decide (t.config.voters.incoming.length = 1 ∧ t.config.voters.outgoing.length = 0)

/-- `MatchAckIndexer::AckedIndex` (`/repo/src/tracker/tracker.cc` 27-33). -/
def acked (t : Tracker) (id : Nat) : Option Nat := (t.progress.find id).map (·.mtch)

/-- `Committed` (`/repo/src/tracker/tracker.cc` 81-83). -/
def committed (t : Tracker) : Nat := t.config.voters.committedIndex t.acked

/-- The vote map built by `QuorumActive` (`/repo/src/tracker/tracker.cc` 92-98). -/
def activeVotes : ProgressMap → AMap Bool → AMap Bool
  | [], v => v
  | (id, pr) :: m, v => activeVotes m (if pr.isLearner then v else v.insert id pr.recentActive)

/-- `QuorumActive` (`/repo/src/tracker/tracker.cc` 91-101). -/
def quorumActive (t : Tracker) : Bool :=
  decide (t.config.voters.voteResult (activeVotes t.progress []) = .won)

/-- `RecordVote` (`/repo/src/tracker/tracker.cc` 124-129). -/
def recordVote (t : Tracker) (id : Nat) (v : Bool) : Tracker :=
  match t.votes.find id with
  | none => { t with votes := t.votes.insert id v }
  | some _ => t

/-- `ResetVotes` (`/repo/src/tracker/tracker.h` 153). -/
def resetVotes (t : Tracker) : Tracker := { t with votes := [] }

/-- Third component of `TallyVotes` (`/repo/src/tracker/tracker.cc` 131-153); the first two are only logged. -/
def tallyVotes (t : Tracker) : VoteState := t.config.voters.voteResult t.votes

/-- First two components of `TallyVotes` (`/repo/src/tracker/tracker.cc` 136-151): (granted, rejected). -/
def tallyCounts (votes : AMap Bool) : ProgressMap → Nat × Nat
  | [] => (0, 0)
  | (id, pr) :: m =>
    let (g, r) := tallyCounts votes m
    if pr.isLearner then (g, r)
    else match votes.find id with
      | none => (g, r)
      | some true => (g + 1, r)
      | some false => (g, r + 1)

/-- `VoterNodes` (`/repo/src/tracker/tracker.cc` 103-110). -/
def voterNodes (t : Tracker) : List Nat := t.config.voters.ids

/-- `LearnerNodes` (`/repo/src/tracker/tracker.cc` 112-122). -/
def learnerNodes (t : Tracker) : List Nat := t.config.learners

/-- Write back a modified `Progress` into the map (pointer mutation in C++). -/
def setPr (t : Tracker) (id : Nat) (p : Progress) : Tracker := { t with progress := t.progress.insert id p }

end Tracker
end Craft
