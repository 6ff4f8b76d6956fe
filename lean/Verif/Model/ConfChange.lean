import Verif.Model.Tracker

/-! # `/repo/src/confchange/confchange.cc` and `/repo/src/confchange/restore.cc` -/

namespace Craft

deriving instance DecidableEq for Except

/-- `Changer` (`/repo/src/confchange/confchange.h` 31-37, 147-150): a tracker and the log's last index. -/
structure Changer where
  tracker : Tracker
  lastIndex : Nat
deriving Repr, DecidableEq

namespace Changer

/-- `InitProgress` (`/repo/src/confchange/confchange.cc` 191-217). -/
def initProgress (c : Changer) (cfg : TConfig) (prs : ProgressMap) (id : Nat) (isLearner : Bool) :
    TConfig × ProgressMap :=
  let cfg := if isLearner then { cfg with learners := cfg.learners.insert id }
    else { cfg with voters := { cfg.voters with incoming := cfg.voters.incoming.insert id } }
  (cfg, prs.insert id (Progress.new c.lastIndex 0 c.tracker.maxInflight isLearner true))

/-- `MakeVoter` (`/repo/src/confchange/confchange.cc` 135-146). -/
def makeVoter (c : Changer) (cfg : TConfig) (prs : ProgressMap) (id : Nat) : TConfig × ProgressMap :=
  match prs.find id with
  | none => c.initProgress cfg prs id false
  | some pr =>
    ({ cfg with
        learners := cfg.learners.erase id
        learnersNext := cfg.learnersNext.erase id
        voters := { cfg.voters with incoming := cfg.voters.incoming.insert id } },
      prs.insert id { pr with isLearner := false })

/-- `Remove` (`/repo/src/confchange/confchange.cc` 175-189). -/
def remove (cfg : TConfig) (prs : ProgressMap) (id : Nat) : TConfig × ProgressMap :=
  match prs.find id with
  | none => (cfg, prs)
  | some _ =>
    ({ cfg with
        voters := { cfg.voters with incoming := cfg.voters.incoming.erase id }
        learners := cfg.learners.erase id
        learnersNext := cfg.learnersNext.erase id },
      if cfg.voters.outgoing.has id then prs else prs.erase id)

/-- `MakeLearner` (`/repo/src/confchange/confchange.cc` 148-173). -/
def makeLearner (c : Changer) (cfg : TConfig) (prs : ProgressMap) (id : Nat) : TConfig × ProgressMap :=
  match prs.find id with
  | none => c.initProgress cfg prs id true
  | some pr =>
    if pr.isLearner then (cfg, prs)
    else
      let (cfg, prs) := remove cfg prs id
      let prs := prs.insert id pr
      if cfg.voters.outgoing.has id then
        ({ cfg with learnersNext := cfg.learnersNext.insert id }, prs)
      else
        ({ cfg with learners := cfg.learners.insert id }, prs.insert id { pr with isLearner := true })

/-- Loop of `Apply` (`/repo/src/confchange/confchange.cc` 106-128). -/
def applyLoop (c : Changer) : TConfig → ProgressMap → List CCSingle → Except Err (TConfig × ProgressMap)
  | cfg, prs, [] => .ok (cfg, prs)
  | cfg, prs, cc :: ccs =>
    if cc.nodeId = 0 then applyLoop c cfg prs ccs
    else match cc.type with
      | .addNode => let (cfg, prs) := c.makeVoter cfg prs cc.nodeId; applyLoop c cfg prs ccs
      | .addLearnerNode => let (cfg, prs) := c.makeLearner cfg prs cc.nodeId; applyLoop c cfg prs ccs
      | .removeNode => let (cfg, prs) := remove cfg prs cc.nodeId; applyLoop c cfg prs ccs
      | .updateNode => applyLoop c cfg prs ccs
      | .unknown _ => .error (.invalid "unexpected conf type")

/-- `Apply` (`/repo/src/confchange/confchange.cc` 104-133). -/
def apply (c : Changer) (cfg : TConfig) (prs : ProgressMap) (ccs : List CCSingle) :
    Except Err (TConfig × ProgressMap) :=
  match c.applyLoop cfg prs ccs with
  | .error e => .error e
  | .ok (cfg, prs) =>
    if cfg.voters.incoming.length = 0 then .error (.invalid "removed all voters") else .ok (cfg, prs)

/-- `check_exist` (`/repo/src/confchange/confchange.cc` 227-235). -/
def checkExist (prs : ProgressMap) (ids : USet) : Bool := ids.all fun id => prs.has id

/-- Body of the two loops over `learners_next` / `learners` calls `GetProgress(prs,id)->IsLearner()`
(`/repo/src/confchange/confchange.cc` 255, 268); a missing progress was already excluded by `check_exist`. -/
def learnerFlag (prs : ProgressMap) (id : Nat) : Option Bool := (prs.find id).map (·.isLearner)

/-- `CheckInvariants` (`/repo/src/confchange/confchange.cc` 219-286). Which of several violations is reported is
not modelled (all are one `invalid` error). -/
def checkInvariants (cfg : TConfig) (prs : ProgressMap) : Except Err Unit :=
  if ¬ (checkExist prs cfg.voters.ids ∧ checkExist prs cfg.learners ∧ checkExist prs cfg.learnersNext) then
    .error (.invalid "no progress")
  else if ¬ (cfg.learnersNext.all fun id =>
      cfg.voters.outgoing.has id && decide (learnerFlag prs id = some false)) then
    .error (.invalid "LearnersNext")
  else if ¬ (cfg.learners.all fun id =>
      !cfg.voters.outgoing.has id && !cfg.voters.incoming.has id && decide (learnerFlag prs id = some true)) then
    .error (.invalid "Learners")
  else if ¬ cfg.joint ∧ (cfg.voters.outgoing.length > 0 ∨ cfg.learnersNext ≠ [] ∨ cfg.autoLeave) then
    .error (.invalid "not joint")
  else .ok ()

/-- `CheckAndReturn` (`/repo/src/confchange/confchange.cc` 298-305). -/
def checkAndReturn (cfg : TConfig) (prs : ProgressMap) : Except Err (TConfig × ProgressMap) :=
  match checkInvariants cfg prs with
  | .error e => .error e
  | .ok () => .ok (cfg, prs)

/-- `CheckAndCopy` (`/repo/src/confchange/confchange.cc` 288-296): works on clones, so the tracker itself is never
modified by the operations below. -/
def checkAndCopy (c : Changer) : Except Err (TConfig × ProgressMap) :=
  checkAndReturn c.tracker.config c.tracker.progress

/-- `EnterJoint` (`/repo/src/confchange/confchange.cc` 24-52). -/
def enterJoint (c : Changer) (autoLeave : Bool) (ccs : List CCSingle) : Except Err (TConfig × ProgressMap) :=
  match c.checkAndCopy with
  | .error e => .error e
  | .ok (cfg, prs) =>
    if cfg.joint then .error (.invalid "config is already joint")
    else if cfg.voters.incoming.length = 0 then .error (.invalid "can't make a zero-voter config joint")
    else
      let cfg := { cfg with voters := { cfg.voters with outgoing := cfg.voters.incoming } }
      match c.apply cfg prs ccs with
      | .error e => .error e
      | .ok (cfg, prs) => checkAndReturn { cfg with autoLeave := autoLeave } prs

/-- Loop over `learners_next` in `LeaveJoint` (`/repo/src/confchange/confchange.cc` 65-68). -/
def leaveLearners : List Nat → USet → ProgressMap → Except Err (USet × ProgressMap)
  | [], ls, prs => .ok (ls, prs)
  | id :: ids, ls, prs =>
    match prs.find id with
    | none => .error (.nullDeref "confchange.cc:67")
    | some pr => leaveLearners ids (ls.insert id) (prs.insert id { pr with isLearner := true })

/-- Loop over the outgoing voters in `LeaveJoint` (`/repo/src/confchange/confchange.cc` 71-77). -/
def leaveErase (incoming learners : USet) : List Nat → ProgressMap → ProgressMap
  | [], prs => prs
  | id :: ids, prs =>
    leaveErase incoming learners ids (if !incoming.has id && !learners.has id then prs.erase id else prs)

/-- `LeaveJoint` (`/repo/src/confchange/confchange.cc` 54-82). -/
def leaveJoint (c : Changer) : Except Err (TConfig × ProgressMap) :=
  match c.checkAndCopy with
  | .error e => .error e
  | .ok (cfg, prs) =>
    if ¬ cfg.joint then .error (.invalid "can't leave a non-joint config")
    else if cfg.voters.outgoing.length = 0 then .error (.invalid "configuration is not joint")
    else
      match leaveLearners cfg.learnersNext cfg.learners prs with
      | .error e => .error e
      | .ok (learners, prs) =>
        let prs := leaveErase cfg.voters.incoming learners cfg.voters.outgoing prs
        checkAndReturn
          { voters := { incoming := cfg.voters.incoming, outgoing := [] }
            learners := learners, learnersNext := [], autoLeave := false } prs

/-- `Symdiff` (`/repo/src/confchange/confchange.cc` 307-321). -/
def symdiff (l r : USet) : Nat :=
  (l.filter fun id => !r.has id).length + (r.filter fun id => !l.has id).length

/-- `Simple` (`/repo/src/confchange/confchange.cc` 84-102). -/
def simple (c : Changer) (ccs : List CCSingle) : Except Err (TConfig × ProgressMap) :=
  match c.checkAndCopy with
  | .error e => .error e
  | .ok (cfg, prs) =>
    if cfg.joint then .error (.invalid "can't apply simple config change in joint config")
    else
      match c.apply cfg prs ccs with
      | .error e => .error e
      | .ok (cfg, prs) =>
        if symdiff c.tracker.config.voters.incoming cfg.voters.incoming > 1 then
          .error (.invalid "more than one voter changed without entering joint config")
        else checkAndReturn cfg prs

/-- `toConfChangeSingle` (`/repo/src/confchange/restore.cc` 28-98): (outgoing, incoming). -/
def toConfChangeSingle (cs : ConfState) : List CCSingle × List CCSingle :=
  (cs.votersOutgoing.map fun id => ⟨.addNode, id⟩,
   (cs.votersOutgoing.map fun id => ⟨.removeNode, id⟩) ++
   (cs.voters.map fun id => ⟨.addNode, id⟩) ++
   (cs.learners.map fun id => ⟨.addLearnerNode, id⟩) ++
   (cs.learnersNext.map fun id => ⟨.addLearnerNode, id⟩))

/-- The `SetConfig`/`SetProgressMap` pair inside `chain` (`/repo/src/confchange/restore.cc` 107-108). -/
def withResult (c : Changer) (r : TConfig × ProgressMap) : Changer :=
  { c with tracker := { c.tracker with config := r.1, progress := r.2 } }

/-- `chain` (`/repo/src/confchange/restore.cc` 100-113) over a list of single-change `Simple` operations;
returns the changer with the updated tracker. -/
def chainSimple (c : Changer) : List CCSingle → Except Err Changer
  | [] => .ok c
  | cc :: ccs =>
    match c.simple [cc] with
    | .error e => .error e
    | .ok r => chainSimple (c.withResult r) ccs

/-- `Restore` (`/repo/src/confchange/restore.cc` 115-151). -/
def restore (c : Changer) (cs : ConfState) : Except Err (TConfig × ProgressMap) :=
  let (outgoing, incoming) := toConfChangeSingle cs
  if outgoing.length = 0 then
    match c.chainSimple incoming with
    | .error e => .error e
    | .ok c => .ok (c.tracker.config, c.tracker.progress)
  else
    match c.chainSimple outgoing with
    | .error e => .error e
    | .ok c =>
      match c.enterJoint cs.autoLeave incoming with
      | .error e => .error e
      | .ok r => .ok r

end Changer
end Craft
