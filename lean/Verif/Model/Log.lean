import Verif.Model.Storage
import Verif.Model.Unstable

/-! # `RaftLog` (`/repo/src/log.{h,cc}`) -/

namespace Craft

/-- `RaftLog` (`/repo/src/log.h` 166-183). `storage` is shared with the application in the C++ code; here it is a
field, and the application's storage operations update this field. -/
structure RaftLog where
  storage : Storage := {}
  unstable : Unstable := {}
  committed : Nat := 0
  applied : Nat := 0
  maxNextEntsSize : Nat := u64Max
deriving Repr, DecidableEq, Inhabited

namespace RaftLog

/-- `RaftLog::RaftLog` (`/repo/src/log.cc` 31-52). -/
def new (storage : Storage) (maxNextEntsSize : Nat) : RaftLog :=
  { storage := storage
    unstable := { offset := storage.lastIndex + 1 }
    committed := storage.firstIndex - 1
    applied := storage.firstIndex - 1
    maxNextEntsSize := maxNextEntsSize }

/-- `FirstIndex` (`/repo/src/log.cc` 119-127). -/
def firstIndex (l : RaftLog) : Nat :=
  match l.unstable.maybeFirstIndex with
  | some i => i
  | none => l.storage.firstIndex

/-- `LastIndex` (`/repo/src/log.cc` 129-137). -/
def lastIndex (l : RaftLog) : Nat :=
  match l.unstable.maybeLastIndex with
  | some i => i
  | none => l.storage.lastIndex

/-- `Term` (`/repo/src/log.cc` 171-196). -/
def term (l : RaftLog) (i : Nat) : Res (Except Err Nat) :=
  let dummy := l.firstIndex - 1
  if i < dummy ∨ i > l.lastIndex then .ok (.ok 0)
  else do
    match ← l.unstable.maybeTerm i with
    | some t => pure (.ok t)
    | none =>
      match l.storage.term i with
      | .ok t => pure (.ok t)
      | .error .compacted => pure (.error .compacted)
      | .error .unavailable => pure (.error .unavailable)
      | .error _ => .fatal "log.cc:194"

/-- `ZeroTermOnErrCompacted` (`/repo/src/log.cc` 355-365). -/
def zeroTermOnErrCompacted : Except Err Nat → Res Nat
  | .ok t => .ok t
  | .error .compacted => .ok 0
  | .error _ => .fatal "log.cc:363"

/-- `LastTerm` (`/repo/src/log.cc` 163-169). -/
def lastTerm (l : RaftLog) : Res Nat := do
  match ← l.term l.lastIndex with
  | .ok t => pure t
  | .error _ => .fatal "log.cc:166"

/-- `MatchTerm` (`/repo/src/log.cc` 222-228). -/
def matchTerm (l : RaftLog) (i t : Nat) : Res Bool := do
  match ← l.term i with
  | .ok t' => pure (decide (t' = t))
  | .error _ => pure false

/-- `IsUpToData` (`/repo/src/log.cc` 218-220). -/
def isUpToDate (l : RaftLog) (lasti t : Nat) : Res Bool := do
  let lt ← l.lastTerm
  pure (decide (t > lt ∨ (t = lt ∧ lasti ≥ l.lastIndex)))

/-- `CommitTo` (`/repo/src/log.cc` 139-150). -/
def commitTo (l : RaftLog) (tocommit : Nat) : Res RaftLog :=
  if l.committed < tocommit then
    if l.lastIndex < tocommit then .fatal "log.cc:143"
    else .ok { l with committed := tocommit }
  else .ok l

/-- `AppliedTo` (`/repo/src/log.cc` 152-161). -/
def appliedTo (l : RaftLog) (i : Nat) : Res RaftLog :=
  if i = 0 then .ok l
  else if l.committed < i ∨ i < l.applied then .fatal "log.cc:157"
  else .ok { l with applied := i }

/-- `MustCheckOutOfBounds` (`/repo/src/log.cc` 340-353). -/
def mustCheckOutOfBounds (l : RaftLog) (lo hi : Nat) : Res (Option Err) :=
  if lo > hi then .fatal "log.cc:342"
  else if lo < l.firstIndex then .ok (some .compacted)
  else if hi > l.firstIndex + sub64 (l.lastIndex + 1) l.firstIndex then .fatal "log.cc:350"
  else .ok none

/-- `Slice` (`/repo/src/log.cc` 300-338). -/
def slice (env : Env) (l : RaftLog) (lo hi maxSize : Nat) : Res (Except Err (List Entry)) := do
  match ← l.mustCheckOutOfBounds lo hi with
  | some e => pure (.error e)
  | none =>
    if lo = hi then pure (.ok [])
    else
      let uo := l.unstable.offset
      -- stored part; `none` in the second component: continue, otherwise return early
      let r : Except Err (List Entry × Bool) ←
        if lo < uo then do
          match ← l.storage.entries env lo (min hi uo) maxSize with
          | .error .compacted => pure (.error .compacted)
          | .error .unavailable => .fatal "log.cc:318"
          | .error _ => .fatal "log.cc:321"
          | .ok stored => pure (.ok (stored, decide (stored.length < min hi uo - lo)))
        else pure (.ok ([], false))
      match r with
      | .error e => pure (.error e)
      | .ok (stored, true) => pure (.ok stored)
      | .ok (stored, false) =>
        if hi > uo then do
          let us ← l.unstable.slice (max lo uo) hi
          pure (.ok (limitSize env.entSize (stored ++ us) maxSize))
        else pure (.ok (limitSize env.entSize stored maxSize))

/-- `Entries` (`/repo/src/log.cc` 198-203). -/
def entries (env : Env) (l : RaftLog) (i maxSize : Nat) : Res (Except Err (List Entry)) :=
  if i > l.lastIndex then .ok (.ok []) else l.slice env i (l.lastIndex + 1) maxSize

/-- `AllEntries` (`/repo/src/log.cc` 205-216). Without concurrent compaction `ErrCompacted` cannot occur, and if it did
the recursion would repeat the same call for ever; the model reports that case as `ub`. -/
def allEntries (env : Env) (l : RaftLog) : Res (List Entry) := do
  match ← l.entries env l.firstIndex u64Max with
  | .ok es => pure es
  | .error .compacted => .ub "log.cc:212 unbounded recursion"
  | .error _ => .fatal "log.cc:214"

/-- `UnstableEntries` (`/repo/src/log.cc` 80-85). -/
def unstableEntries (l : RaftLog) : List Entry := l.unstable.entries

/-- `NextEnts` (`/repo/src/log.cc` 87-100). -/
def nextEnts (env : Env) (l : RaftLog) : Res (List Entry) :=
  let off := max (l.applied + 1) l.firstIndex
  if l.committed + 1 > off then do
    match ← l.slice env off (l.committed + 1) l.maxNextEntsSize with
    | .ok es => pure es
    | .error _ => .fatal "log.cc:94"
  else .ok []

/-- `HasNextEnts` (`/repo/src/log.cc` 102-105). -/
def hasNextEnts (l : RaftLog) : Bool := decide (l.committed + 1 > max (l.applied + 1) l.firstIndex)

/-- `HasPendingSnapshot` (`/repo/src/log.cc` 107-110; `IsEmptySnap` 26-29). -/
def hasPendingSnapshot (l : RaftLog) : Bool :=
  match l.unstable.snapshot with
  | some s => decide (s.metadata.index ≠ 0)
  | none => false

/-- `Snapshot` (`/repo/src/log.cc` 112-117). `MemoryStorage::SnapShot` never fails. -/
def snapshot (l : RaftLog) : Snapshot :=
  match l.unstable.snapshot with
  | some s => s
  | none => l.storage.snapShot

/-- `FindConflict` (`/repo/src/log.cc` 260-274). The logging branch (262-269) evaluates
`ZeroTermOnErrCompacted(Term(index))`, which can abort. -/
def findConflict (l : RaftLog) : List Entry → Res Nat
  | [] => .ok 0
  | e :: es => do
    let m ← l.matchTerm e.index e.term
    if m then findConflict l es
    else if e.index ≤ l.lastIndex then do
      let _ ← zeroTermOnErrCompacted (← l.term e.index)
      pure e.index
    else pure e.index

/-- `Append` (`/repo/src/log.cc` 245-258): returns the new log; the returned `LastIndex()` is recomputed by callers. -/
def append (l : RaftLog) (ents : List Entry) : Res RaftLog :=
  match ents with
  | [] => .ok l
  | e0 :: _ =>
    let after := sub64 e0.index 1
    if after < l.committed then .fatal "log.cc:252"
    else do
      let u ← l.unstable.truncateAndAppend ents
      pure { l with unstable := u }

/-- `MaybeAppend` (`/repo/src/log.cc` 54-78). `none` is `(0,false)`. -/
def maybeAppend (l : RaftLog) (index logTerm committed : Nat) (ents : List Entry) :
    Res (RaftLog × Option Nat) := do
  let m ← l.matchTerm index logTerm
  if m then
    let lastnewi := index + ents.length
    let ci ← l.findConflict ents
    let l ←
      if ci = 0 then pure l
      else if ci ≤ l.committed then .fatal "log.cc:64"
      else
        let offset := index + 1
        if sub64 ci offset > ents.length then .fatal "log.cc:69"
        else l.append (ents.drop (sub64 ci offset))
    let l ← l.commitTo (min committed lastnewi)
    pure (l, some lastnewi)
  else pure (l, none)

/-- `MaybeCommit` (`/repo/src/log.cc` 230-236). -/
def maybeCommit (l : RaftLog) (maxIndex t : Nat) : Res (RaftLog × Bool) :=
  if maxIndex > l.committed then do
    let tt ← zeroTermOnErrCompacted (← l.term maxIndex)
    if tt = t then do
      let l ← l.commitTo maxIndex
      pure (l, true)
    else pure (l, false)
  else .ok (l, false)

/-- `Restore` (`/repo/src/log.cc` 238-243). -/
def restore (l : RaftLog) (s : Snapshot) : RaftLog :=
  { l with committed := s.metadata.index, unstable := l.unstable.restore s }

/-- Loop of `FindConflictByTerm` (`/repo/src/log.cc` 290-297) with a step bound; `index--` at 0 would wrap and the loop
would go on from 2^64-1, where `Term` is `(0, OK)` and it stops: modelled by `sub64`. -/
def findConflictByTermLoop (l : RaftLog) (t : Nat) : Nat → Nat → Res Nat
  | 0, _ => .ub "log.cc:290 unbounded loop"
  | fuel + 1, index => do
    match ← l.term index with
    | .error _ => pure index
    | .ok lt => if lt ≤ t then pure index else findConflictByTermLoop l t fuel (sub64 index 1)

/-- `FindConflictByTerm` (`/repo/src/log.cc` 276-298). -/
def findConflictByTerm (l : RaftLog) (index t : Nat) : Res Nat :=
  if index > l.lastIndex then .ok index
  else l.findConflictByTermLoop t (index + 2) index

/-- `StableTo` (`/repo/src/log.h` 102). -/
def stableTo (l : RaftLog) (i t : Nat) : Res RaftLog := do
  let u ← l.unstable.stableTo i t
  pure { l with unstable := u }

/-- `StableSnapTo` (`/repo/src/log.h` 104). -/
def stableSnapTo (l : RaftLog) (i : Nat) : RaftLog := { l with unstable := l.unstable.stableSnapTo i }

end RaftLog
end Craft
