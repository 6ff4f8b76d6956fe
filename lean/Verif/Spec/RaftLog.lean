import Verif.Spec.Log
import Verif.Model.Log

/-! # The log seen through the storage and through `RaftLog`

`MemoryStorage` keeps a dummy entry in front; `RaftLog` overlays the storage with an unstable part (and possibly a pending
snapshot). These definitions say which single log such a state stands for, and when it is well formed. -/

namespace Craft
open Spec

/-- The log a `MemoryStorage` holds: the dummy entry gives the base, the rest are the entries. -/
def Storage.view (s : Storage) : LogView :=
  { base := s.offset, baseTerm := (s.ents.headD {}).term, ents := s.ents.tail }

/-- `ents_` is never empty and is numbered consecutively from its dummy entry. -/
structure Storage.WF (s : Storage) : Prop where
  ne : s.ents ≠ []
  contig : Contig s.offset s.ents

/-- The log seen through `RaftLog`: a pending snapshot hides the storage; otherwise the stored entries before the unstable
offset, then the unstable entries. -/
def RaftLog.view (l : RaftLog) : LogView :=
  match l.unstable.snapshot with
  | some s => { base := s.metadata.index, baseTerm := s.metadata.term, ents := l.unstable.entries }
  | none =>
    { base := l.storage.view.base, baseTerm := l.storage.view.baseTerm
      ents := l.storage.view.ents.take (l.unstable.offset - l.storage.view.base - 1) ++ l.unstable.entries }

/-- Well-formed storage + unstable part: the unstable entries are consecutive from `offset`, which is right after a pending
snapshot, or inside or right after the stored log (right after it if nothing is unstable). -/
structure RaftLog.WF (l : RaftLog) : Prop where
  stor : l.storage.WF
  contig : Contig l.unstable.offset l.unstable.entries
  snap : ∀ s, l.unstable.snapshot = some s → l.unstable.offset = s.metadata.index + 1
  nosnap : l.unstable.snapshot = none →
    l.storage.view.base < l.unstable.offset ∧ l.unstable.offset ≤ l.storage.view.last + 1
  tight : l.unstable.snapshot = none → l.unstable.entries = [] → l.unstable.offset = l.storage.view.last + 1

/-- What the application does with a Ready before acknowledging it, as far as the log is concerned: apply the pending
snapshot to the storage, then append the unstable entries (`/repo/example/multi_mem_node.cc` 118-124). -/
def RaftLog.persist (l : RaftLog) : Res RaftLog := do
  let st := match l.unstable.snapshot with
    | some s => if s.metadata.index = 0 then l.storage else (l.storage.applySnapshot s).1
    | none => l.storage
  let st ← st.append l.unstable.entries
  pure { l with storage := st }

/-- The log part of `Raft::Advance` for a Ready that held the given unstable entries and snapshot
(`/repo/src/raft.cc` 458-468). -/
def RaftLog.ackPersisted (l : RaftLog) (entries : List Entry) (snap : Snapshot) : Res RaftLog := do
  let l ← match entries.getLast? with
    | some e => l.stableTo e.index e.term
    | none => pure l
  pure (if snap.metadata.index = 0 then l else l.stableSnapTo snap.metadata.index)

/-- `Ready::AppliedCursor` (`/repo/src/raft.cc` 77-87). -/
def appliedCursorOf (es : List Entry) (snap : Snapshot) : Nat :=
  match es.getLast? with
  | some e => e.index
  | none => snap.metadata.index

/-- `if (new_applied > 0) raft_log_->AppliedTo(new_applied)` (`/repo/src/raft.cc` 437-441). -/
def RaftLog.appliedToCursor (l : RaftLog) (cursor : Nat) : Res RaftLog :=
  if cursor > 0 then l.appliedTo cursor else .ok l

/-- One Ready cycle as far as the log is concerned (`/repo/src/rawnode.cc` 273-302 `NewReady`, the application persisting
and applying, `/repo/src/raft.cc` 431-469 `Raft::Advance`): returns the committed entries and the snapshot handed out. -/
def RaftLog.readyCycle (env : Env) (l : RaftLog) : Res (RaftLog × Option Snapshot × List Entry) := do
  let es ← l.nextEnts env
  let ents := l.unstable.entries
  let snap := l.unstable.snapshot.getD {}
  let l1 ← l.persist
  let l2 ← l1.appliedToCursor (appliedCursorOf es snap)
  let l3 ← l2.ackPersisted ents snap
  pure (l3, l.unstable.snapshot, es)

end Craft
