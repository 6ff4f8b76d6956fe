import Verif.Model.Util

/-! # `MemoryStorage` (`/repo/src/storage.{h,cc}`) -/

namespace Craft

/-- `MemoryStorage` (`/repo/src/storage.h` 155-167). `ents` includes the dummy entry at position 0. Simplifications: the
mutex (one thread at a time) and `ignore_size_` (a test knob) are not modelled; `snapshot_` by value. -/
structure Storage where
  hardState : HardState := {}
  snapshot : Snapshot := {}
  ents : List Entry := [{}]
deriving Repr, DecidableEq, Inhabited

namespace Storage

/-- `MemoryStorage::MemoryStorage` (`/repo/src/storage.cc` 26-38). -/
def new : Storage := {}

/-- `ents_[0]->index()`. The asserts `!ents_.empty()` are covered by `Storage.WF` in the proofs. -/
def offset (s : Storage) : Nat := (s.ents.headD {}).index

/-- `LastIndexUnSafe` (`/repo/src/storage.cc` 231-234). -/
def lastIndex (s : Storage) : Nat := s.offset + s.ents.length - 1

/-- `FirstIndexUnSafe` (`/repo/src/storage.cc` 236-239). -/
def firstIndex (s : Storage) : Nat := s.offset + 1

/-- `InitialState` (`/repo/src/storage.cc` 40-43). -/
def initialState (s : Storage) : HardState × ConfState := (s.hardState, s.snapshot.metadata.confState)

/-- `SetHardState` (`/repo/src/storage.cc` 45-49). -/
def setHardState (s : Storage) (h : HardState) : Storage := { s with hardState := h }

/-- `Entries` (`/repo/src/storage.cc` 51-80). `hi < lo` gives a reversed iterator range: undefined. -/
def entries (env : Env) (s : Storage) (lo hi maxSize : Nat) : Res (Except Err (List Entry)) :=
  if lo ≤ s.offset then .ok (.error .compacted)
  else if hi > s.lastIndex + 1 then .fatal "storage.cc:67"
  else if s.ents.length = 1 then .ok (.error .unavailable)
  else if hi < lo then .ub "storage.cc:78"
  else .ok (.ok (limitSize env.entSize ((s.ents.drop (lo - s.offset)).take (hi - lo)) maxSize))

/-- `Term` (`/repo/src/storage.cc` 82-101). -/
def term (s : Storage) (i : Nat) : Except Err Nat :=
  if i < s.offset then .error .compacted
  else match s.ents[i - s.offset]? with
    | none => .error .unavailable
    | some e => .ok e.term

/-- `SnapShot` (`/repo/src/storage.cc` 113-116). -/
def snapShot (s : Storage) : Snapshot := s.snapshot

/-- `ApplySnapshot` (`/repo/src/storage.cc` 118-135). -/
def applySnapshot (s : Storage) (snap : Snapshot) : Storage × Option Err :=
  if s.snapshot.metadata.index ≥ snap.metadata.index then (s, some .snapOutOfDate)
  else ({ s with snapshot := snap, ents := [{ term := snap.metadata.term, index := snap.metadata.index }] }, none)

/-- `CreateSnapshot` (`/repo/src/storage.cc` 137-161). `i < offset` indexes `ents_` out of bounds (line 154). -/
def createSnapshot (s : Storage) (i : Nat) (cs : Option ConfState) (data : Bytes) :
    Res (Storage × Except Err Snapshot) :=
  if i ≤ s.snapshot.metadata.index then .ok (s, .error .snapOutOfDate)
  else if i > s.lastIndex then .fatal "storage.cc:149"
  else if i < s.offset then .ub "storage.cc:154"
  else
    let meta0 := s.snapshot.metadata
    let m : SnapMeta :=
      { index := i
        term := (s.ents.getD (i - s.offset) {}).term
        confState := cs.getD meta0.confState }
    let snap : Snapshot := { metadata := m, data := data }
    .ok ({ s with snapshot := snap }, .ok snap)

/-- `Compact` (`/repo/src/storage.cc` 163-184). Note that the retained entry at position 0 keeps its own type and data. -/
def compact (s : Storage) (ci : Nat) : Res (Storage × Option Err) :=
  if ci ≤ s.offset then .ok (s, some .compacted)
  else if ci > s.lastIndex then .fatal "storage.cc:174"
  else .ok ({ s with ents := s.ents.drop (ci - s.offset) }, none)

/-- `Append` (`/repo/src/storage.cc` 186-229). -/
def append (s : Storage) (es : List Entry) : Res Storage :=
  match es with
  | [] => .ok s
  | e0 :: _ =>
    let first := s.firstIndex
    let last := e0.index + es.length - 1
    if last < first then .ok s
    else
      let es := if first > e0.index then es.drop (first - e0.index) else es
      let offset := sub64 (es.headD {}).index s.offset
      if offset < s.ents.length then .ok { s with ents := s.ents.take offset ++ es }
      else if offset = s.ents.length then .ok { s with ents := s.ents ++ es }
      else .fatal "storage.cc:225"

end Storage
end Craft
