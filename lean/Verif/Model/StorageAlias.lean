import Verif.Model.Storage

/-! # `MemoryStorage` with the snapshot object on a heap

`snapshot_` is a `std::shared_ptr<raftpb::Snapshot>` that `SnapShot()` and `CreateSnapshot` hand out
(`/repo/src/storage.cc` 113-116, 160) and that `CreateSnapshot` mutates in place (152-159). This model keeps the pointer:
an address into a heap of snapshot objects. `Model/Storage.lean` is its projection by value
(`HStorage.val`, proved in `Props/Storage.lean`). -/

namespace Craft

/-- Heap of snapshot objects; an address is a position. -/
abbrev SnapHeap := List Snapshot

/-- `MemoryStorage` (`/repo/src/storage.h` 155-167) with `snapshot_` as an address. -/
structure HStorage where
  heap : SnapHeap := [{}]
  ptr : Nat := 0
  hardState : HardState := {}
  ents : List Entry := [{}]
deriving Repr, DecidableEq, Inhabited

namespace HStorage

/-- Dereference. -/
def deref (s : HStorage) (a : Nat) : Snapshot := s.heap.getD a {}

/-- Value projection: what the storage itself holds. -/
def val (s : HStorage) : Storage := { hardState := s.hardState, snapshot := s.deref s.ptr, ents := s.ents }

/-- The application allocates a snapshot object (e.g. received in a Ready) and gets its address. -/
def alloc (s : HStorage) (v : Snapshot) : HStorage × Nat := ({ s with heap := s.heap ++ [v] }, s.heap.length)

/-- `SnapShot` (`/repo/src/storage.cc` 113-116): returns the shared pointer itself. -/
def snapShot (s : HStorage) : Nat := s.ptr

/-- `ApplySnapshot` (`/repo/src/storage.cc` 118-135): stores the caller's pointer. -/
def applySnapshot (s : HStorage) (a : Nat) : HStorage × Option Err :=
  let snap := s.deref a
  if (s.deref s.ptr).metadata.index ≥ snap.metadata.index then (s, some .snapOutOfDate)
  else ({ s with ptr := a, ents := [{ term := snap.metadata.term, index := snap.metadata.index }] }, none)

/-- `CreateSnapshot` (`/repo/src/storage.cc` 137-161): writes through `snapshot_`. -/
def createSnapshot (s : HStorage) (i : Nat) (cs : Option ConfState) (data : Bytes) :
    Res (HStorage × Except Err Nat) :=
  let cur := s.deref s.ptr
  if i ≤ cur.metadata.index then .ok (s, .error .snapOutOfDate)
  else if i > s.val.lastIndex then .fatal "storage.cc:149"
  else if i < s.val.offset then .ub "storage.cc:154"
  else
    let m : SnapMeta :=
      { index := i
        term := (s.ents.getD (i - s.val.offset) {}).term
        confState := cs.getD cur.metadata.confState }
    .ok ({ s with heap := s.heap.set s.ptr { metadata := m, data := data } }, .ok s.ptr)

/-- `Append` (`/repo/src/storage.cc` 186-229): does not touch the snapshot. -/
def append (s : HStorage) (es : List Entry) : Res HStorage := do
  let t ← s.val.append es
  pure { s with ents := t.ents }

/-- `Compact` (`/repo/src/storage.cc` 163-184): does not touch the snapshot. -/
def compact (s : HStorage) (ci : Nat) : Res (HStorage × Option Err) := do
  let (t, e) ← s.val.compact ci
  pure ({ s with ents := t.ents }, e)

/-- `SetHardState` (`/repo/src/storage.cc` 45-49). -/
def setHardState (s : HStorage) (h : HardState) : HStorage := { s with hardState := h }

end HStorage
end Craft
