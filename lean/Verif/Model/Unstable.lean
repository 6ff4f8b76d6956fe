import Verif.Model.Types

/-! # `/repo/src/log_unstable.{h,cc}` -/

namespace Craft

/-- `Unstable` (`/repo/src/log_unstable.h` 81-87). -/
structure Unstable where
  snapshot : Option Snapshot := none
  entries : List Entry := []
  offset : Nat := 0
deriving Repr, DecidableEq, Inhabited

namespace Unstable

/-- `MaybeFirstIndex` (`/repo/src/log_unstable.cc` 22-27). -/
def maybeFirstIndex (u : Unstable) : Option Nat := u.snapshot.map fun s => s.metadata.index + 1

/-- `MaybeLastIndex` (`/repo/src/log_unstable.cc` 29-38). -/
def maybeLastIndex (u : Unstable) : Option Nat :=
  if u.entries ≠ [] then some (u.offset + u.entries.length - 1)
  else u.snapshot.map fun s => s.metadata.index

/-- `MaybeTerm` (`/repo/src/log_unstable.cc` 40-57). The final `entries_[i - offset_]` is undefined if `i - offset_` is
not a valid position (possible only when `entries_` is empty and `offset_` is at most the snapshot index). -/
def maybeTerm (u : Unstable) (i : Nat) : Res (Option Nat) :=
  if i < u.offset then
    match u.snapshot with
    | some s => if s.metadata.index = i then .ok (some s.metadata.term) else .ok none
    | none => .ok none
  else match u.maybeLastIndex with
    | none => .ok none
    | some last =>
      if i > last then .ok none
      else match u.entries[i - u.offset]? with
        | some e => .ok (some e.term)
        | none => .ub "log_unstable.cc:56"

/-- `StableTo` (`/repo/src/log_unstable.cc` 59-73). -/
def stableTo (u : Unstable) (i t : Nat) : Res Unstable := do
  match ← u.maybeTerm i with
  | none => pure u
  | some gt =>
    if gt = t ∧ i ≥ u.offset then
      pure { u with entries := u.entries.drop (i - u.offset + 1), offset := i + 1 }
    else pure u

/-- `StableSnapTo` (`/repo/src/log_unstable.cc` 75-79). -/
def stableSnapTo (u : Unstable) (i : Nat) : Unstable :=
  match u.snapshot with
  | some s => if s.metadata.index = i then { u with snapshot := none } else u
  | none => u

/-- `Restore` (`/repo/src/log_unstable.cc` 81-85). -/
def restore (_ : Unstable) (s : Snapshot) : Unstable :=
  { snapshot := some s, entries := [], offset := s.metadata.index + 1 }

/-- `TruncateAndAppend` (`/repo/src/log_unstable.cc` 87-106). Callers never pass an empty list (`ents[0]` would be
undefined). A gap (`after` beyond the end) erases past the end: undefined. -/
def truncateAndAppend (u : Unstable) (ents : List Entry) : Res Unstable :=
  match ents with
  | [] => .ub "log_unstable.cc:88"
  | e0 :: _ =>
    let after := e0.index
    if after = u.offset + u.entries.length then .ok { u with entries := u.entries ++ ents }
    else if after ≤ u.offset then .ok { u with offset := after, entries := ents }
    else if after - u.offset > u.entries.length then .ub "log_unstable.cc:102"
    else .ok { u with entries := u.entries.take (after - u.offset) ++ ents }

/-- `Slice` and `MustCheckOutOfBounds` (`/repo/src/log_unstable.cc` 108-128). -/
def slice (u : Unstable) (lo hi : Nat) : Res (List Entry) :=
  if lo > hi then .fatal "log_unstable.cc:120"
  else if lo < u.offset ∨ hi > u.offset + u.entries.length then .fatal "log_unstable.cc:125"
  else .ok ((u.entries.drop (lo - u.offset)).take (hi - lo))

end Unstable
end Craft
