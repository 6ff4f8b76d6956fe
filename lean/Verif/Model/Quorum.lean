import Verif.Model.Types

/-! # `/repo/src/quorum/majority.cc`, `joint.cc` -/

namespace Craft

/-- `VoteState` (`/repo/src/quorum/quorum.h` 53-61). -/
inductive VoteState where
  | pending | lost | won
deriving Repr, DecidableEq, Inhabited

/-- Inner loop of `insertionSort` (`/repo/src/quorum/majority.cc` 37-39): sinks the new element `x` to the left of
the already sorted prefix, given here in reverse (last element first), while it is smaller than its
left neighbour. -/
def sinkRev (x : Nat) : List Nat → List Nat
  | [] => [x]
  | y :: ys => if x < y then y :: sinkRev x ys else x :: y :: ys

/-- `insertionSort` (`/repo/src/quorum/majority.cc` 33-41): outer loop, `acc` is the sorted prefix reversed. -/
def insertionSortLoop (acc : List Nat) : List Nat → List Nat
  | [] => acc.reverse
  | x :: xs => insertionSortLoop (sinkRev x acc) xs

/-- `insertionSort` (`/repo/src/quorum/majority.cc` 33-41). -/
def insertionSort (l : List Nat) : List Nat := insertionSortLoop [] l

namespace Majority

/-- The array after the fill loop (`/repo/src/quorum/majority.cc` 58-81): zero initialised, of size `n`, the acked
indexes of the voters that reported stored from the right, in iteration order. (The two allocation variants,
on-stack for n ≤ 7 and heap, are the same array of `n` zeros; `srt[0..n)` is all that is ever read.) -/
def fill (cfg : USet) (acked : Nat → Option Nat) : List Nat :=
  let got := cfg.filterMap acked
  List.replicate (cfg.length - got.length) 0 ++ got.reverse

/-- `MajorityConfig::CommittedIndex` (`/repo/src/quorum/majority.cc` 43-92). The final `srt[pos]` is within
bounds for every non-empty configuration; `getD` is only used to keep the function total. -/
def committedIndex (cfg : USet) (acked : Nat → Option Nat) : Nat :=
  let n := cfg.length
  if n = 0 then u64Max
  else
    let srt := insertionSort (fill cfg acked)
    let pos := n - (n / 2 + 1)
    srt.getD pos 0

/-- Counting loop of `MajorityConfig::VoteResult` (`/repo/src/quorum/majority.cc` 104-113): (yes votes, missing). -/
def countVotes (votes : AMap Bool) : USet → Nat × Nat
  | [] => (0, 0)
  | id :: ids =>
    let (y, m) := countVotes votes ids
    match votes.find id with
    | none => (y, m + 1)
    | some true => (y + 1, m)
    | some false => (y, m)

/-- `MajorityConfig::VoteResult` (`/repo/src/quorum/majority.cc` 94-123). Simplification: `int` counters and the
cast of `q` are unbounded. -/
def voteResult (cfg : USet) (votes : AMap Bool) : VoteState :=
  if cfg = [] then .won
  else
    let (voted, missing) := countVotes votes cfg
    let q := cfg.length / 2 + 1
    if voted ≥ q then .won
    else if voted + missing ≥ q then .pending
    else .lost

end Majority

/-- `JointConfig` (`/repo/src/quorum/joint.h` 28-78): `configs_[0]` incoming, `configs_[1]` outgoing. -/
structure JointConfig where
  incoming : USet := []
  outgoing : USet := []
deriving Repr, DecidableEq, Inhabited

namespace JointConfig

/-- `JointConfig::IDs` (`/repo/src/quorum/joint.cc` 20-26, `majority.cc` 125-129). -/
def ids (c : JointConfig) : USet := USet.insertAll (USet.insertAll [] c.incoming) c.outgoing

/-- `JointConfig::CommittedIndex` (`/repo/src/quorum/joint.cc` 28-32). -/
def committedIndex (c : JointConfig) (acked : Nat → Option Nat) : Nat :=
  min (Majority.committedIndex c.incoming acked) (Majority.committedIndex c.outgoing acked)

/-- `JointConfig::VoteResult` (`/repo/src/quorum/joint.cc` 34-48). -/
def voteResult (c : JointConfig) (votes : AMap Bool) : VoteState :=
  let r1 := Majority.voteResult c.incoming votes
  let r2 := Majority.voteResult c.outgoing votes
  if r1 = r2 then r1
  else if r1 = .lost ∨ r2 = .lost then .lost
  else .pending

/-- `JointConfig::At` (`/repo/src/quorum/joint.h` 36-41).  `sizeof(configs_)` is the size of the array in *bytes*
(two `std::set` objects), not its length: an index between 2 and that size is used unchecked. `szBytes` is
`sizeof(configs_)`. -/
def atIdx (c : JointConfig) (szBytes : Nat) (i : Nat) : Res USet :=
  if i ≥ szBytes then .ok c.incoming
  else if i = 0 then .ok c.incoming
  else if i = 1 then .ok c.outgoing
  else .ub "joint.h:40"

end JointConfig

end Craft
