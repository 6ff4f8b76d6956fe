import Verif.Model.Inflights

/-! # `/repo/src/tracker/progress.{h,cc}` -/

namespace Craft

/-- `StateType` (`/repo/src/tracker/state.h`). -/
inductive PrState where
  | probe | replicate | snapshot
deriving Repr, DecidableEq, Inhabited

/-- `Progress` (`/repo/src/tracker/progress.h` 126-175). `inflights_` is never null: every Progress is built by the
second constructor or `Clone`. -/
structure Progress where
  mtch : Nat := 0            -- `match_`
  next : Nat := 0
  state : PrState := .probe
  pendingSnapshot : Nat := 0
  recentActive : Bool := false
  probeSent : Bool := false
  inflights : Inflights
  isLearner : Bool := false
deriving Repr, DecidableEq, Inhabited

namespace Progress

/-- Second constructor (`/repo/src/tracker/progress.cc` 35-44). -/
def new (next mtch : Nat) (maxInflight : Int) (isLearner active : Bool) : Progress :=
  { mtch, next, recentActive := active, inflights := .new maxInflight, isLearner }

/-- `ResetState` (`/repo/src/tracker/progress.cc` 46-52). -/
def resetState (p : Progress) (s : PrState) : Progress :=
  { p with probeSent := false, pendingSnapshot := 0, state := s, inflights := p.inflights.reset }

/-- `BecomeProbe` (`/repo/src/tracker/progress.cc` 54-66). -/
def becomeProbe (p : Progress) : Progress :=
  if p.state = .snapshot then
    { p.resetState .probe with next := max (p.mtch + 1) (p.pendingSnapshot + 1) }
  else
    { p.resetState .probe with next := p.mtch + 1 }

/-- `BecomeReplicate` (`/repo/src/tracker/progress.cc` 68-71). -/
def becomeReplicate (p : Progress) : Progress :=
  { p.resetState .replicate with next := p.mtch + 1 }

/-- `BecomeSnapshot` (`/repo/src/tracker/progress.cc` 73-76). -/
def becomeSnapshot (p : Progress) (i : Nat) : Progress :=
  { p.resetState .snapshot with pendingSnapshot := i }

/-- `MaybeUpdate` (`/repo/src/tracker/progress.cc` 78-87). -/
def maybeUpdate (p : Progress) (n : Nat) : Progress × Bool :=
  let updated := decide (p.mtch < n)
  let p := if p.mtch < n then { p with mtch := n, probeSent := false } else p
  ({ p with next := max p.next (n + 1) }, updated)

/-- `OptimisticUpdate` (`/repo/src/tracker/progress.h` 62). -/
def optimisticUpdate (p : Progress) (n : Nat) : Progress := { p with next := n + 1 }

/-- `MaybeDecrTo` (`/repo/src/tracker/progress.cc` 89-113). `match_hint + 1` wraps for `UINT64_MAX`. -/
def maybeDecrTo (p : Progress) (rejected matchHint : Nat) : Progress × Bool :=
  if p.state = .replicate then
    if rejected ≤ p.mtch then (p, false)
    else ({ p with next := p.mtch + 1 }, true)
  else if sub64 p.next 1 ≠ rejected then (p, false)
  else
    ({ p with next := max (min rejected ((matchHint + 1) % 2 ^ 64)) 1, probeSent := false }, true)

/-- `IsPaused` (`/repo/src/tracker/progress.cc` 115-128). -/
def isPaused (p : Progress) : Bool :=
  match p.state with
  | .probe => p.probeSent
  | .replicate => p.inflights.full
  | .snapshot => true

end Progress
end Craft
