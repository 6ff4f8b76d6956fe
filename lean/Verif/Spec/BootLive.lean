import Verif.Spec.Boot
import Verif.Spec.MembersReads
import Verif.Spec.MembersSafe

/-! # Clusters started with `Bootstrap`, as a program

The clusters of `Verif.Spec.Boot` with every step a function that may abort, as `Verif.Spec.MembersLive` does for clusters that start
from given disks. -/

namespace Craft.Boot
open Spec Members

/-- What can be done to the cluster: a founder is started for the first time, or anything that can be done to any cluster. -/
inductive Act where
  | boot (p : Nat) (cfg : Config) (rng : Nat)
  | plain (a : Members.Act)

/-- What the applications and the network promise. A founder is bootstrapped, with sane settings, while its disk is empty, and is
not started in any other way then; the rest is as for other clusters. -/
def Act.Allowed (peers : List (Nat × Bytes)) (c : State) : Act → Prop
  | .boot p cfg _ => c.proc p = .down {} ∧ Founder peers p ∧ cfg.id = p ∧ cfg.applied = 0 ∧ cfg.Sane {} ∧ cfg.maxInflightMsgs ≤ 2 ^ 30
  | .plain a => a.Allowed c ∧ ∀ p cfg rng, a = .start p cfg rng → Founder peers p → c.proc p ≠ .down {}

/-- The cluster after the action, unless the library aborts. (A node that `Bootstrap` refuses to set up does not run.) -/
def Act.run (env : Env) (dec : Entry → Option ConfChangeI) (peers : List (Nat × Bytes)) (c : State) : Act → Res State
  | .boot p cfg rng => do
    let n0 ← RawNode.new env cfg {} rng
    let (n, e) ← n0.bootstrap env peers
    match e with
    | none => pure (c.set p (.up n ⟨0, {}⟩))
    | some _ => pure c
  | .plain a => a.run env dec c

/-- The read requests an action hands to a leader. -/
def Act.asks (c : State) : Act → List (Nat × Bytes)
  | .boot _ _ _ => []
  | .plain a => a.asks c

/-- What C67 asks of the users of reads. -/
def Act.SafeReads (c : State) : Act → Prop
  | .boot _ cfg _ => cfg.readOnlyOption = .safe
  | .plain a => a.SafeReads c

/-- An execution with safe reads, with the read requests that were handed to leaders in it. -/
inductive Run (env : Env) (dec : Entry → Option ConfChangeI) (peers : List (Nat × Bytes)) : State → List (Nat × Bytes) → State → Prop
  | nil {c} : Run env dec peers c [] c
  | act {c c' c'' asked} (a : Act) : Run env dec peers c asked c' → a.Allowed peers c' → a.SafeReads c' → a.run env dec peers c' = .ok c'' →
      Run env dec peers c (asked ++ a.asks c') c''

/-- The cluster before anything happened. -/
def blank : State := { proc := fun _ => .down {} }

/-- What the applications promise about conf changes, as for other clusters. -/
def Act.Wise (env : Env) (c : State) : Act → Prop
  | .boot _ _ _ => True
  | .plain a => a.Wise Proper env c

/-- Everything a cluster whose applications keep these promises can get to. -/
inductive Live (env : Env) (peers : List (Nat × Bytes)) : State → Prop
  | init : Live env peers blank
  | act {c c'} (a : Act) : Live env peers c → a.Allowed peers c → a.Wise env c → a.run env env.conf peers c = .ok c' → Live env peers c'

end Craft.Boot
