import Verif.Spec.BootLive
import Verif.Spec.MembersLease

/-! # Lease-based reads in a cluster started with `Bootstrap` -/

namespace Craft.Boot
open Spec Members

/-- Nodes are started with lease-based reads. -/
def Act.LeaseOption : Act → Prop
  | .boot _ cfg _ => cfg.readOnlyOption = .leaseBased
  | .plain a => a.LeaseOption

/-- A leader that is handed a read request has indexes that fit 64 bits. -/
def Act.Fits (c : State) : Act → Prop
  | .boot _ _ _ => True
  | .plain a => a.Fits c

/-- The read requests an action hands to a leader: the node, the term it leads, and the context. -/
def Act.leaseAsks (c : State) : Act → List (Nat × Nat × Bytes)
  | .boot _ _ _ => []
  | .plain a => a.leaseAsks c

/-- An execution of a cluster with lease-based reads, with the read requests that were handed to leaders. -/
inductive LeaseRun (env : Env) (dec : Entry → Option ConfChangeI) (peers : List (Nat × Bytes)) : State → List (Nat × Nat × Bytes) → State → Prop
  | nil {c} : LeaseRun env dec peers c [] c
  | act {c c' c'' asked} (a : Act) : LeaseRun env dec peers c asked c' → a.Allowed peers c' → a.LeaseOption → a.Fits c' →
      a.run env dec peers c' = .ok c'' → LeaseRun env dec peers c (asked ++ a.leaseAsks c') c''

end Craft.Boot
