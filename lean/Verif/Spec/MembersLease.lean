import Verif.Spec.MembersReads

/-! # Lease-based reads in a cluster whose membership changes -/

namespace Craft.Members
open Spec Cluster

/-- Nodes are started with lease-based reads. -/
def Act.LeaseOption : Act → Prop
  | .start _ cfg _ => cfg.readOnlyOption = .leaseBased
  | _ => True

/-- The term a running node is in. -/
def State.termOf (c : State) (p : Nat) : Nat :=
  match c.proc p with
  | .up n _ => n.raft.term
  | .down _ => 0

/-- The read requests an action hands to a leader: the node, the term it leads, and the context. -/
def Act.leaseAsks (c : State) : Act → List (Nat × Nat × Bytes)
  | .call p (.readIndex ctx) => if c.leads p then [(p, c.termOf p, ctx)] else []
  | .deliver p m => if c.leads p ∧ m.type = .readIndex then [(p, c.termOf p, askCtx m)] else []
  | _ => []

/-- If the node leads, its log indexes fit 64 bits, as in the code. -/
def State.Fits (c : State) (p : Nat) : Prop := ∀ n a, c.proc p = .up n a → n.raft.state = .leader → n.raft.log.lastIndex ≤ u64Max

/-- A leader that is handed a read request has indexes that fit 64 bits. -/
def Act.Fits (c : State) : Act → Prop
  | .call p (.readIndex _) => c.Fits p
  | .deliver p m => m.type = .readIndex → c.Fits p
  | _ => True

/-- An execution of a cluster with lease-based reads, with the read requests that were handed to leaders. -/
inductive LeaseRun (env : Env) (dec : Entry → Option ConfChangeI) : State → List (Nat × Nat × Bytes) → State → Prop
  | nil {c} : LeaseRun env dec c [] c
  | act {c c' c'' asked} (a : Act) : LeaseRun env dec c asked c' → a.Allowed c' → a.LeaseOption → a.Fits c' →
      a.run env dec c' = .ok c'' → LeaseRun env dec c (asked ++ a.leaseAsks c') c''

/-- The index `i` covers everything that was committed, as far as nodes in terms up to `T` knew: every entry an application
had received while its node was in such a term, and every index recorded as committed on a disk with such a term. -/
def State.CoversUpTo (c : State) (T i : Nat) : Prop :=
  (∀ d ∈ c.out, d.term ≤ T → d.entry.index ≤ i) ∧
  ∀ q j, (c.proc q).disk.hardState.term ≤ T → c.DiskCommitted q j → j ≤ i

end Craft.Members
