import Verif.Spec.Reads

/-! # Lease-based reads in a cluster -/

namespace Craft.Cluster
open Spec

/-- Nodes are started with lease-based reads. -/
def Act.LeaseReads : Act → Prop
  | .start _ cfg _ => cfg.readOnlyOption = .leaseBased
  | _ => True

/-- The term a running node is in. -/
def State.termOf (c : State) (p : Nat) : Nat :=
  match c.proc p with
  | .up n => n.raft.term
  | .down _ => 0

/-- The read requests an action hands to a leader: the node, the term it leads, and the context. -/
def Act.leaseAsks (c : State) : Act → List (Nat × Nat × Bytes)
  | .call p (.readIndex ctx) => if c.leads p then [(p, c.termOf p, ctx)] else []
  | .deliver p m => if c.leads p ∧ m.type = .readIndex then [(p, c.termOf p, askCtx m)] else []
  | _ => []

/-- An execution of a cluster with lease-based reads: what was done, and the read requests that were handed to leaders. -/
inductive LeaseRun (env : Env) : State → List Act → List (Nat × Nat × Bytes) → State → Prop
  | nil {c} : LeaseRun env c [] [] c
  | act {c c' c'' as asked} (a : Act) : LeaseRun env c as asked c' → a.Allowed c' → a.LeaseReads → a.run env c' = .ok c'' →
      LeaseRun env c (as ++ [a]) (asked ++ a.leaseAsks c') c''

/-- The index `i` covers everything that was committed, as far as nodes in terms up to `T` knew: every entry an application
had received while its node was in such a term, and every index recorded as committed on a disk with such a term. -/
def State.CoversUpTo (c : State) (T i : Nat) : Prop :=
  (∀ d ∈ c.out, d.term ≤ T → d.entry.index ≤ i) ∧
  ∀ q, (c.proc q).disk.hardState.term ≤ T → max (c.proc q).disk.view.base (c.proc q).disk.hardState.commit ≤ i

/-- How often the node's clock ticks in a sequence of actions. -/
def ticksOf (p : Nat) : List Act → Nat
  | [] => 0
  | .call q .tick :: as => (if q = p then 1 else 0) + ticksOf p as
  | _ :: as => ticksOf p as

/-- The clocks of the nodes `ps` go together: at no point of the execution is one ahead of another by more than a tick. -/
def InStep (ps : List Nat) (as : List Act) : Prop :=
  ∀ k, ∀ p ∈ ps, ∀ q ∈ ps, ticksOf p (as.take k) ≤ ticksOf q (as.take k) + 1

end Craft.Cluster
