import Verif.Spec.Live

/-! # Read requests in a cluster -/

namespace Craft.Cluster
open Spec

/-- The node is running and leads. -/
def State.leads (c : State) (p : Nat) : Bool :=
  match c.proc p with
  | .up n => decide (n.raft.state = .leader)
  | .down _ => false

/-- The context of a read request. -/
def askCtx (m : Message) : Bytes := (m.entries.headD {}).data

/-- The read requests an action hands to a leader: the node and the context. -/
def Act.asks (c : State) : Act → List (Nat × Bytes)
  | .call p (.readIndex ctx) => if c.leads p then [(p, ctx)] else []
  | .deliver p m => if c.leads p ∧ m.type = .readIndex then [(p, askCtx m)] else []
  | _ => []

/-- Nodes are started with safe (not lease-based) reads, the default. -/
def Act.SafeReads : Act → Prop
  | .start _ cfg _ => cfg.readOnlyOption = .safe
  | _ => True

/-- An execution, with the read requests that were handed to leaders in it. -/
inductive Run (env : Env) : State → List (Nat × Bytes) → State → Prop
  | nil {c} : Run env c [] c
  | act {c c' c'' asked} (a : Act) : Run env c asked c' → a.Allowed c' → a.SafeReads → a.run env c' = .ok c'' →
      Run env c (asked ++ a.asks c') c''

end Craft.Cluster
