import Verif.Spec.MembersLive
import Verif.Spec.Reads

/-! # Read requests in a cluster whose membership changes -/

namespace Craft.Members
open Spec Cluster

/-- The node is running and leads. -/
def State.leads (c : State) (p : Nat) : Bool :=
  match c.proc p with
  | .up n _ => decide (n.raft.state = .leader)
  | .down _ => false

/-- The read requests an action hands to a leader: the node and the context. -/
def Act.asks (c : State) : Act → List (Nat × Bytes)
  | .call p (.readIndex ctx) => if c.leads p then [(p, ctx)] else []
  | .deliver p m => if c.leads p ∧ m.type = .readIndex then [(p, askCtx m)] else []
  | _ => []

/-- If the node leads and its configuration has a single voter, then that voter is the node itself (and its log indexes fit
64 bits, as in the code). -/
def State.OwnVoter (c : State) (p : Nat) : Prop :=
  ∀ n a, c.proc p = .up n a → n.raft.state = .leader → ∀ v, n.raft.trk.config.voters = { incoming := [v], outgoing := [] } →
    v = p ∧ n.raft.log.lastIndex ≤ u64Max

/-- Nodes are started with safe (not lease-based) reads, the default. -/
def Act.SafeOption : Act → Prop
  | .start _ cfg _ => cfg.readOnlyOption = .safe
  | _ => True

/-- Read requests are not handed to a leader that is no voter of the single-voter configuration it uses. -/
def Act.AsksVoter (c : State) : Act → Prop
  | .call p (.readIndex _) => c.OwnVoter p
  | .deliver p m => m.type = .readIndex → c.OwnVoter p
  | _ => True

/-- What C67 asks of the users of reads. -/
def Act.SafeReads (c : State) (a : Act) : Prop := a.SafeOption ∧ a.AsksVoter c

/-- An execution in which every action meets the condition `P`, with the read requests that were handed to leaders in it. -/
inductive Run (env : Env) (dec : Entry → Option ConfChangeI) (P : State → Act → Prop) : State → List (Nat × Bytes) → State → Prop
  | nil {c} : Run env dec P c [] c
  | act {c c' c'' asked} (a : Act) : Run env dec P c asked c' → a.Allowed c' → P c' a → a.run env dec c' = .ok c'' →
      Run env dec P c (asked ++ a.asks c') c''

end Craft.Members
