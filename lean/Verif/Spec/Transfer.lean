import Verif.Spec.Node

/-! # Leadership transfer: what is asked for, and runs of a node that count its ticks -/

namespace Craft

/-- The call asks the node, if it is the leader, to hand its leadership to `t`: a call of `TransferLeader`, or such a request that a
follower forwarded. -/
def Call.Asks (t : Nat) : Call → Prop
  | .transferLeader id => id = t
  | .step m => m.type = .transferLeader ∧ m.src = t
  | _ => False

/-- The call hands the node a vote request that claims to come from the node itself. (A node never sends one to itself.) -/
def Call.OwnVote (id : Nat) : Call → Prop
  | .step m => m.type = .vote ∧ m.src = id
  | _ => False

/-- One incarnation of a node, counting the ticks: any calls except a new request for a transfer, Readys, compaction and snapshots. -/
inductive NoAsk (env : Env) (n : RawNode) : Nat → RawNode → Prop
  | refl : NoAsk env n 0 n
  | call (c : Call) {k : Nat} {a b : RawNode} : NoAsk env n k a → c.Plain → c.Stamped → (∀ t, ¬ c.Asks t) → ¬ c.OwnVote a.raft.id →
      c.run env a = .ok b → NoAsk env n (if c = .tick then k + 1 else k) b
  | ready (ccs : List ConfChangeI) {k : Nat} {a b : RawNode} {rd : Ready} : NoAsk env n k a → a.handleReady env ccs = .ok (b, rd) → NoAsk env n k b
  | store (st : Storage) {k : Nat} {a : RawNode} : NoAsk env n k a → NoAsk env n k (a.withStorage st)

end Craft
