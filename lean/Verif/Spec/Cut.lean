import Verif.Spec.Turn
import Verif.Spec.Transfer
import Verif.Spec.Quorum

/-! # Nodes that are cut off, and nodes that are looked after -/

namespace Craft

/-- The nodes that satisfy `P` are a quorum of a configuration: a majority of its voters, of both sets of voters while it is joint. -/
def QuorumOf (c : JointConfig) (P : Nat → Bool) : Prop :=
  (c.incoming ≠ [] → Spec.Majority c.incoming P) ∧ (c.outgoing ≠ [] → Spec.Majority c.outgoing P)

/-- Together with the nodes `S`, the node is short of a quorum of its current configuration. -/
def RawNode.ShortOf (n : RawNode) (S : List Nat) : Prop := ¬ QuorumOf n.raft.trk.config.voters fun v => decide (v = n.raft.id ∨ v ∈ S)

/-- Runs of one incarnation of a node that count the ticks: calls `c` that lead from `a` to `b` with `ok a c b`, Readys (with
configuration changes only if `conf`), any change of the storage; all states are `good`. -/
inductive Timed (env : Env) (ok : RawNode → Call → RawNode → Prop) (good : RawNode → Prop) (conf : Prop) (n : RawNode) : Nat → RawNode → Prop
  | refl : good n → Timed env ok good conf n 0 n
  | call (c : Call) {k : Nat} {a b : RawNode} : Timed env ok good conf n k a → c.Plain → c.Stamped → c.run env a = .ok b → ok a c b → good b →
      Timed env ok good conf n (if c = .tick then k + 1 else k) b
  | ready (ccs : List ConfChangeI) {k : Nat} {a b : RawNode} {rd : Ready} : Timed env ok good conf n k a → (ccs = [] ∨ conf) →
      a.handleReady env ccs = .ok (b, rd) → good b → Timed env ok good conf n k b
  | store (st : Storage) {k : Nat} {a : RawNode} : Timed env ok good conf n k a → good (a.withStorage st) →
      Timed env ok good conf n k (a.withStorage st)

/-- What a node of term `T` can hear when only the nodes `S` answer its pre-vote requests, and nobody has reached a later term: no
message of a later term, except requests for pre-votes and granted pre-votes; granted pre-votes come from `S`; and no leader asks it
to campaign at once. -/
def Call.Within (S : List Nat) (T : Nat) : Call → Prop
  | .step m => m.type ≠ .timeoutNow ∧ (m.term ≤ T ∨ m.type = .preVote ∨ (m.type = .preVoteResp ∧ m.reject = false)) ∧
      (m.type = .preVoteResp → m.reject = false → m.src ∈ S)
  | _ => True

/-- The call brings no answer (to an append or a heartbeat) but from `S`, asks for no leadership transfer, and is no vote request that
claims to come from the node itself. -/
def Call.AnswersFrom (S : List Nat) (id : Nat) (c : Call) : Prop :=
  (∀ m, c = .step m → (m.type = .appResp ∨ m.type = .heartbeatResp) → m.src ∈ S) ∧ (∀ t, ¬ c.Asks t) ∧ ¬ c.OwnVote id

/-- From `a` to `b` the node puts a heartbeat of its term to every other member it knows in its outbox. -/
def HeartbeatAll (a b : RawNode) : Prop :=
  ∀ id, id ≠ a.raft.id → a.raft.pr id ≠ none →
    ∃ m ∈ b.raft.msgs.drop a.raft.msgs.length, m.type = .heartbeat ∧ m.to = id ∧ m.src = a.raft.id ∧ m.term = a.raft.term

/-- The call could make a follower of term `T` leave its leader: a call of `Campaign`, a leader's request to campaign at once, or a
message of a later term, other than a pre-vote or (if the node checks quorums) a vote request that is not part of a transfer. -/
def Call.Upsets (checkQuorum : Bool) (T : Nat) : Call → Prop
  | .campaign => True
  | .step m => m.type = .timeoutNow ∨ (T < m.term ∧ m.type ≠ .preVote ∧ ¬ (m.type = .preVoteResp ∧ m.reject = false) ∧
      ¬ (checkQuorum = true ∧ m.type = .vote ∧ m.context ≠ campaignTransferCtx))
  | _ => False

/-- Runs of a follower of term `T` that is looked after: nothing upsets it, no leader has id 0 (`Config::Validate` refuses it), and a
message from a leader of its term comes before `t` ticks have passed since the last one. The number counts the ticks since then. -/
inductive LookedAfter (env : Env) (T t : Nat) (n : RawNode) : Nat → RawNode → Prop
  | start (c : Call) (l : Nat) {a : RawNode} : c.HearsFrom l T → l ≠ 0 → c.Stamped → c.run env n = .ok a → LookedAfter env T t n 0 a
  | hear (c : Call) (l : Nat) {k : Nat} {a b : RawNode} : LookedAfter env T t n k a → c.HearsFrom l T → l ≠ 0 → c.Stamped →
      c.run env a = .ok b → LookedAfter env T t n 0 b
  | call (c : Call) {k : Nat} {a b : RawNode} : LookedAfter env T t n k a → c.Plain → c.Stamped → ¬ c.Upsets a.raft.checkQuorum T →
      (∀ T', ¬ c.HearsFrom 0 T') → c.run env a = .ok b → (if c = .tick ∨ c = .tickQuiesced then k + 1 else k) < t →
      LookedAfter env T t n (if c = .tick ∨ c = .tickQuiesced then k + 1 else k) b
  | ready (ccs : List ConfChangeI) {k : Nat} {a b : RawNode} {rd : Ready} : LookedAfter env T t n k a → a.handleReady env ccs = .ok (b, rd) →
      LookedAfter env T t n k b
  | store (st : Storage) {k : Nat} {a : RawNode} : LookedAfter env T t n k a → LookedAfter env T t n k (a.withStorage st)

end Craft
