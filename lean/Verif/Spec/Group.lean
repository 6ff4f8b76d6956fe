import Verif.Spec.MembersLive
import Verif.Spec.Cut

/-! # A group of nodes that is cut off from the rest of the cluster -/

namespace Craft.Members

/-- The node at which something is done. -/
def Act.node : Act → Nat
  | .start p _ _ | .call p _ | .deliver p _ | .ready p | .compact p _ | .createSnapshot p _ | .crash p | .crashReady p _ _ => p

/-- Nodes are started with `pre_vote`, and nobody asks for a leadership transfer. -/
def Act.Calm : Act → Prop
  | .start _ cfg _ => cfg.preVote = true
  | .call _ x => ∀ t, ¬ x.Asks t
  | _ => True

/-- A message that takes nobody beyond term `T` and is part of no leadership transfer: no later term, except for requests for
pre-votes and granted pre-votes; the latter come from `M`; nobody (a node 0 does not exist) is told to campaign at once. -/
def Harmless (M : List Nat) (T : Nat) (m : Message) : Prop :=
  (m.term ≤ T ∨ m.type = .preVote ∨ (m.type = .preVoteResp ∧ m.reject = false)) ∧ (m.type = .preVoteResp → m.reject = false → m.src ∈ M) ∧
  (m.type = .timeoutNow → m.to = 0) ∧ m.type ≠ .transferLeader

/-- The nodes `M` when they get cut off. On the disks and in the nodes there is no term beyond `T`; those that run use `pre_vote`,
none is a candidate, pre-candidates were granted pre-votes by nodes of `M` only, no leadership transfer is pending, and what waits to be sent is harmless. -/
structure State.CutOff (c : State) (M : List Nat) (T : Nat) : Prop where
  disk : ∀ p ∈ M, (c.proc p).disk.hardState.term ≤ T
  node : ∀ p ∈ M, ∀ n a, c.proc p = .up n a → n.raft.preVote = true ∧ n.raft.term ≤ T ∧ n.raft.state ≠ .candidate ∧
    (n.raft.state = .preCandidate → ∀ v, n.raft.trk.votes.find v = some true → v ∈ M) ∧ n.raft.leadTransferee = 0 ∧
    ∀ m ∈ n.raft.msgs, Harmless M T m

/-- All nodes of `M` that run are, together, short of a quorum of the configuration they are in. -/
def State.Short (c : State) (M : List Nat) : Prop := ∀ p ∈ M, ∀ n a, c.proc p = .up n a → n.ShortOf M

/-- What can happen while the nodes `M` are cut off, from `c0` on. `sent` is what a node of `M` can receive: harmless messages that
were on their way at the beginning, and everything the nodes of `M` sent since. At the nodes of `M` anything is done that is calm;
at the others anything at all. -/
inductive Alone (env : Env) (dec : Entry → Option ConfChangeI) (M : List Nat) (T : Nat) (c0 : State) : List Message → State → Prop
  | start (old : List Message) : (∀ m ∈ old, m ∈ c0.net ∧ Harmless M T m) → c0.Short M → Alone env dec M T c0 old c0
  | inside (a : Act) {sent : List Message} {c c' : State} : Alone env dec M T c0 sent c → a.node ∈ M → a.Allowed c → a.Calm →
      (∀ p m, a = .deliver p m → m ∈ sent) → a.run env dec c = .ok c' → c'.Short M →
      Alone env dec M T c0 (sent ++ c'.net.drop c.net.length) c'
  | outside (a : Act) {sent : List Message} {c c' : State} : Alone env dec M T c0 sent c → a.node ∉ M → a.Allowed c →
      a.run env dec c = .ok c' → Alone env dec M T c0 sent c'

/-- What is guaranteed of the nodes `M` that are cut off from `c0` to `c`, where they reached term `T`, and of what they `sent` since. -/
structure Contained (M : List Nat) (T : Nat) (c0 : State) (sent : List Message) (c : State) : Prop where
  /-- No node gets beyond term `T`, none is a candidate, and who is leader of a term has been leader of that term when the cut happened. -/
  node : ∀ p ∈ M, ∀ n a, c.proc p = .up n a → n.raft.term ≤ T ∧ n.raft.state ≠ .candidate ∧
    (n.raft.state = .leader → ∃ n0 a0, c0.proc p = .up n0 a0 ∧ n0.raft.state = .leader ∧ n0.raft.term = n.raft.term)
  /-- Nothing beyond term `T` gets onto the disks. -/
  disk : ∀ p ∈ M, (c.proc p).disk.hardState.term ≤ T
  /-- None of the messages makes a follower of term `T` or later leave its leader (C92), whenever it is delivered. -/
  sent : ∀ m ∈ sent, m.to ≠ 0 → ∀ T' cq, T ≤ T' → ¬ (Call.step m).Upsets cq T'

end Craft.Members
