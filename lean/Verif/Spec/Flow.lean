import Verif.Spec.Node

/-! # How much a leader may send to a peer it does not hear from -/

namespace Craft

/-- A message that carries entries or a snapshot to `j`. -/
def Message.Heavy (j : Nat) (m : Message) : Prop := m.to = j ∧ (m.type = .snap ∨ (m.type = .app ∧ m.entries ≠ []))

instance (j : Nat) (m : Message) : Decidable (m.Heavy j) := by unfold Message.Heavy; infer_instance

/-- How many of the messages carry entries or a snapshot to `j`. -/
def load (j : Nat) (ms : List Message) : Nat := (ms.filter fun m => decide (m.Heavy j)).length

/-- How many such messages a peer may still get, going by what the leader keeps about it: none while it is sent a snapshot,
one while it is probed, and what is left of the window (`max_inflight_msgs`) while it is replicating. -/
def Progress.room (p : Progress) : Nat :=
  match p.state with
  | .snapshot => 0
  | .probe => if p.probeSent then 0 else 1
  | .replicate => (p.inflights.size - p.inflights.count).toNat

/-- The call is not about `j`: it does not hand in a message from `j`, and it reports nothing about it. -/
def Call.NotAbout (j : Nat) : Call → Prop
  | .step m => m.src ≠ j
  | .reportUnreachable id => id ≠ j
  | .reportSnapshot id _ => id ≠ j
  | _ => True

/-- All messages a node ever made, handed over or not. -/
def NodeHist.made (x : NodeHist) : List Message := x.sent ++ x.node.raft.msgs

/-- One incarnation of a leader, as long as it leads the same term, hears nothing from or about `j` and applies no change of
the membership. -/
inductive Unheard (env : Env) (j : Nat) (x : NodeHist) : NodeHist → Prop
  | refl : Unheard env j x x
  | call (c : Call) {n n' : RawNode} {sent : List Message} : Unheard env j x ⟨n, sent⟩ → c.Plain → c.Stamped → c.Sourced → c.NotAbout j →
      c.run env n = .ok n' → n'.raft.state = .leader → n'.raft.term = n.raft.term → Unheard env j x ⟨n', sent⟩
  | ready {n n' : RawNode} {rd : Ready} {sent : List Message} : Unheard env j x ⟨n, sent⟩ → n.handleReady env [] = .ok (n', rd) →
      Unheard env j x ⟨n', sent ++ rd.messages⟩
  | store (st : Storage) {n : RawNode} {sent : List Message} : Unheard env j x ⟨n, sent⟩ → Unheard env j x ⟨n.withStorage st, sent⟩

end Craft
