import Verif.Spec.Members

/-! # The leader a node reports -/

namespace Craft

/-- The running node `p` of a cluster of fixed membership reports `l` as the leader of the term `T` (0 stands for no leader). -/
def Cluster.State.Reports (c : Cluster.State) (p l T : Nat) : Prop :=
  l ≠ 0 ∧ ∃ n, c.proc p = .up n ∧ n.raft.lead = l ∧ n.raft.term = T

/-- The same for a cluster whose membership changes. -/
def Members.State.Reports (c : Members.State) (p l T : Nat) : Prop :=
  l ≠ 0 ∧ ∃ n a, c.proc p = .up n a ∧ n.raft.lead = l ∧ n.raft.term = T

/-- A message only leaders send. -/
def FromLeader (m : Message) : Prop := m.type = .app ∨ m.type = .snap ∨ m.type = .heartbeat

end Craft
