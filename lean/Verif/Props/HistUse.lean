import Verif.Props.Hist
import Verif.Props.NodeTurn
import Verif.Props.NodeTimers
import Verif.Props.Quorate
import Verif.Dyn.BootDemo
import Verif.Dyn.Demo
import Verif.Cluster.Demo

/-! # C93, used: some of the single-node theorems, for the nodes of a cluster -/

namespace Craft
open Spec

/-- What C46, C74, C89 and C41 say of one node, for a node `p` of a cluster whose network carries `net`: it knows its own name, a leader
names itself as the leader, a campaigner names nobody, the configuration and the progress table fit, the drawn timeout is
within its range, and the messages that wait in the node are neither unsigned vote requests nor appends, heartbeats or snapshots without a term. -/
structure Sane (p : Nat) (n : RawNode) : Prop where
  self : n.raft.id = p
  leader : n.raft.state = .leader → n.raft.lead = p
  campaigner : n.raft.state = .candidate ∨ n.raft.state = .preCandidate → n.raft.lead = 0
  conf : ConfInv n.raft.trk.config n.raft.trk.progress
  timeout : n.raft.electionTimeout ≤ n.raft.randomizedElectionTimeout ∧ n.raft.randomizedElectionTimeout ≤ 2 * n.raft.electionTimeout - 1
  outbox : ∀ m ∈ n.raft.msgs, Stamped m ∧ (m.type = .vote → m.src ≠ 0)

/-- C93, used. -/
theorem C93_guarantees {env : Env} {p : Nat} {net : List Message} {n : RawNode} (h : LivedAs env p net n) : Sane p n := by
  obtain ⟨h0, sent, hx, _⟩ := h
  have h1 := C74_node hx
  exact ⟨h0, fun hl => (h1.1 hl).trans h0, h1.2.1, C89_configuration_valid hx, C46_timeout_range hx, hx.tidy.out⟩

/-- C93, for clusters of changing membership. -/
theorem C93_members_guarantees {env : Env} {dec : Entry → Option ConfChangeI} {G : Cluster.Genesis} {c : Members.State}
    (h : Members.Reach env dec G c) : (∀ p n a, c.proc p = .up n a → Sane p n) ∧ ∀ m ∈ c.net, Stamped m ∧ (m.type = .vote → m.src ≠ 0) :=
  ⟨fun _ _ _ hp => C93_guarantees (C93_members_nodes h hp), h.lived.net⟩

/-- C93, for clusters founded with `Bootstrap`. -/
theorem C93_boot_guarantees {env : Env} {dec : Entry → Option ConfChangeI} {peers : List (Nat × Bytes)} {c : Members.State}
    (h : Boot.Reach env dec peers c) : (∀ p n a, c.proc p = .up n a → Sane p n) ∧ ∀ m ∈ c.net, Stamped m ∧ (m.type = .vote → m.src ≠ 0) :=
  ⟨fun _ _ _ hp => C93_guarantees (C93_boot_nodes h hp), h.lived.net⟩

/-- C93, for clusters of fixed membership. -/
theorem C93_cluster_guarantees {env : Env} {G : Cluster.Genesis} {c : Cluster.State}
    (h : Cluster.Reach env G c) : (∀ p n, c.proc p = .up n → Sane p n) ∧ ∀ m ∈ c.net, Stamped m ∧ (m.type = .vote → m.src ≠ 0) :=
  ⟨fun _ _ hp => C93_guarantees (C93_cluster_nodes h hp), h.lived.net⟩

/-- At the end of the story of the bootstrapped cluster, node 3 runs, and leads. -/
example : ∃ n a, Dyn.BootDemo.last.proc 3 = .up n a ∧ Sane 3 n ∧ n.raft.state = .leader ∧ n.raft.lead = 3 := by
  have h : (match Dyn.BootDemo.last.proc 3 with | .up n _ => decide (n.raft.state = .leader) | .down _ => false) = true := by decide +kernel
  revert h
  split
  · next n a he =>
    intro h
    have hs := (C93_boot_guarantees Dyn.BootDemo.last_reach).1 3 n a he
    have hl : n.raft.state = .leader := of_decide_eq_true h
    exact ⟨n, a, he, hs, hl, hs.leader hl⟩
  · intro h; cases h

/-- The same for the story of the cluster that changes its members, where node 4 leads in the end. -/
example : ∃ n a, Dyn.Demo.last.proc 4 = .up n a ∧ Sane 4 n ∧ n.raft.state = .leader ∧ n.raft.lead = 4 := by
  have h : (match Dyn.Demo.last.proc 4 with | .up n _ => decide (n.raft.state = .leader) | .down _ => false) = true := by decide +kernel
  revert h
  split
  · next n a he =>
    intro h
    have hs := (C93_members_guarantees Dyn.Demo.last_reach).1 4 n a he
    have hl : n.raft.state = .leader := of_decide_eq_true h
    exact ⟨n, a, he, hs, hl, hs.leader hl⟩
  · intro h; cases h

end Craft
