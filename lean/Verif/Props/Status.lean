import Verif.Dyn.Status
import Verif.Dyn.Demo
import Verif.Dyn.BootDemo

/-! # C85: status reports tell the truth -/

namespace Craft.Dyn
open Spec Members Boot

/-- C85. In a cluster whose membership changes, at every moment of every execution, whatever `GetStatus` of a leader says about how far
another node's log matches its own (`Match`) is true of that node's disk, unless that node has moved to a later term: so everything up
to `Match` would survive a crash of that node. -/
theorem C85_match_is_durable {env : Env} {dec : Entry → Option ConfChangeI} {G : Cluster.Genesis} (hG : GenesisOK dec G) {c : State}
    (h : Members.Reach env dec G c) {p : Nat} {n : RawNode} {a : App} (hp : c.proc p = .up n a) : c.Honest p n :=
  let ⟨_, hr⟩ := reach_rel hG h
  hr.honest hp

/-- The same for a bootstrapped cluster. -/
theorem C85_match_is_durable_boot {env : Env} {dec : Entry → Option ConfChangeI} {peers : List (Nat × Bytes)} (hP : PeersOK env dec peers) {c : State}
    (h : Boot.Reach env dec peers c) {p : Nat} {n : RawNode} {a : App} (hp : c.proc p = .up n a) : c.Honest p n :=
  let ⟨_, hr⟩ := boot_reach hP h
  hr.honest hp

/-- And the reports of `GetStatus` and `WithProgress` agree with themselves and with each other. -/
theorem C85_report_is_tidy {env : Env} {dec : Entry → Option ConfChangeI} {G : Cluster.Genesis} (hG : GenesisOK dec G) {c : State}
    (h : Members.Reach env dec G c) {p : Nat} {n : RawNode} {a : App} (hp : c.proc p = .up n a) : Tidy n :=
  let ⟨_, hr⟩ := reach_rel hG h
  hr.tidy hp

theorem C85_report_is_tidy_boot {env : Env} {dec : Entry → Option ConfChangeI} {peers : List (Nat × Bytes)} (hP : PeersOK env dec peers) {c : State}
    (h : Boot.Reach env dec peers c) {p : Nat} {n : RawNode} {a : App} (hp : c.proc p = .up n a) : Tidy n :=
  let ⟨_, hr⟩ := boot_reach hP h
  hr.tidy hp

/-! ## The hypotheses are met -/

/-- What a node reports, with the term and the last index on the disks of the peers. -/
def reported (c : State) (p : Nat) : Option (Role × List (Nat × Nat × Nat × Nat)) :=
  match c.proc p with
  | .up n _ => some (n.getStatus.basic.softState.raftState,
      n.getStatus.progress.map fun x => (x.1, x.2.mtch, (c.proc x.1).disk.hardState.term, (c.proc x.1).disk.view.last))
  | .down _ => none

/-- In the middle of the story of C55–C60 node 1 leads the members 1 to 4 of a joint configuration: node 2 holds what it
says. (About itself it says more than is on its disk: the entry with index 3 is not saved yet. That is why the claim is about others.) -/
example : reported Demo.mid 1 = some (.leader, [(1, 3, 1, 2), (2, 2, 1, 2), (3, 0, 0, 0), (4, 0, 0, 0)]) := by decide +kernel

/-- At the end of the story of C61–C65 node 3 leads, and node 1 was left behind. -/
example : reported BootDemo.last 3 = some (.leader, [(1, 0, 2, 4), (2, 5, 3, 5), (3, 5, 3, 5)]) := by decide +kernel

/-- The first theorem at work: node 2 holds the entry with index 2 of the leader's log. -/
example (n : RawNode) (a : App) (h : Demo.mid.proc 1 = .up n a) : ∃ e, n.raft.log.view.entry 2 = some e ∧ (Demo.mid.proc 2).disk.view.entry 2 = some e := by
  have h3 : (match Demo.mid.proc 1 with
    | .up n _ => some ((n.getStatus.progress.find 2).map (·.mtch), decide ((Demo.mid.proc 2).disk.hardState.term ≤ n.getStatus.basic.hardState.term), n.raft.log.view.base)
    | .down _ => none) = some (some 2, true, 0) := by decide +kernel
  have h4 : (Demo.mid.proc 2).disk.view.base = 0 := by decide +kernel
  rw [h] at h3
  simp only [Option.some.injEq, Prod.mk.injEq, decide_eq_true_eq] at h3
  obtain ⟨k1, k2, k3⟩ := h3
  obtain ⟨pr, k4, k5⟩ := Option.map_eq_some_iff.1 k1
  exact (C85_match_is_durable Demo.genesisOK Demo.mid_reach h 2 pr (by decide) k4 k2).2 2 (by omega) (by omega) (by omega)

end Craft.Dyn
