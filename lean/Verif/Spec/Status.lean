import Verif.Model.Status
import Verif.Spec.Members

/-! # What a status report says -/

namespace Craft
open Spec

/-- On the disk `st` are the first `k` entries of the log `v` (as far as neither side compacted them). -/
def Holds (st : Storage) (v : LogView) (k : Nat) : Prop :=
  k ≤ st.view.last ∧ ∀ i, i ≤ k → st.view.base < i → v.base < i → ∃ e, v.entry i = some e ∧ st.view.entry i = some e

namespace Members

/-- What a leader says about the others is true: if it reports `Match` of `v`, and `v` has not moved to a later term, then the disk of
`v` holds the log of the leader up to `Match`. -/
def State.Honest (c : State) (p : Nat) (n : RawNode) : Prop :=
  ∀ v pr, v ≠ p → n.getStatus.progress.find v = some pr → (c.proc v).disk.hardState.term ≤ n.getStatus.basic.hardState.term →
    Holds (c.proc v).disk n.raft.log.view pr.mtch

/-- The report agrees with itself: what is applied is committed, and what is committed is in the log; peers are reported by a leader only, and they are the members of the reported configuration; those
marked as learners are its learners. `WithProgress` visits the members in ascending order, marking the learners, on every node. -/
structure Tidy (n : RawNode) : Prop where
  order : n.getStatus.basic.applied ≤ n.getStatus.basic.hardState.commit ∧ n.getStatus.basic.hardState.commit ≤ n.raft.log.view.last
  silent : n.getStatus.basic.softState.raftState ≠ .leader → n.getStatus.progress = []
  peers : n.getStatus.basic.softState.raftState = .leader → ∀ v, (∃ pr, n.getStatus.progress.find v = some pr) ↔ Member n.getStatus.config v
  mark : ∀ v pr, n.getStatus.progress.find v = some pr → (pr.isLearner = true ↔ v ∈ n.getStatus.config.learners)
  within : ∀ v pr, n.getStatus.progress.find v = some pr → pr.mtch ≤ n.raft.log.view.last ∧ 1 ≤ pr.next ∧ pr.next ≤ n.raft.log.view.last + 1
  visitOrder : (n.withProgress.map Prod.fst).Pairwise (· < ·)
  visitAll : ∀ v, v ∈ n.withProgress.map Prod.fst ↔ Member n.getStatus.config v
  visitMark : ∀ v t pr, (v, t, pr) ∈ n.withProgress → (t = .learner ↔ v ∈ n.getStatus.config.learners)
  visitSame : n.getStatus.basic.softState.raftState = .leader → ∀ v t pr, (v, t, pr) ∈ n.withProgress → n.getStatus.progress.find v = some pr

end Members
end Craft
