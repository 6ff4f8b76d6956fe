import Verif.Model.Tracker

/-! Specification of configuration changes: what a valid configuration is and what a list of changes does to the set of
voters, learners and staged learners (as predicates on ids). -/

namespace Craft.Spec

/-- Membership of an id in any role. -/
def Member (cfg : TConfig) (id : Nat) : Prop :=
  id ∈ cfg.voters.incoming ∨ id ∈ cfg.voters.outgoing ∨ id ∈ cfg.learners ∨ id ∈ cfg.learnersNext

/-- The configuration invariants: id sets are in canonical (strictly ascending) form; exactly the members have a progress;
a progress is marked learner iff the id is a learner; learners are not voters; staged learners are outgoing voters that
are no longer incoming ones; nothing is staged and auto-leave is off when the configuration is not joint. -/
structure ConfInv (cfg : TConfig) (prs : ProgressMap) : Prop where
  inc_sorted : cfg.voters.incoming.Pairwise (· < ·)
  out_sorted : cfg.voters.outgoing.Pairwise (· < ·)
  lrn_sorted : cfg.learners.Pairwise (· < ·)
  nxt_sorted : cfg.learnersNext.Pairwise (· < ·)
  prs_sorted : (prs.map Prod.fst).Pairwise (· < ·)
  prs_exact : ∀ id, (∃ p, prs.find id = some p) ↔ Member cfg id
  lrn_flag : ∀ id p, prs.find id = some p → (p.isLearner = true ↔ id ∈ cfg.learners)
  lrn_not_inc : ∀ id ∈ cfg.learners, id ∉ cfg.voters.incoming
  lrn_not_out : ∀ id ∈ cfg.learners, id ∉ cfg.voters.outgoing
  nxt_out : ∀ id ∈ cfg.learnersNext, id ∈ cfg.voters.outgoing
  nxt_not_inc : ∀ id ∈ cfg.learnersNext, id ∉ cfg.voters.incoming
  not_joint : cfg.voters.outgoing = [] → cfg.learnersNext = [] ∧ cfg.autoLeave = false

/-- The part of a configuration a change list acts on, as sets. -/
structure MConf where
  inc : Nat → Prop
  lrn : Nat → Prop
  nxt : Nat → Prop

/-- Effect of one change while the outgoing voters are `out`. Id 0 is a placeholder and ignored. A new learner that is
still an outgoing voter is only staged. -/
def MConf.change (out : Nat → Prop) (m : MConf) (c : CCSingle) : MConf :=
  if c.nodeId = 0 then m
  else match c.type with
    | .addNode => ⟨fun x => x = c.nodeId ∨ m.inc x, fun x => x ≠ c.nodeId ∧ m.lrn x, fun x => x ≠ c.nodeId ∧ m.nxt x⟩
    | .removeNode =>
      ⟨fun x => x ≠ c.nodeId ∧ m.inc x, fun x => x ≠ c.nodeId ∧ m.lrn x, fun x => x ≠ c.nodeId ∧ m.nxt x⟩
    | .addLearnerNode =>
      ⟨fun x => x ≠ c.nodeId ∧ m.inc x, fun x => (x = c.nodeId ∧ ¬ out c.nodeId) ∨ m.lrn x,
        fun x => (x = c.nodeId ∧ out c.nodeId) ∨ m.nxt x⟩
    | .updateNode => m
    | .unknown _ => m

def MConf.changes (out : Nat → Prop) (m : MConf) (cs : List CCSingle) : MConf := cs.foldl (MConf.change out) m

/-- The sets of a configuration. -/
def MConf.of (cfg : TConfig) : MConf :=
  ⟨fun x => x ∈ cfg.voters.incoming, fun x => x ∈ cfg.learners, fun x => x ∈ cfg.learnersNext⟩

/-- A configuration whose sets are the given ones. -/
def MConf.Is (m : MConf) (cfg : TConfig) : Prop :=
  (∀ x, x ∈ cfg.voters.incoming ↔ m.inc x) ∧ (∀ x, x ∈ cfg.learners ↔ m.lrn x) ∧ (∀ x, x ∈ cfg.learnersNext ↔ m.nxt x)

end Craft.Spec
