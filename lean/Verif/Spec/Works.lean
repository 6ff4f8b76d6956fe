import Verif.Spec.ConfChange
import Verif.Model.PbConf

namespace Craft.Spec

/-- The change makes sense for the configuration: if the configuration is joint, the change is the one that leaves it; if it is
not, the change is not that one, all its parts are of a known kind (parts about node 0 are ignored), and a voter remains. -/
def Works (cfg : TConfig) (cc : ConfChangeV2) : Prop :=
  if cfg.voters.outgoing ≠ [] then cc.changes = [] ∧ cc.transition = .auto
  else ¬ (cc.changes = [] ∧ cc.transition = .auto) ∧ (∀ c ∈ cc.changes, c.nodeId ≠ 0 → ∀ k, c.type ≠ .unknown k) ∧
    ∃ x, ((MConf.of cfg).changes (fun _ => False) cc.changes).inc x

/-- The node votes in the configuration (in either half of it). -/
def Voter (cfg : TConfig) (id : Nat) : Prop := id ∈ cfg.voters.incoming ∨ id ∈ cfg.voters.outgoing

end Craft.Spec
