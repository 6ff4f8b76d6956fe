import Verif.Dyn.Works
import Verif.Props.NodeRestart

/-! # C68: whether a membership change can be applied depends on the configuration and the change only -/

namespace Craft
open Spec Dyn

/-- A node with a valid configuration aborts on a membership change that makes no sense for the configuration; a change that does make
sense is applied without aborting (by a node that is not the leader; C69 is about leaders). Nothing else of the node matters, so
all the nodes with the same configuration agree. -/
theorem C68_which_changes_apply (env : Env) (r : Raft) (cc : ConfChangeV2) (hi : ConfInv r.trk.config r.trk.progress)
    (hv : r.trk.config.voters.incoming ≠ []) :
    (¬ Works r.trk.config cc → r.applyConfChange env cc = .fatal "raft.cc:1711") ∧
    (Works r.trk.config cc → r.state ≠ .leader → ∃ r' cs, r.applyConfChange env cc = .ok (r', cs)) := by
  constructor
  · intro hw
    unfold Raft.applyConfChange
    dsimp only
    split
    · rfl
    · rename_i cfg prs he
      exact absurd (change_works (c := { tracker := r.trk, lastIndex := r.log.lastIndex }) (cc := cc) (r := (cfg, prs)) hi he) hw
  · intro hw hl
    obtain ⟨⟨cfg, prs⟩, h⟩ := works_change (c := { tracker := r.trk, lastIndex := r.log.lastIndex }) (cc := cc) hi hv hw
    have h' : r.applyConfChange env cc = r.switchToConfig env cfg prs := by
      unfold Raft.applyConfChange
      dsimp only
      split
      · rename_i e he
        have : change { tracker := r.trk, lastIndex := r.log.lastIndex } cc = .error e := he
        rw [h] at this; cases this
      · rename_i cfg1 prs1 he
        have : change { tracker := r.trk, lastIndex := r.log.lastIndex } cc = .ok (cfg1, prs1) := he
        rw [h] at this; cases this
        rfl
    rw [h']
    obtain ⟨lrn, e⟩ := switchToConfig_not_leader (env := env) hl cfg prs
    exact ⟨_, _, e⟩

/-- The configuration `{1, 2, 3}`, and the same on its way to `{1, 2}`. -/
private def three : TConfig := { voters := { incoming := [1, 2, 3] } }
private def toTwo : TConfig := { voters := { incoming := [1, 2], outgoing := [1, 2, 3] } }

-- Adding a node works; removing all the voters does not; neither does leaving a configuration that is not joint, or an
-- unknown kind of change.
example : Works three { changes := [⟨.addNode, 4⟩] } := by
  refine ⟨by simp, by simp, 4, ?_⟩
  simp [MConf.changes, MConf.change, MConf.of]
example : ¬ Works three { changes := [⟨.removeNode, 1⟩, ⟨.removeNode, 2⟩, ⟨.removeNode, 3⟩] } := by
  rintro ⟨_, _, x, h⟩
  simp [MConf.changes, MConf.change, MConf.of, three] at h
  omega
example : ¬ Works three {} := fun h => h.1 ⟨rfl, rfl⟩
example : ¬ Works three { changes := [⟨.unknown 7, 4⟩] } := fun h => h.2.1 ⟨.unknown 7, 4⟩ (by simp) (by decide) 7 rfl
-- In a joint configuration only the change that leaves it works; the explicit form of an empty change does not.
example : Works toTwo {} := ⟨rfl, rfl⟩
example : ¬ Works toTwo { changes := [⟨.addNode, 4⟩] } := fun h => nomatch h.1
example : ¬ Works toTwo { transition := .jointExplicit } := fun h => nomatch h.2

-- A node that meets the hypotheses.
example : ConfInv three ([1, 2, 3].map fun id => (id, .new 5 0 8 false true)) ∧ three.voters.incoming ≠ [] := by
  refine ⟨?_, by decide⟩
  constructor <;> simp [three, Member, AMap.find]
  · intro id
    by_cases h1 : id = 1
    · simp [h1]
    · by_cases h2 : id = 2
      · simp [h2]
      · by_cases h3 : id = 3
        · simp [h3]
        · simp [h1, h2, h3, Ne.symm h1, Ne.symm h2, Ne.symm h3]
  · intro id p h
    split at h
    · cases h; rfl
    · split at h
      · cases h; rfl
      · split at h
        · cases h; rfl
        · cases h

end Craft
