import Verif.Node.Append
import Verif.Props.LogHistory

/-! # The log invariant through the steps of a node -/

namespace Craft
open Spec

theorem LInv.step' {env : Env} {l l' : RaftLog} {o o' : List Delivery} (h : LInv l) (hs : LStep env ⟨l, o⟩ ⟨l', o'⟩) :
    LInv l' ∧ LEffect l l' := LInv.step (x := ⟨l, o⟩) (y := ⟨l', o'⟩) h hs

theorem LEffect.refl (l : RaftLog) : LEffect l l := .of_view (Nat.le_refl _) (Nat.le_refl _) rfl

theorem LEffect.trans {a b c : RaftLog} (h1 : LEffect a b) (h2 : LEffect b c) : LEffect a c := by
  have m1 := h1.com_mono
  have m2 := h1.base_mono
  have m3 := h2.base_mono
  refine ⟨Nat.le_trans m1 h2.com_mono, Nat.le_trans h1.app_mono h2.app_mono, Nat.le_trans m2 m3, fun i hi hb => ?_, fun i hi hb => ?_⟩
  · rw [h2.keep i (by omega) hb, h1.keep i hi (by omega)]
  · rw [h2.keepTerm i (by omega) hb, h1.keepTerm i hi (by omega)]

theorem CStep.linv {env : Env} {im : Message} {c c' : Core} {ms : List Message} (h : CStep env im c ms c') (hw : AppWF im)
    (hi : LInv c.log) : LInv c'.log ∧ LEffect c.log c'.log := by
  have hl := hi.wf.lastIndex_eq
  have hbc := hi.base_com
  have hbl : c.log.view.base ≤ c.log.view.last := Nat.le_add_right _ _
  cases h with
  | append es l p pci h1 h2 h3 h4 =>
    exact hi.step' (env := env) (o := []) (o' := []) (.append _ _ (Raft.stamp_contig _ _ _) (by omega) (Nat.le_refl _) h2)
  | commit l h1 h2 => exact hi.step' (env := env) (o := []) (o' := []) (.maybeCommit _ _ h2)
  | recvApp l last h1 h2 h3 h4 h5 =>
    obtain ⟨w1, w2, w3⟩ := hw h2
    refine hi.step' (env := env) (o := []) (o' := []) (.maybeAppend _ _ _ _ ?_ ?_ w1 w2 h5)
    · rw [RaftLog.firstIndex_eq]; omega
    · by_cases h0 : im.logTerm = 0
      · left; rw [w3 h0]; omega
      · exact Or.inr h0
  | recvHeartbeat l h1 h2 h3 h4 => exact hi.step' (env := env) (o := []) (o' := []) (.commitTo _ h4)
  | recvSnapCommit l h1 h2 h3 h4 h5 h6 => exact hi.step' (env := env) (o := []) (o' := []) (.commitTo _ h6)
  | recvSnap cfg P0 p mi h1 h2 h3 h4 => exact hi.step' (env := env) (o := []) (o' := []) (.restore _ h4)
  | _ => exact ⟨hi, .refl _⟩

theorem CPath.linv {env : Env} {im : Message} {c c' : Core} {ms : List Message} (h : CPath env im c ms c') (hw : AppWF im)
    (hi : LInv c.log) : LInv c'.log ∧ LEffect c.log c'.log := by
  induction h with
  | nil => exact ⟨hi, .refl _⟩
  | cons hs _ ih =>
    obtain ⟨h1, h2⟩ := hs.linv hw hi
    obtain ⟨h3, h4⟩ := ih h1
    exact ⟨h3, h2.trans h4⟩

end Craft
