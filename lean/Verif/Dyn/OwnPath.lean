import Verif.Dyn.Own

/-! # A leader's place in its configuration -/

namespace Craft.Dyn
open Spec

/-- The log has a conf change after index `k`. -/
def Ahead (k : Nat) (v : LogView) : Prop := ∃ e ∈ v.ents, k < e.index ∧ e.type ≠ .normal

theorem Ahead.mono {k k' : Nat} {v : LogView} (h : Ahead k' v) (hk : k ≤ k') : Ahead k v := by
  obtain ⟨e, h1, h2, h3⟩ := h
  exact ⟨e, h1, by omega, h3⟩

/-- Candidates are voters, and so are leaders with a conf change to come (one that the application, having applied up to `k`, has not
applied yet, or an automatic leave). Only a follower has a snapshot to install. -/
structure Own (k : Nat) (c : Core) : Prop where
  cand : c.state = .candidate ∨ c.state = .preCandidate → Voter c.config c.id
  lead : c.state = .leader → c.config.autoLeave = true ∨ Ahead k c.log.view → Voter c.config c.id
  calm : c.state ≠ .follower → c.log.unstable.snapshot = none

theorem Own.follower {k : Nat} {c : Core} (h : c.state = .follower) : Own k c :=
  ⟨(fun hc => by rw [h] at hc; rcases hc with hc | hc <;> cases hc), (fun hl => by rw [h] at hl; cases hl), fun hn => absurd h hn⟩

theorem Own.mono {k k' : Nat} {c : Core} (h : Own k c) (hk : k ≤ k') : Own k' c :=
  ⟨h.cand, fun hl hc => h.lead hl (hc.imp _root_.id fun hc => hc.mono hk), h.calm⟩

/-- A leader asked for a conf change is a voter. -/
def Backed (env : Env) (im : Message) (c : Core) : Prop :=
  im.type = .prop → c.state = .leader → ∀ e ∈ im.entries, e.type ≠ .normal →
    (∃ cc, env.conf e = some cc ∧ (cc.asV2.changes = [] ↔ c.config.voters.outgoing ≠ [])) → Voter c.config c.id

theorem voter_of {cfg : TConfig} {P : ProgressMap} (h : ConfInv cfg P) {v : Nat} {p : Progress} (hp : P.find v = some p) (hl : p.isLearner = false) : Voter cfg v := by
  rcases (h.prs_exact v).1 ⟨p, hp⟩ with h1 | h1 | h1 | h1
  · exact Or.inl h1
  · exact Or.inr h1
  · rw [(h.lrn_flag v p hp).2 h1] at hl; cases hl
  · exact Or.inr (h.nxt_out v h1)

theorem voter_pr {cfg : TConfig} {P : ProgressMap} (h : ConfInv cfg P) {v : Nat} (hv : Voter cfg v) : ∃ p, P.find v = some p :=
  (h.prs_exact v).2 (hv.imp _root_.id Or.inl)

variable {env : Env} {im : Message} {c c' : Core} {ms : List Message} {k : Nat}

theorem Backed.step (hv : Backed env im c) (h : CStep env im c ms c') : Backed env im c' := by
  intro hp hl
  have hcfg := h.config_eq (by rw [hp]; decide)
  have hst : c.state = .leader ∧ c'.id = c.id := by
    cases h with
    | leader P _ _ _ h4 => unfold CampMsg at h4; rw [hp] at h4; simp at h4
    | candidate P h1 => cases hl
    | preCandidate h1 => cases hl
    | follower => cases hl
    | _ => exact ⟨hl, rfl⟩
  rw [hcfg, hst.2]
  exact hv hp hst.1

theorem _root_.Craft.Raft.append_snap {l l' : RaftLog} {es : List Entry} (h : l.append es = .ok l') : l'.unstable.snapshot = l.unstable.snapshot := by
  cases es with
  | nil => cases h; rfl
  | cons e0 es =>
    unfold RaftLog.append at h
    dsimp only at h
    split at h
    · cases h
    obtain ⟨u, hu, h⟩ := Res.bind_eq_ok.1 h
    simp only [Res.pure_eq, Res.ok.injEq] at h
    subst h
    unfold Unstable.truncateAndAppend at hu
    dsimp only at hu
    split at hu
    · cases hu; rfl
    split at hu
    · cases hu; rfl
    split at hu
    · cases hu
    · cases hu; rfl

theorem step_own (h : CStep env im c ms c') (hi : ConfInv c.config c.progress) (hw : c.log.WF) (hb : Backed env im c)
    (hnp : CampMsg im → NoPend c → c.log.unstable.snapshot = none) (ho : Own k c) : Own k c' := by
  cases h with
  | follower T P => exact .follower rfl
  | recvApp l last h1 => exact .follower h1
  | recvHeartbeat l h1 => exact .follower h1
  | recvSnapCommit l h1 => exact .follower h1
  | recvSnap cfg P0 p mi h1 => exact .follower h1
  | candidate P h1 h2 h3 h4 =>
    refine ⟨fun _ => ?_, (fun hl => by cases hl), fun _ => ?_⟩
    · rcases h4 with h4 | ⟨⟨p, h4, h5⟩, _⟩
      · exact ho.cand (Or.inr h4)
      · exact voter_of hi h4 h5
    · rcases h4 with h4 | ⟨_, h4⟩
      · exact ho.calm (by rw [h4]; decide)
      · exact hnp h1 h4
  | preCandidate h1 h2 h4 =>
    obtain ⟨⟨p, h4, h5⟩, h6⟩ := h4
    exact ⟨fun _ => voter_of hi h4 h5, (fun hl => by cases hl), fun _ => hnp h1 h6⟩
  | leader P h1 => exact ⟨(fun hc => by rcases hc with hc | hc <;> cases hc), fun _ _ => ho.cand (Or.inl h1), fun _ => ho.calm (by rw [h1]; decide)⟩
  | append es l p pci h1 h2 h3 h4 h5 =>
    refine ⟨fun hc => ho.cand hc, fun hl hc => ?_, fun hn => by rw [← ho.calm hn]; exact Raft.append_snap h2⟩
    rcases hc with hc | ⟨e, hc, hk, ht⟩
    · exact ho.lead hl (Or.inl hc)
    · dsimp only at hc
      rw [(Raft.append_view hw _ h2).2] at hc
      rcases List.mem_append.1 hc with hc | hc
      · exact ho.lead hl (Or.inr ⟨e, hc, hk, ht⟩)
      · obtain ⟨j, hj⟩ := List.getElem?_of_mem hc
        obtain ⟨e0, h0, rfl⟩ := Raft.stamp_getElem hj
        rcases h5 e0 (List.mem_of_getElem? h0) ht with ⟨a1, a2, a3⟩ | ⟨a1, _⟩
        · exact hb a1 h1 e0 a2 ht a3
        · exact ho.lead hl (Or.inl a1)
  | commit l h1 h2 =>
    have e : l.view = c.log.view := by rw [(RaftLog.maybeCommit_shape h2).1]; rfl
    exact ⟨ho.cand, (fun hl hc => ho.lead hl (hc.imp _root_.id fun hc => by rw [← e]; exact hc)),
      fun hn => by rw [(RaftLog.maybeCommit_shape h2).1]; exact ho.calm hn⟩
  | _ => exact ⟨ho.cand, ho.lead, ho.calm⟩

namespace MGen
variable {G : MGen} {s : DState} {p k0 : Nat}

theorem path_own (h : CPath env im c ms c') (hr : G.Run s)
    (hn : G.NodeRel p k0 s.net c (s.node p)) (him : G.MsgOk s.net im) (hvet : G.Vetted env im c) (hli : LInv c.log)
    (hto : im.type = .voteResp ∨ im.type = .heartbeat → im.to = p) (hb : Backed env im c) (ho : Own k c) : Own k c' := by
  induction h generalizing s with
  | nil => exact ho
  | cons hs _ ih =>
    have hl1 := (hs.linv (msgOk_appWF hr him) hli).1
    obtain ⟨s1, p1, n1, m1⟩ := step_done hr hn him hs hvet hl1.core (fun _ hm => hli.base_app (hli.no_snap hm.2)) hto
    exact ih (p1.run hr) n1 (him.mono p1.net) (hvet.step hs) hl1 (hb.step hs) (step_own hs hn.cinv hli.wf hb (fun _ => hli.no_snap) ho)

theorem path_own_mid (h : CPath env im c ms c') (hr : G.Run s)
    (hn : G.NodeRel p k0 s.net c (s.node p)) (him : im.type = .beat) (ho : Own k c) : Own k c' := by
  induction h generalizing s with
  | nil => exact ho
  | cons hs _ ih =>
    have hok : ∀ N, G.MsgOk N im := by intro N; unfold MsgOk; rw [him]; trivial
    obtain ⟨s1, p1, n1, m1⟩ := step_done hr hn (hok _) hs (fun _ h => by rw [him] at h; cases h) (hn.lcore.step hs him) (fun hc => by unfold CampMsg at hc; rw [him] at hc; simp at hc)
      (fun hc => by rw [him] at hc; simp at hc)
    exact ih (p1.run hr) n1 (step_own hs hn.cinv hn.lcore.wf (fun h => by rw [him] at h; cases h)
      (fun h => by unfold CampMsg at h; rw [him] at h; simp at h) ho)

end MGen
end Craft.Dyn
