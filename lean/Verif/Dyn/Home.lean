import Verif.Dyn.Reads

/-! # A leader that has not committed in its term is a voter

A node runs for election only as a voter of the configuration it uses, with no committed conf change left to apply; until it has
committed in its own term as leader its configuration stays the same. -/

namespace Craft.Dyn
open Spec Members ReadInv
open Cluster (gterm LogRel gterm_some gterm_prefix)

/-- The node is a voter of the configuration it uses. -/
def Votes (c : Core) : Prop := c.id ∈ c.config.voters.incoming ∨ c.id ∈ c.config.voters.outgoing

/-- Candidates are voters, and so are leaders that have not committed in their term. -/
structure Home (c : Core) : Prop where
  runs : c.state = .preCandidate ∨ c.state = .candidate → Votes c
  lead : c.state = .leader → ¬ InTerm c → Votes c

theorem MayRun.votes {c : Core} (hc : ConfInv c.config c.progress) (h : MayRun c) : Votes c := by
  obtain ⟨⟨q, hq, hl⟩, _⟩ := h
  rcases (hc.prs_exact _).1 ⟨q, hq⟩ with h | h | h | h
  · exact Or.inl h
  · exact Or.inr h
  · have := (hc.lrn_flag _ _ hq).2 h
    rw [hl] at this; cases this
  · exact Or.inr (hc.nxt_out _ h)

theorem Votes.same {c c' : Core} (h : Votes c) (hid : c'.id = c.id) (hcfg : c'.config = c.config) : Votes c' := by
  unfold Votes; rw [hid, hcfg]; exact h

/-- One step: candidates are voters, and a leader led before in the same term or was a candidate. -/
theorem Home.step {env : Env} {im : Message} {c c' : Core} {ms : List Message} (h : CStep env im c ms c') (hc : ConfInv c.config c.progress)
    (hr : c.state = .preCandidate ∨ c.state = .candidate → Votes c) :
    (c'.state = .preCandidate ∨ c'.state = .candidate → Votes c') ∧ (c'.state = .leader → (c.state = .leader ∧ c'.term = c.term) ∨ Votes c') := by
  cases h with
  | follower => exact ⟨(fun h => (by rcases h with h | h <;> cases h)), nofun⟩
  | candidate P _ _ _ h =>
    refine ⟨fun _ => ?_, nofun⟩
    rcases h with h | h
    · exact Votes.same (hr (Or.inl h)) rfl rfl
    · exact Votes.same (MayRun.votes hc h) rfl rfl
  | preCandidate _ _ h => exact ⟨fun _ => Votes.same (MayRun.votes hc h) rfl rfl, nofun⟩
  | leader P k => exact ⟨(fun h => (by rcases h with h | h <;> cases h)), fun _ => Or.inr (Votes.same (hr (Or.inr k)) rfl rfl)⟩
  | recvSnap cfg P0 p mi h =>
    refine ⟨fun hh => ?_, fun hh => Or.inl ⟨hh, rfl⟩⟩
    rw [show c.state = _ from h] at hh
    rcases hh with hh | hh <;> cases hh
  | _ => exact ⟨fun hh => Votes.same (hr hh) rfl rfl, fun hh => Or.inl ⟨hh, rfl⟩⟩

namespace MGen
variable {G : MGen} {g0 s : DState} {p k k' : Nat} {c c' : Core}

/-- A leadership that goes on. -/
theorem home_lead (hr : G.Run g0) (hp : PPath G.Q p g0 s) (hn : G.NodeRel p k g0.net c (g0.node p))
    (hn' : G.NodeRel p k' s.net c' (s.node p)) (hl : c.state = .leader) (ht : c'.term = c.term) (h : ¬ InTerm c → Votes c) :
    c'.state = .leader → ¬ InTerm c' → Votes c' := by
  intro hl' hno
  rw [NodeRel.inTerm hn'] at hno
  have hcfg := same_config hr hp hn hn' hl hl' ht hno
  have he : (s.node p).term = (g0.node p).term := by rw [← hn.term, ← hn'.term, ht]
  obtain ⟨_, p2, _⟩ := lead_path hr hp (hn.leader_role hl) he (hn'.leader_role hl')
  exact (h fun hi => hno (p2 ((NodeRel.inTerm hn).1 hi))).same (hn'.id.trans hn.id.symm) hcfg

/-- What the node has applied covers every conf change it knows to be committed, while it runs for election. -/
theorem runs_conf (hr : G.Run s) (hn : G.NodeRel p k s.net c (s.node p)) (h : c.state = .preCandidate ∨ c.state = .candidate) :
    nconf ((s.node p).log.take (s.node p).commit) ≤ nconf ((s.node p).log.take (s.node p).conf) := by
  rcases h with h | h
  · exact (hn.pre h).2
  · refine hr.inv.candConf p ?_
    rw [← hn.role, h]; rfl

/-- A candidate that stays one keeps its configuration. -/
theorem runs_config (hr : G.Run g0) (hp : PPath G.Q p g0 s) (hn : G.NodeRel p k g0.net c (g0.node p))
    (hn' : G.NodeRel p k' s.net c' (s.node p)) (h : c.state = .preCandidate ∨ c.state = .candidate) (hst : c'.state = c.state)
    (hle : (s.node p).conf ≤ (g0.node p).commit) : c'.config = c.config := by
  have hrs := hp.run hr
  have f1 := runs_conf hr hn h
  have f2 := runs_conf hrs hn' (by rw [hst]; exact h)
  obtain ⟨c1, c2, _⟩ := hr.inv.commitOk p
  have hc := (path_keep hr hp).1
  have a1 := (NodeRel.at hn (by rcases h with h | h <;> rw [h] <;> exact nofun)).2
  have a2 := (NodeRel.at hn' (by rw [hst]; rcases h with h | h <;> rw [h] <;> exact nofun)).2
  have k1 := take_keep hr hp hle
  have k2 := take_keep hr hp c1
  have m1 := nconf_take_mono (g0.node p).log hle
  have m2 := nconf_take_mono (s.node p).log (Nat.le_trans c1 hc)
  rw [k2] at m2
  rw [k1] at a2 f2
  rcases Nat.le_total (g0.node p).conf (s.node p).conf with h | h
  · exact (at_same (List.take_prefix_take_left h) (by omega) a1 a2).symm
  · exact at_same (List.take_prefix_take_left h) (by omega) a2 a1

/-- Throughout a call. -/
theorem Home.path {env : Env} {im : Message} {ms : List Message} (hp : CPath env im c ms c') (hr : G.Run s)
    (hn : G.NodeRel p k s.net c (s.node p)) (hok : G.MsgOk s.net im) (hns : ¬ G.strict) (hli : LInv c.log)
    (hto : im.type = .voteResp ∨ im.type = .heartbeat → im.to = p) (h : Home c) : Home c' := by
  induction hp generalizing s with
  | nil => exact h
  | cons hs _ ih =>
    have hl1 := (hs.linv (msgOk_appWF hr hok) hli).1
    obtain ⟨s1, p1, n1, m1⟩ := step_done hr hn hok hs (fun h => absurd h hns) hl1.core (fun _ hm => hli.base_app (hli.no_snap hm.2)) hto
    obtain ⟨h1, h2⟩ := Home.step hs hn.cinv h.runs
    refine ih (p1.run hr) n1 (hok.mono p1.net) hl1 ⟨h1, fun hl hi => ?_⟩
    rcases h2 hl with ⟨h3, h4⟩ | h3
    · exact home_lead hr p1 hn n1 h3 h4 (h.lead h3) hl hi
    · exact h3

/-- Over the handling of a Ready. -/
theorem Home.ready {n n' : RawNode} {a a' : App} {g s s' : DState} (hg : G.Run g) (hu : G.Up g p n a s) (hu' : G.Up s p n' a' s')
    (hsn : n'.raft.log.unstable.snapshot = none) (ht : n'.raft.term = n.raft.term) (hst : n'.raft.state = n.raft.state)
    (h : Home n.raft.core) : Home n'.raft.core := by
  have hrs := hu.path.run hg
  refine ⟨fun hr => ?_, fun hl hi => home_lead hrs hu'.path hu.rel hu'.rel (hst.symm.trans hl) ht (h.lead (hst.symm.trans hl)) hl hi⟩
  have hr0 : n.raft.core.state = .preCandidate ∨ n.raft.core.state = .candidate := by
    rw [← show n'.raft.core.state = n.raft.core.state from hst]; exact hr
  refine (h.runs hr0).same (hu'.rel.id.trans hu.rel.id.symm) (runs_config hrs hu'.path hu.rel hu'.rel hr0 hst ?_)
  have h1 := hu'.rel.pos
  have h2 := hu'.app
  have h3 : n'.raft.log.view.base ≤ n'.raft.log.applied := hu'.linv.base_app hsn
  have h4 : n'.raft.log.applied ≤ a'.index := hu'.rel.app
  rw [h1, show n'.raft.core.log = n'.raft.log from rfl]
  omega

/-- A leader whose configuration has a single voter has committed in its term. -/
theorem Home.single (h : Home c) (hset : Settled c) (hl : c.state = .leader) {v : Nat}
    (hv : c.config.voters = { incoming := [v], outgoing := [] }) (hu : c.log.lastIndex ≤ u64Max) : InTerm c := by
  apply Classical.byContradiction
  intro hno
  have hc := h.lead hl hno
  unfold Votes at hc
  rw [hv] at hc
  have hcv : c.id = v := by simpa using hc
  exact hno (hset hl (by rw [hv, hcv]) hu)

end MGen
end Craft.Dyn
