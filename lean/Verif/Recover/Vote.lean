import Verif.Recover.Elect

/-! # Granting and counting votes -/

namespace Craft
open Spec Cluster

theorem Chosen.tame {a b : Raft} {T : Nat} {V : LogView} (h : Chosen a T V) (hs : Tame a b) : Chosen b T V :=
  ⟨h.leads.steady hs.steady, (congrArg Raft.leadTransferee hs.rest :).trans h.noTransfer, hs.size.trans h.noSize,
    by rw [hs.log]; exact h.fresh⟩

namespace Raft
variable {env : Env} {r r' : Raft}

/-- A vote is granted to a candidate of a later term with an up-to-date log. -/
theorem grants {m : Message} {e : Option Err} (hp : Plain r) (hm : m.type = .vote) (ht : r.term < m.term) (hs : m.src ≠ 0)
    (hu : r.log.isUpToDate m.index m.logTerm = .ok true) (h : r.step env m = .ok (r', e)) :
    Plain r' ∧ r'.state = .follower ∧ r'.term = m.term ∧ r'.log = r.log ∧ r'.id = r.id ∧ r'.trk.config = r.trk.config ∧
      ∃ x ∈ r'.msgs, x.type = .voteResp ∧ x.to = m.src ∧ x.src = r.id ∧ x.term = m.term ∧ x.reject = false := by
  unfold step at h
  obtain ⟨g, hg, h⟩ := Res.bind_eq_ok.1 h
  unfold stepGate at hg
  rw [if_neg (by omega), if_pos ht, if_neg (by rw [hp.quorum]; rintro ⟨_, _, h, _⟩; cases h), if_neg (by rw [hm]; nofun),
    if_neg (by rw [hm]; rintro ⟨h, _⟩; cases h), if_neg (by rw [hm]; nofun)] at hg
  cases hg
  dsimp only at h
  have hid : (r.reset env m.term).id = r.id := reset_id r _
  have hlog : (r.reset env m.term).log = r.log := reset_log r _
  have hterm : (r.reset env m.term).term = m.term := reset_term r _
  have hcfg : (r.reset env m.term).trk.config = r.trk.config := congrArg Core.config (reset_core (env := env) r _)
  have hvote : (r.reset env m.term).vote = 0 := (congrArg Core.vote (reset_core (env := env) r m.term)).trans (if_neg (by omega))
  have hpl : Plain (r.reset env m.term) := plain_of_consts hp (reset_consts r _)
  unfold becomeFollower at h
  generalize r.reset env m.term = s at *
  unfold stepBody at h
  rw [hm] at h
  dsimp only at h
  obtain ⟨r2, h2, h⟩ := Res.bind_eq_ok.1 h
  cases h
  unfold stepVote at h2
  obtain ⟨up, h3, h2⟩ := Res.bind_eq_ok.1 h2
  unfold canGrant at h3
  rw [if_pos (Or.inr (Or.inl ⟨hvote, rfl⟩))] at h3
  have h3 : s.log.isUpToDate m.index m.logTerm = .ok up := h3
  rw [hlog, hu] at h3
  cases h3
  obtain ⟨lt, _, h2⟩ := Res.bind_eq_ok.1 h2
  obtain ⟨rt, h4, h2⟩ := Res.bind_eq_ok.1 h2
  rw [hm] at h4
  cases h4
  rw [if_pos rfl] at h2
  obtain ⟨r3, h5, h2⟩ := Res.bind_eq_ok.1 h2
  rw [if_pos hm] at h2
  cases h2
  have e3 := send_ok h5
  subst e3
  refine ⟨⟨hpl.quorum, hpl.preVote, hpl.beat⟩, rfl, hterm, hlog, hid, hcfg, _, List.mem_append.2 (Or.inr (List.mem_singleton.2 rfl)), ?_⟩
  unfold outMsg
  rw [if_pos rfl]
  exact ⟨rfl, rfl, hid, rfl, rfl⟩

/-- A vote is counted. -/
theorem counts {m : Message} {e : Option Err} {T : Nat} {V : LogView} (hr : Running r T V) (hw : r.log.WF) (hcl : r.log.committed ≤ r.log.view.last)
    (hm : m.type = .voteResp) (ht : m.term = T) (hrej : m.reject = false) (h : r.step env m = .ok (r', e)) :
    r'.id = r.id ∧ r'.trk.config = r.trk.config ∧ (Chosen r' T V ∨
      (Running r' T V ∧ r'.trk.votes.find m.src = some true ∧ ∀ v, r.trk.votes.find v = some true → r'.trk.votes.find v = some true)) := by
  unfold step at h
  obtain ⟨g, hg, h⟩ := Res.bind_eq_ok.1 h
  have hg : g = .go r := by
    unfold stepGate at hg
    split at hg
    · cases hg; rfl
    · rw [if_neg (by rw [ht, hr.term]; omega), if_neg (by rw [ht, hr.term]; omega)] at hg
      cases hg; rfl
  subst hg
  dsimp only at h
  unfold stepBody at h
  rw [hm] at h
  dsimp only at h
  unfold stepState at h
  rw [hr.state] at h
  dsimp only at h
  unfold stepCandidate at h
  rw [hm] at h
  dsimp only at h
  rw [hr.state] at h
  rw [if_pos (by nofun)] at h
  obtain ⟨r2, h2, h⟩ := Res.bind_eq_ok.1 h
  cases h
  unfold candidateVoteResp poll at h2
  dsimp only at h2
  rw [hrej, trk_recordVote] at h2
  have hvs : ∀ v b, (recordVote r.trk.votes m.src (!false)).find v = some b → b = true := by
    intro v b hb
    unfold recordVote at hb
    split at hb
    · by_cases hv : m.src = v
      · subst hv
        rw [AMap.find_insert_self] at hb
        cases hb; rfl
      · rw [AMap.find_insert_ne _ _ hv] at hb
        exact hr.yes v b hb
    · exact hr.yes v b hb
  have hsrc : (recordVote r.trk.votes m.src (!false)).find m.src = some true := by
    unfold recordVote
    cases hf : r.trk.votes.find m.src with
    | none => exact AMap.find_insert_self _ _ _
    | some b => dsimp only; rw [hf, hr.yes _ _ hf]
  have hkeep : ∀ v, r.trk.votes.find v = some true → (recordVote r.trk.votes m.src (!false)).find v = some true := by
    intro v hv
    unfold recordVote
    cases hf : r.trk.votes.find m.src with
    | none =>
      have : m.src ≠ v := fun h => by subst h; rw [hf] at hv; cases hv
      exact (AMap.find_insert_ne _ _ this).trans hv
    | some b => exact hv
  generalize recordVote r.trk.votes m.src (!false) = W at *
  split at h2
  · rw [hr.state] at h2
    rw [if_neg (by nofun)] at h2
    obtain ⟨r3, h3, h2⟩ := Res.bind_eq_ok.1 h2
    obtain ⟨k1, k2, k3, k4, k5, k7, k8⟩ := becomeLeader_leads (r := { r with trk := { r.trk with votes := W } })
      hw ⟨hr.fit.plain.quorum, hr.fit.plain.preVote, hr.fit.plain.beat⟩ hr.fit.voters hr.fit.self hr.fit.snap (by rw [hr.state]; exact h3)
    have tm := Tame.bcastAppend h2
    refine ⟨tm.id.trans k4, tm.config.trans k5, Or.inl (.tame ⟨?_, k2, k3, ?_⟩ tm)⟩
    · have k1 : Leading r3 r.term (firstLog r.log.view r.term) := k1
      rw [hr.view, hr.term] at k1
      exact k1
    · rw [k7]
      show r.log.applied ≤ _
      rw [hr.fit.idle, ← hr.view]; exact hcl
  · rename_i hlost
    exfalso
    have hlost : r.trk.config.voters.voteResult W = .lost := hlost
    rcases ((C03_joint_vote_exact r.trk.config.voters W).2.1 hlost) with ⟨hne, hc⟩ | ⟨hne, hc⟩
    all_goals
      refine hc ⟨fun _ => some true, fun v b hb => by rw [hvs v b hb], ?_⟩
      unfold MajorityYes Majority count
      rw [List.filter_eq_self.2 (by intro a _; rfl)]
      have := List.length_pos_iff.2 hne
      omega
  · rename_i hpend
    cases h2
    refine ⟨rfl, rfl, Or.inr ⟨⟨⟨⟨hr.fit.plain.quorum, hr.fit.plain.preVote, hr.fit.plain.beat⟩, hr.fit.voters, hr.fit.self, hr.fit.snap, hr.fit.idle⟩, hr.state, hr.term, hr.view, hkeep _ hr.own, hvs, ?_⟩, hsrc, hkeep⟩⟩
    intro hw
    have : r.trk.config.voters.voteResult W = .won := hw
    have h2 : r.trk.config.voters.voteResult W = .pending := hpend
    rw [this] at h2; cases h2

end Raft
end Craft
