import Verif.Node.Transfer
import Verif.Spec.Requests
import Verif.Props.NodeTimers

/-! # Whom a campaign asks -/

namespace Craft
/-- Nothing but a campaign message makes a candidate. -/
theorem NPath.candidate {env : Env} {m : Message} {a b : Core} {ms : List Message} (hp : NPath env m a ms b) (hc : ¬ CampMsg m)
    (hs : b.state = .candidate) : a.state = .candidate ∧ b.term = a.term := by
  induction hp with
  | nil => exact ⟨hs, rfl⟩
  | @cons c c' c'' ms ms' h h' ih =>
    obtain ⟨k1, k2⟩ := ih hs
    cases h with
    | core h =>
      cases h with
      | follower => cases k1
      | candidate _ hcm => exact absurd hcm hc
      | preCandidate hcm => exact absurd hcm hc
      | leader => cases k1
      | _ => exact ⟨k1, k2⟩
    | _ => exact ⟨k1, k2⟩

namespace Raft
variable {env : Env} {r r' : Raft}

theorem insertAll_sorted (s t : USet) (hs : s.Pairwise (· < ·)) : (USet.insertAll s t).Pairwise (· < ·) := by
  unfold USet.insertAll
  induction t generalizing s with
  | nil => exact hs
  | cons a t ih => exact ih _ (USet.insert_sorted a hs)

theorem ids_nodup (c : JointConfig) : c.ids.Nodup := by
  have h : (USet.insertAll (USet.insertAll [] c.incoming) c.outgoing).Pairwise (· < ·) :=
    insertAll_sorted _ _ (insertAll_sorted _ _ List.Pairwise.nil)
  exact List.Pairwise.imp (fun h => Nat.ne_of_lt h) h

theorem sendVotes_asks {vt : MsgType} (hvt : vt = .vote ∨ vt = .preVote) {t : Nat} {ctx : Bytes} (ids : List Nat)
    (h : r.sendVotes vt t ctx ids = .ok r') :
    ∃ new, r' = { r with msgs := r.msgs ++ new } ∧ new.map (·.to) = ids.filter (fun i => decide (i ≠ r.id)) ∧
      ∀ m ∈ new, m.type = vt ∧ m.src = r.id ∧ m.term = t ∧ m.index = r.log.lastIndex ∧ r.log.lastTerm = .ok m.logTerm ∧ m.context = ctx := by
  induction ids generalizing r with
  | nil => cases h; exact ⟨[], by rw [List.append_nil], rfl, nofun⟩
  | cons i is ih =>
    unfold sendVotes at h
    split at h
    · rename_i hi
      obtain ⟨new, h1, h2, h3⟩ := ih h
      refine ⟨new, h1, ?_, h3⟩
      rw [h2, List.filter_cons_of_neg (by simp [hi])]
    · rename_i hi
      obtain ⟨lt, hlt, h⟩ := Res.bind_eq_ok.1 h
      obtain ⟨r2, h2, h⟩ := Res.bind_eq_ok.1 h
      rw [send_ok h2] at h
      obtain ⟨new, k1, k2, k3⟩ := ih h
      have ho : r.outMsg { type := vt, to := i, term := t, index := r.log.lastIndex, logTerm := lt, context := ctx } =
          { type := vt, to := i, src := r.id, term := t, index := r.log.lastIndex, logTerm := lt, context := ctx } := by
        unfold outMsg
        rcases hvt with rfl | rfl <;> rfl
      refine ⟨r.outMsg { type := vt, to := i, term := t, index := r.log.lastIndex, logTerm := lt, context := ctx } :: new, ?_, ?_, ?_⟩
      · rw [k1, List.append_assoc]; rfl
      · rw [List.map_cons, k2, List.filter_cons_of_pos (by simp [hi]), ho]
      · intro m hm
        rcases List.mem_cons.1 hm with rfl | hm
        · rw [ho]; exact ⟨rfl, rfl, rfl, rfl, hlt, rfl⟩
        · exact k3 m hm

theorem requests {vt : MsgType} (hvt : vt = .vote ∨ vt = .preVote) {t : Nat} {ctx : Bytes}
    (h : r.sendVotes vt t ctx r.trk.voterNodes = .ok r') :
    ∃ new, r' = { r with msgs := r.msgs ++ new } ∧ VoteRequests r' vt t ctx new := by
  obtain ⟨new, h1, h2, h3⟩ := sendVotes_asks hvt _ h
  refine ⟨new, h1, ?_⟩
  have e1 : r'.log = r.log := by rw [h1]
  have e2 : r'.id = r.id := by rw [h1]
  have e3 : r'.trk = r.trk := by rw [h1]
  refine ⟨?_, ?_, fun v => ?_⟩
  · rw [e1, e2]; exact h3
  · rw [h2]; exact (ids_nodup _).filter _
  · rw [h2, List.mem_filter, e2, e3]
    show v ∈ r.trk.config.voters.ids ∧ _ ↔ _
    simp [JointConfig.ids, USet.mem_insertAll]

/-- An election that is not won at once asks everybody else. -/
theorem campaignElection_asks {tr : Bool} (h : r.campaignElection env tr = .ok r') (hs : r'.state = .candidate) :
    r'.term = r.term + 1 ∧ r'.vote = r'.id ∧
    ∃ new, r'.msgs = r.msgs ++ new ∧ VoteRequests r' .vote r'.term (if tr then campaignTransferCtx else []) new := by
  unfold campaignElection at h
  obtain ⟨r2, h2, h⟩ := Res.bind_eq_ok.1 h
  have e2 : r2.term = r.term + 1 ∧ r2.msgs = r.msgs ∧ r2.vote = r2.id := by
    unfold becomeCandidate at h2
    split at h2
    · cases h2
    · cases h2
      refine ⟨congrArg Core.term (reset_core (env := env) r (r.term + 1)), reset_msgs (env := env) r (r.term + 1), ?_⟩
      exact (reset_id (env := env) r (r.term + 1)).symm
  dsimp only at h
  split at h
  · rw [becomeLeader_state h] at hs; cases hs
  · obtain ⟨new, h1, k⟩ := requests (r := (r2.poll r2.id true).1) (Or.inl rfl) h
    have t1 : r'.term = r2.term := by rw [h1]; rfl
    have t2 : r'.vote = r2.vote := by rw [h1]; rfl
    have t3 : r'.id = r2.id := by rw [h1]; rfl
    refine ⟨t1.trans e2.1, by rw [t2, t3]; exact e2.2.2, new, ?_, ?_⟩
    · rw [h1]
      show r2.msgs ++ new = _
      rw [e2.2.1]
    · rw [t1]; exact k

theorem becomeLeader_own (h : r.becomeLeader env = .ok r') : r'.term = r.term ∧ r'.vote = r.vote := by
  have e : (r.reset env r.term).term = r.term ∧ (r.reset env r.term).vote = r.vote := by
    unfold reset
    rw [if_neg (fun h => h rfl)]
    exact ⟨rfl, rfl⟩
  unfold Raft.becomeLeader at h
  split at h
  · cases h
  dsimp only at h
  obtain ⟨pr, _, h⟩ := Res.bind_eq_ok.1 h
  obtain ⟨⟨r2, ok⟩, h2, h⟩ := Res.bind_eq_ok.1 h
  dsimp only at h
  split at h
  · cases h
  cases h
  have s := (Still.appendEntry h2).trans (Calm.reduce [{}])
  exact ⟨s.term.trans e.1, s.vote.trans e.2⟩

/-- An election is for the next term and begins with the node's own vote. -/
theorem campaignElection_own {tr : Bool} (h : r.campaignElection env tr = .ok r') : r'.term = r.term + 1 ∧ r'.vote = r.id := by
  unfold campaignElection at h
  obtain ⟨r2, h2, h⟩ := Res.bind_eq_ok.1 h
  have e2 : r2.term = r.term + 1 ∧ r2.vote = r.id := by
    unfold becomeCandidate at h2
    split at h2
    · cases h2
    · cases h2
      exact ⟨congrArg Core.term (reset_core (env := env) r (r.term + 1)), rfl⟩
  dsimp only at h
  split at h
  · have := becomeLeader_own h
    exact ⟨this.1.trans e2.1, this.2.trans e2.2⟩
  · obtain ⟨new, h1, _⟩ := requests (r := (r2.poll r2.id true).1) (Or.inl rfl) h
    rw [h1]
    exact e2

/-- A pre-election that is not won at once asks everybody else; nothing but the role and the counted votes changes. -/
theorem preElection_asks (h : r.campaign env .preElection = .ok r') (hs : r'.state = .preCandidate) :
    ∃ new, r'.msgs = r.msgs ++ new ∧ VoteRequests r' .preVote (r.term + 1) [] new := by
  unfold campaign at h
  dsimp only at h
  obtain ⟨r2, h2, h⟩ := Res.bind_eq_ok.1 h
  have e2 : r2.term = r.term ∧ r2.msgs = r.msgs := by
    unfold becomePreCandidate at h2
    split at h2
    · cases h2
    · cases h2; exact ⟨rfl, rfl⟩
  split at h
  · rcases campaignElection_state h with h | h <;> rw [h] at hs <;> cases hs
  · obtain ⟨new, h1, k⟩ := requests (r := (r2.poll r2.id true).1) (Or.inr rfl) h
    refine ⟨new, ?_, ?_⟩
    · rw [h1]
      show r2.msgs ++ new = _
      rw [e2.2]
    · rw [← e2.1]; exact k

theorem preElection_keeps (h : r.campaign env .preElection = .ok r') (hs : r'.state = .preCandidate) :
    r'.term = r.term ∧ r'.vote = r.vote ∧ r'.log = r.log := by
  unfold campaign at h
  dsimp only at h
  obtain ⟨r2, h2, h⟩ := Res.bind_eq_ok.1 h
  have e2 : r2.term = r.term ∧ r2.vote = r.vote ∧ r2.log = r.log := by
    unfold becomePreCandidate at h2
    split at h2
    · cases h2
    · cases h2; exact ⟨rfl, rfl, rfl⟩
  split at h
  · rcases campaignElection_state h with h | h <;> rw [h] at hs <;> cases hs
  · obtain ⟨new, h1, k⟩ := requests (r := (r2.poll r2.id true).1) (Or.inr rfl) h
    rw [h1]
    exact e2

/-- An election has begun: the node voted for itself and asked everybody else. -/
def _root_.Craft.AskedAll (ctx : Bytes) (a b : Raft) : Prop := b.vote = b.id ∧ ∃ new, b.msgs = a.msgs ++ new ∧ VoteRequests b .vote b.term ctx new

theorem hup_asks {t : CampaignType} (h : r.hup env t = .ok r') (hs : r'.state = .candidate) :
    r' = r ∨ (r.term < r'.term ∧ AskedAll (if t = .transfer then campaignTransferCtx else []) r r') := by
  rcases hup_cases h with rfl | ⟨_, _, _, h⟩
  · exact Or.inl rfl
  · right
    have key : ∀ {tr : Bool} {a : Raft}, a.term = r.term → a.msgs = r.msgs → a.campaignElection env tr = .ok r' →
        r.term < r'.term ∧ AskedAll (if tr then campaignTransferCtx else []) r r' := by
      intro tr a h1 h2 h
      obtain ⟨k1, kv, new, k2, k3⟩ := campaignElection_asks h hs
      exact ⟨by omega, kv, new, by rw [k2, h2], k3⟩
    cases t with
    | election => exact key rfl rfl h
    | transfer => exact key rfl rfl h
    | preElection =>
      unfold campaign at h
      dsimp only at h
      obtain ⟨r2, h2, h⟩ := Res.bind_eq_ok.1 h
      have e3 : r2.term = r.term ∧ r2.msgs = r.msgs ∧ r2.state = .preCandidate := by
        unfold becomePreCandidate at h2
        split at h2
        · cases h2
        · cases h2; exact ⟨rfl, rfl, rfl⟩
      split at h
      · exact key (a := (r2.poll r2.id true).1) e3.1 e3.2.1 h
      · obtain ⟨new, h1, _⟩ := requests (r := (r2.poll r2.id true).1) (Or.inr rfl) h
        rw [h1] at hs
        have : r2.state = .candidate := hs
        rw [e3.2.2] at this
        cases this

theorem candidateVoteResp_asks {m : Message} (hp : r.state = .preCandidate) (h : r.candidateVoteResp env m = .ok r') (hs : r'.state = .candidate) :
    r.term < r'.term ∧ AskedAll [] r r' := by
  unfold candidateVoteResp poll at h
  dsimp only at h
  split at h
  · rw [if_pos hp] at h
    obtain ⟨k1, kv, new, k2, k3⟩ := campaignElection_asks h hs
    exact ⟨by rw [k1]; exact Nat.lt_succ_self _, kv, new, k2, k3⟩
  · cases h; cases hs
  · cases h
    have : r.state = .candidate := hs
    rw [hp] at this; cases this

/-- `Step` and elections: afterwards the node is a candidate only if it was, or it has just asked everybody else. -/
theorem step_asks {m : Message} {e : Option Err} (hst : Stamped m) (h : r.step env m = .ok (r', e)) (hs : r'.state = .candidate) :
    (r.state = .candidate ∧ r'.term = r.term) ∨ (r.term < r'.term ∧ AskedAll (if m.type = .timeoutNow then campaignTransferCtx else []) r r') := by
  by_cases hc : CampMsg m
  · unfold step at h
    obtain ⟨g, hg, h⟩ := Res.bind_eq_ok.1 h
    rcases stepGate_cases hg with ⟨r1, rfl, hgo, h1⟩ | ⟨r1, rfl, q⟩
    · dsimp only at h
      have body : (r1.state = .candidate ∧ r'.term = r1.term) ∨
          (r1.term < r'.term ∧ AskedAll (if m.type = .timeoutNow then campaignTransferCtx else []) r1 r') := by
        have hup : ∀ {t : CampaignType} {e' : Option Err}, (t = .transfer ↔ m.type = .timeoutNow) →
            (do let r ← r1.hup env t; pure (r, e')) = Res.ok (r', e) →
            (r1.state = .candidate ∧ r'.term = r1.term) ∨
            (r1.term < r'.term ∧ AskedAll (if m.type = .timeoutNow then campaignTransferCtx else []) r1 r') := by
          intro t e' ht h
          obtain ⟨r2, h2, h⟩ := Res.bind_eq_ok.1 h
          cases h
          rcases hup_asks h2 hs with rfl | ⟨h3, h4⟩
          · exact Or.inl ⟨hs, rfl⟩
          · refine Or.inr ⟨h3, ?_⟩
            simp only [ht] at h4
            exact h4
        have same : Res.ok (r1, none) = Res.ok (r', e) → (r1.state = .candidate ∧ r'.term = r1.term) ∨
            (r1.term < r'.term ∧ AskedAll (if m.type = .timeoutNow then campaignTransferCtx else []) r1 r') := by
          intro h; cases h; exact Or.inl ⟨hs, rfl⟩
        unfold stepBody at h
        rcases hc with hc | hc | hc
        · simp only [hc] at h
          refine hup ?_ h
          rw [hc]
          split <;> exact ⟨nofun, nofun⟩
        · simp only [hc] at h
          unfold stepState at h
          cases hr : r1.state <;> simp only [hr] at h
          · unfold stepFollower at h
            simp only [hc] at h
            exact hr ▸ hup ⟨fun _ => hc, fun _ => rfl⟩ h
          · unfold stepCandidate at h
            simp only [hc] at h
            exact hr ▸ same h
          · unfold stepLeader at h
            simp only [hc] at h
            split at h <;> exact hr ▸ same h
          · unfold stepCandidate at h
            simp only [hc] at h
            exact hr ▸ same h
        · simp only [hc] at h
          unfold stepState at h
          cases hr : r1.state <;> simp only [hr] at h
          · unfold stepFollower at h
            simp only [hc] at h
            exact hr ▸ same h
          · unfold stepCandidate at h
            simp only [hc] at h
            rw [if_neg (by rw [hr]; nofun)] at h
            exact hr ▸ same h
          · unfold stepLeader at h
            simp only [hc] at h
            split at h <;> exact hr ▸ same h
          · unfold stepCandidate at h
            simp only [hc] at h
            rw [if_pos hr] at h
            obtain ⟨r2, h2, h⟩ := Res.bind_eq_ok.1 h
            cases h
            rw [if_neg (by rw [hc]; nofun)]
            exact Or.inr (candidateVoteResp_asks hr h2 hs)
      rcases h1 with rfl | ⟨ha, lead, rfl⟩
      · exact body
      · rcases body with ⟨b, _⟩ | ⟨b1, bv, new, b2, b3⟩
        · cases b
        · refine Or.inr ⟨?_, bv, new, ?_, b3⟩
          · have : (r.becomeFollower env m.term lead).term = m.term := congrArg Core.term (becomeFollower_core (env := env) r m.term lead)
            have := ha.1
            omega
          · rw [b2]
            exact congrArg (· ++ new) (reset_msgs (env := env) r m.term)
    · cases h
      exact Or.inl ⟨q.state ▸ hs, q.term⟩
  · left
    obtain ⟨_, ms, _, hp⟩ := (step_sim hst h).nsim
    exact hp.candidate hc hs

end Raft
end Craft
