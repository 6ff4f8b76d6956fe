import Verif.Safe.Step

/-! # `Step` and `Tick` return (2): followers, candidates, the term rules -/

namespace Craft
open Spec
namespace Raft
variable {K : Around} {env : Env} {r r' : Raft} {m : Message}

/-! ## Follower -/

theorem respond_safe {x : Message} (h : Safe K env r) (hty : x.type = .appResp ∨ x.type = .heartbeatResp) (ht : x.term = 0) (hs : x.src = 0)
    (hto : x.to ≠ r.id) : (r.send x).Sat (Sends K env r) := by
  refine send_safe h ?_ ?_
  · unfold TermRule
    rw [if_neg (by rcases hty with h | h <;> rw [h] <;> simp)]
    exact ht
  · have e1 : (r.outMsg x).type = x.type := by
      unfold outMsg
      dsimp only
      rw [if_pos hs]
      rcases hty with h | h <;> rw [h]
    have e2 : (r.outMsg x).to = x.to ∧ (r.outMsg x).src = r.id := by
      unfold outMsg
      dsimp only
      rw [if_pos hs]
      rcases hty with h | h <;> rw [h] <;> exact ⟨rfl, rfl⟩
    unfold NetOk
    rcases hty with h | h <;> rw [e1, h] <;> dsimp only <;> rw [e2.1, e2.2] <;> exact fun hh => hto hh.symm

theorem handleAppendEntries_safe (h : Safe K env r) (hty : m.type = .app) (hw : AppWF m) (hs : m.src ≠ r.id) (hf : r.state = .follower) :
    (r.handleAppendEntries m).Sat fun r' => Safe K env r' := by
  obtain ⟨w1, w2, w3⟩ := hw hty
  have hi := h.log.linv
  have b1 := hi.base_com
  have hl := hi.wf.lastIndex_eq
  unfold handleAppendEntries
  split
  · exact (respond_safe h (Or.inl rfl) rfl rfl hs).mono fun _ hh => hh.1
  rename_i c
  have hok : ∃ x, r.log.maybeAppend m.index m.logTerm m.commit m.entries = .ok x := by
    rcases C21_maybeAppend_total (commit := m.commit) hi.wf (index := m.index) (logTerm := m.logTerm) (ents := m.entries) (by omega) (by
      by_cases h0 : m.logTerm = 0
      · left; rw [w3 h0]; omega
      · exact Or.inr h0) w1 w2 with hx | ⟨_, e, he, h1, _⟩
    · exact hx
    · exfalso
      obtain ⟨i, hi'⟩ := List.getElem?_of_mem he
      have := w1 i e hi'
      omega
  obtain ⟨⟨l, res⟩, hx⟩ := hok
  rw [hx]
  simp only [Res.ok_bind]
  cases res with
  | some last =>
    obtain ⟨h1, h2⟩ := hi.step' (env := env) (o := []) (o' := []) (.maybeAppend m.index m.logTerm m.commit m.entries (by rw [RaftLog.firstIndex_eq]; omega) (by
      by_cases h0 : m.logTerm = 0
      · left; rw [w3 h0]; omega
      · exact Or.inr h0) w1 w2 hx)
    have h3 := RaftLog.maybeAppend_storage hx
    exact (respond_safe (h.withLog (h.log.next h1 h2 h3) (fun hh => by rw [hf] at hh; cases hh)) (Or.inl rfl) rfl rfl hs).mono fun _ hh => hh.1
  | none =>
    dsimp only
    rw [hi.wf.term_eq]
    simp only [Res.ok_bind, RaftLog.zeroTermOnErrCompacted]
    obtain ⟨x, hx, _⟩ := hi.wf.findConflictByTerm_eq m.logTerm (min m.index r.log.lastIndex) h.log.zero
    rw [hx]
    simp only [Res.ok_bind]
    rw [hi.wf.term_eq]
    simp only [Res.ok_bind]
    exact (respond_safe h (Or.inl rfl) rfl rfl hs).mono fun _ hh => hh.1

theorem handleHeartbeat_safe (h : Safe K env r) (hs : m.src ≠ r.id) (hc : m.commit ≤ r.log.lastIndex) :
    (r.handleHeartbeat m).Sat fun r' => Safe K env r' := by
  have hi := h.log.linv
  rw [hi.wf.lastIndex_eq] at hc
  have hx := hi.wf.commitTo_ok hc
  unfold handleHeartbeat
  obtain ⟨h1, h2⟩ := hi.step' (env := env) (o := []) (o' := []) (.commitTo _ hx)
  rw [hx]
  simp only [Res.ok_bind]
  exact (respond_safe (h.withLog (h.log.next h1 h2 rfl) (fun _ => rfl)) (Or.inr rfl) rfl rfl hs).mono fun _ hh => hh.1

theorem restore_safe {s : Snapshot} (h : Safe K env r) (ht : s.metadata.term ≠ 0) (hcs : ConfSafe s.metadata.confState r.id) :
    (r.restore env s).Sat fun x => Safe K env x.1 ∧ x.1.id = r.id := by
  have hi := h.log.linv
  unfold restore
  split
  · exact .ok ⟨h, rfl⟩
  rename_i c
  split
  · refine .ok ⟨becomeFollower_safe h (fun hh => absurd rfl hh), ?_⟩
    exact reset_id (env := env) r (r.term + 1)
  rename_i hst
  have hst : r.state = .follower := by simpa using hst
  dsimp only
  split
  · exact .ok ⟨h, rfl⟩
  rename_i hmem
  have hmem : r.id ∈ s.metadata.confState.voters ∨ r.id ∈ s.metadata.confState.learners ∨ r.id ∈ s.metadata.confState.votersOutgoing :=
    Classical.not_not.1 hmem
  rw [hi.wf.matchTerm_eq]
  simp only [Res.ok_bind]
  split
  · rename_i hm
    have hm : r.log.view.termAt s.metadata.index = s.metadata.term := by simpa using hm
    have hle : s.metadata.index ≤ r.log.view.last := by
      rcases Nat.lt_or_ge r.log.view.last s.metadata.index with h3 | h3
      · rw [LogView.termAt_out (Or.inr h3)] at hm; exact absurd hm.symm ht
      · exact h3
    have hx := hi.wf.commitTo_ok hle
    obtain ⟨h1, h2⟩ := hi.step' (env := env) (o := []) (o' := []) (.commitTo _ hx)
    rw [hi.wf.lastTerm_eq, hx]
    simp only [Res.ok_bind]
    exact .pure ⟨h.withLog (h.log.next h1 h2 rfl) (fun _ => rfl), rfl⟩
  · obtain ⟨h1, h2⟩ := hi.step' (env := env) (o := []) (o' := []) (.restore s (by omega))
    have h3 := h.log.next h1 h2 rfl
    obtain ⟨cfg, prs, hr, heq, hself, hinf⟩ := hcs r.trk.maxInflight (r.log.restore s).lastIndex
    rw [hr]
    dsimp only
    unfold switchToConfig
    dsimp only
    rw [if_neg (by intro hh; have := hh.2; rw [hst] at this; cases this), if_pos (Or.inl (by rw [hst]; simp))]
    simp only [Res.pure_eq, Res.ok_bind]
    rw [if_neg (by
      intro hh
      apply hh
      exact heq)]
    obtain ⟨p, hp⟩ := hself hmem
    let a : Raft := { r with log := r.log.restore s, trk := { maxInflight := r.trk.maxInflight, config := cfg, progress := prs } }
    let b : Raft := { a with isLearner := a.selfLearner }
    have hb : Safe K env b := by
      refine ⟨h3, h.id, fun hh => (by have hst2 : b.state = .follower := hst; rw [hst2] at hh; rcases hh with hh | hh <;> cases hh), h.tpos, ?_, fun hh => ?_, h.ro, h.pend, h.lead, h.out⟩
      · obtain ⟨sz, i1, i2, i3, _⟩ := h.infl
        refine ⟨sz, i1, i2, i3, fun k q hq => ⟨[], ?_⟩⟩
        rw [hinf k q hq, i1]
        exact Inflights.rep_new sz i2 i3
      · have : r.state = .leader := hh
        rw [hst] at this; cases this
    have hpb : b.pr r.id = some p := hp
    have hfin : (do
        let pr ← b.getPr b.id "raft.cc:1676"
        let r := b.setPr b.id (pr.maybeUpdate (sub64 pr.next 1)).1
        let _ ← r.log.lastTerm
        pure (r, true) : Res (Raft × Bool)).Sat fun x => Safe K env x.1 ∧ x.1.id = b.id := by
      rw [getPr_eq (r := b) hpb]
      simp only [Res.ok_bind]
      have hs := setPr_safe hb hpb (p' := (p.maybeUpdate (sub64 p.next 1)).1) (fun _ => inflOk_maybeUpdate) (fun hh => by have : r.state = .leader := hh; rw [hst] at this; cases this)
      rw [hs.1.log.linv.wf.lastTerm_eq]
      exact .pure ⟨hs.1, rfl⟩
    exact hfin

theorem handleSnapshot_safe (h : Safe K env r) (hs : m.src ≠ r.id) (ht : (m.snapshot.getD {}).metadata.term ≠ 0)
    (hcs : ConfSafe (m.snapshot.getD {}).metadata.confState r.id) : (r.handleSnapshot env m).Sat fun r' => Safe K env r' := by
  unfold handleSnapshot
  refine (restore_safe h ht hcs).bind fun x hx => ?_
  dsimp only
  split
  · exact (respond_safe hx.1 (Or.inl rfl) rfl rfl (by rw [hx.2]; exact hs)).mono fun _ hh => hh.1
  · exact (respond_safe hx.1 (Or.inl rfl) rfl rfl (by rw [hx.2]; exact hs)).mono fun _ hh => hh.1

/-- A forwarded request. -/
theorem forward_safe (h : Safe K env r) (hf : r.state = .follower) (hl : r.lead ≠ 0) (hty : m.type = .prop ∨ m.type = .readIndex ∨ m.type = .transferLeader)
    (ht : m.term = 0) (hp : m.type = .prop → m.entries ≠ [] ∧ Parses env m.entries) (hr : m.type = .readIndex → m.entries ≠ []) :
    (r.send { m with to := r.lead }).Sat (Sends K env r) := by
  obtain ⟨_, hlead⟩ := h.lead hf hl
  refine send_safe h ?_ ?_
  · unfold TermRule
    dsimp only
    rw [if_neg (by rcases hty with h | h | h <;> rw [h] <;> simp)]
    exact ht
  · have hsrc : ∀ x : Message, (if x.src = 0 then { x with src := r.id } else x).type = x.type ∧
        (if x.src = 0 then { x with src := r.id } else x).term = x.term ∧ (if x.src = 0 then { x with src := r.id } else x).entries = x.entries ∧
        (if x.src = 0 then { x with src := r.id } else x).to = x.to := by
      intro x; split <;> exact ⟨rfl, rfl, rfl, rfl⟩
    obtain ⟨s1, s2, s3, s4⟩ := hsrc { m with to := r.lead }
    unfold outMsg
    dsimp only at s1 s2 s3 s4 ⊢
    generalize (if m.src = 0 then ({ m with to := r.lead, src := r.id } : Message) else { m with to := r.lead }) = x at s1 s2 s3 s4
    rcases hty with h | h | h
    · rw [s1, h]
      unfold NetOk
      dsimp only
      rw [s1, h]
      dsimp only
      rw [s2, s3]
      exact ⟨ht, hp h⟩
    · rw [s1, h]
      unfold NetOk
      dsimp only
      rw [s1, h]
      dsimp only
      rw [s2, s3]
      exact ⟨ht, hr h⟩
    · rw [s1, h]
      unfold NetOk
      dsimp only
      rw [s4]
      exact hlead


theorem stepFollower_safe (h : Safe K env r) (hf : r.state = .follower) (hm : MsgSafe K env r m) (hfr : Fresh K r.log)
    (hterm : m.type = .app ∨ m.type = .heartbeat ∨ m.type = .snap → m.term = r.term)
    (htr : m.type = .transferLeader → m.term = 0 ∨ m.term = r.term) :
    (r.stepFollower env m).Sat fun x => Safe K env x.1 := by
  unfold MsgSafe at hm
  have hlead : ∀ l, l ≠ r.id → K.lead r.term l → Safe K env { r with electionElapsed := 0, lead := l } := fun l h1 h2 =>
    ⟨h.log, h.id, h.self, h.tpos, h.infl, h.next, h.ro, h.pend, fun _ _ => ⟨h1, h2⟩, h.out⟩
  unfold stepFollower
  cases ht : m.type <;> rw [ht] at hm <;> dsimp only at hm ⊢ <;> try exact .ok h
  case prop =>
    split
    · exact .ok h
    split
    · exact .ok h
    rename_i c _
    have hw := forward_safe h hf c (Or.inl ht) hm.1 (fun _ => hm.2) (fun hh => by rw [ht] at hh; cases hh)
    rw [ht] at hw
    exact Res.Sat.bind hw fun _ hh => .pure hh.1
  case app =>
    obtain ⟨_, h2, h3, h4⟩ := hm
    rw [hterm (Or.inl ht)] at h2
    exact (handleAppendEntries_safe (r := { r with electionElapsed := 0, lead := m.src }) (hlead _ h3 h2) ht h4 h3 hf).bind fun _ hh => .pure hh
  case heartbeat =>
    obtain ⟨_, h2, h3, h4⟩ := hm
    rw [hterm (Or.inr (Or.inl ht))] at h2 h4
    exact (handleHeartbeat_safe (r := { r with electionElapsed := 0, lead := m.src }) (hlead _ h3 h2) h3 (h4 (Nat.le_refl _))).bind fun _ hh => .pure hh
  case snap =>
    obtain ⟨_, h2, h3, h4, h5⟩ := hm
    rw [hterm (Or.inr (Or.inr ht))] at h2
    exact (handleSnapshot_safe (r := { r with electionElapsed := 0, lead := m.src }) (hlead _ h3 h2) h3 h4 h5).bind fun _ hh => .pure hh
  case timeoutNow => exact (hup_safe h hfr).bind fun _ hh => .pure hh
  case transferLeader =>
    split
    · exact .ok h
    rename_i c
    have h0 : m.term = 0 := by
      rcases hm with hm | hm
      · exact hm
      · rcases htr ht with h0 | h0
        · exact h0
        · exfalso
          rw [h0] at hm
          obtain ⟨h1, h2⟩ := h.lead hf c
          exact h1 (K.unique h2 hm)
    have hw := forward_safe h hf c (Or.inr (Or.inr ht)) h0 (fun hh => by rw [ht] at hh; cases hh) (fun hh => by rw [ht] at hh; cases hh)
    rw [ht] at hw
    exact Res.Sat.bind hw fun _ hh => .pure hh.1
  case readIndex =>
    split
    · exact .ok h
    rename_i c
    have hw := forward_safe h hf c (Or.inr (Or.inl ht)) hm.1 (fun hh => by rw [ht] at hh; cases hh) (fun _ => hm.2)
    rw [ht] at hw
    exact Res.Sat.bind hw fun _ hh => .pure hh.1
  case readIndexResp =>
    split
    · exact .ok ⟨h.log, h.id, h.self, h.tpos, h.infl, h.next, h.ro, h.pend, h.lead, h.out⟩
    · exact .ok h

/-! ## Candidate -/

theorem candidateVoteResp_safe (h : Safe K env r) (hc : r.state = .candidate ∨ r.state = .preCandidate) :
    (r.candidateVoteResp env m).Sat fun r' => Safe K env r' := by
  unfold candidateVoteResp
  have h1 : Safe K env (r.poll m.src (!m.reject)).1 := recordVote_safe h
  have hs1 : (r.poll m.src (!m.reject)).1.state = r.state := rfl
  have ht1 : (r.poll m.src (!m.reject)).1.term = r.term := rfl
  dsimp only
  generalize (r.poll m.src (!m.reject)).1 = a at h1 hs1 ht1
  have hnf : a.state ≠ .follower := by rcases hc with hc | hc <;> rw [hs1, hc] <;> simp
  cases (r.poll m.src (!m.reject)).2 with
  | pending => exact .ok h1
  | lost => exact .ok (becomeFollower_safe h1 (fun hh => absurd rfl hh))
  | won =>
    dsimp only
    split
    · rename_i c
      exact campaignElection_safe h1 (by rw [c]; simp) (h1.self (Or.inr c))
    · rename_i c
      have hcand : a.state = .candidate := by
        rcases hc with hc | hc
        · rw [hs1, hc]
        · rw [hs1] at c; exact absurd hc c
      refine (becomeLeader_safe h1 hnf (h1.tpos (Or.inr hcand)) (h1.self (Or.inl hcand))).bind fun b hb => ?_
      exact (bcastAppend_safe hb.1 hb.2).mono fun _ hh => hh.1

theorem stepCandidate_safe (h : Safe K env r) (hc : r.state = .candidate ∨ r.state = .preCandidate) (hm : MsgSafe K env r m)
    (hterm : m.type = .app ∨ m.type = .heartbeat ∨ m.type = .snap → m.term = r.term) :
    (r.stepCandidate env m).Sat fun x => Safe K env x.1 := by
  unfold MsgSafe at hm
  have hid : ∀ t l, (r.becomeFollower env t l).id = r.id := fun t _ => reset_id (env := env) r t
  have hlog : ∀ t l, (r.becomeFollower env t l).log = r.log := fun t _ => reset_log (env := env) r t
  unfold stepCandidate
  cases ht : m.type <;> rw [ht] at hm <;> dsimp only at hm ⊢ <;> try exact .ok h
  case app =>
    obtain ⟨_, h2, h3, h4⟩ := hm
    have hb : Safe K env (r.becomeFollower env m.term m.src) := becomeFollower_safe h (fun _ => ⟨h3, h2⟩)
    exact (handleAppendEntries_safe hb ht h4 (by rw [hid]; exact h3) rfl).bind fun _ hh => .pure hh
  case heartbeat =>
    obtain ⟨_, h2, h3, h4⟩ := hm
    have hb : Safe K env (r.becomeFollower env m.term m.src) := becomeFollower_safe h (fun _ => ⟨h3, h2⟩)
    have := hterm (Or.inr (Or.inl ht))
    exact (handleHeartbeat_safe hb (by rw [hid]; exact h3) (by rw [hlog]; exact h4 (by omega))).bind fun _ hh => .pure hh
  case snap =>
    obtain ⟨_, h2, h3, h4, h5⟩ := hm
    have hb : Safe K env (r.becomeFollower env m.term m.src) := becomeFollower_safe h (fun _ => ⟨h3, h2⟩)
    exact (handleSnapshot_safe hb (by rw [hid]; exact h3) h4 (by rw [hid]; exact h5)).bind fun _ hh => .pure hh
  case preVoteResp =>
    split
    · exact (candidateVoteResp_safe h hc).bind fun _ hh => .pure hh
    · exact .ok h
  case voteResp =>
    split
    · exact (candidateVoteResp_safe h hc).bind fun _ hh => .pure hh
    · exact .ok h

theorem stepState_safe (h : Safe K env r) (hm : MsgSafe K env r m) (hfr : Fresh K r.log)
    (hterm : m.type = .app ∨ m.type = .heartbeat ∨ m.type = .snap → m.term = r.term)
    (htr : m.type = .transferLeader → m.term = 0 ∨ m.term = r.term) : (r.stepState env m).Sat fun x => Safe K env x.1 := by
  unfold stepState
  cases hs : r.state with
  | follower => exact stepFollower_safe h hs hm hfr hterm htr
  | candidate => exact stepCandidate_safe h (Or.inl hs) hm hterm
  | preCandidate => exact stepCandidate_safe h (Or.inr hs) hm hterm
  | leader => exact stepLeader_safe h hs hm

/-! ## Votes -/

theorem vote_out {x : Message} (h : Safe K env r) (hty : x.type = .voteResp ∨ x.type = .preVoteResp) (ht : x.term ≠ 0) :
    (r.send x).Sat (Sends K env r) := by
  refine send_safe h ?_ ?_
  · unfold TermRule
    rw [if_pos (by rcases hty with h | h <;> rw [h] <;> simp)]
    exact ht
  · have hty2 : (if x.src = 0 then { x with src := r.id } else x).type = x.type := by split <;> rfl
    unfold outMsg
    dsimp only
    generalize (if x.src = 0 then { x with src := r.id } else x) = y at hty2
    have e1 : y.type = .voteResp ∨ y.type = .preVoteResp := by rw [hty2]; exact hty
    rcases e1 with e | e <;> unfold NetOk <;> simp [e]

theorem stepVote_safe (h : Safe K env r) (hty : m.type = .vote ∨ m.type = .preVote) (ht : m.term ≠ 0)
    (hr : r.term = 0 → r.canGrant m = .ok true) : (r.stepVote m).Sat fun r' => Safe K env r' := by
  have hi := h.log.linv
  unfold stepVote
  have hcg : ∃ b, r.canGrant m = .ok b := by
    unfold canGrant
    split
    · rw [hi.wf.isUpToDate_eq]; exact ⟨_, rfl⟩
    · exact ⟨_, rfl⟩
  obtain ⟨b, hb⟩ := hcg
  rw [hb, hi.wf.lastTerm_eq]
  have hrt : ∃ t, voteRespMsgType m.type = .ok t ∧ (t = .voteResp ∨ t = .preVoteResp) := by
    rcases hty with h | h <;> rw [h]
    · exact ⟨_, rfl, Or.inl rfl⟩
    · exact ⟨_, rfl, Or.inr rfl⟩
  obtain ⟨t, ht1, ht2⟩ := hrt
  rw [ht1]
  simp only [Res.ok_bind]
  cases b with
  | true =>
    simp only [if_true]
    refine (vote_out (x := { type := t, to := m.src, term := m.term }) h ht2 ht).bind fun a ha => ?_
    split
    · exact .pure ⟨ha.1.log, ha.1.id, ha.1.self, ha.1.tpos, ha.1.infl, ha.1.next, ha.1.ro, ha.1.pend, ha.1.lead, ha.1.out⟩
    · exact .pure ha.1
  | false =>
    simp only [Bool.false_eq_true, if_false]
    refine (vote_out (x := { type := t, to := m.src, term := r.term, reject := true }) h ht2 ?_).mono fun _ hh => hh.1
    intro h0
    rw [hr h0] at hb
    cases hb

theorem stepBody_safe (h : Safe K env r) (hm : MsgSafe K env r m) (hfr : Fresh K r.log)
    (hterm : m.type = .app ∨ m.type = .heartbeat ∨ m.type = .snap → m.term = r.term)
    (htr : m.type = .transferLeader → m.term = 0 ∨ m.term = r.term) (hv : m.type = .vote → m.term = r.term) :
    (r.stepBody env m).Sat fun x => Safe K env x.1 := by
  unfold stepBody
  have hm0 := hm
  unfold MsgSafe at hm0
  cases ht : m.type <;> rw [ht] at hm0 <;> dsimp only at hm0 ⊢ <;> try exact stepState_safe h hm hfr hterm htr
  case hup => exact (hup_safe h hfr).bind fun _ hh => .pure hh
  case vote =>
    refine (stepVote_safe h (Or.inl ht) hm0 ?_).bind fun _ hh => .pure hh
    intro h0
    have := hv ht
    omega
  case preVote =>
    refine (stepVote_safe h (Or.inr ht) hm0.1 ?_).bind fun _ hh => .pure hh
    intro h0
    unfold canGrant
    rw [if_pos (Or.inr (Or.inr ⟨ht, by have := hm0.1; omega⟩))]
    exact hm0.2 h0

end Raft
end Craft
