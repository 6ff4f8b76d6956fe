import Verif.Safe.Change

/-! # The handlers of the three roles return -/

namespace Craft
open Spec
namespace Raft
variable {K : Around} {env : Env} {r r' : Raft}

/-- The log is at least at the position every log has reached. -/
def Fresh (K : Around) (l : RaftLog) : Prop := K.Past (l.view.termAt l.view.last) l.view.last

theorem votes_safe {v : AMap Bool} (h : Safe K env r) : Safe K env { r with trk := { r.trk with votes := v } } :=
  ⟨h.log, h.id, h.self, h.tpos, h.infl, h.next, h.ro, h.pend, h.lead, h.out⟩

theorem recordVote_safe {id : Nat} {v : Bool} (h : Safe K env r) : Safe K env { r with trk := r.trk.recordVote id v } := by
  unfold Tracker.recordVote
  split
  · exact votes_safe h
  · exact h

theorem reduce_safe {es : List Entry} (h : Safe K env r) : Safe K env (r.reduceUncommittedSize es) := by
  unfold reduceUncommittedSize
  split
  · exact h
  · dsimp only
    split <;> exact ⟨h.log, h.id, h.self, h.tpos, h.infl, h.next, h.ro, h.pend, h.lead, h.out⟩

theorem reduce_state (es : List Entry) : (r.reduceUncommittedSize es).state = r.state := by
  unfold reduceUncommittedSize
  split
  · rfl
  · dsimp only; split <;> rfl

theorem becomeLeader_aux {a : Raft} (h1 : Safe K env a) (hu : a.uncommittedSize = 0) (hl : a.state = .leader)
    (hself : ∃ p, a.pr a.id = some p) :
    (do
      let pr ← a.getPr a.id "raft.cc:639"
      let r := a.setPr a.id pr.becomeReplicate
      let r := { r with pendingConfIndex := r.log.lastIndex }
      let (r, ok) ← r.appendEntry [{}]
      if ¬ ok then .fatal "raft.cc:651"
      else pure (r.reduceUncommittedSize [{}]) : Res Raft).Sat fun r' => Safe K env r' ∧ r'.state = .leader := by
  obtain ⟨p, hp⟩ := hself
  rw [getPr_eq hp]
  simp only [Res.ok_bind]
  have h2 : Sends K env a (a.setPr a.id p.becomeReplicate) :=
    setPr_safe h1 hp (fun _ hh => inflOk_reset .replicate hh) (fun _ hh => ⟨by show 1 ≤ p.mtch + 1; omega, fun he => ⟨(hh.2 he).1, by have := (hh.2 he).1; show _ < p.mtch + 1; omega⟩⟩)
  have h3 : Safe K env { a.setPr a.id p.becomeReplicate with pendingConfIndex := (a.setPr a.id p.becomeReplicate).log.lastIndex } :=
    ⟨h2.1.log, h2.1.id, h2.1.self, h2.1.tpos, h2.1.infl, h2.1.next, h2.1.ro, h2.1.pend, h2.1.lead, h2.1.out⟩
  refine (appendEntry_safe h3 hl ⟨p.becomeReplicate, pr_setPr a a.id _⟩).bind fun x hx => ?_
  rw [if_neg (by rw [hx.2 hu]; simp)]
  refine .pure ⟨reduce_safe hx.1.safe, ?_⟩
  rw [reduce_state, hx.1.state]
  exact hl

theorem becomeLeader_safe (h : Safe K env r) (hs : r.state ≠ .follower) (ht : r.term ≠ 0) (hself : ∃ p, r.pr r.id = some p) :
    (r.becomeLeader env).Sat fun r' => Safe K env r' ∧ r'.state = .leader := by
  unfold becomeLeader
  rw [if_neg hs]
  exact becomeLeader_aux (a := { r.reset env r.term with lead := r.id, state := .leader })
    (reset_safe (vote := (r.reset env r.term).vote) (st := .leader) h (fun hh => by rcases hh with hh | hh <;> cases hh) (fun _ => ht) (fun hh => nomatch hh))
    (reset_uncommitted (env := env) r r.term) rfl (by
      obtain ⟨p, hp⟩ := hself
      show ∃ p, (r.reset env r.term).pr (r.reset env r.term).id = some p
      rw [reset_id, reset_pr, hp]
      exact ⟨_, rfl⟩)

theorem becomeCandidate_safe (h : Safe K env r) (hs : r.state ≠ .leader) (hself : ∃ p, r.pr r.id = some p) :
    (r.becomeCandidate env).Sat fun a => Safe K env a ∧ a.state = .candidate := by
  unfold becomeCandidate
  rw [if_neg hs]
  exact .ok ⟨reset_safe (lead := (r.reset env (r.term + 1)).lead) (vote := r.id) (st := .candidate) h (fun _ => hself)
      (fun _ => by omega) (fun hh => nomatch hh), rfl⟩

theorem becomePreCandidate_safe (h : Safe K env r) (hs : r.state ≠ .leader) (hself : ∃ p, r.pr r.id = some p) :
    r.becomePreCandidate.Sat fun a => Safe K env a ∧ a.state = .preCandidate ∧ a.log = r.log := by
  unfold becomePreCandidate
  rw [if_neg hs]
  refine .ok ⟨⟨h.log, h.id, fun _ => hself, fun hh => ?_, h.infl, (fun hh => nomatch hh), h.ro, h.pend, (fun hh => nomatch hh), h.out⟩, rfl, rfl⟩
  rcases hh with hh | hh <;> cases hh

theorem sendVotes_safe {vm : MsgType} {term : Nat} {ctx : Bytes} (ids : List Nat) {r : Raft} (h : Safe K env r)
    (hv : vm = .vote ∨ (vm = .preVote ∧ Fresh K r.log)) (ht : term ≠ 0) :
    (r.sendVotes vm term ctx ids).Sat (Sends K env r) := by
  induction ids generalizing r with
  | nil => exact .ok (.refl h)
  | cons id ids ih =>
    unfold sendVotes
    by_cases c : id = r.id
    · rw [if_pos c]; exact ih h hv
    rw [if_neg c, h.log.linv.wf.lastTerm_eq]
    simp only [Res.ok_bind]
    refine (send_safe h ?_ ?_).bind fun r1 h1 => ?_
    · rcases hv with rfl | ⟨rfl, _⟩ <;> simp [TermRule, ht]
    · rcases hv with rfl | ⟨rfl, hf⟩
      · unfold outMsg NetOk; exact ht
      · unfold outMsg NetOk
        refine ⟨ht, ?_⟩
        show K.Past (r.log.view.termAt r.log.view.last) r.log.lastIndex
        rw [h.log.linv.wf.lastIndex_eq]
        exact hf
    · exact (ih h1.1 (by rw [h1.2.log]; exact hv)).mono fun _ hh => h1.trans hh

theorem campaignElection_safe {transfer : Bool} (h : Safe K env r) (hs : r.state ≠ .leader) (hself : ∃ p, r.pr r.id = some p) :
    (r.campaignElection env transfer).Sat (Safe K env) := by
  unfold campaignElection
  refine (becomeCandidate_safe h hs hself).bind fun a ha => ?_
  obtain ⟨h1, hs1⟩ := ha
  have h2 : Safe K env (a.poll a.id true).1 := recordVote_safe h1
  have hs2 : (a.poll a.id true).1.state = .candidate := hs1
  have ht2 := h2.tpos (Or.inr hs2)
  have ht3 : a.term ≠ 0 := ht2
  dsimp only
  split
  · exact (becomeLeader_safe h2 (by rw [hs2]; simp) ht2 (h2.self (Or.inl hs2))).mono fun _ hh => hh.1
  · exact (sendVotes_safe _ h2 (Or.inl rfl) ht3).mono fun _ hh => hh.1

theorem campaign_safe {t : CampaignType} (h : Safe K env r) (hs : r.state ≠ .leader) (hself : ∃ p, r.pr r.id = some p)
    (hf : Fresh K r.log) : (r.campaign env t).Sat (Safe K env) := by
  unfold campaign
  cases t with
  | election => exact campaignElection_safe h hs hself
  | transfer => exact campaignElection_safe h hs hself
  | preElection =>
    refine (becomePreCandidate_safe h hs hself).bind fun a ha => ?_
    obtain ⟨h1, hs1, hl1⟩ := ha
    rw [← hl1] at hf
    have h2 : Safe K env (a.poll a.id true).1 := recordVote_safe h1
    have hs2 : (a.poll a.id true).1.state = .preCandidate := hs1
    dsimp only
    split
    · exact campaignElection_safe h2 (by rw [hs2]; simp) (h2.self (Or.inr hs2))
    · exact (sendVotes_safe _ h2 (Or.inr ⟨rfl, hf⟩) (by omega)).mono fun _ hh => hh.1

theorem hup_safe {t : CampaignType} (h : Safe K env r) (hf : Fresh K r.log) : (r.hup env t).Sat (Safe K env) := by
  unfold hup
  by_cases c1 : r.state = .leader
  · rw [if_pos c1]; exact .ok h
  rw [if_neg c1]
  by_cases c2 : r.promotable = true
  · rw [if_neg (by simpa using c2)]
    have hself : ∃ p, r.pr r.id = some p := by
      unfold promotable at c2
      split at c2
      · cases c2
      · exact ⟨_, by assumption⟩
    have hns : r.log.unstable.snapshot = none := by
      unfold promotable at c2
      split at c2
      · cases c2
      · simp only [Bool.and_eq_true] at c2
        have := c2.2
        unfold RaftLog.hasPendingSnapshot at this
        cases hsn : r.log.unstable.snapshot with
        | none => rfl
        | some s =>
          rw [hsn] at this
          have hp := (h.log.linv.pend s hsn).1
          simp at this
          omega
    have hi := h.log.linv
    have b1 := hi.base_app hns
    have b2 := hi.app_com
    have b3 := hi.com_last
    rw [hi.wf.slice_eq, if_neg (by omega), if_neg (by omega), if_neg (by omega)]
    simp only [Res.ok_bind]
    split
    · exact .pure h
    · exact campaign_safe h c1 hself hf
  · rw [if_pos (by simpa using c2)]; exact .ok h

end Raft
end Craft
