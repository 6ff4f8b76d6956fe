import Verif.Node.Ask
import Verif.Node.From
import Verif.Node.Durable

/-! # How fast terms grow

A call raises the term of a node by at most one above its own and that of the message it is handed, and only if it may begin an
election; pre-votes speak of the next term without entering it. -/

namespace Craft

/-- The message speaks of the next term without anybody being in it: a pre-vote, or the grant of one. -/
def Message.Ahead (m : Message) : Prop := m.type = .preVote ∨ (m.type = .preVoteResp ∧ m.reject = false)

/-- The term of a message is at most `B`, or `B + 1` if it speaks of the next term. -/
def Message.Below (B : Nat) (m : Message) : Prop := m.term ≤ B ∨ (m.term ≤ B + 1 ∧ m.Ahead)

theorem Message.Below.mono {B B' : Nat} {m : Message} (h : m.Below B) (hB : B ≤ B') : m.Below B' := by
  rcases h with h | ⟨h, k⟩
  · exact Or.inl (by omega)
  · exact Or.inr ⟨by omega, k⟩

theorem Message.Below.le {B : Nat} {m : Message} (h : m.Below B) : m.term ≤ B + 1 := by
  rcases h with h | ⟨h, _⟩ <;> omega

variable {env : Env} {im : Message} {B : Nat}

theorem Emit.below {c : Core} {m : Message} (hi : im.Below B) (hc : c.term ≤ B) (h : Emit env im c m) : m.Below B := by
  unfold Emit at h
  cases ht : m.type <;> simp only [ht] at h
  case preVote => exact Or.inr ⟨by have := h.2.1; omega, Or.inl ht⟩
  case preVoteResp =>
    obtain ⟨_, hp, _, ⟨_, h⟩ | ⟨hr, h, _⟩⟩ := h
    · exact Or.inl (by omega)
    · have := hi.le
      exact Or.inr ⟨by omega, Or.inr ⟨ht, hr⟩⟩
  all_goals exact Or.inl (by have := h.2.1; omega)

theorem CStep.below {c c' : Core} {ms : List Message} (hi : im.Below B) (hc : c.term ≤ B) (h : CStep env im c ms c') : ∀ m ∈ ms, m.Below B := by
  have one : ∀ {m : Message}, m.Below B → ∀ x ∈ [m], x.Below B := fun h x hx => by
    rw [List.mem_singleton.1 hx]; exact h
  cases h with
  | emit h => exact one (h.below hi hc)
  | grant h1 =>
    refine one (Or.inl ?_)
    rcases hi with h | ⟨_, h | ⟨h, _⟩⟩
    · exact h
    · rw [h1] at h; cases h
    · rw [h1] at h; cases h
  | recvApp => exact one (Or.inl hc)
  | recvHeartbeat => exact one (Or.inl hc)
  | _ => exact nofun

theorem NPath.sent_below {c c' : Core} {ms : List Message} (hi : im.Below B) (h : NPath env im c ms c') (hc : c'.term ≤ B) : ∀ m ∈ ms, m.Below B := by
  induction h with
  | nil => exact nofun
  | cons hs hp ih =>
    intro m hm
    rcases List.mem_append.1 hm with hm | hm
    · have h1 := hs.term_le
      have h2 := hp.term_le
      cases hs with
      | core hs => exact hs.below hi (by omega) m hm
      | _ => cases hm
    · exact ih hc m hm

namespace Raft
variable {r r' : Raft}

theorem campaign_term {t : CampaignType} (h : r.campaign env t = .ok r') : r'.term = r.term ∨ r'.term = r.term + 1 := by
  cases t with
  | election => exact Or.inr (campaignElection_own h).1
  | transfer => exact Or.inr (campaignElection_own h).1
  | preElection =>
    unfold campaign at h
    obtain ⟨r1, h1, h⟩ := Res.bind_eq_ok.1 h
    have c1 := becomePreCandidate_state h1
    have t1 := becomePreCandidate_term h1
    dsimp only at h
    by_cases hw : (r1.poll r1.id true).2 = .won
    · rw [if_pos hw] at h
      exact Or.inr ((campaignElection_own h).1.trans (by rw [(poll_state r1 r1.id true).2.1, t1]))
    · rw [if_neg hw] at h
      have q := sendVotes_qsim (env := env) (im := { type := .beat }) (r := (r1.poll r1.id true).1) _ (Or.inr ⟨rfl, c1, rfl⟩) h
      exact Or.inl (q.term.trans ((poll_state r1 r1.id true).2.1.trans t1))

theorem hup_term {t : CampaignType} (h : r.hup env t = .ok r') : r'.term = r.term ∨ r'.term = r.term + 1 := by
  rcases hup_cases h with rfl | ⟨_, _, _, h⟩
  · exact Or.inl rfl
  · exact campaign_term h

theorem candidateVoteResp_term {m : Message} (h : r.candidateVoteResp env m = .ok r') (hp : r.state = .preCandidate) :
    r'.term = r.term ∨ r'.term = r.term + 1 := by
  unfold candidateVoteResp at h
  dsimp only at h
  split at h
  · rw [if_pos (by rw [(poll_state r m.src (!m.reject)).1]; exact hp)] at h
    exact Or.inr ((campaignElection_own h).1.trans (by rw [(poll_state r m.src (!m.reject)).2.1]))
  · cases h
    exact Or.inl ((congrArg Core.term (becomeFollower_core (env := env) (r.poll m.src (!m.reject)).1 (r.poll m.src (!m.reject)).1.term 0)).trans (poll_state r m.src (!m.reject)).2.1)
  · cases h; exact Or.inl (poll_state r m.src (!m.reject)).2.1

theorem stepBody_term {e : Option Err} (hg : GateOk im r.core) (hst : Stamped im) (h : r.stepBody env im = .ok (r', e)) :
    r'.term = r.term ∨ (CampMsg im ∧ r'.term = r.term + 1) := by
  by_cases hc : CampMsg im
  · suffices hh : r'.term = r.term ∨ r'.term = r.term + 1 from hh.imp_right fun k => ⟨hc, k⟩
    unfold stepBody at h
    rcases hc with hc | hc | hc
    · simp only [hc] at h
      obtain ⟨r1, h1, h⟩ := Res.bind_eq_ok.1 h
      cases h
      exact hup_term h1
    · simp only [hc] at h
      unfold stepState at h
      cases hr : r.state with
      | leader =>
        simp only [hr] at h
        unfold stepLeader at h
        simp only [hc] at h
        split at h <;> cases h <;> exact Or.inl rfl
      | follower =>
        simp only [hr] at h
        unfold stepFollower at h
        simp only [hc] at h
        obtain ⟨r1, h1, h⟩ := Res.bind_eq_ok.1 h
        cases h
        exact hup_term h1
      | candidate => simp only [hr] at h; unfold stepCandidate at h; simp only [hc] at h; cases h; exact Or.inl rfl
      | preCandidate => simp only [hr] at h; unfold stepCandidate at h; simp only [hc] at h; cases h; exact Or.inl rfl
    · simp only [hc] at h
      unfold stepState at h
      have hcand : r.stepCandidate env im = .ok (r', e) → r'.term = r.term ∨ r'.term = r.term + 1 := by
        intro h
        unfold stepCandidate at h
        simp only [hc] at h
        by_cases hpre : r.state = .preCandidate
        · rw [if_pos hpre] at h
          obtain ⟨r1, h1, h⟩ := Res.bind_eq_ok.1 h
          cases h
          exact candidateVoteResp_term h1 hpre
        · rw [if_neg hpre] at h
          cases h; exact Or.inl rfl
      cases hr : r.state with
      | leader =>
        simp only [hr] at h
        unfold stepLeader at h
        simp only [hc] at h
        split at h <;> cases h <;> exact Or.inl rfl
      | follower =>
        simp only [hr] at h
        unfold stepFollower at h
        simp only [hc] at h
        cases h; exact Or.inl rfl
      | candidate => simp only [hr] at h; exact hcand h
      | preCandidate => simp only [hr] at h; exact hcand h
  · left
    by_cases hv : im.type = .vote ∨ im.type = .preVote
    · unfold stepBody at h
      have hh : ∀ r1, r.stepVote im = .ok r1 → r1.term = r.term := by
        intro r1 h1
        obtain ⟨ms, h2⟩ := stepVote_shape h1
        rw [h2]
      rcases hv with hv | hv <;>
      · simp only [hv] at h
        obtain ⟨r1, h1, h⟩ := Res.bind_eq_ok.1 h
        cases h
        exact hh _ h1
    · obtain ⟨_, ms, _, hp⟩ := (stepBody_sim hg hst h).nsim
      refine hp.term_const hc ?_
      rcases hg with hg | hg | ⟨_, hg | ⟨hg, _⟩⟩
      · rw [hg]; exact Nat.zero_le _
      · rw [hg]; exact Nat.le_refl _
      · exact absurd (Or.inr hg) hv
      · exact absurd (Or.inr (Or.inr hg)) hc

/-- A message raises the term to its own, unless it is a pre-vote message, and then by one more if it begins an election. -/
theorem step_term {e : Option Err} (hst : Stamped im) (h : r.step env im = .ok (r', e)) :
    ∃ t, (t = r.term ∨ (Adopts im r.term ∧ t = im.term)) ∧ (r'.term = t ∨ (CampMsg im ∧ r'.term = t + 1)) := by
  unfold step at h
  obtain ⟨g, hg, h⟩ := Res.bind_eq_ok.1 h
  rcases stepGate_cases hg with ⟨r1, rfl, hgo, h1⟩ | ⟨r1, rfl, hs⟩
  · dsimp only at h
    refine ⟨r1.term, ?_, stepBody_term hgo hst h⟩
    rcases h1 with rfl | ⟨ha, lead, rfl⟩
    · exact Or.inl rfl
    · exact Or.inr ⟨ha, congrArg Core.term (becomeFollower_core (env := env) r im.term lead)⟩
  · cases h; exact ⟨r.term, Or.inl rfl, Or.inl hs.term⟩

theorem step_below {e : Option Err} (hst : Stamped im) (hi : im.Below B) (hr : r.term ≤ B) (h : r.step env im = .ok (r', e)) :
    r'.term ≤ B ∨ (CampMsg im ∧ r'.term ≤ B + 1) := by
  obtain ⟨t, h1, h2⟩ := step_term hst h
  have ht : t ≤ B := by
    rcases h1 with rfl | ⟨⟨_, ha⟩, rfl⟩
    · exact hr
    · exact hi.elim (fun k => k) fun k => absurd k.2 ha
  rcases h2 with h2 | ⟨h2, h3⟩
  · exact Or.inl (by omega)
  · exact Or.inr ⟨h2, by omega⟩

end Raft

/-- A call raises the term of a node only if it may begin an election, and then to at most one more. -/
theorem Call.run_below {x : Call} {n n' : RawNode} (hst : x.Stamped) (hi : (x.msg env n).Below B) (hr : n.raft.term ≤ B) (h : x.run env n = .ok n') :
    n'.raft.term ≤ B ∨ (CampMsg (x.msg env n) ∧ n'.raft.term ≤ B + 1) := by
  by_cases hx : ∃ m, x = .step m
  · obtain ⟨m, rfl⟩ := hx
    obtain ⟨⟨n1, e⟩, h1, h⟩ := Res.bind_eq_ok.1 h
    cases h
    unfold RawNode.step at h1
    split at h1
    · cases h1; exact Or.inl hr
    split at h1
    · exact Raft.step_below hst hi hr (onRaft_ok h1).1
    · cases h1; exact Or.inl hr
  by_cases hc : CampMsg (x.msg env n)
  · refine Or.inr ⟨hc, ?_⟩
    have hup : ∀ {r r' : Raft} {e : Option Err}, r.term ≤ B → r.step env { type := .hup } = .ok (r', e) → r'.term ≤ B + 1 := by
      intro r r' e k1 k2
      rcases Raft.step_below (im := { type := .hup }) (B := B) nofun (Or.inl (Nat.zero_le _)) k1 k2 with k | ⟨_, k⟩ <;> omega
    cases x with
    | step m => exact absurd ⟨m, rfl⟩ hx
    | tick =>
      obtain ⟨r, h1, h⟩ := Res.bind_eq_ok.1 h
      cases h
      have he : n.raft.tickElection env = .ok r → r.term ≤ B + 1 := by
        intro h
        unfold Raft.tickElection at h
        dsimp only at h
        split at h
        · obtain ⟨⟨r1, e⟩, h2, h⟩ := Res.bind_eq_ok.1 h
          cases h
          exact hup (r := { n.raft with electionElapsed := 0 }) hr h2
        · cases h; exact Nat.le_succ_of_le hr
      unfold Raft.tick at h1
      cases hs : n.raft.state with
      | leader => unfold Call.msg at hc; dsimp only at hc; rw [if_pos hs] at hc; rcases hc with hc | hc | hc <;> cases hc
      | _ => simp only [hs] at h1; exact he h1
    | campaign =>
      obtain ⟨⟨n1, e⟩, h1, h⟩ := Res.bind_eq_ok.1 h
      cases h
      exact hup hr (onRaft_ok h1).1
    | _ => rcases hc with hc | hc | hc <;> cases hc
  · left
    obtain ⟨_, cfg, prs, _, ms, _, h2⟩ := Call.run_path hst h
    have : (x.msg env n).term = 0 := by
      cases x with
      | step m => exact absurd ⟨m, rfl⟩ hx
      | tick => unfold Call.msg; dsimp only; split <;> rfl
      | _ => rfl
    have e := h2.term_const hc (by rw [this]; exact Nat.zero_le _)
    exact Nat.le_trans (Nat.le_of_eq e) hr

/-- A node whose term, disk and outbox stay below a term. -/
structure Raft.Below (B : Nat) (r : Raft) : Prop where
  term : r.term ≤ B
  disk : r.log.storage.hardState.term ≤ B
  msgs : ∀ m ∈ r.msgs, m.Below B

theorem Raft.Below.mono {B B' : Nat} {r : Raft} (h : r.Below B) (hB : B ≤ B') : r.Below B' :=
  ⟨Nat.le_trans h.term hB, Nat.le_trans h.disk hB, fun m hm => (h.msgs m hm).mono hB⟩

theorem Call.below {x : Call} {n n' : RawNode} {B' : Nat} (hst : x.Stamped) (hi : (x.msg env n).Below B) (hn : n.raft.Below B) (hB : B ≤ B')
    (hc : CampMsg (x.msg env n) → B + 1 ≤ B') (h : x.run env n = .ok n') : n'.raft.Below B' := by
  have ht : n'.raft.term ≤ B' := by
    rcases Call.run_below hst hi hn.term h with k | ⟨k1, k2⟩
    · omega
    · have := hc k1; omega
  obtain ⟨_, cfg, prs, _, ms, h1, h2⟩ := Call.run_path hst h
  refine ⟨ht, ?_, fun m hm => ?_⟩
  · rw [Call.run_storage hst h]; exact Nat.le_trans hn.disk hB
  · rw [h1] at hm
    rcases List.mem_append.1 hm with hm | hm
    · split at hm
      · cases hm
      · exact (hn.msgs m hm).mono hB
    · exact h2.sent_below (hi.mono hB) ht m hm

end Craft
