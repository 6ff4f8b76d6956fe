import Verif.Props.Cut

/-! # C92: a follower that hears from its leader stays with it -/

namespace Craft
open Spec

/-- Role, term and leader stay, and the election clock does not advance. -/
def Held (a b : Raft) : Prop := b.state = a.state ∧ b.term = a.term ∧ b.lead = a.lead ∧ b.electionElapsed ≤ a.electionElapsed

namespace Held
variable {env : Env} {r r' a b c : Raft}

theorem of (h : (b.state, b.term, b.lead, b.electionElapsed) = (a.state, a.term, a.lead, a.electionElapsed)) : Held a b := by
  obtain ⟨h1, h2, h3, h4⟩ : _ ∧ _ ∧ _ ∧ _ := by simpa only [Prod.mk.injEq] using h
  exact ⟨h1, h2, h3, Nat.le_of_eq h4⟩

theorem refl : Held a a := .of rfl

theorem trans (h1 : Held a b) (h2 : Held b c) : Held a c :=
  ⟨h2.1.trans h1.1, h2.2.1.trans h1.2.1, h2.2.2.1.trans h1.2.2.1, Nat.le_trans h2.2.2.2 h1.2.2.2⟩

theorem still (h : Still a b) : Held a b := of (congrArg (fun r : Raft => (r.state, r.term, r.lead, r.electionElapsed)) h.1 :)

theorem send {m : Message} (h : r.send m = .ok r') : Held r r' := by
  rw [Raft.send_ok h]; exact .of rfl

theorem handleAppend {m : Message} (h : r.handleAppendEntries m = .ok r') : Held r r' := by
  unfold Raft.handleAppendEntries at h
  split at h
  · exact send h
  obtain ⟨⟨l, res⟩, _, h⟩ := Res.bind_eq_ok.1 h
  dsimp only at h
  split at h
  · rw [Raft.send_ok h]; exact .of rfl
  · obtain ⟨_, _, h⟩ := Res.bind_eq_ok.1 h
    obtain ⟨_, _, h⟩ := Res.bind_eq_ok.1 h
    obtain ⟨_, _, h⟩ := Res.bind_eq_ok.1 h
    obtain ⟨_, _, h⟩ := Res.bind_eq_ok.1 h
    split at h
    · cases h
    · exact send h

theorem handleHeartbeat {m : Message} (h : r.handleHeartbeat m = .ok r') : Held r r' := by
  unfold Raft.handleHeartbeat at h
  obtain ⟨l, _, h⟩ := Res.bind_eq_ok.1 h
  rw [Raft.send_ok h]; exact .of rfl

theorem handleSnapshot {m : Message} (hf : r.state = .follower) (h : r.handleSnapshot env m = .ok r') : Held r r' := by
  unfold Raft.handleSnapshot at h
  obtain ⟨⟨r1, ok⟩, h1, h⟩ := Res.bind_eq_ok.1 h
  have k1 : Held r r1 := by
    rcases Raft.restore_cases hf h1 with ⟨rfl, _⟩ | ⟨_, _, l, _, _, rfl⟩ | ⟨_, _, cfg, prs, lrn, p, _, _, _, rfl⟩ <;> exact .of rfl
  dsimp only at h
  split at h <;> exact k1.trans (send h)

/-- The message is of a kind that only leaders send. -/
def _root_.Craft.Message.Leads (m : Message) : Prop := m.type = .app ∨ m.type = .heartbeat ∨ m.type = .snap

theorem stepFollower {m : Message} {e : Option Err} (hf : r.state = .follower) (hm : m.type ≠ .timeoutNow) (h : r.stepFollower env m = .ok (r', e)) :
    (¬ m.Leads ∧ Held r r') ∨ (m.Leads ∧ Held { r with electionElapsed := 0, lead := m.src } r') := by
  unfold Raft.stepFollower at h
  split at h
  case h_1 he =>
    left
    refine ⟨by unfold Message.Leads; simp [he], ?_⟩
    split at h
    · cases h; exact .refl
    split at h
    · cases h; exact .refl
    obtain ⟨r2, h2, h⟩ := Res.bind_eq_ok.1 h
    cases h; exact send h2
  case h_2 he =>
    obtain ⟨r2, h2, h⟩ := Res.bind_eq_ok.1 h
    cases h; exact Or.inr ⟨Or.inl he, handleAppend h2⟩
  case h_3 he =>
    obtain ⟨r2, h2, h⟩ := Res.bind_eq_ok.1 h
    cases h; exact Or.inr ⟨Or.inr (Or.inl he), handleHeartbeat h2⟩
  case h_4 he =>
    obtain ⟨r2, h2, h⟩ := Res.bind_eq_ok.1 h
    cases h; exact Or.inr ⟨Or.inr (Or.inr he), handleSnapshot (by exact hf) h2⟩
  case h_5 he =>
    left
    refine ⟨by unfold Message.Leads; simp [he], ?_⟩
    split at h
    · cases h; exact .refl
    obtain ⟨r2, h2, h⟩ := Res.bind_eq_ok.1 h
    cases h; exact send h2
  case h_6 he => exact absurd he hm
  case h_7 he =>
    left
    refine ⟨by unfold Message.Leads; simp [he], ?_⟩
    split at h
    · cases h; exact .refl
    obtain ⟨r2, h2, h⟩ := Res.bind_eq_ok.1 h
    cases h; exact send h2
  case h_8 he =>
    left
    refine ⟨by unfold Message.Leads; simp [he], ?_⟩
    split at h
    · cases h; exact .of rfl
    · cases h; exact .refl
  case h_9 he1 he2 he3 he4 he5 he6 he7 he8 =>
    left
    cases h
    exact ⟨fun hl => by rcases hl with hl | hl | hl <;> contradiction, .refl⟩

theorem stepVote {m : Message} (h : r.stepVote m = .ok r') : Held r r' := by
  unfold Raft.stepVote at h
  obtain ⟨up, _, h⟩ := Res.bind_eq_ok.1 h
  obtain ⟨_, _, h⟩ := Res.bind_eq_ok.1 h
  obtain ⟨rt, _, h⟩ := Res.bind_eq_ok.1 h
  split at h
  · obtain ⟨r3, k3, h⟩ := Res.bind_eq_ok.1 h
    rw [Raft.send_ok k3] at h
    split at h
    · cases h; exact ⟨rfl, rfl, rfl, Nat.zero_le _⟩
    · cases h; exact .of rfl
  · exact send h

theorem stepBody {m : Message} {e : Option Err} (hf : r.state = .follower) (hm : m.type ≠ .timeoutNow) (hh : m.type ≠ .hup)
    (h : r.stepBody env m = .ok (r', e)) :
    (¬ m.Leads ∧ Held r r') ∨ (m.Leads ∧ Held { r with electionElapsed := 0, lead := m.src } r') := by
  unfold Raft.stepBody at h
  split at h
  · exact absurd ‹_› hh
  · obtain ⟨r2, h2, h⟩ := Res.bind_eq_ok.1 h
    cases h
    refine Or.inl ⟨?_, stepVote h2⟩
    rintro (hl | hl | hl) <;> simp_all
  · obtain ⟨r2, h2, h⟩ := Res.bind_eq_ok.1 h
    cases h
    refine Or.inl ⟨?_, stepVote h2⟩
    rintro (hl | hl | hl) <;> simp_all
  · unfold Raft.stepState at h
    rw [hf] at h
    exact stepFollower hf hm h

/-- Nothing that does not upset a follower of a live leader changes its role or term; only a leader's message changes its leader. -/
theorem step {m : Message} {e : Option Err} (hf : r.state = .follower) (hm : m.type ≠ .timeoutNow) (hh : m.type ≠ .hup)
    (ht : m.term ≤ r.term ∨ m.type = .preVote ∨ (m.type = .preVoteResp ∧ m.reject = false) ∨
      (r.checkQuorum = true ∧ m.type = .vote ∧ m.context ≠ campaignTransferCtx))
    (hl : r.lead ≠ 0) (he : r.electionElapsed < r.electionTimeout) (h : r.step env m = .ok (r', e)) :
    Held r r' ∨ (m.Leads ∧ Held { r with electionElapsed := 0, lead := m.src } r') := by
  have body : ∀ {r'}, r.stepBody env m = .ok (r', e) → Held r r' ∨ (m.Leads ∧ Held { r with electionElapsed := 0, lead := m.src } r') :=
    fun h => (stepBody hf hm hh h).imp And.right _root_.id
  unfold Raft.step Raft.stepGate at h
  obtain ⟨g, hg, k⟩ := Res.bind_eq_ok.1 h
  split at hg
  · cases hg; exact body k
  split at hg
  · rename_i h0 hgt
    split at hg
    · obtain ⟨_, _, hg⟩ := Res.bind_eq_ok.1 hg
      cases hg; cases k; exact Or.inl .refl
    rename_i hlease
    split at hg
    · cases hg; exact body k
    rename_i hpv
    split at hg
    · cases hg; exact body k
    rename_i hpr
    rcases ht with ht | ht | ht | ⟨ht1, ht2, ht3⟩
    · omega
    · exact absurd ht hpv
    · exact absurd ⟨ht.1, by rw [ht.2]; nofun⟩ hpr
    · exact absurd ⟨Or.inl ht2, ht3, ht1, hl, he⟩ hlease
  split at hg
  · split at hg
    · obtain ⟨r3, k3, hg⟩ := Res.bind_eq_ok.1 hg
      cases hg; cases k; exact Or.inl (send k3)
    split at hg
    · obtain ⟨_, _, hg⟩ := Res.bind_eq_ok.1 hg
      obtain ⟨r3, k3, hg⟩ := Res.bind_eq_ok.1 hg
      cases hg; cases k; exact Or.inl (send k3)
    · cases hg; cases k; exact Or.inl .refl
  · cases hg; exact body k

/-- The message of a leader of this or a later term makes any node but a leader of this term its follower. -/
theorem hear {m : Message} {e : Option Err} (hm : m.Leads) (h0 : m.term ≠ 0) (ht : r.term < m.term ∨ (r.term = m.term ∧ r.state ≠ .leader))
    (h : r.step env m = .ok (r', e)) : r'.state = .follower ∧ r'.term = m.term ∧ r'.lead = m.src ∧ r'.electionElapsed = 0 := by
  have nt : m.type ≠ .timeoutNow ∧ m.type ≠ .hup ∧ m.type ≠ .vote ∧ m.type ≠ .preVote ∧ m.type ≠ .preVoteResp := by
    rcases hm with h | h | h <;> rw [h] <;> exact ⟨nofun, nofun, nofun, nofun, nofun⟩
  obtain ⟨n1, n2, n3, n4, n5⟩ := nt
  have body : ∀ {b r' : Raft}, b.state = .follower → b.term = m.term → b.stepBody env m = .ok (r', e) →
      r'.state = .follower ∧ r'.term = m.term ∧ r'.lead = m.src ∧ r'.electionElapsed = 0 := by
    intro b r' hb hbt k
    rcases stepBody hb n1 n2 k with ⟨k, _⟩ | ⟨_, k1, k2, k3, k4⟩
    · exact absurd hm k
    · exact ⟨k1.trans hb, k2.trans hbt, k3, Nat.le_zero.1 k4⟩
  unfold Raft.step Raft.stepGate at h
  obtain ⟨g, hg, k⟩ := Res.bind_eq_ok.1 h
  rw [if_neg h0] at hg
  rcases ht with ht | ⟨ht, hs⟩
  · rw [if_pos ht, if_neg (by rintro ⟨h | h, _⟩ <;> contradiction), if_neg n4, if_neg (fun h => n5 h.1), if_pos (show m.type = .app ∨ m.type = .heartbeat ∨ m.type = .snap from hm)] at hg
    cases hg
    exact body (b := r.becomeFollower env m.term m.src) rfl (Raft.reset_term (env := env) _ _) k
  · rw [if_neg (by omega), if_neg (by omega)] at hg
    cases hg
    dsimp only at k
    cases hst : r.state with
    | follower => exact body hst ht k
    | leader => exact absurd hst hs
    | _ =>
      have k : r.stepCandidate env m = .ok (r', e) := by
        unfold Raft.stepBody at k
        split at k
        · exact absurd ‹_› n2
        · exact absurd ‹_› n3
        · exact absurd ‹_› n4
        · unfold Raft.stepState at k
          rw [hst] at k
          exact k
      have fin : ∀ {r2 : Raft}, Held (r.becomeFollower env m.term m.src) r2 → (Res.ok (r2, none) : Res (Raft × Option Err)) = .ok (r', e) →
          r'.state = .follower ∧ r'.term = m.term ∧ r'.lead = m.src ∧ r'.electionElapsed = 0 := by
        intro r2 k1 k2
        cases k2
        obtain ⟨k1, k2, k3, k4⟩ := k1
        refine ⟨k1, k2.trans (Raft.reset_term (env := env) _ _), k3, ?_⟩
        have h0 : (r.becomeFollower env m.term m.src).electionElapsed = 0 := by
          unfold Raft.becomeFollower Raft.reset Raft.resetRandomizedElectionTimeout
          by_cases ht : r.term = m.term
          · simp [ht]
          · simp [ht]
        omega
      unfold Raft.stepCandidate at k
      rcases hm with hm | hm | hm <;> rw [hm] at k <;> obtain ⟨r2, k2, k⟩ := Res.bind_eq_ok.1 k
      · exact fin (handleAppend k2) k
      · exact fin (handleHeartbeat k2) k
      · exact fin (handleSnapshot rfl k2) k

end Held

/-- A follower of a live leader of term `T`, `k` ticks after it heard from it. -/
structure Tended (T t k : Nat) (r : Raft) : Prop where
  state : r.state = .follower
  term : r.term = T
  lead : r.lead ≠ 0
  elapsed : r.electionElapsed ≤ k
  soon : k < t
  timeout : r.electionTimeout = t
  timer : 0 ≤ toI32 ((r.electionTimeout : Int) - 1) ∧ TimerOk r

theorem Tended.kept {T t k : Nat} {a b : Raft} (h : Tended T t k a) (hk : Keep a b) (h1 : Held a b) : Tended T t k b := by
  have e : b.electionTimeout = a.electionTimeout := (congrArg Consts.electionTimeout hk.1 :)
  exact ⟨h1.1.trans h.state, h1.2.1.trans h.term, by rw [h1.2.2.1]; exact h.lead, Nat.le_trans h1.2.2.2 h.elapsed, h.soon, e.trans h.timeout,
    by rw [e]; exact h.timer.1, hk.timerOk h.timer.1 h.timer.2⟩

/-- A leader's message. -/
theorem Call.tends {env : Env} {c : Call} {l T t : Nat} {a b : RawNode} (hh : c.HearsFrom l T) (hl : l ≠ 0) (hs : c.Stamped)
    (ha : a.raft.term < T ∨ (a.raft.term = T ∧ a.raft.state ≠ .leader)) (ht : a.raft.electionTimeout = t) (hp : 0 < t)
    (htm : 0 ≤ toI32 ((a.raft.electionTimeout : Int) - 1) ∧ TimerOk a.raft) (h : c.run env a = .ok b) : Tended T t 0 b.raft := by
  have hk := (Call.run_path hs h).1
  have e0 : b.raft.electionTimeout = a.raft.electionTimeout := (congrArg Consts.electionTimeout hk.1 :)
  obtain ⟨m, rfl, hm, rfl, rfl⟩ := hh
  obtain ⟨⟨n1, e⟩, h1, h⟩ := Res.bind_eq_ok.1 h
  cases h
  unfold RawNode.step at h1
  rw [if_neg (by rcases hm with h | h | h <;> rw [h] <;> nofun), if_pos (Or.inr (by rcases hm with h | h | h <;> rw [h] <;> decide))] at h1
  obtain ⟨k1, k2, k3, k4⟩ := Held.hear hm (hs hm) ha (onRaft_ok h1).1
  exact ⟨k1, k2, by rw [k3]; exact hl, Nat.le_of_eq k4, hp, e0.trans ht, by rw [e0]; exact htm.1, hk.timerOk htm.1 htm.2⟩

/-- Any other call that does not upset the follower. -/
theorem Call.tended {env : Env} {c : Call} {T t k : Nat} {a b : RawNode} (hp : c.Plain) (hs : c.Stamped) (hu : ¬ c.Upsets a.raft.checkQuorum T)
    (h0 : ∀ T', ¬ c.HearsFrom 0 T') (ha : Tended T t k a.raft) (h : c.run env a = .ok b)
    (hk : (if c = .tick ∨ c = .tickQuiesced then k + 1 else k) < t) : Tended T t (if c = .tick ∨ c = .tickQuiesced then k + 1 else k) b.raft := by
  have kp := (Call.run_path hs h).1
  have go : ∀ {m : Message} {e : Option Err} {n1 : RawNode}, n1 = b → ¬ (c = .tick ∨ c = .tickQuiesced) → m.type ≠ .timeoutNow → m.type ≠ .hup →
      (m.term ≤ T ∨ m.type = .preVote ∨ (m.type = .preVoteResp ∧ m.reject = false) ∨
      (a.raft.checkQuorum = true ∧ m.type = .vote ∧ m.context ≠ campaignTransferCtx)) → (m.Leads → m.src ≠ 0) →
      a.onRaft (fun r => r.step env m) = .ok (n1, e) → Tended T t (if c = .tick ∨ c = .tickQuiesced then k + 1 else k) b.raft := by
    intro m e n1 hb hc h1 h2 h3 h4 h5
    subst hb
    rw [if_neg hc]
    have es := ha.elapsed
    have so := ha.soon
    have tt := ha.timeout
    rcases Held.step ha.state h1 h2 (by rw [ha.term]; exact h3) ha.lead (by omega) (onRaft_ok h5).1 with h | ⟨hl, h⟩
    · exact ha.kept kp h
    · have e : n1.raft.electionTimeout = a.raft.electionTimeout := (congrArg Consts.electionTimeout kp.1 :)
      exact ⟨h.1.trans ha.state, h.2.1.trans ha.term, by rw [h.2.2.1]; exact h4 hl, Nat.le_trans h.2.2.2 (Nat.zero_le _), ha.soon, e.trans tt,
        by rw [e]; exact ha.timer.1, kp.timerOk ha.timer.1 ha.timer.2⟩
  have loc : ∀ {m : Message} {e : Option Err} {n1 : RawNode}, n1 = b → ¬ (c = .tick ∨ c = .tickQuiesced) → m.type ≠ .timeoutNow → m.type ≠ .hup →
      m.term = 0 → ¬ m.Leads → a.onRaft (fun r => r.step env m) = .ok (n1, e) →
      Tended T t (if c = .tick ∨ c = .tickQuiesced then k + 1 else k) b.raft :=
    fun h1 h2 h3 h4 h5 h6 h7 => go h1 h2 h3 h4 (Or.inl (by omega)) (fun h => absurd h h6) h7
  cases c with
  | step m =>
    obtain ⟨⟨n1, e⟩, h1, h⟩ := Res.bind_eq_ok.1 h
    simp only [Res.pure_eq, Res.ok.injEq] at h
    subst h
    have tr : n1 = a → Tended T t (if Call.step m = .tick ∨ Call.step m = .tickQuiesced then k + 1 else k) n1.raft := by
      rintro rfl; rw [if_neg (by simp)]; exact ha
    unfold RawNode.step at h1
    split at h1
    · simp only [Res.ok.injEq, Prod.mk.injEq] at h1; exact tr h1.1.symm
    rename_i hloc
    split at h1
    · refine go rfl (by simp) (fun e => hu (Or.inl e)) (fun e => hloc (by rw [e]; rfl)) ?_ (fun hl e => h0 m.term ⟨m, rfl, hl, e, rfl⟩) h1
      by_cases h3 : m.term ≤ T
      · exact Or.inl h3
      by_cases h4 : m.type = .preVote
      · exact Or.inr (Or.inl h4)
      by_cases h5 : m.type = .preVoteResp ∧ m.reject = false
      · exact Or.inr (Or.inr (Or.inl h5))
      by_cases h6 : a.raft.checkQuorum = true ∧ m.type = .vote ∧ m.context ≠ campaignTransferCtx
      · exact Or.inr (Or.inr (Or.inr h6))
      exact absurd (Or.inr ⟨by omega, h4, h5, h6⟩) hu
    · simp only [Res.ok.injEq, Prod.mk.injEq] at h1; exact tr h1.1.symm
  | tick =>
    rw [if_pos (Or.inl rfl)] at hk ⊢
    obtain ⟨r, h1, h⟩ := Res.bind_eq_ok.1 h
    cases h
    unfold Raft.tick at h1
    rw [ha.state] at h1
    dsimp only at h1
    unfold Raft.tickElection at h1
    have es := ha.elapsed
    have tt := ha.timeout
    have tm := ha.timer.2.1
    have hno : ¬ ({ a.raft with electionElapsed := a.raft.electionElapsed + 1 } : Raft).pastElectionTimeout = true := by
      unfold Raft.pastElectionTimeout
      simp only [decide_eq_true_eq]
      omega
    dsimp only at h1
    rw [if_neg (fun h => hno h.2)] at h1
    cases h1
    exact ⟨ha.state, ha.term, ha.lead, Nat.succ_le_succ es, hk, tt, ha.timer⟩
  | tickQuiesced =>
    rw [if_pos (Or.inr rfl)] at hk ⊢
    cases h
    exact ⟨ha.state, ha.term, ha.lead, Nat.succ_le_succ ha.elapsed, hk, ha.timeout, ha.timer⟩
  | campaign => exact absurd trivial hu
  | propose d =>
    obtain ⟨⟨n1, e⟩, h1, h⟩ := Res.bind_eq_ok.1 h
    cases h
    exact loc rfl (by simp) (by simp) (by simp) rfl (by simp [Message.Leads]) h1
  | proposeConfChange cc =>
    obtain ⟨⟨n1, e⟩, h1, h⟩ := Res.bind_eq_ok.1 h
    cases h
    unfold RawNode.proposeConfChange at h1
    exact loc rfl (by simp) (by simp) (by simp) rfl (by simp [Message.Leads]) h1
  | applyConfChange cc => exact absurd hp (by simp [Call.Plain])
  | getReady => exact absurd hp (by simp [Call.Plain])
  | advance => exact absurd hp (by simp [Call.Plain])
  | reportUnreachable id =>
    obtain ⟨⟨n1, e⟩, h1, h⟩ := Res.bind_eq_ok.1 h
    cases h
    exact loc rfl (by simp) (by simp) (by simp) rfl (by simp [Message.Leads]) h1
  | reportSnapshot id f =>
    obtain ⟨⟨n1, e⟩, h1, h⟩ := Res.bind_eq_ok.1 h
    cases h
    exact loc rfl (by simp) (by simp) (by simp) rfl (by simp [Message.Leads]) h1
  | transferLeader id =>
    obtain ⟨⟨n1, e⟩, h1, h⟩ := Res.bind_eq_ok.1 h
    cases h
    exact loc rfl (by simp) (by simp) (by simp) rfl (by simp [Message.Leads]) h1
  | readIndex ctx =>
    obtain ⟨⟨n1, e⟩, h1, h⟩ := Res.bind_eq_ok.1 h
    cases h
    exact loc rfl (by simp) (by simp) (by simp) rfl (by simp [Message.Leads]) h1

/-- The handling of a Ready on a follower. -/
theorem Call.held_ready {env : Env} {c : Call} {a b : RawNode} (hp : ¬ c.Plain) (hf : a.raft.state = .follower) (h : c.run env a = .ok b) :
    Held a.raft b.raft := by
  cases c with
  | getReady =>
    obtain ⟨⟨n1, e⟩, h1, h⟩ := Res.bind_eq_ok.1 h
    cases h
    obtain ⟨_, rfl⟩ := getReady_ok h1
    unfold RawNode.acceptReady
    dsimp only
    exact .of (by (repeat' split) <;> rfl)
  | advance =>
    have h : a.advance = .ok b := h
    unfold RawNode.advance at h
    split at h
    · cases h
    obtain ⟨r3, h7, h8⟩ := Res.bind_eq_ok.1 h
    simp only [Res.pure_eq, Res.ok.injEq] at h8
    subst h8
    exact .still (Still.advance h7)
  | applyConfChange cc =>
    obtain ⟨⟨n1, cs⟩, h1, h⟩ := Res.bind_eq_ok.1 h
    cases h
    unfold RawNode.applyConfChange at h1
    obtain ⟨⟨r, cs'⟩, h2, h1⟩ := Res.bind_eq_ok.1 h1
    simp only [Res.pure_eq, Res.ok.injEq, Prod.mk.injEq] at h1
    obtain ⟨rfl, rfl⟩ := h1
    unfold Raft.applyConfChange at h2
    dsimp only at h2
    split at h2
    · cases h2
    · rename_i cfg prs he
      have := Raft.switchToConfig_follower (by rw [hf]; nofun) h2
      show Held a.raft r
      rw [this]
      exact .of rfl
  | _ => exact absurd trivial hp

/-- **C92**. A node, not leader of term `T` and not ahead of it, hears from a leader of term `T`, and from then on again before
`election_tick` ticks have passed since the last time; meanwhile anything else can happen that does not upset it (proposals,
requests, Readys, configuration changes, any messages of its term or older ones, pre-vote requests of any term and, with
`check_quorum`, vote requests of any term): it is a follower of term `T` throughout, and knows a leader. It never campaigns. -/
theorem C92_looked_after {env : Env} {x : NodeHist} {T k : Nat} {n' : RawNode} (hx : NodeReach env x)
    (hT : x.node.raft.term < T ∨ (x.node.raft.term = T ∧ x.node.raft.state ≠ .leader))
    (h : LookedAfter env T x.node.raft.electionTimeout x.node k n') :
    n'.raft.state = .follower ∧ n'.raft.term = T ∧ n'.raft.lead ≠ 0 := by
  have hpos := hx.timeout_pos
  have htm : 0 ≤ toI32 ((x.node.raft.electionTimeout : Int) - 1) ∧ TimerOk x.node.raft :=
    NodeReach.inv_keep (fun n => 0 ≤ toI32 ((n.raft.electionTimeout : Int) - 1) ∧ TimerOk n.raft)
      (fun c st rng n h => ⟨(RawNode.new_ok h).1.tick_ok, (RawNode.new_ok h).1.timer⟩)
      (fun a b k ⟨h1, h2⟩ => by
        have he : b.raft.electionTimeout = a.raft.electionTimeout := congrArg Consts.electionTimeout k.1
        exact ⟨by rw [he]; exact h1, k.timerOk h1 h2⟩) hx
  suffices hh : Tended T x.node.raft.electionTimeout k n'.raft from ⟨hh.state, hh.term, hh.lead⟩
  induction h with
  | start c l hh hl hs h =>
    exact Call.tends hh hl hs hT rfl hpos htm h
  | hear c l _ hh hl hs h ih =>
    exact Call.tends hh hl hs (Or.inr ⟨ih.term, by rw [ih.state]; nofun⟩) ih.timeout hpos ih.timer h
  | call c _ hp hs hu h0 h hk ih => exact Call.tended hp hs hu h0 ih h hk
  | @ready ccs k a b rd _ h ih =>
    refine RawNode.handleReady_only (fun a => Tended T x.node.raft.electionTimeout k a.raft) ?_ ?_ h ih
    · intro c a b hc h ia
      have hs : c.Stamped ∧ ¬ c.Plain := by rcases hc with rfl | rfl | ⟨cc, _, rfl⟩ <;> exact ⟨trivial, fun h => h⟩
      exact ia.kept (Call.run_path hs.1 h).1 (Call.held_ready hs.2 ia.state h)
    · intro a st ia
      exact ⟨ia.state, ia.term, ia.lead, ia.elapsed, ia.soon, ia.timeout, ia.timer⟩
  | store st _ ih => exact ⟨ih.state, ih.term, ih.lead, ih.elapsed, ih.soon, ih.timeout, ih.timer⟩

/-! A concrete case: node 2 of three voters, with `check_quorum`, follows node 1. -/
namespace TendedDemo

def node (cq : Bool) (cs : List Call) : RawNode :=
  match (do
    let n ← RawNode.new Demo.env { Demo.cfg 2 with checkQuorum := cq } Demo.store 0
    cs.foldlM (fun n c => c.run Demo.env n) n : Res RawNode) with
  | .ok n => n
  | _ => default

def beat : Call := .step { type := .heartbeat, src := 1, «to» := 2, term := 1 }
def rival : Call := .step { type := .vote, src := 3, «to» := 2, term := 7 }

/-- Heartbeat, tick, a vote request of term 7, heartbeat. -/
example : NodeReach Demo.env ⟨node true [], []⟩ ∧ LookedAfter Demo.env 1 10 (node true []) 0 (node true [beat, .tick, rival, beat]) ∧
    (node true []).raft.electionTimeout = 10 ∧ (node true []).raft.term = 0 := by
  refine ⟨.start { Demo.cfg 2 with checkQuorum := true } Demo.store 0 (by decide +kernel), ?_, by decide +kernel, by decide +kernel⟩
  have hb : beat.HearsFrom 1 1 := ⟨_, rfl, Or.inr (Or.inl rfl), rfl, rfl⟩
  have hs : beat.Stamped := fun _ => by decide
  have l1 : LookedAfter Demo.env 1 10 (node true []) 0 (node true [beat]) := .start beat 1 hb (by decide) hs (by decide +kernel)
  have l2 := l1.call (b := node true [beat, .tick]) .tick trivial trivial (fun h => h) (fun T ⟨m, h, _⟩ => by cases h) (by decide +kernel) (by decide)
  have l3 := l2.call (b := node true [beat, .tick, rival]) rival trivial (fun h => by rcases h with h | h | h <;> cases h)
    (by rintro (h | ⟨_, _, _, h⟩)
        · cases h
        · exact h ⟨by decide +kernel, rfl, by decide⟩)
    (fun T ⟨m, h, h2, h3, _⟩ => by cases h; cases h3) (by decide +kernel) (by decide)
  exact l3.hear (b := node true [beat, .tick, rival, beat]) beat 1 hb (by decide) hs (by decide +kernel)

/-- Left alone it campaigns; without `check_quorum` the rival takes it away from its leader. -/
example : (node true ([beat] ++ List.replicate 9 .tick)).raft.state = .follower ∧ (node true ([beat] ++ List.replicate 19 .tick)).raft.state = .candidate ∧
    (node true [beat, rival]).raft.term = 1 ∧ (node false [beat, rival]).raft.term = 7 := by decide +kernel

end TendedDemo
end Craft
