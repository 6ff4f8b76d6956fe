import Verif.Node.Flow

/-! # Whom a leader takes to be alive

Unless peer `j` answers, nothing a leader does makes it count `j` as active; and its clocks go on, unless it is asked for a transfer. -/

namespace Craft

/-- No new sign of life of `j`, and the clocks are as they were (the election clock may be set back if `X`). -/
def Deaf (X : Prop) (j : Nat) (a b : Raft) : Prop :=
  b.id = a.id ∧ (b.heartbeatElapsed = a.heartbeatElapsed ∧ (¬ X → b.electionElapsed = a.electionElapsed)) ∧
    ∀ q, b.pr j = some q → q.recentActive = true → ∃ p, a.pr j = some p ∧ p.recentActive = true

namespace Deaf
variable {env : Env} {X : Prop} {j : Nat} {a b c r r' : Raft}

theorem of (h0 : b.id = a.id) (h1 : (b.heartbeatElapsed, b.electionElapsed) = (a.heartbeatElapsed, a.electionElapsed)) (h2 : b.pr j = a.pr j) :
    Deaf X j a b := ⟨h0, ⟨(Prod.mk.inj h1).1, fun _ => (Prod.mk.inj h1).2⟩, fun q hq h => ⟨q, h2 ▸ hq, h⟩⟩

theorem refl : Deaf X j a a := .of rfl rfl rfl

theorem trans (h1 : Deaf X j a b) (h2 : Deaf X j b c) : Deaf X j a c := by
  obtain ⟨i1, e1, f1⟩ := h1
  obtain ⟨i2, e2, f2⟩ := h2
  refine ⟨i2.trans i1, ⟨e2.1.trans e1.1, fun x => (e2.2 x).trans (e1.2 x)⟩, fun q hq h => ?_⟩
  obtain ⟨p, hp, h⟩ := f2 q hq h
  exact f1 p hp h

theorem id (h : Deaf X j a b) : b.id = a.id := h.1
theorem beats (h : Deaf X j a b) : b.heartbeatElapsed = a.heartbeatElapsed := h.2.1.1
theorem elapsed (h : Deaf X j a b) (hx : ¬ X) : b.electionElapsed = a.electionElapsed := h.2.1.2 hx

theorem setPr_other {v : Nat} {p : Progress} (hv : v ≠ j) : Deaf X j r (r.setPr v p) :=
  .of rfl rfl (AMap.find_insert_ne _ _ hv)

theorem setPr_same {v : Nat} {p p' : Progress} (h : r.pr v = some p) (hp : p'.recentActive = p.recentActive) : Deaf X j r (r.setPr v p') := by
  by_cases hv : v = j
  · subst hv
    refine ⟨rfl, ⟨rfl, fun _ => rfl⟩, fun q hq hr => ⟨p, h, ?_⟩⟩
    have : (r.setPr v p').pr v = some p' := AMap.find_insert_self _ _ _
    rw [this] at hq
    cases hq
    exact hp ▸ hr
  · exact setPr_other hv

theorem send {m : Message} (h : r.send m = .ok r') : Deaf X j r r' := by
  rw [Raft.send_ok h]; exact .of rfl rfl rfl

theorem maybeSendAppend {to : Nat} {se d : Bool} (h : r.maybeSendAppend env to se = .ok (r', d)) : Deaf X j r r' := by
  obtain ⟨pr, hq, ⟨rfl, _⟩ | ⟨hpa, _, t, es, p', _, _, _, hs, h2⟩ | ⟨hpa, _, _, _, _, h2⟩⟩ := Raft.maybeSendAppend_cases h
  · exact .refl
  · refine .trans (setPr_same hq ?_) (send h2)
    rcases hs with ⟨he, rfl⟩ | ⟨e, he, ⟨hst, infl, hi, rfl⟩ | ⟨hst, rfl⟩⟩ <;> rfl
  · exact .trans (setPr_same (p' := pr.becomeSnapshot r.log.snapshot.metadata.index) hq rfl) (send h2)

theorem becomeProbe_active (p : Progress) : p.becomeProbe.recentActive = p.recentActive := by
  unfold Progress.becomeProbe; split <;> rfl

theorem sendAppend {to : Nat} (h : r.sendAppend env to = .ok r') : Deaf X j r r' := by
  unfold Raft.sendAppend at h
  obtain ⟨⟨r2, d⟩, h2, h⟩ := Res.bind_eq_ok.1 h
  cases h
  exact maybeSendAppend h2

theorem sendLoop {to : Nat} (k : Nat) (h : Raft.sendLoop env to k r = .ok r') : Deaf X j r r' := by
  induction k generalizing r with
  | zero => cases h
  | succ k ih =>
    unfold Raft.sendLoop at h
    obtain ⟨⟨r2, d⟩, h2, h⟩ := Res.bind_eq_ok.1 h
    dsimp only at h
    split at h
    · exact (maybeSendAppend h2).trans (ih h)
    · cases h; exact maybeSendAppend h2

theorem visit {f : Raft → Nat → Res Raft} (hf : ∀ {a b : Raft} {i : Nat}, f a i = .ok b → Deaf X j a b) (ids : List Nat)
    (h : Raft.visitOthers f ids r = .ok r') : Deaf X j r r' := by
  induction ids generalizing r with
  | nil => cases h; exact .refl
  | cons id ids ih =>
    unfold Raft.visitOthers at h
    split at h
    · exact ih h
    · obtain ⟨r2, h2, h⟩ := Res.bind_eq_ok.1 h
      exact (hf h2).trans (ih h)

theorem bcastAppend (h : r.bcastAppend env = .ok r') : Deaf X j r r' := visit sendAppend _ h

theorem sendHeartbeat {to : Nat} {ctx : Bytes} (h : r.sendHeartbeat to ctx = .ok r') : Deaf X j r r' := by
  unfold Raft.sendHeartbeat at h
  obtain ⟨p, hp, h⟩ := Res.bind_eq_ok.1 h
  exact send h

theorem bcastHeartbeatWithCtx {ctx : Bytes} (h : r.bcastHeartbeatWithCtx ctx = .ok r') : Deaf X j r r' := visit sendHeartbeat _ h

theorem bcastHeartbeat (h : r.bcastHeartbeat = .ok r') : Deaf X j r r' := bcastHeartbeatWithCtx h

theorem maybeCommit {d : Bool} (h : r.maybeCommit = .ok (r', d)) : Deaf X j r r' := by
  unfold Raft.maybeCommit at h
  obtain ⟨⟨l, b⟩, _, h⟩ := Res.bind_eq_ok.1 h
  cases h
  exact .of rfl rfl rfl

theorem respondReadIndex {req : Message} {i : Nat} (h : r.respondReadIndex req i = .ok r') : Deaf X j r r' := by
  unfold Raft.respondReadIndex at h
  obtain ⟨⟨r2, m⟩, h2, h⟩ := Res.bind_eq_ok.1 h
  unfold Raft.responseToReadIndexReq at h2
  split at h2
  · obtain ⟨ctx, _, h2⟩ := Res.bind_eq_ok.1 h2
    cases h2
    dsimp only at h
    rw [if_neg (by intro h; exact h rfl)] at h
    cases h
    exact .of rfl rfl rfl
  · cases h2
    dsimp only at h
    split at h
    · exact send h
    · cases h; exact .refl

theorem respondAll (rss : List ReadIndexStatus) (h : Raft.respondAll rss r = .ok r') : Deaf X j r r' := by
  induction rss generalizing r with
  | nil => cases h; exact .refl
  | cons rs rss ih =>
    unfold Raft.respondAll at h
    obtain ⟨r2, h2, h⟩ := Res.bind_eq_ok.1 h
    exact (respondReadIndex h2).trans (ih h)

theorem sendMsgReadIndexResponse {m : Message} (h : r.sendMsgReadIndexResponse m = .ok r') : Deaf X j r r' := by
  unfold Raft.sendMsgReadIndexResponse at h
  split at h
  · obtain ⟨ro, _, h⟩ := Res.bind_eq_ok.1 h
    obtain ⟨ctx, _, h⟩ := Res.bind_eq_ok.1 h
    have s : Deaf X j { r with readOnly := _ } r' := bcastHeartbeatWithCtx h
    exact .trans (.of rfl rfl rfl) s
  · exact respondReadIndex h

theorem releaseLoop (ms : List Message) (h : Raft.releaseLoop ms r = .ok r') : Deaf X j r r' := by
  induction ms generalizing r with
  | nil => cases h; exact .refl
  | cons m ms ih =>
    unfold Raft.releaseLoop at h
    obtain ⟨r2, h2, h⟩ := Res.bind_eq_ok.1 h
    exact (sendMsgReadIndexResponse h2).trans (ih h)

theorem releasePending (h : r.releasePendingReadIndexMessages = .ok r') : Deaf X j r r' := by
  unfold Raft.releasePendingReadIndexMessages at h
  obtain ⟨d, _, h⟩ := Res.bind_eq_ok.1 h
  split at h
  · cases h; exact .refl
  · have s : Deaf X j { r with pendingReadIndexMessages := _ } r' := releaseLoop _ h
    exact .trans (.of rfl rfl rfl) s

theorem appendEntry {es : List Entry} {d : Bool} (hj : j ≠ r.id) (h : r.appendEntry es = .ok (r', d)) : Deaf X j r r' := by
  unfold Raft.appendEntry at h
  dsimp only at h
  cases hq : r.increaseUncommittedSize (Raft.stamp r.term (r.log.lastIndex + 1) es) with
  | mk r1 ok =>
    have h1 : Deaf X j r r1 := by
      unfold Raft.increaseUncommittedSize at hq
      dsimp only at hq
      split at hq <;> cases hq
      · exact .refl
      · exact .of rfl rfl rfl
    rw [hq] at h
    dsimp only at h
    split at h
    · cases h; exact h1
    · obtain ⟨l, _, h⟩ := Res.bind_eq_ok.1 h
      obtain ⟨p, _, h⟩ := Res.bind_eq_ok.1 h
      obtain ⟨⟨r2, d2⟩, h3, h⟩ := Res.bind_eq_ok.1 h
      cases h
      have s : Deaf X j (Raft.setPr { r1 with log := l } r1.id (p.maybeUpdate l.lastIndex).1) r2 := maybeCommit h3
      have s2 : Deaf X j { r1 with log := l } (Raft.setPr { r1 with log := l } r1.id (p.maybeUpdate l.lastIndex).1) :=
        .setPr_other (by rw [h1.id]; exact Ne.symm hj)
      exact h1.trans (.trans (.of rfl rfl rfl) (s2.trans s))

theorem leaderProp {m : Message} {e : Option Err} (hj : j ≠ r.id) (h : r.leaderProp env m = .ok (r', e)) : Deaf X j r r' := by
  unfold Raft.leaderProp at h
  split at h
  · cases h
  split at h
  · cases h; exact .refl
  split at h
  · cases h; exact .refl
  obtain ⟨⟨es, pci⟩, _, h⟩ := Res.bind_eq_ok.1 h
  dsimp only at h
  obtain ⟨⟨r2, d⟩, h2, h⟩ := Res.bind_eq_ok.1 h
  have s := Deaf.trans (.of rfl rfl rfl : Deaf X j r { r with pendingConfIndex := pci }) (appendEntry hj h2)
  dsimp only at h
  split at h
  · cases h; exact s
  · obtain ⟨r3, h3, h⟩ := Res.bind_eq_ok.1 h
    cases h
    exact s.trans (bcastAppend h3)

theorem leaderReadIndex {m : Message} (h : r.leaderReadIndex m = .ok r') : Deaf X j r r' := by
  unfold Raft.leaderReadIndex at h
  split at h
  · exact respondReadIndex h
  · obtain ⟨d, _, h⟩ := Res.bind_eq_ok.1 h
    split at h
    · cases h; exact .of rfl rfl rfl
    · exact sendMsgReadIndexResponse h

theorem leaderAppReject {m : Message} {p : Progress} (hm : m.src ≠ j) (h : r.leaderAppReject env m p = .ok r') : Deaf X j r r' := by
  unfold Raft.leaderAppReject at h
  have key : ∀ np, (match p.maybeDecrTo m.index np with
      | (pr, decr) =>
        if decr = true then
          Raft.sendAppend env (r.setPr m.src (if pr.state = PrState.replicate then pr.becomeProbe else pr)) m.src
        else pure (r.setPr m.src pr)) = .ok r' → Deaf X j r r' := by
    intro np h
    generalize p.maybeDecrTo m.index np = x at h
    obtain ⟨p1, d⟩ := x
    dsimp only at h
    split at h
    · exact .trans (.setPr_other hm) (sendAppend h)
    · cases h; exact .setPr_other hm
  dsimp only at h
  split at h
  · obtain ⟨np, _, h⟩ := Res.bind_eq_ok.1 h
    exact key np h
  · exact key _ h

theorem timeoutNow {to : Nat} (h : r.sendTimeoutNow to = .ok r') : Deaf X j r r' := send h

theorem leaderAppAccept {m : Message} {p : Progress} (hm : m.src ≠ j) (h : r.leaderAppAccept env m p = .ok r') : Deaf X j r r' := by
  unfold Raft.leaderAppAccept at h
  dsimp only at h
  split at h
  · cases h; exact .setPr_other hm
  obtain ⟨q, h⟩ : ∃ q, (do
          let (r, c) ← (r.setPr m.src q).maybeCommit
          let r ←
            if c then do
              let r ← r.releasePendingReadIndexMessages
              r.bcastAppend env
            else if p.isPaused then r.sendAppend env m.src
            else pure r
          let r ← Raft.sendLoop env m.src (r.log.lastIndex + 2) r
          let pr ← r.getPr m.src "raft.cc:1242"
          if m.src = r.leadTransferee ∧ pr.mtch = r.log.lastIndex then r.sendTimeoutNow m.src
          else pure r) = .ok r' := by
    split at h
    · exact ⟨_, h⟩
    · split at h <;> exact ⟨_, h⟩
    · obtain ⟨infl, _, h⟩ := Res.bind_eq_ok.1 h
      exact ⟨_, h⟩
  obtain ⟨⟨r2, d⟩, h2, h⟩ := Res.bind_eq_ok.1 h
  have s2 : Deaf X j r r2 := .trans (.setPr_other (v := m.src) (p := q) hm) (maybeCommit h2)
  dsimp only at h
  obtain ⟨r3, s3, h⟩ : ∃ r3, Deaf X j r r3 ∧ (do
          let r ← Raft.sendLoop env m.src (r3.log.lastIndex + 2) r3
          let pr ← r.getPr m.src "raft.cc:1242"
          if m.src = r.leadTransferee ∧ pr.mtch = r.log.lastIndex then r.sendTimeoutNow m.src
          else pure r) = .ok r' := by
    split at h
    · obtain ⟨r4, h4, h⟩ := Res.bind_eq_ok.1 h
      obtain ⟨r3, h3, h⟩ := Res.bind_eq_ok.1 h
      exact ⟨r3, s2.trans ((releasePending h4).trans (bcastAppend h3)), h⟩
    · split at h
      · obtain ⟨r3, h3, h⟩ := Res.bind_eq_ok.1 h
        exact ⟨r3, s2.trans (sendAppend h3), h⟩
      · exact ⟨r2, s2, h⟩
  obtain ⟨r5, h5, h⟩ := Res.bind_eq_ok.1 h
  have s5 := s3.trans (sendLoop _ h5)
  obtain ⟨q, hq, h⟩ := Res.bind_eq_ok.1 h
  split at h
  · exact s5.trans (timeoutNow h)
  · cases h; exact s5

theorem leaderHeartbeatResp {m : Message} {p : Progress} (hm : m.src ≠ j) (h : r.leaderHeartbeatResp env m p = .ok r') : Deaf X j r r' := by
  unfold Raft.leaderHeartbeatResp at h
  dsimp only at h
  obtain ⟨q, h⟩ : ∃ q : Progress, (do
      let r ← if q.mtch < (r.setPr m.src q).log.lastIndex then (r.setPr m.src q).sendAppend env m.src else pure (r.setPr m.src q)
      if r.readOnly.option ≠ ReadOnlyOption.safe ∨ m.context = [] then pure r
      else
        let (ro, acks) := r.readOnly.recvAck m.src m.context
        let r := { r with readOnly := ro }
        if r.trk.config.voters.voteResult acks ≠ VoteState.won then pure r
        else
          let (ro, rss) ← r.readOnly.advance m.context
          Raft.respondAll rss { r with readOnly := ro }) = .ok r' := by
    split at h
    · obtain ⟨infl, _, h⟩ := Res.bind_eq_ok.1 h
      exact ⟨_, h⟩
    · exact ⟨_, h⟩
  obtain ⟨r2, s2, h⟩ : ∃ r2, Deaf X j r r2 ∧ (
      if r2.readOnly.option ≠ ReadOnlyOption.safe ∨ m.context = [] then pure r2
      else
        let (ro, acks) := r2.readOnly.recvAck m.src m.context
        let r := { r2 with readOnly := ro }
        if r.trk.config.voters.voteResult acks ≠ VoteState.won then pure r
        else do
          let (ro, rss) ← r.readOnly.advance m.context
          Raft.respondAll rss { r with readOnly := ro }) = .ok r' := by
    dsimp only at h
    split at h
    · obtain ⟨r2, h2, h⟩ := Res.bind_eq_ok.1 h
      exact ⟨r2, .trans (.setPr_other (v := m.src) (p := q) hm) (sendAppend h2), h⟩
    · exact ⟨_, .setPr_other (v := m.src) (p := q) hm, h⟩
  split at h
  · cases h; exact s2
  · dsimp only at h
    split at h
    · cases h; exact s2.trans (.of rfl rfl rfl)
    · obtain ⟨⟨ro, rss⟩, _, h⟩ := Res.bind_eq_ok.1 h
      have s : Deaf X j { r2 with readOnly := ro } r' := respondAll _ h
      exact s2.trans (.trans (.of rfl rfl rfl) s)

theorem leaderSnapStatus {m : Message} {p : Progress} (hp : r.pr m.src = some p) : Deaf X j r (r.leaderSnapStatus m p) := by
  unfold Raft.leaderSnapStatus
  split
  · exact .refl
  · dsimp only
    refine .setPr_same hp ?_
    split
    · exact becomeProbe_active p
    · exact becomeProbe_active { p with pendingSnapshot := 0 }

/-- A message in which `j` answers the leader. -/
def _root_.Craft.Message.Answers (m : Message) (j : Nat) : Prop := m.src = j ∧ (m.type = .appResp ∨ m.type = .heartbeatResp)

theorem leaderTransfer {m : Message} {p : Progress} (hx : X) (h : r.leaderTransfer env m p = .ok r') : Deaf X j r r' := by
  unfold Raft.leaderTransfer at h
  split at h
  · cases h; exact .refl
  split at h
  · cases h; exact .refl
  dsimp only at h
  have key : ∀ x : Raft, Deaf X j r x → (if m.src = x.id then .ok x
    else if p.mtch = ({ x with electionElapsed := 0, leadTransferee := m.src } : Raft).log.lastIndex then
      ({ x with electionElapsed := 0, leadTransferee := m.src } : Raft).sendTimeoutNow m.src
      else Raft.sendAppend env { x with electionElapsed := 0, leadTransferee := m.src } m.src) = Res.ok r' → Deaf X j r r' := by
    intro x s h
    have s2 : Deaf X j r { x with electionElapsed := 0, leadTransferee := m.src } :=
      s.trans ⟨rfl, ⟨rfl, fun h => absurd hx h⟩, fun q hq hr => ⟨q, hq, hr⟩⟩
    split at h
    · cases h; exact s
    split at h
    · exact s2.trans (timeoutNow h)
    · exact s2.trans (sendAppend h)
  by_cases c : r.leadTransferee ≠ 0
  · simp only [if_pos c] at h
    exact key { r with leadTransferee := 0 } (.of rfl rfl rfl) h
  · simp only [if_neg c] at h
    exact key r .refl h

theorem stepLeader {im : Message} {e : Option Err} (hj : j ≠ r.id) (hm : ¬ im.Answers j) (hc : im.type ≠ .checkQuorum) (hx : im.type = .transferLeader → X)
    (h : r.stepLeader env im = .ok (r', e)) : Deaf X j r r' := by
  unfold Raft.stepLeader at h
  have rest : ∀ {x : Res (Raft × Option Err)}, (∀ p, r.pr im.src = some p → (match im.type with
      | .appResp => do
        let pr := { p with recentActive := true }
        let r := r.setPr im.src pr
        let r ← if im.reject then r.leaderAppReject env im pr else r.leaderAppAccept env im pr
        pure (r, none)
      | .heartbeatResp => do let r ← r.leaderHeartbeatResp env im p; pure (r, none)
      | .snapStatus => .ok (r.leaderSnapStatus im p, none)
      | .unreachable =>
        .ok (if p.state = .replicate then r.setPr im.src p.becomeProbe else r, none)
      | .transferLeader => do let r ← r.leaderTransfer env im p; pure (r, none)
      | _ => .ok (r, none)) = Res.ok (r', e) → Deaf X j r r') := by
    intro _ p hp h
    cases ht : im.type <;> simp only [ht] at h
    case appResp =>
      have hs : im.src ≠ j := fun x => hm ⟨x, Or.inl ht⟩
      have s0 : Deaf X j r (r.setPr im.src { p with recentActive := true }) := .setPr_other hs
      split at h
      · obtain ⟨r2, h2, h⟩ := Res.bind_eq_ok.1 h
        cases h
        exact s0.trans (leaderAppReject hs h2)
      · obtain ⟨r2, h2, h⟩ := Res.bind_eq_ok.1 h
        cases h
        exact s0.trans (leaderAppAccept hs h2)
    case heartbeatResp =>
      obtain ⟨r2, h2, h⟩ := Res.bind_eq_ok.1 h
      cases h
      exact leaderHeartbeatResp (fun x => hm ⟨x, Or.inr ht⟩) h2
    case snapStatus => cases h; exact leaderSnapStatus hp
    case unreachable =>
      cases h
      split
      · exact setPr_same hp (becomeProbe_active p)
      · exact .refl
    case transferLeader =>
      obtain ⟨r2, h2, h⟩ := Res.bind_eq_ok.1 h
      cases h
      exact leaderTransfer (hx ht) h2
    all_goals (cases h; exact .refl)
  split at h
  · obtain ⟨r2, h2, h⟩ := Res.bind_eq_ok.1 h
    cases h
    exact bcastHeartbeat h2
  · rename_i ht
    exact absurd ht hc
  · exact leaderProp hj h
  · obtain ⟨r2, h2, h⟩ := Res.bind_eq_ok.1 h
    cases h
    exact leaderReadIndex h2
  · split at h
    · cases h; exact .refl
    · rename_i p hp
      exact rest (x := .ok (r', e)) p hp h

theorem stepVote {m : Message} (hx : m.type = .vote → m.src = r.vote ∨ r.vote = 0 → X) (h : r.stepVote m = .ok r') : Deaf X j r r' := by
  unfold Raft.stepVote at h
  obtain ⟨up, hup, h⟩ := Res.bind_eq_ok.1 h
  obtain ⟨_, _, h⟩ := Res.bind_eq_ok.1 h
  obtain ⟨rt, hrt, h⟩ := Res.bind_eq_ok.1 h
  have hr : rt = .voteResp ∨ rt = .preVoteResp := by
    unfold voteRespMsgType at hrt
    split at hrt <;> cases hrt
    · exact Or.inl rfl
    · exact Or.inr rfl
  have hl : rt ≠ .snap ∧ rt ≠ .app := by rcases hr with rfl | rfl <;> exact ⟨nofun, nofun⟩
  split at h
  · rename_i hu
    obtain ⟨r2, h2, h⟩ := Res.bind_eq_ok.1 h
    have s : Deaf X j r r2 := send h2
    split at h
    · rename_i hty
      cases h
      refine s.trans ⟨rfl, ⟨rfl, fun hX => absurd ?_ hX⟩, fun q hq hr => ⟨q, hq, hr⟩⟩
      rw [hu] at hup
      unfold Raft.canGrant at hup
      split at hup
      · rename_i hc
        rcases hc with hc | hc | hc
        · exact hx hty (Or.inl hc.symm)
        · exact hx hty (Or.inr hc.1)
        · rw [hty] at hc; cases hc.1
      · cases hup
    · cases h; exact s
  · exact send h

theorem stepBody {im : Message} {e : Option Err} (hl : r.state = .leader) (hj : j ≠ r.id) (hm : ¬ im.Answers j) (hc : im.type ≠ .checkQuorum)
    (hx : im.type = .transferLeader ∨ (im.type = .vote ∧ (im.src = r.vote ∨ r.vote = 0)) → X) (h : r.stepBody env im = .ok (r', e)) : Deaf X j r r' := by
  unfold Raft.stepBody at h
  split at h
  · obtain ⟨r2, h2, h⟩ := Res.bind_eq_ok.1 h
    unfold Raft.hup at h2
    rw [if_pos hl] at h2
    cases h2; cases h
    exact .refl
  · obtain ⟨r2, h2, h⟩ := Res.bind_eq_ok.1 h
    cases h; exact stepVote (fun h1 h2 => hx (Or.inr ⟨h1, h2⟩)) h2
  · obtain ⟨r2, h2, h⟩ := Res.bind_eq_ok.1 h
    cases h; exact stepVote (fun h1 h2 => hx (Or.inr ⟨h1, h2⟩)) h2
  · unfold Raft.stepState at h
    rw [hl] at h
    exact stepLeader hj hm hc (fun h => hx (Or.inl h)) h

theorem step {im : Message} {e : Option Err} (hl : r.state = .leader) (hj : j ≠ r.id) (hm : ¬ im.Answers j) (hst : Stamped im) (hc : im.type ≠ .checkQuorum)
    (hx : im.type = .transferLeader ∨ (im.type = .vote ∧ (im.src = r.vote ∨ r.vote = 0)) → X)
    (h : r.step env im = .ok (r', e)) : Deaf X j r r' ∨ r.term < r'.term := by
  unfold Raft.step at h
  obtain ⟨g, hg, k⟩ := Res.bind_eq_ok.1 h
  clear h; have h := k; clear k
  rcases Raft.stepGate_cases hg with ⟨r1, rfl, hgo, rfl | ⟨ha, lead, rfl⟩⟩ | ⟨r1, rfl, _⟩
  · exact Or.inl (stepBody hl hj hm hc hx h)
  · obtain ⟨_, ms, _, hp⟩ := Raft.stepBody_sim (env := env) hgo hst h
    have := hp.npath.term_le
    have e : (r.becomeFollower env im.term lead).core.term = im.term := Raft.reset_term (env := env) r im.term
    rw [e] at this
    exact Or.inr (Nat.lt_of_lt_of_le ha.1 this)
  · dsimp only at h
    cases h
    left
    unfold Raft.stepGate at hg
    split at hg
    · cases hg
    split at hg
    · split at hg
      · obtain ⟨_, _, hg⟩ := Res.bind_eq_ok.1 hg
        cases hg; exact .refl
      · split at hg
        · cases hg
        · split at hg
          · cases hg
          · split at hg <;> cases hg
    split at hg
    · split at hg
      · obtain ⟨r2, h2, hg⟩ := Res.bind_eq_ok.1 hg
        cases hg
        exact send h2
      split at hg
      · obtain ⟨_, _, hg⟩ := Res.bind_eq_ok.1 hg
        obtain ⟨r2, h2, hg⟩ := Res.bind_eq_ok.1 hg
        cases hg
        exact send h2
      · cases hg; exact .refl
    · cases hg

end Deaf
end Craft
