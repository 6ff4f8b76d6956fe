import Verif.Node.Sim
import Verif.Node.Facts

/-! # What a leader's work leaves alone

Sending, committing, answering reads and counting acknowledgements change a leader's log, its peers' progress, its reads and its
outbox, and nothing else: not its role, its timers or a pending leadership transfer. -/

namespace Craft

/-- The rest of a node, and the configuration. -/
def Raft.rest (r : Raft) : Raft :=
  { r with log := {}, msgs := [], trk := { r.trk with progress := [] }, readOnly := {}, readStates := []
           pendingReadIndexMessages := [], pendingConfIndex := 0, uncommittedSize := 0 }

/-- Nothing but progress, log and reads changes, and nobody is told to campaign. -/
def Still (a b : Raft) : Prop := b.rest = a.rest ∧ ∃ ms, b.msgs = a.msgs ++ ms ∧ ∀ m ∈ ms, m.type ≠ .timeoutNow

namespace Still
variable {env : Env} {a b c r r' : Raft}

theorem of (h1 : b.rest = a.rest) (h2 : b.msgs = a.msgs) : Still a b := ⟨h1, [], by rw [h2, List.append_nil], nofun⟩

theorem refl : Still a a := .of rfl rfl

theorem trans (h1 : Still a b) (h2 : Still b c) : Still a c := by
  obtain ⟨e1, m1, k1, t1⟩ := h1
  obtain ⟨e2, m2, k2, t2⟩ := h2
  refine ⟨e2.trans e1, m1 ++ m2, by rw [k2, k1, List.append_assoc], fun m hm => ?_⟩
  rcases List.mem_append.1 hm with h | h
  · exact t1 m h
  · exact t2 m h

theorem state (h : Still a b) : b.state = a.state := (congrArg Raft.state h.1 :)
theorem term (h : Still a b) : b.term = a.term := (congrArg Raft.term h.1 :)
theorem id (h : Still a b) : b.id = a.id := (congrArg Raft.id h.1 :)
theorem vote (h : Still a b) : b.vote = a.vote := (congrArg Raft.vote h.1 :)
theorem lead (h : Still a b) : b.lead = a.lead := (congrArg Raft.lead h.1 :)
theorem transferee (h : Still a b) : b.leadTransferee = a.leadTransferee := (congrArg Raft.leadTransferee h.1 :)
theorem elapsed (h : Still a b) : b.electionElapsed = a.electionElapsed := (congrArg Raft.electionElapsed h.1 :)
theorem beats (h : Still a b) : b.heartbeatElapsed = a.heartbeatElapsed := (congrArg Raft.heartbeatElapsed h.1 :)
theorem timeout (h : Still a b) : b.electionTimeout = a.electionTimeout := (congrArg Raft.electionTimeout h.1 :)
theorem config (h : Still a b) : b.trk.config = a.trk.config := (congrArg (fun r : Raft => r.trk.config) h.1 :)

theorem send {m : Message} (hm : m.type ≠ .timeoutNow) (h : r.send m = .ok r') : Still r r' := by
  rw [Raft.send_ok h]
  refine ⟨rfl, [r.outMsg m], rfl, fun x hx => ?_⟩
  rw [List.mem_singleton] at hx
  subst hx
  have : (r.outMsg m).type = m.type := by
    unfold Raft.outMsg
    by_cases h0 : m.src = 0 <;> cases ht : m.type <;> simp [h0, ht]
  rw [this]; exact hm

theorem setPr (id : Nat) (p : Progress) : Still r (r.setPr id p) := .of rfl rfl

theorem maybeSendAppend {to : Nat} {se d : Bool} (h : r.maybeSendAppend env to se = .ok (r', d)) : Still r r' := by
  obtain ⟨pr, _, ⟨rfl, _⟩ | ⟨_, _, t, es, p', _, _, _, _, h2⟩ | ⟨_, _, _, _, _, h2⟩⟩ := Raft.maybeSendAppend_cases h
  · exact .refl
  · exact .trans (.setPr to p') (send (by nofun) h2)
  · exact .trans (.setPr to _) (send (by nofun) h2)

theorem sendAppend {to : Nat} (h : r.sendAppend env to = .ok r') : Still r r' := by
  unfold Raft.sendAppend at h
  obtain ⟨⟨r2, d⟩, h2, h⟩ := Res.bind_eq_ok.1 h
  cases h
  exact maybeSendAppend h2

theorem sendLoop {to : Nat} (k : Nat) (h : Raft.sendLoop env to k r = .ok r') : Still r r' := by
  induction k generalizing r with
  | zero => cases h
  | succ k ih =>
    unfold Raft.sendLoop at h
    obtain ⟨⟨r2, d⟩, h2, h⟩ := Res.bind_eq_ok.1 h
    dsimp only at h
    split at h
    · exact (maybeSendAppend h2).trans (ih h)
    · cases h; exact maybeSendAppend h2

theorem visit {f : Raft → Nat → Res Raft} (hf : ∀ {a b : Raft} {i : Nat}, f a i = .ok b → Still a b) (ids : List Nat)
    (h : Raft.visitOthers f ids r = .ok r') : Still r r' := by
  induction ids generalizing r with
  | nil => cases h; exact .refl
  | cons id ids ih =>
    unfold Raft.visitOthers at h
    split at h
    · exact ih h
    · obtain ⟨r2, h2, h⟩ := Res.bind_eq_ok.1 h
      exact (hf h2).trans (ih h)

theorem bcastAppend (h : r.bcastAppend env = .ok r') : Still r r' := visit sendAppend _ h

theorem sendHeartbeat {to : Nat} {ctx : Bytes} (h : r.sendHeartbeat to ctx = .ok r') : Still r r' := by
  unfold Raft.sendHeartbeat at h
  obtain ⟨p, hp, h⟩ := Res.bind_eq_ok.1 h
  exact send (by nofun) h

theorem bcastHeartbeatWithCtx {ctx : Bytes} (h : r.bcastHeartbeatWithCtx ctx = .ok r') : Still r r' := visit sendHeartbeat _ h

theorem bcastHeartbeat (h : r.bcastHeartbeat = .ok r') : Still r r' := bcastHeartbeatWithCtx h

theorem maybeCommit {d : Bool} (h : r.maybeCommit = .ok (r', d)) : Still r r' := by
  unfold Raft.maybeCommit at h
  obtain ⟨⟨l, d2⟩, h2, h⟩ := Res.bind_eq_ok.1 h
  cases h
  exact .of rfl rfl

theorem appendEntry {es : List Entry} {d : Bool} (h : r.appendEntry es = .ok (r', d)) : Still r r' := by
  unfold Raft.appendEntry at h
  dsimp only at h
  cases hq : r.increaseUncommittedSize (Raft.stamp r.term (r.log.lastIndex + 1) es) with
  | mk r1 ok =>
    have h1 : Still r r1 := by
      unfold Raft.increaseUncommittedSize at hq
      dsimp only at hq
      split at hq <;> cases hq
      · exact .refl
      · exact .of rfl rfl
    rw [hq] at h
    dsimp only at h
    split at h
    · cases h; exact h1
    · obtain ⟨l, _, h⟩ := Res.bind_eq_ok.1 h
      obtain ⟨p, _, h⟩ := Res.bind_eq_ok.1 h
      obtain ⟨⟨r2, d2⟩, h3, h⟩ := Res.bind_eq_ok.1 h
      cases h
      have s := maybeCommit h3
      exact h1.trans (.trans (.of rfl rfl) s)

theorem respondReadIndex {req : Message} {i : Nat} (h : r.respondReadIndex req i = .ok r') : Still r r' := by
  unfold Raft.respondReadIndex at h
  obtain ⟨⟨r2, m⟩, h2, h⟩ := Res.bind_eq_ok.1 h
  unfold Raft.responseToReadIndexReq at h2
  split at h2
  · obtain ⟨ctx, _, h2⟩ := Res.bind_eq_ok.1 h2
    cases h2
    dsimp only at h
    rw [if_neg (by intro h; exact h rfl)] at h
    cases h
    exact .of rfl rfl
  · cases h2
    dsimp only at h
    split at h
    · exact send (by nofun) h
    · cases h; exact .refl

theorem respondAll (rss : List ReadIndexStatus) (h : Raft.respondAll rss r = .ok r') : Still r r' := by
  induction rss generalizing r with
  | nil => cases h; exact .refl
  | cons rs rss ih =>
    unfold Raft.respondAll at h
    obtain ⟨r2, h2, h⟩ := Res.bind_eq_ok.1 h
    exact (respondReadIndex h2).trans (ih h)

theorem sendMsgReadIndexResponse {m : Message} (h : r.sendMsgReadIndexResponse m = .ok r') : Still r r' := by
  unfold Raft.sendMsgReadIndexResponse at h
  split at h
  · obtain ⟨ro, _, h⟩ := Res.bind_eq_ok.1 h
    obtain ⟨ctx, _, h⟩ := Res.bind_eq_ok.1 h
    have s := bcastHeartbeatWithCtx h
    exact .trans (.of rfl rfl) s
  · exact respondReadIndex h

theorem releaseLoop (ms : List Message) (h : Raft.releaseLoop ms r = .ok r') : Still r r' := by
  induction ms generalizing r with
  | nil => cases h; exact .refl
  | cons m ms ih =>
    unfold Raft.releaseLoop at h
    obtain ⟨r2, h2, h⟩ := Res.bind_eq_ok.1 h
    exact (sendMsgReadIndexResponse h2).trans (ih h)

theorem releasePending (h : r.releasePendingReadIndexMessages = .ok r') : Still r r' := by
  unfold Raft.releasePendingReadIndexMessages at h
  obtain ⟨d, _, h⟩ := Res.bind_eq_ok.1 h
  split at h
  · cases h; exact .refl
  · have s := releaseLoop _ h
    exact .trans (.of rfl rfl) s

theorem leaderProp {m : Message} {e : Option Err} (h : r.leaderProp env m = .ok (r', e)) : Still r r' := by
  unfold Raft.leaderProp at h
  split at h
  · cases h
  split at h
  · cases h; exact .refl
  split at h
  · cases h; exact .refl
  obtain ⟨⟨es, pci⟩, _, h⟩ := Res.bind_eq_ok.1 h
  dsimp only at h
  obtain ⟨⟨r2, d⟩, h2, h⟩ := Res.bind_eq_ok.1 h
  have s := Still.trans (.of rfl rfl : Still r { r with pendingConfIndex := pci }) (appendEntry h2)
  dsimp only at h
  split at h
  · cases h; exact s
  · obtain ⟨r3, h3, h⟩ := Res.bind_eq_ok.1 h
    cases h
    exact s.trans (bcastAppend h3)

theorem leaderReadIndex {m : Message} (h : r.leaderReadIndex m = .ok r') : Still r r' := by
  unfold Raft.leaderReadIndex at h
  split at h
  · exact respondReadIndex h
  · obtain ⟨d, _, h⟩ := Res.bind_eq_ok.1 h
    split at h
    · cases h; exact .of rfl rfl
    · exact sendMsgReadIndexResponse h

theorem leaderAppReject {m : Message} {p : Progress} (h : r.leaderAppReject env m p = .ok r') : Still r r' := by
  unfold Raft.leaderAppReject at h
  have key : ∀ np, (match p.maybeDecrTo m.index np with
      | (pr, decr) =>
        if decr = true then
          Raft.sendAppend env (r.setPr m.src (if pr.state = PrState.replicate then pr.becomeProbe else pr)) m.src
        else pure (r.setPr m.src pr)) = .ok r' → Still r r' := by
    intro np h
    generalize p.maybeDecrTo m.index np = x at h
    obtain ⟨p1, d⟩ := x
    dsimp only at h
    split at h
    · exact .trans (.setPr _ _) (sendAppend h)
    · cases h; exact .setPr _ _
  dsimp only at h
  split at h
  · obtain ⟨np, _, h⟩ := Res.bind_eq_ok.1 h
    exact key np h
  · exact key _ h

/-- An acknowledgement: the last thing that may happen is that the sender, the target of a transfer, is told to campaign. -/
theorem leaderAppAccept {m : Message} {p : Progress} (h : r.leaderAppAccept env m p = .ok r') :
    Still r r' ∨ ∃ x q, Still r x ∧ x.pr m.src = some q ∧ m.src = x.leadTransferee ∧ q.mtch = x.log.lastIndex ∧ x.sendTimeoutNow m.src = .ok r' := by
  unfold Raft.leaderAppAccept at h
  dsimp only at h
  split at h
  · cases h; exact Or.inl (.setPr _ _)
  obtain ⟨q, h⟩ : ∃ q, (do
          let (r, c) ← (r.setPr m.src q).maybeCommit
          let r ←
            if c then do
              let r ← r.releasePendingReadIndexMessages
              r.bcastAppend env
            else if p.isPaused then r.sendAppend env m.src
            else pure r
          let r ← Raft.sendLoop env m.src (r.log.lastIndex + 2) r
          let pr ← r.getPr m.src "raft.cc:1242"
          if m.src = r.leadTransferee ∧ pr.mtch = r.log.lastIndex then r.sendTimeoutNow m.src
          else pure r) = .ok r' := by
    split at h
    · exact ⟨_, h⟩
    · split at h <;> exact ⟨_, h⟩
    · obtain ⟨infl, _, h⟩ := Res.bind_eq_ok.1 h
      exact ⟨_, h⟩
  obtain ⟨⟨r2, d⟩, h2, h⟩ := Res.bind_eq_ok.1 h
  have s2 : Still r r2 := .trans (.setPr m.src q) (maybeCommit h2)
  dsimp only at h
  obtain ⟨r3, s3, h⟩ : ∃ r3, Still r r3 ∧ (do
          let r ← Raft.sendLoop env m.src (r3.log.lastIndex + 2) r3
          let pr ← r.getPr m.src "raft.cc:1242"
          if m.src = r.leadTransferee ∧ pr.mtch = r.log.lastIndex then r.sendTimeoutNow m.src
          else pure r) = .ok r' := by
    split at h
    · obtain ⟨r4, h4, h⟩ := Res.bind_eq_ok.1 h
      obtain ⟨r3, h3, h⟩ := Res.bind_eq_ok.1 h
      exact ⟨r3, s2.trans ((releasePending h4).trans (bcastAppend h3)), h⟩
    · split at h
      · obtain ⟨r3, h3, h⟩ := Res.bind_eq_ok.1 h
        exact ⟨r3, s2.trans (sendAppend h3), h⟩
      · exact ⟨r2, s2, h⟩
  obtain ⟨r5, h5, h⟩ := Res.bind_eq_ok.1 h
  have s5 := s3.trans (sendLoop _ h5)
  obtain ⟨q, hq, h⟩ := Res.bind_eq_ok.1 h
  split at h
  · rename_i hc
    exact Or.inr ⟨r5, q, s5, Raft.getPr_ok hq, hc.1, hc.2, h⟩
  · cases h; exact Or.inl s5

theorem leaderHeartbeatResp {m : Message} {p : Progress} (h : r.leaderHeartbeatResp env m p = .ok r') : Still r r' := by
  unfold Raft.leaderHeartbeatResp at h
  dsimp only at h
  obtain ⟨q, h⟩ : ∃ q : Progress, (do
      let r ← if q.mtch < (r.setPr m.src q).log.lastIndex then (r.setPr m.src q).sendAppend env m.src else pure (r.setPr m.src q)
      if r.readOnly.option ≠ ReadOnlyOption.safe ∨ m.context = [] then pure r
      else
        let (ro, acks) := r.readOnly.recvAck m.src m.context
        let r := { r with readOnly := ro }
        if r.trk.config.voters.voteResult acks ≠ VoteState.won then pure r
        else
          let (ro, rss) ← r.readOnly.advance m.context
          Raft.respondAll rss { r with readOnly := ro }) = .ok r' := by
    split at h
    · obtain ⟨infl, _, h⟩ := Res.bind_eq_ok.1 h
      exact ⟨_, h⟩
    · exact ⟨_, h⟩
  obtain ⟨r2, s2, h⟩ : ∃ r2, Still r r2 ∧ (
      if r2.readOnly.option ≠ ReadOnlyOption.safe ∨ m.context = [] then pure r2
      else
        let (ro, acks) := r2.readOnly.recvAck m.src m.context
        let r := { r2 with readOnly := ro }
        if r.trk.config.voters.voteResult acks ≠ VoteState.won then pure r
        else do
          let (ro, rss) ← r.readOnly.advance m.context
          Raft.respondAll rss { r with readOnly := ro }) = .ok r' := by
    dsimp only at h
    split at h
    · obtain ⟨r2, h2, h⟩ := Res.bind_eq_ok.1 h
      exact ⟨r2, .trans (.setPr m.src q) (sendAppend h2), h⟩
    · exact ⟨_, .setPr m.src q, h⟩
  split at h
  · cases h; exact s2
  · dsimp only at h
    split at h
    · cases h; exact s2.trans (.of rfl rfl)
    · obtain ⟨⟨ro, rss⟩, _, h⟩ := Res.bind_eq_ok.1 h
      have s := respondAll _ h
      exact s2.trans (.trans (.of rfl rfl) s)

theorem leaderSnapStatus {m : Message} {p : Progress} : Still r (r.leaderSnapStatus m p) := by
  unfold Raft.leaderSnapStatus
  split
  · exact .refl
  · exact .setPr _ _

theorem switchSend (h : r.switchSend env = .ok r') : Still r r' := by
  unfold Raft.switchSend at h
  obtain ⟨⟨r2, d⟩, h2, h⟩ := Res.bind_eq_ok.1 h
  refine (maybeCommit h2).trans ?_
  dsimp only at h
  split at h
  · exact bcastAppend h
  · revert h
    generalize r2.trk.progress.keys = ids
    intro h
    clear h2
    induction ids generalizing r2 with
    | nil => cases h; exact .refl
    | cons id ids ih =>
      unfold Raft.visitSend at h
      obtain ⟨⟨r3, d3⟩, h3, h⟩ := Res.bind_eq_ok.1 h
      exact (maybeSendAppend h3).trans (ih r3 h)

end Still
end Craft
