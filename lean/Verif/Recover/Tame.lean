import Verif.Node.Still
import Verif.Node.Prompt

/-! # What sending does to a leader -/

namespace Craft

/-- Sending leaves what is known about a peer alone: the acknowledged index, and where it is probed. -/
def Progress.Sent (p q : Progress) : Prop := q.ack = p.ack ∧ (q.state = .probe → p.state = .probe ∧ q.next = p.next)

theorem Progress.Sent.refl (p : Progress) : p.Sent p := ⟨rfl, fun h => ⟨h, rfl⟩⟩

theorem Progress.Sent.trans {p q s : Progress} (h1 : p.Sent q) (h2 : q.Sent s) : p.Sent s :=
  ⟨h2.1.trans h1.1, fun h => ⟨(h1.2 (h2.2 h).1).1, (h2.2 h).2.trans (h1.2 (h2.2 h).1).2⟩⟩

theorem Raft.SentPr.sent {p q : Progress} {es : List Entry} (h : Raft.SentPr p es q) : p.Sent q := by
  refine ⟨h.ack, fun hs => ?_⟩
  rcases h with ⟨_, rfl⟩ | ⟨e, _, ⟨hr, infl, _, rfl⟩ | ⟨hr, rfl⟩⟩
  · exact ⟨hs, rfl⟩
  · rw [show p.state = .probe from hs] at hr; cases hr
  · exact ⟨hr, rfl⟩

/-- From `a` to `b` messages were queued and reads answered, nothing else. -/
structure Tame (a b : Raft) : Prop where
  rest : b.rest = a.rest
  log : b.log = a.log
  msgs : ∃ ms, b.msgs = a.msgs ++ ms
  prs : ∀ v p, a.pr v = some p → ∃ q, b.pr v = some q ∧ p.Sent q
  size : b.uncommittedSize = a.uncommittedSize

namespace Tame
variable {env : Env} {a b c r r' : Raft}

theorem of (h1 : b.rest = a.rest) (h2 : b.log = a.log) (h3 : b.msgs = a.msgs) (h4 : b.trk.progress = a.trk.progress)
    (h5 : b.uncommittedSize = a.uncommittedSize) : Tame a b :=
  ⟨h1, h2, ⟨[], by rw [h3, List.append_nil]⟩, fun v p hp => ⟨p, by unfold Raft.pr at *; rw [h4]; exact hp, .refl p⟩, h5⟩

theorem refl : Tame a a := .of rfl rfl rfl rfl rfl

theorem trans (h1 : Tame a b) (h2 : Tame b c) : Tame a c := by
  obtain ⟨m1, e1⟩ := h1.msgs
  obtain ⟨m2, e2⟩ := h2.msgs
  refine ⟨h2.rest.trans h1.rest, h2.log.trans h1.log, ⟨m1 ++ m2, by rw [e2, e1, List.append_assoc]⟩, fun v p hp => ?_, h2.size.trans h1.size⟩
  obtain ⟨q, hq, s⟩ := h1.prs v p hp
  obtain ⟨q2, hq2, s2⟩ := h2.prs v q hq
  exact ⟨q2, hq2, s.trans s2⟩

theorem state (h : Tame a b) : b.state = a.state := (congrArg Raft.state h.rest :)
theorem term (h : Tame a b) : b.term = a.term := (congrArg Raft.term h.rest :)
theorem id (h : Tame a b) : b.id = a.id := (congrArg Raft.id h.rest :)
theorem config (h : Tame a b) : b.trk.config = a.trk.config := (congrArg (fun r : Raft => r.trk.config) h.rest :)
theorem checkQuorum (h : Tame a b) : b.checkQuorum = a.checkQuorum := (congrArg Raft.checkQuorum h.rest :)
theorem preVote (h : Tame a b) : b.preVote = a.preVote := (congrArg Raft.preVote h.rest :)
theorem heartbeatTimeout (h : Tame a b) : b.heartbeatTimeout = a.heartbeatTimeout := (congrArg Raft.heartbeatTimeout h.rest :)
theorem mem (h : Tame a b) {m : Message} (hm : m ∈ a.msgs) : m ∈ b.msgs := by
  obtain ⟨ms, e⟩ := h.msgs
  rw [e]; exact List.mem_append.2 (Or.inl hm)

theorem send {m : Message} (h : r.send m = .ok r') : Tame r r' := by
  rw [Raft.send_ok h]
  exact ⟨rfl, rfl, ⟨_, rfl⟩, fun v p hp => ⟨p, hp, .refl p⟩, rfl⟩

theorem setPr {id : Nat} {p q : Progress} (hq : r.pr id = some q) (hp : q.Sent p) : Tame r (r.setPr id p) := by
  refine ⟨rfl, rfl, ⟨[], by rw [List.append_nil]; rfl⟩, fun j s hs => ?_, rfl⟩
  by_cases hj : j = id
  · subst hj
    rw [hq] at hs; cases hs
    exact ⟨p, AMap.find_insert_self _ _ _, hp⟩
  · exact ⟨s, (AMap.find_insert_ne _ _ (Ne.symm hj)).trans hs, .refl s⟩

theorem snapshotPr (p : Progress) (i : Nat) : p.Sent (p.becomeSnapshot i) := ⟨rfl, nofun⟩

theorem maybeSendAppend {to : Nat} {se d : Bool} (h : r.maybeSendAppend env to se = .ok (r', d)) : Tame r r' := by
  obtain ⟨pr, hq, ⟨rfl, _⟩ | ⟨_, _, t, es, p', _, _, _, hs, h2⟩ | ⟨_, _, _, _, _, h2⟩⟩ := Raft.maybeSendAppend_cases h
  · exact .refl
  · exact .trans (.setPr hq hs.sent) (send h2)
  · exact .trans (.setPr (p := pr.becomeSnapshot r.log.snapshot.metadata.index) hq (snapshotPr _ _)) (send h2)

theorem sendAppend {to : Nat} (h : r.sendAppend env to = .ok r') : Tame r r' := by
  unfold Raft.sendAppend at h
  obtain ⟨⟨r2, d⟩, h2, h⟩ := Res.bind_eq_ok.1 h
  cases h
  exact maybeSendAppend h2

theorem sendLoop {to : Nat} (k : Nat) (h : Raft.sendLoop env to k r = .ok r') : Tame r r' := by
  induction k generalizing r with
  | zero => cases h
  | succ k ih =>
    unfold Raft.sendLoop at h
    obtain ⟨⟨r2, d⟩, h2, h⟩ := Res.bind_eq_ok.1 h
    dsimp only at h
    split at h
    · exact (maybeSendAppend h2).trans (ih h)
    · cases h; exact maybeSendAppend h2

theorem visit {f : Raft → Nat → Res Raft} (hf : ∀ {a b : Raft} {i : Nat}, f a i = .ok b → Tame a b) (ids : List Nat)
    (h : Raft.visitOthers f ids r = .ok r') : Tame r r' := by
  induction ids generalizing r with
  | nil => cases h; exact .refl
  | cons id ids ih =>
    unfold Raft.visitOthers at h
    split at h
    · exact ih h
    · obtain ⟨r2, h2, h⟩ := Res.bind_eq_ok.1 h
      exact (hf h2).trans (ih h)

theorem bcastAppend (h : r.bcastAppend env = .ok r') : Tame r r' := visit sendAppend _ h

theorem sendHeartbeat {to : Nat} {ctx : Bytes} (h : r.sendHeartbeat to ctx = .ok r') : Tame r r' := by
  unfold Raft.sendHeartbeat at h
  obtain ⟨p, hp, h⟩ := Res.bind_eq_ok.1 h
  exact send h

theorem bcastHeartbeatWithCtx {ctx : Bytes} (h : r.bcastHeartbeatWithCtx ctx = .ok r') : Tame r r' := visit sendHeartbeat _ h

theorem bcastHeartbeat (h : r.bcastHeartbeat = .ok r') : Tame r r' := bcastHeartbeatWithCtx h

theorem respondReadIndex {req : Message} {i : Nat} (h : r.respondReadIndex req i = .ok r') : Tame r r' := by
  unfold Raft.respondReadIndex at h
  obtain ⟨⟨r2, m⟩, h2, h⟩ := Res.bind_eq_ok.1 h
  unfold Raft.responseToReadIndexReq at h2
  split at h2
  · obtain ⟨ctx, _, h2⟩ := Res.bind_eq_ok.1 h2
    cases h2
    dsimp only at h
    rw [if_neg (by intro h; exact h rfl)] at h
    cases h
    exact .of rfl rfl rfl rfl rfl
  · cases h2
    dsimp only at h
    split at h
    · exact send h
    · cases h; exact .refl

theorem respondAll (rss : List ReadIndexStatus) (h : Raft.respondAll rss r = .ok r') : Tame r r' := by
  induction rss generalizing r with
  | nil => cases h; exact .refl
  | cons rs rss ih =>
    unfold Raft.respondAll at h
    obtain ⟨r2, h2, h⟩ := Res.bind_eq_ok.1 h
    exact (respondReadIndex h2).trans (ih h)

theorem sendMsgReadIndexResponse {m : Message} (h : r.sendMsgReadIndexResponse m = .ok r') : Tame r r' := by
  unfold Raft.sendMsgReadIndexResponse at h
  split at h
  · obtain ⟨ro, _, h⟩ := Res.bind_eq_ok.1 h
    obtain ⟨ctx, _, h⟩ := Res.bind_eq_ok.1 h
    have s := bcastHeartbeatWithCtx h
    exact ⟨s.rest, s.log, s.msgs, s.prs, s.size⟩
  · exact respondReadIndex h

theorem releaseLoop (ms : List Message) (h : Raft.releaseLoop ms r = .ok r') : Tame r r' := by
  induction ms generalizing r with
  | nil => cases h; exact .refl
  | cons m ms ih =>
    unfold Raft.releaseLoop at h
    obtain ⟨r2, h2, h⟩ := Res.bind_eq_ok.1 h
    exact (sendMsgReadIndexResponse h2).trans (ih h)

theorem releasePending (h : r.releasePendingReadIndexMessages = .ok r') : Tame r r' := by
  unfold Raft.releasePendingReadIndexMessages at h
  obtain ⟨d, _, h⟩ := Res.bind_eq_ok.1 h
  split at h
  · cases h; exact .refl
  · have s := releaseLoop _ h
    exact ⟨s.rest, s.log, s.msgs, s.prs, s.size⟩

end Tame

theorem RaftLog.commitTo_max {l l' : RaftLog} {k : Nat} (h : l.commitTo k = .ok l') : l' = { l with committed := max l.committed k } := by
  unfold RaftLog.commitTo at h
  by_cases h1 : l.committed < k
  · rw [if_pos h1] at h
    by_cases h2 : l.lastIndex < k
    · rw [if_pos h2] at h; cases h
    · rw [if_neg h2] at h; cases h
      rw [Nat.max_eq_right (by omega)]
  · rw [if_neg h1] at h; cases h
    rw [Nat.max_eq_left (by omega)]

/-- Like `Tame`, but the commit index may have gone up. -/
structure Steady (a b : Raft) : Prop where
  rest : b.rest = a.rest
  log : ∃ k, a.log.committed ≤ k ∧ b.log = { a.log with committed := k }
  prs : ∀ v p, a.pr v = some p → ∃ q, b.pr v = some q ∧ p.Sent q

theorem Tame.steady {a b : Raft} (h : Tame a b) : Steady a b := ⟨h.rest, ⟨_, Nat.le_refl _, by rw [h.log]⟩, h.prs⟩

namespace Steady
variable {env : Env} {a b c r r' : Raft}

theorem trans (h1 : Steady a b) (h2 : Steady b c) : Steady a c := by
  obtain ⟨k1, l1, e1⟩ := h1.log
  obtain ⟨k2, l2, e2⟩ := h2.log
  refine ⟨h2.rest.trans h1.rest, ⟨k2, by rw [e1] at l2; exact Nat.le_trans l1 l2, by rw [e2, e1]⟩, fun v p hp => ?_⟩
  obtain ⟨q, hq, s⟩ := h1.prs v p hp
  obtain ⟨q2, hq2, s2⟩ := h2.prs v q hq
  exact ⟨q2, hq2, s.trans s2⟩

theorem maybeCommit {d : Bool} (h : r.maybeCommit = .ok (r', d)) : Steady r r' := by
  unfold Raft.maybeCommit at h
  obtain ⟨⟨l, d2⟩, h2, h⟩ := Res.bind_eq_ok.1 h
  cases h
  refine ⟨rfl, ?_, fun v p hp => ⟨p, hp, .refl p⟩⟩
  show ∃ k, _ ∧ l = _
  unfold RaftLog.maybeCommit at h2
  split at h2
  · rename_i hc
    obtain ⟨l2, h3, h2⟩ := Res.bind_eq_ok.1 h2
    obtain ⟨tt, _, h2⟩ := Res.bind_eq_ok.1 h2
    split at h2
    · obtain ⟨l3, h4, h2⟩ := Res.bind_eq_ok.1 h2
      cases h2
      exact ⟨_, Nat.le_max_left _ _, RaftLog.commitTo_max h4⟩
    · cases h2; exact ⟨_, Nat.le_refl _, rfl⟩
  · cases h2; exact ⟨_, Nat.le_refl _, rfl⟩

theorem view (h : Steady a b) : b.log.view = a.log.view := by
  obtain ⟨k, _, e⟩ := h.log
  rw [e]; rfl

theorem state (h : Steady a b) : b.state = a.state := (congrArg Raft.state h.rest :)
theorem term (h : Steady a b) : b.term = a.term := (congrArg Raft.term h.rest :)
theorem id (h : Steady a b) : b.id = a.id := (congrArg Raft.id h.rest :)
theorem config (h : Steady a b) : b.trk.config = a.trk.config := (congrArg (fun r : Raft => r.trk.config) h.rest :)
theorem checkQuorum (h : Steady a b) : b.checkQuorum = a.checkQuorum := (congrArg Raft.checkQuorum h.rest :)
theorem preVote (h : Steady a b) : b.preVote = a.preVote := (congrArg Raft.preVote h.rest :)
theorem heartbeatTimeout (h : Steady a b) : b.heartbeatTimeout = a.heartbeatTimeout := (congrArg Raft.heartbeatTimeout h.rest :)

end Steady
end Craft
