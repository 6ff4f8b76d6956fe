import Verif.Spec.Flow
import Verif.Node.Turn
import Verif.Node.Prompt

/-! # What sending costs -/

namespace Craft

/-- The window is not overdrawn. -/
def Progress.Fair (p : Progress) : Prop := 0 ≤ p.inflights.count ∧ p.inflights.count ≤ p.inflights.size

theorem load_append (j : Nat) (a b : List Message) : load j (a ++ b) = load j a + load j b := by
  unfold load; rw [List.filter_append, List.length_append]

theorem load_nil (j : Nat) : load j [] = 0 := rfl

theorem load_one {j : Nat} {m : Message} (h : ¬ m.Heavy j) : load j [m] = 0 := by
  unfold load; rw [List.filter_cons_of_neg (by simpa using h)]; rfl

theorem load_le_one {j : Nat} {m : Message} : load j [m] ≤ 1 := by
  unfold load
  exact List.length_filter_le _ _

namespace Raft
variable (r : Raft) (m : Message)
theorem outMsg_type : (r.outMsg m).type = m.type := by
  unfold outMsg; by_cases h : m.src = 0 <;> simp only [h, if_true, if_false] <;> split <;> rfl
theorem outMsg_to : (r.outMsg m).to = m.to := by
  unfold outMsg; by_cases h : m.src = 0 <;> simp only [h, if_true, if_false] <;> split <;> rfl
theorem outMsg_entries : (r.outMsg m).entries = m.entries := by
  unfold outMsg; by_cases h : m.src = 0 <;> simp only [h, if_true, if_false] <;> split <;> rfl
end Raft

namespace Inflights
variable {f f' : Inflights}

theorem grow_count (h : f.grow = .ok f') : f'.count = f.count ∧ f'.size = f.size := by
  unfold grow at h
  obtain ⟨b, _, h⟩ := Res.bind_eq_ok.1 h
  cases h; exact ⟨rfl, rfl⟩

theorem add_count {x : Nat} (h : f.add x = .ok f') : f'.count = f.count + 1 ∧ f'.size = f.size := by
  unfold add at h
  split at h
  · cases h
  dsimp only at h
  generalize (if toI32 (f.start + f.count) ≥ toI32 f.size then toI32 (f.start + f.count) - toI32 f.size else toI32 (f.start + f.count)) = k at h
  by_cases c : toI32 k ≠ k
  · rw [if_pos c] at h; cases h
  rw [if_neg c] at h
  by_cases d : k ≥ toI32 f.buffer.length
  · rw [if_pos d] at h
    obtain ⟨g, hg, h⟩ := Res.bind_eq_ok.1 h
    obtain ⟨b, _, h⟩ := Res.bind_eq_ok.1 h
    cases h
    obtain ⟨g1, g2⟩ := grow_count hg
    exact ⟨by dsimp only; rw [g1], g2⟩
  · rw [if_neg d] at h
    obtain ⟨g, hg, h⟩ := Res.bind_eq_ok.1 h
    cases hg
    obtain ⟨b, _, h⟩ := Res.bind_eq_ok.1 h
    cases h
    exact ⟨rfl, rfl⟩

end Inflights

/-- Whatever was sent to `j` from `a` to `b` was taken from the room there was. -/
def Flow (j : Nat) (a b : Raft) : Prop :=
  b.id = a.id ∧ ∃ ms, b.msgs = a.msgs ++ ms ∧ ∀ p, a.pr j = some p → p.Fair → ∃ q, b.pr j = some q ∧ q.Fair ∧ load j ms + q.room ≤ p.room

namespace Flow
variable {env : Env} {j : Nat} {a b c r r' : Raft}

theorem of (h0 : b.id = a.id) (h1 : b.msgs = a.msgs) (h2 : b.pr j = a.pr j) : Flow j a b :=
  ⟨h0, [], by rw [h1, List.append_nil], fun p hp hf => ⟨p, h2.trans hp, hf, Nat.le_of_eq (Nat.zero_add _)⟩⟩

theorem refl : Flow j a a := .of rfl rfl rfl

theorem trans (h1 : Flow j a b) (h2 : Flow j b c) : Flow j a c := by
  obtain ⟨i1, m1, e1, f1⟩ := h1
  obtain ⟨i2, m2, e2, f2⟩ := h2
  refine ⟨i2.trans i1, m1 ++ m2, by rw [e2, e1, List.append_assoc], fun p hp hf => ?_⟩
  obtain ⟨q, hq, hqf, l1⟩ := f1 p hp hf
  obtain ⟨s, hs, hsf, l2⟩ := f2 q hq hqf
  refine ⟨s, hs, hsf, ?_⟩
  rw [load_append]; omega

theorem id (h : Flow j a b) : b.id = a.id := h.1

theorem setPr_other {v : Nat} {p : Progress} (hv : v ≠ j) : Flow j r (r.setPr v p) :=
  .of rfl rfl (AMap.find_insert_ne _ _ hv)

theorem light {m : Message} (hm : m.type ≠ .snap ∧ (m.type = .app → m.entries = [])) (h : r.send m = .ok r') : Flow j r r' := by
  have e := Raft.send_ok h
  refine ⟨by rw [e], [r.outMsg m], by rw [e], fun p hp hf => ⟨p, by rw [e]; exact hp, hf, ?_⟩⟩
  rw [load_one]
  · omega
  · rintro ⟨_, h | ⟨h1, h2⟩⟩
    · rw [Raft.outMsg_type] at h; exact hm.1 h
    · rw [Raft.outMsg_type] at h1; exact h2 (by rw [Raft.outMsg_entries]; exact hm.2 h1)

/-- Sending to somebody else. -/
theorem other {m : Message} (hm : m.to ≠ j) (h : r.send m = .ok r') : Flow j r r' := by
  have e := Raft.send_ok h
  refine ⟨by rw [e], [r.outMsg m], by rw [e], fun p hp hf => ⟨p, by rw [e]; exact hp, hf, ?_⟩⟩
  rw [load_one]
  · omega
  · rintro ⟨h1, _⟩
    rw [Raft.outMsg_to] at h1; exact hm h1

theorem maybeSendAppend {to : Nat} {se d : Bool} (h : r.maybeSendAppend env to se = .ok (r', d)) : Flow j r r' := by
  obtain ⟨pr, hq, ⟨rfl, _⟩ | ⟨hpa, _, t, es, p', _, _, _, hs, h2⟩ | ⟨hpa, _, _, _, _, h2⟩⟩ := Raft.maybeSendAppend_cases h
  · exact .refl
  · by_cases hj : to = j
    · subst hj
      rcases hs with ⟨he, rfl⟩ | ⟨e, he, ⟨hst, infl, hi, hp'⟩ | ⟨hst, hp'⟩⟩
      · have k : (r.setPr to p').pr to = r.pr to := by rw [hq]; exact AMap.find_insert_self _ _ _
        have w : Flow to (r.setPr to p') r' := light (by exact ⟨nofun, fun _ => he⟩) h2
        exact (Flow.of (a := r) (b := r.setPr to p') rfl rfl k).trans w
      · have e0 := Raft.send_ok h2
        refine ⟨by rw [e0]; rfl, [(r.setPr to p').outMsg _], by rw [e0]; rfl, fun p hp hf => ⟨p', by rw [e0]; exact AMap.find_insert_self _ _ _, ?_⟩⟩
        rw [hq] at hp; cases hp
        have hn : pr.inflights.count ≠ pr.inflights.size := by
          unfold Progress.isPaused at hpa
          rw [hst] at hpa
          simpa [Inflights.full] using hpa
        obtain ⟨k1, k2⟩ := Inflights.add_count hi
        obtain ⟨f1, f2⟩ := hf
        subst hp'
        refine ⟨⟨by dsimp only; omega, by dsimp only; omega⟩, ?_⟩
        refine Nat.le_trans (Nat.add_le_add_right load_le_one _) ?_
        unfold Progress.room
        rw [hst]
        dsimp only
        omega
      · have e0 := Raft.send_ok h2
        refine ⟨by rw [e0]; rfl, [(r.setPr to p').outMsg _], by rw [e0]; rfl, fun p hp hf => ⟨p', by rw [e0]; exact AMap.find_insert_self _ _ _, ?_⟩⟩
        rw [hq] at hp; cases hp
        have hn : pr.probeSent = false := by
          unfold Progress.isPaused at hpa
          rw [hst] at hpa
          exact hpa
        subst hp'
        refine ⟨hf, ?_⟩
        refine Nat.le_trans (Nat.add_le_add_right load_le_one _) ?_
        unfold Progress.room
        rw [hst, hn]
        exact Nat.le_refl _
    · exact (setPr_other hj).trans (other hj h2)
  · by_cases hj : to = j
    · subst hj
      have e := Raft.send_ok h2
      refine ⟨by rw [e]; rfl, [(r.setPr to (pr.becomeSnapshot r.log.snapshot.metadata.index)).outMsg _], by rw [e]; rfl,
        fun p hp hf => ⟨_, by rw [e]; exact AMap.find_insert_self _ _ _, ?_⟩⟩
      rw [hq] at hp; cases hp
      obtain ⟨f1, f2⟩ := hf
      refine ⟨⟨Int.le_refl _, by show (0 : Int) ≤ pr.inflights.size; omega⟩, ?_⟩
      have := load_le_one (j := to) (m := (r.setPr to (pr.becomeSnapshot r.log.snapshot.metadata.index)).outMsg { type := .snap, «to» := to, snapshot := some r.log.snapshot })
      have hr : 1 ≤ pr.room := by
        unfold Progress.isPaused at hpa
        unfold Progress.room
        split at hpa
        · rename_i hst; rw [hst]; simp [hpa]
        · rename_i hst; rw [hst]; dsimp only
          have hn : pr.inflights.count ≠ pr.inflights.size := by simpa [Inflights.full] using hpa
          omega
        · cases hpa
      show load to _ + 0 ≤ pr.room
      omega
    · exact (setPr_other hj).trans (other hj h2)

theorem sendAppend {to : Nat} (h : r.sendAppend env to = .ok r') : Flow j r r' := by
  unfold Raft.sendAppend at h
  obtain ⟨⟨r2, d⟩, h2, h⟩ := Res.bind_eq_ok.1 h
  cases h
  exact maybeSendAppend h2

theorem sendLoop {to : Nat} (k : Nat) (h : Raft.sendLoop env to k r = .ok r') : Flow j r r' := by
  induction k generalizing r with
  | zero => cases h
  | succ k ih =>
    unfold Raft.sendLoop at h
    obtain ⟨⟨r2, d⟩, h2, h⟩ := Res.bind_eq_ok.1 h
    dsimp only at h
    split at h
    · exact (maybeSendAppend h2).trans (ih h)
    · cases h; exact maybeSendAppend h2

theorem visit {f : Raft → Nat → Res Raft} (hf : ∀ {a b : Raft} {i : Nat}, f a i = .ok b → Flow j a b) (ids : List Nat)
    (h : Raft.visitOthers f ids r = .ok r') : Flow j r r' := by
  induction ids generalizing r with
  | nil => cases h; exact .refl
  | cons id ids ih =>
    unfold Raft.visitOthers at h
    split at h
    · exact ih h
    · obtain ⟨r2, h2, h⟩ := Res.bind_eq_ok.1 h
      exact (hf h2).trans (ih h)

theorem bcastAppend (h : r.bcastAppend env = .ok r') : Flow j r r' := visit sendAppend _ h

theorem sendHeartbeat {to : Nat} {ctx : Bytes} (h : r.sendHeartbeat to ctx = .ok r') : Flow j r r' := by
  unfold Raft.sendHeartbeat at h
  obtain ⟨p, hp, h⟩ := Res.bind_eq_ok.1 h
  exact light (by exact ⟨nofun, nofun⟩) h

theorem bcastHeartbeatWithCtx {ctx : Bytes} (h : r.bcastHeartbeatWithCtx ctx = .ok r') : Flow j r r' := visit sendHeartbeat _ h

theorem bcastHeartbeat (h : r.bcastHeartbeat = .ok r') : Flow j r r' := bcastHeartbeatWithCtx h

theorem maybeCommit {d : Bool} (h : r.maybeCommit = .ok (r', d)) : Flow j r r' := by
  unfold Raft.maybeCommit at h
  obtain ⟨⟨l, b⟩, _, h⟩ := Res.bind_eq_ok.1 h
  cases h
  exact .of rfl rfl rfl

theorem respondReadIndex {req : Message} {i : Nat} (h : r.respondReadIndex req i = .ok r') : Flow j r r' := by
  unfold Raft.respondReadIndex at h
  obtain ⟨⟨r2, m⟩, h2, h⟩ := Res.bind_eq_ok.1 h
  unfold Raft.responseToReadIndexReq at h2
  split at h2
  · obtain ⟨ctx, _, h2⟩ := Res.bind_eq_ok.1 h2
    cases h2
    dsimp only at h
    rw [if_neg (by intro h; exact h rfl)] at h
    cases h
    exact .of rfl rfl rfl
  · cases h2
    dsimp only at h
    split at h
    · exact light (by exact ⟨nofun, nofun⟩) h
    · cases h; exact .refl

theorem respondAll (rss : List ReadIndexStatus) (h : Raft.respondAll rss r = .ok r') : Flow j r r' := by
  induction rss generalizing r with
  | nil => cases h; exact .refl
  | cons rs rss ih =>
    unfold Raft.respondAll at h
    obtain ⟨r2, h2, h⟩ := Res.bind_eq_ok.1 h
    exact (respondReadIndex h2).trans (ih h)

theorem sendMsgReadIndexResponse {m : Message} (h : r.sendMsgReadIndexResponse m = .ok r') : Flow j r r' := by
  unfold Raft.sendMsgReadIndexResponse at h
  split at h
  · obtain ⟨ro, _, h⟩ := Res.bind_eq_ok.1 h
    obtain ⟨ctx, _, h⟩ := Res.bind_eq_ok.1 h
    have s : Flow j { r with readOnly := _ } r' := bcastHeartbeatWithCtx h
    exact .trans (.of rfl rfl rfl) s
  · exact respondReadIndex h

theorem releaseLoop (ms : List Message) (h : Raft.releaseLoop ms r = .ok r') : Flow j r r' := by
  induction ms generalizing r with
  | nil => cases h; exact .refl
  | cons m ms ih =>
    unfold Raft.releaseLoop at h
    obtain ⟨r2, h2, h⟩ := Res.bind_eq_ok.1 h
    exact (sendMsgReadIndexResponse h2).trans (ih h)

theorem releasePending (h : r.releasePendingReadIndexMessages = .ok r') : Flow j r r' := by
  unfold Raft.releasePendingReadIndexMessages at h
  obtain ⟨d, _, h⟩ := Res.bind_eq_ok.1 h
  split at h
  · cases h; exact .refl
  · have s : Flow j { r with pendingReadIndexMessages := _ } r' := releaseLoop _ h
    exact .trans (.of rfl rfl rfl) s

theorem appendEntry {es : List Entry} {d : Bool} (hj : j ≠ r.id) (h : r.appendEntry es = .ok (r', d)) : Flow j r r' := by
  unfold Raft.appendEntry at h
  dsimp only at h
  cases hq : r.increaseUncommittedSize (Raft.stamp r.term (r.log.lastIndex + 1) es) with
  | mk r1 ok =>
    have h1 : Flow j r r1 := by
      unfold Raft.increaseUncommittedSize at hq
      dsimp only at hq
      split at hq <;> cases hq
      · exact .refl
      · exact .of rfl rfl rfl
    rw [hq] at h
    dsimp only at h
    split at h
    · cases h; exact h1
    · obtain ⟨l, _, h⟩ := Res.bind_eq_ok.1 h
      obtain ⟨p, _, h⟩ := Res.bind_eq_ok.1 h
      obtain ⟨⟨r2, d2⟩, h3, h⟩ := Res.bind_eq_ok.1 h
      cases h
      have s : Flow j (Raft.setPr { r1 with log := l } r1.id (p.maybeUpdate l.lastIndex).1) r2 := maybeCommit h3
      have s2 : Flow j { r1 with log := l } (Raft.setPr { r1 with log := l } r1.id (p.maybeUpdate l.lastIndex).1) :=
        .setPr_other (by rw [h1.id]; exact Ne.symm hj)
      exact h1.trans (.trans (.of rfl rfl rfl) (s2.trans s))

theorem leaderProp {m : Message} {e : Option Err} (hj : j ≠ r.id) (h : r.leaderProp env m = .ok (r', e)) : Flow j r r' := by
  unfold Raft.leaderProp at h
  split at h
  · cases h
  split at h
  · cases h; exact .refl
  split at h
  · cases h; exact .refl
  obtain ⟨⟨es, pci⟩, _, h⟩ := Res.bind_eq_ok.1 h
  dsimp only at h
  obtain ⟨⟨r2, d⟩, h2, h⟩ := Res.bind_eq_ok.1 h
  have s := Flow.trans (.of rfl rfl rfl : Flow j r { r with pendingConfIndex := pci }) (appendEntry hj h2)
  dsimp only at h
  split at h
  · cases h; exact s
  · obtain ⟨r3, h3, h⟩ := Res.bind_eq_ok.1 h
    cases h
    exact s.trans (bcastAppend h3)

theorem leaderReadIndex {m : Message} (h : r.leaderReadIndex m = .ok r') : Flow j r r' := by
  unfold Raft.leaderReadIndex at h
  split at h
  · exact respondReadIndex h
  · obtain ⟨d, _, h⟩ := Res.bind_eq_ok.1 h
    split at h
    · cases h; exact .of rfl rfl rfl
    · exact sendMsgReadIndexResponse h

theorem leaderAppReject {m : Message} {p : Progress} (hm : m.src ≠ j) (h : r.leaderAppReject env m p = .ok r') : Flow j r r' := by
  unfold Raft.leaderAppReject at h
  have key : ∀ np, (match p.maybeDecrTo m.index np with
      | (pr, decr) =>
        if decr = true then
          Raft.sendAppend env (r.setPr m.src (if pr.state = PrState.replicate then pr.becomeProbe else pr)) m.src
        else pure (r.setPr m.src pr)) = .ok r' → Flow j r r' := by
    intro np h
    generalize p.maybeDecrTo m.index np = x at h
    obtain ⟨p1, d⟩ := x
    dsimp only at h
    split at h
    · exact .trans (.setPr_other hm) (sendAppend h)
    · cases h; exact .setPr_other hm
  dsimp only at h
  split at h
  · obtain ⟨np, _, h⟩ := Res.bind_eq_ok.1 h
    exact key np h
  · exact key _ h

theorem timeoutNow {to : Nat} (h : r.sendTimeoutNow to = .ok r') : Flow j r r' := light (by exact ⟨nofun, nofun⟩) h

theorem leaderAppAccept {m : Message} {p : Progress} (hm : m.src ≠ j) (h : r.leaderAppAccept env m p = .ok r') : Flow j r r' := by
  unfold Raft.leaderAppAccept at h
  dsimp only at h
  split at h
  · cases h; exact .setPr_other hm
  obtain ⟨q, h⟩ : ∃ q, (do
          let (r, c) ← (r.setPr m.src q).maybeCommit
          let r ←
            if c then do
              let r ← r.releasePendingReadIndexMessages
              r.bcastAppend env
            else if p.isPaused then r.sendAppend env m.src
            else pure r
          let r ← Raft.sendLoop env m.src (r.log.lastIndex + 2) r
          let pr ← r.getPr m.src "raft.cc:1242"
          if m.src = r.leadTransferee ∧ pr.mtch = r.log.lastIndex then r.sendTimeoutNow m.src
          else pure r) = .ok r' := by
    split at h
    · exact ⟨_, h⟩
    · split at h <;> exact ⟨_, h⟩
    · obtain ⟨infl, _, h⟩ := Res.bind_eq_ok.1 h
      exact ⟨_, h⟩
  obtain ⟨⟨r2, d⟩, h2, h⟩ := Res.bind_eq_ok.1 h
  have s2 : Flow j r r2 := .trans (.setPr_other (v := m.src) (p := q) hm) (maybeCommit h2)
  dsimp only at h
  obtain ⟨r3, s3, h⟩ : ∃ r3, Flow j r r3 ∧ (do
          let r ← Raft.sendLoop env m.src (r3.log.lastIndex + 2) r3
          let pr ← r.getPr m.src "raft.cc:1242"
          if m.src = r.leadTransferee ∧ pr.mtch = r.log.lastIndex then r.sendTimeoutNow m.src
          else pure r) = .ok r' := by
    split at h
    · obtain ⟨r4, h4, h⟩ := Res.bind_eq_ok.1 h
      obtain ⟨r3, h3, h⟩ := Res.bind_eq_ok.1 h
      exact ⟨r3, s2.trans ((releasePending h4).trans (bcastAppend h3)), h⟩
    · split at h
      · obtain ⟨r3, h3, h⟩ := Res.bind_eq_ok.1 h
        exact ⟨r3, s2.trans (sendAppend h3), h⟩
      · exact ⟨r2, s2, h⟩
  obtain ⟨r5, h5, h⟩ := Res.bind_eq_ok.1 h
  have s5 := s3.trans (sendLoop _ h5)
  obtain ⟨q, hq, h⟩ := Res.bind_eq_ok.1 h
  split at h
  · exact s5.trans (timeoutNow h)
  · cases h; exact s5

theorem leaderHeartbeatResp {m : Message} {p : Progress} (hm : m.src ≠ j) (h : r.leaderHeartbeatResp env m p = .ok r') : Flow j r r' := by
  unfold Raft.leaderHeartbeatResp at h
  dsimp only at h
  obtain ⟨q, h⟩ : ∃ q : Progress, (do
      let r ← if q.mtch < (r.setPr m.src q).log.lastIndex then (r.setPr m.src q).sendAppend env m.src else pure (r.setPr m.src q)
      if r.readOnly.option ≠ ReadOnlyOption.safe ∨ m.context = [] then pure r
      else
        let (ro, acks) := r.readOnly.recvAck m.src m.context
        let r := { r with readOnly := ro }
        if r.trk.config.voters.voteResult acks ≠ VoteState.won then pure r
        else
          let (ro, rss) ← r.readOnly.advance m.context
          Raft.respondAll rss { r with readOnly := ro }) = .ok r' := by
    split at h
    · obtain ⟨infl, _, h⟩ := Res.bind_eq_ok.1 h
      exact ⟨_, h⟩
    · exact ⟨_, h⟩
  obtain ⟨r2, s2, h⟩ : ∃ r2, Flow j r r2 ∧ (
      if r2.readOnly.option ≠ ReadOnlyOption.safe ∨ m.context = [] then pure r2
      else
        let (ro, acks) := r2.readOnly.recvAck m.src m.context
        let r := { r2 with readOnly := ro }
        if r.trk.config.voters.voteResult acks ≠ VoteState.won then pure r
        else do
          let (ro, rss) ← r.readOnly.advance m.context
          Raft.respondAll rss { r with readOnly := ro }) = .ok r' := by
    dsimp only at h
    split at h
    · obtain ⟨r2, h2, h⟩ := Res.bind_eq_ok.1 h
      exact ⟨r2, .trans (.setPr_other (v := m.src) (p := q) hm) (sendAppend h2), h⟩
    · exact ⟨_, .setPr_other (v := m.src) (p := q) hm, h⟩
  split at h
  · cases h; exact s2
  · dsimp only at h
    split at h
    · cases h; exact s2.trans (.of rfl rfl rfl)
    · obtain ⟨⟨ro, rss⟩, _, h⟩ := Res.bind_eq_ok.1 h
      have s : Flow j { r2 with readOnly := ro } r' := respondAll _ h
      exact s2.trans (.trans (.of rfl rfl rfl) s)

theorem leaderSnapStatus {m : Message} {p : Progress} (hm : m.src ≠ j) : Flow j r (r.leaderSnapStatus m p) := by
  unfold Raft.leaderSnapStatus
  split
  · exact .refl
  · exact .setPr_other hm

theorem leaderTransfer {m : Message} {p : Progress} (h : r.leaderTransfer env m p = .ok r') : Flow j r r' := by
  unfold Raft.leaderTransfer at h
  split at h
  · cases h; exact .refl
  split at h
  · cases h; exact .refl
  dsimp only at h
  have key : ∀ x : Raft, Flow j r x → (if m.src = x.id then .ok x
    else if p.mtch = ({ x with electionElapsed := 0, leadTransferee := m.src } : Raft).log.lastIndex then
      ({ x with electionElapsed := 0, leadTransferee := m.src } : Raft).sendTimeoutNow m.src
      else Raft.sendAppend env { x with electionElapsed := 0, leadTransferee := m.src } m.src) = Res.ok r' → Flow j r r' := by
    intro x s h
    have s2 : Flow j r { x with electionElapsed := 0, leadTransferee := m.src } := s.trans (.of rfl rfl rfl)
    split at h
    · cases h; exact s
    split at h
    · exact s2.trans (timeoutNow h)
    · exact s2.trans (sendAppend h)
  by_cases c : r.leadTransferee ≠ 0
  · simp only [if_pos c] at h
    exact key { r with leadTransferee := 0 } (.of rfl rfl rfl) h
  · simp only [if_neg c] at h
    exact key r .refl h

/-- A message that can change what a leader keeps about its sender. -/
def _root_.Craft.Message.Tells (m : Message) (j : Nat) : Prop :=
  m.src = j ∧ (m.type = .appResp ∨ m.type = .heartbeatResp ∨ m.type = .snapStatus ∨ m.type = .unreachable)

theorem leaderCheckQuorum : Flow j r (r.leaderCheckQuorum env) ∨ (r.leaderCheckQuorum env).state ≠ .leader := by
  unfold Raft.leaderCheckQuorum
  dsimp only
  have k1 : ∀ r1 : Raft, (∀ p, r.pr j = some p → ∃ q, r1.pr j = some q ∧ q.room = p.room ∧ q.inflights = p.inflights) → r1.msgs = r.msgs → r1.id = r.id →
      Flow j r ({ (if ¬ r1.trk.quorumActive then r1.becomeFollower env r1.term 0 else r1) with trk := { (if ¬ r1.trk.quorumActive then r1.becomeFollower env r1.term 0 else r1).trk with
        progress := (if ¬ r1.trk.quorumActive then r1.becomeFollower env r1.term 0 else r1).trk.progress.map fun (id, p) =>
          (id, if id ≠ (if ¬ r1.trk.quorumActive then r1.becomeFollower env r1.term 0 else r1).id then { p with recentActive := false } else p) } } : Raft) ∨
      (if ¬ r1.trk.quorumActive then r1.becomeFollower env r1.term 0 else r1).state ≠ .leader := by
    intro r1 hp hm hid
    by_cases c : ¬ r1.trk.quorumActive
    · simp only [if_pos c]
      exact Or.inr (by show Role.follower ≠ _; nofun)
    · simp only [if_neg c]
      refine Or.inl ⟨hid, [], by rw [List.append_nil]; exact hm, fun p h hf => ?_⟩
      obtain ⟨q, hq, h1, h2⟩ := hp p h
      refine ⟨if j ≠ r1.id then { q with recentActive := false } else q, ?_, ?_, ?_⟩
      · have := AMap.find_map r1.trk.progress (fun id p => if id ≠ r1.id then { p with recentActive := false } else p) j
        unfold Raft.pr at hq ⊢
        rw [hq] at this
        exact this
      · have : (if j ≠ r1.id then { q with recentActive := false } else q).inflights = p.inflights := by split <;> exact h2
        unfold Progress.Fair
        rw [this]; exact hf
      · have : (if j ≠ r1.id then { q with recentActive := false } else q).room = q.room := by split <;> rfl
        rw [this, h1, load_nil]; omega
  split
  · rename_i p hp
    refine k1 _ (fun q hq => ?_) rfl rfl
    by_cases hj : r.id = j
    · rw [hj] at hp ⊢
      rw [hp] at hq; cases hq
      exact ⟨_, AMap.find_insert_self _ _ _, rfl, rfl⟩
    · exact ⟨q, (AMap.find_insert_ne _ _ hj).trans hq, rfl, rfl⟩
  · exact k1 r (fun q hq => ⟨q, hq, rfl, rfl⟩) rfl rfl

theorem stepLeader {im : Message} {e : Option Err} (hj : j ≠ r.id) (hm : ¬ im.Tells j) (h : r.stepLeader env im = .ok (r', e)) :
    Flow j r r' ∨ r'.state ≠ .leader := by
  unfold Raft.stepLeader at h
  have rest : ∀ {x : Res (Raft × Option Err)}, (∀ p, r.pr im.src = some p → (match im.type with
      | .appResp => do
        let pr := { p with recentActive := true }
        let r := r.setPr im.src pr
        let r ← if im.reject then r.leaderAppReject env im pr else r.leaderAppAccept env im pr
        pure (r, none)
      | .heartbeatResp => do let r ← r.leaderHeartbeatResp env im p; pure (r, none)
      | .snapStatus => .ok (r.leaderSnapStatus im p, none)
      | .unreachable =>
        .ok (if p.state = .replicate then r.setPr im.src p.becomeProbe else r, none)
      | .transferLeader => do let r ← r.leaderTransfer env im p; pure (r, none)
      | _ => .ok (r, none)) = Res.ok (r', e) → Flow j r r') := by
    intro _ p hp h
    cases ht : im.type <;> simp only [ht] at h
    case appResp =>
      have hs : im.src ≠ j := fun x => hm ⟨x, Or.inl ht⟩
      have s0 : Flow j r (r.setPr im.src { p with recentActive := true }) := .setPr_other hs
      split at h
      · obtain ⟨r2, h2, h⟩ := Res.bind_eq_ok.1 h
        cases h
        exact s0.trans (leaderAppReject hs h2)
      · obtain ⟨r2, h2, h⟩ := Res.bind_eq_ok.1 h
        cases h
        exact s0.trans (leaderAppAccept hs h2)
    case heartbeatResp =>
      obtain ⟨r2, h2, h⟩ := Res.bind_eq_ok.1 h
      cases h
      exact leaderHeartbeatResp (fun x => hm ⟨x, Or.inr (Or.inl ht)⟩) h2
    case snapStatus => cases h; exact leaderSnapStatus (fun x => hm ⟨x, Or.inr (Or.inr (Or.inl ht))⟩)
    case unreachable =>
      cases h
      split
      · exact setPr_other (fun x => hm ⟨x, Or.inr (Or.inr (Or.inr ht))⟩)
      · exact .refl
    case transferLeader =>
      obtain ⟨r2, h2, h⟩ := Res.bind_eq_ok.1 h
      cases h
      exact leaderTransfer h2
    all_goals (cases h; exact .refl)
  split at h
  · obtain ⟨r2, h2, h⟩ := Res.bind_eq_ok.1 h
    cases h
    exact Or.inl (bcastHeartbeat h2)
  · cases h
    exact leaderCheckQuorum
  · exact Or.inl (leaderProp hj h)
  · obtain ⟨r2, h2, h⟩ := Res.bind_eq_ok.1 h
    cases h
    exact Or.inl (leaderReadIndex h2)
  · split at h
    · cases h; exact Or.inl .refl
    · rename_i p hp
      exact Or.inl (rest (x := .ok (r', e)) p hp h)

theorem stepVote {m : Message} (h : r.stepVote m = .ok r') : Flow j r r' := by
  unfold Raft.stepVote at h
  obtain ⟨up, _, h⟩ := Res.bind_eq_ok.1 h
  obtain ⟨_, _, h⟩ := Res.bind_eq_ok.1 h
  obtain ⟨rt, hrt, h⟩ := Res.bind_eq_ok.1 h
  have hr : rt = .voteResp ∨ rt = .preVoteResp := by
    unfold voteRespMsgType at hrt
    split at hrt <;> cases hrt
    · exact Or.inl rfl
    · exact Or.inr rfl
  have hl : rt ≠ .snap ∧ rt ≠ .app := by rcases hr with rfl | rfl <;> exact ⟨nofun, nofun⟩
  split at h
  · obtain ⟨r2, h2, h⟩ := Res.bind_eq_ok.1 h
    have s : Flow j r r2 := light (by exact ⟨hl.1, fun x => absurd x hl.2⟩) h2
    split at h
    · cases h; exact s.trans (.of rfl rfl rfl)
    · cases h; exact s
  · exact light (by exact ⟨hl.1, fun x => absurd x hl.2⟩) h

theorem stepBody {im : Message} {e : Option Err} (hl : r.state = .leader) (hj : j ≠ r.id) (hm : ¬ im.Tells j) (h : r.stepBody env im = .ok (r', e)) :
    Flow j r r' ∨ r'.state ≠ .leader := by
  unfold Raft.stepBody at h
  split at h
  · obtain ⟨r2, h2, h⟩ := Res.bind_eq_ok.1 h
    unfold Raft.hup at h2
    rw [if_pos hl] at h2
    cases h2; cases h
    exact Or.inl .refl
  · obtain ⟨r2, h2, h⟩ := Res.bind_eq_ok.1 h
    cases h; exact Or.inl (stepVote h2)
  · obtain ⟨r2, h2, h⟩ := Res.bind_eq_ok.1 h
    cases h; exact Or.inl (stepVote h2)
  · unfold Raft.stepState at h
    rw [hl] at h
    exact stepLeader hj hm h

theorem step {im : Message} {e : Option Err} (hl : r.state = .leader) (hj : j ≠ r.id) (hm : ¬ im.Tells j) (hst : Stamped im)
    (h : r.step env im = .ok (r', e)) : Flow j r r' ∨ r'.state ≠ .leader ∨ r.term < r'.term := by
  unfold Raft.step at h
  obtain ⟨g, hg, k⟩ := Res.bind_eq_ok.1 h
  clear h; have h := k; clear k
  rcases Raft.stepGate_cases hg with ⟨r1, rfl, hgo, rfl | ⟨ha, lead, rfl⟩⟩ | ⟨r1, rfl, _⟩
  · exact (stepBody hl hj hm h).imp_right Or.inl
  · obtain ⟨_, ms, _, hp⟩ := Raft.stepBody_sim (env := env) hgo hst h
    have := hp.npath.term_le
    have e : (r.becomeFollower env im.term lead).core.term = im.term := Raft.reset_term (env := env) r im.term
    rw [e] at this
    exact Or.inr (Or.inr (Nat.lt_of_lt_of_le ha.1 this))
  · dsimp only at h
    cases h
    left
    unfold Raft.stepGate at hg
    split at hg
    · cases hg
    split at hg
    · split at hg
      · obtain ⟨_, _, hg⟩ := Res.bind_eq_ok.1 hg
        cases hg; exact .refl
      · split at hg
        · cases hg
        · split at hg
          · cases hg
          · split at hg <;> cases hg
    split at hg
    · split at hg
      · obtain ⟨r2, h2, hg⟩ := Res.bind_eq_ok.1 hg
        cases hg
        exact light (by exact ⟨nofun, nofun⟩) h2
      split at hg
      · obtain ⟨_, _, hg⟩ := Res.bind_eq_ok.1 hg
        obtain ⟨r2, h2, hg⟩ := Res.bind_eq_ok.1 hg
        cases hg
        exact light (by exact ⟨nofun, nofun⟩) h2
      · cases hg; exact .refl
    · cases hg

end Flow
end Craft
