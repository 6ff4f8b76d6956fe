import Verif.Node.Flow
import Verif.Safe.Conf
import Verif.Node.History
import Verif.Node.ReadyLog

/-! # Every window a node keeps has the configured size and is not overdrawn -/

namespace Craft

/-- A window of size `mi` that is not overdrawn. -/
def Inflights.Fair (mi : Int) (f : Inflights) : Prop := 0 ≤ f.count ∧ f.count ≤ f.size ∧ f.size = mi

def Raft.Windows (r : Raft) : Prop := 0 < r.trk.maxInflight ∧ AllInfl (Inflights.Fair r.trk.maxInflight) r.trk.progress

namespace Inflights
variable {f f' : Inflights} {mi : Int}

theorem Fair.new (h : 0 ≤ mi) : (Inflights.new mi).Fair mi := ⟨Int.le_refl _, h, rfl⟩

theorem Fair.reset (h : f.Fair mi) : f.reset.Fair mi := ⟨Int.le_refl _, Int.le_trans h.1 h.2.1, h.2.2⟩

theorem Fair.add {x : Nat} (h : f.Fair mi) (ha : f.add x = .ok f') : f'.Fair mi := by
  have hn : f.count ≠ f.size := by
    intro hc
    unfold Inflights.add at ha
    rw [if_pos (by simp [full, hc])] at ha
    cases ha
  obtain ⟨h1, h2⟩ := add_count ha
  obtain ⟨g1, g2, g3⟩ := h
  exact ⟨by omega, by omega, by omega⟩

theorem freeLoop_le {b : List Nat} {sz : Int} {x : Nat} : ∀ (k : Nat) {i idx i' idx' : Int}, freeLoop b sz x k i idx = .ok (i', idx') → i ≤ i' ∧ i' ≤ i + k
  | 0, i, idx, i', idx', h => by cases h; omega
  | k + 1, i, idx, i', idx', h => by
    unfold freeLoop at h
    obtain ⟨y, _, h⟩ := Res.bind_eq_ok.1 h
    split at h
    · cases h; omega
    · have := freeLoop_le k h
      omega

theorem Fair.freeLE {x : Nat} (h : f.Fair mi) (ha : f.freeLE x = .ok f') : f'.Fair mi := by
  unfold Inflights.freeLE at ha
  split at ha
  · cases ha; exact h
  obtain ⟨y, _, ha⟩ := Res.bind_eq_ok.1 ha
  split at ha
  · cases ha; exact h
  obtain ⟨⟨i, idx⟩, hl, ha⟩ := Res.bind_eq_ok.1 ha
  have := freeLoop_le _ hl
  cases ha
  obtain ⟨g1, g2, g3⟩ := h
  exact ⟨by dsimp only; omega, by dsimp only; omega, g3⟩

theorem Fair.freeFirstOne (h : f.Fair mi) (ha : f.freeFirstOne = .ok f') : f'.Fair mi := by
  unfold Inflights.freeFirstOne at ha
  obtain ⟨y, _, ha⟩ := Res.bind_eq_ok.1 ha
  exact h.freeLE ha

end Inflights

namespace Progress
variable {p : Progress} {mi : Int}

theorem fair_maybeUpdate {n : Nat} : (p.maybeUpdate n).1.inflights = p.inflights := by
  unfold maybeUpdate; dsimp only; split <;> rfl

theorem fair_becomeProbe (h : p.inflights.Fair mi) : p.becomeProbe.inflights.Fair mi := by
  unfold becomeProbe; split <;> exact h.reset

theorem fair_becomeReplicate (h : p.inflights.Fair mi) : p.becomeReplicate.inflights.Fair mi := h.reset

theorem fair_maybeDecrTo {a b : Nat} : (p.maybeDecrTo a b).1.inflights = p.inflights := by
  unfold maybeDecrTo; split <;> split <;> rfl

end Progress

/-- Whatever happened from `a` to `b`, the windows are fine afterwards if they were before. -/
def Wnd (a b : Raft) : Prop := b.trk.maxInflight = a.trk.maxInflight ∧ (a.Windows → b.Windows)

namespace Wnd
variable {env : Env} {im : Message} {a b c r r' : Raft}

theorem of (h : b.trk = a.trk) : Wnd a b := ⟨by rw [h], fun w => by unfold Raft.Windows; rw [h]; exact w⟩

theorem of2 (h : b.trk.maxInflight = a.trk.maxInflight) (h2 : b.trk.progress = a.trk.progress) : Wnd a b :=
  ⟨h, fun w => by unfold Raft.Windows; rw [h, h2]; exact w⟩

theorem refl : Wnd a a := .of rfl

theorem trans (h1 : Wnd a b) (h2 : Wnd b c) : Wnd a c := ⟨h2.1.trans h1.1, h2.2 ∘ h1.2⟩

theorem after (h : Wnd b c) (e : b.trk = a.trk) : Wnd a c := (of e).trans h

theorem setPr {v : Nat} {p : Progress} (h : p.inflights.Fair r.trk.maxInflight) : Wnd r (r.setPr v p) :=
  ⟨rfl, fun w => ⟨w.1, Changer.AllInfl.insert w.2 h⟩⟩

/-- The new progress of a peer has a window made from that of the old one. -/
theorem setPr_from {v : Nat} {p q : Progress} (hq : r.pr v = some q) (h : q.inflights.Fair r.trk.maxInflight → p.inflights.Fair r.trk.maxInflight) :
    Wnd r (r.setPr v p) := ⟨rfl, fun w => ⟨w.1, Changer.AllInfl.insert w.2 (h (w.2 v q hq))⟩⟩

theorem send {m : Message} (h : r.send m = .ok r') : Wnd r r' := by
  rw [Raft.send_ok h]; exact .of rfl

theorem maybeSendAppend {k0 : Nat} {se d : Bool} (h : r.maybeSendAppend env k0 se = .ok (r', d)) : Wnd r r' := by
  obtain ⟨pr, hq, ⟨rfl, _⟩ | ⟨hpa, _, t, es, p', _, _, _, hs, h2⟩ | ⟨hpa, _, _, _, _, h2⟩⟩ := Raft.maybeSendAppend_cases h
  · exact .refl
  · refine .trans (.setPr_from (p := p') hq fun hf => ?_) (send h2)
    rcases hs with ⟨he, rfl⟩ | ⟨e, he, ⟨hst, infl, hi, rfl⟩ | ⟨hst, rfl⟩⟩
    · exact hf
    · exact hf.add hi
    · exact hf
  · exact .trans (.setPr_from (p := pr.becomeSnapshot r.log.snapshot.metadata.index) hq fun hf => hf.reset) (send h2)

theorem sendAppend {k0 : Nat} (h : r.sendAppend env k0 = .ok r') : Wnd r r' := by
  unfold Raft.sendAppend at h
  obtain ⟨⟨r2, d⟩, h2, h⟩ := Res.bind_eq_ok.1 h
  cases h
  exact maybeSendAppend h2

theorem sendLoop {k0 : Nat} (k : Nat) (h : Raft.sendLoop env k0 k r = .ok r') : Wnd r r' := by
  induction k generalizing r with
  | zero => cases h
  | succ k ih =>
    unfold Raft.sendLoop at h
    obtain ⟨⟨r2, d⟩, h2, h⟩ := Res.bind_eq_ok.1 h
    dsimp only at h
    split at h
    · exact (maybeSendAppend h2).trans (ih h)
    · cases h; exact maybeSendAppend h2

theorem visit {f : Raft → Nat → Res Raft} (hf : ∀ {a b : Raft} {i : Nat}, f a i = .ok b → Wnd a b) (ids : List Nat)
    (h : Raft.visitOthers f ids r = .ok r') : Wnd r r' := by
  induction ids generalizing r with
  | nil => cases h; exact .refl
  | cons id ids ih =>
    unfold Raft.visitOthers at h
    split at h
    · exact ih h
    · obtain ⟨r2, h2, h⟩ := Res.bind_eq_ok.1 h
      exact (hf h2).trans (ih h)

theorem bcastAppend (h : r.bcastAppend env = .ok r') : Wnd r r' := visit sendAppend _ h

theorem sendHeartbeat {k0 : Nat} {ctx : Bytes} (h : r.sendHeartbeat k0 ctx = .ok r') : Wnd r r' := by
  unfold Raft.sendHeartbeat at h
  obtain ⟨p, hp, h⟩ := Res.bind_eq_ok.1 h
  exact send h

theorem bcastHeartbeatWithCtx {ctx : Bytes} (h : r.bcastHeartbeatWithCtx ctx = .ok r') : Wnd r r' := visit sendHeartbeat _ h

theorem bcastHeartbeat (h : r.bcastHeartbeat = .ok r') : Wnd r r' := bcastHeartbeatWithCtx h

theorem maybeCommit {d : Bool} (h : r.maybeCommit = .ok (r', d)) : Wnd r r' := by
  unfold Raft.maybeCommit at h
  obtain ⟨⟨l, b⟩, _, h⟩ := Res.bind_eq_ok.1 h
  cases h
  exact .of rfl

theorem respondReadIndex {req : Message} {i : Nat} (h : r.respondReadIndex req i = .ok r') : Wnd r r' := by
  unfold Raft.respondReadIndex at h
  obtain ⟨⟨r2, m⟩, h2, h⟩ := Res.bind_eq_ok.1 h
  unfold Raft.responseToReadIndexReq at h2
  split at h2
  · obtain ⟨ctx, _, h2⟩ := Res.bind_eq_ok.1 h2
    cases h2
    dsimp only at h
    rw [if_neg (by intro h; exact h rfl)] at h
    cases h
    exact .of rfl
  · cases h2
    dsimp only at h
    split at h
    · exact send h
    · cases h; exact .refl

theorem respondAll (rss : List ReadIndexStatus) (h : Raft.respondAll rss r = .ok r') : Wnd r r' := by
  induction rss generalizing r with
  | nil => cases h; exact .refl
  | cons rs rss ih =>
    unfold Raft.respondAll at h
    obtain ⟨r2, h2, h⟩ := Res.bind_eq_ok.1 h
    exact (respondReadIndex h2).trans (ih h)

theorem sendMsgReadIndexResponse {m : Message} (h : r.sendMsgReadIndexResponse m = .ok r') : Wnd r r' := by
  unfold Raft.sendMsgReadIndexResponse at h
  split at h
  · obtain ⟨ro, _, h⟩ := Res.bind_eq_ok.1 h
    obtain ⟨ctx, _, h⟩ := Res.bind_eq_ok.1 h
    exact .after (bcastHeartbeatWithCtx h) rfl
  · exact respondReadIndex h

theorem releaseLoop (ms : List Message) (h : Raft.releaseLoop ms r = .ok r') : Wnd r r' := by
  induction ms generalizing r with
  | nil => cases h; exact .refl
  | cons m ms ih =>
    unfold Raft.releaseLoop at h
    obtain ⟨r2, h2, h⟩ := Res.bind_eq_ok.1 h
    exact (sendMsgReadIndexResponse h2).trans (ih h)

theorem releasePending (h : r.releasePendingReadIndexMessages = .ok r') : Wnd r r' := by
  unfold Raft.releasePendingReadIndexMessages at h
  obtain ⟨d, _, h⟩ := Res.bind_eq_ok.1 h
  split at h
  · cases h; exact .refl
  · exact .after (releaseLoop _ h) rfl

theorem appendEntry {es : List Entry} {d : Bool} (h : r.appendEntry es = .ok (r', d)) : Wnd r r' := by
  unfold Raft.appendEntry at h
  dsimp only at h
  cases hq : r.increaseUncommittedSize (Raft.stamp r.term (r.log.lastIndex + 1) es) with
  | mk r1 ok =>
    have h1 : Wnd r r1 := by
      unfold Raft.increaseUncommittedSize at hq
      dsimp only at hq
      split at hq <;> cases hq
      · exact .refl
      · exact .of rfl
    rw [hq] at h
    dsimp only at h
    split at h
    · cases h; exact h1
    · obtain ⟨l, _, h⟩ := Res.bind_eq_ok.1 h
      obtain ⟨p, hp, h⟩ := Res.bind_eq_ok.1 h
      obtain ⟨⟨r2, d2⟩, h3, h⟩ := Res.bind_eq_ok.1 h
      cases h
      have s := maybeCommit h3
      have hp := Raft.getPr_ok hp
      have s2 : Wnd { r1 with log := l } (Raft.setPr { r1 with log := l } r1.id (p.maybeUpdate l.lastIndex).1) :=
        .setPr_from hp (by rw [Progress.fair_maybeUpdate]; exact fun x => x)
      exact h1.trans (.trans (.of rfl) (s2.trans s))

theorem leaderProp {m : Message} {e : Option Err} (h : r.leaderProp env m = .ok (r', e)) : Wnd r r' := by
  unfold Raft.leaderProp at h
  split at h
  · cases h
  split at h
  · cases h; exact .refl
  split at h
  · cases h; exact .refl
  obtain ⟨⟨es, pci⟩, _, h⟩ := Res.bind_eq_ok.1 h
  dsimp only at h
  obtain ⟨⟨r2, d⟩, h2, h⟩ := Res.bind_eq_ok.1 h
  have s : Wnd r r2 := .after (appendEntry h2) rfl
  dsimp only at h
  split at h
  · cases h; exact s
  · obtain ⟨r3, h3, h⟩ := Res.bind_eq_ok.1 h
    cases h
    exact s.trans (bcastAppend h3)

theorem leaderReadIndex {m : Message} (h : r.leaderReadIndex m = .ok r') : Wnd r r' := by
  unfold Raft.leaderReadIndex at h
  split at h
  · exact respondReadIndex h
  · obtain ⟨d, _, h⟩ := Res.bind_eq_ok.1 h
    split at h
    · cases h; exact .of rfl
    · exact sendMsgReadIndexResponse h

theorem leaderAppReject {m : Message} {p : Progress} (hp : r.pr m.src = some p) (h : r.leaderAppReject env m p = .ok r') : Wnd r r' := by
  unfold Raft.leaderAppReject at h
  have key : ∀ np, (match p.maybeDecrTo m.index np with
      | (pr, decr) =>
        if decr = true then
          Raft.sendAppend env (r.setPr m.src (if pr.state = PrState.replicate then pr.becomeProbe else pr)) m.src
        else pure (r.setPr m.src pr)) = .ok r' → Wnd r r' := by
    intro np h
    have e := Progress.fair_maybeDecrTo (p := p) (a := m.index) (b := np)
    generalize p.maybeDecrTo m.index np = x at h e
    obtain ⟨p1, d⟩ := x
    dsimp only at h e
    split at h
    · refine .trans (.setPr_from hp fun hf => ?_) (sendAppend h)
      rw [← e] at hf
      split
      · exact Progress.fair_becomeProbe hf
      · exact hf
    · cases h; exact .setPr_from hp (by rw [e]; exact fun x => x)
  dsimp only at h
  split at h
  · obtain ⟨np, _, h⟩ := Res.bind_eq_ok.1 h
    exact key np h
  · exact key _ h

theorem leaderAppAccept {m : Message} {p : Progress} (hp : r.pr m.src = some p) (h : r.leaderAppAccept env m p = .ok r') : Wnd r r' := by
  unfold Raft.leaderAppAccept at h
  dsimp only at h
  have e := Progress.fair_maybeUpdate (p := p) (n := m.index)
  generalize (p.maybeUpdate m.index) = x at h e
  obtain ⟨p1, u⟩ := x
  dsimp only at h e
  split at h
  · cases h; exact .setPr_from hp (by rw [e]; exact fun x => x)
  obtain ⟨q, hq, h⟩ : ∃ q : Progress, (p.inflights.Fair r.trk.maxInflight → q.inflights.Fair r.trk.maxInflight) ∧ (do
          let (r, c) ← (r.setPr m.src q).maybeCommit
          let r ←
            if c then do
              let r ← r.releasePendingReadIndexMessages
              r.bcastAppend env
            else if p.isPaused then r.sendAppend env m.src
            else pure r
          let r ← Raft.sendLoop env m.src (r.log.lastIndex + 2) r
          let pr ← r.getPr m.src "raft.cc:1242"
          if m.src = r.leadTransferee ∧ pr.mtch = r.log.lastIndex then r.sendTimeoutNow m.src
          else pure r) = .ok r' := by
    rw [← e]
    split at h
    · exact ⟨p1.becomeReplicate, fun hf => Progress.fair_becomeReplicate hf, h⟩
    · split at h
      · exact ⟨p1.becomeProbe.becomeReplicate, fun hf => Progress.fair_becomeReplicate (Progress.fair_becomeProbe hf), h⟩
      · exact ⟨p1, fun hf => hf, h⟩
    · obtain ⟨infl, hi, h⟩ := Res.bind_eq_ok.1 h
      exact ⟨{ p1 with inflights := infl }, fun hf => hf.freeLE hi, h⟩
  obtain ⟨⟨r2, d⟩, h2, h⟩ := Res.bind_eq_ok.1 h
  have s2 : Wnd r r2 := .trans (.setPr_from (v := m.src) (p := q) hp hq) (maybeCommit h2)
  dsimp only at h
  obtain ⟨r3, s3, h⟩ : ∃ r3, Wnd r r3 ∧ (do
          let r ← Raft.sendLoop env m.src (r3.log.lastIndex + 2) r3
          let pr ← r.getPr m.src "raft.cc:1242"
          if m.src = r.leadTransferee ∧ pr.mtch = r.log.lastIndex then r.sendTimeoutNow m.src
          else pure r) = .ok r' := by
    split at h
    · obtain ⟨r4, h4, h⟩ := Res.bind_eq_ok.1 h
      obtain ⟨r3, h3, h⟩ := Res.bind_eq_ok.1 h
      exact ⟨r3, s2.trans ((releasePending h4).trans (bcastAppend h3)), h⟩
    · split at h
      · obtain ⟨r3, h3, h⟩ := Res.bind_eq_ok.1 h
        exact ⟨r3, s2.trans (sendAppend h3), h⟩
      · exact ⟨r2, s2, h⟩
  obtain ⟨r5, h5, h⟩ := Res.bind_eq_ok.1 h
  have s5 := s3.trans (sendLoop _ h5)
  obtain ⟨q, hq, h⟩ := Res.bind_eq_ok.1 h
  split at h
  · exact s5.trans (send h)
  · cases h; exact s5

theorem leaderHeartbeatResp {m : Message} {p : Progress} (hp : r.pr m.src = some p) (h : r.leaderHeartbeatResp env m p = .ok r') : Wnd r r' := by
  unfold Raft.leaderHeartbeatResp at h
  dsimp only at h
  obtain ⟨q, hq, h⟩ : ∃ q : Progress, (p.inflights.Fair r.trk.maxInflight → q.inflights.Fair r.trk.maxInflight) ∧ (do
      let r ← if q.mtch < (r.setPr m.src q).log.lastIndex then (r.setPr m.src q).sendAppend env m.src else pure (r.setPr m.src q)
      if r.readOnly.option ≠ ReadOnlyOption.safe ∨ m.context = [] then pure r
      else
        let (ro, acks) := r.readOnly.recvAck m.src m.context
        let r := { r with readOnly := ro }
        if r.trk.config.voters.voteResult acks ≠ VoteState.won then pure r
        else
          let (ro, rss) ← r.readOnly.advance m.context
          Raft.respondAll rss { r with readOnly := ro }) = .ok r' := by
    split at h
    · obtain ⟨infl, hi, h⟩ := Res.bind_eq_ok.1 h
      exact ⟨{ p with recentActive := true, probeSent := false, inflights := infl }, fun hf => hf.freeFirstOne hi, h⟩
    · exact ⟨{ p with recentActive := true, probeSent := false }, fun hf => hf, h⟩
  have s0 : Wnd r (r.setPr m.src q) := .setPr_from hp hq
  obtain ⟨r2, s2, h⟩ : ∃ r2, Wnd r r2 ∧ (
      if r2.readOnly.option ≠ ReadOnlyOption.safe ∨ m.context = [] then pure r2
      else
        let (ro, acks) := r2.readOnly.recvAck m.src m.context
        let r := { r2 with readOnly := ro }
        if r.trk.config.voters.voteResult acks ≠ VoteState.won then pure r
        else do
          let (ro, rss) ← r.readOnly.advance m.context
          Raft.respondAll rss { r with readOnly := ro }) = .ok r' := by
    dsimp only at h
    split at h
    · obtain ⟨r2, h2, h⟩ := Res.bind_eq_ok.1 h
      exact ⟨r2, s0.trans (sendAppend h2), h⟩
    · exact ⟨_, s0, h⟩
  split at h
  · cases h; exact s2
  · dsimp only at h
    split at h
    · cases h; exact s2.trans (.of rfl)
    · obtain ⟨⟨ro, rss⟩, _, h⟩ := Res.bind_eq_ok.1 h
      exact s2.trans (.after (respondAll _ h) rfl)

theorem leaderSnapStatus {m : Message} {p : Progress} (hp : r.pr m.src = some p) : Wnd r (r.leaderSnapStatus m p) := by
  unfold Raft.leaderSnapStatus
  split
  · exact .refl
  · refine .setPr_from hp fun hf => ?_
    dsimp only
    split
    · exact Progress.fair_becomeProbe hf
    · exact Progress.fair_becomeProbe (p := { p with pendingSnapshot := 0 }) hf

theorem leaderTransfer {m : Message} {p : Progress} (h : r.leaderTransfer env m p = .ok r') : Wnd r r' := by
  unfold Raft.leaderTransfer at h
  split at h
  · cases h; exact .refl
  split at h
  · cases h; exact .refl
  dsimp only at h
  generalize hr1 : (if r.leadTransferee ≠ 0 then { r with leadTransferee := 0 } else r) = r1 at h
  have k1 : Wnd r r1 := by
    rw [← hr1]
    split <;> exact .of rfl
  refine k1.trans ?_
  clear k1 hr1
  split at h
  · cases h; exact .refl
  split at h
  · exact .after (send h) rfl
  · exact .after (sendAppend h) rfl

theorem mapped {f : Nat → Progress → Progress} (hf : ∀ v p, (f v p).inflights = p.inflights) :
    Wnd r { r with trk := { r.trk with progress := r.trk.progress.map fun (id, p) => (id, f id p) } } := by
  refine ⟨rfl, fun w => ⟨w.1, fun k p hk => ?_⟩⟩
  have e : AMap.find (r.trk.progress.map fun (id, p) => (id, f id p)) k = (AMap.find r.trk.progress k).map (f k) := AMap.find_map r.trk.progress f k
  dsimp only at hk
  rw [e] at hk
  obtain ⟨q, hq, rfl⟩ := Option.map_eq_some_iff.1 hk
  rw [hf]
  exact w.2 k q hq

theorem reset (t : Nat) : Wnd r (r.reset env t) := by
  have e0 : (r.reset env t).trk.maxInflight = r.trk.maxInflight := by
    unfold Raft.reset Raft.resetRandomizedElectionTimeout
    by_cases ht : r.term ≠ t
    · simp only [if_pos ht]
    · simp only [if_neg ht]
  refine ⟨e0, fun w => ⟨by rw [e0]; exact w.1, fun k p hk => ?_⟩⟩
  have em : (r.reset env t).trk.progress = r.trk.progress.map fun (p : Nat × Progress) => (p.1, r.resetPr p.1 p.2) := by
    unfold Raft.reset Raft.resetPr Raft.resetRandomizedElectionTimeout
    by_cases ht : r.term ≠ t
    · simp only [if_pos ht]
    · simp only [if_neg ht]
  have e : AMap.find (r.trk.progress.map fun (p : Nat × Progress) => (p.1, r.resetPr p.1 p.2)) k = (AMap.find r.trk.progress k).map (r.resetPr k) :=
    AMap.find_map r.trk.progress (fun id p => r.resetPr id p) k
  rw [em, e] at hk
  obtain ⟨q, hq, rfl⟩ := Option.map_eq_some_iff.1 hk
  rw [e0]
  have : (r.resetPr k q).inflights = .new r.trk.maxInflight := by unfold Raft.resetPr; dsimp only; split <;> rfl
  rw [this]
  exact .new (Int.le_of_lt w.1)

theorem becomeFollower (t l : Nat) : Wnd r (r.becomeFollower env t l) := (reset (env := env) t).trans (.of rfl)

theorem leaderCheckQuorum : Wnd r (r.leaderCheckQuorum env) := by
  have k : ∀ r2 : Raft, Wnd r r2 → Wnd r { r2 with trk := { r2.trk with
      progress := r2.trk.progress.map fun (id, p) => (id, if id ≠ r2.id then { p with recentActive := false } else p) } } :=
    fun r2 x => x.trans (mapped (f := fun id p => if id ≠ r2.id then { p with recentActive := false } else p) fun v p => by split <;> rfl)
  refine k _ ?_
  have k1 : ∀ r1, Wnd r r1 → Wnd r (if ¬ r1.trk.quorumActive then r1.becomeFollower env r1.term 0 else r1) := by
    intro r1 s1
    split
    · exact s1.trans (.becomeFollower r1.term 0)
    · exact s1
  refine k1 _ ?_
  split
  · rename_i p hp
    exact .setPr_from hp fun hf => hf
  · exact .refl

theorem stepLeader {e : Option Err} (h : r.stepLeader env im = .ok (r', e)) : Wnd r r' := by
  unfold Raft.stepLeader at h
  have rest : ∀ {x : Res (Raft × Option Err)}, (∀ p, r.pr im.src = some p → (match im.type with
      | .appResp => do
        let pr := { p with recentActive := true }
        let r := r.setPr im.src pr
        let r ← if im.reject then r.leaderAppReject env im pr else r.leaderAppAccept env im pr
        pure (r, none)
      | .heartbeatResp => do let r ← r.leaderHeartbeatResp env im p; pure (r, none)
      | .snapStatus => .ok (r.leaderSnapStatus im p, none)
      | .unreachable =>
        .ok (if p.state = .replicate then r.setPr im.src p.becomeProbe else r, none)
      | .transferLeader => do let r ← r.leaderTransfer env im p; pure (r, none)
      | _ => .ok (r, none)) = Res.ok (r', e) → Wnd r r') := by
    intro _ p hp h
    cases ht : im.type <;> simp only [ht] at h
    case appResp =>
      have s0 : Wnd r (r.setPr im.src { p with recentActive := true }) := .setPr_from hp fun hf => hf
      have hp' : (r.setPr im.src { p with recentActive := true }).pr im.src = some { p with recentActive := true } := AMap.find_insert_self _ _ _
      split at h
      · obtain ⟨r2, h2, h⟩ := Res.bind_eq_ok.1 h
        cases h
        exact s0.trans (leaderAppReject hp' h2)
      · obtain ⟨r2, h2, h⟩ := Res.bind_eq_ok.1 h
        cases h
        exact s0.trans (leaderAppAccept hp' h2)
    case heartbeatResp =>
      obtain ⟨r2, h2, h⟩ := Res.bind_eq_ok.1 h
      cases h
      exact leaderHeartbeatResp hp h2
    case snapStatus => cases h; exact leaderSnapStatus hp
    case unreachable =>
      cases h
      split
      · exact .setPr_from hp fun hf => Progress.fair_becomeProbe hf
      · exact .refl
    case transferLeader =>
      obtain ⟨r2, h2, h⟩ := Res.bind_eq_ok.1 h
      cases h
      exact leaderTransfer h2
    all_goals (cases h; exact .refl)
  split at h
  · obtain ⟨r2, h2, h⟩ := Res.bind_eq_ok.1 h
    cases h
    exact bcastHeartbeat h2
  · cases h
    exact leaderCheckQuorum
  · exact leaderProp h
  · obtain ⟨r2, h2, h⟩ := Res.bind_eq_ok.1 h
    cases h
    exact leaderReadIndex h2
  · split at h
    · cases h; exact .refl
    · rename_i p hp
      exact rest (x := .ok (r', e)) p hp h

theorem becomeCandidate (h : r.becomeCandidate env = .ok r') : Wnd r r' := by
  unfold Raft.becomeCandidate at h
  split at h
  · cases h
  · cases h
    exact (reset (env := env) _).trans (.of rfl)

theorem becomePreCandidate (h : r.becomePreCandidate = .ok r') : Wnd r r' := by
  unfold Raft.becomePreCandidate at h
  split at h
  · cases h
  · cases h; exact .of2 rfl rfl

theorem becomeLeader (h : r.becomeLeader env = .ok r') : Wnd r r' := by
  unfold Raft.becomeLeader at h
  split at h
  · cases h
  dsimp only at h
  obtain ⟨pr, hp, h⟩ := Res.bind_eq_ok.1 h
  obtain ⟨⟨r2, ok⟩, h2, h⟩ := Res.bind_eq_ok.1 h
  dsimp only at h
  split at h
  · cases h
  cases h
  have hp := Raft.getPr_ok hp
  have k : Wnd r { r.reset env r.term with lead := r.id, state := .leader } := (reset (env := env) _).trans (.of rfl)
  have k2 : Wnd { r.reset env r.term with lead := r.id, state := .leader }
      (Raft.setPr { r.reset env r.term with lead := r.id, state := .leader } (r.reset env r.term).id pr.becomeReplicate) := .setPr_from hp fun hf => hf.reset
  have k3 : Wnd r2 (r2.reduceUncommittedSize [{}]) := .of (by unfold Raft.reduceUncommittedSize; split <;> (try split) <;> rfl)
  exact k.trans (k2.trans (.trans (.after (appendEntry h2) rfl) k3))

theorem sendVotes {vm : MsgType} {t : Nat} {ctx : Bytes} (ids : List Nat) (h : r.sendVotes vm t ctx ids = .ok r') : Wnd r r' := by
  induction ids generalizing r with
  | nil => cases h; exact .refl
  | cons id ids ih =>
    unfold Raft.sendVotes at h
    split at h
    · exact ih h
    · obtain ⟨_, _, h⟩ := Res.bind_eq_ok.1 h
      obtain ⟨r2, h2, h⟩ := Res.bind_eq_ok.1 h
      exact (send h2).trans (ih h)

theorem vote (id : Nat) (v : Bool) : Wnd r (r.poll id v).1 := by
  refine .of2 ?_ ?_ <;> (unfold Raft.poll Tracker.recordVote; dsimp only; split <;> rfl)

theorem campaignElection {b : Bool} (h : r.campaignElection env b = .ok r') : Wnd r r' := by
  unfold Raft.campaignElection at h
  obtain ⟨r2, h2, h⟩ := Res.bind_eq_ok.1 h
  have c2 := becomeCandidate h2
  have c3 := vote (r := r2) r2.id true
  generalize r2.poll r2.id true = x at h c3
  obtain ⟨r3, res⟩ := x
  dsimp only at h
  split at h
  · exact c2.trans (c3.trans (becomeLeader h))
  · exact c2.trans (c3.trans (sendVotes _ h))

theorem campaign {t : CampaignType} (h : r.campaign env t = .ok r') : Wnd r r' := by
  unfold Raft.campaign at h
  split at h
  · obtain ⟨r2, h2, h⟩ := Res.bind_eq_ok.1 h
    have c2 := becomePreCandidate h2
    have c3 := vote (r := r2) r2.id true
    generalize r2.poll r2.id true = x at h c3
    obtain ⟨r3, res⟩ := x
    dsimp only at h
    split at h
    · exact c2.trans (c3.trans (campaignElection h))
    · exact c2.trans (c3.trans (sendVotes _ h))
  · exact campaignElection h
  · exact campaignElection h

theorem hup {t : CampaignType} (h : r.hup env t = .ok r') : Wnd r r' := by
  unfold Raft.hup at h
  split at h
  · cases h; exact .refl
  split at h
  · cases h; exact .refl
  obtain ⟨x, _, h⟩ := Res.bind_eq_ok.1 h
  cases x with
  | error e => cases h
  | ok es =>
    dsimp only at h
    split at h
    · cases h; exact .refl
    · exact campaign h

theorem handleAppendEntries {m : Message} (h : r.handleAppendEntries m = .ok r') : Wnd r r' := by
  unfold Raft.handleAppendEntries at h
  split at h
  · exact send h
  obtain ⟨⟨l, res⟩, _, h⟩ := Res.bind_eq_ok.1 h
  cases res with
  | some li => exact .after (send (r := { r with log := l }) h) rfl
  | none =>
    dsimp only at h
    obtain ⟨_, _, h⟩ := Res.bind_eq_ok.1 h
    obtain ⟨_, _, h⟩ := Res.bind_eq_ok.1 h
    obtain ⟨_, _, h⟩ := Res.bind_eq_ok.1 h
    obtain ⟨x, _, h⟩ := Res.bind_eq_ok.1 h
    cases x with
    | error e => cases h
    | ok t => exact send h

theorem handleHeartbeat {m : Message} (h : r.handleHeartbeat m = .ok r') : Wnd r r' := by
  unfold Raft.handleHeartbeat at h
  obtain ⟨l, _, h⟩ := Res.bind_eq_ok.1 h
  exact .after (send (r := { r with log := l }) h) rfl

theorem visitSend (ids : List Nat) (h : Raft.visitSend env ids r = .ok r') : Wnd r r' := by
  induction ids generalizing r with
  | nil => cases h; exact .refl
  | cons id ids ih =>
    unfold Raft.visitSend at h
    obtain ⟨⟨r3, d3⟩, h3, h⟩ := Res.bind_eq_ok.1 h
    exact (maybeSendAppend h3).trans (ih h)

theorem switchSend (h : r.switchSend env = .ok r') : Wnd r r' := by
  unfold Raft.switchSend at h
  obtain ⟨⟨r2, d⟩, h2, h⟩ := Res.bind_eq_ok.1 h
  refine (maybeCommit h2).trans ?_
  dsimp only at h
  split at h
  · exact bcastAppend h
  · exact visitSend _ h

theorem switchToConfig {cfg : TConfig} {prs : ProgressMap} {cs : ConfState} (hf : r.Windows → AllInfl (Inflights.Fair r.trk.maxInflight) prs)
    (h : r.switchToConfig env cfg prs = .ok (r', cs)) : Wnd r r' := by
  have k0 : ∀ x : Raft, x.trk = { r.trk with config := cfg, progress := prs } → Wnd r x := fun x hx => ⟨by rw [hx], fun w => ⟨by rw [hx]; exact w.1, by rw [hx]; exact hf w⟩⟩
  unfold Raft.switchToConfig at h
  dsimp only at h
  split at h
  · cases h; exact k0 _ rfl
  split at h
  · cases h; exact k0 _ rfl
  obtain ⟨r2, h2, h⟩ := Res.bind_eq_ok.1 h
  have s := switchSend h2
  split at h
  · cases h
    exact (k0 _ rfl).trans (s.trans (.of rfl))
  · cases h; exact (k0 _ rfl).trans s

theorem restore {s : Snapshot} {ok : Bool} (h : r.restore env s = .ok (r', ok)) : Wnd r r' := by
  unfold Raft.restore at h
  split at h
  · cases h; exact .refl
  split at h
  · cases h; exact .becomeFollower _ _
  dsimp only at h
  split at h
  · cases h; exact .refl
  obtain ⟨m, _, h⟩ := Res.bind_eq_ok.1 h
  split at h
  · obtain ⟨_, _, h⟩ := Res.bind_eq_ok.1 h
    obtain ⟨l, _, h⟩ := Res.bind_eq_ok.1 h
    cases h; exact .of rfl
  split at h
  · cases h
  next cfg prs hres =>
  have k0 : Wnd r { r with log := r.log.restore s, trk := { maxInflight := r.trk.maxInflight } } :=
    ⟨rfl, fun w => ⟨w.1, fun k p hk => by cases hk⟩⟩
  obtain ⟨⟨r2, cs2⟩, h2, h⟩ := Res.bind_eq_ok.1 h
  dsimp only at h
  split at h
  · cases h
  obtain ⟨pr, hp, h⟩ := Res.bind_eq_ok.1 h
  obtain ⟨_, _, h⟩ := Res.bind_eq_ok.1 h
  cases h
  have hn := Changer.restore_new hres
  have s := switchToConfig (fun w k p hk => by rw [hn k p hk]; exact .new (Int.le_of_lt w.1)) h2
  have hp := Raft.getPr_ok hp
  exact k0.trans (s.trans (.setPr_from hp (by rw [Progress.fair_maybeUpdate]; exact fun x => x)))

theorem handleSnapshot {m : Message} (h : r.handleSnapshot env m = .ok r') : Wnd r r' := by
  unfold Raft.handleSnapshot at h
  obtain ⟨⟨r2, ok⟩, h2, h⟩ := Res.bind_eq_ok.1 h
  refine (restore h2).trans ?_
  dsimp only at h
  split at h <;> exact send h

theorem stepVote {m : Message} (h : r.stepVote m = .ok r') : Wnd r r' := by
  unfold Raft.stepVote at h
  obtain ⟨up, _, h⟩ := Res.bind_eq_ok.1 h
  obtain ⟨_, _, h⟩ := Res.bind_eq_ok.1 h
  obtain ⟨rt, hrt, h⟩ := Res.bind_eq_ok.1 h
  split at h
  · obtain ⟨r2, h2, h⟩ := Res.bind_eq_ok.1 h
    have s := send h2
    split at h
    · cases h; exact s.trans (.of rfl)
    · cases h; exact s
  · exact send h

theorem stepFollower {e : Option Err} (h : r.stepFollower env im = .ok (r', e)) : Wnd r r' := by
  unfold Raft.stepFollower at h
  cases ht : im.type <;> simp only [ht] at h
  case prop =>
    split at h
    · cases h; exact .refl
    split at h
    · cases h; exact .refl
    obtain ⟨r2, h2, h⟩ := Res.bind_eq_ok.1 h
    cases h; exact send h2
  case app =>
    obtain ⟨r2, h2, h⟩ := Res.bind_eq_ok.1 h
    cases h
    exact .after (handleAppendEntries h2) rfl
  case heartbeat =>
    obtain ⟨r2, h2, h⟩ := Res.bind_eq_ok.1 h
    cases h
    exact .after (handleHeartbeat h2) rfl
  case snap =>
    obtain ⟨r2, h2, h⟩ := Res.bind_eq_ok.1 h
    cases h
    exact .after (handleSnapshot h2) rfl
  case transferLeader =>
    split at h
    · cases h; exact .refl
    obtain ⟨r2, h2, h⟩ := Res.bind_eq_ok.1 h
    cases h; exact send h2
  case timeoutNow =>
    obtain ⟨r2, h2, h⟩ := Res.bind_eq_ok.1 h
    cases h; exact hup h2
  case readIndex =>
    split at h
    · cases h; exact .refl
    obtain ⟨r2, h2, h⟩ := Res.bind_eq_ok.1 h
    cases h; exact send h2
  case readIndexResp =>
    split at h <;> cases h
    · exact .of rfl
    · exact .refl
  all_goals (cases h; exact .refl)

theorem candidateVoteResp {m : Message} (h : r.candidateVoteResp env m = .ok r') : Wnd r r' := by
  unfold Raft.candidateVoteResp at h
  have c3 := vote (r := r) m.src (!m.reject)
  generalize r.poll m.src (!m.reject) = x at h c3
  obtain ⟨r3, res⟩ := x
  dsimp only at h c3
  refine c3.trans ?_
  split at h
  · split at h
    · exact campaignElection h
    · obtain ⟨r2, h2, h⟩ := Res.bind_eq_ok.1 h
      exact (becomeLeader h2).trans (bcastAppend h)
  · cases h; exact .becomeFollower _ _
  · cases h; exact .refl

theorem stepCandidate {e : Option Err} (h : r.stepCandidate env im = .ok (r', e)) : Wnd r r' := by
  unfold Raft.stepCandidate at h
  cases ht : im.type <;> simp only [ht] at h
  case app =>
    obtain ⟨r2, h2, h⟩ := Res.bind_eq_ok.1 h
    cases h
    exact .trans (.becomeFollower _ _) (handleAppendEntries h2)
  case heartbeat =>
    obtain ⟨r2, h2, h⟩ := Res.bind_eq_ok.1 h
    cases h
    exact .trans (.becomeFollower _ _) (handleHeartbeat h2)
  case snap =>
    obtain ⟨r2, h2, h⟩ := Res.bind_eq_ok.1 h
    cases h
    exact .trans (.becomeFollower _ _) (handleSnapshot h2)
  case preVoteResp =>
    split at h
    · obtain ⟨r2, h2, h⟩ := Res.bind_eq_ok.1 h
      cases h
      exact candidateVoteResp h2
    · cases h; exact .refl
  case voteResp =>
    split at h
    · obtain ⟨r2, h2, h⟩ := Res.bind_eq_ok.1 h
      cases h
      exact candidateVoteResp h2
    · cases h; exact .refl
  all_goals (cases h; exact .refl)

theorem stepBody {e : Option Err} (h : r.stepBody env im = .ok (r', e)) : Wnd r r' := by
  unfold Raft.stepBody at h
  split at h
  · obtain ⟨r2, h2, h⟩ := Res.bind_eq_ok.1 h
    cases h; exact .hup h2
  · obtain ⟨r2, h2, h⟩ := Res.bind_eq_ok.1 h
    cases h; exact .stepVote h2
  · obtain ⟨r2, h2, h⟩ := Res.bind_eq_ok.1 h
    cases h; exact .stepVote h2
  · unfold Raft.stepState at h
    split at h
    · exact .stepFollower h
    · exact .stepCandidate h
    · exact .stepCandidate h
    · exact .stepLeader h

theorem step {e : Option Err} (h : r.step env im = .ok (r', e)) : Wnd r r' := by
  unfold Raft.step at h
  obtain ⟨g, hg, k⟩ := Res.bind_eq_ok.1 h
  clear h; have h := k; clear k
  unfold Raft.stepGate at hg
  split at hg
  · cases hg; exact stepBody h
  split at hg
  · split at hg
    · obtain ⟨_, _, hg⟩ := Res.bind_eq_ok.1 hg
      cases hg; cases h; exact .refl
    split at hg
    · cases hg; exact stepBody h
    split at hg
    · cases hg; exact stepBody h
    split at hg
    · cases hg
      exact .trans (.becomeFollower _ _) (stepBody h)
    · cases hg
      exact .trans (.becomeFollower _ _) (stepBody h)
  split at hg
  · split at hg
    · obtain ⟨r1, h1, hg⟩ := Res.bind_eq_ok.1 hg
      cases hg; cases h; exact send h1
    split at hg
    · obtain ⟨_, _, hg⟩ := Res.bind_eq_ok.1 hg
      obtain ⟨r1, h1, hg⟩ := Res.bind_eq_ok.1 hg
      cases hg; cases h; exact send h1
    · cases hg; cases h; exact .refl
  · cases hg
    exact stepBody h

theorem onStep {n n' : RawNode} {f : Raft → Message} {e : Option Err} (h : (n.onRaft fun r => r.step env (f r)) = .ok (n', e)) : Wnd n.raft n'.raft := by
  unfold RawNode.onRaft at h
  obtain ⟨⟨r1, e1⟩, h1, h⟩ := Res.bind_eq_ok.1 h
  cases h
  exact step h1

theorem tick (h : r.tick env = .ok r') : Wnd r r' := by
  unfold Raft.tick at h
  split at h
  · unfold Raft.tickHeartbeat at h
    obtain ⟨r1, h1, h⟩ := Res.bind_eq_ok.1 h
    refine .trans (b := r1) ?_ ?_
    · unfold Raft.tickHeartbeatTimeout at h1
      dsimp only at h1
      split at h1
      · split at h1
        · obtain ⟨⟨r2, e⟩, h2, h1⟩ := Res.bind_eq_ok.1 h1
          have w := step h2
          refine .trans (.trans (.of rfl) w) ?_
          dsimp only at h1
          split at h1 <;> cases h1
          · exact .of rfl
          · exact .refl
        · simp only [Res.pure_eq, Res.ok_bind] at h1
          split at h1 <;> cases h1 <;> exact .of rfl
      · cases h1; exact .of rfl
    · unfold Raft.tickHeartbeatBeat at h
      split at h
      · cases h; exact .refl
      split at h
      · obtain ⟨⟨r2, e⟩, h2, h⟩ := Res.bind_eq_ok.1 h
        cases h
        exact .after (step h2) rfl
      · cases h; exact .refl
  · unfold Raft.tickElection at h
    dsimp only at h
    split at h
    · obtain ⟨⟨r2, e⟩, h2, h⟩ := Res.bind_eq_ok.1 h
      cases h
      exact .after (step h2) rfl
    · cases h; exact .of rfl

theorem applyConfChange {n n' : RawNode} {cc : ConfChangeI} {cs : ConfState} (h : n.applyConfChange env cc = .ok (n', cs)) : Wnd n.raft n'.raft := by
  unfold RawNode.applyConfChange at h
  obtain ⟨⟨r, cs'⟩, h2, h1⟩ := Res.bind_eq_ok.1 h
  simp only [Res.pure_eq, Res.ok.injEq, Prod.mk.injEq] at h1
  obtain ⟨rfl, _⟩ := h1
  unfold Raft.applyConfChange at h2
  dsimp only at h2
  split at h2
  · cases h2
  · rename_i cfg prs hc
    refine switchToConfig (fun w => ?_) h2
    split at hc
    · exact Changer.leaveJoint_infl w.2 hc
    split at hc
    · exact Changer.enterJoint_infl (.new (Int.le_of_lt w.1)) w.2 hc
    · exact Changer.simple_infl (.new (Int.le_of_lt w.1)) w.2 hc

theorem applyConfChanges : ∀ (ccs : List ConfChangeI) {n n' : RawNode}, n.applyConfChanges env ccs = .ok n' → Wnd n.raft n'.raft
  | [], n, n', h => by cases h; exact .refl
  | cc :: ccs, n, n', h => by
    unfold RawNode.applyConfChanges at h
    obtain ⟨⟨n1, cs⟩, h1, h⟩ := Res.bind_eq_ok.1 h
    exact (applyConfChange h1).trans (applyConfChanges ccs h)

theorem advance {n n' : RawNode} (h : n.advance = .ok n') : Wnd n.raft n'.raft := by
  unfold RawNode.advance at h
  split at h
  · cases h
  obtain ⟨r3, h7, h8⟩ := Res.bind_eq_ok.1 h
  simp only [Res.pure_eq, Res.ok.injEq] at h8
  subst h8
  unfold Raft.advance at h7
  obtain ⟨ra, h5, h8⟩ := Res.bind_eq_ok.1 h7
  obtain ⟨la, h6, h4⟩ := Res.bind_eq_ok.1 h8
  simp only [Res.pure_eq, Res.ok.injEq] at h4
  subst h4
  refine .trans (b := ra) ?_ (.of rfl)
  rename_i rd _
  obtain ⟨u, hu⟩ := reduceUncommittedSize_eq n.raft rd.committedEntries
  rw [hu] at h5
  rcases Raft.advanceApplied_cases h5 with ⟨h0, rfl⟩ | ⟨h0, l, hl, rfl | ⟨g1, g2, g3, g4, rb, hb, rfl⟩⟩
  · exact .of rfl
  · exact .of rfl
  · exact .trans (.of rfl) ((appendEntry hb).trans (.of rfl))

theorem getReady {n n' : RawNode} {rd : Ready} (h : n.getReady env = .ok (n', rd)) : Wnd n.raft n'.raft := by
  unfold RawNode.getReady at h
  obtain ⟨rd', _, h⟩ := Res.bind_eq_ok.1 h
  simp only [Res.pure_eq, Res.ok.injEq, Prod.mk.injEq] at h
  obtain ⟨rfl, _⟩ := h
  exact .of rfl

theorem run {n n' : RawNode} {c : Call} (h : c.run env n = .ok n') : Wnd n.raft n'.raft := by
  have k : ∀ {f : Raft → Message}, (do let (n, _) ← n.onRaft fun r => r.step env (f r); pure n) = .ok n' → Wnd n.raft n'.raft := by
    intro f h
    obtain ⟨⟨n1, e⟩, h1, h⟩ := Res.bind_eq_ok.1 h
    cases h
    exact onStep h1
  cases c with
  | step m =>
    obtain ⟨⟨n1, e⟩, h1, h⟩ := Res.bind_eq_ok.1 h
    cases h
    unfold RawNode.step at h1
    split at h1
    · cases h1; exact .refl
    split at h1
    · exact onStep h1
    · cases h1; exact .refl
  | tick =>
    obtain ⟨r1, h1, h⟩ := Res.bind_eq_ok.1 h
    cases h
    exact tick h1
  | tickQuiesced => cases h; exact .of rfl
  | campaign => exact k h
  | propose d => exact k h
  | proposeConfChange cc =>
    obtain ⟨⟨n1, e⟩, h1, h⟩ := Res.bind_eq_ok.1 h
    cases h
    unfold RawNode.proposeConfChange at h1
    exact onStep (f := fun _ => { type := .prop, entries := [{ type := (cc.marshal env).1, data := (cc.marshal env).2 }] }) h1
  | applyConfChange cc =>
    obtain ⟨⟨n1, e⟩, h1, h⟩ := Res.bind_eq_ok.1 h
    cases h
    exact applyConfChange h1
  | getReady =>
    obtain ⟨⟨n1, e⟩, h1, h⟩ := Res.bind_eq_ok.1 h
    cases h
    exact getReady h1
  | advance => exact advance h
  | reportUnreachable id => exact k h
  | reportSnapshot id f => exact k h
  | transferLeader id => exact k h
  | readIndex ctx => exact k h

theorem handleReady {n n' : RawNode} {ccs : List ConfChangeI} {rd : Ready} (h : n.handleReady env ccs = .ok (n', rd)) : Wnd n.raft n'.raft := by
  unfold RawNode.handleReady RawNode.takeReady at h
  obtain ⟨⟨n1, rd1⟩, h1, h⟩ := Res.bind_eq_ok.1 h
  obtain ⟨⟨n2, rd2⟩, h2, h1⟩ := Res.bind_eq_ok.1 h1
  obtain ⟨st, _, h1⟩ := Res.bind_eq_ok.1 h1
  obtain ⟨n3, h3, h⟩ := Res.bind_eq_ok.1 h
  obtain ⟨n4, h4, h⟩ := Res.bind_eq_ok.1 h
  cases h; cases h1
  exact .trans (getReady h2) (.trans (.after (applyConfChanges ccs h3) rfl) (advance h4))

end Wnd

theorem RawNode.new_windows {env : Env} {c : Config} {st : Storage} {rng : Nat} {n : RawNode} (h : RawNode.new env c st rng = .ok n) :
    n.raft.Windows ∧ n.raft.trk.maxInflight = c.maxInflightMsgs := by
  unfold RawNode.new at h
  obtain ⟨r, h1, h⟩ := Res.bind_eq_ok.1 h
  simp only [Res.pure_eq, Res.ok.injEq] at h; subst h
  show r.Windows ∧ r.trk.maxInflight = c.maxInflightMsgs
  unfold Raft.new at h1
  split at h1
  · cases h1
  rename_i c' hv
  have hi : 0 < c'.maxInflightMsgs ∧ c'.maxInflightMsgs = c.maxInflightMsgs := by
    obtain ⟨_, _, _, _, _, _, _, g1, g2, _⟩ := Config.validate_some hv
    exact ⟨by omega, g1⟩
  dsimp only at h1
  split at h1
  · cases h1
  rename_i cfg prs hr
  obtain ⟨⟨r2, cs2⟩, h2, h1⟩ := Res.bind_eq_ok.1 h1
  dsimp only at h1
  split at h1
  · cases h1
  obtain ⟨r3, h3, h1⟩ := Res.bind_eq_ok.1 h1
  obtain ⟨r4, h4, h1⟩ := Res.bind_eq_ok.1 h1
  split at h1
  · cases h1
  obtain ⟨_, _, h1⟩ := Res.bind_eq_ok.1 h1
  cases h1
  have hn := Changer.restore_new hr
  have w2 := Wnd.switchToConfig (fun w k p hk => by rw [hn k p hk]; exact .new (Int.le_of_lt w.1)) h2
  have w3 : Wnd r2 r3 := by
    unfold Raft.newState at h3
    split at h3
    · cases h3; exact .refl
    · unfold Raft.loadState at h3
      split at h3
      · cases h3
      · cases h3; exact .of rfl
  have w4 : Wnd r3 r4 := by
    unfold Raft.newApplied at h4
    split at h4
    · obtain ⟨l, _, h4⟩ := Res.bind_eq_ok.1 h4
      cases h4; exact .of rfl
    · cases h4; exact .refl
  have w := w2.trans (w3.trans (w4.trans (.becomeFollower (env := env) r4.term 0)))
  refine ⟨w.2 ⟨hi.1, ?_⟩, w.1.trans hi.2⟩
  intro k p hk
  cases hk

theorem NodeReach.windows {env : Env} {x : NodeHist} (h : NodeReach env x) : x.node.raft.Windows := by
  induction h with
  | start cfg st rng h => exact (RawNode.new_windows h).1
  | boot cfg rng peers h0 h =>
    refine RawNode.bootstrap_inv (fun n => n.raft.Windows) h (fun l k es _ => ?_) fun cc a b h w => (Wnd.run h).2 w
    exact (Wnd.becomeFollower (env := env) 1 0).2 (RawNode.new_windows h0).1
  | step _ h ih =>
    cases h with
    | call c _ _ _ h => exact (Wnd.run h).2 ih
    | ready ccs h => exact (Wnd.handleReady h).2 ih
    | compact => exact ih
    | createSnapshot => exact ih
  | crash _ h ih =>
    cases h with
    | idle cfg rng _ h => exact (RawNode.new_windows h).1
    | inReady cfg rng some _ _ _ h => exact (RawNode.new_windows h).1

end Craft
