import Verif.Node.Transfer
import Verif.Proofs.Sets

/-! # A leader commits as soon as it can

What a leader has committed is compared with what it knows its peers to have. Sending, pausing, answering reads change none of
the two; wherever the log grows or an acknowledgement is counted, `MaybeCommit` follows. -/

namespace Craft

/-- What the commit rule looks at, except who acknowledged what. -/
def Raft.front (r : Raft) : Role × Nat × Nat × TConfig × RaftLog := (r.state, r.term, r.id, r.trk.config, r.log)

/-- What matters of one peer. -/
def Progress.ack (p : Progress) : Nat × Bool := (p.mtch, p.isLearner)

/-- Nothing the commit rule looks at changes. -/
def Front (a b : Raft) : Prop := b.front = a.front ∧ ∀ j, (b.pr j).map Progress.ack = (a.pr j).map Progress.ack

/-- The node is a voter of its own configuration (as far as its tracker knows). -/
def Raft.Counts (r : Raft) : Prop := ∃ p, r.pr r.id = some p ∧ p.isLearner = false

/-- A leader that is part of the configuration has nothing left to commit. -/
def Prompt (r : Raft) : Prop :=
  r.state = .leader → r.Counts → r.trk.config.voters.incoming ≠ [] → r.log.committed < r.trk.committed →
    ∀ t, r.log.term r.trk.committed = .ok (.ok t) → t ≠ r.term

theorem Progress.becomeProbe_ack (p : Progress) : p.becomeProbe.ack = p.ack := by
  unfold Progress.becomeProbe
  split <;> rfl

theorem Raft.SentPr.ack {p q : Progress} {es : List Entry} (h : Raft.SentPr p es q) : q.ack = p.ack := by
  rcases h with ⟨_, rfl⟩ | ⟨e, _, ⟨_, infl, _, rfl⟩ | ⟨_, rfl⟩⟩ <;> rfl

namespace Front
variable {env : Env} {a b c r r' : Raft}

theorem of (h1 : b.front = a.front) (h2 : b.trk.progress = a.trk.progress) : Front a b :=
  ⟨h1, fun j => by unfold Raft.pr; rw [h2]⟩

theorem refl : Front a a := .of rfl rfl

theorem trans (h1 : Front a b) (h2 : Front b c) : Front a c := ⟨h2.1.trans h1.1, fun j => (h2.2 j).trans (h1.2 j)⟩

theorem state (h : Front a b) : b.state = a.state := (congrArg (fun x => x.1) h.1 :)
theorem term (h : Front a b) : b.term = a.term := (congrArg (fun x => x.2.1) h.1 :)
theorem id (h : Front a b) : b.id = a.id := (congrArg (fun x => x.2.2.1) h.1 :)
theorem config (h : Front a b) : b.trk.config = a.trk.config := (congrArg (fun x => x.2.2.2.1) h.1 :)
theorem log (h : Front a b) : b.log = a.log := (congrArg (fun x => x.2.2.2.2) h.1 :)

theorem committed (h : Front a b) : b.trk.committed = a.trk.committed := by
  unfold Tracker.committed
  rw [h.config]
  congr 1
  funext j
  unfold Tracker.acked
  have := congrArg (Option.map Prod.fst) (h.2 j)
  rw [Option.map_map, Option.map_map] at this
  exact this

theorem counts (h : Front a b) : b.Counts → a.Counts := by
  rintro ⟨p, hp, hl⟩
  have := h.2 b.id
  rw [hp, h.id] at this
  cases ha : a.pr a.id with
  | none => rw [ha] at this; cases this
  | some q =>
    rw [ha] at this
    have e : p.ack = q.ack := Option.some.inj this
    exact ⟨q, ha, (congrArg Prod.snd e).symm.trans hl⟩

theorem prompt (h : Front a b) (hp : Prompt a) : Prompt b := by
  intro h1 h2 h3 h4
  rw [h.log, h.committed] at h4 ⊢
  rw [h.term]
  rw [h.config] at h3
  exact hp (h.state.symm.trans h1) (h.counts h2) h3 h4

theorem send {m : Message} (h : r.send m = .ok r') : Front r r' := by
  rw [Raft.send_ok h]
  exact .of rfl rfl

theorem setPr {id : Nat} {p q : Progress} (hq : r.pr id = some q) (hp : p.ack = q.ack) : Front r (r.setPr id p) := by
  refine ⟨rfl, fun j => ?_⟩
  by_cases hj : j = id
  · subst hj
    rw [show (r.setPr j p).pr j = some p from AMap.find_insert_self _ _ _, hq]
    exact congrArg some hp
  · rw [show (r.setPr id p).pr j = r.pr j from AMap.find_insert_ne _ _ (Ne.symm hj)]

theorem maybeSendAppend {to : Nat} {se d : Bool} (h : r.maybeSendAppend env to se = .ok (r', d)) : Front r r' := by
  obtain ⟨pr, hq, ⟨rfl, _⟩ | ⟨_, _, t, es, p', _, _, _, hs, h2⟩ | ⟨_, _, _, _, _, h2⟩⟩ := Raft.maybeSendAppend_cases h
  · exact .refl
  · exact .trans (.setPr hq hs.ack) (send h2)
  · exact .trans (.setPr (p := pr.becomeSnapshot r.log.snapshot.metadata.index) hq rfl) (send h2)

theorem sendAppend {to : Nat} (h : r.sendAppend env to = .ok r') : Front r r' := by
  unfold Raft.sendAppend at h
  obtain ⟨⟨r2, d⟩, h2, h⟩ := Res.bind_eq_ok.1 h
  cases h
  exact maybeSendAppend h2

theorem sendLoop {to : Nat} (k : Nat) (h : Raft.sendLoop env to k r = .ok r') : Front r r' := by
  induction k generalizing r with
  | zero => cases h
  | succ k ih =>
    unfold Raft.sendLoop at h
    obtain ⟨⟨r2, d⟩, h2, h⟩ := Res.bind_eq_ok.1 h
    dsimp only at h
    split at h
    · exact (maybeSendAppend h2).trans (ih h)
    · cases h; exact maybeSendAppend h2

theorem visit {f : Raft → Nat → Res Raft} (hf : ∀ {a b : Raft} {i : Nat}, f a i = .ok b → Front a b) (ids : List Nat)
    (h : Raft.visitOthers f ids r = .ok r') : Front r r' := by
  induction ids generalizing r with
  | nil => cases h; exact .refl
  | cons id ids ih =>
    unfold Raft.visitOthers at h
    split at h
    · exact ih h
    · obtain ⟨r2, h2, h⟩ := Res.bind_eq_ok.1 h
      exact (hf h2).trans (ih h)

theorem bcastAppend (h : r.bcastAppend env = .ok r') : Front r r' := visit sendAppend _ h

theorem sendHeartbeat {to : Nat} {ctx : Bytes} (h : r.sendHeartbeat to ctx = .ok r') : Front r r' := by
  unfold Raft.sendHeartbeat at h
  obtain ⟨p, hp, h⟩ := Res.bind_eq_ok.1 h
  exact send h

theorem bcastHeartbeatWithCtx {ctx : Bytes} (h : r.bcastHeartbeatWithCtx ctx = .ok r') : Front r r' := visit sendHeartbeat _ h

theorem bcastHeartbeat (h : r.bcastHeartbeat = .ok r') : Front r r' := bcastHeartbeatWithCtx h

/-- After `MaybeCommit` there is nothing left to commit. -/
theorem maybeCommit {d : Bool} (h : r.maybeCommit = .ok (r', d)) : Prompt r' ∧ r'.state = r.state := by
  unfold Raft.maybeCommit at h
  obtain ⟨⟨l, d2⟩, h2, h⟩ := Res.bind_eq_ok.1 h
  cases h
  refine ⟨?_, rfl⟩
  intro _ _ _ hlt t ht
  dsimp only at hlt ht ⊢
  unfold RaftLog.maybeCommit at h2
  split at h2
  · obtain ⟨x, hx, h2⟩ := Res.bind_eq_ok.1 h2
    obtain ⟨tt, htt, h2⟩ := Res.bind_eq_ok.1 h2
    split at h2
    · obtain ⟨l', hl', h2⟩ := Res.bind_eq_ok.1 h2
      cases h2
      unfold RaftLog.commitTo at hl'
      split at hl'
      · split at hl'
        · cases hl'
        · cases hl'; exact absurd hlt (Nat.lt_irrefl _)
      · omega
    · rename_i hne
      cases h2
      rw [hx] at ht
      cases ht
      unfold RaftLog.zeroTermOnErrCompacted at htt
      cases htt
      exact hne
  · rename_i hn; cases h2; exact absurd hlt hn

theorem appendEntry {es : List Entry} {d : Bool} (h : r.appendEntry es = .ok (r', d)) : (d = false ∧ Front r r') ∨ (d = true ∧ Prompt r') := by
  unfold Raft.appendEntry at h
  dsimp only at h
  cases hq : r.increaseUncommittedSize (Raft.stamp r.term (r.log.lastIndex + 1) es) with
  | mk r1 ok =>
    have h1 : Front r r1 := by
      unfold Raft.increaseUncommittedSize at hq
      dsimp only at hq
      split at hq <;> cases hq
      · exact .refl
      · exact .of rfl rfl
    rw [hq] at h
    dsimp only at h
    split at h
    · cases h; exact Or.inl ⟨rfl, h1⟩
    · obtain ⟨l, _, h⟩ := Res.bind_eq_ok.1 h
      obtain ⟨p, _, h⟩ := Res.bind_eq_ok.1 h
      obtain ⟨⟨r2, d2⟩, h3, h⟩ := Res.bind_eq_ok.1 h
      cases h
      exact Or.inr ⟨rfl, (maybeCommit h3).1⟩

theorem respondReadIndex {req : Message} {i : Nat} (h : r.respondReadIndex req i = .ok r') : Front r r' := by
  unfold Raft.respondReadIndex at h
  obtain ⟨⟨r2, m⟩, h2, h⟩ := Res.bind_eq_ok.1 h
  unfold Raft.responseToReadIndexReq at h2
  split at h2
  · obtain ⟨ctx, _, h2⟩ := Res.bind_eq_ok.1 h2
    cases h2
    dsimp only at h
    rw [if_neg (by intro h; exact h rfl)] at h
    cases h
    exact .of rfl rfl
  · cases h2
    dsimp only at h
    split at h
    · exact send h
    · cases h; exact .refl

theorem respondAll (rss : List ReadIndexStatus) (h : Raft.respondAll rss r = .ok r') : Front r r' := by
  induction rss generalizing r with
  | nil => cases h; exact .refl
  | cons rs rss ih =>
    unfold Raft.respondAll at h
    obtain ⟨r2, h2, h⟩ := Res.bind_eq_ok.1 h
    exact (respondReadIndex h2).trans (ih h)

theorem sendMsgReadIndexResponse {m : Message} (h : r.sendMsgReadIndexResponse m = .ok r') : Front r r' := by
  unfold Raft.sendMsgReadIndexResponse at h
  split at h
  · obtain ⟨ro, _, h⟩ := Res.bind_eq_ok.1 h
    obtain ⟨ctx, _, h⟩ := Res.bind_eq_ok.1 h
    have s := bcastHeartbeatWithCtx h
    exact .trans (.of rfl rfl) s
  · exact respondReadIndex h

theorem releaseLoop (ms : List Message) (h : Raft.releaseLoop ms r = .ok r') : Front r r' := by
  induction ms generalizing r with
  | nil => cases h; exact .refl
  | cons m ms ih =>
    unfold Raft.releaseLoop at h
    obtain ⟨r2, h2, h⟩ := Res.bind_eq_ok.1 h
    exact (sendMsgReadIndexResponse h2).trans (ih h)

theorem releasePending (h : r.releasePendingReadIndexMessages = .ok r') : Front r r' := by
  unfold Raft.releasePendingReadIndexMessages at h
  obtain ⟨d, _, h⟩ := Res.bind_eq_ok.1 h
  split at h
  · cases h; exact .refl
  · have s := releaseLoop _ h
    exact .trans (.of rfl rfl) s

theorem leaderProp {m : Message} {e : Option Err} (hp : Prompt r) (h : r.leaderProp env m = .ok (r', e)) : Prompt r' := by
  unfold Raft.leaderProp at h
  split at h
  · cases h
  split at h
  · cases h; exact hp
  split at h
  · cases h; exact hp
  obtain ⟨⟨es, pci⟩, _, h⟩ := Res.bind_eq_ok.1 h
  dsimp only at h
  obtain ⟨⟨r2, d⟩, h2, h⟩ := Res.bind_eq_ok.1 h
  have s : Prompt r2 := by
    rcases appendEntry h2 with ⟨_, s⟩ | ⟨_, s⟩
    · exact (Front.trans (.of rfl rfl : Front r { r with pendingConfIndex := pci }) s).prompt hp
    · exact s
  dsimp only at h
  split at h
  · cases h; exact s
  · obtain ⟨r3, h3, h⟩ := Res.bind_eq_ok.1 h
    cases h
    exact (bcastAppend h3).prompt s

theorem leaderReadIndex {m : Message} (h : r.leaderReadIndex m = .ok r') : Front r r' := by
  unfold Raft.leaderReadIndex at h
  split at h
  · exact respondReadIndex h
  · obtain ⟨d, _, h⟩ := Res.bind_eq_ok.1 h
    split at h
    · cases h; exact .of rfl rfl
    · exact sendMsgReadIndexResponse h

theorem leaderAppReject {m : Message} {p : Progress} (hp : r.pr m.src = some p) (h : r.leaderAppReject env m p = .ok r') : Front r r' := by
  unfold Raft.leaderAppReject at h
  have key : ∀ np, (match p.maybeDecrTo m.index np with
      | (pr, decr) =>
        if decr = true then
          Raft.sendAppend env (r.setPr m.src (if pr.state = PrState.replicate then pr.becomeProbe else pr)) m.src
        else pure (r.setPr m.src pr)) = .ok r' → Front r r' := by
    intro np h
    have hk : (p.maybeDecrTo m.index np).1.ack = p.ack := by
      unfold Progress.maybeDecrTo
      split
      · split <;> rfl
      · split <;> rfl
    generalize p.maybeDecrTo m.index np = x at h hk
    obtain ⟨p1, d⟩ := x
    dsimp only at h hk
    split at h
    · refine .trans (.setPr hp ?_) (sendAppend h)
      split
      · rw [Progress.becomeProbe_ack]; exact hk
      · exact hk
    · cases h; exact .setPr hp hk
  dsimp only at h
  split at h
  · obtain ⟨np, _, h⟩ := Res.bind_eq_ok.1 h
    exact key np h
  · exact key _ h

theorem leaderAppAccept {m : Message} {p : Progress} (hs : Prompt r) (hp : r.pr m.src = some p) (h : r.leaderAppAccept env m p = .ok r') :
    Prompt r' := by
  unfold Raft.leaderAppAccept at h
  dsimp only at h
  split at h
  · rename_i hu
    cases h
    refine (setPr hp ?_).prompt hs
    unfold Progress.maybeUpdate at hu ⊢
    dsimp only at hu ⊢
    have hu : ¬ p.mtch < m.index := by simpa using hu
    rw [if_neg hu]
    rfl
  obtain ⟨q, h⟩ : ∃ q, (do
          let (r, c) ← (r.setPr m.src q).maybeCommit
          let r ←
            if c then do
              let r ← r.releasePendingReadIndexMessages
              r.bcastAppend env
            else if p.isPaused then r.sendAppend env m.src
            else pure r
          let r ← Raft.sendLoop env m.src (r.log.lastIndex + 2) r
          let pr ← r.getPr m.src "raft.cc:1242"
          if m.src = r.leadTransferee ∧ pr.mtch = r.log.lastIndex then r.sendTimeoutNow m.src
          else pure r) = .ok r' := by
    split at h
    · exact ⟨_, h⟩
    · split at h <;> exact ⟨_, h⟩
    · obtain ⟨infl, _, h⟩ := Res.bind_eq_ok.1 h
      exact ⟨_, h⟩
  obtain ⟨⟨r2, d⟩, h2, h⟩ := Res.bind_eq_ok.1 h
  have s2 : Prompt r2 := (maybeCommit h2).1
  dsimp only at h
  obtain ⟨r3, s3, h⟩ : ∃ r3, Prompt r3 ∧ (do
          let r ← Raft.sendLoop env m.src (r3.log.lastIndex + 2) r3
          let pr ← r.getPr m.src "raft.cc:1242"
          if m.src = r.leadTransferee ∧ pr.mtch = r.log.lastIndex then r.sendTimeoutNow m.src
          else pure r) = .ok r' := by
    split at h
    · obtain ⟨r4, h4, h⟩ := Res.bind_eq_ok.1 h
      obtain ⟨r3, h3, h⟩ := Res.bind_eq_ok.1 h
      exact ⟨r3, ((releasePending h4).trans (bcastAppend h3)).prompt s2, h⟩
    · split at h
      · obtain ⟨r3, h3, h⟩ := Res.bind_eq_ok.1 h
        exact ⟨r3, (sendAppend h3).prompt s2, h⟩
      · exact ⟨r2, s2, h⟩
  obtain ⟨r5, h5, h⟩ := Res.bind_eq_ok.1 h
  have s5 := (sendLoop _ h5).prompt s3
  obtain ⟨q, hq, h⟩ := Res.bind_eq_ok.1 h
  split at h
  · exact (send h).prompt s5
  · cases h; exact s5

theorem leaderHeartbeatResp {m : Message} {p : Progress} (hp : r.pr m.src = some p) (h : r.leaderHeartbeatResp env m p = .ok r') : Front r r' := by
  unfold Raft.leaderHeartbeatResp at h
  dsimp only at h
  obtain ⟨q, hk, h⟩ : ∃ q : Progress, q.ack = p.ack ∧ (do
      let r ← if q.mtch < (r.setPr m.src q).log.lastIndex then (r.setPr m.src q).sendAppend env m.src else pure (r.setPr m.src q)
      if r.readOnly.option ≠ ReadOnlyOption.safe ∨ m.context = [] then pure r
      else
        let (ro, acks) := r.readOnly.recvAck m.src m.context
        let r := { r with readOnly := ro }
        if r.trk.config.voters.voteResult acks ≠ VoteState.won then pure r
        else
          let (ro, rss) ← r.readOnly.advance m.context
          Raft.respondAll rss { r with readOnly := ro }) = .ok r' := by
    split at h
    · obtain ⟨infl, _, h⟩ := Res.bind_eq_ok.1 h
      exact ⟨_, (by first | rfl | trivial), h⟩
    · exact ⟨_, (by first | rfl | trivial), h⟩
  obtain ⟨r2, s2, h⟩ : ∃ r2, Front r r2 ∧ (
      if r2.readOnly.option ≠ ReadOnlyOption.safe ∨ m.context = [] then pure r2
      else
        let (ro, acks) := r2.readOnly.recvAck m.src m.context
        let r := { r2 with readOnly := ro }
        if r.trk.config.voters.voteResult acks ≠ VoteState.won then pure r
        else do
          let (ro, rss) ← r.readOnly.advance m.context
          Raft.respondAll rss { r with readOnly := ro }) = .ok r' := by
    dsimp only at h
    split at h
    · obtain ⟨r2, h2, h⟩ := Res.bind_eq_ok.1 h
      exact ⟨r2, .trans (.setPr hp hk) (sendAppend h2), h⟩
    · exact ⟨_, .setPr hp hk, h⟩
  split at h
  · cases h; exact s2
  · dsimp only at h
    split at h
    · cases h; exact s2.trans (.of rfl rfl)
    · obtain ⟨⟨ro, rss⟩, _, h⟩ := Res.bind_eq_ok.1 h
      have s := respondAll _ h
      exact s2.trans (.trans (.of rfl rfl) s)

theorem leaderSnapStatus {m : Message} {p : Progress} (hp : r.pr m.src = some p) : Front r (r.leaderSnapStatus m p) := by
  unfold Raft.leaderSnapStatus
  split
  · exact .refl
  · refine .setPr hp ?_
    have k : ∀ q : Progress, q.ack = p.ack → ({ q with probeSent := true } : Progress).ack = p.ack := fun q h => h
    apply k
    split
    · exact Progress.becomeProbe_ack p
    · exact Progress.becomeProbe_ack _

theorem switchSend (h : r.switchSend env = .ok r') : Prompt r' := by
  unfold Raft.switchSend at h
  obtain ⟨⟨r2, d⟩, h2, h⟩ := Res.bind_eq_ok.1 h
  have hp := (maybeCommit h2).1
  refine Front.prompt (a := r2) ?_ hp
  dsimp only at h
  split at h
  · exact bcastAppend h
  · revert h
    generalize r2.trk.progress.keys = ids
    intro h
    clear h2 hp
    induction ids generalizing r2 with
    | nil => cases h; exact .refl
    | cons id ids ih =>
      unfold Raft.visitSend at h
      obtain ⟨⟨r3, d3⟩, h3, h⟩ := Res.bind_eq_ok.1 h
      exact (maybeSendAppend h3).trans (ih r3 h)

end Front
end Craft

namespace Craft
namespace Prompt
variable {env : Env} {im m : Message} {r r' : Raft}

theorem idle (h : r.state ≠ .leader) : Prompt r := fun h1 => absurd h1 h

theorem becomeFollower (t l : Nat) : Prompt (r.becomeFollower env t l) := idle (by nofun)

theorem leaderTransfer {p : Progress} (hp : Prompt r) (h : r.leaderTransfer env im p = .ok r') : Prompt r' := by
  unfold Raft.leaderTransfer at h
  split at h
  · cases h; exact hp
  split at h
  · cases h; exact hp
  dsimp only at h
  generalize hr1 : (if r.leadTransferee ≠ 0 then { r with leadTransferee := 0 } else r) = r1 at h
  have k1 : Front r r1 := by
    rw [← hr1]
    split
    · exact .of rfl rfl
    · exact .refl
  split at h
  · cases h; exact k1.prompt hp
  have k2 : Front r { r1 with electionElapsed := 0, leadTransferee := im.src } := k1.trans (.of rfl rfl)
  split at h
  · exact (k2.trans (Front.send h)).prompt hp
  · exact (k2.trans (Front.sendAppend h)).prompt hp

theorem leaderCheckQuorum (hp : Prompt r) : Prompt (r.leaderCheckQuorum env) := by
  have k : ∀ r2 : Raft, Prompt r2 → Prompt { r2 with trk := { r2.trk with
      progress := r2.trk.progress.map fun (id, p) => (id, if id ≠ r2.id then { p with recentActive := false } else p) } } := by
    intro r2 h2
    refine Front.prompt (a := r2) ⟨rfl, fun j => ?_⟩ h2
    show Option.map _ (AMap.find (r2.trk.progress.map _) j) = _
    rw [AMap.find_map r2.trk.progress (fun id p => if id ≠ r2.id then { p with recentActive := false } else p)]
    show _ = Option.map _ (AMap.find r2.trk.progress j)
    cases AMap.find r2.trk.progress j with
    | none => rfl
    | some p =>
      refine congrArg some ?_
      dsimp only
      split <;> rfl
  refine k _ ?_
  have k1 : ∀ r1, Prompt r1 → Prompt (if ¬ r1.trk.quorumActive then r1.becomeFollower env r1.term 0 else r1) := by
    intro r1 s1
    split
    · exact becomeFollower _ _
    · exact s1
  refine k1 _ ?_
  split
  · rename_i p hq; exact (Front.setPr (p := { p with recentActive := true }) hq rfl).prompt hp
  · exact hp

theorem stepLeader {e : Option Err} (hp : Prompt r) (h : r.stepLeader env im = .ok (r', e)) : Prompt r' := by
  unfold Raft.stepLeader at h
  have rest : ∀ {x : Res (Raft × Option Err)}, (∀ p, r.pr im.src = some p → (match im.type with
      | .appResp => do
        let pr := { p with recentActive := true }
        let r := r.setPr im.src pr
        let r ← if im.reject then r.leaderAppReject env im pr else r.leaderAppAccept env im pr
        pure (r, none)
      | .heartbeatResp => do let r ← r.leaderHeartbeatResp env im p; pure (r, none)
      | .snapStatus => .ok (r.leaderSnapStatus im p, none)
      | .unreachable =>
        .ok (if p.state = .replicate then r.setPr im.src p.becomeProbe else r, none)
      | .transferLeader => do let r ← r.leaderTransfer env im p; pure (r, none)
      | _ => .ok (r, none)) = Res.ok (r', e) → Prompt r') := by
    intro _ p hq h
    cases ht : im.type <;> simp only [ht] at h
    case appResp =>
      have s0 : Front r (r.setPr im.src { p with recentActive := true }) := .setPr hq rfl
      have hq' : (r.setPr im.src { p with recentActive := true }).pr im.src = some { p with recentActive := true } := AMap.find_insert_self _ _ _
      split at h
      · obtain ⟨r2, h2, h⟩ := Res.bind_eq_ok.1 h
        cases h
        exact (s0.trans (Front.leaderAppReject hq' h2)).prompt hp
      · obtain ⟨r2, h2, h⟩ := Res.bind_eq_ok.1 h
        cases h
        exact Front.leaderAppAccept (s0.prompt hp) hq' h2
    case heartbeatResp =>
      obtain ⟨r2, h2, h⟩ := Res.bind_eq_ok.1 h
      cases h
      exact (Front.leaderHeartbeatResp hq h2).prompt hp
    case snapStatus => cases h; exact (Front.leaderSnapStatus hq).prompt hp
    case unreachable =>
      cases h
      split
      · exact (Front.setPr hq (Progress.becomeProbe_ack p)).prompt hp
      · exact hp
    case transferLeader =>
      obtain ⟨r2, h2, h⟩ := Res.bind_eq_ok.1 h
      cases h
      exact leaderTransfer hp h2
    all_goals (cases h; exact hp)
  split at h
  · obtain ⟨r2, h2, h⟩ := Res.bind_eq_ok.1 h
    cases h
    exact (Front.bcastHeartbeat h2).prompt hp
  · cases h
    exact leaderCheckQuorum hp
  · exact Front.leaderProp hp h
  · obtain ⟨r2, h2, h⟩ := Res.bind_eq_ok.1 h
    cases h
    exact (Front.leaderReadIndex h2).prompt hp
  · split at h
    · cases h; exact hp
    · rename_i p hq
      exact rest (x := .ok (r', e)) p hq h

theorem becomeLeader (h : r.becomeLeader env = .ok r') : Prompt r' := by
  unfold Raft.becomeLeader at h
  split at h
  · cases h
  dsimp only at h
  obtain ⟨p, _, h⟩ := Res.bind_eq_ok.1 h
  obtain ⟨⟨r2, d⟩, h2, h⟩ := Res.bind_eq_ok.1 h
  dsimp only at h
  split at h
  · cases h
  · rename_i hd
    cases h
    rcases Front.appendEntry h2 with ⟨h3, _⟩ | ⟨_, h3⟩
    · exact absurd h3 (by simpa using hd)
    · refine Front.prompt ?_ h3
      unfold Raft.reduceUncommittedSize
      split
      · exact .refl
      · dsimp only
        split <;> exact .of rfl rfl

theorem sendVotes {vt : MsgType} {t : Nat} {ctx : Bytes} (ids : List Nat) (h : r.sendVotes vt t ctx ids = .ok r') : r'.state = r.state := by
  induction ids generalizing r with
  | nil => cases h; rfl
  | cons id ids ih =>
    unfold Raft.sendVotes at h
    split at h
    · exact ih h
    · obtain ⟨_, _, h⟩ := Res.bind_eq_ok.1 h
      obtain ⟨r2, h2, h⟩ := Res.bind_eq_ok.1 h
      rw [ih h, Raft.send_ok h2]

theorem campaignElection {b : Bool} (h : r.campaignElection env b = .ok r') : Prompt r' := by
  unfold Raft.campaignElection Raft.poll at h
  obtain ⟨r1, h1, h⟩ := Res.bind_eq_ok.1 h
  have e1 : r1.state = .candidate := by
    unfold Raft.becomeCandidate at h1
    split at h1
    · cases h1
    · cases h1; rfl
  dsimp only at h
  split at h
  · exact becomeLeader h
  · refine idle ?_
    rw [sendVotes _ h]
    show r1.state ≠ _
    rw [e1]; nofun

theorem campaign {t : CampaignType} (h : r.campaign env t = .ok r') : Prompt r' := by
  unfold Raft.campaign at h
  split at h
  · obtain ⟨r1, h1, h⟩ := Res.bind_eq_ok.1 h
    have e1 : r1.state = .preCandidate := by
      unfold Raft.becomePreCandidate at h1
      split at h1
      · cases h1
      · cases h1; rfl
    unfold Raft.poll at h
    dsimp only at h
    split at h
    · exact campaignElection h
    · refine idle ?_
      rw [sendVotes _ h]
      show r1.state ≠ _
      rw [e1]; nofun
  · exact campaignElection h
  · exact campaignElection h

theorem hup {t : CampaignType} (hp : Prompt r) (h : r.hup env t = .ok r') : Prompt r' := by
  unfold Raft.hup at h
  split at h
  · cases h; exact hp
  split at h
  · cases h; exact hp
  obtain ⟨x, _, h⟩ := Res.bind_eq_ok.1 h
  cases x with
  | error e => cases h
  | ok es =>
    dsimp only at h
    split at h
    · cases h; exact hp
    · exact campaign h

theorem handleAppendEntries (h : r.handleAppendEntries m = .ok r') : r'.state = r.state := by
  unfold Raft.handleAppendEntries at h
  split at h
  · rw [Raft.send_ok h]
  obtain ⟨⟨l, res⟩, _, h⟩ := Res.bind_eq_ok.1 h
  cases res with
  | some li => rw [Raft.send_ok h]
  | none =>
    dsimp only at h
    obtain ⟨_, _, h⟩ := Res.bind_eq_ok.1 h
    obtain ⟨_, _, h⟩ := Res.bind_eq_ok.1 h
    obtain ⟨_, _, h⟩ := Res.bind_eq_ok.1 h
    obtain ⟨x, _, h⟩ := Res.bind_eq_ok.1 h
    cases x with
    | error e => cases h
    | ok t => rw [Raft.send_ok h]

theorem handleHeartbeat (h : r.handleHeartbeat m = .ok r') : r'.state = r.state := by
  unfold Raft.handleHeartbeat at h
  obtain ⟨l, _, h⟩ := Res.bind_eq_ok.1 h
  rw [Raft.send_ok h]

/-- A leader that is part of the new configuration commits what the new quorums allow. -/
theorem switchToConfig {cfg : TConfig} {prs : ProgressMap} {cs : ConfState} (h : r.switchToConfig env cfg prs = .ok (r', cs)) :
    Prompt r' ∧ (r.state ≠ .leader → r'.state = r.state) := by
  unfold Raft.switchToConfig at h
  dsimp only at h
  split at h
  · rename_i hc
    cases h
    refine ⟨?_, fun _ => rfl⟩
    rintro _ ⟨p, hp, hl⟩
    exfalso
    replace hp : AMap.find prs r.id = some p := hp
    rcases hc.1 with h1 | h1
    · replace h1 : (AMap.find prs r.id).isNone := h1
      rw [hp] at h1; cases h1
    · have h1 : (match AMap.find prs r.id with | some p => p.isLearner | none => false) = true := h1
      rw [hp] at h1
      rw [show p.isLearner = true from h1] at hl
      cases hl
  split at h
  · rename_i hc
    cases h
    refine ⟨?_, fun _ => rfl⟩
    intro h1 _ h3
    rcases hc with h4 | h4
    · exact absurd h1 h4
    · exact absurd (List.length_eq_zero_iff.1 h4) h3
  rename_i hc
  obtain ⟨r2, h2, h⟩ := Res.bind_eq_ok.1 h
  have s := Front.switchSend h2
  refine ⟨?_, fun h => absurd (Or.inl h) hc⟩
  split at h
  · cases h
    exact Front.prompt (.of rfl rfl) s
  · cases h; exact s

theorem restore {s : Snapshot} {ok : Bool} (hs : r.state = .follower) (h : r.restore env s = .ok (r', ok)) : r'.state = .follower := by
  unfold Raft.restore at h
  split at h
  · cases h; exact hs
  split at h
  · cases h; rfl
  dsimp only at h
  split at h
  · cases h; exact hs
  obtain ⟨m, _, h⟩ := Res.bind_eq_ok.1 h
  split at h
  · obtain ⟨_, _, h⟩ := Res.bind_eq_ok.1 h
    obtain ⟨l, _, h⟩ := Res.bind_eq_ok.1 h
    cases h; exact hs
  split at h
  · cases h
  obtain ⟨⟨r2, cs2⟩, h2, h⟩ := Res.bind_eq_ok.1 h
  dsimp only at h
  split at h
  · cases h
  obtain ⟨pr, _, h⟩ := Res.bind_eq_ok.1 h
  obtain ⟨_, _, h⟩ := Res.bind_eq_ok.1 h
  cases h
  exact ((switchToConfig h2).2 (by intro h; rw [show r.state = .leader from h] at hs; cases hs)).trans hs

theorem handleSnapshot (hs : r.state = .follower) (h : r.handleSnapshot env m = .ok r') : r'.state = .follower := by
  unfold Raft.handleSnapshot at h
  obtain ⟨⟨r2, ok⟩, h2, h⟩ := Res.bind_eq_ok.1 h
  have := restore hs h2
  dsimp only at h
  split at h <;> (rw [Raft.send_ok h]; exact this)

theorem stepVote (hp : Prompt r) (h : r.stepVote m = .ok r') : Prompt r' := by
  unfold Raft.stepVote at h
  obtain ⟨up, _, h⟩ := Res.bind_eq_ok.1 h
  obtain ⟨_, _, h⟩ := Res.bind_eq_ok.1 h
  obtain ⟨rt, hrt, h⟩ := Res.bind_eq_ok.1 h
  split at h
  · obtain ⟨r2, h2, h⟩ := Res.bind_eq_ok.1 h
    have s := Front.send h2
    split at h
    · cases h; exact (s.trans (.of rfl rfl)).prompt hp
    · cases h; exact s.prompt hp
  · exact (Front.send h).prompt hp

theorem stepFollower {e : Option Err} (hs : r.state = .follower) (h : r.stepFollower env m = .ok (r', e)) : Prompt r' := by
  have hi : ∀ {x : Raft}, x.state = .follower → Prompt x := fun h => idle (by rw [h]; nofun)
  have hp : Prompt r := hi hs
  unfold Raft.stepFollower at h
  cases ht : m.type <;> simp only [ht] at h
  case prop =>
    split at h
    · cases h; exact hp
    split at h
    · cases h; exact hp
    obtain ⟨r2, h2, h⟩ := Res.bind_eq_ok.1 h
    cases h; exact (Front.send h2).prompt hp
  case app =>
    obtain ⟨r2, h2, h⟩ := Res.bind_eq_ok.1 h
    cases h
    have s := handleAppendEntries h2
    exact hi (s.trans hs)
  case heartbeat =>
    obtain ⟨r2, h2, h⟩ := Res.bind_eq_ok.1 h
    cases h
    have s := handleHeartbeat h2
    exact hi (s.trans hs)
  case snap =>
    obtain ⟨r2, h2, h⟩ := Res.bind_eq_ok.1 h
    cases h
    have s := handleSnapshot (r := { r with electionElapsed := 0, lead := m.src }) hs h2
    exact hi s
  case transferLeader =>
    split at h
    · cases h; exact hp
    obtain ⟨r2, h2, h⟩ := Res.bind_eq_ok.1 h
    cases h; exact (Front.send h2).prompt hp
  case timeoutNow =>
    obtain ⟨r2, h2, h⟩ := Res.bind_eq_ok.1 h
    cases h; exact hup hp h2
  case readIndex =>
    split at h
    · cases h; exact hp
    obtain ⟨r2, h2, h⟩ := Res.bind_eq_ok.1 h
    cases h; exact (Front.send h2).prompt hp
  case readIndexResp =>
    split at h <;> cases h
    · exact hi hs
    · exact hp
  all_goals (cases h; exact hp)

theorem candidateVoteResp (hp : Prompt r) (hs : r.state ≠ .leader) (h : r.candidateVoteResp env m = .ok r') : Prompt r' := by
  unfold Raft.candidateVoteResp Raft.poll at h
  dsimp only at h
  split at h
  · split at h
    · exact campaignElection h
    · obtain ⟨r2, h2, h⟩ := Res.bind_eq_ok.1 h
      exact (Front.bcastAppend h).prompt (becomeLeader h2)
  · cases h; exact becomeFollower _ _
  · cases h; exact idle hs

theorem stepCandidate {e : Option Err} (hs : r.state ≠ .leader) (h : r.stepCandidate env m = .ok (r', e)) : Prompt r' := by
  have hi : ∀ {x : Raft}, x.state = .follower → Prompt x := fun h => idle (by rw [h]; nofun)
  have hp : Prompt r := idle hs
  unfold Raft.stepCandidate at h
  cases ht : m.type <;> simp only [ht] at h
  case app =>
    obtain ⟨r2, h2, h⟩ := Res.bind_eq_ok.1 h
    cases h
    exact hi (handleAppendEntries h2)
  case heartbeat =>
    obtain ⟨r2, h2, h⟩ := Res.bind_eq_ok.1 h
    cases h
    exact hi (handleHeartbeat h2)
  case snap =>
    obtain ⟨r2, h2, h⟩ := Res.bind_eq_ok.1 h
    cases h
    exact hi (handleSnapshot rfl h2)
  case preVoteResp =>
    split at h
    · obtain ⟨r2, h2, h⟩ := Res.bind_eq_ok.1 h
      cases h
      exact candidateVoteResp hp hs h2
    · cases h; exact hp
  case voteResp =>
    split at h
    · obtain ⟨r2, h2, h⟩ := Res.bind_eq_ok.1 h
      cases h
      exact candidateVoteResp hp hs h2
    · cases h; exact hp
  all_goals (cases h; exact hp)

theorem stepBody {e : Option Err} (hp : Prompt r) (h : r.stepBody env im = .ok (r', e)) : Prompt r' := by
  unfold Raft.stepBody at h
  split at h
  · obtain ⟨r2, h2, h⟩ := Res.bind_eq_ok.1 h
    cases h; exact hup hp h2
  · obtain ⟨r2, h2, h⟩ := Res.bind_eq_ok.1 h
    cases h; exact stepVote hp h2
  · obtain ⟨r2, h2, h⟩ := Res.bind_eq_ok.1 h
    cases h; exact stepVote hp h2
  · unfold Raft.stepState at h
    split at h
    · exact stepFollower ‹_› h
    · exact stepCandidate (by rw [‹r.state = _›]; nofun) h
    · exact stepCandidate (by rw [‹r.state = _›]; nofun) h
    · exact stepLeader hp h

theorem step {e : Option Err} (hp : Prompt r) (h : r.step env im = .ok (r', e)) : Prompt r' := by
  unfold Raft.step at h
  obtain ⟨g, hg, h⟩ := Res.bind_eq_ok.1 h
  unfold Raft.stepGate at hg
  by_cases h0 : im.term = 0
  · rw [if_pos h0] at hg; cases hg
    exact stepBody hp h
  rw [if_neg h0] at hg
  by_cases hgt : im.term > r.term
  · rw [if_pos hgt] at hg
    split at hg
    · obtain ⟨_, _, hg⟩ := Res.bind_eq_ok.1 hg
      cases hg; cases h; exact hp
    split at hg
    · cases hg; exact stepBody hp h
    split at hg
    · cases hg; exact stepBody hp h
    split at hg
    · cases hg; exact stepBody (becomeFollower _ _) h
    · cases hg; exact stepBody (becomeFollower _ _) h
  rw [if_neg hgt] at hg
  by_cases hlt : im.term < r.term
  · rw [if_pos hlt] at hg
    split at hg
    · obtain ⟨r1, h1, hg⟩ := Res.bind_eq_ok.1 hg
      cases hg; cases h; exact (Front.send h1).prompt hp
    split at hg
    · obtain ⟨_, _, hg⟩ := Res.bind_eq_ok.1 hg
      obtain ⟨r1, h1, hg⟩ := Res.bind_eq_ok.1 hg
      cases hg; cases h; exact (Front.send h1).prompt hp
    · cases hg; cases h; exact hp
  · rw [if_neg hlt] at hg
    cases hg
    exact stepBody hp h

theorem tick (hp : Prompt r) (h : r.tick env = .ok r') : Prompt r' := by
  unfold Raft.tick at h
  split at h
  · unfold Raft.tickHeartbeat at h
    obtain ⟨r1, h1, h⟩ := Res.bind_eq_ok.1 h
    have k1 : Prompt r1 := by
      unfold Raft.tickHeartbeatTimeout at h1
      dsimp only at h1
      have fin : ∀ r2 : Raft, Prompt r2 →
            (if r2.state = .leader ∧ r2.leadTransferee ≠ 0 then pure { r2 with leadTransferee := 0 } else pure r2 : Res Raft) = .ok r1 →
            Prompt r1 := by
        intro r2 k2 h1
        split at h1
        · cases h1; exact Front.prompt (.of rfl rfl) k2
        · cases h1; exact k2
      split at h1
      · split at h1
        · obtain ⟨⟨r2, e⟩, h2, h1⟩ := Res.bind_eq_ok.1 h1
          exact fin r2 (step (r := { r with heartbeatElapsed := r.heartbeatElapsed + 1, electionElapsed := 0 }) (Front.prompt (a := r) (.of rfl rfl) hp) h2) h1
        · exact fin { r with heartbeatElapsed := r.heartbeatElapsed + 1, electionElapsed := 0 } (Front.prompt (a := r) (.of rfl rfl) hp) h1
      · cases h1; exact Front.prompt (a := r) (.of rfl rfl) hp
    unfold Raft.tickHeartbeatBeat at h
    split at h
    · cases h; exact k1
    split at h
    · obtain ⟨⟨r2, e⟩, h2, h⟩ := Res.bind_eq_ok.1 h
      cases h
      exact step (r := { r1 with heartbeatElapsed := 0 }) (Front.prompt (a := r1) (.of rfl rfl) k1) h2
    · cases h; exact k1
  · unfold Raft.tickElection at h
    dsimp only at h
    split at h
    · obtain ⟨⟨r2, e⟩, h2, h⟩ := Res.bind_eq_ok.1 h
      cases h
      exact step (r := { r with electionElapsed := 0 }) (Front.prompt (a := r) (.of rfl rfl) hp) h2
    · cases h; exact Front.prompt (a := r) (.of rfl rfl) hp

end Prompt
end Craft
