import Verif.Recover.Win

/-! # Bringing a peer up to date: the steps of the leader and of the peer -/

namespace Craft
open Spec Cluster

/-- From `a` to `b` a leader did its work, the progress of `j` aside. -/
structure Serve (j : Nat) (a b : Raft) : Prop where
  plain : Plain a → Plain b
  id : b.id = a.id
  state : b.state = a.state
  term : b.term = a.term
  config : b.trk.config = a.trk.config
  log : ∃ k, a.log.committed ≤ k ∧ b.log = { a.log with committed := k }
  prs : ∀ v p, v ≠ j → a.pr v = some p → ∃ q, b.pr v = some q ∧ p.Sent q

namespace Serve
variable {j : Nat} {a b c r : Raft}

theorem refl : Serve j a a := ⟨fun h => ⟨h.quorum, h.preVote, h.beat⟩, rfl, rfl, rfl, rfl, ⟨_, Nat.le_refl _, rfl⟩, fun _ p _ h => ⟨p, h, .refl p⟩⟩

theorem view (h : Serve j a b) : b.log.view = a.log.view := by
  obtain ⟨k, _, e⟩ := h.log
  rw [e]; rfl

theorem applied (h : Serve j a b) : b.log.applied = a.log.applied := by
  obtain ⟨k, _, e⟩ := h.log
  rw [e]

theorem trans (h1 : Serve j a b) (h2 : Serve j b c) : Serve j a c := by
  obtain ⟨k1, l1, e1⟩ := h1.log
  obtain ⟨k2, l2, e2⟩ := h2.log
  refine ⟨h2.plain ∘ h1.plain, h2.id.trans h1.id, h2.state.trans h1.state, h2.term.trans h1.term, h2.config.trans h1.config,
    ⟨k2, by rw [e1] at l2; exact Nat.le_trans l1 l2, by rw [e2, e1]⟩, fun v p hv hp => ?_⟩
  obtain ⟨q, hq, s⟩ := h1.prs v p hv hp
  obtain ⟨q2, hq2, s2⟩ := h2.prs v q hv hq
  exact ⟨q2, hq2, s.trans s2⟩

theorem setPr (p : Progress) : Serve j r (r.setPr j p) :=
  ⟨fun h => ⟨h.quorum, h.preVote, h.beat⟩, rfl, rfl, rfl, rfl, ⟨_, Nat.le_refl _, rfl⟩, fun v s hv hs => ⟨s, (AMap.find_insert_ne _ _ (Ne.symm hv)).trans hs, .refl s⟩⟩

end Serve

theorem Steady.serve {j : Nat} {a b : Raft} (h : Steady a b) : Serve j a b :=
  ⟨fun x => ⟨h.checkQuorum.trans x.quorum, h.preVote.trans x.preVote, h.heartbeatTimeout.trans x.beat⟩, h.id, h.state, h.term, h.config, h.log, fun v p _ hp => h.prs v p hp⟩

theorem Leading.serve {a b : Raft} {T j : Nat} {V : LogView} (h : Leading a T V) (hs : Serve j a b) (hj : j ≠ a.id)
    (hq : ∃ q, b.pr j = some q ∧ q.isLearner = false ∧ (q.state = .probe → (q.mtch = 0 ∧ 1 ≤ q.next ∧ q.next ≤ V.last) ∨ q.next = q.mtch + 1)) :
    Leading b T V := by
  refine ⟨hs.plain h.plain, by rw [hs.state]; exact h.state, by rw [hs.term]; exact h.term, by rw [hs.view]; exact h.view, ?_, ?_, fun v hv hne => ?_⟩
  · obtain ⟨k, _, e⟩ := hs.log
    rw [e]; exact h.snap
  · obtain ⟨q, h1, h2, h3⟩ := h.self
    obtain ⟨q', k1, k2⟩ := hs.prs _ _ (Ne.symm hj) h1
    refine ⟨q', by rw [hs.id]; exact k1, ?_, ?_⟩
    · rw [← h2]; exact (congrArg Prod.snd k2.1 :)
    · rw [← h3]; exact (congrArg Prod.fst k2.1 :)
  · by_cases hvj : v = j
    · subst hvj; exact hq
    rw [hs.config] at hv
    rw [hs.id] at hne
    obtain ⟨q, h1, h2, h3⟩ := h.peers v hv hne
    obtain ⟨q', k1, k2⟩ := hs.prs _ _ hvj h1
    have hm : q'.mtch = q.mtch := (congrArg Prod.fst k2.1 :)
    refine ⟨q', k1, ?_, fun hp => ?_⟩
    · rw [← h2]; exact (congrArg Prod.snd k2.1 :)
    · obtain ⟨e1, e2⟩ := k2.2 hp
      rw [hm, e2]; exact h3 e1

namespace Raft
variable {env : Env} {r r' : Raft}

theorem setPr_self (v : Nat) (p : Progress) : (r.setPr v p).pr v = some p := AMap.find_insert_self _ _ _

/-- A local or current message reaches the leader's handler. -/
theorem step_leader {m : Message} {e : Option Err} (hl : r.state = .leader) (ht : m.term = 0 ∨ m.term = r.term)
    (h1 : m.type ≠ .hup) (h2 : m.type ≠ .vote) (h3 : m.type ≠ .preVote) (h : r.step env m = .ok (r', e)) : r.stepLeader env m = .ok (r', e) := by
  unfold step at h
  obtain ⟨g, hg, h⟩ := Res.bind_eq_ok.1 h
  have hg : g = .go r := by
    unfold stepGate at hg
    split at hg
    · cases hg; rfl
    · rw [if_neg (by omega), if_neg (by omega)] at hg
      cases hg; rfl
  subst hg
  dsimp only at h
  unfold stepBody at h
  split at h
  · rename_i x; exact absurd x h1
  · rename_i x; exact absurd x h2
  · rename_i x; exact absurd x h3
  · unfold stepState at h
    rw [hl] at h
    exact h

/-- Heartbeats go to everybody. -/
theorem beats_all {ctx : Bytes} (ids : List Nat) {r r' : Raft} (h : visitOthers (fun r id => r.sendHeartbeat id ctx) ids r = .ok r') {j : Nat}
    (hj : j ∈ ids) (hne : j ≠ r.id) : ∃ m ∈ r'.msgs, m.type = .heartbeat ∧ m.to = j ∧ m.src = r.id ∧ m.term = r.term := by
  induction ids generalizing r with
  | nil => cases hj
  | cons id ids ih =>
    unfold visitOthers at h
    split at h
    · rename_i he
      rcases List.mem_cons.1 hj with rfl | hj
      · exact absurd he hne
      · exact ih h hj hne
    · obtain ⟨r2, h2, h⟩ := Res.bind_eq_ok.1 h
      have t2 := Tame.sendHeartbeat h2
      have tt : Tame r2 r' := Tame.visit Tame.sendHeartbeat _ h
      rcases List.mem_cons.1 hj with rfl | hj
      · unfold sendHeartbeat at h2
        obtain ⟨p, hp, h2⟩ := Res.bind_eq_ok.1 h2
        have e := send_ok h2
        refine ⟨_, tt.mem (by rw [e]; exact List.mem_append.2 (Or.inr (List.mem_singleton.2 rfl))), ?_⟩
        unfold outMsg
        rw [if_pos rfl]
        exact ⟨rfl, rfl, rfl, rfl⟩
      · obtain ⟨m, k1, k2, k3, k4, k5⟩ := ih h hj (by rw [t2.id]; exact hne)
        exact ⟨m, k1, k2, k3, by rw [k4, t2.id], by rw [k5, t2.term]⟩

/-- Every tick, a heartbeat to everybody. -/
theorem tick_beats {T : Nat} {V : LogView} (hl : Leading r T V) (h : r.tick env = .ok r') :
    (∀ j, Serve j r r') ∧ (∀ v, r'.pr v = r.pr v) ∧ ∀ j q, r.pr j = some q → j ≠ r.id →
      ∃ m ∈ r'.msgs, m.type = .heartbeat ∧ m.to = j ∧ m.src = r.id ∧ m.term = T := by
  unfold tick at h
  rw [hl.state] at h
  dsimp only at h
  unfold tickHeartbeat at h
  obtain ⟨r1, h1, h⟩ := Res.bind_eq_ok.1 h
  have hr1 : ∃ a b c, r1 = { r with heartbeatElapsed := r.heartbeatElapsed + 1, electionElapsed := a, leadTransferee := b, state := c } ∧ c = .leader := by
    unfold tickHeartbeatTimeout at h1
    dsimp only at h1
    split at h1
    · rw [if_neg (by rw [hl.plain.quorum]; nofun)] at h1
      simp only [Res.pure_eq, Res.ok_bind] at h1
      split at h1
      · cases h1; exact ⟨_, _, r.state, rfl, hl.state⟩
      · cases h1; exact ⟨_, _, r.state, rfl, hl.state⟩
    · cases h1; exact ⟨_, _, r.state, rfl, hl.state⟩
  obtain ⟨a, b, c, rfl, rfl⟩ := hr1
  unfold tickHeartbeatBeat at h
  dsimp only at h
  rw [if_neg (by simp), if_pos (by rw [hl.plain.beat]; omega), step_beat rfl] at h
  obtain ⟨⟨r3, e3⟩, h3, h⟩ := Res.bind_eq_ok.1 h
  cases h
  obtain ⟨r2, h2, h3⟩ := Res.bind_eq_ok.1 h3
  cases h3
  have tm := Tame.bcastHeartbeat h2
  obtain ⟨ms, e, _⟩ := bcastHeartbeatWithCtx_eq h2
  refine ⟨fun j => ?_, fun v => by rw [e]; rfl, fun j q hq hne => ?_⟩
  · rw [e]
    exact ⟨fun h => ⟨h.quorum, h.preVote, h.beat⟩, rfl, hl.state.symm, rfl, rfl, ⟨_, Nat.le_refl _, rfl⟩, fun v p _ hp => ⟨p, hp, .refl p⟩⟩
  · obtain ⟨m, k1, k2, k3, k4, k5⟩ := beats_all _ h2 (j := j) ((AMap.find_isSome_iff _ _).1 (by
      have : r.trk.progress.find j = some q := hq
      show (r.trk.progress.find j).isSome = true
      rw [this]; rfl)) hne
    exact ⟨m, k1, k2, k3, k4, by rw [k5]; exact hl.term⟩

/-- What the leader of term `T` sends reaches the follower's handler, and turns the node into a follower in term `T`. -/
theorem step_ally {m : Message} {e : Option Err} {T : Nat} (ha : Ally r T) (hT : m.term = T)
    (hm : m.type = .app ∨ m.type = .heartbeat ∨ m.type = .snap) (h : r.step env m = .ok (r', e)) :
    ∃ s, Ally s T ∧ s.term = T ∧ s.state = .follower ∧ s.log = r.log ∧ s.id = r.id ∧ s.trk.config = r.trk.config ∧ s.stepFollower env m = .ok (r', e) := by
  unfold step at h
  obtain ⟨g, hg, h⟩ := Res.bind_eq_ok.1 h
  have fin : ∀ s : Raft, s.state = .follower → s.stepBody env m = .ok (r', e) → s.stepFollower env m = .ok (r', e) := by
    intro s hs h
    unfold stepBody at h
    split at h
    · rename_i x; rw [x] at hm; simp at hm
    · rename_i x; rw [x] at hm; simp at hm
    · rename_i x; rw [x] at hm; simp at hm
    · unfold stepState at h
      rw [hs] at h
      exact h
  by_cases hlt : r.term < T
  · unfold stepGate at hg
    rw [if_neg (by omega), if_pos (by omega), if_neg (by rw [ha.plain.quorum]; rintro ⟨_, _, h, _⟩; cases h), if_neg (by rintro h; rw [h] at hm; simp at hm),
      if_neg (by rintro ⟨h, _⟩; rw [h] at hm; simp at hm), if_pos hm] at hg
    cases hg
    refine ⟨r.becomeFollower env m.term m.src, ⟨?_, Or.inr ⟨(reset_term (env := env) r _).trans hT, rfl⟩⟩, (reset_term (env := env) r _).trans hT, rfl, reset_log (env := env) r _, reset_id (env := env) r _, ?_, fin _ rfl h⟩
    · have := plain_of_consts ha.plain (reset_consts (env := env) r m.term)
      exact ⟨this.quorum, this.preVote, this.beat⟩
    · exact congrArg Core.config (reset_core (env := env) r _)
  · obtain ⟨t1, t2⟩ : r.term = T ∧ r.state = .follower := by
      rcases ha.term with h | h
      · omega
      · exact h
    have hg : g = .go r := by
      unfold stepGate at hg
      split at hg
      · cases hg; rfl
      · rw [if_neg (by omega), if_neg (by omega)] at hg
        cases hg; rfl
    subst hg
    exact ⟨r, ha, t1, t2, rfl, rfl, rfl, fin r t2 h⟩

/-- A heartbeat is answered. -/
theorem hears {m : Message} {e : Option Err} {T : Nat} (ha : Ally r T) (hT : m.term = T)
    (hm : m.type = .heartbeat) (h : r.step env m = .ok (r', e)) :
    Ally r' T ∧ r'.term = T ∧ r'.id = r.id ∧ ∃ x ∈ r'.msgs, x.type = .heartbeatResp ∧ x.to = m.src ∧ x.src = r.id ∧ x.term = T := by
  obtain ⟨s, s1, s2, s3, s4, s5, s6, h⟩ := step_ally ha hT (Or.inr (Or.inl hm)) h
  unfold stepFollower at h
  rw [hm] at h
  dsimp only at h
  obtain ⟨r2, h2, h⟩ := Res.bind_eq_ok.1 h
  cases h
  unfold handleHeartbeat at h2
  obtain ⟨l, hl, h2⟩ := Res.bind_eq_ok.1 h2
  have e := send_ok h2
  subst e
  refine ⟨⟨⟨s1.plain.quorum, s1.plain.preVote, s1.plain.beat⟩, Or.inr ⟨s2, s3⟩⟩, s2, s5, _, List.mem_append.2 (Or.inr (List.mem_singleton.2 rfl)), ?_⟩
  unfold outMsg
  rw [if_pos rfl]
  exact ⟨rfl, rfl, s5, s2⟩

theorem respondReadIndex_trk {req : Message} {i : Nat} (h : r.respondReadIndex req i = .ok r') : r'.trk = r.trk := by
  unfold respondReadIndex at h
  obtain ⟨⟨r2, m⟩, h2, h⟩ := Res.bind_eq_ok.1 h
  have e2 : r2.trk = r.trk := by
    unfold responseToReadIndexReq at h2
    split at h2
    · obtain ⟨ctx, _, h2⟩ := Res.bind_eq_ok.1 h2
      simp only [Res.pure_eq, Res.ok.injEq, Prod.mk.injEq] at h2
      rw [← h2.1]
    · simp only [Res.ok.injEq, Prod.mk.injEq] at h2
      rw [← h2.1]
  dsimp only at h
  split at h
  · rw [send_ok h]; exact e2
  · cases h; exact e2

theorem respondAll_trk (rss : List ReadIndexStatus) (h : respondAll rss r = .ok r') : r'.trk = r.trk := by
  induction rss generalizing r with
  | nil => cases h; rfl
  | cons rs rss ih =>
    unfold respondAll at h
    obtain ⟨r2, h2, h⟩ := Res.bind_eq_ok.1 h
    exact (ih h).trans (respondReadIndex_trk h2)

theorem probe_sends {j : Nat} {q : Progress} (hw : r.log.WF) (hq : r.pr j = some q) (hs : q.state = .probe) (hp : q.probeSent = false)
    (ha : q.recentActive = true) (hn : 1 ≤ q.next) (hl : q.next ≤ r.log.view.last) (h : r.sendAppend env j = .ok r') :
    ∃ x q', r' = { r.setPr j q' with msgs := r.msgs ++ [x] } ∧ x.to = j ∧ x.src = r.id ∧ x.term = r.term ∧ q'.mtch = q.mtch ∧ q'.isLearner = q.isLearner ∧
      ((x.type = .app ∧ r.log.view.base < q.next ∧ x.index = q.next - 1 ∧ x.logTerm = r.log.view.termAt (q.next - 1) ∧ x.entries ≠ [] ∧
          q'.state = .probe ∧ q'.next = q.next) ∨
       (x.type = .snap ∧ q.next ≤ r.log.view.base ∧ x.snapshot = some r.log.snapshot ∧ q'.state = .snapshot)) := by
  unfold sendAppend at h
  obtain ⟨⟨r2, b⟩, h2, h⟩ := Res.bind_eq_ok.1 h
  cases h
  unfold maybeSendAppend at h2
  obtain ⟨p, hp2, h2⟩ := Res.bind_eq_ok.1 h2
  have hp2 := getPr_ok hp2
  rw [hq] at hp2
  cases hp2
  have hpa : q.isPaused = false := by unfold Progress.isPaused; rw [hs]; exact hp
  rw [if_neg (by rw [hpa]; nofun), hw.term_eq, hw.entries_eq, if_neg (by omega), sub64_of_le hn] at h2
  dsimp only at h2
  by_cases hb : q.next ≤ r.log.view.base
  · rw [if_pos hb] at h2
    simp only [Res.ok_bind, not_true_eq_false, and_false, if_false, ha] at h2
    split at h2
    · cases h2
    · obtain ⟨r3, h3, h2⟩ := Res.bind_eq_ok.1 h2
      simp only [Res.pure_eq, Res.ok.injEq, Prod.mk.injEq] at h2
      obtain ⟨rfl, _⟩ := h2
      refine ⟨_, _, send_ok h3, ?_⟩
      unfold outMsg
      rw [if_pos rfl]
      exact ⟨rfl, rfl, rfl, rfl, rfl, Or.inr ⟨rfl, hb, rfl, rfl⟩⟩
  · rw [if_neg hb] at h2
    have hne : limitSize env.entSize (r.log.view.ents.drop (q.next - r.log.view.base - 1)) r.maxMsgSize ≠ [] := by
      apply limitSize_ne_nil
      intro h0
      have := List.length_drop (l := r.log.view.ents) (i := q.next - r.log.view.base - 1)
      rw [h0] at this
      unfold LogView.last at hl
      simp at this
      omega
    generalize limitSize env.entSize (r.log.view.ents.drop (q.next - r.log.view.base - 1)) r.maxMsgSize = es at *
    simp only [Res.ok_bind, not_true_eq_false, and_false, if_false] at h2
    cases hgl : es.getLast? with
    | none => exact absurd (List.getLast?_eq_none_iff.1 hgl) hne
    | some e0 =>
      rw [hgl, hs] at h2
      dsimp only at h2
      simp only [Res.pure_eq, Res.ok_bind] at h2
      obtain ⟨r3, h3, h2⟩ := Res.bind_eq_ok.1 h2
      simp only [Res.ok.injEq, Prod.mk.injEq] at h2
      obtain ⟨rfl, _⟩ := h2
      refine ⟨_, _, send_ok h3, ?_⟩
      unfold outMsg
      rw [if_pos rfl]
      exact ⟨rfl, rfl, rfl, rfl, rfl, Or.inl ⟨rfl, by omega, rfl, rfl, hne, rfl, rfl⟩⟩

/-- A peer that answers a heartbeat and is behind is sent something. -/
theorem answers {m : Message} {e : Option Err} {q : Progress} (hw : r.log.WF) (hl : r.state = .leader) (hm : m.type = .heartbeatResp)
    (ht : m.term = r.term) (hq : r.pr m.src = some q) (hs : q.state = .probe) (hn : 1 ≤ q.next) (hnl : q.next ≤ r.log.view.last)
    (hml : q.mtch < r.log.view.last) (h : r.step env m = .ok (r', e)) :
    ∃ x q', Serve m.src r r' ∧ r'.pr m.src = some q' ∧ x ∈ r'.msgs ∧ x.to = m.src ∧ x.src = r.id ∧ x.term = r.term ∧ q'.mtch = q.mtch ∧ q'.isLearner = q.isLearner ∧
      ((x.type = .app ∧ r.log.view.base < q.next ∧ x.index = q.next - 1 ∧ x.logTerm = r.log.view.termAt (q.next - 1) ∧ x.entries ≠ [] ∧
          q'.state = .probe ∧ q'.next = q.next) ∨
       (x.type = .snap ∧ q.next ≤ r.log.view.base ∧ x.snapshot = some r.log.snapshot ∧ q'.state = .snapshot)) := by
  have h := step_leader hl (Or.inr ht) (by rw [hm]; nofun) (by rw [hm]; nofun) (by rw [hm]; nofun) h
  unfold stepLeader at h
  rw [hm, hq] at h
  dsimp only at h
  obtain ⟨r2, h2, h⟩ := Res.bind_eq_ok.1 h
  cases h
  unfold leaderHeartbeatResp at h2
  dsimp only at h2
  rw [if_neg (by rw [hs]; rintro ⟨h, _⟩; cases h)] at h2
  simp only [Res.pure_eq, Res.ok_bind] at h2
  rw [if_pos (by show q.mtch < r.log.lastIndex; rw [hw.lastIndex_eq]; exact hml)] at h2
  obtain ⟨r3, h3, h2⟩ := Res.bind_eq_ok.1 h2
  obtain ⟨x, q', e3, x1, x2, x3, x4, x5, hx⟩ := probe_sends (r := r.setPr m.src { q with recentActive := true, probeSent := false })
    hw (setPr_self _ _) hs rfl rfl hn hnl h3
  have s3 : Serve m.src r r3 := by
    rw [e3]
    exact (Serve.setPr (r := r) { q with recentActive := true, probeSent := false }).trans ⟨fun h => ⟨h.quorum, h.preVote, h.beat⟩, rfl, rfl, rfl, rfl, ⟨_, Nat.le_refl _, rfl⟩,
      fun v p hv hp => ⟨p, (AMap.find_insert_ne _ _ (Ne.symm hv)).trans hp, .refl p⟩⟩
  have p3 : r3.pr m.src = some q' := by rw [e3]; exact AMap.find_insert_self _ _ _
  have m3 : x ∈ r3.msgs := by rw [e3]; exact List.mem_append.2 (Or.inr (List.mem_singleton.2 rfl))
  have fin : ∀ r4, Tame r3 r4 → (∀ v, r4.pr v = r3.pr v) → ∃ x q', Serve m.src r r4 ∧ r4.pr m.src = some q' ∧ x ∈ r4.msgs ∧ x.to = m.src ∧ x.src = r.id ∧ x.term = r.term ∧
      q'.mtch = q.mtch ∧ q'.isLearner = q.isLearner ∧
      ((x.type = .app ∧ r.log.view.base < q.next ∧ x.index = q.next - 1 ∧ x.logTerm = r.log.view.termAt (q.next - 1) ∧ x.entries ≠ [] ∧
          q'.state = .probe ∧ q'.next = q.next) ∨
       (x.type = .snap ∧ q.next ≤ r.log.view.base ∧ x.snapshot = some r.log.snapshot ∧ q'.state = .snapshot)) := fun r4 t4 h4 =>
    ⟨x, q', s3.trans t4.steady.serve, by rw [h4]; exact p3, t4.mem m3, x1, x2, x3, x4, x5, hx⟩
  split at h2
  · cases h2; exact fin _ .refl fun _ => rfl
  · split at h2
    · cases h2; exact fin _ (.of rfl rfl rfl rfl rfl) fun _ => rfl
    · obtain ⟨⟨ro, rss⟩, h4, h2⟩ := Res.bind_eq_ok.1 h2
      have h5 := Tame.respondAll _ h2
      refine fin _ (Tame.trans (b := { r3 with readOnly := ro }) (.of rfl rfl rfl rfl rfl) h5) fun v => ?_
      unfold pr
      rw [respondAll_trk _ h2]

/-- The peer's answer to an append. -/
theorem takes_app {m : Message} {e : Option Err} {T : Nat} (ha : Ally r T) (hT : m.term = T) (hw : r.log.WF)
    (hm : m.type = .app) (hes : m.entries ≠ []) (h : r.step env m = .ok (r', e)) :
    Ally r' T ∧ ∃ x ∈ r'.msgs, x.type = .appResp ∧ x.to = m.src ∧ x.src = r.id ∧ x.term = T ∧
      ((x.reject = false ∧ m.index < x.index) ∨
       (x.reject = true ∧ x.index = m.index ∧ r.log.committed ≤ m.index ∧ r.log.view.termAt m.index ≠ m.logTerm)) := by
  obtain ⟨s, s1, s2, s3, s4, s5, s6, h⟩ := step_ally ha hT (Or.inl hm) h
  unfold stepFollower at h
  rw [hm] at h
  dsimp only at h
  obtain ⟨r2, h2, h⟩ := Res.bind_eq_ok.1 h
  cases h
  unfold handleAppendEntries at h2
  dsimp only at h2
  rw [s4] at h2
  split at h2
  · rename_i hc
    have e := send_ok h2
    subst e
    refine ⟨⟨⟨s1.plain.quorum, s1.plain.preVote, s1.plain.beat⟩, Or.inr ⟨s2, s3⟩⟩, _, List.mem_append.2 (Or.inr (List.mem_singleton.2 rfl)), ?_⟩
    unfold outMsg
    rw [if_pos rfl]
    exact ⟨rfl, rfl, s5, s2, Or.inl ⟨rfl, hc⟩⟩
  · rename_i hc
    obtain ⟨⟨l2, res⟩, h3, h2⟩ := Res.bind_eq_ok.1 h2
    dsimp only at h2
    unfold RaftLog.maybeAppend at h3
    rw [hw.matchTerm_eq] at h3
    simp only [Res.ok_bind] at h3
    by_cases hmt : r.log.view.termAt m.index = m.logTerm
    · rw [decide_eq_true hmt, if_pos rfl] at h3
      obtain ⟨ci, _, h3⟩ := Res.bind_eq_ok.1 h3
      have hres : res = some (m.index + m.entries.length) := by
        have fin : ∀ l : Res RaftLog, (do let l ← l; let l ← l.commitTo (min m.commit (m.index + m.entries.length)); pure (l, some (m.index + m.entries.length)) :
            Res (RaftLog × Option Nat)) = .ok (l2, res) → res = some (m.index + m.entries.length) := by
          intro l h
          obtain ⟨_, _, h⟩ := Res.bind_eq_ok.1 h
          obtain ⟨_, _, h⟩ := Res.bind_eq_ok.1 h
          simp only [Res.pure_eq, Res.ok.injEq, Prod.mk.injEq] at h
          exact h.2.symm
        split at h3
        · exact fin _ h3
        · split at h3
          · exact fin (.fatal _) h3
          · split at h3
            · exact fin (.fatal _) h3
            · exact fin _ h3
      subst hres
      dsimp only at h2
      have e := send_ok h2
      subst e
      refine ⟨⟨⟨s1.plain.quorum, s1.plain.preVote, s1.plain.beat⟩, Or.inr ⟨s2, s3⟩⟩, _, List.mem_append.2 (Or.inr (List.mem_singleton.2 rfl)), ?_⟩
      unfold outMsg
      rw [if_pos rfl]
      refine ⟨rfl, rfl, s5, s2, Or.inl ⟨rfl, ?_⟩⟩
      have := List.length_pos_iff.2 hes
      show m.index < m.index + m.entries.length
      omega
    · rw [decide_eq_false hmt, if_neg (by nofun)] at h3
      simp only [Res.pure_eq, Res.ok.injEq, Prod.mk.injEq] at h3
      obtain ⟨_, rfl⟩ := h3
      dsimp only at h2
      obtain ⟨t0, _, h2⟩ := Res.bind_eq_ok.1 h2
      obtain ⟨t1, _, h2⟩ := Res.bind_eq_ok.1 h2
      obtain ⟨hi, _, h2⟩ := Res.bind_eq_ok.1 h2
      obtain ⟨ht, _, h2⟩ := Res.bind_eq_ok.1 h2
      cases ht with
      | error _ => cases h2
      | ok ht =>
        dsimp only at h2
        have e := send_ok h2
        subst e
        refine ⟨⟨⟨s1.plain.quorum, s1.plain.preVote, s1.plain.beat⟩, Or.inr ⟨s2, s3⟩⟩, _, List.mem_append.2 (Or.inr (List.mem_singleton.2 rfl)), ?_⟩
        unfold outMsg
        rw [if_pos rfl]
        exact ⟨rfl, rfl, s5, s2, Or.inr ⟨rfl, rfl, by omega, hmt⟩⟩

/-- The peer's answer to a snapshot. -/
theorem takes_snap {m : Message} {e : Option Err} {T : Nat} {sn : Snapshot} (ha : Ally r T) (hT : m.term = T)
    (hm : m.type = .snap) (hsn : m.snapshot = some sn)
    (hin : r.id ∈ sn.metadata.confState.voters ∨ r.id ∈ sn.metadata.confState.learners ∨ r.id ∈ sn.metadata.confState.votersOutgoing)
    (h : r.step env m = .ok (r', e)) :
    Ally r' T ∧ ∃ x ∈ r'.msgs, x.type = .appResp ∧ x.to = m.src ∧ x.src = r.id ∧ x.term = T ∧ x.reject = false ∧ sn.metadata.index ≤ x.index := by
  obtain ⟨s, s1, s2, s3, s4, s5, s6, h⟩ := step_ally ha hT (Or.inr (Or.inr hm)) h
  unfold stepFollower at h
  rw [hm] at h
  dsimp only at h
  obtain ⟨r2, h2, h⟩ := Res.bind_eq_ok.1 h
  cases h
  unfold handleSnapshot at h2
  rw [hsn] at h2
  obtain ⟨⟨r3, ok⟩, h3, h2⟩ := Res.bind_eq_ok.1 h2
  have h3 : ({ s with electionElapsed := 0, lead := m.src } : Raft).restore env sn = .ok (r3, ok) := h3
  have s5' : ({ s with electionElapsed := 0, lead := m.src } : Raft).id = r.id := s5
  have key : Ally r3 T ∧ r3.term = T ∧ r3.id = r.id ∧ (ok = true → r3.log.lastIndex = sn.metadata.index) ∧ (ok = false → sn.metadata.index ≤ r3.log.committed) := by
    have pl : ∀ r3 : Raft, r3.checkQuorum = s.checkQuorum → r3.preVote = s.preVote → r3.heartbeatTimeout = s.heartbeatTimeout → r3.term = s.term → r3.state = s.state → Ally r3 T := by
      intro r3 a1 a2 a3 a4 a5
      exact ⟨⟨a1.trans s1.plain.quorum, a2.trans s1.plain.preVote, a3.trans s1.plain.beat⟩, Or.inr ⟨a4.trans s2, a5.trans s3⟩⟩
    rcases restore_cases (r := { s with electionElapsed := 0, lead := m.src }) s3 h3 with ⟨rfl, rfl⟩ | ⟨hc, rfl, l, _, hl, rfl⟩ | ⟨hc, rfl, cfg, prs, lrn, p, _, _, _, rfl⟩
    · refine ⟨pl _ rfl rfl rfl rfl rfl, s2, s5, nofun, fun _ => ?_⟩
      by_cases hc : sn.metadata.index ≤ s.log.committed
      · exact hc
      · exfalso
        unfold restore at h3
        rw [if_neg hc, if_neg (by show ¬ s.state ≠ .follower; rw [s3]; simp)] at h3
        dsimp only at h3
        rw [s5, if_neg (fun hh => hh hin)] at h3
        obtain ⟨mt, _, h3⟩ := Res.bind_eq_ok.1 h3
        cases mt with
        | true =>
          simp only [if_true] at h3
          obtain ⟨_, _, h3⟩ := Res.bind_eq_ok.1 h3
          obtain ⟨l, hl, h3⟩ := Res.bind_eq_ok.1 h3
          simp only [Res.pure_eq, Res.ok.injEq, Prod.mk.injEq] at h3
          have e1 := RaftLog.commitTo_max hl
          have e2 : l = s.log := congrArg Raft.log h3.1
          rw [e2] at e1
          have : s.log.committed = max s.log.committed sn.metadata.index := congrArg RaftLog.committed e1
          omega
        | false =>
          simp only [Bool.false_eq_true, if_false] at h3
          split at h3
          · cases h3
          · obtain ⟨⟨r4, cs⟩, _, h3⟩ := Res.bind_eq_ok.1 h3
            dsimp only at h3
            split at h3
            · cases h3
            · obtain ⟨_, _, h3⟩ := Res.bind_eq_ok.1 h3
              obtain ⟨_, _, h3⟩ := Res.bind_eq_ok.1 h3
              simp only [Res.pure_eq, Res.ok.injEq, Prod.mk.injEq, Bool.true_eq_false, and_false] at h3
    · refine ⟨pl _ rfl rfl rfl rfl rfl, s2, s5, nofun, fun _ => ?_⟩
      show _ ≤ l.committed
      rw [RaftLog.commitTo_max hl]
      exact Nat.le_max_right _ _
    · refine ⟨pl _ rfl rfl rfl rfl rfl, s2, s5, fun _ => ?_, nofun⟩
      exact restored_lastIndex _ _
  obtain ⟨k1, k2, k3, k4, k5⟩ := key
  dsimp only at h2
  cases ok with
  | true =>
    rw [if_pos rfl] at h2
    have e := send_ok h2
    subst e
    refine ⟨⟨⟨k1.plain.quorum, k1.plain.preVote, k1.plain.beat⟩, k1.term⟩, _, List.mem_append.2 (Or.inr (List.mem_singleton.2 rfl)), ?_⟩
    unfold outMsg
    rw [if_pos rfl]
    exact ⟨rfl, rfl, k3, k2, rfl, by show _ ≤ r3.log.lastIndex; rw [k4 rfl]⟩
  | false =>
    rw [if_neg (by nofun)] at h2
    have e := send_ok h2
    subst e
    refine ⟨⟨⟨k1.plain.quorum, k1.plain.preVote, k1.plain.beat⟩, k1.term⟩, _, List.mem_append.2 (Or.inr (List.mem_singleton.2 rfl)), ?_⟩
    unfold outMsg
    rw [if_pos rfl]
    exact ⟨rfl, rfl, k3, k2, rfl, k5 rfl⟩

theorem sent_kept {a b : Raft} {j : Nat} {q : Progress} (h : Steady a b) (hq : a.pr j = some q) (hs : q.state ≠ .probe) :
    ∃ q', b.pr j = some q' ∧ q'.mtch = q.mtch ∧ q'.isLearner = q.isLearner ∧ q'.state ≠ .probe := by
  obtain ⟨q', k1, k2⟩ := h.prs _ _ hq
  exact ⟨q', k1, (congrArg Prod.fst k2.1 :), (congrArg Prod.snd k2.1 :), fun h => hs (k2.2 h).1⟩

/-- The leader on an acknowledgement. -/
theorem acked {m : Message} {e : Option Err} {q : Progress} (hl : r.state = .leader) (hm : m.type = .appResp)
    (ht : m.term = r.term) (hrej : m.reject = false) (hq : r.pr m.src = some q) (hml : q.mtch < m.index) (h : r.step env m = .ok (r', e)) :
    Serve m.src r r' ∧ ∃ q', r'.pr m.src = some q' ∧ q'.mtch = m.index ∧ q'.isLearner = q.isLearner ∧ q'.state ≠ .probe := by
  have h := step_leader hl (Or.inr ht) (by rw [hm]; nofun) (by rw [hm]; nofun) (by rw [hm]; nofun) h
  unfold stepLeader at h
  rw [hm, hq] at h
  dsimp only at h
  rw [if_neg (by rw [hrej]; nofun)] at h
  obtain ⟨r2, h2, h⟩ := Res.bind_eq_ok.1 h
  cases h
  unfold leaderAppAccept at h2
  dsimp only at h2
  have hu : (({ q with recentActive := true } : Progress).maybeUpdate m.index) =
      ({ q with recentActive := true, mtch := m.index, probeSent := false, next := max q.next (m.index + 1) }, true) := by
    unfold Progress.maybeUpdate
    dsimp only
    rw [if_pos hml, decide_eq_true hml]
  rw [hu] at h2
  dsimp only at h2
  rw [if_neg (by simp)] at h2
  have main : ∀ (p : Progress) (b : Bool),
      (do
        let (r, c) ← ((r.setPr m.src { q with recentActive := true }).setPr m.src p).maybeCommit
        let r ←
          if c then do
            let r ← r.releasePendingReadIndexMessages
            r.bcastAppend env
          else if b then r.sendAppend env m.src
          else pure r
        let r ← sendLoop env m.src (r.log.lastIndex + 2) r
        let pr ← r.getPr m.src "raft.cc:1242"
        if m.src = r.leadTransferee ∧ pr.mtch = r.log.lastIndex then r.sendTimeoutNow m.src
        else pure r : Res Raft) = .ok r' → p.mtch = m.index → p.isLearner = q.isLearner → p.state ≠ .probe →
      Serve m.src r r' ∧ ∃ q', r'.pr m.src = some q' ∧ q'.mtch = m.index ∧ q'.isLearner = q.isLearner ∧ q'.state ≠ .probe := by
    intro p b h p1 p2 p3
    have s0 : Serve m.src r ((r.setPr m.src { q with recentActive := true }).setPr m.src p) := (Serve.setPr _).trans (Serve.setPr _)
    have q0 : ((r.setPr m.src { q with recentActive := true }).setPr m.src p).pr m.src = some p := setPr_self _ _
    generalize (r.setPr m.src { q with recentActive := true }).setPr m.src p = s at *
    obtain ⟨⟨r1, c⟩, h1, h⟩ := Res.bind_eq_ok.1 h
    have k1 := Steady.maybeCommit h1
    dsimp only at h
    have fin : ∀ {r1 : Raft}, Steady s r1 → (do
        let r ← sendLoop env m.src (r1.log.lastIndex + 2) r1
        let pr ← r.getPr m.src "raft.cc:1242"
        if m.src = r.leadTransferee ∧ pr.mtch = r.log.lastIndex then r.sendTimeoutNow m.src
        else pure r : Res Raft) = .ok r' → Serve m.src r r' ∧ ∃ q', r'.pr m.src = some q' ∧ q'.mtch = m.index ∧ q'.isLearner = q.isLearner ∧ q'.state ≠ .probe := by
      intro r1 k1 h
      obtain ⟨r2, h2, h⟩ := Res.bind_eq_ok.1 h
      have k2 := k1.trans (Tame.sendLoop _ h2).steady
      obtain ⟨p4, _, h⟩ := Res.bind_eq_ok.1 h
      have k3 : Steady s r' := by
        split at h
        · exact k2.trans (Tame.send h).steady
        · cases h; exact k2
      obtain ⟨q', a1, a2, a3, a4⟩ := sent_kept k3 q0 p3
      exact ⟨s0.trans k3.serve, q', a1, a2.trans p1, a3.trans p2, a4⟩
    split at h
    · obtain ⟨r2, h2, h⟩ := Res.bind_eq_ok.1 h
      obtain ⟨r3, h3, h⟩ := Res.bind_eq_ok.1 h
      exact fin (k1.trans ((Tame.releasePending h2).trans (Tame.bcastAppend h3)).steady) h
    · split at h
      · obtain ⟨r2, h2, h⟩ := Res.bind_eq_ok.1 h
        exact fin (k1.trans (Tame.sendAppend h2).steady) h
      · exact fin k1 h
  split at h2
  · obtain ⟨p, h3, h2⟩ := Res.bind_eq_ok.1 h2
    cases h3
    exact main _ _ h2 rfl rfl (by nofun)
  · rename_i hs
    split at h2
    · obtain ⟨p, h3, h2⟩ := Res.bind_eq_ok.1 h2
      cases h3
      refine main _ _ h2 ?_ ?_ (by nofun)
      · unfold Progress.becomeReplicate Progress.resetState Progress.becomeProbe
        dsimp only
        split <;> rfl
      · unfold Progress.becomeReplicate Progress.resetState Progress.becomeProbe
        dsimp only
        split <;> rfl
    · obtain ⟨p, h3, h2⟩ := Res.bind_eq_ok.1 h2
      cases h3
      exact main _ _ h2 rfl rfl (by show q.state ≠ _; rw [hs]; nofun)
  · rename_i hs
    obtain ⟨infl, h4, h2⟩ := Res.bind_eq_ok.1 h2
    obtain ⟨p, h3, h2⟩ := Res.bind_eq_ok.1 h2
    cases h3
    exact main _ _ h2 rfl rfl (by show q.state ≠ _; rw [hs]; nofun)

/-- The leader on a rejection of a probe. -/
theorem refused {m : Message} {e : Option Err} {q : Progress} (hl : r.state = .leader) (hm : m.type = .appResp)
    (ht : m.term = r.term) (hrej : m.reject = true) (hq : r.pr m.src = some q) (hs : q.state = .probe) (hn : 2 ≤ q.next) (hi : m.index = q.next - 1)
    (h : r.step env m = .ok (r', e)) :
    Serve m.src r r' ∧ ∃ q', r'.pr m.src = some q' ∧ q'.mtch = q.mtch ∧ q'.isLearner = q.isLearner ∧ (q'.state = .probe → 1 ≤ q'.next ∧ q'.next < q.next) := by
  have h := step_leader hl (Or.inr ht) (by rw [hm]; nofun) (by rw [hm]; nofun) (by rw [hm]; nofun) h
  unfold stepLeader at h
  rw [hm, hq] at h
  dsimp only at h
  rw [if_pos hrej] at h
  obtain ⟨r2, h2, h⟩ := Res.bind_eq_ok.1 h
  cases h
  unfold leaderAppReject at h2
  dsimp only at h2
  have main : ∀ np : Nat, (do
      let (pr, decr) := ({ q with recentActive := true } : Progress).maybeDecrTo m.index np
      if decr then
        let pr := if pr.state = .replicate then pr.becomeProbe else pr
        ((r.setPr m.src { q with recentActive := true }).setPr m.src pr).sendAppend env m.src
      else pure ((r.setPr m.src { q with recentActive := true }).setPr m.src pr) : Res Raft) = .ok r' →
      Serve m.src r r' ∧ ∃ q', r'.pr m.src = some q' ∧ q'.mtch = q.mtch ∧ q'.isLearner = q.isLearner ∧ (q'.state = .probe → 1 ≤ q'.next ∧ q'.next < q.next) := by
    intro np h
    have hd : ({ q with recentActive := true } : Progress).maybeDecrTo m.index np =
        ({ q with recentActive := true, next := max (min m.index ((np + 1) % 2 ^ 64)) 1, probeSent := false }, true) := by
      unfold Progress.maybeDecrTo
      rw [if_neg (by show ¬ q.state = _; rw [hs]; nofun), if_neg (by show ¬ (sub64 q.next 1 ≠ m.index); rw [sub64_of_le (by omega), hi]; simp)]
    rw [hd] at h
    dsimp only at h
    rw [if_pos rfl, if_neg (by rw [hs]; nofun)] at h
    have t := Tame.sendAppend h
    obtain ⟨q', a1, a2⟩ := t.prs _ _ (setPr_self _ _)
    refine ⟨((Serve.setPr _).trans (Serve.setPr _)).trans t.steady.serve, q', a1, (congrArg Prod.fst a2.1 :), (congrArg Prod.snd a2.1 :), fun hp => ?_⟩
    have := (a2.2 hp).2
    rw [this]
    dsimp only
    omega
  split at h2
  · obtain ⟨np, _, h2⟩ := Res.bind_eq_ok.1 h2
    exact main np h2
  · exact main _ h2

/-- The leader is told that a peer cannot be reached. -/
theorem unreach {j : Nat} {e : Option Err} {q : Progress} (hl : r.state = .leader) (hq : r.pr j = some q)
    (h : r.step env { type := .unreachable, src := j } = .ok (r', e)) :
    Serve j r r' ∧ ∃ q', r'.pr j = some q' ∧ q'.mtch = q.mtch ∧ q'.isLearner = q.isLearner ∧
      ((q.state = .replicate ∧ q'.state = .probe ∧ q'.next = q.mtch + 1) ∨ (q.state ≠ .replicate ∧ q' = q)) := by
  have h := step_leader hl (Or.inl rfl) (by nofun) (by nofun) (by nofun) h
  unfold stepLeader at h
  dsimp only at h
  rw [hq] at h
  dsimp only at h
  simp only [Res.ok.injEq, Prod.mk.injEq] at h
  obtain ⟨rfl, _⟩ := h
  by_cases hs : q.state = .replicate
  · rw [if_pos hs]
    refine ⟨.setPr _, _, setPr_self _ _, ?_⟩
    unfold Progress.becomeProbe
    rw [if_neg (by rw [hs]; nofun)]
    exact ⟨rfl, rfl, Or.inl ⟨hs, rfl, rfl⟩⟩
  · rw [if_neg hs]
    exact ⟨.refl, q, hq, rfl, rfl, Or.inr ⟨hs, rfl⟩⟩

/-- The leader is told that a snapshot did not get through. -/
theorem snapFail {j : Nat} {e : Option Err} {q : Progress} (hl : r.state = .leader) (hq : r.pr j = some q)
    (h : r.step env { type := .snapStatus, src := j, reject := true } = .ok (r', e)) :
    Serve j r r' ∧ ∃ q', r'.pr j = some q' ∧ q'.mtch = q.mtch ∧ q'.isLearner = q.isLearner ∧
      ((q.state = .snapshot ∧ q'.state = .probe ∧ q'.next = q.mtch + 1) ∨ (q.state ≠ .snapshot ∧ q' = q)) := by
  have h := step_leader hl (Or.inl rfl) (by nofun) (by nofun) (by nofun) h
  unfold stepLeader at h
  dsimp only at h
  rw [hq] at h
  dsimp only at h
  simp only [Res.ok.injEq, Prod.mk.injEq] at h
  obtain ⟨rfl, _⟩ := h
  unfold leaderSnapStatus
  by_cases hs : q.state = .snapshot
  · rw [if_neg (by rw [hs]; simp)]
    dsimp only
    rw [if_neg (by simp)]
    refine ⟨.setPr _, _, setPr_self _ _, ?_⟩
    unfold Progress.becomeProbe
    rw [if_pos hs]
    refine ⟨rfl, rfl, Or.inl ⟨hs, rfl, ?_⟩⟩
    show max (q.mtch + 1) (0 + 1) = q.mtch + 1
    omega
  · rw [if_pos hs]
    exact ⟨.refl, q, hq, rfl, rfl, Or.inr ⟨hs, rfl⟩⟩

/-- A proposal to a leader just elected. -/
theorem proposes {T : Nat} {V : LogView} {d : Bytes} {e : Option Err} (hw : r.log.WF) (hc : Chosen r T V)
    (h : r.step env { type := .prop, src := r.id, entries := [{ data := d }] } = .ok (r', e)) :
    Leading r' T ((firstLog V T).push [{ term := T, index := V.last + 2, data := d }]) ∧ r'.id = r.id ∧ r'.log.applied = r.log.applied := by
  have h := step_leader hc.leads.state (Or.inl rfl) (by nofun) (by nofun) (by nofun) h
  unfold stepLeader at h
  dsimp only at h
  unfold leaderProp at h
  dsimp only at h
  obtain ⟨p0, hp0, _⟩ := hc.leads.self
  rw [if_neg (by nofun), if_neg (by rw [hp0]; nofun), if_neg (by rw [hc.noTransfer]; simp)] at h
  obtain ⟨⟨es, pci⟩, hg, h⟩ := Res.bind_eq_ok.1 h
  have hg : es = [{ data := d }] ∧ pci = r.pendingConfIndex := by
    have : gateConf env r 0 r.pendingConfIndex [{ data := d }] = .ok ([{ data := d }], r.pendingConfIndex) := rfl
    rw [this] at hg
    cases hg
    exact ⟨rfl, rfl⟩
  obtain ⟨rfl, rfl⟩ := hg
  dsimp only at h
  obtain ⟨⟨r2, ok⟩, h2, h⟩ := Res.bind_eq_ok.1 h
  dsimp only at h
  have hok : ok = true := by
    cases ok with
    | true => rfl
    | false =>
      exfalso
      unfold appendEntry increaseUncommittedSize at h2
      dsimp only at h2
      rw [hc.noSize] at h2
      simp only [Nat.lt_irrefl, gt_iff_lt, false_and, if_false, not_true_eq_false] at h2
      obtain ⟨_, _, h2⟩ := Res.bind_eq_ok.1 h2
      obtain ⟨_, _, h2⟩ := Res.bind_eq_ok.1 h2
      obtain ⟨⟨_, _⟩, _, h2⟩ := Res.bind_eq_ok.1 h2
      simp at h2
  subst hok
  rw [if_neg (by simp)] at h
  obtain ⟨r3, h3, h⟩ := Res.bind_eq_ok.1 h
  cases h
  have t3 := Tame.bcastAppend h3
  obtain ⟨p, l, k1, k2, k3, k4, k5, k6⟩ := appendEntry_does (r := { r with pendingConfIndex := r.pendingConfIndex }) hw h2
  have hlast : (firstLog V T).last = V.last + 1 := push_last _ _
  have k2 : l.view = (firstLog V T).push [{ term := T, index := V.last + 2, data := d }] := by
    rw [k2]
    show r.log.view.push [{ term := r.term, index := r.log.lastIndex + 1, data := d }] = _
    rw [hc.leads.view, hc.leads.term, hw.lastIndex_eq, hc.leads.view, hlast]
  have hlast2 : ((firstLog V T).push [{ term := T, index := V.last + 2, data := d }]).last = V.last + 2 := (push_last _ _).trans (by rw [hlast]; rfl)
  have k1 : r.pr r.id = some p := k1
  rw [hp0] at k1
  cases k1
  have hld := hc.leads
  obtain ⟨_, q0, q1, q2⟩ := hld.self
  rw [hp0] at q0
  cases q0
  refine ⟨Leading.steady (a := r2) ⟨⟨by rw [k6]; exact hld.plain.quorum, by rw [k6]; exact hld.plain.preVote, by rw [k6]; exact hld.plain.beat⟩, by rw [k6]; exact hld.state,
    by rw [k6]; exact hld.term, by rw [k6]; exact k2, by rw [k6]; exact k4.trans hld.snap, ?_, fun v hv hne => ?_⟩ t3.steady, ?_, ?_⟩
  · refine ⟨(p0.maybeUpdate l.view.last).1, by rw [k6]; exact setPr_self _ _, ?_, ?_⟩
    · unfold Progress.maybeUpdate
      dsimp only
      split <;> exact q1
    · rw [k2, hlast2]
      unfold Progress.maybeUpdate
      rw [if_pos (by rw [q2, hlast]; omega)]
  · have hid : r2.id = r.id := by rw [k6]; rfl
    have hcf : r2.trk.config = r.trk.config := by rw [k6]; rfl
    rw [hid] at hne
    rw [hcf] at hv
    obtain ⟨q, a1, a2, a3⟩ := hld.peers v hv hne
    refine ⟨q, ?_, a2, fun hp => ?_⟩
    · rw [k6]
      exact (AMap.find_insert_ne _ _ (Ne.symm hne)).trans a1
    · have := a3 hp
      rw [hlast2]
      rw [hlast] at this
      omega
  · rw [t3.id, k6]; rfl
  · rw [t3.log, k6]; exact k5

end Raft
end Craft
