import Verif.Safe.Handlers
import Verif.Props.Log

/-! # `Step` and `Tick` return -/

namespace Craft
open Spec

/-- The membership recorded in a snapshot can be restored, and node `id` is known to it if it is listed. -/
def ConfSafe (cs : ConfState) (id : Nat) : Prop :=
  ∀ mi last, ∃ cfg prs, Changer.restore { tracker := { maxInflight := mi }, lastIndex := last } cs = .ok (cfg, prs) ∧
    confStateEq cs ({ config := cfg, progress := prs, maxInflight := mi } : Tracker).confState = true ∧
    (id ∈ cs.voters ∨ id ∈ cs.learners ∨ id ∈ cs.votersOutgoing → ∃ p, AMap.find prs id = some p) ∧
    ∀ k p, AMap.find prs k = some p → p.inflights = Inflights.new mi

/-- What a node relies on about the message it handles. -/
def MsgSafe (K : Around) (env : Env) (r : Raft) (m : Message) : Prop :=
  match m.type with
  | .vote => m.term ≠ 0
  | .preVote => m.term ≠ 0 ∧ (r.term = 0 → r.log.isUpToDate m.index m.logTerm = .ok true)
  | .prop => m.term = 0 ∧ m.entries ≠ [] ∧ Parses env m.entries
  | .readIndex => m.term = 0 ∧ m.entries ≠ []
  | .transferLeader => m.term = 0 ∨ K.lead m.term r.id
  | .app => m.term ≠ 0 ∧ K.lead m.term m.src ∧ m.src ≠ r.id ∧ AppWF m
  | .heartbeat => m.term ≠ 0 ∧ K.lead m.term m.src ∧ m.src ≠ r.id ∧ (r.term ≤ m.term → m.commit ≤ r.log.lastIndex)
  | .snap => m.term ≠ 0 ∧ K.lead m.term m.src ∧ m.src ≠ r.id ∧ (m.snapshot.getD {}).metadata.term ≠ 0 ∧
      ConfSafe (m.snapshot.getD {}).metadata.confState r.id
  | .appResp | .heartbeatResp => m.src ≠ r.id
  | _ => True

namespace Raft
variable {K : Around} {env : Env} {r r' : Raft} {m : Message}

/-! ## Leader -/

theorem gateConf_safe (r : Raft) {es : List Entry} (h : Parses env es) (i pci : Nat) : ∃ x, gateConf env r i pci es = .ok x := by
  induction es generalizing i pci with
  | nil => exact ⟨_, rfl⟩
  | cons e es ih =>
    have ih' : ∀ i pci, ∃ x, gateConf env r i pci es = .ok x := ih (fun x hx => h x (List.mem_cons_of_mem _ hx))
    obtain ⟨p1, p2⟩ := h e List.mem_cons_self
    unfold gateConf
    cases he : e.type with
    | normal =>
      simp only [Res.pure_eq, Res.ok_bind]
      obtain ⟨x, hx⟩ := ih' (i + 1) pci
      rw [hx]; exact ⟨_, rfl⟩
    | confChange =>
      cases hp : env.parseV1 e.data with
      | none => exact absurd hp (p1 he)
      | some cc =>
        simp only [Res.pure_eq, Res.ok_bind]
        split
        · obtain ⟨x, hx⟩ := ih' (i + 1) pci
          rw [hx]; exact ⟨_, rfl⟩
        · obtain ⟨x, hx⟩ := ih' (i + 1) (r.log.lastIndex + i + 1)
          rw [hx]; exact ⟨_, rfl⟩
    | confChangeV2 =>
      cases hp : env.parseV2 e.data with
      | none => exact absurd hp (p2 he)
      | some cc =>
        simp only [Res.pure_eq, Res.ok_bind]
        split
        · obtain ⟨x, hx⟩ := ih' (i + 1) pci
          rw [hx]; exact ⟨_, rfl⟩
        · obtain ⟨x, hx⟩ := ih' (i + 1) (r.log.lastIndex + i + 1)
          rw [hx]; exact ⟨_, rfl⟩

theorem leaderProp_safe (h : Safe K env r) (hl : r.state = .leader) (hne : m.entries ≠ []) (hp : Parses env m.entries) :
    (r.leaderProp env m).Sat fun x => Safe K env x.1 := by
  unfold leaderProp
  rw [if_neg hne]
  split
  · exact .ok h
  rename_i hnone
  split
  · exact .ok h
  obtain ⟨⟨es, pci⟩, hg⟩ := gateConf_safe r hp 0 r.pendingConfIndex
  rw [hg]
  simp only [Res.ok_bind]
  have h1 : Safe K env { r with pendingConfIndex := pci } :=
    ⟨h.log, h.id, h.self, h.tpos, h.infl, h.next, h.ro, h.pend, h.lead, h.out⟩
  refine (appendEntry_safe h1 hl (by
    cases hp : r.pr r.id with
    | none => rw [hp] at hnone; simp at hnone
    | some p => exact ⟨p, hp⟩)).bind fun x hx => ?_
  split
  · exact .pure hx.1.safe
  · exact (bcastAppend_safe hx.1.safe (hx.1.state.trans hl)).bind fun r2 h2 => .pure h2.1

theorem mapPr_safe {f : Nat → Progress → Progress} (h : Safe K env r) (hi : ∀ k p, (f k p).inflights = p.inflights)
    (hn : ∀ k p, (f k p).next = p.next ∧ (f k p).mtch = p.mtch) :
    Safe K env { r with trk := { r.trk with progress := r.trk.progress.map fun (x : Nat × Progress) => (x.1, f x.1 x.2) } } := by
  have hpr : ∀ k, ({ r with trk := { r.trk with progress := r.trk.progress.map fun (x : Nat × Progress) => (x.1, f x.1 x.2) } } : Raft).pr k =
      (r.pr k).map (f k) := fun k => AMap.find_map _ _ _
  have hsome : ∀ k q, (r.pr k).map (f k) = some q → ∃ p, r.pr k = some p ∧ q = f k p := by
    intro k q hq
    cases hp : r.pr k with
    | none => rw [hp] at hq; cases hq
    | some p => rw [hp] at hq; cases hq; exact ⟨p, rfl, rfl⟩
  refine ⟨h.log, h.id, fun hs => ?_, h.tpos, ?_, fun hs k q hq => ?_, h.ro, h.pend, h.lead, h.out⟩
  · obtain ⟨p, hp⟩ := h.self hs
    rw [hpr]
    show ∃ p, (r.pr r.id).map _ = some p
    rw [hp]
    exact ⟨_, rfl⟩
  · obtain ⟨sz, h1, h2, h3, h4⟩ := h.infl
    refine ⟨sz, h1, h2, h3, fun k q hq => ?_⟩
    rw [hpr] at hq
    obtain ⟨p, hp, rfl⟩ := hsome k q hq
    obtain ⟨l, hl⟩ := h4 k p hp
    exact ⟨l, by rw [hi]; exact hl⟩
  · rw [hpr] at hq
    obtain ⟨p, hp, rfl⟩ := hsome k q hq
    have := h.next hs k p hp
    unfold NextOk at *
    rw [(hn k p).1, (hn k p).2]
    exact this

theorem checkQuorum_tail {b : Raft} (h2 : Safe K env b) :
    Safe K env ({ b with trk := { b.trk with
          progress := b.trk.progress.map fun (id, p) => (id, if id ≠ b.id then { p with recentActive := false } else p) } } : Raft) :=
  mapPr_safe (f := fun id p => if id ≠ b.id then { p with recentActive := false } else p) h2
    (fun k p => by split <;> rfl) (fun k p => by split <;> exact ⟨rfl, rfl⟩)

theorem checkQuorum_demote {a : Raft} (h1 : Safe K env a) :
    Safe K env (if ¬ a.trk.quorumActive = true then a.becomeFollower env a.term 0 else a) := by
  split
  · exact becomeFollower_safe h1 (fun hh => absurd rfl hh)
  · exact h1

theorem leaderCheckQuorum_safe (h : Safe K env r) : Safe K env (r.leaderCheckQuorum env) := by
  have h1 : Safe K env (match r.pr r.id with
      | some p => r.setPr r.id { p with recentActive := true }
      | none => r) := by
    cases hp : r.pr r.id with
    | none => exact h
    | some p => exact (setPr_safe (p' := { p with recentActive := true }) h hp (fun _ hh => hh) (fun _ hh => hh)).1
  exact checkQuorum_tail (checkQuorum_demote h1)

theorem becomeProbe_next (p : Progress) : 1 ≤ p.becomeProbe.next := by
  unfold Progress.becomeProbe
  split
  · show 1 ≤ max (p.mtch + 1) (p.pendingSnapshot + 1); omega
  · show 1 ≤ p.mtch + 1; omega

theorem becomeProbe_ok {id : Nat} {p : Progress} (h : r.NextOk id p) : r.NextOk id p.becomeProbe := by
  refine ⟨becomeProbe_next p, fun he => ?_⟩
  have := (h.2 he).1
  unfold Progress.becomeProbe
  split
  · exact ⟨this, by show _ < max (p.mtch + 1) (p.pendingSnapshot + 1); omega⟩
  · exact ⟨this, by show _ < p.mtch + 1; omega⟩

theorem becomeProbe_infl {sz : Nat} {p : Progress} (h : InflOk sz p) : InflOk sz p.becomeProbe := by
  unfold Progress.becomeProbe
  split <;> exact inflOk_reset .probe h

theorem becomeReplicate_infl {sz : Nat} {p : Progress} (h : InflOk sz p) : InflOk sz p.becomeReplicate := inflOk_reset .replicate h

theorem leaderAppReject_safe {p : Progress} (h : Safe K env r) (hl : r.state = .leader) (hp : r.pr m.src = some p)
    (hm : m.src ≠ r.id) : (r.leaderAppReject env m p).Sat fun r' => Safe K env r' := by
  unfold leaderAppReject
  have hnx := (h.next hl _ _ hp).1
  suffices hjp : ∀ np, (match p.maybeDecrTo m.index np with
        | (pr, decr) =>
          if decr = true then
            (r.setPr m.src (if pr.state = PrState.replicate then pr.becomeProbe else pr)).sendAppend env m.src
          else pure (r.setPr m.src pr) : Res Raft).Sat fun r' => Safe K env r' by
    dsimp only
    split
    · obtain ⟨x, hx, _⟩ := h.log.linv.wf.findConflictByTerm_eq m.logTerm m.rejectHint h.log.zero
      rw [hx]
      exact hjp x
    · exact hjp m.rejectHint
  intro np
  have hinfl : (p.maybeDecrTo m.index np).1.inflights = p.inflights := by
    unfold Progress.maybeDecrTo
    split
    · split <;> rfl
    · split <;> rfl
  have hnext : 1 ≤ (p.maybeDecrTo m.index np).1.next := by
    unfold Progress.maybeDecrTo
    split
    · split
      · exact hnx
      · show 1 ≤ p.mtch + 1; omega
    · split
      · exact hnx
      · show 1 ≤ max _ 1; omega
  have hinfl' : ∀ sz, InflOk sz p → InflOk sz (p.maybeDecrTo m.index np).1 := fun sz ⟨q, hq⟩ => ⟨q, by rw [hinfl]; exact hq⟩
  dsimp only
  generalize (p.maybeDecrTo m.index np).1 = q at hnext hinfl'
  split
  · have hs : Sends K env r (r.setPr m.src (if q.state = .replicate then q.becomeProbe else q)) := by
      refine setPr_safe h hp (fun sz hh => ?_) (fun _ _ => .peer hm ?_)
      · split
        · exact becomeProbe_infl (hinfl' sz hh)
        · exact hinfl' sz hh
      · split
        · exact becomeProbe_next q
        · exact hnext
    exact (sendAppend_safe hs.1 hl (pr_setPr _ _ _) hm).mono fun _ hh => hh.1
  · exact .pure (setPr_safe h hp hinfl' (fun _ _ => .peer hm hnext)).1

theorem accept_tail {p : Progress} (h3 : Safe K env r) (hl3 : r.state = .leader) (hp3 : r.pr m.src = some p) (hm : m.src ≠ r.id) :
    (do
      let r ← sendLoop env m.src (r.log.lastIndex + 2) r
      let pr ← r.getPr m.src "raft.cc:1242"
      if m.src = r.leadTransferee ∧ pr.mtch = r.log.lastIndex then r.sendTimeoutNow m.src
      else pure r : Res Raft).Sat fun r' => Safe K env r' := by
  refine (sendLoop_safe _ h3 hl3 hp3 hm (by rw [h3.log.linv.wf.lastIndex_eq]; omega)).bind fun r4 h4 => ?_
  obtain ⟨p4, hp4⟩ := h4.2.pr hp3
  rw [getPr_eq hp4]
  simp only [Res.ok_bind]
  split
  · exact (sendTimeoutNow_safe h4.1).mono fun _ hh => hh.1
  · exact .pure h4.1

theorem leaderAppAccept_safe {p : Progress} (h : Safe K env r) (hl : r.state = .leader) (hp : r.pr m.src = some p)
    (hm : m.src ≠ r.id) : (r.leaderAppAccept env m p).Sat fun r' => Safe K env r' := by
  unfold leaderAppAccept
  have hinf : ∀ sz, InflOk sz p → InflOk sz (p.maybeUpdate m.index).1 := fun _ => inflOk_maybeUpdate
  have hnx : 1 ≤ (p.maybeUpdate m.index).1.next := maybeUpdate_next
  dsimp only
  generalize (p.maybeUpdate m.index).1 = q at hinf hnx
  split
  · exact .pure (setPr_safe h hp hinf (fun _ _ => .peer hm hnx)).1
  have hrest : ∀ q2 : Progress, ((∀ sz, InflOk sz p → InflOk sz q2) ∧ 1 ≤ q2.next) → (do
      let r := r.setPr m.src q2
      let (r, c) ← r.maybeCommit
      let r ←
        if c then do
          let r ← r.releasePendingReadIndexMessages
          r.bcastAppend env
        else if p.isPaused then r.sendAppend env m.src
        else pure r
      let r ← sendLoop env m.src (r.log.lastIndex + 2) r
      let pr ← r.getPr m.src "raft.cc:1242"
      if m.src = r.leadTransferee ∧ pr.mtch = r.log.lastIndex then r.sendTimeoutNow m.src
      else pure r : Res Raft).Sat fun r' => Safe K env r' := by
    rintro q2 ⟨hi2, hn2⟩
    have h1 : Sends K env r (r.setPr m.src q2) := setPr_safe h hp hi2 (fun _ _ => .peer hm hn2)
    refine (maybeCommit_safe h1.1 (h.tpos (Or.inl hl))).bind fun x hx => ?_
    have h2 := h1.works.trans hx
    have hl2 := h2.state.trans hl
    have hfin : ∀ r3, Works K env r r3 → (do
        let r ← sendLoop env m.src (r3.log.lastIndex + 2) r3
        let pr ← r.getPr m.src "raft.cc:1242"
        if m.src = r.leadTransferee ∧ pr.mtch = r.log.lastIndex then r.sendTimeoutNow m.src
        else pure r : Res Raft).Sat fun r' => Safe K env r' := by
      intro r3 h3
      obtain ⟨p3, hp3⟩ := h3.pr hp
      exact accept_tail h3.safe (h3.state.trans hl) hp3 (by rw [h3.id]; exact hm)
    dsimp only
    split
    · refine (releasePending_safe h2.safe hl2).bind fun r3 h3 => ?_
      exact (bcastAppend_safe h3.1 (h3.2.state.trans hl2)).bind fun _ hh => hfin _ (h2.trans (h3.works.trans hh.works))
    split
    · obtain ⟨p', hp'⟩ := h2.pr hp
      exact (sendAppend_safe h2.safe hl2 hp' (by rw [h2.id]; exact hm)).bind fun _ hh => hfin _ (h2.trans hh.works)
    · exact hfin _ h2
  cases hst : q.state with
  | probe => exact hrest _ ⟨fun sz hh => becomeReplicate_infl (hinf sz hh), by show 1 ≤ q.mtch + 1; omega⟩
  | snapshot =>
    dsimp only
    split
    · exact hrest _ ⟨fun sz hh => becomeReplicate_infl (becomeProbe_infl (hinf sz hh)), by show 1 ≤ _ + 1; omega⟩
    · exact hrest _ ⟨hinf, hnx⟩
  | replicate =>
    dsimp only
    obtain ⟨sz, h1, h2, h3, h4⟩ := h.infl
    obtain ⟨l, hq⟩ := hinf sz (h4 _ _ hp)
    obtain ⟨f', hf1, hf2⟩ := Inflights.rep_freeLE m.index hq
    rw [hf1]
    refine hrest { q with state := .replicate, inflights := f' } ⟨fun sz' hh => ?_, hnx⟩
    obtain ⟨l', hq'⟩ := hinf sz' hh
    have : sz' = sz := by have h1 := hq'.size_eq; have h2 := hq.size_eq; omega
    subst this
    exact ⟨_, hf2⟩

theorem respond_pending {ro : ReadOnly} (h : ro.Inv) (c : Bytes) :
    (ro.advance c).Sat fun x => x.1.Inv ∧ ∀ s ∈ x.2, s.req.entries ≠ [] := by
  obtain ⟨h1, h2⟩ := h.advance c
  by_cases hc : c ∈ ro.queue
  · obtain ⟨a, b, hab⟩ := List.append_of_mem hc
    obtain ⟨pre, pend, hpp, _, _, _, h3, h4⟩ := h2 a b hab
    refine .of_eq h3 ⟨h4, fun s hs => ?_⟩
    obtain ⟨⟨k, s'⟩, hx, rfl⟩ := List.mem_map.1 hs
    obtain ⟨e, es, he, _⟩ := h.own k s' (by rw [hpp]; exact List.mem_append_left _ hx)
    show s'.req.entries ≠ []
    rw [he]; simp
  · exact .of_eq (h1 hc) ⟨h, fun _ hs => nomatch hs⟩

theorem leaderHeartbeatResp_safe {p : Progress} (h : Safe K env r) (hl : r.state = .leader) (hp : r.pr m.src = some p)
    (hm : m.src ≠ r.id) : (r.leaderHeartbeatResp env m p).Sat fun r' => Safe K env r' := by
  unfold leaderHeartbeatResp
  have hnx := (h.next hl _ _ hp).1
  have htail : ∀ r3 : Raft, Safe K env r3 → (do
      if r3.readOnly.option ≠ .safe ∨ m.context = [] then pure r3
      else
        let (ro, acks) := r3.readOnly.recvAck m.src m.context
        let r := { r3 with readOnly := ro }
        if r.trk.config.voters.voteResult acks ≠ .won then pure r
        else
          let (ro, rss) ← r.readOnly.advance m.context
          respondAll rss { r with readOnly := ro } : Res Raft).Sat fun r' => Safe K env r' := by
    intro r3 h3
    split
    · exact .pure h3
    have hro := (h3.ro.ack m.src m.context).1
    dsimp only
    generalize (r3.readOnly.recvAck m.src m.context).1 = ro at hro
    have hset : ∀ ro' : ReadOnly, ro'.Inv → Safe K env { r3 with readOnly := ro' } := fun ro' hh =>
      ⟨h3.log, h3.id, h3.self, h3.tpos, h3.infl, h3.next, hh, h3.pend, h3.lead, h3.out⟩
    split
    · exact .pure (hset ro hro)
    · refine (respond_pending hro m.context).bind fun x hx => ?_
      exact (respondAll_safe x.2 (hset x.1 hx.1) hx.2).mono fun _ hh => hh.1
  have hrest : ∀ q : Progress, ((∀ sz, InflOk sz p → InflOk sz q) ∧ 1 ≤ q.next) → (do
      let r := r.setPr m.src q
      let r ← if q.mtch < r.log.lastIndex then r.sendAppend env m.src else pure r
      if r.readOnly.option ≠ .safe ∨ m.context = [] then pure r
      else
        let (ro, acks) := r.readOnly.recvAck m.src m.context
        let r := { r with readOnly := ro }
        if r.trk.config.voters.voteResult acks ≠ .won then pure r
        else
          let (ro, rss) ← r.readOnly.advance m.context
          respondAll rss { r with readOnly := ro } : Res Raft).Sat fun r' => Safe K env r' := by
    rintro q ⟨hi2, hn2⟩
    have h1 : Sends K env r (r.setPr m.src q) := setPr_safe h hp hi2 (fun _ _ => .peer hm hn2)
    dsimp only
    split
    · exact (sendAppend_safe h1.1 hl (pr_setPr _ _ _) hm).bind fun _ hh => htail _ hh.1
    · exact htail _ h1.1
  dsimp only
  split
  · rename_i c
    obtain ⟨sz, h1, h2, h3, h4⟩ := h.infl
    obtain ⟨l, hq⟩ := h4 _ _ hp
    have hfull := (Inflights.rep_full hq).1 c.2
    cases l with
    | nil => simp at hfull; omega
    | cons y ys =>
      obtain ⟨f', hf1, hf2⟩ := Inflights.rep_freeFirst hq
      rw [hf1]
      refine hrest { p with recentActive := true, probeSent := false, inflights := f' } ⟨fun sz' hh => ?_, hnx⟩
      obtain ⟨l', hq'⟩ := hh
      have : sz' = sz := by have h1 := hq'.size_eq; have h2 := hq.size_eq; omega
      subst this
      exact ⟨_, hf2⟩
  · exact hrest { p with recentActive := true, probeSent := false } ⟨fun _ hh => hh, hnx⟩

theorem leaderSnapStatus_safe {p : Progress} (h : Safe K env r) (hp : r.pr m.src = some p) : Safe K env (r.leaderSnapStatus m p) := by
  unfold leaderSnapStatus
  split
  · exact h
  · dsimp only
    refine (setPr_safe h hp (fun sz hh => ?_) (fun _ hh => ?_)).1
    · split
      · exact becomeProbe_infl (p := p) hh
      · exact becomeProbe_infl (p := { p with pendingSnapshot := 0 }) hh
    · split
      · exact becomeProbe_ok (p := p) hh
      · exact becomeProbe_ok (p := { p with pendingSnapshot := 0 }) hh

theorem leaderTransfer_safe {p : Progress} (h : Safe K env r) (hl : r.state = .leader) (hp : r.pr m.src = some p) :
    (r.leaderTransfer env m p).Sat fun r' => Safe K env r' := by
  unfold leaderTransfer
  split
  · exact .ok h
  split
  · exact .ok h
  have h1 : Safe K env (if r.leadTransferee ≠ 0 then { r with leadTransferee := 0 } else r) ∧
      (if r.leadTransferee ≠ 0 then { r with leadTransferee := 0 } else r).state = .leader ∧
      (if r.leadTransferee ≠ 0 then { r with leadTransferee := 0 } else r).pr m.src = some p := by
    split
    · exact ⟨⟨h.log, h.id, h.self, h.tpos, h.infl, h.next, h.ro, h.pend, h.lead, h.out⟩, hl, hp⟩
    · exact ⟨h, hl, hp⟩
  dsimp only
  generalize (if r.leadTransferee ≠ 0 then { r with leadTransferee := 0 } else r) = a at h1
  obtain ⟨h1, hl1, hp1⟩ := h1
  split
  · exact .ok h1
  rename_i c
  have h2 : Safe K env { a with electionElapsed := 0, leadTransferee := m.src } :=
    ⟨h1.log, h1.id, h1.self, h1.tpos, h1.infl, h1.next, h1.ro, h1.pend, h1.lead, h1.out⟩
  split
  · exact (sendTimeoutNow_safe h2).mono fun _ hh => hh.1
  · exact (sendAppend_safe (p := p) h2 hl1 hp1 c).mono fun _ hh => hh.1

theorem stepLeader_safe (h : Safe K env r) (hl : r.state = .leader) (hm : MsgSafe K env r m) :
    (r.stepLeader env m).Sat fun x => Safe K env x.1 := by
  unfold MsgSafe at hm
  unfold stepLeader
  cases ht : m.type <;> rw [ht] at hm <;> dsimp only at hm ⊢
  case beat =>
    unfold bcastHeartbeat
    exact (bcastHeartbeatWithCtx_safe h hl).bind fun _ hh => .pure hh.1
  case checkQuorum => exact .ok (leaderCheckQuorum_safe h)
  case prop => exact leaderProp_safe h hl hm.2.1 hm.2.2
  case readIndex => exact (leaderReadIndex_safe h hl hm.2).bind fun _ hh => .pure hh.1
  all_goals
    cases hp : r.pr m.src with
    | none => exact .ok h
    | some p => ?_
  all_goals try exact .ok h
  case appResp =>
    dsimp only
    have h1 : Sends K env r (r.setPr m.src { p with recentActive := true }) := setPr_safe h hp (fun _ hh => hh) (fun _ hh => hh)
    split
    · exact (leaderAppReject_safe h1.1 hl (pr_setPr _ _ _) hm).bind fun _ hh => .pure hh
    · exact (leaderAppAccept_safe h1.1 hl (pr_setPr _ _ _) hm).bind fun _ hh => .pure hh
  case heartbeatResp => exact (leaderHeartbeatResp_safe h hl hp hm).bind fun _ hh => .pure hh
  case snapStatus => exact .ok (leaderSnapStatus_safe h hp)
  case unreachable =>
    refine .ok ?_
    dsimp only
    split
    · exact (setPr_safe h hp (fun _ => becomeProbe_infl) (fun _ hh => becomeProbe_ok hh)).1
    · exact h
  case transferLeader => exact (leaderTransfer_safe h hl hp).bind fun _ hh => .pure hh

end Raft
end Craft
