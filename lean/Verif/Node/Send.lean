import Verif.Node.Core
import Verif.Proofs.Log

/-! # Functions that only send and update flow control -/

namespace Craft
open Spec

/-- Only messages, flow-control state and reads change. -/
def QSim (env : Env) (im : Message) (a b : Raft) : Prop :=
  Sim env im a b ∧ b.core = { a.core with progress := b.trk.progress, reads := b.reads }

namespace QSim
variable {env : Env} {im : Message} {a b c : Raft}

theorem refl : QSim env im a a := ⟨.refl, rfl⟩

theorem trans (h1 : QSim env im a b) (h2 : QSim env im b c) : QSim env im a c :=
  ⟨h1.1.trans h2.1, by rw [h2.2, h1.2]⟩

theorem sim (h : QSim env im a b) : Sim env im a b := h.1
theorem state (h : QSim env im a b) : b.state = a.state := congrArg Core.state h.2
theorem log (h : QSim env im a b) : b.log = a.log := congrArg Core.log h.2
theorem term (h : QSim env im a b) : b.term = a.term := congrArg Core.term h.2
theorem vote (h : QSim env im a b) : b.vote = a.vote := congrArg Core.vote h.2
theorem id (h : QSim env im a b) : b.id = a.id := congrArg Core.id h.2
theorem config (h : QSim env im a b) : b.trk.config = a.trk.config := congrArg Core.config h.2
theorem votes (h : QSim env im a b) : b.trk.votes = a.trk.votes := congrArg Core.votes h.2
theorem pci (h : QSim env im a b) : b.pendingConfIndex = a.pendingConfIndex := congrArg Core.pci h.2

theorem of_core (hk : b.consts = a.consts) (hm : b.msgs = a.msgs) (hc : b.core = a.core)
    (ht : b.randomizedElectionTimeout = a.randomizedElectionTimeout := by rfl) : QSim env im a b := by
  refine ⟨.of_core hk hm hc ht, ?_⟩
  rw [hc]
  show a.core = { a.core with progress := b.core.progress, reads := b.core.reads }
  rw [hc]

end QSim

theorem PrQuiet.refl (l : RaftLog) (p : Progress) : PrQuiet l p p := ⟨rfl, rfl, fun _ _ h => h⟩

theorem PrsRel.insert {R : Nat → Progress → Progress → Prop} {P : ProgressMap} {id : Nat} {p p' : Progress}
    (hf : P.find id = some p) (hr : R id p p') (href : ∀ i q, R i q q) : PrsRel R P (P.insert id p') := by
  refine ⟨fun i => ?_, AMap.keys_insert_sorted _ _⟩
  rw [AMap.find_insert]
  by_cases h : id = i
  · subst h
    exact Or.inr ⟨p, p', hf, by simp, hr⟩
  · simp only [if_neg h]
    cases hi : P.find i with
    | none => exact Or.inl ⟨rfl, rfl⟩
    | some q => exact Or.inr ⟨q, q, rfl, rfl, href i q⟩

theorem PrsRel.find_some {R : Nat → Progress → Progress → Prop} {P P' : ProgressMap} (h : PrsRel R P P') {id : Nat} {p : Progress}
    (hf : P.find id = some p) : ∃ p', P'.find id = some p' ∧ R id p p' := by
  rcases h.1 id with ⟨h1, _⟩ | ⟨q, q', h1, h2, h3⟩
  · rw [hf] at h1; cases h1
  · rw [hf] at h1; cases h1; exact ⟨q', h2, h3⟩

theorem PrsRel.find_some' {R : Nat → Progress → Progress → Prop} {P P' : ProgressMap} (h : PrsRel R P P') {id : Nat} {p' : Progress}
    (hf : P'.find id = some p') : ∃ p, P.find id = some p ∧ R id p p' := by
  rcases h.1 id with ⟨_, h1⟩ | ⟨q, q', h1, h2, h3⟩
  · rw [hf] at h1; cases h1
  · rw [hf] at h2; cases h2; exact ⟨q, h1, h3⟩

namespace Raft

/-- The message as `Send` puts it in the outbox. -/
def outMsg (r : Raft) (m : Message) : Message :=
  let m := if m.src = 0 then { m with src := r.id } else m
  match m.type with
  | .vote | .voteResp | .preVote | .preVoteResp | .prop | .readIndex => m
  | _ => { m with term := r.term }

theorem send_ok {r r' : Raft} {m : Message} (h : r.send m = .ok r') : r' = { r with msgs := r.msgs ++ [r.outMsg m] } := by
  unfold send at h
  unfold outMsg
  by_cases h0 : m.src = 0
  · simp only [h0, if_true] at h ⊢
    cases ht : m.type <;> simp only [ht] at h ⊢ <;> (split at h <;> cases h <;> rfl)
  · simp only [if_neg h0] at h ⊢
    cases ht : m.type <;> simp only [ht] at h ⊢ <;> (split at h <;> cases h <;> rfl)

theorem send_term {r r' : Raft} {m : Message} (h : r.send m = .ok r') :
    (m.type = .vote ∨ m.type = .voteResp ∨ m.type = .preVote ∨ m.type = .preVoteResp → m.term ≠ 0) ∧
    (¬ (m.type = .vote ∨ m.type = .voteResp ∨ m.type = .preVote ∨ m.type = .preVoteResp) → m.term = 0) := by
  unfold send at h
  by_cases h0 : m.src = 0
  · simp only [h0, if_true] at h
    cases ht : m.type <;> simp only [ht] at h <;> (split at h <;> cases h <;> simp_all)
  · simp only [if_neg h0] at h
    cases ht : m.type <;> simp only [ht] at h <;> (split at h <;> cases h <;> simp_all)

/-- Sending an emittable message. -/
theorem send_qsim {env : Env} {im : Message} {r r' : Raft} {m : Message} (h : r.send m = .ok r')
    (he : Emit env im r.core (r.outMsg m)) : QSim env im r r' := by
  rw [send_ok h]
  exact ⟨.step rfl rfl (.emit he), rfl⟩

theorem setPr_qsim {env : Env} {im : Message} {r : Raft} {id : Nat} {p p' : Progress} (hf : r.pr id = some p)
    (hq : PrQuiet r.log p p') : QSim env im r (r.setPr id p') := by
  refine ⟨.step0 rfl rfl ?_, rfl⟩
  exact CStep.prs (c := r.core) _ (PrsRel.insert hf hq (fun _ _ => PrQuiet.refl _ _))

theorem getPr_ok {r : Raft} {id : Nat} {s : String} {p : Progress} (h : r.getPr id s = .ok p) : r.pr id = some p := by
  unfold getPr at h
  cases hp : r.pr id with
  | none => rw [hp] at h; cases h
  | some q => rw [hp] at h; cases h; rfl

theorem entries_last_le {env : Env} {l : RaftLog} (hw : l.WF) {i mx : Nat} {es : List Entry} {e : Entry}
    (h : l.entries env i mx = .ok (.ok es)) (he : es.getLast? = some e) : i ≤ e.index ∧ e.index ≤ l.view.last := by
  rw [hw.entries_eq] at h
  split at h
  · cases h; cases he
  · split at h
    · cases h
    · rename_i h1 h2
      cases h
      have hm := List.mem_of_getLast? he
      obtain ⟨t, ht⟩ := limitSize_prefix env.entSize (l.view.ents.drop (i - l.view.base - 1)) mx
      have hm2 : e ∈ l.view.ents.drop (i - l.view.base - 1) := by rw [← ht]; exact List.mem_append_left _ hm
      have hc := hw.view_wf.drop (n := i - l.view.base - 1)
      have ⟨m1, m2, _⟩ := hc.mem hm2
      rw [List.length_drop] at m2
      unfold LogView.last at *
      omega

/-- What sending `es` does to the receiver's flow-control state (`/repo/src/raft.cc` 371-384). -/
def SentPr (pr : Progress) (es : List Entry) (p' : Progress) : Prop :=
  (es = [] ∧ p' = pr) ∨
  ∃ e, es.getLast? = some e ∧
    ((pr.state = .replicate ∧ ∃ infl, pr.inflights.add e.index = .ok infl ∧
        p' = { pr with next := e.index + 1, inflights := infl }) ∨
     (pr.state = .probe ∧ p' = { pr with probeSent := true }))

/-- The three ways `MaybeSendAppend` returns. -/
theorem maybeSendAppend_cases {env : Env} {r r' : Raft} {to : Nat} {se b : Bool}
    (h : r.maybeSendAppend env to se = .ok (r', b)) : ∃ pr, r.pr to = some pr ∧
    ((r' = r ∧ b = false) ∨
     (pr.isPaused = false ∧ b = true ∧ ∃ t es p', r.log.term (sub64 pr.next 1) = .ok (.ok t) ∧
        r.log.entries env pr.next r.maxMsgSize = .ok (.ok es) ∧ (es = [] → se = true) ∧ SentPr pr es p' ∧
        (r.setPr to p').send { type := .app, to := to, index := sub64 pr.next 1, logTerm := t, entries := es,
                               commit := r.log.committed } = .ok r') ∨
     (pr.isPaused = false ∧ b = true ∧ isEmptySnap r.log.snapshot = false ∧ pr.recentActive = true ∧
        ((∃ e, r.log.term (sub64 pr.next 1) = .ok (.error e)) ∨ (se = true ∧ ∃ e, r.log.entries env pr.next r.maxMsgSize = .ok (.error e))) ∧
        (r.setPr to (pr.becomeSnapshot r.log.snapshot.metadata.index)).send
          { type := .snap, to := to, snapshot := some r.log.snapshot } = .ok r')) := by
  unfold maybeSendAppend at h
  obtain ⟨pr, hpr, h⟩ := Res.bind_eq_ok.1 h
  refine ⟨pr, getPr_ok hpr, ?_⟩
  dsimp only at h
  by_cases hpa : pr.isPaused = true
  · rw [if_pos hpa] at h
    simp only [Res.pure_eq, Res.ok.injEq, Prod.mk.injEq] at h
    exact Or.inl ⟨h.1.symm, h.2.symm⟩
  rw [if_neg hpa] at h
  have hpa' : pr.isPaused = false := by simpa using hpa
  obtain ⟨st, hst, h⟩ := Res.bind_eq_ok.1 h
  obtain ⟨ents, hents, h⟩ := Res.bind_eq_ok.1 h
  have hsnap : ∀ es0 : List Entry, (es0 = [] ∧ ¬ se = true ∨ ((∃ e, r.log.term (sub64 pr.next 1) = .ok (.error e)) ∨ (se = true ∧ ∃ e, r.log.entries env pr.next r.maxMsgSize = .ok (.error e)))) → (if es0 = [] ∧ ¬ se = true then (pure (r, false) : Res (Raft × Bool)) else
        if ¬ pr.recentActive = true then pure (r, false)
        else if isEmptySnap r.log.snapshot = true then .fatal "raft.cc:354"
        else do
          let r ← (r.setPr to (pr.becomeSnapshot r.log.snapshot.metadata.index)).send
            { type := .snap, to := to, snapshot := some r.log.snapshot }
          pure (r, true)) = .ok (r', b) → (r' = r ∧ b = false) ∨
          (pr.isPaused = false ∧ b = true ∧ isEmptySnap r.log.snapshot = false ∧ pr.recentActive = true ∧
            ((∃ e, r.log.term (sub64 pr.next 1) = .ok (.error e)) ∨ (se = true ∧ ∃ e, r.log.entries env pr.next r.maxMsgSize = .ok (.error e))) ∧
            (r.setPr to (pr.becomeSnapshot r.log.snapshot.metadata.index)).send
              { type := .snap, to := to, snapshot := some r.log.snapshot } = .ok r') := by
    intro es0 hwhy h
    by_cases h1 : es0 = [] ∧ ¬ se = true
    · rw [if_pos h1] at h
      simp only [Res.pure_eq, Res.ok.injEq, Prod.mk.injEq] at h
      exact Or.inl ⟨h.1.symm, h.2.symm⟩
    rw [if_neg h1] at h
    by_cases h2 : ¬ pr.recentActive = true
    · rw [if_pos h2] at h
      simp only [Res.pure_eq, Res.ok.injEq, Prod.mk.injEq] at h
      exact Or.inl ⟨h.1.symm, h.2.symm⟩
    rw [if_neg h2] at h
    by_cases hes : isEmptySnap r.log.snapshot = true
    · rw [if_pos hes] at h; cases h
    rw [if_neg hes] at h
    obtain ⟨r2, h3, h⟩ := Res.bind_eq_ok.1 h
    simp only [Res.pure_eq, Res.ok.injEq, Prod.mk.injEq] at h
    exact Or.inr ⟨hpa', h.2.symm, by simpa using hes, by simpa using h2, hwhy.resolve_left h1, by rw [h3, h.1]⟩
  cases st with
  | error e =>
    cases ents with
    | error e' =>
      dsimp only at h
      rcases hsnap _ (Or.inr (Or.inl ⟨e, hst⟩)) h with h | h
      · exact Or.inl h
      · exact Or.inr (Or.inr h)
    | ok es =>
      dsimp only at h
      rcases hsnap _ (Or.inr (Or.inl ⟨e, hst⟩)) h with h | h
      · exact Or.inl h
      · exact Or.inr (Or.inr h)
  | ok t =>
    cases ents with
    | error e' =>
      dsimp only at h
      rcases hsnap _ (by
        cases se with
        | true => exact Or.inr (Or.inr ⟨rfl, e', hents⟩)
        | false => exact Or.inl ⟨rfl, by simp⟩) h with h | h
      · exact Or.inl h
      · exact Or.inr (Or.inr h)
    | ok es =>
      dsimp only at h
      by_cases h1 : es = [] ∧ ¬ se = true
      · rw [if_pos h1] at h
        simp only [Res.pure_eq, Res.ok.injEq, Prod.mk.injEq] at h
        exact Or.inl ⟨h.1.symm, h.2.symm⟩
      rw [if_neg h1] at h
      have hse : es = [] → se = true := by
        intro he
        cases hs : se with
        | true => rfl
        | false => exact absurd ⟨he, by simp [hs]⟩ h1
      obtain ⟨p', hp', h⟩ : ∃ p', SentPr pr es p' ∧ ((r.setPr to p').send
          { type := .app, to := to, index := sub64 pr.next 1, logTerm := t, entries := es, commit := r.log.committed }
            >>= fun r => pure (r, true)) = .ok (r', b) := by
        cases hlast : es.getLast? with
        | none =>
          simp only [hlast, Res.pure_eq, Res.ok_bind] at h
          exact ⟨pr, Or.inl ⟨List.getLast?_eq_none_iff.1 hlast, rfl⟩, h⟩
        | some e =>
          simp only [hlast] at h
          cases hs : pr.state with
          | snapshot => simp only [hs, Res.fatal_bind] at h; cases h
          | probe =>
            simp only [hs, Res.pure_eq, Res.ok_bind] at h
            exact ⟨_, Or.inr ⟨e, hlast, Or.inr ⟨hs, rfl⟩⟩, by rw [hs]; exact h⟩
          | replicate =>
            simp only [hs] at h
            obtain ⟨infl, hi, h⟩ := Res.bind_eq_ok.1 h
            simp only [Res.pure_eq, Res.ok_bind] at h
            refine ⟨_, Or.inr ⟨e, hlast, Or.inl ⟨hs, infl, hi, rfl⟩⟩, h⟩
      obtain ⟨r2, h2, h⟩ := Res.bind_eq_ok.1 h
      simp only [Res.pure_eq, Res.ok.injEq, Prod.mk.injEq] at h
      exact Or.inr (Or.inl ⟨hpa', h.2.symm, t, es, p', hst, hents, hse, hp', by rw [h2, h.1]⟩)

theorem maybeSendAppend_qsim {env : Env} {im : Message} {r r' : Raft} {to : Nat} {se b : Bool} (hl : r.state = .leader)
    (h : r.maybeSendAppend env to se = .ok (r', b)) : QSim env im r r' := by
  obtain ⟨pr, hp, ⟨rfl, _⟩ | ⟨hpa', _, t, es, p', hst, hents, _, hp', h2⟩ | ⟨hpa', _, hes, _, _, h2⟩⟩ := maybeSendAppend_cases h
  · exact .refl
  · rw [send_ok h2]
    refine ⟨⟨.of rfl rfl, [_], rfl, ?_⟩, rfl⟩
    have e1 : CStep env im r.core [(r.setPr to p').outMsg
        { type := .app, to := to, index := sub64 pr.next 1, logTerm := t, entries := es, commit := r.log.committed }] r.core := by
      apply CStep.emit
      simp only [Emit, outMsg, if_true, true_and]
      exact ⟨rfl, rfl, hl, rfl, pr, r.maxMsgSize, hp, hpa', rfl, hst, hents, rfl⟩
    have hq : PrQuiet r.log pr p' := by
      rcases hp' with ⟨_, rfl⟩ | ⟨e, hlast, ⟨_, infl, _, rfl⟩ | ⟨_, rfl⟩⟩
      · exact .refl _ _
      · refine ⟨rfl, rfl, fun hw _ k => ⟨?_, ?_, k.mtch_le, k.pend_le⟩⟩
        · show 1 ≤ e.index + 1; omega
        · show e.index + 1 ≤ r.log.lastIndex + 1
          have := entries_last_le hw hents hlast
          rw [hw.lastIndex_eq]; omega
      · exact ⟨rfl, rfl, fun _ _ k => ⟨k.next_pos, k.next_le, k.mtch_le, k.pend_le⟩⟩
    have e2 : CStep env im r.core [] (r.setPr to p').core :=
      CStep.prs (c := r.core) _ (PrsRel.insert hp hq (fun _ _ => PrQuiet.refl _ _))
    exact (CPath.single e1).trans (.single e2)
  · rw [send_ok h2]
    refine ⟨⟨.of rfl rfl, [_], rfl, ?_⟩, rfl⟩
    have e1 : CStep env im r.core [(r.setPr to (pr.becomeSnapshot r.log.snapshot.metadata.index)).outMsg
        { type := .snap, to := to, snapshot := some r.log.snapshot }] r.core := by
      apply CStep.emit
      simp only [Emit, outMsg, if_true]
      refine ⟨rfl, rfl, hl, rfl, ?_, pr, hp, hpa'⟩
      have : r.log.snapshot.metadata.index ≠ 0 := by simpa [isEmptySnap] using hes
      exact this
    have e2 : CStep env im r.core [] (r.setPr to (pr.becomeSnapshot r.log.snapshot.metadata.index)).core := by
      refine CStep.prs (c := r.core) _ (PrsRel.insert hp ?_ (fun _ _ => PrQuiet.refl _ _))
      exact ⟨rfl, rfl, fun _ hsn k => ⟨k.next_pos, k.next_le, k.mtch_le, hsn⟩⟩
    exact (CPath.single e1).trans (.single e2)

theorem sendAppend_qsim {env : Env} {im : Message} {r r' : Raft} {to : Nat} (hl : r.state = .leader)
    (h : r.sendAppend env to = .ok r') : QSim env im r r' := by
  unfold sendAppend at h
  obtain ⟨⟨r2, b⟩, h2, h⟩ := Res.bind_eq_ok.1 h
  simp only [Res.pure_eq, Res.ok.injEq] at h
  subst h
  exact maybeSendAppend_qsim hl h2

theorem sendLoop_qsim {env : Env} {im : Message} {to : Nat} (fuel : Nat) {r r' : Raft} (hl : r.state = .leader)
    (h : sendLoop env to fuel r = .ok r') : QSim env im r r' := by
  induction fuel generalizing r with
  | zero => cases h
  | succ n ih =>
    unfold sendLoop at h
    obtain ⟨⟨r2, b⟩, h2, h⟩ := Res.bind_eq_ok.1 h
    have q := maybeSendAppend_qsim (im := im) hl h2
    dsimp only at h
    split at h
    · exact q.trans (ih (by rw [q.state]; exact hl) h)
    · cases h; exact q

/-- The context of a heartbeat: none, or that of a pending read. -/
def CtxOk (r : Raft) (ctx : Bytes) : Prop :=
  ctx = [] ∨ ctx ∈ r.readOnly.queue ∨ (ReadOnly.findPending r.readOnly.pending ctx).isSome

/-- A heartbeat of the leader `r`. -/
structure Beat (r : Raft) (ctx : Bytes) (m : Message) : Prop where
  type : m.type = .heartbeat
  src : m.src = r.id
  term : m.term = r.term
  commit : ∃ p, r.pr m.to = some p ∧ m.commit = min p.mtch r.log.committed
  context : m.context = ctx

theorem Beat.emit {env : Env} {im : Message} {r : Raft} {ctx : Bytes} {m : Message} (h : Beat r ctx m) (hl : r.state = .leader)
    (hc : CtxOk r ctx) {ws : List Message} : Emit env im { r.core with reads := { r.reads with waiting := ws } } m := by
  unfold Emit
  rw [h.type]
  exact ⟨h.src, h.term, hl, h.commit, by rw [h.context]; exact hc⟩

theorem sendHeartbeat_eq {r r' : Raft} {to : Nat} {ctx : Bytes} (h : r.sendHeartbeat to ctx = .ok r') :
    ∃ m, r' = { r with msgs := r.msgs ++ [m] } ∧ Beat r ctx m := by
  unfold sendHeartbeat at h
  obtain ⟨p, hp, h⟩ := Res.bind_eq_ok.1 h
  refine ⟨_, send_ok h, ?_⟩
  simp only [outMsg, if_true]
  exact ⟨rfl, rfl, rfl, ⟨p, getPr_ok hp, rfl⟩, rfl⟩

theorem beats_eq {ctx : Bytes} (ids : List Nat) {r r' : Raft} (h : visitOthers (fun r id => r.sendHeartbeat id ctx) ids r = .ok r') :
    ∃ ms, r' = { r with msgs := r.msgs ++ ms } ∧ ∀ m ∈ ms, Beat r ctx m := by
  induction ids generalizing r with
  | nil => cases h; exact ⟨[], by simp, by simp⟩
  | cons id ids ih =>
    unfold visitOthers at h
    split at h
    · exact ih h
    · obtain ⟨r2, h2, h⟩ := Res.bind_eq_ok.1 h
      obtain ⟨m, rfl, hm⟩ := sendHeartbeat_eq h2
      obtain ⟨ms, rfl, hms⟩ := ih h
      refine ⟨m :: ms, by simp, fun x hx => ?_⟩
      rcases List.mem_cons.1 hx with rfl | hx
      · exact hm
      · obtain ⟨a1, a2, a3, a4, a5⟩ := hms x hx
        exact ⟨a1, a2, a3, a4, a5⟩

theorem bcastHeartbeatWithCtx_eq {r r' : Raft} {ctx : Bytes} (h : r.bcastHeartbeatWithCtx ctx = .ok r') :
    ∃ ms, r' = { r with msgs := r.msgs ++ ms } ∧ ∀ m ∈ ms, Beat r ctx m := beats_eq _ h

theorem lastPending_ctxOk (r : Raft) : CtxOk r r.readOnly.lastPendingRequestCtx := by
  unfold CtxOk ReadOnly.lastPendingRequestCtx
  rw [List.getLastD_eq_getLast?]
  cases h : r.readOnly.queue.getLast? with
  | none => exact Or.inl rfl
  | some x => exact Or.inr (Or.inl (List.mem_of_getLast? h))

theorem visitOthers_qsim {env : Env} {im : Message} {f : Raft → Nat → Res Raft}
    (hf : ∀ r id r', r.state = .leader → f r id = .ok r' → QSim env im r r') (ids : List Nat) {r r' : Raft} (hl : r.state = .leader)
    (h : visitOthers f ids r = .ok r') : QSim env im r r' := by
  induction ids generalizing r with
  | nil => cases h; exact .refl
  | cons id ids ih =>
    unfold visitOthers at h
    split at h
    · exact ih hl h
    · obtain ⟨r2, h2, h⟩ := Res.bind_eq_ok.1 h
      have q := hf r id r2 hl h2
      exact q.trans (ih (by rw [q.state]; exact hl) h)

theorem bcastAppend_qsim {env : Env} {im : Message} {r r' : Raft} (hl : r.state = .leader) (h : r.bcastAppend env = .ok r') :
    QSim env im r r' :=
  visitOthers_qsim (fun _ _ _ hl h => sendAppend_qsim hl h) _ hl h

theorem bcastHeartbeatWithCtx_qsim {env : Env} {im : Message} {r r' : Raft} {ctx : Bytes} (hl : r.state = .leader) (hc : CtxOk r ctx)
    (h : r.bcastHeartbeatWithCtx ctx = .ok r') : QSim env im r r' := by
  obtain ⟨ms, rfl, hms⟩ := bcastHeartbeatWithCtx_eq h
  exact ⟨⟨.of rfl rfl, ms, rfl, .emits fun m hm => (hms m hm).emit hl hc⟩, rfl⟩

theorem visitSend_qsim {env : Env} {im : Message} (ids : List Nat) {r r' : Raft} (hl : r.state = .leader)
    (h : visitSend env ids r = .ok r') : QSim env im r r' := by
  induction ids generalizing r with
  | nil => cases h; exact .refl
  | cons id ids ih =>
    unfold visitSend at h
    obtain ⟨⟨r2, b⟩, h2, h⟩ := Res.bind_eq_ok.1 h
    have q := maybeSendAppend_qsim (im := im) hl h2
    exact q.trans (ih (by rw [q.state]; exact hl) h)

theorem sendTimeoutNow_qsim {env : Env} {im : Message} {r r' : Raft} {to : Nat} (hl : r.state = .leader)
    (h : r.sendTimeoutNow to = .ok r') : QSim env im r r' := by
  refine send_qsim h ?_
  simp only [Emit, outMsg, if_true]
  exact ⟨rfl, rfl, hl⟩

/-- The core, with other read requests waiting. -/
def coreW (r : Raft) (ws : List Message) : Core := { r.core with reads := { r.reads with waiting := ws } }

/-- `a` sends, and changes at most its pending reads; `ws` are waiting before, `ws'` after. -/
def WSim (env : Env) (im : Message) (a : Raft) (ws : List Message) (b : Raft) (ws' : List Message) : Prop :=
  Keep a b ∧ b.core = { a.core with reads := b.reads } ∧ b.pendingReadIndexMessages = a.pendingReadIndexMessages ∧
  ∃ ms, b.msgs = a.msgs ++ ms ∧ CPath env im (a.coreW ws) ms (b.coreW ws')

theorem WSim.trans {env : Env} {im : Message} {a b c : Raft} {u v w : List Message} (h1 : WSim env im a u b v) (h2 : WSim env im b v c w) :
    WSim env im a u c w := by
  obtain ⟨a1, a2, a3, ms1, a4, a5⟩ := h1
  obtain ⟨b1, b2, b3, ms2, b4, b5⟩ := h2
  exact ⟨a1.trans b1, by rw [b2, a2], b3.trans a3, ms1 ++ ms2, by rw [b4, a4, List.append_assoc], a5.trans b5⟩

theorem WSim.state {env : Env} {im : Message} {a b : Raft} {u v : List Message} (h : WSim env im a u b v) : b.state = a.state :=
  congrArg Core.state h.2.1

theorem WSim.config {env : Env} {im : Message} {a b : Raft} {u v : List Message} (h : WSim env im a u b v) :
    b.trk.config = a.trk.config := congrArg Core.config h.2.1

theorem WSim.option {env : Env} {im : Message} {a b : Raft} {u v : List Message} (h : WSim env im a u b v) :
    b.readOnly.option = a.readOnly.option := congrArg Consts.readOnlyOption h.1.1

theorem WSim.inTerm {env : Env} {im : Message} {a b : Raft} {u v : List Message} (h : WSim env im a u b v) (hi : InTerm a.core) :
    InTerm b.core := by
  obtain ⟨t, t1, t2⟩ := hi
  have h1 : b.log = a.log := congrArg Core.log h.2.1
  have h2 : b.term = a.term := congrArg Core.term h.2.1
  exact ⟨t, by show b.log.term b.log.committed = _; rw [h1]; exact t1, by show _ = Res.ok b.term; rw [h2]; exact t2⟩

/-- The waiting requests of the node itself. -/
theorem WSim.qsim {env : Env} {im : Message} {a b : Raft} {v : List Message} (h : WSim env im a a.pendingReadIndexMessages b v)
    (hv : v = b.pendingReadIndexMessages) : QSim env im a b := by
  obtain ⟨a1, a2, a3, ms1, a4, a5⟩ := h
  subst hv
  refine ⟨⟨a1, ms1, a4, a5⟩, ?_⟩
  have h : b.core.progress = a.core.progress := (congrArg Core.progress a2).trans rfl
  rw [a2]
  show _ = { a.core with progress := b.core.progress, reads := b.reads }
  rw [h]

theorem respondReadIndex_wsim {env : Env} {im : Message} {r r' : Raft} {req : Message} {i : Nat} {ws : List Message} (hl : r.state = .leader)
    (ha : Answer im (r.coreW ws) req i) (h : r.respondReadIndex req i = .ok r') : WSim env im r ws r' ws := by
  unfold respondReadIndex at h
  obtain ⟨⟨r2, resp⟩, h2, h⟩ := Res.bind_eq_ok.1 h
  unfold responseToReadIndexReq at h2
  split at h2
  · obtain ⟨ctx, hc, h2⟩ := Res.bind_eq_ok.1 h2
    simp only [Res.pure_eq, Res.ok.injEq, Prod.mk.injEq] at h2
    obtain ⟨rfl, rfl⟩ := h2
    simp only [ne_eq, not_true_eq_false, if_false, Res.pure_eq, Res.ok.injEq] at h
    subst h
    unfold ReadOnly.reqCtx at hc
    cases he : req.entries with
    | nil => rw [he] at hc; cases hc
    | cons e es =>
      rw [he] at hc
      simp only [Res.ok.injEq] at hc
      subst hc
      exact ⟨.of rfl rfl, rfl, rfl, [], by simp, .single (CStep.readState (c := r.coreW ws) req i e es hl ha he)⟩
  · simp only [Res.ok.injEq, Prod.mk.injEq] at h2
    obtain ⟨rfl, rfl⟩ := h2
    dsimp only at h
    split at h
    · rw [send_ok h]
      refine ⟨.of rfl rfl, rfl, rfl, [_], rfl, .single (CStep.emit (c := r.coreW ws) ?_)⟩
      simp only [Emit, outMsg, if_true]
      exact ⟨rfl, rfl, hl, req, rfl, rfl, ha⟩
    · cases h; exact ⟨.refl, rfl, rfl, [], by simp, .nil⟩

theorem addRequest_option {ro ro' : ReadOnly} {i : Nat} {m : Message} (h : ro.addRequest i m = .ok ro') : ro'.option = ro.option := by
  unfold ReadOnly.addRequest at h
  obtain ⟨s, _, h⟩ := Res.bind_eq_ok.1 h
  split at h <;> cases h <;> rfl

theorem recvAck_option (ro : ReadOnly) (id : Nat) (ctx : Bytes) : (ro.recvAck id ctx).1.option = ro.option := by
  unfold ReadOnly.recvAck
  split <;> rfl

theorem recvAck_queue (ro : ReadOnly) (id : Nat) (ctx : Bytes) : (ro.recvAck id ctx).1.queue = ro.queue := by
  unfold ReadOnly.recvAck
  split <;> rfl

theorem setPending_find {P : List (Bytes × ReadIndexStatus)} {c c' : Bytes} {v : ReadIndexStatus} :
    ReadOnly.findPending (ReadOnly.setPending P c v) c' =
      if c = c' then (ReadOnly.findPending P c).map (fun _ => v) else ReadOnly.findPending P c' := by
  induction P with
  | nil => simp [ReadOnly.setPending, ReadOnly.findPending]
  | cons x P ih =>
    obtain ⟨k, w⟩ := x
    unfold ReadOnly.setPending
    by_cases hk : k = c
    · subst hk
      simp only [if_true]
      unfold ReadOnly.findPending
      by_cases h2 : k = c' <;> simp [h2]
    · simp only [if_neg hk]
      by_cases h3 : c = c'
      · subst h3
        rw [if_pos rfl] at ih ⊢
        unfold ReadOnly.findPending
        rw [if_neg hk, if_neg hk, ih]
      · rw [if_neg h3] at ih ⊢
        unfold ReadOnly.findPending
        by_cases h2 : k = c'
        · rw [if_pos h2, if_pos h2]
        · rw [if_neg h2, if_neg h2, ih]

theorem recvAck_find (ro : ReadOnly) (id : Nat) (ctx c' : Bytes) : ReadOnly.findPending (ro.recvAck id ctx).1.pending c' =
    if ctx = c' then (ReadOnly.findPending ro.pending ctx).map (fun st => { st with acks := st.acks.insert id true })
    else ReadOnly.findPending ro.pending c' := by
  unfold ReadOnly.recvAck
  cases h : ReadOnly.findPending ro.pending ctx with
  | none =>
    dsimp only
    by_cases he : ctx = c'
    · subst he; rw [if_pos rfl, h]; rfl
    · rw [if_neg he]
  | some st =>
    dsimp only
    rw [setPending_find]
    split
    · rw [h]; rfl
    · rfl

theorem findPending_append {P : List (Bytes × ReadIndexStatus)} {s c : Bytes} {v : ReadIndexStatus} :
    ReadOnly.findPending (P ++ [(s, v)]) c =
      match ReadOnly.findPending P c with
      | some x => some x
      | none => if s = c then some v else none := by
  induction P with
  | nil => simp [ReadOnly.findPending]
  | cons x P ih =>
    obtain ⟨k, w⟩ := x
    rw [List.cons_append]
    unfold ReadOnly.findPending
    by_cases hk : k = c
    · simp [hk]
    · simp only [if_neg hk]; exact ih

theorem addRequest_find {ro ro' : ReadOnly} {i : Nat} {m : Message} {e : Entry} {es : List Entry} (he : m.entries = e :: es)
    (h : ro.addRequest i m = .ok ro') : (ReadOnly.findPending ro'.pending e.data).isSome := by
  unfold ReadOnly.addRequest ReadOnly.reqCtx at h
  rw [he] at h
  simp only [Res.ok_bind] at h
  split at h
  · cases h; assumption
  · cases h
    dsimp only
    rw [findPending_append]
    cases ReadOnly.findPending ro.pending e.data <;> simp

/-- One read request, either `im` itself or the first waiting one. -/
theorem sendMsgReadIndexResponse_wsim {env : Env} {im : Message} {r r' : Raft} {m : Message} {ws ws' : List Message} (hl : r.state = .leader)
    (hi : InTerm r.core) (hm : (m = im ∧ im.type = .readIndex ∧ ws = ws') ∨ ws = m :: ws')
    (h : r.sendMsgReadIndexResponse m = .ok r') : WSim env im r ws r' ws' := by
  unfold sendMsgReadIndexResponse at h
  split at h
  · rename_i hopt
    obtain ⟨ro, hro, h⟩ := Res.bind_eq_ok.1 h
    obtain ⟨ctx, hc, h⟩ := Res.bind_eq_ok.1 h
    dsimp only at h
    unfold ReadOnly.reqCtx at hc
    cases he : m.entries with
    | nil => rw [he] at hc; cases hc
    | cons e es =>
      rw [he] at hc
      simp only [Res.ok.injEq] at hc
      subst hc
      obtain ⟨ms, rfl, hms⟩ := bcastHeartbeatWithCtx_eq h
      have ho : (ro.recvAck r.id e.data).1.option = r.readOnly.option := (recvAck_option _ _ _).trans (addRequest_option hro)
      have hctx : CtxOk { r with readOnly := (ro.recvAck r.id e.data).1 } e.data := by
        refine Or.inr (Or.inr ?_)
        rw [recvAck_find, if_pos rfl]
        have := addRequest_find he hro
        rw [Option.isSome_map]; exact this
      have hp : CPath env im (({ r with readOnly := (ro.recvAck r.id e.data).1 } : Raft).coreW ws') ms
          (({ r with readOnly := (ro.recvAck r.id e.data).1 } : Raft).coreW ws') :=
        .emits fun x hx => (hms x hx).emit hl hctx
      refine ⟨.of (by simp only [consts, ho]) rfl, rfl, rfl, ms, rfl, ?_⟩
      refine CPath.trans (ms := []) (.single ?_) hp
      rcases hm with ⟨rfl, ht, rfl⟩ | rfl
      · exact CStep.readTake (c := r.coreW ws) ro e es hl ht hopt hi he hro
      · exact CStep.readNext (c := r.coreW (m :: ws')) m ws' ro e es hl rfl hopt hi he hro
  · rename_i hopt
    have ha : Answer im (r.coreW ws) m r.log.committed := by
      refine Or.inr ⟨rfl, Or.inr ⟨hopt, hi, ?_⟩⟩
      rcases hm with ⟨rfl, ht, rfl⟩ | rfl
      · exact Or.inl ⟨ht, rfl⟩
      · exact Or.inr (List.mem_cons_self ..)
    have w := respondReadIndex_wsim (env := env) hl ha h
    rcases hm with ⟨rfl, ht, rfl⟩ | rfl
    · exact w
    · refine w.trans ⟨.refl, rfl, rfl, [], by simp, .single ?_⟩
      exact CStep.readSkip (c := r'.coreW (m :: ws')) m ws' (by rw [← hl]; exact w.state) rfl

theorem releaseLoop_wsim {env : Env} {im : Message} (ms : List Message) {r r' : Raft} (hl : r.state = .leader) (hi : InTerm r.core)
    (h : releaseLoop ms r = .ok r') : WSim env im r ms r' [] := by
  induction ms generalizing r with
  | nil => cases h; exact ⟨.refl, rfl, rfl, [], by simp, .nil⟩
  | cons m ms ih =>
    unfold releaseLoop at h
    obtain ⟨r2, h2, h⟩ := Res.bind_eq_ok.1 h
    have q := sendMsgReadIndexResponse_wsim (env := env) (im := im) (ws := m :: ms) (ws' := ms) hl hi (Or.inr rfl) h2
    exact q.trans (ih (by rw [q.state]; exact hl) (q.inTerm hi) h)

theorem inTerm_of {r : Raft} (h : r.committedEntryInCurrentTerm = .ok true) : InTerm r.core := by
  unfold committedEntryInCurrentTerm at h
  obtain ⟨x, hx, h⟩ := Res.bind_eq_ok.1 h
  obtain ⟨t, ht, h⟩ := Res.bind_eq_ok.1 h
  simp only [Res.pure_eq, Res.ok.injEq, decide_eq_true_eq] at h
  subst h
  exact ⟨x, hx, ht⟩

theorem releasePending_qsim {env : Env} {im : Message} {r r' : Raft} (hl : r.state = .leader)
    (h : r.releasePendingReadIndexMessages = .ok r') : QSim env im r r' := by
  unfold releasePendingReadIndexMessages at h
  obtain ⟨c, hc, h⟩ := Res.bind_eq_ok.1 h
  cases c with
  | false => simp only [Bool.false_eq_true, not_false_eq_true, if_true] at h; cases h; exact .refl
  | true =>
    simp only [not_true_eq_false, if_false] at h
    have w := releaseLoop_wsim (env := env) (im := im) r.pendingReadIndexMessages (r := { r with pendingReadIndexMessages := [] }) hl
      (inTerm_of hc) h
    obtain ⟨a1, a2, a3, ms, a4, a5⟩ := w
    have a3' : r'.pendingReadIndexMessages = [] := a3
    have e : r'.coreW [] = r'.core := by
      unfold coreW
      rw [← a3']; rfl
    rw [e] at a5
    refine ⟨⟨a1, ms, a4, a5⟩, ?_⟩
    have hp : r'.core.progress = r.core.progress := (congrArg Core.progress a2).trans rfl
    rw [a2]
    show _ = { r.core with progress := r'.core.progress, reads := r'.reads }
    rw [hp]
    rfl

theorem respondAll_wsim {env : Env} {im : Message} (rss : List ReadIndexStatus) {r r' : Raft} {ws : List Message} (hl : r.state = .leader)
    (ha : ∀ st ∈ rss, ∀ x, Answer im { r.coreW ws with reads := { (r.coreW ws).reads with states := x } } st.req st.index)
    (h : respondAll rss r = .ok r') : WSim env im r ws r' ws ∧ r'.readOnly = r.readOnly := by
  induction rss generalizing r with
  | nil => cases h; exact ⟨⟨.refl, rfl, rfl, [], by simp, .nil⟩, rfl⟩
  | cons x xs ih =>
    unfold respondAll at h
    obtain ⟨r2, h2, h⟩ := Res.bind_eq_ok.1 h
    have w := respondReadIndex_wsim (env := env) (im := im) (ws := ws) hl (ha x (by simp) r.readStates) h2
    have hro : r2.readOnly = r.readOnly := by
      unfold respondReadIndex at h2
      obtain ⟨⟨r3, resp⟩, h3, h2⟩ := Res.bind_eq_ok.1 h2
      unfold responseToReadIndexReq at h3
      split at h3
      · obtain ⟨ctx, hc, h3⟩ := Res.bind_eq_ok.1 h3
        simp only [Res.pure_eq, Res.ok.injEq, Prod.mk.injEq] at h3
        obtain ⟨rfl, rfl⟩ := h3
        simp only [ne_eq, not_true_eq_false, if_false, Res.pure_eq, Res.ok.injEq] at h2
        subst h2; rfl
      · simp only [Res.ok.injEq, Prod.mk.injEq] at h3
        obtain ⟨rfl, rfl⟩ := h3
        dsimp only at h2
        split at h2
        · rw [send_ok h2]
        · cases h2; rfl
    have hcore : ∀ y, ({ r2.coreW ws with reads := { (r2.coreW ws).reads with states := y } } : Core) =
        { r.coreW ws with reads := { (r.coreW ws).reads with states := y } } := by
      intro y
      have := w.2.1
      show ({ r2.core with reads := { ro := r2.readOnly, states := y, waiting := ws } } : Core) =
        { r.core with reads := { ro := r.readOnly, states := y, waiting := ws } }
      rw [hro, this]
    obtain ⟨w2, hro2⟩ := ih (by rw [w.state]; exact hl) (fun st hst y => by rw [hcore]; exact ha st (by simp [hst]) y) h
    exact ⟨w.trans w2, hro2.trans hro⟩

theorem leaderReadIndex_wsim {env : Env} {im : Message} {r r' : Raft} (hl : r.state = .leader) (ht : im.type = .readIndex)
    (h : r.leaderReadIndex im = .ok r') : QSim env im r r' := by
  unfold leaderReadIndex at h
  split at h
  · rename_i hs
    refine (respondReadIndex_wsim (ws := r.pendingReadIndexMessages) hl (Or.inr ⟨rfl, Or.inl ⟨?_, ht, rfl⟩⟩) h).qsim ?_
    · unfold Tracker.isSingleton at hs
      exact of_decide_eq_true hs
    · have := (respondReadIndex_wsim (env := env) (im := im) (ws := r.pendingReadIndexMessages) hl (Or.inr ⟨rfl, Or.inl ⟨?_, ht, rfl⟩⟩) h).2.2.1
      · exact this.symm
      · unfold Tracker.isSingleton at hs
        exact of_decide_eq_true hs
  · obtain ⟨c, hc, h⟩ := Res.bind_eq_ok.1 h
    cases c with
    | false =>
      simp only [Bool.false_eq_true, not_false_eq_true, if_true] at h
      cases h
      exact ⟨.step0 rfl rfl (CStep.readWait (c := r.core) hl ht), rfl⟩
    | true =>
      simp only [not_true_eq_false, if_false] at h
      have w := sendMsgReadIndexResponse_wsim (env := env) (im := im) (ws := r.pendingReadIndexMessages) hl (inTerm_of hc)
        (Or.inl ⟨rfl, ht, rfl⟩) h
      exact w.qsim w.2.2.1.symm

end Raft
end Craft
