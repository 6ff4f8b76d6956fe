import Verif.Node.Calls

/-! # What a `MsgReadIndex` does, exactly -/

namespace Craft

/-- The effect of handing the read request `im` to a node. -/
inductive ReadOut (env : Env) (im : Message) (c : Core) : List Message → Core → Prop
  /-- Dropped (`/repo/src/raft.cc` 1477-1481 and the missing case of `StepCandidate`). -/
  | drop : c.state ≠ .leader → ReadOut env im c [] c
  /-- Forwarded to the leader (1482-1484). -/
  | forward (f : Message) : c.state ≠ .leader → f.type = .readIndex → f.term = 0 → f.entries = im.entries → ReadOut env im c [f] c
  /-- Kept until an entry of this term is committed (1049-1052). -/
  | wait : c.state = .leader → ReadOut env im c [] { c with reads := { c.reads with waiting := c.reads.waiting ++ [im] } }
  /-- Queued, and heartbeats sent (1884-1889). -/
  | take (ro : ReadOnly) (e : Entry) (es : List Entry) (ms : List Message) : c.state = .leader → c.reads.ro.option = .safe → InTerm c →
      im.entries = e :: es → c.reads.ro.addRequest c.log.committed im = .ok ro →
      (∀ f ∈ ms, f.type = .heartbeat ∧ f.src = c.id ∧ f.context = e.data) →
      ReadOut env im c ms { c with reads := { c.reads with ro := (ro.recvAck c.id e.data).1 } }
  /-- Answered at once (1042-1046, 1891-1894), to this node. -/
  | answer (e : Entry) (es : List Entry) : c.state = .leader → Answer im c im c.log.committed → im.entries = e :: es →
      ReadOut env im c []
        { c with reads := { c.reads with states := c.reads.states ++ [{ index := c.log.committed, requestCtx := e.data }] } }
  /-- The same, to the node that forwarded it. -/
  | reply (f : Message) : c.state = .leader → f.type = .readIndexResp → f.entries = im.entries → f.index = c.log.committed →
      Answer im c im c.log.committed → ReadOut env im c [f] c
  /-- The same, if the forwarding node is unknown. -/
  | lost : c.state = .leader → ReadOut env im c [] c

namespace Raft
variable {env : Env} {im : Message} {r r' : Raft}

theorem respondReadIndex_out (hl : r.state = .leader) (ha : Answer im r.core im r.log.committed)
    (h : r.respondReadIndex im r.log.committed = .ok r') : ∃ ms, r'.msgs = r.msgs ++ ms ∧ ReadOut env im r.core ms r'.core := by
  unfold respondReadIndex at h
  obtain ⟨⟨r2, resp⟩, h2, h⟩ := Res.bind_eq_ok.1 h
  unfold responseToReadIndexReq at h2
  split at h2
  · obtain ⟨ctx, hc, h2⟩ := Res.bind_eq_ok.1 h2
    simp only [Res.pure_eq, Res.ok.injEq, Prod.mk.injEq] at h2
    obtain ⟨rfl, rfl⟩ := h2
    simp only [ne_eq, not_true_eq_false, if_false, Res.pure_eq, Res.ok.injEq] at h
    subst h
    unfold ReadOnly.reqCtx at hc
    cases he : im.entries with
    | nil => rw [he] at hc; cases hc
    | cons e es =>
      rw [he] at hc
      simp only [Res.ok.injEq] at hc
      subst hc
      exact ⟨[], by simp, ReadOut.answer (c := r.core) e es hl ha he⟩
  · simp only [Res.ok.injEq, Prod.mk.injEq] at h2
    obtain ⟨rfl, rfl⟩ := h2
    dsimp only at h
    split at h
    · rw [send_ok h]
      exact ⟨[_], rfl, ReadOut.reply (c := r.core) _ hl rfl rfl rfl ha⟩
    · cases h; exact ⟨[], by simp, .lost hl⟩

theorem leaderReadIndex_out (hl : r.state = .leader) (ht : im.type = .readIndex) (h : r.leaderReadIndex im = .ok r') :
    ∃ ms, r'.msgs = r.msgs ++ ms ∧ ReadOut env im r.core ms r'.core := by
  unfold leaderReadIndex at h
  split at h
  · rename_i hs
    refine respondReadIndex_out hl (Or.inr ⟨rfl, Or.inl ⟨?_, ht, rfl⟩⟩) h
    unfold Tracker.isSingleton at hs
    exact of_decide_eq_true hs
  · obtain ⟨c, hc, h⟩ := Res.bind_eq_ok.1 h
    cases c with
    | false =>
      simp only [Bool.false_eq_true, not_false_eq_true, if_true] at h
      cases h
      exact ⟨[], by simp, ReadOut.wait (c := r.core) hl⟩
    | true =>
      simp only [not_true_eq_false, if_false] at h
      unfold sendMsgReadIndexResponse at h
      split at h
      · rename_i hopt
        obtain ⟨ro, hro, h⟩ := Res.bind_eq_ok.1 h
        obtain ⟨ctx, hx, h⟩ := Res.bind_eq_ok.1 h
        dsimp only at h
        unfold ReadOnly.reqCtx at hx
        cases he : im.entries with
        | nil => rw [he] at hx; cases hx
        | cons e es =>
          rw [he] at hx
          simp only [Res.ok.injEq] at hx
          subst hx
          obtain ⟨ms, rfl, hms⟩ := bcastHeartbeatWithCtx_eq h
          exact ⟨ms, rfl, ReadOut.take (c := r.core) ro e es ms hl hopt (inTerm_of hc) he hro
            fun f hf => ⟨(hms f hf).type, (hms f hf).src, (hms f hf).context⟩⟩
      · rename_i hopt
        exact respondReadIndex_out hl (Or.inr ⟨rfl, Or.inr ⟨hopt, inTerm_of hc, Or.inl ⟨ht, rfl⟩⟩⟩) h

theorem step_readIndex_out {e : Option Err} (ht : im.type = .readIndex) (h0 : im.term = 0) (h : r.step env im = .ok (r', e)) :
    ∃ ms, r'.msgs = r.msgs ++ ms ∧ ReadOut env im r.core ms r'.core := by
  have hst : r.stepState env im = .ok (r', e) := by
    unfold step stepGate at h
    simp only [h0, if_true] at h
    unfold stepBody at h
    simp only [ht] at h
    exact h
  unfold stepState at hst
  have cand : r.state ≠ .leader → r.stepCandidate env im = .ok (r', e) → ∃ ms, r'.msgs = r.msgs ++ ms ∧ ReadOut env im r.core ms r'.core := by
    intro hl h
    unfold stepCandidate at h
    simp only [ht, Res.ok.injEq, Prod.mk.injEq] at h
    obtain ⟨rfl, _⟩ := h
    exact ⟨[], by simp, .drop hl⟩
  split at hst
  · rename_i hs
    unfold stepFollower at hst
    simp only [ht] at hst
    have hl : r.core.state ≠ .leader := by show r.state ≠ _; rw [hs]; exact (nomatch ·)
    split at hst
    · simp only [Res.ok.injEq, Prod.mk.injEq] at hst
      obtain ⟨rfl, _⟩ := hst
      exact ⟨[], by simp, .drop hl⟩
    · obtain ⟨r2, h2, hst⟩ := Res.bind_eq_ok.1 hst
      simp only [Res.pure_eq, Res.ok.injEq, Prod.mk.injEq] at hst
      obtain ⟨rfl, _⟩ := hst
      rw [send_ok h2]
      refine ⟨[_], rfl, ReadOut.forward (c := r.core) _ hl ?_ ?_ ?_⟩ <;> unfold outMsg <;> by_cases hz : im.src = 0 <;> simp [hz, h0]
  · exact cand (by rename_i hs; rw [hs]; exact (nomatch ·)) hst
  · exact cand (by rename_i hs; rw [hs]; exact (nomatch ·)) hst
  · rename_i hs
    unfold stepLeader at hst
    simp only [ht] at hst
    obtain ⟨r2, h2, hst⟩ := Res.bind_eq_ok.1 hst
    simp only [Res.pure_eq, Res.ok.injEq, Prod.mk.injEq] at hst
    obtain ⟨rfl, _⟩ := hst
    exact leaderReadIndex_out hs ht h2

end Raft
end Craft
