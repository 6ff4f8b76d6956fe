import Verif.Safe.Total

/-! # Every call of a safe node returns -/

namespace Craft
open Spec

namespace Raft
variable {K : Around} {env : Env} {r r' : Raft} {m : Message}

theorem MsgSafe.moved (hm : MsgSafe K env r m) (hid : r'.id = r.id) (hlog : r'.log = r.log) (ht : r'.term = m.term) (hlt : r.term ≤ m.term)
    (hp : m.type ≠ .preVote) : MsgSafe K env r' m := by
  revert hm
  unfold MsgSafe
  cases hty : m.type <;> dsimp only <;> (try rw [hid]) <;> try exact fun h => h
  case preVote => exact absurd hty hp
  case heartbeat =>
    rw [hlog, ht]
    exact fun h => ⟨h.1, h.2.1, h.2.2.1, fun _ => h.2.2.2 hlt⟩

/-- What holds after the gate lets the message through. -/
structure Through (K : Around) (env : Env) (m : Message) (r : Raft) : Prop where
  safe : Safe K env r
  msg : MsgSafe K env r m
  fresh : Fresh K r.log
  term : m.type = .app ∨ m.type = .heartbeat ∨ m.type = .snap → m.term = r.term
  tr : m.type = .transferLeader → m.term = 0 ∨ m.term = r.term
  vote : m.type = .vote → m.term = r.term

/-- The outcome of the gate is fine. -/
def GateSafe (K : Around) (env : Env) (m : Message) : Gate → Prop
  | .go r => Through K env m r
  | .stop r => Safe K env r

theorem stepGate_safe (h : Safe K env r) (hm : MsgSafe K env r m) (hfr : Fresh K r.log) :
    (r.stepGate env m).Sat (GateSafe K env m) := by
  have hm0 := hm
  unfold MsgSafe at hm0
  unfold stepGate
  by_cases c0 : m.term = 0
  · rw [if_pos c0]
    refine .ok ⟨h, hm, hfr, ?_, fun _ => Or.inl c0, ?_⟩
    · rintro (ht | ht | ht) <;> rw [ht] at hm0 <;> exact absurd c0 hm0.1
    · intro ht; rw [ht] at hm0; exact absurd c0 hm0
  rw [if_neg c0]
  by_cases c1 : m.term > r.term
  · rw [if_pos c1]
    split
    · rw [h.log.linv.wf.lastTerm_eq]
      exact .pure h
    split
    · rename_i _ c
      refine .ok ⟨h, hm, hfr, ?_, ?_, ?_⟩ <;> rw [c] <;> simp
    split
    · rename_i _ _ c
      refine .ok ⟨h, hm, hfr, ?_, ?_, ?_⟩ <;> rw [c.1] <;> simp
    rename_i _ cp _
    have hb : ∀ l, (l ≠ 0 → l ≠ r.id ∧ K.lead m.term l) → Through K env m (r.becomeFollower env m.term l) := by
      intro l hl
      have e1 : (r.becomeFollower env m.term l).id = r.id := reset_id (env := env) r m.term
      have e2 : (r.becomeFollower env m.term l).log = r.log := reset_log (env := env) r m.term
      have e3 : (r.becomeFollower env m.term l).term = m.term := reset_term (env := env) r m.term
      refine ⟨becomeFollower_safe h hl, MsgSafe.moved hm e1 e2 e3 (by omega) cp, by rw [e2]; exact hfr, ?_, ?_, ?_⟩ <;> rw [e3] <;> simp
    split
    · rename_i c
      refine .ok (hb _ fun _ => ?_)
      rcases c with c | c | c <;> rw [c] at hm0
      · exact ⟨hm0.2.2.1, hm0.2.1⟩
      · exact ⟨hm0.2.2.1, hm0.2.1⟩
      · exact ⟨hm0.2.2.1, hm0.2.1⟩
    · exact .ok (hb _ fun hh => absurd rfl hh)
  rw [if_neg c1]
  by_cases c2 : m.term < r.term
  · rw [if_pos c2]
    split
    · rename_i c
      have hne : m.src ≠ r.id := by rcases c.2 with c | c <;> rw [c] at hm0 <;> exact hm0.2.2.1
      exact (respond_safe (x := { type := .appResp, to := m.src }) h (Or.inl rfl) rfl rfl hne).bind fun _ hh => .pure hh.1
    split
    · rw [h.log.linv.wf.lastTerm_eq]
      simp only [Res.ok_bind]
      exact (vote_out (x := { type := .preVoteResp, to := m.src, term := r.term, reject := true }) h (Or.inr rfl)
        (by dsimp only; omega)).bind fun _ hh => .pure hh.1
    · exact .ok h
  rw [if_neg c2]
  have he : m.term = r.term := by omega
  exact .ok ⟨h, hm, hfr, fun _ => he, fun _ => Or.inr he, fun _ => he⟩

/-- `Step` of a safe node with a safe message returns. -/
theorem step_safe (h : Safe K env r) (hm : MsgSafe K env r m) (hfr : Fresh K r.log) :
    (r.step env m).Sat fun x => Safe K env x.1 := by
  unfold step
  refine (stepGate_safe h hm hfr).bind fun g hg => ?_
  cases g with
  | stop a => exact .pure hg
  | go a => exact stepBody_safe hg.safe hg.msg hg.fresh hg.term hg.tr hg.vote

theorem tickElection_safe (h : Safe K env r) (hfr : Fresh K r.log) : (r.tickElection env).Sat fun x => Safe K env x := by
  have h1 : ∀ e, Safe K env { r with electionElapsed := e } := fun e =>
    ⟨h.log, h.id, h.self, h.tpos, h.infl, h.next, h.ro, h.pend, h.lead, h.out⟩
  unfold tickElection
  dsimp only
  split
  · refine (step_safe (r := { r with electionElapsed := 0 }) (m := { type := .hup, src := r.id }) (h1 0) trivial hfr).bind fun x hx => ?_
    exact .pure hx
  · exact .ok (h1 _)

theorem tickHeartbeat_safe (h : Safe K env r) (hfr : Fresh K r.log) : (r.tickHeartbeat env).Sat fun x => Safe K env x := by
  have hh : ∀ {a : Raft} e f, Safe K env a → Safe K env { a with electionElapsed := e, heartbeatElapsed := f } := fun e f h =>
    ⟨h.log, h.id, h.self, h.tpos, h.infl, h.next, h.ro, h.pend, h.lead, h.out⟩
  have he : ∀ {a : Raft} e, Safe K env a → Safe K env { a with electionElapsed := e } := fun e h =>
    ⟨h.log, h.id, h.self, h.tpos, h.infl, h.next, h.ro, h.pend, h.lead, h.out⟩
  have hb : ∀ {a : Raft} e, Safe K env a → Safe K env { a with heartbeatElapsed := e } := fun e h =>
    ⟨h.log, h.id, h.self, h.tpos, h.infl, h.next, h.ro, h.pend, h.lead, h.out⟩
  have hl : ∀ {a : Raft}, Safe K env a → Safe K env { a with leadTransferee := 0 } := fun h =>
    ⟨h.log, h.id, h.self, h.tpos, h.infl, h.next, h.ro, h.pend, h.lead, h.out⟩
  unfold tickHeartbeat
  refine Res.Sat.bind (P := fun x => Safe K env x) ?_ fun a ha => ?_
  · have h1 := hh (r.electionElapsed + 1) (r.heartbeatElapsed + 1) h
    have hf1 : Fresh K ({ r with electionElapsed := r.electionElapsed + 1, heartbeatElapsed := r.heartbeatElapsed + 1 } : Raft).log := hfr
    generalize ({ r with electionElapsed := r.electionElapsed + 1, heartbeatElapsed := r.heartbeatElapsed + 1 } : Raft) = b at h1 hf1
    unfold tickHeartbeatTimeout
    split
    · have hfin : ∀ x : Raft × Option Err, Safe K env x.1 →
          (if x.1.state = .leader ∧ x.1.leadTransferee ≠ 0 then pure { x.1 with leadTransferee := 0 } else pure x.1 : Res Raft).Sat
            fun x => Safe K env x := by
        intro x hx
        split
        · exact .pure (hl hx)
        · exact .pure hx
      dsimp only
      split
      · exact (step_safe (he 0 h1) (m := { type := .checkQuorum, src := b.id }) trivial hf1).bind hfin
      · exact hfin ({ b with electionElapsed := 0 }, none) (he 0 h1)
    · exact .ok h1
  · unfold tickHeartbeatBeat
    split
    · exact .ok ha
    split
    · rename_i c _
      have c : a.state = .leader := Classical.not_not.1 c
      have e : ∀ b : Raft, b.state = .leader → b.step env { type := .beat, src := b.id } = b.bcastHeartbeat >>= fun r => pure (r, none) := by
        intro b hb
        simp [step, stepGate, stepBody, stepState, hb, stepLeader]
      rw [e ({ a with heartbeatElapsed := 0 } : Raft) c]
      have := bcastHeartbeatWithCtx_safe (ctx := a.readOnly.lastPendingRequestCtx) (hb 0 ha) c
      refine Res.Sat.bind (P := fun x => Safe K env x.1) (this.bind fun _ hh => .pure hh.1) fun x hx => .pure hx
    · exact .ok ha

/-- `Tick` of a safe node returns. -/
theorem tick_safe (h : Safe K env r) (hfr : Fresh K r.log) : (r.tick env).Sat fun x => Safe K env x := by
  unfold tick
  cases r.state <;> dsimp only <;> first | exact tickHeartbeat_safe h hfr | exact tickElection_safe h hfr

end Raft
end Craft
