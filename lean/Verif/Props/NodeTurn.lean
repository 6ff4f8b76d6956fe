import Verif.Node.Turn
import Verif.Spec.Turn
import Verif.Props.NodeTransfer

/-! # C74, C75: the leader a node reports, and its election timeout -/

namespace Craft

namespace Turn
variable {env : Env} {im im' : Message} {r r' a b : Raft}

theorem deaf (h : Turn env im a b) (hd : im.type ≠ .app ∧ im.type ≠ .heartbeat ∧ im.type ≠ .snap) : Turn env im' a b := by
  refine ⟨h.id, h.timeout, h.pos, h.same, h.draw, h.clock, ?_⟩
  rcases h.lead with k | k | k | ⟨_, k, _⟩
  · exact Or.inl k
  · exact Or.inr (Or.inl k)
  · exact Or.inr (Or.inr (Or.inl k))
  · rcases k with k | k | k
    · exact absurd k hd.1
    · exact absurd k hd.2.1
    · exact absurd k hd.2.2

/-- A tick: the clock is one older. -/
theorem tick (h : r.tick env = .ok r') : Turn env im { r with electionElapsed := r.electionElapsed + 1 } r' := by
  unfold Raft.tick at h
  split at h
  · unfold Raft.tickHeartbeat at h
    obtain ⟨r1, h1, h⟩ := Res.bind_eq_ok.1 h
    have k1 : Turn env im { r with electionElapsed := r.electionElapsed + 1 } r1 := by
      unfold Raft.tickHeartbeatTimeout at h1
      dsimp only at h1
      have fin : ∀ r2 : Raft, (if r2.state = .leader ∧ r2.leadTransferee ≠ 0 then pure { r2 with leadTransferee := 0 } else pure r2 : Res Raft) = .ok r1 →
          Turn env im r2 r1 := by
        intro r2 h1
        split at h1 <;> cases h1
        · exact .of rfl
        · exact .refl
      have w : Turn env im { r with electionElapsed := r.electionElapsed + 1 } { r with heartbeatElapsed := r.heartbeatElapsed + 1, electionElapsed := 0 } :=
        rewind rfl rfl rfl rfl rfl rfl rfl (Or.inl rfl)
      split at h1
      · split at h1
        · obtain ⟨⟨r2, e⟩, h2, h1⟩ := Res.bind_eq_ok.1 h1
          exact w.trans ((deaf (step h2) ⟨nofun, nofun, nofun⟩).trans (fin r2 h1))
        · exact w.trans (fin _ h1)
      · cases h1; exact .of rfl
    refine k1.trans ?_
    unfold Raft.tickHeartbeatBeat at h
    split at h
    · cases h; exact .refl
    split at h
    · obtain ⟨⟨r2, e⟩, h2, h⟩ := Res.bind_eq_ok.1 h
      cases h
      have s := deaf (im' := im) (step h2) ⟨nofun, nofun, nofun⟩
      exact .after s rfl
    · cases h; exact .refl
  · unfold Raft.tickElection at h
    dsimp only at h
    split at h
    · obtain ⟨⟨r2, e⟩, h2, h⟩ := Res.bind_eq_ok.1 h
      cases h
      have w : Turn env im { r with electionElapsed := r.electionElapsed + 1 } { r with electionElapsed := 0 } :=
        rewind rfl rfl rfl rfl rfl rfl rfl (Or.inl rfl)
      exact w.trans (deaf (step h2) ⟨nofun, nofun, nofun⟩)
    · cases h; exact .refl

end Turn

/-- What a call does, with the message it hands to `Raft::Step` in view. -/
theorem Call.turn {env : Env} {c : Call} {n n' : RawNode} (h : c.run env n = .ok n') :
    ∃ im, (∀ l T, Heard im l T → ∃ m, c = .step m ∧ Heard m l T) ∧
      Turn env im { n.raft with electionElapsed := n.raft.electionElapsed + if c = .tick ∨ c = .tickQuiesced then 1 else 0 } n'.raft := by
  have key : ∀ {im : Message} {e : Option Err}, c ≠ .tick → c ≠ .tickQuiesced → (∀ l T, Heard im l T → ∃ m, c = .step m ∧ Heard m l T) →
      n.raft.step env im = .ok (n'.raft, e) → ∃ im, (∀ l T, Heard im l T → ∃ m, c = .step m ∧ Heard m l T) ∧
      Turn env im { n.raft with electionElapsed := n.raft.electionElapsed + if c = .tick ∨ c = .tickQuiesced then 1 else 0 } n'.raft := by
    intro im e h1 h2 h3 h
    refine ⟨im, h3, ?_⟩
    rw [if_neg (fun h => h.elim h1 h2)]
    exact Turn.step h
  have deaf : ∀ l T, Heard { type := .hup } l T → ∃ m, c = .step m ∧ Heard m l T := by
    intro l T hh
    obtain ⟨hh, _⟩ := hh
    rcases hh with hh | hh | hh <;> cases hh
  have quiet : c ≠ .tick → c ≠ .tickQuiesced → (∀ im, Turn env im n.raft n'.raft) → ∃ im, (∀ l T, Heard im l T → ∃ m, c = .step m ∧ Heard m l T) ∧
      Turn env im { n.raft with electionElapsed := n.raft.electionElapsed + if c = .tick ∨ c = .tickQuiesced then 1 else 0 } n'.raft := by
    intro h1 h2 h
    refine ⟨_, deaf, ?_⟩
    rw [if_neg (fun h => h.elim h1 h2)]
    exact h _
  have no : ∀ {t : MsgType} {x : Message}, x.type = t → t ≠ .app ∧ t ≠ .heartbeat ∧ t ≠ .snap → ∀ l T, Heard x l T → ∃ m, c = .step m ∧ Heard m l T := by
    intro t x h2 h1 l T hh
    obtain ⟨hh, _⟩ := hh
    rw [h2] at hh
    exact absurd hh (by simp [h1])
  cases c with
  | step m =>
    obtain ⟨⟨n1, e⟩, h1, h⟩ := Res.bind_eq_ok.1 h
    cases h
    unfold RawNode.step at h1
    split at h1
    · cases h1; exact quiet nofun nofun fun _ => .refl
    split at h1
    · exact key nofun nofun (fun l T h => ⟨m, rfl, h⟩) (onRaft_ok h1).1
    · cases h1; exact quiet nofun nofun fun _ => .refl
  | tick =>
    obtain ⟨r, h1, h⟩ := Res.bind_eq_ok.1 h
    cases h
    exact ⟨_, deaf, Turn.tick h1⟩
  | tickQuiesced =>
    cases h
    exact ⟨_, deaf, .refl⟩
  | campaign =>
    obtain ⟨⟨n1, e⟩, h1, h⟩ := Res.bind_eq_ok.1 h
    cases h
    exact key (im := Call.msg env n (.campaign)) nofun nofun (no rfl ⟨nofun, nofun, nofun⟩) (onRaft_ok h1).1
  | propose d =>
    obtain ⟨⟨n1, e⟩, h1, h⟩ := Res.bind_eq_ok.1 h
    cases h
    exact key (im := Call.msg env n (.propose d)) nofun nofun (no rfl ⟨nofun, nofun, nofun⟩) (onRaft_ok h1).1
  | proposeConfChange cc =>
    obtain ⟨⟨n1, e⟩, h1, h⟩ := Res.bind_eq_ok.1 h
    cases h
    exact key (im := Call.msg env n (.proposeConfChange cc)) nofun nofun (no rfl ⟨nofun, nofun, nofun⟩)
      (onRaft_ok (f := fun r => r.step env (Call.msg env n (.proposeConfChange cc))) h1).1
  | applyConfChange cc =>
    obtain ⟨⟨n1, cs⟩, h1, h⟩ := Res.bind_eq_ok.1 h
    cases h
    unfold RawNode.applyConfChange at h1
    obtain ⟨⟨r, cs'⟩, h2, h1⟩ := Res.bind_eq_ok.1 h1
    cases h1
    unfold Raft.applyConfChange at h2
    dsimp only at h2
    split at h2
    · cases h2
    exact quiet nofun nofun fun _ => .switchToConfig h2
  | getReady =>
    obtain ⟨⟨n1, cs⟩, h1, h⟩ := Res.bind_eq_ok.1 h
    cases h
    obtain ⟨_, h2⟩ := getReady_ok h1
    subst h2
    exact quiet nofun nofun fun _ => .of rfl
  | advance =>
    simp only [Call.run, RawNode.advance] at h
    split at h
    · cases h
    · obtain ⟨r, h1, h⟩ := Res.bind_eq_ok.1 h
      cases h
      exact quiet nofun nofun fun _ => .still (Still.advance h1)
  | reportUnreachable id =>
    obtain ⟨⟨n1, e⟩, h1, h⟩ := Res.bind_eq_ok.1 h
    cases h
    exact key (im := Call.msg env n (.reportUnreachable id)) nofun nofun (no rfl ⟨nofun, nofun, nofun⟩) (onRaft_ok h1).1
  | reportSnapshot id f =>
    obtain ⟨⟨n1, e⟩, h1, h⟩ := Res.bind_eq_ok.1 h
    cases h
    exact key (im := Call.msg env n (.reportSnapshot id f)) nofun nofun (no rfl ⟨nofun, nofun, nofun⟩) (onRaft_ok h1).1
  | transferLeader id =>
    obtain ⟨⟨n1, e⟩, h1, h⟩ := Res.bind_eq_ok.1 h
    cases h
    exact key (im := Call.msg env n (.transferLeader id)) nofun nofun (no rfl ⟨nofun, nofun, nofun⟩) (onRaft_ok h1).1
  | readIndex ctx =>
    obtain ⟨⟨n1, e⟩, h1, h⟩ := Res.bind_eq_ok.1 h
    cases h
    exact key (im := Call.msg env n (.readIndex ctx)) nofun nofun (no rfl ⟨nofun, nofun, nofun⟩) (onRaft_ok h1).1

/-- Candidates know no leader, a leader is its own. -/
structure LeadInv (r : Raft) : Prop where
  leader : r.state = .leader → r.lead = r.id
  candidate : r.state = .candidate ∨ r.state = .preCandidate → r.lead = 0

theorem Turn.leadInv {env : Env} {im : Message} {a b : Raft} (h : Turn env im a b) (ha : LeadInv a) : LeadInv b := by
  rcases h.lead with ⟨k1, k2, k3⟩ | ⟨k1, k2⟩ | ⟨k1, k2⟩ | ⟨k1, k2⟩
  · refine ⟨fun hs => ?_, fun hs => ?_⟩
    · rw [k3, h.id]; exact ha.leader (k2.symm.trans hs)
    · rw [k3]; exact ha.candidate (by rw [← k2]; exact hs)
  · exact ⟨fun hs => absurd hs k1, fun _ => k2⟩
  · exact ⟨fun _ => k2, fun hs => by rw [k1] at hs; rcases hs with hs | hs <;> cases hs⟩
  · exact ⟨fun hs => by (rw [k1] at hs; cases hs), fun hs => by rw [k1] at hs; rcases hs with hs | hs <;> cases hs⟩

/-- The timeout in use was drawn, and the next draw is a later one. -/
def DrawInv (env : Env) (r : Raft) : Prop :=
  0 < r.rngPos ∧ r.randomizedElectionTimeout = drawn env r.id r.electionTimeout (r.rngPos - 1)

theorem Turn.drawInv {env : Env} {im : Message} {a b : Raft} (h : Turn env im a b) (ha : DrawInv env a) : DrawInv env b := by
  have p := h.pos
  refine ⟨Nat.lt_of_lt_of_le ha.1 p, ?_⟩
  rcases Nat.lt_or_ge a.rngPos b.rngPos with hlt | hge
  · exact h.draw hlt
  · have e : b.rngPos = a.rngPos := by omega
    rw [(h.same e).2.1, h.id, h.timeout, e]
    exact ha.2

theorem Call.leadInv {env : Env} {c : Call} {n n' : RawNode} (h : c.run env n = .ok n') (hi : LeadInv n.raft) : LeadInv n'.raft := by
  obtain ⟨im, _, t⟩ := Call.turn h
  exact t.leadInv ⟨hi.leader, hi.candidate⟩

theorem Call.drawInv {env : Env} {c : Call} {n n' : RawNode} (h : c.run env n = .ok n') (hi : DrawInv env n.raft) : DrawInv env n'.raft := by
  obtain ⟨im, _, t⟩ := Call.turn h
  exact t.drawInv hi

theorem RawNode.new_draw {env : Env} {c : Config} {st : Storage} {rng : Nat} {n : RawNode} (h : RawNode.new env c st rng = .ok n) : DrawInv env n.raft := by
  unfold RawNode.new at h
  obtain ⟨r, h1, h2⟩ := Res.bind_eq_ok.1 h
  simp only [Res.pure_eq, Res.ok.injEq] at h2
  subst h2
  clear h
  have h := h1
  show DrawInv env r
  unfold Raft.new at h
  split at h
  · cases h
  dsimp only at h
  split at h
  · cases h
  obtain ⟨⟨r1, cs⟩, _, h⟩ := Res.bind_eq_ok.1 h
  split at h
  · cases h
  obtain ⟨r2, _, h⟩ := Res.bind_eq_ok.1 h
  obtain ⟨r3, _, h⟩ := Res.bind_eq_ok.1 h
  split at h
  · cases h
  obtain ⟨lt, _, h⟩ := Res.bind_eq_ok.1 h
  cases h
  have k : (r3.becomeFollower env r3.term 0).rngPos = r3.rngPos + 1 := by
    show (r3.reset env r3.term).rngPos = _
    unfold Raft.reset Raft.resetRandomizedElectionTimeout; simp
  exact ⟨by omega, (Turn.becomeFollower (env := env) (im := {}) (r := r3) r3.term).draw (by omega)⟩

/-- C74 (one node). In every history of a node, a leader reports itself as the leader, and candidates and pre-candidates
report none; and whatever the call, the node afterwards reports no leader, the one it reported before (in the same term),
itself (it leads), or the sender of the leader's message it was just handed, in the term of that message. -/
theorem C74_node {env : Env} {x : NodeHist} (hx : NodeReach env x) :
    (x.node.raft.state = .leader → x.node.raft.lead = x.node.raft.id) ∧
    (x.node.raft.state = .candidate ∨ x.node.raft.state = .preCandidate → x.node.raft.lead = 0) ∧
    ∀ c n', c.Stamped → Call.run env x.node c = .ok n' → n'.raft.lead = 0 ∨ (n'.raft.lead = x.node.raft.lead ∧ n'.raft.term = x.node.raft.term) ∨
      (n'.raft.state = .leader ∧ n'.raft.lead = n'.raft.id) ∨ (n'.raft.state = .follower ∧ c.HearsFrom n'.raft.lead n'.raft.term) := by
  have inv : LeadInv x.node.raft := by
    refine hx.inv (fun n => LeadInv n.raft) ?_ ?_ ?_
    · intro c st rng n h
      have f := (RawNode.new_ok h).1
      exact ⟨fun h => by (rw [f.state] at h; cases h), fun h => by (rw [f.state] at h; rcases h with h | h <;> cases h)⟩
    · intro c rng peers n0 n _ h _
      refine RawNode.bootstrap_inv (fun n => LeadInv n.raft) h (fun l k es _ => ⟨?_, ?_⟩) fun cc a b h hw => Call.leadInv h hw
      · intro h; cases h
      · rintro (h | h) <;> cases h
    · intro x y h hw
      cases h with
      | call c _ hs _ h => exact Call.leadInv h hw
      | ready ccs h =>
        exact RawNode.handleReady_inv (fun n => LeadInv n.raft) (fun c a b _ _ _ _ _ h hw => Call.leadInv h hw) (fun a st hw => ⟨hw.leader, hw.candidate⟩) h hw
      | compact => exact ⟨hw.leader, hw.candidate⟩
      | createSnapshot => exact ⟨hw.leader, hw.candidate⟩
  refine ⟨inv.leader, inv.candidate, fun c n' hs h => ?_⟩
  obtain ⟨im, hh, t⟩ := Call.turn h
  rcases t.lead with ⟨k1, k2, k3⟩ | ⟨_, k⟩ | k | ⟨k1, k2⟩
  · exact Or.inr (Or.inl ⟨k3, (t.same k1).1⟩)
  · exact Or.inl k
  · exact Or.inr (Or.inr (Or.inl k))
  · obtain ⟨m, rfl, hm, hsrc, ht⟩ := hh _ _ k2
    refine Or.inr (Or.inr (Or.inr ⟨k1, m, rfl, hm, hsrc, ht.resolve_right (hs hm)⟩))

/-- C75. In every history of a node its election timeout is a value drawn from its random source, and whatever the call,
afterwards either the term is the same, the role too (but a node that does not lead may have become a pre-candidate) and the
timeout too, or the election clock has been restarted and the timeout is a later draw than the one before. -/
theorem C75_fresh_timeouts {env : Env} {x : NodeHist} (hx : NodeReach env x) :
    (∃ k, x.node.raft.rngPos = k + 1 ∧ x.node.raft.randomizedElectionTimeout = drawn env x.node.raft.id x.node.raft.electionTimeout k) ∧
    ∀ c n', Call.run env x.node c = .ok n' → n'.raft.electionTimeout = x.node.raft.electionTimeout ∧
      ((n'.raft.term = x.node.raft.term ∧ (n'.raft.state = x.node.raft.state ∨ (x.node.raft.state ≠ .leader ∧ n'.raft.state = .preCandidate)) ∧
          n'.raft.randomizedElectionTimeout = x.node.raft.randomizedElectionTimeout ∧ n'.raft.rngPos = x.node.raft.rngPos) ∨
        (n'.raft.electionElapsed = 0 ∧
          ∃ k, x.node.raft.rngPos ≤ k ∧ n'.raft.rngPos = k + 1 ∧ n'.raft.randomizedElectionTimeout = drawn env x.node.raft.id x.node.raft.electionTimeout k)) := by
  have inv : DrawInv env x.node.raft := by
    refine hx.inv (fun n => DrawInv env n.raft) ?_ ?_ ?_
    · intro c st rng n h
      exact RawNode.new_draw h
    · intro c rng peers n0 n _ h hw
      refine RawNode.bootstrap_inv (fun n => DrawInv env n.raft) h (fun l k es _ => ?_) fun cc a b h hw => Call.drawInv h hw
      exact (Turn.becomeFollower (env := env) (im := {}) (r := n0.raft) 1).drawInv hw
    · intro x y h hw
      cases h with
      | call c _ hs _ h => exact Call.drawInv h hw
      | ready ccs h =>
        exact RawNode.handleReady_inv (fun n => DrawInv env n.raft) (fun c a b _ _ _ _ _ h hw => Call.drawInv h hw) (fun a st hw => hw) h hw
      | compact => exact hw
      | createSnapshot => exact hw
  obtain ⟨i1, i2⟩ := inv
  refine ⟨⟨x.node.raft.rngPos - 1, by omega, i2⟩, fun c n' h => ?_⟩
  obtain ⟨im, _, t⟩ := Call.turn h
  refine ⟨t.timeout, ?_⟩
  have p : x.node.raft.rngPos ≤ n'.raft.rngPos := t.pos
  rcases Nat.lt_or_ge x.node.raft.rngPos n'.raft.rngPos with hlt | hge
  · refine Or.inr ⟨?_, n'.raft.rngPos - 1, by omega, by omega, ?_⟩
    · rcases t.clock with k | ⟨k, _⟩
      · exact k
      · have : n'.raft.rngPos = x.node.raft.rngPos := k
        omega
    · have := t.draw hlt
      rw [show n'.raft.id = x.node.raft.id from t.id, show n'.raft.electionTimeout = x.node.raft.electionTimeout from t.timeout] at this
      exact this
  · have e : n'.raft.rngPos = x.node.raft.rngPos := by omega
    obtain ⟨k1, k2, k3⟩ := t.same e
    exact Or.inl ⟨k1, k3, k2, e⟩

namespace Demo

/-- Elected, node 1 reports itself; node 2, handed its heartbeat, reports node 1; campaigning, it reports nobody. -/
example : (node 1 elect).raft.state = .leader ∧ (node 1 elect).raft.lead = 1 ∧
    (node 2 [.step { type := .heartbeat, src := 1, «to» := 2, term := 1 }]).raft.lead = 1 ∧
    (node 2 [.step { type := .heartbeat, src := 1, «to» := 2, term := 1 }]).raft.term = 1 ∧
    (node 2 [.step { type := .heartbeat, src := 1, «to» := 2, term := 1 }, .campaign]).raft.state = .candidate ∧
    (node 2 [.step { type := .heartbeat, src := 1, «to» := 2, term := 1 }, .campaign]).raft.lead = 0 := by decide

/-- A random source that is not constant. -/
def env2 : Env := { env with rand := fun _ k => 7 * k + 3 }

/-- The node after the calls `cs`, in `env2`. -/
def node2 (cs : List Call) : RawNode :=
  match (do let n ← RawNode.new env2 (cfg 1) store 0; cs.foldlM (fun n c => c.run env2 n) n : Res RawNode) with
  | .ok n => n
  | _ => default

/-- Draws 0, 1, 2, 3: on start, on campaigning, on winning, on hearing of a later term; a tick draws nothing. -/
example : (node2 []).raft.randomizedElectionTimeout = 10 + 3 ∧ (node2 [.campaign]).raft.randomizedElectionTimeout = 10 + 0 ∧
    (node2 elect).raft.randomizedElectionTimeout = 10 + 7 ∧ (node2 elect).raft.rngPos = 3 ∧
    (node2 (elect ++ [.step { type := .heartbeat, src := 3, «to» := 1, term := 5 }])).raft.randomizedElectionTimeout = 10 + 4 ∧
    (node2 [.tick]).raft.randomizedElectionTimeout = 10 + 3 ∧ (node2 [.tick]).raft.electionElapsed = 1 := by decide

end Demo

end Craft
