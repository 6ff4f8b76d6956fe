import Verif.Node.Transfer
import Verif.Spec.Transfer
import Verif.Props.NodePropose
import Verif.Props.NodeTimers

/-! # C70: leadership transfer -/

namespace Craft

/-- A pending transfer is a leader's, and candidates and leaders voted for themselves. -/
structure WaitInv (n : RawNode) : Prop where
  lead : n.raft.leadTransferee ≠ 0 → n.raft.state = .leader
  self : n.raft.state = .candidate ∨ n.raft.state = .leader → n.raft.vote = n.raft.id
  id : n.raft.id ≠ 0

def Core.SelfVote (c : Core) : Prop := c.id ≠ 0 ∧ (c.state = .candidate ∨ c.state = .leader → c.vote = c.id)

theorem NPath.selfVote {env : Env} {im : Message} {c c' : Core} {ms : List Message} (h : NPath env im c ms c') (hc : c.SelfVote) : c'.SelfVote := by
  induction h with
  | nil => exact hc
  | @cons c c' c'' ms ms' h h' ih =>
    refine ih ?_
    obtain ⟨h0, hc⟩ := hc
    cases h with
    | core h =>
      cases h with
      | follower => exact ⟨h0, fun h => by rcases h with h | h <;> cases h⟩
      | candidate => exact ⟨h0, fun _ => rfl⟩
      | preCandidate => exact ⟨h0, fun h => by rcases h with h | h <;> cases h⟩
      | leader P hs => exact ⟨h0, fun _ => hc (Or.inl hs)⟩
      | grant _ _ _ hv =>
        refine ⟨h0, fun h => ?_⟩
        have hv' := hc h
        rcases hv with hv | hv
        · exact hv.symm.trans hv'
        · exact absurd (hv'.symm.trans hv) h0
      | _ => exact ⟨h0, hc⟩
    | _ => exact ⟨h0, hc⟩

theorem Call.selfVote {env : Env} {c : Call} {n n' : RawNode} (hs : c.Stamped) (h : c.run env n = .ok n') (hc : n.raft.core.SelfVote) :
    n'.raft.core.SelfVote := by
  obtain ⟨_, cfg, P, _, ms, _, hp⟩ := Call.run_path hs h
  exact hp.selfVote hc

/-- What a call does to the wait for a transfer, and whom it tells to campaign. -/
structure Call.Waits (c : Call) (n n' : RawNode) : Prop where
  told : ∃ new, n'.raft.msgs = (if c = .getReady then [] else n.raft.msgs) ++ new ∧ ∀ m ∈ new, m.type = .timeoutNow →
    n'.raft.state = .leader ∧ m.to = n'.raft.leadTransferee ∧ ∃ p, n'.raft.pr m.to = some p ∧ p.mtch = n'.raft.log.lastIndex
  wait : WaitInv n → n'.raft.leadTransferee = 0 ∨
    (c.Asks n'.raft.leadTransferee ∧ n'.raft.leadTransferee ≠ n.raft.leadTransferee ∧ n.raft.state = .leader ∧ n'.raft.state = .leader ∧
      n'.raft.term = n.raft.term ∧ n'.raft.electionElapsed = 0) ∨
    (n'.raft.leadTransferee = n.raft.leadTransferee ∧ n'.raft.state = .leader ∧ n'.raft.term = n.raft.term ∧
      (c.OwnVote n.raft.vote ∨
        (n'.raft.electionElapsed = n.raft.electionElapsed + (if c = .tick ∨ c = .tickQuiesced then 1 else 0) ∧
          (c = .tick → n'.raft.electionElapsed < n'.raft.electionTimeout))))

theorem Call.waits {env : Env} {c : Call} {n n' : RawNode} (h : c.run env n = .ok n') : c.Waits n n' := by
  -- a call that hands a message to `Raft::Step`
  have key : ∀ {im : Message} {e : Option Err}, c ≠ .getReady → c ≠ .tick → c ≠ .tickQuiesced → (im.type = .transferLeader → c.Asks im.src) →
      (im.type = .vote → c.OwnVote im.src) → n.raft.step env im = .ok (n'.raft, e) → c.Waits n n' := by
    intro im e h1 h2 h3 h4 h5 h
    obtain ⟨⟨ms, k1, k2⟩, k3⟩ := Xfer.step h
    refine ⟨⟨ms, by rw [if_neg h1]; exact k1, k2⟩, fun hw => ?_⟩
    rcases k3 hw.lead (fun h => by rw [hw.self (Or.inr h)]; exact hw.id) with k | ⟨k1, k2, k3⟩ | ⟨k1, k2, k3, k4⟩
    · exact Or.inl k
    · exact Or.inr (Or.inl ⟨k2 ▸ h4 k1, k3⟩)
    · refine Or.inr (Or.inr ⟨k1, k2, k3, ?_⟩)
      rcases k4 with k | ⟨k4, k5⟩
      · exact Or.inr ⟨by rw [if_neg (fun h => h.elim h2 h3)]; exact k, fun h => absurd h h2⟩
      · exact Or.inl (k5 ▸ h5 k4)
  -- a call that does nothing to leadership
  have quiet : c ≠ .tick → c ≠ .tickQuiesced → Still n.raft n'.raft → c ≠ .getReady → c.Waits n n' := by
    intro h2 h3 s h1
    obtain ⟨ms, k1, k2⟩ := s.2
    refine ⟨⟨ms, by rw [if_neg h1]; exact k1, fun m hm ht => absurd ht (k2 m hm)⟩, fun hw => ?_⟩
    by_cases hl : n.raft.leadTransferee = 0
    · exact Or.inl (s.transferee.trans hl)
    · exact Or.inr (Or.inr ⟨s.transferee, s.state.trans (hw.lead hl), s.term, Or.inr ⟨by
        rw [if_neg (fun h => h.elim h2 h3)]; exact s.elapsed, fun h => absurd h h2⟩⟩)
  cases c with
  | step m =>
    obtain ⟨⟨n1, e⟩, h1, h⟩ := Res.bind_eq_ok.1 h
    cases h
    unfold RawNode.step at h1
    split at h1
    · cases h1; exact quiet nofun nofun .refl nofun
    split at h1
    · exact key nofun nofun nofun (fun h => ⟨h, rfl⟩) (fun h => ⟨h, rfl⟩) (onRaft_ok h1).1
    · cases h1; exact quiet nofun nofun .refl nofun
  | tick =>
    obtain ⟨r, h1, h⟩ := Res.bind_eq_ok.1 h
    cases h
    obtain ⟨⟨ms, k1, k2⟩, k3⟩ := Xfer.tick h1
    refine ⟨⟨ms, k1, fun m hm ht => absurd ht (k2 m hm)⟩, fun hw => ?_⟩
    rcases k3 hw.lead with k | ⟨k3, k4, k5, k6, k7⟩
    · exact Or.inl k
    · exact Or.inr (Or.inr ⟨k3, k4, k5, Or.inr ⟨k6, fun _ => k7⟩⟩)
  | tickQuiesced =>
    cases h
    refine ⟨⟨[], (List.append_nil _).symm, nofun⟩, fun hw => ?_⟩
    by_cases hl : n.raft.leadTransferee = 0
    · exact Or.inl hl
    · exact Or.inr (Or.inr ⟨rfl, hw.lead hl, rfl, Or.inr ⟨rfl, nofun⟩⟩)
  | campaign =>
    obtain ⟨⟨n1, e⟩, h1, h⟩ := Res.bind_eq_ok.1 h
    cases h
    exact key (im := Call.msg env n (.campaign)) nofun nofun nofun nofun nofun (onRaft_ok h1).1
  | propose d =>
    obtain ⟨⟨n1, e⟩, h1, h⟩ := Res.bind_eq_ok.1 h
    cases h
    exact key (im := Call.msg env n (.propose d)) nofun nofun nofun nofun nofun (onRaft_ok h1).1
  | proposeConfChange cc =>
    obtain ⟨⟨n1, e⟩, h1, h⟩ := Res.bind_eq_ok.1 h
    cases h
    exact key nofun nofun nofun (im := Call.msg env n (.proposeConfChange cc)) nofun nofun
      (onRaft_ok (f := fun r => r.step env (Call.msg env n (.proposeConfChange cc))) h1).1
  | applyConfChange cc =>
    obtain ⟨⟨n1, cs⟩, h1, h⟩ := Res.bind_eq_ok.1 h
    cases h
    unfold RawNode.applyConfChange at h1
    obtain ⟨⟨r, cs'⟩, h2, h1⟩ := Res.bind_eq_ok.1 h1
    cases h1
    unfold Raft.applyConfChange at h2
    dsimp only at h2
    split at h2
    · cases h2
    obtain ⟨⟨ms, k1, k2⟩, k3⟩ := Xfer.switchToConfig h2
    refine ⟨⟨ms, k1, fun m hm ht => absurd ht (k2 m hm)⟩, fun hw => ?_⟩
    rcases k3 with k3 | ⟨k3, k4, k5, k6⟩
    · exact Or.inl k3
    by_cases hl : n.raft.leadTransferee = 0
    · exact Or.inl (k3.trans hl)
    · exact Or.inr (Or.inr ⟨k3, k4.trans (hw.lead hl), k5, Or.inr ⟨k6, nofun⟩⟩)
  | getReady =>
    obtain ⟨⟨n1, cs⟩, h1, h⟩ := Res.bind_eq_ok.1 h
    cases h
    obtain ⟨_, h2⟩ := getReady_ok h1
    subst h2
    refine ⟨⟨[], rfl, nofun⟩, fun hw => ?_⟩
    by_cases hl : n.raft.leadTransferee = 0
    · exact Or.inl hl
    · exact Or.inr (Or.inr ⟨rfl, hw.lead hl, rfl, Or.inr ⟨rfl, nofun⟩⟩)
  | advance =>
    simp only [Call.run, RawNode.advance] at h
    split at h
    · cases h
    · obtain ⟨r, h1, h⟩ := Res.bind_eq_ok.1 h
      cases h
      exact quiet nofun nofun (Still.advance h1) nofun
  | reportUnreachable id =>
    obtain ⟨⟨n1, e⟩, h1, h⟩ := Res.bind_eq_ok.1 h
    cases h
    exact key (im := Call.msg env n (.reportUnreachable id)) nofun nofun nofun nofun nofun (onRaft_ok h1).1
  | reportSnapshot id f =>
    obtain ⟨⟨n1, e⟩, h1, h⟩ := Res.bind_eq_ok.1 h
    cases h
    exact key (im := Call.msg env n (.reportSnapshot id f)) nofun nofun nofun nofun nofun (onRaft_ok h1).1
  | transferLeader id =>
    obtain ⟨⟨n1, e⟩, h1, h⟩ := Res.bind_eq_ok.1 h
    cases h
    exact key (im := Call.msg env n (.transferLeader id)) nofun nofun nofun (fun _ => rfl) nofun (onRaft_ok h1).1
  | readIndex ctx =>
    obtain ⟨⟨n1, e⟩, h1, h⟩ := Res.bind_eq_ok.1 h
    cases h
    exact key (im := Call.msg env n (.readIndex ctx)) nofun nofun nofun nofun nofun (onRaft_ok h1).1

theorem Call.waitInv {env : Env} {c : Call} {n n' : RawNode} (hs : c.Stamped) (hw : WaitInv n) (h : c.run env n = .ok n') : WaitInv n' := by
  obtain ⟨h1, h2⟩ := Call.selfVote hs h ⟨hw.id, hw.self⟩
  refine ⟨fun h0 => ?_, h2, h1⟩
  rcases (Call.waits h).wait hw with k | ⟨_, _, _, k, _⟩ | ⟨_, k, _⟩
  · exact absurd k h0
  · exact k
  · exact k

/-- Any property of a node that all calls and changes of the storage keep is kept by the handling of a Ready. -/
theorem RawNode.handleReady_inv {env : Env} {n n' : RawNode} {ccs : List ConfChangeI} {rd : Ready} (P : RawNode → Prop)
    (hc : ∀ c a b, c.Stamped → c ≠ .tick → c ≠ .tickQuiesced → (∀ t, ¬ c.Asks t) → (∀ i, ¬ c.OwnVote i) → Call.run env a c = .ok b → P a → P b)
    (hst : ∀ a st, P a → P (a.withStorage st)) (h : n.handleReady env ccs = .ok (n', rd)) (hp : P n) : P n' := by
  unfold RawNode.handleReady RawNode.takeReady at h
  obtain ⟨⟨n1, rd1⟩, h1, h⟩ := Res.bind_eq_ok.1 h
  obtain ⟨⟨n0, rd0⟩, h0, h1⟩ := Res.bind_eq_ok.1 h1
  obtain ⟨st, _, h1⟩ := Res.bind_eq_ok.1 h1
  cases h1
  obtain ⟨n2, h2, h⟩ := Res.bind_eq_ok.1 h
  obtain ⟨n3, h3, h⟩ := Res.bind_eq_ok.1 h
  cases h
  have p0 : P n0 := hc .getReady n n0 trivial nofun nofun (fun _ => _root_.id) (fun _ => _root_.id) (Res.bind_eq_ok.2 ⟨_, h0, rfl⟩) hp
  have p1 := hst n0 st p0
  have p2 : ∀ (ccs : List ConfChangeI) (a : RawNode), a.applyConfChanges env ccs = .ok n2 → P a → P n2 := by
    intro ccs
    induction ccs with
    | nil => intro a h p; cases h; exact p
    | cons cc ccs ih =>
      intro a h p
      unfold RawNode.applyConfChanges at h
      obtain ⟨⟨a1, cs⟩, h3, h⟩ := Res.bind_eq_ok.1 h
      exact ih a1 h (hc (.applyConfChange cc) a a1 trivial nofun nofun (fun _ => _root_.id) (fun _ => _root_.id) (Res.bind_eq_ok.2 ⟨_, h3, rfl⟩) p)
  replace p2 := p2 _ _ h2 p1
  exact hc .advance n2 _ trivial nofun nofun (fun _ => _root_.id) (fun _ => _root_.id) h3 p2

theorem NodeReach.waitInv {env : Env} {x : NodeHist} (h : NodeReach env x) : WaitInv x.node := by
  refine h.inv WaitInv ?_ ?_ ?_
  · intro c st rng n h
    have f := (RawNode.new_ok h).1
    refine ⟨fun h0 => absurd f.transferee h0, fun h => ?_, by rw [f.id]; exact f.id_ne⟩
    rw [f.state] at h
    rcases h with h | h <;> cases h
  · intro c rng peers n0 n _ h hw
    refine RawNode.bootstrap_inv WaitInv h (fun l k es _ => ⟨fun h0 => absurd rfl h0, ?_, ?_⟩) fun cc a b h hw => Call.waitInv (c := .applyConfChange cc) trivial hw h
    · rintro (h | h) <;> cases h
    · exact fun h => hw.id ((congrArg Consts.id (n0.founder_keep env l k).1 :).symm.trans h)
  · intro x y h hw
    cases h with
    | call c _ hs _ h => exact Call.waitInv hs hw h
    | ready ccs h =>
      exact RawNode.handleReady_inv WaitInv (fun c a b hs _ _ _ _ h hw => Call.waitInv hs hw h) (fun a st hw => ⟨hw.lead, hw.self, hw.id⟩) h hw
    | compact => exact ⟨hw.lead, hw.self, hw.id⟩
    | createSnapshot => exact ⟨hw.lead, hw.self, hw.id⟩

/-- Whatever the call and whatever the state: every `MsgTimeoutNow` it puts in the outbox goes to the target of the pending transfer, the
node is leader, and the target has acknowledged the leader's whole log. -/
theorem C70_timeout_now {env : Env} {c : Call} {n n' : RawNode} (h : c.run env n = .ok n') :
    ∃ new, n'.raft.msgs = (if c = .getReady then [] else n.raft.msgs) ++ new ∧ ∀ m ∈ new, m.type = .timeoutNow →
      n'.raft.state = .leader ∧ m.to = n'.raft.leadTransferee ∧ ∃ p, n'.raft.pr m.to = some p ∧ p.mtch = n'.raft.log.lastIndex :=
  (Call.waits h).told

/-- In every history: only a leader waits for a transfer, and the wait starts with a request for it. -/
theorem C70_only_on_request {env : Env} {x : NodeHist} (hx : NodeReach env x) :
    (x.node.raft.leadTransferee ≠ 0 → x.node.raft.state = .leader) ∧
    ∀ c n', Call.run env x.node c = .ok n' → n'.raft.leadTransferee ≠ 0 →
      n'.raft.state = .leader ∧ n'.raft.term = x.node.raft.term ∧
        (n'.raft.leadTransferee = x.node.raft.leadTransferee ∨ c.Asks n'.raft.leadTransferee) := by
  refine ⟨hx.waitInv.lead, fun c n' h h0 => ?_⟩
  rcases (Call.waits h).wait hx.waitInv with k | ⟨k1, _, _, k2, k3, _⟩ | ⟨k1, k2, k3, _⟩
  · exact absurd k h0
  · exact ⟨k2, k3, Or.inr k1⟩
  · exact ⟨k2, k3, Or.inl k1⟩

theorem WaitInv.noAsk {env : Env} {c : Call} {n a b : RawNode} {k : Nat} (hw : WaitInv a) (hs : c.Stamped) (hk : ∀ t, ¬ c.Asks t)
    (hv : ¬ c.OwnVote a.raft.id) (h : c.run env a = .ok b) (ht : a.raft.electionTimeout = n.raft.electionTimeout)
    (ih : a.raft.leadTransferee = 0 ∨ (a.raft.leadTransferee = n.raft.leadTransferee ∧ a.raft.term = n.raft.term ∧
      n.raft.electionElapsed + k ≤ a.raft.electionElapsed ∧ (k ≠ 0 → n.raft.electionElapsed + k < n.raft.electionTimeout))) :
    WaitInv b ∧ b.raft.electionTimeout = n.raft.electionTimeout ∧
    (b.raft.leadTransferee = 0 ∨ (b.raft.leadTransferee = n.raft.leadTransferee ∧ b.raft.term = n.raft.term ∧
      n.raft.electionElapsed + (if c = .tick then k + 1 else k) ≤ b.raft.electionElapsed ∧
      ((if c = .tick then k + 1 else k) ≠ 0 → n.raft.electionElapsed + (if c = .tick then k + 1 else k) < n.raft.electionTimeout))) := by
  have het : b.raft.electionTimeout = a.raft.electionTimeout := congrArg Consts.electionTimeout (Call.run_path hs h).1.1
  refine ⟨Call.waitInv hs hw h, het.trans ht, ?_⟩
  rcases (Call.waits h).wait hw with w | ⟨w, _⟩ | ⟨w1, w2, w3, w4⟩
  · exact Or.inl w
  · exact absurd w (hk _)
  · rcases ih with ih | ⟨i1, i2, i3, i4⟩
    · exact Or.inl (w1.trans ih)
    by_cases h0 : a.raft.leadTransferee = 0
    · exact Or.inl (w1.trans h0)
    refine Or.inr ⟨w1.trans i1, w3.trans i2, ?_⟩
    have hl := hw.lead h0
    rcases w4 with w4 | ⟨w4, w5⟩
    · rw [hw.self (Or.inr hl)] at w4
      exact absurd w4 hv
    by_cases hc : c = .tick
    · rw [if_pos (Or.inl hc)] at w4
      have w5 := w5 hc
      rw [if_pos hc]
      omega
    · rw [if_neg hc]
      split at w4 <;> exact ⟨by omega, i4⟩

theorem NoAsk.inv {env : Env} {n n' : RawNode} {k : Nat} (h : NoAsk env n k n') (hw : WaitInv n) :
    WaitInv n' ∧ n'.raft.electionTimeout = n.raft.electionTimeout ∧
    (n'.raft.leadTransferee = 0 ∨ (n'.raft.leadTransferee = n.raft.leadTransferee ∧ n'.raft.term = n.raft.term ∧
      n.raft.electionElapsed + k ≤ n'.raft.electionElapsed ∧ (k ≠ 0 → n.raft.electionElapsed + k < n.raft.electionTimeout))) := by
  induction h with
  | refl => exact ⟨hw, rfl, Or.inr ⟨rfl, rfl, Nat.le_refl _, fun h => absurd rfl h⟩⟩
  | @call c k a b _ hp hs hk hv h ih =>
    exact ih.1.noAsk hs hk hv h ih.2.1 ih.2.2
  | @ready ccs k a b rd _ h ih =>
    refine RawNode.handleReady_inv (fun b => WaitInv b ∧ b.raft.electionTimeout = n.raft.electionTimeout ∧
      (b.raft.leadTransferee = 0 ∨ (b.raft.leadTransferee = n.raft.leadTransferee ∧ b.raft.term = n.raft.term ∧
      n.raft.electionElapsed + k ≤ b.raft.electionElapsed ∧ (k ≠ 0 → n.raft.electionElapsed + k < n.raft.electionTimeout)))) ?_ ?_ h ih
    · intro c a b hs ht _ hk hv h ih
      have := ih.1.noAsk (n := n) (k := k) hs hk (hv _) h ih.2.1 ih.2.2
      rwa [if_neg ht] at this
    · intro a st ih
      exact ⟨⟨ih.1.lead, ih.1.self, ih.1.id⟩, ih.2⟩
  | store st _ ih => exact ⟨⟨ih.1.lead, ih.1.self, ih.1.id⟩, ih.2⟩

theorem NodeReach.timeout_pos {env : Env} {x : NodeHist} (hx : NodeReach env x) : 0 < x.node.raft.electionTimeout :=
  NodeReach.inv_keep (fun n => 0 < n.raft.electionTimeout)
    (fun c st rng n h => by
      have := (RawNode.new_ok h).1.electionTimeout
      have := (RawNode.new_ok h).1.heartbeatTimeout
      omega)
    (fun a b hk h => by
      have he : b.raft.electionTimeout = a.raft.electionTimeout := congrArg Consts.electionTimeout hk.1
      omega) hx

/-- In every history, whatever is called meanwhile: once `election_tick` ticks have passed without a new request, no transfer is pending
any more (so that, if the node is still leader, it accepts proposals again). -/
theorem C70_gives_up {env : Env} {x : NodeHist} (hx : NodeReach env x) {k : Nat} {n' : RawNode} (h : NoAsk env x.node k n')
    (hk : x.node.raft.electionTimeout ≤ k) : n'.raft.leadTransferee = 0 := by
  obtain ⟨_, h2, h3 | ⟨_, _, h4, h5⟩⟩ := h.inv hx.waitInv
  · exact h3
  · by_cases h0 : k = 0
    · have := hx.timeout_pos
      omega
    · have := h5 h0
      omega

end Craft
