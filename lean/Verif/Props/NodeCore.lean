import Verif.Node.Facts
import Verif.Demo

/-! # C28, C30, C41: what a node never does, whatever it is called with -/

namespace Craft
open Spec

/-! ## C28: the term never decreases -/

theorem C28_term_never_decreases {env : Env} {n n' : RawNode} (c : Call) (hs : c.Stamped) (h : c.run env n = .ok n') :
    n.raft.term ≤ n'.raft.term := by
  obtain ⟨_, cfg, P, _, ms, _, hp⟩ := c.run_path hs h
  exact hp.term_le

/-- A history of calls. -/
theorem C28_calls {env : Env} {cs : List Call} {n n' : RawNode} (hs : ∀ c ∈ cs, c.Stamped)
    (h : cs.foldlM (fun n c => c.run env n) n = .ok n') : n.raft.term ≤ n'.raft.term := by
  induction cs generalizing n with
  | nil => cases h; exact Nat.le_refl _
  | cons c cs ih =>
    rw [List.foldlM_cons] at h
    obtain ⟨n1, h1, h⟩ := Res.bind_eq_ok.1 h
    exact Nat.le_trans (C28_term_never_decreases c (hs c (by simp)) h1) (ih (fun c hc => hs c (by simp [hc])) h)

/-- Two elections, the second for term 2 after losing contact: the term goes 0, 1, 2. -/
example : Call.Stamped .campaign ∧ (Demo.node 1 []).raft.term = 0 ∧ (Demo.node 1 [.campaign]).raft.term = 1 ∧
    (Demo.node 1 [.campaign, .campaign]).raft.term = 2 :=
  ⟨trivial, by decide⟩

/-- The restriction to stamped messages is needed: `Step` of a `MsgApp` without a term (which no node sends) on a candidate
calls `BecomeFollower(m->term(), ...)` with 0 (`/repo/src/raft.cc` 1384) and puts the term back to 0. -/
example : (Demo.node 1 [.campaign]).raft.term = 1 ∧
    (Demo.node 1 [.campaign, .step { type := .app, src := 2, to := 1 }]).raft.term = 0 := by decide

/-! ## C30: the commit index never decreases -/

theorem C30_commit_never_decreases {env : Env} {n n' : RawNode} (c : Call) (hs : c.Stamped) (h : c.run env n = .ok n') :
    n.raft.hardState.commit ≤ n'.raft.hardState.commit := by
  obtain ⟨_, cfg, P, _, ms, _, hp⟩ := c.run_path hs h
  exact hp.commit_le

/-- A leader that gets an acknowledgement commits its first entry. -/
example : (Demo.node 1 Demo.elect).raft.hardState.commit = 0 ∧
    (Demo.node 1 (Demo.elect ++ [.step { type := .appResp, src := 3, to := 1, term := 1, index := 1 }])).raft.hardState.commit = 1 := by
  decide

/-! ## C41: outgoing messages -/

/-- The sender recorded in the message given to a call. -/
def Call.origin : Call → Option Nat
  | .step m => some m.src
  | .transferLeader id => some id
  | _ => none

/-- A message a call may put in the outbox of the node `n'` it leaves: sender and term. -/
structure OutOk (c : Call) (id term : Nat) (m : Message) : Prop where
  src : m.src = id ∨ ((m.type = .prop ∨ m.type = .readIndex ∨ m.type = .transferLeader) ∧ c.origin = some m.src)
  term : match m.type with
    | .prop | .readIndex => m.term = 0
    | .preVote => m.term = term + 1
    | .preVoteResp => (m.reject = true ∧ m.term = term) ∨
        (m.reject = false ∧ ∃ req, c = .step req ∧ req.type = .preVote ∧ m.term = req.term)
    | _ => m.term = term

/-- The same relative to the handled message. -/
structure SentOk (im : Message) (id term : Nat) (m : Message) : Prop where
  src : m.src = id ∨ ((m.type = .prop ∨ m.type = .readIndex ∨ m.type = .transferLeader) ∧ m.type = im.type ∧ m.src = im.src ∧ im.src ≠ 0)
  term : match m.type with
    | .prop | .readIndex => m.term = 0
    | .preVote => m.term = term + 1
    | .preVoteResp => (m.reject = true ∧ m.term = term) ∨ (m.reject = false ∧ im.type = .preVote ∧ m.term = im.term)
    | _ => m.term = term

theorem Emit.sentOk {env : Env} {im : Message} {c : Core} {m : Message} (h : Emit env im c m) : SentOk im c.id c.term m := by
  unfold Emit at h
  cases ht : m.type <;> simp only [ht] at h
  case prop =>
    obtain ⟨h1, h2, h3, h4, h5⟩ := h
    exact ⟨h1.elim Or.inl fun h => Or.inr ⟨Or.inl ht, by rw [ht, h4], h.1, h.2⟩, by simp only [ht]; exact h2⟩
  case readIndex =>
    obtain ⟨h1, h2, h3, h4, h5⟩ := h
    exact ⟨h1.elim Or.inl fun h => Or.inr ⟨Or.inr (Or.inl ht), by rw [ht, h4], h.1, h.2⟩, by simp only [ht]; exact h2⟩
  case transferLeader =>
    obtain ⟨h1, h2, h3, h4⟩ := h
    exact ⟨h1.elim Or.inl fun h => Or.inr ⟨Or.inr (Or.inr ht), by rw [ht, h4], h.1, h.2⟩, by simp only [ht]; exact h2⟩
  case preVoteResp =>
    obtain ⟨h1, h2, h3, h4⟩ := h
    refine ⟨Or.inl h1, ?_⟩
    simp only [ht]
    rcases h4 with h4 | h4
    · exact Or.inl h4
    · exact Or.inr ⟨h4.1, h2, h4.2.1⟩
  all_goals first
    | exact ⟨Or.inl h.1, by simp only [ht]; exact h.2.1⟩

theorem NStep.sentOk {env : Env} {im : Message} {c c' : Core} {ms : List Message} (h : NStep env im c ms c') :
    ∀ m ∈ ms, SentOk im c.id c.term m := by
  intro m hm
  cases h with
  | core h =>
    cases h with
    | emit h => rw [List.mem_singleton] at hm; subst hm; exact h.sentOk
    | grant h1 h2 h3 h4 h5 =>
      rw [List.mem_singleton] at hm; subst hm
      refine ⟨Or.inl rfl, ?_⟩
      show im.term = c.term
      rcases h3 with h3 | h3 | ⟨_, h3 | ⟨h3, _⟩⟩
      · exact absurd h3 h2
      · exact h3
      · rw [h1] at h3; cases h3
      · rw [h1] at h3; cases h3
    | recvApp => rw [List.mem_singleton] at hm; subst hm; exact ⟨Or.inl rfl, rfl⟩
    | recvHeartbeat => rw [List.mem_singleton] at hm; subst hm; exact ⟨Or.inl rfl, rfl⟩
    | _ => cases hm
  | _ => cases hm

theorem NPath.sentOk {env : Env} {im : Message} {c c' : Core} {ms : List Message} (h : NPath env im c ms c')
    (ht : c'.term = c.term) : ∀ m ∈ ms, SentOk im c.id c.term m := by
  induction h with
  | nil => intro m hm; cases hm
  | cons h h' ih =>
    rename_i a b d m1 m2
    have h1 := h.term_le
    have h2 := h'.term_le
    have e : b.term = a.term := by omega
    intro m hm
    rcases List.mem_append.1 hm with hm | hm
    · exact h.sentOk m hm
    · have := ih (by omega) m hm
      rwa [e, h.id_eq] at this

theorem Late.sentOk {env : Env} {im : Message} {r r' : Raft} (h : Late env im r r') :
    ∃ ms, r'.msgs = r.msgs ++ ms ∧ ∀ m ∈ ms, SentOk im r'.id r'.term m := by
  obtain ⟨r1, h1, h2, h3, h4, ms, h5, h6⟩ := h
  refine ⟨ms, by rw [h5, h1], ?_⟩
  have := h6.sentOk h3.symm
  have e : r'.id = r1.id := congrArg Consts.id h4.1
  rw [e, ← h3]
  exact this

/-- Every message a call adds to the outbox names this node as its sender (or, when a proposal, a read request or a
transfer request is passed on, its originator) and carries the node's current term; except that proposals and read
requests carry none, a pre-vote request asks for the next term and a granted pre-vote answers with the requested one. -/
theorem C41_outgoing_messages {env : Env} {n n' : RawNode} (c : Call) (hs : c.Stamped) (h : c.run env n = .ok n') :
    ∃ new, n'.raft.msgs = (if c = .getReady then [] else n.raft.msgs) ++ new ∧ ∀ m ∈ new, OutOk c n'.raft.id n'.raft.term m := by
  -- calls that hand a local or a remote message to `Raft::Step`
  have hl : ∀ {im : Message}, Late env im n.raft n'.raft → c ≠ .getReady →
      (∀ m, SentOk im n'.raft.id n'.raft.term m → OutOk c n'.raft.id n'.raft.term m) →
      ∃ new, n'.raft.msgs = (if c = .getReady then [] else n.raft.msgs) ++ new ∧ ∀ m ∈ new, OutOk c n'.raft.id n'.raft.term m := by
    intro im hl hne hk
    obtain ⟨ms, h1, h2⟩ := hl.sentOk
    exact ⟨ms, by rw [if_neg hne]; exact h1, fun m hm => hk m (h2 m hm)⟩
  have hid : n'.raft.id = n.raft.id := congrArg Consts.id (c.run_path hs h).1.1
  have noim : ∀ {im : Message} {m : Message}, (im.type ≠ .prop ∨ im.src = n.raft.id ∨ im.src = 0) → (im.type ≠ .readIndex ∨ im.src = 0) →
      im.type ≠ .transferLeader → im.type ≠ .preVote →
      SentOk im n'.raft.id n'.raft.term m → OutOk c n'.raft.id n'.raft.term m := by
    intro im m h1 h2 h3 h4 h
    refine ⟨?_, ?_⟩
    · rcases h.src with hh | ⟨_, ht, hsrc, hne⟩
      · exact Or.inl hh
      · rename_i hm
        rcases hm with hm | hm | hm
        · rcases h1 with h1 | h1 | h1
          · exact absurd (ht.symm.trans hm) h1
          · exact Or.inl (by rw [hsrc, h1, hid])
          · exact absurd h1 hne
        · rcases h2 with h2 | h2
          · exact absurd (ht.symm.trans hm) h2
          · exact absurd h2 hne
        · exact absurd (ht.symm.trans hm) h3
    · have := h.term
      cases hmt : m.type <;> simp only [hmt] at this ⊢ <;> first | exact this | skip
      rcases this with this | ⟨_, this, _⟩
      · exact Or.inl this
      · exact absurd this h4
  have raftStep : ∀ {im : Message} {e : Option Err}, n.raft.step env im = .ok (n'.raft, e) → Stamped im → Late env im n.raft n'.raft :=
    fun h hs => Raft.step_late hs h
  have quiet : ∀ {x : RawNode}, x = n' → x.raft.msgs = n.raft.msgs → c ≠ .getReady →
      ∃ new, n'.raft.msgs = (if c = .getReady then [] else n.raft.msgs) ++ new ∧ ∀ m ∈ new, OutOk c n'.raft.id n'.raft.term m := by
    intro x hx hm hne
    subst hx
    exact ⟨[], by rw [if_neg hne, hm, List.append_nil], by intro m hm; cases hm⟩
  cases c with
  | step m =>
    obtain ⟨⟨n1, e⟩, h1, h⟩ := Res.bind_eq_ok.1 h
    simp only [Res.pure_eq, Res.ok.injEq] at h
    subst h
    unfold RawNode.step at h1
    split at h1
    · simp only [Res.ok.injEq, Prod.mk.injEq] at h1
      exact quiet h1.1 rfl (by intro h; cases h)
    split at h1
    · refine hl (raftStep (onRaft_ok h1).1 hs) (by intro h; cases h) ?_
      intro o ho
      refine ⟨ho.src.imp (fun h => h) fun hh => ⟨hh.1, by rw [hh.2.2.1]; rfl⟩, ?_⟩
      have := ho.term
      cases hmt : o.type <;> simp only [hmt] at this ⊢ <;> first | exact this | skip
      rcases this with this | ⟨h1, h2, h3⟩
      · exact Or.inl this
      · exact Or.inr ⟨h1, m, rfl, h2, h3⟩
    · simp only [Res.ok.injEq, Prod.mk.injEq] at h1
      exact quiet h1.1 rfl (by intro h; cases h)
  | tick =>
    obtain ⟨r, h1, h⟩ := Res.bind_eq_ok.1 h
    simp only [Res.pure_eq, Res.ok.injEq] at h
    subst h
    exact hl (Raft.tick_late h1) (by intro h; cases h) fun m => noim (by simp) (by simp) (by simp) (by simp)
  | tickQuiesced =>
    simp only [Call.run, Res.ok.injEq] at h
    exact quiet h rfl (by intro h; cases h)
  | campaign =>
    obtain ⟨⟨n1, e⟩, h1, h⟩ := Res.bind_eq_ok.1 h
    simp only [Res.pure_eq, Res.ok.injEq] at h
    subst h
    exact hl (raftStep (onRaft_ok h1).1 (by intro h; simp at h)) (by intro h; cases h) fun m => noim (by simp) (by simp) (by simp) (by simp)
  | propose d =>
    obtain ⟨⟨n1, e⟩, h1, h⟩ := Res.bind_eq_ok.1 h
    simp only [Res.pure_eq, Res.ok.injEq] at h
    subst h
    exact hl (raftStep (onRaft_ok h1).1 (by intro h; simp at h)) (by intro h; cases h) fun m => noim (by simp) (by simp) (by simp) (by simp)
  | proposeConfChange cc =>
    obtain ⟨⟨n1, e⟩, h1, h⟩ := Res.bind_eq_ok.1 h
    simp only [Res.pure_eq, Res.ok.injEq] at h
    subst h
    exact hl (raftStep (onRaft_ok (f := fun r => r.step env (Call.msg env n (.proposeConfChange cc))) h1).1 (by intro h; simp [Call.msg] at h))
      (by intro h; cases h) fun m => noim (by simp [Call.msg]) (by simp [Call.msg]) (by simp [Call.msg]) (by simp [Call.msg])
  | applyConfChange cc =>
    obtain ⟨⟨n1, cs⟩, h1, h⟩ := Res.bind_eq_ok.1 h
    simp only [Res.pure_eq, Res.ok.injEq] at h
    subst h
    unfold RawNode.applyConfChange at h1
    obtain ⟨⟨r, cs'⟩, h2, h1⟩ := Res.bind_eq_ok.1 h1
    simp only [Res.pure_eq, Res.ok.injEq, Prod.mk.injEq] at h1
    obtain ⟨rfl, rfl⟩ := h1
    obtain ⟨cfg, prs, lrn, hk⟩ := Raft.applyConfChange_sim (im := { type := .beat }) rfl h2
    refine hl (im := { type := .beat }) (.after (a := n.raft.withConf cfg prs lrn) rfl rfl (.of_nsim hk.nsim ?_)) (by intro h; cases h)
      fun m => noim (by simp) (by simp) (by simp) (by simp)
    obtain ⟨_, ms, _, hp⟩ := hk
    exact hp.npath.term_const (by simp [CampMsg]) (Nat.zero_le _)
  | getReady =>
    obtain ⟨⟨n1, cs⟩, h1, h⟩ := Res.bind_eq_ok.1 h
    simp only [Res.pure_eq, Res.ok.injEq] at h
    subst h
    obtain ⟨_, h2⟩ := getReady_ok h1
    subst h2
    exact ⟨[], rfl, by intro m hm; cases hm⟩
  | advance =>
    simp only [Call.run, RawNode.advance] at h
    split at h
    · cases h
    · obtain ⟨r, h1, h⟩ := Res.bind_eq_ok.1 h
      simp only [Res.pure_eq, Res.ok.injEq] at h
      subst h
      have hk := Raft.advance_nsim (env := env) (im := { type := .beat }) rfl h1
      refine hl (im := { type := .beat }) (.of_nsim hk ?_) (by intro h; cases h) fun m => noim (by simp) (by simp) (by simp) (by simp)
      obtain ⟨_, ms, _, hp⟩ := hk
      exact hp.term_const (by simp [CampMsg]) (Nat.zero_le _)
  | reportUnreachable id =>
    obtain ⟨⟨n1, e⟩, h1, h⟩ := Res.bind_eq_ok.1 h
    simp only [Res.pure_eq, Res.ok.injEq] at h
    subst h
    exact hl (raftStep (onRaft_ok h1).1 (by intro h; simp at h)) (by intro h; cases h) fun m => noim (by simp) (by simp) (by simp) (by simp)
  | reportSnapshot id f =>
    obtain ⟨⟨n1, e⟩, h1, h⟩ := Res.bind_eq_ok.1 h
    simp only [Res.pure_eq, Res.ok.injEq] at h
    subst h
    exact hl (raftStep (onRaft_ok h1).1 (by intro h; simp at h)) (by intro h; cases h) fun m => noim (by simp) (by simp) (by simp) (by simp)
  | transferLeader id =>
    obtain ⟨⟨n1, e⟩, h1, h⟩ := Res.bind_eq_ok.1 h
    simp only [Res.pure_eq, Res.ok.injEq] at h
    subst h
    refine hl (raftStep (onRaft_ok h1).1 (by intro h; simp at h)) (by intro h; cases h) ?_
    intro o ho
    refine ⟨ho.src.imp (fun h => h) fun hh => ⟨hh.1, by rw [hh.2.2.1]; rfl⟩, ?_⟩
    have := ho.term
    cases hmt : o.type <;> simp only [hmt] at this ⊢ <;> first | exact this | skip
    rcases this with this | ⟨h1, h2, h3⟩
    · exact Or.inl this
    · cases h2
  | readIndex ctx =>
    obtain ⟨⟨n1, e⟩, h1, h⟩ := Res.bind_eq_ok.1 h
    simp only [Res.pure_eq, Res.ok.injEq] at h
    subst h
    exact hl (raftStep (onRaft_ok h1).1 (by intro h; simp at h)) (by intro h; cases h) fun m => noim (by simp) (by simp) (by simp) (by simp)

/-- A follower forwards a proposal (term 0); a candidate's requests carry its term. -/
example :
    (Demo.node 2 [.step { type := .heartbeat, src := 1, to := 2, term := 1 }, .getReady, .propose [7]]).raft.msgs =
      [{ type := .prop, src := 2, to := 1, entries := [{ data := [7] }] }] ∧
    (Demo.node 1 [.campaign]).raft.msgs.map (fun m => (m.type, m.src, m.to, m.term)) = [(.vote, 1, 2, 1), (.vote, 1, 3, 1)] := by
  decide

end Craft
