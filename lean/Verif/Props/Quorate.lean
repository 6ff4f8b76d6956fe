import Verif.Node.Valid
import Verif.Props.Cut

/-! # C89: configurations are always valid; C90: a leader that lost its quorum steps down; C91: heartbeats -/

namespace Craft
open Spec

/-- **C89**. In every history of a node, with any calls, messages, snapshots, configuration changes and crashes, the configuration and the
progress it keeps (both are part of its status) are valid: exactly the members have a progress, learners are no voters, ... -/
theorem C89_configuration_valid {env : Env} {x : NodeHist} (h : NodeReach env x) : ConfInv x.node.raft.trk.config x.node.raft.trk.progress :=
  h.confInv

/-- The check of C36, for every node that can occur. -/
theorem C36_check_quorum_reachable {env : Env} {x : NodeHist} {n' : RawNode} (hx : NodeReach env x) (hl : x.node.raft.state = .leader)
    (hq : x.node.raft.checkQuorum = true) (ht : x.node.raft.electionTimeout ≤ x.node.raft.electionElapsed + 1) (h : x.node.tick env = .ok n') :
    n'.raft.term = x.node.raft.term ∧ (QuorumHeard x.node → n'.raft.state = .leader) ∧ (¬ QuorumHeard x.node → n'.raft.state = .follower) ∧
    ∀ v p, v ≠ x.node.raft.id → n'.raft.pr v = some p → p.recentActive = false :=
  C36_check_quorum hx.confInv hl hq ht h

namespace Deaf
variable {env : Env} {X : Prop} {j : Nat}

theorem advance {n n' : RawNode} (hj : j ≠ n.raft.id) (h : n.advance = .ok n') : Deaf X j n.raft n'.raft := by
  unfold RawNode.advance at h
  split at h
  · cases h
  obtain ⟨r3, h7, h8⟩ := Res.bind_eq_ok.1 h
  simp only [Res.pure_eq, Res.ok.injEq] at h8
  subst h8
  unfold Raft.advance at h7
  obtain ⟨ra, h5, h8⟩ := Res.bind_eq_ok.1 h7
  obtain ⟨la, h6, h4⟩ := Res.bind_eq_ok.1 h8
  simp only [Res.pure_eq, Res.ok.injEq] at h4
  subst h4
  refine .trans (b := ra) ?_ (.of rfl rfl rfl)
  rename_i rd _
  obtain ⟨u, hu⟩ := reduceUncommittedSize_eq n.raft rd.committedEntries
  rw [hu] at h5
  rcases Raft.advanceApplied_cases h5 with ⟨h0, rfl⟩ | ⟨h0, l, hl, rfl | ⟨g1, g2, g3, g4, rb, hb, rfl⟩⟩
  · exact .of rfl rfl rfl
  · exact .of rfl rfl rfl
  · exact .trans (.of rfl rfl rfl) ((appendEntry (by exact hj) hb).trans (.of rfl rfl rfl))

theorem getReady {n n' : RawNode} {rd : Ready} (h : n.getReady env = .ok (n', rd)) : Deaf X j n.raft n'.raft := by
  obtain ⟨_, rfl⟩ := getReady_ok h
  unfold RawNode.acceptReady
  dsimp only
  exact .of (by (repeat' split) <;> rfl) (by (repeat' split) <;> rfl) (by (repeat' split) <;> rfl)

end Deaf

/-- A call on a leader, other than a tick or a configuration change, from a peer's point of view. -/
theorem Call.deaf {env : Env} {X : Prop} {j : Nat} {c : Call} {a b : RawNode} (hl : a.raft.state = .leader) (hs : c.Stamped) (hj : j ≠ a.raft.id)
    (hp : c.Plain) (hn : c ≠ .tick) (hq : c ≠ .tickQuiesced) (hm : ∀ m, c = .step m → ¬ m.Answers j)
    (hx : (∃ t, c.Asks t) ∨ (∃ m, c = .step m ∧ m.type = .vote ∧ (m.src = a.raft.vote ∨ a.raft.vote = 0)) → X) (h : c.run env a = .ok b) :
    Deaf X j a.raft b.raft ∨ a.raft.term < b.raft.term := by
  have go : ∀ {m : Message} {e : Option Err} {n1 : RawNode}, (n1 = b) → Craft.Stamped m → ¬ m.Answers j → m.type ≠ .checkQuorum →
      (m.type = .transferLeader ∨ (m.type = .vote ∧ (m.src = a.raft.vote ∨ a.raft.vote = 0)) → X) →
      a.onRaft (fun r => r.step env m) = .ok (n1, e) → Deaf X j a.raft b.raft ∨ a.raft.term < b.raft.term := by
    intro m e n1 hb h1 h2 h3 h4 h5
    subst hb
    exact Deaf.step hl hj h2 h1 h3 h4 (onRaft_ok h5).1
  cases c with
  | step m =>
    obtain ⟨⟨n1, e⟩, h1, h⟩ := Res.bind_eq_ok.1 h
    cases h
    unfold RawNode.step at h1
    split at h1
    · cases h1; exact Or.inl .refl
    rename_i hloc
    split at h1
    · refine go rfl hs (hm m rfl) (fun e => hloc (by rw [e]; rfl)) (fun e => hx ?_) h1
      rcases e with e | e
      · exact Or.inl ⟨m.src, e, rfl⟩
      · exact Or.inr ⟨m, rfl, e⟩
    · cases h1; exact Or.inl .refl
  | tick => exact absurd rfl hn
  | tickQuiesced => exact absurd rfl hq
  | campaign =>
    obtain ⟨⟨n1, e⟩, h1, h⟩ := Res.bind_eq_ok.1 h
    cases h
    exact go rfl (by simp [Craft.Stamped]) (by simp [Message.Answers]) (by simp) (by simp) h1
  | propose d =>
    obtain ⟨⟨n1, e⟩, h1, h⟩ := Res.bind_eq_ok.1 h
    cases h
    exact go rfl (by simp [Craft.Stamped]) (by simp [Message.Answers]) (by simp) (by simp) h1
  | proposeConfChange cc =>
    obtain ⟨⟨n1, e⟩, h1, h⟩ := Res.bind_eq_ok.1 h
    cases h
    unfold RawNode.proposeConfChange at h1
    exact go rfl (by simp [Craft.Stamped]) (by simp [Message.Answers]) (by simp) (by simp) h1
  | applyConfChange cc => exact absurd hp (by simp [Call.Plain])
  | getReady => exact absurd hp (by simp [Call.Plain])
  | advance => exact absurd hp (by simp [Call.Plain])
  | reportUnreachable id =>
    obtain ⟨⟨n1, e⟩, h1, h⟩ := Res.bind_eq_ok.1 h
    cases h
    exact go rfl (by simp [Craft.Stamped]) (by simp [Message.Answers]) (by simp) (by simp) h1
  | reportSnapshot id f =>
    obtain ⟨⟨n1, e⟩, h1, h⟩ := Res.bind_eq_ok.1 h
    cases h
    exact go rfl (by simp [Craft.Stamped]) (by simp [Message.Answers]) (by simp) (by simp) h1
  | transferLeader id =>
    obtain ⟨⟨n1, e⟩, h1, h⟩ := Res.bind_eq_ok.1 h
    cases h
    exact go rfl (by simp [Craft.Stamped]) (by simp [Message.Answers]) (by simp) (fun _ => hx (Or.inl ⟨id, rfl⟩)) h1
  | readIndex ctx =>
    obtain ⟨⟨n1, e⟩, h1, h⟩ := Res.bind_eq_ok.1 h
    cases h
    exact go rfl (by simp [Craft.Stamped]) (by simp [Message.Answers]) (by simp) (by simp) h1

/-- A tick of a leader that does not check its quorum yet. -/
theorem Raft.tick_early {env : Env} {r r' : Raft} (hl : r.state = .leader) (ht : r.electionElapsed + 1 < r.electionTimeout) (h : r.tick env = .ok r') :
    r'.electionElapsed = r.electionElapsed + 1 ∧ r'.trk = r.trk ∧ r'.id = r.id ∧ r'.electionTimeout = r.electionTimeout := by
  unfold Raft.tick at h
  rw [hl] at h
  dsimp only at h
  unfold Raft.tickHeartbeat at h
  obtain ⟨r1, h1, h⟩ := Res.bind_eq_ok.1 h
  unfold Raft.tickHeartbeatTimeout at h1
  rw [if_neg (by show ¬ (r.electionElapsed + 1 ≥ r.electionTimeout); omega)] at h1
  cases h1
  unfold Raft.tickHeartbeatBeat at h
  rw [if_neg (by intro h; exact h hl)] at h
  split at h
  · rw [Raft.step_beat (by exact hl)] at h
    obtain ⟨⟨r2, e⟩, h2, h⟩ := Res.bind_eq_ok.1 h
    cases h
    obtain ⟨r3, h3, h2⟩ := Res.bind_eq_ok.1 h2
    cases h2
    obtain ⟨ms, rfl, _⟩ := Raft.bcastHeartbeatWithCtx_eq h3
    exact ⟨rfl, rfl, rfl, rfl⟩
  · cases h
    exact ⟨rfl, rfl, rfl, rfl⟩

/-- Nobody outside `S` but the node itself counts as active. -/
def Silent (S : List Nat) (r : Raft) : Prop := ∀ j, j ≠ r.id → j ∉ S → ∀ p, r.pr j = some p → p.recentActive = false

theorem Silent.deaf {S : List Nat} {X : Prop} {r r' : Raft} (h : Silent S r) (hid : r'.id = r.id) (hd : ∀ j, j ≠ r.id → j ∉ S → Deaf X j r r') :
    Silent S r' := by
  intro j hj hS p hp
  rw [hid] at hj
  cases hr : p.recentActive with
  | false => rfl
  | true =>
    obtain ⟨q, hq, hqr⟩ := (hd j hj hS).2.2 p hp hr
    rw [h j hj hS q hq] at hqr
    cases hqr

/-- A leader that heard only from `S` did not hear from a quorum. -/
theorem Silent.unheard {S : List Nat} {n : RawNode} (h : Silent S n.raft) (hs : n.ShortOf S) : ¬ QuorumHeard n := by
  intro hq
  have key : ∀ v, HeardFrom n v = true → decide (v = n.raft.id ∨ v ∈ S) = true := by
    intro v hv
    unfold HeardFrom at hv
    split at hv
    · rename_i p hp
      by_cases h1 : v = n.raft.id
      · simp [h1]
      · by_cases h2 : v ∈ S
        · simp [h2]
        · rw [h v h1 h2 p hp] at hv
          simp [h1] at hv
    · cases hv
  exact hs ⟨fun h => (hq.1 h).mono key, fun h => (hq.2 h).mono key⟩

/-- Where a leader that only `S` answers can be: before its first check, or after it. -/
structure Waning (S : List Nat) (n : RawNode) (k : Nat) (a : RawNode) : Prop where
  id : a.raft.id = n.raft.id
  cq : a.raft.checkQuorum = true
  timeout : a.raft.electionTimeout = n.raft.electionTimeout
  conf : ConfInv a.raft.trk.config a.raft.trk.progress
  wait : WaitInv a
  phase : (k ≤ a.raft.electionElapsed ∧ k < n.raft.electionTimeout) ∨
    (k ≤ n.raft.electionTimeout + a.raft.electionElapsed ∧ k < 2 * n.raft.electionTimeout ∧ Silent S a.raft)

theorem Waning.deaf {S : List Nat} {n a b : RawNode} {k : Nat} (h : Waning S n k a) (hk : Keep a.raft b.raft)
    (hc : ConfInv b.raft.trk.config b.raft.trk.progress) (hw : WaitInv b) (hd : ∀ j, j ≠ a.raft.id → j ∉ S → Deaf False j a.raft b.raft)
    (he : b.raft.electionElapsed = a.raft.electionElapsed) : Waning S n k b := by
  have hid : b.raft.id = a.raft.id := (congrArg Consts.id hk.1 :)
  refine ⟨hid.trans h.id, (congrArg Consts.checkQuorum hk.1 :).trans h.cq, (congrArg Consts.electionTimeout hk.1 :).trans h.timeout, hc, hw, ?_⟩
  rw [he]
  exact h.phase.imp _root_.id fun ⟨h1, h2, h3⟩ => ⟨h1, h2, h3.deaf hid hd⟩

theorem exists_other (i : Nat) (S : List Nat) : ∃ j, j ≠ i ∧ j ∉ S := by
  have key : ∀ l : List Nat, ∃ b, ∀ x ∈ l, x < b := by
    intro l
    induction l with
    | nil => exact ⟨0, by simp⟩
    | cons y l ih =>
      obtain ⟨b, hb⟩ := ih
      refine ⟨max b (y + 1), fun x hx => ?_⟩
      rcases List.mem_cons.1 hx with rfl | hx
      · omega
      · have := hb x hx; omega
  obtain ⟨b, hb⟩ := key (i :: S)
  exact ⟨b, (fun h => Nat.lt_irrefl b (hb b (by simp [h]))), fun h => Nat.lt_irrefl b (hb b (by simp [h]))⟩

/-- **C90**. A leader with `check_quorum` that together with the nodes `S` is short of a quorum, while nobody but nodes of `S` answers its
appends and heartbeats, while nobody asks it for a leadership transfer and it takes up no configuration change: whatever else happens,
it has stepped down before two election timeouts have passed (it is not leader of its term at a moment so many ticks later). -/
theorem C90_lost_quorum {env : Env} {S : List Nat} {x : NodeHist} {n' : RawNode} {k : Nat} (hx : NodeReach env x)
    (hcq : x.node.raft.checkQuorum = true)
    (h : Timed env (fun a c _ => c.AnswersFrom S a.raft.id) (fun a => a.raft.state = .leader ∧ a.raft.term = x.node.raft.term ∧ a.ShortOf S)
      False x.node k n') : k < 2 * x.node.raft.electionTimeout := by
  have hpos : 0 < x.node.raft.electionTimeout := hx.timeout_pos
  suffices hh : Waning S x.node k n' ∧ n'.raft.state = .leader ∧ n'.raft.term = x.node.raft.term ∧ n'.ShortOf S by
    rcases hh.1.phase with ⟨_, h⟩ | ⟨_, h, _⟩ <;> omega
  induction h with
  | refl hg => exact ⟨⟨rfl, hcq, rfl, hx.confInv, hx.waitInv, Or.inl ⟨Nat.zero_le _, hpos⟩⟩, hg⟩
  | @call c k a b _ hp hs h ho hg ih =>
    refine ⟨?_, hg⟩
    obtain ⟨ia, il, it, ish⟩ := ih
    have hk := (Call.run_path hs h).1
    have hid : b.raft.id = a.raft.id := (congrArg Consts.id hk.1 :)
    have hto : b.raft.electionTimeout = a.raft.electionTimeout := (congrArg Consts.electionTimeout hk.1 :)
    have hcf := Call.confInv hs ia.conf h
    have hwt := Call.waitInv hs ia.wait h
    by_cases htk : c = .tick
    · subst htk
      rw [if_pos rfl]
      refine ⟨hid.trans ia.id, (congrArg Consts.checkQuorum hk.1 :).trans ia.cq, hto.trans ia.timeout, hcf, hwt, ?_⟩
      by_cases hch : a.raft.electionElapsed + 1 < a.raft.electionTimeout
      · obtain ⟨r, h1, h⟩ := Res.bind_eq_ok.1 h
        cases h
        obtain ⟨e1, e2, e3, e4⟩ := Raft.tick_early il hch h1
        have ht := ia.timeout
        rcases ia.phase with ⟨p1, p2⟩ | ⟨p1, p2, p3⟩
        · left
          refine ⟨?_, ?_⟩
          · show _ ≤ r.electionElapsed; omega
          · omega
        · right
          refine ⟨?_, ?_, ?_⟩
          · show _ ≤ _ + r.electionElapsed; omega
          · omega
          · intro j hj hS p hp
            exact p3 j (by rw [← e3]; exact hj) hS p (by show a.raft.trk.progress.find j = some p; rw [← e2]; exact hp)
      · obtain ⟨c1, c2, c3, c4⟩ := C36_check_quorum ia.conf il ia.cq (by omega) h
        rcases ia.phase with ⟨p1, p2⟩ | ⟨p1, p2, p3⟩
        · right
          exact ⟨by omega, by omega, fun j hj _ p hp => c4 j p (by rw [← hid]; exact hj) hp⟩
        · have := c3 (p3.unheard ish)
          rw [this] at hg
          cases hg.1
    · rw [if_neg htk]
      by_cases hq : c = .tickQuiesced
      · subst hq
        cases h
        refine ⟨ia.id, ia.cq, ia.timeout, hcf, hwt, ?_⟩
        show (k ≤ a.raft.electionElapsed + 1 ∧ _) ∨ (k ≤ _ + (a.raft.electionElapsed + 1) ∧ _ ∧ _)
        rcases ia.phase with ⟨p1, p2⟩ | ⟨p1, p2, p3⟩
        · exact Or.inl ⟨by omega, p2⟩
        · exact Or.inr ⟨by omega, p2, p3⟩
      · have hd : ∀ j, j ≠ a.raft.id → j ∉ S → Deaf False j a.raft b.raft := by
          intro j hj hS
          refine (Call.deaf il hs hj hp htk hq ?_ ?_ h).resolve_right (by omega)
          · intro m hm ⟨h1, h2⟩
            exact hS (h1 ▸ ho.1 m hm h2)
          · rintro (⟨t, ht⟩ | ⟨m, rfl, hv, hv2⟩)
            · exact ho.2.1 t ht
            · have hvote := ia.wait.self (Or.inr il)
              rcases hv2 with hv2 | hv2
              · exact ho.2.2 ⟨hv, hv2.trans hvote⟩
              · exact ia.wait.id (hvote.symm.trans hv2)
        obtain ⟨j, hj, hS⟩ := exists_other a.raft.id S
        exact ia.deaf hk hcf hwt hd ((hd j hj hS).elapsed (fun h => h))
  | @ready ccs k a b rd _ hcc h hg ih =>
    refine ⟨?_, hg⟩
    refine RawNode.handleReady_only (Waning S x.node k) ?_ (fun a st ia => ⟨ia.id, ia.cq, ia.timeout, ia.conf, ⟨ia.wait.lead, ia.wait.self, ia.wait.id⟩, ia.phase⟩) h ih.1
    intro c a b hc h ia
    obtain ⟨j, hj, hS⟩ := exists_other a.raft.id S
    have hc : c = .getReady ∨ c = .advance := by
      rcases hc with hc | hc | ⟨cc, hcc', _⟩
      · exact Or.inl hc
      · exact Or.inr hc
      · rcases hcc with rfl | hcc
        · cases hcc'
        · exact hcc.elim
    have hs : c.Stamped := by rcases hc with rfl | rfl <;> trivial
    have hd : ∀ j, j ≠ a.raft.id → Deaf False j a.raft b.raft := by
      intro j hj
      rcases hc with rfl | rfl
      · obtain ⟨⟨n1, e⟩, h1, h⟩ := Res.bind_eq_ok.1 h
        cases h
        exact Deaf.getReady h1
      · exact Deaf.advance hj h
    exact ia.deaf (Call.run_path hs h).1 (Call.confInv hs ia.conf h) (Call.waitInv hs ia.wait h) (fun j hj _ => hd j hj) ((hd j hj).elapsed fun h => h)
  | store st _ hg ih =>
    obtain ⟨ia, _⟩ := ih
    exact ⟨⟨ia.id, ia.cq, ia.timeout, ia.conf, ⟨ia.wait.lead, ia.wait.self, ia.wait.id⟩, ia.phase⟩, hg⟩

/-! ## C91: heartbeats -/

theorem Raft.beats_reach {ctx : Bytes} (ids : List Nat) {r r' : Raft} (h : Raft.visitOthers (fun r id => r.sendHeartbeat id ctx) ids r = .ok r') :
    ∃ ms, r' = { r with msgs := r.msgs ++ ms } ∧
      ∀ id ∈ ids, id ≠ r.id → ∃ m ∈ ms, m.type = .heartbeat ∧ m.to = id ∧ m.src = r.id ∧ m.term = r.term := by
  induction ids generalizing r with
  | nil => cases h; exact ⟨[], by simp, by simp⟩
  | cons id ids ih =>
    unfold Raft.visitOthers at h
    split at h
    · rename_i hi
      obtain ⟨ms, h1, h2⟩ := ih h
      refine ⟨ms, h1, fun x hx hne => ?_⟩
      rcases List.mem_cons.1 hx with rfl | hx
      · exact absurd hi hne
      · exact h2 x hx hne
    · obtain ⟨r2, h2, h⟩ := Res.bind_eq_ok.1 h
      unfold Raft.sendHeartbeat at h2
      obtain ⟨p, _, h2⟩ := Res.bind_eq_ok.1 h2
      rw [Raft.send_ok h2] at h
      obtain ⟨ms, rfl, h2⟩ := ih h
      refine ⟨Raft.outMsg r { type := .heartbeat, «to» := id, commit := min p.mtch r.log.committed, context := ctx } :: ms, by simp, fun x hx hne => ?_⟩
      rcases List.mem_cons.1 hx with rfl | hx
      · exact ⟨_, List.mem_cons_self .., rfl, rfl, rfl, rfl⟩
      · obtain ⟨m, hm, k⟩ := h2 x hx hne
        exact ⟨m, List.mem_cons_of_mem _ hm, k⟩

theorem Raft.checkQuorum_shape {env : Env} {r : Raft} (hs : (r.leaderCheckQuorum env).state = .leader) :
    (r.leaderCheckQuorum env).id = r.id ∧ (r.leaderCheckQuorum env).term = r.term ∧ (r.leaderCheckQuorum env).msgs = r.msgs ∧
      (r.leaderCheckQuorum env).heartbeatElapsed = r.heartbeatElapsed ∧ (r.leaderCheckQuorum env).heartbeatTimeout = r.heartbeatTimeout ∧
      ∀ id, r.pr id ≠ none → (r.leaderCheckQuorum env).pr id ≠ none := by
  have key : ∀ b : Raft, b.id = r.id ∧ b.term = r.term ∧ b.msgs = r.msgs ∧ b.heartbeatElapsed = r.heartbeatElapsed ∧
      b.heartbeatTimeout = r.heartbeatTimeout ∧ (∀ id, r.pr id ≠ none → b.pr id ≠ none) → ∀ c : Raft,
      c = (if ¬ b.trk.quorumActive then b.becomeFollower env b.term 0 else b) → ∀ d : Raft, d = { c with trk := { c.trk with
        progress := c.trk.progress.map fun (id, p) => (id, if id ≠ c.id then { p with recentActive := false } else p) } } → d.state = .leader →
      d.id = r.id ∧ d.term = r.term ∧ d.msgs = r.msgs ∧ d.heartbeatElapsed = r.heartbeatElapsed ∧
      d.heartbeatTimeout = r.heartbeatTimeout ∧ ∀ id, r.pr id ≠ none → d.pr id ≠ none := by
    intro b ⟨b1, b2, b3, b4, b5, b6⟩ c hc d hd hs
    have hcb : c = b := by
      split at hc
      · rw [hd, hc] at hs; cases hs
      · exact hc
    subst hcb
    subst hd
    refine ⟨b1, b2, b3, b4, b5, fun id hid => ?_⟩
    have hf := AMap.find_map c.trk.progress (fun id (p : Progress) => if id ≠ c.id then { p with recentActive := false } else p) id
    have hne := b6 id hid
    intro h
    rw [show AMap.find _ id = none from h] at hf
    cases hp : c.trk.progress.find id with
    | none => exact hne hp
    | some q => rw [hp] at hf; cases hf
  refine key _ ?_ _ rfl _ rfl hs
  cases hp : r.pr r.id with
  | none => exact ⟨rfl, rfl, rfl, rfl, rfl, fun id h => h⟩
  | some p =>
    refine ⟨rfl, rfl, rfl, rfl, rfl, fun id hid => ?_⟩
    show AMap.find (AMap.insert _ _ _) id ≠ none
    rw [AMap.find_insert]
    split
    · nofun
    · exact hid

/-- The check of the quorum leaves a node that stays leader its term, its peers and its outbox. -/
theorem Raft.timeout_shape {env : Env} {r r' : Raft} (hl : r.state = .leader) (h : r.tickHeartbeatTimeout env = .ok r') (hl' : r'.state = .leader) :
    r'.id = r.id ∧ r'.term = r.term ∧ r'.msgs = r.msgs ∧ r'.heartbeatElapsed = r.heartbeatElapsed ∧ r'.heartbeatTimeout = r.heartbeatTimeout ∧
      ∀ id, r.pr id ≠ none → r'.pr id ≠ none := by
  unfold Raft.tickHeartbeatTimeout at h
  split at h
  · dsimp only at h
    have fin : ∀ {r1 : Raft}, (if r1.state = .leader ∧ r1.leadTransferee ≠ 0 then pure { r1 with leadTransferee := 0 } else pure r1) = (Res.ok r' : Res Raft) →
        (r1.state = .leader → r1.id = r.id ∧ r1.term = r.term ∧ r1.msgs = r.msgs ∧ r1.heartbeatElapsed = r.heartbeatElapsed ∧
          r1.heartbeatTimeout = r.heartbeatTimeout ∧ ∀ id, r.pr id ≠ none → r1.pr id ≠ none) →
        r'.id = r.id ∧ r'.term = r.term ∧ r'.msgs = r.msgs ∧ r'.heartbeatElapsed = r.heartbeatElapsed ∧ r'.heartbeatTimeout = r.heartbeatTimeout ∧
      ∀ id, r.pr id ≠ none → r'.pr id ≠ none := by
      intro r1 e k
      split at e
      · cases e; exact k hl'
      · cases e; exact k hl'
    split at h
    · rw [Raft.step_checkQuorum (by exact hl)] at h
      refine fin h fun hst => ?_
      exact Raft.checkQuorum_shape (r := { r with electionElapsed := 0 }) hst
    · exact fin h fun _ => ⟨rfl, rfl, rfl, rfl, rfl, fun id h => h⟩
  · cases h; exact ⟨rfl, rfl, rfl, rfl, rfl, fun id h => h⟩

/-- A tick of a node that stays leader: it heartbeats everybody once the heartbeat timeout has passed. -/
theorem Raft.tick_leader {env : Env} {r r' : Raft} (hl : r.state = .leader) (hl' : r'.state = .leader) (h : r.tick env = .ok r') :
    (r.heartbeatElapsed + 1 < r.heartbeatTimeout ∧ r'.heartbeatElapsed = r.heartbeatElapsed + 1) ∨
    ∃ ms, r'.msgs = r.msgs ++ ms ∧ ∀ id, id ≠ r.id → r.pr id ≠ none → ∃ m ∈ ms, m.type = .heartbeat ∧ m.to = id ∧ m.src = r.id ∧ m.term = r.term := by
  unfold Raft.tick at h
  rw [hl] at h
  dsimp only at h
  unfold Raft.tickHeartbeat at h
  obtain ⟨r1, h1, h⟩ := Res.bind_eq_ok.1 h
  unfold Raft.tickHeartbeatBeat at h
  by_cases hl1 : r1.state = .leader
  · obtain ⟨e1, e2, e3, e4, e5, e6⟩ := Raft.timeout_shape (by exact hl) h1 hl1
    rw [if_neg (by intro h; exact h hl1)] at h
    split at h
    · rw [Raft.step_beat (by exact hl1)] at h
      obtain ⟨⟨r2, e⟩, h2, h⟩ := Res.bind_eq_ok.1 h
      cases h
      obtain ⟨r3, h3, h2⟩ := Res.bind_eq_ok.1 h2
      cases h2
      obtain ⟨ms, rfl, hms⟩ := Raft.beats_reach _ h3
      refine Or.inr ⟨ms, by show r1.msgs ++ ms = _; rw [e3], fun id hid hp => ?_⟩
      obtain ⟨m, hm, k1, k2, k3, k4⟩ := hms id (by
        have := e6 id hp
        unfold Raft.pr at this
        rw [Ne, AMap.find_eq_none_iff, Decidable.not_not] at this
        exact this) (by show id ≠ r1.id; rw [e1]; exact hid)
      exact ⟨m, hm, k1, k2, k3.trans e1, k4.trans e2⟩
    · rename_i hlt
      have e4 : r1.heartbeatElapsed = r.heartbeatElapsed + 1 := e4
      have e5 : r1.heartbeatTimeout = r.heartbeatTimeout := e5
      cases h
      exact Or.inl ⟨by omega, e4⟩
  · rw [if_pos hl1] at h
    cases h
    exact absurd hl' hl1

theorem Deaf.visitSend {env : Env} {X : Prop} {j : Nat} (ids : List Nat) {r r' : Raft} (h : Raft.visitSend env ids r = .ok r') : Deaf X j r r' := by
  induction ids generalizing r with
  | nil => cases h; exact .refl
  | cons id ids ih =>
    unfold Raft.visitSend at h
    obtain ⟨⟨r2, d⟩, h2, h⟩ := Res.bind_eq_ok.1 h
    exact (Deaf.maybeSendAppend h2).trans (ih h)

theorem Raft.switchSend_beats {env : Env} {r r' : Raft} (h : r.switchSend env = .ok r') : r'.heartbeatElapsed = r.heartbeatElapsed := by
  have key : Deaf True 0 r r' := by
    unfold Raft.switchSend at h
    obtain ⟨⟨r1, c⟩, h1, h⟩ := Res.bind_eq_ok.1 h
    refine (Deaf.maybeCommit h1).trans ?_
    dsimp only at h
    split at h
    · exact Deaf.bcastAppend h
    · exact Deaf.visitSend _ h
  exact key.beats

/-- The handling of a Ready leaves the heartbeat clock alone. -/
theorem Call.beats_ready {env : Env} {c : Call} {a b : RawNode} (hp : ¬ c.Plain)
    (h : c.run env a = .ok b) : b.raft.heartbeatElapsed = a.raft.heartbeatElapsed := by
  obtain ⟨j, hj, _⟩ := exists_other a.raft.id []
  cases c with
  | getReady =>
    obtain ⟨⟨n1, e⟩, h1, h⟩ := Res.bind_eq_ok.1 h
    cases h
    exact (Deaf.getReady (X := True) (j := 0) h1).beats
  | advance => exact (Deaf.advance (X := True) hj h).beats
  | applyConfChange cc =>
    obtain ⟨⟨n1, cs⟩, h1, h⟩ := Res.bind_eq_ok.1 h
    cases h
    unfold RawNode.applyConfChange at h1
    obtain ⟨⟨r, cs'⟩, h2, h1⟩ := Res.bind_eq_ok.1 h1
    simp only [Res.pure_eq, Res.ok.injEq, Prod.mk.injEq] at h1
    obtain ⟨rfl, rfl⟩ := h1
    obtain ⟨cfg, prs, _, hsw⟩ := Dyn.applyConfChange_ok h2
    unfold Raft.switchToConfig at hsw
    dsimp only at hsw
    split at hsw
    · cases hsw; rfl
    split at hsw
    · cases hsw; rfl
    obtain ⟨r1, h3, hsw⟩ := Res.bind_eq_ok.1 hsw
    have := Raft.switchSend_beats h3
    split at hsw <;> (cases hsw; exact this)
  | _ => exact absurd trivial hp

/-- The heartbeat clock of a leader only moves with its ticks. -/
theorem Call.beats {env : Env} {c : Call} {a b : RawNode} (hl : a.raft.state = .leader) (hs : c.Stamped) (hn : c ≠ .tick)
    (h : c.run env a = .ok b) : b.raft.heartbeatElapsed = a.raft.heartbeatElapsed ∨ a.raft.term < b.raft.term := by
  by_cases hq : c = .tickQuiesced
  · subst hq; cases h; exact Or.inl rfl
  obtain ⟨j, hj, _⟩ := exists_other a.raft.id []
  by_cases hp : c.Plain
  · by_cases hm : ∃ m, c = .step m
    · obtain ⟨m, rfl⟩ := hm
      obtain ⟨j, hj, hjm⟩ := exists_other a.raft.id [m.src]
      exact (Call.deaf (X := True) hl hs hj hp hn hq (fun m' e ⟨h1, _⟩ => hjm (by cases e; simp [h1])) (fun _ => trivial) h).imp Deaf.beats (fun h => h)
    · exact (Call.deaf (X := True) hl hs hj hp hn hq (fun m e => absurd ⟨m, e⟩ hm) (fun _ => trivial) h).imp Deaf.beats (fun h => h)
  · exact Or.inl (Call.beats_ready hp h)

/-- **C91**. While a node is leader of a term, it sends a heartbeat of that term to every other member it knows at least once in every
`heartbeat_tick` ticks, whatever else happens (proposals, messages, Readys, configuration changes): a run during which no tick does so has fewer ticks. -/
theorem C91_heartbeats {env : Env} {x : NodeHist} {n' : RawNode} {k : Nat} (hx : NodeReach env x)
    (h : Timed env (fun a c b => c = .tick → ¬ HeartbeatAll a b) (fun a => a.raft.state = .leader ∧ a.raft.term = x.node.raft.term) True x.node k n') :
    k < x.node.raft.heartbeatTimeout := by
  have hpos : 0 < x.node.raft.heartbeatTimeout :=
    hx.inv_keep (fun n => 0 < n.raft.heartbeatTimeout) (fun c st rng n h => by
      have := (RawNode.new_ok h).1.heartbeatTimeout
      omega) (fun a b hk h => by
      have he : b.raft.heartbeatTimeout = a.raft.heartbeatTimeout := congrArg Consts.heartbeatTimeout hk.1
      omega)
  suffices hh : (k ≤ n'.raft.heartbeatElapsed ∧ k < x.node.raft.heartbeatTimeout ∧ n'.raft.heartbeatTimeout = x.node.raft.heartbeatTimeout) ∧
      n'.raft.state = .leader ∧ n'.raft.term = x.node.raft.term from hh.1.2.1
  induction h with
  | refl hg => exact ⟨⟨Nat.zero_le _, hpos, rfl⟩, hg⟩
  | @call c k a b _ hp hs h ho hg ih =>
    refine ⟨?_, hg⟩
    obtain ⟨⟨i1, i2, i3⟩, il, it⟩ := ih
    have hto : b.raft.heartbeatTimeout = a.raft.heartbeatTimeout := (congrArg Consts.heartbeatTimeout (Call.run_path hs h).1.1 :)
    by_cases htk : c = .tick
    · subst htk
      rw [if_pos rfl]
      obtain ⟨r, h1, h⟩ := Res.bind_eq_ok.1 h
      cases h
      rcases Raft.tick_leader il hg.1 h1 with ⟨e1, e2⟩ | ⟨ms, e1, e2⟩
      · have e2 : r.heartbeatElapsed = a.raft.heartbeatElapsed + 1 := e2
        refine ⟨?_, by omega, hto.trans i3⟩
        show k + 1 ≤ r.heartbeatElapsed
        omega
      · refine absurd ?_ (ho rfl)
        intro id hid hp
        show ∃ m ∈ r.msgs.drop _, _
        rw [e1, List.drop_left]
        exact e2 id hid hp
    · rw [if_neg htk]
      have := (Call.beats il hs htk h).resolve_right (by omega)
      exact ⟨by omega, i2, hto.trans i3⟩
  | @ready ccs k a b rd _ _ h hg ih =>
    refine ⟨?_, hg⟩
    obtain ⟨⟨i1, i2, i3⟩, il, it⟩ := ih
    have key : b.raft.heartbeatElapsed = a.raft.heartbeatElapsed ∧ b.raft.heartbeatTimeout = a.raft.heartbeatTimeout := by
      refine RawNode.handleReady_only (fun b => b.raft.heartbeatElapsed = a.raft.heartbeatElapsed ∧
        b.raft.heartbeatTimeout = a.raft.heartbeatTimeout) ?_ (fun _ _ h => h) h ⟨rfl, rfl⟩
      intro c a1 b1 hc h ⟨j1, j2⟩
      have hs : c.Stamped ∧ ¬ c.Plain := by rcases hc with rfl | rfl | ⟨cc, _, rfl⟩ <;> exact ⟨trivial, fun h => h⟩
      exact ⟨(Call.beats_ready hs.2 h).trans j1, (congrArg Consts.heartbeatTimeout (Call.run_path hs.1 h).1.1 :).trans j2⟩
    exact ⟨by omega, i2, by omega⟩
  | store st _ hg ih => exact ⟨ih.1, hg⟩

/-! A concrete case: node 1 of three voters, with `check_quorum`, becomes leader of term 1 with the vote of node 2. -/
namespace QuorateDemo

def node (hb : Int) (cq : Bool) (cs : List Call) : RawNode :=
  match (do
    let n ← RawNode.new Demo.env { Demo.cfg 1 with checkQuorum := cq, heartbeatTick := hb } Demo.store 0
    cs.foldlM (fun n c => c.run Demo.env n) n : Res RawNode) with
  | .ok n => n
  | _ => default

def vote : Call := .step { type := .voteResp, src := 2, «to» := 1, term := 1 }

theorem reach : NodeReach Demo.env ⟨node 3 true [.campaign, vote], []⟩ := by
  have h0 : NodeReach Demo.env ⟨node 3 true [], []⟩ := .start { Demo.cfg 1 with checkQuorum := true, heartbeatTick := 3 } Demo.store 0 (by decide +kernel)
  have h1 : NodeReach Demo.env ⟨node 3 true [.campaign], []⟩ := .step h0 (.call .campaign trivial trivial trivial (by decide +kernel))
  exact .step h1 (.call vote trivial (fun h => by rcases h with h | h | h <;> cases h) (fun h => by cases h) (by decide +kernel))

theorem short (a : RawNode) (h1 : a.raft.trk.config.voters.incoming = [1, 2, 3]) (h2 : a.raft.id = 1) : a.ShortOf [] := by
  intro h
  have h3 := h.1 (by rw [h1]; nofun)
  rw [h1, h2] at h3
  revert h3
  unfold Majority
  decide

/-- Two ticks of a leader whom nobody answers (C90). -/
example : Timed Demo.env (fun a c _ => c.AnswersFrom [] a.raft.id)
    (fun a => a.raft.state = .leader ∧ a.raft.term = (node 3 true [.campaign, vote]).raft.term ∧ a.ShortOf []) False (node 3 true [.campaign, vote]) 2
    (node 3 true [.campaign, vote, .tick, .tick]) := by
  have ok : ∀ i, Call.AnswersFrom [] i .tick := fun i => ⟨(fun m h => by cases h), fun t h => h, fun h => h⟩
  have t0 : Timed Demo.env (fun a c _ => c.AnswersFrom [] a.raft.id)
      (fun a => a.raft.state = .leader ∧ a.raft.term = (node 3 true [.campaign, vote]).raft.term ∧ a.ShortOf []) False (node 3 true [.campaign, vote]) 0
      (node 3 true [.campaign, vote]) := .refl ⟨by decide +kernel, rfl, short _ (by decide +kernel) (by decide +kernel)⟩
  have t1 := t0.call (b := node 3 true [.campaign, vote, .tick]) .tick trivial trivial (by decide +kernel) (ok _)
    ⟨by decide +kernel, by decide +kernel, short _ (by decide +kernel) (by decide +kernel)⟩
  exact t1.call (b := node 3 true [.campaign, vote, .tick, .tick]) .tick trivial trivial (by decide +kernel) (ok _)
    ⟨by decide +kernel, by decide +kernel, short _ (by decide +kernel) (by decide +kernel)⟩

/-- The last answer of node 2 comes just after the election: the first check passes, at the second one, after 20 ticks, the leader steps
down. Without `check_quorum` it stays leader. -/
def answer : Call := .step { type := .heartbeatResp, src := 2, «to» := 1, term := 1 }

example : (node 3 true ([.campaign, vote, answer] ++ List.replicate 19 .tick)).raft.state = .leader ∧
    (node 3 true ([.campaign, vote, answer] ++ List.replicate 20 .tick)).raft.state = .follower ∧
    (node 3 true ([.campaign, vote, answer] ++ List.replicate 20 .tick)).raft.term = 1 ∧
    (node 3 true ([.campaign, vote] ++ List.replicate 10 .tick)).raft.state = .follower ∧
    (node 3 false ([.campaign, vote] ++ List.replicate 40 .tick)).raft.state = .leader := by decide +kernel

/-- With `heartbeat_tick` 3, two ticks send nothing, the third one heartbeats both peers (C91). -/
example : (node 3 true [.campaign, vote, .tick, .tick]).raft.msgs.length = (node 3 true [.campaign, vote]).raft.msgs.length ∧
    ((node 3 true [.campaign, vote, .tick, .tick, .tick]).raft.msgs.drop (node 3 true [.campaign, vote]).raft.msgs.length).map
      (fun m => (m.type, m.src, m.to, m.term)) = [(.heartbeat, 1, 2, 1), (.heartbeat, 1, 3, 1)] := by decide +kernel

example : Timed Demo.env (fun a c b => c = .tick → ¬ HeartbeatAll a b)
    (fun a => a.raft.state = .leader ∧ a.raft.term = (node 3 true [.campaign, vote]).raft.term) True (node 3 true [.campaign, vote]) 1
    (node 3 true [.campaign, vote, .tick]) := by
  refine Timed.call (k := 0) (a := node 3 true [.campaign, vote]) .tick (.refl ⟨by decide +kernel, rfl⟩) trivial trivial (by decide +kernel) (fun _ h => ?_)
    ⟨by decide +kernel, by decide +kernel⟩
  obtain ⟨m, hm, _⟩ := h 2 (by decide +kernel) (by decide +kernel)
  revert hm
  rw [show (node 3 true [.campaign, vote, .tick]).raft.msgs.drop (node 3 true [.campaign, vote]).raft.msgs.length = [] by decide +kernel]
  exact List.not_mem_nil

/-- A node in a joint configuration with a learner (C89): voters 1, 2, 4 incoming, 1, 2, 3 outgoing, 5 learner. -/
def joint : Storage :=
  { snapshot := { metadata := { confState := { voters := [1, 2, 4], learners := [5], votersOutgoing := [1, 2, 3] } } }, ents := [{}] }

example : ∃ n, RawNode.new Demo.env (Demo.cfg 1) joint 0 = .ok n ∧ NodeReach Demo.env ⟨n, []⟩ ∧
    n.raft.trk.config.voters = ⟨[1, 2, 4], [1, 2, 3]⟩ ∧ n.raft.trk.config.learners = [5] ∧ n.raft.trk.progress.keys = [1, 2, 3, 4, 5] :=
  ⟨_, rfl, .start (Demo.cfg 1) joint 0 rfl, by decide +kernel⟩

end QuorateDemo
end Craft
