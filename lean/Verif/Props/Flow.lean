import Verif.Node.Window
import Verif.Spec.Flow
import Verif.Node.Hush
import Mathlib.Logic.Relation
import Verif.Props.NodeTransfer

/-! # C78: a leader sends no more than the window to a peer it does not hear from -/

namespace Craft

namespace Flow
variable {env : Env} {j : Nat} {r r' : Raft}

theorem tick (hl : r.state = .leader) (h : r.tick env = .ok r') : Flow j r r' ∨ r'.state ≠ .leader := by
  unfold Raft.tick at h
  rw [hl] at h
  dsimp only at h
  unfold Raft.tickHeartbeat at h
  obtain ⟨r1, h1, h⟩ := Res.bind_eq_ok.1 h
  have k1 : Flow j r r1 ∨ r1.state ≠ .leader := by
    unfold Raft.tickHeartbeatTimeout at h1
    dsimp only at h1
    split at h1
    · split at h1
      · rw [Raft.step_checkQuorum (by exact hl)] at h1
        simp only [Res.ok_bind] at h1
        have c := leaderCheckQuorum (env := env) (j := j) (r := { r with heartbeatElapsed := r.heartbeatElapsed + 1, electionElapsed := 0 })
        generalize Raft.leaderCheckQuorum env { r with heartbeatElapsed := r.heartbeatElapsed + 1, electionElapsed := 0 } = s at h1 c
        have w : Flow j r { r with heartbeatElapsed := r.heartbeatElapsed + 1, electionElapsed := 0 } := .of rfl rfl rfl
        rcases c with c | c
        · split at h1 <;> cases h1
          · exact Or.inl (w.trans (c.trans (.of rfl rfl rfl)))
          · exact Or.inl (w.trans c)
        · rw [if_neg (fun k => c k.1)] at h1
          cases h1
          exact Or.inr c
      · simp only [Res.pure_eq, Res.ok_bind] at h1
        split at h1 <;> cases h1 <;> exact Or.inl (.of rfl rfl rfl)
    · cases h1; exact Or.inl (.of rfl rfl rfl)
  unfold Raft.tickHeartbeatBeat at h
  split at h
  · rename_i k; cases h; exact Or.inr k
  rename_i hs1
  rcases k1 with k1 | k1
  · left
    split at h
    · obtain ⟨⟨r2, e⟩, h2, h⟩ := Res.bind_eq_ok.1 h
      cases h
      rw [Raft.step_beat (by exact Classical.not_not.1 hs1)] at h2
      obtain ⟨r3, h3, h2⟩ := Res.bind_eq_ok.1 h2
      cases h2
      have w : Flow j r1 { r1 with heartbeatElapsed := 0 } := .of rfl rfl rfl
      exact k1.trans (w.trans (bcastHeartbeat h3))
    · cases h; exact k1
  · exact absurd k1 hs1

theorem advance {n n' : RawNode} (hj : j ≠ n.raft.id) (h : n.advance = .ok n') : Flow j n.raft n'.raft := by
  unfold RawNode.advance at h
  split at h
  · cases h
  obtain ⟨r3, h7, h8⟩ := Res.bind_eq_ok.1 h
  simp only [Res.pure_eq, Res.ok.injEq] at h8
  subst h8
  unfold Raft.advance at h7
  obtain ⟨ra, h5, h8⟩ := Res.bind_eq_ok.1 h7
  obtain ⟨la, h6, h4⟩ := Res.bind_eq_ok.1 h8
  simp only [Res.pure_eq, Res.ok.injEq] at h4
  subst h4
  refine .trans (b := ra) ?_ (.of rfl rfl rfl)
  rename_i rd _
  obtain ⟨u, hu⟩ := reduceUncommittedSize_eq n.raft rd.committedEntries
  rw [hu] at h5
  rcases Raft.advanceApplied_cases h5 with ⟨h0, rfl⟩ | ⟨h0, l, hl, rfl | ⟨g1, g2, g3, g4, rb, hb, rfl⟩⟩
  · exact .of rfl rfl rfl
  · exact .of rfl rfl rfl
  · exact .trans (.of rfl rfl rfl) ((appendEntry (by exact hj) hb).trans (.of rfl rfl rfl))

theorem run {n n' : RawNode} {c : Call} (hl : n.raft.state = .leader) (hj : j ≠ n.raft.id) (hc : c.Plain) (hs : c.Stamped) (hn : c.NotAbout j)
    (h : c.run env n = .ok n') : Flow j n.raft n'.raft ∨ n'.raft.state ≠ .leader ∨ n.raft.term < n'.raft.term := by
  have k : ∀ {f : Raft → Message}, ¬ (f n.raft).Tells j → Stamped (f n.raft) → (do let (n, _) ← n.onRaft fun r => r.step env (f r); pure n) = .ok n' →
      Flow j n.raft n'.raft ∨ n'.raft.state ≠ .leader ∨ n.raft.term < n'.raft.term := by
    intro f hf1 hf2 h
    obtain ⟨⟨n1, e⟩, h1, h⟩ := Res.bind_eq_ok.1 h
    cases h
    unfold RawNode.onRaft at h1
    obtain ⟨⟨r1, e1⟩, h2, h1⟩ := Res.bind_eq_ok.1 h1
    cases h1
    exact step hl hj hf1 hf2 h2
  have quiet : ∀ {m : Message}, m.type ≠ .appResp → m.type ≠ .heartbeatResp → m.type ≠ .snapStatus → m.type ≠ .unreachable → ¬ m.Tells j := by
    rintro m h1 h2 h3 h4 ⟨_, h | h | h | h⟩
    · exact h1 h
    · exact h2 h
    · exact h3 h
    · exact h4 h
  have light : ∀ {m : Message}, m.type ≠ .app → m.type ≠ .heartbeat → m.type ≠ .snap → Stamped m := by
    rintro m h1 h2 h3 (h | h | h)
    · exact absurd h h1
    · exact absurd h h2
    · exact absurd h h3
  cases c with
  | step m =>
    obtain ⟨⟨n1, e⟩, h1, h⟩ := Res.bind_eq_ok.1 h
    cases h
    unfold RawNode.step at h1
    split at h1
    · cases h1; exact Or.inl .refl
    split at h1
    · unfold RawNode.onRaft at h1
      obtain ⟨⟨r1, e1⟩, h2, h1⟩ := Res.bind_eq_ok.1 h1
      cases h1
      exact step hl hj (fun t => hn t.1) hs h2
    · cases h1; exact Or.inl .refl
  | tick =>
    obtain ⟨r1, h1, h⟩ := Res.bind_eq_ok.1 h
    cases h
    exact (tick hl h1).imp_right Or.inl
  | tickQuiesced => cases h; exact Or.inl (.of rfl rfl rfl)
  | campaign => exact k (f := fun _ => { type := .hup }) (quiet nofun nofun nofun nofun) (light nofun nofun nofun) h
  | propose d => exact k (f := fun r => { type := .prop, src := r.id, entries := [{ data := d }] }) (quiet nofun nofun nofun nofun) (light nofun nofun nofun) h
  | proposeConfChange cc =>
    obtain ⟨⟨n1, e⟩, h1, h⟩ := Res.bind_eq_ok.1 h
    cases h
    unfold RawNode.proposeConfChange RawNode.onRaft at h1
    obtain ⟨⟨r1, e1⟩, h2, h1⟩ := Res.bind_eq_ok.1 h1
    cases h1
    exact step (im := { type := .prop, entries := [{ type := (cc.marshal env).1, data := (cc.marshal env).2 }] }) hl hj (quiet nofun nofun nofun nofun) (light nofun nofun nofun) h2
  | applyConfChange cc => exact hc.elim
  | getReady => exact hc.elim
  | advance => exact hc.elim
  | reportUnreachable id => exact k (f := fun _ => { type := .unreachable, src := id }) (fun t => hn t.1) (light nofun nofun nofun) h
  | reportSnapshot id f => exact k (f := fun _ => { type := .snapStatus, src := id, reject := f }) (fun t => hn t.1) (light nofun nofun nofun) h
  | transferLeader id => exact k (f := fun _ => { type := .transferLeader, src := id }) (quiet nofun nofun nofun nofun) (light nofun nofun nofun) h
  | readIndex ctx => exact k (f := fun _ => { type := .readIndex, entries := [{ data := ctx }] }) (quiet nofun nofun nofun nofun) (light nofun nofun nofun) h

end Flow

/-- The window a node keeps for a peer, and what may be in it. -/
theorem Raft.Windows.fair {r : Raft} (w : r.Windows) {j : Nat} {p : Progress} (h : r.pr j = some p) :
    p.Fair ∧ p.room ≤ r.trk.maxInflight.toNat := by
  obtain ⟨h1, h2, h3⟩ := w.2 j p h
  have h0 := w.1
  refine ⟨⟨h1, h2⟩, ?_⟩
  unfold Progress.room
  split
  · omega
  · split <;> omega
  · rw [h3]; omega

theorem Unheard.flow {env : Env} {j : Nat} {x y : NodeHist} (hl : x.node.raft.state = .leader) (hj : j ≠ x.node.raft.id) (h : Unheard env j x y) :
    y.node.raft.state = .leader ∧ y.node.raft.id = x.node.raft.id ∧ ∃ ms, y.made = x.made ++ ms ∧ ∀ p, x.node.raft.pr j = some p → p.Fair →
      ∃ q, y.node.raft.pr j = some q ∧ q.Fair ∧ load j ms + q.room ≤ p.room := by
  induction h with
  | refl => exact ⟨hl, rfl, [], (List.append_nil _).symm, fun p hp hf => ⟨p, hp, hf, by rw [load_nil]; omega⟩⟩
  | @call c n n' sent _ hc hs _ hn h hl' ht ih =>
    obtain ⟨i1, i2, ms, i3, i4⟩ := ih
    rcases Flow.run (j := j) i1 (by rw [i2]; exact hj) hc hs hn h with k | k | k
    · obtain ⟨k1, ms', k2, k3⟩ := k
      refine ⟨hl', k1.trans i2, ms ++ ms', ?_, fun p hp hf => ?_⟩
      · rw [← List.append_assoc, ← i3]
        show sent ++ n'.raft.msgs = (sent ++ n.raft.msgs) ++ ms'
        rw [k2, List.append_assoc]
      · obtain ⟨q, hq, hqf, l1⟩ := i4 p hp hf
        obtain ⟨s, hs, hsf, l2⟩ := k3 q hq hqf
        refine ⟨s, hs, hsf, ?_⟩
        rw [load_append]; omega
    · exact absurd hl' k
    · exact absurd k (by show ¬ n.raft.term < n'.raft.term; omega)
  | @ready n n' rd sent _ h ih =>
    obtain ⟨i1, i2, ms, i3, i4⟩ := ih
    unfold RawNode.handleReady RawNode.takeReady at h
    obtain ⟨⟨n1, rd1⟩, h1, h⟩ := Res.bind_eq_ok.1 h
    obtain ⟨⟨n2, rd2⟩, h2, h1⟩ := Res.bind_eq_ok.1 h1
    obtain ⟨st, _, h1⟩ := Res.bind_eq_ok.1 h1
    obtain ⟨n3, h3, h⟩ := Res.bind_eq_ok.1 h
    obtain ⟨n4, h4, h⟩ := Res.bind_eq_ok.1 h
    cases h; cases h1; cases h3
    unfold RawNode.getReady at h2
    obtain ⟨rd', hr, h2⟩ := Res.bind_eq_ok.1 h2
    simp only [Res.pure_eq, Res.ok.injEq, Prod.mk.injEq] at h2
    obtain ⟨rfl, rfl⟩ := h2
    have hm : rd'.messages = n.raft.msgs := by
      unfold RawNode.readyWithoutAccept newReady at hr
      obtain ⟨_, _, hr⟩ := Res.bind_eq_ok.1 hr
      cases hr; rfl
    obtain ⟨k1, ms', k2, k3⟩ := Flow.advance (j := j) (by show j ≠ n.raft.id; exact fun e => hj (e.trans i2)) h4
    have hst := (Hush.advance h4).1
    refine ⟨?_, k1.trans i2, ms ++ ms', ?_, fun p hp hf => ?_⟩
    · have := congrArg (fun x => x.2.2) hst
      exact this.trans i1
    · rw [← List.append_assoc, ← i3]
      show (sent ++ rd'.messages) ++ n'.raft.msgs = (sent ++ n.raft.msgs) ++ ms'
      rw [k2, hm]; rfl
    · obtain ⟨q, hq, hqf, l1⟩ := i4 p hp hf
      obtain ⟨s, hs, hsf, l2⟩ := k3 q hq hqf
      refine ⟨s, hs, hsf, ?_⟩
      rw [load_append]; omega
  | store st _ ih => exact ih

/-- **C78** (room). While a leader hears nothing from or about a peer (and the membership stays), the messages with entries or
a snapshot it makes for it come out of the room it had, however often it is ticked, asked to propose, or told by others. -/
theorem C78_flow_control {env : Env} {j : Nat} {x y : NodeHist} {p : Progress} (hx : NodeReach env x) (hl : x.node.raft.state = .leader) (hj : j ≠ x.node.raft.id)
    (hp : x.node.raft.pr j = some p) (hr : Unheard env j x y) :
    ∃ ms q, y.made = x.made ++ ms ∧ y.node.raft.pr j = some q ∧ load j ms + q.room ≤ p.room := by
  obtain ⟨_, _, ms, h1, h2⟩ := hr.flow hl hj
  obtain ⟨q, hq, _, h3⟩ := h2 p hp (hx.windows.fair hp).1
  exact ⟨ms, q, h1, hq, h3⟩

/-- The window of a node is the configured one throughout an incarnation. -/
theorem C78_window_configured {env : Env} {cfg : Config} {st : Storage} {rng : Nat} {n : RawNode} (h : RawNode.new env cfg st rng = .ok n) {x : NodeHist}
    {sent : List Message} (hr : Relation.ReflTransGen (NodeStep env) ⟨n, sent⟩ x) : x.node.raft.trk.maxInflight = cfg.maxInflightMsgs := by
  induction hr with
  | refl => exact (RawNode.new_windows h).2
  | tail _ h ih =>
    cases h with
    | call c _ _ _ h => exact (Wnd.run h).1.trans ih
    | ready ccs h => exact (Wnd.handleReady h).1.trans ih
    | compact => exact ih
    | createSnapshot => exact ih

/-- **C78** (window). In particular there are never more of them than `max_inflight_msgs`. -/
theorem C78_window {env : Env} {j : Nat} {x y : NodeHist} {p : Progress} (hx : NodeReach env x) (hl : x.node.raft.state = .leader) (hj : j ≠ x.node.raft.id)
    (hp : x.node.raft.pr j = some p) (hr : Unheard env j x y) :
    ∃ ms, y.made = x.made ++ ms ∧ load j ms ≤ x.node.raft.trk.maxInflight.toNat := by
  obtain ⟨ms, q, h1, _, h3⟩ := C78_flow_control hx hl hj hp hr
  exact ⟨ms, h1, by have := (hx.windows.fair hp).2; omega⟩

namespace FlowDemo

/-- Node 1 of three voters with a window of two messages, after the calls `cs`. -/
def node (cs : List Call) : RawNode :=
  match (do let n ← RawNode.new Demo.env { Demo.cfg 1 with maxInflightMsgs := 2 } Demo.store 0; cs.foldlM (fun n c => c.run Demo.env n) n : Res RawNode) with
  | .ok n => n
  | _ => default

def vote : Call := .step { type := .voteResp, src := 2, «to» := 1, term := 1 }
def ack : Call := .step { type := .appResp, src := 2, «to» := 1, term := 1, index := 1 }
def ack3 : Call := .step { type := .appResp, src := 3, «to» := 1, term := 1, index := 1 }

/-- Elected, and node 2 has the first entry. -/
def start : NodeHist := ⟨node [.campaign, vote, ack], []⟩

theorem start_reach : NodeReach Demo.env start := by
  have h0 : NodeReach Demo.env ⟨node [], []⟩ := .start { Demo.cfg 1 with maxInflightMsgs := 2 } Demo.store 0 (by decide +kernel)
  have h1 : NodeReach Demo.env ⟨node [.campaign], []⟩ := .step h0 (.call .campaign trivial trivial trivial (by decide +kernel))
  have h2 : NodeReach Demo.env ⟨node [.campaign, vote], []⟩ := .step h1 (.call vote trivial (fun h => by rcases h with h | h | h <;> cases h) (fun h => by cases h) (by decide +kernel))
  exact .step h2 (.call ack trivial (fun h => by rcases h with h | h | h <;> cases h) (fun h => by cases h) (by decide +kernel))

def more (k : Nat) : NodeHist := ⟨node ([.campaign, vote, ack] ++ List.replicate k (.propose [7])), []⟩

theorem more_unheard : Unheard Demo.env 2 start (more 4) := by
  have h1 : Unheard Demo.env 2 start (more 1) := .call (.propose [7]) .refl trivial trivial trivial trivial (by decide +kernel) (by decide +kernel) (by decide +kernel)
  have h2 : Unheard Demo.env 2 start (more 2) := .call (.propose [7]) h1 trivial trivial trivial trivial (by decide +kernel) (by decide +kernel) (by decide +kernel)
  have h3 : Unheard Demo.env 2 start (more 3) := .call (.propose [7]) h2 trivial trivial trivial trivial (by decide +kernel) (by decide +kernel) (by decide +kernel)
  exact .call (.propose [7]) h3 trivial trivial trivial trivial (by decide +kernel) (by decide +kernel) (by decide +kernel)

/-- Four proposals, but the window of two was full after two: nothing more is sent to node 2 before it answers. -/
example : NodeReach Demo.env start ∧ Unheard Demo.env 2 start (more 4) ∧ start.node.raft.state = .leader ∧ start.node.raft.id = 1 ∧
    (start.node.raft.pr 2).map Progress.room = some 2 ∧ load 2 start.made = 1 ∧ load 2 (more 1).made = 2 ∧ load 2 (more 2).made = 3 ∧ load 2 (more 4).made = 3 ∧
    ((more 4).node.raft.pr 2).map Progress.room = some 0 :=
  ⟨start_reach, more_unheard, by decide +kernel⟩

/-- Node 3, which never answered, is probed: it was sent one message on the election, and nothing since. -/
example : (start.node.raft.pr 3).map Progress.room = some 0 ∧ load 3 start.made = 1 ∧ load 3 (more 4).made = 1 := by decide +kernel

end FlowDemo
end Craft
