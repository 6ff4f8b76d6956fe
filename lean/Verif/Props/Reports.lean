import Verif.Props.NodeTurn
import Verif.Dyn.Boot
import Verif.Dyn.BootDemo
import Verif.Dyn.Demo
import Verif.Cluster.Demo
import Verif.Props.Cluster
import Verif.Spec.Reports

/-! # C74 in clusters: everybody who reports a leader for a term reports the same one -/

namespace Craft

/-- Why a node may report a leader, given what was ever sent. -/
def HeardIn (net : List Message) (r : Raft) : Prop :=
  r.lead = 0 ∨ (r.state = .leader ∧ r.lead = r.id) ∨ ∃ m ∈ net, (m.type = .app ∨ m.type = .snap ∨ m.type = .heartbeat) ∧ m.src = r.lead ∧ m.term = r.term

theorem HeardIn.mono {net net' : List Message} {r : Raft} (h : HeardIn net r) (hs : ∀ m ∈ net, m ∈ net') : HeardIn net' r := by
  rcases h with h | h | ⟨m, h1, h2⟩
  · exact Or.inl h
  · exact Or.inr (Or.inl h)
  · exact Or.inr (Or.inr ⟨m, hs m h1, h2⟩)

theorem HeardIn.call {env : Env} {net : List Message} {c : Call} {n n' : RawNode} (hm : ∀ m, c = .step m → (m.type = .app ∨ m.type = .snap ∨ m.type = .heartbeat) →
    m ∈ net ∧ m.term ≠ 0) (h : c.run env n = .ok n') (hi : HeardIn net n.raft) : HeardIn net n'.raft := by
  obtain ⟨im, hh, t⟩ := Call.turn h
  rcases t.lead with ⟨k1, k2, k3⟩ | ⟨_, k⟩ | k | ⟨k1, k2⟩
  · have e : n'.raft.term = n.raft.term := (t.same k1).1
    have e2 : n'.raft.state = n.raft.state := k2
    have e3 : n'.raft.lead = n.raft.lead := k3
    have e4 : n'.raft.id = n.raft.id := t.id
    unfold HeardIn
    rw [e, e2, e3, e4]
    exact hi
  · exact Or.inl k
  · exact Or.inr (Or.inl k)
  · obtain ⟨m, rfl, hty, hsrc, ht⟩ := hh _ _ k2
    have hty' : m.type = .app ∨ m.type = .snap ∨ m.type = .heartbeat := by
      rcases hty with h | h | h
      · exact Or.inl h
      · exact Or.inr (Or.inr h)
      · exact Or.inr (Or.inl h)
    obtain ⟨h1, h2⟩ := hm m rfl hty'
    exact Or.inr (Or.inr ⟨m, h1, hty', hsrc, ht.resolve_right h2⟩)

theorem HeardIn.mute {env : Env} {net : List Message} {c : Call} {n n' : RawNode} (hc : ∀ m, c ≠ .step m) (h : c.run env n = .ok n')
    (hi : HeardIn net n.raft) : HeardIn net n'.raft := hi.call (fun m e => absurd e (hc m)) h

theorem HeardIn.take {env : Env} {net : List Message} {n n' : RawNode} {rd : Ready} (h : n.takeReady env = .ok (n', rd)) (hi : HeardIn net n.raft) :
    HeardIn net n'.raft := by
  unfold RawNode.takeReady at h
  obtain ⟨⟨n0, rd0⟩, h0, h1⟩ := Res.bind_eq_ok.1 h
  obtain ⟨st, _, h1⟩ := Res.bind_eq_ok.1 h1
  cases h1
  have k : HeardIn net n0.raft := hi.mute (env := env) (c := .getReady) (n' := n0) nofun (Res.bind_eq_ok.2 ⟨_, h0, rfl⟩)
  exact k

theorem HeardIn.advance {env : Env} {net : List Message} {n n' : RawNode} (h : n.advance = .ok n') (hi : HeardIn net n.raft) : HeardIn net n'.raft :=
  hi.mute (env := env) (c := .advance) nofun h

theorem HeardIn.applyConfChange {env : Env} {net : List Message} {n n' : RawNode} {cc : ConfChangeI} {cs : ConfState} (h : n.applyConfChange env cc = .ok (n', cs))
    (hi : HeardIn net n.raft) : HeardIn net n'.raft :=
  hi.mute (env := env) (c := .applyConfChange cc) nofun (Res.bind_eq_ok.2 ⟨_, h, rfl⟩)

theorem HeardIn.applyAll {env : Env} {dec : Entry → Option ConfChangeI} {net : List Message} : ∀ {es : List Entry} {n n' : RawNode} {a a' : Members.App},
    Members.applyAll env dec es n a = .ok (n', a') → HeardIn net n.raft → HeardIn net n'.raft := by
  intro es
  induction es with
  | nil => intro n n' a a' h hi; cases h; exact hi
  | cons e es ih =>
    intro n n' a a' h hi
    unfold Members.applyAll at h
    split at h
    · exact ih h hi
    split at h
    · exact ih h hi
    · obtain ⟨⟨n1, cs⟩, h1, h⟩ := Res.bind_eq_ok.1 h
      exact ih h (hi.applyConfChange h1)

theorem HeardIn.handle {env : Env} {dec : Entry → Option ConfChangeI} {net : List Message} {n n' : RawNode} {a a' : Members.App} {rd : Ready}
    (h : Members.handle env dec n a = .ok (n', a', rd)) (hi : HeardIn net n.raft) : HeardIn net n'.raft := by
  unfold Members.handle at h
  obtain ⟨⟨n1, rd1⟩, h1, h⟩ := Res.bind_eq_ok.1 h
  obtain ⟨⟨n2, a2⟩, h2, h⟩ := Res.bind_eq_ok.1 h
  obtain ⟨n3, h3, h⟩ := Res.bind_eq_ok.1 h
  cases h
  exact ((hi.take h1).applyAll h2).advance (env := env) h3

theorem HeardIn.new {env : Env} {net : List Message} {c : Config} {st : Storage} {rng : Nat} {n : RawNode} (h : RawNode.new env c st rng = .ok n) :
    HeardIn net n.raft := Or.inl (RawNode.new_ok h).1.lead

theorem HeardIn.applied {env : Env} {net : List Message} {r r' : Raft} {cc : ConfChangeV2} {cs : ConfState} (h : r.applyConfChange env cc = .ok (r', cs))
    (hi : HeardIn net r) : HeardIn net r' := by
  unfold Raft.applyConfChange at h
  dsimp only at h
  split at h
  · cases h
  have t : Turn env { type := .hup } r r' := .switchToConfig h
  rcases t.lead with ⟨k1, k2, k3⟩ | ⟨_, k⟩ | k | ⟨k1, ⟨k2, _⟩⟩
  · unfold HeardIn
    rw [(t.same k1).1, k2, k3, t.id]
    exact hi
  · exact Or.inl k
  · exact Or.inr (Or.inl k)
  · rcases k2 with k2 | k2 | k2 <;> cases k2

theorem HeardIn.bootstrap {env : Env} {net : List Message} {peers : List (Nat × Bytes)} {n n' : RawNode} (hp : peers ≠ [])
    (h : n.bootstrap env peers = .ok (n', none)) : HeardIn net n'.raft := by
  unfold RawNode.bootstrap at h
  rw [if_neg hp] at h
  obtain ⟨l, h1, h⟩ := Res.bind_eq_ok.1 h
  obtain ⟨r, h2, h⟩ := Res.bind_eq_ok.1 h
  cases h
  have key : ∀ (ps : List (Nat × Bytes)) (a b : Raft), RawNode.bootstrapApply env ps a = .ok b → HeardIn net a → HeardIn net b := by
    intro ps
    induction ps with
    | nil => intro a b h hi; cases h; exact hi
    | cons p ps ih =>
      intro a b h hi
      unfold RawNode.bootstrapApply at h
      obtain ⟨⟨r1, cs⟩, h1, h⟩ := Res.bind_eq_ok.1 h
      exact ih r1 b h (hi.applied h1)
  exact key peers _ r h2 (Or.inl rfl)

namespace Members
open Cluster (Genesis)

/-- Every running node has a reason for the leader it reports. -/
def AllHeard (c : State) : Prop := ∀ p n a, c.proc p = .up n a → HeardIn c.net n.raft

theorem AllHeard.set {c : State} {p : Nat} {n' : RawNode} {a' : App} (h : AllHeard c) (hn : HeardIn c.net n'.raft) : AllHeard (c.set p (.up n' a')) := by
  intro q n a hq
  by_cases e : q = p
  · subst e
    simp only [State.set, if_true, Proc.up.injEq] at hq
    obtain ⟨rfl, _⟩ := hq
    exact hn
  · simp only [State.set, if_neg e] at hq
    exact h q n a hq

theorem AllHeard.stop {c : State} {p : Nat} {st : Storage} (h : AllHeard c) : AllHeard (c.set p (.down st)) := by
  intro q n a hq
  by_cases e : q = p
  · subst e
    simp [State.set] at hq
  · simp only [State.set, if_neg e] at hq
    exact h q n a hq

theorem AllHeard.more {c : State} {net : List Message} {out : List Cluster.Delivered} {led : List Cluster.Led} {known : List Known} (h : AllHeard c) :
    AllHeard { c with net := c.net ++ net, out := out, led := led, known := known } :=
  fun q n a hq => (h q n a hq).mono fun _ hm => List.mem_append_left _ hm

theorem AllHeard.step {env : Env} {dec : Entry → Option ConfChangeI} {c c' : State}
    (hz : ∀ m ∈ c.net, (m.type = .app ∨ m.type = .snap ∨ m.type = .heartbeat) → m.term ≠ 0) (h : AllHeard c) (hs : Step env dec c c') : AllHeard c' := by
  cases hs with
  | start p cfg rng hp hid hap hn => exact h.set (.new hn)
  | call p x hp hx hst hr => exact h.set ((h _ _ _ hp).mute hst hr)
  | deliver p m hp hm hto hr => exact h.set ((h _ _ _ hp).call (fun m' e hty => by cases e; exact ⟨hm, hz m hm hty⟩) hr)
  | inject p m hp hv hr =>
    refine h.set ((h _ _ _ hp).call (fun m' e hty => ?_) hr)
    cases e
    refine absurd ?_ hv
    unfold Cluster.Vital
    rcases hty with h | h | h <;> simp [h]
  | ready p hp hr => exact (h.set ((h _ _ _ hp).handle hr)).more
  | compact p i hp hi hi2 hr => have k := h _ _ _ hp; exact h.set k
  | createSnapshot p data hp hr => have k := h _ _ _ hp; exact h.set k
  | crash p hp => exact h.stop
  | crashReady p some k hp ht hsub => exact h.stop.more

end Members

namespace Dyn
open Members Boot
variable {env : Env} {dec : Entry → Option ConfChangeI}

/-- A leader's message was sent by somebody who won its term. -/
theorem MGen.Rel.sender {G : MGen} {c : State} {g : DState} (hr : G.Rel c g) {m : Message} (hm : m ∈ c.net) (hty : FromLeader m) :
    m.term ≠ 0 ∧ ∃ lg, DMsg.lead m.term m.src lg ∈ g.net := by
  have key : ∃ lg, DMsg.lead m.term m.src lg ∈ g.net := by
    have := hr.net m hm
    unfold MGen.MsgOk at this
    rcases hty with h | h | h <;> rw [h] at this
    · obtain ⟨_, lg, ⟨h1, rfl⟩, _⟩ := this; exact ⟨lg, h1⟩
    · obtain ⟨_, _, _, lg, ⟨h1, rfl⟩, _⟩ := this; exact ⟨lg, h1⟩
    · obtain ⟨⟨_, lg, ⟨h1, rfl⟩, _⟩, _⟩ := this; exact ⟨lg, h1⟩
  obtain ⟨lg, h⟩ := key
  have := (hr.reach.inv.leadOk _ _ _ h).1
  exact ⟨by omega, lg, h⟩

/-- What goes with a reported leader. -/
theorem MGen.Rel.reports {G : MGen} {c : State} {g : DState} (hr : G.Rel c g) (ha : AllHeard c) :
    (∀ p q l l' T, c.Reports p l T → c.Reports q l' T → l = l') ∧
    (∀ p q l T, c.Reports p l T → c.EverLed q T → l = q) ∧
    (∀ p l T, c.Reports p l T → ∀ m ∈ c.net, FromLeader m → m.term = T → m.src = l) ∧
    (∀ p l T, c.Reports p l T → (l = p ∧ ∃ v, c.Leads p T v) ∨ ∃ m ∈ c.net, FromLeader m ∧ m.term = T ∧ m.src = l) := by
  have why : ∀ p l T, c.Reports p l T → (l = p ∧ ∃ v, c.Leads p T v) ∨ ∃ m ∈ c.net, FromLeader m ∧ m.term = T ∧ m.src = l := by
    intro p l T ⟨h0, n, a, hp, h1, h2⟩
    rcases ha p n a hp with h | ⟨h3, h4⟩ | ⟨m, h3, h4, h5, h6⟩
    · exact absurd (h1.symm.trans h) h0
    · refine Or.inl ⟨?_, _, n, a, hp, h3, h2, rfl⟩
      obtain ⟨s, _, _, k⟩ := hr.one hp
      rw [← h1, h4]
      exact k.id
    · exact Or.inr ⟨m, h3, h4, h6.trans h2, h5.trans h1⟩
  have mm := hr.election.2
  have ll := hr.election.1
  have lm : ∀ p T, c.EverLed p T → ∀ m ∈ c.net, FromLeader m → m.term = T → m.src = p := by
    intro p T hp m hm hty ht
    obtain ⟨_, lg, hl⟩ := hr.sender hm hty
    rw [ht] at hl
    rcases hp with ⟨v, n, _, hp, hs, rfl, _⟩ | ⟨v, hp⟩
    · obtain ⟨s, h1, h2, h3⟩ := hr.one hp
      exact (h1.inv.leadSame (h2 _ hl) (h3.lead h1 hs)).1
    · obtain ⟨lg', e1, _⟩ := hr.led _ hp
      exact (hr.reach.inv.leadSame hl e1).1
  have c1 : ∀ p q l T, c.Reports p l T → c.EverLed q T → l = q := by
    intro p q l T h hq
    rcases why p l T h with ⟨rfl, v, hv⟩ | ⟨m, h1, h2, h3, h4⟩
    · exact ll _ _ _ (Or.inl ⟨v, hv⟩) hq
    · rw [← h4]; exact lm q T hq m h1 h2 h3
  have c2 : ∀ p l T, c.Reports p l T → ∀ m ∈ c.net, FromLeader m → m.term = T → m.src = l := by
    intro p l T h m hm hty ht
    rcases why p l T h with ⟨rfl, v, hv⟩ | ⟨m', h1, h2, h3, h4⟩
    · exact lm _ T (Or.inl ⟨v, hv⟩) m hm hty ht
    · rw [← h4]; exact mm m hm m' h1 hty h2 (ht.trans h3.symm)
  refine ⟨fun p q l l' T h h' => ?_, c1, c2, why⟩
  rcases why q l' T h' with ⟨rfl, v, hv⟩ | ⟨m, h1, h2, h3, h4⟩
  · exact c1 p _ l T h (Or.inl ⟨v, hv⟩)
  · exact (c2 p l T h m h1 h2 h3).symm.trans h4

/-- C74 (clusters whose membership changes). All nodes that report a leader for the same term report the same one; it is the
one that leads or led that term, if any did; all append, snapshot and heartbeat messages ever sent in that term are its own;
and the node itself leads or such a message was sent. -/
theorem C74_members {G : Cluster.Genesis} {c : State} (hG : GenesisOK dec G) (h : Members.Reach env dec G c) :
    (∀ p q l l' T, c.Reports p l T → c.Reports q l' T → l = l') ∧
    (∀ p q l T, c.Reports p l T → c.EverLed q T → l = q) ∧
    (∀ p l T, c.Reports p l T → ∀ m ∈ c.net, FromLeader m → m.term = T → m.src = l) ∧
    (∀ p l T, c.Reports p l T → (l = p ∧ ∃ v, c.Leads p T v) ∨ ∃ m ∈ c.net, FromLeader m ∧ m.term = T ∧ m.src = l) := by
  have ha : AllHeard c := by
    induction h with
    | init disk hd => intro p n a hq; cases hq
    | step h hs ih =>
      obtain ⟨g, hr⟩ := reach_rel hG h
      refine ih.step ?_ hs
      intro m hm hty
      exact (hr.sender hm hty).1
  obtain ⟨g, hr⟩ := reach_rel hG h
  exact hr.reports ha

/-- C74 (clusters started with `Bootstrap`). -/
theorem C74_bootstrapped {peers : List (Nat × Bytes)} {c : State} (hp : PeersOK env dec peers) (h : Boot.Reach env dec peers c) :
    (∀ p q l l' T, c.Reports p l T → c.Reports q l' T → l = l') ∧
    (∀ p q l T, c.Reports p l T → c.EverLed q T → l = q) ∧
    (∀ p l T, c.Reports p l T → ∀ m ∈ c.net, FromLeader m → m.term = T → m.src = l) ∧
    (∀ p l T, c.Reports p l T → (l = p ∧ ∃ v, c.Leads p T v) ∨ ∃ m ∈ c.net, FromLeader m ∧ m.term = T ∧ m.src = l) := by
  have ha : AllHeard c := by
    induction h with
    | init => intro p n a hq; cases hq
    | step h hs ih =>
      obtain ⟨g, hr⟩ := boot_reach hp h
      cases hs with
      | boot p cfg rng _ _ _ _ _ hb => exact ih.set (.bootstrap hp.some hb)
      | other hs _ =>
        refine ih.step ?_ hs
        intro m hm hty
        exact (hr.sender hm hty).1
  obtain ⟨g, hr⟩ := boot_reach hp h
  exact hr.reports ha

end Dyn

namespace Cluster
open Abs

/-- Every running node has a reason for the leader it reports. -/
def AllHeard (c : State) : Prop := ∀ p n, c.proc p = .up n → HeardIn c.net n.raft

theorem AllHeard.set {c : State} {p : Nat} {n' : RawNode} (h : AllHeard c) (hn : HeardIn c.net n'.raft) : AllHeard (c.set p (.up n')) := by
  intro q n hq
  by_cases e : q = p
  · subst e
    simp only [State.set, if_true, Proc.up.injEq] at hq
    subst hq
    exact hn
  · simp only [State.set, if_neg e] at hq
    exact h q n hq

theorem AllHeard.stop {c : State} {p : Nat} {st : Storage} (h : AllHeard c) : AllHeard (c.set p (.down st)) := by
  intro q n hq
  by_cases e : q = p
  · subst e
    simp [State.set] at hq
  · simp only [State.set, if_neg e] at hq
    exact h q n hq

theorem AllHeard.more {c : State} {net : List Message} {out : List Delivered} {led : List Led} (h : AllHeard c) :
    AllHeard { c with net := c.net ++ net, out := out, led := led } :=
  fun q n hq => (h q n hq).mono fun _ hm => List.mem_append_left _ hm

theorem AllHeard.step {env : Env} {c c' : State}
    (hz : ∀ m ∈ c.net, (m.type = .app ∨ m.type = .snap ∨ m.type = .heartbeat) → m.term ≠ 0) (h : AllHeard c) (hs : Step env c c') : AllHeard c' := by
  cases hs with
  | start p cfg rng hp hid hn => exact h.set (.new hn)
  | call p x hp hx hst hr => exact h.set ((h _ _ hp).mute hst hr)
  | deliver p m hp hm hto hr => exact h.set ((h _ _ hp).call (fun m' e hty => by cases e; exact ⟨hm, hz m hm hty⟩) hr)
  | inject p m hp hv hr =>
    refine h.set ((h _ _ hp).call (fun m' e hty => ?_) hr)
    cases e
    refine absurd ?_ hv
    unfold Cluster.Vital
    rcases hty with h | h | h <;> simp [h]
  | ready p hp hr =>
    refine (h.set ?_).more
    unfold RawNode.handleReady at hr
    obtain ⟨⟨n1, rd1⟩, h1, hr⟩ := Res.bind_eq_ok.1 hr
    obtain ⟨n2, h2, hr⟩ := Res.bind_eq_ok.1 hr
    obtain ⟨n3, h3, hr⟩ := Res.bind_eq_ok.1 hr
    cases hr
    cases h2
    exact ((h _ _ hp).take h1).advance (env := env) h3
  | compact p i hp hi hr => have k := h _ _ hp; exact h.set k
  | createSnapshot p i cs data hp hi hcs hr => have k := h _ _ hp; exact h.set k
  | crash p hp => exact h.stop
  | crashReady p some k hp ht hsub => exact h.stop.more

/-- A leader's message was sent by somebody who won its term. -/
theorem Gen.Rel.sender {G : Gen} {c : State} {g : AState} (hr : G.Rel c g) {m : Message} (hm : m ∈ c.net) (hty : FromLeader m) :
    m.term ≠ 0 ∧ ∃ lg, AMsg.lead m.term m.src lg ∈ g.net := by
  have key : ∃ lg, AMsg.lead m.term m.src lg ∈ g.net := by
    have := hr.net m hm
    unfold Gen.MsgOk at this
    rcases hty with h | h | h <;> rw [h] at this
    · obtain ⟨_, lg, ⟨h1, rfl⟩, _⟩ := this; exact ⟨lg, h1⟩
    · obtain ⟨_, _, _, lg, ⟨h1, rfl⟩, _⟩ := this; exact ⟨lg, h1⟩
    · obtain ⟨⟨_, lg, ⟨h1, rfl⟩, _⟩, _⟩ := this; exact ⟨lg, h1⟩
  obtain ⟨lg, h⟩ := key
  have := (hr.reach.inv.leadOk _ _ _ h).1
  exact ⟨by omega, lg, h⟩

/-- C74 (fixed membership). All nodes that report a leader for the same term report the same one; it is the one that leads
or led that term, if any did; all append, snapshot and heartbeat messages ever sent in that term are its own; and the node
itself leads or such a message was sent. -/
theorem C74_reported_leader {env : Env} {G : Genesis} {c : State} (hG : G.OK) (h : Reach env G c) :
    (∀ p q l l' T, c.Reports p l T → c.Reports q l' T → l = l') ∧
    (∀ p q l T, c.Reports p l T → c.EverLed q T → l = q) ∧
    (∀ p l T, c.Reports p l T → ∀ m ∈ c.net, FromLeader m → m.term = T → m.src = l) ∧
    (∀ p l T, c.Reports p l T → (l = p ∧ ∃ v, c.Leads p T v) ∨ ∃ m ∈ c.net, FromLeader m ∧ m.term = T ∧ m.src = l) := by
  have ha : AllHeard c := by
    induction h with
    | init disk hd => intro p n hq; cases hq
    | step h hs ih =>
      refine ih.step ?_ hs
      intro m hm hty
      obtain ⟨g, hr⟩ := h.rel hG
      exact (hr.sender hm hty).1
  obtain ⟨ll, mm⟩ := C47_election_safety hG h
  obtain ⟨g, hr⟩ := h.rel hG
  have why : ∀ p l T, c.Reports p l T → (l = p ∧ ∃ v, c.Leads p T v) ∨ ∃ m ∈ c.net, FromLeader m ∧ m.term = T ∧ m.src = l := by
    intro p l T ⟨h0, n, hp, h1, h2⟩
    rcases ha p n hp with h | ⟨h3, h4⟩ | ⟨m, h3, h4, h5, h6⟩
    · exact absurd (h1.symm.trans h) h0
    · refine Or.inl ⟨?_, _, n, hp, h3, h2, rfl⟩
      obtain ⟨s, _, _, k⟩ := hr.one hp
      rw [← h1, h4]
      exact k.id
    · exact Or.inr ⟨m, h3, h4, h6.trans h2, h5.trans h1⟩
  have lm : ∀ p T, c.EverLed p T → ∀ m ∈ c.net, FromLeader m → m.term = T → m.src = p := by
    intro p T hp m hm hty ht
    obtain ⟨_, lg, hl⟩ := hr.sender hm hty
    rw [ht] at hl
    rcases hp with ⟨v, n, hp, hs, rfl, _⟩ | ⟨v, hp⟩
    · obtain ⟨s, h1, h2, h3⟩ := hr.one hp
      exact (h1.inv.leadSame (h2 _ hl) (h3.lead h1 hs)).1
    · obtain ⟨lg', e1, _⟩ := hr.led _ hp
      exact (hr.reach.inv.leadSame hl e1).1
  have c1 : ∀ p q l T, c.Reports p l T → c.EverLed q T → l = q := by
    intro p q l T h hq
    rcases why p l T h with ⟨rfl, v, hv⟩ | ⟨m, h1, h2, h3, h4⟩
    · exact ll _ _ _ (Or.inl ⟨v, hv⟩) hq
    · rw [← h4]; exact lm q T hq m h1 h2 h3
  have c2 : ∀ p l T, c.Reports p l T → ∀ m ∈ c.net, FromLeader m → m.term = T → m.src = l := by
    intro p l T h m hm hty ht
    rcases why p l T h with ⟨rfl, v, hv⟩ | ⟨m', h1, h2, h3, h4⟩
    · exact lm _ T (Or.inl ⟨v, hv⟩) m hm hty ht
    · rw [← h4]; exact mm m hm m' h1 hty h2 (ht.trans h3.symm)
  refine ⟨fun p q l l' T h h' => ?_, c1, c2, why⟩
  rcases why q l' T h' with ⟨rfl, v, hv⟩ | ⟨m, h1, h2, h3, h4⟩
  · exact c1 p _ l T h (Or.inl ⟨v, hv⟩)
  · exact (c2 p l T h m h1 h2 h3).symm.trans h4

/-! ## The hypotheses are met -/

/-- In a cluster of fixed membership: nodes 2 and 3 report node 2 as the leader of term 2 (and node 1, which is behind, nobody). -/
example : Demo.genesis.OK ∧ Reach Craft.Demo.env Demo.genesis Demo.last ∧ Demo.last.Reports 2 2 2 ∧ Demo.last.Reports 3 2 2 := by
  refine ⟨Demo.genesis_ok, Demo.last_reach, ⟨nofun, ?_⟩, ⟨nofun, ?_⟩⟩
  · cases h : Demo.last.proc 2 with
    | up n =>
      refine ⟨n, rfl, ?_⟩
      have : (match Demo.last.proc 2 with | .up n => (n.raft.lead, n.raft.term) | _ => (0, 0)) = (2, 2) := by decide +kernel
      rw [h] at this
      exact Prod.mk.inj this
    | down st =>
      have : (match Demo.last.proc 2 with | .up n => (n.raft.lead, n.raft.term) | _ => (0, 0)) = (2, 2) := by decide +kernel
      rw [h] at this; cases this
  · cases h : Demo.last.proc 3 with
    | up n =>
      refine ⟨n, rfl, ?_⟩
      have : (match Demo.last.proc 3 with | .up n => (n.raft.lead, n.raft.term) | _ => (0, 0)) = (2, 2) := by decide +kernel
      rw [h] at this
      exact Prod.mk.inj this
    | down st =>
      have : (match Demo.last.proc 3 with | .up n => (n.raft.lead, n.raft.term) | _ => (0, 0)) = (2, 2) := by decide +kernel
      rw [h] at this; cases this

end Cluster

namespace Dyn

/-- Reads off what a node reports. -/
theorem reports_of {c : Members.State} {p l T : Nat} (h0 : l ≠ 0)
    (h : (match c.proc p with | .up n _ => (n.raft.lead, n.raft.term) | _ => (0, 0)) = (l, T)) : c.Reports p l T := by
  refine ⟨h0, ?_⟩
  cases hp : c.proc p with
  | up n a => rw [hp] at h; exact ⟨n, a, rfl, Prod.mk.inj h⟩
  | down st => rw [hp] at h; exact absurd (Prod.mk.inj h).1.symm h0

/-- Where node 4 replaced node 3 and leads: nodes 2 and 4 report it. -/
example : Demo.last.Reports 2 4 2 ∧ Demo.last.Reports 4 4 2 := ⟨reports_of nofun (by decide +kernel), reports_of nofun (by decide +kernel)⟩

/-- Where nodes 1 and 2 were bootstrapped and node 3 joined and leads: nodes 2 and 3 report it. -/
example : BootDemo.last.Reports 2 3 3 ∧ BootDemo.last.Reports 3 3 3 := ⟨reports_of nofun (by decide +kernel), reports_of nofun (by decide +kernel)⟩

end Dyn
end Craft
