import Verif.Dyn.Reads
import Verif.Dyn.Safety
import Verif.Node.Hush
import Verif.Spec.MembersReads

/-! # Read requests while the membership changes: the cluster -/

namespace Craft.Dyn
open Spec Members ReadInv
open Cluster (askCtx)

/-- An allowed action that succeeds is a step. -/
theorem act_step {env : Env} {dec : Entry → Option ConfChangeI} {c c' : State} (a : Act) (ha : a.Allowed c) (hr : a.run env dec c = .ok c') :
    Members.Step env dec c c' := by
  cases a with
  | start p cfg rng =>
    obtain ⟨st, h1, h2, h3, _⟩ := ha
    simp only [Act.run, h1] at hr
    obtain ⟨n, h4, h5⟩ := Res.bind_eq_ok.1 hr
    cases h5
    exact .start p cfg rng h1 h2 h3 h4
  | call p x =>
    obtain ⟨⟨n, a, h1⟩, h2, h3⟩ := ha
    simp only [Act.run, h1] at hr
    obtain ⟨n', h4, h5⟩ := Res.bind_eq_ok.1 hr
    cases h5
    exact .call p x h1 h2 h3 h4
  | deliver p m =>
    obtain ⟨⟨n, a, h1⟩, h2, h3⟩ := ha
    simp only [Act.run, h1] at hr
    obtain ⟨n', h4, h5⟩ := Res.bind_eq_ok.1 hr
    cases h5
    exact .deliver p m h1 h2 h3 h4
  | ready p =>
    obtain ⟨n, a, h1⟩ := ha
    simp only [Act.run, h1] at hr
    obtain ⟨⟨n', a', rd⟩, h4, h5⟩ := Res.bind_eq_ok.1 hr
    cases h5
    exact .ready p h1 h4
  | compact p i =>
    obtain ⟨n, a, h1, h2, h3⟩ := ha
    simp only [Act.run, h1] at hr
    obtain ⟨⟨st, e⟩, h4, h5⟩ := Res.bind_eq_ok.1 hr
    cases h5
    exact .compact p i h1 h2 h3 h4
  | createSnapshot p data =>
    obtain ⟨n, a, h1⟩ := ha
    simp only [Act.run, h1] at hr
    obtain ⟨⟨st, e⟩, h4, h5⟩ := Res.bind_eq_ok.1 hr
    cases h5
    exact .createSnapshot p data h1 h4
  | crash p =>
    obtain ⟨n, a, h1⟩ := ha
    simp only [Act.run, h1] at hr
    cases hr
    exact .crash p h1
  | crashReady p keep k =>
    obtain ⟨n, a, h1⟩ := ha
    simp only [Act.run, h1] at hr
    obtain ⟨⟨n1, rd⟩, h4, h5⟩ := Res.bind_eq_ok.1 hr
    cases h5
    exact .crashReady p _ k h1 h4 fun m hm => (List.mem_filter.1 hm).1

/-- The node that is running. -/
def raftOf (c : State) (p : Nat) : Option Raft :=
  match c.proc p with
  | .up n _ => some n.raft
  | .down _ => none

theorem raftOf_up {c : State} {p : Nat} {n : RawNode} {a : App} (h : c.proc p = .up n a) : raftOf c p = some n.raft := by
  unfold raftOf; rw [h]

theorem raftOf_set {c : State} {p q : Nat} {x : Proc} (h : q ≠ p) : raftOf (c.set p x) q = raftOf c q := by
  unfold raftOf State.set
  dsimp only
  rw [if_neg h]

theorem raftOf_self {c : State} {p : Nat} {x : Proc} {r : Raft} (h : raftOf (c.set p x) p = some r) : ∃ n a, x = .up n a ∧ n.raft = r := by
  unfold raftOf State.set at h
  dsimp only at h
  rw [if_pos rfl] at h
  cases x with
  | down st => cases h
  | up n a => exact ⟨n, a, rfl, by simpa using h⟩

namespace MGen
variable (G : MGen)

/-- The invariant. -/
structure RR (g0 : DState) (net0 : List Message) (x : Bytes) (asked : List (Nat × Bytes)) (c : State) (g : DState) : Prop where
  rel : G.Rel c g
  since : Since g0 g
  reads : Net (G.mark g0 net0 x) asked c.net (raftOf c)
  settled : ∀ p n a, c.proc p = .up n a → Settled n.raft.core
  lax : ¬ G.strict

variable {G} {g0 : DState} {net0 : List Message} {x : Bytes} {asked : List (Nat × Bytes)} {g : DState} {c c' : State} {env : Env}

theorem Since.grows {g' : DState} (h : Since g0 g) (hg : g' = g ∨ ∃ p, PPath G.Q p g g') : Since g0 g' := by
  rcases hg with rfl | ⟨p, hp⟩
  · exact h
  · refine ⟨fun m hm => hp.net m (h.net m hm), fun v => ?_⟩
    by_cases hv : v = p
    · subst hv; exact Nat.le_trans (h.term v) hp.term_le
    · rw [hp.other hv]; exact h.term v

/-- One process changed, nothing sent. -/
theorem RR.set {asked' : List (Nat × Bytes)} {g' : DState} {p : Nat} {y : Proc} (h : G.RR g0 net0 x asked c g) (hrel : G.Rel (c.set p y) g')
    (hg : g' = g ∨ ∃ p, PPath G.Q p g g') (ha : ∀ y ∈ asked, y ∈ asked')
    (hx : ∀ n a, y = .up n a → RI (G.mark g0 net0 x) asked' c.net p n.raft.term n.raft.reads n.raft.msgs ∧ Settled n.raft.core) :
    G.RR g0 net0 x asked' (c.set p y) g' := by
  refine ⟨hrel, h.since.grows hg, h.reads.set (p := p) ha (fun q hq => raftOf_set hq) fun r hr => ?_, fun q n a hq => ?_, h.lax⟩
  · obtain ⟨n, a, h1, rfl⟩ := raftOf_self hr
    exact (hx n a h1).1
  · unfold State.set at hq
    dsimp only at hq
    split at hq
    · exact (hx n a hq).2
    · exact h.settled q n a hq

/-- One process changed, some of its messages sent. -/
theorem RR.sent {g' : DState} {p : Nat} {y : Proc} {n0 : RawNode} {a0 : App} {ms : List Message} {out led known} (h : G.RR g0 net0 x asked c g)
    (hrel : G.Rel { c.set p y with net := c.net ++ ms, out := out, led := led, known := known } g') (hg : g' = g ∨ ∃ p, PPath G.Q p g g')
    (hp : c.proc p = .up n0 a0) (hms : ∀ m ∈ ms, m ∈ n0.raft.msgs)
    (hx : ∀ n a, y = .up n a → RI (G.mark g0 net0 x) asked (c.net ++ ms) p n.raft.term n.raft.reads n.raft.msgs ∧ Settled n.raft.core) :
    G.RR g0 net0 x asked { c.set p y with net := c.net ++ ms, out := out, led := led, known := known } g' := by
  refine ⟨hrel, h.since.grows hg, h.reads.send (up' := raftOf (c.set p y)) (raftOf_up hp) hms (fun q hq => raftOf_set hq) fun r hr => ?_, fun q n a hq => ?_, h.lax⟩
  · obtain ⟨n, a, h1, rfl⟩ := raftOf_self hr
    exact (hx n a h1).1
  · have hq : (c.set p y).proc q = .up n a := hq
    unfold State.set at hq
    dsimp only at hq
    split at hq
    · exact (hx n a hq).2
    · exact h.settled q n a hq

/-- A call other than a read request. -/
theorem RR.sim {p : Nat} {n n' : RawNode} {a : App} {im : Message} (hK : G.Run g0) (h : G.RR g0 net0 x asked c g) (hp : c.proc p = .up n a)
    (hsim : Sim env im n.raft n'.raft) (hok : ∀ s : DState, G.Up g p n a s → G.MsgOk s.net im) (him : MsgRI (G.mark g0 net0 x) asked c.net im)
    (hto : im.type = .voteResp ∨ im.type = .heartbeat → im.to = p) (hty : im.type ≠ .readIndex) (hnet : im.type = .heartbeat → im ∈ c.net)
    (hto' : im.type = .heartbeatResp → im.to = p) : RI (G.mark g0 net0 x) asked c.net p n'.raft.term n'.raft.reads n'.raft.msgs := by
  have hpr := h.rel.proc p
  rw [hp] at hpr
  obtain ⟨s, hu⟩ := hpr
  obtain ⟨_, ms, hm, hpath⟩ := hsim
  rw [hm]
  exact path_ri hpath (fun c1 ms1 h1 => path_facts h1 hK (hu.path.run h.rel.reach) hu.rel (hok s hu) h.lax hu.linv hto (h.since.grows (Or.inr ⟨p, hu.path⟩)))
    (h.reads.proc p _ (raftOf_up hp)) him hty hnet hto'

/-- Any call: leaders stay settled. -/
theorem RR.calm {p : Nat} {n n' : RawNode} {a : App} {y : Call} (h : G.RR g0 net0 x asked c g) (hp : c.proc p = .up n a) (hy : y.Plain)
    (hst : y.Stamped) (hr : y.run env n = .ok n') (hok : ∀ s : DState, G.Up g p n a s → G.MsgOk s.net (y.msg env n))
    (hto : (y.msg env n).type = .voteResp ∨ (y.msg env n).type = .heartbeat → (y.msg env n).to = p) : Settled n'.raft.core := by
  have hpr := h.rel.proc p
  rw [hp] at hpr
  obtain ⟨s, hu⟩ := hpr
  intro hl hv hlen
  rcases Call.elected hy hst ⟨hu.linv.wf, hu.linv.com_last⟩ hr hl with ⟨e1, e2, _⟩ | hset
  · obtain ⟨_, ms, hm, hpath⟩ := Call.plain_sim hy hst hr
    obtain ⟨⟨s', p1, n1, m1⟩, _⟩ := path_done hpath (hu.path.run h.rel.reach) hu.rel (hok s hu) (fun hh => absurd hh h.lax) hu.linv hto
    exact settled_path (hu.path.run h.rel.reach) p1 hu.rel n1 e1 e2 (h.settled p n a hp) hl hv hlen
  · exact hset hl hv hlen

/-- A read request. -/
theorem RR.read {p : Nat} {n : RawNode} {a : App} {r' : Raft} {im : Message} {e : Option Err} (hK : G.Run g0) (h : G.RR g0 net0 x asked c g)
    (hp : c.proc p = .up n a) (ht : im.type = .readIndex) (h0 : im.term = 0) (hr : n.raft.step env im = .ok (r', e)) (hne : im.entries ≠ [])
    (hown : c.OwnVoter p) (hnew : n.raft.state = .leader → (p, askCtx im) ∉ asked) :
    RI (G.mark g0 net0 x) (asked ++ if n.raft.state = .leader then [(p, askCtx im)] else []) c.net p r'.term r'.reads r'.msgs := by
  have hpr := h.rel.proc p
  rw [hp] at hpr
  obtain ⟨s, hu⟩ := hpr
  obtain ⟨ms, hm, ho⟩ := Raft.step_readIndex_out ht h0 hr
  rw [hm]
  have hrs := hu.path.run h.rel.reach
  have hsn := h.since.grows (Or.inr ⟨p, hu.path⟩)
  refine readOut_ri (facts hK hrs hu.rel hsn) (h.reads.proc p _ (raftOf_up hp)) hne hnew h.reads.sent h.reads.old
    (fun hl h1 h2 => ?_) ho rfl
  obtain ⟨v, hv⟩ := List.length_eq_one_iff.1 h1
  have hcv : n.raft.trk.config.voters = { incoming := [v], outgoing := [] } := by
    have e2 := List.length_eq_zero_iff.1 h2
    have hv' : n.raft.trk.config.voters.incoming = [v] := hv
    have e2' : n.raft.trk.config.voters.outgoing = [] := e2
    cases hh : n.raft.trk.config.voters
    rw [hh] at hv' e2'
    dsimp only at hv' e2'
    rw [hv', e2']
  obtain ⟨o1, o2⟩ := hown n a hp hl v hcv
  exact single hK hrs hu.rel hsn hl hcv o1 o2 (h.settled p n a hp)

/-- Handling a Ready. -/
theorem RR.handled {p : Nat} {n n' : RawNode} {a a' : App} {rd : Ready} (h : G.RR g0 net0 x asked c g) (hp : c.proc p = .up n a)
    (hh : handle env G.dec n a = .ok (n', a', rd)) : rd.messages = n.raft.msgs ∧
      RI (G.mark g0 net0 x) asked (c.net ++ n.raft.msgs) p n'.raft.term n'.raft.reads n'.raft.msgs ∧ Settled n'.raft.core := by
  have hpr := h.rel.proc p
  rw [hp] at hpr
  obtain ⟨s, hu⟩ := hpr
  obtain ⟨rfl, s', hu', _⟩ := hu.ready h.rel.reach hh
  obtain ⟨st, hsv, htk⟩ := takeReady_eq (env := env) hu.linv
  unfold handle at hh
  rw [htk] at hh
  simp only [Res.ok_bind] at hh
  obtain ⟨⟨n2, a2⟩, hall, hh⟩ := Res.bind_eq_ok.1 hh
  obtain ⟨n3, hadv, hh⟩ := Res.bind_eq_ok.1 hh
  simp only [Res.pure_eq, Res.ok.injEq, Prod.mk.injEq] at hh
  obtain ⟨rfl, rfl, _⟩ := hh
  have hush := (Hush.applyAll _ hall).trans (Hush.advance hadv)
  obtain ⟨h1, ms, h2, h3⟩ := hush
  simp only [Prod.mk.injEq] at h1
  obtain ⟨h1, hterm⟩ := h1
  refine ⟨rfl, ?_, ?_⟩
  · rw [h1, h2, hterm.1]
    have hst : (if (readyOf env n).readStates = [] then n.raft.readStates else []) = [] := by
      show (if n.raft.readStates = [] then n.raft.readStates else []) = []
      split
      · assumption
      · rfl
    show RI _ _ _ _ n.raft.term { n.raft.reads with states := if (readyOf env n).readStates = [] then n.raft.readStates else [] } ([] ++ ms)
    rw [hst]
    refine RI.send (ms := ms) (h.reads.proc p _ (raftOf_up hp)).handed (fun m hm => ?_) fun m hm ht => ?_
    · unfold MsgRI
      rcases h3 m hm with h | h <;> rw [h] <;> trivial
    · rcases h3 m hm with h | h <;> rw [h] at ht <;> cases ht
  · intro hl
    exact settled_path (hu.path.run h.rel.reach) hu'.path hu.rel hu'.rel (hterm.2.symm.trans hl) hterm.1 (h.settled p n a hp) hl

theorem RR.act (hK : G.Run g0) (h : G.RR g0 net0 x asked c g) (a : Act)
    (ha : a.Allowed c) (hsafe : a.SafeReads c) (hnew : ∀ y ∈ a.asks c, y ∉ asked) (hr : a.run env G.dec c = .ok c')
    (hb : ∀ p, G.founder p → c.proc p = .down {} → c'.proc p = c.proc p) :
    ∃ g', G.RR g0 net0 x (asked ++ a.asks c) c' g' := by
  obtain ⟨g', hrel, hg⟩ := h.rel.step_grows (act_step a ha hr) h.lax hb
  refine ⟨g', ?_⟩
  have hsub : ∀ l, ∀ y ∈ asked, y ∈ asked ++ l := fun l y hy => List.mem_append_left _ hy
  cases a with
  | start p cfg rng =>
    obtain ⟨st, h1, h2, _⟩ := ha
    simp only [Act.run, h1] at hr
    obtain ⟨n, h3, h4⟩ := Res.bind_eq_ok.1 hr
    cases h4
    refine h.set hrel hg (hsub _) fun n' a' hn' => ?_
    cases hn'
    obtain ⟨hf, _⟩ := RawNode.new_ok h3
    obtain ⟨r1, r2, r3⟩ := hf.reads
    have hrd : n.raft.reads = { ro := { option := .safe }, states := [], waiting := [] } := by
      unfold Raft.reads
      rw [r1, r2, r3, show cfg.readOnlyOption = .safe from hsafe.1]
    rw [hf.msgs]
    exact ⟨.start hrd, fun hl => (by have := hf.state; rw [show n.raft.state = _ from hl] at this; cases this)⟩
  | call p y =>
    obtain ⟨⟨n, a, h1⟩, h2, h3⟩ := ha
    simp only [Act.run, h1] at hr
    obtain ⟨n', h4, h5⟩ := Res.bind_eq_ok.1 hr
    cases h5
    refine h.set hrel hg (hsub _) fun n'' a'' hn' => ?_
    cases hn'
    have hst : y.Stamped := by
      cases y with
      | step m => exact absurd rfl (h3 m)
      | _ => trivial
    have hty0 : ∀ t, t ∈ [MsgType.heartbeat, .heartbeatResp, .readIndexResp, .voteResp, .app, .appResp, .vote, .snap] → (y.msg env n).type ≠ t := by
      intro t ht he
      cases y with
      | step m => exact absurd rfl (h3 m)
      | tick => simp only [Call.msg] at he; split at he <;> (subst he; revert ht; decide)
      | _ => subst he; simp [Call.msg] at ht
    refine ⟨?_, h.calm h1 h2 hst h4 (fun s _ => ?_) fun hh => ?_⟩
    rotate_left
    · unfold MsgOk
      split <;> first | trivial | (rename_i ht; exact absurd ht (hty0 _ (by decide)))
    · rcases hh with hh | hh <;> exact absurd hh (hty0 _ (by decide))
    by_cases hx : ∃ ctx, y = .readIndex ctx
    · obtain ⟨ctx, rfl⟩ := hx
      obtain ⟨⟨n1, e⟩, h6, h7⟩ := Res.bind_eq_ok.1 h4
      simp only [Res.pure_eq, Res.ok.injEq] at h7
      subst h7
      have hlead : c.leads p = decide (n.raft.state = .leader) := by unfold State.leads; rw [h1]
      have hask : Act.asks c (.call p (.readIndex ctx)) = if n.raft.state = .leader then [(p, ctx)] else [] := by
        simp only [Act.asks, hlead, decide_eq_true_eq]
      rw [hask] at hnew ⊢
      exact h.read hK h1 (im := { type := .readIndex, entries := [{ data := ctx }] }) rfl rfl (onRaft_ok h6).1 (List.cons_ne_nil _ _) hsafe.2
        fun hl => hnew _ (by rw [if_pos hl]; exact List.mem_singleton.2 rfl)
    · have hask : Act.asks c (.call p y) = [] := by
        cases y <;> first | rfl | exact absurd ⟨_, rfl⟩ hx
      rw [hask, List.append_nil]
      have hty : ∀ t, t ∈ [MsgType.heartbeat, .heartbeatResp, .readIndex, .readIndexResp, .voteResp, .app, .appResp, .vote, .snap] → (y.msg env n).type ≠ t := by
        intro t ht he
        cases y with
        | step m => exact absurd rfl (h3 m)
        | readIndex ctx => exact hx ⟨_, rfl⟩
        | tick => simp only [Call.msg] at he; split at he <;> (subst he; revert ht; decide)
        | _ => subst he; simp [Call.msg] at ht
      refine h.sim hK h1 (Call.plain_sim h2 hst h4) (fun s _ => ?_) ?_ (fun hh => ?_) (hty _ (by decide)) (fun hh => absurd hh (hty _ (by decide)))
        fun hh => absurd hh (hty _ (by decide))
      · unfold MsgOk
        split <;> first | trivial | (rename_i ht; exact absurd ht (hty _ (by decide)))
      · unfold MsgRI
        split <;> first | trivial | (rename_i ht; exact absurd ht (hty _ (by decide)))
      · rcases hh with hh | hh <;> exact absurd hh (hty _ (by decide))
  | deliver p m =>
    obtain ⟨⟨n, a, h1⟩, h2, h3⟩ := ha
    simp only [Act.run, h1] at hr
    obtain ⟨n', h4, h5⟩ := Res.bind_eq_ok.1 hr
    cases h5
    refine h.set hrel hg (hsub _) fun n'' a'' hn' => ?_
    cases hn'
    have hlead : c.leads p = decide (n.raft.state = .leader) := by unfold State.leads; rw [h1]
    have hmo : ∀ s : DState, G.Up g p n a s → G.MsgOk s.net m := fun s hu => (h.rel.net m h2).mono hu.path.net
    have hst : (Call.step m).Stamped := by
      have hpr := h.rel.proc p
      rw [h1] at hpr
      obtain ⟨s, hu⟩ := hpr
      intro hty
      exact (msgOk_term (hu.path.run h.rel.reach) (hmo s hu) (by rcases hty with h | h | h <;> simp [h])).1
    refine ⟨?_, h.calm h1 (y := .step m) trivial hst h4 hmo fun _ => h3⟩
    by_cases hx : m.type = .readIndex
    · obtain ⟨⟨n1, e⟩, h6, h7⟩ := Res.bind_eq_ok.1 h4
      simp only [Res.pure_eq, Res.ok.injEq] at h7
      subst h7
      have hri := h.reads.sent m h2
      unfold MsgRI at hri
      rw [hx] at hri
      have hask : Act.asks c (.deliver p m) = if n.raft.state = .leader then [(p, askCtx m)] else [] := by
        simp only [Act.asks, hlead, decide_eq_true_eq, hx, and_true]
      rw [hask] at hnew ⊢
      unfold RawNode.step at h6
      rw [hx, if_neg (by decide), if_pos (Or.inr (by decide))] at h6
      exact h.read hK h1 hx hri.1 (onRaft_ok h6).1 hri.2 (hsafe.2 hx) fun hl => hnew _ (by rw [if_pos hl]; exact List.mem_singleton.2 rfl)
    · have hask : Act.asks c (.deliver p m) = [] := by
        simp only [Act.asks, hx, and_false, if_false]
      rw [hask, List.append_nil]
      exact h.sim hK h1 (Call.plain_sim (c := .step m) trivial hst h4) hmo (h.reads.sent m h2) (fun _ => h3) hx (fun _ => h2) fun _ => h3
  | ready p =>
    obtain ⟨n, a, h1⟩ := ha
    simp only [Act.run, h1] at hr
    obtain ⟨⟨n', a', rd⟩, h4, h5⟩ := Res.bind_eq_ok.1 hr
    cases h5
    obtain ⟨k1, k2⟩ := h.handled h1 h4
    rw [show Act.asks c (.ready p) = [] from rfl, List.append_nil]
    dsimp only at hrel ⊢
    refine h.sent hrel hg h1 (fun m hm => (by rw [k1] at hm; exact hm)) fun n'' a'' hn' => ?_
    cases hn'
    rw [k1]
    exact k2
  | compact p i =>
    obtain ⟨n, a, h1, h2, h3⟩ := ha
    simp only [Act.run, h1] at hr
    obtain ⟨⟨st, e⟩, h4, h5⟩ := Res.bind_eq_ok.1 hr
    cases h5
    refine h.set hrel hg (hsub _) fun n'' a'' hn' => ?_
    cases hn'
    have hpr := h.rel.proc p
    rw [h1] at hpr
    obtain ⟨s, hu⟩ := hpr
    refine ⟨(h.reads.proc p _ (raftOf_up h1)).ask (hsub _), fun hl => ?_⟩
    exact settled_path (hu.path.run h.rel.reach) .nil hu.rel (hu.compact h2 h3 h4).rel hl rfl (h.settled p n a h1) hl
  | createSnapshot p data =>
    obtain ⟨n, a, h1⟩ := ha
    simp only [Act.run, h1] at hr
    obtain ⟨⟨st, e⟩, h4, h5⟩ := Res.bind_eq_ok.1 hr
    cases h5
    refine h.set hrel hg (hsub _) fun n'' a'' hn' => ?_
    cases hn'
    have hpr := h.rel.proc p
    rw [h1] at hpr
    obtain ⟨s, hu⟩ := hpr
    refine ⟨(h.reads.proc p _ (raftOf_up h1)).ask (hsub _), fun hl => ?_⟩
    exact settled_path (hu.path.run h.rel.reach) .nil hu.rel (hu.createSnapshot h.rel.reach h4).rel hl rfl (h.settled p n a h1) hl
  | crash p =>
    obtain ⟨n, a, h1⟩ := ha
    simp only [Act.run, h1] at hr
    cases hr
    exact h.set hrel hg (hsub _) fun n'' a'' hn' => (by cases hn')
  | crashReady p keep k =>
    obtain ⟨n, a, h1⟩ := ha
    simp only [Act.run, h1] at hr
    obtain ⟨⟨n1, rd⟩, h4, h5⟩ := Res.bind_eq_ok.1 hr
    cases h5
    have hpr := h.rel.proc p
    rw [h1] at hpr
    obtain ⟨s, hu⟩ := hpr
    obtain ⟨st, hs1, hs2⟩ := takeReady_eq (env := env) hu.linv
    have hs2' : n.takeReady env = _ := hs2
    rw [hs2'] at h4
    simp only [Res.ok.injEq, Prod.mk.injEq] at h4
    obtain ⟨rfl, rfl⟩ := h4
    rw [show Act.asks c (.crashReady p keep k) = [] from rfl, List.append_nil]
    exact h.sent hrel hg h1 (fun m hm => (List.mem_filter.1 hm).1) fun n'' a'' hn' => (by cases hn')

theorem RR.run (hK : G.Run g0) (hb : ∀ p, ¬ G.founder p) (h : G.RR g0 net0 x asked c g)
    {asked' : List (Nat × Bytes)} (hr : Members.Run env G.dec (fun c a => a.SafeReads c) c asked' c') (hn : (asked ++ asked').Nodup) : ∃ g', G.RR g0 net0 x (asked ++ asked') c' g' := by
  induction hr with
  | nil => exact ⟨g, by rw [List.append_nil]; exact h⟩
  | @act c1 c2 asked1 a hr ha hs he ih =>
    rw [← List.append_assoc, List.nodup_append] at hn
    obtain ⟨g1, h1⟩ := ih hn.1
    obtain ⟨g2, h2⟩ := h1.act hK a ha hs (fun y hy hc => hn.2.2 y hc y hy rfl) he fun p hp => absurd hp (hb p)
    exact ⟨g2, by rw [← List.append_assoc]; exact h2⟩

/-- The mark moves to now, for a context that nobody has used. -/
theorem RR.remark (h : G.RR g0 net0 x asked c g) {x' : Bytes} (hx : ∀ p, (p, x') ∉ asked) : G.RR g c.net x' asked c g :=
  ⟨h.rel, ⟨fun _ h => h, fun _ => Nat.le_refl _⟩, h.reads.remark rfl hx, h.settled, h.lax⟩

end MGen
end Craft.Dyn
