import Verif.Dyn.ReadsMain
import Verif.Dyn.Home
import Verif.Cluster.LeaseInv
import Verif.Spec.MembersLease

/-! # Lease-based reads while the membership changes: the cluster -/

namespace Craft.Dyn
open Spec Members ReadInv LeaseInv
open Cluster (askCtx)

namespace MGen
variable (G : MGen)

/-- The moment when the facts in `g0` had been published. -/
def lmark (g0 : DState) (x : Bytes) : LMark where
  x := x
  Good := G.RGood g0
  mono _ _ _ h hg := ⟨hg.1, fun T1 pre cf hp ht => hg.2 T1 pre cf hp (Nat.le_trans ht h)⟩

/-- The invariant. -/
structure LR (g0 : DState) (x : Bytes) (asked : List (Nat × Nat × Bytes)) (c : State) (g : DState) : Prop where
  rel : G.Rel c g
  since : Since g0 g
  reads : LNet (G.lmark g0 x) asked c.net (raftOf c)
  settled : ∀ p n a, c.proc p = .up n a → Settled n.raft.core ∧ Home n.raft.core
  lax : ¬ G.strict

variable {G} {g0 : DState} {x : Bytes} {asked : List (Nat × Nat × Bytes)} {g : DState} {c c' : State} {env : Env}

/-- One process changed, nothing sent. -/
theorem LR.set {asked' : List (Nat × Nat × Bytes)} {g' : DState} {p : Nat} {y : Proc} (h : G.LR g0 x asked c g) (hrel : G.Rel (c.set p y) g')
    (hg : g' = g ∨ ∃ p, PPath G.Q p g g') (ha : ∀ y ∈ asked, y ∈ asked')
    (hx : ∀ n a, y = .up n a → LI (G.lmark g0 x) asked' p n.raft.term n.raft.reads n.raft.msgs ∧ Settled n.raft.core ∧ Home n.raft.core) :
    G.LR g0 x asked' (c.set p y) g' := by
  have hn := h.reads.send (p := p) (ms := []) (up' := raftOf (c.set p y)) ha (fun m hm => (by cases hm)) (fun q hq => raftOf_set hq) fun r hr => by
    obtain ⟨n, a, h1, rfl⟩ := raftOf_self hr
    exact (hx n a h1).1
  rw [List.append_nil] at hn
  refine ⟨hrel, h.since.grows hg, hn, fun q n a hq => ?_, h.lax⟩
  unfold State.set at hq
  dsimp only at hq
  split at hq
  · exact (hx n a hq).2
  · exact h.settled q n a hq

/-- One process changed, some of its messages sent. -/
theorem LR.sent {g' : DState} {p : Nat} {y : Proc} {n0 : RawNode} {a0 : App} {ms : List Message} {out led known} (h : G.LR g0 x asked c g)
    (hrel : G.Rel { c.set p y with net := c.net ++ ms, out := out, led := led, known := known } g') (hg : g' = g ∨ ∃ p, PPath G.Q p g g')
    (hp : c.proc p = .up n0 a0) (hms : ∀ m ∈ ms, m ∈ n0.raft.msgs)
    (hx : ∀ n a, y = .up n a → LI (G.lmark g0 x) asked p n.raft.term n.raft.reads n.raft.msgs ∧ Settled n.raft.core ∧ Home n.raft.core) :
    G.LR g0 x asked { c.set p y with net := c.net ++ ms, out := out, led := led, known := known } g' := by
  refine ⟨hrel, h.since.grows hg, h.reads.send (p := p) (up' := raftOf (c.set p y)) (fun _ hy => hy)
    (fun m hm => (h.reads.proc p _ (raftOf_up hp)).msgs m (hms m hm)) (fun q hq => raftOf_set hq) fun r hr => ?_, fun q n a hq => ?_, h.lax⟩
  · obtain ⟨n, a, h1, rfl⟩ := raftOf_self hr
    exact (hx n a h1).1
  · have hq : (c.set p y).proc q = .up n a := hq
    unfold State.set at hq
    dsimp only at hq
    split at hq
    · exact (hx n a hq).2
    · exact h.settled q n a hq

theorem lfacts {p : Nat} {k : Core} (h : Facts (G.mark g0 [] x) p k) : LFacts (G.lmark g0 x) p k := ⟨h.id, h.good⟩

/-- A call other than a read request. -/
theorem LR.sim {p : Nat} {n n' : RawNode} {a : App} {im : Message} (hK : G.Run g0) (h : G.LR g0 x asked c g) (hp : c.proc p = .up n a)
    (hsim : Sim env im n.raft n'.raft) (hok : ∀ s : DState, G.Up g p n a s → G.MsgOk s.net im) (him : MsgLI (G.lmark g0 x) asked im)
    (hto : im.type = .voteResp ∨ im.type = .heartbeat → im.to = p) (hty : im.type ≠ .readIndex) :
    LI (G.lmark g0 x) asked p n'.raft.term n'.raft.reads n'.raft.msgs := by
  have hpr := h.rel.proc p
  rw [hp] at hpr
  obtain ⟨s, hu⟩ := hpr
  obtain ⟨_, ms, hm, hpath⟩ := hsim
  rw [hm]
  exact path_li hpath (fun c1 ms1 h1 => lfacts (path_facts h1 hK (hu.path.run h.rel.reach) hu.rel (hok s hu) h.lax hu.linv hto
    (h.since.grows (Or.inr ⟨p, hu.path⟩)))) (h.reads.proc p _ (raftOf_up hp)) him hty

/-- Any call: leaders stay settled. -/
theorem LR.calm {p : Nat} {n n' : RawNode} {a : App} {y : Call} (h : G.LR g0 x asked c g) (hp : c.proc p = .up n a) (hy : y.Plain)
    (hst : y.Stamped) (hr : y.run env n = .ok n') (hok : ∀ s : DState, G.Up g p n a s → G.MsgOk s.net (y.msg env n))
    (hto : (y.msg env n).type = .voteResp ∨ (y.msg env n).type = .heartbeat → (y.msg env n).to = p) : Settled n'.raft.core ∧ Home n'.raft.core := by
  have hpr := h.rel.proc p
  rw [hp] at hpr
  obtain ⟨s, hu⟩ := hpr
  obtain ⟨h1, h2⟩ := h.settled p n a hp
  refine ⟨?_, ?_⟩
  rotate_left
  · obtain ⟨_, ms, hm, hpath⟩ := Call.plain_sim hy hst hr
    exact Home.path hpath (hu.path.run h.rel.reach) hu.rel (hok s hu) h.lax hu.linv hto h2
  intro hl hv hlen
  rcases Call.elected hy hst ⟨hu.linv.wf, hu.linv.com_last⟩ hr hl with ⟨e1, e2, _⟩ | hset
  · obtain ⟨_, ms, hm, hpath⟩ := Call.plain_sim hy hst hr
    obtain ⟨⟨s', p1, n1, m1⟩, _⟩ := path_done hpath (hu.path.run h.rel.reach) hu.rel (hok s hu) (fun hh => absurd hh h.lax) hu.linv hto
    exact settled_path (hu.path.run h.rel.reach) p1 hu.rel n1 e1 e2 h1 hl hv hlen
  · exact hset hl hv hlen

/-- A read request. -/
theorem LR.read {p : Nat} {n : RawNode} {a : App} {r' : Raft} {im : Message} {e : Option Err} (hK : G.Run g0) (h : G.LR g0 x asked c g)
    (hp : c.proc p = .up n a) (ht : im.type = .readIndex) (h0 : im.term = 0) (hr : n.raft.step env im = .ok (r', e)) (hfit : c.Fits p) :
    LI (G.lmark g0 x) (asked ++ if n.raft.state = .leader then [(p, n.raft.term, askCtx im)] else []) p r'.term r'.reads r'.msgs := by
  have hpr := h.rel.proc p
  rw [hp] at hpr
  obtain ⟨s, hu⟩ := hpr
  obtain ⟨ms, hm, ho⟩ := Raft.step_readIndex_out ht h0 hr
  rw [hm]
  have hrs := hu.path.run h.rel.reach
  have hsn := h.since.grows (Or.inr ⟨p, hu.path⟩)
  refine readOut_li (lfacts (facts hK hrs hu.rel hsn)) (h.reads.proc p _ (raftOf_up hp)) ht (fun hl h1 h2 => ?_) ho rfl
  obtain ⟨v, hv⟩ := List.length_eq_one_iff.1 h1
  have hcv : n.raft.trk.config.voters = { incoming := [v], outgoing := [] } := by
    have e2 := List.length_eq_zero_iff.1 h2
    have hv' : n.raft.trk.config.voters.incoming = [v] := hv
    have e2' : n.raft.trk.config.voters.outgoing = [] := e2
    cases hh : n.raft.trk.config.voters
    rw [hh] at hv' e2'
    dsimp only at hv' e2'
    rw [hv', e2']
  obtain ⟨s1, s2⟩ := h.settled p n a hp
  exact (facts (net0 := []) (x := x) hK hrs hu.rel hsn).good hl (Home.single s2 s1 hl hcv (hfit n a hp hl))

/-- Handling a Ready. -/
theorem LR.handled {p : Nat} {n n' : RawNode} {a a' : App} {rd : Ready} (h : G.LR g0 x asked c g) (hp : c.proc p = .up n a)
    (hh : handle env G.dec n a = .ok (n', a', rd)) : rd.messages = n.raft.msgs ∧
      LI (G.lmark g0 x) asked p n'.raft.term n'.raft.reads n'.raft.msgs ∧ Settled n'.raft.core ∧ Home n'.raft.core := by
  have hpr := h.rel.proc p
  rw [hp] at hpr
  obtain ⟨s, hu⟩ := hpr
  obtain ⟨rfl, s', hu', hsn⟩ := hu.ready h.rel.reach hh
  obtain ⟨st, hsv, htk⟩ := takeReady_eq (env := env) hu.linv
  unfold handle at hh
  rw [htk] at hh
  simp only [Res.ok_bind] at hh
  obtain ⟨⟨n2, a2⟩, hall, hh⟩ := Res.bind_eq_ok.1 hh
  obtain ⟨n3, hadv, hh⟩ := Res.bind_eq_ok.1 hh
  simp only [Res.pure_eq, Res.ok.injEq, Prod.mk.injEq] at hh
  obtain ⟨rfl, rfl, _⟩ := hh
  have hush := (Hush.applyAll _ hall).trans (Hush.advance hadv)
  obtain ⟨h1, ms, h2, h3⟩ := hush
  simp only [Prod.mk.injEq] at h1
  obtain ⟨h1, hterm⟩ := h1
  refine ⟨rfl, ?_, ?_⟩
  · rw [h1, h2, hterm.1]
    have hst : (if (readyOf env n).readStates = [] then n.raft.readStates else []) = [] := by
      show (if n.raft.readStates = [] then n.raft.readStates else []) = []
      split
      · assumption
      · rfl
    show LI _ _ _ n.raft.term { n.raft.reads with states := if (readyOf env n).readStates = [] then n.raft.readStates else [] } ([] ++ ms)
    rw [hst]
    refine LI.send (ms := ms) (h.reads.proc p _ (raftOf_up hp)).handed fun m hm => ?_
    unfold MsgLI
    rcases h3 m hm with h | h <;> rw [h] <;> trivial
  · obtain ⟨k1, k2⟩ := h.settled p n a hp
    refine ⟨fun hl => ?_, Home.ready h.rel.reach hu hu' hsn hterm.1 hterm.2 k2⟩
    exact settled_path (hu.path.run h.rel.reach) hu'.path hu.rel hu'.rel (hterm.2.symm.trans hl) hterm.1 k1 hl

theorem LR.act (hK : G.Run g0) (h : G.LR g0 x asked c g) (a : Act)
    (ha : a.Allowed c) (hlease : a.LeaseOption) (hfit : a.Fits c) (hr : a.run env G.dec c = .ok c')
    (hb : ∀ p, G.founder p → c.proc p = .down {} → c'.proc p = c.proc p) :
    ∃ g', G.LR g0 x (asked ++ a.leaseAsks c) c' g' := by
  obtain ⟨g', hrel, hg⟩ := h.rel.step_grows (act_step a ha hr) h.lax hb
  refine ⟨g', ?_⟩
  have hsub : ∀ l, ∀ y ∈ asked, y ∈ asked ++ l := fun l y hy => List.mem_append_left _ hy
  cases a with
  | start p cfg rng =>
    obtain ⟨st, h1, h2, _⟩ := ha
    simp only [Act.run, h1] at hr
    obtain ⟨n, h3, h4⟩ := Res.bind_eq_ok.1 hr
    cases h4
    refine h.set hrel hg (hsub _) fun n' a' hn' => ?_
    cases hn'
    obtain ⟨hf, _⟩ := RawNode.new_ok h3
    obtain ⟨r1, r2, r3⟩ := hf.reads
    have hrd : n.raft.reads = { ro := { option := .leaseBased }, states := [], waiting := [] } := by
      unfold Raft.reads
      rw [r1, r2, r3, show cfg.readOnlyOption = .leaseBased from hlease]
    rw [hf.msgs]
    have hfo : ∀ r, n.raft.core.state = r → r = .follower := fun r hr => hr.symm.trans hf.state
    exact ⟨.start hrd, (fun hl => (by have := hfo _ hl; cases this)), (fun hr => (by rcases hr with hr | hr <;> (have := hfo _ hr; cases this))), fun hl => (by have := hfo _ hl; cases this)⟩
  | call p y =>
    obtain ⟨⟨n, a, h1⟩, h2, h3⟩ := ha
    simp only [Act.run, h1] at hr
    obtain ⟨n', h4, h5⟩ := Res.bind_eq_ok.1 hr
    cases h5
    refine h.set hrel hg (hsub _) fun n'' a'' hn' => ?_
    cases hn'
    have hst : y.Stamped := by
      cases y with
      | step m => exact absurd rfl (h3 m)
      | _ => trivial
    have hty0 : ∀ t, t ∈ [MsgType.heartbeat, .heartbeatResp, .readIndexResp, .voteResp, .app, .appResp, .vote, .snap] → (y.msg env n).type ≠ t := by
      intro t ht he
      cases y with
      | step m => exact absurd rfl (h3 m)
      | tick => simp only [Call.msg] at he; split at he <;> (subst he; revert ht; decide)
      | _ => subst he; simp [Call.msg] at ht
    refine ⟨?_, h.calm h1 h2 hst h4 (fun s _ => ?_) fun hh => ?_⟩
    rotate_left
    · unfold MsgOk
      split <;> first | trivial | (rename_i ht; exact absurd ht (hty0 _ (by decide)))
    · rcases hh with hh | hh <;> exact absurd hh (hty0 _ (by decide))
    by_cases hx : ∃ ctx, y = .readIndex ctx
    · obtain ⟨ctx, rfl⟩ := hx
      obtain ⟨⟨n1, e⟩, h6, h7⟩ := Res.bind_eq_ok.1 h4
      simp only [Res.pure_eq, Res.ok.injEq] at h7
      subst h7
      have hlead : c.leads p = decide (n.raft.state = .leader) := by unfold State.leads; rw [h1]
      have hterm : c.termOf p = n.raft.term := by unfold State.termOf; rw [h1]
      have hask : Act.leaseAsks c (.call p (.readIndex ctx)) = if n.raft.state = .leader then [(p, n.raft.term, ctx)] else [] := by
        simp only [Act.leaseAsks, hlead, hterm, decide_eq_true_eq]
      rw [hask]
      exact h.read hK h1 (im := { type := .readIndex, entries := [{ data := ctx }] }) rfl rfl (onRaft_ok h6).1 hfit
    · have hask : Act.leaseAsks c (.call p y) = [] := by
        cases y <;> first | rfl | exact absurd ⟨_, rfl⟩ hx
      rw [hask, List.append_nil]
      have hty : ∀ t, t ∈ [MsgType.heartbeat, .heartbeatResp, .readIndex, .readIndexResp, .voteResp, .app, .appResp, .vote, .snap] → (y.msg env n).type ≠ t := by
        intro t ht he
        cases y with
        | step m => exact absurd rfl (h3 m)
        | readIndex ctx => exact hx ⟨_, rfl⟩
        | tick => simp only [Call.msg] at he; split at he <;> (subst he; revert ht; decide)
        | _ => subst he; simp [Call.msg] at ht
      refine h.sim hK h1 (Call.plain_sim h2 hst h4) (fun s _ => ?_) ?_ (fun hh => ?_) (hty _ (by decide))
      · unfold MsgOk
        split <;> first | trivial | (rename_i ht; exact absurd ht (hty _ (by decide)))
      · unfold MsgLI
        split <;> first | trivial | (rename_i ht; exact absurd ht (hty _ (by decide)))
      · rcases hh with hh | hh <;> exact absurd hh (hty _ (by decide))
  | deliver p m =>
    obtain ⟨⟨n, a, h1⟩, h2, h3⟩ := ha
    simp only [Act.run, h1] at hr
    obtain ⟨n', h4, h5⟩ := Res.bind_eq_ok.1 hr
    cases h5
    refine h.set hrel hg (hsub _) fun n'' a'' hn' => ?_
    cases hn'
    have hlead : c.leads p = decide (n.raft.state = .leader) := by unfold State.leads; rw [h1]
    have hmo : ∀ s : DState, G.Up g p n a s → G.MsgOk s.net m := fun s hu => (h.rel.net m h2).mono hu.path.net
    have hst : (Call.step m).Stamped := by
      have hpr := h.rel.proc p
      rw [h1] at hpr
      obtain ⟨s, hu⟩ := hpr
      intro hty
      exact (msgOk_term (hu.path.run h.rel.reach) (hmo s hu) (by rcases hty with h | h | h <;> simp [h])).1
    refine ⟨?_, h.calm h1 (y := .step m) trivial hst h4 hmo fun _ => h3⟩
    by_cases hx : m.type = .readIndex
    · obtain ⟨⟨n1, e⟩, h6, h7⟩ := Res.bind_eq_ok.1 h4
      simp only [Res.pure_eq, Res.ok.injEq] at h7
      subst h7
      have hri := h.reads.sent m h2
      unfold MsgLI at hri
      rw [hx] at hri
      have hterm : c.termOf p = n.raft.term := by unfold State.termOf; rw [h1]
      have hask : Act.leaseAsks c (.deliver p m) = if n.raft.state = .leader then [(p, n.raft.term, askCtx m)] else [] := by
        simp only [Act.leaseAsks, hlead, hterm, decide_eq_true_eq, hx, and_true]
      rw [hask]
      unfold RawNode.step at h6
      rw [hx, if_neg (by decide), if_pos (Or.inr (by decide))] at h6
      exact h.read hK h1 hx hri (onRaft_ok h6).1 (hfit hx)
    · have hask : Act.leaseAsks c (.deliver p m) = [] := by
        simp only [Act.leaseAsks, hx, and_false, if_false]
      rw [hask, List.append_nil]
      exact h.sim hK h1 (Call.plain_sim (c := .step m) trivial hst h4) hmo (h.reads.sent m h2) (fun _ => h3) hx
  | ready p =>
    obtain ⟨n, a, h1⟩ := ha
    simp only [Act.run, h1] at hr
    obtain ⟨⟨n', a', rd⟩, h4, h5⟩ := Res.bind_eq_ok.1 hr
    cases h5
    obtain ⟨k1, k2⟩ := h.handled h1 h4
    rw [show Act.leaseAsks c (.ready p) = [] from rfl, List.append_nil]
    dsimp only at hrel ⊢
    refine h.sent hrel hg h1 (fun m hm => (by rw [k1] at hm; exact hm)) fun n'' a'' hn' => ?_
    cases hn'
    exact k2
  | compact p i =>
    obtain ⟨n, a, h1, h2, h3⟩ := ha
    simp only [Act.run, h1] at hr
    obtain ⟨⟨st, e⟩, h4, h5⟩ := Res.bind_eq_ok.1 hr
    cases h5
    refine h.set hrel hg (hsub _) fun n'' a'' hn' => ?_
    cases hn'
    have hpr := h.rel.proc p
    rw [h1] at hpr
    obtain ⟨s, hu⟩ := hpr
    obtain ⟨k1, k2⟩ := h.settled p n a h1
    have hrel' := (hu.compact h2 h3 h4).rel
    refine ⟨(h.reads.proc p _ (raftOf_up h1)).mono (hsub _) (Nat.le_refl _), (fun hl => ?_), k2.runs, fun hl hi => ?_⟩
    · exact settled_path (hu.path.run h.rel.reach) .nil hu.rel hrel' hl rfl k1 hl
    · exact home_lead (hu.path.run h.rel.reach) .nil hu.rel hrel' hl rfl (k2.lead hl) hl hi
  | createSnapshot p data =>
    obtain ⟨n, a, h1⟩ := ha
    simp only [Act.run, h1] at hr
    obtain ⟨⟨st, e⟩, h4, h5⟩ := Res.bind_eq_ok.1 hr
    cases h5
    refine h.set hrel hg (hsub _) fun n'' a'' hn' => ?_
    cases hn'
    have hpr := h.rel.proc p
    rw [h1] at hpr
    obtain ⟨s, hu⟩ := hpr
    obtain ⟨k1, k2⟩ := h.settled p n a h1
    have hrel' := (hu.createSnapshot h.rel.reach h4).rel
    refine ⟨(h.reads.proc p _ (raftOf_up h1)).mono (hsub _) (Nat.le_refl _), (fun hl => ?_), k2.runs, fun hl hi => ?_⟩
    · exact settled_path (hu.path.run h.rel.reach) .nil hu.rel hrel' hl rfl k1 hl
    · exact home_lead (hu.path.run h.rel.reach) .nil hu.rel hrel' hl rfl (k2.lead hl) hl hi
  | crash p =>
    obtain ⟨n, a, h1⟩ := ha
    simp only [Act.run, h1] at hr
    cases hr
    exact h.set hrel hg (hsub _) fun n'' a'' hn' => (by cases hn')
  | crashReady p keep k =>
    obtain ⟨n, a, h1⟩ := ha
    simp only [Act.run, h1] at hr
    obtain ⟨⟨n1, rd⟩, h4, h5⟩ := Res.bind_eq_ok.1 hr
    cases h5
    have hpr := h.rel.proc p
    rw [h1] at hpr
    obtain ⟨s, hu⟩ := hpr
    obtain ⟨st, hs1, hs2⟩ := takeReady_eq (env := env) hu.linv
    have hs2' : n.takeReady env = _ := hs2
    rw [hs2'] at h4
    simp only [Res.ok.injEq, Prod.mk.injEq] at h4
    obtain ⟨rfl, rfl⟩ := h4
    rw [show Act.leaseAsks c (.crashReady p keep k) = [] from rfl, List.append_nil]
    exact h.sent hrel hg h1 (fun m hm => (List.mem_filter.1 hm).1) fun n'' a'' hn' => (by cases hn')

theorem LR.run (hK : G.Run g0) (hb : ∀ p, ¬ G.founder p) (h : G.LR g0 x asked c g)
    {asked' : List (Nat × Nat × Bytes)} (hr : LeaseRun env G.dec c asked' c') : ∃ g', G.LR g0 x (asked ++ asked') c' g' := by
  induction hr with
  | nil => exact ⟨g, by rw [List.append_nil]; exact h⟩
  | @act c1 c2 asked1 a hr ha hs ho he ih =>
    obtain ⟨g1, h1⟩ := ih
    obtain ⟨g2, h2⟩ := h1.act hK a ha hs ho he fun p hp => absurd hp (hb p)
    exact ⟨g2, by rw [← List.append_assoc]; exact h2⟩

/-- The mark moves to now, for a context that nobody has used. -/
theorem LR.remark (h : G.LR g0 x asked c g) {x' : Bytes} (hx : ∀ p T, (p, T, x') ∉ asked) : G.LR g x' asked c g :=
  ⟨h.rel, ⟨fun _ h => h, fun _ => Nat.le_refl _⟩, h.reads.remark hx, h.settled, h.lax⟩

end MGen
end Craft.Dyn
