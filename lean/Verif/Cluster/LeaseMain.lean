import Verif.Cluster.ReadsMain
import Verif.Cluster.LeaseInv

/-! # Lease-based reads in a cluster with a fixed membership -/

namespace Craft.Cluster
open Spec Abs ReadInv LeaseInv

namespace Gen
variable (G : Gen)

/-- The moment when the facts in `g0` had been published. -/
def lmark (g0 : AState) (x : Bytes) : LMark where
  x := x
  Good := G.Good g0
  mono _ _ _ h hg := ⟨hg.1, fun T1 pre hp ht => hg.2 T1 pre hp (Nat.le_trans ht h)⟩

/-- The invariant. -/
structure LR (g0 : AState) (x : Bytes) (asked : List (Nat × Nat × Bytes)) (c : State) (g : AState) : Prop where
  rel : G.Rel c g
  since : Since g0 g
  reads : LNet (G.lmark g0 x) asked c.net c.raft

variable {G} {g0 : AState} {x : Bytes} {asked : List (Nat × Nat × Bytes)} {g : AState} {c c' : State} {env : Env}

/-- One process changed, nothing sent. -/
theorem LR.set {asked' : List (Nat × Nat × Bytes)} {g' : AState} {p : Nat} {y : Proc} (h : G.LR g0 x asked c g) (hrel : G.Rel (c.set p y) g')
    (hg : g' = g ∨ ∃ p, PPath G.Q p g g') (ha : ∀ y ∈ asked, y ∈ asked')
    (hx : ∀ n, y = .up n → LI (G.lmark g0 x) asked' p n.raft.term n.raft.reads n.raft.msgs) : G.LR g0 x asked' (c.set p y) g' := by
  have hn := h.reads.send (p := p) (ms := []) (up' := (c.set p y).raft) ha (fun m hm => (by cases hm)) (fun q hq => State.raft_set hq) fun r hr => by
    obtain ⟨n, h1, rfl⟩ := State.raft_self hr
    exact hx n h1
  rw [List.append_nil] at hn
  exact ⟨hrel, h.since.grows hg, hn⟩

/-- One process changed, some of its messages sent. -/
theorem LR.sent {g' : AState} {p : Nat} {y : Proc} {n0 : RawNode} {ms : List Message} {out led} (h : G.LR g0 x asked c g)
    (hrel : G.Rel { c.set p y with net := c.net ++ ms, out := out, led := led } g') (hg : g' = g ∨ ∃ p, PPath G.Q p g g')
    (hp : c.proc p = .up n0) (hms : ∀ m ∈ ms, m ∈ n0.raft.msgs)
    (hx : ∀ n, y = .up n → LI (G.lmark g0 x) asked p n.raft.term n.raft.reads n.raft.msgs) :
    G.LR g0 x asked { c.set p y with net := c.net ++ ms, out := out, led := led } g' := by
  refine ⟨hrel, h.since.grows hg, h.reads.send (p := p) (up' := (c.set p y).raft) (fun _ hy => hy)
    (fun m hm => (h.reads.proc p _ (State.raft_up hp)).msgs m (hms m hm)) (fun q hq => State.raft_set hq) fun r hr => ?_⟩
  obtain ⟨n, h1, rfl⟩ := State.raft_self hr
  exact hx n h1

theorem lfacts {p : Nat} {k : Core} (h : Facts (G.mark g0 [] x) p k) : LFacts (G.lmark g0 x) p k := ⟨h.id, h.good⟩

/-- A call other than a read request. -/
theorem LR.sim {p : Nat} {n n' : RawNode} {im : Message} (hK : AReach G.Q G.τ g0) (h : G.LR g0 x asked c g) (hp : c.proc p = .up n)
    (hsim : Sim env im n.raft n'.raft) (hok : ∀ s : AState, G.Up g p n s → G.MsgOk s.net im) (him : MsgLI (G.lmark g0 x) asked im)
    (hto : im.type = .voteResp ∨ im.type = .heartbeat → im.to = p) (hty : im.type ≠ .readIndex) :
    LI (G.lmark g0 x) asked p n'.raft.term n'.raft.reads n'.raft.msgs := by
  have hpr := h.rel.proc p
  rw [hp] at hpr
  obtain ⟨s, hu⟩ := hpr
  obtain ⟨_, ms, hm, hpath⟩ := hsim
  rw [hm]
  exact path_li hpath (fun c1 ms1 h1 => lfacts (path_facts h1 hK (hu.path.reach h.rel.reach) hu.rel (hok s hu) hu.may hto
    (h.since.grows (Or.inr ⟨p, hu.path⟩)))) (h.reads.proc p _ (State.raft_up hp)) him hty

/-- A read request. -/
theorem LR.read {p : Nat} {n : RawNode} {r' : Raft} {im : Message} {e : Option Err} (hK : AReach G.Q G.τ g0) (h : G.LR g0 x asked c g)
    (hp : c.proc p = .up n) (ht : im.type = .readIndex) (h0 : im.term = 0) (hr : n.raft.step env im = .ok (r', e)) :
    LI (G.lmark g0 x) (asked ++ if n.raft.state = .leader then [(p, n.raft.term, askCtx im)] else []) p r'.term r'.reads r'.msgs := by
  have hpr := h.rel.proc p
  rw [hp] at hpr
  obtain ⟨s, hu⟩ := hpr
  obtain ⟨ms, hm, ho⟩ := Raft.step_readIndex_out ht h0 hr
  rw [hm]
  have hrs := hu.path.reach h.rel.reach
  have hsn := h.since.grows (Or.inr ⟨p, hu.path⟩)
  exact readOut_li (lfacts (facts hK hrs hu.rel hsn)) (h.reads.proc p _ (State.raft_up hp)) ht
    (fun hl h1 h2 => let hs := single hrs hu.rel hsn hl h1 h2; ⟨hs.1, fun T pre hp _ => hs.2 T pre hp⟩) ho rfl

theorem LR.act (hcs : G.cs = ({ config := G.cfg, maxInflight := 0 } : Tracker).confState) (hK : AReach G.Q G.τ g0) (h : G.LR g0 x asked c g) (a : Act)
    (ha : a.Allowed c) (hlease : a.LeaseReads) (hr : a.run env c = .ok c') :
    ∃ g', G.LR g0 x (asked ++ a.leaseAsks c) c' g' := by
  obtain ⟨g', hrel, hg⟩ := h.rel.step_grows hcs (a.step ha hr)
  refine ⟨g', ?_⟩
  have hsub : ∀ l, ∀ y ∈ asked, y ∈ asked ++ l := fun l y hy => List.mem_append_left _ hy
  cases a with
  | start p cfg rng =>
    obtain ⟨st, h1, h2, _⟩ := ha
    simp only [Act.run, h1] at hr
    obtain ⟨n, h3, h4⟩ := Res.bind_eq_ok.1 hr
    cases h4
    refine h.set hrel hg (hsub _) fun n' hn' => ?_
    cases hn'
    obtain ⟨hf, _⟩ := RawNode.new_ok h3
    obtain ⟨r1, r2, r3⟩ := hf.reads
    have hrd : n.raft.reads = { ro := { option := .leaseBased }, states := [], waiting := [] } := by
      unfold Raft.reads
      rw [r1, r2, r3, show cfg.readOnlyOption = .leaseBased from hlease]
    rw [hf.msgs]
    exact .start hrd
  | call p y =>
    obtain ⟨⟨n, h1⟩, h2, h3⟩ := ha
    simp only [Act.run, h1] at hr
    obtain ⟨n', h4, h5⟩ := Res.bind_eq_ok.1 hr
    cases h5
    refine h.set hrel hg (hsub _) fun n'' hn' => ?_
    cases hn'
    by_cases hx : ∃ ctx, y = .readIndex ctx
    · obtain ⟨ctx, rfl⟩ := hx
      obtain ⟨⟨n1, e⟩, h6, h7⟩ := Res.bind_eq_ok.1 h4
      simp only [Res.pure_eq, Res.ok.injEq] at h7
      subst h7
      have hlead : c.leads p = decide (n.raft.state = .leader) := by unfold State.leads; rw [h1]
      have hterm : c.termOf p = n.raft.term := by unfold State.termOf; rw [h1]
      have hask : Act.leaseAsks c (.call p (.readIndex ctx)) = if n.raft.state = .leader then [(p, n.raft.term, ctx)] else [] := by
        simp only [Act.leaseAsks, hlead, hterm, decide_eq_true_eq]
      rw [hask]
      exact h.read hK h1 (im := { type := .readIndex, entries := [{ data := ctx }] }) rfl rfl (onRaft_ok h6).1
    · have hask : Act.leaseAsks c (.call p y) = [] := by
        cases y <;> first | rfl | exact absurd ⟨_, rfl⟩ hx
      rw [hask, List.append_nil]
      have hst : y.Stamped := by
        cases y with
        | step m => exact absurd rfl (h3 m)
        | _ => trivial
      have hty : ∀ t, t ∈ [MsgType.heartbeat, .heartbeatResp, .readIndex, .readIndexResp, .voteResp, .app, .appResp, .vote, .snap] → (y.msg env n).type ≠ t := by
        intro t ht he
        cases y with
        | step m => exact absurd rfl (h3 m)
        | readIndex ctx => exact hx ⟨_, rfl⟩
        | tick => simp only [Call.msg] at he; split at he <;> (subst he; revert ht; decide)
        | _ => subst he; simp [Call.msg] at ht
      refine h.sim hK h1 (Call.plain_sim h2 hst h4) (fun s _ => ?_) ?_ (fun hh => ?_) (hty _ (by decide))
      · unfold MsgOk
        split <;> first | trivial | (rename_i ht; exact absurd ht (hty _ (by decide)))
      · unfold MsgLI
        split <;> first | trivial | (rename_i ht; exact absurd ht (hty _ (by decide)))
      · rcases hh with hh | hh <;> exact absurd hh (hty _ (by decide))
  | deliver p m =>
    obtain ⟨⟨n, h1⟩, h2, h3⟩ := ha
    simp only [Act.run, h1] at hr
    obtain ⟨n', h4, h5⟩ := Res.bind_eq_ok.1 hr
    cases h5
    refine h.set hrel hg (hsub _) fun n'' hn' => ?_
    cases hn'
    have hlead : c.leads p = decide (n.raft.state = .leader) := by unfold State.leads; rw [h1]
    have hterm : c.termOf p = n.raft.term := by unfold State.termOf; rw [h1]
    by_cases hx : m.type = .readIndex
    · obtain ⟨⟨n1, e⟩, h6, h7⟩ := Res.bind_eq_ok.1 h4
      simp only [Res.pure_eq, Res.ok.injEq] at h7
      subst h7
      have hri := h.reads.sent m h2
      unfold MsgLI at hri
      rw [hx] at hri
      have hask : Act.leaseAsks c (.deliver p m) = if n.raft.state = .leader then [(p, n.raft.term, askCtx m)] else [] := by
        simp only [Act.leaseAsks, hlead, hterm, decide_eq_true_eq, hx, and_true]
      rw [hask]
      unfold RawNode.step at h6
      rw [hx, if_neg (by decide), if_pos (Or.inr (by decide))] at h6
      exact h.read hK h1 hx hri (onRaft_ok h6).1
    · have hask : Act.leaseAsks c (.deliver p m) = [] := by
        simp only [Act.leaseAsks, hx, and_false, if_false]
      rw [hask, List.append_nil]
      have hmo : ∀ s : AState, G.Up g p n s → G.MsgOk s.net m := fun s hu => (h.rel.net m h2).mono hu.path.net
      have hst : (Call.step m).Stamped := by
        have hpr := h.rel.proc p
        rw [h1] at hpr
        obtain ⟨s, hu⟩ := hpr
        intro hty
        exact (msgOk_term (hu.path.reach h.rel.reach) (hmo s hu) (by rcases hty with h | h | h <;> simp [h])).1
      exact h.sim hK h1 (Call.plain_sim (c := .step m) trivial hst h4) hmo (h.reads.sent m h2) (fun _ => h3) hx
  | ready p =>
    obtain ⟨n, h1⟩ := ha
    simp only [Act.run, h1] at hr
    obtain ⟨⟨n', rd⟩, h4, h5⟩ := Res.bind_eq_ok.1 hr
    cases h5
    have hpr := h.rel.proc p
    rw [h1] at hpr
    obtain ⟨s, hu⟩ := hpr
    obtain ⟨st, u, _, e2⟩ := handleReady_eq (env := env) hu.rel.linv (by rw [show n.raft.trk.config = _ from hu.rel.config]; exact G.auto)
    have e2' : n.handleReady env [] = _ := e2
    rw [e2'] at h4
    simp only [Res.ok.injEq, Prod.mk.injEq] at h4
    obtain ⟨rfl, rfl⟩ := h4
    rw [show Act.leaseAsks c (.ready p) = [] from rfl, List.append_nil]
    refine h.sent hrel hg h1 (fun m hm => hm) fun n'' hn' => ?_
    cases hn'
    exact (h.reads.proc p _ (State.raft_up h1)).handed
  | compact p i =>
    obtain ⟨n, h1, h2, _⟩ := ha
    simp only [Act.run, h1] at hr
    obtain ⟨⟨st, e⟩, h4, h5⟩ := Res.bind_eq_ok.1 hr
    cases h5
    refine h.set hrel hg (hsub _) fun n'' hn' => ?_
    cases hn'
    exact (h.reads.proc p _ (State.raft_up h1)).mono (hsub _) (Nat.le_refl _)
  | createSnapshot p i cs data =>
    obtain ⟨n, h1, h2, h3⟩ := ha
    simp only [Act.run, h1] at hr
    obtain ⟨⟨st, e⟩, h4, h5⟩ := Res.bind_eq_ok.1 hr
    cases h5
    refine h.set hrel hg (hsub _) fun n'' hn' => ?_
    cases hn'
    exact (h.reads.proc p _ (State.raft_up h1)).mono (hsub _) (Nat.le_refl _)
  | crash p =>
    obtain ⟨n, h1⟩ := ha
    simp only [Act.run, h1] at hr
    cases hr
    exact h.set hrel hg (hsub _) fun n'' hn' => (by cases hn')
  | crashReady p keep k =>
    obtain ⟨n, h1⟩ := ha
    simp only [Act.run, h1] at hr
    obtain ⟨⟨n1, rd⟩, h4, h5⟩ := Res.bind_eq_ok.1 hr
    cases h5
    have hpr := h.rel.proc p
    rw [h1] at hpr
    obtain ⟨s, hu⟩ := hpr
    obtain ⟨st, hs1, hs2⟩ := takeReady_eq (env := env) hu.rel.linv
    have hs2' : n.takeReady env = _ := hs2
    rw [hs2'] at h4
    simp only [Res.ok.injEq, Prod.mk.injEq] at h4
    obtain ⟨rfl, rfl⟩ := h4
    rw [show Act.leaseAsks c (.crashReady p keep k) = [] from rfl, List.append_nil]
    exact h.sent hrel hg h1 (fun m hm => (List.mem_filter.1 hm).1) fun n'' hn' => (by cases hn')

theorem LR.run (hcs : G.cs = ({ config := G.cfg, maxInflight := 0 } : Tracker).confState) (hK : AReach G.Q G.τ g0) (h : G.LR g0 x asked c g)
    {as : List Act} {asked' : List (Nat × Nat × Bytes)} (hr : LeaseRun env c as asked' c') : ∃ g', G.LR g0 x (asked ++ asked') c' g' := by
  induction hr with
  | nil => exact ⟨g, by rw [List.append_nil]; exact h⟩
  | @act c1 c2 as1 asked1 a hr ha hs he ih =>
    obtain ⟨g1, h1⟩ := ih
    obtain ⟨g2, h2⟩ := h1.act hcs hK a ha hs he
    exact ⟨g2, by rw [← List.append_assoc]; exact h2⟩

/-- The mark moves to now, for a context that nobody has used. -/
theorem LR.remark (h : G.LR g0 x asked c g) {x' : Bytes} (hx : ∀ p T, (p, T, x') ∉ asked) : G.LR g x' asked c g :=
  ⟨h.rel, ⟨fun _ h => h, fun _ => Nat.le_refl _⟩, h.reads.remark hx⟩

end Gen
end Craft.Cluster
