import Verif.Cluster.Reads

/-! # Read requests: the cluster -/

namespace Craft.Cluster
open Spec Abs ReadInv

/-- An allowed action that succeeds is a step. -/
theorem Act.step {env : Env} {c c' : State} (a : Act) (ha : a.Allowed c) (hr : a.run env c = .ok c') : Step env c c' := by
  cases a with
  | start p cfg rng =>
    obtain ⟨st, h1, h2, _⟩ := ha
    simp only [Act.run, h1] at hr
    obtain ⟨n, h3, h4⟩ := Res.bind_eq_ok.1 hr
    cases h4
    exact .start p cfg rng h1 h2 h3
  | call p x =>
    obtain ⟨⟨n, h1⟩, h2, h3⟩ := ha
    simp only [Act.run, h1] at hr
    obtain ⟨n', h4, h5⟩ := Res.bind_eq_ok.1 hr
    cases h5
    exact .call p x h1 h2 h3 h4
  | deliver p m =>
    obtain ⟨⟨n, h1⟩, h2, h3⟩ := ha
    simp only [Act.run, h1] at hr
    obtain ⟨n', h4, h5⟩ := Res.bind_eq_ok.1 hr
    cases h5
    exact .deliver p m h1 h2 h3 h4
  | ready p =>
    obtain ⟨n, h1⟩ := ha
    simp only [Act.run, h1] at hr
    obtain ⟨⟨n', rd⟩, h4, h5⟩ := Res.bind_eq_ok.1 hr
    cases h5
    exact .ready p h1 h4
  | compact p i =>
    obtain ⟨n, h1, h2, _⟩ := ha
    simp only [Act.run, h1] at hr
    obtain ⟨⟨st, e⟩, h4, h5⟩ := Res.bind_eq_ok.1 hr
    cases h5
    exact .compact p i h1 h2 h4
  | createSnapshot p i cs data =>
    obtain ⟨n, h1, h2, h3⟩ := ha
    simp only [Act.run, h1] at hr
    obtain ⟨⟨st, e⟩, h4, h5⟩ := Res.bind_eq_ok.1 hr
    cases h5
    exact .createSnapshot p i cs data h1 h2 h3 h4
  | crash p =>
    obtain ⟨n, h1⟩ := ha
    simp only [Act.run, h1] at hr
    cases hr
    exact .crash p h1
  | crashReady p keep k =>
    obtain ⟨n, h1⟩ := ha
    simp only [Act.run, h1] at hr
    obtain ⟨⟨n1, rd⟩, h4, h5⟩ := Res.bind_eq_ok.1 hr
    cases h5
    exact .crashReady p _ k h1 h4 fun m hm => (List.mem_filter.1 hm).1

/-- The node that is running. -/
def State.raft (c : State) (p : Nat) : Option Raft :=
  match c.proc p with
  | .up n => some n.raft
  | .down _ => none

theorem State.raft_up {c : State} {p : Nat} {n : RawNode} (h : c.proc p = .up n) : c.raft p = some n.raft := by
  unfold State.raft; rw [h]

theorem State.raft_set {c : State} {p q : Nat} {x : Proc} (h : q ≠ p) : (c.set p x).raft q = c.raft q := by
  unfold State.raft State.set
  dsimp only
  rw [if_neg h]

theorem State.raft_self {c : State} {p : Nat} {x : Proc} {r : Raft} (h : (c.set p x).raft p = some r) : ∃ n, x = .up n ∧ n.raft = r := by
  unfold State.raft State.set at h
  dsimp only at h
  rw [if_pos rfl] at h
  cases x with
  | down st => cases h
  | up n => exact ⟨n, rfl, by simpa using h⟩

namespace Gen
variable (G : Gen)

/-- The invariant. -/
structure RR (g0 : AState) (net0 : List Message) (x : Bytes) (asked : List (Nat × Bytes)) (c : State) (g : AState) : Prop where
  rel : G.Rel c g
  since : Since g0 g
  reads : Net (G.mark g0 net0 x) asked c.net c.raft

variable {G} {g0 : AState} {net0 : List Message} {x : Bytes} {asked : List (Nat × Bytes)} {g : AState} {c c' : State} {env : Env}

theorem Since.grows {g' : AState} (h : Since g0 g) (hg : g' = g ∨ ∃ p, PPath G.Q p g g') : Since g0 g' := by
  rcases hg with rfl | ⟨p, hp⟩
  · exact h
  · refine ⟨fun m hm => hp.net m (h.net m hm), fun v => ?_⟩
    by_cases hv : v = p
    · subst hv; exact Nat.le_trans (h.term v) hp.term_le
    · rw [hp.other hv]; exact h.term v

/-- One process changed, nothing sent. -/
theorem RR.set {asked' : List (Nat × Bytes)} {g' : AState} {p : Nat} {y : Proc} (h : G.RR g0 net0 x asked c g) (hrel : G.Rel (c.set p y) g')
    (hg : g' = g ∨ ∃ p, PPath G.Q p g g') (ha : ∀ y ∈ asked, y ∈ asked')
    (hx : ∀ n, y = .up n → RI (G.mark g0 net0 x) asked' c.net p n.raft.term n.raft.reads n.raft.msgs) : G.RR g0 net0 x asked' (c.set p y) g' := by
  refine ⟨hrel, h.since.grows hg, h.reads.set (p := p) ha (fun q hq => State.raft_set hq) fun r hr => ?_⟩
  obtain ⟨n, h1, rfl⟩ := State.raft_self hr
  exact hx n h1

/-- One process changed, some of its messages sent. -/
theorem RR.sent {g' : AState} {p : Nat} {y : Proc} {n0 : RawNode} {ms : List Message} {out led} (h : G.RR g0 net0 x asked c g)
    (hrel : G.Rel { c.set p y with net := c.net ++ ms, out := out, led := led } g') (hg : g' = g ∨ ∃ p, PPath G.Q p g g')
    (hp : c.proc p = .up n0) (hms : ∀ m ∈ ms, m ∈ n0.raft.msgs)
    (hx : ∀ n, y = .up n → RI (G.mark g0 net0 x) asked (c.net ++ ms) p n.raft.term n.raft.reads n.raft.msgs) :
    G.RR g0 net0 x asked { c.set p y with net := c.net ++ ms, out := out, led := led } g' := by
  refine ⟨hrel, h.since.grows hg, h.reads.send (up' := (c.set p y).raft) (State.raft_up hp) hms (fun q hq => State.raft_set hq) fun r hr => ?_⟩
  obtain ⟨n, h1, rfl⟩ := State.raft_self hr
  exact hx n h1

/-- A call other than a read request. -/
theorem RR.sim {p : Nat} {n n' : RawNode} {im : Message} (hK : AReach G.Q G.τ g0) (h : G.RR g0 net0 x asked c g) (hp : c.proc p = .up n)
    (hsim : Sim env im n.raft n'.raft) (hok : ∀ s : AState, G.Up g p n s → G.MsgOk s.net im) (him : MsgRI (G.mark g0 net0 x) asked c.net im)
    (hto : im.type = .voteResp ∨ im.type = .heartbeat → im.to = p) (hty : im.type ≠ .readIndex) (hnet : im.type = .heartbeat → im ∈ c.net)
    (hto' : im.type = .heartbeatResp → im.to = p) : RI (G.mark g0 net0 x) asked c.net p n'.raft.term n'.raft.reads n'.raft.msgs := by
  have hpr := h.rel.proc p
  rw [hp] at hpr
  obtain ⟨s, hu⟩ := hpr
  obtain ⟨_, ms, hm, hpath⟩ := hsim
  rw [hm]
  exact path_ri hpath (fun c1 ms1 h1 => path_facts h1 hK (hu.path.reach h.rel.reach) hu.rel (hok s hu) hu.may hto (h.since.grows (Or.inr ⟨p, hu.path⟩)))
    (h.reads.proc p _ (State.raft_up hp)) him hty hnet hto'

/-- A read request. -/
theorem RR.read {p : Nat} {n : RawNode} {r' : Raft} {im : Message} {e : Option Err} (hK : AReach G.Q G.τ g0) (h : G.RR g0 net0 x asked c g)
    (hp : c.proc p = .up n) (ht : im.type = .readIndex) (h0 : im.term = 0) (hr : n.raft.step env im = .ok (r', e)) (hne : im.entries ≠ [])
    (hnew : n.raft.state = .leader → (p, askCtx im) ∉ asked) :
    RI (G.mark g0 net0 x) (asked ++ if n.raft.state = .leader then [(p, askCtx im)] else []) c.net p r'.term r'.reads r'.msgs := by
  have hpr := h.rel.proc p
  rw [hp] at hpr
  obtain ⟨s, hu⟩ := hpr
  obtain ⟨ms, hm, ho⟩ := Raft.step_readIndex_out ht h0 hr
  rw [hm]
  have hrs := hu.path.reach h.rel.reach
  have hsn := h.since.grows (Or.inr ⟨p, hu.path⟩)
  exact readOut_ri (facts hK hrs hu.rel hsn) (h.reads.proc p _ (State.raft_up hp)) hne hnew h.reads.sent h.reads.old
    (fun hl h1 h2 => single hrs hu.rel hsn hl h1 h2) ho rfl

theorem RR.act (hcs : G.cs = ({ config := G.cfg, maxInflight := 0 } : Tracker).confState) (hK : AReach G.Q G.τ g0) (h : G.RR g0 net0 x asked c g) (a : Act)
    (ha : a.Allowed c) (hsafe : a.SafeReads) (hnew : ∀ y ∈ a.asks c, y ∉ asked) (hr : a.run env c = .ok c') :
    ∃ g', G.RR g0 net0 x (asked ++ a.asks c) c' g' := by
  obtain ⟨g', hrel, hg⟩ := h.rel.step_grows hcs (a.step ha hr)
  refine ⟨g', ?_⟩
  have hsub : ∀ l, ∀ y ∈ asked, y ∈ asked ++ l := fun l y hy => List.mem_append_left _ hy
  cases a with
  | start p cfg rng =>
    obtain ⟨st, h1, h2, _⟩ := ha
    simp only [Act.run, h1] at hr
    obtain ⟨n, h3, h4⟩ := Res.bind_eq_ok.1 hr
    cases h4
    refine h.set hrel hg (hsub _) fun n' hn' => ?_
    cases hn'
    obtain ⟨hf, _⟩ := RawNode.new_ok h3
    obtain ⟨r1, r2, r3⟩ := hf.reads
    have hrd : n.raft.reads = { ro := { option := .safe }, states := [], waiting := [] } := by
      unfold Raft.reads
      rw [r1, r2, r3, show cfg.readOnlyOption = .safe from hsafe]
    rw [hf.msgs]
    exact .start hrd
  | call p y =>
    obtain ⟨⟨n, h1⟩, h2, h3⟩ := ha
    simp only [Act.run, h1] at hr
    obtain ⟨n', h4, h5⟩ := Res.bind_eq_ok.1 hr
    cases h5
    refine h.set hrel hg (hsub _) fun n'' hn' => ?_
    cases hn'
    by_cases hx : ∃ ctx, y = .readIndex ctx
    · obtain ⟨ctx, rfl⟩ := hx
      obtain ⟨⟨n1, e⟩, h6, h7⟩ := Res.bind_eq_ok.1 h4
      simp only [Res.pure_eq, Res.ok.injEq] at h7
      subst h7
      have hlead : c.leads p = decide (n.raft.state = .leader) := by unfold State.leads; rw [h1]
      have hask : Act.asks c (.call p (.readIndex ctx)) = if n.raft.state = .leader then [(p, ctx)] else [] := by
        simp only [Act.asks, hlead, decide_eq_true_eq]
      rw [hask] at hnew ⊢
      exact h.read hK h1 (im := { type := .readIndex, entries := [{ data := ctx }] }) rfl rfl (onRaft_ok h6).1 (List.cons_ne_nil _ _)
        fun hl => hnew _ (by rw [if_pos hl]; exact List.mem_singleton.2 rfl)
    · have hask : Act.asks c (.call p y) = [] := by
        cases y <;> first | rfl | exact absurd ⟨_, rfl⟩ hx
      rw [hask, List.append_nil]
      have hst : y.Stamped := by
        cases y with
        | step m => exact absurd rfl (h3 m)
        | _ => trivial
      have hty : ∀ t, t ∈ [MsgType.heartbeat, .heartbeatResp, .readIndex, .readIndexResp, .voteResp, .app, .appResp, .vote, .snap] → (y.msg env n).type ≠ t := by
        intro t ht he
        cases y with
        | step m => exact absurd rfl (h3 m)
        | readIndex ctx => exact hx ⟨_, rfl⟩
        | tick => simp only [Call.msg] at he; split at he <;> (subst he; revert ht; decide)
        | _ => subst he; simp [Call.msg] at ht
      refine h.sim hK h1 (Call.plain_sim h2 hst h4) (fun s _ => ?_) ?_ (fun hh => ?_) (hty _ (by decide)) (fun hh => absurd hh (hty _ (by decide)))
        fun hh => absurd hh (hty _ (by decide))
      · unfold MsgOk
        split <;> first | trivial | (rename_i ht; exact absurd ht (hty _ (by decide)))
      · unfold MsgRI
        split <;> first | trivial | (rename_i ht; exact absurd ht (hty _ (by decide)))
      · rcases hh with hh | hh <;> exact absurd hh (hty _ (by decide))
  | deliver p m =>
    obtain ⟨⟨n, h1⟩, h2, h3⟩ := ha
    simp only [Act.run, h1] at hr
    obtain ⟨n', h4, h5⟩ := Res.bind_eq_ok.1 hr
    cases h5
    refine h.set hrel hg (hsub _) fun n'' hn' => ?_
    cases hn'
    have hlead : c.leads p = decide (n.raft.state = .leader) := by unfold State.leads; rw [h1]
    by_cases hx : m.type = .readIndex
    · obtain ⟨⟨n1, e⟩, h6, h7⟩ := Res.bind_eq_ok.1 h4
      simp only [Res.pure_eq, Res.ok.injEq] at h7
      subst h7
      have hri := h.reads.sent m h2
      unfold MsgRI at hri
      rw [hx] at hri
      have hask : Act.asks c (.deliver p m) = if n.raft.state = .leader then [(p, askCtx m)] else [] := by
        simp only [Act.asks, hlead, decide_eq_true_eq, hx, and_true]
      rw [hask] at hnew ⊢
      unfold RawNode.step at h6
      rw [hx, if_neg (by decide), if_pos (Or.inr (by decide))] at h6
      exact h.read hK h1 hx hri.1 (onRaft_ok h6).1 hri.2 fun hl => hnew _ (by rw [if_pos hl]; exact List.mem_singleton.2 rfl)
    · have hask : Act.asks c (.deliver p m) = [] := by
        simp only [Act.asks, hx, and_false, if_false]
      rw [hask, List.append_nil]
      have hmo : ∀ s : AState, G.Up g p n s → G.MsgOk s.net m := fun s hu => (h.rel.net m h2).mono hu.path.net
      have hst : (Call.step m).Stamped := by
        have hpr := h.rel.proc p
        rw [h1] at hpr
        obtain ⟨s, hu⟩ := hpr
        intro hty
        exact (msgOk_term (hu.path.reach h.rel.reach) (hmo s hu) (by rcases hty with h | h | h <;> simp [h])).1
      exact h.sim hK h1 (Call.plain_sim (c := .step m) trivial hst h4) hmo (h.reads.sent m h2) (fun _ => h3) hx (fun _ => h2) fun _ => h3
  | ready p =>
    obtain ⟨n, h1⟩ := ha
    simp only [Act.run, h1] at hr
    obtain ⟨⟨n', rd⟩, h4, h5⟩ := Res.bind_eq_ok.1 hr
    cases h5
    have hpr := h.rel.proc p
    rw [h1] at hpr
    obtain ⟨s, hu⟩ := hpr
    obtain ⟨st, u, _, e2⟩ := handleReady_eq (env := env) hu.rel.linv (by rw [show n.raft.trk.config = _ from hu.rel.config]; exact G.auto)
    have e2' : n.handleReady env [] = _ := e2
    rw [e2'] at h4
    simp only [Res.ok.injEq, Prod.mk.injEq] at h4
    obtain ⟨rfl, rfl⟩ := h4
    rw [show Act.asks c (.ready p) = [] from rfl, List.append_nil]
    refine h.sent hrel hg h1 (fun m hm => hm) fun n'' hn' => ?_
    cases hn'
    exact (h.reads.proc p _ (State.raft_up h1)).handed
  | compact p i =>
    obtain ⟨n, h1, h2, _⟩ := ha
    simp only [Act.run, h1] at hr
    obtain ⟨⟨st, e⟩, h4, h5⟩ := Res.bind_eq_ok.1 hr
    cases h5
    refine h.set hrel hg (hsub _) fun n'' hn' => ?_
    cases hn'
    exact (h.reads.proc p _ (State.raft_up h1)).ask (hsub _)
  | createSnapshot p i cs data =>
    obtain ⟨n, h1, h2, h3⟩ := ha
    simp only [Act.run, h1] at hr
    obtain ⟨⟨st, e⟩, h4, h5⟩ := Res.bind_eq_ok.1 hr
    cases h5
    refine h.set hrel hg (hsub _) fun n'' hn' => ?_
    cases hn'
    exact (h.reads.proc p _ (State.raft_up h1)).ask (hsub _)
  | crash p =>
    obtain ⟨n, h1⟩ := ha
    simp only [Act.run, h1] at hr
    cases hr
    exact h.set hrel hg (hsub _) fun n'' hn' => (by cases hn')
  | crashReady p keep k =>
    obtain ⟨n, h1⟩ := ha
    simp only [Act.run, h1] at hr
    obtain ⟨⟨n1, rd⟩, h4, h5⟩ := Res.bind_eq_ok.1 hr
    cases h5
    have hpr := h.rel.proc p
    rw [h1] at hpr
    obtain ⟨s, hu⟩ := hpr
    obtain ⟨st, hs1, hs2⟩ := takeReady_eq (env := env) hu.rel.linv
    have hs2' : n.takeReady env = _ := hs2
    rw [hs2'] at h4
    simp only [Res.ok.injEq, Prod.mk.injEq] at h4
    obtain ⟨rfl, rfl⟩ := h4
    rw [show Act.asks c (.crashReady p keep k) = [] from rfl, List.append_nil]
    exact h.sent hrel hg h1 (fun m hm => (List.mem_filter.1 hm).1) fun n'' hn' => (by cases hn')

theorem RR.run (hcs : G.cs = ({ config := G.cfg, maxInflight := 0 } : Tracker).confState) (hK : AReach G.Q G.τ g0) (h : G.RR g0 net0 x asked c g)
    {asked' : List (Nat × Bytes)} (hr : Run env c asked' c') (hn : (asked ++ asked').Nodup) : ∃ g', G.RR g0 net0 x (asked ++ asked') c' g' := by
  induction hr with
  | nil => exact ⟨g, by rw [List.append_nil]; exact h⟩
  | @act c1 c2 asked1 a hr ha hs he ih =>
    rw [← List.append_assoc, List.nodup_append] at hn
    obtain ⟨g1, h1⟩ := ih hn.1
    obtain ⟨g2, h2⟩ := h1.act hcs hK a ha hs (fun y hy hc => hn.2.2 y hc y hy rfl) he
    exact ⟨g2, by rw [← List.append_assoc]; exact h2⟩

/-- The mark moves to now, for a context that nobody has used. -/
theorem RR.remark (h : G.RR g0 net0 x asked c g) {x' : Bytes} (hx : ∀ p, (p, x') ∉ asked) : G.RR g c.net x' asked c g :=
  ⟨h.rel, ⟨fun _ h => h, fun _ => Nat.le_refl _⟩, h.reads.remark rfl hx⟩

end Gen
end Craft.Cluster
