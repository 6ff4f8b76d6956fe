import Verif.Spec.Recover
import Verif.Props.Live
import Verif.Props.NodePrompt

/-! # Acting in a cluster, step by step -/

namespace Craft.Cluster
open Spec Abs

variable {env : Env} {G : Genesis} {S : List Nat} {c c1 c2 : State} {p : Nat} {n : RawNode}

theorem Can.trans (h1 : Can env S c c1) (h2 : Can env S c1 c2) : Can env S c c2 := by
  induction h2 with
  | refl => exact h1
  | act a _ ha hb hc ih => exact .act a ih ha hb hc

theorem Can.live (h : Can env S c c1) (hl : Live env G c) : Live env G c1 := by
  induction h with
  | refl => exact hl
  | act a _ _ hb hc ih => exact .act a ih hb hc

/-- Getting from `c` to `c'`, only the nodes in `P` having changed. -/
structure To (env : Env) (G : Genesis) (S P : List Nat) (c c' : State) : Prop where
  can : Can env S c c'
  live : Live env G c'
  frame : ∀ q, q ∉ P → c'.proc q = c.proc q
  net : ∀ m ∈ c.net, m ∈ c'.net
  out : c.out <+: c'.out

namespace To
variable {P P' : List Nat}

theorem refl (h : Live env G c) : To env G S P c c := ⟨.refl c, h, fun _ _ => rfl, fun _ h => h, List.prefix_rfl⟩

theorem trans (h1 : To env G S P c c1) (h2 : To env G S P c1 c2) : To env G S P c c2 :=
  ⟨h1.can.trans h2.can, h2.live, fun q hq => (h2.frame q hq).trans (h1.frame q hq), fun m hm => h2.net m (h1.net m hm), h1.out.trans h2.out⟩

theorem mono (h : To env G S P c c1) (hp : ∀ q ∈ P, q ∈ P') : To env G S P' c c1 :=
  ⟨h.can, h.live, fun q hq => h.frame q fun hq' => hq (hp q hq'), h.net, h.out⟩

end To

theorem set_self {x : Proc} : (c.set p x).proc p = x := if_pos rfl

theorem To.one {x : Proc} {net out led} (a : Act) (hl : Live env G c) (hw : a.Within S) (ha : a.Allowed c)
    (hr : a.run env c = .ok { c.set p x with net := c.net ++ net, out := c.out ++ out, led := led }) :
    To env G S [p] c { c.set p x with net := c.net ++ net, out := c.out ++ out, led := led } :=
  ⟨.act a (.refl c) hw ha hr, .act a hl ha hr, fun q hq => if_neg fun h => hq (by simp [h]), fun m hm => List.mem_append.2 (Or.inl hm),
    List.prefix_append _ _⟩

theorem To.set {x : Proc} (a : Act) (hl : Live env G c) (hw : a.Within S) (ha : a.Allowed c) (hr : a.run env c = .ok (c.set p x)) :
    To env G S [p] c (c.set p x) :=
  ⟨.act a (.refl c) hw ha hr, .act a hl ha hr, fun q hq => if_neg fun h => hq (by simp [h]), fun _ hm => hm, List.prefix_rfl⟩

section
variable (hG : G.OK) (hE : Lossless env)
include hG hE

/-- A call of the application. -/
theorem to_call (hl : Live env G c) (hp : c.proc p = .up n) (hS : p ∈ S) (x : Call) (hx : x.Plain) (hs : ∀ m, x ≠ .step m) :
    ∃ n', x.run env n = .ok n' ∧ To env G S [p] c (c.set p (.up n')) := by
  obtain ⟨n', hn⟩ := (C52_calls_return hG hE hl hp).1 x hx hs
  refine ⟨n', hn, .set (.call p x) hl hS ⟨⟨n, hp⟩, hx, hs⟩ ?_⟩
  unfold Act.run; dsimp only; rw [hp]; dsimp only; rw [hn]; rfl

/-- A delivery. -/
theorem to_deliver (hl : Live env G c) (hp : c.proc p = .up n) (hS : p ∈ S) {m : Message} (hm : m ∈ c.net) (hto : m.to = p) (hsrc : m.src ∈ S) :
    ∃ n' e, n.step env m = .ok (n', e) ∧ To env G S [p] c (c.set p (.up n')) := by
  obtain ⟨⟨n', e⟩, hn⟩ := (C52_calls_return hG hE hl hp).2.1 m hm hto
  refine ⟨n', e, hn, .set (.deliver p m) hl ⟨hS, hsrc⟩ ⟨⟨n, hp⟩, hm, hto⟩ ?_⟩
  unfold Act.run; dsimp only; rw [hp]; dsimp only
  show (do let n' ← (do let (n, _) ← n.step env m; pure n); pure (c.set p (.up n')) : Res State) = _
  rw [hn]; rfl

/-- A Ready. -/
theorem to_ready (hl : Live env G c) (hp : c.proc p = .up n) (hS : p ∈ S) :
    ∃ c' n' st u, To env G S [p] c c' ∧ c'.proc p = .up n' ∧
      n'.raft = { n.raft with log := readyLog env n.raft.log st, msgs := [], readStates := [], uncommittedSize := u } ∧
      LInv n'.raft.log ∧ n'.raft.log.view = n.raft.log.view ∧
      (∀ m ∈ n.raft.msgs, m ∈ c'.net) ∧ c'.out = c.out ++ (nextOut env n.raft.log).map fun e => ⟨p, n.raft.term, e⟩ := by
  obtain ⟨h1, K, h2⟩ := hl.ok hG hE
  obtain ⟨hli, _, hal⟩ := upLog hG h1 hp
  obtain ⟨st, u, hs, hn⟩ := handleReady_eq (env := env) hli hal
  obtain ⟨st', e1, e2, e3, e4, _⟩ := save_eq (env := env) hli
  rw [hs] at e1
  cases e1
  obtain ⟨i1, i2⟩ := hli.readyLog env e2 e3 e4
  refine ⟨_, _, st, u, .one (.ready p) hl hS ⟨n, hp⟩ (x := .up ⟨{ n.raft with log := readyLog env n.raft.log st, msgs := [], readStates := [], uncommittedSize := u },
    (readyOf env n).softState.getD n.prevSoftSt, if isEmptyHardState (readyOf env n).hardState then n.prevHardSt else (readyOf env n).hardState, none⟩)
    (net := n.raft.msgs) (out := (nextOut env n.raft.log).map fun e => ⟨p, n.raft.term, e⟩)
    (led := if n.raft.state = .leader then c.led ++ [⟨p, n.raft.term, n.raft.log.view⟩] else c.led) ?_, set_self, rfl, i1, i2, fun m hm => List.mem_append.2 (Or.inr hm), rfl⟩
  unfold Act.run; dsimp only; rw [hp]; dsimp only; rw [hn]; rfl

/-- A crash. -/
theorem to_crash (hl : Live env G c) (hp : c.proc p = .up n) (hS : p ∈ S) : To env G S [p] c (c.set p (.down n.raft.log.storage)) := by
  refine .set (.crash p) hl hS ⟨n, hp⟩ ?_
  unfold Act.run; dsimp only; rw [hp]

/-- A start. -/
theorem to_start (hl : Live env G c) {st : Storage} (hp : c.proc p = .down st) (hS : p ∈ S) (cfg : Config) (hid : cfg.id = p)
    (hs : cfg.Sane st) (hi : cfg.maxInflightMsgs ≤ 2 ^ 30) :
    ∃ n', RawNode.new env cfg st 0 = .ok n' ∧ To env G S [p] c (c.set p (.up n')) := by
  have ha : Act.Allowed c (.start p cfg 0) := ⟨st, hp, hid, hs, hi⟩
  obtain ⟨c', hr⟩ := C52_never_aborts hG hE hl _ ha
  have hr' := hr
  unfold Act.run at hr'
  dsimp only at hr'
  rw [hp] at hr'
  dsimp only at hr'
  obtain ⟨n', hn, hc⟩ := Res.bind_eq_ok.1 hr'
  cases hc
  exact ⟨n', hn, .set (.start p cfg 0) hl hS ha hr⟩

/-- What is known about a running node. -/
structure Known (G : Genesis) (p : Nat) (r : Raft) : Prop where
  id : r.id = p
  idne : p ≠ 0
  linv : LInv r.log
  zero : r.log.view.termAt 0 = 0
  config : r.trk.config = G.trk.config
  prs : r.state = .leader → ∀ v pr, r.pr v = some pr → PrOk r.log.lastIndex pr
  snap : r.log.snapshot.metadata.confState = G.trk.confState
  snapTerm : r.log.view.base ≤ r.log.snapshot.metadata.index → r.log.snapshot.metadata.index ≤ r.log.view.last ∧
    r.log.snapshot.metadata.term = r.log.view.termAt r.log.snapshot.metadata.index
  tidy : r.log.view.base ≤ r.log.snapshot.metadata.index

theorem known (hl : Live env G c) (hp : c.proc p = .up n) : Known G p n.raft := by
  obtain ⟨g, hr⟩ := (hl.ok hG hE).1.rel hG
  obtain ⟨s, h1, h2, h3⟩ := hr.one hp
  refine ⟨h3.id, h3.idne, h3.linv, h3.zero, h3.config, fun hl v pr hv => (h3.prs hl v pr hv).1, h3.snap.conf, fun hb => ?_, ?_⟩
  on_goal 2 =>
    obtain ⟨_, K, hK⟩ := hl.ok hG hE
    have ht := (hK.up p n hp).1.log.tidy
    unfold RaftLog.snapshot
    unfold Storage.Tidy at ht
    cases hs : n.raft.log.unstable.snapshot with
    | none => rw [RaftLog.view_nosnap hs]; exact ht
    | some x => rw [RaftLog.view_snap hs]
  have hlog : LogRel ((G.gen hG).L0 ++ (s.node p).log) n.raft.log.view := h3.log
  have hsn : (G.gen hG).SnapOk (s.node p).log n.raft.log.snapshot := h3.snap
  refine ⟨by rw [← hlog.len, List.length_append]; exact hsn.le, ?_⟩
  rw [hsn.term, hlog.termAt hb]

/-- What the leader of a term believes about a node in the same term is true: that node has, at the acknowledged index, an
entry of the same term. -/
theorem match_true (hl : Live env G c) {i j : Nat} {ni nj : RawNode} {pr : Progress} (hi : c.proc i = .up ni) (hj : c.proc j = .up nj)
    (hij : i ≠ j) (hlead : ni.raft.state = .leader) (hpr : ni.raft.pr j = some pr) (ht : nj.raft.term = ni.raft.term)
    (hbi : ni.raft.log.view.base ≤ pr.mtch) (hbj : nj.raft.log.view.base ≤ pr.mtch) :
    nj.raft.log.view.termAt pr.mtch = ni.raft.log.view.termAt pr.mtch ∧ pr.mtch ≤ nj.raft.log.view.last := by
  obtain ⟨g, hr⟩ := (hl.ok hG hE).1.rel hG
  obtain ⟨s, h1, h2, hni, hnj⟩ := hr.two hi hj hij
  have li : LogRel ((G.gen hG).L0 ++ (s.node i).log) ni.raft.log.view := hni.log
  have lj : LogRel ((G.gen hG).L0 ++ (s.node j).log) nj.raft.log.view := hnj.log
  have ei : ni.raft.term = (s.node i).term := hni.term
  have ej : nj.raft.term = (s.node j).term := hnj.term
  rw [li.termAt hbi, lj.termAt hbj, ← lj.len, List.length_append]
  rcases (hni.prs hlead j pr hpr).2 with hk | ⟨k, hk, hack⟩
  · rw [gterm_prefix (List.prefix_append _ _) hk, gterm_prefix (List.prefix_append _ _) hk]
    exact ⟨rfl, by omega⟩
  · have hT : (s.node j).term = (s.node i).term := by omega
    rw [← hT] at hack
    obtain ⟨c0, lg, hld, hjl, hpre⟩ := h1.inv.ackNow _ _ hack
    rw [hT] at hld
    obtain ⟨l1, l2⟩ := h1.inv.leadNode i (hni.leader_role hlead)
    obtain ⟨rfl, _⟩ := h1.inv.leadSame hld l1
    have hpi := l2 lg hld
    have hlen := hpre.length_le
    rw [List.length_take, Nat.min_eq_left hjl] at hlen
    have q1 : (G.gen hG).L0 ++ lg.take k <+: (G.gen hG).L0 ++ (s.node j).log := append_prefix.2 hpre
    have q2 : (G.gen hG).L0 ++ lg.take k <+: (G.gen hG).L0 ++ (s.node c0).log := append_prefix.2 ((List.take_prefix _ _).trans hpi)
    have hkl : pr.mtch ≤ ((G.gen hG).L0 ++ lg.take k).length := by
      rw [List.length_append, List.length_take, Nat.min_eq_left hjl]; exact hk
    exact ⟨by rw [gterm_prefix q1 hkl, gterm_prefix q2 hkl], by omega⟩

/-- A leader of the cluster has committed whatever it can. -/
theorem prompt (hl : Live env G c) : ∀ {p : Nat} {n : RawNode}, c.proc p = .up n → Prompt n.raft := by
  induction hl with
  | init disk _ => intro p n hp; cases hp
  | @act c c' a h0 ha hr ih =>
    have hR := (h0.ok hG hE).1
    intro q n hq
    have keep : ∀ {x : Proc} {p : Nat} {c' : State}, c'.proc = (c.set p x).proc → c'.proc q = .up n →
        (∀ y, x = .up y → Prompt y.raft) → Prompt n.raft := by
      intro x p c' e hq hx
      rw [e] at hq
      by_cases h : q = p
      · subst h
        rw [set_self] at hq
        exact hx _ hq
      · have : (c.set p x).proc q = c.proc q := if_neg h
        rw [this] at hq
        exact ih hq
    cases a with
    | start p cfg rng =>
      obtain ⟨st, hp, _⟩ := ha
      unfold Act.run at hr
      dsimp only at hr
      rw [hp] at hr
      dsimp only at hr
      obtain ⟨n', hn, hc⟩ := Res.bind_eq_ok.1 hr
      cases hc
      exact keep (x := .up n') rfl hq fun y hy => by
        cases hy
        exact .idle (by rw [(RawNode.new_ok hn).1.state]; nofun)
    | call p x =>
      obtain ⟨⟨n0, hp⟩, hx, _⟩ := ha
      unfold Act.run at hr
      dsimp only at hr
      rw [hp] at hr
      dsimp only at hr
      obtain ⟨n', hn, hc⟩ := Res.bind_eq_ok.1 hr
      cases hc
      exact keep (x := .up n') rfl hq fun y hy => by cases hy; exact (ih hp).plain hx hn
    | deliver p m =>
      obtain ⟨⟨n0, hp⟩, _⟩ := ha
      unfold Act.run at hr
      dsimp only at hr
      rw [hp] at hr
      dsimp only at hr
      obtain ⟨n', hn, hc⟩ := Res.bind_eq_ok.1 hr
      cases hc
      exact keep (x := .up n') rfl hq fun y hy => by cases hy; exact (ih hp).plain (c := .step m) trivial hn
    | ready p =>
      obtain ⟨n0, hp⟩ := ha
      unfold Act.run at hr
      dsimp only at hr
      rw [hp] at hr
      dsimp only at hr
      obtain ⟨⟨n', rd⟩, hn, hc⟩ := Res.bind_eq_ok.1 hr
      cases hc
      exact keep (x := .up n') rfl hq fun y hy => by cases hy; exact (ih hp).ready (upLog hG hR hp).1 hn
    | compact p i =>
      obtain ⟨n0, hp, hi, _⟩ := ha
      unfold Act.run at hr
      dsimp only at hr
      rw [hp] at hr
      dsimp only at hr
      obtain ⟨⟨st, e⟩, hn, hc⟩ := Res.bind_eq_ok.1 hr
      cases hc
      obtain ⟨k1, k2, _, k4⟩ := (upLog hG hR hp).1.compact_withStorage env hi hn
      exact keep (x := .up (n0.withStorage st)) rfl hq fun y hy => by cases hy; exact (ih hp).storage (upLog hG hR hp).1 k1 k2 k4
    | createSnapshot p i cs data =>
      obtain ⟨n0, hp, hi, _⟩ := ha
      unfold Act.run at hr
      dsimp only at hr
      rw [hp] at hr
      dsimp only at hr
      obtain ⟨⟨st, e⟩, hn, hc⟩ := Res.bind_eq_ok.1 hr
      cases hc
      obtain ⟨k1, k2, _, k4⟩ := (upLog hG hR hp).1.createSnapshot_withStorage env hi hn
      exact keep (x := .up (n0.withStorage st)) rfl hq fun y hy => by cases hy; exact (ih hp).storage (upLog hG hR hp).1 k1 k2 k4
    | crash p =>
      obtain ⟨n0, hp⟩ := ha
      unfold Act.run at hr
      dsimp only at hr
      rw [hp] at hr
      cases hr
      exact keep (x := .down n0.raft.log.storage) rfl hq fun y hy => by cases hy
    | crashReady p k2 k =>
      obtain ⟨n0, hp⟩ := ha
      unfold Act.run at hr
      dsimp only at hr
      rw [hp] at hr
      dsimp only at hr
      obtain ⟨⟨n', rd⟩, hn, hc⟩ := Res.bind_eq_ok.1 hr
      cases hc
      exact keep (x := .down n'.raft.log.storage) rfl hq fun y hy => by cases hy

end
end Craft.Cluster
