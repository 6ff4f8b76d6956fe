import Verif.Cluster.Core
import Verif.Node.Plain
import Verif.Props.Restore

/-! # Every cluster execution is an execution of the abstract protocol -/

namespace Craft.Cluster
open Spec Abs

/-- The committed part, the term and the vote of a node survive its own steps. -/
theorem path_keep {G : Gen} {g s : AState} {p : Nat} (hg : AReach G.Q G.τ g) (h : PPath G.Q p g s) :
    (g.node p).commit ≤ (s.node p).commit ∧ (g.node p).log.take (g.node p).commit <+: (s.node p).log ∧
    ((s.node p).term = (g.node p).term → (g.node p).vote ≠ 0 → (s.node p).vote = (g.node p).vote) := by
  induction h with
  | nil => exact ⟨Nat.le_refl _, List.take_prefix _ _, fun _ _ => rfl⟩
  | @snoc s out a hp hs ih =>
    obtain ⟨i1, i2, i3⟩ := ih
    have hr := hp.reach hg
    have ht := hp.term_le
    rw [upd_self]
    have hc := (hr.inv.commitOk p).1
    have hcg := (hg.inv.commitOk p).1
    cases hs with
    | term T h => exact ⟨i1, i2, fun he _ => by dsimp only at he; omega⟩
    | down => exact ⟨i1, i2, i3⟩
    | cand h1 h2 h3 => exact ⟨i1, i2, fun he _ => by dsimp only at he; omega⟩
    | grant c lg h1 h2 h3 =>
      refine ⟨i1, i2, fun he hv => ?_⟩
      dsimp only at he ⊢
      have := i3 he hv
      rcases h2 with h2 | h2
      · rw [this] at h2; exact absurd h2 hv
      · rw [← h2, this]
    | win S h1 h2 h3 => exact ⟨i1, i2, i3⟩
    | append es h1 h2 => exact ⟨i1, i2.trans (List.prefix_append _ _), i3⟩
    | recv c lg full h1 h2 h3 =>
      refine ⟨i1, ?_, i3⟩
      refine List.IsPrefix.trans ?_ (Gen.commit_accept hr h2 h3)
      exact List.prefix_take_iff.2 ⟨i2, by rw [List.length_take]; omega⟩
    | ackCommit c lg h => exact ⟨i1, i2, i3⟩
    | commitL k e S h1 h2 h3 h4 h5 h6 => exact ⟨Nat.le_trans i1 h2, i2, i3⟩
    | commitF T c pre h1 h2 h3 h4 h5 => exact ⟨Nat.le_trans i1 h3, i2, i3⟩

/-- The initial situation, for the abstract protocol. -/
def Genesis.gen (G : Genesis) (h : G.OK) : Gen where
  L0 := G.log
  τ := G.term
  cs := G.trk.confState
  cfg := G.trk.config
  ne := h.voter
  terms := h.terms
  low := h.low
  auto := h.auto
  restore mi last cfg' prs hr := by
    obtain ⟨P, h1, h2⟩ := C14_restore_roundtrip G.trk h.conf h.zero (Or.inl h.voter) mi last
    rw [h1] at hr
    cases hr
    refine ⟨rfl, fun v pr hf hl => ?_⟩
    have hn : v ∉ G.trk.config.learners := fun hc => by
      rw [(h2.lrn_flag v pr hf).2 hc] at hl; cases hl
    rcases (h2.prs_exact v).1 ⟨pr, hf⟩ with hm | hm | hm | hm
    · exact Or.inl hm
    · exact Or.inr hm
    · exact absurd hm hn
    · exact Or.inr (h2.nxt_out v hm)

namespace Gen
variable (G : Gen)

/-- The disk holds the abstract node (all but its role). -/
structure Durable (st : Storage) (a : ANode) : Prop where
  wf : st.WF
  log : LogRel (G.L0 ++ a.log) st.view
  term : st.hardState.term = a.term
  vote : st.hardState.vote = a.vote
  commit : max st.view.base st.hardState.commit = G.L0.length + a.commit
  snap : G.SnapOk a.log st.snapshot
  snapLe : st.snapshot.metadata.index ≤ G.L0.length + a.commit

/-- A running node: what is persisted is in `g`, what is not yet persisted is the path from `g` to `s`. -/
structure Up (g : AState) (p : Nat) (n : RawNode) (s : AState) : Prop where
  path : PPath G.Q p g s
  rel : G.NodeRel p s.net n.raft.core (s.node p)
  msgs : ∀ m ∈ n.raft.msgs, G.MsgOk s.net m
  app : n.raft.log.applied ≤ G.L0.length + (g.node p).commit
  prev : n.prevHardSt = ⟨(g.node p).term, (g.node p).vote, G.L0.length + (g.node p).commit⟩
  dur : G.Durable n.raft.log.storage (g.node p)
  base : n.raft.log.storage.view.base ≤ n.raft.log.applied
  may : G.May n.raft.core

def ProcOk (g : AState) (p : Nat) : Proc → Prop
  | .down st => G.Durable st (g.node p)
  | .up n => ∃ s, G.Up g p n s

/-- A delivered entry is in the initial log or in something chosen by then. -/
def OutOk (N : List AMsg) (d : Delivered) : Prop :=
  1 ≤ d.entry.index ∧ ∃ pre, (G.L0 ++ pre)[d.entry.index - 1]? = some d.entry ∧ (pre = [] ∨ ∃ T0, T0 ≤ d.term ∧ AMsg.chosen T0 pre ∈ N)

def LedOk (N : List AMsg) (r : Led) : Prop := ∃ lg, AMsg.lead r.term r.node lg ∈ N ∧ LogRel (G.L0 ++ lg) r.log

structure Rel (c : State) (g : AState) : Prop where
  reach : AReach G.Q G.τ g
  proc : ∀ p, G.ProcOk g p (c.proc p)
  net : ∀ m ∈ c.net, G.MsgOk g.net m
  out : ∀ d ∈ c.out, G.OutOk g.net d
  led : ∀ r ∈ c.led, G.LedOk g.net r

variable {G} {g : AState} {p : Nat} {c : State}

theorem OutOk.mono {N N' : List AMsg} {d : Delivered} (h : G.OutOk N d) (hn : ∀ m ∈ N, m ∈ N') : G.OutOk N' d := by
  obtain ⟨h0, pre, h1, h2⟩ := h
  refine ⟨h0, pre, h1, ?_⟩
  rcases h2 with h2 | ⟨T, h2, h3⟩
  · exact Or.inl h2
  · exact Or.inr ⟨T, h2, hn _ h3⟩

theorem LedOk.mono {N N' : List AMsg} {d : Led} (h : G.LedOk N d) (hn : ∀ m ∈ N, m ∈ N') : G.LedOk N' d := by
  obtain ⟨lg, h1, h2⟩ := h
  exact ⟨lg, hn _ h1, h2⟩

theorem ProcOk.mono {g' : AState} {x : Proc} (h : G.ProcOk g p x) (hp : g'.node p = g.node p) (hn : ∀ m ∈ g.net, m ∈ g'.net) :
    G.ProcOk g' p x := by
  cases x with
  | down st => show G.Durable st (g'.node p); rw [hp]; exact h
  | up n =>
    obtain ⟨s, h⟩ := h
    obtain ⟨s2, h1, h2, h3⟩ := h.path.rebase hp hn
    refine ⟨s2, h1, ?_, fun m hm => (h.msgs m hm).mono h3, by rw [hp]; exact h.app, by rw [hp]; exact h.prev, by rw [hp]; exact h.dur, h.base, h.may⟩
    rw [h2]
    exact h.rel.mono h3

/-- Changing one process, the persisted state moving along `p`'s path. -/
theorem Rel.set (h : G.Rel c g) {s : AState} (hp : PPath G.Q p g s) {x : Proc} (hx : G.ProcOk s p x) {net out led}
    (hnet : ∀ m ∈ net, m ∈ c.net ∨ G.MsgOk s.net m) (hout : ∀ d ∈ out, d ∈ c.out ∨ G.OutOk s.net d)
    (hled : ∀ r ∈ led, r ∈ c.led ∨ G.LedOk s.net r) :
    G.Rel { c.set p x with net := net, out := out, led := led } s := by
  refine ⟨hp.reach h.reach, fun q => ?_, fun m hm => ?_, fun d hd => ?_, fun r hr => ?_⟩
  · show G.ProcOk s q (if q = p then x else c.proc q)
    by_cases hq : q = p
    · subst hq; rw [if_pos rfl]; exact hx
    · rw [if_neg hq]; exact (h.proc q).mono (hp.other hq) hp.net
  · rcases hnet m hm with hm | hm
    · exact (h.net m hm).mono hp.net
    · exact hm
  · rcases hout d hd with hd | hd
    · exact (h.out d hd).mono hp.net
    · exact hd
  · rcases hled r hr with hr | hr
    · exact (h.led r hr).mono hp.net
    · exact hr

theorem Rel.set' (h : G.Rel c g) {x : Proc} (hx : G.ProcOk g p x) : G.Rel (c.set p x) g :=
  h.set .nil hx (fun _ h => Or.inl h) (fun _ h => Or.inl h) (fun _ h => Or.inl h)

/-! ## Calls and messages -/

theorem Up.sim {n n' : RawNode} {s : AState} {env : Env} {im : Message} (hg : AReach G.Q G.τ g) (h : G.Up g p n s) (hsim : Sim env im n.raft n'.raft)
    (him : G.MsgOk s.net im) (hto : im.type = .voteResp ∨ im.type = .heartbeat → im.to = p) (hst : n'.raft.log.storage = n.raft.log.storage)
    (hprev : n'.prevHardSt = n.prevHardSt) : ∃ s', G.Up g p n' s' := by
  obtain ⟨_, ms, hm, hpath⟩ := hsim
  obtain ⟨⟨s', p1, n1, m1⟩, hmy⟩ := path_done hpath (h.path.reach hg) h.rel him h.may hto
  have ha : n'.raft.log.applied = n.raft.log.applied := hpath.applied_eq
  refine ⟨s', h.path.trans p1, n1, fun m hmm => ?_, by rw [ha]; exact h.app, by rw [hprev]; exact h.prev, by rw [hst]; exact h.dur, by rw [hst, ha]; exact h.base, hmy⟩
  rw [hm] at hmm
  rcases List.mem_append.1 hmm with h2 | h2
  · exact (h.msgs m h2).mono p1.net
  · exact m1 m h2

theorem Up.call {n n' : RawNode} {s : AState} {env : Env} {x : Call} (hg : AReach G.Q G.τ g) (h : G.Up g p n s) (hx : x.Plain)
    (hr : x.run env n = .ok n') (him : G.MsgOk s.net (x.msg env n))
    (hto : (x.msg env n).type = .voteResp ∨ (x.msg env n).type = .heartbeat → (x.msg env n).to = p) : ∃ s', G.Up g p n' s' := by
  have hstamp : x.Stamped := by
    cases x with
    | step m =>
      intro hty
      exact (msgOk_term (h.path.reach hg) him (by rcases hty with h | h | h <;> simp [Call.msg, h])).1
    | _ => trivial
  refine h.sim hg (Call.plain_sim hx hstamp hr) him hto (Call.run_storage hstamp hr) (Call.run_prevHard (env := env) (c := x) ?_ hr)
  intro hx'; subst hx'; exact hx

/-! ## Starting -/

theorem start_up {env : Env} {cfg : Config} {st : Storage} {rng : Nat} {n : RawNode} (hd : G.Durable st (g.node p)) (hid : cfg.id = p)
    (hn : RawNode.new env cfg st rng = .ok n) : ∃ s, G.Up g p n s := by
  obtain ⟨hf, _, hprev, _⟩ := RawNode.new_ok hn
  have hb : st.firstIndex - 1 = st.view.base := by rw [Storage.firstIndex_eq]; omega
  have hl : st.lastIndex = st.view.last := hd.wf.lastIndex_eq
  have hcom : n.raft.log.committed = G.L0.length + (g.node p).commit ∧ n.raft.log.committed ≤ st.view.last ∧ st.view.base ≤ n.raft.log.committed := by
    have hbl : st.view.base ≤ st.view.last := Nat.le_add_right _ _
    rcases hf.commit with ⟨h1, h2⟩ | ⟨h1, h2, h3⟩
    · have := hd.commit
      rw [h1] at this
      have hz : (({} : HardState).commit) = 0 := rfl
      omega
    · have := hd.commit
      omega
  have happ : n.raft.log.applied ≤ n.raft.log.committed ∧ st.view.base ≤ n.raft.log.applied := by
    rcases hf.applied with ⟨h1, h2⟩ | ⟨h1, h2, h3⟩ <;> omega
  have hlog : n.raft.log = { RaftLog.new st n.raft.log.maxNextEntsSize with committed := n.raft.log.committed, applied := n.raft.log.applied } := by
    have h1 := hf.storage
    have h2 := hf.unstable
    cases hr : n.raft.log
    rw [hr] at h1 h2
    dsimp only at h1 h2
    subst h1 h2
    rfl
  have hstart : LStart n.raft.log :=
    ⟨st, n.raft.log.maxNextEntsSize, n.raft.log.committed, n.raft.log.applied, hd.wf, by rw [Storage.firstIndex_eq]; omega, happ.1, by omega,
      by rw [hcom.1]; exact hd.snapLe, hlog⟩
  have hview : n.raft.log.view = st.view := by
    rw [RaftLog.view_nosnap (by rw [hf.unstable]), hf.storage, hf.unstable]
    dsimp only
    rw [hl]
    unfold LogView.last
    rw [List.append_nil, List.take_of_length_le (by omega)]
  have hsn : n.raft.log.snapshot = st.snapshot := by
    unfold RaftLog.snapshot
    rw [hf.unstable, hf.storage]; rfl
  refine ⟨_, .single (Abs.LStep.down), ?_, ?_, ?_, ?_, by rw [hf.storage]; exact hd, by rw [hf.storage]; exact happ.2, ?_⟩
  · rw [upd_self]
    obtain ⟨P0, hc, _⟩ := hf.conf
    refine ⟨hf.id.trans hid, by rw [← hid]; exact hf.id_ne, hf.term.trans hd.term, hf.vote.trans hd.vote, ?_, hstart.inv, ?_, hcom.1, ?_, ?_, ?_, ?_, ?_⟩
    · show roleOf n.raft.state = .follower
      rw [hf.state]; rfl
    · show LogRel _ n.raft.log.view
      rw [hview]; exact hd.log
    · refine (G.restore cfg.maxInflightMsgs st.lastIndex _ P0 ?_).1
      rw [← hd.snap.conf]; exact hc
    · intro h; rw [show n.raft.core.state = n.raft.state from rfl, hf.state] at h; cases h
    · intro h; rw [show n.raft.core.state = n.raft.state from rfl, hf.state] at h; cases h
    · show G.SnapOk _ n.raft.log.snapshot
      rw [hsn]; exact hd.snap
    · show G.SnapOk _ n.raft.log.storage.snapshot
      rw [hf.storage]; exact hd.snap
  · rw [hf.msgs]; intro m hm; cases hm
  · rw [← hcom.1]; exact happ.1
  · rw [hprev]
    show (⟨n.raft.term, n.raft.vote, n.raft.log.committed⟩ : HardState) = _
    rw [hf.term, hf.vote, hcom.1, hd.term, hd.vote]
  · obtain ⟨P0, hc, hp⟩ := hf.conf
    rw [hd.snap.conf] at hc
    refine ⟨fun v pr hfi hl => ?_, fun h => ?_⟩
    · rw [show n.raft.core.progress = n.raft.trk.progress from rfl, hp, AMap.find_map] at hfi
      cases hq : P0.find v with
      | none => rw [hq] at hfi; cases hfi
      | some q =>
        rw [hq] at hfi
        cases hfi
        refine (G.restore _ _ _ _ hc).2 v q hq ?_
        rw [← hl]
        unfold Raft.resetPr
        dsimp only
        split <;> rfl
    · rw [show n.raft.core.state = n.raft.state from rfl, hf.state] at h; cases h

/-! ## Persisting -/

theorem Up.persist {n : RawNode} {s : AState} {env : Env} {st : Storage} (hg : AReach G.Q G.τ g) (h : G.Up g p n s)
    (hst : n.raft.log.storage.save (readyOf env n) = .ok st) : G.Durable st (s.node p) ∧
      (if isEmptyHardState (readyOf env n).hardState then n.prevHardSt else (readyOf env n).hardState) =
        ⟨(s.node p).term, (s.node p).vote, G.L0.length + (s.node p).commit⟩ := by
  obtain ⟨st', h1, w, v, hsn, hhs⟩ := save_eq (env := env) h.rel.linv
  rw [hst] at h1
  cases h1
  obtain ⟨k1, k2, k3⟩ := path_keep hg h.path
  have kt := h.path.term_le
  have hcur : n.raft.hardState = ⟨(s.node p).term, (s.node p).vote, G.L0.length + (s.node p).commit⟩ := by
    show (⟨n.raft.term, n.raft.vote, n.raft.log.committed⟩ : HardState) = _
    rw [show n.raft.term = _ from h.rel.term, show n.raft.vote = _ from h.rel.vote, show n.raft.log.committed = _ from h.rel.commit]
  have hbase := h.rel.linv.base_com
  have hcomm : n.raft.log.committed = _ := h.rel.commit
  have hbase' : n.raft.log.view.base ≤ G.L0.length + (s.node p).commit := by rw [← hcomm]; exact hbase
  have dur : ∀ hs : HardState, st.hardState = hs → hs.term = (s.node p).term → hs.vote = (s.node p).vote →
      max st.view.base hs.commit = G.L0.length + (s.node p).commit → G.Durable st (s.node p) := by
    intro hs e0 e1 e2 e3
    subst e0
    refine ⟨w, by rw [v]; exact h.rel.log, e1, e2, e3, ?_, ?_⟩
    · rw [hsn]
      have := h.rel.snap
      rw [show n.raft.core.log = n.raft.log from rfl] at this
      unfold RaftLog.snapshot at this
      cases hs : n.raft.log.unstable.snapshot with
      | none => rw [hs] at this; exact this
      | some x => rw [hs] at this; exact this
    · rw [hsn]
      cases hs : n.raft.log.unstable.snapshot with
      | none => have := h.rel.linv.snap_com; rw [h.rel.commit] at this; exact this
      | some x =>
        have hvb : n.raft.log.view.base = x.metadata.index := by rw [RaftLog.view_snap hs]
        simp only [Option.getD_some]; omega
  have hrd : (readyOf env n).hardState = if n.raft.hardState = n.prevHardSt then {} else n.raft.hardState := rfl
  rw [hrd] at hhs ⊢
  by_cases he : n.raft.hardState = n.prevHardSt
  · rw [if_pos he] at hhs ⊢
    rw [if_pos (by decide)] at hhs ⊢
    refine ⟨?_, by rw [← he]; exact hcur⟩
    have hp := h.prev
    rw [← he, hcur] at hp
    simp only [HardState.mk.injEq] at hp
    obtain ⟨e1, e2, e3⟩ := hp
    have := h.dur.commit
    have hsb := h.dur.log.base_le
    refine dur _ hhs (by rw [h.dur.term, e1]) (by rw [h.dur.vote, e2]) ?_
    rw [v]
    have hbm : n.raft.log.storage.view.base ≤ n.raft.log.view.base := by
      cases hs : n.raft.log.unstable.snapshot with
      | none => rw [RaftLog.view_nosnap hs]
      | some x =>
        have hvb : n.raft.log.view.base = x.metadata.index := by rw [RaftLog.view_snap hs]
        have h1 : n.raft.log.applied < x.metadata.index := (h.rel.linv.pend x hs).1
        have h2 := h.base
        omega
    omega
  · rw [if_neg he] at hhs ⊢
    have hne : isEmptyHardState n.raft.hardState = false := by
      unfold isEmptyHardState
      refine decide_eq_false fun h0 => he ?_
      have hp := h.prev
      rw [h0] at hcur ⊢
      simp only [HardState.mk.injEq] at hcur
      obtain ⟨e1, e2, e3⟩ := hcur
      have hv : (g.node p).vote = 0 := Decidable.byContradiction fun hv => by
        have := k3 (by omega) hv
        omega
      rw [hp, hv, show (g.node p).term = 0 by omega, show G.L0.length + (g.node p).commit = 0 by omega]
    rw [hne] at hhs ⊢
    simp only [Bool.false_eq_true, if_false] at hhs ⊢
    refine ⟨?_, hcur⟩
    refine dur _ hhs (by rw [hcur]) (by rw [hcur]) ?_
    rw [hcur, v]; dsimp only; omega

theorem outOk_next {n : RawNode} {s : AState} {env : Env} (hr : AReach G.Q G.τ s) (hn : G.NodeRel p s.net n.raft.core (s.node p)) {e : Entry}
    (he : e ∈ nextOut env n.raft.log) : G.OutOk s.net ⟨p, n.raft.term, e⟩ := by
  have hli : LInv n.raft.log := hn.linv
  obtain ⟨h1, h2, h3, h4⟩ := hli.nextOut_entry env he
  have hlog : LogRel (G.L0 ++ (s.node p).log) n.raft.log.view := hn.log
  have hcom : n.raft.log.committed = G.L0.length + (s.node p).commit := hn.commit
  rw [hlog.entry h1] at h4
  refine ⟨by show 1 ≤ e.index; omega, ?_⟩
  obtain ⟨hc1, hc⟩ := hr.inv.commitOk p
  by_cases hi : e.index ≤ G.L0.length
  · refine ⟨[], ?_, Or.inl rfl⟩
    rw [List.getElem?_append_left (by omega)] at h4
    rw [List.append_nil]; exact h4
  · rcases hc with hc | ⟨T, pre, hc2, hc3, hc4⟩
    · omega
    · refine ⟨pre, ?_, Or.inr ⟨T, ?_, hc2⟩⟩
      · rw [List.getElem?_append_right (by omega)] at h4
        show (G.L0 ++ pre)[e.index - 1]? = some e
        rw [List.getElem?_append_right (by omega), prefix_getElem? hc4 (by rw [List.length_take]; omega), List.getElem?_take, if_pos (by omega)]
        exact h4
      · show T ≤ n.raft.term
        rw [show n.raft.term = _ from hn.term]; exact hc3

/-- The node after a Ready. -/
theorem Up.ready {n : RawNode} {s : AState} {env : Env} (hg : AReach G.Q G.τ g) (h : G.Up g p n s) {n' : RawNode} {rd : Ready}
    (hrd : n.handleReady env [] = .ok (n', rd)) : G.Up s p n' s ∧ rd = readyOf env n := by
  have hli : LInv n.raft.log := h.rel.linv
  have hcfg : n.raft.trk.config.autoLeave = false := by rw [show n.raft.trk.config = _ from h.rel.config]; exact G.auto
  obtain ⟨st, u, hs, heq⟩ := handleReady_eq (env := env) hli hcfg
  obtain ⟨st', hs', w, v, hsn, hhs⟩ := save_eq (env := env) hli
  rw [hs] at hs'
  cases hs'
  rw [heq] at hrd
  simp only [Res.ok.injEq, Prod.mk.injEq] at hrd
  obtain ⟨rfl, rfl⟩ := hrd
  obtain ⟨hd, hp⟩ := h.persist hg hs
  obtain ⟨hli', hv⟩ := hli.readyLog env w v hsn
  have hlast : (readyLog env n.raft.log st).lastIndex = n.raft.log.lastIndex := by rw [hli'.wf.lastIndex_eq, hli.wf.lastIndex_eq, hv]
  have happ := hli'.app_com
  have hcom : n.raft.log.committed = _ := h.rel.commit
  refine ⟨⟨.nil, ?_, ?_, ?_, hp, hd, ?_, h.may⟩, rfl⟩
  · have hr := h.rel
    refine ⟨hr.id, hr.idne, hr.term, hr.vote, hr.role, hli', ?_, hr.commit, hr.config, hr.votes, ?_, hd.snap, hd.snap⟩
    · show LogRel _ (readyLog env n.raft.log st).view
      rw [hv]; exact hr.log
    · intro hl v pr hpr
      show PrOk (readyLog env n.raft.log st).lastIndex pr ∧ _
      rw [hlast]
      exact hr.prs hl v pr hpr
  · intro m hm; cases hm
  · show (readyLog env n.raft.log st).applied ≤ _
    rw [← hcom]; exact happ
  · show st.view.base ≤ (readyLog env n.raft.log st).applied
    rw [v]
    show _ ≤ max n.raft.log.applied n.raft.log.view.base + _
    omega

/-! ## Compaction and snapshots -/

theorem Durable.gterm_keep {s : AState} (hg : AReach G.Q G.τ g) (hp : PPath G.Q p g s) {i : Nat} (hi : i ≤ G.L0.length + (g.node p).commit) :
    gterm (G.L0 ++ (s.node p).log) i = gterm (G.L0 ++ (g.node p).log) i := by
  obtain ⟨_, k2, _⟩ := path_keep hg hp
  have hc := (hg.inv.commitOk p).1
  have hl : (G.L0 ++ (g.node p).log.take (g.node p).commit).length = G.L0.length + (g.node p).commit := by
    rw [List.length_append, List.length_take]; omega
  have e1 := gterm_prefix ((append_prefix (a := G.L0)).2 k2) (i := i) (by omega)
  have e2 := gterm_prefix ((append_prefix (a := G.L0)).2 (List.take_prefix (g.node p).commit (g.node p).log)) (i := i) (by omega)
  rw [e1, e2]

theorem Up.compact {n : RawNode} {s : AState} (hg : AReach G.Q G.τ g) (h : G.Up g p n s) {i : Nat} (hi : i ≤ n.raft.log.applied) {st : Storage}
    {e : Option Err} (he : n.raft.log.storage.compact i = .ok (st, e)) : G.Up g p (n.withStorage st) s := by
  have hli : LInv n.raft.log := h.rel.linv
  rcases hli.compact_view hi he with rfl | ⟨c1, c2, c3, c4, c5, c6, c7⟩
  · exact h
  have hli' : LInv { n.raft.log with storage := st } := (hli.step' (env := ⟨fun _ => 0, fun _ => none, fun _ => none, fun _ => [], fun _ _ => 0, fun _ => []⟩)
    (o := []) (o' := []) (.compact i hi he)).1
  have hca := hli.app_com
  have hcl := hli.com_last
  have hlast : ({ n.raft.log with storage := st } : RaftLog).view.last = n.raft.log.view.last := by
    rcases c7 with c7 | ⟨_, c8, c7⟩
    · rw [c7]
    · rw [c7, LogView.compact_last (by omega) (by omega)]
  have hr := h.rel
  refine ⟨h.path, ?_, h.msgs, h.app, h.prev, ?_, ?_, h.may⟩
  · refine ⟨hr.id, hr.idne, hr.term, hr.vote, hr.role, hli', ?_, hr.commit, hr.config, hr.votes, ?_, ?_, ?_⟩
    · show LogRel _ ({ n.raft.log with storage := st } : RaftLog).view
      have hl : LogRel _ n.raft.log.view := hr.log
      rcases c7 with c7 | ⟨_, c8, c7⟩
      · rw [c7]; exact hl
      · rw [c7]; exact hl.compact (by omega) (by omega)
    · intro hl v pr hpr
      show PrOk ({ n.raft.log with storage := st } : RaftLog).lastIndex pr ∧ _
      rw [hli'.wf.lastIndex_eq, hlast, ← hli.wf.lastIndex_eq]
      exact hr.prs hl v pr hpr
    · have := hr.snap
      show G.SnapOk _ ({ n.raft.log with storage := st } : RaftLog).snapshot
      rw [show n.raft.core.log = n.raft.log from rfl] at this
      unfold RaftLog.snapshot Storage.snapShot at this ⊢
      cases hs : n.raft.log.unstable.snapshot with
      | none => rw [hs] at this; dsimp only at this ⊢; rw [c5]; exact this
      | some x => rw [hs] at this; exact this
    · show G.SnapOk _ st.snapshot
      rw [c5]; exact hr.stsnap
  · show G.Durable st (g.node p)
    have hd := h.dur
    have ha := h.app
    have hb : st.view.base = i := by rw [c4]; rfl
    have := hd.commit
    refine ⟨c3, by rw [c4]; exact hd.log.compact (by omega) c2, by rw [c6]; exact hd.term, by rw [c6]; exact hd.vote, ?_, by rw [c5]; exact hd.snap,
      by rw [c5]; exact hd.snapLe⟩
    rw [hb, c6]; omega
  · show st.view.base ≤ n.raft.log.applied
    rw [c4]; exact hi

theorem Up.createSnapshot {n : RawNode} {s : AState} (hcs : G.cs = ({ config := G.cfg, maxInflight := 0 } : Tracker).confState)
    (hg : AReach G.Q G.τ g) (h : G.Up g p n s) {i : Nat} (hi : i ≤ n.raft.log.applied)
    {cs : Option ConfState} {data : Bytes} {st : Storage} {e : Except Err Snapshot} (hc : ∀ x, cs = some x → x = n.raft.trk.confState)
    (he : n.raft.log.storage.createSnapshot i cs data = .ok (st, e)) : G.Up g p (n.withStorage st) s := by
  have hli : LInv n.raft.log := h.rel.linv
  have hd := h.dur
  have ha := h.app
  rcases Storage.createSnapshot_cases hd.wf he with rfl | ⟨c1, c2, c3, c4, c5, c6⟩
  · exact h
  have hli' : LInv { n.raft.log with storage := st } := (hli.step' (env := ⟨fun _ => 0, fun _ => none, fun _ => none, fun _ => [], fun _ _ => 0, fun _ => []⟩)
    (o := []) (o' := []) (.createSnapshot i cs data hi he)).1
  have hw : st.WF := hli'.wf.stor
  have hv : st.view = n.raft.log.storage.view := by rw [c3]; rfl
  have hh : st.hardState = n.raft.log.storage.hardState := by rw [c3]
  have hview : ({ n.raft.log with storage := st } : RaftLog).view = n.raft.log.view := by
    cases hs : n.raft.log.unstable.snapshot with
    | some x => rw [RaftLog.view_snap hs, RaftLog.view_snap (l := { n.raft.log with storage := st }) hs]
    | none =>
      rw [RaftLog.view_nosnap hs, RaftLog.view_nosnap (l := { n.raft.log with storage := st }) hs]
      dsimp only
      rw [hv]
  have hr := h.rel
  have hconf : st.snapshot.metadata.confState = G.cs := by
    rw [c6]
    cases cs with
    | none => exact hd.snap.conf
    | some x =>
      show x = _
      rw [hc x rfl, hcs]
      have : n.raft.trk.config = G.cfg := hr.config
      unfold Tracker.confState
      rw [this]
  obtain ⟨k1, k2, _⟩ := path_keep hg h.path
  have kc := (hg.inv.commitOk p).1
  have kl := k2.length_le
  rw [List.length_take] at kl
  have hsg : G.SnapOk (g.node p).log st.snapshot := by
    refine ⟨by rw [c4]; omega, ?_, hconf⟩
    rw [c5, c4]
    exact hd.log.termAt c1
  have hss : G.SnapOk (s.node p).log st.snapshot := by
    refine ⟨by rw [c4]; omega, ?_, hconf⟩
    rw [hsg.term, Durable.gterm_keep hg h.path (by rw [c4]; omega)]
  refine ⟨h.path, ?_, h.msgs, h.app, h.prev, ?_, ?_, h.may⟩
  · refine ⟨hr.id, hr.idne, hr.term, hr.vote, hr.role, hli', ?_, hr.commit, hr.config, hr.votes, ?_, ?_, hss⟩
    · show LogRel _ ({ n.raft.log with storage := st } : RaftLog).view
      rw [hview]; exact hr.log
    · intro hl v pr hpr
      show PrOk ({ n.raft.log with storage := st } : RaftLog).lastIndex pr ∧ _
      rw [hli'.wf.lastIndex_eq, hview, ← hli.wf.lastIndex_eq]
      exact hr.prs hl v pr hpr
    · have := hr.snap
      show G.SnapOk _ ({ n.raft.log with storage := st } : RaftLog).snapshot
      rw [show n.raft.core.log = n.raft.log from rfl] at this
      unfold RaftLog.snapshot Storage.snapShot at this ⊢
      cases hs : n.raft.log.unstable.snapshot with
      | none => dsimp only; exact hss
      | some x => rw [hs] at this; exact this
  · show G.Durable st (g.node p)
    exact ⟨hw, by rw [hv]; exact hd.log, by rw [hh]; exact hd.term, by rw [hh]; exact hd.vote, by rw [hv, hh]; exact hd.commit, hsg, by rw [c4]; omega⟩
  · show st.view.base ≤ n.raft.log.applied
    rw [hv]; exact h.base

/-! ## The simulation -/

theorem Rel.step_grows {env : Env} {c c' : State} (hcs : G.cs = ({ config := G.cfg, maxInflight := 0 } : Tracker).confState) (h : G.Rel c g)
    (hs : Step env c c') : ∃ g', G.Rel c' g' ∧ (g' = g ∨ ∃ p, PPath G.Q p g g') := by
  have hg := h.reach
  have up : ∀ {p n}, c.proc p = .up n → ∃ s, G.Up g p n s := by
    intro p n hp
    have := h.proc p
    rw [hp] at this
    exact this
  cases hs with
  | start p cfg rng hp hid hn =>
    have hd := h.proc p
    rw [hp] at hd
    exact ⟨g, h.set' (start_up hd hid hn), Or.inl rfl⟩
  | call p x hp hx hns hr =>
    obtain ⟨s, hu⟩ := up hp
    refine ⟨g, h.set' (hu.call hg hx hr ?_ ?_), Or.inl rfl⟩
    · cases x with
      | step m => exact absurd rfl (hns m)
      | tick => simp only [Call.msg]; split <;> exact trivial
      | _ => exact trivial
    · cases x with
      | step m => exact absurd rfl (hns m)
      | tick => simp only [Call.msg]; split <;> (intro h; rcases h with h | h <;> cases h)
      | _ => intro h; rcases h with h | h <;> cases h
  | deliver p m hp hm hto hr =>
    obtain ⟨s, hu⟩ := up hp
    exact ⟨g, h.set' (hu.call hg (x := .step m) trivial hr ((h.net m hm).mono hu.path.net) fun _ => hto), Or.inl rfl⟩
  | inject p m hp hv hr =>
    obtain ⟨s, hu⟩ := up hp
    unfold Vital at hv
    refine ⟨g, h.set' (hu.call hg (x := .step m) trivial hr ?_ ?_), Or.inl rfl⟩
    · show G.MsgOk s.net m
      unfold MsgOk
      split <;> first | trivial | (exfalso; apply hv; simp_all)
    · intro hty
      exfalso; apply hv
      rcases hty with h | h <;> rw [show m.type = _ from h] <;> simp
  | @ready p _ n n' rd hp hr =>
    obtain ⟨s, hu⟩ := up hp
    obtain ⟨hu', rfl⟩ := hu.ready hg hr
    have hrs := hu.path.reach hg
    refine ⟨s, h.set hu.path (x := .up n') ⟨s, hu'⟩ ?_ ?_ ?_, Or.inr ⟨p, hu.path⟩⟩
    · intro m hm
      rcases List.mem_append.1 hm with hm | hm
      · exact Or.inl hm
      · exact Or.inr (hu.msgs m hm)
    · intro d hd
      rcases List.mem_append.1 hd with hd | hd
      · exact Or.inl hd
      · obtain ⟨e, he, rfl⟩ := List.mem_map.1 hd
        exact Or.inr (outOk_next hrs hu.rel he)
    · intro r hr
      split at hr
      · rename_i hl
        rcases List.mem_append.1 hr with hr | hr
        · exact Or.inl hr
        · rw [List.mem_singleton] at hr
          subst hr
          refine Or.inr ⟨(s.node p).log, ?_, hu.rel.log⟩
          have := (hrs.inv.leadNode p (hu.rel.leader_role hl)).1
          rw [show n.raft.term = _ from hu.rel.term]
          exact this
      · exact Or.inl hr
  | compact p i hp hi he =>
    obtain ⟨s, hu⟩ := up hp
    exact ⟨g, h.set' ⟨s, hu.compact hg hi he⟩, Or.inl rfl⟩
  | createSnapshot p i cs data hp hi hc he =>
    obtain ⟨s, hu⟩ := up hp
    exact ⟨g, h.set' ⟨s, hu.createSnapshot hcs hg hi hc he⟩, Or.inl rfl⟩
  | crash p hp =>
    obtain ⟨s, hu⟩ := up hp
    exact ⟨g, h.set' (x := .down _) hu.dur, Or.inl rfl⟩
  | @crashReady p some k _ n n1 rd hp ht hsome =>
    obtain ⟨s, hu⟩ := up hp
    have hrs := hu.path.reach hg
    obtain ⟨st, hs1, hs2⟩ := takeReady_eq (env := env) hu.rel.linv
    have hs2' : n.takeReady env = _ := hs2
    rw [hs2'] at ht
    simp only [Res.ok.injEq, Prod.mk.injEq] at ht
    obtain ⟨rfl, rfl⟩ := ht
    refine ⟨s, h.set hu.path (x := .down st) (hu.persist hg hs1).1 ?_ ?_ fun _ h => Or.inl h, Or.inr ⟨p, hu.path⟩⟩
    · intro m hm
      rcases List.mem_append.1 hm with hm | hm
      · exact Or.inl hm
      · exact Or.inr (hu.msgs m (hsome m hm))
    · intro d hd
      rcases List.mem_append.1 hd with hd | hd
      · exact Or.inl hd
      · obtain ⟨e, he, rfl⟩ := List.mem_map.1 hd
        exact Or.inr (outOk_next hrs hu.rel (List.mem_of_mem_take he))

theorem Rel.step {env : Env} {c c' : State} (hcs : G.cs = ({ config := G.cfg, maxInflight := 0 } : Tracker).confState) (h : G.Rel c g)
    (hs : Step env c c') : ∃ g', G.Rel c' g' :=
  let ⟨g', h1, _⟩ := h.step_grows hcs hs
  ⟨g', h1⟩

end Gen

theorem Reach.rel {env : Env} {G : Genesis} (hG : G.OK) {c : State} (h : Reach env G c) : ∃ g, (G.gen hG).Rel c g := by
  induction h with
  | init disk hd =>
    refine ⟨.init G.term, .init, fun p => ?_, ?_, ?_, ?_⟩
    · show (G.gen hG).Durable (disk p) _
      have := hd p
      refine ⟨this.wf, ?_, this.term, this.vote, this.commit, ⟨?_, ?_, this.snapConf⟩, this.snapIndex⟩
      · show LogRel (G.log ++ []) _
        rw [List.append_nil]; exact this.log
      · exact this.snapIndex
      · show _ = gterm (G.log ++ []) _
        rw [List.append_nil]; exact this.snapTerm
    all_goals intro x hx; cases hx
  | step _ hs ih =>
    obtain ⟨g, hr⟩ := ih
    exact hr.step rfl hs

end Craft.Cluster
