import Verif.Cluster.Main
import Verif.Cluster.Demo

/-! # Cluster properties: C47-C50

Fixed membership (see `Verif.Spec.Cluster`): nodes crash and restart anywhere, the network does anything. -/

namespace Craft.Cluster
open Spec Abs

/-- The logs of a cluster: what is on the disks, what running nodes have in memory, what past leaders had. -/
inductive State.HasLog (c : State) : LogView → Prop
  | disk (p : Nat) : c.HasLog (c.proc p).disk.view
  | mem (p : Nat) {n : RawNode} : c.proc p = .up n → c.HasLog n.raft.log.view
  | led {r : Led} : r ∈ c.led → c.HasLog r.log

/-- Node `p` is running and leads `term` with the log `v`. -/
def State.Leads (c : State) (p term : Nat) (v : LogView) : Prop :=
  ∃ n, c.proc p = .up n ∧ n.raft.state = .leader ∧ n.raft.term = term ∧ n.raft.log.view = v

/-- `p` led `term` at some time. -/
def State.EverLed (c : State) (p term : Nat) : Prop := (∃ v, c.Leads p term v) ∨ ∃ v, ⟨p, term, v⟩ ∈ c.led

/-- The disk of `p` records index `i` as committed. -/
def State.DiskCommitted (c : State) (p i : Nat) : Prop :=
  i ≤ max (c.proc p).disk.view.base (c.proc p).disk.hardState.commit

namespace Gen
variable {G : Gen} {g : AState} {c : State}

/-- One running node, seen in an abstract state. -/
theorem Rel.one (h : G.Rel c g) {p : Nat} {n : RawNode} (hp : c.proc p = .up n) :
    ∃ s, AReach G.Q G.τ s ∧ (∀ m ∈ g.net, m ∈ s.net) ∧ G.NodeRel p s.net n.raft.core (s.node p) := by
  have := h.proc p
  rw [hp] at this
  obtain ⟨s, hu⟩ := this
  exact ⟨s, hu.path.reach h.reach, hu.path.net, hu.rel⟩

/-- Two running nodes, seen in the same abstract state. -/
theorem Rel.two (h : G.Rel c g) {p q : Nat} {n m : RawNode} (hp : c.proc p = .up n) (hq : c.proc q = .up m) (hpq : p ≠ q) :
    ∃ s, AReach G.Q G.τ s ∧ (∀ m ∈ g.net, m ∈ s.net) ∧ G.NodeRel p s.net n.raft.core (s.node p) ∧ G.NodeRel q s.net m.raft.core (s.node q) := by
  have h1 := h.proc p
  rw [hp] at h1
  obtain ⟨s, hu⟩ := h1
  have h2 := h.proc q
  rw [hq] at h2
  obtain ⟨t, hv⟩ := h2
  obtain ⟨s2, k1, k2, k3⟩ := hv.path.rebase (g2 := s) (hu.path.other (Ne.symm hpq)) hu.path.net
  refine ⟨s2, k1.reach (hu.path.reach h.reach), fun x hx => k1.net x (hu.path.net x hx), ?_, ?_⟩
  · rw [k1.other hpq]; exact hu.rel.mono k1.net
  · rw [k2]; exact hv.rel.mono k3

theorem NodeRel.lead {s : AState} {p : Nat} {n : RawNode} (hr : AReach G.Q G.τ s) (h : G.NodeRel p s.net n.raft.core (s.node p))
    (hl : n.raft.state = .leader) : AMsg.lead n.raft.term p (s.node p).log ∈ s.net := by
  rw [show n.raft.term = _ from h.term]
  exact (hr.inv.leadNode p (h.leader_role hl)).1

/-- A log of the cluster, in the abstract. -/
def Logged (G : Gen) (N : List AMsg) (v : LogView) : Prop := ∃ lg, Matched N lg ∧ LogRel (G.L0 ++ lg) v

theorem Logged.mono {N N' : List AMsg} {v : LogView} (h : G.Logged N v) (hn : ∀ m ∈ N, m ∈ N') : G.Logged N' v := by
  obtain ⟨lg, h1, h2⟩ := h
  exact ⟨lg, h1.mono hn, h2⟩

theorem NodeRel.logged {s : AState} {p : Nat} {n : RawNode} (hr : AReach G.Q G.τ s) (h : G.NodeRel p s.net n.raft.core (s.node p)) :
    G.Logged s.net n.raft.log.view := ⟨_, hr.inv.nodeMatched p, h.log⟩

theorem Rel.durable (h : G.Rel c g) (p : Nat) : G.Durable (c.proc p).disk (g.node p) := by
  have hd := h.proc p
  cases hc : c.proc p with
  | down st => rw [hc] at hd; exact hd
  | up n =>
    rw [hc] at hd
    obtain ⟨s, hu⟩ := hd
    exact hu.dur

theorem Rel.logged (h : G.Rel c g) {v : LogView} (hv : c.HasLog v) :
    G.Logged g.net v ∨ ∃ p n, c.proc p = .up n ∧ v = n.raft.log.view := by
  cases hv with
  | disk p => exact Or.inl ⟨_, h.reach.inv.nodeMatched p, (h.durable p).log⟩
  | mem p hp => exact Or.inr ⟨p, _, hp, rfl⟩
  | led hr =>
    obtain ⟨lg, h1, h2⟩ := h.led _ hr
    exact Or.inl ⟨lg, h.reach.inv.leadMatched _ _ _ h1, h2⟩

/-- Two logs in one abstract state (or the same log). -/
theorem Rel.logged2 (h : G.Rel c g) {v w : LogView} (hv : c.HasLog v) (hw : c.HasLog w) :
    v = w ∨ ∃ s, AReach G.Q G.τ s ∧ G.Logged s.net v ∧ G.Logged s.net w := by
  rcases h.logged hv with hv | ⟨p, n, hp, rfl⟩ <;> rcases h.logged hw with hw | ⟨q, m, hq, rfl⟩
  · exact Or.inr ⟨g, h.reach, hv, hw⟩
  · obtain ⟨s, h1, h2, h3⟩ := h.one hq
    exact Or.inr ⟨s, h1, hv.mono h2, h3.logged h1⟩
  · obtain ⟨s, h1, h2, h3⟩ := h.one hp
    exact Or.inr ⟨s, h1, h3.logged h1, hw.mono h2⟩
  · by_cases hpq : p = q
    · subst hpq; rw [hp] at hq; cases hq; exact Or.inl rfl
    · obtain ⟨s, h1, h2, h3, h4⟩ := h.two hp hq hpq
      exact Or.inr ⟨s, h1, h3.logged h1, h4.logged h1⟩

/-- Something chosen is in the log of a leader of the same or a later term; the same term only if the leader's log is the latest. -/
theorem chosen_in {s : AState} (hr : AReach G.Q G.τ s) {T T' p : Nat} {pre lg : List Entry} (hc : AMsg.chosen T pre ∈ s.net)
    (hl : AMsg.lead T' p lg ∈ s.net) (hle : T < T' ∨ (T = T' ∧ ∀ lg', AMsg.lead T' p lg' ∈ s.net → lg' <+: lg)) : pre <+: lg := by
  rcases hle with hlt | ⟨rfl, hmax⟩
  · exact hr.inv.chosen_later hc hl hlt
  · obtain ⟨c2, lg2, k, e, l1, rfl, _⟩ := hr.inv.chosenOk _ _ hc
    obtain ⟨rfl, _⟩ := hr.inv.leadSame hl l1
    exact (List.take_prefix _ _).trans (hmax _ l1)

/-- What is committed on a disk was chosen. -/
theorem Rel.diskOut (h : G.Rel c g) {p i : Nat} (hi : c.DiskCommitted p i) {e : Entry} (he : (c.proc p).disk.view.entry i = some e) :
    G.OutOk g.net ⟨p, (c.proc p).disk.hardState.term, e⟩ ∧ e.index = i := by
  have hd := h.durable p
  have hb : (c.proc p).disk.view.base < i := by
    unfold LogView.entry at he
    split at he
    · cases he
    · omega
  unfold State.DiskCommitted at hi
  rw [hd.commit] at hi
  rw [hd.log.entry hb] at he
  have hidx : e.index = i := by have := hd.log.contig _ _ he; omega
  subst hidx
  refine ⟨⟨by show 1 ≤ e.index; omega, ?_⟩, rfl⟩
  obtain ⟨hc1, hc⟩ := h.reach.inv.commitOk p
  by_cases hi2 : e.index ≤ G.L0.length
  · refine ⟨[], ?_, Or.inl rfl⟩
    rw [List.getElem?_append_left (by omega)] at he
    rw [List.append_nil]; exact he
  · rcases hc with hc | ⟨T, pre, hc2, hc3, hc4⟩
    · omega
    · refine ⟨pre, ?_, Or.inr ⟨T, by show T ≤ _; rw [hd.term]; exact hc3, hc2⟩⟩
      rw [List.getElem?_append_right (by omega)] at he
      show (G.L0 ++ pre)[e.index - 1]? = some e
      rw [List.getElem?_append_right (by omega), prefix_getElem? hc4 (by rw [List.length_take]; omega), List.getElem?_take, if_pos (by omega)]
      exact he

/-- A delivered entry is in the log of a leader. -/
theorem OutOk.inLog {s : AState} (hr : AReach G.Q G.τ s) {d : Delivered} (hd : G.OutOk s.net d) {T p : Nat} {lg : List Entry} {v : LogView}
    (hl : AMsg.lead T p lg ∈ s.net) (hv : LogRel (G.L0 ++ lg) v) (hle : d.term < T ∨ (d.term ≤ T ∧ ∀ lg', AMsg.lead T p lg' ∈ s.net → lg' <+: lg)) :
    d.entry.index ≤ v.last ∧ (v.base < d.entry.index → v.entry d.entry.index = some d.entry) := by
  obtain ⟨h0, pre, h1, h2⟩ := hd
  have hpre : pre <+: lg := by
    rcases h2 with rfl | ⟨T0, h2, h3⟩
    · exact List.nil_prefix
    · refine chosen_in hr h3 hl ?_
      rcases hle with hle | ⟨hle, hmax⟩
      · exact Or.inl (by omega)
      · rcases Nat.lt_or_ge T0 T with hlt | hge
        · exact Or.inl hlt
        · exact Or.inr ⟨by omega, hmax⟩
  have h4 : (G.L0 ++ lg)[d.entry.index - 1]? = some d.entry := prefix_getElem?_some (append_prefix.2 hpre) h1
  refine ⟨?_, fun hb => by rw [hv.entry hb]; exact h4⟩
  have := (List.getElem?_eq_some_iff.1 h4).1
  rw [hv.len] at this
  omega

/-- Two delivered entries with the same index. -/
theorem OutOk.same {s : AState} (hr : AReach G.Q G.τ s) {d d' : Delivered} (hd : G.OutOk s.net d) (hd' : G.OutOk s.net d')
    (hi : d.entry.index = d'.entry.index) : d.entry = d'.entry := by
  obtain ⟨h0, pre, h1, h2⟩ := hd
  obtain ⟨h0', pre', h1', h2'⟩ := hd'
  have hcmp : pre <+: pre' ∨ pre' <+: pre := by
    rcases h2 with rfl | ⟨T0, _, h3⟩
    · exact Or.inl List.nil_prefix
    rcases h2' with rfl | ⟨T0', _, h3'⟩
    · exact Or.inr List.nil_prefix
    exact hr.inv.chosen_chain h3 h3'
  rw [hi] at h1
  rcases hcmp with hp | hp
  · have := prefix_getElem?_some (append_prefix.2 hp) h1
    rw [h1'] at this
    exact (Option.some.inj this).symm
  · have := prefix_getElem?_some (append_prefix.2 hp) h1'
    rw [h1] at this
    exact Option.some.inj this

end Gen

variable {env : Env} {G : Genesis} {c : State}

/-- C47. In every reachable cluster at most one node ever leads a given term: no two running nodes, no running node and a
past leader, no two past leaders; and all append, snapshot and heartbeat messages ever sent in one term have one sender. -/
theorem C47_election_safety (hG : G.OK) (h : Reach env G c) :
    (∀ p q T, c.EverLed p T → c.EverLed q T → p = q) ∧
    (∀ m ∈ c.net, ∀ m' ∈ c.net, (m.type = .app ∨ m.type = .snap ∨ m.type = .heartbeat) →
      (m'.type = .app ∨ m'.type = .snap ∨ m'.type = .heartbeat) → m.term = m'.term → m.src = m'.src) := by
  obtain ⟨g, hr⟩ := h.rel hG
  refine ⟨?_, ?_⟩
  · intro p q T hp hq
    rcases hp with ⟨v, n, hp, hl, rfl, _⟩ | ⟨v, hp⟩ <;> rcases hq with ⟨w, m, hq, hl', ht, _⟩ | ⟨w, hq⟩
    · by_cases hpq : p = q
      · exact hpq
      · obtain ⟨s, h1, _, h3, h4⟩ := hr.two hp hq hpq
        have e1 := h3.lead h1 hl
        have e2 := h4.lead h1 hl'
        rw [ht] at e2
        exact (h1.inv.leadSame e1 e2).1
    · obtain ⟨s, h1, h2, h3⟩ := hr.one hp
      obtain ⟨lg, e2, _⟩ := hr.led _ hq
      exact (h1.inv.leadSame (h3.lead h1 hl) (h2 _ e2)).1
    · obtain ⟨s, h1, h2, h3⟩ := hr.one hq
      obtain ⟨lg, e2, _⟩ := hr.led _ hp
      have e1 := h3.lead h1 hl'
      rw [ht] at e1
      exact (h1.inv.leadSame (h2 _ e2) e1).1
    · obtain ⟨lg, e1, _⟩ := hr.led _ hp
      obtain ⟨lg', e2, _⟩ := hr.led _ hq
      exact (hr.reach.inv.leadSame e1 e2).1
  · have key : ∀ m ∈ c.net, (m.type = .app ∨ m.type = .snap ∨ m.type = .heartbeat) → ∃ lg, AMsg.lead m.term m.src lg ∈ g.net := by
      intro m hm hty
      have := hr.net m hm
      unfold Gen.MsgOk at this
      rcases hty with h | h | h <;> rw [h] at this
      · obtain ⟨_, lg, ⟨h1, rfl⟩, _⟩ := this; exact ⟨lg, h1⟩
      · obtain ⟨_, _, _, lg, ⟨h1, rfl⟩, _⟩ := this; exact ⟨lg, h1⟩
      · obtain ⟨⟨_, lg, ⟨h1, rfl⟩, _⟩, _⟩ := this; exact ⟨lg, h1⟩
    intro m hm m' hm' hty hty' ht
    obtain ⟨lg, e1⟩ := key m hm hty
    obtain ⟨lg', e2⟩ := key m' hm' hty'
    rw [ht] at e1
    exact (hr.reach.inv.leadSame e1 e2).1

/-- C48. If two logs of the cluster (on disk, in memory, or of a past leader) know the same term for an index, then up to
that index they hold the same entries (and know the same terms) wherever both still reach. -/
theorem C48_log_matching (hG : G.OK) (h : Reach env G c) {v w : LogView} (hv : c.HasLog v) (hw : c.HasLog w) {i : Nat}
    (hi : v.base ≤ i ∧ i ≤ v.last) (hi' : w.base ≤ i ∧ i ≤ w.last) (ht : v.termAt i = w.termAt i) :
    (∀ j, j ≤ i → v.base < j → w.base < j → v.entry j = w.entry j) ∧
    (∀ j, j ≤ i → v.base ≤ j → w.base ≤ j → v.termAt j = w.termAt j) := by
  obtain ⟨g, hr⟩ := h.rel hG
  rcases hr.logged2 hv hw with rfl | ⟨s, h1, ⟨x, hx, hvx⟩, ⟨y, hy, hwy⟩⟩
  · exact ⟨fun _ _ _ _ => rfl, fun _ _ _ _ => rfl⟩
  · rw [hvx.termAt hi.1, hwy.termAt hi'.1] at ht
    have htake := Gen.gmatch h1 hx hy (by rw [hvx.len]; exact hi.2) (by rw [hwy.len]; exact hi'.2) ht
    have hent : ∀ j, j < i → ((G.gen hG).L0 ++ x)[j]? = ((G.gen hG).L0 ++ y)[j]? := by
      intro j hj
      have := congrArg (fun l => l[j]?) htake
      simpa [List.getElem?_take, hj] using this
    refine ⟨fun j hj hb hb' => ?_, fun j hj hb hb' => ?_⟩
    · rw [hvx.entry hb, hwy.entry hb']
      exact hent _ (by omega)
    · rw [hvx.termAt hb, hwy.termAt hb']
      unfold gterm
      split
      · rfl
      · rw [hent _ (by omega)]

/-- C49. An entry handed to some application, or recorded as committed on some disk, is in the log of every leader of a
later term (and of the present leader of the same term), unless that leader has already compacted it. -/
theorem C49_leader_completeness (hG : G.OK) (h : Reach env G c) :
    (∀ d ∈ c.out, ∀ q T v, (c.Leads q T v ∧ d.term ≤ T) ∨ (⟨q, T, v⟩ ∈ c.led ∧ d.term < T) →
      d.entry.index ≤ v.last ∧ (v.base < d.entry.index → v.entry d.entry.index = some d.entry)) ∧
    (∀ p i e, c.DiskCommitted p i → (c.proc p).disk.view.entry i = some e →
      ∀ q T v, (c.Leads q T v ∧ (c.proc p).disk.hardState.term ≤ T) ∨ (⟨q, T, v⟩ ∈ c.led ∧ (c.proc p).disk.hardState.term < T) →
        i ≤ v.last ∧ (v.base < i → v.entry i = some e)) := by
  obtain ⟨g, hr⟩ := h.rel hG
  have key : ∀ d, (G.gen hG).OutOk g.net d → ∀ q T v, (c.Leads q T v ∧ d.term ≤ T) ∨ (⟨q, T, v⟩ ∈ c.led ∧ d.term < T) →
      d.entry.index ≤ v.last ∧ (v.base < d.entry.index → v.entry d.entry.index = some d.entry) := by
    intro d hd q T v hq
    rcases hq with ⟨⟨n, hq, hl, rfl, rfl⟩, ht⟩ | ⟨hq, ht⟩
    · obtain ⟨s, h1, h2, h3⟩ := hr.one hq
      refine (hd.mono h2).inLog h1 (h3.lead h1 hl) h3.log (Or.inr ⟨ht, fun lg' hl' => ?_⟩)
      rw [show n.raft.term = _ from h3.term] at hl'
      exact (h1.inv.leadNode q (h3.leader_role hl)).2 _ hl'
    · obtain ⟨lg, e1, e2⟩ := hr.led _ hq
      exact hd.inLog hr.reach e1 e2 (Or.inl ht)
  refine ⟨fun d hd => key d (hr.out d hd), fun p i e hi he q T v hq => ?_⟩
  obtain ⟨ho, rfl⟩ := hr.diskOut hi he
  exact key _ ho q T v hq

/-- C50. No two entries with the same index that were ever handed to applications, or are recorded as committed on some
disk, differ. -/
theorem C50_state_machine_safety (hG : G.OK) (h : Reach env G c) :
    (∀ d ∈ c.out, ∀ d' ∈ c.out, d.entry.index = d'.entry.index → d.entry = d'.entry) ∧
    (∀ p q i, c.DiskCommitted p i → c.DiskCommitted q i → ∀ e e', (c.proc p).disk.view.entry i = some e →
      (c.proc q).disk.view.entry i = some e' → e = e') ∧
    (∀ d ∈ c.out, ∀ p, c.DiskCommitted p d.entry.index → ∀ e, (c.proc p).disk.view.entry d.entry.index = some e → d.entry = e) := by
  obtain ⟨g, hr⟩ := h.rel hG
  refine ⟨fun d hd d' hd' hi => (hr.out d hd).same hr.reach (hr.out d' hd') hi, fun p q i hp hq e e' he he' => ?_, fun d hd p hp e he => ?_⟩
  · obtain ⟨o1, i1⟩ := hr.diskOut hp he
    obtain ⟨o2, i2⟩ := hr.diskOut hq he'
    exact o1.same hr.reach o2 (i1.trans i2.symm)
  · obtain ⟨o1, i1⟩ := hr.diskOut hp he
    exact (hr.out d hd).same hr.reach o1 i1.symm

/-! ## The hypotheses are met

`Demo.last` is a reachable state in which two terms had leaders, a node crashed and restarted, and eight entries were
delivered on three nodes. -/

section
open Demo

example : genesis.OK ∧ Reach Craft.Demo.env genesis last := ⟨genesis_ok, last_reach⟩
example : last.led.map (fun x => (x.node, x.term)) = [(1, 1), (1, 1), (1, 1), (2, 2), (2, 2), (2, 2)] := by decide
example : last.out.map (fun d => (d.node, d.entry.index)) = [(1, 1), (2, 1), (1, 2), (3, 1), (2, 2), (2, 3), (3, 2), (3, 3)] := by decide

/-- C47 at work: node 2 leads term 2, so nobody else ever led it. -/
example (p : Nat) (h : last.EverLed p 2) : p = 2 := by
  have : last.led[3]?.map (fun r => (r.node, r.term)) = some (2, 2) := by decide
  obtain ⟨r, h1, h2⟩ := Option.map_eq_some_iff.1 this
  obtain ⟨n, t, v⟩ := r
  simp only [Prod.mk.injEq] at h2
  obtain ⟨rfl, rfl⟩ := h2
  exact (C47_election_safety genesis_ok last_reach).1 p 2 2 h (Or.inr ⟨v, List.mem_of_getElem? h1⟩)

/-- C50 at work: the entries with index 2 that nodes 1 (term 1) and 3 (term 2) got are the same. -/
example (d d' : Delivered) (h : last.out[2]? = some d) (h' : last.out[6]? = some d') : d.node = 1 ∧ d'.node = 3 ∧ d.entry = d'.entry := by
  have h1 : last.out[2]?.map (fun d => (d.node, d.entry.index)) = some (1, 2) := by decide
  have h2 : last.out[6]?.map (fun d => (d.node, d.entry.index)) = some (3, 2) := by decide
  rw [h] at h1
  rw [h'] at h2
  simp only [Option.map_some, Option.some.injEq, Prod.mk.injEq] at h1 h2
  exact ⟨h1.1, h2.1, (C50_state_machine_safety genesis_ok last_reach).1 d (List.mem_of_getElem? h) d' (List.mem_of_getElem? h') (h1.2.trans h2.2.symm)⟩

end

end Craft.Cluster
