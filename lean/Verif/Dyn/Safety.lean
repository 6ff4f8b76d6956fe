import Verif.Dyn.Main

/-! # Safety of clusters with membership changes

What the correspondence with the abstract protocol (`MGen.Rel`) says about the logs, the deliveries and the configurations. -/

namespace Craft.Dyn
open Spec Members
open Cluster (Genesis Delivered Led Vital gterm LogRel gterm_some gterm_prefix gterm_out append_take append_prefix)
open Abs (prefix_getElem? prefix_getElem?_some)

namespace MGen
variable {G : MGen} {g : DState} {c : State}

/-- One running node, seen in an abstract state. -/
theorem Rel.one (h : G.Rel c g) {p : Nat} {n : RawNode} {a : App} (hp : c.proc p = .up n a) :
    ∃ s, G.Run s ∧ (∀ m ∈ g.net, m ∈ s.net) ∧ G.NodeRel p a.index s.net n.raft.core (s.node p) := by
  have := h.proc p
  rw [hp] at this
  obtain ⟨s, hu⟩ := this
  exact ⟨s, hu.path.run h.reach, hu.path.net, hu.rel⟩

/-- Two running nodes, seen in the same abstract state. -/
theorem Rel.two (h : G.Rel c g) {p q : Nat} {n m : RawNode} {a b : App} (hp : c.proc p = .up n a) (hq : c.proc q = .up m b) (hpq : p ≠ q) :
    ∃ s, G.Run s ∧ (∀ m ∈ g.net, m ∈ s.net) ∧ G.NodeRel p a.index s.net n.raft.core (s.node p) ∧ G.NodeRel q b.index s.net m.raft.core (s.node q) := by
  have h1 := h.proc p
  rw [hp] at h1
  obtain ⟨s, hu⟩ := h1
  have h2 := h.proc q
  rw [hq] at h2
  obtain ⟨t, hv⟩ := h2
  obtain ⟨s2, k1, k2, k3⟩ := hv.path.rebase (g2 := s) (hu.path.other (Ne.symm hpq)) hu.path.net
  refine ⟨s2, k1.run (hu.path.run h.reach), fun x hx => k1.net x (hu.path.net x hx), ?_, ?_⟩
  · rw [k1.other hpq]; exact hu.rel.mono k1.net
  · rw [k2]; exact hv.rel.mono k3

theorem NodeRel.lead {s : DState} {p : Nat} {a : App} {n : RawNode} (hr : G.Run s) (h : G.NodeRel p a.index s.net n.raft.core (s.node p))
    (hl : n.raft.state = .leader) : DMsg.lead n.raft.term p (s.node p).log ∈ s.net := by
  rw [show n.raft.term = _ from h.term]
  exact (hr.inv.leadNode p (h.leader_role hl)).1

/-- A log of the cluster, in the abstract. -/
def Logged (G : MGen) (N : List DMsg) (v : LogView) : Prop := ∃ lg, Matched N lg ∧ LogRel (G.L0 ++ lg) v

theorem Logged.mono {N N' : List DMsg} {v : LogView} (h : G.Logged N v) (hn : ∀ m ∈ N, m ∈ N') : G.Logged N' v := by
  obtain ⟨lg, h1, h2⟩ := h
  exact ⟨lg, h1.mono hn, h2⟩

theorem NodeRel.logged {s : DState} {p : Nat} {a : App} {n : RawNode} (hr : G.Run s) (h : G.NodeRel p a.index s.net n.raft.core (s.node p)) :
    G.Logged s.net n.raft.log.view := ⟨_, hr.inv.nodeMatched p, h.log⟩

theorem Rel.durable (h : G.Rel c g) (p : Nat) : G.Durable (c.proc p).disk (g.node p) ∨ G.Blank p (c.proc p).disk (g.node p) := by
  have hd := h.proc p
  cases hc : c.proc p with
  | down st => rw [hc] at hd; exact hd
  | up n a =>
    rw [hc] at hd
    obtain ⟨s, hu⟩ := hd
    exact hu.dur.imp And.left And.left

theorem Blank.logged {p : Nat} {st : Storage} {a : DNode} (h : G.Blank p st a) (N : List DMsg) : G.Logged N st.view := by
  refine ⟨[], nofun, ?_⟩
  rw [G.bootL0 h.boot, h.blank]
  exact ⟨rfl, rfl, rfl, .nil _⟩

theorem Rel.logged (h : G.Rel c g) {v : LogView} (hv : c.HasLog v) :
    G.Logged g.net v ∨ ∃ p n a, c.proc p = .up n a ∧ v = n.raft.log.view := by
  cases hv with
  | disk p =>
    rcases h.durable p with hd | hd
    · exact Or.inl ⟨_, h.reach.inv.nodeMatched p, hd.log⟩
    · exact Or.inl (hd.logged _)
  | mem p hp => exact Or.inr ⟨p, _, _, hp, rfl⟩
  | led hr =>
    obtain ⟨lg, h1, h2⟩ := h.led _ hr
    exact Or.inl ⟨lg, h.reach.inv.leadMatched _ _ _ h1, h2⟩

/-- Two logs in one abstract state (or the same log). -/
theorem Rel.logged2 (h : G.Rel c g) {v w : LogView} (hv : c.HasLog v) (hw : c.HasLog w) :
    v = w ∨ ∃ s, G.Run s ∧ G.Logged s.net v ∧ G.Logged s.net w := by
  rcases h.logged hv with hv | ⟨p, n, _, hp, rfl⟩ <;> rcases h.logged hw with hw | ⟨q, m, _, hq, rfl⟩
  · exact Or.inr ⟨g, h.reach, hv, hw⟩
  · obtain ⟨s, h1, h2, h3⟩ := h.one hq
    exact Or.inr ⟨s, h1, hv.mono h2, h3.logged h1⟩
  · obtain ⟨s, h1, h2, h3⟩ := h.one hp
    exact Or.inr ⟨s, h1, h3.logged h1, hw.mono h2⟩
  · by_cases hpq : p = q
    · subst hpq; rw [hp] at hq; cases hq; exact Or.inl rfl
    · obtain ⟨s, h1, h2, h3, h4⟩ := h.two hp hq hpq
      exact Or.inr ⟨s, h1, h3.logged h1, h4.logged h1⟩

/-- Something chosen is in the log of a leader of the same or a later term; the same term only if the leader's log is the latest. -/
theorem cov_in {s : DState} (hr : G.Run s) {T T' p : Nat} {pre lg : List Entry} (hc : Cov s.net (T + 1) pre)
    (hl : DMsg.lead T' p lg ∈ s.net) (hle : T < T' ∨ (T ≤ T' ∧ ∀ lg', DMsg.lead T' p lg' ∈ s.net → lg' <+: lg)) : pre <+: lg := by
  rcases hc with rfl | ⟨T0, q, cf, h1, h2, h3⟩
  · exact List.nil_prefix
  refine h3.trans ?_
  by_cases hlt : T0 < T'
  · exact hr.inv.complete _ _ _ _ _ _ hl h1 hlt
  · rcases hle with hle | ⟨hle, hmax⟩
    · omega
    · have : T0 = T' := by omega
      subst this
      obtain ⟨_, c2, lg2, k, e, S, l1, rfl, _⟩ := hr.inv.chosenOk _ _ _ h1
      obtain ⟨rfl, _⟩ := hr.inv.leadSame hl l1
      exact (List.take_prefix _ _).trans (hmax _ l1)

/-- What is committed on a disk was chosen. -/
theorem Rel.diskOut (h : G.Rel c g) {p i : Nat} (hi : c.DiskCommitted p i) {e : Entry} (he : (c.proc p).disk.view.entry i = some e) :
    G.OutOk g.net ⟨p, (c.proc p).disk.hardState.term, e⟩ ∧ e.index = i := by
  rcases h.durable p with hd | hd
  rotate_left
  · rw [hd.blank] at he
    unfold LogView.entry at he
    split at he <;> cases he
  have hb : (c.proc p).disk.view.base < i := by
    unfold LogView.entry at he
    split at he
    · cases he
    · omega
  unfold State.DiskCommitted at hi
  rw [hd.commit] at hi
  rw [hd.log.entry hb] at he
  have hidx : e.index = i := by have := hd.log.contig _ _ he; omega
  subst hidx
  obtain ⟨_, hc1, hc⟩ := h.reach.inv.commitOk p
  refine ⟨⟨by show 1 ≤ e.index; omega, (g.node p).log.take (g.node p).commit, ?_, by rw [hd.term]; exact hc⟩, rfl⟩
  show (G.L0 ++ _)[e.index - 1]? = some e
  by_cases hi2 : e.index ≤ G.L0.length
  · rw [List.getElem?_append_left (by omega)] at he ⊢
    exact he
  · rw [List.getElem?_append_right (by omega)] at he ⊢
    rw [List.getElem?_take, if_pos (by omega)]
    exact he

/-- A delivered entry is in the log of a leader. -/
theorem OutOk.inLog {s : DState} (hr : G.Run s) {d : Delivered} (hd : G.OutOk s.net d) {T p : Nat} {lg : List Entry} {v : LogView}
    (hl : DMsg.lead T p lg ∈ s.net) (hv : LogRel (G.L0 ++ lg) v) (hle : d.term < T ∨ (d.term ≤ T ∧ ∀ lg', DMsg.lead T p lg' ∈ s.net → lg' <+: lg)) :
    d.entry.index ≤ v.last ∧ (v.base < d.entry.index → v.entry d.entry.index = some d.entry) := by
  obtain ⟨h0, pre, h1, h2⟩ := hd
  have hpre : pre <+: lg := cov_in hr h2 hl hle
  have h4 : (G.L0 ++ lg)[d.entry.index - 1]? = some d.entry := prefix_getElem?_some (append_prefix.2 hpre) h1
  refine ⟨?_, fun hb => by rw [hv.entry hb]; exact h4⟩
  have := (List.getElem?_eq_some_iff.1 h4).1
  rw [hv.len] at this
  omega

/-- Two delivered entries with the same index. -/
theorem OutOk.same {s : DState} (hr : G.Run s) {d d' : Delivered} (hd : G.OutOk s.net d) (hd' : G.OutOk s.net d')
    (hi : d.entry.index = d'.entry.index) : d.entry = d'.entry := by
  obtain ⟨h0, pre, h1, h2⟩ := hd
  obtain ⟨h0', pre', h1', h2'⟩ := hd'
  rw [hi] at h1
  rcases hr.inv.cov_cmp h2 h2' with hp | hp
  · have := prefix_getElem?_some (append_prefix.2 hp) h1
    rw [h1'] at this
    exact (Option.some.inj this).symm
  · have := prefix_getElem?_some (append_prefix.2 hp) h1'
    rw [h1] at this
    exact Option.some.inj this

/-! ### Configurations -/

theorem _root_.Craft.Dyn.Next.changed {cc : ConfChangeV2} {cfg cfg' : TConfig} (h : Next cc cfg cfg') : Changed cc cfg cfg' := by
  obtain ⟨c, rfl, i1, P, h1⟩ := h
  obtain ⟨j1, k1⟩ := change_sets i1 h1
  have hl : ccLeaveJoint cc = true ↔ cc.changes = [] ∧ cc.transition = .auto := by
    unfold ccLeaveJoint
    simp
  have hj : (ccEnterJoint cc).2 = true ↔ cc.transition ≠ .auto ∨ 1 < cc.changes.length := by
    unfold ccEnterJoint
    split
    · rename_i hc
      cases ht : cc.transition <;> simp_all
    · rename_i hc
      simp only [Bool.false_eq_true, false_iff]
      exact hc
  unfold Changed
  rcases k1 with ⟨l1, a⟩ | ⟨l1, l2, a1, a2, a3, a4⟩ | ⟨l1, l2, a1, a2, a3, a4, a5⟩
  · rw [if_pos (hl.1 l1)]; exact a
  · rw [if_neg (fun h => by rw [hl.2 h] at l1; cases l1), if_pos (hj.1 l2)]
    refine ⟨a1, a3, ?_, a4⟩
    rw [a2]
    have := hj.1 l2
    unfold ccEnterJoint
    rw [if_pos this]
    cases cc.transition <;> rfl
  · rw [if_neg (fun h => by rw [hl.2 h] at l1; cases l1), if_neg (fun h => by rw [hj.2 h] at l2; cases l2)]
    refine ⟨a1, a2, a3, (j1.not_joint a2).2, ?_, a5⟩
    intro x y hx hy
    unfold Changer.symdiff at a4
    have two : ∀ {l : List Nat} {x y : Nat}, l.length ≤ 1 → x ∈ l → y ∈ l → x = y := by
      intro l x y hl hx hy
      match l, hl with
      | [], _ => cases hx
      | [z], _ => rw [List.mem_singleton] at hx hy; rw [hx, hy]
    have side : ∀ x, ¬ (x ∈ c.tracker.config.voters.incoming ↔ x ∈ cfg'.voters.incoming) →
        x ∈ c.tracker.config.voters.incoming.filter (fun id => !USet.has cfg'.voters.incoming id) ∨
        x ∈ cfg'.voters.incoming.filter (fun id => !USet.has c.tracker.config.voters.incoming id) := by
      intro x hx
      by_cases h1 : x ∈ c.tracker.config.voters.incoming
      · left
        rw [List.mem_filter]
        refine ⟨h1, ?_⟩
        have : x ∉ cfg'.voters.incoming := fun h2 => hx ⟨fun _ => h2, fun _ => h1⟩
        simpa [USet.has] using this
      · right
        rw [List.mem_filter]
        have : x ∈ cfg'.voters.incoming := by
          by_cases h2 : x ∈ cfg'.voters.incoming
          · exact h2
          · exact absurd ⟨fun h => absurd h h1, fun h => absurd h h2⟩ hx
        exact ⟨this, by simpa [USet.has] using h1⟩
    rcases side x hx with hx | hx <;> rcases side y hy with hy | hy
    · exact two (by omega) hx hy
    · have := List.length_pos_of_mem hx
      have := List.length_pos_of_mem hy
      omega
    · have := List.length_pos_of_mem hx
      have := List.length_pos_of_mem hy
      omega
    · exact two (by omega) hx hy

theorem _root_.Craft.Dyn.EStep.follows {dec : Entry → Option ConfChangeI} {e : Entry} {cfg cfg' : TConfig} (h : EStep dec e cfg cfg') :
    Follows dec e cfg cfg' := by
  unfold EStep at h
  unfold Follows
  split at h
  · rename_i he; rw [he]; exact h
  · rename_i he; rw [he]; exact h.changed

theorem _root_.Craft.Dyn.CfgAt.take {dec : Entry → Option ConfChangeI} {cfg0 : TConfig} {x : List Entry} {cfg : TConfig} (h : CfgAt dec cfg0 x cfg) (k : Nat) :
    ∃ cfg', CfgAt dec cfg0 (x.take k) cfg' := by
  induction h with
  | nil => rw [List.take_nil]; exact ⟨_, .nil⟩
  | @snoc x cfg e cfg' h1 h2 ih =>
    by_cases hk : k ≤ x.length
    · rw [List.take_append_of_le_length hk]; exact ih
    · rw [List.take_of_length_le (by rw [List.length_append]; simp; omega)]
      exact ⟨_, h1.snoc h2⟩

/-- The configuration at index `i` is `cfg`. -/
def ConfAt (G : MGen) (N : List DMsg) (i : Nat) (cfg : TConfig) : Prop :=
  ∃ x T, Cov N T x ∧ x.length = i - G.L0.length ∧ G.At x cfg

theorem ConfAt.det {s : DState} (hr : G.Run s) {i : Nat} {a b : TConfig} (ha : G.ConfAt s.net i a) (hb : G.ConfAt s.net i b) : a = b := by
  obtain ⟨x, T, h1, h2, h3⟩ := ha
  obtain ⟨y, T', h4, h5, h6⟩ := hb
  have : x = y := by
    rcases hr.inv.cov_cmp h1 h4 with h | h
    · exact h.eq_of_length (by omega)
    · exact (h.eq_of_length (by omega)).symm
  subst this
  exact h3.det h6

theorem ConfAt.zero {N : List DMsg} {i : Nat} (hi : i ≤ G.L0.length) : G.ConfAt N i G.cfg0 :=
  ⟨[], 0, Or.inl rfl, by simp; omega, .nil⟩

open Classical in
/-- The configuration at each index. -/
noncomputable def confFun (G : MGen) (N : List DMsg) (i : Nat) : TConfig := if h : ∃ cfg, G.ConfAt N i cfg then h.choose else G.cfg0

theorem ConfAt.eq {s : DState} (hr : G.Run s) {i : Nat} {cfg : TConfig} (h : G.ConfAt s.net i cfg) : cfg = G.confFun s.net i := by
  unfold confFun
  have he : ∃ cfg, G.ConfAt s.net i cfg := ⟨cfg, h⟩
  rw [dif_pos he]
  exact h.det hr he.choose_spec

/-- The configurations before and after a delivered entry. -/
theorem ConfAt.next {s : DState} (hr : G.Run s) {i : Nat} {cfg : TConfig} (h : G.ConfAt s.net i cfg) {d : Delivered} (hd : G.OutOk s.net d)
    (h1 : G.L0.length < d.entry.index) (h2 : d.entry.index ≤ i) :
    Follows G.dec d.entry (G.confFun s.net (d.entry.index - 1)) (G.confFun s.net d.entry.index) := by
  obtain ⟨x, T, c1, c2, c3⟩ := h
  obtain ⟨_, pre, d1, d2⟩ := hd
  rw [List.getElem?_append_right (by omega)] at d1
  have hl := (List.getElem?_eq_some_iff.1 d1).1
  have hx : x[d.entry.index - 1 - G.L0.length]? = some d.entry := by
    rcases hr.inv.cov_cmp c1 d2 with h | h
    · rw [← prefix_getElem? h (by omega)]; exact d1
    · exact prefix_getElem?_some h d1
  obtain ⟨cfg', h3⟩ := c3.take (d.entry.index - 1 - G.L0.length + 1)
  have htk : x.take (d.entry.index - 1 - G.L0.length + 1) = x.take (d.entry.index - 1 - G.L0.length) ++ [d.entry] := by
    rw [List.take_add_one, hx]; rfl
  have h3' := h3
  rw [htk] at h3'
  obtain ⟨c0, h4, h5⟩ := h3'.inv_snoc
  have e1 : G.ConfAt s.net (d.entry.index - 1) c0 :=
    ⟨_, T, c1.prefix (List.take_prefix _ _), by rw [List.length_take]; omega, h4⟩
  have e2 : G.ConfAt s.net d.entry.index cfg' :=
    ⟨_, T, c1.prefix (List.take_prefix _ _), by rw [List.length_take]; omega, h3⟩
  rw [← e1.eq hr, ← e2.eq hr]
  exact h5.follows

/-- What a running node and its application know. -/
theorem Up.conf {s : DState} {p : Nat} {n : RawNode} {a : App} (hg : G.Run g) (h : G.Up g p n a s) (hi : G.B.length ≤ a.index - G.L0.length) :
    ∃ cfg, G.ConfAt g.net a.index cfg ∧ a.conf = csOf cfg ∧ (n.raft.log.unstable.snapshot = none → n.raft.trk.config = cfg) := by
  obtain ⟨cfg, h1, h2⟩ := h.cs
  have h1 := h1.at hi
  have ha := h.app
  obtain ⟨_, hc1, hc2⟩ := hg.inv.commitOk p
  refine ⟨cfg, ⟨_, _, hc2.prefix (List.take_prefix_take_left (by omega)), ?_, h1⟩, h2, fun hs => ?_⟩
  · rw [List.length_take]; omega
  · have hb : n.raft.log.view.base ≤ a.index := by
      have e1 : n.raft.log.view.base = n.raft.log.storage.view.base := by
        unfold RaftLog.view; rw [hs]
      have e2 := h.base
      have e3 : n.raft.log.applied ≤ a.index := h.rel.app
      omega
    have hc : G.Conf (s.node p).log (s.node p).conf n.raft.trk.config := h.rel.config
    rw [h.rel.pos, show max a.index n.raft.core.log.view.base = a.index from Nat.max_eq_left hb] at hc
    have hc := hc.at hi
    rw [take_keep hg h.path (by omega)] at hc
    exact hc.det h1

/-- Before the bootstrap entries are applied only founders are members. -/
theorem Rel.early (h : G.Rel c g) {p : Nat} {n : RawNode} {a : App} (hp : c.proc p = .up n a) (hb : max a.index n.raft.log.view.base < G.B.length)
    {x : Nat} (hx : Member n.raft.trk.config x) : G.founder x := by
  obtain ⟨s, h1, h2, h3⟩ := h.one hp
  have hpos : (s.node p).conf = max a.index n.raft.log.view.base - G.L0.length := h3.pos
  rcases h3.config with ⟨_, h4⟩ | ⟨h4, _⟩
  · exact G.earlyMem h4 hx
  · omega

/-! ### Unapplied conf changes -/

/-- Counting conf changes beyond an index, in the log or in its view. -/
theorem count_view {lg : List Entry} {v : LogView} (h : LogRel (G.L0 ++ lg) v) (k : Nat) :
    (v.ents.filter fun e => decide (k < e.index ∧ G.L0.length < e.index ∧ e.type ≠ .normal)).length ≤ nconf lg - nconf (lg.take (max k v.base - G.L0.length)) := by
  generalize hm : max (max k v.base) G.L0.length = m
  have hb := h.base_le
  have hsplit : v.ents = ((G.L0 ++ lg).drop v.base).take (m - v.base) ++ (G.L0 ++ lg).drop m := by
    rw [h.ents]
    conv => lhs; rw [← List.take_append_drop (m - v.base) ((G.L0 ++ lg).drop v.base)]
    rw [List.drop_drop, show v.base + (m - v.base) = m by omega]
  have hnil : (((G.L0 ++ lg).drop v.base).take (m - v.base)).filter (fun e => decide (k < e.index ∧ G.L0.length < e.index ∧ e.type ≠ .normal)) = [] := by
    rw [List.filter_eq_nil_iff]
    intro e he
    obtain ⟨j, hj⟩ := List.mem_iff_getElem?.1 he
    rw [List.getElem?_take] at hj
    split at hj
    · rename_i hlt
      rw [List.getElem?_drop] at hj
      have := h.contig _ _ hj
      simp only [decide_eq_true_eq]
      omega
    · cases hj
  rw [hsplit, List.filter_append, hnil, List.nil_append, ← List.countP_eq_length_filter]
  have h1 : (G.L0 ++ lg).drop m = lg.drop (max k v.base - G.L0.length) := by
    rw [List.drop_append, List.drop_of_length_le (by omega), List.nil_append]
    congr 1; omega
  rw [h1]
  have h2 : nconf lg = nconf (lg.take (max k v.base - G.L0.length)) + nconf (lg.drop (max k v.base - G.L0.length)) := by
    rw [← nconf_append, List.take_append_drop]
  have h3 : (lg.drop (max k v.base - G.L0.length)).countP (fun e => decide (k < e.index ∧ G.L0.length < e.index ∧ e.type ≠ .normal)) ≤
      nconf (lg.drop (max k v.base - G.L0.length)) := by
    unfold nconf
    apply List.countP_mono_left
    intro e _ he
    simp only [decide_eq_true_eq] at he ⊢
    exact he.2.2
  omega

/-! ### The properties -/

/-- At most one leader in a term. -/
theorem Rel.election (hr : G.Rel c g) :
    (∀ p q T, c.EverLed p T → c.EverLed q T → p = q) ∧
    (∀ m ∈ c.net, ∀ m' ∈ c.net, (m.type = .app ∨ m.type = .snap ∨ m.type = .heartbeat) →
      (m'.type = .app ∨ m'.type = .snap ∨ m'.type = .heartbeat) → m.term = m'.term → m.src = m'.src) := by
  refine ⟨?_, ?_⟩
  · intro p q T hp hq
    rcases hp with ⟨v, n, _, hp, hl, rfl, _⟩ | ⟨v, hp⟩ <;> rcases hq with ⟨w, m, _, hq, hl', ht, _⟩ | ⟨w, hq⟩
    · by_cases hpq : p = q
      · exact hpq
      · obtain ⟨s, h1, _, h3, h4⟩ := hr.two hp hq hpq
        have e1 := h3.lead h1 hl
        have e2 := h4.lead h1 hl'
        rw [ht] at e2
        exact (h1.inv.leadSame e1 e2).1
    · obtain ⟨s, h1, h2, h3⟩ := hr.one hp
      obtain ⟨lg, e2, _⟩ := hr.led _ hq
      exact (h1.inv.leadSame (h3.lead h1 hl) (h2 _ e2)).1
    · obtain ⟨s, h1, h2, h3⟩ := hr.one hq
      obtain ⟨lg, e2, _⟩ := hr.led _ hp
      have e1 := h3.lead h1 hl'
      rw [ht] at e1
      exact (h1.inv.leadSame (h2 _ e2) e1).1
    · obtain ⟨lg, e1, _⟩ := hr.led _ hp
      obtain ⟨lg', e2, _⟩ := hr.led _ hq
      exact (hr.reach.inv.leadSame e1 e2).1
  · have key : ∀ m ∈ c.net, (m.type = .app ∨ m.type = .snap ∨ m.type = .heartbeat) → ∃ lg, DMsg.lead m.term m.src lg ∈ g.net := by
      intro m hm hty
      have := hr.net m hm
      unfold MGen.MsgOk at this
      rcases hty with h | h | h <;> rw [h] at this
      · obtain ⟨_, lg, ⟨h1, rfl⟩, _⟩ := this; exact ⟨lg, h1⟩
      · obtain ⟨_, _, _, lg, ⟨h1, rfl⟩, _⟩ := this; exact ⟨lg, h1⟩
      · obtain ⟨⟨_, lg, ⟨h1, rfl⟩, _⟩, _⟩ := this; exact ⟨lg, h1⟩
    intro m hm m' hm' hty hty' ht
    obtain ⟨lg, e1⟩ := key m hm hty
    obtain ⟨lg', e2⟩ := key m' hm' hty'
    rw [ht] at e1
    exact (hr.reach.inv.leadSame e1 e2).1

/-- Log matching. -/
theorem Rel.matching (hr : G.Rel c g) {v w : LogView} (hv : c.HasLog v) (hw : c.HasLog w) {i : Nat}
    (hi : v.base ≤ i ∧ i ≤ v.last) (hi' : w.base ≤ i ∧ i ≤ w.last) (ht : v.termAt i = w.termAt i) :
    (∀ j, j ≤ i → v.base < j → w.base < j → v.entry j = w.entry j) ∧
    (∀ j, j ≤ i → v.base ≤ j → w.base ≤ j → v.termAt j = w.termAt j) := by
  rcases hr.logged2 hv hw with rfl | ⟨s, h1, ⟨x, hx, hvx⟩, ⟨y, hy, hwy⟩⟩
  · exact ⟨fun _ _ _ _ => rfl, fun _ _ _ _ => rfl⟩
  · rw [hvx.termAt hi.1, hwy.termAt hi'.1] at ht
    have htake := MGen.gmatch h1 hx hy (by rw [hvx.len]; exact hi.2) (by rw [hwy.len]; exact hi'.2) ht
    have hent : ∀ j, j < i → (G.L0 ++ x)[j]? = (G.L0 ++ y)[j]? := by
      intro j hj
      have := congrArg (fun l => l[j]?) htake
      simpa [List.getElem?_take, hj] using this
    refine ⟨fun j hj hb hb' => ?_, fun j hj hb hb' => ?_⟩
    · rw [hvx.entry hb, hwy.entry hb']
      exact hent _ (by omega)
    · rw [hvx.termAt hb, hwy.termAt hb']
      unfold gterm
      split
      · rfl
      · rw [hent _ (by omega)]

/-- Leader completeness. -/
theorem Rel.completeness (hr : G.Rel c g) :
    (∀ d ∈ c.out, ∀ q T v, (c.Leads q T v ∧ d.term ≤ T) ∨ (⟨q, T, v⟩ ∈ c.led ∧ d.term < T) →
      d.entry.index ≤ v.last ∧ (v.base < d.entry.index → v.entry d.entry.index = some d.entry)) ∧
    (∀ p i e, c.DiskCommitted p i → (c.proc p).disk.view.entry i = some e →
      ∀ q T v, (c.Leads q T v ∧ (c.proc p).disk.hardState.term ≤ T) ∨ (⟨q, T, v⟩ ∈ c.led ∧ (c.proc p).disk.hardState.term < T) →
        i ≤ v.last ∧ (v.base < i → v.entry i = some e)) := by
  have key : ∀ d, G.OutOk g.net d → ∀ q T v, (c.Leads q T v ∧ d.term ≤ T) ∨ (⟨q, T, v⟩ ∈ c.led ∧ d.term < T) →
      d.entry.index ≤ v.last ∧ (v.base < d.entry.index → v.entry d.entry.index = some d.entry) := by
    intro d hd q T v hq
    rcases hq with ⟨⟨n, _, hq, hl, rfl, rfl⟩, ht⟩ | ⟨hq, ht⟩
    · obtain ⟨s, h1, h2, h3⟩ := hr.one hq
      refine (hd.mono h2).inLog h1 (h3.lead h1 hl) h3.log (Or.inr ⟨ht, fun lg' hl' => ?_⟩)
      rw [show n.raft.term = _ from h3.term] at hl'
      exact (h1.inv.leadNode q (h3.leader_role hl)).2 _ hl'
    · obtain ⟨lg, e1, e2⟩ := hr.led _ hq
      exact hd.inLog hr.reach e1 e2 (Or.inl ht)
  refine ⟨fun d hd => key d (hr.out d hd), fun p i e hi he q T v hq => ?_⟩
  obtain ⟨ho, rfl⟩ := hr.diskOut hi he
  exact key _ ho q T v hq

/-- State machine safety. -/
theorem Rel.agreement (hr : G.Rel c g) :
    (∀ d ∈ c.out, ∀ d' ∈ c.out, d.entry.index = d'.entry.index → d.entry = d'.entry) ∧
    (∀ p q i, c.DiskCommitted p i → c.DiskCommitted q i → ∀ e e', (c.proc p).disk.view.entry i = some e →
      (c.proc q).disk.view.entry i = some e' → e = e') ∧
    (∀ d ∈ c.out, ∀ p, c.DiskCommitted p d.entry.index → ∀ e, (c.proc p).disk.view.entry d.entry.index = some e → d.entry = e) := by
  refine ⟨fun d hd d' hd' hi => (hr.out d hd).same hr.reach (hr.out d' hd') hi, fun p q i hp hq e e' he he' => ?_, fun d hd p hp e he => ?_⟩
  · obtain ⟨o1, i1⟩ := hr.diskOut hp he
    obtain ⟨o2, i2⟩ := hr.diskOut hq he'
    exact o1.same hr.reach o2 (i1.trans i2.symm)
  · obtain ⟨o1, i1⟩ := hr.diskOut hp he
    exact (hr.out d hd).same hr.reach o1 i1.symm

/-- One history of configurations. -/
theorem Rel.history (hr : G.Rel c g) :
    ∃ f : Nat → TConfig, (G.B = [] → ∀ i, i ≤ G.L0.length → f i = G.cfg0) ∧ (∀ cfg, G.At G.B cfg → f (G.L0.length + G.B.length) = cfg) ∧
      (∀ r ∈ c.known, G.B.length ≤ r.app.index - G.L0.length → r.app.conf = stateOf (f r.app.index)) ∧
      (∀ p n a, c.proc p = .up n a → G.B.length ≤ a.index - G.L0.length →
        a.conf = stateOf (f a.index) ∧ (n.raft.log.unstable.snapshot = none → n.raft.trk.config = f a.index)) ∧
      (∀ p, G.B.length ≤ (c.proc p).disk.snapshot.metadata.index - G.L0.length →
        (c.proc p).disk.snapshot.metadata.confState = stateOf (f (c.proc p).disk.snapshot.metadata.index)) ∧
      (∀ m ∈ c.net, m.type = .snap → ∃ s, m.snapshot = some s ∧
        (G.B.length ≤ s.metadata.index - G.L0.length → s.metadata.confState = stateOf (f s.metadata.index))) ∧
      (∀ d ∈ c.out, ∀ r ∈ c.known, G.L0.length + G.B.length < d.entry.index → d.entry.index ≤ r.app.index →
        Follows G.dec d.entry (f (d.entry.index - 1)) (f d.entry.index)) := by
  have known : ∀ r ∈ c.known, G.B.length ≤ r.app.index - G.L0.length → ∃ cfg, G.ConfAt g.net r.app.index cfg ∧ r.app.conf = csOf cfg := by
    intro r hk hb
    obtain ⟨x, cfg, T, h1, h2, h3, h4⟩ := hr.known r hk
    have h3 := h3.at (by omega)
    rw [List.take_length] at h3
    exact ⟨cfg, ⟨x, T, h1, h2, h3⟩, h4⟩
  refine ⟨G.confFun g.net, ?_, ?_, ?_, ?_, ?_, ?_, ?_⟩
  · intro _ i hi
    exact ((MGen.ConfAt.zero (G := G) (N := g.net) (i := i) hi).eq hr.reach).symm
  · intro cfg hcfg
    refine (MGen.ConfAt.eq hr.reach ?_).symm
    rcases hr.reach.boot with hb | ⟨cf, hb⟩
    · exact ⟨[], 0, Or.inl rfl, by rw [hb]; simp, by rw [← hb]; exact hcfg⟩
    · exact ⟨G.B, G.τ + 2, Or.inr ⟨_, G.B, cf, hb, by omega, List.prefix_refl _⟩, by omega, hcfg⟩
  · intro r hk hb
    obtain ⟨cfg, h1, h2⟩ := known r hk hb
    rw [h2, ← h1.eq hr.reach]; rfl
  · intro p n a hp hb
    have := hr.proc p
    rw [hp] at this
    obtain ⟨s, hu⟩ := this
    obtain ⟨cfg, h1, h2, h3⟩ := hu.conf hr.reach hb
    rw [h2, ← h1.eq hr.reach]
    exact ⟨rfl, h3⟩
  · intro p hb
    rcases hr.durable p with hd | hd
    rotate_left
    · rw [hd.blank] at hb
      have hz : ({} : Storage).snapshot.metadata.index = 0 := rfl
      have := List.length_pos_iff.2 hd.boot
      omega
    obtain ⟨cfg, h1, h2⟩ := hd.snap.conf
    have h1 := h1.at hb
    have hle := hd.snapLe
    obtain ⟨_, hc1, hc2⟩ := hr.reach.inv.commitOk p
    have : G.ConfAt g.net (c.proc p).disk.snapshot.metadata.index cfg :=
      ⟨_, _, hc2.prefix (List.take_prefix_take_left (by omega)), by rw [List.length_take]; omega, h1⟩
    rw [h2, ← this.eq hr.reach]; rfl
  · intro m hm hty
    have := hr.net m hm
    unfold MGen.MsgOk at this
    rw [hty] at this
    obtain ⟨s, h0, p, lg, h1, h2, h3, _⟩ := this
    refine ⟨s, h0, fun hb => ?_⟩
    obtain ⟨cfg, h4, h5⟩ := h2.conf
    have h4 := h4.at hb
    have : G.ConfAt g.net s.metadata.index cfg := by
      rcases h3 with h3 | ⟨h3, h6⟩
      · have e : s.metadata.index - G.L0.length = 0 := by omega
        rw [e, List.take_zero] at h4
        exact ⟨[], 0, Or.inl rfl, by rw [e]; rfl, h4⟩
      · exact ⟨_, _, h6, by rw [List.length_take]; omega, h4⟩
    rw [h5, ← this.eq hr.reach]; rfl
  · intro d hd r hk h1 h2
    obtain ⟨cfg, h3, _⟩ := known r hk (by omega)
    exact h3.next hr.reach (hr.out d hd) (by omega) h2

/-- Conf changes go one at a time. -/
theorem Rel.oneChange (hr : G.Rel c g) (p : Nat) :
    (∀ n a, c.proc p = .up n a → n.raft.state = .leader →
      (n.raft.log.view.ents.filter fun e => decide (a.index < e.index ∧ G.L0.length < e.index ∧ e.type ≠ .normal)).length ≤ 1) ∧
    (∀ n a, c.proc p = .up n a →
      (n.raft.log.view.ents.filter fun e => decide (n.raft.log.committed < e.index ∧ G.L0.length < e.index ∧ e.type ≠ .normal)).length ≤ 1) ∧
    ((c.proc p).disk.view.ents.filter fun e =>
      decide (max (c.proc p).disk.view.base (c.proc p).disk.hardState.commit < e.index ∧ G.L0.length < e.index ∧ e.type ≠ .normal)).length ≤ 1 := by
  refine ⟨fun n a hp hl => ?_, fun n a hp => ?_, ?_⟩
  · obtain ⟨s, h1, _, h3⟩ := hr.one hp
    have := MGen.count_view h3.log a.index
    have h4 := h1.inv.leadConf p (h3.leader_role hl)
    rw [h3.pos] at h4
    refine Nat.le_trans this ?_
    show nconf (s.node p).log - nconf ((s.node p).log.take (max a.index n.raft.core.log.view.base - _)) ≤ 1
    omega
  · obtain ⟨s, h1, _, h3⟩ := hr.one hp
    have := MGen.count_view h3.log n.raft.log.committed
    have h4 := h1.inv.nconfOk p
    have h5 : n.raft.log.committed = G.L0.length + (s.node p).commit := h3.commit
    refine Nat.le_trans this ?_
    have h6 := nconf_take_mono (s.node p).log (m := (s.node p).commit) (n := max n.raft.log.committed n.raft.core.log.view.base - G.L0.length) (by omega)
    have h7 : nconf ((s.node p).log.take (max n.raft.log.committed n.raft.core.log.view.base - G.L0.length)) ≤ nconf (s.node p).log := nconf_take_le _ _
    omega
  · rcases hr.durable p with hd | hd
    rotate_left
    · rw [hd.blank]; exact Nat.zero_le _
    have := MGen.count_view hd.log (max (c.proc p).disk.view.base (c.proc p).disk.hardState.commit)
    have h4 := hr.reach.inv.nconfOk p
    refine Nat.le_trans this ?_
    rw [hd.commit]
    have h6 := nconf_take_mono (g.node p).log (m := (g.node p).commit)
      (n := max (G.L0.length + (g.node p).commit) (c.proc p).disk.view.base - G.L0.length) (by omega)
    omega

end MGen
end Craft.Dyn
