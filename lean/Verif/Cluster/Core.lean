import Verif.Cluster.Rel

/-! # Every elementary step of a node is a sequence of steps of the abstract protocol -/

namespace Craft.Cluster
open Spec Abs

theorem gterm_ne {L : List Entry} (h : ∀ e ∈ L, e.term ≠ 0) {i : Nat} (h1 : 1 ≤ i) (h2 : i ≤ L.length) : gterm L i ≠ 0 := by
  unfold gterm
  rw [if_neg (by omega), List.getElem?_eq_getElem (by omega)]
  exact h _ (List.getElem_mem _)

theorem append_take {α} {a b : List α} {i : Nat} (h : a.length ≤ i) : (a ++ b).take i = a ++ b.take (i - a.length) := by
  rw [List.take_append, List.take_of_length_le h]

theorem append_prefix {α} {a x y : List α} : a ++ x <+: a ++ y ↔ x <+: y := List.prefix_append_right_inj a

namespace Gen
variable {G : Gen} {s : AState} {p : Nat} {c : Core} {N : List AMsg}

theorem terms_ne (hr : AReach G.Q G.τ s) {X : List Entry} (hm : Matched s.net X) : ∀ e ∈ G.L0 ++ X, e.term ≠ 0 := by
  intro e he
  rcases List.mem_append.1 he with h | h
  · exact G.terms e h
  · have := hr.matched_gt hm h; omega

theorem gmatch (hr : AReach G.Q G.τ s) {X Y : List Entry} (hx : Matched s.net X) (hy : Matched s.net Y) {i : Nat}
    (h1 : i ≤ (G.L0 ++ X).length) (h2 : i ≤ (G.L0 ++ Y).length) (ht : gterm (G.L0 ++ X) i = gterm (G.L0 ++ Y) i) :
    (G.L0 ++ X).take i = (G.L0 ++ Y).take i := by
  by_cases hi : i ≤ G.L0.length
  · rw [List.take_append_of_le_length hi, List.take_append_of_le_length hi]
  · rw [List.length_append] at h1 h2
    rw [append_take (by omega), append_take (by omega)]
    have e1 : X[i - G.L0.length - 1]? = some (X[i - G.L0.length - 1]'(by omega)) := List.getElem?_eq_getElem _
    have e2 : Y[i - G.L0.length - 1]? = some (Y[i - G.L0.length - 1]'(by omega)) := List.getElem?_eq_getElem _
    have g : ∀ Z : List Entry, ∀ e, Z[i - G.L0.length - 1]? = some e → gterm (G.L0 ++ Z) i = e.term := by
      intro Z e he
      have := gterm_some (L := G.L0 ++ Z) (i := i - 1) (e := e) (by
        rw [List.getElem?_append_right (by omega), show i - 1 - G.L0.length = i - G.L0.length - 1 by omega]; exact he)
      rwa [show i - 1 + 1 = i by omega] at this
    rw [g _ _ e1, g _ _ e2] at ht
    have := hr.inv.matching hx hy e1 e2 ht
    rw [show i - G.L0.length - 1 + 1 = i - G.L0.length by omega] at this
    rw [this]

theorem CommitOk.le {T k k' : Nat} {lg : List Entry} (h : G.CommitOk N T lg k) (hk : k' ≤ k) : G.CommitOk N T lg k' := by
  rcases h with h | ⟨T0, pre, h1, h2, h3, h4⟩
  · exact Or.inl (by omega)
  · refine Or.inr ⟨T0, pre, h1, h2, by omega, ?_⟩
    exact (List.take_prefix_take_left (by omega)).trans h4

theorem AckOk.le {T v i i' : Nat} (h : G.AckOk N T v i) (hk : i' ≤ i) : G.AckOk N T v i' := by
  rcases h with h | ⟨j, h1, h2⟩
  · exact Or.inl (by omega)
  · exact Or.inr ⟨j, by omega, h2⟩

theorem SnapOk.keep {lg lg' : List Entry} {sn : Snapshot} (h : G.SnapOk lg sn) {k : Nat} (hle : sn.metadata.index ≤ G.L0.length + k)
    (hk : k ≤ lg.length) (hp : lg.take k <+: lg') : G.SnapOk lg' sn := by
  have hl : (lg.take k).length = k := by rw [List.length_take]; omega
  have := hp.length_le
  refine ⟨by omega, ?_, h.conf⟩
  rw [h.term, gterm_prefix (append_prefix.2 hp) (by rw [List.length_append]; omega),
    gterm_prefix (append_prefix.2 (List.take_prefix k lg)) (by rw [List.length_append]; omega)]

/-- What a node has committed is covered by something chosen. -/
theorem commitOk_self (hr : AReach G.Q G.τ s) (v : Nat) : G.CommitOk s.net (s.node v).term (s.node v).log (G.L0.length + (s.node v).commit) := by
  obtain ⟨h1, h2⟩ := hr.inv.commitOk v
  rcases h2 with h2 | ⟨T, pre, h2, h3, h4⟩
  · exact Or.inl (by omega)
  · exact Or.inr ⟨T, pre, h2, h3, by omega, by rw [Nat.add_sub_cancel_left]; exact h4⟩

/-- The committed prefix survives `accept` of a prefix of the leader's log. -/
theorem commit_accept (hr : AReach G.Q G.τ s) {v c0 : Nat} {lg full : List Entry} (hl : AMsg.lead (s.node v).term c0 lg ∈ s.net)
    (hf : full <+: lg) : (s.node v).log.take (s.node v).commit <+: accept (s.node v).log full := by
  have hc := (hr.inv.commitOk v).1
  obtain ⟨lg2, l1, l2, l3⟩ := commit_lead (Abs.LStep.down (Q := G.Q) (v := v) (N := s.net)) hr.inv hl
  have he : (s.node v).log.take (s.node v).commit = lg2.take (s.node v).commit := by
    rw [take_eq_of_prefix l3 (by rw [List.length_take]; omega), List.take_take, Nat.min_self]
  rw [he]
  exact prefix_accept_left l3 (hr.inv.lead_cmp l1 hl (List.take_prefix _ _) hf)

theorem msgOk_term {im : Message} (hr : AReach G.Q G.τ s) (him : G.MsgOk s.net im) (hty : im.type = .app ∨ im.type = .snap ∨ im.type = .heartbeat) :
    im.term ≠ 0 ∧ ∃ c0 lg, AMsg.lead im.term c0 lg ∈ s.net := by
  have key : ∀ c0 lg, AMsg.lead im.term c0 lg ∈ s.net → im.term ≠ 0 ∧ ∃ c0 lg, AMsg.lead im.term c0 lg ∈ s.net := by
    intro c0 lg h
    have := (hr.inv.leadOk _ _ _ h).1
    exact ⟨by omega, c0, lg, h⟩
  unfold MsgOk at him
  rcases hty with h | h | h <;> rw [h] at him
  · obtain ⟨c0, lg, ⟨h, _⟩, _⟩ := him; exact key _ _ h
  · obtain ⟨_, _, c0, lg, ⟨h, _⟩, _⟩ := him; exact key _ _ h
  · obtain ⟨⟨c0, lg, ⟨h, _⟩, _⟩, _⟩ := him; exact key _ _ h

theorem gate_term {im : Message} (hr : AReach G.Q G.τ s) (him : G.MsgOk s.net im) (hty : im.type = .app ∨ im.type = .snap ∨ im.type = .heartbeat)
    (hg : GateOk im c) : im.term = c.term := by
  have := (msgOk_term hr him hty).1
  unfold GateOk at hg
  rcases hg with h | h | ⟨_, h | h⟩
  · exact absurd h this
  · exact h
  · rcases hty with t | t | t <;> rw [t] at h <;> cases h
  · rcases hty with t | t | t <;> rw [t] at h <;> exact absurd h.1 (nomatch ·)

/-- Append messages of leaders are well formed. -/
theorem msgOk_appWF {im : Message} (hr : AReach G.Q G.τ s) (him : G.MsgOk s.net im) : AppWF im := by
  intro hty
  unfold MsgOk at him
  rw [hty] at him
  obtain ⟨c0, lg, ⟨h1, _⟩, h2, h3, h4, h5, h6⟩ := him
  have hne := terms_ne hr (hr.inv.leadMatched _ _ _ h1)
  obtain ⟨t, ht⟩ := h3
  refine ⟨?_, ?_, ?_⟩
  · have : Contig 1 ((G.L0 ++ lg).take im.index ++ im.entries) := by rw [← ht] at h6; exact h6.left
    have := this.right
    rwa [List.length_take, Nat.min_eq_left h2, Nat.add_comm] at this
  · intro e he
    apply hne
    rw [← ht]
    simp [he]
  · intro h0
    by_cases hi : im.index = 0
    · exact hi
    · rw [h4] at h0
      exact absurd h0 (gterm_ne hne (by omega) h2)

/-! ## The step lemma -/

/-- The step of the node is matched by steps of the abstract node, and what it sends is backed by published facts. -/
def Done (G : Gen) (s : AState) (p : Nat) (c' : Core) (ms : List Message) : Prop :=
  ∃ s', PPath G.Q p s s' ∧ G.NodeRel p s'.net c' (s'.node p) ∧ ∀ m ∈ ms, G.MsgOk s'.net m

theorem Done.same {c' : Core} {ms : List Message} (h : G.NodeRel p s.net c' (s.node p)) (hm : ∀ m ∈ ms, G.MsgOk s.net m) : G.Done s p c' ms :=
  ⟨s, .nil, h, hm⟩

theorem Done.one {c' : Core} {ms : List Message} {out a'} (hs : Abs.LStep G.Q p s.net (s.node p) out a')
    (h : G.NodeRel p (s.upd p a' out).net c' a') (hm : ∀ m ∈ ms, G.MsgOk (s.upd p a' out).net m) : G.Done s p c' ms :=
  ⟨_, .single hs, by rw [upd_self]; exact h, hm⟩

/-- A step that leaves the log alone. -/
theorem NodeRel.sameLog {N N' : List AMsg} {c c' : Core} {a a' : ANode} (h : G.NodeRel p N c a) (hid : c'.id = c.id) (hlog : c'.log = c.log)
    (hcfg : c'.config = c.config) (alog : a'.log = a.log) (acom : a'.commit = a.commit) (hterm : c'.term = a'.term) (hvote : c'.vote = a'.vote)
    (hrole : roleOf c'.state = a'.role)
    (hvotes : c'.state = .candidate → ∀ v, c'.votes.find v = some true → AMsg.voteGrant a'.term v p ∈ N')
    (hprs : c'.state = .leader → ∀ v pr, c'.progress.find v = some pr → PrOk c.log.lastIndex pr ∧ G.AckOk N' a'.term v pr.mtch) :
    G.NodeRel p N' c' a' := by
  refine ⟨hid.trans h.id, h.idne, hterm, hvote, hrole, by rw [hlog]; exact h.linv, by rw [hlog, alog]; exact h.log,
    by rw [hlog, acom]; exact h.commit, hcfg.trans h.config, hvotes, by rw [hlog]; exact hprs, by rw [hlog, alog]; exact h.snap,
    by rw [hlog, alog]; exact h.stsnap⟩

section
variable {env : Env} {im : Message} (hr : AReach G.Q G.τ s) (hn : G.NodeRel p s.net c (s.node p)) (him : G.MsgOk s.net im)

include hn in
theorem NodeRel.last_eq : c.log.lastIndex = G.L0.length + (s.node p).log.length := by
  rw [hn.linv.wf.lastIndex_eq, ← hn.log.len, List.length_append]

include hn in
theorem NodeRel.base_le : c.log.view.base ≤ G.L0.length + (s.node p).commit := by
  have := hn.linv.base_com
  rw [hn.commit] at this; exact this

include hn in
theorem NodeRel.leader_role (h : c.state = .leader) : (s.node p).role = .leader := by
  rw [← hn.role, h]; rfl

include hr hn in
theorem emit_leader_app {m : Message} (hty : m.type = .app) (he : Emit env im c m) : G.MsgOk s.net m := by
  unfold Emit at he
  unfold MsgOk
  rw [hty] at he ⊢
  dsimp only at he ⊢
  obtain ⟨h1, h2, h3, h4, _, pr, mx, h5, _, h6, h7, h8, _⟩ := he
  have hl := (hr.inv.leadNode p (hn.leader_role h3)).1
  obtain ⟨pok, _⟩ := hn.prs h3 _ _ h5
  have hwf := hn.linv.wf
  have hlast := hn.last_eq
  have hle := hwf.lastIndex_eq
  have hb : c.log.view.base ≤ c.log.view.last := Nat.le_add_right _ _
  have p1 := pok.next_pos
  have p2 := pok.next_le
  have hidx : m.index = pr.next - 1 := by rw [h6]; unfold sub64; rw [if_pos (by omega)]
  rw [hwf.entries_eq] at h8
  have hbi : c.log.view.base ≤ m.index ∧ m.entries <+: (G.L0 ++ (s.node p).log).drop m.index := by
    split at h8
    · simp only [Res.ok.injEq, Except.ok.injEq] at h8
      rw [← h8]
      exact ⟨by omega, List.nil_prefix⟩
    · split at h8
      · cases h8
      · simp only [Res.ok.injEq, Except.ok.injEq] at h8
        refine ⟨by omega, ?_⟩
        rw [← h8]
        refine (limitSize_prefix _ _ _).trans ?_
        rw [hn.log.ents, List.drop_drop, show c.log.view.base + (pr.next - c.log.view.base - 1) = m.index by omega]
        exact List.prefix_refl _
  refine ⟨p, (s.node p).log, ?_, by rw [List.length_append]; omega, ?_, ?_, ?_, hn.log.contig⟩
  · rw [h2, hn.term]; exact ⟨hl, by rw [h1, hn.id]⟩
  · obtain ⟨t, ht⟩ := hbi.2
    refine ⟨t, ?_⟩
    rw [List.append_assoc, ht, List.take_append_drop]
  · rw [hwf.term_eq] at h7
    simp only [Res.ok.injEq, Except.ok.injEq] at h7
    rw [← h7, hn.log.termAt hbi.1]
  · rw [h4, hn.commit, h2, hn.term]
    exact commitOk_self hr p

include hr hn him in
theorem emit_done {m : Message} (he : Emit env im c m) : G.Done s p c [m] := by
  by_cases happ : m.type = .app
  · exact .same hn (by intro x hx; rw [List.mem_singleton.1 hx]; exact emit_leader_app hr hn happ he)
  have one : G.MsgOk s.net m → G.Done s p c [m] := fun h => .same hn (by intro x hx; rw [List.mem_singleton.1 hx]; exact h)
  unfold Emit at he
  cases hty : m.type with
  | app => exact absurd hty happ
  | snap =>
    rw [hty] at he
    obtain ⟨h1, h2, h3, h4, h5, _⟩ := he
    apply one
    unfold MsgOk
    rw [hty]
    have hl := (hr.inv.leadNode p (hn.leader_role h3)).1
    refine ⟨_, h4, p, (s.node p).log, by rw [h2, hn.term]; exact ⟨hl, by rw [h1, hn.id]⟩, hn.snap, ?_, hn.log.contig⟩
    rw [h2, hn.term]
    refine (commitOk_self hr p).le ?_
    rw [← hn.commit]
    unfold RaftLog.snapshot
    split
    · rename_i sn hs
      have := hn.linv.base_com
      rw [RaftLog.view_snap hs] at this
      exact this
    · exact hn.linv.snap_com
  | heartbeat =>
    rw [hty] at he
    obtain ⟨h1, h2, h3, ⟨pr, h4, h5⟩, _⟩ := he
    apply one
    unfold MsgOk
    rw [hty]
    have hl := (hr.inv.leadNode p (hn.leader_role h3)).1
    refine ⟨⟨p, (s.node p).log, by rw [h2, hn.term]; exact ⟨hl, by rw [h1, hn.id]⟩, ?_⟩, ?_⟩
    · rw [h2, hn.term]
      refine (commitOk_self hr p).le ?_
      rw [← hn.commit, h5]; omega
    · rw [h2, hn.term]
      exact (hn.prs h3 _ _ h4).2.le (by omega)
  | vote =>
    rw [hty] at he
    obtain ⟨h1, h2, h3, h4, h5⟩ := he
    apply one
    unfold MsgOk
    rw [hty]
    have hc : (s.node p).role = .candidate := by rw [← hn.role, h3]; rfl
    refine ⟨(s.node p).log, ?_, by rw [h4, hn.last_eq], ?_⟩
    · rw [h2, h1, hn.id, hn.term]; exact (hr.aux.cand p hc).1
    · rw [hn.linv.wf.lastTerm_eq] at h5
      simp only [Res.ok.injEq] at h5
      rw [← h5, h4, hn.linv.wf.lastIndex_eq]
      exact hn.log.termAt (Nat.le_add_right _ _)
  | voteResp =>
    rw [hty] at he
    apply one
    unfold MsgOk
    rw [hty]
    intro h
    rw [he.2.2.1] at h; cases h
  | appResp =>
    rw [hty] at he
    obtain ⟨h1, h2, h3, h | h | h⟩ := he
    · apply one
      unfold MsgOk
      rw [hty]
      intro _
      exact Or.inl (by omega)
    · obtain ⟨e1, _, e3, e4, e5⟩ := h
      have e4' : im.type = .app ∨ im.type = .snap ∨ im.type = .heartbeat := by
        rcases e4 with e | e
        · exact Or.inl e
        · exact Or.inr (Or.inl e)
      obtain ⟨_, c0, lg, hl⟩ := msgOk_term hr him e4'
      rw [gate_term hr him e4' e5, hn.term] at hl
      have hstep : Abs.LStep G.Q p s.net (s.node p) [.ack (s.node p).term p (s.node p).commit] (s.node p) := .ackCommit c0 lg hl
      refine .one hstep (hn.mono fun _ h => mem_old h) ?_
      intro x hx
      rw [List.mem_singleton.1 hx]
      unfold MsgOk
      rw [hty]
      intro _
      refine Or.inr ⟨(s.node p).commit, by rw [e1, hn.commit]; exact Nat.le_refl _, ?_⟩
      rw [h2, hn.term, h1, hn.id, mem_upd]
      simp
    · apply one
      unfold MsgOk
      rw [hty]
      intro hc
      rw [h.1] at hc; cases hc
  | _ => apply one; unfold MsgOk; rw [hty]; trivial

include hr hn him in
/-- A follower takes over a prefix of the leader's log. -/
theorem recvApp_done {l : RaftLog} {last : Nat} (hli : LInv l) (h1 : c.state = .follower) (h2 : im.type = .app) (h3 : GateOk im c)
    (h4 : c.log.committed ≤ im.index) (h5 : c.log.maybeAppend im.index im.logTerm im.commit im.entries = .ok (l, some last)) :
    G.Done s p { c with log := l } [{ type := .appResp, to := im.src, src := c.id, term := c.term, index := last }] := by
  have hw := msgOk_appWF hr him h2
  have hterm := gate_term hr him (Or.inl h2) h3
  have him0 := him
  unfold MsgOk at him
  rw [h2] at him
  obtain ⟨c0, lg, ⟨m1, _⟩, m2, m3, m4, m5, m6⟩ := him
  rw [hterm, hn.term] at m1 m5
  have hwf := hn.linv.wf
  have hrole : (s.node p).role = .follower := by rw [← hn.role, h1]; rfl
  have hml := hr.inv.leadMatched _ _ _ m1
  have hma := hr.inv.nodeMatched p
  have hne := terms_ne hr hml
  have hcom := hn.commit
  have hbase : c.log.view.base ≤ im.index := Nat.le_trans hn.linv.base_com h4
  have hlast : (G.L0 ++ (s.node p).log).length = c.log.view.last := hn.log.len
  -- the two logs agree up to im.index
  have hmt : c.log.view.termAt im.index = im.logTerm := by
    by_cases hm : c.log.view.termAt im.index = im.logTerm
    · exact hm
    · rw [hwf.maybeAppend_mismatch hm] at h5
      simp only [Res.ok.injEq, Prod.mk.injEq] at h5
      exact absurd h5.2 (nomatch ·)
  rw [hn.log.termAt hbase] at hmt
  have hidx : im.index ≤ (G.L0 ++ (s.node p).log).length := by
    rcases Nat.lt_or_ge (G.L0 ++ (s.node p).log).length im.index with hlt | hge
    · rw [gterm_out hlt, m4] at hmt
      exact absurd hmt.symm (gterm_ne hne (by omega) m2)
    · exact hge
  have hag : (G.L0 ++ (s.node p).log).take im.index = (G.L0 ++ lg).take im.index := gmatch hr hma hml hidx m2 (by rw [hmt, m4])
  have hL0 : G.L0.length ≤ im.index := by omega
  -- the log taken over
  generalize hK : im.index + im.entries.length = K at *
  have hKl : K ≤ (G.L0 ++ lg).length := by
    have := m3.length_le
    rw [List.length_append, List.length_take, Nat.min_eq_left m2] at this; omega
  have hfull : (G.L0 ++ lg).take im.index ++ im.entries = (G.L0 ++ lg).take K := by
    have hlen : ((G.L0 ++ lg).take im.index ++ im.entries).length = K := by
      rw [List.length_append, List.length_take, Nat.min_eq_left m2, hK]
    have := take_eq_of_prefix m3 (n := K) (by omega)
    exact (this.trans (List.take_of_length_le (by omega))).symm
  have hentry : ∀ n e, im.entries[n]? = some e → gterm (G.L0 ++ lg) (im.index + 1 + n) = e.term ∧ e.index = im.index + 1 + n ∧ im.index + 1 + n ≤ K := by
    intro n e hne
    have hlt := (List.getElem?_eq_some_iff.1 hne).1
    refine ⟨?_, hw.1 n e hne, by omega⟩
    rw [show im.index + 1 + n = im.index + n + 1 by omega]
    apply gterm_some
    refine prefix_getElem?_some m3 ?_
    rw [List.getElem?_append_right (by rw [List.length_take]; omega), List.length_take, Nat.min_eq_left m2,
      show im.index + n - im.index = n by omega]
    exact hne
  have hfa : G.L0 ++ lg.take (K - G.L0.length) = (G.L0 ++ lg).take K := (append_take (by omega)).symm
  have hfal : (lg.take (K - G.L0.length)).length = K - G.L0.length := by
    rw [List.length_append] at hKl
    rw [List.length_take]; omega
  have hfp : lg.take (K - G.L0.length) <+: lg := List.take_prefix _ _
  -- the abstract step
  have hstep : Abs.LStep G.Q p s.net (s.node p) [.ack (s.node p).term p (lg.take (K - G.L0.length)).length]
      { s.node p with log := accept (s.node p).log (lg.take (K - G.L0.length)) } := .recv c0 lg _ hrole m1 hfp
  have hkeep := commit_accept hr m1 hfp
  have hcl := (hr.inv.commitOk p).1
  -- the concrete log is the accepted one
  have hres : LogRel (G.L0 ++ accept (s.node p).log (lg.take (K - G.L0.length))) l.view ∧
      l.committed = max c.log.committed (min im.commit K) ∧ last = K ∧ l.storage = c.log.storage ∧ l.unstable.snapshot = c.log.unstable.snapshot := by
    rcases hwf.maybeAppend_match (c := im.commit) (lt := im.logTerm) hbase (by omega) (by rw [hn.log.termAt hbase]; exact hmt) hw.1 hw.2.1 with
      ⟨x1, x2, x3⟩ | ⟨n, e, x1, x2, x3, x4, x5, x6⟩
    · rw [hK] at x2 x3
      rw [x3] at h5
      simp only [Res.ok.injEq, Prod.mk.injEq, Option.some.injEq] at h5
      obtain ⟨rfl, rfl⟩ := h5
      have hpre : lg.take (K - G.L0.length) <+: (s.node p).log := by
        apply (append_prefix (a := G.L0)).1
        rw [hfa]
        have : (G.L0 ++ (s.node p).log).take K = (G.L0 ++ lg).take K := by
          cases hls : im.entries.getLast? with
          | none =>
            have : im.entries = [] := List.getLast?_eq_none_iff.1 hls
            rw [this, List.length_nil, Nat.add_zero] at hK
            rw [← hK]; exact hag
          | some e =>
            rw [List.getLast?_eq_getElem?] at hls
            have hlt := (List.getElem?_eq_some_iff.1 hls).1
            obtain ⟨g1, g2, g3⟩ := hentry _ _ hls
            have := x1 e (List.mem_of_getElem? hls)
            rw [g2, hn.log.termAt (by omega)] at this
            have e1 : im.index + 1 + (im.entries.length - 1) = K := by omega
            rw [e1] at this g1
            exact gmatch hr hma hml (by omega) hKl (by rw [this, g1])
        rw [← this]
        exact List.take_prefix _ _
      rw [show accept (s.node p).log (lg.take (K - G.L0.length)) = (s.node p).log by unfold accept; rw [if_pos hpre]]
      exact ⟨hn.log, rfl, rfl, rfl, rfl⟩
    · obtain ⟨g1, g2, g3⟩ := hentry _ _ x1
      have hnpre : ¬ lg.take (K - G.L0.length) <+: (s.node p).log := by
        intro hp
        have hp' : (G.L0 ++ lg).take K <+: G.L0 ++ (s.node p).log := by rw [← hfa]; exact append_prefix.2 hp
        apply x4
        have k1 := gterm_prefix hp' (i := im.index + 1 + n) (by rw [List.length_take]; omega)
        have k2 := gterm_prefix (List.take_prefix K (G.L0 ++ lg)) (i := im.index + 1 + n) (by rw [List.length_take]; omega)
        rw [hn.log.termAt (by omega), ← g1, k1, k2]
      rw [show accept (s.node p).log (lg.take (K - G.L0.length)) = lg.take (K - G.L0.length) by unfold accept; rw [if_neg hnpre]]
      rw [x6] at h5
      split at h5
      · cases h5
      rw [hK] at h5
      simp only [Res.ok.injEq, Prod.mk.injEq, Option.some.injEq] at h5
      obtain ⟨rfl, rfl⟩ := h5
      refine ⟨?_, rfl, rfl, rfl, rfl⟩
      have hlt := (List.getElem?_eq_some_iff.1 x1).1
      have hdc : Contig (im.index + 1 + n) (im.entries.drop n) := hw.1.drop
      have hdn : im.entries.drop n ≠ [] := by
        intro h0
        have := congrArg List.length h0
        rw [List.length_drop] at this
        simp at this; omega
      have hv : (c.log.appended (im.index + 1 + n) (im.entries.drop n)).view = c.log.view.splice (im.index + 1 + n) (im.entries.drop n) :=
        (hwf.appended hdc hdn (by omega) (by omega)).2
      show LogRel _ (c.log.appended (im.index + 1 + n) (im.entries.drop n)).view
      rw [hv]
      refine hn.log.splice (by rw [hfa]; exact m6.take) hbase ?_ (by omega)
      have hag' : (G.L0 ++ (s.node p).log).take (im.index + n) = (G.L0 ++ lg).take (im.index + n) := by
        cases n with
        | zero => exact hag
        | succ n =>
          have hx : im.entries[n]? = some (im.entries[n]'(by omega)) := List.getElem?_eq_getElem _
          obtain ⟨k1, k2, k3⟩ := hentry _ _ hx
          have := x3 _ (List.mem_of_getElem? (show (im.entries.take (n + 1))[n]? = _ by rw [List.getElem?_take_of_lt (by omega)]; exact hx))
          rw [k2, hn.log.termAt (by omega)] at this
          rw [show im.index + (n + 1) = im.index + 1 + n by omega]
          exact gmatch hr hma hml (by omega) (by omega) (by rw [this, k1])
      rw [hag', hfa, ← hfull]
      have : (G.L0 ++ lg).take (im.index + n) = (G.L0 ++ lg).take im.index ++ im.entries.take n := by
        have e1 : ((G.L0 ++ lg).take im.index ++ im.entries).take (im.index + n) = (G.L0 ++ lg).take im.index ++ im.entries.take n := by
          rw [append_take (by rw [List.length_take]; omega), List.length_take, Nat.min_eq_left m2, show im.index + n - im.index = n by omega]
        rw [← e1, hfull, List.take_take, Nat.min_eq_left (by omega)]
      rw [this, List.append_assoc, List.take_append_drop]
  obtain ⟨r1, r2, r3, r4, r5⟩ := hres
  subst r3
  -- first the log, then the commit index
  have hrel1 : ∀ k, l.committed = G.L0.length + k → ∀ N', G.NodeRel p N' { c with log := l }
      { s.node p with log := accept (s.node p).log (lg.take (last - G.L0.length)), commit := k } := by
    intro k hk N'
    refine ⟨hn.id, hn.idne, hn.term, hn.vote, hn.role, hli, r1, hk, hn.config, fun h => ?_, fun h => ?_, ?_, ?_⟩
    · rw [h1] at h; cases h
    · rw [h1] at h; cases h
    · show G.SnapOk _ l.snapshot
      rw [show l.snapshot = c.log.snapshot by unfold RaftLog.snapshot; rw [r4, r5]]
      refine hn.snap.keep ?_ hcl hkeep
      unfold RaftLog.snapshot
      split
      · rename_i sn hs
        have := hn.base_le
        rw [RaftLog.view_snap hs] at this; exact this
      · have := hn.linv.snap_com
        rw [hcom] at this; exact this
    · show G.SnapOk _ l.storage.snapshot
      rw [r4]
      refine hn.stsnap.keep ?_ hcl hkeep
      have := hn.linv.snap_com
      rw [hcom] at this; exact this
  have hmsg : ∀ N' : List AMsg, AMsg.ack (s.node p).term p (lg.take (last - G.L0.length)).length ∈ N' →
      ∀ m ∈ [({ type := .appResp, to := im.src, src := c.id, term := c.term, index := last } : Message)], G.MsgOk N' m := by
    intro N' hN m hm
    rw [List.mem_singleton.1 hm]
    intro _
    refine Or.inr ⟨(lg.take (last - G.L0.length)).length, by rw [hfal]; dsimp only; omega, ?_⟩
    dsimp only
    rw [hn.id, hn.term]; exact hN
  by_cases hgrow : min im.commit last ≤ c.log.committed
  · refine .one hstep ?_ (hmsg _ (by rw [mem_upd]; simp))
    exact hrel1 (s.node p).commit (by rw [r2]; omega) _
  · -- the commit index moves
    have hcm : G.L0.length < im.commit := by omega
    rcases m5 with hlow | ⟨T0, pre, q1, q2, q3, q4⟩
    · omega
    refine ⟨_, .snoc (.single hstep) (.commitF T0 (min im.commit last - G.L0.length) pre (mem_old q1) ?_ ?_ ?_ ?_), ?_, ?_⟩
    · rw [upd_self]; exact q2
    · rw [upd_self]; dsimp only; omega
    · rw [upd_self]
      have := (prefix_accept_right (s.node p).log (lg.take (last - G.L0.length))).length_le
      dsimp only; omega
    · rw [upd_self]
      dsimp only
      rw [take_eq_of_prefix (prefix_accept_right (s.node p).log (lg.take (last - G.L0.length))) (by omega), List.take_take]
      exact (List.take_prefix_take_left (by omega)).trans q4
    · rw [upd_self, upd_self]
      exact hrel1 _ (by rw [r2]; omega) _
    · exact hmsg _ (by rw [mem_upd, mem_upd]; simp)

include hn in
/-- The commit index moves along something chosen. -/
theorem commitTo_done {l : RaftLog} {k : Nat} (hli : LInv l) (h1 : c.state = .follower) (hc : c.log.commitTo k = .ok l)
    (hk : c.log.committed < k → k ≤ G.L0.length + (s.node p).log.length → ∃ T0 pre, AMsg.chosen T0 pre ∈ s.net ∧ T0 ≤ (s.node p).term ∧
      (s.node p).log.take (k - G.L0.length) <+: pre) {ms : List Message} (hm : ∀ m ∈ ms, ∀ N, G.MsgOk N m) :
    G.Done s p { c with log := l } ms := by
  rw [hn.linv.wf.commitTo_eq] at hc
  have hcom := hn.commit
  have hlast := hn.last_eq
  rw [hn.linv.wf.lastIndex_eq] at hlast
  split at hc
  · rename_i hlt
    split at hc
    · cases hc
    rename_i hle
    simp only [Res.ok.injEq] at hc
    subst hc
    obtain ⟨T0, pre, q1, q2, q3⟩ := hk hlt (by omega)
    refine .one (.commitF T0 (k - G.L0.length) pre q1 q2 (by omega) (by omega) q3) ?_ (fun m h => hm m h _)
    refine ⟨hn.id, hn.idne, hn.term, hn.vote, hn.role, hli, hn.log, by dsimp only; omega, hn.config, fun h => ?_, fun h => ?_, hn.snap, hn.stsnap⟩
    · rw [h1] at h; cases h
    · rw [h1] at h; cases h
  · simp only [Res.ok.injEq] at hc
    subst hc
    exact .same hn (fun m h => hm m h _)

include hr hn him in
theorem recvHeartbeat_done {l : RaftLog} (hto : im.to = p) (hli : LInv l) (h1 : c.state = .follower) (h2 : im.type = .heartbeat) (h3 : GateOk im c)
    (h4 : c.log.commitTo im.commit = .ok l) :
    G.Done s p { c with log := l } [{ type := .heartbeatResp, to := im.src, src := c.id, term := c.term, context := im.context }] := by
  have hterm := gate_term hr him (Or.inr (Or.inr h2)) h3
  unfold MsgOk at him
  rw [h2] at him
  obtain ⟨⟨c0, lg, ⟨m1, _⟩, m2⟩, m3⟩ := him
  rw [hterm, hn.term] at m1 m2 m3
  rw [hto] at m3
  have hcom := hn.commit
  refine commitTo_done hn hli h1 h4 (fun hlt hle => ?_) (by intro m hm N; rw [List.mem_singleton.1 hm]; trivial)
  rcases m3 with m3 | ⟨j, m3, m4⟩
  · omega
  rcases m2 with m2 | ⟨T0, pre, q1, q2, q3, q4⟩
  · omega
  refine ⟨T0, pre, q1, q2, ?_⟩
  obtain ⟨c1, lg1, l1, l2, l3⟩ := hr.inv.ackNow p j m4
  refine List.IsPrefix.trans ?_ q4
  have h1 : (s.node p).log.take (im.commit - G.L0.length) = lg1.take (im.commit - G.L0.length) := by
    rw [take_eq_of_prefix l3 (by rw [List.length_take]; omega), List.take_take, Nat.min_eq_left (by omega)]
  rw [h1]
  have e1 : (lg1.take (im.commit - G.L0.length)).length = im.commit - G.L0.length := by rw [List.length_take]; omega
  have e2 : (lg.take (im.commit - G.L0.length)).length = im.commit - G.L0.length := by rw [List.length_take]; omega
  rcases hr.inv.lead_cmp l1 m1 (List.take_prefix (im.commit - G.L0.length) lg1) (List.take_prefix (im.commit - G.L0.length) lg) with h | h
  · exact h
  · rw [h.eq_of_length (by omega)]; exact List.prefix_refl _

include hr hn him in
theorem recvSnapCommit_done {l : RaftLog} (hli : LInv l) (h1 : c.state = .follower) (h2 : im.type = .snap) (h3 : GateOk im c)
    (h5 : c.log.matchTerm (im.snapshot.getD {}).metadata.index (im.snapshot.getD {}).metadata.term = .ok true)
    (h6 : c.log.commitTo (im.snapshot.getD {}).metadata.index = .ok l) : G.Done s p { c with log := l } [] := by
  have hterm := gate_term hr him (Or.inr (Or.inl h2)) h3
  unfold MsgOk at him
  rw [h2] at him
  obtain ⟨sn, m0, c0, lg, ⟨m1, _⟩, m2, m3, _⟩ := him
  rw [m0, Option.getD_some] at h5 h6
  rw [hterm, hn.term] at m1 m3
  have hcom := hn.commit
  refine commitTo_done hn hli h1 h6 (fun hlt hle => ?_) (by intro m hm; cases hm)
  rcases m3 with m3 | ⟨T0, pre, q1, q2, q3, q4⟩
  · omega
  refine ⟨T0, pre, q1, q2, ?_⟩
  rw [hn.linv.wf.matchTerm_eq] at h5
  simp only [Res.ok.injEq, decide_eq_true_eq] at h5
  rw [hn.log.termAt (by have := hn.linv.base_com; omega), m2.term] at h5
  have := gmatch hr (hr.inv.nodeMatched p) (hr.inv.leadMatched _ _ _ m1) (by rw [List.length_append]; exact hle)
    (by rw [List.length_append]; exact m2.le) h5
  rw [append_take (by omega), append_take (by omega)] at this
  rw [List.append_cancel_left this]
  exact q4

include hr hn him in
theorem recvSnap_done {cfg : TConfig} {P : ProgressMap} {P0 : ProgressMap} {mi : Int} (hli : LInv (c.log.restore (im.snapshot.getD {})))
    (h1 : c.state = .follower) (h2 : im.type = .snap) (h3 : GateOk im c) (h4 : c.log.committed < (im.snapshot.getD {}).metadata.index)
    (h5 : c.log.matchTerm (im.snapshot.getD {}).metadata.index (im.snapshot.getD {}).metadata.term = .ok false)
    (h6 : Changer.restore { tracker := { maxInflight := mi }, lastIndex := (im.snapshot.getD {}).metadata.index }
        (im.snapshot.getD {}).metadata.confState = .ok (cfg, P0)) :
    G.Done s p { c with log := c.log.restore (im.snapshot.getD {}), config := cfg, votes := [], progress := P } [] := by
  have hterm := gate_term hr him (Or.inr (Or.inl h2)) h3
  unfold MsgOk at him
  rw [h2] at him
  obtain ⟨sn, m0, c0, lg, ⟨m1, _⟩, m2, m3, m4⟩ := him
  rw [m0, Option.getD_some] at hli h4 h5 h6 ⊢
  rw [hterm, hn.term] at m1 m3
  have hcom := hn.commit
  have hrole : (s.node p).role = .follower := by rw [← hn.role, h1]; rfl
  have hcl := (hr.inv.commitOk p).1
  rcases m3 with m3 | ⟨T0, pre, q1, q2, q3, q4⟩
  · omega
  generalize hK : sn.metadata.index - G.L0.length = K at *
  have hfal : (lg.take K).length = K := by rw [List.length_take]; omega
  have hfp : lg.take K <+: lg := List.take_prefix _ _
  have hfg : gterm (G.L0 ++ lg.take K) sn.metadata.index = sn.metadata.term := by
    rw [m2.term]
    exact (gterm_prefix (append_prefix.2 hfp) (by rw [List.length_append]; omega)).symm
  have hnpre : ¬ lg.take K <+: (s.node p).log := by
    intro hp
    rw [hn.linv.wf.matchTerm_eq] at h5
    simp only [Res.ok.injEq, decide_eq_false_iff_not] at h5
    apply h5
    rw [hn.log.termAt (by have := hn.linv.base_com; omega), gterm_prefix (append_prefix.2 hp) (by rw [List.length_append]; omega), hfg]
  have hacc : accept (s.node p).log (lg.take K) = lg.take K := by unfold accept; rw [if_neg hnpre]
  have hkeep := commit_accept hr m1 hfp
  have hstep : Abs.LStep G.Q p s.net (s.node p) [.ack (s.node p).term p (lg.take K).length]
      { s.node p with log := accept (s.node p).log (lg.take K) } := .recv c0 lg _ hrole m1 hfp
  rw [hacc] at hkeep hstep
  refine ⟨_, .snoc (.single hstep) (.commitF T0 K pre (mem_old q1) ?_ ?_ ?_ ?_), ?_, by intro m hm; cases hm⟩
  · rw [upd_self]; exact q2
  · rw [upd_self]; dsimp only; omega
  · rw [upd_self]; dsimp only; omega
  · rw [upd_self]; dsimp only
    rw [List.take_take, Nat.min_self]; exact q4
  · rw [upd_self, upd_self]
    refine ⟨hn.id, hn.idne, hn.term, hn.vote, hn.role, hli, ?_, ?_, ?_, fun h => ?_, fun h => ?_, ?_, ?_⟩
    · show LogRel (G.L0 ++ lg.take K) (c.log.restore sn).view
      rw [(hn.linv.wf.restore sn).2]
      refine ⟨?_, ?_, hfg.symm, ?_⟩
      · rw [List.length_append, hfal]; unfold LogView.last; simp; omega
      · rw [List.drop_of_length_le (by rw [List.length_append, hfal]; dsimp only; omega)]
      · have := m4.take (n := G.L0.length + K)
        rwa [append_take (by omega), Nat.add_sub_cancel_left] at this
    · show sn.metadata.index = _
      dsimp only; omega
    · rw [m2.conf] at h6
      exact (G.restore _ _ _ _ h6).1
    · rw [h1] at h; cases h
    · rw [h1] at h; cases h
    · show G.SnapOk _ sn
      exact ⟨by dsimp only; omega, hfg.symm, m2.conf⟩
    · show G.SnapOk _ c.log.storage.snapshot
      refine hn.stsnap.keep ?_ hcl hkeep
      have := hn.linv.snap_com
      omega

include hr hn him in
theorem grant_done (h1 : im.type = .vote) (h2 : im.term ≠ 0) (h3 : GateOk im c) (h4 : c.vote = im.src ∨ c.vote = 0)
    (h5 : c.log.isUpToDate im.index im.logTerm = .ok true) :
    G.Done s p { c with vote := im.src } [{ type := .voteResp, to := im.src, src := c.id, term := im.term }] := by
  have hterm : im.term = c.term := by
    rcases h3 with h | h | ⟨_, h | h⟩
    · exact absurd h h2
    · exact h
    · rw [h1] at h; cases h
    · rw [h1] at h; exact absurd h.1 (nomatch ·)
  unfold MsgOk at him
  rw [h1] at him
  obtain ⟨lg, m1, m2, m3⟩ := him
  rw [hterm, hn.term] at m1
  rw [hn.linv.wf.isUpToDate_eq] at h5
  simp only [Res.ok.injEq, decide_eq_true_eq] at h5
  rw [hn.log.termAt (i := c.log.view.last) (Nat.le_add_right _ _)] at h5
  have hlast := hn.last_eq
  rw [hn.linv.wf.lastIndex_eq] at hlast
  rw [hlast, m3, m2] at h5
  have key : ∀ X : List Entry, Matched s.net X →
      (X = [] ∧ gterm (G.L0 ++ X) (G.L0.length + X.length) ≤ G.τ + 1 ∧ Abs.lastTerm X = 0 ∧ X.length = 0) ∨
      (gterm (G.L0 ++ X) (G.L0.length + X.length) = Abs.lastTerm X ∧ G.τ < Abs.lastTerm X ∧ 0 < X.length) := by
    intro X hm
    by_cases hx : X = []
    · subst hx
      refine Or.inl ⟨rfl, ?_, rfl, rfl⟩
      rw [List.append_nil]
      exact G.low
    · have hl : 0 < X.length := List.length_pos_iff.2 hx
      have he : X[X.length - 1]? = some (X[X.length - 1]'(by omega)) := List.getElem?_eq_getElem _
      right
      rw [Abs.lastTerm_eq he]
      refine ⟨?_, hr.matched_gt hm (List.mem_of_getElem? he), hl⟩
      have := gterm_some (L := G.L0 ++ X) (i := G.L0.length + (X.length - 1)) (e := X[X.length - 1]'(by omega)) (by
        rw [List.getElem?_append_right (by omega), Nat.add_sub_cancel_left]; exact he)
      rwa [show G.L0.length + (X.length - 1) + 1 = G.L0.length + X.length by omega] at this
  have hup : UpToDate lg (s.node p).log := by
    have k1 := key lg (hr.inv.reqMatched _ _ _ m1)
    have k2 := key _ (hr.inv.nodeMatched p)
    unfold UpToDate
    rcases k1 with ⟨_, a2, a3, a4⟩ | ⟨a1, a2, a3⟩ <;> rcases k2 with ⟨_, b2, b3, b4⟩ | ⟨b1, b2, b3⟩ <;> omega
  have hstep : Abs.LStep G.Q p s.net (s.node p) [.voteGrant (s.node p).term p im.src] { s.node p with vote := im.src } := by
    refine .grant im.src lg m1 ?_ hup
    rw [← hn.vote]
    exact h4.symm
  refine .one hstep ?_ ?_
  · refine hn.sameLog rfl rfl rfl rfl rfl hn.term rfl hn.role (fun hc v hv => mem_old (hn.votes hc v hv)) fun hl v pr hp => ?_
    exact ⟨(hn.prs hl v pr hp).1, (hn.prs hl v pr hp).2.mono fun _ h => mem_old h⟩
  · intro m hm
    rw [List.mem_singleton.1 hm]
    intro _
    rw [mem_upd, hterm, hn.term, hn.id]
    simp

theorem recordVote_find {votes : AMap Bool} {id v : Nat} {b : Bool} (h : (recordVote votes id b).find v = some true) :
    votes.find v = some true ∨ (v = id ∧ b = true) := by
  unfold recordVote at h
  split at h
  · rw [AMap.find_insert] at h
    split at h
    · rename_i he
      simp only [Option.some.injEq] at h
      exact Or.inr ⟨he.symm, h⟩
    · exact Or.inl h
  · exact Or.inl h

theorem append_same {l l' : RaftLog} {es : List Entry} (h : l.append es = .ok l') :
    l'.storage = l.storage ∧ l'.committed = l.committed ∧ l'.unstable.snapshot = l.unstable.snapshot := by
  unfold RaftLog.append at h
  split at h
  · cases h; exact ⟨rfl, rfl, rfl⟩
  · dsimp only at h
    split at h
    · cases h
    · obtain ⟨u, h1, h⟩ := Res.bind_eq_ok.1 h
      cases h
      refine ⟨rfl, rfl, ?_⟩
      unfold Unstable.truncateAndAppend at h1
      dsimp only at h1
      split at h1
      · cases h1; rfl
      · split at h1
        · cases h1; rfl
        · split at h1
          · cases h1
          · cases h1; rfl

/-- Only voters think they may run. -/
def _root_.Craft.Cluster.Gen.May (G : Gen) (c : Core) : Prop :=
  (∀ v pr, c.progress.find v = some pr → pr.isLearner = false → G.Q.may v) ∧ (c.state = .preCandidate → G.Q.may c.id)

include him in
theorem step_may {c' : Core} {ms : List Message} (h : CStep env im c ms c') (hm : G.May c) : G.May c' := by
  have rel : ∀ {R : Nat → Progress → Progress → Prop} {P : ProgressMap}, PrsRel R c.progress P → (∀ v q q', R v q q' → q'.isLearner = q.isLearner) →
      ∀ v pr, P.find v = some pr → pr.isLearner = false → G.Q.may v := by
    intro R P hP hR v pr hf hl
    obtain ⟨p0, f1, f2⟩ := hP.find_some' hf
    exact hm.1 v p0 f1 (by rw [← hR _ _ _ f2]; exact hl)
  have ins : ∀ {v0 : Nat} {q q' : Progress}, c.progress.find v0 = some q → q'.isLearner = q.isLearner →
      ∀ v pr, (c.progress.insert v0 q').find v = some pr → pr.isLearner = false → G.Q.may v := by
    intro v0 q q' hf hq v pr hp hl
    rw [AMap.find_insert] at hp
    split at hp
    · rename_i he
      cases hp
      exact he ▸ hm.1 _ _ hf (by rw [← hq]; exact hl)
    · exact hm.1 v pr hp hl
  have self : MayRun c → G.Q.may c.id := fun ⟨⟨q, h1, h2⟩, _⟩ => hm.1 _ q h1 h2
  have upd : ∀ (q : Progress) i, (q.maybeUpdate i).1.isLearner = q.isLearner := by
    intro q i
    unfold Progress.maybeUpdate
    split <;> rfl
  cases h with
  | emit he => exact hm
  | prs P hP => exact ⟨rel hP fun _ _ _ h => h.learner, hm.2⟩
  | follower T P hT hP => exact ⟨rel hP fun _ _ _ ⟨_, _, _, h, _⟩ => h, fun h => by cases h⟩
  | candidate P hc hl hP hmay => exact ⟨rel hP fun _ _ _ ⟨_, _, _, h, _⟩ => h, fun h => by cases h⟩
  | preCandidate hc hl hmay => exact ⟨hm.1, fun _ => self hmay⟩
  | leader P hc ht hP => exact ⟨rel hP fun _ _ _ ⟨_, _, _, h, _⟩ => h, fun h => by cases h⟩
  | append es l pr pci hst ha hf _ => exact ⟨ins hf (upd _ _), hm.2⟩
  | ackRecv q q' hst hty hrej hg hf hmt hle hok => exact ⟨ins hf hle, hm.2⟩
  | recvSnap cfg P0 q mi h1 h2 h3 h4 h5 h6 h7 =>
    unfold MsgOk at him
    rw [h2] at him
    obtain ⟨s0, e1, _, _, _, e2, _⟩ := him
    rw [e1, Option.getD_some, e2.conf] at h6
    have hr := (G.restore _ _ _ _ h6).2
    refine ⟨fun v pr hp hl => ?_, hm.2⟩
    dsimp only at hp
    rw [AMap.find_insert] at hp
    split at hp
    · rename_i he
      cases hp
      exact he ▸ hr _ _ h7 (by rw [← upd]; exact hl)
    · exact hr v pr hp hl
  | _ => exact hm

include hr hn him in
theorem step_done {c' : Core} {ms : List Message} (h : CStep env im c ms c') (hmy : G.May c) (hto : im.type = .voteResp ∨ im.type = .heartbeat → im.to = p) :
    G.Done s p c' ms := by
  have hli := (h.linv (msgOk_appWF hr him) hn.linv).1
  have hlast := hn.last_eq
  cases h with
  | emit he => exact emit_done hr hn him he
  | prs P hP =>
    refine .same (hn.sameLog rfl rfl rfl rfl rfl hn.term hn.vote hn.role hn.votes fun hl v pr hp => ?_) (by intro m hm; cases hm)
    obtain ⟨p0, f1, f2⟩ := hP.find_some' hp
    obtain ⟨g1, g2⟩ := hn.prs hl _ _ f1
    exact ⟨f2.ok hn.linv.wf (by rw [hlast]; exact hn.snap.le) g1, by rw [f2.mtch]; exact g2⟩
  | follower T P hT hP =>
    by_cases ht : T = c.term
    · refine .one .down (hn.sameLog rfl rfl rfl rfl rfl ?_ ?_ rfl (fun h => ?_) (fun h => ?_)) (by intro m hm; cases hm)
      · dsimp only; rw [ht, hn.term]
      · dsimp only; rw [if_pos ht, hn.vote]
      · cases h
      · cases h
    · refine .one (.term T (by rw [← hn.term]; omega)) (hn.sameLog rfl rfl rfl rfl rfl rfl ?_ rfl (fun h => ?_) (fun h => ?_)) (by intro m hm; cases hm)
      · dsimp only; rw [if_neg ht]
      · cases h
      · cases h
  | candidate P hc hl hP hmay =>
    have hrole : (s.node p).role ≠ .leader := by
      rw [← hn.role]
      revert hl
      cases c.state <;> simp [roleOf]
    have hmp : G.Q.may p := by
      rw [← hn.id]
      rcases hmay with hp | ⟨⟨q, h1, h2⟩, _⟩
      · exact hmy.2 hp
      · exact hmy.1 _ q h1 h2
    refine .one (.cand hn.idne hmp hrole) (hn.sameLog rfl rfl rfl rfl rfl ?_ ?_ rfl (fun h v hv => ?_) (fun h => ?_)) (by intro m hm; cases hm)
    · dsimp only; rw [hn.term]
    · exact hn.id
    · cases hv
    · cases h
  | preCandidate hc hl hmay =>
    refine .one .down (hn.sameLog rfl rfl rfl rfl rfl hn.term hn.vote rfl (fun h => ?_) (fun h => ?_)) (by intro m hm; cases hm)
    · cases h
    · cases h
  | pollSelf hc =>
    refine .same (hn.sameLog rfl rfl rfl rfl rfl hn.term hn.vote hn.role (fun h v hv => ?_) hn.prs) (by intro m hm; cases hm)
    rcases recordVote_find hv with hv | ⟨hv, _⟩
    · exact hn.votes h v hv
    · rw [hv, hn.id]
      exact (hr.aux.cand p (by rw [← hn.role, show c.state = .candidate from h]; rfl)).2
  | pollResp hc hg =>
    refine .same (hn.sameLog rfl rfl rfl rfl rfl hn.term hn.vote hn.role (fun h v hv => ?_) hn.prs) (by intro m hm; cases hm)
    rcases recordVote_find hv with hv | ⟨hv, hb⟩
    · exact hn.votes h v hv
    · rcases hc with ⟨_, hty⟩ | ⟨hst, _⟩
      · unfold MsgOk at him
        rw [hty] at him
        have hrej : im.reject = false := by simpa using hb
        have hgr := him hrej
        rw [hto (Or.inl hty)] at hgr
        rw [hv]
        have hne : im.term ≠ 0 := by
          obtain ⟨lg, hrq, _⟩ := hr.inv.grantReq _ _ _ hgr
          have := hr.aux.req _ _ _ hrq; omega
        have : im.term = c.term := by
          rcases hg with h | h | ⟨_, h | h⟩
          · exact absurd h hne
          · exact h
          · rw [hty] at h; cases h
          · rw [hty] at h; exact absurd h.1 (nomatch ·)
        rw [← hn.term, ← this]; exact hgr
      · rw [show c.state = .candidate from h] at hst; cases hst
  | leader P hc ht hP =>
    have hrole : (s.node p).role = .candidate := by rw [← hn.role, hc]; rfl
    have hq : G.Q.isQ fun v => c.votes.find v = some true := by
      have : c.config.voters.voteResult c.votes = .won := ht
      rw [hn.config] at this
      exact joint_won G.ne this
    refine .one (.win _ hrole hq fun u hu => hn.votes hc u hu)
      (hn.sameLog rfl rfl rfl rfl rfl hn.term hn.vote rfl (fun h => ?_) (fun _ v pr hp => ?_)) (by intro m hm; cases hm)
    · cases h
    · obtain ⟨p0, f1, f2⟩ := hP.find_some' hp
      obtain ⟨this, f3, f4, _, _⟩ := f2
      refine ⟨⟨by rw [f3]; omega, by rw [f3]; omega, by rw [this]; split <;> omega, by rw [f4]; omega⟩, ?_⟩
      rw [this]
      split
      · rename_i he
        rw [he, hn.id, hlast]
        refine Or.inr ⟨_, Nat.le_refl _, ?_⟩
        rw [mem_upd]; simp
      · exact Or.inl (Nat.zero_le _)
  | append es l pr pci hst ha hf _ =>
    have hrole := hn.leader_role hst
    obtain ⟨v1, v2⟩ := Raft.append_view hn.linv.wf _ ha
    obtain ⟨x1, x2, x3⟩ := append_same ha
    generalize hES : Raft.stamp c.term (c.log.lastIndex + 1) es = ES at *
    have hcont : Contig ((G.L0 ++ (s.node p).log).length + 1) ES := by
      rw [← hES, List.length_append, hlast]; exact Raft.stamp_contig _ _ _
    have hterms : ∀ e ∈ ES, e.term = (s.node p).term := by
      intro e he
      obtain ⟨k, hk⟩ := List.getElem?_of_mem he
      rw [← hES] at hk
      obtain ⟨e0, _, rfl⟩ := Raft.stamp_getElem hk
      exact hn.term
    have hnl : l.lastIndex = G.L0.length + ((s.node p).log ++ ES).length := by
      rw [v1.lastIndex_eq, v2, ← (hn.log.push hcont).len, List.append_assoc, List.length_append]
    have hpl : (s.node p).log.take (s.node p).log.length <+: (s.node p).log ++ ES := by
      rw [List.take_of_length_le (Nat.le_refl _)]; exact List.prefix_append _ _
    have hge : c.log.lastIndex ≤ l.lastIndex := by rw [hnl, hlast, List.length_append]; omega
    refine .one (.append ES hrole hterms) ⟨hn.id, hn.idne, hn.term, hn.vote, hn.role, hli, ?_, ?_, hn.config, fun h => ?_, fun _ v q hq => ?_, ?_, ?_⟩
      (by intro m hm; cases hm)
    · show LogRel (G.L0 ++ ((s.node p).log ++ ES)) l.view
      rw [v2, ← List.append_assoc]
      exact hn.log.push hcont
    · show l.committed = _
      rw [x2]; exact hn.commit
    · rw [show c.state = .candidate from h] at hst; cases hst
    · dsimp only at hq ⊢
      rw [AMap.find_insert] at hq
      split at hq
      · rename_i he
        simp only [Option.some.injEq] at hq
        have hv : v = p := by rw [← he, hn.id]
        subst hv
        obtain ⟨g1, g2⟩ := hn.prs hst _ _ (hn.id ▸ hf)
        obtain ⟨e1, e2, e3⟩ : q.next = max pr.next (l.lastIndex + 1) ∧ q.mtch = max pr.mtch l.lastIndex ∧
            q.pendingSnapshot = pr.pendingSnapshot := by
          rw [← hq]; unfold Progress.maybeUpdate
          by_cases hlt : pr.mtch < l.lastIndex
          · simp only [if_pos hlt]; exact ⟨trivial, by omega, trivial⟩
          · simp only [if_neg hlt]; exact ⟨trivial, by omega, trivial⟩
        have := g1.next_pos
        have := g1.next_le
        have := g1.mtch_le
        have := g1.pend_le
        refine ⟨⟨by omega, by omega, by omega, by omega⟩, Or.inr ⟨((s.node v).log ++ ES).length, by omega, ?_⟩⟩
        rw [mem_upd]; simp
      · obtain ⟨g1, g2⟩ := hn.prs hst _ _ hq
        have := g1.next_le
        have := g1.mtch_le
        have := g1.pend_le
        exact ⟨⟨g1.next_pos, by omega, by omega, by omega⟩, g2.mono fun _ h => mem_old h⟩
    · show G.SnapOk ((s.node p).log ++ ES) l.snapshot
      rw [show l.snapshot = c.log.snapshot by unfold RaftLog.snapshot; rw [x1, x3]]
      exact hn.snap.keep hn.snap.le (Nat.le_refl _) hpl
    · show G.SnapOk ((s.node p).log ++ ES) l.storage.snapshot
      rw [x1]
      exact hn.stsnap.keep hn.stsnap.le (Nat.le_refl _) hpl
  | pciUp n hst _ =>
    exact .same (hn.sameLog rfl rfl rfl rfl rfl hn.term hn.vote hn.role hn.votes hn.prs) (by intro m hm; cases hm)
  | commit l hst hc =>
    have hrole := hn.leader_role hst
    have hcom := hn.commit
    have hli' := hli
    rw [hn.linv.wf.maybeCommit_eq] at hc
    by_cases hcond : c.log.committed < c.quorumIndex ∧ c.log.view.termAt c.quorumIndex = c.term
    case neg =>
      rw [if_neg hcond] at hc
      simp only [Res.ok.injEq, Prod.mk.injEq] at hc
      exact absurd hc.2 (nomatch ·)
    rw [if_pos hcond] at hc
    split at hc
    · cases hc
    rename_i hle
    simp only [Res.ok.injEq, Prod.mk.injEq, and_true] at hc
    subst hc
    generalize hm : c.quorumIndex = m at *
    obtain ⟨k1, k2⟩ := hcond
    rw [hn.linv.wf.lastIndex_eq] at hlast
    rw [hn.log.termAt (by have := hn.linv.base_com; omega)] at k2
    have hek : (s.node p).log[m - 1 - G.L0.length]? = some ((s.node p).log[m - 1 - G.L0.length]'(by omega)) := List.getElem?_eq_getElem _
    have het : ((s.node p).log[m - 1 - G.L0.length]'(by omega)).term = (s.node p).term := by
      rw [← hn.term, ← k2]
      have := gterm_some (L := G.L0 ++ (s.node p).log) (i := m - 1) (e := (s.node p).log[m - 1 - G.L0.length]'(by omega)) (by
        rw [List.getElem?_append_right (by omega)]; exact hek)
      rw [show m - 1 + 1 = m by omega] at this
      exact this.symm
    have hq : G.Q.isQ fun v => m ≤ ((c.progress.find v).map (·.mtch)).getD 0 := by
      apply joint_acked G.ne
      rw [← hn.config]
      exact Nat.le_of_eq hm.symm
    refine .one (.commitL (m - 1 - G.L0.length) _ _ hrole (by omega) hek het hq fun u hu => ?_) ?_ (by intro m hm; cases hm)
    · cases hf : c.progress.find u with
      | none => rw [hf] at hu; simp at hu; omega
      | some q =>
        rw [hf] at hu
        simp only [Option.map_some, Option.getD_some] at hu
        rcases (hn.prs hst _ _ hf).2 with h | ⟨j, j1, j2⟩
        · omega
        · exact ⟨j, by omega, j2⟩
    · refine ⟨hn.id, hn.idne, hn.term, hn.vote, hn.role, hli', hn.log, ?_, hn.config, fun h => ?_, fun _ v q hq => ?_, hn.snap, hn.stsnap⟩
      · dsimp only; omega
      · rw [show c.state = .candidate from h] at hst; cases hst
      · exact ⟨(hn.prs hst v q hq).1, (hn.prs hst v q hq).2.mono fun _ h => mem_old h⟩
  | ackRecv q q' hst hty hrej hg hf hmt _ hok =>
    refine .same (hn.sameLog rfl rfl rfl rfl rfl hn.term hn.vote hn.role hn.votes fun hl v pr hp => ?_) (by intro m hm; cases hm)
    unfold MsgOk at him
    rw [hty] at him
    have hack := him hrej
    dsimp only at hp
    rw [AMap.find_insert] at hp
    by_cases he : im.src = v
    case neg =>
      rw [if_neg he] at hp
      exact hn.prs hst _ _ hp
    rw [if_pos he] at hp
    simp only [Option.some.injEq] at hp
    subst hp
    subst he
    obtain ⟨g1, g2⟩ := hn.prs hst _ _ hf
    have hack' : G.AckOk s.net (s.node p).term im.src im.index := by
      rcases hack with h | ⟨j, j1, j2⟩
      · exact Or.inl h
      · have h0 : im.term ≠ 0 := by
          obtain ⟨_, c0, lg, hl, _⟩ := hr.inv.ackLead _ _ _ j2
          have := (hr.inv.leadOk _ _ _ hl).1; omega
        have : im.term = c.term := by
          rcases hg with h | h | ⟨_, h | h⟩
          · exact absurd h h0
          · exact h
          · rw [hty] at h; cases h
          · rw [hty] at h; exact absurd h.1 (nomatch ·)
        rw [this, hn.term] at j2
        exact Or.inr ⟨j, j1, j2⟩
    have hile : im.index ≤ c.log.lastIndex := by
      rw [hlast]
      rcases hack' with h | ⟨j, j1, j2⟩
      · omega
      · obtain ⟨_, c0, lg, hl, hj⟩ := hr.inv.ackLead _ _ _ j2
        obtain ⟨n1, n2⟩ := hr.inv.leadNode p (hn.leader_role hst)
        obtain ⟨rfl, _⟩ := hr.inv.leadSame n1 hl
        have := (n2 lg hl).length_le
        omega
    refine ⟨hok hile g1, ?_⟩
    rw [hmt]
    rcases Nat.le_total q.mtch im.index with h | h
    · rw [Nat.max_eq_right h]; exact hack'
    · rw [Nat.max_eq_left h]; exact g2
  | grant h1 h2 h3 h4 h5 => exact grant_done hr hn him h1 h2 h3 h4 h5
  | recvApp l last h1 h2 h3 h4 h5 => exact recvApp_done hr hn him hli h1 h2 h3 h4 h5
  | recvHeartbeat l h1 h2 h3 h4 => exact recvHeartbeat_done hr hn him (hto (Or.inr h2)) hli h1 h2 h3 h4
  | recvSnapCommit l h1 h2 h3 h4 h5 h6 => exact recvSnapCommit_done hr hn him hli h1 h2 h3 h5 h6
  | recvSnap cfg P0 q mi h1 h2 h3 h4 h5 h6 h7 => exact recvSnap_done hr hn him hli h1 h2 h3 h4 h5 h6
  | _ => exact .same (hn.sameLog rfl rfl rfl rfl rfl hn.term hn.vote hn.role hn.votes hn.prs) (by intro m hm; cases hm)

end

theorem path_done {env : Env} {im : Message} {c' : Core} {ms : List Message} (h : CPath env im c ms c') (hr : AReach G.Q G.τ s)
    (hn : G.NodeRel p s.net c (s.node p)) (him : G.MsgOk s.net im) (hmy : G.May c)
    (hto : im.type = .voteResp ∨ im.type = .heartbeat → im.to = p) : G.Done s p c' ms ∧ G.May c' := by
  induction h generalizing s with
  | nil => exact ⟨.same hn (by intro m hm; cases hm), hmy⟩
  | cons hs _ ih =>
    obtain ⟨s1, p1, n1, m1⟩ := step_done hr hn him hs hmy hto
    obtain ⟨⟨s2, p2, n2, m2⟩, hmy2⟩ := ih (p1.reach hr) n1 (him.mono p1.net) (step_may him hs hmy)
    refine ⟨?_, hmy2⟩
    refine ⟨s2, p1.trans p2, n2, fun m hm => ?_⟩
    rcases List.mem_append.1 hm with h | h
    · exact (m1 m h).mono p2.net
    · exact m2 m h

end Gen
end Craft.Cluster
