import Verif.Dyn.Rel

/-! # Every elementary step of a node is a sequence of steps of the abstract protocol with membership changes -/

namespace Craft.Dyn
open Spec
open Abs (UpToDate accept take_eq_of_prefix prefix_accept_left prefix_accept_right prefix_getElem?_some)
open Cluster (gterm LogRel gterm_some gterm_prefix gterm_out gterm_ne append_take append_prefix joint_won joint_acked)
open Cluster.Gen (recordVote_find append_same)

theorem append_applied {l l' : RaftLog} {es : List Entry} (h : l.append es = .ok l') : l'.applied = l.applied := by
  unfold RaftLog.append at h
  split at h
  · cases h; rfl
  · dsimp only at h
    split at h
    · cases h
    · obtain ⟨u, _, h⟩ := Res.bind_eq_ok.1 h
      cases h
      rfl

theorem stamp_nconf {T i : Nat} {es : List Entry} : nconf (Raft.stamp T i es) = nconf es := by
  induction es generalizing i with
  | nil => rfl
  | cons e es ih =>
    unfold Raft.stamp nconf
    rw [List.countP_cons, List.countP_cons]
    exact congrArg (· + _) ih

theorem _root_.Craft.LInv.no_snap {c : Core} (h : LInv c.log) (hp : NoPend c) : c.log.unstable.snapshot = none := by
  cases hs : c.log.unstable.snapshot with
  | none => rfl
  | some sn =>
    have := (h.pend sn hs).1
    have := hp.1 sn hs
    omega

/-- Sending heartbeats, appending and committing keep what holds in the middle of a Ready. -/
theorem LCore.step {env : Env} {im : Message} {c c' : Core} {ms : List Message} (hl : LCore c.log) (h : CStep env im c ms c')
    (hi : im.type = .beat) : LCore c'.log := by
  cases h with
  | append es l p pci h1 h2 h3 h4 =>
    obtain ⟨v1, v2⟩ := Raft.append_view hl.wf _ h2
    obtain ⟨x1, x2, x3⟩ := append_same h2
    have x4 := append_applied h2
    refine ⟨v1, by rw [x4, x2]; exact hl.app_com, ?_, ?_, by rw [x1, x2]; exact hl.snap_com⟩
    · have := hl.com_last
      rw [v2, x2]
      unfold LogView.push LogView.last at *
      dsimp only at *
      rw [List.length_append]; omega
    · rw [v2, x2]; exact hl.base_com
  | commit l h1 h2 =>
    rw [hl.wf.maybeCommit_eq] at h2
    split at h2
    · split at h2
      · cases h2
      · rename_i hc hle
        simp only [Res.ok.injEq, Prod.mk.injEq, and_true] at h2
        subst h2
        have h1 := hl.app_com
        have h2 := hl.base_com
        have h3 := hl.snap_com
        have h4 := hl.com_last
        exact ⟨hl.wf.with_committed _, by dsimp only; omega, by show c.quorumIndex ≤ c.log.view.last; omega,
          by show c.log.view.base ≤ c.quorumIndex; omega, by dsimp only; omega⟩
    · simp only [Res.ok.injEq, Prod.mk.injEq] at h2
      exact absurd h2.2 (nomatch ·)
  | recvApp l last h1 h2 => rw [hi] at h2; cases h2
  | recvHeartbeat l h1 h2 => rw [hi] at h2; cases h2
  | recvSnapCommit l h1 h2 => rw [hi] at h2; cases h2
  | recvSnap cfg P0 p mi h1 h2 => rw [hi] at h2; cases h2
  | _ => exact hl

theorem _root_.Craft.CStep.config_eq {env : Env} {im : Message} {c c' : Core} {ms : List Message} (h : CStep env im c ms c') (hi : im.type ≠ .snap) :
    c'.config = c.config := by
  cases h with
  | recvSnap cfg P0 p mi h1 h2 => exact absurd h2 hi
  | _ => rfl

theorem _root_.Craft.CPath.config_eq {env : Env} {im : Message} {c c' : Core} {ms : List Message} (h : CPath env im c ms c') (hi : im.type ≠ .snap) :
    c'.config = c.config := by
  induction h with
  | nil => rfl
  | cons hs _ ih => rw [ih, hs.config_eq hi]

namespace MGen
variable {G : MGen} {s : DState} {p k0 : Nat} {c : Core} {N : List DMsg}

theorem terms_ne (hr : G.Run s) {X : List Entry} (hm : Matched s.net X) : ∀ e ∈ G.L0 ++ X, e.term ≠ 0 := by
  intro e he
  rcases List.mem_append.1 he with h | h
  · exact G.terms e h
  · have := hr.matched_gt hm h; omega

theorem gmatch (hr : G.Run s) {X Y : List Entry} (hx : Matched s.net X) (hy : Matched s.net Y) {i : Nat}
    (h1 : i ≤ (G.L0 ++ X).length) (h2 : i ≤ (G.L0 ++ Y).length) (ht : gterm (G.L0 ++ X) i = gterm (G.L0 ++ Y) i) :
    (G.L0 ++ X).take i = (G.L0 ++ Y).take i := by
  by_cases hi : i ≤ G.L0.length
  · rw [List.take_append_of_le_length hi, List.take_append_of_le_length hi]
  · rw [List.length_append] at h1 h2
    rw [append_take (by omega), append_take (by omega)]
    have e1 : X[i - G.L0.length - 1]? = some (X[i - G.L0.length - 1]'(by omega)) := List.getElem?_eq_getElem _
    have e2 : Y[i - G.L0.length - 1]? = some (Y[i - G.L0.length - 1]'(by omega)) := List.getElem?_eq_getElem _
    have g : ∀ Z : List Entry, ∀ e, Z[i - G.L0.length - 1]? = some e → gterm (G.L0 ++ Z) i = e.term := by
      intro Z e he
      have := gterm_some (L := G.L0 ++ Z) (i := i - 1) (e := e) (by
        rw [List.getElem?_append_right (by omega), show i - 1 - G.L0.length = i - G.L0.length - 1 by omega]; exact he)
      rwa [show i - 1 + 1 = i by omega] at this
    rw [g _ _ e1, g _ _ e2] at ht
    have := hr.inv.matching hx hy e1 e2 ht
    rw [show i - G.L0.length - 1 + 1 = i - G.L0.length by omega] at this
    rw [this]

theorem CommitOk.le {T k k' : Nat} {lg : List Entry} (h : G.CommitOk N T lg k) (hk : k' ≤ k) : G.CommitOk N T lg k' := by
  rcases h with h | ⟨h1, h2⟩
  · exact Or.inl (by omega)
  · exact Or.inr ⟨by omega, h2.prefix (List.take_prefix_take_left (by omega))⟩

theorem AckOk.le {T v i i' : Nat} (h : G.AckOk N T v i) (hk : i' ≤ i) : G.AckOk N T v i' := by
  rcases h with h | ⟨j, h1, h2⟩
  · exact Or.inl (by omega)
  · exact Or.inr ⟨j, by omega, h2⟩

theorem SnapOk.keep {lg lg' : List Entry} {sn : Snapshot} (h : G.SnapOk lg sn) {k : Nat} (hle : sn.metadata.index ≤ G.L0.length + k)
    (hk : k ≤ lg.length) (hp : lg.take k <+: lg') : G.SnapOk lg' sn := by
  have hl : (lg.take k).length = k := by rw [List.length_take]; omega
  have := hp.length_le
  refine ⟨by omega, ?_, ?_⟩
  rotate_left
  · obtain ⟨cfg, h1, h2⟩ := h.conf
    exact ⟨cfg, h1.congr (by rw [take_eq_of_prefix hp (by omega), List.take_take, Nat.min_eq_left (by omega)]), h2⟩
  rw [h.term, gterm_prefix (append_prefix.2 hp) (by rw [List.length_append]; omega),
    gterm_prefix (append_prefix.2 (List.take_prefix k lg)) (by rw [List.length_append]; omega)]

/-- What a node has committed is covered by something chosen. -/
theorem commitOk_self (hr : G.Run s) (v : Nat) : G.CommitOk s.net (s.node v).term (s.node v).log (G.L0.length + (s.node v).commit) := by
  obtain ⟨_, h1, h2⟩ := hr.inv.commitOk v
  exact Or.inr ⟨by omega, by rw [Nat.add_sub_cancel_left]; exact h2⟩

/-- The committed prefix survives `accept` of a prefix of the leader's log. -/
theorem commit_accept0 (hr : DReach G.Q G.τ s) {v c0 : Nat} {lg full : List Entry} (hl : DMsg.lead (s.node v).term c0 lg ∈ s.net)
    (hf : full <+: lg) : (s.node v).log.take (s.node v).commit <+: accept (s.node v).log full := by
  have hc := (hr.inv.commitOk v).2.1
  obtain ⟨lg2, l1, l2, l3⟩ := commit_lead (LStep.down (Q := G.Q) (v := v) (N := s.net)) hr.inv hl
  have he : (s.node v).log.take (s.node v).commit = lg2.take (s.node v).commit := by
    rw [take_eq_of_prefix l3 (by rw [List.length_take]; omega), List.take_take, Nat.min_self]
  rw [he]
  exact prefix_accept_left l3 (hr.inv.lead_cmp l1 hl (List.take_prefix _ _) hf)

theorem commit_accept (hr : G.Run s) {v c0 : Nat} {lg full : List Entry} (hl : DMsg.lead (s.node v).term c0 lg ∈ s.net)
    (hf : full <+: lg) : (s.node v).log.take (s.node v).commit <+: accept (s.node v).log full := commit_accept0 hr.reach hl hf

theorem msgOk_term {im : Message} (hr : G.Run s) (him : G.MsgOk s.net im) (hty : im.type = .app ∨ im.type = .snap ∨ im.type = .heartbeat) :
    im.term ≠ 0 ∧ ∃ c0 lg, DMsg.lead im.term c0 lg ∈ s.net := by
  have key : ∀ c0 lg, DMsg.lead im.term c0 lg ∈ s.net → im.term ≠ 0 ∧ ∃ c0 lg, DMsg.lead im.term c0 lg ∈ s.net := by
    intro c0 lg h
    have := (hr.inv.leadOk _ _ _ h).1
    exact ⟨by omega, c0, lg, h⟩
  unfold MsgOk at him
  rcases hty with h | h | h <;> rw [h] at him
  · obtain ⟨c0, lg, ⟨h, _⟩, _⟩ := him; exact key _ _ h
  · obtain ⟨_, _, c0, lg, ⟨h, _⟩, _⟩ := him; exact key _ _ h
  · obtain ⟨⟨c0, lg, ⟨h, _⟩, _⟩, _⟩ := him; exact key _ _ h

theorem gate_term {im : Message} (hr : G.Run s) (him : G.MsgOk s.net im) (hty : im.type = .app ∨ im.type = .snap ∨ im.type = .heartbeat)
    (hg : GateOk im c) : im.term = c.term := by
  have := (msgOk_term hr him hty).1
  unfold GateOk at hg
  rcases hg with h | h | ⟨_, h | h⟩
  · exact absurd h this
  · exact h
  · rcases hty with t | t | t <;> rw [t] at h <;> cases h
  · rcases hty with t | t | t <;> rw [t] at h <;> exact absurd h.1 (nomatch ·)

/-- Append messages of leaders are well formed. -/
theorem msgOk_appWF {im : Message} (hr : G.Run s) (him : G.MsgOk s.net im) : AppWF im := by
  intro hty
  unfold MsgOk at him
  rw [hty] at him
  obtain ⟨c0, lg, ⟨h1, _⟩, h2, h3, h4, h5, h6, _⟩ := him
  have hne := terms_ne hr (hr.inv.leadMatched _ _ _ h1)
  obtain ⟨t, ht⟩ := h3
  refine ⟨?_, ?_, ?_⟩
  · have : Contig 1 ((G.L0 ++ lg).take im.index ++ im.entries) := by rw [← ht] at h6; exact h6.left
    have := this.right
    rwa [List.length_take, Nat.min_eq_left h2, Nat.add_comm] at this
  · intro e he
    apply hne
    rw [← ht]
    simp [he]
  · intro h0
    by_cases hi : im.index = 0
    · exact hi
    · rw [h4] at h0
      exact absurd h0 (gterm_ne hne (by omega) h2)

end MGen

/-- The committed part, the term and the vote of a node survive its own steps. -/
theorem path_keep {G : MGen} {g s : DState} {p : Nat} (hg : G.Run g) (h : PPath G.Q p g s) :
    (g.node p).commit ≤ (s.node p).commit ∧ (g.node p).log.take (g.node p).commit <+: (s.node p).log ∧
    ((s.node p).term = (g.node p).term → (g.node p).vote ≠ 0 → (s.node p).vote = (g.node p).vote) := by
  induction h with
  | nil => exact ⟨Nat.le_refl _, List.take_prefix _ _, fun _ _ => rfl⟩
  | @snoc s out a hp hs ih =>
    obtain ⟨i1, i2, i3⟩ := ih
    have hr := hp.reach hg.reach
    have ht := hp.term_le
    rw [upd_self]
    have hc := (hr.inv.commitOk p).2.1
    have hcg := (hg.inv.commitOk p).2.1
    cases hs with
    | term T h => exact ⟨i1, i2, fun he _ => by dsimp only at he; omega⟩
    | down => exact ⟨i1, i2, i3⟩
    | conf k h1 h2 => exact ⟨i1, i2, i3⟩
    | cand h1 h2 h3 => exact ⟨i1, i2, fun he _ => by dsimp only at he; omega⟩
    | grant c lg cf h1 h2 h3 =>
      refine ⟨i1, i2, fun he hv => ?_⟩
      dsimp only at he ⊢
      have := i3 he hv
      rcases h2 with h2 | h2
      · rw [this] at h2; exact absurd h2 hv
      · rw [← h2, this]
    | win S h1 h2 h3 => exact ⟨i1, i2, i3⟩
    | append es h1 h2 => exact ⟨i1, i2.trans (List.prefix_append _ _), i3⟩
    | recv c lg full k h1 h2 h3 =>
      refine ⟨Nat.le_trans i1 (Nat.le_max_left _ _), ?_, i3⟩
      refine List.IsPrefix.trans ?_ (MGen.commit_accept0 hr h2 h3)
      exact List.prefix_take_iff.2 ⟨i2, by rw [List.length_take]; omega⟩
    | ackCommit c lg h => exact ⟨i1, i2, i3⟩
    | commitL k e S h1 h2 h3 h4 h5 h6 => exact ⟨Nat.le_trans i1 h2, i2, i3⟩
    | commitF c h1 h2 h3 h4 => exact ⟨Nat.le_trans i1 h2, i2, i3⟩


theorem PPath.run {G : MGen} {g s : DState} {p : Nat} (h : PPath G.Q p g s) (hg : G.Run g) : G.Run s := by
  refine ⟨h.reach hg.reach, fun q hq => ?_, ?_⟩
  · obtain ⟨h1, h2⟩ := hg.founder q hq
    by_cases hqp : q = p
    · subst hqp
      exact ⟨Nat.le_trans h1 h.term_le, Nat.le_trans h2 (path_keep hg h).1⟩
    · rw [h.other hqp]; exact ⟨h1, h2⟩
  · exact hg.boot.imp id fun ⟨cf, hc⟩ => ⟨cf, h.net _ hc⟩

namespace MGen
variable {G : MGen} {s : DState} {p k0 : Nat} {c : Core} {N : List DMsg}

/-! ## The step lemma -/

/-- The step of the node is matched by steps of the abstract node, and what it sends is backed by published facts. -/
def Done (G : MGen) (s : DState) (p k0 : Nat) (c' : Core) (ms : List Message) : Prop :=
  ∃ s', PPath G.Q p s s' ∧ G.NodeRel p k0 s'.net c' (s'.node p) ∧ ∀ m ∈ ms, G.MsgOk s'.net m

theorem Done.same {c' : Core} {ms : List Message} (h : G.NodeRel p k0 s.net c' (s.node p)) (hm : ∀ m ∈ ms, G.MsgOk s.net m) : G.Done s p k0 c' ms :=
  ⟨s, .nil, h, hm⟩

theorem Done.one {c' : Core} {ms : List Message} {out a'} (hs : LStep G.Q p s.net (s.node p) out a')
    (h : G.NodeRel p k0 (s.upd p a' out).net c' a') (hm : ∀ m ∈ ms, G.MsgOk (s.upd p a' out).net m) : G.Done s p k0 c' ms :=
  ⟨_, .single hs, by rw [upd_self]; exact h, hm⟩

/-- A step that leaves the log alone. -/
theorem NodeRel.sameLog {N N' : List DMsg} {c c' : Core} {a a' : DNode} (h : G.NodeRel p k0 N c a) (hid : c'.id = c.id) (hlog : c'.log = c.log)
    (hcfg : c'.config = c.config) (alog : a'.log = a.log) (acom : a'.commit = a.commit) (acnf : a'.conf = a.conf)
    (hterm : c'.term = a'.term) (hvote : G.VoteOk c'.vote a') (hst : c'.state = .follower ∨ c'.state = c.state ∨ G.B.length ≤ a.conf)
    (hrole : roleOf c'.state = a'.role) (hci : ConfInv c'.config c'.progress)
    (hvotes : c'.state = .candidate → G.τ1 < a'.term ∧ ∀ v, c'.votes.find v = some true → DMsg.voteGrant a'.term v p ∈ N')
    (hprs : c'.state = .leader → ∀ v pr, c'.progress.find v = some pr → PrOk c.log.lastIndex pr ∧ G.AckOk N' a'.term v pr.mtch)
    (hpre : c'.state = .preCandidate → (c.state = .preCandidate ∧ a.term ≤ a'.term) ∨
      (G.τ1 ≤ a'.term ∧ nconf (a.log.take a.commit) ≤ nconf (a.log.take a.conf)))
    (hpci : c'.state = .leader → (c.state = .leader ∧ c.pci ≤ c'.pci) ∨ c.log.lastIndex ≤ c'.pci)
    (hhigh : c'.state = .leader → (c.state = .leader ∧ a'.term = a.term) ∨ G.τ1 < a'.term := by first | exact fun h => Or.inl ⟨h, rfl⟩ | exact fun h => nomatch h) :
    G.NodeRel p k0 N' c' a' := by
  refine ⟨hid.trans h.id, h.idne, hterm, hvote, hrole, by rw [hlog]; exact h.lcore, by rw [hlog, alog]; exact h.log,
    by rw [hlog, acom]; exact h.commit, by rw [hcfg, alog, acnf]; exact h.config, fun he => ?_, hci, hvotes, by rw [hlog]; exact hprs,
    by rw [hlog, alog]; exact h.snap, by rw [hlog, alog]; exact h.stsnap, by rw [acnf, hlog]; exact h.pos, by rw [hlog]; exact h.app,
    by rw [hlog]; exact h.kcom, fun hp => ?_, fun hl i e hi he => ?_, fun hl => ?_⟩
  · rw [acnf] at he
    rcases hst with hst | hst | hst
    · exact hst
    · rw [hst]; exact h.early he
    · omega
  · rw [alog, acom, acnf]
    rcases hpre hp with ⟨h1, h2⟩ | h1
    · exact ⟨Nat.le_trans (h.pre h1).1 h2, (h.pre h1).2⟩
    · exact h1
  · rw [alog] at hi
    rcases hpci hl with ⟨h1, h2⟩ | h1
    · exact Nat.le_trans (h.pci h1 i e hi he) h2
    · have h3 := (List.getElem?_eq_some_iff.1 hi).1
      have h4 : c.log.lastIndex = G.L0.length + a.log.length := by rw [h.lcore.wf.lastIndex_eq, ← h.log.len, List.length_append]
      omega
  · rcases hhigh hl with ⟨h1, h2⟩ | h1
    · rw [h2]; exact h.high h1
    · exact h1

section
variable {env : Env} {im : Message} (hr : G.Run s) (hn : G.NodeRel p k0 s.net c (s.node p)) (him : G.MsgOk s.net im)

include hn in
theorem NodeRel.last_eq : c.log.lastIndex = G.L0.length + (s.node p).log.length := by
  rw [hn.lcore.wf.lastIndex_eq, ← hn.log.len, List.length_append]

include hn in
theorem NodeRel.base_le : c.log.view.base ≤ G.L0.length + (s.node p).commit := by
  have := hn.lcore.base_com
  rw [hn.commit] at this; exact this

include hn in
theorem NodeRel.leader_role (h : c.state = .leader) : (s.node p).role = .leader := by
  rw [← hn.role, h]; rfl

include hr hn in
theorem emit_leader_app {m : Message} (hty : m.type = .app) (he : Emit env im c m) : G.MsgOk s.net m := by
  unfold Emit at he
  unfold MsgOk
  rw [hty] at he ⊢
  dsimp only at he ⊢
  obtain ⟨h1, h2, h3, h4, _, pr, mx, h5, _, h6, h7, h8, _⟩ := he
  have hl := (hr.inv.leadNode p (hn.leader_role h3)).1
  obtain ⟨pok, _⟩ := hn.prs h3 _ _ h5
  have hwf := hn.lcore.wf
  have hlast := hn.last_eq
  have hle := hwf.lastIndex_eq
  have hb : c.log.view.base ≤ c.log.view.last := Nat.le_add_right _ _
  have p1 := pok.next_pos
  have p2 := pok.next_le
  have hidx : m.index = pr.next - 1 := by rw [h6]; unfold sub64; rw [if_pos (by omega)]
  rw [hwf.entries_eq] at h8
  have hbi : c.log.view.base ≤ m.index ∧ m.entries <+: (G.L0 ++ (s.node p).log).drop m.index := by
    split at h8
    · simp only [Res.ok.injEq, Except.ok.injEq] at h8
      rw [← h8]
      exact ⟨by omega, List.nil_prefix⟩
    · split at h8
      · cases h8
      · simp only [Res.ok.injEq, Except.ok.injEq] at h8
        refine ⟨by omega, ?_⟩
        rw [← h8]
        refine (limitSize_prefix _ _ _).trans ?_
        rw [hn.log.ents, List.drop_drop, show c.log.view.base + (pr.next - c.log.view.base - 1) = m.index by omega]
  refine ⟨p, (s.node p).log, ?_, by rw [List.length_append]; omega, ?_, ?_, ?_, hn.log.contig, ?_⟩
  rotate_right
  · rw [h4, hn.commit]
    have := hr.inv.nconfOk p
    have := nconf_take_le (s.node p).log (m.index + m.entries.length - G.L0.length)
    rcases Nat.le_total (G.L0.length + (s.node p).commit) (m.index + m.entries.length) with hle | hle
    · rw [Nat.min_eq_left hle, Nat.add_sub_cancel_left]; omega
    · rw [Nat.min_eq_right hle]; exact Nat.le_succ _
  · rw [h2, hn.term]; exact ⟨hl, by rw [h1, hn.id]⟩
  · obtain ⟨t, ht⟩ := hbi.2
    refine ⟨t, ?_⟩
    rw [List.append_assoc, ht, List.take_append_drop]
  · rw [hwf.term_eq] at h7
    simp only [Res.ok.injEq, Except.ok.injEq] at h7
    rw [← h7, hn.log.termAt hbi.1]
  · rw [h4, hn.commit, h2, hn.term]
    exact commitOk_self hr p

include hr hn him in
theorem emit_done {m : Message} (he : Emit env im c m) : G.Done s p k0 c [m] := by
  by_cases happ : m.type = .app
  · exact .same hn (by intro x hx; rw [List.mem_singleton.1 hx]; exact emit_leader_app hr hn happ he)
  have one : G.MsgOk s.net m → G.Done s p k0 c [m] := fun h => .same hn (by intro x hx; rw [List.mem_singleton.1 hx]; exact h)
  unfold Emit at he
  cases hty : m.type with
  | app => exact absurd hty happ
  | snap =>
    rw [hty] at he
    obtain ⟨h1, h2, h3, h4, h5, _⟩ := he
    apply one
    unfold MsgOk
    rw [hty]
    have hl := (hr.inv.leadNode p (hn.leader_role h3)).1
    refine ⟨_, h4, p, (s.node p).log, by rw [h2, hn.term]; exact ⟨hl, by rw [h1, hn.id]⟩, hn.snap, ?_, hn.log.contig⟩
    rw [h2, hn.term]
    refine (commitOk_self hr p).le ?_
    rw [← hn.commit]
    unfold RaftLog.snapshot
    split
    · rename_i sn hs
      have := hn.lcore.base_com
      rw [RaftLog.view_snap hs] at this
      exact this
    · exact hn.lcore.snap_com
  | heartbeat =>
    rw [hty] at he
    obtain ⟨h1, h2, h3, ⟨pr, h4, h5⟩, _⟩ := he
    apply one
    unfold MsgOk
    rw [hty]
    have hl := (hr.inv.leadNode p (hn.leader_role h3)).1
    refine ⟨⟨p, (s.node p).log, by rw [h2, hn.term]; exact ⟨hl, by rw [h1, hn.id]⟩, ?_⟩, ?_⟩
    · rw [h2, hn.term]
      refine (commitOk_self hr p).le ?_
      rw [← hn.commit, h5]; omega
    · rw [h2, hn.term]
      exact (hn.prs h3 _ _ h4).2.le (by omega)
  | vote =>
    rw [hty] at he
    obtain ⟨h1, h2, h3, h4, h5⟩ := he
    apply one
    unfold MsgOk
    rw [hty]
    have hc : (s.node p).role = .candidate := by rw [← hn.role, h3]; rfl
    obtain ⟨cf, hcf⟩ := (hr.aux.cand p hc).1
    refine ⟨(s.node p).log, cf, ?_, by rw [h4, hn.last_eq], ?_, by rw [h2, hn.term]; exact (hn.votes h3).1⟩
    · rw [h2, h1, hn.id, hn.term]; exact hcf
    · rw [hn.lcore.wf.lastTerm_eq] at h5
      simp only [Res.ok.injEq] at h5
      rw [← h5, h4, hn.lcore.wf.lastIndex_eq]
      exact hn.log.termAt (Nat.le_add_right _ _)
  | voteResp =>
    rw [hty] at he
    apply one
    unfold MsgOk
    rw [hty]
    intro h
    rw [he.2.2.1] at h; cases h
  | appResp =>
    rw [hty] at he
    obtain ⟨h1, h2, h3, h | h | h⟩ := he
    · apply one
      unfold MsgOk
      rw [hty]
      intro _
      exact Or.inl (by omega)
    · obtain ⟨e1, _, e3, e4, e5⟩ := h
      have e4' : im.type = .app ∨ im.type = .snap ∨ im.type = .heartbeat := by
        rcases e4 with e | e
        · exact Or.inl e
        · exact Or.inr (Or.inl e)
      obtain ⟨_, c0, lg, hl⟩ := msgOk_term hr him e4'
      rw [gate_term hr him e4' e5, hn.term] at hl
      have hstep : LStep G.Q p s.net (s.node p) [.ack (s.node p).term p (s.node p).commit] (s.node p) := .ackCommit c0 lg hl
      refine .one hstep (hn.mono fun _ h => mem_old h) ?_
      intro x hx
      rw [List.mem_singleton.1 hx]
      unfold MsgOk
      rw [hty]
      intro _
      refine Or.inr ⟨(s.node p).commit, by rw [e1, hn.commit], ?_⟩
      rw [h2, hn.term, h1, hn.id, mem_upd]
      simp
    · apply one
      unfold MsgOk
      rw [hty]
      intro hc
      rw [h.1] at hc; cases hc
  | _ => apply one; unfold MsgOk; rw [hty]; trivial

include hr hn him in
/-- A follower takes over a prefix of the leader's log. -/
theorem recvApp_done {l : RaftLog} {last : Nat} (hli : LCore l) (h1 : c.state = .follower) (h2 : im.type = .app) (h3 : GateOk im c)
    (h4 : c.log.committed ≤ im.index) (h5 : c.log.maybeAppend im.index im.logTerm im.commit im.entries = .ok (l, some last)) :
    G.Done s p k0 { c with log := l } [{ type := .appResp, «to» := im.src, src := c.id, term := c.term, index := last }] := by
  have hw := msgOk_appWF hr him h2
  have hterm := gate_term hr him (Or.inl h2) h3
  have him0 := him
  unfold MsgOk at him
  rw [h2] at him
  obtain ⟨c0, lg, ⟨m1, _⟩, m2, m3, m4, m5, m6, m7⟩ := him
  rw [hterm, hn.term] at m1 m5
  have hwf := hn.lcore.wf
  have hrole : (s.node p).role = .follower := by rw [← hn.role, h1]; rfl
  have hml := hr.inv.leadMatched _ _ _ m1
  have hma := hr.inv.nodeMatched p
  have hne := terms_ne hr hml
  have hcom := hn.commit
  have hbase : c.log.view.base ≤ im.index := Nat.le_trans hn.lcore.base_com h4
  have hlast : (G.L0 ++ (s.node p).log).length = c.log.view.last := hn.log.len
  -- the two logs agree up to im.index
  have hmt : c.log.view.termAt im.index = im.logTerm := by
    by_cases hm : c.log.view.termAt im.index = im.logTerm
    · exact hm
    · rw [hwf.maybeAppend_mismatch hm] at h5
      simp only [Res.ok.injEq, Prod.mk.injEq] at h5
      exact absurd h5.2 (nomatch ·)
  rw [hn.log.termAt hbase] at hmt
  have hidx : im.index ≤ (G.L0 ++ (s.node p).log).length := by
    rcases Nat.lt_or_ge (G.L0 ++ (s.node p).log).length im.index with hlt | hge
    · rw [gterm_out hlt, m4] at hmt
      exact absurd hmt.symm (gterm_ne hne (by omega) m2)
    · exact hge
  have hag : (G.L0 ++ (s.node p).log).take im.index = (G.L0 ++ lg).take im.index := gmatch hr hma hml hidx m2 (by rw [hmt, m4])
  have hL0 : G.L0.length ≤ im.index := by omega
  -- the log taken over
  generalize hK : im.index + im.entries.length = K at *
  have hKl : K ≤ (G.L0 ++ lg).length := by
    have := m3.length_le
    rw [List.length_append, List.length_take, Nat.min_eq_left m2] at this; omega
  have hfull : (G.L0 ++ lg).take im.index ++ im.entries = (G.L0 ++ lg).take K := by
    have hlen : ((G.L0 ++ lg).take im.index ++ im.entries).length = K := by
      rw [List.length_append, List.length_take, Nat.min_eq_left m2, hK]
    have := take_eq_of_prefix m3 (n := K) (by omega)
    exact (this.trans (List.take_of_length_le (by omega))).symm
  have hentry : ∀ n e, im.entries[n]? = some e → gterm (G.L0 ++ lg) (im.index + 1 + n) = e.term ∧ e.index = im.index + 1 + n ∧ im.index + 1 + n ≤ K := by
    intro n e hne
    have hlt := (List.getElem?_eq_some_iff.1 hne).1
    refine ⟨?_, hw.1 n e hne, by omega⟩
    rw [show im.index + 1 + n = im.index + n + 1 by omega]
    apply gterm_some
    refine prefix_getElem?_some m3 ?_
    rw [List.getElem?_append_right (by rw [List.length_take]; omega), List.length_take, Nat.min_eq_left m2,
      show im.index + n - im.index = n by omega]
    exact hne
  have hfa : G.L0 ++ lg.take (K - G.L0.length) = (G.L0 ++ lg).take K := (append_take (by omega)).symm
  have hfal : (lg.take (K - G.L0.length)).length = K - G.L0.length := by
    rw [List.length_append] at hKl
    rw [List.length_take]; omega
  have hfp : lg.take (K - G.L0.length) <+: lg := List.take_prefix _ _
  -- the abstract step
  generalize hcm : min im.commit K - G.L0.length = cm at *
  have hcmle : cm ≤ (lg.take (K - G.L0.length)).length := by rw [hfal]; omega
  have htt : (lg.take (K - G.L0.length)).take cm = lg.take cm := by rw [List.take_take, Nat.min_eq_left (by omega)]
  have hcov : Cov s.net ((s.node p).term + 1) ((lg.take (K - G.L0.length)).take cm) := by
    rw [htt]
    rcases m5 with m5 | ⟨_, m5⟩
    · left
      rw [show cm = 0 by omega]; rfl
    · exact m5.prefix (List.take_prefix_take_left (by omega))
  have hstep : LStep G.Q p s.net (s.node p) [.ack (s.node p).term p (lg.take (K - G.L0.length)).length]
      { s.node p with log := accept (s.node p).log (lg.take (K - G.L0.length)), commit := max (s.node p).commit cm } :=
    .recv c0 lg _ cm hrole m1 hfp hcmle hcov (by rw [htt]; exact m7)
  have hkeep := commit_accept hr m1 hfp
  have hcl := (hr.inv.commitOk p).2.1
  -- the concrete log is the accepted one
  have hres : LogRel (G.L0 ++ accept (s.node p).log (lg.take (K - G.L0.length))) l.view ∧
      l.committed = max c.log.committed (min im.commit K) ∧ last = K ∧ l.storage = c.log.storage ∧ l.unstable.snapshot = c.log.unstable.snapshot ∧
      l.view.base = c.log.view.base ∧ l.applied = c.log.applied := by
    rcases hwf.maybeAppend_match (c := im.commit) (lt := im.logTerm) hbase (by omega) (by rw [hn.log.termAt hbase]; exact hmt) hw.1 hw.2.1 with
      ⟨x1, x2, x3⟩ | ⟨n, e, x1, x2, x3, x4, x5, x6⟩
    · rw [hK] at x2 x3
      rw [x3] at h5
      simp only [Res.ok.injEq, Prod.mk.injEq, Option.some.injEq] at h5
      obtain ⟨rfl, rfl⟩ := h5
      have hpre : lg.take (K - G.L0.length) <+: (s.node p).log := by
        apply (append_prefix (a := G.L0)).1
        rw [hfa]
        have : (G.L0 ++ (s.node p).log).take K = (G.L0 ++ lg).take K := by
          cases hls : im.entries.getLast? with
          | none =>
            have : im.entries = [] := List.getLast?_eq_none_iff.1 hls
            rw [this, List.length_nil, Nat.add_zero] at hK
            rw [← hK]; exact hag
          | some e =>
            rw [List.getLast?_eq_getElem?] at hls
            have hlt := (List.getElem?_eq_some_iff.1 hls).1
            obtain ⟨g1, g2, g3⟩ := hentry _ _ hls
            have := x1 e (List.mem_of_getElem? hls)
            rw [g2, hn.log.termAt (by omega)] at this
            have e1 : im.index + 1 + (im.entries.length - 1) = K := by omega
            rw [e1] at this g1
            exact gmatch hr hma hml (by omega) hKl (by rw [this, g1])
        rw [← this]
        exact List.take_prefix _ _
      rw [show accept (s.node p).log (lg.take (K - G.L0.length)) = (s.node p).log by unfold accept; rw [if_pos hpre]]
      exact ⟨hn.log, rfl, rfl, rfl, rfl, rfl, rfl⟩
    · obtain ⟨g1, g2, g3⟩ := hentry _ _ x1
      have hnpre : ¬ lg.take (K - G.L0.length) <+: (s.node p).log := by
        intro hp
        have hp' : (G.L0 ++ lg).take K <+: G.L0 ++ (s.node p).log := by rw [← hfa]; exact append_prefix.2 hp
        apply x4
        have k1 := gterm_prefix hp' (i := im.index + 1 + n) (by rw [List.length_take]; omega)
        have k2 := gterm_prefix (List.take_prefix K (G.L0 ++ lg)) (i := im.index + 1 + n) (by rw [List.length_take]; omega)
        rw [hn.log.termAt (by omega), ← g1, k1, k2]
      rw [show accept (s.node p).log (lg.take (K - G.L0.length)) = lg.take (K - G.L0.length) by unfold accept; rw [if_neg hnpre]]
      rw [x6] at h5
      split at h5
      · cases h5
      rw [hK] at h5
      simp only [Res.ok.injEq, Prod.mk.injEq, Option.some.injEq] at h5
      obtain ⟨rfl, rfl⟩ := h5
      have hlt := (List.getElem?_eq_some_iff.1 x1).1
      have hdc : Contig (im.index + 1 + n) (im.entries.drop n) := hw.1.drop
      have hdn : im.entries.drop n ≠ [] := by
        intro h0
        have := congrArg List.length h0
        rw [List.length_drop] at this
        simp at this; omega
      have hv : (c.log.appended (im.index + 1 + n) (im.entries.drop n)).view = c.log.view.splice (im.index + 1 + n) (im.entries.drop n) :=
        (hwf.appended hdc hdn (by omega) (by omega)).2
      refine ⟨?_, rfl, rfl, rfl, rfl, (congrArg LogView.base hv : (c.log.appended (im.index + 1 + n) (im.entries.drop n)).view.base = _), rfl⟩
      show LogRel _ (c.log.appended (im.index + 1 + n) (im.entries.drop n)).view
      rw [hv]
      refine hn.log.splice (by rw [hfa]; exact m6.take) hbase ?_ (by omega)
      have hag' : (G.L0 ++ (s.node p).log).take (im.index + n) = (G.L0 ++ lg).take (im.index + n) := by
        cases n with
        | zero => exact hag
        | succ n =>
          have hx : im.entries[n]? = some (im.entries[n]'(by omega)) := List.getElem?_eq_getElem _
          obtain ⟨k1, k2, k3⟩ := hentry _ _ hx
          have := x3 _ (List.mem_of_getElem? (show (im.entries.take (n + 1))[n]? = _ by rw [List.getElem?_take_of_lt (by omega)]; exact hx))
          rw [k2, hn.log.termAt (by omega)] at this
          rw [show im.index + (n + 1) = im.index + 1 + n by omega]
          exact gmatch hr hma hml (by omega) (by omega) (by rw [this, k1])
      rw [hag', hfa, ← hfull]
      have : (G.L0 ++ lg).take (im.index + n) = (G.L0 ++ lg).take im.index ++ im.entries.take n := by
        have e1 : ((G.L0 ++ lg).take im.index ++ im.entries).take (im.index + n) = (G.L0 ++ lg).take im.index ++ im.entries.take n := by
          rw [append_take (by rw [List.length_take]; omega), List.length_take, Nat.min_eq_left m2, show im.index + n - im.index = n by omega]
        rw [← e1, hfull, List.take_take, Nat.min_eq_left (by omega)]
      rw [this, List.append_assoc, List.take_append_drop]
  obtain ⟨r1, r2, r3, r4, r5, r6, r7⟩ := hres
  subst r3
  have hcnf := (hr.inv.commitOk p).1
  have hkl : ∀ x, x ≤ (s.node p).commit → (accept (s.node p).log (lg.take (last - G.L0.length))).take x = (s.node p).log.take x := by
    intro x hx
    rw [take_eq_of_prefix hkeep (by rw [List.length_take]; omega), List.take_take, Nat.min_eq_left hx]
  refine .one hstep ⟨hn.id, hn.idne, hn.term, hn.vote, hn.role, hli, r1, ?_, ?_, fun _ => h1, hn.cinv, fun h => ?_, fun h => ?_, ?_, ?_, ?_, ?_, ?_, fun h => ?_,
    fun h => ?_, fun h => ?_⟩ ?_
  · dsimp only; omega
  · exact hn.config.congr (hkl _ hcnf)
  · rw [h1] at h; cases h
  · rw [h1] at h; cases h
  · show G.SnapOk _ l.snapshot
    rw [show l.snapshot = c.log.snapshot by unfold RaftLog.snapshot; rw [r4, r5]]
    refine hn.snap.keep ?_ hcl hkeep
    unfold RaftLog.snapshot
    split
    · rename_i sn hs
      have := hn.base_le
      rw [RaftLog.view_snap hs] at this; exact this
    · have := hn.lcore.snap_com
      rw [hcom] at this; exact this
  · show G.SnapOk _ l.storage.snapshot
    rw [r4]
    refine hn.stsnap.keep ?_ hcl hkeep
    have := hn.lcore.snap_com
    rw [hcom] at this; exact this
  · dsimp only; rw [r6]; exact hn.pos
  · dsimp only; rw [r7]; exact hn.app
  · have := hn.kcom
    dsimp only; omega
  · rw [h1] at h; cases h
  · rw [h1] at h; cases h
  · rw [h1] at h; cases h
  · intro m hm
    rw [List.mem_singleton.1 hm]
    intro _
    refine Or.inr ⟨(lg.take (last - G.L0.length)).length, by rw [hfal]; dsimp only; omega, ?_⟩
    dsimp only
    rw [hn.id, hn.term, mem_upd]; simp

include hn in
/-- The commit index moves along something chosen. -/
theorem commitTo_done {l : RaftLog} {k : Nat} (hli : LCore l) (h1 : c.state = .follower) (hc : c.log.commitTo k = .ok l)
    (hk : c.log.committed < k → k ≤ G.L0.length + (s.node p).log.length → Cov s.net ((s.node p).term + 1) ((s.node p).log.take (k - G.L0.length)))
    {ms : List Message} (hm : ∀ m ∈ ms, ∀ N, G.MsgOk N m) :
    G.Done s p k0 { c with log := l } ms := by
  rw [hn.lcore.wf.commitTo_eq] at hc
  have hcom := hn.commit
  have hlast := hn.last_eq
  rw [hn.lcore.wf.lastIndex_eq] at hlast
  split at hc
  · rename_i hlt
    split at hc
    · cases hc
    rename_i hle
    simp only [Res.ok.injEq] at hc
    subst hc
    refine .one (.commitF (k - G.L0.length) (by rw [← hn.role, h1]; rfl) (by omega) (by omega) (hk hlt (by omega))) ?_ (fun m h => hm m h _)
    have hkc := hn.kcom
    refine ⟨hn.id, hn.idne, hn.term, hn.vote, hn.role, hli, hn.log, by dsimp only; omega, hn.config, fun _ => h1, hn.cinv, fun h => ?_, fun h => ?_, hn.snap,
      hn.stsnap, hn.pos, hn.app, by dsimp only; omega, fun h => ?_, fun h => ?_, fun h => ?_⟩ <;> (rw [h1] at h; cases h)
  · simp only [Res.ok.injEq] at hc
    subst hc
    exact .same hn (fun m h => hm m h _)

include hr hn him in
theorem recvHeartbeat_done {l : RaftLog} (hto : im.to = p) (hli : LCore l) (h1 : c.state = .follower) (h2 : im.type = .heartbeat) (h3 : GateOk im c)
    (h4 : c.log.commitTo im.commit = .ok l) :
    G.Done s p k0 { c with log := l } [{ type := .heartbeatResp, «to» := im.src, src := c.id, term := c.term, context := im.context }] := by
  have hterm := gate_term hr him (Or.inr (Or.inr h2)) h3
  unfold MsgOk at him
  rw [h2] at him
  obtain ⟨⟨c0, lg, ⟨m1, _⟩, m2⟩, m3⟩ := him
  rw [hterm, hn.term] at m1 m2 m3
  rw [hto] at m3
  have hcom := hn.commit
  refine commitTo_done hn hli h1 h4 (fun hlt hle => ?_) (by intro m hm N; rw [List.mem_singleton.1 hm]; trivial)
  rcases m3 with m3 | ⟨j, m3, m4⟩
  · omega
  rcases m2 with m2 | ⟨q3, q4⟩
  · omega
  obtain ⟨c1, lg1, l1, l2, l3⟩ := hr.inv.ackNow p j m4
  refine q4.prefix ?_
  have h1 : (s.node p).log.take (im.commit - G.L0.length) = lg1.take (im.commit - G.L0.length) := by
    rw [take_eq_of_prefix l3 (by rw [List.length_take]; omega), List.take_take, Nat.min_eq_left (by omega)]
  rw [h1]
  have e1 : (lg1.take (im.commit - G.L0.length)).length = im.commit - G.L0.length := by rw [List.length_take]; omega
  have e2 : (lg.take (im.commit - G.L0.length)).length = im.commit - G.L0.length := by rw [List.length_take]; omega
  rcases hr.inv.lead_cmp l1 m1 (List.take_prefix (im.commit - G.L0.length) lg1) (List.take_prefix (im.commit - G.L0.length) lg) with h | h
  · exact h
  · rw [h.eq_of_length (by omega)]

include hr hn him in
theorem recvSnapCommit_done {l : RaftLog} (hli : LCore l) (h1 : c.state = .follower) (h2 : im.type = .snap) (h3 : GateOk im c)
    (h5 : c.log.matchTerm (im.snapshot.getD {}).metadata.index (im.snapshot.getD {}).metadata.term = .ok true)
    (h6 : c.log.commitTo (im.snapshot.getD {}).metadata.index = .ok l) : G.Done s p k0 { c with log := l } [] := by
  have hterm := gate_term hr him (Or.inr (Or.inl h2)) h3
  unfold MsgOk at him
  rw [h2] at him
  obtain ⟨sn, m0, c0, lg, ⟨m1, _⟩, m2, m3, _⟩ := him
  rw [m0, Option.getD_some] at h5 h6
  rw [hterm, hn.term] at m1 m3
  have hcom := hn.commit
  refine commitTo_done hn hli h1 h6 (fun hlt hle => ?_) (by intro m hm; cases hm)
  rcases m3 with m3 | ⟨q3, q4⟩
  · omega
  rw [hn.lcore.wf.matchTerm_eq] at h5
  simp only [Res.ok.injEq, decide_eq_true_eq] at h5
  rw [hn.log.termAt (by have := hn.lcore.base_com; omega), m2.term] at h5
  have := gmatch hr (hr.inv.nodeMatched p) (hr.inv.leadMatched _ _ _ m1) (by rw [List.length_append]; exact hle)
    (by rw [List.length_append]; exact m2.le) h5
  rw [append_take (by omega), append_take (by omega)] at this
  rw [List.append_cancel_left this]
  exact q4

include hr hn him in
theorem recvSnap_done {cfg : TConfig} {P0 : ProgressMap} {q : Progress} {mi : Int} (hli : LCore (c.log.restore (im.snapshot.getD {})))
    (h1 : c.state = .follower) (h2 : im.type = .snap) (h3 : GateOk im c) (h4 : c.log.committed < (im.snapshot.getD {}).metadata.index)
    (h5 : c.log.matchTerm (im.snapshot.getD {}).metadata.index (im.snapshot.getD {}).metadata.term = .ok false)
    (h6 : Changer.restore { tracker := { maxInflight := mi }, lastIndex := (im.snapshot.getD {}).metadata.index }
        (im.snapshot.getD {}).metadata.confState = .ok (cfg, P0)) (h7 : P0.find c.id = some q) :
    G.Done s p k0 { c with log := c.log.restore (im.snapshot.getD {}), config := cfg, votes := []
                           progress := P0.insert c.id (q.maybeUpdate (sub64 q.next 1)).1 } [] := by
  have hterm := gate_term hr him (Or.inr (Or.inl h2)) h3
  unfold MsgOk at him
  rw [h2] at him
  obtain ⟨sn, m0, c0, lg, ⟨m1, _⟩, m2, m3, m4⟩ := him
  rw [m0, Option.getD_some] at hli h4 h5 h6 ⊢
  rw [hterm, hn.term] at m1 m3
  have hcom := hn.commit
  have hrole : (s.node p).role = .follower := by rw [← hn.role, h1]; rfl
  have hcl := (hr.inv.commitOk p).2.1
  rcases m3 with m3 | ⟨q3, q4⟩
  · omega
  have m2c := m2.conf
  generalize hK : sn.metadata.index - G.L0.length = K at *
  have hfal : (lg.take K).length = K := by rw [List.length_take]; omega
  have hfp : lg.take K <+: lg := List.take_prefix _ _
  have hfg : gterm (G.L0 ++ lg.take K) sn.metadata.index = sn.metadata.term := by
    rw [m2.term]
    exact (gterm_prefix (append_prefix.2 hfp) (by rw [List.length_append]; omega)).symm
  have hnpre : ¬ lg.take K <+: (s.node p).log := by
    intro hp
    rw [hn.lcore.wf.matchTerm_eq] at h5
    simp only [Res.ok.injEq, decide_eq_false_iff_not] at h5
    apply h5
    rw [hn.log.termAt (by have := hn.lcore.base_com; omega), gterm_prefix (append_prefix.2 hp) (by rw [List.length_append]; omega), hfg]
  have hacc : accept (s.node p).log (lg.take K) = lg.take K := by unfold accept; rw [if_neg hnpre]
  have hkeep := commit_accept hr m1 hfp
  have hmax : max (s.node p).commit K = K := by omega
  have htt : (lg.take K).take K = lg.take K := by rw [List.take_take, Nat.min_self]
  have hstep : LStep G.Q p s.net (s.node p) [.ack (s.node p).term p (lg.take K).length]
      { s.node p with log := accept (s.node p).log (lg.take K), commit := max (s.node p).commit K } :=
    .recv c0 lg _ K hrole m1 hfp (by omega) (by rw [htt]; exact q4) (by rw [htt]; exact Nat.le_succ _)
  rw [hacc] at hkeep hstep
  rw [hmax] at hstep
  obtain ⟨cfg1, c1, c2⟩ := m2c
  rw [c2] at h6
  obtain ⟨rfl, h8⟩ := c1.restore h6
  refine ⟨_, .snoc (.single hstep) (.conf K ?_ ?_), ?_, by intro m hm; cases hm⟩
  · rw [upd_self]
  · rw [upd_self]; exact Or.inl hrole
  · rw [upd_self, upd_self]
    have hkc := hn.kcom
    have hbv : (c.log.restore sn).view.base = sn.metadata.index := by rw [(hn.lcore.wf.restore sn).2]
    refine ⟨hn.id, hn.idne, hn.term, hn.vote, hn.role, hli, ?_, ?_, ?_, fun _ => h1, ?_, fun h => ?_, fun h => ?_, ?_, ?_, ?_, hn.app, ?_, fun h => ?_,
      fun h => ?_, fun h => ?_⟩
    · show LogRel (G.L0 ++ lg.take K) (c.log.restore sn).view
      rw [(hn.lcore.wf.restore sn).2]
      refine ⟨?_, ?_, hfg.symm, ?_⟩
      · rw [List.length_append, hfal]; unfold LogView.last; simp; omega
      · rw [List.drop_of_length_le (by rw [List.length_append, hfal]; dsimp only; omega)]
      · have := m4.take (n := G.L0.length + K)
        rwa [append_take (by omega), Nat.add_sub_cancel_left] at this
    · show sn.metadata.index = _
      dsimp only; omega
    · exact c1.congr htt
    · refine h8.insert h7 ?_
      unfold Progress.maybeUpdate
      split <;> rfl
    · rw [h1] at h; cases h
    · rw [h1] at h; cases h
    · show G.SnapOk _ sn
      exact ⟨by dsimp only; omega, hfg.symm, cfg, by rw [hK]; exact c1.congr htt, c2⟩
    · show G.SnapOk _ c.log.storage.snapshot
      refine hn.stsnap.keep ?_ hcl hkeep
      have := hn.lcore.snap_com
      omega
    · dsimp only
      rw [hbv]; omega
    · show k0 ≤ sn.metadata.index
      omega
    · exact absurd (h1.symm.trans h) (by decide)
    · rw [h1] at h; cases h
    · rw [h1] at h; cases h

include hr hn him in
theorem grant_done (h1 : im.type = .vote) (h2 : im.term ≠ 0) (h3 : GateOk im c) (h4 : c.vote = im.src ∨ c.vote = 0)
    (h5 : c.log.isUpToDate im.index im.logTerm = .ok true) :
    G.Done s p k0 { c with vote := im.src } [{ type := .voteResp, «to» := im.src, src := c.id, term := im.term }] := by
  have hterm : im.term = c.term := by
    rcases h3 with h | h | ⟨_, h | h⟩
    · exact absurd h h2
    · exact h
    · rw [h1] at h; cases h
    · rw [h1] at h; exact absurd h.1 (nomatch ·)
  unfold MsgOk at him
  rw [h1] at him
  obtain ⟨lg, cf, m1, m2, m3, m4⟩ := him
  rw [hterm, hn.term] at m1 m4
  rw [hn.lcore.wf.isUpToDate_eq] at h5
  simp only [Res.ok.injEq, decide_eq_true_eq] at h5
  rw [hn.log.termAt (i := c.log.view.last) (Nat.le_add_right _ _)] at h5
  have hlast := hn.last_eq
  rw [hn.lcore.wf.lastIndex_eq] at hlast
  rw [hlast, m3, m2] at h5
  have key : ∀ X : List Entry, Matched s.net X →
      (X = [] ∧ gterm (G.L0 ++ X) (G.L0.length + X.length) ≤ G.τ + 1 ∧ Abs.lastTerm X = 0 ∧ X.length = 0) ∨
      (gterm (G.L0 ++ X) (G.L0.length + X.length) = Abs.lastTerm X ∧ G.τ < Abs.lastTerm X ∧ 0 < X.length) := by
    intro X hm
    by_cases hx : X = []
    · subst hx
      refine Or.inl ⟨rfl, ?_, rfl, rfl⟩
      rw [List.append_nil]
      exact G.low
    · have hl : 0 < X.length := List.length_pos_iff.2 hx
      have he : X[X.length - 1]? = some (X[X.length - 1]'(by omega)) := List.getElem?_eq_getElem _
      right
      rw [Abs.lastTerm_eq he]
      refine ⟨?_, hr.matched_gt hm (List.mem_of_getElem? he), hl⟩
      have := gterm_some (L := G.L0 ++ X) (i := G.L0.length + (X.length - 1)) (e := X[X.length - 1]'(by omega)) (by
        rw [List.getElem?_append_right (by omega), Nat.add_sub_cancel_left]; exact he)
      rwa [show G.L0.length + (X.length - 1) + 1 = G.L0.length + X.length by omega] at this
  have hup : UpToDate lg (s.node p).log := by
    have k1 := key lg (hr.inv.reqOk _ _ _ _ m1).1
    have k2 := key _ (hr.inv.nodeMatched p)
    unfold UpToDate
    rcases k1 with ⟨_, a2, a3, a4⟩ | ⟨a1, a2, a3⟩ <;> rcases k2 with ⟨_, b2, b3, b4⟩ | ⟨b1, b2, b3⟩ <;> omega
  have hstep : LStep G.Q p s.net (s.node p) [.voteGrant (s.node p).term p im.src] { s.node p with vote := im.src } := by
    refine .grant im.src lg cf m1 ?_ hup
    rcases hn.vote with hv | ⟨_, _, hv⟩
    · rw [← hv]; exact h4.symm
    · omega
  refine .one hstep ?_ ?_
  · refine hn.sameLog rfl rfl rfl rfl rfl rfl hn.term (Or.inl rfl) (Or.inr (Or.inl rfl)) hn.role hn.cinv (fun hc => ⟨(hn.votes hc).1, fun v hv => mem_old ((hn.votes hc).2 v hv)⟩) (fun hl v pr hp => ?_)
      (fun h => Or.inl ⟨h, Nat.le_refl _⟩) fun h => Or.inl ⟨h, Nat.le_refl _⟩
    exact ⟨(hn.prs hl v pr hp).1, (hn.prs hl v pr hp).2.mono fun _ h => mem_old h⟩
  · intro m hm
    rw [List.mem_singleton.1 hm]
    intro _
    rw [mem_upd, hterm, hn.term, hn.id]
    simp

include hn in
/-- The pending conf-change check of `Hup`. -/
theorem nopend (hb : c.log.view.base ≤ c.log.applied) (h : NoPend c) :
    nconf ((s.node p).log.take (s.node p).commit) ≤ nconf ((s.node p).log.take (s.node p).conf) := by
  obtain ⟨_, env, es, h1, h2⟩ := h
  have hcom := hn.commit
  have hpos := hn.pos
  have happ := hn.app
  have hac := hn.lcore.app_com
  have hcl := hn.lcore.com_last
  rw [hn.lcore.wf.slice_eq, if_neg (by omega), if_neg (by omega), if_neg (by omega)] at h1
  simp only [Res.ok.injEq, Except.ok.injEq] at h1
  rcases h2 with h2 | h2
  rotate_left
  · exact nconf_take_mono _ (by omega)
  generalize hA : c.log.applied - G.L0.length = A at *
  refine Nat.le_trans ?_ (nconf_take_mono (m := A) _ (by omega))
  have : nconf (((s.node p).log.take (s.node p).commit).drop A) = 0 := by
    rw [nconf_zero]
    intro e he
    obtain ⟨i, hi⟩ := List.getElem?_of_mem he
    rw [List.getElem?_drop] at hi
    have hlt := (List.getElem?_eq_some_iff.1 hi).1
    rw [List.length_take] at hlt
    rw [List.getElem?_take_of_lt (by omega)] at hi
    have hmem : e ∈ es := by
      rw [← h1, limitSize_noLimit _ _ (by decide)]
      unfold LogView.range
      rw [hn.log.ents, List.drop_drop]
      refine List.mem_of_getElem? (i := G.L0.length + (A + i) - c.log.applied) ?_
      rw [List.getElem?_take_of_lt (by omega), List.getElem?_drop, List.getElem?_append_right (by omega)]
      rw [← hi]
      congr 1
      omega
    unfold Raft.numOfPendingConf at h2
    by_cases hne : e.type = .normal
    · exact hne
    · have := List.eq_nil_of_length_eq_zero h2
      rw [List.filter_eq_nil_iff] at this
      exact absurd (by simpa using hne) (this e hmem)
  have key := nconf_append (((s.node p).log.take (s.node p).commit).take A) (((s.node p).log.take (s.node p).commit).drop A)
  rw [List.take_append_drop, this, List.take_take] at key
  rw [key]
  exact nconf_take_mono _ (by omega)

include hr hn in
/-- Nobody runs for leader with a configuration from the middle of the bootstrap entries. -/
theorem late (hcf : G.B.length ≤ (s.node p).conf) : G.τ1 ≤ (s.node p).term := by
  by_cases hB : G.B = []
  · rw [G.bootτ hB]; exact Nat.zero_le _
  have hl : 0 < G.B.length := List.length_pos_iff.2 hB
  have h1 := hr.inv.commitOk p
  have he : (s.node p).log[0]? = some ((s.node p).log[0]'(by omega)) := List.getElem?_eq_getElem _
  have h2 := hr.inv.nodeTerms p _ (List.mem_of_getElem? he)
  have h3 := hr.matched_gt (hr.inv.nodeMatched p) (List.mem_of_getElem? he)
  have := G.bootτ'
  omega

include hr hn in
theorem mayRun (hb : c.log.view.base ≤ c.log.applied) (h : MayRun c) : G.B.length ≤ (s.node p).conf ∧ G.τ1 ≤ (s.node p).term ∧
    nconf ((s.node p).log.take (s.node p).commit) ≤ nconf ((s.node p).log.take (s.node p).conf) := by
  have hnc := nopend hn hb h.2
  have hcf : G.B.length ≤ (s.node p).conf := by
    rcases hn.config with ⟨h1, h2⟩ | ⟨h1, _⟩
    rotate_left
    · exact h1
    obtain ⟨⟨q, hq, _⟩, _⟩ := h
    have hf := G.earlyMem h2 ((hn.cinv.prs_exact _).1 ⟨q, hq⟩)
    rw [hn.id] at hf
    have h3 := (hr.founder p hf).2
    have h4 := hr.inv.commitOk p
    have he : (s.node p).log[(s.node p).conf]? = some ((s.node p).log[(s.node p).conf]'(by omega)) := List.getElem?_eq_getElem _
    have hty := G.bootConf _ (List.mem_of_getElem? (hr.head (hr.inv.nodeMatched p) h1 he))
    have h5 : nconf ((s.node p).log.take ((s.node p).conf + 1)) ≤ nconf ((s.node p).log.take (s.node p).commit) := nconf_take_mono _ (by omega)
    rw [List.take_add_one, he, nconf_append] at h5
    have : nconf (Option.toList (some ((s.node p).log[(s.node p).conf]'(by omega)))) = 1 := by
      rw [Option.toList_some, nconf_single, if_neg hty]
    omega
  exact ⟨hcf, late hr hn hcf, hnc⟩

include hn in
theorem NodeRel.at (h : c.state ≠ .follower) : G.B.length ≤ (s.node p).conf ∧ G.At ((s.node p).log.take (s.node p).conf) c.config := by
  have : G.B.length ≤ (s.node p).conf := by
    rcases Nat.lt_or_ge (s.node p).conf G.B.length with hl | hl
    · exact absurd (hn.early hl) h
    · exact hl
  exact ⟨this, hn.config.at this⟩

include hr hn him in
theorem step_done {c' : Core} {ms : List Message} (h : CStep env im c ms c') (hvet : G.Vetted env im c) (hli : LCore c'.log)
    (hrun : CampMsg im → MayRun c → c.log.view.base ≤ c.log.applied) (hto : im.type = .voteResp ∨ im.type = .heartbeat → im.to = p) :
    G.Done s p k0 c' ms := by
  have hlast := hn.last_eq
  cases h with
  | emit he => exact emit_done hr hn him he
  | prs P hP =>
    refine .same (hn.sameLog rfl rfl rfl rfl rfl rfl hn.term hn.vote (Or.inr (Or.inl rfl)) hn.role (hn.cinv.rel hP fun _ _ _ h => h.learner) hn.votes (fun hl v pr hp => ?_)
      (fun h => Or.inl ⟨h, Nat.le_refl _⟩) fun h => Or.inl ⟨h, Nat.le_refl _⟩) (by intro m hm; cases hm)
    obtain ⟨p0, f1, f2⟩ := hP.find_some' hp
    obtain ⟨g1, g2⟩ := hn.prs hl _ _ f1
    exact ⟨f2.ok hn.lcore.wf (by rw [hlast]; exact hn.snap.le) g1, by rw [f2.mtch]; exact g2⟩
  | follower T P hT hP =>
    have hci := hn.cinv.rel hP fun _ _ _ ⟨_, _, _, h, _⟩ => h
    by_cases ht : T = c.term
    · refine .one .down (hn.sameLog rfl rfl rfl rfl rfl rfl ?_ ?_ (Or.inl rfl) rfl hci (fun h => ?_) (fun h => ?_) (fun h => ?_) (fun h => ?_)) (by intro m hm; cases hm)
      · dsimp only; rw [ht, hn.term]
      · dsimp only; rw [if_pos ht]; exact hn.vote
      all_goals cases h
    · refine .one (.term T (by rw [← hn.term]; omega)) (hn.sameLog rfl rfl rfl rfl rfl rfl rfl ?_ (Or.inl rfl) rfl hci (fun h => ?_) (fun h => ?_) (fun h => ?_)
        (fun h => ?_)) (by intro m hm; cases hm)
      · left; dsimp only; rw [if_neg ht]
      all_goals cases h
  | candidate P hc hl hP hmay =>
    have hrole : (s.node p).role ≠ .leader := by
      rw [← hn.role]
      revert hl
      cases c.state <;> simp [roleOf]
    obtain ⟨hcf, ht1, hnc⟩ : G.B.length ≤ (s.node p).conf ∧ G.τ1 ≤ (s.node p).term ∧
        nconf ((s.node p).log.take (s.node p).commit) ≤ nconf ((s.node p).log.take (s.node p).conf) := by
      rcases hmay with hp | hm
      · exact ⟨(hn.at (by rw [hp]; decide)).1, hn.pre hp⟩
      · exact mayRun hr hn (hrun hc hm) hm
    refine .one (.cand hn.idne hrole hnc) (hn.sameLog rfl rfl rfl rfl rfl rfl ?_ ?_ (Or.inr (Or.inr hcf)) rfl (hn.cinv.rel hP fun _ _ _ ⟨_, _, _, h, _⟩ => h)
      (fun h => ⟨by dsimp only; omega, fun v hv => ?_⟩) (fun h => ?_) (fun h => ?_) (fun h => ?_)) (by intro m hm; cases hm)
    · dsimp only; rw [hn.term]
    · exact Or.inl hn.id
    · cases hv
    all_goals cases h
  | preCandidate hc hl hmay =>
    obtain ⟨hcf, ht1, hnc⟩ := mayRun hr hn (hrun hc hmay) hmay
    refine .one .down (hn.sameLog rfl rfl rfl rfl rfl rfl hn.term hn.vote (Or.inr (Or.inr hcf)) rfl hn.cinv (fun h => ?_) (fun h => ?_)
      (fun _ => Or.inr ⟨ht1, hnc⟩) (fun h => ?_)) (by intro m hm; cases hm)
    all_goals cases h
  | pollSelf hc =>
    refine .same (hn.sameLog rfl rfl rfl rfl rfl rfl hn.term hn.vote (Or.inr (Or.inl rfl)) hn.role hn.cinv (fun h => ⟨(hn.votes h).1, fun v hv => ?_⟩) hn.prs (fun h => Or.inl ⟨h, Nat.le_refl _⟩)
      fun h => Or.inl ⟨h, Nat.le_refl _⟩) (by intro m hm; cases hm)
    rcases recordVote_find hv with hv | ⟨hv, _⟩
    · exact (hn.votes h).2 v hv
    · rw [hv, hn.id]
      exact (hr.aux.cand p (by rw [← hn.role, show c.state = .candidate from h]; rfl)).2
  | pollResp hc hg =>
    refine .same (hn.sameLog rfl rfl rfl rfl rfl rfl hn.term hn.vote (Or.inr (Or.inl rfl)) hn.role hn.cinv (fun h => ⟨(hn.votes h).1, fun v hv => ?_⟩) hn.prs (fun h => Or.inl ⟨h, Nat.le_refl _⟩)
      fun h => Or.inl ⟨h, Nat.le_refl _⟩) (by intro m hm; cases hm)
    rcases recordVote_find hv with hv | ⟨hv, hb⟩
    · exact (hn.votes h).2 v hv
    · rcases hc with ⟨_, hty⟩ | ⟨hst, _⟩
      · unfold MsgOk at him
        rw [hty] at him
        have hrej : im.reject = false := by simpa using hb
        have hgr := him hrej
        rw [hto (Or.inl hty)] at hgr
        rw [hv]
        have hne : im.term ≠ 0 := by
          obtain ⟨lg, cf, hrq, _⟩ := hr.inv.grantReq _ _ _ hgr
          have := hr.aux.req _ _ _ _ hrq; omega
        have : im.term = c.term := by
          rcases hg with h | h | ⟨_, h | h⟩
          · exact absurd h hne
          · exact h
          · rw [hty] at h; cases h
          · rw [hty] at h; exact absurd h.1 (nomatch ·)
        rw [← hn.term, ← this]; exact hgr
      · rw [show c.state = .candidate from h] at hst; cases hst
  | leader P hc ht hP =>
    have hrole : (s.node p).role = .candidate := by rw [← hn.role, hc]; rfl
    have hat := hn.at (by rw [hc]; decide)
    have hq : G.Q.isQ ((s.node p).log.take (s.node p).conf) fun v => c.votes.find v = some true := by
      have : c.config.voters.voteResult c.votes = .won := ht
      exact ⟨c.config, hat.2, joint_won (hat.2.good G.good).voter this⟩
    refine .one (.win _ hrole hq fun u hu => (hn.votes hc).2 u hu)
      (hn.sameLog rfl rfl rfl rfl rfl rfl hn.term hn.vote (Or.inr (Or.inr hat.1)) rfl (hn.cinv.rel hP fun _ _ _ ⟨_, _, _, h, _⟩ => h) (fun h => ?_) (fun _ v pr hp => ?_)
        (fun h => ?_) (fun h => Or.inr (Nat.le_refl _)) (fun _ => Or.inr (hn.votes hc).1)) (by intro m hm; cases hm)
    · cases h
    · obtain ⟨p0, f1, f2⟩ := hP.find_some' hp
      obtain ⟨this, f3, f4, _, _⟩ := f2
      refine ⟨⟨by rw [f3]; omega, by rw [f3], by rw [this]; split <;> omega, by rw [f4]; omega⟩, ?_⟩
      rw [this]
      split
      · rename_i he
        rw [he, hn.id, hlast]
        refine Or.inr ⟨_, Nat.le_refl _, ?_⟩
        rw [mem_upd]; simp
      · exact Or.inl (Nat.zero_le _)
    · cases h
  | append es l pr pci hst ha hf hgt hask =>
    have hrole := hn.leader_role hst
    have hgt' := hgt (by have := hn.lcore.app_com; have := hn.lcore.com_last; rw [hn.lcore.wf.lastIndex_eq]; omega)
    have hnst : nconf (Raft.stamp c.term (c.log.lastIndex + 1) es) = nconf es := stamp_nconf
    obtain ⟨v1, v2⟩ := Raft.append_view hn.lcore.wf _ ha
    obtain ⟨x1, x2, x3⟩ := append_same ha
    generalize hES : Raft.stamp c.term (c.log.lastIndex + 1) es = ES at *
    have hcont : Contig ((G.L0 ++ (s.node p).log).length + 1) ES := by
      rw [← hES, List.length_append, hlast]; exact Raft.stamp_contig _ _ _
    have hterms : ∀ e ∈ ES, e.term = (s.node p).term := by
      intro e he
      obtain ⟨k, hk⟩ := List.getElem?_of_mem he
      rw [← hES] at hk
      obtain ⟨e0, _, rfl⟩ := Raft.stamp_getElem hk
      exact hn.term
    have hnl : l.lastIndex = G.L0.length + ((s.node p).log ++ ES).length := by
      rw [v1.lastIndex_eq, v2, ← (hn.log.push hcont).len, List.append_assoc, List.length_append]
    have hpl : (s.node p).log.take (s.node p).log.length <+: (s.node p).log ++ ES := by
      rw [List.take_of_length_le (Nat.le_refl _)]; exact List.prefix_append _ _
    have hge : c.log.lastIndex ≤ l.lastIndex := by rw [hnl, hlast, List.length_append]; omega
    have hclen := (hr.inv.commitOk p).2.1
    have hcnf := (hr.inv.commitOk p).1
    have hold : ∀ i e, (s.node p).log[i]? = some e → e.type ≠ .normal → G.L0.length + i + 1 ≤ c.pci := hn.pci hst
    have hnconf : nconf ((s.node p).log ++ ES) ≤ nconf ((s.node p).log.take (s.node p).conf) + 1 := by
      rw [nconf_append, hnst]
      rcases hgt' with ⟨g1, _⟩ | ⟨g1, a, e, b, g2, g3, g4, _⟩
      · have := hr.inv.leadConf p hrole
        rw [nconf_zero.2 g1]; exact this
      · have h1 : nconf es = 1 := by
          rw [g2, nconf_append, show e :: b = [e] ++ b from rfl, nconf_append, nconf_single, if_neg g3,
            nconf_zero.2 fun x hx => g4 x (List.mem_append_left _ hx), nconf_zero.2 fun x hx => g4 x (List.mem_append_right _ hx)]
        have h2 := nconf_append ((s.node p).log.take (s.node p).conf) ((s.node p).log.drop (s.node p).conf)
        rw [List.take_append_drop, (nconf_zero (l := (s.node p).log.drop (s.node p).conf)).2 fun x hx => ?_] at h2
        · omega
        · obtain ⟨i, hi⟩ := List.getElem?_of_mem hx
          rw [List.getElem?_drop] at hi
          by_cases hne : x.type = .normal
          · exact hne
          · have := hold _ _ hi hne
            have := hn.pos
            have := hn.app
            omega
    have hok : G.Q.ok ((s.node p).log ++ ES) := by
      intro hstrict k e he cfg hcfg
      by_cases hne : e.type = .normal
      · exact ⟨cfg, EStep.normal hne⟩
      rcases Nat.lt_or_ge k (s.node p).log.length with hk | hk
      · rw [List.getElem?_append_left hk] at he
        rw [List.take_append_of_le_length (by omega)] at hcfg
        exact hr.applies p hstrict k e he cfg hcfg
      · rw [List.getElem?_append_right hk, ← hES] at he
        obtain ⟨e0, he0, hee⟩ := Raft.stamp_getElem he
        have hty : e.type = e0.type := by rw [hee]
        have hda : e.data = e0.data := by rw [hee]
        have hmem := List.mem_of_getElem? he0
        have hat := hn.at (by rw [hst]; decide)
        have hcc : cfg = c.config := by
          rcases hgt' with ⟨g1, _⟩ | ⟨g1, a, x, b, g2, g3, g4, _⟩
          · exact absurd (hty.trans (g1 _ hmem)) hne
          · have hlen : a.length = k - (s.node p).log.length := by
              have hxe : (a ++ x :: b)[k - (s.node p).log.length]? = Option.some e0 := by rw [← g2]; exact he0
              rcases Nat.lt_trichotomy (k - (s.node p).log.length) a.length with h | h | h
              · rw [List.getElem?_append_left h] at hxe
                exact absurd (hty.trans (g4 _ (List.mem_append_left _ (List.mem_of_getElem? hxe)))) hne
              · exact h.symm
              · rw [List.getElem?_append_right (by omega)] at hxe
                obtain ⟨j, hj⟩ : ∃ j, k - (s.node p).log.length - a.length = j + 1 := ⟨_, (Nat.sub_add_cancel (by omega)).symm⟩
                rw [hj, List.getElem?_cons_succ] at hxe
                exact absurd (hty.trans (g4 _ (List.mem_append_right _ (List.mem_of_getElem? hxe)))) hne
            have hcut : ((s.node p).log ++ ES).take k = (s.node p).log.take (s.node p).conf ++ (((s.node p).log ++ ES).take k).drop (s.node p).conf := by
              have h1 : (s.node p).log.take (s.node p).conf = (((s.node p).log ++ ES).take k).take (s.node p).conf := by
                rw [List.take_take, List.take_append_of_le_length (by omega), Nat.min_eq_left (by omega)]
              rw [h1, List.take_append_drop]
            rw [hcut] at hcfg
            refine hcfg.det (hat.2.normals _ fun y hy => ?_)
            obtain ⟨i, hi⟩ := List.getElem?_of_mem hy
            rw [List.getElem?_drop] at hi
            have hik : (s.node p).conf + i < k := by
              rcases Nat.lt_or_ge ((s.node p).conf + i) k with h | h
              · exact h
              · rw [List.getElem?_take_eq_none h] at hi; cases hi
            rw [List.getElem?_take_of_lt hik] at hi
            rcases Nat.lt_or_ge ((s.node p).conf + i) (s.node p).log.length with h | h
            · rw [List.getElem?_append_left h] at hi
              by_cases hyn : y.type = .normal
              · exact hyn
              · have := hold _ _ hi hyn
                have := hn.pos
                have := hn.app
                omega
            · rw [List.getElem?_append_right h, ← hES] at hi
              obtain ⟨y0, hy0, hye⟩ := Raft.stamp_getElem hi
              rw [g2, List.getElem?_append_left (by omega)] at hy0
              rw [hye]
              exact g4 y0 (List.mem_append_left _ (List.mem_of_getElem? hy0))
        subst hcc
        rcases hask e0 hmem (by rw [← hty]; exact hne) with ⟨q1, q2, q3⟩ | ⟨q1, q2⟩
        · exact hvet hstrict q1 hst e0 q2 (by rw [← hty]; exact hne) q3 e hty hda
        · exact G.autoOk hstrict _ e (hat.2.good G.good) q1 (by rw [hty, q2]) (by rw [hda, q2])
    refine .one (.append ES hrole hterms hnconf hok) ⟨hn.id, hn.idne, hn.term, hn.vote, hn.role, hli, ?_, ?_, ?_, fun h => ?_, ?_, fun h => ?_, fun _ v q hq => ?_, ?_, ?_,
      ?_, ?_, ?_, fun h => ?_, fun _ i e hi he => ?_, fun _ => hn.high hst⟩
      (by intro m hm; cases hm)
    · show LogRel (G.L0 ++ ((s.node p).log ++ ES)) l.view
      rw [v2, ← List.append_assoc]
      exact hn.log.push hcont
    · show l.committed = _
      rw [x2]; exact hn.commit
    · exact hn.config.congr (List.take_append_of_le_length (by omega))
    · exact hn.early h
    · refine hn.cinv.insert hf ?_
      unfold Progress.maybeUpdate
      split <;> rfl
    · rw [show c.state = .candidate from h] at hst; cases hst
    · dsimp only at hq ⊢
      rw [AMap.find_insert] at hq
      split at hq
      · rename_i he
        simp only [Option.some.injEq] at hq
        have hv : v = p := by rw [← he, hn.id]
        subst hv
        obtain ⟨g1, g2⟩ := hn.prs hst _ _ (hn.id ▸ hf)
        obtain ⟨e1, e2, e3⟩ : q.next = max pr.next (l.lastIndex + 1) ∧ q.mtch = max pr.mtch l.lastIndex ∧
            q.pendingSnapshot = pr.pendingSnapshot := by
          rw [← hq]; unfold Progress.maybeUpdate
          by_cases hlt : pr.mtch < l.lastIndex
          · simp only [if_pos hlt]; exact ⟨trivial, by omega, trivial⟩
          · simp only [if_neg hlt]; exact ⟨trivial, by omega, trivial⟩
        have := g1.next_pos
        have := g1.next_le
        have := g1.mtch_le
        have := g1.pend_le
        refine ⟨⟨by omega, by omega, by omega, by omega⟩, Or.inr ⟨((s.node v).log ++ ES).length, by omega, ?_⟩⟩
        rw [mem_upd]; simp
      · obtain ⟨g1, g2⟩ := hn.prs hst _ _ hq
        have := g1.next_le
        have := g1.mtch_le
        have := g1.pend_le
        exact ⟨⟨g1.next_pos, by omega, by omega, by omega⟩, g2.mono fun _ h => mem_old h⟩
    · show G.SnapOk ((s.node p).log ++ ES) l.snapshot
      rw [show l.snapshot = c.log.snapshot by unfold RaftLog.snapshot; rw [x1, x3]]
      exact hn.snap.keep hn.snap.le (Nat.le_refl _) hpl
    · show G.SnapOk ((s.node p).log ++ ES) l.storage.snapshot
      rw [x1]
      exact hn.stsnap.keep hn.stsnap.le (Nat.le_refl _) hpl
    · show _ = max k0 l.view.base - _
      rw [v2]; exact hn.pos
    · show l.applied ≤ k0
      rw [append_applied ha]; exact hn.app
    · show k0 ≤ l.committed
      rw [x2]; exact hn.kcom
    · rw [show c.state = .preCandidate from h] at hst; cases hst
    · dsimp only at hi ⊢
      rw [List.getElem?_append] at hi
      split at hi
      · have h1 := hold i e hi he
        have := (List.getElem?_eq_some_iff.1 hi).1
        rcases hgt' with ⟨g1, g2⟩ | ⟨g1, a, e', b, g2, g3, g4, g5⟩ <;> omega
      · rw [← hES] at hi
        obtain ⟨e0, he0, rfl⟩ := Raft.stamp_getElem hi
        rcases hgt' with ⟨g1, g2⟩ | ⟨g1, a, e', b, g2, g3, g4, g5⟩
        · exact absurd (g1 _ (List.mem_of_getElem? he0)) he
        · rw [g2] at he0
          have hle : i - (s.node p).log.length ≤ a.length := by
            by_cases hgt : i - (s.node p).log.length ≤ a.length
            · exact hgt
            · rw [List.getElem?_append_right (by omega), show i - (s.node p).log.length - a.length = (i - (s.node p).log.length - a.length - 1) + 1 by omega,
                List.getElem?_cons_succ] at he0
              exact absurd (g4 _ (List.mem_append_right _ (List.mem_of_getElem? he0))) he
          omega
  | pciUp n hst hn' =>
    exact .same (hn.sameLog rfl rfl rfl rfl rfl rfl hn.term hn.vote (Or.inr (Or.inl rfl)) hn.role hn.cinv hn.votes hn.prs (fun h => Or.inl ⟨h, Nat.le_refl _⟩)
      fun _ => Or.inr (Nat.le_of_lt hn')) (by intro m hm; cases hm)
  | commit l hst hc =>
    have hrole := hn.leader_role hst
    have hcom := hn.commit
    have hli' := hli
    rw [hn.lcore.wf.maybeCommit_eq] at hc
    by_cases hcond : c.log.committed < c.quorumIndex ∧ c.log.view.termAt c.quorumIndex = c.term
    case neg =>
      rw [if_neg hcond] at hc
      simp only [Res.ok.injEq, Prod.mk.injEq] at hc
      exact absurd hc.2 (nomatch ·)
    rw [if_pos hcond] at hc
    split at hc
    · cases hc
    rename_i hle
    simp only [Res.ok.injEq, Prod.mk.injEq, and_true] at hc
    subst hc
    generalize hm : c.quorumIndex = m at *
    obtain ⟨k1, k2⟩ := hcond
    rw [hn.lcore.wf.lastIndex_eq] at hlast
    rw [hn.log.termAt (by have := hn.lcore.base_com; omega)] at k2
    have hek : (s.node p).log[m - 1 - G.L0.length]? = some ((s.node p).log[m - 1 - G.L0.length]'(by omega)) := List.getElem?_eq_getElem _
    have het : ((s.node p).log[m - 1 - G.L0.length]'(by omega)).term = (s.node p).term := by
      rw [← hn.term, ← k2]
      have := gterm_some (L := G.L0 ++ (s.node p).log) (i := m - 1) (e := (s.node p).log[m - 1 - G.L0.length]'(by omega)) (by
        rw [List.getElem?_append_right (by omega)]; exact hek)
      rw [show m - 1 + 1 = m by omega] at this
      exact this.symm
    have hq : G.Q.isQ ((s.node p).log.take (s.node p).conf) fun v => m ≤ ((c.progress.find v).map (·.mtch)).getD 0 :=
      ⟨c.config, (hn.at (by rw [hst]; decide)).2, joint_acked ((hn.at (by rw [hst]; decide)).2.good G.good).voter (Nat.le_of_eq hm.symm)⟩
    refine .one (.commitL (m - 1 - G.L0.length) _ _ hrole (by omega) hek het hq fun u hu => ?_) ?_ (by intro m hm; cases hm)
    · cases hf : c.progress.find u with
      | none => rw [hf] at hu; simp at hu; omega
      | some q =>
        rw [hf] at hu
        simp only [Option.map_some, Option.getD_some] at hu
        rcases (hn.prs hst _ _ hf).2 with h | ⟨j, j1, j2⟩
        · omega
        · exact ⟨j, by omega, j2⟩
    · have hkc := hn.kcom
      refine ⟨hn.id, hn.idne, hn.term, hn.vote, hn.role, hli', hn.log, ?_, hn.config, hn.early, hn.cinv, fun h => ?_, fun _ v q hq => ?_, hn.snap, hn.stsnap,
        hn.pos, hn.app, by dsimp only; omega, fun h => ?_, hn.pci, hn.high⟩
      · dsimp only; omega
      · rw [show c.state = .candidate from h] at hst; cases hst
      · exact ⟨(hn.prs hst v q hq).1, (hn.prs hst v q hq).2.mono fun _ h => mem_old h⟩
      · rw [show c.state = .preCandidate from h] at hst; cases hst
  | ackRecv q q' hst hty hrej hg hf hmt hle hok =>
    refine .same (hn.sameLog rfl rfl rfl rfl rfl rfl hn.term hn.vote (Or.inr (Or.inl rfl)) hn.role (hn.cinv.insert hf hle) hn.votes (fun hl v pr hp => ?_)
      (fun h => Or.inl ⟨h, Nat.le_refl _⟩) fun h => Or.inl ⟨h, Nat.le_refl _⟩) (by intro m hm; cases hm)
    unfold MsgOk at him
    rw [hty] at him
    have hack := him hrej
    dsimp only at hp
    rw [AMap.find_insert] at hp
    by_cases he : im.src = v
    case neg =>
      rw [if_neg he] at hp
      exact hn.prs hst _ _ hp
    rw [if_pos he] at hp
    simp only [Option.some.injEq] at hp
    subst hp
    subst he
    obtain ⟨g1, g2⟩ := hn.prs hst _ _ hf
    have hack' : G.AckOk s.net (s.node p).term im.src im.index := by
      rcases hack with h | ⟨j, j1, j2⟩
      · exact Or.inl h
      · have h0 : im.term ≠ 0 := by
          obtain ⟨_, c0, lg, hl, _⟩ := hr.inv.ackLead _ _ _ j2
          have := (hr.inv.leadOk _ _ _ hl).1; omega
        have : im.term = c.term := by
          rcases hg with h | h | ⟨_, h | h⟩
          · exact absurd h h0
          · exact h
          · rw [hty] at h; cases h
          · rw [hty] at h; exact absurd h.1 (nomatch ·)
        rw [this, hn.term] at j2
        exact Or.inr ⟨j, j1, j2⟩
    have hile : im.index ≤ c.log.lastIndex := by
      rw [hlast]
      rcases hack' with h | ⟨j, j1, j2⟩
      · omega
      · obtain ⟨_, c0, lg, hl, hj⟩ := hr.inv.ackLead _ _ _ j2
        obtain ⟨n1, n2⟩ := hr.inv.leadNode p (hn.leader_role hst)
        obtain ⟨rfl, _⟩ := hr.inv.leadSame n1 hl
        have := (n2 lg hl).length_le
        omega
    refine ⟨hok hile g1, ?_⟩
    rw [hmt]
    rcases Nat.le_total q.mtch im.index with h | h
    · rw [Nat.max_eq_right h]; exact hack'
    · rw [Nat.max_eq_left h]; exact g2
  | grant h1 h2 h3 h4 h5 => exact grant_done hr hn him h1 h2 h3 h4 h5
  | recvApp l last h1 h2 h3 h4 h5 => exact recvApp_done hr hn him hli h1 h2 h3 h4 h5
  | recvHeartbeat l h1 h2 h3 h4 => exact recvHeartbeat_done hr hn him (hto (Or.inr h2)) hli h1 h2 h3 h4
  | recvSnapCommit l h1 h2 h3 h4 h5 h6 => exact recvSnapCommit_done hr hn him hli h1 h2 h3 h5 h6
  | recvSnap cfg P0 q mi h1 h2 h3 h4 h5 h6 h7 => exact recvSnap_done hr hn him hli h1 h2 h3 h4 h5 h6 h7
  | _ =>
    exact .same (hn.sameLog rfl rfl rfl rfl rfl rfl hn.term hn.vote (Or.inr (Or.inl rfl)) hn.role hn.cinv hn.votes hn.prs (fun h => Or.inl ⟨h, Nat.le_refl _⟩) fun h => Or.inl ⟨h, Nat.le_refl _⟩)
      (by intro m hm; cases hm)

end

theorem Vetted.step {env : Env} {im : Message} {c c' : Core} {ms : List Message} (hv : G.Vetted env im c) (h : CStep env im c ms c') :
    G.Vetted env im c' := by
  intro hs hp hl
  have hcfg := h.config_eq (by rw [hp]; decide)
  have hst : c.state = .leader := by
    cases h with
    | leader P _ _ _ h4 => unfold CampMsg at h4; rw [hp] at h4; simp at h4
    | candidate P h1 => cases hl
    | preCandidate h1 => cases hl
    | follower => cases hl
    | _ => exact hl
  rw [hcfg]
  exact hv hs hp hst

theorem path_done {env : Env} {im : Message} {c' : Core} {ms : List Message} (h : CPath env im c ms c') (hr : G.Run s)
    (hn : G.NodeRel p k0 s.net c (s.node p)) (him : G.MsgOk s.net im) (hvet : G.Vetted env im c) (hli : LInv c.log)
    (hto : im.type = .voteResp ∨ im.type = .heartbeat → im.to = p) : G.Done s p k0 c' ms ∧ LInv c'.log := by
  induction h generalizing s with
  | nil => exact ⟨.same hn (by intro m hm; cases hm), hli⟩
  | cons hs _ ih =>
    have hl1 := (hs.linv (msgOk_appWF hr him) hli).1
    obtain ⟨s1, p1, n1, m1⟩ := step_done hr hn him hs hvet hl1.core (fun _ hm => hli.base_app (hli.no_snap hm.2)) hto
    obtain ⟨⟨s2, p2, n2, m2⟩, hl2⟩ := ih (p1.run hr) n1 (him.mono p1.net) (hvet.step hs) hl1
    refine ⟨⟨s2, p1.trans p2, n2, fun m hm => ?_⟩, hl2⟩
    rcases List.mem_append.1 hm with h | h
    · exact (m1 m h).mono p2.net
    · exact m2 m h

/-- In the middle of handling a Ready. -/
theorem path_mid {env : Env} {im : Message} {c' : Core} {ms : List Message} (h : CPath env im c ms c') (hr : G.Run s)
    (hn : G.NodeRel p k0 s.net c (s.node p)) (him : im.type = .beat) : G.Done s p k0 c' ms := by
  induction h generalizing s with
  | nil => exact .same hn (by intro m hm; cases hm)
  | cons hs _ ih =>
    have hok : ∀ N, G.MsgOk N im := by intro N; unfold MsgOk; rw [him]; trivial
    obtain ⟨s1, p1, n1, m1⟩ := step_done hr hn (hok _) hs (fun _ h => by rw [him] at h; cases h) (hn.lcore.step hs him) (fun hc => by unfold CampMsg at hc; rw [him] at hc; simp at hc)
      (fun hc => by rw [him] at hc; simp at hc)
    obtain ⟨s2, p2, n2, m2⟩ := ih (p1.run hr) n1
    refine ⟨s2, p1.trans p2, n2, fun m hm => ?_⟩
    rcases List.mem_append.1 hm with h | h
    · exact (m1 m h).mono p2.net
    · exact m2 m h

end MGen
end Craft.Dyn
