import Verif.Dyn.Up
import Verif.Dyn.OwnPath

/-! # Handling a Ready with membership changes -/

namespace Craft.Dyn
open Spec Members
open Cluster (Genesis Delivered Led Vital gterm LogRel append_take append_prefix)

theorem switchToConfig_cs {env : Env} {r r' : Raft} {cfg : TConfig} {prs : ProgressMap} {cs : ConfState}
    (h : r.switchToConfig env cfg prs = .ok (r', cs)) : cs = csOf cfg := by
  unfold Raft.switchToConfig at h
  dsimp only at h
  split at h
  · simp only [Res.pure_eq, Res.ok.injEq, Prod.mk.injEq] at h
    exact h.2.symm
  split at h
  · simp only [Res.pure_eq, Res.ok.injEq, Prod.mk.injEq] at h
    exact h.2.symm
  obtain ⟨r1, h1, h⟩ := Res.bind_eq_ok.1 h
  split at h <;> simp only [Res.pure_eq, Res.ok.injEq, Prod.mk.injEq] at h <;> exact h.2.symm

namespace MGen
variable {G : MGen} {g s s0 : DState} {p : Nat}

/-- In the middle of handling a Ready: the node `n`, `n1` being the node when the Ready was persisted. -/
structure Mid (G : MGen) (s0 : DState) (p C : Nat) (n1 n : RawNode) (a : App) (s : DState) : Prop where
  path : PPath G.Q p s0 s
  rel : G.NodeRel p a.index s.net n.raft.core (s.node p)
  quiet : ConfQuiet n1.raft n.raft
  ready : n.ready = n1.ready
  prev : n.prevHardSt = n1.prevHardSt
  base : n1.raft.log.view.base ≤ a.index
  conf : ∃ cfg, G.Conf (s.node p).log (a.index - G.L0.length) cfg ∧ a.conf = csOf cfg
  index : a.index ≤ C
  msgs : ∀ m ∈ n.raft.msgs, G.MsgOk s.net m

/-- One more entry is reflected in the configuration. -/
theorem NodeRel.grow {N : List DMsg} {k : Nat} {c : Core} {a : DNode} (h : G.NodeRel p k N c a) (hb : c.log.view.base ≤ k) (hk : k + 1 ≤ c.log.committed)
    {cfg : TConfig} {prs : ProgressMap} (hcfg : G.Conf a.log (k + 1 - G.L0.length) cfg) (hci : ConfInv cfg prs)
    (hprs : c.state = .leader → ∀ v pr, prs.find v = some pr → PrOk c.log.lastIndex pr ∧ G.AckOk N a.term v pr.mtch) :
    G.NodeRel p (k + 1) N { c with config := cfg, progress := prs } { a with conf := k + 1 - G.L0.length } := by
  have hpos := h.pos
  refine ⟨h.id, h.idne, h.term, h.vote, h.role, h.lcore, h.log, h.commit, hcfg, fun he => h.early ?_, hci, h.votes, hprs, h.snap, h.stsnap, ?_,
    Nat.le_succ_of_le h.app, hk, fun hp => ?_, h.pci, h.high⟩
  · dsimp only at he; omega
  · show k + 1 - G.L0.length = max (k + 1) c.log.view.base - G.L0.length
    omega
  · exact ⟨(h.pre hp).1, Nat.le_trans (h.pre hp).2 (nconf_take_mono _ (by dsimp only; omega))⟩

/-- The configuration after one more entry. -/
theorem conf_next (hr : G.Run s) {k : Nat} {e : Entry} {cfg cfg' : TConfig} (he : (G.L0 ++ (s.node p).log)[k]? = some e)
    (h : G.Conf (s.node p).log (k - G.L0.length) cfg) (hs : G.L0.length ≤ k → EStep G.dec e cfg cfg') (h0 : k < G.L0.length → cfg = G.cfg0 → cfg' = G.cfg0) :
    G.Conf (s.node p).log (k + 1 - G.L0.length) cfg' := by
  by_cases hk : k < G.L0.length
  · have hB : G.B = [] := Decidable.byContradiction fun hB => by
      rw [G.bootL0 hB] at hk; cases hk
    have h := h.at (by rw [hB]; exact Nat.zero_le _)
    rw [show k - G.L0.length = 0 by omega, List.take_zero] at h
    refine Or.inr ⟨by rw [hB]; exact Nat.zero_le _, ?_⟩
    rw [show k + 1 - G.L0.length = 0 by omega, List.take_zero]
    have := h.det .nil
    rw [h0 hk this]
    exact .nil
  · rw [List.getElem?_append_right (by omega)] at he
    have hs := hs (by omega)
    rw [show k + 1 - G.L0.length = (k - G.L0.length) + 1 by omega]
    generalize k - G.L0.length = x at *
    rcases h with ⟨h1, h2⟩ | ⟨h1, h2⟩
    · have hB := hr.head (hr.inv.nodeMatched p) h1 he
      obtain ⟨h3, h4⟩ := G.earlyStep hB h2 hs
      by_cases hx : x + 1 < G.B.length
      · exact Or.inl ⟨hx, h3 hx⟩
      · refine Or.inr ⟨by omega, ?_⟩
        have : (s.node p).log.take (x + 1) = G.B := by
          apply List.ext_getElem?
          intro i
          by_cases hi : i < x + 1
          · rw [List.getElem?_take_of_lt hi]
            have hl := (List.getElem?_eq_some_iff.1 he).1
            have he' : (s.node p).log[i]? = some ((s.node p).log[i]'(by omega)) := List.getElem?_eq_getElem _
            rw [he', hr.head (hr.inv.nodeMatched p) (by omega) he']
          · rw [List.getElem?_eq_none (by rw [List.length_take]; omega), List.getElem?_eq_none (by omega)]
        rw [this]
        exact h4 (by omega)
    · refine Or.inr ⟨by omega, ?_⟩
      rw [List.take_add_one, he]
      exact .snoc h2 hs

theorem Mid.none {C : Nat} {n1 n : RawNode} {a : App} {e : Entry} (hr : G.Run s0) (h : G.Mid s0 p C n1 n a s)
    (hent : n1.raft.log.view.entry e.index = some e) (hi : e.index = a.index + 1) (hC : e.index ≤ C) (hCn : C ≤ n1.raft.log.committed)
    (hc : confOf G.dec e = none) : ∃ s', G.Mid s0 p C n1 n { a with index := e.index } s' := by
  have hv : n.raft.log.view = n1.raft.log.view := by rw [h.quiet.log]; rfl
  have hle := h.quiet.le
  have hcom : n.raft.log.committed = G.L0.length + (s.node p).commit := h.rel.commit
  have hlog : LogRel (G.L0 ++ (s.node p).log) n.raft.log.view := h.rel.log
  have hb := h.base
  have hbase : n.raft.core.log.view.base ≤ a.index := by
    show n.raft.log.view.base ≤ _
    rw [hv]; exact hb
  rw [← hv, hlog.entry (by rw [hv]; omega), hi, Nat.add_sub_cancel] at hent
  have hpos : (s.node p).conf = a.index - G.L0.length := by rw [h.rel.pos]; omega
  have hcfg := h.rel.config
  rw [hpos] at hcfg
  have hstep : LStep G.Q p s.net (s.node p) [] { s.node p with conf := a.index + 1 - G.L0.length } :=
    .conf _ (by omega) (Or.inr (by omega))
  have hrs := h.path.run hr
  refine ⟨_, ⟨h.path.trans (.single hstep), ?_, h.quiet, h.ready, h.prev, by show _ ≤ e.index; omega, ?_, hC, fun m hm => ?_⟩⟩
  · rw [upd_self]
    have := h.rel.grow (cfg := n.raft.core.config) (prs := n.raft.core.progress) hbase (by show _ ≤ n.raft.log.committed; omega)
      (conf_next hrs hent hcfg (fun _ => by unfold EStep; rw [hc]) fun _ h => h) h.rel.cinv h.rel.prs
    show G.NodeRel p e.index _ _ _
    rw [hi]
    exact this.mono fun _ hm => mem_old hm
  · rw [upd_self]
    obtain ⟨cfg, c1, c2⟩ := h.conf
    exact ⟨cfg, by show G.Conf _ (e.index - _) _; rw [hi]; exact conf_next hrs hent c1 (fun _ => by unfold EStep; rw [hc]) fun _ h => h, c2⟩
  · exact (h.msgs m hm).mono fun _ hm => mem_old hm

theorem Mid.some {C : Nat} {n1 n n' : RawNode} {a : App} {e : Entry} {cc : ConfChangeI} {cs : ConfState} {env : Env} (hr : G.Run s0)
    (h : G.Mid s0 p C n1 n a s)
    (hent : n1.raft.log.view.entry e.index = some e) (hi : e.index = a.index + 1) (hC : e.index ≤ C) (hCn : C ≤ n1.raft.log.committed)
    (hc : confOf G.dec e = some cc) (ha : n.applyConfChange env cc = .ok (n', cs)) : ∃ s', G.Mid s0 p C n1 n' ⟨e.index, cs⟩ s' ∧
      ∃ cfg prs, change { tracker := n.raft.trk, lastIndex := n.raft.log.lastIndex } cc.asV2 = .ok (cfg, prs) ∧
        ∀ k, Own k { n.raft.core with config := cfg, progress := prs } → Own k n'.raft.core := by
  have hv : n.raft.log.view = n1.raft.log.view := by rw [h.quiet.log]; rfl
  have hle := h.quiet.le
  have hcom : n.raft.log.committed = G.L0.length + (s.node p).commit := h.rel.commit
  have hlog : LogRel (G.L0 ++ (s.node p).log) n.raft.log.view := h.rel.log
  have hb := h.base
  have hbase : n.raft.core.log.view.base ≤ a.index := by
    show n.raft.log.view.base ≤ _
    rw [hv]; exact hb
  rw [← hv, hlog.entry (by rw [hv]; omega), hi, Nat.add_sub_cancel] at hent
  have hpos : (s.node p).conf = a.index - G.L0.length := by rw [h.rel.pos]; omega
  have hcfg := h.rel.config
  rw [hpos] at hcfg
  -- the change
  unfold RawNode.applyConfChange at ha
  obtain ⟨⟨r, cs'⟩, h2, ha⟩ := Res.bind_eq_ok.1 ha
  simp only [Res.pure_eq, Res.ok.injEq, Prod.mk.injEq] at ha
  obtain ⟨rfl, rfl⟩ := ha
  obtain ⟨cfg, prs, hch, hsw⟩ := applyConfChange_ok h2
  have hcs := switchToConfig_cs hsw
  have hq := ConfQuiet.switchToConfig hsw
  obtain ⟨lrn, hk, ms, hms, hpath⟩ := Raft.switchToConfig_sim (im := { type := .beat }) rfl hsw
  have hcfg' : r.trk.config = cfg := hpath.config_eq (nomatch ·)
  have hci := (change_sets (c := { tracker := n.raft.trk, lastIndex := n.raft.log.lastIndex }) h.rel.cinv hch).1
  have hfrom := change_from hch
  have hlast : 1 ≤ n.raft.log.lastIndex := by
    have h3 : n.raft.log.lastIndex = _ := h.rel.last_eq
    have h4 : n.raft.log.committed ≤ n.raft.log.view.last := h.rel.lcore.com_last
    have h5 : n.raft.log.lastIndex = n.raft.log.view.last := h.rel.lcore.wf.lastIndex_eq
    omega
  have hstep : LStep G.Q p s.net (s.node p) [] { s.node p with conf := a.index + 1 - G.L0.length } :=
    .conf _ (by omega) (Or.inr (by omega))
  have hnext : Next cc.asV2 n.raft.trk.config cfg := ⟨{ tracker := n.raft.trk, lastIndex := n.raft.log.lastIndex }, rfl, h.rel.cinv, prs, hch⟩
  have hrel := h.rel.grow (cfg := cfg) (prs := prs) hbase (by show _ ≤ n.raft.log.committed; omega)
      (conf_next (h.path.run hr) hent hcfg (fun _ => by unfold EStep; rw [hc]; exact hnext) fun hlt h0 => by
        rw [← hcfg']
        rw [List.getElem?_append_left hlt] at hent
        exact G.still e (List.mem_of_getElem? hent) cc hc env n.raft r cs' h0 h2) hci (fun hl v pr hp => by
        rcases hfrom v pr hp with ⟨q, b, hq, rfl⟩ | ⟨e1, e2, e3⟩
        · obtain ⟨x1, x2⟩ := h.rel.prs hl v q hq
          exact ⟨⟨x1.1, x1.2, x1.3, x1.4⟩, x2⟩
        · have e2' : pr.next = n.raft.log.lastIndex := e2
          refine ⟨⟨by omega, by rw [e2']; exact Nat.le_succ _, by rw [e1]; exact Nat.zero_le _, by rw [e3]; exact Nat.zero_le _⟩, Or.inl (by rw [e1]; exact Nat.zero_le _)⟩)
  have hpath1 := PPath.single hstep
  obtain ⟨s', p1, nr, m1⟩ := path_mid (s := s.upd p { s.node p with conf := a.index + 1 - G.L0.length } []) (k0 := a.index + 1) (p := p) (G := G) hpath
    (hpath1.run (h.path.run hr)) (by rw [upd_self]; exact hrel.mono fun _ hm => mem_old hm) rfl
  have hown : ∀ k, Own k { n.raft.core with config := cfg, progress := prs } → Own k r.core := fun k ho =>
    path_own_mid (s := s.upd p { s.node p with conf := a.index + 1 - G.L0.length } []) (k0 := a.index + 1) (p := p) (G := G) hpath
      (hpath1.run (h.path.run hr)) (by rw [upd_self]; exact hrel.mono fun _ hm => mem_old hm) rfl ho
  refine ⟨s', ⟨h.path.trans (hpath1.trans p1), ?_, h.quiet.trans hq, h.ready, h.prev, by show _ ≤ e.index; omega, ?_, hC, fun m hm => ?_⟩,
    cfg, prs, hch, hown⟩
  · show G.NodeRel p e.index _ _ _
    rw [hi]; exact nr
  · refine ⟨r.trk.config, ?_, by rw [hcfg']; exact hcs⟩
    have := nr.config
    have hnp := nr.pos
    have hrv : r.log.view = n.raft.log.view := by rw [hq.log]; rfl
    rw [hnp] at this
    have hmx : max (a.index + 1) r.core.log.view.base = a.index + 1 := by
      show max (a.index + 1) r.log.view.base = _
      rw [hrv]
      have : n.raft.log.view.base ≤ a.index := hbase
      omega
    rw [hmx] at this
    show G.Conf _ (e.index - _) _
    rw [hi]; exact this
  · have hm' : m ∈ n.raft.msgs ++ ms := by
      rw [← show r.msgs = n.raft.msgs ++ ms from hms]; exact hm
    rcases List.mem_append.1 hm' with hm | hm
    · exact (h.msgs m hm).mono fun _ hm => p1.net _ (mem_old hm)
    · exact m1 m hm

theorem Mid.applyAll {C : Nat} {n1 : RawNode} {env : Env} (hr : G.Run s0) (hCn : C ≤ n1.raft.log.committed) :
    ∀ (es : List Entry) {n n' : RawNode} {a a' : App} {s : DState} {i : Nat}, G.Mid s0 p C n1 n a s → Contig i es → i ≤ a.index + 1 →
      (∀ e ∈ es, n1.raft.log.view.entry e.index = Option.some e ∧ e.index ≤ C) → Members.applyAll env G.dec es n a = .ok (n', a') →
      ∃ s', G.Mid s0 p C n1 n' a' s' ∧ i + es.length ≤ a'.index + 1 ∧ a.index ≤ a'.index
  | [], n, n', a, a', s, i, h, _, hi, _, hres => by
    simp only [Members.applyAll, Res.ok.injEq, Prod.mk.injEq] at hres
    obtain ⟨rfl, rfl⟩ := hres
    exact ⟨s, h, hi, Nat.le_refl _⟩
  | e :: es, n, n', a, a', s, i, h, hc, hi, hall, hres => by
    obtain ⟨hei, hc'⟩ := Contig.cons.1 hc
    obtain ⟨h1, h2⟩ := hall e (List.mem_cons_self ..)
    have hall' := fun x hx => hall x (List.mem_cons_of_mem _ hx)
    unfold Members.applyAll at hres
    rw [List.length_cons]
    by_cases hle : e.index ≤ a.index
    · rw [if_pos hle] at hres
      obtain ⟨s', m, l1, l2⟩ := Mid.applyAll hr hCn es h hc' (by omega) hall' hres
      exact ⟨s', m, by omega, l2⟩
    · rw [if_neg hle] at hres
      have hei' : e.index = a.index + 1 := by omega
      cases hcf : confOf G.dec e with
      | none =>
        rw [hcf] at hres
        dsimp only at hres
        obtain ⟨s1, m1⟩ := h.none hr h1 hei' h2 hCn hcf
        obtain ⟨s', m, l1, l2⟩ := Mid.applyAll hr hCn es m1 hc' (by dsimp only; omega) hall' hres
        exact ⟨s', m, by omega, by dsimp only at l2; omega⟩
      | some cc =>
        rw [hcf] at hres
        dsimp only at hres
        obtain ⟨⟨n2, cs⟩, hac, hres⟩ := Res.bind_eq_ok.1 hres
        obtain ⟨s1, m1, _⟩ := h.some hr h1 hei' h2 hCn hcf hac
        obtain ⟨s', m, l1, l2⟩ := Mid.applyAll hr hCn es m1 hc' (by dsimp only; omega) hall' hres
        exact ⟨s', m, by omega, by dsimp only at l2; omega⟩

/-- The log before a Ready is acknowledged and after: the same entries. -/
theorem view_tail {l : RaftLog} (h : LInv l) {st : Storage} (hw : st.WF) (hv : st.view = l.view) (es : List Entry) (hc : Contig (l.view.last + 1) es) (a c : Nat) :
    ({ l with storage := st, unstable := { l.unstable with entries := l.unstable.entries ++ es }, applied := a, committed := c } : RaftLog).view = l.view.push es := by
  obtain ⟨w1, v1⟩ := h.wf.of_storage_eq hw hv
  by_cases he : es = []
  · subst he
    have : ({ l with storage := st, unstable := { l.unstable with entries := l.unstable.entries ++ [] }, applied := a, committed := c } : RaftLog).view = l.view := by
      simp only [List.append_nil]
      exact v1
    rw [this]
    unfold LogView.push
    rw [List.append_nil]
  · have hb : l.view.base < l.view.last + 1 := by unfold LogView.last; omega
    have ha := w1.append_eq hc he (by rw [v1]; exact hb) (by rw [v1])
    rw [if_neg (by have := h.com_last; dsimp only; omega)] at ha
    have h1 := (w1.appended hc he (by rw [v1]; exact hb) (by rw [v1])).2
    obtain ⟨f1, _⟩ := w1.append_end (by rw [v1]; exact hc) he ha
    rw [f1, v1] at h1
    refine Eq.trans h1 ?_
    unfold LogView.splice LogView.push LogView.last
    rw [show l.view.base + l.view.ents.length + 1 - l.view.base - 1 = l.view.ents.length by omega, List.take_length]

/-- The node once it has persisted its Ready, and the application once it has installed the snapshot of it, if any. -/
theorem Up.mid {n n1 : RawNode} {a a1 : App} {st : Storage} {env : Env} (hg : G.Run g) (h : G.Up g p n a s) (hsv : n.raft.log.storage.save (readyOf env n) = .ok st)
    (hn1 : (({ n.acceptReady (readyOf env n) with ready := some (readyOf env n) } : RawNode).withStorage st) = n1) (ha1 : a.install (readyOf env n).snapshot = a1) :
    G.Mid s p n.raft.log.committed n1 n1 a1 s ∧ max n.raft.log.applied n.raft.log.view.base ≤ a1.index ∧ a.index ≤ a1.index := by
  have hli := h.linv
  have hrs := h.path.run hg
  obtain ⟨st', hsv', w, v, hsn, _⟩ := save_eq (env := env) hli
  rw [hsv] at hsv'
  cases hsv'
  obtain ⟨hdur, hprev⟩ := h.persist hg hsv
  obtain ⟨w1, v1⟩ := hli.wf.of_storage_eq w v
  have hlog1 : n1.raft.log = { n.raft.log with storage := st } := by rw [← hn1]; rfl
  have hcore1 : n1.raft.core = { n.raft.core with log := { n.raft.log with storage := st }, reads := n1.raft.core.reads } := by rw [← hn1]; rfl
  have hcom : n.raft.log.committed = G.L0.length + (s.node p).commit := h.rel.commit
  have happ : n.raft.log.applied ≤ a.index := h.rel.app
  have hkc : a.index ≤ n.raft.log.committed := h.rel.kcom
  have hbc := hli.base_com
  have hac := hli.app_com
  have hcl := hli.com_last
  -- the application after the snapshot of the Ready
  have hinst : max a1.index n.raft.log.view.base = max a.index n.raft.log.view.base ∧ n.raft.log.view.base ≤ a1.index ∧ n.raft.log.applied ≤ a1.index ∧
      a1.index ≤ n.raft.log.committed ∧ a.index ≤ a1.index ∧ ∃ cfg, G.Conf (s.node p).log (a1.index - G.L0.length) cfg ∧ a1.conf = csOf cfg := by
    have hsnap : (readyOf env n).snapshot = n.raft.log.unstable.snapshot.getD {} := rfl
    rw [hsnap] at ha1
    have hcfg := h.rel.config
    have hpos := h.rel.pos
    cases hs : n.raft.log.unstable.snapshot with
    | none =>
      rw [hs] at ha1
      have : a.install ((none : Option Snapshot).getD {}) = a := rfl
      rw [this] at ha1
      subst ha1
      have hb := hli.base_app hs
      refine ⟨rfl, by omega, happ, hkc, Nat.le_refl _, ?_⟩
      obtain ⟨cfg, c1, c2⟩ := h.cs
      have ha := h.app
      exact ⟨cfg, c1.congr (take_keep hg h.path (by omega)), c2⟩
    | some x =>
      rw [hs] at ha1
      have hvb : n.raft.log.view.base = x.metadata.index := by rw [RaftLog.view_snap hs]
      have h1 := h.pend x hs
      have h2 : a.install ((some x).getD {}) = ⟨x.metadata.index, x.metadata.confState⟩ := by
        unfold App.install isEmptySnap
        rw [Option.getD_some, if_neg (by simp only [decide_eq_true_eq]; omega)]
      rw [h2] at ha1
      subst ha1
      refine ⟨by dsimp only; omega, by dsimp only; omega, by dsimp only; omega, by dsimp only; omega, by dsimp only; omega, ?_⟩
      have hsn := h.rel.snap
      have hss : n.raft.core.log.snapshot = x := by
        show n.raft.log.snapshot = x
        unfold RaftLog.snapshot; rw [hs]
      rw [hss] at hsn
      exact hsn.conf
  obtain ⟨i1, i2, i3, i4, i6, i5⟩ := hinst
  have hlc1 : LCore { n.raft.log with storage := st } :=
    ⟨w1, hac, by rw [v1]; exact hcl, by rw [v1]; exact hbc, by rw [hcom]; exact hdur.snapLe⟩
  have hsnap1 : G.SnapOk (s.node p).log ({ n.raft.log with storage := st } : RaftLog).snapshot := by
    have := h.rel.snap
    rw [show n.raft.core.log = n.raft.log from rfl] at this
    unfold RaftLog.snapshot Storage.snapShot at this ⊢
    cases hs : n.raft.log.unstable.snapshot with
    | none => dsimp only; exact hdur.snap
    | some x => rw [hs] at this; exact this
  have hrel1 : G.NodeRel p a1.index s.net n1.raft.core (s.node p) := by
    have := h.rel.relog (k' := a1.index) hlc1 (by rw [v1]; exact h.rel.log) rfl hsnap1 hdur.snap
      (by rw [v1]; show max a1.index n.raft.log.view.base - _ = max a.index n.raft.log.view.base - _; rw [i1]) i3 i4
    rw [hcore1]
    exact this.sameLog rfl rfl rfl rfl rfl rfl this.term this.vote (Or.inr (Or.inl rfl)) this.role this.cinv this.votes this.prs (fun h => Or.inl ⟨h, Nat.le_refl _⟩) fun h => Or.inl ⟨h, Nat.le_refl _⟩
  have hv1 : n1.raft.log.view = n.raft.log.view := by rw [hlog1]; exact v1
  refine ⟨?_, by omega, i6⟩
  · refine ⟨.nil, hrel1, .refl, rfl, rfl, by rw [hv1]; exact i2, ?_, i4, ?_⟩
    · exact i5
    · rw [← hn1]; intro m hm; cases hm

theorem Up.outOk {n n1 : RawNode} {a : App} {st : Storage} {env : Env} (h : G.Up g p n a s) (hsv : n.raft.log.storage.save (readyOf env n) = .ok st)
    (hn1 : (({ n.acceptReady (readyOf env n) with ready := some (readyOf env n) } : RawNode).withStorage st) = n1) :
    ∀ e ∈ (readyOf env n).committedEntries, n1.raft.log.view.entry e.index = Option.some e ∧ e.index ≤ n.raft.log.committed := by
  have hli := h.linv
  obtain ⟨st', hsv', w, v, _⟩ := save_eq (env := env) hli
  rw [hsv] at hsv'
  cases hsv'
  have hv1 : n1.raft.log.view = n.raft.log.view := by rw [← hn1]; exact (hli.wf.of_storage_eq w v).2
  intro e he
  obtain ⟨_, _, e3, e4⟩ := hli.nextOut_entry env he
  rw [hv1]; exact ⟨e4, e3⟩

/-- `Advance` after the committed entries were applied. -/
theorem Up.finish {n n1 n2 n3 : RawNode} {a a2 : App} {st : Storage} {env : Env} {s2 : DState} (hg : G.Run g) (h : G.Up g p n a s)
    (hsv : n.raft.log.storage.save (readyOf env n) = .ok st)
    (hn1 : (({ n.acceptReady (readyOf env n) with ready := some (readyOf env n) } : RawNode).withStorage st) = n1)
    (hmid : G.Mid s p n.raft.log.committed n1 n2 a2 s2)
    (hlen' : max n.raft.log.applied n.raft.log.view.base + 1 + (nextOut env n.raft.log).length ≤ a2.index + 1) (hadv : n2.advance = .ok n3) :
    ∃ s', G.Up s p n3 a2 s' ∧ (∀ k, Own k n2.raft.core → Own k n3.raft.core) ∧ n3.raft.log.storage = st ∧
      n3.raft.log.unstable.snapshot = none := by
  have hli := h.linv
  have hrs := h.path.run hg
  obtain ⟨st', hsv', w, v, hsn, _⟩ := save_eq (env := env) hli
  rw [hsv] at hsv'
  cases hsv'
  obtain ⟨hdur, hprev⟩ := h.persist hg hsv
  have hcom : n.raft.log.committed = G.L0.length + (s.node p).commit := h.rel.commit
  obtain ⟨es, c, hd, u, ra, hra, hralog, hn3, hpv⟩ := advance_conf hli hsv hn1 hmid.quiet hmid.ready hadv
  obtain ⟨hli3, hview3, _⟩ := hd.linv hli hsv
  have hr2 := hmid.path.run hrs
  -- the node once the applied index moved
  have adv : ∃ s3, PPath G.Q p s2 s3 ∧ G.NodeRel p a2.index s3.net ra.core (s3.node p) ∧ (∀ m ∈ ra.msgs, G.MsgOk s3.net m) ∧ ∀ k, Own k n2.raft.core → Own k ra.core := by
    have rel2 : ∀ l, n2.raft.log.appliedTo (readyOf env n).appliedCursor = .ok l → 0 < (readyOf env n).appliedCursor → l.applied ≤ a2.index →
        G.NodeRel p a2.index s2.net ({ n2.raft with uncommittedSize := u, log := l } : Raft).core (s2.node p) := by
      intro l hl h0 hle
      obtain ⟨e1, e2⟩ := Raft.appliedTo_log hl
      have hc2 : l.applied ≤ n2.raft.log.committed := by
        rcases e2 with e2 | ⟨e2, _, e3⟩ <;> omega
      have hl0 := hmid.rel.lcore
      have hlv : l.view = n2.raft.log.view := by rw [e1]; rfl
      have hlcom : l.committed = n2.raft.log.committed := by rw [e1]
      have hls : l.storage = n2.raft.log.storage := by rw [e1]
      have hlsn : l.snapshot = n2.raft.log.snapshot := by rw [e1]; rfl
      have := hmid.rel.relog (l := l) (k' := a2.index)
        ⟨by rw [e1]; exact hl0.wf.with_applied _, by rw [hlcom]; exact hc2, by rw [hlv, hlcom]; exact hl0.com_last, by rw [hlv, hlcom]; exact hl0.base_com,
          by rw [hls, hlcom]; exact hl0.snap_com⟩ (by rw [hlv]; exact hmid.rel.log) hlcom (by rw [hlsn]; exact hmid.rel.snap) (by rw [hls]; exact hmid.rel.stsnap)
        (by rw [hlv]; rfl) hle (by rw [hlcom]; exact hmid.rel.kcom)
      exact this.resize u
    have hown : ∀ l, n2.raft.log.appliedTo (readyOf env n).appliedCursor = .ok l → ∀ k, Own k n2.raft.core → Own k ({ n2.raft with uncommittedSize := u, log := l } : Raft).core := by
      intro l hl k ho
      have e1 := (Raft.appliedTo_log hl).1
      have hlv : l.view = n2.raft.log.view := by rw [e1]; rfl
      have hlu : l.unstable = n2.raft.log.unstable := by rw [e1]
      exact ⟨ho.cand, (fun hs hc => ho.lead hs (hc.imp _root_.id fun hc => by rw [show n2.raft.core.log.view = l.view from hlv.symm]; exact hc)),
        fun hn => by show l.unstable.snapshot = none; rw [hlu]; exact ho.calm hn⟩
    have hA : ra.log.applied = max n.raft.log.applied n.raft.log.view.base + (nextOut env n.raft.log).length := by rw [hralog]
    rcases Raft.advanceApplied_cases hra with ⟨h0, rfl⟩ | ⟨h0, l, hl, rfl | ⟨g1, g2, g3, g4, rb, hb, rfl⟩⟩
    · exact ⟨s2, .nil, hmid.rel.resize u, hmid.msgs, fun k ho => ⟨ho.cand, ho.lead, ho.calm⟩⟩
    · refine ⟨s2, .nil, rel2 l hl h0 ?_, hmid.msgs, fun k ho => hown l hl k ho⟩
      have : l.applied = _ := hA
      omega
    · have hlast := Raft.appendEntry_last hb
      have hp := Raft.appendEntry_pci rb.log.lastIndex hb
      have hap := Raft.appliedTo_log hl
      have hgate : ConfGate ({ n2.raft with uncommittedSize := u, log := l } : Raft).core [{ type := .confChangeV2 }] rb.log.lastIndex := by
        intro _
        refine Or.inr ⟨?_, [], _, [], rfl, (by intro h; cases h), (by simp), by rw [hlast]; rfl⟩
        rcases hap.2 with h | ⟨h, _⟩
        · omega
        · show n2.raft.pendingConfIndex ≤ l.applied
          have g2' : n2.raft.pendingConfIndex ≤ _ := g2
          omega
      obtain ⟨_, ms, hms, hpath⟩ := ((Raft.appendEntry_sim (im := { type := .beat }) (env := env) (r := { n2.raft with uncommittedSize := u, log := l }) g3
        (fun h => by have := h.1; exact absurd this (Nat.not_lt_zero _)) hgate (by intro e he _; exact Or.inr ⟨g4, by simpa using he⟩) (by intro e he; exact Or.inr (Or.inl (by simpa using he))) hp).1 rfl).1
      have hla : l.applied ≤ a2.index := by
        have h1 := hpath.applied_eq
        have h2 : rb.log.applied = l.applied := h1
        have h3 : rb.log.applied = _ := hA
        omega
      obtain ⟨s3, p3, r3, m3⟩ := path_mid hpath hr2 (rel2 l hl h0 hla) rfl
      refine ⟨s3, p3, r3, fun m hm => ?_, fun k ho => path_own_mid hpath hr2 (rel2 l hl h0 hla) rfl (hown l hl k ho)⟩
      have hm' : m ∈ n2.raft.msgs ++ ms := by
        rw [← show rb.msgs = n2.raft.msgs ++ ms from hms]; exact hm
      rcases List.mem_append.1 hm' with hm | hm
      · exact (hmid.msgs m hm).mono p3.net
      · exact m3 m hm
  obtain ⟨s3, p3, r3, m3, hown⟩ := adv
  have hes : Contig (n.raft.log.view.last + 1) es := by
    rcases hd.auto with ⟨rfl, _⟩ | ⟨_, _, rfl, _⟩
    · exact .nil _
    · exact Contig.cons.2 ⟨rfl, .nil _⟩
  have hrav : ra.log.view = n3.raft.log.view := by
    rw [hview3, hralog]
    exact view_tail hli w v es hes _ _
  have hn3com : n3.raft.log.committed = ra.log.committed := by rw [hd.log, hralog]
  have hn3st : n3.raft.log.storage = st := by rw [hd.log]
  have hn3app : n3.raft.log.applied = max n.raft.log.applied n.raft.log.view.base + (nextOut env n.raft.log).length := by rw [hd.log]
  have hn3sn : n3.raft.log.unstable.snapshot = none := by rw [hd.log]
  have hstsn : G.SnapOk (s3.node p).log n3.raft.log.storage.snapshot := by
    have := r3.stsnap
    rw [show ra.core.log = ra.log from rfl, hralog] at this
    rw [hn3st]; exact this
  have hpath := hmid.path.trans p3
  have hrel3 : G.NodeRel p a2.index s3.net n3.raft.core (s3.node p) := by
    have := r3.relog (l := n3.raft.log) (k' := a2.index) hli3.core (by rw [← hrav]; exact r3.log) hn3com (by unfold RaftLog.snapshot; rw [hn3sn]; exact hstsn) hstsn
      (by rw [← hrav]; rfl) (by omega) (by rw [hn3com]; exact r3.kcom)
    rw [hn3]
    exact this
  have hidx : a2.index ≤ G.L0.length + (s.node p).commit := by rw [← hcom]; exact hmid.index
  have hown3 : ∀ k, Own k n2.raft.core → Own k n3.raft.core := by
    intro k ho
    have ho := hown k ho
    have hc : n3.raft.core = { ra.core with log := n3.raft.log } := by rw [hn3]; rfl
    rw [hc]
    exact ⟨ho.cand, (fun hs hc => ho.lead hs (hc.imp _root_.id fun hc => by rw [show ra.core.log.view = n3.raft.log.view from hrav]; exact hc)), fun _ => hn3sn⟩
  refine ⟨s3, ⟨hpath, hrel3, hli3, ?_, hidx, Or.inl ⟨by rw [hn3st]; exact hdur, ?_⟩, ?_, ?_, ?_⟩, hown3, hn3st, hn3sn⟩
  · rw [hn3]; exact m3
  · rw [hpv, hn3st, ← hprev, hmid.prev, ← hn1]; rfl
  · rw [hn3st, v, hn3app]; omega
  · obtain ⟨cfg, c1, c2⟩ := hmid.conf
    exact ⟨cfg, c1.congr (take_keep hrs hmid.path (by omega)).symm, c2⟩
  · intro x hx; rw [hn3sn] at hx; cases hx


theorem Up.ready {n n' : RawNode} {a a' : App} {rd : Ready} {env : Env} (hg : G.Run g) (h : G.Up g p n a s)
    (hh : handle env G.dec n a = .ok (n', a', rd)) : rd = readyOf env n ∧ ∃ s', G.Up s p n' a' s' ∧ n'.raft.log.unstable.snapshot = none := by
  have hli := h.linv
  have hrs := h.path.run hg
  obtain ⟨st, hsv, htk⟩ := takeReady_eq (env := env) hli
  unfold handle at hh
  rw [htk] at hh
  simp only [Res.ok_bind] at hh
  generalize hn1 : (({ n.acceptReady (readyOf env n) with ready := some (readyOf env n) } : RawNode).withStorage st) = n1 at hh
  obtain ⟨⟨n2, a2⟩, hall, hh⟩ := Res.bind_eq_ok.1 hh
  obtain ⟨n3, hadv, hh⟩ := Res.bind_eq_ok.1 hh
  simp only [Res.pure_eq, Res.ok.injEq, Prod.mk.injEq] at hh
  obtain ⟨rfl, rfl, rfl⟩ := hh
  refine ⟨rfl, ?_⟩
  obtain ⟨hmid0, hi, _⟩ := h.mid hg hsv hn1 rfl
  obtain ⟨s2, hmid, hlen, _⟩ := Mid.applyAll hrs (C := n.raft.log.committed) (by rw [← hn1]; exact Nat.le_refl _) (readyOf env n).committedEntries hmid0
    (hli.nextOut_contig env) (by omega) (h.outOk hsv hn1) hall
  obtain ⟨s3, u3, _, _, hsn⟩ := h.finish hg hsv hn1 hmid hlen hadv
  exact ⟨s3, u3, hsn⟩

end MGen
end Craft.Dyn
