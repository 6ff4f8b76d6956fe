import Verif.Dyn.Ready
import Verif.Dyn.OwnPath
import Verif.Safe.Advance

/-! # Applying conf changes returns -/

namespace Craft.Dyn
open Spec Members
open Cluster (Genesis Delivered Led Vital gterm LogRel append_take append_prefix)

theorem confOf_type {dec : Entry → Option ConfChangeI} {e : Entry} {cc : ConfChangeI} (h : confOf dec e = some cc) : e.type ≠ .normal := by
  intro he
  unfold confOf at h
  rw [he] at h
  simp at h

theorem change_infl {c : Changer} {cc : ConfChangeV2} {cfg : TConfig} {prs : ProgressMap} {R : Inflights → Prop} (h : change c cc = .ok (cfg, prs))
    (hR : R (Inflights.new c.tracker.maxInflight)) (hP : AllInfl R c.tracker.progress) : AllInfl R prs := by
  unfold change at h
  split at h
  · exact Changer.leaveJoint_infl hP h
  split at h
  · exact Changer.enterJoint_infl hR hP h
  · exact Changer.simple_infl hR hP h

/-- A voter stays one when the configuration becomes joint. -/
theorem change_voter {c : Changer} {cc : ConfChangeV2} {cfg : TConfig} {prs : ProgressMap} (h : change c cc = .ok (cfg, prs))
    (hi : ConfInv c.tracker.config c.tracker.progress) (ha : cfg.autoLeave = true) {v : Nat} (hv : Voter c.tracker.config v) : Voter cfg v := by
  have hw := change_works hi h
  obtain ⟨h1, h2⟩ := change_sets hi h
  rcases h2 with ⟨_, _, _, _, _, _, h3⟩ | ⟨h3, _, h4, _⟩ | ⟨_, _, _, h3, _⟩
  · rw [ha] at h3; cases h3
  · unfold Works at hw
    split at hw
    · rw [(leave_iff cc).2 hw] at h3; cases h3
    · rename_i ho
      have ho := Classical.not_not.1 ho
      rcases hv with hv | hv
      · exact Or.inr (by rw [h4]; exact hv)
      · rw [ho] at hv; cases hv
  · rw [(h1.not_joint h3).2] at ha; cases ha

/-- If the configuration is joint, it is no longer so. -/
theorem change_leaves {c : Changer} {cc : ConfChangeV2} {cfg : TConfig} {prs : ProgressMap} (h : change c cc = .ok (cfg, prs))
    (hi : ConfInv c.tracker.config c.tracker.progress) (ho : c.tracker.config.voters.outgoing ≠ []) : cfg.voters.outgoing = [] := by
  have hw := change_works hi h
  unfold Works at hw
  rw [if_pos ho] at hw
  have hl := (leave_iff cc).2 hw
  obtain ⟨_, h2⟩ := change_sets hi h
  rcases h2 with ⟨_, _, _, h3, _⟩ | ⟨h3, _⟩ | ⟨h3, _⟩
  · exact h3
  · rw [hl] at h3; cases h3
  · rw [hl] at h3; cases h3

/-- A voter keeps its progress, if it has one afterwards. -/
theorem change_self {c : Changer} {cc : ConfChangeV2} {cfg : TConfig} {prs : ProgressMap} (h : change c cc = .ok (cfg, prs))
    (hi : ConfInv c.tracker.config c.tracker.progress) {v : Nat} (hv : Voter c.tracker.config v) :
    ∃ p, c.tracker.progress.find v = some p ∧ Only v p prs := by
  obtain ⟨p, hp⟩ := voter_pr hi hv
  refine ⟨p, hp, change_only h hp ?_⟩
  rcases hv with hv | hv
  · exact Or.inl hv
  · exact Or.inr (change_leaves h hi fun hn => by rw [hn] at hv; cases hv)

theorem change_apply {env : Env} {r : Raft} {cc : ConfChangeV2} {cfg : TConfig} {prs : ProgressMap}
    (h : change { tracker := r.trk, lastIndex := r.log.lastIndex } cc = .ok (cfg, prs)) : r.applyConfChange env cc = r.switchToConfig env cfg prs := by
  unfold Raft.applyConfChange
  unfold change at h
  dsimp only
  rw [h]

namespace MGen
variable {G : MGen} {g s s0 : DState} {p : Nat}

/-- The changes in the initial log do nothing. -/
theorem still_cfg {e : Entry} (he : e ∈ G.L0) {cc : ConfChangeI} (hc : confOf G.dec e = Option.some cc) {r : Raft} {cfg : TConfig} {prs : ProgressMap}
    (h0 : r.trk.config = G.cfg0) (h : change { tracker := r.trk, lastIndex := r.log.lastIndex } cc.asV2 = .ok (cfg, prs)) : cfg = G.cfg0 := by
  let env : Env := ⟨fun _ => 0, fun _ => Option.none, fun _ => Option.none, fun _ => [], fun _ _ => 0, fun _ => []⟩
  let f : Raft := { r with state := .follower }
  obtain ⟨lrn, h1⟩ := switchToConfig_not_leader (env := env) (r := f) (by show Role.follower ≠ _; decide) cfg prs
  have h2 : f.applyConfChange env cc.asV2 = _ := (change_apply (r := f) h).trans h1
  exact G.still e he cc hc env f _ _ h0 h2

/-- The bootstrap entries can be applied in the configurations that are in use then. -/
def EarlyWorks (G : MGen) : Prop := ∀ {k : Nat} {e : Entry} {cfg : TConfig} {cc : ConfChangeI}, G.B[k]? = Option.some e → G.Early k cfg →
  confOf G.dec e = Option.some cc → ∀ c : Changer, c.tracker.config = cfg → ConfInv c.tracker.config c.tracker.progress → ∃ r, change c cc.asV2 = .ok r

theorem EarlyWorks.nil (h : G.B = []) : G.EarlyWorks := fun hk => by rw [h] at hk; cases hk

section
variable {C : Nat} {n1 n : RawNode} {a : App} {e : Entry} {cc : ConfChangeI} {cfg : TConfig} {prs : ProgressMap} (hr : G.Run s0)
  (h : G.Mid s0 p C n1 n a s) (hent : n1.raft.log.view.entry e.index = Option.some e) (hi : e.index = a.index + 1) (hC : e.index ≤ C)
  (hCn : C ≤ n1.raft.log.committed) (hc : confOf G.dec e = Option.some cc)
include hr h hent hi hC hCn hc

theorem Mid.at : (G.L0 ++ (s.node p).log)[a.index]? = Option.some e ∧ e ∈ n.raft.core.log.view.ents ∧ (s.node p).conf = a.index - G.L0.length := by
  have hv : n.raft.log.view = n1.raft.log.view := by rw [h.quiet.log]; rfl
  have hlog : LogRel (G.L0 ++ (s.node p).log) n.raft.log.view := h.rel.log
  have hb := h.base
  rw [← hv] at hent
  have hmem : e ∈ n.raft.log.view.ents := by
    unfold LogView.entry at hent
    split at hent
    · cases hent
    · exact List.mem_of_getElem? hent
  rw [hlog.entry (by rw [hv]; omega), hi, Nat.add_sub_cancel] at hent
  refine ⟨hent, hmem, ?_⟩
  have := h.rel.pos
  have hb' : n.raft.core.log.view.base ≤ a.index := by
    show n.raft.log.view.base ≤ _
    rw [hv]; exact hb
  omega

theorem Mid.works (hB : G.EarlyWorks) (hst : G.strict) (hgen : ∀ e ∈ G.L0, ∀ cc, confOf G.dec e = Option.some cc → Works G.cfg0 cc.asV2) :
    ∃ r, change { tracker := n.raft.trk, lastIndex := n.raft.log.lastIndex } cc.asV2 = .ok r := by
  obtain ⟨h1, _, h2⟩ := h.at hr hent hi hC hCn hc
  have hcfg := h.rel.config
  rcases hcfg with ⟨hlt, hearly⟩ | ⟨_, hcfg⟩
  · have hL : G.L0 = [] := G.bootL0 fun h0 => by rw [h0] at hlt; exact absurd hlt (Nat.not_lt_zero _)
    rw [hL, List.nil_append] at h1
    rw [h2, hL] at hearly hlt
    have hlt : a.index < G.B.length := hlt
    exact hB ((h.path.run hr).head ((h.path.run hr).inv.nodeMatched p) hlt h1) hearly hc _ rfl h.rel.cinv
  rw [h2] at hcfg
  have hcfg : CfgAt G.dec G.cfg0 ((s.node p).log.take (a.index - G.L0.length)) n.raft.trk.config := hcfg
  refine works_change (c := { tracker := n.raft.trk, lastIndex := n.raft.log.lastIndex }) h.rel.cinv (hcfg.good G.good).voter ?_
  show Works n.raft.trk.config cc.asV2
  by_cases hk : a.index < G.L0.length
  · rw [List.getElem?_append_left hk] at h1
    rw [show a.index - G.L0.length = 0 by omega, List.take_zero] at hcfg
    have : n.raft.trk.config = G.cfg0 := hcfg.det .nil
    rw [this]
    exact hgen e (List.mem_of_getElem? h1) cc hc
  · rw [List.getElem?_append_right (by omega)] at h1
    obtain ⟨cfg', h3⟩ := (h.path.run hr).applies p hst _ e h1 _ hcfg
    unfold EStep at h3
    rw [hc] at h3
    exact h3.works

theorem Mid.own (ho : Own a.index n.raft.core)
    (hch : change { tracker := n.raft.trk, lastIndex := n.raft.log.lastIndex } cc.asV2 = .ok (cfg, prs)) :
    Own e.index { n.raft.core with config := cfg, progress := prs } ∧ (n.raft.state = .leader → Voter n.raft.trk.config n.raft.id) := by
  obtain ⟨h1, hmem, h2⟩ := h.at hr hent hi hC hCn hc
  have hrs := h.path.run hr
  have hty := confOf_type hc
  have hle := h.quiet.le
  have hcom : n.raft.log.committed = G.L0.length + (s.node p).commit := h.rel.commit
  have hvot : n.raft.state = .leader → Voter n.raft.trk.config n.raft.id := fun hl => ho.lead hl (Or.inr ⟨e, hmem, by omega, hty⟩)
  refine ⟨?_, hvot⟩
  by_cases hk : a.index < G.L0.length
  · rw [List.getElem?_append_left hk] at h1
    have hcfg := h.rel.config
    have hcfg := hcfg.at (by
      by_cases hB : G.B = []
      · rw [hB]; exact Nat.zero_le _
      · rw [G.bootL0 hB] at hk; exact absurd hk (Nat.not_lt_zero _))
    rw [h2, show a.index - G.L0.length = 0 by omega, List.take_zero] at hcfg
    have h0 : n.raft.trk.config = G.cfg0 := hcfg.det .nil
    have hsame : cfg = n.raft.trk.config := (still_cfg (List.mem_of_getElem? h1) hc h0 hch).trans h0.symm
    have ho' : Own e.index n.raft.core := ho.mono (by omega)
    rw [hsame]
    exact ⟨ho'.cand, ho'.lead, ho'.calm⟩
  · rw [List.getElem?_append_right (by omega), ← h2] at h1
    have hsucc : nconf ((s.node p).log.take ((s.node p).conf + 1)) = nconf ((s.node p).log.take (s.node p).conf) + 1 := by
      rw [List.take_add_one, h1, nconf_append]
      show _ + nconf [e] = _
      rw [nconf_single, if_neg hty]
    have hcand : nconf ((s.node p).log.take (s.node p).commit) ≤ nconf ((s.node p).log.take (s.node p).conf) → False := by
      intro hn
      have := nconf_take_mono (s.node p).log (m := (s.node p).conf + 1) (n := (s.node p).commit) (by omega)
      omega
    refine ⟨fun hs => ?_, fun hl ha => ?_, ho.calm⟩
    · exfalso
      rcases hs with hs | hs
      · have hs : n.raft.core.state = .candidate := hs
        have hrole := h.rel.role
        rw [hs] at hrole
        exact hcand (hrs.inv.candConf p hrole.symm)
      · exact hcand (h.rel.pre hs).2
    · have hv := hvot hl
      have hlead := hrs.inv.leadConf p (h.rel.leader_role hl)
      have ha : cfg.autoLeave = true := by
        rcases ha with ha | ⟨x, hx, hxi, hxt⟩
        · exact ha
        · exfalso
          have hlog : LogRel (G.L0 ++ (s.node p).log) n.raft.core.log.view := h.rel.log
          have hx : x ∈ n.raft.core.log.view.ents := hx
          rw [hlog.ents] at hx
          obtain ⟨j, hj⟩ := List.getElem?_of_mem (List.mem_of_mem_drop hx)
          have hji := hlog.contig _ _ hj
          rw [List.getElem?_append_right (by omega)] at hj
          have hd : x ∈ (s.node p).log.drop ((s.node p).conf + 1) := by
            refine List.mem_of_getElem? (i := j - G.L0.length - ((s.node p).conf + 1)) ?_
            rw [List.getElem?_drop, ← hj]
            congr 1; omega
          have := congrArg nconf (List.take_append_drop ((s.node p).conf + 1) (s.node p).log)
          rw [nconf_append] at this
          have h0 : nconf ((s.node p).log.drop ((s.node p).conf + 1)) = 0 := by omega
          exact hxt (nconf_zero.1 h0 x hd)
      exact change_voter hch h.rel.cinv ha hv

/-- Applying the conf change returns. -/
theorem Mid.apply_safe {K : Around} {env : Env} (hB : G.EarlyWorks) (hst : G.strict)
    (hgen : ∀ e ∈ G.L0, ∀ cc, confOf G.dec e = Option.some cc → Works G.cfg0 cc.asV2)
    (ho : Own a.index n.raft.core) (hs : n.raft.MidSafe K env) :
    (n.applyConfChange env cc).Sat fun x => x.1.raft.MidSafe K env := by
  obtain ⟨⟨cfg, prs⟩, hch⟩ := h.works hr hent hi hC hCn hc hB hst hgen
  obtain ⟨ho', hvot⟩ := h.own hr hent hi hC hCn hc ho hch
  have hci := (change_sets (c := { tracker := n.raft.trk, lastIndex := n.raft.log.lastIndex }) h.rel.cinv hch).1
  have hlast : 1 ≤ n.raft.log.lastIndex := by
    have h3 : n.raft.log.lastIndex = _ := h.rel.last_eq
    have h4 : n.raft.log.committed ≤ n.raft.log.view.last := h.rel.lcore.com_last
    have h5 : n.raft.log.lastIndex = n.raft.log.view.last := h.rel.lcore.wf.lastIndex_eq
    have := h.quiet.le
    omega
  obtain ⟨l, hs1, hs2⟩ := hs
  have hinf : ∀ sz : Nat, n.raft.trk.maxInflight = sz → 0 < sz → sz ≤ 2 ^ 30 → ∀ id q, prs.find id = Option.some q → InflOk sz q := by
    intro sz e0 e1 e2 id q hq
    obtain ⟨sz', f0, f1, f2, f3⟩ := hs1.infl
    have f0 : n.raft.trk.maxInflight = sz' := f0
    have : sz' = sz := by omega
    subst this
    refine change_infl (R := fun f => ∃ q, f.Rep sz' q) hch ⟨[], ?_⟩ (fun k q hq => f3 k q hq) id q hq
    show (Inflights.new n.raft.trk.maxInflight).Rep _ _
    rw [f0]
    exact Inflights.rep_new sz' f1 f2
  have hself : n.raft.state = .candidate ∨ n.raft.state = .preCandidate → ∃ q, prs.find n.raft.id = Option.some q := fun hs => voter_pr hci (ho'.cand hs)
  unfold RawNode.applyConfChange
  rw [change_apply hch]
  by_cases hl : n.raft.state = .leader
  · have hll := hs2 hl
    subst hll
    have hs1 : n.raft.Safe K env := hs1
    have hnp : n.raft.NewPrs prs := by
      refine ⟨hinf, hself, fun hl id q hq => ?_⟩
      have hold : ∀ q0 b, n.raft.trk.progress.find id = Option.some q0 → q = { q0 with isLearner := b } → n.raft.NextOk id q := by
        intro q0 b h0 h1
        have := hs1.next hl id q0 h0
        rw [h1]
        exact this
      by_cases hid : id = n.raft.id
      · subst hid
        obtain ⟨q0, h0, h1⟩ := change_self hch h.rel.cinv (hvot hl)
        obtain ⟨b, h1⟩ := h1 q hq
        exact hold q0 b h0 h1
      · rcases change_from hch id q hq with ⟨q0, b, h0, h1⟩ | ⟨_, e2, _⟩
        · exact hold q0 b h0 h1
        · have e2 : q.next = n.raft.log.lastIndex := e2
          exact .peer hid (by omega)
    refine (Raft.switchToConfig_safe (cfg := cfg) hs1 hnp).bind fun x hx => .pure ?_
    exact ⟨x.1.log, hx, fun _ => rfl⟩
  · obtain ⟨lrn, h1⟩ := switchToConfig_not_leader (env := env) hl cfg prs
    rw [h1]
    refine .pure ⟨l, ?_, fun hh => absurd hh hl⟩
    exact Raft.NewPrs.safe (r := { n.raft with log := l }) (cfg := cfg) hs1 ⟨hinf, hself, fun hh => absurd hh hl⟩

end

/-- Applying all committed entries of a Ready returns. -/
theorem Mid.applyAll_safe {K : Around} {C : Nat} {n1 : RawNode} {env : Env} (hr : G.Run s0) (hCn : C ≤ n1.raft.log.committed) (hB : G.EarlyWorks) (hst : G.strict)
    (hgen : ∀ e ∈ G.L0, ∀ cc, confOf G.dec e = Option.some cc → Works G.cfg0 cc.asV2) :
    ∀ (es : List Entry) {n : RawNode} {a : App} {s : DState} {i : Nat}, G.Mid s0 p C n1 n a s → Contig i es → i ≤ a.index + 1 →
      (∀ e ∈ es, n1.raft.log.view.entry e.index = Option.some e ∧ e.index ≤ C) → Own a.index n.raft.core → n.raft.MidSafe K env →
      (Members.applyAll env G.dec es n a).Sat fun x => Own x.2.index x.1.raft.core ∧ x.1.raft.MidSafe K env
  | [], n, a, s, i, h, _, hi, _, ho, hs => .ok ⟨ho, hs⟩
  | e :: es, n, a, s, i, h, hc, hi, hall, ho, hs => by
    obtain ⟨hei, hc'⟩ := Contig.cons.1 hc
    obtain ⟨h1, h2⟩ := hall e (List.mem_cons_self ..)
    have hall' := fun x hx => hall x (List.mem_cons_of_mem _ hx)
    unfold Members.applyAll
    by_cases hle : e.index ≤ a.index
    · rw [if_pos hle]
      exact Mid.applyAll_safe hr hCn hB hst hgen es h hc' (by omega) hall' ho hs
    · rw [if_neg hle]
      have hei' : e.index = a.index + 1 := by omega
      cases hcf : confOf G.dec e with
      | none =>
        dsimp only
        obtain ⟨s1, m1⟩ := h.none hr h1 hei' h2 hCn hcf
        exact Mid.applyAll_safe hr hCn hB hst hgen es m1 hc' (by dsimp only; omega) hall' (ho.mono (by dsimp only; omega)) hs
      | some cc =>
        dsimp only
        obtain ⟨⟨n2, cs⟩, hac, hs2⟩ := h.apply_safe hr h1 hei' h2 hCn hcf (env := env) hB hst hgen ho hs
        rw [hac]
        simp only [Res.ok_bind]
        obtain ⟨s1, m1, cfg, prs, hch, hown⟩ := h.some hr h1 hei' h2 hCn hcf hac
        exact Mid.applyAll_safe hr hCn hB hst hgen es m1 hc' (by dsimp only; omega) hall' (hown _ (h.own hr h1 hei' h2 hCn hcf ho hch).1) hs2

end MGen
end Craft.Dyn
