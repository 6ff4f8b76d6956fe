import Verif.Dyn.Main
import Verif.Cluster.ReadInv
import Verif.Node.Elect

/-! # Read requests while the membership changes: what the protocol guarantees -/

namespace Craft.Dyn
open Abs (prefix_getElem?_some take_length_of)

theorem LStep.commit_le {Q : CSys} {v : Nat} {N : List DMsg} {a a' : DNode} {out : List DMsg} (h : LStep Q v N a out a') : a.commit ≤ a'.commit := by
  cases h with
  | recv c lg full k => exact Nat.le_max_left _ _
  | commitL k e S h1 h2 => exact h2
  | commitF c h1 h2 => exact h2
  | _ => exact Nat.le_refl _

/-- A leader knows that what it committed is committed. -/
theorem DReach.chosenCommit {Q : CSys} {τ : Nat} {g : DState} (h : DReach Q τ g) :
    ∀ T pre cf c lg, DMsg.chosen T pre cf ∈ g.net → DMsg.lead T c lg ∈ g.net → pre.length ≤ (g.node c).commit := by
  induction h with
  | init => intro T pre cf c lg hm; cases hm
  | @step g _ hg hs ih =>
    cases hs with
    | @mk p out a' hl =>
      have mono : ∀ v, (g.node v).commit ≤ ((g.upd p a' out).node v).commit := by
        intro v
        by_cases hv : v = p
        · subst hv; rw [upd_self]; exact hl.commit_le
        · rw [upd_ne hv]
      intro T pre cf c lg k1 k2
      rcases mem_upd.1 k1 with h1 | h1
      · rcases mem_upd.1 k2 with h2 | h2
        · exact Nat.le_trans (ih T pre cf c lg h1 h2) (mono c)
        · obtain ⟨rfl, rfl, _, rfl, _, ⟨r1, r2, S, q, hS⟩ | ⟨r1, es, r2, r3⟩⟩ := out_lead hl h2
          · obtain ⟨_, c0, lg0, _, _, _, l1, _⟩ := hg.inv.chosenOk _ _ _ h1
            exact absurd l1 (no_lead hl hg.inv r1 q hS c0 lg0)
          · exact Nat.le_trans (ih _ pre cf c _ h1 (hg.inv.leadNode c r1).1) (mono c)
      · cases hl with
        | commitL k e S g1 g2 g3 g4 g5 g6 =>
          simp only [List.mem_singleton, DMsg.chosen.injEq] at h1
          obtain ⟨rfl, rfl, rfl⟩ := h1
          have h2 : DMsg.lead (g.node p).term c lg ∈ g.net := by
            rcases mem_upd.1 k2 with h2 | h2
            · exact h2
            · simp at h2
          obtain ⟨rfl, _⟩ := hg.inv.leadSame (hg.inv.leadNode p g1).1 h2
          rw [upd_self, take_length_of g3]
        | _ => simp_all

/-- A leader that has not committed anything of its own term has applied all committed conf changes. -/
theorem DReach.leadFirst {Q : CSys} {τ : Nat} {g : DState} (h : DReach Q τ g) : ∀ p, (g.node p).role = .leader →
    (∃ k e, (g.node p).commit = k + 1 ∧ (g.node p).log[k]? = some e ∧ e.term = (g.node p).term) ∨
      nconf ((g.node p).log.take (g.node p).commit) ≤ nconf ((g.node p).log.take (g.node p).conf) := by
  induction h with
  | init => intro p hr; cases hr
  | @step g _ hg hs ih =>
    cases hs with
    | @mk p out a' hl =>
      intro v hr
      by_cases hv : v = p
      · subst hv
        rw [upd_self] at hr ⊢
        have old := ih v
        cases hl with
        | term => cases hr
        | down => cases hr
        | cand => cases hr
        | recv c lg full k h1 => rw [h1] at hr; cases hr
        | commitF c h1 => rw [h1] at hr; cases hr
        | conf k h1 h2 =>
          dsimp only at hr ⊢
          rcases h2 with h2 | h2
          · rw [h2] at hr; cases hr
          · exact (old hr).imp (fun h => h) fun h => Nat.le_trans h (nconf_take_mono _ h2)
        | grant => exact old hr
        | ackCommit => exact old hr
        | win S h1 => exact Or.inr (hg.inv.candConf v h1)
        | commitL k e S g1 g2 g3 g4 => exact Or.inl ⟨k, e, rfl, g3, g4⟩
        | append es h1 =>
          dsimp only at hr ⊢
          obtain ⟨c1, c2, _⟩ := hg.inv.commitOk v
          rw [List.take_append_of_le_length c2, List.take_append_of_le_length (by omega)]
          refine (old h1).imp (fun ⟨k, e, e1, e2, e3⟩ => ⟨k, e, e1, ?_, e3⟩) fun h => h
          exact prefix_getElem?_some (List.prefix_append _ _) e2
      · rw [upd_ne hv] at hr ⊢
        exact ih v hr

/-- If a quorum of the configuration a leader uses had not moved beyond its term by the time of `g0`, nobody led a later term
by then. -/
theorem no_later {Q : CSys} {τ : Nat} {g0 s : DState} (hg : DReach Q τ g0) (hr : DReach Q τ s) (hnet : ∀ m ∈ g0.net, m ∈ s.net) {p : Nat}
    (hl : (s.node p).role = .leader) {S : Nat → Prop} (hq : Q.isQ ((s.node p).log.take (s.node p).conf) S)
    (hS : ∀ u, S u → (g0.node u).term ≤ (s.node p).term) : ∀ T c lg, DMsg.lead T c lg ∈ g0.net → T ≤ (s.node p).term := by
  intro T
  induction T using Nat.strongRecOn with
  | _ T ih =>
    intro c lg hm
    apply Decidable.byContradiction
    intro hT
    obtain ⟨_, _, lg0, cf, S', r1, r2, r3, r4, r5⟩ := hg.inv.leadOk _ _ _ hm
    obtain ⟨_, _, n2, cov2⟩ := hg.inv.reqOk _ _ _ _ r1
    obtain ⟨l1, l2⟩ := hr.inv.leadNode p hl
    have n1 := hr.inv.leadConf p hl
    obtain ⟨c1, c2, cov1⟩ := hr.inv.commitOk p
    have cov1 : Cov s.net ((s.node p).term + 1) ((s.node p).log.take (s.node p).conf) := cov1.prefix (List.take_prefix_take_left c1)
    -- what the leader has applied was known to its successor
    have p1 : (s.node p).log.take (s.node p).conf <+: lg0 := by
      rcases cov1 with h | ⟨T0, q, cf0, h1, h2, h3⟩
      · rw [h]; exact List.nil_prefix
      · exact h3.trans (hr.inv.complete_req (hnet _ hm) h1 (by omega) r2 r3)
    -- what the successor had applied is known to the leader
    have p2 : lg0.take cf <+: (s.node p).log := by
      rcases cov2 with h | ⟨T0, q, cf0, h1, h2, h3⟩
      · rw [h]; exact List.nil_prefix
      · obtain ⟨_, c0, lgq, k, e, _, q1, q2, _⟩ := hg.inv.chosenOk _ _ _ h1
        have hT0 := ih T0 h2 _ _ q1
        refine h3.trans ?_
        rcases Nat.lt_or_ge T0 (s.node p).term with hlt | hge
        · exact hr.inv.complete _ _ _ _ _ _ l1 (hnet _ h1) hlt
        · have he : T0 = (s.node p).term := by omega
          subst he
          have hc := hr.inv.leadUnique _ _ _ _ _ (hnet _ q1) l1
          subst hc
          have : lgq <+: (s.node c0).log := l2 _ (hnet _ q1)
          rw [q2]
          exact (List.take_prefix _ _).trans this
    have q2 : lg0.take cf <+: lg0 := List.take_prefix _ _
    obtain ⟨v, v1, v2⟩ := CSys.meet (List.prefix_or_prefix_of_prefix p1 q2) (Nat.le_trans (nconf_prefix p1) n2) (Nat.le_trans (nconf_prefix p2) n1) hq r4
    have := hS v v1
    have := (hg.inv.grantNode _ _ _ (r5 v v2).1).2.1
    omega

open Spec Members ReadInv
open Cluster (gterm LogRel gterm_some gterm_prefix)

namespace MGen
variable (G : MGen)

/-- `i` covers everything chosen in terms up to `T` in `g0`. -/
def RGood (g0 : DState) (T i : Nat) : Prop :=
  G.L0.length ≤ i ∧ ∀ T' pre cf, DMsg.chosen T' pre cf ∈ g0.net → T' ≤ T → G.L0.length + pre.length ≤ i

/-- `i` covers everything chosen in `g0`. -/
def RFinal (g0 : DState) (i : Nat) : Prop :=
  G.L0.length ≤ i ∧ ∀ T' pre cf, DMsg.chosen T' pre cf ∈ g0.net → G.L0.length + pre.length ≤ i

/-- The moment when the facts in `g0` had been published and the messages `net0` sent. -/
def mark (g0 : DState) (net0 : List Message) (x : Bytes) : Mark where
  term0 v := (g0.node v).term
  net0 := net0
  x := x
  Good := G.RGood g0
  Final := G.RFinal g0

/-- `g0` is in the past of `s`. -/
structure Since (g0 s : DState) : Prop where
  net : ∀ m ∈ g0.net, m ∈ s.net
  term : ∀ v, (g0.node v).term ≤ (s.node v).term

variable {G} {g0 s : DState} {net0 : List Message} {x : Bytes} {p k : Nat} {c : Core}

/-- If a quorum of the leader's configuration had not moved beyond its term, what was chosen in its terms is all. -/
theorem RGood.final {i : Nat} {S : Nat → Prop} (h : G.RGood g0 c.term i) (hg : G.Run g0) (hr : G.Run s) (hs : Since g0 s)
    (hn : G.NodeRel p k s.net c (s.node p)) (hl : c.state = .leader) (hq : JQ c.config.voters S)
    (hS : ∀ u, S u → (g0.node u).term ≤ c.term) : G.RFinal g0 i := by
  rw [hn.term] at h hS
  refine ⟨h.1, fun T' pre cf hp => h.2 T' pre cf hp ?_⟩
  obtain ⟨_, c0, lg, _, _, _, l1, _⟩ := hg.inv.chosenOk _ _ _ hp
  exact no_later hg.reach hr.reach hs.net (hn.leader_role hl) ⟨_, (NodeRel.at hn (by rw [hl]; exact nofun)).2, hq⟩ hS _ _ _ l1

theorem facts (hg : G.Run g0) (hr : G.Run s) (hn : G.NodeRel p k s.net c (s.node p)) (hs : Since g0 s) : Facts (G.mark g0 net0 x) p c := by
  have hcom := hn.commit
  refine ⟨hn.id, by rw [hn.term]; exact hs.term p, fun hl hi => ?_, fun hl acks ha ht i hi => ?_⟩
  · refine ⟨by omega, fun T' pre cf hp hT => ?_⟩
    have hp' := hs.net _ hp
    obtain ⟨n1, n2⟩ := hr.inv.leadNode p (hn.leader_role hl)
    rw [hn.term] at hT
    by_cases he : T' = (s.node p).term
    · rw [he] at hp'
      have := hr.reach.chosenCommit _ _ _ _ _ hp' n1
      omega
    · have hlt : T' < (s.node p).term := by omega
      have hpre := hr.inv.complete _ _ _ _ _ _ n1 hp' hlt
      apply Decidable.byContradiction
      intro hlen
      obtain ⟨_, c0, lg, k, e0, _, l1, l2, l3, l4, _⟩ := hr.inv.chosenOk _ _ _ hp'
      obtain ⟨t, t1, t2⟩ := hi
      have hbase := hn.lcore.base_com
      have hlast := hn.lcore.com_last
      have ht : c.log.view.termAt c.log.committed = c.term := by
        rw [hn.lcore.wf.term_eq] at t1
        cases t1
        simpa [RaftLog.zeroTermOnErrCompacted] using t2
      rw [hn.log.termAt hbase, hcom, hn.term] at ht
      have hτ := hr.lead_gt l1
      by_cases hz : (s.node p).commit = 0
      · rw [hz, Nat.add_zero, gterm_prefix (List.prefix_append G.L0 _) (Nat.le_refl _)] at ht
        have := G.low
        omega
      · have hk : (s.node p).commit - 1 < pre.length := by omega
        have hge : pre[(s.node p).commit - 1]? = some (pre[(s.node p).commit - 1]'hk) := List.getElem?_eq_getElem _
        have hle := prefix_getElem?_some hpre hge
        have := gterm_some (L := G.L0 ++ (s.node p).log) (i := G.L0.length + ((s.node p).commit - 1)) (e := pre[(s.node p).commit - 1]'hk) (by
          rw [List.getElem?_append_right (by omega), Nat.add_sub_cancel_left]; exact hle)
        rw [show G.L0.length + ((s.node p).commit - 1) + 1 = G.L0.length + (s.node p).commit by omega, ht] at this
        have hmem : pre[(s.node p).commit - 1]'hk ∈ lg := by
          have hpl : pre <+: lg := by rw [l2]; exact List.take_prefix _ _
          exact hpl.subset (List.mem_of_getElem? hge)
        have := (hr.inv.leadTerms _ _ _ l1).2 _ hmem
        omega
  · have hne : c.config.voters.incoming ≠ [] := by
      have := (NodeRel.at hn (by rw [hl]; exact nofun)).2
      exact (CfgAt.good this G.good).voter
    obtain ⟨h1, h2⟩ := (C03_joint_vote_exact c.config.voters acks).1.1 ha
    exact RGood.final hi hg hr hs hn hl (S := fun v => acks.find v = Option.some true)
      ⟨⟨_, h1 hne, fun v _ hv => by simpa using hv⟩, fun ho => ⟨_, h2 ho, fun v _ hv => by simpa using hv⟩⟩ ht

/-- The last committed entry is of the node's term. -/
def TermOk (G : MGen) (a : DNode) : Prop := gterm (G.L0 ++ a.log) (G.L0.length + a.commit) = a.term

theorem NodeRel.inTerm (hn : G.NodeRel p k s.net c (s.node p)) : InTerm c ↔ G.TermOk (s.node p) := by
  have hbase := hn.lcore.base_com
  have hcom := hn.commit
  unfold InTerm TermOk
  rw [hn.lcore.wf.term_eq, hn.log.termAt hbase, hcom, hn.term]
  constructor
  · rintro ⟨t, t1, t2⟩
    cases t1
    simpa [RaftLog.zeroTermOnErrCompacted] using t2
  · intro h
    exact ⟨_, rfl, by simpa [RaftLog.zeroTermOnErrCompacted] using h⟩

/-- A leader keeps its log, and keeps having committed something of its term. -/
theorem lead_path (hr : G.Run g0) (hp : PPath G.Q p g0 s) (hl : (g0.node p).role = .leader)
    (he : (s.node p).term = (g0.node p).term) (hl' : (s.node p).role = .leader) :
    (g0.node p).log <+: (s.node p).log ∧ (G.TermOk (g0.node p) → G.TermOk (s.node p)) ∧
      (G.TermOk (s.node p) ∨ (s.node p).commit = (g0.node p).commit) := by
  suffices h : (s.node p).role ≠ .candidate ∧ ((s.node p).role = .leader →
      (g0.node p).log <+: (s.node p).log ∧ (G.TermOk (g0.node p) → G.TermOk (s.node p)) ∧
      (G.TermOk (s.node p) ∨ (s.node p).commit = (g0.node p).commit)) from h.2 hl'
  clear hl'
  induction hp with
  | nil => exact ⟨by rw [hl]; exact nofun, fun _ => ⟨List.prefix_rfl, fun h => h, Or.inr rfl⟩⟩
  | @snoc s out a hp hs ih =>
    rw [upd_self] at he ⊢
    have h1 := hp.term_le
    have h2 := hs.term_le
    obtain ⟨h3, h4⟩ := ih (by omega)
    have hrs := hp.run hr
    cases hs with
    | term => exact ⟨nofun, nofun⟩
    | down => exact ⟨nofun, nofun⟩
    | cand => dsimp only at he; omega
    | win S hc => exact absurd hc h3
    | conf => exact ⟨h3, h4⟩
    | grant => exact ⟨h3, h4⟩
    | ackCommit => exact ⟨h3, h4⟩
    | recv c lg full k h1 => exact ⟨h3, fun h => by rw [show (s.node p).role = _ from h] at h1; cases h1⟩
    | commitF c h1 => exact ⟨h3, fun h => by rw [show (s.node p).role = _ from h] at h1; cases h1⟩
    | append es h1 =>
      obtain ⟨x, y, z⟩ := h4 h1
      obtain ⟨c1, c2, _⟩ := hrs.inv.commitOk p
      have ok : G.TermOk (s.node p) → G.TermOk { s.node p with log := (s.node p).log ++ es } := by
        intro this
        unfold TermOk at this ⊢
        dsimp only
        rw [← List.append_assoc, gterm_prefix (List.prefix_append _ _) (by rw [List.length_append]; omega)]
        exact this
      exact ⟨h3, fun _ => ⟨x.trans (List.prefix_append _ _), fun h => ok (y h), z.imp ok fun h => h⟩⟩
    | commitL k e S h1 h2 h3' h4' =>
      have ok : G.TermOk { s.node p with commit := k + 1 } := by
        show gterm (G.L0 ++ (s.node p).log) (G.L0.length + (k + 1)) = (s.node p).term
        rw [← Nat.add_assoc, gterm_some (e := e), h4']
        rw [List.getElem?_append_right (by omega), Nat.add_sub_cancel_left]; exact h3'
      exact ⟨h3, fun _ => ⟨(h4 h1).1, fun _ => ok, Or.inl ok⟩⟩

/-- Two prefixes with the same conf changes have the same configuration. -/
theorem at_same {x y : List Entry} {a b : TConfig} (h : x <+: y) (hn : nconf y ≤ nconf x) (ha : G.At x a) (hb : G.At y b) : a = b := by
  obtain ⟨t, rfl⟩ := h
  rw [nconf_append] at hn
  have ht : nconf t = 0 := by omega
  clear hn
  suffices ∀ (t : List Entry), nconf t = 0 → G.At (x ++ t) a from CfgAt.det (this t ht) hb
  intro t
  clear hb
  induction t using List.reverseRecOn with
  | nil => intro _; rw [List.append_nil]; exact ha
  | append_singleton t e ih =>
    intro h
    rw [nconf_append] at h
    rw [← List.append_assoc]
    exact CfgAt.snoc (ih (by omega)) (EStep.normal (nconf_zero.1 (show nconf [e] = 0 by omega) e (List.mem_singleton.2 rfl)))

/-- As long as a leader has not committed anything of its term, its configuration is the one it was elected with. -/
theorem same_config {k' : Nat} {c' : Core} (hr : G.Run g0) (hp : PPath G.Q p g0 s) (hn : G.NodeRel p k g0.net c (g0.node p))
    (hn' : G.NodeRel p k' s.net c' (s.node p)) (hl : c.state = .leader) (hl' : c'.state = .leader) (ht : c'.term = c.term)
    (hno : ¬ G.TermOk (s.node p)) : c'.config = c.config := by
  have hrs := hp.run hr
  have he : (s.node p).term = (g0.node p).term := by rw [← hn.term, ← hn'.term, ht]
  obtain ⟨p1, p2, p3⟩ := lead_path hr hp (hn.leader_role hl) he (hn'.leader_role hl')
  have p3 := p3.resolve_left hno
  have first : ∀ {g : DState}, G.Run g → (g.node p).role = .leader → ¬ G.TermOk (g.node p) →
      nconf ((g.node p).log.take (g.node p).commit) ≤ nconf ((g.node p).log.take (g.node p).conf) := by
    intro g hg h1 h2
    refine (hg.reach.leadFirst p h1).resolve_left ?_
    rintro ⟨i, e, e1, e2, e3⟩
    apply h2
    unfold TermOk
    rw [e1, ← Nat.add_assoc, gterm_some (e := e), e3]
    rw [List.getElem?_append_right (by omega), Nat.add_sub_cancel_left]; exact e2
  have f1 := first hr (hn.leader_role hl) (fun h => hno (p2 h))
  have f2 := first hrs (hn'.leader_role hl') hno
  obtain ⟨c1, c2, _⟩ := hr.inv.commitOk p
  obtain ⟨d1, d2, _⟩ := hrs.inv.commitOk p
  rw [p3] at f2 d1 d2
  have htake : ∀ i, i ≤ (g0.node p).commit → (s.node p).log.take i = (g0.node p).log.take i := fun i hi => by
    obtain ⟨t, ht⟩ := p1
    rw [← ht, List.take_append_of_le_length (by omega)]
  rw [htake _ (Nat.le_refl _), htake _ d1] at f2
  have a1 := (NodeRel.at hn (by rw [hl]; exact nofun)).2
  have a2 := (NodeRel.at hn' (by rw [hl']; exact nofun)).2
  rw [htake _ d1] at a2
  have m1 := nconf_take_mono (g0.node p).log c1
  have m2 := nconf_take_mono (g0.node p).log d1
  rcases Nat.le_total (g0.node p).conf (s.node p).conf with h | h
  · exact (at_same (List.take_prefix_take_left h) (by omega) a1 a2).symm
  · exact at_same (List.take_prefix_take_left h) (by omega) a2 a1

/-- A leadership that goes on stays settled. -/
theorem settled_path {k' : Nat} {c' : Core} (hr : G.Run g0) (hp : PPath G.Q p g0 s) (hn : G.NodeRel p k g0.net c (g0.node p))
    (hn' : G.NodeRel p k' s.net c' (s.node p)) (hl : c.state = .leader) (ht : c'.term = c.term) (h : Settled c) : Settled c' := by
  intro hl' hv hu
  apply Classical.byContradiction
  intro hno
  rw [NodeRel.inTerm hn'] at hno
  have hcfg := same_config hr hp hn hn' hl hl' ht hno
  have he : (s.node p).term = (g0.node p).term := by rw [← hn.term, ← hn'.term, ht]
  obtain ⟨p1, p2, _⟩ := lead_path hr hp (hn.leader_role hl) he (hn'.leader_role hl')
  refine hno (p2 ((NodeRel.inTerm hn).1 (h hl (by rw [← hcfg, hv, hn.id, hn'.id]) ?_)))
  have e1 := hn.last_eq
  have e2 := hn'.last_eq
  have := p1.length_le
  omega

/-- The only voter knows everything that is committed. -/
theorem single {v : Nat} (hg : G.Run g0) (hr : G.Run s) (hn : G.NodeRel p k s.net c (s.node p)) (hs : Since g0 s) (hl : c.state = .leader)
    (hv : c.config.voters = { incoming := [v], outgoing := [] }) (hvp : v = p) (hu : c.log.lastIndex ≤ u64Max) (hset : Settled c) :
    G.RFinal g0 c.log.committed := by
  subst hvp
  have hf := facts (net0 := []) (x := []) hg hr hn hs
  have hi := hset hl (by rw [hv, hn.id]) hu
  refine RGood.final (hf.good hl hi) hg hr hs hn hl (S := fun u => u = v) ?_ fun u hu => ?_
  · rw [hv]
    refine ⟨⟨fun _ => true, ?_, fun _ h _ => by simpa using h⟩, fun h => absurd rfl h⟩
    unfold Spec.Majority Spec.count
    simp
  · subst hu; exact hf.term

/-- What the protocol says holds throughout a call. -/
theorem path_facts {env : Env} {im : Message} {c1 : Core} {ms1 : List Message} (hp : CPath env im c ms1 c1) (hg : G.Run g0)
    (hr : G.Run s) (hn : G.NodeRel p k s.net c (s.node p)) (hok : G.MsgOk s.net im) (hns : ¬ G.strict) (hli : LInv c.log)
    (hto : im.type = .voteResp ∨ im.type = .heartbeat → im.to = p) (hsn : Since g0 s) : Facts (G.mark g0 net0 x) p c1 := by
  induction hp generalizing s with
  | nil => exact facts hg hr hn hsn
  | cons hs _ ih =>
    have hl1 := (hs.linv (msgOk_appWF hr hok) hli).1
    obtain ⟨s1, p1, n1, m1⟩ := step_done hr hn hok hs (fun h => absurd h hns) hl1.core (fun _ hm => hli.base_app (hli.no_snap hm.2)) hto
    refine ih (p1.run hr) n1 (hok.mono p1.net) hl1 ⟨fun m hm => p1.net m (hsn.net m hm), fun v => ?_⟩
    by_cases hv : v = p
    · subst hv; exact Nat.le_trans (hsn.term v) p1.term_le
    · rw [p1.other hv]; exact hsn.term v

end MGen
end Craft.Dyn
