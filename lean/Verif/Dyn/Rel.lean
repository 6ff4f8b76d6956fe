import Verif.Cluster.Core
import Verif.Dyn.Conf
import Verif.Node.Plain

/-! # Relating a node of the code to a node of the abstract protocol with membership changes -/

namespace Craft.Dyn
open Spec
open Cluster (gterm LogRel gterm_some gterm_prefix gterm_out gterm_ne append_take append_prefix)

/-- The `ConfState` of a configuration. -/
def csOf (cfg : TConfig) : ConfState := ({ config := cfg, maxInflight := 0 } : Tracker).confState

theorem confState_eq (t : Tracker) : t.confState = csOf t.config := rfl

/-- The log invariants that hold even in the middle of handling a Ready. -/
structure LCore (l : RaftLog) : Prop where
  wf : l.WF
  app_com : l.applied ≤ l.committed
  com_last : l.committed ≤ l.view.last
  base_com : l.view.base ≤ l.committed
  snap_com : l.storage.snapshot.metadata.index ≤ l.committed

theorem _root_.Craft.LInv.core {l : RaftLog} (h : LInv l) : LCore l := ⟨h.wf, h.app_com, h.com_last, h.base_com, h.snap_com⟩

/-- What a cluster starts from. -/
structure MGen where
  L0 : List Entry
  τ : Nat
  dec : Entry → Option ConfChangeI
  cfg0 : TConfig
  good : GoodCfg cfg0
  terms : ∀ e ∈ L0, e.term ≠ 0
  low : gterm L0 L0.length ≤ τ + 1
  still : ∀ e ∈ L0, ∀ cc, confOf dec e = some cc → ∀ env r r' cs, r.trk.config = cfg0 →
    Raft.applyConfChange env r cc.asV2 = .ok (r', cs) → r'.trk.config = cfg0
  /-- The log the founders of the cluster write when they bootstrap (nothing if the cluster does not start that way). -/
  B : List Entry
  /-- The term up to which a vote may be forgotten. -/
  τ1 : Nat
  founder : Nat → Prop
  /-- A configuration a node may use while its application has applied the first `k` bootstrap entries only. -/
  Early : Nat → TConfig → Prop
  bootL0 : B ≠ [] → L0 = []
  bootConf : ∀ e ∈ B, e.type ≠ .normal
  bootτ : B = [] → τ1 = 0
  bootτ' : τ1 ≤ τ + 1
  earlyMem : ∀ {k cfg x}, Early k cfg → Member cfg x → founder x
  earlyStep : ∀ {k e cfg cfg'}, B[k]? = some e → Early k cfg → EStep dec e cfg cfg' →
    (k + 1 < B.length → Early (k + 1) cfg') ∧ (k + 1 = B.length → CfgAt dec cfg0 B cfg')
  earlyGood : ∀ {k cfg}, Early k cfg → GoodCfg cfg ∨ cfg = {}
  /-- The conf changes handed to leaders can be applied, and so can the change of an automatic leave. -/
  strict : Prop
  autoOk : strict → ∀ cfg e, GoodCfg cfg → cfg.autoLeave = true → e.type = .confChangeV2 → e.data = [] → ∃ cfg', EStep dec e cfg cfg'

namespace MGen
variable (G : MGen)

def Q : CSys := quorums G.dec G.cfg0 G.good G.strict

/-- The configuration once the first `x` entries after the initial log are applied. -/
def At (x : List Entry) (cfg : TConfig) : Prop := CfgAt G.dec G.cfg0 x cfg

/-- The configuration a node may use once its application has applied the first `x` entries of `lg`. -/
def Conf (lg : List Entry) (x : Nat) (cfg : TConfig) : Prop :=
  (x < G.B.length ∧ G.Early x cfg) ∨ (G.B.length ≤ x ∧ G.At (lg.take x) cfg)

/-- The abstract protocol, run on after the founders have bootstrapped. -/
structure Run (s : DState) : Prop where
  reach : DReach G.Q G.τ s
  founder : ∀ p, G.founder p → G.τ1 ≤ (s.node p).term ∧ G.B.length ≤ (s.node p).commit
  boot : G.B = [] ∨ ∃ cf, DMsg.chosen (G.τ + 1) G.B cf ∈ s.net

/-- The vote of a node may be forgotten in the terms of the bootstrap. -/
def VoteOk (v : Nat) (a : DNode) : Prop := v = a.vote ∨ (v = 0 ∧ 0 < a.term ∧ a.term ≤ G.τ1)

/-- Index `k` of the log `L0 ++ lg` is covered by something chosen in a term up to `T`. -/
def CommitOk (N : List DMsg) (T : Nat) (lg : List Entry) (k : Nat) : Prop :=
  k ≤ G.L0.length ∨ (k ≤ G.L0.length + lg.length ∧ Cov N (T + 1) (lg.take (k - G.L0.length)))

/-- `v` has everything up to `i` of the log of the leader of `T`. -/
def AckOk (N : List DMsg) (T v i : Nat) : Prop :=
  i ≤ G.L0.length ∨ ∃ j, i ≤ G.L0.length + j ∧ DMsg.ack T v j ∈ N

/-- A snapshot of the log `L0 ++ lg`. -/
structure SnapOk (lg : List Entry) (s : Snapshot) : Prop where
  le : s.metadata.index ≤ G.L0.length + lg.length
  term : s.metadata.term = gterm (G.L0 ++ lg) s.metadata.index
  conf : ∃ cfg, G.Conf lg (s.metadata.index - G.L0.length) cfg ∧ s.metadata.confState = csOf cfg

/-- What the published facts say about a message. -/
def MsgOk (N : List DMsg) (m : Message) : Prop :=
  match m.type with
  | .vote => ∃ lg cf, DMsg.voteReq m.term m.src lg cf ∈ N ∧ m.index = G.L0.length + lg.length ∧ m.logTerm = gterm (G.L0 ++ lg) m.index ∧
      G.τ1 < m.term
  | .voteResp => m.reject = false → DMsg.voteGrant m.term m.src m.to ∈ N
  | .app => ∃ c lg, (DMsg.lead m.term c lg ∈ N ∧ c = m.src) ∧ m.index ≤ (G.L0 ++ lg).length ∧ (G.L0 ++ lg).take m.index ++ m.entries <+: G.L0 ++ lg ∧
      m.logTerm = gterm (G.L0 ++ lg) m.index ∧ G.CommitOk N m.term lg m.commit ∧ Contig 1 (G.L0 ++ lg) ∧
      nconf (lg.take (m.index + m.entries.length - G.L0.length)) ≤
        nconf (lg.take (min m.commit (m.index + m.entries.length) - G.L0.length)) + 1
  | .snap => ∃ s, m.snapshot = some s ∧ ∃ c lg, (DMsg.lead m.term c lg ∈ N ∧ c = m.src) ∧ G.SnapOk lg s ∧ G.CommitOk N m.term lg s.metadata.index ∧
      Contig 1 (G.L0 ++ lg)
  | .heartbeat => (∃ c lg, (DMsg.lead m.term c lg ∈ N ∧ c = m.src) ∧ G.CommitOk N m.term lg m.commit) ∧ G.AckOk N m.term m.to m.commit
  | .appResp => m.reject = false → G.AckOk N m.term m.src m.index
  | _ => True

/-- The conf changes in a message to a leader that pass its gate can be applied. -/
def Vetted (env : Env) (im : Message) (c : Core) : Prop :=
  G.strict → im.type = .prop → c.state = .leader → ∀ e ∈ im.entries, e.type ≠ .normal →
    (∃ cc, env.conf e = some cc ∧ (cc.asV2.changes = [] ↔ c.config.voters.outgoing ≠ [])) →
    ∀ e' : Entry, e'.type = e.type → e'.data = e.data → ∃ cfg', EStep G.dec e' c.config cfg'

def roleOf : Role → Abs.ARole
  | .leader => .leader
  | .candidate => .candidate
  | _ => .follower

/-- The core `c` of node `p`, whose application has applied up to `k`, is the abstract node `a`. -/
structure NodeRel (p k : Nat) (N : List DMsg) (c : Core) (a : DNode) : Prop where
  id : c.id = p
  idne : p ≠ 0
  term : c.term = a.term
  vote : G.VoteOk c.vote a
  role : roleOf c.state = a.role
  lcore : LCore c.log
  log : LogRel (G.L0 ++ a.log) c.log.view
  commit : c.log.committed = G.L0.length + a.commit
  config : G.Conf a.log a.conf c.config
  early : a.conf < G.B.length → c.state = .follower
  cinv : ConfInv c.config c.progress
  votes : c.state = .candidate → G.τ1 < a.term ∧ ∀ v, c.votes.find v = some true → DMsg.voteGrant a.term v p ∈ N
  prs : c.state = .leader → ∀ v pr, c.progress.find v = some pr → PrOk c.log.lastIndex pr ∧ G.AckOk N a.term v pr.mtch
  snap : G.SnapOk a.log c.log.snapshot
  stsnap : G.SnapOk a.log c.log.storage.snapshot
  pos : a.conf = max k c.log.view.base - G.L0.length
  app : c.log.applied ≤ k
  kcom : k ≤ c.log.committed
  pre : c.state = .preCandidate → G.τ1 ≤ a.term ∧ nconf (a.log.take a.commit) ≤ nconf (a.log.take a.conf)
  pci : c.state = .leader → ∀ (i : Nat) (e : Entry), a.log[i]? = some e → e.type ≠ .normal → G.L0.length + i + 1 ≤ c.pci
  high : c.state = .leader → G.τ1 < a.term

theorem NodeRel.resize {G : MGen} {p k : Nat} {N : List DMsg} {c : Core} {a : DNode} (h : G.NodeRel p k N c a) (u : Nat) :
    G.NodeRel p k N { c with size := u } a :=
  ⟨h.id, h.idne, h.term, h.vote, h.role, h.lcore, h.log, h.commit, h.config, h.early, h.cinv, h.votes, h.prs, h.snap, h.stsnap, h.pos, h.app, h.kcom, h.pre, h.pci, h.high⟩

variable {G} {N N' : List DMsg}

theorem CommitOk.mono {T k : Nat} {lg : List Entry} (h : G.CommitOk N T lg k) (hn : ∀ m ∈ N, m ∈ N') : G.CommitOk N' T lg k := by
  rcases h with h | ⟨h1, h2⟩
  · exact Or.inl h
  · exact Or.inr ⟨h1, h2.mono hn (Nat.le_refl _)⟩

theorem AckOk.mono {T v i : Nat} (h : G.AckOk N T v i) (hn : ∀ m ∈ N, m ∈ N') : G.AckOk N' T v i := by
  rcases h with h | ⟨j, h1, h2⟩
  · exact Or.inl h
  · exact Or.inr ⟨j, h1, hn _ h2⟩

theorem MsgOk.mono {m : Message} (h : G.MsgOk N m) (hn : ∀ m ∈ N, m ∈ N') : G.MsgOk N' m := by
  unfold MsgOk at *
  split at h
  · obtain ⟨lg, cf, h1, h2⟩ := h; exact ⟨lg, cf, hn _ h1, h2⟩
  · exact fun hr => hn _ (h hr)
  · obtain ⟨c, lg, h1, h2, h3, h4, h5, h6⟩ := h; exact ⟨c, lg, ⟨hn _ h1.1, h1.2⟩, h2, h3, h4, h5.mono hn, h6⟩
  · obtain ⟨s, h0, c, lg, h1, h2, h3, h4⟩ := h; exact ⟨s, h0, c, lg, ⟨hn _ h1.1, h1.2⟩, h2, h3.mono hn, h4⟩
  · obtain ⟨⟨c, lg, h1, h2⟩, h3⟩ := h; exact ⟨⟨c, lg, ⟨hn _ h1.1, h1.2⟩, h2.mono hn⟩, h3.mono hn⟩
  · exact fun hr => (h hr).mono hn
  · trivial

theorem NodeRel.mono {p k : Nat} {c : Core} {a : DNode} (h : G.NodeRel p k N c a) (hn : ∀ m ∈ N, m ∈ N') : G.NodeRel p k N' c a :=
  { h with
    votes := fun hc => ⟨(h.votes hc).1, fun v hv => hn _ ((h.votes hc).2 v hv)⟩
    prs := fun hl v pr hp => ⟨(h.prs hl v pr hp).1, (h.prs hl v pr hp).2.mono hn⟩ }

/-- The restored configuration is the recorded one. -/
theorem restore_ok {cfg cfg' : TConfig} {mi : Int} {last : Nat} {P : ProgressMap} (hg : GoodCfg cfg)
    (h : Changer.restore { tracker := { maxInflight := mi }, lastIndex := last } (csOf cfg) = .ok (cfg', P)) : cfg' = cfg ∧ ConfInv cfg P := by
  obtain ⟨prs, hi⟩ := hg.inv
  obtain ⟨P', h1, h2⟩ := C14_restore_roundtrip { config := cfg, progress := prs, maxInflight := 0 } hi hg.zero (Or.inl hg.voter) mi last
  have h1' : Changer.restore { tracker := { maxInflight := mi }, lastIndex := last } (csOf cfg) = .ok (cfg, P') := h1
  rw [h1'] at h
  cases h
  exact ⟨rfl, h2⟩

theorem restore_empty {cfg' : TConfig} {mi : Int} {last : Nat} {P : ProgressMap}
    (h : Changer.restore { tracker := { maxInflight := mi }, lastIndex := last } (csOf {}) = .ok (cfg', P)) : cfg' = {} ∧ ConfInv {} P := by
  cases h
  exact ⟨rfl, by constructor <;> simp [Member, AMap.find]⟩

/-- The same for any configuration in use. -/
theorem Conf.restore {lg : List Entry} {x : Nat} {cfg cfg' : TConfig} {mi : Int} {last : Nat} {P : ProgressMap} (hc : G.Conf lg x cfg)
    (h : Changer.restore { tracker := { maxInflight := mi }, lastIndex := last } (csOf cfg) = .ok (cfg', P)) : cfg' = cfg ∧ ConfInv cfg P := by
  rcases hc with ⟨_, hc⟩ | ⟨_, hc⟩
  · rcases G.earlyGood hc with hg | rfl
    · exact restore_ok hg h
    · exact restore_empty h
  · exact restore_ok (hc.good G.good) h

theorem Conf.at {lg : List Entry} {x : Nat} {cfg : TConfig} (h : G.Conf lg x cfg) (hx : G.B.length ≤ x) : G.At (lg.take x) cfg := by
  rcases h with ⟨h1, _⟩ | ⟨_, h⟩
  · omega
  · exact h

/-- Only the first `x` entries matter. -/
theorem Conf.congr {lg lg' : List Entry} {x : Nat} {cfg : TConfig} (h : G.Conf lg x cfg) (he : lg'.take x = lg.take x) : G.Conf lg' x cfg := by
  rcases h with h | ⟨h1, h2⟩
  · exact Or.inl h
  · exact Or.inr ⟨h1, by rw [he]; exact h2⟩

namespace Run
variable {s : DState}

theorem inv (h : G.Run s) : Inv G.Q s := h.reach.inv
theorem aux (h : G.Run s) : Aux G.τ s := h.reach.aux
theorem lead_gt (h : G.Run s) {T c : Nat} {lg : List Entry} (hl : DMsg.lead T c lg ∈ s.net) : G.τ < T := h.reach.lead_gt hl
theorem matched_gt (h : G.Run s) {X : List Entry} (hm : Matched s.net X) {e : Entry} (he : e ∈ X) : G.τ < e.term := h.reach.matched_gt hm he

/-- The conf changes in a log can be applied. -/
theorem applies (h : G.Run s) (p : Nat) (hst : G.strict) : Applies G.dec G.cfg0 (s.node p).log := h.reach.oks.1 p hst

/-- All logs begin with the bootstrap entries. -/
theorem head (h : G.Run s) {X : List Entry} (hm : Matched s.net X) {k : Nat} (hk : k < G.B.length) {e : Entry} (he : X[k]? = some e) :
    G.B[k]? = some e := by
  rcases h.boot with hb | ⟨cf, hb⟩
  · rw [hb] at hk; cases hk
  · obtain ⟨c, lg, h1, h2⟩ := hm k e he
    have hlt := (List.getElem?_eq_some_iff.1 he).1
    have hX : (X.take (k + 1))[k]? = some e := by rw [List.getElem?_take_of_lt (by omega)]; exact he
    rcases h.inv.chosen_cmp hb h1 (by have := h.lead_gt h1; omega) h2 with h3 | h3
    · have := Abs.prefix_getElem? h3 (k := k) hk
      rw [← this]; exact hX
    · exact Abs.prefix_getElem?_some h3 hX

end Run

end MGen

/-- Only flow control and learner-preserving changes of the progress map. -/
theorem _root_.Craft.Spec.ConfInv.rel {cfg : TConfig} {P P' : ProgressMap} (h : ConfInv cfg P) {R : Nat → Progress → Progress → Prop}
    (hP : PrsRel R P P') (hR : ∀ v q q', R v q q' → q'.isLearner = q.isLearner) : ConfInv cfg P' := by
  refine { h with prs_sorted := hP.2 h.prs_sorted, prs_exact := fun id => ?_, lrn_flag := fun id p hp => ?_ }
  · rw [← h.prs_exact id]
    rcases hP.1 id with ⟨h1, h2⟩ | ⟨p, p', h1, h2, _⟩
    · rw [h1, h2]
    · rw [h1, h2]; exact ⟨fun _ => ⟨p, rfl⟩, fun _ => ⟨p', rfl⟩⟩
  · rcases hP.1 id with ⟨h1, h2⟩ | ⟨q, q', h1, h2, h3⟩
    · rw [h2] at hp; cases hp
    · rw [h2] at hp
      cases hp
      rw [hR _ _ _ h3]
      exact h.lrn_flag id q h1

theorem _root_.Craft.Spec.ConfInv.insert {cfg : TConfig} {P : ProgressMap} (h : ConfInv cfg P) {v : Nat} {q q' : Progress} (hf : P.find v = some q)
    (hq : q'.isLearner = q.isLearner) : ConfInv cfg (P.insert v q') := by
  refine { h with prs_sorted := AMap.keys_insert_sorted _ _ h.prs_sorted, prs_exact := fun id => ?_, lrn_flag := fun id p hp => ?_ }
  · rw [← h.prs_exact id, AMap.find_insert]
    split
    · rename_i he; subst he; rw [hf]; exact ⟨fun _ => ⟨q, rfl⟩, fun _ => ⟨q', rfl⟩⟩
    · exact Iff.rfl
  · rw [AMap.find_insert] at hp
    split at hp
    · rename_i he; subst he; cases hp; rw [hq]; exact h.lrn_flag _ q hf
    · exact h.lrn_flag id p hp

end Craft.Dyn
