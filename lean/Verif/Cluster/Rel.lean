import Verif.Abs.Inv
import Verif.Node.LogInv
import Verif.Props.Quorum
import Verif.Spec.Cluster

/-! # Relating a node of the code to a node of the abstract protocol

`L0` is the log every node starts with (everything in it is committed); an abstract node keeps only what comes after it. -/

namespace Craft.Cluster
open Spec Abs

theorem gterm_some {L : List Entry} {i : Nat} {e : Entry} (h : L[i]? = some e) : gterm L (i + 1) = e.term := by
  unfold gterm
  rw [if_neg (by omega), Nat.add_sub_cancel, h]; rfl

theorem gterm_prefix {L L' : List Entry} (h : L <+: L') {i : Nat} (hi : i ≤ L.length) : gterm L' i = gterm L i := by
  unfold gterm
  split
  · rfl
  · rw [prefix_getElem? h (by omega)]

theorem gterm_out {L : List Entry} {i : Nat} (h : L.length < i) : gterm L i = 0 := by
  unfold gterm
  split
  · rfl
  · rw [List.getElem?_eq_none (by omega)]; rfl

namespace LogRel
variable {L : List Entry} {v : LogView}

theorem base_le (h : LogRel L v) : v.base ≤ L.length := by
  rw [h.len]; exact Nat.le_add_right _ _

theorem entry (h : LogRel L v) {i : Nat} (hb : v.base < i) : v.entry i = L[i - 1]? := by
  unfold LogView.entry
  rw [if_neg (by omega), h.ents, List.getElem?_drop]
  congr 1; omega

theorem termAt (h : LogRel L v) {i : Nat} (hb : v.base ≤ i) : v.termAt i = gterm L i := by
  unfold LogView.termAt
  split
  · rename_i he; rw [he]; exact h.base
  · rw [h.entry (by omega)]
    unfold gterm
    rw [if_neg (by omega)]
    cases L[i - 1]? <;> rfl

theorem push (h : LogRel L v) {es : List Entry} (hc : Contig (L.length + 1) es) : LogRel (L ++ es) (v.push es) := by
  have hb := h.base_le
  refine ⟨?_, ?_, ?_, ?_⟩
  · rw [List.length_append, h.len]; unfold LogView.last LogView.push; simp; omega
  · show v.ents ++ es = (L ++ es).drop v.base
    rw [List.drop_append_of_le_length hb, ← h.ents]
  · show v.baseTerm = gterm (L ++ es) v.base
    rw [h.base, gterm_prefix (List.prefix_append L es) hb]
  · exact h.contig.append (by rwa [Nat.add_comm])

theorem compact (h : LogRel L v) {i : Nat} (hb : v.base ≤ i) (hi : i ≤ v.last) : LogRel L (v.compact i) := by
  refine ⟨by rw [LogView.compact_last hb hi]; exact h.len, ?_, h.termAt hb, h.contig⟩
  show v.ents.drop (i - v.base) = L.drop i
  rw [h.ents, List.drop_drop]
  congr 1; omega

/-- The view after taking over `full` from a position where the two logs still agree. -/
theorem splice (h : LogRel L v) {full ents : List Entry} {k n : Nat} (hc : Contig 1 full) (hb : v.base ≤ k)
    (hf : full = L.take (k + n) ++ ents.drop n) (hk : k + n ≤ L.length) : LogRel full (v.splice (k + 1 + n) (ents.drop n)) := by
  have hlt : (L.take (k + n)).length = k + n := by rw [List.length_take]; omega
  have hpre : L.take (k + n) <+: full := by rw [hf]; exact List.prefix_append _ _
  have hents : (v.splice (k + 1 + n) (ents.drop n)).ents = full.drop v.base := by
    show v.ents.take (k + 1 + n - v.base - 1) ++ ents.drop n = _
    rw [hf, List.drop_append_of_le_length (by omega), h.ents, List.drop_take]
    congr 2; omega
  have hfl : full.length = k + n + (ents.drop n).length := by rw [hf, List.length_append, hlt]
  refine ⟨?_, hents, ?_, hc⟩
  · show _ = v.base + (v.splice (k + 1 + n) (ents.drop n)).ents.length
    rw [hents, List.length_drop]; omega
  · show v.baseTerm = gterm full v.base
    rw [h.base, gterm_prefix hpre (by omega), gterm_prefix (List.take_prefix (k + n) L) (by omega)]

end LogRel

/-! ## Quorums -/

/-- A majority of each half of the configuration (one half if it is not joint). -/
def joint (cfg : JointConfig) (hne : cfg.incoming ≠ []) : QSys where
  may v := v ∈ cfg.incoming ∨ v ∈ cfg.outgoing
  isQ S := (∃ P : Nat → Bool, Spec.Majority cfg.incoming P ∧ ∀ v ∈ cfg.incoming, P v = true → S v) ∧
    (cfg.outgoing ≠ [] → ∃ P : Nat → Bool, Spec.Majority cfg.outgoing P ∧ ∀ v ∈ cfg.outgoing, P v = true → S v)
  inter := by
    rintro S S' ⟨⟨P, h1, h2⟩, _⟩ ⟨⟨P', h3, h4⟩, _⟩
    obtain ⟨v, hv, a, b⟩ := majority_inter cfg.incoming P P' h1 h3
    exact ⟨v, h2 v hv a, h4 v hv b⟩

theorem joint_won {cfg : JointConfig} (hne : cfg.incoming ≠ []) {votes : AMap Bool} (h : cfg.voteResult votes = .won) :
    (joint cfg hne).isQ fun v => votes.find v = some true := by
  obtain ⟨h1, h2⟩ := (C03_joint_vote_exact cfg votes).1.1 h
  refine ⟨⟨_, h1 hne, fun v _ hv => by simpa using hv⟩, fun ho => ⟨_, h2 ho, fun v _ hv => by simpa using hv⟩⟩

theorem joint_acked {cfg : JointConfig} (hne : cfg.incoming ≠ []) {acked : Nat → Option Nat} {i : Nat} (h : i ≤ cfg.committedIndex acked) :
    (joint cfg hne).isQ fun v => i ≤ (acked v).getD 0 := by
  have mono : ∀ (l : USet) (i j : Nat), i ≤ j → MajorityAcked l acked j → MajorityAcked l acked i := by
    intro l i j hij h
    unfold MajorityAcked Spec.Majority Spec.count at *
    rw [← List.countP_eq_length_filter] at *
    refine Nat.lt_of_lt_of_le h (Nat.mul_le_mul_left 2 ?_)
    apply List.countP_mono_left
    intro v _ hv
    simp only [decide_eq_true_eq] at *
    omega
  unfold JointConfig.committedIndex at h
  refine ⟨⟨_, mono cfg.incoming i _ (by omega) (C01_majority_committed_exact cfg.incoming acked hne).1, fun v _ hv => by simpa using hv⟩,
    fun ho => ⟨_, mono cfg.outgoing i _ (by omega) (C01_majority_committed_exact cfg.outgoing acked ho).1, fun v _ hv => by simpa using hv⟩⟩

/-! ## The relation -/

/-- What a cluster starts from: the common committed log, the term everybody starts in, and the fixed membership. -/
structure Gen where
  L0 : List Entry
  τ : Nat
  cs : ConfState
  cfg : TConfig
  ne : cfg.voters.incoming ≠ []
  terms : ∀ e ∈ L0, e.term ≠ 0
  low : gterm L0 L0.length ≤ τ + 1
  auto : cfg.autoLeave = false
  restore : ∀ mi last cfg' prs, Changer.restore { tracker := { maxInflight := mi }, lastIndex := last } cs = .ok (cfg', prs) → cfg' = cfg ∧
    ∀ v pr, prs.find v = some pr → pr.isLearner = false → v ∈ cfg.voters.incoming ∨ v ∈ cfg.voters.outgoing

namespace Gen
variable (G : Gen)

def Q : QSys := joint G.cfg.voters G.ne

/-- Index `k` of the log `L0 ++ lg` is covered by something chosen in a term up to `T`. -/
def CommitOk (N : List AMsg) (T : Nat) (lg : List Entry) (k : Nat) : Prop :=
  k ≤ G.L0.length ∨ ∃ T0 pre, AMsg.chosen T0 pre ∈ N ∧ T0 ≤ T ∧ k ≤ G.L0.length + lg.length ∧ lg.take (k - G.L0.length) <+: pre

/-- `v` has everything up to `i` of the log of the leader of `T`. -/
def AckOk (N : List AMsg) (T v i : Nat) : Prop :=
  i ≤ G.L0.length ∨ ∃ j, i ≤ G.L0.length + j ∧ AMsg.ack T v j ∈ N

/-- A snapshot of the log `L0 ++ lg`. -/
structure SnapOk (lg : List Entry) (s : Snapshot) : Prop where
  le : s.metadata.index ≤ G.L0.length + lg.length
  term : s.metadata.term = gterm (G.L0 ++ lg) s.metadata.index
  conf : s.metadata.confState = G.cs

/-- What the published facts say about a message. -/
def MsgOk (N : List AMsg) (m : Message) : Prop :=
  match m.type with
  | .vote => ∃ lg, AMsg.voteReq m.term m.src lg ∈ N ∧ m.index = G.L0.length + lg.length ∧ m.logTerm = gterm (G.L0 ++ lg) m.index
  | .voteResp => m.reject = false → AMsg.voteGrant m.term m.src m.to ∈ N
  | .app => ∃ c lg, (AMsg.lead m.term c lg ∈ N ∧ c = m.src) ∧ m.index ≤ (G.L0 ++ lg).length ∧ (G.L0 ++ lg).take m.index ++ m.entries <+: G.L0 ++ lg ∧
      m.logTerm = gterm (G.L0 ++ lg) m.index ∧ G.CommitOk N m.term lg m.commit ∧ Contig 1 (G.L0 ++ lg)
  | .snap => ∃ s, m.snapshot = some s ∧ ∃ c lg, (AMsg.lead m.term c lg ∈ N ∧ c = m.src) ∧ G.SnapOk lg s ∧ G.CommitOk N m.term lg s.metadata.index ∧
      Contig 1 (G.L0 ++ lg)
  | .heartbeat => (∃ c lg, (AMsg.lead m.term c lg ∈ N ∧ c = m.src) ∧ G.CommitOk N m.term lg m.commit) ∧ G.AckOk N m.term m.to m.commit
  | .appResp => m.reject = false → G.AckOk N m.term m.src m.index
  | _ => True

def roleOf : Role → ARole
  | .leader => .leader
  | .candidate => .candidate
  | _ => .follower

/-- The core `c` of node `p` is the abstract node `a`, the facts `N` having been published. -/
structure NodeRel (p : Nat) (N : List AMsg) (c : Core) (a : ANode) : Prop where
  id : c.id = p
  idne : p ≠ 0
  term : c.term = a.term
  vote : c.vote = a.vote
  role : roleOf c.state = a.role
  linv : LInv c.log
  log : LogRel (G.L0 ++ a.log) c.log.view
  commit : c.log.committed = G.L0.length + a.commit
  config : c.config = G.cfg
  votes : c.state = .candidate → ∀ v, c.votes.find v = some true → AMsg.voteGrant a.term v p ∈ N
  prs : c.state = .leader → ∀ v pr, c.progress.find v = some pr → PrOk c.log.lastIndex pr ∧ G.AckOk N a.term v pr.mtch
  snap : G.SnapOk a.log c.log.snapshot
  stsnap : G.SnapOk a.log c.log.storage.snapshot

variable {G} {N N' : List AMsg}

theorem CommitOk.mono {T k : Nat} {lg : List Entry} (h : G.CommitOk N T lg k) (hn : ∀ m ∈ N, m ∈ N') : G.CommitOk N' T lg k := by
  rcases h with h | ⟨T0, pre, h1, h2⟩
  · exact Or.inl h
  · exact Or.inr ⟨T0, pre, hn _ h1, h2⟩

theorem AckOk.mono {T v i : Nat} (h : G.AckOk N T v i) (hn : ∀ m ∈ N, m ∈ N') : G.AckOk N' T v i := by
  rcases h with h | ⟨j, h1, h2⟩
  · exact Or.inl h
  · exact Or.inr ⟨j, h1, hn _ h2⟩

theorem MsgOk.mono {m : Message} (h : G.MsgOk N m) (hn : ∀ m ∈ N, m ∈ N') : G.MsgOk N' m := by
  unfold MsgOk at *
  split at h
  · obtain ⟨lg, h1, h2⟩ := h; exact ⟨lg, hn _ h1, h2⟩
  · exact fun hr => hn _ (h hr)
  · obtain ⟨c, lg, h1, h2, h3, h4, h5, h6⟩ := h; exact ⟨c, lg, ⟨hn _ h1.1, h1.2⟩, h2, h3, h4, h5.mono hn, h6⟩
  · obtain ⟨s, h0, c, lg, h1, h2, h3, h4⟩ := h; exact ⟨s, h0, c, lg, ⟨hn _ h1.1, h1.2⟩, h2, h3.mono hn, h4⟩
  · obtain ⟨⟨c, lg, h1, h2⟩, h3⟩ := h; exact ⟨⟨c, lg, ⟨hn _ h1.1, h1.2⟩, h2.mono hn⟩, h3.mono hn⟩
  · exact fun hr => (h hr).mono hn
  · trivial

theorem NodeRel.mono {p : Nat} {c : Core} {a : ANode} (h : G.NodeRel p N c a) (hn : ∀ m ∈ N, m ∈ N') : G.NodeRel p N' c a :=
  { h with
    votes := fun hc v hv => hn _ (h.votes hc v hv)
    prs := fun hl v pr hp => ⟨(h.prs hl v pr hp).1, (h.prs hl v pr hp).2.mono hn⟩ }

end Gen
end Craft.Cluster
