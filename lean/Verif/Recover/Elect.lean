import Verif.Recover.Rest
import Verif.Props.Quorum
import Verif.Node.Ask

/-! # Winning an election -/

namespace Craft
open Spec Cluster

/-- A leader, as far as the repair of its cluster is concerned: settings, term and log; its own acknowledgement is up to date; a peer
that is probed is probed somewhere in the log, right after what it acknowledged if it acknowledged anything. -/
structure Leading (r : Raft) (T : Nat) (V : LogView) : Prop where
  plain : Plain r
  state : r.state = .leader
  term : r.term = T
  view : r.log.view = V
  snap : r.log.unstable.snapshot = none
  self : ∃ q, r.pr r.id = some q ∧ q.isLearner = false ∧ q.mtch = V.last
  peers : ∀ v, v ∈ r.trk.config.voters.incoming ∨ v ∈ r.trk.config.voters.outgoing → v ≠ r.id → ∃ q, r.pr v = some q ∧ q.isLearner = false ∧
    (q.state = .probe → (q.mtch = 0 ∧ 1 ≤ q.next ∧ q.next ≤ V.last) ∨ q.next = q.mtch + 1)

theorem Leading.steady {a b : Raft} {T : Nat} {V : LogView} (h : Leading a T V) (hs : Steady a b) : Leading b T V := by
  refine ⟨⟨by rw [hs.checkQuorum]; exact h.plain.quorum, by rw [hs.preVote]; exact h.plain.preVote, by rw [hs.heartbeatTimeout]; exact h.plain.beat⟩,
    by rw [hs.state]; exact h.state, by rw [hs.term]; exact h.term, by rw [hs.view]; exact h.view, ?_, ?_, fun v hv hne => ?_⟩
  · obtain ⟨k, _, e⟩ := hs.log
    rw [e]; exact h.snap
  · obtain ⟨q, h1, h2, h3⟩ := h.self
    obtain ⟨q', k1, k2⟩ := hs.prs _ _ h1
    refine ⟨q', by rw [hs.id]; exact k1, ?_, ?_⟩
    · rw [← h2]; exact (congrArg Prod.snd k2.1 :)
    · rw [← h3]; exact (congrArg Prod.fst k2.1 :)
  · rw [hs.config] at hv
    rw [hs.id] at hne
    obtain ⟨q, h1, h2, h3⟩ := h.peers v hv hne
    obtain ⟨q', k1, k2⟩ := hs.prs _ _ h1
    have hm : q'.mtch = q.mtch := (congrArg Prod.fst k2.1 :)
    refine ⟨q', k1, ?_, fun hp => ?_⟩
    · rw [← h2]; exact (congrArg Prod.snd k2.1 :)
    · obtain ⟨e1, e2⟩ := k2.2 hp
      rw [hm, e2]; exact h3 e1

theorem Leading.rested {a b : Raft} {T : Nat} {V : LogView} (h : Leading a T V) (hs : Rested a b) : Leading b T V := by
  refine ⟨⟨by rw [hs.checkQuorum]; exact h.plain.quorum, by rw [hs.preVote]; exact h.plain.preVote, by rw [hs.heartbeatTimeout]; exact h.plain.beat⟩,
    by rw [hs.state]; exact h.state, by rw [hs.term]; exact h.term, by rw [hs.view]; exact h.view, hs.snap, ?_, fun v hv hne => ?_⟩
  · rw [hs.id, hs.pr]; exact h.self
  · rw [hs.trk] at hv
    rw [hs.id] at hne
    rw [hs.pr]; exact h.peers v hv hne

namespace Raft
variable {env : Env} {r r' : Raft}

/-- What `AppendEntry` does, when it does it. -/
theorem appendEntry_does {es : List Entry} (hw : r.log.WF) (h : r.appendEntry es = .ok (r', true)) :
    ∃ p l, r.pr r.id = some p ∧ l.view = r.log.view.push (stamp r.term (r.log.lastIndex + 1) es) ∧ l.WF ∧
      l.unstable.snapshot = r.log.unstable.snapshot ∧ l.applied = r.log.applied ∧
      r' = { r.setPr r.id (p.maybeUpdate l.view.last).1 with log := l, uncommittedSize := r.uncommittedSize + payloads es } := by
  unfold appendEntry increaseUncommittedSize at h
  dsimp only at h
  rw [stamp_payloads] at h
  split at h
  · simp at h
  · simp only [not_true_eq_false, if_false] at h
    obtain ⟨l, hl, h⟩ := Res.bind_eq_ok.1 h
    obtain ⟨p, hp, h⟩ := Res.bind_eq_ok.1 h
    obtain ⟨⟨r2, b2⟩, hm, h⟩ := Res.bind_eq_ok.1 h
    simp only [Res.pure_eq, Res.ok.injEq, Prod.mk.injEq] at h
    obtain ⟨rfl, _⟩ := h
    obtain ⟨m1, m2⟩ := maybeCommit_ok hm
    obtain ⟨m3, m3'⟩ := RaftLog.maybeCommit_shape m2
    obtain ⟨w, v⟩ := append_view hw r.term hl
    have m4 : r2.log = { l with committed := r2.log.committed } := m3
    have hv : r2.log.view = l.view := by rw [m4]; rfl
    refine ⟨p, r2.log, getPr_ok hp, by rw [hv, v], ?_, ?_, ?_, ?_⟩
    · rw [m4]; exact w.with_committed _
    · rw [m4]
      show l.unstable.snapshot = _
      unfold RaftLog.append at hl
      split at hl
      · cases hl; rfl
      · dsimp only at hl
        split at hl
        · cases hl
        · obtain ⟨u, hu, hl⟩ := Res.bind_eq_ok.1 hl
          cases hl
          show u.snapshot = _
          unfold Unstable.truncateAndAppend at hu
          grind
    · rw [m4]
      show l.applied = _
      unfold RaftLog.append at hl
      split at hl
      · cases hl; rfl
      · dsimp only at hl
        split at hl
        · cases hl
        · obtain ⟨u, hu, hl⟩ := Res.bind_eq_ok.1 hl
          cases hl; rfl
    · rw [m1, hv, ← w.lastIndex_eq]; rfl

theorem reset_find (t v : Nat) : (r.reset env t).pr v = (r.pr v).map (r.resetPr v) := by
  have em : (r.reset env t).trk.progress = r.trk.progress.map fun (p : Nat × Progress) => (p.1, r.resetPr p.1 p.2) := by
    unfold reset resetPr resetRandomizedElectionTimeout
    by_cases ht : r.term ≠ t
    · simp only [if_pos ht]
    · simp only [if_neg ht]
  have h := AMap.find_map r.trk.progress (fun id p => r.resetPr id p) v
  unfold pr
  rw [← h, em]

theorem resetPr_learner (v : Nat) (p : Progress) : (r.resetPr v p).isLearner = p.isLearner := by
  unfold resetPr; dsimp only; split <;> rfl

theorem reset_voters {t : Nat} (h : KnowsVoters r) : KnowsVoters (r.reset env t) := by
  intro v hv
  have : (r.reset env t).trk.config = r.trk.config := congrArg Core.config (reset_core (env := env) r t)
  rw [this] at hv
  obtain ⟨q, h1, h2⟩ := h v hv
  exact ⟨r.resetPr v q, by rw [reset_find, h1]; rfl, by rw [resetPr_learner]; exact h2⟩

theorem plain_of_consts (h : Plain r) (hc : r'.consts = r.consts) : Plain r' :=
  ⟨(congrArg Consts.checkQuorum hc :).trans h.quorum, (congrArg Consts.preVote hc :).trans h.preVote, (congrArg Consts.heartbeatTimeout hc :).trans h.beat⟩

/-- A leader's first log. -/
def _root_.Craft.firstLog (v : LogView) (t : Nat) : LogView := v.push [{ term := t, index := v.last + 1 }]

theorem becomeLeader_leads (hw : r.log.WF) (hp : Plain r) (hk : KnowsVoters r)
    (hv : r.id ∈ r.trk.config.voters.incoming ∨ r.id ∈ r.trk.config.voters.outgoing) (hsn : r.log.unstable.snapshot = none) (h : r.becomeLeader env = .ok r') :
    Leading r' r.term (firstLog r.log.view r.term) ∧ r'.leadTransferee = 0 ∧ r'.uncommittedSize = 0 ∧ r'.id = r.id ∧
      r'.trk.config = r.trk.config ∧ r'.log.applied = r.log.applied ∧ r'.msgs = r.msgs := by
  have hm := becomeLeader_msgs h
  unfold becomeLeader at h
  split at h
  · cases h
  dsimp only at h
  have hid : (r.reset env r.term).id = r.id := reset_id r r.term
  have hlog : (r.reset env r.term).log = r.log := reset_log r r.term
  have hterm : (r.reset env r.term).term = r.term := reset_term r r.term
  have hcfg : (r.reset env r.term).trk.config = r.trk.config := congrArg Core.config (reset_core (env := env) r r.term)
  have hpl : Plain (r.reset env r.term) := plain_of_consts hp (reset_consts r r.term)
  have hpr : ∀ v, (r.reset env r.term).pr v = (r.pr v).map (r.resetPr v) := reset_find r.term
  have hkv := hk
  have hlt : (r.reset env r.term).leadTransferee = 0 := rfl
  have hus : (r.reset env r.term).uncommittedSize = 0 := rfl
  generalize r.reset env r.term = s at *
  obtain ⟨p, hp0, h⟩ := Res.bind_eq_ok.1 h
  have hp0 : s.pr s.id = some p := getPr_ok (r := { s with lead := r.id, state := .leader }) hp0
  rw [hid] at hp0
  obtain ⟨⟨r2, ok⟩, h2, h⟩ := Res.bind_eq_ok.1 h
  dsimp only at h
  cases ok with
  | false => simp only [Bool.false_eq_true, not_false_eq_true, if_true] at h; cases h
  | true =>
    simp only [not_true_eq_false, if_false, Res.pure_eq, Res.ok.injEq] at h
    subst h
    obtain ⟨q, l, k1, k2, k3, k4, k5, k6⟩ := appendEntry_does (by show s.log.WF; rw [hlog]; exact hw) h2
    have k2 : l.view = firstLog r.log.view r.term := by
      rw [k2]
      show s.log.view.push [{ term := s.term, index := s.log.lastIndex + 1 }] = _
      rw [hlog, hterm, hw.lastIndex_eq]; rfl
    have k1 : (s.setPr s.id p.becomeReplicate).pr s.id = some q := k1
    have hq : q = p.becomeReplicate := by
      have : (s.setPr s.id p.becomeReplicate).pr s.id = some p.becomeReplicate := AMap.find_insert_self _ _ _
      rw [this] at k1; exact (Option.some.inj k1).symm
    have hu : r2.uncommittedSize = 0 := by
      rw [k6]
      show s.uncommittedSize + 0 = 0
      rw [hus]
    have hr : r2.reduceUncommittedSize [{}] = r2 := by
      unfold reduceUncommittedSize
      rw [if_pos hu]
    rw [hr] at hm ⊢
    have hmt : p.mtch = r.log.view.last ∧ p.isLearner = false := by
      rw [hpr] at hp0
      obtain ⟨p1, e1, e2⟩ := Option.map_eq_some_iff.1 hp0
      obtain ⟨p2, e3, e4⟩ := hkv r.id hv
      rw [e3] at e1
      cases e1
      refine ⟨?_, ?_⟩
      · rw [← e2]; unfold resetPr; dsimp only; rw [if_pos rfl]; exact hw.lastIndex_eq
      · rw [← e2, resetPr_learner]; exact e4
    have hlast : (firstLog r.log.view r.term).last = r.log.view.last + 1 := push_last _ _
    have ht : r2.trk = (s.trk.setPr s.id p.becomeReplicate).setPr s.id (q.maybeUpdate l.view.last).1 := by rw [k6]; rfl
    have hpr2 : ∀ v, v ≠ s.id → r2.pr v = s.pr v := by
      intro v hne
      unfold pr
      rw [ht]
      exact (AMap.find_insert_ne _ _ (Ne.symm hne)).trans (AMap.find_insert_ne _ _ (Ne.symm hne))
    have hpr3 : r2.pr s.id = some (q.maybeUpdate l.view.last).1 := by
      unfold pr
      rw [ht]
      exact AMap.find_insert_self _ _ _
    have hcfg2 : r2.trk.config = r.trk.config := by rw [ht]; exact hcfg
    have hid2 : r2.id = s.id := by rw [k6]; rfl
    refine ⟨⟨⟨by rw [k6]; exact hpl.quorum, by rw [k6]; exact hpl.preVote, by rw [k6]; exact hpl.beat⟩, by rw [k6]; rfl, by rw [k6]; exact hterm, by rw [k6]; exact k2,
      by rw [k6]; exact k4.trans ((congrArg (fun l => l.unstable.snapshot) hlog).trans hsn), ?_, fun v hvv hne => ?_⟩, by rw [k6]; exact hlt, hu, hm.2, hcfg2, ?_, hm.1⟩
    · refine ⟨(q.maybeUpdate l.view.last).1, by rw [hid2]; exact hpr3, ?_, ?_⟩
      · rw [hq]
        unfold Progress.maybeUpdate
        dsimp only
        split <;> exact hmt.2
      · rw [hq, k2, hlast]
        unfold Progress.maybeUpdate
        have : p.becomeReplicate.mtch = r.log.view.last := hmt.1
        rw [if_pos (by rw [this]; omega)]
    · rw [hcfg2] at hvv
      rw [hid2] at hne
      obtain ⟨p1, e1, e2⟩ := hkv v hvv
      refine ⟨r.resetPr v p1, by rw [hpr2 v hne, hpr, e1]; rfl, by rw [resetPr_learner]; exact e2, fun _ => Or.inl ?_⟩
      unfold resetPr
      dsimp only
      rw [if_neg (by rw [← hid]; exact hne)]
      refine ⟨rfl, ?_, ?_⟩
      · show 1 ≤ r.log.lastIndex + 1; omega
      · show r.log.lastIndex + 1 ≤ _
        rw [hlast, hw.lastIndex_eq]
    · rw [k6]; exact k5.trans (congrArg RaftLog.applied hlog)

end Raft

/-- A node that can run for leadership. -/
structure Fit (r : Raft) : Prop where
  plain : Plain r
  voters : KnowsVoters r
  self : r.id ∈ r.trk.config.voters.incoming ∨ r.id ∈ r.trk.config.voters.outgoing
  snap : r.log.unstable.snapshot = none
  idle : r.log.applied = r.log.committed

/-- A candidate nobody voted against. -/
structure Running (r : Raft) (T : Nat) (V : LogView) : Prop where
  fit : Fit r
  state : r.state = .candidate
  term : r.term = T
  view : r.log.view = V
  own : r.trk.votes.find r.id = some true
  yes : ∀ v b, r.trk.votes.find v = some b → b = true
  short : r.trk.tallyVotes ≠ .won

/-- A leader right after its election. -/
structure Chosen (r : Raft) (T : Nat) (V : LogView) : Prop where
  leads : Leading r T (firstLog V T)
  noTransfer : r.leadTransferee = 0
  noSize : r.uncommittedSize = 0
  fresh : r.log.applied ≤ V.last

theorem Fit.rested {a b : Raft} (h : Fit a) (hs : Rested a b) (hi : b.log.applied = b.log.committed) : Fit b := by
  refine ⟨⟨by rw [hs.checkQuorum]; exact h.plain.quorum, by rw [hs.preVote]; exact h.plain.preVote, by rw [hs.heartbeatTimeout]; exact h.plain.beat⟩, ?_, ?_, hs.snap, hi⟩
  · intro v hv
    rw [hs.trk] at hv
    rw [hs.pr]
    exact h.voters v hv
  · rw [hs.id, hs.trk]; exact h.self

theorem Running.rested {a b : Raft} {T : Nat} {V : LogView} (h : Running a T V) (hs : Rested a b) (hi : b.log.applied = b.log.committed) :
    Running b T V :=
  ⟨h.fit.rested hs hi, by rw [hs.state]; exact h.state, by rw [hs.term]; exact h.term, by rw [hs.view]; exact h.view,
    by rw [hs.id, hs.trk]; exact h.own, by rw [hs.trk]; exact h.yes, by rw [hs.trk]; exact h.short⟩

namespace Raft
variable {env : Env} {r r' : Raft}

theorem campaign_runs {e : Option Err} (hf : Fit r) (hs : r.state ≠ .leader) (h : r.step env { type := .hup } = .ok (r', e)) :
    r.campaignElection env false = .ok r' := by
  unfold step at h
  obtain ⟨g, hg, h⟩ := Res.bind_eq_ok.1 h
  unfold stepGate at hg
  rw [if_pos rfl] at hg
  cases hg
  dsimp only at h
  unfold stepBody at h
  dsimp only at h
  rw [hf.plain.preVote] at h
  simp only [Bool.false_eq_true, if_false] at h
  obtain ⟨r2, h2, h⟩ := Res.bind_eq_ok.1 h
  cases h
  unfold hup at h2
  rw [if_neg hs] at h2
  have hpm : r.promotable = true := by
    obtain ⟨q, h3, h4⟩ := hf.voters _ hf.self
    unfold promotable RaftLog.hasPendingSnapshot
    rw [h3]
    dsimp only
    rw [h4, hf.snap]
    simp
  rw [if_neg (by rw [hpm]; simp)] at h2
  obtain ⟨x, hx, h2⟩ := Res.bind_eq_ok.1 h2
  cases x with
  | error e => cases h2
  | ok es =>
    dsimp only at h2
    rw [if_neg (by rw [hf.idle]; omega)] at h2
    exact h2

/-- What an election comes to at first. -/
theorem campaignElection_runs (hw : r.log.WF) (hcl : r.log.committed ≤ r.log.view.last) (hf : Fit r) (h : r.campaignElection env false = .ok r') :
    r'.id = r.id ∧ r'.trk.config = r.trk.config ∧ ((Chosen r' (r.term + 1) r.log.view ∧ r.trk.config.voters.voteResult [(r.id, true)] = .won) ∨
     (Running r' (r.term + 1) r.log.view ∧ ∃ new, r'.msgs = r.msgs ++ new ∧ VoteRequests r' .vote r'.term [] new)) := by
  have h0 := h
  unfold campaignElection at h
  obtain ⟨r2, h2, h⟩ := Res.bind_eq_ok.1 h
  unfold becomeCandidate at h2
  split at h2
  · cases h2
  cases h2
  dsimp only at h
  have hid : (r.reset env (r.term + 1)).id = r.id := reset_id r _
  have hlog : (r.reset env (r.term + 1)).log = r.log := reset_log r _
  have hterm : (r.reset env (r.term + 1)).term = r.term + 1 := reset_term r _
  have hcfg : (r.reset env (r.term + 1)).trk.config = r.trk.config := congrArg Core.config (reset_core (env := env) r _)
  have hvotes : (r.reset env (r.term + 1)).trk.votes = [] := congrArg Core.votes (reset_core (env := env) r (r.term + 1))
  have hpl : Plain (r.reset env (r.term + 1)) := plain_of_consts hf.plain (reset_consts r _)
  have hkv : KnowsVoters (r.reset env (r.term + 1)) := reset_voters hf.voters
  generalize r.reset env (r.term + 1) = s at *
  have hrv : s.trk.recordVote s.id true = { s.trk with votes := [(s.id, true)] } := by
    unfold Tracker.recordVote
    rw [hvotes]
    rfl
  unfold poll at h
  dsimp only at h
  rw [hid] at hrv
  rw [hid, hrv] at h
  split at h
  · rename_i hwon
    obtain ⟨k1, k2, k3, k4, k5, k7, k8⟩ := becomeLeader_leads (r := { s with vote := r.id, state := .candidate, trk := { s.trk with votes := [(r.id, true)] } })
      (by show s.log.WF; rw [hlog]; exact hw) ⟨hpl.quorum, hpl.preVote, hpl.beat⟩ hkv (by show s.id ∈ s.trk.config.voters.incoming ∨ s.id ∈ s.trk.config.voters.outgoing; rw [hid, hcfg]; exact hf.self)
      (by show s.log.unstable.snapshot = none; rw [hlog]; exact hf.snap) (by rw [← h, hid])
    refine ⟨k4.trans hid, k5.trans hcfg, Or.inl ⟨⟨?_, k2, k3, ?_⟩, ?_⟩⟩
    · have k1 : Leading r' s.term (firstLog s.log.view s.term) := k1
      rw [hlog, hterm] at k1
      exact k1
    · rw [k7]; show s.log.applied ≤ _; rw [hlog, hf.idle]; exact hcl
    · rw [← hcfg]; exact hwon
  · rename_i hnw
    obtain ⟨new, k1, k2⟩ := requests (r := { s with vote := r.id, state := .candidate, trk := { s.trk with votes := [(r.id, true)] } }) (Or.inl rfl) (by
      rw [hid]; exact h)
    have hst : r'.state = .candidate := by rw [k1]
    obtain ⟨_, _, new', a1, a2⟩ := campaignElection_asks h0 hst
    have hvt : r'.trk = { s.trk with votes := [(r.id, true)] } := by rw [k1]
    have hidr : r'.id = r.id := by rw [k1]; exact hid
    refine ⟨hidr, by rw [hvt]; exact hcfg, Or.inr ⟨⟨⟨⟨by rw [k1]; exact hpl.quorum, by rw [k1]; exact hpl.preVote, by rw [k1]; exact hpl.beat⟩, ?_, ?_, ?_, ?_⟩,
      hst, by rw [k1]; exact hterm, by rw [k1]; exact congrArg RaftLog.view hlog, ?_, ?_, ?_⟩, new', a1, a2⟩⟩
    · intro v hv
      rw [hvt] at hv
      obtain ⟨q, e1, e2⟩ := hkv v hv
      refine ⟨q, ?_, e2⟩
      unfold pr
      rw [hvt]; exact e1
    · rw [hidr, hvt]
      show r.id ∈ s.trk.config.voters.incoming ∨ r.id ∈ s.trk.config.voters.outgoing
      rw [hcfg]; exact hf.self
    · rw [k1]; show s.log.unstable.snapshot = none; rw [hlog]; exact hf.snap
    · rw [k1]; show s.log.applied = s.log.committed; rw [hlog]; exact hf.idle
    · rw [hidr, hvt]
      exact AMap.find_insert_self [] r.id true
    · intro v b hb
      rw [hvt] at hb
      by_cases hvr : v = r.id
      · subst hvr
        have : AMap.find [(r.id, true)] r.id = some true := AMap.find_insert_self [] r.id true
        rw [this] at hb; cases hb; rfl
      · have : AMap.find [(r.id, true)] v = none := (AMap.find_insert_ne ([] : AMap Bool) (k := r.id) true (Ne.symm hvr)).trans rfl
        rw [this] at hb; cases hb
    · rw [hvt]; exact hnw

end Raft
end Craft
