import Verif.Node.Send
import Verif.Spec.Node

/-! # Every call of `Raft::Step` and `Raft::Tick` is a sequence of elementary steps -/

namespace Craft
open Spec
namespace Raft
variable {env : Env} {im : Message}

theorem log_maybeCommit_false {l l' : RaftLog} {i t : Nat} (h : l.maybeCommit i t = .ok (l', false)) : l' = l := by
  unfold RaftLog.maybeCommit at h
  by_cases h1 : i > l.committed
  · rw [if_pos h1] at h
    obtain ⟨a, _, h⟩ := Res.bind_eq_ok.1 h
    obtain ⟨tt, _, h⟩ := Res.bind_eq_ok.1 h
    by_cases h2 : tt = t
    · rw [if_pos h2] at h
      obtain ⟨b, _, h⟩ := Res.bind_eq_ok.1 h
      simp only [Res.pure_eq, Res.ok.injEq, Prod.mk.injEq] at h
      cases h.2
    · rw [if_neg h2] at h
      simp only [Res.pure_eq, Res.ok.injEq, Prod.mk.injEq] at h
      exact h.1.symm
  · rw [if_neg h1] at h
    simp only [Res.ok.injEq, Prod.mk.injEq] at h
    exact h.1.symm

theorem maybeCommit_ok {r r' : Raft} {b : Bool} (h : r.maybeCommit = .ok (r', b)) :
    r' = { r with log := r'.log } ∧ r.log.maybeCommit r.core.quorumIndex r.term = .ok (r'.log, b) := by
  unfold maybeCommit at h
  obtain ⟨⟨l, b'⟩, h1, h⟩ := Res.bind_eq_ok.1 h
  simp only [Res.pure_eq, Res.ok.injEq, Prod.mk.injEq] at h
  obtain ⟨rfl, rfl⟩ := h
  exact ⟨rfl, h1⟩

theorem maybeCommit_false {r r' : Raft} (h : r.maybeCommit = .ok (r', false)) : r' = r := by
  obtain ⟨h1, h2⟩ := maybeCommit_ok h
  rw [h1, log_maybeCommit_false h2]

theorem maybeCommit_sim {r r' : Raft} {b : Bool} (hl : r.state = .leader) (hz : ¬ Adopts im r.term) (h : r.maybeCommit = .ok (r', b)) :
    Sim env im r r' := by
  cases b with
  | false => rw [maybeCommit_false h]; exact .refl
  | true =>
    obtain ⟨h1, h2⟩ := maybeCommit_ok h
    rw [h1]
    exact .step0 rfl rfl (CStep.commit (c := r.core) r'.log hl h2 hz)

theorem reset_prs (r : Raft) (t : Nat) :
    PrsRel (PrReset r.id r.log.lastIndex) r.trk.progress (r.reset env t).trk.progress := by
  have em : (r.reset env t).trk.progress = r.trk.progress.map fun (p : Nat × Progress) => (p.1, r.resetPr p.1 p.2) := by
    unfold reset resetPr resetRandomizedElectionTimeout
    by_cases ht : r.term ≠ t
    · simp only [if_pos ht]
    · simp only [if_neg ht]
  refine ⟨fun id => ?_, fun hs => by rw [em, List.map_map]; exact hs⟩
  have e : (r.reset env t).trk.progress.find id = (r.trk.progress.find id).map (r.resetPr id) := by
    have h := AMap.find_map r.trk.progress (fun id p => r.resetPr id p) id
    rw [← h, em]
  rw [e]
  cases h : r.trk.progress.find id with
  | none => exact Or.inl ⟨rfl, rfl⟩
  | some p =>
    refine Or.inr ⟨p, _, rfl, rfl, ?_⟩
    unfold resetPr
    by_cases hi : id = r.id
    · simp only [if_pos hi]
      exact ⟨by simp [hi], rfl, rfl, rfl, rfl⟩
    · simp only [if_neg hi]
      exact ⟨by simp [hi, Progress.new], rfl, rfl, rfl, rfl⟩

theorem reset_core (r : Raft) (t : Nat) : (r.reset env t).core =
    { r.core with term := t, vote := if t = r.term then r.vote else 0, votes := []
                  progress := (r.reset env t).trk.progress, pci := 0, reads := r.reads.reset, size := 0 } := by
  unfold reset resetRandomizedElectionTimeout
  by_cases ht : r.term ≠ t
  · simp only [if_pos ht, core, reads, Reads.reset, if_neg (fun h => ht (Eq.symm h) : ¬ t = r.term)]
  · have ht' : r.term = t := by simpa using ht
    subst ht'
    simp only [ne_eq, not_true_eq_false, if_false, core, reads, Reads.reset, if_true]

theorem reset_consts (r : Raft) (t : Nat) : (r.reset env t).consts = r.consts := by
  unfold reset resetRandomizedElectionTimeout
  by_cases ht : r.term ≠ t
  · simp only [if_pos ht, consts]
  · simp only [if_neg ht, consts]

theorem toI32_le {x : Int} (h : 0 ≤ x) : toI32 x ≤ x := by
  unfold toI32
  rw [Int.bmod_def]
  simp only [show ((2 ^ 32 : Nat) : Int) = 4294967296 from rfl]
  split <;> omega

theorem reset_timer (r : Raft) (t : Nat) (hg : 0 ≤ toI32 ((r.electionTimeout : Int) - 1)) : TimerOk (r.reset env t) := by
  have e1 : (r.reset env t).electionTimeout = r.electionTimeout := congrArg Consts.electionTimeout (reset_consts (env := env) r t)
  have e2 : (r.reset env t).randomizedElectionTimeout = r.electionTimeout + env.rand r.id r.rngPos % randBound r.electionTimeout := by
    unfold reset resetRandomizedElectionTimeout
    by_cases ht : r.term ≠ t
    · simp only [if_pos ht]
    · simp only [if_neg ht]
  unfold TimerOk
  rw [e1, e2]
  unfold randBound
  by_cases h0 : r.electionTimeout = 0
  · rw [h0] at hg; exact absurd hg (by decide)
  have h1 := toI32_le (x := (r.electionTimeout : Int) - 1) (by omega)
  have h2 := Nat.mod_lt (env.rand r.id r.rngPos) (show (toI32 ((r.electionTimeout : Int) - 1) + 1).toNat > 0 by omega)
  omega

theorem reset_keep (r : Raft) (t : Nat) : Keep r (r.reset env t) := by
  have e1 : (r.reset env t).electionTimeout = r.electionTimeout := congrArg Consts.electionTimeout (reset_consts (env := env) r t)
  refine ⟨reset_consts (env := env) r t, Or.inr fun hg => ?_⟩
  rw [e1] at hg
  exact reset_timer r t hg

theorem reset_msgs (r : Raft) (t : Nat) : (r.reset env t).msgs = r.msgs := by
  unfold reset resetRandomizedElectionTimeout
  by_cases ht : r.term ≠ t
  · simp only [if_pos ht]
  · simp only [if_neg ht]

theorem reset_log (r : Raft) (t : Nat) : (r.reset env t).log = r.log := congrArg Core.log (reset_core (env := env) r t)
theorem reset_term (r : Raft) (t : Nat) : (r.reset env t).term = t := congrArg Core.term (reset_core (env := env) r t)
theorem reset_id (r : Raft) (t : Nat) : (r.reset env t).id = r.id := congrArg Core.id (reset_core (env := env) r t)
theorem reset_state (r : Raft) (t : Nat) : (r.reset env t).state = r.state := congrArg Core.state (reset_core (env := env) r t)

theorem becomeFollower_core (r : Raft) (t lead : Nat) : (r.becomeFollower env t lead).core =
    { r.core with term := t, vote := if t = r.term then r.vote else 0, state := .follower, votes := []
                  progress := (r.reset env t).trk.progress, pci := 0, reads := r.reads.reset, size := 0 } := by
  have h := reset_core (env := env) r t
  have : (r.becomeFollower env t lead).core = { (r.reset env t).core with state := .follower } := rfl
  rw [this, h]

theorem becomeFollower_sim {r : Raft} {t lead : Nat} (ht : t = r.term ∨ (r.term < t ∧ t = im.term))
    (hz : r.state = .leader → ¬ CampMsg im ∨ Adopts im r.term) :
    Sim env im r (r.becomeFollower env t lead) := by
  refine .step0' (reset_keep (env := env) r t) (reset_msgs (env := env) r t) ?_
  rw [becomeFollower_core]
  exact CStep.follower (c := r.core) t _ ht (reset_prs (env := env) r t) hz

theorem mayRun_of {r : Raft} (h : r.promotable = true) {es : List Entry}
    (he : r.log.slice env (r.log.applied + 1) (r.log.committed + 1) u64Max = .ok (.ok es))
    (hn : ¬ (numOfPendingConf es ≠ 0 ∧ r.log.committed > r.log.applied)) : MayRun r.core := by
  unfold promotable at h
  cases hp : r.pr r.id with
  | none => rw [hp] at h; cases h
  | some p =>
    rw [hp] at h
    simp only [Bool.and_eq_true, Bool.not_eq_true'] at h
    refine ⟨⟨p, hp, h.1⟩, ?_, env, es, he, ?_⟩
    · have h2 := h.2
      unfold RaftLog.hasPendingSnapshot at h2
      intro x hx
      have hx' : r.log.unstable.snapshot = some x := hx
      rw [hx'] at h2
      simpa using h2
    · show _ ∨ r.log.committed ≤ r.log.applied
      omega

theorem becomeCandidate_state {r r' : Raft} (h : r.becomeCandidate env = .ok r') : r'.state = .candidate := by
  unfold becomeCandidate at h
  split at h
  · cases h
  · cases h; rfl

theorem becomePreCandidate_state {r r' : Raft} (h : r.becomePreCandidate = .ok r') : r'.state = .preCandidate := by
  unfold becomePreCandidate at h
  split at h
  · cases h
  · cases h; rfl

theorem becomeCandidate_sim {r r' : Raft} (hcm : CampMsg im) (hv : r.state = .preCandidate ∨ MayRun r.core)
    (h : r.becomeCandidate env = .ok r') : Sim env im r r' ∧ r'.state = .candidate := by
  unfold becomeCandidate at h
  by_cases hl : r.state = .leader
  · rw [if_pos hl] at h; cases h
  rw [if_neg hl] at h
  simp only [Res.ok.injEq] at h
  subst h
  refine ⟨.step0' (reset_keep (env := env) r _) (reset_msgs (env := env) r _) ?_, rfl⟩
  have e : ({ r.reset env (r.term + 1) with vote := r.id, state := .candidate } : Raft).core =
      { r.core with term := r.term + 1, vote := r.id, state := .candidate, votes := []
                    progress := (r.reset env (r.term + 1)).trk.progress, pci := 0, reads := r.reads.reset, size := 0 } := by
    have h := reset_core (env := env) r (r.term + 1)
    have : ({ r.reset env (r.term + 1) with vote := r.id, state := .candidate } : Raft).core =
      { (r.reset env (r.term + 1)).core with vote := r.id, state := .candidate } := rfl
    rw [this, h]
  rw [e]
  exact CStep.candidate (c := r.core) _ hcm hl (reset_prs (env := env) r _) hv

theorem becomeCandidate_term {r r' : Raft} (h : r.becomeCandidate env = .ok r') : r'.term = r.term + 1 := by
  unfold becomeCandidate at h
  split at h
  · cases h
  · cases h
    exact reset_term (env := env) r _

theorem becomePreCandidate_term {r r' : Raft} (h : r.becomePreCandidate = .ok r') : r'.term = r.term := by
  unfold becomePreCandidate at h
  split at h
  · cases h
  · cases h
    rfl

theorem becomePreCandidate_sim {r r' : Raft} (hcm : CampMsg im) (hv : MayRun r.core) (h : r.becomePreCandidate = .ok r') : Sim env im r r' ∧ r'.state = .preCandidate := by
  unfold becomePreCandidate at h
  by_cases hl : r.state = .leader
  · rw [if_pos hl] at h; cases h
  rw [if_neg hl] at h
  simp only [Res.ok.injEq] at h
  subst h
  exact ⟨.step0 rfl rfl (CStep.preCandidate (c := r.core) hcm hl hv), rfl⟩

theorem trk_recordVote (t : Tracker) (id : Nat) (v : Bool) : t.recordVote id v = { t with votes := recordVote t.votes id v } := by
  unfold Tracker.recordVote recordVote
  cases t.votes.find id <;> rfl

theorem increase_core (r : Raft) (es : List Entry) :
    (r.increaseUncommittedSize es).1.core = { r.core with size := (r.increaseUncommittedSize es).1.uncommittedSize } ∧
    Keep r (r.increaseUncommittedSize es).1 ∧ (r.increaseUncommittedSize es).1.msgs = r.msgs := by
  unfold increaseUncommittedSize
  dsimp only
  split <;> exact ⟨rfl, .of rfl rfl, rfl⟩

theorem increase_false {r : Raft} {es : List Entry} (h : (r.increaseUncommittedSize es).2 = false) : (r.increaseUncommittedSize es).1 = r := by
  unfold increaseUncommittedSize at h ⊢
  dsimp only at h ⊢
  split at h
  · rw [if_pos (by assumption)]
  · cases h

theorem increase_true {r : Raft} {es : List Entry} (h : (r.increaseUncommittedSize es).2 = true) :
    (r.increaseUncommittedSize es).1.uncommittedSize = r.uncommittedSize + payloads es := by
  unfold increaseUncommittedSize at h ⊢
  dsimp only at h ⊢
  split at h
  · cases h
  · rw [if_neg (by assumption)]

theorem stamp_payloads (t i : Nat) (es : List Entry) : payloads (stamp t i es) = payloads es := by
  induction es generalizing i with
  | nil => rfl
  | cons e es ih =>
    have h1 := ih (i + 1)
    unfold payloads at h1 ⊢
    simp only [stamp, List.map_cons, List.sum_cons]
    rw [h1]; rfl

theorem reduce_core (r : Raft) (es : List Entry) :
    (r.reduceUncommittedSize es).core = { r.core with size := r.uncommittedSize - payloads es } ∧
    Keep r (r.reduceUncommittedSize es) ∧ (r.reduceUncommittedSize es).msgs = r.msgs := by
  unfold reduceUncommittedSize
  dsimp only
  split
  · next h =>
    refine ⟨?_, .of rfl rfl, rfl⟩
    rw [show r.uncommittedSize - payloads es = r.uncommittedSize by omega]
    rfl
  · split
    · next h =>
      refine ⟨?_, .of rfl rfl, rfl⟩
      rw [show r.uncommittedSize - payloads es = 0 by omega]
      rfl
    · exact ⟨rfl, .of rfl rfl, rfl⟩

/-- What the new leader's empty entry adds to the size, nothing, is taken off again. -/
theorem reduce_empty (r : Raft) : r.reduceUncommittedSize [{}] = r := by
  unfold reduceUncommittedSize
  split
  · rfl
  · dsimp only
    have h0 : payloads [({} : Entry)] = 0 := rfl
    rw [h0, if_neg (Nat.not_lt_zero _)]
    rfl

/-- `AppendEntry` after `pending_conf_index_` was set to `pci`. -/
theorem appendEntry_sim {r r' : Raft} {es : List Entry} {pci : Nat} {b : Bool} (hl : r.state = .leader)
    (hz : ¬ Adopts im r.term) (hg : ConfGate r.core es pci) (hk : ∀ e ∈ es, e.type ≠ .normal → Asked env im r.core e)
    (hgv : ∀ e ∈ es, Given im e) (h : ({ r with pendingConfIndex := pci } : Raft).appendEntry es = .ok (r', b)) :
    (b = true → Sim env im r r' ∧ r'.state = .leader) ∧
    (b = false → r'.core = { r.core with pci := pci } ∧ Keep r r' ∧ r'.msgs = r.msgs) := by
  unfold appendEntry at h
  have hi := increase_core ({ r with pendingConfIndex := pci } : Raft)
    (stamp ({ r with pendingConfIndex := pci } : Raft).term (({ r with pendingConfIndex := pci } : Raft).log.lastIndex + 1) es)
  have hi2 := increase_true (r := ({ r with pendingConfIndex := pci } : Raft))
    (es := stamp ({ r with pendingConfIndex := pci } : Raft).term (({ r with pendingConfIndex := pci } : Raft).log.lastIndex + 1) es)
  have hi3 := increase_false (r := ({ r with pendingConfIndex := pci } : Raft))
    (es := stamp ({ r with pendingConfIndex := pci } : Raft).term (({ r with pendingConfIndex := pci } : Raft).log.lastIndex + 1) es)
  rw [stamp_payloads] at hi2
  dsimp only at h
  generalize ({ r with pendingConfIndex := pci } : Raft).increaseUncommittedSize _ = x at h hi hi2 hi3
  obtain ⟨r1, ok⟩ := x
  obtain ⟨hc, hk', hm⟩ := hi
  dsimp only at h hc hk' hm hi2 hi3
  cases ok with
  | false =>
    simp only [Bool.false_eq_true, not_false_eq_true, if_true, Res.ok.injEq, Prod.mk.injEq] at h
    obtain ⟨rfl, rfl⟩ := h
    rw [hi3 rfl]
    exact ⟨(by intro h; cases h), fun _ => ⟨rfl, .of rfl rfl, rfl⟩⟩
  | true =>
    simp only [not_true_eq_false, if_false] at h
    obtain ⟨l, hap, h⟩ := Res.bind_eq_ok.1 h
    obtain ⟨p, hp, h⟩ := Res.bind_eq_ok.1 h
    obtain ⟨⟨r2, b2⟩, hc2, h⟩ := Res.bind_eq_ok.1 h
    simp only [Res.pure_eq, Res.ok.injEq, Prod.mk.injEq] at h
    obtain ⟨rfl, rfl⟩ := h
    refine ⟨fun _ => ?_, (by intro h; cases h)⟩
    have hlog : r1.log = r.log := congrArg Core.log hc
    have hst : r1.state = r.state := congrArg Core.state hc
    have hid : r1.id = r.id := congrArg Core.id hc
    have hprog : r1.trk.progress = r.trk.progress := congrArg Core.progress hc
    have hp' : r.core.progress.find r.core.id = some p := by
      have h0 : r1.trk.progress.find r1.id = some p := getPr_ok hp
      rw [hprog, hid] at h0
      exact h0
    have s1 : Sim env im r (({ r1 with log := l } : Raft).setPr r1.id (p.maybeUpdate l.lastIndex).1) := by
      refine .step0' hk' hm ?_
      have e : (({ r1 with log := l } : Raft).setPr r1.id (p.maybeUpdate l.lastIndex).1).core =
          { r.core with log := l, progress := r.core.progress.insert r.core.id (p.maybeUpdate l.lastIndex).1, pci := pci
                        size := r.core.size + payloads es } := by
        have e1 : (({ r1 with log := l } : Raft).setPr r1.id (p.maybeUpdate l.lastIndex).1).core =
          { r1.core with log := l, progress := r1.core.progress.insert r1.core.id (p.maybeUpdate l.lastIndex).1 } := rfl
        rw [e1, hc, hi2 rfl]
        rfl
      rw [e]
      rw [hlog] at hap
      exact CStep.append es l p pci hl hap hp' hg hk hgv
    have hst2 : (({ r1 with log := l } : Raft).setPr r1.id (p.maybeUpdate l.lastIndex).1).state = .leader := by
      show r1.state = .leader
      rw [hst]; exact hl
    refine ⟨s1.trans (maybeCommit_sim hst2 (by rw [show (({ r1 with log := l } : Raft).setPr r1.id (p.maybeUpdate l.lastIndex).1).term = r.term from congrArg Core.term hc]; exact hz) hc2), ?_⟩
    rw [(maybeCommit_ok hc2).1]
    exact hst2

theorem confGate_normal {c : Core} {es : List Entry} (h : ∀ e ∈ es, e.type = .normal) : ConfGate c es c.pci :=
  fun _ => Or.inl ⟨h, rfl⟩

theorem becomeLeader_sim {r r' : Raft} (hi : CampMsg im ∨ im.type = .voteResp) (hc : r.state = .candidate) (hz : ¬ Adopts im r.term) (ht : r.core.tally = .won)
    (h : r.becomeLeader env = .ok r') : Sim env im r r' ∧ r'.state = .leader := by
  unfold becomeLeader at h
  rw [if_neg (by rw [hc]; intro h; cases h)] at h
  dsimp only at h
  obtain ⟨p, hp, h⟩ := Res.bind_eq_ok.1 h
  obtain ⟨⟨r2, ok⟩, h2, h⟩ := Res.bind_eq_ok.1 h
  cases ok with
  | false => simp only [Bool.false_eq_true, not_false_eq_true, if_true] at h; cases h
  | true =>
    simp only [not_true_eq_false, if_false, Res.pure_eq, Res.ok.injEq] at h
    subst h
    have s1 : Sim env im r ({ r.reset env r.term with lead := r.id, state := .leader, pendingConfIndex := r.log.lastIndex } : Raft) := by
      refine .step0' (reset_keep (env := env) r _) (reset_msgs (env := env) r _) ?_
      have e : ({ r.reset env r.term with lead := r.id, state := .leader, pendingConfIndex := r.log.lastIndex } : Raft).core =
          { r.core with state := .leader, votes := [], progress := (r.reset env r.term).trk.progress, pci := r.log.lastIndex
                        reads := r.reads.reset, size := 0 } := by
        have e1 : ({ r.reset env r.term with lead := r.id, state := .leader, pendingConfIndex := r.log.lastIndex } : Raft).core =
          { (r.reset env r.term).core with state := .leader, pci := r.log.lastIndex } := rfl
        rw [e1, reset_core, if_pos rfl]
        rfl
      rw [e]
      exact CStep.leader (c := r.core) _ hc ht (reset_prs (env := env) r _) hi
    have hlog : (r.reset env r.term).log = r.log := reset_log (env := env) r _
    have hid : (r.reset env r.term).id = r.id := reset_id (env := env) r _
    have s2 : QSim env im ({ r.reset env r.term with lead := r.id, state := .leader, pendingConfIndex := r.log.lastIndex } : Raft)
        (({ r.reset env r.term with lead := r.id, state := .leader, pendingConfIndex := r.log.lastIndex } : Raft).setPr
          (r.reset env r.term).id p.becomeReplicate) := by
      have hp1 := getPr_ok hp
      refine setPr_qsim (p := p) hp1 ?_
      refine ⟨rfl, rfl, fun _ _ k => ⟨?_, ?_, k.mtch_le, ?_⟩⟩
      · show 1 ≤ p.mtch + 1; omega
      · show p.mtch + 1 ≤ _ + 1; have := k.mtch_le; omega
      · show 0 ≤ _; omega
    have hg : ConfGate (({ r.reset env r.term with lead := r.id, state := .leader, pendingConfIndex := r.log.lastIndex } : Raft).setPr
          (r.reset env r.term).id p.becomeReplicate).core [{}] r.log.lastIndex :=
      confGate_normal (c := (({ r.reset env r.term with lead := r.id, state := .leader, pendingConfIndex := r.log.lastIndex } : Raft).setPr
          (r.reset env r.term).id p.becomeReplicate).core) (by intro e he; simp at he; rw [he])
    have e2 : ({ (({ r.reset env r.term with lead := r.id, state := .leader } : Raft).setPr
          (r.reset env r.term).id p.becomeReplicate) with pendingConfIndex := (r.reset env r.term).log.lastIndex } : Raft) =
        ({ (({ r.reset env r.term with lead := r.id, state := .leader, pendingConfIndex := r.log.lastIndex } : Raft).setPr
          (r.reset env r.term).id p.becomeReplicate) with pendingConfIndex := r.log.lastIndex } : Raft) := by
      rw [hlog]; rfl
    have h3 : ({ (({ r.reset env r.term with lead := r.id, state := .leader, pendingConfIndex := r.log.lastIndex } : Raft).setPr
          (r.reset env r.term).id p.becomeReplicate) with pendingConfIndex := r.log.lastIndex } : Raft).appendEntry [{}] =
          .ok (r2, true) := by
      rw [← e2]; exact h2
    obtain ⟨s3, hl3⟩ := (appendEntry_sim (env := env) (im := im) rfl (by exact Adopts.mono hz (Nat.le_of_eq (reset_term (env := env) r r.term).symm)) hg
      (by intro e he hne; simp at he; rw [he] at hne; exact absurd rfl hne) (by intro e he; simp at he; exact Or.inl he) h3).1 rfl
    rw [reduce_empty]
    exact ⟨s1.trans (s2.sim.trans s3), hl3⟩


theorem poll_self_sim {r : Raft} (hc : r.state = .candidate ∨ r.state = .preCandidate) :
    Sim env im r (r.poll r.id true).1 := by
  refine .step0 (by simp only [poll, trk_recordVote, consts]) rfl ?_
  have e : (r.poll r.id true).1.core = { r.core with votes := recordVote r.core.votes r.core.id true } := by
    simp only [poll, trk_recordVote, core, reads]
  rw [e]
  exact CStep.pollSelf (c := r.core) hc

theorem poll_state (r : Raft) (id : Nat) (v : Bool) : (r.poll id v).1.state = r.state ∧ (r.poll id v).1.term = r.term ∧
    (r.poll id v).1.id = r.id := ⟨rfl, rfl, rfl⟩

theorem sendVotes_qsim {vm : MsgType} {t : Nat} {ctx : Bytes} (ids : List Nat) {r r' : Raft}
    (hv : (vm = .vote ∧ r.state = .candidate ∧ t = r.term) ∨ (vm = .preVote ∧ r.state = .preCandidate ∧ t = r.term + 1))
    (h : r.sendVotes vm t ctx ids = .ok r') : QSim env im r r' := by
  induction ids generalizing r with
  | nil => cases h; exact .refl
  | cons id ids ih =>
    unfold sendVotes at h
    by_cases hid : id = r.id
    · rw [if_pos hid] at h; exact ih hv h
    rw [if_neg hid] at h
    obtain ⟨lt, hlt, h⟩ := Res.bind_eq_ok.1 h
    obtain ⟨r2, h2, h⟩ := Res.bind_eq_ok.1 h
    have q : QSim env im r r2 := by
      refine send_qsim h2 ?_
      rcases hv with ⟨rfl, hs, rfl⟩ | ⟨rfl, hs, rfl⟩
      · simp only [Emit, outMsg, if_true]
        exact ⟨rfl, rfl, hs, rfl, hlt⟩
      · simp only [Emit, outMsg, if_true]
        exact ⟨rfl, rfl, hs, rfl, hlt⟩
    exact q.trans (ih (by rw [q.state, q.term]; exact hv) h)

theorem campaignElection_sim {r r' : Raft} {tr : Bool} (hcm : CampMsg im) (hv : r.state = .preCandidate ∨ MayRun r.core) (hz : ¬ Adopts im r.term) (h : r.campaignElection env tr = .ok r') : Sim env im r r' := by
  unfold campaignElection at h
  obtain ⟨r1, h1, h⟩ := Res.bind_eq_ok.1 h
  obtain ⟨s1, c1⟩ := becomeCandidate_sim (im := im) hcm hv h1
  have t1 : r1.term = r.term + 1 := becomeCandidate_term h1
  dsimp only at h
  have s2 := poll_self_sim (env := env) (im := im) (Or.inl c1)
  by_cases hw : (r1.poll r1.id true).2 = .won
  · rw [if_pos hw] at h
    exact s1.trans (s2.trans (becomeLeader_sim (r := (r1.poll r1.id true).1) (Or.inl hcm) c1 (Adopts.mono hz (by show _ ≤ r1.term; omega)) hw h).1)
  · rw [if_neg hw] at h
    exact s1.trans (s2.trans (sendVotes_qsim (r := (r1.poll r1.id true).1) _ (Or.inl ⟨rfl, c1, rfl⟩) h).sim)

theorem campaign_sim {r r' : Raft} {t : CampaignType} (hcm : CampMsg im) (hv : MayRun r.core) (hz : ¬ Adopts im r.term) (h : r.campaign env t = .ok r') : Sim env im r r' := by
  cases t with
  | election => exact campaignElection_sim hcm (Or.inr hv) hz h
  | transfer => exact campaignElection_sim hcm (Or.inr hv) hz h
  | preElection =>
    unfold campaign at h
    obtain ⟨r1, h1, h⟩ := Res.bind_eq_ok.1 h
    obtain ⟨s1, c1⟩ := becomePreCandidate_sim (env := env) (im := im) hcm hv h1
    dsimp only at h
    have s2 := poll_self_sim (env := env) (im := im) (Or.inr c1)
    by_cases hw : (r1.poll r1.id true).2 = .won
    · rw [if_pos hw] at h
      refine s1.trans (s2.trans (campaignElection_sim hcm (Or.inl c1) ?_ h))
      exact Adopts.mono hz (Nat.le_of_eq (becomePreCandidate_term h1).symm)
    · rw [if_neg hw] at h
      exact s1.trans (s2.trans (sendVotes_qsim (r := (r1.poll r1.id true).1) _ (Or.inr ⟨rfl, c1, rfl⟩) h).sim)

/-- `Hup` does nothing or campaigns. -/
theorem hup_cases {r r' : Raft} {t : CampaignType} (h : r.hup env t = .ok r') :
    r' = r ∨ (r.state ≠ .leader ∧ r.promotable = true ∧ MayRun r.core ∧ r.campaign env t = .ok r') := by
  unfold hup at h
  by_cases h1 : r.state = .leader
  · rw [if_pos h1] at h; cases h; exact Or.inl rfl
  rw [if_neg h1] at h
  by_cases h2 : r.promotable = true
  · rw [if_neg (by simpa using h2)] at h
    obtain ⟨x, hx, h⟩ := Res.bind_eq_ok.1 h
    cases x with
    | error e => cases h
    | ok es =>
      dsimp only at h
      split at h
      · cases h; exact Or.inl rfl
      · rename_i hc
        exact Or.inr ⟨h1, h2, mayRun_of h2 hx hc, h⟩
  · rw [if_pos h2] at h; cases h; exact Or.inl rfl

theorem hup_sim {r r' : Raft} {t : CampaignType} (hcm : CampMsg im) (hz : ¬ Adopts im r.term) (h : r.hup env t = .ok r') : Sim env im r r' := by
  rcases hup_cases h with rfl | ⟨_, _, hp, h⟩
  · exact .refl
  · exact campaign_sim hcm hp hz h

theorem handleAppendEntries_sim {r r' : Raft} (hf : r.state = .follower) (ht : im.type = .app) (hg : GateOk im r.core)
    (h : r.handleAppendEntries im = .ok r') : Sim env im r r' := by
  unfold handleAppendEntries at h
  by_cases h1 : im.index < r.log.committed
  · rw [if_pos h1] at h
    refine (send_qsim h ?_).sim
    simp only [Emit, outMsg, if_true]
    exact ⟨rfl, rfl, trivial, Or.inr (Or.inl ⟨rfl, trivial, hf, Or.inl ht, hg⟩)⟩
  rw [if_neg h1] at h
  obtain ⟨⟨l, res⟩, h2, h⟩ := Res.bind_eq_ok.1 h
  cases res with
  | some last =>
    dsimp only at h
    rw [send_ok h]
    exact .step rfl rfl (CStep.recvApp (c := r.core) l last hf ht hg (by have : r.core.log.committed = r.log.committed := rfl; omega) h2)
  | none =>
    dsimp only at h
    obtain ⟨_, _, h⟩ := Res.bind_eq_ok.1 h
    obtain ⟨_, _, h⟩ := Res.bind_eq_ok.1 h
    obtain ⟨hi, hhi, h⟩ := Res.bind_eq_ok.1 h
    obtain ⟨x, hx, h⟩ := Res.bind_eq_ok.1 h
    cases x with
    | error e => cases h
    | ok t =>
      dsimp only at h
      refine (send_qsim h ?_).sim
      simp only [Emit, outMsg, if_true]
      exact ⟨rfl, rfl, trivial, Or.inr (Or.inr ⟨trivial, trivial, hf, ht, hg, hhi, hx⟩)⟩

theorem handleHeartbeat_sim {r r' : Raft} (hf : r.state = .follower) (ht : im.type = .heartbeat) (hg : GateOk im r.core)
    (h : r.handleHeartbeat im = .ok r') : Sim env im r r' := by
  unfold handleHeartbeat at h
  obtain ⟨l, hl, h⟩ := Res.bind_eq_ok.1 h
  rw [send_ok h]
  exact .step rfl rfl (CStep.recvHeartbeat (c := r.core) l hf ht hg hl)

theorem restored_lastIndex (l : RaftLog) (s : Snapshot) : (l.restore s).lastIndex = s.metadata.index := rfl

theorem switchToConfig_follower {r r' : Raft} {cfg : TConfig} {prs : ProgressMap} {cs : ConfState} (hf : r.state ≠ .leader)
    (h : r.switchToConfig env cfg prs = .ok (r', cs)) :
    r' = { r with trk := { r.trk with config := cfg, progress := prs }, isLearner := r'.isLearner } := by
  unfold switchToConfig at h
  dsimp only at h
  rw [if_neg (by intro h; exact hf h.2), if_pos (Or.inl hf)] at h
  simp only [Res.pure_eq, Res.ok.injEq, Prod.mk.injEq] at h
  rw [← h.1]

/-- The ways `Restore` returns on a follower. -/
theorem restore_cases {r r' : Raft} {s : Snapshot} {b : Bool} (hf : r.state = .follower) (h : r.restore env s = .ok (r', b)) :
    (r' = r ∧ b = false) ∨
    (r.log.committed < s.metadata.index ∧ b = false ∧ ∃ l, r.log.matchTerm s.metadata.index s.metadata.term = .ok true ∧
      r.log.commitTo s.metadata.index = .ok l ∧ r' = { r with log := l }) ∨
    (r.log.committed < s.metadata.index ∧ b = true ∧ ∃ cfg prs lrn p,
      r.log.matchTerm s.metadata.index s.metadata.term = .ok false ∧
      Changer.restore { tracker := { maxInflight := r.trk.maxInflight }, lastIndex := s.metadata.index }
        s.metadata.confState = .ok (cfg, prs) ∧ prs.find r.id = some p ∧
      r' = { r with log := r.log.restore s
                    trk := { config := cfg, progress := prs.insert r.id (p.maybeUpdate (sub64 p.next 1)).1, votes := []
                             maxInflight := r.trk.maxInflight }
                    isLearner := lrn }) := by
  unfold restore at h
  by_cases h1 : s.metadata.index ≤ r.log.committed
  · rw [if_pos h1] at h
    simp only [Res.ok.injEq, Prod.mk.injEq] at h
    exact Or.inl ⟨h.1.symm, h.2.symm⟩
  rw [if_neg h1, if_neg (by rw [hf]; simp)] at h
  dsimp only at h
  by_cases h2 : r.id ∈ s.metadata.confState.voters ∨ r.id ∈ s.metadata.confState.learners ∨ r.id ∈ s.metadata.confState.votersOutgoing
  · rw [if_neg (fun hh => hh h2)] at h
    obtain ⟨m, hm, h⟩ := Res.bind_eq_ok.1 h
    cases m with
    | true =>
      simp only [if_true] at h
      obtain ⟨_, _, h⟩ := Res.bind_eq_ok.1 h
      obtain ⟨l, hl, h⟩ := Res.bind_eq_ok.1 h
      simp only [Res.pure_eq, Res.ok.injEq, Prod.mk.injEq] at h
      exact Or.inr (Or.inl ⟨by omega, h.2.symm, l, hm, hl, h.1.symm⟩)
    | false =>
      simp only [Bool.false_eq_true, if_false, restored_lastIndex] at h
      split at h
      · cases h
      · rename_i cfg prs hr
        obtain ⟨⟨r2, cs2⟩, hsw, h⟩ := Res.bind_eq_ok.1 h
        have e := switchToConfig_follower (by show r.state ≠ .leader; rw [hf]; simp) hsw
        dsimp only at h e
        split at h
        · cases h
        · obtain ⟨p, hp, h⟩ := Res.bind_eq_ok.1 h
          obtain ⟨_, _, h⟩ := Res.bind_eq_ok.1 h
          simp only [Res.pure_eq, Res.ok.injEq, Prod.mk.injEq] at h
          have hp' := getPr_ok hp
          refine Or.inr (Or.inr ⟨by omega, h.2.symm, cfg, prs, r2.isLearner, p, hm, hr, ?_, ?_⟩)
          · rw [e] at hp'; exact hp'
          · rw [← h.1]
            rw [e]
            rfl
  · rw [if_pos h2] at h
    simp only [Res.ok.injEq, Prod.mk.injEq] at h
    exact Or.inl ⟨h.1.symm, h.2.symm⟩

theorem handleSnapshot_sim {r r' : Raft} (hf : r.state = .follower) (ht : im.type = .snap) (hg : GateOk im r.core)
    (h : r.handleSnapshot env im = .ok r') : Sim env im r r' := by
  unfold handleSnapshot at h
  obtain ⟨⟨r1, b⟩, h1, h⟩ := Res.bind_eq_ok.1 h
  dsimp only at h
  have done : ∀ {r1 r' : Raft} {i : Nat}, r1.state = .follower → GateOk im r1.core → i = r1.log.committed →
      r1.send { type := .appResp, to := im.src, index := i } = .ok r' → Sim env im r1 r' := by
    intro r1 r' i hf hg hi h
    refine (send_qsim h ?_).sim
    simp only [Emit, outMsg, if_true]
    exact ⟨rfl, rfl, trivial, Or.inr (Or.inl ⟨hi, trivial, hf, Or.inr ht, hg⟩)⟩
  rcases restore_cases hf h1 with ⟨rfl, rfl⟩ | ⟨hc, rfl, l, hm, hl, rfl⟩ | ⟨hc, rfl, cfg, prs, lrn, p, hm, hr, hp, rfl⟩
  · simp only [Bool.false_eq_true, if_false] at h
    exact done hf hg rfl h
  · simp only [Bool.false_eq_true, if_false] at h
    have s1 : Sim env im r { r with log := l } :=
      .step0 rfl rfl (CStep.recvSnapCommit (c := r.core) l hf ht hg hc hm hl)
    exact s1.trans (done (r1 := { r with log := l }) hf hg rfl h)
  · simp only [if_true] at h
    refine Sim.trans ?_ (done (r1 := { r with log := r.log.restore (im.snapshot.getD {})
                                              trk := { config := cfg, progress := prs.insert r.id (p.maybeUpdate (sub64 p.next 1)).1
                                                       votes := [], maxInflight := r.trk.maxInflight }
                                              isLearner := lrn }) hf hg ?_ h)
    · exact .step0 rfl rfl (CStep.recvSnap (c := r.core) cfg prs p r.trk.maxInflight hf ht hg hc hm hr hp)
    · rfl

/-! ## Leader -/

/-- The conf-change gate. -/
theorem gateConf_spec {r : Raft} (es : List Entry) {i pci : Nat} {es' : List Entry} {pci' : Nat}
    (h : gateConf env r i pci es = .ok (es', pci')) :
    es'.length = es.length ∧ (∀ (j : Nat) (e' : Entry), es'[j]? = some e' → e' = {} ∨ es[j]? = some e') ∧
    (pci' = pci ∨ r.log.lastIndex < pci') ∧
    (((∀ e ∈ es', e.type = .normal) ∧ pci' = pci) ∨
     (pci ≤ r.log.applied ∧ ∃ a e b, es' = a ++ e :: b ∧ e.type ≠ .normal ∧ (∀ x ∈ a, x.type = .normal) ∧
       (r.log.applied ≤ r.log.lastIndex → (∀ x ∈ b, x.type = .normal) ∧ pci' = r.log.lastIndex + i + a.length + 1))) := by
  induction es generalizing i pci es' pci' with
  | nil =>
    simp only [gateConf, Res.ok.injEq, Prod.mk.injEq] at h
    obtain ⟨rfl, rfl⟩ := h
    exact ⟨rfl, by simp, Or.inl rfl, Or.inl ⟨by simp, rfl⟩⟩
  | cons e es ih =>
    -- the two continuations
    have hkeep : ∀ e0 : Entry, e0.type = .normal → (e0 = {} ∨ e0 = e) →
        (∃ es1 pci1, gateConf env r (i + 1) pci es = .ok (es1, pci1) ∧ es' = e0 :: es1 ∧ pci' = pci1) →
        es'.length = (e :: es).length ∧ (∀ (j : Nat) (e' : Entry), es'[j]? = some e' → e' = {} ∨ (e :: es)[j]? = some e') ∧
        (pci' = pci ∨ r.log.lastIndex < pci') ∧
        (((∀ e ∈ es', e.type = .normal) ∧ pci' = pci) ∨
         (pci ≤ r.log.applied ∧ ∃ a e b, es' = a ++ e :: b ∧ e.type ≠ .normal ∧ (∀ x ∈ a, x.type = .normal) ∧
           (r.log.applied ≤ r.log.lastIndex → (∀ x ∈ b, x.type = .normal) ∧ pci' = r.log.lastIndex + i + a.length + 1))) := by
      rintro e0 hn he0 ⟨es1, pci1, h1, rfl, rfl⟩
      obtain ⟨i1, i2, i3, i4⟩ := ih h1
      refine ⟨by simp [i1], ?_, i3, ?_⟩
      · intro j e' hj
        cases j with
        | zero =>
          simp only [List.getElem?_cons_zero, Option.some.injEq] at hj
          subst hj
          rcases he0 with h | h
          · exact Or.inl h
          · exact Or.inr (by simp [h])
        | succ j =>
          simp only [List.getElem?_cons_succ] at hj ⊢
          exact i2 j e' hj
      · rcases i4 with ⟨h1, h2⟩ | ⟨hk1, a, x, b, rfl, h3, h4, h5⟩
        · exact Or.inl ⟨(by
            intro y hy
            rcases List.mem_cons.1 hy with rfl | hy
            · exact hn
            · exact h1 y hy), h2⟩
        · refine Or.inr ⟨hk1, e0 :: a, x, b, rfl, h3, ?_, ?_⟩
          · intro y hy
            rcases List.mem_cons.1 hy with rfl | hy
            · exact hn
            · exact h4 y hy
          · intro hl
            refine ⟨(h5 hl).1, ?_⟩
            rw [(h5 hl).2, List.length_cons]; omega
    -- a conf change with `n` changes
    have hcc : e.type ≠ .normal → ∀ n : Nat,
        (if (decide (pci > r.log.applied) || (decide (r.trk.config.voters.outgoing.length > 0) && !decide (n = 0)) ||
            (!decide (r.trk.config.voters.outgoing.length > 0) && decide (n = 0))) = true then (do
          let x ← gateConf env r (i + 1) pci es
          pure ({} :: x.1, x.2) : Res (List Entry × Nat))
         else do
          let x ← gateConf env r (i + 1) (r.log.lastIndex + i + 1) es
          pure (e :: x.1, x.2)) = .ok (es', pci') →
        es'.length = (e :: es).length ∧ (∀ (j : Nat) (e' : Entry), es'[j]? = some e' → e' = {} ∨ (e :: es)[j]? = some e') ∧
        (pci' = pci ∨ r.log.lastIndex < pci') ∧
        (((∀ e ∈ es', e.type = .normal) ∧ pci' = pci) ∨
         (pci ≤ r.log.applied ∧ ∃ a e b, es' = a ++ e :: b ∧ e.type ≠ .normal ∧ (∀ x ∈ a, x.type = .normal) ∧
           (r.log.applied ≤ r.log.lastIndex → (∀ x ∈ b, x.type = .normal) ∧ pci' = r.log.lastIndex + i + a.length + 1))) := by
      intro hne n h
      split at h
      · obtain ⟨⟨es1, pci1⟩, h1, h⟩ := Res.bind_eq_ok.1 h
        simp only [Res.pure_eq, Res.ok.injEq, Prod.mk.injEq] at h
        exact hkeep {} rfl (Or.inl rfl) ⟨es1, pci1, h1, h.1.symm, h.2.symm⟩
      · rename_i hcond
        have hp : pci ≤ r.log.applied := by
          simp only [Bool.or_eq_true, decide_eq_true_eq, not_or] at hcond
          omega
        obtain ⟨⟨es1, pci1⟩, h1, h⟩ := Res.bind_eq_ok.1 h
        simp only [Res.pure_eq, Res.ok.injEq, Prod.mk.injEq] at h
        obtain ⟨rfl, rfl⟩ := h
        obtain ⟨i1, i2, i3, i4⟩ := ih h1
        refine ⟨by simp [i1], ?_, Or.inr (by rcases i3 with h | h <;> omega), Or.inr ⟨hp, [], e, es1, rfl, hne, by simp, ?_⟩⟩
        · intro j e' hj
          cases j with
          | zero => right; simpa using hj
          | succ j =>
            simp only [List.getElem?_cons_succ] at hj ⊢
            exact i2 j e' hj
        · intro hl
          rcases i4 with ⟨h1, h2⟩ | ⟨h1, _⟩
          · exact ⟨h1, by simp [h2]⟩
          · omega
    unfold gateConf at h
    cases ht : e.type with
    | normal =>
      simp only [ht, Res.pure_eq, Res.ok_bind] at h
      obtain ⟨⟨es1, pci1⟩, h1, h⟩ := Res.bind_eq_ok.1 h
      simp only [Res.ok.injEq, Prod.mk.injEq] at h
      exact hkeep e ht (Or.inr rfl) ⟨es1, pci1, h1, h.1.symm, h.2.symm⟩
    | confChange =>
      simp only [ht] at h
      cases hd : env.parseV1 e.data with
      | none => simp only [hd, Res.fatal_bind] at h; cases h
      | some cc =>
        simp only [hd, Res.pure_eq, Res.ok_bind] at h
        exact hcc (by rw [ht]; simp) 1 h
    | confChangeV2 =>
      simp only [ht] at h
      cases hd : env.parseV2 e.data with
      | none => simp only [hd, Res.fatal_bind] at h; cases h
      | some cc =>
        simp only [hd, Res.pure_eq, Res.ok_bind] at h
        exact hcc (by rw [ht]; simp) cc.changes.length h

theorem gateConf_gate {r : Raft} {es es' : List Entry} {pci' : Nat}
    (h : gateConf env r 0 r.pendingConfIndex es = .ok (es', pci')) : ConfGate r.core es' pci' := by
  obtain ⟨_, _, _, h | ⟨h1, a, e, b, rfl, h2, h3, h4⟩⟩ := gateConf_spec es h
  · exact fun _ => Or.inl h
  · intro hl
    obtain ⟨h5, h6⟩ := h4 hl
    refine Or.inr ⟨h1, a, e, b, rfl, h2, ?_, by rw [h6]; rfl⟩
    intro x hx
    rcases List.mem_append.1 hx with hx | hx
    · exact h3 x hx
    · exact h5 x hx

/-- What the gate lets through was proposed, and fits the configuration. -/
theorem gateConf_asked {r : Raft} : ∀ (es : List Entry) {i pci : Nat} {es' : List Entry} {pci' : Nat}, gateConf env r i pci es = .ok (es', pci') →
    ∀ e ∈ es', e.type ≠ .normal → e ∈ es ∧ ∃ cc, env.conf e = some cc ∧ (cc.asV2.changes = [] ↔ r.trk.config.voters.outgoing ≠ [])
  | [], i, pci, es', pci', h => by cases h; intro e he; cases he
  | e :: es, i, pci, es', pci', h => by
    have hcc : ∀ n : Nat, (∃ cc, env.conf e = some cc ∧ cc.asV2.changes.length = n) →
        (if (decide (pci > r.log.applied) || (decide (r.trk.config.voters.outgoing.length > 0) && !decide (n = 0)) ||
            (!decide (r.trk.config.voters.outgoing.length > 0) && decide (n = 0))) = true then (do
          let x ← gateConf env r (i + 1) pci es
          pure ({} :: x.1, x.2) : Res (List Entry × Nat))
         else do
          let x ← gateConf env r (i + 1) (r.log.lastIndex + i + 1) es
          pure (e :: x.1, x.2)) = .ok (es', pci') →
        ∀ e' ∈ es', e'.type ≠ .normal → e' ∈ e :: es ∧ ∃ cc, env.conf e' = some cc ∧ (cc.asV2.changes = [] ↔ r.trk.config.voters.outgoing ≠ []) := by
      rintro n ⟨cc, hcc, hn⟩ h
      split at h
      · obtain ⟨⟨es1, pci1⟩, h1, h⟩ := Res.bind_eq_ok.1 h
        simp only [Res.pure_eq, Res.ok.injEq, Prod.mk.injEq] at h
        obtain ⟨rfl, rfl⟩ := h
        intro e' he' hne
        rcases List.mem_cons.1 he' with rfl | he'
        · exact absurd rfl hne
        · obtain ⟨x, y⟩ := gateConf_asked es h1 e' he' hne
          exact ⟨List.mem_cons_of_mem _ x, y⟩
      · rename_i hcond
        obtain ⟨⟨es1, pci1⟩, h1, h⟩ := Res.bind_eq_ok.1 h
        simp only [Res.pure_eq, Res.ok.injEq, Prod.mk.injEq] at h
        obtain ⟨rfl, rfl⟩ := h
        intro e' he' hne
        rcases List.mem_cons.1 he' with rfl | he'
        · refine ⟨List.mem_cons_self, cc, hcc, ?_⟩
          rw [← List.length_eq_zero_iff, hn, ← List.length_pos_iff]
          simp only [Bool.or_eq_true, Bool.and_eq_true, decide_eq_true_eq, Bool.not_eq_true', decide_eq_false_iff_not] at hcond
          omega
        · obtain ⟨x, y⟩ := gateConf_asked es h1 e' he' hne
          exact ⟨List.mem_cons_of_mem _ x, y⟩
    unfold gateConf at h
    cases ht : e.type with
    | normal =>
      simp only [ht, Res.pure_eq, Res.ok_bind] at h
      obtain ⟨⟨es1, pci1⟩, h1, h⟩ := Res.bind_eq_ok.1 h
      simp only [Res.ok.injEq, Prod.mk.injEq] at h
      obtain ⟨rfl, rfl⟩ := h
      intro e' he' hne
      rcases List.mem_cons.1 he' with rfl | he'
      · exact absurd ht hne
      · obtain ⟨x, y⟩ := gateConf_asked es h1 e' he' hne
        exact ⟨List.mem_cons_of_mem _ x, y⟩
    | confChange =>
      simp only [ht] at h
      cases hd : env.parseV1 e.data with
      | none => simp only [hd, Res.fatal_bind] at h; cases h
      | some cc =>
        simp only [hd, Res.pure_eq, Res.ok_bind] at h
        exact hcc 1 ⟨.v1 cc, by simp [Env.conf, ht, hd], rfl⟩ h
    | confChangeV2 =>
      simp only [ht] at h
      cases hd : env.parseV2 e.data with
      | none => simp only [hd, Res.fatal_bind] at h; cases h
      | some cc =>
        simp only [hd, Res.pure_eq, Res.ok_bind] at h
        exact hcc cc.changes.length ⟨.v2 cc, by simp [Env.conf, ht, hd], rfl⟩ h

/-- What the gate lets through was proposed, or is empty. -/
theorem gateConf_given {r : Raft} : ∀ (es : List Entry) {i pci : Nat} {es' : List Entry} {pci' : Nat}, gateConf env r i pci es = .ok (es', pci') →
    ∀ e ∈ es', e = {} ∨ e ∈ es
  | [], i, pci, es', pci', h => by cases h; intro e he; cases he
  | e :: es, i, pci, es', pci', h => by
    have fin : ∀ (e0 : Entry) (p : Nat), (e0 = {} ∨ e0 = e) → (do let x ← gateConf env r (i + 1) p es; pure (e0 :: x.1, x.2) : Res (List Entry × Nat)) = .ok (es', pci') →
        ∀ e' ∈ es', e' = {} ∨ e' ∈ e :: es := by
      intro e0 p h0 h
      obtain ⟨⟨es1, pci1⟩, h1, h⟩ := Res.bind_eq_ok.1 h
      simp only [Res.pure_eq, Res.ok.injEq, Prod.mk.injEq] at h
      obtain ⟨rfl, rfl⟩ := h
      intro e' he'
      rcases List.mem_cons.1 he' with rfl | he'
      · exact h0.imp _root_.id fun h => by rw [h]; exact List.mem_cons_self
      · exact (gateConf_given es h1 e' he').imp _root_.id (List.mem_cons_of_mem _)
    unfold gateConf at h
    have hcc : ∀ n : Nat, (if (decide (pci > r.log.applied) || (decide (r.trk.config.voters.outgoing.length > 0) && !decide (n = 0)) ||
            (!decide (r.trk.config.voters.outgoing.length > 0) && decide (n = 0))) = true then (do
          let x ← gateConf env r (i + 1) pci es
          pure ({} :: x.1, x.2) : Res (List Entry × Nat))
         else do
          let x ← gateConf env r (i + 1) (r.log.lastIndex + i + 1) es
          pure (e :: x.1, x.2)) = .ok (es', pci') → ∀ e' ∈ es', e' = {} ∨ e' ∈ e :: es := by
      intro n h
      split at h
      · exact fin _ _ (Or.inl rfl) h
      · exact fin _ _ (Or.inr rfl) h
    cases ht : e.type with
    | normal =>
      simp only [ht, Res.pure_eq, Res.ok_bind] at h
      exact fin e pci (Or.inr rfl) h
    | confChange =>
      simp only [ht] at h
      cases hd : env.parseV1 e.data with
      | none => simp only [hd, Res.fatal_bind] at h; cases h
      | some cc =>
        simp only [hd, Res.pure_eq, Res.ok_bind] at h
        exact hcc 1 h
    | confChangeV2 =>
      simp only [ht] at h
      cases hd : env.parseV2 e.data with
      | none => simp only [hd, Res.fatal_bind] at h; cases h
      | some cc =>
        simp only [hd, Res.pure_eq, Res.ok_bind] at h
        exact hcc cc.changes.length h

theorem leaderProp_sim {r r' : Raft} {m : Message} {e : Option Err} (hl : r.state = .leader) (hz : ¬ Adopts im r.term) (hm : m = im) (hty : im.type = .prop)
    (h : r.leaderProp env m = .ok (r', e)) : Sim env im r r' := by
  unfold leaderProp at h
  by_cases h1 : m.entries = []
  · rw [if_pos h1] at h; cases h
  rw [if_neg h1] at h
  by_cases h2 : (r.pr r.id).isNone = true
  · rw [if_pos h2] at h; cases h; exact .refl
  rw [if_neg h2] at h
  by_cases h3 : r.leadTransferee ≠ 0
  · rw [if_pos h3] at h; cases h; exact .refl
  rw [if_neg h3] at h
  obtain ⟨⟨es, pci⟩, hgc, h⟩ := Res.bind_eq_ok.1 h
  obtain ⟨⟨r1, ok⟩, hap, h⟩ := Res.bind_eq_ok.1 h
  have ha := appendEntry_sim (env := env) (im := im) hl hz (gateConf_gate hgc)
    (fun e he hne => Or.inl ⟨hty, by rw [← hm]; exact (gateConf_asked _ hgc e he hne).1, (gateConf_asked _ hgc e he hne).2⟩)
    (fun e he => (gateConf_given _ hgc e he).imp _root_.id fun h => Or.inr ⟨hty, by rw [← hm]; exact h⟩) hap
  cases ok with
  | false =>
    simp only [Bool.false_eq_true, not_false_eq_true, if_true, Res.pure_eq, Res.ok.injEq, Prod.mk.injEq] at h
    obtain ⟨rfl, _⟩ := h
    obtain ⟨hc, hk, hm⟩ := ha.2 rfl
    rcases (gateConf_spec _ hgc).2.2.1 with hp | hp
    · exact .of_core' hk hm (by rw [hc, hp]; rfl)
    · refine .step0' hk hm ?_
      rw [hc]
      exact CStep.pciUp (c := r.core) pci hl hp
  | true =>
    simp only [not_true_eq_false, if_false] at h
    obtain ⟨r2, hb, h⟩ := Res.bind_eq_ok.1 h
    simp only [Res.pure_eq, Res.ok.injEq, Prod.mk.injEq] at h
    obtain ⟨rfl, _⟩ := h
    obtain ⟨s1, hl1⟩ := ha.1 rfl
    exact s1.trans (bcastAppend_qsim hl1 hb).sim

theorem map_prs {l : RaftLog} {f : Nat → Progress → Progress} (hf : ∀ id p, PrQuiet l p (f id p)) (P : ProgressMap) :
    PrsRel (fun _ => PrQuiet l) P (P.map fun (p : Nat × Progress) => (p.1, f p.1 p.2)) := by
  refine ⟨fun id => ?_, fun hs => by rw [List.map_map]; exact hs⟩
  rw [AMap.find_map]
  cases h : P.find id with
  | none => exact Or.inl ⟨rfl, rfl⟩
  | some p => exact Or.inr ⟨p, f id p, rfl, rfl, hf id p⟩

theorem leaderCheckQuorum_sim {r : Raft} (hz : ¬ CampMsg im) : Sim env im r (r.leaderCheckQuorum env) := by
  unfold leaderCheckQuorum
  have s1 : ∀ r : Raft, Sim env im r (match r.pr r.id with
    | some p => r.setPr r.id { p with recentActive := true }
    | none => r) := by
    intro r
    cases hp : r.pr r.id with
    | none => exact .refl
    | some p =>
      exact (setPr_qsim (p' := { p with recentActive := true }) hp
        ⟨rfl, rfl, fun _ _ k => ⟨k.next_pos, k.next_le, k.mtch_le, k.pend_le⟩⟩).sim
  have s2 : ∀ r : Raft, Sim env im r (if ¬ r.trk.quorumActive = true then r.becomeFollower env r.term 0 else r) := by
    intro r
    split
    · exact becomeFollower_sim (Or.inl rfl) fun _ => Or.inl hz
    · exact .refl
  have s3 : ∀ r : Raft, Sim env im r { r with trk := { r.trk with
      progress := r.trk.progress.map fun (id, p) =>
        (id, if id ≠ r.id then { p with recentActive := false } else p) } } := by
    intro r
    refine .step0 rfl rfl ?_
    refine CStep.prs (c := r.core) _ (map_prs (f := fun id p => if id ≠ r.id then { p with recentActive := false } else p) ?_ _)
    intro id p
    split
    · exact ⟨rfl, rfl, fun _ _ k => ⟨k.next_pos, k.next_le, k.mtch_le, k.pend_le⟩⟩
    · exact .refl _ _
  exact (s1 r).trans ((s2 _).trans (s3 _))

theorem maybeDecrTo_quiet (l : RaftLog) (p : Progress) (rej hint : Nat) : PrQuiet l p (p.maybeDecrTo rej hint).1 := by
  unfold Progress.maybeDecrTo
  by_cases h1 : p.state = .replicate
  · simp only [if_pos h1]
    by_cases h2 : rej ≤ p.mtch
    · simp only [if_pos h2]; exact .refl _ _
    · simp only [if_neg h2]
      refine ⟨rfl, rfl, fun _ _ k => ⟨?_, ?_, k.mtch_le, k.pend_le⟩⟩
      · show 1 ≤ p.mtch + 1; omega
      · show p.mtch + 1 ≤ _; have := k.mtch_le; omega
  · simp only [if_neg h1]
    by_cases h2 : sub64 p.next 1 ≠ rej
    · simp only [if_pos h2]; exact .refl _ _
    · simp only [if_neg h2]
      refine ⟨rfl, rfl, fun _ _ k => ⟨?_, ?_, k.mtch_le, k.pend_le⟩⟩
      · show 1 ≤ max _ 1; omega
      · show max (min rej _) 1 ≤ _
        have h3 : sub64 p.next 1 = rej := by simpa using h2
        rw [sub64_of_le k.next_pos] at h3
        have := k.next_le
        omega

theorem becomeProbe_quiet (l : RaftLog) (p : Progress) : PrQuiet l p p.becomeProbe := by
  unfold Progress.becomeProbe
  by_cases h1 : p.state = .snapshot
  · simp only [if_pos h1]
    refine ⟨rfl, rfl, fun _ _ k => ⟨?_, ?_, k.mtch_le, ?_⟩⟩
    · show 1 ≤ max (p.mtch + 1) _; omega
    · show max (p.mtch + 1) (p.pendingSnapshot + 1) ≤ _; have := k.mtch_le; have := k.pend_le; omega
    · show 0 ≤ _; omega
  · simp only [if_neg h1]
    refine ⟨rfl, rfl, fun _ _ k => ⟨?_, ?_, k.mtch_le, ?_⟩⟩
    · show 1 ≤ p.mtch + 1; omega
    · show p.mtch + 1 ≤ _; have := k.mtch_le; omega
    · show 0 ≤ _; omega

theorem becomeReplicate_quiet (l : RaftLog) (p : Progress) : PrQuiet l p p.becomeReplicate := by
  refine ⟨rfl, rfl, fun _ _ k => ⟨?_, ?_, k.mtch_le, ?_⟩⟩
  · show 1 ≤ p.mtch + 1; omega
  · show p.mtch + 1 ≤ _; have := k.mtch_le; omega
  · show 0 ≤ _; omega

theorem _root_.Craft.PrQuiet.trans {l : RaftLog} {a b c : Progress} (h1 : PrQuiet l a b) (h2 : PrQuiet l b c) : PrQuiet l a c :=
  ⟨h2.mtch.trans h1.mtch, h2.learner.trans h1.learner, fun x y z => h2.ok x y (h1.ok x y z)⟩

theorem pr_setPr (r : Raft) (id : Nat) (p : Progress) : (r.setPr id p).pr id = some p := by
  show (r.trk.progress.insert id p).find id = some p
  rw [AMap.find_insert, if_pos rfl]

theorem leaderAppReject_sim {r r' : Raft} {m : Message} {p : Progress} (hl : r.state = .leader) (hp : r.pr m.src = some p)
    (h : r.leaderAppReject env m p = .ok r') : QSim env im r r' := by
  unfold leaderAppReject at h
  obtain ⟨np, h⟩ : ∃ np, (match p.maybeDecrTo m.index np with
      | (pr, decr) =>
        if decr = true then
          sendAppend env (r.setPr m.src (if pr.state = PrState.replicate then pr.becomeProbe else pr)) m.src
        else pure (r.setPr m.src pr)) = .ok r' := by
    dsimp only at h
    split at h
    · obtain ⟨np, _, h⟩ := Res.bind_eq_ok.1 h
      exact ⟨np, h⟩
    · exact ⟨_, h⟩
  have hq := maybeDecrTo_quiet r.log p m.index np
  generalize p.maybeDecrTo m.index np = x at h hq
  obtain ⟨p1, d⟩ := x
  dsimp only at h hq
  cases d with
  | false =>
    simp only [Bool.false_eq_true, if_false, Res.pure_eq, Res.ok.injEq] at h
    rw [← h]
    exact setPr_qsim hp hq
  | true =>
    simp only [if_true] at h
    have hq2 : PrQuiet r.log p (if p1.state = .replicate then p1.becomeProbe else p1) := by
      split
      · exact hq.trans (becomeProbe_quiet _ _)
      · exact hq
    have q1 := setPr_qsim (env := env) (im := im) hp hq2
    exact q1.trans (sendAppend_qsim (by rw [q1.state]; exact hl) h)

/-- `pr` after `MaybeUpdate` and the state change of an accepted append response. -/
theorem ackPr_ok {l : RaftLog} {p p1 p2 : Progress} {i : Nat} {u : Bool} (h1 : p.maybeUpdate i = (p1, u))
    (h2 : p2 = p1 ∨ p2 = p1.becomeReplicate ∨ p2 = p1.becomeProbe.becomeReplicate ∨ ∃ infl, p2 = { p1 with inflights := infl }) :
    p2.mtch = max p.mtch i ∧ p2.isLearner = p.isLearner ∧
    (i ≤ l.lastIndex → PrOk l.lastIndex p → PrOk l.lastIndex p2) := by
  have e : p1.mtch = max p.mtch i ∧ p1.next = max p.next (i + 1) ∧ p1.isLearner = p.isLearner ∧
      p1.pendingSnapshot = p.pendingSnapshot := by
    unfold Progress.maybeUpdate at h1
    simp only [Prod.mk.injEq] at h1
    obtain ⟨rfl, _⟩ := h1
    by_cases hm : p.mtch < i
    · simp only [if_pos hm, and_true]; omega
    · simp only [if_neg hm, and_true]; omega
  obtain ⟨e1, e2, e3, e4⟩ := e
  have hb : p1.becomeProbe.mtch = p1.mtch ∧ p1.becomeProbe.isLearner = p1.isLearner := by
    unfold Progress.becomeProbe
    split <;> exact ⟨rfl, rfl⟩
  refine ⟨?_, ?_, ?_⟩
  · rcases h2 with rfl | rfl | rfl | ⟨_, rfl⟩
    · exact e1
    · exact e1
    · exact hb.1.trans e1
    · exact e1
  · rcases h2 with rfl | rfl | rfl | ⟨_, rfl⟩
    · exact e3
    · exact e3
    · exact hb.2.trans e3
    · exact e3
  · intro hi k
    have hm : p1.mtch ≤ l.lastIndex := by have := k.mtch_le; omega
    rcases h2 with rfl | rfl | rfl | ⟨_, rfl⟩
    · exact ⟨by have := k.next_pos; omega, by have := k.next_le; omega, hm, by rw [e4]; exact k.pend_le⟩
    · exact ⟨by show 1 ≤ p1.mtch + 1; omega, by show p1.mtch + 1 ≤ _; omega, hm, by show 0 ≤ _; omega⟩
    · refine ⟨by show 1 ≤ p1.becomeProbe.mtch + 1; omega, ?_, ?_, by show 0 ≤ _; omega⟩
      · show p1.becomeProbe.mtch + 1 ≤ _; rw [hb.1]; omega
      · show p1.becomeProbe.mtch ≤ _; rw [hb.1]; exact hm
    · exact ⟨by show 1 ≤ p1.next; have := k.next_pos; omega, by show p1.next ≤ _; have := k.next_le; omega, hm,
        by show p1.pendingSnapshot ≤ _; rw [e4]; exact k.pend_le⟩

theorem leaderAppAccept_sim {r r' : Raft} {p : Progress} (hl : r.state = .leader) (hp : r.pr im.src = some p)
    (ht : im.type = .appResp) (hr : im.reject = false) (hg : GateOk im r.core)
    (h : r.leaderAppAccept env im p = .ok r') : Sim env im r r' := by
  unfold leaderAppAccept at h
  dsimp only at h
  have hs : ∀ p2, (∀ l : RaftLog, p2.mtch = max p.mtch im.index ∧ p2.isLearner = p.isLearner ∧
      (im.index ≤ l.lastIndex → PrOk l.lastIndex p → PrOk l.lastIndex p2)) → Sim env im r (r.setPr im.src p2) := by
    intro p2 hp2
    obtain ⟨a, b, c⟩ := hp2 r.log
    exact .step0 rfl rfl (CStep.ackRecv (c := r.core) p p2 hl ht hr hg hp a b c)
  generalize hu : p.maybeUpdate im.index = x at h
  obtain ⟨p1, u⟩ := x
  dsimp only at h
  cases u with
  | false =>
    simp only [Bool.false_eq_true, not_false_eq_true, if_true, Res.pure_eq, Res.ok.injEq] at h
    rw [← h]
    exact hs p1 (fun l => ackPr_ok hu (Or.inl rfl))
  | true =>
    simp only [not_true_eq_false, if_false] at h
    obtain ⟨p2, hp2, h⟩ : ∃ p2, (p2 = p1 ∨ p2 = p1.becomeReplicate ∨ p2 = p1.becomeProbe.becomeReplicate ∨
        ∃ infl, p2 = { p1 with inflights := infl }) ∧ (do
          let (r, c) ← (r.setPr im.src p2).maybeCommit
          let r ←
            if c then do
              let r ← r.releasePendingReadIndexMessages
              r.bcastAppend env
            else if p.isPaused then r.sendAppend env im.src
            else pure r
          let r ← sendLoop env im.src (r.log.lastIndex + 2) r
          let pr ← r.getPr im.src "raft.cc:1242"
          if im.src = r.leadTransferee ∧ pr.mtch = r.log.lastIndex then r.sendTimeoutNow im.src
          else pure r) = .ok r' := by
      cases hst : p1.state with
      | probe =>
        simp only [hst, Res.pure_eq, Res.ok_bind] at h
        exact ⟨_, Or.inr (Or.inl rfl), h⟩
      | snapshot =>
        simp only [hst] at h
        by_cases hq : p1.mtch ≥ p1.pendingSnapshot
        · simp only [if_pos hq, Res.pure_eq, Res.ok_bind] at h
          exact ⟨_, Or.inr (Or.inr (Or.inl rfl)), h⟩
        · simp only [if_neg hq, Res.pure_eq, Res.ok_bind] at h
          exact ⟨_, Or.inl rfl, h⟩
      | replicate =>
        simp only [hst] at h
        obtain ⟨infl, _, h⟩ := Res.bind_eq_ok.1 h
        simp only [Res.pure_eq, Res.ok_bind] at h
        exact ⟨_, Or.inr (Or.inr (Or.inr ⟨infl, rfl⟩)), h⟩
    have s1 := hs p2 (fun l => ackPr_ok hu hp2)
    obtain ⟨⟨r1, c⟩, hmc, h⟩ := Res.bind_eq_ok.1 h
    have s2 := maybeCommit_sim (env := env) (im := im) (by exact hl) (by exact hg.not_adopts) hmc
    have hl1 : r1.state = .leader := by rw [(maybeCommit_ok hmc).1]; exact hl
    dsimp only at h
    obtain ⟨r2, q3, h⟩ : ∃ r2, QSim env im r1 r2 ∧ (do
          let r ← sendLoop env im.src (r2.log.lastIndex + 2) r2
          let pr ← r.getPr im.src "raft.cc:1242"
          if im.src = r.leadTransferee ∧ pr.mtch = r.log.lastIndex then r.sendTimeoutNow im.src
          else pure r) = .ok r' := by
      cases c with
      | true =>
        simp only [if_true] at h
        obtain ⟨ra, h1, h⟩ := Res.bind_eq_ok.1 h
        obtain ⟨rb, h2, h⟩ := Res.bind_eq_ok.1 h
        have q1 := releasePending_qsim (env := env) (im := im) hl1 h1
        have q2 := bcastAppend_qsim (env := env) (im := im) (by rw [q1.state]; exact hl1) h2
        exact ⟨rb, q1.trans q2, h⟩
      | false =>
        simp only [Bool.false_eq_true, if_false] at h
        by_cases hpp : p.isPaused = true
        · simp only [if_pos hpp] at h
          obtain ⟨ra, h1, h⟩ := Res.bind_eq_ok.1 h
          exact ⟨ra, sendAppend_qsim hl1 h1, h⟩
        · simp only [if_neg hpp, Res.pure_eq, Res.ok_bind] at h
          exact ⟨r1, .refl, h⟩
    have hl2 : r2.state = .leader := by rw [q3.state]; exact hl1
    obtain ⟨r3, h3, h⟩ := Res.bind_eq_ok.1 h
    have q4 := sendLoop_qsim (im := im) _ hl2 h3
    have hl3 : r3.state = .leader := by rw [q4.state]; exact hl2
    obtain ⟨p3, _, h⟩ := Res.bind_eq_ok.1 h
    refine s1.trans (s2.trans (q3.sim.trans (q4.sim.trans ?_)))
    split at h
    · exact (sendTimeoutNow_qsim hl3 h).sim
    · cases h; exact .refl

theorem advance_option {ro ro' : ReadOnly} {ctx : Bytes} {rss : List ReadIndexStatus} (h : ro.advance ctx = .ok (ro', rss)) :
    ro'.option = ro.option := by
  unfold ReadOnly.advance at h
  obtain ⟨⟨a, f⟩, _, h⟩ := Res.bind_eq_ok.1 h
  cases f with
  | true =>
    simp only [if_true] at h
    obtain ⟨_, _, h⟩ := Res.bind_eq_ok.1 h
    simp only [Res.pure_eq, Res.ok.injEq, Prod.mk.injEq] at h
    rw [← h.1]
  | false =>
    simp only [Bool.false_eq_true, if_false, Res.pure_eq, Res.ok.injEq, Prod.mk.injEq] at h
    rw [← h.1]

theorem respondReadIndex_ro {r r' : Raft} {a b : ReadOnly} {req : Message} {i : Nat}
    (h : ({ r with readOnly := a } : Raft).respondReadIndex req i = .ok r') :
    ({ r with readOnly := b } : Raft).respondReadIndex req i = .ok { r' with readOnly := b } ∧ r'.readOnly = a := by
  unfold respondReadIndex responseToReadIndexReq at h ⊢
  dsimp only at h ⊢
  by_cases hs : req.src = 0 ∨ req.src = r.id
  · rw [if_pos hs] at h ⊢
    cases hc : ReadOnly.reqCtx req "raft.cc:1806" with
    | ok ctx =>
      rw [hc] at h
      simp only [Res.ok_bind, Res.pure_eq, ne_eq, not_true_eq_false, if_false, Res.ok.injEq] at h ⊢
      subst h
      exact ⟨rfl, rfl⟩
    | fatal _ => rw [hc] at h; cases h
    | ub _ => rw [hc] at h; cases h
  · rw [if_neg hs] at h ⊢
    dsimp only [Res.ok_bind] at h ⊢
    by_cases hz : req.src ≠ 0
    · rw [if_pos hz] at h ⊢
      have := send_ok h
      subst this
      have ht := (send_term h).2 (by simp)
      unfold send at h ⊢
      dsimp only at h ⊢
      simp only [if_true] at h ⊢
      rw [if_neg (by simp)] at h ⊢
      cases h
      exact ⟨rfl, trivial⟩
    · rw [if_neg hz] at h ⊢
      cases h
      exact ⟨rfl, rfl⟩

theorem respondAll_ro (rss : List ReadIndexStatus) {r r' : Raft} {a b : ReadOnly}
    (h : respondAll rss ({ r with readOnly := a } : Raft) = .ok r') :
    respondAll rss ({ r with readOnly := b } : Raft) = .ok { r' with readOnly := b } ∧ r'.readOnly = a := by
  induction rss generalizing r with
  | nil => cases h; exact ⟨rfl, rfl⟩
  | cons x xs ih =>
    unfold respondAll at h ⊢
    obtain ⟨r2, h2, h⟩ := Res.bind_eq_ok.1 h
    obtain ⟨k1, k2⟩ := respondReadIndex_ro (b := b) h2
    rw [k1]
    have e : r2 = { r2 with readOnly := a } := by rw [← k2]
    rw [e] at h
    exact ih (r := r2) h

theorem scan_missing {P : List (Bytes × ReadIndexStatus)} {ctx : Bytes} {rss : List ReadIndexStatus} (q : List Bytes)
    (hf : ReadOnly.findPending P ctx = none) : ReadOnly.advanceScan P ctx q ≠ .ok (rss, true) := by
  induction q generalizing rss with
  | nil => intro h; cases h
  | cons k q ih =>
    intro h
    unfold ReadOnly.advanceScan at h
    cases hk : ReadOnly.findPending P k with
    | none => rw [hk] at h; cases h
    | some st =>
      rw [hk] at h
      dsimp only at h
      by_cases he : k = ctx
      · subst he; rw [hf] at hk; cases hk
      · rw [if_neg he] at h
        obtain ⟨⟨rs, f⟩, h1, h⟩ := Res.bind_eq_ok.1 h
        simp only [Res.pure_eq, Res.ok.injEq, Prod.mk.injEq] at h
        obtain ⟨_, rfl⟩ := h
        exact ih h1

theorem leaderHeartbeatResp_qsim {r r' : Raft} {p : Progress} (hl : r.state = .leader) (hp : r.pr im.src = some p)
    (ht : im.type = .heartbeatResp) (hg : ∀ x : Raft, x.term = r.term → GateOk im x.core)
    (h : r.leaderHeartbeatResp env im p = .ok r') : QSim env im r r' := by
  unfold leaderHeartbeatResp at h
  dsimp only at h
  obtain ⟨p1, hq, h⟩ : ∃ p1, PrQuiet r.log p p1 ∧ (do
      let r := r.setPr im.src p1
      let r ← if p1.mtch < r.log.lastIndex then r.sendAppend env im.src else pure r
      if r.readOnly.option ≠ ReadOnlyOption.safe ∨ im.context = [] then pure r
      else
        let (ro, acks) := r.readOnly.recvAck im.src im.context
        let r := { r with readOnly := ro }
        if r.trk.config.voters.voteResult acks ≠ VoteState.won then pure r
        else
          let (ro, rss) ← r.readOnly.advance im.context
          respondAll rss { r with readOnly := ro }) = .ok r' := by
    split at h
    · obtain ⟨infl, _, h⟩ := Res.bind_eq_ok.1 h
      exact ⟨{ p with recentActive := true, probeSent := false, inflights := infl },
        ⟨rfl, rfl, fun _ _ k => ⟨k.next_pos, k.next_le, k.mtch_le, k.pend_le⟩⟩, h⟩
    · exact ⟨{ p with recentActive := true, probeSent := false }, ⟨rfl, rfl, fun _ _ k => ⟨k.next_pos, k.next_le, k.mtch_le, k.pend_le⟩⟩, h⟩
  have q1 := setPr_qsim (env := env) (im := im) hp hq
  dsimp only at h
  obtain ⟨r1, q2, h⟩ : ∃ r1, QSim env im (r.setPr im.src p1) r1 ∧ (
      if r1.readOnly.option ≠ .safe ∨ im.context = [] then (pure r1 : Res Raft)
      else
        let (ro, acks) := r1.readOnly.recvAck im.src im.context
        let r := { r1 with readOnly := ro }
        if r.trk.config.voters.voteResult acks ≠ .won then pure r
        else do
          let (ro, rss) ← r.readOnly.advance im.context
          respondAll rss { r with readOnly := ro }) = .ok r' := by
    by_cases hm : p1.mtch < (r.setPr im.src p1).log.lastIndex
    · rw [if_pos hm] at h
      obtain ⟨r1, h1, h⟩ := Res.bind_eq_ok.1 h
      exact ⟨r1, sendAppend_qsim (by rw [q1.state]; exact hl) h1, h⟩
    · rw [if_neg hm] at h
      simp only [Res.pure_eq, Res.ok_bind] at h
      exact ⟨_, .refl, h⟩
  refine q1.trans (q2.trans ?_)
  have hl1 : r1.state = .leader := by rw [q2.state, q1.state]; exact hl
  by_cases hopt : r1.readOnly.option ≠ .safe ∨ im.context = []
  · rw [if_pos hopt] at h; cases h; exact .refl
  · rw [if_neg hopt] at h
    have ho1 : r1.readOnly.option = .safe := Decidable.byContradiction fun h => hopt (Or.inl h)
    have ho2 : im.context ≠ [] := fun h => hopt (Or.inr h)
    have ho := recvAck_option r1.readOnly im.src im.context
    have q3 : QSim env im r1 { r1 with readOnly := (r1.readOnly.recvAck im.src im.context).1 } :=
      ⟨.step0 (by simp only [consts, ho]) rfl (CStep.readAck (c := r1.core) hl1 ht (hg r1 (by rw [q2.term, q1.term])) ho1 ho2), rfl⟩
    generalize hR : r1.readOnly.recvAck im.src im.context = R at h q3 ho
    obtain ⟨ro, acks⟩ := R
    dsimp only at h q3 ho
    by_cases hv : r1.trk.config.voters.voteResult acks ≠ .won
    · rw [if_pos hv] at h; cases h; exact q3
    · rw [if_neg hv] at h
      have hv' : r1.trk.config.voters.voteResult acks = .won := by simpa using hv
      obtain ⟨⟨ro2, rss⟩, h1, h⟩ := Res.bind_eq_ok.1 h
      dsimp only at h
      have hadv : ({ r1 with readOnly := ro } : Raft).core.reads.ro.advance im.context = .ok (ro2, rss) := h1
      refine q3.trans ?_
      unfold ReadOnly.advance at h1
      obtain ⟨⟨rss', found⟩, hsc, h1⟩ := Res.bind_eq_ok.1 h1
      cases found with
      | false =>
        simp only [Bool.false_eq_true, if_false, Res.pure_eq, Res.ok.injEq, Prod.mk.injEq] at h1
        obtain ⟨rfl, rfl⟩ := h1
        cases h
        exact .refl
      | true =>
        simp only [if_true] at h1
        obtain ⟨pend, _, h1⟩ := Res.bind_eq_ok.1 h1
        simp only [Res.pure_eq, Res.ok.injEq, Prod.mk.injEq] at h1
        obtain ⟨hro2, rfl⟩ := h1
        have hfind : ∃ x, ReadOnly.findPending ro.pending im.context = some x ∧ x.acks = acks := by
          have hfin := recvAck_find r1.readOnly im.src im.context im.context
          rw [hR, if_pos rfl] at hfin
          unfold ReadOnly.recvAck at hR
          cases hf : ReadOnly.findPending r1.readOnly.pending im.context with
          | none =>
            rw [hf] at hR
            simp only [Prod.mk.injEq] at hR
            obtain ⟨rfl, rfl⟩ := hR
            have : rss' ≠ [] ∧ False := by
              exfalso
              exact absurd hsc (scan_missing _ hf)
            exact this.2.elim
          | some st =>
            rw [hf] at hR hfin
            simp only [Prod.mk.injEq] at hR
            exact ⟨_, hfin, hR.2⟩
        obtain ⟨x, hx, rfl⟩ := hfind
        have h' := respondAll_ro rss' (r := { r1 with readOnly := ro }) (b := ro) h
        have w := (respondAll_wsim (env := env) (im := im) rss' (r := { r1 with readOnly := ro }) (ws := r1.pendingReadIndexMessages) (by exact hl1)
          (fun st hst y => Or.inl ⟨st, ⟨_, x, rss', hx, hv', hsc, hst⟩, rfl, rfl⟩) h'.1)
        have q4 := w.1.qsim w.1.2.2.1.symm
        refine q4.trans ⟨.step0 ?_ rfl ?_, ?_⟩
        · have e1 := advance_option hadv
          have e2 := h'.2
          simp only [consts]
          rw [e2, e1]; rfl
        · have e : r'.core = { ({ r' with readOnly := ro } : Raft).core with reads := { ({ r' with readOnly := ro } : Raft).core.reads with ro := ro2 } } := by
            show r'.core = { r'.core with reads := { r'.reads with ro := ro2 } }
            rw [← h'.2]; rfl
          rw [e]
          exact CStep.readAdvance (c := ({ r' with readOnly := ro } : Raft).core) im.context ro2 rss' (by exact q4.state.trans hl1) hadv
        · rfl

theorem leaderTransfer_qsim {r r' : Raft} {m : Message} {p : Progress} (hl : r.state = .leader)
    (h : r.leaderTransfer env m p = .ok r') : QSim env im r r' := by
  unfold leaderTransfer at h
  split at h
  · cases h; exact .refl
  split at h
  · cases h; exact .refl
  dsimp only at h
  have q0 : QSim env im r (if r.leadTransferee ≠ 0 then { r with leadTransferee := 0 } else r) := by
    split
    · exact .of_core rfl rfl rfl
    · exact .refl
  generalize (if r.leadTransferee ≠ 0 then { r with leadTransferee := 0 } else r) = r0 at h q0
  have hl0 : r0.state = .leader := by rw [q0.state]; exact hl
  split at h
  · cases h; exact q0
  · have q1 : QSim env im r0 { r0 with electionElapsed := 0, leadTransferee := m.src } := .of_core rfl rfl rfl
    split at h
    · exact q0.trans (q1.trans (sendTimeoutNow_qsim hl0 h))
    · exact q0.trans (q1.trans (sendAppend_qsim hl0 h))

theorem stepLeader_sim {r r' : Raft} {e : Option Err} (hl : r.state = .leader) (hg : GateOk im r.core)
    (h : r.stepLeader env im = .ok (r', e)) : Sim env im r r' := by
  unfold stepLeader at h
  have hb : im.type = .beat → Sim env im r r' := by
    intro ht
    simp only [ht] at h
    obtain ⟨r1, h1, h⟩ := Res.bind_eq_ok.1 h
    cases h
    exact (bcastHeartbeatWithCtx_qsim hl (lastPending_ctxOk r) h1).sim
  have hcq : im.type = .checkQuorum → Sim env im r r' := by
    intro ht
    simp only [ht] at h
    cases h
    exact leaderCheckQuorum_sim (by rintro (h | h | h) <;> rw [ht] at h <;> cases h)
  have hpp : im.type = .prop → Sim env im r r' := by
    intro ht
    simp only [ht] at h
    exact leaderProp_sim hl hg.not_adopts rfl ht h
  have hri : im.type = .readIndex → Sim env im r r' := by
    intro ht
    simp only [ht] at h
    obtain ⟨r1, h1, h⟩ := Res.bind_eq_ok.1 h
    cases h
    exact (leaderReadIndex_wsim hl ht h1).sim
  cases hp : r.pr im.src with
  | none =>
    cases ht : im.type <;> first
      | exact hb ht
      | exact hcq ht
      | exact hpp ht
      | exact hri ht
      | (simp only [ht, hp, Res.ok.injEq, Prod.mk.injEq] at h; rw [← h.1]; exact .refl)
  | some p =>
    cases ht : im.type with
    | beat => exact hb ht
    | checkQuorum => exact hcq ht
    | prop => exact hpp ht
    | readIndex => exact hri ht
    | appResp =>
      simp only [ht, hp] at h
      have q0 : QSim env im r (r.setPr im.src { p with recentActive := true }) :=
        setPr_qsim hp ⟨rfl, rfl, fun _ _ k => ⟨k.next_pos, k.next_le, k.mtch_le, k.pend_le⟩⟩
      have hp0 := pr_setPr r im.src { p with recentActive := true }
      cases hr : im.reject with
      | true =>
        simp only [hr, if_true] at h
        obtain ⟨r1, h1, h⟩ := Res.bind_eq_ok.1 h
        cases h
        exact (q0.trans (leaderAppReject_sim (by rw [q0.state]; exact hl) hp0 h1)).sim
      | false =>
        simp only [hr, Bool.false_eq_true, if_false] at h
        obtain ⟨r1, h1, h⟩ := Res.bind_eq_ok.1 h
        cases h
        exact q0.sim.trans (leaderAppAccept_sim (by rw [q0.state]; exact hl) hp0 ht hr hg h1)
    | heartbeatResp =>
      simp only [ht, hp] at h
      obtain ⟨r1, h1, h⟩ := Res.bind_eq_ok.1 h
      cases h
      refine (leaderHeartbeatResp_qsim hl hp ht (fun x hx => ?_) h1).sim
      have hx' : x.core.term = r.core.term := hx
      unfold GateOk at hg ⊢
      rw [hx']; exact hg
    | snapStatus =>
      simp only [ht, hp, Res.ok.injEq, Prod.mk.injEq] at h
      rw [← h.1]
      unfold leaderSnapStatus
      split
      · exact .refl
      · refine (setPr_qsim hp ?_).sim
        have h2 : ∀ q : Progress, PrQuiet r.log q { q with probeSent := true } :=
          fun q => ⟨rfl, rfl, fun _ _ k => ⟨k.next_pos, k.next_le, k.mtch_le, k.pend_le⟩⟩
        split
        · exact (becomeProbe_quiet _ _).trans (h2 _)
        · refine PrQuiet.trans (b := { p with pendingSnapshot := 0 }) ?_ ((becomeProbe_quiet _ _).trans (h2 _))
          exact ⟨rfl, rfl, fun _ _ k => ⟨k.next_pos, k.next_le, k.mtch_le, by show 0 ≤ _; omega⟩⟩
    | unreachable =>
      simp only [ht, hp, Res.ok.injEq, Prod.mk.injEq] at h
      rw [← h.1]
      split
      · exact (setPr_qsim hp (becomeProbe_quiet _ _)).sim
      · exact .refl
    | transferLeader =>
      simp only [ht, hp] at h
      obtain ⟨r1, h1, h⟩ := Res.bind_eq_ok.1 h
      cases h
      exact (leaderTransfer_qsim hl h1).sim
    | _ => simp only [ht, hp, Res.ok.injEq, Prod.mk.injEq] at h; rw [← h.1]; exact .refl

/-! ## Candidates and followers -/



theorem GateOk.eq_term {c : Core} (hg : GateOk im c) (hs : Stamped im) (ht : im.type = .app ∨ im.type = .heartbeat ∨ im.type = .snap) :
    im.term = c.term := by
  rcases hg with h | h | ⟨_, h | ⟨h, _⟩⟩
  · exact absurd h (hs ht)
  · exact h
  · rw [h] at ht; simp at ht
  · rw [h] at ht; simp at ht

theorem candidateVoteResp_sim {r r' : Raft} (hg : GateOk im r.core)
    (hc : (r.state = .candidate ∧ im.type = .voteResp) ∨ (r.state = .preCandidate ∧ im.type = .preVoteResp))
    (h : r.candidateVoteResp env im = .ok r') : Sim env im r r' := by
  unfold candidateVoteResp at h
  have s1 : Sim env im r (r.poll im.src (!im.reject)).1 := by
    refine .step0 (by simp only [poll, trk_recordVote, consts]) rfl ?_
    have e : (r.poll im.src (!im.reject)).1.core = { r.core with votes := recordVote r.core.votes im.src (!im.reject) } := by
      simp only [poll, trk_recordVote, core, reads]
    rw [e]
    exact CStep.pollResp (c := r.core) hc hg
  refine s1.trans ?_
  have hst := (poll_state r im.src (!im.reject)).1
  have htm := (poll_state r im.src (!im.reject)).2.1
  have htl : (r.poll im.src (!im.reject)).1.core.tally = (r.poll im.src (!im.reject)).2 := rfl
  dsimp only at h
  generalize r.poll im.src (!im.reject) = x at h hst htl htm
  obtain ⟨r1, res⟩ := x
  dsimp only at h hst htl htm
  cases res with
  | won =>
    dsimp only at h
    by_cases hp : r1.state = .preCandidate
    · rw [if_pos hp] at h
      refine campaignElection_sim ?_ (Or.inl hp) (by rw [htm]; exact hg.not_adopts) h
      rcases hc with ⟨hc, _⟩ | ⟨_, hc⟩
      · rw [hst, hc] at hp; cases hp
      · exact Or.inr (Or.inr hc)
    · rw [if_neg hp] at h
      obtain ⟨r2, h2, h⟩ := Res.bind_eq_ok.1 h
      have hcc : r1.state = .candidate := by
        rcases hc with ⟨h, _⟩ | ⟨h, _⟩
        · rw [hst, h]
        · exact absurd (hst.trans h) hp
      obtain ⟨s2, hl2⟩ := becomeLeader_sim (env := env) (im := im) (hc.elim (fun h => Or.inr h.2) (fun h => Or.inl (Or.inr (Or.inr h.2)))) hcc (by rw [htm]; exact hg.not_adopts) htl h2
      exact s2.trans (bcastAppend_qsim hl2 h).sim
  | lost =>
    cases h
    refine becomeFollower_sim (Or.inl rfl) fun hl => ?_
    rw [hst] at hl
    rcases hc with ⟨hc, _⟩ | ⟨hc, _⟩ <;> rw [hc] at hl <;> cases hl
  | pending => cases h; exact .refl

theorem stepCandidate_sim {r r' : Raft} {e : Option Err} (hc : r.state = .candidate ∨ r.state = .preCandidate)
    (hg : GateOk im r.core) (hst : Stamped im) (h : r.stepCandidate env im = .ok (r', e)) : Sim env im r r' := by
  unfold stepCandidate at h
  have bf : (im.type = .app ∨ im.type = .heartbeat ∨ im.type = .snap) →
      Sim env im r (r.becomeFollower env im.term im.src) ∧ (r.becomeFollower env im.term im.src).state = .follower ∧
      GateOk im (r.becomeFollower env im.term im.src).core := by
    intro ht
    have he := GateOk.eq_term hg hst ht
    refine ⟨becomeFollower_sim (Or.inl he) (fun hl => by rcases hc with hc | hc <;> rw [hc] at hl <;> cases hl), rfl, Or.inr (Or.inl ?_)⟩
    rw [becomeFollower_core]
  cases ht : im.type with
  | app =>
    simp only [ht] at h
    obtain ⟨r1, h1, h⟩ := Res.bind_eq_ok.1 h
    cases h
    obtain ⟨s, f, g⟩ := bf (Or.inl ht)
    exact s.trans (handleAppendEntries_sim f ht g h1)
  | heartbeat =>
    simp only [ht] at h
    obtain ⟨r1, h1, h⟩ := Res.bind_eq_ok.1 h
    cases h
    obtain ⟨s, f, g⟩ := bf (Or.inr (Or.inl ht))
    exact s.trans (handleHeartbeat_sim f ht g h1)
  | snap =>
    simp only [ht] at h
    obtain ⟨r1, h1, h⟩ := Res.bind_eq_ok.1 h
    cases h
    obtain ⟨s, f, g⟩ := bf (Or.inr (Or.inr ht))
    exact s.trans (handleSnapshot_sim f ht g h1)
  | preVoteResp =>
    simp only [ht] at h
    by_cases hp : r.state = .preCandidate
    · rw [if_pos hp] at h
      obtain ⟨r1, h1, h⟩ := Res.bind_eq_ok.1 h
      cases h
      exact candidateVoteResp_sim hg (Or.inr ⟨hp, ht⟩) h1
    · rw [if_neg hp] at h; cases h; exact .refl
  | voteResp =>
    simp only [ht] at h
    by_cases hp : r.state ≠ .preCandidate
    · rw [if_pos hp] at h
      obtain ⟨r1, h1, h⟩ := Res.bind_eq_ok.1 h
      cases h
      have hcc : r.state = .candidate := hc.resolve_right hp
      exact candidateVoteResp_sim hg (Or.inl ⟨hcc, ht⟩) h1
    · rw [if_neg hp] at h; cases h; exact .refl
  | _ => simp only [ht] at h; cases h; exact .refl

theorem forward_sim {r r' : Raft} {to : Nat} (hf : r.state = .follower)
    (ht : im.type = .prop ∨ im.type = .readIndex ∨ im.type = .transferLeader) (h : r.send { im with to := to } = .ok r') :
    Sim env im r r' := by
  refine (send_qsim h ?_).sim
  have htm := send_term h
  have hsrc : (r.outMsg { im with to := to }).src = r.id ∨ ((r.outMsg { im with to := to }).src = im.src ∧ im.src ≠ 0) := by
    unfold outMsg
    by_cases h0 : im.src = 0
    · left
      rcases ht with ht | ht | ht <;> simp [h0, ht]
    · right
      refine ⟨?_, h0⟩
      rcases ht with ht | ht | ht <;> simp [h0, ht]
  have e1 : (r.outMsg { im with to := to }).type = im.type := by
    unfold outMsg
    by_cases h0 : im.src = 0 <;> rcases ht with ht | ht | ht <;> simp [h0, ht]
  have e2 : (r.outMsg { im with to := to }).entries = im.entries := by
    unfold outMsg
    by_cases h0 : im.src = 0 <;> rcases ht with ht | ht | ht <;> simp [h0, ht]
  have htz : im.term = 0 := by
    refine htm.2 ?_
    rcases ht with ht | ht | ht <;> simp [ht]
  have e3 : (r.outMsg { im with to := to }).term = if im.type = .transferLeader then r.term else 0 := by
    unfold outMsg
    by_cases h0 : im.src = 0 <;> rcases ht with ht | ht | ht <;> simp [h0, ht, htz]
  generalize r.outMsg { im with to := to } = mm at hsrc e1 e2 e3
  unfold Emit
  rcases ht with ht | ht | ht
  · rw [e1, ht]; dsimp only
    exact ⟨hsrc, by rw [e3, ht]; rfl, hf, by first | rfl | rw [ht], e2⟩
  · rw [e1, ht]; dsimp only
    exact ⟨hsrc, by rw [e3, ht]; rfl, hf, by first | rfl | rw [ht], e2⟩
  · rw [e1, ht]; dsimp only
    exact ⟨hsrc, by rw [e3, ht]; rfl, hf, by first | rfl | rw [ht]⟩

theorem stepFollower_sim {r r' : Raft} {e : Option Err} (hf : r.state = .follower) (hg : GateOk im r.core)
    (h : r.stepFollower env im = .ok (r', e)) : Sim env im r r' := by
  unfold stepFollower at h
  have s0 : Sim env im r { r with electionElapsed := 0, lead := im.src } := .of_core rfl rfl rfl
  cases ht : im.type with
  | prop =>
    simp only [ht] at h
    by_cases h1 : r.lead = 0
    · rw [if_pos h1] at h; cases h; exact .refl
    rw [if_neg h1] at h
    by_cases h2 : r.disableProposalForwarding = true
    · rw [if_pos h2] at h; cases h; exact .refl
    rw [if_neg h2] at h
    obtain ⟨r1, h1, h⟩ := Res.bind_eq_ok.1 h
    cases h
    exact forward_sim hf (Or.inl ht) (by rw [ht]; exact h1)
  | transferLeader =>
    simp only [ht] at h
    by_cases h1 : r.lead = 0
    · rw [if_pos h1] at h; cases h; exact .refl
    rw [if_neg h1] at h
    obtain ⟨r1, h1, h⟩ := Res.bind_eq_ok.1 h
    cases h
    exact forward_sim hf (Or.inr (Or.inr ht)) (by rw [ht]; exact h1)
  | readIndex =>
    simp only [ht] at h
    by_cases h1 : r.lead = 0
    · rw [if_pos h1] at h; cases h; exact .refl
    rw [if_neg h1] at h
    obtain ⟨r1, h1, h⟩ := Res.bind_eq_ok.1 h
    cases h
    exact forward_sim hf (Or.inr (Or.inl ht)) (by rw [ht]; exact h1)
  | app =>
    simp only [ht] at h
    obtain ⟨r1, h1, h⟩ := Res.bind_eq_ok.1 h
    cases h
    exact s0.trans (handleAppendEntries_sim hf ht hg h1)
  | heartbeat =>
    simp only [ht] at h
    obtain ⟨r1, h1, h⟩ := Res.bind_eq_ok.1 h
    cases h
    exact s0.trans (handleHeartbeat_sim hf ht hg h1)
  | snap =>
    simp only [ht] at h
    obtain ⟨r1, h1, h⟩ := Res.bind_eq_ok.1 h
    cases h
    exact s0.trans (handleSnapshot_sim hf ht hg h1)
  | timeoutNow =>
    simp only [ht] at h
    obtain ⟨r1, h1, h⟩ := Res.bind_eq_ok.1 h
    cases h
    exact hup_sim (by simp [CampMsg, ht]) hg.not_adopts h1
  | readIndexResp =>
    simp only [ht] at h
    split at h
    · rename_i e he
      cases h
      exact .step0 rfl rfl (CStep.readResp (c := r.core) e hf ht he)
    · cases h; exact .refl
  | _ => simp only [ht] at h; cases h; exact .refl

theorem stepState_sim {r r' : Raft} {e : Option Err} (hg : GateOk im r.core) (hst : Stamped im)
    (h : r.stepState env im = .ok (r', e)) : Sim env im r r' := by
  unfold stepState at h
  cases hs : r.state with
  | follower => simp only [hs] at h; exact stepFollower_sim hs hg h
  | candidate => simp only [hs] at h; exact stepCandidate_sim (Or.inl hs) hg hst h
  | preCandidate => simp only [hs] at h; exact stepCandidate_sim (Or.inr hs) hg hst h
  | leader => simp only [hs] at h; exact stepLeader_sim hs hg h

theorem canGrant_ok {r : Raft} {m : Message} {up : Bool} (h : r.canGrant m = .ok up) : up = true →
    (r.vote = m.src ∨ (r.vote = 0 ∧ r.lead = 0) ∨ (m.type = .preVote ∧ m.term > r.term)) ∧
      r.log.isUpToDate m.index m.logTerm = .ok true := by
  intro hu
  unfold canGrant at h
  by_cases hcv : r.vote = m.src ∨ (r.vote = 0 ∧ r.lead = 0) ∨ (m.type = .preVote ∧ m.term > r.term)
  · rw [if_pos hcv] at h
    exact ⟨hcv, by rw [h, hu]⟩
  · rw [if_neg hcv] at h
    cases h; cases hu

theorem stepVote_sim {r r' : Raft} (hg : GateOk im r.core) (ht : im.type = .vote ∨ im.type = .preVote)
    (h : r.stepVote im = .ok r') : Sim env im r r' := by
  unfold stepVote at h
  obtain ⟨up, hup, h⟩ := Res.bind_eq_ok.1 h
  have hup := canGrant_ok hup
  obtain ⟨_, _, h⟩ := Res.bind_eq_ok.1 h
  obtain ⟨rt, hrt, h⟩ := Res.bind_eq_ok.1 h
  rcases ht with ht | ht
  · rw [ht] at hrt
    cases hrt
    cases up with
    | true =>
      obtain ⟨hcv, hu⟩ := hup rfl
      simp only [if_true, ht] at h
      obtain ⟨r1, h1, h⟩ := Res.bind_eq_ok.1 h
      simp only [Res.pure_eq, Res.ok.injEq] at h
      have htm := (send_term h1).1 (Or.inr (Or.inl rfl))
      rw [← h, send_ok h1]
      refine .step rfl rfl (CStep.grant (c := r.core) ht htm hg ?_ hu)
      rcases hcv with h | ⟨h, _⟩ | ⟨h, _⟩
      · exact Or.inl h
      · exact Or.inr h
      · rw [ht] at h; cases h
    | false =>
      simp only [Bool.false_eq_true, if_false] at h
      refine (send_qsim h ?_).sim
      simp only [Emit, outMsg, if_true]
      exact ⟨rfl, rfl, trivial, ht, trivial⟩
  · rw [ht] at hrt
    cases hrt
    cases up with
    | true =>
      obtain ⟨hcv, hu⟩ := hup rfl
      simp only [if_true, ht] at h
      obtain ⟨r1, h1, h⟩ := Res.bind_eq_ok.1 h
      rw [if_neg (by intro h; cases h)] at h
      simp only [Res.pure_eq, Res.ok.injEq] at h
      subst h
      refine (send_qsim h1 ?_).sim
      simp only [Emit, outMsg, if_true]
      exact ⟨rfl, ht, trivial, Or.inr ⟨trivial, trivial, hu⟩⟩
    | false =>
      simp only [Bool.false_eq_true, if_false] at h
      refine (send_qsim h ?_).sim
      simp only [Emit, outMsg, if_true]
      exact ⟨rfl, ht, trivial, Or.inl ⟨trivial, rfl⟩⟩

theorem stepBody_sim {r r' : Raft} {e : Option Err} (hg : GateOk im r.core) (hst : Stamped im)
    (h : r.stepBody env im = .ok (r', e)) : Sim env im r r' := by
  unfold stepBody at h
  have hv : (im.type = .vote ∨ im.type = .preVote) → (do let r ← r.stepVote im; pure (r, none)) = Res.ok (r', e) → Sim env im r r' := by
    intro ht h
    obtain ⟨r1, h1, h⟩ := Res.bind_eq_ok.1 h
    cases h
    exact stepVote_sim hg ht h1
  cases ht : im.type with
  | hup =>
    simp only [ht] at h
    obtain ⟨r1, h1, h⟩ := Res.bind_eq_ok.1 h
    cases h
    exact hup_sim (by simp [CampMsg, ht]) hg.not_adopts h1
  | vote => simp only [ht] at h; exact hv (Or.inl ht) h
  | preVote => simp only [ht] at h; exact hv (Or.inr ht) h
  | _ => simp only [ht] at h; exact stepState_sim hg hst h

/-- The ways the term comparison at the start of `Step` ends. -/
theorem stepGate_cases {r : Raft} {g : Gate} (h : r.stepGate env im = .ok g) :
    (∃ r1, g = .go r1 ∧ GateOk im r1.core ∧
      (r1 = r ∨ (Adopts im r.term ∧ ∃ lead, r1 = r.becomeFollower env im.term lead))) ∨
    (∃ r1, g = .stop r1 ∧ QSim env im r r1) := by
  unfold stepGate at h
  by_cases h0 : im.term = 0
  · rw [if_pos h0] at h; cases h
    exact Or.inl ⟨r, rfl, Or.inl h0, Or.inl rfl⟩
  rw [if_neg h0] at h
  have bf : ∀ lead, im.term > r.term → GateOk im (r.becomeFollower env im.term lead).core := by
    intro lead _
    rw [becomeFollower_core]
    exact Or.inr (Or.inl rfl)
  by_cases h1 : im.term > r.term
  · rw [if_pos h1] at h
    split at h
    · obtain ⟨_, _, h⟩ := Res.bind_eq_ok.1 h
      cases h
      exact Or.inr ⟨r, rfl, .refl⟩
    · by_cases h3 : im.type = .preVote
      · rw [if_pos h3] at h; cases h
        exact Or.inl ⟨r, rfl, Or.inr (Or.inr ⟨h1, Or.inl h3⟩), Or.inl rfl⟩
      rw [if_neg h3] at h
      by_cases h4 : im.type = .preVoteResp ∧ ¬ im.reject = true
      · rw [if_pos h4] at h; cases h
        exact Or.inl ⟨r, rfl, Or.inr (Or.inr ⟨h1, Or.inr ⟨h4.1, by simpa using h4.2⟩⟩), Or.inl rfl⟩
      rw [if_neg h4] at h
      have hlate : Adopts im r.term := ⟨h1, by
        rintro (h | ⟨h, h'⟩)
        · exact h3 h
        · exact h4 ⟨h, by rw [h']; decide⟩⟩
      split at h
      · cases h; exact Or.inl ⟨_, rfl, bf _ h1, Or.inr ⟨hlate, _, rfl⟩⟩
      · cases h; exact Or.inl ⟨_, rfl, bf _ h1, Or.inr ⟨hlate, _, rfl⟩⟩
  rw [if_neg h1] at h
  by_cases h2 : im.term < r.term
  · rw [if_pos h2] at h
    split at h
    · obtain ⟨r1, h3, h⟩ := Res.bind_eq_ok.1 h
      cases h
      refine Or.inr ⟨r1, rfl, send_qsim h3 ?_⟩
      simp only [Emit, outMsg, if_true]
      exact ⟨rfl, rfl, trivial, Or.inl ⟨trivial, trivial, by omega, h2⟩⟩
    · split at h
      · rename_i ht
        obtain ⟨_, _, h⟩ := Res.bind_eq_ok.1 h
        obtain ⟨r1, h3, h⟩ := Res.bind_eq_ok.1 h
        cases h
        refine Or.inr ⟨r1, rfl, send_qsim h3 ?_⟩
        simp only [Emit, outMsg, if_true]
        exact ⟨rfl, ht, trivial, Or.inl ⟨trivial, rfl⟩⟩
      · cases h; exact Or.inr ⟨r, rfl, .refl⟩
  · rw [if_neg h2] at h; cases h
    exact Or.inl ⟨r, rfl, Or.inr (Or.inl (by show im.term = r.term; omega)), Or.inl rfl⟩

/-- `Raft::Step` is a sequence of elementary steps. -/
theorem step_sim {r r' : Raft} {e : Option Err} (hst : Stamped im) (h : r.step env im = .ok (r', e)) : Sim env im r r' := by
  unfold step at h
  obtain ⟨g, hg, h⟩ := Res.bind_eq_ok.1 h
  rcases stepGate_cases hg with ⟨r1, rfl, hgo, h1⟩ | ⟨r1, rfl, hs⟩
  · dsimp only at h
    have s2 := stepBody_sim (env := env) hgo hst h
    rcases h1 with rfl | ⟨hlt, lead, rfl⟩
    · exact s2
    · exact (becomeFollower_sim (Or.inr ⟨hlt.1, rfl⟩) fun _ => Or.inr hlt).trans s2
  · cases h; exact hs.sim

/-! ## Ticks -/

theorem step_hup {r : Raft} {s : Nat} : r.step env { type := .hup, src := s } =
    (do let r ← r.hup env (if r.preVote then .preElection else .election); pure (r, none)) := rfl

theorem step_checkQuorum {r : Raft} {s : Nat} (hl : r.state = .leader) :
    r.step env { type := .checkQuorum, src := s } = .ok (r.leaderCheckQuorum env, none) := by
  show stepState env r _ = _
  unfold stepState
  simp only [hl]
  rfl

theorem step_beat {r : Raft} {s : Nat} (hl : r.state = .leader) :
    r.step env { type := .beat, src := s } = (do let r ← r.bcastHeartbeat; pure (r, none)) := by
  show stepState env r _ = _
  unfold stepState
  simp only [hl]
  rfl

theorem tickHeartbeatTimeout_sim {r r' : Raft} (hz : ¬ CampMsg im) (hl : r.state = .leader) (h : r.tickHeartbeatTimeout env = .ok r') :
    Sim env im r r' := by
  unfold tickHeartbeatTimeout at h
  by_cases h1 : r.electionElapsed ≥ r.electionTimeout
  · rw [if_pos h1] at h
    dsimp only at h
    have s0 : Sim env im r { r with electionElapsed := 0 } := .of_core rfl rfl rfl
    obtain ⟨r1, s1, h⟩ : ∃ r1, Sim env im r r1 ∧
        (if r1.state = .leader ∧ r1.leadTransferee ≠ 0 then (pure { r1 with leadTransferee := 0 } : Res Raft) else pure r1) = .ok r' := by
      split at h
      · rw [step_checkQuorum (r := { r with electionElapsed := 0 }) hl] at h
        exact ⟨_, s0.trans (leaderCheckQuorum_sim hz), h⟩
      · exact ⟨_, s0, h⟩
    refine s1.trans ?_
    split at h
    · cases h; exact .of_core rfl rfl rfl
    · cases h; exact .refl
  · rw [if_neg h1] at h; cases h; exact .refl

theorem tickHeartbeatBeat_sim {r r' : Raft} (h : r.tickHeartbeatBeat env = .ok r') : Sim env im r r' := by
  unfold tickHeartbeatBeat at h
  by_cases h1 : r.state ≠ .leader
  · rw [if_pos h1] at h; cases h; exact .refl
  rw [if_neg h1] at h
  have hl : r.state = .leader := by simpa using h1
  by_cases h2 : r.heartbeatElapsed ≥ r.heartbeatTimeout
  · rw [if_pos h2] at h
    obtain ⟨⟨r1, e⟩, h3, h⟩ := Res.bind_eq_ok.1 h
    cases h
    rw [step_beat (r := { r with heartbeatElapsed := 0 }) hl] at h3
    obtain ⟨r2, h4, h3⟩ := Res.bind_eq_ok.1 h3
    cases h3
    have s1 : Sim env im r { r with heartbeatElapsed := 0 } := .of_core rfl rfl rfl
    exact s1.trans (bcastHeartbeatWithCtx_qsim (r := { r with heartbeatElapsed := 0 }) hl
      (lastPending_ctxOk { r with heartbeatElapsed := 0 }) h4).sim
  · rw [if_neg h2] at h; cases h; exact .refl

theorem tick_sim {r r' : Raft} (hcm : r.state ≠ .leader → CampMsg im ∧ im.term = 0) (hz : r.state = .leader → ¬ CampMsg im) (h : r.tick env = .ok r') : Sim env im r r' := by
  have he : r.state ≠ .leader → r.tickElection env = .ok r' → Sim env im r r' := by
    intro hnl h
    unfold tickElection at h
    dsimp only at h
    have s0 : Sim env im r { r with electionElapsed := r.electionElapsed + 1 } := .of_core rfl rfl rfl
    split at h
    · obtain ⟨⟨r1, e⟩, h1, h⟩ := Res.bind_eq_ok.1 h
      cases h
      rw [step_hup] at h1
      obtain ⟨r2, h2, h1⟩ := Res.bind_eq_ok.1 h1
      cases h1
      have s1 : Sim env im r { r with electionElapsed := 0 } := .of_core rfl rfl rfl
      exact s1.trans (hup_sim (hcm hnl).1 (fun hl => by have := hl.1; have := (hcm hnl).2; omega) h2)
    · cases h; exact s0
  unfold tick at h
  cases hs : r.state with
  | leader =>
    simp only [hs] at h
    unfold tickHeartbeat at h
    have s0 : Sim env im r { r with heartbeatElapsed := r.heartbeatElapsed + 1, electionElapsed := r.electionElapsed + 1 } :=
      .of_core rfl rfl rfl
    obtain ⟨r1, h1, h⟩ := Res.bind_eq_ok.1 h
    refine s0.trans (Sim.trans ?_ (tickHeartbeatBeat_sim h))
    exact tickHeartbeatTimeout_sim (hz hs) hs h1
  | _ => simp only [hs] at h; exact he (by rw [hs]; exact (nomatch ·)) h

end Raft
end Craft
