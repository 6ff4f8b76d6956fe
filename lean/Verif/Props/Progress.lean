import Verif.Proofs.Inflights
import Verif.Model.Raft

/-! # C07, C08, C09: replication progress and flow control -/

namespace Craft

/-- The operations the leader performs on a peer's `Progress`. -/
inductive POp where
  | becomeProbe | becomeReplicate
  | becomeSnapshot (i : Nat)
  | maybeUpdate (n : Nat)
  | optimisticUpdate (n : Nat)
  | maybeDecrTo (rejected hint : Nat)

/-- Effect of one operation. -/
def POp.run : POp → Progress → Progress
  | .becomeProbe, p => p.becomeProbe
  | .becomeReplicate, p => p.becomeReplicate
  | .becomeSnapshot i, p => p.becomeSnapshot i
  | .maybeUpdate n, p => (p.maybeUpdate n).1
  | .optimisticUpdate n, p => p.optimisticUpdate n
  | .maybeDecrTo k h, p => (p.maybeDecrTo k h).1

/-- How the leader calls it: `OptimisticUpdate` is only called in replicate state with the index of the last entry just
sent, and the entries sent start at `Next`. -/
def POp.Legal (o : POp) (p : Progress) : Prop :=
  match o with
  | .optimisticUpdate n => p.state = .replicate ∧ p.next ≤ n
  | _ => True

/-- The states a `Progress` can get into from a fresh one (`Match = 0`, any `Next ≥ 1`, or `Match < Next`). -/
inductive PReach : Progress → Prop where
  | fresh (next mtch : Nat) (sz : Int) (l a : Bool) (h : mtch < next) : PReach (Progress.new next mtch sz l a)
  | op {p : Progress} (o : POp) (h : PReach p) (hl : o.Legal p) : PReach (o.run p)

theorem POp.mtch_le (o : POp) (p : Progress) : p.mtch ≤ (o.run p).mtch := by
  cases o <;> simp only [POp.run]
  case becomeProbe => unfold Progress.becomeProbe; split <;> simp [Progress.resetState]
  case becomeReplicate => simp [Progress.becomeReplicate, Progress.resetState]
  case becomeSnapshot => simp [Progress.becomeSnapshot, Progress.resetState]
  case maybeUpdate n => unfold Progress.maybeUpdate; dsimp only; split <;> simp <;> omega
  case optimisticUpdate => simp [Progress.optimisticUpdate]
  case maybeDecrTo => unfold Progress.maybeDecrTo; split <;> split <;> simp

/-- **C07.** Through every sequence of operations a peer's Match never decreases. -/
theorem C07_match_monotone (ops : List POp) (p : Progress) : p.mtch ≤ (ops.foldl (fun p o => o.run p) p).mtch := by
  induction ops generalizing p with
  | nil => simp
  | cons o os ih => exact Nat.le_trans (o.mtch_le p) (ih _)

theorem Progress.maybeUpdate_fields (p : Progress) (n : Nat) :
    (p.maybeUpdate n).1.mtch = max p.mtch n ∧ (p.maybeUpdate n).1.next = max p.next (n + 1) ∧
    (p.maybeUpdate n).1.state = p.state := by
  unfold Progress.maybeUpdate
  dsimp only
  by_cases h : p.mtch < n
  · simp [h]; omega
  · simp [h]; omega

/-- **C07.** `MaybeUpdate(n)` returns true exactly if `n` was not acknowledged before; Match becomes the larger one. -/
theorem C07_maybeUpdate_exact (p : Progress) (n : Nat) :
    ((p.maybeUpdate n).2 = true ↔ p.mtch < n) ∧ (p.maybeUpdate n).1.mtch = max p.mtch n := by
  unfold Progress.maybeUpdate
  dsimp only
  split <;> simp <;> omega

/-- Reachable: `Next ≥ 1`, and in replicate state `Match < Next`. -/
theorem PReach.inv {p : Progress} (h : PReach p) : 1 ≤ p.next ∧ (p.state = .replicate → p.mtch < p.next) := by
  induction h with
  | fresh next mtch sz l a h => simp [Progress.new]; omega
  | @op p o h hl ih =>
    cases o <;> simp only [POp.run]
    case becomeProbe => unfold Progress.becomeProbe; split <;> simp [Progress.resetState]
    case becomeReplicate => simp [Progress.becomeReplicate, Progress.resetState]
    case becomeSnapshot => simp [Progress.becomeSnapshot, Progress.resetState]; exact ih.1
    case maybeUpdate n =>
      obtain ⟨e1, e2, e3⟩ := p.maybeUpdate_fields n
      rw [e1, e2, e3]
      exact ⟨by omega, fun hs => by have := ih.2 hs; omega⟩
    case optimisticUpdate n =>
      have := ih.2 hl.1
      have := hl.2
      simp [Progress.optimisticUpdate]
      intro _; omega
    case maybeDecrTo k hh =>
      unfold Progress.maybeDecrTo
      split
      · split
        · exact ih
        · simp
      · rename_i hs
        split
        · exact ih
        · simp [hs]; omega

/-- **C07.** A rejection taken as genuine never raises Next and leaves it at least 1. -/
theorem C07_rejection (p : Progress) (h : PReach p) (rejected hint : Nat)
    (hg : (p.maybeDecrTo rejected hint).2 = true) :
    (p.maybeDecrTo rejected hint).1.next ≤ p.next ∧ 1 ≤ (p.maybeDecrTo rejected hint).1.next := by
  have ⟨h1, h2⟩ := h.inv
  revert hg
  unfold Progress.maybeDecrTo
  split
  · rename_i hs
    have := h2 hs
    split <;> simp
    omega
  · split
    · simp
    · rename_i hs hr
      rw [sub64_of_le h1] at hr
      simp
      omega

-- a reachable replicating peer, and a genuine rejection of it
example : ∃ p, PReach p ∧ p.state = .replicate ∧ p.mtch = 5 ∧ p.next = 9 ∧ (p.maybeDecrTo 8 2).2 = true := by
  refine ⟨_, .op (.optimisticUpdate 8) (.op .becomeReplicate (.op (.maybeUpdate 5) (.fresh 3 0 10 false true (by decide)) ?_) ?_) ?_, ?_⟩
  all_goals simp [POp.Legal, POp.run, Progress.new, Progress.maybeUpdate, Progress.becomeReplicate, Progress.resetState,
    Progress.optimisticUpdate, Progress.maybeDecrTo]

/-- **C08 is false of the code.** A reachable `Progress` with `Next ≤ Match`: a peer acknowledged 5, is probed, and a
delayed rejection of the probe at 5 with hint 0 (sent before the acknowledgement) is taken as genuine. -/
theorem C08_match_lt_next_false : ¬ ∀ p, PReach p → p.mtch < p.next := by
  intro h
  have := h _ (.op (.maybeDecrTo 5 0) (.op (.maybeUpdate 5) (.fresh 1 0 10 false true (by decide)) trivial) trivial)
  revert this
  decide

/-- **C08, the part that holds.** `Match < Next` is kept by every operation except a rejection, outside replicate state,
of an index at or below Match; in replicate state it always holds, whatever happened before.
Missing for C08: exactly the excluded rejection, for which it fails (`C08_match_lt_next_false`). -/
theorem C08_match_lt_next_partial (p : Progress) (h : PReach p) :
    (p.state = .replicate → p.mtch < p.next) ∧
    ∀ o : POp, o.Legal p → p.mtch < p.next →
      (∀ k hint, o = .maybeDecrTo k hint → (p.state = .replicate ∨ (p.mtch < k ∧ p.mtch < hint + 1 ∧ hint < u64Max))) →
      (o.run p).mtch < (o.run p).next := by
  refine ⟨h.inv.2, fun o hl hlt hx => ?_⟩
  cases o <;> simp only [POp.run]
  case becomeProbe => unfold Progress.becomeProbe; split <;> simp [Progress.resetState]; omega
  case becomeReplicate => simp [Progress.becomeReplicate, Progress.resetState]
  case becomeSnapshot => simp [Progress.becomeSnapshot, Progress.resetState]; exact hlt
  case maybeUpdate n =>
    obtain ⟨e1, e2, e3⟩ := p.maybeUpdate_fields n
    rw [e1, e2]
    omega
  case optimisticUpdate n =>
    have := hl.2
    simp [Progress.optimisticUpdate]
    omega
  case maybeDecrTo k hint =>
    have := hx k hint rfl
    unfold Progress.maybeDecrTo
    split
    · split
      · exact hlt
      · simp
    · rename_i hs
      split
      · exact hlt
      · have := this.resolve_left hs
        simp only [u64Max] at this
        simp
        omega

/-- **C09.** A peer is paused iff it is probing with a probe outstanding, replicating with a full window, or waiting for a
snapshot. -/
theorem C09_isPaused_iff (p : Progress) :
    p.isPaused = true ↔
      (p.state = .probe ∧ p.probeSent = true) ∨ (p.state = .replicate ∧ p.inflights.count = p.inflights.size) ∨
      p.state = .snapshot := by
  unfold Progress.isPaused
  cases p.state <;> simp [Inflights.full]

/-- **C09.** Nothing is sent to a paused peer: the call reports `false` and changes nothing. -/
theorem C09_paused_sends_nothing (env : Env) (r : Raft) (to : Nat) (se : Bool) (p : Progress)
    (hp : r.pr to = some p) (hpa : p.isPaused = true) : r.maybeSendAppend env to se = .ok (r, false) := by
  unfold Raft.maybeSendAppend Raft.getPr
  simp [hp, hpa]

end Craft
