import Verif.Proofs.ConfChange
import Verif.Props.Quorum
import Verif.Demo

/-! # C81: counting votes

`RecordVote`, `ResetVotes` and `TallyVotes` (`/repo/src/tracker/tracker.cc` 124-153, `/repo/src/tracker/tracker.h` 153). -/

namespace Craft
open Spec (ConfInv Member)

namespace Tracker

/-- Answers as they come in. -/
def recordAll (t : Tracker) (answers : List (Nat × Bool)) : Tracker := answers.foldl (fun t a => t.recordVote a.1 a.2) t

theorem recordVote_find (t : Tracker) (id id' : Nat) (v : Bool) :
    (t.recordVote id v).votes.find id' = (t.votes.find id').or (if id = id' then some v else none) := by
  unfold recordVote
  split
  · rename_i h
    dsimp only
    rw [AMap.find_insert]
    split
    · rename_i e; subst e; rw [h]; rfl
    · exact (Option.or_none).symm
  · rename_i w h
    split
    · rename_i e; subst e; rw [h]; rfl
    · exact (Option.or_none).symm

theorem recordAll_find (answers : List (Nat × Bool)) (t : Tracker) (id : Nat) :
    (t.recordAll answers).votes.find id = (t.votes.find id).or ((answers.find? fun a => a.1 = id).map Prod.snd) := by
  induction answers generalizing t with
  | nil => exact (Option.or_none).symm
  | cons a as ih =>
    show ((t.recordVote a.1 a.2).recordAll as).votes.find id = _
    rw [ih, recordVote_find, Option.or_assoc, List.find?_cons]
    by_cases h : a.1 = id
    · simp [h]
    · simp [h]

/-- The ids counted by one of the two counters. -/
def counted (votes : AMap Bool) (b : Bool) (prs : ProgressMap) : List Nat :=
  (prs.filter fun x => !x.2.isLearner && decide (votes.find x.1 = some b)).map Prod.fst

theorem tallyCounts_eq (votes : AMap Bool) (prs : ProgressMap) :
    tallyCounts votes prs = ((counted votes true prs).length, (counted votes false prs).length) := by
  induction prs with
  | nil => rfl
  | cons x prs ih =>
    obtain ⟨id, pr⟩ := x
    unfold tallyCounts
    rw [ih]
    unfold counted
    cases hl : pr.isLearner with
    | true => simp [hl]
    | false =>
      cases hv : votes.find id with
      | none => simp [hv]
      | some b => cases b <;> simp [hl, hv]

end Tracker

theorem mem_find {β : Type} (m : AMap β) (hs : (m.map Prod.fst).Pairwise (· < ·)) {k : Nat} {v : β} (h : (k, v) ∈ m) : m.find k = some v := by
  induction m with
  | nil => cases h
  | cons x m ih =>
    rw [List.map_cons, List.pairwise_cons] at hs
    unfold AMap.find
    rcases List.mem_cons.1 h with rfl | h'
    · simp
    · have := hs.1 k (List.mem_map.2 ⟨(k, v), h', rfl⟩)
      have ne : x.1 ≠ k := by omega
      obtain ⟨a, b⟩ := x
      simp only [ne, if_false]
      exact ih hs.2 h'

theorem find_mem {β : Type} (m : AMap β) {k : Nat} {v : β} (h : m.find k = some v) : (k, v) ∈ m := by
  induction m with
  | nil => cases h
  | cons x m ih =>
    obtain ⟨a, b⟩ := x
    unfold AMap.find at h
    split at h
    · rename_i e; cases h; subst e; exact List.mem_cons_self ..
    · exact List.mem_cons_of_mem _ (ih h)

/-- **C81** (first answer). After the votes were cleared, what counts of a node is its first answer; later ones change nothing. -/
theorem C81_first_answer (t : Tracker) (answers : List (Nat × Bool)) (id : Nat) :
    (t.resetVotes.recordAll answers).votes.find id = (answers.find? fun a => a.1 = id).map Prod.snd := by
  rw [Tracker.recordAll_find]; rfl

/-- **C81** (counts). The two counts `TallyVotes` returns are how many voters (of either half) said yes and how many said no:
learners and strangers do not count, and a voter of both halves counts once. -/
theorem C81_counts (t : Tracker) (h : ConfInv t.config t.progress) :
    Tracker.tallyCounts t.votes t.progress =
      ((t.config.voters.ids.filter fun id => t.votes.find id = some true).length, (t.config.voters.ids.filter fun id => t.votes.find id = some false).length) := by
  rw [Tracker.tallyCounts_eq]
  have key : ∀ b, Tracker.counted t.votes b t.progress = t.config.voters.ids.filter fun id => t.votes.find id = some b := by
    intro b
    have hs := h.prs_sorted
    refine USet.ext_sorted ?_ ?_ fun x => ?_
    · exact hs.sublist (List.filter_sublist.map _)
    · refine List.Pairwise.sublist List.filter_sublist ?_
      have ins : ∀ (b a : USet), a.Pairwise (· < ·) → (USet.insertAll a b).Pairwise (· < ·) := by
        intro b
        induction b with
        | nil => intro a h; exact h
        | cons x b ih => intro a h; exact ih _ (USet.insert_sorted x h)
      exact ins _ _ (ins _ _ List.Pairwise.nil)
    · unfold Tracker.counted
      rw [List.mem_map, List.mem_filter, mem_ids]
      constructor
      · rintro ⟨⟨k, p⟩, hm, rfl⟩
        obtain ⟨h1, h2⟩ := List.mem_filter.1 hm
        simp only [Bool.and_eq_true, Bool.not_eq_true', decide_eq_true_eq] at h2
        have hf := mem_find _ hs h1
        refine ⟨?_, by simpa using h2.2⟩
        have hl : k ∉ t.config.learners := fun hl => by
          have := (h.lrn_flag k p hf).2 hl
          rw [h2.1] at this; cases this
        rcases (h.prs_exact k).1 ⟨p, hf⟩ with m | m | m | m
        · exact Or.inl m
        · exact Or.inr m
        · exact absurd m hl
        · exact Or.inr (h.nxt_out k m)
      · rintro ⟨hv, h2⟩
        obtain ⟨p, hp⟩ := (h.prs_exact x).2 (hv.elim Or.inl fun m => Or.inr (Or.inl m))
        refine ⟨(x, p), List.mem_filter.2 ⟨find_mem _ hp, ?_⟩, rfl⟩
        have hl : p.isLearner = false := by
          cases hb : p.isLearner with
          | false => rfl
          | true =>
            have hm := (h.lrn_flag x p hp).1 hb
            rcases hv with hv | hv
            · exact absurd hv (h.lrn_not_inc x hm)
            · exact absurd hv (h.lrn_not_out x hm)
        simp only [hl, Bool.not_false, Bool.true_and]
        exact h2
  rw [key true, key false]

/-- Three voters and a learner: two yes (one of them twice, once revoked in vain), one no, and the learner's vote does not count. -/
example :
    let t := ((Demo.node 1 [.applyConfChange (.v1 { type := .addLearnerNode, nodeId := 4 })]).raft.trk.resetVotes).recordAll
      [(1, true), (3, true), (2, false), (3, false), (4, true), (9, true)]
    Tracker.tallyCounts t.votes t.progress = (2, 1) ∧ t.tallyVotes = .won ∧ t.votes.find 3 = some true := by decide +kernel

end Craft
