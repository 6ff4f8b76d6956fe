import Verif.Safe.Conf
import Verif.Props.NodeRestart

/-! # Adopting a configuration returns -/

namespace Craft
open Spec

namespace Raft
variable {K : Around} {env : Env} {r r' : Raft}

/-- To itself a leader sends nothing. -/
theorem maybeSendAppend_self {p : Progress} (h : Safe K env r) (hl : r.state = .leader) (hp : r.pr r.id = some p) :
    r.maybeSendAppend env r.id false = .ok (r, false) := by
  have hw := h.log.linv.wf
  obtain ⟨h1, h2⟩ := h.next hl _ _ hp
  have h3 := (h2 rfl).2
  unfold maybeSendAppend
  rw [getPr_eq hp]
  simp only [Res.ok_bind]
  by_cases hpa : p.isPaused = true
  · rw [if_pos hpa]; rfl
  rw [if_neg hpa, hw.term_eq, hw.entries_eq]
  simp only [Res.ok_bind]
  rw [if_pos (by rw [← hw.lastIndex_eq]; exact h3)]
  rfl

theorem visitSend_safe (ids : List Nat) {r : Raft} (h : Safe K env r) (hl : r.state = .leader) (hk : ∀ id ∈ ids, (r.pr id).isSome = true) :
    (visitSend env ids r).Sat (Sends K env r) := by
  induction ids generalizing r with
  | nil => exact .ok (.refl h)
  | cons id ids ih =>
    unfold visitSend
    obtain ⟨p, hp⟩ := Option.isSome_iff_exists.1 (hk id List.mem_cons_self)
    have hk' := fun k hk' => hk k (List.mem_cons_of_mem _ hk')
    by_cases c : id = r.id
    · subst c
      rw [maybeSendAppend_self h hl hp]
      exact ih h hl hk'
    · refine (maybeSendAppend_safe h hl hp c).bind fun x h1 => ?_
      exact (ih h1.1 (h1.2.state.trans hl) fun k hk => by rw [h1.2.peers]; exact hk' k hk).mono fun _ hh => h1.trans hh

theorem switchSend_safe (h : Safe K env r) (hl : r.state = .leader) : (r.switchSend env).Sat (Works K env r) := by
  unfold switchSend
  refine (maybeCommit_safe h (h.tpos (Or.inl hl))).bind fun x hx => ?_
  obtain ⟨r1, b⟩ := x
  have hx : Works K env r r1 := hx
  have hl1 : r1.state = .leader := hx.state.trans hl
  dsimp only
  split
  · exact (bcastAppend_safe hx.safe hl1).mono fun _ hh => hx.trans hh.works
  · exact (visitSend_safe _ hx.safe hl1 r1.keys_peers).mono fun _ hh => hx.trans hh.works

/-- What the progress of the peers must satisfy in a new configuration. -/
structure NewPrs (r : Raft) (prs : ProgressMap) : Prop where
  infl : ∀ sz : Nat, r.trk.maxInflight = sz → 0 < sz → sz ≤ 2 ^ 30 → ∀ id p, prs.find id = some p → InflOk sz p
  self : r.state = .candidate ∨ r.state = .preCandidate → ∃ p, prs.find r.id = some p
  next : r.state = .leader → ∀ id p, prs.find id = some p → r.NextOk id p

theorem NewPrs.safe {cfg : TConfig} {prs : ProgressMap} (h : Safe K env r) (hp : NewPrs r prs) :
    Safe K env { r with trk := { r.trk with config := cfg, progress := prs }, isLearner := b } := by
  obtain ⟨sz, h1, h2, h3, _⟩ := h.infl
  exact ⟨h.log, h.id, hp.self, h.tpos, ⟨sz, h1, h2, h3, hp.infl sz h1 h2 h3⟩, hp.next, h.ro, h.pend, h.lead, h.out⟩

theorem switchToConfig_safe {cfg : TConfig} {prs : ProgressMap} (h : Safe K env r) (hp : NewPrs r prs) :
    (r.switchToConfig env cfg prs).Sat fun x => Safe K env x.1 := by
  have h1 := fun b => hp.safe (cfg := cfg) (b := b) h
  unfold switchToConfig
  dsimp only
  split
  · exact .pure (h1 _)
  split
  · exact .pure (h1 _)
  rename_i _ hc
  have hl : r.state = .leader := Classical.byContradiction fun hl => hc (Or.inl hl)
  refine (switchSend_safe (h1 _) hl).bind fun x hx => ?_
  split
  · have := hx.safe
    exact .pure ⟨this.log, this.id, this.self, this.tpos, this.infl, this.next, this.ro, this.pend, this.lead, this.out⟩
  · exact .pure hx.safe

end Raft
end Craft
