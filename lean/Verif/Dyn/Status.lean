import Verif.Dyn.Safety
import Verif.Dyn.Boot
import Verif.Spec.Status

/-! # Status reports in clusters -/

namespace Craft.Dyn
open Spec Members
open Cluster (gterm LogRel append_take append_prefix)
open Abs (prefix_getElem? prefix_getElem?_some)

/-- Two logs that start with the same list. -/
theorem holds_of {L M P : List Entry} {st : Storage} {v : LogView} {k : Nat} (h1 : LogRel L st.view) (h2 : LogRel M v) (p1 : P <+: L) (p2 : P <+: M)
    (hk : k ≤ P.length) : Holds st v k := by
  refine ⟨by have := h1.len; have := p1.length_le; omega, fun i hi b1 b2 => ?_⟩
  have hx : P[i - 1]? = some (P[i - 1]'(by omega)) := List.getElem?_eq_getElem _
  exact ⟨_, by rw [h2.entry b2]; exact prefix_getElem?_some p2 hx, by rw [h1.entry b1]; exact prefix_getElem?_some p1 hx⟩

theorem find_of_mem {P : ProgressMap} (hs : (P.map Prod.fst).Pairwise (· < ·)) {v : Nat} {pr : Progress} (h : (v, pr) ∈ P) : P.find v = some pr := by
  induction P with
  | nil => cases h
  | cons x xs ih =>
    rw [List.map_cons, List.pairwise_cons] at hs
    unfold AMap.find
    rcases List.mem_cons.1 h with h | h
    · rw [← h]; simp
    · have := hs.1 v (List.mem_map.2 ⟨_, h, rfl⟩)
      rw [if_neg (by omega)]
      exact ih hs.2 h

theorem tidy_of {n : RawNode} (hi : LInv n.raft.log) (hc : ConfInv n.raft.trk.config n.raft.trk.progress)
    (hp : n.raft.state = .leader → ∀ v pr, n.raft.trk.progress.find v = some pr → pr.mtch ≤ n.raft.log.view.last ∧ 1 ≤ pr.next ∧ pr.next ≤ n.raft.log.view.last + 1) :
    Tidy n := by
  have hfst : n.withProgress.map Prod.fst = n.raft.trk.progress.map Prod.fst := by
    unfold RawNode.withProgress; rw [List.map_map]; rfl
  have hprog : n.getStatus.progress = if n.raft.state = .leader then n.raft.trk.progress else [] := rfl
  have hin : ∀ {v t pr}, (v, t, pr) ∈ n.withProgress → n.raft.trk.progress.find v = some pr ∧ t = if pr.isLearner then .learner else .peer := by
    intro v t pr h
    obtain ⟨x, hx, he⟩ := List.mem_map.1 h
    cases he
    exact ⟨find_of_mem hc.prs_sorted hx, rfl⟩
  have hsome : ∀ {v pr}, n.getStatus.progress.find v = some pr → n.raft.state = .leader ∧ n.raft.trk.progress.find v = some pr := by
    intro v pr h
    rw [hprog] at h
    split at h
    · exact ⟨‹_›, h⟩
    · cases h
  refine ⟨⟨hi.app_com, hi.com_last⟩, fun h => ?_, fun h v => ?_, fun v pr h => ?_, fun v pr h => ?_, ?_, fun v => ?_, fun v t pr h => ?_, fun hl v t pr h => ?_⟩
  · rw [hprog, if_neg (show ¬ n.raft.state = .leader from h)]
  · rw [hprog, if_pos (show n.raft.state = .leader from h)]; exact hc.prs_exact v
  · exact hc.lrn_flag v pr (hsome h).2
  · exact hp (hsome h).1 v pr (hsome h).2
  · rw [hfst]; exact hc.prs_sorted
  · rw [hfst]
    refine Iff.trans ?_ (hc.prs_exact v)
    constructor
    · intro h
      obtain ⟨⟨w, pr⟩, hx, rfl⟩ := List.mem_map.1 h
      exact ⟨pr, find_of_mem hc.prs_sorted hx⟩
    · rintro ⟨pr, h⟩
      exact List.mem_map.2 ⟨_, AMap.mem_of_find h, rfl⟩
  · obtain ⟨h1, h2⟩ := hin h
    refine Iff.trans ?_ (hc.lrn_flag v pr h1)
    rw [h2]
    cases pr.isLearner <;> simp
  · rw [hprog, if_pos (show n.raft.state = .leader from hl)]; exact (hin h).1

namespace MGen
variable {G : MGen} {g : DState} {c : State}

theorem Rel.tidy (h : G.Rel c g) {p : Nat} {n : RawNode} {a : App} (hp : c.proc p = .up n a) : Tidy n := by
  have hu := h.proc p
  rw [hp] at hu
  obtain ⟨s, hu⟩ := hu
  refine tidy_of hu.linv hu.rel.cinv fun hl v pr hf => ?_
  obtain ⟨h1, _⟩ := hu.rel.prs hl v pr hf
  have e : n.raft.core.log.lastIndex = n.raft.log.view.last := hu.linv.wf.lastIndex_eq
  rw [e] at h1
  exact ⟨h1.mtch_le, h1.next_pos, h1.next_le⟩

/-- What a leader knows about the others is on their disks. -/
theorem Rel.honest (h : G.Rel c g) {p : Nat} {n : RawNode} {a : App} (hp : c.proc p = .up n a) : c.Honest p n := by
  intro v pr hv hf ht
  have hu := h.proc p
  rw [hp] at hu
  obtain ⟨s, hu⟩ := hu
  have hprog : n.getStatus.progress = if n.raft.state = .leader then n.raft.trk.progress else [] := rfl
  rw [hprog] at hf
  split at hf
  · rename_i hl
    obtain ⟨_, hack⟩ := hu.rel.prs hl v pr hf
    have hrun := hu.path.run h.reach
    have hother : s.node v = g.node v := hu.path.other hv
    have hrole : (s.node p).role = .leader := by rw [← hu.rel.role]; show roleOf n.raft.state = _; rw [hl]; rfl
    have hterm : n.raft.term = (s.node p).term := hu.rel.term
    have hhigh := hu.rel.high hl
    have hnl : LogRel (G.L0 ++ (s.node p).log) n.raft.log.view := hu.rel.log
    rcases h.durable v with hd | hd
    · have hdt : (g.node v).term ≤ (s.node p).term := by
        rw [← hd.term, ← hterm]; exact ht
      rcases hack with hle | ⟨j, hj, hm⟩
      · exact holds_of hd.log hnl (List.prefix_append _ _) (List.prefix_append _ _) hle
      · obtain ⟨k1, _⟩ := hrun.inv.ackLead _ _ _ hm
        rw [hother] at k1
        have heq : (s.node p).term = (s.node v).term := by rw [hother]; omega
        rw [heq] at hm
        obtain ⟨c', lg, k2, k3, k4⟩ := hrun.inv.ackNow _ _ hm
        rw [← heq] at k2
        have hc : c' = p := hrun.inv.leadUnique _ _ _ _ _ k2 (hrun.inv.leadNode p hrole).1
        subst hc
        have k5 := (hrun.inv.leadNode _ hrole).2 _ k2
        rw [hother] at k4
        exact holds_of (P := G.L0 ++ lg.take j) hd.log hnl (append_prefix.2 k4) (append_prefix.2 ((List.take_prefix _ _).trans k5))
          (by rw [List.length_append, List.length_take]; omega)
    · have hlow := hd.low
      have hone := hd.term
      rcases hack with hle | ⟨j, hj, hm⟩
      · rw [G.bootL0 hd.boot] at hle
        exact ⟨Nat.le_trans hle (Nat.zero_le _), fun i hi hb _ => by simp only [List.length_nil] at hle; omega⟩
      · obtain ⟨k1, _⟩ := hrun.inv.ackLead _ _ _ hm
        rw [hother] at k1
        omega
  · cases hf

end MGen
end Craft.Dyn
