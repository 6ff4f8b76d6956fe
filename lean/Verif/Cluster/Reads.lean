import Verif.Cluster.Main
import Verif.Cluster.ReadInv

/-! # Read requests in a cluster with a fixed membership -/

namespace Craft.Cluster
open Spec Abs ReadInv

namespace Gen
variable (G : Gen)

/-- `i` covers everything chosen in terms up to `T` in `g0`. -/
def Good (g0 : AState) (T i : Nat) : Prop :=
  G.L0.length ≤ i ∧ ∀ T' pre, AMsg.chosen T' pre ∈ g0.net → T' ≤ T → G.L0.length + pre.length ≤ i

/-- `i` covers everything chosen in `g0`. -/
def Final (g0 : AState) (i : Nat) : Prop :=
  G.L0.length ≤ i ∧ ∀ T' pre, AMsg.chosen T' pre ∈ g0.net → G.L0.length + pre.length ≤ i

/-- The moment when the facts in `g0` had been published and the messages `net0` sent. -/
def mark (g0 : AState) (net0 : List Message) (x : Bytes) : Mark where
  term0 v := (g0.node v).term
  net0 := net0
  x := x
  Good := G.Good g0
  Final := G.Final g0

/-- `g0` is in the past of `s`. -/
structure Since (g0 s : AState) : Prop where
  net : ∀ m ∈ g0.net, m ∈ s.net
  term : ∀ v, (g0.node v).term ≤ (s.node v).term

variable {G} {g0 s : AState} {net0 : List Message} {x : Bytes} {p : Nat} {c : Core}

theorem Good.final {T i : Nat} {S : Nat → Prop} (h : G.Good g0 T i) (hg : AReach G.Q G.τ g0) (hq : G.Q.isQ S)
    (hS : ∀ u, S u → (g0.node u).term ≤ T) : G.Final g0 i := by
  refine ⟨h.1, fun T' pre hp => h.2 T' pre hp ?_⟩
  obtain ⟨c0, lg, k, e, l1, _, l2, l3, S', q', a⟩ := hg.inv.chosenOk _ _ hp
  obtain ⟨v, v1, v2⟩ := G.Q.inter hq q'
  obtain ⟨j, _, hj⟩ := a v v2
  exact Nat.le_trans (hg.inv.ackLead _ _ _ hj).1 (hS v v1)

theorem facts (hg : AReach G.Q G.τ g0) (hr : AReach G.Q G.τ s) (hn : G.NodeRel p s.net c (s.node p)) (hs : Since g0 s) :
    Facts (G.mark g0 net0 x) p c := by
  have hcom := hn.commit
  refine ⟨hn.id, by rw [hn.term]; exact hs.term p, fun hl hi => ?_, fun hl acks ha ht i hi => ?_⟩
  · refine ⟨by omega, fun T' pre hp hT => ?_⟩
    have hp' := hs.net _ hp
    obtain ⟨n1, n2⟩ := hr.inv.leadNode p (hn.leader_role hl)
    rw [hn.term] at hT
    by_cases he : T' = (s.node p).term
    · rw [he] at hp'
      have := hr.chosenCommit _ _ _ _ hp' n1
      omega
    · have hlt : T' < (s.node p).term := by omega
      have hpre := hr.inv.chosen_later hp' n1 hlt
      apply Decidable.byContradiction
      intro hlen
      obtain ⟨c0, lg, k, e0, l1, l2, l3, l4, _⟩ := hr.inv.chosenOk _ _ hp'
      obtain ⟨t, t1, t2⟩ := hi
      have hbase := hn.linv.base_com
      have hlast := hn.linv.com_last
      have ht : c.log.view.termAt c.log.committed = c.term := by
        rw [hn.linv.wf.term_eq] at t1
        cases t1
        simpa [RaftLog.zeroTermOnErrCompacted] using t2
      rw [hn.log.termAt hbase, hcom, hn.term] at ht
      have hτ := hr.lead_gt l1
      by_cases hz : (s.node p).commit = 0
      · rw [hz, Nat.add_zero, gterm_prefix (List.prefix_append G.L0 _) (Nat.le_refl _)] at ht
        have := G.low
        omega
      · have hk : (s.node p).commit - 1 < pre.length := by omega
        have hge : pre[(s.node p).commit - 1]? = some (pre[(s.node p).commit - 1]'hk) := List.getElem?_eq_getElem _
        have hle := prefix_getElem?_some hpre hge
        have := gterm_some (L := G.L0 ++ (s.node p).log) (i := G.L0.length + ((s.node p).commit - 1)) (e := pre[(s.node p).commit - 1]'hk) (by
          rw [List.getElem?_append_right (by omega), Nat.add_sub_cancel_left]; exact hle)
        rw [show G.L0.length + ((s.node p).commit - 1) + 1 = G.L0.length + (s.node p).commit by omega, ht] at this
        have hmem : pre[(s.node p).commit - 1]'hk ∈ lg := by
          have hpl : pre <+: lg := by rw [l2]; exact List.take_prefix _ _
          exact hpl.subset (List.mem_of_getElem? hge)
        have := (hr.inv.leadTerms _ _ _ l1).2 _ hmem
        omega
  · refine Good.final hi hg (joint_won G.ne (votes := acks) ?_) ht
    rw [← hn.config]; exact ha

theorem single (hr : AReach G.Q G.τ s) (hn : G.NodeRel p s.net c (s.node p)) (hs : Since g0 s) (hl : c.state = .leader)
    (h1 : c.config.voters.incoming.length = 1) (h2 : c.config.voters.outgoing.length = 0) : G.Final g0 c.log.committed := by
  have hcom := hn.commit
  refine ⟨by omega, fun T' pre hp => ?_⟩
  have hp' := hs.net _ hp
  obtain ⟨c0, lg, k, e0, l1, _⟩ := hr.inv.chosenOk _ _ hp'
  obtain ⟨n1, _⟩ := hr.inv.leadNode p (hn.leader_role hl)
  have m1 : c0 ∈ G.cfg.voters.incoming ∨ c0 ∈ G.cfg.voters.outgoing := hr.lead_may l1
  have m2 : p ∈ G.cfg.voters.incoming ∨ p ∈ G.cfg.voters.outgoing := hr.lead_may n1
  rw [hn.config] at h1 h2
  obtain ⟨v, hv⟩ := List.length_eq_one_iff.1 h1
  rw [List.length_eq_zero_iff.1 h2, hv] at m1 m2
  simp only [List.mem_singleton, List.not_mem_nil, or_false] at m1 m2
  rw [m1, ← m2] at l1
  have := hr.chosenCommit _ _ _ _ hp' l1
  omega

/-- What the protocol says holds throughout a call. -/
theorem path_facts {env : Env} {im : Message} {c1 : Core} {ms1 : List Message} (hp : CPath env im c ms1 c1) (hg : AReach G.Q G.τ g0)
    (hr : AReach G.Q G.τ s) (hn : G.NodeRel p s.net c (s.node p)) (hok : G.MsgOk s.net im) (hmy : G.May c)
    (hto : im.type = .voteResp ∨ im.type = .heartbeat → im.to = p) (hsn : Since g0 s) : Facts (G.mark g0 net0 x) p c1 := by
  induction hp generalizing s with
  | nil => exact facts hg hr hn hsn
  | cons hs _ ih =>
    obtain ⟨s1, p1, n1, m1⟩ := step_done hr hn hok hs hmy hto
    refine ih (p1.reach hr) n1 (hok.mono p1.net) (step_may hok hs hmy) ⟨fun m hm => p1.net m (hsn.net m hm), fun v => ?_⟩
    by_cases hv : v = p
    · subst hv; exact Nat.le_trans (hsn.term v) p1.term_le
    · rw [p1.other hv]; exact hsn.term v

end Gen
end Craft.Cluster
