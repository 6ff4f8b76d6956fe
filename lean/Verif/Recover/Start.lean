import Verif.Recover.Can

/-! # Restarting the nodes of a part of the cluster -/

namespace Craft.Cluster
open Spec Abs

variable {env : Env} {G : Genesis} {S : List Nat} {c : State} {p : Nat} {n : RawNode}

/-- The settings the nodes are restarted with. -/
def plainCfg (p : Nat) : Config := { id := p, heartbeatTick := 1, electionTick := 10, maxInflightMsgs := 1 }

/-- All voters are known as such. -/
def KnowsVoters (r : Raft) : Prop := ∀ v, v ∈ r.trk.config.voters.incoming ∨ v ∈ r.trk.config.voters.outgoing → ∃ q, r.pr v = some q ∧ q.isLearner = false

/-- Settings as in `plainCfg`. -/
structure Plain (r : Raft) : Prop where
  quorum : r.checkQuorum = false
  preVote : r.preVote = false
  beat : r.heartbeatTimeout = 1

/-- A node just restarted. -/
structure Newborn (r : Raft) : Prop where
  plain : Plain r
  state : r.state = .follower
  voters : KnowsVoters r
  snap : r.log.unstable.snapshot = none
  msgs : r.msgs = []

section
variable (hG : G.OK) (hE : Lossless env)
include hG hE

theorem start_one (hl : Live env G c) {st : Storage} (hp : c.proc p = .down st) (hS : p ∈ S) (h0 : p ≠ 0) :
    ∃ c' n, To env G S [p] c c' ∧ c'.proc p = .up n ∧ Newborn n.raft ∧ n.raft.log.view.last = st.lastIndex := by
  obtain ⟨n, hn, ht⟩ := to_start hG hE hl hp hS (plainCfg p) rfl ⟨h0, show (0 : Int) < 1 by decide, show (1 : Int) < 10 by decide, show (10 : Int) < 2 ^ 31 by decide, show (0 : Int) < 1 by decide, nofun, Or.inl rfl⟩ (show (1 : Int) ≤ 2 ^ 30 by decide)
  obtain ⟨hf, _⟩ := RawNode.new_ok hn
  have hk := known hG hE ht.live set_self
  refine ⟨_, n, ht, set_self, ⟨⟨hf.checkQuorum, hf.preVote, ?_⟩, hf.state, ?_, by rw [hf.unstable], hf.msgs⟩, ?_⟩
  · have h1 := hf.heartbeatTimeout.1
    have h2 : (plainCfg p).heartbeatTick = 1 := rfl
    rw [h2] at h1
    exact Int.ofNat_inj.1 h1
  · obtain ⟨P0, h1, h2⟩ := hf.conf
    obtain ⟨P, h3, h4⟩ := C14_restore_roundtrip G.trk hG.conf hG.zero (Or.inl hG.voter) (plainCfg p).maxInflightMsgs st.lastIndex
    have hcs : st.snapshot.metadata.confState = G.trk.confState := by
      have := hk.snap
      unfold RaftLog.snapshot at this
      rw [hf.unstable, hf.storage] at this
      exact this
    rw [hcs, h3] at h1
    have he : (G.trk.config, P) = (n.raft.trk.config, P0) := Except.ok.inj h1
    have hP : P = P0 := (Prod.mk.inj he).2
    subst hP
    intro v hv
    rw [hk.config] at hv
    obtain ⟨q, hq⟩ := (h4.prs_exact v).2 (by
      rcases hv with hv | hv
      · exact Or.inl hv
      · exact Or.inr (Or.inl hv))
    refine ⟨n.raft.resetPr v q, ?_, ?_⟩
    · unfold Raft.pr
      rw [h2]
      exact (AMap.find_map P (fun k p => n.raft.resetPr k p) v).trans (by rw [hq]; rfl)
    · have : (n.raft.resetPr v q).isLearner = q.isLearner := by unfold Raft.resetPr; dsimp only; split <;> rfl
      rw [this]
      cases hb : q.isLearner with
      | false => rfl
      | true =>
        have hlm := (h4.lrn_flag v q hq).1 hb
        rcases hv with hv | hv
        · exact absurd hv (h4.lrn_not_inc v hlm)
        · exact absurd hv (h4.lrn_not_out v hlm)
  · rw [← hk.linv.wf.lastIndex_eq]
    unfold RaftLog.lastIndex Unstable.maybeLastIndex
    rw [hf.unstable, hf.storage]
    rfl

theorem restart_one (hl : Live env G c) (hS : p ∈ S) (h0 : p ≠ 0) :
    ∃ c' n, To env G S [p] c c' ∧ c'.proc p = .up n ∧ Newborn n.raft ∧ n.raft.log.view.last = (c.proc p).disk.lastIndex := by
  cases hp : c.proc p with
  | down st => exact start_one hG hE hl hp hS h0
  | up n =>
    have ht := to_crash hG hE hl hp hS
    obtain ⟨c', n', h1, h2⟩ := start_one hG hE ht.live (p := p) set_self hS h0
    exact ⟨c', n', ht.trans h1, h2⟩

/-- All of `P` are restarted. -/
theorem restart_all (P : List Nat) (hnd : P.Nodup) (hPS : ∀ p ∈ P, p ∈ S) (h0 : ∀ p ∈ P, p ≠ 0) (hl : Live env G c) :
    ∃ c', To env G S P c c' ∧ ∀ p ∈ P, ∃ n, c'.proc p = .up n ∧ Newborn n.raft ∧ n.raft.log.view.last = (c.proc p).disk.lastIndex := by
  induction P generalizing c with
  | nil => exact ⟨c, .refl hl, nofun⟩
  | cons p P ih =>
    obtain ⟨hp, hnd⟩ := List.nodup_cons.1 hnd
    obtain ⟨c1, n, h1, h2, h3, h4⟩ := restart_one hG hE hl (hPS p List.mem_cons_self) (h0 p List.mem_cons_self)
    obtain ⟨c2, k1, k2⟩ := ih hnd (fun q hq => hPS q (List.mem_cons_of_mem _ hq)) (fun q hq => h0 q (List.mem_cons_of_mem _ hq)) h1.live
    refine ⟨c2, (h1.mono (by simp)).trans (k1.mono fun q hq => List.mem_cons_of_mem _ hq), fun q hq => ?_⟩
    rcases List.mem_cons.1 hq with rfl | hq
    · exact ⟨n, (k1.frame q hp).trans h2, h3, h4⟩
    · obtain ⟨n', e1, e2, e3⟩ := k2 q hq
      exact ⟨n', e1, e2, by rw [e3, h1.frame q (by rintro hh; rw [List.mem_singleton.1 hh] at hq; exact hp hq)]⟩

end
end Craft.Cluster
