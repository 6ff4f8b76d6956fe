import Verif.Node.Leader
import Verif.Props.Quorum

/-! # How a leader's commit index advances -/

namespace Craft
open Spec

/-- `Match` of every peer, as the node's tracker has it. -/
def Core.acked (c : Core) (v : Nat) : Option Nat := (c.progress.find v).map (·.mtch)

/-- Every non-empty half of the configuration has a majority whose `Match` reaches `i`. -/
def Core.Counted (c : Core) (i : Nat) : Prop :=
  (c.config.voters.incoming ≠ [] → MajorityAcked c.config.voters.incoming c.acked i) ∧
  (c.config.voters.outgoing ≠ [] → MajorityAcked c.config.voters.outgoing c.acked i)

theorem MajorityAcked.mono {l : List Nat} {a a' : Nat → Option Nat} {i j : Nat} (h : MajorityAcked l a j) (hij : i ≤ j)
    (ha : ∀ v, (a v).getD 0 ≤ (a' v).getD 0) : MajorityAcked l a' i := by
  unfold MajorityAcked Spec.Majority Spec.count at *
  rw [← List.countP_eq_length_filter] at *
  refine Nat.lt_of_lt_of_le h (Nat.mul_le_mul_left 2 ?_)
  apply List.countP_mono_left
  intro v _ hv
  simp only [decide_eq_true_eq] at *
  have := ha v
  omega

theorem Core.Counted.mono {c c' : Core} {i j : Nat} (h : c.Counted j) (hij : i ≤ j) (hc : c'.config = c.config)
    (ha : ∀ v, (c.acked v).getD 0 ≤ (c'.acked v).getD 0) : c'.Counted i := by
  unfold Core.Counted at *
  rw [hc]
  exact ⟨fun hn => MajorityAcked.mono (h.1 hn) hij ha, fun hn => MajorityAcked.mono (h.2 hn) hij ha⟩

/-- What the tracker calls committed is counted. -/
theorem Core.counted_quorumIndex (c : Core) : c.Counted c.quorumIndex := by
  have h : c.quorumIndex = c.config.voters.committedIndex c.acked := rfl
  rw [h]
  unfold JointConfig.committedIndex
  refine ⟨fun hn => MajorityAcked.mono (C01_majority_committed_exact _ c.acked hn).1 (by omega) fun _ => Nat.le_refl _,
    fun hn => MajorityAcked.mono (C01_majority_committed_exact _ c.acked hn).1 (by omega) fun _ => Nat.le_refl _⟩

theorem PrsRel.acked {l : RaftLog} {P P' : ProgressMap} (h : PrsRel (fun _ => PrQuiet l) P P') (v : Nat) :
    (P'.find v).map (·.mtch) = (P.find v).map (·.mtch) := by
  rcases h.1 v with ⟨h1, h2⟩ | ⟨p, p', h1, h2, h3⟩
  · rw [h1, h2]
  · rw [h1, h2]
    simp only [Option.map_some, h3.mtch]

theorem acked_insert_le {P : ProgressMap} {id : Nat} {p p' : Progress} (h : P.find id = some p) (hm : p.mtch ≤ p'.mtch) (v : Nat) :
    ((P.find v).map (·.mtch)).getD 0 ≤ (((P.insert id p').find v).map (·.mtch)).getD 0 := by
  rw [AMap.find_insert]
  by_cases hv : id = v
  · subst hv
    rw [if_pos rfl, h]; exact hm
  · rw [if_neg hv]; exact Nat.le_refl _

/-- A leader's commit index that it counted itself. -/
structure Good (c : Core) : Prop where
  state : c.state = .leader
  term : c.log.view.termAt c.log.committed = c.term
  count : c.Counted c.log.committed

/-- The states a core goes through while handling `im`, if its commit index was `c0`: not moved yet; moved by counting; moved as
a follower, in which case it will not become leader. -/
def Advance (im : Message) (c0 : Nat) (c : Core) : Prop :=
  c.log.committed = c0 ∨ (Good c ∧ ¬ Adopts im c.term) ∨ (¬ CampMsg im ∧ c.state ≠ .leader ∧ c.state ≠ .candidate)

theorem push_termAt_le (v : LogView) (es : List Entry) {i : Nat} (h : i ≤ v.last) : (v.push es).termAt i = v.termAt i := by
  unfold LogView.termAt
  rw [push_entry_le v es h]
  rfl

theorem maybeUpdate_le (p : Progress) (n : Nat) : p.mtch ≤ (p.maybeUpdate n).1.mtch := by
  unfold Progress.maybeUpdate
  dsimp only
  split
  · dsimp only; omega
  · exact Nat.le_refl _

theorem CStep.advance {env : Env} {im : Message} {c c' : Core} {ms : List Message} (h : CStep env im c ms c') {c0 : Nat}
    (hi : c.log.WF) (hcl : c.log.committed ≤ c.log.view.last) (ha : Advance im c0 c) : Advance im c0 c' := by
  have hnc : ∀ t, (t = MsgType.app ∨ t = MsgType.heartbeat ∨ t = MsgType.snap) → im.type = t → ¬ CampMsg im := by
    rintro t ht he (h | h | h) <;> rw [he] at h <;> subst h <;> simp at ht
  rcases ha with ha | ⟨hg, hz⟩ | ⟨h1, h2, h3⟩
  · cases h with
    | append es l p pci g1 g2 g3 g4 => exact Or.inl ((RaftLog.append_committed g2).trans ha)
    | commit l g1 g2 g3 =>
      right; left
      refine ⟨⟨g1, ?_, ?_⟩, g3⟩
      all_goals
        rw [hi.maybeCommit_eq] at g2
        split at g2
        · rename_i hq
          split at g2
          · cases g2
          · simp only [Res.ok.injEq, Prod.mk.injEq] at g2
            rw [← g2.1]
            first
              | exact hq.2
              | exact c.counted_quorumIndex
        · cases g2
    | recvApp l last g1 g2 =>
      refine Or.inr (Or.inr ⟨hnc _ (Or.inl rfl) g2, ?_, ?_⟩) <;> (show c.state ≠ _; rw [g1]; exact (nomatch ·))
    | recvHeartbeat l g1 g2 =>
      refine Or.inr (Or.inr ⟨hnc _ (Or.inr (Or.inl rfl)) g2, ?_, ?_⟩) <;> (show c.state ≠ _; rw [g1]; exact (nomatch ·))
    | recvSnapCommit l g1 g2 =>
      refine Or.inr (Or.inr ⟨hnc _ (Or.inr (Or.inr rfl)) g2, ?_, ?_⟩) <;> (show c.state ≠ _; rw [g1]; exact (nomatch ·))
    | recvSnap cfg P0 p mi g1 g2 =>
      refine Or.inr (Or.inr ⟨hnc _ (Or.inr (Or.inr rfl)) g2, ?_, ?_⟩) <;> (show c.state ≠ _; rw [g1]; exact (nomatch ·))
    | _ => exact Or.inl ha
  · have hs := hg.state
    cases h with
    | emit => exact Or.inr (Or.inl ⟨hg, hz⟩)
    | prs P hP =>
      refine Or.inr (Or.inl ⟨⟨hs, hg.term, ?_⟩, hz⟩)
      refine hg.count.mono (Nat.le_refl _) rfl fun v => ?_
      exact Nat.le_of_eq (congrArg (fun x => Option.getD x 0) (hP.acked v).symm)
    | follower T P g1 g2 g3 =>
      rcases g3 hs with g3 | g3
      · exact Or.inr (Or.inr ⟨g3, (nomatch ·), (nomatch ·)⟩)
      · exact absurd g3 hz
    | candidate P g1 g2 => exact absurd hs g2
    | preCandidate g1 g2 => exact absurd hs g2
    | pollSelf g1 => rcases g1 with g1 | g1 <;> rw [hs] at g1 <;> cases g1
    | pollResp g1 => rcases g1 with ⟨g1, _⟩ | ⟨g1, _⟩ <;> rw [hs] at g1 <;> cases g1
    | leader P g1 => rw [hs] at g1; cases g1
    | append es l p pci g1 g2 g3 g4 =>
      have hc : l.committed = c.log.committed := RaftLog.append_committed g2
      obtain ⟨w, v⟩ := Raft.append_view hi _ g2
      refine Or.inr (Or.inl ⟨⟨hs, ?_, ?_⟩, hz⟩)
      · show l.view.termAt l.committed = c.term
        rw [hc, v, push_termAt_le _ _ hcl]
        exact hg.term
      · show Core.Counted _ l.committed
        rw [hc]
        exact hg.count.mono (Nat.le_refl _) rfl fun v => acked_insert_le g3 (maybeUpdate_le p _) v
    | pciUp => exact Or.inr (Or.inl ⟨⟨hs, hg.term, hg.count⟩, hz⟩)
    | commit l g1 g2 g3 =>
      right; left
      refine ⟨⟨g1, ?_, ?_⟩, g3⟩
      all_goals
        rw [hi.maybeCommit_eq] at g2
        split at g2
        · rename_i hq
          split at g2
          · cases g2
          · simp only [Res.ok.injEq, Prod.mk.injEq] at g2
            rw [← g2.1]
            first
              | exact hq.2
              | exact c.counted_quorumIndex
        · cases g2
    | ackRecv p p' g1 g2 g3 g4 g5 g6 =>
      refine Or.inr (Or.inl ⟨⟨hs, hg.term, ?_⟩, hz⟩)
      exact hg.count.mono (Nat.le_refl _) rfl fun v => acked_insert_le g5 (by omega) v
    | grant => exact Or.inr (Or.inl ⟨⟨hs, hg.term, hg.count⟩, hz⟩)
    | recvApp l last g1 => rw [hs] at g1; cases g1
    | recvHeartbeat l g1 => rw [hs] at g1; cases g1
    | recvSnapCommit l g1 => rw [hs] at g1; cases g1
    | recvSnap cfg P0 p mi g1 => rw [hs] at g1; cases g1
    | _ => exact Or.inr (Or.inl ⟨⟨hs, hg.term, hg.count⟩, hz⟩)
  · cases h with
    | follower T P => exact Or.inr (Or.inr ⟨h1, (nomatch ·), (nomatch ·)⟩)
    | candidate P g1 => exact absurd g1 h1
    | preCandidate g1 => exact absurd g1 h1
    | leader P g1 => exact absurd g1 h3
    | _ => exact Or.inr (Or.inr ⟨h1, h2, h3⟩)

theorem CPath.advance {env : Env} {im : Message} {c c' : Core} {ms : List Message} (h : CPath env im c ms c') {c0 : Nat}
    (hw : AppWF im) (hi : LInv c.log) (ha : Advance im c0 c) : Advance im c0 c' := by
  induction h with
  | nil => exact ha
  | cons hs _ ih => exact ih (hs.linv hw hi).1 (hs.advance hi.wf hi.com_last ha)

/-- A path that ends in a leader with a larger commit index. -/
theorem CPath.good {env : Env} {im : Message} {c c' : Core} {ms : List Message} (h : CPath env im c ms c')
    (hw : AppWF im) (hi : LInv c.log) (hl : c'.state = .leader) (hc : c'.log.committed ≠ c.log.committed) : Good c' := by
  rcases h.advance hw hi (Or.inl rfl) with h | ⟨h, _⟩ | ⟨_, h, _⟩
  · exact absurd h hc
  · exact h
  · exact absurd hl h

/-- Calls that hand no message over: the log stays in order, whatever state the persisting of a Ready is in. -/
theorem CStep.local_wf {env : Env} {im : Message} {c c' : Core} {ms : List Message} (h : CStep env im c ms c') (ht : im.type = .beat)
    (hi : c.log.WF) (hcl : c.log.committed ≤ c.log.view.last) : c'.log.WF ∧ c'.log.committed ≤ c'.log.view.last := by
  cases h with
  | append es l p pci g1 g2 g3 g4 =>
    obtain ⟨w, v⟩ := Raft.append_view hi _ g2
    refine ⟨w, ?_⟩
    show l.committed ≤ l.view.last
    rw [RaftLog.append_committed g2, v, push_last]; omega
  | commit l g1 g2 g3 =>
    rw [hi.maybeCommit_eq] at g2
    split at g2
    · split at g2
      · cases g2
      · simp only [Res.ok.injEq, Prod.mk.injEq] at g2
        rw [← g2.1]
        exact ⟨hi.with_committed _, by show c.quorumIndex ≤ c.log.view.last; omega⟩
    · cases g2
  | recvApp l last g1 g2 => rw [ht] at g2; cases g2
  | recvHeartbeat l g1 g2 => rw [ht] at g2; cases g2
  | recvSnapCommit l g1 g2 => rw [ht] at g2; cases g2
  | recvSnap cfg P0 p mi g1 g2 => rw [ht] at g2; cases g2
  | _ => exact ⟨hi, hcl⟩

theorem CPath.local_good {env : Env} {im : Message} {c c' : Core} {ms : List Message} (h : CPath env im c ms c') (ht : im.type = .beat)
    (hi : c.log.WF) (hcl : c.log.committed ≤ c.log.view.last) (hl : c'.state = .leader) (hc : c'.log.committed ≠ c.log.committed) : Good c' := by
  suffices ∀ {c}, CPath env im c ms c' → c.log.WF → c.log.committed ≤ c.log.view.last → ∀ {c0}, Advance im c0 c → Advance im c0 c' by
    rcases this h hi hcl (Or.inl rfl) with h | ⟨h, _⟩ | ⟨_, h, _⟩
    · exact absurd h hc
    · exact h
    · exact absurd hl h
  clear h hi hcl hc c
  intro c h hi hcl c0 ha
  induction h with
  | nil => exact ha
  | cons hs _ ih =>
    obtain ⟨h1, h2⟩ := hs.local_wf ht hi hcl
    exact ih hl h1 h2 (hs.advance hi hcl ha)

/-- The node while a Ready is being handled: taken and persisted, some configuration changes applied. -/
theorem inReady_log {env : Env} {n n1 n2 : RawNode} {rd : Ready} {ccs : List ConfChangeI} (h : LInv n.raft.log)
    (ht : n.takeReady env = .ok (n1, rd)) (hc : n1.applyConfChanges env ccs = .ok n2) :
    n2.raft.log.WF ∧ n2.raft.log.view = n.raft.log.view ∧ n2.raft.log.committed ≤ n2.raft.log.view.last := by
  obtain ⟨st, h1, w, v, _, _⟩ := save_eq (env := env) h
  obtain ⟨st', h1', h2⟩ := takeReady_eq (env := env) h
  rw [h1] at h1'
  cases h1'
  rw [h2] at ht
  simp only [Res.ok.injEq, Prod.mk.injEq] at ht
  obtain ⟨q, _, _, _⟩ := ConfQuiet.applyConfChanges ccs hc
  have hlog1 : n1.raft.log = { n.raft.log with storage := st } := by rw [← ht.1]; rfl
  obtain ⟨w1, v1⟩ := h.wf.of_storage_eq w v
  have hlog2 : n2.raft.log = { n.raft.log with storage := st, committed := n2.raft.log.committed } := by
    rw [q.log, hlog1]
  have hw2 : n2.raft.log.WF := by rw [hlog2]; exact w1.with_committed _
  have hv2 : n2.raft.log.view = n.raft.log.view := by rw [hlog2]; exact v1
  refine ⟨hw2, hv2, ?_⟩
  have := q.last (by rw [hlog1]; exact w1) (by rw [hlog1, v1]; exact h.com_last)
  rw [hlog1, v1] at this
  rw [hv2]; exact this

end Craft
