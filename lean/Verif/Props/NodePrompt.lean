import Verif.Node.Prompt
import Verif.Props.NodeCommit
import Verif.Props.Quorum

/-! # C72: a leader commits as soon as it can -/

namespace Craft
open Spec

/-- `Prompt`, with the log seen as one sequence. -/
def PromptV (r : Raft) : Prop :=
  r.state = .leader → r.Counts → r.trk.config.voters.incoming ≠ [] → r.log.committed < r.trk.committed →
    r.log.view.termAt r.trk.committed ≠ r.term

theorem Prompt.view {r : Raft} (hw : r.log.WF) (h : Prompt r) : PromptV r :=
  fun h1 h2 h3 h4 => h h1 h2 h3 h4 _ (hw.term_eq _)

theorem PromptV.prompt {r : Raft} (hw : r.log.WF) (h : PromptV r) : Prompt r := by
  intro h1 h2 h3 h4 t ht
  rw [hw.term_eq] at ht
  cases ht
  exact h h1 h2 h3 h4

/-- The log changes below the commit index only. -/
theorem PromptV.below {a b : Raft} (hf : b = { a with log := b.log }) (hc : b.log.committed = a.log.committed)
    (hv : ∀ k, a.log.committed < k → b.log.view.termAt k = a.log.view.termAt k) (h : PromptV a) : PromptV b := by
  intro h1 h2 h3 h4
  have e1 : b.state = a.state := by rw [hf]
  have e2 : b.trk = a.trk := by rw [hf]
  have e3 : b.term = a.term := by rw [hf]
  have e4 : b.id = a.id := by rw [hf]
  rw [e2, hc] at h4
  rw [e2, e3, hv _ h4]
  rw [e2] at h3
  refine h (e1.symm.trans h1) ?_ h3 h4
  obtain ⟨p, hp, hl⟩ := h2
  refine ⟨p, ?_, hl⟩
  unfold Raft.pr at hp ⊢
  rw [← e2, ← e4]; exact hp

theorem Prompt.storage {n : RawNode} {st : Storage} (hp : Prompt n.raft) (h1 : LInv n.raft.log)
    (h2 : LInv ({ n.raft.log with storage := st } : RaftLog)) (hb : n.raft.log.view.base ≤ ({ n.raft.log with storage := st } : RaftLog).view.base)
    (he : ∀ i, ({ n.raft.log with storage := st } : RaftLog).view.base < i →
      ({ n.raft.log with storage := st } : RaftLog).view.entry i = n.raft.log.view.entry i) : Prompt (n.withStorage st).raft := by
  refine PromptV.prompt (r := (n.withStorage st).raft) h2.wf (PromptV.below (a := n.raft) rfl rfl (fun k hk => ?_) (hp.view h1.wf))
  have hb2 : ({ n.raft.log with storage := st } : RaftLog).view.base ≤ n.raft.log.committed := h2.base_com
  show ({ n.raft.log with storage := st } : RaftLog).view.termAt k = _
  unfold LogView.termAt
  rw [if_neg (by omega), if_neg (by omega), he k (by omega)]

theorem Prompt.plain {env : Env} {c : Call} {n n' : RawNode} (hp : c.Plain) (h : Prompt n.raft) (hc : c.run env n = .ok n') : Prompt n'.raft := by
  have on : ∀ {m : Message} {x : RawNode} {e : Option Err}, n.onRaft (fun r => r.step env m) = .ok (x, e) → Prompt x.raft :=
    fun hx => h.step (onRaft_ok hx).1
  cases c with
  | step m =>
    obtain ⟨⟨x, e⟩, hx, hc⟩ := Res.bind_eq_ok.1 hc
    cases hc
    unfold RawNode.step at hx
    split at hx
    · cases hx; exact h
    split at hx
    · exact on hx
    · cases hx; exact h
  | tick =>
    obtain ⟨r, hr, hc⟩ := Res.bind_eq_ok.1 hc
    cases hc
    exact h.tick hr
  | tickQuiesced => cases hc; exact Front.prompt (a := n.raft) (.of rfl rfl) h
  | campaign => obtain ⟨⟨x, e⟩, hx, hc⟩ := Res.bind_eq_ok.1 hc; cases hc; exact on hx
  | propose d => obtain ⟨⟨x, e⟩, hx, hc⟩ := Res.bind_eq_ok.1 hc; cases hc; exact h.step (onRaft_ok hx).1
  | proposeConfChange cc => obtain ⟨⟨x, e⟩, hx, hc⟩ := Res.bind_eq_ok.1 hc; cases hc; exact on hx
  | applyConfChange cc => cases hp
  | getReady => cases hp
  | advance => cases hp
  | reportUnreachable id => obtain ⟨⟨x, e⟩, hx, hc⟩ := Res.bind_eq_ok.1 hc; cases hc; exact on hx
  | reportSnapshot id f => obtain ⟨⟨x, e⟩, hx, hc⟩ := Res.bind_eq_ok.1 hc; cases hc; exact on hx
  | transferLeader id => obtain ⟨⟨x, e⟩, hx, hc⟩ := Res.bind_eq_ok.1 hc; cases hc; exact on hx
  | readIndex ctx => obtain ⟨⟨x, e⟩, hx, hc⟩ := Res.bind_eq_ok.1 hc; cases hc; exact on hx

theorem Prompt.applyConfChanges {env : Env} (ccs : List ConfChangeI) {n n' : RawNode} (h : Prompt n.raft)
    (hc : n.applyConfChanges env ccs = .ok n') : Prompt n'.raft := by
  induction ccs generalizing n with
  | nil => cases hc; exact h
  | cons cc ccs ih =>
    unfold RawNode.applyConfChanges at hc
    obtain ⟨⟨x, cs⟩, hx, hc⟩ := Res.bind_eq_ok.1 hc
    refine ih ?_ hc
    unfold RawNode.applyConfChange at hx
    obtain ⟨⟨r, cs'⟩, h2, h1⟩ := Res.bind_eq_ok.1 hx
    simp only [Res.pure_eq, Res.ok.injEq, Prod.mk.injEq] at h1
    obtain ⟨rfl, _⟩ := h1
    unfold Raft.applyConfChange at h2
    dsimp only at h2
    split at h2
    · cases h2
    · exact (Prompt.switchToConfig h2).1

theorem Prompt.ready {env : Env} {x y : RawNode} {ccs : List ConfChangeI} {rd : Ready} (hi : LInv x.raft.log) (hp : Prompt x.raft)
    (hr : x.handleReady env ccs = .ok (y, rd)) : Prompt y.raft := by
  obtain ⟨_, sd, es, cm, hsv, hd⟩ := handleReady_conf hi hr
  obtain ⟨hiy, hyv, _⟩ := hd.linv hi hsv
  unfold RawNode.handleReady at hr
  obtain ⟨⟨x1, rd1⟩, ht, hr⟩ := Res.bind_eq_ok.1 hr
  obtain ⟨x2, hcc, hr⟩ := Res.bind_eq_ok.1 hr
  obtain ⟨y', hc, hr⟩ := Res.bind_eq_ok.1 hr
  cases hr
  obtain ⟨w, hv, hcl⟩ := inReady_log hi ht hcc
  -- after persisting
  have hp1 : Prompt x1.raft := by
    obtain ⟨st, h1, w1, v1, _, _⟩ := save_eq (env := env) hi
    obtain ⟨st', h1', h2⟩ := takeReady_eq (env := env) hi
    rw [h1] at h1'
    cases h1'
    rw [h2] at ht
    simp only [Res.ok.injEq, Prod.mk.injEq] at ht
    obtain ⟨w2, v2⟩ := hi.wf.of_storage_eq w1 v1
    rw [← ht.1]
    have hf : Front x.raft { x.raft with readStates := (x.acceptReady (readyOf env x)).raft.readStates, msgs := [] } := .of rfl rfl
    have hp0 := (hf.prompt hp).view hi.wf
    refine PromptV.prompt (r := { x.raft with
        readStates := (x.acceptReady (readyOf env x)).raft.readStates, msgs := [], log := { x.raft.log with storage := st } }) w2 ?_
    refine PromptV.below (a := { x.raft with readStates := (x.acceptReady (readyOf env x)).raft.readStates, msgs := [] }) rfl rfl (fun k _ => ?_) hp0
    show ({ x.raft.log with storage := st } : RaftLog).view.termAt k = _
    rw [v2]
  have hp2 : Prompt x2.raft := hp1.applyConfChanges ccs hcc
  obtain ⟨q, _⟩ := ConfQuiet.applyConfChanges ccs hcc
  have q1 : x1.raft.term = x.raft.term ∧ x1.raft.pendingConfIndex = x.raft.pendingConfIndex := by
    obtain ⟨st', _, h2⟩ := takeReady_eq (env := env) hi
    rw [h2] at ht
    simp only [Res.ok.injEq, Prod.mk.injEq] at ht
    rw [← ht.1]; exact ⟨rfl, rfl⟩
  unfold RawNode.advance at hc
  split at hc
  · cases hc
  obtain ⟨r3, h7, h8⟩ := Res.bind_eq_ok.1 hc
  simp only [Res.pure_eq, Res.ok.injEq] at h8
  subst h8
  refine PromptV.prompt hiy.wf ?_
  replace hyv : r3.log.view = x.raft.log.view.push es := hyv
  unfold Raft.advance at h7
  obtain ⟨hrc, hrm, _⟩ := Raft.reduce_core x2.raft (by assumption : Ready).committedEntries
  have hru : ∃ u, x2.raft.reduceUncommittedSize (by assumption : Ready).committedEntries = { x2.raft with uncommittedSize := u } :=
    reduceUncommittedSize_eq _ _
  obtain ⟨u, hru⟩ := hru
  rw [hru] at h7
  obtain ⟨ra, h5, h9⟩ := Res.bind_eq_ok.1 h7
  obtain ⟨la, h6, h4⟩ := Res.bind_eq_ok.1 h9
  simp only [Res.pure_eq, Res.ok.injEq] at h4
  have hcom : r3.log.committed = ra.log.committed := by
    have h10 : la.committed = ra.log.committed := by
      unfold Raft.advanceStable at h6
      split at h6
      · rw [RaftLog.stableTo_shape h6]
      · cases h6; rfl
    rw [← h4]
    dsimp only
    split
    · exact h10
    · exact h10
  have hrr : r3 = { ra with log := r3.log } := by rw [← h4]
  show PromptV r3
  have happ : r3.log.applied = ra.log.applied := by
    have h10 : la.applied = ra.log.applied := by
      unfold Raft.advanceStable at h6
      split at h6
      · rw [RaftLog.stableTo_shape h6]
      · cases h6; rfl
    rw [← h4]
    dsimp only
    split
    · exact h10
    · exact h10
  have hpci : r3.pendingConfIndex = ra.pendingConfIndex := by rw [hrr]
  have plain : ra.log.view = x.raft.log.view → ra.pendingConfIndex = x.raft.pendingConfIndex → ra.log.applied ≤ x.raft.log.view.last →
      PromptV ra → PromptV r3 := by
    intro e1 e2 e3 hpa
    refine PromptV.below hrr hcom (fun k _ => ?_) hpa
    rcases hd.auto with ⟨h, _⟩ | ⟨_, h', _, h⟩
    · rw [hyv, e1, h]
      have : x.raft.log.view.push [] = x.raft.log.view := by unfold LogView.push; rw [List.append_nil]
      rw [this]
    · exfalso
      have h : r3.pendingConfIndex = x.raft.log.view.last + 1 := h
      have h' : x.raft.pendingConfIndex ≤ r3.log.applied := h'
      omega
  have xl : x2.raft.log.committed ≤ x.raft.log.view.last := by rw [← hv]; exact hcl
  have xa : x2.raft.log.applied = x.raft.log.applied := by
    rw [q.log]
    obtain ⟨st', _, h2⟩ := takeReady_eq (env := env) hi
    rw [h2] at ht
    simp only [Res.ok.injEq, Prod.mk.injEq] at ht
    rw [← ht.1]; rfl
  have hal := hi.app_com
  have hcl0 := hi.com_last
  have hrp : x2.raft.pendingConfIndex = x.raft.pendingConfIndex := q.pci.trans q1.2
  rcases Raft.advanceApplied_cases h5 with ⟨_, rfl⟩ | ⟨h0, l, hl, rfl | ⟨g1, g2, g3, g4, rb, hb, rfl⟩⟩
  · refine plain hv hrp ?_ ?_
    · show x2.raft.log.applied ≤ _
      omega
    · exact (Front.prompt (a := x2.raft) (.of rfl rfl) hp2).view w
  · obtain ⟨a1, a2⟩ := Raft.appliedTo_log hl
    have hlw : l.WF := by rw [a1]; exact w.with_applied _
    have hlv : l.view = x.raft.log.view := by rw [a1]; exact hv
    have hlc : l.committed = x2.raft.log.committed := by rw [a1]
    refine plain hlv hrp ?_ ?_
    · show l.applied ≤ _
      rcases a2 with a2 | ⟨a2, _, a3⟩
      · omega
      · have a3 : _ ≤ x2.raft.log.committed := a3
        omega
    · refine PromptV.below (a := { x2.raft with uncommittedSize := u }) rfl hlc (fun k _ => ?_) ((Front.prompt (a := x2.raft) (.of rfl rfl) hp2).view w)
      show l.view.termAt k = x2.raft.log.view.termAt k
      rw [hlv, hv]
  · obtain ⟨a1, a2⟩ := Raft.appliedTo_log hl
    have hlw : l.WF := by rw [a1]; exact w.with_applied _
    have hlv : l.view = x.raft.log.view := by rw [a1]; exact hv
    obtain ⟨bw, bv, _, _, _, _⟩ := Raft.appendEntry_accepted (r := { x2.raft with uncommittedSize := u, log := l }) hlw hb
    have hpb : PromptV rb := by
      rcases Front.appendEntry hb with ⟨h, _⟩ | ⟨_, h⟩
      · cases h
      · exact h.view bw
    have hlast := Raft.appendEntry_last hb
    have hlast' : rb.log.lastIndex = x.raft.log.view.last + 1 := by
      rw [hlast]
      show l.lastIndex + 1 + 0 = _
      rw [hlw.lastIndex_eq, hlv]
    have hrt : x2.raft.term = x.raft.term := q.term.trans q1.1
    have hes : es = [{ type := .confChangeV2, term := x.raft.term, index := x.raft.log.view.last + 1 }] := by
      rcases hd.auto with ⟨_, h⟩ | ⟨_, _, h, _⟩
      · exfalso
        have h : r3.pendingConfIndex = x.raft.pendingConfIndex := h
        have h' : r3.pendingConfIndex = rb.log.lastIndex := hpci
        have g2 : x2.raft.pendingConfIndex ≤ _ := g2
        rcases a2 with a2 | ⟨_, _, a2⟩
        · omega
        · have a2 : _ ≤ x2.raft.log.committed := a2
          omega
      · exact h
    have hview : r3.log.view = rb.log.view := by
      rw [hyv, bv, hes]
      show _ = l.view.push (Raft.stamp x2.raft.term (l.lastIndex + 1) _)
      rw [hlv, hlw.lastIndex_eq, hlv, hrt]
      rfl
    refine PromptV.below hrr hcom (fun k _ => ?_) (Front.prompt (a := rb) (.of rfl rfl) (hpb.prompt bw) |>.view bw)
    rw [hview]

theorem NodeRun.prompt {env : Env} {n x : RawNode} (h : NodeRun env n x) (hn : NInv n.raft.core) (hp : Prompt n.raft) : Prompt x.raft := by
  induction h with
  | refl => exact hp
  | call c _ h1 _ _ h4 ih => exact ih.plain h1 h4
  | ready ccs h0 h1 ih => exact ih.ready (h0.ninv hn).linv h1
  | compact i h0 h1 h2 ih =>
    obtain ⟨k1, k2, _, k4⟩ := (h0.ninv hn).linv.compact_withStorage env h1 h2
    exact ih.storage (h0.ninv hn).linv k1 k2 k4
  | createSnapshot i cs data h0 h1 h2 ih =>
    obtain ⟨k1, k2, _, k4⟩ := (h0.ninv hn).linv.createSnapshot_withStorage env h1 h2
    exact ih.storage (h0.ninv hn).linv k1 k2 k4

/-- A quorum (a majority of each non-empty half of the configuration) is known to have everything up to `i`. -/
def QuorumHas (n : RawNode) (i : Nat) : Prop :=
  (n.raft.trk.config.voters.incoming ≠ [] → MajorityAcked n.raft.trk.config.voters.incoming
    (fun v => (n.raft.trk.progress.find v).map (·.mtch)) i) ∧
  (n.raft.trk.config.voters.outgoing ≠ [] → MajorityAcked n.raft.trk.config.voters.outgoing
    (fun v => (n.raft.trk.progress.find v).map (·.mtch)) i)

/-- C72. Whatever was called on a node before: if it leads and is a voter in its own configuration, and `i` is the highest
index it knows a quorum to have, and the entry there is of its own term, then it has committed it. (Indexes are 64 bits.) The
commit never waits for a further message, tick or Ready. -/
theorem C72_commit_prompt {env : Env} {cfg : Config} {st : Storage} {rng : Nat} {n x : RawNode} {p : Progress} {i : Nat}
    (hs : st.Sound) (hn : RawNode.new env cfg st rng = .ok n) (hx : NodeRun env n x)
    (hl : x.raft.state = .leader) (hp : x.raft.trk.progress.find x.raft.id = some p) (hv : p.isLearner = false)
    (hne : x.raft.trk.config.voters.incoming ≠ [])
    (h64 : ∀ v q, x.raft.trk.progress.find v = some q → q.mtch < 2 ^ 64)
    (hq : QuorumHas x i) (hmax : ¬ QuorumHas x (i + 1)) (ht : x.raft.log.view.termAt i = x.raft.term) :
    i ≤ x.raft.log.committed := by
  have hi := hx.ninv (NInv.new hn hs)
  have hpr : Prompt n.raft := .idle (by rw [(RawNode.new_ok hn).1.state]; nofun)
  have hpx := (hx.prompt (NInv.new hn hs) hpr).view hi.linv.wf
  have ha : ∀ v a, x.raft.trk.acked v = some a → a < 2 ^ 64 := by
    intro v a h
    unfold Tracker.acked at h
    cases hf : x.raft.trk.progress.find v with
    | none => rw [hf] at h; cases h
    | some q => rw [hf] at h; cases h; exact h64 v q hf
  have hj := C03_joint_committed_exact x.raft.trk.config.voters x.raft.trk.acked ha
  have e : x.raft.trk.committed = i := by
    show x.raft.trk.config.voters.committedIndex x.raft.trk.acked = i
    apply Nat.le_antisymm
    · refine Nat.le_of_not_lt fun h => hmax ?_
      have := (hj (i + 1)).1 h
      exact ⟨this.2.1, this.2.2⟩
    · refine (hj i).2 ⟨?_, hq.1, hq.2⟩
      have hm := hq.1 hne
      unfold MajorityAcked Spec.Majority Spec.count at hm
      rw [← List.countP_eq_length_filter] at hm
      obtain ⟨v, _, hv⟩ := List.countP_pos_iff.1 (show 0 < _ by exact Nat.pos_of_ne_zero fun h => by rw [h] at hm; omega)
      rw [decide_eq_true_eq] at hv
      dsimp only at hv
      cases hf : x.raft.trk.progress.find v with
      | none => rw [hf] at hv; have : i ≤ 0 := hv; omega
      | some q =>
        rw [hf] at hv
        have : i ≤ q.mtch := hv
        have := h64 v q hf
        omega
  refine Nat.le_of_not_lt fun h => ?_
  exact hpx hl ⟨p, hp, hv⟩ hne (by rw [e]; exact h) (by rw [e]; exact ht)

namespace Demo

/-- The demo leader of three: nobody else has acknowledged index 2 and it is not committed; as soon as node 2 has, it is. -/
example : (node1 (elect ++ propose2)).raft.state = .leader ∧ (node1 (elect ++ propose2)).raft.trk.config.voters.incoming = [1, 2, 3] ∧
    ((node1 (elect ++ propose2)).raft.trk.progress.find 1).map (fun p => (p.mtch, p.isLearner)) = some (4, false) ∧
    ((node1 (elect ++ propose2)).raft.trk.progress.find 2).map (·.mtch) = some 2 ∧
    ((node1 (elect ++ propose2)).raft.trk.progress.find 3).map (·.mtch) = some 0 ∧
    (node1 (elect ++ propose2)).raft.log.view.termAt 2 = (node1 (elect ++ propose2)).raft.term ∧
    (node1 (elect ++ propose2)).raft.log.committed = 2 := by decide +kernel

end Demo
end Craft
