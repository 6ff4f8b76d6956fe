import Verif.Recover.Repl
import Verif.Node.Flow
import Verif.Demo

/-! # C79: what the application reports about a peer

`ReportUnreachable` and `ReportSnapshot` (`/repo/src/rawnode.cc` 242-256). -/

namespace Craft

/-- The node after its record of peer `j` became `q`, all else unchanged. -/
def RawNode.withPr (n : RawNode) (j : Nat) (q : Progress) : RawNode :=
  { n with raft := { n.raft with trk := { n.raft.trk with progress := n.raft.trk.progress.insert j q } } }

/-- A peer that is probed from `next` on, with nothing in flight; the rest as in `p`. -/
structure Probed (p q : Progress) (next : Nat) (paused : Bool) : Prop where
  state : q.state = .probe
  next : q.next = next
  paused : q.probeSent = paused
  empty : q.inflights.count = 0
  size : q.inflights.size = p.inflights.size
  pending : q.pendingSnapshot = 0
  mtch : q.mtch = p.mtch
  active : q.recentActive = p.recentActive
  learner : q.isLearner = p.isLearner

namespace Raft
variable {env : Env} {r : Raft}

/-- Reports do nothing on a node that does not lead. -/
theorem report_idle {m : Message} (hl : r.state ≠ .leader) (h0 : m.term = 0) (hm : m.type = .unreachable ∨ m.type = .snapStatus) : r.step env m = .ok (r, none) := by
  unfold Raft.step Raft.stepGate
  rw [if_pos h0]
  show r.stepBody env m = _
  unfold Raft.stepBody
  rcases hm with hm | hm <;> rw [hm] <;> dsimp only <;> unfold Raft.stepState <;> split
  all_goals first
    | (rename_i k; exact absurd k hl)
    | (unfold Raft.stepFollower; rw [hm])
    | (unfold Raft.stepCandidate; rw [hm])

theorem report_leader {m : Message} (hl : r.state = .leader) (h0 : m.term = 0) (hm : m.type = .unreachable ∨ m.type = .snapStatus) : r.step env m = r.stepLeader env m := by
  unfold Raft.step Raft.stepGate
  rw [if_pos h0]
  show r.stepBody env m = _
  unfold Raft.stepBody
  rcases hm with hm | hm <;> rw [hm] <;> dsimp only <;> unfold Raft.stepState <;> rw [hl]

end Raft

/-- **C79** (unreachable). `ReportUnreachable(j)` returns and does nothing, unless the node leads and is replicating to `j`: then it
probes `j` from the first entry `j` has not acknowledged, and counts nothing as being in flight. -/
theorem C79_unreachable (env : Env) (n : RawNode) (j : Nat) :
    (∀ p, n.raft.state = .leader → n.raft.pr j = some p → p.state = .replicate →
      ∃ q, n.reportUnreachable env j = .ok (n.withPr j q) ∧ Probed p q (p.mtch + 1) false) ∧
    ((n.raft.state ≠ .leader ∨ ∀ p, n.raft.pr j = some p → p.state ≠ .replicate) → n.reportUnreachable env j = .ok n) := by
  unfold RawNode.reportUnreachable RawNode.onRaft
  dsimp only
  constructor
  · intro p hl hp hs
    rw [Raft.report_leader hl rfl (Or.inl (by rfl))]
    unfold Raft.stepLeader
    dsimp only
    rw [hp]
    dsimp only
    rw [if_pos hs]
    refine ⟨p.becomeProbe, rfl, ?_⟩
    unfold Progress.becomeProbe
    rw [if_neg (by rw [hs]; nofun)]
    exact ⟨rfl, rfl, rfl, rfl, rfl, rfl, rfl, rfl, rfl⟩
  · intro h
    by_cases hl : n.raft.state = .leader
    · have h := h.resolve_left (fun k => k hl)
      rw [Raft.report_leader hl rfl (Or.inl (by rfl))]
      unfold Raft.stepLeader
      dsimp only
      cases hp : n.raft.pr j with
      | none => rfl
      | some p =>
        dsimp only
        rw [if_neg (h p hp)]
        rfl
    · rw [Raft.report_idle hl rfl (Or.inl (by rfl))]
      rfl

/-- **C79** (snapshot). `ReportSnapshot(j, status)` returns and does nothing, unless the node leads and is sending `j` a snapshot:
then it probes `j`, after a success from behind that snapshot, after a failure from the first entry `j` has not acknowledged,
and waits for `j` to be heard from before it sends anything. -/
theorem C79_snapshot (env : Env) (n : RawNode) (j : Nat) (failure : Bool) :
    (∀ p, n.raft.state = .leader → n.raft.pr j = some p → p.state = .snapshot →
      ∃ q, n.reportSnapshot env j failure = .ok (n.withPr j q) ∧
        Probed p q (if failure then p.mtch + 1 else max (p.mtch + 1) (p.pendingSnapshot + 1)) true) ∧
    ((n.raft.state ≠ .leader ∨ ∀ p, n.raft.pr j = some p → p.state ≠ .snapshot) → n.reportSnapshot env j failure = .ok n) := by
  unfold RawNode.reportSnapshot RawNode.onRaft
  dsimp only
  constructor
  · intro p hl hp hs
    rw [Raft.report_leader hl rfl (Or.inr (by rfl))]
    unfold Raft.stepLeader
    dsimp only
    rw [hp]
    dsimp only
    unfold Raft.leaderSnapStatus
    rw [if_neg (by simp [hs])]
    dsimp only
    cases failure with
    | false =>
      refine ⟨_, rfl, ?_⟩
      simp only [Bool.false_eq_true, not_false_eq_true, if_true, if_false]
      unfold Progress.becomeProbe
      rw [if_pos hs]
      exact ⟨rfl, rfl, rfl, rfl, rfl, rfl, rfl, rfl, rfl⟩
    | true =>
      refine ⟨_, rfl, ?_⟩
      simp only [not_true_eq_false, if_true, if_false]
      unfold Progress.becomeProbe
      rw [if_pos hs]
      refine ⟨rfl, ?_, rfl, rfl, rfl, rfl, rfl, rfl, rfl⟩
      show max (p.mtch + 1) (0 + 1) = p.mtch + 1
      omega
  · intro h
    by_cases hl : n.raft.state = .leader
    · have h := h.resolve_left (fun k => k hl)
      rw [Raft.report_leader hl rfl (Or.inr (by rfl))]
      unfold Raft.stepLeader
      dsimp only
      cases hp : n.raft.pr j with
      | none => rfl
      | some p =>
        dsimp only
        unfold Raft.leaderSnapStatus
        rw [if_pos (h p hp)]
        rfl
    · rw [Raft.report_idle hl rfl (Or.inr (by rfl))]
      rfl

/-- A probed peer answers a heartbeat: the leader sends it what it lacks, from `next` on. -/
theorem Raft.resumes {env : Env} {r r' : Raft} {m : Message} {e : Option Err} {q : Progress} (hw : r.log.WF) (hl : r.state = .leader) (hm : m.type = .heartbeatResp)
    (ht : m.term = r.term) (hq : r.pr m.src = some q) (hs : q.state = .probe) (hn : 1 ≤ q.next) (hnl : q.next ≤ r.log.view.last)
    (hml : q.mtch < r.log.view.last) (h : r.step env m = .ok (r', e)) :
    ∃ x ms, r'.msgs = r.msgs ++ x :: ms ∧ x.to = m.src ∧ x.src = r.id ∧ x.term = r.term ∧
      ((x.type = .app ∧ r.log.view.base < q.next ∧ x.index = q.next - 1 ∧ x.logTerm = r.log.view.termAt (q.next - 1) ∧ x.entries ≠ []) ∨
       (x.type = .snap ∧ q.next ≤ r.log.view.base ∧ x.snapshot = some r.log.snapshot)) := by
  have h := step_leader hl (Or.inr ht) (by rw [hm]; nofun) (by rw [hm]; nofun) (by rw [hm]; nofun) h
  unfold stepLeader at h
  rw [hm, hq] at h
  dsimp only at h
  obtain ⟨r2, h2, h⟩ := Res.bind_eq_ok.1 h
  cases h
  unfold leaderHeartbeatResp at h2
  dsimp only at h2
  rw [if_neg (by rw [hs]; rintro ⟨h, _⟩; cases h)] at h2
  simp only [Res.pure_eq, Res.ok_bind] at h2
  rw [if_pos (by show q.mtch < r.log.lastIndex; rw [hw.lastIndex_eq]; exact hml)] at h2
  obtain ⟨r3, h3, h2⟩ := Res.bind_eq_ok.1 h2
  obtain ⟨x, q', e3, x1, x2, x3, _, _, hx⟩ := probe_sends (r := r.setPr m.src { q with recentActive := true, probeSent := false })
    hw (setPr_self _ _) hs rfl rfl hn hnl h3
  have m3 : r3.msgs = r.msgs ++ [x] := by rw [e3]; rfl
  have hx : (x.type = .app ∧ r.log.view.base < q.next ∧ x.index = q.next - 1 ∧ x.logTerm = r.log.view.termAt (q.next - 1) ∧ x.entries ≠ []) ∨
       (x.type = .snap ∧ q.next ≤ r.log.view.base ∧ x.snapshot = some r.log.snapshot) := by
    rcases hx with ⟨a, b, c, d, e, _⟩ | ⟨a, b, c, _⟩
    · exact Or.inl ⟨a, b, c, d, e⟩
    · exact Or.inr ⟨a, b, c⟩
  split at h2
  · cases h2; exact ⟨x, [], m3, x1, x2, x3, hx⟩
  · split at h2
    · cases h2; exact ⟨x, [], m3, x1, x2, x3, hx⟩
    · obtain ⟨⟨ro, rss⟩, h4, h2⟩ := Res.bind_eq_ok.1 h2
      obtain ⟨_, ms, h5, _⟩ := Flow.respondAll (j := 0) _ h2
      refine ⟨x, ms, ?_, x1, x2, x3, hx⟩
      rw [h5]
      show r3.msgs ++ ms = _
      rw [m3, List.append_assoc]
      rfl

/-- **C79** (retry). After a failed snapshot was reported, the next heartbeat answer of that peer makes the leader send it the
entries that follow what it acknowledged, or a snapshot if they are gone. -/
theorem C79_retry {env : Env} {n n1 n2 : RawNode} {m : Message} {e : Option Err} {p : Progress} (hw : n.raft.log.WF) (hl : n.raft.state = .leader)
    (hp : n.raft.pr m.src = some p) (hs : p.state = .snapshot) (hm : m.type = .heartbeatResp) (ht : m.term = n.raft.term)
    (hml : p.mtch < n.raft.log.view.last) (h1 : n.reportSnapshot env m.src true = .ok n1) (h2 : n1.step env m = .ok (n2, e)) :
    ∃ x ms, n2.raft.msgs = n.raft.msgs ++ x :: ms ∧ x.to = m.src ∧ x.src = n.raft.id ∧ x.term = n.raft.term ∧
      ((x.type = .app ∧ n.raft.log.view.base ≤ p.mtch ∧ x.index = p.mtch ∧ x.logTerm = n.raft.log.view.termAt p.mtch ∧ x.entries ≠ []) ∨
       (x.type = .snap ∧ p.mtch < n.raft.log.view.base ∧ x.snapshot = some n.raft.log.snapshot)) := by
  obtain ⟨q, hq, hpr⟩ := (C79_snapshot env n m.src true).1 p hl hp hs
  rw [hq] at h1
  cases h1
  have hq' : (n.withPr m.src q).raft.pr m.src = some q := AMap.find_insert_self _ _ _
  have hnext : q.next = p.mtch + 1 := by rw [hpr.next]; rfl
  unfold RawNode.step at h2
  rw [if_neg (by rw [hm]; decide), if_pos (Or.inl (by rw [hq']; rfl))] at h2
  unfold RawNode.onRaft at h2
  obtain ⟨⟨r2, e2⟩, h3, h2⟩ := Res.bind_eq_ok.1 h2
  cases h2
  obtain ⟨x, ms, g1, g2, g3, g4, g5⟩ := Raft.resumes (r := (n.withPr m.src q).raft) hw hl hm ht hq' hpr.state (by omega)
    (by show q.next ≤ n.raft.log.view.last; omega) (by show q.mtch < n.raft.log.view.last; rw [hpr.mtch]; exact hml) h3
  refine ⟨x, ms, g1, g2, g3, g4, ?_⟩
  have e1 : (n.withPr m.src q).raft.log = n.raft.log := rfl
  rw [e1, hnext] at g5
  rcases g5 with ⟨a, b, c, d, e⟩ | ⟨a, b, c⟩
  · exact Or.inl ⟨a, by omega, c, d, e⟩
  · exact Or.inr ⟨a, by omega, c⟩

namespace PeersDemo

/-- A disk compacted up to index 5. -/
def disk : Storage :=
  { snapshot := { metadata := { index := 5, term := 1, confState := { voters := [1, 2, 3] } } }, ents := [{ index := 5, term := 1 }], hardState := { term := 1, commit := 5 } }

def node (cs : List Call) : RawNode :=
  match (do let n ← RawNode.new Demo.env (Demo.cfg 1) disk 0; cs.foldlM (fun n c => c.run Demo.env n) n : Res RawNode) with
  | .ok n => n
  | _ => default

/-- Elected in term 2; node 2 answers that it has nothing, and is sent the snapshot. -/
def calls : List Call :=
  [.campaign, .step { type := .voteResp, src := 2, «to» := 1, term := 2 },
   .step { type := .appResp, src := 2, «to» := 1, term := 2, index := 5, reject := true, rejectHint := 0 }]

def beat : Message := { type := .heartbeatResp, src := 2, «to» := 1, term := 2 }

example : (node calls).raft.state = .leader ∧ ((node calls).raft.pr 2).map (fun p => (p.state, p.pendingSnapshot, p.mtch)) = some (.snapshot, 5, 0) ∧
    ((node (calls ++ [.reportSnapshot 2 true])).raft.pr 2).map (fun p => (p.state, p.next, p.probeSent)) = some (.probe, 1, true) ∧
    ((node (calls ++ [.reportSnapshot 2 false])).raft.pr 2).map (fun p => (p.state, p.next, p.probeSent)) = some (.probe, 6, true) ∧
    node (calls ++ [.reportSnapshot 3 true]) = node calls ∧ node (calls ++ [.reportUnreachable 2]) = node calls := by decide +kernel

/-- The heartbeat answer after the failed snapshot: the snapshot is sent again. -/
example : (node calls).raft.log.view.last = 6 ∧ (node calls).raft.log.view.base = 5 ∧
    ((node (calls ++ [.reportSnapshot 2 true, .step beat])).raft.msgs.drop (node calls).raft.msgs.length).map (fun m => (m.type, m.to)) = [(.snap, 2)] ∧
    ((node (calls ++ [.reportSnapshot 2 false, .step beat])).raft.msgs.drop (node calls).raft.msgs.length).map (fun m => (m.type, m.to, m.index, m.entries.length)) =
      [(.app, 2, 5, 1)] := by decide +kernel

/-- Node 2 acknowledged the entry 6 and replicates; it is reported unreachable. -/
example : ((node (calls.take 2 ++ [.step { type := .appResp, src := 2, «to» := 1, term := 2, index := 6 }])).raft.pr 2).map (fun p => (p.state, p.mtch)) = some (.replicate, 6) ∧
    ((node (calls.take 2 ++ [.step { type := .appResp, src := 2, «to» := 1, term := 2, index := 6 }, .propose [1], .reportUnreachable 2])).raft.pr 2).map
      (fun p => (p.state, p.next, p.probeSent)) = some (.probe, 7, false) := by decide +kernel

end PeersDemo
end Craft
