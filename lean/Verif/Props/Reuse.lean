import Verif.Model.Reuse
import Verif.Props.Log
import Verif.Node.Send
import Verif.Demo

/-! # C77: handing the same message object to a node again -/

namespace Craft
open Spec

/-- C77 as one would like it: whatever happens to a node after it was handed a message object, handing it the same object again is like
handing it an equal message. -/
def ReuseOK (env : Env) : Prop :=
  ∀ n n1 : RawNode, ∀ m e left, NodeReach env ⟨n, []⟩ → n.stepObject env m = .ok (n1, e, left) →
    ∀ n2, NodeRun env n1 n2 → n2.step env left = n2.step env m

namespace Reuse

/-- A leader (node 1) with entries 1-3 sends the last one ... -/
def m : Message := { type := .app, src := 1, to := 2, term := 1, index := 2, logTerm := 1, entries := [{ index := 3, term := 1, data := [7] }] }
/-- ... and, when that was rejected, the first two. -/
def m' : Message := { type := .app, src := 1, to := 2, term := 1, entries := [{ index := 1, term := 1 }, { index := 2, term := 1 }] }

theorem m_wf : AppWF m := by
  intro _
  refine ⟨fun i e he => ?_, by decide, by decide⟩
  match i with
  | 0 => cases he; rfl
  | _ + 1 => cases he

theorem m'_wf : AppWF m' := by
  intro _
  refine ⟨fun i e he => ?_, by decide, by decide⟩
  match i with
  | 0 => cases he; rfl
  | 1 => cases he; rfl
  | _ + 2 => cases he

/-- Node 2 as new; after the rejected message; after the first two entries; after the same object once more. -/
def n0 : RawNode := Demo.node 2 []
def n1 : RawNode := Demo.node 2 [.step m]
def n2 : RawNode := Demo.node 2 [.step m, .step m']
def n3 : RawNode := Demo.node 2 [.step m, .step m', .step m.drained]

theorem n0_reach : NodeReach Demo.env ⟨n0, []⟩ := .start (Demo.cfg 2) Demo.store 0 (by decide +kernel)

theorem first : n0.stepObject Demo.env m = .ok (n1, none, m.drained) := by decide +kernel
theorem second : (Call.step m').run Demo.env n1 = .ok n2 := by decide +kernel
theorem third : n2.stepObject Demo.env m.drained = .ok (n3, none, m.drained) := by decide +kernel

/-- A leader of three nodes that limits the size of uncommitted proposals to 3 and has one of size 2. -/
def lead (cs : List Call) : RawNode :=
  match (do
    let n ← RawNode.new Demo.env { Demo.cfg 1 with maxUncommittedEntriesSize := 3 } Demo.store 0
    cs.foldlM (fun n c => c.run Demo.env n) n : Res RawNode) with
  | .ok n => n
  | _ => default

/-- A forwarded proposal. -/
def p : Message := { type := .prop, src := 2, to := 1, entries := [{ data := [5, 6] }] }
def vote : Call := .step { type := .voteResp, src := 2, to := 1, term := 1 }

theorem lead_reach : NodeReach Demo.env ⟨lead [.campaign, vote, .propose [1, 2]], []⟩ := by
  have h0 : NodeReach Demo.env ⟨lead [], []⟩ := .start { Demo.cfg 1 with maxUncommittedEntriesSize := 3 } Demo.store 0 (by decide +kernel)
  have h1 : NodeReach Demo.env ⟨lead [.campaign], []⟩ := .step h0 (.call .campaign trivial trivial trivial (by decide +kernel))
  have h2 : NodeReach Demo.env ⟨lead [.campaign, vote], []⟩ := .step h1 (.call vote trivial (fun h => by rcases h with h | h | h <;> cases h) (fun h => by cases h) (by decide +kernel))
  exact .step h2 (.call (.propose [1, 2]) trivial trivial trivial (by decide +kernel))

end Reuse

/-- **C77 is false of the code.** A follower can be made to acknowledge an entry it does not have: it rejected a message at first (and emptied it),
then got the entries before from another message, and is handed the first message object once more. The leader will count the acknowledgement. -/
theorem C77_reuse_false : ∃ env, ¬ ReuseOK env ∧ ∃ n n1 n2 n3 : RawNode, ∃ m m' e e' left left', NodeReach env ⟨n, []⟩ ∧ AppWF m ∧ AppWF m' ∧
    n.stepObject env m = .ok (n1, e, left) ∧ (Call.step m').run env n1 = .ok n2 ∧ n2.stepObject env left = .ok (n3, e', left') ∧
    ∃ ack ∈ n3.raft.msgs, ack.type = .appResp ∧ ack.to = m.src ∧ ack.reject = false ∧ n3.raft.log.lastIndex < ack.index := by
  refine ⟨Demo.env, fun h => ?_, Reuse.n0, Reuse.n1, Reuse.n2, Reuse.n3, Reuse.m, Reuse.m', none, none, Reuse.m.drained, Reuse.m.drained,
    Reuse.n0_reach, ?_, ?_, Reuse.first, Reuse.second, Reuse.third, ?_⟩
  · have k := h Reuse.n0 Reuse.n1 Reuse.m none Reuse.m.drained Reuse.n0_reach Reuse.first Reuse.n2
      (.call (.step Reuse.m') .refl trivial (fun _ => by decide) Reuse.m'_wf Reuse.second)
    exact absurd k (by decide +kernel)
  · exact Reuse.m_wf
  · exact Reuse.m'_wf
  · decide +kernel

/-- A leader refuses a proposal for its size, and accepts the same object when it is handed in again; but the data is gone. -/
theorem C77_retry_false : ∃ env, ∃ n n1 n2 : RawNode, ∃ m left left', NodeReach env ⟨n, []⟩ ∧ m.type = .prop ∧ (∀ e ∈ m.entries, e.data ≠ []) ∧
    n.stepObject env m = .ok (n1, some .proposalDropped, left) ∧ n1.stepObject env left = .ok (n2, none, left') ∧
    ∀ e ∈ n2.raft.log.view.ents, e.data ∉ m.entries.map (·.data) := by
  refine ⟨Demo.env, Reuse.lead [.campaign, Reuse.vote, .propose [1, 2]], Reuse.lead [.campaign, Reuse.vote, .propose [1, 2], .step Reuse.p],
    Reuse.lead [.campaign, Reuse.vote, .propose [1, 2], .step Reuse.p, .step Reuse.p.drained], Reuse.p, Reuse.p.drained, Reuse.p.drained, Reuse.lead_reach, rfl, ?_, ?_, ?_, ?_⟩ <;> decide +kernel

theorem Raft.handlerLeaves_other (r : Raft) {m : Message} (ht : m.type ≠ .app ∧ m.type ≠ .snap ∧ m.type ≠ .prop) : r.handlerLeaves m = m := by
  unfold Raft.handlerLeaves
  cases h : m.type with
  | app => exact absurd h ht.1
  | snap => exact absurd h ht.2.1
  | prop => exact absurd h ht.2.2
  | _ => rfl

/-- C77, what holds: only appends, snapshots and proposals are emptied; a proposal only by a leader. -/
theorem C77_others_partial {env : Env} {n n' : RawNode} {m left : Message} {e : Option Err} (h : n.stepObject env m = .ok (n', e, left))
    (ht : m.type ≠ .app ∧ m.type ≠ .snap ∧ m.type ≠ .prop) : left = m := by
  unfold RawNode.stepObject at h
  obtain ⟨⟨n1, e1⟩, h1, h⟩ := Res.bind_eq_ok.1 h
  cases h
  unfold Raft.stepLeaves
  split
  · next r _ => exact Raft.handlerLeaves_other r ht
  · rfl

/-- A follower notes who sent the append. -/
def Raft.heard (r : Raft) (m : Message) : Raft := { r with electionElapsed := 0, lead := m.src }

theorem RawNode.step_app {env : Env} {n : RawNode} {m : Message} (hty : m.type = .app) (ht : m.term = n.raft.term) (h0 : m.term ≠ 0)
    (hs : n.raft.state = .follower) : n.stepObject env m = ((n.raft.heard m).handleAppendEntries m).bind fun r =>
      .ok ({ n with raft := r }, none, if m.index < n.raft.log.committed then m else m.drained) := by
  have g : n.raft.stepGate env m = .ok (.go n.raft) := by
    unfold Raft.stepGate
    rw [if_neg h0, if_neg (by omega), if_neg (by omega)]
  have k1 : n.raft.stepLeaves env m = if m.index < n.raft.log.committed then m else m.drained := by
    unfold Raft.stepLeaves
    rw [g]
    dsimp only
    unfold Raft.handlerLeaves
    rw [hty, hs]
  have k2 : n.raft.step env m = ((n.raft.heard m).handleAppendEntries m).bind fun r => .ok (r, none) := by
    have e : n.raft.step env m = n.raft.stepBody env m := by
      unfold Raft.step
      rw [g]; rfl
    have e2 : n.raft.stepBody env m = n.raft.stepFollower env m := by
      unfold Raft.stepBody Raft.stepState
      rw [hty, hs]
    rw [e, e2]
    unfold Raft.stepFollower
    rw [hty]; rfl
  unfold RawNode.stepObject RawNode.step
  rw [k1, hty, if_neg (by decide), if_pos (Or.inr (by decide))]
  unfold RawNode.onRaft
  show (((n.raft.step env m).bind _).bind _) = _
  rw [k2]
  cases (n.raft.heard m).handleAppendEntries m <;> rfl

theorem RaftLog.WF.findConflict_drained {l : RaftLog} (h : l.WF) (es : List Entry) : l.findConflict (es.map fun _ => {}) = .ok 0 := by
  rw [h.findConflict_eq]
  cases hf : (es.map fun _ => ({} : Entry)).find? fun e => decide (l.view.termAt e.index ≠ e.term) with
  | none => rfl
  | some e =>
    have := List.mem_of_find?_eq_some hf
    obtain ⟨_, _, rfl⟩ := List.mem_map.1 this
    rfl

theorem RawNode.step_app_ok {env : Env} {n : RawNode} {m a : Message} {k : Nat} (hty : m.type = .app) (ht : m.term = n.raft.term) (h0 : m.term ≠ 0)
    (hs : n.raft.state = .follower) (h : (n.raft.heard m).handleAppendEntries m = .ok { n.raft.heard m with msgs := n.raft.msgs ++ [a] })
    (ha : a.type = .appResp ∧ a.reject = false ∧ a.index ≤ k) :
    ∃ n' left a', n.stepObject env m = .ok (n', none, left) ∧ n'.raft.log = n.raft.log ∧ n'.raft.hardState = n.raft.hardState ∧
      n'.raft.msgs = n.raft.msgs ++ [a'] ∧ a'.type = .appResp ∧ a'.reject = false ∧ a'.index ≤ k := by
  rw [step_app hty ht h0 hs, h]
  exact ⟨_, _, a, rfl, rfl, rfl, rfl, ha⟩

/-- C77, what holds: a follower that took the entries of an append may be handed the emptied object again: nothing changes, and what it acknowledges it has.
Missing: the object was rejected before. -/
theorem C77_accepted_partial {env : Env} {n n' : RawNode} {m left ack : Message} {e : Option Err} (hw : n.raft.log.WF) (hcm : n.raft.log.view.base ≤ n.raft.log.committed) (hm : AppWF m) (hty : m.type = .app)
    (ht : m.term = n.raft.term) (h0 : m.term ≠ 0) (hs : n.raft.state = .follower) (h : n.stepObject env m = .ok (n', e, left))
    (ha : n'.raft.msgs = n.raft.msgs ++ [ack]) (hr : ack.reject = false) :
    ∃ n'' left' ack', n'.stepObject env left = .ok (n'', none, left') ∧ n''.raft.log = n'.raft.log ∧ n''.raft.hardState = n'.raft.hardState ∧
      n''.raft.msgs = n'.raft.msgs ++ [ack'] ∧ ack'.type = .appResp ∧ ack'.reject = false ∧ ack'.index ≤ ack.index := by
  have snd : ∀ (r : Raft) (x : Message), x.type = .appResp → x.term = 0 → r.send x = .ok { r with msgs := r.msgs ++ [r.outMsg x] } := by
    intro r x h1 h2
    cases hx : r.send x with
    | ok r' => rw [Raft.send_ok hx]
    | fatal w => unfold Raft.send at hx; by_cases c : x.src = 0 <;> simp [c, h1, h2] at hx
    | ub w => unfold Raft.send at hx; by_cases c : x.src = 0 <;> simp [c, h1, h2] at hx
  have outT : ∀ (r : Raft) (x : Message), (r.outMsg x).type = x.type ∧ (r.outMsg x).reject = x.reject ∧ (r.outMsg x).index = x.index := by
    intro r x
    unfold Raft.outMsg
    by_cases c : x.src = 0
    · simp only [c, if_true]; split <;> exact ⟨rfl, rfl, rfl⟩
    · simp only [c, if_false]; split <;> exact ⟨rfl, rfl, rfl⟩
  obtain ⟨hc, hts, hz⟩ := hm hty
  rw [RawNode.step_app hty ht h0 hs] at h
  obtain ⟨r1, h1, h⟩ := Res.bind_eq_ok.1 h
  cases h
  -- a second answer at once
  have quick : ∀ (r : Raft) (x : Message), r.log.committed > x.index → r.handleAppendEntries x =
      .ok { r with msgs := r.msgs ++ [r.outMsg { type := .appResp, to := x.src, index := r.log.committed }] } := by
    intro r x hx
    unfold Raft.handleAppendEntries
    rw [if_pos hx, snd _ _ rfl rfl]
  have slow : ∀ (r : Raft) (x : Message) (last : Nat), ¬ x.index < r.log.committed → r.log.maybeAppend x.index x.logTerm x.commit x.entries = .ok (r.log, some last) →
      r.handleAppendEntries x = .ok { r with msgs := r.msgs ++ [r.outMsg { type := .appResp, to := x.src, index := last }] } := by
    intro r x last hx hl
    unfold Raft.handleAppendEntries
    rw [if_neg hx, hl]
    exact snd r { type := .appResp, to := x.src, index := last } rfl rfl
  by_cases c : m.index < n.raft.log.committed
  · rw [quick (n.raft.heard m) _ c] at h1
    cases h1
    rw [if_pos c]
    have hk : (n.raft.heard m).outMsg { type := .appResp, to := m.src, index := (n.raft.heard m).log.committed } = ack :=
      (List.cons.inj (List.append_cancel_left ha)).1
    refine RawNode.step_app_ok hty ht h0 hs (quick (Raft.heard _ m) _ c) ?_
    rw [← hk, (outT _ _).1, (outT _ _).2.1, (outT _ _).2.2, (outT _ _).2.2]
    exact ⟨rfl, rfl, Nat.le_refl _⟩
  rw [if_neg c]
  unfold Raft.handleAppendEntries at h1
  rw [show (n.raft.heard m).log = n.raft.log from rfl, if_neg c] at h1
  obtain ⟨⟨l, res⟩, h2, h1⟩ := Res.bind_eq_ok.1 h1
  have hb : n.raft.log.view.base ≤ m.index := Nat.le_trans hcm (Nat.le_of_not_lt c)
  have hi : m.index ≤ n.raft.log.view.last ∨ m.logTerm ≠ 0 := by
    by_cases k : m.logTerm = 0
    · rw [hz k]; exact Or.inl (Nat.zero_le _)
    · exact Or.inr k
  obtain ⟨q1, q2, q3⟩ := C21_maybeAppend hw hb hi hc hts h2
  cases res with
  | none =>
    dsimp only at h1
    obtain ⟨x1, _, h1⟩ := Res.bind_eq_ok.1 h1
    obtain ⟨x2, _, h1⟩ := Res.bind_eq_ok.1 h1
    obtain ⟨x3, _, h1⟩ := Res.bind_eq_ok.1 h1
    obtain ⟨x4, _, h1⟩ := Res.bind_eq_ok.1 h1
    split at h1
    · cases h1
    · rw [snd _ _ rfl rfl] at h1
      cases h1
      have hk := (List.cons.inj (List.append_cancel_left ha)).1
      rw [← hk, (outT _ _).2.1] at hr
      cases hr
  | some last =>
    dsimp only at h1
    rw [snd _ _ rfl rfl] at h1
    cases h1
    have hk := (List.cons.inj (List.append_cancel_left ha)).1
    obtain ⟨w1, w2, w3, w4, w5, w6, w7, w8⟩ := q3 last rfl
    have hidx : ack.index = last := by rw [← hk, (outT _ _).2.2]
    by_cases c2 : m.index < l.committed
    · refine RawNode.step_app_ok (m := m.drained) hty ht h0 hs (quick (Raft.heard _ m.drained) _ c2) ?_
      rw [(outT _ _).1, (outT _ _).2.1, (outT _ _).2.2, hidx]
      refine ⟨rfl, rfl, ?_⟩
      show l.committed ≤ last
      omega
    · have e2 : l.maybeAppend m.index m.logTerm m.commit (m.entries.map fun _ => {}) = .ok (l, some last) := by
        have hmt : l.view.termAt m.index = m.logTerm := by
          obtain ⟨k1, k2⟩ := q1.1 rfl
          rcases RaftLog.WF.maybeAppend_match (c := m.commit) hw hb k1 k2 hc hts with ⟨_, _, k⟩ | ⟨j, e, j1, j2, j3, j4, j5, k⟩
          · rw [k] at h2
            cases h2
            exact k2
          · rw [k] at h2
            split at h2
            · cases h2
            cases h2
            have hj : m.index + 1 + j ≤ n.raft.log.view.last + 1 := by omega
            have hv := (hw.appended (k := m.index + 1 + j) (es := m.entries.drop j) (fun i x hx => by
              rw [List.getElem?_drop] at hx
              have := hc _ _ hx
              omega) (fun hn => by
                have := congrArg List.length hn
                rw [List.length_drop] at this
                have := (List.getElem?_eq_some_iff.1 j1).1
                simp at *
                omega) (by omega) hj).2
            show (n.raft.log.appended (m.index + 1 + j) (m.entries.drop j)).view.termAt m.index = m.logTerm
            rw [hv]
            rw [← k2]
            unfold LogView.termAt
            rw [LogView.splice_base, LogView.splice_entry_lt (by omega) hj]
            rfl
        unfold RaftLog.maybeAppend
        rw [w2.matchTerm_eq, hmt, decide_eq_true rfl, w2.findConflict_drained]
        simp only [Res.ok_bind, if_true, Res.pure_eq, List.length_map]
        rw [w2.commitTo_eq, if_neg (by omega), ← w1]
        rfl
      refine RawNode.step_app_ok (m := m.drained) hty ht h0 hs (slow (Raft.heard _ m.drained) m.drained last c2 e2) ?_
      rw [(outT _ _).1, (outT _ _).2.1, (outT _ _).2.2, hidx]
      exact ⟨rfl, rfl, Nat.le_refl _⟩

/-- Node 2 is handed the first two entries twice, in the same object. -/
example : ∃ n' left ack, Reuse.n1.raft.log.WF ∧ Reuse.n1.stepObject Demo.env Reuse.m' = .ok (n', none, left) ∧ left = Reuse.m'.drained ∧
    n'.raft.msgs = Reuse.n1.raft.msgs ++ [ack] ∧ ack.reject = false ∧ n'.raft.log.lastIndex = 2 := by
  refine ⟨Reuse.n2, Reuse.m'.drained, { type := .appResp, src := 2, «to» := 1, term := 1, index := 2 }, ?_, by decide +kernel, rfl, by decide +kernel, rfl, by decide +kernel⟩
  have hl : Reuse.n1.raft.log.unstable = { offset := 1 } ∧ Reuse.n1.raft.log.storage = Demo.store := by decide +kernel
  refine ⟨?_, ?_, ?_, ?_, ?_⟩
  · rw [hl.2]
    refine ⟨by decide, fun i e he => ?_⟩
    match i with
    | 0 => cases he; rfl
    | _ + 1 => cases he
  · rw [hl.1]; intro i e he; cases he
  · rw [hl.1]; intro x hx; cases hx
  · rw [hl.1, hl.2]; intro _; decide
  · rw [hl.1, hl.2]; intro _ _; decide

end Craft
