import Verif.Safe.Basic
import Verif.Node.Append

/-! # A leader's handlers return -/

namespace Craft
open Spec

/-- The log part is kept by every step of the log that leaves the storage alone. -/
theorem LSafe.next {l l' : RaftLog} (h : LSafe l) (hi : LInv l') (he : LEffect l l') (hs : l'.storage = l.storage) : LSafe l' := by
  refine ⟨hi, ?_, by rw [hs]; exact h.tidy⟩
  by_cases hb : l'.view.base ≤ 0
  · rw [he.keepTerm 0 (Nat.zero_le _) hb]; exact h.zero
  · exact LogView.termAt_out (Or.inl (by omega))

namespace Raft
variable {K : Around} {env : Env} {r r' : Raft}

theorem sendAppend_safe {to : Nat} {p : Progress} (h : Safe K env r) (hl : r.state = .leader) (hp : r.pr to = some p)
    (hto : to ≠ r.id) : (r.sendAppend env to).Sat (Sends K env r) := by
  unfold sendAppend
  exact (maybeSendAppend_safe h hl hp hto).bind fun x hx => .pure hx

theorem sendLoop_safe {to : Nat} (fuel : Nat) {r : Raft} {p : Progress} (h : Safe K env r) (hl : r.state = .leader) (hp : r.pr to = some p)
    (hto : to ≠ r.id) (hf : r.log.view.last + 1 - p.next < fuel) : (sendLoop env to fuel r).Sat (Sends K env r) := by
  induction fuel generalizing r p with
  | zero => omega
  | succ fuel ih =>
    have hw := h.log.linv.wf
    obtain ⟨⟨r1, b⟩, h1, h2⟩ := maybeSendAppend_safe (env := env) (sie := false) h hl hp hto
    unfold sendLoop
    rw [h1]
    simp only [Res.ok_bind]
    cases b with
    | false => exact .pure h2
    | true =>
      simp only [if_true]
      have h2 : Sends K env r r1 := h2
      obtain ⟨m, q, q', _, _, _, hp0, hp1, hne, b1, hget, hnext, hlog, _⟩ := C54_round_sends hw h1
      rw [hp] at hp0
      cases hp0
      obtain ⟨_, _, _, _, hq, _, _, b2, _⟩ := Raft.maybeSendAppend_entries hw h1
      rw [hp] at hq
      cases hq
      have hpos : 0 < m.entries.length := List.length_pos_iff.2 hne
      rcases hnext with hpa | hnx
      · cases fuel with
        | zero => omega
        | succ fuel =>
          refine .of_eq (a := r1) ?_ h2
          unfold Raft.sendLoop Raft.maybeSendAppend Raft.getPr
          rw [hp1]
          simp [hpa]
      · exact (ih h2.1 (h2.2.state.trans hl) hp1 (by rw [h2.2.id]; exact hto) (by rw [hlog]; omega)).mono fun _ hh => h2.trans hh

theorem sendHeartbeat_safe {to : Nat} {ctx : Bytes} {p : Progress} (h : Safe K env r) (hp : r.pr to = some p) (hto : to ≠ r.id) :
    (r.sendHeartbeat to ctx).Sat (Sends K env r) := by
  unfold sendHeartbeat
  rw [getPr_eq hp]
  simp only [Res.ok_bind]
  refine send_safe h (by simp [TermRule]) ?_
  unfold outMsg NetOk
  exact fun he => hto he.symm

theorem visitOthers_safe {f : Raft → Nat → Res Raft}
    (hf : ∀ {r : Raft} {id : Nat} {p : Progress}, Safe K env r → r.state = .leader → r.pr id = some p → id ≠ r.id → (f r id).Sat (Sends K env r))
    (ids : List Nat) {r : Raft} (h : Safe K env r) (hl : r.state = .leader) (hk : ∀ id ∈ ids, (r.pr id).isSome = true) :
    (visitOthers f ids r).Sat (Sends K env r) := by
  induction ids generalizing r with
  | nil => exact .ok (.refl h)
  | cons id ids ih =>
    unfold visitOthers
    by_cases c : id = r.id
    · rw [if_pos c]; exact ih h hl fun k hk' => hk k (List.mem_cons_of_mem _ hk')
    rw [if_neg c]
    obtain ⟨p, hp⟩ := Option.isSome_iff_exists.1 (hk id List.mem_cons_self)
    refine (hf h hl hp c).bind fun r1 h1 => ?_
    exact (ih h1.1 (h1.2.state.trans hl) fun k hk' => by rw [h1.2.peers]; exact hk k (List.mem_cons_of_mem _ hk')).mono
      fun _ hh => h1.trans hh

theorem keys_peers (r : Raft) : ∀ id ∈ r.trk.progress.keys, (r.pr id).isSome = true := by
  intro id hid
  unfold pr
  exact (AMap.find_isSome_iff _ _).2 hid

theorem bcastAppend_safe (h : Safe K env r) (hl : r.state = .leader) : (r.bcastAppend env).Sat (Sends K env r) :=
  visitOthers_safe (fun h hl hp hto => sendAppend_safe h hl hp hto) _ h hl r.keys_peers

theorem bcastHeartbeatWithCtx_safe {ctx : Bytes} (h : Safe K env r) (hl : r.state = .leader) :
    (r.bcastHeartbeatWithCtx ctx).Sat (Sends K env r) :=
  visitOthers_safe (fun h _ hp hto => sendHeartbeat_safe h hp hto) _ h hl r.keys_peers

theorem reqCtx_eq {m : Message} {s : String} (h : m.entries ≠ []) : ReadOnly.reqCtx m s = .ok (m.entries.headD {}).data := by
  obtain ⟨e, es, he⟩ := List.exists_cons_of_ne_nil h
  unfold ReadOnly.reqCtx
  rw [he]
  rfl

theorem respondReadIndex_safe {m : Message} {i : Nat} (h : Safe K env r) (hm : m.entries ≠ []) :
    (r.respondReadIndex m i).Sat (Sends K env r) := by
  unfold respondReadIndex responseToReadIndexReq
  by_cases c : m.src = 0 ∨ m.src = r.id
  · rw [if_pos c, reqCtx_eq hm]
    exact .pure ⟨⟨h.log, h.id, h.self, h.tpos, h.infl, h.next, h.ro, h.pend, h.lead, h.out⟩, ⟨rfl, rfl, rfl, rfl, rfl, rfl, fun _ => rfl⟩⟩
  · rw [if_neg c]
    simp only [Res.ok_bind]
    rw [if_pos (fun h => c (Or.inl h))]
    refine send_safe h (by simp [TermRule]) ?_
    unfold outMsg NetOk
    trivial

/-- What the functions that answer reads promise: as the sending functions, and the pending reads are only forgotten. -/
theorem sendMsgReadIndexResponse_safe {m : Message} (h : Safe K env r) (hl : r.state = .leader) (hm : m.entries ≠ []) :
    (r.sendMsgReadIndexResponse m).Sat (Sends K env r) := by
  unfold sendMsgReadIndexResponse
  cases r.readOnly.option with
  | leaseBased => exact respondReadIndex_safe h hm
  | safe =>
    obtain ⟨ro, h1, h2, _⟩ := h.ro.add (i := r.log.committed) hm
    dsimp only
    rw [h1, reqCtx_eq hm]
    simp only [Res.ok_bind]
    have h3 := (h2.ack r.id (m.entries.headD {}).data).1
    generalize (ro.recvAck r.id (m.entries.headD {}).data).1 = ro2 at h3
    have h4 : Safe K env { r with readOnly := ro2 } :=
      ⟨h.log, h.id, h.self, h.tpos, h.infl, h.next, h3, h.pend, h.lead, h.out⟩
    exact (bcastHeartbeatWithCtx_safe h4 hl).mono fun _ hh =>
      ⟨hh.1, Same.trans (b := { r with readOnly := ro2 }) ⟨rfl, rfl, rfl, rfl, rfl, rfl, fun _ => rfl⟩ hh.2⟩

theorem releaseLoop_safe (ms : List Message) {r : Raft} (h : Safe K env r) (hl : r.state = .leader) (hm : ∀ m ∈ ms, m.entries ≠ []) :
    (releaseLoop ms r).Sat (Sends K env r) := by
  induction ms generalizing r with
  | nil => exact .ok (.refl h)
  | cons m ms ih =>
    unfold releaseLoop
    refine (sendMsgReadIndexResponse_safe h hl (hm m List.mem_cons_self)).bind fun r1 h1 => ?_
    exact (ih h1.1 (h1.2.state.trans hl) fun x hx => hm x (List.mem_cons_of_mem _ hx)).mono fun _ hh => h1.trans hh

theorem committedEntry_eq (h : Safe K env r) :
    r.committedEntryInCurrentTerm = .ok (decide (r.log.view.termAt r.log.committed = r.term)) := by
  unfold committedEntryInCurrentTerm
  rw [h.log.linv.wf.term_eq]
  rfl

theorem releasePending_safe (h : Safe K env r) (hl : r.state = .leader) :
    (r.releasePendingReadIndexMessages).Sat (Sends K env r) := by
  unfold releasePendingReadIndexMessages
  rw [committedEntry_eq h]
  simp only [Res.ok_bind]
  split
  · exact .pure (.refl h)
  · have h4 : Safe K env { r with pendingReadIndexMessages := [] } :=
      ⟨h.log, h.id, h.self, h.tpos, h.infl, h.next, h.ro, (fun _ hx => nomatch hx), h.lead, h.out⟩
    exact (releaseLoop_safe _ h4 hl h.pend).mono fun _ hh =>
      ⟨hh.1, Same.trans (b := { r with pendingReadIndexMessages := [] }) ⟨rfl, rfl, rfl, rfl, rfl, rfl, fun _ => rfl⟩ hh.2⟩

theorem sendTimeoutNow_safe {to : Nat} (h : Safe K env r) : (r.sendTimeoutNow to).Sat (Sends K env r) := by
  refine send_safe h (by simp [TermRule]) ?_
  unfold outMsg NetOk
  trivial

theorem respondAll_safe (rss : List ReadIndexStatus) {r : Raft} (h : Safe K env r) (hm : ∀ s ∈ rss, s.req.entries ≠ []) :
    (respondAll rss r).Sat (Sends K env r) := by
  induction rss generalizing r with
  | nil => exact .ok (.refl h)
  | cons m ms ih =>
    unfold respondAll
    refine (respondReadIndex_safe h (hm m List.mem_cons_self)).bind fun r1 h1 => ?_
    exact (ih h1.1 fun x hx => hm x (List.mem_cons_of_mem _ hx)).mono fun _ hh => h1.trans hh

theorem leaderReadIndex_safe {m : Message} (h : Safe K env r) (hl : r.state = .leader) (hm : m.entries ≠ []) :
    (r.leaderReadIndex m).Sat (Sends K env r) := by
  unfold leaderReadIndex
  by_cases c : r.trk.isSingleton = true
  · rw [if_pos c]; exact respondReadIndex_safe h hm
  rw [if_neg c, committedEntry_eq h]
  simp only [Res.ok_bind]
  split
  · refine .pure ⟨⟨h.log, h.id, h.self, h.tpos, h.infl, h.next, h.ro, ?_, h.lead, h.out⟩, ⟨rfl, rfl, rfl, rfl, rfl, rfl, fun _ => rfl⟩⟩
    intro x hx
    rcases List.mem_append.1 hx with hx | hx
    · exact h.pend x hx
    · rw [List.mem_singleton.1 hx]; exact hm
  · exact sendMsgReadIndexResponse_safe h hl hm

end Raft
end Craft
