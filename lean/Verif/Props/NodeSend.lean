import Verif.Node.Send
import Verif.Props.NodeLocal

/-! # C54: the sending loop; C09: a probe pauses -/

namespace Craft
open Spec

namespace Raft
variable {env : Env}

/-- On a well-formed log an attempt to send without "send if empty" either does nothing, or sends entries the peer has
not been sent yet. -/
theorem maybeSendAppend_entries {r r' : Raft} {to : Nat} (hw : r.log.WF) (h : r.maybeSendAppend env to false = .ok (r', true)) :
    ∃ pr es e p', r.pr to = some pr ∧ pr.isPaused = false ∧ r.log.view.base < pr.next ∧ pr.next ≤ r.log.view.last ∧
      r.log.entries env pr.next r.maxMsgSize = .ok (.ok es) ∧ es.getLast? = some e ∧ SentPr pr es p' ∧
      r' = { r.setPr to p' with msgs := r.msgs ++ [(r.setPr to p').outMsg
        { type := .app, to := to, index := sub64 pr.next 1, logTerm := r.log.view.termAt (sub64 pr.next 1), entries := es
          commit := r.log.committed }] } := by
  have hent : ∀ pr es, r.log.entries env pr r.maxMsgSize = .ok (.ok es) → es ≠ [] → r.log.view.base < pr ∧ pr ≤ r.log.view.last := by
    intro pr es h hne
    rw [hw.entries_eq] at h
    split at h
    · cases h; exact absurd rfl hne
    split at h
    · cases h
    · omega
  obtain ⟨pr, hp, ⟨_, h1⟩ | ⟨hpa, _, t, es, p', hst, hents, hse, hp', h2⟩ | ⟨hpa, _, hes, _, hwhy, h2⟩⟩ := maybeSendAppend_cases h
  · cases h1
  · have hne : es ≠ [] := fun h => nomatch hse h
    obtain ⟨b1, b2⟩ := hent _ _ hents hne
    cases hl : es.getLast? with
    | none => exact absurd (List.getLast?_eq_none_iff.1 hl) hne
    | some e =>
      rw [hw.term_eq] at hst
      simp only [Res.ok.injEq, Except.ok.injEq] at hst
      exact ⟨pr, es, e, p', hp, hpa, b1, b2, hents, hl, hp', by rw [hst]; exact send_ok h2⟩
  · exfalso
    rcases hwhy with ⟨e, he⟩ | ⟨h, _⟩
    · rw [hw.term_eq] at he; cases he
    · cases h

end Raft

/-- Each round of the loop that goes on puts exactly one message in the outbox: a `MsgApp` to the peer with at least one
entry, and the entries are the log's, from the peer's `Next` on; after it the peer is paused, or its `Next` is past them. -/
theorem C54_round_sends {env : Env} {r r' : Raft} {to : Nat} (hw : r.log.WF) (h : r.maybeSendAppend env to false = .ok (r', true)) :
    ∃ m pr pr', r'.msgs = r.msgs ++ [m] ∧ m.type = .app ∧ m.to = to ∧ r.pr to = some pr ∧ r'.pr to = some pr' ∧ m.entries ≠ [] ∧
      r.log.view.base < pr.next ∧ (∀ i e, m.entries[i]? = some e → r.log.view.entry (pr.next + i) = some e) ∧
      (pr'.isPaused = true ∨ pr'.next = pr.next + m.entries.length) ∧ r'.log = r.log ∧ pr'.mtch = pr.mtch := by
  obtain ⟨pr, es, e, p', hp, hpa, b1, b2, hents, hl, hsent, rfl⟩ := Raft.maybeSendAppend_entries hw h
  have hne : es ≠ [] := by rintro rfl; cases hl
  have hget : ∀ i e, es[i]? = some e → r.log.view.entry (pr.next + i) = some e := by
    intro i e he
    rw [hw.entries_eq, if_neg (by omega), if_neg (by omega)] at hents
    cases hents
    obtain ⟨t, ht⟩ := limitSize_prefix env.entSize (r.log.view.ents.drop (pr.next - r.log.view.base - 1)) r.maxMsgSize
    unfold LogView.entry
    rw [if_neg (by omega)]
    have : (r.log.view.ents.drop (pr.next - r.log.view.base - 1))[i]? = some e := by
      rw [← ht, List.getElem?_append_left (List.getElem?_eq_some_iff.1 he).1]; exact he
    rw [List.getElem?_drop] at this
    rw [← this]
    congr 1
    omega
  refine ⟨_, pr, p', rfl, rfl, rfl, hp, AMap.find_insert_self .., hne, b1, hget, ?_, rfl, ?_⟩
  · rcases hsent with ⟨h, _⟩ | ⟨e', he', ⟨_, infl, _, rfl⟩ | ⟨hs, rfl⟩⟩
    · exact absurd h hne
    · right
      show e'.index + 1 = pr.next + es.length
      have hlen : es[es.length - 1]? = some e' := by rw [← List.getLast?_eq_getElem?]; exact he'
      have hpos : 0 < es.length := List.length_pos_iff.2 hne
      have h1 := hget _ _ hlen
      have h2 := hw.view_wf
      unfold LogView.entry at h1
      rw [if_neg (by omega)] at h1
      have := h2 _ _ h1
      omega
    · left
      unfold Progress.isPaused
      rw [hs]
  · rcases hsent with ⟨h, _⟩ | ⟨e', he', ⟨_, infl, _, rfl⟩ | ⟨hs, rfl⟩⟩
    · exact absurd h hne
    · rfl
    · rfl

/-- `k` rounds of the loop that go on. -/
inductive SendRounds (env : Env) (to : Nat) : Raft → Nat → Raft → Prop
  | stop {r} : SendRounds env to r 0 r
  | round {r r1 r2 k} : r.maybeSendAppend env to false = .ok (r1, true) → SendRounds env to r1 k r2 → SendRounds env to r (k + 1) r2

/-- The loop ends: on every well-formed log and for every peer, at most as many rounds go on as there are entries between
the peer's `Next` and the end of the log. -/
theorem C54_terminates {env : Env} {to : Nat} {r r' : Raft} {k : Nat} (hw : r.log.WF) {pr : Progress} (hp : r.pr to = some pr)
    (h : SendRounds env to r k r') : k ≤ r.log.view.last + 1 - pr.next := by
  induction h generalizing pr with
  | stop => omega
  | round h1 h2 ih =>
    obtain ⟨m, p, p', _, _, _, hp0, hp1, hne, b1, hget, hnext, hlog, _⟩ := C54_round_sends hw h1
    rw [hp] at hp0
    cases hp0
    obtain ⟨_, _, _, _, hq, _, _, b2, _⟩ := Raft.maybeSendAppend_entries hw h1
    rw [hp] at hq
    cases hq
    have hpos : 0 < m.entries.length := List.length_pos_iff.2 hne
    rcases hnext with hpa | hnx
    · cases h2 with
      | stop => omega
      | round h3 _ =>
        exfalso
        obtain ⟨_, _, _, _, hq, hpa', _⟩ := Raft.maybeSendAppend_entries (by rw [hlog]; exact hw) h3
        rw [hp1] at hq
        cases hq
        rw [hpa] at hpa'
        cases hpa'
    · have := ih (by rw [hlog]; exact hw) hp1
      rw [hlog] at this
      omega

/-- So the bound the model puts on the loop is never reached: with any larger bound the outcome is the same, and it is not
the "unbounded loop" outcome. -/
theorem C54_bound_immaterial {env : Env} {to : Nat} {r : Raft} (hw : r.log.WF) {pr : Progress} (hp : r.pr to = some pr) {fuel : Nat}
    (hf : r.log.view.last + 1 - pr.next < fuel) (extra : Nat) : Raft.sendLoop env to (fuel + extra) r = Raft.sendLoop env to fuel r := by
  induction fuel generalizing r pr with
  | zero => omega
  | succ fuel ih =>
    rw [show fuel + 1 + extra = (fuel + extra) + 1 by omega]
    unfold Raft.sendLoop
    cases h1 : r.maybeSendAppend env to false with
    | fatal s => rfl
    | ub s => rfl
    | ok x =>
      obtain ⟨r1, b⟩ := x
      cases b with
      | false => rfl
      | true =>
        simp only [Res.ok_bind, if_true]
        obtain ⟨m, p, p', _, _, _, hp0, hp1, hne, b1, hget, hnext, hlog, _⟩ := C54_round_sends hw h1
        rw [hp] at hp0
        cases hp0
        obtain ⟨_, _, _, _, hq, _, _, b2, _⟩ := Raft.maybeSendAppend_entries hw h1
        rw [hp] at hq
        cases hq
        have hpos : 0 < m.entries.length := List.length_pos_iff.2 hne
        rcases hnext with hpa | hnx
        · have hstop : ∀ f, Raft.sendLoop env to (f + 1) r1 = .ok r1 := by
            intro f
            unfold Raft.sendLoop Raft.maybeSendAppend Raft.getPr
            rw [hp1]
            simp [hpa]
          cases fuel with
          | zero => omega
          | succ fuel => rw [show fuel + 1 + extra = (fuel + extra) + 1 by omega, hstop, hstop]
        · exact ih (by rw [hlog]; exact hw) hp1 (by rw [hlog]; omega)

/-- The loop ends also for a peer that became known a moment ago, in every state of flow control: the fuel in the model
(`lastIndex + 2`) is enough for every `Next`. -/
theorem C54_model_bound {env : Env} {to : Nat} {r : Raft} (hw : r.log.WF) {pr : Progress} (hp : r.pr to = some pr) (extra : Nat) :
    Raft.sendLoop env to (r.log.lastIndex + 2 + extra) r = Raft.sendLoop env to (r.log.lastIndex + 2) r :=
  C54_bound_immaterial hw hp (by rw [hw.lastIndex_eq]; omega) extra

/-- **C09.** A probe that carries entries pauses the peer: nothing more is sent to it until it answers. -/
theorem C09_probe_pauses {env : Env} {r r' : Raft} {to : Nat} {pr : Progress} (hw : r.log.WF) (hp : r.pr to = some pr)
    (hs : pr.state = .probe) (h : r.maybeSendAppend env to false = .ok (r', true)) :
    ∃ pr', r'.pr to = some pr' ∧ pr'.isPaused = true := by
  obtain ⟨p, es, e, p', hp0, hpa, b1, b2, hents, hl, hsent, rfl⟩ := Raft.maybeSendAppend_entries hw h
  rw [hp] at hp0
  cases hp0
  refine ⟨p', AMap.find_insert_self .., ?_⟩
  rcases hsent with ⟨h, _⟩ | ⟨e', he', ⟨h, _⟩ | ⟨_, rfl⟩⟩
  · subst h; cases hl
  · rw [hs] at h; cases h
  · unfold Progress.isPaused; rw [hs]

/-- A leader with three proposals and a peer in replicate state: one round goes on. -/
def sender : RawNode := Demo.node 1 (Demo.elect ++
  [.step { type := .appResp, src := 2, to := 1, term := 1, index := 1 }, .propose [1], .propose [2], .propose [3]])

example : sender.raft.log.lastIndex = 4 ∧ (sender.raft.pr 2).map (·.next) = some 5 ∧ (sender.raft.pr 2).map (·.state) = some .replicate := by
  decide

example : ∃ r', ({ sender.raft with trk := sender.raft.trk.setPr 2 { mtch := 1, next := 2, state := .replicate, inflights := .new 8 } } : Raft).maybeSendAppend
    Demo.env 2 false = .ok (r', true) := by
  exact ⟨_, rfl⟩

end Craft
