import Verif.Node.ReadIndex
import Verif.Spec.Lease

/-! # Lease-based reads: the invariant -/

namespace Craft.LeaseInv
open Spec Cluster

/-- A request context, and which indexes are good answers by a leader of a term. -/
structure LMark where
  x : Bytes
  Good : Nat → Nat → Prop
  mono : ∀ T T' i, T' ≤ T → Good T i → Good T' i

variable (K : LMark)

/-- The answer `i` to a request with context `y`. -/
def Fair (asked : List (Nat × Nat × Bytes)) (y : Bytes) (i : Nat) : Prop := ∃ q T, (q, T, y) ∈ asked ∧ (y = K.x → K.Good T i)

/-- What is known about a message. -/
def MsgLI (asked : List (Nat × Nat × Bytes)) (m : Message) : Prop :=
  match m.type with
  | .readIndex => m.term = 0
  | .readIndexResp => ∀ e es, m.entries = e :: es → Fair K asked e.data m.index
  | _ => True

/-- What is known about the reads of node `p` in term `T`. -/
structure LI (asked : List (Nat × Nat × Bytes)) (p T : Nat) (rd : Reads) (msgs : List Message) : Prop where
  ro : rd.ro = { option := .leaseBased }
  wait : ∀ m ∈ rd.waiting, ∃ T', T' ≤ T ∧ (p, T', askCtx m) ∈ asked
  states : ∀ st ∈ rd.states, Fair K asked st.requestCtx st.index
  msgs : ∀ m ∈ msgs, MsgLI K asked m

/-- What the protocol says about the core of a node. -/
structure LFacts (p : Nat) (c : Core) : Prop where
  id : c.id = p
  good : c.state = .leader → InTerm c → K.Good c.term c.log.committed

variable {K} {p T : Nat} {rd : Reads} {c c' : Core} {asked asked' : List (Nat × Nat × Bytes)} {msgs : List Message} {env : Env} {im : Message}

theorem Fair.mono {y : Bytes} {i : Nat} (h : Fair K asked y i) (ha : ∀ y ∈ asked, y ∈ asked') : Fair K asked' y i := by
  obtain ⟨q, T, h1, h2⟩ := h
  exact ⟨q, T, ha _ h1, h2⟩

theorem MsgLI.mono {m : Message} (h : MsgLI K asked m) (ha : ∀ y ∈ asked, y ∈ asked') : MsgLI K asked' m := by
  unfold MsgLI at h ⊢
  split
  · next ht => rw [ht] at h; exact h
  · next ht => rw [ht] at h; exact fun e es he => (h e es he).mono ha
  · trivial

theorem LI.mono {T' : Nat} (h : LI K asked p T rd msgs) (ha : ∀ y ∈ asked, y ∈ asked') (ht : T ≤ T') : LI K asked' p T' rd msgs := by
  refine ⟨h.ro, fun m hm => ?_, fun st hst => (h.states st hst).mono ha, fun m hm => (h.msgs m hm).mono ha⟩
  obtain ⟨T1, h1, h2⟩ := h.wait m hm
  exact ⟨T1, by omega, ha _ h2⟩

theorem LI.reset {T' : Nat} (h : LI K asked p T rd msgs) (ht : T ≤ T') : LI K asked p T' rd.reset msgs := by
  have h' := h.mono (fun _ hy => hy) ht
  refine ⟨?_, h'.wait, h'.states, h'.msgs⟩
  show ({ option := rd.ro.option } : ReadOnly) = _
  rw [h.ro]

theorem LI.send {ms : List Message} (h : LI K asked p T rd msgs) (hm : ∀ m ∈ ms, MsgLI K asked m) : LI K asked p T rd (msgs ++ ms) :=
  ⟨h.ro, h.wait, h.states, fun m hx => (List.mem_append.1 hx).elim (h.msgs m) (hm m)⟩

theorem LI.skip {m : Message} {ws : List Message} (h : LI K asked p T rd msgs) (hw : rd.waiting = m :: ws) :
    LI K asked p T { rd with waiting := ws } msgs :=
  ⟨h.ro, fun x hx => h.wait x (by rw [hw]; exact List.mem_cons_of_mem _ hx), h.states, h.msgs⟩

theorem LI.state {st : ReadState} (h : LI K asked p T rd msgs) (hs : Fair K asked st.requestCtx st.index) :
    LI K asked p T { rd with states := rd.states ++ [st] } msgs := by
  refine ⟨h.ro, h.wait, fun x hx => ?_, h.msgs⟩
  rcases List.mem_append.1 hx with hx | hx
  · exact h.states x hx
  · rw [List.mem_singleton] at hx; subst hx; exact hs

theorem not_confirmed (h : c.reads.ro = { option := .leaseBased }) {st : ReadIndexStatus} : ¬ Confirmed c st := by
  rintro ⟨ctx, x, rss, h1, _⟩
  rw [h] at h1
  cases h1

theorem answer_fair (h : LI K asked p c.term c.reads msgs) (hf : LFacts K p c) (hl : c.state = .leader)
    (him : im.type = .readIndex → (p, c.term, askCtx im) ∈ asked)
    (hone : im.type = .readIndex → c.config.voters.incoming.length = 1 → c.config.voters.outgoing.length = 0 → K.Good c.term c.log.committed)
    {req : Message} {i : Nat} (ha : Answer im c req i) {e : Entry} {es : List Entry} (he : req.entries = e :: es) :
    Fair K asked e.data i := by
  have hctx : askCtx req = e.data := by rw [askCtx, he]; rfl
  rcases ha with ⟨st, hc, _⟩ | ⟨rfl, ⟨⟨s1, s2⟩, ht, rfl⟩ | ⟨_, hi, ⟨ht, rfl⟩ | hw⟩⟩
  · exact absurd hc (not_confirmed h.ro)
  · exact ⟨p, c.term, hctx ▸ him ht, fun _ => hone ht s1 s2⟩
  · exact ⟨p, c.term, hctx ▸ him ht, fun _ => hf.good hl hi⟩
  · obtain ⟨T', h1, h2⟩ := h.wait _ hw
    exact ⟨p, T', hctx ▸ h2, fun _ => K.mono _ _ _ h1 (hf.good hl hi)⟩

theorem emit_li (hf : LFacts K p c) (h : LI K asked p c.term c.reads msgs) (hty : im.type ≠ .readIndex) {m : Message}
    (he : Emit env im c m) : MsgLI K asked m := by
  unfold MsgLI
  unfold Emit at he
  split
  · next ht => rw [ht] at he; exact he.2.1
  · next ht =>
    rw [ht] at he
    obtain ⟨_, _, hl, req, h1, _, h3⟩ := he
    intro e es hm
    exact answer_fair h hf hl (fun hh => absurd hh hty) (fun hh => absurd hh hty) h3 (h1 ▸ hm)
  · trivial

theorem step_li (hf : LFacts K p c) (h : LI K asked p c.term c.reads msgs) (him : MsgLI K asked im) (hty : im.type ≠ .readIndex)
    {ms : List Message} (hs : CStep env im c ms c') : LI K asked p c'.term c'.reads (msgs ++ ms) := by
  have hsafe : c.reads.ro.option ≠ .safe := by rw [h.ro]; exact (nomatch ·)
  cases hs with
  | emit he =>
    refine h.send fun m hm => ?_
    rw [List.mem_singleton] at hm
    subst hm
    exact emit_li hf h hty he
  | prs P hP => rw [List.append_nil]; exact h
  | follower T P hT hP => rw [List.append_nil]; exact h.reset (by dsimp only; omega)
  | candidate P h1 h2 hP => rw [List.append_nil]; exact h.reset (by dsimp only; omega)
  | preCandidate h1 h2 => rw [List.append_nil]; exact h
  | pollSelf h1 => rw [List.append_nil]; exact h
  | pollResp h1 h2 => rw [List.append_nil]; exact h
  | leader P h1 h2 hP => rw [List.append_nil]; exact h.reset (Nat.le_refl _)
  | append es l pr pci h1 h2 h3 => rw [List.append_nil]; exact h
  | pciUp n h1 h2 => rw [List.append_nil]; exact h
  | commit l h1 h2 => rw [List.append_nil]; exact h
  | ackRecv pr pr' h1 h2 h3 h4 h5 => rw [List.append_nil]; exact h
  | grant h1 h2 h3 h4 h5 =>
    refine LI.send h fun m hm => ?_
    rw [List.mem_singleton] at hm; subst hm; exact trivial
  | recvApp l last h1 h2 h3 h4 h5 =>
    refine LI.send h fun m hm => ?_
    rw [List.mem_singleton] at hm; subst hm; exact trivial
  | recvHeartbeat l h1 h2 h3 h4 =>
    refine LI.send h fun m hm => ?_
    rw [List.mem_singleton] at hm; subst hm; exact trivial
  | recvSnapCommit l h1 h2 h3 h4 h5 h6 => rw [List.append_nil]; exact h
  | recvSnap cfg P0 pr mi h1 h2 h3 h4 h5 h6 h7 => rw [List.append_nil]; exact h
  | readWait h1 h2 => exact absurd h2 hty
  | readTake ro e es h1 h2 => exact absurd h2 hty
  | readNext m ws ro e es h1 h2 h3 => exact absurd h3 hsafe
  | readSkip m ws h1 h2 => rw [List.append_nil]; exact h.skip h2
  | readState req i e es h1 h2 h3 =>
    rw [List.append_nil]
    exact h.state (st := ⟨i, e.data⟩) (answer_fair h hf h1 (fun hh => absurd hh hty) (fun hh => absurd hh hty) h2 h3)
  | readAck h1 h2 h3 h4 h5 => exact absurd h4 hsafe
  | readAdvance ctx ro rss h1 h2 =>
    rw [List.append_nil]
    refine ⟨?_, h.wait, h.states, h.msgs⟩
    have h2' := h2
    rw [h.ro] at h2'
    have e : (ro, rss) = (({ option := .leaseBased } : ReadOnly), []) := (Res.ok.inj h2').symm
    cases e
    rfl
  | readResp e h1 h2 h3 =>
    rw [List.append_nil]
    unfold MsgLI at him
    rw [h2] at him
    exact h.state (st := ⟨im.index, e.data⟩) (him e [] h3)

/-- A whole call. -/
theorem path_li {ms : List Message} (hp : CPath env im c ms c') (hf : ∀ c1 ms1, CPath env im c ms1 c1 → LFacts K p c1)
    (h : LI K asked p c.term c.reads msgs) (him : MsgLI K asked im) (hty : im.type ≠ .readIndex) :
    LI K asked p c'.term c'.reads (msgs ++ ms) := by
  induction hp generalizing msgs with
  | nil => rw [List.append_nil]; exact h
  | cons hs _ ih =>
    rw [← List.append_assoc]
    exact ih (fun c1 ms1 h1 => hf c1 _ (.cons hs h1)) (step_li (hf _ _ .nil) h him hty hs)

/-- A read request is handed to the node. -/
theorem readOut_li (hf : LFacts K p c) (h : LI K asked p c.term c.reads msgs) (ht : im.type = .readIndex)
    (hone : c.state = .leader → c.config.voters.incoming.length = 1 → c.config.voters.outgoing.length = 0 → K.Good c.term c.log.committed)
    {ms : List Message} (ho : ReadOut env im c ms c') (hask : asked' = asked ++ if c.state = .leader then [(p, c.term, askCtx im)] else []) :
    LI K asked' p c'.term c'.reads (msgs ++ ms) := by
  have hsub : ∀ y ∈ asked, y ∈ asked' := fun y hy => by rw [hask]; exact List.mem_append_left _ hy
  have h' := h.mono hsub (Nat.le_refl _)
  have hin : c.state = .leader → (p, c.term, askCtx im) ∈ asked' := fun hl => by rw [hask, if_pos hl]; simp
  cases ho with
  | drop h1 => rw [List.append_nil]; exact h'
  | forward f h1 h2 h3 h4 =>
    refine h'.send fun m hm => ?_
    rw [List.mem_singleton] at hm
    subst hm
    unfold MsgLI
    rw [h2]
    exact h3
  | wait h1 =>
    rw [List.append_nil]
    refine ⟨h'.ro, fun m hm => ?_, h'.states, h'.msgs⟩
    rcases List.mem_append.1 hm with hm | hm
    · exact h'.wait m hm
    · rw [List.mem_singleton] at hm
      subst hm
      exact ⟨c.term, Nat.le_refl _, hin h1⟩
  | take ro e es ms h1 h2 => rw [h.ro] at h2; cases h2
  | answer e es h1 h2 h3 =>
    rw [List.append_nil]
    exact h'.state (st := ⟨c.log.committed, e.data⟩) (answer_fair h' hf h1 (fun _ => hin h1) (fun _ => hone h1) h2 h3)
  | reply f h1 h2 h3 h4 h5 =>
    refine h'.send fun m hm => ?_
    rw [List.mem_singleton] at hm
    subst hm
    unfold MsgLI
    rw [h2]
    intro e es he
    rw [h4]
    exact answer_fair h' hf h1 (fun _ => hin h1) (fun _ => hone h1) h5 (h3 ▸ he)
  | lost h1 => rw [List.append_nil]; exact h'

/-! ## Several nodes -/

/-- The invariant: about the nodes, and about everything that was sent. -/
structure LNet (K : LMark) (asked : List (Nat × Nat × Bytes)) (net : List Message) (up : Nat → Option Raft) : Prop where
  sent : ∀ m ∈ net, MsgLI K asked m
  proc : ∀ p r, up p = some r → LI K asked p r.term r.reads r.msgs

variable {up up' : Nat → Option Raft} {net : List Message}

/-- One process changed, some of its messages sent. -/
theorem LNet.send (h : LNet K asked net up) {ms : List Message} (ha : ∀ y ∈ asked, y ∈ asked') (hms : ∀ m ∈ ms, MsgLI K asked' m)
    (ho : ∀ q, q ≠ p → up' q = up q) (hx : ∀ r, up' p = some r → LI K asked' p r.term r.reads r.msgs) : LNet K asked' (net ++ ms) up' := by
  refine ⟨fun m hm => (List.mem_append.1 hm).elim (fun hm => (h.sent m hm).mono ha) (hms m), fun q r hq => ?_⟩
  by_cases he : q = p
  · subst he; exact hx r hq
  · rw [ho q he] at hq
    exact (h.proc q r hq).mono ha (Nat.le_refl _)

/-- Nothing is known about a context that nobody used. -/
theorem Fair.remark {K K' : LMark} {y : Bytes} {i : Nat} (h : Fair K asked y i) (hx : ∀ p T, (p, T, K'.x) ∉ asked) : Fair K' asked y i := by
  obtain ⟨q, T, h1, _⟩ := h
  exact ⟨q, T, h1, fun he => absurd (he ▸ h1) (hx q T)⟩

theorem MsgLI.remark {K K' : LMark} {m : Message} (h : MsgLI K asked m) (hx : ∀ p T, (p, T, K'.x) ∉ asked) : MsgLI K' asked m := by
  unfold MsgLI at h ⊢
  split
  · next ht => rw [ht] at h; exact h
  · next ht => rw [ht] at h; exact fun e es he => (h e es he).remark hx
  · trivial

theorem LNet.remark {K K' : LMark} (h : LNet K asked net up) (hx : ∀ p T, (p, T, K'.x) ∉ asked) : LNet K' asked net up :=
  ⟨fun m hm => (h.sent m hm).remark hx, fun p r hr =>
    have hp := h.proc p r hr
    ⟨hp.ro, hp.wait, fun st hst => (hp.states st hst).remark hx, fun m hm => (hp.msgs m hm).remark hx⟩⟩

/-- A node that was just started. -/
theorem LI.start (hs : rd = { ro := { option := .leaseBased }, states := [], waiting := [] }) : LI K asked p T rd [] := by
  subst hs
  exact ⟨rfl, fun m hm => (by cases hm), fun st hst => (by cases hst), fun m hm => (by cases hm)⟩

/-- The application takes the results and sends the messages. -/
theorem LI.handed (h : LI K asked p T rd msgs) : LI K asked p T { rd with states := [] } [] :=
  ⟨h.ro, h.wait, fun st hst => (by cases hst), fun m hm => (by cases hm)⟩

end Craft.LeaseInv
