import Verif.Node.ReadIndex
import Verif.Props.ReadOnly
import Verif.Spec.Reads

/-! # Read requests: the invariant

Everything is relative to a moment, described by a `Mark`: the term every node had persisted then, the messages that had been
sent, and a request context `x` not used before. `Good T i` means that `i` covers everything committed before the moment in
terms up to `T`, `Final i` that it covers everything committed before the moment. What these mean is left to the clusters. -/

namespace Craft.ReadInv
open Spec Cluster

/-- A moment, and a request context. -/
structure Mark where
  term0 : Nat → Nat
  net0 : List Message
  x : Bytes
  Good : Nat → Nat → Prop
  Final : Nat → Prop

variable (K : Mark)

/-- `b` sent heartbeats for the context `y` before the moment. -/
def Mark.Old (b : Nat) (y : Bytes) : Prop := ∃ h ∈ K.net0, h.type = .heartbeat ∧ h.src = b ∧ h.context = y

/-- What is known about a message. -/
def MsgRI (asked : List (Nat × Bytes)) (net : List Message) (m : Message) : Prop :=
  match m.type with
  | .heartbeat => m.context = [] ∨ (m.src, m.context) ∈ asked
  | .heartbeatResp => m.context ≠ [] → (∃ h ∈ net, h.type = .heartbeat ∧ h.src = m.to ∧ h.context = m.context) ∧
      (¬ K.Old m.to m.context → K.term0 m.src ≤ m.term)
  | .readIndex => m.term = 0 ∧ m.entries ≠ []
  | .readIndexResp => ∀ e es, m.entries = e :: es → (∃ q, (q, e.data) ∈ asked) ∧ (e.data = K.x → K.Final m.index)
  | _ => True

/-- What is known about the reads of node `p` in term `T`, with `msgs` in its outbox. -/
structure RI (asked : List (Nat × Bytes)) (net : List Message) (p T : Nat) (rd : Reads) (msgs : List Message) : Prop where
  inv : rd.ro.Inv
  safe : rd.ro.option = .safe
  queue : ∀ y ∈ rd.ro.queue, (p, y) ∈ asked
  wait : ∀ m ∈ rd.waiting, m.entries ≠ [] ∧ (p, askCtx m) ∈ asked ∧ askCtx m ∉ rd.ro.queue ∧
    (askCtx m ≠ [] → ¬ K.Old p (askCtx m) ∧ ∀ h ∈ net ++ msgs, h.type = .heartbeat → h.src = p → h.context ≠ askCtx m)
  nodup : (rd.waiting.map askCtx).Nodup
  states : ∀ st ∈ rd.states, (∃ q, (q, st.requestCtx) ∈ asked) ∧ (st.requestCtx = K.x → K.Final st.index)
  fresh : ∀ a b, rd.ro.queue = a ++ K.x :: b → ∀ y ∈ K.x :: b, y ≠ [] → ¬ K.Old p y
  acks : ∀ a b, rd.ro.queue = a ++ K.x :: b → ∀ y ∈ K.x :: b, ∀ st, ReadOnly.findPending rd.ro.pending y = some st →
    ∀ u, st.acks.find u = some true → K.term0 u ≤ T
  good : ∀ st, ReadOnly.findPending rd.ro.pending K.x = some st → K.Good T st.index
  msgs : ∀ m ∈ msgs, (m.type = .heartbeat → m.src = p) ∧ MsgRI K asked net m

/-- What the protocol says about the core of a node. -/
structure Facts (p : Nat) (c : Core) : Prop where
  id : c.id = p
  term : K.term0 p ≤ c.term
  good : c.state = .leader → InTerm c → K.Good c.term c.log.committed
  won : c.state = .leader → ∀ acks : AMap Bool, c.config.voters.voteResult acks = .won →
    (∀ u, acks.find u = some true → K.term0 u ≤ c.term) → ∀ i, K.Good c.term i → K.Final i

variable {K} {p : Nat} {c c' : Core}

/-! ## Answers -/

theorem scan_split {pend : List (Bytes × ReadIndexStatus)} {ctx : Bytes} {q : List Bytes} {rss : List ReadIndexStatus} {st : ReadIndexStatus}
    (h : ReadOnly.advanceScan pend ctx q = .ok (rss, true)) (hst : st ∈ rss) :
    ∃ a k b, q = a ++ k :: b ∧ ReadOnly.findPending pend k = some st ∧ ctx ∈ k :: b := by
  have key : ∀ {q : List Bytes} {rss : List ReadIndexStatus}, ReadOnly.advanceScan pend ctx q = .ok (rss, true) → ctx ∈ q := by
    intro q
    induction q with
    | nil => intro rss h; unfold ReadOnly.advanceScan at h; cases h
    | cons k q ih =>
      intro rss h
      unfold ReadOnly.advanceScan at h
      split at h
      · cases h
      · split at h
        · rename_i hk; rw [hk]; exact List.mem_cons_self
        · obtain ⟨⟨rss', f⟩, h1, h2⟩ := Res.bind_eq_ok.1 h
          cases h2
          exact List.mem_cons_of_mem _ (ih h1)
  induction q generalizing rss with
  | nil => unfold ReadOnly.advanceScan at h; cases h
  | cons k q ih =>
    have hc := key h
    unfold ReadOnly.advanceScan at h
    split at h
    · cases h
    · rename_i st' hf
      split at h
      · cases h
        rw [List.mem_singleton] at hst
        subst hst
        exact ⟨[], k, q, rfl, hf, hc⟩
      · obtain ⟨⟨rss', f⟩, h1, h2⟩ := Res.bind_eq_ok.1 h
        cases h2
        rcases List.mem_cons.1 hst with he | he
        · subst he
          exact ⟨[], k, q, rfl, hf, hc⟩
        · obtain ⟨a, k', b, e1, e2, e3⟩ := ih h1 he
          exact ⟨k :: a, k', b, by rw [e1]; rfl, e2, e3⟩

variable {asked asked' : List (Nat × Bytes)} {net net' msgs : List Message} {env : Env} {im : Message}

theorem answer_final (h : RI K asked net p c.term c.reads msgs) (hf : Facts K p c) (hl : c.state = .leader)
    (him : im.type = .readIndex → ∀ e es, im.entries = e :: es → ∃ q, (q, e.data) ∈ asked)
    (hone : im.type = .readIndex → c.config.voters.incoming.length = 1 → c.config.voters.outgoing.length = 0 → K.Final c.log.committed)
    {req : Message} {i : Nat} (ha : Answer im c req i)
    {e : Entry} {es : List Entry} (he : req.entries = e :: es) : (∃ q, (q, e.data) ∈ asked) ∧ (e.data = K.x → K.Final i) := by
  rcases ha with ⟨st, ⟨ctx, x, rss, f1, f2, f3, f4⟩, rfl, rfl⟩ | ⟨rfl, ⟨⟨s1, s2⟩, ht, rfl⟩ | ⟨s, _⟩⟩
  · obtain ⟨a, k, b, q1, q2, q3⟩ := scan_split f3 f4
    obtain ⟨e', es', o1, o2⟩ := h.inv.own _ _ (ReadOnly.findPending_some q2)
    rw [he] at o1
    cases o1
    refine ⟨⟨p, ?_⟩, fun hx => ?_⟩
    · rw [o2]; exact h.queue k (by rw [q1]; simp)
    · rw [hx] at o2
      subst o2
      exact hf.won hl _ f2 (fun u hu => h.acks a b q1 ctx q3 x f1 u hu) _ (h.good st q2)
  · exact ⟨him ht e es he, fun _ => hone ht s1 s2⟩
  · rw [h.safe] at s; cases s

/-! ## The operations on the reads -/

theorem MsgRI.mono {m : Message} (h : MsgRI K asked net m) (ha : ∀ y ∈ asked, y ∈ asked') (hn : ∀ y ∈ net, y ∈ net') : MsgRI K asked' net' m := by
  unfold MsgRI at h ⊢
  split
  · rename_i ht; rw [ht] at h; exact h.imp (fun h => h) (ha _)
  · rename_i ht; rw [ht] at h
    intro hc
    obtain ⟨⟨x, x1, x2⟩, h2⟩ := h hc
    exact ⟨⟨x, hn _ x1, x2⟩, h2⟩
  · rename_i ht; rw [ht] at h; exact h
  · rename_i ht; rw [ht] at h
    intro e es he
    obtain ⟨⟨q, h1⟩, h2⟩ := h e es he
    exact ⟨⟨q, ha _ h1⟩, h2⟩
  · trivial

variable {T : Nat} {rd : Reads}

theorem RI.mono (h : RI K asked net p T rd msgs) (ha : ∀ y ∈ asked, y ∈ asked') (hn : ∀ y ∈ net, y ∈ net')
    (hnew : ∀ y ∈ net', y.type = .heartbeat → y.src = p → y ∈ net ++ msgs) : RI K asked' net' p T rd msgs := by
  refine ⟨h.inv, h.safe, fun y hy => ha _ (h.queue y hy), fun m hm => ?_, h.nodup, fun st hst => ?_, h.fresh, h.acks, h.good,
    fun m hm => ⟨(h.msgs m hm).1, (h.msgs m hm).2.mono ha hn⟩⟩
  · obtain ⟨w1, w2, w3, w4⟩ := h.wait m hm
    refine ⟨w1, ha _ w2, w3, fun hc => ⟨(w4 hc).1, fun x hx ht hs => ?_⟩⟩
    rcases List.mem_append.1 hx with hx | hx
    · exact (w4 hc).2 x (hnew x hx ht hs) ht hs
    · exact (w4 hc).2 x (List.mem_append_right _ hx) ht hs
  · obtain ⟨⟨q, h1⟩, h2⟩ := h.states st hst
    exact ⟨⟨q, ha _ h1⟩, h2⟩

theorem RI.ask (h : RI K asked net p T rd msgs) (ha : ∀ y ∈ asked, y ∈ asked') : RI K asked' net p T rd msgs :=
  h.mono ha (fun _ h => h) fun _ h _ _ => List.mem_append_left _ h

theorem RI.reset (h : RI K asked net p T rd msgs) (T' : Nat) : RI K asked net p T' rd.reset msgs := by
  refine ⟨⟨rfl, List.nodup_nil, fun k st hk => (by cases hk)⟩, h.safe, fun y hy => (by cases hy), fun m hm => ?_, h.nodup, h.states, fun a b hab => ?_,
    fun a b hab => ?_, fun st hst => ?_, h.msgs⟩
  · obtain ⟨w1, w2, w3, w4⟩ := h.wait m hm
    exact ⟨w1, w2, (by intro hc; cases hc), w4⟩
  · have : ([] : List Bytes) = a ++ K.x :: b := hab
    simp at this
  · have : ([] : List Bytes) = a ++ K.x :: b := hab
    simp at this
  · have : (none : Option ReadIndexStatus) = some st := hst
    cases this

/-- Sending. -/
theorem RI.send (h : RI K asked net p T rd msgs) {ms : List Message} (hm : ∀ m ∈ ms, MsgRI K asked net m)
    (hb : ∀ m ∈ ms, m.type = .heartbeat → m.src = p ∧ (m.context = [] ∨ m.context ∈ rd.ro.queue)) : RI K asked net p T rd (msgs ++ ms) := by
  refine ⟨h.inv, h.safe, h.queue, fun m hm => ?_, h.nodup, h.states, h.fresh, h.acks, h.good, fun m hmm => ?_⟩
  · obtain ⟨w1, w2, w3, w4⟩ := h.wait m hm
    refine ⟨w1, w2, w3, fun hc => ⟨(w4 hc).1, fun x hx ht hs he => ?_⟩⟩
    rw [← List.append_assoc] at hx
    rcases List.mem_append.1 hx with hx | hx
    · exact (w4 hc).2 x hx ht hs he
    · rcases (hb x hx ht).2 with h0 | h0
      · rw [← he] at hc; exact hc h0
      · rw [he] at h0; exact w3 h0
  · rcases List.mem_append.1 hmm with hmm | hmm
    · exact h.msgs m hmm
    · exact ⟨fun ht => (hb m hmm ht).1, hm m hmm⟩

theorem RI.state (h : RI K asked net p T rd msgs) {st : ReadState} (hs : (∃ q, (q, st.requestCtx) ∈ asked) ∧ (st.requestCtx = K.x → K.Final st.index)) :
    RI K asked net p T { rd with states := rd.states ++ [st] } msgs := by
  refine ⟨h.inv, h.safe, h.queue, h.wait, h.nodup, fun st' hst => ?_, h.fresh, h.acks, h.good, h.msgs⟩
  rcases List.mem_append.1 hst with hst | hst
  · exact h.states st' hst
  · rw [List.mem_singleton] at hst; rw [hst]; exact hs

theorem RI.skip (h : RI K asked net p T rd msgs) {m : Message} {ms : List Message} (hw : rd.waiting = m :: ms) :
    RI K asked net p T { rd with waiting := ms } msgs := by
  have hn := h.nodup
  rw [hw, List.map_cons, List.nodup_cons] at hn
  exact ⟨h.inv, h.safe, h.queue, fun m' hm => h.wait m' (by rw [hw]; exact List.mem_cons_of_mem _ hm), hn.2, h.states, h.fresh, h.acks, h.good, h.msgs⟩

/-- An acknowledgement of `y` by `u`. -/
theorem RI.ack (h : RI K asked net p T rd msgs) {u : Nat} {y : Bytes}
    (hu : ∀ a b, rd.ro.queue = a ++ K.x :: b → y ∈ K.x :: b → K.term0 u ≤ T) :
    RI K asked net p T { rd with ro := (rd.ro.recvAck u y).1 } msgs := by
  obtain ⟨i1, i2⟩ := h.inv.ack u y
  refine ⟨i1, (Raft.recvAck_option _ _ _).trans h.safe, fun z hz => h.queue z (i2 ▸ hz), fun m hm => ?_, h.nodup, h.states, fun a b hab => ?_,
    fun a b hab z hz st hst v hv => ?_, fun st hst => ?_, h.msgs⟩
  · obtain ⟨w1, w2, w3, w4⟩ := h.wait m hm
    exact ⟨w1, w2, fun hc => w3 (i2 ▸ hc), w4⟩
  · exact h.fresh a b (i2.symm.trans hab)
  · replace hab := i2.symm.trans hab
    dsimp only at hst
    rw [Raft.recvAck_find] at hst
    split at hst
    · rename_i he
      subst he
      cases hf : ReadOnly.findPending rd.ro.pending y with
      | none => rw [hf] at hst; cases hst
      | some st0 =>
        rw [hf] at hst
        cases hst
        dsimp only at hv
        rw [AMap.find_insert] at hv
        split at hv
        · rename_i he; rw [← he]; exact hu a b hab hz
        · exact h.acks a b hab y hz st0 hf v hv
    · exact h.acks a b hab z hz st hst v hv
  · dsimp only at hst
    rw [Raft.recvAck_find] at hst
    split at hst
    · rename_i he
      subst he
      cases hf : ReadOnly.findPending rd.ro.pending K.x with
      | none => rw [hf] at hst; cases hst
      | some st0 =>
        rw [hf] at hst
        cases hst
        exact h.good st0 hf
    · exact h.good st hst

/-- A new request. -/
theorem RI.add (h : RI K asked net p T rd msgs) {i : Nat} {m : Message} {e : Entry} {es : List Entry} {ro : ReadOnly} (he : m.entries = e :: es)
    (hro : rd.ro.addRequest i m = .ok ro) (hq : e.data ∉ rd.ro.queue) (hw : ∀ m' ∈ rd.waiting, askCtx m' ≠ e.data) (ha : (p, e.data) ∈ asked)
    (ho : e.data ≠ [] → ¬ K.Old p e.data) (hgood : K.Good T i) : RI K asked net p T { rd with ro := ro } msgs ∧ e.data ∈ ro.queue := by
  have hne : m.entries ≠ [] := by rw [he]; exact List.cons_ne_nil _ _
  obtain ⟨ro', r1, r2, r3⟩ := h.inv.add (i := i) hne
  rw [hro] at r1
  cases r1
  rw [he, List.headD_cons, if_neg hq] at r3
  have hnone : ReadOnly.findPending rd.ro.pending e.data = none := ReadOnly.findPending_none.2 (by rw [h.inv.same]; exact hq)
  have hpend : ro.pending = rd.ro.pending ++ [(e.data, { req := m, index := i })] ∧ ro.option = rd.ro.option := by
    unfold ReadOnly.addRequest ReadOnly.reqCtx at hro
    rw [he] at hro
    simp only [Res.ok_bind, hnone] at hro
    simp only [Option.isSome_none, Bool.false_eq_true, if_false, Res.pure_eq, Res.ok.injEq] at hro
    rw [← hro]; exact ⟨rfl, rfl⟩
  have hsplit : ∀ a b, ro.queue = a ++ K.x :: b → (K.x = e.data ∧ b = []) ∨ ∃ b', b = b' ++ [e.data] ∧ rd.ro.queue = a ++ K.x :: b' := by
    intro a b hab
    rw [r3] at hab
    rcases List.eq_nil_or_concat b with rfl | ⟨b', z, rfl⟩
    · have := List.append_inj' hab rfl
      simp only [List.cons.injEq, and_true] at this
      exact Or.inl ⟨this.2.symm, rfl⟩
    · rw [List.concat_eq_append, show a ++ K.x :: (b' ++ [z]) = (a ++ K.x :: b') ++ [z] by simp] at hab
      obtain ⟨h1, h2⟩ := List.append_inj' hab rfl
      simp only [List.cons.injEq, and_true] at h2
      exact Or.inr ⟨b', by rw [List.concat_eq_append, h2], h1⟩
  refine ⟨⟨r2, hpend.2.trans h.safe, fun y hy => ?_, fun m' hm => ?_, h.nodup, h.states, fun a b hab y hy hyn => ?_, fun a b hab y hy st hst u hu => ?_,
    fun st hst => ?_, h.msgs⟩, by rw [r3]; simp⟩
  · dsimp only at hy
    rw [r3] at hy
    rcases List.mem_append.1 hy with hy | hy
    · exact h.queue y hy
    · rw [List.mem_singleton] at hy; rw [hy]; exact ha
  · obtain ⟨w1, w2, w3, w4⟩ := h.wait m' hm
    refine ⟨w1, w2, ?_, w4⟩
    dsimp only
    rw [r3]
    simp only [List.mem_append, List.mem_singleton, not_or]
    exact ⟨w3, hw m' hm⟩
  · rcases hsplit a b hab with ⟨hx, rfl⟩ | ⟨b', rfl, hb⟩
    · rw [List.mem_singleton, hx] at hy
      subst hy
      exact ho hyn
    · rw [← List.cons_append] at hy
      rcases List.mem_append.1 hy with hy | hy
      · exact h.fresh a b' hb y hy hyn
      · rw [List.mem_singleton] at hy
        subst hy
        exact ho hyn
  · dsimp only at hst
    rw [hpend.1, Raft.findPending_append] at hst
    cases hf : ReadOnly.findPending rd.ro.pending y with
    | none =>
      rw [hf] at hst
      dsimp only at hst
      split at hst
      · cases hst; cases hu
      · cases hst
    | some st0 =>
      rw [hf] at hst
      cases hst
      have hne : y ≠ e.data := fun hc => by rw [hc, hnone] at hf; cases hf
      rcases hsplit a b hab with ⟨hx, rfl⟩ | ⟨b', rfl, hb⟩
      · rw [List.mem_singleton, hx] at hy; exact absurd hy hne
      · rw [← List.cons_append] at hy
        rcases List.mem_append.1 hy with hy | hy
        · exact h.acks a b' hb y hy _ hf u hu
        · rw [List.mem_singleton] at hy; exact absurd hy hne
  · dsimp only at hst
    rw [hpend.1, Raft.findPending_append] at hst
    cases hf : ReadOnly.findPending rd.ro.pending K.x with
    | none =>
      rw [hf] at hst
      dsimp only at hst
      split at hst
      · cases hst; exact hgood
      · cases hst
    | some st0 =>
      rw [hf] at hst
      cases hst
      exact h.good _ hf

/-- Requests are released. -/
theorem RI.advance (h : RI K asked net p T rd msgs) {ctx : Bytes} {ro : ReadOnly} {rss : List ReadIndexStatus}
    (ha : rd.ro.advance ctx = .ok (ro, rss)) : RI K asked net p T { rd with ro := ro } msgs := by
  obtain ⟨h1, h2⟩ := h.inv.advance ctx
  by_cases hc : ctx ∈ rd.ro.queue
  · obtain ⟨a, b, hab, _⟩ := List.eq_append_cons_of_mem hc
    obtain ⟨pre, pend, g1, g2, g3, g4, g5, g6⟩ := h2 a b hab
    rw [ha] at g5
    simp only [Res.ok.injEq, Prod.mk.injEq] at g5
    obtain ⟨rfl, rfl⟩ := g5
    have hin : ∀ y ∈ b, y ∈ rd.ro.queue := fun y hy => by rw [hab]; simp [hy]
    have hfind : ∀ y st, ReadOnly.findPending pend y = some st → ReadOnly.findPending rd.ro.pending y = some st := by
      intro y st hf
      have hm := ReadOnly.findPending_some hf
      obtain ⟨u, v, huv⟩ := List.append_of_mem hm
      exact ReadOnly.findPending_cons_of_mem (p := pre ++ u) (q := v) (by rw [g1, huv]; simp) (by rw [h.inv.same]; exact h.inv.nodup)
    refine ⟨g6, h.safe, fun y hy => h.queue y (hin y hy), fun m hm => ?_, h.nodup, h.states, fun a' b' hab' => ?_, fun a' b' hab' y hy st hst => ?_,
      fun st hst => h.good st (hfind _ _ hst), h.msgs⟩
    · obtain ⟨w1, w2, w3, w4⟩ := h.wait m hm
      exact ⟨w1, w2, fun hc => w3 (hin _ hc), w4⟩
    · dsimp only at hab'
      exact h.fresh (a ++ ctx :: a') b' (by rw [hab, hab']; simp)
    · dsimp only at hab'
      exact h.acks (a ++ ctx :: a') b' (by rw [hab, hab']; simp) y hy st (hfind _ _ hst)
  · have := h1 hc
    rw [ha] at this
    simp only [Res.ok.injEq, Prod.mk.injEq] at this
    obtain ⟨rfl, rfl⟩ := this
    exact h

/-! ## One elementary step -/

theorem emit_ri (hf : Facts K p c) (h : RI K asked net p c.term c.reads msgs) (hty : im.type ≠ .readIndex) {m : Message}
    (he : Emit env im c m) : RI K asked net p c.term c.reads (msgs ++ [m]) := by
  have hmem : ∀ y, (ReadOnly.findPending c.reads.ro.pending y).isSome → y ∈ c.reads.ro.queue := by
    intro y hy
    obtain ⟨st, hst⟩ := Option.isSome_iff_exists.1 hy
    rw [← h.inv.same]
    exact List.mem_map_of_mem (f := Prod.fst) (ReadOnly.findPending_some hst)
  refine h.send (fun m' hm => ?_) fun m' hm ht => ?_
  · rw [List.mem_singleton] at hm
    subst hm
    unfold MsgRI
    split
    · rename_i ht
      unfold Emit at he
      rw [ht] at he
      obtain ⟨e1, _, _, _, e2⟩ := he
      rw [e1, hf.id]
      rcases e2 with e2 | e2 | e2
      · exact Or.inl e2
      · exact Or.inr (h.queue _ e2)
      · exact Or.inr (h.queue _ (hmem _ e2))
    · rename_i ht
      unfold Emit at he
      rw [ht] at he
      exact he.elim
    · rename_i ht
      unfold Emit at he
      rw [ht] at he
      exact absurd he.2.2.2.1.symm hty
    · rename_i ht
      unfold Emit at he
      rw [ht] at he
      obtain ⟨_, _, hl, req, e1, _, e2⟩ := he
      intro e es hes
      exact answer_final h hf hl (fun hh => absurd hh hty) (fun hh => absurd hh hty) e2 (e1.symm.trans hes)
    · trivial
  · rw [List.mem_singleton] at hm
    subst hm
    unfold Emit at he
    rw [ht] at he
    obtain ⟨e1, _, _, _, e2⟩ := he
    refine ⟨by rw [e1, hf.id], ?_⟩
    rcases e2 with e2 | e2 | e2
    · exact Or.inl e2
    · exact Or.inr e2
    · exact Or.inr (hmem _ e2)

theorem step_ri (hf : Facts K p c) (h : RI K asked net p c.term c.reads msgs) (him : MsgRI K asked net im)
    (hty : im.type ≠ .readIndex) (hnet : im.type = .heartbeat → im ∈ net) (hto : im.type = .heartbeatResp → im.to = p) {ms : List Message}
    (hs : CStep env im c ms c') : RI K asked net p c'.term c'.reads (msgs ++ ms) := by
  cases hs with
  | emit he => exact emit_ri hf h hty he
  | prs P hP => rw [List.append_nil]; exact h
  | follower T P hT hP => rw [List.append_nil]; exact h.reset T
  | candidate P h1 h2 hP => rw [List.append_nil]; exact h.reset _
  | preCandidate h1 h2 => rw [List.append_nil]; exact h
  | pollSelf h1 => rw [List.append_nil]; exact h
  | pollResp h1 h2 => rw [List.append_nil]; exact h
  | leader P h1 h2 hP => rw [List.append_nil]; exact h.reset _
  | append es l pr pci h1 h2 h3 => rw [List.append_nil]; exact h
  | pciUp n h1 h2 => rw [List.append_nil]; exact h
  | commit l h1 h2 => rw [List.append_nil]; exact h
  | ackRecv pr pr' h1 h2 h3 h4 h5 => rw [List.append_nil]; exact h
  | grant h1 h2 h3 h4 h5 =>
    refine RI.send h (fun m hm => ?_) fun m hm ht => ?_
    · rw [List.mem_singleton] at hm; subst hm; exact trivial
    · rw [List.mem_singleton] at hm; subst hm; cases ht
  | recvApp l last h1 h2 h3 h4 h5 =>
    refine RI.send h (fun m hm => ?_) fun m hm ht => ?_
    · rw [List.mem_singleton] at hm; subst hm; exact trivial
    · rw [List.mem_singleton] at hm; subst hm; cases ht
  | recvHeartbeat l h1 h2 h3 h4 =>
    refine RI.send h (fun m hm => ?_) fun m hm ht => ?_
    · rw [List.mem_singleton] at hm
      subst hm
      intro hc
      refine ⟨⟨im, hnet h2, h2, rfl, rfl⟩, fun _ => ?_⟩
      show K.term0 c.id ≤ c.term
      rw [hf.id]; exact hf.term
    · rw [List.mem_singleton] at hm; subst hm; cases ht
  | recvSnapCommit l h1 h2 h3 h4 h5 h6 => rw [List.append_nil]; exact h
  | recvSnap cfg P0 pr mi h1 h2 h3 h4 h5 h6 h7 => rw [List.append_nil]; exact h
  | readWait h1 h2 => exact absurd h2 hty
  | readTake ro e es h1 h2 => exact absurd h2 hty
  | readNext m ws ro e es h1 h2 h3 h4 h5 h6 =>
    rw [List.append_nil]
    obtain ⟨w1, w2, w3, w4⟩ := h.wait m (by rw [h2]; exact List.mem_cons_self)
    have hctx : askCtx m = e.data := by rw [askCtx, h5]; rfl
    rw [hctx] at w2 w3 w4
    have hn := h.nodup
    rw [h2, List.map_cons, List.nodup_cons, hctx] at hn
    obtain ⟨k1, k2⟩ := (h.skip h2).add (i := c.log.committed) h5 h6 w3 (fun m' hm hc => hn.1 (hc ▸ List.mem_map_of_mem hm)) w2 (fun hc => (w4 hc).1) (hf.good h1 h4)
    have := k1.ack (u := c.id) (y := e.data) (fun _ _ _ _ => by rw [hf.id]; exact hf.term)
    exact this
  | readSkip m ws h1 h2 => rw [List.append_nil]; exact h.skip h2
  | readState req i e es h1 h2 h3 =>
    rw [List.append_nil]
    exact h.state (answer_final h hf h1 (fun hh => absurd hh hty) (fun hh => absurd hh hty) h2 h3)
  | readAck h1 h2 h3 h4 h5 =>
    rw [List.append_nil]
    refine h.ack fun a b hab hy => ?_
    have hold := h.fresh a b hab _ hy h5
    unfold MsgRI at him
    rw [h2] at him
    rw [hto h2] at him
    have := (him h5).2 hold
    rcases h3 with h3 | h3 | ⟨_, h3 | h3⟩
    · omega
    · omega
    · rw [h2] at h3; cases h3
    · rw [h2] at h3; cases h3.1
  | readAdvance ctx ro rss h1 h2 => rw [List.append_nil]; exact h.advance h2
  | readResp e h1 h2 h3 =>
    rw [List.append_nil]
    unfold MsgRI at him
    rw [h2] at him
    exact h.state (him e [] h3)

/-- A read request is handed to the node. -/
theorem readOut_ri (hf : Facts K p c) (h : RI K asked net p c.term c.reads msgs) (hne : im.entries ≠ [])
    (hnew : c.state = .leader → (p, askCtx im) ∉ asked) (hnet : ∀ m ∈ net, MsgRI K asked net m)
    (hold : ∀ b y, K.Old b y → y ≠ [] → (b, y) ∈ asked)
    (hone : c.state = .leader → c.config.voters.incoming.length = 1 → c.config.voters.outgoing.length = 0 → K.Final c.log.committed) {ms : List Message} (ho : ReadOut env im c ms c')
    (hask : asked' = asked ++ if c.state = .leader then [(p, askCtx im)] else []) :
    RI K asked' net p c'.term c'.reads (msgs ++ ms) := by
  have hsub : ∀ y ∈ asked, y ∈ asked' := fun y hy => by rw [hask]; exact List.mem_append_left _ hy
  have h' := h.ask hsub
  have hin : c.state = .leader → (p, askCtx im) ∈ asked' := fun hl => by rw [hask, if_pos hl]; simp
  have hhb : c.state = .leader → askCtx im ≠ [] → ∀ x ∈ net ++ msgs, x.type = .heartbeat → x.src = p → x.context ≠ askCtx im := by
    intro hl hc x hx ht hs he
    have hr : MsgRI K asked net x := by
      rcases List.mem_append.1 hx with hx | hx
      · exact hnet x hx
      · exact (h.msgs x hx).2
    unfold MsgRI at hr
    rw [ht, hs, he] at hr
    rcases hr with hr | hr
    · exact hc hr
    · exact hnew hl hr
  have hq : c.state = .leader → askCtx im ∉ c.reads.ro.queue := fun hl hc => hnew hl (h.queue _ hc)
  have hw : c.state = .leader → ∀ m' ∈ c.reads.waiting, askCtx m' ≠ askCtx im := fun hl m' hm hc => hnew hl (hc ▸ (h.wait m' hm).2.1)
  have ho' : c.state = .leader → askCtx im ≠ [] → ¬ K.Old p (askCtx im) := fun hl hc ho => hnew hl (hold _ _ ho hc)
  have hctx : ∀ {e es}, im.entries = e :: es → askCtx im = e.data := fun he => by rw [askCtx, he]; rfl
  cases ho with
  | drop h1 => rw [List.append_nil]; exact h'
  | forward f h1 h2 h3 h4 =>
    refine h'.send (fun m hm => ?_) fun m hm ht => ?_
    · rw [List.mem_singleton] at hm
      subst hm
      unfold MsgRI
      rw [h2]
      exact ⟨h3, by rw [h4]; exact hne⟩
    · rw [List.mem_singleton] at hm; subst hm; rw [h2] at ht; cases ht
  | wait h1 =>
    rw [List.append_nil]
    refine ⟨h'.inv, h'.safe, h'.queue, fun m hm => ?_, ?_, h'.states, h'.fresh, h'.acks, h'.good, h'.msgs⟩
    · rcases List.mem_append.1 hm with hm | hm
      · exact h'.wait m hm
      · rw [List.mem_singleton] at hm
        subst hm
        exact ⟨hne, hin h1, hq h1, fun hc => ⟨ho' h1 hc, hhb h1 hc⟩⟩
    · dsimp only
      rw [List.map_append, List.nodup_append]
      refine ⟨h'.nodup, by simp, ?_⟩
      intro a ha b hb hab
      simp only [List.map_cons, List.map_nil, List.mem_singleton] at hb
      obtain ⟨m', m1, m2⟩ := List.mem_map.1 ha
      exact hw h1 m' m1 (by rw [m2, hab, hb])
  | take ro e es ms h1 h2 h3 h4 h5 h6 =>
    rw [hctx h4] at hin hq hw ho'
    obtain ⟨k1, k2⟩ := h'.add (i := c.log.committed) h4 h5 (hq h1) (hw h1) (hin h1) (ho' h1) (hf.good h1 h3)
    have k3 := k1.ack (u := c.id) (y := e.data) (fun _ _ _ _ => by rw [hf.id]; exact hf.term)
    refine RI.send k3 (fun m hm => ?_) fun m hm ht => ?_
    · obtain ⟨m1, m2, m3⟩ := h6 m hm
      unfold MsgRI
      rw [m1, m2, m3, hf.id]
      exact Or.inr (hin h1)
    · obtain ⟨m1, m2, m3⟩ := h6 m hm
      refine ⟨m2.trans hf.id, Or.inr ?_⟩
      dsimp only
      rw [Raft.recvAck_queue, m3]
      exact k2
  | answer e es h1 h2 h3 =>
    rw [List.append_nil]
    exact h'.state (answer_final h' hf h1 (fun _ e' es' he' => ⟨p, by rw [← hctx he']; exact hin h1⟩) (fun _ => hone h1) h2 h3)
  | reply f h1 h2 h3 h4 h5 =>
    refine h'.send (fun m hm => ?_) fun m hm ht => ?_
    · rw [List.mem_singleton] at hm
      subst hm
      unfold MsgRI
      rw [h2]
      intro e es he
      rw [h4]
      exact answer_final h' hf h1 (fun _ e' es' he' => ⟨p, by rw [← hctx he']; exact hin h1⟩) (fun _ => hone h1) h5 (h3.symm.trans he)
    · rw [List.mem_singleton] at hm; subst hm; rw [h2] at ht; cases ht
  | lost h1 => rw [List.append_nil]; exact h'

/-- A whole call. -/
theorem path_ri {ms : List Message} (hp : CPath env im c ms c') (hf : ∀ c1 ms1, CPath env im c ms1 c1 → Facts K p c1)
    (h : RI K asked net p c.term c.reads msgs) (him : MsgRI K asked net im) (hty : im.type ≠ .readIndex)
    (hnet : im.type = .heartbeat → im ∈ net) (hto : im.type = .heartbeatResp → im.to = p) : RI K asked net p c'.term c'.reads (msgs ++ ms) := by
  induction hp generalizing msgs with
  | nil => rw [List.append_nil]; exact h
  | cons hs _ ih =>
    rw [← List.append_assoc]
    exact ih (fun c1 ms1 h1 => hf c1 _ (.cons hs h1)) (step_ri (hf _ _ .nil) h him hty hnet hto hs)

/-! ## Several nodes -/

/-- A node that was just started. -/
theorem RI.start (hs : rd = { ro := { option := .safe }, states := [], waiting := [] }) : RI K asked net p T rd [] := by
  subst hs
  refine ⟨⟨rfl, List.nodup_nil, fun k st hk => (by cases hk)⟩, rfl, fun y hy => (by cases hy), fun m hm => (by cases hm), List.nodup_nil,
    fun st hst => (by cases hst), fun a b hab => ?_, fun a b hab => ?_, fun st hst => (by cases hst), fun m hm => (by cases hm)⟩
  · have : ([] : List Bytes) = a ++ K.x :: b := hab
    simp at this
  · have : ([] : List Bytes) = a ++ K.x :: b := hab
    simp at this

/-- The application takes the results and sends the messages. -/
theorem RI.handed (h : RI K asked net p T rd msgs) : RI K asked (net ++ msgs) p T { rd with states := [] } [] := by
  refine ⟨h.inv, h.safe, h.queue, fun m hm => ?_, h.nodup, fun st hst => (by cases hst), h.fresh, h.acks, h.good, fun m hm => (by cases hm)⟩
  obtain ⟨w1, w2, w3, w4⟩ := h.wait m hm
  refine ⟨w1, w2, w3, fun hc => ⟨(w4 hc).1, fun x hx => (w4 hc).2 x ?_⟩⟩
  rw [List.append_nil] at hx
  exact hx

/-- The invariant: about the nodes, and about everything that was sent. -/
structure Net (K : Mark) (asked : List (Nat × Bytes)) (net : List Message) (up : Nat → Option Raft) : Prop where
  old : ∀ b y, K.Old b y → y ≠ [] → (b, y) ∈ asked
  sent : ∀ m ∈ net, MsgRI K asked net m
  proc : ∀ p r, up p = some r → RI K asked net p r.term r.reads r.msgs

variable {up up' : Nat → Option Raft}

/-- One process changed, nothing sent. -/
theorem Net.set (h : Net K asked net up) (ha : ∀ y ∈ asked, y ∈ asked') (ho : ∀ q, q ≠ p → up' q = up q)
    (hx : ∀ r, up' p = some r → RI K asked' net p r.term r.reads r.msgs) : Net K asked' net up' := by
  refine ⟨fun b y h1 h2 => ha _ (h.old b y h1 h2), fun m hm => (h.sent m hm).mono ha fun _ h => h, fun q r hq => ?_⟩
  by_cases he : q = p
  · subst he; exact hx r hq
  · rw [ho q he] at hq
    exact (h.proc q r hq).ask ha

/-- One process changed, some of its messages sent. -/
theorem Net.send (h : Net K asked net up) {r0 : Raft} {ms : List Message} (hp : up p = some r0) (hms : ∀ m ∈ ms, m ∈ r0.msgs)
    (ho : ∀ q, q ≠ p → up' q = up q) (hx : ∀ r, up' p = some r → RI K asked (net ++ ms) p r.term r.reads r.msgs) :
    Net K asked (net ++ ms) up' := by
  have hsub : ∀ m ∈ net, m ∈ net ++ ms := fun m hm => List.mem_append_left _ hm
  refine ⟨h.old, fun m hm => ?_, fun q r hq => ?_⟩
  · rcases List.mem_append.1 hm with hm | hm
    · exact (h.sent m hm).mono (fun _ h => h) hsub
    · exact ((h.proc p r0 hp).msgs m (hms m hm)).2.mono (fun _ h => h) hsub
  · by_cases he : q = p
    · subst he; exact hx r hq
    · rw [ho q he] at hq
      refine (h.proc q r hq).mono (fun _ h => h) hsub fun m hm ht hs => ?_
      rcases List.mem_append.1 hm with hm | hm
      · exact List.mem_append_left _ hm
      · exact absurd (((h.proc p r0 hp).msgs m (hms m hm)).1 ht ▸ hs).symm he

/-- The mark moves to now, for a context that nobody has used. -/
theorem Net.remark (h : Net K asked net up) {K' : Mark} (hn : K'.net0 = net) (hx : ∀ p, (p, K'.x) ∉ asked) : Net K' asked net up := by
  have hm : ∀ m, MsgRI K asked net m → MsgRI K' asked net m := by
    intro m hm
    unfold MsgRI at hm ⊢
    split
    · rename_i ht; rw [ht] at hm; exact hm
    · rename_i ht
      rw [ht] at hm
      intro hc
      refine ⟨(hm hc).1, fun ho => absurd ?_ ho⟩
      unfold Mark.Old
      rw [hn]; exact (hm hc).1
    · rename_i ht; rw [ht] at hm; exact hm
    · rename_i ht
      rw [ht] at hm
      intro e es he
      obtain ⟨⟨q, h1⟩, _⟩ := hm e es he
      exact ⟨⟨q, h1⟩, fun hc => absurd (hc ▸ h1) (hx q)⟩
    · trivial
  refine ⟨?_, fun m hmm => hm m (h.sent m hmm), fun p r hp => ?_⟩
  · rintro b y ⟨f, f1, f2, f3, f4⟩ hy
    rw [hn] at f1
    have := h.sent f f1
    unfold MsgRI at this
    rw [f2, f3, f4] at this
    exact this.resolve_left hy
  · have hr := h.proc p r hp
    have hnq : ∀ a b, r.reads.ro.queue ≠ a ++ K'.x :: b := fun a b hab => hx p (hr.queue _ (by rw [hab]; simp))
    refine ⟨hr.inv, hr.safe, hr.queue, fun m hmm => ?_, hr.nodup, fun st hst => ?_, fun a b hab => absurd hab (hnq a b), fun a b hab => absurd hab (hnq a b),
      fun st hst => ?_, fun m hmm => ⟨(hr.msgs m hmm).1, hm m (hr.msgs m hmm).2⟩⟩
    · obtain ⟨w1, w2, w3, w4⟩ := hr.wait m hmm
      refine ⟨w1, w2, w3, fun hc => ⟨?_, (w4 hc).2⟩⟩
      rintro ⟨f, f1, f2, f3, f4⟩
      rw [hn] at f1
      exact (w4 hc).2 f (List.mem_append_left _ f1) f2 f3 f4
    · obtain ⟨⟨q, h1⟩, _⟩ := hr.states st hst
      exact ⟨⟨q, h1⟩, fun hc => absurd (hc ▸ h1) (hx q)⟩
    · have := ReadOnly.findPending_some hst
      exact absurd (hr.queue _ (by rw [← hr.inv.same]; exact List.mem_map_of_mem (f := Prod.fst) this)) (hx p)

/-- Nothing has happened yet. -/
theorem Net.init (hn : K.net0 = []) (hu : ∀ p, up p = none) : Net K [] [] up := by
  refine ⟨?_, fun m hm => (by cases hm), fun p r hp => by rw [hu] at hp; cases hp⟩
  rintro b y ⟨f, f1, _⟩
  rw [hn] at f1
  cases f1

end Craft.ReadInv
