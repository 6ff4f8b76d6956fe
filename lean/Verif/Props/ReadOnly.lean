import Verif.Model.ReadOnly

/-! # Read-only request queue: C27 -/

namespace Craft

/-- The queue and the map hold the same contexts, in arrival order and without repetition, each under its own request. -/
structure ReadOnly.Inv (ro : ReadOnly) : Prop where
  same : ro.pending.map Prod.fst = ro.queue
  nodup : ro.queue.Nodup
  own : ∀ k st, (k, st) ∈ ro.pending → ∃ e es, st.req.entries = e :: es ∧ e.data = k

namespace ReadOnly

theorem findPending_some {m : List (Bytes × ReadIndexStatus)} {c : Bytes} {st : ReadIndexStatus}
    (h : findPending m c = some st) : (c, st) ∈ m := by
  induction m with
  | nil => cases h
  | cons p m ih =>
    obtain ⟨k, v⟩ := p
    unfold findPending at h
    split at h
    · rename_i hk; cases h; subst hk; exact List.mem_cons_self
    · exact List.mem_cons_of_mem _ (ih h)

theorem findPending_none {m : List (Bytes × ReadIndexStatus)} {c : Bytes} :
    findPending m c = none ↔ c ∉ m.map Prod.fst := by
  induction m with
  | nil => simp [findPending]
  | cons p m ih =>
    obtain ⟨k, v⟩ := p
    unfold findPending
    split
    · rename_i hk; subst hk; simp
    · rename_i hk
      rw [ih]
      simp only [List.map_cons, List.mem_cons, not_or]
      exact ⟨fun h => ⟨fun h' => hk h'.symm, h⟩, fun h => h.2⟩

theorem findPending_cons_of_mem {m : List (Bytes × ReadIndexStatus)} {p q : List (Bytes × ReadIndexStatus)} {c : Bytes} {st : ReadIndexStatus}
    (hm : m = p ++ (c, st) :: q) (hn : (m.map Prod.fst).Nodup) : findPending m c = some st := by
  subst hm
  induction p with
  | nil => simp [findPending]
  | cons x p ih =>
    obtain ⟨k, v⟩ := x
    simp only [List.cons_append, List.map_cons, List.nodup_cons] at hn
    rw [List.cons_append]
    unfold findPending
    rw [if_neg]
    · exact ih hn.2
    · rintro rfl
      exact hn.1 (by simp)

theorem map_fst_setPending (m : List (Bytes × ReadIndexStatus)) (c : Bytes) (v : ReadIndexStatus) :
    (setPending m c v).map Prod.fst = m.map Prod.fst := by
  induction m with
  | nil => rfl
  | cons p m ih =>
    obtain ⟨k, w⟩ := p
    unfold setPending
    split <;> simp [ih]

theorem mem_setPending {m : List (Bytes × ReadIndexStatus)} {c k : Bytes} {v st : ReadIndexStatus}
    (h : (k, st) ∈ setPending m c v) : (k, st) ∈ m ∨ (k = c ∧ st = v ∧ k ∈ m.map Prod.fst) := by
  induction m with
  | nil => cases h
  | cons p m ih =>
    obtain ⟨k', w⟩ := p
    unfold setPending at h
    split at h
    · rename_i hk
      rcases List.mem_cons.1 h with h | h
      · cases h; exact Or.inr ⟨hk, rfl, by simp⟩
      · exact Or.inl (List.mem_cons_of_mem _ h)
    · rcases List.mem_cons.1 h with h | h
      · cases h; exact Or.inl List.mem_cons_self
      · rcases ih h with h | ⟨h1, h2, h3⟩
        · exact Or.inl (List.mem_cons_of_mem _ h)
        · exact Or.inr ⟨h1, h2, by simp [h3]⟩

theorem advanceScan_not_mem {pend : List (Bytes × ReadIndexStatus)} {c : Bytes} {q : List Bytes} (hq : ∀ k ∈ q, k ∈ pend.map Prod.fst)
    (hc : c ∉ q) : ∃ rss, advanceScan pend c q = .ok (rss, false) := by
  induction q with
  | nil => exact ⟨[], rfl⟩
  | cons k q ih =>
    obtain ⟨rss, hr⟩ := ih (fun k' h => hq k' (List.mem_cons_of_mem _ h)) (fun h => hc (List.mem_cons_of_mem _ h))
    unfold advanceScan
    cases hf : findPending pend k with
    | none => exact absurd (hq k List.mem_cons_self) (findPending_none.1 hf)
    | some st =>
      dsimp only
      rw [if_neg (by rintro rfl; exact hc List.mem_cons_self), hr]
      exact ⟨_, rfl⟩

theorem advanceScan_mem {pend a b : List (Bytes × ReadIndexStatus)} {c : Bytes} {st : ReadIndexStatus} (p : List (Bytes × ReadIndexStatus))
    (hp : pend = p ++ a ++ (c, st) :: b) (hn : (pend.map Prod.fst).Nodup) :
    advanceScan pend c ((a ++ (c, st) :: b).map Prod.fst) = .ok ((a ++ [(c, st)]).map Prod.snd, true) := by
  induction a generalizing p with
  | nil =>
    simp only [List.nil_append, List.map_cons]
    unfold advanceScan
    rw [findPending_cons_of_mem (p := p) (q := b) (by simpa using hp) hn]
    simp
  | cons x a ih =>
    obtain ⟨k, v⟩ := x
    simp only [List.cons_append, List.map_cons]
    unfold advanceScan
    rw [findPending_cons_of_mem (c := k) (st := v) (p := p) (q := a ++ (c, st) :: b) (by simpa using hp) hn]
    dsimp only
    have hkc : k ≠ c := by
      rintro rfl
      rw [hp] at hn
      simp only [List.map_append, List.map_cons, List.append_assoc, List.cons_append] at hn
      have := (List.nodup_append.1 hn).2.1
      simp at this
    rw [if_neg hkc, ih (p ++ [(k, v)]) (by simpa using hp)]
    rfl

theorem eraseAll_prefix {a b : List (Bytes × ReadIndexStatus)} (hn : ((a ++ b).map Prod.fst).Nodup)
    (hown : ∀ k st, (k, st) ∈ a → ∃ e es, st.req.entries = e :: es ∧ e.data = k) :
    eraseAll (a ++ b) (a.map Prod.snd) = .ok b := by
  induction a with
  | nil => rfl
  | cons x a ih =>
    obtain ⟨k, v⟩ := x
    obtain ⟨e, es, he, hk⟩ := hown k v List.mem_cons_self
    simp only [List.map_cons, eraseAll, reqCtx, he]
    simp only [List.cons_append, List.map_cons, List.nodup_cons] at hn
    have : erasePending ((k, v) :: (a ++ b)) e.data = a ++ b := by
      unfold erasePending
      rw [List.filter_cons_of_neg (by simp [hk])]
      rw [List.filter_eq_self]
      intro p hp
      simp only [decide_eq_true_eq]
      rw [hk]
      intro hpk
      exact hn.1 (by rw [← hpk]; exact List.mem_map_of_mem hp)
    simp only [Res.ok_bind, List.cons_append]
    rw [this]
    exact ih hn.2 (fun k st h => hown k st (List.mem_cons_of_mem _ h))

end ReadOnly

/-- The operations on the queue. Requests carry their context in an entry (`RawNode::ReadIndex` builds them so). -/
inductive ROp where
  | add (index : Nat) (m : Message)
  | ack (id : Nat) (ctx : Bytes)
  | advance (ctx : Bytes)

/-- A request carries a context. -/
def ROp.Valid : ROp → Prop
  | .add _ m => m.entries ≠ []
  | _ => True

/-- Runs the operations; `out` collects everything `Advance` returned. -/
def ROp.run (s : ReadOnly × List ReadIndexStatus) : ROp → Res (ReadOnly × List ReadIndexStatus)
  | .add i m => do
    let ro ← s.1.addRequest i m
    pure (ro, s.2)
  | .ack id c => .ok ((s.1.recvAck id c).1, s.2)
  | .advance c => do
    let (ro, rss) ← s.1.advance c
    pure (ro, s.2 ++ rss)

def ROp.runAll : List ROp → ReadOnly × List ReadIndexStatus → Res (ReadOnly × List ReadIndexStatus)
  | [], s => .ok s
  | op :: ops, s => do
    let s ← op.run s
    ROp.runAll ops s

/-- The requests that arrived, in order, duplicates of a still pending context ignored: the specification. -/
def arrivals (pendingNow : List Bytes) : List ROp → List Bytes
  | [] => []
  | .add _ m :: ops =>
    let c := (m.entries.headD {}).data
    if c ∈ pendingNow then arrivals pendingNow ops else c :: arrivals (pendingNow ++ [c]) ops
  | .ack _ _ :: ops => arrivals pendingNow ops
  | .advance c :: ops =>
    arrivals (if c ∈ pendingNow then pendingNow.drop (pendingNow.idxOf c + 1) else pendingNow) ops

/-- Context of a returned request. -/
def ctxOf (st : ReadIndexStatus) : Bytes := (st.req.entries.headD {}).data

theorem ReadOnly.Inv.add {ro : ReadOnly} (h : ro.Inv) {i : Nat} {m : Message} (hm : m.entries ≠ []) :
    ∃ ro', ro.addRequest i m = .ok ro' ∧ ro'.Inv ∧
      ro'.queue = if (m.entries.headD {}).data ∈ ro.queue then ro.queue else ro.queue ++ [(m.entries.headD {}).data] := by
  obtain ⟨e, es, he⟩ := List.exists_cons_of_ne_nil hm
  unfold addRequest reqCtx
  rw [he]
  simp only [Res.ok_bind, List.headD_cons]
  cases hf : findPending ro.pending e.data with
  | some st =>
    have : e.data ∈ ro.queue := by rw [← h.same]; exact List.mem_map_of_mem (f := Prod.fst) (findPending_some hf)
    exact ⟨ro, rfl, h, (if_pos this).symm⟩
  | none =>
    have hni : e.data ∉ ro.queue := by rw [← h.same]; exact findPending_none.1 hf
    refine ⟨_, rfl, ⟨by simp [h.same], ?_, ?_⟩, (if_neg hni).symm⟩
    · rw [List.nodup_append]
      refine ⟨h.nodup, by simp, ?_⟩
      intro a ha b hb hab
      simp only [List.mem_singleton] at hb
      subst hab hb
      exact hni ha
    · intro k st hk
      rcases List.mem_append.1 hk with hk | hk
      · exact h.own k st hk
      · simp only [List.mem_singleton, Prod.mk.injEq] at hk
        obtain ⟨rfl, rfl⟩ := hk
        exact ⟨e, es, he, rfl⟩

theorem ReadOnly.Inv.ack {ro : ReadOnly} (h : ro.Inv) (id : Nat) (c : Bytes) :
    (ro.recvAck id c).1.Inv ∧ (ro.recvAck id c).1.queue = ro.queue := by
  unfold recvAck
  cases hf : findPending ro.pending c with
  | none => exact ⟨h, rfl⟩
  | some st =>
    refine ⟨⟨?_, h.nodup, ?_⟩, rfl⟩
    · show (setPending ro.pending c _).map Prod.fst = ro.queue
      rw [map_fst_setPending]; exact h.same
    · intro k st' hk
      rcases mem_setPending hk with hk | ⟨rfl, rfl, _⟩
      · exact h.own k st' hk
      · exact h.own _ st (findPending_some hf)

/-- `Advance`, exactly. -/
theorem ReadOnly.Inv.advance {ro : ReadOnly} (h : ro.Inv) (c : Bytes) :
    (c ∉ ro.queue → ro.advance c = .ok (ro, [])) ∧
    (∀ a b, ro.queue = a ++ c :: b → ∃ pre pend, ro.pending = pre ++ pend ∧ pre.length = a.length + 1 ∧
      (pre.map Prod.snd).map ctxOf = a ++ [c] ∧ pend.map Prod.fst = b ∧
      ro.advance c = .ok ({ ro with queue := b, pending := pend }, pre.map Prod.snd) ∧
      ({ ro with queue := b, pending := pend } : ReadOnly).Inv) := by
  have hn : (ro.pending.map Prod.fst).Nodup := by rw [h.same]; exact h.nodup
  constructor
  · intro hc
    obtain ⟨rss, hr⟩ := advanceScan_not_mem (pend := ro.pending) (c := c) (q := ro.queue) (by rw [h.same]; exact fun _ => id) hc
    unfold ReadOnly.advance
    rw [hr]
    rfl
  · intro a b hq
    obtain ⟨pa, pr, hp, ha, hr⟩ := List.map_eq_append_iff.1 (h.same.trans hq)
    obtain ⟨x, pb, rfl, hx, hb⟩ := List.map_eq_cons_iff.1 hr
    obtain ⟨k, st⟩ := x
    dsimp only at hx
    subst hx
    refine ⟨pa ++ [(k, st)], pb, by simp [hp], ?_, ?_, hb, ?_, ?_⟩
    · rw [← ha]; simp
    · rw [← ha]
      rw [List.map_append, List.map_append, List.map_map]
      congr 1
      · apply List.map_congr_left
        rintro ⟨k', st'⟩ hm
        obtain ⟨e, es, he, hk⟩ := h.own k' st' (by rw [hp]; exact List.mem_append_left _ hm)
        simp [ctxOf, he, hk]
      · obtain ⟨e, es, he, hk⟩ := h.own k st (by rw [hp]; simp)
        simp [ctxOf, he, hk]
    · unfold ReadOnly.advance
      have hsc := advanceScan_mem (pend := ro.pending) (a := pa) (b := pb) (c := k) (st := st) [] (by simpa using hp) hn
      rw [show ro.queue = (pa ++ (k, st) :: pb).map Prod.fst by rw [← h.same, hp], hsc]
      simp only [Res.ok_bind, if_true]
      have her := eraseAll_prefix (a := pa ++ [(k, st)]) (b := pb) (by rw [List.append_assoc]; rw [hp] at hn; exact hn) (by
        intro k' st' hm
        apply h.own
        rw [hp]
        rcases List.mem_append.1 hm with hm | hm
        · exact List.mem_append_left _ hm
        · simp only [List.mem_singleton] at hm; rw [hm]; simp)
      rw [List.append_assoc] at her
      have hpe : eraseAll ro.pending ((pa ++ [(k, st)]).map Prod.snd) = .ok pb := by rw [hp]; exact her
      rw [hpe]
      simp only [Res.ok_bind, Res.pure_eq, Res.ok.injEq, Prod.mk.injEq, and_true]
      congr 1
      rw [show pa ++ (k, st) :: pb = (pa ++ [(k, st)]) ++ pb by simp, List.map_append (f := Prod.fst), ← hb]
      rw [List.drop_append_of_le_length (by simp), List.drop_eq_nil_of_le (by simp)]
      rfl
    · refine ⟨hb, ?_, ?_⟩
      · have := h.nodup
        rw [hq] at this
        exact (List.nodup_cons.1 (List.nodup_append.1 this).2.1).2
      · intro k' st' hm
        exact h.own k' st' (by rw [hp]; exact List.mem_append_right _ (List.mem_cons_of_mem _ hm))

theorem runAll_fifo (ops : List ROp) (hv : ∀ op ∈ ops, op.Valid) (ro : ReadOnly) (out : List ReadIndexStatus) (h : ro.Inv) :
    ∃ ro' out', ROp.runAll ops (ro, out) = .ok (ro', out') ∧ ro'.Inv ∧
      out'.map ctxOf ++ ro'.queue = out.map ctxOf ++ ro.queue ++ arrivals ro.queue ops := by
  induction ops generalizing ro out with
  | nil => exact ⟨ro, out, rfl, h, by simp [arrivals]⟩
  | cons op ops ih =>
    have hv' := fun o ho => hv o (List.mem_cons_of_mem _ ho)
    have h0 := hv op List.mem_cons_self
    cases op with
    | add i m =>
      obtain ⟨ro1, e1, e2, e3⟩ := h.add (i := i) (m := m) h0
      obtain ⟨ro', out', f1, f2, f3⟩ := ih hv' ro1 out e2
      refine ⟨ro', out', by simp only [ROp.runAll, ROp.run, e1, Res.ok_bind, Res.pure_eq]; exact f1, f2, ?_⟩
      rw [f3, e3]
      simp only [arrivals]
      split <;> simp
    | ack id c =>
      obtain ⟨e2, e3⟩ := h.ack id c
      obtain ⟨ro', out', f1, f2, f3⟩ := ih hv' _ out e2
      refine ⟨ro', out', by simp only [ROp.runAll, ROp.run, Res.ok_bind]; exact f1, f2, ?_⟩
      rw [f3, e3]
      simp [arrivals]
    | advance c =>
      have had := h.advance c
      by_cases hc : c ∈ ro.queue
      · obtain ⟨a, b, hab, hna⟩ := List.eq_append_cons_of_mem hc
        obtain ⟨pre, pend, g1, g2, g3, g4, g5, g6⟩ := had.2 a b hab
        obtain ⟨ro', out', f1, f2, f3⟩ := ih hv' _ (out ++ pre.map Prod.snd) g6
        refine ⟨ro', out', by simp only [ROp.runAll, ROp.run, g5, Res.ok_bind, Res.pure_eq]; exact f1, f2, ?_⟩
        rw [f3]
        simp only [arrivals, if_pos hc]
        have hi : ro.queue.idxOf c = a.length := by
          rw [hab, List.idxOf_append, if_neg hna]; simp
        rw [hi, hab, List.map_append, g3]
        rw [show a ++ c :: b = (a ++ [c]) ++ b by simp, List.drop_append_of_le_length (by simp)]
        rw [show List.drop (a.length + 1) (a ++ [c]) = [] by simp]
        simp
      · have := had.1 hc
        obtain ⟨ro', out', f1, f2, f3⟩ := ih hv' ro out h
        refine ⟨ro', out', by simp only [ROp.runAll, ROp.run, this, Res.ok_bind, Res.pure_eq, List.append_nil]; exact f1, f2, ?_⟩
        rw [f3]
        simp [arrivals, if_neg hc]

/-- C27. Any sequence of operations on a fresh queue runs without aborting; map and queue hold the same contexts without
repetition; and what `Advance` returned so far, followed by what is still queued, is exactly the requests that arrived, in
arrival order: nothing is lost, repeated or reordered. -/
theorem C27_fifo (option : ReadOnlyOption) (ops : List ROp) (hv : ∀ op ∈ ops, op.Valid) :
    ∃ ro out, ROp.runAll ops ({ option := option }, []) = .ok (ro, out) ∧
      ro.pending.map Prod.fst = ro.queue ∧ ro.queue.Nodup ∧ out.map ctxOf ++ ro.queue = arrivals [] ops := by
  obtain ⟨ro, out, h1, h2, h3⟩ := runAll_fifo ops hv { option := option } [] ⟨rfl, List.nodup_nil, by intro k st h; cases h⟩
  exact ⟨ro, out, h1, h2.same, h2.nodup, by simpa using h3⟩

/-- C27. `Advance(ctx)` on any reachable queue: nothing if `ctx` is not pending; otherwise exactly the requests up to and
including `ctx`, in arrival order, which are then gone, while the later ones stay as they were. -/
theorem C27_advance_exact (option : ReadOnlyOption) (ops : List ROp) (hv : ∀ op ∈ ops, op.Valid) (ctx : Bytes)
    {ro : ReadOnly} {out : List ReadIndexStatus} (hr : ROp.runAll ops ({ option := option }, []) = .ok (ro, out)) :
    (ctx ∉ ro.queue → ro.advance ctx = .ok (ro, [])) ∧
    (∀ before after, ro.queue = before ++ ctx :: after → ∃ ro' rss, ro.advance ctx = .ok (ro', rss) ∧
      rss.map ctxOf = before ++ [ctx] ∧ rss = (ro.pending.take (before.length + 1)).map Prod.snd ∧
      ro'.queue = after ∧ ro'.pending = ro.pending.drop (before.length + 1)) := by
  obtain ⟨ro1, out1, h1, h2, h3⟩ := runAll_fifo ops hv { option := option } [] ⟨rfl, List.nodup_nil, by intro k st h; cases h⟩
  rw [h1] at hr
  simp only [Res.ok.injEq, Prod.mk.injEq] at hr
  obtain ⟨rfl, rfl⟩ := hr
  have := h2.advance ctx
  refine ⟨this.1, fun a b hab => ?_⟩
  obtain ⟨pre, pend, g1, g2, g3, g4, g5, g6⟩ := this.2 a b hab
  refine ⟨_, _, g5, g3, ?_, rfl, ?_⟩
  · rw [g1, List.take_append_of_le_length (by omega), List.take_of_length_le (by omega)]
  · show pend = _
    rw [g1, List.drop_append_of_le_length (by omega), List.drop_eq_nil_of_le (by omega)]
    rfl

/-- Witness: three requests, the second one is a duplicate; acknowledging the second distinct one releases both. -/
example : (ROp.runAll [.add 5 { entries := [{ data := [1] }] }, .add 6 { entries := [{ data := [1] }] },
      .add 6 { entries := [{ data := [2] }] }, .ack 3 [2], .advance [2]] ({}, [])).isOk = true ∧
    arrivals [] [.add 5 { entries := [{ data := [1] }] }, .add 6 { entries := [{ data := [1] }] },
      .add 6 { entries := [{ data := [2] }] }, .ack 3 [2], .advance [2]] = [[1], [2]] := by decide

end Craft
