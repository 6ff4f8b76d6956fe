import Verif.Node.ReadyConf

/-! # What a leader does to its log -/

namespace Craft
open Spec

/-- Index `i` of the log holds a configuration change. -/
def _root_.Craft.Spec.LogView.ConfAt (v : LogView) (i : Nat) : Prop := ∃ e, v.entry i = some e ∧ e.type ≠ .normal

theorem push_last (v : LogView) (es : List Entry) : (v.push es).last = v.last + es.length := by
  unfold LogView.push LogView.last
  rw [List.length_append]; dsimp only; omega

theorem push_entry_le (v : LogView) (es : List Entry) {i : Nat} (h : i ≤ v.last) : (v.push es).entry i = v.entry i := by
  unfold LogView.push LogView.entry LogView.last at *
  dsimp only
  split
  · rfl
  · rw [List.getElem?_append_left (by omega)]

theorem push_entry_gt (v : LogView) (es : List Entry) {i : Nat} (h : v.last < i) : (v.push es).entry i = es[i - v.last - 1]? := by
  unfold LogView.push LogView.entry LogView.last at *
  dsimp only
  rw [if_neg (by omega), List.getElem?_append_right (by omega)]
  congr 1; omega

/-- A leader's append: the entries, the applied index and the pending-conf index before and after. -/
structure Grow (v v' : LogView) (a a' p p' : Nat) : Prop where
  le : a ≤ a'
  ents : ∃ es, v' = v.push es ∧ (((∀ e ∈ es, e.type = .normal) ∧ p' = p) ∨
    (p ≤ a' ∧ ∃ x e y, es = x ++ e :: y ∧ e.type ≠ .normal ∧ (∀ z ∈ x ++ y, z.type = .normal) ∧ p' = v.last + x.length + 1))

namespace Grow
variable {v v' : LogView} {a a' p p' : Nat}

/-- Configuration changes of the longer log: those of the shorter one, and the new one. -/
theorem cases (h : Grow v v' a a' p p') {i : Nat} (hi : v'.ConfAt i) :
    (v.ConfAt i ∧ i ≤ v.last ∧ (p' = p ∨ p ≤ a')) ∨ (v.last < i ∧ i = p' ∧ p ≤ a') := by
  obtain ⟨es, rfl, h1⟩ := h.ents
  obtain ⟨e, he, ht⟩ := hi
  rcases Nat.lt_or_ge v.last i with hlt | hge
  · rw [push_entry_gt v es hlt] at he
    rcases h1 with ⟨h1, _⟩ | ⟨h1, x, e0, y, rfl, h2, h3, h4⟩
    · exact absurd (h1 e (List.mem_of_getElem? he)) ht
    · refine Or.inr ⟨hlt, ?_, h1⟩
      by_cases hx : i - v.last - 1 < x.length
      · rw [List.getElem?_append_left hx] at he
        exact absurd (h3 e (List.mem_append_left _ (List.mem_of_getElem? he))) ht
      · rw [List.getElem?_append_right (by omega)] at he
        by_cases hx2 : i - v.last - 1 = x.length
        · omega
        · rw [show i - v.last - 1 - x.length = (i - v.last - 1 - x.length - 1) + 1 by omega, List.getElem?_cons_succ] at he
          exact absurd (h3 e (List.mem_append_right _ (List.mem_of_getElem? he))) ht
  · rw [push_entry_le v es hge] at he
    exact Or.inl ⟨⟨e, he, ht⟩, hge, by
      rcases h1 with ⟨_, h1⟩ | ⟨h1, _⟩
      · exact Or.inl h1
      · exact Or.inr h1⟩

theorem conf (h : Grow v v' a a' p p') (hc : ∀ i, v.ConfAt i → i ≤ max a p) : ∀ i, v'.ConfAt i → i ≤ max a' p' := by
  intro i hi
  have := h.le
  rcases h.cases hi with ⟨h1, h2, h3⟩ | ⟨h1, h2, h3⟩
  · have := hc i h1
    omega
  · omega

theorem one (h : Grow v v' a a' p p') (hc : ∀ i, v.ConfAt i → i ≤ max a p) {k : Nat}
    (ho : ∀ i j, v.ConfAt i → v.ConfAt j → k < i → a < i → a < j → i = j) :
    ∀ i j, v'.ConfAt i → v'.ConfAt j → k < i → a' < i → a' < j → i = j := by
  intro i j hi hj hk ha hb
  have := h.le
  rcases h.cases hi with ⟨h1, h2, h3⟩ | ⟨h1, h2, h3⟩ <;> rcases h.cases hj with ⟨g1, g2, g3⟩ | ⟨g1, g2, g3⟩
  · exact ho i j h1 g1 hk (by omega) (by omega)
  · have := hc i h1; omega
  · have := hc j g1; omega
  · omega

end Grow

/-- The invariant of a node: its log is in order, and a leader's configuration changes are applied or not beyond the
pending-conf index. -/
structure NInv (c : Core) : Prop where
  linv : LInv c.log
  conf : c.state = .leader → ∀ i, c.log.view.ConfAt i → i ≤ max c.log.applied c.pci

/-- Still leading term `T`, with the log that was `v0` once. -/
structure Lead (v0 : LogView) (T : Nat) (c : Core) : Prop where
  term : c.term = T
  state : c.state = .leader
  base : v0.base ≤ c.log.view.base
  last : v0.last ≤ c.log.view.last
  keep : ∀ i, c.log.view.base < i → i ≤ v0.last → c.log.view.entry i = v0.entry i
  one : ∀ i j, c.log.view.ConfAt i → c.log.view.ConfAt j → v0.last < i → c.log.applied < i → c.log.applied < j → i = j

/-- Never again leading term `T`. -/
def Past (T : Nat) (c : Core) : Prop := T < c.term ∨ (c.term = T ∧ c.state ≠ .leader ∧ c.state ≠ .candidate)

theorem CStep.past {env : Env} {im : Message} {c c' : Core} {ms : List Message} (h : CStep env im c ms c') {T : Nat} (hp : Past T c) : Past T c' := by
  rcases hp with hp | ⟨h1, h2, h3⟩
  · left
    cases h with
    | follower T' P h => show T < T'; omega
    | candidate P => show T < c.term + 1; omega
    | _ => exact hp
  · cases h with
    | follower T' P h =>
      by_cases ht : T' = T
      · exact Or.inr ⟨ht, (nomatch ·), (nomatch ·)⟩
      · left; show T < T'; omega
    | candidate P => left; show T < c.term + 1; omega
    | preCandidate => exact Or.inr ⟨h1, (nomatch ·), (nomatch ·)⟩
    | leader P h => exact absurd h h3
    | _ => exact Or.inr ⟨h1, h2, h3⟩

theorem CStep.append_grow {c : Core} {es : List Entry} {l : RaftLog} {pci : Nat} (hi : LInv c.log)
    (h : c.log.append (Raft.stamp c.term (c.log.lastIndex + 1) es) = .ok l) (hg : ConfGate c es pci) :
    Grow c.log.view l.view c.log.applied l.applied c.pci pci := by
  obtain ⟨w, v⟩ := Raft.append_view hi.wf _ h
  have hap : l.applied = c.log.applied := RaftLog.append_applied h
  have hl := hi.wf.lastIndex_eq
  have hca := hi.app_com
  have hcl := hi.com_last
  refine ⟨by omega, _, v, ?_⟩
  have hty : ∀ t i (es : List Entry), (∀ e ∈ es, e.type = .normal) → ∀ e ∈ Raft.stamp t i es, e.type = .normal := by
    intro t i es hes e he
    obtain ⟨j, hj⟩ := List.mem_iff_getElem?.1 he
    obtain ⟨e0, h0, rfl⟩ := Raft.stamp_getElem hj
    exact hes e0 (List.mem_of_getElem? h0)
  have happ : ∀ t i (x y : List Entry), Raft.stamp t i (x ++ y) = Raft.stamp t i x ++ Raft.stamp t (i + x.length) y := by
    intro t i x y
    induction x generalizing i with
    | nil => rfl
    | cons e x ih =>
      show _ :: Raft.stamp t (i + 1) (x ++ y) = _ :: (Raft.stamp t (i + 1) x ++ Raft.stamp t (i + (x.length + 1)) y)
      rw [ih, show i + 1 + x.length = i + (x.length + 1) by omega]
  rcases hg (by omega) with ⟨h1, h2⟩ | ⟨h1, x, e, y, rfl, h3, h4, h5⟩
  · exact Or.inl ⟨hty _ _ _ h1, h2⟩
  · refine Or.inr ⟨by omega, Raft.stamp c.term (c.log.lastIndex + 1) x, _,
      Raft.stamp c.term (c.log.lastIndex + 1 + x.length + 1) y, happ _ _ _ _, h3, ?_, ?_⟩
    · intro z hz
      rcases List.mem_append.1 hz with hz | hz
      · exact hty _ _ _ (fun e he => h4 e (List.mem_append_left _ he)) z hz
      · exact hty _ _ _ (fun e he => h4 e (List.mem_append_right _ he)) z hz
    · rw [Raft.stamp_length]; omega

theorem RaftLog.maybeCommit_view {l l' : RaftLog} {i t : Nat} {b : Bool} (h : l.maybeCommit i t = .ok (l', b)) :
    l'.view = l.view ∧ l'.applied = l.applied := by
  rw [(RaftLog.maybeCommit_shape h).1]; exact ⟨rfl, rfl⟩

theorem CStep.ninv {env : Env} {im : Message} {c c' : Core} {ms : List Message} (h : CStep env im c ms c') (hw : AppWF im) (hn : NInv c) :
    NInv c' := by
  refine ⟨(h.linv hw hn.linv).1, ?_⟩
  have hl := hn.linv.wf.lastIndex_eq
  cases h with
  | emit h => exact hn.conf
  | prs P h => exact hn.conf
  | follower T P h1 h2 => exact (nomatch ·)
  | candidate P h1 h2 h3 => exact (nomatch ·)
  | preCandidate h1 h2 => exact (nomatch ·)
  | pollSelf h => exact hn.conf
  | pollResp h1 h2 => exact hn.conf
  | leader P h1 h2 h3 =>
    intro _ i ⟨e, he, _⟩
    have := LogView.entry_some_range (v := c.log.view) he
    show i ≤ max c.log.applied c.log.lastIndex
    omega
  | append es l p pci h1 h2 h3 h4 => exact fun _ => (CStep.append_grow hn.linv h2 h4).conf (hn.conf h1)
  | pciUp n h1 h2 =>
    intro _ i ⟨e, he, _⟩
    have := LogView.entry_some_range (v := c.log.view) he
    show i ≤ max c.log.applied n
    omega
  | commit l h1 h2 =>
    intro hs
    show ∀ i, l.view.ConfAt i → i ≤ max l.applied c.pci
    obtain ⟨e1, e2⟩ := RaftLog.maybeCommit_view h2
    rw [e1, e2]
    exact hn.conf hs
  | ackRecv p p' h1 => exact hn.conf
  | grant h1 => exact hn.conf
  | recvApp l last h1 => intro hs; exact absurd (h1.symm.trans hs) (by decide)
  | recvHeartbeat l h1 => intro hs; exact absurd (h1.symm.trans hs) (by decide)
  | recvSnapCommit l h1 => intro hs; exact absurd (h1.symm.trans hs) (by decide)
  | recvSnap cfg P0 p mi h1 => intro hs; exact absurd (h1.symm.trans hs) (by decide)
  | _ => exact hn.conf

theorem Lead.same {v0 : LogView} {T : Nat} {c c' : Core} (h : Lead v0 T c) (ht : c'.term = c.term) (hs : c'.state = c.state)
    (hv : c'.log.view = c.log.view) (ha : c.log.applied ≤ c'.log.applied) : Lead v0 T c' where
  term := ht.trans h.term
  state := hs.trans h.state
  base := by rw [hv]; exact h.base
  last := by rw [hv]; exact h.last
  keep := by rw [hv]; exact h.keep
  one := by
    rw [hv]
    intro i j hi hj hk h1 h2
    exact h.one i j hi hj hk (by omega) (by omega)

theorem Lead.grow {v0 : LogView} {T : Nat} {c c' : Core} (h : Lead v0 T c) (hn : NInv c) (ht : c'.term = c.term) (hs : c'.state = c.state)
    (hg : Grow c.log.view c'.log.view c.log.applied c'.log.applied c.pci c'.pci) : Lead v0 T c' := by
  have h1 := hg.one (hn.conf h.state) h.one
  obtain ⟨es, hv, _⟩ := hg.ents
  have hb : c'.log.view.base = c.log.view.base := by rw [hv]; rfl
  refine ⟨ht.trans h.term, hs.trans h.state, by rw [hb]; exact h.base, ?_, ?_, h1⟩
  · rw [hv, push_last]; have := h.last; omega
  · intro i hi hi2
    rw [hb] at hi
    rw [hv, push_entry_le _ _ (by have := h.last; omega)]
    exact h.keep i hi hi2

theorem CStep.lead {env : Env} {im : Message} {c c' : Core} {ms : List Message} (h : CStep env im c ms c') (hn : NInv c) {v0 : LogView}
    {T : Nat} (hl : Lead v0 T c) : Lead v0 T c' ∨ Past T c' := by
  have hst := hl.state
  cases h with
  | follower T' P h1 h2 =>
    right
    have ht := hl.term
    by_cases hT : T' = T
    · exact Or.inr ⟨hT, (nomatch ·), (nomatch ·)⟩
    · left; show T < T'; omega
  | candidate P h1 h2 h3 => exact absurd hst h2
  | preCandidate h1 h2 => exact absurd hst h2
  | leader P h1 h2 h3 => rw [h1] at hst; cases hst
  | append es l p pci h1 h2 h3 h4 => exact Or.inl (hl.grow hn rfl rfl (CStep.append_grow hn.linv h2 h4))
  | commit l h1 h2 =>
    obtain ⟨e1, e2⟩ := RaftLog.maybeCommit_view h2
    exact Or.inl (hl.same rfl rfl e1 (by show c.log.applied ≤ l.applied; omega))
  | recvApp l last h1 => rw [h1] at hst; cases hst
  | recvHeartbeat l h1 => rw [h1] at hst; cases hst
  | recvSnapCommit l h1 => rw [h1] at hst; cases hst
  | recvSnap cfg P0 p mi h1 => rw [h1] at hst; cases hst
  | _ => exact Or.inl (hl.same rfl rfl rfl (Nat.le_refl _))

theorem CPath.ninv {env : Env} {im : Message} {c c' : Core} {ms : List Message} (h : CPath env im c ms c') (hw : AppWF im) (hn : NInv c) :
    NInv c' := by
  induction h with
  | nil => exact hn
  | cons hs _ ih => exact ih (hs.ninv hw hn)

theorem CPath.past {env : Env} {im : Message} {c c' : Core} {ms : List Message} (h : CPath env im c ms c') {T : Nat} (hp : Past T c) : Past T c' := by
  induction h with
  | nil => exact hp
  | cons hs _ ih => exact ih (hs.past hp)

theorem CPath.lead {env : Env} {im : Message} {c c' : Core} {ms : List Message} (h : CPath env im c ms c') (hw : AppWF im) (hn : NInv c)
    {v0 : LogView} {T : Nat} (hl : Lead v0 T c) : Lead v0 T c' ∨ Past T c' := by
  induction h with
  | nil => exact Or.inl hl
  | cons hs ht ih =>
    rcases hs.lead hn hl with h1 | h1
    · exact ih (hs.ninv hw hn) h1
    · exact Or.inr (ht.past h1)

/-- A node starts in order. -/
theorem NInv.new {env : Env} {cfg : Config} {st : Storage} {rng : Nat} {n : RawNode} (h : RawNode.new env cfg st rng = .ok n) (hs : st.Sound) :
    NInv n.raft.core := by
  have hf := (RawNode.new_ok h).1
  have hlast := hs.wf.lastIndex_eq
  have hfirst : st.firstIndex = st.view.base + 1 := Storage.firstIndex_eq _
  have hbl : st.view.base ≤ st.view.last := Nat.le_add_right _ _
  have hsn := hs.snap
  refine ⟨?_, fun hl => absurd (hf.state.symm.trans hl) (by decide)⟩
  refine LStart.inv ⟨st, n.raft.log.maxNextEntsSize, n.raft.log.committed, n.raft.log.applied, hs.wf, ?_, ?_, ?_, ?_, ?_⟩
  · rcases hf.applied with ⟨_, h1⟩ | ⟨h1, h2, h3⟩ <;> omega
  · rcases hf.applied with ⟨_, h1⟩ | ⟨h1, h2, h3⟩
    · rcases hf.commit with ⟨_, h4⟩ | ⟨h4, h5, h6⟩ <;> omega
    · omega
  · rcases hf.commit with ⟨_, h4⟩ | ⟨h4, h5, h6⟩ <;> omega
  · rcases hf.commit with ⟨h7, h4⟩ | ⟨h4, h5, h6⟩
    · rw [h7] at hsn
      have : ({} : HardState).commit = 0 := rfl
      omega
    · omega
  · have e1 := hf.storage
    have e2 := hf.unstable
    show n.raft.log = _
    rw [← e1] at e2 ⊢
    unfold RaftLog.new
    rw [← e2]

theorem ReadyDone.linv {env : Env} {n n' : RawNode} {st : Storage} {es : List Entry} {c : Nat} (h : LInv n.raft.log)
    (hsv : n.raft.log.storage.save (readyOf env n) = .ok st) (hd : ReadyDone env n n' st es c) :
    LInv n'.raft.log ∧ n'.raft.log.view = n.raft.log.view.push es ∧ n.raft.log.applied ≤ n'.raft.log.applied := by
  obtain ⟨st', h1, e2, e3, e4, _⟩ := save_eq (env := env) h
  rw [hsv] at h1
  cases h1
  have hca := h.app_com
  have hcl := h.com_last
  have hbc := h.base_com
  have hle := h.nextOut_length env
  have hc := hd.le
  have hlast := hd.last
  have hbl : n.raft.log.view.base ≤ n.raft.log.view.last := Nat.le_add_right _ _
  have hcont : Contig (n.raft.log.view.last + 1) es := by
    rcases hd.auto with ⟨rfl, _⟩ | ⟨_, _, rfl, _⟩
    · exact .nil _
    · exact Contig.cons.2 ⟨rfl, .nil _⟩
  have hv : n'.raft.log.view = n.raft.log.view.push es := by
    rw [hd.log, RaftLog.view_nosnap (by rfl)]
    dsimp only
    rw [e3]
    unfold LogView.push LogView.last
    rw [List.take_of_length_le (by omega)]
  refine ⟨?_, hv, by rw [hd.log]; dsimp only; omega⟩
  have hvl : n'.raft.log.view.last = n.raft.log.view.last + es.length := by rw [hv, push_last]
  have hvb : n'.raft.log.view.base = n.raft.log.view.base := by rw [hv]; rfl
  rw [hd.log] at hvl hvb ⊢
  refine ⟨⟨e2, hcont, ?_, fun _ => ?_, fun _ he => ?_⟩, ?_, ?_, ?_, fun _ => ?_, ?_, ?_, ?_⟩
  · intro s hs; cases hs
  · show st.view.base < n.raft.log.view.last + 1 ∧ n.raft.log.view.last + 1 ≤ st.view.last + 1
    rw [e3]; omega
  · show n.raft.log.view.last + 1 = st.view.last + 1
    rw [e3]
  · show max n.raft.log.applied n.raft.log.view.base + _ ≤ c; omega
  · rw [hvl]; exact hlast
  · rw [hvb]; show _ ≤ c; omega
  · rw [hvb]; show _ ≤ max n.raft.log.applied n.raft.log.view.base + _; omega
  · show max n.raft.log.applied n.raft.log.view.base + _ < n.raft.log.view.last + 1; omega
  · intro s hs; cases hs
  · show st.snapshot.metadata.index ≤ c
    rw [e4]
    cases hs : n.raft.log.unstable.snapshot with
    | none => have := h.snap_com; simp only [Option.getD_none]; omega
    | some s =>
      have hvb : n.raft.log.view.base = s.metadata.index := by rw [RaftLog.view_snap hs]
      simp only [Option.getD_some]; omega

theorem ReadyDone.grow {env : Env} {n n' : RawNode} {st : Storage} {es : List Entry} {c : Nat} (h : LInv n.raft.log)
    (hsv : n.raft.log.storage.save (readyOf env n) = .ok st) (hd : ReadyDone env n n' st es c) :
    Grow n.raft.log.view n'.raft.log.view n.raft.log.applied n'.raft.log.applied n.raft.pendingConfIndex n'.raft.pendingConfIndex := by
  obtain ⟨_, hv, ha⟩ := hd.linv h hsv
  refine ⟨ha, es, hv, ?_⟩
  rcases hd.auto with ⟨rfl, h1⟩ | ⟨_, h1, rfl, h2⟩
  · exact Or.inl ⟨fun e he => (nomatch he), h1⟩
  · exact Or.inr ⟨h1, [], _, [], rfl, (nomatch ·), fun z hz => (nomatch hz), by rw [h2]; rfl⟩

/-- The log after the application changed the storage: the same, or compacted. -/
theorem LInv.withStorage {l : RaftLog} (h : LInv l) {env : Env} {st : Storage} (hs : LStep env ⟨l, []⟩ ⟨{ l with storage := st }, []⟩)
    (hv : ({ l with storage := st } : RaftLog).view = l.view ∨ ∃ k, l.view.base ≤ k ∧ k ≤ l.view.last ∧ ({ l with storage := st } : RaftLog).view = l.view.compact k) :
    LInv { l with storage := st } ∧ l.view.base ≤ ({ l with storage := st } : RaftLog).view.base ∧
    ({ l with storage := st } : RaftLog).view.last = l.view.last ∧
    (∀ i, ({ l with storage := st } : RaftLog).view.base < i → ({ l with storage := st } : RaftLog).view.entry i = l.view.entry i) := by
  obtain ⟨h1, h2⟩ := h.step' hs
  refine ⟨h1, h2.base_mono, ?_⟩
  rcases hv with hv | ⟨k, hk1, hk2, hv⟩
  · rw [hv]; exact ⟨rfl, fun _ _ => rfl⟩
  · rw [hv]
    exact ⟨LogView.compact_last hk1 hk2, fun i hi => LogView.compact_entry hk1 hi⟩

theorem LInv.compact_withStorage {l : RaftLog} (h : LInv l) (env : Env) {i : Nat} (hi : i ≤ l.applied) {st : Storage} {e : Option Err}
    (he : l.storage.compact i = .ok (st, e)) :
    LInv { l with storage := st } ∧ l.view.base ≤ ({ l with storage := st } : RaftLog).view.base ∧
    ({ l with storage := st } : RaftLog).view.last = l.view.last ∧
    (∀ i, ({ l with storage := st } : RaftLog).view.base < i → ({ l with storage := st } : RaftLog).view.entry i = l.view.entry i) := by
  refine h.withStorage (env := env) (.compact i hi he) ?_
  rcases h.compact_view hi he with rfl | ⟨h1, h2, _, _, _, _, h3 | ⟨_, h3, h4⟩⟩
  · exact Or.inl rfl
  · exact Or.inl h3
  · have := h.app_com
    have := h.com_last
    exact Or.inr ⟨i, by omega, by omega, h4⟩

theorem LInv.createSnapshot_withStorage {l : RaftLog} (h : LInv l) (env : Env) {i : Nat} {cs : Option ConfState} {data : Bytes} (hi : i ≤ l.applied)
    {st : Storage} {e : Except Err Snapshot} (he : l.storage.createSnapshot i cs data = .ok (st, e)) :
    LInv { l with storage := st } ∧ l.view.base ≤ ({ l with storage := st } : RaftLog).view.base ∧
    ({ l with storage := st } : RaftLog).view.last = l.view.last ∧
    (∀ i, ({ l with storage := st } : RaftLog).view.base < i → ({ l with storage := st } : RaftLog).view.entry i = l.view.entry i) := by
  refine h.withStorage (env := env) (.createSnapshot i cs data hi he) ?_
  rcases Storage.createSnapshot_cases h.wf.stor he with rfl | ⟨_, _, h1, _⟩
  · exact Or.inl rfl
  · rw [h1]; exact Or.inl rfl

/-- What a change of storage does for the invariants. -/
theorem NInv.storage {n : RawNode} (h : NInv n.raft.core) {st : Storage} (h1 : LInv { n.raft.log with storage := st })
    (h2 : ∀ i, ({ n.raft.log with storage := st } : RaftLog).view.base < i →
      ({ n.raft.log with storage := st } : RaftLog).view.entry i = n.raft.log.view.entry i) : NInv (n.withStorage st).raft.core := by
  refine ⟨h1, fun hl i ⟨e, he, ht⟩ => ?_⟩
  have he' : ({ n.raft.log with storage := st } : RaftLog).view.entry i = some e := he
  have := LogView.entry_some_range he'
  rw [h2 i this.1] at he'
  exact h.conf hl i ⟨e, he', ht⟩

theorem Lead.storage {n : RawNode} {v0 : LogView} {T : Nat} (h : Lead v0 T n.raft.core) {st : Storage}
    (h0 : n.raft.log.view.base ≤ ({ n.raft.log with storage := st } : RaftLog).view.base)
    (h1 : ({ n.raft.log with storage := st } : RaftLog).view.last = n.raft.log.view.last)
    (h2 : ∀ i, ({ n.raft.log with storage := st } : RaftLog).view.base < i →
      ({ n.raft.log with storage := st } : RaftLog).view.entry i = n.raft.log.view.entry i) : Lead v0 T (n.withStorage st).raft.core := by
  have hc : ∀ i, ({ n.raft.log with storage := st } : RaftLog).view.ConfAt i → n.raft.log.view.ConfAt i := by
    rintro i ⟨e, he, ht⟩
    have := LogView.entry_some_range he
    rw [h2 i this.1] at he
    exact ⟨e, he, ht⟩
  refine ⟨h.term, h.state, Nat.le_trans h.base h0, by show _ ≤ ({ n.raft.log with storage := st } : RaftLog).view.last; rw [h1]; exact h.last, ?_, ?_⟩
  · intro i hi hi2
    show ({ n.raft.log with storage := st } : RaftLog).view.entry i = _
    rw [h2 i hi]
    exact h.keep i (Nat.lt_of_le_of_lt h0 hi) hi2
  · intro i j hi hj
    exact h.one i j (hc i hi) (hc j hj)

theorem Call.msg_wf {env : Env} {n : RawNode} {c : Call} (h : c.WF) : AppWF (c.msg env n) := by
  cases c with
  | step m => exact h
  | tick => simp only [Call.msg]; split <;> exact (nomatch ·)
  | _ => exact (nomatch ·)

theorem NodeRun.ninv {env : Env} {n n' : RawNode} (h : NodeRun env n n') (hn : NInv n.raft.core) : NInv n'.raft.core := by
  induction h with
  | refl => exact hn
  | call c _ h1 h2 h3 h4 ih =>
    obtain ⟨_, ms, _, hp⟩ := Call.plain_sim h1 h2 h4
    exact hp.ninv (Call.msg_wf h3) ih
  | ready ccs _ h1 ih =>
    obtain ⟨_, st, es, c, h2, hd⟩ := handleReady_conf ih.linv h1
    exact ⟨(hd.linv ih.linv h2).1, fun hl => (hd.grow ih.linv h2).conf (ih.conf (hd.state.symm.trans hl))⟩
  | compact i _ h1 h2 ih =>
    obtain ⟨k1, _, _, k2⟩ := ih.linv.compact_withStorage env h1 h2
    exact ih.storage k1 k2
  | createSnapshot i cs data _ h1 h2 ih =>
    obtain ⟨k1, _, _, k2⟩ := ih.linv.createSnapshot_withStorage env h1 h2
    exact ih.storage k1 k2

theorem NodeRun.lead {env : Env} {n n' : RawNode} (h : NodeRun env n n') (hn : NInv n.raft.core) {v0 : LogView} {T : Nat}
    (hl : Lead v0 T n.raft.core) : Lead v0 T n'.raft.core ∨ Past T n'.raft.core := by
  induction h with
  | refl => exact Or.inl hl
  | call c h0 h1 h2 h3 h4 ih =>
    obtain ⟨_, ms, _, hp⟩ := Call.plain_sim h1 h2 h4
    rcases ih with ih | ih
    · exact hp.lead (Call.msg_wf h3) (h0.ninv hn) ih
    · exact Or.inr (hp.past ih)
  | @ready ccs a b rd h0 h1 ih =>
    have hi := h0.ninv hn
    obtain ⟨_, st, es, c, h2, hd⟩ := handleReady_conf hi.linv h1
    rcases ih with ih | ih
    · exact Or.inl (ih.grow hi hd.term hd.state (hd.grow hi.linv h2))
    · refine Or.inr ?_
      unfold Past at ih ⊢
      have e1 : b.raft.core.term = a.raft.core.term := hd.term
      have e2 : b.raft.core.state = a.raft.core.state := hd.state
      rwa [e1, e2]
  | compact i h0 h1 h2 ih =>
    obtain ⟨k1, k2, k3, k4⟩ := (h0.ninv hn).linv.compact_withStorage env h1 h2
    rcases ih with ih | ih
    · exact Or.inl (ih.storage k2 k3 k4)
    · exact Or.inr ih
  | createSnapshot i cs data h0 h1 h2 ih =>
    obtain ⟨k1, k2, k3, k4⟩ := (h0.ninv hn).linv.createSnapshot_withStorage env h1 h2
    rcases ih with ih | ih
    · exact Or.inl (ih.storage k2 k3 k4)
    · exact Or.inr ih

/-- Where a leadership is first observed. -/
theorem Lead.start {c : Core} (hl : c.state = .leader) : Lead c.log.view c.term c where
  term := rfl
  state := hl
  base := Nat.le_refl _
  last := Nat.le_refl _
  keep := fun _ _ _ => rfl
  one := by
    rintro i j ⟨e, he, _⟩ _ hk
    have := LogView.entry_some_range he
    omega

end Craft
