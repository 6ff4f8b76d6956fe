import Verif.Node.Window
import Verif.Demo

/-! # C80: what a membership change does to what a node keeps about its peers -/

namespace Craft

namespace Changer
variable {c : Changer} {cfg cfg' : TConfig} {prs prs' P : ProgressMap} {rm : Nat → Prop}

/-- Every record is an old one, up to the learner mark, or a new one of a node that had none or was removed. -/
structure Record (c : Changer) (rm : Nat → Prop) (P prs : ProgressMap) : Prop where
  some : ∀ j q, prs.find j = some q → (∃ p b, P.find j = some p ∧ q = { p with isLearner := b }) ∨
    (∃ b, q = Progress.new c.lastIndex 0 c.tracker.maxInflight b true ∧ (P.find j = none ∨ rm j))
  none : ∀ j, prs.find j = none → P.find j = none ∨ rm j

theorem Record.refl : Record c rm P P := ⟨fun _ q h => Or.inl ⟨q, q.isLearner, h, rfl⟩, fun _ h => Or.inl h⟩

theorem Record.insert {id : Nat} {q : Progress} (h : Record c rm P prs)
    (hq : (∃ p b, P.find id = .some p ∧ q = { p with isLearner := b }) ∨
      (∃ b, q = Progress.new c.lastIndex 0 c.tracker.maxInflight b true ∧ (P.find id = .none ∨ rm id))) : Record c rm P (prs.insert id q) := by
  refine ⟨fun j x hx => ?_, fun j hx => ?_⟩ <;> rw [AMap.find_insert] at hx <;> split at hx
  · rename_i e; cases hx; rw [← e]; exact hq
  · exact h.some j x hx
  · cases hx
  · exact h.none j hx

/-- Marking a record. -/
theorem Record.mark {id : Nat} {q : Progress} {b : Bool} (h : Record c rm P prs) (hq : prs.find id = .some q) : Record c rm P (prs.insert id { q with isLearner := b }) := by
  refine h.insert ?_
  rcases h.some id q hq with ⟨p, b', h1, rfl⟩ | ⟨b', rfl, h1⟩
  · exact Or.inl ⟨p, b, h1, rfl⟩
  · exact Or.inr ⟨b, rfl, h1⟩

theorem Record.init {id : Nat} {b : Bool} (h : Record c rm P prs) (hq : prs.find id = .none) : Record c rm P (c.initProgress cfg prs id b).2 :=
  h.insert (Or.inr ⟨b, rfl, h.none id hq⟩)

theorem Record.makeVoter {id : Nat} (h : Record c rm P prs) : Record c rm P (c.makeVoter cfg prs id).2 := by
  unfold Changer.makeVoter
  split
  · exact h.init (by assumption)
  · exact h.mark (by assumption)

theorem Record.remove {id : Nat} (h : Record c rm P prs) (hr : rm id) : Record c rm P (remove cfg prs id).2 := by
  unfold Changer.remove
  split
  · exact h
  · dsimp only
    split
    · exact h
    · refine ⟨fun j x hx => ?_, fun j hx => ?_⟩ <;> rw [AMap.find_erase] at hx <;> split at hx
      · cases hx
      · exact h.some j x hx
      · rename_i e; rw [← e]; exact Or.inr hr
      · exact h.none j hx

theorem Record.makeLearner {id : Nat} (h : Record c rm P prs) : Record c rm P (c.makeLearner cfg prs id).2 := by
  unfold Changer.makeLearner
  split
  · exact h.init (by assumption)
  · rename_i pr hp
    split
    · exact h
    · have k : Record c rm P ((Changer.remove cfg prs id).2.insert id pr) := by
        refine ⟨fun j x hx => ?_, fun j hx => ?_⟩ <;> rw [AMap.find_insert] at hx <;> split at hx
        · rename_i e; cases hx; rw [← e]; exact h.some _ _ hp
        · rename_i e
          refine h.some j x ?_
          rw [← hx]
          unfold Changer.remove
          split
          · rfl
          · dsimp only
            split
            · rfl
            · rw [AMap.find_erase, if_neg e]
        · cases hx
        · rename_i e
          refine h.none j ?_
          rw [← hx]
          unfold Changer.remove
          split
          · rfl
          · dsimp only
            split
            · rfl
            · rw [AMap.find_erase, if_neg e]
      dsimp only
      split
      · exact k
      · exact k.mark (AMap.find_insert_self _ _ _)

theorem Record.applyLoop {ccs : List CCSingle} (h : Record c rm P prs) (hrm : ∀ x ∈ ccs, x.type = .removeNode → rm x.nodeId)
    (hr : c.applyLoop cfg prs ccs = .ok (cfg', prs')) : Record c rm P prs' := by
  induction ccs generalizing cfg prs with
  | nil => cases hr; exact h
  | cons cc ccs ih =>
    have hrm' : ∀ x ∈ ccs, x.type = .removeNode → rm x.nodeId := fun x hx => hrm x (List.mem_cons_of_mem _ hx)
    unfold Changer.applyLoop at hr
    split at hr
    · exact ih h hrm' hr
    split at hr
    · exact ih h.makeVoter hrm' hr
    · exact ih h.makeLearner hrm' hr
    · exact ih (h.remove (hrm cc (List.mem_cons_self ..) (by assumption))) hrm' hr
    · exact ih h hrm' hr
    · cases hr

theorem Record.apply {ccs : List CCSingle} (h : Record c rm P prs) (hrm : ∀ x ∈ ccs, x.type = .removeNode → rm x.nodeId)
    (hr : c.apply cfg prs ccs = .ok (cfg', prs')) : Record c rm P prs' := by
  unfold Changer.apply at hr
  split at hr
  · cases hr
  · rename_i hl
    split at hr
    · cases hr
    · cases hr; exact h.applyLoop hrm hl

theorem simple_known {ccs : List CCSingle} (hr : c.simple ccs = .ok (cfg', prs')) :
    Record c (fun j => ⟨.removeNode, j⟩ ∈ ccs) c.tracker.progress prs' := by
  unfold simple at hr
  split at hr
  · cases hr
  rename_i hc
  cases checkAndReturn_eq hc
  split at hr
  · cases hr
  split at hr
  · cases hr
  rename_i ha
  split at hr
  · cases hr
  cases checkAndReturn_eq hr
  exact Record.refl.apply (fun x hx ht => by rw [← ht]; exact hx) ha

theorem enterJoint_known {b : Bool} {ccs : List CCSingle} (hr : c.enterJoint b ccs = .ok (cfg', prs')) :
    Record c (fun j => ⟨.removeNode, j⟩ ∈ ccs) c.tracker.progress prs' := by
  unfold enterJoint at hr
  split at hr
  · cases hr
  rename_i hc
  cases checkAndReturn_eq hc
  split at hr
  · cases hr
  split at hr
  · cases hr
  dsimp only at hr
  split at hr
  · cases hr
  rename_i ha
  cases checkAndReturn_eq hr
  exact Record.refl.apply (fun x hx ht => by rw [← ht]; exact hx) ha

theorem leaveLearners_known : ∀ (ids : List Nat) {ls ls' : USet} {P1 P2 : ProgressMap}, leaveLearners ids ls P1 = .ok (ls', P2) →
    Record c rm P P1 → Record c rm P P2
  | [], _, _, _, _, h, k => by cases h; exact k
  | id :: ids, ls, ls', P1, P2, h, k => by
    unfold leaveLearners at h
    split at h
    · cases h
    · exact leaveLearners_known ids h (k.mark (by assumption))

/-- Only the first half: nodes drop out. -/
theorem leaveErase_some (i l : USet) : ∀ (ids : List Nat) (P1 : ProgressMap) {j : Nat} {q : Progress}, (leaveErase i l ids P1).find j = some q → P1.find j = some q
  | [], P1, j, q, h => h
  | id :: ids, P1, j, q, h => by
    unfold leaveErase at h
    have := leaveErase_some i l ids _ h
    split at this
    · rw [AMap.find_erase] at this
      split at this
      · cases this
      · exact this
    · exact this

theorem leaveJoint_known (hr : c.leaveJoint = .ok (cfg', prs')) : ∀ j q, prs'.find j = some q →
    ∃ p b, c.tracker.progress.find j = some p ∧ q = { p with isLearner := b } := by
  unfold leaveJoint at hr
  split at hr
  · cases hr
  rename_i hc
  cases checkAndReturn_eq hc
  split at hr
  · cases hr
  split at hr
  · cases hr
  split at hr
  · cases hr
  rename_i hl
  dsimp only at hr
  cases checkAndReturn_eq hr
  intro j q hq
  have k := leaveLearners_known (c := c) (rm := fun _ => False) (P := c.tracker.progress) _ hl .refl
  rcases k.some j q (leaveErase_some _ _ _ _ hq) with h | ⟨b, _, h | h⟩
  · exact h
  · exfalso
    -- nobody is added
    have : ∀ (ids : List Nat) {ls ls' : USet} {P1 P2 : ProgressMap}, leaveLearners ids ls P1 = .ok (ls', P2) → P1.find j = .none → P2.find j = .none := by
      intro ids
      induction ids with
      | nil => intro _ _ _ _ h k; cases h; exact k
      | cons id ids ih =>
        intro ls ls' P1 P2 h k
        unfold leaveLearners at h
        split at h
        · cases h
        · rename_i pr hp
          refine ih h ?_
          rw [AMap.find_insert, if_neg]
          · exact k
          · rintro rfl; rw [hp] at k; cases k
    have h1 := this _ hl h
    rw [leaveErase_some _ _ _ _ hq] at h1
    cases h1
  · exact h.elim

end Changer

/-- What sending does not change in the record of a peer. -/
def Progress.steady (p : Progress) : Nat × Bool × Bool := (p.mtch, p.recentActive, p.isLearner)

/-- Nothing but sending happened to the records. -/
def Kept (a b : Raft) : Prop := ∀ j, (b.pr j).map Progress.steady = (a.pr j).map Progress.steady

namespace Kept
variable {env : Env} {a b c r r' : Raft}

theorem of (h : b.trk.progress = a.trk.progress) : Kept a b := fun j => by unfold Raft.pr; rw [h]
theorem refl : Kept a a := .of rfl
theorem trans (h1 : Kept a b) (h2 : Kept b c) : Kept a c := fun j => (h2 j).trans (h1 j)

theorem setPr {id : Nat} {p q : Progress} (hq : r.pr id = some q) (hp : p.steady = q.steady) : Kept r (r.setPr id p) := by
  intro j
  by_cases hj : j = id
  · subst hj
    rw [show (r.setPr j p).pr j = some p from AMap.find_insert_self _ _ _, hq]
    exact congrArg some hp
  · rw [show (r.setPr id p).pr j = r.pr j from AMap.find_insert_ne _ _ (Ne.symm hj)]

theorem send {m : Message} (h : r.send m = .ok r') : Kept r r' := by
  rw [Raft.send_ok h]; exact .of rfl

theorem maybeSendAppend {k0 : Nat} {se d : Bool} (h : r.maybeSendAppend env k0 se = .ok (r', d)) : Kept r r' := by
  obtain ⟨pr, hq, ⟨rfl, _⟩ | ⟨_, _, t, es, p', _, _, _, hs, h2⟩ | ⟨_, _, _, _, _, h2⟩⟩ := Raft.maybeSendAppend_cases h
  · exact .refl
  · refine .trans (.setPr hq ?_) (send h2)
    rcases hs with ⟨_, rfl⟩ | ⟨e, _, ⟨_, infl, _, rfl⟩ | ⟨_, rfl⟩⟩ <;> rfl
  · exact .trans (.setPr (p := pr.becomeSnapshot r.log.snapshot.metadata.index) hq rfl) (send h2)

theorem sendAppend {k0 : Nat} (h : r.sendAppend env k0 = .ok r') : Kept r r' := by
  unfold Raft.sendAppend at h
  obtain ⟨⟨r2, d⟩, h2, h⟩ := Res.bind_eq_ok.1 h
  cases h
  exact maybeSendAppend h2

theorem bcastAppend (h : r.bcastAppend env = .ok r') : Kept r r' := by
  have : ∀ (ids : List Nat) {r r' : Raft}, Raft.visitOthers (fun r id => r.sendAppend env id) ids r = .ok r' → Kept r r' := by
    intro ids
    induction ids with
    | nil => intro r r' h; cases h; exact .refl
    | cons id ids ih =>
      intro r r' h
      unfold Raft.visitOthers at h
      split at h
      · exact ih h
      · obtain ⟨r2, h2, h⟩ := Res.bind_eq_ok.1 h
        exact (sendAppend h2).trans (ih h)
  exact this _ h

theorem visitSend (ids : List Nat) (h : Raft.visitSend env ids r = .ok r') : Kept r r' := by
  induction ids generalizing r with
  | nil => cases h; exact .refl
  | cons id ids ih =>
    unfold Raft.visitSend at h
    obtain ⟨⟨r2, d⟩, h2, h⟩ := Res.bind_eq_ok.1 h
    exact (maybeSendAppend h2).trans (ih h)

theorem switchSend (h : r.switchSend env = .ok r') : Kept r r' := by
  unfold Raft.switchSend at h
  obtain ⟨⟨r2, d⟩, h2, h⟩ := Res.bind_eq_ok.1 h
  have q : Kept r r2 := by rw [(Raft.maybeCommit_ok h2).1]; exact .of rfl
  refine q.trans ?_
  dsimp only at h
  cases d with
  | true => simp only [if_true] at h; exact bcastAppend h
  | false => simp only [Bool.false_eq_true, if_false] at h; exact visitSend _ h

/-- A new configuration: records only change by sending, and not at all on a node that does not lead. -/
theorem switchToConfig {cfg : TConfig} {prs : ProgressMap} {cs : ConfState} (h : r.switchToConfig env cfg prs = .ok (r', cs)) :
    (∀ j, (r'.pr j).map Progress.steady = (prs.find j).map Progress.steady) ∧ (r.state ≠ .leader → ∀ j, r'.pr j = prs.find j) := by
  unfold Raft.switchToConfig at h
  dsimp only at h
  generalize hb : Raft.selfLearner _ = lrn at h
  split at h
  · simp only [Res.pure_eq, Res.ok.injEq, Prod.mk.injEq] at h
    rw [← h.1]; exact ⟨fun _ => rfl, fun _ _ => rfl⟩
  split at h
  · simp only [Res.pure_eq, Res.ok.injEq, Prod.mk.injEq] at h
    rw [← h.1]; exact ⟨fun _ => rfl, fun _ _ => rfl⟩
  rename_i hl
  obtain ⟨r1, h1, h⟩ := Res.bind_eq_ok.1 h
  have k := switchSend h1
  refine ⟨fun j => ?_, fun hn => absurd (Or.inl hn) hl⟩
  have k := k j
  split at h <;> simp only [Res.pure_eq, Res.ok.injEq, Prod.mk.injEq] at h <;> rw [← h.1] <;> exact k

end Kept

/-- **C80.** After `ApplyConfChange`, whoever the node keeps a record about was known before, and then what it acknowledged and
whether it was heard from is kept (and the whole record on a node that does not lead), or has just joined (or was removed
and added again by the change itself) and has acknowledged nothing, but counts as heard from. -/
theorem C80_records {env : Env} {n n' : RawNode} {cc : ConfChangeI} {cs : ConfState} (h : n.applyConfChange env cc = .ok (n', cs)) {j : Nat} {q : Progress}
    (hq : n'.raft.pr j = some q) :
    (∃ p, n.raft.pr j = some p ∧ q.mtch = p.mtch ∧ q.recentActive = p.recentActive ∧ (n.raft.state ≠ .leader → ∃ b, q = { p with isLearner := b })) ∨
    ((n.raft.pr j = none ∨ ⟨.removeNode, j⟩ ∈ cc.asV2.changes) ∧ q.mtch = 0 ∧ q.recentActive = true ∧
      (n.raft.state ≠ .leader → q.state = .probe ∧ q.next = n.raft.log.lastIndex ∧ q.probeSent = false ∧ q.inflights.count = 0)) := by
  unfold RawNode.applyConfChange at h
  obtain ⟨⟨r, cs'⟩, h2, h1⟩ := Res.bind_eq_ok.1 h
  simp only [Res.pure_eq, Res.ok.injEq, Prod.mk.injEq] at h1
  obtain ⟨rfl, _⟩ := h1
  unfold Raft.applyConfChange at h2
  dsimp only at h2
  split at h2
  · cases h2
  rename_i cfg prs hc
  obtain ⟨k1, k2⟩ := Kept.switchToConfig h2
  have hs := k1 j
  rw [show r.pr j = some q from hq] at hs
  obtain ⟨q0, hq0, he⟩ : ∃ q0, prs.find j = some q0 ∧ q.steady = q0.steady := by
    cases hx : prs.find j with
    | none => rw [hx] at hs; cases hs
    | some q0 => rw [hx] at hs; exact ⟨q0, rfl, Option.some.inj hs⟩
  simp only [Progress.steady, Prod.mk.injEq] at he
  have k : (∃ p b, n.raft.trk.progress.find j = some p ∧ q0 = { p with isLearner := b }) ∨
      (∃ b, q0 = Progress.new n.raft.log.lastIndex 0 n.raft.trk.maxInflight b true ∧ (n.raft.trk.progress.find j = none ∨ ⟨.removeNode, j⟩ ∈ cc.asV2.changes)) := by
    split at hc
    · exact Or.inl (Changer.leaveJoint_known hc j q0 hq0)
    split at hc
    · exact (Changer.enterJoint_known hc).some j q0 hq0
    · exact (Changer.simple_known hc).some j q0 hq0
  rcases k with ⟨p, b, hp, rfl⟩ | ⟨b, rfl, hn⟩
  · refine Or.inl ⟨p, hp, he.1, he.2.1, fun hl => ?_⟩
    have := k2 hl j
    rw [show r.pr j = some q from hq, hq0] at this
    exact ⟨b, Option.some.inj this⟩
  · refine Or.inr ⟨hn, he.1, he.2.1, fun hl => ?_⟩
    have := k2 hl j
    rw [show r.pr j = some q from hq, hq0] at this
    cases this
    exact ⟨rfl, rfl, rfl, rfl⟩

/-- A leader that adds node 4: the record of node 2, which has acknowledged one entry, stays; node 4 starts with nothing. -/
example : ((Demo.node 1 (Demo.elect ++ [.step { type := .appResp, src := 2, «to» := 1, term := 1, index := 1 },
      .applyConfChange (.v1 { type := .addNode, nodeId := 4 })])).raft.pr 2).map (fun p => (p.mtch, p.recentActive)) = some (1, true) ∧
    ((Demo.node 1 (Demo.elect ++ [.applyConfChange (.v1 { type := .addNode, nodeId := 4 })])).raft.pr 4).map (fun p => (p.mtch, p.recentActive)) = some (0, true) ∧
    ((Demo.node 1 (Demo.elect ++ [.applyConfChange (.v1 { type := .removeNode, nodeId := 2 })])).raft.pr 2) = none := by decide +kernel

end Craft
