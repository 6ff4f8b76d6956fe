import Verif.Node.ReadyConf
import Verif.Node.Facts
import Verif.Spec.Members

/-! # Handling a Ready: read requests are left alone -/

namespace Craft
open Spec

/-- Pending reads, the term and the role do not change, and only entries and snapshots are sent. -/
def Hush (r r' : Raft) : Prop :=
  (r'.reads, r'.term, r'.state) = (r.reads, r.term, r.state) ∧ ∃ ms, r'.msgs = r.msgs ++ ms ∧ ∀ m ∈ ms, m.type = .app ∨ m.type = .snap

namespace Hush
variable {env : Env} {a b c r r' : Raft}

theorem refl : Hush a a := ⟨rfl, [], (List.append_nil _).symm, nofun⟩

theorem of (h1 : (b.reads, b.term, b.state) = (a.reads, a.term, a.state)) (h2 : b.msgs = a.msgs) : Hush a b := ⟨h1, [], by rw [h2, List.append_nil], nofun⟩

theorem trans (h1 : Hush a b) (h2 : Hush b c) : Hush a c := by
  obtain ⟨e1, m1, k1, t1⟩ := h1
  obtain ⟨e2, m2, k2, t2⟩ := h2
  refine ⟨e2.trans e1, m1 ++ m2, by rw [k2, k1, List.append_assoc], fun m hm => ?_⟩
  rcases List.mem_append.1 hm with h | h
  · exact t1 m h
  · exact t2 m h

theorem send {m : Message} (hm : m.type = .app ∨ m.type = .snap) (h : r.send m = .ok r') : Hush r r' := by
  rw [Raft.send_ok h]
  refine ⟨rfl, [r.outMsg m], rfl, fun x hx => ?_⟩
  rw [List.mem_singleton] at hx
  subst hx
  have : (r.outMsg m).type = m.type := by
    unfold Raft.outMsg
    rcases hm with hm | hm <;> by_cases h0 : m.src = 0 <;> simp [h0, hm]
  rw [this]; exact hm

theorem maybeSendAppend {to : Nat} {se d : Bool} (h : r.maybeSendAppend env to se = .ok (r', d)) : Hush r r' := by
  obtain ⟨pr, _, ⟨rfl, _⟩ | ⟨_, _, t, es, p', _, _, _, _, h2⟩ | ⟨_, _, _, _, _, h2⟩⟩ := Raft.maybeSendAppend_cases h
  · exact .refl
  · have q := send (r := r.setPr to p') (Or.inl rfl) h2
    exact .trans (.of rfl rfl) q
  · have q := send (r := r.setPr to (pr.becomeSnapshot r.log.snapshot.metadata.index)) (Or.inr rfl) h2
    exact .trans (.of rfl rfl) q

theorem bcastAppend (h : r.bcastAppend env = .ok r') : Hush r r' := by
  unfold Raft.bcastAppend at h
  revert h
  generalize r.trk.progress.keys = ids
  intro h
  induction ids generalizing r with
  | nil => cases h; exact .refl
  | cons id ids ih =>
    unfold Raft.visitOthers at h
    split at h
    · exact ih h
    · obtain ⟨r2, h2, h⟩ := Res.bind_eq_ok.1 h
      refine .trans ?_ (ih h)
      unfold Raft.sendAppend at h2
      obtain ⟨⟨r3, d⟩, h3, h2⟩ := Res.bind_eq_ok.1 h2
      cases h2
      exact maybeSendAppend h3

theorem visitSend (ids : List Nat) (h : Raft.visitSend env ids r = .ok r') : Hush r r' := by
  induction ids generalizing r with
  | nil => cases h; exact .refl
  | cons id ids ih =>
    unfold Raft.visitSend at h
    obtain ⟨⟨r2, d⟩, h2, h⟩ := Res.bind_eq_ok.1 h
    exact (maybeSendAppend h2).trans (ih h)

theorem maybeCommit {d : Bool} (h : r.maybeCommit = .ok (r', d)) : Hush r r' := by
  rw [(Raft.maybeCommit_ok h).1]
  exact .of rfl rfl

theorem switchToConfig {cfg : TConfig} {prs : ProgressMap} {cs : ConfState} (h : r.switchToConfig env cfg prs = .ok (r', cs)) : Hush r r' := by
  unfold Raft.switchToConfig at h
  dsimp only at h
  generalize hb : Raft.selfLearner _ = lrn at h
  split at h
  · simp only [Res.pure_eq, Res.ok.injEq, Prod.mk.injEq] at h
    rw [← h.1]; exact .of rfl rfl
  split at h
  · simp only [Res.pure_eq, Res.ok.injEq, Prod.mk.injEq] at h
    rw [← h.1]; exact .of rfl rfl
  obtain ⟨r1, h1, h⟩ := Res.bind_eq_ok.1 h
  refine .trans (b := r1) ?_ ?_
  · unfold Raft.switchSend at h1
    obtain ⟨⟨r2, d⟩, h2, h1⟩ := Res.bind_eq_ok.1 h1
    have q := maybeCommit h2
    refine .trans (b := r2) (.trans (.of rfl rfl) q) ?_
    dsimp only at h1
    cases d with
    | true => simp only [if_true] at h1; exact bcastAppend h1
    | false => simp only [Bool.false_eq_true, if_false] at h1; exact visitSend _ h1
  · split at h <;> simp only [Res.pure_eq, Res.ok.injEq, Prod.mk.injEq] at h <;> rw [← h.1]
    · exact .of rfl rfl
    · exact .refl

theorem applyConfChange {n n' : RawNode} {cc : ConfChangeI} {cs : ConfState} (h : n.applyConfChange env cc = .ok (n', cs)) : Hush n.raft n'.raft := by
  unfold RawNode.applyConfChange at h
  obtain ⟨⟨r, cs'⟩, h2, h1⟩ := Res.bind_eq_ok.1 h
  simp only [Res.pure_eq, Res.ok.injEq, Prod.mk.injEq] at h1
  obtain ⟨rfl, _⟩ := h1
  unfold Raft.applyConfChange at h2
  dsimp only at h2
  split at h2
  · cases h2
  · exact switchToConfig h2

theorem applyAll {dec : Entry → Option ConfChangeI} : ∀ (es : List Entry) {n n' : RawNode} {x x' : Members.App},
    Members.applyAll env dec es n x = .ok (n', x') → Hush n.raft n'.raft
  | [], n, n', x, x', h => by cases h; exact .refl
  | e :: es, n, n', x, x', h => by
    unfold Members.applyAll at h
    split at h
    · exact applyAll es h
    split at h
    · exact applyAll es h
    · obtain ⟨⟨n1, cs⟩, h1, h⟩ := Res.bind_eq_ok.1 h
      exact (applyConfChange h1).trans (applyAll es h)

theorem appendEntry {es : List Entry} {d : Bool} (h : r.appendEntry es = .ok (r', d)) : Hush r r' := by
  refine .of ?_ (Raft.appendEntry_msgs h).1
  unfold Raft.appendEntry at h
  dsimp only at h
  obtain ⟨hc, _, hm⟩ := Raft.increase_core r (Raft.stamp r.term (r.log.lastIndex + 1) es)
  generalize r.increaseUncommittedSize _ = y at h hc hm
  obtain ⟨r1, ok⟩ := y
  have hi : (r1.reads, r1.term, r1.state) = (r.reads, r.term, r.state) := congrArg (fun c : Core => (c.reads, c.term, c.state)) hc
  dsimp only at h
  cases ok with
  | false =>
    simp only [Bool.false_eq_true, not_false_eq_true, if_true, Res.ok.injEq, Prod.mk.injEq] at h
    rw [← h.1]; exact hi
  | true =>
    simp only [not_true_eq_false, if_false] at h
    obtain ⟨l, hl, h⟩ := Res.bind_eq_ok.1 h
    obtain ⟨p, hp, h⟩ := Res.bind_eq_ok.1 h
    obtain ⟨⟨r2, b2⟩, hm2, h⟩ := Res.bind_eq_ok.1 h
    simp only [Res.pure_eq, Res.ok.injEq, Prod.mk.injEq] at h
    obtain ⟨rfl, -⟩ := h
    rw [(Raft.maybeCommit_ok hm2).1]
    exact hi

theorem advance {n n' : RawNode} (h : n.advance = .ok n') : Hush n.raft n'.raft := by
  unfold RawNode.advance at h
  split at h
  · cases h
  obtain ⟨r3, h7, h8⟩ := Res.bind_eq_ok.1 h
  simp only [Res.pure_eq, Res.ok.injEq] at h8
  subst h8
  unfold Raft.advance at h7
  obtain ⟨ra, h5, h8⟩ := Res.bind_eq_ok.1 h7
  obtain ⟨la, h6, h4⟩ := Res.bind_eq_ok.1 h8
  simp only [Res.pure_eq, Res.ok.injEq] at h4
  subst h4
  refine .trans (b := ra) ?_ (.of rfl rfl)
  rename_i rd _
  obtain ⟨u, hu⟩ := reduceUncommittedSize_eq n.raft rd.committedEntries
  rw [hu] at h5
  rcases Raft.advanceApplied_cases h5 with ⟨h0, rfl⟩ | ⟨h0, l, hl, rfl | ⟨g1, g2, g3, g4, rb, hb, rfl⟩⟩
  · exact .of rfl rfl
  · exact .of rfl rfl
  · exact .trans (.of rfl rfl) ((appendEntry hb).trans (.of rfl rfl))

end Hush
end Craft
