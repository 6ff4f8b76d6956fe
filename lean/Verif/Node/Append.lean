import Verif.Node.History
import Verif.Proofs.Log

/-! # `AppendEntry` and proposals on a leader -/

namespace Craft
open Spec
namespace Raft
variable {env : Env}

theorem stamp_contig (t i : Nat) (es : List Entry) : Contig i (stamp t i es) := by
  induction es generalizing i with
  | nil => exact .nil _
  | cons e es ih => exact Contig.cons.2 ⟨rfl, ih (i + 1)⟩

theorem stamp_getElem {t i : Nat} {es : List Entry} {j : Nat} {e : Entry} (h : (stamp t i es)[j]? = some e) :
    ∃ e0, es[j]? = some e0 ∧ e = { e0 with term := t, index := i + j } := by
  induction es generalizing i j with
  | nil => cases h
  | cons e0 es ih =>
    cases j with
    | zero =>
      simp only [stamp, List.getElem?_cons_zero, Option.some.injEq] at h
      exact ⟨e0, rfl, h.symm⟩
    | succ j =>
      simp only [stamp, List.getElem?_cons_succ] at h
      obtain ⟨e1, h1, h2⟩ := ih h
      exact ⟨e1, h1, by rw [h2, show i + 1 + j = i + (j + 1) by omega]⟩

/-- The quota rule: something is uncommitted, the proposal is not empty, and together they are over the limit. -/
def OverQuota (r : Raft) (size : Nat) : Prop := r.uncommittedSize > 0 ∧ size > 0 ∧ r.uncommittedSize + size > r.maxUncommittedSize

theorem appendEntry_refused {r r' : Raft} {es : List Entry} {b : Bool} (h : r.appendEntry es = .ok (r', b)) :
    (b = false ↔ r.OverQuota (payloads es)) ∧ (b = false → r' = r) := by
  unfold appendEntry increaseUncommittedSize at h
  dsimp only at h
  rw [stamp_payloads] at h
  by_cases c : r.uncommittedSize > 0 ∧ payloads es > 0 ∧ r.uncommittedSize + payloads es > r.maxUncommittedSize
  · rw [if_pos c] at h
    simp only [Bool.false_eq_true, not_false_eq_true, if_true, Res.ok.injEq, Prod.mk.injEq] at h
    obtain ⟨rfl, rfl⟩ := h
    exact ⟨⟨fun _ => c, fun _ => rfl⟩, fun _ => rfl⟩
  · rw [if_neg c] at h
    simp only [not_true_eq_false, if_false] at h
    obtain ⟨l, hl, h⟩ := Res.bind_eq_ok.1 h
    obtain ⟨p, hp, h⟩ := Res.bind_eq_ok.1 h
    obtain ⟨⟨r2, b2⟩, hm, h⟩ := Res.bind_eq_ok.1 h
    simp only [Res.pure_eq, Res.ok.injEq, Prod.mk.injEq] at h
    obtain ⟨_, rfl⟩ := h
    exact ⟨⟨fun h => (nomatch h), fun h => absurd h c⟩, fun h => (nomatch h)⟩

/-- `es` put at the end of the log. -/
def _root_.Craft.Spec.LogView.push (v : LogView) (es : List Entry) : LogView := { v with ents := v.ents ++ es }

theorem append_view {l l' : RaftLog} {es : List Entry} (hw : l.WF) (t : Nat) (h : l.append (stamp t (l.lastIndex + 1) es) = .ok l') :
    l'.WF ∧ l'.view = l.view.push (stamp t (l.lastIndex + 1) es) := by
  cases es with
  | nil =>
    have : l.append [] = .ok l' := h
    unfold RaftLog.append at this
    cases this
    refine ⟨hw, ?_⟩
    unfold LogView.push
    simp [stamp]
  | cons e es =>
    rw [hw.lastIndex_eq] at h ⊢
    have hb : l.view.base < l.view.last + 1 := by unfold LogView.last; omega
    have hc := stamp_contig t (l.view.last + 1) (e :: es)
    have hne : stamp t (l.view.last + 1) (e :: es) ≠ [] := (nomatch ·)
    rw [hw.append_eq hc hne hb (Nat.le_refl _)] at h
    split at h
    · cases h
    · cases h
      obtain ⟨w, v⟩ := hw.appended hc hne hb (Nat.le_refl _)
      refine ⟨w, ?_⟩
      rw [v]
      unfold LogView.splice LogView.push LogView.last
      rw [show l.view.base + l.view.ents.length + 1 - l.view.base - 1 = l.view.ents.length by omega, List.take_length]

theorem appendEntry_accepted {r r' : Raft} {es : List Entry} (hw : r.log.WF) (h : r.appendEntry es = .ok (r', true)) :
    r'.log.WF ∧ r'.log.view = r.log.view.push (stamp r.term (r.log.lastIndex + 1) es) ∧
    r'.uncommittedSize = r.uncommittedSize + payloads es ∧ r'.msgs = r.msgs ∧ r'.state = r.state ∧ r'.term = r.term := by
  unfold appendEntry increaseUncommittedSize at h
  dsimp only at h
  rw [stamp_payloads] at h
  split at h
  · simp at h
  · simp only [not_true_eq_false, if_false] at h
    obtain ⟨l, hl, h⟩ := Res.bind_eq_ok.1 h
    obtain ⟨p, hp, h⟩ := Res.bind_eq_ok.1 h
    obtain ⟨⟨r2, b2⟩, hm, h⟩ := Res.bind_eq_ok.1 h
    simp only [Res.pure_eq, Res.ok.injEq, Prod.mk.injEq] at h
    obtain ⟨rfl, _⟩ := h
    obtain ⟨m1, m2⟩ := maybeCommit_ok hm
    have m3 := (RaftLog.maybeCommit_shape m2).1
    obtain ⟨w, v⟩ := append_view hw r.term hl
    have m4 : r2.log = { l with committed := r2.log.committed } := m3
    have hv : r2.log.view = l.view := by rw [m4]; rfl
    refine ⟨?_, by rw [hv, v], ?_⟩
    · rw [m4]; exact w.with_committed _
    · rw [m1]; exact ⟨rfl, rfl, rfl, rfl⟩

end Raft
end Craft
