import Verif.Recover.Start
import Verif.Recover.Tame

/-! # Handling Readys until there is nothing left to apply -/

namespace Craft

/-- From `a` to `b` only Readys were handled. -/
structure Rested (a b : Raft) : Prop where
  eq : ∃ l u, b = { a with log := l, msgs := [], readStates := [], uncommittedSize := u }
  view : b.log.view = a.log.view
  com : b.log.committed = a.log.committed
  snap : b.log.unstable.snapshot = none

namespace Rested
variable {a b c : Raft}

theorem trans (h1 : Rested a b) (h2 : Rested b c) : Rested a c := by
  obtain ⟨l1, u1, e1⟩ := h1.eq
  obtain ⟨l2, u2, e2⟩ := h2.eq
  exact ⟨⟨l2, u2, by rw [e2, e1]⟩, h2.view.trans h1.view, h2.com.trans h1.com, h2.snap⟩

section
variable (h : Rested a b)
include h
theorem trk : b.trk = a.trk := by obtain ⟨l, u, e⟩ := h.eq; rw [e]
theorem pr (v : Nat) : b.pr v = a.pr v := by unfold Raft.pr; rw [h.trk]
theorem state : b.state = a.state := by obtain ⟨l, u, e⟩ := h.eq; rw [e]
theorem term : b.term = a.term := by obtain ⟨l, u, e⟩ := h.eq; rw [e]
theorem vote : b.vote = a.vote := by obtain ⟨l, u, e⟩ := h.eq; rw [e]
theorem id : b.id = a.id := by obtain ⟨l, u, e⟩ := h.eq; rw [e]
theorem lead : b.lead = a.lead := by obtain ⟨l, u, e⟩ := h.eq; rw [e]
theorem transferee : b.leadTransferee = a.leadTransferee := by obtain ⟨l, u, e⟩ := h.eq; rw [e]
theorem checkQuorum : b.checkQuorum = a.checkQuorum := by obtain ⟨l, u, e⟩ := h.eq; rw [e]
theorem preVote : b.preVote = a.preVote := by obtain ⟨l, u, e⟩ := h.eq; rw [e]
theorem heartbeatTimeout : b.heartbeatTimeout = a.heartbeatTimeout := by obtain ⟨l, u, e⟩ := h.eq; rw [e]
theorem msgs : b.msgs = [] := by obtain ⟨l, u, e⟩ := h.eq; rw [e]
end
end Rested

namespace Cluster
open Spec Abs
variable {env : Env} {G : Genesis} {S : List Nat} {c : State} {p : Nat} {n : RawNode}

section
variable (hG : G.OK) (hE : Lossless env)
include hG hE

/-- One Ready. -/
theorem ready_one (hl : Live env G c) (hp : c.proc p = .up n) (hS : p ∈ S) :
    ∃ c' n', To env G S [p] c c' ∧ c'.proc p = .up n' ∧ Rested n.raft n'.raft ∧ (∀ m ∈ n.raft.msgs, m ∈ c'.net) ∧
      n'.raft.log.applied = max n.raft.log.applied n.raft.log.view.base + (nextOut env n.raft.log).length ∧
      c'.out = c.out ++ (nextOut env n.raft.log).map fun e => ⟨p, n.raft.term, e⟩ := by
  obtain ⟨c', n', st, u, h1, h2, h3, _, h5, h6, h7⟩ := to_ready hG hE hl hp hS
  refine ⟨c', n', h1, h2, ⟨⟨_, u, h3⟩, h5, by rw [h3]; rfl, by rw [h3]; rfl⟩, h6, by rw [h3]; rfl, h7⟩

theorem drain_rest (k : Nat) (hl : Live env G c) (hp : c.proc p = .up n) (hS : p ∈ S) (hsn : n.raft.log.unstable.snapshot = none)
    (hk : n.raft.log.committed - n.raft.log.applied ≤ k) (hm : n.raft.msgs = []) (hr : n.raft.readStates = []) :
    ∃ c' n' os, To env G S [p] c c' ∧ c'.proc p = .up n' ∧ Rested n.raft n'.raft ∧
      n'.raft.log.applied = n'.raft.log.committed ∧ c'.out = c.out ++ os ∧
      ∀ i e, n.raft.log.applied < i → i ≤ n.raft.log.committed → n.raft.log.view.entry i = some e → ⟨p, n.raft.term, e⟩ ∈ os := by
  induction k generalizing c n with
  | zero =>
    have := (known hG hE hl hp).linv.app_com
    refine ⟨c, n, [], .refl hl, hp, ⟨⟨n.raft.log, n.raft.uncommittedSize, ?_⟩, rfl, rfl, hsn⟩, by omega, by simp, ?_⟩
    · rw [← hm, ← hr]
    · intro i e h1 h2; omega
  | succ k ih =>
    have hli := (known hG hE hl hp).linv
    have hac := hli.app_com
    have hba := hli.base_app hsn
    have hbc := hli.base_com
    by_cases hd : n.raft.log.applied = n.raft.log.committed
    · refine ⟨c, n, [], .refl hl, hp, ⟨⟨n.raft.log, n.raft.uncommittedSize, ?_⟩, rfl, rfl, hsn⟩, hd, by simp, ?_⟩
      · rw [← hm, ← hr]
      · intro i e h1 h2; omega
    obtain ⟨c1, n1, t1, p1, r1, _, a1, o1⟩ := ready_one hG hE hl hp hS
    rw [Nat.max_eq_left hba] at a1
    have hne : nextOut env n.raft.log ≠ [] := by
      unfold nextOut
      apply limitSize_ne_nil
      intro h0
      have := RaftLog.range_length (v := n.raft.log.view) (lo := max n.raft.log.applied n.raft.log.view.base + 1) (hi := n.raft.log.committed + 1) (by omega) (by omega)
        (by have := hli.com_last; omega)
      rw [h0] at this
      simp at this
      omega
    have hlen : (nextOut env n.raft.log).length ≠ 0 := fun h0 => hne (List.length_eq_zero_iff.1 h0)
    have hrs : n1.raft.readStates = [] := by obtain ⟨l, u, e⟩ := r1.eq; rw [e]
    obtain ⟨c2, n2, os, t2, p2, r2, a2, o2, d2⟩ := ih t1.live p1 r1.snap (by rw [r1.com]; omega) r1.msgs hrs
    refine ⟨c2, n2, ((nextOut env n.raft.log).map fun e => ⟨p, n.raft.term, e⟩) ++ os, t1.trans t2, p2, r1.trans r2, a2, by rw [o2, o1, List.append_assoc], fun i e h1 h2 h3 => ?_⟩
    rw [List.mem_append]
    by_cases hi : i ≤ n1.raft.log.applied
    · left
      rw [List.mem_map]
      refine ⟨e, ?_, rfl⟩
      have hg := hli.nextOut_contig env
      obtain ⟨x, hx⟩ : ∃ x, (nextOut env n.raft.log)[i - n.raft.log.applied - 1]? = some x := ⟨_, List.getElem?_eq_getElem (by omega)⟩
      have h4 := hg _ _ hx
      have h5 := (hli.nextOut_entry env (List.mem_of_getElem? hx)).2.2.2
      rw [Nat.max_eq_left hba] at h4
      rw [show x.index = i by omega, h3] at h5
      cases h5
      exact List.mem_of_getElem? hx
    · right
      rw [← r1.term]
      exact d2 i e (by omega) (by rw [r1.com]; exact h2) (by rw [r1.view]; exact h3)

/-- Readys until everything committed is delivered. -/
theorem drain (hl : Live env G c) (hp : c.proc p = .up n) (hS : p ∈ S) :
    ∃ c' n' os, To env G S [p] c c' ∧ c'.proc p = .up n' ∧ Rested n.raft n'.raft ∧ (∀ m ∈ n.raft.msgs, m ∈ c'.net) ∧
      n'.raft.log.applied = n'.raft.log.committed ∧ c'.out = c.out ++ os ∧
      ∀ i e, max n.raft.log.applied n.raft.log.view.base < i → i ≤ n.raft.log.committed → n.raft.log.view.entry i = some e →
        ⟨p, n.raft.term, e⟩ ∈ os := by
  obtain ⟨c1, n1, t1, p1, r1, m1, a1, o1⟩ := ready_one hG hE hl hp hS
  have hrs : n1.raft.readStates = [] := by obtain ⟨l, u, e⟩ := r1.eq; rw [e]
  obtain ⟨c2, n2, os, t2, p2, r2, a2, o2, d2⟩ := drain_rest hG hE _ t1.live p1 hS r1.snap (Nat.le_refl _) r1.msgs hrs
  refine ⟨c2, n2, ((nextOut env n.raft.log).map fun e => ⟨p, n.raft.term, e⟩) ++ os, t1.trans t2, p2, r1.trans r2, fun m hm => t2.net m (m1 m hm), a2, by rw [o2, o1, List.append_assoc], fun i e h1 h2 h3 => ?_⟩
  rw [List.mem_append]
  have hli := (known hG hE hl hp).linv
  by_cases hi : i ≤ n1.raft.log.applied
  · left
    rw [List.mem_map]
    refine ⟨e, ?_, rfl⟩
    have hg := hli.nextOut_contig env
    obtain ⟨x, hx⟩ : ∃ x, (nextOut env n.raft.log)[i - max n.raft.log.applied n.raft.log.view.base - 1]? = some x := ⟨_, List.getElem?_eq_getElem (by omega)⟩
    have h4 := hg _ _ hx
    have h5 := (hli.nextOut_entry env (List.mem_of_getElem? hx)).2.2.2
    rw [show x.index = i by omega, h3] at h5
    cases h5
    exact List.mem_of_getElem? hx
  · right
    rw [← r1.term]
    exact d2 i e (by omega) (by rw [r1.com]; exact h2) (by rw [r1.view]; exact h3)

end
end Cluster
end Craft
