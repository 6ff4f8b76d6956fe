import Verif.Spec.Outbox
import Verif.Node.Calls
import Verif.Demo

/-! # C103: messages are handed out once, in order -/

namespace Craft
section
variable {env : Env} {n n' : RawNode} {out : List Message}

theorem getReady_msgs {rd : Ready} (h : n.getReady env = .ok (n', rd)) : rd.messages = n.raft.msgs ∧ n'.raft.msgs = [] := by
  obtain ⟨h1, rfl⟩ := getReady_ok h
  unfold RawNode.readyWithoutAccept newReady at h1
  obtain ⟨es, _, h1⟩ := Res.bind_eq_ok.1 h1
  cases h1
  exact ⟨rfl, rfl⟩

/-- However a node is called, what was waiting to be sent at the beginning is what comes out first, in that order; what has come out and
what is still waiting make up one sequence, to which calls only append. -/
theorem C103_in_order (h : Sends env n out n') : ∃ ms, out ++ n'.raft.msgs = n.raft.msgs ++ ms := by
  induction h with
  | nil => exact ⟨[], by rw [List.nil_append, List.append_nil]⟩
  | call x _ hs hx hr ih =>
    obtain ⟨ms, ih⟩ := ih
    obtain ⟨_, _, _, _, ms', h1, _⟩ := Call.run_path hs hr
    rw [if_neg hx] at h1
    exact ⟨ms ++ ms', by rw [h1, ← List.append_assoc, ih, List.append_assoc]⟩
  | ready _ hr ih =>
    obtain ⟨ms, ih⟩ := ih
    obtain ⟨h1, h2⟩ := getReady_msgs hr
    exact ⟨ms, by rw [h1, h2, List.append_nil, ih]⟩

/-- A Ready takes everything that is waiting, and leaves nothing to be taken again. -/
theorem C103_taken {rd : Ready} (h : n.getReady env = .ok (n', rd)) : rd.messages = n.raft.msgs ∧ n'.raft.msgs = [] := getReady_msgs h

end

/-! A candidate is elected between two Readys: the vote requests come out first, then the appends of the leader. -/

namespace Demo

/-- The calls in `cs`, taking a Ready where there is none. -/
def take (n : RawNode) : List (Option Call) → List Message → Option (List Message × RawNode)
  | [], out => some (out, n)
  | none :: cs, out => match n.getReady env with
    | .ok (n1, rd) => take n1 cs (out ++ rd.messages)
    | _ => none
  | some c :: cs, out => match c.run env n with
    | .ok n1 => take n1 cs out
    | _ => none

theorem take_sends {n0 n n' : RawNode} {cs : List (Option Call)} {out out' : List Message} (hr : Sends env n0 out n)
    (hc : ∀ c, some c ∈ cs → c.Stamped ∧ c ≠ .getReady) (h : take n cs out = some (out', n')) : Sends env n0 out' n' := by
  induction cs generalizing n out with
  | nil => cases h; exact hr
  | cons c cs ih =>
    have hc' := fun c h => hc c (List.mem_cons_of_mem _ h)
    cases c with
    | none =>
      unfold take at h
      split at h
      · next n1 rd h1 => exact ih (.ready hr h1) hc' h
      · cases h
    | some c =>
      unfold take at h
      split at h
      · next n1 h1 => exact ih (.call c hr (hc c (List.mem_cons_self ..)).1 (hc c (List.mem_cons_self ..)).2 h1) hc' h
      · cases h

def story : List (Option Call) :=
  [none, some .advance, some (.step { type := .voteResp, src := 2, to := 1, term := 1 }), none]

example : ∃ out n', Sends env (node 1 [.campaign]) out n' ∧ out.map (·.type) = [.vote, .vote, .app, .app] ∧ n'.raft.msgs = [] := by
  have h : (take (node 1 [.campaign]) story []).map (fun p => (p.1.map (·.type), p.2.raft.msgs)) = some ([.vote, .vote, .app, .app], []) := by
    decide +kernel
  obtain ⟨⟨out, n'⟩, h1, h2⟩ := Option.map_eq_some_iff.1 h
  refine ⟨out, n', take_sends .nil ?_ h1, congrArg Prod.fst h2, congrArg Prod.snd h2⟩
  intro c hc
  simp only [story, List.mem_cons, List.not_mem_nil, or_false, reduceCtorEq, false_or, Option.some.injEq] at hc
  rcases hc with rfl | rfl
  · exact ⟨trivial, nofun⟩
  · refine ⟨?_, nofun⟩
    intro k
    rcases k with k | k | k <;> cases k

end Demo
end Craft
