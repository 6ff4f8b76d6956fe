import Verif.Props.Group
import Verif.Demo

/-! # C94: a concrete case

Five voters. Nodes 1 and 2 use `pre_vote` and are cut off from the others; node 1 asks for pre-votes again and again, and gets that of
node 2. Meanwhile nodes 3, 4, 5 elect a leader of term 1. -/

namespace Craft.Members.GroupDemo
open Spec

def env : Env := Craft.Demo.env
def dec : Entry → Option ConfChangeI := fun _ => none

def store : Storage := { snapshot := { metadata := { confState := { voters := [1, 2, 3, 4, 5] } } }, ents := [{}] }

def genesis : Cluster.Genesis := { trk := { config := { voters := { incoming := [1, 2, 3, 4, 5] } }, progress := [], maxInflight := 0 } }

theorem genesis_disk : GenesisDisk genesis store where
  wf := by
    constructor
    · decide
    · intro i e h
      cases i <;> simp_all [store, Storage.offset]
  log := by
    constructor
    · decide
    · decide
    · decide
    · nofun
  term := rfl
  vote := rfl
  commit := by decide
  snapIndex := by decide
  snapTerm := rfl
  snapConf := by decide
  snapBase := by decide

def init : State := { proc := fun _ => .down store }

def cfg (p : Nat) : Config := { Craft.Demo.cfg p with preVote := true }

inductive Cmd where
  | start (p : Nat)
  | campaign (p : Nat)
  | deliver (p k : Nat)
  | ready (p : Nat)
  | crash (p : Nat)

def Cmd.act (c : State) : Cmd → Act
  | .start p => .start p (cfg p) 0
  | .campaign p => .call p .campaign
  | .deliver p k => .deliver p (c.net.getD k default)
  | .ready p => .ready p
  | .crash p => .crash p

def up (c : State) (p : Nat) : Bool := match c.proc p with | .up _ _ => true | .down _ => false

def Cmd.ok (sent : List Message) (c : State) : Cmd → Bool
  | .start p => (match c.proc p with | .up _ _ => false | .down _ => true) && (1 ≤ p)
  | .campaign p => up c p
  | .deliver p k => up c p && (k < c.net.length) && (c.net.getD k default).to == p && (p ∉ [1, 2] || (c.net.getD k default) ∈ sent)
  | .ready p => up c p
  | .crash p => up c p

def short (c : State) : Bool :=
  [1, 2].all fun p => match c.proc p with | .up n _ => n.raft.trk.config.voters.incoming == [1, 2, 3, 4, 5] && (n.raft.id == 1 || n.raft.id == 2) | .down _ => true

def exec : List Cmd → List Message × State → Option (List Message × State)
  | [], x => some x
  | y :: ys, (sent, c) =>
    match (y.act c).run env dec c with
    | .ok c' => if y.ok sent c && short c' then exec ys (if (y.act c).node ∈ [1, 2] then sent ++ c'.net.drop c.net.length else sent, c') else none
    | _ => none

def story : List Cmd :=
  [.start 1, .start 2, .start 3, .start 4, .start 5, .campaign 1, .ready 1, .deliver 2 0, .ready 2, .deliver 1 4, .campaign 1, .ready 1,
   .campaign 3, .ready 3, .deliver 4 11, .ready 4, .deliver 5 12, .ready 5, .deliver 3 13, .deliver 3 14, .ready 3, .deliver 4 17, .ready 4,
   .deliver 5 18, .ready 5, .deliver 3 19, .deliver 3 20, .ready 3, .crash 2, .start 2, .campaign 1, .ready 1]

def last : List Message × State := (exec story ([], init)).getD ([], init)

theorem up_ok {c : State} {p : Nat} (h : up c p = true) : ∃ n a, c.proc p = .up n a := by
  unfold up at h
  split at h
  · next n a e => exact ⟨n, a, e⟩
  · cases h

theorem short_ok {c : State} (h : short c = true) : c.Short [1, 2] := by
  intro p hp n a hn hq
  have h1 := List.all_eq_true.1 h p hp
  rw [hn] at h1
  simp only [Bool.and_eq_true, Bool.or_eq_true, beq_iff_eq] at h1
  obtain ⟨h1, h2⟩ := h1
  have h3 := hq.1 (by rw [h1]; nofun)
  rw [h1] at h3
  rcases h2 with h2 | h2 <;> (rw [h2] at h3; revert h3; unfold Majority; decide)

theorem Cmd.allowed {x : Cmd} {sent : List Message} {c : State} (h : x.ok sent c = true) : (x.act c).Allowed c ∧ (x.act c).Calm ∧
    ((x.act c).node ∈ [1, 2] → ∀ p m, x.act c = .deliver p m → m ∈ sent) := by
  cases x with
  | start p =>
    obtain ⟨h1, h2⟩ := (Bool.and_eq_true ..).mp h
    split at h1
    · cases h1
    · next st e =>
      refine ⟨⟨st, e, rfl, Nat.zero_le _, ⟨?_, by show (0 : Int) < 1; decide, by show (1 : Int) < 10; decide, by show (10 : Int) < 2 ^ 31; decide, by show (0 : Int) < 8; decide, nofun, Or.inl rfl⟩, by show (8 : Int) ≤ 2 ^ 30; decide⟩, rfl, nofun⟩
      have h2 : 1 ≤ p := of_decide_eq_true h2
      show p ≠ 0
      omega
  | campaign p => exact ⟨⟨up_ok h, trivial, nofun⟩, fun _ h => h, nofun⟩
  | deliver p k =>
    simp only [Cmd.ok, Bool.and_eq_true, Bool.or_eq_true, beq_iff_eq, decide_eq_true_eq] at h
    obtain ⟨⟨⟨h1, h2⟩, h3⟩, h4⟩ := h
    refine ⟨⟨up_ok h1, ?_, h3⟩, trivial, fun hp q m e => ?_⟩
    · rw [List.getD_eq_getElem?_getD, List.getElem?_eq_getElem h2]; exact List.getElem_mem _
    · cases e
      exact h4.resolve_left fun h => h hp
  | ready p => exact ⟨up_ok h, trivial, nofun⟩
  | crash p => exact ⟨up_ok h, trivial, nofun⟩

theorem exec_alone {c0 : State} {xs : List Cmd} {x y : List Message × State} (h : Alone env dec [1, 2] 0 c0 x.1 x.2) (he : exec xs x = some y) :
    Alone env dec [1, 2] 0 c0 y.1 y.2 := by
  induction xs generalizing x with
  | nil => cases he; exact h
  | cons z zs ih =>
    obtain ⟨sent, c⟩ := x
    unfold exec at he
    split at he
    · next c' hr =>
      by_cases hok : (z.ok sent c && short c') = true
      · rw [if_pos hok] at he
        obtain ⟨h1, h2⟩ := (Bool.and_eq_true ..).mp hok
        obtain ⟨k1, k2, k3⟩ := Cmd.allowed h1
        refine ih ?_ he
        by_cases hz : (z.act c).node ∈ [1, 2]
        · rw [if_pos hz]
          exact h.inside _ hz k1 k2 (k3 hz) hr (short_ok h2)
        · rw [if_neg hz]
          exact h.outside _ hz k1 hr
      · rw [if_neg hok] at he; cases he
    · cases he

theorem story_runs : (exec story ([], init)).isSome = true := by decide +kernel

theorem last_alone : Alone env dec [1, 2] 0 init last.1 last.2 := by
  obtain ⟨y, hy⟩ := Option.isSome_iff_exists.1 story_runs
  have : last = y := by unfold last; rw [hy]; rfl
  rw [this]
  exact exec_alone (.start [] (by intro m hm; cases hm) fun p _ n a hn => by cases hn) hy

theorem init_cut : init.CutOff [1, 2] 0 := ⟨fun _ _ => Nat.zero_le _, fun _ _ n a hn => by cases hn⟩

/-- Nodes 1 and 2 are contained; node 1 is in a pre-election with two of five votes; node 3 leads term 1; and nothing of what 1 and 2
sent, up to pre-vote requests of term 1, can upset node 3's followers. -/
example : Contained [1, 2] 0 init last.1 last.2 ∧ last.1.length = 13 ∧
    ([1, 2, 3, 4, 5].map fun p => match last.2.proc p with | .up n _ => some (n.raft.term, n.raft.state) | .down _ => none) =
      [some (0, .preCandidate), some (0, .follower), some (1, .leader), some (1, .follower), some (1, .follower)] :=
  ⟨C94_minority_contained (.init _ fun _ => genesis_disk) init_cut last_alone, by decide +kernel, by decide +kernel⟩

/-- Without `pre_vote` the group would not be contained: a lone node reaches term 1 by itself. -/
example : ((Craft.Demo.node 1 [.campaign]).raft.term, (Craft.Demo.node 1 [.campaign]).raft.state) = (1, .candidate) := by decide

end Craft.Members.GroupDemo
