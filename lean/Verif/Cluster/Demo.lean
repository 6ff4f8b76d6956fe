import Verif.Spec.Cluster
import Verif.Demo

/-! # A three-node cluster for the examples -/

namespace Craft.Cluster.Demo
open Craft.Cluster

inductive Cmd where
  | start (p : Nat)
  | call (p : Nat) (x : Call)
  | deliver (p k : Nat)
  | ready (p : Nat)
  | crash (p : Nat)
  | compact (p i : Nat)
  | snapshot (p i : Nat)

def plain : Call → Bool
  | .getReady | .advance | .applyConfChange _ | .step _ => false
  | _ => true

def Cmd.run (c : State) : Cmd → Option State
  | .start p => match c.proc p with
    | .down st => match RawNode.new Demo.env (Demo.cfg p) st 0 with
      | .ok n => some (c.set p (.up n))
      | _ => none
    | _ => none
  | .call p x => match c.proc p with
    | .up n => if plain x then match x.run Demo.env n with
        | .ok n' => some (c.set p (.up n'))
        | _ => none
      else none
    | _ => none
  | .deliver p k => match c.proc p with
    | .up n => match c.net[k]? with
      | some m => if m.to = p then match (Call.step m).run Demo.env n with
          | .ok n' => some (c.set p (.up n'))
          | _ => none
        else none
      | none => none
    | _ => none
  | .ready p => match c.proc p with
    | .up n => match n.handleReady Demo.env [] with
      | .ok (n', rd) => some { c.set p (.up n') with
          net := c.net ++ rd.messages
          out := c.out ++ rd.committedEntries.map fun e => ⟨p, n.raft.term, e⟩
          led := if n.raft.state = .leader then c.led ++ [⟨p, n.raft.term, n.raft.log.view⟩] else c.led }
      | _ => none
    | _ => none
  | .crash p => match c.proc p with
    | .up n => some (c.set p (.down n.raft.log.storage))
    | _ => none
  | .compact p i => match c.proc p with
    | .up n => if i ≤ n.raft.log.applied then match n.raft.log.storage.compact i with
        | .ok (st, _) => some (c.set p (.up (n.withStorage st)))
        | _ => none
      else none
    | _ => none
  | .snapshot p i => match c.proc p with
    | .up n => if i ≤ n.raft.log.applied then match n.raft.log.storage.createSnapshot i (some n.raft.trk.confState) [7] with
        | .ok (st, _) => some (c.set p (.up (n.withStorage st)))
        | _ => none
      else none
    | _ => none

theorem Cmd.sound {c c' : State} {x : Cmd} (h : x.run c = some c') : Step Demo.env c c' := by
  cases x with
  | start p =>
    simp only [Cmd.run] at h
    split at h <;> try cases h
    rename_i st hp
    split at h <;> cases h
    rename_i n hn
    exact .start p (Demo.cfg p) 0 hp rfl hn
  | call p x =>
    simp only [Cmd.run] at h
    split at h <;> try cases h
    rename_i n hp
    split at h <;> try cases h
    rename_i hpl
    split at h <;> cases h
    rename_i n' hn
    refine .call p x hp ?_ ?_ hn
    · cases x <;> first | trivial | (cases hpl)
    · intro m hm; subst hm; cases hpl
  | deliver p k =>
    simp only [Cmd.run] at h
    split at h <;> try cases h
    rename_i n hp
    split at h <;> try cases h
    rename_i m hm
    split at h <;> try cases h
    rename_i hto
    split at h <;> cases h
    rename_i n' hn
    exact .deliver p m hp (List.mem_iff_getElem?.2 ⟨k, hm⟩) hto hn
  | ready p =>
    simp only [Cmd.run] at h
    split at h <;> try cases h
    rename_i n hp
    split at h <;> cases h
    rename_i n' rd hn
    exact .ready p hp hn
  | crash p =>
    simp only [Cmd.run] at h
    split at h <;> cases h
    rename_i n hp
    exact .crash p hp
  | compact p i =>
    simp only [Cmd.run] at h
    split at h <;> try cases h
    rename_i n hp
    split at h <;> try cases h
    rename_i hi
    split at h <;> cases h
    rename_i st e he
    exact .compact p i hp hi he
  | snapshot p i =>
    simp only [Cmd.run] at h
    split at h <;> try cases h
    rename_i n hp
    split at h <;> try cases h
    rename_i hi
    split at h <;> cases h
    rename_i st e he
    exact .createSnapshot p i _ _ hp hi (by intro x hx; cases hx; rfl) he

def exec : List Cmd → State → Option State
  | [], c => some c
  | x :: xs, c => match x.run c with
    | some c' => exec xs c'
    | none => none

theorem exec_reach {G : Genesis} {xs : List Cmd} {c c' : State} (hr : Reach Demo.env G c) (h : exec xs c = some c') : Reach Demo.env G c' := by
  induction xs generalizing c with
  | nil => cases h; exact hr
  | cons x xs ih =>
    unfold exec at h
    split at h
    · rename_i c1 h1
      exact ih (.step hr (Cmd.sound h1)) h
    · cases h

/-- Three voters, an empty log. -/
def genesis : Genesis :=
  { trk := { config := { voters := { incoming := [1, 2, 3] } }, progress := [(1, .new 1 0 8 false false), (2, .new 1 0 8 false false), (3, .new 1 0 8 false false)], maxInflight := 0 } }

def init : State := { proc := fun _ => .down Craft.Demo.store }

def cluster (xs : List Cmd) : State := (exec xs init).getD init

/-- Node 1 is elected in term 1 by 2, commits an entry that 1 and 2 apply, and crashes; 2 is elected in term 2 by 3 and
tells 3 about the entry, which 3 applies. -/
def story : List Cmd :=
  [.start 1, .start 2, .start 3, .call 1 .campaign, .ready 1, .deliver 2 0, .ready 2, .deliver 1 2, .call 1 (.propose [5]), .ready 1,
   .deliver 2 3, .ready 2, .deliver 1 5, .ready 1, .deliver 2 6, .ready 2, .deliver 1 7, .ready 1, .crash 1,
   .call 2 .campaign, .ready 2, .deliver 3 10, .ready 3, .deliver 2 11, .ready 2, .start 1, .deliver 3 13, .ready 3, .deliver 2 14,
   .ready 2, .deliver 3 15, .ready 3, .deliver 2 16, .ready 2, .deliver 3 17, .ready 3]

/-- The state at the end of the story. -/
def last : State := cluster story

theorem genesis_ok : genesis.OK where
  contig := nofun
  terms := by decide
  low := by decide
  conf := by
    have hf : ∀ id, AMap.find genesis.trk.progress id = if id = 1 ∨ id = 2 ∨ id = 3 then some (.new 1 0 8 false false) else none := by
      intro id
      by_cases h1 : id = 1
      · subst h1; rfl
      · by_cases h2 : id = 2
        · subst h2; rfl
        · by_cases h3 : id = 3
          · subst h3; rfl
          · simp [genesis, AMap.find, h1, h2, h3, Ne.symm h1, Ne.symm h2, Ne.symm h3]
    refine ⟨by decide, by decide, by decide, by decide, by decide, ?_, ?_, by decide, by decide, by decide, by decide, by decide⟩
    · intro id
      rw [hf]
      split <;> rename_i h <;> simp_all [genesis, Spec.Member]
    · intro id p hp
      rw [hf] at hp
      split at hp <;> cases hp
      simp [genesis, Progress.new]
  zero := by simp [genesis, Spec.Member]
  voter := by decide
  auto := rfl

theorem genesis_disk : genesis.Disk Craft.Demo.store where
  wf := by
    constructor
    · decide
    · intro i e h
      cases i <;> simp_all [Craft.Demo.store, Storage.offset]
  log := by
    constructor
    · decide
    · decide
    · decide
    · nofun
  term := rfl
  vote := rfl
  commit := by decide
  snapIndex := by decide
  snapTerm := rfl
  snapConf := by decide

theorem last_reach : Reach Craft.Demo.env genesis last := by
  have h : (exec story init).isSome = true := by decide
  obtain ⟨c, hc⟩ := Option.isSome_iff_exists.1 h
  have : last = c := by simp [last, cluster, hc]
  rw [this]
  exact exec_reach (.init _ fun _ => genesis_disk) hc

/-- What the story does: who led which term, with which log (terms only), and who got which entry. -/
theorem last_led : last.led.map (fun x => (x.node, x.term, x.log.ents.map (·.term)))
    = [(1, 1, [1, 1]), (1, 1, [1, 1]), (1, 1, [1, 1]), (2, 2, [1, 1, 2]), (2, 2, [1, 1, 2]), (2, 2, [1, 1, 2])] := by decide

theorem last_out : last.out.map (fun d => (d.node, d.term, d.entry.index, d.entry.term))
    = [(1, 1, 1, 1), (2, 1, 1, 1), (1, 1, 2, 1), (3, 2, 1, 1), (2, 2, 2, 1), (2, 2, 3, 2), (3, 2, 2, 1), (3, 2, 3, 2)] := by decide

def state (c : State) (p : Nat) : Option (Role × Nat × Nat) :=
  match c.proc p with
  | .up n => some (n.raft.state, n.raft.term, n.raft.log.view.last)
  | .down _ => none

/-- Node 2 leads at the end, node 1 runs again after its crash. -/
theorem last_state : state last 2 = some (.leader, 2, 3) ∧ state last 1 = some (.follower, 1, 2) := by decide

end Craft.Cluster.Demo
