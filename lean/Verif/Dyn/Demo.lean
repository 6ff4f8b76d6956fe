import Verif.Spec.Members
import Verif.Cluster.Demo

/-! # A cluster that changes its members, for the examples -/

namespace Craft.Dyn.Demo
open Craft.Members
open Craft.Cluster (Genesis Delivered Led)

def typeOf : Nat → CCType
  | 0 => .addNode
  | 1 => .removeNode
  | _ => .addLearnerNode

def codeOf : CCType → Nat
  | .addNode => 0
  | .removeNode => 1
  | _ => 2

def parse : Bytes → List CCSingle
  | a :: b :: l => ⟨typeOf a, b⟩ :: parse l
  | _ => []

/-- Conf changes are written as pairs of a type and a node. -/
def env : Env :=
  { Craft.Demo.env with
    serV1 := fun cc => [codeOf cc.type, cc.nodeId]
    parseV2 := fun b => some { changes := parse b }
    serV2 := fun cc => cc.changes.flatMap fun c => [codeOf c.type, c.nodeId] }

def dec (e : Entry) : Option ConfChangeI :=
  if e.type = .confChange then match e.data with
    | [a, b] => some (.v1 { type := typeOf a, nodeId := b })
    | _ => none
  else some (.v2 { changes := parse e.data })

inductive Cmd where
  | start (p : Nat)
  | call (p : Nat) (x : Call)
  | deliver (p k : Nat)
  | ready (p : Nat)
  | crash (p : Nat)
  | compact (p i : Nat)
  | snapshot (p : Nat)

def plain : Call → Bool
  | .getReady | .advance | .applyConfChange _ | .step _ => false
  | _ => true

def Cmd.run (c : State) : Cmd → Option State
  | .start p => match c.proc p with
    | .down st => match RawNode.new env (Craft.Demo.cfg p) st 0 with
      | .ok n => some (c.set p (.up n ⟨st.snapshot.metadata.index, st.snapshot.metadata.confState⟩))
      | _ => none
    | _ => none
  | .call p x => match c.proc p with
    | .up n a => if plain x then match x.run env n with
        | .ok n' => some (c.set p (.up n' a))
        | _ => none
      else none
    | _ => none
  | .deliver p k => match c.proc p with
    | .up n a => match c.net[k]? with
      | some m => if m.to = p then match (Call.step m).run env n with
          | .ok n' => some (c.set p (.up n' a))
          | _ => none
        else none
      | none => none
    | _ => none
  | .ready p => match c.proc p with
    | .up n a => match handle env dec n a with
      | .ok (n', a', rd) => some { c.set p (.up n' a') with
          net := c.net ++ rd.messages
          out := c.out ++ rd.committedEntries.map fun e => ⟨p, n.raft.term, e⟩
          led := if n.raft.state = .leader then c.led ++ [⟨p, n.raft.term, n.raft.log.view⟩] else c.led
          known := c.known ++ [⟨p, a'⟩] }
      | _ => none
    | _ => none
  | .crash p => match c.proc p with
    | .up n _ => some (c.set p (.down n.raft.log.storage))
    | _ => none
  | .compact p i => match c.proc p with
    | .up n a => if i ≤ n.raft.log.applied ∧ i ≤ n.raft.log.storage.snapshot.metadata.index then match n.raft.log.storage.compact i with
        | .ok (st, _) => some (c.set p (.up (n.withStorage st) a))
        | _ => none
      else none
    | _ => none
  | .snapshot p => match c.proc p with
    | .up n a => match n.raft.log.storage.createSnapshot a.index (some a.conf) [7] with
        | .ok (st, _) => some (c.set p (.up (n.withStorage st) a))
        | _ => none
    | _ => none

theorem Cmd.sound {c c' : State} {x : Cmd} (h : x.run c = some c') : Members.Step env dec c c' := by
  cases x with
  | start p =>
    simp only [Cmd.run] at h
    split at h <;> try cases h
    rename_i st hp
    split at h <;> cases h
    rename_i n hn
    exact .start p (Craft.Demo.cfg p) 0 hp rfl (Nat.zero_le _) hn
  | call p x =>
    simp only [Cmd.run] at h
    split at h <;> try cases h
    rename_i n a hp
    split at h <;> try cases h
    rename_i hpl
    split at h <;> cases h
    rename_i n' hn
    refine .call p x hp ?_ ?_ hn
    · cases x <;> first | trivial | (cases hpl)
    · intro m hm; subst hm; cases hpl
  | deliver p k =>
    simp only [Cmd.run] at h
    split at h <;> try cases h
    rename_i n a hp
    split at h <;> try cases h
    rename_i m hm
    split at h <;> try cases h
    rename_i hto
    split at h <;> cases h
    rename_i n' hn
    exact .deliver p m hp (List.mem_iff_getElem?.2 ⟨k, hm⟩) hto hn
  | ready p =>
    simp only [Cmd.run] at h
    split at h <;> try cases h
    rename_i n a hp
    split at h <;> cases h
    rename_i n' a' rd hn
    exact .ready p hp hn
  | crash p =>
    simp only [Cmd.run] at h
    split at h <;> cases h
    rename_i n a hp
    exact .crash p hp
  | compact p i =>
    simp only [Cmd.run] at h
    split at h <;> try cases h
    rename_i n a hp
    split at h <;> try cases h
    rename_i hi
    split at h <;> cases h
    rename_i st e he
    exact .compact p i hp hi.1 hi.2 he
  | snapshot p =>
    simp only [Cmd.run] at h
    split at h <;> try cases h
    rename_i n a hp
    split at h <;> cases h
    rename_i st e he
    exact .createSnapshot p _ hp he

def exec : List Cmd → State → Option State
  | [], c => some c
  | x :: xs, c => match x.run c with
    | some c' => exec xs c'
    | none => none

theorem exec_reach {G : Genesis} {xs : List Cmd} {c c' : State} (hr : Members.Reach env dec G c) (h : exec xs c = some c') :
    Members.Reach env dec G c' := by
  induction xs generalizing c with
  | nil => cases h; exact hr
  | cons x xs ih =>
    unfold exec at h
    split at h
    · rename_i c1 h1
      exact ih (.step hr (Cmd.sound h1)) h
    · cases h

def init : State := { proc := fun _ => .down Craft.Demo.store }

def cluster (xs : List Cmd) : State := (exec xs init).getD init

/-- The configuration change of the story: 4 comes, 3 goes. -/
def swap34 : ConfChangeI := .v2 { changes := [⟨.addNode, 4⟩, ⟨.removeNode, 3⟩] }

/-- Node 1 is elected in term 1 by 2 and proposes to replace 3 by 4; the change is committed by 1 and 2 and they enter the joint
configuration. Node 1 takes a snapshot, compacts its log, and proposes to leave the joint configuration (by itself); node 4
starts and gets the snapshot. The leave entry and another one are committed with the help of 2 and 4, and 1, 2, 4 apply them. Then
node 1 crashes, node 4 is elected in term 2 with the vote of 2, and commits an entry. -/
def story : List Cmd :=
  [.start 1, .start 2, .start 4, .call 1 .campaign, .ready 1, .deliver 2 0, .ready 2, .deliver 1 2, .call 1 (.proposeConfChange swap34),
   .ready 1, .deliver 2 3, .ready 2, .deliver 1 5, .ready 1, .deliver 2 6, .ready 2, .deliver 1 7, .ready 1, .ready 1,
   .snapshot 1, .compact 1 2, .deliver 2 8, .ready 2, .deliver 4 9, .ready 4, .deliver 1 10, .deliver 1 11, .ready 1, .deliver 4 12,
   .ready 4, .deliver 1 13, .call 1 (.propose [5]), .ready 1, .deliver 4 14, .deliver 2 15, .ready 4, .ready 2, .deliver 1 17,
   .deliver 1 18, .ready 1, .deliver 4 16, .deliver 4 20, .deliver 2 19, .ready 4, .ready 2, .crash 1,
   .call 4 .campaign, .ready 4, .deliver 2 25, .ready 2, .deliver 4 26, .ready 4, .deliver 2 28, .ready 2, .deliver 4 29, .ready 4]

/-- The state at the end of the story. -/
def last : State := cluster story

/-- The state when node 1 has just proposed to leave the joint configuration. -/
def mid : State := cluster (story.take 18)

open Cluster.Demo (genesis genesis_ok genesis_disk)

theorem genesisOK : GenesisOK dec genesis where
  contig := genesis_ok.contig
  terms := genesis_ok.terms
  low := genesis_ok.low
  conf := genesis_ok.conf
  zero := genesis_ok.zero
  voter := genesis_ok.voter
  still := nofun

theorem cluster_reach {xs : List Cmd} (h : (exec xs init).isSome = true) : Members.Reach env dec genesis (cluster xs) := by
  obtain ⟨c, hc⟩ := Option.isSome_iff_exists.1 h
  have : cluster xs = c := by simp [cluster, hc]
  rw [this]
  exact exec_reach (.init _ fun _ => ⟨genesis_disk, by decide⟩) hc

theorem last_reach : Members.Reach env dec genesis last := cluster_reach (by decide +kernel)
theorem mid_reach : Members.Reach env dec genesis mid := cluster_reach (by decide +kernel)

/-- What the story does: who led which term, with which log. -/
theorem last_led : last.led.map (fun x => (x.node, x.term, x.log.base, x.log.ents.map (·.term))) =
    [(1, 1, 0, [1, 1]), (1, 1, 0, [1, 1]), (1, 1, 0, [1, 1]), (1, 1, 0, [1, 1, 1]), (1, 1, 2, [1]), (1, 1, 2, [1, 1]), (1, 1, 2, [1, 1]),
     (4, 2, 2, [1, 1, 2]), (4, 2, 2, [1, 1, 2])] := by decide +kernel

/-- Who got which entry. -/
theorem last_out : last.out.map (fun d => (d.node, d.term, d.entry.index)) =
    [(1, 1, 1), (2, 1, 1), (1, 1, 2), (2, 1, 2), (1, 1, 3), (1, 1, 4), (4, 1, 3), (4, 1, 4), (2, 1, 3), (2, 1, 4), (4, 2, 5)] := by decide +kernel

/-- What the applications knew: the joint configuration at index 2, the new one later. -/
theorem last_known : (last.known.map fun k => (k.node, k.app.index, k.app.conf.voters, k.app.conf.votersOutgoing)).drop 6 =
    [(1, 2, [1, 2, 4], [1, 2, 3]), (1, 2, [1, 2, 4], [1, 2, 3]), (2, 2, [1, 2, 4], [1, 2, 3]), (4, 0, [1, 2, 3], []),
     (1, 2, [1, 2, 4], [1, 2, 3]), (4, 2, [1, 2, 4], [1, 2, 3]), (1, 2, [1, 2, 4], [1, 2, 3]), (4, 2, [1, 2, 4], [1, 2, 3]),
     (2, 2, [1, 2, 4], [1, 2, 3]), (1, 4, [1, 2, 4], []), (4, 4, [1, 2, 4], []), (2, 4, [1, 2, 4], []), (4, 4, [1, 2, 4], []),
     (2, 4, [1, 2, 4], []), (4, 4, [1, 2, 4], []), (2, 4, [1, 2, 4], []), (4, 5, [1, 2, 4], [])] := by decide +kernel

end Craft.Dyn.Demo
