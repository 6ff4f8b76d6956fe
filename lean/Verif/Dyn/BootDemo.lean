import Verif.Dyn.Demo
import Verif.Spec.Boot

/-! # A cluster that is bootstrapped and grows, for the examples -/

namespace Craft.Dyn.BootDemo
open Craft.Members Craft.Boot
open Craft.Dyn.Demo (env dec)

/-- The founders: nodes 1 and 2. -/
def peers : List (Nat × Bytes) := [(1, []), (2, [])]

theorem peersOK : PeersOK env dec peers where
  some := by decide
  ids := by decide
  read := by
    intro q hq e h1 h2
    have : ∀ q ∈ peers, env.serV1 { type := .addNode, nodeId := q.1, context := q.2 } = [0, q.1] ∧ q.2 = [] := by decide
    obtain ⟨h3, h4⟩ := this q hq
    unfold dec
    rw [if_pos h1, h2, h3, h4]
    rfl

inductive Cmd where
  | boot (p : Nat)
  | op (x : Demo.Cmd)

def idle : Proc → Bool
  | .down st => decide (st = {})
  | .up _ _ => false

theorem idle_iff {x : Proc} : idle x = true ↔ x = .down {} := by
  cases x with
  | down st => simp [idle]
  | up n a => simp [idle]

def Cmd.run (c : State) : Cmd → Option State
  | .boot p => if idle (c.proc p) ∧ p ∈ peers.map (·.1) then match RawNode.new env (Craft.Demo.cfg p) {} 0 with
      | .ok n0 => match n0.bootstrap env peers with
        | .ok (n, none) => some (c.set p (.up n ⟨0, {}⟩))
        | _ => none
      | _ => none
    else none
  | .op x => match x.run c with
    | some c' => if (peers.map (·.1)).all fun p => !idle (c.proc p) || idle (c'.proc p) then some c' else none
    | none => none

theorem Cmd.sound {c c' : State} {x : Cmd} (h : x.run c = some c') : Boot.Step env dec peers c c' := by
  cases x with
  | boot p =>
    simp only [Cmd.run] at h
    split at h <;> try cases h
    rename_i hp
    split at h <;> try cases h
    rename_i n0 hn
    split at h <;> cases h
    rename_i n hb
    exact .boot p (Craft.Demo.cfg p) 0 (idle_iff.1 hp.1) hp.2 rfl rfl hn hb
  | op x =>
    simp only [Cmd.run] at h
    split at h <;> try cases h
    rename_i c1 h1
    split at h <;> cases h
    rename_i hall
    refine .other (Demo.Cmd.sound h1) fun p hp h0 => ?_
    have := List.all_eq_true.1 hall p hp
    rw [idle_iff.2 h0] at this
    exact idle_iff.1 (by simpa using this)

def exec : List Cmd → State → Option State
  | [], c => some c
  | x :: xs, c => match x.run c with
    | some c' => exec xs c'
    | none => none

theorem exec_reach {xs : List Cmd} {c c' : State} (hr : Boot.Reach env dec peers c) (h : exec xs c = some c') : Boot.Reach env dec peers c' := by
  induction xs generalizing c with
  | nil => cases h; exact hr
  | cons x xs ih =>
    unfold exec at h
    split at h
    · rename_i c1 h1
      exact ih (.step hr (Cmd.sound h1)) h
    · cases h

def init : State := { proc := fun _ => .down {} }

def cluster (xs : List Cmd) : State := (exec xs init).getD init

theorem cluster_reach {xs : List Cmd} (h : (exec xs init).isSome = true) : Boot.Reach env dec peers (cluster xs) := by
  obtain ⟨c, hc⟩ := Option.isSome_iff_exists.1 h
  have : cluster xs = c := by simp [cluster, hc]
  rw [this]
  exact exec_reach .init hc

open Demo.Cmd in
/-- Nodes 1 and 2 are bootstrapped; node 2 crashes before it persisted anything and is bootstrapped again. Both apply the
bootstrap entries, node 1 is elected in term 2, and node 3 is added. It starts with nothing, rejects the first append, gets all
entries from index 1 and applies them. Node 1 crashes, node 3 is elected in term 3 with the vote of 2 and commits an entry. Node 1
restarts and goes through the entries again. -/
def story : List Cmd :=
  [.boot 1, .boot 2, .op (crash 2), .boot 2] ++
  ([ready 1, ready 2, call 1 .campaign, ready 1, deliver 2 0, ready 2, deliver 1 1, ready 1, deliver 2 2, ready 2, deliver 1 3,
    call 1 (.proposeConfChange (.v2 { changes := [⟨.addNode, 3⟩] })), ready 1, deliver 2 4, deliver 2 5, ready 2, deliver 1 6, deliver 1 7, ready 1,
    start 3, deliver 2 8, ready 2, ready 1, deliver 3 10, ready 3, deliver 1 11, ready 1, deliver 3 12, ready 3, crash 1,
    call 3 .campaign, ready 3, deliver 2 15, ready 2, deliver 3 16, ready 3, deliver 2 18, ready 2, deliver 3 19, ready 3, start 1, ready 1].map .op)

/-- The state at the end of the story. -/
def last : State := cluster story

/-- Node 2 has just been bootstrapped again, node 1 has not handled its first Ready. -/
def fresh : State := cluster (story.take 4)

theorem last_reach : Boot.Reach env dec peers last := cluster_reach (by decide +kernel)
theorem fresh_reach : Boot.Reach env dec peers fresh := cluster_reach (by decide +kernel)

/-- Who led which term, with which log. -/
theorem last_led : last.led.map (fun x => (x.node, x.term, x.log.base, x.log.ents.map (·.term))) =
    [(1, 2, 0, [1, 1, 2]), (1, 2, 0, [1, 1, 2, 2]), (1, 2, 0, [1, 1, 2, 2]), (1, 2, 0, [1, 1, 2, 2]), (1, 2, 0, [1, 1, 2, 2]),
     (3, 3, 0, [1, 1, 2, 2, 3]), (3, 3, 0, [1, 1, 2, 2, 3])] := by decide +kernel

/-- Who got which entry. -/
theorem last_out : last.out.map (fun d => (d.node, d.term, d.entry.index)) =
    [(1, 1, 1), (1, 1, 2), (2, 1, 1), (2, 1, 2), (1, 2, 3), (2, 2, 3), (1, 2, 4), (2, 2, 4), (3, 2, 1), (3, 2, 2), (3, 2, 3), (3, 2, 4),
     (3, 3, 5), (1, 2, 1), (1, 2, 2), (1, 2, 3), (1, 2, 4)] := by decide +kernel

/-- What the applications knew. -/
theorem last_known : (last.known.map fun k => (k.node, k.app.index, k.app.conf.voters)) =
    [(1, 2, [1, 2]), (2, 2, [1, 2]), (1, 2, [1, 2]), (2, 2, [1, 2]), (1, 2, [1, 2]), (2, 2, [1, 2]), (1, 3, [1, 2]), (2, 3, [1, 2]),
     (1, 4, [1, 2, 3]), (2, 4, [1, 2, 3]), (1, 4, [1, 2, 3]), (3, 0, []), (1, 4, [1, 2, 3]), (3, 4, [1, 2, 3]), (3, 4, [1, 2, 3]),
     (2, 4, [1, 2, 3]), (3, 4, [1, 2, 3]), (2, 4, [1, 2, 3]), (3, 5, [1, 2, 3]), (1, 4, [1, 2, 3])] := by decide +kernel

end Craft.Dyn.BootDemo
