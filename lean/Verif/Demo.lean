import Verif.Spec.Node

/-! # A small node for the examples

Three voters 1, 2, 3 with an empty log; the examples beside the theorems run it. -/

namespace Craft.Demo
open Craft

def env : Env :=
  { entSize := fun e => e.data.length + 1, parseV1 := fun _ => some {}, parseV2 := fun _ => some {}, serV1 := fun _ => []
    rand := fun _ _ => 0, serV2 := fun _ => [] }

def store : Storage := { snapshot := { metadata := { confState := { voters := [1, 2, 3] } } }, ents := [{}] }

def cfg (id : Nat) : Config :=
  { id := id, electionTick := 10, heartbeatTick := 1, maxSizePerMsg := 100, maxInflightMsgs := 8 }

/-- Runs calls from a new node `id`. -/
def run (id : Nat) (cs : List Call) : Res RawNode := do
  let n ← RawNode.new env (cfg id) store 0
  cs.foldlM (fun n c => c.run env n) n

/-- The node, for calls that succeed. -/
def node (id : Nat) (cs : List Call) : RawNode :=
  match run id cs with
  | .ok n => n
  | _ => default

example : (node 1 [.campaign]).raft.term = 1 ∧ (node 1 [.campaign]).raft.msgs.length = 2 := by decide
def elect : List Call := [.campaign, .step { type := .voteResp, src := 2, to := 1, term := 1 }]
example : (node 1 elect).raft.state = .leader ∧ (node 1 elect).raft.msgs.length = 4 := by decide

end Craft.Demo
