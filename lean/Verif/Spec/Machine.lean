import Verif.Spec.BootLive

/-! # Replicated state machines

What all of it is for: every application runs the same deterministic state machine over the entries it is handed, saves the state of the
machine in the snapshots it makes, and loads it from the snapshot on its disk when it restarts and from the snapshots it is handed.
(`/repo/example/multi_mem_node.cc` 123-155 shows the loop.) -/

namespace Craft
open Members

/-- A deterministic state machine; its states can be saved and loaded. -/
structure Machine (σ : Type) where
  init : σ
  step : σ → Entry → σ
  save : σ → Bytes
  load : Bytes → σ
  back : ∀ s, load (save s) = s

namespace Machine
variable {σ : Type} (M : Machine σ)

/-- The state after the first `k` entries of the sequence `f 1, f 2, …`. -/
def after (f : Nat → Entry) : Nat → σ
  | 0 => M.init
  | k + 1 => M.step (after f k) (f (k + 1))

/-- The state once a snapshot is installed (none if its index is 0). -/
def install (s : σ) (snap : Snapshot) : σ := if isEmptySnap snap then s else M.load snap.data

/-- The application is handed entries when it has applied up to index `k`; it skips those it applied already. -/
def feed : List Entry → Nat × σ → Nat × σ
  | [], x => x
  | e :: es, (k, s) => if e.index ≤ k then feed es (k, s) else feed es (e.index, M.step s e)

/-- The states of the machines of all nodes after an action: a node that starts loads the snapshot on its disk; with a Ready its application
installs the snapshot and goes through the committed entries. -/
def next (env : Env) (dec : Entry → Option ConfChangeI) (c : State) (sm : Nat → σ) : Members.Act → Nat → σ
  | .start p _ _ =>
    match c.proc p with
    | .down st => fun q => if q = p then M.install M.init st.snapshot else sm q
    | .up _ _ => sm
  | .ready p =>
    match c.proc p with
    | .down _ => sm
    | .up n a =>
      match handle env dec n a with
      | .ok (_, _, rd) => fun q => if q = p then
          (M.feed rd.committedEntries ((a.install rd.snapshot).index, M.install (sm p) rd.snapshot)).2 else sm q
      | _ => sm
  | _ => sm

/-- Applications save the state of their machine in the snapshots they make. -/
def Saves (sm : Nat → σ) : Members.Act → Prop
  | .createSnapshot p data => data = M.save (sm p)
  | _ => True

/-- What to remember of an action: after a Ready the node, the index its application has applied, and the state of its machine. -/
def seen (c' : State) (sm' : Nat → σ) : Members.Act → List (Nat × Nat × σ)
  | .ready p =>
    match c'.proc p with
    | .up _ a => [(p, a.index, sm' p)]
    | .down _ => []
  | _ => []

/-- The executions of a cluster with its machines, from the given disks, with all that was seen. -/
inductive Run (env : Env) (dec : Entry → Option ConfChangeI) (disk : Nat → Storage) : List (Nat × Nat × σ) → State → (Nat → σ) → Prop
  | init : Run env dec disk [] { proc := fun p => .down (disk p) } fun _ => M.init
  | act {c c' sm hist} (a : Members.Act) : Run env dec disk hist c sm → a.Allowed c → M.Saves sm a → a.run env dec c = .ok c' →
      Run env dec disk (hist ++ seen c' (M.next env dec c sm a) a) c' (M.next env dec c sm a)

/-- The snapshots on the disks in the beginning hold the state after the initial log up to them. -/
def Holds (log : List Entry) (st : Storage) : Prop :=
  st.snapshot.metadata.index = 0 ∨ M.load st.snapshot.data = (log.take st.snapshot.metadata.index).foldl M.step M.init

/-- All replicas agree: there is one sequence of entries, that begins with `log`, such that every entry any application was ever handed is
from it, and the machine of every running node is, and every machine was whenever it was seen, in the state after exactly the
entries up to the index its application had applied. -/
def Replicated (log : List Entry) (hist : List (Nat × Nat × σ)) (c : State) (sm : Nat → σ) : Prop :=
  ∃ f : Nat → Entry, (∀ i e, log[i]? = some e → f (i + 1) = e) ∧ (∀ d ∈ c.out, f d.entry.index = d.entry) ∧
    (∀ p n a, c.proc p = .up n a → sm p = M.after f a.index) ∧ ∀ p k s, (p, k, s) ∈ hist → s = M.after f k

/-- The same for an action on a cluster that is bootstrapped. -/
def nextBoot (env : Env) (dec : Entry → Option ConfChangeI) (c : State) (sm : Nat → σ) : Boot.Act → Nat → σ
  | .boot p _ _ => fun q => if q = p then M.init else sm q
  | .plain a => M.next env dec c sm a

def SavesBoot (sm : Nat → σ) : Boot.Act → Prop
  | .boot _ _ _ => True
  | .plain a => M.Saves sm a

def seenBoot (c' : State) (sm' : Nat → σ) : Boot.Act → List (Nat × Nat × σ)
  | .boot _ _ _ => []
  | .plain a => seen c' sm' a

/-- The executions of a cluster whose founders are bootstrapped. -/
inductive BootRun (env : Env) (dec : Entry → Option ConfChangeI) (peers : List (Nat × Bytes)) : List (Nat × Nat × σ) → State → (Nat → σ) → Prop
  | init : BootRun env dec peers [] Boot.blank fun _ => M.init
  | act {c c' sm hist} (a : Boot.Act) : BootRun env dec peers hist c sm → a.Allowed peers c → M.SavesBoot sm a → a.run env dec peers c = .ok c' →
      BootRun env dec peers (hist ++ seenBoot c' (M.nextBoot env dec c sm a) a) c' (M.nextBoot env dec c sm a)

end Machine
end Craft
