import Verif.Spec.Cluster

/-! # Clusters whose membership changes

As `Verif.Spec.Cluster`, but the applications apply the configuration changes that are committed
(`/repo/example/multi_mem_node.cc` 138-150): each calls `ApplyConfChange` for every conf change it is handed, in order,
keeps the `ConfState` it got back last, records it in the snapshots it creates, and restarts from its last snapshot. -/

namespace Craft

/-- The configuration change in an entry, as the applications read it (`dec`: their decoding of conf-change entries; any
function, the same for all of them). -/
def confOf (dec : Entry → Option ConfChangeI) (e : Entry) : Option ConfChangeI := if e.type = .normal then none else dec e

namespace Members
open Spec Cluster

/-- What an application knows: the last index it applied, and the configuration then. -/
structure App where
  index : Nat
  conf : ConfState
deriving DecidableEq

/-- The application installs the snapshot of a Ready. -/
def App.install (a : App) (s : Snapshot) : App := if isEmptySnap s then a else ⟨s.metadata.index, s.metadata.confState⟩

/-- The application goes through the committed entries of a Ready; it skips those it already applied (a restarted node may
be handed them again). -/
def applyAll (env : Env) (dec : Entry → Option ConfChangeI) : List Entry → RawNode → App → Res (RawNode × App)
  | [], n, a => .ok (n, a)
  | e :: es, n, a =>
    if e.index ≤ a.index then applyAll env dec es n a
    else match confOf dec e with
      | none => applyAll env dec es n { a with index := e.index }
      | some cc => do
        let (n, cs) ← n.applyConfChange env cc
        applyAll env dec es n ⟨e.index, cs⟩

/-- Handling one Ready: persist, (send,) apply, advance. -/
def handle (env : Env) (dec : Entry → Option ConfChangeI) (n : RawNode) (a : App) : Res (RawNode × App × Ready) := do
  let (n, rd) ← n.takeReady env
  let (n, a) ← applyAll env dec rd.committedEntries n (a.install rd.snapshot)
  let n ← n.advance
  pure (n, a, rd)

/-- A node: its storage only, or running with its application. -/
inductive Proc where
  | down (st : Storage)
  | up (n : RawNode) (a : App)

def Proc.disk : Proc → Storage
  | .down st => st
  | .up n _ => n.raft.log.storage

/-- What the application of a node knew at some time. -/
structure Known where
  node : Nat
  app : App
deriving DecidableEq

/-- The nodes, every message ever sent, every entry ever delivered, a record of leaders, and what the applications knew
after each Ready. The four lists are history. -/
structure State where
  proc : Nat → Proc
  net : List Message := []
  out : List Delivered := []
  led : List Led := []
  known : List Known := []

def State.set (c : State) (p : Nat) (x : Proc) : State := { c with proc := fun q => if q = p then x else c.proc q }

/-- The initial situation. As `Cluster.Genesis.OK`, except that the initial configuration may be any valid one. Conf
changes in the initial log must already be part of it: applying them again changes nothing. -/
structure GenesisOK (dec : Entry → Option ConfChangeI) (G : Genesis) : Prop where
  contig : Contig 1 G.log
  terms : ∀ e ∈ G.log, e.term ≠ 0
  low : gterm G.log G.log.length ≤ G.term + 1
  conf : ConfInv G.trk.config G.trk.progress
  zero : ¬ Member G.trk.config 0
  voter : G.trk.config.voters.incoming ≠ []
  still : ∀ e ∈ G.log, ∀ cc, confOf dec e = some cc → ∀ env r r' cs, r.trk.config = G.trk.config →
    Raft.applyConfChange env r cc.asV2 = .ok (r', cs) → r'.trk.config = G.trk.config

/-- A disk a node may start from: as for a fixed membership, and the log is not compacted beyond the snapshot. -/
structure GenesisDisk (G : Genesis) (st : Storage) : Prop extends G.Disk st where
  snapBase : st.view.base ≤ st.snapshot.metadata.index

/-- What can happen. -/
inductive Step (env : Env) (dec : Entry → Option ConfChangeI) : State → State → Prop
  /-- A stopped node starts, with any configuration for its id, from its last snapshot. -/
  | start (p : Nat) (cfg : Config) (rng : Nat) {c st n} : c.proc p = .down st → cfg.id = p → cfg.applied ≤ st.snapshot.metadata.index →
      RawNode.new env cfg st rng = .ok n →
      Step env dec c (c.set p (.up n ⟨st.snapshot.metadata.index, st.snapshot.metadata.confState⟩))
  /-- The application calls the node (ticks and proposals of conf changes included). -/
  | call (p : Nat) (x : Call) {c n n' a} : c.proc p = .up n a → x.Plain → (∀ m, x ≠ .step m) → x.run env n = .ok n' →
      Step env dec c (c.set p (.up n' a))
  /-- A message that was sent at any time arrives at its addressee. -/
  | deliver (p : Nat) (m : Message) {c n n' a} : c.proc p = .up n a → m ∈ c.net → m.to = p → (Call.step m).run env n = .ok n' →
      Step env dec c (c.set p (.up n' a))
  /-- Somebody makes up a message. -/
  | inject (p : Nat) (m : Message) {c n n' a} : c.proc p = .up n a → ¬ Vital m → (Call.step m).run env n = .ok n' →
      Step env dec c (c.set p (.up n' a))
  /-- The application handles a Ready: persist, send, apply, advance. -/
  | ready (p : Nat) {c n n' a a' rd} : c.proc p = .up n a → handle env dec n a = .ok (n', a', rd) →
      Step env dec c { c.set p (.up n' a') with
        net := c.net ++ rd.messages
        out := c.out ++ rd.committedEntries.map fun e => ⟨p, n.raft.term, e⟩
        led := if n.raft.state = .leader then c.led ++ [⟨p, n.raft.term, n.raft.log.view⟩] else c.led
        known := c.known ++ [⟨p, a'⟩] }
  /-- The application compacts its storage, up to its last snapshot at most. -/
  | compact (p i : Nat) {c n a st e} : c.proc p = .up n a → i ≤ n.raft.log.applied → i ≤ n.raft.log.storage.snapshot.metadata.index →
      n.raft.log.storage.compact i = .ok (st, e) → Step env dec c (c.set p (.up (n.withStorage st) a))
  /-- The application creates a snapshot of what it applied, recording the configuration it knows. -/
  | createSnapshot (p : Nat) (data : Bytes) {c n a st e} : c.proc p = .up n a →
      n.raft.log.storage.createSnapshot a.index (some a.conf) data = .ok (st, e) → Step env dec c (c.set p (.up (n.withStorage st) a))
  /-- A crash: only the disk survives. -/
  | crash (p : Nat) {c n a} : c.proc p = .up n a → Step env dec c (c.set p (.down n.raft.log.storage))
  /-- A crash in the middle of handling a Ready, after it was persisted. -/
  | crashReady (p : Nat) (some : List Message) (k : Nat) {c n a n1 rd} : c.proc p = .up n a → n.takeReady env = .ok (n1, rd) →
      (∀ m ∈ some, m ∈ rd.messages) →
      Step env dec c { c.set p (.down n1.raft.log.storage) with
        net := c.net ++ some
        out := c.out ++ (rd.committedEntries.take k).map fun e => ⟨p, n.raft.term, e⟩ }

/-- Everything a cluster started from `G` can get to. Nodes that join later start from the same situation. -/
inductive Reach (env : Env) (dec : Entry → Option ConfChangeI) (G : Genesis) : State → Prop
  | init (disk : Nat → Storage) : (∀ p, GenesisDisk G (disk p)) → Reach env dec G { proc := fun p => .down (disk p) }
  | step {c c'} : Reach env dec G c → Step env dec c c' → Reach env dec G c'

/-! ## What the properties talk about -/

/-- The logs of a cluster: what is on the disks, what running nodes have in memory, what past leaders had. -/
inductive State.HasLog (c : State) : LogView → Prop
  | disk (p : Nat) : c.HasLog (c.proc p).disk.view
  | mem (p : Nat) {n : RawNode} {a : App} : c.proc p = .up n a → c.HasLog n.raft.log.view
  | led {r : Led} : r ∈ c.led → c.HasLog r.log

/-- Node `p` is running and leads `term` with the log `v`. -/
def State.Leads (c : State) (p term : Nat) (v : LogView) : Prop :=
  ∃ n a, c.proc p = .up n a ∧ n.raft.state = .leader ∧ n.raft.term = term ∧ n.raft.log.view = v

/-- `p` led `term` at some time. -/
def State.EverLed (c : State) (p term : Nat) : Prop := (∃ v, c.Leads p term v) ∨ ∃ v, ⟨p, term, v⟩ ∈ c.led

/-- The disk of `p` records index `i` as committed. -/
def State.DiskCommitted (c : State) (p i : Nat) : Prop :=
  i ≤ max (c.proc p).disk.view.base (c.proc p).disk.hardState.commit

/-- The `ConfState` that describes a configuration. -/
def stateOf (cfg : TConfig) : ConfState :=
  { voters := cfg.voters.incoming, votersOutgoing := cfg.voters.outgoing, learners := cfg.learners,
    learnersNext := cfg.learnersNext, autoLeave := cfg.autoLeave }

/-- What a conf change makes of a configuration. An empty change leaves the joint configuration: the outgoing voters
are dropped and the staged learners become learners. A change with an explicit transition, or with several parts, enters a joint
configuration: the voters become outgoing as well, and the parts act on the incoming ones. Any other change acts on the voters
and learners directly, outside a joint configuration only, and changes at most one voter. -/
def Changed (cc : ConfChangeV2) (cfg cfg' : TConfig) : Prop :=
  if cc.changes = [] ∧ cc.transition = .auto then
    cfg.voters.outgoing ≠ [] ∧ cfg'.voters.incoming = cfg.voters.incoming ∧ cfg'.voters.outgoing = [] ∧
      (∀ x, x ∈ cfg'.learners ↔ x ∈ cfg.learners ∨ x ∈ cfg.learnersNext) ∧ cfg'.learnersNext = [] ∧ cfg'.autoLeave = false
  else if cc.transition ≠ .auto ∨ 1 < cc.changes.length then
    cfg'.voters.outgoing = cfg.voters.incoming ∧ cfg'.voters.incoming ≠ [] ∧ cfg'.autoLeave = decide (cc.transition ≠ .jointExplicit) ∧
      ((MConf.of cfg).changes (fun x => x ∈ cfg.voters.incoming) cc.changes).Is cfg'
  else
    cfg.voters.outgoing = [] ∧ cfg'.voters.outgoing = [] ∧ cfg'.voters.incoming ≠ [] ∧ cfg'.autoLeave = false ∧
      (∀ x y, (¬ (x ∈ cfg.voters.incoming ↔ x ∈ cfg'.voters.incoming)) → (¬ (y ∈ cfg.voters.incoming ↔ y ∈ cfg'.voters.incoming)) → x = y) ∧
      ((MConf.of cfg).changes (fun _ => False) cc.changes).Is cfg'

/-- What an applied entry makes of the configuration. -/
def Follows (dec : Entry → Option ConfChangeI) (e : Entry) (cfg cfg' : TConfig) : Prop :=
  match confOf dec e with
  | none => cfg' = cfg
  | some cc => Changed cc.asV2 cfg cfg'

end Members
end Craft
