import Verif.Spec.Node
import Verif.Spec.RaftLog
import Verif.Spec.ConfChange

/-! # Clusters

Any number of nodes running the modelled library, each with an application that follows the Ready contract
(`/repo/example/multi_mem_node.cc` 109-154), over a network that loses, duplicates, delays and reorders messages, with
crashes and restarts at any point. The membership is fixed: the applications never call `ApplyConfChange`. -/

namespace Craft.Cluster
open Spec

/-- Term of index `i` in the full log `L` (0 outside). -/
def gterm (L : List Entry) (i : Nat) : Nat := if i = 0 then 0 else ((L[i - 1]?).map (·.term)).getD 0

/-- The view `v` shows the full log `L` from `v.base` on. -/
structure LogRel (L : List Entry) (v : LogView) : Prop where
  len : L.length = v.last
  ents : v.ents = L.drop v.base
  base : v.baseTerm = gterm L v.base
  contig : Contig 1 L

/-- A node: its storage only, or running. -/
inductive Proc where
  | down (st : Storage)
  | up (n : RawNode)

/-- What is on the node's disk. -/
def Proc.disk : Proc → Storage
  | .down st => st
  | .up n => n.raft.log.storage

/-- An entry handed to the application of a node (as committed), and the node's term then. -/
structure Delivered where
  node : Nat
  term : Nat
  entry : Entry
deriving DecidableEq

/-- A node was leader when it handled a Ready; its log then. -/
structure Led where
  node : Nat
  term : Nat
  log : LogView
deriving DecidableEq

/-- The nodes, every message ever sent, every entry ever delivered, and a record of leaders. The three lists are history:
no step removes anything from them. -/
structure State where
  proc : Nat → Proc
  net : List Message := []
  out : List Delivered := []
  led : List Led := []

def State.set (c : State) (p : Nat) (x : Proc) : State := { c with proc := fun q => if q = p then x else c.proc q }

/-- The initial situation: a log that every node has (and knows to be committed), the term every node is in, and the
membership. -/
structure Genesis where
  log : List Entry := []
  term : Nat := 0
  trk : Tracker

/-- The initial log is numbered from 1 and its entries carry terms the nodes have already seen (a snapshot installed by
hand may be one term ahead, as for a node that starts from scratch in term 0); the membership has a voter. -/
structure Genesis.OK (G : Genesis) : Prop where
  contig : Contig 1 G.log
  terms : ∀ e ∈ G.log, e.term ≠ 0
  low : gterm G.log G.log.length ≤ G.term + 1
  conf : ConfInv G.trk.config G.trk.progress
  zero : ¬ Member G.trk.config 0
  voter : G.trk.config.voters.incoming ≠ []
  auto : G.trk.config.autoLeave = false

/-- A disk a node may start from: any compaction of the initial log, no vote, everything committed, and a snapshot (possibly
empty) that records the membership. -/
structure Genesis.Disk (G : Genesis) (st : Storage) : Prop where
  wf : st.WF
  log : LogRel G.log st.view
  term : st.hardState.term = G.term
  vote : st.hardState.vote = 0
  commit : max st.view.base st.hardState.commit = G.log.length
  snapIndex : st.snapshot.metadata.index ≤ G.log.length
  snapTerm : st.snapshot.metadata.term = gterm G.log st.snapshot.metadata.index
  snapConf : st.snapshot.metadata.confState = G.trk.confState

/-- Message types on which safety rests. Messages of all other types (proposals, pre-votes, read requests, transfer
requests, heartbeat responses, ...) may be made up by anybody. -/
def Vital (m : Message) : Prop :=
  m.type = .app ∨ m.type = .appResp ∨ m.type = .vote ∨ m.type = .voteResp ∨ m.type = .snap ∨ m.type = .heartbeat

/-- What can happen. -/
inductive Step (env : Env) : State → State → Prop
  /-- A stopped node starts, with any configuration for its id. -/
  | start (p : Nat) (cfg : Config) (rng : Nat) {c st n} : c.proc p = .down st → cfg.id = p → RawNode.new env cfg st rng = .ok n →
      Step env c (c.set p (.up n))
  /-- The application calls the node (ticks included). -/
  | call (p : Nat) (x : Call) {c n n'} : c.proc p = .up n → x.Plain → (∀ m, x ≠ .step m) → x.run env n = .ok n' →
      Step env c (c.set p (.up n'))
  /-- A message that was sent at any time arrives at its addressee. -/
  | deliver (p : Nat) (m : Message) {c n n'} : c.proc p = .up n → m ∈ c.net → m.to = p → (Call.step m).run env n = .ok n' →
      Step env c (c.set p (.up n'))
  /-- Somebody makes up a message. -/
  | inject (p : Nat) (m : Message) {c n n'} : c.proc p = .up n → ¬ Vital m → (Call.step m).run env n = .ok n' →
      Step env c (c.set p (.up n'))
  /-- The application handles a Ready: persist, send, apply, advance. -/
  | ready (p : Nat) {c n n' rd} : c.proc p = .up n → n.handleReady env [] = .ok (n', rd) →
      Step env c { c.set p (.up n') with
        net := c.net ++ rd.messages
        out := c.out ++ rd.committedEntries.map fun e => ⟨p, n.raft.term, e⟩
        led := if n.raft.state = .leader then c.led ++ [⟨p, n.raft.term, n.raft.log.view⟩] else c.led }
  /-- The application compacts its storage. -/
  | compact (p i : Nat) {c n st e} : c.proc p = .up n → i ≤ n.raft.log.applied → n.raft.log.storage.compact i = .ok (st, e) →
      Step env c (c.set p (.up (n.withStorage st)))
  /-- The application creates a snapshot of what it applied, recording the membership it knows. -/
  | createSnapshot (p i : Nat) (cs : Option ConfState) (data : Bytes) {c n st e} : c.proc p = .up n → i ≤ n.raft.log.applied →
      (∀ x, cs = some x → x = n.raft.trk.confState) → n.raft.log.storage.createSnapshot i cs data = .ok (st, e) →
      Step env c (c.set p (.up (n.withStorage st)))
  /-- A crash: only the disk survives. -/
  | crash (p : Nat) {c n} : c.proc p = .up n → Step env c (c.set p (.down n.raft.log.storage))
  /-- A crash in the middle of handling a Ready, after it was persisted: some of the messages were sent, some of the
  entries delivered. -/
  | crashReady (p : Nat) (some : List Message) (k : Nat) {c n n1 rd} : c.proc p = .up n → n.takeReady env = .ok (n1, rd) →
      (∀ m ∈ some, m ∈ rd.messages) →
      Step env c { c.set p (.down n1.raft.log.storage) with
        net := c.net ++ some
        out := c.out ++ (rd.committedEntries.take k).map fun e => ⟨p, n.raft.term, e⟩ }

/-- Everything a cluster started from `G` can get to. -/
inductive Reach (env : Env) (G : Genesis) : State → Prop
  | init (disk : Nat → Storage) : (∀ p, G.Disk (disk p)) → Reach env G { proc := fun p => .down (disk p) }
  | step {c c'} : Reach env G c → Step env c c' → Reach env G c'

end Craft.Cluster
