import Verif.Dyn.Safety
import Verif.Dyn.Demo

/-! # Properties of clusters whose membership changes: C55-C60

See `Verif.Spec.Members`: nodes crash and restart anywhere, the network does anything, conf changes are proposed and applied,
nodes join and leave. -/

namespace Craft.Dyn
open Spec Members
open Cluster (Genesis Delivered Led)

variable {env : Env} {dec : Entry → Option ConfChangeI} {G : Genesis} {c : State}

/-- C55. In every reachable cluster at most one node ever leads a given term: no two running nodes, no running node and a
past leader, no two past leaders; and all append, snapshot and heartbeat messages ever sent in one term have one sender. -/
theorem C55_election_safety_members (hG : GenesisOK dec G) (h : Members.Reach env dec G c) :
    (∀ p q T, c.EverLed p T → c.EverLed q T → p = q) ∧
    (∀ m ∈ c.net, ∀ m' ∈ c.net, (m.type = .app ∨ m.type = .snap ∨ m.type = .heartbeat) →
      (m'.type = .app ∨ m'.type = .snap ∨ m'.type = .heartbeat) → m.term = m'.term → m.src = m'.src) :=
  let ⟨_, hr⟩ := reach_rel hG h
  hr.election

/-- C56. If two logs of the cluster (on disk, in memory, or of a past leader) know the same term for an index, then up to
that index they hold the same entries (and know the same terms) wherever both still reach. -/
theorem C56_log_matching_members (hG : GenesisOK dec G) (h : Members.Reach env dec G c) {v w : LogView} (hv : c.HasLog v) (hw : c.HasLog w) {i : Nat}
    (hi : v.base ≤ i ∧ i ≤ v.last) (hi' : w.base ≤ i ∧ i ≤ w.last) (ht : v.termAt i = w.termAt i) :
    (∀ j, j ≤ i → v.base < j → w.base < j → v.entry j = w.entry j) ∧
    (∀ j, j ≤ i → v.base ≤ j → w.base ≤ j → v.termAt j = w.termAt j) :=
  let ⟨_, hr⟩ := reach_rel hG h
  hr.matching hv hw hi hi' ht

/-- C57. An entry handed to some application, or recorded as committed on some disk, is in the log of every leader of a
later term (and of the present leader of the same term), unless that leader has already compacted it. -/
theorem C57_leader_completeness_members (hG : GenesisOK dec G) (h : Members.Reach env dec G c) :
    (∀ d ∈ c.out, ∀ q T v, (c.Leads q T v ∧ d.term ≤ T) ∨ (⟨q, T, v⟩ ∈ c.led ∧ d.term < T) →
      d.entry.index ≤ v.last ∧ (v.base < d.entry.index → v.entry d.entry.index = some d.entry)) ∧
    (∀ p i e, c.DiskCommitted p i → (c.proc p).disk.view.entry i = some e →
      ∀ q T v, (c.Leads q T v ∧ (c.proc p).disk.hardState.term ≤ T) ∨ (⟨q, T, v⟩ ∈ c.led ∧ (c.proc p).disk.hardState.term < T) →
        i ≤ v.last ∧ (v.base < i → v.entry i = some e)) :=
  let ⟨_, hr⟩ := reach_rel hG h
  hr.completeness

/-- C58. No two entries with the same index that were ever handed to applications, or are recorded as committed on some
disk, differ. -/
theorem C58_state_machine_safety_members (hG : GenesisOK dec G) (h : Members.Reach env dec G c) :
    (∀ d ∈ c.out, ∀ d' ∈ c.out, d.entry.index = d'.entry.index → d.entry = d'.entry) ∧
    (∀ p q i, c.DiskCommitted p i → c.DiskCommitted q i → ∀ e e', (c.proc p).disk.view.entry i = some e →
      (c.proc q).disk.view.entry i = some e' → e = e') ∧
    (∀ d ∈ c.out, ∀ p, c.DiskCommitted p d.entry.index → ∀ e, (c.proc p).disk.view.entry d.entry.index = some e → d.entry = e) :=
  let ⟨_, hr⟩ := reach_rel hG h
  hr.agreement

/-- C59. There is one history of configurations, `f`: the configuration at each index. It starts with the initial one and
each entry applied makes of it what the entry's conf change says. All the applications know is taken from it: what they recorded
after any Ready, what they know now, what a running node itself uses (unless it holds a snapshot it did not hand out yet), what
the snapshots on disk and the snapshots sent say. -/
theorem C59_configuration_history (hG : GenesisOK dec G) (h : Members.Reach env dec G c) :
    ∃ f : Nat → TConfig, (∀ i, i ≤ G.log.length → f i = G.trk.config) ∧
      (∀ r ∈ c.known, r.app.conf = stateOf (f r.app.index)) ∧
      (∀ p n a, c.proc p = .up n a → a.conf = stateOf (f a.index) ∧ (n.raft.log.unstable.snapshot = none → n.raft.trk.config = f a.index)) ∧
      (∀ p, (c.proc p).disk.snapshot.metadata.confState = stateOf (f (c.proc p).disk.snapshot.metadata.index)) ∧
      (∀ m ∈ c.net, m.type = .snap → ∃ s, m.snapshot = some s ∧ s.metadata.confState = stateOf (f s.metadata.index)) ∧
      (∀ d ∈ c.out, ∀ r ∈ c.known, G.log.length < d.entry.index → d.entry.index ≤ r.app.index →
        Follows dec d.entry (f (d.entry.index - 1)) (f d.entry.index)) := by
  obtain ⟨g, hr⟩ := reach_rel hG h
  obtain ⟨f, h1, _, h2, h3, h4, h5, h6⟩ := hr.history
  refine ⟨f, h1 rfl, fun r hk => h2 r hk (Nat.zero_le _), fun p n a hp => h3 p n a hp (Nat.zero_le _), fun p => h4 p (Nat.zero_le _), fun m hm hty => ?_,
    fun d hd r hk => h6 d hd r hk⟩
  obtain ⟨s, e1, e2⟩ := h5 m hm hty
  exact ⟨s, e1, e2 (Nat.zero_le _)⟩

/-- C60. Conf changes go one at a time: a leader's log holds at most one conf change its application has not applied, and no
log, in memory or on disk, holds more than one that is not committed there (the initial log aside). -/
theorem C60_one_conf_change (hG : GenesisOK dec G) (h : Members.Reach env dec G c) (p : Nat) :
    (∀ n a, c.proc p = .up n a → n.raft.state = .leader →
      (n.raft.log.view.ents.filter fun e => decide (a.index < e.index ∧ G.log.length < e.index ∧ e.type ≠ .normal)).length ≤ 1) ∧
    (∀ n a, c.proc p = .up n a →
      (n.raft.log.view.ents.filter fun e => decide (n.raft.log.committed < e.index ∧ G.log.length < e.index ∧ e.type ≠ .normal)).length ≤ 1) ∧
    ((c.proc p).disk.view.ents.filter fun e =>
      decide (max (c.proc p).disk.view.base (c.proc p).disk.hardState.commit < e.index ∧ G.log.length < e.index ∧ e.type ≠ .normal)).length ≤ 1 :=
  let ⟨_, hr⟩ := reach_rel hG h
  hr.oneChange p

/-! ## The hypotheses are met

In `Demo.last` (see its story) node 3 was replaced by node 4 through a joint configuration, node 4 was brought up with a snapshot,
and leads term 2. -/

section
open Demo
open Cluster.Demo (genesis)

example : GenesisOK Demo.dec genesis ∧ Members.Reach Demo.env Demo.dec genesis last := ⟨genesisOK, last_reach⟩

/-- C55 at work: node 4 led term 2, so nobody else ever did. -/
example (p : Nat) (h : last.EverLed p 2) : p = 4 := by
  have : (last.led.map fun r => (r.node, r.term))[7]? = some (4, 2) := by decide +kernel
  rw [List.getElem?_map] at this
  obtain ⟨r, h1, h2⟩ := Option.map_eq_some_iff.1 this
  obtain ⟨n, t, v⟩ := r
  simp only [Prod.mk.injEq] at h2
  obtain ⟨rfl, rfl⟩ := h2
  exact (C55_election_safety_members genesisOK last_reach).1 p 4 2 h (Or.inr ⟨v, List.mem_of_getElem? h1⟩)

/-- C56 at work: the log of the leader 1 of term 1 and the log on the disk of node 4 know the same term for index 4. -/
example (r : Led) (h : last.led[6]? = some r) : r.log.termAt 4 = (last.proc 4).disk.view.termAt 4 ∧
    r.log.entry 3 = (last.proc 4).disk.view.entry 3 := by
  have h1 : (last.led[6]?.map fun r => (r.log.termAt 4, r.log.base, r.log.last)) = some (1, 2, 4) := by decide +kernel
  have h2 : ((last.proc 4).disk.view.termAt 4, (last.proc 4).disk.view.base, (last.proc 4).disk.view.last) = (1, 2, 5) := by decide +kernel
  rw [h] at h1
  simp only [Option.map_some, Option.some.injEq, Prod.mk.injEq] at h1 h2
  obtain ⟨a1, a2, a3⟩ := h1
  obtain ⟨b1, b2, b3⟩ := h2
  refine ⟨by rw [a1, b1], ?_⟩
  exact (C56_log_matching_members genesisOK last_reach (.led (List.mem_of_getElem? h)) (.disk 4) (i := 4) (by omega) (by omega)
    (by rw [a1, b1])).1 3 (by omega) (by omega) (by omega)

/-- C57 at work: the entry with index 3 delivered in term 1 is in the log of the leader of term 2. -/
example (d : Delivered) (r : Led) (h : last.out[4]? = some d) (h' : last.led[8]? = some r) : r.term = 2 ∧ d.term = 1 ∧ d.entry.index = 3 ∧
    r.log.entry 3 = some d.entry := by
  have h1 : (last.out[4]?.map fun d => (d.term, d.entry.index)) = some (1, 3) := by decide +kernel
  have h2 : (last.led[8]?.map fun r => (r.term, r.log.base)) = some (2, 2) := by decide +kernel
  rw [h] at h1
  rw [h'] at h2
  simp only [Option.map_some, Option.some.injEq, Prod.mk.injEq] at h1 h2
  refine ⟨h2.1, h1.1, h1.2, ?_⟩
  have := ((C57_leader_completeness_members genesisOK last_reach).1 d (List.mem_of_getElem? h) r.node r.term r.log
    (Or.inr ⟨List.mem_of_getElem? h', by omega⟩)).2 (by omega)
  rw [h1.2] at this
  exact this

/-- C58 at work: nodes 1 and 4 got the same entry with index 3. -/
example (d d' : Delivered) (h : last.out[4]? = some d) (h' : last.out[6]? = some d') : d.node = 1 ∧ d'.node = 4 ∧ d.entry = d'.entry := by
  have h1 : (last.out[4]?.map fun d => (d.node, d.entry.index)) = some (1, 3) := by decide +kernel
  have h2 : (last.out[6]?.map fun d => (d.node, d.entry.index)) = some (4, 3) := by decide +kernel
  rw [h] at h1
  rw [h'] at h2
  simp only [Option.map_some, Option.some.injEq, Prod.mk.injEq] at h1 h2
  exact ⟨h1.1, h2.1, (C58_state_machine_safety_members genesisOK last_reach).1 d (List.mem_of_getElem? h) d' (List.mem_of_getElem? h')
    (h1.2.trans h2.2.symm)⟩

/-- C59 at work: the configuration at index 2 is joint, that at index 4 is not. -/
example : ∃ f : Nat → TConfig, (f 0).voters = ⟨[1, 2, 3], []⟩ ∧ (f 2).voters = ⟨[1, 2, 4], [1, 2, 3]⟩ ∧ (f 4).voters = ⟨[1, 2, 4], []⟩ ∧
    ∀ r ∈ last.known, r.app.conf = stateOf (f r.app.index) := by
  obtain ⟨f, h1, h2, _⟩ := C59_configuration_history genesisOK last_reach
  have at' : ∀ (j i : Nat) (v o : List Nat), ((last.known[j]?.map fun k => (k.app.index, k.app.conf.voters, k.app.conf.votersOutgoing)) = some (i, v, o)) →
      (f i).voters = ⟨v, o⟩ := by
    intro j i v o h
    obtain ⟨r, h3, h4⟩ := Option.map_eq_some_iff.1 h
    simp only [Prod.mk.injEq] at h4
    obtain ⟨rfl, rfl, rfl⟩ := h4
    rw [h2 r (List.mem_of_getElem? h3)]
    rfl
  exact ⟨f, at' 0 0 _ _ (by decide +kernel), at' 6 2 _ _ (by decide +kernel), at' 15 4 _ _ (by decide +kernel), h2⟩

/-- C60 at work: the leader has just applied the conf change and proposed to leave the joint configuration. -/
example : (match mid.proc 1 with
    | .up n a => some (n.raft.state, a.index, n.raft.log.view.ents.map fun e => (e.index, e.type))
    | .down _ => none) = some (.leader, 2, [(1, .normal), (2, .confChangeV2), (3, .confChangeV2)]) := by decide +kernel

end

end Craft.Dyn
