import Verif.Dyn.Boot
import Verif.Dyn.BootDemo

/-! # Properties of clusters started with `Bootstrap`: C61-C66

See `Verif.Spec.Boot`: nothing is on any disk at first; the founders are bootstrapped (again, if they crash before persisting
anything), the others start with nothing; nodes crash and restart anywhere, the network does anything, the membership changes. -/

namespace Craft.Dyn
open Spec Members Boot
open Cluster (Delivered Led gterm LogRel)

variable {env : Env} {dec : Entry → Option ConfChangeI} {peers : List (Nat × Bytes)} {c : State}

/-- C61. In every reachable cluster at most one node ever leads a given term: no two running nodes, no running node and a
past leader, no two past leaders; and all append, snapshot and heartbeat messages ever sent in one term have one sender. -/
theorem C61_election_safety_bootstrapped (hp : PeersOK env dec peers) (h : Boot.Reach env dec peers c) :
    (∀ p q T, c.EverLed p T → c.EverLed q T → p = q) ∧
    (∀ m ∈ c.net, ∀ m' ∈ c.net, (m.type = .app ∨ m.type = .snap ∨ m.type = .heartbeat) →
      (m'.type = .app ∨ m'.type = .snap ∨ m'.type = .heartbeat) → m.term = m'.term → m.src = m'.src) :=
  let ⟨_, hr⟩ := boot_reach hp h
  hr.election

/-- C62. If two logs of the cluster (on disk, in memory, or of a past leader) know the same term for an index, then up to
that index they hold the same entries (and know the same terms) wherever both still reach. -/
theorem C62_log_matching_bootstrapped (hp : PeersOK env dec peers) (h : Boot.Reach env dec peers c) {v w : LogView} (hv : c.HasLog v) (hw : c.HasLog w)
    {i : Nat} (hi : v.base ≤ i ∧ i ≤ v.last) (hi' : w.base ≤ i ∧ i ≤ w.last) (ht : v.termAt i = w.termAt i) :
    (∀ j, j ≤ i → v.base < j → w.base < j → v.entry j = w.entry j) ∧
    (∀ j, j ≤ i → v.base ≤ j → w.base ≤ j → v.termAt j = w.termAt j) :=
  let ⟨_, hr⟩ := boot_reach hp h
  hr.matching hv hw hi hi' ht

/-- C63. An entry handed to some application, or recorded as committed on some disk, is in the log of every leader of a
later term (and of the present leader of the same term), unless that leader has already compacted it. -/
theorem C63_leader_completeness_bootstrapped (hp : PeersOK env dec peers) (h : Boot.Reach env dec peers c) :
    (∀ d ∈ c.out, ∀ q T v, (c.Leads q T v ∧ d.term ≤ T) ∨ (⟨q, T, v⟩ ∈ c.led ∧ d.term < T) →
      d.entry.index ≤ v.last ∧ (v.base < d.entry.index → v.entry d.entry.index = some d.entry)) ∧
    (∀ p i e, c.DiskCommitted p i → (c.proc p).disk.view.entry i = some e →
      ∀ q T v, (c.Leads q T v ∧ (c.proc p).disk.hardState.term ≤ T) ∨ (⟨q, T, v⟩ ∈ c.led ∧ (c.proc p).disk.hardState.term < T) →
        i ≤ v.last ∧ (v.base < i → v.entry i = some e)) :=
  let ⟨_, hr⟩ := boot_reach hp h
  hr.completeness

/-- C64. No two entries with the same index that were ever handed to applications, or are recorded as committed on some
disk, differ. -/
theorem C64_state_machine_safety_bootstrapped (hp : PeersOK env dec peers) (h : Boot.Reach env dec peers c) :
    (∀ d ∈ c.out, ∀ d' ∈ c.out, d.entry.index = d'.entry.index → d.entry = d'.entry) ∧
    (∀ p q i, c.DiskCommitted p i → c.DiskCommitted q i → ∀ e e', (c.proc p).disk.view.entry i = some e →
      (c.proc q).disk.view.entry i = some e' → e = e') ∧
    (∀ d ∈ c.out, ∀ p, c.DiskCommitted p d.entry.index → ∀ e, (c.proc p).disk.view.entry d.entry.index = some e → d.entry = e) :=
  let ⟨_, hr⟩ := boot_reach hp h
  hr.agreement

theorem boot_full (hp : PeersOK env dec peers) : (bgen hp).At (bgen hp).B (pc (peers.map (·.1))) := by
  have e := boot_cfg hp peers.length (Nat.le_refl _)
  rw [List.take_of_length_le (l := RawNode.bootstrapEntries env 1 peers) (by rw [boot_length]),
    List.take_of_length_le (i := max peers.length 1) (by rw [List.length_map]; exact Nat.le_max_left _ _)] at e
  exact e

/-- C65. There is one history of configurations, `f`: the configuration at each index from that of the last bootstrap entry
on. It starts with the configuration in which exactly the founders are voters, and each entry applied makes of it what the
entry's conf change says. All the applications know is taken from it, once they applied the bootstrap entries: what they
recorded after any Ready, what they know now, what a running node itself uses (unless it holds a snapshot it did not hand out
yet), what the snapshots on disk and the snapshots sent say. And a leader's log holds at most one conf change its application
has not applied, no log more than one that is not committed there. -/
theorem C65_configuration_history_bootstrapped (hp : PeersOK env dec peers) (h : Boot.Reach env dec peers c) :
    (∃ f : Nat → TConfig, VotersExactly (f peers.length) peers ∧
      (∀ r ∈ c.known, peers.length ≤ r.app.index → r.app.conf = stateOf (f r.app.index)) ∧
      (∀ p n a, c.proc p = .up n a → peers.length ≤ a.index →
        a.conf = stateOf (f a.index) ∧ (n.raft.log.unstable.snapshot = none → n.raft.trk.config = f a.index)) ∧
      (∀ p, peers.length ≤ (c.proc p).disk.snapshot.metadata.index →
        (c.proc p).disk.snapshot.metadata.confState = stateOf (f (c.proc p).disk.snapshot.metadata.index)) ∧
      (∀ m ∈ c.net, m.type = .snap → ∃ s, m.snapshot = some s ∧
        (peers.length ≤ s.metadata.index → s.metadata.confState = stateOf (f s.metadata.index))) ∧
      (∀ d ∈ c.out, ∀ r ∈ c.known, peers.length < d.entry.index → d.entry.index ≤ r.app.index →
        Follows dec d.entry (f (d.entry.index - 1)) (f d.entry.index))) ∧
    ∀ p, (∀ n a, c.proc p = .up n a → n.raft.state = .leader →
        (n.raft.log.view.ents.filter fun e => decide (a.index < e.index ∧ e.type ≠ .normal)).length ≤ 1) ∧
      (∀ n a, c.proc p = .up n a →
        (n.raft.log.view.ents.filter fun e => decide (n.raft.log.committed < e.index ∧ e.type ≠ .normal)).length ≤ 1) ∧
      ((c.proc p).disk.view.ents.filter fun e =>
        decide (max (c.proc p).disk.view.base (c.proc p).disk.hardState.commit < e.index ∧ e.type ≠ .normal)).length ≤ 1 := by
  obtain ⟨g, hr⟩ := boot_reach hp h
  have hlen : (bgen hp).B.length = peers.length := boot_length _ _
  refine ⟨?_, fun p => ?_⟩
  · obtain ⟨f, _, h1, h2, h3, h4, h5, h6⟩ := hr.history
    rw [hlen] at h1 h2 h3 h4 h5 h6
    have h0 : (bgen hp).L0.length = 0 := rfl
    rw [h0] at h1 h2 h3 h4 h5 h6
    simp only [Nat.sub_zero, Nat.zero_add] at h1 h2 h3 h4 h5 h6
    refine ⟨f, ?_, h2, h3, h4, h5, h6⟩
    rw [h1 _ (boot_full hp)]
    exact ⟨pc_inc _, pc_sorted _, rfl, rfl, rfl, rfl⟩
  · obtain ⟨h1, h2, h3⟩ := hr.oneChange p
    have key : ∀ (v : LogView) (k : Nat),
        (v.ents.filter fun e => decide (k < e.index ∧ (bgen hp).L0.length < e.index ∧ e.type ≠ .normal)).length ≤ 1 →
        (v.ents.filter fun e => decide (k < e.index ∧ e.type ≠ .normal)).length ≤ 1 := by
      intro v k h
      refine Nat.le_trans (Nat.le_of_eq ?_) h
      congr 1
      apply List.filter_congr
      intro e _
      apply decide_eq_decide.2
      constructor
      · rintro ⟨a, b⟩; exact ⟨a, Nat.lt_of_le_of_lt (Nat.zero_le _) a, b⟩
      · rintro ⟨a, _, b⟩; exact ⟨a, b⟩
    exact ⟨fun n a hn hl => key _ _ (h1 n a hn hl), fun n a hn => key _ _ (h2 n a hn), key _ _ h3⟩

theorem boot_announces {k : Nat} {e : Entry} (h : (RawNode.bootstrapEntries env 1 peers)[k]? = some e) :
    ∃ q, peers[k]? = some q ∧ Announces env e q (k + 1) := by
  obtain ⟨h1, h2, h3, q, h4, h5⟩ := boot_get peers 1 k h
  exact ⟨q, h4, by rw [h3, Nat.add_comm], h2, h1, h5⟩

/-- C66. All logs of the cluster and all applications agree on the first entries: index `i` announces the `i`-th peer. And as
long as its application has not applied all of them (and no snapshot is waiting), a node is a follower and nobody but founders
is in its configuration. -/
theorem C66_bootstrap_prefix (hp : PeersOK env dec peers) (h : Boot.Reach env dec peers c) :
    (∀ v, c.HasLog v → ∀ i e, i ≤ peers.length → v.entry i = some e → ∃ q, peers[i - 1]? = some q ∧ Announces env e q i) ∧
    (∀ d ∈ c.out, d.entry.index ≤ peers.length → ∃ q, peers[d.entry.index - 1]? = some q ∧ Announces env d.entry q d.entry.index) ∧
    (∀ p n a, c.proc p = .up n a → n.raft.log.unstable.snapshot = none → a.index < peers.length →
      n.raft.state = .follower ∧ ∀ x, Member n.raft.trk.config x → Founder peers x) := by
  obtain ⟨g, hr⟩ := boot_reach hp h
  have hlen : (bgen hp).B.length = peers.length := boot_length _ _
  refine ⟨fun v hv i e hi he => ?_, fun d hd hi => ?_, fun p n a hpn hs ha => ?_⟩
  · have : ∃ s x, (bgen hp).Run s ∧ Matched s.net x ∧ LogRel ((bgen hp).L0 ++ x) v := by
      rcases hr.logged hv with ⟨x, h1, h2⟩ | ⟨p, n, a, hpn, rfl⟩
      · exact ⟨g, x, hr.reach, h1, h2⟩
      · obtain ⟨s, k1, k2, k3⟩ := hr.one hpn
        exact ⟨s, _, k1, k1.inv.nodeMatched p, k3.log⟩
    obtain ⟨s, x, h1, h2, h3⟩ := this
    have hb : v.base < i := by
      unfold LogView.entry at he
      by_cases hb : v.base < i
      · exact hb
      · rw [if_pos (by omega)] at he; cases he
    rw [h3.entry hb] at he
    have := h1.head h2 (k := i - 1) (by omega) he
    obtain ⟨q, h4, h5⟩ := boot_announces this
    exact ⟨q, h4, by rw [show i - 1 + 1 = i by omega] at h5; exact h5⟩
  · have ho := hr.out d hd
    have h1 := ho.1
    have hlt : d.entry.index - 1 < (bgen hp).B.length := by omega
    have hget := List.getElem?_eq_getElem hlt
    obtain ⟨q, h4, h5⟩ := boot_announces (env := env) hget
    rw [show d.entry.index - 1 + 1 = d.entry.index by omega] at h5
    have hB : (bgen hp).OutOk g.net ⟨0, 1, (bgen hp).B[d.entry.index - 1]⟩ := by
      have hidx : (bgen hp).B[d.entry.index - 1].index = d.entry.index := h5.1
      refine ⟨by dsimp only; rw [hidx]; exact h1, (bgen hp).B, ?_, ?_⟩
      · dsimp only; rw [hidx]; exact hget
      · rcases hr.reach.boot with hb | ⟨cf, hb⟩
        · rw [hb] at hlt; cases hlt
        · exact Or.inr ⟨1, _, cf, hb, Nat.lt_succ_self _, List.prefix_refl _⟩
    have := ho.same hr.reach hB h5.1.symm
    rw [this]
    refine ⟨q, ?_, ?_⟩
    · dsimp only; rw [show (bgen hp).B[d.entry.index - 1].index = d.entry.index from h5.1]; exact h4
    · dsimp only; rw [show (bgen hp).B[d.entry.index - 1].index = d.entry.index from h5.1]; exact h5
  · obtain ⟨s, hu⟩ : ∃ s, (bgen hp).Up g p n a s := by
      have := hr.proc p
      rw [hpn] at this
      exact this
    have hb : max a.index n.raft.log.view.base < (bgen hp).B.length := by
      have := hu.linv.base_app hs
      have := hu.rel.app
      have e : n.raft.core.log = n.raft.log := rfl
      rw [e] at this
      omega
    refine ⟨hu.rel.early ?_, fun x hx => hr.early hpn hb hx⟩
    rw [hu.rel.pos]
    exact Nat.lt_of_le_of_lt (Nat.sub_le _ _) hb

/-! ## The hypotheses are met

In `BootDemo.last` (see its story) nodes 1 and 2 were bootstrapped, node 3 joined with nothing on its disk and leads term 3. -/

section
open BootDemo

example : PeersOK Demo.env Demo.dec BootDemo.peers ∧ Boot.Reach Demo.env Demo.dec BootDemo.peers last := ⟨peersOK, last_reach⟩

/-- C61 at work: node 3 led term 3, so nobody else ever did. -/
example (p : Nat) (h : last.EverLed p 3) : p = 3 := by
  have : (last.led.map fun r => (r.node, r.term))[5]? = some (3, 3) := by decide +kernel
  rw [List.getElem?_map] at this
  obtain ⟨r, h1, h2⟩ := Option.map_eq_some_iff.1 this
  obtain ⟨n, t, v⟩ := r
  simp only [Prod.mk.injEq] at h2
  obtain ⟨rfl, rfl⟩ := h2
  exact (C61_election_safety_bootstrapped peersOK last_reach).1 p 3 3 h (Or.inr ⟨v, List.mem_of_getElem? h1⟩)

/-- C62 at work: the log of the leader 1 of term 2 and the log on the disk of node 3 know the same term for index 4. -/
example (r : Led) (h : last.led[4]? = some r) : r.log.termAt 4 = (last.proc 3).disk.view.termAt 4 ∧
    r.log.entry 3 = (last.proc 3).disk.view.entry 3 := by
  have h1 : (last.led[4]?.map fun r => (r.log.termAt 4, r.log.base, r.log.last)) = some (2, 0, 4) := by decide +kernel
  have h2 : ((last.proc 3).disk.view.termAt 4, (last.proc 3).disk.view.base, (last.proc 3).disk.view.last) = (2, 0, 5) := by decide +kernel
  rw [h] at h1
  simp only [Option.map_some, Option.some.injEq, Prod.mk.injEq] at h1 h2
  obtain ⟨a1, a2, a3⟩ := h1
  obtain ⟨b1, b2, b3⟩ := h2
  refine ⟨by rw [a1, b1], ?_⟩
  exact (C62_log_matching_bootstrapped peersOK last_reach (.led (List.mem_of_getElem? h)) (.disk 3) (i := 4) (by omega) (by omega)
    (by rw [a1, b1])).1 3 (by omega) (by omega) (by omega)

/-- C63 at work: the entry with index 4 delivered in term 2 is in the log of the leader of term 3. -/
example (d : Delivered) (r : Led) (h : last.out[6]? = some d) (h' : last.led[6]? = some r) : r.term = 3 ∧ d.term = 2 ∧ d.entry.index = 4 ∧
    r.log.entry 4 = some d.entry := by
  have h1 : (last.out[6]?.map fun d => (d.term, d.entry.index)) = some (2, 4) := by decide +kernel
  have h2 : (last.led[6]?.map fun r => (r.term, r.log.base)) = some (3, 0) := by decide +kernel
  rw [h] at h1
  rw [h'] at h2
  simp only [Option.map_some, Option.some.injEq, Prod.mk.injEq] at h1 h2
  refine ⟨h2.1, h1.1, h1.2, ?_⟩
  have := ((C63_leader_completeness_bootstrapped peersOK last_reach).1 d (List.mem_of_getElem? h) r.node r.term r.log
    (Or.inr ⟨List.mem_of_getElem? h', by omega⟩)).2 (by omega)
  rw [h1.2] at this
  exact this

/-- C64 at work: node 1 (bootstrapped) and node 3 (which joined) got the same entry with index 1. -/
example (d d' : Delivered) (h : last.out[0]? = some d) (h' : last.out[8]? = some d') : d.node = 1 ∧ d'.node = 3 ∧ d.entry = d'.entry := by
  have h1 : (last.out[0]?.map fun d => (d.node, d.entry.index)) = some (1, 1) := by decide +kernel
  have h2 : (last.out[8]?.map fun d => (d.node, d.entry.index)) = some (3, 1) := by decide +kernel
  rw [h] at h1
  rw [h'] at h2
  simp only [Option.map_some, Option.some.injEq, Prod.mk.injEq] at h1 h2
  exact ⟨h1.1, h2.1, (C64_state_machine_safety_bootstrapped peersOK last_reach).1 d (List.mem_of_getElem? h) d' (List.mem_of_getElem? h')
    (h1.2.trans h2.2.symm)⟩

/-- C65 at work: the configuration at index 2 is that of the founders, at index 4 node 3 is in it. -/
example : ∃ f : Nat → TConfig, (∀ x, x ∈ (f 2).voters.incoming ↔ x = 1 ∨ x = 2) ∧ (f 4).voters = ⟨[1, 2, 3], []⟩ := by
  obtain ⟨⟨f, h1, h2, _⟩, _⟩ := C65_configuration_history_bootstrapped peersOK last_reach
  refine ⟨f, fun x => (h1.1 x).trans (by simp [Founder, BootDemo.peers]), ?_⟩
  have h : (last.known[13]?.map fun k => (k.app.index, k.app.conf.voters, k.app.conf.votersOutgoing)) = some (4, [1, 2, 3], []) := by decide +kernel
  obtain ⟨r, h3, h4⟩ := Option.map_eq_some_iff.1 h
  simp only [Prod.mk.injEq] at h4
  obtain ⟨e1, e2, e3⟩ := h4
  have := h2 r (List.mem_of_getElem? h3) (by rw [e1]; decide)
  rw [e1] at this
  rw [this] at e2 e3
  cases hf : (f 4).voters with
  | mk i o =>
    unfold stateOf at e2 e3
    rw [hf] at e2 e3
    simp only at e2 e3
    rw [e2, e3]

/-- C66 at work: right after the bootstrap node 1 has applied nothing, and uses the configuration of the founders. -/
example : (match fresh.proc 1 with
    | .up n a => some (n.raft.state, a.index, n.raft.trk.config.voters.incoming, n.raft.log.view.ents.map fun e => (e.index, e.type))
    | .down _ => none) = some (.follower, 0, [1, 2], [(1, .confChange), (2, .confChange)]) := by decide +kernel

end

end Craft.Dyn
