import Verif.Recover.Round

/-! # C73: a cluster never gets stuck -/

namespace Craft.Cluster
open Spec Abs

variable {env : Env} {G : Genesis} {S : List Nat} {c : State}

section
variable (hG : G.OK) (hE : Lossless env)
include hG hE

/-- Whatever was delivered before a quorum elected a leader is in the leader's log. -/
theorem delivered_behind (hl : Live env G c) {i T : Nat} {n : RawNode} {L : List Nat} (hp : c.proc i = .up n) (hs : n.raft.state = .leader)
    (ht : n.raft.term = T) (hd : Decides G.trk.config (i :: L)) (hiL : i ∉ L) (hL : ∀ j ∈ L, ∃ nj, c.proc j = .up nj ∧ nj.raft.term ≤ T)
    {y : Delivered} (hy : y ∈ c.out) : y.entry.index ≤ n.raft.log.view.last := by
  obtain ⟨g, hr⟩ := (hl.ok hG hE).1.rel hG
  obtain ⟨h0, pre, h1, h2⟩ := hr.out y hy
  -- the leader has at least this
  have key : ∀ s : AState, AReach (G.gen hG).Q (G.gen hG).τ s → (G.gen hG).NodeRel i s.net n.raft.core (s.node i) →
      (pre = [] ∨ ∃ T0, T0 ≤ T ∧ AMsg.chosen T0 pre ∈ s.net) → y.entry.index ≤ n.raft.log.view.last := by
    intro s k1 k2 k3
    have hlead := k2.lead k1 hs
    have hrole := k1.inv.leadNode i (k2.leader_role hs)
    have hpre : pre <+: (s.node i).log := by
      rcases k3 with rfl | ⟨T0, a1, a2⟩
      · exact List.nil_prefix
      · refine Gen.chosen_in (G := G.gen hG) k1 a2 hlead ?_
        rcases Nat.lt_or_ge T0 n.raft.term with hlt | hge
        · exact Or.inl hlt
        · refine Or.inr ⟨by omega, fun lg' hlg' => hrole.2 lg' ?_⟩
          rw [← show n.raft.term = _ from k2.term]; exact hlg'
    have hlog : LogRel ((G.gen hG).L0 ++ (s.node i).log) n.raft.log.view := k2.log
    have h4 := prefix_getElem?_some (append_prefix.2 hpre) h1
    have := (List.getElem?_eq_some_iff.1 h4).1
    rw [hlog.len] at this
    omega
  rcases h2 with rfl | ⟨T0, _, hch⟩
  · obtain ⟨s, k1, k2, k3⟩ := hr.one hp
    exact key s k1 k3 (Or.inl rfl)
  · obtain ⟨c0, lg, k, e, _, _, _, _, Q1, q1, hQ⟩ := hr.reach.inv.chosenOk _ _ hch
    have q2 : (G.gen hG).Q.isQ fun v => v ∈ i :: L :=
      ⟨⟨_, hd.incoming, fun v _ hv => by simpa using hv⟩, fun ho => ⟨_, hd.outgoing ho, fun v _ hv => by simpa using hv⟩⟩
    obtain ⟨v, v1, v2⟩ := (G.gen hG).Q.inter q1 q2
    obtain ⟨j, _, hack⟩ := hQ v v1
    rcases List.mem_cons.1 v2 with rfl | v2
    · obtain ⟨s, k1, k2, k3⟩ := hr.one hp
      have := (k1.inv.ackLead _ _ _ (k2 _ hack)).1
      rw [← show n.raft.term = _ from k3.term] at this
      exact key s k1 k3 (Or.inr ⟨T0, by omega, k2 _ hch⟩)
    · obtain ⟨nj, hj, hT⟩ := hL v v2
      obtain ⟨s, k1, k2, k3, k4⟩ := hr.two hp hj (fun h => hiL (by rw [h]; exact v2))
      have := (k1.inv.ackLead _ _ _ (k2 _ hack)).1
      rw [← show nj.raft.term = _ from k4.term] at this
      exact key s k1 k3 (Or.inr ⟨T0, by omega, k2 _ hch⟩)

/-- C73. From every reachable state of a cluster of fixed membership, with any majority of the voters - the others may be
down, or cut off, forever - the cluster can go on: there is a way, in which only nodes of that majority act and only messages
between them are received, to have any given data proposed, committed and delivered to an application, at an index above
everything delivered before. (Room for two more entries below the largest index is assumed.) -/
theorem C73_recovers (hl : Live env G c) (hq : Quorate G.trk.config S) (hroom : ∀ p ∈ S, (c.proc p).disk.lastIndex + 2 < 2 ^ 64) (d : Bytes) :
    ∃ c' new, Can env S c c' ∧ c'.out = c.out ++ new ∧
      ∃ x ∈ new, x.node ∈ S ∧ x.entry.type = .normal ∧ x.entry.data = d ∧ ∀ y ∈ c.out, y.entry.index < x.entry.index := by
  have hS0 : ∀ p ∈ S.dedup, p ≠ 0 := by
    intro p hp h0
    subst h0
    have := hq.voters 0 (List.mem_dedup.1 hp)
    exact hG.zero (by unfold Member; tauto)
  obtain ⟨c1, t1, u1⟩ := restart_all hG hE S.dedup (List.nodup_dedup S) (fun p hp => List.mem_dedup.1 hp) hS0 hl
  obtain ⟨c2, i, n, L, T, n0, t2, hi, hLS, hnd, hiL, hdec, hp0, hp, hch, hall⟩ := win hG hE hq t1.live
    (fun p hp => by obtain ⟨n, a1, a2, _⟩ := u1 p (List.mem_dedup.2 hp); exact ⟨n, a1, a2⟩)
  have hlast : n0.raft.log.view.last + 2 < 2 ^ 64 := by
    obtain ⟨n', a1, _, a3⟩ := u1 i (List.mem_dedup.2 hi)
    rw [hp0] at a1
    cases a1
    rw [a3]; exact hroom i hi
  generalize hV : n0.raft.log.view = V at *
  have hbeh : ∀ y ∈ c2.out, y.entry.index ≤ V.last + 1 := by
    intro y hy
    have := delivered_behind hG hE t2.live hp hch.leads.state hch.leads.term hdec hiL (fun j hj => by
      obtain ⟨nj, a1, a2⟩ := hall j hj
      exact ⟨nj, a1, by rcases a2.term with h | ⟨h, _⟩ <;> omega⟩) hy
    rw [hch.leads.view, firstLog, push_last] at this
    exact this
  obtain ⟨n3, r3, t3⟩ := to_call hG hE t2.live hp hi (.propose d) trivial (fun _ => nofun)
  have hk := known hG hE t2.live hp
  obtain ⟨⟨n3', e3⟩, r3, r4⟩ := Res.bind_eq_ok.1 (show (do let (n, _) ← n.propose env d; pure n : Res RawNode) = _ from r3)
  cases r4
  unfold RawNode.propose RawNode.onRaft at r3
  obtain ⟨⟨r', e3'⟩, r3, r4⟩ := Res.bind_eq_ok.1 r3
  cases r4
  obtain ⟨l1, l2, l3⟩ := Raft.proposes hk.linv.wf hch r3
  have hl2 : ((firstLog V T).push [{ term := T, index := V.last + 2, data := d }]).last = V.last + 2 := by
    rw [push_last, firstLog, push_last]; rfl
  have w : Work env G i T ((firstLog V T).push [{ term := T, index := V.last + 2, data := d }]) { term := T, index := V.last + 2, data := d } c.out
      (c2.set i (.up { n with raft := r' })) { n with raft := r' } := by
    refine ⟨t3.live, set_self, l1, ?_, (t1.out.trans t2.out).trans t3.out, Or.inl ?_⟩
    · rw [hl2, push_entry_gt _ _ (by rw [firstLog, push_last]; exact Nat.lt_succ_self _), firstLog, push_last]
      simp
    · rw [hl2]
      show r'.log.applied < _
      rw [l3]
      have := hch.fresh
      omega
  have hLv : ∀ j ∈ L, j ∈ G.trk.config.voters.incoming ∨ j ∈ G.trk.config.voters.outgoing := fun j hj => hq.voters j (hLS j hj)
  obtain ⟨c4, n4, t4, w4, _, m4, _⟩ := Work.catch_all hG hE hi L hnd hiL hLS hLv w (fun j hj => by
    obtain ⟨nj, a1, a2⟩ := hall j hj
    have hij : j ≠ i := fun h => hiL (by rw [← h]; exact hj)
    exact ⟨nj, by rw [t3.frame j (by simp [hij])]; exact a1, a2⟩)
  have hcom := Work.commits hG hE w4 hdec rfl (by rw [hl2]; exact hlast) m4
  have can4 : Can env S c c4 := ((t1.can.trans t2.can).trans t3.can).trans t4.can
  have fresh : ∀ y ∈ c.out, y.entry.index < V.last + 2 := by
    intro y hy
    have := hbeh y (t2.out.subset (t1.out.subset hy))
    omega
  by_cases hdue : ∃ os, c4.out = c.out ++ os ∧ (⟨i, T, { term := T, index := V.last + 2, data := d }⟩ : Delivered) ∈ os
  · obtain ⟨os, e1, e2⟩ := hdue
    exact ⟨c4, os, can4, e1, _, e2, hi, rfl, rfl, fresh⟩
  · have happ := w4.due.resolve_right hdue
    obtain ⟨c5, n5, os, t5, p5, r5, m5, a5, o5, d5⟩ := drain hG hE w4.live w4.up hi
    obtain ⟨zs, hz⟩ := w4.late
    refine ⟨c5, zs ++ os, can4.trans t5.can, by rw [o5, ← hz, List.append_assoc], _, List.mem_append.2 (Or.inr (d5 (V.last + 2) { term := T, index := V.last + 2, data := d } ?_ ?_ ?_)), hi, rfl, rfl, fresh⟩
    · rw [hl2] at happ
      rw [w4.lead.view]
      refine Nat.max_lt.2 ⟨happ, ?_⟩
      show V.base < _
      unfold LogView.last; omega
    · rw [hl2] at hcom; exact hcom
    · have := w4.entry
      rw [hl2] at this
      rw [w4.lead.view]; exact this

end

/-! ## The hypotheses are met

In the last state of the story of `Verif.Cluster.Demo` (after two elections and a crash), with nodes 1 and 3 only - not the
leader, 2 - the cluster can go on. -/

theorem Demo.quorate : Quorate Demo.genesis.trk.config [1, 3] :=
  ⟨by decide, by unfold Majority; decide, fun h => absurd rfl h⟩

example (d : Bytes) : ∃ c' new, Can Craft.Demo.env [1, 3] Demo.last c' ∧ c'.out = Demo.last.out ++ new ∧
    ∃ x ∈ new, x.node ∈ [1, 3] ∧ x.entry.type = .normal ∧ x.entry.data = d ∧ ∀ y ∈ Demo.last.out, y.entry.index < x.entry.index :=
  C73_recovers Demo.genesis_ok env_lossless Demo.last_live Demo.quorate (by decide +kernel) d

/-- Something had been delivered before. -/
example : Demo.last.out ≠ [] := by decide +kernel

end Craft.Cluster
