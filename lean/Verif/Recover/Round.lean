import Verif.Recover.Repl

/-! # Bringing a peer up to date: a round in the cluster -/

namespace Craft.Cluster
open Spec Abs

variable {env : Env} {G : Genesis} {S : List Nat} {c c' : State} {i j T : Nat} {n n' nj : RawNode} {V : LogView} {e : Entry} {O : List Delivered}
  {q : Progress}

/-- Node `i` leads term `T` with log `V`, and its last entry `e` is still to be applied, or was applied after `O`. -/
structure Work (env : Env) (G : Genesis) (i T : Nat) (V : LogView) (e : Entry) (O : List Delivered) (c : State) (n : RawNode) : Prop where
  live : Live env G c
  up : c.proc i = .up n
  lead : Leading n.raft T V
  entry : V.entry V.last = some e
  late : O <+: c.out
  due : n.raft.log.applied < V.last ∨ ∃ os, c.out = O ++ os ∧ (⟨i, T, e⟩ : Delivered) ∈ os

theorem Work.keep {P : List Nat} (h : Work env G i T V e O c n) (t : To env G S P c c') (hp : c'.proc i = .up n') (hl : Leading n'.raft T V)
    (ha : n'.raft.log.applied = n.raft.log.applied) : Work env G i T V e O c' n' := by
  refine ⟨t.live, hp, hl, h.entry, h.late.trans t.out, ?_⟩
  rcases h.due with hd | ⟨os, h1, h2⟩
  · exact Or.inl (by rw [ha]; exact hd)
  · obtain ⟨ys, hy⟩ := t.out
    exact Or.inr ⟨os ++ ys, by rw [← hy, h1, List.append_assoc], List.mem_append.2 (Or.inl h2)⟩

/-- Somebody else moved. -/
theorem Work.other {P : List Nat} (h : Work env G i T V e O c n) (t : To env G S P c c') (hi : i ∉ P) : Work env G i T V e O c' n :=
  h.keep t (by rw [t.frame i hi]; exact h.up) h.lead rfl

theorem Work.serve (h : Work env G i T V e O c n) (t : To env G S [i] c (c.set i (.up n'))) (hs : Serve j n.raft n'.raft) (hj : j ≠ n.raft.id)
    (hq : ∃ q, n'.raft.pr j = some q ∧ q.isLearner = false ∧ (q.state = .probe → (q.mtch = 0 ∧ 1 ≤ q.next ∧ q.next ≤ V.last) ∨ q.next = q.mtch + 1)) :
    Work env G i T V e O (c.set i (.up n')) n' :=
  h.keep t set_self (h.lead.serve hs hj hq) hs.applied

/-- Where the peer is probed, or would be. -/
def probeAt (q : Progress) : Nat := if q.state = .probe then q.next else q.mtch + 1

/-- What the leader knows about the others. -/
def Keeps (j : Nat) (a b : Raft) : Prop := ∀ v p, v ≠ j → a.pr v = some p → ∃ p', b.pr v = some p' ∧ p'.mtch = p.mtch

theorem Keeps.trans {a b c : Raft} (h1 : Keeps j a b) (h2 : Keeps j b c) : Keeps j a c := by
  intro v p hv hp
  obtain ⟨p1, a1, a2⟩ := h1 v p hv hp
  obtain ⟨p2, b1, b2⟩ := h2 v p1 hv a1
  exact ⟨p2, b1, b2.trans a2⟩

theorem _root_.Craft.Serve.keeps {a b : Raft} (h : Serve j a b) : Keeps j a b := by
  intro v p hv hp
  obtain ⟨q, h1, h2⟩ := h.prs v p hv hp
  exact ⟨q, h1, (congrArg Prod.fst h2.1 :)⟩

theorem _root_.Craft.Rested.keeps {a b : Raft} (h : Rested a b) : Keeps j a b := fun v p _ hp => ⟨p, by rw [h.pr]; exact hp, rfl⟩

theorem _root_.Craft.Rested.ally {a b : Raft} (h : Rested a b) (ha : Ally a T) : Ally b T :=
  ⟨⟨h.checkQuorum.trans ha.plain.quorum, h.preVote.trans ha.plain.preVote, h.heartbeatTimeout.trans ha.plain.beat⟩, by rw [h.term, h.state]; exact ha.term⟩

section
variable (hG : G.OK) (hE : Lossless env)
include hG hE

/-- The leader handles a Ready. -/
theorem Work.ready (h : Work env G i T V e O c n) (hS : i ∈ S) :
    ∃ c' n', To env G S [i] c c' ∧ Work env G i T V e O c' n' ∧ Rested n.raft n'.raft ∧ (∀ m ∈ n.raft.msgs, m ∈ c'.net) := by
  obtain ⟨c1, n1, t1, p1, r1, m1, a1, o1⟩ := ready_one hG hE h.live h.up hS
  refine ⟨c1, n1, t1, ⟨t1.live, p1, h.lead.rested r1, h.entry, h.late.trans t1.out, ?_⟩, r1, m1⟩
  rcases h.due with hd | ⟨os, h1, h2⟩
  · by_cases hi : V.last ≤ n1.raft.log.applied
    · right
      obtain ⟨os, ho⟩ := h.late
      refine ⟨os ++ (nextOut env n.raft.log).map fun e => ⟨i, n.raft.term, e⟩, by rw [o1, ← ho, List.append_assoc], List.mem_append.2 (Or.inr ?_)⟩
      rw [List.mem_map]
      refine ⟨e, ?_, by rw [h.lead.term]⟩
      have hli := (known hG hE h.live h.up).linv
      have hba := hli.base_app h.lead.snap
      have hg := hli.nextOut_contig env
      obtain ⟨x, hx⟩ : ∃ x, (nextOut env n.raft.log)[V.last - max n.raft.log.applied n.raft.log.view.base - 1]? = some x :=
        ⟨_, List.getElem?_eq_getElem (by omega)⟩
      have h4 := hg _ _ hx
      have h5 := (hli.nextOut_entry env (List.mem_of_getElem? hx)).2.2.2
      rw [show x.index = V.last by omega, h.lead.view, h.entry] at h5
      cases h5
      exact List.mem_of_getElem? hx
    · left; omega
  · exact Or.inr ⟨os ++ (nextOut env n.raft.log).map fun e => ⟨i, n.raft.term, e⟩, by rw [o1, h1, List.append_assoc], List.mem_append.2 (Or.inl h2)⟩

/-- The leader goes back to probing the peer. -/
theorem Work.normal (h : Work env G i T V e O c n) (hS : i ∈ S) (hij : j ≠ i) (hq : n.raft.pr j = some q) (hlr : q.isLearner = false)
    (hpr : q.state = .probe → (q.mtch = 0 ∧ 1 ≤ q.next ∧ q.next ≤ V.last) ∨ q.next = q.mtch + 1) :
    ∃ c' n' q', To env G S [i] c c' ∧ Work env G i T V e O c' n' ∧ Keeps j n.raft n'.raft ∧ n'.raft.pr j = some q' ∧ q'.isLearner = false ∧
      q'.state = .probe ∧ q'.mtch = q.mtch ∧ q'.next = probeAt q ∧ ((q'.mtch = 0 ∧ 1 ≤ q'.next ∧ q'.next ≤ V.last) ∨ q'.next = q'.mtch + 1) := by
  have hk := known hG hE h.live h.up
  obtain ⟨n1, x1, t1⟩ := to_call hG hE h.live h.up hS (.reportUnreachable j) trivial nofun
  have x1 : n.reportUnreachable env j = .ok n1 := x1
  unfold RawNode.reportUnreachable RawNode.onRaft at x1
  obtain ⟨⟨n1', e1⟩, x2, x1⟩ := Res.bind_eq_ok.1 x1
  cases x1
  obtain ⟨⟨r1, e1'⟩, x3, x2⟩ := Res.bind_eq_ok.1 x2
  cases x2
  obtain ⟨s1, q1, a1, a2, a3, a4⟩ := Raft.unreach h.lead.state hq x3
  have w1 := h.serve t1 s1 (by rw [hk.id]; exact hij) ⟨q1, a1, a3.trans hlr, fun hp => by
    rcases a4 with ⟨_, _, b⟩ | ⟨_, rfl⟩
    · right; rw [b, a2]
    · exact hpr hp⟩
  obtain ⟨n2, y1, t2⟩ := to_call hG hE w1.live w1.up hS (.reportSnapshot j true) trivial nofun
  have y1 : RawNode.reportSnapshot env { n with raft := r1 } j true = .ok n2 := y1
  unfold RawNode.reportSnapshot RawNode.onRaft at y1
  obtain ⟨⟨n2', e2⟩, y2, y1⟩ := Res.bind_eq_ok.1 y1
  cases y1
  obtain ⟨⟨r2, e2'⟩, y3, y2⟩ := Res.bind_eq_ok.1 y2
  cases y2
  obtain ⟨s2, q2, b1, b2, b3, b4⟩ := Raft.snapFail (r := r1) w1.lead.state a1 y3
  have hfin : q2.state = .probe ∧ q2.next = probeAt q ∧ ((q2.mtch = 0 ∧ 1 ≤ q2.next ∧ q2.next ≤ V.last) ∨ q2.next = q2.mtch + 1) := by
    unfold probeAt
    rcases a4 with ⟨a5, a6, a7⟩ | ⟨a5, rfl⟩
    · rcases b4 with ⟨b5, _, _⟩ | ⟨b5, rfl⟩
      · rw [a6] at b5; cases b5
      · rw [if_neg (by rw [a5]; nofun)]
        exact ⟨a6, a7, Or.inr (by rw [a7, a2])⟩
    · rcases b4 with ⟨b5, b6, b7⟩ | ⟨b5, rfl⟩
      · rw [if_neg (by rw [b5]; nofun)]
        exact ⟨b6, b7, Or.inr (by rw [b7, b2])⟩
      · have hs : q2.state = .probe := by cases h3 : q2.state <;> simp_all
        rw [if_pos hs]
        exact ⟨hs, rfl, hpr hs⟩
  have w2 := w1.serve t2 s2 (by show j ≠ r1.id; rw [s1.id, hk.id]; exact hij) ⟨q2, b1, b3.trans (a3.trans hlr), fun _ => hfin.2.2⟩
  exact ⟨_, _, q2, t1.trans t2, w2, s1.keeps.trans s2.keeps, b1, b3.trans (a3.trans hlr), hfin.1, b2.trans a2, hfin.2.1, hfin.2.2⟩

/-- A heartbeat and its answer. -/
theorem Work.beat (h : Work env G i T V e O c n) (hS : i ∈ S) (hSj : j ∈ S) (hij : j ≠ i) (hq : n.raft.pr j = some q) (hlr : q.isLearner = false)
    (hpr : q.state = .probe → (q.mtch = 0 ∧ 1 ≤ q.next ∧ q.next ≤ V.last) ∨ q.next = q.mtch + 1)
    (hj : c.proc j = .up nj) (ha : Ally nj.raft T) :
    ∃ c' n' nj' m, To env G S [i, j] c c' ∧ Work env G i T V e O c' n' ∧ Keeps j n.raft n'.raft ∧ n'.raft.pr j = some q ∧
      c'.proc j = .up nj' ∧ Ally nj'.raft T ∧ nj'.raft.term = T ∧ m ∈ c'.net ∧ m.type = .heartbeatResp ∧ m.to = i ∧ m.src = j ∧ m.term = T := by
  have hk := known hG hE h.live h.up
  have hkj := known hG hE h.live hj
  -- tick
  obtain ⟨n1, x1, t1⟩ := to_call hG hE h.live h.up hS .tick trivial nofun
  have x1 : n.tick env = .ok n1 := x1
  unfold RawNode.tick at x1
  obtain ⟨r1, x2, x1⟩ := Res.bind_eq_ok.1 x1
  cases x1
  obtain ⟨s1, p1, b1⟩ := Raft.tick_beats h.lead x2
  have s1 := s1 j
  have w1 := h.serve t1 s1 (by rw [hk.id]; exact hij) ⟨q, by rw [← hq]; exact p1 j, hlr, hpr⟩
  obtain ⟨m, m1, m2, m3, m4, m5⟩ := b1 j q hq (by rw [hk.id]; exact hij)
  rw [hk.id] at m4
  -- the heartbeat is sent
  obtain ⟨c2, n2, t2, w2, r2, mm2⟩ := w1.ready hG hE hS
  have hj2 : c2.proc j = .up nj := by rw [t2.frame j (by simp [hij]), t1.frame j (by simp [hij])]; exact hj
  -- and heard
  obtain ⟨nj3, e3, y3, t3⟩ := to_deliver hG hE t2.live hj2 hSj (mm2 m m1) m3 (by rw [m4]; exact hS)
  have y3 := RawNode.step_raft (by rw [m2]; rfl) (Or.inr (by rw [m2]; nofun)) y3
  obtain ⟨g1, g2, g3, x, hx, x1, x2, x3, x4⟩ := Raft.hears ha m5 m2 y3
  have w3 := w2.other t3 (by simp [Ne.symm hij])
  -- and answered
  obtain ⟨c4, nj4, t4, p4, r4, mm4, _⟩ := ready_one hG hE t3.live (p := j) set_self hSj
  have w4 := w3.other t4 (by simp [Ne.symm hij])
  refine ⟨c4, n2, nj4, x, (((t1.mono (by simp)).trans (t2.mono (by simp))).trans (t3.mono (by simp))).trans (t4.mono (by simp)), w4, s1.keeps.trans r2.keeps, ?_, p4, r4.ally g1,
    by rw [r4.term, g2], mm4 x hx, x1, by rw [x2, m4], by rw [x3, hkj.id], x4⟩
  rw [r2.pr, ← hq]; exact p1 j

/-- One round: the peer acknowledges more, or is probed further down. -/
theorem Work.round (h : Work env G i T V e O c n) (hS : i ∈ S) (hSj : j ∈ S) (hij : j ≠ i)
    (hv : j ∈ G.trk.config.voters.incoming ∨ j ∈ G.trk.config.voters.outgoing) (hq : n.raft.pr j = some q) (hlt : q.mtch < V.last)
    (hj : c.proc j = .up nj) (ha : Ally nj.raft T) :
    ∃ c' n' nj' q', To env G S [i, j] c c' ∧ Work env G i T V e O c' n' ∧ Keeps j n.raft n'.raft ∧ n'.raft.pr j = some q' ∧
      c'.proc j = .up nj' ∧ Ally nj'.raft T ∧ (q.mtch < q'.mtch ∨ (q'.mtch = q.mtch ∧ probeAt q' < probeAt q)) := by
  have hk := known hG hE h.live h.up
  obtain ⟨q0, e0, hlr, hpr⟩ := h.lead.peers j (by rw [hk.config]; exact hv) (by rw [hk.id]; exact hij)
  rw [hq] at e0
  cases e0
  -- probe it
  obtain ⟨c1, n1, q1, t1, w1, k1, a1, a2, a3, a4, a5, a6⟩ := h.normal hG hE hS hij hq hlr hpr
  have hj1 : c1.proc j = .up nj := by rw [t1.frame j (by simp [hij])]; exact hj
  -- heartbeat
  obtain ⟨c2, n2, nj2, m, t2, w2, k2, b1, b2, b3, b4, m0, m1, m2, m3, m4⟩ := w1.beat hG hE hS hSj hij a1 a2 (fun _ => a6) hj1 ha
  have hk2 := known hG hE w2.live w2.up
  have hb2 := w2.lead.view
  have hbnd : 1 ≤ q1.next ∧ q1.next ≤ V.last ∧ q1.mtch < q1.next := by omega
  -- its answer
  obtain ⟨n3, e3, y3, t3⟩ := to_deliver hG hE w2.live w2.up hS m0 m2 (by rw [m3]; exact hSj)
  have y3 := RawNode.step_raft (by rw [m1]; rfl) (Or.inl (by rw [m3, b1]; rfl)) y3
  obtain ⟨x, q3, s3, d1, d2, d3, d4, d5, d6, d7, hx⟩ := Raft.answers hk2.linv.wf w2.lead.state m1 (by rw [m4, w2.lead.term]) (by rw [m3]; exact b1) a3 hbnd.1
    (by rw [hb2]; exact hbnd.2.1) (by rw [hb2]; omega) y3
  rw [m3] at s3 d1 d3
  rw [hk2.id] at d4
  rw [w2.lead.term] at d5
  have w3 := w2.serve t3 s3 (by rw [hk2.id]; exact hij) ⟨q3, d1, d7.trans a2, fun hp => by
    rcases hx with ⟨_, _, _, _, _, _, hx⟩ | ⟨_, _, _, hx⟩
    · rw [d6, hx]; exact a6
    · rw [hp] at hx; cases hx⟩
  obtain ⟨c4, n4, t4, w4, r4, mm4⟩ := w3.ready hG hE hS
  have hj4 : c4.proc j = .up nj2 := by rw [t4.frame j (by simp [hij]), t3.frame j (by simp [hij])]; exact b2
  have hk4 := known hG hE w4.live w4.up
  have hkj := known hG hE w4.live hj4
  have pr4 : n4.raft.pr j = some q3 := by rw [r4.pr]; exact d1
  have T14 : To env G S [i, j] c c4 := ((t1.mono (by simp)).trans t2).trans ((t3.mono (by simp)).trans (t4.mono (by simp)))
  have K14 : Keeps j n.raft n4.raft := (k1.trans k2).trans (s3.keeps.trans r4.keeps)
  -- what it got
  obtain ⟨nj5, e5, y5, t5⟩ := to_deliver hG hE w4.live hj4 hSj (mm4 x d2) d3 (by rw [d4]; exact hS)
  have hty : x.type = .app ∨ x.type = .snap := by
    rcases hx with hx | hx
    · exact Or.inl hx.1
    · exact Or.inr hx.1
  have y5 := RawNode.step_raft (by rcases hty with hty | hty <;> rw [hty] <;> rfl) (Or.inr (by rcases hty with hty | hty <;> rw [hty] <;> nofun)) y5
  have key : Ally nj5.raft T ∧ ∃ y ∈ nj5.raft.msgs, y.type = .appResp ∧ y.to = i ∧ y.src = j ∧ y.term = T ∧
      ((y.reject = false ∧ q1.mtch < y.index) ∨ (y.reject = true ∧ q3.state = .probe ∧ q3.next = q1.next ∧ y.index = q1.next - 1 ∧ 2 ≤ q1.next ∧ q1.mtch = 0)) := by
    rcases hx with ⟨x1, x2, x3, x4, x5, x6, x7⟩ | ⟨x1, x2, x3, x4⟩
    · obtain ⟨f1, y, f2, f3, f4, f5, f6, f7⟩ := Raft.takes_app b3 d5 hkj.linv.wf x1 x5 y5
      refine ⟨f1, y, f2, f3, by rw [f4, d4], by rw [f5, hkj.id], f6, ?_⟩
      rcases f7 with ⟨f7, f8⟩ | ⟨f7, f8, f9, f10⟩
      · exact Or.inl ⟨f7, by omega⟩
      · right
        rw [x3, x4, hb2] at f10
        rw [x3] at f8 f9
        have h2 : 2 ≤ q1.next := by
          by_cases h1 : q1.next = 1
          · exfalso
            rw [h1] at f10
            have z1 := hkj.zero
            have z2 := hk4.zero
            rw [w4.lead.view] at z2
            exact f10 (z1.trans z2.symm)
          · omega
        refine ⟨f7, x6, x7, f8, h2, ?_⟩
        rcases a6 with ⟨a6, _⟩ | a6
        · exact a6
        · exfalso
          have hprev : q1.next - 1 = q3.mtch := by omega
          have := match_true hG hE w4.live w4.up hj4 (Ne.symm hij) w4.lead.state pr4 (by rw [b4, w4.lead.term])
            (by rw [w4.lead.view]; rw [hb2] at x2; omega) (by have := hkj.linv.base_com; omega)
          rw [hprev, w4.lead.view.symm] at f10
          exact f10 this.1
    · have hid : nj2.raft.id = j := hkj.id
      obtain ⟨f1, y, f2, f3, f4, f5, f6, f7, f8⟩ := Raft.takes_snap b3 d5 x1 x3 (by
        rw [hid, hk2.snap]
        rcases hv with hv | hv
        · exact Or.inl hv
        · exact Or.inr (Or.inr hv)) y5
      refine ⟨f1, y, f2, f3, by rw [f4, d4], by rw [f5, hid], f6, Or.inl ⟨f7, ?_⟩⟩
      have := hk2.tidy
      omega
  obtain ⟨g1, y, g2, g3, g4, g5, g6, hy⟩ := key
  have w5 := w4.other t5 (by simp [Ne.symm hij])
  obtain ⟨c6, nj6, t6, p6, r6, mm6, _⟩ := ready_one hG hE t5.live (p := j) set_self hSj
  have w6 := w5.other t6 (by simp [Ne.symm hij])
  -- the answer
  obtain ⟨n7, e7, y7, t7⟩ := to_deliver hG hE w6.live w6.up hS (mm6 y g2) g4 (by rw [g5]; exact hSj)
  have y7 := RawNode.step_raft (by rw [g3]; rfl) (Or.inl (by rw [g5, pr4]; rfl)) y7
  have T17 : To env G S [i, j] c (c6.set i (.up n7)) := (T14.trans (t5.mono (by simp))).trans ((t6.mono (by simp)).trans (t7.mono (by simp)))
  have hj7 : (c6.set i (.up n7)).proc j = .up nj6 := by rw [t7.frame j (by simp [hij])]; exact p6
  have hl3 : q3.isLearner = false := d7.trans a2
  rcases hy with ⟨h1, h2⟩ | ⟨h1, h2, h3, h4, h5, h6⟩
  · obtain ⟨s7, q7, z1, z2, z3, z4⟩ := Raft.acked w6.lead.state g3 (by rw [g6, w6.lead.term]) h1 (by rw [g5]; exact pr4) (by omega) y7
    rw [g5] at s7 z1
    have w7 := w6.serve t7 s7 (by rw [hk4.id]; exact hij) ⟨q7, z1, z3.trans hl3, fun hp => absurd hp z4⟩
    exact ⟨_, n7, nj6, q7, T17, w7, K14.trans s7.keeps, z1, hj7, r6.ally g1, Or.inl (by omega)⟩
  · obtain ⟨s7, q7, z1, z2, z3, z4⟩ := Raft.refused w6.lead.state g3 (by rw [g6, w6.lead.term]) h1 (by rw [g5]; exact pr4) h2 (by omega) (by omega) y7
    rw [g5] at s7 z1
    have w7 := w6.serve t7 s7 (by rw [hk4.id]; exact hij) ⟨q7, z1, z3.trans hl3, fun hp => Or.inl (by have := z4 hp; omega)⟩
    refine ⟨_, n7, nj6, q7, T17, w7, K14.trans s7.keeps, z1, hj7, r6.ally g1, Or.inr ⟨by omega, ?_⟩⟩
    rw [← a5]
    unfold probeAt
    split
    · rename_i hp
      have := z4 hp
      omega
    · omega

/-- The peer is brought up to date. -/
theorem Work.catch_one (hS : i ∈ S) (hSj : j ∈ S) (hij : j ≠ i) (hv : j ∈ G.trk.config.voters.incoming ∨ j ∈ G.trk.config.voters.outgoing)
    (k f : Nat) (h : Work env G i T V e O c n) (hq : n.raft.pr j = some q) (hk : V.last - q.mtch ≤ k) (hf : probeAt q ≤ f)
    (hj : c.proc j = .up nj) (ha : Ally nj.raft T) :
    ∃ c' n' nj' q', To env G S [i, j] c c' ∧ Work env G i T V e O c' n' ∧ Keeps j n.raft n'.raft ∧ n'.raft.pr j = some q' ∧
      c'.proc j = .up nj' ∧ Ally nj'.raft T ∧ V.last ≤ q'.mtch := by
  induction k generalizing c n nj q f with
  | zero => exact ⟨c, n, nj, q, .refl h.live, h, fun v p _ hp => ⟨p, hp, rfl⟩, hq, hj, ha, by omega⟩
  | succ k ihk =>
    induction f generalizing c n nj q with
    | zero =>
      by_cases hlt : V.last ≤ q.mtch
      · exact ⟨c, n, nj, q, .refl h.live, h, fun v p _ hp => ⟨p, hp, rfl⟩, hq, hj, ha, hlt⟩
      obtain ⟨c1, n1, nj1, q1, t1, w1, k1, p1, j1, a1, hh⟩ := h.round hG hE hS hSj hij hv hq (by omega) hj ha
      rcases hh with hh | ⟨_, hh⟩
      · obtain ⟨c2, n2, nj2, q2, t2, w2, k2, p2, j2, a2, hl⟩ := ihk _ w1 p1 (by omega) (Nat.le_refl _) j1 a1
        exact ⟨c2, n2, nj2, q2, t1.trans t2, w2, k1.trans k2, p2, j2, a2, hl⟩
      · omega
    | succ f ihf =>
      by_cases hlt : V.last ≤ q.mtch
      · exact ⟨c, n, nj, q, .refl h.live, h, fun v p _ hp => ⟨p, hp, rfl⟩, hq, hj, ha, hlt⟩
      obtain ⟨c1, n1, nj1, q1, t1, w1, k1, p1, j1, a1, hh⟩ := h.round hG hE hS hSj hij hv hq (by omega) hj ha
      rcases hh with hh | ⟨hm, hh⟩
      · obtain ⟨c2, n2, nj2, q2, t2, w2, k2, p2, j2, a2, hl⟩ := ihk _ w1 p1 (by omega) (Nat.le_refl _) j1 a1
        exact ⟨c2, n2, nj2, q2, t1.trans t2, w2, k1.trans k2, p2, j2, a2, hl⟩
      · obtain ⟨c2, n2, nj2, q2, t2, w2, k2, p2, j2, a2, hl⟩ := ihf w1 p1 (by omega) (by omega) j1 a1
        exact ⟨c2, n2, nj2, q2, t1.trans t2, w2, k1.trans k2, p2, j2, a2, hl⟩

/-- All of them are. -/
theorem Work.catch_all (hS : i ∈ S) (L : List Nat) (hnd : L.Nodup) (hiL : i ∉ L) (hLS : ∀ j ∈ L, j ∈ S)
    (hv : ∀ j ∈ L, j ∈ G.trk.config.voters.incoming ∨ j ∈ G.trk.config.voters.outgoing)
    (h : Work env G i T V e O c n) (ha : ∀ j ∈ L, ∃ nj, c.proc j = .up nj ∧ Ally nj.raft T) :
    ∃ c' n', To env G S (i :: L) c c' ∧ Work env G i T V e O c' n' ∧ (∀ j ∈ L, ∃ nj, c'.proc j = .up nj ∧ Ally nj.raft T) ∧
      (∀ j ∈ L, ∃ q, n'.raft.pr j = some q ∧ V.last ≤ q.mtch) ∧
      ∀ v q, v ∉ L → n.raft.pr v = some q → ∃ q', n'.raft.pr v = some q' ∧ q'.mtch = q.mtch := by
  induction L generalizing c n with
  | nil => exact ⟨c, n, .refl h.live, h, nofun, nofun, fun v q _ hq => ⟨q, hq, rfl⟩⟩
  | cons j L ih =>
    obtain ⟨hj, hnd⟩ := List.nodup_cons.1 hnd
    have hij : j ≠ i := fun h => hiL (by rw [h]; exact List.mem_cons_self)
    have hiL' : i ∉ L := fun h => hiL (List.mem_cons_of_mem _ h)
    have hk := known hG hE h.live h.up
    obtain ⟨nj, p0, a0⟩ := ha j List.mem_cons_self
    obtain ⟨q, hq, _⟩ := h.lead.peers j (by rw [hk.config]; exact hv j List.mem_cons_self) (by rw [hk.id]; exact hij)
    obtain ⟨c1, n1, nj1, q1, t1, w1, k1, p1, j1, a1, hl⟩ := Work.catch_one hG hE hS (hLS j List.mem_cons_self) hij (hv j List.mem_cons_self) _ _ h hq (Nat.le_refl _) (Nat.le_refl _) p0 a0
    obtain ⟨c2, n2, t2, w2, b2, d2, e2⟩ := ih hnd hiL' (fun v hv => hLS v (List.mem_cons_of_mem _ hv)) (fun v hv' => hv v (List.mem_cons_of_mem _ hv')) w1 (fun v hv' => by
      obtain ⟨nv, x1, x2⟩ := ha v (List.mem_cons_of_mem _ hv')
      refine ⟨nv, ?_, x2⟩
      rw [t1.frame v (by
        have z1 : v ≠ i := fun h => hiL' (by rw [← h]; exact hv')
        have z2 : v ≠ j := fun h => hj (by rw [← h]; exact hv')
        simp [z1, z2])]
      exact x1)
    refine ⟨c2, n2, (t1.mono (by simp)).trans (t2.mono (by intro v hv; rcases List.mem_cons.1 hv with rfl | hv <;> simp [*])), w2, fun v hv' => ?_, fun v hv' => ?_, fun v q hv' hq => ?_⟩
    · rcases List.mem_cons.1 hv' with rfl | hv'
      · exact ⟨nj1, by rw [t2.frame _ (by simp [hij, hj])]; exact j1, a1⟩
      · exact b2 v hv'
    · rcases List.mem_cons.1 hv' with rfl | hv'
      · obtain ⟨q', x1, x2⟩ := e2 _ q1 hj p1
        exact ⟨q', x1, by rw [x2]; exact hl⟩
      · exact d2 v hv'
    · obtain ⟨z1, z2⟩ := not_or.1 (mt List.mem_cons.2 hv')
      obtain ⟨q', x1, x2⟩ := k1 v q z1 hq
      obtain ⟨q2, x3, x4⟩ := e2 v q' z2 x1
      exact ⟨q2, x3, x4.trans x2⟩

/-- A leader whose log a quorum has, and whose last entry is its own, has committed it. -/
theorem Work.commits {L : List Nat} (h : Work env G i T V e O c n) (hd : Decides G.trk.config (i :: L)) (he : e.term = T) (hN : V.last < 2 ^ 64)
    (hL : ∀ j ∈ L, ∃ q, n.raft.pr j = some q ∧ V.last ≤ q.mtch) : V.last ≤ n.raft.log.committed := by
  have hk := known hG hE h.live h.up
  have hli : n.raft.log.lastIndex = V.last := by rw [hk.linv.wf.lastIndex_eq, h.lead.view]
  have hle : ∀ v q, n.raft.pr v = some q → q.mtch ≤ V.last := by
    intro v q hq
    have := (hk.prs h.lead.state v q hq).mtch_le
    omega
  obtain ⟨q0, s1, s2, s3⟩ := h.lead.self
  have hb : ∀ v a, n.raft.trk.acked v = some a → a ≤ V.last := by
    intro v a hva
    obtain ⟨q, hq, rfl⟩ := Option.map_eq_some_iff.1 hva
    exact hle v q hq
  have hack : ∀ v, decide (v ∈ i :: L) = true → decide (V.last ≤ (n.raft.trk.acked v).getD 0) = true := by
    intro v hv
    rw [decide_eq_true_eq] at hv ⊢
    obtain ⟨q, hq, hl⟩ : ∃ q, n.raft.pr v = some q ∧ V.last ≤ q.mtch := by
      rcases List.mem_cons.1 hv with rfl | hv
      · rw [hk.id] at s1; exact ⟨q0, s1, by omega⟩
      · exact hL v hv
    have : n.raft.trk.acked v = some q.mtch := by
      unfold Tracker.acked
      have hq : n.raft.trk.progress.find v = some q := hq
      rw [hq]; rfl
    rw [this]; exact hl
  have hex := C03_joint_committed_exact n.raft.trk.config.voters n.raft.trk.acked (fun v a hva => by have := hb v a hva; omega)
  have hge : V.last ≤ n.raft.trk.committed := by
    refine (hex V.last).2 ⟨by omega, fun _ => ?_, fun ho => ?_⟩
    · rw [hk.config]; exact Majority.mono hd.incoming fun v _ => hack v
    · rw [hk.config] at ho ⊢; exact Majority.mono (hd.outgoing ho) fun v _ => hack v
  have hlt : n.raft.trk.committed ≤ V.last := by
    apply Nat.le_of_not_lt
    intro hc
    have := ((hex (V.last + 1)).1 hc).2.1 (by rw [hk.config]; exact hG.voter)
    unfold MajorityAcked Spec.Majority Spec.count at this
    rw [List.filter_eq_nil_iff.2 (by
      intro v _
      rw [decide_eq_true_eq]
      cases ha : n.raft.trk.acked v with
      | none => simp
      | some a => have := hb v a ha; simp; omega)] at this
    simp at this
  apply Nat.le_of_not_lt
  intro hc
  have hp := (prompt hG hE h.live h.up).view hk.linv.wf h.lead.state ⟨q0, s1, s2⟩ (by rw [hk.config]; exact hG.voter) (by omega)
  rw [h.lead.term, h.lead.view, show n.raft.trk.committed = V.last by omega, LogView.termAt_entry h.entry] at hp
  exact hp he

end
end Craft.Cluster
