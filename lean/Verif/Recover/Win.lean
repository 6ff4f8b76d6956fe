import Verif.Recover.Vote
import Mathlib.Data.List.Dedup

/-! # A quorum elects a leader -/

namespace Craft
open Spec

theorem RawNode.step_raft {env : Env} {n n' : RawNode} {m : Message} {e : Option Err} (h1 : isLocalMsg m.type = false)
    (h2 : (n.raft.pr m.src).isSome ∨ ¬ isResponseMsg m.type) (h : n.step env m = .ok (n', e)) : n.raft.step env m = .ok (n'.raft, e) := by
  unfold RawNode.step at h
  rw [if_neg (by rw [h1]; nofun), if_pos h2] at h
  unfold onRaft at h
  obtain ⟨⟨r, e1⟩, h3, h⟩ := Res.bind_eq_ok.1 h
  cases h
  exact h3

theorem exists_best (k : Nat → Nat × Nat) (S : List Nat) (hS : S ≠ []) :
    ∃ i ∈ S, ∀ j ∈ S, (k j).1 < (k i).1 ∨ ((k j).1 = (k i).1 ∧ (k j).2 ≤ (k i).2) := by
  induction S with
  | nil => exact absurd rfl hS
  | cons p S ih =>
    by_cases h0 : S = []
    · subst h0
      refine ⟨p, List.mem_cons_self, fun j hj => ?_⟩
      rw [List.mem_singleton.1 hj]; exact Or.inr ⟨rfl, Nat.le_refl _⟩
    · obtain ⟨i, hi, hb⟩ := ih h0
      by_cases hc : (k p).1 < (k i).1 ∨ ((k p).1 = (k i).1 ∧ (k p).2 ≤ (k i).2)
      · refine ⟨i, List.mem_cons_of_mem _ hi, fun j hj => ?_⟩
        rcases List.mem_cons.1 hj with rfl | hj
        · exact hc
        · exact hb j hj
      · refine ⟨p, List.mem_cons_self, fun j hj => ?_⟩
        rcases List.mem_cons.1 hj with rfl | hj
        · exact Or.inr ⟨rfl, Nat.le_refl _⟩
        · have := hb j hj
          omega

theorem exists_bound (f : Nat → Nat) (S : List Nat) : ∃ B, ∀ j ∈ S, f j ≤ B := by
  induction S with
  | nil => exact ⟨0, nofun⟩
  | cons p S ih =>
    obtain ⟨B, hB⟩ := ih
    refine ⟨max B (f p), fun j hj => ?_⟩
    rcases List.mem_cons.1 hj with rfl | hj
    · omega
    · have := hB j hj; omega

namespace Cluster
open Abs
variable {env : Env} {G : Genesis} {S : List Nat} {c : State} {i : Nat} {n : RawNode}

/-- A majority of each half among `S`, whoever else is in there. -/
structure Decides (cfg : TConfig) (S : List Nat) : Prop where
  incoming : Majority cfg.voters.incoming fun v => decide (v ∈ S)
  outgoing : cfg.voters.outgoing ≠ [] → Majority cfg.voters.outgoing fun v => decide (v ∈ S)

theorem Majority.mono {l : List Nat} {P Q : Nat → Bool} (h : Majority l P) (hpq : ∀ v ∈ l, P v = true → Q v = true) : Majority l Q := by
  unfold Majority count at *
  rw [← List.countP_eq_length_filter] at *
  have := List.countP_mono_left hpq
  omega

section
variable (hG : G.OK) (hE : Lossless env)
include hG hE

/-- Campaigning again and again. -/
theorem run_up (k : Nat) (hl : Live env G c) (hp : c.proc i = .up n) (hS : i ∈ S) (hf : Fit n.raft) (hs : n.raft.state ≠ .leader) :
    ∃ c' n', To env G S [i] c c' ∧ c'.proc i = .up n' ∧
      ((∃ T, Chosen n'.raft T n.raft.log.view ∧ G.trk.config.voters.voteResult [(i, true)] = .won) ∨
       (Running n'.raft (n.raft.term + k + 1) n.raft.log.view ∧ ∃ new, VoteRequests n'.raft .vote n'.raft.term [] new ∧ ∀ m ∈ new, m ∈ n'.raft.msgs)) := by
  induction k with
  | zero =>
    obtain ⟨n', hn, ht⟩ := to_call hG hE hl hp hS .campaign trivial nofun
    have hkn := known hG hE hl hp
    have hn : (do let (n, _) ← n.campaign env; pure n : Res RawNode) = .ok n' := hn
    obtain ⟨⟨n2, e⟩, h2, hn⟩ := Res.bind_eq_ok.1 hn
    cases hn
    unfold RawNode.campaign RawNode.onRaft at h2
    obtain ⟨⟨r, e1⟩, h3, h2⟩ := Res.bind_eq_ok.1 h2
    cases h2
    obtain ⟨k1, k2, hh⟩ := Raft.campaignElection_runs hkn.linv.wf hkn.linv.com_last hf (Raft.campaign_runs hf hs h3)
    refine ⟨_, _, ht, set_self, ?_⟩
    rcases hh with ⟨h4, h5⟩ | ⟨h4, new, h5, h6⟩
    · left
      rw [hkn.config, hkn.id] at h5
      exact ⟨_, h4, h5⟩
    · right
      exact ⟨h4, new, h6, fun m hm => by show m ∈ r.msgs; rw [h5]; exact List.mem_append.2 (Or.inr hm)⟩
  | succ k ih =>
    obtain ⟨c1, n1, t1, p1, hh⟩ := ih
    rcases hh with hel | ⟨h4, _⟩
    · exact ⟨c1, n1, t1, p1, Or.inl hel⟩
    obtain ⟨n', hn, ht⟩ := to_call hG hE t1.live p1 hS .campaign trivial nofun
    have hkn := known hG hE t1.live p1
    have hn : (do let (n, _) ← n1.campaign env; pure n : Res RawNode) = .ok n' := hn
    obtain ⟨⟨n2, e⟩, h2, hn⟩ := Res.bind_eq_ok.1 hn
    cases hn
    unfold RawNode.campaign RawNode.onRaft at h2
    obtain ⟨⟨r, e1⟩, h3, h2⟩ := Res.bind_eq_ok.1 h2
    cases h2
    obtain ⟨k1, k2, hh⟩ := Raft.campaignElection_runs hkn.linv.wf hkn.linv.com_last h4.fit (Raft.campaign_runs h4.fit (by rw [h4.state]; nofun) h3)
    rw [h4.term, h4.view] at hh
    refine ⟨_, _, t1.trans ht, set_self, ?_⟩
    rcases hh with ⟨h4, h5⟩ | ⟨h4, new, h5, h6⟩
    · left
      rw [hkn.config, hkn.id] at h5
      exact ⟨_, h4, h5⟩
    · right
      exact ⟨h4, new, h6, fun m hm => by show m ∈ r.msgs; rw [h5]; exact List.mem_append.2 (Or.inr hm)⟩

/-- A node the leader of term `T` can work with. -/
structure Ally (r : Raft) (T : Nat) : Prop where
  plain : Plain r
  term : r.term < T ∨ (r.term = T ∧ r.state = .follower)

/-- Collecting votes. -/
theorem collect {T : Nat} {V : LogView} (L : List Nat) (hnd : L.Nodup) (hiL : i ∉ L) (hS : i ∈ S) (hLS : ∀ j ∈ L, j ∈ S)
    (hvot : ∀ j ∈ L, j ∈ G.trk.config.voters.incoming ∨ j ∈ G.trk.config.voters.outgoing)
    (hl : Live env G c) (hp : c.proc i = .up n) (hr : Running n.raft T V)
    (hL : ∀ j ∈ L, ∃ nj, c.proc j = .up nj ∧ Plain nj.raft ∧ nj.raft.term < T ∧
      (nj.raft.log.view.termAt nj.raft.log.view.last < V.termAt V.last ∨
        (nj.raft.log.view.termAt nj.raft.log.view.last = V.termAt V.last ∧ nj.raft.log.view.last ≤ V.last)))
    (hm : ∀ j ∈ L, ∃ m ∈ c.net, m.type = .vote ∧ m.src = i ∧ m.to = j ∧ m.term = T ∧ m.index = V.last ∧ m.logTerm = V.termAt V.last) :
    ∃ c' n', To env G S (i :: L) c c' ∧ c'.proc i = .up n' ∧
      (Chosen n'.raft T V ∨ (Running n'.raft T V ∧ (∀ v ∈ L, n'.raft.trk.votes.find v = some true) ∧
        ∀ v, n.raft.trk.votes.find v = some true → n'.raft.trk.votes.find v = some true)) ∧
      ∀ j ∈ L, ∃ nj, c'.proc j = .up nj ∧ Ally nj.raft T := by
  induction L generalizing c n with
  | nil => exact ⟨c, n, .refl hl, hp, Or.inr ⟨hr, nofun, fun _ h => h⟩, nofun⟩
  | cons j L ih =>
    obtain ⟨hj, hnd⟩ := List.nodup_cons.1 hnd
    have hij : i ≠ j := fun h => hiL (by rw [h]; exact List.mem_cons_self)
    have hiL' : i ∉ L := fun h => hiL (List.mem_cons_of_mem _ h)
    obtain ⟨nj, hpj, hplj, htj, hupj⟩ := hL j List.mem_cons_self
    obtain ⟨m, hmn, m1, m2, m3, m4, m5, m6⟩ := hm j List.mem_cons_self
    have hkj := known hG hE hl hpj
    have hki := known hG hE hl hp
    -- the request
    obtain ⟨nj1, e1, s1, t1⟩ := to_deliver hG hE hl hpj (hLS j List.mem_cons_self) hmn m3 (by rw [m2]; exact hS)
    have s1 := RawNode.step_raft (by rw [m1]; rfl) (Or.inr (by rw [m1]; nofun)) s1
    have hup : nj.raft.log.isUpToDate m.index m.logTerm = .ok true := by
      rw [hkj.linv.wf.isUpToDate_eq, m5, m6]
      congr 1
      rw [decide_eq_true_eq]
      omega
    obtain ⟨g1, g2, g3, g4, g5, g6, x, hx, x1, x2, x3, x4, x5⟩ := Raft.grants hplj m1 (by rw [m4]; exact htj) (by rw [m2]; exact hki.idne) hup s1
    -- its answer is sent
    obtain ⟨c2, nj2, t2, p2, r2, mm2, _⟩ := ready_one hG hE t1.live (p := j) set_self (hLS j List.mem_cons_self)
    have hpi2 : c2.proc i = .up n := by
      rw [t2.frame i (by simp [hij]), t1.frame i (by simp [hij])]; exact hp
    -- and counted
    obtain ⟨n3, e3, s3, t3⟩ := to_deliver hG hE t2.live hpi2 hS (mm2 x hx) (by rw [x2, m2]) (by rw [x3, hkj.id]; exact hLS j List.mem_cons_self)
    have s3 := RawNode.step_raft (by rw [x1]; rfl) (Or.inl (by
      obtain ⟨q, hq, _⟩ := hr.fit.voters j (by rw [hki.config]; exact hvot j List.mem_cons_self)
      rw [x3, hkj.id, hq]; rfl)) s3
    obtain ⟨a1, a2, hh⟩ := Raft.counts hr hki.linv.wf hki.linv.com_last x1 (by rw [x4, m4]) x5 s3
    have tt : To env G S (i :: j :: L) c (c2.set i (.up n3)) :=
      ((t1.mono (by simp)).trans (t2.mono (by simp))).trans (t3.mono (by simp))
    have ally : ∀ {c' : State}, c'.proc j = c2.proc j → ∃ nj, c'.proc j = .up nj ∧ Ally nj.raft T := by
      intro c' he
      refine ⟨nj2, by rw [he]; exact p2, ⟨⟨?_, ?_, ?_⟩, Or.inr ⟨?_, ?_⟩⟩⟩
      · rw [r2.checkQuorum]; exact g1.quorum
      · rw [r2.preVote]; exact g1.preVote
      · rw [r2.heartbeatTimeout]; exact g1.beat
      · rw [r2.term, g3, m4]
      · rw [r2.state, g2]
    have same : ∀ j' ∈ L, (c2.set i (.up n3)).proc j' = c.proc j' := by
      intro j' hj'
      have n1 : j' ≠ i := fun h => hiL' (by rw [← h]; exact hj')
      have n2 : j' ≠ j := fun h => hj (by rw [← h]; exact hj')
      rw [t3.frame j' (by simp [n1]), t2.frame j' (by simp [n2]), t1.frame j' (by simp [n2])]
    rcases hh with hel | ⟨h3, h4, h5⟩
    · refine ⟨_, n3, tt, set_self, Or.inl hel, fun j' hj' => ?_⟩
      rcases List.mem_cons.1 hj' with rfl | hj'
      · exact ally (t3.frame _ (by simp [Ne.symm hij]))
      · obtain ⟨nj', k1, k2, k3, _⟩ := hL j' (List.mem_cons_of_mem _ hj')
        exact ⟨nj', by rw [same j' hj']; exact k1, k2, Or.inl k3⟩
    · have h3 : Running n3.raft T V := h3
      obtain ⟨c4, n4, t4, p4, h6, h7⟩ := ih hnd hiL' (fun j' hj' => hLS j' (List.mem_cons_of_mem _ hj')) (fun j' hj' => hvot j' (List.mem_cons_of_mem _ hj'))
        t3.live set_self h3 (fun j' hj' => by rw [same j' hj']; exact hL j' (List.mem_cons_of_mem _ hj')) (fun j' hj' => by
          obtain ⟨m', k1, k2⟩ := hm j' (List.mem_cons_of_mem _ hj')
          exact ⟨m', tt.net m' k1, k2⟩)
      refine ⟨c4, n4, tt.trans (t4.mono (by intro q hq; rcases List.mem_cons.1 hq with rfl | hq <;> simp [*])), p4, ?_, fun j' hj' => ?_⟩
      · rcases h6 with h6 | ⟨h6, h8, h9⟩
        · exact Or.inl h6
        · refine Or.inr ⟨h6, fun v hv => ?_, fun v hv => h9 v (h5 v hv)⟩
          rcases List.mem_cons.1 hv with rfl | hv
          · exact h9 _ (by rw [x3, hkj.id] at h4; exact h4)
          · exact h8 v hv
      · rcases List.mem_cons.1 hj' with rfl | hj'
        · refine ally ?_
          rw [t4.frame _ (by simp [hj, Ne.symm hij]), t3.frame _ (by simp [Ne.symm hij])]
        · exact h7 j' hj'

/-- A quorum elects a leader: the node of it with the best log. -/
theorem win (hq : Quorate G.trk.config S) (hl : Live env G c) (hup : ∀ p ∈ S, ∃ n, c.proc p = .up n ∧ Newborn n.raft) :
    ∃ c' i n L T n0, To env G S S c c' ∧ i ∈ S ∧ (∀ j ∈ L, j ∈ S) ∧ L.Nodup ∧ i ∉ L ∧ Decides G.trk.config (i :: L) ∧
      c.proc i = .up n0 ∧ c'.proc i = .up n ∧ Chosen n.raft T n0.raft.log.view ∧ ∀ j ∈ L, ∃ nj, c'.proc j = .up nj ∧ Ally nj.raft T := by
  have hne : S ≠ [] := by
    intro h0
    have := hq.incoming
    unfold Majority count at this
    rw [h0] at this
    simp at this
  obtain ⟨i, hi, hbest⟩ := exists_best (fun p => match c.proc p with
    | .up n => (n.raft.log.view.termAt n.raft.log.view.last, n.raft.log.view.last)
    | .down _ => (0, 0)) S hne
  obtain ⟨B, hB⟩ := exists_bound (fun p => match c.proc p with
    | .up n => n.raft.term
    | .down _ => 0) S
  obtain ⟨n0, hp0, hb0⟩ := hup i hi
  have hk0 := known hG hE hl hp0
  -- apply what is committed
  obtain ⟨c1, n1, os, t1, p1, r1, _, a1, _⟩ := drain hG hE hl hp0 hi
  have hf1 : Fit n1.raft := by
    refine ⟨⟨?_, ?_, ?_⟩, ?_, ?_, r1.snap, a1⟩
    · rw [r1.checkQuorum]; exact hb0.plain.quorum
    · rw [r1.preVote]; exact hb0.plain.preVote
    · rw [r1.heartbeatTimeout]; exact hb0.plain.beat
    · intro v hv
      rw [r1.trk] at hv
      rw [r1.pr]; exact hb0.voters v hv
    · rw [r1.id, r1.trk, hk0.id, hk0.config]; exact hq.voters i hi
  -- campaign
  obtain ⟨c2, n2, t2, p2, hh⟩ := run_up hG hE B t1.live p1 hi hf1 (by rw [r1.state, hb0.state]; nofun)
  rw [r1.view] at hh
  have t12 := t1.trans t2
  have hsub : ∀ q ∈ [i], q ∈ S := by intro q hq; rw [List.mem_singleton.1 hq]; exact hi
  rcases hh with ⟨T, hel, hwon⟩ | ⟨hrun, new, hreq, hmem⟩
  · refine ⟨c2, i, n2, [], T, n0, t12.mono hsub, hi, nofun, List.nodup_nil, nofun, ?_, hp0, p2, hel, nofun⟩
    have hw := (C03_joint_vote_exact G.trk.config.voters [(i, true)]).1.1 hwon
    have hone : ∀ v, (AMap.find [(i, true)] v == some true) = true → decide (v ∈ [i]) = true := by
      intro v hv
      by_cases hvi : i = v
      · simp [hvi]
      · have : AMap.find [(i, true)] v = none := (AMap.find_insert_ne ([] : AMap Bool) (k := i) true hvi).trans rfl
        rw [this] at hv; cases hv
    refine ⟨Majority.mono (hw.1 ?_) fun v _ => hone v, fun ho => Majority.mono (hw.2 ho) fun v _ => hone v⟩
    intro h0
    have := hq.incoming
    unfold Majority count at this
    rw [h0] at this
    simp at this
  · -- send the requests
    obtain ⟨c3, n3, os3, t3, p3, r3, m3, a3, _⟩ := drain hG hE t2.live p2 hi
    have hrun3 := hrun.rested r3 a3
    have hk2 := known hG hE t2.live p2
    have t13 := t12.trans t3
    have hLn : ∀ j ∈ S.dedup.filter (fun v => decide (v ≠ i)), j ∈ S ∧ j ≠ i := by
      intro j hj
      obtain ⟨h1, h2⟩ := List.mem_filter.1 hj
      exact ⟨List.mem_dedup.1 h1, of_decide_eq_true h2⟩
    have hproc : ∀ j, j ≠ i → c3.proc j = c.proc j := fun j hj => t13.frame j (by simp [hj])
    obtain ⟨c4, n4, t4, p4, h6, h7⟩ := collect hG hE (S.dedup.filter fun v => decide (v ≠ i)) (S.nodup_dedup.filter _)
      (fun h => (hLn i h).2 rfl) hi (fun j hj => (hLn j hj).1) (fun j hj => hq.voters j (hLn j hj).1) t3.live p3 hrun3
      (fun j hj => by
        obtain ⟨h1, h2⟩ := hLn j hj
        obtain ⟨nj, k1, k2⟩ := hup j h1
        refine ⟨nj, by rw [hproc j h2]; exact k1, k2.plain, ?_, ?_⟩
        · have := hB j h1
          rw [k1] at this
          dsimp only at this
          omega
        · have := hbest j h1
          rw [k1, hp0] at this
          exact this)
      (fun j hj => by
        obtain ⟨h1, h2⟩ := hLn j hj
        obtain ⟨m, hm, hto⟩ := List.mem_map.1 ((hreq.all j).2 ⟨by rw [hk2.config]; exact hq.voters j h1, by rw [hk2.id]; exact h2⟩)
        obtain ⟨e1, e2, e3, e4, e5, _⟩ := hreq.each m hm
        refine ⟨m, m3 m (hmem m hm), e1, by rw [e2, hk2.id], hto, by rw [e3, hrun.term], ?_, ?_⟩
        · rw [e4, hk2.linv.wf.lastIndex_eq, hrun.view]
        · rw [hk2.linv.wf.lastTerm_eq, hrun.view] at e5
          exact (Res.ok.inj e5).symm)
    have t14 : To env G S S c c4 := (t13.mono hsub).trans (t4.mono (by
      intro q hq'
      rcases List.mem_cons.1 hq' with rfl | hq'
      · exact hi
      · exact (hLn q hq').1))
    have hall : ∀ v, decide (v ∈ S) = true → decide (v ∈ i :: S.dedup.filter fun v => decide (v ≠ i)) = true := by
      intro v hv
      rw [decide_eq_true_eq] at hv ⊢
      by_cases hvi : v = i
      · rw [hvi]; exact List.mem_cons_self
      · exact List.mem_cons_of_mem _ (List.mem_filter.2 ⟨List.mem_dedup.2 hv, decide_eq_true hvi⟩)
    have hdec : Decides G.trk.config (i :: S.dedup.filter fun v => decide (v ≠ i)) :=
      ⟨Majority.mono hq.incoming fun v _ => hall v, fun ho => Majority.mono (hq.outgoing ho) fun v _ => hall v⟩
    rcases h6 with hel | ⟨hrun4, hv1, hv2⟩
    · exact ⟨c4, i, n4, _, _, n0, t14, hi, fun j hj => (hLn j hj).1, S.nodup_dedup.filter _, fun h => (hLn i h).2 rfl, hdec, hp0, p4, hel, h7⟩
    · exfalso
      refine hrun4.short ?_
      have hk4 := known hG hE t4.live p4
      unfold Tracker.tallyVotes
      rw [hk4.config]
      have hyes : ∀ v, decide (v ∈ i :: S.dedup.filter fun v => decide (v ≠ i)) = true → (n4.raft.trk.votes.find v == some true) = true := by
        intro v hv
        rw [decide_eq_true_eq] at hv
        rw [beq_iff_eq]
        rcases List.mem_cons.1 hv with rfl | hv
        · have := hrun4.own
          rw [hk4.id] at this
          exact this
        · exact hv1 v hv
      exact (C03_joint_vote_exact G.trk.config.voters n4.raft.trk.votes).1.2
        ⟨fun _ => Majority.mono hdec.incoming fun v _ => hyes v, fun ho => Majority.mono (hdec.outgoing ho) fun v _ => hyes v⟩

end
end Cluster
end Craft
