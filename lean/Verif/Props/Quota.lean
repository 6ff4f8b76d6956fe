import Verif.Spec.Quota
import Verif.Props.NodeLeader

/-! # C37: the quota is about what is outstanding -/

namespace Craft
open Spec

namespace Quota

theorem filter_drop : ∀ (l : List Entry) (b a : Nat), Contig (b + 1) l → l.filter (fun e => decide (a < e.index)) = l.drop (a - b) := by
  intro l
  induction l with
  | nil => intro b a _; simp
  | cons e l ih =>
    intro b a h
    obtain ⟨h1, h2⟩ := Contig.cons.1 h
    rw [List.filter_cons, ih (b + 1) a h2]
    by_cases c : a < e.index
    · rw [if_pos (decide_eq_true c), show a - (b + 1) = 0 by omega, show a - b = 0 by omega]; rfl
    · rw [if_neg (by simpa using c), show a - b = (a - (b + 1)) + 1 by omega]; rfl

theorem bytes_eq {v : LogView} (h : v.WF) (a : Nat) : v.bytesAfter a = Raft.payloads (v.ents.drop (a - v.base)) := by
  unfold LogView.bytesAfter
  rw [filter_drop _ _ _ h]
  rfl

theorem payloads_append (a b : List Entry) : Raft.payloads (a ++ b) = Raft.payloads a + Raft.payloads b := by
  unfold Raft.payloads
  rw [List.map_append, List.sum_append]

theorem bytes_push {v : LogView} {es : List Entry} {a : Nat} (h : v.WF) (h' : (v.push es).WF) (ha : a ≤ v.last) :
    (v.push es).bytesAfter a = v.bytesAfter a + Raft.payloads es := by
  rw [bytes_eq h, bytes_eq h']
  unfold LogView.last at ha
  unfold LogView.push
  dsimp only
  rw [List.drop_append_of_le_length (by omega), payloads_append]

theorem bytes_compact {v : LogView} {k a : Nat} (h : v.WF) (h' : (v.compact k).WF) (h1 : v.base ≤ k) (h2 : k ≤ a) :
    (v.compact k).bytesAfter a = v.bytesAfter a := by
  rw [bytes_eq h, bytes_eq h']
  unfold LogView.compact
  dsimp only
  rw [List.drop_drop, show k - v.base + (a - k) = a - v.base by omega]

theorem bytes_out {env : Env} {l : RaftLog} (h : LInv l) :
    l.view.bytesAfter l.applied = Raft.payloads (nextOut env l) +
      l.view.bytesAfter (max l.applied l.view.base + (nextOut env l).length) := by
  obtain ⟨t, ht⟩ := h.nextOut_prefix env
  rw [bytes_eq h.wf.view_wf, bytes_eq h.wf.view_wf]
  unfold LogView.range at ht
  rw [show max l.applied l.view.base + 1 - l.view.base - 1 = l.applied - l.view.base by omega] at ht
  have hd : l.view.ents.drop (l.applied - l.view.base) = nextOut env l ++ (l.view.ents.drop (l.applied - l.view.base)).drop (nextOut env l).length := by
    have h1 : nextOut env l = (l.view.ents.drop (l.applied - l.view.base)).take (nextOut env l).length := by
      have h2 := congrArg (List.take (nextOut env l).length) ht
      rw [List.take_left, List.take_take] at h2
      have h3 := congrArg List.length ht
      rw [List.length_append, List.length_take] at h3
      rw [Nat.min_eq_left (by omega)] at h2
      exact h2
    have h2 := (List.take_append_drop (nextOut env l).length (l.view.ents.drop (l.applied - l.view.base))).symm
    rwa [← h1] at h2
  rw [hd, payloads_append, List.drop_drop]
  rw [show l.applied - l.view.base + (nextOut env l).length = max l.applied l.view.base + (nextOut env l).length - l.view.base by omega]

/-- The data outstanding in the log of a core. -/
def owed (c : Core) : Nat := c.log.view.bytesAfter c.log.applied

structure QInv (c : Core) : Prop where
  idle : c.state ≠ .leader → c.size = 0
  le : c.size ≤ owed c

/-- Leading term `T`, all that is outstanding but `D` bytes is counted. -/
structure Counted (D T : Nat) (c : Core) : Prop where
  term : c.term = T
  state : c.state = .leader
  le : owed c ≤ D + c.size

theorem owed_append {c : Core} {es : List Entry} {l : RaftLog} (hi : LInv c.log)
    (h : c.log.append (Raft.stamp c.term (c.log.lastIndex + 1) es) = .ok l) :
    l.view.bytesAfter l.applied = owed c + Raft.payloads es := by
  obtain ⟨w, v⟩ := Raft.append_view hi.wf _ h
  have ha : l.applied = c.log.applied := RaftLog.append_applied h
  have h1 := hi.app_com
  have h2 := hi.com_last
  have hw := w.view_wf
  rw [v] at hw
  rw [v, ha, bytes_push hi.wf.view_wf hw (by omega), Raft.stamp_payloads]
  rfl

theorem CStep.quota {env : Env} {im : Message} {c c' : Core} {ms : List Message} (h : CStep env im c ms c') (hn : NInv c) (hq : QInv c) :
    QInv c' := by
  have same : ∀ {c' : Core}, c'.log = c.log → c'.state = c.state → c'.size = c.size → QInv c' := by
    intro c' h1 h2 h3
    exact ⟨fun h => by rw [h3]; exact hq.idle (h2 ▸ h), by unfold owed; rw [h1, h3]; exact hq.le⟩
  have zero : ∀ {c' : Core}, c'.size = 0 → QInv c' := fun h => ⟨fun _ => h, by omega⟩
  cases h with
  | follower => exact zero rfl
  | candidate => exact zero rfl
  | preCandidate h1 h2 => exact zero (hq.idle h2)
  | leader => exact zero rfl
  | append es l p pci h1 h2 h3 h4 =>
    refine ⟨fun h => absurd h1 h, ?_⟩
    have := owed_append hn.linv h2
    have := hq.le
    show c.size + _ ≤ l.view.bytesAfter l.applied
    omega
  | commit l h1 h2 =>
    obtain ⟨e1, e2⟩ := RaftLog.maybeCommit_view h2
    refine ⟨hq.idle, ?_⟩
    show c.size ≤ l.view.bytesAfter l.applied
    rw [e1, e2]; exact hq.le
  | recvApp l last h1 => exact zero (hq.idle (by rw [h1]; nofun))
  | recvHeartbeat l h1 => exact zero (hq.idle (by rw [h1]; nofun))
  | recvSnapCommit l h1 => exact zero (hq.idle (by rw [h1]; nofun))
  | recvSnap cfg P0 p mi h1 => exact zero (hq.idle (by rw [h1]; nofun))
  | grant => exact same rfl rfl rfl
  | _ => exact same rfl rfl rfl

theorem CStep.counted {env : Env} {im : Message} {c c' : Core} {ms : List Message} (h : CStep env im c ms c') (hn : NInv c) {D T : Nat}
    (hl : Counted D T c) : Counted D T c' ∨ Past T c' := by
  have hst := hl.state
  cases h with
  | follower T' P h1 h2 =>
    right
    have ht := hl.term
    by_cases hT : T' = T
    · exact Or.inr ⟨hT, (nomatch ·), (nomatch ·)⟩
    · left; show T < T'; omega
  | candidate P h1 h2 h3 => exact absurd hst h2
  | preCandidate h1 h2 => exact absurd hst h2
  | leader P h1 h2 h3 => rw [h1] at hst; cases hst
  | append es l p pci h1 h2 h3 h4 =>
    refine Or.inl ⟨hl.term, hst, ?_⟩
    have := owed_append hn.linv h2
    have := hl.le
    show l.view.bytesAfter l.applied ≤ D + (c.size + _)
    omega
  | commit l h1 h2 =>
    obtain ⟨e1, e2⟩ := RaftLog.maybeCommit_view h2
    refine Or.inl ⟨hl.term, hst, ?_⟩
    show l.view.bytesAfter l.applied ≤ _
    rw [e1, e2]; exact hl.le
  | recvApp l last h1 => rw [h1] at hst; cases hst
  | recvHeartbeat l h1 => rw [h1] at hst; cases hst
  | recvSnapCommit l h1 => rw [h1] at hst; cases hst
  | recvSnap cfg P0 p mi h1 => rw [h1] at hst; cases hst
  | _ => exact Or.inl ⟨hl.term, hst, hl.le⟩

theorem CPath.quota {env : Env} {im : Message} {c c' : Core} {ms : List Message} (h : CPath env im c ms c') (hw : AppWF im) (hn : NInv c)
    (hq : QInv c) : QInv c' := by
  induction h with
  | nil => exact hq
  | cons hs _ ih => exact ih (hs.ninv hw hn) (CStep.quota hs hn hq)

theorem CPath.counted {env : Env} {im : Message} {c c' : Core} {ms : List Message} (h : CPath env im c ms c') (hw : AppWF im) (hn : NInv c)
    {D T : Nat} (hl : Counted D T c) : Counted D T c' ∨ Past T c' := by
  induction h with
  | nil => exact Or.inl hl
  | cons hs ht ih =>
    rcases CStep.counted hs hn hl with h1 | h1
    · exact ih (hs.ninv hw hn) h1
    · exact Or.inr (ht.past h1)

theorem ready_owed {env : Env} {n n' : RawNode} {st : Storage} {es : List Entry} {c : Nat} (h : LInv n.raft.log)
    (hsv : n.raft.log.storage.save (readyOf env n) = .ok st) (hd : ReadyDone env n n' st es c) :
    n.outstanding = Raft.payloads (nextOut env n.raft.log) + n'.outstanding := by
  obtain ⟨k1, k2, _⟩ := hd.linv h hsv
  have hes : Raft.payloads es = 0 := by
    rcases hd.auto with ⟨rfl, _⟩ | ⟨_, _, rfl, _⟩ <;> rfl
  have ha : n'.raft.log.applied = max n.raft.log.applied n.raft.log.view.base + (nextOut env n.raft.log).length := by rw [hd.log]
  have hw := k1.wf.view_wf
  have h1 := h.nextOut_length env
  have h2 := h.com_last
  have h3 := h.app_com
  have h4 := h.base_com
  unfold RawNode.outstanding
  rw [bytes_out (env := env) h, ha]
  rw [k2] at hw ⊢
  rw [bytes_push h.wf.view_wf hw (by omega), hes]
  rfl

theorem compact_owed {env : Env} {n : RawNode} (h : LInv n.raft.log) {i : Nat} (hi : i ≤ n.raft.log.applied) {st : Storage} {e : Option Err}
    (he : n.raft.log.storage.compact i = .ok (st, e)) : owed (n.withStorage st).raft.core = owed n.raft.core := by
  have hw := (h.compact_withStorage env hi he).1.wf.view_wf
  show ({ n.raft.log with storage := st } : RaftLog).view.bytesAfter n.raft.log.applied = n.raft.log.view.bytesAfter n.raft.log.applied
  rcases h.compact_view hi he with rfl | ⟨h1, h2, _, _, _, _, h3 | ⟨_, h3, h4⟩⟩
  · rfl
  · rw [h3]
  · rw [h4] at hw ⊢
    exact bytes_compact h.wf.view_wf hw (by omega) hi

theorem snapshot_owed {n : RawNode} (h : LInv n.raft.log) {i : Nat} {cs : Option ConfState} {data : Bytes} {st : Storage} {e : Except Err Snapshot}
    (he : n.raft.log.storage.createSnapshot i cs data = .ok (st, e)) : owed (n.withStorage st).raft.core = owed n.raft.core := by
  show ({ n.raft.log with storage := st } : RaftLog).view.bytesAfter n.raft.log.applied = n.raft.log.view.bytesAfter n.raft.log.applied
  rcases Storage.createSnapshot_cases h.wf.stor he with rfl | ⟨_, _, h1, _⟩
  · rfl
  · rw [h1]; rfl

theorem NodeRun.quota {env : Env} {n n' : RawNode} (h : NodeRun env n n') (hn : NInv n.raft.core) (hq : QInv n.raft.core) : QInv n'.raft.core := by
  induction h with
  | refl => exact hq
  | call c h0 h1 h2 h3 h4 ih =>
    obtain ⟨_, ms, _, hp⟩ := Call.plain_sim h1 h2 h4
    exact CPath.quota hp (Call.msg_wf h3) (h0.ninv hn) ih
  | @ready ccs a b rd h0 h1 ih =>
    have hi := (h0.ninv hn).linv
    obtain ⟨_, st, es, c, h2, hd⟩ := handleReady_conf hi h1
    have e1 := ready_owed hi h2 hd
    have e2 := handleReady_size hi h1
    refine ⟨fun hl => ?_, ?_⟩
    · have := ih.idle (by show a.raft.state ≠ _; rw [← hd.state]; exact hl)
      show b.raft.uncommittedSize = 0
      have h5 : a.raft.uncommittedSize = 0 := this
      omega
    · show b.raft.uncommittedSize ≤ b.outstanding
      have h5 : a.raft.uncommittedSize ≤ a.outstanding := ih.le
      omega
  | compact i h0 h1 h2 ih => exact ⟨ih.idle, by rw [compact_owed (env := env) (h0.ninv hn).linv h1 h2]; exact ih.le⟩
  | createSnapshot i cs data h0 h1 h2 ih => exact ⟨ih.idle, by rw [snapshot_owed (h0.ninv hn).linv h2]; exact ih.le⟩

theorem NodeRun.counted {env : Env} {n n' : RawNode} (h : NodeRun env n n') (hn : NInv n.raft.core) {D T : Nat} (hl : Counted D T n.raft.core) :
    Counted D T n'.raft.core ∨ Past T n'.raft.core := by
  induction h with
  | refl => exact Or.inl hl
  | call c h0 h1 h2 h3 h4 ih =>
    obtain ⟨_, ms, _, hp⟩ := Call.plain_sim h1 h2 h4
    rcases ih with ih | ih
    · exact CPath.counted hp (Call.msg_wf h3) (h0.ninv hn) ih
    · exact Or.inr (hp.past ih)
  | @ready ccs a b rd h0 h1 ih =>
    have hi := h0.ninv hn
    obtain ⟨_, st, es, c, h2, hd⟩ := handleReady_conf hi.linv h1
    rcases ih with ih | ih
    · have e1 := ready_owed hi.linv h2 hd
      have e2 := handleReady_size hi.linv h1
      refine Or.inl ⟨hd.term.trans ih.term, hd.state.trans ih.state, ?_⟩
      show b.outstanding ≤ D + b.raft.uncommittedSize
      have h5 : a.outstanding ≤ D + a.raft.uncommittedSize := ih.le
      omega
    · refine Or.inr ?_
      unfold Past at ih ⊢
      have e1 : b.raft.core.term = a.raft.core.term := hd.term
      have e2 : b.raft.core.state = a.raft.core.state := hd.state
      rwa [e1, e2]
  | compact i h0 h1 h2 ih =>
    rcases ih with ih | ih
    · exact Or.inl ⟨ih.term, ih.state, by rw [compact_owed (env := env) (h0.ninv hn).linv h1 h2]; exact ih.le⟩
    · exact Or.inr ih
  | createSnapshot i cs data h0 h1 h2 ih =>
    rcases ih with ih | ih
    · exact Or.inl ⟨ih.term, ih.state, by rw [snapshot_owed (h0.ninv hn).linv h2]; exact ih.le⟩
    · exact Or.inr ih

theorem QInv.new {env : Env} {cfg : Config} {st : Storage} {rng : Nat} {n : RawNode} (h : RawNode.new env cfg st rng = .ok n) :
    QInv n.raft.core := by
  have key : n.raft.uncommittedSize = 0 := by
    unfold RawNode.new at h
    obtain ⟨r, h1, h⟩ := Res.bind_eq_ok.1 h
    cases h
    show r.uncommittedSize = 0
    unfold Raft.new at h1
    split at h1
    · cases h1
    dsimp only at h1
    split at h1
    · cases h1
    obtain ⟨⟨r1, cs2⟩, _, h1⟩ := Res.bind_eq_ok.1 h1
    dsimp only at h1
    split at h1
    · cases h1
    obtain ⟨r2, _, h1⟩ := Res.bind_eq_ok.1 h1
    obtain ⟨r3, _, h1⟩ := Res.bind_eq_ok.1 h1
    split at h1
    · cases h1
    obtain ⟨lt, _, h1⟩ := Res.bind_eq_ok.1 h1
    simp only [Res.pure_eq, Res.ok.injEq] at h1
    rw [← h1]
    exact congrArg Core.size (Raft.becomeFollower_core (env := env) r3 r3.term 0)
  exact ⟨fun _ => key, by show n.raft.uncommittedSize ≤ _; omega⟩

theorem NodeRun.trans {env : Env} {a b c : RawNode} (h1 : NodeRun env a b) (h2 : NodeRun env b c) : NodeRun env a c := by
  induction h2 with
  | refl => exact h1
  | call c _ k1 k2 k3 k4 ih => exact .call c ih k1 k2 k3 k4
  | ready ccs _ k1 ih => exact .ready ccs ih k1
  | compact i _ k1 k2 ih => exact .compact i ih k1 k2
  | createSnapshot i cs data _ k1 k2 ih => exact .createSnapshot i cs data ih k1 k2

end Quota

/-- What the quota counts is never more than what is outstanding, the data in the log that has not been applied; on a node that is not
the leader it is nothing. -/
theorem C37_released {env : Env} {cfg : Config} {st : Storage} {rng : Nat} {n x : RawNode}
    (hs : st.Sound) (hn : RawNode.new env cfg st rng = .ok n) (hx : NodeRun env n x) :
    x.raft.uncommittedSize ≤ x.outstanding ∧ (x.raft.state ≠ .leader → x.raft.uncommittedSize = 0) :=
  have h := Quota.NodeRun.quota hx (NInv.new hn hs) (Quota.QInv.new hn)
  ⟨h.le, h.idle⟩

/-- What is outstanding and not counted only gets less during a leadership: from `x` to a later moment `y` of the same leadership. -/
theorem C37_counted {env : Env} {cfg : Config} {st : Storage} {rng : Nat} {n x y : RawNode}
    (hs : st.Sound) (hn : RawNode.new env cfg st rng = .ok n) (hx : NodeRun env n x) (hy : NodeRun env x y)
    (lx : x.raft.state = .leader) (ly : y.raft.state = .leader) (ht : y.raft.term = x.raft.term) :
    y.outstanding - y.raft.uncommittedSize ≤ x.outstanding - x.raft.uncommittedSize := by
  have h0 := (C37_released hs hn hx).1
  have hc : Quota.Counted (x.outstanding - x.raft.uncommittedSize) x.raft.term x.raft.core :=
    ⟨rfl, lx, by show x.outstanding ≤ _ + x.raft.uncommittedSize; omega⟩
  rcases Quota.NodeRun.counted hy (hx.ninv (NInv.new hn hs)) hc with h | h
  · have : y.outstanding ≤ _ + y.raft.uncommittedSize := h.le
    omega
  · exfalso
    rcases h with h | ⟨_, h, _⟩
    · have : x.raft.term < y.raft.term := h
      omega
    · exact h ly

/-- Once a leader has applied everything that was outstanding, it counts exactly what is outstanding for the rest of its leadership:
a proposal of normal entries, local or forwarded, is refused if and only if something is outstanding, the proposal is not empty, and
both together exceed the limit. -/
theorem C37_exact {env : Env} {cfg : Config} {st : Storage} {rng : Nat} {n x y z : RawNode} {m : Message} {e : Option Err}
    (hs : st.Sound) (hn : RawNode.new env cfg st rng = .ok n) (hx : NodeRun env n x) (hy : NodeRun env x y)
    (lx : x.raft.state = .leader) (ly : y.raft.state = .leader) (ht : y.raft.term = x.raft.term) (h0 : x.outstanding = 0)
    (hm : y.raft.pr y.raft.id ≠ none) (htr : y.raft.leadTransferee = 0) (hp : m.type = .prop) (h00 : m.term = 0)
    (hne : ∀ x ∈ m.entries, x.type = .normal) (h : y.step env m = .ok (z, e)) :
    let size := (m.entries.map fun x => x.data.length).sum
    (e = some .proposalDropped ∧ z = y ∧ y.outstanding > 0 ∧ size > 0 ∧ y.outstanding + size > y.raft.maxUncommittedSize) ∨
    (e = none ∧ z.raft.log.view.last = y.raft.log.view.last + m.entries.length ∧
      ¬ (y.outstanding > 0 ∧ size > 0 ∧ y.outstanding + size > y.raft.maxUncommittedSize)) := by
  intro size
  have h1 := C37_counted hs hn hx hy lx ly ht
  have hny : NodeRun env n y := Quota.NodeRun.trans hx hy
  have h2 := (C37_released hs hn hny).1
  have he : y.raft.uncommittedSize = y.outstanding := by omega
  have hw := ((hny.ninv (NInv.new hn hs)).linv).wf
  rcases C37_quota hw ly hm htr hp h00 hne h with ⟨k1, k2, k3⟩ | ⟨k1, k2, k3⟩
  · rw [he] at k1; exact Or.inl ⟨k2, k3, k1.1, k1.2.1, k1.2.2⟩
  · rw [he] at k1; exact Or.inr ⟨k2, k3, k1⟩

/-- A leader that has applied all the data in its log refuses no proposal for its size. -/
theorem C37_drained {env : Env} {cfg : Config} {st : Storage} {rng : Nat} {n x y : RawNode} {data : Bytes} {e : Option Err}
    (hs : st.Sound) (hn : RawNode.new env cfg st rng = .ok n) (hx : NodeRun env n x)
    (lx : x.raft.state = .leader) (h0 : x.outstanding = 0) (hm : x.raft.pr x.raft.id ≠ none) (htr : x.raft.leadTransferee = 0)
    (h : x.propose env data = .ok (y, e)) : e = none :=
  C37_never_refused ((hx.ninv (NInv.new hn hs)).linv).wf lx hm htr (Or.inr (by have := (C37_released hs hn hx).1; omega)) h

namespace Demo

/-- With a quota of 3 bytes: what is outstanding and what is counted after two proposals of 2 bytes, the second of which is refused;
then once node 2 has the entries; then once they are applied; a further proposal is accepted. -/
def quotaRun : Res (List (Nat × Nat × Bool)) := do
  let n ← RawNode.new env { cfg 1 with maxUncommittedEntriesSize := 3 } store 0
  let n ← elect.foldlM (fun n c => c.run env n) n
  let (n, e1) ← n.propose env [7, 8]
  let (n, e2) ← n.propose env [9, 9]
  let a := (n.outstanding, n.raft.uncommittedSize, decide (e1 = none ∧ e2 = some .proposalDropped))
  let (n, _) ← n.step env { type := .appResp, src := 2, «to» := 1, term := 1, index := 2 }
  let b := (n.outstanding, n.raft.uncommittedSize, decide (n.raft.log.committed = 2))
  let (n, _) ← n.handleReady env []
  let c := (n.outstanding, n.raft.uncommittedSize, decide (n.raft.log.applied = 2))
  let (n, e3) ← n.propose env [9, 9]
  pure [a, b, c, (n.outstanding, n.raft.uncommittedSize, decide (e3 = none))]

example : quotaRun = .ok [(2, 2, true), (2, 2, true), (0, 0, true), (2, 2, true)] := by decide +kernel

end Demo

end Craft
