import Verif.Safe.Conf
import Verif.Spec.Live
import Verif.Props.Cluster

/-! # In a cluster, nothing aborts: the invariant behind C52 -/

namespace Craft

/-! ## Calls -/

namespace Raft
variable {K K' : Around} {env : Env}

theorem _root_.Craft.NetOk.mono {m : Message} (h : NetOk K env m) (hl : ∀ T b, K.lead T b → K'.lead T b) (h1 : K'.bTerm = K.bTerm)
    (h2 : K'.bIndex = K.bIndex) : NetOk K' env m := by
  revert h
  unfold NetOk
  cases m.type <;> dsimp only <;> try exact fun h => h
  case preVote => unfold Around.Past; rw [h1, h2]; exact fun h => h
  case transferLeader => exact hl _ _

theorem Safe.mono {r : Raft} (h : Safe K env r) (hl : ∀ T b, K.lead T b → K'.lead T b) (h1 : K'.bTerm = K.bTerm)
    (h2 : K'.bIndex = K.bIndex) : Safe K' env r :=
  ⟨h.log, h.id, h.self, h.tpos, h.infl, h.next, h.ro, h.pend, fun a b => ⟨(h.lead a b).1, hl _ _ (h.lead a b).2⟩,
    fun m hm => (h.out m hm).mono hl h1 h2⟩

end Raft

open Raft in
/-- Every call of the application on a safe node returns. -/
theorem call_safe {K : Around} {env : Env} {n : RawNode} {x : Call} (hl : Cluster.Lossless env) (h : Raft.Safe K env n.raft)
    (hfr : Raft.Fresh K n.raft.log) (hx : x.Plain) (hm : ∀ m, x = .step m → MsgSafe K env n.raft m) :
    (x.run env n).Sat fun n' => Raft.Safe K env n'.raft := by
  have hr : ∀ m, MsgSafe K env n.raft m → (n.onRaft fun r => r.step env m).Sat fun x => Raft.Safe K env x.1.raft := by
    intro m hm
    unfold RawNode.onRaft
    exact (step_safe h hm hfr).bind fun x hx => .pure hx
  have fin : ∀ {y : Res (RawNode × Option Err)}, y.Sat (fun x => Raft.Safe K env x.1.raft) →
      (do let (n, _) ← y; pure n : Res RawNode).Sat fun n' => Raft.Safe K env n'.raft := by
    intro y hy
    exact hy.bind fun x hx => .pure hx
  cases x with
  | step m =>
    refine fin ?_
    unfold RawNode.step
    split
    · exact .ok h
    split
    · exact hr m (hm m rfl)
    · exact .ok h
  | tick =>
    show (n.tick env).Sat _
    unfold RawNode.tick
    exact (tick_safe h hfr).bind fun x hx => .pure hx
  | tickQuiesced => exact .ok ⟨h.log, h.id, h.self, h.tpos, h.infl, h.next, h.ro, h.pend, h.lead, h.out⟩
  | campaign => exact fin (hr _ trivial)
  | propose d => exact fin (hr _ ⟨rfl, by simp, fun e he => by rw [List.mem_singleton.1 he]; exact ⟨(fun hh => nomatch hh), (fun hh => nomatch hh)⟩⟩)
  | proposeConfChange cc =>
    refine fin (hr _ ⟨rfl, by simp, fun e he => ?_⟩)
    rw [List.mem_singleton.1 he]
    cases cc with
    | v1 cc => exact ⟨fun _ => hl.v1 cc, (fun hh => nomatch hh)⟩
    | v2 cc => exact ⟨(fun hh => nomatch hh), fun _ => hl.v2 cc⟩
  | applyConfChange cc => exact absurd hx (fun h => h)
  | getReady => exact absurd hx (fun h => h)
  | advance => exact absurd hx (fun h => h)
  | reportUnreachable id => exact fin (hr _ trivial)
  | reportSnapshot id f => exact fin (hr _ trivial)
  | transferLeader id => exact fin (hr _ (Or.inl rfl))
  | readIndex ctx => exact fin (hr _ ⟨rfl, by simp⟩)

namespace Cluster
open Spec Abs

/-- `b` told somebody that it leads `T`. -/
def leadIn (net : List Message) (T b : Nat) : Prop :=
  ∃ m ∈ net, (m.type = .app ∨ m.type = .snap ∨ m.type = .heartbeat) ∧ m.term = T ∧ m.src = b

def Hard (st : Storage) : Prop := st.hardState = {} ∨ st.view.base ≤ st.hardState.commit

structure LiveOk (env : Env) (G : Genesis) (K : Around) (c : State) : Prop where
  lead : ∀ T b, K.lead T b ↔ leadIn c.net T b
  bTerm : K.bTerm = gterm G.log G.log.length
  bIndex : K.bIndex = G.log.length
  up : ∀ p n, c.proc p = .up n → Raft.Safe K env n.raft ∧ Hard n.raft.log.storage
  down : ∀ p st, c.proc p = .down st → st.Tidy ∧ Hard st
  net : ∀ m ∈ c.net, NetOk K env m

variable {env : Env} {G : Genesis} {c : State} {K : Around} {p : Nat} {n : RawNode}

namespace Gen
variable {G : Gen} {s : AState}

theorem NodeRel.fresh (hr : AReach G.Q G.τ s) (h : G.NodeRel p s.net n.raft.core (s.node p)) (h1 : K.bTerm = gterm G.L0 G.L0.length)
    (h2 : K.bIndex = G.L0.length) : Raft.Fresh K n.raft.log := by
  have hlog : LogRel (G.L0 ++ (s.node p).log) n.raft.log.view := h.log
  unfold Raft.Fresh Around.Past
  rw [hlog.termAt (i := n.raft.log.view.last) (Nat.le_add_right _ _), h1, h2, ← hlog.len, List.length_append]
  generalize hX : (s.node p).log = X at hlog
  by_cases hx : X = []
  · subst hx
    rw [List.append_nil]; right
    exact ⟨rfl, Nat.le_add_right _ _⟩
  · have hl : 0 < X.length := List.length_pos_iff.2 hx
    have he : X[X.length - 1]? = some (X[X.length - 1]'(by omega)) := List.getElem?_eq_getElem _
    have h3 : G.τ < (X[X.length - 1]'(by omega)).term := hr.matched_gt (by have := hr.inv.nodeMatched p; rwa [hX] at this) (List.mem_of_getElem? he)
    have := gterm_some (L := G.L0 ++ X) (i := G.L0.length + (X.length - 1)) (e := X[X.length - 1]'(by omega)) (by
        rw [List.getElem?_append_right (by omega), Nat.add_sub_cancel_left]; exact he)
    rw [show G.L0.length + (X.length - 1) + 1 = G.L0.length + X.length by omega] at this
    have h4 := G.low
    omega

theorem NodeRel.zero (h : G.NodeRel p s.net n.raft.core (s.node p)) : n.raft.log.view.termAt 0 = 0 := by
  have hlog : LogRel (G.L0 ++ (s.node p).log) n.raft.log.view := h.log
  by_cases hb : n.raft.log.view.base = 0
  · rw [hlog.termAt (by omega)]; rfl
  · unfold LogView.termAt
    rw [if_neg (by omega)]
    unfold LogView.entry
    rw [if_pos (by omega)]

/-- In term 0 the log is the initial one. -/
theorem NodeRel.term0 (hr : AReach G.Q G.τ s) (h : G.NodeRel p s.net n.raft.core (s.node p)) (h0 : n.raft.term = 0) : (s.node p).log = [] := by
  have ht : n.raft.term = (s.node p).term := h.term
  cases hl : (s.node p).log with
  | nil => rfl
  | cons e es =>
    exfalso
    have he : e ∈ (s.node p).log := by rw [hl]; exact List.mem_cons_self
    have h1 := hr.inv.nodeTerms p e he
    have h2 := hr.matched_gt (hr.inv.nodeMatched p) he
    omega

end Gen

theorem leadIn_unique (hG : G.OK) (h : Reach env G c) {T a b : Nat} (ha : leadIn c.net T a) (hb : leadIn c.net T b) : a = b := by
  obtain ⟨m, hm, t, rfl, rfl⟩ := ha
  obtain ⟨m', hm', t', ht, rfl⟩ := hb
  exact (C47_election_safety hG h).2 m hm m' hm' t t' ht.symm

/-- A message that was sent is safe for its addressee. -/
theorem msgSafe (hG : G.OK) (h : Reach env G c) (hL : LiveOk env G K c) (hp : c.proc p = .up n) {m : Message} (hm : m ∈ c.net) (hto : m.to = p) :
    MsgSafe K env n.raft m := by
  obtain ⟨g, hr⟩ := h.rel hG
  obtain ⟨s, h1, h2, h3⟩ := hr.one hp
  have hid : n.raft.id = p := h3.id
  have hok : (G.gen hG).MsgOk s.net m := (hr.net m hm).mono h2
  have hnet := hL.net m hm
  have hlead : (m.type = .app ∨ m.type = .snap ∨ m.type = .heartbeat) → K.lead m.term m.src := fun ht => (hL.lead _ _).2 ⟨m, hm, ht, rfl, rfl⟩
  have hterm := Gen.msgOk_term h1 hok
  have hwf := Gen.msgOk_appWF h1 hok
  unfold NetOk at hnet
  unfold MsgSafe
  cases ht : m.type <;> rw [ht] at hnet hlead hterm <;> dsimp only at hnet ⊢ <;> try trivial
  case app => exact ⟨(hterm (by simp)).1, hlead (by simp), by rw [hid, ← hto]; exact hnet, hwf⟩
  case appResp => rw [hid, ← hto]; exact hnet
  case heartbeatResp => rw [hid, ← hto]; exact hnet
  case transferLeader => right; rw [hid, ← hto]; exact hnet
  case preVote =>
    refine ⟨hnet.1, fun h0 => ?_⟩
    have hx := h3.term0 h1 h0
    have hlog : LogRel ((G.gen hG).L0 ++ (s.node p).log) n.raft.log.view := h3.log
    rw [hx, List.append_nil] at hlog
    have hwf : n.raft.log.WF := h3.linv.wf
    rw [hwf.isUpToDate_eq, hlog.termAt (i := n.raft.log.view.last) (Nat.le_add_right _ _), ← hlog.len]
    have := hnet.2
    unfold Around.Past at this
    rw [hL.bTerm, hL.bIndex] at this
    have e : (G.gen hG).L0 = G.log := rfl
    rw [e]
    congr 1
    rw [decide_eq_true_eq]
    omega
  case heartbeat =>
    refine ⟨(hterm (by simp)).1, hlead (by simp), by rw [hid, ← hto]; exact hnet, fun hle => ?_⟩
    unfold Gen.MsgOk at hok
    rw [ht] at hok
    have hlast : n.raft.log.lastIndex = (G.gen hG).L0.length + (s.node p).log.length := h3.last_eq
    rw [hlast]
    rcases hok.2 with hk | ⟨j, hk, ha⟩
    · omega
    · rw [hto] at ha
      have h4 := (h1.inv.ackLead _ _ _ ha).1
      have h5 : n.raft.term = (s.node p).term := h3.term
      have h6 : m.term = (s.node p).term := by omega
      rw [h6] at ha
      obtain ⟨_, lg, _, hj, hpre⟩ := h1.inv.ackNow _ _ ha
      have := hpre.length_le
      rw [List.length_take, Nat.min_eq_left hj] at this
      omega
  case snap =>
    refine ⟨(hterm (by simp)).1, hlead (by simp), by rw [hid, ← hto]; exact hnet.1, ?_⟩
    unfold Gen.MsgOk at hok
    rw [ht] at hok
    obtain ⟨sn, hs, c0, lg, ⟨hld, _⟩, hso, _⟩ := hok
    rw [hs] at hnet ⊢
    have hi := hnet.2
    dsimp only [Option.getD_some] at hi ⊢
    refine ⟨?_, ?_⟩
    · rw [hso.term]
      exact gterm_ne (Gen.terms_ne h1 (h1.inv.leadMatched _ _ _ hld)) (by omega) (by rw [List.length_append]; exact hso.le)
    · rw [hso.conf]
      exact confSafe G.trk hG.conf hG.zero (Or.inl hG.voter) _

/-- What is known about the log of a running node. -/
theorem upLog (hG : G.OK) (h : Reach env G c) (hp : c.proc p = .up n) : LInv n.raft.log ∧ n.raft.log.view.termAt 0 = 0 ∧
    n.raft.trk.config.autoLeave = false := by
  obtain ⟨g, hr⟩ := h.rel hG
  obtain ⟨s, h1, h2, h3⟩ := hr.one hp
  refine ⟨h3.linv, h3.zero, ?_⟩
  have : n.raft.trk.config = G.trk.config := h3.config
  rw [this]; exact hG.auto

theorem upFresh (hG : G.OK) (h : Reach env G c) (hL : LiveOk env G K c) (hp : c.proc p = .up n) : Raft.Fresh K n.raft.log := by
  obtain ⟨g, hr⟩ := h.rel hG
  obtain ⟨s, h1, h2, h3⟩ := hr.one hp
  exact h3.fresh h1 hL.bTerm hL.bIndex

/-- The applied part of the log is on the disk. -/
theorem applied_disk (hG : G.OK) (h : Reach env G c) (hp : c.proc p = .up n) : n.raft.log.applied ≤ n.raft.log.storage.lastIndex := by
  obtain ⟨g, hr⟩ := h.rel hG
  have := hr.proc p
  rw [hp] at this
  obtain ⟨s, hu⟩ := this
  have h1 := hu.app
  have h2 := hu.dur.log.len
  have h3 := (hr.reach.inv.commitOk p).1
  rw [hu.dur.wf.lastIndex_eq, ← h2, List.length_append]
  omega

theorem set_up {x : Proc} {q : Nat} : (c.set p x).proc q = if q = p then x else c.proc q := rfl

/-- The invariant after a step of one node that sends nothing. -/
theorem LiveOk.set (hL : LiveOk env G K c) {n' : RawNode} (h1 : Raft.Safe K env n'.raft) (h2 : Hard n'.raft.log.storage) :
    LiveOk env G K (c.set p (.up n')) := by
  refine ⟨hL.lead, hL.bTerm, hL.bIndex, fun q x hx => ?_, fun q x hx => ?_, hL.net⟩
  · rw [set_up] at hx
    split at hx
    · cases hx; exact ⟨h1, h2⟩
    · exact hL.up q x hx
  · rw [set_up] at hx
    split at hx
    · cases hx
    · exact hL.down q x hx

theorem LiveOk.halt (hL : LiveOk env G K c) {st : Storage} (h1 : st.Tidy) (h2 : Hard st) : LiveOk env G K (c.set p (.down st)) := by
  refine ⟨hL.lead, hL.bTerm, hL.bIndex, fun q x hx => ?_, fun q x hx => ?_, hL.net⟩
  · rw [set_up] at hx
    split at hx
    · cases hx
    · exact hL.up q x hx
  · rw [set_up] at hx
    split at hx
    · cases hx; exact ⟨h1, h2⟩
    · exact hL.down q x hx

/-- Sending messages. -/
theorem LiveOk.sent (hG : G.OK) (hL : LiveOk env G K c) {ms : List Message} (hms : ∀ m ∈ ms, NetOk K env m) {out led}
    (hr : Reach env G { c with net := c.net ++ ms, out := out, led := led }) : ∃ K', LiveOk env G K' { c with net := c.net ++ ms, out := out, led := led } := by
  let K' : Around := ⟨leadIn (c.net ++ ms), fun ha hb => leadIn_unique hG hr ha hb, K.bTerm, K.bIndex⟩
  have hmono : ∀ T b, K.lead T b → K'.lead T b := by
    intro T b hh
    obtain ⟨m, hm, hx⟩ := (hL.lead T b).1 hh
    exact ⟨m, List.mem_append_left _ hm, hx⟩
  refine ⟨K', fun _ _ => Iff.rfl, hL.bTerm, hL.bIndex, fun q x hx => ?_, hL.down, fun m hm => ?_⟩
  · exact ⟨(hL.up q x hx).1.mono hmono rfl rfl, (hL.up q x hx).2⟩
  · rcases List.mem_append.1 hm with hm | hm
    · exact (hL.net m hm).mono hmono rfl rfl
    · exact (hms m hm).mono hmono rfl rfl

/-- The hard state written with a Ready. -/
theorem save_hard (hG : G.OK) (h : Reach env G c) (hp : c.proc p = .up n) (hh : Hard n.raft.log.storage) {st : Storage}
    (hs : n.raft.log.storage.save (readyOf env n) = .ok st) : Hard st ∧ (n.raft.log.storage.Tidy → st.Tidy) := by
  obtain ⟨g, hr⟩ := h.rel hG
  have hpr := hr.proc p
  rw [hp] at hpr
  obtain ⟨s, hu⟩ := hpr
  have hli : LInv n.raft.log := hu.rel.linv
  obtain ⟨st', e1, e2, e3, e4, e5⟩ := save_eq (env := env) hli
  rw [hs] at e1
  cases e1
  have hbc := hli.base_com
  refine ⟨?_, ?_⟩
  · unfold Hard
    rw [e3, e5]
    by_cases hc : n.raft.hardState = n.prevHardSt
    · have : (readyOf env n).hardState = {} := if_pos hc
      rw [this, if_pos (by rfl)]
      rcases hh with hh | hh
      · exact Or.inl hh
      · right
        have h1 := hu.dur.commit
        have h2 := hu.prev
        rw [← hc] at h2
        have h3 : n.raft.hardState.commit = n.raft.log.committed := rfl
        rw [h2] at h3
        dsimp only at h3
        omega
    · have : (readyOf env n).hardState = n.raft.hardState := if_neg hc
      rw [this]
      split
      · rename_i he
        have : n.raft.hardState.commit = 0 := by
          unfold isEmptyHardState at he
          simp at he
          rw [he]
        have h3 : n.raft.hardState.commit = n.raft.log.committed := rfl
        right; omega
      · right; exact hbc
  · intro ht
    unfold Storage.Tidy at *
    rw [e3, e4]
    cases hsn : n.raft.log.unstable.snapshot with
    | some sn =>
      rw [RaftLog.view_snap hsn]
      exact Nat.le_refl _
    | none =>
      rw [RaftLog.view_nosnap hsn]
      exact ht

/-- A running node with another storage. -/
theorem safe_storage {l' : RaftLog} {r : Raft} (h : Raft.Safe K env r) (h1 : LInv l') (h2 : l'.view.termAt 0 = 0) (h3 : l'.storage.Tidy)
    (h4 : l'.lastIndex = r.log.lastIndex) : Raft.Safe K env { r with log := l' } :=
  h.withLog ⟨h1, h2, h3⟩ fun _ => h4

/-- Compaction does not change where the log ends. -/
theorem _root_.Craft.LInv.compact_lastIndex {l : RaftLog} (h : LInv l) {i : Nat} (hi : i ≤ l.applied) {st : Storage} {e : Option Err}
    (he : l.storage.compact i = .ok (st, e)) : ({ l with storage := st } : RaftLog).lastIndex = l.lastIndex := by
  have hli' : LInv { l with storage := st } := (h.step' (env := ⟨fun _ => 0, fun _ => none, fun _ => none, fun _ => [], fun _ _ => 0, fun _ => []⟩)
    (o := []) (o' := []) (.compact i hi he)).1
  have hac := h.app_com
  have hcl := h.com_last
  rw [hli'.wf.lastIndex_eq, h.wf.lastIndex_eq]
  rcases h.compact_view hi he with rfl | ⟨c1, _, _, _, _, _, hv | ⟨_, c8, hv⟩⟩
  · rfl
  · rw [hv]
  · rw [hv, LogView.compact_last (by omega) (by omega)]

theorem _root_.Craft.Storage.createSnapshot_lastIndex {s st : Storage} {i : Nat} {cs : Option ConfState} {data : Bytes} {e : Except Err Snapshot} (hw : s.WF)
    (h : s.createSnapshot i cs data = .ok (st, e)) : st.lastIndex = s.lastIndex := by
  rcases Storage.createSnapshot_cases hw h with rfl | ⟨_, _, h3, _⟩
  · rfl
  · rw [h3]; rfl

theorem _root_.Craft.RaftLog.lastIndex_storage {l : RaftLog} {st : Storage} (h : st.lastIndex = l.storage.lastIndex) :
    ({ l with storage := st } : RaftLog).lastIndex = l.lastIndex := by
  unfold RaftLog.lastIndex
  dsimp only
  rw [h]

/-- A node just started is safe. -/
theorem start_safe (hG : G.OK) {cfg : Config} {st : Storage} {rng : Nat} (hr : Reach env G (c.set p (.up n)))
    (hn : RawNode.new env cfg st rng = .ok n) (ht : st.Tidy) (hc : cfg.maxInflightMsgs ≤ 2 ^ 30) : Raft.Safe K env n.raft := by
  obtain ⟨hf, _⟩ := RawNode.new_ok hn
  obtain ⟨h1, h2, _⟩ := upLog hG hr (p := p) (n := n) (by rw [set_up, if_pos rfl])
  refine ⟨⟨h1, h2, by rw [hf.storage]; exact ht⟩, by rw [hf.id]; exact hf.id_ne, ?_, ?_, ?_, ?_, ?_, ?_, ?_, ?_⟩
  · intro h; rw [hf.state] at h; rcases h with h | h <;> cases h
  · rintro (h | h) <;> rw [hf.state] at h <;> cases h
  · obtain ⟨P0, _, hP⟩ := hf.conf
    refine ⟨cfg.maxInflightMsgs.toNat, by rw [hf.inflight.1]; have := hf.inflight.2; omega, by have := hf.inflight.2; omega, by omega, ?_⟩
    intro k q hq
    unfold Raft.pr at hq
    rw [hP] at hq
    have hfm := AMap.find_map P0 (fun k p => n.raft.resetPr k p) k
    have hq' := hfm.symm.trans hq
    cases hP0 : AMap.find P0 k with
    | none => rw [hP0] at hq'; cases hq'
    | some p0 =>
      rw [hP0] at hq'
      simp only [Option.map_some, Option.some.injEq] at hq'
      refine ⟨[], ?_⟩
      have hi : q.inflights = Inflights.new n.raft.trk.maxInflight := by
        rw [← hq']; unfold Raft.resetPr; dsimp only; split <;> rfl
      rw [hi, hf.inflight.1]
      have h0 := hf.inflight.2
      have := Inflights.rep_new cfg.maxInflightMsgs.toNat (by omega) (by omega)
      rwa [show ((cfg.maxInflightMsgs.toNat : Nat) : Int) = cfg.maxInflightMsgs by omega] at this
  · intro h; rw [hf.state] at h; cases h
  · rw [hf.reads.2.2]; exact ⟨rfl, List.nodup_nil, fun _ _ hh => nomatch hh⟩
  · rw [hf.reads.2.1]; intro m hm; cases hm
  · intro _ h; exact absurd hf.lead h
  · rw [hf.msgs]; intro m hm; cases hm

theorem handleReady_safe (hli : LInv n.raft.log) (ha : n.raft.trk.config.autoLeave = false) :
    ∃ n' st, n.raft.log.storage.save (readyOf env n) = .ok st ∧ n.handleReady env [] = .ok (n', readyOf env n) ∧ n'.raft.log.storage = st ∧
      (Raft.Safe K env n.raft → LInv n'.raft.log → n'.raft.log.view.termAt 0 = 0 → st.Tidy → Raft.Safe K env n'.raft) := by
  obtain ⟨st, u, hs, hn⟩ := handleReady_eq (env := env) hli ha
  refine ⟨_, st, hs, hn, rfl, fun h h1 h2 h3 => ?_⟩
  obtain ⟨st', e1, e2, e3, e4, _⟩ := save_eq (env := env) hli
  rw [hs] at e1
  cases e1
  obtain ⟨i1, i2⟩ := hli.readyLog env e2 e3 e4
  have hlast : (readyLog env n.raft.log st).lastIndex = n.raft.log.lastIndex := by rw [i1.wf.lastIndex_eq, hli.wf.lastIndex_eq, i2]
  exact ⟨⟨h1, h2, h3⟩, h.id, h.self, h.tpos, h.infl, (h.withLog (l := readyLog env n.raft.log st) ⟨h1, h2, h3⟩ fun _ => hlast).next, h.ro, h.pend, h.lead, fun m hm => nomatch hm⟩

/-- Compaction up to something applied does not get ahead of the recorded commit index. -/
theorem compact_hard (hG : G.OK) (h : Reach env G c) (hp : c.proc p = .up n) (hh : Hard n.raft.log.storage) {i : Nat} (hi : i ≤ n.raft.log.applied) :
    n.raft.log.storage.hardState = {} ∨ i ≤ n.raft.log.storage.hardState.commit := by
  obtain ⟨g, hr⟩ := h.rel hG
  have hpr := hr.proc p
  rw [hp] at hpr
  obtain ⟨s, hu⟩ := hpr
  rcases hh with hh | hh
  · exact Or.inl hh
  · have h1 := hu.dur.commit
    have h2 := hu.app
    right; omega

/-- Every allowed action returns, is a step of the cluster, and keeps the invariant. -/
theorem act_ok (hG : G.OK) (hE : Lossless env) (h : Reach env G c) (hL : LiveOk env G K c) {a : Act} (ha : a.Allowed c) :
    ∃ c', a.run env c = .ok c' ∧ Step env c c' ∧ ∃ K', LiveOk env G K' c' := by
  cases a with
  | start p cfg rng =>
    obtain ⟨st, hp, hid, hs, hmi⟩ := ha
    obtain ⟨ht, hh⟩ := hL.down p st hp
    obtain ⟨g, hr⟩ := h.rel hG
    have hd := hr.proc p
    rw [hp] at hd
    have hd : (G.gen hG).Durable st (g.node p) := hd
    have hres : st.Resumable G.trk.config := by
      refine ⟨hd.wf, ?_, G.trk, rfl, hd.snap.conf.symm, hG.conf, hG.zero, Or.inl hG.voter⟩
      rcases hh with hh | hh
      · exact Or.inl hh
      · have h1 := hd.commit
        have h2 := hd.log.len
        have h3 := (hr.reach.inv.commitOk p).1
        rw [List.length_append] at h2
        exact Or.inr ⟨hh, by omega⟩
    obtain ⟨n, hn, _⟩ := C51_restart (env := env) rng hres hs
    have hstep : Step env c (c.set p (.up n)) := .start p cfg rng hp hid hn
    refine ⟨_, ?_, hstep, K, hL.set (start_safe hG (.step h hstep) hn ht hmi) ?_⟩
    · show (match c.proc p with | .up _ => Res.ok c | .down st => RawNode.new env cfg st rng >>= fun n => pure (c.set p (.up n))) = _
      rw [hp]; dsimp only; rw [hn]; rfl
    · rw [(RawNode.new_ok hn).1.storage]; exact hh
  | call p x =>
    obtain ⟨⟨n, hp⟩, hx, hxs⟩ := ha
    obtain ⟨n', hn, hs⟩ := call_safe hE (hL.up p n hp).1 (upFresh hG h hL hp) hx (fun m hm => absurd hm (hxs m))
    refine ⟨_, ?_, .call p x hp hx hxs hn, K, hL.set hs ?_⟩
    · show (match c.proc p with | .down _ => Res.ok c | .up n => x.run env n >>= fun n' => pure (c.set p (.up n'))) = _
      rw [hp]; dsimp only; rw [hn]; rfl
    · rw [Call.run_storage (by cases x <;> first | trivial | exact absurd rfl (hxs _)) hn]; exact (hL.up p n hp).2
  | deliver p m =>
    obtain ⟨⟨n, hp⟩, hm, hto⟩ := ha
    have hms := msgSafe hG h hL hp hm hto
    obtain ⟨n', hn, hs⟩ := call_safe (x := .step m) hE (hL.up p n hp).1 (upFresh hG h hL hp) trivial (fun m' hm' => by cases hm'; exact hms)
    refine ⟨_, ?_, .deliver p m hp hm hto hn, K, hL.set hs ?_⟩
    · show (match c.proc p with | .down _ => Res.ok c | .up n => (Call.step m).run env n >>= fun n' => pure (c.set p (.up n'))) = _
      rw [hp]; dsimp only; rw [hn]; rfl
    · have hst : Stamped m := by
        intro ht
        unfold MsgSafe at hms
        rcases ht with ht | ht | ht <;> rw [ht] at hms <;> exact hms.1
      rw [Call.run_storage (c := .step m) hst hn]; exact (hL.up p n hp).2
  | ready p =>
    obtain ⟨n, hp⟩ := ha
    obtain ⟨hli, hz, hal⟩ := upLog hG h hp
    obtain ⟨n', st, hs, hn, hst, hsafe'⟩ := handleReady_safe (K := K) (env := env) hli hal
    obtain ⟨hh, ht⟩ := save_hard hG h hp (hL.up p n hp).2 hs
    have hstep := Step.ready (env := env) p hp hn
    refine ⟨_, ?_, hstep, ?_⟩
    · unfold Act.run
      dsimp only
      rw [hp]; dsimp only; rw [hn]; rfl
    · have hsafe := (hL.up p n hp).1
      have hup := upLog hG (.step h hstep) (p := p) (n := n') (if_pos rfl)
      have h1 := hL.set (p := p) (n' := n') (hsafe' hsafe hup.1 hup.2.1 (ht hsafe.log.tidy)) (by rw [hst]; exact hh)
      exact h1.sent hG (ms := (readyOf env n).messages) hsafe.out (.step h hstep)
  | compact p i =>
    obtain ⟨n, hp, hi, hsn⟩ := ha
    have hli := (upLog hG h hp).1
    have had := applied_disk hG h hp
    have hc : ∃ st e, n.raft.log.storage.compact i = .ok (st, e) := by
      unfold Storage.compact
      split
      · exact ⟨_, _, rfl⟩
      split
      · omega
      · exact ⟨_, _, rfl⟩
    obtain ⟨st, e, hc⟩ := hc
    have hstep := Step.compact (env := env) p i hp hi hc
    refine ⟨_, ?_, hstep, K, ?_⟩
    · unfold Act.run
      dsimp only
      rw [hp]; dsimp only; rw [hc]; rfl
    · have hsafe := (hL.up p n hp).1
      have hup := upLog hG (.step h hstep) (p := p) (by rw [set_up, if_pos rfl])
      have key : st.Tidy ∧ Hard st := by
        rcases hli.compact_view hi hc with rfl | ⟨h1, h2, h3, h4, h5, h6, _⟩
        · exact ⟨hsafe.log.tidy, (hL.up p n hp).2⟩
        · refine ⟨?_, ?_⟩
          · unfold Storage.Tidy; rw [h4, h5]; exact hsn
          · unfold Hard; rw [h4, h6]
            exact compact_hard hG h hp (hL.up p n hp).2 hi
      exact hL.set (n' := n.withStorage st) (safe_storage hsafe hup.1 hup.2.1 key.1 (hli.compact_lastIndex hi hc)) key.2
  | createSnapshot p i cs data =>
    obtain ⟨n, hp, hi, hcs⟩ := ha
    have hli := (upLog hG h hp).1
    have had := applied_disk hG h hp
    have hsafe := (hL.up p n hp).1
    have ht := hsafe.log.tidy
    unfold Storage.Tidy at ht
    have hc : ∃ st e, n.raft.log.storage.createSnapshot i cs data = .ok (st, e) := by
      unfold Storage.createSnapshot
      split
      · exact ⟨_, _, rfl⟩
      split
      · omega
      split
      · rename_i h1 _ h2
        have : n.raft.log.storage.offset = n.raft.log.storage.view.base := rfl
        omega
      · exact ⟨_, _, rfl⟩
    obtain ⟨st, e, hc⟩ := hc
    have hstep := Step.createSnapshot (env := env) p i cs data hp hi hcs hc
    refine ⟨_, ?_, hstep, K, ?_⟩
    · unfold Act.run
      dsimp only
      rw [hp]; dsimp only; rw [hc]; rfl
    · have hup := upLog hG (.step h hstep) (p := p) (by rw [set_up, if_pos rfl])
      have key : st.Tidy ∧ Hard st := by
        rcases Storage.createSnapshot_cases hli.wf.stor hc with rfl | ⟨h1, h2, h3, h4, _⟩
        · exact ⟨hsafe.log.tidy, (hL.up p n hp).2⟩
        · refine ⟨?_, ?_⟩
          · unfold Storage.Tidy; rw [h4, h3]; exact h1
          · rw [h3]; exact (hL.up p n hp).2
      exact hL.set (n' := n.withStorage st) (safe_storage hsafe hup.1 hup.2.1 key.1 (RaftLog.lastIndex_storage (Storage.createSnapshot_lastIndex hli.wf.stor hc))) key.2
  | crash p =>
    obtain ⟨n, hp⟩ := ha
    refine ⟨_, ?_, .crash p hp, K, hL.halt (hL.up p n hp).1.log.tidy (hL.up p n hp).2⟩
    unfold Act.run
    dsimp only
    rw [hp]
  | crashReady p keep k =>
    obtain ⟨n, hp⟩ := ha
    obtain ⟨hli, hz, hal⟩ := upLog hG h hp
    obtain ⟨st, hs, hn⟩ := takeReady_eq (env := env) hli
    obtain ⟨hh, ht⟩ := save_hard hG h hp (hL.up p n hp).2 hs
    have hstep := Step.crashReady (env := env) p ((readyOf env n).messages.filter keep) k hp hn (fun m hm => (List.mem_filter.1 hm).1)
    refine ⟨_, ?_, hstep, ?_⟩
    · unfold Act.run
      dsimp only
      rw [hp]; dsimp only; rw [hn]; rfl
    · have hsafe := (hL.up p n hp).1
      have h1 := hL.halt (p := p) (ht hsafe.log.tidy) hh
      exact h1.sent hG (ms := (readyOf env n).messages.filter keep) (fun m hm => hsafe.out m (List.mem_filter.1 hm).1) (.step h hstep)

end Cluster
end Craft
