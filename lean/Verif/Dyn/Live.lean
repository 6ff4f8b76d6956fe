import Verif.Dyn.ReadySafe
import Verif.Dyn.Safety
import Verif.Dyn.ReadsMain
import Verif.Spec.MembersSafe
import Verif.Cluster.Live

/-! # In a cluster whose membership is changed sensibly nothing aborts: the invariant behind C69 -/

namespace Craft.Dyn
open Spec Members
open Cluster (Genesis Vital gterm gterm_some LogRel leadIn Hard safe_storage)

/-- The abstract counterpart of a cluster that is asked for sensible changes only. -/
def sgen {env : Env} {G : Genesis} (hE : Faithful env) (h : GenesisOK env.conf G) : MGen :=
  { gen h with
    strict := True
    autoOk := fun _ cfg e hg ha ht hd => by
      have hw : Works cfg ({} : ConfChangeV2) := by
        unfold Works
        obtain ⟨prs, hi⟩ := hg.inv
        rw [if_pos (fun h0 => by have := (hi.not_joint h0).2; rw [ha] at this; cases this)]
        exact ⟨rfl, rfl⟩
      obtain ⟨cfg', h1⟩ := Works.next hw hg
      refine ⟨cfg', ?_⟩
      have hc : confOf env.conf e = some (.v2 {}) := by
        unfold confOf Env.conf
        rw [ht, hd, hE.empty]
        rfl
      show EStep env.conf e cfg cfg'
      unfold EStep
      rw [hc]
      exact h1 }

theorem Sensible.works {cfg : TConfig} {cc : ConfChangeV2} (h : Sensible cfg cc) (hg : cc.changes = [] ↔ cfg.voters.outgoing ≠ []) : Works cfg cc := by
  unfold Sensible at h
  split at h
  · rename_i ho
    unfold Works
    rw [if_pos ho]
    exact ⟨hg.2 ho, h (hg.2 ho)⟩
  · rename_i ho
    exact h fun hc => ho (hg.1 hc)

theorem Own.relog {k : Nat} {c : Core} {l : RaftLog} (h : Own k c) (hv : ∀ e ∈ l.view.ents, e ∈ c.log.view.ents) (hu : l.unstable = c.log.unstable) :
    Own k { c with log := l } :=
  ⟨h.cand, (fun hl hc => h.lead hl (hc.imp _root_.id fun ⟨e, h1, h2, h3⟩ => ⟨e, hv e h1, h2, h3⟩)), fun hn => by show l.unstable.snapshot = _; rw [hu]; exact h.calm hn⟩

namespace MGen
variable {G : MGen} {g s : DState} {p : Nat} {K : Around} {env : Env}

theorem NodeRel.fresh {k : Nat} {n : RawNode} (hr : G.Run s) (h : G.NodeRel p k s.net n.raft.core (s.node p)) (h1 : K.bTerm = gterm G.L0 G.L0.length)
    (h2 : K.bIndex = G.L0.length) : Raft.Fresh K n.raft.log := by
  have hlog : LogRel (G.L0 ++ (s.node p).log) n.raft.log.view := h.log
  unfold Raft.Fresh Around.Past
  rw [hlog.termAt (i := n.raft.log.view.last) (Nat.le_add_right _ _), h1, h2, ← hlog.len, List.length_append]
  generalize hX : (s.node p).log = X at hlog
  by_cases hx : X = []
  · subst hx
    rw [List.append_nil]; right
    exact ⟨rfl, Nat.le_add_right _ _⟩
  · have hl : 0 < X.length := List.length_pos_iff.2 hx
    have he : X[X.length - 1]? = Option.some (X[X.length - 1]'(by omega)) := List.getElem?_eq_getElem _
    have h3 : G.τ < (X[X.length - 1]'(by omega)).term := hr.matched_gt (by have := hr.inv.nodeMatched p; rwa [hX] at this) (List.mem_of_getElem? he)
    have := gterm_some (L := G.L0 ++ X) (i := G.L0.length + (X.length - 1)) (e := X[X.length - 1]'(by omega)) (by
        rw [List.getElem?_append_right (by omega), Nat.add_sub_cancel_left]; exact he)
    rw [show G.L0.length + (X.length - 1) + 1 = G.L0.length + X.length by omega] at this
    have h4 := G.low
    omega

/-- In term 0 the log is the initial one. -/
theorem NodeRel.term0 {k : Nat} {n : RawNode} (hr : G.Run s) (h : G.NodeRel p k s.net n.raft.core (s.node p)) (h0 : n.raft.term = 0) : (s.node p).log = [] := by
  have ht : n.raft.term = (s.node p).term := h.term
  cases hl : (s.node p).log with
  | nil => rfl
  | cons e es =>
    exfalso
    have he : e ∈ (s.node p).log := by rw [hl]; exact List.mem_cons_self
    have h1 := hr.inv.nodeTerms p e he
    have h2 := hr.matched_gt (hr.inv.nodeMatched p) he
    omega

/-- What holds of a cluster, besides its relation to the abstract protocol. -/
structure LiveOk (G : MGen) (env : Env) (K : Around) (c : State) : Prop where
  rel : ∃ g, G.Rel c g
  lead : ∀ T b, K.lead T b ↔ leadIn c.net T b
  bTerm : K.bTerm = gterm G.L0 G.L0.length
  bIndex : K.bIndex = G.L0.length
  up : ∀ p n a, c.proc p = .up n a → Raft.Safe K env n.raft ∧ Hard n.raft.log.storage ∧ Own a.index n.raft.core
  down : ∀ p st, c.proc p = .down st → Hard st
  net : ∀ m ∈ c.net, NetOk K env m

variable {c c' : State} {n : RawNode} {a : App}

theorem Conf.good {lg : List Entry} {x : Nat} {cfg : TConfig} (h : G.Conf lg x cfg) : GoodCfg cfg ∨ cfg = {} := by
  rcases h with ⟨_, h⟩ | ⟨_, h⟩
  · exact G.earlyGood h
  · exact Or.inl (h.good G.good)

/-- A configuration in use can be restored. -/
theorem Conf.restorable {lg : List Entry} {x : Nat} {cfg : TConfig} (h : G.Conf lg x cfg) :
    ∃ prs, ConfInv cfg prs ∧ ¬ Member cfg 0 ∧ (cfg.voters.incoming ≠ [] ∨ cfg = {}) := by
  rcases h.good with hg | rfl
  · obtain ⟨prs, hi⟩ := hg.inv
    exact ⟨prs, hi, hg.zero, Or.inl hg.voter⟩
  · exact ⟨[], (by constructor <;> simp [Member, AMap.find]), (by simp [Member]), Or.inr rfl⟩

theorem SnapOk.safe {lg : List Entry} {sn : Snapshot} (h : G.SnapOk lg sn) (id : Nat) : ConfSafe sn.metadata.confState id := by
  obtain ⟨cfg, h1, h2⟩ := h.conf
  obtain ⟨prs, hi, hz, hv⟩ := h1.restorable
  rw [h2]
  exact confSafe { config := cfg, progress := prs, maxInflight := 0 } hi hz hv id

/-- A message that was sent is safe for its addressee. -/
theorem LiveOk.msgSafe (hL : G.LiveOk env K c) (hp : c.proc p = .up n a) {m : Message} (hm : m ∈ c.net) (hto : m.to = p) :
    MsgSafe K env n.raft m := by
  obtain ⟨g, hr⟩ := hL.rel
  obtain ⟨s, h1, h2, h3⟩ := hr.one hp
  have hid : n.raft.id = p := h3.id
  have hok : G.MsgOk s.net m := (hr.net m hm).mono h2
  have hnet := hL.net m hm
  have hlead : (m.type = .app ∨ m.type = .snap ∨ m.type = .heartbeat) → K.lead m.term m.src := fun ht => (hL.lead _ _).2 ⟨m, hm, ht, rfl, rfl⟩
  have hterm := msgOk_term h1 hok
  have hwf := msgOk_appWF h1 hok
  unfold NetOk at hnet
  unfold MsgSafe
  cases ht : m.type <;> rw [ht] at hnet hlead hterm <;> dsimp only at hnet ⊢ <;> try trivial
  case app => exact ⟨(hterm (by simp)).1, hlead (by simp), by rw [hid, ← hto]; exact hnet, hwf⟩
  case appResp => rw [hid, ← hto]; exact hnet
  case heartbeatResp => rw [hid, ← hto]; exact hnet
  case transferLeader => right; rw [hid, ← hto]; exact hnet
  case preVote =>
    refine ⟨hnet.1, fun h0 => ?_⟩
    have hx := h3.term0 h1 h0
    have hlog : LogRel (G.L0 ++ (s.node p).log) n.raft.log.view := h3.log
    rw [hx, List.append_nil] at hlog
    have hwf : n.raft.log.WF := h3.lcore.wf
    rw [hwf.isUpToDate_eq, hlog.termAt (i := n.raft.log.view.last) (Nat.le_add_right _ _), ← hlog.len]
    have := hnet.2
    unfold Around.Past at this
    rw [hL.bTerm, hL.bIndex] at this
    congr 1
    rw [decide_eq_true_eq]
    omega
  case heartbeat =>
    refine ⟨(hterm (by simp)).1, hlead (by simp), by rw [hid, ← hto]; exact hnet, fun hle => ?_⟩
    unfold MsgOk at hok
    rw [ht] at hok
    have hlast : n.raft.log.lastIndex = G.L0.length + (s.node p).log.length := h3.last_eq
    rw [hlast]
    rcases hok.2 with hk | ⟨j, hk, ha⟩
    · omega
    · rw [hto] at ha
      have h4 := (h1.inv.ackLead _ _ _ ha).1
      have h5 : n.raft.term = (s.node p).term := h3.term
      have h6 : m.term = (s.node p).term := by omega
      rw [h6] at ha
      obtain ⟨_, lg, _, hj, hpre⟩ := h1.inv.ackNow _ _ ha
      have := hpre.length_le
      rw [List.length_take, Nat.min_eq_left hj] at this
      omega
  case snap =>
    refine ⟨(hterm (by simp)).1, hlead (by simp), by rw [hid, ← hto]; exact hnet.1, ?_⟩
    unfold MsgOk at hok
    rw [ht] at hok
    obtain ⟨sn, hs, c0, lg, ⟨hld, _⟩, hso, _⟩ := hok
    rw [hs] at hnet ⊢
    have hi := hnet.2
    dsimp only [Option.getD_some] at hi ⊢
    refine ⟨?_, hso.safe _⟩
    rw [hso.term]
    have hne := terms_ne h1 (h1.inv.leadMatched _ _ _ hld)
    exact Cluster.gterm_ne hne (by omega) (by have := hso.le; rw [List.length_append]; exact this)

theorem LiveOk.sent (hL : G.LiveOk env K c) {ms : List Message} (hms : ∀ m ∈ ms, NetOk K env m) {out led known}
    (hr : ∃ g, G.Rel { c with net := c.net ++ ms, out := out, led := led, known := known } g) :
    ∃ K', G.LiveOk env K' { c with net := c.net ++ ms, out := out, led := led, known := known } := by
  have hu : ∀ {T a b}, leadIn (c.net ++ ms) T a → leadIn (c.net ++ ms) T b → a = b := by
    rintro T a b ⟨m, hm, t, rfl, rfl⟩ ⟨m', hm', t', ht, rfl⟩
    obtain ⟨g, hr⟩ := hr
    exact hr.election.2 m hm m' hm' t t' ht.symm
  let K' : Around := ⟨leadIn (c.net ++ ms), hu, K.bTerm, K.bIndex⟩
  have hmono : ∀ T b, K.lead T b → K'.lead T b := by
    intro T b hh
    obtain ⟨m, hm, hx⟩ := (hL.lead T b).1 hh
    exact ⟨m, List.mem_append_left _ hm, hx⟩
  refine ⟨K', hr, fun _ _ => Iff.rfl, hL.bTerm, hL.bIndex, fun q x a hx => ?_, hL.down, fun m hm => ?_⟩
  · exact ⟨(hL.up q x a hx).1.mono hmono rfl rfl, (hL.up q x a hx).2⟩
  · rcases List.mem_append.1 hm with hm | hm
    · exact (hL.net m hm).mono hmono rfl rfl
    · exact (hms m hm).mono hmono rfl rfl

theorem set_up {x : Proc} {q : Nat} : (c.set p x).proc q = if q = p then x else c.proc q := rfl

/-- One node changes and some of the messages it had are sent. -/
theorem LiveOk.step (hL : G.LiveOk env K c) {x : Proc} {ms : List Message} {out led known}
    (hx : ∀ n a, x = .up n a → Raft.Safe K env n.raft ∧ Hard n.raft.log.storage ∧ Own a.index n.raft.core) (hd : ∀ st, x = .down st → Hard st)
    (hms : ∀ m ∈ ms, NetOk K env m) (hr : ∃ g, G.Rel { c.set p x with net := c.net ++ ms, out := out, led := led, known := known } g) :
    ∃ K', G.LiveOk env K' { c.set p x with net := c.net ++ ms, out := out, led := led, known := known } := by
  have hu : ∀ {T a b}, leadIn (c.net ++ ms) T a → leadIn (c.net ++ ms) T b → a = b := by
    rintro T a b ⟨m, hm, t, rfl, rfl⟩ ⟨m', hm', t', ht, rfl⟩
    obtain ⟨g, hr⟩ := hr
    exact hr.election.2 m hm m' hm' t t' ht.symm
  let K' : Around := ⟨leadIn (c.net ++ ms), hu, K.bTerm, K.bIndex⟩
  have hmono : ∀ T b, K.lead T b → K'.lead T b := by
    intro T b hh
    obtain ⟨m, hm, hx⟩ := (hL.lead T b).1 hh
    exact ⟨m, List.mem_append_left _ hm, hx⟩
  refine ⟨K', hr, fun _ _ => Iff.rfl, hL.bTerm, hL.bIndex, fun q y a hy => ?_, fun q st hy => ?_, fun m hm => ?_⟩
  · have hy : (c.set p x).proc q = .up y a := hy
    rw [set_up] at hy
    split at hy
    · exact ⟨(hx y a hy).1.mono hmono rfl rfl, (hx y a hy).2⟩
    · exact ⟨(hL.up q y a hy).1.mono hmono rfl rfl, (hL.up q y a hy).2⟩
  · have hy : (c.set p x).proc q = .down st := hy
    rw [set_up] at hy
    split at hy
    · exact hd st hy
    · exact hL.down q st hy
  · rcases List.mem_append.1 hm with hm | hm
    · exact (hL.net m hm).mono hmono rfl rfl
    · exact (hms m hm).mono hmono rfl rfl

theorem LiveOk.set (hL : G.LiveOk env K c) {x : Proc}
    (hx : ∀ n a, x = .up n a → Raft.Safe K env n.raft ∧ Hard n.raft.log.storage ∧ Own a.index n.raft.core) (hd : ∀ st, x = .down st → Hard st)
    (hr : ∃ g, G.Rel (c.set p x) g) : G.LiveOk env K (c.set p x) := by
  refine ⟨hr, hL.lead, hL.bTerm, hL.bIndex, fun q y a hy => ?_, fun q st hy => ?_, hL.net⟩
  · rw [set_up] at hy
    split at hy
    · exact hx y a hy
    · exact hL.up q y a hy
  · rw [set_up] at hy
    split at hy
    · exact hd st hy
    · exact hL.down q st hy

/-- The hard state written with a Ready. -/
theorem Up.save_hard (hg : G.Run g) (hu : G.Up g p n a s) (hh : Hard n.raft.log.storage) {st : Storage}
    (hs : n.raft.log.storage.save (readyOf env n) = .ok st) : Hard st ∧ st.Tidy := by
  refine ⟨?_, (hu.persist hg hs).1.snapBase⟩
  have hli : LInv n.raft.log := hu.linv
  obtain ⟨st', e1, e2, e3, e4, e5⟩ := save_eq (env := env) hli
  rw [hs] at e1
  cases e1
  have hbc := hli.base_com
  unfold Hard
  rw [e3, e5]
  by_cases hc : n.raft.hardState = n.prevHardSt
  · have : (readyOf env n).hardState = {} := if_pos hc
    rw [this, if_pos (by rfl)]
    rcases hu.dur with ⟨hd, hpv⟩ | ⟨hd, _⟩
    rcases hh with hh | hh
    · exact Or.inl hh
    · right
      have h1 := hd.commit
      rw [← hc] at hpv
      have h3 : n.raft.hardState.commit = n.raft.log.committed := rfl
      rw [hpv] at h3
      dsimp only at h3
      omega
    · left; rw [hd.blank]
  · have : (readyOf env n).hardState = n.raft.hardState := if_neg hc
    rw [this]
    split
    · rename_i he
      have : n.raft.hardState.commit = 0 := by
        unfold isEmptyHardState at he
        simp at he
        rw [he]
      have h3 : n.raft.hardState.commit = n.raft.log.committed := rfl
      right; omega
    · right; exact hbc

/-- A node just started is safe. -/
theorem new_safe {cfg : Config} {st : Storage} {rng : Nat} (hn : RawNode.new env cfg st rng = .ok n) (h1 : LInv n.raft.log)
    (h2 : n.raft.log.view.termAt 0 = 0) (ht : st.Tidy) (hc : cfg.maxInflightMsgs ≤ 2 ^ 30) : Raft.Safe K env n.raft := by
  obtain ⟨hf, _⟩ := RawNode.new_ok hn
  refine ⟨⟨h1, h2, by rw [hf.storage]; exact ht⟩, by rw [hf.id]; exact hf.id_ne, ?_, ?_, ?_, ?_, ?_, ?_, ?_, ?_⟩
  · intro h; rw [hf.state] at h; rcases h with h | h <;> cases h
  · rintro (h | h) <;> rw [hf.state] at h <;> cases h
  · obtain ⟨P0, _, hP⟩ := hf.conf
    refine ⟨cfg.maxInflightMsgs.toNat, by rw [hf.inflight.1]; have := hf.inflight.2; omega, by have := hf.inflight.2; omega, by omega, ?_⟩
    intro k q hq
    unfold Raft.pr at hq
    rw [hP] at hq
    have hfm := AMap.find_map P0 (fun k p => n.raft.resetPr k p) k
    have hq' := hfm.symm.trans hq
    cases hP0 : AMap.find P0 k with
    | none => rw [hP0] at hq'; cases hq'
    | some p0 =>
      rw [hP0] at hq'
      simp only [Option.map_some, Option.some.injEq] at hq'
      refine ⟨[], ?_⟩
      have hi : q.inflights = Inflights.new n.raft.trk.maxInflight := by
        rw [← hq']; unfold Raft.resetPr; dsimp only; split <;> rfl
      rw [hi, hf.inflight.1]
      have h0 := hf.inflight.2
      have := Inflights.rep_new cfg.maxInflightMsgs.toNat (by omega) (by omega)
      rwa [show ((cfg.maxInflightMsgs.toNat : Nat) : Int) = cfg.maxInflightMsgs by omega] at this
  · intro h; rw [hf.state] at h; cases h
  · rw [hf.reads.2.2]; exact ⟨rfl, List.nodup_nil, fun _ _ hh => nomatch hh⟩
  · rw [hf.reads.2.1]; intro m hm; cases hm
  · intro _ h; exact absurd hf.lead h
  · rw [hf.msgs]; intro m hm; cases hm

/-- A call on a running node, or the delivery of a message: the effect on the node's place in its configuration. -/
theorem Up.own {n' : RawNode} {x : Call} (hg : G.Run g) (h : G.Up g p n a s) (hx : x.Plain)
    (hvet : G.Vetted env (x.msg env n) n.raft.core) (hr : x.run env n = .ok n') (him : G.MsgOk s.net (x.msg env n))
    (hto : (x.msg env n).type = .voteResp ∨ (x.msg env n).type = .heartbeat → (x.msg env n).to = p) (hb : Backed env (x.msg env n) n.raft.core)
    (ho : Own a.index n.raft.core) : Own a.index n'.raft.core := by
  have hstamp : x.Stamped := by
    cases x with
    | step m =>
      intro hty
      exact (msgOk_term (h.path.run hg) him (by rcases hty with h | h | h <;> simp [Call.msg, h])).1
    | _ => trivial
  obtain ⟨_, ms, _, hpath⟩ := Call.plain_sim hx hstamp hr
  exact path_own hpath (h.path.run hg) h.rel him hvet h.linv hto hb ho

end MGen
end Craft.Dyn
