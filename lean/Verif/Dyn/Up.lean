import Verif.Dyn.Core
import Verif.Node.Leader

/-! # Running nodes of a cluster with membership changes -/

namespace Craft.Dyn
open Spec Members
open Cluster (Genesis Delivered Led Vital gterm LogRel gterm_some gterm_prefix gterm_out gterm_ne append_take append_prefix)
open Cluster.Gen (append_same)

/-- The initial situation, for the abstract protocol. -/
def gen {dec : Entry → Option ConfChangeI} {G : Genesis} (h : GenesisOK dec G) : MGen where
  L0 := G.log
  τ := G.term
  dec := dec
  cfg0 := G.trk.config
  good := ⟨⟨_, h.conf⟩, h.zero, h.voter⟩
  terms := h.terms
  low := h.low
  still := h.still
  B := []
  τ1 := 0
  founder := fun _ => False
  Early := fun _ _ => False
  bootL0 := fun h => absurd rfl h
  bootConf := nofun
  bootτ := fun _ => rfl
  bootτ' := Nat.zero_le _
  earlyMem := fun h => h.elim
  earlyStep := fun _ h => h.elim
  earlyGood := fun h => h.elim
  strict := False
  autoOk := fun h => h.elim

/-- The snapshot that is waiting to be handed out is one that just arrived. -/
theorem _root_.Craft.RaftLog.maybeAppend_snap {l l' : RaftLog} {i t c : Nat} {es : List Entry} {r : Option Nat}
    (h : l.maybeAppend i t c es = .ok (l', r)) : l'.unstable = l.unstable ∨ l'.unstable.snapshot = l.unstable.snapshot := by
  have com : ∀ {l l' : RaftLog} {k}, l.commitTo k = .ok l' → l'.unstable = l.unstable := by
    intro l l' k h
    unfold RaftLog.commitTo at h
    split at h
    · split at h
      · cases h
      · cases h; rfl
    · cases h; rfl
  unfold RaftLog.maybeAppend at h
  obtain ⟨m, _, h⟩ := Res.bind_eq_ok.1 h
  split at h
  · obtain ⟨ci, _, h⟩ := Res.bind_eq_ok.1 h
    dsimp only at h
    split at h
    · simp only [Res.pure_eq, Res.ok_bind] at h
      obtain ⟨l2, h1, h⟩ := Res.bind_eq_ok.1 h
      cases h
      exact Or.inl (com h1)
    · split at h
      · cases h
      · split at h
        · cases h
        · obtain ⟨l3, h3, h⟩ := Res.bind_eq_ok.1 h
          obtain ⟨l2, h1, h⟩ := Res.bind_eq_ok.1 h
          cases h
          right
          rw [com h1, (append_same h3).2.2]
  · cases h; exact Or.inl rfl

theorem _root_.Craft.CStep.pend {env : Env} {im : Message} {c c' : Core} {ms : List Message} (h : CStep env im c ms c') :
    c'.log.unstable.snapshot = c.log.unstable.snapshot ∨ ∃ s, c'.log.unstable.snapshot = some s ∧ c.log.committed < s.metadata.index := by
  have com : ∀ {l l' : RaftLog} {k}, l.commitTo k = .ok l' → l'.unstable = l.unstable := by
    intro l l' k h
    unfold RaftLog.commitTo at h
    split at h
    · split at h
      · cases h
      · cases h; rfl
    · cases h; rfl
  cases h with
  | append es l p pci _ h _ _ => exact Or.inl (append_same h).2.2
  | commit l _ h => rw [(RaftLog.maybeCommit_shape h).1]; exact Or.inl rfl
  | recvApp l last _ _ _ _ h =>
    left
    rcases RaftLog.maybeAppend_snap h with h | h
    · rw [h]
    · exact h
  | recvHeartbeat l _ _ _ h => left; rw [com h]
  | recvSnapCommit l _ _ _ _ _ h => left; rw [com h]
  | recvSnap cfg P0 p mi h1 h2 h3 h4 => exact Or.inr ⟨_, rfl, h4⟩
  | _ => exact Or.inl rfl

theorem _root_.Craft.CPath.pend {env : Env} {im : Message} {c c' : Core} {ms : List Message} (h : CPath env im c ms c') (hw : AppWF im)
    (hi : LInv c.log) {k : Nat} (hk : k ≤ c.log.committed) (hp : ∀ s, c.log.unstable.snapshot = some s → k < s.metadata.index) :
    ∀ s, c'.log.unstable.snapshot = some s → k < s.metadata.index := by
  induction h with
  | nil => exact hp
  | cons hs _ ih =>
    obtain ⟨h1, h2⟩ := hs.linv hw hi
    refine ih h1 (Nat.le_trans hk h2.com_mono) fun s hc => ?_
    rcases hs.pend with h | ⟨s', h, h3⟩
    · rw [h] at hc; exact hp s hc
    · rw [h] at hc; cases hc; omega

namespace MGen
variable (G : MGen)

/-- The disk holds the abstract node (all but its role and configuration). -/
structure Durable (st : Storage) (a : DNode) : Prop where
  wf : st.WF
  log : LogRel (G.L0 ++ a.log) st.view
  term : st.hardState.term = a.term
  vote : G.VoteOk st.hardState.vote a
  commit : max st.view.base st.hardState.commit = G.L0.length + a.commit
  snap : G.SnapOk a.log st.snapshot
  snapLe : st.snapshot.metadata.index ≤ G.L0.length + a.commit
  snapBase : st.view.base ≤ st.snapshot.metadata.index

/-- The disk of a founder that has not persisted what it bootstrapped. -/
structure Blank (p : Nat) (st : Storage) (a : DNode) : Prop where
  blank : st = {}
  founder : G.founder p
  boot : G.B ≠ []
  log : a.log = G.B
  term : a.term = 1
  commit : a.commit = G.B.length
  low : 1 ≤ G.τ1

/-- A running node with its application: what is persisted is in `g`, what is not yet persisted is the path from `g` to `s`. -/
structure Up (g : DState) (p : Nat) (n : RawNode) (a : App) (s : DState) : Prop where
  path : PPath G.Q p g s
  rel : G.NodeRel p a.index s.net n.raft.core (s.node p)
  linv : LInv n.raft.log
  msgs : ∀ m ∈ n.raft.msgs, G.MsgOk s.net m
  app : a.index ≤ G.L0.length + (g.node p).commit
  dur : (G.Durable n.raft.log.storage (g.node p) ∧
      n.prevHardSt = ⟨(g.node p).term, n.raft.log.storage.hardState.vote, G.L0.length + (g.node p).commit⟩) ∨
    (G.Blank p n.raft.log.storage (g.node p) ∧ n.prevHardSt = {} ∧ a.index = 0)
  base : n.raft.log.storage.view.base ≤ n.raft.log.applied
  cs : ∃ cfg, G.Conf (g.node p).log (a.index - G.L0.length) cfg ∧ a.conf = csOf cfg
  pend : ∀ s, n.raft.log.unstable.snapshot = some s → a.index < s.metadata.index

def ProcOk (g : DState) (p : Nat) : Proc → Prop
  | .down st => G.Durable st (g.node p) ∨ G.Blank p st (g.node p)
  | .up n a => ∃ s, G.Up g p n a s

/-- A delivered entry is in the initial log or in something chosen by then. -/
def OutOk (N : List DMsg) (d : Delivered) : Prop :=
  1 ≤ d.entry.index ∧ ∃ pre, (G.L0 ++ pre)[d.entry.index - 1]? = some d.entry ∧ Cov N (d.term + 1) pre

def LedOk (N : List DMsg) (r : Led) : Prop := ∃ lg, DMsg.lead r.term r.node lg ∈ N ∧ LogRel (G.L0 ++ lg) r.log

/-- What an application knows is the configuration of a chosen prefix. -/
def KnownOk (N : List DMsg) (r : Known) : Prop :=
  ∃ x cfg T, Cov N T x ∧ x.length = r.app.index - G.L0.length ∧ G.Conf x x.length cfg ∧ r.app.conf = csOf cfg

structure Rel (c : State) (g : DState) : Prop where
  reach : G.Run g
  proc : ∀ p, G.ProcOk g p (c.proc p)
  net : ∀ m ∈ c.net, G.MsgOk g.net m
  out : ∀ d ∈ c.out, G.OutOk g.net d
  led : ∀ r ∈ c.led, G.LedOk g.net r
  known : ∀ r ∈ c.known, G.KnownOk g.net r

variable {G} {g : DState} {p : Nat} {c : State}

theorem OutOk.mono {N N' : List DMsg} {d : Delivered} (h : G.OutOk N d) (hn : ∀ m ∈ N, m ∈ N') : G.OutOk N' d := by
  obtain ⟨h0, pre, h1, h2⟩ := h
  exact ⟨h0, pre, h1, h2.mono hn (Nat.le_refl _)⟩

theorem LedOk.mono {N N' : List DMsg} {d : Led} (h : G.LedOk N d) (hn : ∀ m ∈ N, m ∈ N') : G.LedOk N' d := by
  obtain ⟨lg, h1, h2⟩ := h
  exact ⟨lg, hn _ h1, h2⟩

theorem KnownOk.mono {N N' : List DMsg} {d : Known} (h : G.KnownOk N d) (hn : ∀ m ∈ N, m ∈ N') : G.KnownOk N' d := by
  obtain ⟨x, cfg, T, h1, h2⟩ := h
  exact ⟨x, cfg, T, h1.mono hn (Nat.le_refl _), h2⟩

theorem ProcOk.mono {g' : DState} {x : Proc} (h : G.ProcOk g p x) (hp : g'.node p = g.node p) (hn : ∀ m ∈ g.net, m ∈ g'.net) :
    G.ProcOk g' p x := by
  cases x with
  | down st => show G.Durable st (g'.node p) ∨ G.Blank p st (g'.node p); rw [hp]; exact h
  | up n a =>
    obtain ⟨s, h⟩ := h
    obtain ⟨s2, h1, h2, h3⟩ := h.path.rebase hp hn
    refine ⟨s2, h1, ?_, h.linv, fun m hm => (h.msgs m hm).mono h3, by rw [hp]; exact h.app, by rw [hp]; exact h.dur, h.base,
      by rw [hp]; exact h.cs, h.pend⟩
    rw [h2]
    exact h.rel.mono h3

/-- Changing one process, the persisted state moving along `p`'s path. -/
theorem Rel.set (h : G.Rel c g) {s : DState} (hp : PPath G.Q p g s) {x : Proc} (hx : G.ProcOk s p x) {net out led known}
    (hnet : ∀ m ∈ net, m ∈ c.net ∨ G.MsgOk s.net m) (hout : ∀ d ∈ out, d ∈ c.out ∨ G.OutOk s.net d)
    (hled : ∀ r ∈ led, r ∈ c.led ∨ G.LedOk s.net r) (hkn : ∀ r ∈ known, r ∈ c.known ∨ G.KnownOk s.net r) :
    G.Rel { c.set p x with net := net, out := out, led := led, known := known } s := by
  refine ⟨hp.run h.reach, fun q => ?_, fun m hm => ?_, fun d hd => ?_, fun r hr => ?_, fun r hr => ?_⟩
  · show G.ProcOk s q (if q = p then x else c.proc q)
    by_cases hq : q = p
    · subst hq; rw [if_pos rfl]; exact hx
    · rw [if_neg hq]; exact (h.proc q).mono (hp.other hq) hp.net
  · rcases hnet m hm with hm | hm
    · exact (h.net m hm).mono hp.net
    · exact hm
  · rcases hout d hd with hd | hd
    · exact (h.out d hd).mono hp.net
    · exact hd
  · rcases hled r hr with hr | hr
    · exact (h.led r hr).mono hp.net
    · exact hr
  · rcases hkn r hr with hr | hr
    · exact (h.known r hr).mono hp.net
    · exact hr

theorem Rel.set' (h : G.Rel c g) {x : Proc} (hx : G.ProcOk g p x) : G.Rel (c.set p x) g :=
  h.set .nil hx (fun _ h => Or.inl h) (fun _ h => Or.inl h) (fun _ h => Or.inl h) (fun _ h => Or.inl h)

/-! ## Calls and messages -/

theorem Up.sim {n n' : RawNode} {a : App} {s : DState} {env : Env} {im : Message} (hg : G.Run g) (h : G.Up g p n a s)
    (hsim : Sim env im n.raft n'.raft) (hvet : G.Vetted env im n.raft.core)
    (him : G.MsgOk s.net im) (hto : im.type = .voteResp ∨ im.type = .heartbeat → im.to = p) (hst : n'.raft.log.storage = n.raft.log.storage)
    (hprev : n'.prevHardSt = n.prevHardSt) : ∃ s', G.Up g p n' a s' := by
  obtain ⟨_, ms, hm, hpath⟩ := hsim
  obtain ⟨⟨s', p1, n1, m1⟩, hli⟩ := path_done hpath (h.path.run hg) h.rel him hvet h.linv hto
  have ha : n'.raft.log.applied = n.raft.log.applied := hpath.applied_eq
  refine ⟨s', h.path.trans p1, n1, hli, fun m hmm => ?_, h.app, by rw [hst, hprev]; exact h.dur, by rw [hst, ha]; exact h.base,
    h.cs, hpath.pend (msgOk_appWF (h.path.run hg) him) h.linv h.rel.kcom h.pend⟩
  rw [hm] at hmm
  rcases List.mem_append.1 hmm with h2 | h2
  · exact (h.msgs m h2).mono p1.net
  · exact m1 m h2

theorem Up.call {n n' : RawNode} {a : App} {s : DState} {env : Env} {x : Call} (hg : G.Run g) (h : G.Up g p n a s) (hx : x.Plain)
    (hvet : G.Vetted env (x.msg env n) n.raft.core)
    (hr : x.run env n = .ok n') (him : G.MsgOk s.net (x.msg env n))
    (hto : (x.msg env n).type = .voteResp ∨ (x.msg env n).type = .heartbeat → (x.msg env n).to = p) : ∃ s', G.Up g p n' a s' := by
  have hstamp : x.Stamped := by
    cases x with
    | step m =>
      intro hty
      exact (msgOk_term (h.path.run hg) him (by rcases hty with h | h | h <;> simp [Call.msg, h])).1
    | _ => trivial
  refine h.sim hg (Call.plain_sim hx hstamp hr) hvet him hto (Call.run_storage hstamp hr) (Call.run_prevHard (env := env) (c := x) ?_ hr)
  intro hx'; subst hx'; exact hx

/-! ## Starting -/

theorem start_up {env : Env} {cfg : Config} {st : Storage} {rng : Nat} {n : RawNode} (hd : G.Durable st (g.node p)) (hid : cfg.id = p)
    (hap : cfg.applied ≤ st.snapshot.metadata.index) (hn : RawNode.new env cfg st rng = .ok n) :
    ∃ s, G.Up g p n ⟨st.snapshot.metadata.index, st.snapshot.metadata.confState⟩ s := by
  obtain ⟨hf, _, hprev, _⟩ := RawNode.new_ok hn
  have hb : st.firstIndex - 1 = st.view.base := by rw [Storage.firstIndex_eq]; omega
  have hl : st.lastIndex = st.view.last := hd.wf.lastIndex_eq
  have hcom : n.raft.log.committed = G.L0.length + (g.node p).commit ∧ n.raft.log.committed ≤ st.view.last ∧ st.view.base ≤ n.raft.log.committed := by
    have hbl : st.view.base ≤ st.view.last := Nat.le_add_right _ _
    rcases hf.commit with ⟨h1, h2⟩ | ⟨h1, h2, h3⟩
    · have := hd.commit
      rw [h1] at this
      have hz : (({} : HardState).commit) = 0 := rfl
      omega
    · have := hd.commit
      omega
  have hsb := hd.snapBase
  have hsl := hd.snapLe
  have happ : n.raft.log.applied ≤ n.raft.log.committed ∧ st.view.base ≤ n.raft.log.applied ∧ n.raft.log.applied ≤ st.snapshot.metadata.index := by
    rcases hf.applied with ⟨h1, h2⟩ | ⟨h1, h2, h3⟩ <;> omega
  have hlog : n.raft.log = { RaftLog.new st n.raft.log.maxNextEntsSize with committed := n.raft.log.committed, applied := n.raft.log.applied } := by
    have h1 := hf.storage
    have h2 := hf.unstable
    cases hr : n.raft.log
    rw [hr] at h1 h2
    dsimp only at h1 h2
    subst h1 h2
    rfl
  have hstart : LStart n.raft.log :=
    ⟨st, n.raft.log.maxNextEntsSize, n.raft.log.committed, n.raft.log.applied, hd.wf, by rw [Storage.firstIndex_eq]; omega, happ.1, by omega,
      by rw [hcom.1]; exact hd.snapLe, hlog⟩
  have hview : n.raft.log.view = st.view := by
    rw [RaftLog.view_nosnap (by rw [hf.unstable]), hf.storage, hf.unstable]
    dsimp only
    rw [hl]
    unfold LogView.last
    rw [List.append_nil, List.take_of_length_le (by omega)]
  have hsn : n.raft.log.snapshot = st.snapshot := by
    unfold RaftLog.snapshot
    rw [hf.unstable, hf.storage]; rfl
  obtain ⟨cfg1, hat, hcs⟩ := hd.snap.conf
  obtain ⟨P0, hc, hpr⟩ := hf.conf
  rw [hcs] at hc
  obtain ⟨hcfg, hci⟩ := hat.restore hc
  refine ⟨_, .trans (.single (LStep.down)) (.single (LStep.conf (st.snapshot.metadata.index - G.L0.length) ?_ (Or.inl ?_))), ?_, hstart.inv, ?_, hd.snapLe, Or.inl ⟨by rw [hf.storage]; exact hd, ?_⟩, by rw [hf.storage]; exact happ.2.1, hd.snap.conf, ?_⟩
  · rw [upd_self]; dsimp only; omega
  · rw [upd_self]
  · rw [upd_self]
    rw [upd_self]
    refine ⟨hf.id.trans hid, by rw [← hid]; exact hf.id_ne, hf.term.trans hd.term, by rw [show n.raft.core.vote = _ from hf.vote]; exact hd.vote, ?_, hstart.inv.core, ?_, hcom.1, ?_,
      fun _ => hf.state, ?_, ?_, ?_, ?_, ?_,
      ?_, happ.2.2, by show _ ≤ n.raft.log.committed; rw [hcom.1]; exact hsl, ?_, ?_, fun h => by rw [show n.raft.core.state = n.raft.state from rfl, hf.state] at h; cases h⟩
    · show roleOf n.raft.state = .follower
      rw [hf.state]; rfl
    · show LogRel _ n.raft.log.view
      rw [hview]; exact hd.log
    · show G.Conf _ _ n.raft.trk.config
      rw [hcfg]; exact hat
    · show ConfInv n.raft.trk.config n.raft.trk.progress
      rw [hcfg, hpr]
      refine hci.rel (R := fun _ q q' => q'.isLearner = q.isLearner) ⟨fun id => ?_, fun hs => by rw [List.map_map]; exact hs⟩ fun _ _ _ h => h
      rw [AMap.find_map]
      cases h : P0.find id with
      | none => exact Or.inl ⟨rfl, rfl⟩
      | some q =>
        refine Or.inr ⟨q, _, rfl, rfl, ?_⟩
        unfold Raft.resetPr
        dsimp only
        split <;> rfl
    · intro h; rw [show n.raft.core.state = n.raft.state from rfl, hf.state] at h; cases h
    · intro h; rw [show n.raft.core.state = n.raft.state from rfl, hf.state] at h; cases h
    · show G.SnapOk _ n.raft.log.snapshot
      rw [hsn]; exact hd.snap
    · show G.SnapOk _ n.raft.log.storage.snapshot
      rw [hf.storage]; exact hd.snap
    · show st.snapshot.metadata.index - G.L0.length = max st.snapshot.metadata.index n.raft.log.view.base - _
      rw [hview]; omega
    · intro h; rw [show n.raft.core.state = n.raft.state from rfl, hf.state] at h; cases h
    · intro h; rw [show n.raft.core.state = n.raft.state from rfl, hf.state] at h; cases h
  · rw [hf.msgs]; intro m hm; cases hm
  · rw [hprev]
    show (⟨n.raft.term, n.raft.vote, n.raft.log.committed⟩ : HardState) = _
    rw [hf.term, hf.vote, hcom.1, hd.term, hf.storage]
  · intro s hs; rw [hf.unstable] at hs; cases hs

/-! ## Persisting -/

theorem Up.persist {n : RawNode} {a : App} {s : DState} {env : Env} {st : Storage} (hg : G.Run g) (h : G.Up g p n a s)
    (hst : n.raft.log.storage.save (readyOf env n) = .ok st) : G.Durable st (s.node p) ∧
      (if isEmptyHardState (readyOf env n).hardState then n.prevHardSt else (readyOf env n).hardState) =
        ⟨(s.node p).term, st.hardState.vote, G.L0.length + (s.node p).commit⟩ := by
  obtain ⟨st', h1, w, v, hsn, hhs⟩ := save_eq (env := env) h.linv
  rw [hst] at h1
  cases h1
  obtain ⟨k1, k2, k3⟩ := path_keep hg h.path
  have kt := h.path.term_le
  have hcur : n.raft.hardState = ⟨(s.node p).term, n.raft.vote, G.L0.length + (s.node p).commit⟩ := by
    show (⟨n.raft.term, n.raft.vote, n.raft.log.committed⟩ : HardState) = _
    rw [show n.raft.term = _ from h.rel.term, show n.raft.log.committed = _ from h.rel.commit]
  have hbase := h.linv.base_com
  have hcomm : n.raft.log.committed = _ := h.rel.commit
  have hbase' : n.raft.log.view.base ≤ G.L0.length + (s.node p).commit := by rw [← hcomm]; exact hbase
  have dur : ∀ hs : HardState, st.hardState = hs → hs.term = (s.node p).term → G.VoteOk hs.vote (s.node p) →
      max st.view.base hs.commit = G.L0.length + (s.node p).commit → G.Durable st (s.node p) := by
    intro hs e0 e1 e2 e3
    subst e0
    refine ⟨w, by rw [v]; exact h.rel.log, e1, e2, e3, ?_, ?_, ?_⟩
    · rw [hsn]
      have := h.rel.snap
      rw [show n.raft.core.log = n.raft.log from rfl] at this
      unfold RaftLog.snapshot at this
      cases hs : n.raft.log.unstable.snapshot with
      | none => rw [hs] at this; exact this
      | some x => rw [hs] at this; exact this
    · rw [hsn]
      cases hs : n.raft.log.unstable.snapshot with
      | none => have := h.linv.snap_com; rw [hcomm] at this; exact this
      | some x =>
        have hvb : n.raft.log.view.base = x.metadata.index := by rw [RaftLog.view_snap hs]
        simp only [Option.getD_some]; omega
    · rw [hsn, v]
      cases hs : n.raft.log.unstable.snapshot with
      | none =>
        have hvb : n.raft.log.view.base = n.raft.log.storage.view.base := by rw [RaftLog.view_nosnap hs]
        rw [hvb]
        rcases h.dur with ⟨hd, _⟩ | ⟨hd, _⟩
        · exact hd.snapBase
        · rw [hd.blank]; decide
      | some x =>
        have hvb : n.raft.log.view.base = x.metadata.index := by rw [RaftLog.view_snap hs]
        simp only [Option.getD_some]; omega
  have hrd : (readyOf env n).hardState = if n.raft.hardState = n.prevHardSt then {} else n.raft.hardState := rfl
  rw [hrd] at hhs ⊢
  by_cases he : n.raft.hardState = n.prevHardSt
  · rw [if_pos he] at hhs ⊢
    rw [if_pos (by decide)] at hhs ⊢
    rcases h.dur with ⟨hd, hp⟩ | ⟨hd, hp, _⟩
    rotate_left
    · rw [← he, hcur] at hp
      have : (s.node p).term = 0 := congrArg HardState.term hp
      have := hd.term
      omega
    rw [← he, hcur] at hp
    have hp' := hp
    simp only [HardState.mk.injEq] at hp
    obtain ⟨e1, e2, e3⟩ := hp
    refine ⟨?_, by rw [← he, hcur, hhs, ← e2]⟩
    have := hd.commit
    have hsb := hd.log.base_le
    refine dur _ hhs (by rw [hd.term, e1]) (by rw [← e2]; exact h.rel.vote) ?_
    rw [v]
    have hbm : n.raft.log.storage.view.base ≤ n.raft.log.view.base := by
      cases hs : n.raft.log.unstable.snapshot with
      | none => rw [RaftLog.view_nosnap hs]
      | some x =>
        have hvb : n.raft.log.view.base = x.metadata.index := by rw [RaftLog.view_snap hs]
        have h1 : n.raft.log.applied < x.metadata.index := (h.linv.pend x hs).1
        have h2 := h.base
        omega
    omega
  · rw [if_neg he] at hhs ⊢
    have hne : isEmptyHardState n.raft.hardState = false := by
      unfold isEmptyHardState
      refine decide_eq_false fun h0 => he ?_
      rw [h0] at hcur ⊢
      simp only [HardState.mk.injEq] at hcur
      obtain ⟨e1, e2, e3⟩ := hcur
      rcases h.dur with ⟨hd, hp⟩ | ⟨hd, hp, _⟩
      · have hv : n.raft.log.storage.hardState.vote = 0 := by
          rcases hd.vote with hv | ⟨hv, _⟩
          rotate_left
          · exact hv
          rw [hv]
          refine Decidable.byContradiction fun hv => ?_
          have h1 := k3 (by omega) hv
          rcases h.rel.vote with h2 | ⟨_, h2, _⟩
          · have h3 : n.raft.vote = (s.node p).vote := h2
            omega
          · omega
        rw [hp, hv, show (g.node p).term = 0 by omega, show G.L0.length + (g.node p).commit = 0 by omega]
      · exact hp.symm
    rw [hne] at hhs ⊢
    simp only [Bool.false_eq_true, if_false] at hhs ⊢
    refine ⟨?_, by rw [hhs]; exact hcur⟩
    refine dur _ hhs (by rw [hcur]) h.rel.vote ?_
    rw [hcur, v]; dsimp only; omega

theorem outOk_next {n : RawNode} {k : Nat} {s : DState} {env : Env} (hr : G.Run s) (hn : G.NodeRel p k s.net n.raft.core (s.node p))
    (hli : LInv n.raft.log) {e : Entry} (he : e ∈ nextOut env n.raft.log) : G.OutOk s.net ⟨p, n.raft.term, e⟩ := by
  obtain ⟨h1, h2, h3, h4⟩ := hli.nextOut_entry env he
  have hlog : LogRel (G.L0 ++ (s.node p).log) n.raft.log.view := hn.log
  have hcom : n.raft.log.committed = G.L0.length + (s.node p).commit := hn.commit
  have hterm : n.raft.term = (s.node p).term := hn.term
  rw [hlog.entry h1] at h4
  obtain ⟨_, hc1, hc⟩ := hr.inv.commitOk p
  refine ⟨by show 1 ≤ e.index; omega, (s.node p).log.take (s.node p).commit, ?_, by rw [hterm]; exact hc⟩
  show (G.L0 ++ _)[e.index - 1]? = some e
  by_cases hi : e.index ≤ G.L0.length
  · rw [List.getElem?_append_left (by omega)] at h4 ⊢
    exact h4
  · rw [List.getElem?_append_right (by omega)] at h4 ⊢
    rw [List.getElem?_take, if_pos (by omega)]
    exact h4

/-! ## Compaction and snapshots -/

theorem gterm_keep {s : DState} (hg : G.Run g) (hp : PPath G.Q p g s) {i : Nat} (hi : i ≤ G.L0.length + (g.node p).commit) :
    gterm (G.L0 ++ (s.node p).log) i = gterm (G.L0 ++ (g.node p).log) i := by
  obtain ⟨_, k2, _⟩ := path_keep hg hp
  have hc := (hg.inv.commitOk p).2.1
  have hl : (G.L0 ++ (g.node p).log.take (g.node p).commit).length = G.L0.length + (g.node p).commit := by
    rw [List.length_append, List.length_take]; omega
  have e1 := gterm_prefix ((append_prefix (a := G.L0)).2 k2) (i := i) (by omega)
  have e2 := gterm_prefix ((append_prefix (a := G.L0)).2 (List.take_prefix (g.node p).commit (g.node p).log)) (i := i) (by omega)
  rw [e1, e2]

theorem take_keep {s : DState} (hg : G.Run g) (hp : PPath G.Q p g s) {i : Nat} (hi : i ≤ (g.node p).commit) :
    (s.node p).log.take i = (g.node p).log.take i := by
  obtain ⟨_, ⟨t, ht⟩, _⟩ := path_keep hg hp
  have hc := (hg.inv.commitOk p).2.1
  rw [← ht, List.take_append_of_le_length (by rw [List.length_take]; omega), List.take_take, Nat.min_eq_left hi]

/-- The same node, its log represented differently. -/
theorem NodeRel.relog {N : List DMsg} {k k' : Nat} {c : Core} {a : DNode} {l : RaftLog} (h : G.NodeRel p k N c a) (hl : LCore l)
    (hlog : LogRel (G.L0 ++ a.log) l.view) (hcom : l.committed = c.log.committed) (hs : G.SnapOk a.log l.snapshot)
    (hss : G.SnapOk a.log l.storage.snapshot) (hmax : max k' l.view.base - G.L0.length = max k c.log.view.base - G.L0.length) (happ : l.applied ≤ k') (hk : k' ≤ l.committed) :
    G.NodeRel p k' N { c with log := l } a := by
  refine ⟨h.id, h.idne, h.term, h.vote, h.role, hl, hlog, by rw [← h.commit]; exact hcom, h.config, h.early, h.cinv, h.votes, fun hc v pr hp => ?_, hs, hss,
    by rw [h.pos]; exact hmax.symm, happ, hk, h.pre, h.pci, h.high⟩
  have : l.lastIndex = c.log.lastIndex := by
    rw [hl.wf.lastIndex_eq, h.lcore.wf.lastIndex_eq, ← hlog.len, ← h.log.len]
  show PrOk l.lastIndex pr ∧ _
  rw [this]
  exact h.prs hc v pr hp

theorem Up.compact {n : RawNode} {a : App} {s : DState} (h : G.Up g p n a s) {i : Nat} (hi : i ≤ n.raft.log.applied)
    (hsi : i ≤ n.raft.log.storage.snapshot.metadata.index) {st : Storage}
    {e : Option Err} (he : n.raft.log.storage.compact i = .ok (st, e)) : G.Up g p (n.withStorage st) a s := by
  have hli := h.linv
  rcases hli.compact_view hi he with rfl | ⟨c1, c2, c3, c4, c5, c6, c7⟩
  · exact h
  have hli' : LInv { n.raft.log with storage := st } := (hli.step' (env := ⟨fun _ => 0, fun _ => none, fun _ => none, fun _ => [], fun _ _ => 0, fun _ => []⟩)
    (o := []) (o' := []) (.compact i hi he)).1
  have hca := hli.app_com
  have hcl := hli.com_last
  have hr := h.rel
  have hka : n.raft.log.applied ≤ a.index := hr.app
  refine ⟨h.path, ?_, hli', h.msgs, h.app, ?_, ?_, h.cs, h.pend⟩
  · refine hr.relog hli'.core ?_ rfl ?_ (by show G.SnapOk _ st.snapshot; rw [c5]; exact hr.stsnap) ?_ hr.app hr.kcom
    · show LogRel _ ({ n.raft.log with storage := st } : RaftLog).view
      have hl : LogRel _ n.raft.log.view := hr.log
      rcases c7 with c7 | ⟨_, c8, c7⟩
      · rw [c7]; exact hl
      · rw [c7]; exact hl.compact (by omega) (by omega)
    · have := hr.snap
      show G.SnapOk _ ({ n.raft.log with storage := st } : RaftLog).snapshot
      rw [show n.raft.core.log = n.raft.log from rfl] at this
      unfold RaftLog.snapshot Storage.snapShot at this ⊢
      cases hs : n.raft.log.unstable.snapshot with
      | none => rw [hs] at this; dsimp only at this ⊢; rw [c5]; exact this
      | some x => rw [hs] at this; exact this
    · show max a.index ({ n.raft.log with storage := st } : RaftLog).view.base - _ = max a.index n.raft.log.view.base - _
      rcases c7 with c7 | ⟨_, c8, c7⟩
      · rw [c7]
      · have : ({ n.raft.log with storage := st } : RaftLog).view.base = i := by rw [c7]; rfl
        omega
  · left
    rcases h.dur with ⟨hd, hp⟩ | ⟨hd, _⟩
    rotate_left
    · rw [hd.blank] at hsi c1
      exact absurd (Nat.lt_of_lt_of_le c1 hsi) (by decide)
    refine ⟨?_, by show n.prevHardSt = ⟨_, st.hardState.vote, _⟩; rw [c6]; exact hp⟩
    show G.Durable st (g.node p)
    have ha := h.app
    have hb : st.view.base = i := by rw [c4]; rfl
    have := hd.commit
    refine ⟨c3, by rw [c4]; exact hd.log.compact (by omega) c2, by rw [c6]; exact hd.term, by rw [c6]; exact hd.vote, ?_, by rw [c5]; exact hd.snap,
      by rw [c5]; exact hd.snapLe, by rw [c5, hb]; exact hsi⟩
    rw [hb, c6]; omega
  · show st.view.base ≤ n.raft.log.applied
    rw [c4]; exact hi

theorem Up.createSnapshot {n : RawNode} {a : App} {s : DState} (hg : G.Run g) (h : G.Up g p n a s) {data : Bytes} {st : Storage}
    {e : Except Err Snapshot} (he : n.raft.log.storage.createSnapshot a.index (some a.conf) data = .ok (st, e)) :
    G.Up g p (n.withStorage st) a s := by
  have hli := h.linv
  have ha := h.app
  rcases h.dur with ⟨hd, hp⟩ | ⟨hd, _, hz⟩
  rotate_left
  · have : st = n.raft.log.storage := by
      unfold Storage.createSnapshot at he
      rw [if_pos (by omega)] at he
      simp only [Res.ok.injEq, Prod.mk.injEq] at he
      exact he.1.symm
    subst this
    exact h
  rcases Storage.createSnapshot_cases hd.wf he with rfl | ⟨c1, c2, c3, c4, c5, c6⟩
  · exact h
  have hv : st.view = n.raft.log.storage.view := by rw [c3]; rfl
  have hw : st.WF := by
    rw [c3]
    exact ⟨hd.wf.ne, hd.wf.contig⟩
  have hh : st.hardState = n.raft.log.storage.hardState := by rw [c3]
  have hview : ({ n.raft.log with storage := st } : RaftLog).view = n.raft.log.view := by
    cases hs : n.raft.log.unstable.snapshot with
    | some x => rw [RaftLog.view_snap hs, RaftLog.view_snap (l := { n.raft.log with storage := st }) hs]
    | none =>
      rw [RaftLog.view_nosnap hs, RaftLog.view_nosnap (l := { n.raft.log with storage := st }) hs]
      dsimp only
      rw [hv]
  have hr := h.rel
  have hkc : a.index ≤ n.raft.log.committed := hr.kcom
  have hli' : LInv { n.raft.log with storage := st } := by
    refine ⟨?_, hli.app_com, by rw [hview]; exact hli.com_last, by rw [hview]; exact hli.base_com, fun hs => by rw [hview]; exact hli.base_app hs, hli.app_off,
      fun x hx => ⟨(hli.pend x hx).1, ?_⟩, ?_⟩
    · have w := hli.wf
      exact ⟨hw, w.contig, w.snap, fun hs => by show st.view.base < _ ∧ _ ≤ st.view.last + 1; rw [hv]; exact w.nosnap hs,
        fun hs he => by show _ = st.view.last + 1; rw [hv]; exact w.tight hs he⟩
    · show st.snapshot.metadata.index < _
      rw [c4]; exact h.pend x hx
    · show st.snapshot.metadata.index ≤ _
      rw [c4]; exact hkc
  obtain ⟨cfg, hat, hcs⟩ := h.cs
  have hconf : st.snapshot.metadata.confState = csOf cfg := by rw [c6, ← hcs]; rfl
  obtain ⟨k1, k2, _⟩ := path_keep hg h.path
  have kc := (hg.inv.commitOk p).2.1
  have kl := k2.length_le
  rw [List.length_take] at kl
  have hsg : G.SnapOk (g.node p).log st.snapshot := by
    refine ⟨by rw [c4]; omega, ?_, cfg, by rw [c4]; exact hat, hconf⟩
    rw [c5, c4]
    exact hd.log.termAt c1
  have hss : G.SnapOk (s.node p).log st.snapshot := by
    refine ⟨by rw [c4]; omega, ?_, cfg, ?_, hconf⟩
    · rw [hsg.term, gterm_keep hg h.path (by rw [c4]; omega)]
    · rw [c4]; exact hat.congr (take_keep hg h.path (by omega))
  refine ⟨h.path, ?_, hli', h.msgs, h.app, ?_, ?_, h.cs, h.pend⟩
  · refine hr.relog hli'.core ?_ rfl ?_ hss ?_ hr.app hr.kcom
    · show LogRel _ ({ n.raft.log with storage := st } : RaftLog).view
      rw [hview]; exact hr.log
    · have := hr.snap
      show G.SnapOk _ ({ n.raft.log with storage := st } : RaftLog).snapshot
      rw [show n.raft.core.log = n.raft.log from rfl] at this
      unfold RaftLog.snapshot Storage.snapShot at this ⊢
      cases hs : n.raft.log.unstable.snapshot with
      | none => dsimp only; exact hss
      | some x => rw [hs] at this; exact this
    · show max a.index ({ n.raft.log with storage := st } : RaftLog).view.base - _ = max a.index n.raft.log.view.base - _
      rw [hview]
  · refine Or.inl ⟨?_, by show n.prevHardSt = ⟨_, st.hardState.vote, _⟩; rw [hh]; exact hp⟩
    show G.Durable st (g.node p)
    exact ⟨hw, by rw [hv]; exact hd.log, by rw [hh]; exact hd.term, by rw [hh]; exact hd.vote, by rw [hv, hh]; exact hd.commit, hsg, by rw [c4]; omega,
      by rw [hv, c4]; exact c1⟩
  · show st.view.base ≤ n.raft.log.applied
    rw [hv]; exact h.base

end MGen
end Craft.Dyn
