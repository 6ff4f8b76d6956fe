import Verif.Dyn.BootReads
import Verif.Dyn.LiveStep

/-! # In a bootstrapped cluster nothing aborts: the invariant behind C83 -/

namespace Craft.Dyn
open Spec Members Boot
open Cluster (gterm LogRel leadIn Hard)

/-- With faithful protobufs the empty change leaves a joint configuration. -/
theorem Faithful.autoOk {env : Env} (hE : Faithful env) : AutoOk env.conf := by
  intro cfg e hg ha ht hd
  have hw : Works cfg ({} : ConfChangeV2) := by
    unfold Works
    obtain ⟨prs, hi⟩ := hg.inv
    rw [if_pos (fun h0 => by have := (hi.not_joint h0).2; rw [ha] at this; cases this)]
    exact ⟨rfl, rfl⟩
  obtain ⟨cfg', h1⟩ := Works.next hw hg
  refine ⟨cfg', ?_⟩
  have hc : confOf env.conf e = some (.v2 {}) := by
    unfold confOf Env.conf
    rw [ht, hd, hE.empty]
    rfl
  unfold EStep
  rw [hc]
  exact h1

section
variable {env : Env} {peers : List (Nat × Bytes)} {K : Around}

/-- With faithful protobufs any peer list that fits will do. -/
theorem Faithful.peersOk (hE : Faithful env) (h1 : peers ≠ []) (h2 : ∀ q ∈ peers, q.1 ≠ 0 ∧ q.1 < 2 ^ 64 ∧ q.2.length < 2 ^ 30) :
    PeersOK env env.conf peers :=
  ⟨h1, fun q hq => (h2 q hq).1, fun q hq e ht hd => by
    unfold Env.conf
    rw [ht, hd]
    dsimp only
    rw [hE.exact1 _ ⟨(fun k h => by cases h), (h2 q hq).2.1, Nat.two_pow_pos 64, (h2 q hq).2.2⟩]; rfl⟩

/-- The cluster's abstract counterpart. -/
def lgen (hE : Faithful env) (h : PeersOK env env.conf peers) : MGen := bgenX h (st := True) fun _ => Faithful.autoOk hE

section
variable {hE : Faithful env} {h : PeersOK env env.conf peers}
theorem lgen_dec : (lgen hE h).dec = env.conf := rfl
theorem lgen_nil : (lgen hE h).L0 = [] := rfl
theorem lgen_strict : (lgen hE h).strict := trivial
theorem lgen_L0 {P : Entry → ConfChangeI → Prop} : ∀ e ∈ (lgen hE h).L0, ∀ cc, confOf (lgen hE h).dec e = some cc → P e cc := nofun
end

theorem lgen_works (hE : Faithful env) (h : PeersOK env env.conf peers) : (lgen hE h).EarlyWorks := by
  intro k e cfg cc he hearly hc c hcfg hi
  obtain ⟨j, _, rfl⟩ := hearly
  obtain ⟨h1, _, _, q, h4, h5⟩ := boot_get peers 1 k he
  have hq := List.mem_of_getElem? h4
  have hd := h.read q hq e h1 h5
  have hc' : confOf env.conf e = some cc := hc
  unfold confOf at hc'
  rw [if_neg (by rw [h1]; decide), hd] at hc'
  cases hc'
  obtain ⟨prs', h6⟩ := add_pc_ex (ctx := q.2) hcfg hi (h.ids q hq)
  exact ⟨_, h6⟩

/-! ## Bootstrapping returns -/

theorem bootApply_safe : ∀ (ps : List (Nat × Bytes)) {r : Raft} {l : List Nat}, (∀ q ∈ ps, q.1 ≠ 0) → r.state = .follower → r.trk.config = pc l →
    ConfInv r.trk.config r.trk.progress → Raft.Safe K env r → (RawNode.bootstrapApply env ps r).Sat (Raft.Safe K env)
  | [], r, l, _, _, _, _, hs => .ok hs
  | q :: ps, r, l, hq, hf, hc, hi, hs => by
    unfold RawNode.bootstrapApply
    obtain ⟨prs, hch⟩ := add_pc_ex (c := { tracker := r.trk, lastIndex := r.log.lastIndex }) (ctx := []) hc hi (hq q List.mem_cons_self)
    have hci := (add_pc (c := { tracker := r.trk, lastIndex := r.log.lastIndex }) (ctx := []) hc hi (hq q List.mem_cons_self) hch).2
    obtain ⟨lrn, h1⟩ := switchToConfig_not_leader (env := env) (r := r) (by rw [hf]; decide) (pc (l ++ [q.1])) prs
    have hap : r.applyConfChange env (ConfChangeI.v1 { type := .addNode, nodeId := q.1 }).asV2 = _ := (change_apply hch).trans h1
    rw [hap]
    simp only [Res.ok_bind]
    have hinf : ∀ sz : Nat, r.trk.maxInflight = sz → 0 < sz → sz ≤ 2 ^ 30 → ∀ id p, prs.find id = some p → InflOk sz p := by
      intro sz e0 e1 e2 id p hp
      obtain ⟨sz', f0, f1, f2, f3⟩ := hs.infl
      have : sz' = sz := by omega
      subst this
      refine change_infl (R := fun f => ∃ q, f.Rep sz' q) hch ⟨[], ?_⟩ (fun k p hp => f3 k p hp) id p hp
      show (Inflights.new r.trk.maxInflight).Rep _ _
      rw [f0]
      exact Inflights.rep_new sz' f1 f2
    exact bootApply_safe ps (fun x hx => hq x (List.mem_cons_of_mem _ hx)) hf rfl hci
      (Raft.NewPrs.safe (cfg := pc (l ++ [q.1])) hs ⟨hinf, (fun h => by rw [hf] at h; rcases h with h | h <;> cases h), fun h => by rw [hf] at h; cases h⟩)

theorem boot_entries_ne (h : peers ≠ []) : RawNode.bootstrapEntries env 1 peers ≠ [] := by
  intro h0
  have := boot_length (env := env) peers 1
  rw [h0] at this
  exact h (List.length_eq_zero_iff.1 this.symm)

/-- The log of a node that was just bootstrapped. -/
def bootLog (env : Env) (peers : List (Nat × Bytes)) (mx : Nat) : RaftLog :=
  { storage := {}, unstable := { offset := 1, entries := RawNode.bootstrapEntries env 1 peers },
    committed := (RawNode.bootstrapEntries env 1 peers).length, applied := 0, maxNextEntsSize := mx }

/-- `Bootstrap` on a new node with an empty disk returns. -/
theorem boot_safe (h1 : peers ≠ []) (h2 : ∀ q ∈ peers, q.1 ≠ 0) {cfg : Config} {rng : Nat} (hap : cfg.applied = 0) (hs : cfg.Sane {})
    (hmi : cfg.maxInflightMsgs ≤ 2 ^ 30) : ∃ n0 n, RawNode.new env cfg {} rng = .ok n0 ∧ n0.bootstrap env peers = .ok (n, none) ∧
      Raft.Safe K env n.raft := by
  have hres : ({} : Storage).Resumable {} :=
    ⟨blank_wf, Or.inl rfl, { config := {}, progress := [], maxInflight := 0 }, rfl, rfl, inv_empty, (by simp [Member]), Or.inr rfl⟩
  obtain ⟨n0, hn, _⟩ := C51_restart (env := env) rng hres hs
  obtain ⟨hf, _⟩ := RawNode.new_ok hn
  have hlog : n0.raft.log = RaftLog.new {} n0.raft.log.maxNextEntsSize := by
    have e1 := hf.storage
    have e2 := hf.unstable
    have e3 : n0.raft.log.committed = 0 := by
      rcases hf.commit with ⟨_, h⟩ | ⟨h, _⟩
      · exact h
      · exact h
    have e4 : n0.raft.log.applied = 0 := by
      rcases hf.applied with ⟨_, h⟩ | ⟨h, _⟩
      · exact h
      · rw [h, hap]
    cases hr : n0.raft.log
    rw [hr] at e1 e2 e3 e4
    dsimp only at e1 e2 e3 e4
    subst e1 e2 e3 e4
    rfl
  generalize hmx : n0.raft.log.maxNextEntsSize = mx at hlog
  have hstart : LStart (RaftLog.new {} mx) := ⟨{}, mx, 0, 0, blank_wf, Nat.le_refl 1, Nat.le_refl _, Nat.zero_le _, Nat.le_refl _, rfl⟩
  have hs0 : Raft.Safe K env n0.raft := MGen.new_safe hn (by rw [hlog]; exact hstart.inv) (by rw [hlog]; rfl) (Nat.le_refl 0) hmi
  have hs1 : Raft.Safe K env (n0.raft.becomeFollower env 1 0) := Raft.becomeFollower_safe hs0 fun h => absurd rfl h
  have hcore := Raft.becomeFollower_core (env := env) n0.raft 1 0
  have k1 : (n0.raft.becomeFollower env 1 0).log = n0.raft.log := congrArg Core.log hcore
  have k2 : (n0.raft.becomeFollower env 1 0).trk.config = n0.raft.trk.config := congrArg Core.config hcore
  have hcfg : n0.raft.trk.config = {} ∧ n0.raft.trk.progress = [] := by
    obtain ⟨P0, h3, h4⟩ := hf.conf
    have h5 : n0.raft.trk.config = {} ∧ P0 = [] := by
      have : (.ok ({}, []) : Except Err (TConfig × ProgressMap)) = .ok (n0.raft.trk.config, P0) := h3
      simp only [Except.ok.injEq, Prod.mk.injEq] at this
      exact ⟨this.1.symm, this.2.symm⟩
    exact ⟨h5.1, by rw [h4, h5.2]; rfl⟩
  have hprs : (n0.raft.becomeFollower env 1 0).trk.progress = [] := by
    show (n0.raft.reset env 1).trk.progress = []
    unfold Raft.reset Raft.resetRandomizedElectionTimeout
    dsimp only
    by_cases ht : n0.raft.term ≠ 1
    · rw [if_pos ht]; dsimp only; rw [hcfg.2]; rfl
    · exact absurd (show n0.raft.term ≠ 1 by rw [show n0.raft.term = 0 from hf.term]; decide) ht
  have hne := boot_entries_ne (env := env) h1
  have hc : Contig 1 (RawNode.bootstrapEntries env 1 peers) := boot_contig peers 1
  have happ : (RaftLog.new {} mx).append (RawNode.bootstrapEntries env 1 peers) =
      .ok { storage := {}, unstable := { offset := 1, entries := RawNode.bootstrapEntries env 1 peers }, committed := 0, applied := 0, maxNextEntsSize := mx } := by
    obtain ⟨e0, es, he⟩ := List.exists_cons_of_ne_nil hne
    rw [he] at hc ⊢
    have hi := (Contig.cons.1 hc).1
    show RaftLog.append { storage := {}, unstable := { offset := 1 }, committed := 0, applied := 0, maxNextEntsSize := mx } (e0 :: es) = _
    unfold RaftLog.append
    dsimp only
    rw [if_neg (Nat.not_lt_zero _)]
    unfold Unstable.truncateAndAppend
    dsimp only
    rw [if_pos (show e0.index = 1 + ([] : List Entry).length from hi)]
    rfl
  obtain ⟨hw0, hv0⟩ := hstart.inv.wf.appended (k := 1) hc hne (Nat.lt_succ_self 0) (Nat.le_refl 1)
  have hls : LSafe (bootLog env peers mx) := by
    have hv : (bootLog env peers mx).view = ⟨0, 0, RawNode.bootstrapEntries env 1 peers⟩ := hv0
    refine ⟨⟨⟨hw0.stor, hw0.contig, hw0.snap, hw0.nosnap, hw0.tight⟩, Nat.zero_le _, ?_, ?_, fun _ => ?_, Nat.lt_succ_self 0, nofun, Nat.zero_le _⟩, ?_, Nat.le_refl 0⟩
    · rw [hv]; exact Nat.le_of_eq (Nat.zero_add _).symm
    · rw [hv]; exact Nat.zero_le _
    · rw [hv]; exact Nat.le_refl 0
    · rw [hv]; rfl
  have hf1 : (n0.raft.becomeFollower env 1 0).state = .follower := rfl
  have hs2 := hs1.withLog (l := bootLog env peers mx) hls fun h => by rw [hf1] at h; cases h
  obtain ⟨r, hr, hs3⟩ := bootApply_safe peers (l := []) h2 (by exact hf1) (by show (n0.raft.becomeFollower env 1 0).trk.config = _; rw [k2, hcfg.1]; rfl)
    (by
      show ConfInv (n0.raft.becomeFollower env 1 0).trk.config (n0.raft.becomeFollower env 1 0).trk.progress
      rw [k2, hcfg.1, hprs]; exact inv_empty) hs2
  refine ⟨n0, { n0 with raft := r, prevHardSt := {} }, hn, ?_, hs3⟩
  unfold RawNode.bootstrap
  rw [if_neg h1]
  dsimp only
  rw [k1, hlog, happ]
  simp only [Res.ok_bind]
  have hr : RawNode.bootstrapApply env peers { n0.raft.becomeFollower env 1 0 with log := bootLog env peers mx } = .ok r := hr
  unfold bootLog at hr
  dsimp only at hr
  rw [hr]
  rfl

/-! ## The invariant -/

theorem boot_act_ok (hE : Faithful env) (h : PeersOK env env.conf peers) {c : State} (hL : (lgen hE h).LiveOk env K c) {a : Boot.Act}
    (ha : a.Allowed peers c) (hw : a.Wise env c) : ∃ c', a.run env env.conf peers c = .ok c' ∧ ∃ K', (lgen hE h).LiveOk env K' c' := by
  cases a with
  | plain a =>
    obtain ⟨c', h1, h2⟩ := MGen.act_ok (G := lgen hE h) hE lgen_dec lgen_strict (lgen_works hE h) lgen_L0 hL ha.1 (fun p cfg rng hx hf => ha.2 p cfg rng hx hf) hw
    rw [lgen_dec] at h1
    exact ⟨c', h1, h2⟩
  | boot p cfg rng =>
    obtain ⟨h1, h2, h3, h4, h5, h6⟩ := ha
    obtain ⟨n0, n, hn, hb, hs⟩ := boot_safe (env := env) (K := K) (rng := rng) h.some h.ids h4 h5 h6
    obtain ⟨g, hg⟩ := hL.rel
    have hrel := boot_rel h hg h1 h2 h3 h4 hn hb
    obtain ⟨_, _, b3, _, _, _, _, _, _, mx, hl⟩ := bootstrap_ok (fun _ => Faithful.autoOk hE) h h4 hn hb (st := True)
    refine ⟨_, ?_, K, hL.set (x := .up n ⟨0, {}⟩) (fun n' a' he => ?_) (fun st he => by cases he) ⟨g, hrel⟩⟩
    · simp only [Boot.Act.run]
      rw [hn]
      simp only [Res.ok_bind, hb]; rfl
    · cases he
      exact ⟨hs, (by rw [hl]; exact Or.inl rfl), .follower b3⟩

theorem _root_.Craft.Boot.Live.ok (hE : Faithful env) (h : PeersOK env env.conf peers) {c : State} (hl : Boot.Live env peers c) :
    ∃ K, (lgen hE h).LiveOk env K c := by
  induction hl with
  | init =>
    obtain ⟨g, hg⟩ := boot_init h (st := True) fun _ => Faithful.autoOk hE
    refine ⟨⟨leadIn [], ?_, 0, 0⟩, ⟨g, hg⟩, fun _ _ => Iff.rfl, (by rw [lgen_nil]; rfl), (by rw [lgen_nil]; rfl), (fun p n a h => by cases h), ?_, (fun m hm => by cases hm)⟩
    · rintro T a b ⟨m, hm, _⟩; cases hm
    · intro p st hp; cases hp; exact Or.inl rfl
  | act a _ ha hw hr ih =>
    obtain ⟨K, h2⟩ := ih
    obtain ⟨c', e1, e2⟩ := boot_act_ok hE h h2 ha hw
    rw [hr] at e1
    cases e1
    exact e2

end
end Craft.Dyn
