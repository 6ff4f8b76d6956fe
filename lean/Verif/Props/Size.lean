import Verif.Spec.Size
import Verif.Props.Hist
import Verif.Props.Util

/-! # C95: the configured size limits are respected -/

namespace Craft
open Spec

/-! ## Cut batches fit -/

theorem limitSizeLoop_fits (sz : Entry → Nat) (mx : Nat) (hm : mx < 2 ^ 63) : ∀ (l : List Entry) (n : Nat), n < 2 ^ 63 →
    (∀ e ∈ limitSizeLoop sz mx n l, sz e < 2 ^ 63) →
    limitSizeLoop sz mx n l = [] ∨ n + ((limitSizeLoop sz mx n l).map sz).sum ≤ mx := by
  intro l
  induction l with
  | nil => intro n _ _; exact Or.inl rfl
  | cons e l ih =>
    intro n hn he
    unfold limitSizeLoop at he ⊢
    by_cases c : (n + sz e) % 2 ^ 64 > mx
    · rw [if_pos c]; exact Or.inl rfl
    · rw [if_neg c] at he ⊢
      have h1 := he e List.mem_cons_self
      have h2 : (n + sz e) % 2 ^ 64 = n + sz e := Nat.mod_eq_of_lt (by omega)
      rw [h2] at he c ⊢
      right
      rw [List.map_cons, List.sum_cons]
      rcases ih (n + sz e) (by omega) (fun x hx => he x (List.mem_cons_of_mem _ hx)) with h | h
      · rw [h]; simp; omega
      · omega

theorem limitSize_fits (env : Env) (l : List Entry) (mx : Nat) : Fits env mx (limitSize env.entSize l mx) := by
  intro hm he
  cases l with
  | nil => exact Or.inl (Nat.zero_le _)
  | cons e l =>
    unfold limitSize at he ⊢
    dsimp only at he ⊢
    have h1 := he e List.mem_cons_self
    have h2 : env.entSize e % 2 ^ 64 = env.entSize e := Nat.mod_eq_of_lt (by omega)
    rw [h2] at he ⊢
    rcases limitSizeLoop_fits env.entSize mx hm l _ h1 (fun x hx => he x (List.mem_cons_of_mem _ hx)) with h | h
    · left; rw [h]; simp
    · right; rw [List.map_cons, List.sum_cons]; exact h

theorem fits_nil (env : Env) (mx : Nat) : Fits env mx [] := fun _ _ => Or.inl (Nat.zero_le _)

theorem RaftLog.slice_fits {env : Env} {l : RaftLog} {lo hi mx : Nat} {es : List Entry} (h : l.slice env lo hi mx = .ok (.ok es)) :
    Fits env mx es := by
  unfold RaftLog.slice at h
  obtain ⟨o, _, h⟩ := Res.bind_eq_ok.1 h
  cases o with
  | some e => cases h
  | none =>
    dsimp only at h
    split at h
    · cases h; exact fits_nil env mx
    split at h
    · obtain ⟨st, h1, h⟩ := Res.bind_eq_ok.1 h
      cases st with
      | error e => cases e <;> cases h
      | ok st =>
        have hst : Fits env mx st := by
          unfold Storage.entries at h1
          split at h1
          · cases h1
          split at h1
          · cases h1
          split at h1
          · cases h1
          split at h1
          · cases h1
          · cases h1; exact limitSize_fits _ _ _
        obtain ⟨b, hb, h⟩ := Res.bind_eq_ok.1 h
        cases hb
        generalize decide (st.length < min hi l.unstable.offset - lo) = b at h
        cases b with
        | true => cases h; exact hst
        | false =>
          dsimp only at h
          split at h
          · obtain ⟨us, _, h⟩ := Res.bind_eq_ok.1 h
            cases h; exact limitSize_fits _ _ _
          · cases h; exact limitSize_fits _ _ _
    · obtain ⟨b, hb, h⟩ := Res.bind_eq_ok.1 h
      cases hb
      dsimp only at h
      split at h
      · obtain ⟨us, _, h⟩ := Res.bind_eq_ok.1 h
        cases h; exact limitSize_fits _ _ _
      · cases h; exact limitSize_fits _ _ _

theorem RaftLog.entries_fits {env : Env} {l : RaftLog} {i mx : Nat} {es : List Entry} (h : l.entries env i mx = .ok (.ok es)) :
    Fits env mx es := by
  unfold RaftLog.entries at h
  split at h
  · cases h; exact fits_nil env mx
  · exact RaftLog.slice_fits h

theorem RaftLog.nextEnts_fits {env : Env} {l : RaftLog} {es : List Entry} (h : l.nextEnts env = .ok es) :
    Fits env l.maxNextEntsSize es := by
  unfold RaftLog.nextEnts at h
  dsimp only at h
  split at h
  · obtain ⟨x, h1, h⟩ := Res.bind_eq_ok.1 h
    cases x with
    | error e => cases h
    | ok xs => cases h; exact RaftLog.slice_fits h1
  · cases h; exact fits_nil env _

/-! ## The limits stay as configured -/

theorem RaftLog.append_next {l l' : RaftLog} {es : List Entry} (h : l.append es = .ok l') : l'.maxNextEntsSize = l.maxNextEntsSize := by
  unfold RaftLog.append at h
  split at h
  · cases h; rfl
  · dsimp only at h
    split at h
    · cases h
    · obtain ⟨u, _, h⟩ := Res.bind_eq_ok.1 h
      cases h; rfl

theorem RaftLog.commitTo_next {l l' : RaftLog} {i : Nat} (h : l.commitTo i = .ok l') : l'.maxNextEntsSize = l.maxNextEntsSize := by
  rw [RaftLog.commitTo_shape h]

theorem RaftLog.maybeAppend_next {l l' : RaftLog} {i t c : Nat} {es : List Entry} {res : Option Nat}
    (h : l.maybeAppend i t c es = .ok (l', res)) : l'.maxNextEntsSize = l.maxNextEntsSize := by
  unfold RaftLog.maybeAppend at h
  obtain ⟨m, _, h⟩ := Res.bind_eq_ok.1 h
  cases m with
  | false =>
    simp only [Bool.false_eq_true, if_false, Res.pure_eq, Res.ok.injEq, Prod.mk.injEq] at h
    rw [h.1]
  | true =>
    simp only [if_true] at h
    obtain ⟨ci, _, h⟩ := Res.bind_eq_ok.1 h
    have fin : ∀ {l1 : RaftLog}, (do let l ← l1.commitTo (min c (i + es.length)); pure (l, some (i + es.length))) = Res.ok (l', res) →
        l'.maxNextEntsSize = l1.maxNextEntsSize := by
      intro l1 h
      obtain ⟨l2, h2, h⟩ := Res.bind_eq_ok.1 h
      simp only [Res.pure_eq, Res.ok.injEq, Prod.mk.injEq] at h
      rw [← h.1, RaftLog.commitTo_next h2]
    split at h
    · exact fin h
    split at h
    · cases h
    split at h
    · cases h
    · obtain ⟨l1, h1, h⟩ := Res.bind_eq_ok.1 h
      rw [fin h, RaftLog.append_next h1]

theorem NStep.limits {env : Env} {im : Message} {c c' : Core} {ms : List Message} (h : NStep env im c ms c') :
    c'.log.maxNextEntsSize = c.log.maxNextEntsSize ∧ c'.maxMsg = c.maxMsg ∧
    ∀ m ∈ ms, m.type = .app → Fits env c.maxMsg m.entries := by
  cases h with
  | applied i l h => exact ⟨by rw [(Raft.appliedTo_log h).1], rfl, nofun⟩
  | stable i t l h => exact ⟨by rw [(RaftLog.stableTo_shape h)], rfl, nofun⟩
  | stableSnap i => exact ⟨rfl, rfl, nofun⟩
  | reduce es => exact ⟨rfl, rfl, nofun⟩
  | handed => exact ⟨rfl, rfl, nofun⟩
  | core h =>
    cases h with
    | emit h =>
      refine ⟨rfl, rfl, fun m hm ht => ?_⟩
      rw [List.mem_singleton] at hm
      subst hm
      unfold Emit at h
      rw [ht] at h
      obtain ⟨_, _, _, _, _, p, mx, h⟩ := h
      obtain ⟨_, _, _, _, he, rfl⟩ := h
      exact RaftLog.entries_fits he
    | append es l p pci _ h _ _ => exact ⟨RaftLog.append_next h, rfl, nofun⟩
    | commit l _ h => exact ⟨by rw [(RaftLog.maybeCommit_shape h).1], rfl, nofun⟩
    | grant => exact ⟨rfl, rfl, fun m hm ht => by rw [List.mem_singleton] at hm; subst hm; cases ht⟩
    | recvApp l last _ _ _ _ h =>
      exact ⟨RaftLog.maybeAppend_next h, rfl, fun m hm ht => by rw [List.mem_singleton] at hm; subst hm; cases ht⟩
    | recvHeartbeat l _ _ _ h =>
      exact ⟨RaftLog.commitTo_next h, rfl, fun m hm ht => by rw [List.mem_singleton] at hm; subst hm; cases ht⟩
    | recvSnapCommit l _ _ _ _ _ h => exact ⟨RaftLog.commitTo_next h, rfl, nofun⟩
    | _ => exact ⟨rfl, rfl, nofun⟩

theorem NPath.limits {env : Env} {im : Message} {c c' : Core} {ms : List Message} (h : NPath env im c ms c') :
    c'.log.maxNextEntsSize = c.log.maxNextEntsSize ∧ c'.maxMsg = c.maxMsg ∧
    ∀ m ∈ ms, m.type = .app → Fits env c.maxMsg m.entries := by
  induction h with
  | nil => exact ⟨rfl, rfl, nofun⟩
  | cons hs _ ih =>
    obtain ⟨a1, a2, a3⟩ := hs.limits
    obtain ⟨b1, b2, b3⟩ := ih
    refine ⟨b1.trans a1, b2.trans a2, fun m hm ht => ?_⟩
    rcases List.mem_append.1 hm with hm | hm
    · exact a3 m hm ht
    · rw [← a2]; exact b3 m hm ht

/-- The limits of the node, and what it has ready to be sent. -/
structure Limits (env : Env) (cfg : Config) (n : RawNode) : Prop where
  msg : n.raft.maxMsgSize = cfg.maxSizePerMsg
  next : n.raft.log.maxNextEntsSize = cfg.readyLimit
  out : ∀ m ∈ n.raft.msgs, m.type = .app → Fits env cfg.maxSizePerMsg m.entries

theorem Call.limits {env : Env} {cfg : Config} {c : Call} {n n' : RawNode} (hs : c.Stamped) (h : c.run env n = .ok n')
    (hl : Limits env cfg n) : Limits env cfg n' := by
  obtain ⟨_, tc, P, _, ms, hm, hp⟩ := Call.run_path hs h
  obtain ⟨a1, a2, a3⟩ := hp.limits
  refine ⟨a2.trans hl.msg, a1.trans hl.next, fun m hx ht => ?_⟩
  rw [hm] at hx
  rcases List.mem_append.1 hx with hx | hx
  · split at hx
    · cases hx
    · exact hl.out m hx ht
  · have := a3 m hx ht
    rwa [show ({ n.raft.core with config := tc, progress := P } : Core).maxMsg = cfg.maxSizePerMsg from hl.msg] at this

theorem Config.validate_limits {c c' : Config} (h : c.validate = some c') :
    c'.maxSizePerMsg = c.maxSizePerMsg ∧ c'.maxCommittedSizePerReady = c.readyLimit := by
  unfold Config.validate at h
  unfold Config.readyLimit
  by_cases h1 : c.id = 0
  · rw [if_pos h1] at h; cases h
  rw [if_neg h1] at h
  by_cases h2 : c.heartbeatTick ≤ 0
  · rw [if_pos h2] at h; cases h
  rw [if_neg h2] at h
  by_cases h3 : c.electionTick ≤ c.heartbeatTick
  · rw [if_pos h3] at h; cases h
  rw [if_neg h3] at h
  dsimp only at h
  split at h <;> split at h <;> split at h <;> first | (cases h; done) | skip
  all_goals
    split at h
    · cases h
    · cases h
      simp_all

theorem Raft.new_limits {env : Env} {c : Config} {st : Storage} {rng : Nat} {r : Raft} (h : Raft.new env c st rng = .ok r) :
    r.maxMsgSize = c.maxSizePerMsg ∧ r.log.maxNextEntsSize = c.readyLimit := by
  unfold Raft.new at h
  split at h
  · cases h
  next c' hv =>
  obtain ⟨v1, v2⟩ := Config.validate_limits hv
  dsimp only at h
  split at h
  · cases h
  next cfg prs hr =>
  obtain ⟨⟨r1, cs2⟩, h1, h⟩ := Res.bind_eq_ok.1 h
  have e1 := switchToConfig_follower (by simp) h1
  dsimp only at h
  split at h
  · cases h
  obtain ⟨r2, h2, h⟩ := Res.bind_eq_ok.1 h
  obtain ⟨r3, h3, h⟩ := Res.bind_eq_ok.1 h
  split at h
  · cases h
  obtain ⟨lt, _, h⟩ := Res.bind_eq_ok.1 h
  simp only [Res.pure_eq, Res.ok.injEq] at h
  generalize r1.isLearner = lrn at e1
  have x1 : r1.maxMsgSize = c.maxSizePerMsg ∧ r1.log.maxNextEntsSize = c.readyLimit := by
    rw [e1]; exact ⟨v1, v2⟩
  have x2 : r2.maxMsgSize = r1.maxMsgSize ∧ r2.log.maxNextEntsSize = r1.log.maxNextEntsSize := by
    unfold newState at h2
    split at h2
    · cases h2; exact ⟨rfl, rfl⟩
    · unfold loadState at h2
      split at h2
      · cases h2
      · simp only [Res.ok.injEq] at h2
        subst h2; exact ⟨rfl, rfl⟩
  have x3 : r3.maxMsgSize = r2.maxMsgSize ∧ r3.log.maxNextEntsSize = r2.log.maxNextEntsSize := by
    unfold newApplied at h3
    split at h3
    · obtain ⟨l', h4, h3⟩ := Res.bind_eq_ok.1 h3
      cases h3
      exact ⟨rfl, by rw [(appliedTo_log h4).1]⟩
    · cases h3; exact ⟨rfl, rfl⟩
  have hc := becomeFollower_core (env := env) r3 r3.term 0
  rw [h] at hc
  constructor
  · have := congrArg Core.maxMsg hc
    exact (this.trans x3.1).trans (x2.1.trans x1.1)
  · have := congrArg (fun c : Core => c.log.maxNextEntsSize) hc
    exact (this.trans x3.2).trans (x2.2.trans x1.2)

theorem Configured.limits {env : Env} {cfg : Config} {n : RawNode} (h : Configured env cfg n) : Limits env cfg n := by
  have hnew : ∀ {st rng n}, RawNode.new env cfg st rng = .ok n → Limits env cfg n := by
    intro st rng n h
    have hm := (RawNode.new_ok h).1.msgs
    unfold RawNode.new at h
    obtain ⟨r, h1, h⟩ := Res.bind_eq_ok.1 h
    cases h
    exact ⟨(Raft.new_limits h1).1, (Raft.new_limits h1).2, fun m hx => by rw [hm] at hx; cases hx⟩
  induction h with
  | new st rng h => exact hnew h
  | @boot st rng peers n0 n h0 h =>
    have l0 := hnew h0
    have hm := (RawNode.new_ok h0).1.msgs
    refine RawNode.bootstrap_inv (Limits env cfg) h (fun l k es hl => ?_) fun cc a b h p => Call.limits (c := .applyConfChange cc) trivial h p
    refine ⟨?_, ?_, ?_⟩
    · exact (congrArg Consts.maxMsgSize (n0.founder_keep env l k).1 :).trans l0.msg
    · exact ((RaftLog.append_next hl).trans (congrArg (fun c : Core => c.log.maxNextEntsSize) (Raft.becomeFollower_core (env := env) n0.raft 1 0))).trans l0.next
    · have hm' : (n0.founder env l k).raft.msgs = [] := (Raft.reset_msgs (env := env) n0.raft 1).trans hm
      rw [hm']; intro m hx; cases hx
  | call c _ hs h ih => exact Call.limits hs h ih
  | disk st _ ih => exact ⟨ih.msg, ih.next, ih.out⟩

/-- C95. While a node runs with a configuration, every append it hands out carries entries of no more than `max_size_per_msg` in
all, and every Ready hands no more than the Ready limit to the state machine, unless it is a single entry. -/
theorem C95_size_limits {env : Env} {cfg : Config} {n n' : RawNode} {rd : Ready} (h : Configured env cfg n)
    (hr : n.getReady env = .ok (n', rd)) :
    (∀ m ∈ rd.messages, m.type = .app → Fits env cfg.maxSizePerMsg m.entries) ∧ Fits env cfg.readyLimit rd.committedEntries := by
  have hl := h.limits
  obtain ⟨es, he, rfl⟩ := readyWithoutAccept_ok (getReady_ok hr).1
  refine ⟨hl.out, ?_⟩
  have := RaftLog.nextEnts_fits he
  rwa [hl.next] at this

namespace Demo

/-- The node of the examples with a limit of 4 bytes per message and 2 per Ready. -/
def smallCfg : Config := { cfg 1 with maxSizePerMsg := 4, maxCommittedSizePerReady := 2 }

/-- A new node, after the calls `cs`. -/
def smallRun (cs : List Call) : Res RawNode := do
  let n ← RawNode.new env smallCfg store 0
  cs.foldlM (fun n c => c.run env n) n

theorem small_configured {cs : List Call} {n : RawNode} (hs : ∀ c ∈ cs, c.Stamped) (h : smallRun cs = .ok n) : Configured env smallCfg n := by
  obtain ⟨n0, h0, h⟩ := Res.bind_eq_ok.1 h
  have key : ∀ (cs : List Call) (n0 : RawNode), (∀ c ∈ cs, c.Stamped) → Configured env smallCfg n0 →
      cs.foldlM (fun n c => c.run env n) n0 = .ok n → Configured env smallCfg n := by
    intro cs
    induction cs with
    | nil => intro n0 _ h e; cases e; exact h
    | cons c cs ih =>
      intro n0 hs h e
      rw [List.foldlM_cons] at e
      obtain ⟨a, h1, h2⟩ := Res.bind_eq_ok.1 e
      exact ih a (fun x hx => hs x (List.mem_cons_of_mem _ hx)) (.call c h (hs c List.mem_cons_self) h1) h2
  exact key cs n0 hs (.new store 0 h0) h

/-- A leader with three proposals of two bytes each; then node 2 has the empty entry, then everything. -/
def busy : List Call := elect ++ [.propose [1], .propose [2], .propose [3], .getReady,
  .step { type := .appResp, src := 2, «to» := 1, term := 1, index := 1 }]

def busier : List Call := busy ++ [.step { type := .appResp, src := 2, «to» := 1, term := 1, index := 4 }]

/-- Sizes of the appends to node 2 in the next Ready, and the indices of the entries to apply. -/
def shown (cs : List Call) : Option (List (List Nat) × List Nat) :=
  match smallRun cs with
  | .ok n =>
    match n.getReady env with
    | .ok (_, rd) => some ((rd.messages.filter fun m => m.type == .app && m.to == 2).map (fun m => m.entries.map env.entSize),
        rd.committedEntries.map (fun e => e.index))
    | _ => none
  | _ => none

/-- The three entries go to node 2 in two messages, of two and of one entry; of the four committed entries a Ready hands out one. -/
example : shown busy = some ([[2, 2], [2]], [1]) ∧ shown busier = some ([[2, 2], [2], []], [1]) := by decide +kernel

example {n : RawNode} (h : smallRun busier = .ok n) : Configured env smallCfg n := by
  refine small_configured ?_ h
  intro c hc
  simp only [busier, busy, elect, List.cons_append, List.nil_append, List.mem_cons, List.not_mem_nil, or_false] at hc
  rcases hc with rfl | rfl | rfl | rfl | rfl | rfl | rfl | rfl <;> first | trivial | (intro h; rcases h with h | h | h <;> cases h)

end Demo

end Craft
