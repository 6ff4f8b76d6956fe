import Verif.Node.New

/-! # Histories of one node: what every step keeps -/

namespace Craft

/-- The pieces of `handleReady`. -/
theorem RawNode.handleReady_ok {env : Env} {n n' : RawNode} {ccs : List ConfChangeI} {rd : Ready} (h : n.handleReady env ccs = .ok (n', rd)) :
    ∃ n1 st n2, n.getReady env = .ok (n1, rd) ∧ n1.raft.log.storage.save rd = .ok st ∧
      (n1.withStorage st).applyConfChanges env ccs = .ok n2 ∧ n2.advance = .ok n' := by
  unfold RawNode.handleReady at h
  obtain ⟨⟨n1, rd1⟩, h1, h⟩ := Res.bind_eq_ok.1 h
  obtain ⟨n2, h2, h⟩ := Res.bind_eq_ok.1 h
  obtain ⟨n3, h3, h⟩ := Res.bind_eq_ok.1 h
  simp only [Res.pure_eq, Res.ok.injEq, Prod.mk.injEq] at h
  obtain ⟨rfl, rfl⟩ := h
  unfold RawNode.takeReady at h1
  obtain ⟨⟨n0, rd0⟩, h0, h1⟩ := Res.bind_eq_ok.1 h1
  obtain ⟨st, hst, h1⟩ := Res.bind_eq_ok.1 h1
  simp only [Res.pure_eq, Res.ok.injEq, Prod.mk.injEq] at h1
  obtain ⟨rfl, rfl⟩ := h1
  exact ⟨n0, st, n2, h0, hst, h2, h3⟩

theorem RawNode.withStorage_keep (n : RawNode) (st : Storage) : Keep n.raft (n.withStorage st).raft := .of rfl rfl

theorem RawNode.applyConfChanges_keep {env : Env} : ∀ (ccs : List ConfChangeI) {n n' : RawNode},
    RawNode.applyConfChanges env ccs n = .ok n' → Keep n.raft n'.raft
  | [], n, n', h => by
    cases h; exact .refl
  | cc :: ccs, n, n', h => by
    unfold RawNode.applyConfChanges at h
    obtain ⟨⟨n1, cs⟩, h1, h⟩ := Res.bind_eq_ok.1 h
    have hr : (Call.applyConfChange cc).run env n = .ok n1 := by
      show (do let (n, _) ← n.applyConfChange env cc; pure n) = _
      rw [h1]; rfl
    exact ((Call.run_path (c := .applyConfChange cc) trivial hr).1).trans (applyConfChanges_keep ccs h)

theorem RawNode.getReady_run {env : Env} {n n' : RawNode} {rd : Ready} (h : n.getReady env = .ok (n', rd)) :
    Call.getReady.run env n = .ok n' := by
  show (do let (n, _) ← n.getReady env; pure n) = _
  rw [h]; rfl

theorem RawNode.handleReady_keep {env : Env} {n n' : RawNode} {ccs : List ConfChangeI} {rd : Ready} (h : n.handleReady env ccs = .ok (n', rd)) :
    Keep n.raft n'.raft := by
  obtain ⟨n1, st, n2, h1, _, h2, h3⟩ := RawNode.handleReady_ok h
  have k1 := (Call.run_path (c := .getReady) trivial (RawNode.getReady_run h1)).1
  have k3 := (Call.run_path (env := env) (c := .advance) (n := n2) trivial h3).1
  exact k1.trans ((RawNode.withStorage_keep n1 st).trans ((RawNode.applyConfChanges_keep ccs h2).trans k3))

theorem NodeStep.keep {env : Env} {x y : NodeHist} (h : NodeStep env x y) : Keep x.node.raft y.node.raft := by
  cases h with
  | call c _ hs _ h => exact (Call.run_path hs h).1
  | ready ccs h => exact RawNode.handleReady_keep h
  | compact i _ => exact RawNode.withStorage_keep _ _
  | createSnapshot i cs data _ => exact RawNode.withStorage_keep _ _

theorem RawNode.new_ok {env : Env} {c : Config} {st : Storage} {rng : Nat} {n : RawNode} (h : RawNode.new env c st rng = .ok n) :
    Fresh c st n.raft ∧ n.prevSoftSt = n.raft.softState ∧ n.prevHardSt = n.raft.hardState ∧ n.ready = none := by
  unfold RawNode.new at h
  obtain ⟨r, h1, h⟩ := Res.bind_eq_ok.1 h
  simp only [Res.pure_eq, Res.ok.injEq] at h
  subst h
  exact ⟨Raft.new_fresh h1, rfl, rfl, rfl⟩

/-- A node that `Bootstrap` has given the log `l` with `k` committed entries (`/repo/src/rawnode.cc` 72-101), before it applies them. -/
def RawNode.founder (env : Env) (n : RawNode) (l : RaftLog) (k : Nat) : RawNode :=
  { n with raft := { n.raft.becomeFollower env 1 0 with log := { l with committed := k } }, prevHardSt := {} }

theorem RawNode.founder_keep (env : Env) (n : RawNode) (l : RaftLog) (k : Nat) : Keep n.raft (n.founder env l k).raft :=
  ((Raft.reset_keep (env := env) n.raft 1).trans (.of rfl rfl)).trans (.of rfl rfl)

/-- What holds of a founder, and is kept by `ApplyConfChange`, holds after `Bootstrap`. -/
theorem RawNode.bootstrap_inv {env : Env} {n0 n : RawNode} {peers : List (Nat × Bytes)} (P : RawNode → Prop)
    (h : n0.bootstrap env peers = .ok (n, none))
    (h0 : ∀ l k es, (n0.raft.becomeFollower env 1 0).log.append es = .ok l → P (n0.founder env l k))
    (hcc : ∀ cc a b, (Call.applyConfChange cc).run env a = .ok b → P a → P b) : P n := by
  unfold RawNode.bootstrap at h
  split at h
  · cases h
  obtain ⟨l, h1, h⟩ := Res.bind_eq_ok.1 h
  obtain ⟨r, h2, h⟩ := Res.bind_eq_ok.1 h
  cases h
  have p0 := h0 l (RawNode.bootstrapEntries env 1 peers).length _ h1
  have key : ∀ (ps : List (Nat × Bytes)) (r0 : Raft), RawNode.bootstrapApply env ps r0 = .ok r →
      P { n0 with raft := r0, prevHardSt := {} } → P { n0 with raft := r, prevHardSt := {} } := by
    intro ps
    induction ps with
    | nil => intro r0 h p; cases h; exact p
    | cons q ps ih =>
      intro r0 h p
      unfold RawNode.bootstrapApply at h
      obtain ⟨⟨r1, cs⟩, h3, h⟩ := Res.bind_eq_ok.1 h
      refine ih r1 h (hcc (.v1 { type := .addNode, nodeId := q.1 }) _ _ ?_ p)
      show (do let (n, _) ← RawNode.applyConfChange env { n0 with raft := r0, prevHardSt := {} } _; pure n) = _
      unfold RawNode.applyConfChange
      dsimp only
      rw [h3]
      rfl
  exact key peers _ h2 p0

theorem RawNode.bootstrap_keep {env : Env} {n0 n : RawNode} {peers : List (Nat × Bytes)} (h : n0.bootstrap env peers = .ok (n, none)) :
    Keep n0.raft n.raft :=
  RawNode.bootstrap_inv (fun n => Keep n0.raft n.raft) h (fun l k _ _ => n0.founder_keep env l k)
    fun cc _ _ h p => p.trans (Call.run_path (c := .applyConfChange cc) trivial h).1

/-- A property of fresh nodes that every step keeps holds in every history. -/
theorem NodeReach.inv {env : Env} (P : RawNode → Prop) (hnew : ∀ c st rng n, RawNode.new env c st rng = .ok n → P n)
    (hboot : ∀ c rng peers n0 n, RawNode.new env c {} rng = .ok n0 → n0.bootstrap env peers = .ok (n, none) → P n0 → P n)
    (hstep : ∀ x y, NodeStep env x y → P x.node → P y.node) {x : NodeHist} (h : NodeReach env x) : P x.node := by
  induction h with
  | start c st rng h => exact hnew c st rng _ h
  | boot c rng peers h h' => exact hboot c rng peers _ _ h h' (hnew c _ rng _ h)
  | step _ hs ih => exact hstep _ _ hs ih
  | crash _ hc _ =>
    cases hc with
    | idle c rng _ h => exact hnew c _ rng _ h
    | inReady c rng some _ _ _ h => exact hnew c _ rng _ h

/-- The same for properties of what every call keeps. -/
theorem NodeReach.inv_keep {env : Env} (P : RawNode → Prop) (hnew : ∀ c st rng n, RawNode.new env c st rng = .ok n → P n)
    (hkeep : ∀ a b : RawNode, Keep a.raft b.raft → P a → P b) {x : NodeHist} (h : NodeReach env x) : P x.node :=
  h.inv P hnew (fun _ _ _ n0 n _ h p => hkeep n0 n (RawNode.bootstrap_keep h) p) fun x y hs p => hkeep x.node y.node hs.keep p

end Craft
