import Verif.Dyn.Rel
import Verif.Props.NodeTransfer

/-! # The configuration of a node is always valid -/

namespace Craft
open Spec Dyn

theorem Changer.chainSimple_inv : ∀ (ccs : List CCSingle) {c c' : Changer}, ConfInv c.tracker.config c.tracker.progress →
    c.chainSimple ccs = .ok c' → ConfInv c'.tracker.config c'.tracker.progress := by
  intro ccs
  induction ccs with
  | nil => intro c c' hi h; cases h; exact hi
  | cons cc ccs ih =>
    intro c c' hi h
    unfold Changer.chainSimple at h
    split at h
    · cases h
    · rename_i r hr
      exact ih (C10_confchange_invariants c hi false [cc] r.1 r.2 (Or.inl hr)) h

/-- Whatever configuration is restored, the result is valid. -/
theorem Changer.restore_inv {c : Changer} {cs : ConfState} {cfg : TConfig} {prs : ProgressMap} (hi : ConfInv c.tracker.config c.tracker.progress)
    (h : c.restore cs = .ok (cfg, prs)) : ConfInv cfg prs := by
  unfold Changer.restore at h
  split at h
  rename_i o i _
  split at h
  · split at h
    · cases h
    · rename_i c' hc
      cases h
      exact Changer.chainSimple_inv _ hi hc
  · split at h
    · cases h
    · rename_i c' hc
      split at h
      · cases h
      · rename_i r hr
        cases h
        exact C10_confchange_invariants c' (Changer.chainSimple_inv _ hi hc) _ _ _ _ (Or.inr (Or.inl hr))

theorem Progress.maybeUpdate_learner (p : Progress) (i : Nat) : (p.maybeUpdate i).1.isLearner = p.isLearner := by
  unfold Progress.maybeUpdate
  dsimp only
  split <;> (try split) <;> rfl

theorem NPath.confInv {env : Env} {im : Message} {c c' : Core} {ms : List Message} (h : NPath env im c ms c') (hi : ConfInv c.config c.progress) :
    ConfInv c'.config c'.progress := by
  induction h with
  | nil => exact hi
  | cons h _ ih =>
    refine ih ?_
    cases h with
    | core h =>
      cases h with
      | prs P h => exact hi.rel h fun v q q' h => h.learner
      | follower T P _ h => exact hi.rel h fun v q q' h => PrReset.learner (p' := q') h
      | candidate P _ _ h => exact hi.rel h fun v q q' h => PrReset.learner (p' := q') h
      | leader P _ _ h => exact hi.rel h fun v q q' h => PrReset.learner (p' := q') h
      | append es l p pci _ _ h => exact hi.insert h (Progress.maybeUpdate_learner _ _)
      | ackRecv p p' _ _ _ _ h _ hl => exact hi.insert h hl
      | recvSnap cfg P0 p mi _ _ _ _ _ hr hp =>
        exact (Changer.restore_inv (c := { tracker := { maxInflight := mi }, lastIndex := (im.snapshot.getD {}).metadata.index })
          ConfInv.empty hr).insert hp (Progress.maybeUpdate_learner _ _)
      | _ => exact hi
    | _ => exact hi

/-- Every call keeps the configuration valid. -/
theorem Call.confInv {env : Env} {c : Call} {a b : RawNode} (hs : c.Stamped) (hi : ConfInv a.raft.trk.config a.raft.trk.progress)
    (h : c.run env a = .ok b) : ConfInv b.raft.trk.config b.raft.trk.progress := by
  by_cases hc : ∃ cc, c = .applyConfChange cc
  · obtain ⟨cc, rfl⟩ := hc
    obtain ⟨⟨n1, cs⟩, h1, h⟩ := Res.bind_eq_ok.1 h
    cases h
    unfold RawNode.applyConfChange at h1
    obtain ⟨⟨r, cs'⟩, h2, h1⟩ := Res.bind_eq_ok.1 h1
    simp only [Res.pure_eq, Res.ok.injEq, Prod.mk.injEq] at h1
    obtain ⟨rfl, rfl⟩ := h1
    obtain ⟨cfg, prs, hch, hsw⟩ := applyConfChange_ok h2
    obtain ⟨lrn, _, ms, _, hp⟩ := Raft.switchToConfig_sim (im := Call.msg env a (.applyConfChange cc)) rfl hsw
    refine hp.npath.confInv (c := (a.raft.withConf cfg prs lrn).core) ?_
    show ConfInv cfg prs
    unfold Dyn.change at hch
    split at hch
    · exact C10_confchange_invariants { tracker := a.raft.trk, lastIndex := a.raft.log.lastIndex } hi false [] _ _ (Or.inr (Or.inr hch))
    · split at hch
      · exact C10_confchange_invariants { tracker := a.raft.trk, lastIndex := a.raft.log.lastIndex } hi _ _ _ _ (Or.inr (Or.inl hch))
      · exact C10_confchange_invariants { tracker := a.raft.trk, lastIndex := a.raft.log.lastIndex } hi false _ _ _ (Or.inl hch)
  · obtain ⟨_, cfg, P, hcp, ms, _, hp⟩ := Call.run_path hs h
    obtain ⟨rfl, rfl⟩ := hcp (fun cc h => hc ⟨cc, h⟩)
    exact hp.confInv hi

theorem RawNode.new_confInv {env : Env} {cfg : Config} {st : Storage} {rng : Nat} {n : RawNode} (h : RawNode.new env cfg st rng = .ok n) :
    ConfInv n.raft.trk.config n.raft.trk.progress := by
  obtain ⟨P0, h1, h2⟩ := (RawNode.new_ok h).1.conf
  rw [h2]
  have hi := Changer.restore_inv (c := { tracker := { maxInflight := cfg.maxInflightMsgs }, lastIndex := st.lastIndex }) ConfInv.empty h1
  have key : ∀ id, AMap.find (P0.map fun (id, p) => (id, n.raft.resetPr id p)) id = (P0.find id).map (n.raft.resetPr id) :=
    fun id => AMap.find_map P0 (fun id p => n.raft.resetPr id p) id
  have hm : (P0.map fun (id, p) => (id, n.raft.resetPr id p)).map Prod.fst = P0.map Prod.fst := by
    rw [List.map_map]; rfl
  refine { hi with prs_sorted := by rw [hm]; exact hi.prs_sorted, prs_exact := fun id => ?_, lrn_flag := fun id p hp => ?_ }
  · rw [← hi.prs_exact id, key]
    cases P0.find id <;> simp
  · rw [key] at hp
    cases hf : P0.find id with
    | none => rw [hf] at hp; cases hp
    | some q =>
      rw [hf] at hp
      cases hp
      rw [← hi.lrn_flag id q hf]
      unfold Raft.resetPr
      split <;> exact Iff.rfl

/-- The configuration of a node is valid, whatever happened to the node. -/
theorem NodeReach.confInv {env : Env} {x : NodeHist} (h : NodeReach env x) : ConfInv x.node.raft.trk.config x.node.raft.trk.progress := by
  refine h.inv (fun n => ConfInv n.raft.trk.config n.raft.trk.progress) (fun c st rng n h => RawNode.new_confInv h) ?_ ?_
  · intro c rng peers n0 n _ h hi
    refine RawNode.bootstrap_inv (fun n => ConfInv n.raft.trk.config n.raft.trk.progress) h (fun l k es _ => ?_)
      fun cc a b h hi => Call.confInv (c := .applyConfChange cc) trivial hi h
    show ConfInv (n0.raft.reset env 1).trk.config (n0.raft.reset env 1).trk.progress
    rw [show (n0.raft.reset env 1).trk.config = n0.raft.trk.config from congrArg Core.config (Raft.reset_core (env := env) n0.raft 1)]
    exact hi.rel (Raft.reset_prs (env := env) n0.raft 1) fun v q q' h => PrReset.learner (p' := q') h
  intro x y h hi
  cases h with
  | call c _ hs _ h => exact Call.confInv hs hi h
  | ready ccs h =>
    exact RawNode.handleReady_inv (fun n => ConfInv n.raft.trk.config n.raft.trk.progress) (fun c a b hs _ _ _ _ h hi => Call.confInv hs hi h)
      (fun a st hi => hi) h hi
  | compact => exact hi
  | createSnapshot => exact hi

end Craft
