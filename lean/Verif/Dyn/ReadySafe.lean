import Verif.Dyn.MidSafe

/-! # Handling a Ready returns -/

namespace Craft.Dyn
open Spec Members
open Cluster (Genesis Delivered Led Vital gterm LogRel append_take append_prefix)
namespace MGen
variable {G : MGen} {g s s0 : DState} {p : Nat}

theorem NodeRel.zero {k : Nat} {N : List DMsg} {c : Core} {x : DNode} (h : G.NodeRel p k N c x) : c.log.view.termAt 0 = 0 := by
  have hlog := h.log
  by_cases hb : c.log.view.base = 0
  · rw [hlog.termAt (by omega)]; rfl
  · unfold LogView.termAt
    rw [if_neg (by omega)]
    unfold LogView.entry
    rw [if_pos (by omega)]

theorem Up.ready_safe {K : Around} {n : RawNode} {a : App} {env : Env} (hg : G.Run g) (h : G.Up g p n a s) (hB : G.EarlyWorks) (hst : G.strict)
    (hgen : ∀ e ∈ G.L0, ∀ cc, confOf G.dec e = Option.some cc → Works G.cfg0 cc.asV2)
    (ho : Own a.index n.raft.core) (hs : n.raft.Safe K env)
    (ht : ∀ st, n.raft.log.storage.save (readyOf env n) = .ok st → st.Tidy) :
    (handle env G.dec n a).Sat fun x => Own x.2.1.index x.1.raft.core ∧ x.1.raft.Safe K env ∧
      n.raft.log.storage.save (readyOf env n) = .ok x.1.raft.log.storage := by
  have hli := h.linv
  have hrs := h.path.run hg
  obtain ⟨st, hsv, htk⟩ := takeReady_eq (env := env) hli
  have ht := ht st hsv
  obtain ⟨st', hsv', w, v, _⟩ := save_eq (env := env) hli
  rw [hsv] at hsv'
  cases hsv'
  unfold handle
  rw [htk]
  simp only [Res.ok_bind]
  generalize hn1 : (({ n.acceptReady (readyOf env n) with ready := some (readyOf env n) } : RawNode).withStorage st) = n1
  generalize ha1 : a.install (readyOf env n).snapshot = a1
  obtain ⟨hmid0, hi, hia⟩ := h.mid hg hsv hn1 ha1
  obtain ⟨w1, v1⟩ := hli.wf.of_storage_eq w v
  have hlog1 : n1.raft.log = { n.raft.log with storage := st } := by rw [← hn1]; rfl
  have hmsgs1 : n1.raft.msgs = [] := by rw [← hn1]; rfl
  have hcore1 : n1.raft.core = { n.raft.core with log := { n.raft.log with storage := st }, reads := n1.raft.core.reads } := by rw [← hn1]; rfl
  have hown1 : Own a1.index n1.raft.core := by
    have ho := ho.mono hia
    rw [hcore1]
    exact ⟨ho.cand, (fun hs hc => ho.lead hs (hc.imp _root_.id fun hc => by rw [show n.raft.core.log.view = _ from v1.symm]; exact hc)), ho.calm⟩
  have hmid1 : n1.raft.MidSafe K env := by
    by_cases hl : n.raft.state = .leader
    · have hns : n.raft.log.unstable.snapshot = Option.none := ho.calm (by show n.raft.state ≠ _; rw [hl]; decide)
      have hlc := hmid0.rel.lcore
      rw [show n1.raft.core.log = { n.raft.log with storage := st } from hlog1] at hlc
      have hli1 : LInv { n.raft.log with storage := st } :=
        ⟨w1, hlc.app_com, hlc.com_last, hlc.base_com, fun _ => by rw [v1]; exact hli.base_app hns, hli.app_off, (fun x hx => by rw [show _ = _ from hns] at hx; cases hx), hlc.snap_com⟩
      have h2 := hs.withLog (l := { n.raft.log with storage := st }) ⟨hli1, by rw [v1]; exact hs.log.zero, ht⟩ fun _ => by
        rw [w1.lastIndex_eq, hli.wf.lastIndex_eq, v1]
      refine ⟨{ n.raft.log with storage := st }, ?_, fun _ => hlog1.symm⟩
      rw [← hn1]
      exact ⟨h2.log, h2.id, h2.self, h2.tpos, h2.infl, h2.next, h2.ro, h2.pend, h2.lead, fun m hm => nomatch hm⟩
    · refine ⟨n.raft.log, ?_, fun hh => ?_⟩
      · rw [← hn1]
        exact ⟨hs.log, hs.id, hs.self, hs.tpos, hs.infl, hs.next, hs.ro, hs.pend, hs.lead, fun m hm => nomatch hm⟩
      · rw [← hn1] at hh; exact absurd hh hl
  have hCn : n.raft.log.committed ≤ n1.raft.log.committed := by rw [hlog1]
  obtain ⟨⟨n2, a2⟩, hall, ho2, hs2⟩ := Mid.applyAll_safe (env := env) hrs hCn hB hst hgen (readyOf env n).committedEntries hmid0 (hli.nextOut_contig env) (by omega)
    (h.outOk hsv hn1) hown1 hmid1
  obtain ⟨s2, hmid, hlen, _⟩ := Mid.applyAll hrs hCn (readyOf env n).committedEntries hmid0 (hli.nextOut_contig env) (by omega) (h.outOk hsv hn1) hall
  rw [hall]
  simp only [Res.ok_bind]
  have hself : n2.raft.state = .leader → n2.raft.trk.config.autoLeave = true → ∃ p, n2.raft.pr n2.raft.id = Option.some p := by
    intro hl ha
    exact voter_pr hmid.rel.cinv (ho2.lead hl (Or.inl ha))
  obtain ⟨n3, hadv, hsafe⟩ := advance_safe hli hsv hn1 hmid.quiet hmid.ready hs2 hself ht
  rw [hadv]
  simp only [Res.ok_bind, Res.pure_eq]
  obtain ⟨s3, u3, ho3, hst3, _⟩ := h.finish hg hsv hn1 hmid hlen hadv
  exact .ok ⟨ho3 _ ho2, hsafe u3.rel.zero, by rw [hst3]; exact hsv⟩

end MGen
end Craft.Dyn
