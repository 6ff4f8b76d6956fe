import Verif.Dyn.Live

/-! # Every allowed action returns and keeps the invariant -/

namespace Craft.Dyn
open Spec Members
open Cluster (Genesis Vital gterm gterm_some LogRel leadIn Hard safe_storage)
namespace MGen
variable {G : MGen} {g s : DState} {p : Nat} {K : Around} {env : Env} {c c' : State} {n : RawNode} {a : App}

/-- Sensible changes can be applied, and leaders that are asked are voters. -/
theorem ask {im : Message} (hdec : G.dec = env.conf) (hu : G.Up g p n a s) (hp : c.proc p = .up n a)
    (hm : im.type = .prop → ∀ e ∈ im.entries, ∀ cc, env.conf e = Option.some cc → c.MayAsk Proper p cc.asV2) :
    G.Vetted env im n.raft.core ∧ Backed env im n.raft.core := by
  have hid : n.raft.core.id = p := hu.rel.id
  have hgood : n.raft.core.state = .leader → GoodCfg n.raft.core.config := fun hl =>
    (hu.rel.config.at (Nat.le_of_not_lt fun h => by have := hu.rel.early h; rw [hl] at this; cases this)).good G.good
  refine ⟨?_, ?_⟩
  · intro _ hty hl e he ht ⟨cc, h1, h2⟩ e' t1 t2
    obtain ⟨_, h3⟩ := hm hty e he cc h1 n a hp hl
    obtain ⟨cfg', h4⟩ := Works.next (Sensible.works h3 h2) (hgood hl)
    refine ⟨cfg', ?_⟩
    have hc : confOf env.conf e' = Option.some cc := by
      unfold confOf
      rw [if_neg (by rw [t1]; exact ht), ← h1]
      unfold Env.conf
      rw [t1, t2]
    rw [hdec]
    show EStep env.conf e' n.raft.core.config cfg'
    unfold EStep
    rw [hc]
    exact h4
  · intro hty hl e he ht ⟨cc, h1, h2⟩
    rw [hid]
    exact (hm hty e he cc h1 n a hp hl).1

theorem wise_msg (hE : Faithful env) {x : Call} (hns : ∀ m, x ≠ .step m) (hw : (Act.call p x).Wise Proper env c) :
    (x.msg env n).type = .prop → ∀ e ∈ (x.msg env n).entries, ∀ cc, env.conf e = Option.some cc → c.MayAsk Proper p cc.asV2 := by
  cases x with
  | step m => exact absurd rfl (hns m)
  | tick => intro h; simp only [Call.msg] at h; split at h <;> cases h
  | propose d =>
    intro _ e he cc hc
    rw [List.mem_singleton.1 he] at hc
    cases hc
  | proposeConfChange cc0 =>
    intro _ e he cc hc
    obtain ⟨h1, h2⟩ := hw
    rw [List.mem_singleton.1 he] at hc
    cases cc0 with
    | v1 x =>
      have : env.conf { type := .confChange, data := env.serV1 x } = Option.some cc := hc
      unfold Env.conf at this
      dsimp only at this
      rw [hE.exact1 x h1] at this
      cases this
      exact h2
    | v2 x =>
      have : env.conf { type := .confChangeV2, data := env.serV2 x } = Option.some cc := hc
      unfold Env.conf at this
      dsimp only at this
      rw [hE.exact2 x h1] at this
      cases this
      exact h2
  | _ => intro h; cases h

/-- Every allowed action returns, is a step of the cluster, and keeps the invariant. -/
theorem act_ok (hE : Faithful env) (hdec : G.dec = env.conf) (hst : G.strict) (hB : G.EarlyWorks)
    (hgen : ∀ e ∈ G.L0, ∀ cc, confOf G.dec e = Option.some cc → Works G.cfg0 cc.asV2) (hL : G.LiveOk env K c) {x : Act}
    (ha : x.Allowed c) (hfound : ∀ p cfg rng, x = .start p cfg rng → G.founder p → c.proc p ≠ .down {}) (hw : x.Wise Proper env c) :
    ∃ c', x.run env G.dec c = .ok c' ∧ ∃ K', G.LiveOk env K' c' := by
  obtain ⟨g, hr⟩ := hL.rel
  have hgr := hr.reach
  have fresh : ∀ {p n a}, c.proc p = .up n a → Raft.Fresh K n.raft.log := by
    intro p n a hp
    obtain ⟨s, h1, h2, h3⟩ := hr.one hp
    exact h3.fresh h1 hL.bTerm hL.bIndex
  cases x with
  | start p cfg rng =>
    obtain ⟨st, hp, hid, hap, hs, hmi⟩ := ha
    have hh := hL.down p st hp
    have hd := hr.proc p
    rw [hp] at hd
    have hd : G.Durable st (g.node p) := hd.resolve_right fun h => hfound p cfg rng rfl h.founder (by rw [hp, h.blank])
    obtain ⟨cfg0, c1, c2⟩ := hd.snap.conf
    obtain ⟨prs, hinv, hzero, hvoter⟩ := c1.restorable
    have hres : st.Resumable cfg0 := by
      refine ⟨hd.wf, ?_, { config := cfg0, progress := prs, maxInflight := 0 }, rfl, ?_, hinv, hzero, hvoter⟩
      · rcases hh with hh | hh
        · exact Or.inl hh
        · have h1 := hd.commit
          have h2 := hd.log.len
          have h3 := (hgr.inv.commitOk p).2.1
          rw [List.length_append] at h2
          exact Or.inr ⟨hh, by omega⟩
      · rw [c2]; rfl
    obtain ⟨n, hn, _⟩ := C51_restart (env := env) rng hres hs
    have hrel := hr.start hp hid hap hn (fun q hq hdn => by
      rw [set_up]
      split
      · rename_i h; subst h; exact absurd hdn (hfound _ cfg rng rfl hq)
      · rfl)
    obtain ⟨s, hu⟩ := hrel.up (p := p) (n := n) (by rw [set_up, if_pos rfl])
    have hf := (RawNode.new_ok hn).1
    refine ⟨_, ?_, K, hL.set (fun n' a' he => ?_) (fun st he => by cases he) ⟨g, hrel⟩⟩
    · simp only [Act.run, hp]; rw [hn]; rfl
    · cases he
      exact ⟨new_safe hn hu.linv hu.rel.zero hd.snapBase hmi, by rw [hf.storage]; exact hh, .follower hf.state⟩
  | call p x =>
    obtain ⟨⟨n, a, hp⟩, hx, hxs⟩ := ha
    obtain ⟨h1, h2, h3⟩ := hL.up p n a hp
    obtain ⟨n', hn, hs⟩ := call_safe hE.toLossless h1 (fresh hp) hx (fun m hm => absurd hm (hxs m))
    obtain ⟨s, hu⟩ := hr.up hp
    obtain ⟨hv, hb⟩ := ask hdec (im := x.msg env n) hu hp (wise_msg hE hxs hw)
    have hok : G.MsgOk s.net (x.msg env n) ∧ ¬ ((x.msg env n).type = .voteResp ∨ (x.msg env n).type = .heartbeat) := by
      cases x with
      | step m => exact absurd rfl (hxs m)
      | tick => simp only [Call.msg]; split <;> exact ⟨trivial, by simp⟩
      | _ => exact ⟨trivial, by simp [Call.msg]⟩
    refine ⟨_, ?_, K, hL.set (fun n2 a2 he => ?_) (fun st he => by cases he) ⟨g, hr.call hp hx hxs hn hv⟩⟩
    · simp only [Act.run, hp]; rw [hn]; rfl
    · cases he
      refine ⟨hs, ?_, hu.own hgr hx hv hn hok.1 (fun h => absurd h hok.2) hb h3⟩
      rw [Call.run_storage (by cases x <;> first | trivial | exact absurd rfl (hxs _)) hn]; exact h2
  | deliver p m =>
    obtain ⟨⟨n, a, hp⟩, hm, hto⟩ := ha
    obtain ⟨h1, h2, h3⟩ := hL.up p n a hp
    have hms := hL.msgSafe hp hm hto
    obtain ⟨n', hn, hs⟩ := call_safe (x := .step m) hE.toLossless h1 (fresh hp) trivial (fun m' hm' => by cases hm'; exact hms)
    obtain ⟨s, hu⟩ := hr.up hp
    obtain ⟨hv, hb⟩ := ask hdec (im := m) hu hp hw
    refine ⟨_, ?_, K, hL.set (fun n2 a2 he => ?_) (fun st he => by cases he) ⟨g, hr.deliver hp hm hto hn hv⟩⟩
    · simp only [Act.run, hp]; rw [hn]; rfl
    · cases he
      refine ⟨hs, ?_, hu.own (x := .step m) hgr trivial hv hn ((hr.net m hm).mono hu.path.net) (fun _ => hto) hb h3⟩
      have hst : Stamped m := by
        intro ht
        unfold MsgSafe at hms
        rcases ht with ht | ht | ht <;> rw [ht] at hms <;> exact hms.1
      rw [Call.run_storage (c := .step m) hst hn]; exact h2
  | ready p =>
    obtain ⟨n, a, hp⟩ := ha
    obtain ⟨h1, h2, h3⟩ := hL.up p n a hp
    obtain ⟨s, hu⟩ := hr.up hp
    obtain ⟨⟨n', a', rd⟩, hh, ho, hs, hsv⟩ := hu.ready_safe (env := env) (K := K) hgr hB hst hgen h3 h1 (fun st hst => (hu.save_hard hgr h2 hst).2)
    obtain ⟨s', hrel, _⟩ := hr.ready hp hh
    obtain ⟨hrd, _, hu', _⟩ := hu.ready hgr hh
    refine ⟨_, by simp only [Act.run, hp]; rw [hh]; rfl, hL.step (fun n2 a2 he => ?_) (fun st he => by cases he) (fun m hm => h1.out m ?_) ⟨s', hrel⟩⟩
    · cases he
      refine ⟨hs, ?_, ho⟩
      exact (hu.save_hard hgr h2 hsv).1
    · rw [hrd] at hm; exact hm
  | compact p i =>
    obtain ⟨n, a, hp, hi, hsn⟩ := ha
    obtain ⟨h1, h2, h3⟩ := hL.up p n a hp
    obtain ⟨s, hu⟩ := hr.up hp
    have hli := hu.linv
    have had : n.raft.log.applied ≤ n.raft.log.storage.lastIndex := by
      have e1 : n.raft.log.applied ≤ a.index := hu.rel.app
      have e2 := hu.app
      rcases hu.dur with ⟨hd, _⟩ | ⟨_, _, h0⟩
      · have e3 := hd.log.len
        have e4 := (hgr.inv.commitOk p).2.1
        rw [hd.wf.lastIndex_eq, ← e3, List.length_append]
        omega
      · omega
    have hc : ∃ st e, n.raft.log.storage.compact i = .ok (st, e) := by
      unfold Storage.compact
      split
      · exact ⟨_, _, rfl⟩
      split
      · omega
      · exact ⟨_, _, rfl⟩
    obtain ⟨st, e, hc⟩ := hc
    have hu' := hu.compact hi hsn hc
    refine ⟨_, by simp only [Act.run, hp]; rw [hc]; rfl, K, hL.set (fun n2 a2 he => ?_) (fun st he => by cases he) ⟨g, hr.set' (x := .up _ _) ⟨s, hu'⟩⟩⟩
    cases he
    have hv := hli.compact_view hi hc
    have key : st.Tidy ∧ Hard st := by
      rcases hv with rfl | ⟨e1, e2, e3, e4, e5, e6, _⟩
      · exact ⟨h1.log.tidy, h2⟩
      · refine ⟨?_, ?_⟩
        · unfold Storage.Tidy; rw [e4, e5]; exact hsn
        · unfold Hard; rw [e4, e6]
          rcases h2 with h2 | h2
          · exact Or.inl h2
          · right
            show i ≤ _
            have f3 : n.raft.log.applied ≤ a.index := hu.rel.app
            rcases hu.dur with ⟨hd, _⟩ | ⟨_, _, h0⟩
            · have f1 := hd.commit
              have f2 := hu.app
              omega
            · omega
    refine ⟨safe_storage h1 hu'.linv hu'.rel.zero key.1 (hli.compact_lastIndex hi hc), key.2, ?_⟩
    refine h3.relog (l := { n.raft.log with storage := st }) (fun e he => ?_) rfl
    rcases hv with rfl | ⟨_, _, _, _, _, _, hv | ⟨_, _, hv⟩⟩
    · exact he
    · rw [hv] at he; exact he
    · rw [hv] at he
      exact List.mem_of_mem_drop he
  | createSnapshot p data =>
    obtain ⟨n, a, hp⟩ := ha
    obtain ⟨h1, h2, h3⟩ := hL.up p n a hp
    obtain ⟨s, hu⟩ := hr.up hp
    have hli := hu.linv
    have had : a.index ≤ n.raft.log.storage.lastIndex := by
      have e2 := hu.app
      rcases hu.dur with ⟨hd, _⟩ | ⟨_, _, h0⟩
      · have e3 := hd.log.len
        have e4 := (hgr.inv.commitOk p).2.1
        rw [hd.wf.lastIndex_eq, ← e3, List.length_append]
        omega
      · omega
    have ht : n.raft.log.storage.view.base ≤ n.raft.log.storage.snapshot.metadata.index := h1.log.tidy
    have hc : ∃ st e, n.raft.log.storage.createSnapshot a.index (Option.some a.conf) data = .ok (st, e) := by
      unfold Storage.createSnapshot
      split
      · exact ⟨_, _, rfl⟩
      split
      · omega
      split
      · rename_i h1 _ h2
        have : n.raft.log.storage.offset = n.raft.log.storage.view.base := rfl
        omega
      · exact ⟨_, _, rfl⟩
    obtain ⟨st, e, hc⟩ := hc
    have hu' := hu.createSnapshot hgr hc
    refine ⟨_, by simp only [Act.run, hp]; rw [hc]; rfl, K, hL.set (fun n2 a2 he => ?_) (fun st he => by cases he) ⟨g, hr.set' (x := .up _ _) ⟨s, hu'⟩⟩⟩
    cases he
    have key : st.Tidy ∧ Hard st ∧ st.view = n.raft.log.storage.view := by
      rcases Storage.createSnapshot_cases hli.wf.stor hc with rfl | ⟨e1, e2, e3, e4, _⟩
      · exact ⟨h1.log.tidy, h2, rfl⟩
      · refine ⟨?_, ?_, ?_⟩
        · unfold Storage.Tidy; rw [e4, e3]; exact e1
        · rw [e3]; exact h2
        · rw [e3]; rfl
    refine ⟨safe_storage h1 hu'.linv hu'.rel.zero key.1 (RaftLog.lastIndex_storage (Storage.createSnapshot_lastIndex hli.wf.stor hc)), key.2.1, ?_⟩
    refine h3.relog (l := { n.raft.log with storage := st }) (fun e he => ?_) rfl
    have : ({ n.raft.log with storage := st } : RaftLog).view = n.raft.log.view := by
      unfold RaftLog.view
      dsimp only
      rw [key.2.2]
    rw [this] at he
    exact he
  | crash p =>
    obtain ⟨n, a, hp⟩ := ha
    obtain ⟨h1, h2, h3⟩ := hL.up p n a hp
    obtain ⟨s, hu⟩ := hr.up hp
    refine ⟨_, by simp only [Act.run, hp], K, hL.set (fun _ _ he => by cases he) (fun st he => by cases he; exact h2)
      ⟨g, hr.set' (x := .down _) (hu.dur.imp And.left And.left)⟩⟩
  | crashReady p keep k =>
    obtain ⟨n, a, hp⟩ := ha
    obtain ⟨h1, h2, h3⟩ := hL.up p n a hp
    obtain ⟨s, hu⟩ := hr.up hp
    obtain ⟨st, hs, hn⟩ := takeReady_eq (env := env) hu.linv
    obtain ⟨s', hrel, _⟩ := hr.crashReady (k := k) (some := (readyOf env n).messages.filter keep) hp hn (fun m hm => (List.mem_filter.1 hm).1)
    refine ⟨_, by simp only [Act.run, hp]; rw [hn]; rfl, hL.step (fun _ _ he => by cases he) (fun st' he => ?_)
      (fun m hm => h1.out m (List.mem_filter.1 hm).1) ⟨s', hrel⟩⟩
    cases he
    exact (hu.save_hard hgr h2 hs).1

end MGen
end Craft.Dyn
