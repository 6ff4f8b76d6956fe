import Verif.Dyn.Ready

/-! # Every execution of a cluster with membership changes is an execution of the abstract protocol -/

namespace Craft.Dyn
open Spec Members
open Cluster (Genesis Delivered Led Vital gterm LogRel)

namespace MGen
variable {G : MGen} {g : DState} {c c' : State}

theorem known_ok {n : RawNode} {a : App} {s s' : DState} {p : Nat} (hs : G.Run s) (h : G.Up s p n a s') : G.KnownOk s.net ⟨p, a⟩ := by
  obtain ⟨cfg, h1, h2⟩ := h.cs
  have ha := h.app
  obtain ⟨_, hc1, hc2⟩ := hs.inv.commitOk p
  have hlen : ((s.node p).log.take (a.index - G.L0.length)).length = a.index - G.L0.length := by
    rw [List.length_take]; omega
  refine ⟨(s.node p).log.take (a.index - G.L0.length), cfg, _, hc2.prefix ?_, hlen, ?_, h2⟩
  · exact List.take_prefix_take_left (by omega)
  · rw [hlen]
    exact h1.congr (by rw [List.take_take, Nat.min_self])

theorem Rel.up {p : Nat} {n : RawNode} {a : App} (h : G.Rel c g) (hp : c.proc p = .up n a) : ∃ s, G.Up g p n a s := by
  have := h.proc p
  rw [hp] at this
  exact this

theorem Rel.start {env : Env} {p : Nat} {cfg : Config} {rng : Nat} {st : Storage} {n : RawNode} (h : G.Rel c g) (hp : c.proc p = .down st)
    (hid : cfg.id = p) (hap : cfg.applied ≤ st.snapshot.metadata.index) (hn : RawNode.new env cfg st rng = .ok n)
    (hb : ∀ q, G.founder q → c.proc q = .down {} →
      (c.set p (.up n ⟨st.snapshot.metadata.index, st.snapshot.metadata.confState⟩)).proc q = c.proc q) :
    G.Rel (c.set p (.up n ⟨st.snapshot.metadata.index, st.snapshot.metadata.confState⟩)) g := by
  have hd := h.proc p
  rw [hp] at hd
  rcases hd with hd | hd
  · exact h.set' (start_up hd hid hap hn)
  · have := hb p hd.founder (by rw [hp, hd.blank])
    rw [hp] at this
    have h2 : (c.set p (.up _ _)).proc p = .down _ := this
    unfold State.set at h2
    simp at h2

theorem Rel.call {env : Env} {p : Nat} {x : Call} {n n' : RawNode} {a : App} (h : G.Rel c g) (hp : c.proc p = .up n a) (hx : x.Plain)
    (hns : ∀ m, x ≠ .step m) (hr : x.run env n = .ok n') (hv : G.Vetted env (x.msg env n) n.raft.core) : G.Rel (c.set p (.up n' a)) g := by
  obtain ⟨s, hu⟩ := h.up hp
  refine h.set' (hu.call h.reach hx hv hr ?_ ?_)
  · cases x with
    | step m => exact absurd rfl (hns m)
    | tick => simp only [Call.msg]; split <;> exact trivial
    | _ => exact trivial
  · cases x with
    | step m => exact absurd rfl (hns m)
    | tick => simp only [Call.msg]; split <;> (intro h; rcases h with h | h <;> cases h)
    | _ => intro h; rcases h with h | h <;> cases h

theorem Rel.deliver {env : Env} {p : Nat} {m : Message} {n n' : RawNode} {a : App} (h : G.Rel c g) (hp : c.proc p = .up n a) (hm : m ∈ c.net)
    (hto : m.to = p) (hr : (Call.step m).run env n = .ok n') (hv : G.Vetted env m n.raft.core) : G.Rel (c.set p (.up n' a)) g := by
  obtain ⟨s, hu⟩ := h.up hp
  exact h.set' (hu.call h.reach (x := .step m) trivial hv hr ((h.net m hm).mono hu.path.net) fun _ => hto)

theorem Rel.inject {env : Env} {p : Nat} {m : Message} {n n' : RawNode} {a : App} (h : G.Rel c g) (hp : c.proc p = .up n a) (hvi : ¬ Vital m)
    (hr : (Call.step m).run env n = .ok n') (hv : G.Vetted env m n.raft.core) : G.Rel (c.set p (.up n' a)) g := by
  obtain ⟨s, hu⟩ := h.up hp
  unfold Vital at hvi
  refine h.set' (hu.call h.reach (x := .step m) trivial hv hr ?_ ?_)
  · show G.MsgOk s.net m
    unfold MsgOk
    split <;> first | trivial | (exfalso; apply hvi; simp_all)
  · intro hty
    exfalso; apply hvi
    rcases hty with h | h <;> rw [show m.type = _ from h] <;> simp

theorem Rel.ready {env : Env} {p : Nat} {n n' : RawNode} {a a' : App} {rd : Ready} (h : G.Rel c g) (hp : c.proc p = .up n a)
    (hr : handle env G.dec n a = .ok (n', a', rd)) : ∃ s, G.Rel { c.set p (.up n' a') with
        net := c.net ++ rd.messages
        out := c.out ++ rd.committedEntries.map fun e => ⟨p, n.raft.term, e⟩
        led := if n.raft.state = .leader then c.led ++ [⟨p, n.raft.term, n.raft.log.view⟩] else c.led
        known := c.known ++ [⟨p, a'⟩] } s ∧ PPath G.Q p g s := by
  have hg := h.reach
  obtain ⟨s, hu⟩ := h.up hp
  obtain ⟨rfl, s', hu', _⟩ := hu.ready hg hr
  have hrs := hu.path.run hg
  refine ⟨s, h.set hu.path (x := .up n' a') ⟨s', hu'⟩ ?_ ?_ ?_ ?_, hu.path⟩
  · intro m hm
    rcases List.mem_append.1 hm with hm | hm
    · exact Or.inl hm
    · exact Or.inr (hu.msgs m hm)
  · intro d hd
    rcases List.mem_append.1 hd with hd | hd
    · exact Or.inl hd
    · obtain ⟨e, he, rfl⟩ := List.mem_map.1 hd
      exact Or.inr (outOk_next hrs hu.rel hu.linv he)
  · intro r hr
    split at hr
    · rename_i hl
      rcases List.mem_append.1 hr with hr | hr
      · exact Or.inl hr
      · rw [List.mem_singleton] at hr
        subst hr
        refine Or.inr ⟨(s.node p).log, ?_, hu.rel.log⟩
        have := (hrs.inv.leadNode p (hu.rel.leader_role hl)).1
        rw [show n.raft.term = _ from hu.rel.term]
        exact this
    · exact Or.inl hr
  · intro r hr
    rcases List.mem_append.1 hr with hr | hr
    · exact Or.inl hr
    · rw [List.mem_singleton] at hr
      subst hr
      exact Or.inr (known_ok hrs hu')

theorem Rel.crashReady {env : Env} {p k : Nat} {n n1 : RawNode} {a : App} {rd : Ready} {some : List Message} (h : G.Rel c g)
    (hp : c.proc p = .up n a) (ht : n.takeReady env = .ok (n1, rd)) (hsome : ∀ m ∈ some, m ∈ rd.messages) :
    ∃ s, G.Rel { c.set p (.down n1.raft.log.storage) with
        net := c.net ++ some
        out := c.out ++ (rd.committedEntries.take k).map fun e => ⟨p, n.raft.term, e⟩ } s ∧ PPath G.Q p g s := by
  have hg := h.reach
  obtain ⟨s, hu⟩ := h.up hp
  have hrs := hu.path.run hg
  obtain ⟨st, hs1, hs2⟩ := takeReady_eq (env := env) hu.linv
  have hs2' : n.takeReady env = _ := hs2
  rw [hs2'] at ht
  simp only [Res.ok.injEq, Prod.mk.injEq] at ht
  obtain ⟨rfl, rfl⟩ := ht
  refine ⟨s, h.set hu.path (x := .down st) (Or.inl (hu.persist hg hs1).1) ?_ ?_ (fun _ h => Or.inl h) (fun _ h => Or.inl h), hu.path⟩
  · intro m hm
    rcases List.mem_append.1 hm with hm | hm
    · exact Or.inl hm
    · exact Or.inr (hu.msgs m (hsome m hm))
  · intro d hd
    rcases List.mem_append.1 hd with hd | hd
    · exact Or.inl hd
    · obtain ⟨e, he, rfl⟩ := List.mem_map.1 hd
      exact Or.inr (outOk_next hrs hu.rel hu.linv (List.mem_of_mem_take he))

/-- Any step, when nothing is demanded of proposals. -/
theorem Rel.step_grows {env : Env} (h : G.Rel c g) (hs : Members.Step env G.dec c c') (hns : ¬ G.strict)
    (hb : ∀ p, G.founder p → c.proc p = .down {} → c'.proc p = c.proc p) : ∃ g', G.Rel c' g' ∧ (g' = g ∨ ∃ p, PPath G.Q p g g') := by
  have hv : ∀ {im : Message} {c : Core}, G.Vetted env im c := fun h => absurd h hns
  cases hs with
  | start p cfg rng hp hid hap hn => exact ⟨g, h.start hp hid hap hn hb, Or.inl rfl⟩
  | call p x hp hx hst hr => exact ⟨g, h.call hp hx hst hr hv, Or.inl rfl⟩
  | deliver p m hp hm hto hr => exact ⟨g, h.deliver hp hm hto hr hv, Or.inl rfl⟩
  | inject p m hp hvi hr => exact ⟨g, h.inject hp hvi hr hv, Or.inl rfl⟩
  | ready p hp hr => obtain ⟨s, h1, h2⟩ := h.ready hp hr; exact ⟨s, h1, Or.inr ⟨p, h2⟩⟩
  | compact p i hp hi hsi he =>
    obtain ⟨s, hu⟩ := h.up hp
    exact ⟨g, h.set' ⟨s, hu.compact hi hsi he⟩, Or.inl rfl⟩
  | createSnapshot p data hp he =>
    obtain ⟨s, hu⟩ := h.up hp
    exact ⟨g, h.set' ⟨s, hu.createSnapshot h.reach he⟩, Or.inl rfl⟩
  | crash p hp =>
    obtain ⟨s, hu⟩ := h.up hp
    exact ⟨g, h.set' (x := .down _) (hu.dur.imp And.left And.left), Or.inl rfl⟩
  | crashReady p some k hp ht hsome => obtain ⟨s, h1, h2⟩ := h.crashReady hp ht hsome; exact ⟨s, h1, Or.inr ⟨p, h2⟩⟩

theorem Rel.step {env : Env} (h : G.Rel c g) (hs : Members.Step env G.dec c c') (hns : ¬ G.strict)
    (hb : ∀ p, G.founder p → c.proc p = .down {} → c'.proc p = c.proc p) : ∃ g', G.Rel c' g' :=
  let ⟨g', h1, _⟩ := h.step_grows hs hns hb
  ⟨g', h1⟩

end MGen

theorem reach_rel {env : Env} {dec : Entry → Option ConfChangeI} {G : Genesis} (hG : GenesisOK dec G) {c : State} (h : Members.Reach env dec G c) :
    ∃ g, (gen hG).Rel c g := by
  induction h with
  | init disk hd =>
    refine ⟨.init G.term, ⟨.init, fun _ h => h.elim, Or.inl rfl⟩, fun p => ?_, ?_, ?_, ?_, ?_⟩
    · left
      show (gen hG).Durable (disk p) _
      have := hd p
      refine ⟨this.wf, ?_, this.term, Or.inl this.vote, this.commit, ⟨?_, ?_, G.trk.config, ?_, this.snapConf⟩, this.snapIndex, this.snapBase⟩
      · show LogRel (G.log ++ []) _
        rw [List.append_nil]; exact this.log
      · exact this.snapIndex
      · show _ = gterm (G.log ++ []) _
        rw [List.append_nil]; exact this.snapTerm
      · refine Or.inr ⟨Nat.zero_le _, ?_⟩
        show CfgAt dec G.trk.config (([] : List Entry).take _) _
        rw [List.take_nil]; exact .nil
    all_goals intro x hx; cases hx
  | step _ hs ih =>
    obtain ⟨g, hr⟩ := ih
    exact hr.step hs (fun h => h) fun _ h => h.elim

end Craft.Dyn
