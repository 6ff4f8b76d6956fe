import Verif.Node.Leader
import Verif.Props.NodePropose
import Verif.Demo

/-! # C31, C38: what a leader does to its log

`x` and `y` are two moments of one incarnation of a node, started from a disk in order, that leads the same term at both:
calls, Readys (with any configuration changes), compactions and snapshots in between, in any number and order. -/

namespace Craft
open Spec

/-- Between two moments of the same leadership no entry of the log changes or disappears, except that compaction drops a
prefix: the log starts no earlier, ends no earlier, and every index that both cover (and every index of the old log still
stored) holds the same entry. -/
theorem C31_leader_append_only {env : Env} {cfg : Config} {st : Storage} {rng : Nat} {n x y : RawNode}
    (hs : st.Sound) (hn : RawNode.new env cfg st rng = .ok n) (hx : NodeRun env n x) (hy : NodeRun env x y)
    (lx : x.raft.state = .leader) (ly : y.raft.state = .leader) (ht : y.raft.term = x.raft.term) :
    x.raft.log.view.base ≤ y.raft.log.view.base ∧ x.raft.log.view.last ≤ y.raft.log.view.last ∧
    ∀ i, y.raft.log.view.base < i → i ≤ x.raft.log.view.last → y.raft.log.view.entry i = x.raft.log.view.entry i := by
  rcases hy.lead (hx.ninv (NInv.new hn hs)) (Lead.start (c := x.raft.core) lx) with h | h
  · exact ⟨h.base, h.last, h.keep⟩
  · exfalso
    rcases h with h | ⟨_, h, _⟩
    · have : x.raft.term < y.raft.term := h
      omega
    · exact h ly

/-- The single call: a leader that stays leader of its term has, after any call, its old log with something added. -/
theorem C31_call {env : Env} {cfg : Config} {st : Storage} {rng : Nat} {n x y : RawNode} {c : Call}
    (hs : st.Sound) (hn : RawNode.new env cfg st rng = .ok n) (hx : NodeRun env n x) (hp : c.Plain) (hst : c.Stamped) (hw : c.WF)
    (hc : c.run env x = .ok y) (lx : x.raft.state = .leader) (ly : y.raft.state = .leader) (ht : y.raft.term = x.raft.term) :
    ∀ i, y.raft.log.view.base < i → i ≤ x.raft.log.view.last → y.raft.log.view.entry i = x.raft.log.view.entry i :=
  (C31_leader_append_only hs hn hx (.call c .refl hp hst hw hc) lx ly ht).2.2

/-- Of the configuration changes in a leader's log beyond its applied index, at most one was appended since any earlier
moment `x` of the leadership, and then it is the only unapplied one. -/
theorem C38_one_pending {env : Env} {cfg : Config} {st : Storage} {rng : Nat} {n x y : RawNode}
    (hs : st.Sound) (hn : RawNode.new env cfg st rng = .ok n) (hx : NodeRun env n x) (hy : NodeRun env x y)
    (lx : x.raft.state = .leader) (ly : y.raft.state = .leader) (ht : y.raft.term = x.raft.term)
    {i j : Nat} {a b : Entry} (hi : y.raft.log.view.entry i = some a) (hj : y.raft.log.view.entry j = some b)
    (ta : a.type ≠ .normal) (tb : b.type ≠ .normal) (new : x.raft.log.view.last < i)
    (ui : y.raft.log.applied < i) (uj : y.raft.log.applied < j) : i = j := by
  rcases hy.lead (hx.ninv (NInv.new hn hs)) (Lead.start (c := x.raft.core) lx) with h | h
  · exact h.one i j ⟨a, hi, ta⟩ ⟨b, hj, tb⟩ new ui uj
  · exfalso
    rcases h with h | ⟨_, h, _⟩
    · have : x.raft.term < y.raft.term := h
      omega
    · exact h ly

/-- While a configuration change is in the log and not applied, proposals (local or forwarded, any number of entries,
any mixture) add no further one: an accepted proposal appends as many entries as it has, each configuration change
among them replaced by an empty normal entry. -/
theorem C38_refused {env : Env} {cfg : Config} {st : Storage} {rng : Nat} {n x x' : RawNode} {m : Message} {e : Option Err}
    (hs : st.Sound) (hn : RawNode.new env cfg st rng = .ok n) (hx : NodeRun env n x) (lx : x.raft.state = .leader)
    {i : Nat} {a : Entry} (hi : x.raft.log.view.entry i = some a) (ta : a.type ≠ .normal) (ui : x.raft.log.applied < i)
    (hm : m.type = .prop) (h0 : m.term = 0) (h : x.step env m = .ok (x', e)) :
    (e = some .proposalDropped ∧ x'.raft.log = x.raft.log) ∨
    (e = none ∧ ∃ es : List Entry, es.length = m.entries.length ∧
      (∀ (k : Nat) (y : Entry), es[k]? = some y → y.type = .normal ∧ (y = {} ∨ m.entries[k]? = some y)) ∧
      x'.raft.log.view = x.raft.log.view.push
        (es.mapIdx fun k y => { y with term := x.raft.term, index := x.raft.log.view.last + 1 + k })) := by
  have hi0 := hx.ninv (NInv.new hn hs)
  have hw : x.raft.log.WF := hi0.linv.wf
  unfold RawNode.step at h
  rw [if_neg (by rw [hm]; decide), if_pos (Or.inr (by rw [hm]; decide))] at h
  obtain ⟨h, hnn⟩ := onRaft_ok h
  have hstamp : ∀ (t k : Nat) (es : List Entry), Raft.stamp t k es = es.mapIdx fun j y => { y with term := t, index := k + j } := by
    intro t k es
    induction es generalizing k with
    | nil => rfl
    | cons y es ih =>
      rw [List.mapIdx_cons]
      show _ :: Raft.stamp t (k + 1) es = _
      rw [ih]
      have hf : (fun (j : Nat) (y : Entry) => ({ y with term := t, index := k + 1 + j } : Entry)) =
          fun j y => { y with term := t, index := k + (j + 1) } := by
        funext j y
        rw [show k + 1 + j = k + (j + 1) by omega]
      rw [hf]
      rfl
  rcases Raft.prop_cases hw hm h0 h with ⟨h1, h2, _⟩ | ⟨h1, _⟩ | ⟨_, _, _, es, pci, hg, h4⟩
  · exact Or.inl ⟨h1, by rw [hnn, h2]⟩
  · rw [lx] at h1; cases h1
  · rcases h4 with ⟨h4, h5, _⟩ | ⟨h4, _, h5, _⟩
    · exact Or.inl ⟨h4, by rw [hnn, h5]⟩
    · refine Or.inr ⟨h4, es, ?_⟩
      obtain ⟨g1, g2, _, g3⟩ := Raft.gateConf_spec _ hg
      refine ⟨g1, ?_, ?_⟩
      · have hpend : i ≤ max x.raft.log.applied x.raft.pendingConfIndex := hi0.conf lx i ⟨a, hi, ta⟩
        rcases g3 with ⟨g3, _⟩ | ⟨g3, _⟩
        · exact fun k y hk => ⟨g3 y (List.mem_of_getElem? hk), g2 k y hk⟩
        · omega
      · rw [hnn]
        show x'.raft.log.view = _
        rw [h5, hw.lastIndex_eq, hstamp]

/-! ## A case that meets the hypotheses -/

namespace Demo

/-- Calls that are all plain and well-formed run to a node of `NodeRun`. -/
theorem nodeRun {env : Env} {n x : RawNode} (cs : List Call) (hc : ∀ c ∈ cs, c.Plain ∧ c.Stamped ∧ c.WF)
    (h : cs.foldlM (fun n c => c.run env n) n = .ok x) : NodeRun env n x := by
  suffices ∀ (cs : List Call) (a : RawNode), NodeRun env n a → (∀ c ∈ cs, c.Plain ∧ c.Stamped ∧ c.WF) →
      cs.foldlM (fun n c => c.run env n) a = .ok x → NodeRun env n x from this cs n .refl hc h
  intro cs
  induction cs with
  | nil => intro a ha _ h; cases h; exact ha
  | cons c cs ih =>
    intro a ha hc h
    rw [List.foldlM_cons] at h
    obtain ⟨b, hb, h⟩ := Res.bind_eq_ok.1 h
    obtain ⟨h1, h2, h3⟩ := hc c (List.mem_cons_self ..)
    exact ih b (.call c ha h1 h2 h3 hb) (fun c hc' => hc c (List.mem_cons_of_mem _ hc')) h

/-- An environment in which the bytes `[1]` are a configuration change adding voter 4. -/
def env1 : Env :=
  { env with parseV1 := fun _ => some { type := .addNode, nodeId := 4 }, serV1 := fun _ => [1] }

theorem store_sound : store.Sound := by
  refine ⟨⟨by decide, ?_⟩, by decide⟩
  intro j e he
  match j, he with
  | 0, he => cases he; rfl

/-- The node after the calls `cs`, in `env1`. -/
def node1 (cs : List Call) : RawNode :=
  match (do let n ← RawNode.new env1 (cfg 1) store 0; cs.foldlM (fun n c => c.run env1 n) n : Res RawNode) with
  | .ok n => n
  | _ => default

def propose2 : List Call :=
  [.propose [5], .proposeConfChange (.v1 { type := .addNode, nodeId := 4 }), .proposeConfChange (.v1 { type := .addNode, nodeId := 4 }),
   .step { type := .appResp, src := 2, to := 1, term := 1, index := 2 }]

/-- Node 1, elected at `x`; at `y` it has proposed something, two configuration changes (the second one was refused) and
committed index 2. Both moments belong to a run from a sound disk and to the same leadership. -/
example : ∃ n x y, RawNode.new env1 (cfg 1) store 0 = .ok n ∧ store.Sound ∧ NodeRun env1 n x ∧ NodeRun env1 x y ∧
    x.raft.state = .leader ∧ y.raft.state = .leader ∧ y.raft.term = x.raft.term ∧
    x.raft.log.view.last = 1 ∧ y.raft.log.view.last = 4 ∧ y.raft.log.committed = 2 ∧
    y.raft.log.view.ents.map (·.type) = [.normal, .normal, .confChange, .normal] := by
  refine ⟨node1 [], node1 elect, node1 (elect ++ propose2), by decide +kernel, store_sound, nodeRun elect ?_ (by decide +kernel), nodeRun propose2 ?_ (by decide +kernel),
    by decide +kernel, by decide +kernel, by decide +kernel, by decide +kernel, by decide +kernel, by decide +kernel, by decide +kernel⟩
  all_goals
    intro c hc
    simp only [elect, propose2, List.mem_cons, List.not_mem_nil, or_false] at hc
    rcases hc with rfl | rfl | rfl | rfl <;> refine ⟨trivial, ?_, ?_⟩ <;> first | trivial | (intro h; cases h; done) | (intro h; rcases h with h | h | h <;> cases h)

end Demo

end Craft
