import Verif.Dyn.Safety
import Verif.Spec.Boot

/-! # Clusters started with `Bootstrap` are executions of the abstract protocol

The founders write the same log without talking to each other. In the abstract protocol the first of them is elected alone and
replicates that log, one conf change at a time, to the others; the cluster starts from the state reached then. -/

namespace Craft.Dyn
open Spec Members Boot
open Cluster (Delivered Led Vital gterm LogRel gterm_some gterm_prefix gterm_out gterm_ne append_take append_prefix)
open Cluster.Gen (append_same)

/-! ## The configurations -/

/-- The configuration with the voters `l`. -/
def pc (l : List Nat) : TConfig := { voters := ⟨USet.insertAll [] l, []⟩ }

theorem insertAll_sorted : ∀ (l : List Nat) {s : USet}, s.Pairwise (· < ·) → (USet.insertAll s l).Pairwise (· < ·)
  | [], _, h => h
  | a :: l, s, h => by
    show (USet.insertAll (USet.insert s a) l).Pairwise (· < ·)
    exact insertAll_sorted l (USet.insert_sorted a h)

theorem pc_inc (l : List Nat) (x : Nat) : x ∈ (pc l).voters.incoming ↔ x ∈ l := by
  show x ∈ USet.insertAll [] l ↔ _
  rw [USet.mem_insertAll]; simp

theorem pc_sorted (l : List Nat) : (pc l).voters.incoming.Pairwise (· < ·) := insertAll_sorted l List.Pairwise.nil

theorem pc_member {l : List Nat} {x : Nat} : Member (pc l) x ↔ x ∈ l := by
  unfold Member
  rw [pc_inc]
  simp [pc]

/-- A valid configuration with these voters is this one. -/
theorem pc_of {cfg : TConfig} {prs : ProgressMap} {l : List Nat} (h : ConfInv cfg prs) (ho : cfg.voters.outgoing = [])
    (hi : ∀ x, x ∈ cfg.voters.incoming ↔ x ∈ l) (hl : ∀ x, x ∉ cfg.learners) : cfg = pc l := by
  have e1 := USet.ext_sorted h.inc_sorted (pc_sorted l) (fun x => (hi x).trans (pc_inc l x).symm)
  have e2 := List.eq_nil_iff_forall_not_mem.2 hl
  obtain ⟨e3, e4⟩ := h.not_joint ho
  obtain ⟨⟨ai, ao⟩, al, an, aa⟩ := cfg
  simp only at e1 e2 e3 e4 ho
  subst e2 e3 e4 ho
  rw [e1]; rfl

theorem pc_congr {l l' : List Nat} (h : ∀ x, x ∈ l ↔ x ∈ l') : pc l = pc l' := by
  unfold pc
  rw [USet.ext_sorted (insertAll_sorted l List.Pairwise.nil) (insertAll_sorted l' List.Pairwise.nil) fun x => by
    rw [USet.mem_insertAll, USet.mem_insertAll, h x]]

/-- The change `Bootstrap` makes for one peer. -/
def addCC (q : Nat) (ctx : Bytes) : ConfChangeV2 := (ConfChangeI.v1 { type := .addNode, nodeId := q, context := ctx }).asV2

theorem change_add {c : Changer} {q : Nat} {ctx : Bytes} : change c (addCC q ctx) = c.simple [⟨.addNode, q⟩] := rfl

/-- Adding a voter. -/
theorem add_pc {c : Changer} {l : List Nat} {q : Nat} {ctx : Bytes} {cfg' : TConfig} {prs' : ProgressMap} (hc : c.tracker.config = pc l)
    (hi : ConfInv c.tracker.config c.tracker.progress) (hq : q ≠ 0) (h : change c (addCC q ctx) = .ok (cfg', prs')) :
    cfg' = pc (l ++ [q]) ∧ ConfInv cfg' prs' := by
  obtain ⟨h1, h2⟩ := change_sets hi h
  refine ⟨?_, h1⟩
  rcases h2 with ⟨h2, _⟩ | ⟨_, h2, _⟩ | ⟨_, _, _, h2, _, _, h3⟩
  · cases h2
  · cases h2
  · have h3' : ((MConf.of c.tracker.config).change (fun _ => False) ⟨.addNode, q⟩).Is cfg' := h3
    unfold MConf.change at h3'
    rw [if_neg hq] at h3'
    obtain ⟨a1, a2, _⟩ := h3'
    refine pc_of h1 h2 (fun x => ?_) fun x hx => ?_
    · rw [a1]
      show x = q ∨ x ∈ c.tracker.config.voters.incoming ↔ _
      rw [hc, pc_inc, List.mem_append, List.mem_singleton]
      exact or_comm
    · have := (a2 x).1 hx
      have h4 : x ∈ c.tracker.config.learners := this.2
      rw [hc] at h4; cases h4

theorem add_pc_ex {c : Changer} {l : List Nat} {q : Nat} {ctx : Bytes} (hc : c.tracker.config = pc l)
    (hi : ConfInv c.tracker.config c.tracker.progress) (hq : q ≠ 0) : ∃ prs', change c (addCC q ctx) = .ok (pc (l ++ [q]), prs') := by
  obtain ⟨cfg', prs', h1, _⟩ := Changer.simple_single c hi (by rw [hc]; rfl) ⟨.addNode, q⟩ (by intro n h; cases h) ⟨q, by
    unfold MConf.change
    rw [if_neg hq]
    exact Or.inl rfl⟩
  have h2 : change c (addCC q ctx) = .ok (cfg', prs') := by rw [change_add]; exact h1
  have := (add_pc hc hi hq h2).1
  subst this
  exact ⟨prs', h2⟩

theorem inv_empty : ConfInv {} [] := by constructor <;> simp [Member, AMap.find]

theorem pc_inv : ∀ (n : Nat) (l : List Nat), l.length = n → 0 ∉ l → ∃ prs, ConfInv (pc l) prs := by
  intro n
  induction n with
  | zero =>
    intro l hl _
    rw [List.length_eq_zero_iff] at hl
    subst hl
    exact ⟨[], inv_empty⟩
  | succ n ih =>
    intro l hl h0
    rcases List.eq_nil_or_concat l with rfl | ⟨l', q, rfl⟩
    · cases hl
    · simp only [List.length_append, List.length_cons, List.length_nil, Nat.zero_add, Nat.add_right_cancel_iff, List.concat_eq_append] at hl
      simp only [List.concat_eq_append, List.mem_append, List.mem_singleton, not_or] at h0
      obtain ⟨prs, hi⟩ := ih l' hl h0.1
      obtain ⟨prs', h2⟩ := add_pc_ex (c := { tracker := { config := pc l', progress := prs, maxInflight := 0 }, lastIndex := 0 }) (ctx := []) rfl hi
        (q := q) (fun h => h0.2 h.symm)
      rw [List.concat_eq_append]
      exact ⟨prs', (add_pc (c := { tracker := { config := pc l', progress := prs, maxInflight := 0 }, lastIndex := 0 }) rfl hi (fun h => h0.2 h.symm) h2).2⟩

theorem pc_good {l : List Nat} (h0 : 0 ∉ l) (hl : l ≠ []) : GoodCfg (pc l) := by
  refine ⟨pc_inv _ l rfl h0, fun h => h0 (pc_member.1 h), fun h => ?_⟩
  cases l with
  | nil => exact hl rfl
  | cons a l =>
    have := (pc_inc (a :: l) a).2 List.mem_cons_self
    rw [h] at this; cases this

theorem next_pc {l : List Nat} {q : Nat} {ctx : Bytes} {cfg' : TConfig} (hq : q ≠ 0) (h0 : 0 ∉ l) :
    Next (addCC q ctx) (pc l) cfg' ↔ cfg' = pc (l ++ [q]) := by
  constructor
  · rintro ⟨c, h1, h2, prs', h3⟩
    rw [← h1] at h2
    exact (add_pc h1 h2 hq h3).1
  · rintro rfl
    obtain ⟨prs, hi⟩ := pc_inv _ l rfl h0
    obtain ⟨prs', h2⟩ := add_pc_ex (c := { tracker := { config := pc l, progress := prs, maxInflight := 0 }, lastIndex := 0 }) (ctx := ctx) rfl hi hq
    exact ⟨{ tracker := { config := pc l, progress := prs, maxInflight := 0 }, lastIndex := 0 }, rfl, hi, prs', h2⟩

/-! ## The log the founders write -/

section
variable {env : Env} {dec : Entry → Option ConfChangeI} {peers : List (Nat × Bytes)}

theorem boot_length : ∀ (ps : List (Nat × Bytes)) (i : Nat), (RawNode.bootstrapEntries env i ps).length = ps.length
  | [], _ => rfl
  | p :: ps, i => by
    unfold RawNode.bootstrapEntries
    rw [List.length_cons, List.length_cons, boot_length ps]

theorem boot_get : ∀ (ps : List (Nat × Bytes)) (i k : Nat) {e : Entry}, (RawNode.bootstrapEntries env i ps)[k]? = some e →
    e.type = .confChange ∧ e.term = 1 ∧ e.index = i + k ∧ ∃ q, ps[k]? = some q ∧ e.data = env.serV1 { type := .addNode, nodeId := q.1, context := q.2 }
  | [], _, _, _, h => by cases h
  | p :: ps, i, 0, e, h => by
    unfold RawNode.bootstrapEntries at h
    simp only [List.getElem?_cons_zero, Option.some.injEq] at h
    subst h
    exact ⟨rfl, rfl, rfl, p, rfl, rfl⟩
  | p :: ps, i, k + 1, e, h => by
    unfold RawNode.bootstrapEntries at h
    rw [List.getElem?_cons_succ] at h
    obtain ⟨h1, h2, h3, q, h4, h5⟩ := boot_get ps (i + 1) k h
    exact ⟨h1, h2, by omega, q, h4, h5⟩

theorem estep_pc (hp : PeersOK env dec peers) {k : Nat} {e : Entry} (he : (RawNode.bootstrapEntries env 1 peers)[k]? = some e) :
    ∃ q, (peers.map (·.1))[k]? = some q ∧ q ≠ 0 ∧ ∀ (l : List Nat) (cfg' : TConfig), 0 ∉ l → (EStep dec e (pc l) cfg' ↔ cfg' = pc (l ++ [q])) := by
  obtain ⟨h1, _, _, q, h4, h5⟩ := boot_get peers 1 k he
  have hq := List.mem_of_getElem? h4
  have hd := hp.read q hq e h1 h5
  refine ⟨q.1, by rw [List.getElem?_map, h4]; rfl, hp.ids q hq, fun l cfg' h0 => ?_⟩
  unfold EStep confOf
  rw [if_neg (by rw [h1]; decide), hd]
  exact next_pc (hp.ids q hq) h0

theorem peers_zero (h : PeersOK env dec peers) (j : Nat) : 0 ∉ (peers.map (·.1)).take j := fun h0 => by
  obtain ⟨q, h1, h2⟩ := List.mem_map.1 (List.mem_of_mem_take h0)
  exact h.ids q h1 h2

/-- The configuration of a prefix of the bootstrap log. -/
theorem boot_cfg (h : PeersOK env dec peers) : ∀ k, k ≤ peers.length →
    CfgAt dec (pc ((peers.map (·.1)).take 1)) ((RawNode.bootstrapEntries env 1 peers).take k) (pc ((peers.map (·.1)).take (max k 1)))
  | 0, _ => by rw [List.take_zero]; exact .nil
  | k + 1, hk => by
    have ih := boot_cfg h k (by omega)
    have hlt : k < (RawNode.bootstrapEntries env 1 peers).length := by rw [boot_length]; omega
    have he := List.getElem?_eq_getElem hlt
    obtain ⟨q, h1, h2, h3⟩ := estep_pc h he
    rw [show (RawNode.bootstrapEntries env 1 peers).take (k + 1) = (RawNode.bootstrapEntries env 1 peers).take k ++
      [(RawNode.bootstrapEntries env 1 peers)[k]] by rw [List.take_add_one, he]; rfl]
    refine ih.snoc ((h3 _ _ (peers_zero h _)).2 ?_)
    cases k with
    | zero =>
      rw [show max 0 1 = 0 + 1 from rfl, List.take_add_one, h1]
      apply pc_congr
      intro x
      rw [show max (0 + 1) 1 = 0 + 1 from rfl, List.take_add_one, h1]
      simp
    | succ k =>
      rw [Nat.max_eq_left (by omega), Nat.max_eq_left (by omega), List.take_add_one, h1]; rfl

/-- The bootstrap entries can be applied one after the other. -/
theorem boot_applies (h : PeersOK env dec peers) : Applies dec (pc ((peers.map (·.1)).take 1)) (RawNode.bootstrapEntries env 1 peers) := by
  intro k e he cfg hc
  have hlt := (List.getElem?_eq_some_iff.1 he).1
  rw [boot_length] at hlt
  have := hc.det (boot_cfg h k (by omega))
  subst this
  obtain ⟨q, _, _, h3⟩ := estep_pc h he
  exact ⟨_, (h3 _ _ (peers_zero h _)).2 rfl⟩

/-- The empty change, as leaders propose it to leave a joint configuration, can be applied. -/
def AutoOk (dec : Entry → Option ConfChangeI) : Prop :=
  ∀ cfg e, GoodCfg cfg → cfg.autoLeave = true → e.type = .confChangeV2 → e.data = [] → ∃ cfg', EStep dec e cfg cfg'

/-- The initial situation, for the abstract protocol. -/
def bgenX (h : PeersOK env dec peers) {st : Prop} (hA : st → AutoOk dec) : MGen where
  L0 := []
  τ := 0
  dec := dec
  cfg0 := pc ((peers.map (·.1)).take 1)
  good := by
    refine pc_good (fun h0 => ?_) fun h0 => ?_
    · obtain ⟨q, h1, h2⟩ := List.mem_map.1 (List.mem_of_mem_take h0)
      exact h.ids q h1 h2
    · obtain ⟨a, l, hl⟩ := List.exists_cons_of_ne_nil h.some
      rw [hl] at h0; cases h0
  terms := nofun
  low := Nat.zero_le _
  still := nofun
  B := RawNode.bootstrapEntries env 1 peers
  τ1 := 1
  founder := Founder peers
  Early := fun k cfg => ∃ j, k ≤ j ∧ cfg = pc ((peers.map (·.1)).take j)
  bootL0 := fun _ => rfl
  bootConf := by
    intro e he
    obtain ⟨k, hk⟩ := List.getElem?_of_mem he
    rw [(boot_get peers 1 k hk).1]; decide
  bootτ := by
    intro hb
    have := boot_length (env := env) peers 1
    rw [hb] at this
    exact absurd (List.length_eq_zero_iff.1 this.symm) h.some
  bootτ' := Nat.le_refl _
  earlyMem := by
    rintro k cfg x ⟨j, _, rfl⟩ hm
    exact List.mem_of_mem_take (pc_member.1 hm)
  earlyStep := by
    rintro k e cfg cfg' he ⟨j, hj, rfl⟩ hs
    obtain ⟨q, h1, h2, h3⟩ := estep_pc h he
    have h0 : ∀ j, 0 ∉ (peers.map (·.1)).take j := fun j h0 => by
      obtain ⟨q, h1, h2⟩ := List.mem_map.1 (List.mem_of_mem_take h0)
      exact h.ids q h1 h2
    have h4 := (h3 _ _ (h0 j)).1 hs
    have key : ∃ j, k + 1 ≤ j ∧ cfg' = pc ((peers.map (·.1)).take j) := by
      by_cases hjk : j = k
      · subst hjk
        refine ⟨j + 1, Nat.le_refl _, ?_⟩
        rw [h4, List.take_add_one, h1]; rfl
      · refine ⟨j, by omega, ?_⟩
        rw [h4]
        apply pc_congr
        intro x
        rw [List.mem_append, List.mem_singleton]
        constructor
        · rintro (h | rfl)
          · exact h
          · refine List.mem_of_getElem? (i := k) ?_
            rw [List.getElem?_take_of_lt (by omega)]; exact h1
        · exact Or.inl
    refine ⟨fun _ => key, fun hlast => ?_⟩
    obtain ⟨j', hj', rfl⟩ := key
    rw [boot_length] at hlast
    have e := boot_cfg h peers.length (Nat.le_refl _)
    rw [List.take_of_length_le (l := RawNode.bootstrapEntries env 1 peers) (by rw [boot_length]),
      List.take_of_length_le (i := max peers.length 1) (by rw [List.length_map]; exact Nat.le_max_left _ _)] at e
    rw [List.take_of_length_le (i := j') (by rw [List.length_map]; exact Nat.le_trans (Nat.le_of_eq hlast.symm) hj')]
    exact e
  strict := st
  autoOk := hA
  earlyGood := by
    rintro k cfg ⟨j, _, rfl⟩
    by_cases hl : (peers.map (·.1)).take j = []
    · right; rw [hl]; rfl
    · left
      refine pc_good (fun h0 => ?_) hl
      obtain ⟨q, h1, h2⟩ := List.mem_map.1 (List.mem_of_mem_take h0)
      exact h.ids q h1 h2

/-! ## The run that the bootstrap stands for -/

variable {st : Prop} (hA : st → AutoOk dec)


/-- Several nodes take a step each. -/
theorem each {Q : CSys} {τ : Nat} {g : DState} (hg : DReach Q τ g) (f : Nat → DNode) (out : Nat → List DMsg) : ∀ (l : List Nat),
    (∀ v ∈ l, LStep Q v g.net (g.node v) (out v) (f v)) → ∃ g', DReach Q τ g' ∧ (∀ v, g'.node v = if v ∈ l then f v else g.node v) ∧
      (∀ m ∈ g.net, m ∈ g'.net) ∧ ∀ v ∈ l, ∀ m ∈ out v, m ∈ g'.net
  | [], _ => ⟨g, hg, fun v => by rw [if_neg (by simp)], fun _ h => h, nofun⟩
  | a :: l, h => by
    obtain ⟨g', h1, h2, h3, h4⟩ := each hg f out l fun v hv => h v (List.mem_cons_of_mem _ hv)
    by_cases ha : a ∈ l
    · refine ⟨g', h1, fun v => ?_, h3, fun v hv => ?_⟩
      · rw [h2]
        by_cases hv : v ∈ l
        · rw [if_pos hv, if_pos (List.mem_cons_of_mem _ hv)]
        · rw [if_neg hv, if_neg]
          intro hc
          rcases List.mem_cons.1 hc with rfl | hc
          · exact hv ha
          · exact hv hc
      · rcases List.mem_cons.1 hv with rfl | hv
        · exact h4 _ ha
        · exact h4 _ hv
    · have hs : LStep Q a g'.net (g'.node a) (out a) (f a) := by
        rw [h2, if_neg ha]
        exact (h a List.mem_cons_self).mono h3
      refine ⟨_, h1.step (.mk a hs), fun v => ?_, fun m hm => List.mem_append_left _ (h3 m hm), fun v hv m hm => ?_⟩
      · show (if v = a then f a else g'.node v) = _
        by_cases hv : v = a
        · subst hv; rw [if_pos rfl, if_pos List.mem_cons_self]
        · rw [if_neg hv, h2]
          by_cases hl : v ∈ l
          · rw [if_pos hl, if_pos (List.mem_cons_of_mem _ hl)]
          · rw [if_neg hl, if_neg]
            intro hc
            rcases List.mem_cons.1 hc with hc | hc
            · exact hv hc
            · exact hl hc
      · rcases List.mem_cons.1 hv with rfl | hv
        · exact List.mem_append_right _ hm
        · exact List.mem_append_left _ (h4 v hv m hm)

/-- The first founder has replicated `k` entries. -/
structure Booting (h : PeersOK env dec peers) (hA : st → AutoOk dec) (p0 : Nat) (k : Nat) (g : DState) : Prop where
  reach : DReach (bgenX h hA).Q 0 g
  first : g.node p0 = { term := 1, vote := p0, role := .leader, log := (bgenX h hA).B.take k, commit := k, conf := k }
  rest : ∀ v, Founder peers v → v ≠ p0 → g.node v = { term := 1, log := (bgenX h hA).B.take k, commit := k - 1 }
  others : ∀ v, ¬ Founder peers v → g.node v = {}
  cov : k = 0 ∨ ∃ cf, DMsg.chosen 1 ((bgenX h hA).B.take k) cf ∈ g.net

theorem jq_all {l : List Nat} (hl : l ≠ []) {S : Nat → Prop} (hS : ∀ x ∈ l, S x) : JQ (pc l).voters S := by
  refine ⟨⟨fun _ => true, ?_, fun v hv _ => hS v ((pc_inc l v).1 hv)⟩, fun h => absurd rfl h⟩
  unfold Spec.Majority Spec.count
  have : (pc l).voters.incoming ≠ [] := by
    cases l with
    | nil => exact absurd rfl hl
    | cons a l =>
      intro hn
      have := (pc_inc (a :: l) a).2 List.mem_cons_self
      rw [hn] at this; cases this
  have := List.length_pos_iff.2 this
  rw [List.filter_eq_self.2 (fun _ _ => rfl)]
  omega

theorem first_take {p0 : Nat} {r : List Nat} {l : List Nat} (hl : l = p0 :: r) (k : Nat) : l.take (max k 1) ≠ [] := by
  rw [hl, show max k 1 = (max k 1 - 1) + 1 by omega, List.take_succ_cons]
  exact List.cons_ne_nil _ _

theorem boot_start (h : PeersOK env dec peers) {p0 : Nat} {r : List Nat} (hp0 : peers.map (·.1) = p0 :: r) : ∃ g, Booting h hA p0 0 g := by
  have hf0 : Founder peers p0 := by unfold Founder; rw [hp0]; exact List.mem_cons_self
  have hne : p0 ≠ 0 := by
    obtain ⟨q, h1, h2⟩ := List.mem_map.1 hf0
    rw [← h2]; exact h.ids q h1
  have r0 : DReach (bgenX h hA).Q 0 (.init 0) := .init
  -- the first founder runs
  have r1 := r0.step (.mk p0 (LStep.cand (a := {}) hne (by decide) (Nat.le_refl _)))
  -- and wins
  have r2 := r1.step (.mk p0 (LStep.win (fun v => v = p0) (by rw [upd_self]) ?_ ?_))
  rotate_left
  · rw [upd_self]
    refine ⟨_, .nil, jq_all (l := (peers.map Prod.fst).take 1) (first_take hp0 0) ?_⟩
    intro x hx
    have hp0' : peers.map Prod.fst = p0 :: r := hp0
    rw [hp0'] at hx
    simpa using hx
  · rintro u rfl
    rw [upd_self]
    refine List.mem_append_right _ ?_
    simp
  -- the others move to term 1
  obtain ⟨g, h1, h2, h3, h4⟩ := each r2 (fun _ => { term := 1 }) (fun _ => []) ((peers.map (·.1)).filter fun v => v ≠ p0) (by
    intro v hv
    have hv' : v ≠ p0 := by simpa using (List.mem_filter.1 hv).2
    rw [upd_ne hv', upd_ne hv']
    exact LStep.term (a := {}) 1 (Nat.lt_succ_self 0))
  refine ⟨g, h1, ?_, fun v hv hne => ?_, fun v hv => ?_, Or.inl rfl⟩
  · rw [h2, if_neg (by simp), upd_self, upd_self]; rfl
  · rw [h2, if_pos (by rw [List.mem_filter]; exact ⟨hv, by simpa using hne⟩)]; rfl
  · have hne : v ≠ p0 := by rintro rfl; exact hv hf0
    rw [h2, if_neg (by rw [List.mem_filter]; exact fun h => hv h.1), upd_ne hne, upd_ne hne]; rfl

theorem boot_next (h : PeersOK env dec peers) {p0 : Nat} {r : List Nat} (hp0 : peers.map (·.1) = p0 :: r) {k : Nat} (hk : k < peers.length)
    {g : DState} (hg : Booting h hA p0 k g) : ∃ g', Booting h hA p0 (k + 1) g' := by
  have hlen : (bgenX h hA).B.length = peers.length := boot_length _ _
  have hlt : k < (bgenX h hA).B.length := by omega
  have he := List.getElem?_eq_getElem hlt
  have hterm : (bgenX h hA).B[k].term = 1 := (boot_get peers 1 k he).2.1
  have htk : (bgenX h hA).B.take (k + 1) = (bgenX h hA).B.take k ++ [(bgenX h hA).B[k]] := by rw [List.take_add_one, he]; rfl
  have hlk : ((bgenX h hA).B.take k).length = k := by rw [List.length_take]; omega
  have hlk1 : ((bgenX h hA).B.take (k + 1)).length = k + 1 := by rw [List.length_take]; omega
  have hnc : nconf ((bgenX h hA).B.take (k + 1)) ≤ nconf ((bgenX h hA).B.take k) + 1 := by
    rw [htk, nconf_append, nconf_single]; split <;> omega
  have hf0 : Founder peers p0 := by unfold Founder; rw [hp0]; exact List.mem_cons_self
  -- the first founder appends the entry
  have r1 := hg.reach.step (.mk p0 (LStep.append (a := g.node p0) [(bgenX h hA).B[k]] (by rw [hg.first]) (by
      intro e hm; rw [List.mem_singleton] at hm; subst hm; rw [hg.first]; exact hterm) (by
      rw [hg.first]; dsimp only; rw [← htk, List.take_of_length_le (l := (bgenX h hA).B.take k) (by omega)]; exact hnc) (by
      intro _
      rw [hg.first]; dsimp only; rw [← htk]
      exact (boot_applies h).prefix (List.take_prefix _ _))))
  -- the others receive it
  obtain ⟨g2, r2, h2, h3, h4⟩ := each r1 (fun _ => { term := 1, log := (bgenX h hA).B.take (k + 1), commit := k }) (fun v => [.ack 1 v (k + 1)])
    ((peers.map (·.1)).filter fun v => v ≠ p0) (by
    intro v hv
    obtain ⟨hv1, hv2⟩ := List.mem_filter.1 hv
    have hv' : v ≠ p0 := by simpa using hv2
    rw [upd_ne hv', hg.rest v hv1 hv']
    have hs := LStep.recv (Q := (bgenX h hA).Q) (v := v) (N := (g.upd p0 { g.node p0 with log := (g.node p0).log ++ [(bgenX h hA).B[k]] }
        [.lead (g.node p0).term p0 ((g.node p0).log ++ [(bgenX h hA).B[k]]), .ack (g.node p0).term p0 ((g.node p0).log ++ [(bgenX h hA).B[k]]).length]).net)
      (a := { term := 1, log := (bgenX h hA).B.take k, commit := k - 1 }) p0 ((bgenX h hA).B.take (k + 1)) ((bgenX h hA).B.take (k + 1)) k rfl
      (by
        refine List.mem_append_right _ ?_
        rw [hg.first]; dsimp only; rw [htk]; exact List.mem_cons_self)
      (List.prefix_refl _) (by omega)
      (by
        rw [List.take_take, Nat.min_eq_left (by omega)]
        rcases hg.cov with rfl | ⟨cf, hc⟩
        · left; simp
        · exact Or.inr ⟨1, _, cf, List.mem_append_left _ hc, Nat.lt_succ_self _, List.prefix_refl _⟩)
      (by rw [List.take_take, Nat.min_eq_left (by omega)]; exact hnc)
    have hacc : Abs.accept ((bgenX h hA).B.take k) ((bgenX h hA).B.take (k + 1)) = (bgenX h hA).B.take (k + 1) := by
      unfold Abs.accept
      rw [if_neg]
      intro hp
      have := hp.length_le
      omega
    dsimp only at hs
    rw [hacc, Nat.max_eq_right (by omega), hlk1] at hs
    exact hs)
  have n2 : g2.node p0 = { term := 1, vote := p0, role := .leader, log := (bgenX h hA).B.take (k + 1), commit := k, conf := k } := by
    rw [h2, if_neg (by simp), upd_self, hg.first]; dsimp only; rw [← htk]
  -- the first founder commits it
  have r3 := r2.step (.mk p0 (LStep.commitL (a := g2.node p0) k (bgenX h hA).B[k] (Founder peers) (by rw [n2]) (by rw [n2]; exact Nat.le_succ k)
    (by rw [n2]; dsimp only; rw [List.getElem?_take_of_lt (by omega)]; exact he) (by rw [n2]; exact hterm)
    (by
      rw [n2]
      dsimp only
      rw [List.take_take, Nat.min_eq_left (by omega)]
      exact ⟨_, boot_cfg h k (by omega), jq_all (first_take hp0 k) fun x hx => List.mem_of_mem_take hx⟩)
    (by
      intro u hu
      rw [n2]
      refine ⟨k + 1, Nat.le_refl _, ?_⟩
      by_cases hu0 : u = p0
      · subst hu0
        refine h3 _ (List.mem_append_right _ ?_)
        rw [hg.first]; dsimp only; rw [← htk, hlk1]; simp
      · exact h4 u (by rw [List.mem_filter]; exact ⟨hu, by simpa using hu0⟩) _ (by simp))))
  -- and applies it
  have r4 := r3.step (.mk p0 (LStep.conf (k + 1) (by rw [upd_self]) (Or.inr (by rw [upd_self, n2]; exact Nat.le_succ k))))
  refine ⟨_, r4, ?_, fun v hv hne => ?_, fun v hv => ?_, Or.inr ⟨k, ?_⟩⟩
  · rw [upd_self, upd_self, n2]
  · rw [upd_ne hne, upd_ne hne, h2, if_pos (by rw [List.mem_filter]; exact ⟨hv, by simpa using hne⟩)]; rfl
  · have hne : v ≠ p0 := by rintro rfl; exact hv hf0
    rw [upd_ne hne, upd_ne hne, h2, if_neg (by rw [List.mem_filter]; exact fun h => hv h.1), upd_ne hne]
    exact hg.others v hv
  · refine List.mem_append_left _ (List.mem_append_right _ ?_)
    rw [n2]; dsimp only
    rw [List.take_take, Nat.min_self]; exact List.mem_cons_self

theorem boot_all (h : PeersOK env dec peers) {p0 : Nat} {r : List Nat} (hp0 : peers.map (·.1) = p0 :: r) :
    ∀ k, k ≤ peers.length → ∃ g, Booting h hA p0 k g
  | 0, _ => boot_start hA h hp0
  | k + 1, hk =>
    let ⟨_, hg⟩ := boot_all h hp0 k (by omega)
    boot_next hA h hp0 hk hg

/-- Where the cluster starts: every founder has the bootstrap log, all of it committed. -/
theorem boot_run (h : PeersOK env dec peers) : ∃ g, (bgenX h hA).Run g ∧
    (∀ v, Founder peers v → (g.node v).term = 1 ∧ (g.node v).log = (bgenX h hA).B ∧ (g.node v).commit = (bgenX h hA).B.length) ∧
    ∀ v, ¬ Founder peers v → g.node v = {} := by
  obtain ⟨q0, rest, hpe⟩ := List.exists_cons_of_ne_nil h.some
  have hp0 : peers.map (·.1) = q0.1 :: rest.map (·.1) := by rw [hpe]; rfl
  have hlen : (bgenX h hA).B.length = peers.length := boot_length _ _
  obtain ⟨g, hg⟩ := boot_all hA h hp0 peers.length (Nat.le_refl _)
  have hB : (bgenX h hA).B.take peers.length = (bgenX h hA).B := List.take_of_length_le (by omega)
  have hpos : 0 < peers.length := List.length_pos_iff.2 h.some
  obtain ⟨cf, hc⟩ : ∃ cf, DMsg.chosen 1 (bgenX h hA).B cf ∈ g.net := by
    rcases hg.cov with h0 | ⟨cf, hc⟩
    · omega
    · exact ⟨cf, by rw [hB] at hc; exact hc⟩
  obtain ⟨g2, r2, h2, h3, _⟩ := each hg.reach (fun _ => { term := 1, log := (bgenX h hA).B, commit := peers.length }) (fun _ => [])
    ((peers.map (·.1)).filter fun v => v ≠ q0.1) (by
    intro v hv
    obtain ⟨hv1, hv2⟩ := List.mem_filter.1 hv
    rw [hg.rest v hv1 (by simpa using hv2), hB]
    exact LStep.commitF (a := { term := 1, log := (bgenX h hA).B, commit := peers.length - 1 }) peers.length rfl (Nat.sub_le _ _) (by dsimp only; omega)
      (Or.inr ⟨1, _, cf, hc, Nat.lt_succ_self _, List.take_prefix _ _⟩))
  have key : ∀ v, Founder peers v → (g2.node v).term = 1 ∧ (g2.node v).log = (bgenX h hA).B ∧ (g2.node v).commit = (bgenX h hA).B.length := by
    intro v hv
    by_cases hv0 : v = q0.1
    · subst hv0
      rw [h2, if_neg (by simp), hg.first]
      exact ⟨rfl, hB, hlen.symm⟩
    · rw [h2, if_pos (by rw [List.mem_filter]; exact ⟨hv, by simpa using hv0⟩)]
      exact ⟨rfl, rfl, hlen.symm⟩
  refine ⟨g2, ⟨r2, fun p hp => ?_, Or.inr ⟨cf, h3 _ hc⟩⟩, key, fun v hv => ?_⟩
  · obtain ⟨k1, _, k3⟩ := key p hp
    exact ⟨Nat.le_of_eq k1.symm, Nat.le_of_eq k3.symm⟩
  · rw [h2, if_neg (by rw [List.mem_filter]; exact fun h => hv h.1)]
    exact hg.others v hv

/-! ## The call -/

theorem bootApply_ok : ∀ (ps : List (Nat × Bytes)) {r r' : Raft} {l : List Nat}, (∀ q ∈ ps, q.1 ≠ 0) → r.state = .follower → r.trk.config = pc l →
    ConfInv r.trk.config r.trk.progress → RawNode.bootstrapApply env ps r = .ok r' →
    r'.trk.config = pc (l ++ ps.map (·.1)) ∧ ConfInv r'.trk.config r'.trk.progress ∧ r'.state = .follower ∧ r'.log = r.log ∧ r'.term = r.term ∧
      r'.vote = r.vote ∧ r'.id = r.id ∧ r'.msgs = r.msgs
  | [], r, r', l, _, hs, hc, hi, h => by
    cases h
    exact ⟨by rw [List.map_nil, List.append_nil]; exact hc, hi, hs, rfl, rfl, rfl, rfl, rfl⟩
  | q :: ps, r, r', l, hq, hs, hc, hi, h => by
    unfold RawNode.bootstrapApply at h
    obtain ⟨⟨r1, cs⟩, h1, h⟩ := Res.bind_eq_ok.1 h
    obtain ⟨cfg, prs, h2, h3⟩ := applyConfChange_ok h1
    obtain ⟨e1, e2⟩ := add_pc (ctx := []) (c := { tracker := r.trk, lastIndex := r.log.lastIndex }) hc hi (hq q List.mem_cons_self) h2
    have h4 := Raft.switchToConfig_follower (by rw [hs]; decide) h3
    have a1 : r1.trk.config = cfg := by rw [h4]
    have a2 : r1.trk.progress = prs := by rw [h4]
    have a3 : r1.state = r.state := by rw [h4]
    have a4 : r1.log = r.log := by rw [h4]
    have a5 : r1.term = r.term := by rw [h4]
    have a6 : r1.vote = r.vote := by rw [h4]
    have a7 : r1.id = r.id := by rw [h4]
    have a8 : r1.msgs = r.msgs := by rw [h4]
    obtain ⟨b1, b2, b3, b4, b5, b6, b7, b8⟩ := bootApply_ok ps (l := l ++ [q.1]) (fun x hx => hq x (List.mem_cons_of_mem _ hx)) (a3.trans hs)
      (a1.trans e1) (by rw [a1, a2]; exact e2) h
    refine ⟨?_, b2, b3, b4.trans a4, b5.trans a5, b6.trans a6, b7.trans a7, b8.trans a8⟩
    rw [b1, List.map_cons, List.append_assoc]; rfl

theorem boot_contig : ∀ (ps : List (Nat × Bytes)) (i : Nat), Contig i (RawNode.bootstrapEntries env i ps)
  | [], i => .nil i
  | p :: ps, i => by
    unfold RawNode.bootstrapEntries
    exact Contig.cons.2 ⟨rfl, boot_contig ps (i + 1)⟩

theorem blank_wf : ({} : Storage).WF := by
  constructor
  · exact List.cons_ne_nil _ _
  · exact Contig.cons.2 ⟨rfl, .nil _⟩

/-- What a bootstrapped node looks like. -/
theorem bootstrap_ok (h : PeersOK env dec peers) {cfg : Config} {rng : Nat} {n0 n : RawNode} (hap : cfg.applied = 0)
    (hn : RawNode.new env cfg {} rng = .ok n0) (hb : n0.bootstrap env peers = .ok (n, none)) :
    n.raft.trk.config = pc (peers.map (·.1)) ∧ ConfInv n.raft.trk.config n.raft.trk.progress ∧ n.raft.state = .follower ∧ n.raft.term = 1 ∧
      n.raft.vote = 0 ∧ n.raft.id = cfg.id ∧ cfg.id ≠ 0 ∧ n.raft.msgs = [] ∧ n.prevHardSt = {} ∧
      ∃ mx, n.raft.log = { storage := {}, unstable := { offset := 1, entries := (bgenX h hA).B }, committed := (bgenX h hA).B.length, applied := 0, maxNextEntsSize := mx } := by
  obtain ⟨hf, _, _, _⟩ := RawNode.new_ok hn
  have hpr := hf.conf
  unfold RawNode.bootstrap at hb
  rw [if_neg h.some] at hb
  obtain ⟨l, h1, hb⟩ := Res.bind_eq_ok.1 hb
  obtain ⟨r, h2, hb⟩ := Res.bind_eq_ok.1 hb
  simp only [Res.pure_eq, Res.ok.injEq, Prod.mk.injEq, and_true] at hb
  have hcore := Raft.becomeFollower_core (env := env) n0.raft 1 0
  have k1 : (n0.raft.becomeFollower env 1 0).log = n0.raft.log := congrArg Core.log hcore
  have k2 : (n0.raft.becomeFollower env 1 0).trk.config = n0.raft.trk.config := congrArg Core.config hcore
  have k3 : (n0.raft.becomeFollower env 1 0).vote = 0 := by
    have := congrArg Core.vote hcore
    have ht : n0.raft.term = 0 := hf.term
    have e : (n0.raft.becomeFollower env 1 0).vote = if 1 = n0.raft.term then n0.raft.vote else 0 := this
    rw [e, ht]; rfl
  have k4 : (n0.raft.becomeFollower env 1 0).id = n0.raft.id := congrArg Core.id hcore
  have k5 : (n0.raft.becomeFollower env 1 0).term = 1 := congrArg Core.term hcore
  have k6 : (n0.raft.becomeFollower env 1 0).msgs = [] := by
    show (n0.raft.reset env 1).msgs = []
    unfold Raft.reset Raft.resetRandomizedElectionTimeout
    dsimp only
    by_cases ht : n0.raft.term ≠ 1
    · rw [if_pos ht]; exact hf.msgs
    · rw [if_neg ht]; exact hf.msgs
  have hlog : n0.raft.log = { storage := {}, unstable := { offset := 1 }, committed := 0, applied := 0, maxNextEntsSize := n0.raft.log.maxNextEntsSize } := by
    have e1 := hf.storage
    have e2 := hf.unstable
    have e3 : n0.raft.log.committed = 0 := by
      rcases hf.commit with ⟨_, h⟩ | ⟨h, _⟩
      · exact h
      · exact h
    have e4 : n0.raft.log.applied = 0 := by
      rcases hf.applied with ⟨_, h⟩ | ⟨h, _⟩
      · exact h
      · rw [h, hap]
    cases hr : n0.raft.log
    rw [hr] at e1 e2 e3 e4
    dsimp only at e1 e2 e3 e4
    subst e1 e2 e3 e4
    rfl
  have hl : l = { storage := {}, unstable := { offset := 1, entries := (bgenX h hA).B }, committed := 0, applied := 0, maxNextEntsSize := n0.raft.log.maxNextEntsSize } := by
    rw [k1, hlog] at h1
    have hne : RawNode.bootstrapEntries env 1 peers ≠ [] := by
      intro h0
      have := boot_length (env := env) peers 1
      rw [h0] at this
      exact h.some (List.length_eq_zero_iff.1 this.symm)
    obtain ⟨e0, es, he⟩ := List.exists_cons_of_ne_nil hne
    have hc := boot_contig (env := env) peers 1
    rw [he] at hc h1
    have hi := (Contig.cons.1 hc).1
    unfold RaftLog.append at h1
    dsimp only at h1
    rw [if_neg (Nat.not_lt_zero _)] at h1
    unfold Unstable.truncateAndAppend at h1
    dsimp only at h1
    rw [if_pos (show e0.index = 1 + ([] : List Entry).length from hi)] at h1
    simp only [Res.ok_bind, Res.pure_eq, Res.ok.injEq] at h1
    rw [← h1, List.nil_append, ← he]; rfl
  have hcfg : n0.raft.trk.config = {} ∧ n0.raft.trk.progress = [] := by
    obtain ⟨P0, h3, h4⟩ := hf.conf
    have h5 : n0.raft.trk.config = {} ∧ P0 = [] := by
      have : (.ok ({}, []) : Except Err (TConfig × ProgressMap)) = .ok (n0.raft.trk.config, P0) := h3
      simp only [Except.ok.injEq, Prod.mk.injEq] at this
      exact ⟨this.1.symm, this.2.symm⟩
    exact ⟨h5.1, by rw [h4, h5.2]; rfl⟩
  have hprs : (n0.raft.becomeFollower env 1 0).trk.progress = [] := by
    show (n0.raft.reset env 1).trk.progress = []
    unfold Raft.reset Raft.resetRandomizedElectionTimeout
    dsimp only
    by_cases ht : n0.raft.term ≠ 1
    · rw [if_pos ht]; dsimp only; rw [hcfg.2]; rfl
    · exact absurd (show n0.raft.term ≠ 1 by rw [show n0.raft.term = 0 from hf.term]; decide) ht
  obtain ⟨b1, b2, b3, b4, b5, b6, b7, b8⟩ := bootApply_ok peers (l := []) h.ids (by rfl) (by show (n0.raft.becomeFollower env 1 0).trk.config = _; rw [k2, hcfg.1]; rfl)
    (by
      show ConfInv (n0.raft.becomeFollower env 1 0).trk.config (n0.raft.becomeFollower env 1 0).trk.progress
      rw [k2, hcfg.1, hprs]; exact inv_empty) h2
  rw [← hb]
  refine ⟨b1, b2, b3, b5.trans k5, b6.trans k3, b7.trans (k4.trans hf.id), hf.id_ne, b8.trans k6, rfl, n0.raft.log.maxNextEntsSize, ?_⟩
  show r.log = _
  rw [b4, hl]; rfl

/-- A founder that is bootstrapped. -/
theorem boot_up (h : PeersOK env dec peers) {g : DState} {p : Nat} {cfg : Config} {rng : Nat} {n0 n : RawNode}
    (hd : (bgenX h hA).Blank p {} (g.node p)) (hid : cfg.id = p) (hap : cfg.applied = 0)
    (hn : RawNode.new env cfg {} rng = .ok n0) (hb : n0.bootstrap env peers = .ok (n, none)) : ∃ s, (bgenX h hA).Up g p n ⟨0, {}⟩ s := by
  obtain ⟨h1, h2, h3, h4, h5, h6, h7, h8, h9, mx, hl⟩ := bootstrap_ok hA h hap hn hb
  have hlen : (bgenX h hA).B.length = peers.length := boot_length _ _
  have hpos : 0 < (bgenX h hA).B.length := List.length_pos_iff.2 hd.boot
  have hstart : LStart (RaftLog.new {} mx) := ⟨{}, mx, 0, 0, blank_wf, Nat.le_refl 1, Nat.le_refl _, Nat.zero_le _, Nat.le_refl _, rfl⟩
  have hc : Contig 1 (bgenX h hA).B := boot_contig peers 1
  have happ := hstart.inv.wf.appended (k := 1) hc hd.boot (Nat.lt_succ_self 0) (Nat.le_refl 1)
  have heq : (RaftLog.new {} mx).appended 1 (bgenX h hA).B =
      { storage := {}, unstable := { offset := 1, entries := (bgenX h hA).B }, committed := 0, applied := 0, maxNextEntsSize := mx } := rfl
  rw [heq] at happ
  obtain ⟨hw0, hv0⟩ := happ
  have hw : n.raft.log.WF := by
    rw [hl]
    exact ⟨hw0.stor, hw0.contig, hw0.snap, hw0.nosnap, hw0.tight⟩
  have hv : n.raft.log.view = ⟨0, 0, (bgenX h hA).B⟩ := by
    have : n.raft.log.view = ({ storage := {}, unstable := { offset := 1, entries := (bgenX h hA).B }, committed := 0, applied := 0, maxNextEntsSize := mx } : RaftLog).view := by
      rw [hl]; rfl
    rw [this, hv0]; rfl
  have hlast : n.raft.log.view.last = (bgenX h hA).B.length := by rw [hv]; exact Nat.zero_add _
  have hbase : n.raft.log.view.base = 0 := by rw [hv]
  have e1 : n.raft.log.applied = 0 := by rw [hl]
  have e2 : n.raft.log.committed = (bgenX h hA).B.length := by rw [hl]
  have e3 : n.raft.log.unstable = { offset := 1, entries := (bgenX h hA).B } := by rw [hl]
  have e4 : n.raft.log.storage = {} := by rw [hl]
  have hi : LInv n.raft.log := by
    refine ⟨hw, by omega, by omega, by omega, fun _ => by omega, ?_, ?_, ?_⟩
    · rw [e1, e3]; exact Nat.lt_succ_self 0
    · intro s hs; rw [e3] at hs; cases hs
    · rw [e4]; exact Nat.zero_le _
  have hsnap : (bgenX h hA).SnapOk (g.node p).log {} := by
    refine ⟨Nat.zero_le _, rfl, {}, Or.inl ⟨hpos, 0, Nat.le_refl _, rfl⟩, rfl⟩
  have hconf : ∀ lg, (bgenX h hA).Conf lg 0 n.raft.trk.config := fun lg => Or.inl ⟨hpos, peers.length, Nat.zero_le _, by
    rw [h1, List.take_of_length_le (by rw [List.length_map])]⟩
  refine ⟨_, .trans (.single LStep.down) (.single (LStep.conf 0 (Nat.zero_le _) (Or.inl (by rw [upd_self])))), ?_, hi, ?_, Nat.zero_le _,
    Or.inr ⟨by rw [e4]; exact hd, h9, rfl⟩, ?_, ⟨{}, Or.inl ⟨hpos, 0, Nat.le_refl _, rfl⟩, rfl⟩, ?_⟩
  · rw [upd_self, upd_self]
    have hst : n.raft.core.state = .follower := h3
    refine ⟨h6.trans hid, by rw [← hid]; exact h7, h4.trans hd.term.symm, Or.inr ⟨h5, ?_, ?_⟩, ?_, hi.core, ?_, ?_, hconf _, fun _ => hst, h2, ?_, ?_, ?_, ?_, ?_,
      ?_, Nat.zero_le _, ?_, ?_, ?_⟩
    · show 0 < (g.node p).term; rw [hd.term]; exact Nat.zero_lt_one
    · show (g.node p).term ≤ 1; rw [hd.term]
    · rw [hst]; rfl
    · show LogRel ([] ++ (g.node p).log) n.raft.log.view
      rw [hd.log, List.nil_append, hv]
      exact ⟨(Nat.zero_add _).symm, rfl, rfl, hc⟩
    · show n.raft.log.committed = 0 + (g.node p).commit
      rw [e2, hd.commit]; omega
    · intro hh; rw [hst] at hh; cases hh
    · intro hh; rw [hst] at hh; cases hh
    · show (bgenX h hA).SnapOk _ n.raft.log.snapshot
      rw [show n.raft.log.snapshot = {} by unfold RaftLog.snapshot; rw [e3, e4]; rfl]
      exact hsnap
    · show (bgenX h hA).SnapOk _ n.raft.log.storage.snapshot
      rw [e4]; exact hsnap
    · show 0 = max 0 n.raft.log.view.base - 0
      rw [hbase]; rfl
    · show n.raft.log.applied ≤ 0; omega
    · intro hh; rw [hst] at hh; cases hh
    · intro hh; rw [hst] at hh; cases hh
    · intro hh; rw [hst] at hh; cases hh
  · rw [h8]; intro m hm; cases hm
  · rw [e4, e1]; exact Nat.le_refl 0
  · intro s hs; rw [e3] at hs; cases hs

/-- Whatever the applications ask for. -/
abbrev bgen (h : PeersOK env dec peers) : MGen := bgenX h (st := False) fun h => h.elim

/-- Every execution of a bootstrapped cluster is an execution of the abstract protocol. -/
theorem boot_reach (h : PeersOK env dec peers) {c : State} (hr : Boot.Reach env dec peers c) : ∃ g, (bgen h).Rel c g := by
  induction hr with
  | init =>
    obtain ⟨g, h1, h2, h3⟩ := boot_run (st := False) (fun h => h.elim) h
    have hB : (bgen h).B ≠ [] := by
      intro h0
      have := boot_length (env := env) peers 1
      rw [show RawNode.bootstrapEntries env 1 peers = [] from h0] at this
      exact h.some (List.length_eq_zero_iff.1 this.symm)
    refine ⟨g, h1, fun p => ?_, nofun, nofun, nofun, nofun⟩
    by_cases hp : Founder peers p
    · obtain ⟨k1, k2, k3⟩ := h2 p hp
      exact Or.inr ⟨rfl, hp, hB, k2, k1, k3, Nat.le_refl 1⟩
    · refine Or.inl ?_
      rw [h3 p hp]
      refine ⟨blank_wf, ⟨rfl, rfl, rfl, .nil 1⟩, rfl, Or.inl rfl, rfl, ⟨Nat.zero_le _, rfl, {}, Or.inl ⟨List.length_pos_iff.2 hB, 0, Nat.le_refl _, rfl⟩, rfl⟩,
        Nat.zero_le _, Nat.le_refl 0⟩
  | @step c c' _ hs ih =>
    obtain ⟨g, hg⟩ := ih
    cases hs with
    | boot p cfg rng hp hf hid hap hn hb =>
      have hd := hg.proc p
      rw [hp] at hd
      rcases hd with hd | hd
      · exfalso
        have h1 := hd.commit
        have h2 := (hg.reach.founder p hf).2
        have h3 : (bgen h).B.length = peers.length := boot_length _ _
        have h4 := List.length_pos_iff.2 h.some
        have h5 : 0 = 0 + (g.node p).commit := h1
        omega
      · exact ⟨g, hg.set' (boot_up _ h hd hid hap hn hb)⟩
    | other hs hb => exact hg.step hs (fun h => h) fun p hp h0 => (hb p hp h0).trans h0.symm

end

end Craft.Dyn
