import Verif.Proofs.WireMsgs
import Verif.Spec.MembersSafe

/-! # The generated code does what the clusters need of it -/

namespace Craft.Pb
open Craft.Members (Faithful)

/-- Reads the same length, perhaps another number. -/
def Alike : Raw → Raw → Prop
  | (k, .int _), r => ∃ n, r = (k, .int n)
  | (k, v), r => r = (k, v)

/-- A field number that can be written, and a length that can be read. -/
def Short : Raw → Prop
  | (k, .int _) => 1 ≤ k ∧ k < 2 ^ 29
  | (k, .len b) => 1 ≤ k ∧ k < 2 ^ 29 ∧ b.length < 2 ^ 31
  | _ => False

theorem readVarintK_any (k : Nat) : ∀ n rest, ∃ x, readVarintK (k + 1) (varintK k n ++ rest) = some (x, rest) := by
  induction k with
  | zero =>
    intro n rest
    simp only [varintK, List.cons_append, List.nil_append, readVarintK]
    rw [if_pos (Nat.mod_lt _ (by omega))]
    exact ⟨_, rfl⟩
  | succ k ih =>
    intro n rest
    simp only [varintK]
    split
    · rename_i h
      simp only [List.cons_append, List.nil_append, readVarintK]
      rw [if_pos h]
      exact ⟨_, rfl⟩
    · obtain ⟨x, hx⟩ := ih (n / 128) rest
      simp only [List.cons_append]
      rw [readVarintK, if_neg (by omega), hx]
      exact ⟨_, rfl⟩

theorem readVarint_any (n : Nat) (rest : Bytes) : ∃ x, readVarint (varint n ++ rest) = some (x, rest) := by
  obtain ⟨x, hx⟩ := readVarintK_any 9 n rest
  unfold readVarint varint
  rw [hx]
  exact ⟨_, rfl⟩

theorem readField_any {r : Raw} (h : Short r) (rest : Bytes) : ∃ r', readField (enc r ++ rest) = some (r', rest) ∧ Alike r r' := by
  obtain ⟨k, v⟩ := r
  cases v with
  | int n =>
    obtain ⟨h1, h2⟩ := h
    obtain ⟨x, hx⟩ := readVarint_any n rest
    refine ⟨(k, .int x), ?_, x, rfl⟩
    unfold readField enc
    rw [List.append_assoc, readVarint_append (by omega)]
    try dsimp only
    have e : k * 8 % 2 ^ 32 = k * 8 := Nat.mod_eq_of_lt (by omega)
    rw [e, if_neg (by omega)]
    unfold readVal
    rw [show k * 8 % 8 = 0 by omega]
    try dsimp only
    rw [hx]
    try dsimp only
    rw [show k * 8 / 8 = k by omega]
    rfl
  | len b => exact ⟨_, readField_enc ⟨⟨h.1, h.2.1⟩, h.2.2⟩ rest, rfl⟩
  | fix64 b => exact h.elim
  | fix32 b => exact h.elim

theorem readFieldsK_any {rs : List Raw} (h : ∀ r ∈ rs, Short r) : ∀ k, (encs rs).length ≤ k →
    ∃ rs', readFieldsK k (encs rs) = some rs' ∧ ∀ r' ∈ rs', ∃ r ∈ rs, Alike r r' := by
  induction rs with
  | nil => intro k _; exact ⟨[], by cases k <;> rfl, nofun⟩
  | cons r rs ih =>
    intro k hk
    have hlen : (encs (r :: rs)).length = (enc r).length + (encs rs).length := by
      unfold encs; rw [List.flatMap_cons, List.length_append]
    have hne := enc_ne r
    have e : encs (r :: rs) = enc r ++ encs rs := by unfold encs; rw [List.flatMap_cons]
    obtain ⟨k, rfl⟩ : ∃ j, k = j + 1 := ⟨k - 1, by omega⟩
    obtain ⟨r', h1, h2⟩ := readField_any (h r List.mem_cons_self) (encs rs)
    obtain ⟨rs', h3, h4⟩ := ih (fun x hx => h x (List.mem_cons_of_mem _ hx)) k (by omega)
    refine ⟨r' :: rs', ?_, fun x hx => ?_⟩
    · cases hb : encs (r :: rs) with
      | nil => rw [hb, List.length_nil] at hlen; omega
      | cons b bs =>
        unfold readFieldsK
        rw [← hb, e, h1]
        dsimp only
        rw [h3]
    · rcases List.mem_cons.1 hx with rfl | hx
      · exact ⟨r, List.mem_cons_self, h2⟩
      · obtain ⟨y, h5, h6⟩ := h4 x hx
        exact ⟨y, List.mem_cons_of_mem _ h5, h6⟩

theorem fold_some {M : Type} {set : M → Raw → Option M} : ∀ (rs : List Raw), (∀ m, ∀ r ∈ rs, set m r ≠ none) → ∀ m, rs.foldlM set m ≠ none
  | [], _, _ => nofun
  | r :: rs, h, m => by
    rw [List.foldlM_cons]
    cases h1 : set m r with
    | none => exact absurd h1 (h m r List.mem_cons_self)
    | some x => exact fold_some rs (fun m r hr => h m r (List.mem_cons_of_mem _ hr)) x

/-- What was written can be read, if its fields can be. -/
theorem merge_any {M : Type} {set : M → Raw → Option M} {m : M} {rs : List Raw} (h : ∀ r ∈ rs, Short r)
    (hs : ∀ m, ∀ r ∈ rs, ∀ r', Alike r r' → set m r' ≠ none) : merge set m (encs rs) ≠ none := by
  obtain ⟨rs', h1, h2⟩ := readFieldsK_any h _ (Nat.le_refl _)
  unfold merge readFields
  rw [h1]
  refine fold_some rs' (fun m r' hr => ?_) m
  obtain ⟨r, h3, h4⟩ := h2 r' hr
  exact hs m r h3 r' h4

theorem setEnum_ne {X M : Type} {of : Nat → Option X} {n : Nat} {m : M} {put : X → M} : setEnum of n m put ≠ none := by
  unfold setEnum; split <;> nofun

theorem PConfChange.set_ne (m : PConfChange) (r : Raw) : m.set r ≠ none := by
  unfold PConfChange.set
  split <;> first | exact setEnum_ne | nofun

theorem PCCSingle.set_ne (m : PCCSingle) (r : Raw) : m.set r ≠ none := by
  unfold PCCSingle.set
  split <;> first | exact setEnum_ne | nofun

/-- No field is longer than all of them. -/
theorem enc_le {rs : List Raw} {r : Raw} (h : r ∈ rs) : (enc r).length ≤ (encs rs).length := by
  induction rs with
  | nil => cases h
  | cons x rs ih =>
    have : (encs (x :: rs)).length = (enc x).length + (encs rs).length := by
      unfold encs; rw [List.flatMap_cons, List.length_append]
    rcases List.mem_cons.1 h with rfl | h
    · omega
    · have := ih h; omega

theorem len_short {rs : List Raw} {k : Nat} {b : Bytes} (h : (k, Val.len b) ∈ rs) (hs : (encs rs).length < 2 ^ 31) : b.length < 2 ^ 31 := by
  have := enc_le h
  simp only [enc, List.length_append] at this
  omega

theorem PConfChange.reads (m : PConfChange) : PConfChange.ofBytes m.toBytes ≠ none := by
  unfold PConfChange.ofBytes PConfChange.toBytes Pb.parse serialize
  split
  · rename_i hs
    refine merge_any (fun r hr => ?_) fun m _ _ r' _ => PConfChange.set_ne m r'
    have hr0 := hr
    unfold PConfChange.raws at hr
    simp only [List.mem_append] at hr
    rcases hr with ((hr | hr) | hr) | hr <;> obtain ⟨x, hx, rfl⟩ := mem_opt hr
    · exact ⟨by decide, by decide⟩
    · exact ⟨by decide, by decide⟩
    · exact ⟨by decide, by decide⟩
    · exact ⟨by decide, by decide, len_short hr0 hs⟩
  · nofun

theorem PCCSingle.merges (m m0 : PCCSingle) : merge PCCSingle.set m0 (encs m.raws) ≠ none := by
  refine merge_any (fun r hr => ?_) fun m _ _ r' _ => PCCSingle.set_ne m r'
  unfold PCCSingle.raws at hr
  simp only [List.mem_append] at hr
  rcases hr with hr | hr <;> obtain ⟨x, hx, rfl⟩ := mem_opt hr <;> exact ⟨by decide, by decide⟩

theorem PConfChangeV2.reads (m : PConfChangeV2) : PConfChangeV2.ofBytes m.toBytes ≠ none := by
  unfold PConfChangeV2.ofBytes PConfChangeV2.toBytes Pb.parse serialize
  split
  · rename_i hs
    refine merge_any (fun r hr => ?_) fun m1 r hr r' ha => ?_
    · have hr0 := hr
      unfold PConfChangeV2.raws at hr
      simp only [List.mem_append] at hr
      rcases hr with (hr | hr) | hr
      · obtain ⟨x, hx, rfl⟩ := mem_opt hr
        exact ⟨by decide, by decide⟩
      · obtain ⟨x, hx, rfl⟩ := mem_rep hr
        exact ⟨by decide, by decide, len_short hr0 hs⟩
      · obtain ⟨x, hx, rfl⟩ := mem_opt hr
        exact ⟨by decide, by decide, len_short hr0 hs⟩
    · unfold PConfChangeV2.raws at hr
      simp only [List.mem_append] at hr
      rcases hr with (hr | hr) | hr
      · obtain ⟨x, hx, rfl⟩ := mem_opt hr
        obtain ⟨n, rfl⟩ := ha
        exact setEnum_ne
      · obtain ⟨x, hx, rfl⟩ := mem_rep hr
        cases ha
        show (merge PCCSingle.set {} (encs x.raws)).map _ ≠ none
        cases h : merge PCCSingle.set {} (encs x.raws) with
        | none => exact absurd h (PCCSingle.merges x _)
        | some c => nofun
      · obtain ⟨x, hx, rfl⟩ := mem_opt hr
        cases ha
        nofun
  · nofun

theorem PConfChange.fits {m : PConfChange} (h : m.get.Fits) : m.InRange ∧ m.byteSize < 2 ^ 31 := by
  have hi : m.InRange := by
    refine ⟨fun n hn => ?_, fun t ht k hk => ?_, fun n hn => ?_⟩
    · have := h.id; unfold PConfChange.get at this; rw [hn] at this; exact this
    · have := h.kind k; unfold PConfChange.get at this; rw [ht] at this; exact this hk
    · have := h.node; unfold PConfChange.get at this; rw [hn] at this; exact this
  refine ⟨hi, ?_⟩
  have h1 := optSize_le hi.id
  have h2 := kindSize_le hi.type
  have h3 := optSize_le hi.nodeId
  have h4 : optSize (fun b : Bytes => lenSize b.length) m.context ≤ 2 ^ 30 + 11 := by
    cases hc : m.context with
    | none => simp [optSize]
    | some b =>
      have := h.size
      unfold PConfChange.get at this
      rw [hc] at this
      have this : b.length < 2 ^ 30 := this
      have h5 := varintSize_le (n := b.length) (by omega)
      simp only [optSize, lenSize]; omega
  unfold PConfChange.byteSize
  omega

theorem sum_le {X : Type} {f : X → Nat} {k : Nat} : ∀ (xs : List X), (∀ x ∈ xs, f x ≤ k) → (xs.map f).sum ≤ xs.length * k
  | [], _ => by simp
  | x :: xs, h => by
    have h1 := h x List.mem_cons_self
    have h2 := sum_le xs fun y hy => h y (List.mem_cons_of_mem _ hy)
    simp only [List.map_cons, List.sum_cons, List.length_cons, Nat.add_mul, Nat.one_mul]
    omega

theorem PConfChangeV2.fits {m : PConfChangeV2} (h : m.get.Fits) : m.InRange ∧ m.byteSize < 2 ^ 31 := by
  have hp : ∀ x ∈ m.changes, x.InRange := fun x hx => by
    have hf := h.parts x.get (List.mem_map.2 ⟨x, hx, rfl⟩)
    refine ⟨fun t ht k hk => ?_, fun n hn => ?_⟩
    · have := hf.kind k; unfold PCCSingle.get at this; rw [ht] at this; exact this hk
    · have := hf.node; unfold PCCSingle.get at this; rw [hn] at this; exact this
  refine ⟨⟨hp⟩, ?_⟩
  have h1 : (m.changes.map fun c => lenSize (PCCSingle.byteSize c)).sum ≤ m.changes.length * 32 := by
    refine sum_le _ fun x hx => ?_
    have a1 := optSize_le (hp x hx).nodeId
    have a2 := kindSize_le (hp x hx).type
    have a3 : x.byteSize ≤ 22 := by unfold PCCSingle.byteSize; omega
    have a4 := varintSize_le (n := x.byteSize) (by omega)
    simp only [lenSize]; omega
  have h2 : m.changes.length ≤ 2 ^ 20 := by
    have := h.count
    unfold PConfChangeV2.get at this
    rwa [List.length_map] at this
  have h4 : optSize (fun b : Bytes => lenSize b.length) m.context ≤ 2 ^ 30 + 11 := by
    cases hc : m.context with
    | none => simp [optSize]
    | some b =>
      have := h.size
      unfold PConfChangeV2.get at this
      rw [hc] at this
      have this : b.length < 2 ^ 30 := this
      have h5 := varintSize_le (n := b.length) (by omega)
      simp only [optSize, lenSize]; omega
  have h5 : optSize (fun t => varintSize (transitionNo t)) m.transition ≤ 11 := by
    cases m.transition with
    | none => simp [optSize]
    | some t =>
      have a1 := transitionNo_lt t
      have := varintSize_le (n := transitionNo t) (by omega)
      simp only [optSize]; omega
  unfold PConfChangeV2.byteSize
  omega

theorem Protobuf.faithful {env : Env} (h : Protobuf env) : Faithful env := by
  refine ⟨⟨fun cc => ?_, fun cc => ?_⟩, fun cc hf => ?_, fun cc hf => ?_, ?_⟩
  · obtain ⟨m, _, h2⟩ := h.ser1 cc
    rw [h.parse1, h2]
    intro he
    exact PConfChange.reads m (Option.map_eq_none_iff.1 he)
  · obtain ⟨m, _, h2⟩ := h.ser2 cc
    rw [h.parse2, h2]
    intro he
    exact PConfChangeV2.reads m (Option.map_eq_none_iff.1 he)
  · obtain ⟨m, rfl, h2⟩ := h.ser1 cc
    obtain ⟨h3, h4⟩ := PConfChange.fits hf
    rw [h.parse1, h2]
    have := ((PConfChange.good h3 h4).bytes h4).1
    unfold PConfChange.ofBytes PConfChange.toBytes
    rw [this]; rfl
  · obtain ⟨m, rfl, h2⟩ := h.ser2 cc
    obtain ⟨h3, h4⟩ := PConfChangeV2.fits hf
    rw [h.parse2, h2]
    have := ((PConfChangeV2.good h3 h4).bytes h4).1
    unfold PConfChangeV2.ofBytes PConfChangeV2.toBytes
    rw [this]; rfl
  · rw [h.parse2]; rfl

/-! ## An application that sets every field -/

def fullEntry (e : Entry) : PEntry := { type := some e.type, term := some e.term, index := some e.index, data := some e.data }

def fullCC (cc : ConfChange) : PConfChange := { id := some cc.id, type := some cc.type, nodeId := some cc.nodeId, context := some cc.context }

def fullCC2 (cc : ConfChangeV2) : PConfChangeV2 :=
  { transition := some cc.transition, changes := cc.changes.map fun x => { type := some x.type, nodeId := some x.nodeId }, context := some cc.context }

/-- The generated code, the random numbers being given. -/
def fullEnv (rand : Nat → Nat → Nat) : Env :=
  { entSize := fun e => (fullEntry e).byteSize
    parseV1 := fun bs => (PConfChange.ofBytes bs).map PConfChange.get
    parseV2 := fun bs => (PConfChangeV2.ofBytes bs).map PConfChangeV2.get
    serV1 := fun cc => (fullCC cc).toBytes
    rand := rand
    serV2 := fun cc => (fullCC2 cc).toBytes }

theorem fullEnv_protobuf (rand : Nat → Nat → Nat) : Protobuf (fullEnv rand) where
  size e := ⟨fullEntry e, rfl, rfl⟩
  ser1 cc := ⟨fullCC cc, rfl, rfl⟩
  ser2 cc := ⟨fullCC2 cc, by
    show ConfChangeV2.mk cc.transition (List.map PCCSingle.get (cc.changes.map fun x => { type := some x.type, nodeId := some x.nodeId })) cc.context = cc
    rw [List.map_map]
    have : (PCCSingle.get ∘ fun x : CCSingle => ({ type := some x.type, nodeId := some x.nodeId } : PCCSingle)) = id := rfl
    rw [this, List.map_id], rfl⟩
  parse1 _ := rfl
  parse2 _ := rfl

end Craft.Pb
