import Verif.Proofs.WireEnv
import Verif.Props.BootLive

/-! # C86, C87: the wire format -/

namespace Craft.Pb
open Craft.Members (Faithful)

/-! ## C86 -/

/-- C86. A message between nodes (with at most 2 GB, and 64-bit numbers) can be read from the bytes it was written to, every field
and the presence of every optional field as it was; `ByteSizeLong` is the number of bytes. -/
theorem C86_message_roundtrip {m : PMessage} (h : m.InRange) (hs : m.byteSize < 2 ^ 31) :
    PMessage.ofBytes m.toBytes = some m ∧ m.toBytes.length = m.byteSize := (PMessage.good h hs).bytes hs

theorem C86_entry_roundtrip {m : PEntry} (h : m.InRange) (hs : m.byteSize < 2 ^ 31) :
    PEntry.ofBytes m.toBytes = some m ∧ m.toBytes.length = m.byteSize := (PEntry.good h hs).bytes hs

theorem C86_hardState_roundtrip {m : PHardState} (h : m.InRange) :
    PHardState.ofBytes m.toBytes = some m ∧ m.toBytes.length = m.byteSize := (PHardState.good h).bytes (by
  have h1 := optSize_le h.term; have h2 := optSize_le h.vote; have h3 := optSize_le h.commit
  unfold PHardState.byteSize; omega)

theorem C86_snapshot_roundtrip {m : PSnapshot} (h : m.InRange) (hs : m.byteSize < 2 ^ 31) :
    PSnapshot.ofBytes m.toBytes = some m ∧ m.toBytes.length = m.byteSize := (PSnapshot.good h hs).bytes hs

theorem C86_snapshotMetadata_roundtrip {m : PSnapMeta} (h : m.InRange) (hs : m.byteSize < 2 ^ 31) :
    PSnapMeta.ofBytes m.toBytes = some m ∧ m.toBytes.length = m.byteSize := (PSnapMeta.good h hs).bytes hs

theorem C86_confState_roundtrip {m : PConfState} (h : m.InRange) (hs : m.byteSize < 2 ^ 31) :
    PConfState.ofBytes m.toBytes = some m ∧ m.toBytes.length = m.byteSize := (PConfState.good h).bytes hs

theorem C86_confChange_roundtrip {m : PConfChange} (h : m.InRange) (hs : m.byteSize < 2 ^ 31) :
    PConfChange.ofBytes m.toBytes = some m ∧ m.toBytes.length = m.byteSize := (PConfChange.good h hs).bytes hs

theorem C86_confChangeSingle_roundtrip {m : PCCSingle} (h : m.InRange) :
    PCCSingle.ofBytes m.toBytes = some m ∧ m.toBytes.length = m.byteSize := (PCCSingle.good h).bytes (by
  have h1 := optSize_le h.nodeId; have h2 := kindSize_le h.type
  unfold PCCSingle.byteSize; omega)

theorem C86_confChangeV2_roundtrip {m : PConfChangeV2} (h : m.InRange) (hs : m.byteSize < 2 ^ 31) :
    PConfChangeV2.ofBytes m.toBytes = some m ∧ m.toBytes.length = m.byteSize := (PConfChangeV2.good h hs).bytes hs

/-- Fields of newer versions of the schema do not disturb: a message whose fields are on the wire together with unknown ones, in any
place, reads as without them. -/
theorem C86_entry_newer {m : PEntry} (h : m.InRange) (hs : m.byteSize < 2 ^ 31) {rs : List Raw} (hm : Mixed 4 m.raws rs) :
    PEntry.ofBytes (encs rs) = some m := (PEntry.good h hs).newer (fun _ _ hr => PEntry.set_newer hr) hm

theorem C86_hardState_newer {m : PHardState} (h : m.InRange) {rs : List Raw} (hm : Mixed 3 m.raws rs) :
    PHardState.ofBytes (encs rs) = some m := (PHardState.good h).newer (fun _ _ hr => PHardState.set_newer hr) hm

theorem C86_confState_newer {m : PConfState} (h : m.InRange) {rs : List Raw} (hm : Mixed 5 m.raws rs) :
    PConfState.ofBytes (encs rs) = some m := (PConfState.good h).newer (fun _ _ hr => PConfState.set_newer hr) hm

theorem C86_snapshotMetadata_newer {m : PSnapMeta} (h : m.InRange) (hs : m.byteSize < 2 ^ 31) {rs : List Raw} (hm : Mixed 3 m.raws rs) :
    PSnapMeta.ofBytes (encs rs) = some m := (PSnapMeta.good h hs).newer (fun _ _ hr => PSnapMeta.set_newer hr) hm

theorem C86_snapshot_newer {m : PSnapshot} (h : m.InRange) (hs : m.byteSize < 2 ^ 31) {rs : List Raw} (hm : Mixed 2 m.raws rs) :
    PSnapshot.ofBytes (encs rs) = some m := (PSnapshot.good h hs).newer (fun _ _ hr => PSnapshot.set_newer hr) hm

theorem C86_message_newer {m : PMessage} (h : m.InRange) (hs : m.byteSize < 2 ^ 31) {rs : List Raw} (hm : Mixed 12 m.raws rs) :
    PMessage.ofBytes (encs rs) = some m := (PMessage.good h hs).newer (fun _ _ hr => PMessage.set_newer hr) hm

theorem C86_confChange_newer {m : PConfChange} (h : m.InRange) (hs : m.byteSize < 2 ^ 31) {rs : List Raw} (hm : Mixed 4 m.raws rs) :
    PConfChange.ofBytes (encs rs) = some m := (PConfChange.good h hs).newer (fun _ _ hr => PConfChange.set_newer hr) hm

theorem C86_confChangeSingle_newer {m : PCCSingle} (h : m.InRange) {rs : List Raw} (hm : Mixed 2 m.raws rs) :
    PCCSingle.ofBytes (encs rs) = some m := (PCCSingle.good h).newer (fun _ _ hr => PCCSingle.set_newer hr) hm

theorem C86_confChangeV2_newer {m : PConfChangeV2} (h : m.InRange) (hs : m.byteSize < 2 ^ 31) {rs : List Raw} (hm : Mixed 3 m.raws rs) :
    PConfChangeV2.ofBytes (encs rs) = some m := (PConfChangeV2.good h hs).newer (fun _ _ hr => PConfChangeV2.set_newer hr) hm

/-- A conf change of a kind outside the enumeration is read back, by every node, as one without a kind: as a request to add the node. -/
theorem C86_unknown_kind_adds {k : Nat} {m : PConfChange} (hm : m.type = some (.unknown k)) (h4 : 4 ≤ k) (hk : k < 2 ^ 32) (h1 : U64 m.id) (h2 : U64 m.nodeId)
    (hs : m.byteSize < 2 ^ 31) : ∃ m', PConfChange.ofBytes m.toBytes = some m' ∧ m'.get = { m.get with type := .addNode } := by
  refine ⟨{ m with type := none }, ?_, ?_⟩
  · exact PConfChange.unknown hm h4 hk h1 h2 hs
  · simp [PConfChange.get]

/-! ### The hypotheses are met -/

/-- A message with two entries, of which one has all fields, and a snapshot. -/
def sample : PMessage :=
  { type := some .app, «to» := some 2, src := some (2 ^ 64 - 1), term := some 300, index := some 0,
    entries := [{ type := some .confChange, term := some 3, index := some 128, data := some [0, 255] }, {}], reject := some false,
    snapshot := some { metadata := some { confState := some { voters := [1, 2, 70000], autoLeave := some true }, index := some 5 } } }

theorem sample_inRange : sample.InRange := by
  refine ⟨?_, ?_, ?_, ?_, ?_, ?_, ?_, ?_, ?_⟩ <;> try (intro n hn; cases hn <;> decide)
  · intro e he
    simp only [sample, List.mem_cons, List.not_mem_nil, or_false] at he
    rcases he with rfl | rfl <;> exact ⟨fun n hn => by cases hn <;> decide, fun n hn => by cases hn <;> decide⟩
  · intro x hx
    cases hx
    refine ⟨fun c hc => ?_⟩
    cases hc
    refine ⟨fun d hd => ?_, fun n hn => by cases hn; decide, nofun⟩
    cases hd
    refine ⟨?_, ?_, ?_, ?_⟩ <;> decide

example : sample.byteSize = 55 ∧ sample.toBytes = [8, 3, 16, 2, 24, 255, 255, 255, 255, 255, 255, 255, 255, 255, 1, 32, 172, 2, 48, 0,
    58, 11, 8, 1, 16, 3, 24, 128, 1, 34, 2, 0, 255, 58, 0, 74, 16, 18, 14, 10, 10, 8, 1, 8, 2, 8, 240, 162, 4, 40, 1, 16, 5, 80, 0] := by decide +kernel

example : PMessage.ofBytes sample.toBytes = some sample := (C86_message_roundtrip sample_inRange (by decide +kernel)).1

/-- With fields 13 and 15 added. -/
example : PMessage.ofBytes (encs ((13, .fix32 [1, 2, 3, 4]) :: (sample.raws ++ [(15, .len [7])]))) = some sample := by
  refine C86_message_newer sample_inRange (by decide +kernel) (.new ⟨by decide, by decide, rfl⟩ ?_)
  have : ∀ rs, Mixed 12 rs (rs ++ [(15, .len [7])]) := fun rs => by
    induction rs with
    | nil => exact .new ⟨by decide, by decide, by decide⟩ .nil
    | cons r rs ih => exact .old ih
  exact this _

/-- A request to do something of kind 9 to node 5 is read as one to add node 5. -/
example : ∃ m', PConfChange.ofBytes (PConfChange.toBytes { type := some (.unknown 9), nodeId := some 5 }) = some m' ∧ m'.get = { type := .addNode, nodeId := 5 } :=
  C86_unknown_kind_adds (m := { type := some (.unknown 9), nodeId := some 5 }) rfl (by decide) (by decide) nofun (fun n hn => by cases hn; decide) (by decide +kernel)

/-! ## C87 -/

/-- C87. With the generated protobuf code, the conf change in the entry that `ProposeConfChange` makes is read, by the library and by
applications, as the one that was asked for. -/
theorem C87_conf_change_arrives {env : Env} (h : Protobuf env) {cc : ConfChangeI} (hf : cc.Fits) {e : Entry} (he : (e.type, e.data) = cc.marshal env) :
    env.conf e = some cc := by
  cases cc with
  | v1 x =>
    injection he with h1 h2
    unfold Env.conf
    rw [h1, h2]
    dsimp only
    rw [h.faithful.exact1 x hf]; rfl
  | v2 x =>
    injection he with h1 h2
    unfold Env.conf
    rw [h1, h2]
    dsimp only
    rw [h.faithful.exact2 x hf]; rfl

/-- What `ProposeConfChange` made can be read even if it does not fit. -/
theorem C87_conf_change_readable {env : Env} (h : Protobuf env) {cc : ConfChangeI} {e : Entry} (he : (e.type, e.data) = cc.marshal env) :
    env.conf e ≠ none := by
  cases cc with
  | v1 x =>
    injection he with h1 h2
    unfold Env.conf
    rw [h1, h2]
    exact fun hn => h.faithful.v1 x (Option.map_eq_none_iff.1 hn)
  | v2 x =>
    injection he with h1 h2
    unfold Env.conf
    rw [h1, h2]
    exact fun hn => h.faithful.v2 x (Option.map_eq_none_iff.1 hn)

/-- So what C69 says of clusters with any lossless encoding is true of the code with its protobufs... -/
theorem C87_never_aborts_members {env : Env} (h : Protobuf env) {G : Cluster.Genesis} (hG : Members.GenesisOK env.conf G)
    (hgen : ∀ e ∈ G.log, ∀ cc, env.conf e = some cc → Spec.Works G.trk.config cc.asV2) {c : Members.State}
    (hl : Members.Live Members.Proper env G c) (a : Members.Act) (ha : a.Allowed c) (hw : a.Wise Members.Proper env c) :
    ∃ c', a.run env env.conf c = .ok c' := Dyn.C69_never_aborts_members h.faithful hG hgen hl a ha hw

/-- ... and what C83 says of bootstrapped ones. -/
theorem C87_never_aborts_boot {env : Env} (h : Protobuf env) {peers : List (Nat × Bytes)} (h1 : peers ≠ [])
    (h2 : ∀ q ∈ peers, q.1 ≠ 0 ∧ q.1 < 2 ^ 64 ∧ q.2.length < 2 ^ 30) {c : Members.State} (hl : Boot.Live env peers c) (a : Boot.Act)
    (ha : a.Allowed peers c) (hw : a.Wise env c) : ∃ c', a.run env env.conf peers c = .ok c' :=
  Dyn.C83_never_aborts_boot h.faithful h1 h2 hl a ha hw

/-! ### The hypotheses are met: the demonstrations of C69 and C83 run on the generated code -/

example : Protobuf Dyn.SafeDemo.env := fullEnv_protobuf _

example : (ConfChangeI.v2 { transition := .jointExplicit, changes := [⟨.addNode, 4⟩, ⟨.removeNode, 2 ^ 64 - 1⟩], context := [1] }).marshal Dyn.SafeDemo.env =
    (.confChangeV2, [8, 2, 18, 4, 8, 0, 16, 4, 18, 13, 8, 1, 16, 255, 255, 255, 255, 255, 255, 255, 255, 255, 1, 26, 1, 1]) := by decide +kernel

end Craft.Pb
