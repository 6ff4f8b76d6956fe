import Verif.Proofs.Log

/-! # C17: `Util::LimitSize` -/

namespace Craft

/-- Total size of a list of entries. -/
def Spec.totalSize (sz : Entry → Nat) (es : List Entry) : Nat := (es.map sz).sum

theorem limitSizeLoop_spec (sz : Entry → Nat) (maxSize : Nat) :
    ∀ (es : List Entry) (size : Nat), size + Spec.totalSize sz es < 2 ^ 64 →
      (limitSizeLoop sz maxSize size es ≠ [] → size + Spec.totalSize sz (limitSizeLoop sz maxSize size es) ≤ maxSize) ∧
      (∀ p, p <+: es → (limitSizeLoop sz maxSize size es).length < p.length →
        maxSize < size + Spec.totalSize sz p) := by
  intro es
  induction es with
  | nil =>
    intro size _
    refine ⟨by simp [limitSizeLoop], ?_⟩
    intro p hp hl
    rw [List.prefix_nil.1 hp] at hl
    simp at hl
  | cons e es ih =>
    intro size hb
    have hb' : size + sz e + Spec.totalSize sz es < 2 ^ 64 := by
      simp [Spec.totalSize] at hb ⊢; omega
    unfold limitSizeLoop
    rw [Nat.mod_eq_of_lt (by omega)]
    split
    · rename_i hgt
      refine ⟨by simp, ?_⟩
      intro p hp hl
      cases p with
      | nil => simp at hl
      | cons a p =>
        rw [List.cons_prefix_cons] at hp
        obtain ⟨rfl, _⟩ := hp
        simp [Spec.totalSize]; omega
    · rename_i hle
      obtain ⟨h2, h3⟩ := ih (size + sz e) hb'
      refine ⟨?_, ?_⟩
      · intro _
        by_cases hnil : limitSizeLoop sz maxSize (size + sz e) es = []
        · simp [hnil, Spec.totalSize]; omega
        · have := h2 hnil
          simp [Spec.totalSize] at this ⊢; omega
      · intro p hp hl
        cases p with
        | nil => simp at hl
        | cons a p =>
          rw [List.cons_prefix_cons] at hp
          obtain ⟨rfl, hp⟩ := hp
          have := h3 p hp (by simpa using hl)
          simp [Spec.totalSize] at this ⊢; omega

/-- C17: the result is a prefix, non-empty when the input is; everything if there is no limit; and if the sizes add up to
less than `2^64` (the code adds them up in a `uint64_t`), within the limit unless it is a single entry, while every longer
prefix exceeds the limit. -/
theorem C17_limitSize (sz : Entry → Nat) (ents : List Entry) (maxSize : Nat) :
    limitSize sz ents maxSize <+: ents ∧
    (ents ≠ [] → limitSize sz ents maxSize ≠ []) ∧
    (maxSize = 2 ^ 64 - 1 → limitSize sz ents maxSize = ents) ∧
    (Spec.totalSize sz ents < 2 ^ 64 →
      (1 < (limitSize sz ents maxSize).length → Spec.totalSize sz (limitSize sz ents maxSize) ≤ maxSize) ∧
      (∀ p, p <+: ents → (limitSize sz ents maxSize).length < p.length → maxSize < Spec.totalSize sz p)) := by
  refine ⟨limitSize_prefix .., limitSize_ne_nil _ _ _, fun h => limitSize_noLimit _ _ (by omega), fun hb => ?_⟩
  cases ents with
  | nil =>
    refine ⟨by simp [limitSize], ?_⟩
    intro p hp hl
    rw [List.prefix_nil.1 hp] at hl
    simp at hl
  | cons e es =>
    have hb' : sz e + Spec.totalSize sz es < 2 ^ 64 := by
      simp [Spec.totalSize] at hb ⊢; omega
    obtain ⟨h2, h3⟩ := limitSizeLoop_spec sz maxSize es (sz e) hb'
    have hm : sz e % 2 ^ 64 = sz e := Nat.mod_eq_of_lt (by omega)
    refine ⟨?_, ?_⟩
    · intro hl
      have := h2 (by intro h; simp [limitSize, Nat.mod_eq_of_lt (show sz e < 2 ^ 64 by omega), h] at hl)
      simp only [limitSize, hm]
      simpa [Spec.totalSize] using this
    · intro p hp hl
      cases p with
      | nil => simp at hl
      | cons a p =>
        rw [List.cons_prefix_cons] at hp
        obtain ⟨rfl, hp⟩ := hp
        have := h3 p hp (by simp only [limitSize, hm] at hl; simpa using hl)
        simpa [Spec.totalSize] using this

example : limitSize (fun e => e.data.length) [⟨1, 1, .normal, [1, 2]⟩, ⟨1, 2, .normal, [3]⟩, ⟨1, 3, .normal, [4, 5]⟩] 4 =
    [⟨1, 1, .normal, [1, 2]⟩, ⟨1, 2, .normal, [3]⟩] := by decide

end Craft
