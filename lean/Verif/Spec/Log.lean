import Verif.Model.Types

/-! # What a log is

A log, as a user sees it, is a base position (the last compacted index, with the term recorded for it) and a contiguous
list of entries after it. Everything the storage and `RaftLog` answer is specified against this. -/

namespace Craft.Spec

/-- Entries carry the consecutive indexes `k, k+1, ...`. -/
def Contig (k : Nat) (es : List Entry) : Prop := ∀ i e, es[i]? = some e → e.index = k + i

/-- A log: compacted up to `base` (whose term is `baseTerm`), then `ents`. -/
structure LogView where
  base : Nat := 0
  baseTerm : Nat := 0
  ents : List Entry := []
deriving DecidableEq, Repr

namespace LogView

/-- Last index. -/
def last (v : LogView) : Nat := v.base + v.ents.length

/-- The entry stored at index `i`, if any. -/
def entry (v : LogView) (i : Nat) : Option Entry := if i ≤ v.base then none else v.ents[i - v.base - 1]?

/-- The term known for index `i`; 0 if `i` is outside the log. -/
def termAt (v : LogView) (i : Nat) : Nat :=
  if i = v.base then v.baseTerm else match v.entry i with
    | some e => e.term
    | none => 0

/-- The entries with indexes in `[lo, hi)`. -/
def range (v : LogView) (lo hi : Nat) : List Entry := (v.ents.drop (lo - v.base - 1)).take (hi - lo)

/-- Keep everything before index `k`, then put `es`. -/
def splice (v : LogView) (k : Nat) (es : List Entry) : LogView :=
  { v with ents := v.ents.take (k - v.base - 1) ++ es }

/-- Forget everything up to `k` (inside the log). -/
def compact (v : LogView) (k : Nat) : LogView :=
  { base := k, baseTerm := v.termAt k, ents := v.ents.drop (k - v.base) }

/-- Entries are numbered consecutively after the base. -/
def WF (v : LogView) : Prop := Contig (v.base + 1) v.ents

end LogView
end Craft.Spec
