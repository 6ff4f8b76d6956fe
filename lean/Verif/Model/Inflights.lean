import Verif.Model.Types

/-! # `/repo/src/tracker/inflights.{h,cc}` -/

namespace Craft

/-- Conversion of an integer to `int32_t` (two's complement truncation). -/
def toI32 (x : Int) : Int := Int.bmod x (2 ^ 32)

/-- `Inflights` (`/repo/src/tracker/inflights.h` 83-95). `start_`, `count_`, `size_` are `int64_t`. -/
structure Inflights where
  start : Int := 0
  count : Int := 0
  size : Int
  buffer : List Nat := []
deriving Repr, DecidableEq, Inhabited

namespace Inflights

/-- Constructor `Inflights(logger, size)` (`/repo/src/tracker/inflights.h` 33-34). -/
def new (size : Int) : Inflights := { size := size }

/-- `Full` (`/repo/src/tracker/inflights.h` 57). -/
def full (i : Inflights) : Bool := i.count = i.size

/-- `Reset` (`/repo/src/tracker/inflights.h` 63-66). -/
def reset (i : Inflights) : Inflights := { i with count := 0, start := 0 }

/-- Checked read `buffer_[k]`. -/
def bufGet (b : List Nat) (k : Int) (site : String) : Res Nat :=
  if 0 ≤ k ∧ k < b.length then .ok (b.getD k.toNat 0) else .ub site

/-- Checked write `buffer_[k] = x`. -/
def bufSet (b : List Nat) (k : Int) (x : Nat) (site : String) : Res (List Nat) :=
  if 0 ≤ k ∧ k < b.length then .ok (b.set k.toNat x) else .ub site

/-- `buffer_.resize(n)`; a negative `int32_t` converts to a huge `size_t` and `resize` throws. -/
def resize (b : List Nat) (n : Int) : Res (List Nat) :=
  if n < 0 then .fatal "inflights.cc:75 length_error"
  else .ok (b.take n.toNat ++ List.replicate (n.toNat - b.length) 0)

/-- `Grow` (`/repo/src/tracker/inflights.cc` 68-76). -/
def grow (i : Inflights) : Res Inflights := do
  let newSize := toI32 (2 * i.buffer.length)
  let newSize := if newSize = 0 then 1 else if newSize > i.size then toI32 i.size else newSize
  let b ← resize i.buffer newSize
  pure { i with buffer := b }

/-- `Add` (`/repo/src/tracker/inflights.cc` 20-34). -/
def add (i : Inflights) (inflight : Nat) : Res Inflights :=
  if i.full then .fatal "inflights.cc:22" else do
  let next := toI32 (i.start + i.count)
  let size := toI32 i.size
  let next := if next ≥ size then next - size else next
  -- `next -= size` is int32 arithmetic: overflow is undefined
  if toI32 next ≠ next then .ub "inflights.cc:27" else do
  let i ← if next ≥ toI32 i.buffer.length then i.grow else pure i
  let b ← bufSet i.buffer next inflight "inflights.cc:32"
  pure { i with buffer := b, count := i.count + 1 }

/-- Loop of `FreeLE` (`/repo/src/tracker/inflights.cc` 42-54). `k` iterations remain; returns the final (i, idx).
`idx -= size_` computes in `int64_t` and truncates to `int32_t`. -/
def freeLoop (b : List Nat) (size : Int) (to : Nat) : Nat → Int → Int → Res (Int × Int)
  | 0, i, idx => .ok (i, idx)
  | k + 1, i, idx => do
    let x ← bufGet b idx "inflights.cc:45"
    if to < x then pure (i, idx)
    else
      let idx := idx + 1
      let idx := if idx ≥ size then toI32 (idx - size) else idx
      freeLoop b size to k (i + 1) idx

/-- `FreeLE` (`/repo/src/tracker/inflights.cc` 36-64). -/
def freeLE (f : Inflights) (to : Nat) : Res Inflights :=
  if f.count = 0 then .ok f else do
  let x ← bufGet f.buffer f.start "inflights.cc:37"
  if to < x then pure f
  else do
    let (i, idx) ← freeLoop f.buffer f.size to f.count.toNat 0 (toI32 f.start)
    let c := f.count - i
    pure { f with count := c, start := if c = 0 then 0 else idx }

/-- `FreeFirstOne` (`/repo/src/tracker/inflights.cc` 66). -/
def freeFirstOne (f : Inflights) : Res Inflights := do
  let x ← bufGet f.buffer f.start "inflights.cc:66"
  f.freeLE x

end Inflights
end Craft
