/-!
# Base definitions shared by every part of the model

* `Res`  — outcome of a C++ call: normal return, fatal abort, or undefined behaviour.
* `sub64` — `uint64_t` subtraction with wrap-around.
* ordered association lists standing for `std::map<uint64_t, T>` and ordered lists for
  `std::set<uint64_t>`.
-/

namespace Craft

/-- Outcome of running a piece of the C++ code.
`fatal site` : the code called `CRAFT_LOG_FATAL` (`/repo/src/logger.h`: logs at fatal level;
`ConsoleLogger::Logv` in `/repo/src/logger.cc` then calls `abort()`) or failed an `assert`.
`ub site` : the code did something without defined behaviour (null dereference, index out of bounds, ...). -/
inductive Res (α : Type) where
  | ok (a : α)
  | fatal (site : String)
  | ub (site : String)
deriving Repr, DecidableEq

namespace Res

/-- Sequencing: an abort or undefined behaviour ends the execution. -/
def bind {α β : Type} : Res α → (α → Res β) → Res β
  | ok a, f => f a
  | fatal s, _ => fatal s
  | ub s, _ => ub s

instance : Monad Res where
  pure := ok
  bind := bind

@[simp] theorem pure_eq {α : Type} (a : α) : (pure a : Res α) = ok a := rfl
@[simp] theorem ok_bind {α β : Type} (a : α) (f : α → Res β) : (ok a >>= f) = f a := rfl
@[simp] theorem fatal_bind {α β : Type} (s : String) (f : α → Res β) : (fatal s >>= f) = fatal s := rfl
@[simp] theorem ub_bind {α β : Type} (s : String) (f : α → Res β) : (ub s >>= f) = ub s := rfl

/-- The main inversion principle: a sequence returned normally iff both parts did. -/
theorem bind_eq_ok {α β : Type} {x : Res α} {f : α → Res β} {b : β} :
    (x >>= f) = ok b ↔ ∃ a, x = ok a ∧ f a = ok b := by
  cases x <;> simp

/-- The call returned normally. -/
def isOk {α : Type} : Res α → Bool
  | ok _ => true
  | _ => false

theorem isOk_iff {α : Type} {x : Res α} : x.isOk = true ↔ ∃ a, x = ok a := by
  cases x <;> simp [isOk]

end Res

/-- Largest `uint64_t` (`UINT64_MAX`, `std::numeric_limits<uint64_t>::max()`). -/
def u64Max : Nat := 2 ^ 64 - 1

/-- `a - b` on `uint64_t`: wraps modulo 2^64 (for `a, b < 2^64`). -/
def sub64 (a b : Nat) : Nat := if b ≤ a then a - b else 2 ^ 64 - (b - a)

theorem sub64_of_le {a b : Nat} (h : b ≤ a) : sub64 a b = a - b := by simp [sub64, h]

/-- `std::map<uint64_t, β>`: association list kept in ascending key order. -/
abbrev AMap (β : Type) := List (Nat × β)

namespace AMap

/-- `map.find(k)` -/
def find {β : Type} : AMap β → Nat → Option β
  | [], _ => none
  | (k', v) :: m, k => if k' = k then some v else find m k

/-- `map[k] = v` -/
def insert {β : Type} : AMap β → Nat → β → AMap β
  | [], k, v => [(k, v)]
  | (k', v') :: m, k, v =>
    if k' = k then (k, v) :: m
    else if k < k' then (k, v) :: (k', v') :: m
    else (k', v') :: insert m k v

/-- `map.erase(k)` -/
def erase {β : Type} : AMap β → Nat → AMap β
  | [], _ => []
  | (k', v') :: m, k => if k' = k then erase m k else (k', v') :: erase m k

/-- Keys in iteration order. -/
def keys {β : Type} (m : AMap β) : List Nat := m.map Prod.fst

/-- `map.count(k) != 0` -/
def has {β : Type} (m : AMap β) (k : Nat) : Bool := (m.find k).isSome

end AMap

/-- `std::set<uint64_t>`: list kept in strictly ascending order. -/
abbrev USet := List Nat

namespace USet

/-- `set.insert(k)` -/
def insert : USet → Nat → USet
  | [], k => [k]
  | x :: s, k => if x = k then x :: s else if k < x then k :: x :: s else x :: insert s k

/-- `set.erase(k)` -/
def erase : USet → Nat → USet
  | [], _ => []
  | x :: s, k => if x = k then erase s k else x :: erase s k

/-- Membership test `set.count(k) != 0`. -/
def has (s : USet) (k : Nat) : Bool := decide (k ∈ s)

/-- Union obtained by inserting the elements of `t` into `s` one by one. -/
def insertAll (s t : USet) : USet := t.foldl insert s

end USet

end Craft
