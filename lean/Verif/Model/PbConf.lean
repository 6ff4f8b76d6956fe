import Verif.Model.Types

/-! # `/repo/src/raftpb/confchange.cc`, `/repo/src/raftpb/confstate.cc`, string helpers of `/repo/src/util.cc` -/

namespace Craft

/-- `ConfChangeI` (`/repo/src/raftpb/confchange.h`): either a V1 or a V2 change. -/
inductive ConfChangeI where
  | v1 (cc : ConfChange)
  | v2 (cc : ConfChangeV2)
deriving Repr, DecidableEq

/-- `ConfChangeI::AsV2` (`/repo/src/raftpb/confchange.cc` 23-33). -/
def ConfChangeI.asV2 : ConfChangeI → ConfChangeV2
  | .v1 cc => { changes := [⟨cc.type, cc.nodeId⟩], context := cc.context }
  | .v2 cc => cc

/-- `ConfChangeI::Marshal` (`/repo/src/raftpb/confchange.cc` 42-56). -/
def ConfChangeI.marshal (env : Env) : ConfChangeI → EntryType × Bytes
  | .v1 cc => (.confChange, env.serV1 cc)
  | .v2 cc => (.confChangeV2, env.serV2 cc)

/-- `EnterJoint(cc)` (`/repo/src/raftpb/confchange.cc` 58-84): `(auto_leave, use_joint)`. -/
def ccEnterJoint (cc : ConfChangeV2) : Bool × Bool :=
  if cc.transition ≠ .auto ∨ cc.changes.length > 1 then
    match cc.transition with
    | .auto => (true, true)
    | .jointImplicit => (true, true)
    | .jointExplicit => (false, true)
  else (false, false)

/-- `LeaveJoint(cc)` (`/repo/src/raftpb/confchange.cc` 86-91): the context is cleared first. -/
def ccLeaveJoint (cc : ConfChangeV2) : Bool := cc.changes.isEmpty && decide (cc.transition = .auto)

/-! Strings are lists of characters. -/

/-- `Util::Trim(str, c)` (`/repo/src/util.cc` 82-89). -/
def trim (c : Char) (s : List Char) : List Char :=
  ((s.dropWhile (· == c)).reverse.dropWhile (· == c)).reverse

/-- `Util::Split(str, delimiter)` (`/repo/src/util.cc` 69-80): `cur` is the token being read. -/
def splitLoop (d : Char) (cur : List Char) : List Char → List (List Char)
  | [] => [cur]
  | c :: cs => if c = d then cur :: splitLoop d [] cs else splitLoop d (cur ++ [c]) cs

/-- `Util::Split(str, delimiter)` (`/repo/src/util.cc` 69-80). -/
def split (d : Char) (s : List Char) : List (List Char) := splitLoop d [] s

/-- `operator<<(uint64_t)` of a `std::ostream` (used at `/repo/src/raftpb/confchange.cc` 145): decimal digits. -/
def showNat (n : Nat) : List Char := Nat.toDigits 10 n

/-- White space skipped by `strtoull` in the "C" locale. -/
def isSpaceC (c : Char) : Bool :=
  c = ' ' || c = '\t' || c = '\n' || c = '\x0b' || c = '\x0c' || c = '\r'

/-- Digit value. -/
def digitVal (c : Char) : Nat := c.toNat - '0'.toNat

/-- Longest digit prefix read as a decimal number. -/
def digitsVal (acc : Nat) : List Char → Nat
  | [] => acc
  | c :: cs => if c.isDigit then digitsVal (acc * 10 + digitVal c) cs else acc

/-- `std::strtoull(p, nullptr, 10)` (`/repo/src/raftpb/confchange.cc` 118) per the C standard: skip white space, optional
sign, digits; saturates at `ULLONG_MAX`; a minus sign negates modulo 2^64. -/
def strtoull (s : List Char) : Nat :=
  let s := s.dropWhile isSpaceC
  match s with
  | '-' :: s => let v := min (digitsVal 0 s) u64Max
                if digitsVal 0 s > u64Max then u64Max else (2 ^ 64 - v) % 2 ^ 64
  | '+' :: s => min (digitsVal 0 s) u64Max
  | s => min (digitsVal 0 s) u64Max

/-- Token loop of `ConfChangesFromString` (`/repo/src/raftpb/confchange.cc` 100-124). -/
def parseTokens : List (List Char) → Except Err (List CCSingle)
  | [] => .ok []
  | tok :: toks =>
    match tok with
    | c :: d :: rest =>
      let ty : Option CCType :=
        if c = 'v' then some .addNode else if c = 'l' then some .addLearnerNode
        else if c = 'r' then some .removeNode else if c = 'u' then some .updateNode else none
      match ty with
      | none => .error (.invalid "unknow input")
      | some ty =>
        match parseTokens toks with
        | .error e => .error e
        | .ok ccs => .ok (⟨ty, strtoull (d :: rest)⟩ :: ccs)
    | _ => .error (.invalid "unknow token")

/-- `ConfChangesFromString` (`/repo/src/raftpb/confchange.cc` 93-126). -/
def confChangesFromString (s : List Char) : Except Err (List CCSingle) :=
  let tokens := split ' ' (trim ' ' s)
  let tokens := if tokens.head? = some [] then [] else tokens
  parseTokens tokens

/-- One element of `ConfChangesToString` (`/repo/src/raftpb/confchange.cc` 134-145). -/
def ccToString (cc : CCSingle) : List Char :=
  (match cc.type with
   | .addNode => ['v']
   | .addLearnerNode => ['l']
   | .removeNode => ['r']
   | .updateNode => ['u']
   | .unknown _ => "unknown".toList) ++ showNat cc.nodeId

/-- `ConfChangesToString` (`/repo/src/raftpb/confchange.cc` 128-148). -/
def confChangesToString : List CCSingle → List Char
  | [] => []
  | [cc] => ccToString cc
  | cc :: ccs => ccToString cc ++ ' ' :: confChangesToString ccs

/-- Insertion into an ascending list. -/
def insertU64 (x : Nat) : List Nat → List Nat
  | [] => [x]
  | y :: ys => if x ≤ y then x :: y :: ys else y :: insertU64 x ys

/-- `std::sort` on a repeated `uint64` field (`/repo/src/raftpb/confstate.cc` 22-27), as the C++ standard specifies it:
an ascending permutation. -/
def sortU64 : List Nat → List Nat
  | [] => []
  | x :: xs => insertU64 x (sortU64 xs)

/-- `operator==(ConfState, ConfState)` (`/repo/src/raftpb/confstate.cc` 18-41). -/
def confStateEq (a b : ConfState) : Bool :=
  decide (sortU64 a.voters = sortU64 b.voters) &&
  decide (sortU64 a.learners = sortU64 b.learners) &&
  decide (sortU64 a.votersOutgoing = sortU64 b.votersOutgoing) &&
  decide (sortU64 a.learnersNext = sortU64 b.learnersNext) &&
  decide (a.autoLeave = b.autoLeave)

end Craft
