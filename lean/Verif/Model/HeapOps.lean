import Verif.Model.HeapMsg
import Verif.Model.MemPrim
/-!
# Operations on a message on the bytes of the arena (src/sipparser/SipMsg.go:293-343, SipHeaders.go:143-171)
-/
namespace Sip
namespace Rd
/-- a reading step and the rest -/
def andThen {α γ : Type} (x : Rd α) (k : α → Rd γ) : Rd γ := fun m =>
  match x m with
  | .ok a => k a m
  | .panic => .panic
  | .hang => .hang

/-- SipMsg.go:294-298: the loop over the array `commonHeaders`, whose next pointer is at `f`.  Simplification: it begins with the second pointer; the first one is
never set. -/
def findCommon (i : Nat) : List HKind → Nat → Rd Nat
  | [], _ => ret 0
  | k :: ks, f => u16 f fun v => if v ≠ 0 ∧ k.index = i then ret v else findCommon i ks (f + 2)

/-- SipMsg.go:293-309 `GetHeaderByIndex`: the address of the header or nil, and whether it is a parsed one. -/
def headerByIndex (this i : Nat) : Rd (Nat × Bool) :=
  andThen (findCommon i msgOrder (this + 22)) fun v =>
    if v ≠ 0 then ret (v, true)
    else u16 (this + 64) fun h => andThen (findRaw i 32769 h) fun x => ret (x, false)

/-- SipHeaders.go:158-171 `FindUnknownRawHeaderByName` (see `findRaw` for the budget). -/
def findRawName (name : Bytes) : Nat → Nat → Rd Nat
  | 0, _ => fun _ => .hang
  | n + 1, p => if p = 0 then ret 0 else u16 (p + 2) fun h => andThen (fun m => bEqNoCase m h name) fun e => if e then ret p else u16 (p + 6) fun q => findRawName name n q

/-- UriParam.go:226-236 `GetUriParamByName`: the address of the parameter or nil (see `findRaw` for the budget). -/
def uriParamByName (name : Bytes) : Nat → Nat → Rd Nat
  | 0, _ => fun _ => .hang
  | n + 1, p => if p = 0 then ret 0 else u16 p fun h => andThen (fun m => bEqNoCase m h name) fun e => if e then ret p else u16 (p + 4) fun q => uriParamByName name n q
end Rd

namespace B
/-- AbnfPtr.go:66-75 `HasPrefixNoCase` -/
def hasPrefix (p : Nat) (pre : Bytes) : B Bool := fun c =>
  match bHasPrefixNoCase c.a.mem c.a.cap p pre with
  | .ok x => .ok (some x, c)
  | .panic => .panic
  | .hang => .hang

/-- SipMsg.go:325-330: the test of the header at `p` -/
def isContent (p : Nat) : B Bool := do
  let id ← get16 p
  if id = 12 ∨ id = 80 ∨ id = 81 ∨ id = 82 ∨ id = 13 then pure true
  else if id = 0 then do
    let n ← get16 (p + 2)
    hasPrefix n (Sip.str "Content-")
  else pure false

/-- SipMsg.go:321-341: the loop over the raw headers (see `Rd.findRaw` for the budget); the variables `prevHeader` (0 is nil) and `addr`. -/
def removeLoop (this : Nat) : Nat → Nat → Nat → B Unit
  | 0, _, _ => fun _ => .hang
  | n + 1, prev, addr =>
    if addr = 0 then pure () else do
    let t ← isContent addr
    let next ← get16 (addr + 6)
    if t then
      if prev = 0 then do
        put16 (this + 64) next
        removeLoop this n prev next
      else do
        put16 (prev + 6) next
        removeLoop this n prev next
    else removeLoop this n (if prev = 0 then addr else prev) next

/-- SipMsg.go:312-343 `RemoveContentHeaders`. -/
def removeContentHeaders (this : Nat) : B Unit := do
  put16 ((msgPlace this).field .contentDisposition) 0
  let addr ← get16 (this + 64)
  removeLoop this 32769 0 addr
end B
end Sip
