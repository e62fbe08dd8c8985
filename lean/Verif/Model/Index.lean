import Verif.Model.TrieTable
import Verif.Model.Str
/-! # Method and header name lookup, `SipMethod` (SipMethodIndex.go, SipHeadersIndex.go, SipMethod.go) -/
namespace Sip

/-- SipMethodIndex.go:22-247 `GetSipMethodIndex`: (index, new position). -/
def getSipMethodIndex (src : Bytes) (pos : Nat) : Out (Nat × Nat) := methodTrie.lookup src pos

/-- SipHeadersIndex.go:130-2857 `GetSipHeaderIndex`: (index, new position). -/
def getSipHeaderIndex (src : Bytes) (pos : Nat) : Out (Nat × Nat) := headerTrie.lookup src pos

/-- SipMethod.go:8-23 `g_sipMethodName` with the constants of SipMethodIndex.go:5-20. -/
def sipMethodName : List Bytes :=
  [str "UKNOWN", str "INVITE", str "PRACK", str "UPDATE", str "INFO", str "ACK", str "BYE", str "REGISTER", str "SUBSCRIBE", str "NOTIFY",
   str "REFER", str "OPTIONS", str "MESSAGE", str "PUBLISH"]

/-- SipMethod.go:25-29 `SipMethod`: a tagged index or a pointer to the token (nil pointer is `none`: it is an address, so nothing is written). -/
inductive Method where
  | known (i : Nat)
  | token (p : Option Bytes)
  deriving DecidableEq, Repr

/-- SipMethod.go:51-57 `SipMethod.Encode` (an index out of the table is a panic). -/
def Method.encode : Method → Out Bytes
  | .known i => match sipMethodName[i]? with
    | some n => .ok n
    | none => .panic
  | .token p => .ok (writeStr p)

/-- SipMethod.go:65-79 `SipMethod.Parse`. -/
def parseMethod (c : Ctx) : Out (Option Method × Ctx) := do
  let (m, newPos) ← getSipMethodIndex c.src c.pos
  if m = 0 then
    let (p, c) ← parseStrFromPos csSipToken newPos c
    match p with
    | none => .ok (none, c)
    | some b => .ok (some (.token (some b)), c)
  else .ok (some (.known m), c.setPos newPos)

end Sip
