import Verif.Model.Charset
import Verif.Model.Arena
/-!
# The parsing context (src/sipparser/AbnfContext.go) at the value layer

Strings in the arena are represented by their bytes, but the accounting (`used`, `cap`) is the one of the byte layer.
`errs` keeps the positions of the reported errors, newest first (descriptions, file names and line numbers are not modelled).
-/
namespace Sip

/-- The option flags of the context that influence parsing or encoding (AbnfContext.go:9-39). -/
structure Flags where
  encodeHeaderShortName : Bool := false
  parseSipHeaderAsRaw : Bool := false
  setSipUriKnownParam : Bool := false
  setSipFromKnownParam : Bool := false
  setSipToKnownParam : Bool := false
  setSipRouteKnownParam : Bool := false
  setSipRecordRouteKnownParam : Bool := false
  setSipContactKnownParam : Bool := false
  setSipViaKnownParam : Bool := false
  setSipContentTypeKnownParam : Bool := true
  setSipContentDispositionKnownParam : Bool := false
  setTelUriKnownParam : Bool := false
  setSipPathKnownParam : Bool := false
  setSipServiceRouteKnownParam : Bool := false
  encodeUriAsNameSpace : Bool := true
  encodeUriNoEscape : Bool := false
  encodeReasonPhraseNoEscape : Bool := false
  /-- the numbers of the headers whose entry in the table `SipHeaders` of the context (AbnfContext.go:38, SipHeadersInfo.go:21) has `NeedParse` switched off -/
  noParse : List Nat := []
  deriving DecidableEq, Repr

/-- AbnfContext.go:9-39 `Context`. -/
structure Ctx where
  src : Bytes
  pos : Nat := 0
  used : Nat := 8
  cap : Nat
  errs : List Nat := []
  flags : Flags := {}
  deriving DecidableEq, Repr

namespace Ctx
/-- AbnfContext.go:70-73 `AddError`. -/
def addError (c : Ctx) (pos : Nat) : Ctx := { c with errs := pos :: c.errs }
/-- `context.parsePos = pos`, AbnfContext.go:62-64. -/
def setPos (c : Ctx) (pos : Nat) : Ctx := { c with pos := pos }
/-- `context.parsePos += n`. -/
def adv (c : Ctx) (n : Nat) : Ctx := { c with pos := c.pos + n }
/-- `src[i]`, `none` when the Go index would be out of range. -/
def at? (c : Ctx) (i : Nat) : Option UInt8 := c.src[i]?
/-- the byte at the parse position -/
def cur? (c : Ctx) : Option UInt8 := c.src[c.pos]?
/-- what is left to parse -/
def rest (c : Ctx) : Bytes := c.src.drop c.pos
/-- value-layer `MemAllocator.Alloc`/`AllocWithClear` of a struct of `n > 0` bytes (AbnfMem.go:695-737): `false` is nil.
Statistics are only modelled at the byte layer. -/
def alloc (c : Ctx) (n : Nat) : Bool × Ctx :=
  if c.used + n > c.cap then (false, c) else (true, { c with used := c.used + n })
end Ctx

/-- `for ; pos < len(src) && p(src[pos]); pos++ {}`: position of the first byte at or after `pos` that does not satisfy `p`. -/
def skipWhile (p : UInt8 → Bool) (src : Bytes) (pos : Nat) : Nat := pos + runLen p (src.drop pos)

end Sip
