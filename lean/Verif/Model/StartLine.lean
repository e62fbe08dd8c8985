import Verif.Model.Headers
/-! # Request-Line and Status-Line (src/sipparser/SipStartLine.go) -/
namespace Sip

/-- SipStartLine.go:8-15 `SipStartLine`; which fields are used depends on `isRequest`. -/
inductive StartLine where
  | request (m : Method) (a : Addr) (v : Version)
  | status (v : Version) (code : Nat) (reason : Bytes)
  deriving DecidableEq, Repr

/-- SipStartLine.go:104-114, 121-131, 171-181, 189-199: one space -/
def P.sp : P Unit := do
  match ← P.peek with
  | none => P.err
  | some b => if b ≠ 0x20 then P.err else P.skip 1

/-- SipStartLine.go:96-146 `ParseRequestLine`. -/
def StartLine.parseRequest (net : Net) : P StartLine := do
  let m ← P.orErr P.method
  P.sp
  let a ← P.orErr (parseAddrSpec net)
  P.sp
  let v ← P.orErr Version.parse
  P.orErr P.crlf
  pure (.request m a v)

/-- SipStartLine.go:163-215 `ParseStatusLineAfterVersionStart`; the code is stored in a uint16. -/
def StartLine.parseStatus : P StartLine := do
  let v ← P.orErr Version.parseAfterStart
  P.sp
  let n ← P.uint
  P.sp
  let r ← P.orErr (P.strEscEmpty csSipReasonPhrase)
  P.orErr P.crlf
  pure (.status v (n % 65536) r)

/-- SipStartLine.go:82-88 `ParseWithoutInit`: `ParseStart` neither moves nor reports when it fails. -/
def StartLine.parse (net : Net) : P StartLine := do
  let s ← P.orElse (do Version.parseStart; pure true) (pure false)
  if s then StartLine.parseStatus else StartLine.parseRequest net

/-- SipStartLine.go:48-54 `EncodeRequestLine`, 56-66 `EncodeStatusLine`. -/
def StartLine.encodeLine (net : Net) (fl : Flags) : StartLine → Out Bytes
  | .request m a v => do
    let m ← m.encode
    .ok (m ++ 0x20 :: a.encodeAddrSpec net fl ++ 0x20 :: v.encode)
  | .status v n r =>
    .ok (v.encode ++ 0x20 :: encodeUInt n ++ 0x20 :: (if fl.encodeReasonPhraseNoEscape then r else escapeStr csSipReasonPhrase r))

/-- SipStartLine.go:37-46 `Encode`. -/
def StartLine.encode (net : Net) (fl : Flags) (s : StartLine) : Out Bytes := do
  let t ← s.encodeLine net fl
  .ok (t ++ [0x0d, 0x0a])

end Sip
