import Verif.Model.Addr
import Verif.Model.Index
/-!
# The parsed headers (src/sipparser/SipHeader*.go)

One constructor of `HKind` per header type of the library; `HVal` is the parsed value.  The links `next` of the multi-value headers are lists in
the message model, and the fields `encodeEnd` (Content-Length) are modelled with the message.
-/
namespace Sip

/-- AbnfBasic.go:432-453 `ParseSWSMark` -/
def P.mark (m : UInt8) : P Unit := P.ofBool fun c => parseSWSMark c m
/-- AbnfBasic.go:324-350 `ParseHcolon` -/
def P.hcolon : P Unit := P.ofBool parseHcolon
/-- AbnfBasic.go:758-766 `ParseCRLF` -/
def P.crlf : P Unit := P.ofBool parseCRLF
/-- SipHeaderCSeq.go:76-84 and the same in the other numeric headers: `ParseUInt` at the current position; the error is recorded at its new position -/
def P.uint : P Nat := fun c =>
  let r := parseUInt c.src c.pos
  if r.ok then .ok (some r.digit, c.setPos r.newPos) else .ok (none, (c.setPos r.newPos).addError r.newPos)
/-- SipMethod.go:65-79 `SipMethod.Parse` -/
def P.method : P Method := parseMethod

/-- the header types of the library -/
inductive HKind where
  | to | from | contact | route | recordRoute | path | serviceRoute | pAssertedIdentity
  | via | callId | cseq | rack | rseq | expires | maxForwards | contentLength | contentType | contentDisposition
  deriving DecidableEq, Repr

/-- the value of a header: the union of the structs `SipHeaderTo` ... (SipHeaderTo.go:34-38, SipHeaderContact.go:36-42, SipHeaderVia.go:55-62,
SipHeaderCallID.go:8-11, SipHeaderCSeq.go:8-11, SipHeaderRAck.go:8-12, SipHeaderRSeq.go:8-10, SipHeaderContentType.go:34-39,
SipHeaderContentDisposition.go:34-38) -/
inductive HVal where
  /-- To, From, Contact, Route, Record-Route, Path, Service-Route, P-Asserted-Identity (which has no parameters) -/
  | addr (a : Addr) (ps : Params)
  /-- Contact: * -/
  | star
  /-- Via; `proto` is none for the tagged value SIP/2.0 -/
  | via (proto : Option (Bytes × Bytes)) (transport : Bytes) (sentBy : HostPort) (ps : Params)
  | callId (id1 : Bytes) (id2 : Option Bytes)
  | cseq (n : Nat) (m : Method)
  | rack (r n : Nat) (m : Method)
  /-- RSeq, Expires, Max-Forwards, Content-Length -/
  | num (n : Nat)
  | contentType (t s : Bytes) (ps : Params)
  | contentDisposition (t : Bytes) (ps : Params)
  deriving DecidableEq, Repr

/-- the names of the known parameters: SipHeaderTo.go:12-19, SipHeaderFrom.go:12-19, SipHeaderContact.go:12-21, SipHeaderVia.go:13-27,
SipHeaderContentType.go:12-19, SipHeaderContentDisposition.go:12-19 -/
def HKind.paramNames : HKind → List Bytes
  | .to => [str "tag"]
  | .from => [str "tag"]
  | .contact => [str "expires", str "q"]
  | .via => [str "branch", str "received", str "rport", str "ttl", str "maddr"]
  | .contentType => [str "boundary"]
  | .contentDisposition => [str "handling"]
  | _ => []

/-- the option of the context that selects known parameters (for Route, Record-Route, Path and Service-Route `SetKnownParams` knows no names) -/
def HKind.paramFlag : HKind → Flags → Bool
  | .to, fl => fl.setSipToKnownParam
  | .from, fl => fl.setSipFromKnownParam
  | .contact, fl => fl.setSipContactKnownParam
  | .via, fl => fl.setSipViaKnownParam
  | .contentType, fl => fl.setSipContentTypeKnownParam
  | .contentDisposition, fl => fl.setSipContentDispositionKnownParam
  | .route, fl => fl.setSipRouteKnownParam
  | .recordRoute, fl => fl.setSipRecordRouteKnownParam
  | .path, fl => fl.setSipPathKnownParam
  | .serviceRoute, fl => fl.setSipServiceRouteKnownParam
  | _, _ => false

/-- the generic parameters of the header -/
def HKind.params (k : HKind) : P Params := Params.parse k.paramNames k.paramFlag

/-- SipHeaderTo.go:102-120, SipHeaderFrom.go:104-122: address (URI parameters not read outside brackets) and parameters -/
def parseAddrParams (net : Net) (k : HKind) : P HVal := do
  let a ← P.orErr (parseAddr net false)
  let ps ← k.params
  pure (.addr a ps)

/-- SipHeaderRoute.go:77-95, SipHeaderRecordRoute.go:77-95, SipHeaderPath.go:77-95, SipHeaderServiceRoute.go:77-95: name-addr and parameters -/
def parseRouteParams (net : Net) (k : HKind) : P HVal := do
  let a ← P.orErr (parseNameAddr net)
  let ps ← k.params
  pure (.addr a ps)

/-- SipHeaderContact.go:166-200. -/
def parseContact (net : Net) : P HVal := do
  P.sws
  match ← P.peek with
  | none => P.err
  | some b =>
    if b = 0x2a then do
      P.skip 1
      P.sws
      pure .star
    else parseAddrParams net .contact

/-- SipHeaderPAssertedIdentity.go:74-82. -/
def parseIdentity (net : Net) : P HVal := do
  let a ← P.orErr (parseAddr net false)
  pure (.addr a {})

/-- SipHeaderVia.go:197-217: the test for the text `SIP/2.0` not followed by a digit -/
def isSip20 (y : Bytes) : Bool :=
  match y with
  | a :: b :: d :: e :: f :: g :: h :: i :: _ =>
    a ||| 0x20 = 0x73 && b ||| 0x20 = 0x69 && d ||| 0x20 = 0x70 && e = 0x2f && f = 0x32 && g = 0x2e && h = 0x30 && !isDigit i
  | _ => false

/-- SipHeaderVia.go:219-249: any other protocol -/
def parseOtherProtocol : P (Option (Bytes × Bytes)) := do
  P.orErr (P.alloc 4)
  let n ← P.orErr (P.str csSipToken)
  P.orErr (P.mark 0x2f)
  let v ← P.orErr (P.str csSipToken)
  P.orErr (P.mark 0x2f)
  pure (some (n, v))

/-- SipHeaderVia.go:196-250 `parseSentProtocol`. -/
def parseSentProtocol : P (Option (Bytes × Bytes)) := do
  let c ← P.get
  if isSip20 c.rest then do
    P.skip 7
    P.orErr (P.mark 0x2f)
    pure none
  else parseOtherProtocol

/-- SipHeaderVia.go:161-194. -/
def parseVia (net : Net) : P HVal := do
  let pr ← P.orErr parseSentProtocol
  let t ← P.orErr (P.str csSipToken)
  P.orErr P.lws
  let h ← P.orErr (HostPort.parse net)
  let ps ← HKind.via.params
  pure (.via pr t h ps)

/-- SipHeaderCallID.go:77-98 (SipHeaderCallId.go has the same text). -/
def parseCallId : P HVal := do
  let a ← P.orErr (P.str csSipWord)
  match ← P.peek with
  | none => pure (.callId a none)
  | some b =>
    if b = 0x40 then do
      P.skip 1
      let d ← P.orErr (P.str csSipWord)
      pure (.callId a (some d))
    else pure (.callId a none)

/-- SipHeaderCSeq.go:75-99; the number is stored in a uint32. -/
def parseCSeq : P HVal := do
  let n ← P.uint
  P.orErr P.lws
  let m ← P.orErr P.method
  pure (.cseq (n % 4294967296) m)

/-- SipHeaderRAck.go:80-120. -/
def parseRAck : P HVal := do
  let r ← P.uint
  P.orErr P.lws
  let n ← P.uint
  P.orErr P.lws
  let m ← P.orErr P.method
  pure (.rack (r % 4294967296) (n % 4294967296) m)

/-- SipHeaderRSeq.go:72-83, SipHeaderExpires.go:72-83, SipHeaderContentLength.go:74-85 (uint32), SipHeaderMaxForwards.go:72-83 (byte). -/
def parseNum (size : Nat) : P HVal := do
  let n ← P.uint
  pure (.num (n % size))

/-- SipHeaderContentType.go:116-145. -/
def parseContentType : P HVal := do
  let t ← P.orErr (P.str csSipToken)
  P.orErr (P.mark 0x2f)
  let s ← P.orErr (P.str csSipToken)
  let ps ← HKind.contentType.params
  pure (.contentType t s ps)

/-- SipHeaderContentDisposition.go:110-128. -/
def parseContentDisposition : P HVal := do
  let t ← P.orErr (P.str csSipToken)
  let ps ← HKind.contentDisposition.params
  pure (.contentDisposition t ps)

/-- `ParseValueWithoutInit` of the header types (lines as above) -/
def HKind.parseValue (net : Net) : HKind → P HVal
  | .to => parseAddrParams net .to
  | .from => parseAddrParams net .from
  | .contact => parseContact net
  | .route => parseRouteParams net .route
  | .recordRoute => parseRouteParams net .recordRoute
  | .path => parseRouteParams net .path
  | .serviceRoute => parseRouteParams net .serviceRoute
  | .pAssertedIdentity => parseIdentity net
  | .via => parseVia net
  | .callId => parseCallId
  | .cseq => parseCSeq
  | .rack => parseRAck
  | .rseq => parseNum 4294967296
  | .expires => parseNum 4294967296
  | .maxForwards => parseNum 256
  | .contentLength => parseNum 4294967296
  | .contentType => parseContentType
  | .contentDisposition => parseContentDisposition

/-- the size of the header struct -/
def HKind.structSize : HKind → Nat
  | .to => 14
  | .from => 14
  | .contact => 18
  | .route => 16
  | .recordRoute => 16
  | .path => 16
  | .serviceRoute => 16
  | .pAssertedIdentity => 12
  | .via => 16
  | .callId => 4
  | .cseq => 8
  | .rack => 12
  | .rseq => 4
  | .expires => 4
  | .maxForwards => 1
  | .contentLength => 8
  | .contentType => 8
  | .contentDisposition => 6

/-- SipHeaderTo.go:199-207 `ParseSipTo` and the same for the other headers (SipHeaderFrom.go:203-211, SipHeaderContact.go:287-295, SipHeaderRoute.go:128-136,
SipHeaderRecordRoute.go:136-144, SipHeaderPath.go:127-135, SipHeaderServiceRoute.go:140-148, SipHeaderPAssertedIdentity.go:121-129, SipHeaderVia.go:330-338,
SipHeaderCallID.go:141-149, SipHeaderCSeq.go:123-131, SipHeaderRAck.go:144-152, SipHeaderRSeq.go:107-115, SipHeaderExpires.go:110-118,
SipHeaderMaxForwards.go:115-123, SipHeaderContentLength.go:135-143, SipHeaderContentType.go:286-294, SipHeaderContentDisposition.go:225-233): allocate the
struct and parse the value. -/
def HKind.parseAlloc (net : Net) (k : HKind) : P HVal := do
  P.orErr (P.alloc k.structSize)
  k.parseValue net

/-! ## Header names -/

/-- the names `parseHeaderName` of the header accepts, in lower case: SipHeaderTo.go:165-197, SipHeaderFrom.go:167-201, SipHeaderContact.go:246-285,
SipHeaderRoute.go:105-126, SipHeaderRecordRoute.go:105-134, SipHeaderPath.go:105-125, SipHeaderServiceRoute.go:105-138, SipHeaderPAssertedIdentity.go:84-119,
SipHeaderVia.go:295-328, SipHeaderCallID.go:100-139, SipHeaderCSeq.go:101-121, SipHeaderRAck.go:122-142, SipHeaderRSeq.go:85-105, SipHeaderExpires.go:85-108,
SipHeaderMaxForwards.go:85-113, SipHeaderContentLength.go:87-133, SipHeaderContentType.go:233-284, SipHeaderContentDisposition.go:173-223 -/
def HKind.names : HKind → List Bytes
  | .to => [str "t", str "to"]
  | .from => [str "f", str "from"]
  | .contact => [str "contact", str "m"]
  | .route => [str "route"]
  | .recordRoute => [str "record-route"]
  | .path => [str "path"]
  | .serviceRoute => [str "service-route"]
  | .pAssertedIdentity => [str "p-asserted-identity"]
  | .via => [str "v", str "via"]
  | .callId => [str "call-id", str "i"]
  | .cseq => [str "cseq"]
  | .rack => [str "rack"]
  | .rseq => [str "rseq"]
  | .expires => [str "expires"]
  | .maxForwards => [str "max-forwards"]
  | .contentLength => [str "content-length", str "l"]
  | .contentType => [str "c", str "content-type", str "l"]
  | .contentDisposition => [str "content-disposition", str "l"]

/-- whether the dash is compared with the byte after setting bit 0x20, as the letters are (SipHeaderRecordRoute.go:120, SipHeaderServiceRoute.go:125,
SipHeaderPAssertedIdentity.go:94 and 103) -/
def HKind.looseDash : HKind → Bool
  | .recordRoute => true
  | .serviceRoute => true
  | .pAssertedIdentity => true
  | _ => false

/-- one comparison of `parseHeaderName` -/
def nameByte (loose : Bool) (p b : UInt8) : Bool := if p = 0x2d && !loose then b = p else b ||| 0x20 = p

/-- the name stands at the beginning of the text, with `:` or white space behind it -/
def nameAt (loose : Bool) : Bytes → Bytes → Bool
  | [], y => match y with
    | b :: _ => b = 0x3a || isWspChar b
    | [] => false
  | p :: ps, y => match y with
    | b :: y => nameByte loose p b && nameAt loose ps y
    | [] => false

/-- `parseHeaderName` (lines as for `HKind.names`): the position is moved only when a name is found; no error is recorded -/
def HKind.parseName (k : HKind) : P Unit := fun c =>
  match k.names.find? (fun n => nameAt k.looseDash n c.rest) with
  | some n => .ok (some (), c.adv n.length)
  | none => .ok (none, c)

/-- `ParseWithoutInit` (SipHeaderTo.go:81-95 and the same in the other headers) -/
def HKind.parse (net : Net) (k : HKind) : P HVal := do
  P.orErr k.parseName
  P.orErr P.hcolon
  k.parseValue net

/-! ## Encoding -/

/-- the name written by `Encode` (SipHeaderTo.go:60-63 and the same in the other headers) -/
def HKind.title : HKind → Bytes
  | .to => str "To"
  | .from => str "From"
  | .contact => str "Contact"
  | .route => str "Route"
  | .recordRoute => str "Record-Route"
  | .path => str "Path"
  | .serviceRoute => str "Service-Route"
  | .pAssertedIdentity => str "P-Asserted-Identity"
  | .via => str "Via"
  | .callId => str "Call-ID"
  | .cseq => str "CSeq"
  | .rack => str "RAck"
  | .rseq => str "RSeq"
  | .expires => str "Expires"
  | .maxForwards => str "Max-Forwards"
  | .contentLength => str "Content-Length"
  | .contentType => str "Content-Type"
  | .contentDisposition => str "Content-Disposition"

/-- `EncodeValue` of the header types (SipHeaderTo.go:65-68, SipHeaderFrom.go:65-68, SipHeaderContact.go:69-76, SipHeaderRoute.go:40-43,
SipHeaderRecordRoute.go:40-43, SipHeaderPath.go:40-43, SipHeaderServiceRoute.go:40-43, SipHeaderPAssertedIdentity.go:38-40, SipHeaderVia.go:89-103,
SipHeaderCallID.go:38-44, SipHeaderCSeq.go:38-42, SipHeaderRAck.go:39-45, SipHeaderRSeq.go:37-39, SipHeaderExpires.go:37-39, SipHeaderMaxForwards.go:37-39,
SipHeaderContentLength.go:38-42, SipHeaderContentType.go:66-71, SipHeaderContentDisposition.go:65-68) -/
def HKind.encodeValue (net : Net) (fl : Flags) (k : HKind) : HVal → Out Bytes
  | .addr a ps => .ok (a.encode net fl ++ ps.encode k.paramNames)
  | .star => .ok [0x2a]
  | .via pr t h ps =>
    .ok ((match pr with
      | none => str "SIP/2.0/"
      | some (n, v) => n ++ 0x2f :: v ++ [0x2f]) ++ t ++ 0x20 :: h.encode net ++ ps.encode k.paramNames)
  | .callId a b => .ok (a ++ (match b with
    | some b => 0x40 :: b
    | none => []))
  | .cseq n m => do
    let m ← m.encode
    .ok (encodeUInt n ++ 0x20 :: m)
  | .rack r n m => do
    let m ← m.encode
    .ok (encodeUInt r ++ 0x20 :: encodeUInt n ++ 0x20 :: m)
  | .num n => .ok (if k = .contentLength then encodeUIntWithWidth n 10 else encodeUInt n)
  | .contentType t s ps => .ok (t ++ 0x2f :: s ++ ps.encode k.paramNames)
  | .contentDisposition t ps => .ok (t ++ ps.encode k.paramNames)

/-- `Encode` (SipHeaderTo.go:60-63 and the same in the other headers) -/
def HKind.encode (net : Net) (fl : Flags) (k : HKind) (v : HVal) : Out Bytes := do
  let t ← k.encodeValue net fl v
  .ok (k.title ++ str ": " ++ t)

/-- SipHeaderContentType.go:198-231 `SetBoundary`: the boundary becomes a quoted string; the size is what the arena is charged (the known
parameters and the parameter are allocated only when there are none) -/
def HVal.setBoundary (b : Bytes) : HVal → HVal
  | .contentType t s ps => .contentType t s { ps with known := [some ⟨str "boundary", some (.quoted b)⟩] }
  | v => v

end Sip
