import Verif.Model.HeapAddr
import Verif.Model.StartLine
/-! # The parsed headers and the start line on the bytes of the arena (src/sipparser/SipHeader*.go, SipMethod.go, SipVersion.go, SipStartLine.go) -/
namespace Sip

/-- SipMethodIndex.go:22-247: the method index and the position behind the name (the position itself is not moved). -/
def P.methodIndex : P (Nat × Nat) := fun c =>
  match getSipMethodIndex c.src c.pos with
  | .ok r => .ok (some r, c)
  | .panic => .panic
  | .hang => .hang

namespace B

/-! ## SipMethod and SipVersion: one AbnfPtr, a tagged value (AbnfPtr.go:12-37) or the address of a string (SipMethod.go:25-29, SipVersion.go:12-14) -/

/-- SipMethod.go:65-79 `Parse`. -/
def method (this : Nat) : B Unit := do
  let r ← lift P.methodIndex
  if r.1 = 0 then do
    let s ← strFromPos csSipToken r.2
    put16 this s
    pure ()
  else do
    setPos r.2
    put16 this (32768 + r.1)
    pure ()

/-- SipVersion.go:73-100: the part of `ParseAfterStart` behind the fast path. -/
def majorMinor (this : Nat) : B Unit := do
  let c ← ctx
  let newPos := skipWhile isDigit c.src c.pos
  if newPos ≤ c.pos then err else
  match c.src[newPos]? with
  | none => panic
  | some d =>
    if d ≠ 0x2e then do
      setPos newPos
      err
    else do
      let s ← orErr (strFromPos csDigit (newPos + 1))
      put16 this s
      let d ← ctx
      if d.pos ≤ newPos + 1 then err else pure ()

/-- SipVersion.go:59-101 `ParseAfterStart`; 9: SIP_VERSION_2_0 is 1. -/
def versionAfterStart (this : Nat) : B Unit := do
  let b0 ← lift (P.byteAt 0)
  if b0 ≠ 0x32 then majorMinor this else do
  let b1 ← lift (P.byteAt 1)
  if b1 ≠ 0x2e then majorMinor this else do
  let b2 ← lift (P.byteAt 2)
  if b2 ≠ 0x30 then majorMinor this else do
  let c ← ctx
  if (c.src[c.pos + 3]?.map isDigit) = some true then majorMinor this else do
  skip 3
  put16 this (32768 + 1)
  pure ()

/-- SipVersion.go:49-57 `Parse`. -/
def version (this : Nat) : B Unit := do
  orErr (lift Version.parseStart)
  versionAfterStart this

/-! ## Headers -/

/-- SipHeaderTo.go:102-120 and the same in the other headers: address at `af`, parameters at `pf`, known parameters at `kf`. -/
def addrParams (net : Net) (k : HKind) (af pf kf : Nat) : B Unit := do
  orErr (addr net false af)
  headerParams k.paramNames k.paramFlag pf kf

/-- SipHeaderTo.go:34-38, 102-120 (SipHeaderFrom.go:34-38, 104-122): addr@0, params@10, knownParams@12; 14 bytes. -/
def toValue (net : Net) (k : HKind) (this : Nat) : B Unit := addrParams net k this (this + 10) (this + 12)

/-- SipHeaderRoute.go:8-13, 77-95 (SipHeaderRecordRoute.go, SipHeaderPath.go, SipHeaderServiceRoute.go: the same lines): addr@0, params@10, knownParams@12,
next@14; 16 bytes.  `SetKnownParams` (101-103) returns false: there are no names. -/
def routeValue (net : Net) (k : HKind) (this : Nat) : B Unit := do
  orErr (nameAddr net this)
  headerParams k.paramNames k.paramFlag (this + 10) (this + 12)

/-- SipHeaderContact.go:36-42, 166-200: isStar@0, addr@2, params@12, knownParams@14, next@16; 18 bytes. -/
def contactValue (net : Net) (this : Nat) : B Unit := do
  lift P.sws
  match ← peek with
  | none => err
  | some b =>
    if b = 0x2a then do
      skip 1
      put8 this 1
      lift P.sws
    else addrParams net .contact (this + 2) (this + 12) (this + 14)

/-- SipHeaderPAssertedIdentity.go:8-11, 74-82: addr@0, next@10; 12 bytes. -/
def identityValue (net : Net) (this : Nat) : B Unit := orErr (addr net false this)

/-- SipHeaderVia.go:219-249: the struct `SipSentProtocol` (42-45): name@0, version@2; 4 bytes. -/
def otherProtocol (this : Nat) : B Unit := do
  let p ← orErr (alloc 4)
  put16 this p
  let n ← orErr (str csSipToken)
  put16 p n
  orErr (lift (P.mark 0x2f))
  let v ← orErr (str csSipToken)
  put16 (p + 2) v
  orErr (lift (P.mark 0x2f))

/-- SipHeaderVia.go:196-250 `parseSentProtocol`. -/
def sentProtocol (this : Nat) : B Unit := do
  let c ← ctx
  if isSip20 c.rest then do
    skip 7
    orErr (lift (P.mark 0x2f))
    put16 this (32768 + 1)
    pure ()
  else otherProtocol this

/-- SipHeaderVia.go:55-62, 161-194: sentProtocol@0, transport@2, sentBy@4, params@10, knownParams@12, next@14; 16 bytes. -/
def viaValue (net : Net) (this : Nat) : B Unit := do
  orErr (sentProtocol this)
  let t ← orErr (str csSipToken)
  put16 (this + 2) t
  orErr (lift P.lws)
  orErr (hostPort net (this + 4))
  headerParams HKind.via.paramNames HKind.via.paramFlag (this + 10) (this + 12)

/-- SipHeaderCallID.go:8-11, 77-98: id1@0, id2@2; 4 bytes. -/
def callIdValue (this : Nat) : B Unit := do
  let a ← orErr (str csSipWord)
  put16 this a
  match ← peek with
  | none => pure ()
  | some b =>
    if b = 0x40 then do
      skip 1
      let d ← orErr (str csSipWord)
      put16 (this + 2) d
      pure ()
    else pure ()

/-- SipHeaderCSeq.go:8-11, 75-99: id@0, method@4; 8 bytes. -/
def cseqValue (this : Nat) : B Unit := do
  let n ← lift P.uint
  put32 this (n % 4294967296)
  orErr (lift P.lws)
  orErr (method (this + 4))

/-- SipHeaderRAck.go:8-12, 80-120: rseq@0, cseq@4, method@8; 12 bytes. -/
def rackValue (this : Nat) : B Unit := do
  let r ← lift P.uint
  put32 this (r % 4294967296)
  orErr (lift P.lws)
  let n ← lift P.uint
  put32 (this + 4) (n % 4294967296)
  orErr (lift P.lws)
  orErr (method (this + 8))

/-- SipHeaderRSeq.go:8-10, 72-83; SipHeaderExpires.go:8-10, 72-83; SipHeaderContentLength.go:8-11, 74-85: a uint32@0. -/
def num32Value (this : Nat) : B Unit := do
  let n ← lift P.uint
  put32 this (n % 4294967296)
  pure ()

/-- SipHeaderMaxForwards.go:8-10, 72-83: a byte@0. -/
def num8Value (this : Nat) : B Unit := do
  let n ← lift P.uint
  put8 this (UInt8.ofNat (n % 256))
  pure ()

/-- SipHeaderContentType.go:34-39, 116-145: mainType@0, subType@2, params@4, knownParams@6; 8 bytes. -/
def contentTypeValue (this : Nat) : B Unit := do
  let t ← orErr (str csSipToken)
  put16 this t
  orErr (lift (P.mark 0x2f))
  let s ← orErr (str csSipToken)
  put16 (this + 2) s
  headerParams HKind.contentType.paramNames HKind.contentType.paramFlag (this + 4) (this + 6)

/-- SipHeaderContentDisposition.go:34-38, 110-128: dispType@0, params@2, knownParams@4; 6 bytes. -/
def contentDispositionValue (this : Nat) : B Unit := do
  let t ← orErr (str csSipToken)
  put16 this t
  headerParams HKind.contentDisposition.paramNames HKind.contentDisposition.paramFlag (this + 2) (this + 4)

/-- `ParseValueWithoutInit` of the header types (lines as above) -/
def hdrValue (net : Net) : HKind → Nat → B Unit
  | .to, a => toValue net .to a
  | .from, a => toValue net .from a
  | .contact, a => contactValue net a
  | .route, a => routeValue net .route a
  | .recordRoute, a => routeValue net .recordRoute a
  | .path, a => routeValue net .path a
  | .serviceRoute, a => routeValue net .serviceRoute a
  | .pAssertedIdentity, a => identityValue net a
  | .via, a => viaValue net a
  | .callId, a => callIdValue a
  | .cseq, a => cseqValue a
  | .rack, a => rackValue a
  | .rseq, a => num32Value a
  | .expires, a => num32Value a
  | .maxForwards, a => num8Value a
  | .contentLength, a => num32Value a
  | .contentType, a => contentTypeValue a
  | .contentDisposition, a => contentDispositionValue a

/-- SipHeaderTo.go:199-207 `ParseSipTo` and the same for the other headers (lines at `HKind.parseAlloc`): the address of the struct. -/
def hdrAlloc (net : Net) (k : HKind) : B Nat := do
  let a ← orErr (alloc k.structSize)
  hdrValue net k a
  pure a

/-- what `Init` clears: the whole struct; SipHeaderVia.go:76-78: for Via the size of the struct of To -/
def initSize : HKind → Nat
  | .via => 14
  | k => k.structSize

/-- SipHeaderTo.go:97-100 `ParseValue` and the same in the other headers -/
def hdrInitValue (net : Net) (k : HKind) (this : Nat) : B Unit := do
  zero this (initSize k)
  hdrValue net k this

/-- SipHeaderTo.go:76-95 `Parse`, `ParseWithoutInit` and the same in the other headers -/
def hdrParse (net : Net) (k : HKind) (this : Nat) : B Unit := do
  zero this (initSize k)
  orErr (lift k.parseName)
  orErr (lift P.hcolon)
  hdrValue net k this

/-! ## SipStartLine: isRequest@0, statusCode@2, method@4, version@6, addr@8, reasonPhrase@18 (SipStartLine.go:8-15), 20 bytes -/

/-- SipStartLine.go:96-146 `ParseRequestLine`. -/
def requestLine (net : Net) (this : Nat) : B Unit := do
  orErr (method (this + 4))
  lift P.sp
  orErr (addrSpec net (this + 8))
  lift P.sp
  orErr (version (this + 6))
  orErr (lift P.crlf)
  put8 this 1
  pure ()

/-- SipStartLine.go:163-215 `ParseStatusLineAfterVersionStart`. -/
def statusLine (this : Nat) : B Unit := do
  orErr (versionAfterStart (this + 6))
  lift P.sp
  let n ← lift P.uint
  put16 (this + 2) (n % 65536)
  lift P.sp
  let r ← orErr (strEscEmpty csSipReasonPhrase)
  put16 (this + 18) r
  orErr (lift P.crlf)
  put8 this 0
  pure ()

/-- SipStartLine.go:82-88 `ParseWithoutInit`. -/
def startLine (net : Net) (this : Nat) : B Unit := do
  let s ← lift (P.orElse (do Version.parseStart; pure true) (pure false))
  if s then statusLine this else requestLine net this

/-- SipStartLine.go:77-80 `Parse`. -/
def startLineParse (net : Net) (this : Nat) : B Unit := do
  zero this 20
  startLine net this
end B

namespace E
/-- a panic -/
def panic : E := fun _ => .panic

/-- SipMethod.go:51-57 `Encode`. -/
def method (this : Nat) : E := u16 this fun p =>
  if p ≥ 32768 then (match sipMethodName[p % 32768]? with
    | some n => lit n
    | none => panic)
  else str p

/-- SipVersion.go:36-43 `Encode`. -/
def version (this : Nat) : E := u16 this fun p => if p ≥ 32768 then lit (Sip.str "SIP/2.0") else lit (Sip.str "SIP/") +++ str p

/-- SipHeaderVia.go:90-98. -/
def sentProtocol (this : Nat) : E := u16 this fun p =>
  if p ≥ 32768 then lit (Sip.str "SIP/2.0/")
  else (u16 p fun n => str n) +++ (lit [0x2f] +++ ((u16 (p + 2) fun v => str v) +++ lit [0x2f]))

/-- the address and the parameters (SipHeaderTo.go:65-68) -/
def addrParams (net : Net) (fl : Flags) (names : List Bytes) (af pf kf : Nat) : E := addr net fl af +++ headerParams names pf kf

/-- `EncodeValue` of the header types (lines at `HKind.encodeValue`); what Content-Length stores besides is modelled with the message. -/
def hdrValue (net : Net) (fl : Flags) (k : HKind) (this : Nat) : E :=
  match k with
  | .to => addrParams net fl k.paramNames this (this + 10) (this + 12)
  | .from => addrParams net fl k.paramNames this (this + 10) (this + 12)
  | .contact => u8 this fun s => if s ≠ 0 then lit [0x2a] else addrParams net fl k.paramNames (this + 2) (this + 12) (this + 14)
  | .route => addrParams net fl k.paramNames this (this + 10) (this + 12)
  | .recordRoute => addrParams net fl k.paramNames this (this + 10) (this + 12)
  | .path => addrParams net fl k.paramNames this (this + 10) (this + 12)
  | .serviceRoute => addrParams net fl k.paramNames this (this + 10) (this + 12)
  | .pAssertedIdentity => addr net fl this
  | .via => sentProtocol this +++ ((u16 (this + 2) fun t => str t) +++ (lit [0x20] +++ (hostPort net (this + 4) +++ headerParams k.paramNames (this + 10) (this + 12))))
  | .callId => (u16 this fun i => str i) +++ (u16 (this + 2) fun j => if j ≠ 0 then lit [0x40] +++ str j else lit [])
  | .cseq => (u32 this fun n => lit (encodeUInt n)) +++ (lit [0x20] +++ method (this + 4))
  | .rack => (u32 this fun r => lit (encodeUInt r)) +++ (lit [0x20] +++ ((u32 (this + 4) fun n => lit (encodeUInt n)) +++ (lit [0x20] +++ method (this + 8))))
  | .rseq => u32 this fun n => lit (encodeUInt n)
  | .expires => u32 this fun n => lit (encodeUInt n)
  | .maxForwards => u8 this fun n => lit (encodeUInt n.toNat)
  | .contentLength => u32 this fun n => lit (encodeUIntWithWidth n 10)
  | .contentType => (u16 this fun t => str t) +++ (lit [0x2f] +++ ((u16 (this + 2) fun s => str s) +++ headerParams k.paramNames (this + 4) (this + 6)))
  | .contentDisposition => (u16 this fun t => str t) +++ headerParams k.paramNames (this + 2) (this + 4)

/-- `Encode` (SipHeaderTo.go:60-63 and the same in the other headers) -/
def hdr (net : Net) (fl : Flags) (k : HKind) (this : Nat) : E := lit (k.title ++ Sip.str ": ") +++ hdrValue net fl k this

/-- SipStartLine.go:48-54 `EncodeRequestLine`. -/
def requestLine (net : Net) (fl : Flags) (this : Nat) : E :=
  method (this + 4) +++ (lit [0x20] +++ (addrSpec net fl (this + 8) +++ (lit [0x20] +++ version (this + 6))))

/-- SipStartLine.go:56-66 `EncodeStatusLine`. -/
def statusLine (fl : Flags) (this : Nat) : E :=
  version (this + 6) +++ (lit [0x20] +++ ((u16 (this + 2) fun n => lit (encodeUInt n)) +++ (lit [0x20] +++
    (u16 (this + 18) fun r => if fl.encodeReasonPhraseNoEscape then str r else strEsc csSipReasonPhrase r))))

/-- SipStartLine.go:37-46 `Encode`. -/
def startLine (net : Net) (fl : Flags) (this : Nat) : E :=
  (u8 this fun r => if r ≠ 0 then requestLine net fl this else statusLine fl this) +++ lit [0x0d, 0x0a]
end E
end Sip
