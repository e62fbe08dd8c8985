import Verif.Model.StartLine
/-! # Header lines, raw headers, message and bodies (src/sipparser/SipHeaders.go, SipHeadersInfo.go, SipMsg.go, SipMsgBody.go) -/
namespace Sip

/-! ## Header values as raw text -/

/-- SipHeaders.go:336-361, the loop of `FindCrlfByRFC3261` on the text behind the position: how many bytes up to and including the first LF that
is not followed by SP or HTAB (the search for each LF is `bytes.IndexByte`); `none` when there is no such LF. -/
def lfEnd : Bytes → Option Nat
  | [] => none
  | b :: y =>
    if b = 0x0a ∧ (y.head?.map isWspChar) ≠ some true then some 1
    else (lfEnd y).map (· + 1)

/-- SipHeaders.go:315-372 `FindCrlfByRFC3261`: the value is the position `begin`, the position is moved behind the LF (to the end of the input
when there is none). -/
def P.findCrlf : P Nat := fun c =>
  match lfEnd c.rest with
  | none => .ok (none, c.setPos c.src.length)
  | some k =>
    let e := c.pos + k
    .ok (some (if c.pos + 2 < e ∧ c.src[e - 2]? = some 0x0d then e - 2 else e - 1), c.setPos e)

/-- SipHeaders.go:300-313 `parseRawHeaderValue` (no error is recorded). -/
def parseRawHeaderValue : P Bytes := do
  let c ← P.get
  let b ← P.findCrlf
  P.allocStr ((c.src.drop c.pos).take (b - c.pos))

/-- SipHeaders.go:15-20 `SipHeader` (the field `next` is the list): `id` is the header index, 0 for an unknown header; `name` is nil for a known one. -/
structure RawHeader where
  id : Nat
  name : Option Bytes
  value : Bytes
  deriving DecidableEq, Repr

/-! ## Header names -/

/-- SipHeadersIndex.go:130-2857: the header index and the position behind the name (the position itself is not moved). -/
def P.headerIndex : P (Nat × Nat) := fun c =>
  match getSipHeaderIndex c.src c.pos with
  | .ok r => .ok (some r, c)
  | .panic => .panic
  | .hang => .hang

/-- SipHeaders.go:176-187: an unknown name is stored in the arena. -/
def storeName : Nat × Nat → P (Option Bytes × Nat)
  | (0, p) => do
    let n ← parseStrFromPos csSipToken p
    pure (some n, 0)
  | (i + 1, p) => do
    let c ← P.get
    P.set (c.setPos p)
    pure (none, i + 1)

/-- SipHeaders.go:173-196 `ParseHeaderName`. -/
def parseMsgHeaderName : P (Option Bytes × Nat) := do
  let r ← P.headerIndex
  let n ← storeName r
  P.orErr P.hcolon
  pure n

/-! ## The table of headers -/

/-- SipHeadersIndex.go:5-127: the constants of the parsed headers -/
def HKind.index : HKind → Nat
  | .callId => 8
  | .contact => 10
  | .contentDisposition => 11
  | .contentLength => 14
  | .contentType => 15
  | .cseq => 16
  | .expires => 19
  | .from => 20
  | .maxForwards => 22
  | .recordRoute => 30
  | .route => 34
  | .to => 39
  | .via => 42
  | .rseq => 45
  | .rack => 46
  | .pAssertedIdentity => 52
  | .path => 55
  | .serviceRoute => 71

/-- all header types, in the order in which a message writes them: SipMsg.go:13-34 -/
def msgOrder : List HKind :=
  [.via, .route, .contact, .from, .to, .callId, .contentLength, .cseq, .recordRoute, .contentType, .maxForwards, .contentDisposition, .expires,
   .path, .serviceRoute, .rseq, .rack, .pAssertedIdentity]

/-- SipMsgBody.go:7-13 and 100, the loop that starts at 1: the order in which a body part writes its parsed headers -/
def bodyOrder : List HKind := [.contentLength, .contentDisposition]

/-- the header type for a header index: the entries of SipHeadersInfo.go:47-84 with a parse function -/
def HKind.ofIndex (i : Nat) : Option HKind := msgOrder.find? (fun k => k.index = i)

/-- SipHeadersInfo.go:47-84: the parsed headers with `AllowMulti` -/
def HKind.multi : HKind → Bool
  | .via => true
  | .contact => true
  | .route => true
  | .recordRoute => true
  | .path => true
  | .serviceRoute => true
  | .pAssertedIdentity => true
  | _ => false

/-- SipHeadersInfo.go:47-84: the name of every header with an entry (index 0 is not used by the encoder) -/
def headerInfoName : Nat → Option Bytes
  | 20 => some (str "From")
  | 39 => some (str "To")
  | 42 => some (str "Via")
  | 8 => some (str "Call-ID")
  | 16 => some (str "CSeq")
  | 14 => some (str "Content-Length")
  | 15 => some (str "Content-Type")
  | 10 => some (str "Contact")
  | 22 => some (str "Max-Forwards")
  | 34 => some (str "Route")
  | 30 => some (str "Record-Route")
  | 11 => some (str "Content-Disposition")
  | 5 => some (str "Allow")
  | 12 => some (str "Content-Encoding")
  | 17 => some (str "Date")
  | 36 => some (str "Subject")
  | 37 => some (str "Supported")
  | 48 => some (str "Allow-Events")
  | 49 => some (str "Event")
  | 65 => some (str "Refer-To")
  | 72 => some (str "Accept-Contact")
  | 73 => some (str "Reject-Contact")
  | 74 => some (str "Request-Disposition")
  | 76 => some (str "Referred-By")
  | 83 => some (str "Session-Expires")
  | 24 => some (str "MIME-Version")
  | 19 => some (str "Expires")
  | 41 => some (str "User-Agent")
  | 55 => some (str "Path")
  | 71 => some (str "Service-Route")
  | 45 => some (str "RSeq")
  | 46 => some (str "RAck")
  | 52 => some (str "P-Asserted-Identity")
  | _ => none

/-! ## Header lines -/

/-- what `SetHeaders` is called with: a parsed value or a raw header -/
inductive HItem where
  | parsed (k : HKind) (v : HVal)
  | raw (h : RawHeader)
  deriving DecidableEq, Repr

/-- SipHeaders.go:228-238: look for a comma; without one the position is restored -/
def P.comma : P Bool := fun c =>
  match parseSWSMarkCanOmmit c 0x2c with
  | ((true, true), d) => .ok (some true, d)
  | (_, d) => .ok (some false, d.setPos c.pos)

/-- SipHeaders.go:216-244: one round of the loop over the values of one header line -/
def valuesBody (net : Net) (k : HKind) : List HVal × HVal → P ((List HVal × HVal) ⊕ List HVal) := fun (acc, v) => do
  let c ← P.get
  if c.pos ≥ c.src.length then pure (.inr (acc ++ [v])) else
  if isOnlyCRLF c.src c.pos then do
    P.skip 2
    pure (.inr (acc ++ [v]))
  else do
    let m ← P.comma
    if m then do
      let v' ← k.parseAlloc net
      pure (.inl (acc ++ [v], v'))
    else do
      P.crlf
      pure (.inr (acc ++ [v]))

/-- SipHeaders.go:204-245: the parsed values of a header line, with its end of line -/
def parseHeaderValues (net : Net) (k : HKind) : P (List HVal) := do
  let v ← k.parseAlloc net
  if k.multi then P.forLoop (valuesBody net k) ([], v)
  else do
    P.crlf
    pure [v]

/-- SipHeaders.go:245-256 and 261-275, 283-298: a header kept as text -/
def parseRawHeader (id : Nat) (name : Option Bytes) : P RawHeader := do
  P.alloc 8
  let v ← parseRawHeaderValue
  pure ⟨id, name, v⟩

/-- SipHeaders.go:198-259 `parseKnownHeader`, 261-281 `parseUnknownHeader`: the rest of a header line behind the colon.  `need` is `NeedParse` of the
message or body part, together with `NeedParse` of the table (see `msgNeed`).  `SetHeaders` never fails: the list it appends to is not empty. -/
def parseHeaderLine (net : Net) (need : HKind → Bool) : Option Bytes × Nat → P (List HItem) := fun (n, i) =>
  match HKind.ofIndex i with
  | some k =>
    if need k then do
      let vs ← parseHeaderValues net k
      pure (vs.map (.parsed k))
    else do
      let h ← parseRawHeader i n
      pure [.raw h]
  | none => do
    let h ← parseRawHeader i n
    pure [.raw h]

/-- SipHeaders.go:54-79: one round of the loop of `ParseHeaders` -/
def headersBody (net : Net) (need : HKind → Bool) : List HItem → P (List HItem ⊕ List HItem) := fun acc => do
  let c ← P.get
  if c.pos ≥ c.src.length then pure (.inr acc) else
  if isCRLF c.src c.pos then do
    P.skip 2
    pure (.inr acc)
  else do
    let n ← P.orErr parseMsgHeaderName
    let hs ← parseHeaderLine net need n
    pure (.inl (acc ++ hs))

/-- SipHeaders.go:51-82 `ParseHeaders`: the values in the order in which they are handed to `SetHeaders`. -/
def parseHeaders (net : Net) (need : HKind → Bool) : P (List HItem) := P.forLoop (headersBody net need) []

/-- SipHeaders.go:90-115: one round of the loop of `ParseRawHeaders` -/
def rawHeadersBody : List RawHeader → P (List RawHeader ⊕ List RawHeader) := fun acc => do
  let c ← P.get
  if c.pos ≥ c.src.length then pure (.inr acc) else
  if isCRLF c.src c.pos then do
    P.skip 2
    pure (.inr acc)
  else do
    let (n, i) ← parseMsgHeaderName
    let h ← parseRawHeader i n
    pure (.inl (acc ++ [h]))

/-- SipHeaders.go:84-118 `ParseRawHeaders`. -/
def parseRawHeaders : P (List RawHeader) := P.forLoop rawHeadersBody []

/-- SipHeaders.go:127-139: the line written for a raw header -/
def RawHeader.encode (h : RawHeader) : Bytes :=
  (match (if h.id = 0 then none else headerInfoName h.id) with
    | some n => n
    | none => writeStr h.name) ++ str ": " ++ h.value ++ [0x0d, 0x0a]

/-- SipHeaders.go:120-141 `EncodeRawHeaders`. -/
def encodeRawHeaders (hs : List RawHeader) : Bytes := hs.flatMap RawHeader.encode

/-- SipHeaders.go:143-156 `FindKnownRawHeaderByIndex`. -/
def findKnownRawHeader (hs : List RawHeader) (i : Nat) : Option RawHeader := hs.find? (fun h => h.id = i)

/-- SipHeaders.go:158-171 `FindUnknownRawHeaderByName`. -/
def findUnknownRawHeader (hs : List RawHeader) (n : Bytes) : Option RawHeader := hs.find? (fun h => strEqNoCase h.name n)

/-! ## Message -/

/-- SipMsg.go:97-103, SipMsgBody.go:29-35: the fields `commonHeaders` and `headers`.  A header type that does not allow several values has at most
one. -/
structure Hdrs where
  common : HKind → List HVal := fun _ => []
  raw : List RawHeader := []

/-- SipMsg.go:133-159, SipMsgBody.go:61-85 `SetHeaders`. -/
def Hdrs.set (h : Hdrs) : HItem → Hdrs
  | .parsed k v => { h with common := fun j => if j = k then (if k.multi then h.common k ++ [v] else [v]) else h.common j }
  | .raw r => { h with raw := h.raw ++ [r] }

/-- all calls of `SetHeaders` for a message or body part -/
def Hdrs.ofItems (l : List HItem) : Hdrs := l.foldl Hdrs.set {}

/-- SipMsg.go:121-131 `NeedParse` of a message, and the test of the table in SipHeaders.go:203: every header type is a common header of the message.
Simplification: with `ParseSipHeaderAsRaw` the settings that switch `NeedParse` of the table off for Content-Type, Content-Length or Content-Disposition are left
out (here they are parsed).  With those settings the library keeps the header as text but stores it in the place of a parsed one, and reads the text as a struct
later (SipHeaders.go:203 and SipMsg.go:133-143). -/
def msgNeed (fl : Flags) (k : HKind) : Bool :=
  if fl.parseSipHeaderAsRaw then k = .contentType || k = .contentLength || k = .contentDisposition else !fl.noParse.contains k.index

/-- SipMsgBody.go:53-59 `NeedParse` of a body part: the index of Content-Type is 0, which counts as absent.
Simplification: the settings that switch `NeedParse` of the table off for these headers are left out for body parts (here they are parsed; the library stores the
text in the place of a parsed header, as in `msgNeed`). -/
def bodyNeed (fl : Flags) (k : HKind) : Bool :=
  if fl.parseSipHeaderAsRaw then k = .contentType || k = .contentLength || k = .contentDisposition
  else k = .contentLength || k = .contentDisposition

/-- SipMsgBody.go:29-35 `SipMsgBody` (the fields `id` and `next` are not modelled: `id` is never used, `next` is the list). -/
structure Body where
  hdrs : Hdrs := {}
  body : Option Bytes := none

/-- SipMsg.go:97-103 `SipMsg`; `commonBodies` is never set by the library and not modelled. -/
structure Msg where
  start : StartLine
  hdrs : Hdrs := {}
  bodies : List Body := []

/-- SipMsg.go:465-499 `ParseSingleBody`; the position is not moved. -/
def parseSingleBody (hs : Hdrs) : P (List Body) := do
  let c ← P.get
  let left := c.src.length - c.pos
  let size := match hs.common .contentLength with
    | .num n :: _ => if n > left then left else n
    | _ => 0
  if size = 0 then pure [] else do
  P.orErr (P.alloc 16)
  let b ← P.orErr (P.allocStr (c.rest.take size))
  pure [{ body := some b }]

/-- `bytes.Index` -/
def indexOf (d : Bytes) : Bytes → Option Nat
  | [] => if d = [] then some 0 else none
  | b :: y => if d.isPrefixOf (b :: y) then some 0 else (indexOf d y).map (· + 1)

/-- SipMsg.go:708: `AllocCString` whose result is not tested -/
def P.allocStrAny (b : Bytes) : P (Option Bytes) := fun c =>
  match Sip.allocStr b c with
  | (r, c) => .ok (some r, c)

/-- SipMsg.go:687-719: the rest of a round, behind the tests for the close delimiter -/
def parseBodyPart (net : Net) (delimiter : Bytes) : P Body := do
  let _ ← P.orErr P.findCrlf
  P.orErr (P.alloc 16)
  let c ← P.get
  let hs ← P.orErr (parseHeaders net (bodyNeed c.flags))
  let c ← P.get
  match indexOf delimiter c.rest with
  | none => P.err
  | some e => do
    let b ← P.allocStrAny (c.rest.take e)
    P.skip (e + delimiter.length)
    pure ⟨Hdrs.ofItems hs, b⟩

/-- SipMsg.go:672-721: one round of the loop of `ParseMultiBody` -/
def multiBody (net : Net) (delimiter : Bytes) : List Body → P (List Body ⊕ List Body) := fun acc => do
  let c ← P.get
  if c.pos ≥ c.src.length then P.fail else
  if c.pos + 1 ≥ c.src.length then P.err else
  if c.src[c.pos]? = some 0x2d ∨ c.src[c.pos + 1]? = some 0x2d then do
    P.skip 2
    pure (.inr acc)
  else do
    let b ← parseBodyPart net delimiter
    pure (.inl (acc ++ [b]))

/-- SipMsg.go:652-724 `ParseMultiBody`. -/
def parseMultiBody (net : Net) (boundary : Bytes) : P (List Body) := do
  let dash := 0x2d :: 0x2d :: boundary
  let c ← P.get
  if !dash.isPrefixOf c.rest then P.err else do
  P.skip dash.length
  P.forLoop (multiBody net (0x0d :: 0x0a :: dash)) []

/-- SipHeaderContentType.go:187-196 `GetKnownParam` for `boundary`: the value of the parameter, if there is a parameter -/
def HVal.boundary? : HVal → Option (Option GenValue)
  | .contentType _ _ ps => match ps.known with
    | some p :: _ => some p.value
    | _ => none
  | _ => none

/-- the bytes of a parameter value (AbnfPtr.go:212-219) -/
def GenValue.bytes : GenValue → Bytes
  | .token v => v
  | .quoted v => v
  | .ipv6 v => v

/-- SipMsg.go:448: the test for a multipart type -/
def HVal.isMultipart : HVal → Bool
  | .contentType t _ _ => strEqNoCase (some t) (str "multipart")
  | _ => false

/-- SipMsg.go:441-463 `ParseMsgBody`. -/
def parseMsgBody (net : Net) (hs : Hdrs) : P (List Body) :=
  match hs.common .contentType with
  | [] => pure []
  | ct :: _ =>
    if ct.isMultipart then
      match ct.boundary? with
      | none => P.err
      | some v => parseMultiBody net (match v with
        | some v => v.bytes
        | none => [])
    else parseSingleBody hs

/-- SipMsg.go:411-439 `Parse`. -/
def Msg.parse (net : Net) : P Msg := do
  let s ← P.orErr (StartLine.parse net)
  let c ← P.get
  if c.pos ≥ c.src.length then P.err else do
  let items ← P.orErr (parseHeaders net (msgNeed c.flags))
  let hs := Hdrs.ofItems items
  let bs ← P.orErr (parseMsgBody net hs)
  pure ⟨s, hs, bs⟩

/-! ## Encoding -/

/-- SipMsg.go:171-180: the values of one header, with commas in between -/
def encodeValues (net : Net) (fl : Flags) (k : HKind) : HVal → List HVal → Out Bytes
  | v, [] => k.encodeValue net fl v
  | v, w :: ws => do
    let t ← k.encodeValue net fl v
    let r ← encodeValues net fl k w ws
    .ok (t ++ str ", " ++ r)

/-- SipMsg.go:163-182, SipMsgBody.go:100-118: one header; the number is the field `encodeEnd` of Content-Length (SipHeaderContentLength.go:38-42; a
buffer of 2^32 bytes or more is not modelled) -/
def encodeCommon (net : Net) (fl : Flags) (hs : Hdrs) (k : HKind) (st : Bytes × Nat) : Out (Bytes × Nat) :=
  match hs.common k with
  | [] => .ok st
  | v :: vs => do
    let t ← encodeValues net fl k v (if k.multi then vs else [])
    let buf := st.1 ++ k.title ++ str ": " ++ t
    .ok (buf ++ [0x0d, 0x0a], if k = .contentLength then buf.length else st.2)

/-- the loop over the parsed headers -/
def encodeCommons (net : Net) (fl : Flags) (hs : Hdrs) : List HKind → Bytes × Nat → Out (Bytes × Nat)
  | [], st => .ok st
  | k :: ks, st => do
    let st ← encodeCommon net fl hs k st
    encodeCommons net fl hs ks st

/-- SipMsg.go:161-186 `EncodeHeaders`, SipMsgBody.go:98-123 `EncodeHeaders`. -/
def Hdrs.encode (net : Net) (fl : Flags) (order : List HKind) (hs : Hdrs) (buf : Bytes) : Out (Bytes × Nat) := do
  let (b, e) ← encodeCommons net fl hs order (buf, 0)
  .ok (b ++ encodeRawHeaders hs.raw, e)

/-- SipMsgBody.go:88-91: the Content-Length of a part is set to the length of the body -/
def Body.fixLength (b : Body) : Body :=
  match b.hdrs.common .contentLength with
  | [] => b
  | _ :: _ => { b with hdrs := { b.hdrs with common := fun j => if j = .contentLength then [.num (writeStr b.body).length] else b.hdrs.common j } }

/-- SipMsgBody.go:87-96 `Encode` -/
def Body.encode (net : Net) (fl : Flags) (b : Body) (buf : Bytes) : Out Bytes := do
  let (t, _) ← b.fixLength.hdrs.encode net fl bodyOrder buf
  .ok (t ++ [0x0d, 0x0a] ++ writeStr b.body)

/-- SipMsg.go:371-386: the parts of a multipart body and the close delimiter -/
def encodeParts (net : Net) (fl : Flags) (boundary : Bytes) : List Body → Bytes → Out Bytes
  | [], buf => .ok (buf ++ str "--" ++ boundary ++ str "--")
  | b :: bs, buf => do
    let t ← b.encode net fl (buf ++ str "--" ++ boundary ++ [0x0d, 0x0a])
    encodeParts net fl boundary bs (t ++ [0x0d, 0x0a])

/-- SipMsg.go:198-207: a Content-Length header is created when there is none -/
def Msg.addLength (m : Msg) : P Msg :=
  match m.hdrs.common .contentLength with
  | _ :: _ => pure m
  | [] => do
    P.orErr (P.alloc 8)
    pure { m with hdrs := m.hdrs.set (.parsed .contentLength (.num 0)) }

/-- SipMsg.go:259-279: a Content-Type header is created when there is none -/
def Msg.addType (m : Msg) : P (HVal × Msg) :=
  match m.hdrs.common .contentType with
  | v :: _ => pure (v, m)
  | [] => do
    P.orErr (P.alloc 8)
    let _ ← P.orErr (P.allocStr (str "multipart"))
    let _ ← P.orErr (P.allocStr (str "mixed"))
    let v := HVal.contentType (str "multipart") (str "mixed") {}
    pure (v, { m with hdrs := m.hdrs.set (.parsed .contentType v) })

/-- AbnfSip.go:10 -/
def defaultBoundary : Bytes := str "sip-unique-boundary-aasdasdewfd"

/-- SipHeaderContentType.go:198-231: the memory used by `SetBoundary` (a string that does not fit is an error of `SetNameAsString` or
`SetValueQuotedString`, SipGenericParam.go:143-162, and again of `SetBoundary`) -/
def allocBoundary (v : HVal) : P Unit := do
  (match v with
    | .contentType _ _ ps => if ps.known = [] then P.orErr (P.alloc 2) else pure ()
    | _ => pure ())
  P.orErr (P.alloc 8)
  let _ ← P.orErr (P.orErr (P.allocStr (str "boundary")))
  let _ ← P.orErr (P.orErr (P.allocStr defaultBoundary))
  pure ()

/-- SipMsg.go:256-291 `FindOrCreateBoundary`. -/
def Msg.boundary (m : Msg) : P (Bytes × Msg) := do
  let (v, m) ← m.addType
  match v.boundary? with
  | some (some b) => pure (b.bytes, m)
  | some none => P.fail
  | none => do
    P.orErr (allocBoundary v)
    pure (defaultBoundary, { m with hdrs := m.hdrs.set (.parsed .contentType (v.setBoundary defaultBoundary)) })

/-- an encoder as a step of a method that also uses the arena -/
def P.ofOut {α} (o : Out α) : P α := fun c =>
  match o with
  | .ok a => .ok (some a, c)
  | .panic => .panic
  | .hang => .hang

/-- SipMsg.go:249-251: the digits of the size are copied in front of `encodeEnd`, over what is there -/
def patch (buf : Bytes) (encodeEnd : Nat) (digits : Bytes) : Out Bytes :=
  if encodeEnd < digits.length ∨ buf.length < encodeEnd then .panic
  else .ok (buf.take (encodeEnd - digits.length) ++ digits ++ buf.drop encodeEnd)

/-- SipMsg.go:224-229: the line written for a multipart body when the message has no MIME-Version header (24) -/
def Msg.mimeLine (m : Msg) : Bytes := if m.hdrs.raw.any (fun h => h.id = 24) then [] else str "MIME-Version: 1.0\r\n"

/-- SipMsg.go:389-409 `HasMultiBody`. -/
def Msg.multi (m : Msg) : Bool := 1 < m.bodies.length

/-- SipMsg.go:213-222 -/
def Msg.findBoundary (m : Msg) : P (Bytes × Msg) := if m.multi then P.orErr m.boundary else pure ([], m)

/-- SipMsg.go:223-252: headers, bodies and the correction of Content-Length, behind `buf` -/
def Msg.encodeTail (net : Net) (fl : Flags) (m : Msg) (boundary : Bytes) (buf : Bytes) : Out Bytes := do
  let (b, e) ← m.hdrs.encode net fl msgOrder buf
  let b := b ++ (if m.multi then m.mimeLine else []) ++ [0x0d, 0x0a]
  match m.bodies with
  | [] => .ok b
  | body :: _ => do
    let t ← (if m.multi then encodeParts net fl boundary m.bodies b else .ok (b ++ writeStr body.body))
    patch t e (encodeUInt (t.length - b.length))

/-- SipMsg.go:194-254 `Encode` into the buffer `buf`: the new buffer and the message afterwards (headers may have been added and the lengths of the
parts set; `strconv.FormatUint` is the shortest decimal text). -/
def Msg.encode (net : Net) (m : Msg) (buf : Bytes) : P (Bytes × Msg) := do
  let c ← P.get
  let m ← m.addLength
  let s ← P.ofOut (m.start.encode net c.flags)
  let (boundary, m) ← m.findBoundary
  let t ← P.ofOut (m.encodeTail net c.flags boundary (buf ++ s))
  pure (t, { m with bodies := if m.multi then m.bodies.map Body.fixLength else m.bodies })

/-! ## Other operations -/

/-- SipMsg.go:293-309 `GetHeaderByIndex`: parsed headers first. -/
def Msg.headerByIndex (m : Msg) (i : Nat) : Option (HVal ⊕ RawHeader) :=
  match (msgOrder.find? (fun k => k.index = i ∧ m.hdrs.common k ≠ [])).bind (fun k => (m.hdrs.common k).head?) with
  | some v => some (.inl v)
  | none => (m.hdrs.raw.find? (fun h => h.id = i)).map .inr

/-- SipMsg.go:325-330: the headers `RemoveContentHeaders` takes out -/
def RawHeader.isContent (h : RawHeader) : Bool :=
  h.id = 12 || h.id = 80 || h.id = 81 || h.id = 82 || h.id = 13 || (h.id = 0 && strHasPrefixNoCase (writeStr h.name) (str "Content-"))

/-- SipMsg.go:321-341: the loop over the list.  `prev` is the variable `prevHeader` (the first header that is kept), `link` what `this.headers`, or
the link of `prev` once there is one, points to; the last argument is the rest of the list from `addr` on. -/
def removeLoop : Option RawHeader → List RawHeader → List RawHeader → List RawHeader
  | none, link, [] => link
  | some p, link, [] => p :: link
  | none, _, h :: t => if h.isContent then removeLoop none t t else removeLoop (some h) t t
  | some p, link, h :: t => if h.isContent then removeLoop (some p) t t else removeLoop (some p) link t

/-- SipMsg.go:312-343 `RemoveContentHeaders`. -/
def Msg.removeContentHeaders (m : Msg) : Msg :=
  { m with hdrs := { common := fun k => if k = .contentDisposition then [] else m.hdrs.common k, raw := removeLoop none m.hdrs.raw m.hdrs.raw } }

/-- SipMsg.go:726-745 `SipMsgRawScan`: one round of the loop -/
def rawScanBody : Unit → P (Unit ⊕ Unit) := fun _ => do
  let c ← P.get
  if c.pos ≥ c.src.length then pure (.inr ()) else
  if isCRLF c.src c.pos then do
    P.skip 2
    pure (.inr ())
  else do
    let _ ← P.findCrlf
    pure (.inl ())

/-- SipMsg.go:726-745 `SipMsgRawScan`. -/
def rawScan : P Unit := P.forLoop rawScanBody ()

end Sip
