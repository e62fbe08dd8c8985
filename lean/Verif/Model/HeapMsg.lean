import Verif.Model.HeapHeaders
import Verif.Model.Message
/-!
# Header lines, messages and bodies on the bytes of the arena (src/sipparser/SipHeaders.go, SipMsg.go, SipMsgBody.go)

Structs: `SipHeader` (SipHeaders.go:15-20): id@0, hname@2, hvalue@4, next@6; 8 bytes.  `SipMsg` (SipMsg.go:97-103): startLine@0, commonHeaders@20 (19 pointers; the
first, at 20, is not used), commonBodies@58 (3 pointers, never set), headers@64, bodies@66; 68 bytes.  `SipMsgBody` (SipMsgBody.go:29-35): id@0, body@4, headers@6,
next@8, commonHeaders@10 (3 pointers); 16 bytes.
-/
namespace Sip

/-- the bytes of the struct in front of the field `next`, or the whole struct (the lines of the structs are at the `…Value` functions of Verif/Model/HeapHeaders.lean;
`next` is the last field of the structs that have one) -/
def HKind.bodySize (k : HKind) : Nat := if k.multi then k.structSize - 2 else k.structSize

/-- the array `commonHeaders` (the header types in order, the address of the first pointer) and the address of the field `headers` of a message or body part -/
structure Place where
  order : List HKind
  base : Nat
  raw : Nat

/-- the address of the pointer for a header type -/
def Place.field (pl : Place) (k : HKind) : Nat := pl.base + 2 * pl.order.idxOf k

/-- SipMsg.go:12-41, 97-103: the message at address `a` -/
def msgPlace (a : Nat) : Place := ⟨msgOrder, a + 22, a + 64⟩

/-- SipMsgBody.go:7-13, 29-35: the body part at address `a` -/
def bodyPlace (a : Nat) : Place := ⟨.contentType :: bodyOrder, a + 10, a + 6⟩

/-! ## reading -/
namespace Rd
/-- a function that reads the memory -/
abbrev _root_.Sip.Rd (γ : Type) : Type := Mem → Out γ
/-- the end -/
def ret {γ : Type} (x : γ) : Rd γ := fun _ => .ok x
/-- read a field of type AbnfPtr or uint16 -/
def u16 {γ : Type} (a : Nat) (k : Nat → Rd γ) : Rd γ := fun m => k ((m a).toNat + 256 * (m (a + 1)).toNat) m
/-- read a field of type uint32 -/
def u32 {γ : Type} (a : Nat) (k : Nat → Rd γ) : Rd γ := u16 a fun l => u16 (a + 2) fun h => k (l + 65536 * h)
/-- AbnfPtr.go:212-219 `GetCStringAsByteSlice` -/
def cstr {γ : Type} (p : Nat) (k : Bytes → Rd γ) : Rd γ := fun m => k (readStr m p) m

/-- SipMsg.go:448: the test of the main type of the Content-Type header at `p` -/
def isMultipart (p : Nat) : Rd Bool := u16 p fun t => if t = 0 then ret false else cstr t fun s => ret (strEqNoCase (some s) (Sip.str "multipart"))

/-- SipHeaderContentType.go:187-196 `GetKnownParam` for `boundary` (the only known parameter): the address of the parameter or nil -/
def boundaryParam {γ : Type} (p : Nat) (k : Nat → Rd γ) : Rd γ := u16 (p + 6) fun q => if q = 0 then k 0 else u16 q k

/-- SipMsg.go:449-457: `none` without the parameter, else the value of the parameter (nil or a string) -/
def boundary (p : Nat) : Rd (Option (Option Bytes)) := boundaryParam p fun b =>
  if b = 0 then ret none else u16 (b + 2) fun v => if v = 0 then ret (some none) else cstr v fun s => ret (some (some s))

/-- SipMsg.go:389-409 `HasMultiBody`: the loop ends at the second body. -/
def hasMulti (this : Nat) : Rd Bool := u16 (this + 66) fun b => if b = 0 then ret false else u16 (b + 8) fun n => ret (n ≠ 0)

/-- SipHeaders.go:143-156 `FindKnownRawHeaderByIndex` (SipMsg.go:300-307 is the same loop): the address of the header or nil.  A list with more elements than there
are addresses is cyclic: the loop does not end. -/
def findRaw (i : Nat) : Nat → Nat → Rd Nat
  | 0, _ => fun _ => .hang
  | n + 1, p => if p = 0 then ret 0 else u16 p fun id => if id = i then ret p else u16 (p + 6) fun q => findRaw i n q

/-- SipMsg.go:225-226: is there a MIME-Version header (24)?  `GetHeaderByIndex` looks at the parsed headers first; none has this index. -/
def hasMime (this : Nat) : Rd Bool := u16 (this + 64) fun h => fun m =>
  match findRaw 24 32769 h m with
  | .ok x => .ok (x ≠ 0)
  | .panic => .panic
  | .hang => .hang

/-- AbnfPtr.go:262-270 `Strlen` -/
def strlen (p : Nat) : Rd Nat := fun m => .ok (Sip.strlen m p)

/-- SipMsg.go:469-475: the field `size` of the Content-Length header, 0 when there is none -/
def length (this : Nat) : Rd Nat := u16 ((msgPlace this).field .contentLength) fun p => if p = 0 then ret 0 else u32 p fun n => ret n
end Rd

namespace B
/-- read the memory -/
def look {γ : Type} (f : Rd γ) : B γ := fun c =>
  match f c.a.mem with
  | .ok x => .ok (some x, c)
  | .panic => .panic
  | .hang => .hang

/-! ## header lines -/

/-- SipHeaders.go:300-313 `parseRawHeaderValue`. -/
def rawValue : B Nat := do
  let c ← ctx
  let e ← lift P.findCrlf
  allocStr ((c.src.drop c.pos).take (e - c.pos))

/-- SipHeaders.go:246-256, 262-273, 283-298: a header kept as text (`name` is nil for a known header). -/
def rawHeader (id name : Nat) : B Nat := do
  let h ← alloc 8
  put16 h id
  put16 (h + 2) name
  let v ← rawValue
  put16 (h + 4) v
  pure h

/-- SipHeaders.go:176-187: the address of the name, or nil and the index. -/
def storeName : Nat × Nat → B (Nat × Nat)
  | (0, p) => do
    let n ← strFromPos csSipToken p
    pure (n, 0)
  | (i + 1, p) => do
    setPos p
    pure (0, i + 1)

/-- SipHeaders.go:173-196 `ParseHeaderName`. -/
def msgHeaderName : B (Nat × Nat) := do
  let r ← lift P.headerIndex
  let n ← storeName r
  orErr (lift P.hcolon)
  pure n

/-- SipHeaders.go:39-49 `appendUnknownSipHeader`, SipHeaderRoute.go:145-154 `AppendSipRouteValue` and the same for the other header types
(SipHeaderRecordRoute.go:153-162, SipHeaderPath.go:144-153, SipHeaderServiceRoute.go:157-166, SipHeaderPAssertedIdentity.go:138-147, SipHeaderContact.go:304-313,
SipHeaderVia.go:347-356), for a list that is not nil: the loop to the last element (see `E.walk` for the budget). -/
def append (off new : Nat) : Nat → Nat → B Unit
  | 0, _ => fun _ => .hang
  | n + 1, p => do
    let q ← get16 (p + off)
    if q = 0 then do
      put16 (p + off) new
      pure ()
    else append off new n q

/-- SipMsg.go:136-144, SipMsgBody.go:64-72: `SetHeaders` with a parsed value. -/
def setParsed (field : Nat) (k : HKind) (x : Nat) : B Unit :=
  if k.multi then do
    let q ← get16 field
    if q = 0 then do
      put16 field x
      pure ()
    else append k.bodySize x 32768 q
  else do
    put16 field x
    pure ()

/-- SipMsg.go:146-155, SipMsgBody.go:74-81: `SetHeaders` with a raw header. -/
def setRaw (field x : Nat) : B Unit := do
  let q ← get16 field
  if q = 0 then do
    put16 field x
    pure ()
  else append 6 x 32768 q

/-- SipHeaders.go:216-244: one round of the loop over the values of one header line, with the call of `SetHeaders` behind it (258) for the last value. -/
def valuesBody (net : Net) (field : Nat) (k : HKind) : Nat → B (Nat ⊕ Unit) := fun x => do
  let c ← ctx
  if c.pos ≥ c.src.length then do
    setParsed field k x
    pure (.inr ())
  else do
  setParsed field k x
  if isOnlyCRLF c.src c.pos then do
    skip 2
    pure (.inr ())
  else do
    let m ← lift P.comma
    if m then do
      let y ← hdrAlloc net k
      pure (.inl y)
    else do
      lift P.crlf
      pure (.inr ())

/-- SipHeaders.go:204-245, 258. -/
def headerValues (net : Net) (field : Nat) (k : HKind) : B Unit := do
  let x ← hdrAlloc net k
  if k.multi then forLoop (valuesBody net field k) x
  else do
    lift P.crlf
    setParsed field k x

/-- SipHeaders.go:198-259 `parseKnownHeader`, 261-281 `parseUnknownHeader`. -/
def headerLine (net : Net) (need : HKind → Bool) (pl : Place) : Nat × Nat → B Unit := fun (n, i) =>
  match HKind.ofIndex i with
  | some k =>
    if need k then headerValues net (pl.field k) k
    else do
      let h ← rawHeader i n
      setRaw pl.raw h
  | none => do
    let h ← rawHeader i n
    setRaw pl.raw h

/-- SipHeaders.go:54-79: one round of the loop of `ParseHeaders`. -/
def headersBody (net : Net) (need : HKind → Bool) (pl : Place) : Unit → B (Unit ⊕ Unit) := fun _ => do
  let c ← ctx
  if c.pos ≥ c.src.length then pure (.inr ()) else
  if isCRLF c.src c.pos then do
    skip 2
    pure (.inr ())
  else do
    let n ← orErr msgHeaderName
    headerLine net need pl n
    pure (.inl ())

/-- SipHeaders.go:51-82 `ParseHeaders`. -/
def headers (net : Net) (need : HKind → Bool) (pl : Place) : B Unit := forLoop (headersBody net need pl) ()

/-- SipHeaders.go:90-115: one round of the loop of `ParseRawHeaders`. -/
def rawHeadersBody : Nat × Nat → B ((Nat × Nat) ⊕ Nat) := fun (first, prev) => do
  let c ← ctx
  if c.pos ≥ c.src.length then pure (.inr first) else
  if isCRLF c.src c.pos then do
    skip 2
    pure (.inr first)
  else do
    let (n, i) ← msgHeaderName
    let h ← rawHeader i n
    let r ← link 6 first prev h
    pure (.inl r)

/-- SipHeaders.go:84-118 `ParseRawHeaders`. -/
def rawHeaders : B Nat := forLoop rawHeadersBody (0, 0)

/-! ## bodies -/

/-- SipMsg.go:465-499 `ParseSingleBody`. -/
def singleBody (this : Nat) : B Unit := do
  let c ← ctx
  let left := c.src.length - c.pos
  let n ← look (Rd.length this)
  let size := if n > left then left else n
  if size = 0 then pure () else do
  let p ← orErr (alloc 16)
  let b ← orErr (allocStr (c.rest.take size))
  put16 (p + 4) b
  put16 (this + 66) p
  pure ()

/-- AbnfBasic.go:72-93 `AllocCString` whose result is not tested: the address may be nil. -/
def allocStrAny (b : Bytes) : B Nat := fun c =>
  match bAllocStr b c with
  | .ok (p, c) => .ok (some p, c)
  | .panic => .panic
  | .hang => .hang

/-- SipMsg.go:687-708, 715: the rest of a round, behind the tests for the close delimiter. -/
def bodyPart (net : Net) (delimiter : Bytes) : B Nat := do
  let _ ← orErr (lift P.findCrlf)
  let p ← orErr (alloc 16)
  let c ← ctx
  orErr (headers net (bodyNeed c.flags) (bodyPlace p))
  let c ← ctx
  match indexOf delimiter c.rest with
  | none => err
  | some e => do
    let b ← allocStrAny (c.rest.take e)
    put16 (p + 4) b
    skip (e + delimiter.length)
    pure p

/-- SipMsg.go:672-721: one round of the loop of `ParseMultiBody`; the state is the variable `prevBody`. -/
def multiBody (net : Net) (this : Nat) (delimiter : Bytes) : Nat → B (Nat ⊕ Unit) := fun prev => do
  let c ← ctx
  if c.pos ≥ c.src.length then fail else
  if c.pos + 1 ≥ c.src.length then err else
  if c.src[c.pos]? = some 0x2d ∨ c.src[c.pos + 1]? = some 0x2d then do
    skip 2
    pure (.inr ())
  else do
    let p ← bodyPart net delimiter
    if prev = 0 then do
      put16 (this + 66) p
      pure (.inl p)
    else do
      put16 (prev + 8) p
      pure (.inl p)

/-- SipMsg.go:652-724 `ParseMultiBody`. -/
def multiBodies (net : Net) (this : Nat) (boundary : Bytes) : B Unit := do
  let dash := 0x2d :: 0x2d :: boundary
  let c ← ctx
  if !dash.isPrefixOf c.rest then err else do
  skip dash.length
  forLoop (multiBody net this (0x0d :: 0x0a :: dash)) 0

/-- SipMsg.go:441-463 `ParseMsgBody`. -/
def msgBody (net : Net) (this : Nat) : B Unit := do
  let p ← get16 ((msgPlace this).field .contentType)
  if p = 0 then pure () else do
  let t ← look (Rd.isMultipart p)
  if t then do
    let b ← look (Rd.boundary p)
    match b with
    | none => err
    | some v => multiBodies net this (v.getD [])
  else singleBody this

/-- SipMsg.go:411-439 `Parse`. -/
def msg (net : Net) (this : Nat) : B Unit := do
  zero this 68
  orErr (startLineParse net this)
  let c ← ctx
  if c.pos ≥ c.src.length then err else do
  orErr (headers net (msgNeed c.flags) (msgPlace this))
  orErr (msgBody net this)
end B

/-! ## encoding -/
namespace E
/-- SipHeaders.go:128-138: one line of `EncodeRawHeaders`. -/
def rawHeader (this : Nat) : E :=
  (u16 this fun id => match (if id = 0 then none else headerInfoName id) with
    | some n => lit n
    | none => u16 (this + 2) fun n => str n) +++ (lit (Sip.str ": ") +++ ((u16 (this + 4) fun v => if v ≠ 0 then str v else lit []) +++ lit [0x0d, 0x0a]))

/-- SipHeaders.go:120-141 `EncodeRawHeaders`. -/
def rawHeaders (p : Nat) : E := if p = 0 then lit [] else walk 6 rawHeader [] 32768 p
end E

namespace B
/-- SipMsg.go:163-182, SipMsgBody.go:100-118: one header; SipHeaderContentLength.go:38-42: `EncodeValue` of Content-Length stores the length of the buffer in its
field `encodeEnd` (a uint32).  `buf` is the contents of the buffer. -/
def encodeCommon (net : Net) (fl : Flags) (k : HKind) (field : Nat) (buf : Bytes) : B Bytes := do
  let p ← get16 field
  if p = 0 then pure buf else
  if k.multi then do
    let t ← look (E.walk k.bodySize (E.hdrValue net fl k) (Sip.str ", ") 32768 p)
    pure (buf ++ k.title ++ Sip.str ": " ++ t ++ [0x0d, 0x0a])
  else do
    let t ← look (E.hdrValue net fl k p)
    let b := buf ++ k.title ++ Sip.str ": " ++ t
    if k = .contentLength then do
      put32 (p + 4) (b.length % 4294967296)
      pure (b ++ [0x0d, 0x0a])
    else pure (b ++ [0x0d, 0x0a])

/-- the loop over the parsed headers; `field` is the address of the first pointer -/
def encodeCommons (net : Net) (fl : Flags) : List HKind → Nat → Bytes → B Bytes
  | [], _, buf => pure buf
  | k :: ks, field, buf => do
    let buf ← encodeCommon net fl k field buf
    encodeCommons net fl ks (field + 2) buf

/-- SipMsg.go:161-186 `EncodeHeaders`, SipMsgBody.go:98-123 `EncodeHeaders`: the pointers of `order` are at `field`, the raw headers at `raw`. -/
def encodeHeaders (net : Net) (fl : Flags) (order : List HKind) (field raw : Nat) (buf : Bytes) : B Bytes := do
  let b ← encodeCommons net fl order field buf
  let p ← get16 raw
  let t ← look (E.rawHeaders p)
  pure (b ++ t)

/-- SipMsgBody.go:88-91 -/
def fixLength (this : Nat) : B Unit := do
  let l ← get16 (this + 12)
  if l = 0 then pure () else do
  let s ← get16 (this + 4)
  let n ← look (Rd.strlen s)
  put32 l n
  pure ()

/-- SipMsgBody.go:87-96 `Encode`. -/
def bodyEncode (net : Net) (fl : Flags) (this : Nat) (buf : Bytes) : B Bytes := do
  fixLength this
  let b ← encodeHeaders net fl bodyOrder (this + 12) (this + 6) buf
  let s ← get16 (this + 4)
  let t ← look (E.str s)
  pure (b ++ [0x0d, 0x0a] ++ t)

/-- SipMsg.go:371-386: the loop over the parts (see `E.walk` for the budget) and the close delimiter. -/
def encodeParts (net : Net) (fl : Flags) (boundary : Bytes) : Nat → Nat → Bytes → B Bytes
  | 0, _, _ => fun _ => .hang
  | n + 1, p, buf =>
    if p = 0 then pure (buf ++ Sip.str "--" ++ boundary ++ Sip.str "--") else do
    let t ← bodyEncode net fl p (buf ++ Sip.str "--" ++ boundary ++ [0x0d, 0x0a])
    let q ← get16 (p + 8)
    encodeParts net fl boundary n q (t ++ [0x0d, 0x0a])

/-- SipMsg.go:198-207. -/
def addLength (this : Nat) : B Unit := do
  let l ← get16 ((msgPlace this).field .contentLength)
  if l = 0 then do
    let x ← orErr (alloc 8)
    put16 ((msgPlace this).field .contentLength) x
    pure ()
  else pure ()

/-- SipMsg.go:259-279: the address of the Content-Type header. -/
def addType (this : Nat) : B Nat := do
  let p ← get16 ((msgPlace this).field .contentType)
  if p = 0 then do
    let x ← orErr (alloc 8)
    put16 ((msgPlace this).field .contentType) x
    let t ← orErr (allocStr (Sip.str "multipart"))
    put16 x t
    let s ← orErr (allocStr (Sip.str "mixed"))
    put16 (x + 2) s
    pure x
  else pure p

/-- SipHeaderContentType.go:199-205: the array of known parameters. -/
def knownArray (p : Nat) : B Nat := do
  let k ← get16 (p + 6)
  if k = 0 then do
    let k ← orErr (alloc 2)
    put16 (p + 6) k
    pure k
  else pure k

/-- SipHeaderContentType.go:198-231 `SetBoundary` with the default boundary, of the Content-Type header at `p`: the address of the parameter. -/
def setBoundary (p : Nat) : B Nat := do
  let k ← knownArray p
  let q ← get16 k
  let q ← (if q = 0 then orErr (alloc 8) else pure q)
  let n ← orErr (orErr (allocStr (Sip.str "boundary")))
  put16 q n
  let v ← orErr (orErr (allocStr defaultBoundary))
  put16 (q + 2) v
  put8 (q + 6) 1
  put16 k q
  pure q

/-- SipMsg.go:256-291 `FindOrCreateBoundary`. -/
def boundary (this : Nat) : B Bytes := do
  let p ← addType this
  let q ← look (Rd.boundaryParam p Rd.ret)
  let q ← (if q = 0 then orErr (setBoundary p) else pure q)
  let v ← get16 (q + 2)
  if v = 0 then fail else getStr v

/-- SipMsg.go:209-229: the start line, the boundary, the headers. -/
def msgHead (net : Net) (fl : Flags) (this : Nat) (multi : Bool) (buf : Bytes) : B (Bytes × Bytes) := do
  addLength this
  let s ← look (E.startLine net fl this)
  let bd ← (if multi then orErr (boundary this) else pure [])
  let b ← encodeHeaders net fl msgOrder (this + 22) (this + 64) (buf ++ s)
  if multi then do
    let h ← look (Rd.hasMime this)
    pure (bd, b ++ (if h then [] else Sip.str "MIME-Version: 1.0\r\n") ++ [0x0d, 0x0a])
  else pure (bd, b ++ [0x0d, 0x0a])

/-- SipMsg.go:345-356 `EncodeSingleMsgBody`. -/
def encodeSingle (this : Nat) (buf : Bytes) : B Bytes := do
  let p ← get16 (this + 66)
  let s ← get16 (p + 4)
  let t ← look (E.str s)
  pure (buf ++ t)

/-- SipMsg.go:194-254 `Encode` into the buffer `buf`: the new buffer. -/
def msgEncode (net : Net) (this : Nat) (buf : Bytes) : B Bytes := do
  let c ← ctx
  let multi ← look (Rd.hasMulti this)
  let (bd, b) ← msgHead net c.flags this multi buf
  let p ← get16 (this + 66)
  if p = 0 then pure b else do
  let t ← (if multi then encodeParts net c.flags bd 32769 p b else encodeSingle this b)
  let l ← get16 ((msgPlace this).field .contentLength)
  let e ← look (Rd.u32 (l + 4) Rd.ret)
  look (fun _ => patch t e (encodeUInt (t.length - b.length)))
end B
end Sip
