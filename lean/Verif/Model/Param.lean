import Verif.Model.Uri
/-! # Header parameters (src/sipparser/SipGenericParam.go) -/
namespace Sip

/-- SipGenericParam.go:14-18 and the field `value`: a token, the inside of a quoted string, or a text in brackets. -/
inductive GenValue where
  | token (v : Bytes)
  | quoted (v : Bytes)
  | ipv6 (v : Bytes)
  deriving DecidableEq, Repr

/-- SipGenericParam.go:20-25 `SipGenericParam` (the field `next` is the list; `none` is the nil value). -/
structure GenericParam where
  name : Bytes
  value : Option GenValue := none
  deriving DecidableEq, Repr

/-- SipGenericParam.go:57-61 (SipQuotedString.go:7-11 for the quoted string). -/
def GenValue.encode : GenValue → Bytes
  | .token v => v
  | .quoted v => 0x22 :: v ++ [0x22]
  | .ipv6 v => v

/-- SipGenericParam.go:54-63 `EncodeValue`. -/
def GenericParam.encodeValue (p : GenericParam) : Bytes :=
  match p.value with
  | some v => 0x3d :: v.encode
  | none => []

/-- SipGenericParam.go:47-52 `Encode` (the name of a parsed parameter is not nil). -/
def GenericParam.encode (p : GenericParam) : Bytes := p.name ++ p.encodeValue

/-- SipGenericParam.go:121-134: the value in brackets, `bytes.IndexByte(src[pos:], ']')`. -/
def parseBracketValue : P Bytes := fun c =>
  match c.rest.findIdx? (· = 0x5d) with
  | none => .ok (none, c.addError c.pos)
  | some p1 =>
    match allocStr (c.rest.take (p1 + 1)) c with
    | (none, c) => .ok (none, c.addError c.pos)
    | (some v, c) => .ok (some v, c.adv (p1 + 1))

/-- SipGenericParam.go:101-138 `ParseValue`. -/
def GenericParam.parseValue : P GenValue := do
  match ← P.peek with
  | none => P.err
  | some v =>
    if csSipToken.mem v then do
      let s ← P.str csSipToken
      pure (.token s)
    else if v = 0x22 || isLwsChar v then do
      let s ← P.quoted
      pure (.quoted s)
    else if v = 0x5b then do
      let s ← parseBracketValue
      pure (.ipv6 s)
    else P.err

/-- SipGenericParam.go:70-99 `Parse`. -/
def GenericParam.parse : P GenericParam := do
  let name ← P.orErr (P.strEsc csSipToken)
  match ← P.peek with
  | none => pure ⟨name, none⟩
  | some v =>
    if v ≠ 0x3d && !isLwsChar v then pure ⟨name, none⟩ else do
    let m ← P.markCanOmmit 0x3d
    if !m then pure ⟨name, none⟩ else do
    let v ← GenericParam.parseValue
    pure ⟨name, some v⟩

/-- SipGenericParam.go:189-199: whether another parameter follows; `context.parsePos` is reset when there is none. -/
def nextParamMark (sep : UInt8) : P Bool := fun c =>
  match P.markCanOmmit sep c with
  | .ok (some false, d) => .ok (some false, d.setPos c.pos)
  | r => r

/-- SipGenericParam.go:179-219: one round of the loop of `ParseSipGenericParams`. -/
def genericParamsBody {κ : Type} (sep : UInt8) (setK : κ → GenericParam → P (Option κ)) :
    κ × List GenericParam → P ((κ × List GenericParam) ⊕ (κ × List GenericParam)) := fun (k, acc) => do
  let c ← P.get
  match c.cur? with
  | none => pure (.inr (k, acc))
  | some v =>
    if isOnlyCRLF c.src c.pos then pure (.inr (k, acc)) else
    if v ≠ sep && !isLwsChar v then pure (.inr (k, acc)) else do
    let m ← nextParamMark sep
    if !m then pure (.inr (k, acc)) else do
    P.orErr (P.alloc 8)
    let p ← GenericParam.parse
    let r ← setK k p
    match r with
    | some k' => pure (.inl (k', acc))
    | none => pure (.inl (k, acc ++ [p]))

/-- SipGenericParam.go:171-222 `ParseSipGenericParams` (also when `knownParams == nil`, with a `setK` that knows nothing; the test at
173-175 is the first test of the loop). -/
def parseGenericParams {κ : Type} (sep : UInt8) (setK : κ → GenericParam → P (Option κ)) (k : κ) : P (κ × List GenericParam) :=
  P.forLoop (genericParamsBody sep setK) (k, [])

/-- SipGenericParam.go:229-240: the part of `EncodeSipGenericParams` for the other parameters. -/
def encodeGenericParams (sep : UInt8) (ps : List GenericParam) : Bytes := ps.flatMap fun p => sep :: p.encode

/-- a header with parameters: the known ones and the others -/
structure Params where
  known : List (Option GenericParam) := []
  params : List GenericParam := []
  deriving DecidableEq, Repr

/-- SipGenericParam.go:224-241 `EncodeSipGenericParams` with the known parameters of the header (SipHeaderTo.go:122-137 and the same in the
other headers; separator `;`). -/
def Params.encode (names : List Bytes) (ps : Params) : Bytes :=
  encodeKnown names 0x3b GenericParam.encodeValue ps.known ++ encodeGenericParams 0x3b ps.params

/-- SipHeaderTo.go:139-163 `SetKnownParams` (and the same in the other headers): `flag` selects the option of the context. -/
def setKnownGeneric (names : List Bytes) (flag : Flags → Bool) (known : List (Option GenericParam)) (p : GenericParam) :
    P (Option (List (Option GenericParam))) := do
  let c ← P.get
  setKnown names (flag c.flags) known p.name p

/-- SipHeaderTo.go:109-119 (and the same in the other headers): the parameters of a header. -/
def Params.parse (names : List Bytes) (flag : Flags → Bool) : P Params := do
  let (known, params) ← P.orErr (parseGenericParams 0x3b (setKnownGeneric names flag) [])
  pure ⟨known, params⟩

end Sip
