import Verif.Model.Host
/-! # SIP and tel URIs (src/sipparser/UriParam.go, UriHeader.go, SipUri.go, TelUri.go) -/
namespace Sip

/-- UriParam.go:19-24 `CharsetInfo`. -/
structure CharsetInfo where
  name : CS
  value : CS

/-- UriParam.go:13-17 `UriParam` (the field `next` is the list). -/
structure UriParam where
  name : Bytes
  value : Option Bytes
  deriving DecidableEq, Repr

/-- UriHeader.go:8-12 `UriHeader` (the field `next` is the list). -/
structure UriHeader where
  name : Bytes
  value : Option Bytes
  deriving DecidableEq, Repr

/-- UriParam.go:36-40: a component is written escaped unless `context.EncodeUriNoEscape`. -/
def uriEsc (fl : Flags) (s : CS) (b : Bytes) : Bytes := if !fl.encodeUriNoEscape then escapeStr s b else b

/-- UriParam.go:46-56 `EncodeValue`. -/
def UriParam.encodeValue (fl : Flags) (cs : CharsetInfo) (p : UriParam) : Bytes :=
  match p.value with
  | some v => 0x3d :: uriEsc fl cs.value v
  | none => []

/-- UriParam.go:34-44 `Encode`. -/
def UriParam.encode (fl : Flags) (cs : CharsetInfo) (p : UriParam) : Bytes := uriEsc fl cs.name p.name ++ p.encodeValue fl cs

/-- UriParam.go:77-106 `Parse`. -/
def UriParam.parse (cs : CharsetInfo) : P UriParam := do
  let name ← P.orErr (P.strEsc cs.name)
  if (← P.peek) = some 0x3d then do
    P.skip 1
    let v ← P.orErr (P.strEsc cs.value)
    pure ⟨name, some v⟩
  else pure ⟨name, none⟩

/-- UriParam.go:161-188: one round of the loop of `ParseUriParamsEx`.  `setK` is `knownParams.SetKnownParams` on the state of the URI object:
`none` when the parameter is not a known one. -/
def uriParamsBody {κ : Type} (cs : CharsetInfo) (setK : κ → UriParam → P (Option κ)) :
    κ × List UriParam → P ((κ × List UriParam) ⊕ (κ × List UriParam)) := fun (k, acc) => do
  if (← P.peek) = none then pure (.inr (k, acc)) else do
  P.orErr (P.alloc 6)
  let p ← UriParam.parse cs
  let r ← setK k p
  let s := match r with
    | some k' => (k', acc)
    | none => (k, acc ++ [p])
  if (← P.peek) = some 0x3b then do
    P.skip 1
    pure (.inl s)
  else pure (.inr s)

/-- UriParam.go:149-191 `ParseUriParamsEx` (and 108-147 `ParseUriParams` with a `setK` that knows nothing). -/
def parseUriParams {κ : Type} (cs : CharsetInfo) (setK : κ → UriParam → P (Option κ)) (k : κ) : P (κ × List UriParam) := do
  if (← P.peek) = none then P.err else P.forLoop (uriParamsBody cs setK) (k, [])

/-- UriParam.go:193-206 `EncodeUriParams`. -/
def encodeUriParams (fl : Flags) (cs : CharsetInfo) (ps : List UriParam) : Bytes := ps.flatMap fun p => 0x3b :: p.encode fl cs

/-- UriParam.go:226-236 `GetUriParamByName`. -/
def getUriParamByName (ps : List UriParam) (name : Bytes) : Option UriParam := ps.find? fun p => strEqNoCase (some p.name) name

/-- UriHeader.go:41-79 `Parse`: at the end of the input the value is nil, otherwise it is a (possibly empty) string. -/
def UriHeader.parse (cs : CharsetInfo) : P UriHeader := do
  let name ← P.orErr (P.strEsc cs.name)
  if (← P.peek) ≠ some 0x3d then P.err else do
  P.skip 1
  if (← P.peek) = none then pure ⟨name, none⟩ else do
  let v ← P.orErr (P.strEscEmpty cs.value)
  pure ⟨name, some v⟩

/-- UriHeader.go:90-117: one round of the loop of `ParseUriHeaders`. -/
def uriHeadersBody (cs : CharsetInfo) : List UriHeader → P (List UriHeader ⊕ List UriHeader) := fun acc => do
  if (← P.peek) = none then pure (.inr acc) else do
  P.orErr (P.alloc 6)
  let h ← UriHeader.parse cs
  if (← P.peek) = some 0x26 then do
    P.skip 1
    pure (.inl (acc ++ [h]))
  else pure (.inr (acc ++ [h]))

/-- UriHeader.go:81-120 `ParseUriHeaders`. -/
def parseUriHeaders (cs : CharsetInfo) : P (List UriHeader) := do
  if (← P.peek) = none then P.err else P.forLoop (uriHeadersBody cs) []

/-- UriHeader.go:22-39 `Encode`. -/
def UriHeader.encode (fl : Flags) (cs : CharsetInfo) (h : UriHeader) : Bytes :=
  uriEsc fl cs.name h.name ++ (match h.value with
    | some v => 0x3d :: uriEsc fl cs.value v
    | none => [])

/-- UriHeader.go:122-133 `EncodeUriHeaders` (of a non-empty list). -/
def encodeUriHeaders (fl : Flags) (cs : CharsetInfo) : List UriHeader → Bytes
  | [] => []
  | [h] => h.encode fl cs
  | h :: hs => h.encode fl cs ++ 0x26 :: encodeUriHeaders fl cs hs

/-! ## Known parameters

`SetKnownParams` and `EncodeKnownParams` of SipUri, TelUri and of the headers with parameters have the same text up to the table of names, the
flag and the size of the array.  `[]` stands for the nil pointer `knownParams`, otherwise the list has one entry per name. -/

/-- the loop over the table of names: index of the first name that is equal ignoring case -/
def knownIndex (names : List Bytes) (name : Bytes) : Option Nat := names.findIdx? fun n => strEqNoCase (some name) n

/-- SipUri.go:164-191 (TelUri.go:118-141, SipHeaderTo.go:143-163, SipHeaderVia.go ...) `SetKnownParams`.  When the array cannot be allocated
the Go code writes the parameter through the nil pointer into the first bytes of the arena; that is modelled as a panic. -/
def setKnown {α : Type} (names : List Bytes) (on : Bool) (known : List (Option α)) (name : Bytes) (p : α) : P (Option (List (Option α))) :=
  if !on then pure none else
  match knownIndex names name with
  | none => pure none
  | some i =>
    if known = [] then do
      P.allocMust (2 * names.length)
      pure (some ((List.replicate names.length none).set i (some p)))
    else pure (some (known.set i (some p)))

/-- SipUri.go:147-162 (and the same in the other types) `EncodeKnownParams`; `enc` writes the value. -/
def encodeKnown {α : Type} (names : List Bytes) (sep : UInt8) (enc : α → Bytes) (known : List (Option α)) : Bytes :=
  (names.zip known).flatMap fun (n, p) =>
    match p with
    | some p => sep :: n ++ enc p
    | none => []

/-! ## SIP URI -/

/-- SipUri.go:9-14 `g_SipUriParamCharsetInfo`. -/
def sipUriParamCS : CharsetInfo := ⟨csSipPname, csSipPvalue⟩
/-- SipUri.go:16-21 `g_SipUriHeaderCharsetInfo`. -/
def sipUriHeaderCS : CharsetInfo := ⟨csSipHname, csSipHvalue⟩

/-- SipUri.go:39-46 `g_SipUriKnownParamInfo`. -/
def sipUriKnownNames : List Bytes := [str "user", str "transport", str "lr", str "method", str "maddr", str "ttl"]

/-- SipUri.go:60-70 `SipUri`. -/
structure SipUri where
  secure : Bool := false
  user : Option Bytes := none
  password : Option Bytes := none
  hostport : HostPort := {}
  params : List UriParam := []
  headers : List UriHeader := []
  known : List (Option UriParam) := []
  deriving DecidableEq, Repr

/-- SipUri.go:97-145 `Encode`. -/
def SipUri.encode (net : Net) (fl : Flags) (u : SipUri) : Bytes :=
  (if u.secure then str "sips:" else str "sip:") ++
  (match u.user with
    | some us => uriEsc fl csSipUser us ++ (match u.password with
        | some pw => 0x3a :: uriEsc fl csSipPassword pw
        | none => []) ++ [0x40]
    | none => []) ++
  u.hostport.encode net ++
  encodeKnown sipUriKnownNames 0x3b (UriParam.encodeValue fl sipUriParamCS) u.known ++
  encodeUriParams fl sipUriParamCS u.params ++
  (match u.headers with
    | [] => []
    | hs => 0x3f :: encodeUriHeaders fl sipUriHeaderCS hs)

/-- SipUri.go:347-356 `findUserinfo` on the rest of the input: an `@` before a `>` or white space. -/
def findUserinfo : Bytes → Bool
  | [] => false
  | v :: r => if v = 0x40 then true else if v = 0x3e || isLwsChar v then false else findUserinfo r

/-- SipUri.go:324-345 `parsePassword`; the first byte is read without a bounds check. -/
def SipUri.parsePassword : P (Option Bytes) := do
  let b ← P.byteAt 0
  if b = 0x3a then do
    P.skip 1
    if (← P.peek) = none then P.err else do
    let pw ← P.orErr (P.strEscEmpty csSipPassword)
    pure (some pw)
  else pure none

/-- SipUri.go:283-322 `parseUserinfo`. -/
def SipUri.parseUserinfo : P (Option Bytes × Option Bytes) := do
  let c ← P.get
  if findUserinfo c.rest then do
    let user ← P.orErr (P.strEsc csSipUser)
    if (← P.peek) = none then P.err else do
    let pw ← P.orErr SipUri.parsePassword
    if (← P.peek) ≠ some 0x40 then P.err else do
    P.skip 1
    pure (some user, pw)
  else pure (none, none)

/-- SipUri.go:164-191 `SetKnownParams`. -/
def SipUri.setKnown (known : List (Option UriParam)) (p : UriParam) : P (Option (List (Option UriParam))) := do
  let c ← P.get
  Sip.setKnown sipUriKnownNames c.flags.setSipUriKnownParam known p.name p

/-- SipUri.go:234-245: the parameters, if there is a `;`. -/
def SipUri.parseParams : P (List (Option UriParam) × List UriParam) := do
  if (← P.peek) = some 0x3b then do
    P.skip 1
    P.orErr (parseUriParams sipUriParamCS SipUri.setKnown [])
  else pure ([], [])

/-- SipUri.go:247-261: the headers, if there is a `?`. -/
def SipUri.parseHeaders : P (List UriHeader) := do
  if (← P.peek) = some 0x3f then do
    P.skip 1
    P.orErr (parseUriHeaders sipUriHeaderCS)
  else pure []

/-- SipUri.go:219-264 `ParseAfterSchemeWithoutInit`. -/
def SipUri.parseAfterScheme (net : Net) (secure : Bool) : P SipUri := do
  let (user, pw) ← P.orErr SipUri.parseUserinfo
  let hp ← P.orErr (HostPort.parse net)
  let (known, params) ← SipUri.parseParams
  let headers ← SipUri.parseHeaders
  pure ⟨secure, user, pw, hp, params, headers, known⟩

/-- SipUri.go:266-281 `ParseAfterSchemeWithoutParam`. -/
def SipUri.parseAfterSchemeWithoutParam (net : Net) (secure : Bool) : P SipUri := do
  let (user, pw) ← SipUri.parseUserinfo
  let hp ← P.orErr (HostPort.parse net)
  pure ⟨secure, user, pw, hp, [], [], []⟩

/-- SipUri.go:468-470 `hasSipPrefixNoCase`. -/
def hasSipPrefix : Bytes → Bool
  | a :: b :: c :: d :: _ => a ||| 0x20 == 0x73 && b ||| 0x20 == 0x69 && c ||| 0x20 == 0x70 && d == 0x3a
  | _ => false
/-- SipUri.go:472-475 `hasSipsPrefixNoCase`. -/
def hasSipsPrefix : Bytes → Bool
  | a :: b :: c :: d :: e :: _ => a ||| 0x20 == 0x73 && b ||| 0x20 == 0x69 && c ||| 0x20 == 0x70 && d ||| 0x20 == 0x73 && e == 0x3a
  | _ => false

/-- SipUri.go:450-466 `parseScheme`: the result is `isSecure`. -/
def SipUri.parseScheme : P Bool := fun c =>
  if hasSipPrefix c.rest then .ok (some false, c.adv 4) else
  if hasSipsPrefix c.rest then .ok (some true, c.adv 5) else
  .ok (none, c.addError c.pos)

/-- SipUri.go:201-213 `Parse`. -/
def SipUri.parse (net : Net) : P SipUri := do
  let s ← SipUri.parseScheme
  SipUri.parseAfterScheme net s

/-! ## tel URI -/

/-- TelUri.go:8-13 `g_TelUriParamCharsetInfo`. -/
def telUriParamCS : CharsetInfo := ⟨csTelPname, csTelPvalue⟩
/-- TelUri.go:27-30 `g_TelUriKnownParamInfo`. -/
def telUriKnownNames : List Bytes := [str "isub", str "ext"]

/-- TelUri.go:44-51 `TelUri`. -/
structure TelUri where
  isGlobal : Bool := false
  contextIsDomain : Bool := false
  number : Bytes := []
  context : Option UriParam := none
  params : List UriParam := []
  known : List (Option UriParam) := []
  deriving DecidableEq, Repr

/-- TelUri.go:73-89 `Encode`. -/
def TelUri.encode (fl : Flags) (u : TelUri) : Bytes :=
  str "tel:" ++ u.number ++
  (if !u.isGlobal then (match u.context with
    | some p => str ";phone-context" ++ p.encodeValue fl telUriParamCS
    | none => []) else []) ++
  encodeKnown telUriKnownNames 0x3b (UriParam.encodeValue fl telUriParamCS) u.known ++
  encodeUriParams fl telUriParamCS u.params

/-- AbnfPtr.go:77-91 `RemoveTelUriVisualSeperator`. -/
def removeVisualSeparators (b : Bytes) : Bytes := b.filter fun v => !isTelVisualSperator v

/-- the part of `TelUri` that `SetKnownParams` changes -/
structure TelKnown where
  contextIsDomain : Bool := false
  context : Option UriParam := none
  known : List (Option UriParam) := []
  deriving DecidableEq, Repr

/-- TelUri.go:108-141 `SetKnownParams`: `value[0]` panics when there is no value. -/
def TelUri.setKnown (k : TelKnown) (p : UriParam) : P (Option TelKnown) :=
  if strEqNoCase (some p.name) (str "phone-context") then
    match p.value with
    | none => P.panic
    | some v =>
      match v.head? with
      | none => P.panic
      | some b =>
        let isDomain := b ≠ 0x2b
        let v := if !isDomain then removeVisualSeparators v else v
        pure (some { k with contextIsDomain := isDomain, context := some ⟨p.name, some v⟩ })
  else do
    let c ← P.get
    let r ← Sip.setKnown telUriKnownNames c.flags.setTelUriKnownParam k.known p.name p
    match r with
    | some known => pure (some { k with known := known })
    | none => pure none

/-- TelUri.go:189-229 `parseNumber`, `parseGlobalNumber`, `parseLocalNumber`: whether the number is global, and the number. -/
def TelUri.parseNumber : P (Bool × Bytes) := do
  match ← P.peek with
  | none => P.err
  | some b =>
    if b = 0x2b then do
      let n ← P.orErr (parseTelNumber csTelPhoneDigit)
      pure (true, n)
    else do
      let n ← P.orErr (parseTelNumber csTelPhoneDigitHex)
      pure (false, n)

/-- TelUri.go:161-183 `ParseAfterSchemeWithoutInit`; the parameters are read with the *SIP* character sets. -/
def TelUri.parseAfterScheme : P TelUri := do
  let (g, n) ← P.orErr TelUri.parseNumber
  if (← P.peek) = some 0x3b then do
    P.skip 1
    let (k, ps) ← P.orErr (parseUriParams sipUriParamCS TelUri.setKnown {})
    pure ⟨g, k.contextIsDomain, n, k.context, ps, k.known⟩
  else pure ⟨g, false, n, none, [], []⟩

/-- TelUri.go:185-187 `ParseAfterSchemeWithoutParam`. -/
def TelUri.parseAfterSchemeWithoutParam : P TelUri := do
  let (g, n) ← TelUri.parseNumber
  pure ⟨g, false, n, none, [], []⟩

/-- TelUri.go:231-253 `parseScheme` (no error is recorded; the fourth byte is compared after `| 0x20`). -/
def TelUri.parseScheme : P Unit := fun c =>
  match c.rest with
  | a :: b :: d :: e :: _ =>
    if a ||| 0x20 = 0x74 ∧ b ||| 0x20 = 0x65 ∧ d ||| 0x20 = 0x6c ∧ e ||| 0x20 = 0x3a then .ok (some (), c.adv 4) else .ok (none, c)
  | _ => .ok (none, c)

/-- TelUri.go:143-155 `Parse`. -/
def TelUri.parse : P TelUri := do
  TelUri.parseScheme
  TelUri.parseAfterScheme

end Sip
