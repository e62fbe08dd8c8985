import Verif.Model.HeapEnc
import Verif.Model.Addr
/-! # Header parameters and addresses on the bytes of the arena (src/sipparser/SipGenericParam.go, SipAddr.go) -/
namespace Sip
namespace B

/-- see `P.orBack` -/
def orBack {β} (b : B β) : B β := fun c =>
  match b c with
  | .ok (none, d) => .ok (none, { d with pos := c.pos }.addError c.pos)
  | r => r
/-- see `P.orElse`: what the first method wrote and allocated stays -/
def orElse {β} (b d : B β) : B β := fun c =>
  match b c with
  | .ok (none, e) => d { e with pos := c.pos }
  | r => r

/-! ## SipGenericParam: name@0, value@2, next@4, valueType@6 (SipGenericParam.go:20-25), 8 bytes -/

/-- SipGenericParam.go:121-134: the value in brackets. -/
def bracketValue : B Nat := do
  let c ← ctx
  match c.rest.findIdx? (· = 0x5d) with
  | none => err
  | some p1 => do
    let s ← orErr (allocStr (c.rest.take (p1 + 1)))
    skip (p1 + 1)
    pure s

/-- SipGenericParam.go:101-138 `ParseValue`. -/
def genValue (this : Nat) : B Unit := do
  match ← peek with
  | none => err
  | some v =>
    if csSipToken.mem v then do
      let s ← str csSipToken
      put16 (this + 2) s
      put8 (this + 6) 0
      pure ()
    else if v = 0x22 || isLwsChar v then do
      let s ← quoted
      put16 (this + 2) s
      put8 (this + 6) 1
      pure ()
    else if v = 0x5b then do
      let s ← bracketValue
      put16 (this + 2) s
      put8 (this + 6) 2
      pure ()
    else err

/-- SipGenericParam.go:70-99 `Parse`. -/
def genericParam (this : Nat) : B Unit := do
  let name ← orErr (strEsc csSipToken)
  put16 this name
  match ← peek with
  | none => pure ()
  | some v =>
    if v ≠ 0x3d && !isLwsChar v then pure () else do
    let m ← lift (P.markCanOmmit 0x3d)
    if !m then pure () else genValue this

/-- SipGenericParam.go:179-219: one round of the loop of `ParseSipGenericParams`. -/
def genericParamsBody (sep : UInt8) (setK : Nat → Nat → B Bool) : Nat × Nat → B ((Nat × Nat) ⊕ Nat) := fun (params, prev) => do
  let c ← ctx
  match c.cur? with
  | none => pure (.inr params)
  | some v =>
    if isOnlyCRLF c.src c.pos then pure (.inr params) else
    if v ≠ sep && !isLwsChar v then pure (.inr params) else do
    let m ← lift (nextParamMark sep)
    if !m then pure (.inr params) else do
    let addr ← orErr (alloc 8)
    genericParam addr
    let name ← get16 addr
    let r ← setK name addr
    let s ← if r then pure (params, prev) else link 4 params prev addr
    pure (.inl s)

/-- SipGenericParam.go:171-222 `ParseSipGenericParams`. -/
def genericParams (sep : UInt8) (setK : Nat → Nat → B Bool) : B Nat := forLoop (genericParamsBody sep setK) (0, 0)

/-- SipHeaderTo.go:109-119 (and the same in the other headers): the parameters of a header; `pf` and `kf` are the addresses of the fields `params` and `knownParams`.
(Go passes nil in the place of `this` when the option is off; `SetKnownParams` returns false then.) -/
def headerParams (names : List Bytes) (flag : Flags → Bool) (pf kf : Nat) : B Unit := do
  let ps ← orErr (genericParams 0x3b (setKnown names flag kf))
  put16 pf ps
  pure ()

/-- TelUri.go:185-187 `ParseAfterSchemeWithoutParam`. -/
def telUriAfterSchemeWithoutParam (this : Nat) : B Unit := telNumber this

/-! ## SipAddr: addrType@0, uriType@1, displayNameIsQuotedString@2, scheme@4, displayName@6, addr@8 (SipAddr.go:22-29), 10 bytes -/

/-- SipAddr.go:364-381: any other scheme. -/
def otherScheme (this : Nat) : B Unit := do
  match ← peek with
  | none => fail
  | some b =>
    if isAlpha b then do
      let s ← str csUriScheme
      put16 (this + 4) s
      if (← peek) = some 0x3a then do
        skip 1
        put8 (this + 1) 1
        pure ()
      else fail
    else fail

/-- SipAddr.go:320-322 (and the same for the other schemes): behind the scheme, and the type is stored. -/
def uriTypeIs (this n : Nat) (t : UInt8) : B Unit := do
  skip n
  put8 (this + 1) t
  pure ()

/-- SipAddr.go:299-384 `ParseScheme`. -/
def addrScheme (this : Nat) : B Unit := do
  let c ← ctx
  match c.rest with
  | a :: b :: d :: e :: r =>
    if a ||| 0x20 = 0x73 then
      if b ||| 0x20 = 0x69 ∧ d ||| 0x20 = 0x70 then
        if e = 0x3a then uriTypeIs this 4 2 else
        if e ||| 0x20 = 0x73 then
          match r with
          | [] => (skip 4 >>= fun _ => fail)
          | f :: _ => if f = 0x3a then uriTypeIs this 5 3 else otherScheme this
        else otherScheme this
      else otherScheme this
    else if a ||| 0x20 = 0x74 then
      if b ||| 0x20 = 0x65 ∧ d ||| 0x20 = 0x6c ∧ e = 0x3a then uriTypeIs this 4 4 else otherScheme this
    else if a ||| 0x20 = 0x75 then
      if b ||| 0x20 = 0x72 ∧ d ||| 0x20 = 0x6e ∧ e = 0x3a then uriTypeIs this 4 5 else otherScheme this
    else otherScheme this
  | _ => otherScheme this

/-- SipAddr.go:197-239 `parsAddrSpecAfterScheme`: the switch over the field `uriType` (8-15: SIP 2, SIPS 3, TEL 4). -/
def addrAfterScheme (net : Net) (params : Bool) (this : Nat) : B Unit := do
  let t ← get8 (this + 1)
  if t = 2 then do
    let p ← orErr (alloc 18)
    put16 (this + 8) p
    put8 p 0
    if params then sipUriAfterScheme net p else sipUriAfterSchemeWithoutParam net p
  else if t = 3 then do
    let p ← orErr (alloc 18)
    put16 (this + 8) p
    put8 p 1
    if params then sipUriAfterScheme net p else sipUriAfterSchemeWithoutParam net p
  else if t = 4 then do
    let p ← orErr (alloc 10)
    put16 (this + 8) p
    if params then telUriAfterScheme p else telUriAfterSchemeWithoutParam p
  else fail

/-- SipAddr.go:265-297 `parseTokens`. -/
def addrTokens (this : Nat) : B Unit := do
  let c ← ctx
  put8 (this + 2) 0
  lift (P.forLoop tokensBody ())
  let d ← ctx
  let s ← orErr (allocStr ((c.src.drop c.pos).take (d.pos - c.pos)))
  put16 (this + 6) s
  pure ()

/-- SipAddr.go:245-263 `parseDisplayName`. -/
def displayName (this : Nat) : B Unit := do
  match ← peek with
  | none => pure ()
  | some b =>
    if csSipToken.mem b then addrTokens this else do
    let s ← quoted
    put16 (this + 6) s
    put8 (this + 2) 1
    pure ()

/-- SipAddr.go:142-159: the display name and the opening bracket. -/
def displayLaquot (this : Nat) : B Unit := do
  match ← peek with
  | none => err
  | some b =>
    if b ≠ 0x3c then do
      displayName this
      lift (P.ofBool parseLeftAngleQuote)
    else skip 1

/-- SipAddr.go:136-179 `ParseNameAddrWithoutInit`. -/
def nameAddr (net : Net) (this : Nat) : B Unit := do
  lift P.sws
  displayLaquot this
  addrScheme this
  addrAfterScheme net true this
  lift (P.ofBool parseRightAngleQuote)
  put8 this 1
  pure ()

/-- SipAddr.go:115-134 `ParseWithoutInit`. -/
def addr (net : Net) (params : Bool) (this : Nat) : B Unit := do
  match ← peek with
  | none => err
  | some b =>
    if b = 0x3c || b = 0x22 then nameAddr net this else do
    let ok ← orElse (do addrScheme this; pure true) (pure false)
    if ok then addrAfterScheme net params this else nameAddr net this

/-- SipAddr.go:104-107 `Parse`, 39-41 `Init`. -/
def addrParse (net : Net) (params : Bool) (this : Nat) : B Unit := do
  zero this 10
  addr net params this

/-- SipAddr.go:181-195 `parsAddrSpecWithoutInit`. -/
def addrSpec (net : Net) (this : Nat) : B Unit := do
  addrScheme this
  addrAfterScheme net true this
  put8 this 0
  pure ()

end B

namespace E
/-- SipGenericParam.go:54-63 `EncodeValue`, SipQuotedString.go:7-11. -/
def genericParamValue (this : Nat) : E :=
  u16 (this + 2) fun v => if v ≠ 0 then lit [0x3d] +++ (u8 (this + 6) fun t =>
    if t = 0 ∨ t = 2 then str v else if t = 1 then lit [0x22] +++ (str v +++ lit [0x22]) else lit []) else lit []

/-- SipGenericParam.go:47-52 `Encode`. -/
def genericParam (this : Nat) : E := u16 this fun n => if n ≠ 0 then str n +++ genericParamValue this else lit []

/-- SipGenericParam.go:224-241 `EncodeSipGenericParams` with the known parameters of the header (`SipHeaderTo.go:122-137`). -/
def headerParams (names : List Bytes) (pf kf : Nat) : E :=
  known names 0x3b genericParamValue kf +++
  u16 pf fun ps => if ps ≠ 0 then walk 4 (fun p => lit [0x3b] +++ genericParam p) [] 32768 ps else lit []

/-- SipAddr.go:70-78. -/
def addrUri (net : Net) (fl : Flags) (this : Nat) : E :=
  u16 (this + 8) fun p => if p ≠ 0 then u8 (this + 1) fun t =>
    if t = 2 ∨ t = 3 then sipUri net fl p else if t = 4 then telUri fl p else lit [] else lit []

/-- SipAddr.go:55-83 `Encode`. -/
def addr (net : Net) (fl : Flags) (this : Nat) : E :=
  u8 this fun t => if t = 1 || fl.encodeUriAsNameSpace then
      (u16 (this + 6) fun d => if d ≠ 0 then u8 (this + 2) fun q => if q ≠ 0 then lit [0x22] +++ (str d +++ lit [0x22]) else str d else lit []) +++
      (lit [0x3c] +++ (addrUri net fl this +++ lit [0x3e]))
    else addrUri net fl this

/-- SipAddr.go:85-94 `EncodeAddrSpec`. -/
def addrSpec (net : Net) (fl : Flags) (this : Nat) : E :=
  u16 (this + 8) fun p => if p ≠ 0 then u8 (this + 1) fun t => if t = 2 ∨ t = 3 then sipUri net fl p else lit [] else lit []
end E
end Sip
