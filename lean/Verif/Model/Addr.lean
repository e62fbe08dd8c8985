import Verif.Model.Param
/-! # name-addr and addr-spec (src/sipparser/SipAddr.go) -/
namespace Sip

/-- AbnfBasic.go:541-579 `ParseLWS(context)`: the position is moved also when it fails; no error is recorded. -/
def P.lws : P Unit := fun c =>
  match parseLWS c.src c.pos with
  | (p, true) => .ok (some (), c.setPos p)
  | (p, false) => .ok (none, c.setPos p)

/-- AbnfRef.go:19-38 `AbnfRef.Parse`: skip a run of the set -/
def P.skipRun (s : CS) : P Unit := fun c => .ok (some (), c.setPos (skipWhile s.mem c.src c.pos))

/-- `if !ok { context.parsePos = newPos; context.AddError(newPos, ...); return false }` where `newPos` is the position before `p` -/
def P.orBack {α} (p : P α) : P α := fun c =>
  match p c with
  | .ok (none, d) => .ok (none, (d.setPos c.pos).addError c.pos)
  | r => r

/-- `if !p() { context.parsePos = begin; return q() }`: what `p` allocated and reported stays -/
def P.orElse {α} (p q : P α) : P α := fun c =>
  match p c with
  | .ok (none, d) => q (d.setPos c.pos)
  | r => r

/-- SipAddr.go:8-15: the type of URI a scheme selects. -/
inductive UriType where
  | absolute
  | sip
  | sips
  | tel
  | urn
  deriving DecidableEq, Repr

/-- SipAddr.go:364-381: any other scheme; the scheme is stored in the arena. -/
def parseOtherScheme : P UriType := do
  match ← P.peek with
  | none => P.fail
  | some b =>
    if isAlpha b then do
      let _ ← P.str csUriScheme
      if (← P.peek) = some 0x3a then do
        P.skip 1
        pure .absolute
      else P.fail
    else P.fail

/-- SipAddr.go:299-384 `ParseScheme`. -/
def parseAddrScheme : P UriType := fun c =>
  match c.rest with
  | a :: b :: d :: e :: r =>
    if a ||| 0x20 = 0x73 then
      if b ||| 0x20 = 0x69 ∧ d ||| 0x20 = 0x70 then
        if e = 0x3a then .ok (some .sip, c.adv 4) else
        if e ||| 0x20 = 0x73 then
          match r with
          | [] => .ok (none, c.adv 4)
          | f :: _ => if f = 0x3a then .ok (some .sips, c.adv 5) else parseOtherScheme c
        else parseOtherScheme c
      else parseOtherScheme c
    else if a ||| 0x20 = 0x74 then
      if b ||| 0x20 = 0x65 ∧ d ||| 0x20 = 0x6c ∧ e = 0x3a then .ok (some .tel, c.adv 4) else parseOtherScheme c
    else if a ||| 0x20 = 0x75 then
      if b ||| 0x20 = 0x72 ∧ d ||| 0x20 = 0x6e ∧ e = 0x3a then .ok (some .urn, c.adv 4) else parseOtherScheme c
    else parseOtherScheme c
  | _ => parseOtherScheme c

/-- SipAddr.go:22-29: the URI behind the field `addr` (only SIP, SIPS and tel URIs are ever stored). -/
inductive AddrUri where
  | sip (u : SipUri)
  | tel (u : TelUri)
  deriving DecidableEq, Repr

/-- SipAddr.go:22-29 `SipAddr` after a successful parse; a display name is quoted (`true`) or a sequence of tokens (`false`).  The field
`scheme` is not modelled: no accepted address has it. -/
structure Addr where
  nameAddr : Bool := false
  display : Option (Bool × Bytes) := none
  uri : AddrUri
  deriving DecidableEq, Repr

/-- SipAddr.go:70-78. -/
def AddrUri.encode (net : Net) (fl : Flags) : AddrUri → Bytes
  | .sip u => u.encode net fl
  | .tel u => u.encode fl

/-- SipAddr.go:57-66: the display name. -/
def Addr.encodeDisplay (a : Addr) : Bytes :=
  match a.display with
  | some (true, d) => 0x22 :: d ++ [0x22]
  | some (false, d) => d
  | none => []

/-- SipAddr.go:55-83 `Encode`. -/
def Addr.encode (net : Net) (fl : Flags) (a : Addr) : Bytes :=
  if a.nameAddr || fl.encodeUriAsNameSpace then a.encodeDisplay ++ 0x3c :: a.uri.encode net fl ++ [0x3e]
  else a.uri.encode net fl

/-- SipAddr.go:85-94 `EncodeAddrSpec`: a tel URI is not written. -/
def Addr.encodeAddrSpec (net : Net) (fl : Flags) (a : Addr) : Bytes :=
  match a.uri with
  | .sip u => u.encode net fl
  | .tel _ => []

/-- SipAddr.go:197-239 `parsAddrSpecAfterScheme`. -/
def parseUriAfterScheme (net : Net) (params : Bool) : UriType → P AddrUri
  | .sip => do
    P.orErr (P.alloc 18)
    let u ← (if params then SipUri.parseAfterScheme net false else SipUri.parseAfterSchemeWithoutParam net false)
    pure (.sip u)
  | .sips => do
    P.orErr (P.alloc 18)
    let u ← (if params then SipUri.parseAfterScheme net true else SipUri.parseAfterSchemeWithoutParam net true)
    pure (.sip u)
  | .tel => do
    P.orErr (P.alloc 10)
    let u ← (if params then TelUri.parseAfterScheme else TelUri.parseAfterSchemeWithoutParam)
    pure (.tel u)
  | _ => P.fail

/-- SipAddr.go:273-287: one round of the loop of `parseTokens`. -/
def tokensBody : Unit → P (Unit ⊕ Unit) := fun _ => do
  match ← P.peek with
  | none => pure (.inr ())
  | some b =>
    if csSipToken.mem b then do
      P.orBack (do P.skipRun csSipToken; P.lws)
      pure (.inl ())
    else pure (.inr ())

/-- SipAddr.go:265-297 `parseTokens`: the name is the text up to the first byte that is neither token nor white space. -/
def parseTokens : P Bytes := do
  let c ← P.get
  P.forLoop tokensBody ()
  let d ← P.get
  P.orErr (P.allocStr ((c.src.drop c.pos).take (d.pos - c.pos)))

/-- SipAddr.go:245-263 `parseDisplayName` (not called at the end of the input). -/
def parseDisplayName : P (Bool × Bytes) := do
  match ← P.peek with
  | none => pure (false, [])
  | some b =>
    if csSipToken.mem b then do
      let d ← parseTokens
      pure (false, d)
    else do
      let d ← P.quoted
      pure (true, d)

/-- SipAddr.go:147-159: the display name and the opening bracket. -/
def parseDisplayLaquot : P (Option (Bool × Bytes)) := do
  match ← P.peek with
  | none => P.err
  | some b =>
    if b ≠ 0x3c then do
      let d ← parseDisplayName
      P.ofBool parseLeftAngleQuote
      pure (some d)
    else do
      P.skip 1
      pure none

/-- SipAddr.go:136-179 `ParseNameAddrWithoutInit`. -/
def parseNameAddr (net : Net) : P Addr := do
  P.sws
  let d ← parseDisplayLaquot
  let t ← parseAddrScheme
  let u ← parseUriAfterScheme net true t
  P.ofBool parseRightAngleQuote
  pure ⟨true, d, u⟩

/-- SipAddr.go:127-133: what happens when the value does not start with `<` or a quote. -/
def parseAddrSpecOrName (net : Net) (params : Bool) (t : Option UriType) : P Addr :=
  match t with
  | none => parseNameAddr net
  | some t => do
    let u ← parseUriAfterScheme net params t
    pure ⟨false, none, u⟩

/-- SipAddr.go:115-134 `ParseWithoutInit`. -/
def parseAddr (net : Net) (params : Bool) : P Addr := do
  match ← P.peek with
  | none => P.err
  | some b =>
    if b = 0x3c || b = 0x22 then parseNameAddr net else do
    let t ← P.orElse (do let t ← parseAddrScheme; pure (some t)) (pure none)
    parseAddrSpecOrName net params t

/-- SipAddr.go:181-195 `parsAddrSpecWithoutInit`: its argument is ignored. -/
def parseAddrSpec (net : Net) : P Addr := do
  let t ← parseAddrScheme
  let u ← parseUriAfterScheme net true t
  pure ⟨false, none, u⟩

end Sip
