import Verif.Model.Heap
import Verif.Model.Uri
/-! # SIP and tel URIs on the bytes of the arena (src/sipparser/UriParam.go, UriHeader.go, SipHostPort.go, SipUri.go, TelUri.go) -/
namespace Sip
namespace B

/-- UriParam.go:170-175 (UriHeader.go:103-108, SipGenericParam.go:211-216 ...): append the struct at `addr` to the list that starts at `first` and
ends with `prev` (0: the list is empty).  `off` is the offset of the field `next`.  Result: the new `first` and `prev`. -/
def link (off first prev addr : Nat) : B (Nat × Nat) :=
  if prev ≠ 0 then do
    put16 (prev + off) addr
    pure (first, addr)
  else pure (addr, addr)

/-- UriParam.go:13-17, 77-106 `Parse`; name@0, value@2, next@4. -/
def uriParam (cs : CharsetInfo) (this : Nat) : B Unit := do
  let name ← orErr (strEsc cs.name)
  put16 this name
  if (← peek) = some 0x3d then do
    skip 1
    let v ← orErr (strEsc cs.value)
    put16 (this + 2) v
    pure ()
  else pure ()

/-- UriParam.go:161-188: one round of the loop of `ParseUriParamsEx`; the loop state is `params`, `prev`. `setK name addr` is `knownParams.SetKnownParams`. -/
def uriParamsBody (cs : CharsetInfo) (setK : Nat → Nat → B Bool) : Nat × Nat → B ((Nat × Nat) ⊕ Nat) := fun (params, prev) => do
  if (← peek) = none then pure (.inr params) else do
  let addr ← orErr (alloc 6)
  uriParam cs addr
  let name ← get16 addr
  let r ← setK name addr
  let s ← if r then pure (params, prev) else link 4 params prev addr
  if (← peek) = some 0x3b then do
    skip 1
    pure (.inl s)
  else pure (.inr s.1)

/-- UriParam.go:149-191 `ParseUriParamsEx`. -/
def uriParams (cs : CharsetInfo) (setK : Nat → Nat → B Bool) : B Nat := do
  if (← peek) = none then err else forLoop (uriParamsBody cs setK) (0, 0)

/-- UriHeader.go:8-12, 41-79 `Parse`; name@0, value@2, next@4. -/
def uriHeader (cs : CharsetInfo) (this : Nat) : B Unit := do
  let name ← orErr (strEsc cs.name)
  put16 this name
  if (← peek) ≠ some 0x3d then err else do
  skip 1
  if (← peek) = none then pure () else do
  let v ← orErr (strEscEmpty cs.value)
  put16 (this + 2) v
  pure ()

/-- UriHeader.go:90-117: one round of the loop of `ParseUriHeaders`. -/
def uriHeadersBody (cs : CharsetInfo) : Nat × Nat → B ((Nat × Nat) ⊕ Nat) := fun (headers, prev) => do
  if (← peek) = none then pure (.inr headers) else do
  let addr ← orErr (alloc 6)
  uriHeader cs addr
  let s ← link 4 headers prev addr
  if (← peek) = some 0x26 then do
    skip 1
    pure (.inl s)
  else pure (.inr s.1)

/-- UriHeader.go:81-120 `ParseUriHeaders`. -/
def uriHeaders (cs : CharsetInfo) : B Nat := do
  if (← peek) = none then err else forLoop (uriHeadersBody cs) (0, 0)

/-- SipUri.go:164-191 (TelUri.go:118-141, SipHeaderTo.go:139-163 ...) `SetKnownParams`: `field` is the address of the field `knownParams`, the array has one
pointer for each name.  The comparisons `name.CStringEqualNoCase` read the bytes of the name. -/
def setKnown (names : List Bytes) (on : Flags → Bool) (field name param : Nat) : B Bool := do
  let c ← ctx
  if !on c.flags then pure false else do
  let s ← getStr name
  match knownIndex names s with
  | none => pure false
  | some i => do
    let k ← get16 field
    if k = 0 then do
      let k ← allocMust (2 * names.length)
      put16 field k
      put16 (k + 2 * i) param
      pure true
    else do
      put16 (k + 2 * i) param
      pure true

/-! ## host and port: id@0, hasPort@1, port@2, data@4 (SipHostPort.go:16-21) -/

/-- SipHostPort.go:279-285 `parseHostname`. -/
def hostname (this : Nat) : B Unit := do
  let s ← str csHostname
  put16 (this + 4) s
  put8 this 3
  pure ()

/-- SipHostPort.go:200-227 `parseIpv6`, 346-376 `SetIpv6`. -/
def ipv6 (net : Net) (this : Nat) : B Unit := do
  let c ← ctx
  let p := skipWhile (· ≠ 0x5d) c.src c.pos
  setPos p
  if p ≥ c.src.length then err else
  match net.parseIP ((c.src.drop c.pos).take (p - c.pos)) with
  | none => err
  | some ip => do
    let a ← orErr (allocRaw 16)
    copyTo a 16 ip
    put8 this 2
    put16 (this + 4) a
    skip 1
    pure ()

/-- SipHostPort.go:168-198 `ParseHost`, 315-344 `SetIpv4`. -/
def host (net : Net) (this : Nat) : B Unit := do
  let c ← ctx
  match c.cur? with
  | none => err
  | some v =>
    if v = 0x5b then do
      skip 1
      ipv6 net this
    else if isAlpha v then hostname this else
    match parseIpv4 c.src c.pos with
    | (none, _) => hostname this
    | (some ip, p) => do
      setPos p
      let a ← orErr (allocRaw 4)
      copyTo a 4 ip
      put8 this 1
      put16 (this + 4) a
      pure ()

/-- SipHostPort.go:133-166 `ParseWithoutInit`, 42-45 `SetPort`. -/
def hostPort (net : Net) (this : Nat) : B Unit := do
  orErr (host net this)
  match ← peek with
  | some 0x3a => do
    skip 1
    let c ← ctx
    let r := parseUInt c.src c.pos
    setPos r.newPos
    if !r.ok then err else
    if r.digit > 0xffff then err else do
    put8 (this + 1) 1
    put16 (this + 2) (u16 r.digit)
    pure ()
  | _ => pure ()

/-! ## SipUri: isSecure@0, user@2, password@4, hostport@6, params@12, headers@14, knownParams@16 (SipUri.go:60-70) -/

/-- SipUri.go:324-345 `parsePassword`. -/
def password (this : Nat) : B Unit := do
  let b ← lift (P.byteAt 0)
  if b = 0x3a then do
    skip 1
    if (← peek) = none then err else do
    let pw ← orErr (strEscEmpty csSipPassword)
    put16 (this + 4) pw
    pure ()
  else pure ()

/-- SipUri.go:283-322 `parseUserinfo`. -/
def userinfo (this : Nat) : B Unit := do
  let c ← ctx
  if findUserinfo c.rest then do
    let user ← orErr (strEsc csSipUser)
    if (← peek) = none then err else do
    put16 (this + 2) user
    orErr (password this)
    if (← peek) ≠ some 0x40 then err else do
    skip 1
    pure ()
  else pure ()

/-- SipUri.go:164-191 `SetKnownParams`. -/
def sipUriSetKnown (this name param : Nat) : B Bool := setKnown sipUriKnownNames (fun fl => fl.setSipUriKnownParam) (this + 16) name param

/-- SipUri.go:234-245 -/
def sipUriParams (this : Nat) : B Unit := do
  if (← peek) = some 0x3b then do
    skip 1
    let ps ← orErr (uriParams sipUriParamCS (sipUriSetKnown this))
    put16 (this + 12) ps
    pure ()
  else pure ()

/-- SipUri.go:247-261 -/
def sipUriHeaders (this : Nat) : B Unit := do
  if (← peek) = some 0x3f then do
    skip 1
    let hs ← orErr (uriHeaders sipUriHeaderCS)
    put16 (this + 14) hs
    pure ()
  else pure ()

/-- SipUri.go:219-264 `ParseAfterSchemeWithoutInit`. -/
def sipUriAfterScheme (net : Net) (this : Nat) : B Unit := do
  orErr (userinfo this)
  orErr (hostPort net (this + 6))
  sipUriParams this
  sipUriHeaders this

/-- SipUri.go:266-281 `ParseAfterSchemeWithoutParam`. -/
def sipUriAfterSchemeWithoutParam (net : Net) (this : Nat) : B Unit := do
  userinfo this
  orErr (hostPort net (this + 6))

/-- SipUri.go:201-213 `Parse`, 80-82 `Init`, 450-466 `parseScheme`. -/
def sipUri (net : Net) (this : Nat) : B Unit := do
  zero this 18
  let s ← lift SipUri.parseScheme
  put8 this (if s then 1 else 0)
  sipUriAfterScheme net this

/-! ## TelUri: IsGlobalNumber@0, ContextIsDomain@1, number@2, context@4, params@6, knownParams@8 (TelUri.go:44-51) -/

/-- TelUri.go:108-141 `SetKnownParams`. -/
def telUriSetKnown (this name param : Nat) : B Bool := do
  let s ← getStr name
  if strEqNoCase (some s) (Sip.str "phone-context") then do
    put16 (this + 4) param
    let v ← get16 (param + 2)
    let t ← if v = 0 then pure [] else getStr v
    match t.head? with
    | none => panic
    | some b => do
      put8 (this + 1) (if b ≠ 0x2b then 1 else 0)
      if b ≠ 0x2b then pure true else do
      removeVisual v
      pure true
  else setKnown telUriKnownNames (fun fl => fl.setTelUriKnownParam) (this + 8) name param

/-- TelUri.go:189-229 `parseNumber`, `parseGlobalNumber`, `parseLocalNumber`. -/
def telNumber (this : Nat) : B Unit := do
  match ← peek with
  | none => err
  | some b =>
    if b = 0x2b then do
      let n ← orErr (tel csTelPhoneDigit)
      put16 (this + 2) n
      put8 this 1
      pure ()
    else do
      let n ← orErr (tel csTelPhoneDigitHex)
      put16 (this + 2) n
      put8 this 0
      pure ()

/-- TelUri.go:161-183 `ParseAfterSchemeWithoutInit`. -/
def telUriAfterScheme (this : Nat) : B Unit := do
  orErr (telNumber this)
  if (← peek) = some 0x3b then do
    skip 1
    let ps ← orErr (uriParams sipUriParamCS (telUriSetKnown this))
    put16 (this + 6) ps
    pure ()
  else pure ()

/-- TelUri.go:143-155 `Parse`, 61-63 `Init`. -/
def telUri (this : Nat) : B Unit := do
  zero this 10
  lift TelUri.parseScheme
  telUriAfterScheme this

end B
end Sip
