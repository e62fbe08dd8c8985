import Verif.Model.Parser
/-! # SIP-Version and host/port (src/sipparser/SipVersion.go, SipHostPort.go) -/
namespace Sip

/-! ## SIP-Version -/

/-- SipVersion.go:12-14: the tagged value `SIP_VERSION_2_0` or a pointer to the text `major.minor`. -/
inductive Version where
  | v20
  | other (s : Bytes)
  deriving DecidableEq, Repr

/-- SipVersion.go:36-43 `Encode`. -/
def Version.encode : Version → Bytes
  | .v20 => str "SIP/2.0"
  | .other s => str "SIP/" ++ s

/-- SipVersion.go:103-118 `ParseStart`. -/
def Version.parseStart : P Unit := fun c =>
  if c.pos + 6 ≥ c.src.length then .ok (none, c) else
  match c.src[c.pos]?, c.src[c.pos + 1]?, c.src[c.pos + 2]?, c.src[c.pos + 3]? with
  | some a, some b, some d, some e =>
    if a ||| 0x20 ≠ 0x73 ∨ b ||| 0x20 ≠ 0x69 ∨ d ||| 0x20 ≠ 0x70 ∨ e ≠ 0x2f then .ok (none, c) else .ok (some (), c.adv 4)
  | _, _, _, _ => .panic

/-- SipVersion.go:73-100: the part of `ParseAfterStart` behind the fast path for `2.0`. -/
def Version.parseMajorMinor : P Version := fun c =>
  let newPos := skipWhile isDigit c.src c.pos
  if newPos ≤ c.pos then .ok (none, c.addError c.pos) else
  match c.src[newPos]? with
  | none => .panic
  | some d =>
    if d ≠ 0x2e then .ok (none, (c.setPos newPos).addError newPos) else
    let minorStart := newPos + 1
    match parseStrFromPos csDigit minorStart c with
    | .ok (some s, c) => if c.pos ≤ minorStart then .ok (none, c.addError c.pos) else .ok (some (.other s), c)
    | .ok (none, c) => .ok (none, c.addError c.pos)
    | .panic => .panic
    | .hang => .hang

/-- SipVersion.go:59-101 `ParseAfterStart`; the first three bytes are read without a bounds check, with `&&` in between. -/
def Version.parseAfterStart : P Version := do
  let b0 ← P.byteAt 0
  if b0 ≠ 0x32 then Version.parseMajorMinor else do
  let b1 ← P.byteAt 1
  if b1 ≠ 0x2e then Version.parseMajorMinor else do
  let b2 ← P.byteAt 2
  if b2 ≠ 0x30 then Version.parseMajorMinor else do
  let c ← P.get
  if (c.src[c.pos + 3]?.map isDigit) = some true then Version.parseMajorMinor else do
  P.skip 3
  pure .v20

/-- SipVersion.go:49-57 `Parse`. -/
def Version.parse : P Version := do
  P.orErr Version.parseStart
  Version.parseAfterStart

/-! ## Host and port -/

/-- The two functions of package net the code calls (outside the repository): `net.ParseIP` (16 byte result) and `net.IP.String`. -/
structure Net where
  parseIP : Bytes → Option Bytes
  ipString : Bytes → Bytes

/-- SipHostPort.go:9-21: the kind of host and its data. -/
inductive Host where
  | unknown
  | ipv4 (a b c d : UInt8)
  | ipv6 (ip : Bytes)
  | name (s : Bytes)
  deriving DecidableEq, Repr

/-- SipHostPort.go:16-21 `SipHostPort`; the Go fields `hasPort`, `port` are the option. -/
structure HostPort where
  host : Host := .unknown
  port : Option Nat := none
  deriving DecidableEq, Repr

/-- SipHostPort.go:104-126 `WriteByteAsString`, in uint8 arithmetic. -/
def writeByteAsString (v : UInt8) : Bytes :=
  if v = 0 then [0x30] else
  let x2 := v / 10
  let x1 := v - x2 * 10
  let x3 := x2 / 10
  let x2 := x2 - x3 * 10
  (if x3 ≠ 0 then [0x30 + x3, 0x30 + x2] else if x2 ≠ 0 then [0x30 + x2] else []) ++ [0x30 + x1]

/-- SipHostPort.go:63-102 `EncodeHost`, `WriteIpv4AsString`. -/
def Host.encode (net : Net) : Host → Bytes
  | .ipv4 a b c d => writeByteAsString a ++ [0x2e] ++ writeByteAsString b ++ [0x2e] ++ writeByteAsString c ++ [0x2e] ++ writeByteAsString d
  | .ipv6 ip => [0x5b] ++ net.ipString ip ++ [0x5d]
  | .name s => s
  | .unknown => str "unknown host"

/-- SipHostPort.go:55-61 `Encode`. -/
def HostPort.encode (net : Net) (h : HostPort) : Bytes :=
  h.host.encode net ++ (match h.port with
    | some p => 0x3a :: encodeUInt p
    | none => [])

/-- SipHostPort.go:248-268: the loop of `parseIpv4` for the remaining parts (`num = 1, 2, 3`).  Returns the bytes and the position, or the position
at which it gave up. -/
def ipv4Loop (src : Bytes) : Nat → Nat → List UInt8 → Option (List UInt8) × Nat
  | 0, newPos, acc => (some acc, newPos)
  | k + 1, newPos, acc =>
    match src[newPos]? with
    | none => (none, newPos)
    | some d =>
      if d ≠ 0x2e then (none, newPos) else
      let r := parseUInt src (newPos + 1)
      if !r.ok || decide (r.digit > 0xff) then (none, r.newPos) else
      ipv4Loop src k r.newPos (acc ++ [UInt8.ofNat r.digit])

/-- SipHostPort.go:229-277 `parseIpv4`: the address and the position. -/
def parseIpv4 (src : Bytes) (pos : Nat) : Option (List UInt8) × Nat :=
  if pos ≥ src.length then (none, pos) else
  let r := parseUInt src pos
  if !r.ok || decide (r.digit > 0xff) then (none, r.newPos) else
  match ipv4Loop src 3 r.newPos [UInt8.ofNat r.digit] with
  | (none, p) => (none, p)
  | (some ip, p) => if (src[p]?.map isHostname) = some true then (none, p) else (some ip, p)

/-- SipHostPort.go:279-285 `parseHostname`. -/
def parseHostname : P Host := do
  let s ← P.str csHostname
  pure (.name s)

/-- SipHostPort.go:200-227 `parseIpv6` (after the `[`), with `SetIpv6` (346-376). -/
def parseIpv6 (net : Net) : P Host := fun c =>
  let p := skipWhile (· ≠ 0x5d) c.src c.pos
  let text := (c.src.drop c.pos).take (p - c.pos)
  let c := c.setPos p
  if p ≥ c.src.length then .ok (none, c.addError p) else
  match net.parseIP text with
  | none => .ok (none, c.addError p)
  | some ip =>
    match c.alloc 16 with
    | (false, c) => .ok (none, c.addError p)
    | (true, c) => .ok (some (.ipv6 ip), c.adv 1)

/-- SipHostPort.go:168-198 `ParseHost`, with `SetIpv4` (315-344). -/
def parseHost (net : Net) : P Host := fun c =>
  match c.cur? with
  | none => .ok (none, c.addError c.pos)
  | some v =>
    if v = 0x5b then parseIpv6 net (c.adv 1) else
    if isAlpha v then parseHostname c else
    match parseIpv4 c.src c.pos with
    | (none, _) => parseHostname c
    | (some ip, p) =>
      match (c.setPos p).alloc 4 with
      | (false, c) => .ok (none, c.addError p)
      | (true, c) =>
        match ip with
        | [a, b, d, e] => .ok (some (.ipv4 a b d e), c)
        | _ => .panic

/-- SipHostPort.go:133-166 `ParseWithoutInit`: the port is kept in 16 bits after the range check on 64 bits. -/
def HostPort.parse (net : Net) : P HostPort := do
  let h ← P.orErr (parseHost net)
  match ← P.peek with
  | some 0x3a => do
    P.skip 1
    let c ← P.get
    let r := parseUInt c.src c.pos
    P.set (c.setPos r.newPos)
    if !r.ok then P.err else
    if r.digit > 0xffff then P.err else
    pure ⟨h, some (u16 r.digit)⟩
  | _ => pure ⟨h, none⟩

end Sip
