import Verif.Model.Lws
/-!
# String scanning at the value layer

The `MemAllocator.ParseAndAlloc...` functions (src/sipparser/AbnfMem.go:134-693) with the stored string as a value.
The memory accounting is exact: a string of `n` bytes costs `n + 2`, a write at an index `≥ cap` panics, and the "no mem" tests are the ones
of the code.  `Verif/Model/ArenaStr.lean` has the same functions on bytes; `Verif/Props/Store.lean` relates the two.
Applies to arenas of at most 65536 bytes (16 bit pointers and lengths).
-/
namespace Sip

/-- goutil `chars.UnescapeToByteEx` on one hex digit (external package; called only on hex digits). -/
def hexVal (c : UInt8) : UInt8 :=
  if 48 ≤ c.toNat ∧ c.toNat ≤ 57 then c - 48
  else if 97 ≤ c.toNat ∧ c.toNat ≤ 102 then c - 87
  else c - 55
/-- goutil `chars.UnescapeToByteEx(hi, lo)` (external package). -/
def unescapeByte (hi lo : UInt8) : UInt8 := hexVal hi * 16 + hexVal lo
/-- goutil `chars.ToUpperHex` (external package): upper case hex digit of the low nibble. -/
def toUpperHex (v : UInt8) : UInt8 :=
  let n := v &&& 0x0f
  if n < 10 then 48 + n else 55 + n
/-- goutil `chars.ToLower` (external package). -/
def toLower (c : UInt8) : UInt8 := if 65 ≤ c.toNat ∧ c.toNat ≤ 90 then c + 32 else c

/-- AbnfMem.go:134-177 `ParseAndAllocCString`. -/
def parseStr (s : CS) (c : Ctx) : Out (Option Bytes × Ctx) :=
  let run := c.rest.takeWhile s.mem
  let used := c.used + 2
  if used ≥ c.cap then .ok (none, c.addError c.pos) else
  if used + run.length > c.cap then .panic else
  let newPos := c.pos + run.length
  if newPos ≤ c.pos then .ok (none, c.addError newPos) else
  if used + run.length ≥ c.cap then .ok (none, c.addError newPos) else
  .ok (some run, { c with used := used + run.length, pos := newPos })

/-- AbnfMem.go:300-338 `ParseAndAllocCStringEnableEmpty`. -/
def parseStrEnableEmpty (s : CS) (c : Ctx) : Out (Option Bytes × Ctx) :=
  let run := c.rest.takeWhile s.mem
  let used := c.used + 2
  if used ≥ c.cap then .ok (none, c.addError c.pos) else
  if used + run.length > c.cap then .panic else
  let newPos := c.pos + run.length
  if used + run.length ≥ c.cap then .ok (none, c.addError newPos) else
  .ok (some run, { c with used := used + run.length, pos := newPos })

/-- AbnfMem.go:237-298 `ParseAndAllocCStringFromPos(pos)`: the bytes from the parse position up to `pos` are taken unconditionally, then a
run of the set.  (`pos ≤ len(src)`; the Go copy loop would panic otherwise.) -/
def parseStrFromPos (s : CS) (pos : Nat) (c : Ctx) : Out (Option Bytes × Ctx) :=
  let used := c.used + 2
  let head := (c.src.drop c.pos).take (pos - c.pos)
  if c.pos < pos ∧ (pos - c.pos) + used ≥ c.cap then .ok (none, c.addError c.pos) else
  if c.pos < pos ∧ pos > c.src.length then .panic else
  let start := max c.pos pos
  let used := used + (start - c.pos)
  if used ≥ c.cap then .ok (none, (c.setPos start).addError start) else
  let run := (c.src.drop start).takeWhile s.mem
  if used + run.length > c.cap then .panic else
  let newPos := start + run.length
  if newPos ≤ c.pos then .ok (none, (c.setPos newPos).addError newPos) else
  if used + run.length ≥ c.cap then .ok (none, (c.setPos newPos).addError newPos) else
  .ok (some (head ++ run), { c with used := used + run.length, pos := newPos })

/-- Outcome of the unescaping scan loop. -/
inductive Scan where
  | stop (newPos used : Nat) (out : Bytes)
  | panic
  | noMem (pos : Nat)
  | bad (pos : Nat)
  deriving DecidableEq, Repr

/-- The loop of AbnfMem.go:352-434 / 468-533 (`ParseAndAllocCStringEscapable[EnableEmpty]`); the list is what is left of the input at
`newPos`, `out` what has been stored so far. -/
def escLoop (s : CS) (cap : Nat) : Bytes → Nat → Nat → Bytes → Scan
  | [], newPos, used, out => .stop newPos used out
  | v :: r, newPos, used, out =>
    if s.mem v then
      if used ≥ cap then .panic else escLoop s cap r (newPos + 1) (used + 1) (out ++ [v])
    else if v ≠ 0x25 then .stop newPos used out
    else match r with
      | v1 :: v2 :: r' =>
        if !isHex v1 || !isHex v2 then .bad newPos
        else if used ≥ cap then .noMem newPos
        else escLoop s cap r' (newPos + 3) (used + 1) (out ++ [unescapeByte v1 v2])
      | _ => .bad newPos

/-- AbnfMem.go:340-454 `ParseAndAllocCStringEscapable`. -/
def parseStrEscapable (s : CS) (c : Ctx) : Out (Option Bytes × Ctx) :=
  if c.used + 2 ≥ c.cap then .ok (none, c.addError c.pos) else
  match escLoop s c.cap c.rest c.pos (c.used + 2) [] with
  | .panic => .panic
  | .noMem p => .ok (none, c.addError p)
  | .bad p => .ok (none, (c.setPos p).addError p)
  | .stop p u out =>
    if p ≤ c.pos then .ok (none, c.addError p) else
    if u ≥ c.cap then .ok (none, c.addError p) else
    .ok (some out, { c with pos := p, used := u })

/-- AbnfMem.go:456-554 `ParseAndAllocCStringEscapableEnableEmpty`. -/
def parseStrEscapableEnableEmpty (s : CS) (c : Ctx) : Out (Option Bytes × Ctx) :=
  if c.used + 2 ≥ c.cap then .ok (none, c.addError c.pos) else
  match escLoop s c.cap c.rest c.pos (c.used + 2) [] with
  | .panic => .panic
  | .noMem p => .ok (none, c.addError p)
  | .bad p => .ok (none, (c.setPos p).addError p)
  | .stop p u out =>
    if u ≥ c.cap then .ok (none, c.addError p) else
    .ok (some out, { c with pos := p, used := u })

/-- AbnfMem.go:179-235 `ParseAndAllocTelNumberRemoveVisualSeperator`.  The `+` is consumed (`context.parsePos++`) before the digits. -/
def parseTelNumber (s : CS) (c : Ctx) : Out (Option Bytes × Ctx) :=
  let used := c.used + 2
  if used ≥ c.cap then .ok (none, c.addError c.pos) else
  let plus : Bytes := if c.cur? = some 0x2b then [0x2b] else []
  let start := c.pos + plus.length
  let run := (c.src.drop start).takeWhile s.mem
  let ds := run.filter fun v => !isTelVisualSperator v
  let newPos := start + run.length
  if used + plus.length + ds.length > c.cap then .panic else
  if ds.length = 0 then .ok (none, (c.setPos newPos).addError newPos) else
  if used + plus.length + ds.length ≥ c.cap then .ok (none, (c.setPos newPos).addError newPos) else
  .ok (some (plus ++ ds), { c with pos := newPos, used := used + plus.length + ds.length })

/-- AbnfMem.go:641-693 `ParseAndCopyLWS`: (ok, new position, new used, bytes stored).  A CRLF is stored as CR CR, as in the code. -/
def copyLWS (src : Bytes) (cap pos used : Nat) : Out (Bool × Nat × Nat × Bytes) :=
  let run := (src.drop pos).takeWhile isSpHtab
  let newPos := pos + run.length
  if used + run.length > cap ∧ run ≠ [] then .panic else
  let used := used + run.length
  if newPos + 1 ≥ src.length then .ok (true, newPos, used, run) else
  if src[newPos]? = some 0x0d ∧ src[newPos + 1]? = some 0x0a then
    if used + 1 ≥ cap then .panic else
    let newPos := newPos + 2
    let used := used + 2
    let out := run ++ [0x0d, 0x0d]
    if newPos ≥ src.length then .ok (false, newPos, used, out) else
    if (src[newPos]?.map isSpHtab) ≠ some true then .ok (false, newPos, used, out) else
    let run2 := (src.drop newPos).takeWhile isSpHtab
    if used + run2.length > cap then .panic else
    .ok (true, newPos + run2.length, used + run2.length, out ++ run2)
  else .ok (true, newPos, used, run)

/-- The loop of AbnfMem.go:587-620.  `newPos`, `used` are the local variables, `c.used` the allocator mark (moved by the LWS branch). -/
def quotedLoop : Nat → Ctx → Nat → Nat → Bytes → Out (Option (Nat × Nat × Bytes) × Ctx)
  | 0, _, _, _, _ => .hang
  | fuel + 1, c, newPos, used, out =>
    match c.src[newPos]? with
    | none => .ok (none, (c.setPos newPos).addError newPos)
    | some v =>
      if v = 0x22 then .ok (some (newPos, used, out), c) else
      if isLwsChar v then
        match copyLWS c.src c.cap newPos used with
        | .panic => .panic
        | .hang => .hang
        | .ok (ok, p, u, o) =>
          let c := { c with pos := p, used := u }
          if !ok then .ok (none, c.addError p) else quotedLoop fuel c p u (out ++ o)
      else if isSipQuotedText v then
        if used ≥ c.cap then .panic else quotedLoop fuel c (newPos + 1) (used + 1) (out ++ [v])
      else if v = 0x5c then
        match c.src[newPos + 1]? with
        | none => .ok (none, (c.setPos newPos).addError newPos)
        | some w => if used + 1 ≥ c.cap then .panic else quotedLoop fuel c (newPos + 2) (used + 2) (out ++ [v, w])
      else .ok (none, (c.setPos newPos).addError newPos)

/-- AbnfMem.go:566-639 `ParseAndAllocSipQuotedString`.  `src[newPos]` after the white space is read without a bounds check; the length
prefix is written at the end (panics if the two bytes are out of range). -/
def parseQuoted (fuel : Nat) (c : Ctx) : Out (Option Bytes × Ctx) :=
  let newPos := parseSWS c.src c.pos
  match c.src[newPos]? with
  | none => .panic
  | some v =>
    if v ≠ 0x22 then .ok (none, (c.setPos newPos).addError newPos) else
    match quotedLoop fuel c (newPos + 1) (c.used + 2) [] with
    | .panic => .panic
    | .hang => .hang
    | .ok (none, d) => .ok (none, d)
    | .ok (some (p, u, out), d) =>
      if c.used + 2 > c.cap then .panic else
      .ok (some out, { d with pos := p + 1, used := u })

/-- AbnfBasic.go:72-93 `AllocCString` (value layer): nil when `len+2` bytes are not available. -/
def allocStr (buf : Bytes) (c : Ctx) : Option Bytes × Ctx :=
  if c.used + (buf.length + 2) > c.cap then (none, c)
  else (some buf, { c with used := c.used + (buf.length + 2) })

/-- AbnfPtr.go:190-210 `WriteCStringEscape` for one byte. -/
def escapeByte (s : CS) (v : UInt8) : Bytes :=
  if s.mem v then [v] else [0x25, toUpperHex (v >>> 4), toUpperHex v]

/-- AbnfPtr.go:190-210 `WriteCStringEscape` (of a non-nil pointer). -/
def escapeStr (s : CS) (b : Bytes) : Bytes := b.flatMap (escapeByte s)

/-- AbnfPtr.go:182-188 `WriteCString`: nil writes nothing. -/
def writeStr (p : Option Bytes) : Bytes := p.getD []

/-- AbnfPtr.go:190-210 `WriteCStringEscape`: nil writes nothing. -/
def writeStrEscape (s : CS) (p : Option Bytes) : Bytes :=
  match p with
  | none => []
  | some b => escapeStr s b

/-- AbnfPtr.go:93-133 `CStringEqualNoCase` on the stored bytes: after the length test the first loops skip equal bytes, from the first
difference on bytes are compared after `ToLower`. -/
def eqNoCaseTail : Bytes → Bytes → Bool
  | a :: as, b :: bs => if toLower a ≠ toLower b then false else eqNoCaseTail as bs
  | _, _ => true
/-- the exact-match prefix loops (AbnfPtr.go:109-125; the 8 byte steps of 109-115 skip only bytes that the byte loop would skip too) -/
def eqNoCaseLoop : Bytes → Bytes → Bool
  | a :: as, b :: bs => if a ≠ b then eqNoCaseTail (a :: as) (b :: bs) else eqNoCaseLoop as bs
  | _, _ => true
/-- AbnfPtr.go:93-133 `CStringEqualNoCase`; nil is equal to nothing. -/
def strEqNoCase (p : Option Bytes) (name : Bytes) : Bool :=
  match p with
  | none => false
  | some b => if name.length ≠ b.length then false else eqNoCaseLoop b name

/-- AbnfPtr.go:66-75 `HasPrefixNoCase` (via goutil `chars.EqualNoCase` on the prefix). -/
def strHasPrefixNoCase (p : Bytes) (pre : Bytes) : Bool :=
  if p.length < pre.length then false else (p.take pre.length).map toLower == pre.map toLower

end Sip
