import Verif.Model.Ctx
/-! # White space, separators and CRLF (src/sipparser/AbnfBasic.go:320-766) -/
namespace Sip

/-- The comparison `c == ' ' || c == '\t'` used inline in AbnfBasic.go. -/
def isSpHtab (c : UInt8) : Bool := c == 0x20 || c == 0x09

/-- AbnfBasic.go:541-579 `ParseLWS` and 581-620 `ParseLWS_2` (same text, one works on the context): new position and ok. -/
def parseLWS (src : Bytes) (pos : Nat) : Nat × Bool :=
  let newPos := skipWhile isSpHtab src pos
  if newPos + 1 ≥ src.length then (newPos, true) else
  if src[newPos]? = some 0x0d ∧ src[newPos + 1]? = some 0x0a then
    let newPos := newPos + 2
    if newPos ≥ src.length then (newPos, false) else
    if (src[newPos]?.map isSpHtab) ≠ some true then (newPos, false) else
    (skipWhile isSpHtab src newPos, true)
  else (newPos, true)

/-- AbnfBasic.go:503-522 `ParseSWS` (its `ok` result is always true). -/
def parseSWS (src : Bytes) (pos : Nat) : Nat :=
  if pos ≥ src.length then pos else
  if (src[pos]?.map isLwsChar) ≠ some true then pos else
  match parseLWS src pos with
  | (newPos1, true) => newPos1
  | (_, false) => pos

/-- AbnfBasic.go:482-501 `ParseSWS_2` (its `ok` result is always true): on failure of LWS the position is restored. -/
def Ctx.sws (c : Ctx) : Ctx :=
  if c.pos ≥ c.src.length then c else
  if (c.src[c.pos]?.map isLwsChar) ≠ some true then c else
  match parseLWS c.src c.pos with
  | (newPos, true) => c.setPos newPos
  | (_, false) => c

/-- AbnfBasic.go:622-630 `eatWsp`. -/
def eatWsp (src : Bytes) (pos : Nat) : Nat := skipWhile isWspChar src pos

/-- AbnfBasic.go:324-350 `ParseHcolon`. -/
def parseHcolon (c : Ctx) : Bool × Ctx :=
  let newPos := skipWhile isWspChar c.src c.pos
  if newPos ≥ c.src.length then (false, (c.setPos newPos).addError newPos) else
  if c.src[newPos]? ≠ some 0x3a then (false, (c.setPos newPos).addError newPos) else
  (true, (c.setPos (newPos + 1)).sws)

/-- AbnfBasic.go:379-399 `ParseSWSMarkCanOmmit`: (matchMark, ok). -/
def parseSWSMarkCanOmmit (c : Ctx) (mark : UInt8) : (Bool × Bool) × Ctx :=
  let c := c.sws
  if c.pos ≥ c.src.length then ((false, false), c.addError c.pos) else
  if c.src[c.pos]? ≠ some mark then ((false, true), c) else
  ((true, true), (c.adv 1).sws)

/-- AbnfBasic.go:432-453 `ParseSWSMark`. -/
def parseSWSMark (c : Ctx) (mark : UInt8) : Bool × Ctx :=
  let c := c.sws
  if c.pos ≥ c.src.length then (false, c.addError c.pos) else
  if c.src[c.pos]? ≠ some mark then (false, c.addError c.pos) else
  (true, (c.adv 1).sws)

/-- AbnfBasic.go:637-663 `ParseLeftAngleQuote`. -/
def parseLeftAngleQuote (c : Ctx) : Bool × Ctx :=
  if c.pos ≥ c.src.length then (false, c.addError c.pos) else
  let c := c.sws
  if c.pos ≥ c.src.length then (false, c.addError c.pos) else
  if c.src[c.pos]? ≠ some 0x3c then (false, c.addError c.pos) else
  (true, c.adv 1)

/-- AbnfBasic.go:703-719 `ParseRightAngleQuote`. -/
def parseRightAngleQuote (c : Ctx) : Bool × Ctx :=
  if c.pos ≥ c.src.length then (false, c.addError c.pos) else
  if c.src[c.pos]? ≠ some 0x3e then (false, c.addError c.pos) else
  (true, (c.adv 1).sws)

/-- AbnfBasic.go:742-744 `IsCRLF`. -/
def isCRLF (src : Bytes) (pos : Nat) : Bool :=
  decide (pos + 1 < src.length) && decide (src[pos]? = some 0x0d) && decide (src[pos + 1]? = some 0x0a)

/-- AbnfBasic.go:750-756 `IsOnlyCRLF`. -/
def isOnlyCRLF (src : Bytes) (pos : Nat) : Bool :=
  if pos + 2 < src.length then
    decide (src[pos]? = some 0x0d) && decide (src[pos + 1]? = some 0x0a) && (src[pos + 2]?.map isWspChar != some true)
  else decide (pos + 2 = src.length) && decide (src[pos]? = some 0x0d) && decide (src[pos + 1]? = some 0x0a)

/-- AbnfBasic.go:758-766 `ParseCRLF` (records no error). -/
def parseCRLF (c : Ctx) : Bool × Ctx :=
  if c.pos + 1 < c.src.length ∧ c.src[c.pos]? = some 0x0d ∧ c.src[c.pos + 1]? = some 0x0a then (true, c.adv 2)
  else (false, c)

end Sip
