import Verif.Model.Ctx
/-! # Decimal numbers (src/sipparser/AbnfBasic.go:212-318, 776-882) -/
namespace Sip

/-- uint64 reduction (`uint` is 64 bits wide). -/
def u64 (n : Nat) : Nat := n % 18446744073709551616
/-- uint8 reduction. -/
def u8 (n : Nat) : Nat := n % 256

/-- The digit loop of `ParseUInt` (AbnfBasic.go:221-224): `digit = digit*10 + uint(src[newPos]) - '0'` in uint64. -/
def digitLoop : Bytes → Nat → Nat → Nat × Nat
  | [], digit, newPos => (digit, newPos)
  | c :: cs, digit, newPos =>
    if isDigit c then digitLoop cs (u64 (digit * 10 + c.toNat + 18446744073709551616 - 48)) (newPos + 1) else (digit, newPos)

/-- Result of the number parsers. -/
structure NumRes where
  digit : Nat
  num : Nat
  newPos : Nat
  ok : Bool
  deriving DecidableEq, Repr

/-- AbnfBasic.go:212-230 `ParseUInt`. -/
def parseUInt (src : Bytes) (pos : Nat) : NumRes :=
  if pos ≥ src.length ∨ src[pos]?.map isDigit ≠ some true then ⟨0, 0, pos, false⟩ else
  let (digit, newPos) := digitLoop (src.drop pos) 0 pos
  ⟨digit, u32 (newPos - pos), newPos, true⟩

/-- AbnfBasic.go:260-278 `ParseUInt32`: `uint32(digit1)`. -/
def parseUInt32 (src : Bytes) (pos : Nat) : NumRes :=
  let r := parseUInt src pos
  { r with digit := u32 r.digit }
/-- AbnfBasic.go:280-298 `ParseUInt16`: `uint16(digit1)`. -/
def parseUInt16 (src : Bytes) (pos : Nat) : NumRes :=
  let r := parseUInt src pos
  { r with digit := u16 r.digit }
/-- AbnfBasic.go:300-318 `ParseUInt8`: `uint8(digit1)`. -/
def parseUInt8 (src : Bytes) (pos : Nat) : NumRes :=
  let r := parseUInt src pos
  { r with digit := u8 r.digit }

/-- AbnfBasic.go:232-258 `ParseUInt_2`: the same on the context; on success the position moves. -/
def Ctx.parseUInt2 (c : Ctx) : Option Nat × Ctx :=
  let r := parseUInt c.src c.pos
  if r.ok then (some r.digit, c.setPos r.newPos) else (none, c)

/-- The digit producing loop of `EncodeUInt` (AbnfBasic.go:804-809): `val[num] = '0' + byte(mod-digit*10)`, filled from the right. -/
def encLoop (digit : Nat) (acc : Bytes) : Bytes :=
  if h : digit = 0 then acc
  else
    have : digit / 10 < digit := Nat.div_lt_self (Nat.pos_of_ne_zero h) (by decide)
    encLoop (digit / 10) (UInt8.ofNat (48 + (digit - digit / 10 * 10)) :: acc)

/-- AbnfBasic.go:796-812 `EncodeUInt`, 841-856 `EncodeUInt32`, 776-794 `EncodeUInt2` (the same text with another buffer size or filled
from the left).  The index into the fixed buffers cannot overflow: `encodeUInt_length`. -/
def encodeUInt (digit : Nat) : Bytes :=
  if digit = 0 then [0x30] else encLoop digit []

/-- AbnfBasic.go:814-839 `EncodeUIntWithWidth`, 858-882 `EncodeUInt32WithWidth`: padded with spaces on the left. -/
def encodeUIntWithWidth (digit : Nat) (width : Int) : Bytes :=
  if digit = 0 then List.replicate (width - 1).toNat 0x20 ++ [0x30]
  else
    let val := encLoop digit []
    List.replicate (width - (val.length : Int)).toNat 0x20 ++ val

end Sip
