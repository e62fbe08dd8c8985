import Verif.Model.Charset
/-!
# C11: the character classes

The specification below transcribes the RFC 3261 (section 25.1), RFC 2396 and RFC 2806 productions; it does not mention the tables.
Every theorem quantifies over all 256 bytes; the proofs evaluate the complete table in the kernel.
-/
namespace Sip

namespace Rfc
/-- `lo ≤ c ≤ hi`, bytes given by their codes. -/
def range (c : UInt8) (lo hi : Nat) : Bool := decide (lo ≤ c.toNat) && decide (c.toNat ≤ hi)
/-- `c` is one of the characters of `s`. -/
def oneOf (c : UInt8) (s : String) : Bool := (str s).contains c

def digit (c : UInt8) := range c 0x30 0x39
def lower (c : UInt8) := range c 0x61 0x7a
def upper (c : UInt8) := range c 0x41 0x5a
def alpha (c : UInt8) := lower c || upper c
def alphanum (c : UInt8) := alpha c || digit c
def hexdig (c : UInt8) := digit c || range c 0x61 0x66 || range c 0x41 0x46
def mark (c : UInt8) := oneOf c "-_.!~*'()"
def unreserved (c : UInt8) := alphanum c || mark c
def reserved (c : UInt8) := oneOf c ";/?:@&=+$,"
/-- token = 1*(alphanum / "-" / "." / "!" / "%" / "*" / "_" / "+" / "`" / "'" / "~") -/
def token (c : UInt8) := alphanum c || oneOf c "-.!%*_+`'~"
def wsp (c : UInt8) := c == 0x20 || c == 0x09
def crlf (c : UInt8) := c == 0x0d || c == 0x0a
/-- separators = "(" / ")" / "<" / ">" / "@" / "," / ";" / ":" / "\" / DQUOTE / "/" / "[" / "]" / "?" / "=" / "{" / "}" / SP / HTAB -/
def separators (c : UInt8) := oneOf c "()<>@,;:\\\"/[]?={}" || wsp c
/-- word = token characters / "(" / ")" / "<" / ">" / ":" / "\" / DQUOTE / "/" / "[" / "]" / "?" / "{" / "}" -/
def word (c : UInt8) := token c || oneOf c "()<>:\\\"/[]?{}"
/-- user = 1*( unreserved / escaped / user-unreserved ), user-unreserved = "&" / "=" / "+" / "$" / "," / ";" / "?" / "/" -/
def user (c : UInt8) := unreserved c || oneOf c "&=+$,;?/"
/-- password = *( unreserved / escaped / "&" / "=" / "+" / "$" / "," ) -/
def password (c : UInt8) := unreserved c || oneOf c "&=+$,"
/-- paramchar = param-unreserved / unreserved / escaped, param-unreserved = "[" / "]" / "/" / ":" / "&" / "+" / "$" -/
def paramchar (c : UInt8) := unreserved c || oneOf c "[]/:&+$"
/-- hname = 1*( hnv-unreserved / unreserved / escaped ), hnv-unreserved = "[" / "]" / "/" / "?" / ":" / "+" / "$" -/
def hnv (c : UInt8) := unreserved c || oneOf c "[]/?:+$"
/-- quoted-pair = "\" (%x00-09 / %x0B-0C / %x0E-7F) -/
def quotedPair (c : UInt8) := range c 0x00 0x09 || range c 0x0b 0x0c || range c 0x0e 0x7f
/-- bytes of UTF8-NONASCII: lead bytes C0-FD and continuation bytes 80-BF -/
def utf8NonAscii (c : UInt8) := range c 0x80 0xfd
/-- qdtext = LWS / %x21 / %x23-5B / %x5D-7E / UTF8-NONASCII -/
def qdtext (c : UInt8) := wsp c || crlf c || c == 0x21 || range c 0x23 0x5b || range c 0x5d 0x7e || utf8NonAscii c
/-- Reason-Phrase = *(reserved / unreserved / escaped / UTF8-NONASCII / UTF8-CONT / SP / HTAB) -/
def reasonPhrase (c : UInt8) := reserved c || unreserved c || utf8NonAscii c || wsp c
/-- TEXT-UTF8char = %x21-7E / UTF8-NONASCII -/
def textUtf8 (c : UInt8) := range c 0x21 0x7e || utf8NonAscii c
def visualSeparator (c : UInt8) := oneOf c "-.()"
def telDigit (c : UInt8) := digit c || visualSeparator c
/-- phonedigit-hex = HEXDIG / "*" / "#" / [ visual-separator ] -/
def telDigitHex (c : UInt8) := hexdig c || oneOf c "*#" || visualSeparator c
def hostname (c : UInt8) := alphanum c || oneOf c "-."
end Rfc

/-- **C11** For all 256 bytes the basic classes are exactly the RFC classes. -/
theorem charset_basic (c : UInt8) :
    isDigit c = Rfc.digit c ∧ isAlpha c = Rfc.alpha c ∧ isLower c = Rfc.lower c ∧ isUpper c = Rfc.upper c ∧
    isAlphanum c = Rfc.alphanum c ∧ isHex c = Rfc.hexdig c ∧
    isLowerHexAlpha c = Rfc.range c 0x61 0x66 ∧ isUpperHexAlpha c = Rfc.range c 0x41 0x46 ∧
    isLowerHex c = (Rfc.digit c || Rfc.range c 0x61 0x66) ∧ isUpperHex c = (Rfc.digit c || Rfc.range c 0x41 0x46) ∧
    isCrlfChar c = Rfc.crlf c ∧ isWspChar c = Rfc.wsp c ∧ isLwsChar c = (Rfc.wsp c || Rfc.crlf c) ∧
    isHostname c = Rfc.hostname c ∧ isUtf8Char c = Rfc.textUtf8 c := by
  revert c; decide +kernel

/-- **C11** URI classes (RFC 2396: uric, uric without slash, pchar, reg-name, scheme; escapes excluded). -/
theorem charset_uri (c : UInt8) :
    isUriUnreserved c = Rfc.unreserved c ∧ isUriReserved c = Rfc.reserved c ∧
    isUriScheme c = (Rfc.alphanum c || Rfc.oneOf c "+-.") ∧
    isUriUric c = (Rfc.reserved c || Rfc.unreserved c) ∧
    isUriUricNoSlash c = (Rfc.unreserved c || Rfc.oneOf c ";?:@&=+$,") ∧
    isUriPchar c = (Rfc.unreserved c || Rfc.oneOf c ":@&=+$,") ∧
    isUriRegName c = (Rfc.unreserved c || Rfc.oneOf c "$,;:@&=+") := by
  revert c; decide +kernel

/-- **C11** SIP classes that agree with RFC 3261 on all 256 bytes. The five classes of `charset_deviations` differ. -/
theorem charset_sip (c : UInt8) :
    isSipToken c = Rfc.token c ∧ isSipUser c = Rfc.user c ∧ isSipPassword c = Rfc.password c ∧
    isSipPname c = Rfc.paramchar c ∧ isSipPvalue c = Rfc.paramchar c ∧
    isSipHname c = Rfc.hnv c ∧ isSipHvalue c = Rfc.hnv c ∧ isSipQuotedPair c = Rfc.quotedPair c ∧
    isTelPhoneDigit c = Rfc.telDigit c ∧ isTelVisualSperator c = Rfc.visualSeparator c ∧
    isTelPname c = (Rfc.alphanum c || Rfc.oneOf c "-") ∧ isTelPvalue c = Rfc.paramchar c := by
  revert c; decide +kernel

/-- **C11, deviations.** The exact set of bytes on which each remaining class differs from the RFC:
`word` lacks "/" (so a Call-ID with a slash is cut there); `separators` lacks "/" and has VT instead of HTAB; `Reason-Phrase` has VT
instead of HTAB; `qdtext` lacks the UTF-8 continuation bytes 80-BF; `phonedigit-hex` lacks "*" and "#". -/
theorem charset_deviations (c : UInt8) :
    (isSipWord c ≠ Rfc.word c ↔ c = 0x2f) ∧
    (isSipSeparators c ≠ Rfc.separators c ↔ c = 0x2f ∨ c = 0x09 ∨ c = 0x0b) ∧
    (isSipReasonPhrase c ≠ Rfc.reasonPhrase c ↔ c = 0x09 ∨ c = 0x0b) ∧
    (isSipQuotedText c ≠ Rfc.qdtext c ↔ Rfc.range c 0x80 0xbf = true) ∧
    (isTelPhoneDigitHex c ≠ Rfc.telDigitHex c ↔ c = 0x2a ∨ c = 0x23) := by
  revert c; decide +kernel

/-- **C11, negation**: the claim "every class equals its RFC set" is false of the code. -/
theorem charset_not_rfc : ¬ (∀ c : UInt8, isSipWord c = Rfc.word c ∧ isSipReasonPhrase c = Rfc.reasonPhrase c) := by
  intro h
  have := (h 0x2f).1
  revert this; decide +kernel

/-- exact set of the comment class (much wider than the RFC ctext: it also admits parentheses and control characters) -/
theorem charset_comment (c : UInt8) :
    isSipComment c = (Rfc.range c 0x00 0x7f || Rfc.range c 0xc0 0xfd) := by
  revert c; decide +kernel

/-- **C11** consequences used by the grammar: which classes overlap.  '%' is a token character but in none of the escapable
URI classes; CR, LF, SP, HTAB, ';', ',', '=', '<', '>' and '"' are not token characters. -/
theorem charset_exclusions :
    isSipUser 0x25 = false ∧ isSipPassword 0x25 = false ∧ isSipPname 0x25 = false ∧ isSipPvalue 0x25 = false ∧
    isSipHname 0x25 = false ∧ isSipHvalue 0x25 = false ∧ isSipToken 0x25 = true ∧
    (∀ c : UInt8, isSipToken c = true → isLwsChar c = false ∧ Rfc.oneOf c ";,=<>\"@:/?&" = false) := by
  decide +kernel

end Sip
