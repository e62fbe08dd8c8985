import Verif.Model.Core
import Verif.Model.CharsetTable
/-! # Character sets (src/sipparser/AbnfCharset.go) -/
namespace Sip

/-- A character set as the Go code passes it around: table index and mask. -/
structure CS where
  idx : Nat
  mask : Nat
  deriving DecidableEq, Repr

/-- AbnfCharset.go:3 `g_charsets[idx]` (idx is 0 or 1 in the whole code base). -/
def charsetTable (idx : Nat) : List Nat := if idx = 0 then charsetTable0 else charsetTable1

/-- The test `g_charsets[idx][c] & mask != 0`. -/
def CS.mem (s : CS) (c : UInt8) : Bool := (charsetTable s.idx).getD c.toNat 0 &&& s.mask != 0

/-- AbnfCharset.go:566 `ABNF_CHARSET_MASK_DIGIT` with table 0. -/
def csDigit : CS := ⟨0, 0x00000001⟩
/-- AbnfCharset.go:608-610 `IsDigit`. -/
def isDigit (c : UInt8) : Bool := csDigit.mem c
/-- AbnfCharset.go:567 `ABNF_CHARSET_MASK_ALPHA` with table 0. -/
def csAlpha : CS := ⟨0, 0x00000002⟩
/-- AbnfCharset.go:612-614 `IsAlpha`. -/
def isAlpha (c : UInt8) : Bool := csAlpha.mem c
/-- AbnfCharset.go:568 `ABNF_CHARSET_MASK_LOWER` with table 0. -/
def csLower : CS := ⟨0, 0x00000004⟩
/-- AbnfCharset.go:616-618 `IsLower`. -/
def isLower (c : UInt8) : Bool := csLower.mem c
/-- AbnfCharset.go:569 `ABNF_CHARSET_MASK_UPPER` with table 0. -/
def csUpper : CS := ⟨0, 0x00000008⟩
/-- AbnfCharset.go:620-622 `IsUpper`. -/
def isUpper (c : UInt8) : Bool := csUpper.mem c
/-- AbnfCharset.go:570 `ABNF_CHARSET_MASK_ALPHANUM` with table 0. -/
def csAlphanum : CS := ⟨0, 0x00000010⟩
/-- AbnfCharset.go:624-626 `IsAlphanum`. -/
def isAlphanum (c : UInt8) : Bool := csAlphanum.mem c
/-- AbnfCharset.go:571 `ABNF_CHARSET_MASK_LOWER_HEX_ALPHA` with table 0. -/
def csLowerHexAlpha : CS := ⟨0, 0x00000020⟩
/-- AbnfCharset.go:628-630 `IsLowerHexAlpha`. -/
def isLowerHexAlpha (c : UInt8) : Bool := csLowerHexAlpha.mem c
/-- AbnfCharset.go:572 `ABNF_CHARSET_MASK_UPPER_HEX_ALPHA` with table 0. -/
def csUpperHexAlpha : CS := ⟨0, 0x00000040⟩
/-- AbnfCharset.go:632-634 `IsUpperHexAlpha`. -/
def isUpperHexAlpha (c : UInt8) : Bool := csUpperHexAlpha.mem c
/-- AbnfCharset.go:573 `ABNF_CHARSET_MASK_LOWER_HEX` with table 0. -/
def csLowerHex : CS := ⟨0, 0x00000080⟩
/-- AbnfCharset.go:636-638 `IsLowerHex`. -/
def isLowerHex (c : UInt8) : Bool := csLowerHex.mem c
/-- AbnfCharset.go:574 `ABNF_CHARSET_MASK_UPPER_HEX` with table 0. -/
def csUpperHex : CS := ⟨0, 0x00000100⟩
/-- AbnfCharset.go:640-642 `IsUpperHex`. -/
def isUpperHex (c : UInt8) : Bool := csUpperHex.mem c
/-- AbnfCharset.go:575 `ABNF_CHARSET_MASK_HEX` with table 0. -/
def csHex : CS := ⟨0, 0x00000200⟩
/-- AbnfCharset.go:644-646 `IsHex`. -/
def isHex (c : UInt8) : Bool := csHex.mem c
/-- AbnfCharset.go:576 `ABNF_CHARSET_MASK_CRLF_CHAR` with table 0. -/
def csCrlfChar : CS := ⟨0, 0x00000400⟩
/-- AbnfCharset.go:648-650 `IsCrlfChar`. -/
def isCrlfChar (c : UInt8) : Bool := csCrlfChar.mem c
/-- AbnfCharset.go:577 `ABNF_CHARSET_MASK_WSP_CHAR` with table 0. -/
def csWspChar : CS := ⟨0, 0x00000800⟩
/-- AbnfCharset.go:652-654 `IsWspChar`. -/
def isWspChar (c : UInt8) : Bool := csWspChar.mem c
/-- AbnfCharset.go:578 `ABNF_CHARSET_MASK_LWS_CHAR` with table 0. -/
def csLwsChar : CS := ⟨0, 0x00001000⟩
/-- AbnfCharset.go:656-658 `IsLwsChar`. -/
def isLwsChar (c : UInt8) : Bool := csLwsChar.mem c
/-- AbnfCharset.go:579 `ABNF_CHARSET_MASK_UTF8_CHAR` with table 0. -/
def csUtf8Char : CS := ⟨0, 0x00002000⟩
/-- AbnfCharset.go:660-662 `IsUtf8Char`. -/
def isUtf8Char (c : UInt8) : Bool := csUtf8Char.mem c
/-- AbnfCharset.go:580 `ABNF_CHARSET_MASK_HOSTNAME` with table 0. -/
def csHostname : CS := ⟨0, 0x00004000⟩
/-- AbnfCharset.go:664-666 `IsHostname`. -/
def isHostname (c : UInt8) : Bool := csHostname.mem c
/-- AbnfCharset.go:581 `ABNF_CHARSET_MASK_URI_UNRESERVED` with table 0. -/
def csUriUnreserved : CS := ⟨0, 0x00008000⟩
/-- AbnfCharset.go:668-670 `IsUriUnreserved`. -/
def isUriUnreserved (c : UInt8) : Bool := csUriUnreserved.mem c
/-- AbnfCharset.go:582 `ABNF_CHARSET_MASK_URI_RESERVED` with table 0. -/
def csUriReserved : CS := ⟨0, 0x00010000⟩
/-- AbnfCharset.go:672-674 `IsUriReserved`. -/
def isUriReserved (c : UInt8) : Bool := csUriReserved.mem c
/-- AbnfCharset.go:583 `ABNF_CHARSET_MASK_URI_SCHEME` with table 0. -/
def csUriScheme : CS := ⟨0, 0x00020000⟩
/-- AbnfCharset.go:676-678 `IsUriScheme`. -/
def isUriScheme (c : UInt8) : Bool := csUriScheme.mem c
/-- AbnfCharset.go:584 `ABNF_CHARSET_MASK_URI_URIC` with table 0. -/
def csUriUric : CS := ⟨0, 0x00040000⟩
/-- AbnfCharset.go:680-682 `IsUriUric`. -/
def isUriUric (c : UInt8) : Bool := csUriUric.mem c
/-- AbnfCharset.go:585 `ABNF_CHARSET_MASK_URI_URIC_NO_SLASH` with table 0. -/
def csUriUricNoSlash : CS := ⟨0, 0x00080000⟩
/-- AbnfCharset.go:683-685 `IsUriUricNoSlash`. -/
def isUriUricNoSlash (c : UInt8) : Bool := csUriUricNoSlash.mem c
/-- AbnfCharset.go:586 `ABNF_CHARSET_MASK_URI_PCHAR` with table 0. -/
def csUriPchar : CS := ⟨0, 0x00100000⟩
/-- AbnfCharset.go:687-689 `IsUriPchar`. -/
def isUriPchar (c : UInt8) : Bool := csUriPchar.mem c
/-- AbnfCharset.go:587 `ABNF_CHARSET_MASK_URI_REG_NAME` with table 0. -/
def csUriRegName : CS := ⟨0, 0x00200000⟩
/-- AbnfCharset.go:691-693 `IsUriRegName`. -/
def isUriRegName (c : UInt8) : Bool := csUriRegName.mem c
/-- AbnfCharset.go:588 `ABNF_CHARSET_MASK_SIP_TOKEN` with table 0. -/
def csSipToken : CS := ⟨0, 0x00400000⟩
/-- AbnfCharset.go:695-697 `IsSipToken`. -/
def isSipToken (c : UInt8) : Bool := csSipToken.mem c
/-- AbnfCharset.go:589 `ABNF_CHARSET_MASK_SIP_SEPARATORS` with table 0. -/
def csSipSeparators : CS := ⟨0, 0x00800000⟩
/-- AbnfCharset.go:698-700 `IsSipSeparators`. -/
def isSipSeparators (c : UInt8) : Bool := csSipSeparators.mem c
/-- AbnfCharset.go:590 `ABNF_CHARSET_MASK_SIP_WORD` with table 0. -/
def csSipWord : CS := ⟨0, 0x01000000⟩
/-- AbnfCharset.go:701-703 `IsSipWord`. -/
def isSipWord (c : UInt8) : Bool := csSipWord.mem c
/-- AbnfCharset.go:591 `ABNF_CHARSET_MASK_SIP_QUOTED_PAIR` with table 0. -/
def csSipQuotedPair : CS := ⟨0, 0x02000000⟩
/-- AbnfCharset.go:705-707 `IsSipQuotedPair`. -/
def isSipQuotedPair (c : UInt8) : Bool := csSipQuotedPair.mem c
/-- AbnfCharset.go:592 `ABNF_CHARSET_MASK_SIP_QUOTED_TEXT` with table 0. -/
def csSipQuotedText : CS := ⟨0, 0x04000000⟩
/-- AbnfCharset.go:709-711 `IsSipQuotedText`. -/
def isSipQuotedText (c : UInt8) : Bool := csSipQuotedText.mem c
/-- AbnfCharset.go:593 `ABNF_CHARSET_MASK_SIP_COMMENT` with table 0. -/
def csSipComment : CS := ⟨0, 0x08000000⟩
/-- AbnfCharset.go:713-715 `IsSipComment`. -/
def isSipComment (c : UInt8) : Bool := csSipComment.mem c
/-- AbnfCharset.go:594 `ABNF_CHARSET_MASK_SIP_USER` with table 0. -/
def csSipUser : CS := ⟨0, 0x10000000⟩
/-- AbnfCharset.go:717-719 `IsSipUser`. -/
def isSipUser (c : UInt8) : Bool := csSipUser.mem c
/-- AbnfCharset.go:595 `ABNF_CHARSET_MASK_SIP_PASSWORD` with table 0. -/
def csSipPassword : CS := ⟨0, 0x20000000⟩
/-- AbnfCharset.go:721-723 `IsSipPassword`. -/
def isSipPassword (c : UInt8) : Bool := csSipPassword.mem c
/-- AbnfCharset.go:596 `ABNF_CHARSET_MASK_SIP_PNAME` with table 0. -/
def csSipPname : CS := ⟨0, 0x40000000⟩
/-- AbnfCharset.go:725-727 `IsSipPname`. -/
def isSipPname (c : UInt8) : Bool := csSipPname.mem c
/-- AbnfCharset.go:597 `ABNF_CHARSET_MASK_SIP_PVALUE` with table 0. -/
def csSipPvalue : CS := ⟨0, 0x80000000⟩
/-- AbnfCharset.go:729-731 `IsSipPvalue`. -/
def isSipPvalue (c : UInt8) : Bool := csSipPvalue.mem c
/-- AbnfCharset.go:598 `ABNF_CHARSET_MASK_SIP_HNAME` with table 1. -/
def csSipHname : CS := ⟨1, 0x00000001⟩
/-- AbnfCharset.go:733-735 `IsSipHname`. -/
def isSipHname (c : UInt8) : Bool := csSipHname.mem c
/-- AbnfCharset.go:599 `ABNF_CHARSET_MASK_SIP_HVALUE` with table 1. -/
def csSipHvalue : CS := ⟨1, 0x00000002⟩
/-- AbnfCharset.go:737-739 `IsSipHvalue`. -/
def isSipHvalue (c : UInt8) : Bool := csSipHvalue.mem c
/-- AbnfCharset.go:600 `ABNF_CHARSET_MASK_SIP_REASON_PHRASE` with table 1. -/
def csSipReasonPhrase : CS := ⟨1, 0x00000004⟩
/-- AbnfCharset.go:741-743 `IsSipReasonPhrase`. -/
def isSipReasonPhrase (c : UInt8) : Bool := csSipReasonPhrase.mem c
/-- AbnfCharset.go:601 `ABNF_CHARSET_MASK_TEL_PHONE_DIGIT` with table 1. -/
def csTelPhoneDigit : CS := ⟨1, 0x00000008⟩
/-- AbnfCharset.go:745-747 `IsTelPhoneDigit`. -/
def isTelPhoneDigit (c : UInt8) : Bool := csTelPhoneDigit.mem c
/-- AbnfCharset.go:602 `ABNF_CHARSET_MASK_TEL_PHONE_DIGIT_HEX` with table 1. -/
def csTelPhoneDigitHex : CS := ⟨1, 0x00000010⟩
/-- AbnfCharset.go:749-751 `IsTelPhoneDigitHex`. -/
def isTelPhoneDigitHex (c : UInt8) : Bool := csTelPhoneDigitHex.mem c
/-- AbnfCharset.go:603 `ABNF_CHARSET_MASK_TEL_PNAME` with table 1. -/
def csTelPname : CS := ⟨1, 0x00000020⟩
/-- AbnfCharset.go:753-755 `IsTelPname`. -/
def isTelPname (c : UInt8) : Bool := csTelPname.mem c
/-- AbnfCharset.go:604 `ABNF_CHARSET_MASK_TEL_PVALUE` with table 1. -/
def csTelPvalue : CS := ⟨1, 0x00000040⟩
/-- AbnfCharset.go:757-759 `IsTelPvalue`. -/
def isTelPvalue (c : UInt8) : Bool := csTelPvalue.mem c
/-- AbnfCharset.go:605 `ABNF_CHARSET_MASK_TEL_VISUAL_SPERATOR` with table 1. -/
def csTelVisualSperator : CS := ⟨1, 0x00000080⟩
/-- AbnfCharset.go:761-763 `IsTelVisualSperator`. -/
def isTelVisualSperator (c : UInt8) : Bool := csTelVisualSperator.mem c

end Sip
