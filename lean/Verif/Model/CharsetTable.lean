/-! GENERATED by tools/gencharset.py from src/sipparser/AbnfCharset.go: the two tables `g_charsets[0]` and `g_charsets[1]`. -/
namespace Sip

/-- AbnfCharset.go:5-260 `g_charsets[0]`. -/
def charsetTable0 : List Nat := [
  0x0a000000, 0x0a000000, 0x0a000000, 0x0a000000, 0x0a000000, 0x0a000000, 0x0a000000, 0x0a000000,
  0x0a000000, 0x0e001800, 0x0c001400, 0x0a800000, 0x0a000000, 0x0c001400, 0x0a000000, 0x0a000000,
  0x0a000000, 0x0a000000, 0x0a000000, 0x0a000000, 0x0a000000, 0x0a000000, 0x0a000000, 0x0a000000,
  0x0a000000, 0x0a000000, 0x0a000000, 0x0a000000, 0x0a000000, 0x0a000000, 0x0a000000, 0x0a000000,
  0x0e801800, 0xff7ca000, 0x0b802000, 0x0e002000, 0xfe3d2000, 0x0f402000, 0xfe3d2000, 0xff7ca000,
  0xffbca000, 0xffbca000, 0xff7ca000, 0xff7f2000, 0x3ebd2000, 0xff7ee000, 0xff7ee000, 0xde052000,
  0xff7ee391, 0xff7ee391, 0xff7ee391, 0xff7ee391, 0xff7ee391, 0xff7ee391, 0xff7ee391, 0xff7ee391,
  0xff7ee391, 0xff7ee391, 0xcfbd2000, 0x1ead2000, 0x0f802000, 0x3ebd2000, 0x0f802000, 0x1f8d2000,
  0x0ebd2000, 0xff7ee35a, 0xff7ee35a, 0xff7ee35a, 0xff7ee35a, 0xff7ee35a, 0xff7ee35a, 0xff7ee01a,
  0xff7ee01a, 0xff7ee01a, 0xff7ee01a, 0xff7ee01a, 0xff7ee01a, 0xff7ee01a, 0xff7ee01a, 0xff7ee01a,
  0xff7ee01a, 0xff7ee01a, 0xff7ee01a, 0xff7ee01a, 0xff7ee01a, 0xff7ee01a, 0xff7ee01a, 0xff7ee01a,
  0xff7ee01a, 0xff7ee01a, 0xff7ee01a, 0xcf802000, 0x0b802000, 0xcf802000, 0x0e002000, 0xff7ca000,
  0x0f402000, 0xff7ee2b6, 0xff7ee2b6, 0xff7ee2b6, 0xff7ee2b6, 0xff7ee2b6, 0xff7ee2b6, 0xff7ee016,
  0xff7ee016, 0xff7ee016, 0xff7ee016, 0xff7ee016, 0xff7ee016, 0xff7ee016, 0xff7ee016, 0xff7ee016,
  0xff7ee016, 0xff7ee016, 0xff7ee016, 0xff7ee016, 0xff7ee016, 0xff7ee016, 0xff7ee016, 0xff7ee016,
  0xff7ee016, 0xff7ee016, 0xff7ee016, 0x0f802000, 0x0e002000, 0x0f802000, 0xff7ca000, 0x0a000000,
  0x00002000, 0x00002000, 0x00002000, 0x00002000, 0x00002000, 0x00002000, 0x00002000, 0x00002000,
  0x00002000, 0x00002000, 0x00002000, 0x00002000, 0x00002000, 0x00002000, 0x00002000, 0x00002000,
  0x00002000, 0x00002000, 0x00002000, 0x00002000, 0x00002000, 0x00002000, 0x00002000, 0x00002000,
  0x00002000, 0x00002000, 0x00002000, 0x00002000, 0x00002000, 0x00002000, 0x00002000, 0x00002000,
  0x00002000, 0x00002000, 0x00002000, 0x00002000, 0x00002000, 0x00002000, 0x00002000, 0x00002000,
  0x00002000, 0x00002000, 0x00002000, 0x00002000, 0x00002000, 0x00002000, 0x00002000, 0x00002000,
  0x00002000, 0x00002000, 0x00002000, 0x00002000, 0x00002000, 0x00002000, 0x00002000, 0x00002000,
  0x00002000, 0x00002000, 0x00002000, 0x00002000, 0x00002000, 0x00002000, 0x00002000, 0x00002000,
  0x0c002000, 0x0c002000, 0x0c002000, 0x0c002000, 0x0c002000, 0x0c002000, 0x0c002000, 0x0c002000,
  0x0c002000, 0x0c002000, 0x0c002000, 0x0c002000, 0x0c002000, 0x0c002000, 0x0c002000, 0x0c002000,
  0x0c002000, 0x0c002000, 0x0c002000, 0x0c002000, 0x0c002000, 0x0c002000, 0x0c002000, 0x0c002000,
  0x0c002000, 0x0c002000, 0x0c002000, 0x0c002000, 0x0c002000, 0x0c002000, 0x0c002000, 0x0c002000,
  0x0c002000, 0x0c002000, 0x0c002000, 0x0c002000, 0x0c002000, 0x0c002000, 0x0c002000, 0x0c002000,
  0x0c002000, 0x0c002000, 0x0c002000, 0x0c002000, 0x0c002000, 0x0c002000, 0x0c002000, 0x0c002000,
  0x0c002000, 0x0c002000, 0x0c002000, 0x0c002000, 0x0c002000, 0x0c002000, 0x0c002000, 0x0c002000,
  0x0c002000, 0x0c002000, 0x0c002000, 0x0c002000, 0x0c002000, 0x0c002000, 0x00000000, 0x00000000]

/-- AbnfCharset.go:263-518 `g_charsets[1]`. -/
def charsetTable1 : List Nat := [
  0x00000000, 0x00000000, 0x00000000, 0x00000000, 0x00000000, 0x00000000, 0x00000000, 0x00000000,
  0x00000000, 0x00000000, 0x00000000, 0x00000004, 0x00000000, 0x00000000, 0x00000000, 0x00000000,
  0x00000000, 0x00000000, 0x00000000, 0x00000000, 0x00000000, 0x00000000, 0x00000000, 0x00000000,
  0x00000000, 0x00000000, 0x00000000, 0x00000000, 0x00000000, 0x00000000, 0x00000000, 0x00000000,
  0x00000004, 0x00000047, 0x00000000, 0x00000000, 0x00000047, 0x00000000, 0x00000044, 0x00000047,
  0x000000df, 0x000000df, 0x00000047, 0x00000047, 0x00000004, 0x000000ff, 0x000000df, 0x00000047,
  0x0000007f, 0x0000007f, 0x0000007f, 0x0000007f, 0x0000007f, 0x0000007f, 0x0000007f, 0x0000007f,
  0x0000007f, 0x0000007f, 0x00000047, 0x00000004, 0x00000000, 0x00000004, 0x00000000, 0x00000007,
  0x00000004, 0x00000077, 0x00000077, 0x00000077, 0x00000077, 0x00000077, 0x00000077, 0x00000067,
  0x00000067, 0x00000067, 0x00000067, 0x00000067, 0x00000067, 0x00000067, 0x00000067, 0x00000067,
  0x00000067, 0x00000067, 0x00000067, 0x00000067, 0x00000067, 0x00000067, 0x00000067, 0x00000067,
  0x00000067, 0x00000067, 0x00000067, 0x00000043, 0x00000000, 0x00000043, 0x00000000, 0x00000047,
  0x00000000, 0x00000077, 0x00000077, 0x00000077, 0x00000077, 0x00000077, 0x00000077, 0x00000067,
  0x00000067, 0x00000067, 0x00000067, 0x00000067, 0x00000067, 0x00000067, 0x00000067, 0x00000067,
  0x00000067, 0x00000067, 0x00000067, 0x00000067, 0x00000067, 0x00000067, 0x00000067, 0x00000067,
  0x00000067, 0x00000067, 0x00000067, 0x00000000, 0x00000000, 0x00000000, 0x00000047, 0x00000000,
  0x00000004, 0x00000004, 0x00000004, 0x00000004, 0x00000004, 0x00000004, 0x00000004, 0x00000004,
  0x00000004, 0x00000004, 0x00000004, 0x00000004, 0x00000004, 0x00000004, 0x00000004, 0x00000004,
  0x00000004, 0x00000004, 0x00000004, 0x00000004, 0x00000004, 0x00000004, 0x00000004, 0x00000004,
  0x00000004, 0x00000004, 0x00000004, 0x00000004, 0x00000004, 0x00000004, 0x00000004, 0x00000004,
  0x00000004, 0x00000004, 0x00000004, 0x00000004, 0x00000004, 0x00000004, 0x00000004, 0x00000004,
  0x00000004, 0x00000004, 0x00000004, 0x00000004, 0x00000004, 0x00000004, 0x00000004, 0x00000004,
  0x00000004, 0x00000004, 0x00000004, 0x00000004, 0x00000004, 0x00000004, 0x00000004, 0x00000004,
  0x00000004, 0x00000004, 0x00000004, 0x00000004, 0x00000004, 0x00000004, 0x00000004, 0x00000004,
  0x00000004, 0x00000004, 0x00000004, 0x00000004, 0x00000004, 0x00000004, 0x00000004, 0x00000004,
  0x00000004, 0x00000004, 0x00000004, 0x00000004, 0x00000004, 0x00000004, 0x00000004, 0x00000004,
  0x00000004, 0x00000004, 0x00000004, 0x00000004, 0x00000004, 0x00000004, 0x00000004, 0x00000004,
  0x00000004, 0x00000004, 0x00000004, 0x00000004, 0x00000004, 0x00000004, 0x00000004, 0x00000004,
  0x00000004, 0x00000004, 0x00000004, 0x00000004, 0x00000004, 0x00000004, 0x00000004, 0x00000004,
  0x00000004, 0x00000004, 0x00000004, 0x00000004, 0x00000004, 0x00000004, 0x00000004, 0x00000004,
  0x00000004, 0x00000004, 0x00000004, 0x00000004, 0x00000004, 0x00000004, 0x00000004, 0x00000004,
  0x00000004, 0x00000004, 0x00000004, 0x00000004, 0x00000004, 0x00000004, 0x00000000, 0x00000000]

end Sip
