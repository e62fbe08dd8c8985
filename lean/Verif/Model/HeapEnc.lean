import Verif.Model.HeapUri
/-!
# Encode methods on the bytes of the arena

`E` is an encode method: what it writes, given the memory.  A method of `*T` gets the address of the struct and reads the fields at their offsets; the options of the
context are the value level `Flags`.
-/
namespace Sip

/-- an encode method: the bytes it appends to the buffer -/
def E : Type := Mem → Out Bytes

/-- what two encode methods in a row write -/
def Out.app (v w : Out Bytes) : Out Bytes :=
  match v with
  | .ok a => match w with
    | .ok b => .ok (a ++ b)
    | .panic => .panic
    | .hang => .hang
  | .panic => .panic
  | .hang => .hang

namespace E
/-- `buf.Write(b)` -/
def lit (b : Bytes) : E := fun _ => .ok b
/-- one after the other -/
def cat (x y : E) : E := fun m => (x m).app (y m)
@[inherit_doc] infixr:65 " +++ " => E.cat
/-- read a field of type byte or bool -/
def u8 (a : Nat) (k : UInt8 → E) : E := fun m => k (m a) m
/-- read a field of type AbnfPtr or uint16 -/
def u16 (a : Nat) (k : Nat → E) : E := fun m => k ((m a).toNat + 256 * (m (a + 1)).toNat) m
/-- read a field of type uint32 -/
def u32 (a : Nat) (k : Nat → E) : E := u16 a fun l => u16 (a + 2) fun h => k (l + 65536 * h)
/-- AbnfPtr.go:182-188 `WriteCString` -/
def str (p : Nat) : E := fun m => .ok (readStr m p)
/-- AbnfPtr.go:190-210 `WriteCStringEscape` -/
def strEsc (s : CS) (p : Nat) : E := fun m => .ok (escapeStr s (readStr m p))
/-- a slice of `n` bytes at `p`, `GetAsByteSlice` -/
def slice (p n : Nat) (k : Bytes → E) : E := fun m => k ((List.range n).map fun i => m (p + i)) m
/-- the loop over a list that is not nil: `for { f(x); if x.next == nil { return }; sep; x = x.next }`.  A list with more elements than there are addresses is
cyclic: the loop does not end. -/
def walk (off : Nat) (f : Nat → E) (sep : Bytes) : Nat → Nat → E
  | 0, _ => fun _ => .hang
  | n + 1, p => f p +++ u16 (p + off) fun q => if q = 0 then lit [] else lit sep +++ walk off f sep n q

/-! ## URIs -/

/-- UriParam.go:36-40 and the same for the other components -/
def uriEsc (fl : Flags) (s : CS) (p : Nat) : E := if !fl.encodeUriNoEscape then strEsc s p else str p

/-- UriParam.go:46-56 `EncodeValue`. -/
def uriParamValue (fl : Flags) (cs : CharsetInfo) (this : Nat) : E :=
  u16 (this + 2) fun v => if v ≠ 0 then lit [0x3d] +++ uriEsc fl cs.value v else lit []

/-- UriParam.go:34-44 `Encode`. -/
def uriParam (fl : Flags) (cs : CharsetInfo) (this : Nat) : E :=
  u16 this fun n => if n ≠ 0 then uriEsc fl cs.name n +++ uriParamValue fl cs this else lit []

/-- UriParam.go:193-206 `EncodeUriParams`. -/
def uriParams (fl : Flags) (cs : CharsetInfo) (params : Nat) : E :=
  if params ≠ 0 then walk 4 (fun p => lit [0x3b] +++ uriParam fl cs p) [] 32768 params else lit []

/-- UriHeader.go:22-39 `Encode`. -/
def uriHeader (fl : Flags) (cs : CharsetInfo) (this : Nat) : E :=
  u16 this fun n => if n ≠ 0 then uriEsc fl cs.name n +++ u16 (this + 2) fun v =>
    if v ≠ 0 then lit [0x3d] +++ uriEsc fl cs.value v else lit [] else lit []

/-- UriHeader.go:122-133 `EncodeUriHeaders`. -/
def uriHeaders (fl : Flags) (cs : CharsetInfo) (headers : Nat) : E := walk 4 (uriHeader fl cs) [0x26] 32768 headers

/-- the loop over the array of known parameters, SipUri.go:154-161 (and the same in the other types): `enc` writes the value -/
def slots (sep : UInt8) (enc : Nat → E) : List Bytes → Nat → E
  | [], _ => lit []
  | n :: r, a => (u16 a fun p => if p ≠ 0 then lit (sep :: n) +++ enc p else lit []) +++ slots sep enc r (a + 2)

/-- SipUri.go:147-162 (and the same in the other types) `EncodeKnownParams`; `field` is the address of the field `knownParams` -/
def known (names : List Bytes) (sep : UInt8) (enc : Nat → E) (field : Nat) : E :=
  u16 field fun k => if k = 0 then lit [] else slots sep enc names k

/-- SipHostPort.go:63-102 `EncodeHost`, `WriteIpv4AsString`. -/
def host (net : Net) (this : Nat) : E :=
  u8 this fun id => u16 (this + 4) fun d =>
    if id = 1 then slice d 4 fun ip => lit (writeByteAsString (ip.getD 0 0) ++ [0x2e] ++ writeByteAsString (ip.getD 1 0) ++ [0x2e] ++
      writeByteAsString (ip.getD 2 0) ++ [0x2e] ++ writeByteAsString (ip.getD 3 0))
    else if id = 2 then slice d 16 fun ip => lit ([0x5b] ++ net.ipString ip ++ [0x5d])
    else if id = 3 then str d
    else lit (Sip.str "unknown host")

/-- SipHostPort.go:55-61 `Encode`. -/
def hostPort (net : Net) (this : Nat) : E :=
  host net this +++ u8 (this + 1) fun b => if b ≠ 0 then u16 (this + 2) fun p => lit (0x3a :: encodeUInt p) else lit []

/-- SipUri.go:97-145 `Encode`, 147-162 `EncodeKnownParams`, 193-199 `encodeScheme`. -/
def sipUri (net : Net) (fl : Flags) (this : Nat) : E :=
  (u8 this fun s => lit (if s ≠ 0 then Sip.str "sips:" else Sip.str "sip:")) +++
  (u16 (this + 2) fun user => if user ≠ 0 then
      uriEsc fl csSipUser user +++ (u16 (this + 4) fun pw => if pw ≠ 0 then lit [0x3a] +++ uriEsc fl csSipPassword pw else lit []) +++ lit [0x40]
    else lit []) +++
  hostPort net (this + 6) +++
  known sipUriKnownNames 0x3b (uriParamValue fl sipUriParamCS) (this + 16) +++
  (u16 (this + 12) fun ps => uriParams fl sipUriParamCS ps) +++
  (u16 (this + 14) fun hs => if hs ≠ 0 then lit [0x3f] +++ uriHeaders fl sipUriHeaderCS hs else lit [])

/-- TelUri.go:73-106 `Encode`, `EncodeKnownParams`. -/
def telUri (fl : Flags) (this : Nat) : E :=
  lit (Sip.str "tel:") +++
  (u16 (this + 2) fun n => str n) +++
  (u8 this fun g => if g = 0 then u16 (this + 4) fun x => if x ≠ 0 then lit (Sip.str ";phone-context") +++ uriParamValue fl telUriParamCS x else lit [] else lit []) +++
  known telUriKnownNames 0x3b (uriParamValue fl telUriParamCS) (this + 8) +++
  (u16 (this + 6) fun ps => uriParams fl telUriParamCS ps)
end E
end Sip
