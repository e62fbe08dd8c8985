import Verif.Model.Message
/-!
# Searching a text for a header without parsing it: SipMsg.go:747-924
-/
namespace Sip

/-- SipMsg.go:766-780: the loop of `ByteSliceIndexNoCase` over the text from index `i` on; `c` is the first byte of the pattern, `f` the rest of it.
`chars.EqualNoCase` compares byte by byte after lowering the ASCII letters. -/
def indexNoCaseFrom (c : UInt8) (f : Bytes) : Bytes → Nat → Option Nat
  | [], _ => none
  | b :: y, i =>
    if toLower b ≠ toLower c then indexNoCaseFrom c f y (i + 1) else
    if y.length ≤ f.length then none else
    if (y.take f.length).map toLower == f.map toLower then some i else indexNoCaseFrom c f y (i + 1)

/-- SipMsg.go:747-783 `ByteSliceIndexNoCase`. -/
def indexNoCase (src : Bytes) (pos : Nat) : Bytes → Option Nat
  | [] => none
  | c :: f => indexNoCaseFrom c f (src.drop pos) pos

/-- `bytes.IndexByte` -/
def indexByte (b : UInt8) (s : Bytes) : Option Nat := s.findIdx? (fun x => x == b)

/-- SipMsg.go:796-833: the inner loop of `FindSipHeader1`.  The loop over folded lines (814-827) tests the LF it has found for white space, so it always ends after
one round.  A slice whose end is before its begin panics.  The result is the buffer and the number of headers. -/
def findHeader1Loop (src name : Bytes) : Nat → Nat → Bytes → Nat → Out (Bytes × Nat)
  | 0, _, _, _ => .hang
  | fuel + 1, newPos, buf, num =>
    match indexNoCase src newPos (0x0a :: name) with
    | none => .ok (buf, num)
    | some i =>
      let b := if num = 0 then i + 1 else skipWhile isWspChar src (i + name.length + 1)
      match indexByte 0x0a (src.drop b) with
      | none => .panic
      | some 0 => .panic
      | some (p + 1) => findHeader1Loop src name fuel (b + p + 2) (buf ++ (if num = 0 then [] else str ", ") ++ (src.drop b).take p) (num + 1)

/-- SipMsg.go:845-872: the compact form looked for when the name does not occur -/
def compactName (name : Bytes) : Option Bytes :=
  if name.map toLower == str "call-id:" then some (str "i:") else
  if name.map toLower == str "contact:" then some (str "m:") else
  if name.map toLower == str "content-encoding:" then some (str "e:") else
  if name.map toLower == str "content-length:" then some (str "l:") else
  if name.map toLower == str "content-type:" then some (str "c:") else
  if name.map toLower == str "from:" then some (str "f:") else
  if name.map toLower == str "to:" then some (str "t:") else
  if name.map toLower == str "via:" then some (str "v:") else none

/-- SipMsg.go:785-877 `FindSipHeader1`: the buffer and the result. -/
def findHeader1 (src : Bytes) (pos : Nat) (name buf : Bytes) : Out (Bytes × Bool) := do
  let (b, n) ← findHeader1Loop src name (src.length + 1) pos buf 0
  if n > 0 then .ok (b, true) else
  match compactName name with
  | none => .ok (b, false)
  | some name => do
    let (b, n) ← findHeader1Loop src name (src.length + 1) pos b 0
    .ok (b, n > 0)

/-- the slice `src[pos:pos+n]`; the capacity of the input slice is taken to be its length -/
def slice? (src : Bytes) (pos n : Nat) : Option Bytes := if pos + n ≤ src.length then some ((src.drop pos).take n) else none

/-- SipMsg.go:887-894: which of the two names stands at the position, if any -/
def nameHere (src name short : Bytes) (pos : Nat) : Out (Option Nat) :=
  match slice? src pos name.length with
  | none => .panic
  | some t =>
    if name.map toLower == t.map toLower then .ok (some name.length) else
    match slice? src pos short.length with
    | none => .panic
    | some t => .ok (if short.map toLower == t.map toLower then some short.length else none)

/-- SipMsg.go:914-921: go on with the next line -/
def nextLine (src : Bytes) (pos : Nat) : Option Nat := (indexByte 0x0a (src.drop pos)).map (fun p => pos + p + 1)

/-- SipMsg.go:886-921: the loop of `FindSipHeader2` -/
def findHeader2Loop (src name short : Bytes) : Nat → Nat → Out (Nat × Bool)
  | 0, _ => .hang
  | fuel + 1, newPos =>
    if newPos ≥ src.length then .ok (newPos, false) else do
    match ← nameHere src name short newPos with
    | some n =>
      let q := skipWhile isWspChar src (newPos + n)
      if q ≥ src.length then .ok (q, false) else
      if src[q]? = some 0x3a then .ok (parseLWS src q) else
      match nextLine src q with
      | none => .ok (q, false)
      | some p => findHeader2Loop src name short fuel p
    | none =>
      match nextLine src newPos with
      | none => .ok (newPos, false)
      | some p => findHeader2Loop src name short fuel p

/-- SipMsg.go:879-924 `FindSipHeader2`. -/
def findHeader2 (src : Bytes) (pos : Nat) (name short : Bytes) : Out (Nat × Bool) := findHeader2Loop src name short (src.length + 1) pos

end Sip
