import Verif.Model.ArenaStr
/-!
# The scanners on plain byte slices, and the two pass string functions

`AbnfRef` (src/sipparser/AbnfRef.go) marks a stretch of a byte slice; three versions of its scanner for text with escapes exist.  The functions of AbnfBasic.go
that use it scan the input first and copy it into the arena afterwards.
-/
namespace Sip

/-- AbnfRef.go:10-13 `AbnfRef` (`Begin`, `End` are int32; the slices are shorter than 2^31 bytes). -/
structure Ref where
  first : Nat := 0
  last : Nat := 0
  deriving DecidableEq, Repr

/-- What a scanner returns (`escapeNum`, `newPos`, `ok`) and the `AbnfRef` it was called on, afterwards. -/
structure RefScan where
  escapeNum : Nat
  newPos : Nat
  ok : Bool
  ref : Ref
  deriving DecidableEq, Repr

/-- AbnfRef.go:19-38 `AbnfRef.Parse`: the end of the run of bytes of the set at `pos`; `Begin` and `End` are set. -/
def refParse (s : CS) (src : Bytes) (pos : Nat) : Ref :=
  match src.drop pos with
  | [] => { first := pos, last := pos }
  | v :: r => if !s.mem v then { first := pos, last := pos } else { first := pos, last := pos + 1 + (r.takeWhile s.mem).length }

/-- AbnfRef.go:48-56 / 160-168: the loop over bytes of the set.  `true`: the function returns here (a byte that is neither in the set nor '%'); else the rest of
the input starts with a '%' or is empty. -/
def refInner (s : CS) : Bytes → Nat → Bool × Nat × Bytes
  | [], p => (false, p, [])
  | v :: r, p => if !s.mem v then (if v = 0x25 then (false, p, v :: r) else (true, p, v :: r)) else refInner s r (p + 1)

/-- AbnfRef.go:47-72: the outer loop of `ParseEscapable` (`fuel` rounds). -/
def refOuter (s : CS) : Nat → Bytes → Nat → Nat → Out (Nat × Nat × Bool)
  | 0, _, _, _ => .hang
  | fuel + 1, rest, p, e =>
    match refInner s rest p with
    | (true, p, _) => .ok (e, p, true)
    | (false, p, []) => .ok (e, p, true)
    | (false, p, _ :: v1 :: v2 :: r) => if !isHex v1 || !isHex v2 then .ok (e, p, false) else refOuter s fuel r (p + 3) (e + 1)
    | (false, p, _) => .ok (e, p, false)

/-- `End` is written on the successful returns only (AbnfRef.go:53, 60). -/
def refClose (ref : Ref) (pos : Nat) : Nat × Nat × Bool → RefScan
  | (e, p, ok) => { escapeNum := e, newPos := p, ok := ok, ref := { first := pos, last := if ok then p else ref.last } }

/-- AbnfRef.go:40-77 `AbnfRef.ParseEscapable`. -/
def refEsc (s : CS) (ref : Ref) (src : Bytes) (pos : Nat) : Out RefScan :=
  match refOuter s (src.length + 1) (src.drop pos) pos 0 with
  | .ok x => .ok (refClose ref pos x)
  | .panic => .panic
  | .hang => .hang

/-- AbnfRef.go:170-183: the second loop of `ParseEscapable2`; here the '%' is tested before the set. -/
def ref2Loop (s : CS) : Bytes → Nat → Nat → Nat × Nat × Bool
  | [], p, e => (e, p, true)
  | v :: r, p, e =>
    if v = 0x25 then
      match r with
      | v1 :: v2 :: r' => if !isHex v1 || !isHex v2 then (e, p, false) else ref2Loop s r' (p + 3) (e + 1)
      | _ => (e, p, false)
    else if !s.mem v then (e, p, true)
    else ref2Loop s r (p + 1) e

/-- AbnfRef.go:155-186 `AbnfRef.ParseEscapable2`. -/
def refEsc2 (s : CS) (ref : Ref) (src : Bytes) (pos : Nat) : RefScan :=
  match refInner s (src.drop pos) pos with
  | (true, p, _) => refClose ref pos (0, p, true)
  | (false, p, rest) => refClose ref pos (ref2Loop s rest p 0)

/-- `*(*byte)(unsafe.Pointer(a))` for an address `a` inside the slice, which starts at the address `base`. -/
def byteAt (src : Bytes) (base a : Nat) : UInt8 := src.getD (a - base) 0

/-- AbnfRef.go:90-99: the inner loop of `ParseEscapable3`, on addresses (`fuel` rounds). -/
def ref3Inner (s : CS) (src : Bytes) (base : Nat) : Nat → Nat → Out (Bool × Nat)
  | 0, _ => .hang
  | fuel + 1, p =>
    if ¬ p < base + src.length then .ok (false, p) else
    if !s.mem (byteAt src base p) then (if byteAt src base p = 0x25 then .ok (false, p) else .ok (true, p))
    else ref3Inner s src base fuel (p + 1)

/-- AbnfRef.go:89-117: the outer loop of `ParseEscapable3`. -/
def ref3Outer (s : CS) (src : Bytes) (base : Nat) : Nat → Nat → Nat → Out (Nat × Nat × Bool)
  | 0, _, _ => .hang
  | fuel + 1, p, e =>
    match ref3Inner s src base (src.length + 1) p with
    | .panic => .panic
    | .hang => .hang
    | .ok (true, p) => .ok (e, p - base, true)
    | .ok (false, p) =>
      if p ≥ base + src.length then .ok (e, p - base, true) else
      if p + 2 ≥ base + src.length then .ok (e, p - base, false) else
      if !isHex (byteAt src base (p + 1)) || !isHex (byteAt src base (p + 2)) then .ok (e, p - base, false)
      else ref3Outer s src base fuel (p + 3) (e + 1)

/-- AbnfRef.go:79-153 `AbnfRef.ParseEscapable3`; `base` is the address of the slice.  `&src[pos]` panics when there is no such byte. -/
def refEsc3 (s : CS) (ref : Ref) (src : Bytes) (base pos : Nat) : Out RefScan :=
  if pos ≥ src.length then .panic else
  match ref3Outer s src base (src.length + 1) (base + pos) 0 with
  | .ok x => .ok (refClose ref pos x)
  | .panic => .panic
  | .hang => .hang

/-! ## Copying with unescaping -/

/-- conversion of an `int` to `uint32` -/
def u32i (n : Int) : Nat := (n % 4294967296).toNat

/-- AbnfBasic.go:129-136: the first loop, up to the first '%'.  `lim` is the length of the slice `dest`, which starts at `base`; the index test of the compiled code is an
unsigned comparison, so that a negative length lets every index pass.  Result: rest of the input, `j`, memory. -/
def unescCopy (lim : Int) (base : Nat) : Bytes → Nat → Mem → Out (Bytes × Nat × Mem)
  | [], j, m => .ok ([], j, m)
  | v :: r, j, m =>
    if v ≠ 0x25 then (if 0 ≤ lim ∧ lim ≤ j then .panic else unescCopy lim base r (j + 1) (upd m (base + j) v)) else .ok (v :: r, j, m)

/-- AbnfBasic.go:138-151 / 182-197: the second loop.  Result: `j`, memory. -/
def unescRest (lim : Int) (base : Nat) : Bytes → Nat → Mem → Out (Nat × Mem)
  | [], j, m => .ok (j, m)
  | v :: r, j, m =>
    if 0 ≤ lim ∧ lim ≤ j then .panic else
    if v ≠ 0x25 then unescRest lim base r (j + 1) (upd m (base + j) v) else
    match r with
    | v1 :: v2 :: r' =>
      if isHex v1 && isHex v2 then unescRest lim base r' (j + 1) (upd m (base + j) (unescapeByte v1 v2))
      else unescRest lim base (v1 :: v2 :: r') (j + 1) (upd m (base + j) v)
    | [v1] => unescRest lim base [v1] (j + 1) (upd m (base + j) v)
    | [] => .ok (j + 1, upd m (base + j) v)

/-- AbnfBasic.go:114-157 `AllocCStringWithUnescapeNum`: the block has room for `len - 2*escapeNum` bytes and the length. -/
def bAllocUnescNum (buf : Bytes) (escapeNum : Int) (c : BCtx) : Out (Nat × BCtx) :=
  if escapeNum ≤ 0 then bAllocStr buf c else
  let lim : Int := buf.length - 2 * escapeNum
  let r := c.a.alloc (u32i (lim + 2))
  let addr := r.2
  let c := { c with a := r.1 }
  if addr = 0 then .ok (0, c) else
  let p := u16 (addr + 2)
  if p ≠ 0 ∧ p ≥ c.a.cap then .panic else
  let lim := if p = 0 then 0 else lim
  match unescCopy lim p buf 0 c.a.mem with
  | .panic => .panic
  | .hang => .hang
  | .ok (rest, j, m) =>
    match unescRest lim p rest j m with
    | .panic => .panic
    | .hang => .hang
    | .ok (j, m) => if addr + 2 > c.a.cap then .panic else .ok (p, c.setMem (putU16 m addr (u16 j)))

/-- AbnfBasic.go:159-202 `AllocCStringWithUnescapeNum2`: no room for the length is reserved and no length is written; the stores go through unchecked pointers. -/
def bAllocUnescNum2 (buf : Bytes) (escapeNum : Int) (c : BCtx) : Out (Nat × BCtx) :=
  if escapeNum ≤ 0 then bAllocStr buf c else
  let lim : Int := buf.length - 2 * escapeNum
  let r := c.a.alloc (u32i lim)
  let addr := r.2
  let c := { c with a := r.1 }
  if addr = 0 then .ok (0, c) else
  if buf = [] then .panic else
  if addr ≥ c.a.cap then .panic else
  match unescRest (-1) addr buf 0 c.a.mem with
  | .panic => .panic
  | .hang => .hang
  | .ok (_, m) => .ok (addr, c.setMem m)

/-- AbnfBasic.go:204-210 `AllocCStringWithUnescape`: the number of escapes passed on is the length of the text. -/
def bAllocUnesc (buf : Bytes) (c : BCtx) : Out (Nat × BCtx) :=
  if !buf.contains 0x25 then bAllocStr buf c else bAllocUnescNum buf buf.length c

/-! ## Scanning and storing -/

/-- AbnfBasic.go:13-32 `ParseEscapable2` (`enableEmpty = false`), 45-59 `ParseEscapableEnableEmpty2` (`true`).  Result: pointer, new position, ok, context; the position
of the context stays what it was.  (`src[ref.Begin:ref.End]` with a position behind the end of a slice without spare capacity panics.) -/
def bEscTwoPass (enableEmpty : Bool) (s : CS) (src : Bytes) (pos : Nat) (c : BCtx) : Out (Nat × Nat × Bool × BCtx) :=
  match refEsc s {} src pos with
  | .panic => .panic
  | .hang => .hang
  | .ok x =>
    if !x.ok then .ok (0, x.newPos, false, c.addError x.newPos) else
    if !enableEmpty ∧ x.ref.last ≤ x.ref.first then .ok (0, x.newPos, false, c.addError x.newPos) else
    if x.ref.last > src.length then .panic else
    match bAllocUnescNum ((src.drop x.ref.first).take (x.ref.last - x.ref.first)) x.escapeNum c with
    | .panic => .panic
    | .hang => .hang
    | .ok (addr, c) => if addr = 0 then .ok (0, x.newPos, false, c.addError x.newPos) else .ok (addr, x.newPos, true, c)

/-- AbnfBasic.go:34-43 `ParseEscapable`, 61-70 `ParseEscapableEnableEmpty`: the one pass functions of the allocator, on the input of the context. -/
def bEscOnePass (enableEmpty : Bool) (s : CS) (pos : Nat) (c : BCtx) : Out (Nat × Nat × Bool × BCtx) :=
  match bParseStrEsc enableEmpty s (c.setPos pos) with
  | .panic => .panic
  | .hang => .hang
  | .ok (addr, ok, c) => .ok (addr, c.pos, ok, c)

/-- AbnfRef.go:188-200 `ParseAndAllocSipToken`: no error is recorded for an empty text, and success is reported even if there was no memory. -/
def bSipToken (src : Bytes) (pos : Nat) (c : BCtx) : Out (Nat × Bool × BCtx) :=
  let ref := refParse csSipUser src pos
  let c := c.setPos ref.last
  if ref.first ≥ ref.last then .ok (0, false, c) else
  match bAllocStr ((src.drop ref.first).take (ref.last - ref.first)) c with
  | .panic => .panic
  | .hang => .hang
  | .ok (addr, c) => .ok (addr, true, c)

/-- AbnfRef.go:202-204 `ParseAndAllocSipToken2`. -/
def bSipToken2 (c : BCtx) : Out (Nat × Bool × BCtx) := bParseStr csSipUser c

end Sip
