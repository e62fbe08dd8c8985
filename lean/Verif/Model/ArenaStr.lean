import Verif.Model.Str
/-!
# Strings in the arena, byte by byte

The functions of `Verif/Model/Str.lean` once more, now on the bytes of the arena: every store `this.mem[used] = v`, the two byte little endian
length prefix, the 16 bit pointers and the statistics are explicit.  `Verif/Props/Store.lean` proves that the value layer is a correct
abstraction of this file.
-/
namespace Sip

/-- arena memory -/
abbrev Mem := Nat → UInt8

/-- `this.mem[i] = v` (bounds are checked by the callers) -/
def upd (m : Mem) (i : Nat) (v : UInt8) : Mem := fun j => if j = i then v else m j

/-- `binary.LittleEndian.PutUint16(mem[i:], uint16(n))` -/
def putU16 (m : Mem) (i n : Nat) : Mem := upd (upd m i (UInt8.ofNat (u16 n % 256))) (i + 1) (UInt8.ofNat (u16 n / 256))

/-- AbnfPtr.go:252-257 `Strlen`: `Uint16(mem[this-2:])`. -/
def strlen (m : Mem) (p : Nat) : Nat := if p = 0 then 0 else (m (p - 2)).toNat + 256 * (m (p - 1)).toNat

/-- AbnfPtr.go:212-219 `GetCStringAsByteSlice` / `WriteCString` / `CString`: the `Strlen` bytes at the pointer (an `unsafe` slice, not bounds
checked). -/
def readStr (m : Mem) (p : Nat) : Bytes := (List.range (strlen m p)).map fun i => m (p + i)

/-- `Context` with the real arena. -/
structure BCtx where
  src : Bytes
  pos : Nat := 0
  a : Arena
  errs : List Nat := []
  flags : Flags := {}

namespace BCtx
def addError (c : BCtx) (pos : Nat) : BCtx := { c with errs := pos :: c.errs }
def setPos (c : BCtx) (pos : Nat) : BCtx := { c with pos := pos }
/-- replace the arena memory (the stores happen in place, also on the paths that fail later) -/
def setMem (c : BCtx) (m : Mem) : BCtx := { c with a := { c.a with mem := m } }
/-- the tail shared by all functions (e.g. AbnfMem.go:167-176): statistics, length prefix, new mark, new position -/
def finish (c : BCtx) (m : Mem) (used newPos : Nat) : BCtx :=
  let n := u32 (used + 4294967296 - c.a.used - 2)
  { c with pos := newPos, a := { c.a with
      mem := putU16 m c.a.used n
      used := roundToAlign used memAlign
      stat := { c.a.stat with allocNum := u32 (c.a.stat.allocNum + 1), allocNumOk := u32 (c.a.stat.allocNumOk + 1), allocReqBytes := n } } }
end BCtx

/-- AbnfMem.go:147-155: the copying loop.  Result: new position, new `used`, memory. -/
def bRun (s : CS) (cap : Nat) : Bytes → Nat → Nat → Mem → Out (Nat × Nat × Mem)
  | [], pos, used, m => .ok (pos, used, m)
  | v :: r, pos, used, m =>
    if !s.mem v then .ok (pos, used, m)
    else if used ≥ cap then .panic
    else bRun s cap r (pos + 1) (u32 (used + 1)) (upd m used v)

/-- AbnfMem.go:134-177 `ParseAndAllocCString`. Result: pointer, ok, context. -/
def bParseStr (s : CS) (c : BCtx) : Out (Nat × Bool × BCtx) :=
  let used := u32 (c.a.used + 2)
  let addr := u16 used
  if used ≥ c.a.cap then .ok (0, false, c.addError c.pos) else
  match bRun s c.a.cap (c.src.drop c.pos) c.pos used c.a.mem with
  | .panic => .panic
  | .hang => .hang
  | .ok (newPos, used, m) =>
    if newPos ≤ c.pos then .ok (0, false, (c.setMem m).addError newPos) else
    if used ≥ c.a.cap then .ok (0, false, (c.setMem m).addError newPos) else
    .ok (addr, true, c.finish m used newPos)

/-- AbnfMem.go:300-338 `ParseAndAllocCStringEnableEmpty`. -/
def bParseStrEnableEmpty (s : CS) (c : BCtx) : Out (Nat × Bool × BCtx) :=
  let used := u32 (c.a.used + 2)
  let addr := u16 used
  if used ≥ c.a.cap then .ok (0, false, c.addError c.pos) else
  match bRun s c.a.cap (c.src.drop c.pos) c.pos used c.a.mem with
  | .panic => .panic
  | .hang => .hang
  | .ok (newPos, used, m) =>
    if used ≥ c.a.cap then .ok (0, false, (c.setMem m).addError newPos) else
    .ok (addr, true, c.finish m used newPos)

/-- AbnfMem.go:256-259: `for ; newPos < pos; newPos++ { this.mem[used] = src[newPos]; used++ }` (`n = pos - newPos` rounds). -/
def bCopy (cap : Nat) : Nat → Bytes → Nat → Mem → Out (Nat × Mem)
  | 0, _, used, m => .ok (used, m)
  | _ + 1, [], _, _ => .panic
  | n + 1, v :: r, used, m => if used ≥ cap then .panic else bCopy cap n r (u32 (used + 1)) (upd m used v)

/-- AbnfMem.go:237-298 `ParseAndAllocCStringFromPos`. -/
def bParseStrFromPos (s : CS) (pos : Nat) (c : BCtx) : Out (Nat × Bool × BCtx) :=
  let used := u32 (c.a.used + 2)
  let addr := u16 used
  if c.pos < pos ∧ u32 (u32 (pos - c.pos) + used) ≥ c.a.cap then .ok (0, false, c.addError c.pos) else
  match bCopy c.a.cap (pos - c.pos) (c.src.drop c.pos) used c.a.mem with
  | .panic => .panic
  | .hang => .hang
  | .ok (used, m) =>
    let newPos := max c.pos pos
    if used ≥ c.a.cap then .ok (0, false, ((c.setMem m).setPos newPos).addError newPos) else
    match bRun s c.a.cap (c.src.drop newPos) newPos used m with
    | .panic => .panic
    | .hang => .hang
    | .ok (newPos, used, m) =>
      if newPos ≤ c.pos then .ok (0, false, ((c.setMem m).setPos newPos).addError newPos) else
      if used ≥ c.a.cap then .ok (0, false, ((c.setMem m).setPos newPos).addError newPos) else
      .ok (addr, true, c.finish m used newPos)

/-- Outcome of the byte level unescaping loop. -/
inductive BScan where
  | stop (newPos used : Nat) (m : Mem)
  | panic
  | noMem (pos : Nat) (m : Mem)
  | bad (pos : Nat) (m : Mem)

/-- AbnfMem.go:352-434 / 468-533 the unescaping loop. -/
def bEsc (s : CS) (cap : Nat) : Bytes → Nat → Nat → Mem → BScan
  | [], newPos, used, m => .stop newPos used m
  | v :: r, newPos, used, m =>
    if s.mem v then
      if used ≥ cap then .panic else bEsc s cap r (newPos + 1) (u32 (used + 1)) (upd m used v)
    else if v ≠ 0x25 then .stop newPos used m
    else match r with
      | v1 :: v2 :: r' =>
        if !isHex v1 || !isHex v2 then .bad newPos m
        else if used ≥ cap then .noMem newPos m
        else bEsc s cap r' (newPos + 3) (u32 (used + 1)) (upd m used (unescapeByte v1 v2))
      | _ => .bad newPos m

/-- AbnfMem.go:340-454 `ParseAndAllocCStringEscapable` (`enableEmpty = false`), 456-554 `...EnableEmpty` (`true`). -/
def bParseStrEsc (enableEmpty : Bool) (s : CS) (c : BCtx) : Out (Nat × Bool × BCtx) :=
  let used := u32 (c.a.used + 2)
  let addr := u16 used
  if used ≥ c.a.cap then .ok (0, false, c.addError c.pos) else
  match bEsc s c.a.cap (c.src.drop c.pos) c.pos used c.a.mem with
  | .panic => .panic
  | .noMem p m => .ok (0, false, (c.setMem m).addError p)
  | .bad p m => .ok (0, false, ((c.setMem m).setPos p).addError p)
  | .stop p used m =>
    if !enableEmpty ∧ p ≤ c.pos then .ok (0, false, (c.setMem m).addError p) else
    if used ≥ c.a.cap then .ok (0, false, (c.setMem m).addError p) else
    .ok (addr, true, c.finish m used p)

/-- AbnfMem.go:202-213: the loop that skips visual separators.  Result: position, used, number of digits, memory. -/
def bTel (s : CS) (cap : Nat) : Bytes → Nat → Nat → Nat → Mem → Out (Nat × Nat × Nat × Mem)
  | [], pos, used, num, m => .ok (pos, used, num, m)
  | v :: r, pos, used, num, m =>
    if !s.mem v then .ok (pos, used, num, m)
    else if isTelVisualSperator v then bTel s cap r (pos + 1) used num m
    else if used ≥ cap then .panic
    else bTel s cap r (pos + 1) (u32 (used + 1)) (num + 1) (upd m used v)

/-- AbnfMem.go:179-235 `ParseAndAllocTelNumberRemoveVisualSeperator`. -/
def bParseTelNumber (s : CS) (c : BCtx) : Out (Nat × Bool × BCtx) :=
  let used := u32 (c.a.used + 2)
  let addr := u16 used
  if used ≥ c.a.cap then .ok (0, false, c.addError c.pos) else
  let plus := c.src[c.pos]? = some 0x2b
  let m := if plus then upd c.a.mem used 0x2b else c.a.mem
  let newPos := if plus then c.pos + 1 else c.pos
  let used := if plus then u32 (used + 1) else used
  match bTel s c.a.cap (c.src.drop newPos) newPos used 0 m with
  | .panic => .panic
  | .hang => .hang
  | .ok (newPos, used, num, m) =>
    if num = 0 then .ok (0, false, ((c.setMem m).setPos newPos).addError newPos) else
    if used ≥ c.a.cap then .ok (0, false, ((c.setMem m).setPos newPos).addError newPos) else
    .ok (addr, true, c.finish m used newPos)

/-- AbnfMem.go:647-654 / 680-688: copy the SP / HTAB run. -/
def bSpRun (cap : Nat) : Bytes → Nat → Nat → Mem → Out (Nat × Nat × Mem)
  | [], pos, used, m => .ok (pos, used, m)
  | v :: r, pos, used, m =>
    if !isSpHtab v then .ok (pos, used, m)
    else if used ≥ cap then .panic
    else bSpRun cap r (pos + 1) (u32 (used + 1)) (upd m used v)

/-- AbnfMem.go:641-693 `ParseAndCopyLWS` from `pos` with the mark at `used`: (ok, new position, new mark, memory). -/
def bCopyLWS (src : Bytes) (cap pos used : Nat) (m : Mem) : Out (Bool × Nat × Nat × Mem) :=
  match bSpRun cap (src.drop pos) pos used m with
  | .panic => .panic
  | .hang => .hang
  | .ok (newPos, used, m) =>
    if newPos + 1 ≥ src.length then .ok (true, newPos, used, m) else
    if src[newPos]? = some 0x0d ∧ src[newPos + 1]? = some 0x0a then
      if used + 1 ≥ cap then .panic else
      let m := upd (upd m used 0x0d) (used + 1) 0x0d
      let newPos := newPos + 2
      let used := u32 (used + 2)
      if newPos ≥ src.length then .ok (false, newPos, used, m) else
      if (src[newPos]?.map isSpHtab) ≠ some true then .ok (false, newPos, used, m) else
      match bSpRun cap (src.drop newPos) newPos used m with
      | .panic => .panic
      | .hang => .hang
      | .ok (newPos, used, m) => .ok (true, newPos, used, m)
    else .ok (true, newPos, used, m)

/-- The loop of AbnfMem.go:587-620 (`fuel` rounds); the memory is the one of `c`. -/
def bQuotedLoop : Nat → BCtx → Nat → Nat → Out (Option (Nat × Nat) × BCtx)
  | 0, _, _, _ => .hang
  | fuel + 1, c, newPos, used =>
    match c.src[newPos]? with
    | none => .ok (none, (c.setPos newPos).addError newPos)
    | some v =>
      if v = 0x22 then .ok (some (newPos, used), c) else
      if isLwsChar v then
        match bCopyLWS c.src c.a.cap newPos used c.a.mem with
        | .panic => .panic
        | .hang => .hang
        | .ok (ok, p, u, m) =>
          let c : BCtx := { c with pos := p, a := { c.a with used := u, mem := m } }
          if !ok then .ok (none, c.addError p) else bQuotedLoop fuel c p u
      else if isSipQuotedText v then
        if used ≥ c.a.cap then .panic else bQuotedLoop fuel (c.setMem (upd c.a.mem used v)) (newPos + 1) (u32 (used + 1))
      else if v = 0x5c then
        match c.src[newPos + 1]? with
        | none => .ok (none, (c.setPos newPos).addError newPos)
        | some w =>
          if used + 1 ≥ c.a.cap then .panic
          else bQuotedLoop fuel (c.setMem (upd (upd c.a.mem used v) (used + 1) w)) (newPos + 2) (u32 (used + 2))
      else .ok (none, (c.setPos newPos).addError newPos)

/-- AbnfMem.go:566-639 `ParseAndAllocSipQuotedString`. -/
def bParseQuoted (fuel : Nat) (c : BCtx) : Out (Nat × Bool × BCtx) :=
  let newPos := parseSWS c.src c.pos
  match c.src[newPos]? with
  | none => .panic
  | some v =>
    if v ≠ 0x22 then .ok (0, false, (c.setPos newPos).addError newPos) else
    let addr := u16 (u32 (c.a.used + 2))
    match bQuotedLoop fuel c (newPos + 1) (u32 (c.a.used + 2)) with
    | .panic => .panic
    | .hang => .hang
    | .ok (none, d) => .ok (0, false, d)
    | .ok (some (p, used), d) =>
      if u16 (addr + 65534) + 2 > d.a.cap then .panic else
      let n := u32 (used + 4294967296 - addr)
      .ok (addr, true, { d with pos := p + 1, a := { d.a with
        mem := putU16 d.a.mem (u16 (addr + 65534)) n
        used := roundToAlign used memAlign
        stat := { d.a.stat with allocNum := u32 (d.a.stat.allocNum + 1), allocNumOk := u32 (d.a.stat.allocNumOk + 1), allocReqBytes := n } } })

/-- AbnfBasic.go:72-93 `AllocCString`: the string is copied (`copy` stops at the end of the arena), then the length is written. -/
def bAllocStr (buf : Bytes) (c : BCtx) : Out (Nat × BCtx) :=
  let len1 := u32 buf.length
  let r := c.a.alloc (u32 (len1 + 2))
  let addr := r.2
  let c := { c with a := r.1 }
  if addr = 0 then .ok (0, c) else
  if u16 (addr + 2) > c.a.cap then .panic else
  let m : Mem := fun i => if u16 (addr + 2) ≤ i ∧ i < u16 (addr + 2) + buf.length ∧ i < c.a.cap then buf.getD (i - u16 (addr + 2)) 0 else c.a.mem i
  if addr + 2 > c.a.cap then .panic else
  .ok (u16 (addr + 2), c.setMem (putU16 m addr (u16 len1)))

/-- AbnfPtr.go:77-91 `RemoveTelUriVisualSeperator`: in place, for the string at `p` (`n` bytes left to read). -/
def bRemoveVis : Nat → Nat → Nat → Mem → Nat × Mem
  | 0, _, write, m => (write, m)
  | n + 1, read, write, m =>
    if !isTelVisualSperator (m read) then bRemoveVis n (read + 1) (write + 1) (upd m write (m read))
    else bRemoveVis n (read + 1) write m

/-- AbnfPtr.go:77-91 `RemoveTelUriVisualSeperator` (the string lies inside an arena of at most 65536 bytes, so no index is out of range and the
16 bit sums do not wrap). -/
def bRemoveVisual (m : Mem) (p : Nat) : Mem :=
  let r := bRemoveVis (strlen m p) p p m
  putU16 r.2 (p - 2) (r.1 - p)

end Sip
