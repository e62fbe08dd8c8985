import Verif.Model.ArenaStr
import Verif.Model.Parser
/-!
# Parse methods on the bytes of the arena

The parse methods once more, now with the structs in the arena: a method of `*T` gets the address of the struct, fields are read and written at their offsets (the
layout Go gives the struct on a 64 bit platform), pointers are 16 bit numbers, linked lists are linked.  `B α` is to `BCtx` (the context with the bytes of the arena)
what `P α` is to `Ctx`.  Functions that do not touch the arena at all are taken from the value layer (`B.lift`).
`Verif/Props/Heap*.lean` prove that the value layer is a correct abstraction of these methods.
-/
namespace Sip

/-- A parse method on bytes: the result is `some x` (Go: true) or `none` (Go: false). -/
def B (β : Type) : Type := BCtx → Out (Option β × BCtx)

namespace B
/-- `return true` -/
def ret {β} (x : β) : B β := fun c => .ok (some x, c)
/-- `x, ok = b(); if !ok { return false }; g` -/
def bind {β γ} (b : B β) (g : β → B γ) : B γ := fun c =>
  match b c with
  | .ok (some x, c) => g x c
  | .ok (none, c) => .ok (none, c)
  | .panic => .panic
  | .hang => .hang
instance : Monad B where
  pure := ret
  bind := bind
/-- `return false` -/
def fail {β} : B β := fun c => .ok (none, c)
/-- `context.AddError(context.parsePos, ...); return false` -/
def err {β} : B β := fun c => .ok (none, c.addError c.pos)
/-- `if !ok { context.AddError(context.parsePos, ...); return false }` -/
def orErr {β} (b : B β) : B β := fun c =>
  match b c with
  | .ok (none, c) => .ok (none, c.addError c.pos)
  | r => r
/-- an index panic -/
def panic {β} : B β := fun _ => .panic
/-- a function that reads the input, moves the position and records errors, but does not touch the arena: the one of the value layer -/
def lift {α} (p : P α) : B α := fun c =>
  match p { src := c.src, pos := c.pos, used := c.a.used, cap := c.a.cap, errs := c.errs, flags := c.flags } with
  | .ok (r, d) => .ok (r, { c with pos := d.pos, errs := d.errs })
  | .panic => .panic
  | .hang => .hang
/-- the byte at the parse position, if any -/
def peek : B (Option UInt8) := lift P.peek
/-- `context.parsePos += n` -/
def skip (n : Nat) : B Unit := lift (P.skip n)
/-- `context.parsePos = p` -/
def setPos (p : Nat) : B Unit := lift (fun c => .ok (some (), c.setPos p))
/-- the input, the position and the options -/
def ctx : B Ctx := lift P.get
/-- a byte of the arena -/
def get8 (a : Nat) : B UInt8 := fun c => .ok (some (c.a.mem a), c)
/-- a field of type AbnfPtr or uint16, little endian -/
def get16 (a : Nat) : B Nat := fun c => .ok (some ((c.a.mem a).toNat + 256 * (c.a.mem (a + 1)).toNat), c)
/-- `x.f = v` for a field of type byte or bool -/
def put8 (a : Nat) (v : UInt8) : B Unit := fun c => .ok (some (), c.setMem (upd c.a.mem a v))
/-- `x.f = v` for a field of type AbnfPtr or uint16 -/
def put16 (a n : Nat) : B Unit := fun c => .ok (some (), c.setMem (putU16 c.a.mem a n))
/-- `x.f = v` for a field of type uint32 -/
def put32 (a n : Nat) : B Unit := fun c => .ok (some (), c.setMem (putU16 (putU16 c.a.mem a n) (a + 2) (n / 65536)))
/-- AbnfMem.go:715-737 `AllocWithClear` of `n` bytes; `none` when the address is nil -/
def alloc (n : Nat) : B Nat := fun c =>
  match c.a.allocWithClear n with
  | .ok (a, p) => if p = 0 then .ok (none, { c with a := a }) else .ok (some p, { c with a := a })
  | .panic => .panic
  | .hang => .hang
/-- AbnfMem.go:695-713 `Alloc` of `n` bytes; `none` when the address is nil -/
def allocRaw (n : Nat) : B Nat := fun c =>
  let r := c.a.alloc n
  if r.2 = 0 then .ok (none, { c with a := r.1 }) else .ok (some r.2, { c with a := r.1 })
/-- the bytes of a string, `GetCStringAsByteSlice` (AbnfPtr.go:212-219) -/
def getStr (p : Nat) : B Bytes := fun c => .ok (some (readStr c.a.mem p), c)
/-- AbnfPtr.go:77-91 `RemoveTelUriVisualSeperator` -/
def removeVisual (p : Nat) : B Unit := fun c => .ok (some (), c.setMem (bRemoveVisual c.a.mem p))
/-- `copy(addr.GetAsByteSlice(context, n), l)` for a block of `n` bytes -/
def copyTo (a n : Nat) (l : Bytes) : B Unit := fun c => .ok (some (), c.setMem (fun i => if a ≤ i ∧ i < a + n ∧ i < a + l.length then l.getD (i - a) 0 else c.a.mem i))
/-- the string functions of AbnfMem.go return a pointer and ok -/
def ofStr (f : BCtx → Out (Nat × Bool × BCtx)) : B Nat := fun c =>
  match f c with
  | .ok (p, true, c) => .ok (some p, c)
  | .ok (_, false, c) => .ok (none, c)
  | .panic => .panic
  | .hang => .hang
/-- AbnfMem.go:237-298 -/
def strFromPos (s : CS) (pos : Nat) : B Nat := ofStr (bParseStrFromPos s pos)
/-- `ZeroMem(this.memAddr(), n)` -/
def zero (a n : Nat) : B Unit := fun c => .ok (some (), c.setMem (Arena.zero c.a.mem a n))
/-- `AllocWithClear` without a test of the address (see `P.allocMust`: a write through the nil pointer is modelled as a panic) -/
def allocMust (n : Nat) : B Nat := fun c =>
  match alloc n c with
  | .ok (none, _) => .panic
  | r => r
/-- AbnfMem.go:134-177 -/
def str (s : CS) : B Nat := ofStr (bParseStr s)
/-- AbnfMem.go:340-454 -/
def strEsc (s : CS) : B Nat := ofStr (bParseStrEsc false s)
/-- AbnfMem.go:456-554 -/
def strEscEmpty (s : CS) : B Nat := ofStr (bParseStrEsc true s)
/-- AbnfMem.go:566-639, with the budget of `P.quoted` -/
def quoted : B Nat := fun c => ofStr (bParseQuoted (c.src.length + 1)) c
/-- AbnfMem.go:179-235 -/
def tel (s : CS) : B Nat := ofStr (bParseTelNumber s)
/-- AbnfBasic.go:72-93 `AllocCString`; `none` when the address is nil -/
def allocStr (b : Bytes) : B Nat := fun c =>
  match bAllocStr b c with
  | .ok (p, c) => if p = 0 then .ok (none, c) else .ok (some p, c)
  | .panic => .panic
  | .hang => .hang
/-- a Go `for` loop, see `P.loop` -/
def loop {σ ρ} (body : σ → B (σ ⊕ ρ)) : Nat → σ → B ρ
  | 0, _ => fun _ => .hang
  | n + 1, s => body s >>= fun
    | .inl s' => loop body n s'
    | .inr r => ret r
/-- a Go `for` loop, see `P.forLoop` -/
def forLoop {σ ρ} (body : σ → B (σ ⊕ ρ)) (s : σ) : B ρ := fun c => loop body (c.src.length + 1) s c
end B

end Sip
