import Verif.Model.Str
import Verif.Model.Num
/-!
# The shape of a parser

A Go parse method `func (this *T) Parse(context *Context) (ok bool)` is modelled by a function from the context to an outcome: the value of
the filled-in struct (`some v`, the Go result `true`) or `none` (the Go result `false`) and the context afterwards.  What a struct contains
after a failed parse is not modelled.  Valid as long as at most 32768 bytes
of the arena are in use, so that an address and a tagged value cannot be confused (C05; AbnfPtr.go:12-37); every message of at most 3638 bytes stays below (C44).
-/
namespace Sip

/-- A parse method. -/
def P (α : Type) : Type := Ctx → Out (Option α × Ctx)

namespace P
/-- `return true` with the struct filled in -/
def ret {α} (a : α) : P α := fun c => .ok (some a, c)
/-- `x, ok = p(); if !ok { return false }; f` -/
def bind {α β} (p : P α) (f : α → P β) : P β := fun c =>
  match p c with
  | .ok (some a, c) => f a c
  | .ok (none, c) => .ok (none, c)
  | .panic => .panic
  | .hang => .hang
instance : Monad P where
  pure := ret
  bind := bind
/-- `return false` -/
def fail {α} : P α := fun c => .ok (none, c)
/-- `context.AddError(context.parsePos, ...); return false` -/
def err {α} : P α := fun c => .ok (none, c.addError c.pos)
/-- `if !ok { context.AddError(context.parsePos, ...); return false }` after `p` -/
def orErr {α} (p : P α) : P α := fun c =>
  match p c with
  | .ok (none, c) => .ok (none, c.addError c.pos)
  | r => r
/-- the current context -/
def get : P Ctx := fun c => .ok (some c, c)
/-- replace the context -/
def set (c : Ctx) : P Unit := fun _ => .ok (some (), c)
/-- `context.parsePos += n` -/
def skip (n : Nat) : P Unit := fun c => .ok (some (), c.adv n)
/-- the byte at `context.parsePos` after the test `context.parsePos >= len(src)`: `none` at the end -/
def peek : P (Option UInt8) := fun c => .ok (some c.cur?, c)
/-- `src[context.parsePos+k]` without a test: a panic at the end -/
def byteAt (k : Nat) : P UInt8 := fun c =>
  match c.src[c.pos + k]? with
  | some b => .ok (some b, c)
  | none => .panic
/-- an index panic -/
def panic {α} : P α := fun _ => .panic
/-- a call that returns only ok -/
def ofBool (f : Ctx → Bool × Ctx) : P Unit := fun c =>
  match f c with
  | (true, c) => .ok (some (), c)
  | (false, c) => .ok (none, c)
/-- `ParseSWS_2(context)` – always ok -/
def sws : P Unit := fun c => .ok (some (), c.sws)
/-- AbnfMem.go:695-737: allocate a struct of `n` bytes; `false` when nil -/
def alloc (n : Nat) : P Unit := fun c =>
  match c.alloc n with
  | (true, c) => .ok (some (), c)
  | (false, c) => .ok (none, c)
/-- AbnfMem.go:695-737: allocate a block of `n` bytes whose address is used without a test (a nil pointer makes the code write into the first
bytes of the arena; modelled as a panic) -/
def allocMust (n : Nat) : P Unit := fun c =>
  match c.alloc n with
  | (true, c) => .ok (some (), c)
  | (false, _) => .panic
/-- AbnfBasic.go:72-93 `AllocCString` -/
def allocStr (b : Bytes) : P Bytes := fun c =>
  match Sip.allocStr b c with
  | (some b, c) => .ok (some b, c)
  | (none, c) => .ok (none, c)
/-- AbnfBasic.go:379-399 `ParseSWSMarkCanOmmit`: the value is `matchMark` -/
def markCanOmmit (m : UInt8) : P Bool := fun c =>
  match parseSWSMarkCanOmmit c m with
  | ((b, true), c) => .ok (some b, c)
  | ((_, false), c) => .ok (none, c)
/-- AbnfMem.go:134-177 -/
def str (s : CS) : P Bytes := parseStr s
/-- AbnfMem.go:340-454 -/
def strEsc (s : CS) : P Bytes := parseStrEscapable s
/-- AbnfMem.go:456-554 -/
def strEscEmpty (s : CS) : P Bytes := parseStrEscapableEnableEmpty s
/-- AbnfMem.go:566-639 `ParseAndAllocSipQuotedString`; the budget of the loop is the length of the input, which is enough whenever the loop
terminates at all (`quoted_budget_enough`). -/
def quoted : P Bytes := fun c => parseQuoted (c.src.length + 1) c

/-- a Go `for` loop: `body` either goes on with a new loop state (`inl`) or leaves the loop (`inr`); `hang` when the budget is used up -/
def loop {σ ρ} (body : σ → P (σ ⊕ ρ)) : Nat → σ → P ρ
  | 0, _ => fun _ => .hang
  | n + 1, s => body s >>= fun
    | .inl s' => loop body n s'
    | .inr r => ret r
/-- a Go `for` loop with the length of the input as its budget, which is enough for every loop that moves forward in each round
(`safe_forLoop`) -/
def forLoop {σ ρ} (body : σ → P (σ ⊕ ρ)) (s : σ) : P ρ := fun c => loop body (c.src.length + 1) s c

theorem pure_def {α} (a : α) : (pure a : P α) = ret a := rfl
theorem bind_def {α β} (p : P α) (f : α → P β) : (p >>= f) = bind p f := rfl
theorem ret_apply {α} (a : α) (c : Ctx) : ret a c = .ok (some a, c) := rfl
theorem pure_apply {α} (a : α) (c : Ctx) : (pure a : P α) c = .ok (some a, c) := rfl
theorem bind_apply {α β} (p : P α) (f : α → P β) (c : Ctx) :
    (p >>= f) c = match p c with
      | .ok (some a, c) => f a c
      | .ok (none, c) => .ok (none, c)
      | .panic => .panic
      | .hang => .hang := rfl
theorem bind_ok {α β} {p : P α} {f : α → P β} {c c' : Ctx} {a : α} (h : p c = .ok (some a, c')) : (p >>= f) c = f a c' := by
  rw [bind_apply, h]
theorem bind_none {α β} {p : P α} {f : α → P β} {c c' : Ctx} (h : p c = .ok (none, c')) : (p >>= f) c = .ok (none, c') := by
  rw [bind_apply, h]
theorem orErr_ok {α} {p : P α} {c c' : Ctx} {a : α} (h : p c = .ok (some a, c')) : orErr p c = .ok (some a, c') := by
  unfold orErr; rw [h]
theorem peek_bind {β} (f : Option UInt8 → P β) (c : Ctx) : (peek >>= f) c = f c.cur? c := rfl
theorem skip_bind {β} (n : Nat) (f : Unit → P β) (c : Ctx) : (skip n >>= f) c = f () (c.adv n) := rfl
theorem get_bind {β} (f : Ctx → P β) (c : Ctx) : (get >>= f) c = f c c := rfl
theorem sws_bind {β} (f : Unit → P β) (c : Ctx) : (sws >>= f) c = f () c.sws := rfl
end P

/-- consume `k` bytes of input and `n` bytes of the arena -/
def Ctx.eat (c : Ctx) (k n : Nat) : Ctx := { c with pos := c.pos + k, used := c.used + n }

end Sip
