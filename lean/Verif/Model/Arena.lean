import Verif.Model.Core
/-!
# Byte-level model of `MemAllocator` (src/sipparser/AbnfMem.go) and of 16 bit arena pointers (AbnfPtr.go)

`uint32` quantities are `Nat`s with the reduction `u32` written out at every Go addition that can wrap;
`AbnfPtr` (uint16) quantities are reduced with `u16`.
-/
namespace Sip

/-- uint32 reduction. -/
def u32 (n : Nat) : Nat := n % 4294967296
/-- uint16 reduction. -/
def u16 (n : Nat) : Nat := n % 65536

/-- AbnfMem.go:18  `ABNF_MEM_PREFIX_LEN`. -/
def prefixLen : Nat := 8
/-- AbnfMem.go:15  `ABNF_MEM_ALIGN`. -/
def memAlign : Nat := 1

/-- AbnfMem.go:20-22  `RoundToAlign`: `(x + align - 1) & ^(align - 1)` on uint32. -/
def roundToAlign (x align : Nat) : Nat :=
  u32 (x + align + 4294967295) &&& (4294967295 - u32 (align + 4294967295))

/-- AbnfMem.go:24-31 `MemAllocatorStat`. -/
structure Stat where
  allocNum : Nat := 0
  allocNumOk : Nat := 0
  freeAllNum : Nat := 0
  freePartNum : Nat := 0
  allocReqBytes : Nat := 0
  allocBytes : Nat := 0
  deriving DecidableEq, Repr

/-- AbnfMem.go:64-68 `MemAllocator`.  `mem` is total; `cap` is `cap(this.mem) = len(this.mem)`.  Every Go slice index is
guarded by an explicit comparison with `cap` in the functions below (out of range = `Out.panic`); writes done through
`unsafe.Pointer` are not guarded, as in Go, so a model state can show a byte changed at an index `≥ cap`. -/
structure Arena where
  used : Nat
  stat : Stat
  mem : Nat → UInt8
  cap : Nat

namespace Arena

/-- AbnfMem.go:70-81 `NewMemAllocator`/`Init`: `make([]byte, int(capacity+8))`, `used = 8`, all bytes zero. -/
def new (capacity : Nat) : Arena :=
  { used := prefixLen, stat := {}, mem := fun _ => 0, cap := u32 (capacity + prefixLen) }

/-- AbnfMem.go:87-89 `Used()` (uint32 subtraction). -/
def usedBytes (a : Arena) : Nat := u32 (a.used + 4294967296 - prefixLen)
/-- AbnfMem.go:119-121 `Capacity()`. -/
def capacity (a : Arena) : Nat := u32 (a.cap + 4294967296 - prefixLen)
/-- AbnfMem.go:123-125 `Left()` (uint32 subtraction). -/
def left (a : Arena) : Nat := u32 (a.cap + 4294967296 - a.used)
/-- AbnfMem.go:91-93 `ClearAllocNum`. -/
def clearAllocNum (a : Arena) : Arena := { a with stat := { a.stat with allocNum := 0 } }

/-- The two statistics updates shared by the three allocation functions (AbnfMem.go:696-697, 718-719, 740-741). -/
def countReq (a : Arena) (size : Nat) : Arena :=
  { a with stat := { a.stat with allocNum := u32 (a.stat.allocNum + 1), allocReqBytes := u32 (a.stat.allocReqBytes + size) } }

/-- AbnfMem.go:695-713 `Alloc`.  Returns the new arena and the pointer (0 is `ABNF_PTR_NIL`). -/
def alloc (a : Arena) (size : Nat) : Arena × Nat :=
  let a := a.countReq size
  if size ≤ 0 then (a, 0) else
  let newSize := roundToAlign (u32 (a.used + size)) memAlign
  if newSize > a.cap then (a, 0) else
  let used := a.used
  ({ a with stat := { a.stat with allocNumOk := u32 (a.stat.allocNumOk + 1) }, used := newSize }, u16 used)

/-- AbnfBasic.go `ZeroMem(addr, size)` on the arena: an unchecked clear of `size` bytes. -/
def zero (m : Nat → UInt8) (addr size : Nat) : Nat → UInt8 :=
  fun i => if addr ≤ i ∧ i < addr + size then 0 else m i

/-- AbnfMem.go:715-737 `AllocWithClear`: like `Alloc`, then `ZeroMem(&this.mem[used], int(newSize-used))`;
the index expression panics when `used` is out of range. -/
def allocWithClear (a : Arena) (size : Nat) : Out (Arena × Nat) :=
  let a := a.countReq size
  if size ≤ 0 then .ok (a, 0) else
  let newSize := roundToAlign (u32 (a.used + size)) memAlign
  if newSize > a.cap then .ok (a, 0) else
  let used := a.used
  let a := { a with stat := { a.stat with allocNumOk := u32 (a.stat.allocNumOk + 1) }, used := newSize }
  if used ≥ a.cap then .panic else
  .ok ({ a with mem := zero a.mem used (u32 (newSize + 4294967296 - used)) }, u16 used)

/-- AbnfMem.go:739-758 `AllocEx`. Returns arena, pointer, allocated size. -/
def allocEx (a : Arena) (size : Nat) : Arena × Nat × Nat :=
  let a := a.countReq size
  if size ≤ 0 then (a, 0, 0) else
  let used := a.used
  let newSize := roundToAlign (u32 (used + size)) memAlign
  if newSize > a.cap then (a, 0, 0) else
  ({ a with stat := { a.stat with allocNumOk := u32 (a.stat.allocNumOk + 1) }, used := newSize }, u16 used,
    u32 (newSize + 4294967296 - used))

/-- AbnfMem.go:760-763 `FreeAll`. -/
def freeAll (a : Arena) : Arena :=
  { a with stat := { a.stat with freeAllNum := u32 (a.stat.freeAllNum + 1) }, used := prefixLen }

/-- AbnfMem.go:765-774 `FreePart`.  `remain` is relative (as returned by `Used()`), but is compared with the
absolute `used` — the code does so, and so does the model. -/
def freePart (a : Arena) (remain : Nat) : Arena :=
  let a := { a with stat := { a.stat with freePartNum := u32 (a.stat.freePartNum + 1) } }
  if remain ≥ a.used then a else
  let a := { a with used := u32 (remain + prefixLen) }
  if a.used < prefixLen then { a with used := prefixLen } else a

end Arena

/-- The calls a client can make on an allocator. -/
inductive MemOp where
  | alloc (size : Nat)
  | allocEx (size : Nat)
  | allocWithClear (size : Nat)
  | freeAll
  | freePart (remain : Nat)
  deriving DecidableEq, Repr

/-- One client call.  Output: the pointer returned (0 = nil; also 0 for frees). -/
def MemOp.run (a : Arena) : MemOp → Out (Arena × Nat)
  | .alloc n => .ok (a.alloc n)
  | .allocEx n => .ok ((a.allocEx n).1, (a.allocEx n).2.1)
  | .allocWithClear n => a.allocWithClear n
  | .freeAll => .ok (a.freeAll, 0)
  | .freePart r => .ok (a.freePart r, 0)

/-- A history of client calls, with the list of returned pointers (oldest first). -/
def runOps : Arena → List MemOp → Out (Arena × List Nat)
  | a, [] => .ok (a, [])
  | a, op :: ops =>
    match op.run a with
    | .ok (a1, r) =>
      match runOps a1 ops with
      | .ok (a2, rs) => .ok (a2, r :: rs)
      | .panic => .panic
      | .hang => .hang
    | .panic => .panic
    | .hang => .hang

/-! ## AbnfPtr tags -/

/-- AbnfPtr.go:15-19 `ABNF_PTR_BIT`. -/
def ptrBit : Nat := 32768
/-- AbnfPtr.go:23-25 `IsAbnfPtr`: `(this & 0x8000) == 0`. -/
def isAbnfPtr (p : Nat) : Bool := (p &&& ptrBit) == 0
/-- AbnfPtr.go:27-29 `GetValue`: `this & 0x7fff`. -/
def getValue (p : Nat) : Nat := p &&& 32767
/-- AbnfPtr.go:31-33 `AbnfPtrSetValue`: `value | 0x8000`. -/
def ptrSetValue (v : Nat) : Nat := v ||| ptrBit

end Sip
