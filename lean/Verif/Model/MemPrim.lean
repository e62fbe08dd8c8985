import Verif.Model.Heap
/-!
# The memory primitives

The functions of AbnfBasic.go and AbnfPtr.go that work on raw memory, eight bytes at a time where the code does: clearing, copying, comparing.  Elsewhere in the model they
appear in the form their callers assume (`Arena.zero`, `strEqNoCase`, ...); `Verif/Props/MemPrim.lean` proves that form.
Addresses are natural numbers, memory is a function of the address; sizes are not negative.
-/
namespace Sip

/-- `*(*uint64)(unsafe.Pointer(p)) = 0` -/
def zero64 (m : Mem) (p : Nat) : Mem := fun i => if p ≤ i ∧ i < p + 8 then 0 else m i

/-- AbnfBasic.go:894-897 / 930-933: eight bytes at a time up to `stop` (`fuel` rounds). -/
def zeroWords (stop : Nat) : Nat → Nat → Mem → Out (Nat × Mem)
  | 0, _, _ => .hang
  | fuel + 1, p, m => if p < stop then zeroWords stop fuel (p + 8) (zero64 m p) else .ok (p, m)

/-- AbnfBasic.go:899-902 / 935-938: byte by byte up to `stop`. -/
def zeroBytes (stop : Nat) : Nat → Nat → Mem → Out Mem
  | 0, _, _ => .hang
  | fuel + 1, p, m => if p < stop then zeroBytes stop fuel (p + 1) (upd m p 0) else .ok m

/-- The two loops, from `p` over `size` bytes: `end1 = p + (size>>3)<<3`. -/
def zeroChunks (m : Mem) (p size : Nat) : Out Mem :=
  match zeroWords (p + size / 8 * 8) (size + 1) p m with
  | .ok (q, m) => zeroBytes (p + size) (size + 1) q m
  | .panic => .panic
  | .hang => .hang

/-- AbnfBasic.go:943-950 `ZeroMem2`, 905-910 `ZeroByteSlice2`: `for i := range x { x[i] = 0 }` (`n` rounds left). -/
def zeroRange (p : Nat) : Nat → Nat → Mem → Mem
  | 0, _, m => m
  | n + 1, i, m => zeroRange p n (i + 1) (upd m (p + i) 0)

/-- AbnfBasic.go:912-941 `ZeroMem`. -/
def zeroMem (m : Mem) (addr size : Nat) : Out Mem :=
  if size = 0 then .ok m else
  if size > 32 then .ok (zeroRange addr size 0 m) else
  zeroChunks m addr size

/-- AbnfBasic.go:884-903 `ZeroByteSlice` of the slice of `len1` bytes at `p`. -/
def zeroByteSlice (m : Mem) (p len1 : Nat) : Out Mem := if len1 = 0 then .ok m else zeroChunks m p len1

/-- `*(*int64)(unsafe.Pointer(p1)) = *(*int64)(unsafe.Pointer(p2))` -/
def copy64 (m : Mem) (p1 p2 : Nat) : Mem := fun i => if p1 ≤ i ∧ i < p1 + 8 then m (p2 + (i - p1)) else m i

/-- AbnfBasic.go:964-968 -/
def copyWords (stop : Nat) : Nat → Nat → Nat → Mem → Out (Nat × Nat × Mem)
  | 0, _, _, _ => .hang
  | fuel + 1, p1, p2, m => if p2 < stop then copyWords stop fuel (p1 + 8) (p2 + 8) (copy64 m p1 p2) else .ok (p1, p2, m)

/-- AbnfBasic.go:970-974 -/
def copyBytes (stop : Nat) : Nat → Nat → Nat → Mem → Out Mem
  | 0, _, _, _ => .hang
  | fuel + 1, p1, p2, m => if p2 < stop then copyBytes stop fuel (p1 + 1) (p2 + 1) (upd m p1 (m p2)) else .ok m

/-- AbnfBasic.go:951-975 `Memcpy(addr1, addr2, size)`: from `addr2` to `addr1`. -/
def memcpy (m : Mem) (addr1 addr2 size : Nat) : Out Mem :=
  match copyWords (addr2 + size / 8 * 8) (size + 1) addr1 addr2 m with
  | .ok (p1, p2, m) => copyBytes (addr2 + size) (size + 1) p1 p2 m
  | .panic => .panic
  | .hang => .hang

/-- AbnfPtr.go:232-242 `CopyFrom`: Go's `copy` between two parts of the arena, which may overlap; the slice expressions panic outside the arena. -/
def ptrCopyFrom (a : Arena) (this src size : Nat) : Out Arena :=
  if this = 0 ∨ src = 0 then .ok a else
  if this + size > a.cap ∨ src + size > a.cap then .panic else
  .ok { a with mem := fun i => if this ≤ i ∧ i < this + size then a.mem (src + (i - this)) else a.mem i }

/-- AbnfPtr.go:244-255 `Strlen2`: the number of bytes in front of the first zero byte (`fuel` bytes are looked at). -/
def strlen2 (m : Mem) : Nat → Nat → Out Nat
  | 0, _ => .hang
  | fuel + 1, p => if p = 0 then .ok 0 else if m p = 0 then .ok 0 else
    match strlen2 m fuel (p + 1) with
    | .ok n => .ok (n + 1)
    | r => r

/-! ## Comparison -/

/-- AbnfPtr.go:109-115: eight bytes at a time, as long as they are equal; `k` bytes have been compared. -/
def eqWords (m : Mem) (p : Nat) (name : Bytes) : Nat → Nat → Out Nat
  | 0, _ => .hang
  | fuel + 1, k =>
    if k < name.length / 8 * 8 then
      if (List.range 8).all (fun i => m (p + k + i) == name.getD (k + i) 0) then eqWords m p name fuel (k + 8) else .ok k
    else .ok k

/-- AbnfPtr.go:117-123: byte by byte, as long as they are equal. -/
def eqBytes (m : Mem) (p : Nat) (name : Bytes) : Nat → Nat → Out Nat
  | 0, _ => .hang
  | fuel + 1, k => if k < name.length then (if m (p + k) = name.getD k 0 then eqBytes m p name fuel (k + 1) else .ok k) else .ok k

/-- AbnfPtr.go:124-131: byte by byte, both in lower case. -/
def eqLower (m : Mem) (p : Nat) (name : Bytes) : Nat → Nat → Out Bool
  | 0, _ => .hang
  | fuel + 1, k => if k < name.length then (if toLower (m (p + k)) ≠ toLower (name.getD k 0) then .ok false else eqLower m p name fuel (k + 1)) else .ok true

/-- AbnfPtr.go:93-132 `CStringEqualNoCase` on the bytes of the arena.  `&name[0]` panics for an empty name. -/
def bEqNoCase (m : Mem) (p : Nat) (name : Bytes) : Out Bool :=
  if p = 0 then .ok false else
  if name.length ≠ strlen m p then .ok false else
  if name.length = 0 then .panic else
  match eqWords m p name (name.length + 1) 0 with
  | .ok k =>
    match eqBytes m p name (name.length + 1) k with
    | .ok k => eqLower m p name (name.length + 1) k
    | .panic => .panic
    | .hang => .hang
  | .panic => .panic
  | .hang => .hang

/-- AbnfPtr.go:66-75 `HasPrefixNoCase` on the bytes of the arena: `mem[this : this+AbnfPtr(len2)]` panics outside the arena, or when the 16 bit sum wraps. -/
def bHasPrefixNoCase (m : Mem) (cap p : Nat) (pre : Bytes) : Out Bool :=
  if strlen m p < pre.length then .ok false else
  let stop := u16 (p + u16 pre.length)
  if stop > cap ∨ p > stop then .panic else
  .ok (((List.range (stop - p)).map fun i => toLower (m (p + i))) == pre.map toLower)

/-! ## Host setters (SipHostPort: id@0, hasPort@1, port@2, data@4) -/
namespace B

/-- SipHostPort.go:42-45 `SetPort`. -/
def setPort (this port : Nat) : B Unit := do
  put8 (this + 1) 1
  put16 (this + 2) port

/-- SipHostPort.go:315-344 `SetIpv4`. -/
def setIpv4 (this : Nat) (ip : Bytes) : B Unit := do
  let a ← allocRaw 4
  copyTo a 4 ip
  put8 this 1
  put16 (this + 4) a

/-- SipHostPort.go:346-376 `SetIpv6`. -/
def setIpv6 (this : Nat) (ip : Bytes) : B Unit := do
  let a ← allocRaw 16
  copyTo a 16 ip
  put8 this 2
  put16 (this + 4) a

/-- SipHostPort.go:378-387 `SetHostname`. -/
def setHostname (this : Nat) (name : Bytes) : B Unit := do
  let a ← allocStr name
  put8 this 3
  put16 (this + 4) a

/-- SipUri.go:164-191, SipHeaderVia.go:269-293 `SetKnownParams` for the `i`-th of `n` names, as compiled: when there is no memory for the array the nil address is used all the
same, which is the address of the first byte of the arena. -/
def setKnownRaw (n i field param : Nat) : B Unit := fun c =>
  let k := (c.a.mem field).toNat + 256 * (c.a.mem (field + 1)).toNat
  if k ≠ 0 then put16 (k + 2 * i) param c else
  match c.a.allocWithClear (2 * n) with
  | .ok (a, p) => (do put16 field p; put16 (p + 2 * i) param) { c with a := a }
  | .panic => .panic
  | .hang => .hang

end B
end Sip
