import Verif.Model.Charset
/-!
# The generated name tries (SipMethodIndex.go, SipHeadersIndex.go)

Both Go functions are generated from five statement shapes.  `tools/gentrie.py` translates the Go text, statement by statement, to terms of
`Trie` (`Verif/Model/TrieTable.lean`) and aborts on any other shape; `Trie.run` is the meaning of the shapes.
-/
namespace Sip

/-- A byte test: `src[pos] == 'c'`, or `(src[pos] | 0x20) == 'c'` when `low`. -/
structure Pat where
  low : Bool
  ch : UInt8
  deriving DecidableEq, Repr

/-- SipHeadersIndex.go:138 ff: `(src[pos] | 0x20) == 'c'` or `src[pos] == 'c'`. -/
def Pat.test (p : Pat) (b : UInt8) : Bool := (if p.low then b ||| 0x20 else b) == p.ch

/-- The statement shapes of SipMethodIndex.go:22-247 and SipHeadersIndex.go:130-2857; what follows is executed at the current `pos`. -/
inductive Trie where
  /-- `return UNKNOWN, pos` -/
  | fail
  /-- `if (pos >= len1) || !IsSipToken(src[pos]) { return i, pos }`, then `k` -/
  | acc (i : Nat) (k : Trie)
  /-- `if (pos < len1) && test(src[pos]) { pos++; k }; return UNKNOWN, pos` -/
  | byte (p : Pat) (k : Trie)
  /-- `if (pos + n-1) >= len1 { return UNKNOWN, pos }; if test0(src[pos]) && .. { pos += n; k }; return UNKNOWN, pos` -/
  | lits (ps : List Pat) (k : Trie)
  /-- one case of `switch src[pos] { case 'c': pos++; k ... }` (no bounds check), `els` the remaining cases -/
  | case (p : Pat) (k els : Trie)
  deriving DecidableEq, Repr

/-- the conjunction of tests of the `lits` shape -/
def Pat.testAll : List Pat → Bytes → Bool
  | [], _ => true
  | p :: ps, b :: bs => p.test b && Pat.testAll ps bs
  | _ :: _, [] => false

/-- `(pos >= len1) || !IsSipToken(src[pos])` on what is left of the input -/
def endOfToken : Bytes → Bool
  | [] => true
  | b :: _ => !isSipToken b

/-- Execution of the statements: `l` is what is left of the input, `pos` the position.  Returns (index, position); `case` at the end of the
input is a Go index panic. -/
def Trie.run : Trie → Bytes → Nat → Out (Nat × Nat)
  | .fail, _, pos => .ok (0, pos)
  | .acc i k, l, pos => if endOfToken l then .ok (i, pos) else k.run l pos
  | .byte p k, l, pos =>
    match l with
    | b :: bs => if p.test b then k.run bs (pos + 1) else .ok (0, pos)
    | [] => .ok (0, pos)
  | .lits ps k, l, pos =>
    if ps.length - 1 ≥ l.length then .ok (0, pos)
    else if Pat.testAll ps l then k.run (l.drop ps.length) (pos + ps.length) else .ok (0, pos)
  | .case p k els, l, pos =>
    match l with
    | b :: bs => if p.test b then k.run bs (pos + 1) else els.run l pos
    | [] => .panic

/-- SipMethodIndex.go:22-27 / SipHeadersIndex.go:130-135: `if pos >= len1 { return UNKNOWN, pos }` in front of the first switch. -/
def Trie.lookup (t : Trie) (src : Bytes) (pos : Nat) : Out (Nat × Nat) :=
  if pos ≥ src.length then .ok (0, pos) else t.run (src.drop pos) pos

end Sip
