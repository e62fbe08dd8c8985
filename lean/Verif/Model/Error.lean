import Verif.Model.Num
/-! # The text of an error (src/sipparser/AbnfError.go) -/
namespace Sip

/-- AbnfError.go:8-15 `AbnfError` without the program counter, which nothing reads.  Simplification: the line number is a natural number (it is -1 when the caller is
not known). -/
structure AbnfError where
  description : Bytes
  src : Bytes
  pos : Nat
  fileName : Bytes
  line : Nat
  deriving DecidableEq, Repr

/-- a Go slice expression `s[a:b]` -/
def sliceOf (s : Bytes) (a b : Nat) : Out Bytes := if a ≤ b ∧ b ≤ s.length then .ok ((s.drop a).take (b - a)) else .panic

/-- AbnfError.go:27-44 `AbnfError.Write`: what is appended to the buffer.  The text for an empty description is computed and not used. -/
def AbnfError.write (e : AbnfError) : Out Bytes :=
  if e.pos < e.src.length then do
    let num := if e.src.length < e.pos + 40 then e.src.length - e.pos else 40
    let t ← sliceOf e.src e.pos (e.pos + num)
    .ok (e.fileName ++ str ":" ++ encodeUInt e.line ++ str ": " ++ e.description ++ str " at src[" ++ encodeUInt e.pos ++ str "]: " ++ t)
  else .ok (e.fileName ++ str ":" ++ encodeUInt e.line ++ str ": " ++ e.description)

/-- AbnfError.go:67-71: the loop of `AbnfErrors.Write` from index `i - 1` down to 0; `es` are the errors in the order in which they were added, `nl` what `Printfln`
of the buffer package (not part of the repository) writes at the end of a line -/
def errorsLoop (nl : Bytes) (es : List AbnfError) : Nat → Out Bytes
  | 0 => .ok []
  | i + 1 => do
    let t ← match es[i]? with
      | some e => e.write
      | none => .panic
    let r ← errorsLoop nl es i
    .ok (str "[" ++ encodeUInt (es.length - i) ++ str "]: " ++ t ++ nl ++ r)

/-- AbnfError.go:65-72 `AbnfErrors.Write`. -/
def errorsWrite (nl : Bytes) (es : List AbnfError) : Out Bytes := errorsLoop nl es es.length

end Sip
