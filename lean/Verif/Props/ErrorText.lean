import Verif.Model.Error
import Verif.Props.Errors
/-!
# C50 - The text of an error

Writing an error never panics, whatever position it carries, and quotes at most 40 bytes of the input.
-/
namespace Sip

/-- the text of an error, as documentation would give it: the place in the code, the description, and the input at the error, at most 40 bytes of it -/
def errorText (e : AbnfError) : Bytes :=
  e.fileName ++ str ":" ++ encodeUInt e.line ++ str ": " ++ e.description ++
    (if e.pos < e.src.length then str " at src[" ++ encodeUInt e.pos ++ str "]: " ++ (e.src.drop e.pos).take 40 else [])

/-- **C50** writing an error never panics; its text is the documented one -/
theorem error_write (e : AbnfError) : e.write = .ok (errorText e) := by
  unfold AbnfError.write errorText
  by_cases h : e.pos < e.src.length
  · simp only [if_pos h]
    by_cases h2 : e.src.length < e.pos + 40
    · simp only [if_pos h2, sliceOf]
      rw [if_pos ⟨by omega, by omega⟩, show e.pos + (e.src.length - e.pos) - e.pos = e.src.length - e.pos by omega,
        List.take_of_length_le (l := e.src.drop e.pos) (by rw [List.length_drop]; omega),
        List.take_of_length_le (l := e.src.drop e.pos) (i := 40) (by rw [List.length_drop]; omega)]
      simp only [Out.ok_bind, List.append_assoc]
    · simp only [if_neg h2, sliceOf]
      rw [if_pos ⟨by omega, by omega⟩, show e.pos + 40 - e.pos = 40 by omega]
      simp only [Out.ok_bind, List.append_assoc]
  · simp only [if_neg h, List.append_nil]

/-- **C50** an error quotes the first byte it complains about, unless it is at the end of the input -/
theorem error_quotes (e : AbnfError) (h : e.pos < e.src.length) :
    ∃ a t, errorText e = a ++ t ∧ t ≠ [] ∧ t.length ≤ 40 ∧ ∃ r, e.src.drop e.pos = t ++ r := by
  unfold errorText
  rw [if_pos h]
  refine ⟨e.fileName ++ str ":" ++ encodeUInt e.line ++ str ": " ++ e.description ++ str " at src[" ++ encodeUInt e.pos ++ str "]: ", (e.src.drop e.pos).take 40, ?_, ?_, ?_,
    (e.src.drop e.pos).drop 40, (List.take_append_drop 40 _).symm⟩
  · simp only [List.append_assoc]
  · intro h0
    have := congrArg List.length h0
    rw [List.length_take, List.length_drop] at this
    simp only [List.length_nil] at this
    omega
  · rw [List.length_take]; omega

/-- what is written for a list of errors, the newest first, numbered from `k` on -/
def errorLines (nl : Bytes) : Nat → List AbnfError → Bytes
  | _, [] => []
  | k, e :: es => str "[" ++ encodeUInt k ++ str "]: " ++ errorText e ++ nl ++ errorLines nl (k + 1) es

theorem errorsLoop_spec (nl : Bytes) (es : List AbnfError) : ∀ i, i ≤ es.length → errorsLoop nl es i = .ok (errorLines nl (es.length - i + 1) (es.take i).reverse) := by
  intro i
  induction i with
  | zero => intro _; simp [errorsLoop, errorLines]
  | succ i ih =>
    intro h
    unfold errorsLoop
    rw [List.getElem?_eq_getElem (by omega : i < es.length)]
    dsimp only
    rw [error_write, ih (by omega)]
    simp only [Out.ok_bind]
    rw [List.take_succ_eq_append_getElem (by omega : i < es.length), List.reverse_append]
    simp only [List.reverse_cons, List.reverse_nil, List.nil_append, List.singleton_append, errorLines]
    rw [show es.length - (i + 1) + 1 = es.length - i by omega]

/-- **C50** a list of errors is written completely, the newest error first and numbered from 1 on, for every list -/
theorem errors_write (nl : Bytes) (es : List AbnfError) : errorsWrite nl es = .ok (errorLines nl 1 es.reverse) := by
  unfold errorsWrite
  rw [errorsLoop_spec nl es _ (Nat.le_refl _), List.take_length, Nat.sub_self]

/-- **C50, fault** an error without description at the end of the input is written without one, although the code prepares a text for it -/
theorem error_unknown_lost :
    ({ description := [], src := str "x", pos := 1, fileName := str "f.go", line := 7 } : AbnfError).write = .ok (str "f.go:7: ") := by decide +kernel

/-- the hypotheses are met -/
theorem error_text_samples :
    ({ description := str "no mem", src := str "Via: x", pos := 5, fileName := str "f.go", line := 7 } : AbnfError).write = .ok (str "f.go:7: no mem at src[5]: x") ∧
    errorsWrite (str "\n") [⟨str "a", str "s", 0, str "f", 1⟩, ⟨str "b", str "s", 1, str "g", 2⟩] = .ok (str "[1]: g:2: b\n[2]: f:1: a at src[0]: s\n") := by
  constructor <;> decide +kernel

end Sip
