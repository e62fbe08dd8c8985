/-!
# Core: results, bytes, and list helpers shared by the whole model

Go run-time behaviour is made explicit through `Out`:
* `ok a`   – the call returned `a`;
* `panic`  – the Go program panics (index out of range, slice bounds, nil slice index);
* `hang`   – a loop ran out of its budget (`fuel`).  Loops that the Go code terminates are proved never to
             return `hang`; the one loop that really does not terminate is proved to return `hang` for every budget.
-/

namespace Sip

/-- Outcome of a Go call. -/
inductive Out (α : Type) where
  | ok (a : α)
  | panic
  | hang
  deriving DecidableEq, Repr

namespace Out
def bind {α β : Type} : Out α → (α → Out β) → Out β
  | ok a, f => f a
  | panic, _ => panic
  | hang, _ => hang
instance : Monad Out where
  pure := ok
  bind := bind
@[simp] theorem pure_eq {α} (a : α) : (pure a : Out α) = ok a := rfl
@[simp] theorem ok_bind {α β} (a : α) (f : α → Out β) : (ok a >>= f) = f a := rfl
@[simp] theorem panic_bind {α β} (f : α → Out β) : ((panic : Out α) >>= f) = panic := rfl
@[simp] theorem hang_bind {α β} (f : α → Out β) : ((hang : Out α) >>= f) = hang := rfl
/-- Decidable check of a property of a successful outcome (used to evaluate concrete cases in the kernel). -/
def all {α} (o : Out α) (q : α → Bool) : Bool :=
  match o with
  | ok a => q a
  | _ => false
theorem exists_of_all {α} {o : Out α} {Q : α → Prop} [DecidablePred Q] (h : o.all (fun a => decide (Q a)) = true) :
    ∃ a, o = ok a ∧ Q a := by
  cases o with
  | ok a => exact ⟨a, rfl, by simpa [all] using h⟩
  | panic => simp [all] at h
  | hang => simp [all] at h
theorem exists_of_all2 {α β} {o : Out (α × β)} {Q : α → β → Prop} [∀ a b, Decidable (Q a b)]
    (h : o.all (fun a => decide (Q a.1 a.2)) = true) : ∃ a b, o = ok (a, b) ∧ Q a b := by
  cases o with
  | ok a => exact ⟨a.1, a.2, rfl, by simpa [all] using h⟩
  | panic => simp [all] at h
  | hang => simp [all] at h
end Out

abbrev Byte := UInt8
abbrev Bytes := List UInt8

/-- The bytes of a Lean string literal (used for the ASCII constants that appear in the Go source). -/
def str (s : String) : Bytes := s.toList.map fun c => UInt8.ofNat c.toNat

/-- Equality of all bytes is decidable, by enumeration of the 256 values. -/
theorem forall_byte {P : UInt8 → Prop} (h : ∀ n : Fin 256, P (UInt8.ofNat n.val)) : ∀ c : UInt8, P c := by
  intro c
  have h1 := h ⟨c.toNat, c.toNat_lt⟩
  simpa using h1

instance {P : UInt8 → Prop} [DecidablePred P] : Decidable (∀ c : UInt8, P c) :=
  decidable_of_iff (∀ n : Fin 256, P (UInt8.ofNat n.val))
    ⟨forall_byte, fun h _ => h _⟩

/-- Number of leading elements satisfying `p`. -/
def runLen (p : UInt8 → Bool) : Bytes → Nat
  | [] => 0
  | c :: cs => if p c then runLen p cs + 1 else 0

theorem runLen_eq_takeWhile (p : UInt8 → Bool) (l : Bytes) : runLen p l = (l.takeWhile p).length := by
  induction l with
  | nil => rfl
  | cons c cs ih => simp only [runLen, List.takeWhile]; cases p c <;> simp [ih]

theorem runLen_le (p : UInt8 → Bool) (l : Bytes) : runLen p l ≤ l.length := by
  induction l with
  | nil => simp [runLen]
  | cons c cs ih => simp only [runLen]; split <;> simp <;> omega

end Sip
