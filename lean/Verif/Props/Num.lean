import Verif.Model.Num
import Verif.Lemmas.Lws
import Verif.Lemmas.Arena
/-!
# C10: decimal numbers

Specification: `decVal` is the usual value of a digit string, as an unbounded natural number.
-/
namespace Sip

/-- value of a digit string -/
def decVal (ds : Bytes) : Nat := ds.foldl (fun n c => n * 10 + (c.toNat - 48)) 0
/-- all bytes are ASCII digits -/
def AllDigits (ds : Bytes) : Prop := ∀ c ∈ ds, 48 ≤ c.toNat ∧ c.toNat ≤ 57
instance (ds : Bytes) : Decidable (AllDigits ds) := by unfold AllDigits; infer_instance

theorem isDigit_iff (c : UInt8) : isDigit c = true ↔ 48 ≤ c.toNat ∧ c.toNat ≤ 57 := by
  have h : ∀ c : UInt8, isDigit c = (decide (48 ≤ c.toNat) && decide (c.toNat ≤ 57)) := by decide +kernel
  rw [h]; simp

theorem decVal_snoc (ds : Bytes) (c : UInt8) : decVal (ds ++ [c]) = decVal ds * 10 + (c.toNat - 48) := by
  simp [decVal]

theorem digitLoop_eq (s : Bytes) (pre : Bytes) (pos : Nat) :
    digitLoop s (u64 (decVal pre)) pos = (u64 (decVal (pre ++ s.take (runLen isDigit s))), pos + runLen isDigit s) := by
  induction s generalizing pre pos with
  | nil => simp [digitLoop, runLen]
  | cons c cs ih =>
    unfold digitLoop
    by_cases h : isDigit c = true
    · rw [if_pos h, runLen_cons_true h]
      have hd := (isDigit_iff c).1 h
      have : u64 (u64 (decVal pre) * 10 + c.toNat + 18446744073709551616 - 48) = u64 (decVal (pre ++ [c])) := by
        rw [decVal_snoc]; simp only [u64]; omega
      rw [this, ih]
      simp; omega
    · rw [if_neg h, runLen_cons_false (by simpa using h)]; simp

theorem parseUInt_eq (src : Bytes) (pos : Nat) :
    parseUInt src pos =
      if runLen isDigit (src.drop pos) = 0 then ⟨0, 0, pos, false⟩
      else ⟨u64 (decVal ((src.drop pos).take (runLen isDigit (src.drop pos)))), u32 (runLen isDigit (src.drop pos)),
        pos + runLen isDigit (src.drop pos), true⟩ := by
  unfold parseUInt
  rw [getElem?_eq_drop]
  match hd : src.drop pos with
  | [] =>
    have := length_le_of_drop_nil hd
    simp [this, runLen]
  | c :: r =>
    have hlt := lt_of_drop_cons hd
    by_cases h : isDigit c = true
    · have h1 : ¬ (pos ≥ src.length ∨ (c :: r)[0]?.map isDigit ≠ some true) := by simp [h]; omega
      rw [if_neg h1, if_neg (by rw [runLen_cons_true h]; omega)]
      have := digitLoop_eq (c :: r) [] pos
      have h0 : u64 (decVal []) = 0 := rfl
      rw [h0] at this
      rw [this]
      simp
    · have h' : isDigit c = false := by simpa using h
      rw [if_pos (by right; simp [h']), if_pos (runLen_cons_false h')]

/-- **C10** `ParseUInt` on a digit string followed by something else (or the end): it reads exactly the digits and returns their
value *modulo 2^64*.  Values of 2^64 and more are not rejected (`parseUInt_wraps`). -/
theorem parseUInt_value (src : Bytes) (pos : Nat) (ds rest : Bytes) (h : src.drop pos = ds ++ rest) (hne : ds ≠ [])
    (hd : AllDigits ds) (hr : ∀ c ∈ rest.head?, ¬ (48 ≤ c.toNat ∧ c.toNat ≤ 57)) (hlen : ds.length < 4294967296) :
    parseUInt src pos = ⟨decVal ds % 18446744073709551616, ds.length, pos + ds.length, true⟩ := by
  have hd' : ∀ c ∈ ds, isDigit c = true := fun c hc => (isDigit_iff c).2 (hd c hc)
  have hrl : runLen isDigit (src.drop pos) = ds.length := by
    rw [h, runLen_append_of_all hd']
    cases rest with
    | nil => simp [runLen]
    | cons x r =>
      have : isDigit x = false := by
        have := hr x (by simp); rw [← isDigit_iff] at this; simpa using this
      rw [runLen_cons_false this]; omega
  have h0 : ds.length ≠ 0 := by simpa using hne
  rw [parseUInt_eq, if_neg (by omega), hrl, u32_id hlen, h]
  simp [u64]

example : (str "port=05060;").drop 5 = str "05060" ++ str ";" ∧ AllDigits (str "05060") ∧ decVal (str "05060") = 5060 := by decide +kernel

/-- **C10** it fails, without moving, exactly when no digit is at the position. -/
theorem parseUInt_fails_iff (src : Bytes) (pos : Nat) :
    ((parseUInt src pos).ok = false ↔ ∀ c ∈ (src.drop pos).head?, ¬ (48 ≤ c.toNat ∧ c.toNat ≤ 57)) ∧
    ((parseUInt src pos).ok = false → (parseUInt src pos).newPos = pos) := by
  rw [parseUInt_eq]
  cases hd : src.drop pos with
  | nil => simp [runLen]
  | cons c r =>
    by_cases h : isDigit c = true
    · have := (isDigit_iff c).1 h
      rw [if_neg (by rw [runLen_cons_true h]; omega)]
      simp; omega
    · have h' : isDigit c = false := by simpa using h
      rw [if_pos (runLen_cons_false h')]
      have : ¬ (48 ≤ c.toNat ∧ c.toNat ≤ 57) := by rw [← isDigit_iff]; exact h
      simp only [List.head?_cons, Option.mem_def, Option.some.injEq, forall_eq', true_iff, implies_true, and_true]
      exact this

/-- **C10, negation of "never returned as a different number"**: 2^64 is read as 0, and the narrower variants keep only the low bits. -/
theorem parseUInt_wraps :
    parseUInt (str "18446744073709551616") 0 = ⟨0, 20, 20, true⟩ ∧
    parseUInt32 (str "4294967297") 0 = ⟨1, 10, 10, true⟩ ∧
    parseUInt16 (str "65537") 0 = ⟨1, 5, 5, true⟩ ∧
    parseUInt8 (str "326") 0 = ⟨70, 3, 3, true⟩ := by decide +kernel

/-- exact effect of the narrow variants -/
theorem parseUInt_widths (src : Bytes) (pos : Nat) :
    (parseUInt32 src pos).digit = (parseUInt src pos).digit % 4294967296 ∧
    (parseUInt16 src pos).digit = (parseUInt src pos).digit % 65536 ∧
    (parseUInt8 src pos).digit = (parseUInt src pos).digit % 256 ∧
    (parseUInt32 src pos).newPos = (parseUInt src pos).newPos ∧ (parseUInt16 src pos).newPos = (parseUInt src pos).newPos ∧
    (parseUInt8 src pos).newPos = (parseUInt src pos).newPos := ⟨rfl, rfl, rfl, rfl, rfl, rfl⟩

theorem ofNat_digit (k : Nat) (h : k < 10) : (UInt8.ofNat (48 + k)).toNat = 48 + k := by
  simp; omega

theorem encLoop_spec (n : Nat) (acc : Bytes) :
    ∃ ds, encLoop n acc = ds ++ acc ∧ AllDigits ds ∧ decVal ds = n ∧ (∀ c ∈ ds.head?, c ≠ 0x30) ∧
      (n ≠ 0 → ds ≠ []) ∧ (n ≠ 0 → 10 ^ (ds.length - 1) ≤ n) ∧ n < 10 ^ ds.length := by
  induction n using Nat.strongRecOn generalizing acc with
  | ind n ih =>
    unfold encLoop
    by_cases h : n = 0
    · subst h; exact ⟨[], by simp, by simp [AllDigits], rfl, by simp, by simp, by simp, by simp⟩
    · rw [dif_neg h]
      obtain ⟨ds, h1, h2, h3, h4, h5, h6, h7⟩ := ih (n / 10) (by omega) (UInt8.ofNat (48 + (n - n / 10 * 10)) :: acc)
      have hk : n - n / 10 * 10 < 10 := by omega
      have ht := ofNat_digit _ hk
      refine ⟨ds ++ [UInt8.ofNat (48 + (n - n / 10 * 10))], by rw [h1, List.append_assoc]; rfl, ?_, ?_, ?_, by simp, ?_, ?_⟩
      · intro c hc
        rcases List.mem_append.1 hc with hc | hc
        · exact h2 c hc
        · simp only [List.mem_singleton] at hc; subst hc; rw [ht]; omega
      · rw [decVal_snoc, h3, ht]; omega
      · cases ds with
        | nil =>
          have hz : n / 10 = 0 := by simpa [decVal] using h3.symm
          intro c hc
          simp only [List.nil_append, List.head?_cons, Option.mem_def, Option.some.injEq] at hc
          subst hc
          intro h30
          have := congrArg UInt8.toNat h30
          rw [ht] at this
          simp at this; omega
        | cons d ds => simpa using h4
      · intro _
        simp only [List.length_append, List.length_singleton, Nat.add_sub_cancel]
        by_cases hz : n / 10 = 0
        · have : ds = [] := by
            false_or_by_contra; rename_i hne
            cases hds : ds with
            | nil => exact hne hds
            | cons d t =>
              have hd0 := h4 d (by simp [hds])
              have hpos : ∀ (l : Bytes) (a : Nat), a ≤ l.foldl (fun n c => n * 10 + (c.toNat - 48)) a := by
                intro l; induction l with
                | nil => simp
                | cons x l ihl => intro a; simp only [List.foldl_cons]; have := ihl (a * 10 + (x.toNat - 48)); omega
              have h9 : d.toNat - 48 ≤ decVal ds := by rw [hds]; simp only [decVal, List.foldl_cons]; have := hpos t (0 * 10 + (d.toNat - 48)); omega
              have hdd := h2 d (by simp [hds])
              have : d.toNat = 48 := by omega
              exact hd0 (UInt8.toNat_inj.1 (by simpa using this))
          subst this; simp; omega
        · have := h6 hz
          have h5' := h5 hz
          have hl : ds.length = (ds.length - 1) + 1 := by
            have : ds.length ≠ 0 := by simpa using h5'
            omega
          rw [hl, Nat.pow_succ]; omega
      · simp only [List.length_append, List.length_singleton, Nat.pow_succ]; omega

/-- **C10** `EncodeUInt` writes the decimal digits of the number, without leading zeros. -/
theorem encodeUInt_spec (n : Nat) :
    AllDigits (encodeUInt n) ∧ decVal (encodeUInt n) = n ∧ encodeUInt n ≠ [] ∧
      ((encodeUInt n).head? = some 0x30 → n = 0 ∧ encodeUInt n = [0x30]) := by
  unfold encodeUInt
  by_cases h : n = 0
  · rw [if_pos h]; subst h; exact ⟨by decide +kernel, by decide +kernel, by simp, by simp⟩
  · rw [if_neg h]
    obtain ⟨ds, h1, h2, h3, h4, h5, _⟩ := encLoop_spec n []
    rw [h1, List.append_nil]
    refine ⟨h2, h3, h5 h, ?_⟩
    intro hh; exact absurd rfl (h4 _ hh)

/-- the fixed buffers of the encoders (32 bytes for 64 bit, 16 bytes for 32 bit numbers) are never overrun -/
theorem encodeUInt_length (n : Nat) :
    (n < 18446744073709551616 → (encodeUInt n).length ≤ 20) ∧ (n < 4294967296 → (encodeUInt n).length ≤ 10) := by
  unfold encodeUInt
  by_cases h : n = 0
  · rw [if_pos h]; simp
  · rw [if_neg h]
    obtain ⟨ds, h1, _, _, _, _, h6, _⟩ := encLoop_spec n []
    rw [h1, List.append_nil]
    have h6 := h6 h
    constructor <;> intro hn
    · false_or_by_contra
      have : 10 ^ 20 ≤ 10 ^ (ds.length - 1) := Nat.pow_le_pow_right (by decide) (by omega)
      omega
    · false_or_by_contra
      have : 10 ^ 10 ≤ 10 ^ (ds.length - 1) := Nat.pow_le_pow_right (by decide) (by omega)
      omega

/-- **C10** round trip: what `EncodeUInt` writes, `ParseUInt` reads, whatever surrounds it (if no digit follows). -/
theorem uint_roundtrip (n : Nat) (hn : n < 18446744073709551616) (src : Bytes) (pos : Nat) (rest : Bytes)
    (h : src.drop pos = encodeUInt n ++ rest) (hr : ∀ c ∈ rest.head?, ¬ (48 ≤ c.toNat ∧ c.toNat ≤ 57)) :
    parseUInt src pos = ⟨n, (encodeUInt n).length, pos + (encodeUInt n).length, true⟩ := by
  obtain ⟨h1, h2, h3, _⟩ := encodeUInt_spec n
  have := (encodeUInt_length n).1 hn
  rw [parseUInt_value src pos _ rest h h3 h1 hr (by omega), h2, Nat.mod_eq_of_lt hn]

example : (str "x42;").drop 1 = encodeUInt 42 ++ str ";" := by decide +kernel

/-- **C10** distinct numbers have distinct texts -/
theorem encodeUInt_injective (m n : Nat) (h : encodeUInt m = encodeUInt n) : m = n := by
  rw [← (encodeUInt_spec m).2.1, ← (encodeUInt_spec n).2.1, h]

/-- **C10** leading zeros do not change the value -/
theorem decVal_leading_zero (ds : Bytes) : decVal (0x30 :: ds) = decVal ds := rfl

/-- **C10** the width variants pad with spaces on the left to at least `width` characters -/
theorem encodeUIntWithWidth_spec (n : Nat) (width : Int) :
    encodeUIntWithWidth n width = List.replicate (width - ((encodeUInt n).length : Int)).toNat 0x20 ++ encodeUInt n ∧
    width ≤ ((encodeUIntWithWidth n width).length : Int) := by
  have h1 : encodeUIntWithWidth n width = List.replicate (width - ((encodeUInt n).length : Int)).toNat 0x20 ++ encodeUInt n := by
    unfold encodeUIntWithWidth encodeUInt
    by_cases h : n = 0 <;> simp [h]
  refine ⟨h1, ?_⟩
  rw [h1]; simp; omega

end Sip
