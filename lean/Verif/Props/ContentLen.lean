import Verif.Props.MessageText
/-!
# C27: the Content-Length that is written

The number of a message is first written with the value it has, right aligned in ten columns, and then the digits of the size of the body are copied over its
last digits.
-/
namespace Sip

/-! ## Decimal numbers -/

theorem decVal_append (a b : Bytes) : decVal (a ++ b) = decVal a * 10 ^ b.length + decVal b := by
  have key : ∀ (b : Bytes) (x : Nat), b.foldl (fun n (c : UInt8) => n * 10 + (c.toNat - 48)) x = x * 10 ^ b.length + decVal b := by
    intro b
    induction b with
    | nil => intro x; simp [decVal]
    | cons d b ih =>
      intro x
      simp only [decVal, List.foldl_cons, List.length_cons]
      rw [ih, ih (0 * 10 + (d.toNat - 48))]
      rw [Nat.pow_succ, Nat.add_mul, Nat.mul_assoc]
      simp only [decVal, Nat.zero_mul, Nat.zero_add]
      rw [Nat.mul_comm 10, Nat.add_assoc]
  unfold decVal
  rw [List.foldl_append, key b]
  rfl

theorem decVal_lt (b : Bytes) (h : AllDigits b) : decVal b < 10 ^ b.length := by
  induction b with
  | nil => simp [decVal]
  | cons d b ih =>
    have h1 := ih (fun c hc => h c (by simp [hc]))
    have h2 := h d (by simp)
    have h3 : decVal [d] = d.toNat - 48 := by simp [decVal]
    have h4 := decVal_append [d] b
    rw [h3] at h4
    have h5 : (d.toNat - 48) * 10 ^ b.length ≤ 9 * 10 ^ b.length := Nat.mul_le_mul_right _ (by omega)
    simp only [List.singleton_append] at h4
    rw [h4, List.length_cons, Nat.pow_succ]
    omega

/-- how many digits a number has -/
theorem digits_le (n k : Nat) (hk : 0 < k) : (encodeUInt n).length ≤ k ↔ n < 10 ^ k := by
  obtain ⟨h1, h2, h3, h4⟩ := encodeUInt_spec n
  constructor
  · intro h
    have := decVal_lt _ h1
    rw [h2] at this
    exact Nat.lt_of_lt_of_le this (Nat.pow_le_pow_right (by decide) h)
  · intro h
    by_cases h0 : n = 0
    · subst h0
      have : (encodeUInt 0).length = 1 := by decide +kernel
      omega
    · unfold encodeUInt
      rw [if_neg h0]
      obtain ⟨ds, g1, _, _, _, _, g6, _⟩ := encLoop_spec n []
      rw [g1, List.append_nil]
      false_or_by_contra
      have : 10 ^ k ≤ 10 ^ (ds.length - 1) := Nat.pow_le_pow_right (by decide) (by omega)
      have := g6 h0
      omega

/-! ## The text of the number -/

/-- SipHeaderContentLength.go:44-50: a number in ten columns -/
def column (n : Nat) : Bytes := List.replicate (10 - (encodeUInt n).length) 0x20 ++ encodeUInt n

theorem column_eq (n : Nat) : encodeUIntWithWidth n 10 = column n := by
  rw [(encodeUIntWithWidth_spec n 10).1]
  unfold column
  congr 2
  omega

theorem column_length (n : Nat) (h : n < 4294967296) : (column n).length = 10 := by
  have := (encodeUInt_length n).2 h
  unfold column; simp; omega

/-- the columns of `n` with the digits of `s` copied over the last ones -/
def patched (n s : Nat) : Bytes := (column n).take (10 - (encodeUInt s).length) ++ encodeUInt s

theorem patch_column (n s : Nat) (hn : n < 4294967296) (hs : s < 4294967296) (x z : Bytes) :
    patch (x ++ column n ++ z) (x ++ column n).length (encodeUInt s) = .ok (x ++ patched n s ++ z) := by
  have h1 := column_length n hn
  have h2 := (encodeUInt_length s).2 hs
  unfold patch
  rw [if_neg (by simp; omega)]
  congr 1
  have e1 : (x ++ column n ++ z).drop (x ++ column n).length = z := List.drop_left
  rw [e1, List.append_assoc x, List.take_append]
  unfold patched
  have e2 : x.take ((x ++ column n).length - (encodeUInt s).length) = x := List.take_of_length_le (by simp; omega)
  have e3 : (x ++ column n).length - (encodeUInt s).length - x.length = 10 - (encodeUInt s).length := by simp; omega
  rw [e2, e3, List.take_append_of_le_length (by omega)]
  simp

/-- **C27** the digits that are written: blanks and a number that ends in the digits of the size and starts with the digits of the number the header had,
if it had more digits than the size -/
theorem patched_digits (n s : Nat) (hn : n < 4294967296) (hs : s < 4294967296) :
    ∃ k ds, patched n s = List.replicate k 0x20 ++ ds ∧ AllDigits ds ∧ ds ≠ [] ∧
      decVal ds = n / 10 ^ (encodeUInt s).length * 10 ^ (encodeUInt s).length + s := by
  have h2 := (encodeUInt_length s).2 hs
  have h3 := (encodeUInt_length n).2 hn
  obtain ⟨a1, a2, a3, _⟩ := encodeUInt_spec s
  obtain ⟨b1, b2, b3, _⟩ := encodeUInt_spec n
  unfold patched column
  rw [List.take_append, List.take_replicate, List.length_replicate, List.append_assoc]
  refine ⟨_, _, rfl, ?_, by simp [a3], ?_⟩
  · intro c hc
    rcases List.mem_append.1 hc with h | h
    · exact b1 c (List.mem_of_mem_take h)
    · exact a1 c h
  · rw [decVal_append, a2]
    congr 2
    generalize hj : 10 - (encodeUInt s).length - (10 - (encodeUInt n).length) = j
    have hsplit := decVal_append ((encodeUInt n).take j) ((encodeUInt n).drop j)
    rw [List.take_append_drop, b2] at hsplit
    have hlt := decVal_lt ((encodeUInt n).drop j) (fun c hc => b1 c (List.mem_of_mem_drop hc))
    by_cases hk : (encodeUInt s).length ≤ (encodeUInt n).length
    · have hlen : ((encodeUInt n).drop j).length = (encodeUInt s).length := by rw [List.length_drop]; omega
      rw [hlen] at hsplit hlt
      have hd : n / 10 ^ (encodeUInt s).length = decVal ((encodeUInt n).take j) := by
        conv => lhs; rw [hsplit]
        rw [Nat.mul_comm, Nat.mul_add_div (Nat.pow_pos (by decide)), Nat.div_eq_of_lt hlt, Nat.add_zero]
      exact hd.symm
    · have hj0 : j = 0 := by omega
      subst hj0
      have : n < 10 ^ (encodeUInt s).length := (digits_le n _ (by omega)).1 (by omega)
      rw [Nat.div_eq_of_lt this]; rfl

/-- **C27** the number that is written is the size of the body exactly if the number the header had has no more digits than the size -/
theorem patched_correct (n s : Nat) (hn : n < 4294967296) (hs : s < 4294967296) :
    patched n s = column s ↔ (encodeUInt n).length ≤ (encodeUInt s).length := by
  have h2 := (encodeUInt_length s).2 hs
  have h3 := (encodeUInt_length n).2 hn
  have hne : 0 < (encodeUInt s).length := List.length_pos_iff.2 (encodeUInt_spec s).2.2.1
  constructor
  · intro h
    unfold patched column at h
    have h' := List.append_inj_left h (by simp; omega)
    rw [List.take_append, List.take_replicate, List.length_replicate] at h'
    false_or_by_contra
    have hj : 10 - (encodeUInt s).length - (10 - (encodeUInt n).length) ≠ 0 := by omega
    generalize 10 - (encodeUInt s).length - (10 - (encodeUInt n).length) = j at *
    have hmem : ∃ d, d ∈ (encodeUInt n).take j := by
      cases he : encodeUInt n with
      | nil => exact absurd he (encodeUInt_spec n).2.2.1
      | cons d l => cases j with
        | zero => exact absurd rfl hj
        | succ j => exact ⟨d, by simp⟩
    obtain ⟨d, hd⟩ := hmem
    have h5 : d ∈ List.replicate (10 - (encodeUInt s).length) (0x20 : UInt8) := by rw [← h']; simp [hd]
    have h6 := List.eq_of_mem_replicate h5
    have h7 := (encodeUInt_spec n).1 d (List.mem_of_mem_take hd)
    rw [h6] at h7
    revert h7; decide
  · intro h
    unfold patched column
    rw [List.take_append, List.take_replicate, List.length_replicate]
    have : 10 - (encodeUInt s).length - (10 - (encodeUInt n).length) = 0 := by omega
    rw [this]
    simp; congr 1; omega

end Sip
