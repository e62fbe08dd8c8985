import Verif.Model.Str
import Verif.Lemmas.Lws
namespace Sip

theorem takeWhile_split {p : UInt8 → Bool} {s x y : Bytes} (h : s = x ++ y) (hx : ∀ b ∈ x, p b = true)
    (hy : ∀ b ∈ y.head?, p b = false) : s.takeWhile p = x := by
  subst h
  induction x with
  | nil =>
    cases y with
    | nil => rfl
    | cons b y => simp [hy b (by simp)]
  | cons a x ih =>
    simp only [List.cons_append, List.takeWhile_cons, hx a (by simp), if_true]
    rw [ih (fun b hb => hx b (by simp [hb]))]

/-- every list splits into the longest run and the rest -/
theorem exists_run (p : UInt8 → Bool) (s : Bytes) :
    ∃ x y, s = x ++ y ∧ (∀ b ∈ x, p b = true) ∧ (∀ b ∈ y.head?, p b = false) ∧ x = s.takeWhile p := by
  refine ⟨s.takeWhile p, s.dropWhile p, (List.takeWhile_append_dropWhile).symm, ?_, ?_, rfl⟩
  · induction s with
    | nil => simp
    | cons a s ih =>
      intro b hb
      rw [List.takeWhile_cons] at hb
      split at hb
      · rename_i ha
        rcases List.mem_cons.1 hb with rfl | hb
        · exact ha
        · exact ih b hb
      · simp at hb
  · intro b hb
    have := List.head?_dropWhile_not p s
    cases hd : (s.dropWhile p).head? with
    | none => rw [hd] at hb; cases hb
    | some z => rw [hd] at hb this; cases hb; simpa using this

theorem hexVal_spec (n : UInt8) : hexVal (toUpperHex n) = n &&& 0x0f := by
  revert n; decide +kernel
theorem isHex_toUpperHex (n : UInt8) : isHex (toUpperHex n) = true := by
  revert n; decide +kernel
theorem unescape_escape (v : UInt8) : unescapeByte (toUpperHex (v >>> 4)) (toUpperHex v) = v := by
  revert v; decide +kernel

theorem escLoop_cons (s : CS) (cap : Nat) (v : UInt8) (r : Bytes) (newPos used : Nat) (out : Bytes) :
    escLoop s cap (v :: r) newPos used out =
      if s.mem v then
        if used ≥ cap then .panic else escLoop s cap r (newPos + 1) (used + 1) (out ++ [v])
      else if v ≠ 0x25 then .stop newPos used out
      else match r with
        | v1 :: v2 :: r' =>
          if !isHex v1 || !isHex v2 then .bad newPos
          else if used ≥ cap then .noMem newPos
          else escLoop s cap r' (newPos + 3) (used + 1) (out ++ [unescapeByte v1 v2])
        | _ => .bad newPos := by
  match r with
  | [] => rfl
  | [_] => rfl
  | _ :: _ :: _ => rfl

theorem escLoop_escapeStr (s : CS) (h25 : s.mem 0x25 = false) (cap : Nat) (b rest out : Bytes) (p u : Nat)
    (hu : u + b.length ≤ cap) :
    escLoop s cap (escapeStr s b ++ rest) p u out =
      escLoop s cap rest (p + (escapeStr s b).length) (u + b.length) (out ++ b) := by
  induction b generalizing p u out with
  | nil => simp [escapeStr]
  | cons v b ih =>
    simp only [List.length_cons] at hu
    have hcons : escapeStr s (v :: b) = escapeByte s v ++ escapeStr s b := by simp [escapeStr]
    rw [hcons]
    unfold escapeByte
    by_cases hv : s.mem v = true
    · simp only [hv, if_true, List.cons_append, List.nil_append]
      rw [escLoop_cons, if_pos hv, if_neg (by omega), ih _ _ _ (by omega)]
      congr 1 <;> simp <;> omega
    · simp only [hv, Bool.false_eq_true, if_false, List.cons_append, List.nil_append]
      rw [escLoop_cons, if_neg (by rw [h25]; simp)]
      simp only [ne_eq, not_true_eq_false, if_false]
      rw [if_neg (by simp [isHex_toUpperHex]), if_neg (by omega), unescape_escape, ih _ _ _ (by omega)]
      congr 1 <;> simp <;> omega

theorem escLoop_stop (s : CS) (cap : Nat) (rest : Bytes) (p u : Nat) (out : Bytes)
    (h : ∀ c ∈ rest.head?, s.mem c = false ∧ c ≠ 0x25) : escLoop s cap rest p u out = .stop p u out := by
  cases rest with
  | nil => rfl
  | cons v r =>
    have := h v (by simp)
    rw [escLoop_cons, if_neg (by simp [this.1]), if_pos this.2]

theorem escapeByte_ne_nil (s : CS) (v : UInt8) : escapeByte s v ≠ [] := by
  unfold escapeByte; split <;> simp

theorem escapeStr_length_ge (s : CS) (b : Bytes) : b.length ≤ (escapeStr s b).length := by
  induction b with
  | nil => simp
  | cons v b ih =>
    have hcons : escapeStr s (v :: b) = escapeByte s v ++ escapeStr s b := by simp [escapeStr]
    rw [hcons, List.length_append]
    have : 1 ≤ (escapeByte s v).length := by
      cases h : escapeByte s v with
      | nil => exact absurd h (escapeByte_ne_nil s v)
      | cons => simp
    simp; omega

end Sip
