import Verif.Model.Lws
namespace Sip

theorem getElem?_eq_drop (s : Bytes) (i : Nat) : s[i]? = (s.drop i)[0]? := by simp
theorem getElem?_drop_add (s : Bytes) (i k : Nat) : s[i + k]? = (s.drop i)[k]? := by simp

theorem length_le_of_drop_nil {s : Bytes} {i : Nat} (h : s.drop i = []) : s.length ≤ i := List.drop_eq_nil_iff.1 h
theorem lt_of_drop_cons {s : Bytes} {i : Nat} {c : UInt8} {r : Bytes} (h : s.drop i = c :: r) : i < s.length := by
  false_or_by_contra
  rw [List.drop_eq_nil_of_le (by omega)] at h; cases h
theorem length_eq_of_drop {s : Bytes} {i : Nat} {r : Bytes} (h : s.drop i = r) (hi : i ≤ s.length) : s.length = i + r.length := by
  subst h; simp; omega
theorem drop_add_of_drop {s : Bytes} {i : Nat} {r : Bytes} (h : s.drop i = r) (k : Nat) : s.drop (i + k) = r.drop k := by
  subst h; simp

theorem runLen_nil (p) : runLen p [] = 0 := rfl
theorem runLen_cons_false {p : UInt8 → Bool} {c : UInt8} {r : Bytes} (h : p c = false) : runLen p (c :: r) = 0 := by
  simp [runLen, h]
theorem runLen_cons_true {p : UInt8 → Bool} {c : UInt8} {r : Bytes} (h : p c = true) : runLen p (c :: r) = runLen p r + 1 := by
  simp [runLen, h]
/-- after a run comes either the end or a byte that does not satisfy `p` -/
theorem drop_runLen (p : UInt8 → Bool) (s : Bytes) :
    s.drop (runLen p s) = [] ∨ ∃ c r, s.drop (runLen p s) = c :: r ∧ p c = false := by
  induction s with
  | nil => simp [runLen]
  | cons c cs ih =>
    simp only [runLen]
    by_cases h : p c = true
    · simpa [h] using ih
    · right; exact ⟨c, cs, by simp [h], by simpa using h⟩
/-- the run ends with a byte outside the set -/
theorem runLen_stop (p : UInt8 → Bool) (l : Bytes) : ∀ b ∈ (l.drop (runLen p l)).head?, p b = false := by
  induction l with
  | nil => simp
  | cons c r ih =>
    cases h : p c
    · rw [runLen_cons_false h]; intro b hb; simp at hb; subst hb; exact h
    · rw [runLen_cons_true h]; simpa using ih
theorem runLen_append_of_all {p : UInt8 → Bool} {a b : Bytes} (h : ∀ c ∈ a, p c = true) : runLen p (a ++ b) = a.length + runLen p b := by
  induction a with
  | nil => simp
  | cons c cs ih =>
    simp only [List.cons_append, List.length_cons]
    rw [runLen_cons_true (h c (by simp)), ih (fun d hd => h d (by simp [hd]))]; omega
theorem take_runLen_all (p : UInt8 → Bool) (s : Bytes) : ∀ c ∈ s.take (runLen p s), p c = true := by
  induction s with
  | nil => simp
  | cons c cs ih =>
    by_cases h : p c = true
    · rw [runLen_cons_true h]; simp only [List.take_succ_cons, List.mem_cons]
      rintro d (rfl | hd)
      · exact h
      · exact ih d hd
    · rw [runLen_cons_false (by simpa using h)]; simp

/-- number of bytes `ParseSWS` consumes, as a function of what is left of the input -/
def swsLen (s : Bytes) : Nat :=
  match s.drop (runLen isSpHtab s) with
  | 0x0d :: 0x0a :: [] => 0
  | 0x0d :: 0x0a :: w :: r => if isSpHtab w then runLen isSpHtab s + 3 + runLen isSpHtab r else 0
  | _ => runLen isSpHtab s

theorem isLws_iff (c : UInt8) : isLwsChar c = (isSpHtab c || c == 0x0d || c == 0x0a) := by
  revert c; decide +kernel

theorem isWsp_iff (c : UInt8) : isWspChar c = isSpHtab c := by
  revert c; decide +kernel

theorem parseLWS_spec (src : Bytes) (pos : Nat) (hp : pos ≤ src.length) :
    (if (parseLWS src pos).2 then (parseLWS src pos).1 else pos) = pos + swsLen (src.drop pos) ∧ pos ≤ (parseLWS src pos).1 ∧
      (parseLWS src pos).1 ≤ src.length := by
  generalize hs : src.drop pos = s
  have hlen : src.length = pos + s.length := length_eq_of_drop hs hp
  have hrl := runLen_le isSpHtab s
  have hsk : skipWhile isSpHtab src pos = pos + runLen isSpHtab s := by rw [skipWhile, hs]
  have hd : src.drop (pos + runLen isSpHtab s) = s.drop (runLen isSpHtab s) := drop_add_of_drop hs _
  have hv := parseLWS.eq_1 src pos
  simp only [hsk] at hv
  unfold swsLen
  generalize runLen isSpHtab s = k at *
  have hdl : (s.drop k).length = s.length - k := by simp
  rw [getElem?_eq_drop, getElem?_drop_add _ (pos + k) 1, hd] at hv
  match hm : s.drop k with
  | [] =>
    rw [hm] at hdl; simp at hdl
    rw [if_pos (by omega)] at hv
    simp [hv]; omega
  | [c] =>
    rw [hm] at hdl; simp at hdl
    rw [if_pos (by omega)] at hv
    simp [hv]; omega
  | [c, d] =>
    rw [hm] at hdl hv; simp at hdl
    rw [if_neg (by omega)] at hv
    by_cases hc : c = 0x0d ∧ d = 0x0a
    · obtain ⟨rfl, rfl⟩ := hc
      rw [if_pos (by simp), if_pos (by omega)] at hv
      simp [hv]; omega
    · rw [if_neg (by simpa using hc)] at hv
      rw [hv]
      refine ⟨?_, by simp only; omega, by simp only; omega⟩
      simp only [if_true]
      split <;> simp_all
  | c :: d :: w :: r =>
    rw [hm] at hdl hv; simp at hdl
    rw [if_neg (by omega)] at hv
    by_cases hc : c = 0x0d ∧ d = 0x0a
    · obtain ⟨rfl, rfl⟩ := hc
      have h3 : src.drop (pos + k + 2) = w :: r := by rw [drop_add_of_drop (hd.trans hm)]; rfl
      have h4 : src[pos + k + 2]? = some w := by rw [getElem?_eq_drop, h3]; rfl
      have hrl2 := runLen_le isSpHtab r
      rw [if_pos (by simp), if_neg (by omega), h4] at hv
      by_cases hw : isSpHtab w = true
      · rw [if_neg (by simp [hw]), skipWhile, h3, runLen_cons_true hw] at hv
        rw [hv]; simp [hw]; omega
      · rw [if_pos (by simp [hw])] at hv
        rw [hv]; simp [hw]; omega
    · rw [if_neg (by simpa using hc)] at hv
      rw [hv]
      refine ⟨?_, by simp only; omega, by simp only; omega⟩
      simp only [if_true]
      split <;> simp_all

theorem swsLen_cons_not_lws {c : UInt8} {r : Bytes} (h : isLwsChar c = false) : swsLen (c :: r) = 0 := by
  rw [isLws_iff] at h
  simp only [Bool.or_eq_false_iff, beq_eq_false_iff_ne, ne_eq] at h
  unfold swsLen
  rw [runLen_cons_false h.1.1]
  simp only [List.drop_zero]
  split <;> simp_all

theorem swsLen_nil : swsLen [] = 0 := rfl

theorem swsLen_le (s : Bytes) : swsLen s ≤ s.length := by
  have := parseLWS_spec s 0 (by omega)
  simp only [List.drop_zero, Nat.zero_add] at this
  obtain ⟨h1, _, h3⟩ := this
  split at h1 <;> omega

/-- `ParseSWS_2` moves the position by `swsLen` of the remaining input and changes nothing else. -/
theorem sws_eq (c : Ctx) (hp : c.pos ≤ c.src.length) : c.sws = c.adv (swsLen c.rest) := by
  unfold Ctx.sws Ctx.rest
  match hs : c.src.drop c.pos with
  | [] =>
    have := length_le_of_drop_nil hs
    simp [Ctx.adv, this, swsLen_nil]
  | x :: r =>
    have hlt := lt_of_drop_cons hs
    have hx : c.src[c.pos]? = some x := by rw [getElem?_eq_drop, hs]; rfl
    rw [if_neg (by omega), hx]
    by_cases hl : isLwsChar x = true
    · simp only [Option.map_some, hl, ne_eq, not_true_eq_false, if_false]
      have h := (parseLWS_spec c.src c.pos hp).1
      rw [hs] at h
      cases hpl : parseLWS c.src c.pos with
      | mk n b =>
        rw [hpl] at h
        cases b
        · simp only [Bool.false_eq_true, if_false] at h
          simp only [Ctx.adv, ← h]
        · simp only [if_true] at h
          simp only [Ctx.setPos, Ctx.adv, h]
    · have hl' : isLwsChar x = false := by simpa using hl
      rw [if_pos (by simp [hl'])]
      rw [swsLen_cons_not_lws hl']; simp [Ctx.adv]

theorem parseSWS_eq (src : Bytes) (pos : Nat) (hp : pos ≤ src.length) : parseSWS src pos = pos + swsLen (src.drop pos) := by
  have h := sws_eq { src := src, pos := pos, cap := 0 } hp
  have h2 : ({ src := src, pos := pos, cap := 0 } : Ctx).sws.pos = parseSWS src pos := by
    simp only [Ctx.sws, parseSWS]
    split
    · rfl
    · split
      · rfl
      · cases hpl : parseLWS src pos with
        | mk n b => cases b <;> simp [Ctx.setPos]
  rw [← h2, h]; rfl

end Sip
