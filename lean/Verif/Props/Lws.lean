import Verif.Lemmas.Lws
/-!
# C12, C13: white space and separators

Specification: `IsLWS x` is the RFC 3261 production `LWS = [*WSP CRLF] 1*WSP`, as a predicate on byte strings.
`c.rest` is the part of the input that has not been parsed.
-/
namespace Sip

/-- WSP = SP / HTAB -/
def AllWsp (x : Bytes) : Prop := ∀ c ∈ x, c = 0x20 ∨ c = 0x09
/-- LWS = [*WSP CRLF] 1*WSP -/
def IsLWS (x : Bytes) : Prop :=
  ∃ b, b ≠ [] ∧ AllWsp b ∧ (x = b ∨ ∃ a, AllWsp a ∧ x = a ++ [0x0d, 0x0a] ++ b)
/-- the text starts with an end of line that is not a fold: CRLF followed by the end or by a byte other than SP / HTAB -/
def StartsEol (y : Bytes) : Prop := ∃ z, y = [0x0d, 0x0a] ++ z ∧ ∀ c ∈ z.head?, c ≠ 0x20 ∧ c ≠ 0x09

theorem spHtab_iff (c : UInt8) : isSpHtab c = true ↔ c = 0x20 ∨ c = 0x09 := by simp [isSpHtab]

theorem allWsp_take (s : Bytes) : AllWsp (s.take (runLen isSpHtab s)) :=
  fun c hc => (spHtab_iff c).1 (take_runLen_all isSpHtab s c hc)

/-- **C12** `ParseSWS` consumes nothing or one LWS of the RFC grammar, never passes the end and changes nothing but the position. -/
theorem sws_sound (c : Ctx) (hp : c.pos ≤ c.src.length) :
    ∃ x y, c.rest = x ++ y ∧ (x = [] ∨ IsLWS x) ∧ c.sws = c.adv x.length ∧ c.sws.rest = y ∧ c.sws.pos ≤ c.src.length := by
  refine ⟨c.rest.take (swsLen c.rest), c.rest.drop (swsLen c.rest), (List.take_append_drop _ _).symm, ?_, ?_, ?_, ?_⟩
  · generalize c.rest = s
    have hw := allWsp_take s
    have hle := runLen_le isSpHtab s
    have hsplit := (List.take_append_drop (runLen isSpHtab s) s)
    unfold swsLen
    split
    · simp
    · rename_i w r hm
      split
      · rename_i hwb
        right
        refine ⟨w :: r.take (runLen isSpHtab r), by simp, ?_, Or.inr ⟨_, hw, ?_⟩⟩
        · intro d hd
          rcases List.mem_cons.1 hd with rfl | hd
          · exact (spHtab_iff _).1 hwb
          · exact allWsp_take r d hd
        · have hlen : (s.take (runLen isSpHtab s)).length = runLen isSpHtab s := by simp; omega
          rw [hm] at hsplit
          generalize runLen isSpHtab s = k at *
          generalize s.take k = t at *
          subst hsplit
          rw [List.take_append, hlen, List.take_of_length_le (by omega)]
          rw [show k + 3 + runLen isSpHtab r - k = (runLen isSpHtab r) + 1 + 1 + 1 by omega]
          simp
      · simp
    · by_cases h0 : runLen isSpHtab s = 0
      · left; simp [h0]
      · right
        refine ⟨s.take (runLen isSpHtab s), ?_, hw, Or.inl rfl⟩
        intro h
        have : (s.take (runLen isSpHtab s)).length = 0 := by rw [h]; rfl
        rw [List.length_take] at this; omega
  · rw [sws_eq c hp]
    have := swsLen_le c.rest
    congr 1; simp; omega
  · rw [sws_eq c hp]; simp [Ctx.rest, Ctx.adv, List.drop_drop]
  · rw [sws_eq c hp]
    have := swsLen_le c.rest
    simp only [Ctx.rest, List.length_drop] at this
    simp only [Ctx.adv, Ctx.rest]; omega

/-- **C12** Maximal munch: every LWS at the parse position is consumed entirely, except when white space stands directly before an
end of line. -/
theorem sws_maximal (c : Ctx) (hp : c.pos ≤ c.src.length) (x y : Bytes) (hx : c.rest = x ++ y) (hl : IsLWS x)
    (hne : ¬ ∃ a b, c.rest = a ++ b ∧ AllWsp a ∧ StartsEol b) : x.length ≤ c.sws.pos - c.pos := by
  rw [sws_eq c hp]
  simp only [Ctx.adv, Nat.add_sub_cancel_left]
  revert hne
  rw [hx]
  intro hne
  obtain ⟨b, hb, hbw, hx'⟩ := hl
  have hpb : ∀ c ∈ b, isSpHtab c = true := fun c hc => (spHtab_iff c).2 (hbw c hc)
  rcases hx' with rfl | ⟨a, ha, rfl⟩
  · have hr := runLen_append_of_all (p := isSpHtab) (b := y) hpb
    unfold swsLen
    split
    · rename_i hm
      exact absurd ⟨(x ++ y).take (runLen isSpHtab (x ++ y)), _, (List.take_append_drop _ _).symm, allWsp_take _,
        ⟨[], by rw [hm]; rfl, by simp⟩⟩ hne
    · rename_i w r hm
      split
      · omega
      · rename_i hw
        refine absurd ⟨(x ++ y).take (runLen isSpHtab (x ++ y)), _, (List.take_append_drop _ _).symm, allWsp_take _,
          ⟨w :: r, by rw [hm]; rfl, ?_⟩⟩ hne
        intro d hd
        simp only [List.head?_cons, Option.mem_def, Option.some.injEq] at hd
        subst hd
        simpa [isSpHtab] using hw
    · omega
  · have hpa : ∀ c ∈ a, isSpHtab c = true := fun c hc => (spHtab_iff c).2 (ha c hc)
    have hr : runLen isSpHtab (a ++ [0x0d, 0x0a] ++ b ++ y) = a.length := by
      rw [List.append_assoc, List.append_assoc, runLen_append_of_all hpa]
      simp [runLen, isSpHtab]
    unfold swsLen
    rw [hr]
    have hd : (a ++ [0x0d, 0x0a] ++ b ++ y).drop a.length = 0x0d :: 0x0a :: (b ++ y) := by simp
    rw [hd]
    match b, hb with
    | w :: b', _ =>
      simp only [List.cons_append]
      have hw := hpb w (by simp)
      have := runLen_append_of_all (p := isSpHtab) (a := b') (b := y) (fun c hc => hpb c (by simp [hc]))
      simp [hw]; omega

/-- **C12, the exception, exactly**: when only SP/HTAB stand between the position and an end of line, `ParseSWS` consumes nothing,
not even those — the RFC grammar would take them. -/
theorem sws_stops_before_eol (c : Ctx) (hp : c.pos ≤ c.src.length) (a b : Bytes) (h : c.rest = a ++ b) (ha : AllWsp a)
    (hb : StartsEol b) : c.sws = c := by
  obtain ⟨z, rfl, hz⟩ := hb
  rw [sws_eq c hp, h]
  have hpa : ∀ c ∈ a, isSpHtab c = true := fun c hc => (spHtab_iff c).2 (ha c hc)
  have hr : runLen isSpHtab (a ++ ([0x0d, 0x0a] ++ z)) = a.length := by
    rw [runLen_append_of_all hpa]; simp [runLen, isSpHtab]
  have : swsLen (a ++ ([0x0d, 0x0a] ++ z)) = 0 := by
    unfold swsLen
    rw [hr]
    simp only [List.drop_left]
    cases z with
    | nil => rfl
    | cons w r =>
      have := hz w (by simp)
      simp [isSpHtab, this]
  rw [this]; rfl

/-- C12, negation of unrestricted maximal munch: "  CRLF" -/
theorem sws_not_maximal : ∃ c : Ctx, c.pos ≤ c.src.length ∧ (∃ x y, c.rest = x ++ y ∧ IsLWS x ∧ ¬ x.length ≤ c.sws.pos - c.pos) :=
  ⟨{ src := [0x20, 0x20, 0x0d, 0x0a], cap := 0 }, by decide, [0x20, 0x20], [0x0d, 0x0a], rfl,
    ⟨[0x20, 0x20], by simp, by simp [AllWsp], Or.inl rfl⟩, by decide +kernel⟩

example : (⟨str "a  b", 1, 8, 100, [], {}⟩ : Ctx).sws.pos = 3 ∧
    (⟨str "a \r\n b", 1, 8, 100, [], {}⟩ : Ctx).sws.pos = 5 := by decide +kernel

/-- **C13** `ParseHcolon` succeeds exactly on `*( SP / HTAB ) ":"`, and then also takes the SWS after it; otherwise it records an error
and stands at the first byte that is not SP / HTAB. -/
theorem hcolon_spec (c : Ctx) (hp : c.pos ≤ c.src.length) :
    (∃ w y, AllWsp w ∧ c.rest = w ++ 0x3a :: y ∧ parseHcolon c = (true, c.adv (w.length + 1 + swsLen y))) ∨
    (∃ w y, AllWsp w ∧ c.rest = w ++ y ∧ (∀ d ∈ y.head?, d ≠ 0x3a ∧ d ≠ 0x20 ∧ d ≠ 0x09) ∧
      parseHcolon c = (false, (c.adv w.length).addError (c.pos + w.length))) := by
  have hp' : runLen isWspChar c.rest = runLen isSpHtab c.rest := by
    congr 1; funext d; exact isWsp_iff d
  have hle := runLen_le isSpHtab c.rest
  have hlen : c.src.length = c.pos + c.rest.length := length_eq_of_drop rfl hp
  have hw := allWsp_take c.rest
  have htl : (c.rest.take (runLen isSpHtab c.rest)).length = runLen isSpHtab c.rest := by simp; omega
  have hd : c.src.drop (c.pos + runLen isSpHtab c.rest) = c.rest.drop (runLen isSpHtab c.rest) := drop_add_of_drop rfl _
  have hsk : skipWhile isWspChar c.src c.pos = c.pos + runLen isSpHtab c.rest := by
    rw [skipWhile, ← hp']; rfl
  have hv := parseHcolon.eq_1 c
  simp only [hsk] at hv
  rw [getElem?_eq_drop, hd] at hv
  have hdl : (c.rest.drop (runLen isSpHtab c.rest)).length = c.rest.length - runLen isSpHtab c.rest := by simp
  rcases drop_runLen isSpHtab c.rest with h | ⟨x, r, h, hx⟩
  · right
    refine ⟨_, [], hw, by rw [← h, List.take_append_drop], by simp, ?_⟩
    rw [h] at hdl; simp at hdl
    rw [hv, if_pos (by omega), htl]; rfl
  · rw [h] at hdl; simp at hdl
    rw [h, if_neg (by omega)] at hv
    by_cases hc : x = 0x3a
    · left
      subst hc
      refine ⟨_, r, hw, by rw [← h, List.take_append_drop], ?_⟩
      rw [hv, if_neg (by simp), htl]
      have h3 : c.src.drop (c.pos + runLen isSpHtab c.rest + 1) = r := by rw [drop_add_of_drop (hd.trans h)]; rfl
      rw [sws_eq _ (by simp [Ctx.setPos]; omega)]
      simp only [Ctx.setPos, Ctx.adv]
      have : ({ c with pos := c.pos + runLen isSpHtab c.rest + 1 } : Ctx).rest = r := h3
      rw [this]; simp; omega
    · right
      refine ⟨_, x :: r, hw, by rw [← h, List.take_append_drop], ?_, ?_⟩
      · intro d hd; simp only [List.head?_cons, Option.mem_def, Option.some.injEq] at hd; subst hd
        have : ¬ (x = 0x20 ∨ x = 0x09) := fun h => by rw [(spHtab_iff x).2 h] at hx; cases hx
        exact ⟨hc, by simpa using this⟩
      · rw [hv, if_pos (by simpa using hc), htl]; rfl

example : parseHcolon ⟨str "To \t: \r\n <sip", 2, 8, 100, [], {}⟩ = (true, ⟨str "To \t: \r\n <sip", 9, 8, 100, [], {}⟩) := by decide +kernel

/-- **C13** `ParseSWSMark(mark)` succeeds exactly when the mark follows the optional white space; it then also takes the white space behind
the mark.  Otherwise it records an error where the mark was expected. -/
theorem swsMark_spec (c : Ctx) (hp : c.pos ≤ c.src.length) (m : UInt8) :
    (∃ y, c.sws.rest = m :: y ∧ parseSWSMark c m = (true, c.sws.adv (1 + swsLen y))) ∨
    (c.sws.rest.head? ≠ some m ∧ parseSWSMark c m = (false, c.sws.addError c.sws.pos)) := by
  obtain ⟨_, _, _, _, _, _, hle⟩ := sws_sound c hp
  have hsrc : c.sws.src = c.src := by rw [sws_eq c hp]; rfl
  unfold parseSWSMark
  simp only
  generalize c.sws = d at *
  rw [← hsrc] at hle
  rw [getElem?_eq_drop]
  match hd : d.src.drop d.pos with
  | [] =>
    right
    have := length_le_of_drop_nil hd
    rw [if_pos this]
    exact ⟨by simp [Ctx.rest, hd], rfl⟩
  | x :: y =>
    have hlt := lt_of_drop_cons hd
    rw [if_neg (by omega)]
    by_cases hx : x = m
    · left; subst hx
      refine ⟨y, hd, ?_⟩
      have h1 : d.src.drop (d.pos + 1) = y := by rw [drop_add_of_drop hd]; rfl
      rw [if_neg (by simp), sws_eq _ (by simp [Ctx.adv]; omega)]
      simp [Ctx.adv, Ctx.rest, h1]; omega
    · right
      rw [if_pos (by simpa using hx)]
      exact ⟨by simp [Ctx.rest, hd, hx], rfl⟩

example : parseSWSMark ⟨str "a ; b", 1, 8, 100, [], {}⟩ 0x3b = (true, ⟨str "a ; b", 4, 8, 100, [], {}⟩) := by decide +kernel

/-- **C13** `ParseSWSMarkCanOmmit(mark)`: reports a match exactly when the mark follows the optional white space.  Without the mark it
still consumes the white space and succeeds, except that at the end of the input it *fails* with an error. -/
theorem swsMarkCanOmmit_spec (c : Ctx) (hp : c.pos ≤ c.src.length) (m : UInt8) :
    parseSWSMarkCanOmmit c m =
      match c.sws.rest with
      | [] => ((false, false), c.sws.addError c.sws.pos)
      | x :: y => if x = m then ((true, true), c.sws.adv (1 + swsLen y)) else ((false, true), c.sws) := by
  obtain ⟨_, _, _, _, _, _, hle⟩ := sws_sound c hp
  have hsrc : c.sws.src = c.src := by rw [sws_eq c hp]; rfl
  unfold parseSWSMarkCanOmmit
  simp only
  generalize c.sws = d at *
  rw [← hsrc] at hle
  rw [getElem?_eq_drop]
  unfold Ctx.rest
  match hd : d.src.drop d.pos with
  | [] =>
    have := length_le_of_drop_nil hd
    rw [if_pos this]
  | x :: y =>
    have hlt := lt_of_drop_cons hd
    rw [if_neg (by omega)]
    by_cases hx : x = m
    · subst hx
      have h1 : d.src.drop (d.pos + 1) = y := by rw [drop_add_of_drop hd]; rfl
      rw [if_neg (by simp), sws_eq _ (by simp [Ctx.adv]; omega)]
      simp [Ctx.adv, Ctx.rest, h1]; omega
    · rw [if_pos (by simpa using hx)]
      simp [hx]

/-- **C13, negation of "consumes nothing when the mark is absent"**. -/
theorem canOmmit_consumes_space : parseSWSMarkCanOmmit ⟨str "a b", 1, 8, 100, [], {}⟩ 0x3b = ((false, true), ⟨str "a b", 2, 8, 100, [], {}⟩) := by
  decide +kernel

/-- **C13** `<` may be preceded by white space, `>` may be followed by it. -/
theorem angleQuotes_spec (c : Ctx) (hp : c.pos ≤ c.src.length) :
    ((parseLeftAngleQuote c).1 = true ↔ ∃ y, c.sws.rest = 0x3c :: y) ∧
    ((parseLeftAngleQuote c).1 = true → (parseLeftAngleQuote c).2 = c.sws.adv 1) ∧
    ((parseRightAngleQuote c).1 = true ↔ ∃ y, c.rest = 0x3e :: y) ∧
    (∀ y, c.rest = 0x3e :: y → (parseRightAngleQuote c).2 = c.adv (1 + swsLen y)) ∧
    ((parseLeftAngleQuote c).1 = false → (parseLeftAngleQuote c).2.errs ≠ []) ∧
    ((parseRightAngleQuote c).1 = false → (parseRightAngleQuote c).2.errs ≠ []) := by
  obtain ⟨_, _, _, _, _, _, hle⟩ := sws_sound c hp
  have hsrc : c.sws.src = c.src := by rw [sws_eq c hp]; rfl
  have hnil : c.rest = [] → c.sws = c := by
    intro h; rw [sws_eq c hp, h]; rfl
  have left : (parseLeftAngleQuote c = (true, c.sws.adv 1) ∧ ∃ y, c.sws.rest = 0x3c :: y) ∨
      (¬ (∃ y, c.sws.rest = 0x3c :: y) ∧ (parseLeftAngleQuote c).1 = false ∧ (parseLeftAngleQuote c).2.errs ≠ []) := by
    unfold parseLeftAngleQuote
    by_cases h0 : c.pos ≥ c.src.length
    · right
      rw [if_pos h0]
      have : c.rest = [] := List.drop_eq_nil_of_le h0
      refine ⟨?_, rfl, by simp [Ctx.addError]⟩
      rw [hnil this, this]; simp
    · rw [if_neg h0]
      simp only
      rw [← hsrc] at hle
      generalize c.sws = d at *
      rw [getElem?_eq_drop]
      unfold Ctx.rest
      match hd : d.src.drop d.pos with
      | [] =>
        right; rw [if_pos (length_le_of_drop_nil hd)]
        exact ⟨by simp, rfl, by simp [Ctx.addError]⟩
      | x :: y =>
        have hlt := lt_of_drop_cons hd
        rw [if_neg (by omega)]
        by_cases hx : x = 0x3c
        · left; subst hx; exact ⟨by simp, y, rfl⟩
        · right; rw [if_pos (by simpa using hx)]
          refine ⟨by simp [hx], rfl, by simp [Ctx.addError]⟩
  have right : (∃ y, c.rest = 0x3e :: y ∧ parseRightAngleQuote c = (true, c.adv (1 + swsLen y))) ∨
      (¬ (∃ y, c.rest = 0x3e :: y) ∧ (parseRightAngleQuote c).1 = false ∧ (parseRightAngleQuote c).2.errs ≠ []) := by
    unfold parseRightAngleQuote
    rw [getElem?_eq_drop]
    unfold Ctx.rest
    match hd : c.src.drop c.pos with
    | [] =>
      right; rw [if_pos (length_le_of_drop_nil hd)]
      exact ⟨by simp, rfl, by simp [Ctx.addError]⟩
    | x :: y =>
      have hlt := lt_of_drop_cons hd
      rw [if_neg (by omega)]
      by_cases hx : x = 0x3e
      · left; subst hx
        refine ⟨y, rfl, ?_⟩
        have h1 : c.src.drop (c.pos + 1) = y := by rw [drop_add_of_drop hd]; rfl
        rw [if_neg (by simp), sws_eq _ (by simp [Ctx.adv]; omega)]
        simp [Ctx.adv, Ctx.rest, h1]; omega
      · right; rw [if_pos (by simpa using hx)]
        refine ⟨by simp [hx], rfl, by simp [Ctx.addError]⟩
  refine ⟨?_, ?_, ?_, ?_, ?_, ?_⟩
  · rcases left with ⟨h, h2⟩ | ⟨h, h2, _⟩
    · rw [h]; simpa using h2
    · rw [h2]; simpa using h
  · rcases left with ⟨h, h2⟩ | ⟨h, h2, _⟩ <;> simp_all
  · rcases right with ⟨y, h, h2⟩ | ⟨h, h2, _⟩
    · rw [h2, h]; simp
    · rw [h2]; simpa using h
  · intro y hy
    rcases right with ⟨y', h, h2⟩ | ⟨h, h2, _⟩
    · rw [h2]; rw [h] at hy; cases hy; rfl
    · exact absurd ⟨y, hy⟩ h
  · rcases left with ⟨h, h2⟩ | ⟨h, h2, h3⟩
    · rw [h]; simp
    · exact fun _ => h3
  · rcases right with ⟨y, h, h2⟩ | ⟨h, h2, h3⟩
    · rw [h2]; simp
    · exact fun _ => h3

example : parseLeftAngleQuote ⟨str "a \r\n\t<b> c", 1, 8, 100, [], {}⟩ = (true, ⟨str "a \r\n\t<b> c", 6, 8, 100, [], {}⟩) ∧
    parseRightAngleQuote ⟨str "a \r\n\t<b> c", 7, 8, 100, [], {}⟩ = (true, ⟨str "a \r\n\t<b> c", 9, 8, 100, [], {}⟩) := by decide +kernel

/-- **C12** `ParseCRLF` succeeds exactly on CRLF and consumes just that; it does not move otherwise. -/
theorem crlf_spec (c : Ctx) :
    (∀ y, c.rest = 0x0d :: 0x0a :: y → parseCRLF c = (true, c.adv 2)) ∧
    ((¬ ∃ y, c.rest = 0x0d :: 0x0a :: y) → parseCRLF c = (false, c)) := by
  unfold parseCRLF Ctx.rest
  rw [getElem?_eq_drop, getElem?_drop_add]
  match hd : c.src.drop c.pos with
  | [] => simp
  | [x] => simp
  | x :: y :: r =>
    have hlt := lt_of_drop_cons hd
    have hlen := length_eq_of_drop hd (by omega)
    simp at hlen
    have : c.pos + 1 < c.src.length := by omega
    by_cases h : x = 0x0d ∧ y = 0x0a
    · obtain ⟨rfl, rfl⟩ := h; simp [this]
    · rw [if_neg (by simpa [this] using h)]
      refine ⟨fun z hz => ?_, fun _ => rfl⟩
      simp at hz; exact absurd ⟨hz.1, hz.2.1⟩ h

/-- **C12** `IsOnlyCRLF`: an end of line that is not a fold. -/
theorem isOnlyCRLF_spec (src : Bytes) (pos : Nat) : isOnlyCRLF src pos = true ↔ StartsEol (src.drop pos) := by
  unfold isOnlyCRLF StartsEol
  have g0 := getElem?_eq_drop src pos
  have g1 := getElem?_drop_add src pos 1
  have g2 := getElem?_drop_add src pos 2
  rw [g0, g1, g2]
  match hd : src.drop pos with
  | [] => 
    have := length_le_of_drop_nil hd
    simp
  | [x] =>
    have hlt := lt_of_drop_cons hd
    have hlen := length_eq_of_drop hd (by omega)
    simp
  | [x, y] =>
    have hlt := lt_of_drop_cons hd
    have hlen := length_eq_of_drop hd (by omega)
    simp at hlen
    rw [if_neg (by omega)]
    simp only [List.getElem?_cons_zero, List.getElem?_cons_succ, Option.some.injEq, Bool.and_eq_true, decide_eq_true_eq]
    constructor
    · rintro ⟨⟨_, rfl⟩, rfl⟩; exact ⟨[], rfl, by simp⟩
    · rintro ⟨z, hz, _⟩
      simp at hz
      exact ⟨⟨by omega, hz.1⟩, hz.2.1⟩
  | x :: y :: w :: r =>
    have hlt := lt_of_drop_cons hd
    have hlen := length_eq_of_drop hd (by omega)
    simp at hlen
    rw [if_pos (by omega)]
    simp only [List.getElem?_cons_zero, List.getElem?_cons_succ, Option.some.injEq, Bool.and_eq_true, decide_eq_true_eq,
      Option.map_some, isWsp_iff]
    constructor
    · rintro ⟨⟨rfl, rfl⟩, h3⟩
      refine ⟨w :: r, rfl, ?_⟩
      intro c hc; simp only [List.head?_cons, Option.mem_def, Option.some.injEq] at hc; subst hc
      simpa [isSpHtab] using h3
    · rintro ⟨z, hz, hc⟩
      simp at hz
      obtain ⟨h1, h2, h3⟩ := hz
      subst h3
      have := hc w (by simp)
      refine ⟨⟨h1, h2⟩, ?_⟩
      simp [isSpHtab, this]

end Sip
