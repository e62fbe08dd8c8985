import Verif.Lemmas.LocPrim
/-! # What stands behind the end of a line does not matter: numbers, marks, quoted strings, brackets, hosts -/
namespace Sip
section
variable {a z z' : Bytes} {c : Ctx}

theorem digitLoop_cr (y y' : Bytes) : ∀ (x : Bytes) (d p : Nat), digitLoop (x ++ 0x0d :: y) d p = digitLoop (x ++ 0x0d :: y') d p ∧
    (digitLoop (x ++ 0x0d :: y) d p).2 ≤ p + x.length := by
  intro x
  induction x with
  | nil => intro d p; exact ⟨rfl, Nat.le_refl _⟩
  | cons b x ih =>
    intro d p
    rw [List.cons_append, List.cons_append, digitLoop, digitLoop]
    split
    · have := ih (u64 (d * 10 + b.toNat + 18446744073709551616 - 48)) (p + 1)
      exact ⟨this.1, by rw [List.length_cons]; omega⟩
    · exact ⟨rfl, Nat.le_add_right _ _⟩

theorem parseUInt_ln (z z' : Bytes) {i : Nat} (h : i ≤ a.length) :
    parseUInt (ln a z') i = parseUInt (ln a z) i ∧ (parseUInt (ln a z) i).newPos ≤ a.length := by
  have hl := ln_length a z; have hl' := ln_length a z'
  unfold parseUInt
  rw [ln_get a z' z (show i ≤ a.length + 1 by omega)]
  obtain ⟨h1, h2⟩ := digitLoop_cr (0x0a :: z) (0x0a :: z') (a.drop i) 0 i
  rw [ln_drop a z h, ln_drop a z' h]
  rw [List.length_drop] at h2
  by_cases h3 : ((ln a z)[i]?.map isDigit) ≠ some true
  · rw [if_pos (Or.inr h3), if_pos (Or.inr h3)]
    exact ⟨rfl, h⟩
  · rw [if_neg (show ¬ (i ≥ (ln a z).length ∨ _) by intro g; rcases g with g | g; · omega
                                                    · exact h3 g),
      if_neg (show ¬ (i ≥ (ln a z').length ∨ _) by intro g; rcases g with g | g; · omega
                                                   · exact h3 g)]
    rw [← h1]
    refine ⟨rfl, ?_⟩
    rcases hd : digitLoop (a.drop i ++ 0x0d :: 0x0a :: z) 0 i with ⟨d, p⟩
    rw [hd] at h2
    dsimp only at h2 ⊢
    omega

theorem loc_uint (hz : NoCont z) : Loc a z z' P.uint := by
  intro c hc
  refine LocAt.of_safe hz hc (safe_uint c hc.inv) ?_
  unfold P.uint
  rw [Ctx.tail_src, Ctx.tail_pos, (parseUInt_ln z z' hc.pos).1, hc.src]
  dsimp only
  rw [mv_ite]; rfl

theorem wsp_cr : isWspChar 0x0d = false := by decide +kernel

theorem hcolon_no (d : Ctx) (n : Nat) (h : skipWhile isWspChar d.src d.pos = n) (h2 : d.src[n]? ≠ some 0x3a) :
    P.hcolon d = .ok (none, (d.setPos n).addError n) := by
  unfold P.hcolon P.ofBool parseHcolon
  dsimp only
  subst h
  rw [if_pos h2]
  split
  · rename_i h; split at h <;> cases h
  · rename_i h; split at h <;> cases h <;> rfl
theorem hcolon_yes (d : Ctx) (n : Nat) (h : skipWhile isWspChar d.src d.pos = n) (h2 : d.src[n]? = some 0x3a) :
    P.hcolon d = .ok (some (), (d.setPos (n + 1)).sws) := by
  have hlt : n < d.src.length := (List.getElem?_eq_some_iff.1 h2).1
  unfold P.hcolon P.ofBool parseHcolon
  dsimp only
  subst h
  rw [if_neg (show ¬ _ ≥ d.src.length by omega), if_neg (show ¬ (_ ≠ some (0x3a : UInt8)) by rw [h2]; simp)]

/-- the rule for a header colon, also directly behind the CR of the line end -/
theorem hcolon_ln (hz : NoCont z) (hz' : NoCont z') (hs : c.src = ln a z) (hp : c.pos ≤ a.length + 1) (hu : c.used ≤ c.cap) :
    P.hcolon (c.tail (ln a z')) = mv (ln a z') (P.hcolon c) := by
  have hl := ln_length a z; have hl' := ln_length a z'
  have hn : skipWhile isWspChar (ln a z') c.pos = skipWhile isWspChar (ln a z) c.pos ∧ skipWhile isWspChar (ln a z) c.pos ≤ a.length + 1 := by
    rcases Nat.lt_or_ge a.length c.pos with h | h
    · have e : c.pos = a.length + 1 := by omega
      have h0 : ∀ w, skipWhile isWspChar (ln a w) c.pos = c.pos := by
        intro w
        unfold skipWhile
        rw [e, runLen_eq_takeWhile, ln, List.drop_append, List.drop_eq_nil_of_le (by omega), List.nil_append, Nat.add_sub_cancel_left]
        rfl
      rw [h0, h0]; exact ⟨rfl, hp⟩
    · obtain ⟨h1, h2⟩ := skipWhile_ln (a := a) wsp_cr z z' h
      exact ⟨h1.symm, by omega⟩
  have hn' : skipWhile isWspChar (c.tail (ln a z')).src (c.tail (ln a z')).pos = skipWhile isWspChar (ln a z) c.pos := hn.1
  have hn0 : skipWhile isWspChar c.src c.pos = skipWhile isWspChar (ln a z) c.pos := by rw [hs]
  have hn := hn.2
  generalize skipWhile isWspChar (ln a z) c.pos = n at *
  have hg := ln_get a z' z hn
  by_cases h3 : (ln a z)[n]? ≠ some 0x3a
  · rw [hcolon_no c n hn0 (by rw [hs]; exact h3), hcolon_no (c.tail (ln a z')) n hn' (by rw [Ctx.tail_src, hg]; exact h3)]; rfl
  · have h4 : (ln a z)[n]? = some 0x3a := by simpa using h3
    have hlt : n < a.length := by
      rcases Nat.lt_or_ge n a.length with h | h
      · exact h
      · exfalso
        have : n = a.length ∨ n = a.length + 1 := by omega
        rcases this with e | e
        · rw [e, ln_cr] at h4; cases h4
        · rw [e, ln_lf] at h4; cases h4
    rw [hcolon_yes c n hn0 (by rw [hs]; exact h4), hcolon_yes (c.tail (ln a z')) n hn' (by rw [Ctx.tail_src, hg]; exact h4)]
    have h6 : InA a z (c.setPos (n + 1)) := ⟨hs, hlt, hu⟩
    have e : (c.tail (ln a z')).setPos (n + 1) = (c.setPos (n + 1)).tail (ln a z') := rfl
    rw [e, (sws_ln hz hz' h6).1]; rfl

theorem loc_hcolon (hz : NoCont z) (hz' : NoCont z') : Loc a z z' P.hcolon := by
  intro c hc
  exact LocAt.of_safe hz hc (safe_hcolon c hc.inv) (hcolon_ln hz hz' hc.src (by have := hc.pos; omega) hc.used)

theorem InA.notEnd (h : InA a z c) (z' : Bytes) : ¬ (c.tail (ln a z')).pos ≥ (c.tail (ln a z')).src.length ∧ ¬ c.pos ≥ c.src.length := by
  have := h.pos
  have hl := ln_length a z; have hl' := ln_length a z'
  refine ⟨?_, by rw [h.src]; omega⟩
  show ¬ c.pos ≥ (ln a z').length
  omega
theorem InA.here (h : InA a z c) (z' : Bytes) : (c.tail (ln a z')).src[(c.tail (ln a z')).pos]? = c.src[c.pos]? := h.cur z'

theorem loc_laquot (hz : NoCont z) (hz' : NoCont z') : Loc a z z' (P.ofBool parseLeftAngleQuote) := by
  intro c hc
  refine LocAt.of_safe hz hc (safe_ofBool_laquot c hc.inv) ?_
  obtain ⟨h1, h2⟩ := sws_ln hz hz' hc
  unfold P.ofBool parseLeftAngleQuote
  rw [if_neg (hc.notEnd z').1, if_neg (hc.notEnd z').2]
  dsimp only
  rw [h1, if_neg (h2.notEnd z').1, if_neg (h2.notEnd z').2]
  by_cases h3 : c.sws.src[c.sws.pos]? ≠ some 0x3c
  · rw [if_pos (by rw [h2.here z']; exact h3), if_pos h3]; rfl
  · rw [if_neg (by rw [h2.here z']; exact h3), if_neg h3]; rfl

theorem loc_raquot (hz : NoCont z) (hz' : NoCont z') : Loc a z z' (P.ofBool parseRightAngleQuote) := by
  intro c hc
  refine LocAt.of_safe hz hc (safe_ofBool_raquot c hc.inv) ?_
  unfold P.ofBool parseRightAngleQuote
  rw [if_neg (hc.notEnd z').1, if_neg (hc.notEnd z').2]
  by_cases h3 : c.src[c.pos]? ≠ some 0x3e
  · rw [if_pos (by rw [hc.here z']; exact h3), if_pos h3]; rfl
  · rw [if_neg (by rw [hc.here z']; exact h3), if_neg h3]
    have h4 : c.cur? = some 0x3e := by unfold Ctx.cur?; simpa using h3
    have h6 : InA a z (c.adv 1) := ⟨hc.src, hc.lt h4 (by decide), hc.used⟩
    have e : (c.tail (ln a z')).adv 1 = (c.adv 1).tail (ln a z') := rfl
    dsimp only
    rw [e, (sws_ln hz hz' h6).1]; rfl

theorem isOnlyCRLF_ln (hz : NoCont z) (hz' : NoCont z') {i : Nat} (h : i ≤ a.length) : isOnlyCRLF (ln a z') i = isOnlyCRLF (ln a z) i := by
  rcases Nat.lt_or_ge i a.length with h1 | h1
  · have hl := ln_length a z; have hl' := ln_length a z'
    unfold isOnlyCRLF
    rw [if_pos (show i + 2 < (ln a z').length by omega), if_pos (show i + 2 < (ln a z).length by omega)]
    rw [ln_get a z' z (show i ≤ a.length + 1 by omega), ln_get a z' z (show i + 1 ≤ a.length + 1 by omega), ln_get a z' z (show i + 2 ≤ a.length + 1 by omega)]
  · have e : i = a.length := by omega
    rw [e, (isOnlyCRLF_spec (ln a z) a.length).2 (ln_eol z hz), (isOnlyCRLF_spec (ln a z') a.length).2 (ln_eol z' hz')]

/-! ## Quoted strings -/

theorem copyLWS_ln (hz : NoCont z) (hz' : NoCont z') (cap : Nat) {i : Nat} (u : Nat) (h : i ≤ a.length) :
    copyLWS (ln a z') cap i u = copyLWS (ln a z) cap i u ∧ ∀ p w o, copyLWS (ln a z) cap i u = .ok (true, p, w, o) → p ≤ a.length := by
  obtain ⟨h1, h2⟩ := takeWhile_ln (a := a) spHtab_cr z z' h
  have hl := ln_length a z; have hl' := ln_length a z'
  unfold copyLWS
  simp only
  rw [← h1]
  generalize ((ln a z).drop i).takeWhile isSpHtab = run at *
  by_cases h0 : u + run.length > cap ∧ run ≠ []
  · rw [if_pos h0, if_pos h0]; exact ⟨rfl, fun p w o e => by cases e⟩
  rw [if_neg h0, if_neg h0]
  rw [if_neg (show ¬ i + run.length + 1 ≥ (ln a z).length by omega), if_neg (show ¬ i + run.length + 1 ≥ (ln a z').length by omega)]
  rw [ln_get a z' z (show i + run.length ≤ a.length + 1 by omega), ln_get a z' z (show i + run.length + 1 ≤ a.length + 1 by omega)]
  by_cases h3 : (ln a z)[i + run.length]? = some 0x0d ∧ (ln a z)[i + run.length + 1]? = some 0x0a
  · rw [if_pos h3, if_pos h3]
    by_cases hm : u + run.length + 1 ≥ cap
    · rw [if_pos hm, if_pos hm]; exact ⟨rfl, fun p w o e => by cases e⟩
    rw [if_neg hm, if_neg hm]
    rcases Nat.lt_or_ge (i + run.length) a.length with h4 | h4
    · have h5 := ln_crlf h4 h3.1 h3.2
      rw [if_neg (show ¬ i + run.length + 2 ≥ (ln a z).length by omega), if_neg (show ¬ i + run.length + 2 ≥ (ln a z').length by omega)]
      rw [ln_get a z' z (show i + run.length + 2 ≤ a.length + 1 by omega)]
      obtain ⟨g1, g2⟩ := takeWhile_ln (a := a) spHtab_cr z z' h5
      rw [← g1]
      split
      · exact ⟨rfl, fun p w o e => by cases e⟩
      · split
        · exact ⟨rfl, fun p w o e => by cases e⟩
        · exact ⟨rfl, fun p w o e => by cases e; exact g2⟩
    · have h5 : i + run.length = a.length := by omega
      rw [h5]
      have e1 : ∀ (w : Bytes), NoCont w → ∀ k : Out (Bool × Nat × Nat × Bytes), (if a.length + 2 ≥ (ln a w).length then Out.ok (false, a.length + 2, u + run.length + 2, run ++ [0x0d, 0x0d]) else
          if ((ln a w)[a.length + 2]?.map isSpHtab) ≠ some true then Out.ok (false, a.length + 2, u + run.length + 2, run ++ [0x0d, 0x0d]) else k) =
            .ok (false, a.length + 2, u + run.length + 2, run ++ [0x0d, 0x0d]) := by
        intro w hw k
        split
        · rfl
        · rw [if_pos (ln_wsp hw)]
      rw [e1 z hz, e1 z' hz']
      exact ⟨rfl, fun p w o h => by cases h⟩
  · rw [if_neg h3, if_neg h3]
    exact ⟨rfl, fun p w o e => by cases e; exact h2⟩

theorem quotedLoop_ln (hz : NoCont z) (hz' : NoCont z') (k : Nat) : ∀ (c : Ctx) (n u : Nat) (out : Bytes) (f f' : Nat), c.src = ln a z → n ≤ a.length + 1 →
    a.length + 1 < k + n → a.length + 1 < f + n → a.length + 1 < f' + n →
    quotedLoop f' (c.tail (ln a z')) n u out = mv (ln a z') (quotedLoop f c n u out) ∧
    ∀ p w o d, quotedLoop f c n u out = .ok (some (p, w, o), d) → p < a.length := by
  induction k with
  | zero => intro c n u out f f' _ h1 h2; omega
  | succ k ih =>
    intro c n u out f f' hs hn hk hf hf'
    have hstuck : ∀ d : Ctx, d.src = ln a z → Stuck ((ln a z).drop n) → Stuck ((ln a z').drop n) → ∀ w o g g',
        quotedLoop g' (d.tail (ln a z')) n w o = mv (ln a z') (quotedLoop g d n w o) ∧
        ∀ p w' o' e, quotedLoop g d n w o = .ok (some (p, w', o'), e) → p < a.length := by
      intro d hd s1 s2 w o g g'
      rw [quotedLoop_stuck d n w o _ (by rw [hd]) s1 g, quotedLoop_stuck (d.tail (ln a z')) n w o _ rfl s2 g']
      exact ⟨rfl, fun p w o e h => by cases h⟩
    obtain ⟨f, rfl⟩ : ∃ m, f = m + 1 := ⟨f - 1, by omega⟩
    obtain ⟨f', rfl⟩ : ∃ m, f' = m + 1 := ⟨f' - 1, by omega⟩
    rcases Nat.lt_or_ge a.length n with hlf | hle
    · have e : n = a.length + 1 := by omega
      have hd : ∀ w, (ln a w).drop n = 0x0a :: w := by
        intro w
        rw [e, ln, List.drop_append, List.drop_eq_nil_of_le (by omega), List.nil_append, Nat.add_sub_cancel_left]; rfl
      exact hstuck c hs (Or.inl ⟨z, hd z⟩) (Or.inl ⟨z', hd z'⟩) _ _ _ _
    have hg := ln_get a z' z (show n ≤ a.length + 1 by omega)
    have hin : ∀ b, (ln a z)[n]? = some b → b ≠ 0x0d → n < a.length := by
      intro b hb h
      rcases Nat.lt_or_ge n a.length with g | g
      · exact g
      · have e : n = a.length := by omega
        rw [e, ln_cr] at hb; cases hb; exact absurd rfl h
    rw [quotedLoop, quotedLoop, Ctx.tail_src, hg, hs]
    cases hv : (ln a z)[n]? with
    | none => exact ⟨rfl, fun p w o d h => by cases h⟩
    | some v =>
      dsimp only
      by_cases h1 : v = 0x22
      · rw [if_pos h1, if_pos h1]
        refine ⟨rfl, fun p w o d h => ?_⟩
        cases h
        exact hin v hv (by rw [h1]; decide)
      rw [if_neg h1, if_neg h1]
      by_cases h2 : isLwsChar v = true
      · rw [if_pos h2, if_pos h2]
        have hcw := copyLWS_cases (ln a z) c.cap n u v hv h2
        have hcw' := copyLWS_cases (ln a z') c.cap n u v (by rw [hg]; exact hv) h2
        obtain ⟨g1, g2⟩ := copyLWS_ln (a := a) hz hz' c.cap u hle
        rw [Ctx.tail_cap, g1]
        rw [g1] at hcw'
        rcases hc0 : copyLWS (ln a z) c.cap n u with ⟨b, p, w, o⟩ | _ | _
        · rw [hc0] at hcw hcw'
          dsimp only at hcw hcw' ⊢
          by_cases h3 : (!b) = true
          · rw [if_pos h3, if_pos h3]; exact ⟨rfl, fun p w o d h => by cases h⟩
          rw [if_neg h3, if_neg h3]
          have hb : b = true := by simpa using h3
          subst hb
          have hp := g2 p w o hc0
          obtain ⟨q1, -, -, -, -, q2⟩ := hcw
          obtain ⟨-, -, -, -, -, q3⟩ := hcw'
          rcases Nat.eq_or_lt_of_le q1 with he | hlt
          · subst he
            exact hstuck { c with src := ln a z, pos := n, used := w } rfl ((q2 rfl).2.1 rfl) ((q3 rfl).2.1 rfl) _ _ _ _
          · exact ih { c with src := ln a z, pos := p, used := w } p w (out ++ o) f f' rfl (by omega) (by omega) (by omega) (by omega)
        · exact ⟨rfl, fun p w o d h => by cases h⟩
        · exact ⟨rfl, fun p w o d h => by cases h⟩
      rw [if_neg h2, if_neg h2]
      have hcr : v ≠ 0x0d := fun e => h2 (by rw [e]; decide +kernel)
      have hlt := hin v hv hcr
      by_cases h3 : isSipQuotedText v = true
      · rw [if_pos h3, if_pos h3]
        by_cases h4 : u ≥ c.cap
        · rw [if_pos (show u ≥ (c.tail (ln a z')).cap from h4), if_pos h4]; exact ⟨rfl, fun p w o d h => by cases h⟩
        · rw [if_neg (show ¬ u ≥ (c.tail (ln a z')).cap from h4), if_neg h4]
          exact ih c (n + 1) (u + 1) _ f f' hs (by omega) (by omega) (by omega) (by omega)
      rw [if_neg h3, if_neg h3]
      by_cases h4 : v = 0x5c
      · rw [if_pos h4, if_pos h4]
        rw [ln_get a z' z (show n + 1 ≤ a.length + 1 by omega)]
        cases hw : (ln a z)[n + 1]? with
        | none => exact ⟨rfl, fun p w o d h => by cases h⟩
        | some x =>
          dsimp only
          by_cases h5 : u + 1 ≥ c.cap
          · rw [if_pos (show u + 1 ≥ (c.tail (ln a z')).cap from h5), if_pos h5]; exact ⟨rfl, fun p w o d h => by cases h⟩
          · rw [if_neg (show ¬ u + 1 ≥ (c.tail (ln a z')).cap from h5), if_neg h5]
            exact ih c (n + 2) (u + 2) _ f f' hs (by omega) (by omega) (by omega) (by omega)
      · rw [if_neg h4, if_neg h4]; exact ⟨rfl, fun p w o d h => by cases h⟩

theorem loc_quoted (hz : NoCont z) (hz' : NoCont z') : Loc a z z' P.quoted := by
  intro c hc
  have hst := (safe_quoted c hc.inv).step
  obtain ⟨s1, s2⟩ := sws_ln hz hz' hc
  have hpe := sws_pos_eq c hc.inv
  have hc' : Inv (c.tail (ln a z')) := ⟨by show c.pos ≤ (ln a z').length; rw [ln_length]; have := hc.pos; omega, hc.used⟩
  have hpe' := sws_pos_eq (c.tail (ln a z')) hc'
  rw [s1] at hpe'
  have hn := s2.pos
  have e0 : P.quoted c = parseQuoted (c.src.length + 1) c := rfl
  have e1 : P.quoted (c.tail (ln a z')) = parseQuoted ((ln a z').length + 1) (c.tail (ln a z')) := rfl
  unfold parseQuoted at e0 e1
  rw [hpe] at e0; rw [hpe'] at e1
  rw [Ctx.tail_pos] at e1
  generalize c.sws.pos = n at *
  dsimp only at e0 e1
  rw [Ctx.tail_src, ln_get a z' z (show n ≤ a.length + 1 by omega)] at e1
  rw [hc.src] at e0
  have hl := ln_length a z; have hl' := ln_length a z'
  cases hv : (ln a z)[n]? with
  | none =>
    rw [hv] at e0 e1
    exact ⟨by rw [e0, e1]; rfl, hst, fun v c' e => by rw [e0] at e; cases e⟩
  | some v =>
    rw [hv] at e0 e1
    dsimp only at e0 e1
    by_cases h1 : v ≠ 0x22
    · rw [if_pos h1] at e0 e1
      exact ⟨by rw [e0, e1]; rfl, hst, fun v c' e => by rw [e0] at e; cases e⟩
    rw [if_neg h1] at e0 e1
    have hlt : n < a.length := by
      rcases Nat.lt_or_ge n a.length with g | g
      · exact g
      · have e : n = a.length := by omega
        rw [e, ln_cr] at hv
        cases hv
        exact absurd (show (0x0d : UInt8) ≠ 0x22 by decide) h1
    obtain ⟨q1, q2⟩ := quotedLoop_ln (a := a) (z := z) (z' := z') hz hz' (a.length + 2) c (n + 1) (c.used + 2) [] ((ln a z).length + 1) ((ln a z').length + 1) hc.src
      (by omega) (by omega) (by omega) (by omega)
    rw [Ctx.tail_used, q1] at e1
    rcases hq : quotedLoop ((ln a z).length + 1) c (n + 1) (c.used + 2) [] with ⟨_ | ⟨p, u, o⟩, d⟩ | _ | _ <;> rw [hq] at e0 e1 <;> dsimp only [mv] at e0 e1
    · exact ⟨by rw [e0, e1]; rfl, hst, fun v c' e => by rw [e0] at e; cases e⟩
    · rw [Ctx.tail_cap] at e1
      by_cases h2 : c.used + 2 > c.cap
      · rw [if_pos h2] at e0 e1
        exact ⟨by rw [e0, e1]; rfl, hst, fun v c' e => by rw [e0] at e; cases e⟩
      · rw [if_neg h2] at e0 e1
        have := q2 p u o d hq
        exact ⟨by rw [e0, e1]; rfl, hst, fun v c' e => by rw [e0] at e; cases e; exact this⟩
    · exact ⟨by rw [e0, e1]; rfl, hst, fun v c' e => by rw [e0] at e; cases e⟩
    · exact ⟨by rw [e0, e1]; rfl, hst, fun v c' e => by rw [e0] at e; cases e⟩

end
end Sip
