import Verif.Lemmas.Loc
import Verif.Props.AddrSafe
import Verif.Props.Tel
import Verif.Props.Version
/-! # What stands behind the end of a line does not matter: the low level parsers -/
namespace Sip
section
variable {a z z' : Bytes} {c : Ctx}

theorem takeWhile_ln {f : UInt8 → Bool} (hf : f 0x0d = false) (z z' : Bytes) {i : Nat} (h : i ≤ a.length) :
    ((ln a z).drop i).takeWhile f = ((ln a z').drop i).takeWhile f ∧ i + (((ln a z).drop i).takeWhile f).length ≤ a.length := by
  rw [ln_drop a z h, ln_drop a z' h]
  have h1 := takeWhile_cr_len hf (a.drop i) (0x0a :: z)
  rw [List.length_drop] at h1
  exact ⟨takeWhile_cr hf _ _ _, by omega⟩
theorem InA.run {f : UInt8 → Bool} (h : InA a z c) (hf : f 0x0d = false) (z' : Bytes) :
    (c.tail (ln a z')).rest.takeWhile f = c.rest.takeWhile f := by
  rw [h.rest, h.rest']; exact takeWhile_cr hf _ _ _

theorem mv_ite {α : Type} (s : Bytes) (p : Prop) [Decidable p] (x y : Out (Option α × Ctx)) : mv s (if p then x else y) = if p then mv s x else mv s y := by
  split <;> rfl

/-! ## Strings -/

theorem loc_str (hz : NoCont z) (s : CS) (hs : s.mem 0x0d = false) : Loc a z z' (P.str s) := by
  intro c hc
  refine LocAt.of_safe hz hc (safe_str s hs c hc.inv) ?_
  unfold P.str parseStr
  rw [hc.run hs]
  simp only [Ctx.tail_used, Ctx.tail_cap, Ctx.tail_pos]
  simp only [mv_ite]; rfl

theorem escLoop_cr (s : CS) (hs : s.mem 0x0d = false) (cap : Nat) (y y' : Bytes) (n : Nat) :
    ∀ x : Bytes, x.length < n → ∀ p u out, escLoop s cap (x ++ 0x0d :: y) p u out = escLoop s cap (x ++ 0x0d :: y') p u out := by
  induction n with
  | zero => intro x h; omega
  | succ n ih =>
    intro x h p u out
    have h25 : (0x0d : UInt8) ≠ 0x25 := by decide
    have hh : isHex 0x0d = false := by decide +kernel
    cases x with
    | nil => 
      rw [List.nil_append, List.nil_append, escLoop_stop, escLoop_stop]
      · intro b hb; cases hb; exact ⟨hs, h25⟩
      · intro b hb; cases hb; exact ⟨hs, h25⟩
    | cons b x =>
      have hx : x.length < n := by simp only [List.length_cons] at h; omega
      simp only [List.cons_append]
      rw [escLoop_cons, escLoop_cons]
      rw [ih x hx]
      by_cases h1 : s.mem b = true
      · rw [if_pos h1, if_pos h1]
      rw [if_neg h1, if_neg h1]
      by_cases h2 : b ≠ 0x25
      · rw [if_pos h2, if_pos h2]
      · rw [if_neg h2, if_neg h2]
        match x, hx with
        | [], _ =>
          cases y <;> cases y' <;> rfl
        | [v1], _ => simp only [List.cons_append, List.nil_append, hh, Bool.not_false, Bool.or_true, if_true]
        | v1 :: v2 :: x, hx =>
          simp only [List.cons_append]
          rw [ih x (by simp only [List.length_cons] at hx; omega)]

theorem loc_strEsc (hz : NoCont z) (s : CS) (hs : s.mem 0x0d = false) : Loc a z z' (P.strEsc s) := by
  intro c hc
  refine LocAt.of_safe hz hc (safe_strEsc s hs c hc.inv) ?_
  unfold P.strEsc parseStrEscapable
  rw [hc.rest, hc.rest']
  simp only [Ctx.tail_used, Ctx.tail_cap, Ctx.tail_pos]
  rw [escLoop_cr s hs c.cap (0x0a :: z') (0x0a :: z) _ _ (Nat.lt_succ_self _)]
  rw [mv_ite]
  congr 1
  rcases escLoop s c.cap (a.drop c.pos ++ 0x0d :: 0x0a :: z) c.pos (c.used + 2) [] with ⟨p, u, o⟩ | _ | p | p
  · dsimp only
    simp only [mv_ite]; rfl
  all_goals rfl
theorem loc_strEscEmpty (hz : NoCont z) (s : CS) (hs : s.mem 0x0d = false) : Loc a z z' (P.strEscEmpty s) := by
  intro c hc
  refine LocAt.of_safe hz hc (safe_strEscEmpty s hs c hc.inv) ?_
  unfold P.strEscEmpty parseStrEscapableEnableEmpty
  rw [hc.rest, hc.rest']
  simp only [Ctx.tail_used, Ctx.tail_cap, Ctx.tail_pos]
  rw [escLoop_cr s hs c.cap (0x0a :: z') (0x0a :: z) _ _ (Nat.lt_succ_self _)]
  rw [mv_ite]
  congr 1
  rcases escLoop s c.cap (a.drop c.pos ++ 0x0d :: 0x0a :: z) c.pos (c.used + 2) [] with ⟨p, u, o⟩ | _ | p | p
  · dsimp only
    simp only [mv_ite]; rfl
  all_goals rfl

theorem loc_telNumber (hz : NoCont z) (s : CS) (hs : s.mem 0x0d = false) : Loc a z z' (parseTelNumber s) := by
  intro c hc
  refine LocAt.of_safe hz hc (safe_telNumber s hs c hc.inv) ?_
  unfold parseTelNumber
  simp only [Ctx.tail_used, Ctx.tail_cap, Ctx.tail_pos, Ctx.tail_src, hc.cur]
  have hrun : ((ln a z').drop (c.pos + (if c.cur? = some 0x2b then [0x2b] else [] : Bytes).length)).takeWhile s.mem =
      (c.src.drop (c.pos + (if c.cur? = some 0x2b then [0x2b] else [] : Bytes).length)).takeWhile s.mem := by
    rw [hc.src]
    refine (takeWhile_ln hs z' z ?_).1
    by_cases h : c.cur? = some 0x2b
    · rw [if_pos h]; have := hc.lt h (by decide); simp only [List.length_singleton]; omega
    · rw [if_neg h]; exact hc.pos
  rw [hrun]
  generalize (c.src.drop (c.pos + (if c.cur? = some 0x2b then [0x2b] else [] : Bytes).length)).takeWhile s.mem = run
  generalize (if c.cur? = some 0x2b then [0x2b] else [] : Bytes) = plus
  simp only [mv_ite]; rfl

/-! ## White space -/

theorem spHtab_cr : isSpHtab 0x0d = false := by decide
theorem parseLWS_ln (hz : NoCont z) (hz' : NoCont z') {i : Nat} (h : i ≤ a.length) :
    parseLWS (ln a z') i = parseLWS (ln a z) i ∧ ((parseLWS (ln a z) i).2 = true → (parseLWS (ln a z) i).1 ≤ a.length) := by
  obtain ⟨h1, h2⟩ := skipWhile_ln (a := a) spHtab_cr z z' h
  have hl := ln_length a z; have hl' := ln_length a z'
  unfold parseLWS
  simp only
  rw [← h1]
  generalize skipWhile isSpHtab (ln a z) i = n at *
  rw [if_neg (show ¬ n + 1 ≥ (ln a z).length by omega), if_neg (show ¬ n + 1 ≥ (ln a z').length by omega)]
  rw [ln_get a z' z (show n ≤ a.length + 1 by omega), ln_get a z' z (show n + 1 ≤ a.length + 1 by omega)]
  by_cases h3 : (ln a z)[n]? = some 0x0d ∧ (ln a z)[n + 1]? = some 0x0a
  · rw [if_pos h3, if_pos h3]
    rcases Nat.lt_or_ge n a.length with h4 | h4
    · have h5 := ln_crlf h4 h3.1 h3.2
      rw [if_neg (show ¬ n + 2 ≥ (ln a z).length by omega), if_neg (show ¬ n + 2 ≥ (ln a z').length by omega)]
      rw [ln_get a z' z (show n + 2 ≤ a.length + 1 by omega)]
      obtain ⟨g1, g2⟩ := skipWhile_ln (a := a) spHtab_cr z z' h5
      split
      · exact ⟨rfl, fun h => by cases h⟩
      · exact ⟨by rw [g1], fun _ => g2⟩
    · have h5 : n = a.length := by omega
      subst h5
      have e1 : ∀ w : Bytes, NoCont w → (if a.length + 2 ≥ (ln a w).length then (a.length + 2, false) else
          if ((ln a w)[a.length + 2]?.map isSpHtab) ≠ some true then (a.length + 2, false) else (skipWhile isSpHtab (ln a w) (a.length + 2), true)) = (a.length + 2, false) := by
        intro w hw
        split
        · rfl
        · rw [if_pos (ln_wsp hw)]
      rw [e1 z hz, e1 z' hz']
      exact ⟨rfl, fun h => by cases h⟩
  · rw [if_neg h3, if_neg h3]
    exact ⟨rfl, fun _ => h2⟩

theorem loc_lws (hz : NoCont z) (hz' : NoCont z') : Loc a z z' P.lws := by
  intro c hc
  refine LocAt.of_safe hz hc (safe_lws c hc.inv) ?_
  unfold P.lws
  rw [Ctx.tail_src, Ctx.tail_pos, (parseLWS_ln hz hz' hc.pos).1, hc.src]
  rcases parseLWS (ln a z) c.pos with ⟨p, _ | _⟩ <;> rfl

/-- white space is skipped inside `a` -/
theorem sws_ln (hz : NoCont z) (hz' : NoCont z') (hc : InA a z c) : (c.tail (ln a z')).sws = c.sws.tail (ln a z') ∧ InA a z c.sws := by
  constructor
  · unfold Ctx.sws
    have hp := hc.pos
    rw [if_neg (show ¬ (c.tail (ln a z')).pos ≥ (c.tail (ln a z')).src.length by show ¬ c.pos ≥ (ln a z').length; rw [ln_length]; omega), if_neg (show ¬ c.pos ≥ c.src.length by rw [hc.src, ln_length]; omega)]
    rw [Ctx.tail_src, Ctx.tail_pos, (parseLWS_ln hz hz' hc.pos).1, hc.src, ln_get a z' z (show c.pos ≤ a.length + 1 by omega)]
    split
    · rfl
    · rcases parseLWS (ln a z) c.pos with ⟨p, _ | _⟩ <;> rfl
  · have := hc.line hz (line_sws c hc.inv)
    exact hc.step (sws_step c hc.inv) this

theorem loc_sws (hz : NoCont z) (hz' : NoCont z') : Loc a z z' P.sws := by
  intro c hc
  obtain ⟨h1, h2⟩ := sws_ln hz hz' hc
  refine ⟨?_, fun r c' e => ?_, fun v c' e => ?_⟩
  · unfold P.sws; rw [h1]; rfl
  · cases e; exact sws_step c hc.inv
  · cases e; exact h2.pos

theorem loc_markCanOmmit (hz : NoCont z) (hz' : NoCont z') (m : UInt8) (hm : m ≠ 0x0d) : Loc a z z' (P.markCanOmmit m) := by
  intro c hc
  refine LocAt.of_safe hz hc (safe_markCanOmmit m hm c hc.inv) ?_
  obtain ⟨h1, h2⟩ := sws_ln hz hz' hc
  unfold P.markCanOmmit parseSWSMarkCanOmmit
  dsimp only
  rw [h1]
  have hp := h2.pos
  have hlen := ln_length a z; have hlen' := ln_length a z'
  rw [if_neg (show ¬ (c.sws.tail (ln a z')).pos ≥ (c.sws.tail (ln a z')).src.length by show ¬ c.sws.pos ≥ (ln a z').length; omega), if_neg (show ¬ c.sws.pos ≥ c.sws.src.length by rw [h2.src]; omega)]
  have hg : (c.sws.tail (ln a z')).src[(c.sws.tail (ln a z')).pos]? = c.sws.src[c.sws.pos]? := by rw [h2.src]; exact ln_get a z' z (by show c.sws.pos ≤ _; omega)
  by_cases h3 : c.sws.src[c.sws.pos]? ≠ some m
  · rw [if_pos (show (c.sws.tail (ln a z')).src[(c.sws.tail (ln a z')).pos]? ≠ some m by rw [hg]; exact h3), if_pos h3]; rfl
  · rw [if_neg (show ¬ (c.sws.tail (ln a z')).src[(c.sws.tail (ln a z')).pos]? ≠ some m by rw [hg]; exact h3), if_neg h3]
    have h4 : c.sws.cur? = some m := by unfold Ctx.cur?; simpa using h3
    have h5 := h2.lt h4 hm
    have h6 : InA a z (c.sws.adv 1) := ⟨h2.src, h5, h2.used⟩
    have e : (c.sws.tail (ln a z')).adv 1 = (c.sws.adv 1).tail (ln a z') := rfl
    rw [e, (sws_ln hz hz' h6).1]; rfl

theorem loc_mark (hz : NoCont z) (hz' : NoCont z') (m : UInt8) (hm : m ≠ 0x0d) : Loc a z z' (P.mark m) := by
  intro c hc
  refine LocAt.of_safe hz hc (safe_mark m hm c hc.inv) ?_
  obtain ⟨h1, h2⟩ := sws_ln hz hz' hc
  unfold P.mark P.ofBool parseSWSMark
  dsimp only
  rw [h1]
  have hp := h2.pos
  have hlen := ln_length a z; have hlen' := ln_length a z'
  rw [if_neg (show ¬ (c.sws.tail (ln a z')).pos ≥ (c.sws.tail (ln a z')).src.length by show ¬ c.sws.pos ≥ (ln a z').length; omega), if_neg (show ¬ c.sws.pos ≥ c.sws.src.length by rw [h2.src]; omega)]
  have hg : (c.sws.tail (ln a z')).src[(c.sws.tail (ln a z')).pos]? = c.sws.src[c.sws.pos]? := by rw [h2.src]; exact ln_get a z' z (by show c.sws.pos ≤ _; omega)
  by_cases h3 : c.sws.src[c.sws.pos]? ≠ some m
  · rw [if_pos (show (c.sws.tail (ln a z')).src[(c.sws.tail (ln a z')).pos]? ≠ some m by rw [hg]; exact h3), if_pos h3]; rfl
  · rw [if_neg (show ¬ (c.sws.tail (ln a z')).src[(c.sws.tail (ln a z')).pos]? ≠ some m by rw [hg]; exact h3), if_neg h3]
    have h4 : c.sws.cur? = some m := by unfold Ctx.cur?; simpa using h3
    have h5 := h2.lt h4 hm
    have h6 : InA a z (c.sws.adv 1) := ⟨h2.src, h5, h2.used⟩
    have e : (c.sws.tail (ln a z')).adv 1 = (c.sws.adv 1).tail (ln a z') := rfl
    rw [e, (sws_ln hz hz' h6).1]; rfl

theorem loc_nextParamMark (hz : NoCont z) (hz' : NoCont z') (m : UInt8) (hm : m ≠ 0x0d) : Loc a z z' (nextParamMark m) := by
  intro c hc
  refine LocAt.of_safe hz hc (safe_nextParamMark m hm c hc.inv).1 ?_
  have h1 := (loc_markCanOmmit (z' := z') hz hz' m hm c hc).eq
  unfold nextParamMark
  rw [h1]
  rcases P.markCanOmmit m c with ⟨_ | b, d⟩ | _ | _
  · rfl
  · cases b <;> rfl
  · rfl
  · rfl

theorem loc_comma (hz : NoCont z) (hz' : NoCont z') : Loc a z z' P.comma := by
  intro c hc
  have h1 := loc_markCanOmmit (z' := z') hz hz' 0x2c (by decide) c hc
  have he := h1.eq
  unfold P.markCanOmmit at he
  have e0 : P.comma c = P.comma c := rfl
  conv at e0 => rhs; unfold P.comma
  have e1 : P.comma (c.tail (ln a z')) = P.comma (c.tail (ln a z')) := rfl
  conv at e1 => rhs; unfold P.comma
  have hb : ∀ {d : Ctx}, Step c d → Step c (d.setPos c.pos) := fun st => ⟨st.src, st.cap, st.flags, Nat.le_refl _, hc.inv.pos, st.used_le, st.used_cap, st.errs⟩
  rcases h2 : parseSWSMarkCanOmmit c 0x2c with ⟨⟨b, o⟩, d⟩
  rcases h3 : parseSWSMarkCanOmmit (c.tail (ln a z')) 0x2c with ⟨⟨b', o'⟩, d'⟩
  rw [h2, h3] at he
  have hrun : P.markCanOmmit 0x2c c = (match ((b, o), d) with
    | ((b, true), c) => .ok (some b, c)
    | ((_, false), c) => .ok (none, c)) := by unfold P.markCanOmmit; rw [h2]; cases o <;> rfl
  rw [h2] at e0; rw [h3] at e1
  cases o <;> cases o' <;> simp only [mv] at he <;> try (cases he; done)
  · have hd : d' = d.tail (ln a z') := by cases he; rfl
    have st := h1.step _ _ hrun
    have e0 : P.comma c = .ok (some false, d.setPos c.pos) := by rw [e0]; cases b <;> rfl
    have e1 : P.comma (c.tail (ln a z')) = .ok (some false, d'.setPos c.pos) := by rw [e1]; cases b' <;> rfl
    rw [hd] at e1
    refine ⟨by rw [e0, e1]; rfl, fun r c' e => ?_, fun v c' e => ?_⟩
    · rw [e0] at e; cases e; exact hb st
    · rw [e0] at e; cases e; exact hc.pos
  · have hd : d' = d.tail (ln a z') ∧ b' = b := by cases he; exact ⟨rfl, rfl⟩
    obtain ⟨hd, rfl⟩ := hd
    have st := h1.step _ _ hrun
    rw [hd] at e1
    cases b' <;> dsimp only at e0 e1
    · refine ⟨by rw [e0, e1]; rfl, fun r c' e => ?_, fun v c' e => ?_⟩
      · rw [e0] at e; cases e; exact hb st
      · rw [e0] at e; cases e; exact hc.pos
    · refine ⟨by rw [e0, e1]; rfl, fun r c' e => ?_, fun v c' e => ?_⟩
      · rw [e0] at e; cases e; exact st
      · rw [e0] at e; cases e; exact h1.inside _ _ hrun

end
end Sip
