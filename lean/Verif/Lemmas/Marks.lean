import Verif.Model.Headers
import Verif.Props.AddrSafe
/-! # Rules for the marks, numbers and white space of the headers -/
namespace Sip

theorem swsLen_eq_of_sws {w y : Bytes} (hw : IsSWS w) (hy : NoWs y) : swsLen (w ++ y) = w.length := by
  have e := Parses.sws (fl := {}) w hw { src := w ++ y, cap := 9 } y rfl (by simp [Ctx.rest]) hy (by simp) (by simp)
  have h1 : ({ src := w ++ y, cap := 9 } : Ctx).sws = ({ src := w ++ y, cap := 9 } : Ctx).eat w.length 0 := by
    have : P.sws ({ src := w ++ y, cap := 9 } : Ctx) = .ok (some (), ({ src := w ++ y, cap := 9 } : Ctx).sws) := rfl
    rw [this] at e; simpa using e
  rw [sws_eq _ (by simp)] at h1
  have := congrArg Ctx.pos h1
  simp [Ctx.adv, Ctx.rest] at this
  exact this

/-- a mark with optional white space around it -/
theorem Parses.mark {fl : Flags} (m : UInt8) (hm : isLwsChar m = false) (w1 w2 : Bytes) (hw1 : IsSWS w1) (hw2 : IsSWS w2) :
    Parses fl (P.mark m) (w1 ++ m :: w2) () 0 NoWs := by
  intro c y h1 h2 h3 h4 h5
  have e := Parses.markYes m hm w1 w2 hw1 hw2 c y h1 h2 h3 h4 h5
  have hx : ∀ c : Ctx, parseSWSMark c m = ((parseSWSMarkCanOmmit c m).1.1, (parseSWSMark c m).2) ∧
      ((parseSWSMarkCanOmmit c m).1.1 = true → (parseSWSMark c m).2 = (parseSWSMarkCanOmmit c m).2) := by
    intro c
    unfold parseSWSMark parseSWSMarkCanOmmit
    simp only
    split <;> (try split) <;> simp
  obtain ⟨x1, x2⟩ := hx c
  unfold P.markCanOmmit at e
  rcases hmk : parseSWSMarkCanOmmit c m with ⟨⟨_ | _, _ | _⟩, d⟩ <;> rw [hmk] at e <;> simp only [Out.ok.injEq, Prod.mk.injEq, Option.some.injEq, reduceCtorEq, false_and, Bool.false_eq_true] at e
  rw [hmk] at x1 x2
  simp only at x1 x2
  unfold P.mark P.ofBool
  simp only
  rw [x1, x2 trivial, e.2]

theorem Parses.mark0 {fl : Flags} (m : UInt8) (hm : isLwsChar m = false) : Parses fl (P.mark m) [m] () 0 NoWs := by
  simpa using Parses.mark (fl := fl) m hm [] [] (Or.inl rfl) (Or.inl rfl)

/-- AbnfBasic.go:432-453: position, errors -/
theorem safe_mark (m : UInt8) (hm : m ≠ 0x0d) : Safe 0 true 1 0 (fun _ => True) (P.mark m) := by
  intro c hc
  have st := sws_step c hc
  rcases swsMark_spec c hc.pos m with ⟨y, hr, e⟩ | ⟨_, e⟩
  · have hs := st.inv
    have hlt : c.sws.pos + 1 ≤ c.sws.src.length := by
      have := rest_length _ hs.pos; rw [hr] at this; simp only [List.length_cons] at this; omega
    have st2 : Step c.sws (c.sws.adv 1) := Step.adv hs hlt
    have hrest2 : (c.sws.adv 1).rest = y := by
      have : (c.sws.adv 1).rest = c.sws.rest.drop 1 := by simp [Ctx.rest, Ctx.adv]
      rw [this, hr]; rfl
    have e2 := sws_eq (c.sws.adv 1) st2.inv.pos
    rw [hrest2] at e2
    have e3 : c.sws.adv (1 + swsLen y) = (c.sws.adv 1).sws := by rw [e2]; simp [Ctx.adv]; omega
    rw [e3] at e
    have st3 := sws_step _ st2.inv
    refine .of_ok (v := ()) (c' := (c.sws.adv 1).sws) (by simp only [P.mark, P.ofBool, e]) ((st.trans st2).trans st3) trivial ?_ ?_
    · have l2 : Line c.sws (c.sws.adv 1) := line_of_noCR [m] y hr rfl (by simp [hm])
      exact ((line_sws c hc).trans st.src l2).trans (st.trans st2).src (line_sws _ st2.inv)
    · have := sws_used c
      have h2 := sws_used (c.sws.adv 1)
      have h3 : (c.sws.adv 1).used = c.sws.used := rfl
      rw [h2, h3, this]; omega
  · refine .of_none (c' := c.sws.addError c.sws.pos) (by simp only [P.mark, P.ofBool, e]) (st.addError _) ?_
    have := st.errs.length_le
    intro _
    simp only [Ctx.addError, List.length_cons]; omega

theorem allWsp_split {a b x y : Bytes} (ha : AllWsp a) (hb : AllWsp b) (hx : ∀ d ∈ x.head?, d ≠ 0x20 ∧ d ≠ 0x09) (hy : ∀ d ∈ y.head?, d ≠ 0x20 ∧ d ≠ 0x09)
    (h : a ++ x = b ++ y) : a = b ∧ x = y := by
  have key : ∀ a x : Bytes, AllWsp a → (∀ d ∈ x.head?, d ≠ 0x20 ∧ d ≠ 0x09) → (a ++ x).takeWhile isSpHtab = a := by
    intro a x ha hx
    refine takeWhile_split rfl (fun b hb => (spHtab_iff b).2 (ha b hb)) (fun b hb => ?_)
    cases hh : isSpHtab b with
    | false => rfl
    | true =>
      rcases (spHtab_iff b).1 hh with e | e
      · exact absurd e (hx b hb).1
      · exact absurd e (hx b hb).2
  have e1 := key a x ha hx
  have e2 := key b y hb hy
  rw [h, e2] at e1
  subst e1
  exact ⟨rfl, List.append_cancel_left h⟩

/-- `HCOLON = *( SP / HTAB ) ":" SWS` -/
theorem Parses.hcolon {fl : Flags} (w1 w2 : Bytes) (hw1 : AllWsp w1) (hw2 : IsSWS w2) : Parses fl P.hcolon (w1 ++ 0x3a :: w2) () 0 NoWs := by
  intro c y h1 h2 h3 h4 h5
  have h2' : c.rest = w1 ++ 0x3a :: (w2 ++ y) := by rw [h2]; simp
  rcases hcolon_spec c h4 with ⟨w, z, hw, hr, e⟩ | ⟨w, z, hw, hr, hz, e⟩
  · obtain ⟨rfl, ez⟩ := allWsp_split hw1 hw (by intro d hd; simp at hd; subst hd; decide) (by intro d hd; simp at hd; subst hd; decide) (h2'.symm.trans hr)
    cases ez
    rw [swsLen_eq_of_sws hw2 h3] at e
    simp only [P.hcolon, P.ofBool, e]
    simp only [Ctx.adv, Ctx.eat, List.length_append, List.length_cons, Nat.add_zero, Out.ok.injEq, Prod.mk.injEq, Ctx.mk.injEq, true_and, and_true]
    omega
  · obtain ⟨rfl, ez⟩ := allWsp_split hw1 hw (by intro d hd; simp at hd; subst hd; decide) (fun d hd => (hz d hd).2) (h2'.symm.trans hr)
    subst ez
    exact absurd rfl (hz 0x3a rfl).1

/-- AbnfBasic.go:324-350: position, errors -/
theorem safe_hcolon : Safe 0 true 1 0 (fun _ => True) P.hcolon := by
  intro c hc
  have hl := rest_length c hc.pos
  have hwcr : ∀ w : Bytes, AllWsp w → ∀ b ∈ w, b ≠ 0x0d := by
    intro w hw b hb e; subst e; rcases hw _ hb with h | h <;> cases h
  rcases hcolon_spec c hc.pos with ⟨w, z, hw, hr, e⟩ | ⟨w, z, hw, hr, hz, e⟩
  · rw [hr] at hl; simp only [List.length_append, List.length_cons] at hl
    have st : Step c (c.adv (w.length + 1)) := Step.adv hc (by omega)
    have hr' : c.rest = (w ++ [0x3a]) ++ z := by rw [hr]; simp
    have hrest : (c.adv (w.length + 1)).rest = z := by
      have := Ctx.rest_eat c (w ++ [0x3a]) z 0 hr'
      simpa [Ctx.adv, Ctx.eat] using this
    have e2 := sws_eq _ st.inv.pos
    rw [hrest] at e2
    have e3 : c.adv (w.length + 1 + swsLen z) = (c.adv (w.length + 1)).sws := by rw [e2]; simp [Ctx.adv]; omega
    rw [e3] at e
    have st2 := sws_step _ st.inv
    refine .of_ok (v := ()) (c' := (c.adv (w.length + 1)).sws) (by simp only [P.hcolon, P.ofBool, e]) (st.trans st2) trivial ?_ ?_
    · have l1 : Line c (c.adv (w.length + 1)) := line_of_noCR (w ++ [0x3a]) z hr' (by simp [Ctx.adv]) (by
        intro b hb
        rcases List.mem_append.1 hb with h | h
        · exact hwcr w hw b h
        · simp at h; subst h; decide)
      exact l1.trans st.src (line_sws _ st.inv)
    · rw [sws_used]; simp [Ctx.adv]
  · rw [hr] at hl; simp only [List.length_append] at hl
    have st : Step c (c.adv w.length) := Step.adv hc (by omega)
    refine .of_none (c' := (c.adv w.length).addError (c.pos + w.length)) (by simp only [P.hcolon, P.ofBool, e]) (st.addError _) ?_
    intro _; simp [Ctx.addError, Ctx.adv]

theorem Parses.crlf {fl : Flags} {F : Bytes → Prop} : Parses fl P.crlf [0x0d, 0x0a] () 0 F := by
  intro c y h1 h2 h3 h4 h5
  have := (crlf_spec c).1 y h2
  simp only [P.crlf, P.ofBool, this]; rfl

/-- a decimal number without leading zeros -/
theorem Parses.uint {fl : Flags} (n : Nat) (hn : n < 18446744073709551616) : Parses fl P.uint (encodeUInt n) n 0 (NotIn csDigit) := by
  intro c y h1 h2 h3 h4 h5
  have h := uint_roundtrip n hn c.src c.pos y h2 (by
    intro b hb hd
    have h4 := h3 b hb
    have : isDigit b = true := (isDigit_iff b).2 hd
    rw [show isDigit b = csDigit.mem b from rfl, h4] at this; cases this)
  unfold P.uint
  simp only [h]
  rfl

/-- any text of digits -/
theorem Parses.digits {fl : Flags} (d : Bytes) (hne : d ≠ []) (hd : InSet csDigit d) :
    Parses fl P.uint d (decVal d % 18446744073709551616) 0 (NotIn csDigit) := by
  intro c y h1 h2 h3 h4 h5
  obtain ⟨e1, e2, e3⟩ := (parseUInt_run c.src c.pos d y h2 hd h3).2 hne
  unfold P.uint
  simp only [e1, e2, e3, if_true]
  rfl

theorem safe_uint : Safe 0 true 1 0 (fun n => n < 18446744073709551616) P.uint := by
  intro c hc
  obtain ⟨st, ln⟩ := parseUInt_text c hc
  have e0 : P.uint c = P.uint c := rfl
  conv at e0 => rhs; unfold P.uint
  simp only at e0
  by_cases h : (parseUInt c.src c.pos).ok = true
  · rw [if_pos h] at e0
    refine .of_ok e0 st ?_ ln (by simp [Ctx.setPos])
    rw [parseUInt_eq]
    split
    · simp
    · exact Nat.mod_lt _ (by decide)
  · rw [if_neg h] at e0
    exact .of_none e0 (st.addError _) (by intro _; simp [Ctx.addError, Ctx.setPos])

theorem safe_lws (c : Ctx) (hc : Inv c) : SafeAt 0 false 1 0 (fun _ => True) P.lws c := by
  rcases P.lws_cases c hc with e | ⟨p, e, h1, h2⟩
  · rw [← sws_eq c hc.pos] at e
    exact .of_ok e (sws_step c hc) trivial (line_sws c hc) (by rw [sws_used]; omega)
  · exact .of_none e (Step.setPos hc h1 h2) (by simp)

end Sip
