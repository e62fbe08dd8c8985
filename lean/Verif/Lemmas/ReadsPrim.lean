import Verif.Props.Grammar
/-! # What the lexical parsers have read -/
namespace Sip

theorem takeWhile_text {s : CS} {c c' : Ctx} {t : Bytes} (hs : Step c c') (ht : c.rest = t ++ c'.rest) (hp : c'.pos = c.pos + (c.rest.takeWhile s.mem).length) :
    t = c.rest.takeWhile s.mem ∧ InSet s t ∧ NotIn s c'.rest := by
  obtain ⟨x, y, h⟩ := exists_maxRun s c.rest
  have e := maxRun_takeWhile h
  rw [e] at hp ⊢
  have hl := hs.pos_text ht
  have hl' : t.length = x.length := by omega
  have h1 := h.1
  rw [ht] at h1
  obtain ⟨rfl, rfl⟩ := List.append_inj h1 hl'
  exact ⟨rfl, h.2.1, h.2.2⟩

/-- the byte table for a set without CR -/
theorem ReadsAt.str {c : Ctx} (s : CS) (hcr : s.mem 0x0d = false) : ReadsAt (Gram.run s) (P.str s) c := by
  refine ReadsAt.of_safe (fun hc => safe_str s hcr c hc) (fun hc v c' t e st ht hq => ?_)
  have hv := str_val e
  have hp : c'.pos = c.pos + (c.rest.takeWhile s.mem).length := by
    simp only [P.str, parseStr] at e
    split at e
    · cases e
    · split at e
      · cases e
      · split at e
        · cases e
        · split at e
          · cases e
          · simp only [Out.ok.injEq, Prod.mk.injEq, Option.some.injEq] at e
            rw [← e.2]
  obtain ⟨h1, h2, h3⟩ := takeWhile_text st ht hp
  exact ⟨hv.trans h1.symm, by rw [h1, ← hv]; exact hq.1, h2, h3⟩

theorem ReadsAt.strEsc {c : Ctx} (s : CS) (hcr : s.mem 0x0d = false) : ReadsAt (Gram.esc s) (P.strEsc s) c := by
  refine ReadsAt.of_safe (fun hc => safe_strEsc s hcr c hc) (fun hc v c' t e st ht hq => ?_)
  exact ⟨hq, by rw [← ht]; exact strEsc_val hc e⟩

/-- in a set with '%' there are no escapes: the value is the text -/
theorem decodes_percent {s : CS} (h : s.mem 0x25 = true) {x v y : Bytes} (hd : Decodes s x v y) : x = v ++ y ∧ InSet s v ∧ NotIn s y := by
  induction hd with
  | stop y hy => exact ⟨rfl, (by intro b hb; cases hb), fun b hb => (hy b hb).1⟩
  | lit v t o y hv hr ih => exact ⟨by rw [ih.1]; rfl, (by intro b hb; rcases List.mem_cons.1 hb with rfl | hb; exact hv; exact ih.2.1 b hb), ih.2.2⟩
  | esc a b t o y hm => rw [h] at hm; cases hm

theorem ReadsAt.strEsc_token {c : Ctx} : ReadsAt (Gram.run csSipToken) (P.strEsc csSipToken) c := by
  refine (ReadsAt.strEsc csSipToken (by decide +kernel)).mono (fun v t y _ h => ?_)
  obtain ⟨h1, h2, h3⟩ := decodes_percent (by decide +kernel) h.2
  have h1 : t = v := List.append_cancel_right h1
  subst h1
  exact ⟨rfl, h.1, h2, h3⟩

theorem strEscEmpty_val {s : CS} {c c' : Ctx} {v : Bytes} (hc : Inv c) (h : P.strEscEmpty s c = .ok (some v, c')) : Decodes s c.rest v c'.rest := by
  have hlen := rest_length c hc.pos
  simp only [P.strEscEmpty, parseStrEscapableEnableEmpty] at h
  split at h
  · cases h
  · split at h
    · cases h
    · cases h
    · cases h
    · rename_i p' u' out' heq
      obtain ⟨o, y, h1, h2, h3⟩ := escLoop_stop_decodes s _ _ _ _ _ _ _ _ heq
      split at h
      · cases h
      · simp only [Out.ok.injEq, Prod.mk.injEq, Option.some.injEq] at h
        obtain ⟨rfl, rfl⟩ := h
        simp only [List.nil_append] at h2
        subst h2
        have hsuf : ∀ {t o y}, Decodes s t o y → ∃ x, t = x ++ y := by
          intro t o y h
          induction h with
          | stop y h => exact ⟨[], rfl⟩
          | lit v t o y h hr ih => obtain ⟨x, rfl⟩ := ih; exact ⟨v :: x, rfl⟩
          | esc a b t o y h ha hb hr ih => obtain ⟨x, rfl⟩ := ih; exact ⟨0x25 :: a :: b :: x, rfl⟩
        obtain ⟨x, hx⟩ := hsuf h1
        have e : ({ c with pos := p', used := u' } : Ctx).rest = y := by
          show c.src.drop p' = y
          have hp' : p' = c.pos + x.length := by
            rw [hx] at h3; simp only [List.length_append] at h3; omega
          rw [hp']
          have : c.src.drop c.pos = x ++ y := hx
          rw [drop_add_of_drop this]; simp
        rw [e]; exact h1

theorem ReadsAt.strEscEmpty {c : Ctx} (s : CS) (hcr : s.mem 0x0d = false) : ReadsAt (Gram.escEmpty s) (P.strEscEmpty s) c := by
  refine ReadsAt.of_safe (fun hc => safe_strEscEmpty s hcr c hc) (fun hc v c' t e st ht hq => ?_)
  show Decodes s (t ++ _) v _
  rw [← ht]; exact strEscEmpty_val hc e

theorem swsLen_isSWS (y : Bytes) : IsSWS (y.take (swsLen y)) := by
  obtain ⟨x, z, g1, g2, g3, g4, g5⟩ := sws_sound ({ src := y, cap := 0 } : Ctx) (by simp)
  have e : ({ src := y, cap := 0 } : Ctx).rest = y := by show y.drop 0 = y; rfl
  have g3' := sws_eq ({ src := y, cap := 0 } : Ctx) (by simp)
  rw [e] at g1 g3'
  have hl : x.length = swsLen y := by
    have := g3.symm.trans g3'
    simp only [Ctx.adv, Ctx.mk.injEq] at this
    omega
  rw [← hl, g1, List.take_left]; exact g2

theorem swsLen_endsLine {s : Bytes} (h : Gram.endsLine s) : swsLen s = 0 := by
  obtain ⟨a, b, rfl, ha, z, rfl, hz⟩ := h
  have hr : runLen isSpHtab (a ++ ([0x0d, 0x0a] ++ z)) = a.length := by
    rw [runLen_append_of_all (fun c hc => (spHtab_iff c).2 (ha c hc))]
    have : runLen isSpHtab ([0x0d, 0x0a] ++ z) = 0 := runLen_cons_false (by decide +kernel)
    omega
  unfold swsLen
  rw [hr, List.drop_left]
  cases z with
  | nil => rfl
  | cons w r =>
    have := hz w rfl
    show (if isSpHtab w then _ else 0) = 0
    rw [if_neg (by rw [spHtab_iff]; rintro (h | h); exact this.1 h; exact this.2 h)]

theorem swsLen_maximal {s x y : Bytes} (hx : s = x ++ y) (hl : IsSWS x) (hne : ¬ Gram.endsLine s) : x.length ≤ swsLen s := by
  rcases hl with rfl | hl
  · simp
  · have e : ({ src := s, cap := 0 } : Ctx).rest = s := rfl
    have := sws_maximal ({ src := s, cap := 0 } : Ctx) (by simp) x y (by rw [e]; exact hx) hl (by rw [e]; exact hne)
    rw [sws_eq _ (by simp), e] at this
    simpa [Ctx.adv] using this

/-- the white space of the grammar is what the parser passes -/
theorem gsws_iff {w y : Bytes} : Gram.sws w y ↔ swsLen (w ++ y) = w.length := by
  constructor
  · rintro ⟨h1, h2, h3⟩
    by_cases he : Gram.endsLine (w ++ y)
    · rw [swsLen_endsLine he, h2 he]; rfl
    · have g1 := swsLen_maximal rfl h1 he
      have g2 := h3 he _ _ (List.take_append_drop (swsLen (w ++ y)) (w ++ y)).symm (swsLen_isSWS _)
      rw [List.length_take] at g2
      have := swsLen_le (w ++ y)
      omega
  · intro h
    have e : (w ++ y).take (swsLen (w ++ y)) = w := by rw [h, List.take_left]
    refine ⟨by rw [← e]; exact swsLen_isSWS _, fun he => ?_, fun he w' z hw' hi => ?_⟩
    · rw [swsLen_endsLine he] at h; exact List.length_eq_zero_iff.1 h.symm
    · rw [← h]; exact swsLen_maximal hw' hi he

theorem gsws_take (y : Bytes) : Gram.sws (y.take (swsLen y)) (y.drop (swsLen y)) := by
  rw [gsws_iff, List.take_append_drop, List.length_take]; have := swsLen_le y; omega

theorem isSWS_sws {c : Ctx} (hc : Inv c) {t : Bytes} (ht : c.rest = t ++ c.sws.rest) : IsSWS t := by
  obtain ⟨x, y, h1, h2, h3, h4, h5⟩ := sws_sound c hc.pos
  rw [h4, h1] at ht
  rw [← List.append_cancel_right ht]; exact h2

theorem gsws_sws {c : Ctx} (hc : Inv c) {t : Bytes} (ht : c.rest = t ++ c.sws.rest) : Gram.sws t c.sws.rest := by
  have e : c.sws.rest = c.rest.drop (swsLen c.rest) := by
    rw [sws_eq c hc.pos]; unfold Ctx.rest; rw [List.drop_drop]; rfl
  have h := List.take_append_drop (swsLen c.rest) c.rest
  rw [← e] at h
  have : t = c.rest.take (swsLen c.rest) := List.append_cancel_right (ht.symm.trans h.symm)
  rw [this, e]; exact gsws_take _

theorem ReadsAt.sws {c : Ctx} : ReadsAt (fun _ t y => Gram.sws t y) P.sws c := by
  intro hc v c' e
  cases e
  have st := (sws_step c hc)
  obtain ⟨t, ht⟩ := st.text
  exact ⟨st, t, ht, gsws_sws hc ht⟩

/-- the text of a mark: white space, the mark, white space -/
theorem markText {c : Ctx} (hc : Inv c) {m : UInt8} {y t : Bytes} (h : c.sws.rest = m :: y) (ht : c.rest = t ++ (c.sws.adv (1 + swsLen y)).rest) : Gram.mark m t (c.sws.adv (1 + swsLen y)).rest := by
  have st := (sws_step c hc)
  obtain ⟨w1, h1⟩ := st.text
  have e2 : (c.sws.adv (1 + swsLen y)).rest = y.drop (swsLen y) := by
    show c.sws.src.drop (c.sws.pos + (1 + swsLen y)) = _
    rw [← List.drop_drop]
    have : c.sws.src.drop c.sws.pos = m :: y := h
    rw [this, Nat.add_comm 1]; rfl
  refine ⟨w1, y.take (swsLen y), isSWS_sws hc h1, by rw [e2]; exact gsws_take y, ?_⟩
  rw [h1, h, e2] at ht
  have : w1 ++ m :: y = (w1 ++ m :: y.take (swsLen y)) ++ y.drop (swsLen y) := by simp
  rw [this] at ht
  exact (List.append_cancel_right ht).symm

theorem ReadsAt.mark {c : Ctx} (m : UInt8) (hm : m ≠ 0x0d) : ReadsAt (fun _ t y => Gram.mark m t y) (P.mark m) c := by
  refine ReadsAt.of_safe (fun hc => safe_mark m hm c hc) (fun hc v c' t e st ht hq => ?_)
  simp only [P.mark, P.ofBool] at e
  rcases swsMark_spec c hc.pos m with ⟨y, h1, h2⟩ | ⟨h1, h2⟩
  · rw [h2] at e; cases e
    exact markText hc h1 ht
  · rw [h2] at e; cases e

theorem ReadsAt.markCanOmmit {c : Ctx} (m : UInt8) (hm : m ≠ 0x0d) :
    ReadsAt (fun b t y => (b = true → Gram.mark m t y) ∧ (b = false → Gram.sws t y ∧ y ≠ [] ∧ y.head? ≠ some m)) (P.markCanOmmit m) c := by
  refine ReadsAt.of_safe (fun hc => safe_markCanOmmit m hm c hc) (fun hc v c' t e st ht hq => ?_)
  simp only [P.markCanOmmit] at e
  rw [swsMarkCanOmmit_spec c hc.pos m] at e
  match hr : c.sws.rest with
  | [] => rw [hr] at e; cases e
  | x :: y =>
    rw [hr] at e
    by_cases hx : x = m
    · simp only [if_pos hx] at e; cases e
      subst hx
      exact ⟨fun _ => markText hc hr ht, by intro h; cases h⟩
    · simp only [if_neg hx] at e; cases e
      refine ⟨(by intro h; cases h), fun _ => ⟨gsws_sws hc ht, by rw [hr]; simp, by rw [hr]; simpa using hx⟩⟩

theorem Ctx.rest_drop (c : Ctx) (n : Nat) : (c.adv n).rest = c.rest.drop n := by
  unfold Ctx.rest; rw [List.drop_drop]; rfl

theorem ReadsAt.hcolon {c : Ctx} : ReadsAt (fun _ t y => Gram.hcolon t y) P.hcolon c := by
  refine ReadsAt.of_safe (fun hc => safe_hcolon c hc) (fun hc v c' t e st ht hq => ?_)
  simp only [P.hcolon, P.ofBool] at e
  rcases hcolon_spec c hc.pos with ⟨w, z, hw, hr, e2⟩ | ⟨w, z, hw, hr, hz, e2⟩
  · rw [e2] at e; cases e
    refine ⟨w, z.take (swsLen z), hw, ?_, ?_⟩
    · rw [Ctx.rest_drop, hr, Nat.add_assoc, ← List.drop_drop, List.drop_left, Nat.add_comm 1]; exact gsws_take z
    rw [Ctx.rest_drop, hr] at ht
    have e3 : (w ++ 0x3a :: z).drop (w.length + 1 + swsLen z) = z.drop (swsLen z) := by
      rw [Nat.add_assoc, ← List.drop_drop, List.drop_left, Nat.add_comm 1]; rfl
    rw [e3] at ht
    have : w ++ 0x3a :: z = (w ++ 0x3a :: z.take (swsLen z)) ++ z.drop (swsLen z) := by simp
    rw [this] at ht
    exact (List.append_cancel_right ht).symm
  · rw [e2] at e; cases e

theorem ReadsAt.crlf {c : Ctx} : ReadsAt (fun _ t _ => t = [0x0d, 0x0a]) P.crlf c := by
  intro hc v c' e
  simp only [P.crlf, P.ofBool] at e
  by_cases h : ∃ y, c.rest = 0x0d :: 0x0a :: y
  · obtain ⟨y, h⟩ := h
    rw [(crlf_spec c).1 y h] at e; cases e
    have h' : c.rest = [0x0d, 0x0a] ++ y := h
    refine ⟨Step.of_rest hc h', _, ?_, rfl⟩
    have : (c.adv 2).rest = y := Ctx.rest_adv h'
    rw [this]; exact h'
  · rw [(crlf_spec c).2 h] at e; cases e

theorem ReadsAt.lws {c : Ctx} : ReadsAt (fun _ t y => Gram.sws t y) P.lws c := by
  intro hc v c' e
  rcases P.lws_cases c hc with h | ⟨p, h, _⟩
  · rw [h] at e; cases e
    have h2 := (List.take_append_drop (swsLen c.rest) c.rest).symm
    have hl : (c.rest.take (swsLen c.rest)).length = swsLen c.rest := by rw [List.length_take]; have := swsLen_le c.rest; omega
    have s := Step.of_rest hc h2
    rw [hl] at s
    exact ⟨s, _, by rw [Ctx.rest_drop]; exact h2, by rw [Ctx.rest_drop]; exact gsws_take _⟩
  · rw [h] at e; cases e

theorem uint_text {c : Ctx} (h : (parseUInt c.src c.pos).ok = true) :
    ∃ t y, c.rest = t ++ y ∧ Gram.number (parseUInt c.src c.pos).digit t y ∧ (parseUInt c.src c.pos).newPos = c.pos + t.length := by
  obtain ⟨d, y, h1, h2, h3⟩ := exists_maxRun csDigit c.rest
  obtain ⟨g1, g2⟩ := parseUInt_run c.src c.pos d y h1 h2 h3
  by_cases hd : d = []
  · rw [g1 hd] at h; cases h
  · obtain ⟨_, g3, g4⟩ := g2 hd
    exact ⟨d, y, h1, ⟨hd, h2, h3, g3⟩, g4⟩

theorem ReadsAt.uint {c : Ctx} : ReadsAt Gram.number P.uint c := by
  intro hc v c' e
  unfold P.uint at e
  by_cases h : (parseUInt c.src c.pos).ok = true
  · obtain ⟨t, y, h1, h2, h3⟩ := uint_text h
    simp only [h, if_true, Out.ok.injEq, Prod.mk.injEq, Option.some.injEq] at e
    obtain ⟨rfl, rfl⟩ := e
    rw [h3]
    show Step c (c.adv t.length) ∧ ∃ t', c.rest = t' ++ (c.adv t.length).rest ∧ Gram.number _ t' (c.adv t.length).rest
    rw [Ctx.rest_adv h1]
    exact ⟨Step.of_rest hc h1, t, h1, h2⟩
  · simp only [h] at e; cases e

theorem ReadsAt.allocStr {c : Ctx} (b : Bytes) : ReadsAt (fun v t _ => v = b ∧ t = []) (P.allocStr b) c := by
  intro hc v c' e
  have hs := SafeAt.allocStr (q := 0) (m := 0) (b := b) hc
  have s := hs.step _ _ e
  have hv := (hs.some _ _ e).1
  unfold P.allocStr Sip.allocStr at e
  by_cases h : c.used + (b.length + 2) > c.cap
  · rw [if_pos h] at e; cases e
  · rw [if_neg h] at e; cases e
    exact ⟨s, [], rfl, rfl, rfl⟩

theorem ReadsAt.quoted {c : Ctx} : ReadsAt Gram.quoted P.quoted c := by
  refine ReadsAt.of_safe (fun hc => safe_quoted c hc) (fun hc v c' t e st ht hq => ?_)
  obtain ⟨w, q, h1, h2, h3⟩ := quoted_val' e
  refine ⟨w, q, by rw [h3 hc.pos]; exact swsLen_isSWS _, ?_, h2⟩
  rw [ht] at h1
  have : w ++ 0x22 :: q ++ 0x22 :: c'.rest = (w ++ 0x22 :: q ++ [0x22]) ++ c'.rest := by simp
  rw [this] at h1
  exact List.append_cancel_right h1

theorem ReadsAt.orBack {α : Type} {c : Ctx} {R : Rel α} {p : P α} (h : ReadsAt R p c) : ReadsAt R (P.orBack p) c := by
  intro hc v c' e
  refine h hc v c' ?_
  unfold P.orBack at e
  split at e
  · cases e
  · exact e

/-- first one parser, and another from the same position if that fails -/
theorem ReadsAt.orElse {α : Type} {c : Ctx} {R : Rel α} {p q : P α} (hs : Inv c → ∀ c', p c = .ok (none, c') → Step c c') (hp : ReadsAt R p c)
    (hq : ∀ d, p c = .ok (none, d) → (d.setPos c.pos).rest = c.rest → Step c (d.setPos c.pos) → ReadsAt R q (d.setPos c.pos)) : ReadsAt R (P.orElse p q) c := by
  intro hc v c' e
  unfold P.orElse at e
  split at e
  · rename_i d hd
    have s := hs hc d hd
    have s2 : Step c (d.setPos c.pos) := ⟨s.src, s.cap, s.flags, Nat.le_refl _, hc.pos, s.used_le, s.used_cap, s.errs⟩
    have e3 : (d.setPos c.pos).rest = c.rest := by
      show d.src.drop c.pos = _
      rw [s.src]; rfl
    obtain ⟨s4, t, h1, h2⟩ := hq d hd e3 s2 s2.inv v c' e
    exact ⟨s2.trans s4, t, by rw [← e3]; exact h1, h2⟩
  · exact hp hc v c' e

theorem ReadsAt.skipRun {c : Ctx} (s : CS) : ReadsAt (fun _ t y => InSet s t ∧ NotIn s y) (P.skipRun s) c := by
  intro hc v c' e
  unfold P.skipRun at e
  cases e
  obtain ⟨d, y, h1, h2, h3⟩ := exists_maxRun s c.rest
  have : skipWhile s.mem c.src c.pos = c.pos + d.length := by
    unfold skipWhile
    have : c.src.drop c.pos = d ++ y := h1
    rw [this, runLen_append_of_all h2]
    cases y with
    | nil => simp [runLen]
    | cons b y => rw [runLen_cons_false (h3 b (by simp))]; omega
  rw [this]
  show Step c (c.adv d.length) ∧ ∃ t, c.rest = t ++ (c.adv d.length).rest ∧ _
  exact ⟨Step.of_rest hc h1, d, by rw [Ctx.rest_adv h1]; exact h1, h2, by
    have e : (c.setPos (c.pos + d.length)).rest = y := Ctx.rest_adv h1
    rw [e]; exact h3⟩

theorem ReadsAt.laquot {c : Ctx} : ReadsAt (fun _ t _ => ∃ w, IsSWS w ∧ t = w ++ [0x3c]) (P.ofBool parseLeftAngleQuote) c := by
  intro hc v c' e
  obtain ⟨h1, h2, _⟩ := angleQuotes_spec c hc.pos
  unfold P.ofBool at e
  rcases hp : parseLeftAngleQuote c with ⟨_ | _, d⟩
  · rw [hp] at e; cases e
  · rw [hp] at e h1 h2; cases e
    obtain ⟨y, hy⟩ := h1.1 rfl
    have h2 := h2 rfl
    dsimp only at h2
    obtain ⟨w, hw⟩ := (sws_step c hc).text
    have hy' : c.sws.rest = [0x3c] ++ y := hy
    have e3 : (c.sws.adv 1).rest = y := Ctx.rest_adv hy'
    rw [h2]
    refine ⟨(sws_step c hc).trans (Step.of_rest (sws_step c hc).inv hy'), w ++ [0x3c], ?_, w, isSWS_sws hc hw, rfl⟩
    rw [e3, hw, hy]; simp

theorem ReadsAt.raquot {c : Ctx} : ReadsAt (fun _ t y => ∃ w, Gram.sws w y ∧ t = 0x3e :: w) (P.ofBool parseRightAngleQuote) c := by
  intro hc v c' e
  obtain ⟨_, _, h1, h2, _⟩ := angleQuotes_spec c hc.pos
  unfold P.ofBool at e
  rcases hp : parseRightAngleQuote c with ⟨_ | _, d⟩
  · rw [hp] at e; cases e
  · rw [hp] at e h1 h2; cases e
    obtain ⟨y, hy⟩ := h1.1 rfl
    have h2 := h2 y hy
    dsimp only at h2
    have hl : (0x3e :: y.take (swsLen y)).length = 1 + swsLen y := by
      simp only [List.length_cons, List.length_take]; have := swsLen_le y; omega
    have hr : c.rest = (0x3e :: y.take (swsLen y)) ++ y.drop (swsLen y) := by rw [hy]; simp
    rw [h2, ← hl]
    exact ⟨Step.of_rest hc hr, _, by rw [Ctx.rest_adv hr]; exact hr, _, by rw [Ctx.rest_adv hr]; exact gsws_take y, rfl⟩

theorem strFromPos_pos {s : CS} {c c' : Ctx} {n : Nat} {v : Bytes} (e : parseStrFromPos s (c.pos + n) c = .ok (some v, c')) :
    c'.pos = c.pos + n + ((c.src.drop (c.pos + n)).takeWhile s.mem).length ∧ v = c.rest.take n ++ (c.src.drop (c.pos + n)).takeWhile s.mem := by
  unfold parseStrFromPos at e
  have hm : max c.pos (c.pos + n) = c.pos + n := by omega
  simp only [hm] at e
  split at e
  · cases e
  · split at e
    · cases e
    · split at e
      · cases e
      · split at e
        · cases e
        · split at e
          · cases e
          · split at e
            · cases e
            · simp only [Out.ok.injEq, Prod.mk.injEq, Option.some.injEq] at e
              rw [← e.2, ← e.1, Nat.add_sub_cancel_left]
              exact ⟨rfl, rfl⟩

theorem ReadsAt.method {c : Ctx} : ReadsAt Gram.method P.method c := by
  refine ReadsAt.of_safe (fun hc => method_safe c hc) (fun hc v c' t e st ht hq => ?_)
  have e : parseMethod c = .ok (some v, c') := e
  unfold parseMethod at e
  have hp : getSipMethodIndex c.src c.pos ≠ .panic := by
    intro h; rw [h] at e; cases e
  obtain ⟨i, n, hi, hn, hin⟩ := method_index_returns c.src c.pos hp
  rw [hi] at e
  simp only [Out.ok_bind] at e
  by_cases h0 : i = 0
  · rw [if_pos h0] at e
    rcases hpc : parseStrFromPos csSipToken (c.pos + n) c with ⟨_ | b, c1⟩ | _ | _ <;> rw [hpc] at e <;> simp only [Out.ok_bind, Out.panic_bind, Out.hang_bind, reduceCtorEq, Out.ok.injEq, Prod.mk.injEq, Option.some.injEq, false_and] at e
    obtain ⟨rfl, rfl⟩ := e
    obtain ⟨g1, g2⟩ := strFromPos_pos hpc
    obtain ⟨k1, k2, k3⟩ := hq
    have hd : c.src.drop (c.pos + n) = c.rest.drop n := by unfold Ctx.rest; rw [List.drop_drop]
    have hr : c.rest = b ++ (c.src.drop (c.pos + n)).dropWhile csSipToken.mem := by
      rw [g2, List.append_assoc, List.takeWhile_append_dropWhile, hd, List.take_append_drop]
    have hlen : t.length = b.length := by
      have := st.pos_text ht
      rw [g2, List.length_append, List.length_take]
      have hn' : n ≤ c.rest.length := hn
      omega
    rw [ht] at hr
    obtain ⟨rfl, hr2⟩ := List.append_inj hr hlen
    refine .token t _ ⟨rfl, k1, k2, by rw [hr2]; exact notIn_dropWhile _ _⟩ ?_ (fun he => ?_)
    rotate_left
    · have hp' := mt (method_index_panics c.src c.pos).2 hp
      have hrt : c.src.drop c.pos = t := by have := ht; rw [he, List.append_nil] at this; exact this
      rw [hrt] at hp'
      exact ⟨fun h => hp' (Or.inl h), fun h => hp' (Or.inr (Or.inl h)), fun h => hp' (Or.inr (Or.inr h))⟩
    intro hm
    have : ∀ x ∈ sipMethodName.drop 1, isMethodName x = true := by decide +kernel
    rw [this _ hm] at k3; cases k3
  · rw [if_neg h0] at e; cases e
    obtain ⟨name, y, g1, g2, g3, g4⟩ := (method_index_iff _ _ _ _ h0).1 hi
    obtain ⟨m1, m2, _, _⟩ := method_names name i g1
    have hlen := st.pos_text ht
    have hr : c.rest = Sip.str name ++ y := g2
    rw [ht] at hr
    have hl : t.length = (Sip.str name).length := by
      have : (c.setPos (c.pos + n)).pos = c.pos + n := rfl
      omega
    obtain ⟨rfl, hr2⟩ := List.append_inj hr hl
    refine .known i _ _ m2 m1 ?_
    rw [hr2]; exact (tokenEnd_iff _).1 g3

end Sip
