import Verif.Props.Addr
/-! # C20, C28 - C31 for addresses: position, memory, errors; what is accepted -/
namespace Sip

theorem takeWhile_le_of_notIn {s : CS} {x y : Bytes} (h : NotIn s y) : ((x ++ y).takeWhile s.mem).length ≤ x.length := by
  induction x with
  | nil =>
    cases y with
    | nil => simp
    | cons a r => simp [h a rfl]
  | cons a x ih =>
    simp only [List.cons_append, List.takeWhile_cons]
    split
    · simp only [List.length_cons]; omega
    · simp

theorem notIn_dropWhile (s : CS) (l : Bytes) : NotIn s (l.dropWhile s.mem) := by
  intro b hb
  have := List.head?_dropWhile_not s.mem l
  simp only [Option.mem_def] at hb
  rw [hb] at this; simpa using this

theorem tokens_loop (n : Nat) : ∀ c : Ctx, Inv c → c.src.length < n + c.pos →
    (∃ x y, c.rest = x ++ y ∧ TokensText x ∧ NotIn csSipToken y ∧ P.loop tokensBody n () c = .ok (some (), c.adv x.length) ∧ Line c (c.adv x.length)) ∨
    (∃ d, P.loop tokensBody n () c = .ok (none, d) ∧ Step c d ∧ c.errs.length < d.errs.length ∧ d.used = c.used) := by
  induction n with
  | zero => intro c hc h; have := hc.pos; omega
  | succ n ih =>
    intro c hc hn
    have leave : ∀ e : tokensBody () c = .ok (some (.inr ()), c), P.loop tokensBody (n + 1) () c = .ok (some (), c) := fun e => P.bind_ok e
    cases hcur : c.cur? with
    | none =>
      left
      have hr : c.rest = [] := by rw [cur_eq_head] at hcur; exact List.head?_eq_none_iff.1 hcur
      refine ⟨[], [], by rw [hr]; rfl, .nil, by intro b hb; simp at hb, leave ?_, Line.refl c⟩
      unfold tokensBody; rw [P.peek_bind, hcur]; rfl
    | some b =>
      by_cases hb : csSipToken.mem b = true
      · -- a token
        have hrr := (rest_eq_cons hcur).1
        have hrest := List.takeWhile_append_dropWhile (p := csSipToken.mem) (l := c.rest)
        have hin := inSet_takeWhile csSipToken c.rest
        have hnot := notIn_dropWhile csSipToken c.rest
        have hne : c.rest.takeWhile csSipToken.mem ≠ [] := by rw [hrr]; simp [hb]
        have htl := takeWhile_len_le csSipToken c hc.pos
        have hbody : ∀ d v, (P.orBack (do P.skipRun csSipToken; P.lws) : P Unit) c = .ok (v, d) → tokensBody () c = .ok (v.map (fun _ => Sum.inl ()), d) := by
          intro d v e
          unfold tokensBody
          rw [P.peek_bind, hcur]
          simp only
          rw [if_pos hb]
          cases v with
          | none => rw [P.bind_none e]; rfl
          | some v => rw [P.bind_ok e]; rfl
        have hsk : P.skipRun csSipToken c = .ok (some (), c.adv (c.rest.takeWhile csSipToken.mem).length) := by
          unfold P.skipRun skipWhile; rw [runLen_eq_takeWhile]; rfl
        generalize htok : c.rest.takeWhile csSipToken.mem = tok at *
        generalize hrem : c.rest.dropWhile csSipToken.mem = rem at *
        have hc1 : Inv (c.adv tok.length) := (Step.adv hc htl).inv
        have hr1 : (c.adv tok.length).rest = rem := by
          rw [Ctx.adv_eq_eat]; exact Ctx.rest_eat c tok rem 0 hrest.symm
        have hline1 : Line c (c.adv tok.length) := line_of_noCR tok rem hrest.symm rfl (fun z hz e => by subst e; exact absurd (hin _ hz) (by decide +kernel))
        rcases P.lws_cases (c.adv tok.length) hc1 with e | ⟨p, e, _, _⟩
        · have e2 : (P.orBack (do P.skipRun csSipToken; P.lws) : P Unit) c = .ok (some (), (c.adv tok.length).adv (swsLen (c.adv tok.length).rest)) := by
            unfold P.orBack; rw [P.bind_ok hsk, e]
          have e3 := hbody _ _ e2
          obtain ⟨w, r, s1, s2, s3, s4, s5⟩ := sws_sound (c.adv tok.length) hc1.pos
          have hsw : swsLen (c.adv tok.length).rest = w.length := by
            have := sws_eq (c.adv tok.length) hc1.pos
            rw [s3] at this
            have h := congrArg Ctx.pos this
            have h1 : ∀ k, ((c.adv tok.length).adv k).pos = (c.adv tok.length).pos + k := fun _ => rfl
            rw [h1, h1] at h
            omega
          rw [hsw] at e3
          have e4 : P.loop tokensBody (n + 1) () c = P.loop tokensBody n () ((c.adv tok.length).adv w.length) := P.bind_ok e3
          have hc2 : Inv ((c.adv tok.length).adv w.length) := by rw [← s3]; exact (sws_step _ hc1).inv
          have htok1 : 0 < tok.length := List.length_pos_iff.2 hne
          have hline2 : Line (c.adv tok.length) ((c.adv tok.length).adv w.length) := by rw [← s3]; exact line_sws _ hc1
          have hr2 : ((c.adv tok.length).adv w.length).rest = r := by rw [← s3]; exact s4
          rcases ih _ hc2 (by simp only [Ctx.adv]; omega) with ⟨x, y, t1, t2, t3, t4, t5⟩ | ⟨d, t1, t2, t3, t4⟩
          · left
            rw [hr2] at t1
            rw [hr1] at s1
            refine ⟨tok ++ (w ++ x), y, ?_, ?_, t3, ?_, ?_⟩
            · rw [← hrest, s1, t1]; simp
            · refine .cons tok w x hne hin s2 ?_ t2
              intro hw
              cases x with
              | nil => rfl
              | cons a x' =>
                have h1 := t2.head a rfl
                have h2 := hnot a (by rw [s1, hw, t1]; rfl)
                rw [h1] at h2; cases h2
            · rw [e4, t4]; simp only [Ctx.adv, List.length_append, Out.ok.injEq, Prod.mk.injEq, Ctx.mk.injEq, true_and, and_true]; omega
            · have : c.adv (tok ++ (w ++ x)).length = ((c.adv tok.length).adv w.length).adv x.length := by
                simp only [Ctx.adv, List.length_append, Ctx.mk.injEq, true_and, and_true]; omega
              rw [this]
              exact (hline1.trans (show (c.adv tok.length).src = c.src from rfl) hline2).trans (show ((c.adv tok.length).adv w.length).src = c.src from rfl) t5
          · right
            refine ⟨d, by rw [e4, t1], ?_, ?_, ?_⟩
            · have := (Step.adv hc htl).trans ((sws_step _ hc1))
              rw [s3] at this
              exact this.trans t2
            · exact t3
            · exact t4
        · right
          have e2 : (P.orBack (do P.skipRun csSipToken; P.lws) : P Unit) c = .ok (none, (((c.adv tok.length).setPos p).setPos c.pos).addError c.pos) := by
            unfold P.orBack; rw [P.bind_ok hsk, e]
          have e3 := hbody _ _ e2
          refine ⟨_, P.bind_none e3, Step.err hc c.pos, by simp [Ctx.addError, Ctx.setPos, Ctx.adv], rfl⟩
      · left
        refine ⟨[], c.rest, rfl, .nil, ?_, leave ?_, Line.refl c⟩
        · intro a ha
          rw [← cur_eq_head, hcur] at ha
          cases ha; simpa using hb
        · unfold tokensBody; rw [P.peek_bind, hcur]; simp only; rw [if_neg hb]; rfl

/-- SipAddr.go:265-297: what `parseTokens` accepts, and how far it moves -/
theorem safe_tokens (c : Ctx) (hc : Inv c) : SafeAt 0 true 1 2 (fun d => TokensText d ∧ ((c.cur?.map csSipToken.mem) = some true → d ≠ [])) parseTokens c ∧
    ∀ v c', parseTokens c = .ok (some v, c') → c.pos + (c.rest.takeWhile csSipToken.mem).length ≤ c'.pos := by
  have e0 : parseTokens c = parseTokens c := rfl
  conv at e0 => rhs; unfold parseTokens
  rw [P.get_bind] at e0
  rcases tokens_loop (c.src.length + 1) c hc (by omega) with ⟨x, y, h1, h2, h3, h4, h5⟩ | ⟨d, h1, h2, h3, h6⟩
  · have h4 : P.forLoop tokensBody () c = .ok (some (), c.adv x.length) := h4
    rw [P.bind_ok h4, P.get_bind] at e0
    have hx : (c.src.drop c.pos).take ((c.adv x.length).pos - c.pos) = x := by
      have : c.src.drop c.pos = x ++ y := h1
      rw [this]; simp [Ctx.adv]
    rw [hx] at e0
    have hlen := rest_length c hc.pos
    rw [h1, List.length_append] at hlen
    have hstep := Step.adv (n := x.length) hc (by omega)
    have hrun : (c.rest.takeWhile csSipToken.mem).length ≤ x.length := by rw [h1]; exact takeWhile_le_of_notIn h3
    unfold P.orErr P.allocStr Sip.allocStr at e0
    by_cases hm : (c.adv x.length).used + (x.length + 2) > (c.adv x.length).cap
    · rw [if_pos hm] at e0
      refine ⟨.of_none e0 (hstep.addError _) (fun _ => by simp [Ctx.addError, Ctx.adv]), fun v c' e => by rw [e0] at e; cases e⟩
    · rw [if_neg hm] at e0
      simp only [Ctx.adv] at hm
      refine ⟨.of_ok e0 ?_ ⟨h2, ?_⟩ h5 ?_, fun v c' e => ?_⟩
      · exact ⟨rfl, rfl, rfl, hstep.pos_le, hstep.pos_len, by simp [Ctx.adv], by simp only [Ctx.adv]; omega, ErrsIn.refl⟩
      · intro hcur hx0
        rw [hx0, List.nil_append] at h1
        rw [cur_eq_head, h1] at hcur
        cases hy : y.head? with
        | none => rw [hy] at hcur; cases hcur
        | some b => rw [hy] at hcur; have := h3 b hy; simp only [Option.map_some, Option.some.injEq] at hcur; rw [hcur] at this; cases this
      · simp only [Ctx.adv]; omega
      · rw [e0] at e; cases e; simp only [Ctx.adv]; omega
  · have h1 : P.forLoop tokensBody () c = .ok (none, d) := h1
    rw [P.bind_none h1] at e0
    exact ⟨.of_none e0 h2 (fun _ => h3) (by omega), fun v c' e => by rw [e0] at e; cases e⟩

theorem safe_ofBool_laquot (c : Ctx) (hc : Inv c) : SafeAt 0 true 0 0 (fun _ => True) (P.ofBool parseLeftAngleQuote) c := by
  have e0 : P.ofBool parseLeftAngleQuote c = P.ofBool parseLeftAngleQuote c := rfl
  conv at e0 => rhs; unfold P.ofBool parseLeftAngleQuote
  have st := sws_step c hc
  by_cases h1 : c.pos ≥ c.src.length
  · rw [if_pos h1] at e0
    exact .of_none e0 (Step.err hc _) (fun _ => by simp [Ctx.addError])
  · rw [if_neg h1] at e0
    simp only at e0
    have herr : ∀ p, c.errs.length < (c.sws.addError p).errs.length := fun p => by simp [Ctx.addError, sws_errs]
    by_cases h2 : c.sws.pos ≥ c.sws.src.length
    · rw [if_pos h2] at e0
      exact .of_none e0 (st.addError _) (fun _ => herr _)
    · rw [if_neg h2] at e0
      by_cases h3 : c.sws.src[c.sws.pos]? ≠ some 0x3c
      · rw [if_pos h3] at e0
        exact .of_none e0 (st.addError _) (fun _ => herr _)
      · rw [if_neg h3] at e0
        have h3 : c.sws.cur? = some 0x3c := Classical.not_not.1 h3
        have hr := rest_eq_cons h3
        refine .of_ok e0 (st.trans (Step.adv st.inv (by omega))) trivial ?_ (by simp only [Ctx.adv, sws_used]; omega)
        exact (line_sws c hc).trans st.src (line_of_noCR [0x3c] _ hr.1 rfl (by intro b hb; simp at hb; subst hb; decide))

theorem safe_ofBool_raquot (c : Ctx) (hc : Inv c) : SafeAt 0 true 0 0 (fun _ => True) (P.ofBool parseRightAngleQuote) c := by
  have e0 : P.ofBool parseRightAngleQuote c = P.ofBool parseRightAngleQuote c := rfl
  conv at e0 => rhs; unfold P.ofBool parseRightAngleQuote
  by_cases h1 : c.pos ≥ c.src.length
  · rw [if_pos h1] at e0
    exact .of_none e0 (Step.err hc _) (fun _ => by simp [Ctx.addError])
  · rw [if_neg h1] at e0
    by_cases h3 : c.src[c.pos]? ≠ some 0x3e
    · rw [if_pos h3] at e0
      exact .of_none e0 (Step.err hc _) (fun _ => by simp [Ctx.addError])
    · rw [if_neg h3] at e0
      have h3 : c.cur? = some 0x3e := Classical.not_not.1 h3
      have hr := rest_eq_cons h3
      have st1 := Step.adv (n := 1) hc (by omega)
      refine .of_ok e0 (st1.trans (sws_step _ st1.inv)) trivial ?_ (by rw [sws_used]; simp only [Ctx.adv]; omega)
      exact (line_of_noCR (c' := c.adv 1) [0x3e] _ hr.1 rfl (by intro b hb; simp at hb; subst hb; decide)).trans st1.src (line_sws _ st1.inv)

/-- what is stored for a display name -/
def DisplayOk (d : Bool × Bytes) : Prop := if d.1 then ∃ t, QText t d.2 else d.2 ≠ [] ∧ TokensText d.2

theorem safe_displayName (c : Ctx) (hc : Inv c) (b : UInt8) (hcur : c.cur? = some b) : SafeAt 1 true 1 2 DisplayOk parseDisplayName c ∧
    (∀ v c', parseDisplayName c = .ok (some v, c') → csSipToken.mem b = true → c.pos + (c.rest.takeWhile csSipToken.mem).length ≤ c'.pos) := by
  unfold parseDisplayName
  by_cases hb : csSipToken.mem b = true
  · obtain ⟨h1, h2⟩ := safe_tokens c hc
    constructor
    · refine SafeAt.peek ?_
      rw [hcur]; simp only; rw [if_pos hb]
      refine SafeAt.seq (B2 := 0) h1 (fun d c1 _ hd hc1 => SafeAt.pure hc1 ?_)
      show if (false : Bool) then _ else _
      exact ⟨hd.2 (by rw [hcur]; simp [hb]), hd.1⟩
    · intro v c' e _
      rw [P.peek_bind, hcur] at e
      simp only at e
      rw [if_pos hb] at e
      rcases hp : parseTokens c with ⟨_ | x, c1⟩ | _ | _
      · rw [P.bind_none hp] at e; cases e
      · rw [P.bind_ok hp] at e; cases e; exact h2 _ _ hp
      · rw [P.bind_panic hp] at e; cases e
      · rw [P.bind_hang hp] at e; cases e
  · constructor
    · refine SafeAt.peek ?_
      rw [hcur]; simp only; rw [if_neg hb]
      refine SafeAt.seq (B2 := 0) (safe_quotedVal c hc) (fun d c1 _ hd hc1 => SafeAt.pure hc1 ?_)
      show if (true : Bool) then _ else _
      exact hd
    · intro _ _ _ h; exact absurd h hb

theorem safe_displayLaquot (c : Ctx) (hc : Inv c) : SafeAt 1 true 1 2 (fun o => ∀ d ∈ o, DisplayOk d) parseDisplayLaquot c ∧
    (∀ v c', parseDisplayLaquot c = .ok (some v, c') → (c.cur?.map csSipToken.mem) = some true → c.pos + (c.rest.takeWhile csSipToken.mem).length ≤ c'.pos) := by
  unfold parseDisplayLaquot
  cases hcur : c.cur? with
  | none => exact ⟨SafeAt.peek (by rw [hcur]; exact SafeAt.err hc), fun v c' _ h => by cases h⟩
  | some b =>
    by_cases hb : b ≠ 0x3c
    · obtain ⟨h1, h2⟩ := safe_displayName c hc b hcur
      constructor
      · refine SafeAt.peek ?_
        rw [hcur]; simp only; rw [if_pos hb]
        refine SafeAt.seq (B2 := 0) h1 (fun d c1 _ hd hc1 => ?_)
        refine SafeAt.seq (B2 := 0) (safe_ofBool_laquot c1 hc1) (fun _ c2 _ _ hc2 => SafeAt.pure hc2 ?_)
        intro x hx; cases hx; exact hd
      · intro v c' e ht
        simp only [Option.map_some, Option.some.injEq] at ht
        rw [P.peek_bind, hcur] at e
        simp only at e
        rw [if_pos hb] at e
        rcases hp : parseDisplayName c with ⟨_ | x, c1⟩ | _ | _
        · rw [P.bind_none hp] at e; cases e
        · rw [P.bind_ok hp] at e
          have hc1 := (h1.step _ _ hp).inv
          have h3 := h2 _ _ hp ht
          have h4 : SafeAt 0 true 0 0 (fun _ => True) (P.ofBool parseLeftAngleQuote >>= fun _ => pure (some x)) c1 :=
            SafeAt.seq (B2 := 0) (safe_ofBool_laquot c1 hc1) (fun _ c2 _ _ hc2 => SafeAt.pure hc2 trivial)
          have := (h4.step _ _ e).pos_le
          omega
        · rw [P.bind_panic hp] at e; cases e
        · rw [P.bind_hang hp] at e; cases e
    · have hb : b = 0x3c := Classical.not_not.1 hb
      subst hb
      constructor
      · refine SafeAt.peek ?_
        rw [hcur]; simp only; rw [if_neg (by simp)]
        exact SafeAt.skip1 hc hcur (by decide) (fun hc1 => SafeAt.pure hc1 (by simp))
      · intro v c' _ ht
        exact absurd ht (by decide +kernel)

/-! ## Schemes -/

/-- a failed attempt to read a scheme keeps the memory of the run of scheme characters, if it starts with a letter -/
def SchemeWaste (c d : Ctx) : Prop := d.used ≤ c.used ∨ ((c.cur?.map isAlpha) = some true ∧ d.used ≤ c.used + (c.rest.takeWhile csUriScheme.mem).length + 2)

theorem safe_otherScheme (c : Ctx) (hc : Inv c) : SafeAt 0 false 1 2 (fun _ => True) parseOtherScheme c ∧ ∀ d, parseOtherScheme c = .ok (none, d) → SchemeWaste c d := by
  unfold parseOtherScheme
  cases hcur : c.cur? with
  | none =>
    refine ⟨SafeAt.peek (by rw [hcur]; exact SafeAt.fail hc), fun d e => ?_⟩
    rw [P.peek_bind, hcur] at e; cases e; exact Or.inl (Nat.le_refl _)
  | some b =>
    by_cases hb : isAlpha b = true
    · constructor
      · refine SafeAt.peek ?_
        rw [hcur]; simp only; rw [if_pos hb]
        refine SafeAt.seq (B2 := 0) (safe_str csUriScheme (by decide +kernel) c hc) (fun s c1 _ _ hc1 => SafeAt.peek ?_)
        by_cases h : c1.cur? = some 0x3a
        · rw [if_pos h]
          exact SafeAt.skip1 hc1 h (by decide) (fun hc2 => SafeAt.pure hc2 trivial)
        · rw [if_neg h]; exact SafeAt.fail hc1
      · intro d e
        rw [P.peek_bind, hcur] at e
        simp only at e
        rw [if_pos hb] at e
        rcases hp : P.str csUriScheme c with ⟨_ | x, c1⟩ | _ | _
        · rw [P.bind_none hp] at e; cases e
          left
          simp only [P.str, parseStr] at hp
          split at hp
          · cases hp; exact Nat.le_refl _
          · split at hp
            · cases hp
            · split at hp
              · cases hp; exact Nat.le_refl _
              · split at hp
                · cases hp; exact Nat.le_refl _
                · cases hp
        · rw [P.bind_ok hp] at e
          have hu : c1.used = c.used + 2 + (c.rest.takeWhile csUriScheme.mem).length := by
            simp only [P.str, parseStr] at hp
            split at hp
            · cases hp
            · split at hp
              · cases hp
              · split at hp
                · cases hp
                · split at hp
                  · cases hp
                  · cases hp; rfl
          right
          refine ⟨by simp [hcur, hb], ?_⟩
          rw [P.peek_bind] at e
          by_cases h : c1.cur? = some 0x3a
          · rw [if_pos h] at e; cases e
          · rw [if_neg h] at e; cases e; omega
        · rw [P.bind_panic hp] at e; cases e
        · rw [P.bind_hang hp] at e; cases e
    · constructor
      · refine SafeAt.peek ?_
        rw [hcur]; simp only; rw [if_neg hb]; exact SafeAt.fail hc
      · intro d e
        rw [P.peek_bind, hcur] at e
        simp only at e
        rw [if_neg hb] at e; cases e; exact Or.inl (Nat.le_refl _)

theorem safe_addrScheme (c : Ctx) (hc : Inv c) : SafeAt 0 false 1 2 (fun _ => True) parseAddrScheme c ∧ ∀ d, parseAddrScheme c = .ok (none, d) → SchemeWaste c d := by
  have ho := safe_otherScheme c hc
  have hlen := rest_length c hc.pos
  have other : ∀ e0 : parseAddrScheme c = parseOtherScheme c, SafeAt 0 false 1 2 (fun _ => True) parseAddrScheme c ∧ ∀ d, parseAddrScheme c = .ok (none, d) → SchemeWaste c d :=
    fun e0 => ⟨SafeAt.congr e0 ho.1, fun d e => ho.2 d (e0 ▸ e)⟩
  have found : ∀ (k : Nat) (t r : Bytes) (v : UriType), c.rest = t ++ r → t.length = k → (∀ b ∈ t, b ≠ 0x0d) → ∀ e0 : parseAddrScheme c = .ok (some v, c.adv k),
      SafeAt 0 false 1 2 (fun _ => True) parseAddrScheme c ∧ ∀ d, parseAddrScheme c = .ok (none, d) → SchemeWaste c d := by
    intro k t r v hr hk hcr e0
    rw [hr, List.length_append] at hlen
    refine ⟨.of_ok e0 (Step.adv hc (by omega)) trivial (line_of_noCR t r hr (by rw [hk]; rfl) hcr) (by simp only [Ctx.adv]; omega), fun d e => by rw [e0] at e; cases e⟩
  have e0 : parseAddrScheme c = parseAddrScheme c := rfl
  conv at e0 => rhs; unfold parseAddrScheme
  have hor : ∀ (b x : UInt8), b ||| 0x20 = x → (x = 0x73 ∨ x = 0x69 ∨ x = 0x70 ∨ x = 0x74 ∨ x = 0x65 ∨ x = 0x6c ∨ x = 0x75 ∨ x = 0x72 ∨ x = 0x6e) → b ≠ 0x0d := by
    intro b x h1 h2 h3; subst h3; subst h1; revert h2; decide
  match hr : c.rest with
  | [] => rw [hr] at e0; exact other e0
  | [_] => rw [hr] at e0; exact other e0
  | [_, _] => rw [hr] at e0; exact other e0
  | [_, _, _] => rw [hr] at e0; exact other e0
  | a :: b :: d :: e :: r =>
    rw [hr] at e0
    simp only at e0
    by_cases h1 : a ||| 0x20 = 0x73
    · rw [if_pos h1] at e0
      by_cases h2 : b ||| 0x20 = 0x69 ∧ d ||| 0x20 = 0x70
      · rw [if_pos h2] at e0
        have ha := hor a _ h1 (by decide)
        have hb := hor b _ h2.1 (by decide)
        have hd := hor d _ h2.2 (by decide)
        by_cases h3 : e = 0x3a
        · rw [if_pos h3] at e0
          exact found 4 [a, b, d, e] r .sip hr rfl (by subst h3; simp [ha, hb, hd]) e0
        · rw [if_neg h3] at e0
          by_cases h4 : e ||| 0x20 = 0x73
          · rw [if_pos h4] at e0
            have he := hor e _ h4 (by decide)
            cases r with
            | nil =>
              simp only at e0
              rw [hr] at hlen
              refine ⟨.of_none e0 (Step.adv hc (by simp at hlen; omega)) (by simp), fun d' e' => ?_⟩
              rw [e0] at e'; cases e'; exact Or.inl (Nat.le_refl _)
            | cons f r =>
              simp only at e0
              by_cases h5 : f = 0x3a
              · rw [if_pos h5] at e0
                exact found 5 [a, b, d, e, f] r .sips hr rfl (by subst h5; simp [ha, hb, hd, he]) e0
              · rw [if_neg h5] at e0; exact other e0
          · rw [if_neg h4] at e0; exact other e0
      · rw [if_neg h2] at e0; exact other e0
    · rw [if_neg h1] at e0
      by_cases h2 : a ||| 0x20 = 0x74
      · rw [if_pos h2] at e0
        by_cases h3 : b ||| 0x20 = 0x65 ∧ d ||| 0x20 = 0x6c ∧ e = 0x3a
        · rw [if_pos h3] at e0
          have ha := hor a _ h2 (by decide)
          have hb := hor b _ h3.1 (by decide)
          have hd := hor d _ h3.2.1 (by decide)
          exact found 4 [a, b, d, e] r .tel hr rfl (by rw [h3.2.2]; simp [ha, hb, hd]) e0
        · rw [if_neg h3] at e0; exact other e0
      · rw [if_neg h2] at e0
        by_cases h3 : a ||| 0x20 = 0x75
        · rw [if_pos h3] at e0
          by_cases h4 : b ||| 0x20 = 0x72 ∧ d ||| 0x20 = 0x6e ∧ e = 0x3a
          · rw [if_pos h4] at e0
            have ha := hor a _ h3 (by decide)
            have hb := hor b _ h4.1 (by decide)
            have hd := hor d _ h4.2.1 (by decide)
            exact found 4 [a, b, d, e] r .urn hr rfl (by rw [h4.2.2]; simp [ha, hb, hd]) e0
          · rw [if_neg h4] at e0; exact other e0
        · rw [if_neg h3] at e0; exact other e0

/-! ## URIs and addresses -/

/-- what a successful parse yields -/
def AddrUri.Parsed (net : Net) (fl : Flags) : AddrUri → Prop
  | .sip u => u.Parsed net fl
  | .tel u => u.Parsed fl

theorem safe_sipPlain (net : Net) (hnet : net.Ok) (sec : Bool) (c : Ctx) (hc : Inv c) :
    SafeAt 0 true 23 52 (fun u => SipUri.Parsed net c.flags u ∧ AddrUri.Plain (.sip u)) (SipUri.parseAfterSchemeWithoutParam net sec) c := by
  unfold SipUri.parseAfterSchemeWithoutParam
  refine SafeAt.seq (B2 := 48) (safe_userinfo c hc) (fun r c1 e1 hu hc1 => ?_)
  refine SafeAt.seq (B2 := 32) (SafeAt.orErr (l := true) (hostport_safe net hnet c1 hc1)) (fun hp c2 e2 hhp hc2 => SafeAt.pure hc2 ?_)
  exact ⟨⟨hu.1, hu.2, hhp, by simp, by simp, KnownInv.nil⟩, rfl, rfl, rfl⟩

theorem safe_telPlain (c : Ctx) (hc : Inv c) :
    SafeAt 0 true 15 16 (fun u => TelUri.Parsed c.flags u ∧ AddrUri.Plain (.tel u)) TelUri.parseAfterSchemeWithoutParam c := by
  unfold TelUri.parseAfterSchemeWithoutParam
  refine SafeAt.seq (B2 := 0) (safe_parseNumber c hc) (fun r c1 e1 hn hc1 => SafeAt.pure hc1 ?_)
  exact ⟨⟨hn, fun _ => rfl, by simp, by simp, KnownInv.nil⟩, rfl, rfl, rfl⟩

theorem safe_uriAfterScheme (net : Net) (hnet : net.Ok) (params : Bool) (t : UriType) (c : Ctx) (hc : Inv c) :
    SafeAt 2 false 23 70 (fun u => u.Parsed net c.flags ∧ (params = false → u.Plain)) (parseUriAfterScheme net params t) c := by
  have hsip : ∀ sec, SafeAt 2 false 23 70 (fun u => u.Parsed net c.flags ∧ (params = false → u.Plain))
      (do P.orErr (P.alloc 18); let u ← (if params then SipUri.parseAfterScheme net sec else SipUri.parseAfterSchemeWithoutParam net sec); pure (AddrUri.sip u)) c := by
    intro sec
    have hal : SafeAt 0 true 1 18 (fun _ => True) (P.orErr (P.alloc 18)) c := SafeAt.orErr (l' := false) (SafeAt.alloc hc)
    refine SafeAt.seq (B2 := 52) hal (fun _ c1 e1 _ hc1 => ?_)
    have f1 := (hal.step _ _ e1).flags
    cases params with
    | true =>
      have h := sipUri_afterScheme_safe net hnet sec c1 hc1
      rw [f1] at h
      exact SafeAt.seq (B2 := 0) h (fun u c2 _ hu hc2 => SafeAt.pure hc2 ⟨hu, by simp⟩)
    | false =>
      have h := safe_sipPlain net hnet sec c1 hc1
      rw [f1] at h
      exact SafeAt.seq (B2 := 0) h (fun u c2 _ hu hc2 => SafeAt.pure hc2 ⟨hu.1, fun _ => hu.2⟩)
  cases t with
  | absolute => exact SafeAt.fail hc
  | urn => exact SafeAt.fail hc
  | sip => exact hsip false
  | sips => exact hsip true
  | tel =>
    show SafeAt 2 false 23 70 _ (do P.orErr (P.alloc 10); let u ← (if params then TelUri.parseAfterScheme else TelUri.parseAfterSchemeWithoutParam); pure (AddrUri.tel u)) c
    have hal : SafeAt 0 true 1 10 (fun _ => True) (P.orErr (P.alloc 10)) c := SafeAt.orErr (l' := false) (SafeAt.alloc hc)
    refine SafeAt.seq (B2 := 16) hal (fun _ c1 e1 _ hc1 => ?_)
    have f1 := (hal.step _ _ e1).flags
    cases params with
    | true =>
      have h := telUri_afterScheme_safe 2 c1 hc1 (Or.inl (Nat.le_refl _))
      rw [f1] at h
      exact SafeAt.seq (B2 := 0) h (fun u c2 _ hu hc2 => SafeAt.pure hc2 ⟨hu, by simp⟩)
    | false =>
      have h := safe_telPlain c1 hc1
      rw [f1] at h
      exact SafeAt.seq (B2 := 0) h (fun u c2 _ hu hc2 => SafeAt.pure hc2 ⟨hu.1, fun _ => hu.2⟩)

structure Addr.Parsed (net : Net) (fl : Flags) (params : Bool) (a : Addr) : Prop where
  display : ∀ d ∈ a.display, a.nameAddr = true ∧ DisplayOk d
  uri : a.uri.Parsed net fl
  plain : params = false → a.nameAddr = false → a.uri.Plain

/-- **C20, C28 - C31** the address in brackets (SipAddr.go:136-179): no panic, memory, position, and what is accepted.  A failure is not always
reported by this function itself; its callers do. -/
theorem nameAddr_safe (net : Net) (hnet : net.Ok) (params : Bool) (c : Ctx) (hc : Inv c) :
    SafeAt 2 false 23 74 (Addr.Parsed net c.flags params) (parseNameAddr net) c ∧
    (∀ v c', parseNameAddr net c = .ok (some v, c') → (c.cur?.map csSipToken.mem) = some true → c.pos + (c.rest.takeWhile csSipToken.mem).length ≤ c'.pos) := by
  have htail : ∀ (d : Option (Bool × Bytes)) (c1 : Ctx), (∀ x ∈ d, DisplayOk x) → Inv c1 → c1.flags = c.flags →
      SafeAt 2 false 23 72 (Addr.Parsed net c.flags params) (do let t ← parseAddrScheme; let u ← parseUriAfterScheme net true t; P.ofBool parseRightAngleQuote; pure ⟨true, d, u⟩) c1 := by
    intro d c1 hd hc1 f1
    have h0 := (safe_addrScheme c1 hc1).1
    refine SafeAt.seq (B2 := 70) h0 (fun t c2 e2 _ hc2 => ?_)
    have f2 := (h0.step _ _ e2).flags.trans f1
    have h1 := safe_uriAfterScheme net hnet true t c2 hc2
    rw [f2] at h1
    refine SafeAt.seq (B2 := 0) h1 (fun u c3 _ hu hc3 => ?_)
    refine SafeAt.seq (B2 := 0) (safe_ofBool_raquot c3 hc3) (fun _ c4 _ _ hc4 => SafeAt.pure hc4 ?_)
    exact ⟨fun x hx => ⟨rfl, hd x hx⟩, hu.1, fun _ h => by cases h⟩
  unfold parseNameAddr
  have hc0 := (sws_step c hc).inv
  have hd := safe_displayLaquot c.sws hc0
  constructor
  · refine SafeAt.sws hc (fun _ => ?_)
    refine SafeAt.seq (B2 := 72) hd.1 (fun d c1 e1 hdo hc1 => htail d c1 hdo hc1 ?_)
    rw [(hd.1.step _ _ e1).flags, (sws_step c hc).flags]
  · intro v c' e ht
    have hsw : c.sws = c := by
      rw [sws_eq c hc.pos]
      have : swsLen c.rest = 0 := by
        cases hcur : c.cur? with
        | none => rw [hcur] at ht; cases ht
        | some b =>
          rw [hcur] at ht
          simp only [Option.map_some, Option.some.injEq] at ht
          refine swsLen_noWs (noWs_of (rest_eq_cons hcur).1 (token_lws b ht).1)
      rw [this]; rfl
    have e : (parseDisplayLaquot >>= fun d => (do let t ← parseAddrScheme; let u ← parseUriAfterScheme net true t; P.ofBool parseRightAngleQuote; pure (⟨true, d, u⟩ : Addr))) c.sws = .ok (some v, c') := e
    rw [hsw] at e hd
    rcases hp : parseDisplayLaquot c with ⟨_ | d, c1⟩ | _ | _
    · rw [P.bind_none hp] at e; cases e
    · rw [P.bind_ok hp] at e
      have h1 := hd.2 _ _ hp ht
      have st := hd.1.step _ _ hp
      have h2 := ((htail d c1 (hd.1.some _ _ hp).1 st.inv st.flags).step _ _ e).pos_le
      omega
    · rw [P.bind_panic hp] at e; cases e
    · rw [P.bind_hang hp] at e; cases e

/-- **C20, C28 - C31** the address (SipAddr.go:115-134) -/
theorem addr_safe (net : Net) (hnet : net.Ok) (params : Bool) (c : Ctx) (hc : Inv c) :
    SafeAt 2 false 24 76 (Addr.Parsed net c.flags params) (parseAddr net params) c := by
  unfold parseAddr
  refine SafeAt.peek ?_
  cases hcur : c.cur? with
  | none => exact SafeAt.err hc
  | some b =>
    simp only
    by_cases hb : (b = 0x3c || b = 0x22) = true
    · rw [if_pos hb]
      exact (nameAddr_safe net hnet params c hc).1.mono (Nat.le_refl _) (by simp) (by omega) (by omega) (fun _ h => h)
    · rw [if_neg hb]
      have hs := safe_addrScheme c hc
      generalize hp : (P.orElse (do let t ← parseAddrScheme; pure (some t)) (pure none) >>= parseAddrSpecOrName net params : P Addr) = p
      have e0 : p c = p c := rfl
      conv at e0 => rhs; rw [← hp]
      rcases hpc : parseAddrScheme c with ⟨_ | t, d⟩ | _ | _
      · -- no scheme: the display name of an address in brackets
        have e1 : P.orElse (do let t ← parseAddrScheme; pure (some t)) (pure none) c = .ok (some none, d.setPos c.pos) := by
          unfold P.orElse; rw [P.bind_none hpc]; rfl
        rw [P.bind_ok e1] at e0
        have e0 : p c = parseNameAddr net (d.setPos c.pos) := e0
        have st := hs.1.step _ _ hpc
        have hw := hs.2 d hpc
        have stp : Step c (d.setPos c.pos) := ⟨st.src, st.cap, st.flags, Nat.le_refl _, hc.pos, st.used_le, st.used_cap, st.errs⟩
        obtain ⟨h1, h2⟩ := nameAddr_safe net hnet params (d.setPos c.pos) stp.inv
        have hflags : (d.setPos c.pos).flags = c.flags := st.flags
        have hpos : (d.setPos c.pos).pos = c.pos := rfl
        have hused : (d.setPos c.pos).used = d.used := rfl
        have hsrc : (d.setPos c.pos).src = c.src := st.src
        have hrest : (d.setPos c.pos).rest = c.rest := by unfold Ctx.rest; rw [hsrc, hpos]
        have hcur' : (d.setPos c.pos).cur? = c.cur? := by unfold Ctx.cur?; rw [hsrc, hpos]
        rw [hflags] at h1
        rw [hrest, hcur', hpos] at h2
        have hscl := takeWhile_len_le csUriScheme c hc.pos
        have hlt : (c.rest.takeWhile csUriScheme.mem).length ≤ (c.rest.takeWhile csSipToken.mem).length := by
          generalize c.rest = l
          induction l with
          | nil => simp
          | cons a l ih =>
            simp only [List.takeWhile_cons]
            split
            · rename_i h
              rw [if_pos (scheme_token a h).1]; simp only [List.length_cons]; omega
            · simp
        have hroom : Room c 24 76 → Room (d.setPos c.pos) 23 74 := by
          intro hr
          have hpl := hc.pos
          have hcap : (d.setPos c.pos).cap = c.cap := st.cap
          unfold Room at hr ⊢
          rw [hused, hpos, hsrc, hcap]
          unfold SchemeWaste at hw
          have e : c.src.length - c.pos = (c.src.length - c.pos) := rfl
          rcases hw with hw | ⟨_, hw⟩ <;> omega
        have hline : Line c (d.setPos c.pos) := fun x hx _ => hx
        constructor
        · intro r c' e; rw [e0] at e; exact stp.trans (h1.step _ _ e)
        · intro v c' e; rw [e0] at e
          obtain ⟨k1, k2, k3⟩ := h1.some _ _ e
          rw [hpos, hused] at k3
          refine ⟨k1, fun hL => ?_, ?_⟩
          · have := k2 (hL.step hsrc (Nat.le_refl _) hline)
            intro x hx1 hx2
            exact this x hx1 (by rw [hsrc]; exact hx2)
          · rcases hw with hw | ⟨ha, hw⟩
            · have := (h1.step _ _ e).pos_le
              omega
            · have : c.pos + (c.rest.takeWhile csSipToken.mem).length ≤ c'.pos := by
                refine h2 _ _ e ?_
                cases hcc : c.cur? with
                | none => rw [hcc] at ha; cases ha
                | some z =>
                  rw [hcc] at ha
                  simp only [Option.map_some, Option.some.injEq] at ha ⊢
                  exact (scheme_token z (alpha_scheme z ha)).1
              omega
        · intro h; cases h
        · intro hpre hr e; rw [e0] at e
          refine h1.nopanic ⟨fun h => ⟨?_, ?_⟩, fun h => ?_⟩ (hroom hr) e
          · obtain ⟨x, hx1, hx2⟩ := (hpre.1 h).1
            exact ⟨x, hx1, by rw [hsrc]; exact hx2⟩
          · exact (hpre.1 h).2.step hsrc (Nat.le_refl _) hline
          · exact (hpre.2 h).step hsrc hline
        · intro hph e; rw [e0] at e
          exact h1.nohang (hph.step hsrc (Nat.le_refl _) (fun _ => hline)) e
        · intro c' e; rw [e0] at e
          have hm := h1.nmem _ e
          rw [hused, hpos, hsrc] at hm
          unfold SchemeWaste at hw
          rcases hw with hw | ⟨_, hw⟩ <;> omega
      · have e1 : P.orElse (do let t ← parseAddrScheme; pure (some t)) (pure none) c = .ok (some (some t), d) := by
          unfold P.orElse; rw [P.bind_ok hpc]; rfl
        rw [P.bind_ok e1] at e0
        have h3 : SafeAt 2 false 24 76 (Addr.Parsed net c.flags params) (parseAddrScheme >>= fun t => parseAddrSpecOrName net params (some t)) c := by
          refine SafeAt.seq (B2 := 74) hs.1 (fun t c1 e1 _ hc1 => ?_)
          have f1 := (hs.1.step _ _ e1).flags
          have h := safe_uriAfterScheme net hnet params t c1 hc1
          rw [f1] at h
          refine SafeAt.seq (B2 := 0) h (fun u c2 _ hu hc2 => SafeAt.pure hc2 ?_)
          exact ⟨by simp, hu.1, fun h _ => hu.2 h⟩
        refine SafeAt.congr ?_ h3
        rw [P.bind_ok hpc, e0]
      · have e1 : P.orElse (do let t ← parseAddrScheme; pure (some t)) (pure none) c = .panic := by
          unfold P.orElse; rw [P.bind_panic hpc]
        rw [P.bind_panic e1] at e0
        exact .of_panic e0 (fun h1 h2 => hs.1.nopanic (h1.mono (by omega)) (h2.mono (by omega) (by omega)) hpc)
      · exact absurd hpc (hs.1.nohang (PreH.zero _))

/-- **C20, C28 - C31** the address of a request line (SipAddr.go:181-195) -/
theorem addrSpec_safe (net : Net) (hnet : net.Ok) (c : Ctx) (hc : Inv c) :
    SafeAt 2 false 23 72 (fun a => Addr.Parsed net c.flags true a ∧ a.nameAddr = false) (parseAddrSpec net) c := by
  unfold parseAddrSpec
  have hs := (safe_addrScheme c hc).1
  refine SafeAt.seq (B2 := 70) hs (fun t c1 e1 _ hc1 => ?_)
  have f1 := (hs.step _ _ e1).flags
  have h := safe_uriAfterScheme net hnet true t c1 hc1
  rw [f1] at h
  exact SafeAt.seq (B2 := 0) h (fun u c2 _ hu hc2 => SafeAt.pure hc2 ⟨⟨by simp, hu.1, fun h => by cases h⟩, rfl⟩)

/-! ## Parse, encode, parse -/

/-- what encoding preserves of a URI: the context of a global telephone number is lost -/
def AddrUri.norm : AddrUri → AddrUri
  | .sip u => .sip u
  | .tel u => .tel u.norm
def Addr.norm (a : Addr) : Addr := { a with uri := a.uri.norm }

/-- the accepted values that can be written: no folded line in a quoted display name, no URI header without value -/
def Addr.Clean (a : Addr) : Prop :=
  (∀ d ∈ a.display, d.1 = true → 0x0d ∉ d.2) ∧ ∀ u, a.uri = .sip u → ∀ g ∈ u.headers, g.value ≠ none

theorem Addr.Parsed.wf {net : Net} {fl : Flags} {params : Bool} {a : Addr} (h : a.Parsed net fl params) (he : fl.encodeUriNoEscape = false) (hcl : a.Clean) : a.norm.WF net fl := by
  constructor
  · intro d hd
    obtain ⟨h1, h2⟩ := h.display d hd
    refine ⟨by show (a.nameAddr || _) = true; rw [h1]; rfl, ?_⟩
    unfold DisplayOk at h2
    obtain ⟨b, d⟩ := d
    cases b with
    | true =>
      obtain ⟨t, ht⟩ := h2
      exact qtext_self ht (hcl.1 _ hd rfl)
    | false => exact h2
  · have h1 := h.uri
    show (a.uri.norm).WF net fl
    cases hu : a.uri with
    | sip u => rw [hu] at h1; exact SipUri.Parsed.wf h1 he (hcl.2 u hu)
    | tel u => rw [hu] at h1; exact TelUri.Parsed.wf h1 he

theorem addr_encode_norm (net : Net) (fl : Flags) (a : Addr) : a.norm.encode net fl = a.encode net fl := by
  have : a.norm.uri.encode net fl = a.uri.encode net fl := by
    unfold Addr.norm
    cases a.uri with
    | sip u => rfl
    | tel u => exact telUri_encode_norm fl u
  unfold Addr.encode
  rw [this]; rfl

/-- **C20** parse, encode, parse: what `Parse` accepts (without a folded line in a quoted display name) is written as a text that is read as the same
address, up to the form (brackets are added unless `EncodeUriAsNameSpace` is off), the spelling of known parameter names, and the context of a global
telephone number, which is lost -/
theorem addr_idempotent (net : Net) (hnet : net.Ok) (params : Bool) (c c' : Ctx) (a : Addr) (hc : Inv c) (he : c.flags.encodeUriNoEscape = false)
    (h : parseAddr net params c = .ok (some a, c')) (hcl : a.Clean) :
    ((a.nameAddr || c.flags.encodeUriAsNameSpace) = true →
      Parses c.flags (parseAddr net params) (a.encode net c.flags) (a.norm.canon c.flags) (a.norm.tryCost + a.norm.cost) (fun y => swsLen y = 0)) ∧
    ((a.nameAddr || c.flags.encodeUriAsNameSpace) = false → params = false → Parses c.flags (parseAddr net false) (a.encode net c.flags) a.norm a.norm.uri.cost a.norm.uri.PlainEnd) := by
  have hp := ((addr_safe net hnet params c hc).some _ _ h).1
  have hw := hp.wf he hcl
  rw [← addr_encode_norm]
  refine ⟨fun hb => addr_roundtrip net hnet params c.flags a.norm hw hb, fun hb hpar => bareAddr_roundtrip net hnet c.flags a.norm hw hb ?_⟩
  have hn : a.nameAddr = false := by cases hn : a.nameAddr <;> simp_all
  have := hp.plain hpar hn
  show (a.uri.norm).Plain
  revert this
  cases a.uri with
  | sip u => exact fun h => h
  | tel u =>
    rintro ⟨h1, h2, h3⟩
    refine ⟨?_, ?_, ?_⟩ <;> (unfold TelUri.norm; split <;> simp_all)

/-- the hypotheses are met: an address with a display name of two tokens and a URI with user, parameters and headers -/
def Addr.sample : Addr := ⟨true, some (false, str "sip Alice "), .sip SipUri.sample⟩
theorem Addr.sample_wf : Addr.sample.WF Net.sample { setSipUriKnownParam := true } := by
  refine ⟨fun d hd => ?_, SipUri.sample_wf⟩
  cases hd
  refine ⟨rfl, by decide, ?_⟩
  have hs : IsSWS [0x20] := Or.inr ⟨[0x20], by simp, by simp [AllWsp], Or.inl rfl⟩
  exact .cons (str "sip") [0x20] _ (by decide) (by decide +kernel) hs (by simp) (.cons (str "Alice") [0x20] [] (by decide) (by decide +kernel) hs (by simp) .nil)
example : Addr.sample.tryCost = 5 := by decide +kernel

end Sip
