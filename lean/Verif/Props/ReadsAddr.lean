import Verif.Props.ReadsUri
/-! # What is accepted follows the grammar: addresses and header parameters (C42) -/
namespace Sip

/-! ## Addresses -/

/-- the text of a scheme; of other schemes than these nothing is said, they are not accepted -/
def SchemeText : UriType → Bytes → Prop
  | .sip, t => Gram.word "sip:" t
  | .sips, t => Gram.word "sips:" t
  | .tel, t => Gram.word "tel:" t
  | _, _ => True

theorem ReadsAt.otherScheme {c : Ctx} : ReadsAt (fun ty t _ => SchemeText ty t) parseOtherScheme c := by
  refine ReadsAt.of_safe (fun hc => (safe_otherScheme c hc).1) (fun hc v c' t e st ht _ => ?_)
  suffices v = .absolute by rw [this]; trivial
  have key : ReadsAt (fun ty _ _ => ty = UriType.absolute) parseOtherScheme c := by
    unfold parseOtherScheme
    refine ReadsAt.peek (fun _ => ReadsAt.fail) (fun b y hr => ?_)
    dsimp only
    refine ReadsAt.ite (fun _ => ?_) (fun _ => ReadsAt.fail)
    refine ReadsAt.bind (ReadsAt.str csUriScheme (by decide +kernel)) (fun n t1 c1 _ s1 h1 r1 => ?_)
    refine ReadsAt.peek (fun hr => ReadsAt.ite (fun h => by cases h) (fun _ => ReadsAt.fail)) (fun b y hr => ReadsAt.ite (fun _ => ?_) (fun _ => ReadsAt.fail))
    refine ReadsAt.bind (ReadsAt.skip1 (R := fun _ _ _ => True) hr trivial) (fun _ t2 c2 _ s2 h2 h22 => ReadsAt.pure rfl)
  obtain ⟨_, _, _, h⟩ := key hc v c' e
  exact h

theorem ReadsAt.addrScheme {c : Ctx} : ReadsAt (fun ty t _ => SchemeText ty t) parseAddrScheme c := by
  intro hc v c' e
  unfold parseAddrScheme at e
  have key : ∀ (t y : Bytes) (ty : UriType), c.rest = t ++ y → SchemeText ty t → ∀ n, n = t.length →
      (Out.ok (some ty, c.adv n) : Out (Option UriType × Ctx)) = .ok (some v, c') → Step c c' ∧ ∃ t, c.rest = t ++ c'.rest ∧ SchemeText v t := by
    rintro t y ty hr hs n rfl e
    cases e
    exact ⟨Step.of_rest hc hr, t, by rw [Ctx.rest_adv hr]; exact hr, hs⟩
  split at e
  · rename_i a b d f r hr
    split at e
    · rename_i ha
      split at e
      · rename_i hbd
        split at e
        · rename_i hf; subst hf
          exact key [a, b, d, 0x3a] r .sip hr (sipScheme_word ⟨ha, hbd.1, hbd.2⟩) 4 rfl e
        · split at e
          · rename_i hf
            split at e
            · cases e
            · rename_i g r'
              split at e
              · rename_i hg; subst hg
                exact key [a, b, d, f, 0x3a] r' .sips hr (sipsScheme_word ⟨ha, hbd.1, hbd.2, hf⟩) 5 rfl e
              · exact ReadsAt.otherScheme hc v c' e
          · exact ReadsAt.otherScheme hc v c' e
      · exact ReadsAt.otherScheme hc v c' e
    · split at e
      · rename_i ha
        split at e
        · rename_i hh
          obtain ⟨h1, h2, rfl⟩ := hh
          exact key [a, b, d, 0x3a] r .tel hr (telScheme_word ⟨ha, h1, h2⟩) 4 rfl e
        · exact ReadsAt.otherScheme hc v c' e
      · split at e
        · split at e
          · exact key [a, b, d, f] r .urn hr trivial 4 rfl e
          · exact ReadsAt.otherScheme hc v c' e
        · exact ReadsAt.otherScheme hc v c' e
  · exact ReadsAt.otherScheme hc v c' e

theorem ReadsAt.uriAfterScheme {net : Net} {ty : UriType} {t0 : Bytes} (h0 : SchemeText ty t0) {c : Ctx} :
    ReadsAt (fun u t y => Gram.addrUri net c.flags u (t0 ++ t) y) (parseUriAfterScheme net true ty) c := by
  cases ty with
  | sip =>
    refine ReadsAt.bind (ReadsAt.orErr (ReadsAt.alloc 18)) (fun _ t1 c1 _ s1 _ ht => ?_)
    subst ht
    rw [if_pos rfl]
    refine ReadsAt.bind ReadsAt.sipRest (fun u t2 c2 _ s2 _ r2 => ReadsAt.pure ?_)
    rw [s1.flags] at r2
    exact rel_text (Gram.addrUri.sip u t0 t2 _ h0 r2) (by simp)
  | sips =>
    refine ReadsAt.bind (ReadsAt.orErr (ReadsAt.alloc 18)) (fun _ t1 c1 _ s1 _ ht => ?_)
    subst ht
    rw [if_pos rfl]
    refine ReadsAt.bind ReadsAt.sipRest (fun u t2 c2 _ s2 _ r2 => ReadsAt.pure ?_)
    rw [s1.flags] at r2
    exact rel_text (Gram.addrUri.sips u t0 t2 _ h0 r2) (by simp)
  | tel =>
    refine ReadsAt.bind (ReadsAt.orErr (ReadsAt.alloc 10)) (fun _ t1 c1 _ s1 _ ht => ?_)
    subst ht
    rw [if_pos rfl]
    refine ReadsAt.bind ReadsAt.telRest (fun u t2 c2 _ s2 _ r2 => ReadsAt.pure ?_)
    rw [s1.flags] at r2
    exact rel_text (Gram.addrUri.tel u t0 t2 _ h0 r2) (by simp)
  | absolute => exact ReadsAt.fail
  | urn => exact ReadsAt.fail

theorem ReadsAt.uriAfterSchemeNoParam {net : Net} {ty : UriType} {t0 : Bytes} (h0 : SchemeText ty t0) {c : Ctx} :
    ReadsAt (fun u t y => Gram.addrUriNoParam net u (t0 ++ t) y) (parseUriAfterScheme net false ty) c := by
  cases ty with
  | sip =>
    refine ReadsAt.bind (ReadsAt.orErr (ReadsAt.alloc 18)) (fun _ t1 c1 _ s1 _ ht => ?_)
    subst ht
    rw [if_neg (by simp)]
    refine ReadsAt.bind ReadsAt.sipRestNoParam (fun u t2 c2 _ s2 _ r2 => ReadsAt.pure ?_)
    exact rel_text (Gram.addrUriNoParam.sip u t0 t2 _ h0 r2) (by simp)
  | sips =>
    refine ReadsAt.bind (ReadsAt.orErr (ReadsAt.alloc 18)) (fun _ t1 c1 _ s1 _ ht => ?_)
    subst ht
    rw [if_neg (by simp)]
    refine ReadsAt.bind ReadsAt.sipRestNoParam (fun u t2 c2 _ s2 _ r2 => ReadsAt.pure ?_)
    exact rel_text (Gram.addrUriNoParam.sips u t0 t2 _ h0 r2) (by simp)
  | tel =>
    refine ReadsAt.bind (ReadsAt.orErr (ReadsAt.alloc 10)) (fun _ t1 c1 _ s1 _ ht => ?_)
    subst ht
    rw [if_neg (by simp)]
    refine ReadsAt.bind ReadsAt.telRestNoParam (fun u t2 c2 _ s2 _ r2 => ReadsAt.pure ?_)
    exact rel_text (Gram.addrUriNoParam.tel u t0 t2 _ h0 r2) (by simp)
  | absolute => exact ReadsAt.fail
  | urn => exact ReadsAt.fail

/-- the tokens read so far are the text `a`; `y` follows -/
def TokRead (a y : Bytes) : Prop :=
  (∀ x y', y = x ++ y' → Gram.tokens x y' → Gram.tokens (a ++ x) y') ∧ (NotIn csSipToken y → Gram.tokens a y)

theorem ReadsAt.tokens {c : Ctx} (hb : ∃ b, c.cur? = some b ∧ csSipToken.mem b = true) : ReadsAt (fun v t y => v = t ∧ Gram.tokens t y) parseTokens c := by
  unfold parseTokens
  refine ReadsAt.get ?_
  refine ReadsAt.bind (R := fun _ t y => Gram.tokens t y) (ReadsAt.forLoop (J := fun _ a y => (a = [] ∧ y = c.rest) ∨ TokRead a y) (fl := c.flags) ?_ rfl (Or.inl ⟨rfl, rfl⟩)) (fun _ t1 c1 _ s1 h1 r1 => ?_)
  · rintro ⟨⟩ a c2 hf hJ
    have hNot : (NotIn csSipToken c2.rest) → Gram.tokens a c2.rest := by
      intro hn
      rcases hJ with ⟨rfl, h⟩ | h
      · obtain ⟨b, hb1, hb2⟩ := hb
        rw [cur_eq_head] at hb1
        rw [h] at hn
        rw [hn b (by rw [hb1]; simp)] at hb2; cases hb2
      · exact h.2 hn
    unfold tokensBody
    refine ReadsAt.peek (fun hr => ReadsAt.pure ⟨fun _ h => (by cases h), fun v h => ?_⟩) (fun b y hr => ?_)
    · rw [List.append_nil]; exact hNot (by rw [hr]; intro b hb; cases hb)
    · dsimp only
      refine ReadsAt.ite (fun hm => ?_) (fun hm => ReadsAt.pure ⟨fun _ h => (by cases h), fun v h => ?_⟩)
      · refine ReadsAt.bind (R := fun _ t y => ∃ t1 w, t = t1 ++ w ∧ Gram.run csSipToken t1 t1 (w ++ y) ∧ Gram.sws w y) (ReadsAt.orBack ?_) (fun _ t2 c3 _ s2 h2 r2 => ReadsAt.pure ⟨fun s h => ?_, fun _ h => by cases h⟩)
        · refine ReadsAt.bind (ReadsAt.skipRun csSipToken) (fun _ t3 c4 _ s4 h4 r4 => ?_)
          refine ReadsAt.lws.mono (fun _ t y hr2 hw => ⟨t3, t, rfl, ⟨rfl, ?_, r4.1, by rw [← hr2]; exact r4.2⟩, hw⟩)
          rintro rfl
          rw [List.nil_append] at h4
          rw [← h4, hr] at r4
          rw [r4.2 b (by simp)] at hm; cases hm
        · right
          obtain ⟨t3, w, rfl, hrun, hw⟩ := r2
          simp only [List.append_nil]
          have hpre : (∀ x y', c2.rest = x ++ y' → Gram.tokens x y' → Gram.tokens (a ++ x) y') := by
            rcases hJ with ⟨rfl, h⟩ | h
            · intro x y' _ hx; exact hx
            · exact h.1
          refine ⟨fun x y' e hx => ?_, fun hn => ?_⟩
          · have := hpre (t3 ++ w ++ x) y' (by rw [h2, e]; simp) (.more t3 w x y' (by rw [e] at hrun; simpa using hrun) hw.1 hx)
            simpa using this
          · exact hpre (t3 ++ w) _ h2 (.one t3 w _ hrun hw hn)
      · rw [List.append_nil]
        refine hNot ?_
        rw [hr]; intro x hx
        simp only [List.head?_cons, Option.mem_def, Option.some.injEq] at hx
        subst hx; simpa using hm
  · refine ReadsAt.get ?_
    have htx : (c.src.drop c.pos).take (c1.pos - c.pos) = t1 := by
      have := s1.pos_text h1
      rw [this, Nat.add_sub_cancel_left, show c.src.drop c.pos = c.rest from rfl, h1, List.take_left]
    rw [htx]
    refine (ReadsAt.orErr (ReadsAt.allocStr t1)).mono (fun v t y h2 h => ?_)
    obtain ⟨rfl, rfl⟩ := h
    rw [List.nil_append] at h2
    rw [List.append_nil]
    exact ⟨rfl, by rw [← h2]; exact r1⟩

theorem ReadsAt.displayLaquot {c : Ctx} : ReadsAt Gram.display parseDisplayLaquot c := by
  unfold parseDisplayLaquot
  refine ReadsAt.peek (fun hr => ReadsAt.err) (fun b y hr => ?_)
  dsimp only
  refine ReadsAt.ite (fun hb => ?_) (fun hb => ?_)
  · refine ReadsAt.bind (R := fun d t y => (∃ v, d = (false, v) ∧ v = t ∧ Gram.tokens t y) ∨ ∃ v, d = (true, v) ∧ Gram.quoted v t y) ?_ (fun d t1 c1 _ s1 h1 r1 => ?_)
    · unfold parseDisplayName
      refine ReadsAt.peek (fun hr2 => ?_) (fun b2 y2 hr2 => ?_)
      · rw [hr] at hr2; cases hr2
      · dsimp only
        refine ReadsAt.ite (fun hm => ?_) (fun hm => ?_)
        · refine ReadsAt.bind (ReadsAt.tokens ⟨b2, by rw [cur_eq_head, hr2]; rfl, hm⟩) (fun d t1 c1 _ s1 h1 r1 => ReadsAt.pure (Or.inl ⟨d, rfl, by rw [List.append_nil]; exact r1.1, by rw [List.append_nil]; exact r1.2⟩))
        · refine ReadsAt.bind ReadsAt.quoted (fun d t1 c1 _ s1 h1 r1 => ReadsAt.pure (Or.inr ⟨d, rfl, by rw [List.append_nil]; exact r1⟩))
    · refine ReadsAt.bind ReadsAt.laquot (fun _ t2 c2 _ s2 h2 r2 => ReadsAt.pure ?_)
      obtain ⟨w, hw, rfl⟩ := r2
      rcases r1 with ⟨v, rfl, rfl, hv⟩ | ⟨v, rfl, hv⟩
      · rw [h2] at hv
        exact rel_text (Gram.display.tokens v w _ (by simpa using hv) hw) (by simp)
      · rw [h2] at hv
        exact rel_text (Gram.display.quoted v t1 w _ (by simpa using hv) hw) (by simp)
  · simp only [ne_eq, Classical.not_not] at hb; subst hb
    refine ReadsAt.bind (ReadsAt.skip1 (R := fun _ t y' => t = [0x3c]) hr rfl) (fun _ t2 c2 _ s2 h2 h22 => ReadsAt.pure ?_)
    subst h22
    exact rel_text (Gram.display.none _) (by simp)

theorem ReadsAt.nameAddr {net : Net} {c : Ctx} : ReadsAt (Gram.nameAddr net c.flags) (parseNameAddr net) c := by
  unfold parseNameAddr
  refine ReadsAt.bind ReadsAt.sws (fun _ t1 c1 _ s1 h1 r1 => ?_)
  refine ReadsAt.bind ReadsAt.displayLaquot (fun d t2 c2 _ s2 h2 r2 => ?_)
  refine ReadsAt.bind ReadsAt.addrScheme (fun ty t3 c3 _ s3 h3 r3 => ?_)
  refine ReadsAt.bind (ReadsAt.uriAfterScheme r3) (fun u t4 c4 _ s4 h4 r4 => ?_)
  refine ReadsAt.bind ReadsAt.raquot (fun _ t5 c5 _ s5 h5 r5 => ReadsAt.pure ?_)
  obtain ⟨w, hw, rfl⟩ := r5
  rw [s3.flags, s2.flags, s1.flags, h5] at r4
  rw [h3, h4, h5] at r2
  exact rel_text (Gram.nameAddr.mk t1 d t2 u (t3 ++ t4) w _ (by rw [h2, h3, h4, h5] at r1; simpa using r1) (by simpa using r2) (by simpa using r4) hw) (by simp)

theorem ReadsAt.addr {net : Net} {c : Ctx} : ReadsAt (Gram.addr net c.flags) (parseAddr net false) c := by
  unfold parseAddr
  refine ReadsAt.peek (fun hr => ReadsAt.err) (fun b y hr => ?_)
  dsimp only
  refine ReadsAt.ite (fun _ => ReadsAt.nameAddr.mono (fun a t y _ h => .name a t y h)) (fun _ => ?_)
  refine ReadsAt.bind (R := fun o t _ => match o with
    | some ty => SchemeText ty t
    | none => t = []) (ReadsAt.orElse ?_ ?_ ?_) (fun o t1 c1 _ s1 h1 r1 => ?_)
  · intro hc c' e
    rcases hs : parseAddrScheme c with ⟨_ | ty, d⟩ | _ | _
    · rw [P.bind_none hs] at e; cases e; exact (safe_addrScheme c hc).1.step _ _ hs
    · rw [P.bind_ok hs] at e; cases e
    · rw [P.bind_apply, hs] at e; cases e
    · rw [P.bind_apply, hs] at e; cases e
  · refine ReadsAt.bind ReadsAt.addrScheme (fun ty t1 c1 _ s1 h1 r1 => ReadsAt.pure ?_)
    rw [List.append_nil]; exact r1
  · intro d _ hr' s; exact ReadsAt.pure rfl
  · cases o with
    | none =>
      subst r1
      refine ReadsAt.nameAddr.mono (fun a t y _ h => ?_)
      rw [s1.flags] at h
      exact .name a t y h
    | some ty =>
      refine ReadsAt.bind (ReadsAt.uriAfterSchemeNoParam r1) (fun u t2 c2 _ s2 h2 r2 => ReadsAt.pure ?_)
      exact rel_text (Gram.addr.spec u _ _ r2) (by simp)

theorem ReadsAt.addrSpec {net : Net} {c : Ctx} : ReadsAt (Gram.addrSpec net c.flags) (parseAddrSpec net) c := by
  unfold parseAddrSpec
  refine ReadsAt.bind ReadsAt.addrScheme (fun ty t3 c3 _ s3 h3 r3 => ?_)
  refine ReadsAt.bind (ReadsAt.uriAfterScheme r3) (fun u t4 c4 _ s4 h4 r4 => ReadsAt.pure ?_)
  rw [s3.flags] at r4
  exact rel_text (Gram.addrSpec.mk u _ _ r4) (by simp)

/-! ## Header parameters -/

theorem ReadsAt.bracket {c : Ctx} {y : Bytes} (hr : c.rest = 0x5b :: y) : ReadsAt (fun v t _ => v = t ∧ ∃ x, t = 0x5b :: x ++ [0x5d] ∧ 0x5d ∉ x) parseBracketValue c := by
  refine ReadsAt.of_safe (fun hc => safe_bracket c hc (by rw [cur_eq_head, hr]; rfl)) (fun hc v c' t e st ht hq => ?_)
  have hv : v = t := by
    have hp := st.pos_text ht
    unfold parseBracketValue at e
    split at e
    · cases e
    · rename_i p1 hi
      obtain ⟨hlt, _, _⟩ := List.findIdx?_eq_some_iff_getElem.1 hi
      split at e
      · cases e
      · rename_i v' d ha
        cases e
        have hd : v = c.rest.take (p1 + 1) ∧ d.pos = c.pos := by
          unfold Sip.allocStr at ha
          split at ha
          · cases ha
          · cases ha; exact ⟨rfl, rfl⟩
        have hl : t.length = p1 + 1 := by
          have : d.pos + (p1 + 1) = c.pos + t.length := hp
          omega
        rw [hd.1, ht, ← hl, List.take_left]
  subst hv
  exact ⟨rfl, hq⟩

theorem ReadsAt.genValue {c : Ctx} : ReadsAt Gram.genValue GenericParam.parseValue c := by
  unfold GenericParam.parseValue
  refine ReadsAt.peek (fun hr => ReadsAt.err) (fun b y hr => ?_)
  dsimp only
  refine ReadsAt.ite (fun _ => ?_) (fun _ => ReadsAt.ite (fun _ => ?_) (fun _ => ReadsAt.ite (fun hb => ?_) (fun _ => ReadsAt.err)))
  · refine ReadsAt.bind (ReadsAt.str csSipToken (by decide +kernel)) (fun v t c1 _ s1 h1 r1 => ReadsAt.pure ?_)
    have := r1.1; subst this
    rw [List.append_nil]; exact .token v _ r1
  · refine ReadsAt.bind ReadsAt.quoted (fun v t c1 _ s1 h1 r1 => ReadsAt.pure ?_)
    rw [List.append_nil]; exact .quoted v t _ r1
  · subst hb
    refine ReadsAt.bind (ReadsAt.bracket hr) (fun v t c1 _ s1 h1 r1 => ReadsAt.pure ?_)
    obtain ⟨rfl, x, rfl, hx⟩ := r1
    rw [List.append_nil]; exact .ipv6 x _ hx

theorem ReadsAt.genericParam {c : Ctx} : ReadsAt Gram.genericParam GenericParam.parse c := by
  unfold GenericParam.parse
  refine ReadsAt.bind (ReadsAt.orErr ReadsAt.strEsc_token) (fun n t c1 _ s1 h1 r1 => ?_)
  have := r1.1; subst this
  have hbare : ∀ w y, Gram.sws w y → c1.rest = w ++ y → y.head? ≠ some 0x3d → (w ≠ [] → y ≠ []) → Gram.genericParam ⟨n, none⟩ (n ++ w) y := by
    intro w y hw e hy he
    rw [e] at r1
    exact .flag n w y r1 hw hy he
  refine ReadsAt.peek (fun hr => ReadsAt.pure ?_) (fun b y hr => ?_)
  · exact hbare [] _ (by rw [hr, gsws_iff]; rfl) rfl (by rw [hr]; simp) (by simp)
  · dsimp only
    refine ReadsAt.ite (fun hb => ReadsAt.pure ?_) (fun _ => ?_)
    · simp only [ne_eq, decide_not, Bool.and_eq_true, Bool.not_eq_true', decide_eq_false_iff_not] at hb
      refine hbare [] _ ?_ rfl ?_ (by simp)
      · rw [hr, gsws_iff]; exact swsLen_cons_not_lws hb.2
      · rw [hr]; simpa using hb.1
    · refine ReadsAt.bind (ReadsAt.markCanOmmit 0x3d (by decide)) (fun m t2 c2 _ s2 h2 r2 => ?_)
      refine ReadsAt.ite (fun hm => ReadsAt.pure ?_) (fun hm => ?_)
      · obtain ⟨hw, hne, hh⟩ := r2.2 (by simpa using hm)
        rw [List.append_nil]; exact hbare t2 _ hw h2 hh (fun _ => hne)
      · refine ReadsAt.bind ReadsAt.genValue (fun v t3 c3 _ s3 h3 r3 => ReadsAt.pure ?_)
        rw [h2, h3] at r1
        exact rel_text (Gram.genericParam.value n t2 v t3 _ (by simpa using r1) (by rw [← h3]; exact r2.1 (by simpa using hm)) r3) (by simp)

/-- no ";" follows, also not behind white space -/
theorem noSemi_iff {sep : UInt8} (hs : isLwsChar sep = false) (y : Bytes) : (¬ ∃ w z, IsSWS w ∧ y = w ++ sep :: z) ↔ (y.drop (swsLen y)).head? ≠ some sep := by
  constructor
  · intro h e
    refine h ⟨y.take (swsLen y), (y.drop (swsLen y)).tail, swsLen_isSWS y, ?_⟩
    match hd : y.drop (swsLen y) with
    | [] => rw [hd] at e; cases e
    | b :: r =>
      rw [hd] at e; cases e
      show y = _ ++ sep :: r
      rw [← hd, List.take_append_drop]
  · rintro h ⟨w, z, hw, rfl⟩
    rw [swsLen_eq_of_sws hw (by intro b hb; cases hb; exact hs), List.drop_left] at h
    exact h rfl

theorem nextParamMark_reads {c : Ctx} :
    ReadsAt (fun b t y => (b = true → Gram.mark 0x3b t y) ∧ (b = false → t = [] ∧ (¬ ∃ w z, IsSWS w ∧ y = w ++ 0x3b :: z) ∧ ¬ IsSWS y)) (nextParamMark 0x3b) c := by
  intro hc v c' e
  unfold nextParamMark at e
  rcases hm : P.markCanOmmit 0x3b c with ⟨_ | _ | _, d⟩ | _ | _
  · rw [hm] at e; cases e
  · rw [hm] at e; cases e
    obtain ⟨s, t, h1, h2⟩ := ReadsAt.markCanOmmit 0x3b (by decide) hc _ _ hm
    have s' := ((safe_nextParamMark 0x3b (by decide) c hc).1).step (some false) (d.setPos c.pos) (by unfold nextParamMark; rw [hm])
    have e2 : (d.setPos c.pos).rest = c.rest := by unfold Ctx.rest; rw [s'.src]; rfl
    obtain ⟨hw, hne, hh⟩ := h2.2 rfl
    refine ⟨s', [], by rw [e2]; rfl, fun h => (by cases h), fun _ => ⟨rfl, ?_⟩⟩
    suffices (¬ ∃ w z, IsSWS w ∧ c.rest = w ++ 0x3b :: z) ∧ ¬ (c.rest.drop (swsLen c.rest) = []) by
      rw [e2]
      refine ⟨this.1, fun hi => this.2 ?_⟩
      have := swsLen_eq_of_sws (y := []) hi (by intro b hb; cases hb)
      rw [List.append_nil] at this
      rw [this, List.drop_length]
    rw [noSemi_iff (by decide)]
    -- the position of the mark is behind the white space
    have : d.rest = c.rest.drop (swsLen c.rest) := by
      simp only [P.markCanOmmit] at hm
      rw [swsMarkCanOmmit_spec c hc.pos] at hm
      rw [← Ctx.rest_drop, ← sws_eq c hc.pos]
      match hr : c.sws.rest with
      | [] => rw [hr] at hm; cases hm
      | b :: y =>
        rw [hr] at hm
        dsimp only at hm
        by_cases hb : b = 0x3b
        · rw [if_pos hb] at hm; cases hm
        · rw [if_neg hb] at hm; cases hm; exact hr
    rw [← this]; exact ⟨hh, hne⟩
  · rw [hm] at e; cases e
    obtain ⟨s, t, h1, h2⟩ := ReadsAt.markCanOmmit 0x3b (by decide) hc _ _ hm
    exact ⟨s, t, h1, fun _ => h2.1 rfl, fun h => (by cases h)⟩
  · rw [hm] at e; cases e
  · rw [hm] at e; cases e

/-- the parameters read so far are `ps` with the text `a`; `y` follows -/
def ParamRead (ps : List GenericParam) (a y : Bytes) : Prop :=
  ∀ xs t' y', y = t' ++ y' → Gram.paramList xs t' y' → Gram.paramList (ps ++ xs) (a ++ t') y'

theorem genericParams_reads {κ : Type} {fl : Flags} {K : List GenericParam → κ → List GenericParam → Prop} {setK : κ → GenericParam → P (Option κ)}
    (hset : SetsKnown fl K setK) {k : κ} (hk : K [] k []) {c : Ctx} (hf : c.flags = fl) :
    ReadsAt (fun r t y => ∃ ps, K ps r.1 r.2 ∧ Gram.paramList ps t y) (parseGenericParams 0x3b setK k) c := by
  unfold parseGenericParams
  refine ReadsAt.forLoop (J := fun s a y => ∃ ps, K ps s.1 s.2 ∧ ParamRead ps a y) (fl := fl) ?_ hf ⟨[], hk, fun _ _ _ _ h => h⟩
  rintro ⟨k, acc⟩ a c hf ⟨ps, hK, hJ⟩
  have hstop : ∀ y, y = c.rest → (¬ ∃ w z, IsSWS w ∧ y = w ++ 0x3b :: z) → (y ≠ [] → ¬ IsSWS y) → ∃ ps, K ps k acc ∧ Gram.paramList ps a y := by
    intro y e hy he
    refine ⟨ps, hK, ?_⟩
    have := hJ [] [] y (by rw [e]; rfl) (.nil y hy he)
    simpa using this
  unfold genericParamsBody
  refine ReadsAt.get ?_
  cases hcur : c.cur? with
  | none =>
    rw [cur_eq_head] at hcur
    refine ReadsAt.pure ⟨fun _ h => (by cases h), fun v h => ?_⟩
    cases h; rw [List.append_nil]
    refine hstop _ rfl ?_ (fun h => absurd (List.head?_eq_none_iff.1 hcur) h)
    rw [List.head?_eq_none_iff.1 hcur]
    rintro ⟨w, z, _, h⟩
    have := congrArg List.length h
    simp at this
  | some v =>
    rw [cur_eq_head] at hcur
    dsimp only
    refine ReadsAt.ite (fun ho => ReadsAt.pure ⟨fun _ h => (by cases h), fun w h => ?_⟩) (fun _ => ?_)
    · cases h; rw [List.append_nil]
      have ho := (isOnlyCRLF_spec _ _).1 ho
      change StartsEol c.rest at ho
      refine hstop _ rfl ?_ (fun hne hi => ?_)
      rotate_left
      · have := swsLen_eq_of_sws (y := []) hi (by intro b hb; cases hb)
        rw [List.append_nil, swsLen_eol ho] at this
        exact hne (List.length_eq_zero_iff.1 this.symm)
      rw [noSemi_iff (by decide), swsLen_eol ho]
      obtain ⟨z, hz, _⟩ := ho
      rw [hz]; simp
    · refine ReadsAt.ite (fun hv => ReadsAt.pure ⟨fun _ h => (by cases h), fun w h => ?_⟩) (fun _ => ?_)
      · cases h; rw [List.append_nil]
        simp only [ne_eq, decide_not, Bool.and_eq_true, Bool.not_eq_true', decide_eq_false_iff_not] at hv
        refine hstop _ rfl ?_ (fun hne hi => ?_)
        rotate_left
        · have := swsLen_eq_of_sws (y := []) hi (by intro b hb; cases hb)
          rw [List.append_nil] at this
          match hr : c.rest with
          | [] => rw [hr] at hcur; cases hcur
          | b :: r =>
            rw [hr] at hcur this; cases hcur
            rw [swsLen_cons_not_lws hv.2] at this; cases this
        match hr : c.rest with
        | [] => rw [hr] at hcur; cases hcur
        | b :: r =>
          rw [hr] at hcur; cases hcur
          rw [noSemi_iff (by decide), swsLen_cons_not_lws hv.2]
          simpa using hv.1
      · refine ReadsAt.bind nextParamMark_reads (fun m t1 c1 _ s1 h1 r1 => ?_)
        refine ReadsAt.ite (fun hm => ReadsAt.pure ⟨fun _ h => (by cases h), fun w h => ?_⟩) (fun hm => ?_)
        · cases h
          obtain ⟨rfl, hn⟩ := r1.2 (by simpa using hm)
          rw [List.append_nil, List.append_nil]
          exact hstop _ (by rw [h1]; rfl) hn.1 (fun _ => hn.2)
        · have hmark := r1.1 (by simpa using hm)
          refine ReadsAt.bind (ReadsAt.orErr (ReadsAt.alloc 8)) (fun _ t2 c2 _ s2 h2 ht => ?_)
          subst ht
          refine ReadsAt.bind ReadsAt.genericParam (fun p t3 c3 _ s3 h3 r3 => ?_)
          refine ReadsAt.bind (hset ps k acc p c3 (by rw [s3.flags, s2.flags, s1.flags, hf]) hK) (fun r t4 c4 _ s4 h4 r4 => ?_)
          obtain ⟨ht4, r5⟩ := r4
          subst ht4
          have hJ' : ParamRead (ps ++ [p]) (a ++ (t1 ++ ([] ++ (t3 ++ ([] ++ []))))) c4.rest := by
            intro xs t' y' e hx
            have := hJ (p :: xs) (t1 ++ t3 ++ t') y' (by rw [h1, h2, h3, h4, e]; simp)
              (.cons t1 p t3 xs t' y' (by rw [h2, h3, h4, e] at hmark; simpa using hmark) (by rw [h4, e] at r3; exact r3) hx)
            simpa using this
          cases r with
          | none =>
            refine ReadsAt.pure ⟨fun s h => ?_, fun w h => (by cases h)⟩
            cases h; exact ⟨ps ++ [p], r5, hJ'⟩
          | some k' =>
            refine ReadsAt.pure ⟨fun s h => ?_, fun w h => (by cases h)⟩
            cases h; exact ⟨ps ++ [p], r5, hJ'⟩

theorem ReadsAt.params {k : HKind} {c : Ctx} : ReadsAt (Gram.params c.flags k) (Params.parse k.paramNames k.paramFlag) c := by
  unfold Params.parse
  refine ReadsAt.bind (ReadsAt.orErr (genericParams_reads (fl := c.flags) (K := fun ps known acc => Gram.Sorted k.paramNames (k.paramFlag c.flags) GenericParam.name ps known acc) ?_ sorted_nil rfl))
    (fun r t c1 _ s1 h1 r1 => ?_)
  · intro ps kn acc p c3 hf hK
    unfold setKnownGeneric
    refine ReadsAt.get ?_
    rw [hf]
    exact ReadsAt.setKnown (by cases k <;> decide +kernel) (by cases k <;> decide +kernel) hK p
  · obtain ⟨known, others⟩ := r
    obtain ⟨ps, hs, hl⟩ := r1
    refine ReadsAt.pure ?_
    rw [List.append_nil]
    exact .mk ps known others t _ hl hs

end Sip
