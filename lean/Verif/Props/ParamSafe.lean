import Verif.Props.Param
/-! # C19, C28–C31: what the parameter parser accepts, and that it is safe -/
namespace Sip

/-- the values a parsed parameter value can have: in a quoted string the stored text may contain CR CR from a folded line -/
def GenValue.Parsed : GenValue → Prop
  | .token v => v ≠ [] ∧ InSet csSipToken v
  | .quoted v => ∃ t, QText t v
  | .ipv6 v => ∃ x, v = 0x5b :: x ++ [0x5d] ∧ 0x5d ∉ x
structure GenericParam.Parsed (p : GenericParam) : Prop where
  name : p.name ≠ []
  nameSet : InSet csSipToken p.name
  value : ∀ v ∈ p.value, v.Parsed

/-- no quoted string with a CR (from a folded line) -/
def GenValue.noFold : GenValue → Prop
  | .quoted v => 0x0d ∉ v
  | _ => True
def GenericParam.noFold (p : GenericParam) : Prop := ∀ v ∈ p.value, v.noFold

theorem GenValue.Parsed.wf {v : GenValue} (h : v.Parsed) (hf : v.noFold) : v.WF := by
  cases v with
  | token v => exact h
  | quoted v => obtain ⟨t, ht⟩ := h; exact qtext_self ht hf
  | ipv6 v => exact h
theorem GenericParam.Parsed.wf {p : GenericParam} (h : p.Parsed) (hf : p.noFold) : p.WF :=
  ⟨h.name, h.nameSet, fun v hv => (h.value v hv).wf (hf v hv)⟩

/-- a set with `%` decodes nothing -/
theorem decodes_inSet {s : CS} (h25 : s.mem 0x25 = true) {t o y : Bytes} (h : Decodes s t o y) : InSet s o := by
  induction h with
  | stop y h => intro b hb; cases hb
  | lit v t o y h hr ih =>
    intro b hb
    rcases List.mem_cons.1 hb with rfl | hb
    · exact h
    · exact ih b hb
  | esc a b t o y h ha hb hr ih => rw [h25] at h; cases h

theorem safe_tokenEsc : Safe 0 true 1 2 (fun v => v ≠ [] ∧ InSet csSipToken v) (P.strEsc csSipToken) := by
  intro c hc
  have h := safe_strEsc csSipToken (by decide +kernel) c hc
  refine ⟨h.step, fun v c' e => ?_, h.none, h.nopanic, h.nohang, h.nmem⟩
  obtain ⟨h1, h2, h3⟩ := h.some v c' e
  exact ⟨⟨h1, decodes_inSet (by decide +kernel) (strEsc_val hc e)⟩, h2, h3⟩

theorem safe_quotedVal : Safe 1 true 1 2 (fun v => ∃ t, QText t v) P.quoted := by
  intro c hc
  have h := safe_quoted c hc
  refine ⟨h.step, fun v c' e => ?_, h.none, h.nopanic, h.nohang, h.nmem⟩
  obtain ⟨_, h2, h3⟩ := h.some v c' e
  obtain ⟨w, t, _, ht⟩ := quoted_val e
  exact ⟨⟨t, ht⟩, h2, h3⟩

theorem safe_bracket (c : Ctx) (hc : Inv c) (hb : c.cur? = some 0x5b) :
    SafeAt 1 true 1 2 (fun v => ∃ x, v = 0x5b :: x ++ [0x5d] ∧ 0x5d ∉ x) parseBracketValue c := by
  have e0 : parseBracketValue c = parseBracketValue c := rfl
  conv at e0 => rhs; unfold parseBracketValue
  cases hi : c.rest.findIdx? (· = 0x5d) with
  | none =>
    rw [hi] at e0
    exact .of_none e0 (Step.err hc _) (by simp [Ctx.addError])
  | some p1 =>
    rw [hi] at e0
    obtain ⟨hlt, hp1, hbefore⟩ := List.findIdx?_eq_some_iff_getElem.1 hi
    simp only [decide_eq_true_eq] at hp1 hbefore
    have hlen := rest_length c hc.pos
    have htl : (c.rest.take (p1 + 1)).length = p1 + 1 := by simp; omega
    simp only [Sip.allocStr] at e0
    by_cases hm : c.used + ((c.rest.take (p1 + 1)).length + 2) > c.cap
    · rw [if_pos hm] at e0
      exact .of_none e0 (Step.err hc _) (by simp [Ctx.addError])
    · rw [if_neg hm] at e0
      rw [htl] at hm
      have hr := (rest_eq_cons hb).1
      refine .of_okL e0 ?_ ?_ ?_ ?_
      · exact ⟨rfl, rfl, rfl, by simp [Ctx.adv], by simp only [Ctx.adv]; omega, by simp [Ctx.adv], by simp only [Ctx.adv, htl]; omega, ErrsIn.refl⟩
      · have hbefore' : ∀ j, j < p1 → (0x5b :: c.src.drop (c.pos + 1))[j]? ≠ some 0x5d := by
          intro j hj
          rw [← hr, List.getElem?_eq_getElem (by omega)]
          intro h; exact hbefore j hj (Option.some.inj h)
        have hp1' : (0x5b :: c.src.drop (c.pos + 1))[p1]? = some 0x5d := by rw [← hr, List.getElem?_eq_getElem (by omega), hp1]
        cases p1 with
        | zero => simp at hp1'
        | succ j =>
          simp only [List.getElem?_cons_succ] at hp1'
          refine ⟨(c.src.drop (c.pos + 1)).take j, ?_, ?_⟩
          · rw [hr, List.take_succ_cons]
            congr 1
            rw [List.take_add_one, hp1']; rfl
          · intro hmem
            obtain ⟨i, hi1, hi2⟩ := List.mem_take_iff_getElem.1 hmem
            have := hbefore' (i + 1) (by omega)
            simp only [List.getElem?_cons_succ] at this
            exact this (by rw [List.getElem?_eq_getElem (by omega), hi2])
      · intro hL e he heol
        show c.pos + (p1 + 1) ≤ e
        false_or_by_contra
        rename_i hgt
        refine hL (Nat.le_refl _) c.pos ⟨Nat.le_refl _, fun e' he' hse => ?_⟩ ⟨hb, e, he, heol, fun k h1 h2 h3 => ?_, c.pos + p1, by omega, ?_⟩
        · rcases Nat.eq_or_lt_of_le he' with h | h
          · subst h
            have := startsEol_head hse
            rw [List.head?_drop] at this
            have hb' : c.src[c.pos]? = some 0x5b := hb
            rw [hb'] at this; cases this
          · exact h
        · have hk : c.rest[k - c.pos]? = some 0x5d := by
            unfold Ctx.rest; rw [List.getElem?_drop, show c.pos + (k - c.pos) = k by omega]; exact h3
          obtain ⟨hkl, hk2⟩ := List.getElem?_eq_some_iff.1 hk
          exact hbefore (k - c.pos) (by omega) hk2
        · have : c.rest[p1]? = some 0x5d := by rw [List.getElem?_eq_getElem hlt, hp1]
          unfold Ctx.rest at this; rw [List.getElem?_drop] at this; exact this
      · simp only [Ctx.adv, htl]; omega

theorem safe_genValue (c : Ctx) (hc : Inv c) : SafeAt 1 true 1 2 GenValue.Parsed GenericParam.parseValue c := by
  unfold GenericParam.parseValue
  refine SafeAt.peek ?_
  cases hcur : c.cur? with
  | none => exact SafeAt.err hc
  | some v =>
    simp only
    by_cases h1 : csSipToken.mem v = true
    · rw [if_pos h1]
      exact SafeAt.seq (B2 := 0) (safe_str csSipToken (by decide +kernel) c hc) (fun s c1 _ hs hc1 => SafeAt.pure hc1 hs)
    · rw [if_neg h1]
      by_cases h2 : (v = 0x22 || isLwsChar v) = true
      · rw [if_pos h2]
        exact SafeAt.seq (B2 := 0) (safe_quotedVal c hc) (fun s c1 _ hs hc1 => SafeAt.pure hc1 hs)
      · rw [if_neg h2]
        by_cases h3 : v = 0x5b
        · rw [if_pos h3]
          subst h3
          exact SafeAt.seq (B2 := 0) (safe_bracket c hc hcur) (fun s c1 _ hs hc1 => SafeAt.pure hc1 hs)
        · rw [if_neg h3]; exact SafeAt.err hc

theorem safe_genericParam (c : Ctx) (hc : Inv c) : SafeAt 1 true 1 4 GenericParam.Parsed GenericParam.parse c := by
  unfold GenericParam.parse
  refine SafeAt.seq (B2 := 2) (SafeAt.orErr (l := true) (safe_tokenEsc c hc)) (fun name c1 _ hn hc1 => SafeAt.peek ?_)
  have hbare : GenericParam.Parsed ⟨name, none⟩ := ⟨hn.1, hn.2, by simp⟩
  cases hcur : c1.cur? with
  | none => exact SafeAt.pure hc1 hbare
  | some v =>
    simp only
    by_cases h1 : (v ≠ 0x3d && !isLwsChar v) = true
    · rw [if_pos h1]; exact SafeAt.pure hc1 hbare
    · rw [if_neg h1]
      refine SafeAt.seq (B2 := 2) (safe_markCanOmmit 0x3d (by decide) c1 hc1) (fun m c2 _ _ hc2 => ?_)
      cases m with
      | false => exact SafeAt.pure hc2 hbare
      | true =>
        rw [if_neg (by simp)]
        refine SafeAt.seq (B2 := 0) (safe_genValue c2 hc2) (fun v c3 _ hv hc3 => SafeAt.pure hc3 ?_)
        exact ⟨hn.1, hn.2, by intro w hw; cases hw; exact hv⟩

theorem safe_nextParamMark (sep : UInt8) (hm : sep ≠ 0x0d) (c : Ctx) (hc : Inv c) :
    SafeAt 0 true 1 0 (fun _ => True) (nextParamMark sep) c ∧ EatsOn (fun b => b = true) (nextParamMark sep) c := by
  have h := safe_markCanOmmit sep hm c hc
  have e0 : nextParamMark sep c = nextParamMark sep c := rfl
  conv at e0 => rhs; unfold nextParamMark
  rcases hpc : P.markCanOmmit sep c with ⟨_ | b, d⟩ | _ | _
  · rw [hpc] at e0
    exact ⟨.of_none e0 (h.step _ _ hpc) (fun hh => h.none hh _ hpc) (h.nmem _ hpc), fun v c' e => by rw [e0] at e; cases e⟩
  · cases b with
    | true =>
      rw [hpc] at e0
      have hs := h.some _ _ hpc
      refine ⟨.of_okL e0 (h.step _ _ hpc) trivial hs.2.1 hs.2.2, fun v c' e _ => ?_⟩
      rw [e0] at e; cases e
      -- the mark itself has been consumed
      have hsp := swsMarkCanOmmit_spec c hc.pos sep
      have st := sws_step c hc
      simp only [P.markCanOmmit] at hpc
      have hle := st.pos_le
      match hr : c.sws.rest with
      | [] =>
        rw [hr] at hsp
        simp only [hsp] at hpc
        cases hpc
      | x :: y =>
        rw [hr] at hsp
        simp only at hsp
        split at hsp
        · simp only [hsp] at hpc
          simp only [Out.ok.injEq, Prod.mk.injEq, true_and] at hpc
          rw [← hpc]; simp only [Ctx.adv]; omega
        · simp only [hsp] at hpc
          simp only [Out.ok.injEq, Prod.mk.injEq, Option.some.injEq, Bool.false_eq_true, false_and] at hpc
    | false =>
      rw [hpc] at e0
      have st := h.step _ _ hpc
      have hu : d.used = c.used := by
        have hsp := swsMarkCanOmmit_spec c hc.pos sep
        simp only [P.markCanOmmit] at hpc
        match hr : c.sws.rest with
        | [] =>
          rw [hr] at hsp
          simp only [hsp] at hpc
          cases hpc
        | x :: y =>
          rw [hr] at hsp
          simp only at hsp
          split at hsp
          · simp only [hsp] at hpc
            simp only [Out.ok.injEq, Prod.mk.injEq, Option.some.injEq, Bool.true_eq_false, false_and] at hpc
          · simp only [hsp] at hpc
            simp only [Out.ok.injEq, Prod.mk.injEq, true_and] at hpc
            rw [← hpc, sws_used]
      refine ⟨.of_ok e0 ?_ trivial (Line.refl c) (by simp only [Ctx.setPos]; omega), fun v c' e hv => ?_⟩
      · exact ⟨st.src, st.cap, st.flags, Nat.le_refl _, hc.pos, st.used_le, st.used_cap, st.errs⟩
      · rw [e0] at e; cases e; cases hv
  · exact absurd hpc (by simp only [P.markCanOmmit]; split <;> simp)
  · exact absurd hpc (by simp only [P.markCanOmmit]; split <;> simp)

theorem safe_genericParamsBody {κ : Type} (q B : Nat) (hq : 1 ≤ q) (sep : UInt8) (hsep : sep ≠ 0x0d) (setK : κ → GenericParam → P (Option κ)) (fl : Flags) (src : Bytes)
    (J : κ → Prop) (Nk : GenericParam → Prop)
    (hset : ∀ k p c, J k → GenericParam.Parsed p → Inv c → c.flags = fl → c.src = src → SafeAt q true 1 B (OptQ (Nk p) J) (setK k p) c)
    (s : κ × List GenericParam) (c : Ctx) (hs : J s.1 ∧ ∀ p ∈ s.2, GenericParam.Parsed p ∧ Nk p) (hc : Inv c) (hfl : c.flags = fl) (hsrc : c.src = src) :
    SafeAt q true 1 (12 + B) (SumQ (fun (s' : κ × List GenericParam) => J s'.1 ∧ ∀ p ∈ s'.2, GenericParam.Parsed p ∧ Nk p) (fun (s' : κ × List GenericParam) => J s'.1 ∧ ∀ p ∈ s'.2, GenericParam.Parsed p ∧ Nk p)) (genericParamsBody sep setK s) c ∧
    EatsOn (fun r => ∃ s', r = Sum.inl s') (genericParamsBody sep setK s) c := by
  obtain ⟨k, acc⟩ := s
  have hstep : ∀ {α : Type} {q l m B Q} {p : P α} {c1 c2 : Ctx} {v : α}, SafeAt q l m B Q p c1 → p c1 = .ok (some v, c2) → c1.flags = fl → c1.src = src → c2.flags = fl ∧ c2.src = src :=
    fun hS e h1 h2 => ⟨(hS.step _ _ e).flags.trans h1, (hS.step _ _ e).src.trans h2⟩
  have hmark := safe_nextParamMark sep hsep c hc
  -- behind the mark
  have htail : ∀ c1, Inv c1 → c1.flags = fl → c1.src = src → SafeAt q true 1 (12 + B) (SumQ (fun (s' : κ × List GenericParam) => J s'.1 ∧ ∀ p ∈ s'.2, GenericParam.Parsed p ∧ Nk p) (fun (s' : κ × List GenericParam) => J s'.1 ∧ ∀ p ∈ s'.2, GenericParam.Parsed p ∧ Nk p))
      (P.orErr (P.alloc 8) >>= fun _ => GenericParam.parse >>= fun p => setK k p >>= fun r => match r with
        | some k' => pure (Sum.inl (k', acc))
        | none => pure (Sum.inl (k, acc ++ [p]))) c1 := by
    intro c1 hc1 f1 s1
    have hal : SafeAt 0 true 1 8 (fun _ => True) (P.orErr (P.alloc 8)) c1 := SafeAt.orErr (l' := false) (SafeAt.alloc hc1)
    refine SafeAt.seq (B2 := 4 + B) hal (fun _ c2 e2 _ hc2 => ?_)
    obtain ⟨f2, s2⟩ := hstep hal e2 f1 s1
    refine SafeAt.seq (B2 := B) (safe_genericParam c2 hc2) (fun p c3 e3 hp hc3 => ?_)
    obtain ⟨f3, s3⟩ := hstep (safe_genericParam c2 hc2) e3 f2 s2
    refine SafeAt.seq (B2 := 0) (hset k p c3 hs.1 hp hc3 f3 s3) (fun r c4 _ hr hc4 => ?_)
    cases r with
    | none =>
      refine SafeAt.pure hc4 ⟨hs.1, fun x hx => ?_⟩
      rcases List.mem_append.1 hx with h | h
      · exact hs.2 x h
      · simp at h; subst h; exact ⟨hp, hr⟩
    | some k' => exact SafeAt.pure hc4 ⟨hr, hs.2⟩
  unfold genericParamsBody
  constructor
  · refine SafeAt.get ?_
    cases hcur : c.cur? with
    | none => exact SafeAt.pure hc hs
    | some v =>
      simp only
      by_cases h1 : isOnlyCRLF c.src c.pos = true
      · rw [if_pos h1]; exact SafeAt.pure hc hs
      · rw [if_neg h1]
        by_cases h2 : (v ≠ sep && !isLwsChar v) = true
        · rw [if_pos h2]; exact SafeAt.pure hc hs
        · rw [if_neg h2]
          refine SafeAt.seq (B2 := 12 + B) hmark.1 (fun m c1 e1 _ hc1 => ?_)
          obtain ⟨f1, s1⟩ := hstep hmark.1 e1 hfl hsrc
          cases m with
          | false => exact SafeAt.pure hc1 hs
          | true => rw [if_neg (by simp)]; exact htail c1 hc1 f1 s1
  · show EatsOn _ (P.get >>= _) c
    intro v0 c' e ht
    rw [P.get_bind] at e
    revert e
    cases hcur : c.cur? with
    | none => intro e; cases e; obtain ⟨_, h⟩ := ht; cases h
    | some v =>
      simp only
      by_cases h1 : isOnlyCRLF c.src c.pos = true
      · rw [if_pos h1]; intro e; cases e; obtain ⟨_, h⟩ := ht; cases h
      · rw [if_neg h1]
        by_cases h2 : (v ≠ sep && !isLwsChar v) = true
        · rw [if_pos h2]; intro e; cases e; obtain ⟨_, h⟩ := ht; cases h
        · rw [if_neg h2]
          intro e
          rcases hpc : nextParamMark sep c with ⟨_ | m, c1⟩ | _ | _
          · rw [P.bind_none hpc] at e; cases e
          · rw [P.bind_ok hpc] at e
            obtain ⟨f1, s1⟩ := hstep hmark.1 hpc hfl hsrc
            have hc1 := (hmark.1.step _ _ hpc).inv
            cases m with
            | false => simp only [Bool.not_false, if_true] at e; cases e; obtain ⟨_, h⟩ := ht; cases h
            | true =>
              rw [if_neg (by simp)] at e
              have h1 := hmark.2 _ _ hpc rfl
              have h2 := ((htail c1 hc1 f1 s1).step _ _ e).pos_le
              omega
          · rw [P.bind_panic hpc] at e; cases e
          · rw [P.bind_hang hpc] at e; cases e

theorem safe_genericParams {κ : Type} (q B : Nat) (hq : 1 ≤ q) (sep : UInt8) (hsep : sep ≠ 0x0d) (setK : κ → GenericParam → P (Option κ)) (c : Ctx) (hc : Inv c)
    (J : κ → Prop) (Nk : GenericParam → Prop)
    (hset : ∀ k p c1, J k → GenericParam.Parsed p → Inv c1 → c1.flags = c.flags → c1.src = c.src → SafeAt q true 1 B (OptQ (Nk p) J) (setK k p) c1) (k : κ) (hk : J k) :
    SafeAt q true (1 + (12 + B)) (12 + B) (fun r => J r.1 ∧ ∀ p ∈ r.2, GenericParam.Parsed p ∧ Nk p) (parseGenericParams sep setK k) c := by
  unfold parseGenericParams
  refine safe_forLoop (m := 1) (B := 12 + B) (I := fun s => J s.1 ∧ ∀ p ∈ s.2, GenericParam.Parsed p ∧ Nk p) (s := (k, [])) ?_ ?_ ⟨hk, by simp⟩ hc
  · intro s c1 hs h1 h2 h3
    exact (safe_genericParamsBody q B hq sep hsep setK c.flags c.src J Nk hset s c1 hs h1 h2 h3).1
  · intro s c1 s' c' hs h1 h2 h3 e
    exact (safe_genericParamsBody q B hq sep hsep setK c.flags c.src J Nk hset s c1 hs h1 h2 h3).2 _ _ e ⟨s', rfl⟩

/-- what a successful parse of the parameters of a header yields -/
structure Params.Parsed (names : List Bytes) (on : Bool) (ps : Params) : Prop where
  params : ∀ p ∈ ps.params, p.Parsed ∧ (on = true → knownIndex names p.name = none)
  known : KnownInv names on GenericParam.name GenericParam.Parsed ps.known

/-- no value is a quoted string with a CR -/
def Params.noFold (ps : Params) : Prop := (∀ p ∈ ps.params, p.noFold) ∧ ∀ o ∈ ps.known, ∀ p ∈ o, p.noFold

theorem Params.Parsed.wf {names : List Bytes} {on : Bool} {ps : Params} (h : ps.Parsed names on) (hf : ps.noFold) : ps.WF names on := by
  refine ⟨fun p hp => ⟨(h.params p hp).1.wf (hf.1 p hp), (h.params p hp).2⟩, h.known.shape, h.known.off, ?_⟩
  intro x hx p hp
  obtain ⟨h1, h2⟩ := knownAt_zip h.known.at_ x hx p hp
  have hm := List.of_mem_zip (show (x.1, x.2) ∈ names.zip ps.known from hx)
  exact ⟨h1, fun v hv => (h2.value v hv).wf (hf.2 x.2 hm.2 p hp v hv)⟩

theorem params_safe (names : List Bytes) (hN : NamesFine names) (flag : Flags → Bool) (c : Ctx) (hc : Inv c) :
    SafeAt 1 true (13 + 2 * names.length) (12 + 2 * names.length) (Params.Parsed names (flag c.flags)) (Params.parse names flag) c := by
  unfold Params.parse
  have h := safe_genericParams 1 (2 * names.length) (Nat.le_refl _) 0x3b (by decide) (setKnownGeneric names flag) c hc
    (KnownInv names (flag c.flags) GenericParam.name GenericParam.Parsed) (fun p => flag c.flags = true → knownIndex names p.name = none) ?_ [] KnownInv.nil
  · refine SafeAt.seq (B2 := 0) (SafeAt.orErr (l := true) h) (fun r c1 _ hr hc1 => ?_)
    exact SafeAt.pure hc1 ⟨hr.2, hr.1⟩
  · intro k p c1 hk hp hc1 hfl _
    unfold setKnownGeneric
    refine SafeAt.get ?_
    rw [hfl]
    exact safe_setKnown_inv names hN.lower (flag c.flags) GenericParam.name GenericParam.Parsed k hk p hp c1 hc1

theorem canonKnown_idem {α : Type} (rename : Bytes → α → α) (hr : ∀ n p, rename n (rename n p) = rename n p) :
    ∀ (names : List Bytes) (known : List (Option α)), canonKnown rename names (canonKnown rename names known) = canonKnown rename names known := by
  intro names
  induction names with
  | nil => intro known; simp [canonKnown]
  | cons n names ih =>
    intro known
    cases known with
    | nil => simp [canonKnown]
    | cons k known =>
      have := ih known
      unfold canonKnown at *
      rw [List.zipWith_cons_cons, List.zipWith_cons_cons, this]
      cases k <;> simp [hr]
theorem encodeKnown_canon {α : Type} (sep : UInt8) (enc : α → Bytes) (rename : Bytes → α → α) (hr : ∀ n p, enc (rename n p) = enc p) :
    ∀ (names : List Bytes) (known : List (Option α)), encodeKnown names sep enc (canonKnown rename names known) = encodeKnown names sep enc known := by
  intro names
  induction names with
  | nil => intro known; simp [encodeKnown, canonKnown]
  | cons n names ih =>
    intro known
    cases known with
    | nil => simp [encodeKnown, canonKnown]
    | cons k known =>
      have := ih known
      unfold encodeKnown canonKnown at *
      rw [List.zipWith_cons_cons, List.zip_cons_cons, List.flatMap_cons, this, List.zip_cons_cons, List.flatMap_cons]
      cases k <;> simp [hr]

theorem params_canon_encode (names : List Bytes) (ps : Params) : (ps.canon names).encode names = ps.encode names ∧ (ps.canon names).canon names = ps.canon names := by
  constructor
  · unfold Params.encode Params.canon
    rw [encodeKnown_canon]
    intro n p; rfl
  · unfold Params.canon
    rw [canonKnown_idem]
    intro n p; rfl

/-- **C19** parse, encode, parse: whatever is accepted (without a folded line in a quoted string) is written as a text that is read as the same
parameters, and from then on encode and parse are inverse to each other -/
theorem params_idempotent (names : List Bytes) (hN : NamesFine names) (flag : Flags → Bool) (c c' : Ctx) (ps : Params) (hc : Inv c)
    (h : Params.parse names flag c = .ok (some ps, c')) (hf : ps.noFold) :
    Parses c.flags (Params.parse names flag) (ps.encode names) (ps.canon names) (ps.cost names) (GenEnd 0x3b) ∧
    (ps.canon names).encode names = ps.encode names ∧ (ps.canon names).canon names = ps.canon names :=
  ⟨params_roundtrip c.flags names hN flag ps (((params_safe names hN flag c hc).some _ _ h).1.wf hf), params_canon_encode names ps⟩

/-- **C28, negation**: a value in brackets may swallow the end of the line and what follows it -/
theorem bracket_passes_line_end : ∃ c', Params.parse [] (fun _ => false) { src := str ";a=[\r\nb]", cap := 100 } = .ok (some ⟨[], [⟨str "a", some (.ipv6 (str "[\r\nb]"))⟩]⟩, c') :=
  resultOf_ok (by decide +kernel)

/-- **C19, negation**: white space at the end of the input behind a parameter is an error -/
theorem params_trailing_space : ∃ c', Params.parse [] (fun _ => false) { src := str ";a=b ", cap := 100 } = .ok (none, c') :=
  resultOf_ok (by decide +kernel)

/-- the hypotheses are met: a known parameter (in other case), a bare one, a quoted string, an IPv6 reference -/
def Params.sample : Params := ⟨[some ⟨str "TAG", some (.token (str "1928"))⟩], [⟨str "lr", none⟩, ⟨str "x", some (.quoted (str "a \\\" b"))⟩, ⟨str "y", some (.ipv6 (str "[::1]"))⟩]⟩
theorem tag_names : NamesFine [str "tag"] := ⟨by unfold NamesOk; decide +kernel, by decide +kernel, by decide +kernel⟩
theorem Params.sample_wf : Params.sample.WF [str "tag"] true := by
  refine ⟨?_, Or.inr ⟨rfl, some ⟨str "TAG", some (.token (str "1928"))⟩, by simp [Params.sample], by decide⟩, by simp, ?_⟩
  · intro p hp
    simp only [Params.sample, List.mem_cons, List.not_mem_nil, or_false] at hp
    rcases hp with rfl | rfl | rfl
    · exact ⟨⟨by decide, by decide +kernel, by simp⟩, fun _ => by decide +kernel⟩
    · refine ⟨⟨by decide, by decide +kernel, fun v hv => ?_⟩, fun _ => by decide +kernel⟩
      cases hv
      exact .lit _ _ _ (by decide +kernel) (.wsp _ _ _ (by decide) (.pair _ _ _ (.wsp _ _ _ (by decide) (.lit _ _ _ (by decide +kernel) .nil))))
    · refine ⟨⟨by decide, by decide +kernel, fun v hv => ?_⟩, fun _ => by decide +kernel⟩
      cases hv; exact ⟨str "::1", by decide +kernel, by decide +kernel⟩
  · intro x hx p hp
    simp only [Params.sample, List.zip_cons_cons, List.zip_nil_left, List.mem_cons, List.not_mem_nil, or_false] at hx
    subst hx; simp at hp; subst hp
    refine ⟨by decide +kernel, fun v hv => ?_⟩
    cases hv; exact ⟨by decide +kernel, by decide +kernel⟩
example : Params.sample.encode [str "tag"] = str ";tag=1928;lr;x=\"a \\\" b\";y=[::1]" := by decide +kernel
/-- the same with white space, folded, around the marks is a text of the grammar -/
example : ParamsText 0x3b [⟨str "lr", none⟩, ⟨str "a", some (.token (str "b"))⟩] (str "; lr\r\n ;a = b") := by
  have h : ∀ n, IsSWS (List.replicate (n + 1) 0x20) := fun n => Or.inr ⟨_, by simp, by intro b hb; exact Or.inl (List.eq_of_mem_replicate hb), Or.inl rfl⟩
  have := ParamsText.cons (sep := 0x3b) ⟨str "lr", none⟩ [⟨str "a", some (.token (str "b"))⟩] [0x20] _ [0x0d, 0x0a, 0x20] _ (h 0)
    (.bare (str "lr") (by decide) (by decide +kernel)) (Or.inr ⟨[0x20], by simp, by simp [AllWsp], Or.inr ⟨[], by simp [AllWsp], by simp⟩⟩) (by simp)
    (ParamsText.cons _ [] [] _ [] _ (Or.inl rfl) (.value (str "a") (.token (str "b")) [0x20] [0x20] _ (by decide) (by decide +kernel) (h 0) (h 0) (.token _ (by decide) (by decide +kernel))) (Or.inl rfl) (fun _ => rfl) .nil)
  exact this

end Sip
