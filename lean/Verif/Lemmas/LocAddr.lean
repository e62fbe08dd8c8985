import Verif.Lemmas.LocName
/-! # What stands behind the end of a line does not matter: parameters, URIs, addresses, header values -/
namespace Sip
section
variable {a z z' : Bytes} {c : Ctx} {α β : Type}

/-! ## Loops -/

/-- the value says that the loop goes on -/
def Goes {σ ρ : Type} (r : σ ⊕ ρ) : Prop := ∃ s', r = Sum.inl s'

theorem LocAt.loop {σ ρ : Type} {body : σ → P (σ ⊕ ρ)} {s : σ} (hc : InA a z c) (hb : ∀ s, Loc a z z' (body s))
    (he : ∀ s c, InA a z c → EatsOn Goes (body s) c) : LocAt a z z' (P.forLoop body s) c :=
  .forLoop hc hb (fun s c s' c' h e => he s c h _ _ e ⟨s', rfl⟩)

theorem EatsOn.then {T : β → Prop} {p : P α} {f : α → P β} (hc : InA a z c) (hp : LocAt a z z' p c)
    (hf : ∀ v c', p c = .ok (some v, c') → InA a z c' → EatsOn T (f v) c') : EatsOn T (p >>= f) c := by
  intro w c' e hT
  rcases hpc : p c with ⟨_ | v, c1⟩ | _ | _
  · rw [P.bind_none hpc] at e; cases e
  · rw [P.bind_ok hpc] at e
    have st := hp.step _ _ hpc
    have := hf v c1 hpc (hc.step st (hp.inside _ _ hpc)) w c' e hT
    have := st.pos_le
    omega
  · rw [P.bind_panic hpc] at e; cases e
  · rw [P.bind_hang hpc] at e; cases e
theorem EatsOn.first {T : β → Prop} {p : P α} {f : α → P β} (hc : InA a z c) (hp : LocAt a z z' p c) (he : EatsAt p c)
    (hf : ∀ v c', p c = .ok (some v, c') → InA a z c' → LocAt a z z' (f v) c') : EatsOn T (p >>= f) c := by
  intro w c' e hT
  rcases hpc : p c with ⟨_ | v, c1⟩ | _ | _
  · rw [P.bind_none hpc] at e; cases e
  · rw [P.bind_ok hpc] at e
    have st := hp.step _ _ hpc
    have := he _ _ hpc
    have := ((hf v c1 hpc (hc.step st (hp.inside _ _ hpc))).step _ _ e).pos_le
    omega
  · rw [P.bind_panic hpc] at e; cases e
  · rw [P.bind_hang hpc] at e; cases e

theorem EatsOn.get {T : β → Prop} {f : Ctx → P β} (h : EatsOn T (f c) c) : EatsOn T (P.get >>= f) c := h

theorem LocAt.skipRun (hc : InA a z c) (s : CS) (hs : s.mem 0x0d = false) : LocAt a z z' (P.skipRun s) c := by
  obtain ⟨g1, g2⟩ := skipWhile_ln (a := a) (f := s.mem) hs z z' hc.pos
  have hl := ln_length a z
  have hge : c.pos ≤ skipWhile s.mem (ln a z) c.pos := Nat.le_add_right _ _
  refine .of_eq (r := some ()) (c' := c.setPos (skipWhile s.mem (ln a z) c.pos)) ?_ ?_ (Step.setPos hc.inv hge (by rw [hc.src]; omega)) (fun v e => g2)
  · unfold P.skipRun; rw [hc.src]
  · unfold P.skipRun; rw [Ctx.tail_src, Ctx.tail_pos, ← g1]; rfl

/-! ## Header parameters -/

theorem loc_genericValue (hz : NoCont z) (hz' : NoCont z') (hcl : Closed a) : Loc a z z' GenericParam.parseValue := by
  intro c hc
  unfold GenericParam.parseValue
  refine .peek hc ?_
  split
  · exact .err hc
  · rename_i v hv
    split
    · exact .bind hc (loc_str hz _ (by decide +kernel) c hc) (fun _ c1 _ h1 => .ret h1 _)
    · split
      · exact .bind hc (loc_quoted hz hz' c hc) (fun _ c1 _ h1 => .ret h1 _)
      · split
        · rename_i h
          rw [h] at hv
          exact .bind hc (loc_bracket hcl hc hv) (fun _ c1 _ h1 => .ret h1 _)
        · exact .err hc

theorem loc_genericParam (hz : NoCont z) (hz' : NoCont z') (hcl : Closed a) : Loc a z z' GenericParam.parse := by
  intro c hc
  unfold GenericParam.parse
  refine .bind hc (.orErr (loc_strEsc hz _ (by decide +kernel) c hc)) (fun n c1 _ h1 => .peek h1 ?_)
  split
  · exact .ret h1 _
  · split
    · exact .ret h1 _
    · refine .bind h1 (loc_markCanOmmit hz hz' _ (by decide) c1 h1) (fun m c2 _ h2 => ?_)
      split
      · exact .ret h2 _
      · exact .bind h2 (loc_genericValue hz hz' hcl c2 h2) (fun v c3 _ h3 => .ret h3 _)

theorem loc_genericParams {κ : Type} (hz : NoCont z) (hz' : NoCont z') (hcl : Closed a) (sep : UInt8) (hm : sep ≠ 0x0d) (setK : κ → GenericParam → P (Option κ))
    (hk : ∀ k p, Loc a z z' (setK k p)) (k : κ) : Loc a z z' (parseGenericParams sep setK k) := by
  intro c hc
  have hrest : ∀ (k : κ) (acc : List GenericParam) (c : Ctx), InA a z c → LocAt a z z' (do
      P.orErr (P.alloc 8)
      let p ← GenericParam.parse
      let r ← setK k p
      match r with
      | some k' => pure (.inl (k', acc))
      | none => pure (.inl (k, acc ++ [p])) : P ((κ × List GenericParam) ⊕ (κ × List GenericParam))) c := by
    intro k acc c hc
    refine .bind hc (.orErr (.alloc hc)) (fun _ c1 _ h1 => .bind h1 (loc_genericParam hz hz' hcl c1 h1) (fun p c2 _ h2 => .bind h2 (hk k p c2 h2) (fun r c3 _ h3 => ?_)))
    split <;> exact .ret h3 _
  refine .loop hc (fun s c hc => ?_) (fun s c hc => ?_)
  · unfold genericParamsBody
    refine .get ?_ ?_
    · rw [hc.cur, show isOnlyCRLF (c.tail (ln a z')).src (c.tail (ln a z')).pos = isOnlyCRLF c.src c.pos by rw [hc.src]; exact isOnlyCRLF_ln hz hz' hc.pos]
    · split
      · exact .ret hc _
      · split
        · exact .ret hc _
        · split
          · exact .ret hc _
          · refine .bind hc (loc_nextParamMark hz hz' sep hm c hc) (fun m c1 _ h1 => ?_)
            split
            · exact .ret h1 _
            · exact hrest _ _ c1 h1
  · unfold genericParamsBody
    refine .get ?_
    split
    · exact .ret (fun h => by obtain ⟨s', h⟩ := h; cases h)
    · split
      · exact .ret (fun h => by obtain ⟨s', h⟩ := h; cases h)
      · split
        · exact .ret (fun h => by obtain ⟨s', h⟩ := h; cases h)
        · intro w c' e hT
          have hL := loc_nextParamMark (z' := z') hz hz' sep hm c hc
          have hE := (safe_nextParamMark sep hm c hc.inv).2
          rcases hpc : nextParamMark sep c with ⟨_ | v, c1⟩ | _ | _
          · rw [P.bind_none hpc] at e; cases e
          · rw [P.bind_ok hpc] at e
            have h1 := hc.step (hL.step _ _ hpc) (hL.inside _ _ hpc)
            cases v with
            | false => cases e; obtain ⟨s', h⟩ := hT; cases h
            | true =>
              have := hE _ _ hpc rfl
              have := ((hrest _ _ c1 h1).step _ _ e).pos_le
              omega
          · rw [P.bind_panic hpc] at e; cases e
          · rw [P.bind_hang hpc] at e; cases e

theorem loc_setKnown (names : List Bytes) (on : Bool) (known : List (Option α)) (name : Bytes) (p : α) : Loc a z z' (setKnown names on known name p) := by
  intro c hc
  unfold setKnown
  split
  · exact .ret hc _
  · split
    · exact .ret hc _
    · split
      · exact .bind hc (.allocMust hc) (fun _ c1 _ h1 => .ret h1 _)
      · exact .ret hc _

theorem loc_params (hz : NoCont z) (hz' : NoCont z') (hcl : Closed a) (names : List Bytes) (flag : Flags → Bool) : Loc a z z' (Params.parse names flag) := by
  intro c hc
  unfold Params.parse
  refine .bind hc (.orErr (loc_genericParams hz hz' hcl _ (by decide) _ (fun k p c hc => ?_) _ c hc)) (fun v c1 _ h1 => .ret h1 _)
  unfold setKnownGeneric
  exact .get rfl (loc_setKnown _ _ _ _ _ c hc)

/-! ## URIs -/

theorem loc_uriParam (hz : NoCont z) (cs : CharsetInfo) (h1 : cs.name.mem 0x0d = false) (h2 : cs.value.mem 0x0d = false) : Loc a z z' (UriParam.parse cs) := by
  intro c hc
  unfold UriParam.parse
  refine .bind hc (.orErr (loc_strEsc hz _ h1 c hc)) (fun n c1 _ h1 => .peek h1 ?_)
  split
  · rename_i hb
    exact .bind h1 (.skip1 h1 hb (by decide)) (fun _ c2 _ h2' => .bind h2' (.orErr (loc_strEsc hz _ h2 c2 h2')) (fun v c3 _ h3 => .ret h3 _))
  · exact .ret h1 _

theorem loc_uriParams {κ : Type} (hz : NoCont z) (cs : CharsetInfo) (h1 : cs.name.mem 0x0d = false) (h2 : cs.value.mem 0x0d = false) (setK : κ → UriParam → P (Option κ))
    (hk : ∀ k p, Loc a z z' (setK k p)) (k : κ) : Loc a z z' (parseUriParams cs setK k) := by
  intro c hc
  unfold parseUriParams
  refine .peek hc ?_
  split
  · exact .err hc
  · refine .loop hc (fun s c hc => ?_) (fun s c hc => ?_)
    · unfold uriParamsBody
      refine .peek hc ?_
      split
      · exact .ret hc _
      · refine .bind hc (.orErr (.alloc hc)) (fun _ c1 _ g1 => .bind g1 (loc_uriParam hz cs h1 h2 c1 g1) (fun p c2 _ g2 => .bind g2 (hk _ p c2 g2) (fun r c3 _ g3 => .peek g3 ?_)))
        split
        · rename_i hb; exact .bind g3 (.skip1 g3 hb (by decide)) (fun _ c4 _ g4 => .ret g4 _)
        · exact .ret g3 _
    · unfold uriParamsBody
      refine .peek ?_
      split
      · exact .ret (fun h => by obtain ⟨s', h⟩ := h; cases h)
      · refine .then (z' := z') hc (.orErr (.alloc hc)) (fun _ c1 _ g1 => .then (z' := z') g1 (loc_uriParam hz cs h1 h2 c1 g1) (fun p c2 _ g2 => .then g2 (hk _ p c2 g2) (fun r c3 _ g3 => .peek ?_)))
        split
        · exact .skipPure
        · exact .ret (fun h => by obtain ⟨s', h⟩ := h; cases h)

theorem loc_uriHeader (hz : NoCont z) (cs : CharsetInfo) (h1 : cs.name.mem 0x0d = false) (h2 : cs.value.mem 0x0d = false) : Loc a z z' (UriHeader.parse cs) := by
  intro c hc
  unfold UriHeader.parse
  refine .bind hc (.orErr (loc_strEsc hz _ h1 c hc)) (fun n c1 _ h1 => .peek h1 ?_)
  split
  · exact .err h1
  · rename_i hb
    refine .bind h1 (.skip1 (b := 0x3d) h1 (by simpa using hb) (by decide)) (fun _ c2 _ h2' => .peek h2' ?_)
    split
    · exact .ret h2' _
    · exact .bind h2' (.orErr (loc_strEscEmpty hz _ h2 c2 h2')) (fun v c3 _ h3 => .ret h3 _)

theorem loc_uriHeaders (hz : NoCont z) (cs : CharsetInfo) (h1 : cs.name.mem 0x0d = false) (h2 : cs.value.mem 0x0d = false) : Loc a z z' (parseUriHeaders cs) := by
  intro c hc
  unfold parseUriHeaders
  refine .peek hc ?_
  split
  · exact .err hc
  · refine .loop hc (fun s c hc => ?_) (fun s c hc => ?_)
    · unfold uriHeadersBody
      refine .peek hc ?_
      split
      · exact .ret hc _
      · refine .bind hc (.orErr (.alloc hc)) (fun _ c1 _ g1 => .bind g1 (loc_uriHeader hz cs h1 h2 c1 g1) (fun p c2 _ g2 => .peek g2 ?_))
        split
        · rename_i hb; exact .bind g2 (.skip1 g2 hb (by decide)) (fun _ c4 _ g4 => .ret g4 _)
        · exact .ret g2 _
    · unfold uriHeadersBody
      refine .peek ?_
      split
      · exact .ret (fun h => by obtain ⟨s', h⟩ := h; cases h)
      · refine .then (z' := z') hc (.orErr (.alloc hc)) (fun _ c1 _ g1 => .then (z' := z') g1 (loc_uriHeader hz cs h1 h2 c1 g1) (fun p c2 _ g2 => .peek ?_))
        split
        · exact .skipPure
        · exact .ret (fun h => by obtain ⟨s', h⟩ := h; cases h)

theorem loc_password (hz : NoCont z) : Loc a z z' SipUri.parsePassword := by
  intro c hc
  have hp := hc.pos
  unfold SipUri.parsePassword
  refine .byteAt hc (by omega) (fun b hb => ?_)
  split
  · rename_i h
    rw [h] at hb
    refine .bind hc (.skip1 hc hb (by decide)) (fun _ c1 _ h1 => .peek h1 ?_)
    split
    · exact .err h1
    · exact .bind h1 (.orErr (loc_strEscEmpty hz _ (by decide +kernel) c1 h1)) (fun v c2 _ h2 => .ret h2 _)
  · exact .ret hc _

theorem loc_userinfo (hz : NoCont z) : Loc a z z' SipUri.parseUserinfo := by
  intro c hc
  unfold SipUri.parseUserinfo
  refine .get ?_ ?_
  · rw [hc.rest, hc.rest' z', findUserinfo_cr (0x0a :: z') (0x0a :: z)]
  · split
    · refine .bind hc (.orErr (loc_strEsc hz _ (by decide +kernel) c hc)) (fun u c1 _ h1 => .peek h1 ?_)
      split
      · exact .err h1
      · refine .bind h1 (.orErr (loc_password hz c1 h1)) (fun p c2 _ h2 => .peek h2 ?_)
        split
        · exact .err h2
        · rename_i hb
          exact .bind h2 (.skip1 (b := 0x40) h2 (by simpa using hb) (by decide)) (fun _ c3 _ h3 => .ret h3 _)
    · exact .ret hc _

theorem loc_sipParams (hz : NoCont z) : Loc a z z' SipUri.parseParams := by
  intro c hc
  unfold SipUri.parseParams
  refine .peek hc ?_
  split
  · rename_i hb
    refine .bind hc (.skip1 hc hb (by decide)) (fun _ c1 _ h1 => .orErr (loc_uriParams hz _ (by decide +kernel) (by decide +kernel) _ (fun k p c hc => ?_) _ c1 h1))
    unfold SipUri.setKnown
    exact .get rfl (loc_setKnown _ _ _ _ _ c hc)
  · exact .ret hc _

theorem loc_sipHeaders (hz : NoCont z) : Loc a z z' SipUri.parseHeaders := by
  intro c hc
  unfold SipUri.parseHeaders
  refine .peek hc ?_
  split
  · rename_i hb
    exact .bind hc (.skip1 hc hb (by decide)) (fun _ c1 _ h1 => .orErr (loc_uriHeaders hz _ (by decide +kernel) (by decide +kernel) c1 h1))
  · exact .ret hc _

theorem loc_sipAfterScheme (net : Net) (hz : NoCont z) (hcl : Closed a) (sec : Bool) : Loc a z z' (SipUri.parseAfterScheme net sec) := by
  intro c hc
  unfold SipUri.parseAfterScheme
  refine .bind hc (.orErr (loc_userinfo hz c hc)) (fun u c1 _ h1 => .bind h1 (.orErr (loc_hostPort net hz hcl c1 h1)) (fun hp c2 _ h2 =>
    .bind h2 (loc_sipParams hz c2 h2) (fun ps c3 _ h3 => .bind h3 (loc_sipHeaders hz c3 h3) (fun hs c4 _ h4 => .ret h4 _))))

theorem loc_sipPlain (net : Net) (hz : NoCont z) (hcl : Closed a) (sec : Bool) : Loc a z z' (SipUri.parseAfterSchemeWithoutParam net sec) := by
  intro c hc
  unfold SipUri.parseAfterSchemeWithoutParam
  refine .bind hc (loc_userinfo hz c hc) (fun u c1 _ h1 => .bind h1 (.orErr (loc_hostPort net hz hcl c1 h1)) (fun hp c2 _ h2 => .ret h2 _))

theorem loc_sipUri (net : Net) (hz : NoCont z) (hcl : Closed a) : Loc a z z' (SipUri.parse net) := by
  intro c hc
  unfold SipUri.parse
  exact .bind hc (loc_sipScheme c hc) (fun s c1 _ h1 => loc_sipAfterScheme net hz hcl s c1 h1)

theorem loc_telNum (hz : NoCont z) : Loc a z z' TelUri.parseNumber := by
  intro c hc
  unfold TelUri.parseNumber
  refine .peek hc ?_
  split
  · exact .err hc
  · split
    · exact .bind hc (.orErr (loc_telNumber hz _ (by decide +kernel) c hc)) (fun v c1 _ h1 => .ret h1 _)
    · exact .bind hc (.orErr (loc_telNumber hz _ (by decide +kernel) c hc)) (fun v c1 _ h1 => .ret h1 _)

theorem loc_telSetKnown (k : TelKnown) (p : UriParam) : Loc a z z' (TelUri.setKnown k p) := by
  intro c hc
  unfold TelUri.setKnown
  split
  · split
    · exact .panic
    · split
      · exact .panic
      · exact .ret hc _
  · refine .get rfl (.bind hc (loc_setKnown _ _ _ _ _ c hc) (fun r c1 _ h1 => ?_))
    split <;> exact .ret h1 _

theorem loc_telAfterScheme (hz : NoCont z) : Loc a z z' TelUri.parseAfterScheme := by
  intro c hc
  unfold TelUri.parseAfterScheme
  refine .bind hc (.orErr (loc_telNum hz c hc)) (fun n c1 _ h1 => .peek h1 ?_)
  split
  · rename_i hb
    exact .bind h1 (.skip1 h1 hb (by decide)) (fun _ c2 _ h2 => .bind h2 (.orErr (loc_uriParams hz _ (by decide +kernel) (by decide +kernel) _ loc_telSetKnown _ c2 h2)) (fun r c3 _ h3 => .ret h3 _))
  · exact .ret h1 _

theorem loc_telPlain (hz : NoCont z) : Loc a z z' TelUri.parseAfterSchemeWithoutParam := by
  intro c hc
  unfold TelUri.parseAfterSchemeWithoutParam
  exact .bind hc (loc_telNum hz c hc) (fun n c1 _ h1 => .ret h1 _)

theorem loc_telUri (hz : NoCont z) : Loc a z z' TelUri.parse := by
  intro c hc
  unfold TelUri.parse
  exact .bind hc (loc_telScheme c hc) (fun _ c1 _ h1 => loc_telAfterScheme hz c1 h1)

/-! ## Addresses -/

theorem loc_uriAfterScheme (net : Net) (hz : NoCont z) (hcl : Closed a) (params : Bool) (t : UriType) : Loc a z z' (parseUriAfterScheme net params t) := by
  intro c hc
  cases t <;> unfold parseUriAfterScheme
  · exact .fail hc
  · refine .bind hc (.orErr (.alloc hc)) (fun _ c1 _ h1 => .bind h1 ?_ (fun u c2 _ h2 => .ret h2 _))
    split
    · exact loc_sipAfterScheme net hz hcl _ c1 h1
    · exact loc_sipPlain net hz hcl _ c1 h1
  · refine .bind hc (.orErr (.alloc hc)) (fun _ c1 _ h1 => .bind h1 ?_ (fun u c2 _ h2 => .ret h2 _))
    split
    · exact loc_sipAfterScheme net hz hcl _ c1 h1
    · exact loc_sipPlain net hz hcl _ c1 h1
  · refine .bind hc (.orErr (.alloc hc)) (fun _ c1 _ h1 => .bind h1 ?_ (fun u c2 _ h2 => .ret h2 _))
    split
    · exact loc_telAfterScheme hz c1 h1
    · exact loc_telPlain hz c1 h1
  · exact .fail hc

theorem loc_tokensRun (hz : NoCont z) (hz' : NoCont z') : Loc a z z' (P.orBack (do P.skipRun csSipToken; P.lws)) := by
  intro c hc
  exact .orBack hc (.bind hc (.skipRun hc _ (by decide +kernel)) (fun _ c1 _ h1 => loc_lws hz hz' c1 h1))

theorem loc_tokensLoop (hz : NoCont z) (hz' : NoCont z') : Loc a z z' (P.forLoop tokensBody ()) := by
  intro c hc
  refine .loop hc (fun s c hc => ?_) (fun s c hc => ?_)
  · unfold tokensBody
    refine .peek hc ?_
    split
    · exact .ret hc _
    · split
      · exact .bind hc (loc_tokensRun hz hz' c hc) (fun _ c1 _ h1 => .ret h1 _)
      · exact .ret hc _
  · unfold tokensBody
    refine .peek ?_
    split
    · exact .ret (fun h => by obtain ⟨s', h⟩ := h; cases h)
    · rename_i b hb
      split
      · rename_i hm
        refine .first (z' := z') hc (loc_tokensRun hz hz' c hc) ?_ (fun _ c1 _ h1 => .ret h1 _)
        intro v c' e
        have hsk : P.skipRun csSipToken c = .ok (some (), c.setPos (skipWhile csSipToken.mem c.src c.pos)) := rfl
        have hlt : c.pos < skipWhile csSipToken.mem c.src c.pos := by
          unfold skipWhile
          have hd : c.src.drop c.pos = b :: c.src.drop (c.pos + 1) := by
            unfold Ctx.cur? at hb
            obtain ⟨h1, h2⟩ := List.getElem?_eq_some_iff.1 hb
            rw [List.drop_eq_getElem_cons h1, h2]
          rw [hd, runLen_eq_takeWhile, List.takeWhile_cons, hm]
          simp only [if_true, List.length_cons]; omega
        have h1 := hc.step ((LocAt.skipRun (z' := z') hc csSipToken (by decide +kernel)).step _ _ hsk) ((LocAt.skipRun (z' := z') hc csSipToken (by decide +kernel)).inside _ _ hsk)
        have hb2 : (do P.skipRun csSipToken; P.lws : P Unit) c = P.lws (c.setPos (skipWhile csSipToken.mem c.src c.pos)) := P.bind_ok hsk
        have hL := loc_lws (z' := z') hz hz' _ h1
        unfold P.orBack at e
        rw [hb2] at e
        rcases hq : P.lws (c.setPos (skipWhile csSipToken.mem c.src c.pos)) with ⟨_ | w, d⟩ | _ | _ <;> rw [hq] at e
        · cases e
        · cases e
          have := (hL.step _ _ hq).pos_le
          exact Nat.lt_of_lt_of_le hlt this
        · cases e
        · cases e
      · exact .ret (fun h => by obtain ⟨s', h⟩ := h; cases h)

theorem loc_tokens (hz : NoCont z) (hz' : NoCont z') : Loc a z z' parseTokens := by
  intro c hc
  have hL := loc_tokensLoop (z' := z') hz hz' c hc
  have he := hL.eq
  have e00 : ∀ d : Ctx, parseTokens d = (P.forLoop tokensBody () >>= fun _ => P.get >>= fun e => P.orErr (P.allocStr ((d.src.drop d.pos).take (e.pos - d.pos)))) d := fun d => rfl
  rcases hq : P.forLoop tokensBody () c with ⟨_ | v, d⟩ | _ | _ <;> rw [hq] at he
  · exact .of_eq ((e00 c).trans (P.bind_none hq)) ((e00 _).trans (P.bind_none he)) (hL.step _ _ hq) (fun v e => by cases e)
  · have h1 := hc.step (hL.step _ _ hq) (hL.inside _ _ hq)
    have ht : ((ln a z').drop c.pos).take (d.pos - c.pos) = (c.src.drop c.pos).take (d.pos - c.pos) := by
      have := h1.pos
      have hle : d.pos - c.pos ≤ (a.drop c.pos).length := by rw [List.length_drop]; omega
      rw [hc.src, ln_drop a z hc.pos, ln_drop a z' hc.pos, List.take_append_of_le_length hle, List.take_append_of_le_length hle]
    have e0 : parseTokens c = P.orErr (P.allocStr ((c.src.drop c.pos).take (d.pos - c.pos))) d := (e00 c).trans (P.bind_ok hq)
    have e1 : parseTokens (c.tail (ln a z')) = P.orErr (P.allocStr (((ln a z').drop c.pos).take (d.pos - c.pos))) (d.tail (ln a z')) := (e00 _).trans (P.bind_ok he)
    rw [ht] at e1
    have hA : LocAt a z z' (P.orErr (P.allocStr ((c.src.drop c.pos).take (d.pos - c.pos)))) d := .orErr (.allocStr h1)
    exact ⟨by rw [e0, e1]; exact hA.eq, fun r c' e => (hL.step _ _ hq).trans (hA.step _ _ (e0 ▸ e)), fun r c' e => hA.inside _ _ (e0 ▸ e)⟩
  · exact ⟨((e00 _).trans (P.bind_panic he)).trans (congrArg (mv _) ((e00 c).trans (P.bind_panic hq)).symm), fun r c' e => by (rw [show parseTokens c = .panic from (e00 c).trans (P.bind_panic hq)] at e; cases e), fun r c' e => by (rw [show parseTokens c = .panic from (e00 c).trans (P.bind_panic hq)] at e; cases e)⟩
  · exact ⟨((e00 _).trans (P.bind_hang he)).trans (congrArg (mv _) ((e00 c).trans (P.bind_hang hq)).symm), fun r c' e => by (rw [show parseTokens c = .hang from (e00 c).trans (P.bind_hang hq)] at e; cases e), fun r c' e => by (rw [show parseTokens c = .hang from (e00 c).trans (P.bind_hang hq)] at e; cases e)⟩

theorem loc_displayName (hz : NoCont z) (hz' : NoCont z') : Loc a z z' parseDisplayName := by
  intro c hc
  unfold parseDisplayName
  refine .peek hc ?_
  split
  · exact .ret hc _
  · split
    · exact .bind hc (loc_tokens hz hz' c hc) (fun v c1 _ h1 => .ret h1 _)
    · exact .bind hc (loc_quoted hz hz' c hc) (fun v c1 _ h1 => .ret h1 _)

theorem loc_displayLaquot (hz : NoCont z) (hz' : NoCont z') : Loc a z z' parseDisplayLaquot := by
  intro c hc
  unfold parseDisplayLaquot
  refine .peek hc ?_
  split
  · exact .err hc
  · rename_i b hb
    split
    · exact .bind hc (loc_displayName hz hz' c hc) (fun v c1 _ h1 => .bind h1 (loc_laquot hz hz' c1 h1) (fun _ c2 _ h2 => .ret h2 _))
    · rename_i h
      have h : b = 0x3c := by simpa using h
      exact .bind hc (.skip1 hc hb (by rw [h]; decide)) (fun _ c1 _ h1 => .ret h1 _)

theorem loc_nameAddr (net : Net) (hz : NoCont z) (hz' : NoCont z') (hcl : Closed a) : Loc a z z' (parseNameAddr net) := by
  intro c hc
  unfold parseNameAddr
  exact .bind hc (loc_sws hz hz' c hc) (fun _ c1 _ h1 => .bind h1 (loc_displayLaquot hz hz' c1 h1) (fun d c2 _ h2 => .bind h2 (loc_addrScheme hz c2 h2) (fun t c3 _ h3 =>
    .bind h3 (loc_uriAfterScheme net hz hcl _ t c3 h3) (fun u c4 _ h4 => .bind h4 (loc_raquot hz hz' c4 h4) (fun _ c5 _ h5 => .ret h5 _)))))

theorem loc_addr (net : Net) (hz : NoCont z) (hz' : NoCont z') (hcl : Closed a) (params : Bool) : Loc a z z' (parseAddr net params) := by
  intro c hc
  unfold parseAddr
  refine .peek hc ?_
  split
  · exact .err hc
  · split
    · exact loc_nameAddr net hz hz' hcl c hc
    · refine .bind hc (.orElse hc (.bind hc (loc_addrScheme hz c hc) (fun t c1 _ h1 => .ret h1 _)) (fun d hd => .ret hd _)) (fun t c1 _ h1 => ?_)
      unfold parseAddrSpecOrName
      split
      · exact loc_nameAddr net hz hz' hcl c1 h1
      · exact .bind h1 (loc_uriAfterScheme net hz hcl _ _ c1 h1) (fun u c2 _ h2 => .ret h2 _)

theorem loc_addrSpec (net : Net) (hz : NoCont z) (hcl : Closed a) : Loc a z z' (parseAddrSpec net) := by
  intro c hc
  unfold parseAddrSpec
  exact .bind hc (loc_addrScheme hz c hc) (fun t c1 _ h1 => .bind h1 (loc_uriAfterScheme net hz hcl _ t c1 h1) (fun u c2 _ h2 => .ret h2 _))

/-! ## Header values -/

theorem loc_addrParams (net : Net) (hz : NoCont z) (hz' : NoCont z') (hcl : Closed a) (k : HKind) : Loc a z z' (parseAddrParams net k) := by
  intro c hc
  unfold parseAddrParams
  exact .bind hc (.orErr (loc_addr net hz hz' hcl _ c hc)) (fun t c1 _ h1 => .bind h1 (loc_params hz hz' hcl _ _ c1 h1) (fun u c2 _ h2 => .ret h2 _))
theorem loc_routeParams (net : Net) (hz : NoCont z) (hz' : NoCont z') (hcl : Closed a) (k : HKind) : Loc a z z' (parseRouteParams net k) := by
  intro c hc
  unfold parseRouteParams
  exact .bind hc (.orErr (loc_nameAddr net hz hz' hcl c hc)) (fun t c1 _ h1 => .bind h1 (loc_params hz hz' hcl _ _ c1 h1) (fun u c2 _ h2 => .ret h2 _))
theorem loc_contact (net : Net) (hz : NoCont z) (hz' : NoCont z') (hcl : Closed a) : Loc a z z' (parseContact net) := by
  intro c hc
  unfold parseContact
  refine .bind hc (loc_sws hz hz' c hc) (fun _ c1 _ h1 => .peek h1 ?_)
  split
  · exact .err h1
  · rename_i b hb
    split
    · rename_i h
      rw [h] at hb
      exact .bind h1 (.skip1 h1 hb (by decide)) (fun _ c2 _ h2 => .bind h2 (loc_sws hz hz' c2 h2) (fun _ c3 _ h3 => .ret h3 _))
    · exact loc_addrParams net hz hz' hcl _ c1 h1

theorem loc_otherProtocol (hz : NoCont z) (hz' : NoCont z') : Loc a z z' parseOtherProtocol := by
  intro c hc
  unfold parseOtherProtocol
  exact .bind hc (.orErr (.alloc hc)) (fun _ c1 _ h1 => .bind h1 (.orErr (loc_str hz _ (by decide +kernel) c1 h1)) (fun n c2 _ h2 => .bind h2 (.orErr (loc_mark hz hz' _ (by decide) c2 h2)) (fun _ c3 _ h3 =>
    .bind h3 (.orErr (loc_str hz _ (by decide +kernel) c3 h3)) (fun v c4 _ h4 => .bind h4 (.orErr (loc_mark hz hz' _ (by decide) c4 h4)) (fun _ c5 _ h5 => .ret h5 _)))))
theorem loc_sentProtocol (hz : NoCont z) (hz' : NoCont z') : Loc a z z' parseSentProtocol := by
  intro c hc
  obtain ⟨g1, g2⟩ := isSip20_ln (a.drop c.pos) z z'
  rw [← hc.rest, ← hc.rest' z'] at g1
  rw [← hc.rest, hc.left] at g2
  have hp := hc.pos
  unfold parseSentProtocol
  refine .get (by rw [← g1]) ?_
  split
  · rename_i h
    have := g2 h
    exact .bind hc (.skipN hc (by omega)) (fun _ c1 _ h1 => .bind h1 (.orErr (loc_mark hz hz' _ (by decide) c1 h1)) (fun _ c2 _ h2 => .ret h2 _))
  · exact loc_otherProtocol hz hz' c hc

theorem loc_via (net : Net) (hz : NoCont z) (hz' : NoCont z') (hcl : Closed a) : Loc a z z' (parseVia net) := by
  intro c hc
  unfold parseVia
  exact .bind hc (.orErr (loc_sentProtocol hz hz' c hc)) (fun _ c1 _ h1 => .bind h1 (.orErr (loc_str hz _ (by decide +kernel) c1 h1)) (fun n c2 _ h2 => .bind h2 (.orErr (loc_lws hz hz' c2 h2)) (fun _ c3 _ h3 =>
    .bind h3 (.orErr (loc_hostPort net hz hcl c3 h3)) (fun v c4 _ h4 => .bind h4 (loc_params hz hz' hcl _ _ c4 h4) (fun _ c5 _ h5 => .ret h5 _)))))

theorem loc_callId (hz : NoCont z) : Loc a z z' parseCallId := by
  intro c hc
  unfold parseCallId
  refine .bind hc (.orErr (loc_str hz _ (by decide +kernel) c hc)) (fun n c1 _ h1 => .peek h1 ?_)
  split
  · exact .ret h1 _
  · rename_i b hb
    split
    · rename_i h
      rw [h] at hb
      exact .bind h1 (.skip1 h1 hb (by decide)) (fun _ c2 _ h2 => .bind h2 (.orErr (loc_str hz _ (by decide +kernel) c2 h2)) (fun _ c3 _ h3 => .ret h3 _))
    · exact .ret h1 _

theorem loc_cseq (hz : NoCont z) (hz' : NoCont z') : Loc a z z' parseCSeq := by
  intro c hc
  unfold parseCSeq
  exact .bind hc (loc_uint hz c hc) (fun n c1 _ h1 => .bind h1 (.orErr (loc_lws hz hz' c1 h1)) (fun _ c2 _ h2 => .bind h2 (.orErr (loc_method c2 h2)) (fun _ c3 _ h3 => .ret h3 _)))
theorem loc_rack (hz : NoCont z) (hz' : NoCont z') : Loc a z z' parseRAck := by
  intro c hc
  unfold parseRAck
  exact .bind hc (loc_uint hz c hc) (fun n c1 _ h1 => .bind h1 (.orErr (loc_lws hz hz' c1 h1)) (fun _ c2 _ h2 => .bind h2 (loc_uint hz c2 h2) (fun n c3 _ h3 => .bind h3 (.orErr (loc_lws hz hz' c3 h3)) (fun _ c4 _ h4 =>
    .bind h4 (.orErr (loc_method c4 h4)) (fun _ c5 _ h5 => .ret h5 _)))))
theorem loc_num (hz : NoCont z) (n : Nat) : Loc a z z' (parseNum n) := by
  intro c hc
  unfold parseNum
  exact .bind hc (loc_uint hz c hc) (fun n c1 _ h1 => .ret h1 _)
theorem loc_contentType (hz : NoCont z) (hz' : NoCont z') (hcl : Closed a) : Loc a z z' parseContentType := by
  intro c hc
  unfold parseContentType
  exact .bind hc (.orErr (loc_str hz _ (by decide +kernel) c hc)) (fun n c2 _ h2 => .bind h2 (.orErr (loc_mark hz hz' _ (by decide) c2 h2)) (fun _ c3 _ h3 =>
    .bind h3 (.orErr (loc_str hz _ (by decide +kernel) c3 h3)) (fun v c4 _ h4 => .bind h4 (loc_params hz hz' hcl _ _ c4 h4) (fun _ c5 _ h5 => .ret h5 _))))
theorem loc_contentDisposition (hz : NoCont z) (hz' : NoCont z') (hcl : Closed a) : Loc a z z' parseContentDisposition := by
  intro c hc
  unfold parseContentDisposition
  exact .bind hc (.orErr (loc_str hz _ (by decide +kernel) c hc)) (fun n c2 _ h2 => .bind h2 (loc_params hz hz' hcl _ _ c2 h2) (fun _ c5 _ h5 => .ret h5 _))

theorem loc_value (net : Net) (hz : NoCont z) (hz' : NoCont z') (hcl : Closed a) (k : HKind) : Loc a z z' (k.parseValue net) := by
  cases k <;> unfold HKind.parseValue
  case to => exact loc_addrParams net hz hz' hcl _
  case «from» => exact loc_addrParams net hz hz' hcl _
  case contact => exact loc_contact net hz hz' hcl
  case route => exact loc_routeParams net hz hz' hcl _
  case recordRoute => exact loc_routeParams net hz hz' hcl _
  case path => exact loc_routeParams net hz hz' hcl _
  case serviceRoute => exact loc_routeParams net hz hz' hcl _
  case pAssertedIdentity =>
    intro c hc
    unfold parseIdentity
    exact .bind hc (.orErr (loc_addr net hz hz' hcl _ c hc)) (fun t c1 _ h1 => .ret h1 _)
  case via => exact loc_via net hz hz' hcl
  case callId => exact loc_callId hz
  case cseq => exact loc_cseq hz hz'
  case rack => exact loc_rack hz hz'
  case contentType => exact loc_contentType hz hz' hcl
  case contentDisposition => exact loc_contentDisposition hz hz' hcl
  all_goals exact loc_num hz _

theorem loc_alloc (net : Net) (hz : NoCont z) (hz' : NoCont z') (hcl : Closed a) (k : HKind) : Loc a z z' (k.parseAlloc net) := by
  intro c hc
  unfold HKind.parseAlloc
  exact .bind hc (.orErr (.alloc hc)) (fun _ c1 _ h1 => loc_value net hz hz' hcl k c1 h1)

theorem loc_header (net : Net) (hz : NoCont z) (hz' : NoCont z') (hcl : Closed a) (k : HKind) : Loc a z z' (k.parse net) := by
  intro c hc
  unfold HKind.parse
  exact .bind hc (.orErr (loc_parseName hz k c hc)) (fun _ c1 _ h1 => .bind h1 (.orErr (loc_hcolon hz hz' c1 h1)) (fun _ c2 _ h2 => loc_value net hz hz' hcl k c2 h2))

end
end Sip
