import Verif.Lemmas.ShiftName
import Verif.Lemmas.LocAddr
/-! # What was read and stored before does not matter: parameters, URIs, addresses, header values -/
namespace Sip
section
variable {o : Past} {c : Ctx} {α β : Type}

/-! ## Loops -/

theorem ShAt.loop {σ ρ : Type} {body : σ → P (σ ⊕ ρ)} {s : σ} (hc : Inv c) (hb : ∀ s, Sh o (body s))
    (he : ∀ s c, Inv c → EatsOn Goes (body s) c) : ShAt o (P.forLoop body s) c :=
  Sh.forLoop hb (fun s c s' c' h e => he s c h _ _ e ⟨s', rfl⟩) c hc

theorem EatsOn.sthen {T : β → Prop} {p : P α} {f : α → P β} (hp : ShAt o p c)
    (hf : ∀ v c', p c = .ok (some v, c') → Inv c' → EatsOn T (f v) c') : EatsOn T (p >>= f) c := by
  intro w c' e hT
  rcases hpc : p c with ⟨_ | v, c1⟩ | _ | _
  · rw [P.bind_none hpc] at e; cases e
  · rw [P.bind_ok hpc] at e
    have st := hp.step _ _ hpc
    have := hf v c1 hpc st.inv w c' e hT
    have := st.pos_le
    omega
  · rw [P.bind_panic hpc] at e; cases e
  · rw [P.bind_hang hpc] at e; cases e
theorem EatsOn.sfirst {T : β → Prop} {p : P α} {f : α → P β} (hp : ShAt o p c) (he : EatsAt p c)
    (hf : ∀ v c', p c = .ok (some v, c') → Inv c' → ShAt o (f v) c') : EatsOn T (p >>= f) c := by
  intro w c' e hT
  rcases hpc : p c with ⟨_ | v, c1⟩ | _ | _
  · rw [P.bind_none hpc] at e; cases e
  · rw [P.bind_ok hpc] at e
    have st := hp.step _ _ hpc
    have := he _ _ hpc
    have := ((hf v c1 hpc st.inv).step _ _ e).pos_le
    omega
  · rw [P.bind_panic hpc] at e; cases e
  · rw [P.bind_hang hpc] at e; cases e

theorem ShAt.skipRun (hc : Inv c) (s : CS) : ShAt o (P.skipRun s) c := by
  refine .of_eq (r := some ()) (c' := c.setPos (skipWhile s.mem c.src c.pos)) rfl ?_ (Step.setPos hc (Nat.le_add_right _ _) (skipWhile_le _ _ _ hc.pos))
  unfold P.skipRun; rw [c.sh_src, c.sh_pos, sh_skipWhile]; rfl

/-! ## Header parameters -/

theorem sh_genericValue : Sh o GenericParam.parseValue := by
  intro c hc
  unfold GenericParam.parseValue
  refine .peek ?_
  split
  · exact Sh.err _ hc
  · rename_i v hv
    split
    · exact .bind (sh_str _ (by decide +kernel) c hc) (fun _ c1 _ h1 => Sh.ret _ _ h1)
    · split
      · exact .bind (sh_quoted c hc) (fun _ c1 _ h1 => Sh.ret _ _ h1)
      · split
        · rename_i h
          rw [h] at hv
          exact .bind (sh_bracket _ hc) (fun _ c1 _ h1 => Sh.ret _ _ h1)
        · exact Sh.err _ hc

theorem sh_genericParam : Sh o GenericParam.parse := by
  intro c hc
  unfold GenericParam.parse
  refine .bind (.orErr (sh_strEsc _ (by decide +kernel) c hc)) (fun n c1 _ h1 => .peek ?_)
  split
  · exact Sh.ret _ _ h1
  · split
    · exact Sh.ret _ _ h1
    · refine .bind (sh_markCanOmmit _ (by decide) c1 h1) (fun m c2 _ h2 => ?_)
      split
      · exact Sh.ret _ _ h2
      · exact .bind (sh_genericValue c2 h2) (fun v c3 _ h3 => Sh.ret _ _ h3)

theorem sh_genericParams {κ : Type} (sep : UInt8) (hm : sep ≠ 0x0d) (setK : κ → GenericParam → P (Option κ))
    (hk : ∀ k p, Sh o (setK k p)) (k : κ) : Sh o (parseGenericParams sep setK k) := by
  intro c hc
  have hrest : ∀ (k : κ) (acc : List GenericParam) (c : Ctx), Inv c → ShAt o (do
      P.orErr (P.alloc 8)
      let p ← GenericParam.parse
      let r ← setK k p
      match r with
      | some k' => pure (.inl (k', acc))
      | none => pure (.inl (k, acc ++ [p])) : P ((κ × List GenericParam) ⊕ (κ × List GenericParam))) c := by
    intro k acc c hc
    refine .bind (.orErr (Sh.alloc _ hc)) (fun _ c1 _ h1 => .bind (sh_genericParam c1 h1) (fun p c2 _ h2 => .bind (hk k p c2 h2) (fun r c3 _ h3 => ?_)))
    split <;> exact Sh.ret _ _ h3
  refine .loop hc (fun s c hc => ?_) (fun s c hc => ?_)
  · unfold genericParamsBody
    refine .get ?_ ?_
    · simp only [c.sh_cur, c.sh_src, c.sh_pos, isOnlyCRLF_sh]
    · split
      · exact Sh.ret _ _ hc
      · split
        · exact Sh.ret _ _ hc
        · split
          · exact Sh.ret _ _ hc
          · refine .bind (sh_nextParamMark sep hm c hc) (fun m c1 _ h1 => ?_)
            split
            · exact Sh.ret _ _ h1
            · exact hrest _ _ c1 h1
  · unfold genericParamsBody
    refine .get ?_
    split
    · exact .ret (fun h => by obtain ⟨s', h⟩ := h; cases h)
    · split
      · exact .ret (fun h => by obtain ⟨s', h⟩ := h; cases h)
      · split
        · exact .ret (fun h => by obtain ⟨s', h⟩ := h; cases h)
        · intro w c' e hT
          have hL := sh_nextParamMark (o := o) sep hm c hc
          have hE := (safe_nextParamMark sep hm c hc).2
          rcases hpc : nextParamMark sep c with ⟨_ | v, c1⟩ | _ | _
          · rw [P.bind_none hpc] at e; cases e
          · rw [P.bind_ok hpc] at e
            have h1 := (hL.step _ _ hpc).inv
            cases v with
            | false => cases e; obtain ⟨s', h⟩ := hT; cases h
            | true =>
              have := hE _ _ hpc rfl
              have := ((hrest _ _ c1 h1).step _ _ e).pos_le
              omega
          · rw [P.bind_panic hpc] at e; cases e
          · rw [P.bind_hang hpc] at e; cases e

theorem sh_setKnown (names : List Bytes) (on : Bool) (known : List (Option α)) (name : Bytes) (p : α) : Sh o (setKnown names on known name p) := by
  intro c hc
  unfold setKnown
  split
  · exact Sh.ret _ _ hc
  · split
    · exact Sh.ret _ _ hc
    · split
      · exact .bind (Sh.allocMust _ hc) (fun _ c1 _ h1 => Sh.ret _ _ h1)
      · exact Sh.ret _ _ hc

theorem sh_params (names : List Bytes) (flag : Flags → Bool) : Sh o (Params.parse names flag) := by
  intro c hc
  unfold Params.parse
  refine .bind (.orErr (sh_genericParams _ (by decide) _ (fun k p c hc => ?_) _ c hc)) (fun v c1 _ h1 => Sh.ret _ _ h1)
  unfold setKnownGeneric
  exact .get rfl (sh_setKnown _ _ _ _ _ c hc)

/-! ## URIs -/

theorem sh_uriParam (cs : CharsetInfo) (h1 : cs.name.mem 0x0d = false) (h2 : cs.value.mem 0x0d = false) : Sh o (UriParam.parse cs) := by
  intro c hc
  unfold UriParam.parse
  refine .bind (.orErr (sh_strEsc _ h1 c hc)) (fun n c1 _ h1 => .peek ?_)
  split
  · rename_i hb
    exact .bind (.skip1 h1 hb) (fun _ c2 _ h2' => .bind (.orErr (sh_strEsc _ h2 c2 h2')) (fun v c3 _ h3 => Sh.ret _ _ h3))
  · exact Sh.ret _ _ h1

theorem sh_uriParams {κ : Type} (cs : CharsetInfo) (h1 : cs.name.mem 0x0d = false) (h2 : cs.value.mem 0x0d = false) (setK : κ → UriParam → P (Option κ))
    (hk : ∀ k p, Sh o (setK k p)) (k : κ) : Sh o (parseUriParams cs setK k) := by
  intro c hc
  unfold parseUriParams
  refine .peek ?_
  split
  · exact Sh.err _ hc
  · refine .loop hc (fun s c hc => ?_) (fun s c hc => ?_)
    · unfold uriParamsBody
      refine .peek ?_
      split
      · exact Sh.ret _ _ hc
      · refine .bind (.orErr (Sh.alloc _ hc)) (fun _ c1 _ g1 => .bind (sh_uriParam cs h1 h2 c1 g1) (fun p c2 _ g2 => .bind (hk _ p c2 g2) (fun r c3 _ g3 => .peek ?_)))
        split
        · rename_i hb; exact .bind (.skip1 g3 hb) (fun _ c4 _ g4 => Sh.ret _ _ g4)
        · exact Sh.ret _ _ g3
    · unfold uriParamsBody
      refine .peek ?_
      split
      · exact .ret (fun h => by obtain ⟨s', h⟩ := h; cases h)
      · refine .sthen (o := o) (.orErr (Sh.alloc _ hc)) (fun _ c1 _ g1 => .sthen (o := o) (sh_uriParam cs h1 h2 c1 g1) (fun p c2 _ g2 => .sthen (o := o) (hk _ p c2 g2) (fun r c3 _ g3 => .peek ?_)))
        split
        · exact .skipPure
        · exact .ret (fun h => by obtain ⟨s', h⟩ := h; cases h)

theorem sh_uriHeader (cs : CharsetInfo) (h1 : cs.name.mem 0x0d = false) (h2 : cs.value.mem 0x0d = false) : Sh o (UriHeader.parse cs) := by
  intro c hc
  unfold UriHeader.parse
  refine .bind (.orErr (sh_strEsc _ h1 c hc)) (fun n c1 _ h1 => .peek ?_)
  split
  · exact Sh.err _ h1
  · rename_i hb
    refine .bind (.skip1 (b := 0x3d) h1 (by simpa using hb)) (fun _ c2 _ h2' => .peek ?_)
    split
    · exact Sh.ret _ _ h2'
    · exact .bind (.orErr (sh_strEscEmpty _ h2 c2 h2')) (fun v c3 _ h3 => Sh.ret _ _ h3)

theorem sh_uriHeaders (cs : CharsetInfo) (h1 : cs.name.mem 0x0d = false) (h2 : cs.value.mem 0x0d = false) : Sh o (parseUriHeaders cs) := by
  intro c hc
  unfold parseUriHeaders
  refine .peek ?_
  split
  · exact Sh.err _ hc
  · refine .loop hc (fun s c hc => ?_) (fun s c hc => ?_)
    · unfold uriHeadersBody
      refine .peek ?_
      split
      · exact Sh.ret _ _ hc
      · refine .bind (.orErr (Sh.alloc _ hc)) (fun _ c1 _ g1 => .bind (sh_uriHeader cs h1 h2 c1 g1) (fun p c2 _ g2 => .peek ?_))
        split
        · rename_i hb; exact .bind (.skip1 g2 hb) (fun _ c4 _ g4 => Sh.ret _ _ g4)
        · exact Sh.ret _ _ g2
    · unfold uriHeadersBody
      refine .peek ?_
      split
      · exact .ret (fun h => by obtain ⟨s', h⟩ := h; cases h)
      · refine .sthen (o := o) (.orErr (Sh.alloc _ hc)) (fun _ c1 _ g1 => .sthen (o := o) (sh_uriHeader cs h1 h2 c1 g1) (fun p c2 _ g2 => .peek ?_))
        split
        · exact .skipPure
        · exact .ret (fun h => by obtain ⟨s', h⟩ := h; cases h)

theorem sh_password : Sh o SipUri.parsePassword := by
  intro c hc
  unfold SipUri.parsePassword
  refine .byteAt (fun b hb => ?_)
  split
  · rename_i h
    rw [h] at hb
    refine .bind (.skip1 hc hb) (fun _ c1 _ h1 => .peek ?_)
    split
    · exact Sh.err _ h1
    · exact .bind (.orErr (sh_strEscEmpty _ (by decide +kernel) c1 h1)) (fun v c2 _ h2 => Sh.ret _ _ h2)
  · exact Sh.ret _ _ hc

theorem sh_userinfo : Sh o SipUri.parseUserinfo := by
  intro c hc
  unfold SipUri.parseUserinfo
  refine .get ?_ ?_
  · rw [c.sh_rest]
  · split
    · refine .bind (.orErr (sh_strEsc _ (by decide +kernel) c hc)) (fun u c1 _ h1 => .peek ?_)
      split
      · exact Sh.err _ h1
      · refine .bind (.orErr (sh_password c1 h1)) (fun p c2 _ h2 => .peek ?_)
        split
        · exact Sh.err _ h2
        · rename_i hb
          exact .bind (.skip1 (b := 0x40) h2 (by simpa using hb)) (fun _ c3 _ h3 => Sh.ret _ _ h3)
    · exact Sh.ret _ _ hc

theorem sh_sipParams : Sh o SipUri.parseParams := by
  intro c hc
  unfold SipUri.parseParams
  refine .peek ?_
  split
  · rename_i hb
    refine .bind (.skip1 hc hb) (fun _ c1 _ h1 => .orErr (sh_uriParams _ (by decide +kernel) (by decide +kernel) _ (fun k p c hc => ?_) _ c1 h1))
    unfold SipUri.setKnown
    exact .get rfl (sh_setKnown _ _ _ _ _ c hc)
  · exact Sh.ret _ _ hc

theorem sh_sipHeaders : Sh o SipUri.parseHeaders := by
  intro c hc
  unfold SipUri.parseHeaders
  refine .peek ?_
  split
  · rename_i hb
    exact .bind (.skip1 hc hb) (fun _ c1 _ h1 => .orErr (sh_uriHeaders _ (by decide +kernel) (by decide +kernel) c1 h1))
  · exact Sh.ret _ _ hc

theorem sh_sipAfterScheme (net : Net) (sec : Bool) : Sh o (SipUri.parseAfterScheme net sec) := by
  intro c hc
  unfold SipUri.parseAfterScheme
  refine .bind (.orErr (sh_userinfo c hc)) (fun u c1 _ h1 => .bind (.orErr (sh_hostPort net c1 h1)) (fun hp c2 _ h2 =>
    .bind (sh_sipParams c2 h2) (fun ps c3 _ h3 => .bind (sh_sipHeaders c3 h3) (fun hs c4 _ h4 => Sh.ret _ _ h4))))

theorem sh_sipPlain (net : Net) (sec : Bool) : Sh o (SipUri.parseAfterSchemeWithoutParam net sec) := by
  intro c hc
  unfold SipUri.parseAfterSchemeWithoutParam
  refine .bind (sh_userinfo c hc) (fun u c1 _ h1 => .bind (.orErr (sh_hostPort net c1 h1)) (fun hp c2 _ h2 => Sh.ret _ _ h2))

theorem sh_sipUri (net : Net) : Sh o (SipUri.parse net) := by
  intro c hc
  unfold SipUri.parse
  exact .bind (sh_sipScheme c hc) (fun s c1 _ h1 => sh_sipAfterScheme net s c1 h1)

theorem sh_telNum : Sh o TelUri.parseNumber := by
  intro c hc
  unfold TelUri.parseNumber
  refine .peek ?_
  split
  · exact Sh.err _ hc
  · split
    · exact .bind (.orErr (sh_telNumber _ (by decide +kernel) c hc)) (fun v c1 _ h1 => Sh.ret _ _ h1)
    · exact .bind (.orErr (sh_telNumber _ (by decide +kernel) c hc)) (fun v c1 _ h1 => Sh.ret _ _ h1)

theorem sh_telSetKnown (k : TelKnown) (p : UriParam) : Sh o (TelUri.setKnown k p) := by
  intro c hc
  unfold TelUri.setKnown
  split
  · split
    · exact Sh.panic _ hc
    · split
      · exact Sh.panic _ hc
      · exact Sh.ret _ _ hc
  · refine .get rfl (.bind (sh_setKnown _ _ _ _ _ c hc) (fun r c1 _ h1 => ?_))
    split <;> exact Sh.ret _ _ h1

theorem sh_telAfterScheme : Sh o TelUri.parseAfterScheme := by
  intro c hc
  unfold TelUri.parseAfterScheme
  refine .bind (.orErr (sh_telNum c hc)) (fun n c1 _ h1 => .peek ?_)
  split
  · rename_i hb
    exact .bind (.skip1 h1 hb) (fun _ c2 _ h2 => .bind (.orErr (sh_uriParams _ (by decide +kernel) (by decide +kernel) _ sh_telSetKnown _ c2 h2)) (fun r c3 _ h3 => Sh.ret _ _ h3))
  · exact Sh.ret _ _ h1

theorem sh_telPlain : Sh o TelUri.parseAfterSchemeWithoutParam := by
  intro c hc
  unfold TelUri.parseAfterSchemeWithoutParam
  exact .bind (sh_telNum c hc) (fun n c1 _ h1 => Sh.ret _ _ h1)

theorem sh_telUri : Sh o TelUri.parse := by
  intro c hc
  unfold TelUri.parse
  exact .bind (sh_telScheme c hc) (fun _ c1 _ h1 => sh_telAfterScheme c1 h1)

/-! ## Addresses -/

theorem sh_uriAfterScheme (net : Net) (params : Bool) (t : UriType) : Sh o (parseUriAfterScheme net params t) := by
  intro c hc
  cases t <;> unfold parseUriAfterScheme
  · exact Sh.fail _ hc
  · refine .bind (.orErr (Sh.alloc _ hc)) (fun _ c1 _ h1 => .bind ?_ (fun u c2 _ h2 => Sh.ret _ _ h2))
    split
    · exact sh_sipAfterScheme net _ c1 h1
    · exact sh_sipPlain net _ c1 h1
  · refine .bind (.orErr (Sh.alloc _ hc)) (fun _ c1 _ h1 => .bind ?_ (fun u c2 _ h2 => Sh.ret _ _ h2))
    split
    · exact sh_sipAfterScheme net _ c1 h1
    · exact sh_sipPlain net _ c1 h1
  · refine .bind (.orErr (Sh.alloc _ hc)) (fun _ c1 _ h1 => .bind ?_ (fun u c2 _ h2 => Sh.ret _ _ h2))
    split
    · exact sh_telAfterScheme c1 h1
    · exact sh_telPlain c1 h1
  · exact Sh.fail _ hc

theorem sh_tokensRun : Sh o (P.orBack (do P.skipRun csSipToken; P.lws)) :=
  .orBack (.bind (fun _ hc => .skipRun hc _) (fun _ => sh_lws))

theorem sh_tokensLoop : Sh o (P.forLoop tokensBody ()) := by
  intro c hc
  refine .loop hc (fun s c hc => ?_) (fun s c hc => ?_)
  · unfold tokensBody
    refine .peek ?_
    split
    · exact Sh.ret _ _ hc
    · split
      · exact .bind (sh_tokensRun c hc) (fun _ c1 _ h1 => Sh.ret _ _ h1)
      · exact Sh.ret _ _ hc
  · unfold tokensBody
    refine .peek ?_
    split
    · exact .ret (fun h => by obtain ⟨s', h⟩ := h; cases h)
    · rename_i b hb
      split
      · rename_i hm
        refine .sfirst (o := o) (sh_tokensRun c hc) ?_ (fun _ c1 _ h1 => Sh.ret _ _ h1)
        intro v c' e
        have hsk : P.skipRun csSipToken c = .ok (some (), c.setPos (skipWhile csSipToken.mem c.src c.pos)) := rfl
        have hlt : c.pos < skipWhile csSipToken.mem c.src c.pos := by
          unfold skipWhile
          have hd : c.src.drop c.pos = b :: c.src.drop (c.pos + 1) := by
            unfold Ctx.cur? at hb
            obtain ⟨h1, h2⟩ := List.getElem?_eq_some_iff.1 hb
            rw [List.drop_eq_getElem_cons h1, h2]
          rw [hd, runLen_eq_takeWhile, List.takeWhile_cons, hm]
          simp only [if_true, List.length_cons]; omega
        have h1 := ((ShAt.skipRun (o := o) hc csSipToken).step _ _ hsk).inv
        have hb2 : (do P.skipRun csSipToken; P.lws : P Unit) c = P.lws (c.setPos (skipWhile csSipToken.mem c.src c.pos)) := P.bind_ok hsk
        have hL := sh_lws (o := o) _ h1
        unfold P.orBack at e
        rw [hb2] at e
        rcases hq : P.lws (c.setPos (skipWhile csSipToken.mem c.src c.pos)) with ⟨_ | w, d⟩ | _ | _ <;> rw [hq] at e
        · cases e
        · cases e
          have := (hL.step _ _ hq).pos_le
          exact Nat.lt_of_lt_of_le hlt this
        · cases e
        · cases e
      · exact .ret (fun h => by obtain ⟨s', h⟩ := h; cases h)

theorem sh_tokens : Sh o parseTokens := by
  intro c hc
  have hL := sh_tokensLoop (o := o) c hc
  have he := hL.eq
  have e00 : ∀ d : Ctx, parseTokens d = (P.forLoop tokensBody () >>= fun _ => P.get >>= fun e => P.orErr (P.allocStr ((d.src.drop d.pos).take (e.pos - d.pos)))) d := fun d => rfl
  rcases hq : P.forLoop tokensBody () c with ⟨_ | v, d⟩ | _ | _ <;> rw [hq] at he
  · exact .of_eq ((e00 c).trans (P.bind_none hq)) ((e00 _).trans (P.bind_none he)) (hL.step _ _ hq)
  · have st := hL.step _ _ hq
    have e0 : parseTokens c = P.orErr (P.allocStr ((c.src.drop c.pos).take (d.pos - c.pos))) d := (e00 c).trans (P.bind_ok hq)
    have e1 : parseTokens (c.sh o) = P.orErr (P.allocStr (((o.read ++ c.src).drop (o.read.length + c.pos)).take (o.read.length + d.pos - (o.read.length + c.pos)))) (d.sh o) := (e00 _).trans (P.bind_ok he)
    rw [sh_drop, Nat.add_sub_add_left] at e1
    have hA : ShAt o (P.orErr (P.allocStr ((c.src.drop c.pos).take (d.pos - c.pos)))) d := .orErr (Sh.allocStr _ st.inv)
    exact ⟨by rw [e0, e1]; exact hA.eq, fun r c' e => st.trans (hA.step _ _ (e0 ▸ e))⟩
  · exact .of_panic ((e00 _).trans (P.bind_panic hq)) ((e00 _).trans (P.bind_panic he))
  · exact .of_hang ((e00 _).trans (P.bind_hang hq)) ((e00 _).trans (P.bind_hang he))

theorem sh_displayName : Sh o parseDisplayName := by
  intro c hc
  unfold parseDisplayName
  refine .peek ?_
  split
  · exact Sh.ret _ _ hc
  · split
    · exact .bind (sh_tokens c hc) (fun v c1 _ h1 => Sh.ret _ _ h1)
    · exact .bind (sh_quoted c hc) (fun v c1 _ h1 => Sh.ret _ _ h1)

theorem sh_displayLaquot : Sh o parseDisplayLaquot := by
  intro c hc
  unfold parseDisplayLaquot
  refine .peek ?_
  split
  · exact Sh.err _ hc
  · rename_i b hb
    split
    · exact .bind (sh_displayName c hc) (fun v c1 _ h1 => .bind (sh_laquot c1 h1) (fun _ c2 _ h2 => Sh.ret _ _ h2))
    · rename_i h
      have h : b = 0x3c := by simpa using h
      exact .bind (.skip1 hc hb) (fun _ c1 _ h1 => Sh.ret _ _ h1)

theorem sh_nameAddr (net : Net) : Sh o (parseNameAddr net) := by
  intro c hc
  unfold parseNameAddr
  exact .bind (sh_sws c hc) (fun _ c1 _ h1 => .bind (sh_displayLaquot c1 h1) (fun d c2 _ h2 => .bind (sh_addrScheme c2 h2) (fun t c3 _ h3 =>
    .bind (sh_uriAfterScheme net _ t c3 h3) (fun u c4 _ h4 => .bind (sh_raquot c4 h4) (fun _ c5 _ h5 => Sh.ret _ _ h5)))))

theorem sh_addr (net : Net) (params : Bool) : Sh o (parseAddr net params) := by
  intro c hc
  unfold parseAddr
  refine .peek ?_
  split
  · exact Sh.err _ hc
  · split
    · exact sh_nameAddr net c hc
    · refine .bind (Sh.orElse (.bind sh_addrScheme (fun t => .ret _)) (.ret _) c hc) (fun t c1 _ h1 => ?_)
      unfold parseAddrSpecOrName
      split
      · exact sh_nameAddr net c1 h1
      · exact .bind (sh_uriAfterScheme net _ _ c1 h1) (fun u c2 _ h2 => Sh.ret _ _ h2)

theorem sh_addrSpec (net : Net) : Sh o (parseAddrSpec net) := by
  intro c hc
  unfold parseAddrSpec
  exact .bind (sh_addrScheme c hc) (fun t c1 _ h1 => .bind (sh_uriAfterScheme net _ t c1 h1) (fun u c2 _ h2 => Sh.ret _ _ h2))

/-! ## Header values -/

theorem sh_addrParams (net : Net) (k : HKind) : Sh o (parseAddrParams net k) := by
  intro c hc
  unfold parseAddrParams
  exact .bind (.orErr (sh_addr net _ c hc)) (fun t c1 _ h1 => .bind (sh_params _ _ c1 h1) (fun u c2 _ h2 => Sh.ret _ _ h2))
theorem sh_routeParams (net : Net) (k : HKind) : Sh o (parseRouteParams net k) := by
  intro c hc
  unfold parseRouteParams
  exact .bind (.orErr (sh_nameAddr net c hc)) (fun t c1 _ h1 => .bind (sh_params _ _ c1 h1) (fun u c2 _ h2 => Sh.ret _ _ h2))
theorem sh_contact (net : Net) : Sh o (parseContact net) := by
  intro c hc
  unfold parseContact
  refine .bind (sh_sws c hc) (fun _ c1 _ h1 => .peek ?_)
  split
  · exact Sh.err _ h1
  · rename_i b hb
    split
    · rename_i h
      rw [h] at hb
      exact .bind (.skip1 h1 hb) (fun _ c2 _ h2 => .bind (sh_sws c2 h2) (fun _ c3 _ h3 => Sh.ret _ _ h3))
    · exact sh_addrParams net _ c1 h1

theorem sh_otherProtocol : Sh o parseOtherProtocol := by
  intro c hc
  unfold parseOtherProtocol
  exact .bind (.orErr (Sh.alloc _ hc)) (fun _ c1 _ h1 => .bind (.orErr (sh_str _ (by decide +kernel) c1 h1)) (fun n c2 _ h2 => .bind (.orErr (sh_mark _ (by decide) c2 h2)) (fun _ c3 _ h3 =>
    .bind (.orErr (sh_str _ (by decide +kernel) c3 h3)) (fun v c4 _ h4 => .bind (.orErr (sh_mark _ (by decide) c4 h4)) (fun _ c5 _ h5 => Sh.ret _ _ h5)))))
theorem isSip20_len {y : Bytes} (h : isSip20 y = true) : 8 ≤ y.length := by
  unfold isSip20 at h
  split at h
  · simp only [List.length_cons]; omega
  · cases h
theorem sh_sentProtocol : Sh o parseSentProtocol := by
  intro c hc
  unfold parseSentProtocol
  refine .get (by rw [c.sh_rest]) ?_
  split
  · rename_i h
    have hl := isSip20_len h
    unfold Ctx.rest at hl
    rw [List.length_drop] at hl
    exact .bind (.skipN hc (by omega)) (fun _ c1 _ h1 => .bind (.orErr (sh_mark _ (by decide) c1 h1)) (fun _ c2 _ h2 => Sh.ret _ _ h2))
  · exact sh_otherProtocol c hc

theorem sh_via (net : Net) : Sh o (parseVia net) := by
  intro c hc
  unfold parseVia
  exact .bind (.orErr (sh_sentProtocol c hc)) (fun _ c1 _ h1 => .bind (.orErr (sh_str _ (by decide +kernel) c1 h1)) (fun n c2 _ h2 => .bind (.orErr (sh_lws c2 h2)) (fun _ c3 _ h3 =>
    .bind (.orErr (sh_hostPort net c3 h3)) (fun v c4 _ h4 => .bind (sh_params _ _ c4 h4) (fun _ c5 _ h5 => Sh.ret _ _ h5)))))

theorem sh_callId : Sh o parseCallId := by
  intro c hc
  unfold parseCallId
  refine .bind (.orErr (sh_str _ (by decide +kernel) c hc)) (fun n c1 _ h1 => .peek ?_)
  split
  · exact Sh.ret _ _ h1
  · rename_i b hb
    split
    · rename_i h
      rw [h] at hb
      exact .bind (.skip1 h1 hb) (fun _ c2 _ h2 => .bind (.orErr (sh_str _ (by decide +kernel) c2 h2)) (fun _ c3 _ h3 => Sh.ret _ _ h3))
    · exact Sh.ret _ _ h1

theorem sh_cseq : Sh o parseCSeq := by
  intro c hc
  unfold parseCSeq
  exact .bind (sh_uint c hc) (fun n c1 _ h1 => .bind (.orErr (sh_lws c1 h1)) (fun _ c2 _ h2 => .bind (.orErr (sh_method c2 h2)) (fun _ c3 _ h3 => Sh.ret _ _ h3)))
theorem sh_rack : Sh o parseRAck := by
  intro c hc
  unfold parseRAck
  exact .bind (sh_uint c hc) (fun n c1 _ h1 => .bind (.orErr (sh_lws c1 h1)) (fun _ c2 _ h2 => .bind (sh_uint c2 h2) (fun n c3 _ h3 => .bind (.orErr (sh_lws c3 h3)) (fun _ c4 _ h4 =>
    .bind (.orErr (sh_method c4 h4)) (fun _ c5 _ h5 => Sh.ret _ _ h5)))))
theorem sh_num (n : Nat) : Sh o (parseNum n) := by
  intro c hc
  unfold parseNum
  exact .bind (sh_uint c hc) (fun n c1 _ h1 => Sh.ret _ _ h1)
theorem sh_contentType : Sh o parseContentType := by
  intro c hc
  unfold parseContentType
  exact .bind (.orErr (sh_str _ (by decide +kernel) c hc)) (fun n c2 _ h2 => .bind (.orErr (sh_mark _ (by decide) c2 h2)) (fun _ c3 _ h3 =>
    .bind (.orErr (sh_str _ (by decide +kernel) c3 h3)) (fun v c4 _ h4 => .bind (sh_params _ _ c4 h4) (fun _ c5 _ h5 => Sh.ret _ _ h5))))
theorem sh_contentDisposition : Sh o parseContentDisposition := by
  intro c hc
  unfold parseContentDisposition
  exact .bind (.orErr (sh_str _ (by decide +kernel) c hc)) (fun n c2 _ h2 => .bind (sh_params _ _ c2 h2) (fun _ c5 _ h5 => Sh.ret _ _ h5))

theorem sh_value (net : Net) (k : HKind) : Sh o (k.parseValue net) := by
  cases k <;> unfold HKind.parseValue
  case to => exact sh_addrParams net _
  case «from» => exact sh_addrParams net _
  case contact => exact sh_contact net 
  case route => exact sh_routeParams net _
  case recordRoute => exact sh_routeParams net _
  case path => exact sh_routeParams net _
  case serviceRoute => exact sh_routeParams net _
  case pAssertedIdentity =>
    intro c hc
    unfold parseIdentity
    exact .bind (.orErr (sh_addr net _ c hc)) (fun t c1 _ h1 => Sh.ret _ _ h1)
  case via => exact sh_via net 
  case callId => exact sh_callId 
  case cseq => exact sh_cseq 
  case rack => exact sh_rack 
  case contentType => exact sh_contentType 
  case contentDisposition => exact sh_contentDisposition 
  all_goals exact sh_num _

theorem sh_alloc (net : Net) (k : HKind) : Sh o (k.parseAlloc net) := by
  intro c hc
  unfold HKind.parseAlloc
  exact .bind (.orErr (Sh.alloc _ hc)) (fun _ c1 _ h1 => sh_value net k c1 h1)

theorem sh_header (net : Net) (k : HKind) : Sh o (k.parse net) := by
  intro c hc
  unfold HKind.parse
  exact .bind (.orErr (sh_parseName k c hc)) (fun _ c1 _ h1 => .bind (.orErr (sh_hcolon c1 h1)) (fun _ c2 _ h2 => sh_value net k c2 h2))

end
end Sip
