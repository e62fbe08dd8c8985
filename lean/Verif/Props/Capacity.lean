import Verif.Lemmas.Cap
/-!
# The size of the arena does not change what is parsed
-/
namespace Sip

/-- apply the rules of `CapAll` to the text of a parser -/
syntax "cap" : tactic
macro_rules
  | `(tactic| cap) => `(tactic| repeat' first
    | assumption
    | with_reducible exact CapAll.ret _ | with_reducible exact CapAll.err | with_reducible exact CapAll.fail | with_reducible exact CapAll.panic | with_reducible exact CapAll.skip _ | with_reducible exact CapAll.peek | with_reducible exact CapAll.sws | with_reducible exact CapAll.lws
    | with_reducible exact CapAll.str _ | with_reducible exact CapAll.strEsc _ | with_reducible exact CapAll.strEscEmpty _ | with_reducible exact CapAll.telNumber _ | with_reducible exact CapAll.quoted | with_reducible exact CapAll.byteAt _
    | with_reducible exact CapAll.mark _ | with_reducible exact CapAll.markCanOmmit _ | with_reducible exact CapAll.hcolon | with_reducible exact CapAll.crlf | with_reducible exact CapAll.laquot | with_reducible exact CapAll.raquot | with_reducible exact CapAll.uint
    | with_reducible exact CapAll.findCrlf | with_reducible exact CapAll.headerIndex | with_reducible exact CapAll.nextParamMark _ | with_reducible exact CapAll.comma | with_reducible exact CapAll.method | with_reducible exact CapAll.skipRun _
    | with_reducible exact CapAll.alloc _ (by decide)
    | with_reducible refine CapAll.orErr ?_
    | with_reducible refine CapAll.orBack ?_
    | with_reducible refine CapAll.orElse ?_ ?_
    | with_reducible refine CapAll.get (fun c => ?_) (fun c K => by with_unfolding_all rfl)
    | with_reducible refine CapAll.bind ?_ (fun a => ?_)
    | split)

theorem cap_parseBracketValue : CapAll parseBracketValue := by
  intro c r c' e
  unfold parseBracketValue at *
  simp only [Ctx.withCap_rest]
  split at e
  · cases e; exact ⟨rfl, Nat.le_refl _, rfl, fun _ _ _ => rfl⟩
  · rename_i p1 _
    have hl : (c.rest.take (p1 + 1)).length ≤ c.src.length := by
      unfold Ctx.rest; rw [List.length_take, List.length_drop]; omega
    have ha := CapAt.allocStr (c.rest.take (p1 + 1)) c hl
    unfold CapAt P.allocStr at ha
    rcases h : Sip.allocStr (c.rest.take (p1 + 1)) c with ⟨_ | v, d⟩ <;> rw [h] at e ha <;> cases e
    · obtain ⟨a, b, d, g⟩ := ha _ _ rfl
      refine ⟨a, b, d, fun h K hK => ?_⟩
      have := g h K hK
      rcases h2 : Sip.allocStr (c.rest.take (p1 + 1)) (c.withCap K) with ⟨_ | v, d⟩ <;> rw [h2] at this <;> cases this
      rfl
    · obtain ⟨a, b, d, g⟩ := ha _ _ rfl
      refine ⟨a, b, d, fun h K hK => ?_⟩
      have := g h K hK
      rcases h2 : Sip.allocStr (c.rest.take (p1 + 1)) (c.withCap K) with ⟨_ | v, d⟩ <;> rw [h2] at this <;> cases this
      rfl

theorem cap_genericValue : CapAll GenericParam.parseValue := by
  unfold GenericParam.parseValue
  have := cap_parseBracketValue
  cap

theorem cap_genericParam : CapAll GenericParam.parse := by
  unfold GenericParam.parse
  have := cap_genericValue
  cap

theorem cap_genericParams {κ : Type} (sep : UInt8) (setK : κ → GenericParam → P (Option κ)) (hk : ∀ k p, CapAll (setK k p)) (k : κ) :
    CapAll (parseGenericParams sep setK k) := by
  refine CapAll.forLoop (fun s => ?_) _
  unfold genericParamsBody
  have := cap_genericParam
  have hk2 := fun (k : κ) p => hk k p
  cap
  all_goals first | exact hk _ _ | skip

theorem cap_setKnown {α : Type} (names : List Bytes) (hn : names.length ≤ 20) (on : Bool) (known : List (Option α)) (name : Bytes) (p : α) :
    CapAll (setKnown names on known name p) := by
  unfold setKnown
  cap
  exact CapAll.allocMust _ (by omega)

theorem cap_params (names : List Bytes) (hn : names.length ≤ 20) (flag : Flags → Bool) : CapAll (Params.parse names flag) := by
  unfold Params.parse
  have : CapAll (parseGenericParams 0x3b (setKnownGeneric names flag) []) := by
    refine cap_genericParams _ _ (fun k p => ?_) _
    unfold setKnownGeneric
    refine CapAll.get (fun c => ?_) (fun c K => rfl)
    exact cap_setKnown _ hn _ _ _ _
  cap

theorem cap_uriParam (cs : CharsetInfo) : CapAll (UriParam.parse cs) := by
  unfold UriParam.parse
  cap

theorem cap_uriParams {κ : Type} (cs : CharsetInfo) (setK : κ → UriParam → P (Option κ)) (hk : ∀ k p, CapAll (setK k p)) (k : κ) :
    CapAll (parseUriParams cs setK k) := by
  unfold parseUriParams
  have : CapAll (P.forLoop (uriParamsBody cs setK) (k, [])) := by
    refine CapAll.forLoop (fun s => ?_) _
    unfold uriParamsBody
    have := cap_uriParam cs
    cap
    all_goals first | exact hk _ _ | skip
  cap

theorem cap_uriHeader (cs : CharsetInfo) : CapAll (UriHeader.parse cs) := by
  unfold UriHeader.parse
  cap

theorem cap_uriHeaders (cs : CharsetInfo) : CapAll (parseUriHeaders cs) := by
  unfold parseUriHeaders
  have : CapAll (P.forLoop (uriHeadersBody cs) []) := by
    refine CapAll.forLoop (fun s => ?_) _
    unfold uriHeadersBody
    have := cap_uriHeader cs
    cap
  cap

theorem cap_parseIpv6 (net : Net) : CapAll (parseIpv6 net) := by
  intro c
  refine CapAt.of_prim (fun r c' e => ?_) (fun h K hK r c' e => ?_)
  · unfold parseIpv6 Ctx.alloc at e; dsimp only at e
    repeat' split at e
    all_goals first | (cases e; done) | skip
    all_goals cases e
    all_goals rename_i h
    all_goals first | exact ⟨rfl, Nat.le_refl _, rfl⟩ | skip
    all_goals
      split at h <;> cases h
      first | exact ⟨rfl, Nat.le_refl _, rfl⟩ | exact ⟨rfl, Nat.le_add_right _ _, rfl⟩
  · unfold parseIpv6 at *
    simp only [Ctx.withCap_src, Ctx.withCap_pos] at *
    have hs : ∀ p, ((c.withCap K).setPos p).src = (c.setPos p).src := fun _ => rfl
    simp only [hs]
    split at e
    · rw [if_pos (by assumption)]; cases e; rfl
    · rw [if_neg (by assumption)]
      split at e
      · cases e; rfl
      · have a1 : (c.setPos (skipWhile (fun x => decide (x ≠ 0x5d)) c.src c.pos)).alloc 16 =
            (true, { c.setPos (skipWhile (fun x => decide (x ≠ 0x5d)) c.src c.pos) with used := c.used + 16 }) := by
          unfold Ctx.alloc; exact if_neg (by show ¬ c.used + 16 > c.cap; omega)
        have a2 : ((c.withCap K).setPos (skipWhile (fun x => decide (x ≠ 0x5d)) c.src c.pos)).alloc 16 =
            (true, { (c.withCap K).setPos (skipWhile (fun x => decide (x ≠ 0x5d)) c.src c.pos) with used := c.used + 16 }) := by
          unfold Ctx.alloc; exact if_neg (by show ¬ c.used + 16 > K; omega)
        rw [a1] at e; dsimp only at e ⊢; rw [a2]; cases e; rfl

theorem cap_parseHostname : CapAll parseHostname := by unfold parseHostname; cap

theorem cap_parseHost (net : Net) : CapAll (parseHost net) := by
  intro c r c' e
  unfold parseHost at *
  simp only [Ctx.withCap_cur, Ctx.withCap_src, Ctx.withCap_pos]
  split at e
  · cases e; exact ⟨rfl, Nat.le_refl _, rfl, fun _ _ _ => rfl⟩
  · by_cases h1 : (‹UInt8› : UInt8) = 0x5b
    · simp only [if_pos h1] at e ⊢
      exact cap_parseIpv6 net (c.adv 1) _ _ e
    · simp only [if_neg h1] at e ⊢
      split at e
      · simp only [*, if_true]
        exact cap_parseHostname c _ _ e
      · simp only [*, Bool.false_eq_true, if_false]
        split at e
        · exact cap_parseHostname c _ _ e
        · rename_i ip p _
          have ha := CapAll.alloc 4 (by decide) (c.setPos p)
          unfold CapAt P.alloc at ha
          rcases h : (c.setPos p).alloc 4 with ⟨_ | _, d⟩ <;> rw [h] at e ha
          · cases e
            obtain ⟨a, b, d, g⟩ := ha _ _ rfl
            refine ⟨a, b, d, fun h K hK => ?_⟩
            have := g h K hK
            have e1 : (c.setPos p).withCap K = (c.withCap K).setPos p := rfl
            rw [e1] at this
            rcases h2 : ((c.withCap K).setPos p).alloc 4 with ⟨_ | _, d⟩ <;> rw [h2] at this <;> cases this
            rfl
          · dsimp only at e
            split at e
            · cases e
              obtain ⟨a, b, d, g⟩ := ha _ _ rfl
              refine ⟨a, b, d, fun h K hK => ?_⟩
              have := g h K hK
              have e1 : (c.setPos p).withCap K = (c.withCap K).setPos p := rfl
              rw [e1] at this
              rcases h2 : ((c.withCap K).setPos p).alloc 4 with ⟨_ | _, d⟩ <;> rw [h2] at this <;> cases this
              rfl
            · cases e

theorem cap_hostPort (net : Net) : CapAll (HostPort.parse net) := by
  unfold HostPort.parse
  refine CapAll.bind (CapAll.orErr (cap_parseHost net)) (fun h => CapAll.bind CapAll.peek (fun b => ?_))
  split
  · refine CapAll.bind (CapAll.skip 1) (fun _ => ?_)
    refine CapAll.getSet (n := fun c => (parseUInt c.src c.pos).newPos) (f := fun c _ =>
        if (!(parseUInt c.src c.pos).ok) = true then P.err else if (parseUInt c.src c.pos).digit > 0xffff then P.err
        else pure (HostPort.mk h (some (u16 (parseUInt c.src c.pos).digit)))) (fun c => ?_) (fun c K => rfl) (fun c K => rfl)
    cap
  · cap

theorem cap_password : CapAll SipUri.parsePassword := by unfold SipUri.parsePassword; cap
theorem cap_userinfo : CapAll SipUri.parseUserinfo := by
  unfold SipUri.parseUserinfo
  have := cap_password
  cap

theorem cap_sipParams : CapAll SipUri.parseParams := by
  unfold SipUri.parseParams
  have : CapAll (parseUriParams sipUriParamCS SipUri.setKnown []) := by
    refine cap_uriParams _ _ (fun k p => ?_) _
    unfold SipUri.setKnown
    refine CapAll.get (fun c => ?_) (fun c K => rfl)
    exact cap_setKnown _ (by decide) _ _ _ _
  cap

theorem cap_sipHeaders : CapAll SipUri.parseHeaders := by
  unfold SipUri.parseHeaders
  have := cap_uriHeaders sipUriHeaderCS
  cap

theorem cap_sipAfterScheme (net : Net) (s : Bool) : CapAll (SipUri.parseAfterScheme net s) := by
  unfold SipUri.parseAfterScheme
  have := cap_userinfo; have := cap_hostPort net; have := cap_sipParams; have := cap_sipHeaders
  cap

theorem cap_sipAfterSchemeWithoutParam (net : Net) (s : Bool) : CapAll (SipUri.parseAfterSchemeWithoutParam net s) := by
  unfold SipUri.parseAfterSchemeWithoutParam
  have := cap_userinfo; have := cap_hostPort net
  cap

theorem cap_telNumber : CapAll TelUri.parseNumber := by
  unfold TelUri.parseNumber
  have := CapAll.orErr (CapAll.telNumber csTelPhoneDigit)
  have := CapAll.orErr (CapAll.telNumber csTelPhoneDigitHex)
  cap

theorem cap_telSetKnown (k : TelKnown) (p : UriParam) : CapAll (TelUri.setKnown k p) := by
  unfold TelUri.setKnown
  split
  · split
    · exact CapAll.panic
    · split
      · exact CapAll.panic
      · exact CapAll.ret _
  · refine CapAll.get (fun c => ?_) (fun c K => rfl)
    refine CapAll.bind (cap_setKnown _ (by decide) _ _ _ _) (fun r => ?_)
    cap

theorem cap_telAfterScheme : CapAll TelUri.parseAfterScheme := by
  unfold TelUri.parseAfterScheme
  have := cap_telNumber
  have := cap_uriParams sipUriParamCS TelUri.setKnown cap_telSetKnown {}
  cap

theorem cap_telAfterSchemeWithoutParam : CapAll TelUri.parseAfterSchemeWithoutParam := by
  unfold TelUri.parseAfterSchemeWithoutParam
  have := cap_telNumber
  cap

theorem cap_otherScheme : CapAll parseOtherScheme := by unfold parseOtherScheme; cap

theorem cap_addrScheme : CapAll parseAddrScheme := by
  intro c
  have ho := cap_otherScheme c
  unfold parseAddrScheme
  intro r c' e
  dsimp only at e ⊢
  simp only [Ctx.withCap_rest]
  split at e
  · repeat' split at e
    all_goals first
      | (cases e; exact ⟨rfl, Nat.le_refl _, rfl, fun _ _ _ => by simp [*]; rfl⟩)
      | (obtain ⟨a, b, d, g⟩ := ho _ _ e; exact ⟨a, b, d, fun h K hK => by
          have g := g h K hK; clear ho e h hK
          simp [*]⟩)
  · obtain ⟨a, b, d, g⟩ := ho _ _ e; exact ⟨a, b, d, fun h K hK => by rw [← g h K hK]⟩

theorem cap_uriAfterScheme (net : Net) (params : Bool) (t : UriType) : CapAll (parseUriAfterScheme net params t) := by
  have h1 := cap_sipAfterScheme net; have h2 := cap_sipAfterSchemeWithoutParam net
  have := cap_telAfterScheme; have := cap_telAfterSchemeWithoutParam
  unfold parseUriAfterScheme
  cap
  all_goals first | exact h1 _ | exact h2 _

theorem cap_tokens : CapAll parseTokens := by
  unfold parseTokens
  intro c
  refine CapAt.get ?_ (fun K => rfl)
  refine CapAt.bind (CapAll.forLoop (fun s => by unfold tokensBody; cap) _ c) (fun _ c1 _ hs => ?_)
  refine CapAt.get ?_ (fun K => rfl)
  refine CapAt.orErr (CapAt.allocStr _ _ ?_)
  rw [List.length_take, List.length_drop, hs]; omega

theorem cap_displayName : CapAll parseDisplayName := by
  unfold parseDisplayName
  have := cap_tokens
  cap

theorem cap_displayLaquot : CapAll parseDisplayLaquot := by
  unfold parseDisplayLaquot
  have := cap_displayName
  cap

theorem cap_nameAddr (net : Net) : CapAll (parseNameAddr net) := by
  unfold parseNameAddr
  have := cap_displayLaquot; have := cap_addrScheme; have h1 := cap_uriAfterScheme net
  cap
  all_goals exact h1 _ _

theorem cap_addr (net : Net) (params : Bool) : CapAll (parseAddr net params) := by
  unfold parseAddr parseAddrSpecOrName
  have := cap_nameAddr net; have := cap_addrScheme; have h1 := cap_uriAfterScheme net
  cap
  all_goals exact h1 _ _

theorem cap_addrSpec (net : Net) : CapAll (parseAddrSpec net) := by
  unfold parseAddrSpec
  have := cap_addrScheme; have h1 := cap_uriAfterScheme net
  cap
  all_goals exact h1 _ _

theorem cap_hparams (k : HKind) : CapAll k.params := cap_params _ (by cases k <;> decide) _

/-- the value of a header -/
theorem cap_headerValue (net : Net) (k : HKind) : CapAll (k.parseValue net) := by
  have h1 := cap_addr net false; have h2 := cap_nameAddr net; have h3 := cap_hparams; have h4 := cap_hostPort net
  cases k <;> unfold HKind.parseValue <;> dsimp only <;>
    first
    | (unfold parseAddrParams; cap; exact h3 _)
    | (unfold parseRouteParams; cap; exact h3 _)
    | (unfold parseContact parseAddrParams; cap; exact h3 _)
    | (unfold parseIdentity; cap; done)
    | (unfold parseVia parseSentProtocol parseOtherProtocol; cap; exact h3 _)
    | (unfold parseCallId; cap; done)
    | (unfold parseCSeq; cap; done)
    | (unfold parseRAck; cap; done)
    | (unfold parseNum; cap; done)
    | (unfold parseContentType; cap; exact h3 _)
    | (unfold parseContentDisposition; cap; exact h3 _)

theorem cap_headerName (k : HKind) : CapAll k.parseName := by
  refine CapAll.of_pure (fun c r c' e => ?_) (fun c r c' K e => ?_)
  · unfold HKind.parseName at e; split at e <;> cases e <;> exact ⟨rfl, rfl, rfl⟩
  · unfold HKind.parseName at *
    simp only [Ctx.withCap_rest]
    split at e <;> cases e <;> rfl

theorem cap_headerAlloc (net : Net) (k : HKind) : CapAll (k.parseAlloc net) := by
  unfold HKind.parseAlloc
  refine CapAll.bind (CapAll.orErr (CapAll.alloc _ (by cases k <;> decide))) (fun _ => cap_headerValue net k)

theorem cap_header (net : Net) (k : HKind) : CapAll (k.parse net) := by
  unfold HKind.parse
  have := cap_headerName k; have := cap_headerValue net k
  cap

theorem cap_versionStart : CapAll Version.parseStart := by
  refine CapAll.of_pure (fun c r c' e => ?_) (fun c r c' K e => ?_)
  · unfold Version.parseStart at e
    repeat' split at e
    all_goals cases e
    all_goals exact ⟨rfl, rfl, rfl⟩
  · unfold Version.parseStart at *
    simp only [Ctx.withCap_src, Ctx.withCap_pos]
    split at e
    · rw [if_pos (by assumption)]; cases e; rfl
    · rw [if_neg (by assumption)]
      split at e
      · split at e
        · rw [if_pos (by assumption)]; cases e; rfl
        · rw [if_neg (by assumption)]; cases e; rfl
      · cases e

theorem cap_majorMinor : CapAll Version.parseMajorMinor := by
  intro c r c' e
  unfold Version.parseMajorMinor at *
  dsimp only at e ⊢
  simp only [Ctx.withCap_src, Ctx.withCap_pos]
  generalize hn : skipWhile isDigit c.src c.pos = n at *
  split at e
  · rename_i h
    simp only [if_pos h]
    cases e; exact ⟨rfl, Nat.le_refl _, rfl, fun _ _ _ => rfl⟩
  · rename_i h
    simp only [if_neg h]
    cases hs : c.src[n]? with
    | none => rw [hs] at e; cases e
    | some d =>
      have hlt : n < c.src.length := by
        rcases Nat.lt_or_ge n c.src.length with h | h
        · exact h
        · rw [List.getElem?_eq_none h] at hs; cases hs
      rw [hs] at e; dsimp only at e ⊢
      split at e
      · rename_i h
        simp only [if_pos h]
        cases e; exact ⟨rfl, Nat.le_refl _, rfl, fun _ _ _ => rfl⟩
      · rename_i h
        simp only [if_neg h]
        rcases hp : parseStrFromPos csDigit (n + 1) c with ⟨_ | v, d⟩ | _ | _ <;> rw [hp] at e
        · obtain ⟨x1, x2, x3, x4⟩ := CapAt.strFromPos csDigit (n + 1) c (by intro; omega) _ _ hp
          cases e
          exact ⟨x1, x2, x3, fun h K hK => by rw [x4 h K hK]; rfl⟩
        · obtain ⟨x1, x2, x3, x4⟩ := CapAt.strFromPos csDigit (n + 1) c (by intro; omega) _ _ hp
          dsimp only at e
          split at e
          · cases e
            refine ⟨x1, x2, x3, fun h K hK => ?_⟩
            rw [x4 h K hK]; dsimp only; simp only [Ctx.withCap_pos]; rw [if_pos (by assumption)]; rfl
          · cases e
            refine ⟨x1, x2, x3, fun h K hK => ?_⟩
            rw [x4 h K hK]; dsimp only; simp only [Ctx.withCap_pos]; rw [if_neg (by assumption)]
        · cases e
        · cases e

theorem cap_versionAfterStart : CapAll Version.parseAfterStart := by
  unfold Version.parseAfterStart
  have := cap_majorMinor
  cap

theorem cap_version : CapAll Version.parse := by
  unfold Version.parse
  have := cap_versionStart; have := cap_versionAfterStart
  cap

theorem cap_sp : CapAll P.sp := by unfold P.sp; cap

/-- Request-Line and Status-Line -/
theorem cap_startLine (net : Net) : CapAll (StartLine.parse net) := by
  unfold StartLine.parse StartLine.parseStatus StartLine.parseRequest
  have := cap_version; have := cap_versionStart; have := cap_versionAfterStart; have := cap_sp; have := cap_addrSpec net
  cap

theorem cap_rawValue : CapAll parseRawHeaderValue := by
  unfold parseRawHeaderValue
  intro c
  refine CapAt.get ?_ (fun K => rfl)
  refine CapAt.bind (CapAll.findCrlf c) (fun b c1 _ hs => CapAt.allocStr _ _ ?_)
  rw [List.length_take, List.length_drop, hs]; omega

theorem cap_rawHeader (i : Nat) (n : Option Bytes) : CapAll (parseRawHeader i n) := by
  unfold parseRawHeader
  have := cap_rawValue
  cap

theorem cap_msgHeaderName : CapAll parseMsgHeaderName := by
  unfold parseMsgHeaderName
  intro c
  refine CapAt.bind (CapAll.headerIndex c) (fun r c1 h hs => ?_)
  refine CapAt.bind ?_ (fun n c2 _ _ => ?_)
  · have hc : c1 = c ∧ getSipHeaderIndex c.src c.pos = .ok r := by
      unfold P.headerIndex at h; split at h <;> cases h; exact ⟨rfl, by assumption⟩
    obtain ⟨rfl, hr⟩ := hc
    obtain ⟨i, p⟩ := r
    cases i with
    | zero =>
      obtain ⟨i', k, hk1, hk2, -⟩ := header_index_returns c1.src c1.pos (by rw [hr]; simp)
      rw [hr] at hk1; cases hk1
      rw [List.length_drop] at hk2
      exact CapAt.bind (CapAt.strFromPos _ _ _ (by intro; omega)) (fun n c2 _ _ => CapAll.ret _ c2)
    | succ i =>
      exact CapAll.getSet (n := fun _ => p) (f := fun _ _ => pure (none, i + 1)) (fun c => CapAll.ret _) (fun _ _ => rfl) (fun _ _ => rfl) c1
  · exact CapAll.bind (CapAll.orErr CapAll.hcolon) (fun _ => CapAll.ret _) c2

theorem cap_headerValues (net : Net) (k : HKind) : CapAll (parseHeaderValues net k) := by
  unfold parseHeaderValues
  have := cap_headerAlloc net k
  refine CapAll.bind this (fun v => ?_)
  split
  · refine CapAll.forLoop (fun s => ?_) _
    unfold valuesBody
    cap
  · cap

theorem cap_headerLine (net : Net) (need : HKind → Bool) (n : Option Bytes × Nat) : CapAll (parseHeaderLine net need n) := by
  unfold parseHeaderLine
  have h1 := cap_rawHeader; have h2 := cap_headerValues net
  cap
  all_goals first | exact h1 _ _ | exact h2 _

theorem cap_headers (net : Net) (need : HKind → Bool) : CapAll (parseHeaders net need) := by
  refine CapAll.forLoop (fun s => ?_) _
  unfold headersBody
  have := cap_msgHeaderName; have h1 := cap_headerLine net need
  cap
  all_goals exact h1 _

theorem cap_rawHeaders : CapAll parseRawHeaders := by
  refine CapAll.forLoop (fun s => ?_) _
  unfold rawHeadersBody
  have := cap_msgHeaderName; have h1 := cap_rawHeader
  cap
  all_goals exact h1 _ _

theorem cap_singleBody (hs : Hdrs) : CapAll (parseSingleBody hs) := by
  unfold parseSingleBody
  intro c
  refine CapAt.get ?_ (fun K => rfl)
  dsimp only
  have key : ∀ size, CapAt (if size = 0 then pure [] else do
      P.orErr (P.alloc 16)
      let b ← P.orErr (P.allocStr (c.rest.take size))
      pure [{ body := some b }] : P (List Body)) c := by
    intro size
    split
    · exact CapAll.ret _ c
    · refine CapAt.bind (CapAll.orErr (CapAll.alloc 16 (by decide)) c) (fun _ c1 _ h1 => ?_)
      refine CapAt.bind (CapAt.orErr (CapAt.allocStr _ _ ?_)) (fun b c2 _ _ => CapAll.ret _ c2)
      unfold Ctx.rest
      rw [List.length_take, List.length_drop, h1]; omega
  exact key _

theorem cap_bodyPart (net : Net) (d : Bytes) : CapAll (parseBodyPart net d) := by
  unfold parseBodyPart
  refine CapAll.bind (CapAll.orErr CapAll.findCrlf) (fun _ => CapAll.bind (CapAll.orErr (CapAll.alloc 16 (by decide))) (fun _ => ?_))
  refine CapAll.get (fun c0 => ?_) (fun _ _ => rfl)
  refine CapAll.bind (CapAll.orErr (cap_headers net _)) (fun hs c => ?_)
  refine CapAt.get ?_ (fun K => rfl)
  split
  · exact CapAll.err c
  · refine CapAt.bind (CapAt.allocStrAny _ _ ?_) (fun b c1 _ _ => CapAll.bind (CapAll.skip _) (fun _ => CapAll.ret _) c1)
    unfold Ctx.rest
    rw [List.length_take, List.length_drop]; omega

theorem cap_multiBody (net : Net) (b : Bytes) : CapAll (parseMultiBody net b) := by
  unfold parseMultiBody
  have : ∀ d, CapAll (P.forLoop (multiBody net d) []) := by
    intro d
    refine CapAll.forLoop (fun s => ?_) _
    unfold multiBody
    have := cap_bodyPart net d
    cap
  dsimp only
  cap
  exact this _

theorem cap_msgBody (net : Net) (hs : Hdrs) : CapAll (parseMsgBody net hs) := by
  unfold parseMsgBody
  have h1 := cap_multiBody net; have h2 := cap_singleBody hs
  cap
  all_goals exact h1 _

theorem cap_msg (net : Net) : CapAll (Msg.parse net) := by
  unfold Msg.parse
  have := cap_startLine net; have h1 := cap_headers net; have h2 := cap_msgBody net
  cap
  all_goals first | exact h1 _ | exact h2 _

end Sip
