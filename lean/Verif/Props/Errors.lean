import Verif.Props.Plain
import Verif.Props.ReadsMsg
import Verif.Props.Capacity
/-!
# C50 - What an accepted input leaves in the error list

A parser that succeeds leaves the list of errors as it was.  Together with C31 (a message or header that is rejected has recorded an error) the error list tells
whether a message or a header was accepted.
-/
namespace Sip

/-- on success the list of errors is the one before -/
def Silent {α : Type} (p : P α) : Prop := ∀ c a c', p c = .ok (some a, c') → c'.errs = c.errs

theorem Silent.bind {α β : Type} {p : P α} {f : α → P β} (hp : Silent p) (hf : ∀ a, Silent (f a)) : Silent (p >>= f) := by
  intro c a c' e
  obtain ⟨x, c1, e1, e2⟩ := P.bind_some e
  exact (hf x _ _ _ e2).trans (hp _ _ _ e1)
theorem Silent.ret {α : Type} (a : α) : Silent (pure a : P α) := by intro c r c' e; cases e; rfl
theorem Silent.fail {α : Type} : Silent (P.fail : P α) := by intro c r c' e; cases e
theorem Silent.err {α : Type} : Silent (P.err : P α) := by intro c r c' e; cases e
theorem Silent.panic {α : Type} : Silent (P.panic : P α) := by intro c r c' e; cases e
theorem Silent.skip (n : Nat) : Silent (P.skip n) := by intro c r c' e; cases e; rfl
theorem Silent.peek : Silent P.peek := by intro c r c' e; cases e; rfl
theorem Silent.getp : Silent P.get := by intro c r c' e; cases e; rfl
theorem Silent.orErr {α : Type} {p : P α} (hp : Silent p) : Silent (P.orErr p) := by
  intro c r c' e
  unfold P.orErr at e
  rcases hpc : p c with ⟨_ | a, c1⟩ | _ | _ <;> rw [hpc] at e <;> cases e
  exact hp _ _ _ hpc
theorem Silent.orBack {α : Type} {p : P α} (hp : Silent p) : Silent (P.orBack p) := by
  intro c r c' e
  unfold P.orBack at e
  rcases hpc : p c with ⟨_ | a, c1⟩ | _ | _ <;> rw [hpc] at e <;> cases e
  exact hp _ _ _ hpc
theorem Silent.ite {α : Type} {b : Prop} [Decidable b] {p q : P α} (hp : Silent p) (hq : Silent q) : Silent (if b then p else q) := by
  split <;> assumption
theorem Silent.ofBool {f : Ctx → Bool × Ctx} (h : ∀ c, (f c).1 = true → (f c).2.errs = c.errs) : Silent (P.ofBool f) := by
  intro c a c' e
  unfold P.ofBool at e
  have := h c
  rcases hf : f c with ⟨_ | _, d⟩ <;> rw [hf] at e this <;> cases e
  exact this rfl
theorem Silent.alloc (n : Nat) : Silent (P.alloc n) := by
  intro c a c' e
  unfold P.alloc Ctx.alloc at e
  by_cases h : c.used + n > c.cap
  · rw [if_pos h] at e; cases e
  · rw [if_neg h] at e; cases e; rfl
theorem Silent.allocMust (n : Nat) : Silent (P.allocMust n) := by
  intro c a c' e
  unfold P.allocMust Ctx.alloc at e
  by_cases h : c.used + n > c.cap
  · rw [if_pos h] at e; cases e
  · rw [if_neg h] at e; cases e; rfl
theorem allocStr_errs (b : Bytes) (c : Ctx) : (Sip.allocStr b c).2.errs = c.errs := by
  unfold Sip.allocStr; split <;> rfl
theorem Silent.allocStr (b : Bytes) : Silent (P.allocStr b) := by
  intro c a c' e
  have := allocStr_errs b c
  unfold P.allocStr at e
  rcases h : Sip.allocStr b c with ⟨_ | _, d⟩ <;> rw [h] at e this <;> cases e
  exact this
theorem Silent.allocStrAny (b : Bytes) : Silent (P.allocStrAny b) := by
  intro c a c' e
  have := allocStr_errs b c
  unfold P.allocStrAny at e
  rcases h : Sip.allocStr b c with ⟨_ | _, d⟩ <;> rw [h] at e this <;> cases e <;> exact this
theorem Silent.str (s : CS) : Silent (P.str s) := by
  intro c a c' e
  unfold P.str parseStr at e; dsimp only at e
  repeat' split at e
  all_goals cases e
  rfl
theorem Silent.strEsc (s : CS) : Silent (P.strEsc s) := by
  intro c a c' e
  unfold P.strEsc parseStrEscapable at e
  repeat' split at e
  all_goals cases e
  rfl
theorem Silent.strEscEmpty (s : CS) : Silent (P.strEscEmpty s) := by
  intro c a c' e
  unfold P.strEscEmpty parseStrEscapableEnableEmpty at e
  repeat' split at e
  all_goals cases e
  rfl
theorem Silent.strFromPos (s : CS) (n : Nat) : Silent (parseStrFromPos s n) := by
  intro c a c' e
  unfold parseStrFromPos at e; dsimp only at e
  repeat' split at e
  all_goals cases e
  rfl
theorem Silent.telNumber (s : CS) : Silent (parseTelNumber s) := by
  intro c a c' e
  unfold parseTelNumber at e; dsimp only at e
  repeat' split at e
  all_goals cases e
  all_goals rfl
theorem quotedLoop_errs (fuel : Nat) : ∀ (c : Ctx) (p u : Nat) (o : Bytes) r c', quotedLoop fuel c p u o = .ok (some r, c') → c'.errs = c.errs := by
  induction fuel with
  | zero => intro c p u o r c' e; cases e
  | succ n ih =>
    intro c p u o r c' e
    unfold quotedLoop at e
    repeat' split at e
    all_goals first | (cases e; done) | (cases e; rfl) | exact ih _ _ _ _ _ _ e | skip
    all_goals exact (ih _ _ _ _ _ _ e).trans rfl
theorem Silent.quoted : Silent P.quoted := by
  intro c a c' e
  unfold P.quoted parseQuoted at e; dsimp only at e
  split at e
  · cases e
  · split at e
    · cases e
    · split at e
      · cases e
      · cases e
      · cases e
      · rename_i hq
        have := quotedLoop_errs _ _ _ _ _ _ _ hq
        repeat' split at e
        all_goals cases e
        all_goals exact this
theorem Ctx.sws_errs (c : Ctx) : c.sws.errs = c.errs := by
  unfold Ctx.sws; repeat' split
  all_goals rfl
theorem Silent.sws : Silent P.sws := by intro c a c' e; cases e; exact Ctx.sws_errs c
theorem Silent.lws : Silent P.lws := by intro c a c' e; unfold P.lws at e; split at e <;> cases e; rfl
theorem Silent.skipRun (s : CS) : Silent (P.skipRun s) := by intro c a c' e; cases e; rfl
theorem Silent.byteAt (k : Nat) : Silent (P.byteAt k) := by intro c a c' e; unfold P.byteAt at e; split at e <;> cases e; rfl
theorem Silent.mark (m : UInt8) : Silent (P.mark m) := by
  refine Silent.ofBool (fun c => ?_)
  unfold parseSWSMark; dsimp only
  repeat' split
  · intro h; cases h
  · intro h; cases h
  · intro _; exact (Ctx.sws_errs _).trans (Ctx.sws_errs c)
theorem Silent.markCanOmmit (m : UInt8) : Silent (P.markCanOmmit m) := by
  intro c a c' e
  unfold P.markCanOmmit parseSWSMarkCanOmmit at e; dsimp only at e
  repeat' split at e
  all_goals rename_i h
  all_goals (repeat' split at h)
  all_goals cases h
  all_goals cases e
  · exact Ctx.sws_errs c
  · exact (Ctx.sws_errs _).trans (Ctx.sws_errs c)
theorem Silent.nextParamMark (m : UInt8) : Silent (nextParamMark m) := by
  intro c a c' e
  unfold Sip.nextParamMark at e
  rcases hpc : P.markCanOmmit m c with ⟨_ | _ | _, c1⟩ | _ | _ <;> rw [hpc] at e <;> cases e
  · exact (show (c1.setPos c.pos).errs = c1.errs from rfl).trans (Silent.markCanOmmit m _ _ _ hpc)
  · exact Silent.markCanOmmit m _ _ _ hpc
theorem Silent.hcolon : Silent P.hcolon := by
  refine Silent.ofBool (fun c => ?_)
  unfold parseHcolon; dsimp only
  repeat' split
  · intro h; cases h
  · intro h; cases h
  · intro _; exact (Ctx.sws_errs _)
theorem Silent.crlf : Silent P.crlf := by
  refine Silent.ofBool (fun c => ?_)
  unfold parseCRLF; split <;> intro h
  · rfl
  · cases h
theorem Silent.laquot : Silent (P.ofBool parseLeftAngleQuote) := by
  refine Silent.ofBool (fun c => ?_)
  unfold parseLeftAngleQuote; dsimp only
  repeat' split
  all_goals intro h
  all_goals first | (cases h; done) | exact Ctx.sws_errs c
theorem Silent.raquot : Silent (P.ofBool parseRightAngleQuote) := by
  refine Silent.ofBool (fun c => ?_)
  unfold parseRightAngleQuote
  repeat' split
  all_goals intro h
  all_goals first | (cases h; done) | exact Ctx.sws_errs _
theorem Silent.uint : Silent P.uint := by
  intro c a c' e; unfold P.uint at e; dsimp only at e; split at e <;> cases e; rfl
theorem Silent.findCrlf : Silent P.findCrlf := by
  intro c a c' e; unfold P.findCrlf at e; split at e <;> cases e; rfl
theorem Silent.headerIndex : Silent P.headerIndex := by
  intro c a c' e; unfold P.headerIndex at e; split at e <;> cases e; rfl
theorem Silent.method : Silent P.method := by
  intro c a c' e
  unfold P.method parseMethod at e
  rcases hm : getSipMethodIndex c.src c.pos with ⟨i, n⟩ | _ | _ <;> rw [hm] at e
  · simp only [Out.ok_bind] at e
    split at e
    · rcases hs : parseStrFromPos csSipToken n c with ⟨r1, d⟩ | _ | _ <;> rw [hs] at e
      · simp only [Out.ok_bind] at e
        cases r1 <;> cases e
        exact Silent.strFromPos _ _ _ _ _ hs
      · cases e
      · cases e
    · cases e; rfl
  · cases e
  · cases e
theorem Silent.loop {σ ρ : Type} {body : σ → P (σ ⊕ ρ)} (hb : ∀ s, Silent (body s)) (n : Nat) : ∀ s, Silent (P.loop body n s) := by
  induction n with
  | zero => intro s c a c' e; cases e
  | succ n ih =>
    intro s
    refine Silent.bind (hb s) (fun a => ?_)
    cases a with
    | inl s' => exact ih s'
    | inr r => exact Silent.ret r
theorem Silent.forLoop {σ ρ : Type} {body : σ → P (σ ⊕ ρ)} (hb : ∀ s, Silent (body s)) (s : σ) : Silent (P.forLoop body s) :=
  fun c a c' e => Silent.loop hb _ s c a c' e
/-- `context.parsePos = n` -/
theorem Silent.getSet {β : Type} {n : Ctx → Nat} {f : Ctx → Unit → P β} (h : ∀ c, Silent (f c ())) :
    Silent (P.get >>= fun c => P.set (c.setPos (n c)) >>= f c) := by
  intro c a c' e
  have e : f c () (c.setPos (n c)) = .ok (some a, c') := e
  exact (h c (c.setPos (n c)) _ _ e).trans rfl

/-- apply the rules of `Silent` to the text of a parser -/
syntax "silent" : tactic
macro_rules
  | `(tactic| silent) => `(tactic| repeat' first
    | assumption
    | with_reducible exact Silent.ret _ | with_reducible exact Silent.err | with_reducible exact Silent.fail | with_reducible exact Silent.panic | with_reducible exact Silent.skip _ | with_reducible exact Silent.peek | with_reducible exact Silent.getp | with_reducible exact Silent.sws | with_reducible exact Silent.lws
    | with_reducible exact Silent.str _ | with_reducible exact Silent.strEsc _ | with_reducible exact Silent.strEscEmpty _ | with_reducible exact Silent.telNumber _ | with_reducible exact Silent.quoted | with_reducible exact Silent.byteAt _
    | with_reducible exact Silent.mark _ | with_reducible exact Silent.markCanOmmit _ | with_reducible exact Silent.hcolon | with_reducible exact Silent.crlf | with_reducible exact Silent.laquot | with_reducible exact Silent.raquot | with_reducible exact Silent.uint
    | with_reducible exact Silent.findCrlf | with_reducible exact Silent.headerIndex | with_reducible exact Silent.nextParamMark _ | with_reducible exact Silent.method | with_reducible exact Silent.skipRun _
    | with_reducible exact Silent.alloc _ | with_reducible exact Silent.allocMust _ | with_reducible exact Silent.allocStr _ | with_reducible exact Silent.allocStrAny _ | with_reducible exact Silent.strFromPos _ _
    | with_reducible refine Silent.orErr ?_
    | with_reducible refine Silent.orBack ?_
    | with_reducible refine Silent.bind ?_ (fun a => ?_)
    | split)

theorem silent_parseBracketValue : Silent parseBracketValue := by
  intro c a c' e
  unfold parseBracketValue at e
  split at e
  · cases e
  · have := allocStr_errs (c.rest.take (‹Nat› + 1)) c
    split at e
    · cases e
    · rename_i h
      rw [h] at this
      cases e
      exact this

theorem silent_genericValue : Silent GenericParam.parseValue := by
  unfold GenericParam.parseValue
  have := silent_parseBracketValue
  silent
theorem silent_genericParam : Silent GenericParam.parse := by
  unfold GenericParam.parse
  have := silent_genericValue
  silent
theorem silent_genericParams {κ : Type} (sep : UInt8) (setK : κ → GenericParam → P (Option κ)) (hk : ∀ k p, Silent (setK k p)) (k : κ) :
    Silent (parseGenericParams sep setK k) := by
  refine Silent.forLoop (fun s => ?_) _
  unfold genericParamsBody
  have := silent_genericParam
  silent
  all_goals first | exact hk _ _ | skip
theorem silent_setKnown {α : Type} (names : List Bytes) (on : Bool) (known : List (Option α)) (name : Bytes) (p : α) :
    Silent (setKnown names on known name p) := by
  unfold setKnown
  silent
theorem silent_params (names : List Bytes) (flag : Flags → Bool) : Silent (Params.parse names flag) := by
  unfold Params.parse
  have : Silent (parseGenericParams 0x3b (setKnownGeneric names flag) []) := by
    refine silent_genericParams _ _ (fun k p => ?_) _
    unfold setKnownGeneric
    exact Silent.bind Silent.getp (fun c => silent_setKnown _ _ _ _ _)
  silent
theorem silent_uriParam (cs : CharsetInfo) : Silent (UriParam.parse cs) := by
  unfold UriParam.parse
  silent
theorem silent_uriParams {κ : Type} (cs : CharsetInfo) (setK : κ → UriParam → P (Option κ)) (hk : ∀ k p, Silent (setK k p)) (k : κ) :
    Silent (parseUriParams cs setK k) := by
  unfold parseUriParams
  have : Silent (P.forLoop (uriParamsBody cs setK) (k, [])) := by
    refine Silent.forLoop (fun s => ?_) _
    unfold uriParamsBody
    have := silent_uriParam cs
    silent
    all_goals first | exact hk _ _ | skip
  silent
theorem silent_uriHeader (cs : CharsetInfo) : Silent (UriHeader.parse cs) := by
  unfold UriHeader.parse
  silent
theorem silent_uriHeaders (cs : CharsetInfo) : Silent (parseUriHeaders cs) := by
  unfold parseUriHeaders
  have : Silent (P.forLoop (uriHeadersBody cs) []) := by
    refine Silent.forLoop (fun s => ?_) _
    unfold uriHeadersBody
    have := silent_uriHeader cs
    silent
  silent
theorem silent_parseIpv6 (net : Net) : Silent (parseIpv6 net) := by
  intro c a c' e
  unfold parseIpv6 Ctx.alloc at e; dsimp only at e
  repeat' split at e
  all_goals first | (cases e; done) | skip
  all_goals (rename_i h; repeat' split at h)
  all_goals first | (cases h; done) | (cases h; cases e; rfl)
theorem silent_parseHostname : Silent parseHostname := by unfold parseHostname; silent
theorem silent_parseHost (net : Net) : Silent (parseHost net) := by
  intro c a c' e
  unfold parseHost Ctx.alloc at e
  split at e
  · cases e
  · split at e
    · exact silent_parseIpv6 net (c.adv 1) _ _ e
    · split at e
      · exact silent_parseHostname _ _ _ e
      · split at e
        · exact silent_parseHostname _ _ _ e
        · split at e <;> rename_i h
          · cases e
          · split at h
            · cases h
            · cases h
              split at e <;> cases e
              rfl
theorem silent_hostPort (net : Net) : Silent (HostPort.parse net) := by
  unfold HostPort.parse
  refine Silent.bind (Silent.orErr (silent_parseHost net)) (fun h => Silent.bind Silent.peek (fun b => ?_))
  split
  · refine Silent.bind (Silent.skip 1) (fun _ => ?_)
    refine Silent.getSet (n := fun c => (parseUInt c.src c.pos).newPos) (f := fun c _ =>
        if (!(parseUInt c.src c.pos).ok) = true then P.err else if (parseUInt c.src c.pos).digit > 0xffff then P.err
        else pure (HostPort.mk h (some (u16 (parseUInt c.src c.pos).digit)))) (fun c => ?_)
    silent
  · silent
theorem silent_password : Silent SipUri.parsePassword := by unfold SipUri.parsePassword; silent
theorem silent_userinfo : Silent SipUri.parseUserinfo := by
  unfold SipUri.parseUserinfo
  have := silent_password
  silent
theorem silent_sipParams : Silent SipUri.parseParams := by
  unfold SipUri.parseParams
  have : Silent (parseUriParams sipUriParamCS SipUri.setKnown []) := by
    refine silent_uriParams _ _ (fun k p => ?_) _
    unfold SipUri.setKnown
    exact Silent.bind Silent.getp (fun c => silent_setKnown _ _ _ _ _)
  silent
theorem silent_sipHeaders : Silent SipUri.parseHeaders := by
  unfold SipUri.parseHeaders
  have := silent_uriHeaders sipUriHeaderCS
  silent
theorem silent_sipAfterScheme (net : Net) (s : Bool) : Silent (SipUri.parseAfterScheme net s) := by
  unfold SipUri.parseAfterScheme
  have := silent_userinfo; have := silent_hostPort net; have := silent_sipParams; have := silent_sipHeaders
  silent
theorem silent_sipAfterSchemeWithoutParam (net : Net) (s : Bool) : Silent (SipUri.parseAfterSchemeWithoutParam net s) := by
  unfold SipUri.parseAfterSchemeWithoutParam
  have := silent_userinfo; have := silent_hostPort net
  silent
theorem silent_sipScheme : Silent SipUri.parseScheme := by
  intro c a c' e
  unfold SipUri.parseScheme at e
  repeat' split at e
  all_goals cases e
  all_goals rfl
/-- **C50** a SIP URI -/
theorem silent_sipUri (net : Net) : Silent (SipUri.parse net) :=
  Silent.bind silent_sipScheme (fun s => silent_sipAfterScheme net s)
theorem silent_telNumber : Silent TelUri.parseNumber := by
  unfold TelUri.parseNumber
  have := Silent.orErr (Silent.telNumber csTelPhoneDigit)
  have := Silent.orErr (Silent.telNumber csTelPhoneDigitHex)
  silent
theorem silent_telSetKnown (k : TelKnown) (p : UriParam) : Silent (TelUri.setKnown k p) := by
  unfold TelUri.setKnown
  silent
  all_goals exact silent_setKnown _ _ _ _ _
theorem silent_telAfterScheme : Silent TelUri.parseAfterScheme := by
  unfold TelUri.parseAfterScheme
  have := silent_telNumber
  have := silent_uriParams sipUriParamCS TelUri.setKnown silent_telSetKnown {}
  silent
theorem silent_telAfterSchemeWithoutParam : Silent TelUri.parseAfterSchemeWithoutParam := by
  unfold TelUri.parseAfterSchemeWithoutParam
  have := silent_telNumber
  silent
theorem silent_telScheme : Silent TelUri.parseScheme := by
  intro c a c' e
  unfold TelUri.parseScheme at e
  repeat' split at e
  all_goals cases e
  all_goals rfl
/-- **C50** a telephone URI -/
theorem silent_telUri : Silent TelUri.parse := by
  unfold TelUri.parse
  have := silent_telScheme; have := silent_telAfterScheme
  silent
theorem silent_otherScheme : Silent parseOtherScheme := by unfold parseOtherScheme; silent
theorem silent_addrScheme : Silent parseAddrScheme := by
  intro c a c' e
  unfold parseAddrScheme at e
  repeat' split at e
  all_goals first | (cases e; done) | (cases e; rfl) | exact silent_otherScheme _ _ _ e
theorem silent_uriAfterScheme (net : Net) (params : Bool) (t : UriType) : Silent (parseUriAfterScheme net params t) := by
  have h1 := silent_sipAfterScheme net; have h2 := silent_sipAfterSchemeWithoutParam net
  have := silent_telAfterScheme; have := silent_telAfterSchemeWithoutParam
  unfold parseUriAfterScheme
  silent
  all_goals first | exact h1 _ | exact h2 _
theorem silent_tokens : Silent parseTokens := by
  unfold parseTokens
  have : Silent (P.forLoop tokensBody ()) := Silent.forLoop (fun s => by unfold tokensBody; silent) _
  silent
theorem silent_displayName : Silent parseDisplayName := by
  unfold parseDisplayName
  have := silent_tokens
  silent
theorem silent_displayLaquot : Silent parseDisplayLaquot := by
  unfold parseDisplayLaquot
  have := silent_displayName
  silent
theorem silent_nameAddr (net : Net) : Silent (parseNameAddr net) := by
  unfold parseNameAddr
  have := silent_displayLaquot; have := silent_addrScheme; have h1 := silent_uriAfterScheme net
  silent
  all_goals exact h1 _ _

/-! ## The address: a first attempt that fails for want of memory stays without consequence -/

/-- a failed attempt at a scheme leaves the memory alone or has consumed memory without reporting; it reports only when the scheme does not fit into the arena -/
theorem otherScheme_none {c c' : Ctx} (e : parseOtherScheme c = .ok (none, c')) :
    c'.src = c.src ∧ c.used ≤ c'.used ∧ c'.cap = c.cap ∧
    (c'.errs = c.errs ∨ (c'.used = c.used ∧ (∃ b, c.cur? = some b ∧ isAlpha b = true) ∧ c.cap ≤ c.used + 2 + (c.rest.takeWhile csUriScheme.mem).length)) := by
  unfold parseOtherScheme at e
  rw [P.peek_bind] at e
  rcases hb : c.cur? with _ | b <;> rw [hb] at e <;> dsimp only at e
  · cases e; exact ⟨rfl, Nat.le_refl _, rfl, Or.inl rfl⟩
  · by_cases ha : isAlpha b = true
    · rw [if_pos ha] at e
      rcases hs : P.str csUriScheme c with ⟨_ | v, d⟩ | _ | _
      · rw [P.bind_none hs] at e
        cases e
        unfold P.str parseStr at hs; dsimp only at hs
        have hne : (c.rest.takeWhile csUriScheme.mem).length ≠ 0 := by
          have hr : ∃ z, c.rest = b :: z := by
            unfold Ctx.cur? at hb
            have := List.getElem?_drop (xs := c.src) (i := c.pos) (j := 0)
            rw [Nat.add_zero, hb] at this
            unfold Ctx.rest
            match hz : c.src.drop c.pos with
            | [] => rw [hz] at this; cases this
            | x :: z => rw [hz] at this; cases this; exact ⟨z, rfl⟩
          obtain ⟨z, hz⟩ := hr
          have hm : csUriScheme.mem b = true := by
            have : ∀ b : UInt8, isAlpha b = true → csUriScheme.mem b = true := by decide +kernel
            exact this b ha
          rw [hz, List.takeWhile_cons, if_pos hm]; simp
        repeat' split at hs
        all_goals first | (cases hs; done) | skip
        all_goals cases hs
        · exact ⟨rfl, Nat.le_refl _, rfl, Or.inr ⟨rfl, ⟨b, rfl, ha⟩, by omega⟩⟩
        · omega
        · exact ⟨rfl, Nat.le_refl _, rfl, Or.inr ⟨rfl, ⟨b, rfl, ha⟩, by omega⟩⟩
      · rw [P.bind_ok hs] at e
        have hq := Silent.str _ _ _ _ hs
        have hf : d.src = c.src ∧ c.used ≤ d.used ∧ d.cap = c.cap := by
          have := CapAll.str csUriScheme c _ _ hs; exact ⟨this.1, this.2.1, this.2.2.1⟩
        rw [P.peek_bind] at e
        split at e
        · cases e
        · cases e; exact ⟨hf.1, hf.2.1, hf.2.2, Or.inl hq⟩
      · rw [P.bind_apply, hs] at e; cases e
      · rw [P.bind_apply, hs] at e; cases e
    · rw [if_neg ha] at e; cases e; exact ⟨rfl, Nat.le_refl _, rfl, Or.inl rfl⟩

theorem addrScheme_none {c c' : Ctx} (e : parseAddrScheme c = .ok (none, c')) :
    c'.src = c.src ∧ c.used ≤ c'.used ∧ c'.cap = c.cap ∧
    (c'.errs = c.errs ∨ (c'.used = c.used ∧ (∃ b, c.cur? = some b ∧ isAlpha b = true) ∧ c.cap ≤ c.used + 2 + (c.rest.takeWhile csUriScheme.mem).length)) := by
  unfold parseAddrScheme at e
  repeat' split at e
  all_goals first | (cases e; done) | exact otherScheme_none e | skip
  all_goals (cases e; exact ⟨rfl, Nat.le_refl _, rfl, Or.inl rfl⟩)

theorem parseLWS_ge {src : Bytes} {pos p : Nat} {b : Bool} (h : parseLWS src pos = (p, b)) : pos ≤ p := by
  unfold parseLWS at h; dsimp only at h
  unfold skipWhile at h
  repeat' split at h
  all_goals (cases h; omega)

theorem runLen_takeWhile (p : UInt8 → Bool) (l : Bytes) : runLen p l = (l.takeWhile p).length := by
  induction l with
  | nil => rfl
  | cons b l ih =>
    rw [List.takeWhile_cons]
    by_cases h : p b = true
    · rw [runLen_cons_true h, if_pos h, ih]; rfl
    · rw [runLen_cons_false (by simpa using h), if_neg h]; rfl

/-- a round of the loop over the tokens of a display name -/
theorem tokensBody_some {c c' : Ctx} {r : Unit ⊕ Unit} (e : tokensBody () c = .ok (some r, c')) :
    c'.used = c.used ∧ c'.cap = c.cap ∧ c.pos ≤ c'.pos ∧
    ((∃ b, c.cur? = some b ∧ csSipToken.mem b = true) → c.pos + (c.rest.takeWhile csSipToken.mem).length ≤ c'.pos) := by
  unfold tokensBody at e
  rw [P.peek_bind] at e
  rcases hb : c.cur? with _ | b <;> rw [hb] at e <;> dsimp only at e
  · cases e; exact ⟨rfl, rfl, Nat.le_refl _, fun ⟨b, h, _⟩ => by cases h⟩
  · by_cases ht : csSipToken.mem b = true
    · rw [if_pos ht] at e
      obtain ⟨u, c1, e1, e2⟩ := P.bind_some e
      cases e2
      unfold P.orBack at e1
      rcases hl : (do P.skipRun csSipToken; P.lws) c with ⟨_ | a, d⟩ | _ | _ <;> rw [hl] at e1 <;> cases e1
      have hl : P.lws (c.setPos (skipWhile csSipToken.mem c.src c.pos)) = .ok (some (), c') := hl
      unfold P.lws at hl
      have hw : skipWhile csSipToken.mem c.src c.pos = c.pos + (c.rest.takeWhile csSipToken.mem).length := by
        unfold skipWhile; rw [runLen_takeWhile]; rfl
      split at hl <;> rename_i hp <;> cases hl
      have := parseLWS_ge hp
      dsimp only [Ctx.setPos] at this
      refine ⟨rfl, rfl, ?_, fun _ => ?_⟩ <;> (dsimp only [Ctx.setPos]; omega)
    · rw [if_neg ht] at e; cases e
      exact ⟨rfl, rfl, Nat.le_refl _, fun ⟨b', h, h2⟩ => by cases h; exact absurd h2 ht⟩

theorem tokensLoop_some (n : Nat) : ∀ {c c' : Ctx}, P.loop tokensBody n () c = .ok (some (), c') →
    c'.used = c.used ∧ c'.cap = c.cap ∧ c.pos ≤ c'.pos ∧
    ((∃ b, c.cur? = some b ∧ csSipToken.mem b = true) → c.pos + (c.rest.takeWhile csSipToken.mem).length ≤ c'.pos) := by
  induction n with
  | zero => intro c c' e; cases e
  | succ n ih =>
    intro c c' e
    unfold P.loop at e
    obtain ⟨r, c1, e1, e2⟩ := P.bind_some e
    obtain ⟨a1, a2, a3, a4⟩ := tokensBody_some e1
    cases r with
    | inl s =>
      obtain ⟨b1, b2, b3, b4⟩ := ih e2
      exact ⟨b1.trans a1, b2.trans a2, Nat.le_trans a3 b3, fun h => Nat.le_trans (a4 h) b3⟩
    | inr s => cases e2; exact ⟨a1, a2, a3, a4⟩

theorem tokens_some {c c' : Ctx} {v : Bytes} (e : parseTokens c = .ok (some v, c')) (h : ∃ b, c.cur? = some b ∧ csSipToken.mem b = true) (hs : c.pos ≤ c.src.length) :
    c'.cap = c.cap ∧ c.used + 2 + (c.rest.takeWhile csSipToken.mem).length ≤ c'.used := by
  unfold parseTokens at e
  rw [P.get_bind] at e
  obtain ⟨u, c1, e1, e2⟩ := P.bind_some e
  obtain ⟨a1, a2, a3, a4⟩ := tokensLoop_some _ e1
  have a4 := a4 h
  rw [P.get_bind] at e2
  have e2 := P.orErr_some e2
  unfold P.allocStr allocStr at e2
  have hr := takeWhile_len_le csSipToken c hs
  have hlen : (c.rest.takeWhile csSipToken.mem).length ≤ ((c.src.drop c.pos).take (c1.pos - c.pos)).length := by
    rw [List.length_take, List.length_drop]; omega
  split at e2 <;> rename_i hh <;> split at hh <;> cases hh <;> cases e2
  exact ⟨a2, by dsimp only; omega⟩

theorem uriAfterScheme_needs {net : Net} {b : Bool} {t : UriType} {c c' : Ctx} {u : AddrUri} (e : parseUriAfterScheme net b t c = .ok (some u, c')) :
    c.used + 10 ≤ c.cap := by
  have key : ∀ {n : Nat} {β : Type} {f : Unit → P β} {x : β}, (P.orErr (P.alloc n) >>= f) c = .ok (some x, c') → c.used + n ≤ c.cap := by
    intro n β f x e
    obtain ⟨_, c1, e1, _⟩ := P.bind_some e
    have e1 := P.orErr_some e1
    unfold P.alloc Ctx.alloc at e1
    by_cases h : c.used + n > c.cap
    · rw [if_pos h] at e1; cases e1
    · omega
  cases t <;> unfold parseUriAfterScheme at e <;> dsimp only at e
  · cases e
  · have := key e; omega
  · have := key e; omega
  · exact key e
  · cases e

theorem scheme_run_token (l : Bytes) : (l.takeWhile csUriScheme.mem).length ≤ (l.takeWhile csSipToken.mem).length := by
  have ht : ∀ b : UInt8, csUriScheme.mem b = true → csSipToken.mem b = true := by decide +kernel
  induction l with
  | nil => exact Nat.le_refl _
  | cons b l ih =>
    rw [List.takeWhile_cons, List.takeWhile_cons]
    by_cases h : csUriScheme.mem b = true
    · rw [if_pos h, if_pos (ht b h)]; simp only [List.length_cons]; omega
    · rw [if_neg h]; exact Nat.zero_le _

/-- a name that does not fit into the arena as a scheme does not fit as a display name with a URI behind it -/
theorem nameAddr_no_memory (net : Net) {c : Ctx} (hb : ∃ b, c.cur? = some b ∧ isAlpha b = true)
    (hm : c.cap ≤ c.used + 2 + (c.rest.takeWhile csUriScheme.mem).length) (a : Addr) (c' : Ctx) : parseNameAddr net c ≠ .ok (some a, c') := by
  intro e
  obtain ⟨b, hb, ha⟩ := hb
  have hlt : c.pos < c.src.length := by
    unfold Ctx.cur? at hb
    rcases Nat.lt_or_ge c.pos c.src.length with h | h
    · exact h
    · rw [List.getElem?_eq_none h] at hb; cases hb
  have ha1 : ∀ b : UInt8, isAlpha b = true → isLwsChar b = false ∧ b ≠ 0x3c ∧ csSipToken.mem b = true := by decide +kernel
  obtain ⟨f1, f2, f3⟩ := ha1 b ha
  have hsws : c.sws = c := by
    unfold Ctx.sws
    rw [if_neg (by omega), if_pos]
    unfold Ctx.cur? at hb
    rw [hb]; simp [f1]
  unfold parseNameAddr at e
  rw [P.sws_bind, hsws] at e
  obtain ⟨d, c1, e1, e2⟩ := P.bind_some e
  obtain ⟨t, c2, e2b, e3⟩ := P.bind_some e2
  obtain ⟨u, c3, e3b, -⟩ := P.bind_some e3
  unfold parseDisplayLaquot at e1
  rw [P.peek_bind, hb] at e1
  dsimp only at e1
  rw [if_pos f2] at e1
  obtain ⟨n, c4, e4, e5⟩ := P.bind_some e1
  obtain ⟨_, c5, e5b, e6⟩ := P.bind_some e5
  cases e6
  unfold parseDisplayName at e4
  rw [P.peek_bind, hb] at e4
  dsimp only at e4
  rw [if_pos f3] at e4
  obtain ⟨v, c6, e7, e8⟩ := P.bind_some e4
  cases e8
  obtain ⟨g1, g2⟩ := tokens_some e7 ⟨b, hb, f3⟩ (by omega)
  have h5 := CapAll.laquot _ _ _ e5b
  have h2 := cap_addrScheme _ _ _ e2b
  have h3 := uriAfterScheme_needs e3b
  have hr := scheme_run_token c.rest
  have := h5.2.1; have := h5.2.2.1; have := h2.2.1; have := h2.2.2.1
  omega

/-- **C50** an address -/
theorem silent_addr (net : Net) (params : Bool) : Silent (parseAddr net params) := by
  intro c a c' e
  have h1 := silent_uriAfterScheme net
  unfold parseAddr at e
  rw [P.peek_bind] at e
  rcases hb : c.cur? with _ | b <;> rw [hb] at e <;> dsimp only at e
  · cases e
  · split at e
    · exact silent_nameAddr net _ _ _ e
    · obtain ⟨t, c1, e1, e2⟩ := P.bind_some e
      unfold P.orElse at e1
      rw [P.bind_apply] at e1
      rcases hs : parseAddrScheme c with ⟨_ | t', d⟩ | _ | _ <;> rw [hs] at e1 <;> cases e1
      · obtain ⟨k1, k2, k3, k4⟩ := addrScheme_none hs
        have e2 : parseNameAddr net (d.setPos c.pos) = .ok (some a, c') := e2
        rcases k4 with k4 | ⟨k4, ⟨b', hb', hal⟩, k5⟩
        · exact (silent_nameAddr net _ _ _ e2).trans k4
        · exfalso
          have q1 : (d.setPos c.pos).cur? = c.cur? := by unfold Ctx.cur?; rw [← k1]; rfl
          have q2 : (d.setPos c.pos).rest = c.rest := by unfold Ctx.rest; rw [← k1]; rfl
          refine nameAddr_no_memory net ⟨b', q1.trans hb', hal⟩ ?_ a c' e2
          rw [q2]
          show d.cap ≤ d.used + 2 + _
          rw [k3, k4]; exact k5
      · have hq := silent_addrScheme _ _ _ hs
        obtain ⟨u, c2, e3, e4⟩ := P.bind_some (show (parseUriAfterScheme net params t' >>= fun u => (pure (Addr.mk false none u) : P Addr)) c1 = .ok (some a, c') from e2)
        cases e4
        exact (h1 _ _ _ _ _ e3).trans hq

theorem silent_addrSpec (net : Net) : Silent (parseAddrSpec net) := by
  unfold parseAddrSpec
  have := silent_addrScheme; have h1 := silent_uriAfterScheme net
  silent
  all_goals exact h1 _ _

/-! ## Headers and the start line -/

theorem silent_hparams (k : HKind) : Silent k.params := silent_params _ _

theorem silent_headerValue (net : Net) (k : HKind) : Silent (k.parseValue net) := by
  have h1 := silent_addr net false; have h2 := silent_nameAddr net; have h3 := silent_hparams; have h4 := silent_hostPort net
  cases k <;> unfold HKind.parseValue <;> dsimp only <;>
    first
    | (unfold parseAddrParams; silent; exact h3 _)
    | (unfold parseRouteParams; silent; exact h3 _)
    | (unfold parseContact parseAddrParams; silent; exact h3 _)
    | (unfold parseIdentity; silent; done)
    | (unfold parseVia parseSentProtocol parseOtherProtocol; silent; exact h3 _)
    | (unfold parseCallId; silent; done)
    | (unfold parseCSeq; silent; done)
    | (unfold parseRAck; silent; done)
    | (unfold parseNum; silent; done)
    | (unfold parseContentType; silent; exact h3 _)
    | (unfold parseContentDisposition; silent; exact h3 _)

theorem silent_headerName (k : HKind) : Silent k.parseName := by
  intro c a c' e
  unfold HKind.parseName at e; split at e <;> cases e; rfl
theorem silent_headerAlloc (net : Net) (k : HKind) : Silent (k.parseAlloc net) := by
  unfold HKind.parseAlloc
  exact Silent.bind (Silent.orErr (Silent.alloc _)) (fun _ => silent_headerValue net k)
/-- **C50** a header -/
theorem silent_header (net : Net) (k : HKind) : Silent (k.parse net) := by
  unfold HKind.parse
  have := silent_headerName k; have := silent_headerValue net k
  silent
theorem silent_majorMinor : Silent Version.parseMajorMinor := by
  intro c a c' e
  unfold Version.parseMajorMinor at e
  dsimp only at e
  split at e
  · cases e
  · split at e
    · cases e
    · split at e
      · cases e
      · split at e <;> rename_i hp
        · split at e <;> cases e
          exact Silent.strFromPos _ _ _ _ _ hp
        · cases e
        · cases e
        · cases e
theorem silent_versionAfterStart : Silent Version.parseAfterStart := by
  unfold Version.parseAfterStart
  have := silent_majorMinor
  silent
theorem versionStart_errs {c c' : Ctx} {r : Option Unit} (e : Version.parseStart c = .ok (r, c')) : c'.errs = c.errs := by
  unfold Version.parseStart at e
  repeat' split at e
  all_goals cases e
  all_goals rfl
theorem silent_versionStart : Silent Version.parseStart := fun _ _ _ e => versionStart_errs e
theorem silent_version : Silent Version.parse := by
  unfold Version.parse
  have := silent_versionStart; have := silent_versionAfterStart
  silent
theorem silent_sp : Silent P.sp := by unfold P.sp; silent

/-- **C50** a Request-Line or a Status-Line -/
theorem silent_startLine (net : Net) : Silent (StartLine.parse net) := by
  unfold StartLine.parse
  refine Silent.bind (p := P.orElse (do Version.parseStart; pure true) (pure false)) (fun c a c' e => ?_) (fun s => ?_)
  · unfold P.orElse at e
    rw [P.bind_apply] at e
    rcases hs : Version.parseStart c with ⟨_ | t', d⟩ | _ | _ <;> rw [hs] at e <;> cases e
    · exact (show (d.setPos c.pos).errs = d.errs from rfl).trans (versionStart_errs hs)
    · exact versionStart_errs hs
  · unfold StartLine.parseStatus StartLine.parseRequest
    have := silent_version; have := silent_versionAfterStart; have := silent_sp; have := silent_addrSpec net
    silent

theorem silent_rawValue : Silent parseRawHeaderValue := by
  unfold parseRawHeaderValue
  silent
theorem silent_rawHeader (i : Nat) (n : Option Bytes) : Silent (parseRawHeader i n) := by
  unfold parseRawHeader
  have := silent_rawValue
  silent
theorem silent_storeName (r : Nat × Nat) : Silent (storeName r) := by
  obtain ⟨i, p⟩ := r
  cases i with
  | zero => exact Silent.bind (Silent.strFromPos _ _) (fun _ => Silent.ret _)
  | succ i => exact Silent.getSet (n := fun _ => p) (f := fun _ _ => pure (none, i + 1)) (fun c => Silent.ret _)
theorem silent_msgHeaderName : Silent parseMsgHeaderName := by
  unfold parseMsgHeaderName
  have h := silent_storeName
  silent
  exact h _

/-! ## The list of headers

The comma parser reports the end of the input although its caller goes on; the only way to go on is a line end with white space behind it, at which the next header
name fails. -/

/-- the next byte is a blank or a tab -/
def AtWsp (c : Ctx) : Prop := ∃ b, c.cur? = some b ∧ isWspChar b = true

/-- on success the list of errors is the one before, or the input goes on with white space -/
def SilentOr {α : Type} (p : P α) : Prop := ∀ c a c', p c = .ok (some a, c') → c'.errs = c.errs ∨ AtWsp c'

theorem comma_errs {c c' : Ctx} {b : Bool} (e : P.comma c = .ok (some b, c')) : (b = false → c'.pos = c.pos ∧ c'.src = c.src) ∧ (b = true → c'.errs = c.errs) := by
  unfold P.comma parseSWSMarkCanOmmit at e; dsimp only at e
  have hs := Ctx.sws_fields c
  by_cases h1 : c.sws.pos ≥ c.sws.src.length
  · simp only [if_pos h1] at e
    cases e
    exact ⟨fun _ => ⟨rfl, hs.1⟩, fun h => by cases h⟩
  · simp only [if_neg h1] at e
    by_cases h2 : c.sws.src[c.sws.pos]? ≠ some 0x2c
    · simp only [if_pos h2] at e
      cases e
      exact ⟨fun _ => ⟨rfl, hs.1⟩, fun h => by cases h⟩
    · simp only [if_neg h2] at e
      cases e
      exact ⟨fun h => (by cases h), fun _ => (Ctx.sws_errs _).trans (Ctx.sws_errs c)⟩

theorem crlf_wsp {c c' : Ctx} (e : P.crlf c = .ok (some (), c')) (h : isOnlyCRLF c.src c.pos = false) : AtWsp c' := by
  unfold P.crlf P.ofBool parseCRLF at e
  by_cases hc : c.pos + 1 < c.src.length ∧ c.src[c.pos]? = some 0x0d ∧ c.src[c.pos + 1]? = some 0x0a
  · rw [if_pos hc] at e
    cases e
    obtain ⟨h1, h2, h3⟩ := hc
    unfold isOnlyCRLF at h
    rw [h2, h3] at h
    by_cases h4 : c.pos + 2 < c.src.length
    · rw [if_pos h4] at h
      rcases h5 : c.src[c.pos + 2]? with _ | b
      · rw [List.getElem?_eq_none_iff] at h5; omega
      · rw [h5] at h
        refine ⟨b, h5, ?_⟩
        simpa using h
    · rw [if_neg h4, decide_eq_true (show c.pos + 2 = c.src.length by omega)] at h
      simp at h
  · rw [if_neg hc] at e; cases e

theorem silent_valuesBody_inl {net : Net} {k : HKind} {s s' : List HVal × HVal} {c c' : Ctx} (e : valuesBody net k s c = .ok (some (.inl s'), c')) :
    c'.errs = c.errs := by
  obtain ⟨acc, v⟩ := s
  unfold valuesBody at e
  dsimp only at e
  rw [P.get_bind] at e
  split at e
  · cases e
  · split at e
    · cases e
    · obtain ⟨m, c1, e1, e2⟩ := P.bind_some e
      cases m with
      | true =>
        rw [if_pos rfl] at e2
        obtain ⟨w, c2, e2, e3⟩ := P.bind_some e2
        cases e3
        exact (silent_headerAlloc net k _ _ _ e2).trans ((comma_errs e1).2 rfl)
      | false =>
        rw [if_neg (by simp)] at e2
        obtain ⟨w, c2, e2, e3⟩ := P.bind_some e2
        cases e3

theorem silent_valuesBody_inr {net : Net} {k : HKind} {s : List HVal × HVal} {r : List HVal} {c c' : Ctx} (e : valuesBody net k s c = .ok (some (.inr r), c')) :
    c'.errs = c.errs ∨ AtWsp c' := by
  obtain ⟨acc, v⟩ := s
  unfold valuesBody at e
  dsimp only at e
  rw [P.get_bind] at e
  split at e
  · cases e; exact Or.inl rfl
  · split at e
    · cases e; exact Or.inl rfl
    · rename_i hn
      obtain ⟨m, c1, e1, e2⟩ := P.bind_some e
      cases m with
      | true =>
        rw [if_pos rfl] at e2
        obtain ⟨w, c2, e2, e3⟩ := P.bind_some e2
        cases e3
      | false =>
        rw [if_neg (by simp)] at e2
        obtain ⟨w, c2, e2, e3⟩ := P.bind_some e2
        cases e3
        have := (comma_errs e1).1 rfl
        exact Or.inr (crlf_wsp e2 (by rw [this.1, this.2]; simpa using hn))

theorem silentOr_values (net : Net) (k : HKind) (n : Nat) : ∀ s, SilentOr (P.loop (valuesBody net k) n s) := by
  induction n with
  | zero => intro s c a c' e; cases e
  | succ n ih =>
    intro s c a c' e
    unfold P.loop at e
    obtain ⟨r, c1, e1, e2⟩ := P.bind_some e
    cases r with
    | inl s' =>
      have h1 := silent_valuesBody_inl e1
      rcases ih s' _ _ _ e2 with h | h
      · exact Or.inl (h.trans h1)
      · exact Or.inr h
    | inr r => cases e2; exact silent_valuesBody_inr e1

theorem silentOr_headerValues (net : Net) (k : HKind) : SilentOr (parseHeaderValues net k) := by
  intro c a c' e
  unfold parseHeaderValues at e
  obtain ⟨v, c1, e1, e2⟩ := P.bind_some e
  have h1 := silent_headerAlloc net k _ _ _ e1
  split at e2
  · rcases silentOr_values net k _ _ _ _ _ e2 with h | h
    · exact Or.inl (h.trans h1)
    · exact Or.inr h
  · have : Silent (do P.crlf; pure [v] : P (List HVal)) := by silent
    exact Or.inl ((this _ _ _ e2).trans h1)

theorem silentOr_headerLine (net : Net) (need : HKind → Bool) (n : Option Bytes × Nat) : SilentOr (parseHeaderLine net need n) := by
  obtain ⟨n, i⟩ := n
  intro c a c' e
  have h1 := silent_rawHeader i n
  have h2 : Silent (do let h ← parseRawHeader i n; pure [HItem.raw h] : P (List HItem)) := by silent
  unfold parseHeaderLine at e
  dsimp only at e
  rcases hk : HKind.ofIndex i with _ | k <;> rw [hk] at e <;> dsimp only at e
  · exact Or.inl (h2 _ _ _ e)
  · by_cases hn : need k = true
    · rw [if_pos hn] at e
      obtain ⟨v, c1, e1, e2⟩ := P.bind_some e
      cases e2
      exact silentOr_headerValues net _ _ _ _ e1
    · rw [if_neg hn] at e
      exact Or.inl (h2 _ _ _ e)

/-- there is no header name at a blank or a tab -/
theorem msgHeaderName_wsp {c : Ctx} (h : AtWsp c) (a : Option Bytes × Nat) (c' : Ctx) : parseMsgHeaderName c ≠ .ok (some a, c') := by
  intro e
  obtain ⟨b, hb, hw⟩ := h
  have hr : ∃ z, c.src.drop c.pos = b :: z := by
    unfold Ctx.cur? at hb
    have := List.getElem?_drop (xs := c.src) (i := c.pos) (j := 0)
    rw [Nat.add_zero, hb] at this
    match hz : c.src.drop c.pos with
    | [] => rw [hz] at this; cases this
    | x :: z => rw [hz] at this; cases this; exact ⟨z, rfl⟩
  obtain ⟨z, hz⟩ := hr
  have hfact : ∀ b : UInt8, isWspChar b = true → Rfc.token b = false ∧ b ≠ 0x0d ∧ csSipToken.mem b = false := by decide +kernel
  obtain ⟨f1, f2, f3⟩ := hfact b hw
  unfold parseMsgHeaderName at e
  obtain ⟨r, c1, e1, e2⟩ := P.bind_some e
  have hc : c1 = c ∧ getSipHeaderIndex c.src c.pos = .ok r := by
    unfold P.headerIndex at e1; split at e1 <;> cases e1; exact ⟨rfl, by assumption⟩
  obtain ⟨rfl, hi⟩ := hc
  obtain ⟨i', k, hk1, hk2, hk3⟩ := header_index_returns c1.src c1.pos (by rw [hi]; simp)
  rw [hi] at hk1; cases hk1
  have hk : k = 0 := by
    rcases k with _ | k
    · rfl
    · rw [hz, List.take_succ_cons] at hk3
      rcases hk3 b (List.mem_cons_self ..) with h | h
      · rw [f1] at h; cases h
      · exact absurd h f2
  subst hk
  obtain ⟨n, c2, e3, e4⟩ := P.bind_some e2
  cases i' with
  | zero =>
    obtain ⟨v, c3, e5, e6⟩ := P.bind_some (show (parseStrFromPos csSipToken (c1.pos + 0) >>= fun n => (pure (some n, 0) : P (Option Bytes × Nat))) c1 = _ from e3)
    unfold parseStrFromPos at e5
    dsimp only at e5
    rw [show max c1.pos (c1.pos + 0) = c1.pos from by omega, hz, List.takeWhile_cons, if_neg (show ¬ csSipToken.mem b = true by rw [f3]; simp)] at e5
    repeat' split at e5
    all_goals first | (cases e5; done) | skip
    all_goals (rename_i h _; exact h (by simp))
  | succ i =>
    obtain ⟨name, w, m, y, g1, g2, g3, g4, g5, g6⟩ := header_index_sound_nameAs _ _ _ _ (Nat.succ_ne_zero i) hi
    have h0 : w.length = 0 := by omega
    have hm : m = [] := List.length_eq_zero_iff.1 ((nameAs_length g3).symm.trans h0)
    have := (headerTable_facts _ g1).2.1
    exact (sameLetters_token g4 (headerTable_facts _ g1).2.2 this).1 hm

theorem isCRLF_not_wsp {c : Ctx} (h : isCRLF c.src c.pos = true) : ¬ AtWsp c := by
  rintro ⟨b, hb, hw⟩
  unfold isCRLF at h
  simp only [Bool.and_eq_true, decide_eq_true_eq] at h
  have := hb.symm.trans h.1.2
  cases this
  exact absurd hw (by decide)

theorem headersLoop_silent (net : Net) (need : HKind → Bool) (n : Nat) : ∀ s c a c', P.loop (headersBody net need) n s c = .ok (some a, c') →
    ¬ AtWsp c ∧ c'.errs = c.errs := by
  induction n with
  | zero => intro s c a c' e; cases e
  | succ n ih =>
    intro s c a c' e
    unfold P.loop at e
    obtain ⟨r, c1, e1, e2⟩ := P.bind_some e
    unfold headersBody at e1
    rw [P.get_bind] at e1
    split at e1
    · rename_i hp
      cases e1; cases e2
      refine ⟨fun ⟨b, hb, _⟩ => ?_, rfl⟩
      unfold Ctx.cur? at hb
      rw [List.getElem?_eq_none hp] at hb; cases hb
    · split at e1
      · rename_i hc
        cases e1; cases e2
        exact ⟨isCRLF_not_wsp hc, rfl⟩
      · obtain ⟨m, c2, e3, e4⟩ := P.bind_some e1
        obtain ⟨hs, c3, e5, e6⟩ := P.bind_some e4
        cases e6
        have e3 := P.orErr_some e3
        obtain ⟨k1, k2⟩ := ih _ _ _ _ e2
        refine ⟨fun h => msgHeaderName_wsp h _ _ e3, ?_⟩
        rcases silentOr_headerLine net need m _ _ _ e5 with h | h
        · exact k2.trans (h.trans (silent_msgHeaderName _ _ _ e3))
        · exact absurd h k1

theorem silent_headers (net : Net) (need : HKind → Bool) : Silent (parseHeaders net need) :=
  fun c a c' e => (headersLoop_silent net need _ _ _ _ _ e).2

theorem silent_rawHeaders : Silent parseRawHeaders := by
  refine Silent.forLoop (fun s => ?_) _
  unfold rawHeadersBody
  have := silent_msgHeaderName; have h1 := silent_rawHeader
  silent
  all_goals exact h1 _ _

theorem silent_singleBody (hs : Hdrs) : Silent (parseSingleBody hs) := by
  unfold parseSingleBody
  refine Silent.bind Silent.getp (fun c => ?_)
  dsimp only
  silent

theorem silent_bodyPart (net : Net) (d : Bytes) : Silent (parseBodyPart net d) := by
  unfold parseBodyPart
  silent
  all_goals exact silent_headers _ _

theorem silent_multiBody (net : Net) (b : Bytes) : Silent (parseMultiBody net b) := by
  unfold parseMultiBody
  have : ∀ d, Silent (P.forLoop (multiBody net d) []) := by
    intro d
    refine Silent.forLoop (fun s => ?_) _
    unfold multiBody
    have := silent_bodyPart net d
    silent
  dsimp only
  silent
  exact this _

theorem silent_msgBody (net : Net) (hs : Hdrs) : Silent (parseMsgBody net hs) := by
  unfold parseMsgBody
  have h1 := silent_multiBody net; have h2 := silent_singleBody hs
  silent
  all_goals exact h1 _

theorem silent_msg (net : Net) : Silent (Msg.parse net) := by
  unfold Msg.parse
  have := silent_startLine net; have h1 := silent_headers net; have h2 := silent_msgBody net
  silent
  all_goals first | exact h1 _ | exact h2 _

/-! ## In plain words -/

/-- **C50** an accepted message leaves no error in a fresh context; with C31: the list of errors is empty exactly when the message was accepted -/
theorem msg_errors_iff (net : Net) (hnet : net.Ok) (s : Bytes) (cap : Nat) (h8 : 8 ≤ cap) (fl : Flags) (r : Option Msg) (c' : Ctx)
    (h : Msg.parse net (fresh s cap fl) = .ok (r, c')) : c'.errs = [] ↔ ∃ m, r = some m := by
  cases r with
  | none => exact ⟨fun he => absurd he (msg_rejected_has_error net hnet s cap h8 fl c' h), fun ⟨m, hm⟩ => by cases hm⟩
  | some m => exact ⟨fun _ => ⟨m, rfl⟩, fun _ => silent_msg net _ _ _ h⟩

/-- **C50** the same for every header parser -/
theorem header_errors_iff (net : Net) (hnet : net.Ok) (k : HKind) (s : Bytes) (cap : Nat) (h8 : 8 ≤ cap) (fl : Flags) (r : Option HVal) (c' : Ctx)
    (h : k.parse net (fresh s cap fl) = .ok (r, c')) : c'.errs = [] ↔ ∃ v, r = some v := by
  cases r with
  | none => exact ⟨fun he => absurd he (header_rejected_has_error net hnet k s cap h8 fl c' h), fun ⟨m, hm⟩ => by cases hm⟩
  | some m => exact ⟨fun _ => ⟨m, rfl⟩, fun _ => silent_header net k _ _ _ h⟩

/-- **C50** a start line -/
theorem startLine_errors_iff (net : Net) (hnet : net.Ok) (s : Bytes) (cap : Nat) (h8 : 8 ≤ cap) (fl : Flags) (r : Option StartLine) (c' : Ctx)
    (h : StartLine.parse net (fresh s cap fl) = .ok (r, c')) : c'.errs = [] ↔ ∃ v, r = some v := by
  cases r with
  | none =>
    have := (startLine_safe net hnet _ (fresh_inv (s := s) (fl := fl) h8)).none rfl _ h
    exact ⟨fun he => by rw [he] at this; simp [fresh] at this, fun ⟨m, hm⟩ => by cases hm⟩
  | some m => exact ⟨fun _ => ⟨m, rfl⟩, fun _ => silent_startLine net _ _ _ h⟩

/-- **C50** a SIP URI -/
theorem sipUri_errors_iff (net : Net) (hnet : net.Ok) (s : Bytes) (cap : Nat) (h8 : 8 ≤ cap) (fl : Flags) (r : Option SipUri) (c' : Ctx)
    (h : SipUri.parse net (fresh s cap fl) = .ok (r, c')) : c'.errs = [] ↔ ∃ v, r = some v := by
  cases r with
  | none =>
    have := (sipUri_safe net hnet _ (fresh_inv (s := s) (fl := fl) h8)).none rfl _ h
    exact ⟨fun he => by rw [he] at this; simp [fresh] at this, fun ⟨m, hm⟩ => by cases hm⟩
  | some m => exact ⟨fun _ => ⟨m, rfl⟩, fun _ => silent_sipUri net _ _ _ h⟩

/-- **C50, fault** a list of header values that is accepted by itself may have left an error: the comma parser reports the end of the input and the list goes on -/
theorem values_success_with_error :
    (parseHeaderValues Net.sample .pAssertedIdentity (fresh (str "sip:a@b\r\n ") 1000 {})).all (fun r => r.1.isSome && decide (r.2.errs = [10])) = true := by decide +kernel

/-! ## Where errors are reported -/

/-- the errors of a run are added in front of the earlier ones, at positions between where the parser was started and the end of the input -/
def ReportsInside {α : Type} (p : P α) : Prop := ∀ c, c.pos ≤ c.src.length → c.used ≤ c.cap → ∀ r c', p c = .ok (r, c') →
  ∃ xs, c'.errs = xs ++ c.errs ∧ ∀ x ∈ xs, c.pos ≤ x ∧ x ≤ c.src.length

/-- **C50** a message, a header, a start line, a URI, an address, a host: errors are reported inside the text that was to be parsed -/
theorem msg_reports_inside (net : Net) (hnet : net.Ok) : ReportsInside (Msg.parse net) :=
  fun c h1 h2 _ _ e => ((msg_safe net hnet c ⟨h1, h2⟩).step _ _ e).errs
theorem header_reports_inside (net : Net) (hnet : net.Ok) (k : HKind) : ReportsInside (k.parse net) :=
  fun c h1 h2 _ _ e => ((header_safe net hnet k c ⟨h1, h2⟩).step _ _ e).errs
theorem startLine_reports_inside (net : Net) (hnet : net.Ok) : ReportsInside (StartLine.parse net) :=
  fun c h1 h2 _ _ e => ((startLine_safe net hnet c ⟨h1, h2⟩).step _ _ e).errs
theorem sipUri_reports_inside (net : Net) (hnet : net.Ok) : ReportsInside (SipUri.parse net) :=
  fun c h1 h2 _ _ e => ((sipUri_safe net hnet c ⟨h1, h2⟩).step _ _ e).errs
theorem telUri_reports_inside : ReportsInside TelUri.parse :=
  fun c h1 h2 _ _ e => ((telUri_safe 2 c ⟨h1, h2⟩ (Or.inl (Nat.le_refl _))).step _ _ e).errs
theorem addr_reports_inside (net : Net) (hnet : net.Ok) (params : Bool) : ReportsInside (parseAddr net params) :=
  fun c h1 h2 _ _ e => ((addr_safe net hnet params c ⟨h1, h2⟩).step _ _ e).errs
theorem hostPort_reports_inside (net : Net) (hnet : net.Ok) : ReportsInside (HostPort.parse net) :=
  fun c h1 h2 _ _ e => ((hostport_safe net hnet c ⟨h1, h2⟩).step _ _ e).errs

/-- **C50** a fresh context: no error of a message lies behind the end of the text -/
theorem msg_error_positions (net : Net) (hnet : net.Ok) (s : Bytes) (cap : Nat) (h8 : 8 ≤ cap) (fl : Flags) (r : Option Msg) (c' : Ctx)
    (h : Msg.parse net (fresh s cap fl) = .ok (r, c')) : ∀ x ∈ c'.errs, x ≤ s.length := by
  obtain ⟨xs, h1, h2⟩ := msg_reports_inside net hnet (fresh s cap fl) (Nat.zero_le _) h8 _ _ h
  rw [fresh_errs, List.append_nil] at h1
  rw [h1]
  exact fun x hx => (h2 x hx).2

/-- the newest error is at the place where the parser stopped -/
def ErrHere (c : Ctx) : Prop := c.errs.head? = some c.pos

theorem orErr_none {α : Type} {p : P α} {c c' : Ctx} (e : P.orErr p c = .ok (none, c')) : ErrHere c' := by
  unfold P.orErr at e
  rcases hpc : p c with ⟨_ | a, c1⟩ | _ | _ <;> rw [hpc] at e <;> cases e
  rfl
theorem err_none {α : Type} {c c' : Ctx} (e : (P.err : P α) c = .ok (none, c')) : ErrHere c' := by cases e; rfl
theorem bind_none_cases {α β : Type} {p : P α} {f : α → P β} {c c' : Ctx} (e : (p >>= f) c = .ok (none, c')) :
    p c = .ok (none, c') ∨ ∃ a c1, p c = .ok (some a, c1) ∧ f a c1 = .ok (none, c') := by
  rcases hpc : p c with ⟨_ | a, c1⟩ | _ | _
  · rw [P.bind_none hpc] at e; cases e; exact Or.inl rfl
  · rw [P.bind_ok hpc] at e; exact Or.inr ⟨a, c1, rfl, e⟩
  · rw [P.bind_apply, hpc] at e; cases e
  · rw [P.bind_apply, hpc] at e; cases e

/-- **C50** the newest error of a rejected message is at the place where the parser stopped -/
theorem msg_last_error (net : Net) (c c' : Ctx) (h : Msg.parse net c = .ok (none, c')) : c'.errs.head? = some c'.pos := by
  unfold Msg.parse at h
  rcases bind_none_cases h with e | ⟨s, c1, _, h⟩
  · exact orErr_none e
  rw [P.get_bind] at h
  split at h
  · exact err_none h
  · rcases bind_none_cases h with e | ⟨items, c2, _, h⟩
    · exact orErr_none e
    dsimp only at h
    rcases bind_none_cases h with e | ⟨bs, c3, _, h⟩
    · exact orErr_none e
    · cases h

/-- the hypotheses are met: a message that is rejected inside the To header, with errors at positions inside that line or behind it, and one that is accepted without errors -/
theorem errors_samples :
    (Msg.parse Net.sample (fresh (str "SIP/2.0 200 OK\r\nTo: <sip\r\n\r\n") 1000 {})).all
      (fun r => r.1.isNone && decide (r.2.errs ≠ []) && decide (r.2.errs.head? = some r.2.pos) && r.2.errs.all (fun x => decide (16 ≤ x ∧ x ≤ 30))) = true ∧
    (Msg.parse Net.sample (fresh msgSample 100000 {})).all (fun r => r.1.isSome && decide (r.2.errs = [])) = true := by
  constructor <;> decide +kernel

end Sip
