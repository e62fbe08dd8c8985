import Verif.Props.Headers
/-!
# Header values: what is accepted, position, memory, errors, panics; parse, encode, parse
-/
namespace Sip

theorem nameAddr_brackets (net : Net) (c c' : Ctx) (a : Addr) (h : parseNameAddr net c = .ok (some a, c')) : a.nameAddr = true := by
  unfold parseNameAddr at h
  obtain ⟨_, _, _, h⟩ := P.bind_some h
  obtain ⟨_, _, _, h⟩ := P.bind_some h
  obtain ⟨_, _, _, h⟩ := P.bind_some h
  obtain ⟨_, _, _, h⟩ := P.bind_some h
  obtain ⟨_, _, _, h⟩ := P.bind_some h
  cases h; rfl

/-- what the parser of the header can return -/
def HKind.Parsed (net : Net) (fl : Flags) (k : HKind) : HVal → Prop
  | .addr a ps => k.isAddr = true ∧ a.Parsed net fl false ∧ ps.Parsed k.paramNames (k.paramFlag fl) ∧ (k = .pAssertedIdentity → ps = {}) ∧ (k.isRoute = true → a.nameAddr = true)
  | .star => k = .contact
  | .via pr t h ps => k = .via ∧ (∀ x ∈ pr, x.1 ≠ [] ∧ InSet csSipToken x.1 ∧ x.2 ≠ [] ∧ InSet csSipToken x.2) ∧
      t ≠ [] ∧ InSet csSipToken t ∧ h.WF net ∧ ps.Parsed k.paramNames (k.paramFlag fl)
  | .callId a b => k = .callId ∧ a ≠ [] ∧ InSet csSipWord a ∧ ∀ x ∈ b, x ≠ [] ∧ InSet csSipWord x
  | .cseq n m => k = .cseq ∧ n < 4294967296 ∧ m.WF
  | .rack r n m => k = .rack ∧ r < 4294967296 ∧ n < 4294967296 ∧ m.WF
  | .num n => ∃ s ∈ k.numSize, n < s
  | .contentType t s ps => k = .contentType ∧ t ≠ [] ∧ InSet csSipToken t ∧ s ≠ [] ∧ InSet csSipToken s ∧ ps.Parsed k.paramNames (k.paramFlag fl)
  | .contentDisposition t ps => k = .contentDisposition ∧ t ≠ [] ∧ InSet csSipToken t ∧ ps.Parsed k.paramNames (k.paramFlag fl)

theorem HKind.names_len (k : HKind) : k.paramNames.length ≤ 5 := by cases k <;> decide

theorem safe_hparams (k : HKind) (c : Ctx) (hc : Inv c) : SafeAt 1 true 23 22 (Params.Parsed k.paramNames (k.paramFlag c.flags)) k.params c := by
  have := k.names_len
  exact (params_safe k.paramNames k.namesFine k.paramFlag c hc).mono (Nat.le_refl _) (fun h => h) (by omega) (by omega) (fun _ h => h)

theorem safe_addrParams (net : Net) (hnet : net.Ok) (k : HKind) (c : Ctx) (hc : Inv c) (hk : k.isAddr = true) (hr : k.isRoute = false) (hp : k ≠ .pAssertedIdentity) :
    SafeAt 2 true 24 98 (k.Parsed net c.flags) (parseAddrParams net k) c := by
  unfold parseAddrParams
  have ha := addr_safe net hnet false c hc
  have ha' := SafeAt.orErr (l := true) ha
  refine SafeAt.seq (B2 := 22) ha' (fun a c1 e1 h1 hc1 => ?_)
  have f1 := (ha'.step _ _ e1).flags
  have hps := safe_hparams k c1 hc1
  rw [f1] at hps
  refine SafeAt.seq (B2 := 0) hps (fun ps c2 _ h2 hc2 => SafeAt.pure hc2 ⟨hk, h1, h2, fun h => absurd h hp, fun h => by rw [hr] at h; cases h⟩)

theorem safe_routeParams (net : Net) (hnet : net.Ok) (k : HKind) (c : Ctx) (hc : Inv c) (hk : k.isAddr = true) (hp : k ≠ .pAssertedIdentity) :
    SafeAt 2 true 24 98 (k.Parsed net c.flags) (parseRouteParams net k) c := by
  unfold parseRouteParams
  have ha := (nameAddr_safe net hnet false c hc).1
  have ha' := SafeAt.orErr (l := true) ha
  refine SafeAt.seq (B2 := 22) ha' (fun a c1 e1 h1 hc1 => ?_)
  have f1 := (ha'.step _ _ e1).flags
  have hb : a.nameAddr = true := by
    rcases hpc : parseNameAddr net c with ⟨_ | a', c2⟩ | _ | _
    · rw [P.orErr] at e1; simp only [hpc] at e1; cases e1
    · rw [P.orErr_ok hpc] at e1; cases e1; exact nameAddr_brackets net c _ _ hpc
    · rw [P.orErr] at e1; simp only [hpc] at e1; cases e1
    · rw [P.orErr] at e1; simp only [hpc] at e1; cases e1
  have hps := safe_hparams k c1 hc1
  rw [f1] at hps
  refine SafeAt.seq (B2 := 0) hps (fun ps c2 _ h2 hc2 => SafeAt.pure hc2 ⟨hk, h1, h2, fun h => absurd h hp, fun _ => hb⟩)

theorem safe_identity (net : Net) (hnet : net.Ok) (c : Ctx) (hc : Inv c) : SafeAt 2 true 24 98 (HKind.pAssertedIdentity.Parsed net c.flags) (parseIdentity net) c := by
  unfold parseIdentity
  refine SafeAt.seq (B2 := 0) (SafeAt.orErr (l := true) (addr_safe net hnet false c hc)) (fun a c1 _ h1 hc1 => SafeAt.pure hc1 ?_)
  exact ⟨rfl, h1, ⟨by simp, KnownInv.nil⟩, fun _ => rfl, fun h => by cases h⟩

theorem safe_contact (net : Net) (hnet : net.Ok) (c : Ctx) (hc : Inv c) : SafeAt 2 true 24 98 (HKind.contact.Parsed net c.flags) (parseContact net) c := by
  unfold parseContact
  refine SafeAt.sws hc (fun hc0 => ?_)
  refine SafeAt.peek ?_
  cases hcur : c.sws.cur? with
  | none => exact SafeAt.err hc0
  | some b =>
    simp only
    by_cases hb : b = 0x2a
    · rw [if_pos hb]
      refine SafeAt.skip1 hc0 hcur (by rw [hb]; decide) (fun hc1 => ?_)
      exact SafeAt.sws hc1 (fun hc2 => SafeAt.pure hc2 rfl)
    · rw [if_neg hb]
      have h := safe_addrParams net hnet .contact c.sws hc0 rfl rfl (by decide)
      rw [(sws_step c hc).flags] at h
      exact h

theorem safe_otherProtocol : Safe 0 true 1 8 (fun pr => ∀ x ∈ pr, x.1 ≠ [] ∧ InSet csSipToken x.1 ∧ x.2 ≠ [] ∧ InSet csSipToken x.2) parseOtherProtocol := by
  intro c hc
  unfold parseOtherProtocol
  refine SafeAt.seq (B2 := 4) (SafeAt.orErr (l := true) (SafeAt.alloc (q := 0) (m := 1) hc)) (fun _ c1 _ _ hc1 => ?_)
  refine SafeAt.seq (B2 := 2) (SafeAt.orErr (l := true) (safe_str csSipToken (by decide +kernel) c1 hc1)) (fun n c2 _ hn hc2 => ?_)
  refine SafeAt.seq (B2 := 2) (SafeAt.orErr (l := true) (safe_mark 0x2f (by decide) c2 hc2)) (fun _ c3 _ _ hc3 => ?_)
  refine SafeAt.seq (B2 := 0) (SafeAt.orErr (l := true) (safe_str csSipToken (by decide +kernel) c3 hc3)) (fun v c4 _ hv hc4 => ?_)
  refine SafeAt.seq (B2 := 0) (SafeAt.orErr (l := true) (safe_mark 0x2f (by decide) c4 hc4)) (fun _ c5 _ _ hc5 => ?_)
  refine SafeAt.pure hc5 ?_
  intro x hx; cases hx
  exact ⟨hn.1, hn.2, hv.1, hv.2⟩

theorem safe_sentProtocol : Safe 0 true 1 8 (fun pr => ∀ x ∈ pr, x.1 ≠ [] ∧ InSet csSipToken x.1 ∧ x.2 ≠ [] ∧ InSet csSipToken x.2) parseSentProtocol := by
  intro c hc
  unfold parseSentProtocol
  refine SafeAt.get ?_
  by_cases h : isSip20 c.rest = true
  · rw [if_pos h]
    have hl := rest_length c hc.pos
    unfold isSip20 at h
    split at h
    · rename_i a b d e f g k i z heq
      simp only [Bool.and_eq_true, decide_eq_true_eq, Bool.not_eq_true'] at h
      obtain ⟨⟨⟨⟨⟨⟨⟨ha, hb⟩, hd⟩, rfl⟩, rfl⟩, rfl⟩, rfl⟩, hi⟩ := h
      have hlet : ∀ a c : UInt8, (c = 0x73 ∨ c = 0x69 ∨ c = 0x70) → a ||| 0x20 = c → a ≠ 0x0d := by decide +kernel
      rw [heq] at hl
      simp only [List.length_cons] at hl
      have st : Step c (c.adv 7) := Step.adv hc (by omega)
      have ln : Line c (c.adv 7) := line_of_noCR [a, b, d, 0x2f, 0x32, 0x2e, 0x30] (i :: z) heq rfl (by
        intro x hx
        simp only [List.mem_cons, List.not_mem_nil, or_false] at hx
        rcases hx with rfl | rfl | rfl | rfl | rfl | rfl | rfl
        · exact hlet _ _ (by simp) ha
        · exact hlet _ _ (by simp) hb
        · exact hlet _ _ (by simp) hd
        all_goals decide)
      refine SafeAt.after (P.skip_bind 7 _ c) st ln rfl ?_
      refine SafeAt.seq (B2 := 0) (SafeAt.orErr (l := true) (safe_mark 0x2f (by decide) _ st.inv)) (fun _ c3 _ _ hc3 => SafeAt.pure hc3 (by simp))
    · cases h
  · rw [if_neg h]; exact safe_otherProtocol c hc

theorem safe_via (net : Net) (hnet : net.Ok) (c : Ctx) (hc : Inv c) : SafeAt 2 true 24 98 (HKind.via.Parsed net c.flags) (parseVia net) c := by
  unfold parseVia
  have h0 := SafeAt.orErr (l := true) (safe_sentProtocol c hc)
  refine SafeAt.seq (B2 := 90) h0 (fun pr c1 e1 h1 hc1 => ?_)
  have h2 := SafeAt.orErr (l := true) (safe_str csSipToken (by decide +kernel) c1 hc1)
  refine SafeAt.seq (B2 := 80) h2 (fun t c2 e2 ht hc2 => ?_)
  have h3 := SafeAt.orErr (l := true) (safe_lws c2 hc2)
  refine SafeAt.seq (B2 := 80) h3 (fun _ c3 e3 _ hc3 => ?_)
  have h4 := SafeAt.orErr (l := true) (hostport_safe net hnet c3 hc3)
  refine SafeAt.seq (B2 := 22) h4 (fun hp c4 e4 hh hc4 => ?_)
  have hps := safe_hparams .via c4 hc4
  rw [(h4.step _ _ e4).flags, (h3.step _ _ e3).flags, (h2.step _ _ e2).flags, (h0.step _ _ e1).flags] at hps
  exact SafeAt.seq (B2 := 0) hps (fun ps c5 _ h5 hc5 => SafeAt.pure hc5 ⟨rfl, h1, ht.1, ht.2, hh, h5⟩)

theorem safe_callId (net : Net) (fl : Flags) (c : Ctx) (hc : Inv c) : SafeAt 2 true 24 98 (HKind.callId.Parsed net fl) parseCallId c := by
  unfold parseCallId
  refine SafeAt.seq (B2 := 2) (SafeAt.orErr (l := true) (safe_str csSipWord (by decide +kernel) c hc)) (fun a c1 _ ha hc1 => ?_)
  refine SafeAt.peek ?_
  cases hcur : c1.cur? with
  | none => exact SafeAt.pure hc1 ⟨rfl, ha.1, ha.2, by simp⟩
  | some b =>
    simp only
    by_cases hb : b = 0x40
    · rw [if_pos hb]
      refine SafeAt.skip1 hc1 hcur (by rw [hb]; decide) (fun hc2 => ?_)
      refine SafeAt.seq (B2 := 0) (SafeAt.orErr (l := true) (safe_str csSipWord (by decide +kernel) _ hc2)) (fun d c3 _ hd hc3 => SafeAt.pure hc3 ⟨rfl, ha.1, ha.2, ?_⟩)
      intro x hx; cases hx; exact hd
    · rw [if_neg hb]; exact SafeAt.pure hc1 ⟨rfl, ha.1, ha.2, by simp⟩

theorem safe_cseq (net : Net) (fl : Flags) (c : Ctx) (hc : Inv c) : SafeAt 2 true 24 98 (HKind.cseq.Parsed net fl) parseCSeq c := by
  unfold parseCSeq
  refine SafeAt.seq (B2 := 2) (safe_uint c hc) (fun n c1 _ _ hc1 => ?_)
  refine SafeAt.seq (B2 := 2) (SafeAt.orErr (l := true) (safe_lws c1 hc1)) (fun _ c2 _ _ hc2 => ?_)
  exact SafeAt.seq (B2 := 0) (SafeAt.orErr (l := true) (method_safe c2 hc2)) (fun m c3 _ hm hc3 => SafeAt.pure hc3 ⟨rfl, Nat.mod_lt _ (by decide), hm⟩)

theorem safe_rack (net : Net) (fl : Flags) (c : Ctx) (hc : Inv c) : SafeAt 2 true 24 98 (HKind.rack.Parsed net fl) parseRAck c := by
  unfold parseRAck
  refine SafeAt.seq (B2 := 2) (safe_uint c hc) (fun n c1 _ _ hc1 => ?_)
  refine SafeAt.seq (B2 := 2) (SafeAt.orErr (l := true) (safe_lws c1 hc1)) (fun _ c2 _ _ hc2 => ?_)
  refine SafeAt.seq (B2 := 2) (safe_uint c2 hc2) (fun n c3 _ _ hc3 => ?_)
  refine SafeAt.seq (B2 := 2) (SafeAt.orErr (l := true) (safe_lws c3 hc3)) (fun _ c4 _ _ hc4 => ?_)
  exact SafeAt.seq (B2 := 0) (SafeAt.orErr (l := true) (method_safe c4 hc4)) (fun m c5 _ hm hc5 => SafeAt.pure hc5 ⟨rfl, Nat.mod_lt _ (by decide), Nat.mod_lt _ (by decide), hm⟩)

theorem safe_num (net : Net) (fl : Flags) (k : HKind) (s : Nat) (hk : k.numSize = some s) (hs : 0 < s) (c : Ctx) (hc : Inv c) : SafeAt 2 true 24 98 (k.Parsed net fl) (parseNum s) c := by
  unfold parseNum
  exact SafeAt.seq (B2 := 0) (safe_uint c hc) (fun n c1 _ _ hc1 => SafeAt.pure hc1 ⟨s, hk, Nat.mod_lt _ hs⟩)

theorem safe_contentType (net : Net) (c : Ctx) (hc : Inv c) : SafeAt 2 true 24 98 (HKind.contentType.Parsed net c.flags) parseContentType c := by
  unfold parseContentType
  have h0 := SafeAt.orErr (l := true) (safe_str csSipToken (by decide +kernel) c hc)
  refine SafeAt.seq (B2 := 90) h0 (fun t c1 e1 ht hc1 => ?_)
  have h1 := SafeAt.orErr (l := true) (safe_mark 0x2f (by decide) c1 hc1)
  refine SafeAt.seq (B2 := 80) h1 (fun _ c2 e2 _ hc2 => ?_)
  have h2 := SafeAt.orErr (l := true) (safe_str csSipToken (by decide +kernel) c2 hc2)
  refine SafeAt.seq (B2 := 22) h2 (fun s c3 e3 hs hc3 => ?_)
  have hps := safe_hparams .contentType c3 hc3
  rw [(h2.step _ _ e3).flags, (h1.step _ _ e2).flags, (h0.step _ _ e1).flags] at hps
  exact SafeAt.seq (B2 := 0) hps (fun ps c5 _ h5 hc5 => SafeAt.pure hc5 ⟨rfl, ht.1, ht.2, hs.1, hs.2, h5⟩)

theorem safe_contentDisposition (net : Net) (c : Ctx) (hc : Inv c) : SafeAt 2 true 24 98 (HKind.contentDisposition.Parsed net c.flags) parseContentDisposition c := by
  unfold parseContentDisposition
  have h0 := SafeAt.orErr (l := true) (safe_str csSipToken (by decide +kernel) c hc)
  refine SafeAt.seq (B2 := 90) h0 (fun t c1 e1 ht hc1 => ?_)
  have hps := safe_hparams .contentDisposition c1 hc1
  rw [(h0.step _ _ e1).flags] at hps
  exact SafeAt.seq (B2 := 0) hps (fun ps c5 _ h5 hc5 => SafeAt.pure hc5 ⟨rfl, ht.1, ht.2, h5⟩)

/-- **C28 - C31 for header values** For every input: the position stays inside the input and does not go back; every failure is reported; no panic, if there is an end of
line, no bracket that is open at the end of a line, no `phone-context` without value and enough memory (24 bytes for a byte of input and 98 more); no endless
loop on an input without stray CR, LF; no end of line is passed; the memory used is bounded by the text read; and what is returned is a value of the type. -/
theorem header_value_safe (net : Net) (hnet : net.Ok) (k : HKind) (c : Ctx) (hc : Inv c) : SafeAt 2 true 24 98 (k.Parsed net c.flags) (k.parseValue net) c := by
  cases k with
  | to => exact safe_addrParams net hnet .to c hc rfl rfl (by decide)
  | «from» => exact safe_addrParams net hnet .from c hc rfl rfl (by decide)
  | contact => exact safe_contact net hnet c hc
  | route => exact safe_routeParams net hnet .route c hc rfl (by decide)
  | recordRoute => exact safe_routeParams net hnet .recordRoute c hc rfl (by decide)
  | path => exact safe_routeParams net hnet .path c hc rfl (by decide)
  | serviceRoute => exact safe_routeParams net hnet .serviceRoute c hc rfl (by decide)
  | pAssertedIdentity => exact safe_identity net hnet c hc
  | via => exact safe_via net hnet c hc
  | callId => exact safe_callId net _ c hc
  | cseq => exact safe_cseq net _ c hc
  | rack => exact safe_rack net _ c hc
  | rseq => exact safe_num net _ .rseq _ rfl (by decide) c hc
  | expires => exact safe_num net _ .expires _ rfl (by decide) c hc
  | maxForwards => exact safe_num net _ .maxForwards _ rfl (by decide) c hc
  | contentLength => exact safe_num net _ .contentLength _ rfl (by decide) c hc
  | contentType => exact safe_contentType net c hc
  | contentDisposition => exact safe_contentDisposition net c hc

/-- the same with the allocation of the header struct -/
theorem header_alloc_safe (net : Net) (hnet : net.Ok) (k : HKind) (c : Ctx) (hc : Inv c) : SafeAt 2 true 24 116 (k.Parsed net c.flags) (k.parseAlloc net) c := by
  unfold HKind.parseAlloc
  have h : SafeAt 2 true 24 18 (fun _ => True) (P.orErr (P.alloc k.structSize)) c :=
    SafeAt.orErr (l' := false) ((SafeAt.alloc hc).mono (Nat.le_refl _) (fun h => h) (Nat.le_refl _) (by cases k <;> decide) (fun _ h => h))
  refine SafeAt.seq (B2 := 98) h (fun _ c1 e1 _ hc1 => ?_)
  have := header_value_safe net hnet k c1 hc1
  rw [(h.step _ _ e1).flags] at this
  exact this

theorem safe_headerName (k : HKind) : Safe 0 false 1 0 (fun _ => True) k.parseName := by
  intro c hc
  have e0 : k.parseName c = k.parseName c := rfl
  conv at e0 => rhs; unfold HKind.parseName
  cases hf : k.names.find? (fun n => nameAt k.looseDash n c.rest) with
  | none => rw [hf] at e0; exact .of_none e0 (Step.refl hc) (by simp)
  | some n =>
    rw [hf] at e0
    have g1 := List.find?_some hf
    have g2 := List.mem_of_find?_eq_some hf
    obtain ⟨w, y, e, g3, g4⟩ := (nameAt_iff _ _ _).1 g1
    have hl := rest_length c hc.pos
    rw [e, List.length_append] at hl
    simp only [g3.length_eq] at e0
    refine .of_ok e0 (Step.adv hc (by omega)) trivial ?_ (by simp [Ctx.adv])
    have hlf : ∀ b ∈ w, b ≠ 0x0a := by
      have hc := k.names_chars n g2
      clear hf g1 e g2 e0 hl
      induction g3 with
      | nil => simp
      | cons h1 h2 ih =>
        rename_i p b _ _
        intro x hx
        simp only [List.mem_cons] at hx
        rcases hx with rfl | hx
        · have key : ∀ p ∈ nameChars, nameByte true p 0x0a = false ∧ nameByte false p 0x0a = false := by decide +kernel
          have := key p (hc p (by simp))
          intro e; subst e
          cases hl : k.looseDash <;> rw [hl] at h1
          · rw [this.2] at h1; cases h1
          · rw [this.1] at h1; cases h1
        · exact ih (fun p hp => hc p (by simp [hp])) x hx
    refine line_of_text w y e rfl (fun i hi hs => ?_)
    obtain ⟨z, hz, _⟩ := hs
    have h1 : (w ++ y)[i + 1]? = some 0x0a := by
      have := congrArg (fun l => l[1]?) hz
      simpa [List.getElem?_drop] using this
    by_cases hlt : i + 1 < w.length
    · rw [List.getElem?_append_left hlt] at h1
      exact hlf _ (List.mem_of_getElem? h1) rfl
    · rw [List.getElem?_append_right (by omega), show i + 1 - w.length = 0 by omega] at h1
      obtain ⟨b, hb, hs⟩ := g4
      cases y with
      | nil => cases hb
      | cons d y =>
        cases hb
        simp only [List.getElem?_cons_zero, Option.some.injEq] at h1
        subst h1
        rcases hs with h | h | h <;> cases h

/-- **C28 - C31 for a header with its name** -/
theorem header_safe (net : Net) (hnet : net.Ok) (k : HKind) (c : Ctx) (hc : Inv c) : SafeAt 2 true 24 98 (k.Parsed net c.flags) (k.parse net) c := by
  unfold HKind.parse
  have h0 := SafeAt.orErr (l := true) (safe_headerName k c hc)
  refine SafeAt.seq (B2 := 98) h0 (fun _ c1 e1 _ hc1 => ?_)
  have h1 := SafeAt.orErr (l := true) (safe_hcolon c1 hc1)
  refine SafeAt.seq (B2 := 98) h1 (fun _ c2 e2 _ hc2 => ?_)
  have := header_value_safe net hnet k c2 hc2
  rw [(h1.step _ _ e2).flags, (h0.step _ _ e1).flags] at this
  exact this

/-! ## Parse, encode, parse -/

/-- the accepted values that are written so that they can be read: no folded line in a quoted string, no URI header without value (`Addr.Clean`), no display name
that begins with `*` in a Contact (`contact_star_name`), no protocol version that continues `2.0` (`via_version`) or SIP/2.0 written with spaces -/
def HVal.Clean : HVal → Prop
  | .addr a ps => a.Clean ∧ ps.noFold ∧ ∀ d ∈ a.display, d.1 = false → d.2.head? ≠ some 0x2a
  | .via pr _ _ ps => (∀ x ∈ pr, ¬ (x.1.map asciiLower = str "sip" ∧ ∃ r, x.2 = str "2.0" ++ r ∧ NotIn csDigit r)) ∧ ps.noFold
  | .contentType _ _ ps => ps.noFold
  | .contentDisposition _ ps => ps.noFold
  | _ => True

/-- what is written: the context of a global telephone number is lost -/
def HVal.norm : HVal → HVal
  | .addr a ps => .addr a.norm ps
  | v => v

theorem plain_norm (u : AddrUri) (h : u.Plain) : u.norm.Plain := by
  cases u with
  | sip u => exact h
  | tel u =>
    obtain ⟨h1, h2, h3⟩ := h
    show (AddrUri.tel u.norm).Plain
    unfold TelUri.norm
    split
    · exact ⟨h1, h2, rfl⟩
    · exact ⟨h1, h2, h3⟩

theorem HKind.Parsed.wf {net : Net} {fl : Flags} {k : HKind} {v : HVal} (h : k.Parsed net fl v) (he : fl.encodeUriNoEscape = false) (hc : v.Clean) : k.WF net fl v.norm := by
  cases v with
  | addr a ps =>
    obtain ⟨h1, h2, h3, h4, h5⟩ := h
    obtain ⟨c1, c2, c3⟩ := hc
    refine ⟨h1, h2.wf he c1, h3.wf c2, h4, ?_, fun _ => c3⟩
    intro hb
    have hb : (a.nameAddr || fl.encodeUriAsNameSpace) = false := hb
    have hn : a.nameAddr = false := by cases hn : a.nameAddr <;> simp_all
    refine ⟨?_, plain_norm _ (h2.plain rfl hn)⟩
    cases hr : k.isRoute with
    | false => rfl
    | true => have := h5 hr; rw [hn] at this; cases this
  | star => exact h
  | via pr t hp ps =>
    obtain ⟨h1, h2, h3, h4, h5, h6⟩ := h
    refine ⟨h1, fun x hx => ?_, h3, h4, h5, h6.wf hc.2⟩
    obtain ⟨g1, g2, g3, g4⟩ := h2 x hx
    exact ⟨g1, g2, g3, g4, hc.1 x hx⟩
  | callId a b => exact h
  | cseq n m => exact h
  | rack r n m => exact h
  | num n => exact h
  | contentType t s ps =>
    obtain ⟨h1, h2, h3, h4, h5, h6⟩ := h
    exact ⟨h1, h2, h3, h4, h5, h6.wf hc⟩
  | contentDisposition t ps =>
    obtain ⟨h1, h2, h3, h6⟩ := h
    exact ⟨h1, h2, h3, h6.wf hc⟩

theorem header_encode_norm (net : Net) (fl : Flags) (k : HKind) (v : HVal) : k.encode net fl v.norm = k.encode net fl v := by
  cases v with
  | addr a ps => simp only [HKind.encode, HKind.encodeValue, HVal.norm, addr_encode_norm]
  | _ => rfl

/-- **C20 - C23, C36** parse, encode, parse: whatever the parser of a header accepts (with the exceptions of `HVal.Clean`) is written as a text that is read as the
same value -/
theorem header_idempotent (net : Net) (hnet : net.Ok) (k : HKind) (c c' : Ctx) (v : HVal) (hc : Inv c) (he : c.flags.encodeUriNoEscape = false)
    (h : k.parse net c = .ok (some v, c')) (hcl : v.Clean) :
    ∃ t, k.encode net c.flags v = .ok t ∧ Parses c.flags (k.parse net) t (k.canon c.flags v.norm) (k.cost v.norm) (k.End c.flags v.norm) := by
  have hp := ((header_safe net hnet k c hc).some _ _ h).1
  obtain ⟨t, h1, h2⟩ := header_encode_parse net hnet c.flags k v.norm (hp.wf he hcl)
  exact ⟨t, by rw [← header_encode_norm]; exact h1, h2⟩

/-- **C23, negation**: a version that begins with `2.0` is accepted with a space before the slash and written in a form that is not accepted -/
theorem via_spaced_version : ∃ c', HKind.via.parseValue Net.sample { src := str "SIP /2.0a/UDP a.b\r\n", cap := 100 } =
    .ok (some (.via (some (str "SIP", str "2.0a")) (str "UDP") ⟨.name (str "a.b"), none⟩ {}), c') := resultOf_ok (by decide +kernel)

/-- a header value stops at the end of its line: the hypotheses are met by ordinary input -/
example : ∃ c', HKind.via.parse Net.sample { src := str "v: SIP/2.0/UDP [::1]:5060;branch=z9\r\nTo: x", cap := 1000 } =
    .ok (some (.via none (str "UDP") ⟨.ipv6 [0,0,0,0,0,0,0,0,0,0,0,0,0,0,0,1], some 5060⟩ ⟨[], [⟨str "branch", some (.token (str "z9"))⟩]⟩), c') := resultOf_ok (by decide +kernel)

end Sip
