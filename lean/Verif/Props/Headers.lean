import Verif.Props.Method
/-!
# Header values: encode, then parse

`HKind.WF` says which values a header of each type can have; `header_value_roundtrip` and `header_roundtrip` say that such a value is written as a text
that reads back as the same value (`HKind.canon`: with the brackets that were written and the parameter names of the tables), consuming exactly that text.
-/
namespace Sip

/-- what stands behind a header value: nothing, the end of the line, or the comma before the next value of the header -/
def ValueEnd (y : Bytes) : Prop := y = [] ∨ StartsEol y ∨ ∃ r, y = 0x2c :: r

/-- the header types that hold an address -/
def HKind.isAddr : HKind → Bool
  | .to | .from | .contact | .route | .recordRoute | .path | .serviceRoute | .pAssertedIdentity => true
  | _ => false
/-- the header types whose address is always in brackets -/
def HKind.isRoute : HKind → Bool
  | .route | .recordRoute | .path | .serviceRoute => true
  | _ => false
/-- the types with one number, and how many values the number can have -/
def HKind.numSize : HKind → Option Nat
  | .rseq | .expires | .contentLength => some 4294967296
  | .maxForwards => some 256
  | _ => none

/-- the values a header of the type can have -/
def HKind.WF (net : Net) (fl : Flags) (k : HKind) : HVal → Prop
  | .addr a ps => k.isAddr = true ∧ a.WF net fl ∧ ps.WF k.paramNames (k.paramFlag fl) ∧ (k = .pAssertedIdentity → ps = {}) ∧
      ((a.nameAddr || fl.encodeUriAsNameSpace) = false → k.isRoute = false ∧ a.uri.Plain) ∧
      (k = .contact → ∀ d ∈ a.display, d.1 = false → d.2.head? ≠ some 0x2a)
  | .star => k = .contact
  | .via pr t h ps => k = .via ∧ (∀ x ∈ pr, x.1 ≠ [] ∧ InSet csSipToken x.1 ∧ x.2 ≠ [] ∧ InSet csSipToken x.2 ∧
      ¬ (x.1.map asciiLower = str "sip" ∧ ∃ r, x.2 = str "2.0" ++ r ∧ NotIn csDigit r)) ∧
      t ≠ [] ∧ InSet csSipToken t ∧ h.WF net ∧ ps.WF k.paramNames (k.paramFlag fl)
  | .callId a b => k = .callId ∧ a ≠ [] ∧ InSet csSipWord a ∧ ∀ x ∈ b, x ≠ [] ∧ InSet csSipWord x
  | .cseq n m => k = .cseq ∧ n < 4294967296 ∧ m.WF
  | .rack r n m => k = .rack ∧ r < 4294967296 ∧ n < 4294967296 ∧ m.WF
  | .num n => ∃ s ∈ k.numSize, n < s
  | .contentType t s ps => k = .contentType ∧ t ≠ [] ∧ InSet csSipToken t ∧ s ≠ [] ∧ InSet csSipToken s ∧ ps.WF k.paramNames (k.paramFlag fl)
  | .contentDisposition t ps => k = .contentDisposition ∧ t ≠ [] ∧ InSet csSipToken t ∧ ps.WF k.paramNames (k.paramFlag fl)

/-- what is read back -/
def HKind.canon (fl : Flags) (k : HKind) : HVal → HVal
  | .addr a ps => .addr (a.canon fl) (ps.canon k.paramNames)
  | .via pr t h ps => .via pr t h (ps.canon k.paramNames)
  | .contentType t s ps => .contentType t s (ps.canon k.paramNames)
  | .contentDisposition t ps => .contentDisposition t (ps.canon k.paramNames)
  | v => v

/-- the text and the memory of the protocol of a Via -/
def protoText : Option (Bytes × Bytes) → Bytes
  | none => str "SIP/2.0/"
  | some (n, v) => n ++ 0x2f :: v ++ [0x2f]
def protoCost : Option (Bytes × Bytes) → Nat
  | some (n, v) => 4 + (n.length + 2) + (v.length + 2)
  | none => 0

/-- the text and the memory of the part of a Call-ID behind the `@` -/
def hostIdText : Option Bytes → Bytes
  | some b => 0x40 :: b
  | none => []
def hostIdCost : Option Bytes → Nat
  | some b => b.length + 2
  | none => 0

/-- the memory the value takes in the arena -/
def HKind.cost (k : HKind) : HVal → Nat
  | .addr a ps => (if k.isRoute then 0 else a.tryCost) + a.cost + ps.cost k.paramNames
  | .star => 0
  | .via pr t h ps => protoCost pr + (t.length + 2) + h.host.cost + ps.cost k.paramNames
  | .callId a b => a.length + 2 + hostIdCost b
  | .cseq _ m => m.cost
  | .rack _ _ m => m.cost
  | .num _ => 0
  | .contentType t s ps => t.length + 2 + (s.length + 2) + ps.cost k.paramNames
  | .contentDisposition t ps => t.length + 2 + ps.cost k.paramNames

/-- what may follow the value.  A URI without brackets and without user part must not have an `@` in the text behind it (`bare_at_in_params`); a method
at the very end of the input must not be one of those on which the lookup panics (`method_index_panics`). -/
def HKind.End (fl : Flags) (k : HKind) (v : HVal) (y : Bytes) : Prop :=
  ValueEnd y ∧ match v with
  | .addr a ps => (a.nameAddr || fl.encodeUriAsNameSpace) = false → ∀ u, a.uri = .sip u → u.user = none → findUserinfo (ps.encode k.paramNames ++ y) = false
  | .cseq _ m => y = [] → m.text ∉ [str "P", str "IN", str "RE"]
  | .rack _ _ m => y = [] → m.text ∉ [str "P", str "IN", str "RE"]
  | _ => True

theorem HKind.namesFine (k : HKind) : NamesFine k.paramNames := by
  cases k <;> exact ⟨by unfold NamesOk; decide +kernel, by decide +kernel, by decide +kernel⟩

theorem params_encode_head (names : List Bytes) (ps : Params) : ps.encode names = [] ∨ ∃ r, ps.encode names = 0x3b :: r := by
  have henc : ps.encode names = encodeGenericParams 0x3b (ps.all names) := by
    rw [Params.encode, genericKnown_encode]; simp [Params.all, encodeGenericParams]
  rw [henc]
  cases ps.all names with
  | nil => left; rfl
  | cons p l => right; exact ⟨_, rfl⟩

/-! ## Follow conditions -/

theorem valueEnd_gen {y : Bytes} (h : ValueEnd y) : GenEnd 0x3b y := by
  rcases h with h | h | ⟨r, rfl⟩
  · exact Or.inl h
  · exact Or.inr (Or.inl h)
  · exact Or.inr (Or.inr ⟨0x2c, r, rfl, by decide +kernel, by decide +kernel, by decide, by decide⟩)

theorem valueEnd_head {y : Bytes} (h : ValueEnd y) : ∀ b ∈ y.head?, b = 0x0d ∨ b = 0x2c := by
  intro b hb
  rcases h with rfl | ⟨z, rfl, _⟩ | ⟨r, rfl⟩
  · cases hb
  · left; simpa using hb.symm
  · right; simpa using hb.symm

theorem valueEnd_sws {y : Bytes} (h : ValueEnd y) : swsLen y = 0 := (valueEnd_gen h).sws

/-- the text behind the part in front of the parameters -/
theorem params_head (names : List Bytes) (ps : Params) {y : Bytes} (h : ValueEnd y) : ∀ b ∈ (ps.encode names ++ y).head?, b = 0x0d ∨ b = 0x2c ∨ b = 0x3b := by
  intro b hb
  rcases params_encode_head names ps with e | ⟨r, e⟩
  · rw [e, List.nil_append] at hb
    rcases valueEnd_head h b hb with h | h <;> simp [h]
  · rw [e] at hb
    right; right; simpa using hb.symm

theorem params_sws (names : List Bytes) (ps : Params) {y : Bytes} (h : ValueEnd y) : swsLen (ps.encode names ++ y) = 0 := by
  rcases params_encode_head names ps with e | ⟨r, e⟩
  · rw [e, List.nil_append]; exact valueEnd_sws h
  · rw [e]; exact swsLen_cons_not_lws (by decide +kernel)

theorem notIn_of (s : CS) {y : Bytes} (h : ∀ b ∈ y.head?, b = 0x0d ∨ b = 0x2c ∨ b = 0x3b) (h1 : s.mem 0x0d = false) (h2 : s.mem 0x2c = false) (h3 : s.mem 0x3b = false) : NotIn s y := by
  intro b hb
  rcases h b hb with rfl | rfl | rfl
  · exact h1
  · exact h2
  · exact h3

theorem valueEnd_notIn (s : CS) {y : Bytes} (h : ValueEnd y) (h1 : s.mem 0x0d = false) (h2 : s.mem 0x2c = false) : NotIn s y := by
  intro b hb
  rcases valueEnd_head h b hb with rfl | rfl
  · exact h1
  · exact h2

theorem HKind.params_text (fl : Flags) (k : HKind) (ps : Params) (h : ps.WF k.paramNames (k.paramFlag fl)) :
    Parses fl k.params (ps.encode k.paramNames) (ps.canon k.paramNames) (ps.cost k.paramNames) ValueEnd :=
  (params_roundtrip fl k.paramNames k.namesFine k.paramFlag ps h).mono (fun _ hy => valueEnd_gen hy)

/-! ## Addresses -/

theorem plain_canon (u : AddrUri) (h : u.Plain) : u.canon = u := by
  cases u with
  | sip u => obtain ⟨h1, _, _⟩ := h; simp [AddrUri.canon, SipUri.canon, h1, canonKnown]; rw [← h1]
  | tel u => obtain ⟨h1, _, h3⟩ := h; simp [AddrUri.canon, TelUri.canon, h1, h3, canonKnown]; rw [← h1, ← h3]

/-- an address in front of parameters -/
theorem addr_text (net : Net) (hnet : net.Ok) (fl : Flags) (names : List Bytes) (a : Addr) (ps : Params) (h : a.WF net fl)
    (hbare : (a.nameAddr || fl.encodeUriAsNameSpace) = false → a.uri.Plain) :
    Parses fl (parseAddr net false) (a.encode net fl) (a.canon fl) (a.tryCost + a.cost) (fun z => ∃ y, z = ps.encode names ++ y ∧ ValueEnd y ∧
      ((a.nameAddr || fl.encodeUriAsNameSpace) = false → ∀ u, a.uri = .sip u → u.user = none → findUserinfo (ps.encode names ++ y) = false)) := by
  cases hb : (a.nameAddr || fl.encodeUriAsNameSpace) with
  | true =>
    refine (addr_roundtrip net hnet false fl a h hb).mono ?_
    rintro z ⟨y, rfl, hy, _⟩
    exact params_sws names ps hy
  | false =>
    have hpl := hbare hb
    have hd : a.display = none := by
      cases hd : a.display with
      | none => rfl
      | some d => have := (h.display d hd).1; rw [hb] at this; cases this
    have hn : a.nameAddr = false := by cases hn : a.nameAddr <;> simp_all
    refine ((bareAddr_roundtrip net hnet fl a h hb hpl).mono ?_).cast rfl ?_ ?_
    · rintro z ⟨y, rfl, hy, hf⟩
      have hh := params_head names ps hy
      cases hu : a.uri with
      | sip u =>
        refine ⟨notIn_of _ hh (by decide +kernel) (by decide +kernel) (by decide +kernel), ?_, hf rfl u hu⟩
        intro e
        rcases hh _ e with h | h | h <;> cases h
      | tel u => exact ⟨notIn_of _ hh (by decide +kernel) (by decide +kernel) (by decide +kernel), notIn_of _ hh (by decide +kernel) (by decide +kernel) (by decide +kernel)⟩
    · unfold Addr.canon
      rw [plain_canon _ hpl, hb, ← hn]
    · unfold Addr.tryCost Addr.cost
      rw [hd]; simp

theorem addrParams_text (net : Net) (hnet : net.Ok) (fl : Flags) (k : HKind) (a : Addr) (ps : Params) (hk : k.isRoute = false) (h : k.WF net fl (.addr a ps)) :
    Parses fl (parseAddrParams net k) (a.encode net fl ++ ps.encode k.paramNames) (k.canon fl (.addr a ps)) (k.cost (.addr a ps)) (k.End fl (.addr a ps)) := by
  obtain ⟨_, ha, hps, _, hb, _⟩ := h
  unfold parseAddrParams
  refine Parses.bind' (Parses.orErr (addr_text net hnet fl k.paramNames a ps ha (fun e => (hb e).2))) (n2 := ps.cost k.paramNames) ?_ ?_ rfl
    (by simp only [HKind.cost, hk, Bool.false_eq_true, if_false])
  · exact Parses.bind' (G := k.End fl (.addr a ps)) (k.params_text fl ps hps) (Parses.pure _) (fun y hy => hy.1) (List.append_nil _).symm rfl
  · exact fun y hy => ⟨y, rfl, hy.1, hy.2⟩

theorem routeParams_text (net : Net) (hnet : net.Ok) (fl : Flags) (k : HKind) (a : Addr) (ps : Params) (hk : k.isRoute = true) (h : k.WF net fl (.addr a ps)) :
    Parses fl (parseRouteParams net k) (a.encode net fl ++ ps.encode k.paramNames) (k.canon fl (.addr a ps)) (k.cost (.addr a ps)) (k.End fl (.addr a ps)) := by
  obtain ⟨_, ha, hps, _, hb, _⟩ := h
  have hb' : (a.nameAddr || fl.encodeUriAsNameSpace) = true := by
    cases e : (a.nameAddr || fl.encodeUriAsNameSpace) with
    | true => rfl
    | false => have := (hb e).1; rw [hk] at this; cases this
  unfold parseRouteParams
  refine Parses.bind' (Parses.orErr (nameAddr_roundtrip net hnet fl a ha hb')) (n2 := ps.cost k.paramNames) ?_ ?_ rfl
    (by simp only [HKind.cost, hk, if_true]; omega)
  · exact Parses.bind' (G := k.End fl (.addr a ps)) (k.params_text fl ps hps) (Parses.pure _) (fun y hy => hy.1) (List.append_nil _).symm rfl
  · exact fun y hy => params_sws _ _ hy.1

theorem identity_text (net : Net) (hnet : net.Ok) (fl : Flags) (a : Addr) (ps : Params) (h : HKind.pAssertedIdentity.WF net fl (.addr a ps)) :
    Parses fl (parseIdentity net) (a.encode net fl ++ ps.encode []) (HKind.pAssertedIdentity.canon fl (.addr a ps)) (HKind.pAssertedIdentity.cost (.addr a ps))
      (HKind.pAssertedIdentity.End fl (.addr a ps)) := by
  obtain ⟨_, ha, hps, hn, hb, _⟩ := h
  cases hn rfl
  have he : Params.encode [] {} = [] := rfl
  unfold parseIdentity
  refine Parses.bind' (Parses.orErr (addr_text net hnet fl [] a {} ha (fun e => (hb e).2))) (n2 := 0) (t2 := []) (Parses.pure _) ?_ (by rw [he]) ?_
  · exact fun y hy => ⟨y, by rw [he], hy.1, hy.2⟩
  · simp [HKind.cost, HKind.isRoute, HKind.paramNames, Params.cost, Params.all, genericParamsCost, knownCost, knownList]

/-- the first byte of an address is neither white space nor an asterisk -/
theorem addr_encode_head (net : Net) (fl : Flags) (a : Addr) (h : a.WF net fl) (hs : ∀ d ∈ a.display, d.1 = false → d.2.head? ≠ some 0x2a) :
    ∃ b r, a.encode net fl = b :: r ∧ isLwsChar b = false ∧ b ≠ 0x2a := by
  have hu : ∃ b r, a.uri.encode net fl = b :: r ∧ isLwsChar b = false ∧ b ≠ 0x2a := by
    rw [addrUri_encode_eq net fl a.uri h.uri]
    cases a.uri with
    | sip u => cases hs : u.secure <;> simp only [AddrUri.scheme, hs] <;> exact ⟨0x73, _, rfl, by decide +kernel, by decide⟩
    | tel u => exact ⟨0x74, _, rfl, by decide +kernel, by decide⟩
  unfold Addr.encode
  split
  · cases hd : a.display with
    | none => rw [addr_display_none hd]; exact ⟨0x3c, _, rfl, by decide +kernel, by decide⟩
    | some d =>
      obtain ⟨_, h2⟩ := h.display d hd
      obtain ⟨b, d⟩ := d
      cases b with
      | true => unfold Addr.encodeDisplay; rw [hd]; exact ⟨0x22, _, rfl, by decide +kernel, by decide⟩
      | false =>
        have h3 := hs _ hd rfl
        simp only [Bool.false_eq_true, if_false] at h2 h3
        obtain ⟨b, r, rfl⟩ := List.exists_cons_of_ne_nil h2.1
        have := h2.2.head b rfl
        unfold Addr.encodeDisplay; rw [hd]
        exact ⟨b, _, rfl, (token_lws b this).1, fun e => h3 (by rw [e]; rfl)⟩
  · exact hu

theorem contact_text (net : Net) (hnet : net.Ok) (fl : Flags) (a : Addr) (ps : Params) (h : HKind.contact.WF net fl (.addr a ps)) :
    Parses fl (parseContact net) (a.encode net fl ++ ps.encode HKind.contact.paramNames) (HKind.contact.canon fl (.addr a ps)) (HKind.contact.cost (.addr a ps))
      (HKind.contact.End fl (.addr a ps)) := by
  have hx := addrParams_text net hnet fl .contact a ps rfl h
  obtain ⟨_, ha, _, _, _, hs⟩ := h
  obtain ⟨b, r, e, h1, h2⟩ := addr_encode_head net fl a ha (hs rfl)
  unfold parseContact
  refine Parses.bind' (t2 := a.encode net fl ++ ps.encode HKind.contact.paramNames) (G := HKind.contact.End fl (.addr a ps)) Parses.sws0 ?_ ?_ rfl (Nat.zero_add _).symm
  · rw [e] at hx ⊢
    refine Parses.peek ?_
    simp only [if_neg h2]
    exact hx
  · intro y _
    rw [e]
    exact noWs_of rfl h1

theorem star_text (net : Net) (fl : Flags) : Parses fl (parseContact net) [0x2a] .star 0 (fun y => swsLen y = 0) := by
  unfold parseContact
  refine Parses.bind' (t2 := [0x2a]) (n2 := 0) Parses.sws0 ?_ (fun y _ => noWs_of rfl (by decide +kernel)) rfl rfl
  refine Parses.peek ?_
  simp only [if_true]
  refine Parses.skip1 ?_
  intro c y h1 h2 h3 h4 h5
  have e := sws_eq c h4
  have h2 : c.rest = y := h2
  rw [h2, h3] at e
  have : (P.sws >>= fun _ => (Pure.pure HVal.star : P HVal)) c = .ok (some .star, c.sws) := rfl
  rw [this, e]; rfl

/-! ## Via -/

theorem isSip20_other (n v y : Bytes) (hn : InSet csSipToken n) (hv : InSet csSipToken v)
    (h : ¬ (n.map asciiLower = str "sip" ∧ ∃ r, v = str "2.0" ++ r ∧ NotIn csDigit r)) : isSip20 (n ++ 0x2f :: (v ++ 0x2f :: y)) = false := by
  cases hh : isSip20 (n ++ 0x2f :: (v ++ 0x2f :: y)) with
  | false => rfl
  | true =>
    exfalso
    unfold isSip20 at hh
    split at hh
    · rename_i a b d e f g k i z heq
      simp only [Bool.and_eq_true, decide_eq_true_eq, Bool.not_eq_true'] at hh
      obtain ⟨⟨⟨⟨⟨⟨⟨ha, hb⟩, hd⟩, rfl⟩, rfl⟩, rfl⟩, rfl⟩, hi⟩ := hh
      have hlet : ∀ a c : UInt8, (c = 0x73 ∨ c = 0x69 ∨ c = 0x70) → a ||| 0x20 = c → csSipToken.mem a = true ∧ asciiLower a = c := by decide +kernel
      obtain ⟨ta, la⟩ := hlet a _ (by simp) ha
      obtain ⟨tb, lb⟩ := hlet b _ (by simp) hb
      obtain ⟨td, ld⟩ := hlet d _ (by simp) hd
      have h3 : InSet csSipToken [a, b, d] := by intro x hx; simp at hx; rcases hx with rfl | rfl | rfl <;> assumption
      have hsl : ∀ y, NotIn csSipToken (0x2f :: y) := by intro y b hb; simp at hb; subst hb; decide +kernel
      obtain ⟨rfl, e2⟩ := nodup_of_append_token hn h3 (hsl _) (hsl (0x32 :: 0x2e :: 0x30 :: i :: z)) (by simpa using heq)
      simp only [List.cons.injEq, true_and] at e2
      apply h
      refine ⟨by simp [la, lb, ld]; decide +kernel, ?_⟩
      obtain ⟨x, w, hz, hx1, hx2, _⟩ := exists_run csSipToken.mem (i :: z)
      rw [hz] at e2
      have h4 : InSet csSipToken (str "2.0" ++ x) := by
        intro c hc
        rcases List.mem_append.1 hc with h | h
        · have : InSet csSipToken (str "2.0") := by decide +kernel
          exact this c h
        · exact hx1 c h
      obtain ⟨e3, _⟩ := nodup_of_append_token (b' := str "2.0" ++ x) (y' := w) hv h4 (hsl _) hx2 (by rw [e2]; rfl)
      refine ⟨x, e3, ?_⟩
      intro c hc
      cases x with
      | nil => cases hc
      | cons c' x =>
        simp at hc hz
        rw [← hc, ← hz.1]; exact hi
    · cases hh

theorem isSip20_text (y : Bytes) : isSip20 (str "SIP/2.0/" ++ y) = true := by
  have : str "SIP/2.0/" = [0x53, 0x49, 0x50, 0x2f, 0x32, 0x2e, 0x30, 0x2f] := by decide +kernel
  rw [this]; simp [isSip20]; decide +kernel

theorem noWs_token {t y : Bytes} (hne : t ≠ []) (ht : InSet csSipToken t) : NoWs (t ++ y) := by
  obtain ⟨b, r, rfl⟩ := List.exists_cons_of_ne_nil hne
  exact noWs_of rfl (token_lws b (ht b (by simp))).1

theorem sentProtocol_text (fl : Flags) (pr : Option (Bytes × Bytes)) (h : ∀ x ∈ pr, x.1 ≠ [] ∧ InSet csSipToken x.1 ∧ x.2 ≠ [] ∧ InSet csSipToken x.2 ∧
      ¬ (x.1.map asciiLower = str "sip" ∧ ∃ r, x.2 = str "2.0" ++ r ∧ NotIn csDigit r)) :
    Parses fl parseSentProtocol (protoText pr) pr (protoCost pr) NoWs := by
  unfold parseSentProtocol
  refine Parses.get ?_
  intro c y h1 h2 h3 h4 h5
  cases pr with
  | none =>
    have h2 : c.rest = str "SIP/2.0/" ++ y := h2
    rw [h2, isSip20_text, if_pos rfl]
    have : Parses fl (do P.skip 7; P.orErr (P.mark 0x2f); pure (none : Option (Bytes × Bytes))) (str "SIP/2.0/") none 0 NoWs := by
      have e : str "SIP/2.0/" = str "SIP/2.0" ++ [0x2f] := by decide +kernel
      rw [e]
      refine Parses.bind' (F := AnyText) (Parses.skip (str "SIP/2.0")) (n2 := 0) ?_ (fun _ _ => trivial) rfl rfl
      exact Parses.bind' (Parses.orErr (Parses.mark0 0x2f (by decide +kernel))) (Parses.pure _) (fun y hy => hy) (List.append_nil _).symm rfl
    exact this c y h1 h2 h3 h4 h5
  | some x =>
    obtain ⟨n, v⟩ := x
    obtain ⟨g1, g2, g3, g4, g5⟩ := h _ rfl
    simp only at g1 g2 g3 g4 g5
    have h2 : c.rest = n ++ 0x2f :: v ++ [0x2f] ++ y := h2
    have e : n ++ 0x2f :: v ++ [0x2f] ++ y = n ++ 0x2f :: (v ++ 0x2f :: y) := by simp
    rw [h2, e, isSip20_other n v y g2 g4 g5, if_neg (by simp)]
    have hsl : ∀ y, NotIn csSipToken (0x2f :: y) := by intro y b hb; simp at hb; subst hb; decide +kernel
    have : Parses fl parseOtherProtocol (n ++ 0x2f :: v ++ [0x2f]) (some (n, v)) (4 + (n.length + 2) + (v.length + 2)) NoWs := by
      unfold parseOtherProtocol
      refine Parses.bind' (F := AnyText) (Parses.orErr (Parses.alloc 4)) (n2 := (n.length + 2) + (v.length + 2)) (t2 := n ++ 0x2f :: v ++ [0x2f]) ?_ (fun _ _ => trivial) rfl (by omega)
      refine Parses.bind' (Parses.orErr (Parses.str csSipToken n g1 g2)) (n2 := v.length + 2) (t2 := 0x2f :: v ++ [0x2f]) ?_ (fun y _ => hsl _) (by simp) rfl
      refine Parses.bind' (Parses.orErr (Parses.mark0 0x2f (by decide +kernel))) (n2 := v.length + 2) (t2 := v ++ [0x2f]) ?_
        (fun y _ => by rw [List.append_assoc]; exact noWs_token g3 g4) rfl (by omega)
      refine Parses.bind' (Parses.orErr (Parses.str csSipToken v g3 g4)) (n2 := 0) (t2 := [0x2f]) ?_ (fun y _ => hsl _) rfl rfl
      exact Parses.bind' (Parses.orErr (Parses.mark0 0x2f (by decide +kernel))) (Parses.pure _) (fun y hy => hy) (List.append_nil _).symm rfl
    exact this c y h1 h2 h3 h4 h5

theorem hostname_lws (b : UInt8) (h : csHostname.mem b = true) : isLwsChar b = false := by
  revert b; decide +kernel
theorem digit_lws (b : UInt8) (h : isDigit b = true) : isLwsChar b = false := by
  revert b; decide +kernel
theorem noWs_uint (n : Nat) (y : Bytes) : NoWs (encodeUInt n ++ y) := by
  obtain ⟨h1, _, h2, _⟩ := encodeUInt_spec n
  obtain ⟨b, r, e⟩ := List.exists_cons_of_ne_nil h2
  rw [e]
  refine noWs_of rfl ?_
  have h3 := (isDigit_iff b).2 (h1 b (by rw [e]; simp))
  exact digit_lws b h3

/-- the first byte of a host is not white space -/
theorem hostport_encode_noWs (net : Net) (h : HostPort) (hw : h.WF net) (y : Bytes) : NoWs (h.encode net ++ y) := by
  have key : ∃ b r, h.host.encode net = b :: r ∧ isLwsChar b = false := by
    have h1 := hw.1
    cases hh : h.host with
    | unknown => rw [hh] at h1; cases h1
    | ipv6 ip => exact ⟨0x5b, _, rfl, by decide +kernel⟩
    | ipv4 a b c d =>
      obtain ⟨x, r, e, hx⟩ : ∃ x r, writeByteAsString a = x :: r ∧ isLwsChar x = false := by
        have : ∀ a : UInt8, ((writeByteAsString a).head?.map isLwsChar) = some false := by decide +kernel
        have := this a
        cases hh : writeByteAsString a with
        | nil => rw [hh] at this; cases this
        | cons x r => rw [hh] at this; exact ⟨x, r, rfl, by simpa using this⟩
      exact ⟨x, _, by simp only [Host.encode, e, List.cons_append]; rfl, hx⟩
    | name s =>
      rw [hh] at h1
      obtain ⟨g1, g2, _⟩ := h1
      obtain ⟨b, r, rfl⟩ := List.exists_cons_of_ne_nil g1
      exact ⟨b, r, rfl, hostname_lws b (g2 b (by simp))⟩
  obtain ⟨b, r, e, hb⟩ := key
  unfold HostPort.encode
  rw [e]
  exact noWs_of rfl hb

theorem via_text (net : Net) (hnet : net.Ok) (fl : Flags) (pr : Option (Bytes × Bytes)) (t : Bytes) (h : HostPort) (ps : Params) (hw : HKind.via.WF net fl (.via pr t h ps)) :
    Parses fl (parseVia net) (protoText pr ++ t ++ 0x20 :: h.encode net ++ ps.encode HKind.via.paramNames)
      (HKind.via.canon fl (.via pr t h ps)) (HKind.via.cost (.via pr t h ps)) ValueEnd := by
  obtain ⟨_, hpr, ht1, ht2, hh, hps⟩ := hw
  unfold parseVia
  refine Parses.bind' (Parses.orErr (sentProtocol_text fl pr hpr)) (n2 := (t.length + 2) + h.host.cost + ps.cost HKind.via.paramNames)
    (t2 := t ++ 0x20 :: h.encode net ++ ps.encode HKind.via.paramNames) ?_ (fun y _ => by rw [List.append_assoc, List.append_assoc]; exact noWs_token ht1 ht2) (by simp)
    (by simp only [HKind.cost]; omega)
  refine Parses.bind' (Parses.orErr (Parses.str csSipToken t ht1 ht2)) (n2 := h.host.cost + ps.cost HKind.via.paramNames) (t2 := 0x20 :: h.encode net ++ ps.encode HKind.via.paramNames) ?_
    (fun y _ => by intro b hb; simp at hb; subst hb; decide +kernel) (by simp) (by omega)
  refine Parses.bind' (Parses.orErr (Parses.lws [0x20] (Or.inr ⟨[0x20], by simp, by simp [AllWsp], Or.inl rfl⟩))) (n2 := h.host.cost + ps.cost HKind.via.paramNames)
    (t2 := h.encode net ++ ps.encode HKind.via.paramNames) ?_ (fun y _ => by rw [List.append_assoc]; exact hostport_encode_noWs net h hh _) (by simp) (by omega)
  refine Parses.bind' (Parses.orErr (hostport_roundtrip net hnet fl h hh)) (n2 := ps.cost HKind.via.paramNames) ?_ ?_ rfl rfl
  · exact Parses.bind' (HKind.via.params_text fl ps hps) (Parses.pure _) (fun y hy => hy) (List.append_nil _).symm rfl
  · intro y hy
    have hh := params_head HKind.via.paramNames ps hy
    refine ⟨notIn_of _ hh (by decide +kernel) (by decide +kernel) (by decide +kernel), fun e => ?_⟩
    rcases hh _ e with h | h | h <;> cases h

/-! ## The other headers -/

theorem callId_text (fl : Flags) (a : Bytes) (b : Option Bytes) (ha : a ≠ []) (hw : InSet csSipWord a) (hb : ∀ x ∈ b, x ≠ [] ∧ InSet csSipWord x) :
    Parses fl parseCallId (a ++ hostIdText b) (.callId a b) (a.length + 2 + hostIdCost b)
      (fun y => NotIn csSipWord y ∧ y.head? ≠ some 0x40) := by
  unfold parseCallId
  cases b with
  | none =>
    refine Parses.bind' (Parses.orErr (Parses.str csSipWord a ha hw)) (n2 := 0) (t2 := []) ?_ (fun y hy => hy.1) rfl rfl
    refine Parses.peekEnd (fun y hy => ?_)
    cases hh : y.head? with
    | none => exact Parses.pure _
    | some d =>
      simp only
      rw [if_neg (fun e => hy.2 (by rw [hh, e]))]
      exact Parses.pure _
  | some b =>
    obtain ⟨h1, h2⟩ := hb b rfl
    refine Parses.bind' (Parses.orErr (Parses.str csSipWord a ha hw)) (n2 := b.length + 2) (t2 := 0x40 :: b) ?_ (fun y hy => by intro d hd; simp at hd; subst hd; decide +kernel) rfl rfl
    refine Parses.peek ?_
    simp only [if_true]
    refine Parses.skip1 ?_
    exact Parses.bind' (Parses.orErr (Parses.str csSipWord b h1 h2)) (Parses.pure _) (fun y hy => hy.1) (List.append_nil _).symm rfl

theorem isSWS_space : IsSWS [0x20] := Or.inr ⟨[0x20], by simp, by simp [AllWsp], Or.inl rfl⟩

theorem notDigit_space (y : Bytes) : NotIn csDigit (0x20 :: y) := by intro b hb; simp at hb; subst hb; decide +kernel

theorem cseq_text (fl : Flags) (n : Nat) (m : Method) (hn : n < 4294967296) (hm : m.WF) :
    Parses fl parseCSeq (encodeUInt n ++ 0x20 :: m.text) (.cseq n m) m.cost m.End := by
  unfold parseCSeq
  obtain ⟨t1, t2⟩ := method_text m hm
  refine Parses.bind' (Parses.uint n (by omega)) (n2 := m.cost) (t2 := 0x20 :: m.text) ?_ (fun y _ => notDigit_space _) rfl (by omega)
  refine Parses.bind' (Parses.orErr (Parses.lws [0x20] isSWS_space)) (n2 := m.cost) (t2 := m.text) ?_ (fun y _ => noWs_token t1 t2) rfl (by omega)
  rw [Nat.mod_eq_of_lt hn]
  exact Parses.bind' (Parses.orErr (method_roundtrip fl m hm)) (Parses.pure _) (fun y hy => hy) (List.append_nil _).symm rfl

theorem rack_text (fl : Flags) (r n : Nat) (m : Method) (hr : r < 4294967296) (hn : n < 4294967296) (hm : m.WF) :
    Parses fl parseRAck (encodeUInt r ++ 0x20 :: encodeUInt n ++ 0x20 :: m.text) (.rack r n m) m.cost m.End := by
  unfold parseRAck
  obtain ⟨t1, t2⟩ := method_text m hm
  refine Parses.bind' (Parses.uint r (by omega)) (n2 := m.cost) (t2 := 0x20 :: encodeUInt n ++ 0x20 :: m.text) ?_ (fun y _ => notDigit_space _) (by simp) (by omega)
  refine Parses.bind' (Parses.orErr (Parses.lws [0x20] isSWS_space)) (n2 := m.cost) (t2 := encodeUInt n ++ 0x20 :: m.text) ?_ (fun y _ => by rw [List.append_assoc]; exact noWs_uint _ _) rfl (by omega)
  refine Parses.bind' (Parses.uint n (by omega)) (n2 := m.cost) (t2 := 0x20 :: m.text) ?_ (fun y _ => notDigit_space _) rfl (by omega)
  refine Parses.bind' (Parses.orErr (Parses.lws [0x20] isSWS_space)) (n2 := m.cost) (t2 := m.text) ?_ (fun y _ => noWs_token t1 t2) rfl (by omega)
  rw [Nat.mod_eq_of_lt hn, Nat.mod_eq_of_lt hr]
  exact Parses.bind' (Parses.orErr (method_roundtrip fl m hm)) (Parses.pure _) (fun y hy => hy) (List.append_nil _).symm rfl

theorem num_text (fl : Flags) (size n : Nat) (hs : size ≤ 4294967296) (hn : n < size) : Parses fl (parseNum size) (encodeUInt n) (.num n) 0 (NotIn csDigit) := by
  unfold parseNum
  refine Parses.bind' (Parses.uint n (by omega)) (t2 := []) (n2 := 0) ?_ (fun y hy => hy) (List.append_nil _).symm rfl
  rw [Nat.mod_eq_of_lt hn]
  exact Parses.pure _

theorem contentType_text (net : Net) (fl : Flags) (t s : Bytes) (ps : Params) (hw : HKind.contentType.WF net fl (.contentType t s ps)) :
    Parses fl parseContentType (t ++ 0x2f :: s ++ ps.encode HKind.contentType.paramNames) (HKind.contentType.canon fl (.contentType t s ps))
      (HKind.contentType.cost (.contentType t s ps)) ValueEnd := by
  obtain ⟨_, h1, h2, h3, h4, h5⟩ := hw
  unfold parseContentType
  refine Parses.bind' (Parses.orErr (Parses.str csSipToken t h1 h2)) (n2 := s.length + 2 + ps.cost HKind.contentType.paramNames)
    (t2 := 0x2f :: s ++ ps.encode HKind.contentType.paramNames) ?_ (fun y _ => by intro b hb; simp at hb; subst hb; decide +kernel) (by simp) (by simp only [HKind.cost]; omega)
  refine Parses.bind' (Parses.orErr (Parses.mark0 0x2f (by decide +kernel))) (n2 := s.length + 2 + ps.cost HKind.contentType.paramNames)
    (t2 := s ++ ps.encode HKind.contentType.paramNames) ?_ (fun y _ => by rw [List.append_assoc]; exact noWs_token h3 h4) rfl (by omega)
  refine Parses.bind' (Parses.orErr (Parses.str csSipToken s h3 h4)) (n2 := ps.cost HKind.contentType.paramNames) ?_
    (fun y hy => notIn_of _ (params_head _ ps hy) (by decide +kernel) (by decide +kernel) (by decide +kernel)) rfl rfl
  exact Parses.bind' (HKind.contentType.params_text fl ps h5) (Parses.pure _) (fun y hy => hy) (List.append_nil _).symm rfl

theorem contentDisposition_text (net : Net) (fl : Flags) (t : Bytes) (ps : Params) (hw : HKind.contentDisposition.WF net fl (.contentDisposition t ps)) :
    Parses fl parseContentDisposition (t ++ ps.encode HKind.contentDisposition.paramNames) (HKind.contentDisposition.canon fl (.contentDisposition t ps))
      (HKind.contentDisposition.cost (.contentDisposition t ps)) ValueEnd := by
  obtain ⟨_, h1, h2, h5⟩ := hw
  unfold parseContentDisposition
  refine Parses.bind' (Parses.orErr (Parses.str csSipToken t h1 h2)) (n2 := ps.cost HKind.contentDisposition.paramNames) ?_
    (fun y hy => notIn_of _ (params_head _ ps hy) (by decide +kernel) (by decide +kernel) (by decide +kernel)) rfl rfl
  exact Parses.bind' (HKind.contentDisposition.params_text fl ps h5) (Parses.pure _) (fun y hy => hy) (List.append_nil _).symm rfl

theorem valueEnd_method {m : Method} {y : Bytes} (h : ValueEnd y) (h2 : y = [] → m.text ∉ [str "P", str "IN", str "RE"]) : m.End y :=
  ⟨valueEnd_notIn _ h (by decide +kernel) (by decide +kernel), h2⟩

/-- **C20 - C23, C36** Every value of a header is written as a text that reads back as that value (Content-Length: see `header_roundtrip`). -/
theorem header_value_roundtrip (net : Net) (hnet : net.Ok) (fl : Flags) (k : HKind) (v : HVal) (h : k.WF net fl v) (hk : k ≠ .contentLength) :
    ∃ t, k.encodeValue net fl v = .ok t ∧ Parses fl (k.parseValue net) t (k.canon fl v) (k.cost v) (k.End fl v) := by
  cases v with
  | addr a ps =>
    refine ⟨_, rfl, ?_⟩
    have hk2 := h.1
    cases k <;> first | (cases hk2; done) | skip
    · exact addrParams_text net hnet fl .to a ps rfl h
    · exact addrParams_text net hnet fl .from a ps rfl h
    · exact contact_text net hnet fl a ps h
    · exact routeParams_text net hnet fl .route a ps rfl h
    · exact routeParams_text net hnet fl .recordRoute a ps rfl h
    · exact routeParams_text net hnet fl .path a ps rfl h
    · exact routeParams_text net hnet fl .serviceRoute a ps rfl h
    · exact identity_text net hnet fl a ps h
  | star => cases h; exact ⟨_, rfl, (star_text net fl).mono (fun y hy => valueEnd_sws hy.1)⟩
  | via pr t hp ps =>
    cases h.1
    exact ⟨_, by cases pr <;> rfl, (via_text net hnet fl pr t hp ps h).mono (fun y hy => hy.1)⟩
  | callId a b =>
    cases h.1
    refine ⟨_, by cases b <;> rfl, (callId_text fl a b h.2.1 h.2.2.1 h.2.2.2).mono (fun y hy => ?_)⟩
    refine ⟨valueEnd_notIn _ hy.1 (by decide +kernel) (by decide +kernel), fun e => ?_⟩
    rcases valueEnd_head hy.1 _ e with h | h <;> cases h
  | cseq n m =>
    cases h.1
    refine ⟨_, by simp only [HKind.encodeValue, method_encode m h.2.2, Out.ok_bind], (cseq_text fl n m h.2.1 h.2.2).mono (fun y hy => valueEnd_method hy.1 hy.2)⟩
  | rack r n m =>
    cases h.1
    refine ⟨_, by simp only [HKind.encodeValue, method_encode m h.2.2.2, Out.ok_bind], (rack_text fl r n m h.2.1 h.2.2.1 h.2.2.2).mono (fun y hy => valueEnd_method hy.1 hy.2)⟩
  | num n =>
    obtain ⟨s, hs, hn⟩ := h
    have he : ∀ y, k.End fl (.num n) y → NotIn csDigit y := fun y hy => valueEnd_notIn _ hy.1 (by decide +kernel) (by decide +kernel)
    refine ⟨_, by simp only [HKind.encodeValue, if_neg hk]; rfl, ?_⟩
    cases k <;> first | (cases hs; done) | skip
    · cases hs; exact (num_text fl _ n (by omega) hn).mono he
    · cases hs; exact (num_text fl _ n (by omega) hn).mono he
    · cases hs; exact (num_text fl _ n (by omega) hn).mono he
    · exact absurd rfl hk
  | contentType t s ps => cases h.1; exact ⟨_, rfl, (contentType_text net fl t s ps h).mono (fun y hy => hy.1)⟩
  | contentDisposition t ps => cases h.1; exact ⟨_, rfl, (contentDisposition_text net fl t ps h).mono (fun y hy => hy.1)⟩

/-! ## Header names -/

/-- what follows a header name: `:` or white space -/
def NameStop (y : Bytes) : Prop := ∃ b ∈ y.head?, b = 0x3a ∨ b = 0x20 ∨ b = 0x09

/-- the bytes of a text agree with a name -/
inductive NameMatch (loose : Bool) : Bytes → Bytes → Prop
  | nil : NameMatch loose [] []
  | cons {p b : UInt8} {n w : Bytes} (h : nameByte loose p b = true) (ht : NameMatch loose n w) : NameMatch loose (p :: n) (b :: w)

theorem NameMatch.length_eq {loose : Bool} {n w : Bytes} (h : NameMatch loose n w) : n.length = w.length := by
  induction h with
  | nil => rfl
  | cons _ _ ih => simp [ih]

theorem nameAt_iff (loose : Bool) (n t : Bytes) :
    nameAt loose n t = true ↔ ∃ w y, t = w ++ y ∧ NameMatch loose n w ∧ NameStop y := by
  induction n generalizing t with
  | nil =>
    cases t with
    | nil =>
      simp only [nameAt, Bool.false_eq_true, false_iff]
      rintro ⟨w, y, e, hm, b', hb, h⟩
      cases hm; cases e; cases hb
    | cons b t =>
      have hw : ∀ b : UInt8, ((b = 0x3a || isWspChar b) = true) ↔ (b = 0x3a ∨ b = 0x20 ∨ b = 0x09) := by decide +kernel
      simp only [nameAt, hw]
      constructor
      · intro h; exact ⟨[], b :: t, rfl, .nil, b, rfl, h⟩
      · rintro ⟨w, y, e, hm, b', hb, h⟩
        cases hm; cases e; cases hb; exact h
  | cons p n ih =>
    cases t with
    | nil =>
      simp only [nameAt, Bool.false_eq_true, false_iff]
      rintro ⟨w, y, e, h, _⟩
      cases h with
      | cons _ _ => cases e
    | cons b t =>
      simp only [nameAt, Bool.and_eq_true, ih]
      constructor
      · rintro ⟨h1, w, y, rfl, h2, h3⟩
        exact ⟨b :: w, y, rfl, .cons h1 h2, h3⟩
      · rintro ⟨w, y, e, h, h3⟩
        cases h with
        | cons h1 h2 => cases e; exact ⟨h1, _, _, rfl, h2, h3⟩

/-- the characters of header names -/
def nameChars : Bytes := (List.range 26).map (fun k => UInt8.ofNat (0x61 + k)) ++ [0x2d]

theorem nameByte_iff : ∀ p ∈ nameChars, ∀ b : UInt8, (nameByte true p b = true ↔ asciiLower b = p ∨ (p = 0x2d ∧ b = 0x0d)) ∧ (nameByte false p b = true ↔ asciiLower b = p) := by
  decide +kernel
theorem nameByte_stop : ∀ p ∈ nameChars, ∀ b : UInt8, (b = 0x3a ∨ b = 0x20 ∨ b = 0x09) → nameByte true p b = false ∧ nameByte false p b = false := by decide +kernel

theorem HKind.names_chars (k : HKind) : ∀ n ∈ k.names, ∀ p ∈ n, p ∈ nameChars := by
  cases k <;> decide +kernel

theorem nameByte_of_lower (loose : Bool) {p b : UInt8} (hp : p ∈ nameChars) (h : asciiLower b = p) : nameByte loose p b = true := by
  cases loose
  · exact ((nameByte_iff p hp b).2).2 h
  · exact ((nameByte_iff p hp b).1).2 (Or.inl h)

theorem nameBytes_of_lower (loose : Bool) {n w : Bytes} (hn : ∀ p ∈ n, p ∈ nameChars) (h : SameLetters w n) : NameMatch loose n w := by
  induction n generalizing w with
  | nil =>
    cases w with
    | nil => exact .nil
    | cons b w => cases h
  | cons p n ih =>
    cases w with
    | nil => cases h
    | cons b w =>
      unfold SameLetters at h
      simp only [List.map_cons, List.cons.injEq] at h
      exact .cons (nameByte_of_lower loose (hn p (by simp)) h.1) (ih (fun p hp => hn p (by simp [hp])) h.2)

/-- two names that stand at the same place have the same length -/
theorem name_len {loose : Bool} {n n' w w' y y' : Bytes} (hn : ∀ p ∈ n, p ∈ nameChars) (hn' : ∀ p ∈ n', p ∈ nameChars)
    (h1 : NameMatch loose n w) (h2 : NameMatch loose n' w') (hy : NameStop y) (hy' : NameStop y')
    (e : w ++ y = w' ++ y') : w.length = w'.length := by
  have stop : ∀ p ∈ nameChars, ∀ b, (b = 0x3a ∨ b = 0x20 ∨ b = 0x09) → nameByte loose p b ≠ true := by
    intro p hp b hb h
    have := nameByte_stop p hp b hb
    cases loose
    · rw [this.2] at h; cases h
    · rw [this.1] at h; cases h
  induction h1 generalizing w' n' with
  | nil =>
    cases h2 with
    | nil => rfl
    | cons h h2 =>
      obtain ⟨b, hb, hs⟩ := hy
      simp only [List.nil_append] at e
      rw [e] at hb
      cases hb
      exact absurd h (stop _ (hn' _ (by simp)) _ hs)
  | cons h h1 ih =>
    cases h2 with
    | nil =>
      obtain ⟨b, hb, hs⟩ := hy'
      simp only [List.nil_append] at e
      rw [← e] at hb
      cases hb
      exact absurd h (stop _ (hn _ (by simp)) _ hs)
    | cons h' h2 =>
      simp only [List.cons_append, List.cons.injEq] at e
      simp only [List.length_cons]
      rw [ih (fun p hp => hn p (by simp [hp])) (fun p hp => hn' p (by simp [hp])) h2 e.2]

/-- **C37** Every spelling of a name of the header, full or compact, is accepted in front of `:` or white space. -/
theorem headerName_accepts (fl : Flags) (k : HKind) (n w : Bytes) (hn : n ∈ k.names) (hw : SameLetters w n) : Parses fl k.parseName w () 0 NameStop := by
  intro c y h1 h2 h3 h4 h5
  have hc := k.names_chars
  have hat : nameAt k.looseDash n c.rest = true := (nameAt_iff _ _ _).2 ⟨w, y, h2, nameBytes_of_lower _ (hc n hn) hw, h3⟩
  unfold HKind.parseName
  cases hf : k.names.find? (fun n => nameAt k.looseDash n c.rest) with
  | none =>
    have := List.find?_eq_none.1 hf n hn
    exact absurd hat this
  | some n' =>
    have g1 := List.find?_some hf
    have g2 := List.mem_of_find?_eq_some hf
    obtain ⟨w', y', e, g3, g4⟩ := (nameAt_iff _ _ _).1 g1
    have := name_len (hc n hn) (hc n' g2) (nameBytes_of_lower _ (hc n hn) hw) g3 h3 g4 (h2.symm.trans e)
    have hl := g3.length_eq
    simp only
    rw [hl, ← this]; rfl

/-- **C37** Only a name of the header is accepted, and the position is moved behind it; otherwise the position does not change.  (The exact version is `headerName_exact`; left out here is
a CR inside the name, which is taken for `-` by three headers, `headerName_cr`.) -/
theorem headerName_sound_noCr (k : HKind) (c c' : Ctx) (r : Option Unit) (h : k.parseName c = .ok (r, c')) :
    (r = none ∧ c' = c) ∨ (r = some () ∧ ∃ w y, c.rest = w ++ y ∧ NameStop y ∧ c' = c.adv w.length ∧ ((∀ b ∈ w, b ≠ 0x0d) → ∃ n ∈ k.names, SameLetters w n)) := by
  unfold HKind.parseName at h
  cases hf : k.names.find? (fun n => nameAt k.looseDash n c.rest) with
  | none => rw [hf] at h; cases h; exact Or.inl ⟨rfl, rfl⟩
  | some n =>
    rw [hf] at h
    simp only [Out.ok.injEq, Prod.mk.injEq] at h
    have g1 := List.find?_some hf
    have g2 := List.mem_of_find?_eq_some hf
    obtain ⟨w, y, e, g3, g4⟩ := (nameAt_iff _ _ _).1 g1
    refine Or.inr ⟨h.1.symm, w, y, e, g4, by rw [← h.2, g3.length_eq], fun hcr => ⟨n, g2, ?_⟩⟩
    have hc := k.names_chars n g2
    clear hf g1 e g2 h
    unfold SameLetters
    induction g3 with
    | nil => rfl
    | cons h1 h2 ih =>
      rename_i p b _ _
      simp only [List.map_cons, List.cons.injEq]
      refine ⟨?_, ih (fun b hb => hcr b (by simp [hb])) (fun p hp => hc p (by simp [hp]))⟩
      have hi := nameByte_iff p (hc p (by simp)) b
      cases hl : k.looseDash <;> rw [hl] at h1
      · exact hi.2.1 h1
      · rcases hi.1.1 h1 with h | h
        · exact h
        · exact absurd h.2 (hcr b (by simp))

/-- **C37, negation**: three headers accept a CR in place of a `-` -/
theorem headerName_cr : ∃ c', HKind.recordRoute.parseName { src := str "Record\rRoute: <sip:a@b>", cap := 100 } = .ok (some (), c') := resultOf_ok (by decide +kernel)

/-- **C37, negation**: the parsers of Content-Type and Content-Disposition accept `l`, the compact form of Content-Length -/
theorem headerName_l : (∃ c', HKind.contentType.parseName { src := str "l: a/b", cap := 100 } = .ok (some (), c')) ∧
    ∃ c', HKind.contentDisposition.parseName { src := str "l: a", cap := 100 } = .ok (some (), c') := ⟨resultOf_ok (by decide +kernel), resultOf_ok (by decide +kernel)⟩

/-- the name that is written is a name that is read -/
theorem HKind.title_name (k : HKind) : ∃ n ∈ k.names, SameLetters k.title n := by
  refine ⟨k.title.map asciiLower, ?_, rfl⟩
  cases k <;> decide +kernel

/-! ## The whole header -/

theorem isSWS_append {w s : Bytes} (hw : IsSWS w) (hs : AllWsp s) : IsSWS (w ++ s) := by
  rcases hw with rfl | ⟨b, hb1, hb2, h⟩
  · cases s with
    | nil => exact Or.inl rfl
    | cons x s => exact Or.inr ⟨x :: s, by simp, hs, Or.inl rfl⟩
  · refine Or.inr ⟨b ++ s, by simp [hb1], ?_, ?_⟩
    · intro x hx
      rcases List.mem_append.1 hx with h | h
      · exact hb2 x h
      · exact hs x h
    · rcases h with rfl | ⟨a, ha, rfl⟩
      · exact Or.inl rfl
      · exact Or.inr ⟨a, ha, by simp⟩

theorem noWs_word {t y : Bytes} (hne : t ≠ []) (ht : InSet csSipWord t) : NoWs (t ++ y) := by
  have key : ∀ b : UInt8, csSipWord.mem b = true → isLwsChar b = false := by decide +kernel
  obtain ⟨b, r, rfl⟩ := List.exists_cons_of_ne_nil hne
  exact noWs_of rfl (key b (ht b (by simp)))

/-- no value starts with white space, but for the padding of Content-Length -/
theorem value_noWs (net : Net) (fl : Flags) (k : HKind) (v : HVal) (h : k.WF net fl v) (hk : k ≠ .contentLength) (t : Bytes) (ht : k.encodeValue net fl v = .ok t) (y : Bytes) : NoWs (t ++ y) := by
  cases v with
  | addr a ps =>
    cases ht
    have : ∃ b r, a.encode net fl = b :: r ∧ isLwsChar b = false := by
      obtain ⟨_, ha, _⟩ := h
      unfold Addr.encode
      split
      · cases hd : a.display with
        | none => rw [addr_display_none hd]; exact ⟨0x3c, _, rfl, by decide +kernel⟩
        | some d =>
          obtain ⟨_, h2⟩ := ha.display d hd
          obtain ⟨b, d⟩ := d
          cases b with
          | true => unfold Addr.encodeDisplay; rw [hd]; exact ⟨0x22, _, rfl, by decide +kernel⟩
          | false =>
            simp only [Bool.false_eq_true, if_false] at h2
            obtain ⟨b, r, rfl⟩ := List.exists_cons_of_ne_nil h2.1
            have := h2.2.head b rfl
            unfold Addr.encodeDisplay; rw [hd]
            exact ⟨b, _, rfl, (token_lws b this).1⟩
      · rw [addrUri_encode_eq net fl a.uri ha.uri]
        cases a.uri with
        | sip u => cases hs : u.secure <;> simp only [AddrUri.scheme, hs] <;> exact ⟨0x73, _, rfl, by decide +kernel⟩
        | tel u => exact ⟨0x74, _, rfl, by decide +kernel⟩
    obtain ⟨b, r, e, hb⟩ := this
    rw [e]; exact noWs_of rfl hb
  | star => cases ht; exact noWs_of rfl (by decide +kernel)
  | via pr tr hp ps =>
    obtain ⟨_, hpr, _⟩ := h
    cases pr with
    | none => cases ht; exact noWs_of rfl (by decide +kernel)
    | some x =>
      obtain ⟨n, v⟩ := x
      obtain ⟨g1, g2, _⟩ := hpr _ rfl
      cases ht
      simp only [List.append_assoc, List.cons_append]
      exact noWs_token g1 g2
  | callId a b => cases ht; rw [List.append_assoc]; exact noWs_word h.2.1 h.2.2.1
  | cseq n m =>
    simp only [HKind.encodeValue, method_encode m h.2.2, Out.ok_bind, Out.ok.injEq] at ht
    rw [← ht, List.append_assoc]; exact noWs_uint _ _
  | rack r n m =>
    simp only [HKind.encodeValue, method_encode m h.2.2.2, Out.ok_bind, Out.ok.injEq] at ht
    rw [← ht, List.append_assoc, List.append_assoc]; exact noWs_uint _ _
  | num n =>
    simp only [HKind.encodeValue, if_neg hk, Out.ok.injEq] at ht
    rw [← ht]; exact noWs_uint _ _
  | contentType t s ps => cases ht; rw [List.append_assoc, List.append_assoc]; exact noWs_token h.2.1 h.2.2.1
  | contentDisposition t ps => cases ht; rw [List.append_assoc]; exact noWs_token h.2.1 h.2.2.1

/-- **C20 - C23, C36, C37** A header is written as `Name: value`, and that text - also with the name in another spelling or the compact form, and other white
space around the colon - reads back as the same value, consuming exactly the text. -/
theorem header_roundtrip (net : Net) (hnet : net.Ok) (fl : Flags) (k : HKind) (v : HVal) (h : k.WF net fl v) :
    ∃ t, k.encode net fl v = .ok (k.title ++ str ": " ++ t) ∧
      ∀ n ∈ k.names, ∀ w w1 w2, SameLetters w n → AllWsp w1 → IsSWS w2 →
        Parses fl (k.parse net) (w ++ w1 ++ 0x3a :: w2 ++ t) (k.canon fl v) (k.cost v) (k.End fl v) := by
  have key : ∀ t1 t2, AllWsp t1 → (∀ y, NoWs (t2 ++ y)) → Parses fl (k.parseValue net) t2 (k.canon fl v) (k.cost v) (k.End fl v) →
      ∀ n ∈ k.names, ∀ w w1 w2, SameLetters w n → AllWsp w1 → IsSWS w2 →
        Parses fl (k.parse net) (w ++ w1 ++ 0x3a :: w2 ++ (t1 ++ t2)) (k.canon fl v) (k.cost v) (k.End fl v) := by
    intro t1 t2 ht1 ht2 hp n hn w w1 w2 hw hw1 hw2
    unfold HKind.parse
    refine Parses.bind' (Parses.orErr (headerName_accepts fl k n w hn hw)) (n2 := k.cost v) (t2 := w1 ++ 0x3a :: (w2 ++ t1) ++ t2) ?_ ?_ (by simp) (Nat.zero_add _).symm
    · refine Parses.bind' (Parses.orErr (Parses.hcolon w1 (w2 ++ t1) hw1 (isSWS_append hw2 ht1))) (n2 := k.cost v) hp (fun y _ => ht2 y) (by simp) (Nat.zero_add _).symm
    · intro y _
      cases w1 with
      | nil => exact ⟨0x3a, rfl, Or.inl rfl⟩
      | cons b w1 => exact ⟨b, rfl, Or.inr (hw1 b (by simp))⟩
  by_cases hk : k = .contentLength
  · subst hk
    cases v with
    | num n =>
      obtain ⟨s, hs, hn⟩ := h
      cases hs
      obtain ⟨e, _⟩ := encodeUIntWithWidth_spec n 10
      refine ⟨encodeUIntWithWidth n 10, rfl, ?_⟩
      rw [e]
      refine key _ _ ?_ (fun y => noWs_uint n y) ((num_text fl 4294967296 n (by omega) hn).mono (fun y hy => valueEnd_notIn _ hy.1 (by decide +kernel) (by decide +kernel)))
      intro b hb
      exact Or.inl (List.eq_of_mem_replicate hb)
    | addr a ps => exact absurd h.1 (by decide)
    | star => cases h
    | via pr t h' ps => cases h.1
    | callId a b => cases h.1
    | cseq n m => cases h.1
    | rack r n m => cases h.1
    | contentType t s ps => cases h.1
    | contentDisposition t ps => cases h.1
  · obtain ⟨t, e, hp⟩ := header_value_roundtrip net hnet fl k v h hk
    refine ⟨t, by simp only [HKind.encode, e, Out.ok_bind], ?_⟩
    have := key [] t (by intro b hb; cases hb) (value_noWs net fl k v h hk t e) hp
    simpa using this

/-- the header as it is written -/
theorem header_encode_parse (net : Net) (hnet : net.Ok) (fl : Flags) (k : HKind) (v : HVal) (h : k.WF net fl v) :
    ∃ t, k.encode net fl v = .ok t ∧ Parses fl (k.parse net) t (k.canon fl v) (k.cost v) (k.End fl v) := by
  obtain ⟨t, e, hp⟩ := header_roundtrip net hnet fl k v h
  obtain ⟨n, hn, hw⟩ := k.title_name
  refine ⟨_, e, ?_⟩
  have := hp n hn k.title [] [0x20] hw (by intro b hb; cases hb) isSWS_space
  have e2 : k.title ++ str ": " ++ t = k.title ++ [] ++ 0x3a :: [0x20] ++ t := by
    have : str ": " = [0x3a, 0x20] := by decide +kernel
    rw [this]; simp
  rw [e2]; exact this

/-! ## Deviations -/

/-- **C21, negation**: a number too large for its field is read as another number: 2^32 + 1 in CSeq, 256 in Max-Forwards -/
theorem num_truncates :
    (∃ c', HKind.cseq.parseValue Net.sample { src := str "4294967297 INVITE\r\n", cap := 100 } = .ok (some (.cseq 1 (.known 1)), c')) ∧
    (∃ c', HKind.maxForwards.parseValue Net.sample { src := str "256\r\n", cap := 100 } = .ok (some (.num 0), c')) ∧
    ∃ c', HKind.contentLength.parseValue Net.sample { src := str "4294967306\r\n", cap := 100 } = .ok (some (.num 10), c') :=
  ⟨resultOf_ok (by decide +kernel), resultOf_ok (by decide +kernel), resultOf_ok (by decide +kernel)⟩

/-- **C21** exactly: what a numeric header reads is the number in the text, reduced to the size of the field -/
theorem num_value (net : Net) (fl : Flags) (k : HKind) (s : Nat) (hs : s ∈ k.numSize) (d : Bytes) (hne : d ≠ []) (hd : InSet csDigit d) :
    Parses fl (k.parseValue net) d (.num (decVal d % s)) 0 (NotIn csDigit) := by
  have key : ∀ s, (s = 4294967296 ∨ s = 256) → Parses fl (parseNum s) d (.num (decVal d % s)) 0 (NotIn csDigit) := by
    intro s h
    unfold parseNum
    refine Parses.bind' (Parses.digits d hne hd) (t2 := []) (n2 := 0) ?_ (fun y hy => hy) (List.append_nil _).symm rfl
    have : decVal d % 18446744073709551616 % s = decVal d % s := by
      rcases h with rfl | rfl
      · exact Nat.mod_mod_of_dvd _ ⟨4294967296, by decide⟩
      · exact Nat.mod_mod_of_dvd _ ⟨72057594037927936, by decide⟩
    rw [this]
    exact Parses.pure _
  cases k <;> first | (cases hs; done) | (cases hs; exact key _ (by simp))

/-- **C21, negation**: what `EncodeValue` writes for Content-Length (padded with spaces) is not accepted by `ParseValue`, only behind the colon -/
theorem contentLength_padded :
    HKind.contentLength.encodeValue Net.sample {} (.num 5) = .ok (str "         5") ∧
    ∃ c', HKind.contentLength.parseValue Net.sample { src := str "         5\r\n", cap := 100 } = .ok (none, c') := ⟨by decide +kernel, resultOf_ok (by decide +kernel)⟩

/-- **C20, negation**: a display name that begins with `*` makes a Contact the value `*` -/
theorem contact_star_name : ∃ c', HKind.contact.parseValue Net.sample { src := str "*a <sip:a@b>\r\n", cap := 100 } = .ok (some .star, c') := resultOf_ok (by decide +kernel)

/-- **C23, negation**: the protocol version `2.0a` is a token, but is not accepted behind `SIP/` -/
theorem via_version : (∃ c', HKind.via.parseValue Net.sample { src := str "SIP/2.0a/UDP a.b\r\n", cap := 100 } = .ok (none, c')) ∧
    ∃ c', HKind.via.parseValue Net.sample { src := str "SIP/3.0a/UDP a.b\r\n", cap := 100 } = .ok (some (.via (some (str "SIP", str "3.0a")) (str "UDP") ⟨.name (str "a.b"), none⟩ {}), c') :=
  ⟨resultOf_ok (by decide +kernel), resultOf_ok (by decide +kernel)⟩

/-- **C22, negation**: a Call-ID with a `/`, which is a word, is cut there -/
theorem callId_slash : ∃ c', HKind.callId.parseValue Net.sample { src := str "a/b@c\r\n", cap := 100 } = .ok (some (.callId (str "a") none), c') := resultOf_ok (by decide +kernel)

/-! ## Examples: values that meet the hypotheses -/

def HVal.sampleTo : HVal := .addr Addr.sample ⟨[], [⟨str "tag", some (.token (str "1928"))⟩]⟩
theorem HVal.sampleTo_wf : HKind.to.WF Net.sample { setSipUriKnownParam := true } HVal.sampleTo := by
  refine ⟨rfl, Addr.sample_wf, ⟨?_, Or.inl rfl, by simp, by simp⟩, by simp, by simp [Addr.sample], by simp⟩
  intro p hp
  simp only [List.mem_singleton] at hp
  subst hp
  exact ⟨⟨by decide, by decide +kernel, fun v hv => by cases hv; exact ⟨by decide, by decide +kernel⟩⟩, fun h => by cases h⟩

def HVal.sampleVia : HVal := .via (some (str "SIP", str "2.07")) (str "UDP") ⟨.ipv4 10 0 0 1, some 5060⟩ {}
theorem HVal.sampleVia_wf : HKind.via.WF Net.sample {} HVal.sampleVia := by
  refine ⟨rfl, ?_, by decide +kernel, by decide +kernel, ⟨trivial, by simp⟩, ⟨by simp, Or.inl rfl, by simp, by simp⟩⟩
  intro x hx; cases hx
  refine ⟨by decide +kernel, by decide +kernel, by decide +kernel, by decide +kernel, ?_⟩
  rintro ⟨_, r, e, hr⟩
  have : r = str "7" := by
    have e2 : str "2.07" = str "2.0" ++ str "7" := by decide +kernel
    simp only [e2] at e
    exact (List.append_cancel_left e).symm
  subst this
  revert hr; decide +kernel

example : HKind.cseq.WF Net.sample {} (.cseq 4294967295 (.known 13)) := ⟨rfl, by decide, "PUBLISH", by decide +kernel⟩
example : HKind.callId.WF Net.sample {} (.callId (str "a{84}b4c76e66710") (some (str "10.0.0.1"))) := ⟨rfl, by decide +kernel, by decide +kernel, by intro x hx; cases hx; decide +kernel⟩
example : HKind.contentLength.WF Net.sample {} (.num 4294967295) := ⟨_, rfl, by decide⟩

end Sip
