import Verif.Props.UriSafe
/-!
# C34: telephone URIs

Specification: `isSeparator` lists the visual separators of RFC 3966; `TelUri.WF` says which values are normalised.
-/
namespace Sip

/-- the visual separators of RFC 3966: `-` `.` `(` `)` -/
def isSeparator (b : UInt8) : Prop := b = 0x2d ∨ b = 0x2e ∨ b = 0x28 ∨ b = 0x29
instance : DecidablePred isSeparator := fun b => by unfold isSeparator; infer_instance

theorem isSeparator_iff (b : UInt8) : isTelVisualSperator b = true ↔ isSeparator b := by revert b; decide +kernel

/-- **C34** removing the separators keeps exactly the other bytes, in order; doing it twice changes nothing. -/
theorem removeVisualSeparators_spec (b : Bytes) :
    removeVisualSeparators b = b.filter (fun x => ¬ isSeparator x) ∧ removeVisualSeparators (removeVisualSeparators b) = removeVisualSeparators b ∧
    (∀ x ∈ removeVisualSeparators b, ¬ isSeparator x) ∧ ((∀ x ∈ b, ¬ isSeparator x) → removeVisualSeparators b = b) := by
  have e : ∀ l : Bytes, removeVisualSeparators l = l.filter (fun x => ¬ isSeparator x) := by
    intro l
    unfold removeVisualSeparators
    apply List.filter_congr
    intro x _
    rw [Bool.eq_iff_iff, decide_eq_true_iff, Bool.not_eq_true', ← Bool.not_eq_true, isSeparator_iff]
  refine ⟨e b, ?_, ?_, ?_⟩
  · rw [e, e, List.filter_filter]; simp
  · intro x hx; rw [e] at hx; simpa using (List.mem_filter.1 hx).2
  · intro h; rw [e, List.filter_eq_self]; simpa using h

theorem filter_tel (l : Bytes) : (l.filter fun v => !isTelVisualSperator v) = l.filter (fun x => ¬ isSeparator x) := (removeVisualSeparators_spec l).1

/-- **C34** the number: an optional `+`, then the longest run of digits and separators; the stored number is the `+` and the digits without the
separators, in order.  A text without any digit is rejected. -/
theorem parseTelNumber_spec (s : CS) (c : Ctx) (plus x y : Bytes) (hr : c.rest = plus ++ (x ++ y)) (hplus : plus = [0x2b] ∨ (plus = [] ∧ (x ++ y).head? ≠ some 0x2b))
    (hx : InSet s x) (hy : NotIn s y) (hfit : c.used + 2 + plus.length + (x.filter fun b => ¬ isSeparator b).length < c.cap) :
    parseTelNumber s c = (if (x.filter fun b => ¬ isSeparator b) = [] then
        .ok (none, (c.setPos (c.pos + plus.length + x.length)).addError (c.pos + plus.length + x.length))
      else .ok (some (plus ++ x.filter fun b => ¬ isSeparator b), c.eat (plus ++ x).length ((plus ++ x.filter fun b => ¬ isSeparator b).length + 2))) := by
  have hcur := cur_eq_head c
  rw [hr] at hcur
  have hp : (if c.cur? = some 0x2b then [0x2b] else [] : Bytes) = plus := by
    rcases hplus with rfl | ⟨rfl, h⟩
    · rw [if_pos (by rw [hcur]; rfl)]
    · rw [if_neg (by rw [hcur]; simpa using h)]
  have hd : (c.src.drop (c.pos + plus.length)).takeWhile s.mem = x := by
    rw [← List.drop_drop]
    show (c.rest.drop plus.length).takeWhile s.mem = x
    rw [hr, List.drop_left]
    exact takeWhile_split rfl hx hy
  unfold parseTelNumber
  simp only [hp, hd, filter_tel]
  rw [if_neg (by omega), if_neg (by omega)]
  by_cases h : (x.filter fun b => ¬ isSeparator b) = []
  · rw [if_pos h, if_pos (by rw [h]; rfl)]
  · rw [if_neg h, if_neg (by simpa using h), if_neg (by omega)]
    simp only [Ctx.eat, List.length_append, Out.ok.injEq, Prod.mk.injEq, Ctx.mk.injEq, true_and, and_true]; omega

/-- the values a telephone URI can have that `Encode` can write -/
structure TelUri.WF (fl : Flags) (u : TelUri) : Prop where
  number : ∃ ds, ds ≠ [] ∧ (∀ b ∈ ds, ¬ isSeparator b) ∧
    (if u.isGlobal then u.number = 0x2b :: ds ∧ InSet csTelPhoneDigit ds else u.number = ds ∧ InSet csTelPhoneDigitHex ds)
  noContext : u.context = none → u.contextIsDomain = false
  context : ∀ p ∈ u.context, u.isGlobal = false ∧ p.name.map asciiLower = str "phone-context" ∧ ∃ b v, p.value = some (b :: v) ∧
    EscOk fl csTelPvalue (b :: v) ∧ u.contextIsDomain = decide (b ≠ 0x2b) ∧ (b = 0x2b → ∀ x ∈ v, ¬ isSeparator x)
  params : ∀ p ∈ u.params, p.WF fl telUriParamCS ∧ p.name.map asciiLower ≠ str "phone-context" ∧
    (fl.setTelUriKnownParam = true → knownIndex telUriKnownNames p.name = none)
  shape : KnownShape telUriKnownNames u.known
  off : fl.setTelUriKnownParam = false → u.known = []
  known : ∀ x ∈ telUriKnownNames.zip u.known, ∀ p ∈ x.2, p.name.map asciiLower = x.1 ∧ ∀ v ∈ p.value, v ≠ [] ∧ EscOk fl csTelPvalue v

/-- the value with the parameter names written as in the tables -/
def TelUri.canon (u : TelUri) : TelUri :=
  { u with context := u.context.map (UriParam.rename (str "phone-context")), known := canonKnown UriParam.rename telUriKnownNames u.known }

def TelUri.ctxParams (u : TelUri) : List UriParam := (u.context.map (UriParam.rename (str "phone-context"))).toList
/-- all parameters, in the order in which they are written -/
def TelUri.allParams (u : TelUri) : List UriParam := u.ctxParams ++ (knownList UriParam.rename telUriKnownNames u.known ++ u.params)

def TelUri.cost (u : TelUri) : Nat := u.number.length + 2 + (uriParamsCost u.allParams + knownCost telUriKnownNames u.known)

theorem telUri_encode_eq (fl : Flags) (u : TelUri) (h : u.WF fl) : u.encode fl = str "tel:" ++ (u.number ++ encodeUriParams fl telUriParamCS u.allParams) := by
  unfold TelUri.encode TelUri.allParams TelUri.ctxParams
  rw [encodeKnown_eq fl telUriParamCS telUriKnownNames u.known (by decide +kernel)]
  cases hc : u.context with
  | none => simp [encodeUriParams, List.append_assoc]
  | some p =>
    obtain ⟨hg, _, b, v, hv, _⟩ := h.context p hc
    have e : uriEsc fl telUriParamCS.name (str "phone-context") = str "phone-context" := by
      have hin : InSet telUriParamCS.name (str "phone-context") := by decide +kernel
      rw [uriEsc_eq fl _ _ (fun _ => hin)]
      exact (escape_output_length _ _).2 hin
    simp only [hg, Bool.not_false, if_true, encodeUriParams, Option.map_some, Option.toList_some, List.cons_append, List.nil_append, List.flatMap_cons, List.flatMap_append,
      UriParam.encode, UriParam.rename, e]
    simp only [UriParam.encodeValue, hv, str, List.append_assoc, List.cons_append, List.nil_append, List.flatMap_append]
    simp [List.append_assoc]

theorem telCS_sub : telUriParamCS.Sub sipUriParamCS := ⟨by decide +kernel, by decide +kernel⟩
theorem telUri_namesOk : NamesOk telUriKnownNames := by unfold NamesOk; decide +kernel

theorem telUri_allParams_wf (fl : Flags) (u : TelUri) (h : u.WF fl) : ∀ p ∈ u.allParams, p.WF fl telUriParamCS := by
  intro p hp
  rcases List.mem_append.1 hp with hp | hp
  · cases hc : u.context with
    | none => simp [TelUri.ctxParams, hc] at hp
    | some q =>
      simp only [TelUri.ctxParams, hc, Option.map_some, Option.toList_some, List.mem_cons, List.not_mem_nil, or_false] at hp
      subst hp
      obtain ⟨hg, _, b, v, hv, hE, _⟩ := h.context q hc
      have hin : InSet telUriParamCS.name (str "phone-context") := by decide +kernel
      refine ⟨by show str "phone-context" ≠ []; decide, fun _ => hin, ?_⟩
      intro w hw
      have hw : q.value = some w := hw
      rw [hv] at hw; cases hw; exact ⟨by simp, hE⟩
  · rcases List.mem_append.1 hp with hp | hp
    · obtain ⟨x, hx, hxp⟩ := List.mem_filterMap.1 hp
      cases h2 : x.2 with
      | none => rw [h2] at hxp; cases hxp
      | some q =>
        rw [h2] at hxp
        simp only [Option.map_some, Option.some.injEq] at hxp
        subst hxp
        obtain ⟨hn, hv⟩ := h.known x hx q h2
        have hnames : ∀ n ∈ telUriKnownNames, n ≠ [] ∧ InSet csTelPname n := by decide +kernel
        have hm := hnames x.1 (List.of_mem_zip (show (x.1, x.2) ∈ _ from hx)).1
        exact ⟨hm.1, fun _ => hm.2, hv⟩
    · exact (h.params p hp).1

theorem telSet_context {fl : Flags} {F : Bytes → Prop} (k : TelKnown) (p : UriParam) (b : UInt8) (v : Bytes) (hn : p.name.map asciiLower = str "phone-context")
    (hv : p.value = some (b :: v)) (hs : b = 0x2b → ∀ x ∈ v, ¬ isSeparator x) :
    Parses fl (TelUri.setKnown k p) [] (some { k with contextIsDomain := decide (b ≠ 0x2b), context := some p }) 0 F := by
  intro c y h1 h2 h3 h4 h5
  have hq : strEqNoCase (some p.name) (str "phone-context") = true := (strEqNoCase_iff _ _).2 (by rw [hn]; decide +kernel)
  unfold TelUri.setKnown
  rw [if_pos hq, hv]
  simp only [List.head?_cons]
  have hp : p = ⟨p.name, some (b :: v)⟩ := by rw [← hv]
  by_cases hb : b = 0x2b
  · have e : removeVisualSeparators (b :: v) = b :: v := by
      apply (removeVisualSeparators_spec _).2.2.2
      intro x hx
      rcases List.mem_cons.1 hx with rfl | hx
      · rw [hb]; decide
      · exact hs hb x hx
    simp only [hb, ne_eq, not_true_eq_false, decide_false, Bool.not_false, if_true]
    rw [hb] at e hp
    rw [e, ← hp]; rfl
  · simp only [ne_eq, hb, not_false_eq_true, decide_true, Bool.not_true, Bool.false_eq_true, if_false]
    rw [← hp]; rfl

theorem telSet_other {fl : Flags} {F : Bytes → Prop} (k : TelKnown) (p : UriParam) (r : Option (List (Option UriParam))) (n : Nat) (hn : p.name.map asciiLower ≠ str "phone-context")
    (h : Parses fl (setKnown telUriKnownNames fl.setTelUriKnownParam k.known p.name p) [] r n F) :
    Parses fl (TelUri.setKnown k p) [] (r.map fun known => { k with known := known }) n F := by
  have hq : ¬ strEqNoCase (some p.name) (str "phone-context") = true := by
    rw [strEqNoCase_iff]
    intro e; exact hn (by rw [e]; decide +kernel)
  unfold TelUri.setKnown
  rw [if_neg hq]
  refine Parses.getFlags (f := fun f => (Sip.setKnown telUriKnownNames f.setTelUriKnownParam k.known p.name p >>= fun r => match r with
    | some known => pure (some { k with known := known })
    | none => pure none : P (Option TelKnown))) ?_
  intro c y h1 h2 h3 h4 h5
  have e := h c y h1 h2 h3 h4 h5
  rw [P.bind_ok e]
  cases r <;> rfl

theorem telUri_setRun (fl : Flags) (u : TelUri) (h : u.WF fl) :
    SetRun fl TelUri.setKnown ({}, []) u.allParams (⟨u.contextIsDomain, u.canon.context, u.canon.known⟩, u.params) (knownCost telUriKnownNames u.known) := by
  have h1 : SetRun fl TelUri.setKnown ({}, []) u.ctxParams (⟨u.contextIsDomain, u.canon.context, []⟩, []) 0 := by
    unfold TelUri.ctxParams TelUri.canon
    cases hc : u.context with
    | none => rw [h.noContext hc]; exact SetRun.nil _
    | some p =>
      obtain ⟨_, _, b, v, hv, _, hd, hs⟩ := h.context p hc
      have := SetRun.cons (s := (({} : TelKnown), ([] : List UriParam))) (telSet_context (fl := fl) {} (UriParam.rename (str "phone-context") p) b v (by show (str "phone-context").map _ = _; decide +kernel) hv hs) (SetRun.nil _)
      rw [hd]
      exact this
  have hnames : ∀ n ∈ telUriKnownNames, n.map asciiLower ≠ str "phone-context" := by decide +kernel
  have h2 : SetRun fl TelUri.setKnown (⟨u.contextIsDomain, u.canon.context, []⟩, []) (knownList UriParam.rename telUriKnownNames u.known)
      (⟨u.contextIsDomain, u.canon.context, u.canon.known⟩, []) (knownCost telUriKnownNames u.known) := by
    cases hon : fl.setTelUriKnownParam with
    | false =>
      have := h.off hon
      simp only [TelUri.canon, this, knownList, canonKnown, knownCost, List.zip_nil_right, List.zipWith_nil_right, List.filterMap_nil, if_true]
      exact SetRun.nil _
    | true =>
      refine setRun_known telUriKnownNames telUri_namesOk UriParam.rename UriParam.name (fun _ _ => rfl) u.known h.shape TelUri.setKnown (fun k => ⟨u.contextIsDomain, u.canon.context, k⟩) ?_ []
      intro k p r n hm hp
      exact telSet_other ⟨u.contextIsDomain, u.canon.context, k⟩ p (some r) n (hnames _ hm) (by rw [hon]; exact hp)
  have h3 : SetRun fl TelUri.setKnown (⟨u.contextIsDomain, u.canon.context, u.canon.known⟩, []) u.params (⟨u.contextIsDomain, u.canon.context, u.canon.known⟩, [] ++ u.params) 0 :=
    SetRun.unknown (fun p hp => by
      obtain ⟨_, g1, g2⟩ := h.params p hp
      exact telSet_other ⟨u.contextIsDomain, u.canon.context, u.canon.known⟩ p none 0 g1 (setKnown_none _ _ _ _ _ g2))
  have := h1.append (h2.append h3)
  simpa [TelUri.allParams] using this

/-- what may follow a telephone URI -/
def TelEnd (y : Bytes) : Prop := ∀ b ∈ y.head?, uriStop b = true ∧ csTelPhoneDigit.mem b = false ∧ csTelPhoneDigitHex.mem b = false

theorem telNumber_roundtrip (fl : Flags) (u : TelUri) (h : u.WF fl) : Parses fl TelUri.parseNumber u.number (u.isGlobal, u.number) (u.number.length + 2)
    (fun y => NotIn csTelPhoneDigit y ∧ NotIn csTelPhoneDigitHex y) := by
  obtain ⟨ds, hne, hsep, hnum⟩ := h.number
  have hf : (ds.filter fun b => ¬ isSeparator b) = ds := List.filter_eq_self.2 (by simpa using hsep)
  unfold TelUri.parseNumber
  cases hg : u.isGlobal with
  | true =>
    rw [hg] at hnum
    simp only [if_true] at hnum
    obtain ⟨e, hin⟩ := hnum
    rw [e]
    refine Parses.peek ?_
    simp only [if_true]
    have : Parses fl (parseTelNumber csTelPhoneDigit) (0x2b :: ds) (0x2b :: ds) ((0x2b :: ds).length + 2) (fun y => NotIn csTelPhoneDigit y ∧ NotIn csTelPhoneDigitHex y) := by
      intro c y h1 h2 h3 h4 h5
      have := parseTelNumber_spec csTelPhoneDigit c [0x2b] ds y (by rw [h2]; rfl) (Or.inl rfl) hin h3.1 (by rw [hf]; simp at h5 ⊢; omega)
      rw [hf, if_neg hne] at this
      exact this
    exact Parses.bind' (Parses.orErr this) (Parses.pure _) (fun y hy => by simpa using hy) (by simp) (by omega)
  | false =>
    rw [hg] at hnum
    simp only [Bool.false_eq_true, if_false] at hnum
    obtain ⟨e, hin⟩ := hnum
    rw [e]
    obtain ⟨b, t, ht⟩ := List.exists_cons_of_ne_nil hne
    have hb : b ≠ 0x2b := by
      intro e; subst e
      have := hin 0x2b (by rw [ht]; simp)
      exact absurd this (by decide +kernel)
    have : Parses fl (parseTelNumber csTelPhoneDigitHex) ds ds (ds.length + 2) (fun y => NotIn csTelPhoneDigit y ∧ NotIn csTelPhoneDigitHex y) := by
      intro c y h1 h2 h3 h4 h5
      have := parseTelNumber_spec csTelPhoneDigitHex c [] ds y (by rw [h2]; rfl) (Or.inr ⟨rfl, by rw [ht]; simpa using hb⟩) hin h3.2 (by rw [hf]; simp at h5 ⊢; omega)
      rw [hf, if_neg hne] at this
      exact this
    subst ht
    refine Parses.peek ?_
    simp only [if_neg hb]
    exact Parses.bind' (Parses.orErr this) (Parses.pure _) (fun y hy => by simpa using hy) (by simp) (by omega)

theorem telUri_afterScheme (fl : Flags) (u : TelUri) (h : u.WF fl) :
    Parses fl TelUri.parseAfterScheme (u.number ++ encodeUriParams fl telUriParamCS u.allParams) u.canon u.cost TelEnd := by
  have hset := telUri_setRun fl u h
  unfold TelUri.parseAfterScheme
  have hend : ∀ y, TelEnd y → ParamsEnd sipUriParamCS y := by
    intro y hy
    refine ⟨fun b hb => ?_, (uriStop_ne (fun b hb => (hy b hb).1)).2.1⟩
    have := uriStop_spec b (hy b hb).1
    exact ⟨this.2.1, this.2.2.1, this.2.2.2.2.2.2.2.2.2.2.1, this.2.2.2.2.2.2.2.2.2.1⟩
  refine Parses.bind' (Parses.orErr (telNumber_roundtrip fl u h)) (n2 := uriParamsCost u.allParams + knownCost telUriKnownNames u.known) ?_ ?_ rfl (by unfold TelUri.cost; omega)
  · by_cases hps : u.allParams = []
    · have hnil : u.params = [] ∧ u.known = [] ∧ u.context = none := by
        obtain ⟨h0, h1⟩ := List.append_eq_nil_iff.1 (show u.ctxParams ++ _ = [] from hps)
        obtain ⟨h1, h2⟩ := List.append_eq_nil_iff.1 h1
        refine ⟨h2, ?_, ?_⟩
        · rcases h.shape with h3 | ⟨h3, p, hp, hpn⟩
          · exact h3
          · obtain ⟨i, hi, rfl⟩ := List.mem_iff_getElem.1 hp
            cases hk : u.known[i] with
            | none => exact absurd hk hpn
            | some q =>
              have : UriParam.rename (telUriKnownNames[i]'(by omega)) q ∈ knownList UriParam.rename telUriKnownNames u.known := by
                refine List.mem_filterMap.2 ⟨(telUriKnownNames[i]'(by omega), some q), ?_, rfl⟩
                rw [List.mem_iff_getElem]
                refine ⟨i, by simp; omega, ?_⟩
                rw [List.getElem_zip, hk]
              rw [h1] at this; cases this
        · cases hc : u.context with
          | none => rfl
          | some p => simp [TelUri.ctxParams, hc] at h0
      obtain ⟨n1, n2, n3⟩ := hnil
      have e : u.canon = ⟨u.isGlobal, false, u.number, none, [], []⟩ := by
        unfold TelUri.canon
        rw [n2, n3]
        simp [canonKnown, n1, ← h.noContext n3]
      rw [hps, e, n2]
      refine Parses.peekEnd (fun y hy => ?_)
      rw [if_neg (hend y hy).2]
      exact Parses.pure _
    · obtain ⟨p, ps, hcons⟩ := List.exists_cons_of_ne_nil hps
      have hr := uriParams_roundtrip fl telUriParamCS sipUriParamCS telCS_sub sipUriParamCS_ok TelUri.setKnown {} _ u.allParams u.params _ hps (telUri_allParams_wf fl u h) hset
      have e : encodeUriParams fl telUriParamCS (p :: ps) = 0x3b :: (p.encode fl telUriParamCS ++ encodeUriParams fl telUriParamCS ps) := by simp [encodeUriParams]
      have key := Parses.bind' (f := fun (r : TelKnown × List UriParam) => (pure ⟨u.isGlobal, r.1.contextIsDomain, u.number, r.1.context, r.2, r.1.known⟩ : P TelUri)) hr (Parses.pure _)
        (G := TelEnd) (fun y hy => by simpa using hend y hy) (List.append_nil _).symm (Nat.add_zero _).symm
      rw [hcons, e] at key ⊢
      refine Parses.peek ?_
      rw [if_pos rfl]
      exact key
  · intro y hy
    constructor <;> intro b hb
    · cases hps : u.allParams with
      | nil => rw [hps] at hb; exact (hy b (by simpa [encodeUriParams] using hb)).2.1
      | cons p ps => rw [hps] at hb; simp [encodeUriParams] at hb; subst hb; decide +kernel
    · cases hps : u.allParams with
      | nil => rw [hps] at hb; exact (hy b (by simpa [encodeUriParams] using hb)).2.2
      | cons p ps => rw [hps] at hb; simp [encodeUriParams] at hb; subst hb; decide +kernel

/-- **C34** a telephone URI in normal form survives encode and parse. -/
theorem telUri_roundtrip (fl : Flags) (u : TelUri) (h : u.WF fl) : Parses fl TelUri.parse (u.encode fl) u.canon u.cost TelEnd := by
  rw [telUri_encode_eq fl u h]
  unfold TelUri.parse
  have hs : Parses fl TelUri.parseScheme (str "tel:") () 0 AnyText := by
    intro c y h1 h2 h3 h4 h5
    have h2 : c.rest = 0x74 :: 0x65 :: 0x6c :: 0x3a :: y := h2
    unfold TelUri.parseScheme
    rw [h2]
    simp only
    rw [if_pos (by decide)]
    rfl
  exact Parses.bind' hs (telUri_afterScheme fl u h) (fun _ _ => trivial) rfl (by omega)

/-! ## Safety, and what is accepted -/

theorem safe_telNumber (s : CS) (hcr : s.mem 0x0d = false) (c : Ctx) (hc : Inv c) :
    SafeAt 0 true 1 2 (fun n => ∃ ds, ds ≠ [] ∧ (∀ b ∈ ds, ¬ isSeparator b) ∧ InSet s ds ∧ n = (if c.cur? = some 0x2b then [0x2b] else []) ++ ds) (parseTelNumber s) c := by
  have e0 : parseTelNumber s c = parseTelNumber s c := rfl
  conv at e0 => rhs; unfold parseTelNumber
  generalize hplus : (if c.cur? = some 0x2b then [0x2b] else [] : Bytes) = plus at *
  have hpl : plus.length ≤ 1 := by rw [← hplus]; split <;> simp
  have hr : ∃ r0, c.rest = plus ++ r0 := by
    rw [← hplus]
    split
    · rename_i h; exact ⟨_, (rest_eq_cons h).1⟩
    · exact ⟨c.rest, rfl⟩
  obtain ⟨r0, hr⟩ := hr
  have hd : c.src.drop (c.pos + plus.length) = r0 := by
    rw [← List.drop_drop]; show c.rest.drop plus.length = r0; rw [hr, List.drop_left]
  simp only [hd, filter_tel] at e0
  have hlen := rest_length c hc.pos
  rw [hr, List.length_append] at hlen
  have hin := inSet_takeWhile s r0
  have htw := List.takeWhile_append_dropWhile (p := s.mem) (l := r0)
  generalize r0.takeWhile s.mem = run at *
  have hfl : (run.filter fun b => ¬ isSeparator b).length ≤ run.length := List.length_filter_le _ _
  have hrl : run.length ≤ r0.length := by rw [← htw]; simp
  have hsep : ∀ b ∈ run.filter (fun b => ¬ isSeparator b), ¬ isSeparator b := fun b hb => by simpa using (List.mem_filter.1 hb).2
  have hin' : InSet s (run.filter fun b => ¬ isSeparator b) := fun b hb => hin b (List.mem_filter.1 hb).1
  generalize (run.filter fun b => ¬ isSeparator b) = ds at *
  by_cases h1 : c.used + 2 ≥ c.cap
  · rw [if_pos h1] at e0
    exact .of_none e0 (Step.err hc _) (by simp [Ctx.addError])
  rw [if_neg h1] at e0
  by_cases h2 : c.used + 2 + plus.length + ds.length > c.cap
  · rw [if_pos h2] at e0
    refine .of_panic e0 (fun _ h => ?_)
    unfold Room at h; omega
  rw [if_neg h2] at e0
  have hst : Step c (c.setPos (c.pos + plus.length + run.length)) := Step.setPos hc (by omega) (by omega)
  by_cases h3 : ds.length = 0
  · rw [if_pos h3] at e0
    exact .of_none e0 (hst.addError _) (by simp [Ctx.addError, Ctx.setPos])
  rw [if_neg h3] at e0
  by_cases h4 : c.used + 2 + plus.length + ds.length ≥ c.cap
  · rw [if_pos h4] at e0
    exact .of_none e0 (hst.addError _) (by simp [Ctx.addError, Ctx.setPos])
  rw [if_neg h4] at e0
  refine .of_ok e0 ?_ ⟨ds, by intro e; subst e; exact h3 rfl, hsep, hin', rfl⟩ ?_ ?_
  · exact ⟨rfl, rfl, rfl, by simp only; omega, by simp only; omega, by simp only; omega, by simp only; omega, ErrsIn.refl⟩
  · refine line_of_noCR (plus ++ run) (r0.dropWhile s.mem) (by rw [hr, List.append_assoc, htw]) (by simp only [List.length_append]; omega) ?_
    intro b hb
    rcases List.mem_append.1 hb with hb | hb
    · rw [← hplus] at hb; split at hb
      · simp at hb; subst hb; decide
      · cases hb
    · intro e; subst e; rw [hin _ hb] at hcr; cases hcr
  · simp only; omega

/-- the form of the number -/
def TelUri.NumberOk (g : Bool) (n : Bytes) : Prop := ∃ ds, ds ≠ [] ∧ (∀ b ∈ ds, ¬ isSeparator b) ∧
    (if g then n = 0x2b :: ds ∧ InSet csTelPhoneDigit ds else n = ds ∧ InSet csTelPhoneDigitHex ds)

theorem safe_parseNumber (c : Ctx) (hc : Inv c) : SafeAt 0 true 1 2 (fun r => TelUri.NumberOk r.1 r.2) TelUri.parseNumber c := by
  unfold TelUri.parseNumber
  refine SafeAt.peek ?_
  cases hcur : c.cur? with
  | none => exact SafeAt.err hc
  | some b =>
    simp only
    by_cases hb : b = 0x2b
    · rw [if_pos hb]
      refine SafeAt.seq (B2 := 0) (SafeAt.orErr (l := true) (safe_telNumber csTelPhoneDigit (by decide +kernel) c hc)) (fun n c1 _ hn hc1 => SafeAt.pure hc1 ?_)
      obtain ⟨ds, h1, h2, h3, h4⟩ := hn
      rw [hcur, hb, if_pos rfl] at h4
      exact ⟨ds, h1, h2, by simp only [if_true]; exact ⟨h4, h3⟩⟩
    · rw [if_neg hb]
      refine SafeAt.seq (B2 := 0) (SafeAt.orErr (l := true) (safe_telNumber csTelPhoneDigitHex (by decide +kernel) c hc)) (fun n c1 _ hn hc1 => SafeAt.pure hc1 ?_)
      obtain ⟨ds, h1, h2, h3, h4⟩ := hn
      rw [hcur, if_neg (by simpa using hb)] at h4
      exact ⟨ds, h1, h2, by simp only [Bool.false_eq_true, if_false]; exact ⟨h4, h3⟩⟩

/-- what the context of a number looks like -/
def TelUri.ContextOk (dom : Bool) (p : UriParam) : Prop := p.name.map asciiLower = str "phone-context" ∧
    ∃ b v, p.value = some (b :: v) ∧ dom = decide (b ≠ 0x2b) ∧ (b = 0x2b → ∀ x ∈ v, ¬ isSeparator x)

/-- what a successful parse yields -/
structure TelUri.Parsed (fl : Flags) (u : TelUri) : Prop where
  number : TelUri.NumberOk u.isGlobal u.number
  noContext : u.context = none → u.contextIsDomain = false
  context : ∀ p ∈ u.context, TelUri.ContextOk u.contextIsDomain p
  params : ∀ p ∈ u.params, p.name ≠ [] ∧ (∀ v ∈ p.value, v ≠ []) ∧ p.name.map asciiLower ≠ str "phone-context" ∧ (fl.setTelUriKnownParam = true → knownIndex telUriKnownNames p.name = none)
  known : KnownInv telUriKnownNames fl.setTelUriKnownParam UriParam.name (fun p => ∀ v ∈ p.value, v ≠ []) u.known

structure TelKnown.Ok (fl : Flags) (k : TelKnown) : Prop where
  noContext : k.context = none → k.contextIsDomain = false
  context : ∀ p ∈ k.context, TelUri.ContextOk k.contextIsDomain p
  known : KnownInv telUriKnownNames fl.setTelUriKnownParam UriParam.name (fun p => ∀ v ∈ p.value, v ≠ []) k.known

theorem safe_telSetKnown (q : Nat) (src : Bytes) (fl : Flags) (hq : 2 ≤ q ∨ TelOk src) (k : TelKnown) (p : UriParam) (hk : k.Ok fl) (hp : UriParam.Read sipUriParamCS src p) (c : Ctx) (hc : Inv c)
    (hat : p.value = none → ∃ i, i ≤ c.pos ∧ ∃ y, Decodes sipUriParamCS.name (src.drop i) p.name y ∧ y.head? ≠ some 0x3d)
    (hfl : c.flags = fl) (hsrc : c.src = src) :
    SafeAt q true 1 4 (OptQ (p.name.map asciiLower ≠ str "phone-context" ∧ (fl.setTelUriKnownParam = true → knownIndex telUriKnownNames p.name = none)) (TelKnown.Ok fl)) (TelUri.setKnown k p) c := by
  have hlow : (str "phone-context").map asciiLower = str "phone-context" := by decide +kernel
  unfold TelUri.setKnown
  by_cases hn : strEqNoCase (some p.name) (str "phone-context") = true
  · rw [if_pos hn]
    have hn' : p.name.map asciiLower = str "phone-context" := by rw [(strEqNoCase_iff _ _).1 hn]; exact hlow
    cases hv : p.value with
    | none =>
      refine .of_panic rfl (fun hpre _ => ?_)
      obtain ⟨i, hi, y, h1, h2⟩ := hat hv
      have hb : TelBare src i := ⟨p.name, y, h1, hn', h2⟩
      rcases hq with h | h
      · exact hpre.2 h i (fun e he _ => Nat.le_trans hi he) (by rw [hsrc]; exact hb)
      · exact h i hb
    | some v =>
      cases v with
      | nil => exact absurd rfl (hp.value [] hv)
      | cons b v =>
        simp only [List.head?_cons]
        refine SafeAt.pure hc ⟨by simp, ?_, hk.known⟩
        intro p' hp'
        simp only [Option.mem_def, Option.some.injEq] at hp'
        subst hp'
        refine ⟨hn', ?_⟩
        by_cases hb : b = 0x2b
        · subst hb
          refine ⟨0x2b, removeVisualSeparators v, ?_, by simp, fun _ => (removeVisualSeparators_spec v).2.2.1⟩
          simp [removeVisualSeparators, show isTelVisualSperator 0x2b = false by decide]
        · exact ⟨b, v, by simp [hb], by simp, fun h => absurd h hb⟩
  · rw [if_neg hn]
    have hn' : p.name.map asciiLower ≠ str "phone-context" := fun e => hn ((strEqNoCase_iff _ _).2 (by rw [e, hlow]))
    refine SafeAt.get ?_
    rw [hfl]
    refine SafeAt.seq (B2 := 0) (safe_setKnown_inv (q := q) (m := 1) telUriKnownNames (by decide +kernel) fl.setTelUriKnownParam UriParam.name (fun p => ∀ v ∈ p.value, v ≠ []) k.known hk.known p hp.value c hc)
      (fun r c1 _ hr hc1 => ?_) (by simp [telUriKnownNames])
    cases r with
    | none => exact SafeAt.pure hc1 ⟨hn', hr⟩
    | some known => exact SafeAt.pure hc1 ⟨hk.noContext, hk.context, hr⟩

theorem telUri_afterScheme_safe (q : Nat) (c : Ctx) (hc : Inv c) (hq : 2 ≤ q ∨ TelOk c.src) :
    SafeAt q true 15 16 (TelUri.Parsed c.flags) TelUri.parseAfterScheme c := by
  unfold TelUri.parseAfterScheme
  have h1 := SafeAt.orErr (l := true) (safe_parseNumber c hc)
  refine SafeAt.seq (B2 := 14) h1 (fun r c1 e1 hn hc1 => SafeAt.peek ?_)
  have f1 := (h1.step _ _ e1).flags
  have s1 := (h1.step _ _ e1).src
  by_cases h : c1.cur? = some 0x3b
  · rw [if_pos h]
    refine SafeAt.skip1 hc1 h (by decide) (fun hc2 => ?_)
    refine SafeAt.seq (B2 := 0) (SafeAt.orErr (l := true) (safe_uriParams q 4 sipUriParamCS sipUriParamCS_ok TelUri.setKnown (c1.adv 1) hc2 (TelKnown.Ok c.flags)
      (fun p => p.name.map asciiLower ≠ str "phone-context" ∧ (c.flags.setTelUriKnownParam = true → knownIndex telUriKnownNames p.name = none)) ?_ {} ⟨fun _ => rfl, by simp, KnownInv.nil⟩))
      (fun kp c3 _ hkp hc3 => SafeAt.pure hc3 ?_)
    · intro k p c2 hk hp hat hc2 hfl hsrc
      have hs : (c1.adv 1).src = c.src := s1
      rw [hs] at hp hsrc hat
      exact safe_telSetKnown q c.src c.flags hq k p hk hp c2 hc2 hat (by rw [hfl]; exact f1) hsrc
    · exact ⟨hn, hkp.1.noContext, hkp.1.context, fun p hp => ⟨(hkp.2 p hp).1.name, (hkp.2 p hp).1.value, (hkp.2 p hp).2⟩, hkp.1.known⟩
  · rw [if_neg h]
    exact SafeAt.pure hc1 ⟨hn, fun _ => rfl, by simp, by simp, KnownInv.nil⟩

theorem safe_telScheme (q : Nat) (c : Ctx) (hc : Inv c) : SafeAt q false 0 0 (fun _ => True) TelUri.parseScheme c := by
  have hlen := rest_length c hc.pos
  have e0 : TelUri.parseScheme c = TelUri.parseScheme c := rfl
  conv at e0 => rhs; unfold TelUri.parseScheme
  have hor : ∀ a k : UInt8, k ≠ 0x2d → a ||| 0x20 = k → a ≠ 0x0d := by
    intro a k hk h e; subst e; exact hk (by rw [← h]; decide)
  rcases hr : c.rest with _ | ⟨a, _ | ⟨b, _ | ⟨d, _ | ⟨e, r⟩⟩⟩⟩ <;> rw [hr] at e0 hlen <;> simp only at e0
  · exact .of_none e0 (Step.refl hc) (by simp)
  · exact .of_none e0 (Step.refl hc) (by simp)
  · exact .of_none e0 (Step.refl hc) (by simp)
  · exact .of_none e0 (Step.refl hc) (by simp)
  · split at e0
    · rename_i h
      obtain ⟨h1, h2, h3, h4⟩ := h
      refine .of_ok e0 (Step.adv hc (by simp at hlen; omega)) trivial (line_of_noCR [a, b, d, e] r hr rfl ?_) (by show c.used ≤ _; omega)
      intro x hx
      simp only [List.mem_cons, List.not_mem_nil, or_false] at hx
      rcases hx with rfl | rfl | rfl | rfl
      · exact hor _ _ (by decide) h1
      · exact hor _ _ (by decide) h2
      · exact hor _ _ (by decide) h3
      · exact hor _ _ (by decide) h4
    · exact .of_none e0 (Step.refl hc) (by simp)

/-- **C34, C28–C31** on every input in which no `phone-context` parameter stands without a value, `TelUri.Parse` moves forward inside the
input and never past a line end, keeps the arena inside its capacity, never hangs and never panics given 15 bytes of memory per byte of
input and 16 more; what it accepts is a well formed number with well formed parameters.  (A failure in the scheme is not reported, every other
one is: `telUri_afterScheme_safe`.) -/
theorem telUri_safe (q : Nat) (c : Ctx) (hc : Inv c) (hq : 2 ≤ q ∨ TelOk c.src) : SafeAt q false 15 16 (TelUri.Parsed c.flags) TelUri.parse c := by
  unfold TelUri.parse
  have h1 := safe_telScheme q c hc
  refine SafeAt.seq (B2 := 16) h1 (fun _ c1 e1 _ hc1 => ?_)
  have st := h1.step _ _ e1
  have h2 := telUri_afterScheme_safe q c1 hc1 (by rw [st.src]; exact hq)
  rw [st.flags] at h2
  exact h2.mono (Nat.le_refl _) (by simp) (Nat.le_refl _) (Nat.le_refl _) (fun _ h => h)

/-- `Encode` drops the context of a global number -/
def TelUri.norm (u : TelUri) : TelUri := if u.isGlobal then { u with context := none, contextIsDomain := false } else u

theorem telUri_encode_norm (fl : Flags) (u : TelUri) : u.norm.encode fl = u.encode fl := by
  unfold TelUri.norm TelUri.encode
  cases h : u.isGlobal <;> simp [h]

theorem TelUri.Parsed.wf {fl : Flags} {u : TelUri} (h : u.Parsed fl) (hesc : fl.encodeUriNoEscape = false) : u.norm.WF fl := by
  have hE : ∀ s b, EscOk fl s b := fun s b hh => by rw [hesc] at hh; cases hh
  have e1 : u.norm.isGlobal = u.isGlobal := by unfold TelUri.norm; cases h : u.isGlobal <;> simp [h]
  have e2 : u.norm.number = u.number := by unfold TelUri.norm; cases h : u.isGlobal <;> simp
  have e3 : u.norm.params = u.params := by unfold TelUri.norm; cases h : u.isGlobal <;> simp
  have e4 : u.norm.known = u.known := by unfold TelUri.norm; cases h : u.isGlobal <;> simp
  refine ⟨?_, ?_, ?_, ?_, ?_, ?_, ?_⟩
  · rw [e1, e2]; exact h.number
  · unfold TelUri.norm
    cases hg : u.isGlobal with
    | true => simp
    | false => simpa using h.noContext
  · intro p hp
    rw [e1]
    cases hg : u.isGlobal with
    | true => simp [TelUri.norm, hg] at hp
    | false =>
      have en : u.norm = u := by simp [TelUri.norm, hg]
      rw [en] at hp ⊢
      obtain ⟨h1, b, v, h2, h3, h4⟩ := h.context p hp
      exact ⟨rfl, h1, b, v, h2, hE _ _, h3, h4⟩
  · intro p hp
    rw [e3] at hp
    obtain ⟨h1, h2, h3, h4⟩ := h.params p hp
    exact ⟨⟨h1, hE _ _, fun v hv => ⟨h2 v hv, hE _ _⟩⟩, h3, h4⟩
  · rw [e4]; exact h.known.shape
  · rw [e4]; exact h.known.off
  · rw [e4]
    intro x hx p hp
    obtain ⟨h1, h2⟩ := knownAt_zip h.known.at_ x hx p hp
    exact ⟨h1, fun v hv => ⟨h2 v hv, hE _ _⟩⟩

/-- **C34** parse, encode, parse: whatever `Parse` accepts is written as a text that parses to the same URI, up to the spelling of the known
parameter names and the context of a global number, which is lost. -/
theorem telUri_idempotent (c c' : Ctx) (u : TelUri) (hc : Inv c) (he : c.flags.encodeUriNoEscape = false) (h : TelUri.parse c = .ok (some u, c')) :
    Parses c.flags TelUri.parse (u.encode c.flags) u.norm.canon u.norm.cost TelEnd := by
  have := ((telUri_safe 2 c hc (Or.inl (Nat.le_refl _))).some _ _ h).1.wf he
  rw [← telUri_encode_norm]
  exact telUri_roundtrip c.flags _ this

/-- a telephone URI with context, a known and an unknown parameter meets the hypotheses -/
def TelUri.sample : TelUri :=
  { contextIsDomain := true, number := str "123a", context := some ⟨str "Phone-Context", some (str "ex.com")⟩, params := [⟨str "x", some (str "a b")⟩],
    known := [none, some ⟨str "ext", some (str "7")⟩] }
theorem TelUri.sample_wf : TelUri.sample.WF { setTelUriKnownParam := true } := by
  have hE : ∀ s b, EscOk { setTelUriKnownParam := true } s b := fun s b h => by cases h
  refine ⟨⟨str "123a", by decide, by decide +kernel, ⟨rfl, by decide +kernel⟩⟩, (by intro h; cases h), ?_, ?_, Or.inr ⟨rfl, some ⟨str "ext", some (str "7")⟩, by decide, by decide⟩, (by intro h; cases h), ?_⟩
  · intro p hp; cases hp
    exact ⟨rfl, by decide +kernel, 0x65, str "x.com", rfl, hE _ _, by decide, by intro h; cases h⟩
  · intro p hp
    simp only [TelUri.sample, List.mem_cons, List.not_mem_nil, or_false] at hp
    subst hp
    exact ⟨⟨by decide, hE _ _, by intro v hv; cases hv; exact ⟨by decide, hE _ _⟩⟩, by decide +kernel, fun _ => by decide +kernel⟩
  · intro x hx p hp
    simp only [TelUri.sample, telUriKnownNames, List.zip_cons_cons, List.zip_nil_left, List.mem_cons, List.not_mem_nil, or_false] at hx
    rcases hx with rfl | rfl <;> simp at hp
    subst hp
    exact ⟨by decide +kernel, by intro v hv; cases hv; exact ⟨by decide, hE _ _⟩⟩
example : TelUri.sample.encode { setTelUriKnownParam := true } = str "tel:123a;phone-context=ex.com;ext=7;x=a%20b" := by decide +kernel

/-- **C34, negation**: `phone-context` without a value stops the program. -/
theorem tel_context_panics : TelUri.parse { src := str "tel:1;phone-context", cap := 200 } = .panic := by decide +kernel
/-- **C34, negation**: the context of a global number is lost. -/
theorem tel_context_lost : (∃ u c', TelUri.parse { src := str "tel:+1;phone-context=a", cap := 200 } = .ok (some u, c') ∧ u.context ≠ none ∧ u.encode {} = str "tel:+1") := by
  obtain ⟨c', h⟩ := resultOf_ok (o := TelUri.parse { src := str "tel:+1;phone-context=a", cap := 200 })
    (r := some { isGlobal := true, contextIsDomain := true, number := str "+1", context := some ⟨str "phone-context", some (str "a")⟩ }) (by decide +kernel)
  exact ⟨_, c', h, by decide, by decide +kernel⟩
/-- **C34, negation**: the byte 0x1a is taken for the colon of the scheme. -/
theorem tel_scheme_sub : ∃ c', TelUri.parse { src := [0x74, 0x65, 0x6c, 0x1a, 0x31], cap := 200 } = .ok (some { number := str "1" }, c') := resultOf_ok (by decide +kernel)

end Sip
