import Verif.Lemmas.Known
import Verif.Lemmas.Loop
/-!
# C18: SIP URIs

Specification predicates: `UriParam.WF`, `UriHeader.WF`, `SipUri.WF` say which values the types can denote; `SipUri.canon` writes the names of the
known parameters as in the table; `UriEnd` says what may follow a URI.
-/
namespace Sip

/-! ## Escaped components -/

/-- without escaping only characters of the set can be written -/
def EscOk (fl : Flags) (s : CS) (b : Bytes) : Prop := fl.encodeUriNoEscape = true → InSet s b

instance (fl : Flags) (s : CS) (b : Bytes) : Decidable (EscOk fl s b) := by unfold EscOk; infer_instance

/-- escaping with a set and reading with a larger one -/
theorem escape_decodes_sub (s s' : CS) (hsub : ∀ v, s.mem v = true → s'.mem v = true) (h25 : s'.mem 0x25 = false) (b y : Bytes)
    (hy : ∀ c ∈ y.head?, s'.mem c = false ∧ c ≠ 0x25) : Decodes s' (escapeStr s b ++ y) b y := by
  induction b with
  | nil => exact .stop y hy
  | cons v b ih =>
    have hcons : escapeStr s (v :: b) = escapeByte s v ++ escapeStr s b := by simp [escapeStr]
    rw [hcons]
    unfold escapeByte
    by_cases hv : s.mem v = true
    · rw [if_pos hv]; exact .lit v _ b y (hsub v hv) ih
    · rw [if_neg hv]
      have := Decodes.esc (toUpperHex (v >>> 4)) (toUpperHex v) _ b y h25 (isHex_toUpperHex _) (isHex_toUpperHex _) ih
      rw [unescape_escape] at this
      exact this

theorem uriEsc_eq (fl : Flags) (s : CS) (b : Bytes) (h : EscOk fl s b) : uriEsc fl s b = escapeStr s b := by
  unfold uriEsc
  cases hn : fl.encodeUriNoEscape with
  | false => rfl
  | true => simp only [Bool.not_true, Bool.false_eq_true, if_false]; exact ((escape_output_length s b).2 (h hn)).symm

/-- what may follow a component read with the set `s` -/
def Follow (s : CS) (y : Bytes) : Prop := ∀ b ∈ y.head?, s.mem b = false ∧ b ≠ 0x25

theorem Parses.uriEsc {fl : Flags} (s s' : CS) (hsub : ∀ v, s.mem v = true → s'.mem v = true) (h25 : s'.mem 0x25 = false) (b : Bytes)
    (hb : EscOk fl s b) : (b ≠ [] → Parses fl (P.strEsc s') (Sip.uriEsc fl s b) b (b.length + 2) (Follow s')) ∧
      Parses fl (P.strEscEmpty s') (Sip.uriEsc fl s b) b (b.length + 2) (Follow s') := by
  rw [uriEsc_eq fl s b hb]
  have key : ∀ (c : Ctx) (y : Bytes), c.rest = escapeStr s b ++ y → Follow s' y → c.used + (b.length + 2) < c.cap → _ :=
    fun c y h2 h3 h5 => parseStrEscapable_spec s' c b y (by rw [h2]; exact escape_decodes_sub s s' hsub h25 b y h3) (by omega)
  constructor
  · intro hne c y h1 h2 h3 h4 h5
    show parseStrEscapable s' c = _
    rw [(key c y h2 h3 h5).1, if_neg hne, h2]
    simp only [Ctx.eat, Out.ok.injEq, Prod.mk.injEq, Ctx.mk.injEq, true_and, and_true, List.length_append]; omega
  · intro c y h1 h2 h3 h4 h5
    show parseStrEscapableEnableEmpty s' c = _
    rw [(key c y h2 h3 h5).2, h2]
    simp only [Ctx.eat, Out.ok.injEq, Prod.mk.injEq, Ctx.mk.injEq, true_and, and_true, List.length_append]; omega

theorem Parses.esc {fl : Flags} (s : CS) (h25 : s.mem 0x25 = false) (b : Bytes) (hne : b ≠ []) (hb : EscOk fl s b) :
    Parses fl (P.strEsc s) (Sip.uriEsc fl s b) b (b.length + 2) (Follow s) := (Parses.uriEsc s s (fun _ h => h) h25 b hb).1 hne
theorem Parses.escEmpty {fl : Flags} (s : CS) (h25 : s.mem 0x25 = false) (b : Bytes) (hb : EscOk fl s b) :
    Parses fl (P.strEscEmpty s) (Sip.uriEsc fl s b) b (b.length + 2) (Follow s) := (Parses.uriEsc s s (fun _ h => h) h25 b hb).2

theorem uriEsc_ne (fl : Flags) (s : CS) (b : Bytes) (hb : b ≠ []) : uriEsc fl s b ≠ [] := by
  unfold uriEsc
  split
  · intro e
    have := (escape_output_length s b).1
    rw [e] at this
    cases b with
    | nil => exact hb rfl
    | cons => simp at this; omega
  · exact hb

/-! ## Parameters -/

/-- the values a URI parameter can have -/
structure UriParam.WF (fl : Flags) (cs : CharsetInfo) (p : UriParam) : Prop where
  name : p.name ≠ []
  nameOk : EscOk fl cs.name p.name
  value : ∀ v ∈ p.value, v ≠ [] ∧ EscOk fl cs.value v

/-- arena bytes of the strings of a parameter -/
def UriParam.cost (p : UriParam) : Nat := p.name.length + 2 + (match p.value with | some v => v.length + 2 | none => 0)

/-- the characters of a parameter and its delimiters -/
structure CharsetInfo.Ok (cs : CharsetInfo) : Prop where
  name25 : cs.name.mem 0x25 = false
  value25 : cs.value.mem 0x25 = false
  nameEq : cs.name.mem 0x3d = false
  nameSemi : cs.name.mem 0x3b = false
  valueSemi : cs.value.mem 0x3b = false
  nameCR : cs.name.mem 0x0d = false
  valueCR : cs.value.mem 0x0d = false

/-- what may follow a parameter -/
def ParamEnd (cs : CharsetInfo) (y : Bytes) : Prop := ∀ b ∈ y.head?, cs.name.mem b = false ∧ cs.value.mem b = false ∧ b ≠ 0x25 ∧ b ≠ 0x3d

/-- one charset is contained in the other -/
def CharsetInfo.Sub (cs cs' : CharsetInfo) : Prop := (∀ v, cs.name.mem v = true → cs'.name.mem v = true) ∧ ∀ v, cs.value.mem v = true → cs'.value.mem v = true

theorem uriParam_roundtrip (fl : Flags) (cs cs' : CharsetInfo) (hsub : cs.Sub cs') (hcs : cs'.Ok) (p : UriParam) (hp : p.WF fl cs) :
    Parses fl (UriParam.parse cs') (p.encode fl cs) p p.cost (ParamEnd cs') := by
  obtain ⟨name, value⟩ := p
  unfold UriParam.parse UriParam.encode UriParam.encodeValue UriParam.cost
  have h1 := Parses.orErr ((Parses.uriEsc cs.name cs'.name hsub.1 hcs.name25 name hp.nameOk).1 hp.name)
  cases value with
  | none =>
    refine Parses.bind' h1 (n2 := 0) (t2 := []) ?_ (fun y hy b hb => ⟨(hy b hb).1, (hy b hb).2.2.1⟩) (by simp) (by simp)
    refine Parses.peekEnd (fun y hy => ?_)
    rw [if_neg (fun e => (hy 0x3d (by rw [e]; rfl)).2.2.2 rfl)]
    exact Parses.pure _
  | some v =>
    obtain ⟨hv1, hv2⟩ := hp.value v rfl
    have h2 := Parses.orErr ((Parses.uriEsc cs.value cs'.value hsub.2 hcs.value25 v hv2).1 hv1)
    refine Parses.bind' h1 ?_ (fun y hy b hb => by simp at hb; subst hb; exact ⟨hcs.nameEq, by decide⟩) rfl rfl
    refine Parses.peek ?_
    rw [if_pos rfl]
    refine Parses.skip1 ?_
    exact Parses.bind' h2 (Parses.pure _) (fun y hy b hb => ⟨(hy b hb).2.1, (hy b hb).2.2.1⟩) (by simp) rfl

theorem uriParam_encode_ne (fl : Flags) (cs : CharsetInfo) (p : UriParam) (hp : p.WF fl cs) : p.encode fl cs ≠ [] := by
  unfold UriParam.encode
  intro e
  exact uriEsc_ne fl cs.name p.name hp.name (List.append_eq_nil_iff.1 e).1

def uriParamsCost (ps : List UriParam) : Nat := (ps.map fun p => 6 + p.cost).sum

/-- what may follow the parameters -/
def ParamsEnd (cs : CharsetInfo) (y : Bytes) : Prop := ParamEnd cs y ∧ y.head? ≠ some 0x3b

theorem uriParams_run {κ : Type} (fl : Flags) (cs cs' : CharsetInfo) (hsub : cs.Sub cs') (hcs : cs'.Ok) (setK : κ → UriParam → P (Option κ)) :
    ∀ (p : UriParam) (ps : List UriParam) (s s' : κ × List UriParam) (n : Nat), (∀ q ∈ p :: ps, q.WF fl cs) → SetRun fl setK s (p :: ps) s' n →
      ∃ k, Run fl (uriParamsBody cs' setK) (ParamsEnd cs') s (p.encode fl cs ++ encodeUriParams fl cs ps) s' (uriParamsCost (p :: ps) + n) k := by
  intro p ps
  induction ps generalizing p with
  | nil =>
    intro s s' n hwf hrun
    cases hrun with
    | cons h h' =>
      rename_i r n1 n2
      cases h'
      refine ⟨1, Run.last ?_⟩
      unfold uriParamsBody
      refine Parses.peekNE (by simpa [encodeUriParams] using uriParam_encode_ne fl cs p (hwf p (by simp))) ?_
      obtain ⟨b, t, ht⟩ := List.exists_cons_of_ne_nil (uriParam_encode_ne fl cs p (hwf p (by simp)))
      rw [if_neg (by rw [ht]; simp)]
      refine Parses.bind' (F := AnyText) (Parses.orErr (Parses.alloc 6)) (t1 := []) (n2 := p.cost + n1) ?_ (fun _ _ => trivial) rfl (by simp [uriParamsCost]; omega)
      refine Parses.bind' (uriParam_roundtrip fl cs cs' hsub hcs p (hwf p (by simp))) (t2 := []) (n2 := n1) ?_ (fun y hy => hy.1) (by simp [encodeUriParams]) rfl
      refine Parses.bind' (F := AnyText) h (t2 := []) (n2 := 0) ?_ (fun _ _ => trivial) rfl (by omega)
      refine Parses.peekEnd (fun y hy => ?_)
      rw [if_neg hy.2]
      cases r <;> exact Parses.pure _
  | cons p2 ps ih =>
    intro s s' n hwf hrun
    cases hrun with
    | cons h h' =>
      rename_i r n1 n2
      obtain ⟨k, hk⟩ := ih p2 _ _ _ (fun q hq => hwf q (List.mem_cons_of_mem _ hq)) h'
      have hne := uriParam_encode_ne fl cs p (hwf p (by simp))
      have hs := Run.step (body := uriParamsBody cs' setK) (t := p.encode fl cs ++ [0x3b]) (n := 6 + p.cost + n1) AnyText (s := s) (s' := kstep s p r) ?_ (by simp) (fun _ _ => trivial) hk
      · refine ⟨k + 1, ?_⟩
        have e1 : p.encode fl cs ++ encodeUriParams fl cs (p2 :: ps) = p.encode fl cs ++ [0x3b] ++ (p2.encode fl cs ++ encodeUriParams fl cs ps) := by
          simp [encodeUriParams]
        have e2 : uriParamsCost (p :: p2 :: ps) + (n1 + n2) = 6 + p.cost + n1 + (uriParamsCost (p2 :: ps) + n2) := by
          simp only [uriParamsCost, List.map_cons, List.sum_cons]; omega
        rw [e1, e2]; exact hs
      · unfold uriParamsBody
        refine Parses.peekNE (by simp) ?_
        obtain ⟨b, t, ht⟩ := List.exists_cons_of_ne_nil hne
        rw [if_neg (by rw [ht]; simp)]
        refine Parses.bind' (F := AnyText) (Parses.orErr (Parses.alloc 6)) (t1 := []) (n2 := p.cost + n1) ?_ (fun _ _ => trivial) rfl (by omega)
        refine Parses.bind' (uriParam_roundtrip fl cs cs' hsub hcs p (hwf p (by simp))) (t2 := [0x3b]) (n2 := n1) ?_
          (fun y _ b hb => by simp at hb; subst hb; exact ⟨hcs.nameSemi, hcs.valueSemi, by decide, by decide⟩) rfl rfl
        refine Parses.bind' (F := AnyText) h (t1 := []) (t2 := [0x3b]) (n2 := 0) ?_ (fun _ _ => trivial) rfl (by omega)
        refine Parses.peek ?_
        rw [if_pos rfl]
        refine Parses.skip1 ?_
        cases r <;> exact Parses.pure _

theorem uriParams_roundtrip {κ : Type} (fl : Flags) (cs cs' : CharsetInfo) (hsub : cs.Sub cs') (hcs : cs'.Ok) (setK : κ → UriParam → P (Option κ))
    (k k' : κ) (ps ps' : List UriParam) (n : Nat) (hne : ps ≠ []) (hwf : ∀ q ∈ ps, q.WF fl cs) (hrun : SetRun fl setK (k, []) ps (k', ps') n) :
    Parses fl (P.skip 1 >>= fun _ => P.orErr (parseUriParams cs' setK k)) (encodeUriParams fl cs ps) (k', ps') (uriParamsCost ps + n) (ParamsEnd cs') := by
  obtain ⟨p, ps, rfl⟩ := List.exists_cons_of_ne_nil hne
  obtain ⟨j, hj⟩ := uriParams_run fl cs cs' hsub hcs setK p ps (k, []) (k', ps') n hwf hrun
  have e : encodeUriParams fl cs (p :: ps) = 0x3b :: (p.encode fl cs ++ encodeUriParams fl cs ps) := by simp [encodeUriParams]
  rw [e]
  refine Parses.skip1 (Parses.orErr ?_)
  unfold parseUriParams
  have hne2 : p.encode fl cs ≠ [] := uriParam_encode_ne fl cs p (hwf p (by simp))
  refine Parses.peekNE (by simp [hne2]) ?_
  obtain ⟨b, t, ht⟩ := List.exists_cons_of_ne_nil hne2
  rw [if_neg (by rw [ht]; simp)]
  exact hj.forLoop

/-! ## Headers -/

/-- the values a URI header can have -/
structure UriHeader.WF (fl : Flags) (cs : CharsetInfo) (h : UriHeader) : Prop where
  name : h.name ≠ []
  nameOk : EscOk fl cs.name h.name
  value : ∃ v, h.value = some v ∧ EscOk fl cs.value v

def UriHeader.cost (h : UriHeader) : Nat := h.name.length + 2 + (match h.value with | some v => v.length + 2 | none => 0)
def uriHeadersCost (hs : List UriHeader) : Nat := (hs.map fun h => 6 + h.cost).sum

/-- what may follow a header: not the end of the input when its value is empty -/
def HeaderEnd (cs : CharsetInfo) (h : UriHeader) (y : Bytes) : Prop := Follow cs.value y ∧ (h.value = some [] → y ≠ [])

theorem uriHeader_roundtrip (fl : Flags) (cs : CharsetInfo) (hcs : cs.Ok) (h : UriHeader) (hw : h.WF fl cs) :
    Parses fl (UriHeader.parse cs) (h.encode fl cs) h h.cost (HeaderEnd cs h) := by
  obtain ⟨name, value⟩ := h
  obtain ⟨v, rfl, hv⟩ := hw.value
  unfold UriHeader.parse UriHeader.encode UriHeader.cost
  have h1 := Parses.orErr (Parses.esc cs.name hcs.name25 name hw.name hw.nameOk)
  have h2 := Parses.orErr (Parses.escEmpty cs.value hcs.value25 v hv)
  refine Parses.bind' h1 ?_ (fun y hy b hb => by simp at hb; subst hb; exact ⟨hcs.nameEq, by decide⟩) rfl rfl
  refine Parses.peek ?_
  rw [if_neg (by simp)]
  refine Parses.skip1 ?_
  have h3 : Parses fl (P.orErr (P.strEscEmpty cs.value) >>= fun v => (pure ⟨name, some v⟩ : P UriHeader)) (uriEsc fl cs.value v) ⟨name, some v⟩ (v.length + 2)
      (Follow cs.value) := Parses.bind' h2 (Parses.pure _) (fun y hy => by simpa using hy) (by simp) (by omega)
  by_cases hve : v = []
  · subst hve
    have e : uriEsc fl cs.value [] = [] := by simp [uriEsc, escapeStr]
    rw [e] at h3 ⊢
    refine Parses.peekEnd (fun y hy => ?_)
    rw [if_neg (by intro e; cases y with | nil => exact hy.2 rfl rfl | cons => simp at e)]
    exact h3.mono (fun z hz => by rw [hz]; exact hy.1)
  · have hne := uriEsc_ne fl cs.value v hve
    refine Parses.peekNE hne ?_
    obtain ⟨b, t, ht⟩ := List.exists_cons_of_ne_nil hne
    rw [if_neg (by rw [ht]; simp)]
    exact h3.mono (fun y hy => hy.1)

theorem uriHeader_encode_ne (fl : Flags) (cs : CharsetInfo) (h : UriHeader) (hw : h.WF fl cs) : h.encode fl cs ≠ [] := by
  unfold UriHeader.encode
  intro e
  exact uriEsc_ne fl cs.name h.name hw.name (List.append_eq_nil_iff.1 e).1

/-- what may follow the headers: not the end of the input when the last value is empty -/
def HeadersEnd (cs : CharsetInfo) (hs : List UriHeader) (y : Bytes) : Prop :=
  Follow cs.value y ∧ y.head? ≠ some 0x26 ∧ ∀ h ∈ hs.getLast?, h.value = some [] → y ≠ []

theorem uriHeaders_run (fl : Flags) (cs : CharsetInfo) (hcs : cs.Ok) (hamp : cs.value.mem 0x26 = false) :
    ∀ (h : UriHeader) (hs acc : List UriHeader), (∀ q ∈ h :: hs, q.WF fl cs) →
      ∃ k, Run fl (uriHeadersBody cs) (HeadersEnd cs (h :: hs)) acc (encodeUriHeaders fl cs (h :: hs)) (acc ++ h :: hs) (uriHeadersCost (h :: hs)) k := by
  intro h hs
  induction hs generalizing h with
  | nil =>
    intro acc hwf
    have hne := uriHeader_encode_ne fl cs h (hwf h (by simp))
    refine ⟨1, Run.last ?_⟩
    unfold uriHeadersBody
    have e1 : encodeUriHeaders fl cs [h] = h.encode fl cs := by rw [encodeUriHeaders]
    rw [e1]
    refine Parses.peekNE hne ?_
    obtain ⟨b, t, ht⟩ := List.exists_cons_of_ne_nil hne
    rw [if_neg (by rw [ht]; simp)]
    refine Parses.bind' (F := AnyText) (Parses.orErr (Parses.alloc 6)) (t1 := []) (n2 := h.cost) ?_ (fun _ _ => trivial) rfl (by simp [uriHeadersCost])
    refine Parses.bind' (uriHeader_roundtrip fl cs hcs h (hwf h (by simp))) (t2 := []) (n2 := 0) ?_ (fun y hy => ⟨hy.1, hy.2.2 h (by simp)⟩) (List.append_nil _).symm rfl
    refine Parses.peekEnd (fun y hy => ?_)
    rw [if_neg hy.2.1]
    exact Parses.pure _
  | cons h2 hs ih =>
    intro acc hwf
    have hne := uriHeader_encode_ne fl cs h (hwf h (by simp))
    obtain ⟨k, hk⟩ := ih h2 (acc ++ [h]) (fun q hq => hwf q (List.mem_cons_of_mem _ hq))
    have hs' := Run.step (fl := fl) (body := uriHeadersBody cs) (t := h.encode fl cs ++ [0x26]) (n := 6 + h.cost) AnyText (s := acc) (s' := acc ++ [h])
      (F := HeadersEnd cs (h :: h2 :: hs)) ?_ (by simp) (fun _ _ => trivial) (t' := encodeUriHeaders fl cs (h2 :: hs)) (r := acc ++ [h] ++ h2 :: hs) (n' := uriHeadersCost (h2 :: hs)) (k := k) ?_
    · refine ⟨k + 1, ?_⟩
      have e1 : encodeUriHeaders fl cs (h :: h2 :: hs) = h.encode fl cs ++ [0x26] ++ encodeUriHeaders fl cs (h2 :: hs) := by
        rw [encodeUriHeaders]
        · simp
        · simp
      have e2 : uriHeadersCost (h :: h2 :: hs) = 6 + h.cost + uriHeadersCost (h2 :: hs) := by
        simp only [uriHeadersCost, List.map_cons, List.sum_cons]
      rw [e1, e2]
      have e3 : acc ++ h :: h2 :: hs = acc ++ [h] ++ h2 :: hs := by simp
      rw [e3]; exact hs'
    · unfold uriHeadersBody
      refine Parses.peekNE (by simp) ?_
      obtain ⟨b, t, ht⟩ := List.exists_cons_of_ne_nil hne
      rw [if_neg (by rw [ht]; simp)]
      refine Parses.bind' (F := AnyText) (Parses.orErr (Parses.alloc 6)) (t1 := []) (n2 := h.cost) ?_ (fun _ _ => trivial) rfl (by omega)
      refine Parses.bind' (uriHeader_roundtrip fl cs hcs h (hwf h (by simp))) (t2 := [0x26]) (n2 := 0) ?_
        (fun y _ => ⟨fun b hb => by simp at hb; subst hb; exact ⟨hamp, by decide⟩, by simp⟩) rfl rfl
      refine Parses.peek ?_
      rw [if_pos rfl]
      exact Parses.skip1 (Parses.pure _)
    · have : HeadersEnd cs (h :: h2 :: hs) = HeadersEnd cs (h2 :: hs) := by
        unfold HeadersEnd; rw [List.getLast?_cons_cons]
      rw [this]; exact hk

/-! ## SIP URI -/

/-- the known parameters with the names of the table -/
def UriParam.rename (n : Bytes) (p : UriParam) : UriParam := { p with name := n }

/-- the values a SIP URI can have, given the flags of the context -/
structure SipUri.WF (net : Net) (fl : Flags) (u : SipUri) : Prop where
  user : ∀ us ∈ u.user, us ≠ [] ∧ EscOk fl csSipUser us
  password : ∀ pw ∈ u.password, u.user ≠ none ∧ EscOk fl csSipPassword pw
  hostport : u.hostport.WF net
  params : ∀ p ∈ u.params, p.WF fl sipUriParamCS ∧ (fl.setSipUriKnownParam = true → knownIndex sipUriKnownNames p.name = none)
  headers : ∀ h ∈ u.headers, h.WF fl sipUriHeaderCS
  shape : KnownShape sipUriKnownNames u.known
  off : fl.setSipUriKnownParam = false → u.known = []
  known : ∀ x ∈ sipUriKnownNames.zip u.known, ∀ p ∈ x.2, p.name.map asciiLower = x.1 ∧ ∀ v ∈ p.value, v ≠ [] ∧ EscOk fl csSipPvalue v

/-- the value with the names of its known parameters written as in the table -/
def SipUri.canon (u : SipUri) : SipUri := { u with known := canonKnown UriParam.rename sipUriKnownNames u.known }

/-- all parameters, in the order in which they are written -/
def SipUri.allParams (u : SipUri) : List UriParam := knownList UriParam.rename sipUriKnownNames u.known ++ u.params

def optCost (o : Option Bytes) : Nat := match o with | some b => b.length + 2 | none => 0

/-- arena bytes of a parsed URI -/
def SipUri.cost (u : SipUri) : Nat :=
  optCost u.user + optCost u.password + u.hostport.host.cost + (uriParamsCost u.allParams + knownCost sipUriKnownNames u.known) + uriHeadersCost u.headers

/-- a byte that cannot belong to a URI or continue one -/
def uriStop (b : UInt8) : Bool :=
  !(isHostname b || isSipPname b || isSipPvalue b || isSipHname b || isSipHvalue b) && b != 0x3a && b != 0x3b && b != 0x3f && b != 0x26 && b != 0x3d && b != 0x25 && b != 0x40

/-- what may follow a URI: nothing, or a byte that cannot continue it, and no `@` that would make the code take the URI for user information.
At the end of the input the last header must not have an empty value. -/
def UriEnd (u : SipUri) (y : Bytes) : Prop :=
  (∀ b ∈ y.head?, uriStop b = true) ∧ findUserinfo y = false ∧ (y = [] → ∀ h ∈ u.headers.getLast?, h.value ≠ some [])

/-- a byte over which `findUserinfo` moves -/
def plain (b : UInt8) : Bool := b != 0x40 && b != 0x3e && !isLwsChar b

theorem findUserinfo_append (t y : Bytes) (h : ∀ b ∈ t, plain b = true) : findUserinfo (t ++ y) = findUserinfo y := by
  induction t with
  | nil => rfl
  | cons b t ih =>
    have hb := h b (by simp)
    simp only [plain, Bool.and_eq_true, bne_iff_ne, ne_eq, Bool.not_eq_true'] at hb
    rw [List.cons_append, findUserinfo, if_neg hb.1.1, if_neg (by simp [hb.1.2, hb.2])]
    exact ih (fun b hb => h b (by simp [hb]))

theorem plain_uriEsc (fl : Flags) (s : CS) (b : Bytes) (hs : ∀ v, s.mem v = true → plain v = true) (hb : EscOk fl s b) : ∀ v ∈ uriEsc fl s b, plain v = true := by
  rw [uriEsc_eq fl s b hb]
  intro v hv
  rcases escape_output_bytes s b v hv with h | h | h
  · exact hs v h
  · subst h; decide +kernel
  · have key : ∀ v, isUpperHex v = true → plain v = true := by decide +kernel
    exact key v h

theorem plain_param (fl : Flags) (p : UriParam) (hp : p.WF fl sipUriParamCS) : ∀ v ∈ p.encode fl sipUriParamCS, plain v = true := by
  have h1 := plain_uriEsc fl csSipPname p.name (by decide +kernel) hp.nameOk
  intro v hv
  unfold UriParam.encode UriParam.encodeValue at hv
  rcases List.mem_append.1 hv with h | h
  · exact h1 v h
  · cases hval : p.value with
    | none => rw [hval] at h; simp at h
    | some w =>
      rw [hval] at h
      rcases List.mem_cons.1 h with rfl | h
      · decide +kernel
      · exact plain_uriEsc fl csSipPvalue w (by decide +kernel) (hp.value w hval).2 v h

theorem plain_params (fl : Flags) (ps : List UriParam) (hp : ∀ p ∈ ps, p.WF fl sipUriParamCS) : ∀ v ∈ encodeUriParams fl sipUriParamCS ps, plain v = true := by
  intro v hv
  obtain ⟨p, hpm, hv⟩ := List.mem_flatMap.1 hv
  rcases List.mem_cons.1 hv with rfl | h
  · decide +kernel
  · exact plain_param fl p (hp p hpm) v h

theorem plain_header (fl : Flags) (p : UriHeader) (hp : p.WF fl sipUriHeaderCS) : ∀ v ∈ p.encode fl sipUriHeaderCS, plain v = true := by
  have h1 := plain_uriEsc fl csSipHname p.name (by decide +kernel) hp.nameOk
  obtain ⟨w, hval, hw⟩ := hp.value
  intro v hv
  unfold UriHeader.encode at hv
  rcases List.mem_append.1 hv with h | h
  · exact h1 v h
  · rw [hval] at h
    rcases List.mem_cons.1 h with rfl | h
    · decide +kernel
    · exact plain_uriEsc fl csSipHvalue w (by decide +kernel) hw v h

theorem plain_headers (fl : Flags) (hs : List UriHeader) (hp : ∀ p ∈ hs, p.WF fl sipUriHeaderCS) : ∀ v ∈ encodeUriHeaders fl sipUriHeaderCS hs, plain v = true := by
  induction hs with
  | nil => intro v hv; simp [encodeUriHeaders] at hv
  | cons h hs ih =>
    intro v hv
    cases hs with
    | nil => exact plain_header fl h (hp h (by simp)) v hv
    | cons h2 hs =>
      rw [encodeUriHeaders] at hv
      · rcases List.mem_append.1 hv with hv | hv
        · exact plain_header fl h (hp h (by simp)) v hv
        · rcases List.mem_cons.1 hv with rfl | hv
          · decide +kernel
          · exact ih (fun q hq => hp q (by simp [hq])) v hv
      · simp

theorem plain_host (net : Net) (hnet : net.Ok) (h : Host) (hw : h.WF net) : ∀ v ∈ h.encode net, plain v = true := by
  have hh : ∀ b, isHostname b = true → plain b = true := by decide +kernel
  cases h with
  | unknown => exact hw.elim
  | name s => intro v hv; exact hh v (hw.2.1 v hv)
  | ipv4 a b c d => intro v hv; exact hh v (ipv4Text_hostname (ipv4_encode_text net a b c d) v hv)
  | ipv6 ip =>
    obtain ⟨t, ht⟩ := hw
    intro v hv
    have : v = 0x5b ∨ v = 0x5d ∨ v ∈ net.ipString ip := by
      simp only [Host.encode, List.mem_append, List.mem_cons, List.not_mem_nil, or_false] at hv
      rcases hv with (h | h) | h <;> simp [h]
    rcases this with rfl | rfl | hv
    · decide +kernel
    · decide +kernel
    · have : ∀ b : UInt8, (isHex b = true ∨ b = 0x3a ∨ b = 0x2e) → plain b = true := by decide +kernel
      exact this v (hnet.chars t ip ht v hv)

theorem plain_hostport (net : Net) (hnet : net.Ok) (h : HostPort) (hw : h.WF net) : ∀ v ∈ h.encode net, plain v = true := by
  intro v hv
  unfold HostPort.encode at hv
  cases hp : h.port with
  | none => rw [hp] at hv; simp at hv; exact plain_host net hnet h.host hw.1 v hv
  | some p =>
    rw [hp] at hv
    rcases List.mem_append.1 hv with hv | hv
    · exact plain_host net hnet h.host hw.1 v hv
    · rcases List.mem_cons.1 hv with rfl | hv
      · decide +kernel
      · have := digits_of_allDigits (encodeUInt_spec p).1 v hv
        have key : ∀ b, isDigit b = true → plain b = true := by decide +kernel
        exact key v this

theorem canon_wf (net : Net) (fl : Flags) (u : SipUri) (h : u.WF net fl) : ∀ p ∈ knownList UriParam.rename sipUriKnownNames u.known, p.WF fl sipUriParamCS := by
  intro p hp
  obtain ⟨x, hx, hxp⟩ := List.mem_filterMap.1 hp
  cases h2 : x.2 with
  | none => rw [h2] at hxp; cases hxp
  | some q =>
    rw [h2] at hxp
    simp only [Option.map_some, Option.some.injEq] at hxp
    subst hxp
    obtain ⟨hn, hv⟩ := h.known x hx q h2
    have hnames : ∀ n ∈ sipUriKnownNames, n ≠ [] ∧ InSet csSipPname n := by decide +kernel
    have hm := hnames x.1 (List.of_mem_zip (show (x.1, x.2) ∈ _ from hx)).1
    exact ⟨hm.1, fun _ => hm.2, hv⟩

theorem allParams_wf (net : Net) (fl : Flags) (u : SipUri) (h : u.WF net fl) : ∀ p ∈ u.allParams, p.WF fl sipUriParamCS := by
  intro p hp
  rcases List.mem_append.1 hp with hp | hp
  · exact canon_wf net fl u h p hp
  · exact (h.params p hp).1

theorem encodeKnown_eq (fl : Flags) (cs : CharsetInfo) (names : List Bytes) (known : List (Option UriParam))
    (hin : ∀ n ∈ names, InSet cs.name n) :
    encodeKnown names 0x3b (UriParam.encodeValue fl cs) known = encodeUriParams fl cs (knownList UriParam.rename names known) := by
  induction names generalizing known with
  | nil => simp [encodeKnown, knownList, encodeUriParams]
  | cons n names ih =>
    cases known with
    | nil => simp [encodeKnown, knownList, encodeUriParams]
    | cons k known =>
      have ih := ih known (fun n hn => hin n (by simp [hn]))
      unfold encodeKnown knownList encodeUriParams at *
      rw [List.zip_cons_cons, List.flatMap_cons, List.filterMap_cons, ih]
      cases k with
      | none => simp
      | some p =>
        simp only [Option.map_some, List.flatMap_cons]
        have e : uriEsc fl cs.name n = n := by rw [uriEsc_eq fl cs.name n (fun _ => hin n (by simp))]; exact (escape_output_length cs.name n).2 (hin n (by simp))
        simp only [UriParam.encode, UriParam.rename, e]
        simp [UriParam.encodeValue]

theorem sipUri_known_in : ∀ n ∈ sipUriKnownNames, InSet csSipPname n := by decide +kernel
theorem sipUri_namesOk : NamesOk sipUriKnownNames := by unfold NamesOk; decide +kernel
theorem sipUriParamCS_ok : sipUriParamCS.Ok := by constructor <;> decide +kernel
theorem sipUriHeaderCS_ok : sipUriHeaderCS.Ok := by constructor <;> decide +kernel
theorem CharsetInfo.Sub.refl (cs : CharsetInfo) : cs.Sub cs := ⟨fun _ h => h, fun _ h => h⟩

theorem Parses.getFlags {β : Type} {fl : Flags} {F : Bytes → Prop} {f : Flags → P β} {t : Bytes} {v : β} {n : Nat} (h : Parses fl (f fl) t v n F) :
    Parses fl (P.get >>= fun c => f c.flags) t v n F := by
  intro c y h1 h2 h3 h4 h5
  rw [P.get_bind, h1]
  exact h c y h1 h2 h3 h4 h5

theorem sipUri_setRun (net : Net) (fl : Flags) (u : SipUri) (h : u.WF net fl) :
    SetRun fl SipUri.setKnown ([], []) u.allParams (u.canon.known, u.params) (knownCost sipUriKnownNames u.known) := by
  have h2 : ∀ k, SetRun fl SipUri.setKnown (k, []) u.params (k, [] ++ u.params) 0 := fun k => SetRun.unknown (fun p hp => by
    refine Parses.getFlags (f := fun f => Sip.setKnown sipUriKnownNames f.setSipUriKnownParam k p.name p) ?_
    exact setKnown_none _ _ _ _ _ (h.params p hp).2)
  have h1 : SetRun fl SipUri.setKnown ([], []) (knownList UriParam.rename sipUriKnownNames u.known) (u.canon.known, []) (knownCost sipUriKnownNames u.known) := by
    cases hon : fl.setSipUriKnownParam with
    | false =>
      have := h.off hon
      simp only [SipUri.canon, this, knownList, canonKnown, knownCost, List.zip_nil_right, List.zipWith_nil_right, List.filterMap_nil, if_true]
      exact SetRun.nil _
    | true =>
      refine setRun_known sipUriKnownNames sipUri_namesOk UriParam.rename UriParam.name (fun _ _ => rfl) u.known h.shape SipUri.setKnown id ?_ []
      intro k p r n _ hp
      refine Parses.getFlags (f := fun f => Sip.setKnown sipUriKnownNames f.setSipUriKnownParam k p.name p) ?_
      rw [hon]; exact hp
  have := h1.append (h2 u.canon.known)
  simpa [SipUri.allParams] using this

/-- the part of the text behind the host -/
def SipUri.encodeTail (fl : Flags) (u : SipUri) : Bytes :=
  encodeUriParams fl sipUriParamCS u.allParams ++ (match u.headers with
    | [] => []
    | hs => 0x3f :: encodeUriHeaders fl sipUriHeaderCS hs)

def SipUri.encodeUser (fl : Flags) (u : SipUri) : Bytes :=
  match u.user with
    | some us => uriEsc fl csSipUser us ++ (match u.password with
        | some pw => 0x3a :: uriEsc fl csSipPassword pw
        | none => []) ++ [0x40]
    | none => []

theorem sipUri_encode_eq (net : Net) (fl : Flags) (u : SipUri) :
    u.encode net fl = (if u.secure then str "sips:" else str "sip:") ++ (u.encodeUser fl ++ (u.hostport.encode net ++ u.encodeTail fl)) := by
  unfold SipUri.encode SipUri.encodeTail SipUri.allParams SipUri.encodeUser
  rw [encodeKnown_eq fl sipUriParamCS sipUriKnownNames u.known sipUri_known_in]
  simp only [encodeUriParams, List.flatMap_append, List.append_assoc]
  cases u.user <;> cases u.password <;> cases u.headers <;> rfl

theorem uriStop_spec (b : UInt8) (h : uriStop b = true) : csHostname.mem b = false ∧ csSipPname.mem b = false ∧ csSipPvalue.mem b = false ∧
    csSipHname.mem b = false ∧ csSipHvalue.mem b = false ∧ b ≠ 0x3a ∧ b ≠ 0x3b ∧ b ≠ 0x3f ∧ b ≠ 0x26 ∧ b ≠ 0x3d ∧ b ≠ 0x25 ∧ b ≠ 0x40 := by
  simp only [uriStop, Bool.and_eq_true, bne_iff_ne, ne_eq, Bool.not_eq_true', Bool.or_eq_false_iff] at h
  obtain ⟨⟨⟨⟨⟨⟨⟨⟨⟨⟨⟨h1, h2⟩, h3⟩, h4⟩, h5⟩, h6⟩, h7⟩, h8⟩, h9⟩, h10⟩, h11⟩, h12⟩ := h
  exact ⟨h1, h2, h3, h4, h5, h6, h7, h8, h9, h10, h11, h12⟩

theorem uriStop_ne {y : Bytes} (h : ∀ b ∈ y.head?, uriStop b = true) : y.head? ≠ some 0x3a ∧ y.head? ≠ some 0x3b ∧ y.head? ≠ some 0x3f ∧ y.head? ≠ some 0x26 := by
  refine ⟨?_, ?_, ?_, ?_⟩ <;>
  · intro e
    have := uriStop_spec _ (h _ e)
    obtain ⟨_, _, _, _, _, h1, h2, h3, h4, _⟩ := this
    first | exact h1 rfl | exact h2 rfl | exact h3 rfl | exact h4 rfl

theorem sipUri_tail_head (fl : Flags) (u : SipUri) : ∀ y, (∀ b ∈ y.head?, uriStop b = true) →
    ∀ b ∈ (u.encodeTail fl ++ y).head?, b = 0x3b ∨ b = 0x3f ∨ uriStop b = true := by
  intro y hy b hb
  unfold SipUri.encodeTail at hb
  cases hps : u.allParams with
  | nil =>
    rw [hps] at hb
    cases hhs : u.headers with
    | nil => rw [hhs] at hb; simp [encodeUriParams] at hb; exact Or.inr (Or.inr (hy b hb))
    | cons g gs => rw [hhs] at hb; simp [encodeUriParams] at hb; exact Or.inr (Or.inl hb.symm)
  | cons p ps => rw [hps] at hb; simp [encodeUriParams] at hb; exact Or.inl hb.symm

/-- user information -/
theorem userinfo_roundtrip (net : Net) (fl : Flags) (u : SipUri) (h : u.WF net fl) :
    Parses fl SipUri.parseUserinfo (u.encodeUser fl) (u.user, u.password) (optCost u.user + optCost u.password) (fun y => u.user = none → findUserinfo y = false) := by
  unfold SipUri.parseUserinfo SipUri.encodeUser
  cases hu : u.user with
  | none =>
    have hpw : u.password = none := by
      cases hp : u.password with
      | none => rfl
      | some pw => exact absurd hu (h.password pw hp).1
    rw [hpw]
    refine Parses.get (fun c y h1 h2 h3 h4 h5 => ?_)
    rw [if_neg (by rw [h2]; simpa using h3 rfl)]
    rfl
  | some us =>
    obtain ⟨hus1, hus2⟩ := h.user us hu
    have hplain : ∀ b ∈ uriEsc fl csSipUser us ++ (match u.password with | some pw => 0x3a :: uriEsc fl csSipPassword pw | none => []), plain b = true := by
      intro b hb
      rcases List.mem_append.1 hb with hb | hb
      · exact plain_uriEsc fl csSipUser us (by decide +kernel) hus2 b hb
      · cases hp : u.password with
        | none => rw [hp] at hb; simp at hb
        | some pw =>
          rw [hp] at hb
          rcases List.mem_cons.1 hb with rfl | hb
          · decide +kernel
          · exact plain_uriEsc fl csSipPassword pw (by decide +kernel) (h.password pw hp).2 b hb
    refine Parses.get (fun c y h1 h2 h3 h4 h5 => ?_)
    rw [if_pos (by
      rw [h2, List.append_assoc, findUserinfo_append _ _ hplain]; rfl)]
    -- the parser proper
    have key : Parses fl (do
        let user ← P.orErr (P.strEsc csSipUser)
        if (← P.peek) = none then P.err else do
        let pw ← P.orErr SipUri.parsePassword
        if (← P.peek) ≠ some 0x40 then P.err else do
        P.skip 1
        pure (some user, pw) : P (Option Bytes × Option Bytes))
        (uriEsc fl csSipUser us ++ (match u.password with | some pw => 0x3a :: uriEsc fl csSipPassword pw | none => []) ++ [0x40]) (some us, u.password)
        (optCost (some us) + optCost u.password) AnyText := by
      have hlast : Parses fl (do
          if (← P.peek) ≠ some 0x40 then P.err else do
          P.skip 1
          pure (some us, u.password) : P (Option Bytes × Option Bytes)) [0x40] (some us, u.password) 0 AnyText := by
        refine Parses.peek ?_
        rw [if_neg (by simp)]
        exact Parses.skip1 (Parses.pure _)
      cases hp : u.password with
      | none =>
        rw [hp] at hlast
        refine Parses.bind' (t2 := [0x40]) (n2 := 0) (Parses.orErr (Parses.esc csSipUser (by decide +kernel) us hus1 hus2)) ?_
          (fun y _ b hb => by simp at hb; subst hb; exact ⟨by decide +kernel, by decide⟩) (by simp) rfl
        refine Parses.peek ?_
        rw [if_neg (by simp)]
        refine Parses.bind' (F := fun y => y.head? = some 0x40) (v1 := none) (n1 := 0) (t1 := []) (Parses.orErr ?_) hlast (by simp) rfl rfl
        intro c y h1 h2 h3 h4 h5
        have hb : c.src[c.pos + 0]? = some 0x40 := by
          have := cur_eq_head c
          rw [h2] at this
          simp only [List.nil_append] at this
          rw [h3] at this; exact this
        exact (byteAt_bind 0 _ c _ hb).trans rfl
      | some pw =>
        obtain ⟨_, hpw⟩ := h.password pw hp
        rw [hp] at hlast
        refine Parses.bind' (t2 := 0x3a :: (uriEsc fl csSipPassword pw ++ [0x40])) (n2 := pw.length + 2) (Parses.orErr (Parses.esc csSipUser (by decide +kernel) us hus1 hus2)) ?_
          (fun y _ b hb => by simp at hb; subst hb; exact ⟨by decide +kernel, by decide⟩) (by simp) rfl
        refine Parses.peek ?_
        rw [if_neg (by simp)]
        have hpp : Parses fl SipUri.parsePassword (0x3a :: uriEsc fl csSipPassword pw) (some pw) (pw.length + 2) (fun y => y.head? = some 0x40) := by
          intro c y h1 h2 h3 h4 h5
          have hb : c.src[c.pos + 0]? = some 0x3a := by
            have := cur_eq_head c
            rw [h2] at this; exact this
          have hin : Parses fl (do
              P.skip 1
              if (← P.peek) = none then P.err else do
              let pw ← P.orErr (P.strEscEmpty csSipPassword)
              pure (some pw) : P (Option Bytes)) (0x3a :: uriEsc fl csSipPassword pw) (some pw) (pw.length + 2) (fun y => y.head? = some 0x40) := by
            refine Parses.skip1 ?_
            have h3 : Parses fl (P.orErr (P.strEscEmpty csSipPassword) >>= fun pw => (pure (some pw) : P (Option Bytes))) (uriEsc fl csSipPassword pw) (some pw) (pw.length + 2)
                (fun y => y.head? = some 0x40) :=
              Parses.bind' (Parses.orErr (Parses.escEmpty csSipPassword (by decide +kernel) pw hpw)) (Parses.pure _)
                (fun y hy b hb => by
                  simp only [List.nil_append] at hb
                  rw [hy] at hb
                  simp at hb; subst hb; exact ⟨by decide +kernel, by decide⟩) (by simp) (by omega)
            intro c y g1 g2 g3 g4 g5
            rw [P.peek_bind]
            rw [if_neg (by
              rw [cur_eq_head, g2]
              cases hq : uriEsc fl csSipPassword pw with
              | nil => simp [g3]
              | cons => simp)]
            exact h3 c y g1 g2 g3 g4 g5
          exact (byteAt_bind 0 _ c _ hb).trans (hin c y h1 h2 h3 h4 h5)
        exact Parses.bind' (Parses.orErr hpp) hlast (fun y _ => rfl) rfl rfl
    exact key c y h1 h2 trivial h4 h5

theorem sipParams_roundtrip (net : Net) (fl : Flags) (u : SipUri) (h : u.WF net fl) :
    Parses fl SipUri.parseParams (encodeUriParams fl sipUriParamCS u.allParams) (u.canon.known, u.params)
      (uriParamsCost u.allParams + knownCost sipUriKnownNames u.known) (ParamsEnd sipUriParamCS) := by
  have hset := sipUri_setRun net fl u h
  unfold SipUri.parseParams
  by_cases hps : u.allParams = []
  · have : u.params = [] ∧ u.known = [] := by
      have h0 := List.append_eq_nil_iff.1 (show knownList UriParam.rename sipUriKnownNames u.known ++ u.params = [] from hps)
      refine ⟨h0.2, ?_⟩
      rcases h.shape with h1 | ⟨h1, p, hp, hpn⟩
      · exact h1
      · obtain ⟨i, hi, rfl⟩ := List.mem_iff_getElem.1 hp
        cases hk : u.known[i] with
        | none => exact absurd hk hpn
        | some q =>
          have : UriParam.rename (sipUriKnownNames[i]'(by omega)) q ∈ knownList UriParam.rename sipUriKnownNames u.known := by
            refine List.mem_filterMap.2 ⟨(sipUriKnownNames[i]'(by omega), some q), ?_, rfl⟩
            rw [List.mem_iff_getElem]
            refine ⟨i, by simp; omega, ?_⟩
            rw [List.getElem_zip, hk]
          rw [h0.1] at this; cases this
    rw [hps, this.1]
    have e : u.canon.known = [] := by simp [SipUri.canon, canonKnown, this.2]
    rw [e, this.2]
    refine Parses.peekEnd (fun y hy => ?_)
    rw [if_neg hy.2]
    exact Parses.pure _
  · obtain ⟨p, ps, hcons⟩ := List.exists_cons_of_ne_nil hps
    have hr := uriParams_roundtrip fl sipUriParamCS sipUriParamCS (CharsetInfo.Sub.refl _) sipUriParamCS_ok SipUri.setKnown [] u.canon.known u.allParams u.params _ hps (allParams_wf net fl u h) hset
    rw [hcons] at hr ⊢
    have e : encodeUriParams fl sipUriParamCS (p :: ps) = 0x3b :: (p.encode fl sipUriParamCS ++ encodeUriParams fl sipUriParamCS ps) := by simp [encodeUriParams]
    rw [e] at hr ⊢
    refine Parses.peek ?_
    rw [if_pos rfl]
    exact hr

theorem sipHeaders_roundtrip (net : Net) (fl : Flags) (u : SipUri) (h : u.WF net fl) :
    Parses fl SipUri.parseHeaders (match u.headers with | [] => [] | hs => 0x3f :: encodeUriHeaders fl sipUriHeaderCS hs) u.headers
      (uriHeadersCost u.headers) (fun y => y.head? ≠ some 0x3f ∧ HeadersEnd sipUriHeaderCS u.headers y) := by
  unfold SipUri.parseHeaders
  cases hh : u.headers with
  | nil =>
    refine Parses.peekEnd (fun y hy => ?_)
    rw [if_neg hy.1]
    exact Parses.pure _
  | cons g gs =>
    have hwf : ∀ q ∈ g :: gs, q.WF fl sipUriHeaderCS := fun q hq => h.headers q (by rw [hh]; exact hq)
    obtain ⟨k, hk⟩ := uriHeaders_run fl sipUriHeaderCS sipUriHeaderCS_ok (by decide +kernel) g gs [] hwf
    refine Parses.peek ?_
    rw [if_pos rfl]
    refine Parses.skip1 (Parses.orErr ?_)
    unfold parseUriHeaders
    have hne : encodeUriHeaders fl sipUriHeaderCS (g :: gs) ≠ [] := by
      have h1 := uriHeader_encode_ne fl sipUriHeaderCS g (hwf g (by simp))
      cases gs with
      | nil => rw [encodeUriHeaders]; exact h1
      | cons g2 gs =>
        rw [encodeUriHeaders]
        · simp
        · simp
    refine Parses.peekNE hne ?_
    obtain ⟨b, t, ht⟩ := List.exists_cons_of_ne_nil hne
    rw [if_neg (by rw [ht]; simp)]
    exact hk.forLoop.mono (fun y hy => hy.2)

theorem plain_tail (net : Net) (fl : Flags) (u : SipUri) (h : u.WF net fl) : ∀ v ∈ u.encodeTail fl, plain v = true := by
  intro v hv
  rcases List.mem_append.1 hv with hv | hv
  · exact plain_params fl _ (allParams_wf net fl u h) v hv
  · cases hh : u.headers with
    | nil => rw [hh] at hv; cases hv
    | cons g gs =>
      rw [hh] at hv
      rcases List.mem_cons.1 hv with rfl | hv
      · decide +kernel
      · exact plain_headers fl (g :: gs) (fun q hq => h.headers q (by rw [hh]; exact hq)) v hv

/-- the URI behind the scheme -/
theorem sipUri_afterScheme (net : Net) (hnet : net.Ok) (fl : Flags) (u : SipUri) (h : u.WF net fl) :
    Parses fl (SipUri.parseAfterScheme net u.secure) (u.encodeUser fl ++ (u.hostport.encode net ++ u.encodeTail fl)) u.canon u.cost (UriEnd u) := by
  unfold SipUri.parseAfterScheme
  refine Parses.bind' (Parses.orErr (userinfo_roundtrip net fl u h)) (n2 := u.hostport.host.cost + (uriParamsCost u.allParams + knownCost sipUriKnownNames u.known + uriHeadersCost u.headers)) ?_ ?_ rfl (by unfold SipUri.cost; omega)
  · refine Parses.bind' (Parses.orErr (hostport_roundtrip net hnet fl u.hostport h.hostport)) (t2 := u.encodeTail fl) ?_ ?_ rfl rfl
    · unfold SipUri.encodeTail
      refine Parses.bind' (sipParams_roundtrip net fl u h) (n2 := uriHeadersCost u.headers) ?_ ?_ rfl rfl
      · refine Parses.bind' (sipHeaders_roundtrip net fl u h) (t2 := []) (n2 := 0) (Parses.pure _) ?_ (by simp) rfl
        intro y hy
        rw [List.nil_append]
        obtain ⟨h1, h2, h3⟩ := hy
        refine ⟨(uriStop_ne h1).2.2.1, ?_, (uriStop_ne h1).2.2.2, ?_⟩
        · intro b hb
          have := uriStop_spec b (h1 b hb)
          exact ⟨this.2.2.2.2.1, this.2.2.2.2.2.2.2.2.2.2.1⟩
        · intro g hg hv hy
          exact h3 hy g hg hv
      · intro y hy
        cases hh : u.headers with
        | nil =>
          refine ⟨fun b hb => ?_, by simpa using (uriStop_ne hy.1).2.1⟩
          have := uriStop_spec b (hy.1 b (by simpa using hb))
          exact ⟨this.2.1, this.2.2.1, this.2.2.2.2.2.2.2.2.2.2.1, this.2.2.2.2.2.2.2.2.2.1⟩
        | cons g gs =>
          refine ⟨fun b hb => ?_, by simp⟩
          simp at hb; subst hb
          exact ⟨by decide +kernel, by decide +kernel, by decide, by decide⟩
    · intro y hy
      have hh := sipUri_tail_head fl u y hy.1
      constructor
      · intro b hb
        rcases hh b hb with rfl | rfl | hs
        · decide +kernel
        · decide +kernel
        · exact (uriStop_spec b hs).1
      · intro e
        rcases hh 0x3a e with h | h | h
        · cases h
        · cases h
        · exact absurd h (by decide +kernel)
  · intro y hy _
    rw [List.append_assoc, findUserinfo_append _ _ (plain_hostport net hnet u.hostport h.hostport), findUserinfo_append _ _ (plain_tail net fl u h)]
    exact hy.2.1

/-- **C18** a SIP URI survives encode and parse: for every well formed value the text that `Encode` writes is parsed, in front of anything that
cannot continue a URI, to the same value (with the known parameter names as in the table); exactly the text is consumed, exactly `cost` bytes of
memory are used, and no error is recorded. -/
theorem sipUri_roundtrip (net : Net) (hnet : net.Ok) (fl : Flags) (u : SipUri) (h : u.WF net fl) :
    Parses fl (SipUri.parse net) (u.encode net fl) u.canon u.cost (UriEnd u) := by
  rw [sipUri_encode_eq]
  unfold SipUri.parse
  have hs : Parses fl SipUri.parseScheme (if u.secure then str "sips:" else str "sip:") u.secure 0 AnyText := by
    intro c y h1 h2 h3 h4 h5
    unfold SipUri.parseScheme
    cases hsec : u.secure with
    | true =>
      rw [hsec] at h2
      rw [if_neg (by rw [h2]; simp only [if_true]; show ¬ hasSipPrefix (0x73 :: 0x69 :: 0x70 :: 0x73 :: 0x3a :: y) = true; simp only [hasSipPrefix]; decide), if_pos (by rw [h2]; rfl)]
      rfl
    | false =>
      rw [hsec] at h2
      rw [if_pos (by rw [h2]; rfl)]
      rfl
  exact Parses.bind' hs (sipUri_afterScheme net hnet fl u h) (fun _ _ => trivial) rfl (by omega)

end Sip
