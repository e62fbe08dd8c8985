import Verif.Model.Addr
import Verif.Props.ParamSafe
import Verif.Props.Tel
/-! # C20: name-addr and addr-spec survive encode and parse

`TokensText` is the grammar of a display name made of tokens (RFC 3261 `*(token LWS)`), taken verbatim with its white space. -/
namespace Sip

/-- `*(token LWS)`, the last token possibly without white space behind it -/
inductive TokensText : Bytes → Prop
  | nil : TokensText []
  | cons (tok w r : Bytes) (hne : tok ≠ []) (htok : InSet csSipToken tok) (hw : IsSWS w) (hlast : w = [] → r = []) (hr : TokensText r) :
      TokensText (tok ++ (w ++ r))

theorem TokensText.head {x : Bytes} (h : TokensText x) : ∀ b ∈ x.head?, csSipToken.mem b = true := by
  intro b hb
  cases h with
  | nil => simp at hb
  | cons tok w r hne htok =>
    obtain ⟨a, t, rfl⟩ := List.exists_cons_of_ne_nil hne
    simp at hb; subst hb; exact htok a (by simp)

/-- AbnfBasic.go:541-579: what `ParseLWS` does on a text, in terms of the length of the white space at its start -/
theorem P.lws_cases (c : Ctx) (hc : Inv c) : (P.lws c = .ok (some (), c.adv (swsLen c.rest))) ∨
    ∃ p, P.lws c = .ok (none, c.setPos p) ∧ c.pos ≤ p ∧ p ≤ c.src.length := by
  have h := parseLWS_spec c.src c.pos hc.pos
  unfold P.lws
  rcases hp : parseLWS c.src c.pos with ⟨p, _ | _⟩
  · right
    rw [hp] at h
    exact ⟨p, rfl, h.2⟩
  · left
    rw [hp] at h
    simp only [if_true] at h
    simp only [h.1]; rfl

/-- white space in front of something else is skipped -/
theorem Parses.lws {fl : Flags} (w : Bytes) (hw : IsSWS w) : Parses fl P.lws w () 0 NoWs := by
  intro c y h1 h2 h3 h4 h5
  have hs := Parses.sws (fl := fl) w hw c y h1 h2 h3 h4 h5
  have hs' : c.sws = c.eat w.length 0 := by
    have : P.sws c = .ok (some (), c.sws) := rfl
    rw [this] at hs; simpa using hs
  unfold P.lws
  rcases hp : parseLWS c.src c.pos with ⟨p, _ | _⟩
  · -- it fails only in front of an end of line
    exfalso
    unfold Ctx.rest at h2
    have hw0 : swsLen (c.src.drop c.pos) = w.length := by
      have := sws_eq c h4
      rw [hs'] at this
      simp only [Ctx.eat, Ctx.adv, Ctx.mk.injEq, true_and, and_true] at this
      unfold Ctx.rest at this; omega
    have hsp := (parseLWS_spec c.src c.pos h4).1
    rw [hp] at hsp
    simp only [Bool.false_eq_true, if_false] at hsp
    have hw1 : w = [] := List.length_eq_zero_iff.1 (by omega)
    subst hw1
    rw [List.nil_append] at h2
    cases hy : y with
    | nil =>
      rw [hy] at h2
      have hl : c.src.length ≤ c.pos := List.drop_eq_nil_iff.1 h2
      unfold parseLWS at hp
      simp only at hp
      have : c.pos ≤ skipWhile isSpHtab c.src c.pos := by unfold skipWhile; omega
      rw [if_pos (by omega)] at hp
      cases hp
    | cons a r =>
      rw [hy] at h2 h3
      have ha := h3 a rfl
      have hrun : runLen isSpHtab (a :: r) = 0 := by
        have : isSpHtab a = false := by
          rw [isLws_iff] at ha
          cases h : isSpHtab a with
          | false => rfl
          | true => rw [h] at ha; simp at ha
        simp [runLen, this]
      have hsk : skipWhile isSpHtab c.src c.pos = c.pos := by unfold skipWhile; rw [h2, hrun]; rfl
      unfold parseLWS at hp
      simp only [hsk] at hp
      split at hp
      · cases hp
      · rw [if_neg] at hp
        · cases hp
        · intro ⟨h, _⟩
          have : c.src[c.pos]? = some a := by
            have := List.getElem?_drop (xs := c.src) (i := c.pos) (j := 0)
            rw [h2] at this; simpa using this.symm
          rw [this] at h; cases h; exact absurd ha (by decide)
  · have h := (parseLWS_spec c.src c.pos h4).1
    rw [hp] at h
    simp only [if_true] at h
    have := sws_eq c h4
    rw [hs'] at this
    simp only [Ctx.eat, Ctx.adv, Ctx.mk.injEq, true_and, and_true] at this
    simp only [Ctx.eat, Ctx.setPos, Out.ok.injEq, Prod.mk.injEq, Ctx.mk.injEq, true_and, and_true]
    unfold Ctx.rest at this; omega

theorem Parses.skipRun {fl : Flags} (s : CS) (t : Bytes) (ht : InSet s t) : Parses fl (P.skipRun s) t () 0 (NotIn s) := by
  intro c y h1 h2 h3 h4 h5
  unfold P.skipRun skipWhile
  have : runLen s.mem (c.src.drop c.pos) = t.length := by
    unfold Ctx.rest at h2
    rw [h2]
    clear h1 h2 h4 h5
    induction t with
    | nil =>
      cases y with
      | nil => rfl
      | cons a r => simp [runLen, h3 a rfl]
    | cons a t ih =>
      have := ih (fun b hb => ht b (by simp [hb]))
      simp [runLen, ht a (by simp), this]
  rw [this]; rfl

theorem Parses.orBack {α : Type} {fl : Flags} {F : Bytes → Prop} {p : P α} {t : Bytes} {v : α} {n : Nat} (h : Parses fl p t v n F) : Parses fl (P.orBack p) t v n F := by
  intro c y h1 h2 h3 h4 h5
  unfold P.orBack
  rw [h c y h1 h2 h3 h4 h5]

/-- what stops a display name -/
def NameEnd (y : Bytes) : Prop := NotIn csSipToken y ∧ NoWs y

theorem tokens_run {fl : Flags} {x : Bytes} (h : TokensText x) : ∃ k, Run fl tokensBody NameEnd () x () 0 k := by
  induction h with
  | nil =>
    refine ⟨_, .last ?_⟩
    unfold tokensBody
    refine Parses.peekEnd (fun y hy => ?_)
    cases hh : y.head? with
    | none => exact Parses.pure _
    | some b =>
      simp only
      rw [if_neg (by rw [hy.1 b (by simp [hh])]; decide)]
      exact Parses.pure _
  | cons tok w r hne htok hw hlast hr ih =>
    obtain ⟨k, ih⟩ := ih
    refine ⟨k + 1, ?_⟩
    rw [← List.append_assoc]
    refine (Run.step (n := 0) (n' := 0) (fun y => NoWs y ∧ (w = [] → NotIn csSipToken y)) (s' := ()) ?_ (by simp [hne]) ?_ ih)
    · unfold tokensBody
      obtain ⟨a, t, rfl⟩ := List.exists_cons_of_ne_nil hne
      refine Parses.peek (t := t ++ w) ?_
      simp only
      rw [if_pos (htok a (by simp))]
      have hb : Parses fl (do P.skipRun csSipToken; P.lws) ((a :: t) ++ w) () 0 (fun y => NoWs y ∧ (w = [] → NotIn csSipToken y)) := by
        refine Parses.bind' (Parses.skipRun csSipToken (a :: t) htok) ((Parses.lws w hw).mono (fun y hy => hy.1)) ?_ rfl rfl
        intro y hy b hb
        cases w with
        | nil => exact hy.2 rfl b (by simpa using hb)
        | cons d w =>
          simp at hb; subst hb
          exact lws_token d (isSWS_head hw d rfl)
      exact Parses.bind' (Parses.orBack hb) (Parses.pure _) (fun y hy => by simpa using hy) (by simp) rfl
    · intro y hy
      cases r with
      | nil => exact ⟨hy.2, fun _ => hy.1⟩
      | cons d r =>
        refine ⟨fun b hb => ?_, fun h => absurd (hlast h) (by simp)⟩
        simp at hb; subst hb
        exact (token_lws d (hr.head d rfl)).1

/-- a display name of tokens is taken verbatim -/
theorem tokens_text {fl : Flags} (x : Bytes) (h : TokensText x) : Parses fl parseTokens x x (x.length + 2) NameEnd := by
  obtain ⟨k, hk⟩ := tokens_run (fl := fl) h
  have hl := hk.forLoop
  intro c y h1 h2 h3 h4 h5
  unfold parseTokens
  rw [P.get_bind, P.bind_ok (hl c y h1 h2 h3 h4 (by omega)), P.get_bind]
  have e : (c.src.drop c.pos).take ((c.eat x.length 0).pos - c.pos) = x := by
    have : c.src.drop c.pos = x ++ y := h2
    rw [this]; simp [Ctx.eat]
  rw [e]
  have hlen := rest_length c h4
  rw [h2, List.length_append] at hlen
  have := Parses.orErr (Parses.allocStr (fl := fl) (F := AnyText) x) (c.eat x.length 0) y h1 (by rw [Ctx.rest_eat c x y 0 h2]; rfl) trivial (by simp; omega) (by simpa using h5)
  rw [this, Ctx.eat_eat]; simp

/-- SipAddr.go:245-263: texts of a display name and what is stored -/
inductive DisplayText : Bool × Bytes → Bytes → Prop
  | tokens (x : Bytes) (hne : x ≠ []) (h : TokensText x) : DisplayText (false, x) x
  | quoted (t o : Bytes) (h : QText t o) : DisplayText (true, o) (0x22 :: t ++ [0x22])

theorem Parses.ofBool {fl : Flags} {F : Bytes → Prop} {f : Ctx → Bool × Ctx} {t : Bytes}
    (h : ∀ c y, c.flags = fl → c.rest = t ++ y → F y → c.pos ≤ c.src.length → f c = (true, c.eat t.length 0)) : Parses fl (P.ofBool f) t () 0 F := by
  intro c y h1 h2 h3 h4 h5
  unfold P.ofBool
  rw [h c y h1 h2 h3 h4]

theorem Parses.laquot {fl : Flags} (w : Bytes) (hw : IsSWS w) : Parses fl (P.ofBool parseLeftAngleQuote) (w ++ [0x3c]) () 0 AnyText := by
  refine Parses.ofBool (fun c y h1 h2 _ h4 => ?_)
  have hs := angleQuotes_spec c h4
  rw [List.append_assoc] at h2
  have hsw : c.sws = c.eat w.length 0 := by
    have := Parses.sws (fl := fl) w hw { c with cap := c.used + 1 } ([0x3c] ++ y) h1 h2 (noWs_of rfl (by decide)) h4 (by simp)
    have e : P.sws { c with cap := c.used + 1 } = .ok (some (), ({ c with cap := c.used + 1 } : Ctx).sws) := rfl
    rw [e] at this
    rw [sws_eq { c with cap := c.used + 1 } h4] at this
    rw [sws_eq c h4]
    simp only [Ctx.adv, Ctx.eat, Out.ok.injEq, Prod.mk.injEq, Ctx.mk.injEq, true_and, and_true] at this ⊢
    exact this
  have hr : c.sws.rest = 0x3c :: y := by rw [hsw, Ctx.rest_eat c w _ 0 h2]; rfl
  have ht := hs.1.2 ⟨y, hr⟩
  have h2 := hs.2.1 ht
  have : parseLeftAngleQuote c = (true, c.sws.adv 1) := Prod.ext ht h2
  rw [this, hsw, Ctx.adv_eq_eat, Ctx.eat_eat]; simp

theorem Parses.raquot {fl : Flags} : Parses fl (P.ofBool parseRightAngleQuote) [0x3e] () 0 (fun y => swsLen y = 0) := by
  refine Parses.ofBool (fun c y h1 h2 h3 h4 => ?_)
  have hs := angleQuotes_spec c h4
  have ht := hs.2.2.1.2 ⟨y, h2⟩
  have h2 := hs.2.2.2.1 y h2
  rw [h3] at h2
  exact Prod.ext ht h2

theorem display_text {fl : Flags} (d : Bool × Bytes) (t : Bytes) (h : DisplayText d t) : Parses fl parseDisplayName t d (d.2.length + 2) NameEnd := by
  unfold parseDisplayName
  cases h with
  | tokens x hne h =>
    obtain ⟨a, r, rfl⟩ := List.exists_cons_of_ne_nil hne
    refine Parses.peek ?_
    simp only
    rw [if_pos (h.head a rfl)]
    exact Parses.bind' (tokens_text _ h) (Parses.pure _) (fun y hy => hy) (List.append_nil _).symm rfl
  | quoted t o h =>
    refine Parses.peek (b := 0x22) (t := t ++ [0x22]) ?_
    simp only
    rw [if_neg (by decide +kernel)]
    exact Parses.bind' (F := AnyText) (Parses.quoted t o h) (Parses.pure _) (fun y hy => trivial) (List.append_nil _).symm rfl

theorem nameEnd_laquot (w y : Bytes) (hw : IsSWS w) : NotIn csSipToken (w ++ 0x3c :: y) := by
  cases w with
  | nil => intro b hb; simp at hb; subst hb; decide +kernel
  | cons d w => intro b hb; simp at hb; subst hb; exact lws_token d (isSWS_head hw d rfl)

theorem displayLaquot_text {fl : Flags} (d : Bool × Bytes) (t : Bytes) (h : DisplayText d t) :
    Parses fl parseDisplayLaquot (t ++ [0x3c]) (some d) (d.2.length + 2) AnyText := by
  have hd := display_text (fl := fl) d t h
  have hne : t ≠ [] := by cases h <;> simp_all
  obtain ⟨a, r, rfl⟩ := List.exists_cons_of_ne_nil hne
  have ha : a ≠ 0x3c := by
    cases h with
    | tokens x hne h =>
      intro e; subst e
      exact absurd (h.head 0x3c rfl) (by decide +kernel)
    | quoted t o h => decide
  unfold parseDisplayLaquot
  refine Parses.peek (t := r ++ [0x3c]) ?_
  simp only
  rw [if_pos ha]
  refine Parses.bind' (t2 := [0x3c]) (n2 := 0) hd ?_ ?_ rfl rfl
  · exact Parses.bind' (t1 := [] ++ [0x3c]) (Parses.laquot [] (Or.inl rfl)) (Parses.pure _) (fun _ _ => trivial) rfl rfl
  · intro y _
    exact ⟨nameEnd_laquot [] y (Or.inl rfl), noWs_of rfl (by decide)⟩

theorem laquot_text {fl : Flags} : Parses fl parseDisplayLaquot [0x3c] none 0 AnyText := by
  unfold parseDisplayLaquot
  refine Parses.peek ?_
  simp only
  rw [if_neg (by simp)]
  exact Parses.skip1 (Parses.pure _)

/-! ## The scheme -/

/-- the texts of the schemes, as written by `Encode` -/
def AddrUri.scheme : AddrUri → Bytes
  | .sip u => if u.secure then str "sips:" else str "sip:"
  | .tel _ => str "tel:"
/-- the type a scheme selects -/
def AddrUri.type : AddrUri → UriType
  | .sip u => if u.secure then .sips else .sip
  | .tel _ => .tel

theorem scheme_text {fl : Flags} (u : AddrUri) : Parses fl parseAddrScheme u.scheme u.type 0 AnyText := by
  intro c y h1 h2 _ h4 h5
  unfold parseAddrScheme
  rw [h2]
  cases u with
  | tel u => rfl
  | sip u =>
    simp only [AddrUri.scheme, AddrUri.type]
    cases u.secure with
    | true => simp only [if_true]; rfl
    | false => simp only [Bool.false_eq_true, if_false]; rfl

def AddrUri.WF (net : Net) (fl : Flags) : AddrUri → Prop
  | .sip u => u.WF net fl
  | .tel u => u.WF fl
def AddrUri.canon : AddrUri → AddrUri
  | .sip u => .sip u.canon
  | .tel u => .tel u.canon
def AddrUri.cost : AddrUri → Nat
  | .sip u => 18 + u.cost
  | .tel u => 10 + u.cost
/-- what may follow a URI -/
def AddrUri.End : AddrUri → Bytes → Prop
  | .sip u => UriEnd u
  | .tel _ => TelEnd

/-- the text of a URI behind its scheme -/
def AddrUri.encodeRest (net : Net) (fl : Flags) : AddrUri → Bytes
  | .sip u => u.encodeUser fl ++ (u.hostport.encode net ++ u.encodeTail fl)
  | .tel u => u.number ++ encodeUriParams fl telUriParamCS u.allParams

theorem addrUri_encode_eq (net : Net) (fl : Flags) (u : AddrUri) (h : u.WF net fl) : u.encode net fl = u.scheme ++ u.encodeRest net fl := by
  cases u with
  | sip u => exact sipUri_encode_eq net fl u
  | tel u => exact telUri_encode_eq fl u h

theorem uriAfterScheme_text (net : Net) (hnet : net.Ok) (fl : Flags) (u : AddrUri) (h : u.WF net fl) :
    Parses fl (parseUriAfterScheme net true u.type) (u.encodeRest net fl) u.canon u.cost u.End := by
  cases u with
  | sip u =>
    have key : Parses fl (do P.orErr (P.alloc 18); let v ← SipUri.parseAfterScheme net u.secure; pure (AddrUri.sip v)) (AddrUri.encodeRest net fl (.sip u))
        (AddrUri.sip u.canon) (18 + u.cost) (UriEnd u) := by
      refine Parses.bind' (F := AnyText) (t1 := []) (Parses.orErr (Parses.alloc 18)) ?_ (fun _ _ => trivial) rfl rfl
      exact Parses.bind' (sipUri_afterScheme net hnet fl u h) (Parses.pure _) (fun y hy => hy) (List.append_nil _).symm rfl
    have ht : AddrUri.type (.sip u) = if u.secure then .sips else .sip := rfl
    rw [ht]
    cases hs : u.secure with
    | true => rw [hs] at key; exact key
    | false => rw [hs] at key; exact key
  | tel u =>
    show Parses fl (do P.orErr (P.alloc 10); let v ← TelUri.parseAfterScheme; pure (AddrUri.tel v)) _ _ _ _
    refine Parses.bind' (F := AnyText) (t1 := []) (Parses.orErr (Parses.alloc 10)) ?_ (fun _ _ => trivial) rfl rfl
    exact Parses.bind' (telUri_afterScheme fl u h) (Parses.pure _) (fun y hy => hy) (List.append_nil _).symm rfl

theorem addrUri_end_raquot (u : AddrUri) (y : Bytes) : u.End (0x3e :: y) := by
  cases u with
  | sip u => exact uriEnd_of u _ (fun b hb => Or.inl (by simpa using hb.symm)) (fun h => by cases h)
  | tel u => intro b hb; simp at hb; subst hb; decide +kernel

/-! ## Addresses -/

/-- the addresses that `Encode` can write so that they can be read back -/
structure Addr.WF (net : Net) (fl : Flags) (a : Addr) : Prop where
  display : ∀ d ∈ a.display, (a.nameAddr || fl.encodeUriAsNameSpace) = true ∧ if d.1 then QText d.2 d.2 else d.2 ≠ [] ∧ TokensText d.2
  uri : a.uri.WF net fl

/-- what is read back: the form written and the names of the known parameters as in the tables -/
def Addr.canon (fl : Flags) (a : Addr) : Addr := { a with nameAddr := a.nameAddr || fl.encodeUriAsNameSpace, uri := a.uri.canon }

/-- memory for the display name and the URI -/
def Addr.cost (a : Addr) : Nat := (match a.display with | some d => d.2.length + 2 | none => 0) + a.uri.cost

theorem addr_display_text (net : Net) (fl : Flags) (a : Addr) (h : a.WF net fl) : ∀ d ∈ a.display, DisplayText d a.encodeDisplay := by
  intro d hd
  obtain ⟨_, hd2⟩ := h.display d hd
  obtain ⟨b, d⟩ := d
  unfold Addr.encodeDisplay
  rw [hd]
  cases b with
  | true => exact .quoted d d hd2
  | false => simp only [Bool.false_eq_true, if_false] at hd2; exact .tokens d hd2.1 hd2.2

theorem addr_display_none {a : Addr} (h : a.display = none) : a.encodeDisplay = [] := by unfold Addr.encodeDisplay; rw [h]

theorem displayText_noWs {d : Bool × Bytes} {t : Bytes} (h : DisplayText d t) (y : Bytes) : NoWs (t ++ y) := by
  cases h with
  | tokens x hne h =>
    obtain ⟨a, r, rfl⟩ := List.exists_cons_of_ne_nil hne
    exact noWs_of rfl (token_lws a (h.head a rfl)).1
  | quoted t o h => exact noWs_of rfl (by decide)

/-- **C20** an address with brackets survives encode and parse -/
theorem nameAddr_roundtrip (net : Net) (hnet : net.Ok) (fl : Flags) (a : Addr) (h : a.WF net fl) (hb : (a.nameAddr || fl.encodeUriAsNameSpace) = true) :
    Parses fl (parseNameAddr net) (a.encode net fl) (a.canon fl) a.cost (fun y => swsLen y = 0) := by
  unfold Addr.encode
  rw [if_pos hb]
  unfold parseNameAddr
  have hcanon : a.canon fl = ⟨true, a.display, a.uri.canon⟩ := by unfold Addr.canon; rw [hb]
  have hrest : ∀ dn, Parses fl (do let t ← parseAddrScheme; let u ← parseUriAfterScheme net true t; P.ofBool parseRightAngleQuote; pure (⟨true, dn, u⟩ : Addr))
      (a.uri.encode net fl ++ [0x3e]) ⟨true, dn, a.uri.canon⟩ a.uri.cost (fun y => swsLen y = 0) := by
    intro dn
    rw [addrUri_encode_eq net fl a.uri h.uri, List.append_assoc]
    refine Parses.bind' (scheme_text a.uri) (n2 := a.uri.cost) ?_ (fun _ _ => trivial) rfl (by omega)
    refine Parses.bind' (uriAfterScheme_text net hnet fl a.uri h.uri) (n2 := 0) ?_ (fun y _ => addrUri_end_raquot a.uri y) rfl rfl
    exact Parses.bind' Parses.raquot (Parses.pure _) (fun y hy => hy) rfl rfl
  cases hd : a.display with
  | none =>
    rw [addr_display_none hd]
    refine Parses.bind' Parses.sws0 (t2 := 0x3c :: (a.uri.encode net fl ++ [0x3e])) (n2 := a.cost) ?_ (fun y _ => noWs_of rfl (by decide)) rfl (by omega)
    refine Parses.bind' (t1 := [0x3c]) laquot_text (n2 := a.uri.cost) ?_ (fun _ _ => trivial) rfl (by unfold Addr.cost; rw [hd])
    rw [hcanon, hd]
    exact hrest none
  | some d =>
    have ht := addr_display_text net fl a h d hd
    refine Parses.bind' Parses.sws0 (t2 := a.encodeDisplay ++ 0x3c :: (a.uri.encode net fl ++ [0x3e])) (n2 := a.cost) ?_ ?_ (by simp) (by omega)
    · refine Parses.bind' (t1 := a.encodeDisplay ++ [0x3c]) (displayLaquot_text d _ ht) (t2 := a.uri.encode net fl ++ [0x3e]) (n2 := a.uri.cost) ?_ (fun _ _ => trivial) (by simp) (by unfold Addr.cost; rw [hd])
      rw [hcanon, hd]
      exact hrest (some d)
    · intro y _
      rw [List.append_assoc]; exact displayText_noWs ht _

/-! ## The attempt to read a scheme where there is a display name -/

/-- memory the attempt costs: the run of scheme characters, if there is a letter -/
def schemeCost (x : Bytes) : Nat := if (x.head?.map isAlpha) = some true then (x.takeWhile csUriScheme.mem).length + 2 else 0

theorem scheme_token (b : UInt8) (h : csUriScheme.mem b = true) : csSipToken.mem b = true ∧ b ≠ 0x3a ∧ b ≠ 0x0d := by revert b; decide +kernel
theorem alpha_scheme (b : UInt8) (h : isAlpha b = true) : csUriScheme.mem b = true := by revert b; decide +kernel

theorem scheme_or (b : UInt8) (h : csUriScheme.mem b = false) : (b ||| 0x20 ≠ 0x73 ∧ b ||| 0x20 ≠ 0x74 ∧ b ||| 0x20 ≠ 0x75) ∧
    (b ||| 0x20 ≠ 0x69 ∧ b ||| 0x20 ≠ 0x65 ∧ b ||| 0x20 ≠ 0x72) ∧ (b ||| 0x20 ≠ 0x70 ∧ b ||| 0x20 ≠ 0x6c ∧ b ||| 0x20 ≠ 0x6e) ∧ b ||| 0x20 ≠ 0x73 := by revert b; decide +kernel
theorem lws_scheme (b : UInt8) (h : isLwsChar b = true) : csUriScheme.mem b = false := by revert b; decide +kernel

/-- `ParseScheme` for any other scheme, completely -/
theorem otherScheme_fails (c : Ctx) (hp : c.pos ≤ c.src.length) (x y : Bytes) (hr : c.rest = x ++ y) (hx : InSet csUriScheme x) (hy : NotIn csUriScheme y)
    (hcol : y.head? ≠ some 0x3a) (hm : c.used + schemeCost c.rest < c.cap) : ∃ k, parseOtherScheme c = .ok (none, c.eat k (schemeCost c.rest)) := by
  unfold parseOtherScheme
  rw [P.peek_bind, cur_eq_head]
  unfold schemeCost at hm ⊢
  cases hh : c.rest.head? with
  | none => exact ⟨0, rfl⟩
  | some b =>
    simp only [Option.map_some, Option.some.injEq]
    rw [hh] at hm; simp only [Option.map_some, Option.some.injEq] at hm
    cases hb : isAlpha b with
    | false => simp only [Bool.false_eq_true, if_false]; exact ⟨0, rfl⟩
    | true =>
      rw [hb] at hm
      simp only [if_true] at hm ⊢
      have htw : c.rest.takeWhile csUriScheme.mem = x := by
        rw [hr]
        clear hr hh hm
        induction x with
        | nil =>
          cases y with
          | nil => rfl
          | cons a r => simp [hy a rfl]
        | cons a x ih =>
          have := ih (fun b hb => hx b (by simp [hb]))
          simp [hx a (by simp), this]
      rw [htw] at hm ⊢
      have hne : x ≠ [] := by
        rintro rfl
        rw [List.nil_append] at hr
        rw [hr] at hh
        have := hy b (by simpa using hh)
        rw [alpha_scheme b hb] at this; cases this
      have hs := Parses.str (fl := c.flags) csUriScheme x hne hx c y rfl hr hy hp hm
      rw [P.bind_ok hs, P.peek_bind, cur_eq_head, Ctx.rest_eat c x y _ hr, if_neg hcol]
      exact ⟨x.length, rfl⟩

theorem addrScheme_other (c : Ctx) (x y : Bytes) (hr : c.rest = x ++ y) (hx : InSet csUriScheme x) (hy : NotIn csUriScheme y)
    (hcol : y.head? ≠ some 0x3a) (hne : y ≠ []) : parseAddrScheme c = parseOtherScheme c := by
  have hnc : ∀ z ∈ x, z ≠ 0x3a := fun z hz => (scheme_token z (hx z hz)).2.1
  unfold parseAddrScheme
  rw [hr]
  obtain ⟨y0, y', rfl⟩ := List.exists_cons_of_ne_nil hne
  have hy0 := hy y0 rfl
  simp only [List.head?_cons, ne_eq, Option.some.injEq] at hcol
  match x, hx, hnc with
  | [], hx, hnc =>
    have : y0 ||| 0x20 ≠ 0x73 ∧ y0 ||| 0x20 ≠ 0x74 ∧ y0 ||| 0x20 ≠ 0x75 := by
      exact (scheme_or y0 hy0).1
    rw [List.nil_append]
    split
    · rename_i a b d e r heq
      cases heq
      rw [if_neg this.1, if_neg this.2.1, if_neg this.2.2]
    · rfl
  | [a], hx, hnc =>
    have : y0 ||| 0x20 ≠ 0x69 ∧ y0 ||| 0x20 ≠ 0x65 ∧ y0 ||| 0x20 ≠ 0x72 := by
      exact (scheme_or y0 hy0).2.1
    show (match a :: y0 :: y' with | a :: b :: d :: e :: r => _ | _ => _) = _
    split
    · rename_i a b d e r heq
      cases heq
      simp [this]
    · rfl
  | [a, b], hx, hnc =>
    have : y0 ||| 0x20 ≠ 0x70 ∧ y0 ||| 0x20 ≠ 0x6c ∧ y0 ||| 0x20 ≠ 0x6e := by
      exact (scheme_or y0 hy0).2.2.1
    show (match a :: b :: y0 :: y' with | a :: b :: d :: e :: r => _ | _ => _) = _
    split
    · rename_i a b d e r heq
      cases heq
      simp [this]
    · rfl
  | [a, b, d], hx, hnc =>
    have : y0 ||| 0x20 ≠ 0x73 := by
      exact (scheme_or y0 hy0).2.2.2
    simp only [List.cons_append, List.nil_append, if_neg this, hcol, and_false, if_false, ite_self]
  | [a, b, d, e], hx, hnc =>
    have he := hnc e (by simp)
    simp only [List.cons_append, List.nil_append, he, hcol, and_false, if_false, ite_self]
  | a :: b :: d :: e :: f :: x, hx, hnc =>
    have he := hnc e (by simp)
    have hf := hnc f (by simp)
    simp only [List.cons_append, he, hf, and_false, if_false, ite_self]

/-- a display name of tokens is not taken for a scheme -/
theorem tokens_scheme {x : Bytes} (h : TokensText x) (hne : x ≠ []) (y : Bytes) : ∃ u v, x ++ 0x3c :: y = u ++ v ∧ InSet csUriScheme u ∧ NotIn csUriScheme v ∧ v.head? ≠ some 0x3a ∧ v ≠ [] ∧
    u.length ≤ x.length := by
  cases h with
  | nil => exact absurd rfl hne
  | cons tok w r htne htok hw hlast hr =>
    have hsplit := List.takeWhile_append_dropWhile (p := csUriScheme.mem) (l := tok)
    refine ⟨tok.takeWhile csUriScheme.mem, tok.dropWhile csUriScheme.mem ++ (w ++ (r ++ 0x3c :: y)), ?_, inSet_takeWhile _ _, ?_, ?_, by simp, ?_⟩
    · rw [← List.append_assoc (List.takeWhile _ _), hsplit]; simp
    · intro b hb
      cases hd : tok.dropWhile csUriScheme.mem with
      | cons a l =>
        rw [hd] at hb; simp at hb; subst hb
        have := List.head?_dropWhile_not csUriScheme.mem tok
        rw [hd] at this; simpa using this
      | nil =>
        rw [hd, List.nil_append] at hb
        cases w with
        | nil =>
          rw [hlast rfl] at hb
          simp at hb; subst hb; decide +kernel
        | cons d w =>
          simp at hb; subst hb
          exact lws_scheme d (isSWS_head hw d rfl)
    · intro hb
      cases hd : tok.dropWhile csUriScheme.mem with
      | cons a l =>
        rw [hd] at hb; simp at hb; subst hb
        have : (0x3a : UInt8) ∈ tok := by rw [← hsplit, hd]; simp
        exact absurd (htok _ this) (by decide +kernel)
      | nil =>
        rw [hd, List.nil_append] at hb
        cases w with
        | nil =>
          rw [hlast rfl] at hb
          simp at hb
        | cons d w =>
          simp at hb; subst hb
          exact absurd (isSWS_head hw _ rfl) (by decide)
    · have := congrArg List.length hsplit
      simp only [List.length_append] at this ⊢; omega

theorem schemeCost_append (x y : Bytes) (h : TokensText x) (hne : x ≠ []) : schemeCost (x ++ 0x3c :: y) = schemeCost x := by
  unfold schemeCost
  obtain ⟨a, r, rfl⟩ := List.exists_cons_of_ne_nil hne
  simp only [List.cons_append, List.head?_cons]
  have : ∀ l : Bytes, (l ++ 0x3c :: y).takeWhile csUriScheme.mem = l.takeWhile csUriScheme.mem := by
    intro l
    induction l with
    | nil => simp only [List.nil_append, List.takeWhile_nil]; rw [List.takeWhile_cons, if_neg (by decide +kernel)]
    | cons a l ih => simp only [List.cons_append, List.takeWhile_cons, ih]
  rw [← List.cons_append, this]; rfl

/-- what the attempt costs for an address -/
def Addr.tryCost (a : Addr) : Nat := match a.display with | some (false, d) => schemeCost d | _ => 0

/-- **C20** an address in brackets, with any display name, survives encode and parse also where the brackets are optional -/
theorem addr_roundtrip (net : Net) (hnet : net.Ok) (params : Bool) (fl : Flags) (a : Addr) (h : a.WF net fl) (hb : (a.nameAddr || fl.encodeUriAsNameSpace) = true) :
    Parses fl (parseAddr net params) (a.encode net fl) (a.canon fl) (a.tryCost + a.cost) (fun y => swsLen y = 0) := by
  have hn := nameAddr_roundtrip net hnet fl a h hb
  have henc : a.encode net fl = a.encodeDisplay ++ 0x3c :: (a.uri.encode net fl ++ [0x3e]) := by unfold Addr.encode; rw [if_pos hb]; simp
  unfold parseAddr
  have hq : ∀ (b : UInt8) (r : Bytes), a.encode net fl = b :: r → (b = 0x3c || b = 0x22) = true → a.tryCost = 0 →
      Parses fl (P.peek >>= fun x => match x with
        | none => P.err
        | some b => if b = 0x3c || b = 0x22 then parseNameAddr net else do
          let t ← P.orElse (do let t ← parseAddrScheme; pure (some t)) (pure none)
          parseAddrSpecOrName net params t) (a.encode net fl) (a.canon fl) (a.tryCost + a.cost) (fun y => swsLen y = 0) := by
    intro b r e hbb hz
    rw [e, hz, Nat.zero_add]
    refine Parses.peek ?_
    simp only
    rw [if_pos hbb, ← e]
    exact hn
  cases hd : a.display with
  | none => exact hq 0x3c (a.uri.encode net fl ++ [0x3e]) (by rw [henc, addr_display_none hd]; rfl) (by decide) (by unfold Addr.tryCost; rw [hd])
  | some d =>
    obtain ⟨b, d⟩ := d
    have ht := addr_display_text net fl a h (b, d) hd
    cases b with
    | true => exact hq 0x22 (d ++ [0x22] ++ 0x3c :: (a.uri.encode net fl ++ [0x3e])) (by rw [henc]; unfold Addr.encodeDisplay; rw [hd]; simp) (by decide) (by unfold Addr.tryCost; rw [hd])
    | false =>
      have hdis : a.encodeDisplay = d := by unfold Addr.encodeDisplay; rw [hd]
      obtain ⟨hne, htok⟩ : d ≠ [] ∧ TokensText d := by
        have := (h.display _ hd).2
        simpa using this
      intro c y h1 h2 h3 h4 h5
      rw [P.peek_bind, cur_eq_head]
      obtain ⟨u, v, e1, e2, e3, e4, e5, _⟩ := tokens_scheme htok hne (a.uri.encode net fl ++ [0x3e] ++ y)
      have hr : c.rest = d ++ 0x3c :: (a.uri.encode net fl ++ [0x3e] ++ y) := by rw [h2, henc, hdis]; simp
      have htc : a.tryCost = schemeCost c.rest := by unfold Addr.tryCost; rw [hd, hr, schemeCost_append _ _ htok hne]
      rw [htc] at h5
      obtain ⟨k, hf⟩ := otherScheme_fails c h4 u v (hr.trans e1) e2 e3 e4 (by omega)
      have hs := (addrScheme_other c u v (hr.trans e1) e2 e3 e4 e5).trans hf
      obtain ⟨b0, d0, hd0⟩ := List.exists_cons_of_ne_nil hne
      have hb0 : b0 ≠ 0x3c ∧ b0 ≠ 0x22 := by
        have := htok.head b0 (by rw [hd0]; rfl)
        constructor <;> (rintro rfl; revert this; decide +kernel)
      have hh : c.rest.head? = some b0 := by rw [hr, hd0]; rfl
      rw [hh]
      simp only
      rw [if_neg (by simp [hb0])]
      have e : P.orElse (do let t ← parseAddrScheme; pure (some t)) (pure none) c = .ok (some none, (c.eat k (schemeCost c.rest)).setPos c.pos) := by
        unfold P.orElse
        rw [P.bind_none hs]; rfl
      rw [P.bind_ok e]
      have := hn ((c.eat k (schemeCost c.rest)).setPos c.pos) y h1 h2 h3 h4 (by simp [Ctx.setPos]; omega)
      have e9 : parseAddrSpecOrName net params none = parseNameAddr net := rfl
      rw [e9, this, htc]
      simp only [Ctx.eat, Ctx.setPos, Out.ok.injEq, Prod.mk.injEq, Ctx.mk.injEq, true_and, and_true]; omega

/-! ## The form without brackets -/

theorem Parses.orElse {α : Type} {fl : Flags} {F : Bytes → Prop} {p q : P α} {t : Bytes} {v : α} {n : Nat} (h : Parses fl p t v n F) : Parses fl (P.orElse p q) t v n F := by
  intro c y h1 h2 h3 h4 h5
  unfold P.orElse
  rw [h c y h1 h2 h3 h4 h5]

/-- **C20** an addr-spec survives encode and parse -/
theorem addrSpec_roundtrip (net : Net) (hnet : net.Ok) (fl : Flags) (u : AddrUri) (h : u.WF net fl) :
    Parses fl (parseAddrSpec net) (u.encode net fl) ⟨false, none, u.canon⟩ u.cost u.End := by
  rw [addrUri_encode_eq net fl u h]
  unfold parseAddrSpec
  refine Parses.bind' (scheme_text u) (n2 := u.cost) ?_ (fun _ _ => trivial) rfl (by omega)
  exact Parses.bind' (uriAfterScheme_text net hnet fl u h) (Parses.pure _) (fun y hy => hy) (List.append_nil _).symm rfl

theorem scheme_head (u : AddrUri) (r : Bytes) : ∃ b z, u.scheme ++ r = b :: z ∧ (b = 0x3c || b = 0x22) = false := by
  cases u with
  | sip u =>
    simp only [AddrUri.scheme]
    cases u.secure with
    | true => simp only [if_true]; exact ⟨0x73, _, rfl, by decide⟩
    | false => simp only [Bool.false_eq_true, if_false]; exact ⟨0x73, _, rfl, by decide⟩
  | tel u => exact ⟨0x74, _, rfl, by decide⟩

/-- parsing an address whose text starts with a scheme -/
theorem bareAddr_text (net : Net) (params : Bool) (fl : Flags) (u v : AddrUri) (r : Bytes) (n : Nat) (F : Bytes → Prop)
    (h : Parses fl (parseUriAfterScheme net params u.type) r v n F) : Parses fl (parseAddr net params) (u.scheme ++ r) ⟨false, none, v⟩ n F := by
  unfold parseAddr
  obtain ⟨b, z, e, hb⟩ := scheme_head u r
  rw [e]
  refine Parses.peek ?_
  simp only
  rw [hb, if_neg (by simp), ← e]
  have hs : Parses fl (do let t ← parseAddrScheme; pure (some t)) u.scheme (some u.type) 0 AnyText :=
    Parses.bind' (scheme_text u) (Parses.pure _) (fun y hy => trivial) (List.append_nil _).symm rfl
  refine Parses.bind' (Parses.orElse hs) (n2 := n) ?_ (fun _ _ => trivial) rfl (by omega)
  exact Parses.bind' h (Parses.pure _) (fun y hy => hy) (List.append_nil _).symm rfl

/-- no parameters and no headers: all that can be written without brackets where parameters belong to the header -/
def AddrUri.Plain : AddrUri → Prop
  | .sip u => u.known = [] ∧ u.params = [] ∧ u.headers = []
  | .tel u => u.known = [] ∧ u.params = [] ∧ u.context = none
/-- what may follow such a URI: nothing that continues host, port or number; and no `@` behind a URI without user -/
def AddrUri.PlainEnd : AddrUri → Bytes → Prop
  | .sip u, y => NotIn csHostname y ∧ y.head? ≠ some 0x3a ∧ (u.user = none → findUserinfo y = false)
  | .tel _, y => NotIn csTelPhoneDigit y ∧ NotIn csTelPhoneDigitHex y

theorem plainAfterScheme_text (net : Net) (hnet : net.Ok) (fl : Flags) (u : AddrUri) (h : u.WF net fl) (hpl : u.Plain) :
    Parses fl (parseUriAfterScheme net false u.type) (u.encodeRest net fl) u u.cost u.PlainEnd := by
  cases u with
  | sip u =>
    obtain ⟨h1, h2, h3⟩ := hpl
    have hall : u.allParams = [] := by unfold SipUri.allParams knownList; simp [h1, h2]
    have htail : u.encodeTail fl = [] := by
      unfold SipUri.encodeTail; rw [hall, h3]; simp [encodeUriParams]
    have hcost : u.cost = optCost u.user + optCost u.password + u.hostport.host.cost := by
      unfold SipUri.cost; rw [hall, h1, h3]; simp [uriParamsCost, uriHeadersCost, knownCost]
    have hu : u = ⟨u.secure, u.user, u.password, u.hostport, [], [], []⟩ := by
      conv => lhs; rw [show u = ⟨u.secure, u.user, u.password, u.hostport, u.params, u.headers, u.known⟩ from rfl, h1, h2, h3]
    have key : Parses fl (do P.orErr (P.alloc 18); let v ← SipUri.parseAfterSchemeWithoutParam net u.secure; pure (AddrUri.sip v)) (AddrUri.encodeRest net fl (.sip u))
        (AddrUri.sip u) (18 + u.cost) (AddrUri.PlainEnd (.sip u)) := by
      refine Parses.bind' (F := AnyText) (t1 := []) (Parses.orErr (Parses.alloc 18)) ?_ (fun _ _ => trivial) rfl rfl
      refine Parses.bind' (F := AddrUri.PlainEnd (.sip u)) (v1 := u) (n1 := u.cost) (t1 := AddrUri.encodeRest net fl (.sip u)) ?_ (Parses.pure _) (fun y hy => hy) (List.append_nil _).symm rfl
      show Parses fl _ (u.encodeUser fl ++ (u.hostport.encode net ++ u.encodeTail fl)) _ _ _
      rw [htail, List.append_nil, hcost]
      unfold SipUri.parseAfterSchemeWithoutParam
      refine Parses.bind' (userinfo_roundtrip net fl u h) (n2 := u.hostport.host.cost) ?_ ?_ rfl rfl
      · refine Parses.bind' (Parses.orErr (hostport_roundtrip net hnet fl u.hostport h.hostport)) (t2 := []) (n2 := 0) ?_ (fun y (hy : AddrUri.PlainEnd (.sip u) y) => ⟨hy.1, hy.2.1⟩) (List.append_nil _).symm rfl
        conv => arg 4; rw [hu]
        exact Parses.pure _
      · intro y hy hn
        rw [findUserinfo_append _ _ (plain_hostport net hnet u.hostport h.hostport)]
        exact hy.2.2 hn
    have ht : AddrUri.type (.sip u) = if u.secure then .sips else .sip := rfl
    rw [ht]
    cases hs : u.secure with
    | true => rw [hs] at key; exact key
    | false => rw [hs] at key; exact key
  | tel u =>
    obtain ⟨h1, h2, h3⟩ := hpl
    have hall : u.allParams = [] := by unfold TelUri.allParams TelUri.ctxParams knownList; simp [h1, h2, h3]
    have hcost : u.cost = u.number.length + 2 := by unfold TelUri.cost; rw [hall, h1]; simp [uriParamsCost, knownCost]
    have hu : u = ⟨u.isGlobal, false, u.number, none, [], []⟩ := by
      have := h.noContext h3
      conv => lhs; rw [show u = ⟨u.isGlobal, u.contextIsDomain, u.number, u.context, u.params, u.known⟩ from rfl, h1, h2, h3, this]
    show Parses fl (do P.orErr (P.alloc 10); let v ← TelUri.parseAfterSchemeWithoutParam; pure (AddrUri.tel v)) (u.number ++ encodeUriParams fl telUriParamCS u.allParams) _ (10 + u.cost) _
    rw [hall, hcost]
    refine Parses.bind' (F := AnyText) (t1 := []) (Parses.orErr (Parses.alloc 10)) ?_ (fun _ _ => trivial) rfl rfl
    refine Parses.bind' (F := AddrUri.PlainEnd (.tel u)) (v1 := u) (t1 := u.number) ?_ (Parses.pure _) (fun y hy => hy) (by simp [encodeUriParams]) rfl
    unfold TelUri.parseAfterSchemeWithoutParam
    refine Parses.bind' (telNumber_roundtrip fl u h) (t2 := []) (n2 := 0) ?_ (fun y hy => hy) (List.append_nil _).symm rfl
    conv => arg 4; rw [hu]
    exact Parses.pure _

/-- **C20** an address written without brackets (`ParseContext.EncodeUriAsNameSpace` off) whose URI has no parameters of its own survives encode and
parse in front of header parameters -/
theorem bareAddr_roundtrip (net : Net) (hnet : net.Ok) (fl : Flags) (a : Addr) (h : a.WF net fl) (hb : (a.nameAddr || fl.encodeUriAsNameSpace) = false) (hpl : a.uri.Plain) :
    Parses fl (parseAddr net false) (a.encode net fl) a a.uri.cost a.uri.PlainEnd := by
  unfold Addr.encode
  rw [hb, if_neg (by simp), addrUri_encode_eq net fl a.uri h.uri]
  have hd : a.display = none := by
    cases hd : a.display with
    | none => rfl
    | some d => have := (h.display d hd).1; rw [hb] at this; cases this
  have hn : a.nameAddr = false := by cases hn : a.nameAddr <;> simp_all
  have ha : a = ⟨false, none, a.uri⟩ := by rw [← hd, ← hn]
  conv => arg 4; rw [ha]
  exact bareAddr_text net false fl a.uri a.uri _ _ _ (plainAfterScheme_text net hnet fl a.uri h.uri hpl)

/-- **C20, negation**: in the form without brackets an `@` in a parameter of the header is taken for the end of the user part: in
`To: sip:h;x=a@b` the user is `h;x=a` and the host `b` -/
theorem bare_at_in_params : ∃ c', parseAddr Net.sample false { src := str "sip:h;x=a@b", cap := 200 } = .ok (some ⟨false, none, .sip { user := some (str "h;x=a"), hostport := ⟨Host.name (str "b"), none⟩ }⟩, c') :=
  resultOf_ok (by decide +kernel)

/-- **C20, negation**: `EncodeAddrSpec` writes nothing for a telephone URI -/
theorem encodeAddrSpec_drops_tel (net : Net) (fl : Flags) (a : Addr) (u : TelUri) (h : a.uri = .tel u) : a.encodeAddrSpec net fl = [] := by
  unfold Addr.encodeAddrSpec; rw [h]

end Sip
