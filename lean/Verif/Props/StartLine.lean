import Verif.Props.AddrSafe
import Verif.Props.Method
import Verif.Model.StartLine
import Verif.Lemmas.GSafe
/-!
# C24: request line and status line

Specification predicate: `StartLine.WF`, the start lines `Encode` can write.
-/
namespace Sip

/-- `ParseStart` recognises the text `SIP/` in any letter case with at least three more bytes behind it; otherwise it fails without moving or
reporting anything. -/
def StartsSip (s : Bytes) : Prop := ∃ x y : Bytes, s = x ++ y ∧ x.map asciiLower = str "sip/" ∧ 3 ≤ y.length

theorem map4 {f : UInt8 → UInt8} {x : Bytes} {a b d e : UInt8} (h : x.map f = [a, b, d, e]) :
    ∃ x1 x2 x3 x4, x = [x1, x2, x3, x4] ∧ f x1 = a ∧ f x2 = b ∧ f x3 = d ∧ f x4 = e := by
  have := congrArg List.length h
  match x, this with
  | [x1, x2, x3, x4], _ => exact ⟨x1, x2, x3, x4, rfl, by simpa using h⟩

theorem sip_letters (a b d e : UInt8) : ¬ (a ||| 0x20 ≠ 0x73 ∨ b ||| 0x20 ≠ 0x69 ∨ d ||| 0x20 ≠ 0x70 ∨ e ≠ 0x2f) ↔
    asciiLower a = 0x73 ∧ asciiLower b = 0x69 ∧ asciiLower d = 0x70 ∧ asciiLower e = 0x2f := by
  have h1 : ∀ a : UInt8, a ||| 0x20 = 0x73 ↔ asciiLower a = 0x73 := by decide +kernel
  have h2 : ∀ a : UInt8, a ||| 0x20 = 0x69 ↔ asciiLower a = 0x69 := by decide +kernel
  have h3 : ∀ a : UInt8, a ||| 0x20 = 0x70 ↔ asciiLower a = 0x70 := by decide +kernel
  have h4 : ∀ a : UInt8, a = 0x2f ↔ asciiLower a = 0x2f := by decide +kernel
  simp only [ne_eq, not_or, Decidable.not_not, h1, h2, h3]
  rw [← h4 e]

theorem parseStart_spec (c : Ctx) (hp : c.pos ≤ c.src.length) :
    (StartsSip c.rest → Version.parseStart c = .ok (some (), c.adv 4)) ∧ (¬ StartsSip c.rest → Version.parseStart c = .ok (none, c)) := by
  have hl := rest_length c hp
  by_cases h1 : c.pos + 6 ≥ c.src.length
  · have hs : ¬ StartsSip c.rest := by
      rintro ⟨x, y, e, hx, hy⟩
      have e1 := congrArg List.length hx
      have e2 := congrArg List.length e
      have e3 : (str "sip/").length = 4 := by decide
      simp only [List.length_map, List.length_append] at e1 e2; omega
    exact ⟨fun h => absurd h hs, fun _ => by unfold Version.parseStart; rw [if_pos h1]⟩
  · match hr : c.rest with
    | a :: b :: d :: e :: y =>
      rw [hr] at hl; simp only [List.length_cons] at hl
      have e0 := parseStart_eq c a b d e y hr (by omega)
      have e4 : str "sip/" = [0x73, 0x69, 0x70, 0x2f] := by decide
      have hiff : StartsSip (a :: b :: d :: e :: y) ↔ ¬ (a ||| 0x20 ≠ 0x73 ∨ b ||| 0x20 ≠ 0x69 ∨ d ||| 0x20 ≠ 0x70 ∨ e ≠ 0x2f) := by
        rw [sip_letters]
        constructor
        · rintro ⟨x, z, hx, hm, _⟩
          rw [e4] at hm
          obtain ⟨x1, x2, x3, x4, rfl, hm'⟩ := map4 hm
          simp only [List.cons_append, List.nil_append, List.cons.injEq] at hx
          obtain ⟨rfl, rfl, rfl, rfl, _⟩ := hx
          exact hm'
        · rintro ⟨h1, h2, h3, h4⟩
          exact ⟨[a, b, d, e], y, rfl, by rw [e4]; simp [h1, h2, h3, h4], by omega⟩
      rw [hiff]
      refine ⟨fun h => ?_, fun h => ?_⟩
      · rw [e0, if_neg h]
      · rw [e0, if_pos (by exact Decidable.not_not.1 h)]
    | [] => rw [hr] at hl; simp at hl; omega
    | [_] => rw [hr] at hl; simp at hl; omega
    | [_, _] => rw [hr] at hl; simp at hl; omega
    | [_, _, _] => rw [hr] at hl; simp at hl; omega

/-- **C24** a start line is read as a status line exactly if it starts with `SIP/` (in any letter case, with at least three bytes behind it) -/
theorem startLine_kind (net : Net) (c : Ctx) (hp : c.pos ≤ c.src.length) :
    (StartsSip c.rest → StartLine.parse net c = StartLine.parseStatus (c.adv 4)) ∧ (¬ StartsSip c.rest → StartLine.parse net c = StartLine.parseRequest net c) := by
  obtain ⟨h1, h2⟩ := parseStart_spec c hp
  unfold StartLine.parse
  refine ⟨fun h => ?_, fun h => ?_⟩
  · have e : P.orElse (do Version.parseStart; pure true) (pure false) c = .ok (some true, c.adv 4) := by
      unfold P.orElse; rw [P.bind_ok (h1 h)]; rfl
    rw [P.bind_ok e, if_pos rfl]
  · have e : P.orElse (do Version.parseStart; pure true) (pure false) c = .ok (some false, c) := by
      unfold P.orElse; rw [P.bind_none (h2 h)]; rfl
    rw [P.bind_ok e, if_neg (by decide)]

theorem not_startsSip {t y : Bytes} (ht : InSet csSipToken t) (hy : y.head? = some 0x20) : ¬ StartsSip (t ++ y) := by
  rintro ⟨x, z, hx, hm, _⟩
  have e4 : str "sip/" = [0x73, 0x69, 0x70, 0x2f] := by decide
  rw [e4] at hm
  have hsp : ∀ b : UInt8, (asciiLower b = 0x73 ∨ asciiLower b = 0x69 ∨ asciiLower b = 0x70 ∨ asciiLower b = 0x2f) → b ≠ 0x20 := by decide +kernel
  have hsl : ∀ b : UInt8, asciiLower b = 0x2f → csSipToken.mem b = false := by decide +kernel
  obtain ⟨x1, x2, x3, x4, rfl, m1, m2, m3, m4⟩ := map4 hm
  match t, ht with
  | [], _ => rw [List.nil_append] at hx; rw [hx] at hy; simp at hy; exact hsp x1 (by simp [m1]) hy
  | [_], _ =>
    cases y with
    | nil => simp at hy
    | cons w y => simp at hx hy; exact hsp x2 (by simp [m2]) (by rw [← hx.2.1, hy])
  | [_, _], _ =>
    cases y with
    | nil => simp at hy
    | cons w y => simp at hx hy; exact hsp x3 (by simp [m3]) (by rw [← hx.2.2.1, hy])
  | [_, _, _], _ =>
    cases y with
    | nil => simp at hy
    | cons w y => simp at hx hy; exact hsp x4 (by simp [m4]) (by rw [← hx.2.2.2.1, hy])
  | _ :: _ :: _ :: t4 :: t, ht =>
    simp at hx
    have := ht t4 (by simp)
    rw [hx.2.2.2.1, hsl x4 m4] at this; cases this

/-- the start lines that `Encode` can write so that they can be read back: a request needs a SIP or SIPS URI (a telephone URI is not written), a
status code fits its 16 bits, and without escaping the reason phrase has only characters of a reason phrase -/
def StartLine.WF (net : Net) (fl : Flags) : StartLine → Prop
  | .request m a v => m.WF ∧ (∃ u, a = ⟨false, none, .sip u⟩ ∧ u.WF net fl) ∧ v.WF
  | .status v n r => v.WF ∧ n < 65536 ∧ (fl.encodeReasonPhraseNoEscape = true → InSet csSipReasonPhrase r)

/-- what is read back: the names of the known URI parameters as in the table -/
def StartLine.canon : StartLine → StartLine
  | .request m a v => .request m { a with uri := a.uri.canon } v
  | s => s

/-- arena bytes used -/
def StartLine.cost : StartLine → Nat
  | .request m a v => m.cost + a.uri.cost + v.cost
  | .status v _ r => v.cost + (r.length + 2)

theorem Parses.sp {fl : Flags} : Parses fl P.sp [0x20] () 0 AnyText := by
  unfold P.sp
  refine Parses.peek ?_
  show Parses fl (if (0x20 : UInt8) ≠ 0x20 then P.err else P.skip 1) _ _ _ _
  rw [if_neg (by decide)]
  exact Parses.skip [0x20]

theorem escape_set {s : CS} {b : Bytes} (h : InSet s b) : escapeStr s b = b := by
  induction b with
  | nil => rfl
  | cons a b ih =>
    have h1 := h a (by simp)
    have h2 := ih (fun x hx => h x (by simp [hx]))
    unfold escapeStr at *
    rw [List.flatMap_cons, h2]
    simp [escapeByte, h1]

theorem crlf_ends (s : CS) (h : s.mem 0x0d = false) (y : Bytes) : NotIn s ([0x0d, 0x0a] ++ y) := by
  intro b hb; simp at hb; subst hb; exact h

/-- **C24** every start line survives encode and parse, whatever stands behind it -/
theorem startLine_roundtrip (net : Net) (hnet : net.Ok) (fl : Flags) (s : StartLine) (h : s.WF net fl) :
    ∃ t, s.encode net fl = .ok t ∧ Parses fl (StartLine.parse net) t s.canon s.cost AnyText := by
  cases s with
  | request m a v =>
    obtain ⟨hm, ⟨u, rfl, hu⟩, hv⟩ := h
    refine ⟨m.text ++ ([0x20] ++ (u.encode net fl ++ ([0x20] ++ (v.encode ++ [0x0d, 0x0a])))), ?_, ?_⟩
    · unfold StartLine.encode StartLine.encodeLine
      simp only [method_encode m hm, Out.ok_bind, Addr.encodeAddrSpec]
      simp
    · have hreq : Parses fl (StartLine.parseRequest net) (m.text ++ ([0x20] ++ (u.encode net fl ++ ([0x20] ++ (v.encode ++ [0x0d, 0x0a])))))
          (StartLine.canon (.request m ⟨false, none, .sip u⟩ v)) (StartLine.cost (.request m ⟨false, none, .sip u⟩ v)) AnyText := by
        unfold StartLine.parseRequest
        refine Parses.bind' (Parses.orErr (method_roundtrip fl m hm)) (n2 := (18 + u.cost) + v.cost) ?_ (fun y _ => ⟨?_, fun e => by simp at e⟩) rfl
          (by simp only [StartLine.cost, AddrUri.cost]; omega)
        · refine Parses.bind' Parses.sp (n2 := (18 + u.cost) + v.cost) ?_ (fun y _ => trivial) rfl (by omega)
          refine Parses.bind' (Parses.orErr (addrSpec_roundtrip net hnet fl (.sip u) hu)) (n2 := v.cost) ?_ (fun y _ => ?_) rfl rfl
          · refine Parses.bind' Parses.sp (n2 := v.cost) ?_ (fun y _ => trivial) rfl (by omega)
            refine Parses.bind' (Parses.orErr (version_roundtrip fl v hv)) (n2 := 0) ?_ (fun y _ => crlf_ends csDigit (by decide +kernel) y) rfl rfl
            exact Parses.bind' (F := AnyText) (Parses.orErr Parses.crlf) (Parses.pure _) (fun y _ => trivial) (List.append_nil _).symm rfl
          · exact uriEnd_of u _ (fun b hb => by simp at hb; subst hb; exact Or.inr (by decide +kernel)) (fun e => by simp at e)
        · intro b hb; simp at hb; subst hb; decide +kernel
      intro c y h1 h2 h3 h4 h5
      have hns : ¬ StartsSip c.rest := by
        rw [h2, List.append_assoc]
        exact not_startsSip (method_text m hm).2 rfl
      rw [(startLine_kind net c h4).2 hns]
      exact hreq c y h1 h2 h3 h4 h5
  | status v n r =>
    obtain ⟨hv, hn, hr⟩ := h
    have hre : (if fl.encodeReasonPhraseNoEscape then r else escapeStr csSipReasonPhrase r) = escapeStr csSipReasonPhrase r := by
      split
      · rename_i h; exact (escape_set (hr h)).symm
      · rfl
    refine ⟨v.encode ++ ([0x20] ++ (encodeUInt n ++ ([0x20] ++ (escapeStr csSipReasonPhrase r ++ [0x0d, 0x0a])))), ?_, ?_⟩
    · unfold StartLine.encode StartLine.encodeLine
      simp only [hre, Out.ok_bind]
      simp
    · intro c y h1 h2 h3 h4 h5
      have hs : StartsSip c.rest := by
        refine ⟨str "SIP/", v.encode.drop 4 ++ ([0x20] ++ (encodeUInt n ++ ([0x20] ++ (escapeStr csSipReasonPhrase r ++ [0x0d, 0x0a])))) ++ y, ?_, by decide, ?_⟩
        · rw [h2, version_encode_split v]; simp [str]
        · have := version_encode_len v hv; simp only [List.length_append]; omega
      rw [(startLine_kind net c h4).1 hs]
      have key : Parses fl StartLine.parseStatus (v.encode.drop 4 ++ ([0x20] ++ (encodeUInt n ++ ([0x20] ++ (escapeStr csSipReasonPhrase r ++ [0x0d, 0x0a])))))
          (StartLine.canon (.status v n r)) (StartLine.cost (.status v n r)) AnyText := by
        unfold StartLine.parseStatus
        refine Parses.bind' (Parses.orErr (parses_afterStart fl v hv)) (n2 := r.length + 2) ?_
          (fun y _ => fun b hb => by simp at hb; subst hb; decide +kernel) rfl (by simp only [StartLine.cost])
        refine Parses.bind' Parses.sp (n2 := r.length + 2) ?_ (fun y _ => trivial) rfl (by omega)
        refine Parses.bind' (Parses.uint n (by omega)) (n2 := r.length + 2) ?_
          (fun y _ => fun b hb => by simp at hb; subst hb; decide +kernel) rfl (by omega)
        refine Parses.bind' Parses.sp (n2 := r.length + 2) ?_ (fun y _ => trivial) rfl (by omega)
        refine Parses.bind' (Parses.orErr (Parses.strEscEmpty csSipReasonPhrase (by decide +kernel) r)) (n2 := 0) ?_
          (fun y _ => ⟨crlf_ends csSipReasonPhrase (by decide +kernel) y, by simp⟩) rfl (by omega)
        have : n % 65536 = n := Nat.mod_eq_of_lt hn
        rw [this]
        exact Parses.bind' (F := AnyText) (Parses.orErr Parses.crlf) (Parses.pure _) (fun y _ => trivial) (List.append_nil _).symm rfl
      have h6 : (c.adv 4).rest = (v.encode.drop 4 ++ ([0x20] ++ (encodeUInt n ++ ([0x20] ++ (escapeStr csSipReasonPhrase r ++ [0x0d, 0x0a]))))) ++ y := by
        have : (c.adv 4).rest = c.rest.drop 4 := by simp [Ctx.rest, Ctx.adv]
        rw [this, h2]
        conv => lhs; rw [version_encode_split v]
        rfl
      have hl : 4 ≤ c.rest.length := by
        obtain ⟨x, z, e, hx, _⟩ := hs
        rw [e]
        have := congrArg List.length hx
        have e3 : (str "sip/").length = 4 := by decide
        simp only [List.length_map, List.length_append] at *; omega
      have := rest_length c h4
      rw [key (c.adv 4) y h1 h6 trivial (by simp only [Ctx.adv]; omega) h5]
      have e : v.encode.length = 4 + (v.encode.drop 4).length := by
        conv => lhs; rw [version_encode_split v]
        rw [List.length_append]; rfl
      simp only [Ctx.eat, Ctx.adv, Out.ok.injEq, Prod.mk.injEq, Ctx.mk.injEq, true_and, and_true, List.length_append, e]
      omega

/-! ## Safety -/

theorem safe_sp (c : Ctx) (hc : Inv c) : SafeAt 0 true 0 0 (fun _ => True) P.sp c := by
  unfold P.sp
  refine SafeAt.peek ?_
  cases h : c.cur? with
  | none => exact SafeAt.err hc
  | some b =>
    show SafeAt 0 true 0 0 (fun _ => True) (if b ≠ 0x20 then P.err else P.skip 1) c
    by_cases hb : b ≠ 0x20
    · rw [if_pos hb]; exact SafeAt.err hc
    · rw [if_neg hb]
      have hb : b = 0x20 := by simpa using hb
      subst hb
      obtain ⟨hr, hlt⟩ := rest_eq_cons h
      exact .of_ok (v := ()) (c' := c.adv 1) rfl (Step.adv hc (by omega)) trivial (line_of_noCR [0x20] _ hr rfl (by simp)) (by simp only [Ctx.adv]; omega)

/-- what the parser returns -/
def StartLine.Parsed (net : Net) (fl : Flags) : StartLine → Prop
  | .request m a v => m.WF ∧ a.Parsed net fl true ∧ a.nameAddr = false ∧ v.WF
  | .status v n _ => v.WF ∧ n < 65536

theorem safe_requestHead (net : Net) (hnet : net.Ok) (c : Ctx) (hc : Inv c) :
    SafeAt 2 true 23 76 (fun s => StartLine.Parsed net c.flags (.request s.1 s.2.1 s.2.2))
      (do let m ← P.orErr P.method; P.sp; let a ← P.orErr (parseAddrSpec net); P.sp; let v ← P.orErr Version.parse; pure (m, a, v)) c := by
  refine SafeAt.seq (B2 := 74) (SafeAt.orErr (l := true) (method_safe c hc)) (fun mt c1 e1 hm hc1 => ?_)
  have f1 := ((SafeAt.orErr (l := true) (method_safe c hc)).step _ _ e1).flags
  refine SafeAt.seq (B2 := 74) (safe_sp c1 hc1) (fun _ c2 e2 _ hc2 => ?_)
  have f2 := ((safe_sp c1 hc1).step _ _ e2).flags
  have ha := SafeAt.orErr (l := true) (addrSpec_safe net hnet c2 hc2)
  rw [f2, f1] at ha
  refine SafeAt.seq (B2 := 2) ha (fun a c3 e3 hq hc3 => ?_)
  refine SafeAt.seq (B2 := 2) (safe_sp c3 hc3) (fun _ c4 e4 _ hc4 => ?_)
  refine SafeAt.seq (B2 := 0) (SafeAt.orErr (l := true) (version_safe c4 hc4)) (fun v c5 e5 hv hc5 => ?_)
  exact SafeAt.pure hc5 ⟨hm, hq.1, hq.2, hv⟩

theorem safe_statusHead (net : Net) (fl : Flags) (c : Ctx) (hc : Inv c) (h : c.pos + 2 < c.src.length) :
    SafeAt 1 true 1 4 (fun s => StartLine.Parsed net fl (.status s.1 s.2.1 s.2.2))
      (do let v ← P.orErr Version.parseAfterStart; P.sp; let n ← P.uint; P.sp; let r ← P.orErr (P.strEscEmpty csSipReasonPhrase); pure (v, n % 65536, r)) c := by
  refine SafeAt.seq (B2 := 2) (SafeAt.orErr (l := true) (afterStart_safe c hc h)) (fun v c1 e1 hv hc1 => ?_)
  refine SafeAt.seq (B2 := 2) (safe_sp c1 hc1) (fun _ c2 e2 _ hc2 => ?_)
  refine SafeAt.seq (B2 := 2) (safe_uint c2 hc2) (fun n c3 e3 hn hc3 => ?_)
  refine SafeAt.seq (B2 := 2) (safe_sp c3 hc3) (fun _ c4 e4 _ hc4 => ?_)
  have hr := SafeAt.orErr (l := true) (safe_strEscEmpty csSipReasonPhrase (by decide +kernel) c4 hc4)
  refine SafeAt.seq (B2 := 0) hr (fun r c5 e5 _ hc5 => ?_)
  exact SafeAt.pure hc5 ⟨hv, Nat.mod_lt _ (by decide)⟩

theorem P.bind_assoc {α β γ : Type} (p : P α) (f : α → P β) (g : β → P γ) : (p >>= f) >>= g = p >>= fun a => f a >>= g := by
  funext c
  simp only [P.bind_apply]
  rcases p c with ⟨_ | a, c1⟩ | _ | _ <;> rfl
theorem P.pure_bind {α β : Type} (a : α) (f : α → P β) : (pure a : P α) >>= f = f a := rfl

/-- what holds behind a start line: it is one, and just its line was consumed -/
def StartLine.After (net : Net) (c : Ctx) (s : StartLine) (c' : Ctx) : Prop := s.Parsed net c.flags ∧ (PreL 2 c → Line2 c c') ∧ c.pos + 2 ≤ c'.pos

theorem gsafe_lineEnd {α β : Type} {q m B : Nat} {Q : α → Prop} {p : P α} {f : α → β} {c : Ctx} (h : SafeAt q true m B Q p c) :
    GSafe (Pre q c) (PreH q c) true m B (fun b c' => (∃ a, Q a ∧ b = f a) ∧ (PreL q c → Line2 c c') ∧ c.pos + 2 ≤ c'.pos)
      (p >>= fun a => do P.orErr P.crlf; pure (f a)) c := by
  refine GSafe.seq (B2 := 0) (GSafe.of_safe h id id) (fun a c1 e1 hq s1 => ?_)
  refine GSafe.seq (B2 := 0) (GSafe.orErr (l := true) (gsafe_crlf (m := 0) (B := 0) c1 s1.inv)) (fun _ c2 e2 hq2 s2 => ?_)
  refine GSafe.pure s2.inv ⟨⟨a, hq.1, rfl⟩, fun hL => (hq.2 hL).trans2 s1.src hq2.1, ?_⟩
  have := hq2.2.1; have := s1.pos_le; omega

/-- **C24, C28 - C31** for every input: a start line parser moves forward inside the input, reports every failure, consumes just its line, does not panic or
loop under the conditions for its URI, and returns a method, an address, a version, a status code below 65536 -/
theorem startLine_safe (net : Net) (hnet : net.Ok) (c : Ctx) (hc : Inv c) :
    GSafe (Pre 2 c) (PreH 2 c) true 23 76 (StartLine.After net c) (StartLine.parse net) c := by
  obtain ⟨h1, h2⟩ := startLine_kind net c hc.pos
  by_cases hs : StartsSip c.rest
  · have hl := rest_length c hc.pos
    obtain ⟨x, y, e, hx, hy⟩ := hs
    have hx' := hx
    rw [show str "sip/" = [0x73, 0x69, 0x70, 0x2f] by decide] at hx'
    obtain ⟨x1, x2, x3, x4, rfl, m1, m2, m3, m4⟩ := map4 hx'
    have hlen : c.pos + 6 < c.src.length := by rw [e] at hl; simp at hl; omega
    have st : Step c (c.adv 4) := Step.adv hc (by omega)
    have hcr : ∀ b : UInt8, (asciiLower b = 0x73 ∨ asciiLower b = 0x69 ∨ asciiLower b = 0x70 ∨ asciiLower b = 0x2f) → b ≠ 0x0d := by decide +kernel
    have hline : Line c (c.adv 4) := line_of_noCR [x1, x2, x3, x4] y e rfl (by
      intro b hb
      simp only [List.mem_cons, List.not_mem_nil, or_false] at hb
      apply hcr
      rcases hb with rfl | rfl | rfl | rfl
      · exact Or.inl m1
      · exact Or.inr (Or.inl m2)
      · exact Or.inr (Or.inr (Or.inl m3))
      · exact Or.inr (Or.inr (Or.inr m4)))
    have h0 := safe_statusHead net c.flags (c.adv 4) st.inv (by simp only [Ctx.adv]; omega)
    have h3 := gsafe_lineEnd (f := fun s : Version × Nat × Bytes => StartLine.status s.1 s.2.1 s.2.2) h0
    have h4 : GSafe (Pre 2 c) (PreH 2 c) true 23 76 (StartLine.After net c) StartLine.parseStatus (c.adv 4) := by
      refine GSafe.congr ?_ (h3.mono (fun n => (n.mono (by omega)).step rfl (by simp [Ctx.adv]) hline) (fun n => (n.mono (by omega)).step rfl (by simp [Ctx.adv]) (fun _ => hline)) id (by omega) (by omega) ?_)
      · unfold StartLine.parseStatus; simp only [P.bind_assoc, P.pure_bind]
      · rintro v c' s1 ⟨⟨a, ha, rfl⟩, hb, hd⟩
        refine ⟨ha, fun hL => Line.trans2 (a := c) (b := c.adv 4) rfl hline (hb ((PreL.mono (q' := 2) hL (by omega)).step rfl (by simp [Ctx.adv]) hline)), ?_⟩
        simp only [Ctx.adv] at hd; omega
    have e0 := h1 ⟨[x1, x2, x3, x4], y, e, hx, hy⟩
    constructor
    · intro r c' e; rw [e0] at e; exact st.trans (h4.step _ _ e)
    · intro v c' e; rw [e0] at e
      obtain ⟨a, d⟩ := h4.some _ _ e
      refine ⟨a, ?_⟩
      simp only [Ctx.adv] at d
      have := (h4.step _ _ e).pos_le
      simp only [Ctx.adv] at this
      omega
    · intro hl c' e; rw [e0] at e; exact h4.none hl _ e
    · intro hN hr e; rw [e0] at e
      refine h4.nopanic hN ?_ e
      unfold Room at *
      simp only [Ctx.adv] at *; omega
    · intro hH e; rw [e0] at e; exact h4.nohang hH e
    · intro c' e; rw [e0] at e; have := h4.nmem _ e; simp only [Ctx.adv] at this; omega
  · have h3 := gsafe_lineEnd (f := fun s : Method × Addr × Version => StartLine.request s.1 s.2.1 s.2.2) (safe_requestHead net hnet c hc)
    refine GSafe.congr (h2 hs) (GSafe.congr ?_ (h3.mono id id id (by omega) (by omega) ?_))
    · unfold StartLine.parseRequest; simp only [P.bind_assoc, P.pure_bind]
    · rintro v c' s1 ⟨⟨a, ha, rfl⟩, hb, hd⟩
      exact ⟨ha, hb, hd⟩

/-- the accepted start lines that are written so that they can be read: not a request with a telephone URI, no URI header without value -/
def StartLine.Clean : StartLine → Prop
  | .request _ a _ => ∃ u, a.uri = .sip u ∧ ∀ g ∈ u.headers, g.value ≠ none
  | .status .. => True

theorem StartLine.Parsed.wf {net : Net} {fl : Flags} {s : StartLine} (h : s.Parsed net fl) (hcl : s.Clean) (he : fl.encodeUriNoEscape = false)
    (hr : fl.encodeReasonPhraseNoEscape = false) : s.WF net fl := by
  cases s with
  | request m a v =>
    obtain ⟨hm, ha, hn, hv⟩ := h
    obtain ⟨u, hu, hg⟩ := hcl
    have hd : a.display = none := by
      cases hd : a.display with
      | none => rfl
      | some d => have := (ha.display d hd).1; rw [hn] at this; cases this
    refine ⟨hm, ⟨u, ?_, ?_⟩, hv⟩
    · rw [← hd, ← hn, ← hu]
    · have := ha.uri
      rw [hu] at this
      exact SipUri.Parsed.wf this he hg
  | status v n r => exact ⟨h.1, h.2, fun h => by rw [hr] at h; cases h⟩

/-- **C24** parse, encode, parse: an accepted start line (a SIP request or any response) is written as a line that is read as the same value -/
theorem startLine_idempotent (net : Net) (hnet : net.Ok) (c c' : Ctx) (s : StartLine) (hc : Inv c) (he : c.flags.encodeUriNoEscape = false)
    (hr : c.flags.encodeReasonPhraseNoEscape = false) (h : StartLine.parse net c = .ok (some s, c')) (hcl : s.Clean) :
    ∃ t, s.encode net c.flags = .ok t ∧ Parses c.flags (StartLine.parse net) t s.canon s.cost AnyText :=
  startLine_roundtrip net hnet c.flags s (((startLine_safe net hnet c hc).some _ _ h).1.1.wf hcl he hr)

/-! ## Limits -/

/-- **C24, negation**: a status code of 65536 or more is stored modulo 65536 -/
theorem status_truncates : ∃ c', StartLine.parse Net.sample { src := str "SIP/2.0 65736 OK\r\n", cap := 200 } = .ok (some (.status .v20 200 (str "OK")), c') :=
  resultOf_ok (by decide +kernel)

/-- **C24, negation**: a request to a telephone URI is read but written without its URI, and that line is rejected -/
theorem request_tel_lost : (∃ u c', StartLine.parse Net.sample { src := str "INVITE tel:+1 SIP/2.0\r\n", cap := 200 } = .ok (some (.request (.known 1) ⟨false, none, .tel u⟩ .v20), c') ∧
      StartLine.encode Net.sample {} (.request (.known 1) ⟨false, none, .tel u⟩ .v20) = .ok (str "INVITE  SIP/2.0\r\n")) ∧
    ∃ c', StartLine.parse Net.sample { src := str "INVITE  SIP/2.0\r\n", cap := 200 } = .ok (none, c') := by
  obtain ⟨c', h⟩ := resultOf_ok (o := StartLine.parse Net.sample { src := str "INVITE tel:+1 SIP/2.0\r\n", cap := 200 })
    (r := some (.request (.known 1) ⟨false, none, .tel { isGlobal := true, number := str "+1" }⟩ .v20)) (by decide +kernel)
  exact ⟨⟨_, c', h, by decide +kernel⟩, resultOf_ok (by decide +kernel)⟩

/-- the hypotheses of `startLine_roundtrip` are met by a request and a response -/
theorem StartLine.sample_wf : (StartLine.request (.token (some (str "FOO"))) ⟨false, none, .sip SipUri.sample⟩ (.other (str "3.1"))).WF Net.sample { setSipUriKnownParam := true } ∧
    (StartLine.status .v20 404 (str "Not Found; 100%\r")).WF Net.sample {} :=
  ⟨⟨⟨by decide, by decide +kernel, by decide +kernel⟩, ⟨_, rfl, SipUri.sample_wf⟩, by decide, str "3", str "1", by decide, by decide, by decide, by decide +kernel, by decide +kernel⟩,
   trivial, by decide, fun h => by cases h⟩

end Sip
