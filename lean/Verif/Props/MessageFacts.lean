import Verif.Props.MessageRound
import Verif.Props.BodySafe
/-!
# Messages: examples that meet the hypotheses of `msg_roundtrip`, and cases in which the library does not do what a user expects
-/
namespace Sip

/-! ## Messages that meet the hypotheses -/

/-- a response without a body -/
def Msg.sample0 : Msg where
  start := .status .v20 200 (str "OK")
  hdrs := { common := fun k => match k with
              | .to => [HVal.sampleTo]
              | .callId => [.callId (str "a{84}b4c76e66710") (some (str "10.0.0.1"))]
              | .maxForwards => [.num 70]
              | .cseq => [.cseq 7 (.known 13)]
              | _ => []
            raw := [⟨0, some (str "X-a"), str "b\r\n c"⟩] }

/-- a request with one body; its Content-Length is wrong -/
def Msg.sample1 : Msg where
  start := .request (.token (some (str "FOO"))) ⟨false, none, .sip SipUri.sample⟩ (.other (str "3.1"))
  hdrs := { common := fun k => match k with
              | .to => [HVal.sampleTo]
              | .contentType => [.contentType (str "application") (str "sdp") {}]
              | .contentLength => [.num 3]
              | _ => []
            raw := [⟨0, some (str "X-a"), str "b\r\n c"⟩] }
  bodies := [{ body := some (str "v=0\r\n") }]

/-- a request with two bodies -/
def Msg.sample2 : Msg where
  start := .request (.token (some (str "FOO"))) ⟨false, none, .sip SipUri.sample⟩ (.other (str "3.1"))
  hdrs := { common := fun k => match k with
              | .to => [HVal.sampleTo]
              | _ => []
            raw := [⟨0, some (str "X-a"), str "b\r\n c"⟩] }
  bodies := [{ hdrs := { common := fun k => match k with | .contentLength => [.num 3] | _ => [], raw := [⟨15, none, str "a/b"⟩] }, body := some (str "v=0\r\n--x") },
    { hdrs := { common := fun k => match k with | .contentDisposition => [.contentDisposition (str "session") {}] | _ => [], raw := [] }, body := none }]

theorem not_infix_of_indexOf {d s : Bytes} (h : indexOf d s = none) : ¬ d <:+: s := by
  rintro ⟨a, b, e⟩
  refine indexOf_none d s h a.length (by rw [← e]; simp) ?_
  rw [← e, List.append_assoc, List.drop_left]
  exact List.prefix_append _ _

theorem sampleRaw_wf (need : HKind → Bool) : ∀ h ∈ [(⟨0, some (str "X-a"), str "b\r\n c"⟩ : RawHeader)], h.WF ∧ ∀ k, HKind.ofIndex h.id = some k → need k = false := by
  intro h hh
  refine ⟨RawHeader.samples_wf h (by simp at hh; subst hh; simp [RawHeader.samples]), ?_⟩
  simp at hh; subst hh
  intro k hk
  have : HKind.ofIndex 0 = none := by decide +kernel
  rw [this] at hk; cases hk

/-- no header is switched off in the table of headers -/
theorem knows_all {fl : Flags} {p : Prop} (h : fl.noParse = []) : fl.Knows .contentLength ∧ (p → fl.Knows .contentType) :=
  ⟨Or.inr (by rw [h]; simp), fun _ => Or.inr (by rw [h]; simp)⟩

theorem Msg.sample0_wf : Msg.sample0.WF Net.sample { setSipUriKnownParam := true } ∧ Msg.sample0.LengthOk Net.sample { setSipUriKnownParam := true } := by
  refine ⟨⟨knows_all rfl, ⟨trivial, by decide, fun h => by cases h⟩, ⟨?_, ?_, ?_, sampleRaw_wf _⟩, ?_, ?_, ?_, ?_, ?_⟩, ?_⟩
  · intro k v hv
    cases k <;> simp [Msg.sample0] at hv <;> subst hv
    · exact ⟨HVal.sampleTo_wf, by intro h; cases h⟩
    · exact ⟨⟨rfl, by decide +kernel, by decide +kernel, by intro x hx; cases hx; decide +kernel⟩, trivial⟩
    · exact ⟨⟨rfl, by decide, "PUBLISH", by decide +kernel⟩, trivial⟩
    · exact ⟨⟨_, rfl, by decide⟩, trivial⟩
  · intro k _; cases k <;> simp [Msg.sample0]
  · intro k _; cases k <;> decide
  · intro b hb; cases hb
  · intro ct h; cases h
  · intro h; cases h
  · intro h; cases h
  · decide
  · intro h; exact absurd rfl h

theorem Msg.sample1_wf : Msg.sample1.WF Net.sample { setSipUriKnownParam := true } ∧ Msg.sample1.LengthOk Net.sample { setSipUriKnownParam := true } := by
  refine ⟨⟨knows_all rfl, StartLine.sample_wf.1, ⟨?_, ?_, ?_, sampleRaw_wf _⟩, ?_, ?_, ?_, ?_, ?_⟩, ?_⟩
  · intro k v hv
    cases k <;> simp [Msg.sample1] at hv <;> subst hv
    · exact ⟨HVal.sampleTo_wf, by intro h; cases h⟩
    · exact ⟨⟨_, rfl, by decide⟩, trivial⟩
    · exact ⟨⟨rfl, by decide +kernel, by decide +kernel, by decide +kernel, by decide +kernel, ⟨by simp, Or.inl rfl, by simp, by simp⟩⟩, trivial⟩
  · intro k _; cases k <;> simp [Msg.sample1]
  · intro k _; cases k <;> decide
  · intro b hb; cases hb; exact ⟨by decide +kernel, by simp [Msg.sample1]⟩
  · intro ct h
    simp [Msg.sample1] at h; subst h; decide +kernel
  · intro h; exact absurd h (by decide)
  · intro h; exact absurd h (by decide)
  · decide +kernel
  · intro _; decide +kernel

theorem Msg.sample2_wf : Msg.sample2.WF Net.sample { setSipUriKnownParam := true } ∧ Msg.sample2.LengthOk Net.sample { setSipUriKnownParam := true } := by
  refine ⟨⟨knows_all rfl, StartLine.sample_wf.1, ⟨?_, ?_, ?_, sampleRaw_wf _⟩, ?_, ?_, ?_, ?_, ?_⟩, ?_⟩
  · intro k v hv
    cases k <;> simp [Msg.sample2] at hv <;> subst hv
    exact ⟨HVal.sampleTo_wf, by intro h; cases h⟩
  · intro k _; cases k <;> simp [Msg.sample2]
  · intro k _; cases k <;> decide
  · intro b hb; cases hb
  · intro ct h; cases h
  · intro _; exact ⟨rfl, by decide +kernel, fun ct h => by cases h⟩
  · intro _ b hb
    simp only [Msg.sample2, List.mem_cons, List.not_mem_nil, or_false] at hb
    rcases hb with rfl | rfl
    · refine ⟨⟨?_, ?_, ?_, ?_⟩, ?_, ?_⟩
      · intro k v hv
        cases k <;> simp [Body.fixLength] at hv <;> subst hv
        exact ⟨⟨_, rfl, by decide +kernel⟩, trivial⟩
      · intro k _; cases k <;> simp [Body.fixLength]
      · intro k hk; cases k <;> simp [Body.fixLength] at hk <;> decide
      · intro h hh
        simp only [Body.fixLength, List.mem_cons, List.not_mem_nil, or_false] at hh
        subst hh
        refine ⟨⟨Or.inl ⟨rfl, by decide, by decide⟩, ⟨by decide, fun i hi => ?_⟩, fun b hb => ?_⟩, fun k hk => ?_⟩
        · have : (0x0a : UInt8) ∈ str "a/b" := List.mem_of_getElem? hi
          exact absurd this (by decide +kernel)
        · have e : (str "a/b").head? = some 0x61 := by decide +kernel
          have hb' : (str "a/b").head? = some b := hb
          rw [e] at hb'; cases hb'; decide +kernel
        · have : HKind.ofIndex 15 = some .contentType := by decide +kernel
          rw [this] at hk; cases hk; decide
      · intro k hk; cases k <;> simp_all
      · exact not_infix_of_indexOf (by decide +kernel)
    · refine ⟨⟨?_, ?_, ?_, by intro h hh; cases hh⟩, ?_, ?_⟩
      · intro k v hv
        cases k <;> simp [Body.fixLength] at hv <;> subst hv
        exact ⟨⟨rfl, by decide +kernel, by decide +kernel, ⟨by simp, Or.inl rfl, by simp, by simp⟩⟩, trivial⟩
      · intro k _; cases k <;> simp [Body.fixLength]
      · intro k hk; cases k <;> simp [Body.fixLength] at hk <;> decide
      · intro k hk; cases k <;> simp_all
      · exact not_infix_of_indexOf (by decide +kernel)
  · decide +kernel
  · intro _; decide +kernel

/-! ## Removing the content headers -/

theorem removeLoop_none (p : RawHeader) (link l : List RawHeader) (h : ∀ x ∈ l, x.isContent = false) : removeLoop (some p) link l = p :: link := by
  induction l with
  | nil => rfl
  | cons x l ih =>
    unfold removeLoop
    rw [if_neg (by rw [h x (by simp)]; decide)]
    exact ih (fun y hy => h y (by simp [hy]))

theorem removeLoop_some (p : RawHeader) (a : List RawHeader) (x : RawHeader) (b : List RawHeader) (hx : x.isContent = true) (hb : ∀ y ∈ b, y.isContent = false) :
    ∀ link, removeLoop (some p) link (a ++ x :: b) = p :: b := by
  induction a with
  | nil =>
    intro link
    rw [List.nil_append]
    unfold removeLoop
    rw [if_pos hx]
    exact removeLoop_none p b b hb
  | cons y a ih =>
    intro link
    rw [List.cons_append]
    unfold removeLoop
    split
    · exact ih _
    · exact ih _

/-- **C39** what is left after `RemoveContentHeaders`: all headers if there is no content header; otherwise the headers behind the last content header, and of the headers
in front of it only the first one that is not a content header. -/
theorem removeContent_exact :
    (∀ l : List RawHeader, (∀ x ∈ l, x.isContent = false) → removeLoop none l l = l) ∧
    (∀ (a : List RawHeader) (x : RawHeader) (b : List RawHeader), x.isContent = true → (∀ y ∈ b, y.isContent = false) →
      removeLoop none (a ++ x :: b) (a ++ x :: b) = (a.find? (fun y => !y.isContent)).toList ++ b) := by
  constructor
  · intro l h
    cases l with
    | nil => rfl
    | cons x l =>
      unfold removeLoop
      rw [if_neg (by rw [h x (by simp)]; decide)]
      exact removeLoop_none x l l (fun y hy => h y (by simp [hy]))
  · intro a x b hx hb
    induction a with
    | nil =>
      rw [List.nil_append]
      unfold removeLoop
      rw [if_pos hx]
      cases b with
      | nil => rfl
      | cons z b =>
        unfold removeLoop
        rw [if_neg (by rw [hb z (by simp)]; decide)]
        exact removeLoop_none z b b (fun y hy => hb y (by simp [hy]))
    | cons y a ih =>
      rw [List.cons_append]
      unfold removeLoop
      split
      · rename_i hy
        rw [ih, List.find?_cons, hy]; rfl
      · rename_i hy
        rw [removeLoop_some y a x b hx hb, List.find?_cons]
        simp [Bool.not_eq_true] at hy
        simp [hy]

/-- **C39** `RemoveContentHeaders` takes out the content headers and nothing else exactly if at most one other header stands in front of the last content header. -/
theorem removeContent_correct_iff (a : List RawHeader) (x : RawHeader) (b : List RawHeader) (hx : x.isContent = true) (hb : ∀ y ∈ b, y.isContent = false) :
    removeLoop none (a ++ x :: b) (a ++ x :: b) = (a ++ x :: b).filter (fun y => !y.isContent) ↔ (a.filter (fun y => !y.isContent)).length ≤ 1 := by
  rw [removeContent_exact.2 a x b hx hb, List.filter_append, List.filter_cons]
  have hbf : b.filter (fun y => !y.isContent) = b := List.filter_eq_self.2 (fun y hy => by simp [hb y hy])
  simp only [hx, Bool.not_true, Bool.false_eq_true, if_false, hbf, List.append_cancel_right_eq, ← List.head?_filter]
  cases a.filter (fun y => !y.isContent) with
  | nil => simp
  | cons y l => cases l <;> simp

/-- **C39** two headers in front of a Content-Encoding: the second one is lost -/
theorem removeContent_loses : ∃ l : List RawHeader, removeLoop none l l = [⟨36, none, str "a"⟩, ⟨17, none, str "d"⟩] ∧
    l = [⟨36, none, str "a"⟩, ⟨37, none, str "b"⟩, ⟨12, none, str "c"⟩, ⟨17, none, str "d"⟩] ∧ (⟨37, none, str "b"⟩ : RawHeader).isContent = false :=
  ⟨_, by decide +kernel, rfl, by decide +kernel⟩

/-- **C39** the parsed headers are kept, except Content-Disposition; start line and bodies are kept -/
theorem removeContent_common (m : Msg) : m.removeContentHeaders.start = m.start ∧ m.removeContentHeaders.bodies = m.bodies ∧
    ∀ k, m.removeContentHeaders.hdrs.common k = if k = .contentDisposition then [] else m.hdrs.common k := ⟨rfl, rfl, fun _ => rfl⟩

/-! ## Cases in which the library does not do what a user expects -/

theorem Out.some_of_all {α} {o : Out (Option α × Ctx)} (q : α → Ctx → Bool)
    (h : o.all (fun r => match r.1 with | some a => q a r.2 | none => false) = true) : ∃ a c', o = .ok (some a, c') ∧ q a c' = true := by
  rcases o with ⟨r, c'⟩ | _ | _
  · cases r with
    | none => cases h
    | some a => exact ⟨a, c', rfl, h⟩
  · cases h
  · cases h

/-- the outcome of an encoder: the text -/
def textOf : Out (Option (Bytes × Msg) × Ctx) → Option Bytes
  | .ok (some (t, _), _) => some t
  | _ => none
theorem textOf_ok {o : Out (Option (Bytes × Msg) × Ctx)} {t : Bytes} (h : textOf o = some t) : ∃ m c', o = .ok (some (t, m), c') := by
  rcases o with ⟨r, c'⟩ | _ | _
  · cases r with
    | none => cases h
    | some a =>
      have e : a.1 = t := by simpa [textOf] using h
      subst e; exact ⟨a.2, c', rfl⟩
  · cases h
  · cases h

/-- a request with a Content-Length of four digits and a body of five bytes -/
def Msg.short : Msg := ⟨.status .v20 200 (str "OK"), { common := fun k => match k with
  | .contentType => [.contentType (str "a") (str "b") {}]
  | .contentLength => [.num 1000]
  | _ => [] }, [{ body := some (str "v=0\r\n") }]⟩

/-- **C27** a message with a Content-Length of 1000 and a body of 5 bytes is written with the Content-Length 1005 -/
theorem length_wrong : ∃ m c', Msg.short.encode Net.sample [] { src := [], cap := 1000 } =
    .ok (some (str "SIP/2.0 200 OK\r\nContent-Length:       1005\r\nContent-Type: a/b\r\n\r\nv=0\r\n", m), c') := textOf_ok (by decide +kernel)

/-- **C27** a message with a Content-Length but without a body keeps its Content-Length -/
theorem length_noBody_kept : ∃ m c', ({ Msg.short with bodies := [] } : Msg).encode Net.sample [] { src := [], cap := 1000 } =
    .ok (some (str "SIP/2.0 200 OK\r\nContent-Length:       1000\r\nContent-Type: a/b\r\n\r\n", m), c') := textOf_ok (by decide +kernel)

/-- a test for the outcome of parsing a text, encoding the message and parsing that text -/
def again (fl : Flags) (s : Bytes) : Option (Bytes × Option (Option Msg)) :=
  match Msg.parse Net.sample { src := s, cap := 32768, flags := fl } with
  | .ok (some m, c) => match m.encode Net.sample [] c with
    | .ok (some (t, _), _) => some (t, match Msg.parse Net.sample { src := t, cap := 32768, flags := fl } with
      | .ok (r, _) => some r
      | _ => none)
    | _ => none
  | _ => none

/-- **C38** a multipart message with a single part is read, but what is written for it has no boundary and is rejected -/
theorem single_part_rejected : (again {} (str "SIP/2.0 200 OK\r\nContent-Type: multipart/mixed;boundary=xx\r\n\r\n--xx\r\nS: t\r\n\r\nab\r\n--xx--")).all (fun r =>
    r.1 == str "SIP/2.0 200 OK\r\nContent-Length:          2\r\nContent-Type: multipart/mixed;boundary=xx\r\n\r\nab" && r.2.any Option.isNone) = true := by decide +kernel

/-- **C38** with the Content-Length switched off in the table of headers the header is kept as text, `Encode` writes another one, and a receiver with the same settings
gets two of them -/
theorem length_twice : (again { noParse := [HKind.contentLength.index] } (str "SIP/2.0 200 OK\r\nContent-Length: 7\r\n\r\n")).all (fun r =>
    r.1 == str "SIP/2.0 200 OK\r\nContent-Length:          0\r\nContent-Length: 7\r\n\r\n" && r.2.any (fun m => m.any (fun m => m.hdrs.raw.length == 2))) = true := by decide +kernel

/-- **C38** the Content-Type of a part is not written if it has been parsed (flag `parseSipHeaderAsRaw`) -/
theorem part_type_lost (net : Net) (fl : Flags) (b : Body) (buf : Bytes) :
    b.encode net fl buf = ({ b with hdrs := { b.hdrs with common := fun k => if k = .contentType then [] else b.hdrs.common k } } : Body).encode net fl buf := by
  have h : ∀ (hs : Hdrs) (f : HKind → List HVal), (∀ k ∈ bodyOrder, f k = hs.common k) → ∀ buf, Hdrs.encode net fl bodyOrder { hs with common := f } buf = Hdrs.encode net fl bodyOrder hs buf := by
    intro hs f hf buf
    have h1 := hf .contentLength (by decide)
    have h2 := hf .contentDisposition (by decide)
    unfold Hdrs.encode bodyOrder encodeCommons encodeCommons encodeCommons encodeCommon
    simp only [h1, h2]
  unfold Body.encode
  unfold Body.fixLength
  simp only [show (HKind.contentLength = HKind.contentType) = False from by simp, if_false]
  cases hc : b.hdrs.common .contentLength with
  | nil =>
    simp only
    rw [h b.hdrs (fun k => if k = .contentType then [] else b.hdrs.common k) (fun k hk => by simp [bodyOrder] at hk; rcases hk with rfl | rfl <;> simp)]
  | cons v vs =>
    simp only
    rw [← h { b.hdrs with common := fun j => if j = .contentLength then [.num (writeStr b.body).length] else b.hdrs.common j }
      (fun j => if j = .contentLength then [.num (writeStr b.body).length] else if j = .contentType then [] else b.hdrs.common j)
      (fun k hk => by simp [bodyOrder] at hk; rcases hk with rfl | rfl <;> simp)]

/-- **C26** a boundary that is followed by any byte and a `-`, or by a `-` and any byte, is taken for the end of the body -/
theorem close_delimiter_loose (net : Net) (d : Bytes) (acc : List Body) (c : Ctx) (x y : UInt8) (r : Bytes) (h : c.rest = x :: y :: r) (hd : x = 0x2d ∨ y = 0x2d) :
    multiBody net d acc c = .ok (some (.inr acc), c.setPos (c.pos + 2)) := by
  have h0 : c.src[c.pos]? = some x := by rw [getElem?_eq_drop, show c.src.drop c.pos = c.rest from rfl, h]; rfl
  have h1 : c.src[c.pos + 1]? = some y := by
    rw [← List.getElem?_drop, show c.src.drop c.pos = c.rest from rfl, h]; rfl
  have h2 : c.pos + 1 < c.src.length := (List.getElem?_eq_some_iff.1 h1).1
  have h3 : c.src[c.pos]? = some 0x2d ∨ c.src[c.pos + 1]? = some 0x2d := by
    rw [h0, h1]; rcases hd with rfl | rfl
    · exact Or.inl rfl
    · exact Or.inr rfl
  show (if c.pos ≥ c.src.length then P.fail else if c.pos + 1 ≥ c.src.length then P.err else
    if c.src[c.pos]? = some 0x2d ∨ c.src[c.pos + 1]? = some 0x2d then (do P.skip 2; pure (.inr acc)) else (do let b ← parseBodyPart net d; pure (.inl (acc ++ [b]))) : P (List Body ⊕ List Body)) c = _
  rw [if_neg (by omega), if_neg (by omega), if_pos h3]
  rfl

/-- **C38** a part that follows a boundary and a `-` or whose line of the boundary has a `-` in its second column is lost with all further parts -/
theorem parts_lost : (Msg.parse Net.sample { src := str "SIP/2.0 200 OK\r\nContent-Type: multipart/mixed;boundary=xx\r\n\r\n--xx\r\nS: t\r\n\r\nab\r\n--xx -\r\n\r\ncd\r\n--xx--", cap := 1000 }).all
    (fun r => r.1.any (fun m => m.bodies.map Body.body == [some (str "ab")])) = true := by decide +kernel

/-- **C35** a body for which the arena has no room is lost without an error -/
theorem part_lost_memory : ∃ cap, (Msg.parse Net.sample { src := str "SIP/2.0 200 OK\r\nContent-Type: multipart/mixed;boundary=xx\r\n\r\n--xx\r\nS: t\r\n\r\nabcdefgh\r\n--xx--", cap := cap }).all
    (fun r => r.1.any (fun m => m.bodies.map Body.body == [none]) && r.2.errs == []) = true := ⟨95, by decide +kernel⟩

/-- **C38** a header line that ends in a fold is rejected -/
theorem trailing_fold_rejected : (Msg.parse Net.sample { src := str "SIP/2.0 200 OK\r\nMax-Forwards: 70\r\n \r\n\r\n", cap := 1000 }).all (fun r => r.1.isNone) = true := by decide +kernel

end Sip
