import Verif.Props.MessageEnc
import Verif.Props.BodySafe
/-!
# C38: what the parser makes of the text of a message

`PartsText` says what the text of a multipart body is, `msg_text` that a start line, header lines, an empty line and a body are read as a message with just
those, `multiBody_text`, `singleBody_text`, `noBody_text` which bodies are found.
-/
namespace Sip

/-! ## Bodies -/

theorem lfEnd_pad (pad y : Bytes) (hp : AllWsp pad) (hy : NoFold y) : lfEnd (pad ++ [0x0d, 0x0a] ++ y) = some (pad.length + 2) := by
  induction pad with
  | nil =>
    have h1 : lfEnd (0x0a :: y) = some 1 := by
      unfold lfEnd
      rw [if_pos]
      refine ⟨rfl, ?_⟩
      cases h : y.head? with
      | none => simp
      | some b => have := hy b h; simp [this]
    show lfEnd (0x0d :: 0x0a :: y) = _
    unfold lfEnd
    rw [if_neg (by intro h; exact absurd h.1 (by decide)), h1]; rfl
  | cons b pad ih =>
    have h1 := ih (fun x hx => hp x (by simp [hx]))
    have hb : b ≠ 0x0a := by
      intro h; subst h
      have := hp 0x0a (by simp)
      revert this; decide
    simp only [List.cons_append]
    unfold lfEnd
    rw [if_neg (fun h => hb h.1), h1]; simp

theorem findCrlf_pad {α : Type} {fl : Flags} {p : P α} (pad t : Bytes) (v : α) (n : Nat) {F : Bytes → Prop} (hp : AllWsp pad) (ht : ∀ y, F y → NoFold (t ++ y))
    (h : Parses fl p t v n F) : Parses fl (P.orErr P.findCrlf >>= fun _ => p) (pad ++ [0x0d, 0x0a] ++ t) v n F := by
  intro c y h1 h2 h3 h4 h5
  have e : lfEnd c.rest = some (pad.length + 2) := by
    rw [h2, List.append_assoc]; exact lfEnd_pad pad (t ++ y) hp (ht y h3)
  have e1 : ∃ x, P.findCrlf c = .ok (some x, c.eat (pad ++ [0x0d, 0x0a]).length 0) := by
    unfold P.findCrlf; rw [e]; refine ⟨_, congrArg Out.ok (Prod.ext rfl ?_)⟩; simp [Ctx.eat, Ctx.setPos]
  obtain ⟨x, e1⟩ := e1
  have hr := Ctx.rest_eat c (pad ++ [0x0d, 0x0a]) (t ++ y) 0 (by rw [h2]; simp)
  have hl := rest_length c h4
  rw [h2] at hl; simp only [List.length_append] at hl
  rw [P.bind_ok (P.orErr_ok e1)]
  refine (h (c.eat (pad ++ [0x0d, 0x0a]).length 0) y h1 hr h3 (by simp at *; omega) (by simpa using h5)).trans ?_
  rw [Ctx.eat_eat]
  simp only [List.length_append, Nat.zero_add]

/-- the first occurrence of a delimiter behind a text that does not contain it -/
theorem indexOf_first (b r y : Bytes) (hr : 0x0d ∉ r) (h : ¬ (0x0d :: r) <:+: b) : indexOf (0x0d :: r) (b ++ (0x0d :: r) ++ y) = some b.length := by
  rw [indexOf_iff]
  refine ⟨by rw [List.append_assoc, List.drop_left]; exact List.prefix_append _ _, by simp, fun j hj hpre => ?_⟩
  rw [List.append_assoc, List.drop_append_of_le_length (by omega)] at hpre
  by_cases hle : j + (0x0d :: r).length ≤ b.length
  · apply h
    have h2 : (0x0d :: r) <+: b.drop j := by
      obtain ⟨z, hz⟩ := hpre
      have : (0x0d :: r) = ((b.drop j) ++ (0x0d :: r ++ y)).take (0x0d :: r).length := by rw [← hz]; simp
      rw [List.take_append_of_le_length (by simp at *; omega)] at this
      rw [this]; exact List.take_prefix _ _
    exact h2.isInfix.trans (List.drop_suffix j b).isInfix
  · obtain ⟨z, hz⟩ := hpre
    have hlen : (b.drop j).length = b.length - j := List.length_drop
    have e1 : ((0x0d :: r) ++ z)[b.length - j]? = some 0x0d := by
      rw [hz, List.getElem?_append_right (by omega), hlen]; simp
    have e2 : (0x0d :: r)[b.length - j]? = some 0x0d := by
      rw [List.getElem?_append_left (by omega)] at e1; exact e1
    obtain ⟨m, hm⟩ : ∃ m, b.length - j = m + 1 := ⟨b.length - j - 1, by omega⟩
    rw [hm, List.getElem?_cons_succ] at e2
    exact hr (List.mem_of_getElem? e2)

/-- the text of a multipart body behind the first `--boundary`: the parts with the memory they take.  Behind a delimiter there may be white space; the
text of a part must not contain the delimiter; the last delimiter is followed by `--`. -/
inductive PartsText (net : Net) (fl : Flags) (boundary : Bytes) : List Body → Bytes → Nat → Prop
  | close : PartsText net fl boundary [] [0x2d, 0x2d] 0
  | part {pad its th nh b bs ts n} : AllWsp pad → HeaderLines net fl (bodyNeed fl) its th nh → ¬ (0x0d :: 0x0a :: 0x2d :: 0x2d :: boundary) <:+: b →
      PartsText net fl boundary bs ts n →
      PartsText net fl boundary (⟨Hdrs.ofItems its, some b⟩ :: bs)
        (pad ++ [0x0d, 0x0a] ++ (th ++ [0x0d, 0x0a] ++ (b ++ (0x0d :: 0x0a :: 0x2d :: 0x2d :: boundary))) ++ ts) (16 + nh + (b.length + 2) + n)

theorem bodyPart_text {net : Net} {fl : Flags} {boundary pad th b : Bytes} {its : List HItem} {nh : Nat} (hcr : 0x0d ∉ boundary) (hp : AllWsp pad)
    (hh : HeaderLines net fl (bodyNeed fl) its th nh) (hb : ¬ (0x0d :: 0x0a :: 0x2d :: 0x2d :: boundary) <:+: b) :
    Parses fl (parseBodyPart net (0x0d :: 0x0a :: 0x2d :: 0x2d :: boundary))
      (pad ++ [0x0d, 0x0a] ++ (th ++ [0x0d, 0x0a] ++ (b ++ (0x0d :: 0x0a :: 0x2d :: 0x2d :: boundary)))) ⟨Hdrs.ofItems its, some b⟩ (16 + nh + (b.length + 2)) AnyText := by
  unfold parseBodyPart
  refine findCrlf_pad pad _ _ _ hp (fun y _ => by rw [List.append_assoc, List.append_assoc]; exact hh.noFold _ (noFold_crlf _)) ?_
  refine Parses.bind' (F := AnyText) (t1 := []) (Parses.orErr (Parses.alloc 16)) (n2 := nh + (b.length + 2)) ?_ (fun _ _ => trivial) rfl (by omega)
  refine Parses.get ?_
  intro c y h1 h2 h3 h4 h5
  rw [h1]
  have key : ∀ c y, c.flags = fl → c.rest = (b ++ (0x0d :: 0x0a :: 0x2d :: 0x2d :: boundary)) ++ y → c.pos ≤ c.src.length → c.used + (b.length + 2) < c.cap →
      (P.get >>= fun c => match indexOf (0x0d :: 0x0a :: 0x2d :: 0x2d :: boundary) c.rest with
        | none => P.err
        | some e => do
          let b ← P.allocStrAny (c.rest.take e)
          P.skip (e + (0x0d :: 0x0a :: 0x2d :: 0x2d :: boundary).length)
          pure (⟨Hdrs.ofItems its, b⟩ : Body) : P Body) c = .ok (some ⟨Hdrs.ofItems its, some b⟩, c.eat (b ++ (0x0d :: 0x0a :: 0x2d :: 0x2d :: boundary)).length (b.length + 2)) := by
    intro c y g1 g2 g3 g4
    have hi : indexOf (0x0d :: 0x0a :: 0x2d :: 0x2d :: boundary) c.rest = some b.length := by
      rw [g2]; exact indexOf_first b _ y (by simp [hcr]) hb
    show (match indexOf (0x0d :: 0x0a :: 0x2d :: 0x2d :: boundary) c.rest with
        | none => P.err
        | some e => do
          let b ← P.allocStrAny (c.rest.take e)
          P.skip (e + (0x0d :: 0x0a :: 0x2d :: 0x2d :: boundary).length)
          pure (⟨Hdrs.ofItems its, b⟩ : Body) : P Body) c = _
    rw [hi]
    have ht : c.rest.take b.length = b := by rw [g2, List.append_assoc]; simp
    simp only [ht]
    have ha := Parses.allocStr (fl := fl) (F := AnyText) b c c.rest g1 rfl trivial g3 g4
    have ha2 : P.allocStrAny b c = .ok (some (some b), c.eat 0 (b.length + 2)) := by
      unfold P.allocStrAny
      unfold P.allocStr at ha
      rcases hx : Sip.allocStr b c with ⟨r, d⟩
      rw [hx] at ha
      cases r <;> simp_all
    rw [P.bind_ok ha2]
    simp [P.skip, bind, P.bind, pure, P.ret, Ctx.eat, Ctx.adv]
    try omega
  have hp1 := Parses.orErr (headers_parse net fl (bodyNeed fl) its th nh hh).1
  have e1 := hp1 c (b ++ (0x0d :: 0x0a :: 0x2d :: 0x2d :: boundary) ++ y) h1 (by rw [h2]; simp) trivial h4 (by omega)
  have hr := Ctx.rest_eat c (th ++ [0x0d, 0x0a]) (b ++ (0x0d :: 0x0a :: 0x2d :: 0x2d :: boundary) ++ y) nh (by rw [h2]; simp)
  have hl := rest_length c h4
  rw [h2] at hl; simp only [List.length_append] at hl
  rw [P.bind_ok e1]
  have := key (c.eat (th ++ [0x0d, 0x0a]).length nh) y h1 hr (by simp at *; omega) (by simp; omega)
  refine this.trans ?_
  rw [Ctx.eat_eat, ← List.length_append]
  rfl

theorem AllWsp.head {pad : Bytes} (hp : AllWsp pad) (y : Bytes) : ∃ a b z, pad ++ [0x0d, 0x0a] ++ y = a :: b :: z ∧ a ≠ 0x2d ∧ b ≠ 0x2d := by
  have key : ∀ x ∈ pad, x ≠ 0x2d := by
    intro x hx h; subst h
    have := hp 0x2d hx
    revert this; decide
  match pad, key with
  | [], _ => exact ⟨0x0d, 0x0a, y, rfl, by decide, by decide⟩
  | [a], k => exact ⟨a, 0x0d, 0x0a :: y, rfl, k a (by simp), by decide⟩
  | a :: b :: r, k => exact ⟨a, b, _, rfl, k a (by simp), k b (by simp)⟩

theorem parts_run {net : Net} {fl : Flags} {boundary : Bytes} {bs : List Body} {t : Bytes} {n : Nat} (hcr : 0x0d ∉ boundary)
    (h : PartsText net fl boundary bs t n) : ∀ acc : List Body,
    ∃ k, Run fl (multiBody net (0x0d :: 0x0a :: 0x2d :: 0x2d :: boundary)) AnyText acc t (acc ++ bs) n k := by
  induction h with
  | close =>
    intro acc
    refine ⟨1, Run.last ?_⟩
    unfold multiBody
    refine Parses.get ?_
    intro c y h1 h2 h3 h4 h5
    have hl := rest_length c h4
    rw [h2] at hl; simp at hl
    have e0 : c.src[c.pos]? = some 0x2d := by
      have : c.src.drop c.pos = [0x2d, 0x2d] ++ y := h2
      rw [getElem?_eq_drop, this]; rfl
    rw [if_neg (by omega), if_neg (by omega), if_pos (Or.inl e0)]
    simp; rfl
  | @part pad its th nh b bs ts n hp hh hb hts ih =>
    intro acc
    obtain ⟨k, r⟩ := ih (acc ++ [⟨Hdrs.ofItems its, some b⟩])
    rw [List.append_assoc] at r
    refine ⟨k + 1, Run.step AnyText ?_ (by simp) (fun _ _ => trivial) r⟩
    unfold multiBody
    refine Parses.get ?_
    intro c y h1 h2 h3 h4 h5
    have hl := rest_length c h4
    rw [h2] at hl; simp at hl
    obtain ⟨a, b', z, e, ha, hb'⟩ := hp.head ((th ++ [0x0d, 0x0a] ++ (b ++ (0x0d :: 0x0a :: 0x2d :: 0x2d :: boundary))) ++ y)
    have hd : c.src.drop c.pos = a :: b' :: z := by
      have : c.src.drop c.pos = _ := h2
      rw [this, ← e]; simp
    have e0 : c.src[c.pos]? = some a := by rw [getElem?_eq_drop, hd]; rfl
    have e1 : c.src[c.pos + 1]? = some b' := by
      have h9 : c.src[c.pos + 1]? = (c.src.drop c.pos)[1]? := by simp
      rw [h9, hd]; rfl
    rw [if_neg (by omega), if_neg (by omega), if_neg (by
      rintro (h | h)
      · rw [e0] at h; cases h; exact ha rfl
      · rw [e1] at h; cases h; exact hb' rfl)]
    have key : Parses fl (do let b ← parseBodyPart net (0x0d :: 0x0a :: 0x2d :: 0x2d :: boundary); pure (.inl (acc ++ [b])) : P (List Body ⊕ List Body)) _
        (.inl (acc ++ [⟨Hdrs.ofItems its, some b⟩])) _ AnyText :=
      Parses.bind' (bodyPart_text hcr hp hh hb) (Parses.pure _) (fun _ _ => trivial) (List.append_nil _).symm rfl
    exact key c y h1 h2 trivial h4 h5

/-- **C38** a multipart body is read as its parts, in order, each with its headers and its text -/
theorem multiBody_text (net : Net) (fl : Flags) (boundary : Bytes) (bs : List Body) (t : Bytes) (n : Nat) (hcr : 0x0d ∉ boundary)
    (h : PartsText net fl boundary bs t n) : Parses fl (parseMultiBody net boundary) (0x2d :: 0x2d :: boundary ++ t) bs n AnyText := by
  unfold parseMultiBody
  refine Parses.get ?_
  intro c y h1 h2 h3 h4 h5
  have hpre : List.isPrefixOf (0x2d :: 0x2d :: boundary) c.rest = true := by
    rw [h2, List.append_assoc, List.isPrefixOf_iff_prefix]; exact List.prefix_append _ _
  simp only [hpre]
  obtain ⟨k, r⟩ := parts_run hcr h []
  exact Parses.bind' (F := AnyText) (Parses.skip (0x2d :: 0x2d :: boundary)) r.forLoop (fun _ _ => trivial) rfl (by omega) c y h1 h2 trivial h4 h5

/-- **C38** a body of another type is as much of the text behind the headers as Content-Length says, or all of it; the position stays in front of it -/
theorem singleBody_text (net : Net) (fl : Flags) (hs : Hdrs) (n : Nat) (ct : HVal) (cts : List HVal) (hl : (hs.common .contentLength).head? = some (.num n))
    (hct : hs.common .contentType = ct :: cts) (hm : ct.isMultipart = false) (b : Bytes) (hb : b ≠ []) :
    Parses fl (parseMsgBody net hs) [] [{ body := some b }] (16 + (b.length + 2)) (fun y => y.take n = b) := by
  have hmsg : parseMsgBody net hs = parseSingleBody hs := by simp [parseMsgBody, hct, hm]
  rw [hmsg]
  unfold parseSingleBody
  refine Parses.get ?_
  intro c y h1 h2 h3 h4 h5
  obtain ⟨l, hl2⟩ : ∃ l, hs.common .contentLength = .num n :: l := by
    cases h : hs.common .contentLength with
    | nil => rw [h] at hl; cases hl
    | cons a l => rw [h] at hl; simp at hl; subst hl; exact ⟨l, rfl⟩
  have hlen := rest_length c h4
  rw [List.nil_append] at h2
  rw [h2] at hlen
  simp only [hl2]
  have htk : c.rest.take (if n > c.src.length - c.pos then c.src.length - c.pos else n) = b := by
    rw [h2, ← h3]
    split
    · rw [show c.src.length - c.pos = y.length by omega, List.take_length, List.take_of_length_le (by omega)]
    · rfl
  have hne : (if n > c.src.length - c.pos then c.src.length - c.pos else n) ≠ 0 := by
    intro h0; rw [h0] at htk; exact hb htk.symm
  rw [if_neg hne, htk]
  have key : Parses fl (do P.orErr (P.alloc 16); let b ← P.orErr (P.allocStr b); pure [{ body := some b }] : P (List Body)) [] [{ body := some b }] (16 + (b.length + 2)) AnyText :=
    Parses.bind' (F := AnyText) (t1 := []) (Parses.orErr (Parses.alloc 16)) (n2 := b.length + 2)
      (Parses.bind' (F := AnyText) (t1 := []) (Parses.orErr (Parses.allocStr b)) (Parses.pure _) (fun _ _ => trivial) rfl rfl) (fun _ _ => trivial) rfl rfl
  exact key c y h1 h2 trivial h4 h5

/-- **C38** there is no body without a Content-Type, and none of a type other than multipart if Content-Length is absent or 0 or there is no more text -/
theorem noBody_text (net : Net) (fl : Flags) (hs : Hdrs) (hm : ∀ ct ∈ (hs.common .contentType).head?, ct.isMultipart = false) :
    Parses fl (parseMsgBody net hs) [] [] 0 (fun y => hs.common .contentType = [] ∨ y = [] ∨ ∀ n, (hs.common .contentLength).head? = some (.num n) → n = 0) := by
  cases hct : hs.common .contentType with
  | nil =>
    have hmsg : parseMsgBody net hs = pure [] := by simp [parseMsgBody, hct]
    rw [hmsg]; exact Parses.pure _
  | cons ct cts =>
    rw [hct] at hm
    have hmsg : parseMsgBody net hs = parseSingleBody hs := by simp [parseMsgBody, hct, hm ct (by simp)]
    rw [hmsg]
    unfold parseSingleBody
    refine Parses.get ?_
    intro c y h1 h2 h3 h4 h5
    have hlen := rest_length c h4
    rw [List.nil_append] at h2
    rw [h2] at hlen
    split
    · rename_i n l hl
      rcases h3 with h3 | h3 | h3
      · cases h3
      · subst h3; simp only [List.length_nil, Nat.add_zero] at hlen
        rw [if_pos (by split <;> omega)]; rfl
      · have := h3 n (by rw [hl]; rfl)
        subst this; simp; rfl
    · rfl

/-! ## Messages -/

/-- **C38** A start line, header lines, an empty line and the text of a body are read as a message with that start line, those headers and that body. -/
theorem msg_text (net : Net) (fl : Flags) (s : StartLine) (ts : Bytes) (ns : Nat) (its : List HItem) (th : Bytes) (nh : Nat) (bs : List Body) (tb : Bytes) (nb : Nat)
    (F : Bytes → Prop) (h1 : Parses fl (StartLine.parse net) ts s ns AnyText) (h2 : HeaderLines net fl (msgNeed fl) its th nh)
    (h3 : Parses fl (parseMsgBody net (Hdrs.ofItems its)) tb bs nb F) :
    Parses fl (Msg.parse net) (ts ++ (th ++ [0x0d, 0x0a] ++ tb)) ⟨s, Hdrs.ofItems its, bs⟩ (ns + (nh + nb)) F := by
  unfold Msg.parse
  refine Parses.bind' (Parses.orErr h1) (n2 := nh + nb) ?_ (fun _ _ => trivial) rfl rfl
  refine Parses.get ?_
  intro c y g1 g2 g3 g4 g5
  have hl := rest_length c g4
  rw [g2] at hl; simp at hl
  rw [if_neg (by omega), g1]
  have key : Parses fl (do let bs ← P.orErr (parseMsgBody net (Hdrs.ofItems its)); pure ⟨s, Hdrs.ofItems its, bs⟩ : P Msg) tb ⟨s, Hdrs.ofItems its, bs⟩ nb F :=
    Parses.bind' (Parses.orErr h3) (Parses.pure _) (fun y hy => hy) (List.append_nil _).symm rfl
  exact Parses.bind' (Parses.orErr (headers_parse net fl (msgNeed fl) its th nh h2).1) key (fun _ _ => trivial) rfl rfl c y g1 g2 g3 g4 g5

end Sip
