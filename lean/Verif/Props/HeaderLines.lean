import Verif.Props.Names
import Verif.Props.RawHeader
/-!
# C38 (headers): every header of a list of header lines is found, in order

`ValuesText`, `LineText`, `HeaderLines` say what the text of a list of headers is; `headers_parse` says that the parser finds just those headers.
-/
namespace Sip

/-- what stands behind a value inside a header line: the comma before the next value or the end of the line -/
def LineEnd (y : Bytes) : Prop := StartsEol y ∨ ∃ r, y = 0x2c :: r

/-- the text `t` is read as the value `v` of the header, and takes `n` bytes of memory -/
structure ValText (net : Net) (fl : Flags) (k : HKind) (v : HVal) (t : Bytes) (n : Nat) : Prop where
  parses : Parses fl (k.parseValue net) t v n LineEnd
  noWs : ∀ y, NoWs (t ++ y)

/-- the text of the values of one header line: values separated by a comma and white space; the memory they take -/
inductive ValuesText (net : Net) (fl : Flags) (k : HKind) : List HVal → Bytes → Nat → Prop
  | one {v t n} : ValText net fl k v t n → ValuesText net fl k [v] t (k.structSize + n)
  | cons {v t n w vs ts m} : ValText net fl k v t n → rfcList k → IsSWS w → ValuesText net fl k vs ts m →
      ValuesText net fl k (v :: vs) (t ++ (0x2c :: w ++ ts)) (k.structSize + n + m)

theorem startsEol_crlf {y : Bytes} (h : NoFold y) : StartsEol ([0x0d, 0x0a] ++ y) :=
  ⟨y, rfl, fun b hb => by
    have := h b hb
    have key : ∀ b : UInt8, isWspChar b = false → b ≠ 32 ∧ b ≠ 9 := by decide +kernel
    exact key b this⟩

theorem parseAlloc_text {net : Net} {fl : Flags} {k : HKind} {v : HVal} {t : Bytes} {n : Nat} (h : ValText net fl k v t n) :
    Parses fl (k.parseAlloc net) t v (k.structSize + n) LineEnd := by
  unfold HKind.parseAlloc
  exact Parses.bind' (F := AnyText) (t1 := []) (Parses.orErr (Parses.alloc k.structSize)) h.parses (fun _ _ => trivial) rfl rfl

theorem comma_text {fl : Flags} (w : Bytes) (hw : IsSWS w) : Parses fl P.comma (0x2c :: w) true 0 NoWs := by
  intro c y h1 h2 h3 h4 h5
  have h := Parses.markYes (fl := fl) 0x2c (by decide) [] w (Or.inl rfl) hw c y h1 h2 h3 h4 h5
  unfold P.comma
  unfold P.markCanOmmit at h
  rcases hm : parseSWSMarkCanOmmit c 0x2c with ⟨⟨a, b⟩, d⟩
  rw [hm] at h
  cases b with
  | false => simp at h
  | true =>
    simp only [Out.ok.injEq, Prod.mk.injEq, Option.some.injEq] at h
    obtain ⟨rfl, rfl⟩ := h
    rfl

theorem values_run {net : Net} {fl : Flags} {k : HKind} {vs : List HVal} {t : Bytes} {m : Nat} (h : ValuesText net fl k vs t m) :
    ∃ v t1 n1 vs2 tl m2, vs = v :: vs2 ∧ t = t1 ++ tl ∧ m = k.structSize + n1 + m2 ∧ ValText net fl k v t1 n1 ∧
      (∀ acc, ∃ r, Run fl (valuesBody net k) NoFold (acc, v) (tl ++ [0x0d, 0x0a]) (acc ++ v :: vs2) m2 r) ∧
      (∀ y, NoFold y → LineEnd (tl ++ [0x0d, 0x0a] ++ y)) ∧ (¬ rfcList k → vs2 = [] ∧ tl = [] ∧ m2 = 0) := by
  induction h with
  | @one v t n hv =>
    refine ⟨v, t, n, [], [], 0, rfl, by simp, rfl, hv, fun acc => ⟨1, Run.last ?_⟩, fun y hy => Or.inl (startsEol_crlf hy), fun _ => ⟨rfl, rfl, rfl⟩⟩
    unfold valuesBody
    refine Parses.get ?_
    intro c y h1 h2 h3 h4 h5
    have hl := rest_length c h4
    rw [h2] at hl; simp at hl
    have he : isOnlyCRLF c.src c.pos = true := (isOnlyCRLF_spec c.src c.pos).2 (by
      have : c.src.drop c.pos = [0x0d, 0x0a] ++ y := h2
      rw [this]; exact startsEol_crlf h3)
    rw [if_neg (by omega), if_pos he]
    rfl
  | @cons v t n w vs ts m' hv hk hw hvs ih =>
    obtain ⟨v2, t2, n2, vs2, tl, m2, rfl, rfl, rfl, hv2, hrun, hend, _⟩ := ih
    refine ⟨v, t, n, v2 :: vs2, 0x2c :: w ++ (t2 ++ tl), k.structSize + n2 + m2, rfl, rfl, by omega, hv, fun acc => ?_, fun y hy => Or.inr ⟨_, rfl⟩, fun h => absurd hk h⟩
    obtain ⟨r, hr⟩ := hrun (acc ++ [v])
    refine ⟨r + 1, ?_⟩
    have e : 0x2c :: w ++ (t2 ++ tl) ++ [0x0d, 0x0a] = (0x2c :: w ++ t2) ++ (tl ++ [0x0d, 0x0a]) := by simp
    rw [e, show acc ++ v :: v2 :: vs2 = (acc ++ [v]) ++ v2 :: vs2 by simp]
    refine Run.step LineEnd ?_ (by simp) (fun y hy => hend y hy) hr
    unfold valuesBody
    refine Parses.get ?_
    intro c y h1 h2 h3 h4 h5
    have hl := rest_length c h4
    rw [h2] at hl; simp at hl
    have he : isOnlyCRLF c.src c.pos ≠ true := fun hx => by
      obtain ⟨z, hz, _⟩ := (isOnlyCRLF_spec c.src c.pos).1 hx
      have : c.src.drop c.pos = 0x2c :: w ++ t2 ++ y := h2
      rw [this] at hz; simp at hz
    rw [if_neg (by omega), if_neg he]
    have key : Parses fl (P.comma >>= fun m => if m then (do let v' ← k.parseAlloc net; pure (.inl (acc ++ [v], v'))) else (do P.crlf; pure (.inr (acc ++ [v]))) : P ((List HVal × HVal) ⊕ List HVal))
        (0x2c :: w ++ t2) (.inl (acc ++ [v], v2)) (k.structSize + n2) LineEnd := by
      refine Parses.bind' (comma_text w hw) (n2 := k.structSize + n2) ?_ (fun y _ => hv2.noWs y) rfl (by omega)
      rw [if_pos rfl]
      exact Parses.bind' (parseAlloc_text hv2) (Parses.pure _) (fun y hy => hy) (List.append_nil _).symm rfl
    exact key c y h1 h2 h3 h4 h5

/-- the values of a header line, with the end of the line -/
theorem values_parse {net : Net} {fl : Flags} {k : HKind} {vs : List HVal} {t : Bytes} {m : Nat} (h : ValuesText net fl k vs t m) :
    Parses fl (parseHeaderValues net k) (t ++ [0x0d, 0x0a]) vs m NoFold := by
  obtain ⟨v, t1, n1, vs2, tl, m2, rfl, rfl, rfl, hv, hrun, hend, hone⟩ := values_run h
  unfold parseHeaderValues
  refine Parses.bind' (parseAlloc_text hv) (n2 := m2) (t2 := tl ++ [0x0d, 0x0a]) ?_ (fun y hy => hend y hy) (by simp) rfl
  by_cases hm : k.multi = true
  · rw [if_pos hm]
    obtain ⟨r, hr⟩ := hrun []
    exact hr.forLoop
  · rw [if_neg hm]
    obtain ⟨rfl, rfl, rfl⟩ := hone (fun h => hm ((header_multi k).2 h))
    exact Parses.bind' (F := NoFold) Parses.crlf (Parses.pure _) (fun y hy => hy) (List.append_nil _).symm rfl

theorem ValuesText.noWs {net : Net} {fl : Flags} {k : HKind} {vs : List HVal} {t : Bytes} {m : Nat} (h : ValuesText net fl k vs t m) (y : Bytes) : NoWs (t ++ y) := by
  cases h with
  | one h => exact h.noWs y
  | cons h _ _ _ => rw [List.append_assoc]; exact h.noWs _

/-- a header line: the items it is read as, its text, and the memory it takes.  A header of a type that is asked for is read as values, every other
header is kept as text. -/
inductive LineText (net : Net) (fl : Flags) (need : HKind → Bool) : List HItem → Bytes → Nat → Prop
  | parsed {k w w1 w2 vs t n} : need k = true → IsNameOf k w → AllWsp w1 → IsSWS w2 → ValuesText net fl k vs t n →
      LineText net fl need (vs.map (.parsed k)) (w ++ (w1 ++ 0x3a :: w2) ++ (t ++ [0x0d, 0x0a])) n
  | raw {h t} : RawLine h t → (∀ k, HKind.ofIndex h.id = some k → need k = false) → LineText net fl need [.raw h] t h.cost

theorem IsNameOf.nameOf {k : HKind} {w : Bytes} (h : IsNameOf k w) : NameOf k.index none w := by
  obtain ⟨⟨s, h1, h2⟩, h3, _⟩ := header_index_of k
  rcases h with h | ⟨s, hs, h⟩
  · exact Or.inl ⟨s, h1, h.trans h2, rfl⟩
  · obtain ⟨s', g1, g2⟩ := h3 s hs
    exact Or.inl ⟨s', g1, h.trans g2.symm, rfl⟩

theorem LineText.head {net : Net} {fl : Flags} {need : HKind → Bool} {its : List HItem} {t : Bytes} {n : Nat} (h : LineText net fl need its t n) :
    (∃ a r, t = a ++ r ∧ a ≠ [] ∧ InSet csSipToken a) ∧ t ≠ [] ∧ ∀ y, NoFold (t ++ y) := by
  have key : ∀ a r : Bytes, a ≠ [] → InSet csSipToken a → (∃ a' r', a ++ r = a' ++ r' ∧ a' ≠ [] ∧ InSet csSipToken a') ∧ a ++ r ≠ [] ∧ ∀ y, NoFold (a ++ r ++ y) := by
    intro a r h1 h2
    refine ⟨⟨a, r, rfl, h1, h2⟩, by simp [h1], ?_⟩
    obtain ⟨b, a, rfl⟩ := List.exists_cons_of_ne_nil h1
    intro y d hd
    simp at hd; subst hd
    have : ∀ b : UInt8, csSipToken.mem b = true → isWspChar b = false := by decide +kernel
    exact this b (h2 b (by simp))
  cases h with
  | parsed h1 h2 h3 h4 h5 => rw [List.append_assoc]; exact key _ _ h2.nameOf.token.1 h2.nameOf.token.2
  | raw h _ =>
    obtain ⟨n, w1, w2, rfl, hn, _⟩ := h
    rw [List.append_assoc]; exact key _ _ hn.token.1 hn.token.2

theorem line_round {net : Net} {fl : Flags} {need : HKind → Bool} {its : List HItem} {t : Bytes} {n : Nat} (h : LineText net fl need its t n) (acc : List HItem) :
    Parses fl (headersBody net need acc) t (.inl (acc ++ its)) n NoFold := by
  unfold headersBody
  refine Parses.get ?_
  intro c y h1 h2 h3 h4 h5
  obtain ⟨a, r, e, ha1, ha2⟩ := h.head.1
  obtain ⟨e1, e2⟩ := notEnd (c := c) (n := a) (y := r ++ y) (by rw [h2, e]; simp) h4 ha1 ha2
  rw [if_neg e1, if_neg (by rw [e2]; decide)]
  have key : Parses fl (do let n ← P.orErr parseMsgHeaderName; let hs ← parseHeaderLine net need n; pure (.inl (acc ++ hs)) : P (List HItem ⊕ List HItem)) t (.inl (acc ++ its)) n NoFold := by
    cases h with
    | @parsed k w w1 w2 vs t n g1 g2 g3 g4 g5 =>
      refine Parses.bind' (Parses.orErr (msgHeaderName_text g2.nameOf w1 w2 g3 g4)) (n2 := n) ?_ (fun y _ => ?_) rfl (by simp [nameCost])
      · have hl : parseHeaderLine net need (none, k.index) = (do let vs ← parseHeaderValues net k; pure (vs.map (.parsed k))) := by
          simp only [parseHeaderLine, (header_index_of k).2.2.1, g1, if_true]
        have : Parses fl (parseHeaderLine net need (none, k.index)) (t ++ [0x0d, 0x0a]) (vs.map (.parsed k)) n NoFold := by
          rw [hl]; exact Parses.bind' (values_parse g5) (Parses.pure _) (fun y hy => hy) (List.append_nil _).symm rfl
        exact Parses.bind' this (Parses.pure _) (fun y hy => hy) (List.append_nil _).symm rfl
      · rw [List.append_assoc]; exact g5.noWs _
    | @raw h t g1 g2 =>
      obtain ⟨n, w1, w2, rfl, hn, hw1, hw2, hv, hws⟩ := g1
      refine Parses.bind' (Parses.orErr (msgHeaderName_text hn w1 w2 hw1 hw2)) (n2 := 8 + (h.value.length + 2)) ?_ (fun y _ => ?_) rfl (by unfold RawHeader.cost; omega)
      · have hl : parseHeaderLine net need (h.name, h.id) = (do let x ← parseRawHeader h.id h.name; pure [.raw x]) := by
          unfold parseHeaderLine
          cases hk : HKind.ofIndex h.id with
          | none => simp only [hk]
          | some k => simp only [hk, g2 k hk]; rfl
        have : Parses fl (parseHeaderLine net need (h.name, h.id)) (h.value ++ [0x0d, 0x0a]) [.raw h] (8 + (h.value.length + 2)) NoFold := by
          rw [hl]; exact Parses.bind' (rawHeader_text h hv) (Parses.pure _) (fun y hy => hy) (List.append_nil _).symm rfl
        exact Parses.bind' this (Parses.pure _) (fun y hy => hy) (List.append_nil _).symm rfl
      · rw [List.append_assoc]; exact noWs_append hws hv.1
  exact key c y h1 h2 h3 h4 h5

/-- the lines of a list of headers -/
inductive HeaderLines (net : Net) (fl : Flags) (need : HKind → Bool) : List HItem → Bytes → Nat → Prop
  | nil : HeaderLines net fl need [] [] 0
  | cons {its t n its' ts m} : LineText net fl need its t n → HeaderLines net fl need its' ts m → HeaderLines net fl need (its ++ its') (t ++ ts) (n + m)

theorem HeaderLines.append {net : Net} {fl : Flags} {need : HKind → Bool} {a b : List HItem} {s t : Bytes} {n m : Nat} (h1 : HeaderLines net fl need a s n)
    (h2 : HeaderLines net fl need b t m) : HeaderLines net fl need (a ++ b) (s ++ t) (n + m) := by
  induction h1 with
  | nil => simpa using h2
  | cons x _ ih => rw [List.append_assoc, List.append_assoc, Nat.add_assoc]; exact .cons x ih

theorem HeaderLines.noFold {net : Net} {fl : Flags} {need : HKind → Bool} {a : List HItem} {s : Bytes} {n : Nat} (h : HeaderLines net fl need a s n) (y : Bytes)
    (hy : NoFold y) : NoFold (s ++ y) := by
  cases h with
  | nil => exact hy
  | cons x _ => rw [List.append_assoc]; exact x.head.2.2 _

theorem lines_run {net : Net} {fl : Flags} {need : HKind → Bool} {its : List HItem} {t : Bytes} {n : Nat} (h : HeaderLines net fl need its t n) : ∀ acc : List HItem,
    (∃ k, Run fl (headersBody net need) AnyText acc (t ++ [0x0d, 0x0a]) (acc ++ its) n k) ∧
    (∃ k, Run fl (headersBody net need) (fun y => y = []) acc t (acc ++ its) n k) := by
  induction h with
  | nil =>
    intro acc
    constructor
    · refine ⟨1, Run.last ?_⟩
      unfold headersBody
      refine Parses.get ?_
      intro c y h1 h2 h3 h4 h5
      have hl := rest_length c h4
      rw [h2] at hl; simp at hl
      rw [if_neg (by omega), if_pos ((isCRLF_iff c).2 ⟨y, h2⟩)]
      simp; rfl
    · refine ⟨1, Run.last ?_⟩
      unfold headersBody
      refine Parses.get ?_
      intro c y h1 h2 h3 h4 h5
      have hl := rest_length c h4
      rw [h2, h3] at hl; simp at hl
      rw [if_pos (by omega)]
      simp; rfl
  | @cons its t n its' ts m ht hts ih =>
    intro acc
    obtain ⟨⟨k1, r1⟩, ⟨k2, r2⟩⟩ := ih (acc ++ its)
    rw [List.append_assoc] at r1 r2
    refine ⟨⟨k1 + 1, ?_⟩, ⟨k2 + 1, ?_⟩⟩
    · rw [List.append_assoc]
      exact Run.step NoFold (line_round ht acc) ht.head.2.1 (fun y _ => by rw [List.append_assoc]; exact hts.noFold _ (noFold_crlf y)) r1
    · exact Run.step NoFold (line_round ht acc) ht.head.2.1 (fun y hy => by subst hy; exact hts.noFold _ (by intro b hb; cases hb)) r2

/-- **C38** Every header of a list of header lines - names in any letter case and in the compact form, white space around the colon, several values in a line,
folded text in raw values - is found once and in order, with its values; the list ends with an empty line or with the end of the input. -/
theorem headers_parse (net : Net) (fl : Flags) (need : HKind → Bool) (its : List HItem) (t : Bytes) (n : Nat) (h : HeaderLines net fl need its t n) :
    Parses fl (parseHeaders net need) (t ++ [0x0d, 0x0a]) its n AnyText ∧ Parses fl (parseHeaders net need) t its n (fun y => y = []) := by
  obtain ⟨⟨k1, r1⟩, ⟨k2, r2⟩⟩ := lines_run h []
  rw [List.nil_append] at r1 r2
  unfold parseHeaders
  exact ⟨r1.forLoop, r2.forLoop⟩

end Sip
