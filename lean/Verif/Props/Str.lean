import Verif.Lemmas.Str
/-!
# C07, C08, C09, C14: tokens, escapes, case-insensitive comparison
-/
namespace Sip

/-! ## C07: the longest run

`x` is the longest prefix of the remaining input made of bytes of the set. -/

/-- `x` is the maximal run of bytes of the set `s` at the start of `t`, followed by `y` -/
def MaxRun (s : CS) (t x y : Bytes) : Prop := t = x ++ y ∧ (∀ b ∈ x, s.mem b = true) ∧ (∀ b ∈ y.head?, s.mem b = false)

theorem exists_maxRun (s : CS) (t : Bytes) : ∃ x y, MaxRun s t x y := by
  obtain ⟨x, y, h1, h2, h3, _⟩ := exists_run s.mem t
  exact ⟨x, y, h1, h2, h3⟩

theorem maxRun_takeWhile {s : CS} {t x y : Bytes} (h : MaxRun s t x y) : t.takeWhile s.mem = x := takeWhile_split h.1 h.2.1 h.2.2

/-- **C07** `ParseAndAllocCString`, for every input, position, set and arena in which the run fits: it succeeds iff the run is not empty,
stores exactly the run, moves just behind it and uses `length + 2` bytes; otherwise it reports an error and does not move. -/
theorem parseStr_spec (s : CS) (c : Ctx) (x y : Bytes) (h : MaxRun s c.rest x y) (hfit : c.used + 2 + x.length < c.cap) :
    parseStr s c =
      if x = [] then .ok (none, c.addError c.pos)
      else .ok (some x, { c with pos := c.pos + x.length, used := c.used + 2 + x.length }) := by
  unfold parseStr
  simp only [maxRun_takeWhile h]
  rw [if_neg (by omega), if_neg (by omega)]
  by_cases hx : x = []
  · subst hx; simp
  · have : x.length ≠ 0 := by simpa using hx
    rw [if_neg (by omega), if_neg (by omega), if_neg hx]

example : MaxRun csSipToken (str "abc;d") (str "abc") (str ";d") := by
  refine ⟨by decide +kernel, by decide +kernel, by decide +kernel⟩

/-- **C07** the exact memory behaviour of `ParseAndAllocCString`: "no mem" is reported when fewer than 3 bytes are free or when the string
ends exactly at the end of the arena, and the call *panics* when the run is longer than the free memory. -/
theorem parseStr_memory (s : CS) (c : Ctx) (x y : Bytes) (h : MaxRun s c.rest x y) :
    (c.cap ≤ c.used + 2 → parseStr s c = .ok (none, c.addError c.pos)) ∧
    (c.used + 2 < c.cap → c.used + 2 + x.length = c.cap → parseStr s c = .ok (none, c.addError (c.pos + x.length))) ∧
    (c.used + 2 < c.cap → (parseStr s c = .panic ↔ c.cap < c.used + 2 + x.length)) := by
  unfold parseStr
  simp only [maxRun_takeWhile h]
  refine ⟨fun h1 => if_pos h1, fun h1 h2 => ?_, fun h1 => ?_⟩
  · rw [if_neg (by omega), if_neg (by omega), if_neg (by omega), if_pos (by omega)]
  · rw [if_neg (by omega)]
    constructor
    · intro h2
      false_or_by_contra
      rw [if_neg (by omega)] at h2
      split at h2
      · cases h2
      · split at h2 <;> cases h2
    · intro h2; rw [if_pos (by omega)]

/-- **C07 / C29, negation**: a 10 byte token in an arena with 5 free bytes makes the parser panic instead of reporting "no mem". -/
theorem parseStr_panics : parseStr csSipToken { src := str "abcdefghij", cap := 13 } = .panic := by decide +kernel

/-- **C07** the variant that accepts the empty run -/
theorem parseStrEnableEmpty_spec (s : CS) (c : Ctx) (x y : Bytes) (h : MaxRun s c.rest x y) (hfit : c.used + 2 + x.length < c.cap) :
    parseStrEnableEmpty s c = .ok (some x, { c with pos := c.pos + x.length, used := c.used + 2 + x.length }) := by
  unfold parseStrEnableEmpty
  simp only [maxRun_takeWhile h]
  rw [if_neg (by omega), if_neg (by omega), if_neg (by omega)]

/-- **C07** the variant that takes the bytes up to `pos` unconditionally and continues with a run -/
theorem parseStrFromPos_spec (s : CS) (c : Ctx) (pos : Nat) (hp : c.pos ≤ pos) (hl : pos ≤ c.src.length) (z x y : Bytes)
    (hz : c.rest = z ++ x ++ y) (hzl : z.length = pos - c.pos) (h : MaxRun s (x ++ y) x y)
    (hfit : c.used + 2 + z.length + x.length < c.cap) (hne : z ++ x ≠ []) :
    parseStrFromPos s pos c =
      .ok (some (z ++ x), { c with pos := pos + x.length, used := c.used + 2 + z.length + x.length }) := by
  unfold parseStrFromPos
  have hd : c.src.drop pos = x ++ y := by
    have : c.src.drop (c.pos + z.length) = (z ++ x ++ y).drop z.length := drop_add_of_drop hz _
    rw [show c.pos + z.length = pos by omega] at this
    rw [this]; simp
  have hmax : max c.pos pos = pos := Nat.max_eq_right hp
  simp only [hmax, hd, maxRun_takeWhile h]
  clear hmax
  have hn : z.length + x.length ≠ 0 := by
    intro h0; apply hne; apply List.eq_nil_of_length_eq_zero; rw [List.length_append]; exact h0
  have hz' : (c.src.drop c.pos).take (pos - c.pos) = z := by
    have : c.src.drop c.pos = z ++ (x ++ y) := by rw [← List.append_assoc]; exact hz
    rw [this, ← hzl]; simp
  rw [if_neg (by omega), if_neg (by omega), if_neg (by omega), if_neg (by omega), if_neg (by omega), if_neg (by omega), hz']
  simp only [Out.ok.injEq, Prod.mk.injEq, true_and]
  congr 1; omega

example : (⟨str "1.2.3.x;", 0, 8, 100, [], {}⟩ : Ctx).rest = str "1.2.3." ++ str "x" ++ str ";" ∧ MaxRun csHostname (str "x" ++ str ";") (str "x") (str ";") := by
  refine ⟨by decide +kernel, by decide +kernel, by decide +kernel, by decide +kernel⟩

/-! ## C08, C09: escapes -/

/-- `a` is the hex digit for the number `i`, in any letter case -/
def HexDigit (a : UInt8) (i : Nat) : Prop := (str "0123456789abcdef")[i]? = some a ∨ (str "0123456789ABCDEF")[i]? = some a

theorem hexVal_exact : ∀ a : UInt8, isHex a = true → (hexVal a).toNat < 16 ∧ HexDigit a (hexVal a).toNat := by unfold HexDigit; decide +kernel

/-- **C08** what an escape stands for: 16 times the value of the first digit plus that of the second -/
theorem unescape_exact (a b : UInt8) (ha : isHex a = true) (hb : isHex b = true) : ∃ i j : Nat, HexDigit a i ∧ HexDigit b j ∧
    (unescapeByte a b).toNat = 16 * i + j := by
  obtain ⟨h1, h2⟩ := hexVal_exact a ha
  obtain ⟨h3, h4⟩ := hexVal_exact b hb
  refine ⟨_, _, h2, h4, ?_⟩
  unfold unescapeByte
  rw [UInt8.toNat_add, UInt8.toNat_mul]
  show ((hexVal a).toNat * 16 % 256 + (hexVal b).toNat) % 256 = _
  omega

/-- independent specification of unescaping: `Decodes s t o y` – reading `t`, bytes of the set are taken, `%HH` is decoded, giving `o`, and what is
left (`y`) starts with a byte that is neither in the set nor '%', or is empty -/
inductive Decodes (s : CS) : Bytes → Bytes → Bytes → Prop
  | stop (y) (h : ∀ c ∈ y.head?, s.mem c = false ∧ c ≠ 0x25) : Decodes s y [] y
  | lit (v t o y) (h : s.mem v = true) (hr : Decodes s t o y) : Decodes s (v :: t) (v :: o) y
  | esc (a b t o y) (h : s.mem 0x25 = false) (ha : isHex a = true) (hb : isHex b = true) (hr : Decodes s t o y) :
      Decodes s (0x25 :: a :: b :: t) (unescapeByte a b :: o) y

/-- a malformed escape is met: '%' not followed by two hex digits -/
inductive BadEscape (s : CS) : Bytes → Nat → Prop
  | here (t) (h : s.mem 0x25 = false) (hb : ¬ ∃ a b t', t = a :: b :: t' ∧ isHex a = true ∧ isHex b = true) : BadEscape s (0x25 :: t) 0
  | lit (v t n) (h : s.mem v = true) (hr : BadEscape s t n) : BadEscape s (v :: t) (n + 1)
  | esc (a b t n) (h : s.mem 0x25 = false) (ha : isHex a = true) (hb : isHex b = true) (hr : BadEscape s t n) :
      BadEscape s (0x25 :: a :: b :: t) (n + 3)

theorem escLoop_decodes (s : CS) (cap : Nat) (t o y : Bytes) (h : Decodes s t o y) (p u : Nat) (out : Bytes) (hu : u + o.length ≤ cap) :
    escLoop s cap t p u out = .stop (p + (t.length - y.length)) (u + o.length) (out ++ o) ∧ y.length ≤ t.length := by
  induction h generalizing p u out with
  | stop y h => rw [escLoop_stop s cap y p u out h]; simp
  | lit v t o y h hr ih =>
    simp only [List.length_cons] at hu
    have := ih (p + 1) (u + 1) (out ++ [v]) (by omega)
    rw [escLoop_cons, if_pos h, if_neg (by omega), this.1]
    refine ⟨?_, by simp; omega⟩
    have := this.2
    congr 1 <;> simp <;> omega
  | esc a b t o y h ha hb hr ih =>
    simp only [List.length_cons] at hu
    have := ih (p + 3) (u + 1) (out ++ [unescapeByte a b]) (by omega)
    rw [escLoop_cons, if_neg (by simp [h])]
    simp only [ne_eq, not_true_eq_false, if_false]
    rw [if_neg (by simp [ha, hb]), if_neg (by omega), this.1]
    refine ⟨?_, by simp; omega⟩
    have := this.2
    congr 1 <;> simp <;> omega

/-- every input either decodes or has a malformed escape -/
theorem decodes_or_bad (s : CS) (t : Bytes) : (∃ o y, Decodes s t o y) ∨ ∃ n, BadEscape s t n := by
  induction hn : t.length using Nat.strongRecOn generalizing t with
  | ind n ih =>
    match t with
    | [] => left; exact ⟨[], [], .stop [] (by simp)⟩
    | v :: r =>
      by_cases hv : s.mem v = true
      · rcases ih r.length (by simp at hn; omega) r rfl with ⟨o, y, h⟩ | ⟨n, h⟩
        · left; exact ⟨_, _, .lit v r o y hv h⟩
        · right; exact ⟨_, .lit v r n hv h⟩
      · have hv' : s.mem v = false := by simpa using hv
        by_cases h25 : v = 0x25
        · subst h25
          by_cases hb : ∃ a b t', r = a :: b :: t' ∧ isHex a = true ∧ isHex b = true
          · obtain ⟨a, b, t', rfl, ha, hb⟩ := hb
            rcases ih t'.length (by simp at hn; omega) t' rfl with ⟨o, y, h⟩ | ⟨n, h⟩
            · left; exact ⟨_, _, .esc a b t' o y hv' ha hb h⟩
            · right; exact ⟨_, .esc a b t' n hv' ha hb h⟩
          · right; exact ⟨0, .here r hv' hb⟩
        · left; exact ⟨[], v :: r, .stop _ (by simp [hv', h25])⟩

theorem escLoop_bad (s : CS) (cap : Nat) (t : Bytes) (n : Nat) (h : BadEscape s t n) (p u : Nat) (out : Bytes) (hu : u + n < cap) :
    escLoop s cap t p u out = .bad (p + n) := by
  induction h generalizing p u out with
  | here t h hb =>
    rw [escLoop_cons, if_neg (by simp [h])]
    simp only [ne_eq, not_true_eq_false, if_false]
    match t with
    | [] => rfl
    | [a] => rfl
    | a :: b :: t' =>
      simp only
      rw [if_pos]; · rfl
      have := fun ha hb' => hb ⟨a, b, t', rfl, ha, hb'⟩
      cases h1 : isHex a <;> cases h2 : isHex b <;> simp_all
  | lit v t n h hr ih =>
    rw [escLoop_cons, if_pos h, if_neg (by omega), ih _ _ _ (by omega)]
    congr 1; omega
  | esc a b t n h ha hb hr ih =>
    rw [escLoop_cons, if_neg (by simp [h])]
    simp only [ne_eq, not_true_eq_false, if_false]
    rw [if_neg (by simp [ha, hb]), if_neg (by omega), ih _ _ _ (by omega)]
    congr 1; omega

/-- **C08** decoding is total and exact: with enough memory the Escapable parser stores what the grammar says and stops where it says … -/
theorem parseStrEscapable_spec (s : CS) (c : Ctx) (o y : Bytes) (h : Decodes s c.rest o y) (hfit : c.used + 2 + o.length < c.cap) :
    parseStrEscapable s c =
      (if o = [] then .ok (none, c.addError c.pos)
       else .ok (some o, { c with pos := c.pos + (c.rest.length - y.length), used := c.used + 2 + o.length })) ∧
    parseStrEscapableEnableEmpty s c =
      .ok (some o, { c with pos := c.pos + (c.rest.length - y.length), used := c.used + 2 + o.length }) := by
  obtain ⟨h1, h2⟩ := escLoop_decodes s c.cap c.rest o y h c.pos (c.used + 2) [] (by omega)
  unfold parseStrEscapable parseStrEscapableEnableEmpty
  rw [if_neg (by omega), h1]
  simp only [List.nil_append]
  have hlen : ∀ t, Decodes s t o y → o ≠ [] → y.length < t.length := by
    intro t h ho
    cases h with
    | stop => exact absurd rfl ho
    | lit v t o y h hr =>
      have := (escLoop_decodes s (0 + o.length) t o y hr 0 0 [] (by omega)).2
      simp; omega
    | esc a b t o y h ha hb hr =>
      have := (escLoop_decodes s (0 + o.length) t o y hr 0 0 [] (by omega)).2
      simp; omega
  refine ⟨?_, ?_⟩
  · by_cases ho : o = []
    · subst ho
      have : ∀ t, Decodes s t [] y → t.length = y.length := by
        intro t h; cases h; rfl
      have := this _ h
      rw [if_pos (by omega), if_pos rfl, this]; simp
    · have := hlen _ h ho
      rw [if_neg (by omega), if_neg (by omega), if_neg ho]
  · rw [if_neg (by omega), if_neg (by omega)]

/-- **C08** … and a truncated or non-hex escape is rejected, with the position on its '%'. -/
theorem parseStrEscapable_bad (s : CS) (c : Ctx) (n : Nat) (h : BadEscape s c.rest n) (hfit : c.used + 2 + n < c.cap) :
    parseStrEscapable s c = .ok (none, (c.setPos (c.pos + n)).addError (c.pos + n)) ∧
    parseStrEscapableEnableEmpty s c = .ok (none, (c.setPos (c.pos + n)).addError (c.pos + n)) := by
  unfold parseStrEscapable parseStrEscapableEnableEmpty
  rw [if_neg (by omega), if_neg (by omega), escLoop_bad s c.cap c.rest n h _ _ _ (by omega)]
  exact ⟨rfl, rfl⟩

example : BadEscape csSipUser (str "a%4g@") 1 := .lit _ _ _ (by decide +kernel) (.here _ (by decide +kernel) (by
  rintro ⟨a, b, t, h, ha, hb⟩
  have h' : ([0x34, 0x67, 0x40] : Bytes) = a :: b :: t := h
  simp only [List.cons.injEq] at h'
  obtain ⟨rfl, rfl, _⟩ := h'
  revert hb; decide +kernel))

/-- **C08** escaping is lossless: for every byte string, what `WriteCStringEscape` writes decodes to it, whatever follows (a byte that is neither
in the set nor '%'). -/
theorem escape_decodes (s : CS) (h25 : s.mem 0x25 = false) (b y : Bytes) (hy : ∀ c ∈ y.head?, s.mem c = false ∧ c ≠ 0x25) :
    Decodes s (escapeStr s b ++ y) b y := by
  induction b with
  | nil => exact .stop y hy
  | cons v b ih =>
    have hcons : escapeStr s (v :: b) = escapeByte s v ++ escapeStr s b := by simp [escapeStr]
    rw [hcons]
    unfold escapeByte
    by_cases hv : s.mem v = true
    · rw [if_pos hv]; exact .lit v _ b y hv ih
    · rw [if_neg hv]
      have := Decodes.esc (toUpperHex (v >>> 4)) (toUpperHex v) _ b y h25 (isHex_toUpperHex _) (isHex_toUpperHex _) ih
      rw [unescape_escape] at this
      exact this

/-- **C08** round trip through the parser -/
theorem escape_roundtrip (s : CS) (h25 : s.mem 0x25 = false) (b : Bytes) (hb : b ≠ []) (c : Ctx) (y : Bytes)
    (h : c.rest = escapeStr s b ++ y) (hy : ∀ c ∈ y.head?, s.mem c = false ∧ c ≠ 0x25) (hfit : c.used + 2 + b.length < c.cap) :
    parseStrEscapable s c =
      .ok (some b, { c with pos := c.pos + (escapeStr s b).length, used := c.used + 2 + b.length }) := by
  have hd := escape_decodes s h25 b y hy
  rw [← h] at hd
  rw [(parseStrEscapable_spec s c b y hd hfit).1, if_neg hb, h]
  simp

theorem escape_roundtrip_empty (s : CS) (h25 : s.mem 0x25 = false) (b : Bytes) (c : Ctx) (y : Bytes)
    (h : c.rest = escapeStr s b ++ y) (hy : ∀ c ∈ y.head?, s.mem c = false ∧ c ≠ 0x25) (hfit : c.used + 2 + b.length < c.cap) :
    parseStrEscapableEnableEmpty s c =
      .ok (some b, { c with pos := c.pos + (escapeStr s b).length, used := c.used + 2 + b.length }) := by
  have hd := escape_decodes s h25 b y hy
  rw [← h] at hd
  rw [(parseStrEscapable_spec s c b y hd hfit).2, h]
  simp

/-- the sets the URI parser and encoder use meet the hypothesis -/
example : csSipUser.mem 0x25 = false ∧ csSipPassword.mem 0x25 = false ∧ csSipPname.mem 0x25 = false ∧ csSipPvalue.mem 0x25 = false ∧
    csSipHname.mem 0x25 = false ∧ csSipHvalue.mem 0x25 = false := by decide +kernel

/-- **C08, negation for sets containing '%'**: with the token set the text "%41" is stored as it is, not decoded. -/
theorem token_escape_not_decoded :
    parseStrEscapable csSipToken { src := str "%41;", cap := 100 } =
      .ok (some (str "%41"), { src := str "%41;", pos := 3, used := 13, cap := 100 }) := by decide +kernel

/-- **C09** every byte written is in the set, a '%', or an upper case hex digit -/
theorem escape_output_bytes (s : CS) (b : Bytes) : ∀ c ∈ escapeStr s b, s.mem c = true ∨ c = 0x25 ∨ isUpperHex c = true := by
  intro c hc
  simp only [escapeStr, List.mem_flatMap] at hc
  obtain ⟨v, _, hv⟩ := hc
  have hx : ∀ n : UInt8, isUpperHex (toUpperHex n) = true := by decide +kernel
  unfold escapeByte at hv
  split at hv
  · simp only [List.mem_singleton] at hv; subst hv; left; assumption
  · simp only [List.mem_cons, List.not_mem_nil, or_false] at hv
    rcases hv with rfl | rfl | rfl
    · exact Or.inr (Or.inl rfl)
    · exact Or.inr (Or.inr (hx _))
    · exact Or.inr (Or.inr (hx _))

/-- **C09** bytes of the set are written unchanged, every other byte takes three characters -/
theorem escape_output_length (s : CS) (b : Bytes) :
    (escapeStr s b).length = b.length + 2 * (b.filter fun v => !s.mem v).length ∧
    ((∀ v ∈ b, s.mem v = true) → escapeStr s b = b) := by
  induction b with
  | nil => simp [escapeStr]
  | cons v b ih =>
    have hcons : escapeStr s (v :: b) = escapeByte s v ++ escapeStr s b := by simp [escapeStr]
    rw [hcons]
    unfold escapeByte
    by_cases hv : s.mem v = true
    · simp only [hv, if_true, List.cons_append, List.nil_append, List.length_cons, List.filter_cons, Bool.not_true, Bool.false_eq_true,
        if_false]
      refine ⟨by omega, ?_⟩
      intro h; rw [ih.2 (fun x hx => h x (by simp [hx]))]
    · simp only [hv, Bool.false_eq_true, if_false, List.cons_append, List.nil_append, List.length_cons, List.filter_cons]
      refine ⟨by simp; omega, ?_⟩
      intro h; exact absurd (h v (by simp)) hv

/-- **C09** escaping distinguishes all byte strings -/
theorem escape_injective (s : CS) (h25 : s.mem 0x25 = false) (a b : Bytes) (h : escapeStr s a = escapeStr s b) : a = b := by
  have ha := escape_roundtrip_empty s h25 a { src := escapeStr s a, cap := a.length + 11 + b.length } [] (by simp [Ctx.rest]) (by simp) (by simp only; omega)
  have hb := escape_roundtrip_empty s h25 b { src := escapeStr s a, cap := a.length + 11 + b.length } [] (by simp [Ctx.rest, h]) (by simp) (by simp only; omega)
  rw [ha] at hb
  simp only [Out.ok.injEq, Prod.mk.injEq, Option.some.injEq] at hb
  exact hb.1

/-! ## C14 -/

/-- ASCII lower case: the specification -/
def asciiLower (c : UInt8) : UInt8 := if 0x41 ≤ c ∧ c ≤ 0x5a then c + 0x20 else c

theorem toLower_eq (c : UInt8) : toLower c = asciiLower c := by
  revert c; decide +kernel

theorem eqNoCaseTail_iff (a b : Bytes) (h : a.length = b.length) : eqNoCaseTail a b = true ↔ a.map asciiLower = b.map asciiLower := by
  induction a generalizing b with
  | nil => cases b with
    | nil => simp [eqNoCaseTail]
    | cons => simp at h
  | cons x a ih => cases b with
    | nil => simp at h
    | cons y b =>
      simp only [List.length_cons, Nat.add_right_cancel_iff] at h
      simp only [eqNoCaseTail, toLower_eq, List.map_cons, List.cons.injEq]
      by_cases hxy : asciiLower x = asciiLower y
      · simp [hxy, ih b h]
      · simp [hxy]

/-- **C14** `CStringEqualNoCase` is equality after ASCII case folding (for every pair of strings). -/
theorem strEqNoCase_iff (a name : Bytes) : strEqNoCase (some a) name = true ↔ a.map asciiLower = name.map asciiLower := by
  unfold strEqNoCase
  simp only
  by_cases hl : name.length ≠ a.length
  · rw [if_pos hl]
    simp only [Bool.false_eq_true, false_iff]
    intro h
    have := congrArg List.length h
    simp at this; omega
  · rw [if_neg hl]
    have hl' : a.length = name.length := by omega
    clear hl
    induction a generalizing name with
    | nil => cases name with
      | nil => simp [eqNoCaseLoop]
      | cons => simp at hl'
    | cons x a ih => cases name with
      | nil => simp at hl'
      | cons y b =>
        simp only [eqNoCaseLoop]
        by_cases hxy : x = y
        · simp only [hxy, ne_eq, not_true_eq_false, if_false, List.map_cons, List.cons.injEq, true_and]
          exact ih b (by simpa using hl')
        · simp only [ne_eq, hxy, not_false_eq_true, if_true]
          exact eqNoCaseTail_iff _ _ hl'

/-- **C14** nil equals nothing; otherwise the comparison is an equivalence relation -/
theorem strEqNoCase_equiv :
    (∀ n, strEqNoCase none n = false) ∧ (∀ a, strEqNoCase (some a) a = true) ∧
    (∀ a b, strEqNoCase (some a) b = strEqNoCase (some b) a) ∧
    (∀ a b c, strEqNoCase (some a) b = true → strEqNoCase (some b) c = true → strEqNoCase (some a) c = true) := by
  refine ⟨fun _ => rfl, fun a => (strEqNoCase_iff a a).2 rfl, fun a b => ?_, fun a b c h1 h2 => ?_⟩
  · rw [Bool.eq_iff_iff, strEqNoCase_iff, strEqNoCase_iff]; exact eq_comm
  · rw [strEqNoCase_iff] at *; exact h1.trans h2

/-- **C14** `HasPrefixNoCase` -/
theorem strHasPrefixNoCase_iff (p pre : Bytes) :
    strHasPrefixNoCase p pre = true ↔ ∃ x y, p = x ++ y ∧ x.map asciiLower = pre.map asciiLower := by
  have hml : toLower = asciiLower := funext toLower_eq
  unfold strHasPrefixNoCase
  rw [hml]
  by_cases h : p.length < pre.length
  · rw [if_pos h]
    simp only [Bool.false_eq_true, false_iff]
    rintro ⟨x, y, rfl, hx⟩
    have := congrArg List.length hx
    simp at this h; omega
  · rw [if_neg h]
    constructor
    · intro h; exact ⟨p.take pre.length, p.drop pre.length, (List.take_append_drop _ _).symm, by simpa using h⟩
    · rintro ⟨x, y, rfl, hx⟩
      have hl := congrArg List.length hx
      simp at hl
      rw [← hl]; simp [hx]

example : strEqNoCase (some (str "TransPORT")) (str "transport") = true ∧ strEqNoCase (some (str "ttl")) (str "tt[") = false := by decide +kernel

end Sip
