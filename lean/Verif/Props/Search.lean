import Verif.Model.Search
import Verif.Props.Str
import Verif.Props.Lws
/-!
# C32: searching a text
-/
namespace Sip

/-! ## `ByteSliceIndexNoCase` -/

/-- the pattern stands at index `i` of the text, in any letter case -/
def MatchAt (src find : Bytes) (i : Nat) : Prop := i + find.length ≤ src.length ∧ ((src.drop i).take find.length).map asciiLower = find.map asciiLower

theorem map_toLower (s : Bytes) : s.map toLower = s.map asciiLower := List.map_congr_left (fun c _ => toLower_eq c)

theorem matchAt_zero (b : UInt8) (y : Bytes) (c : UInt8) (f : Bytes) :
    MatchAt (b :: y) (c :: f) 0 ↔ toLower b = toLower c ∧ f.length ≤ y.length ∧ (y.take f.length).map toLower = f.map toLower := by
  unfold MatchAt
  simp only [List.drop_zero, List.length_cons, List.take_succ_cons, List.map_cons, List.cons.injEq, toLower_eq, map_toLower]
  constructor
  · rintro ⟨h1, h2, h3⟩; exact ⟨h2, by omega, h3⟩
  · rintro ⟨h1, h2, h3⟩; exact ⟨by omega, h1, h3⟩

theorem matchAt_succ (b : UInt8) (y f : Bytes) (i : Nat) : MatchAt (b :: y) f (i + 1) ↔ MatchAt y f i := by
  unfold MatchAt
  simp only [List.drop_succ_cons, List.length_cons]
  constructor
  · rintro ⟨h1, h2⟩; exact ⟨by omega, h2⟩
  · rintro ⟨h1, h2⟩; exact ⟨by omega, h2⟩

/-- the first match that does not reach the end of the text -/
def FirstMatch (s find : Bytes) (i : Nat) : Prop := MatchAt s find i ∧ i + find.length < s.length ∧ ∀ j, j < i → ¬ MatchAt s find j

theorem firstMatch_succ (b : UInt8) (y f : Bytes) (i : Nat) (h0 : ¬ MatchAt (b :: y) f 0) : FirstMatch (b :: y) f (i + 1) ↔ FirstMatch y f i := by
  unfold FirstMatch
  rw [matchAt_succ]
  constructor
  · rintro ⟨h1, h2, h3⟩
    exact ⟨h1, by simp at h2; omega, fun j hj hm => h3 (j + 1) (by omega) ((matchAt_succ b y f j).2 hm)⟩
  · rintro ⟨h1, h2, h3⟩
    refine ⟨h1, by simp; omega, fun j hj hm => ?_⟩
    cases j with
    | zero => exact h0 hm
    | succ j => exact h3 j (by omega) ((matchAt_succ b y f j).1 hm)

theorem indexNoCaseFrom_iff (c : UInt8) (f : Bytes) (s : Bytes) : ∀ k i, indexNoCaseFrom c f s k = some i ↔ ∃ j, i = k + j ∧ FirstMatch s (c :: f) j := by
  induction s with
  | nil =>
    intro k i
    simp only [indexNoCaseFrom, reduceCtorEq, false_iff]
    rintro ⟨j, _, ⟨h, _⟩, _⟩
    simp at h
  | cons b y ih =>
    intro k i
    have skip : ¬ MatchAt (b :: y) (c :: f) 0 → (indexNoCaseFrom c f y (k + 1) = some i ↔ ∃ j, i = k + j ∧ FirstMatch (b :: y) (c :: f) j) := by
      intro h0
      rw [ih (k + 1) i]
      constructor
      · rintro ⟨j, rfl, h⟩
        exact ⟨j + 1, by omega, (firstMatch_succ b y _ j h0).2 h⟩
      · rintro ⟨j, rfl, h⟩
        cases j with
        | zero => exact absurd h.1 h0
        | succ j => exact ⟨j, by omega, (firstMatch_succ b y _ j h0).1 h⟩
    unfold indexNoCaseFrom
    by_cases h1 : toLower b ≠ toLower c
    · rw [if_pos h1]; exact skip (fun h => h1 ((matchAt_zero b y c f).1 h).1)
    · rw [if_neg h1]
      by_cases h2 : y.length ≤ f.length
      · rw [if_pos h2]
        simp only [reduceCtorEq, false_iff]
        rintro ⟨j, _, _, h, _⟩
        simp at h; omega
      · rw [if_neg h2]
        by_cases h3 : ((y.take f.length).map toLower == f.map toLower) = true
        · rw [if_pos h3]
          have hm : MatchAt (b :: y) (c :: f) 0 := (matchAt_zero b y c f).2 ⟨by simpa using h1, by omega, by simpa using h3⟩
          constructor
          · intro h; cases h; exact ⟨0, rfl, hm, by simp; omega, fun j hj => by omega⟩
          · rintro ⟨j, rfl, h⟩
            cases j with
            | zero => rfl
            | succ j => exact absurd hm (h.2.2 0 (by omega))
        · rw [if_neg h3]; exact skip (fun h => h3 (by simpa using ((matchAt_zero b y c f).1 h).2.2))

/-- **C32** `ByteSliceIndexNoCase`, for every text, position and pattern: it returns the first index from the position on at which the pattern stands in any letter
case - provided that something follows the match. -/
theorem search_exact (src find : Bytes) (pos i : Nat) (hne : find ≠ []) :
    indexNoCase src pos find = some i ↔ pos ≤ i ∧ MatchAt src find i ∧ i + find.length < src.length ∧ ∀ j, pos ≤ j → j < i → ¬ MatchAt src find j := by
  obtain ⟨c, f, rfl⟩ := List.exists_cons_of_ne_nil hne
  show indexNoCaseFrom c f (src.drop pos) pos = some i ↔ _
  rw [indexNoCaseFrom_iff]
  by_cases hp : pos ≤ src.length
  · have hm : ∀ j, MatchAt (src.drop pos) (c :: f) j ↔ MatchAt src (c :: f) (pos + j) := by
      intro j
      unfold MatchAt
      rw [List.drop_drop, List.length_drop]
      constructor
      · rintro ⟨h1, h2⟩; exact ⟨by omega, h2⟩
      · rintro ⟨h1, h2⟩; exact ⟨by omega, h2⟩
    constructor
    · rintro ⟨j, rfl, h1, h2, h3⟩
      refine ⟨by omega, (hm j).1 h1, by rw [List.length_drop] at h2; omega, fun k h4 h5 h6 => ?_⟩
      obtain ⟨n, rfl⟩ : ∃ n, k = pos + n := ⟨k - pos, by omega⟩
      exact h3 n (by omega) ((hm n).2 h6)
    · rintro ⟨h1, h2, h3, h4⟩
      obtain ⟨n, rfl⟩ : ∃ n, i = pos + n := ⟨i - pos, by omega⟩
      exact ⟨n, rfl, (hm n).2 h2, by rw [List.length_drop]; omega, fun j hj hx => h4 (pos + j) (by omega) (by omega) ((hm j).1 hx)⟩
  · constructor
    · rintro ⟨j, rfl, h1, _⟩
      have := h1.1
      rw [List.length_drop] at this; simp at this; omega
    · rintro ⟨h1, _, h3, _⟩
      omega

/-- **C32** it reports none exactly if the pattern does not stand in front of the last byte -/
theorem search_none (src find : Bytes) (pos : Nat) (hne : find ≠ []) :
    indexNoCase src pos find = none ↔ ∀ i, pos ≤ i → i + find.length < src.length → ¬ MatchAt src find i := by
  constructor
  · intro h i
    induction i using Nat.strongRecOn with
    | _ i ih =>
      intro h1 h2 h3
      have : indexNoCase src pos find = some i := (search_exact src find pos i hne).2 ⟨h1, h3, h2, fun j hj hlt => ih j hlt hj (by omega)⟩
      rw [h] at this; cases this
  · intro h
    cases hi : indexNoCase src pos find with
    | none => rfl
    | some i =>
      obtain ⟨h1, h2, h3, _⟩ := (search_exact src find pos i hne).1 hi
      exact absurd h2 (h i h1 h3)

/-- **C32, negation** a match at the very end of the text is not found -/
theorem search_misses_end (src find : Bytes) (pos : Nat) (hne : find ≠ []) (hm : ∀ i, pos ≤ i → MatchAt src find i → i + find.length = src.length) :
    indexNoCase src pos find = none := (search_none src find pos hne).2 (fun i h1 h2 h3 => by have := hm i h1 h3; omega)

example : indexNoCase (str "x-via") 0 (str "VIA") = none ∧ MatchAt (str "x-via") (str "VIA") 2 := ⟨by decide +kernel, by unfold MatchAt; decide +kernel⟩
example : indexNoCase (str "x-vi-via-") 0 (str "VIA") = some 5 := by decide +kernel

/-! ## `FindSipHeader2` -/

theorem indexByte_some (b : UInt8) (s : Bytes) (p : Nat) : indexByte b s = some p ↔ s[p]? = some b ∧ ∀ j, j < p → s[j]? ≠ some b := by
  unfold indexByte
  rw [List.findIdx?_eq_some_iff_getElem]
  constructor
  · rintro ⟨h1, h2, h3⟩
    refine ⟨by rw [List.getElem?_eq_getElem h1]; simpa using h2, fun j hj he => ?_⟩
    have := h3 j hj
    have hlt : j < s.length := by omega
    rw [List.getElem?_eq_getElem hlt] at he
    simp at he this
    exact this he
  · rintro ⟨h1, h2⟩
    obtain ⟨hlt, he⟩ := List.getElem?_eq_some_iff.1 h1
    refine ⟨hlt, by simpa using he, fun j hj => ?_⟩
    have hjl : j < s.length := by omega
    have := h2 j hj
    rw [List.getElem?_eq_getElem hjl] at this
    simpa using this

theorem indexByte_none (b : UInt8) (s : Bytes) : indexByte b s = none ↔ ∀ j : Nat, s[j]? ≠ some b := by
  unfold indexByte
  rw [List.findIdx?_eq_none_iff]
  constructor
  · intro h j hj
    have := h b (List.mem_of_getElem? hj)
    simp at this
  · intro h x hx
    obtain ⟨j, hj⟩ := List.getElem?_of_mem hx
    by_cases hb : x = b
    · subst hb; exact absurd hj (h j)
    · simpa using hb

/-- a line starts at `p`: at the position itself, or behind an LF -/
def LineStart (src : Bytes) (pos p : Nat) : Prop := p = pos ∨ (pos < p ∧ src[p - 1]? = some 0x0a)

/-- the name of the header (`short` counts only where `name` does not stand), white space and a colon: the colon is at `q` -/
def HeaderAt (src name short : Bytes) (p q : Nat) : Prop :=
  ∃ n, (MatchAt src name p ∧ n = name.length ∨ ¬ MatchAt src name p ∧ MatchAt src short p ∧ n = short.length) ∧
    p + n ≤ q ∧ (∀ i, p + n ≤ i → i < q → src[i]? = some 0x20 ∨ src[i]? = some 0x09) ∧ src[q]? = some 0x3a

theorem nextLine_some {src : Bytes} {a q p : Nat} (h : nextLine src q = some p) (haq : a ≤ q) (hno : ∀ i, a ≤ i → i < q → src[i]? ≠ some 0x0a) :
    q < p ∧ p ≤ src.length ∧ ∀ x, LineStart src a x ↔ x = a ∨ LineStart src p x := by
  unfold nextLine at h
  cases hi : indexByte 0x0a (src.drop q) with
  | none => rw [hi] at h; cases h
  | some k =>
    rw [hi] at h
    have hp : q + k + 1 = p := by simpa using h
    subst hp
    obtain ⟨h1, h2⟩ := (indexByte_some _ _ _).1 hi
    rw [List.getElem?_drop] at h1
    have hlt := (List.getElem?_eq_some_iff.1 h1).1
    refine ⟨by omega, by omega, fun x => ?_⟩
    constructor
    · rintro (rfl | ⟨g1, g2⟩)
      · exact Or.inl rfl
      · right
        have hge : q + k ≤ x - 1 := by
          false_or_by_contra
          by_cases hx : x - 1 < q
          · exact hno (x - 1) (by omega) hx g2
          · have := h2 (x - 1 - q) (by omega)
            rw [List.getElem?_drop, show q + (x - 1 - q) = x - 1 by omega] at this
            exact this g2
        by_cases he : x - 1 = q + k
        · exact Or.inl (by omega)
        · exact Or.inr ⟨by omega, g2⟩
    · rintro (rfl | rfl | ⟨g1, g2⟩)
      · exact Or.inl rfl
      · exact Or.inr ⟨by omega, by rw [show q + k + 1 - 1 = q + k by omega]; exact h1⟩
      · exact Or.inr ⟨by omega, g2⟩

theorem nextLine_none {src : Bytes} {a q : Nat} (h : nextLine src q = none) (hno : ∀ i, a ≤ i → i < q → src[i]? ≠ some 0x0a) :
    ∀ x, LineStart src a x → x = a := by
  intro x hx
  rcases hx with rfl | ⟨g1, g2⟩
  · rfl
  · exfalso
    have hi : indexByte 0x0a (src.drop q) = none := by
      unfold nextLine at h
      cases hi : indexByte 0x0a (src.drop q) with
      | none => rfl
      | some k => rw [hi] at h; cases h
    by_cases hq : x - 1 < q
    · exact hno (x - 1) (by omega) hq g2
    · have := (indexByte_none _ _).1 hi (x - 1 - q)
      rw [List.getElem?_drop, show q + (x - 1 - q) = x - 1 by omega] at this
      exact this g2

theorem slice_match (src f : Bytes) (p : Nat) :
    (slice? src p f.length = none ∧ src.length < p + f.length) ∨
    (∃ t, slice? src p f.length = some t ∧ p + f.length ≤ src.length ∧ ((f.map toLower == t.map toLower) = true ↔ MatchAt src f p)) := by
  unfold slice?
  by_cases h : p + f.length ≤ src.length
  · rw [if_pos h]
    refine Or.inr ⟨_, rfl, h, ?_⟩
    unfold MatchAt
    rw [map_toLower, map_toLower]
    simp only [beq_iff_eq]
    exact ⟨fun e => ⟨h, e.symm⟩, fun e => e.2.symm⟩
  · rw [if_neg h]; exact Or.inl ⟨rfl, by omega⟩

theorem lower_lf (b : UInt8) (h : asciiLower b = 0x0a) : b = 0x0a := by revert b; decide +kernel

theorem match_noLf {src f : Bytes} {p : Nat} (h : MatchAt src f p) (hf : 0x0a ∉ f) : ∀ i, p ≤ i → i < p + f.length → src[i]? ≠ some 0x0a := by
  intro i h1 h2 h3
  have h4 := congrArg (fun l => l[i - p]?) h.2
  simp only [List.getElem?_map, List.getElem?_take, List.getElem?_drop] at h4
  rw [if_pos (by omega), show p + (i - p) = i by omega, h3] at h4
  have hlt : i - p < f.length := by omega
  rw [List.getElem?_eq_getElem hlt] at h4
  simp at h4
  have : f[i - p] = 0x0a := lower_lf _ (by rw [← h4]; decide)
  exact hf (this ▸ List.getElem_mem hlt)

theorem skipWsp_spec (src : Bytes) (a : Nat) :
    a ≤ skipWhile isWspChar src a ∧ (∀ i, a ≤ i → i < skipWhile isWspChar src a → src[i]? = some 0x20 ∨ src[i]? = some 0x09) ∧
    (∀ b, src[skipWhile isWspChar src a]? = some b → b ≠ 0x20 ∧ b ≠ 0x09) := by
  have wsp : ∀ b : UInt8, isWspChar b = true ↔ b = 0x20 ∨ b = 0x09 := by intro b; revert b; decide +kernel
  unfold skipWhile
  have key : ∀ s : Bytes, (∀ i, i < runLen isWspChar s → s[i]? = some 0x20 ∨ s[i]? = some 0x09) ∧ (∀ b, s[runLen isWspChar s]? = some b → b ≠ 0x20 ∧ b ≠ 0x09) := by
    intro s
    induction s with
    | nil => refine ⟨fun i hi => ?_, fun b hb => ?_⟩
             · simp [runLen] at hi
             · simp at hb
    | cons x s ih =>
      by_cases hx : isWspChar x = true
      · have e : runLen isWspChar (x :: s) = runLen isWspChar s + 1 := by simp [runLen, hx]
        rw [e]
        refine ⟨fun i hi => ?_, fun b hb => ih.2 b (by simpa using hb)⟩
        cases i with
        | zero => simpa using (wsp x).1 hx
        | succ i => simpa using ih.1 i (by omega)
      · have e : runLen isWspChar (x :: s) = 0 := by simp [runLen, hx]
        rw [e]
        refine ⟨fun i hi => by omega, fun b hb => ?_⟩
        simp at hb; subst hb
        exact ⟨fun h => hx ((wsp _).2 (Or.inl h)), fun h => hx ((wsp _).2 (Or.inr h))⟩
  obtain ⟨k1, k2⟩ := key (src.drop a)
  refine ⟨by omega, fun i h1 h2 => ?_, fun b hb => k2 b (by rw [List.getElem?_drop]; exact hb)⟩
  have := k1 (i - a) (by omega)
  rw [List.getElem?_drop, show a + (i - a) = i by omega] at this
  exact this

/-- what `FindSipHeader2` returns: the first line that begins with the header is found; without one it reports none; it panics only where a line is shorter than one of the names and
ends the input -/
def Header2Post (src name short : Bytes) (pos : Nat) : Out (Nat × Bool) → Prop
  | .ok (q, true) => ∃ p, LineStart src pos p ∧ HeaderAt src name short p q ∧ ∀ p', LineStart src pos p' → p' < p → ∀ q', ¬ HeaderAt src name short p' q'
  | .ok (_, false) => ∀ p q', LineStart src pos p → ¬ HeaderAt src name short p q'
  | .panic => ∃ p, LineStart src pos p ∧ p < src.length ∧ src.length < p + max name.length short.length
  | .hang => False

theorem headerAt_unique {src name short : Bytes} {p n q : Nat} (hn : MatchAt src name p ∧ n = name.length ∨ ¬ MatchAt src name p ∧ MatchAt src short p ∧ n = short.length)
    (h : HeaderAt src name short p q) : q = skipWhile isWspChar src (p + n) := by
  obtain ⟨n', hn', h1, h2, h3⟩ := h
  have : n' = n := by
    rcases hn with ⟨a, b⟩ | ⟨a, b, d⟩ <;> rcases hn' with ⟨a', b'⟩ | ⟨a', b', d'⟩
    · omega
    · exact absurd a a'
    · exact absurd a' a
    · omega
  subst this
  obtain ⟨g1, g2, g3⟩ := skipWsp_spec src (p + n')
  false_or_by_contra
  rename_i hne
  rcases Nat.lt_or_ge q (skipWhile isWspChar src (p + n')) with hlt | hge
  · have := g2 q h1 hlt
    rw [h3] at this; simp at this
  · have := h2 _ g1 (by omega)
    rcases this with h | h
    · exact (g3 _ h).1 rfl
    · exact (g3 _ h).2 rfl

theorem Header2Post.next {src name short : Bytes} {a p : Nat} {o : Out (Nat × Bool)} (h : Header2Post src name short p o) (hap : a < p)
    (hl : ∀ x, LineStart src a x ↔ x = a ∨ LineStart src p x) (hno : ∀ q, ¬ HeaderAt src name short a q) : Header2Post src name short a o := by
  have ge : ∀ x, LineStart src p x → p ≤ x := by rintro x (rfl | ⟨h, _⟩) <;> omega
  rcases o with ⟨q, ok⟩ | _ | _
  · cases ok
    · intro x q' hx
      rcases (hl x).1 hx with rfl | hx
      · exact hno q'
      · exact h x q' hx
    · obtain ⟨x, h1, h2, h3⟩ := h
      refine ⟨x, (hl x).2 (Or.inr h1), h2, fun y hy hlt => ?_⟩
      rcases (hl y).1 hy with rfl | hy
      · exact hno
      · exact h3 y hy hlt
  · obtain ⟨x, h1, h2⟩ := h
    exact ⟨x, (hl x).2 (Or.inr h1), h2⟩
  · exact h

theorem findHeader2Loop_spec (src name short : Bytes) (h1 : 0x0a ∉ name) (h2 : 0x0a ∉ short) : ∀ fuel a, src.length < a + fuel → a ≤ src.length → Header2Post src name short a (findHeader2Loop src name short fuel a) := by
  intro fuel
  induction fuel with
  | zero => intro a h3 h4; omega
  | succ fuel ih =>
    intro a h3 h4
    unfold findHeader2Loop
    by_cases hend : a ≥ src.length
    · rw [if_pos hend]
      intro p q' hp hh
      obtain ⟨n, _, hle, _, hq⟩ := hh
      have := (List.getElem?_eq_some_iff.1 hq).1
      rcases hp with rfl | ⟨g1, g2⟩
      · omega
      · have := (List.getElem?_eq_some_iff.1 g2).1; omega
    · rw [if_neg hend]
      -- the name at this line
      have hname : (nameHere src name short a = .panic ∧ src.length < a + max name.length short.length) ∨
          (∃ n, nameHere src name short a = .ok (some n) ∧ a + n ≤ src.length ∧
            (MatchAt src name a ∧ n = name.length ∨ ¬ MatchAt src name a ∧ MatchAt src short a ∧ n = short.length) ∧ ∀ i, a ≤ i → i < a + n → src[i]? ≠ some 0x0a) ∨
          (nameHere src name short a = .ok none ∧ ¬ MatchAt src name a ∧ ¬ MatchAt src short a) := by
        unfold nameHere
        rcases slice_match src name a with ⟨e, hlt⟩ | ⟨t, e, hle, hiff⟩
        · rw [e]; exact Or.inl ⟨rfl, by have := Nat.le_max_left name.length short.length; omega⟩
        · rw [e]
          simp only
          by_cases hm : (name.map toLower == t.map toLower) = true
          · rw [if_pos hm]
            exact Or.inr (Or.inl ⟨_, rfl, hle, Or.inl ⟨hiff.1 hm, rfl⟩, match_noLf (hiff.1 hm) h1⟩)
          · rw [if_neg hm]
            have hm' : ¬ MatchAt src name a := fun h => hm (hiff.2 h)
            rcases slice_match src short a with ⟨e2, hlt2⟩ | ⟨t2, e2, hle2, hiff2⟩
            · rw [e2]; exact Or.inl ⟨rfl, by have := Nat.le_max_right name.length short.length; omega⟩
            · rw [e2]
              simp only
              by_cases hm2 : (short.map toLower == t2.map toLower) = true
              · rw [if_pos hm2]
                exact Or.inr (Or.inl ⟨_, rfl, hle2, Or.inr ⟨hm', hiff2.1 hm2, rfl⟩, match_noLf (hiff2.1 hm2) h2⟩)
              · rw [if_neg hm2]; exact Or.inr (Or.inr ⟨rfl, hm', fun h => hm2 (hiff2.2 h)⟩)
      rcases hname with ⟨e, hlt⟩ | ⟨n, e, hle, hn, hnl⟩ | ⟨e, hm1, hm2⟩
      · rw [e]; exact ⟨a, Or.inl rfl, by omega, hlt⟩
      · rw [e]
        simp only [Out.ok_bind]
        obtain ⟨g1, g2, g3⟩ := skipWsp_spec src (a + n)
        have huniq := fun q => headerAt_unique (q := q) hn
        have hnl2 : ∀ i, a ≤ i → i < skipWhile isWspChar src (a + n) → src[i]? ≠ some 0x0a := by
          intro i hi hlt
          by_cases hi2 : i < a + n
          · exact hnl i hi hi2
          · rcases g2 i (by omega) hlt with h | h <;> rw [h] <;> simp
        generalize hq : skipWhile isWspChar src (a + n) = q at *
        by_cases hqe : q ≥ src.length
        · rw [if_pos hqe]
          intro p q' hp hh
          rcases hp with rfl | ⟨k1, k2⟩
          · obtain rfl := huniq q' hh
            obtain ⟨_, _, _, _, hc⟩ := hh
            have := (List.getElem?_eq_some_iff.1 hc).1; omega
          · have := (List.getElem?_eq_some_iff.1 k2).1
            exact hnl2 (p - 1) (by omega) (by omega) k2
        · rw [if_neg hqe]
          by_cases hcol : src[q]? = some 0x3a
          · rw [if_pos hcol]
            have hlws : parseLWS src q = (q, true) := by
              have hdrop : ∃ y, src.drop q = 0x3a :: y := by
                obtain ⟨hlt, he⟩ := List.getElem?_eq_some_iff.1 hcol
                exact ⟨src.drop (q + 1), by rw [List.drop_eq_getElem_cons hlt, he]⟩
              obtain ⟨y, hy⟩ := hdrop
              have hsk : skipWhile isSpHtab src q = q := by
                unfold skipWhile; rw [hy]; simp [runLen, isSpHtab]
              unfold parseLWS
              rw [hsk]
              simp only
              rw [hcol]
              simp
            rw [hlws]
            refine ⟨a, Or.inl rfl, ⟨n, hn, g1, g2, hcol⟩, fun p' hp' hlt => ?_⟩
            rcases hp' with rfl | ⟨k, _⟩ <;> omega
          · rw [if_neg hcol]
            have hno : ∀ q', ¬ HeaderAt src name short a q' := by
              intro q' hh
              have := huniq q' hh
              obtain ⟨_, _, _, _, hc⟩ := hh
              rw [this] at hc; exact hcol hc
            cases hnx : nextLine src q with
            | none =>
              simp only
              intro p q' hp
              have := nextLine_none hnx hnl2 p hp
              rw [this]; exact hno q'
            | some p =>
              simp only
              obtain ⟨k1, k2, k3⟩ := nextLine_some (a := a) hnx (by omega) hnl2
              exact (ih p (by omega) k2).next (by omega) k3 hno
      · rw [e]
        simp only [Out.ok_bind]
        have hno : ∀ q', ¬ HeaderAt src name short a q' := by
          rintro q' ⟨n, ⟨h, _⟩ | ⟨_, h, _⟩, _⟩
          · exact hm1 h
          · exact hm2 h
        cases hnx : nextLine src a with
        | none =>
          simp only
          intro p q' hp
          have := nextLine_none hnx (fun i hi hlt => by omega) p hp
          rw [this]; exact hno q'
        | some p =>
          simp only
          obtain ⟨k1, k2, k3⟩ := nextLine_some (a := a) hnx (Nat.le_refl _) (fun i hi hlt => by omega)
          exact (ih p (by omega) k2).next (by omega) k3 hno

/-- **C32** `FindSipHeader2`, for every text, position and pair of names without LF: it terminates; `ok` means that the first line that begins with one of the names in any letter case,
white space and a colon was found, and the position is that of the colon; otherwise no line begins so.  It panics only at a line at the end of the input that is
shorter than one of the names. -/
theorem header2_exact (src name short : Bytes) (pos : Nat) (h1 : 0x0a ∉ name) (h2 : 0x0a ∉ short) (hp : pos ≤ src.length) :
    Header2Post src name short pos (findHeader2 src pos name short) := findHeader2Loop_spec src name short h1 h2 _ pos (by omega) hp

/-- **C29, C32, negation** a text whose last line is shorter than the name makes `FindSipHeader2` panic -/
theorem header2_panics : findHeader2 (str "A: b\r\nB") 0 (str "Via") (str "v") = .panic := by decide +kernel

example : findHeader2 (str "A: b\r\nVIA : SIP/2.0/UDP a\r\n") 0 (str "Via") (str "v") = .ok (10, true) := by decide +kernel

/-! ## `FindSipHeader1` -/

/-- a line behind the position starts with the name: its LF is at `i`, and something follows the name -/
def NameLine (src name : Bytes) (pos i : Nat) : Prop := pos ≤ i ∧ MatchAt src (0x0a :: name) i ∧ i + name.length + 1 < src.length

/-- the LF that ends the line which begins behind `i` -/
def LineStop (src : Bytes) (i e : Nat) : Prop := i < e ∧ src[e]? = some 0x0a ∧ ∀ j, i < j → j < e → src[j]? ≠ some 0x0a

/-- the text from `b` on, up to the byte in front of the LF at `e` -/
def cutLine (src : Bytes) (b e : Nat) : Bytes := (src.drop b).take (e - 1 - b)

/-- what is written for a list of lines: the first one with its name, of the others the values, set apart by commas -/
def header1Text (src name : Bytes) : Nat → List (Nat × Nat) → Bytes
  | _, [] => []
  | 0, (i, e) :: l => cutLine src (i + 1) e ++ header1Text src name 1 l
  | n + 1, (i, e) :: l => str ", " ++ cutLine src (skipWhile isWspChar src (i + name.length + 1)) e ++ header1Text src name (n + 2) l

theorem header1Text_succ (src name : Bytes) (n m : Nat) (l : List (Nat × Nat)) : header1Text src name (n + 1) l = header1Text src name (m + 1) l := by
  induction l generalizing n m with
  | nil => simp [header1Text]
  | cons x l ih => obtain ⟨i, e⟩ := x; simp only [header1Text]; rw [ih (n + 1) (m + 1)]

/-- the lines the search has to copy: each starts with the name, ends with an LF, and lies behind the one before; a line that starts with the name and is not among them
begins at the very LF that ends one of them -/
structure Header1Lines (src name : Bytes) (pos : Nat) (l : List (Nat × Nat)) : Prop where
  lines : ∀ i e, (i, e) ∈ l → NameLine src name pos i ∧ LineStop src i e
  order : l.Pairwise (fun a b => a.2 < b.1)
  all : ∀ i, NameLine src name pos i → (∃ e, (i, e) ∈ l) ∨ ∃ i', (i', i) ∈ l

/-- `FindSipHeader1` panics at such a line: no LF ends it, or (not for the first one found) it has no value -/
def Header1Bad (src name : Bytes) (pos i : Nat) : Prop :=
  NameLine src name pos i ∧ ((∀ e, ¬ LineStop src i e) ∨ src[skipWhile isWspChar src (i + name.length + 1)]? = some 0x0a ∨ src[i + 1]? = some 0x0a)

def Header1Post (src name : Bytes) (pos : Nat) (buf : Bytes) (num : Nat) : Out (Bytes × Nat) → Prop
  | .ok (b, n) => ∃ l, Header1Lines src name pos l ∧ n = num + l.length ∧ b = buf ++ header1Text src name num l
  | .panic => ∃ i, Header1Bad src name pos i
  | .hang => False

theorem findHeader1Loop_spec (src name : Bytes) (hlf : 0x0a ∉ name) : ∀ fuel pos buf num, src.length < pos + fuel →
    Header1Post src name pos buf num (findHeader1Loop src name fuel pos buf num) ∨ src.length < pos := by
  intro fuel
  induction fuel with
  | zero => intro pos buf num h; exact Or.inr (by omega)
  | succ fuel ih =>
    intro pos buf num hf
    left
    unfold findHeader1Loop
    cases hi : indexNoCase src pos (0x0a :: name) with
    | none =>
      have := (search_none src (0x0a :: name) pos (by simp)).1 hi
      refine ⟨[], ⟨fun i e h => (by cases h), List.Pairwise.nil, fun i h => absurd h.2.1 (this i h.1 (by have := h.2.2; simp only [List.length_cons]; omega))⟩, rfl, by simp [header1Text]⟩
    | some i =>
      obtain ⟨h1, h2, h3, h4⟩ := (search_exact src (0x0a :: name) pos i (by simp)).1 hi
      simp only [List.length_cons] at h3
      have hn : NameLine src name pos i := ⟨h1, h2, by omega⟩
      simp only
      -- the begin of the text, and no LF in front of it
      have hb : ∃ b, (if num = 0 then i + 1 else skipWhile isWspChar src (i + name.length + 1)) = b ∧ i < b ∧ ∀ j, i < j → j < b → src[j]? ≠ some 0x0a := by
        by_cases h0 : num = 0
        · exact ⟨i + 1, by rw [if_pos h0], by omega, fun j a b => by omega⟩
        · refine ⟨_, by rw [if_neg h0], by have := (skipWsp_spec src (i + name.length + 1)).1; omega, fun j a b hj => ?_⟩
          by_cases hj2 : j < i + name.length + 1
          · have h2' := h2.2
            have := congrArg (fun l => l[j - i]?) h2'
            simp only [List.getElem?_map, List.getElem?_take, List.getElem?_drop, List.length_cons] at this
            rw [if_pos (by omega), show i + (j - i) = j by omega, hj] at this
            obtain ⟨k, hk⟩ : ∃ k, j - i = k + 1 := ⟨j - i - 1, by omega⟩
            rw [hk] at this
            have hlt : k < name.length := by omega
            rw [List.getElem?_cons_succ, List.getElem?_eq_getElem hlt] at this
            simp at this
            have hx : name[k] = 0x0a := lower_lf _ (by rw [← this]; decide)
            exact hlf (hx ▸ List.getElem_mem hlt)
          · have := (skipWsp_spec src (i + name.length + 1)).2.1 j (by omega) b
            rw [hj] at this; simp at this
      obtain ⟨b, hbe, hb1, hb2⟩ := hb
      rw [hbe]
      cases hp : indexByte 0x0a (src.drop b) with
      | none =>
        have := (indexByte_none _ _).1 hp
        refine ⟨i, hn, Or.inl (fun e he => ?_)⟩
        by_cases heb : e < b
        · exact hb2 e he.1 heb he.2.1
        · have := this (e - b)
          rw [List.getElem?_drop, show b + (e - b) = e by omega] at this
          exact this he.2.1
      | some k =>
        obtain ⟨k1, k2⟩ := (indexByte_some _ _ _).1 hp
        rw [List.getElem?_drop] at k1
        cases k with
        | zero =>
          simp only
          refine ⟨i, hn, Or.inr ?_⟩
          simp only [Nat.add_zero] at k1
          by_cases h0 : num = 0
          · rw [if_pos h0] at hbe; subst hbe; exact Or.inr k1
          · rw [if_neg h0] at hbe; subst hbe; exact Or.inl k1
        | succ p =>
          simp only
          have hlt := (List.getElem?_eq_some_iff.1 k1).1
          have hend : LineStop src i (b + (p + 1)) := by
            refine ⟨by omega, k1, fun j a c hj => ?_⟩
            by_cases hjb : j < b
            · exact hb2 j a hjb hj
            · have := k2 (j - b) (by omega)
              rw [List.getElem?_drop, show b + (j - b) = j by omega] at this
              exact this hj
          have hstep : ∀ i', NameLine src name pos i' → i' = i ∨ i' = b + (p + 1) ∨ NameLine src name (b + p + 2) i' := by
            intro i' hi'
            have hge : i ≤ i' := by
              false_or_by_contra
              exact h4 i' hi'.1 (by omega) hi'.2.1
            have hlf' : src[i']? = some 0x0a := by
              have := congrArg (fun l => l[0]?) hi'.2.1.2
              have hl : i' < src.length := by have := hi'.2.2; omega
              simp only [List.getElem?_map, List.getElem?_take, List.getElem?_drop, List.length_cons] at this
              rw [if_pos (by omega), show i' + 0 = i' by omega, List.getElem?_eq_getElem hl] at this
              simp at this
              rw [List.getElem?_eq_getElem hl, lower_lf (src[i']) (by rw [this]; decide)]
            by_cases e1 : i' = i
            · exact Or.inl e1
            · by_cases e2 : i' = b + (p + 1)
              · exact Or.inr (Or.inl e2)
              · refine Or.inr (Or.inr ⟨?_, hi'.2⟩)
                false_or_by_contra
                exact hend.2.2 i' (by omega) (by omega) hlf'
          have hup : ∀ i', NameLine src name (b + p + 2) i' → NameLine src name pos i' := fun i' h => ⟨by have := h.1; omega, h.2⟩
          rcases ih (b + p + 2) (buf ++ (if num = 0 then [] else str ", ") ++ (src.drop b).take p) (num + 1) (by omega) with hpost | hbig
          · generalize findHeader1Loop src name fuel (b + p + 2) (buf ++ (if num = 0 then [] else str ", ") ++ (src.drop b).take p) (num + 1) = o at hpost ⊢
            rcases o with ⟨t, n⟩ | _ | _
            · obtain ⟨l, hl, rfl, rfl⟩ := hpost
              refine ⟨(i, b + (p + 1)) :: l, ⟨?_, ?_, ?_⟩, by simp; omega, ?_⟩
              · intro i' e' hm
                rcases List.mem_cons.1 hm with h | h
                · cases h; exact ⟨hn, hend⟩
                · have := hl.lines i' e' h; exact ⟨hup _ this.1, this.2⟩
              · refine List.Pairwise.cons (fun x hx => ?_) hl.order
                have := (hl.lines x.1 x.2 hx).1.1
                simp only; omega
              · intro i' hi'
                rcases hstep i' hi' with rfl | rfl | h
                · exact Or.inl ⟨_, List.mem_cons_self ..⟩
                · exact Or.inr ⟨i, List.mem_cons_self ..⟩
                · rcases hl.all i' h with ⟨e, he⟩ | ⟨x, hx⟩
                  · exact Or.inl ⟨e, List.mem_cons_of_mem _ he⟩
                  · exact Or.inr ⟨x, List.mem_cons_of_mem _ hx⟩
              · have hcut : (src.drop b).take p = cutLine src b (b + (p + 1)) := by unfold cutLine; congr 1; omega
                rw [hcut]
                cases num with
                | zero => rw [if_pos rfl] at hbe ⊢; subst hbe; simp [header1Text]
                | succ num => rw [if_neg (by omega)] at hbe ⊢; subst hbe; simp [header1Text]
            · obtain ⟨x, hx⟩ := hpost
              exact ⟨x, hup x hx.1, hx.2⟩
            · exact hpost
          · omega

/-- **C32** `FindSipHeader1` for one name without LF, for every text and position: it terminates; the lines that start with the name are copied in order, the first one with its
name, of the others the values, separated by commas; of the lines that start with the name only those that directly follow a copied one are left out (and one that
is the end of the input).  It panics only at a line which no LF ends or which has no value. -/
theorem header1_exact (src name : Bytes) (hlf : 0x0a ∉ name) (pos : Nat) (buf : Bytes) (hp : pos ≤ src.length) :
    Header1Post src name pos buf 0 (findHeader1Loop src name (src.length + 1) pos buf 0) := by
  rcases findHeader1Loop_spec src name hlf (src.length + 1) pos buf 0 (by omega) with h | h
  · exact h
  · omega

/-- the compact form of a name, RFC 3261 7.3.3 and 20 -/
def CompactOf : List (Bytes × Bytes) :=
  [(str "call-id:", str "i:"), (str "contact:", str "m:"), (str "content-encoding:", str "e:"), (str "content-length:", str "l:"),
   (str "content-type:", str "c:"), (str "from:", str "f:"), (str "to:", str "t:"), (str "via:", str "v:")]

/-- **C32** the compact form that is tried for a name (given with its colon, in any letter case) is the one of RFC 3261 -/
theorem compactName_rfc (name short : Bytes) : compactName name = some short ↔ (name.map asciiLower, short) ∈ CompactOf := by
  unfold compactName CompactOf
  simp only [map_toLower, beq_iff_eq, List.mem_cons, Prod.mk.injEq, List.not_mem_nil, or_false]
  generalize name.map asciiLower = n
  constructor
  · intro h
    repeat (first | (split at h; (rename_i hn; cases h; subst hn; simp)) | cases h)
  · rintro (⟨rfl, rfl⟩ | ⟨rfl, rfl⟩ | ⟨rfl, rfl⟩ | ⟨rfl, rfl⟩ | ⟨rfl, rfl⟩ | ⟨rfl, rfl⟩ | ⟨rfl, rfl⟩ | ⟨rfl, rfl⟩) <;> decide +kernel

theorem compactName_noLf (name short : Bytes) (h : compactName name = some short) : 0x0a ∉ short := by
  have := (compactName_rfc name short).1 h
  simp only [CompactOf, List.mem_cons, Prod.mk.injEq, List.not_mem_nil, or_false] at this
  rcases this with ⟨_, rfl⟩ | ⟨_, rfl⟩ | ⟨_, rfl⟩ | ⟨_, rfl⟩ | ⟨_, rfl⟩ | ⟨_, rfl⟩ | ⟨_, rfl⟩ | ⟨_, rfl⟩ <;> decide +kernel

/-- what `FindSipHeader1` returns: the header is found exactly if some line starts with its name or - when none does - with its compact form; the buffer then has the copied lines,
and is unchanged if none is found -/
def FindHeader1Post (src name : Bytes) (pos : Nat) (buf : Bytes) : Out (Bytes × Bool) → Prop
  | .ok (b, true) => ∃ n l, (n = name ∨ compactName name = some n ∧ ∀ i, ¬ NameLine src name pos i) ∧ l ≠ [] ∧ Header1Lines src n pos l ∧ b = buf ++ header1Text src n 0 l
  | .ok (b, false) => b = buf ∧ (∀ i, ¬ NameLine src name pos i) ∧ ∀ n, compactName name = some n → ∀ i, ¬ NameLine src n pos i
  | .panic => ∃ n i, (n = name ∨ compactName name = some n ∧ ∀ i, ¬ NameLine src name pos i) ∧ Header1Bad src n pos i
  | .hang => False

theorem Header1Lines.none {src name : Bytes} {pos : Nat} (h : Header1Lines src name pos []) : ∀ i, ¬ NameLine src name pos i := by
  intro i hi
  rcases h.all i hi with ⟨e, he⟩ | ⟨e, he⟩ <;> cases he

/-- **C32** `FindSipHeader1`, for every text, position, name without LF and buffer -/
theorem findHeader1_exact (src name : Bytes) (hlf : 0x0a ∉ name) (pos : Nat) (buf : Bytes) (hp : pos ≤ src.length) :
    FindHeader1Post src name pos buf (findHeader1 src pos name buf) := by
  unfold findHeader1
  have h1 := header1_exact src name hlf pos buf hp
  generalize findHeader1Loop src name (src.length + 1) pos buf 0 = o at h1
  rcases o with ⟨b, n⟩ | _ | _
  · obtain ⟨l, hl, rfl, rfl⟩ := h1
    simp only [Out.ok_bind, Nat.zero_add]
    cases l with
    | cons x l =>
      rw [if_pos (by simp)]
      exact ⟨name, x :: l, Or.inl rfl, by simp, hl, rfl⟩
    | nil =>
      rw [if_neg (by simp)]
      have hno := hl.none
      cases hc : compactName name with
      | none => exact ⟨by simp [header1Text], hno, fun n hn => by rw [hc] at hn; cases hn⟩
      | some short =>
        simp only
        have h2 := header1_exact src short (compactName_noLf name short hc) pos (buf ++ header1Text src name 0 []) hp
        generalize findHeader1Loop src short (src.length + 1) pos (buf ++ header1Text src name 0 []) 0 = o2 at h2
        rcases o2 with ⟨b, n⟩ | _ | _
        · obtain ⟨l, hl2, rfl, rfl⟩ := h2
          simp only [Out.ok_bind, Nat.zero_add]
          cases l with
          | cons x l =>
            simp only [List.length_cons, gt_iff_lt, Nat.zero_lt_succ, decide_true]
            exact ⟨short, x :: l, Or.inr ⟨hc, hno⟩, by simp, hl2, by simp [header1Text]⟩
          | nil =>
            simp only [List.length_nil, gt_iff_lt, Nat.lt_irrefl, decide_false]
            exact ⟨by simp [header1Text], hno, fun n hn => by rw [hc] at hn; cases hn; exact hl2.none⟩
        · obtain ⟨i, hi⟩ := h2
          exact ⟨short, i, Or.inr ⟨hc, hno⟩, hi⟩
        · exact h2
  · obtain ⟨i, hi⟩ := h1
    exact ⟨name, i, Or.inl rfl, hi⟩
  · exact h1

/-- **C32, negation** the second of two adjacent lines of the same name is left out, the third is not -/
theorem header1_misses_adjacent :
    findHeader1 (str "R\r\nVia: a\r\nVia: b\r\nVia: c\r\n\r\n") 0 (str "Via:") [] = .ok (str "Via: a, c", true) := by decide +kernel
/-- **C32, negation** the continuation of a folded value is not copied -/
theorem header1_misses_fold : findHeader1 (str "R\r\nVia: a\r\n b\r\n\r\n") 0 (str "Via:") [] = .ok (str "Via: a", true) := by decide +kernel
/-- **C29, C32, negation** a line without an LF, or a further line without a value (and with a bare LF), makes `FindSipHeader1` panic -/
theorem header1_panics : findHeader1 (str "R\r\nVia: a") 0 (str "Via:") [] = .panic ∧
    findHeader1 (str "R\nVia: a\nx\nVia:\nx\n") 0 (str "Via:") [] = .panic := by decide +kernel
example : findHeader1 (str "R\r\nA: x\r\nv: a\r\nA: x\r\nV:  b\r\n\r\n") 0 (str "Via:") [] = .ok (str "v: a, b", true) := by decide +kernel
example : 0x0a ∉ str "Via:" := by decide +kernel

end Sip
