import Verif.Props.MessageFacts
/-!
# C40: looking up headers, and which headers `RemoveContentHeaders` takes out
-/
namespace Sip

/-- `x` is the first element of `l` with `p` -/
def IsFirst {α : Type} (p : α → Prop) (l : List α) (x : α) : Prop := ∃ a b, l = a ++ x :: b ∧ p x ∧ ∀ y ∈ a, ¬ p y

theorem find_first {α : Type} (p : α → Prop) (f : α → Bool) (hf : ∀ x, f x = true ↔ p x) (l : List α) :
    (∀ x, l.find? f = some x ↔ IsFirst p l x) ∧ (l.find? f = none ↔ ∀ x ∈ l, ¬ p x) := by
  constructor
  · intro x
    rw [List.find?_eq_some_iff_append]
    constructor
    · rintro ⟨h1, a, b, h2, h3⟩
      exact ⟨a, b, h2, (hf x).1 h1, fun y hy hp => by have := h3 y hy; rw [(hf y).2 hp] at this; cases this⟩
    · rintro ⟨a, b, h1, h2, h3⟩
      refine ⟨(hf x).2 h2, a, b, h1, fun y hy => ?_⟩
      cases hy' : f y with
      | false => rfl
      | true => exact absurd ((hf y).1 hy') (h3 y hy)
  · rw [List.find?_eq_none]
    exact ⟨fun h x hx hp => h x hx ((hf x).2 hp), fun h x hx hp => h x hx ((hf x).1 hp)⟩

/-- **C40** a raw header is looked up by its number: the first one with that number, or none exactly when there is no such header -/
theorem findKnown_exact (hs : List RawHeader) (i : Nat) :
    (∀ h, findKnownRawHeader hs i = some h ↔ IsFirst (fun h => h.id = i) hs h) ∧ (findKnownRawHeader hs i = none ↔ ∀ h ∈ hs, h.id ≠ i) :=
  find_first _ _ (fun h => by simp) hs

/-- a header that is kept with its name, which is `n` up to letter case -/
def NamedAs (n : Bytes) (h : RawHeader) : Prop := ∃ m, h.name = some m ∧ m.map asciiLower = n.map asciiLower

/-- **C40** a raw header is looked up by its name, ignoring case: the first one kept with that name.  (Headers with a number are kept without name: they are never
found.) -/
theorem findUnknown_exact (hs : List RawHeader) (n : Bytes) :
    (∀ h, findUnknownRawHeader hs n = some h ↔ IsFirst (NamedAs n) hs h) ∧ (findUnknownRawHeader hs n = none ↔ ∀ h ∈ hs, ¬ NamedAs n h) := by
  refine find_first _ _ (fun h => ?_) hs
  obtain ⟨id, name, value⟩ := h
  cases name with
  | none => simp [NamedAs, strEqNoCase]
  | some m => simp [NamedAs, strEqNoCase_iff]

theorem index_inj (j k : HKind) (h : j.index = k.index) : j = k := by cases j <;> cases k <;> first | rfl | (revert h; decide)

theorem mem_msgOrder (k : HKind) : k ∈ msgOrder := by cases k <;> decide

/-- **C40** `GetHeaderByIndex`: the first value of the parsed header with that number; without such a value the first raw header with that number; without one nothing -/
theorem headerByIndex_exact (m : Msg) (i : Nat) :
    (∀ k v l, k.index = i → m.hdrs.common k = v :: l → m.headerByIndex i = some (.inl v)) ∧
    ((∀ k, k.index = i → m.hdrs.common k = []) →
      (∀ h, m.headerByIndex i = some (.inr h) ↔ IsFirst (fun h => h.id = i) m.hdrs.raw h) ∧ (m.headerByIndex i = none ↔ ∀ h ∈ m.hdrs.raw, h.id ≠ i) ∧
      ∀ v, m.headerByIndex i ≠ some (.inl v)) := by
  constructor
  · intro k v l hk hv
    have : msgOrder.find? (fun k => k.index = i ∧ m.hdrs.common k ≠ []) = some k := by
      cases hf : msgOrder.find? (fun k => k.index = i ∧ m.hdrs.common k ≠ []) with
      | none =>
        rw [List.find?_eq_none] at hf
        exact absurd (by simp [hk, hv]) (hf k (mem_msgOrder k))
      | some j =>
        have := List.find?_some hf
        simp only [ne_eq, decide_eq_true_eq] at this
        rw [index_inj j k (by rw [this.1, hk])]
    unfold Msg.headerByIndex
    rw [this]
    simp [hv]
  · intro hno
    have hf : msgOrder.find? (fun k => k.index = i ∧ m.hdrs.common k ≠ []) = none := by
      rw [List.find?_eq_none]
      intro k _ hk
      simp only [ne_eq, decide_eq_true_eq] at hk
      exact hk.2 (hno k hk.1)
    have e : m.headerByIndex i = (m.hdrs.raw.find? (fun h => h.id = i)).map .inr := by unfold Msg.headerByIndex; rw [hf]; rfl
    obtain ⟨h1, h2⟩ := find_first (fun h : RawHeader => h.id = i) (fun h => h.id = i) (fun h => by simp) m.hdrs.raw
    rw [e]
    refine ⟨fun h => ?_, ?_, ?_⟩
    · rw [← h1]; simp
    · rw [← h2]; simp
    · intro v hv; simp at hv

/-- a name that begins with `Content-` -/
def ContentName (n : Bytes) : Prop := ∃ x y, n = x ++ y ∧ x.map asciiLower = str "content-"

/-- the tests for the names of the table -/
theorem content_table : headerTable.all (fun e =>
    decide (e.2 = 12 ∨ e.2 = 80 ∨ e.2 = 81 ∨ e.2 = 82 ∨ e.2 = 13) == (headerTable.any (fun f => f.2 == e.2 && (str "content-").isPrefixOf (str f.1)) &&
      decide (e.2 ≠ HKind.contentType.index ∧ e.2 ≠ HKind.contentLength.index ∧ e.2 ≠ HKind.contentDisposition.index))) = true := by decide +kernel

theorem headerTable_lower : ∀ e ∈ headerTable, (str e.1).map asciiLower = str e.1 := by
  have : headerTable.all (fun e => (str e.1).map asciiLower == str e.1) = true := by decide +kernel
  intro e he
  simpa using List.all_eq_true.1 this e he

/-- **C40** what `RemoveContentHeaders` takes out of the raw headers: the headers with a name that begins with `Content-`, except Content-Type, Content-Length and
Content-Disposition (which are kept as parsed headers).  A name in the table counts with its number, any other as it is written. -/
theorem isContent_iff (h : RawHeader) (n : Bytes) (hn : NameOf h.id h.name n) :
    h.isContent = true ↔
      (h.id ≠ HKind.contentType.index ∧ h.id ≠ HKind.contentLength.index ∧ h.id ≠ HKind.contentDisposition.index) ∧
      (ContentName n ∨ ∃ s, (s, h.id) ∈ headerTable ∧ ContentName (str s)) := by
  have hlow : ∀ p : Bytes, ContentName p ↔ strHasPrefixNoCase p (str "Content-") = true := by
    intro p
    rw [strHasPrefixNoCase_iff, show (str "Content-").map asciiLower = str "content-" by decide +kernel]
    exact Iff.rfl
  rcases hn with ⟨s, h1, h2, h3⟩ | ⟨h1, h2, h3, h4, h5⟩
  · have h0 := (headerTable_facts _ h1).1
    have ht := List.all_eq_true.1 content_table _ h1
    simp only [beq_iff_eq] at ht
    have hc : h.isContent = decide (h.id = 12 ∨ h.id = 80 ∨ h.id = 81 ∨ h.id = 82 ∨ h.id = 13) := by
      unfold RawHeader.isContent
      have : (h.id = 0) = False := eq_false h0
      simp [this, Bool.or_assoc]
    rw [hc, ht, Bool.and_eq_true, decide_eq_true_eq, and_comm]
    refine and_congr Iff.rfl ?_
    rw [List.any_eq_true]
    constructor
    · rintro ⟨⟨f, j⟩, g1, g2⟩
      simp only [Bool.and_eq_true, beq_iff_eq, List.isPrefixOf_iff_prefix] at g2
      obtain ⟨rfl, z, hz⟩ := g2
      exact Or.inr ⟨f, g1, str "content-", z, hz.symm, by decide +kernel⟩
    · intro g
      have : ∃ f, (f, h.id) ∈ headerTable ∧ ContentName (str f) := by
        rcases g with ⟨x, y, rfl, hx⟩ | g
        · refine ⟨s, h1, str "content-", y.map asciiLower, ?_, by decide +kernel⟩
          have h2 : (x ++ y).map asciiLower = str s := h2
          rw [← h2, List.map_append, hx]
        · exact g
      obtain ⟨f, g1, x, y, hx, hx2⟩ := this
      refine ⟨(f, h.id), g1, ?_⟩
      simp only [Bool.and_eq_true, beq_iff_eq, List.isPrefixOf_iff_prefix, true_and]
      have hfl := headerTable_lower _ g1
      refine ⟨y, ?_⟩
      rw [hx] at hfl
      have hxl : x.map asciiLower = x := by
        rw [List.map_append] at hfl
        exact (List.append_inj hfl (by simp)).1
      rw [hx, ← hx2, hxl]
  · have hc : h.isContent = strHasPrefixNoCase n (str "Content-") := by
      unfold RawHeader.isContent
      simp [h1, h2, writeStr]
    rw [hc, ← hlow, h1]
    constructor
    · intro g; exact ⟨by decide, Or.inl g⟩
    · rintro ⟨_, g | ⟨s, g, _⟩⟩
      · exact g
      · exact absurd rfl (headerTable_facts _ g).1

/-- the hypotheses are met -/
theorem isContent_samples :
    NameOf 12 none (str "e") ∧ (RawHeader.mk 12 none (str "gzip")).isContent = true ∧
    NameOf 0 (some (str "content-X")) (str "content-X") ∧ (RawHeader.mk 0 (some (str "content-X")) (str "1")).isContent = true ∧
    NameOf 11 none (str "Content-Disposition") ∧ (RawHeader.mk 11 none (str "1")).isContent = false ∧
    findUnknownRawHeader [⟨12, none, str "e"⟩, ⟨0, some (str "X-y"), str "1"⟩, ⟨0, some (str "x-Y"), str "2"⟩] (str "x-y") = some ⟨0, some (str "X-y"), str "1"⟩ :=
  ⟨Or.inl ⟨"e", by decide +kernel, (by unfold SameLetters; decide +kernel), rfl⟩, by decide +kernel,
    Or.inr ⟨rfl, rfl, by decide +kernel, (by intro b hb; revert hb; revert b; decide +kernel), by decide +kernel⟩, by decide +kernel,
    Or.inl ⟨"content-disposition", by decide +kernel, (by unfold SameLetters; decide +kernel), rfl⟩, by decide +kernel, by decide +kernel⟩

end Sip
