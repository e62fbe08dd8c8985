import Verif.Props.HeaderLines
import Verif.Props.StartLine
/-!
# C38: what is written for the headers of a message is read back as the same headers
-/
namespace Sip

/-! ## Storing the headers -/

/-- the values of one header type, in the order in which they were read -/
def valuesOf (k : HKind) (l : List HItem) : List HVal :=
  l.filterMap (fun it => match it with
    | .parsed j v => if j = k then some v else none
    | .raw _ => none)

/-- the headers kept as text, in the order in which they were read -/
def rawsOf (l : List HItem) : List RawHeader :=
  l.filterMap (fun it => match it with
    | .parsed _ _ => none
    | .raw h => some h)

theorem foldl_set (l : List HItem) : ∀ h : Hdrs, (∀ k, (l.foldl Hdrs.set h).common k =
      if k.multi = true then h.common k ++ valuesOf k l else (match (valuesOf k l).getLast? with | some v => [v] | none => h.common k)) ∧
    (l.foldl Hdrs.set h).raw = h.raw ++ rawsOf l := by
  induction l with
  | nil => intro h; simp [valuesOf, rawsOf]
  | cons it l ih =>
    intro h
    obtain ⟨h1, h2⟩ := ih (h.set it)
    rw [List.foldl_cons]
    cases it with
    | raw r =>
      have e1 : ∀ k, valuesOf k (.raw r :: l) = valuesOf k l := fun k => by simp [valuesOf]
      have e2 : rawsOf (.raw r :: l) = r :: rawsOf l := by simp [rawsOf]
      refine ⟨fun k => ?_, ?_⟩
      · rw [h1 k, e1 k]; rfl
      · rw [h2, e2]; simp [Hdrs.set]
    | parsed j v =>
      have e2 : rawsOf (.parsed j v :: l) = rawsOf l := by simp [rawsOf]
      refine ⟨fun k => ?_, ?_⟩
      · rw [h1 k]
        by_cases hj : j = k
        · subst hj
          have e1 : valuesOf j (.parsed j v :: l) = v :: valuesOf j l := by simp [valuesOf]
          rw [e1]
          by_cases hm : j.multi = true
          · simp [hm, Hdrs.set]
          · simp only [hm, if_false, Hdrs.set, if_true, Bool.false_eq_true]
            rw [List.getLast?_cons]
            cases hg : (valuesOf j l).getLast? with
            | none => simp
            | some w => simp
        · have e1 : valuesOf k (.parsed j v :: l) = valuesOf k l := by simp [valuesOf, hj]
          rw [e1]
          have e3 : (h.set (.parsed j v)).common k = h.common k := by simp [Hdrs.set, Ne.symm hj]
          rw [e3]
      · rw [h2, e2]; rfl

/-- **C38** what a message holds after reading a list of headers: of a header type that is a list all values in order, of every other type the last value, and all
raw headers in order -/
theorem setHeaders_spec (l : List HItem) : (∀ k, rfcList k → (Hdrs.ofItems l).common k = valuesOf k l) ∧
    (∀ k, ¬ rfcList k → (Hdrs.ofItems l).common k = (valuesOf k l).getLast?.toList) ∧ (Hdrs.ofItems l).raw = rawsOf l := by
  obtain ⟨h1, h2⟩ := foldl_set l {}
  refine ⟨fun k hk => ?_, fun k hk => ?_, ?_⟩
  · have := h1 k; rw [if_pos ((header_multi k).2 hk)] at this; simpa [Hdrs.ofItems] using this
  · have := h1 k
    rw [if_neg (fun h => hk ((header_multi k).1 h))] at this
    unfold Hdrs.ofItems
    rw [this]
    cases (valuesOf k l).getLast? <;> rfl
  · unfold Hdrs.ofItems; rw [h2]; rfl

/-! ## The text of the headers -/

/-- an address without brackets has a user part (else an `@` in the text behind it would be taken for its end: `bare_at_in_params`) -/
def HVal.Boxed (fl : Flags) : HVal → Prop
  | .addr a _ => (a.nameAddr || fl.encodeUriAsNameSpace) = false → ∀ u, a.uri = .sip u → u.user ≠ none
  | _ => True

/-- header values that can be written and read back -/
structure Hdrs.WF (net : Net) (fl : Flags) (need : HKind → Bool) (hs : Hdrs) : Prop where
  value : ∀ k, ∀ v ∈ hs.common k, k.WF net fl v ∧ v.Boxed fl
  single : ∀ k, ¬ rfcList k → (hs.common k).length ≤ 1
  needed : ∀ k, hs.common k ≠ [] → need k = true
  raw : ∀ h ∈ hs.raw, h.WF ∧ ∀ k, HKind.ofIndex h.id = some k → need k = false

/-- what is read back -/
def Hdrs.canon (fl : Flags) (hs : Hdrs) : Hdrs := { common := fun k => (hs.common k).map (k.canon fl), raw := hs.raw }

def valsCost (k : HKind) (vs : List HVal) : Nat := (vs.map (fun v => k.structSize + k.cost v)).sum

theorem lineEnd_valueEnd {y : Bytes} (h : LineEnd y) : ValueEnd y ∧ y ≠ [] := by
  rcases h with h | ⟨r, rfl⟩
  · refine ⟨Or.inr (Or.inl h), ?_⟩
    obtain ⟨z, rfl, _⟩ := h
    simp
  · exact ⟨Or.inr (Or.inr ⟨r, rfl⟩), by simp⟩

theorem value_text (net : Net) (hnet : net.Ok) (fl : Flags) (k : HKind) (v : HVal) (h : k.WF net fl v) (hb : v.Boxed fl) (hk : k ≠ .contentLength) :
    ∃ t, k.encodeValue net fl v = .ok t ∧ ValText net fl k (k.canon fl v) t (k.cost v) := by
  obtain ⟨t, e, hp⟩ := header_value_roundtrip net hnet fl k v h hk
  refine ⟨t, e, hp.mono (fun y hy => ?_), value_noWs net fl k v h hk t e⟩
  obtain ⟨h1, h2⟩ := lineEnd_valueEnd hy
  refine ⟨h1, ?_⟩
  cases v with
  | addr a ps => intro hx u hu hn; exact absurd hn (hb hx u hu)
  | cseq n m => exact fun h => absurd h h2
  | rack r n m => exact fun h => absurd h h2
  | _ => trivial

theorem encodeValues_text (net : Net) (hnet : net.Ok) (fl : Flags) (k : HKind) (hk : k ≠ .contentLength) (vs : List HVal) : ∀ v : HVal,
    (∀ x ∈ v :: vs, k.WF net fl x ∧ x.Boxed fl) → (vs ≠ [] → rfcList k) →
    ∃ t, encodeValues net fl k v vs = .ok t ∧ ValuesText net fl k ((v :: vs).map (k.canon fl)) t (valsCost k (v :: vs)) := by
  induction vs with
  | nil =>
    intro v h _
    obtain ⟨t, e, ht⟩ := value_text net hnet fl k v (h v (by simp)).1 (h v (by simp)).2 hk
    exact ⟨t, e, by simpa [valsCost] using ValuesText.one ht⟩
  | cons w ws ih =>
    intro v h hl
    obtain ⟨t, e, ht⟩ := value_text net hnet fl k v (h v (by simp)).1 (h v (by simp)).2 hk
    obtain ⟨ts, e2, hts⟩ := ih w (fun x hx => h x (List.mem_cons_of_mem _ hx)) (fun _ => hl (by simp))
    refine ⟨t ++ str ", " ++ ts, by unfold encodeValues; rw [e]; simp only [Out.ok_bind]; rw [e2]; rfl, ?_⟩
    have := ValuesText.cons ht (hl (by simp)) (w := [0x20]) isSWS_space hts
    have e3 : t ++ str ", " ++ ts = t ++ (0x2c :: [0x20] ++ ts) := by rw [show str ", " = [0x2c, 0x20] by decide]; simp
    rw [e3]
    have e4 : valsCost k (v :: w :: ws) = k.structSize + k.cost v + valsCost k (w :: ws) := by simp [valsCost]
    rw [e4]
    exact this

/-- the text of a Content-Length value, behind the colon and a space -/
theorem contentLength_text (net : Net) (fl : Flags) (n : Nat) (hn : n < 4294967296) :
    ValuesText net fl .contentLength [.num n] (encodeUInt n) (valsCost .contentLength [.num n]) := by
  have h : ValText net fl .contentLength (.num n) (encodeUInt n) 0 :=
    ⟨(num_text fl 4294967296 n (by omega) hn).mono (fun y hy => valueEnd_notIn _ (lineEnd_valueEnd hy).1 (by decide +kernel) (by decide +kernel)), fun y => noWs_uint n y⟩
  have := ValuesText.one h
  simpa [valsCost, HKind.cost] using this

/-- the line written for one header type -/
theorem line_text (net : Net) (hnet : net.Ok) (fl : Flags) (need : HKind → Bool) (hs : Hdrs) (hw : hs.WF net fl need) (k : HKind) (v : HVal) (vs : List HVal)
    (hc : hs.common k = v :: vs) :
    ∃ t, encodeValues net fl k v (if k.multi then vs else []) = .ok t ∧
      LineText net fl need (((v :: vs).map (k.canon fl)).map (.parsed k)) (k.title ++ str ": " ++ t ++ [0x0d, 0x0a]) (valsCost k (v :: vs)) := by
  have hname : IsNameOf k k.title := Or.inl (by rw [header_title])
  have hneed := hw.needed k (by rw [hc]; simp)
  have hvs : vs ≠ [] → rfcList k := by
    intro hne
    have h1 := hw.single k
    rw [hc] at h1
    false_or_by_contra
    rename_i hx
    have h2 := h1 hx
    cases vs with
    | nil => exact hne rfl
    | cons a l => simp at h2
  have hif : (if k.multi then vs else []) = vs := by
    by_cases hm : k.multi = true
    · rw [if_pos hm]
    · rw [if_neg hm]
      false_or_by_contra
      rename_i hx
      exact hm ((header_multi k).2 (hvs (fun h => hx h.symm)))
  rw [hif]
  have e1 : str ": " = [0x3a, 0x20] := by decide
  by_cases hk : k = .contentLength
  · subst hk
    have hnil : vs = [] := by
      false_or_by_contra
      rename_i hx
      exact hvs hx
    subst hnil
    have hv := (hw.value .contentLength v (by rw [hc]; simp)).1
    have hnum : ∃ n, v = .num n ∧ n < 4294967296 := by
      cases v with
      | num n => obtain ⟨s, hs', hn⟩ := hv; cases hs'; exact ⟨n, rfl, hn⟩
      | addr a ps => exact absurd hv.1 (by decide)
      | star => cases hv
      | via pr t h' ps => cases hv.1
      | callId a b => cases hv.1
      | cseq n m => cases hv.1
      | rack r n m => cases hv.1
      | contentType t s ps => cases hv.1
      | contentDisposition t ps => cases hv.1
    obtain ⟨n, rfl, hn⟩ := hnum
    obtain ⟨e, _⟩ := encodeUIntWithWidth_spec n 10
    refine ⟨encodeUIntWithWidth n 10, rfl, ?_⟩
    have := LineText.parsed (w1 := []) (w2 := [0x20] ++ List.replicate (10 - ((encodeUInt n).length : Int)).toNat 0x20) hneed hname (by intro b hb; cases hb)
      (isSWS_append isSWS_space (by intro b hb; exact Or.inl (List.eq_of_mem_replicate hb))) (contentLength_text net fl n hn)
    rw [e, e1]
    simpa [HKind.canon] using this
  · obtain ⟨t, e, ht⟩ := encodeValues_text net hnet fl k hk vs v (fun x hx => hw.value k x (by rw [hc]; exact hx)) hvs
    refine ⟨t, e, ?_⟩
    have := LineText.parsed (w1 := []) (w2 := [0x20]) hneed hname (by intro b hb; cases hb) isSWS_space ht
    rw [e1]
    simpa using this

/-- the line written for a header type (nothing when there is no such header) -/
def Hdrs.line (net : Net) (fl : Flags) (hs : Hdrs) (k : HKind) : Bytes :=
  match hs.common k with
  | [] => []
  | v :: vs => match encodeValues net fl k v (if k.multi then vs else []) with
    | .ok t => k.title ++ str ": " ++ t ++ [0x0d, 0x0a]
    | _ => []

/-- the items that are read from the line -/
def Hdrs.items (fl : Flags) (hs : Hdrs) (k : HKind) : List HItem := ((hs.common k).map (k.canon fl)).map (.parsed k)

theorem encodeCommon_eq (net : Net) (hnet : net.Ok) (fl : Flags) (need : HKind → Bool) (hs : Hdrs) (hw : hs.WF net fl need) (k : HKind) (buf : Bytes) (e : Nat) :
    encodeCommon net fl hs k (buf, e) = .ok (buf ++ hs.line net fl k, if k = .contentLength ∧ hs.common k ≠ [] then (buf ++ hs.line net fl k).length - 2 else e) ∧
    HeaderLines net fl need (hs.items fl k) (hs.line net fl k) (valsCost k (hs.common k)) := by
  unfold encodeCommon Hdrs.line Hdrs.items
  cases hc : hs.common k with
  | nil => simp [valsCost]; exact HeaderLines.nil
  | cons v vs =>
    obtain ⟨t, e1, ht⟩ := line_text net hnet fl need hs hw k v vs hc
    simp only [e1, Out.ok_bind]
    refine ⟨?_, ?_⟩
    · by_cases hk : k = .contentLength <;> simp [hk, List.append_assoc]
      omega
    · have := HeaderLines.cons ht HeaderLines.nil
      simpa using this

theorem encodeCommons_eq (net : Net) (hnet : net.Ok) (fl : Flags) (need : HKind → Bool) (hs : Hdrs) (hw : hs.WF net fl need) (ks : List HKind) : ∀ (buf : Bytes) (e : Nat),
    .contentLength ∉ ks →
    encodeCommons net fl hs ks (buf, e) = .ok (buf ++ ks.flatMap (hs.line net fl), e) := by
  induction ks with
  | nil => intro buf e _; simp [encodeCommons]
  | cons k ks ih =>
    intro buf e hn
    unfold encodeCommons
    rw [(encodeCommon_eq net hnet fl need hs hw k buf e).1]
    simp only [Out.ok_bind]
    have hk : k ≠ .contentLength := fun h => hn (by simp [h])
    rw [if_neg (fun h => hk h.1), ih _ _ (fun h => hn (List.mem_cons_of_mem _ h))]
    simp

theorem encodeCommons_append (net : Net) (fl : Flags) (hs : Hdrs) (a b : List HKind) (st : Bytes × Nat) :
    encodeCommons net fl hs (a ++ b) st = (encodeCommons net fl hs a st >>= fun st => encodeCommons net fl hs b st) := by
  induction a generalizing st with
  | nil => rfl
  | cons k a ih =>
    simp only [List.cons_append, encodeCommons]
    cases encodeCommon net fl hs k st with
    | ok r => simp only [Out.ok_bind]; exact ih r
    | panic => rfl
    | hang => rfl

theorem commons_lines (net : Net) (hnet : net.Ok) (fl : Flags) (need : HKind → Bool) (hs : Hdrs) (hw : hs.WF net fl need) (ks : List HKind) :
    HeaderLines net fl need (ks.flatMap (hs.items fl)) (ks.flatMap (hs.line net fl)) (ks.map (fun k => valsCost k (hs.common k))).sum := by
  induction ks with
  | nil => exact .nil
  | cons k ks ih =>
    simp only [List.flatMap_cons, List.map_cons, List.sum_cons]
    exact (encodeCommon_eq net hnet fl need hs hw k [] 0).2.append ih

theorem raws_lines (net : Net) (fl : Flags) (need : HKind → Bool) (rs : List RawHeader)
    (h : ∀ r ∈ rs, r.WF ∧ ∀ k, HKind.ofIndex r.id = some k → need k = false) : HeaderLines net fl need (rs.map .raw) (encodeRawHeaders rs) (rawCost rs) := by
  induction rs with
  | nil => exact .nil
  | cons r rs ih =>
    have h1 := h r (by simp)
    have := HeaderLines.cons (LineText.raw (net := net) (fl := fl) (rawHeader_line r h1.1) h1.2) (ih (fun x hx => h x (by simp [hx])))
    simpa [encodeRawHeaders, rawCost] using this

/-- the text of all headers -/
def Hdrs.text (net : Net) (fl : Flags) (order : List HKind) (hs : Hdrs) : Bytes := order.flatMap (hs.line net fl) ++ encodeRawHeaders hs.raw

/-- the memory the headers take when they are read -/
def Hdrs.cost (order : List HKind) (hs : Hdrs) : Nat := (order.map (fun k => valsCost k (hs.common k))).sum + rawCost hs.raw

theorem hdrs_lines (net : Net) (hnet : net.Ok) (fl : Flags) (need : HKind → Bool) (hs : Hdrs) (hw : hs.WF net fl need) (order : List HKind) :
    HeaderLines net fl need (order.flatMap (hs.items fl) ++ hs.raw.map .raw) (hs.text net fl order) (hs.cost order) :=
  (commons_lines net hnet fl need hs hw order).append (raws_lines net fl need hs.raw hw.raw)

theorem valuesOf_append (k : HKind) (a b : List HItem) : valuesOf k (a ++ b) = valuesOf k a ++ valuesOf k b := by simp [valuesOf]
theorem rawsOf_append (a b : List HItem) : rawsOf (a ++ b) = rawsOf a ++ rawsOf b := by simp [rawsOf]
theorem valuesOf_raws (k : HKind) (rs : List RawHeader) : valuesOf k (rs.map .raw) = [] := by induction rs <;> simp_all [valuesOf]
theorem rawsOf_raws (rs : List RawHeader) : rawsOf (rs.map .raw) = rs := by
  induction rs with
  | nil => rfl
  | cons a l ih => simp only [rawsOf, List.map_cons, List.filterMap_cons] at *; rw [ih]
theorem valuesOf_parsed (k j : HKind) (vs : List HVal) : valuesOf k (vs.map (.parsed j)) = if j = k then vs else [] := by
  induction vs with
  | nil => simp [valuesOf]
  | cons a l ih =>
    by_cases h : j = k
    · simp only [h, if_true, valuesOf, List.map_cons, List.filterMap_cons] at *; rw [ih]
    · simp only [h, if_false, valuesOf, List.map_cons, List.filterMap_cons] at *; exact ih
theorem rawsOf_parsed (j : HKind) (vs : List HVal) : rawsOf (vs.map (.parsed j)) = [] := by
  induction vs with
  | nil => rfl
  | cons a l ih => simp only [rawsOf, List.map_cons, List.filterMap_cons] at *; exact ih

theorem items_values (fl : Flags) (hs : Hdrs) (k : HKind) (order : List HKind) (hn : order.Nodup) :
    valuesOf k (order.flatMap (hs.items fl)) = if k ∈ order then (hs.common k).map (k.canon fl) else [] := by
  induction order with
  | nil => simp [valuesOf]
  | cons j l ih =>
    rw [List.flatMap_cons, valuesOf_append, ih (List.nodup_cons.1 hn).2]
    unfold Hdrs.items
    rw [valuesOf_parsed]
    by_cases h : j = k
    · subst h
      rw [if_pos rfl, if_neg (List.nodup_cons.1 hn).1, if_pos (by simp)]; simp
    · rw [if_neg h]
      by_cases h2 : k ∈ l
      · rw [if_pos h2, if_pos (by simp [h2])]; rfl
      · rw [if_neg h2, if_neg (by simp [h2, Ne.symm h])]; rfl

theorem items_raws (fl : Flags) (hs : Hdrs) (order : List HKind) : rawsOf (order.flatMap (hs.items fl)) = [] := by
  induction order with
  | nil => rfl
  | cons j l ih => rw [List.flatMap_cons, rawsOf_append, ih]; unfold Hdrs.items; rw [rawsOf_parsed]; rfl

/-- the headers that are stored when the text is read -/
theorem ofItems_canon (net : Net) (fl : Flags) (need : HKind → Bool) (hs : Hdrs) (hw : hs.WF net fl need) (order : List HKind) (hn : order.Nodup)
    (ho : ∀ k, hs.common k ≠ [] → k ∈ order) (extra : List RawHeader) :
    Hdrs.ofItems (order.flatMap (hs.items fl) ++ hs.raw.map .raw ++ extra.map .raw) = { hs.canon fl with raw := hs.raw ++ extra } := by
  obtain ⟨h1, h2, h3⟩ := setHeaders_spec (order.flatMap (hs.items fl) ++ hs.raw.map .raw ++ extra.map .raw)
  have hv : ∀ k, valuesOf k (order.flatMap (hs.items fl) ++ hs.raw.map .raw ++ extra.map .raw) = (hs.common k).map (k.canon fl) := by
    intro k
    rw [valuesOf_append, valuesOf_append, valuesOf_raws, valuesOf_raws, items_values fl hs k order hn]
    by_cases h : k ∈ order
    · simp [h]
    · have : hs.common k = [] := by
        false_or_by_contra
        rename_i hx
        exact h (ho k hx)
      simp [h, this]
  have hcommon : (Hdrs.ofItems (order.flatMap (hs.items fl) ++ hs.raw.map .raw ++ extra.map .raw)).common = (hs.canon fl).common := by
    funext k
    by_cases hk : rfcList k
    · rw [h1 k hk, hv k]; rfl
    · rw [h2 k hk, hv k]
      have hl := hw.single k hk
      show _ = (hs.common k).map (k.canon fl)
      match hs.common k, hl with
      | [], _ => rfl
      | [a], _ => rfl
      | a :: b :: l, hl => simp at hl
  have hraw : (Hdrs.ofItems (order.flatMap (hs.items fl) ++ hs.raw.map .raw ++ extra.map .raw)).raw = hs.raw ++ extra := by
    rw [h3, rawsOf_append, rawsOf_append, items_raws, rawsOf_raws, rawsOf_raws]; rfl
  generalize Hdrs.ofItems (order.flatMap (hs.items fl) ++ hs.raw.map .raw ++ extra.map .raw) = x at *
  cases x
  simp only at hcommon hraw
  rw [hcommon, hraw]

end Sip
