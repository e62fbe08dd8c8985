import Verif.Lemmas.TrieNodes
import Verif.Props.Grammar
/-!
# Header names with a CR for a dash, exactly (C16, C42, C43)

`header_index_iff` says for every input what `GetSipHeaderIndex` recognises; `Gram.nameAs` says where a CR is taken for a dash.
-/
namespace Sip

/-- the test `src[pos] | 0x20 == '-'`, which a CR meets too -/
def looseDash : Pat := ⟨true, 0x2d⟩

/-- at most one such test, and behind one of the four beginnings -/
def looseShape (qs : List Pat) : Prop :=
  looseDash ∉ qs ∨ ∃ n ∈ List.range qs.length, qs[n]? = some looseDash ∧ looseDash ∉ qs.take n ∧ looseDash ∉ qs.drop (n + 1) ∧ (qs.take n).map (·.ch) ∈ Gram.crPrefix

instance (qs : List Pat) : Decidable (looseShape qs) := inferInstanceAs (Decidable (_ ∨ _))

theorem headerTrie_nodes_shape : ∀ qs ∈ headerTrie.nodes, looseShape qs ∧ ∀ p ∈ qs, p ∈ goodPats := by decide +kernel
theorem headerTrie_paths_shape : ∀ x ∈ headerTrie.paths, looseShape x.1 ∧ (looseDash ∉ x.1 → ∀ a ∈ Gram.crPrefix, (a ++ [0x2d]).isPrefixOf (x.1.map (fun p : Pat => p.ch)) = false) := by decide +kernel
theorem headerTrie_crNodes : ∀ a ∈ Gram.crPrefix, ∃ qs ∈ headerTrie.nodes, qs.map (·.ch) = a ++ [0x2d] ∧ looseDash ∈ qs := by decide +kernel
theorem headerTable_crPrefix : ∀ e ∈ headerTable, str e.1 ∉ Gram.crPrefix := by decide +kernel
theorem crPrefix_facts : ∀ a ∈ Gram.crPrefix, (0x2d : UInt8) ∉ a ∧ a ≠ [] := by decide +kernel

theorem looseShape_split {qs : List Pat} (h : looseShape qs) :
    looseDash ∉ qs ∨ ∃ q1 q2, qs = q1 ++ looseDash :: q2 ∧ looseDash ∉ q1 ∧ looseDash ∉ q2 ∧ q1.map (·.ch) ∈ Gram.crPrefix := by
  rcases h with h | ⟨n, hn, h1, h2, h3, h4⟩
  · exact Or.inl h
  · right
    have hn := List.mem_range.1 hn
    refine ⟨qs.take n, qs.drop (n + 1), ?_, h2, h3, h4⟩
    have : qs[n] = looseDash := by rw [List.getElem?_eq_getElem hn] at h1; exact Option.some.inj h1
    rw [← this, ← List.drop_eq_getElem_cons hn, List.take_append_drop]

/-- tests without a loose one are letter by letter tests -/
theorem testAll_strict (ps : List Pat) (hg : ∀ p ∈ ps, p ∈ goodPats) (hs : looseDash ∉ ps) (l : Bytes) :
    Pat.testAll ps l = true ↔ ∃ w y, l = w ++ y ∧ SameLetters w (ps.map (·.ch)) := by
  unfold SameLetters
  induction ps generalizing l with
  | nil => simp [Pat.testAll]
  | cons p ps ih =>
    cases l with
    | nil => simp [Pat.testAll]
    | cons b bs =>
      have := ih (fun q hq => hg q (by simp [hq])) (fun h => hs (by simp [h])) bs
      simp only [Pat.testAll, Bool.and_eq_true, this, goodPats_test p (hg p (by simp)) b]
      constructor
      · rintro ⟨h1 | h1, w, y, rfl, h2⟩
        · exact ⟨b :: w, y, rfl, by simp [h1, h2]⟩
        · exact absurd (by rw [h1.2]; exact List.mem_cons_self) hs
      · rintro ⟨w, y, h1, h2⟩
        cases w with
        | nil => simp at h2
        | cons x w =>
          simp only [List.cons_append, List.cons.injEq] at h1
          simp only [List.map_cons, List.cons.injEq] at h2
          exact ⟨Or.inl (by rw [h1.1]; exact h2.1), w, y, h1.2, h2.2⟩

theorem looseDash_test : ∀ b : UInt8, looseDash.test b = true ↔ b = 0x2d ∨ b = 0x0d := by decide +kernel
theorem asciiLower_dash : ∀ b : UInt8, asciiLower b = 0x2d ↔ b = 0x2d := by decide +kernel

theorem sameLetters_length {w n : Bytes} (h : SameLetters w n) : w.length = n.length := by
  have := congrArg List.length h; simpa using this

theorem nameAs_length {n m : Bytes} (h : Gram.nameAs n m) : n.length = m.length := by
  cases h <;> simp

/-- the tests of the tree read a name as `nameAs` says -/
theorem testAll_nameAs (qs : List Pat) (hg : ∀ p ∈ qs, p ∈ goodPats) (hs : looseShape qs) (l : Bytes) (h : Pat.testAll qs l = true) :
    ∃ w y m, l = w ++ y ∧ w.length = qs.length ∧ Gram.nameAs w m ∧ SameLetters m (qs.map (·.ch)) := by
  rcases looseShape_split hs with hs | ⟨q1, q2, rfl, h1, h2, h3⟩
  · obtain ⟨w, y, rfl, hw⟩ := (testAll_strict qs hg hs l).1 h
    exact ⟨w, y, w, rfl, by rw [sameLetters_length hw, List.length_map], .same w, hw⟩
  · rw [testAll_append] at h
    obtain ⟨a, y, rfl, ha⟩ := (testAll_strict q1 (fun p hp => hg p (by simp [hp])) h1 l).1 h.1
    have hl : a.length = q1.length := by rw [sameLetters_length ha, List.length_map]
    have h := h.2
    rw [← hl, List.drop_left] at h
    cases y with
    | nil => simp [Pat.testAll] at h
    | cons b y =>
      simp only [Pat.testAll, Bool.and_eq_true] at h
      obtain ⟨w, y, rfl, hw⟩ := (testAll_strict q2 (fun p hp => hg p (by simp [hp])) h2 _).1 h.2
      have hl2 : w.length = q2.length := by rw [sameLetters_length hw, List.length_map]
      refine ⟨a ++ b :: w, y, a ++ 0x2d :: w, by simp, by simp [hl, hl2], ?_, ?_⟩
      · rcases (looseDash_test b).1 h.1 with rfl | rfl
        · exact .same _
        · exact .cr a w (by rw [ha]; exact h3)
      · unfold SameLetters at ha hw ⊢
        rw [List.map_append, List.map_cons, List.map_append, List.map_cons, ha, hw]
        rfl

/-- and the other way round for a name with such a CR -/
theorem testAll_cr (qs : List Pat) (hg : ∀ p ∈ qs, p ∈ goodPats) (hs : looseShape qs) (hm : looseDash ∈ qs) (a b y : Bytes) (ha : a.map asciiLower ∈ Gram.crPrefix)
    (hw : SameLetters (a ++ 0x2d :: b) (qs.map (·.ch))) : Pat.testAll qs (a ++ 0x0d :: b ++ y) = true := by
  rcases looseShape_split hs with hs | ⟨q1, q2, rfl, h1, h2, h3⟩
  · exact absurd hm hs
  · unfold SameLetters at hw
    rw [List.map_append, List.map_cons, List.map_append, List.map_cons] at hw
    have e1 : asciiLower 0x2d = 0x2d := by decide
    rw [e1] at hw
    have e2 : looseDash.ch = 0x2d := rfl
    rw [e2] at hw
    have hd1 := (crPrefix_facts _ ha).1
    have hd2 := (crPrefix_facts _ h3).1
    -- the first dash on both sides
    have hsplit : ∀ (x x' y y' : Bytes), x ++ 0x2d :: y = x' ++ 0x2d :: y' → (0x2d : UInt8) ∉ x → (0x2d : UInt8) ∉ x' → x = x' ∧ y = y' := by
      intro x
      induction x with
      | nil =>
        intro x' y y' h _ h'
        cases x' with
        | nil => simp at h; exact ⟨rfl, h⟩
        | cons c x' => simp only [List.nil_append, List.cons_append, List.cons.injEq] at h; exact absurd (by rw [← h.1]; simp) h'
      | cons c x ih =>
        intro x' y y' h hx h'
        cases x' with
        | nil => simp only [List.nil_append, List.cons_append, List.cons.injEq] at h; exact absurd (by rw [h.1]; simp) hx
        | cons d x' =>
          simp only [List.cons_append, List.cons.injEq] at h
          obtain ⟨g1, g2⟩ := ih x' y y' h.2 (fun g => hx (by simp [g])) (fun g => h' (by simp [g]))
          exact ⟨by rw [h.1, g1], g2⟩
    obtain ⟨g1, g2⟩ := hsplit _ _ _ _ hw hd1 hd2
    have hl : a.length = q1.length := by have := congrArg List.length g1; simpa using this
    rw [testAll_append]
    refine ⟨(testAll_strict q1 (fun p hp => hg p (by simp [hp])) h1 _).2 ⟨a, 0x0d :: b ++ y, by simp, g1⟩, ?_⟩
    rw [← hl, List.append_assoc, List.drop_left]
    simp only [List.cons_append, Pat.testAll, Bool.and_eq_true]
    exact ⟨(looseDash_test _).2 (Or.inr rfl), (testAll_strict q2 (fun p hp => hg p (by simp [hp])) h2 _).2 ⟨b, y, rfl, g2⟩⟩

theorem headerChars_token {n : Bytes} {s : String} {i : Nat} (hs : (s, i) ∈ headerTable) (h : SameLetters n (str s)) : InSet csSipToken n :=
  (sameLetters_token h (headerTable_facts _ hs).2.2 (headerTable_facts _ hs).2.1).2

/-- a name of the table, also with a CR in the place of a dash where that is allowed, is recognised in front of the end of the token -/
theorem header_index_nameAs (src : Bytes) (pos i : Nat) (name : String) (w m y : Bytes) (hm : (name, i) ∈ headerTable)
    (hs : src.drop pos = w ++ y) (hn : Gram.nameAs w m) (hw : SameLetters m (str name)) (he : TokenEnd y) :
    getSipHeaderIndex src pos = .ok (i, pos + w.length) := by
  cases hn with
  | same => exact header_index_complete src pos i name w y hm hs hw he
  | cr a b ha =>
    have hp := headerTrie_paths.2 _ (List.mem_map.mpr ⟨_, hm, rfl⟩)
    simp only [List.mem_map, Prod.mk.injEq] at hp
    obtain ⟨⟨ps, j⟩, hp, h1, rfl⟩ := hp
    simp only at h1
    have htok := headerChars_token hm hw
    rw [← h1] at hw
    have hlen : (a ++ 0x0d :: b).length = ps.length := by
      have := sameLetters_length hw; simpa using this
    have hgood : ∀ p ∈ ps, p ∈ goodPats := fun p h => headerTrie_good p (Trie.paths_pats _ _ hp p h)
    have hlt : ¬ pos ≥ src.length := by
      intro h
      rw [List.drop_eq_nil_of_le h] at hs
      simp at hs
    unfold getSipHeaderIndex Trie.lookup
    rw [if_neg hlt, hs, hlen]
    obtain ⟨hsh1, hsh2⟩ := headerTrie_paths_shape _ hp
    have hloose : looseDash ∈ ps := by
      false_or_by_contra
      rename_i hx
      have := hsh2 hx _ ha
      simp only at this
      rw [← hw, List.map_append, List.map_cons] at this
      have e1 : asciiLower 0x2d = 0x2d := by decide
      rw [e1, ← Bool.not_eq_true, List.isPrefixOf_iff_prefix] at this
      exact this ⟨b.map asciiLower, by simp⟩
    refine Trie.run_complete' _ headerTrie_det _ _ _ ps hp (testAll_cr ps hgood hsh1 hloose a b y ha hw) ?_ (by rw [← hlen, List.drop_left, endOfToken_iff]; exact he)
    intro n hn hend j hj
    -- a token ends in front of the end of the name: at the CR
    have hna : n = a.length := by
      false_or_by_contra
      rename_i hne
      rw [endOfToken_iff] at hend
      have hget : ((a ++ 0x0d :: b ++ y).drop n).head? = (a ++ 0x2d :: b)[n]? := by
        rw [List.head?_drop, List.getElem?_append_left (by omega)]
        by_cases hlt : n < a.length
        · rw [List.getElem?_append_left hlt, List.getElem?_append_left hlt]
        · rw [List.getElem?_append_right (by omega), List.getElem?_append_right (by omega)]
          have : n - a.length = (n - a.length - 1) + 1 := by omega
          rw [this, List.getElem?_cons_succ, List.getElem?_cons_succ]
      have hlt : n < (a ++ 0x2d :: b).length := by simp at hlen ⊢; omega
      rw [List.getElem?_eq_getElem hlt] at hget
      have h5 := (tokenEnd_iff _).1 hend
      have := htok _ (List.getElem_mem hlt)
      rw [h5 _ hget] at this; cases this
    have h6 := headerTrie_paths.1 _ hj
    simp only [List.mem_map, Prod.mk.injEq] at h6
    obtain ⟨e, he1, he2, _⟩ := h6
    apply headerTable_crPrefix e he1
    rw [he2, List.map_take, ← hw, hna, List.map_append, ← List.length_map (f := asciiLower), List.take_left]
    exact ha

/-- what is recognised is a name of the table read as `nameAs` says -/
theorem header_index_sound_nameAs (src : Bytes) (pos i q : Nat) (hi : i ≠ 0) (h : getSipHeaderIndex src pos = .ok (i, q)) :
    ∃ name w m y, (name, i) ∈ headerTable ∧ src.drop pos = w ++ y ∧ Gram.nameAs w m ∧ SameLetters m (str name) ∧ TokenEnd y ∧ q = pos + w.length := by
  unfold getSipHeaderIndex Trie.lookup at h
  split at h
  · simp only [Out.ok.injEq, Prod.mk.injEq] at h; exact absurd h.1.symm hi
  · obtain ⟨ps, h1, h2, h3, h4⟩ := Trie.run_sound _ _ _ _ _ h hi
    have hgood : ∀ p ∈ ps, p ∈ goodPats := fun p h => headerTrie_good p (Trie.paths_pats _ _ h1 p h)
    obtain ⟨w, y, m, g1, hlen, g2, g3⟩ := testAll_nameAs ps hgood (headerTrie_paths_shape _ h1).1 _ h2
    have := headerTrie_paths.1 _ h1
    simp only [List.mem_map, Prod.mk.injEq] at this
    obtain ⟨⟨n, j⟩, hm, e1, rfl⟩ := this
    refine ⟨n, w, m, y, hm, g1, g2, by rw [e1]; exact g3, ?_, by rw [h4, hlen]⟩
    rw [g1, ← hlen, List.drop_left] at h3
    exact (endOfToken_iff y).mp h3

/-- **C16** `GetSipHeaderIndex` returns the number of a header, for every input, exactly if a name of that header - in any letter case, a CR being taken for the dash
behind `P`, `In`, `Priv` and `Refer` - stands at the position, and then the end of the token; the position returned is the one behind the name. -/
theorem header_index_iff (src : Bytes) (pos i q : Nat) (hi : i ≠ 0) : getSipHeaderIndex src pos = .ok (i, q) ↔
    ∃ name w m y, (name, i) ∈ headerTable ∧ src.drop pos = w ++ y ∧ Gram.nameAs w m ∧ SameLetters m (str name) ∧ TokenEnd y ∧ q = pos + w.length := by
  constructor
  · exact header_index_sound_nameAs src pos i q hi
  · rintro ⟨name, w, m, y, h1, h2, h3, h4, h5, rfl⟩
    exact header_index_nameAs src pos i name w m y h1 h2 h3 h4 h5

/-- `Refer<CR>To` in mixed case meets the right hand side -/
example : ∃ name w m y, (name, 65) ∈ headerTable ∧ (str "rEFER\rtO: x").drop 0 = w ++ y ∧ Gram.nameAs w m ∧ SameLetters m (str name) ∧ TokenEnd y ∧ 8 = 0 + w.length :=
  (header_index_iff _ _ _ _ (by decide)).1 (by decide +kernel)

/-- bytes in front of the first CR of a name that is read with a CR -/
theorem nameAs_cases {n m : Bytes} (h : Gram.nameAs n m) (hm : InSet csSipToken m) :
    (n = m) ∨ ∃ a b, n = a ++ 0x0d :: b ∧ m = a ++ 0x2d :: b ∧ a.map asciiLower ∈ Gram.crPrefix ∧ InSet csSipToken a ∧ InSet csSipToken b := by
  cases h with
  | same => exact Or.inl rfl
  | cr a b ha => exact Or.inr ⟨a, b, rfl, rfl, ha, fun x hx => hm x (by simp [hx]), fun x hx => hm x (by simp [hx])⟩

/-- two token runs at the beginning of the same text -/
theorem token_runs {a b x y : Bytes} (h : a ++ x = b ++ y) (ha : InSet csSipToken a) (hb : InSet csSipToken b) (hx : NotIn csSipToken x) : b.length ≤ a.length := by
  false_or_by_contra
  rename_i hlt
  have h1 : (a ++ x)[a.length]? = x.head? := by rw [List.getElem?_append_right (Nat.le_refl _), Nat.sub_self, List.head?_eq_getElem?]
  rw [h, List.getElem?_append_left (by omega), List.getElem?_eq_getElem (by omega)] at h1
  have := hb _ (List.getElem_mem (show a.length < b.length by omega))
  rw [hx _ h1.symm] at this; cases this

theorem token_runs_eq {a b x y : Bytes} (h : a ++ x = b ++ y) (ha : InSet csSipToken a) (hb : InSet csSipToken b) (hx : NotIn csSipToken x) (hy : NotIn csSipToken y) : a = b ∧ x = y := by
  have h1 := token_runs h ha hb hx
  have h2 := token_runs h.symm hb ha hy
  exact List.append_inj h (by omega)

theorem notIn_cr (y : Bytes) : NotIn csSipToken (0x0d :: y) := by
  intro b hb
  cases hb; decide +kernel

/-- the reading of a name is determined by the text: the name ends with its token, unless a CR follows -/
theorem nameAs_unique {n m n' m' y y' : Bytes} (h : Gram.nameAs n m) (h' : Gram.nameAs n' m') (hm : InSet csSipToken m) (hm' : InSet csSipToken m')
    (e : n ++ y = n' ++ y') (hy : NotIn csSipToken y) (hy' : NotIn csSipToken y') (hcr : y.head? ≠ some 0x0d) (hpre : m'.map asciiLower ∉ Gram.crPrefix) : n = n' ∧ m = m' ∧ y = y' := by
  rcases nameAs_cases h hm with rfl | ⟨a, b, rfl, rfl, ha, hta, htb⟩
  · rcases nameAs_cases h' hm' with rfl | ⟨a', b', rfl, rfl, ha', hta', htb'⟩
    · obtain ⟨h1, h2⟩ := token_runs_eq e hm hm' hy hy'
      exact ⟨h1, h1, h2⟩
    · have e : n ++ y = a' ++ 0x0d :: (b' ++ y') := by rw [e]; simp
      obtain ⟨h1, h2⟩ := token_runs_eq e hm hta' hy (notIn_cr _)
      rw [h2] at hcr; simp at hcr
  · rcases nameAs_cases h' hm' with rfl | ⟨a', b', rfl, rfl, ha', hta', htb'⟩
    · have e : a ++ 0x0d :: (b ++ y) = n' ++ y' := by rw [← e]; simp
      obtain ⟨h1, h2⟩ := token_runs_eq e hta hm' (notIn_cr _) hy'
      rw [h1] at ha; exact absurd ha hpre
    · have e : a ++ 0x0d :: (b ++ y) = a' ++ 0x0d :: (b' ++ y') := by simpa using e
      obtain ⟨rfl, h2⟩ := token_runs_eq e hta hta' (notIn_cr _) (notIn_cr _)
      simp only [List.cons.injEq, true_and] at h2
      obtain ⟨rfl, rfl⟩ := token_runs_eq h2 htb htb' hy hy'
      exact ⟨rfl, rfl, rfl⟩

theorem nameAs_append {n m : Bytes} (h : Gram.nameAs n m) (v : Bytes) : Gram.nameAs (n ++ v) (m ++ v) := by
  cases h with
  | same => exact .same _
  | cr a b ha => have := Gram.nameAs.cr a (b ++ v) ha; simpa using this

/-- if nothing is recognised the search has passed the beginning of a name -/
theorem header_index_zero (src : Bytes) (pos q : Nat) (h : getSipHeaderIndex src pos = .ok (0, q)) :
    ∃ w m z, src.drop pos = w ++ z ∧ Gram.nameAs w m ∧ InSet csSipToken m ∧ q = pos + w.length := by
  unfold getSipHeaderIndex Trie.lookup at h
  split at h
  · simp only [Out.ok.injEq, Prod.mk.injEq, true_and] at h
    exact ⟨[], [], src.drop pos, rfl, .same _, (fun _ h => by cases h), by simp [h]⟩
  · obtain ⟨qs, hq, htest, hlen⟩ := Trie.run_stop _ headerTrie_det _ _ _ h
    obtain ⟨hsh, hgood⟩ := headerTrie_nodes_shape _ hq
    obtain ⟨w, z, m', g1, g2, g3, g4⟩ := testAll_nameAs qs hgood hsh _ htest
    refine ⟨w, m', z, g1, g3, ?_, by rw [hlen, g2]⟩
    intro b hb
    have : asciiLower b ∈ qs.map (·.ch) := by rw [← g4]; exact List.mem_map.2 ⟨b, hb, rfl⟩
    obtain ⟨p, hp1, hp2⟩ := List.mem_map.1 this
    exact goodPats_token p (hgood p hp1) b hp2.symm

/-- where the search ends if the name is not in the table: inside the name, behind the CR -/
theorem header_index_other (src : Bytes) (pos : Nat) (n m y : Bytes) (hs : src.drop pos = n ++ y) (hn : Gram.nameAs n m) (ht : InSet csSipToken m)
    (hno : ∀ s i, (s, i) ∈ headerTable → ¬ SameLetters m (str s)) (hy : NotIn csSipToken y) (hcr : y.head? ≠ some 0x0d) (hp : getSipHeaderIndex src pos ≠ .panic) :
    ∃ n1 n2, n = n1 ++ n2 ∧ getSipHeaderIndex src pos = .ok (0, pos + n1.length) ∧ InSet csSipToken n2 := by
  obtain ⟨i, k, ei, hk, _⟩ := header_index_returns src pos hp
  have hi : i = 0 := by
    false_or_by_contra
    rename_i hi
    obtain ⟨name, w, m', y', g1, g2, g3, g4, g5, g6⟩ := header_index_sound_nameAs src pos i _ hi ei
    rw [hs] at g2
    obtain ⟨_, rfl, _⟩ := nameAs_unique hn g3 ht (headerChars_token g1 g4) g2 hy ((tokenEnd_iff _).1 g5) hcr (by
      have := headerTable_crPrefix _ g1; rw [g4]; exact this)
    exact hno _ _ g1 g4
  subst hi
  have hrun : headerTrie.run (n ++ y) pos = .ok (0, pos + k) ∨ k = 0 ∧ n = [] := by
    unfold getSipHeaderIndex Trie.lookup at ei
    split at ei
    · right
      rename_i hge
      rw [List.drop_eq_nil_of_le hge] at hs
      simp only [Out.ok.injEq, Prod.mk.injEq, true_and] at ei
      exact ⟨by omega, (List.append_eq_nil_iff.1 hs.symm).1⟩
    · left; rw [← hs]; exact ei
  rcases hrun with hrun | ⟨rfl, rfl⟩
  · obtain ⟨qs, hq, htest, hlen⟩ := Trie.run_stop _ headerTrie_det _ _ _ hrun
    have hlen : k = qs.length := by omega
    obtain ⟨hsh, hgood⟩ := headerTrie_nodes_shape _ hq
    obtain ⟨w, z, m', g1, g2, g3, g4⟩ := testAll_nameAs qs hgood hsh _ htest
    have htm' : InSet csSipToken m' := by
      intro b hb
      have : asciiLower b ∈ qs.map (·.ch) := by rw [← g4]; exact List.mem_map.2 ⟨b, hb, rfl⟩
      obtain ⟨p, hp1, hp2⟩ := List.mem_map.1 this
      have := goodPats_token p (hgood p hp1) b hp2.symm
      exact this
    -- the stop lies inside the name
    have key : ∃ n2, n = w ++ n2 ∧ InSet csSipToken n2 := by
      rcases nameAs_cases hn ht with rfl | ⟨a, b, rfl, rfl, ha, hta, htb⟩
      · rcases nameAs_cases g3 htm' with rfl | ⟨a', b', rfl, rfl, ha', hta', htb'⟩
        · have hle := token_runs g1 ht htm' hy
          refine ⟨n.drop w.length, ?_, fun x hx => ht x (List.mem_of_mem_drop hx)⟩
          have := congrArg (List.take w.length) g1
          rw [List.take_left, List.take_append_of_le_length hle] at this
          rw [← this, List.length_take, Nat.min_eq_left hle, List.take_append_drop]
        · have e : n ++ y = a' ++ 0x0d :: (b' ++ z) := by rw [g1]; simp
          have hle := token_runs e ht hta' hy
          by_cases heq : a'.length = n.length
          · obtain ⟨_, h2⟩ := List.append_inj e heq.symm
            rw [h2] at hcr; simp at hcr
          · have h1 : (n ++ y)[a'.length]? = some 0x0d := by
              rw [e, List.getElem?_append_right (Nat.le_refl _), Nat.sub_self]; rfl
            rw [List.getElem?_append_left (by omega)] at h1
            have h3 : csSipToken.mem 0x0d = false := by decide +kernel
            rw [ht _ (List.mem_of_getElem? h1)] at h3; cases h3
      · obtain ⟨qs2, hq2, hch, hld⟩ := headerTrie_crNodes _ ha
        obtain ⟨hsh2, hgood2⟩ := headerTrie_nodes_shape _ hq2
        have hpass := Trie.run_passes _ headerTrie_det _ _ _ hrun qs2 hq2 (by
          have := testAll_cr qs2 hgood2 hsh2 hld a [] (b ++ y) ha (by
            unfold SameLetters; rw [hch, List.map_append]; rfl)
          simpa using this)
        have hl2 : qs2.length = a.length + 1 := by
          have := congrArg List.length hch; simpa using this
        have e : a ++ 0x0d :: (b ++ y) = w ++ z := by rw [← g1]; simp
        rcases nameAs_cases g3 htm' with rfl | ⟨a', b', rfl, rfl, ha', hta', htb'⟩
        · have := token_runs e hta htm' (notIn_cr _)
          omega
        · have e : a ++ 0x0d :: (b ++ y) = a' ++ 0x0d :: (b' ++ z) := by rw [e]; simp
          obtain ⟨rfl, h2⟩ := token_runs_eq e hta hta' (notIn_cr _) (notIn_cr _)
          simp only [List.cons.injEq, true_and] at h2
          have hle := token_runs h2 htb htb' hy
          refine ⟨b.drop b'.length, ?_, fun x hx => htb x (List.mem_of_mem_drop hx)⟩
          have := congrArg (List.take b'.length) h2
          rw [List.take_left, List.take_append_of_le_length hle] at this
          rw [List.append_assoc, List.cons_append]
          conv => lhs; rw [← List.take_append_drop b'.length b, this]
    obtain ⟨n2, rfl, hn2⟩ := key
    exact ⟨w, n2, rfl, by rw [ei, g2, hlen], hn2⟩
  · exact ⟨[], [], rfl, by rw [ei]; rfl, fun _ h => by cases h⟩

end Sip
