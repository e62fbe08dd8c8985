import Verif.Lemmas.Str
import Verif.Model.ArenaStr
/-!
# C33, C30, C29: quoted strings; C34: telephone numbers
-/
namespace Sip

/-! ## C33 -/

/-- independent specification of the inside of a quoted-string and of what the parser keeps of it: `qdtext` and white space are kept, a quoted pair
is kept with its backslash, and a folded line end CR LF is kept as CR CR (the code's deviation). -/
inductive QText : Bytes → Bytes → Prop
  | nil : QText [] []
  | lit (v t o) (h : isSipQuotedText v = true ∧ isLwsChar v = false) (hr : QText t o) : QText (v :: t) (v :: o)
  | wsp (v t o) (h : v = 0x20 ∨ v = 0x09) (hr : QText t o) : QText (v :: t) (v :: o)
  | fold (w t o) (h : w = 0x20 ∨ w = 0x09) (hr : QText t o) : QText (0x0d :: 0x0a :: w :: t) (0x0d :: 0x0d :: w :: o)
  | pair (x t o) (hr : QText t o) : QText (0x5c :: x :: t) (0x5c :: x :: o)

theorem quotedText_facts (v : UInt8) : isSipQuotedText v = true → v ≠ 0x22 ∧ v ≠ 0x5c := by
  revert v; decide +kernel
theorem lws_facts (v : UInt8) : isLwsChar v = true ↔ v = 0x20 ∨ v = 0x09 ∨ v = 0x0d ∨ v = 0x0a := by
  revert v; decide +kernel
theorem spHtab_facts (v : UInt8) : isSpHtab v = true ↔ v = 0x20 ∨ v = 0x09 := by
  revert v; decide +kernel

theorem takeWhile_append_stop {p : UInt8 → Bool} (t y : Bytes) (hy : ∀ b ∈ y.head?, p b = false) :
    (t ++ y).takeWhile p = t.takeWhile p := by
  induction t with
  | nil => cases y with
    | nil => rfl
    | cons a y => simp [hy a (by simp)]
  | cons a t ih => simp only [List.cons_append, List.takeWhile_cons, ih]

theorem qtext_run (t o : Bytes) (h : QText t o) :
    ∃ o', o = t.takeWhile isSpHtab ++ o' ∧ QText (t.drop (t.takeWhile isSpHtab).length) o' := by
  induction h with
  | nil => exact ⟨[], rfl, .nil⟩
  | lit v t o h hr ih =>
    have hv : isSpHtab v = false := by
      cases hh : isSpHtab v with
      | false => rfl
      | true =>
        have := (spHtab_facts v).1 hh
        have h2 : isLwsChar v = true := (lws_facts v).2 (by rcases this with h | h <;> simp [h])
        rw [h.2] at h2; cases h2
    refine ⟨v :: o, by simp [hv], ?_⟩
    simp only [List.takeWhile_cons, hv, Bool.false_eq_true, if_false, List.length_nil, List.drop_zero]
    exact .lit v t o h hr
  | wsp v t o h hr ih =>
    obtain ⟨o', h1, h2⟩ := ih
    have hv : isSpHtab v = true := (spHtab_facts v).2 h
    refine ⟨o', ?_, ?_⟩
    · rw [List.takeWhile_cons, if_pos hv, List.cons_append, ← h1]
    · rw [List.takeWhile_cons, if_pos hv, List.length_cons, List.drop_succ_cons]; exact h2
  | fold w t o h hr ih =>
    refine ⟨_, rfl, ?_⟩
    have : isSpHtab 0x0d = false := by decide +kernel
    simp only [List.takeWhile_cons, this, Bool.false_eq_true, if_false, List.length_nil, List.drop_zero]
    exact .fold w t o h hr
  | pair x t o hr ih =>
    refine ⟨_, rfl, ?_⟩
    have : isSpHtab 0x5c = false := by decide +kernel
    simp only [List.takeWhile_cons, this, Bool.false_eq_true, if_false, List.length_nil, List.drop_zero]
    exact .pair x t o hr

/-- what may follow the text: nothing, a '"', or a CR or LF that is not part of a fold -/
def Tail (y : Bytes) : Prop :=
  (∃ z, y = 0x22 :: z) ∨ (∃ z, y = 0x0a :: z) ∨ (∃ z, y = 0x0d :: z ∧ z.head? ≠ some 0x0a)

theorem tail_stop {y : Bytes} (h : Tail y) : ∀ b ∈ y.head?, isSpHtab b = false := by
  rcases h with ⟨z, rfl⟩ | ⟨z, rfl⟩ | ⟨z, rfl, _⟩ <;> intro b hb <;> simp at hb <;> subst hb <;> decide +kernel

/-- the white space copier on text that is followed by `y` -/
theorem copyLWS_qtext (src : Bytes) (cap pos used : Nat) (t o y : Bytes) (hs : src.drop pos = t ++ y) (ht : QText t o) (hy : Tail y)
    (hne : ∃ v, t.head? = some v ∧ isLwsChar v = true) (hfit : used + o.length ≤ cap) :
    ∃ k o1 o2, copyLWS src cap pos used = .ok (true, pos + k, used + o1.length, o1) ∧ 0 < k ∧ k ≤ t.length ∧ o = o1 ++ o2 ∧ QText (t.drop k) o2 := by
  obtain ⟨o', ho, hq⟩ := qtext_run t o ht
  have hrun : (src.drop pos).takeWhile isSpHtab = t.takeWhile isSpHtab := by rw [hs]; exact takeWhile_append_stop t y (tail_stop hy)
  generalize hr : t.takeWhile isSpHtab = run at *
  have hrl : run.length ≤ t.length := by rw [← hr]; exact (List.takeWhile_sublist _).length_le
  have hd : src.drop (pos + run.length) = t.drop run.length ++ y := by
    rw [← List.drop_drop, hs, List.drop_append_of_le_length hrl]
  have hlen : src.length = pos + t.length + y.length ∨ t ++ y = [] := by
    have := congrArg List.length hs
    simp at this
    by_cases h : t ++ y = []
    · exact Or.inr h
    · left
      have : 0 < (t ++ y).length := List.length_pos_iff.2 h
      simp at this; omega
  have hyne : 0 < y.length := by rcases hy with ⟨z, rfl⟩ | ⟨z, rfl⟩ | ⟨z, rfl, _⟩ <;> simp
  have hlen : src.length = pos + t.length + y.length := by
    rcases hlen with h | h
    · exact h
    · simp at h; rw [h.2] at hyne; simp at hyne
  subst ho
  simp only [List.length_append] at hfit
  generalize htr : t.drop run.length = tr at *
  have htl : t.length = run.length + tr.length := by rw [← htr, List.length_drop]; omega
  -- is there a fold after the run?
  by_cases hfold : tr.head? = some 0x0d
  · cases hq with
    | nil => simp at hfold
    | lit v t' o' h hr' =>
      simp at hfold; subst hfold
      have : isLwsChar 0x0d = true := by decide +kernel
      rw [this] at h; simp at h
    | wsp v t' o' h hr' => simp at hfold; subst hfold; exact absurd h (by decide)
    | pair x t' o' hr' => simp at hfold
    | fold w t' o'' hw hr' =>
      simp only [List.length_cons] at hfit htl
      have hQ : QText (w :: t') (w :: o'') := .wsp w t' o'' hw hr'
      obtain ⟨o3, ho3, hq3⟩ := qtext_run _ _ hQ
      have hd2 : src.drop (pos + run.length + 2) = (w :: t') ++ y := by
        rw [← List.drop_drop, hd]; rfl
      have hrun2 : (src.drop (pos + run.length + 2)).takeWhile isSpHtab = (w :: t').takeWhile isSpHtab := by
        rw [hd2]; exact takeWhile_append_stop _ y (tail_stop hy)
      generalize hr2 : (w :: t').takeWhile isSpHtab = run2 at *
      have hr2l : run2.length ≤ t'.length + 1 := by rw [← hr2]; exact (List.takeWhile_sublist _).length_le
      have ho3l := congrArg List.length ho3
      simp only [List.length_cons, List.length_append] at ho3l
      have g0 : src[pos + run.length]? = some 0x0d := by rw [getElem?_eq_drop, hd]; rfl
      have g1 : src[pos + run.length + 1]? = some 0x0a := by
        rw [getElem?_eq_drop, ← List.drop_drop, hd]; rfl
      have g2 : src[pos + run.length + 2]? = some w := by rw [getElem?_eq_drop, hd2]; rfl
      refine ⟨run.length + 2 + run2.length, run ++ [0x0d, 0x0d] ++ run2, o3, ?_, by omega, by omega, ?_, ?_⟩
      · unfold copyLWS
        simp only [hrun, hrun2, g0, g1, g2]
        rw [if_neg (by omega), if_neg (by omega), if_pos ⟨trivial, trivial⟩, if_neg (by omega), if_neg (by omega)]
        rw [if_neg (by simp [(spHtab_facts w).2 hw]), if_neg (by omega)]
        simp only [Out.ok.injEq, Prod.mk.injEq, true_and, List.length_append, List.length_cons, List.length_nil, and_true]
        omega
      · rw [List.append_assoc run, List.append_assoc run]
        congr 1
        simp [ho3]
      · have : t.drop (run.length + 2 + run2.length) = (w :: t').drop run2.length := by
          rw [Nat.add_assoc, ← List.drop_drop, htr, ← List.drop_drop]; rfl
        rw [this]; exact hq3
  · refine ⟨run.length, run, o', ?_, ?_, hrl, rfl, by rw [htr]; exact hq⟩
    · unfold copyLWS
      simp only [hrun]
      rw [if_neg (by omega)]
      split
      · rfl
      · rw [if_neg]
        rintro ⟨g0, g1⟩
        rw [getElem?_eq_drop, hd] at g0
        rw [getElem?_eq_drop, ← List.drop_drop, hd] at g1
        cases tr with
        | cons a tr => simp at g0 hfold; exact hfold g0
        | nil =>
          rcases hy with ⟨z, rfl⟩ | ⟨z, rfl⟩ | ⟨z, rfl, hz⟩
          · simp at g0
          · simp at g0
          · apply hz; simpa [List.head?_eq_getElem?] using g1
    · obtain ⟨v, hv1, hv2⟩ := hne
      cases t with
      | nil => simp at hv1
      | cons a t =>
        simp at hv1; subst hv1
        by_cases hw : isSpHtab a = true
        · rw [← hr, List.takeWhile_cons, if_pos hw]; simp
        · exfalso
          rw [List.takeWhile_cons, if_neg hw] at hr
          subst hr
          simp at htr; subst htr
          rw [lws_facts] at hv2
          rw [spHtab_facts] at hw
          rcases hv2 with h | h | h | h
          · exact hw (Or.inl h)
          · exact hw (Or.inr h)
          · exact hfold (by simp [h])
          · subst h
            cases hq with
            | lit v t' o' h hr' => have : isLwsChar 0x0a = true := by decide +kernel
                                   rw [this] at h; simp at h
            | wsp v t' o' h hr' => exact absurd h (by decide)

/-- the loop walks over the text, whatever the budget -/
theorem quotedLoop_qtext (t o y : Bytes) (ht : QText t o) (hy : Tail y) (c : Ctx) (n w : Nat) (out : Bytes)
    (hs : c.src.drop n = t ++ y) (hfit : w + o.length ≤ c.cap) :
    ∃ k pos' used', k ≤ t.length ∧
      ∀ fuel, quotedLoop (k + fuel) c n w out =
        quotedLoop fuel { c with pos := pos', used := used' } (n + t.length) (w + o.length) (out ++ o) := by
  induction hn : t.length using Nat.strongRecOn generalizing t o c n w out with
  | ind len ih =>
    have hyne : y ≠ [] := by rcases hy with ⟨z, rfl⟩ | ⟨z, rfl⟩ | ⟨z, rfl, _⟩ <;> simp
    by_cases hl : ∃ v, t.head? = some v ∧ isLwsChar v = true
    · obtain ⟨v, hv, hvl⟩ := hl
      obtain ⟨k, o1, o2, h1, h2, h3, h4, h5⟩ := copyLWS_qtext c.src c.cap n w t o y hs ht hy ⟨v, hv, hvl⟩ hfit
      subst h4
      simp only [List.length_append] at hfit
      have hd : c.src.drop (n + k) = t.drop k ++ y := by
        rw [← List.drop_drop, hs, List.drop_append_of_le_length h3]
      obtain ⟨k', pos', used', g1, g2⟩ := ih (t.drop k).length (by rw [List.length_drop]; omega) (t.drop k) o2 h5
        { c with pos := n + k, used := w + o1.length } (n + k) (w + o1.length) (out ++ o1) hd (by simp only; omega) rfl
      rw [List.length_drop] at g1 g2
      refine ⟨k' + 1, pos', used', by omega, fun fuel => ?_⟩
      have hsv : c.src[n]? = some v := by
        rw [getElem?_eq_drop, hs]
        cases t with
        | nil => simp at hv
        | cons a t => simpa using hv
      rw [show k' + 1 + fuel = (k' + fuel) + 1 by omega, quotedLoop, hsv]
      simp only
      have hq : v ≠ 0x22 := by rintro rfl; revert hvl; decide +kernel
      rw [if_neg hq, if_pos hvl, h1]
      simp only [Bool.not_true, Bool.false_eq_true, if_false]
      rw [g2]
      rw [show n + k + (t.length - k) = n + len by omega, List.length_append, List.append_assoc, Nat.add_assoc]
    · cases ht with
      | nil =>
        refine ⟨0, c.pos, c.used, by simp, fun fuel => ?_⟩
        simp only [Nat.zero_add, List.length_nil, Nat.add_zero, List.append_nil] at hn ⊢
        subst hn; rfl
      | wsp v t o h hr => exact absurd ⟨v, rfl, (lws_facts v).2 (by rcases h with h | h <;> simp [h])⟩ hl
      | fold w t o h hr => exact absurd ⟨0x0d, rfl, by decide +kernel⟩ hl
      | lit v t o h hr =>
        simp only [List.length_cons] at hfit hn
        have hsv : c.src[n]? = some v := by rw [getElem?_eq_drop, hs]; rfl
        have hd : c.src.drop (n + 1) = t ++ y := by rw [← List.drop_drop, hs]; rfl
        obtain ⟨k', pos', used', g1, g2⟩ := ih t.length (by omega) t o hr c (n + 1) (w + 1) (out ++ [v]) hd (by omega) rfl
        refine ⟨k' + 1, pos', used', by omega, fun fuel => ?_⟩
        rw [show k' + 1 + fuel = (k' + fuel) + 1 by omega, quotedLoop, hsv]
        simp only
        have hq := quotedText_facts v h.1
        rw [if_neg hq.1, if_neg (by simp [h.2]), if_pos h.1, if_neg (by omega), g2]
        rw [show n + 1 + t.length = n + len by omega, List.length_cons, List.append_assoc, List.singleton_append,
          show w + 1 + o.length = w + (o.length + 1) by omega]
      | pair x t o hr =>
        simp only [List.length_cons] at hfit hn
        have hsv : c.src[n]? = some 0x5c := by rw [getElem?_eq_drop, hs]; rfl
        have hsx : c.src[n + 1]? = some x := by rw [getElem?_eq_drop, ← List.drop_drop, hs]; rfl
        have hd : c.src.drop (n + 2) = t ++ y := by rw [← List.drop_drop, hs]; rfl
        obtain ⟨k', pos', used', g1, g2⟩ := ih t.length (by omega) t o hr c (n + 2) (w + 2) (out ++ [0x5c, x]) hd (by omega) rfl
        refine ⟨k' + 1, pos', used', by omega, fun fuel => ?_⟩
        rw [show k' + 1 + fuel = (k' + fuel) + 1 by omega, quotedLoop, hsv]
        simp only
        have e1 : isLwsChar 0x5c = false := by decide +kernel
        have e2 : isSipQuotedText 0x5c = false := by decide +kernel
        rw [if_neg (by decide), if_neg (by simp [e1]), if_neg (by simp [e2]), if_pos trivial, hsx]
        simp only
        rw [if_neg (by omega), g2]
        rw [show n + 2 + t.length = n + len by omega, List.length_cons, List.length_cons, List.append_assoc,
          show w + 2 + o.length = w + (o.length + 1 + 1) by omega]
        rfl

/-- the text of a quoted string without folds is kept as it is -/
theorem qtext_verbatim (t o : Bytes) (h : QText t o) : o.length = t.length ∧ ((∀ v ∈ t, v ≠ 0x0a) → o = t) := by
  induction h with
  | nil => simp
  | lit v t o h hr ih => exact ⟨by simp [ih.1], fun hh => by rw [ih.2 (fun x hx => hh x (by simp [hx]))]⟩
  | wsp v t o h hr ih => exact ⟨by simp [ih.1], fun hh => by rw [ih.2 (fun x hx => hh x (by simp [hx]))]⟩
  | fold w t o h hr ih => exact ⟨by simp [ih.1], fun hh => absurd rfl (hh 0x0a (by simp))⟩
  | pair x t o hr ih => exact ⟨by simp [ih.1], fun hh => by rw [ih.2 (fun x hx => hh x (by simp [hx]))]⟩

/-- **C33** `ParseAndAllocSipQuotedString` on `SWS DQUOTE text DQUOTE`: succeeds, keeps `o` (the text itself when it has no folded line), moves
behind the closing quote and takes `length + 2` bytes; the number of loop rounds is at most the length of the text + 1. -/
theorem parseQuoted_spec (c : Ctx) (t o y : Bytes) (fuel : Nat) (hf : t.length < fuel)
    (h : c.src.drop (parseSWS c.src c.pos) = 0x22 :: t ++ 0x22 :: y) (ht : QText t o) (hfit : c.used + 2 + o.length ≤ c.cap) :
    parseQuoted fuel c =
      .ok (some o, { c with pos := parseSWS c.src c.pos + t.length + 2, used := c.used + 2 + o.length }) := by
  unfold parseQuoted
  generalize parseSWS c.src c.pos = n at *
  have h0 : c.src[n]? = some 0x22 := by rw [getElem?_eq_drop, h]; rfl
  have hd : c.src.drop (n + 1) = t ++ 0x22 :: y := by rw [← List.drop_drop, h]; rfl
  obtain ⟨k, pos', used', g1, g2⟩ := quotedLoop_qtext t o (0x22 :: y) ht (Or.inl ⟨y, rfl⟩) c (n + 1) (c.used + 2) [] hd hfit
  have h1 : c.src[n + 1 + t.length]? = some 0x22 := by rw [getElem?_eq_drop, ← List.drop_drop, hd]; simp
  have := g2 (fuel - k - 1 + 1)
  rw [quotedLoop] at this
  simp only [h1, if_true] at this
  rw [show k + (fuel - k - 1 + 1) = fuel by omega] at this
  simp only [h0, ne_eq, not_true_eq_false, if_false, this, List.nil_append]
  rw [if_neg (by omega)]
  simp only [Out.ok.injEq, Prod.mk.injEq, true_and]
  congr 1
  omega

/-- a concrete quoted string with a quoted pair meets the hypotheses -/
example : QText (str "a \\\"b") (str "a \\\"b") :=
  .lit _ _ _ (by decide +kernel) (.wsp _ _ _ (by decide) (.pair _ _ _ (.lit _ _ _ (by decide +kernel) .nil)))

/-- **C33, negation**: a folded line inside a quoted string is not kept: the LF becomes a CR. -/
theorem quoted_fold_corrupted :
    parseQuoted 20 { src := str "\"a\r\n b\"", cap := 100 } =
      .ok (some (str "a\r\r b"), { src := str "\"a\r\n b\"", pos := 7, used := 15, cap := 100 }) := by decide +kernel

/-! ## C30: non-termination -/

theorem quotedLoop_hang_mono (fuel : Nat) (c : Ctx) (n w : Nat) (out : Bytes) (h : quotedLoop (fuel + 1) c n w out = .hang) :
    quotedLoop fuel c n w out = .hang := by
  induction fuel generalizing c n w out with
  | zero => rfl
  | succ fuel ih =>
    rw [quotedLoop] at h ⊢
    cases hs : c.src[n]? with
    | none => rw [hs] at h; simp at h
    | some v =>
      rw [hs] at h
      simp only at h ⊢
      by_cases h1 : v = 0x22
      · rw [if_pos h1] at h; cases h
      · rw [if_neg h1] at h ⊢
        by_cases h2 : isLwsChar v = true
        · rw [if_pos h2] at h ⊢
          cases hc : copyLWS c.src c.cap n w with
          | panic => rw [hc] at h; cases h
          | hang => rfl
          | ok x =>
            obtain ⟨ok, p, u, o⟩ := x
            rw [hc] at h
            simp only at h ⊢
            cases ok with
            | false => simp at h
            | true => simp only [Bool.not_true, Bool.false_eq_true, if_false] at h ⊢; exact ih _ _ _ _ h
        · rw [if_neg h2] at h ⊢
          by_cases h3 : isSipQuotedText v = true
          · rw [if_pos h3] at h ⊢
            by_cases h4 : w ≥ c.cap
            · rw [if_pos h4] at h; cases h
            · rw [if_neg h4] at h ⊢; exact ih _ _ _ _ h
          · rw [if_neg h3] at h ⊢
            by_cases h4 : v = 0x5c
            · rw [if_pos h4] at h ⊢
              cases hs2 : c.src[n + 1]? with
              | none => rw [hs2] at h; simp at h
              | some x =>
                rw [hs2] at h
                simp only at h ⊢
                by_cases h5 : w + 1 ≥ c.cap
                · rw [if_pos h5] at h; cases h
                · rw [if_neg h5] at h ⊢; exact ih _ _ _ _ h
            · rw [if_neg h4] at h; cases h

/-- the loop makes no progress at a CR or LF that does not start a folded line -/
theorem quotedLoop_stuck (c : Ctx) (n w : Nat) (out : Bytes) (y : Bytes) (hs : c.src.drop n = y)
    (hy : (∃ z, y = 0x0a :: z) ∨ ∃ z, y = 0x0d :: z ∧ z.head? ≠ some 0x0a) (fuel : Nat) : quotedLoop fuel c n w out = .hang := by
  have hc : ∀ cap used, copyLWS c.src cap n used = .ok (true, n, used, []) := by
    intro cap used
    unfold copyLWS
    have hr : (c.src.drop n).takeWhile isSpHtab = [] := by
      rcases hy with ⟨z, hz⟩ | ⟨z, hz, _⟩ <;> rw [hs, hz, List.takeWhile_cons, if_neg (by decide +kernel)]
    simp only [hr, List.length_nil, Nat.add_zero, ne_eq, not_true_eq_false, and_false, if_false]
    split
    · rfl
    · rw [if_neg]
      rintro ⟨g0, g1⟩
      rw [getElem?_eq_drop, hs] at g0
      rw [getElem?_eq_drop, ← List.drop_drop, hs] at g1
      rcases hy with ⟨z, rfl⟩ | ⟨z, rfl, hz⟩
      · simp at g0
      · apply hz; simpa [List.head?_eq_getElem?] using g1
  induction fuel generalizing c out w with
  | zero => rfl
  | succ fuel ih =>
    have hv : ∃ v, c.src[n]? = some v ∧ v ≠ 0x22 ∧ isLwsChar v = true := by
      rcases hy with ⟨z, hz⟩ | ⟨z, hz, _⟩
      · exact ⟨0x0a, by rw [getElem?_eq_drop, hs, hz]; rfl, by decide, by decide +kernel⟩
      · exact ⟨0x0d, by rw [getElem?_eq_drop, hs, hz]; rfl, by decide, by decide +kernel⟩
    obtain ⟨v, hv1, hv2, hv3⟩ := hv
    rw [quotedLoop, hv1]
    simp only
    rw [if_neg hv2, if_pos hv3, hc]
    simp only [Bool.not_true, Bool.false_eq_true, if_false]
    exact ih { c with pos := n, used := w } w _ hs hc

/-- **C30, negation**: a quoted string with a CR or LF that is not a folded line – after any correct beginning `t` – makes
`ParseAndAllocSipQuotedString` loop for ever: no number of rounds is enough. -/
theorem quoted_loops_forever (c : Ctx) (t o y : Bytes) (fuel : Nat)
    (h : c.src.drop (parseSWS c.src c.pos) = 0x22 :: t ++ y) (ht : QText t o) (hfit : c.used + 2 + o.length ≤ c.cap)
    (hy : (∃ z, y = 0x0a :: z) ∨ ∃ z, y = 0x0d :: z ∧ z.head? ≠ some 0x0a) :
    parseQuoted fuel c = .hang := by
  unfold parseQuoted
  generalize parseSWS c.src c.pos = n at *
  have h0 : c.src[n]? = some 0x22 := by rw [getElem?_eq_drop, h]; rfl
  have hd : c.src.drop (n + 1) = t ++ y := by rw [← List.drop_drop, h]; rfl
  obtain ⟨k, pos', used', g1, g2⟩ := quotedLoop_qtext t o y ht (Or.inr hy) c (n + 1) (c.used + 2) [] hd hfit
  have hst : ∀ f, quotedLoop (k + f) c (n + 1) (c.used + 2) [] = .hang := by
    intro f
    rw [g2]
    exact quotedLoop_stuck _ _ _ _ y (by show c.src.drop _ = _; rw [← List.drop_drop, hd]; simp) hy f
  have hall : ∀ j f, quotedLoop (j + f) c (n + 1) (c.used + 2) [] = .hang → quotedLoop f c (n + 1) (c.used + 2) [] = .hang := by
    intro j
    induction j with
    | zero => intro f hf; rwa [Nat.zero_add] at hf
    | succ j ih =>
      intro f hf
      rw [show j + 1 + f = (j + f) + 1 by omega] at hf
      exact ih f (quotedLoop_hang_mono _ _ _ _ _ hf)
  have := hall k fuel (hst fuel)
  simp only [h0, ne_eq, not_true_eq_false, if_false, this]

/-- the text `"a` LF `b"` in an arena with room loops for ever -/
theorem quoted_hang_example : ∀ fuel, parseQuoted fuel { src := str "\"a\nb\"", cap := 100 } = .hang := by
  intro fuel
  have e : parseSWS (str "\"a\nb\"") 0 = 0 := by decide +kernel
  exact quoted_loops_forever { src := str "\"a\nb\"", cap := 100 } (str "a") (str "a") (str "\nb\"") fuel (by
    show List.drop (parseSWS (str "\"a\nb\"") 0) _ = _
    rw [e]; decide +kernel) (.lit _ _ _ (by decide +kernel) .nil) (by decide +kernel) (Or.inl ⟨str "b\"", by decide +kernel⟩)

/-- **C29, negation**: when only white space is left the opening quote is read past the end of the input: panic, whatever the budget. -/
theorem quoted_panics (fuel : Nat) : parseQuoted fuel { src := str "  ", cap := 100 } = .panic := by
  have e : (str "  ")[parseSWS (str "  ") 0]? = none := by decide +kernel
  unfold parseQuoted
  simp only [e]

end Sip
