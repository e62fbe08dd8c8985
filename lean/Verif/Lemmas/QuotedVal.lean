import Verif.Lemmas.Parses
/-! # What a quoted string parser accepts -/
namespace Sip

theorem qtext_wsp_append (r t o : Bytes) (hr : ∀ b ∈ r, isSpHtab b = true) (h : QText t o) : QText (r ++ t) (r ++ o) := by
  induction r with
  | nil => exact h
  | cons b r ih => exact .wsp b _ _ ((spHtab_facts b).1 (hr b (by simp))) (ih (fun x hx => hr x (by simp [hx])))

/-- the text of a quoted string, as kept -/
theorem qtext_self {t v : Bytes} (h : QText t v) (hcr : 0x0d ∉ v) : QText v v := by
  induction h with
  | nil => exact .nil
  | lit v t o h hr ih => exact .lit v _ _ h (ih (fun hh => hcr (by simp [hh])))
  | wsp v t o h hr ih => exact .wsp v _ _ h (ih (fun hh => hcr (by simp [hh])))
  | fold w t o h hr ih => exact absurd (by simp) hcr
  | pair x t o hr ih => exact .pair x _ _ (ih (fun hh => hcr (by simp [hh])))

theorem copyLWS_val {src : Bytes} {cap pos used : Nat} {p u : Nat} {o : Bytes} (h : copyLWS src cap pos used = .ok (true, p, u, o)) :
    ∃ x, src.drop pos = x ++ src.drop p ∧ ∀ t v, QText t v → QText (x ++ t) (o ++ v) := by
  unfold copyLWS at h
  have hsplit := takeWhile_drop_split isSpHtab (src.drop pos)
  have hall := takeWhile_all isSpHtab (src.drop pos)
  generalize hr : (src.drop pos).takeWhile isSpHtab = run at *
  rw [List.drop_drop] at hsplit
  simp only at h
  split at h
  · cases h
  · split at h
    · simp only [Out.ok.injEq, Prod.mk.injEq, true_and] at h
      obtain ⟨rfl, _, rfl⟩ := h
      exact ⟨run, hsplit, fun t v => qtext_wsp_append run t v hall⟩
    · split at h
      · rename_i hcrlf
        split at h
        · cases h
        · split at h
          · cases h
          · split at h
            · cases h
            · rename_i hw
              have hsplit2 := takeWhile_drop_split isSpHtab (src.drop (pos + run.length + 2))
              have hall2 := takeWhile_all isSpHtab (src.drop (pos + run.length + 2))
              generalize hr2 : (src.drop (pos + run.length + 2)).takeWhile isSpHtab = run2 at *
              rw [List.drop_drop] at hsplit2
              split at h
              · cases h
              · simp only [Out.ok.injEq, Prod.mk.injEq, true_and] at h
                obtain ⟨rfl, _, rfl⟩ := h
                have hd : src.drop (pos + run.length) = 0x0d :: 0x0a :: src.drop (pos + run.length + 2) := by
                  rw [(getElem?_of_drop_cons hcrlf.1).1, (getElem?_of_drop_cons hcrlf.2).1]
                simp only [ne_eq, Decidable.not_not, Option.map_eq_some_iff] at hw
                obtain ⟨w, hw1, hw2⟩ := hw
                have hd2 := (getElem?_of_drop_cons hw1).1
                obtain ⟨run3, hrun3⟩ : ∃ r, run2 = w :: r := by
                  rw [hd2, List.takeWhile_cons, if_pos hw2] at hr2
                  exact ⟨_, hr2.symm⟩
                refine ⟨run ++ 0x0d :: 0x0a :: run2, ?_, ?_⟩
                · conv => lhs; rw [hsplit, hd, hsplit2]
                  simp
                · intro t v hq
                  subst hrun3
                  have h3 := QText.fold w _ _ ((spHtab_facts w).1 hw2) (qtext_wsp_append run3 t v (fun b hb => hall2 b (by simp [hb])) hq)
                  have := qtext_wsp_append run _ _ hall h3
                  simpa using this
      · simp only [Out.ok.injEq, Prod.mk.injEq, true_and] at h
        obtain ⟨rfl, _, rfl⟩ := h
        exact ⟨run, hsplit, fun t v => qtext_wsp_append run t v hall⟩

theorem quotedLoop_val (fuel : Nat) (c d : Ctx) (n w p u : Nat) (out out' : Bytes) (h : quotedLoop fuel c n w out = .ok (some (p, u, out'), d)) :
    d.src = c.src ∧ ∃ t o, c.src.drop n = t ++ 0x22 :: c.src.drop (p + 1) ∧ QText t o ∧ out' = out ++ o := by
  induction fuel generalizing c n w out with
  | zero => cases h
  | succ fuel ih =>
    rw [quotedLoop] at h
    cases hs : c.src[n]? with
    | none => rw [hs] at h; cases h
    | some v =>
      rw [hs] at h
      have hd := (getElem?_of_drop_cons hs).1
      simp only at h
      split at h
      · rename_i h1
        subst h1
        simp only [Out.ok.injEq, Prod.mk.injEq, Option.some.injEq] at h
        obtain ⟨⟨rfl, rfl, rfl⟩, rfl⟩ := h
        exact ⟨rfl, [], [], hd, .nil, by simp⟩
      · split at h
        · rename_i h1 h2
          cases hc : copyLWS c.src c.cap n w with
          | panic => rw [hc] at h; cases h
          | hang => rw [hc] at h; cases h
          | ok x =>
            obtain ⟨ok, p1, u1, o1⟩ := x
            rw [hc] at h
            cases ok with
            | false => cases h
            | true =>
              simp only [Bool.not_true, Bool.false_eq_true, if_false] at h
              obtain ⟨x, hx, hq⟩ := copyLWS_val hc
              obtain ⟨h1, t, o, h2, h3, h4⟩ := ih _ _ _ _ h
              refine ⟨h1, x ++ t, o1 ++ o, ?_, hq t o h3, by simp [h4]⟩
              rw [hx]
              have : c.src.drop p1 = t ++ 0x22 :: c.src.drop (p + 1) := h2
              rw [this]; simp
        · rename_i h1 h2
          split at h
          · rename_i h3
            split at h
            · cases h
            · obtain ⟨g1, t, o, g2, g3, g4⟩ := ih _ _ _ _ h
              refine ⟨g1, v :: t, v :: o, by rw [hd, g2]; rfl, .lit v t o ⟨h3, by simpa using h2⟩ g3, by simp [g4]⟩
          · split at h
            · rename_i h4
              subst h4
              cases hs2 : c.src[n + 1]? with
              | none => rw [hs2] at h; cases h
              | some x =>
                rw [hs2] at h
                simp only at h
                split at h
                · cases h
                · obtain ⟨g1, t, o, g2, g3, g4⟩ := ih _ _ _ _ h
                  have hd2 := (getElem?_of_drop_cons hs2).1
                  refine ⟨g1, 0x5c :: x :: t, 0x5c :: x :: o, by rw [hd, hd2, g2]; rfl, .pair x t o g3, by simp [g4]⟩
            · cases h

/-- **C33, converse**: what the quoted string parser accepts is `SWS DQUOTE text DQUOTE`, and it yields what the text stands for -/
theorem quoted_val' {c c' : Ctx} {o : Bytes} (h : P.quoted c = .ok (some o, c')) :
    ∃ w t, c.rest = w ++ 0x22 :: t ++ 0x22 :: c'.rest ∧ QText t o ∧ (c.pos ≤ c.src.length → w = c.rest.take (swsLen c.rest)) := by
  have h : parseQuoted (c.src.length + 1) c = .ok (some o, c') := h
  unfold parseQuoted at h
  simp only at h
  split at h
  · cases h
  · rename_i v hv
    split at h
    · cases h
    · rename_i hq
      split at h
      · cases h
      · cases h
      · cases h
      · rename_i p u out d heq
        split at h
        · cases h
        · simp only [Out.ok.injEq, Prod.mk.injEq, Option.some.injEq] at h
          obtain ⟨rfl, rfl⟩ := h
          obtain ⟨h1, t, o, h2, h3, h4⟩ := quotedLoop_val _ _ _ _ _ _ _ _ _ heq
          simp only [List.nil_append] at h4
          subst h4
          have hd := (getElem?_of_drop_cons hv).1
          have hvq : v = 0x22 := by simpa using hq
          subst hvq
          have hle : c.pos ≤ parseSWS c.src c.pos := by
            by_cases hp : c.pos ≤ c.src.length
            · rw [parseSWS_eq _ _ hp]; omega
            · have : parseSWS c.src c.pos < c.src.length := (getElem?_of_drop_cons hv).2
              false_or_by_contra
              rename_i hlt
              have hge : c.src.length ≤ c.pos := by omega
              have : parseSWS c.src c.pos = c.pos := by
                unfold parseSWS
                rw [if_pos hge]
              omega
          refine ⟨c.rest.take (parseSWS c.src c.pos - c.pos), t, ?_, h3, fun hp => by rw [parseSWS_eq _ _ hp, Nat.add_sub_cancel_left]; rfl⟩
          have e : ({ d with pos := p + 1, used := u } : Ctx).rest = c.src.drop (p + 1) := by show d.src.drop _ = _; rw [h1]
          rw [e]
          conv => lhs; rw [← List.take_append_drop (parseSWS c.src c.pos - c.pos) c.rest]
          have : c.rest.drop (parseSWS c.src c.pos - c.pos) = c.src.drop (parseSWS c.src c.pos) := by
            unfold Ctx.rest; rw [List.drop_drop]; congr 1; omega
          rw [this, hd, h2]; simp

theorem quoted_val {c c' : Ctx} {o : Bytes} (h : P.quoted c = .ok (some o, c')) :
    ∃ w t, c.rest = w ++ 0x22 :: t ++ 0x22 :: c'.rest ∧ QText t o := by
  obtain ⟨w, t, h1, h2, _⟩ := quoted_val' h
  exact ⟨w, t, h1, h2⟩

end Sip
