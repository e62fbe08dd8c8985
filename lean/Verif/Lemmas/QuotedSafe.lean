import Verif.Lemmas.Parser
import Verif.Props.Quoted
/-! # Quoted strings: safety judgement, and the loop budget is enough -/
namespace Sip

theorem runLen_drop_le (p : UInt8 → Bool) (src : Bytes) (pos : Nat) (h : pos ≤ src.length) :
    pos + ((src.drop pos).takeWhile p).length ≤ src.length := by
  have := (List.takeWhile_sublist (p := p) (l := src.drop pos)).length_le
  simp at this; omega

/-- the bytes at `i` up to `j` contain no line end -/
def NoEolBetween (src : Bytes) (i j : Nat) : Prop := ∀ e, i ≤ e → e < j → ¬ StartsEol (src.drop e)

theorem noEol_of_bytes {src : Bytes} {i : Nat} {x y : Bytes} (h : src.drop i = x ++ y) (hx : ∀ b ∈ x, b ≠ 0x0d) : NoEolBetween src i (i + x.length) := by
  intro e h1 h2 hs
  have hd : src.drop e = (x ++ y).drop (e - i) := by rw [← h, List.drop_drop]; congr 1; omega
  have hh := startsEol_head hs
  rw [hd, List.head?_drop, List.getElem?_append_left (by omega)] at hh
  exact hx _ (List.mem_of_getElem? hh) rfl

theorem spHtab_noCR (b : UInt8) (h : isSpHtab b = true) : b ≠ 0x0d := by
  revert b; decide +kernel

theorem takeWhile_drop_split (p : UInt8 → Bool) (s : Bytes) : s = s.takeWhile p ++ s.drop (s.takeWhile p).length := by
  induction s with
  | nil => rfl
  | cons a s ih =>
    rw [List.takeWhile_cons]
    split
    · simp only [List.cons_append, List.length_cons, List.drop_succ_cons]; rw [← ih]
    · simp

theorem takeWhile_all (p : UInt8 → Bool) (s : Bytes) : ∀ b ∈ s.takeWhile p, p b = true := by
  intro b hb; exact List.all_eq_true.1 List.all_takeWhile b hb

/-- what the white space copier can do when it is called on a white space byte -/
theorem copyLWS_cases (src : Bytes) (cap pos used : Nat) (v : UInt8) (hv : src[pos]? = some v) (hl : isLwsChar v = true) :
    match copyLWS src cap pos used with
    | .panic => cap < used + (src.length - pos)
    | .hang => False
    | .ok (b, p, u, o) => pos ≤ p ∧ p ≤ src.length ∧ u = used + (p - pos) ∧ o.length = p - pos ∧ (u ≤ cap ∨ p = pos) ∧
        (b = true → NoEolBetween src pos p ∧ (p = pos → Stuck (src.drop pos)) ∧ (pos < p → ∀ j, p = j + 1 → src[j]? ≠ some 0x0d)) := by
  have hlt : pos < src.length := (List.getElem?_eq_some_iff.1 hv).1
  have hle := runLen_drop_le isSpHtab src pos (by omega)
  have hsplit := takeWhile_drop_split isSpHtab (src.drop pos)
  have hall := takeWhile_all isSpHtab (src.drop pos)
  unfold copyLWS
  simp only
  generalize hrun : (src.drop pos).takeWhile isSpHtab = run at *
  have hnoeol : NoEolBetween src pos (pos + run.length) :=
    noEol_of_bytes hsplit (fun b hb => spHtab_noCR b (hall b hb))
  have hlast : run ≠ [] → ∀ j, pos + run.length = j + 1 → src[j]? ≠ some 0x0d := by
    intro hne j hj he
    have hj' : j = pos + (run.length - 1) := by
      have := List.length_pos_iff.mpr hne; omega
    have : (src.drop pos)[run.length - 1]? = some 0x0d := by rw [List.getElem?_drop, ← hj']; exact he
    rw [hsplit, List.getElem?_append_left (by have := List.length_pos_iff.mpr hne; omega)] at this
    exact spHtab_noCR _ (hall _ (List.mem_of_getElem? this)) rfl
  by_cases h1 : used + run.length > cap ∧ run ≠ []
  · rw [if_pos h1]; simp only; omega
  rw [if_neg h1]
  have hru : used + run.length ≤ cap ∨ run = [] := by
    by_cases hne : run = []
    · exact Or.inr hne
    · left; have : ¬ (used + run.length > cap) := fun h => h1 ⟨h, hne⟩
      omega
  have hru' : used + run.length ≤ cap ∨ pos + run.length = pos := by
    rcases hru with h | h
    · exact Or.inl h
    · right; subst h; simp
  -- the first byte when the run is empty
  have hv0 : run = [] → v = 0x0d ∨ v = 0x0a := by
    intro h
    rw [h] at hrun
    have hd : src.drop pos = v :: src.drop (pos + 1) := by
      obtain ⟨_, e⟩ := List.getElem?_eq_some_iff.1 hv
      rw [← e]; exact List.drop_eq_getElem_cons hlt
    rw [hd, List.takeWhile_cons] at hrun
    have hsp : isSpHtab v = false := by
      cases hh : isSpHtab v
      · rfl
      · rw [hh] at hrun; simp at hrun
    rcases (lws_facts v).1 hl with h | h | h | h
    · subst h; exact absurd hsp (by decide +kernel)
    · subst h; exact absurd hsp (by decide +kernel)
    · exact Or.inl h
    · exact Or.inr h
  have hdrop : src.drop pos = v :: src.drop (pos + 1) := by
    obtain ⟨_, e⟩ := List.getElem?_eq_some_iff.1 hv
    rw [← e]; exact List.drop_eq_getElem_cons hlt
  by_cases h2 : pos + run.length + 1 ≥ src.length
  · rw [if_pos h2]
    simp only
    refine ⟨by omega, hle, by omega, by omega, by omega, fun _ => ⟨hnoeol, ?_, ?_⟩⟩
    · intro h
      have hr : run = [] := by apply List.eq_nil_of_length_eq_zero; omega
      subst hr
      have hz : src.drop (pos + 1) = [] := List.drop_eq_nil_of_le (by simp at h2; omega)
      rcases hv0 rfl with rfl | rfl
      · exact Or.inr ⟨[], by rw [hdrop, hz], by simp⟩
      · exact Or.inl ⟨[], by rw [hdrop, hz]⟩
    · intro h; exact hlast (by intro e; subst e; simp at h)
  rw [if_neg h2]
  by_cases h3 : src[pos + run.length]? = some 0x0d ∧ src[pos + run.length + 1]? = some 0x0a
  · rw [if_pos h3]
    by_cases h4 : used + run.length + 1 ≥ cap
    · rw [if_pos h4]; simp only; omega
    rw [if_neg h4]
    by_cases h5 : pos + run.length + 2 ≥ src.length
    · rw [if_pos h5]; simp only
      refine ⟨by omega, by omega, by omega, by simp; omega, by omega, by simp⟩
    rw [if_neg h5]
    by_cases h6 : (src[pos + run.length + 2]?.map isSpHtab) ≠ some true
    · rw [if_pos h6]; simp only
      refine ⟨by omega, by omega, by omega, by simp; omega, by omega, by simp⟩
    rw [if_neg h6]
    have hle2 := runLen_drop_le isSpHtab src (pos + run.length + 2) (by omega)
    have hsplit2 := takeWhile_drop_split isSpHtab (src.drop (pos + run.length + 2))
    have hall2 := takeWhile_all isSpHtab (src.drop (pos + run.length + 2))
    have hne2 : (src.drop (pos + run.length + 2)).takeWhile isSpHtab ≠ [] := by
      rw [getElem?_eq_drop] at h6
      cases hd : src.drop (pos + run.length + 2) with
      | nil => rw [hd] at h6; simp at h6
      | cons a b =>
        rw [hd] at h6
        have : isSpHtab a = true := by simpa using h6
        simp [this]
    generalize hrun2 : (src.drop (pos + run.length + 2)).takeWhile isSpHtab = run2 at *
    by_cases h7 : used + run.length + 2 + run2.length > cap
    · rw [if_pos h7]; simp only; omega
    rw [if_neg h7]; simp only
    refine ⟨by omega, by omega, by omega, by simp; omega, by omega, fun _ => ⟨?_, by have := List.length_pos_iff.mpr hne2; omega, ?_⟩⟩
    · intro e he1 he2 hs
      rcases Nat.lt_or_ge e (pos + run.length) with hlt' | hge'
      · exact hnoeol e he1 hlt' hs
      · rcases Nat.lt_or_ge e (pos + run.length + 2) with hlt2 | hge2
        · have hh := startsEol_head hs
          have heq : e = pos + run.length := by
            rcases Nat.lt_or_ge (pos + run.length) e with h | h
            · have : e = pos + run.length + 1 := by omega
              subst this
              rw [List.head?_drop, h3.2] at hh; cases hh
            · omega
          subst heq
          obtain ⟨z, hz, hzz⟩ := hs
          have hz2 : z = src.drop (pos + run.length + 2) := by
            have : (src.drop (pos + run.length)).drop 2 = z := by rw [hz]; rfl
            rw [List.drop_drop] at this; exact this.symm
          rw [hz2, hsplit2] at hzz
          cases run2 with
          | nil => exact hne2 rfl
          | cons w r2 =>
            have := hzz w (by simp)
            have hw := hall2 w (by simp)
            rcases (spHtab_facts w).1 hw with h | h
            · exact this.1 h
            · exact this.2 h
        · have := noEol_of_bytes hsplit2 (fun b hb => spHtab_noCR b (hall2 b hb))
          exact this e hge2 (by omega) hs
    · intro _ j hj he
      have hp := List.length_pos_iff.mpr hne2
      have hj' : j = pos + run.length + 2 + (run2.length - 1) := by omega
      have : (src.drop (pos + run.length + 2))[run2.length - 1]? = some 0x0d := by rw [List.getElem?_drop, ← hj']; exact he
      rw [hsplit2, List.getElem?_append_left (by omega)] at this
      exact spHtab_noCR _ (hall2 _ (List.mem_of_getElem? this)) rfl
  · rw [if_neg h3]
    simp only
    refine ⟨by omega, hle, by omega, by omega, by omega, fun _ => ⟨hnoeol, ?_, ?_⟩⟩
    · intro h
      have hr : run = [] := by apply List.eq_nil_of_length_eq_zero; omega
      subst hr
      simp only [List.length_nil, Nat.add_zero] at h3
      rcases hv0 rfl with rfl | rfl
      · refine Or.inr ⟨_, hdrop, ?_⟩
        intro hh
        apply h3
        refine ⟨hv, ?_⟩
        rw [List.head?_drop] at hh; exact hh
      · exact Or.inl ⟨_, hdrop⟩
    · intro h; exact hlast (by intro e; subst e; simp at h)

theorem getElem?_of_drop_cons {src : Bytes} {n : Nat} {v : UInt8} (hv : src[n]? = some v) : src.drop n = v :: src.drop (n + 1) ∧ n < src.length := by
  obtain ⟨hlt, e⟩ := List.getElem?_eq_some_iff.1 hv
  exact ⟨by rw [← e]; exact List.drop_eq_getElem_cons hlt, hlt⟩

/-- the loop budget is enough: if the loop has not finished after as many rounds as there are bytes left, it never does -/
theorem quotedLoop_budget (fuel : Nat) (c : Ctx) (n w : Nat) (out : Bytes) (hf : c.src.length - n < fuel)
    (h : quotedLoop fuel c n w out = .hang) : ∀ k, quotedLoop k c n w out = .hang := by
  induction fuel generalizing c n w out with
  | zero => omega
  | succ fuel ih =>
    intro k
    cases k with
    | zero => rfl
    | succ k =>
      rw [quotedLoop] at h ⊢
      cases hs : c.src[n]? with
      | none => rw [hs] at h; cases h
      | some v =>
        rw [hs] at h
        simp only at h ⊢
        obtain ⟨hd, hlt⟩ := getElem?_of_drop_cons hs
        by_cases h1 : v = 0x22
        · rw [if_pos h1] at h; cases h
        rw [if_neg h1] at h ⊢
        by_cases h2 : isLwsChar v = true
        · rw [if_pos h2] at h ⊢
          have hc := copyLWS_cases c.src c.cap n w v hs h2
          rcases hcw : copyLWS c.src c.cap n w with ⟨b, p, u, o⟩ | _ | _
          · rw [hcw] at hc h
            obtain ⟨hp1, hp2, hu, ho, hcap, hb⟩ := hc
            simp only at h ⊢
            by_cases h3 : (!b) = true
            · rw [if_pos h3] at h; cases h
            rw [if_neg h3] at h ⊢
            have hbt : b = true := by simpa using h3
            obtain ⟨_, hst, _⟩ := hb hbt
            rcases Nat.eq_or_lt_of_le hp1 with he | hlt'
            · subst he
              exact quotedLoop_stuck { c with pos := n, used := u } n u (out ++ o) (c.src.drop n) rfl (hst rfl) k
            · exact ih _ p u _ (by show c.src.length - p < fuel; omega) h k
          · rw [hcw] at h; cases h
          · rw [hcw] at hc
        rw [if_neg h2] at h ⊢
        by_cases h3 : isSipQuotedText v = true
        · rw [if_pos h3] at h ⊢
          by_cases h4 : w ≥ c.cap
          · rw [if_pos h4] at h; cases h
          rw [if_neg h4] at h ⊢
          exact ih _ _ _ _ (by omega) h k
        rw [if_neg h3] at h ⊢
        by_cases h4 : v = 0x5c
        · rw [if_pos h4] at h ⊢
          cases hs2 : c.src[n + 1]? with
          | none => rw [hs2] at h; cases h
          | some x =>
            rw [hs2] at h
            simp only at h ⊢
            by_cases h5 : w + 1 ≥ c.cap
            · rw [if_pos h5] at h; cases h
            rw [if_neg h5] at h ⊢
            exact ih _ _ _ _ (by omega) h k
        · rw [if_neg h4] at h; cases h

/-- **C30** the budget that `P.quoted` gives the loop is enough: if the call does not return within it, no budget makes it return. -/
theorem quoted_budget_enough (c : Ctx) (h : P.quoted c = .hang) : ∀ fuel, parseQuoted fuel c = .hang := by
  intro fuel
  unfold P.quoted parseQuoted at h
  unfold parseQuoted
  generalize parseSWS c.src c.pos = n at *
  simp only at h ⊢
  cases hs : c.src[n]? with
  | none => rw [hs] at h; cases h
  | some v =>
    rw [hs] at h
    simp only at h ⊢
    by_cases h1 : v ≠ 0x22
    · rw [if_pos h1] at h; cases h
    rw [if_neg h1] at h ⊢
    have hq : quotedLoop (c.src.length + 1) c (n + 1) (c.used + 2) [] = .hang := by
      split at h
      · cases h
      · rename_i heq; exact heq
      · cases h
      · split at h <;> cases h
    rw [quotedLoop_budget _ _ _ _ _ (by omega) hq fuel]

/-- the loop invariant of the quoted string: what it can do from position `n` -/
theorem quotedLoop_cases (fuel : Nat) (c : Ctx) (n w : Nat) (out : Bytes) (hc : Inv c) (hn : n ≤ c.src.length) (hcn : c.pos ≤ n) (hw : c.used ≤ w) :
    match quotedLoop fuel c n w out with
    | .ok (none, d) => Step c d ∧ c.errs.length < d.errs.length ∧ d.used ≤ w + (c.src.length - n)
    | .ok (some (p, u, o), d) => Step c d ∧ n ≤ p ∧ c.src[p]? = some 0x22 ∧ NoEolBetween c.src n p ∧ u = w + (p - n) ∧ o.length = out.length + (p - n) ∧
        d.errs = c.errs ∧ (u ≤ c.cap ∨ n = p)
    | .panic => c.cap < w + (c.src.length - n)
    | .hang => True := by
  induction fuel generalizing c n w out with
  | zero => trivial
  | succ fuel ih =>
    rw [quotedLoop]
    cases hs : c.src[n]? with
    | none =>
      exact ⟨(Step.setPos hc hcn hn).addError _, by simp [Ctx.addError, Ctx.setPos], by simp only [Ctx.addError, Ctx.setPos]; omega⟩
    | some v =>
      simp only
      obtain ⟨hd, hlt⟩ := getElem?_of_drop_cons hs
      have hfail : ∀ d, d = (c.setPos n).addError n → Step c d ∧ c.errs.length < d.errs.length ∧ d.used ≤ w + (c.src.length - n) := by
        rintro d rfl
        exact ⟨(Step.setPos hc hcn hn).addError _, by simp [Ctx.addError, Ctx.setPos], by simp only [Ctx.addError, Ctx.setPos]; omega⟩
      by_cases h1 : v = 0x22
      · rw [if_pos h1]
        subst h1
        exact ⟨Step.refl hc, Nat.le_refl _, hs, fun e h1 h2 => by omega, by omega, by omega, rfl, Or.inr rfl⟩
      rw [if_neg h1]
      by_cases h2 : isLwsChar v = true
      · rw [if_pos h2]
        have hcl := copyLWS_cases c.src c.cap n w v hs h2
        rcases hcw : copyLWS c.src c.cap n w with ⟨b, p, u, o⟩ | _ | _
        · rw [hcw] at hcl
          obtain ⟨hp1, hp2, hu, ho, hcap, hb⟩ := hcl
          simp only
          by_cases h3 : (!b) = true
          · rw [if_pos h3]
            have hpn : p ≠ n ∨ u ≤ c.cap := by
              rcases hcap with h | h
              · exact Or.inr h
              · -- no progress and failure: impossible since a failing copy has passed CRLF
                subst h
                exfalso
                have hbf : b = false := by simpa using h3
                subst hbf
                unfold copyLWS at hcw
                simp only at hcw
                split at hcw
                · cases hcw
                · split at hcw
                  · cases hcw
                  · split at hcw
                    · split at hcw
                      · cases hcw
                      · split at hcw
                        · cases hcw
                        · split at hcw
                          · cases hcw
                          · split at hcw <;> cases hcw
                    · cases hcw
            have hucap : u ≤ c.cap := by
              rcases hpn with h | h
              · rcases hcap with h' | h'
                · exact h'
                · exact absurd h' h
              · exact h
            refine ⟨⟨rfl, rfl, rfl, by simp only [Ctx.addError]; omega, hp2, by simp only [Ctx.addError]; omega, hucap, ErrsIn.refl.cons ⟨by omega, hp2⟩⟩, by simp [Ctx.addError], by simp only [Ctx.addError]; omega⟩
          rw [if_neg h3]
          have hbt : b = true := by simpa using h3
          obtain ⟨hne, hst, _⟩ := hb hbt
          rcases Nat.eq_or_lt_of_le hp1 with he | hlt'
          · subst he
            have hh : quotedLoop fuel { c with pos := n, used := u } n u (out ++ o) = .hang :=
              quotedLoop_stuck { c with pos := n, used := u } n u (out ++ o) (c.src.drop n) rfl (hst rfl) fuel
            rw [hh]; trivial
          · have hucap : u ≤ c.cap := by omega
            have st : Step c { c with pos := p, used := u } :=
              ⟨rfl, rfl, rfl, by simp only; omega, hp2, by simp only; omega, hucap, ErrsIn.refl⟩
            have := ih { c with pos := p, used := u } p u (out ++ o) st.inv hp2 (Nat.le_refl _) (Nat.le_refl _)
            split
            · rename_i d heq
              rw [heq] at this
              exact ⟨st.trans this.1, this.2.1, by have := this.2.2; simp only at this; omega⟩
            · rename_i p' u' o' d heq
              rw [heq] at this
              obtain ⟨a1, a2, a3, a4, a5, a6, a7, a8⟩ := this
              refine ⟨st.trans a1, by omega, a3, ?_, by omega, by simp only [List.length_append] at a6; omega, a7, by simp only at a8; omega⟩
              intro e e1 e2 e3
              rcases Nat.lt_or_ge e p with h | h
              · exact hne e e1 h e3
              · exact a4 e h e2 e3
            · rename_i heq
              rw [heq] at this
              simp only at this; omega
            · trivial
        · rw [hcw] at hcl; exact hcl
        · rw [hcw] at hcl; exact hcl.elim
      rw [if_neg h2]
      have hvcr : v ≠ 0x0d := by intro e; subst e; exact h2 (by decide +kernel)
      by_cases h3 : isSipQuotedText v = true
      · rw [if_pos h3]
        by_cases h4 : w ≥ c.cap
        · rw [if_pos h4]; simp only; omega
        rw [if_neg h4]
        have := ih c (n + 1) (w + 1) (out ++ [v]) hc (by omega) (by omega) (by omega)
        split
        · rename_i d heq; rw [heq] at this; exact ⟨this.1, this.2.1, by have := this.2.2; omega⟩
        · rename_i p' u' o' d heq
          rw [heq] at this
          obtain ⟨a1, a2, a3, a4, a5, a6, a7, a8⟩ := this
          refine ⟨a1, by omega, a3, ?_, by omega, by simp only [List.length_append, List.length_cons, List.length_nil] at a6; omega, a7, by omega⟩
          intro e e1 e2 e3
          rcases Nat.lt_or_ge e (n + 1) with h | h
          · have : e = n := by omega
            subst this
            have := startsEol_head e3
            rw [hd] at this; simp at this; exact hvcr this
          · exact a4 e h e2 e3
        · rename_i heq; rw [heq] at this; simp only at this; omega
        · trivial
      rw [if_neg h3]
      by_cases h4 : v = 0x5c
      · rw [if_pos h4]
        cases hs2 : c.src[n + 1]? with
        | none => simp only; exact hfail _ rfl
        | some x =>
          simp only
          obtain ⟨hd2, hlt2⟩ := getElem?_of_drop_cons hs2
          by_cases h5 : w + 1 ≥ c.cap
          · rw [if_pos h5]; simp only; omega
          rw [if_neg h5]
          have := ih c (n + 2) (w + 2) (out ++ [v, x]) hc (by omega) (by omega) (by omega)
          split
          · rename_i d heq; rw [heq] at this; exact ⟨this.1, this.2.1, by have := this.2.2; omega⟩
          · rename_i p' u' o' d heq
            rw [heq] at this
            obtain ⟨a1, a2, a3, a4, a5, a6, a7, a8⟩ := this
            refine ⟨a1, by omega, a3, ?_, by omega, by simp only [List.length_append, List.length_cons, List.length_nil] at a6; omega, a7, by omega⟩
            intro e e1 e2 e3
            rcases Nat.lt_or_ge e (n + 2) with h | h
            · have : e = n ∨ e = n + 1 := by omega
              rcases this with rfl | rfl
              · have := startsEol_head e3
                rw [hd] at this; simp at this; exact hvcr this
              · -- a CR behind the backslash: the LF then blocks the loop
                obtain ⟨z, hz, _⟩ := e3
                have hd3 : c.src.drop (n + 2) = 0x0a :: z := by
                  have : (c.src.drop (n + 1)).drop 1 = 0x0a :: z := by rw [hz]; rfl
                  rw [List.drop_drop] at this; exact this
                rw [quotedLoop_stuck c (n + 2) (w + 2) _ _ hd3 (Or.inl ⟨z, rfl⟩) fuel] at heq
                cases heq
            · exact a4 e h e2 e3
          · rename_i heq; rw [heq] at this; simp only at this; omega
          · trivial
      · rw [if_neg h4]; exact hfail _ rfl

theorem qtext_wsp_cat {x t o : Bytes} (hx : ∀ b ∈ x, isSpHtab b = true) (ht : QText t o) : QText (x ++ t) (x ++ o) := by
  induction x with
  | nil => exact ht
  | cons a x ih => exact .wsp a _ _ ((spHtab_facts a).1 (hx a (by simp))) (ih (fun b hb => hx b (by simp [hb])))

/-- what the white space copier passes is text of a quoted string -/
theorem copyLWS_passes {src : Bytes} {cap pos used p u : Nat} {o : Bytes} (h : copyLWS src cap pos used = .ok (true, p, u, o)) :
    ∃ t, src.drop pos = t ++ src.drop p ∧ ∀ t' o', QText t' o' → ∃ o'', QText (t ++ t') o'' := by
  have hsplit := takeWhile_drop_split isSpHtab (src.drop pos)
  have hall := takeWhile_all isSpHtab (src.drop pos)
  unfold copyLWS at h
  simp only at h
  generalize hrun : (src.drop pos).takeWhile isSpHtab = run at *
  rw [List.drop_drop] at hsplit
  have base : ∃ t, src.drop pos = t ++ src.drop (pos + run.length) ∧ ∀ t' o', QText t' o' → ∃ o'', QText (t ++ t') o'' :=
    ⟨run, hsplit, fun t' o' ht => ⟨_, qtext_wsp_cat hall ht⟩⟩
  by_cases h1 : used + run.length > cap ∧ run ≠ []
  · rw [if_pos h1] at h; cases h
  rw [if_neg h1] at h
  by_cases h2 : pos + run.length + 1 ≥ src.length
  · rw [if_pos h2] at h; cases h; exact base
  rw [if_neg h2] at h
  by_cases h3 : src[pos + run.length]? = some 0x0d ∧ src[pos + run.length + 1]? = some 0x0a
  · rw [if_pos h3] at h
    by_cases h4 : used + run.length + 1 ≥ cap
    · rw [if_pos h4] at h; cases h
    rw [if_neg h4] at h
    by_cases h5 : pos + run.length + 2 ≥ src.length
    · rw [if_pos h5] at h; cases h
    rw [if_neg h5] at h
    by_cases h6 : (src[pos + run.length + 2]?.map isSpHtab) ≠ some true
    · rw [if_pos h6] at h; cases h
    rw [if_neg h6] at h
    have hsplit2 := takeWhile_drop_split isSpHtab (src.drop (pos + run.length + 2))
    have hall2 := takeWhile_all isSpHtab (src.drop (pos + run.length + 2))
    have hne2 : (src.drop (pos + run.length + 2)).takeWhile isSpHtab ≠ [] := by
      rw [getElem?_eq_drop] at h6
      cases hd : src.drop (pos + run.length + 2) with
      | nil => rw [hd] at h6; simp at h6
      | cons a b =>
        rw [hd] at h6
        have : isSpHtab a = true := by simpa using h6
        simp [this]
    generalize hrun2 : (src.drop (pos + run.length + 2)).takeWhile isSpHtab = run2 at *
    by_cases h7 : used + run.length + 2 + run2.length > cap
    · rw [if_pos h7] at h; cases h
    rw [if_neg h7] at h
    cases h
    rw [List.drop_drop] at hsplit2
    cases run2 with
    | nil => exact absurd rfl hne2
    | cons w r2 =>
      refine ⟨run ++ 0x0d :: 0x0a :: w :: r2, ?_, fun t' o' ht => ?_⟩
      · rw [hsplit, List.append_assoc]
        congr 1
        obtain ⟨hd1, _⟩ := getElem?_of_drop_cons h3.1
        obtain ⟨hd2, _⟩ := getElem?_of_drop_cons h3.2
        rw [hd1, hd2, hsplit2]
        rfl
      · refine ⟨run ++ 0x0d :: 0x0d :: w :: (r2 ++ o'), ?_⟩
        rw [List.append_assoc]
        exact qtext_wsp_cat hall (.fold w _ _ ((spHtab_facts w).1 (hall2 w (by simp))) (qtext_wsp_cat (fun b hb => hall2 b (by simp [hb])) ht))
  · rw [if_neg h3] at h; cases h; exact base

/-- **C30, converse of `quoted_loops_forever`** the loop over a quoted string runs out of rounds only at a bare LF, or a CR without LF, behind a text -/
theorem quotedLoop_hang (fuel : Nat) (c : Ctx) (n w : Nat) (out : Bytes) (hf : c.src.length - n < fuel) (h : quotedLoop fuel c n w out = .hang) :
    ∃ t o y, c.src.drop n = t ++ y ∧ QText t o ∧ Stuck y := by
  induction fuel generalizing c n w out with
  | zero => omega
  | succ fuel ih =>
    rw [quotedLoop] at h
    cases hs : c.src[n]? with
    | none => rw [hs] at h; cases h
    | some v =>
      rw [hs] at h
      simp only at h
      obtain ⟨hd, hlt⟩ := getElem?_of_drop_cons hs
      by_cases h1 : v = 0x22
      · rw [if_pos h1] at h; cases h
      rw [if_neg h1] at h
      by_cases h2 : isLwsChar v = true
      · rw [if_pos h2] at h
        have hcl := copyLWS_cases c.src c.cap n w v hs h2
        rcases hcw : copyLWS c.src c.cap n w with ⟨b, p, u, o⟩ | _ | _
        · rw [hcw] at hcl h
          obtain ⟨hp1, hp2, hu, ho, hcap, hb⟩ := hcl
          simp only at h
          by_cases h3 : (!b) = true
          · rw [if_pos h3] at h; cases h
          rw [if_neg h3] at h
          have hbt : b = true := by simpa using h3
          obtain ⟨hnb, hst, hlast⟩ := hb hbt
          rcases Nat.eq_or_lt_of_le hp1 with he | hlt'
          · exact ⟨[], [], c.src.drop n, rfl, .nil, hst he.symm⟩
          · subst hbt
            obtain ⟨t, ht, hq⟩ := copyLWS_passes hcw
            obtain ⟨t', o', y, g1, g2, g3⟩ := ih _ p u _ (by show c.src.length - p < fuel; omega) h
            obtain ⟨o'', ho''⟩ := hq t' o' g2
            exact ⟨t ++ t', o'', y, by rw [ht, List.append_assoc]; congr 1, ho'', g3⟩
        · rw [hcw] at h; cases h
        · rw [hcw] at hcl; exact hcl.elim
      rw [if_neg h2] at h
      by_cases h3 : isSipQuotedText v = true
      · rw [if_pos h3] at h
        by_cases h4 : w ≥ c.cap
        · rw [if_pos h4] at h; cases h
        rw [if_neg h4] at h
        obtain ⟨t', o', y, g1, g2, g3⟩ := ih _ _ _ _ (by omega) h
        exact ⟨v :: t', v :: o', y, by rw [hd, g1]; rfl, .lit v _ _ ⟨h3, by simpa using h2⟩ g2, g3⟩
      rw [if_neg h3] at h
      by_cases h4 : v = 0x5c
      · rw [if_pos h4] at h
        cases hs2 : c.src[n + 1]? with
        | none => rw [hs2] at h; cases h
        | some x =>
          rw [hs2] at h
          simp only at h
          by_cases h5 : w + 1 ≥ c.cap
          · rw [if_pos h5] at h; cases h
          rw [if_neg h5] at h
          subst h4
          obtain ⟨t', o', y, g1, g2, g3⟩ := ih _ _ _ _ (by omega) h
          obtain ⟨hd2, _⟩ := getElem?_of_drop_cons hs2
          exact ⟨0x5c :: x :: t', 0x5c :: x :: o', y, by rw [hd, hd2, g1]; rfl, .pair x _ _ g2, g3⟩
      · rw [if_neg h4] at h; cases h

theorem sws_pos_eq (c : Ctx) (hc : Inv c) : parseSWS c.src c.pos = c.sws.pos := by
  rw [parseSWS_eq _ _ hc.pos, sws_eq c hc.pos]; rfl

/-- safety of the quoted string parser -/
theorem safe_quoted : Safe 1 true 1 2 (fun _ => True) P.quoted := by
  intro c hc
  have st := sws_step c hc
  have hl := line_sws c hc
  have hpe := sws_pos_eq c hc
  have hps := st.pos_le
  have hpl := st.pos_len
  have e0 : P.quoted c = parseQuoted (c.src.length + 1) c := rfl
  unfold parseQuoted at e0
  rw [hpe] at e0
  generalize c.sws.pos = n at *
  simp only at e0
  cases hs : c.src[n]? with
  | none =>
    rw [hs] at e0
    refine .of_panic e0 (fun he _ => ?_)
    obtain ⟨e, h1, h2⟩ := (he.1 (Nat.le_refl _)).1
    have : n ≤ e := by
      have := hl e h1 h2
      rw [← hpe, parseSWS_eq _ _ hc.pos] at *
      rw [sws_eq c hc.pos] at this
      exact this
    have hn := List.getElem?_eq_none_iff.1 hs
    have := startsEol_head h2
    rw [List.head?_drop, List.getElem?_eq_none (by omega)] at this
    cases this
  | some v =>
    rw [hs] at e0
    simp only at e0
    obtain ⟨hd, hlt⟩ := getElem?_of_drop_cons hs
    by_cases h1 : v ≠ 0x22
    · rw [if_pos h1] at e0
      exact .of_none e0 ((Step.setPos hc hps hpl).addError _) (by simp [Ctx.addError, Ctx.setPos])
    rw [if_neg h1] at e0
    have h1 : v = 0x22 := by simpa using h1
    subst h1
    have hq := quotedLoop_cases (c.src.length + 1) c (n + 1) (c.used + 2) [] hc (by omega) (by omega) (by omega)
    rcases hql : quotedLoop (c.src.length + 1) c (n + 1) (c.used + 2) [] with ⟨_ | ⟨p, u, o⟩, d⟩ | _ | _
    · rw [hql] at e0 hq
      exact .of_none e0 hq.1 (fun _ => hq.2.1) (by have := hq.2.2; omega)
    · rw [hql] at e0 hq
      simp only at e0 hq
      obtain ⟨a1, a2, a3, a4, a5, a6, a7, a8⟩ := hq
      have hplt := (List.getElem?_eq_some_iff.1 a3).1
      by_cases h2 : c.used + 2 > c.cap
      · rw [if_pos h2] at e0
        refine .of_panic e0 (fun _ hr => ?_)
        unfold Room at hr; omega
      · rw [if_neg h2] at e0
        refine .of_ok e0 ?_ trivial ?_ ?_
        · exact ⟨a1.src, a1.cap, a1.flags, by simp only; omega, by simp only; omega, by simp only; omega, by simp only; omega, a1.errs⟩
        · intro e he hse
          simp only
          have hne : n ≤ e := by
            have := hl e he hse
            rw [← hpe, parseSWS_eq _ _ hc.pos] at *
            rw [sws_eq c hc.pos] at this
            exact this
          have hh := startsEol_head hse
          rcases Nat.lt_or_ge e (p + 1) with h | h
          · exfalso
            rcases Nat.lt_or_ge n e with h' | h'
            · rcases Nat.lt_or_ge e p with h'' | h''
              · exact a4 e (by omega) h'' hse
              · have : e = p := by omega
                subst this
                rw [List.head?_drop, a3] at hh; cases hh
            · have : e = n := by omega
              subst this
              rw [List.head?_drop, hs] at hh; cases hh
          · exact h
        · simp only; omega
    · rw [hql] at e0 hq
      refine .of_panic e0 (fun _ hr => ?_)
      unfold Room at hr
      simp only at hq; omega
    · rw [hql] at e0
      constructor
      · intro r d e; rw [e0] at e; cases e
      · intro v d e; rw [e0] at e; cases e
      · intro _ d e; rw [e0] at e; cases e
      · intro _ _ e; rw [e0] at e; cases e
      · intro hns _
        have hql' : QLoop c.src n := ⟨hs, quotedLoop_hang _ _ (n + 1) _ _ (by omega) hql⟩
        have hno : NoLoopOn c := by
          rcases hns (Nat.le_refl _) with h | h
          · exact h.on
          · exact h.1
        refine hno n ⟨by omega, fun e he hse => ?_⟩ hql'
        have hne : n ≤ e := by
          have := hl e he hse
          rw [← hpe, parseSWS_eq _ _ hc.pos] at *
          rw [sws_eq c hc.pos] at this
          exact this
        rcases Nat.eq_or_lt_of_le hne with h | h
        · subst h
          have := startsEol_head hse
          rw [List.head?_drop, hs] at this; cases this
        · exact h
      · intro c' e; rw [e0] at e; cases e

end Sip
