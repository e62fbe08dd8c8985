import Verif.Lemmas.LocScheme
/-! # What stands behind the end of a line does not matter: methods, versions, header names -/
namespace Sip
section
variable {a z z' : Bytes} {c : Ctx}

/-- the text of `parseStrFromPos` as a function of what it reads -/
theorem strFromPos_eq (s : CS) (p : Nat) (d : Ctx) (head run : Bytes) (hp : d.pos ≤ p) (hl : p ≤ d.src.length)
    (h1 : (d.src.drop d.pos).take (p - d.pos) = head) (h2 : (d.src.drop p).takeWhile s.mem = run) :
    parseStrFromPos s p d =
      if d.pos < p ∧ (p - d.pos) + (d.used + 2) ≥ d.cap then .ok (none, d.addError d.pos) else
      if d.used + 2 + (p - d.pos) ≥ d.cap then .ok (none, (d.setPos p).addError p) else
      if d.used + 2 + (p - d.pos) + run.length > d.cap then .panic else
      if p + run.length ≤ d.pos then .ok (none, (d.setPos (p + run.length)).addError (p + run.length)) else
      if d.used + 2 + (p - d.pos) + run.length ≥ d.cap then .ok (none, (d.setPos (p + run.length)).addError (p + run.length)) else
      .ok (some (head ++ run), { d with used := d.used + 2 + (p - d.pos) + run.length, pos := p + run.length }) := by
  subst h1; subst h2
  have hm : max d.pos p = p := by omega
  unfold parseStrFromPos
  simp only [hm]
  split
  · rfl
  · rw [if_neg (show ¬ (d.pos < p ∧ p > d.src.length) by omega)]

theorem loc_strFromPos_eq (s : CS) (hs : s.mem 0x0d = false) (hlf : s.mem 0x0a = false) (hc : InA a z c) {p : Nat} (hp : c.pos ≤ p) (hl : p ≤ a.length + 1) :
    parseStrFromPos s p (c.tail (ln a z')) = mv (ln a z') (parseStrFromPos s p c) ∧
    (∀ r c', parseStrFromPos s p c = .ok (r, c') → Step c c') ∧
    (∀ v c', parseStrFromPos s p c = .ok (some v, c') → c'.src = c.src ∧ c'.used ≤ c'.cap ∧ c'.pos ≤ a.length + 1 ∧ (p ≤ a.length → c'.pos ≤ a.length)) := by
  have hll := ln_length a z; have hll' := ln_length a z'
  have h1 : ((c.tail (ln a z')).src.drop (c.tail (ln a z')).pos).take (p - (c.tail (ln a z')).pos) = (c.src.drop c.pos).take (p - c.pos) := by
    show ((ln a z').drop c.pos).take (p - c.pos) = _
    have e : ∀ w : Bytes, a.drop c.pos ++ 0x0d :: 0x0a :: w = (a.drop c.pos ++ [0x0d]) ++ 0x0a :: w := fun w => by simp
    have hle : p - c.pos ≤ (a.drop c.pos ++ [0x0d]).length := by rw [List.length_append, List.length_drop, List.length_singleton]; omega
    rw [hc.src, ln_drop a z hc.pos, ln_drop a z' hc.pos, e, e, List.take_append_of_le_length hle, List.take_append_of_le_length hle]
  have hr : ((c.tail (ln a z')).src.drop p).takeWhile s.mem = (c.src.drop p).takeWhile s.mem ∧ p + ((c.src.drop p).takeWhile s.mem).length ≤ a.length + 1 ∧
      (p ≤ a.length → p + ((c.src.drop p).takeWhile s.mem).length ≤ a.length) := by
    show ((ln a z').drop p).takeWhile s.mem = _ ∧ _
    rw [hc.src]
    rcases Nat.lt_or_ge a.length p with h | h
    · have e : p = a.length + 1 := by omega
      have hd : ∀ w : Bytes, ((ln a w).drop p).takeWhile s.mem = [] := by
        intro w
        rw [e, ln, List.drop_append, List.drop_eq_nil_of_le (by omega), List.nil_append, Nat.add_sub_cancel_left]
        show (0x0a :: w).takeWhile s.mem = []
        rw [List.takeWhile_cons, hlf]; rfl
      rw [hd, hd]
      exact ⟨rfl, hl, fun h => by omega⟩
    · obtain ⟨g1, g2⟩ := takeWhile_ln (a := a) hs z z' h
      exact ⟨g1.symm, by omega, fun _ => g2⟩
  obtain ⟨hr1, hr2, hr3⟩ := hr
  have e0 := strFromPos_eq s p c _ _ hp (by rw [hc.src]; omega) rfl rfl
  have e1 := strFromPos_eq s p (c.tail (ln a z')) _ _ hp (by rw [Ctx.tail_src]; omega) h1 hr1
  refine ⟨?_, (gsafe_strFromPos (N := False) (H := False) s p c hc.inv hp (by rw [hc.src]; omega)).step, fun v c' e => ?_⟩
  · rw [e0, e1]
    generalize (c.src.drop p).takeWhile s.mem = run
    simp only [mv_ite]; rfl
  · have st := (gsafe_strFromPos (N := False) (H := False) s p c hc.inv hp (by rw [hc.src]; omega)).step _ _ e
    rw [e0] at e
    repeat' split at e
    all_goals first | (cases e; done) | skip
    cases e
    exact ⟨rfl, st.used_cap, hr2, hr3⟩

theorem loc_strFromPos (s : CS) (hs : s.mem 0x0d = false) (hlf : s.mem 0x0a = false) (hc : InA a z c) {p : Nat} (hp : c.pos ≤ p) (hl : p ≤ a.length) :
    LocAt a z z' (parseStrFromPos s p) c := by
  obtain ⟨h1, h2, h3⟩ := loc_strFromPos_eq (z' := z') s hs hlf hc hp (by omega)
  exact ⟨h1, h2, fun v c' e => (h3 v c' e).2.2.2 hl⟩

theorem loc_method : Loc a z z' P.method := by
  intro c hc
  obtain ⟨g1, g2⟩ := methodIndex_ln (a := a) (z := z) (z' := z') hc.pos
  have hl := ln_length a z
  have e0 : P.method c = (match getSipMethodIndex c.src c.pos with
    | .ok (m, p) => if m = 0 then (match parseStrFromPos csSipToken p c with
        | .ok (none, c) => .ok (none, c)
        | .ok (some b, c) => .ok (some (.token (some b)), c)
        | .panic => .panic
        | .hang => .hang) else .ok (some (.known m), c.setPos p)
    | .panic => .panic
    | .hang => .hang) := by
    show parseMethod c = _
    unfold parseMethod
    rcases getSipMethodIndex c.src c.pos with ⟨m, p⟩ | _ | _
    · show (if m = 0 then _ else _) = _
      dsimp only
      split
      · rcases parseStrFromPos csSipToken p c with ⟨_ | b, d⟩ | _ | _ <;> rfl
      · rfl
    · rfl
    · rfl
  have e1 : P.method (c.tail (ln a z')) = (match getSipMethodIndex (c.tail (ln a z')).src (c.tail (ln a z')).pos with
    | .ok (m, p) => if m = 0 then (match parseStrFromPos csSipToken p (c.tail (ln a z')) with
        | .ok (none, c) => .ok (none, c)
        | .ok (some b, c) => .ok (some (.token (some b)), c)
        | .panic => .panic
        | .hang => .hang) else .ok (some (.known m), (c.tail (ln a z')).setPos p)
    | .panic => .panic
    | .hang => .hang) := by
    show parseMethod (c.tail (ln a z')) = _
    unfold parseMethod
    rcases getSipMethodIndex (c.tail (ln a z')).src (c.tail (ln a z')).pos with ⟨m, p⟩ | _ | _
    · show (if m = 0 then _ else _) = _
      dsimp only
      split
      · rcases parseStrFromPos csSipToken p (c.tail (ln a z')) with ⟨_ | b, d⟩ | _ | _ <;> rfl
      · rfl
    · rfl
    · rfl
  rw [Ctx.tail_src, Ctx.tail_pos, g1] at e1
  rw [hc.src] at e0
  rcases hm : getSipMethodIndex (ln a z) c.pos with ⟨m, p⟩ | _ | _ <;> rw [hm] at e0 e1 <;> dsimp only at e0 e1
  · obtain ⟨k1, k2⟩ := g2 _ _ hm
    by_cases h0 : m = 0
    · rw [if_pos h0] at e0 e1
      have hs := loc_strFromPos (z' := z') csSipToken (by decide +kernel) (by decide +kernel) hc k1 k2
      have he := hs.eq
      rcases hp : parseStrFromPos csSipToken p c with ⟨_ | b, d⟩ | _ | _ <;> rw [hp] at e0 he <;> rw [he] at e1
      · exact .of_eq e0 e1 (hs.step _ _ hp) (fun v e => by cases e)
      · exact .of_eq e0 e1 (hs.step _ _ hp) (fun v e => hs.inside _ _ hp)
      · exact ⟨by rw [e0, e1]; rfl, fun r c' e => by (rw [e0] at e; cases e), fun r c' e => by (rw [e0] at e; cases e)⟩
      · exact ⟨by rw [e0, e1]; rfl, fun r c' e => by (rw [e0] at e; cases e), fun r c' e => by (rw [e0] at e; cases e)⟩
    · rw [if_neg h0] at e0 e1
      exact .of_eq e0 e1 (Step.setPos hc.inv k1 (by rw [hc.src]; omega)) (fun v e => k2)
  · exact ⟨by rw [e0, e1]; rfl, fun r c' e => by (rw [e0] at e; cases e), fun r c' e => by (rw [e0] at e; cases e)⟩
  · exact ⟨by rw [e0, e1]; rfl, fun r c' e => by (rw [e0] at e; cases e), fun r c' e => by (rw [e0] at e; cases e)⟩

/-! ## Versions -/

theorem loc_majorMinor : Loc a z z' Version.parseMajorMinor := by
  intro c hc
  obtain ⟨g1, g2⟩ := skipWhile_ln (a := a) (f := isDigit) (by decide) z z' hc.pos
  have hl := ln_length a z
  have hge : c.pos ≤ skipWhile isDigit (ln a z) c.pos := Nat.le_add_right _ _
  have hs0 : skipWhile isDigit c.src c.pos = skipWhile isDigit (ln a z) c.pos := by rw [hc.src]
  have hs1 : skipWhile isDigit (c.tail (ln a z')).src (c.tail (ln a z')).pos = skipWhile isDigit (ln a z) c.pos := g1.symm
  have e0 : Version.parseMajorMinor c = Version.parseMajorMinor c := rfl
  have e1 : Version.parseMajorMinor (c.tail (ln a z')) = Version.parseMajorMinor (c.tail (ln a z')) := rfl
  conv at e0 => rhs; unfold Version.parseMajorMinor
  conv at e1 => rhs; unfold Version.parseMajorMinor
  rw [hs0] at e0; rw [hs1] at e1
  generalize skipWhile isDigit (ln a z) c.pos = n at *
  dsimp only at e0 e1
  by_cases h1 : n ≤ c.pos
  · rw [if_pos h1] at e0; rw [if_pos (show n ≤ (c.tail (ln a z')).pos from h1)] at e1
    exact .of_eq e0 e1 hc.addError (fun v e => by cases e)
  rw [if_neg h1] at e0; rw [if_neg (show ¬ n ≤ (c.tail (ln a z')).pos from h1)] at e1
  have hg : (c.tail (ln a z')).src[n]? = c.src[n]? := by rw [hc.src]; exact ln_get a z' z (by omega)
  rw [hg] at e1
  have hst : Step c (c.setPos n) := Step.setPos hc.inv hge (by rw [hc.src]; omega)
  cases hd : c.src[n]? with
  | none =>
    rw [hc.src, List.getElem?_eq_none_iff] at hd; omega
  | some d =>
    rw [hd] at e0 e1; dsimp only at e0 e1
    by_cases h2 : d ≠ 0x2e
    · rw [if_pos h2] at e0 e1
      exact .of_eq e0 e1 hst.addErrorHere (fun v e => by cases e)
    rw [if_neg h2] at e0 e1
    have hlt : n < a.length := by
      rcases Nat.lt_or_ge n a.length with g | g
      · exact g
      · have e : n = a.length := by omega
        rw [hc.src, e, ln_cr] at hd; cases hd; exact absurd (show (0x0d : UInt8) ≠ 0x2e by decide) h2
    have hs := loc_strFromPos (z' := z') csDigit (by decide +kernel) (by decide +kernel) hc (p := n + 1) (by omega) (by omega)
    have he := hs.eq
    rcases hp : parseStrFromPos csDigit (n + 1) c with ⟨_ | b, d⟩ | _ | _ <;> rw [hp] at e0 he <;> rw [he] at e1 <;> dsimp only [mv] at e0 e1
    · exact .of_eq e0 e1 (hs.step _ _ hp).addErrorHere (fun v e => by cases e)
    · by_cases h3 : d.pos ≤ n + 1
      · rw [if_pos h3] at e0; rw [if_pos (show (d.tail (ln a z')).pos ≤ n + 1 from h3)] at e1
        exact .of_eq e0 e1 (hs.step _ _ hp).addErrorHere (fun v e => by cases e)
      · rw [if_neg h3] at e0; rw [if_neg (show ¬ (d.tail (ln a z')).pos ≤ n + 1 from h3)] at e1
        exact .of_eq e0 e1 (hs.step _ _ hp) (fun v e => hs.inside _ _ hp)
    · exact ⟨by rw [e0, e1]; rfl, fun r c' e => by (rw [e0] at e; cases e), fun r c' e => by (rw [e0] at e; cases e)⟩
    · exact ⟨by rw [e0, e1]; rfl, fun r c' e => by (rw [e0] at e; cases e), fun r c' e => by (rw [e0] at e; cases e)⟩

theorem InA.at_lt (hc : InA a z c) {k : Nat} {b : UInt8} (hk : c.pos + k ≤ a.length) (h : c.src[c.pos + k]? = some b) (hb : b ≠ 0x0d) : c.pos + k < a.length := by
  rcases Nat.lt_or_ge (c.pos + k) a.length with g | g
  · exact g
  · have e : c.pos + k = a.length := by omega
    rw [hc.src, e, ln_cr] at h; cases h; exact absurd rfl hb

theorem loc_afterStart : Loc a z z' Version.parseAfterStart := by
  intro c hc
  unfold Version.parseAfterStart
  have hp := hc.pos
  refine .byteAt hc (by omega) (fun b hb => ?_)
  split
  · exact loc_majorMinor c hc
  · rename_i h0
    have l0 := hc.at_lt (by omega) hb (by simp at h0; rw [h0]; decide)
    refine .byteAt hc (by omega) (fun b hb => ?_)
    split
    · exact loc_majorMinor c hc
    · rename_i h1
      have l1 := hc.at_lt (by omega) hb (by simp at h1; rw [h1]; decide)
      refine .byteAt hc (by omega) (fun b hb => ?_)
      split
      · exact loc_majorMinor c hc
      · rename_i h2
        have l2 := hc.at_lt (by omega) hb (by simp at h2; rw [h2]; decide)
        have hg : (c.tail (ln a z')).src[(c.tail (ln a z')).pos + 3]? = c.src[c.pos + 3]? := by rw [hc.src]; exact ln_get a z' z (show c.pos + 3 ≤ a.length + 1 by omega)
        refine .get ?_ ?_
        · rw [hg]
        · split
          · exact loc_majorMinor c hc
          · exact .bind hc (.skipN hc (by omega)) (fun _ c1 _ h1 => .ret h1 _)

theorem loc_parseStart (hz : z ≠ []) (hz' : z' ≠ []) : Loc a z z' Version.parseStart := by
  intro c hc
  have hl := ln_length a z; have hl' := ln_length a z'
  have hzl : 0 < z.length := List.length_pos_iff.2 hz
  have hzl' : 0 < z'.length := List.length_pos_iff.2 hz'
  have hp := hc.pos
  have e0 : Version.parseStart c = Version.parseStart c := rfl
  have e1 : Version.parseStart (c.tail (ln a z')) = Version.parseStart (c.tail (ln a z')) := rfl
  conv at e0 => rhs; unfold Version.parseStart
  conv at e1 => rhs; unfold Version.parseStart
  rcases Nat.lt_or_ge (c.pos + 3) a.length with h | h
  · have gg : ∀ k, k ≤ 3 → (c.tail (ln a z')).src[c.pos + k]? = c.src[c.pos + k]? := fun k hk => by rw [hc.src]; exact ln_get a z' z (by omega)
    rw [if_neg (show ¬ c.pos + 6 ≥ c.src.length by rw [hc.src]; omega)] at e0
    rw [if_neg (show ¬ (c.tail (ln a z')).pos + 6 ≥ (c.tail (ln a z')).src.length by show ¬ c.pos + 6 ≥ (ln a z').length; omega)] at e1
    rw [Ctx.tail_pos, gg 3 (by omega), gg 2 (by omega), gg 1 (by omega), (show (c.tail (ln a z')).src[c.pos]? = c.src[c.pos]? from gg 0 (by omega))] at e1
    have hs : ∀ k, k ≤ 3 → ∃ b, c.src[c.pos + k]? = some b := fun k hk => by
      cases hq : c.src[c.pos + k]? with
      | none => rw [hc.src, List.getElem?_eq_none_iff] at hq; omega
      | some b => exact ⟨b, rfl⟩
    obtain ⟨b0, hb0⟩ := hs 0 (by omega); obtain ⟨b1, hb1⟩ := hs 1 (by omega); obtain ⟨b2, hb2⟩ := hs 2 (by omega); obtain ⟨b3, hb3⟩ := hs 3 (by omega)
    rw [Nat.add_zero] at hb0
    rw [hb1, hb2, hb3] at e0 e1
    rw [hb0] at e0 e1
    dsimp only at e0 e1
    split at e0
    · rename_i h1; rw [if_pos h1] at e1
      exact .of_eq e0 e1 (Step.refl hc.inv) (fun v e => by cases e)
    · rename_i h1; rw [if_neg h1] at e1
      exact .of_eq e0 e1 (Step.setPos hc.inv (by omega) (by rw [hc.src]; omega)) (fun v e => by show c.pos + 4 ≤ a.length; omega)
  · have key : ∀ (w : Bytes) (d : Ctx), d.src = ln a w → d.pos = c.pos → Version.parseStart d = .ok (none, d) := by
      intro w d hd hdp
      unfold Version.parseStart
      have hlw := ln_length a w
      by_cases h6 : d.pos + 6 ≥ d.src.length
      · rw [if_pos h6]
      rw [if_neg h6]
      rw [hd] at h6
      have hs : ∀ k, k ≤ 3 → ∃ b, d.src[d.pos + k]? = some b := fun k hk => by
        cases hq : d.src[d.pos + k]? with
        | none => rw [hd, List.getElem?_eq_none_iff] at hq; omega
        | some b => exact ⟨b, rfl⟩
      obtain ⟨b0, hb0⟩ := hs 0 (by omega); obtain ⟨b1, hb1⟩ := hs 1 (by omega); obtain ⟨b2, hb2⟩ := hs 2 (by omega); obtain ⟨b3, hb3⟩ := hs 3 (by omega)
      rw [hb1, hb2, hb3]
      rw [Nat.add_zero] at hb0
      rw [hb0]
      dsimp only
      rw [if_pos]
      have : d.pos = a.length ∨ d.pos + 1 = a.length ∨ d.pos + 2 = a.length ∨ d.pos + 3 = a.length := by omega
      rcases this with e | e | e | e
      · rw [hd, e, ln_cr] at hb0; cases hb0; exact Or.inl (by decide)
      · rw [hd, e, ln_cr] at hb1; cases hb1; exact Or.inr (Or.inl (by decide))
      · rw [hd, e, ln_cr] at hb2; cases hb2; exact Or.inr (Or.inr (Or.inl (by decide)))
      · rw [hd, e, ln_cr] at hb3; cases hb3; exact Or.inr (Or.inr (Or.inr (by decide)))
    exact .of_eq (key z c hc.src rfl) (key z' _ rfl rfl) (Step.refl hc.inv) (fun v e => by cases e)

theorem loc_version (hz : z ≠ []) (hz' : z' ≠ []) : Loc a z z' Version.parse := by
  intro c hc
  unfold Version.parse
  exact .bind hc (.orErr (loc_parseStart hz hz' c hc)) (fun _ c1 _ h1 => loc_afterStart c1 h1)

/-! ## Header names -/

theorem nameAt_ln (loose : Bool) (z z' : Bytes) (n : Bytes) (hn : ∀ p ∈ n, nameByte loose p 0x0a = false) : ∀ y : Bytes,
    nameAt loose n (y ++ 0x0a :: z) = nameAt loose n (y ++ 0x0a :: z') := by
  induction n with
  | nil => intro y; cases y <;> rfl
  | cons p n ih =>
    intro y
    cases y with
    | nil => simp [nameAt, hn p (List.mem_cons_self ..)]
    | cons v y => simp only [List.cons_append, nameAt, ih (fun q hq => hn q (List.mem_cons_of_mem _ hq)) y]

theorem names_lf : ∀ k : HKind, ∀ n ∈ k.names, ∀ p ∈ n, nameByte k.looseDash p 0x0a = false := by
  intro k; cases k <;> decide +kernel

theorem find_congr {α : Type} {f g : α → Bool} : ∀ (l : List α), (∀ x ∈ l, f x = g x) → l.find? f = l.find? g
  | [], _ => rfl
  | x :: l, h => by
    rw [List.find?_cons, List.find?_cons, h x (List.mem_cons_self ..), find_congr l (fun y hy => h y (List.mem_cons_of_mem _ hy))]

theorem loc_parseName (hz : NoCont z) (k : HKind) : Loc a z z' k.parseName := by
  intro c hc
  refine LocAt.of_safe hz hc (safe_headerName k c hc.inv) ?_
  have e : ∀ w : Bytes, a.drop c.pos ++ 0x0d :: 0x0a :: w = (a.drop c.pos ++ [0x0d]) ++ 0x0a :: w := fun w => by simp
  have h : k.names.find? (fun n => nameAt k.looseDash n (c.tail (ln a z')).rest) = k.names.find? (fun n => nameAt k.looseDash n c.rest) := by
    refine find_congr _ (fun n hn => ?_)
    rw [hc.rest, hc.rest', e, e]
    exact nameAt_ln _ _ _ n (names_lf k n hn) _
  unfold HKind.parseName
  rw [h]
  cases k.names.find? (fun n => nameAt k.looseDash n c.rest) <;> rfl

/-- the name of a header line and its colon -/
theorem loc_msgHeaderName (hz : NoCont z) (hz' : NoCont z') : Loc a z z' parseMsgHeaderName := by
  intro c hc
  obtain ⟨g1, g2⟩ := headerIndex_ln (a := a) (z := z) (z' := z') hc.pos
  have hl := ln_length a z; have hl' := ln_length a z'
  -- the colon, from a position up to the LF
  have colon : ∀ (d : Ctx) (v : Option Bytes × Nat), d.src = ln a z → d.used ≤ d.cap → d.pos ≤ a.length + 1 → Step c d →
      (P.orErr P.hcolon >>= fun _ => (pure v : P _)) (d.tail (ln a z')) = mv (ln a z') ((P.orErr P.hcolon >>= fun _ => (pure v : P _)) d) ∧
      (∀ r c', (P.orErr P.hcolon >>= fun _ => (pure v : P _)) d = .ok (r, c') → Step c c') ∧
      (∀ w c', (P.orErr P.hcolon >>= fun _ => (pure v : P _)) d = .ok (some w, c') → c'.pos ≤ a.length) := by
    intro d v hs hu hp st
    have hd : Inv d := ⟨by rw [hs]; omega, hu⟩
    have heq := hcolon_ln (a := a) hz hz' hs hp hu
    have hst := (SafeAt.orErr (l := true) (safe_hcolon d hd)).step
    have hin : ∀ w c', P.hcolon d = .ok (some w, c') → c'.pos ≤ a.length := by
      intro w c' e
      rcases Nat.lt_or_ge a.length d.pos with h | h
      · exfalso
        have hpe : d.pos = a.length + 1 := by omega
        have h0 : skipWhile isWspChar d.src d.pos = d.pos := by
          unfold skipWhile
          rw [hs, hpe, runLen_eq_takeWhile, ln, List.drop_append, List.drop_eq_nil_of_le (by omega), List.nil_append, Nat.add_sub_cancel_left]
          rfl
        rw [hcolon_no d _ h0 (by rw [hs, hpe, ln_lf]; decide)] at e
        cases e
      · exact (loc_hcolon (z' := z') hz hz' d ⟨hs, h, hu⟩).inside _ _ e
    rcases hq : P.hcolon d with ⟨_ | w, d1⟩ | _ | _ <;> rw [hq] at heq
    · have e0 : P.orErr P.hcolon d = .ok (none, d1.addError d1.pos) := by unfold P.orErr; rw [hq]
      have e1 : P.orErr P.hcolon (d.tail (ln a z')) = .ok (none, (d1.addError d1.pos).tail (ln a z')) := by unfold P.orErr; rw [heq]; rfl
      rw [P.bind_none e0, P.bind_none e1]
      exact ⟨rfl, fun r c' e => by (cases e; exact st.trans (hst _ _ e0)), fun w c' e => by cases e⟩
    · have e0 : P.orErr P.hcolon d = .ok (some w, d1) := P.orErr_ok hq
      have e1 : P.orErr P.hcolon (d.tail (ln a z')) = .ok (some w, d1.tail (ln a z')) := P.orErr_ok heq
      rw [P.bind_ok e0, P.bind_ok e1]
      exact ⟨rfl, fun r c' e => by (cases e; exact st.trans (hst _ _ e0)), fun w c' e => by (cases e; exact hin _ _ hq)⟩
    · have e0 : P.orErr P.hcolon d = .panic := by unfold P.orErr; rw [hq]
      have e1 : P.orErr P.hcolon (d.tail (ln a z')) = .panic := by unfold P.orErr; rw [heq]; rfl
      rw [P.bind_panic e0, P.bind_panic e1]
      exact ⟨rfl, fun r c' e => by (cases e), fun w c' e => by cases e⟩
    · have e0 : P.orErr P.hcolon d = .hang := by unfold P.orErr; rw [hq]
      have e1 : P.orErr P.hcolon (d.tail (ln a z')) = .hang := by unfold P.orErr; rw [heq]; rfl
      rw [P.bind_hang e0, P.bind_hang e1]
      exact ⟨rfl, fun r c' e => by (cases e), fun w c' e => by cases e⟩
  unfold parseMsgHeaderName
  rcases hi : getSipHeaderIndex (ln a z) c.pos with ⟨m, p⟩ | _ | _
  · obtain ⟨k1, k2⟩ := g2 _ _ hi
    have i0 : P.headerIndex c = .ok (some (m, p), c) := by unfold P.headerIndex; rw [hc.src, hi]
    have i1 : P.headerIndex (c.tail (ln a z')) = .ok (some (m, p), c.tail (ln a z')) := by unfold P.headerIndex; rw [Ctx.tail_src, Ctx.tail_pos, g1, hi]
    refine .congr (P.bind_ok i0) (P.bind_ok i1) ?_
    cases m with
    | zero =>
      obtain ⟨s1, s2, s3⟩ := loc_strFromPos_eq (z' := z') csSipToken (by decide +kernel) (by decide +kernel) hc k1 k2
      rcases hq : parseStrFromPos csSipToken p c with ⟨_ | v, d⟩ | _ | _ <;> rw [hq] at s1
      · have e0 : storeName (0, p) c = .ok (none, d) := P.bind_none hq
        have e1 : storeName (0, p) (c.tail (ln a z')) = .ok (none, d.tail (ln a z')) := P.bind_none s1
        exact .of_eq (P.bind_none e0) (P.bind_none e1) (s2 _ _ hq) (fun v e => by cases e)
      · have e0 : storeName (0, p) c = .ok (some (some v, 0), d) := P.bind_ok hq
        have e1 : storeName (0, p) (c.tail (ln a z')) = .ok (some (some v, 0), d.tail (ln a z')) := P.bind_ok s1
        obtain ⟨t1, t2, t3, -⟩ := s3 _ _ hq
        obtain ⟨q1, q2, q3⟩ := colon d (some v, 0) (t1.trans hc.src) t2 t3 (s2 _ _ hq)
        exact ⟨by rw [P.bind_ok e0, P.bind_ok e1]; exact q1, fun r c' e => q2 r c' ((P.bind_ok e0).symm.trans e), fun r c' e => q3 r c' ((P.bind_ok e0).symm.trans e)⟩
      · have e0 : storeName (0, p) c = .panic := P.bind_panic hq
        have e1 : storeName (0, p) (c.tail (ln a z')) = .panic := P.bind_panic s1
        exact ⟨by rw [P.bind_panic e0, P.bind_panic e1]; rfl, fun r c' e => by (rw [P.bind_panic e0] at e; cases e), fun r c' e => by (rw [P.bind_panic e0] at e; cases e)⟩
      · have e0 : storeName (0, p) c = .hang := P.bind_hang hq
        have e1 : storeName (0, p) (c.tail (ln a z')) = .hang := P.bind_hang s1
        exact ⟨by rw [P.bind_hang e0, P.bind_hang e1]; rfl, fun r c' e => by (rw [P.bind_hang e0] at e; cases e), fun r c' e => by (rw [P.bind_hang e0] at e; cases e)⟩
    | succ m =>
      have e0 : storeName (m + 1, p) c = .ok (some (none, m + 1), c.setPos p) := rfl
      have e1 : storeName (m + 1, p) (c.tail (ln a z')) = .ok (some (none, m + 1), (c.setPos p).tail (ln a z')) := rfl
      obtain ⟨q1, q2, q3⟩ := colon (c.setPos p) (none, m + 1) hc.src hc.used k2 (Step.setPos hc.inv k1 (by rw [hc.src]; omega))
      exact ⟨by rw [P.bind_ok e0, P.bind_ok e1]; exact q1, fun r c' e => q2 r c' ((P.bind_ok e0).symm.trans e), fun r c' e => q3 r c' ((P.bind_ok e0).symm.trans e)⟩
  · have e0 : P.headerIndex c = .panic := by unfold P.headerIndex; rw [hc.src, hi]
    have e1 : P.headerIndex (c.tail (ln a z')) = .panic := by unfold P.headerIndex; rw [Ctx.tail_src, Ctx.tail_pos, g1, hi]
    exact ⟨by rw [P.bind_panic e0, P.bind_panic e1]; rfl, fun r c' e => by (rw [P.bind_panic e0] at e; cases e), fun r c' e => by (rw [P.bind_panic e0] at e; cases e)⟩
  · have e0 : P.headerIndex c = .hang := by unfold P.headerIndex; rw [hc.src, hi]
    have e1 : P.headerIndex (c.tail (ln a z')) = .hang := by unfold P.headerIndex; rw [Ctx.tail_src, Ctx.tail_pos, g1, hi]
    exact ⟨by rw [P.bind_hang e0, P.bind_hang e1]; rfl, fun r c' e => by (rw [P.bind_hang e0] at e; cases e), fun r c' e => by (rw [P.bind_hang e0] at e; cases e)⟩

end
end Sip
