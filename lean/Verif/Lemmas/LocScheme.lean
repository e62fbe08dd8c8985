import Verif.Lemmas.LocHost
import Verif.Props.MessageSafe
/-! # What stands behind the end of a line does not matter: schemes, versions, names -/
namespace Sip
section
variable {a z z' : Bytes} {c : Ctx}

/-! ## Single bytes and fixed texts -/

theorem LocAt.byteAt {β : Type} {k : Nat} {f : UInt8 → P β} (hc : InA a z c) (hk : c.pos + k ≤ a.length + 1)
    (h : ∀ b, c.src[c.pos + k]? = some b → LocAt a z z' (f b) c) : LocAt a z z' (P.byteAt k >>= f) c := by
  have hg : (c.tail (ln a z')).src[(c.tail (ln a z')).pos + k]? = c.src[c.pos + k]? := by
    rw [hc.src]; exact ln_get a z' z hk
  cases hb : c.src[c.pos + k]? with
  | none =>
    exfalso
    have hl := ln_length a z
    rw [List.getElem?_eq_none_iff, hc.src] at hb; omega
  | some b =>
    refine .congr (q := f b) ?_ ?_ (h b hb)
    · exact P.bind_ok (by unfold P.byteAt; rw [hb])
    · exact P.bind_ok (by unfold P.byteAt; rw [hg, hb])

theorem findUserinfo_cr (y y' : Bytes) : ∀ x : Bytes, findUserinfo (x ++ 0x0d :: y) = findUserinfo (x ++ 0x0d :: y') := by
  intro x
  induction x with
  | nil => rfl
  | cons v x ih =>
    rw [List.cons_append, List.cons_append, findUserinfo, findUserinfo, ih]

theorem isSip20_ln (x y y' : Bytes) : isSip20 (x ++ 0x0d :: 0x0a :: y) = isSip20 (x ++ 0x0d :: 0x0a :: y') ∧ (isSip20 (x ++ 0x0d :: 0x0a :: y) = true → 7 ≤ x.length) := by
  have h1 : ∀ y, x.length < 7 → isSip20 (x ++ 0x0d :: 0x0a :: y) = false := by
    intro y h
    cases hs : isSip20 (x ++ 0x0d :: 0x0a :: y) with
    | false => rfl
    | true =>
      exfalso
      unfold isSip20 at hs
      split at hs
      · rename_i a b d e f g h i w he
        simp only [Bool.and_eq_true, decide_eq_true_eq] at hs
        obtain ⟨⟨⟨⟨⟨⟨⟨q1, q2⟩, q3⟩, q4⟩, q5⟩, q6⟩, q7⟩, q8⟩ := hs
        rcases x with _ | ⟨x1, _ | ⟨x2, _ | ⟨x3, _ | ⟨x4, _ | ⟨x5, _ | ⟨x6, _ | ⟨x7, x⟩⟩⟩⟩⟩⟩⟩
        all_goals first | (simp only [List.nil_append, List.cons_append, List.cons.injEq] at he) | skip
        all_goals first
          | (rw [← he.1] at q1; revert q1; decide)
          | (rw [← he.2.1] at q2; revert q2; decide)
          | (rw [← he.2.2.1] at q3; revert q3; decide)
          | (rw [← he.2.2.2.1] at q4; revert q4; decide)
          | (rw [← he.2.2.2.2.1] at q5; revert q5; decide)
          | (rw [← he.2.2.2.2.2.1] at q6; revert q6; decide)
          | (rw [← he.2.2.2.2.2.2.1] at q7; revert q7; decide)
          | (simp only [List.length_cons] at h; omega)
      · cases hs
  rcases Nat.lt_or_ge x.length 7 with h | h
  · rw [h1 y h, h1 y' h]; exact ⟨rfl, fun h => by cases h⟩
  · refine ⟨?_, fun _ => h⟩
    rcases x with _ | ⟨x1, _ | ⟨x2, _ | ⟨x3, _ | ⟨x4, _ | ⟨x5, _ | ⟨x6, _ | ⟨x7, _ | ⟨x8, x⟩⟩⟩⟩⟩⟩⟩⟩
    all_goals first | (simp only [List.length_cons, List.length_nil] at h; omega) | rfl

/-- a run of at least `n` bytes in front of the line end, or fewer -/
theorem sipPrefix_ln (x y y' : Bytes) : hasSipPrefix (x ++ 0x0d :: 0x0a :: y) = hasSipPrefix (x ++ 0x0d :: 0x0a :: y') ∧ (hasSipPrefix (x ++ 0x0d :: 0x0a :: y) = true → 4 ≤ x.length) := by
  have h1 : ∀ y, x.length < 4 → hasSipPrefix (x ++ 0x0d :: 0x0a :: y) = false := by
    intro y h
    cases hs : hasSipPrefix (x ++ 0x0d :: 0x0a :: y) with
    | false => rfl
    | true =>
      exfalso
      unfold hasSipPrefix at hs
      split at hs
      · rename_i a b d e w he
        simp only [Bool.and_eq_true, beq_iff_eq] at hs
        obtain ⟨⟨⟨q1, q2⟩, q3⟩, q4⟩ := hs
        rcases x with _ | ⟨x1, _ | ⟨x2, _ | ⟨x3, _ | ⟨x4, x⟩⟩⟩⟩
        all_goals first | (simp only [List.nil_append, List.cons_append, List.cons.injEq] at he) | skip
        all_goals first
          | (rw [← he.1] at q1; revert q1; decide)
          | (rw [← he.2.1] at q2; revert q2; decide)
          | (rw [← he.2.2.1] at q3; revert q3; decide)
          | (rw [← he.2.2.2.1] at q4; revert q4; decide)
          | (simp only [List.length_cons] at h; omega)
      · cases hs
  rcases Nat.lt_or_ge x.length 4 with h | h
  · rw [h1 y h, h1 y' h]; exact ⟨rfl, fun h => by cases h⟩
  · refine ⟨?_, fun _ => h⟩
    rcases x with _ | ⟨x1, _ | ⟨x2, _ | ⟨x3, _ | ⟨x4, x⟩⟩⟩⟩
    all_goals first | (simp only [List.length_cons, List.length_nil] at h; omega) | rfl

theorem sipsPrefix_ln (x y y' : Bytes) : hasSipsPrefix (x ++ 0x0d :: 0x0a :: y) = hasSipsPrefix (x ++ 0x0d :: 0x0a :: y') ∧ (hasSipsPrefix (x ++ 0x0d :: 0x0a :: y) = true → 5 ≤ x.length) := by
  have h1 : ∀ y, x.length < 5 → hasSipsPrefix (x ++ 0x0d :: 0x0a :: y) = false := by
    intro y h
    cases hs : hasSipsPrefix (x ++ 0x0d :: 0x0a :: y) with
    | false => rfl
    | true =>
      exfalso
      unfold hasSipsPrefix at hs
      split at hs
      · rename_i a b d e f w he
        simp only [Bool.and_eq_true, beq_iff_eq] at hs
        obtain ⟨⟨⟨⟨q1, q2⟩, q3⟩, q4⟩, q5⟩ := hs
        rcases x with _ | ⟨x1, _ | ⟨x2, _ | ⟨x3, _ | ⟨x4, _ | ⟨x5, x⟩⟩⟩⟩⟩
        all_goals first | (simp only [List.nil_append, List.cons_append, List.cons.injEq] at he) | skip
        all_goals first
          | (rw [← he.1] at q1; revert q1; decide)
          | (rw [← he.2.1] at q2; revert q2; decide)
          | (rw [← he.2.2.1] at q3; revert q3; decide)
          | (rw [← he.2.2.2.1] at q4; revert q4; decide)
          | (rw [← he.2.2.2.2.1] at q5; revert q5; decide)
          | (simp only [List.length_cons] at h; omega)
      · cases hs
  rcases Nat.lt_or_ge x.length 5 with h | h
  · rw [h1 y h, h1 y' h]; exact ⟨rfl, fun h => by cases h⟩
  · refine ⟨?_, fun _ => h⟩
    rcases x with _ | ⟨x1, _ | ⟨x2, _ | ⟨x3, _ | ⟨x4, _ | ⟨x5, x⟩⟩⟩⟩⟩
    all_goals first | (simp only [List.length_cons, List.length_nil] at h; omega) | rfl

theorem InA.left (_ : InA a z c) : (a.drop c.pos).length = a.length - c.pos := List.length_drop

theorem loc_sipScheme : Loc a z z' SipUri.parseScheme := by
  intro c hc
  obtain ⟨g1, g2⟩ := sipPrefix_ln (a.drop c.pos) z z'
  obtain ⟨g3, g4⟩ := sipsPrefix_ln (a.drop c.pos) z z'
  rw [← hc.rest, ← hc.rest' z'] at g1 g3
  rw [← hc.rest] at g2 g4
  rw [hc.left] at g2 g4
  have hp := hc.pos
  have hl := ln_length a z
  by_cases h1 : hasSipPrefix c.rest = true
  · have := g2 h1
    refine .of_eq (r := some false) (c' := c.adv 4) ?_ ?_ (Step.setPos hc.inv (by omega) (by rw [hc.src]; omega)) (fun v e => by show c.pos + 4 ≤ a.length; omega)
    · unfold SipUri.parseScheme; rw [if_pos h1]
    · unfold SipUri.parseScheme; rw [if_pos (by rw [← g1]; exact h1)]; rfl
  · by_cases h2 : hasSipsPrefix c.rest = true
    · have := g4 h2
      refine .of_eq (r := some true) (c' := c.adv 5) ?_ ?_ (Step.setPos hc.inv (by omega) (by rw [hc.src]; omega)) (fun v e => by show c.pos + 5 ≤ a.length; omega)
      · unfold SipUri.parseScheme; rw [if_neg h1, if_pos h2]
      · unfold SipUri.parseScheme; rw [if_neg (by rw [← g1]; exact h1), if_pos (by rw [← g3]; exact h2)]; rfl
    · refine .of_eq (r := none) (c' := c.addError c.pos) ?_ ?_ hc.addError (fun v e => by cases e)
      · unfold SipUri.parseScheme; rw [if_neg h1, if_neg h2]
      · unfold SipUri.parseScheme; rw [if_neg (by rw [← g1]; exact h1), if_neg (by rw [← g3]; exact h2)]; rfl

/-- what `TelUri.parseScheme` tests -/
def hasTelPrefix : Bytes → Bool
  | a :: b :: d :: e :: _ => decide (a ||| 0x20 = 0x74) && decide (b ||| 0x20 = 0x65) && decide (d ||| 0x20 = 0x6c) && decide (e ||| 0x20 = 0x3a)
  | _ => false
theorem telScheme_eq (c : Ctx) : TelUri.parseScheme c = if hasTelPrefix c.rest then .ok (some (), c.adv 4) else .ok (none, c) := by
  unfold TelUri.parseScheme hasTelPrefix
  split
  · rename_i h; rw [h]; dsimp only
    simp only [Bool.and_eq_true, decide_eq_true_eq, and_assoc]
  · rename_i h
    split
    · rename_i h2; exact absurd h2 (h _ _ _ _ _)
    · rfl
theorem telPrefix_ln (x y y' : Bytes) : hasTelPrefix (x ++ 0x0d :: 0x0a :: y) = hasTelPrefix (x ++ 0x0d :: 0x0a :: y') ∧ (hasTelPrefix (x ++ 0x0d :: 0x0a :: y) = true → 4 ≤ x.length) := by
  have h1 : ∀ y, x.length < 4 → hasTelPrefix (x ++ 0x0d :: 0x0a :: y) = false := by
    intro y h
    cases hs : hasTelPrefix (x ++ 0x0d :: 0x0a :: y) with
    | false => rfl
    | true =>
      exfalso
      unfold hasTelPrefix at hs
      split at hs
      · rename_i a b d e w he
        simp only [Bool.and_eq_true, decide_eq_true_eq] at hs
        obtain ⟨⟨⟨q1, q2⟩, q3⟩, q4⟩ := hs
        rcases x with _ | ⟨x1, _ | ⟨x2, _ | ⟨x3, _ | ⟨x4, x⟩⟩⟩⟩
        all_goals first | (simp only [List.nil_append, List.cons_append, List.cons.injEq] at he) | skip
        all_goals first
          | (rw [← he.1] at q1; revert q1; decide)
          | (rw [← he.2.1] at q2; revert q2; decide)
          | (rw [← he.2.2.1] at q3; revert q3; decide)
          | (rw [← he.2.2.2.1] at q4; revert q4; decide)
          | (simp only [List.length_cons] at h; omega)
      · cases hs
  rcases Nat.lt_or_ge x.length 4 with h | h
  · rw [h1 y h, h1 y' h]; exact ⟨rfl, fun h => by cases h⟩
  · refine ⟨?_, fun _ => h⟩
    rcases x with _ | ⟨x1, _ | ⟨x2, _ | ⟨x3, _ | ⟨x4, x⟩⟩⟩⟩
    all_goals first | (simp only [List.length_cons, List.length_nil] at h; omega) | rfl
theorem loc_telScheme : Loc a z z' TelUri.parseScheme := by
  intro c hc
  obtain ⟨g1, g2⟩ := telPrefix_ln (a.drop c.pos) z z'
  rw [← hc.rest, ← hc.rest' z'] at g1
  rw [← hc.rest, hc.left] at g2
  have hp := hc.pos
  have hl := ln_length a z
  by_cases h1 : hasTelPrefix c.rest = true
  · have := g2 h1
    refine .of_eq (r := some ()) (c' := c.adv 4) ?_ ?_ (Step.setPos hc.inv (by omega) (by rw [hc.src]; omega)) (fun v e => by show c.pos + 4 ≤ a.length; omega)
    · rw [telScheme_eq, if_pos h1]
    · rw [telScheme_eq, if_pos (by rw [← g1]; exact h1)]; rfl
  · refine .of_eq (r := none) (c' := c) ?_ ?_ (Step.refl hc.inv) (fun v e => by cases e)
    · rw [telScheme_eq, if_neg h1]
    · rw [telScheme_eq, if_neg (by rw [← g1]; exact h1)]

theorem loc_otherScheme (hz : NoCont z) : Loc a z z' parseOtherScheme := by
  intro c hc
  unfold parseOtherScheme
  refine .peek hc ?_
  split
  · exact .fail hc
  · split
    · refine .bind hc (loc_str hz _ (by decide +kernel) c hc) (fun v c1 _ h1 => .peek h1 ?_)
      split
      · rename_i hb
        exact .bind h1 (.skip1 h1 hb (by decide)) (fun _ c2 _ h2 => .ret h2 _)
      · exact .fail h1
    · exact .fail hc

/-- what `parseAddrScheme` does: `none` for the test of any other scheme -/
def schemeSel : Bytes → Option (Option UriType × Nat)
  | a :: b :: d :: e :: r =>
    if a ||| 0x20 = 0x73 then
      if b ||| 0x20 = 0x69 ∧ d ||| 0x20 = 0x70 then
        if e = 0x3a then some (some .sip, 4) else
        if e ||| 0x20 = 0x73 then
          match r with
          | [] => some (none, 4)
          | f :: _ => if f = 0x3a then some (some .sips, 5) else none
        else none
      else none
    else if a ||| 0x20 = 0x74 then
      if b ||| 0x20 = 0x65 ∧ d ||| 0x20 = 0x6c ∧ e = 0x3a then some (some .tel, 4) else none
    else if a ||| 0x20 = 0x75 then
      if b ||| 0x20 = 0x72 ∧ d ||| 0x20 = 0x6e ∧ e = 0x3a then some (some .urn, 4) else none
    else none
  | _ => none
theorem addrScheme_eq (c : Ctx) : parseAddrScheme c = match schemeSel c.rest with
    | some (t, n) => .ok (t, c.adv n)
    | none => parseOtherScheme c := by
  unfold parseAddrScheme schemeSel
  split
  · rename_i a b d e r h; rw [h]; dsimp only
    repeat' split
    all_goals first | rfl | simp_all
  · rename_i h
    split
    · rename_i h2
      split at h2
      · rename_i he; exact absurd he (h _ _ _ _ _)
      · cases h2
    · rfl
theorem cr_or : (0x0d : UInt8) ||| 0x20 = 0x2d ∧ (0x0a : UInt8) ||| 0x20 = 0x2a := by decide
theorem schemeSel_ln (x y y' : Bytes) : schemeSel (x ++ 0x0d :: 0x0a :: y) = schemeSel (x ++ 0x0d :: 0x0a :: y') ∧
    ∀ t n, schemeSel (x ++ 0x0d :: 0x0a :: y) = some (t, n) → n ≤ x.length := by
  have h1 : ∀ y, x.length < 4 → schemeSel (x ++ 0x0d :: 0x0a :: y) = none := by
    intro y h
    unfold schemeSel
    split
    · rename_i a b d e w he
      rcases x with _ | ⟨x1, _ | ⟨x2, _ | ⟨x3, _ | ⟨x4, x⟩⟩⟩⟩
      · simp only [List.nil_append, List.cons.injEq] at he
        simp [← he.1, cr_or]
      · simp only [List.nil_append, List.cons_append, List.cons.injEq] at he
        simp [← he.2.1, cr_or]
      · simp only [List.nil_append, List.cons_append, List.cons.injEq] at he
        simp [← he.2.2.1, cr_or]
      · simp only [List.nil_append, List.cons_append, List.cons.injEq] at he
        simp [← he.2.2.2.1, cr_or]
      · simp only [List.length_cons] at h; omega
    · rfl
  rcases Nat.lt_or_ge x.length 4 with h | h
  · rw [h1 y h, h1 y' h]; exact ⟨rfl, fun t n e => by cases e⟩
  · rcases x with _ | ⟨x1, _ | ⟨x2, _ | ⟨x3, _ | ⟨x4, _ | ⟨x5, x⟩⟩⟩⟩⟩
    · simp at h
    · simp at h
    · simp at h
    · simp at h
    · refine ⟨rfl, fun t n e => ?_⟩
      simp only [List.nil_append, List.cons_append, schemeSel] at e
      repeat' split at e
      all_goals first | (cases e; done) | skip
      all_goals simp_all
      all_goals omega
    · refine ⟨rfl, fun t n e => ?_⟩
      simp only [List.cons_append, schemeSel] at e
      repeat' split at e
      all_goals first | (cases e; done) | skip
      all_goals simp_all
      all_goals omega

theorem loc_addrScheme (hz : NoCont z) : Loc a z z' parseAddrScheme := by
  intro c hc
  obtain ⟨g1, g2⟩ := schemeSel_ln (a.drop c.pos) z z'
  rw [← hc.rest, ← hc.rest' z'] at g1
  rw [← hc.rest, hc.left] at g2
  have hp := hc.pos
  have hl := ln_length a z
  have e0 := addrScheme_eq c
  have e1 := addrScheme_eq (c.tail (ln a z'))
  rw [← g1] at e1
  rcases hs : schemeSel c.rest with _ | ⟨t, n⟩ <;> rw [hs] at e0 e1 <;> dsimp only at e0 e1
  · exact .congr e0 e1 (loc_otherScheme hz c hc)
  · have := g2 _ _ hs
    exact .of_eq e0 e1 (Step.setPos hc.inv (by omega) (by rw [hc.src]; omega)) (fun v e => by show c.pos + n ≤ a.length; omega)

/-! ## Name tries -/

/-- no test of the trie is met by the byte -/
def Trie.avoids (b : UInt8) : Trie → Bool
  | .fail => true
  | .acc _ k => k.avoids b
  | .byte p k => !p.test b && k.avoids b
  | .lits ps k => ps.all (fun p => !p.test b) && k.avoids b
  | .case p k els => !p.test b && (k.avoids b && els.avoids b)

theorem testAll_stop (b : UInt8) (y z : Bytes) : ∀ (ps : List Pat) , ps.all (fun p => !p.test b) = true → y.length < ps.length → Pat.testAll ps (y ++ b :: z) = false := by
  induction y with
  | nil =>
    intro ps h hl
    cases ps with
    | nil => simp at hl
    | cons p ps =>
      rw [List.all_cons, Bool.and_eq_true] at h
      have : p.test b = false := by simpa using h.1
      simp [Pat.testAll, this]
  | cons v y ih =>
    intro ps h hl
    cases ps with
    | nil => simp at hl
    | cons p ps =>
      rw [List.all_cons, Bool.and_eq_true] at h
      rw [List.cons_append, Pat.testAll, ih ps h.2 (by simpa using hl), Bool.and_false]
theorem testAll_pre (y w w' : Bytes) : ∀ (ps : List Pat), ps.length ≤ y.length → Pat.testAll ps (y ++ w) = Pat.testAll ps (y ++ w') := by
  induction y with
  | nil =>
    intro ps h
    cases ps with
    | nil => simp [Pat.testAll]
    | cons p ps => simp at h
  | cons v y ih =>
    intro ps h
    cases ps with
    | nil => simp [Pat.testAll]
    | cons p ps => rw [List.cons_append, List.cons_append, Pat.testAll, Pat.testAll, ih ps (by simpa using h)]

theorem trie_stop (b : UInt8) (z z' : Bytes) (t : Trie) : t.avoids b = true → ∀ (y : Bytes) (pos : Nat),
    t.run (y ++ b :: z) pos = t.run (y ++ b :: z') pos ∧ ∀ i p, t.run (y ++ b :: z) pos = .ok (i, p) → pos ≤ p ∧ p ≤ pos + y.length := by
  induction t with
  | fail => intro _ y pos; exact ⟨rfl, fun i p e => by cases e; omega⟩
  | acc i k ih =>
    intro h y pos
    have hh : endOfToken (y ++ b :: z) = endOfToken (y ++ b :: z') := by cases y <;> rfl
    rw [Trie.run, Trie.run, ← hh]
    split
    · exact ⟨rfl, fun i p e => by cases e; omega⟩
    · exact ih h y pos
  | byte p k ih =>
    intro h y pos
    rw [Trie.avoids, Bool.and_eq_true] at h
    have hb : p.test b = false := by simpa using h.1
    cases y with
    | nil =>
      simp only [List.nil_append, Trie.run, hb]
      exact ⟨rfl, fun i p e => by cases e; omega⟩
    | cons v y =>
      simp only [List.cons_append, Trie.run]
      split
      · obtain ⟨g1, g2⟩ := ih h.2 y (pos + 1)
        refine ⟨g1, fun i p e => ?_⟩
        have := g2 i p e
        rw [List.length_cons]; omega
      · exact ⟨rfl, fun i p e => by cases e; omega⟩
  | lits ps k ih =>
    intro h y pos
    rw [Trie.avoids, Bool.and_eq_true] at h
    rw [Trie.run, Trie.run]
    rcases Nat.lt_or_ge y.length ps.length with hl | hl
    · rw [testAll_stop b y z ps h.1 hl, testAll_stop b y z' ps h.1 hl]
      simp only [Bool.false_eq_true, if_false, ite_self]
      exact ⟨trivial, fun i p e => by cases e; omega⟩
    · have l1 : (y ++ b :: z).length = y.length + 1 + z.length := by rw [List.length_append, List.length_cons]; omega
      have l2 : (y ++ b :: z').length = y.length + 1 + z'.length := by rw [List.length_append, List.length_cons]; omega
      rw [if_neg (show ¬ ps.length - 1 ≥ (y ++ b :: z).length by omega), if_neg (show ¬ ps.length - 1 ≥ (y ++ b :: z').length by omega),
        testAll_pre y (b :: z) (b :: z') ps hl]
      split
      · rw [List.drop_append_of_le_length hl, List.drop_append_of_le_length hl]
        obtain ⟨g1, g2⟩ := ih h.2 (y.drop ps.length) (pos + ps.length)
        refine ⟨g1, fun i p e => ?_⟩
        have := g2 i p e
        rw [List.length_drop] at this; omega
      · exact ⟨rfl, fun i p e => by cases e; omega⟩
  | case p k els ih1 ih2 =>
    intro h y pos
    rw [Trie.avoids, Bool.and_eq_true, Bool.and_eq_true] at h
    have hb : p.test b = false := by simpa using h.1
    cases y with
    | nil =>
      have := ih2 h.2.2 [] pos
      simp only [List.nil_append, Trie.run, hb] at this ⊢
      exact this
    | cons v y =>
      simp only [List.cons_append, Trie.run]
      split
      · obtain ⟨g1, g2⟩ := ih1 h.2.1 y (pos + 1)
        refine ⟨g1, fun i p e => ?_⟩
        have := g2 i p e
        rw [List.length_cons]; omega
      · exact ih2 h.2.2 (v :: y) pos

theorem methodTrie_cr : methodTrie.avoids 0x0d = true := by decide +kernel
theorem headerTrie_lf : headerTrie.avoids 0x0a = true := by decide +kernel

theorem methodIndex_ln {i : Nat} (h : i ≤ a.length) : getSipMethodIndex (ln a z') i = getSipMethodIndex (ln a z) i ∧
    ∀ m p, getSipMethodIndex (ln a z) i = .ok (m, p) → i ≤ p ∧ p ≤ a.length := by
  have hl := ln_length a z; have hl' := ln_length a z'
  unfold getSipMethodIndex Trie.lookup
  rw [if_neg (show ¬ i ≥ (ln a z).length by omega), if_neg (show ¬ i ≥ (ln a z').length by omega), ln_drop a z h, ln_drop a z' h]
  obtain ⟨g1, g2⟩ := trie_stop 0x0d (0x0a :: z) (0x0a :: z') methodTrie methodTrie_cr (a.drop i) i
  refine ⟨g1.symm, fun m p e => ?_⟩
  have := g2 m p e
  rw [List.length_drop] at this; omega
theorem headerIndex_ln {i : Nat} (h : i ≤ a.length) : getSipHeaderIndex (ln a z') i = getSipHeaderIndex (ln a z) i ∧
    ∀ m p, getSipHeaderIndex (ln a z) i = .ok (m, p) → i ≤ p ∧ p ≤ a.length + 1 := by
  have hl := ln_length a z; have hl' := ln_length a z'
  unfold getSipHeaderIndex Trie.lookup
  rw [if_neg (show ¬ i ≥ (ln a z).length by omega), if_neg (show ¬ i ≥ (ln a z').length by omega), ln_drop a z h, ln_drop a z' h]
  have e : ∀ w : Bytes, a.drop i ++ 0x0d :: 0x0a :: w = (a.drop i ++ [0x0d]) ++ 0x0a :: w := fun w => by simp
  rw [e, e]
  obtain ⟨g1, g2⟩ := trie_stop 0x0a z z' headerTrie headerTrie_lf (a.drop i ++ [0x0d]) i
  refine ⟨g1.symm, fun m p e => ?_⟩
  have := g2 m p e
  rw [List.length_append, List.length_drop, List.length_singleton] at this; omega

end
end Sip
