import Verif.Props.AccHeaders
import Verif.Props.ReadsStart
/-! # What is in the grammar is accepted: the start line (C43) -/
namespace Sip

theorem sipSlash {t : Bytes} (h : Gram.word "sip/" t) : ∃ a b d, t = [a, b, d, 0x2f] ∧ a ||| 0x20 = 0x73 ∧ b ||| 0x20 = 0x69 ∧ d ||| 0x20 = 0x70 := by
  have hl : t.length = 4 := (word_length h).trans (by decide +kernel)
  unfold Gram.word at h
  match t, hl with
  | [a, b, d, e], _ =>
    have hs : str "sip/" = [0x73, 0x69, 0x70, 0x2f] := by decide +kernel
    rw [hs] at h
    simp only [List.map_cons, List.map_nil, List.cons.injEq, and_true] at h
    obtain ⟨h1, h2, h3, h4⟩ := h
    have h4 := (by decide +kernel : ∀ x : UInt8, asciiLower x = 0x2f → x = 0x2f) e h4
    subst h4
    exact ⟨a, b, d, rfl, bit_of_lower a _ (by decide) h1, bit_of_lower b _ (by decide) h2, bit_of_lower d _ (by decide) h3⟩

theorem Gram.version_len {v : Version} {t y : Bytes} (h : Gram.version v t y) : ∃ a b d r, t = a :: b :: d :: r := by
  cases h with
  | v20 y hy => exact ⟨_, _, _, _, rfl⟩
  | other a b y ha ha' hb hb' hy h =>
    match a, b, ha, hb with
    | [x], z :: b, _, _ => exact ⟨_, _, _, _, rfl⟩
    | x :: x' :: [], z :: b, _, _ => exact ⟨_, _, _, _, rfl⟩
    | x :: x' :: x'' :: a, z :: b, _, _ => exact ⟨_, _, _, _, rfl⟩

namespace Acc
variable {fl : Flags} {net : Net}

theorem versionStart {t y : Bytes} (h : Gram.word "sip/" t) (hl : 3 ≤ y.length) : Acc fl Version.parseStart t () y := by
  obtain ⟨a, b, d, rfl, h1, h2, h3⟩ := sipSlash h
  refine ⟨0, fun c _ hr hp _ => ⟨c.adv 4, ?_, Moved.of_eat c 4 0⟩⟩
  have hlen := rest_length c hp
  rw [hr] at hlen
  simp at hlen
  have g : ∀ k, c.src[c.pos + k]? = (a :: b :: d :: 0x2f :: y)[k]? := by intro k; rw [show a :: b :: d :: 0x2f :: y = c.rest by rw [hr]; rfl]; unfold Ctx.rest; rw [List.getElem?_drop]
  unfold Version.parseStart
  rw [if_neg (by omega), show c.src[c.pos]? = some a from g 0, g 1, g 2, g 3]
  simp [h1, h2, h3]

theorem majorMinor {a b y : Bytes} (ha : a ≠ []) (ha' : InSet csDigit a) (hb : b ≠ []) (hb' : InSet csDigit b) (hy : NotIn csDigit y) :
    Acc fl Version.parseMajorMinor (a ++ 0x2e :: b) (.other (a ++ 0x2e :: b)) y := by
  refine ⟨a.length + 1 + b.length + 2, fun c _ hr hp hu => ?_⟩
  have hr' : c.rest = a ++ 0x2e :: (b ++ y) := by rw [hr]; simp
  have hsk : skipWhile isDigit c.src c.pos = c.pos + a.length := skipWhile_append hr' ha' (by intro x hx; simp at hx; subst hx; decide +kernel)
  have hlen := rest_length c hp
  rw [hr] at hlen
  simp only [List.length_append, List.length_cons] at hlen
  have h1 := List.length_pos_iff.2 ha
  have h2 := List.length_pos_iff.2 hb
  have hd : c.src[c.pos + a.length]? = some 0x2e := by
    have : c.src[c.pos + a.length]? = (c.src.drop c.pos)[a.length]? := by rw [List.getElem?_drop]
    rw [this, show c.src.drop c.pos = _ from hr', List.getElem?_append_right (Nat.le_refl _), Nat.sub_self]; rfl
  have sp := parseStrFromPos_spec csDigit c (c.pos + a.length + 1) (by omega) (by omega) (a ++ [0x2e]) b y (by rw [hr]; simp) (by simp; omega) ⟨rfl, hb', hy⟩ (by simp; omega) (by simp)
  refine ⟨_, (by
    unfold Version.parseMajorMinor
    simp only [hsk, hd]
    rw [if_neg (by omega), if_neg (by simp), Nat.add_assoc, ← Nat.add_assoc, sp]
    simp only
    rw [if_neg (by omega), show a ++ [0x2e] ++ b = a ++ 0x2e :: b by simp]), ?_⟩
  refine ⟨rfl, rfl, rfl, ?_, ?_⟩
  · simp; omega
  · simp; omega

theorem versionAfterStart {v : Version} {t y : Bytes} (h : Gram.version v t y) : Acc fl Version.parseAfterStart t v y := by
  obtain ⟨x0, x1, x2, r, hx⟩ := Gram.version_len h
  have g : ∀ c : Ctx, c.rest = t ++ y → ∀ k, c.src[c.pos + k]? = (x0 :: x1 :: x2 :: (r ++ y))[k]? := by
    intro c hr k
    rw [show x0 :: x1 :: x2 :: (r ++ y) = c.rest by rw [hr, hx]; rfl]; unfold Ctx.rest; rw [List.getElem?_drop]
  have step : ∀ c : Ctx, c.rest = t ++ y → Version.parseAfterStart c =
      (if x0 ≠ 0x32 then Version.parseMajorMinor else if x1 ≠ 0x2e then Version.parseMajorMinor else if x2 ≠ 0x30 then Version.parseMajorMinor
        else if ((r ++ y).head?.map isDigit) = some true then Version.parseMajorMinor else do P.skip 3; Pure.pure .v20) c := by
    intro c hr
    have b0 : P.byteAt 0 c = .ok (some x0, c) := by simp only [P.byteAt, g c hr 0]; rfl
    have b1 : P.byteAt 1 c = .ok (some x1, c) := by simp only [P.byteAt, g c hr 1]; rfl
    have b2 : P.byteAt 2 c = .ok (some x2, c) := by simp only [P.byteAt, g c hr 2]; rfl
    have b3 : c.src[c.pos + 3]? = (r ++ y).head? := by rw [g c hr 3]; simp [List.head?_eq_getElem?]
    unfold Version.parseAfterStart
    rw [P.bind_ok b0]
    split
    · rfl
    rw [P.bind_ok b1]
    split
    · rfl
    rw [P.bind_ok b2]
    split
    · rfl
    rw [P.get_bind, b3]
  refine congr ?_ (fun c _ hr _ => step c hr)
  cases h with
  | v20 y hy =>
    have e : [(0x32 : UInt8), 0x2e, 0x30] = x0 :: x1 :: x2 :: r := (show [(0x32 : UInt8), 0x2e, 0x30] = Sip.str "2.0" by decide +kernel).trans hx
    simp only [List.cons.injEq] at e
    obtain ⟨rfl, rfl, rfl, rfl⟩ := e
    refine ite_neg (by simp) (ite_neg (by simp) (ite_neg (by simp) (ite_neg ?_ ?_)))
    · cases y with
      | nil => simp
      | cons b y =>
        have := hy b (by simp)
        rw [show csDigit.mem b = isDigit b by rfl] at this
        simp [this]
    · rw [hx]
      exact map (skip [0x32, 0x2e, 0x30] y) rfl
  | other a b y ha ha' hb hb' hy h =>
    have mm := majorMinor (fl := fl) ha ha' hb hb' hy
    by_cases e0 : x0 ≠ 0x32
    · exact ite_pos e0 mm
    refine ite_neg e0 ?_
    by_cases e1 : x1 ≠ 0x2e
    · exact ite_pos e1 mm
    refine ite_neg e1 ?_
    by_cases e2 : x2 ≠ 0x30
    · exact ite_pos e2 mm
    refine ite_neg e2 (ite_pos ?_ mm)
    simp only [ne_eq, Classical.not_not] at e0 e1 e2
    subst e0 e1 e2
    match a, ha, hx, ha', h with
    | [z], _, hx, _, h =>
      simp only [List.cons_append, List.nil_append, List.cons.injEq, true_and] at hx
      obtain ⟨rfl, rfl⟩ := hx
      cases r with
      | nil => exact absurd (by decide +kernel) h
      | cons d r =>
        have := hb' d (by simp)
        rw [show csDigit.mem d = isDigit d by rfl] at this
        simp [this]
    | z :: z' :: a, _, hx, ha', _ =>
      simp only [List.cons_append, List.cons.injEq] at hx
      have := ha' z' (by simp)
      rw [hx.2.1] at this
      exact absurd this (by decide +kernel)

theorem version {v : Version} {ts tv y : Bytes} (hs : Gram.word "sip/" ts) (hv : Gram.version v tv y) : Acc fl Version.parse (ts ++ tv) v y := by
  unfold Version.parse
  obtain ⟨a, b, d, r, hx⟩ := Gram.version_len hv
  exact bind (orErr (versionStart hs (by rw [hx]; simp))) (versionAfterStart hv)

theorem sp (y : Bytes) : Acc fl P.sp [0x20] () y := by
  unfold P.sp
  exact peek (ite_neg (by simp) (skip [0x20] y))

theorem startLine {s : StartLine} {t y : Bytes} (h : Gram.startLine net fl s t y) : Acc fl (StartLine.parse net) t s y := by
  unfold StartLine.parse
  cases h with
  | request m tm a ta ts v tv y hm ha hs hv =>
    refine bind0 (v1 := false) (orElse2 (Rej.fst ?_) (pure _ _)) (ite_neg (by simp) ?_)
    · refine ⟨0, fun c _ hr hp _ => ⟨c, ?_, rfl, rfl, rfl, by omega⟩⟩
      unfold Version.parseStart
      split
      · rfl
      · rename_i hl
        have hlen := rest_length c hp
        match hr2 : c.rest with
        | x0 :: x1 :: x2 :: x3 :: z =>
          have g : ∀ k, c.src[c.pos + k]? = (x0 :: x1 :: x2 :: x3 :: z)[k]? := by intro k; rw [← hr2]; unfold Ctx.rest; rw [List.getElem?_drop]
          rw [show c.src[c.pos]? = some x0 from g 0, g 1, g 2, g 3]
          simp only [List.getElem?_cons_succ, List.getElem?_cons_zero]
          rw [if_pos]
          false_or_by_contra; rename_i hn
          simp only [ne_eq, not_or, Classical.not_not] at hn
          obtain ⟨g1, g2, g3, rfl⟩ := hn
          obtain ⟨q, hq1, hq2, hq3⟩ : ∃ q, tm = q ∧ InSet csSipToken tm ∧ True := ⟨tm, rfl, by
            cases hm with
            | known i n y hi h hy =>
              obtain ⟨s, h1, rfl⟩ := sipMethodName_mem _ _ hi h
              exact (method_names _ _ h1).2.2.2
            | token t y h hn he => exact h.2.2.1, trivial⟩
          have hr3 : x0 :: x1 :: x2 :: 0x2f :: z = tm ++ 0x20 :: (ta ++ 0x20 :: ts ++ tv ++ [0x0d, 0x0a] ++ y) := by rw [← hr2, hr]; simp
          have no20 : ∀ x p : UInt8, (0x61 ≤ p ∧ p ≤ 0x7a) → x ||| 0x20 = p → x ≠ 0x20 := by
            rintro x p hp rfl rfl; revert hp; decide
          have n0 := no20 x0 _ (by decide) g1
          have n1 := no20 x1 _ (by decide) g2
          have n2 := no20 x2 _ (by decide) g3
          match tm, hr3, hq2 with
          | [], hr3, _ => simp only [List.nil_append, List.cons.injEq] at hr3; exact n0 hr3.1
          | [_], hr3, _ => simp only [List.cons_append, List.nil_append, List.cons.injEq] at hr3; exact n1 hr3.2.1
          | [_, _], hr3, _ => simp only [List.cons_append, List.nil_append, List.cons.injEq] at hr3; exact n2 hr3.2.2.1
          | [_, _, _], hr3, _ => simp only [List.cons_append, List.nil_append, List.cons.injEq] at hr3; exact absurd hr3.2.2.2.1 (by decide)
          | _ :: _ :: _ :: w :: _, hr3, hq2 =>
            simp only [List.cons_append, List.cons.injEq] at hr3
            have := hq2 w (by simp)
            rw [← hr3.2.2.2.1] at this
            exact absurd this (by decide +kernel)
        | [] => rw [hr2] at hlen; simp at hlen; omega
        | [_] => rw [hr2] at hlen; simp at hlen; omega
        | [_, _] => rw [hr2] at hlen; simp at hlen; omega
        | [_, _, _] => rw [hr2] at hlen; simp at hlen; omega
    · unfold StartLine.parseRequest
      refine bind' (t1 := tm) (t2 := [0x20] ++ (ta ++ ([0x20] ++ ((ts ++ tv) ++ [0x0d, 0x0a])))) (orErr (method (by simpa using hm))) ?_ (by simp)
      exact bind (sp _) (bind (orErr (addrSpec (by simpa using ha))) (bind (sp _) (bind (orErr (version hs hv)) (map (orErr (crlf y)) rfl))))
  | status ts v tv n tn r tr y hs hv hn hr =>
    obtain ⟨a, b, d, x, hx⟩ := Gram.version_len hv
    refine bind' (t1 := ts) (t2 := tv ++ ([0x20] ++ (tn ++ ([0x20] ++ (tr ++ [0x0d, 0x0a]))))) (v1 := true) (orElse1 (map (versionStart hs (by rw [hx]; simp)) rfl)) (ite_pos rfl ?_) (by simp)
    unfold StartLine.parseStatus
    exact bind (orErr (versionAfterStart (by simpa using hv))) (bind (sp _) (bind (uint (by simpa using hn)) (bind (sp _) (bind (orErr (strEscEmpty hr)) (map (orErr (crlf y)) rfl)))))

end Acc
end Sip
