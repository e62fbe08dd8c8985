import Verif.Props.RawHeader
import Verif.Props.StartLine
import Verif.Props.HeadersSafe
/-!
# C28 - C31 for header lines, header lists and messages
-/
namespace Sip

/-! ## Header names -/

theorem gsafe_strFromPos {N H : Prop} (s : CS) (pos : Nat) (c : Ctx) (hc : Inv c) (hp : c.pos ≤ pos) (hl : pos ≤ c.src.length) :
    GSafe N H true 1 2 (fun v c' => v ≠ [] ∧ v = (c.src.drop c.pos).take (pos - c.pos) ++ (c.src.drop pos).takeWhile s.mem ∧ c'.pos = c.pos + v.length)
      (parseStrFromPos s pos) c := by
  have hmax : max c.pos pos = pos := by omega
  have hlen := runLen_drop_le s.mem c.src pos hl
  have hzl : ((c.src.drop c.pos).take (pos - c.pos)).length = pos - c.pos := by simp; omega
  generalize hh : (c.src.drop c.pos).take (pos - c.pos) = z at *
  generalize hrun : (c.src.drop pos).takeWhile s.mem = run at *
  have e0 : parseStrFromPos s pos c = parseStrFromPos s pos c := rfl
  conv at e0 => rhs; unfold parseStrFromPos
  simp only [hmax, hh, hrun] at e0
  by_cases h1 : c.pos < pos ∧ pos - c.pos + (c.used + 2) ≥ c.cap
  · rw [if_pos h1] at e0; exact .of_none e0 (Step.err hc _) (by simp [Ctx.addError])
  rw [if_neg h1, if_neg (by omega)] at e0
  by_cases h2 : c.used + 2 + (pos - c.pos) ≥ c.cap
  · rw [if_pos h2] at e0; exact .of_none e0 ((Step.setPos hc hp hl).addError _) (by simp [Ctx.addError, Ctx.setPos])
  rw [if_neg h2] at e0
  by_cases h3 : c.used + 2 + (pos - c.pos) + run.length > c.cap
  · rw [if_pos h3] at e0
    refine .of_panic e0 (fun _ hr => ?_)
    unfold Room at hr; omega
  rw [if_neg h3] at e0
  by_cases h4 : pos + run.length ≤ c.pos
  · rw [if_pos h4] at e0; exact .of_none e0 ((Step.setPos hc (by omega) hlen).addError _) (by simp [Ctx.addError, Ctx.setPos])
  rw [if_neg h4] at e0
  by_cases h5 : c.used + 2 + (pos - c.pos) + run.length ≥ c.cap
  · rw [if_pos h5] at e0; exact .of_none e0 ((Step.setPos hc (by omega) hlen).addError _) (by simp [Ctx.addError, Ctx.setPos])
  rw [if_neg h5] at e0
  refine .of_ok e0 ?_ ⟨?_, rfl, ?_⟩ ?_
  · exact ⟨rfl, rfl, rfl, by simp only; omega, hlen, by simp only; omega, by simp only; omega, ErrsIn.refl⟩
  · intro e
    have : (z ++ run).length = 0 := by rw [e]; rfl
    simp only [List.length_append] at this; omega
  · simp only [List.length_append]; omega
  · simp only; omega

/-- a name that starts with a dash is never in the middle of a known name -/
theorem dash_start : headerTrie.stops.all (fun ps => ps.head?.all (fun p => !p.test 0x2d)) = true ∧
    headerTrie.paths.all (fun x => x.1.head?.all (fun p => !p.test 0x2d) && !x.1.isEmpty) = true := by decide +kernel

/-- what keeps the name lookup from running over the end of the input: a byte that is no token and no CR, or a dash at the start -/
def NameOk (c : Ctx) : Prop := (∃ b ∈ c.rest, b ≠ 0x0d ∧ Rfc.token b = false) ∨ c.cur? = some 0x2d

theorem testAll_head {p : Pat} {ps : List Pat} {b : UInt8} {y : Bytes} (h : Pat.testAll (p :: ps) (b :: y) = true) : p.test b = true := by
  simp only [Pat.testAll, Bool.and_eq_true] at h; exact h.1

theorem headerIndex_nopanic {c : Ctx} (h : NameOk c) : getSipHeaderIndex c.src c.pos ≠ .panic := by
  rcases h with h | h
  · exact header_index_nopanic _ _ h
  · intro hp
    obtain ⟨hr, hlt⟩ := rest_eq_cons h
    unfold getSipHeaderIndex Trie.lookup at hp
    rw [if_neg (by omega)] at hp
    obtain ⟨ps, h1, h2, h3⟩ := Trie.run_panic _ _ _ hp
    have hr : c.src.drop c.pos = 0x2d :: c.src.drop (c.pos + 1) := by have := hr; unfold Ctx.rest at this; exact this
    rw [hr] at h2 h3
    cases ps with
    | nil => simp at h3
    | cons p ps =>
      have := List.all_eq_true.1 dash_start.1 _ h1
      simp only [List.head?_cons, Option.all_some, testAll_head h2] at this; cases this

/-- the index of a known name: at least one byte, and it does not start with a dash -/
theorem headerIndex_known {src : Bytes} {pos i q : Nat} (hi : i ≠ 0) (h : getSipHeaderIndex src pos = .ok (i, q)) : pos + 1 ≤ q ∧ src[pos]? ≠ some 0x2d := by
  unfold getSipHeaderIndex Trie.lookup at h
  split at h
  · simp only [Out.ok.injEq, Prod.mk.injEq] at h; exact absurd h.1.symm hi
  · obtain ⟨ps, h1, h2, h3, h4⟩ := Trie.run_sound _ _ _ _ _ h hi
    have := List.all_eq_true.1 dash_start.2 _ h1
    cases ps with
    | nil => simp at this
    | cons p ps =>
      refine ⟨by rw [h4]; simp only [List.length_cons]; omega, fun hd => ?_⟩
      have hlt : pos < src.length := (List.getElem?_eq_some_iff.1 hd).1
      rw [List.drop_eq_getElem_cons hlt] at h2
      have e : src[pos] = 0x2d := by rw [List.getElem?_eq_getElem hlt] at hd; exact Option.some.inj hd
      rw [e] at h2
      simp only [List.head?_cons, Option.all_some, testAll_head h2, Bool.not_true, Bool.false_and] at this; cases this

/-- what the parser says about the name `n` -/
def NameParsed (r : Option Bytes × Nat) (n : Bytes) : Prop := (∀ b ∈ n, b ≠ 0x0d) → NameOf r.2 r.1 n

/-- the part of the name -/
def NamePost (c : Ctx) (r : Option Bytes × Nat) (c' : Ctx) : Prop :=
  ∃ n, n ≠ [] ∧ c.rest = n ++ c'.rest ∧ c'.pos = c.pos + n.length ∧ (∀ b ∈ n, Rfc.token b = true ∨ b = 0x0d) ∧ NameParsed r n ∧ (n.head? = some 0x2d → r.2 = 0)

theorem rfcToken_mem (b : UInt8) : csSipToken.mem b = Rfc.token b := (charset_sip b).1

theorem gsafe_name {N H : Prop} (c : Ctx) (hc : Inv c) (hN : N → NameOk c) : GSafe N H true 1 2 (NamePost c) (P.headerIndex >>= storeName) c := by
  by_cases hp : getSipHeaderIndex c.src c.pos = .panic
  · refine .of_panic (P.bind_panic (by unfold P.headerIndex; rw [hp])) (fun h _ => absurd hp (headerIndex_nopanic (hN h)))
  obtain ⟨i, k, e, hk, hb⟩ := header_index_returns c.src c.pos hp
  have hh : P.headerIndex c = .ok (some (i, c.pos + k), c) := by unfold P.headerIndex; rw [e]
  refine GSafe.congr (P.bind_ok hh) ?_
  have hrl := rest_length c hc.pos
  have hk' : k ≤ c.rest.length := hk
  have hrest : ∀ c' : Ctx, c'.src = c.src → ∀ n : Bytes, n = c.rest.take n.length → c'.pos = c.pos + n.length → c.rest = n ++ c'.rest := by
    intro c' h1 n h2 h3
    have : c'.rest = c.rest.drop n.length := by unfold Ctx.rest; rw [h1, h3, List.drop_drop]
    rw [this]; conv => lhs; rw [← List.take_append_drop n.length c.rest]
    rw [← h2]
  cases i with
  | zero =>
    show GSafe N H true 1 2 (NamePost c) (parseStrFromPos csSipToken (c.pos + k) >>= fun n => (pure (some n, 0) : P (Option Bytes × Nat))) c
    refine GSafe.seq (B2 := 0) (gsafe_strFromPos csSipToken (c.pos + k) c hc (by omega) (by omega)) (fun v c1 e1 hq s1 => ?_)
    obtain ⟨h1, h2, h3⟩ := hq
    refine GSafe.pure s1.inv ?_
    rw [Nat.add_sub_cancel_left] at h2
    have hsplit : c.rest = v ++ (c.src.drop (c.pos + k)).dropWhile csSipToken.mem := by
      rw [h2, List.append_assoc, List.takeWhile_append_dropWhile, ← List.drop_drop, List.take_append_drop]; rfl
    have hchars : ∀ b ∈ v, Rfc.token b = true ∨ b = 0x0d := by
      intro b hb2; rw [h2] at hb2
      rcases List.mem_append.1 hb2 with h | h
      · exact hb b h
      · left; rw [← rfcToken_mem]; exact inSet_takeWhile _ _ b h
    refine ⟨v, h1, hrest c1 s1.src v (by rw [hsplit]; simp) h3, h3, hchars, ?_, fun _ => rfl⟩
    intro hcr
    have hv : InSet csSipToken v := fun b hb2 => by
      rcases hchars b hb2 with h | h
      · rw [rfcToken_mem]; exact h
      · exact absurd h (hcr b hb2)
    refine Or.inr ⟨rfl, rfl, h1, hv, ?_⟩
    cases hx : isHeaderName v with
    | false => rfl
    | true =>
      exfalso
      unfold isHeaderName at hx
      rw [List.any_eq_true] at hx
      obtain ⟨⟨s, j⟩, g1, g2⟩ := hx
      have g2 : SameLetters v (str s) := (eq_of_beq g2).symm
      have := header_index_complete c.src c.pos j s v _ g1 hsplit g2 ((tokenEnd_iff _).2 (notIn_dropWhile _ _))
      rw [this] at e
      simp only [Out.ok.injEq, Prod.mk.injEq] at e
      exact (headerTable_facts _ g1).1 e.1
  | succ i =>
    have hkn := headerIndex_known (Nat.succ_ne_zero i) e
    refine GSafe.of_ok (v := (none, i + 1)) (c' := c.setPos (c.pos + k)) rfl (Step.setPos hc (by omega) (by omega)) ?_ (by simp only [Ctx.setPos]; omega)
    have hlen : (c.rest.take k).length = k := by simp; omega
    refine ⟨c.rest.take k, ?_, hrest (c.setPos (c.pos + k)) rfl _ (by rw [hlen]) (by rw [hlen]; rfl), by rw [hlen]; rfl, hb, ?_, ?_⟩
    · intro h
      have := congrArg List.length h
      rw [hlen] at this; simp at this; omega
    · intro hcr
      obtain ⟨s, w, y, g1, g2, g3, g4, g5⟩ := header_index_sound_noCr _ _ _ _ (Nat.succ_ne_zero i) e (by rw [Nat.add_sub_cancel_left]; exact hcr)
      refine Or.inl ⟨s, g1, ?_, rfl⟩
      have hw : w.length = k := by omega
      have : c.rest.take k = w := by
        have hr : c.rest = w ++ y := g2
        rw [hr, ← hw]; simp
      rw [this]; exact g3
    · intro hd
      exfalso
      apply hkn.2
      have : (c.rest.take k).head? = c.rest.head? := by
        cases k with
        | zero => omega
        | succ k => cases c.rest <;> rfl
      rw [this] at hd
      rw [← cur_eq_head] at hd
      exact hd

/-- name and colon: the line is not left -/
def NameColon (c : Ctx) (r : Option Bytes × Nat) (c' : Ctx) : Prop :=
  Line c c' ∧ c.pos + 2 ≤ c'.pos ∧ (c.cur? = some 0x2d → r.2 = 0) ∧ (NoStrayOn c → ∃ n, NameOf r.2 r.1 n)

theorem msgHeaderName_safe {N H : Prop} (c : Ctx) (hc : Inv c) (hN : N → NameOk c) : GSafe N H true 1 2 (NameColon c) parseMsgHeaderName c := by
  have e : parseMsgHeaderName = (P.headerIndex >>= storeName) >>= fun n => (do P.orErr P.hcolon; pure n) := by
    unfold parseMsgHeaderName; rw [P.bind_assoc]
  rw [e]
  refine GSafe.seq (B2 := 0) (gsafe_name c hc hN) (fun r c1 e1 hq s1 => ?_)
  obtain ⟨n, hn1, hn2, hn3, hn4, hn5, hn6⟩ := hq
  have hcol := GSafe.of_safe (N := N) (H := H) (SafeAt.orErr (l := true) (safe_hcolon c1 s1.inv)) (fun _ => Pre.zero _) (fun _ => PreH.zero _)
  refine GSafe.seq (B2 := 0) hcol (fun _ c2 e2 hq2 s2 => ?_)
  refine GSafe.pure s2.inv ?_
  -- the text behind the name
  have hnext : ∃ d y, c1.rest = d :: y ∧ (d = 0x3a ∨ d = 0x20 ∨ d = 0x09) ∧ c1.pos + 1 ≤ c2.pos := by
    rcases hcolon_spec c1 s1.inv.pos with ⟨w, y, hw, hr, e⟩ | ⟨w, y, hw, hr, hz, e⟩
    · have e' : P.orErr P.hcolon c1 = .ok (some (), c1.adv (w.length + 1 + swsLen y)) := P.orErr_ok (by simp only [P.hcolon, P.ofBool, e])
      rw [e'] at e2
      simp only [Out.ok.injEq, Prod.mk.injEq] at e2
      have hp : c1.pos + 1 ≤ c2.pos := by rw [← e2.2]; simp only [Ctx.adv]; omega
      cases w with
      | nil => exact ⟨_, _, hr, Or.inl rfl, hp⟩
      | cons a w => exact ⟨_, _, hr, Or.inr (hw a (by simp)), hp⟩
    · have e' : P.orErr P.hcolon c1 = .ok (none, ((c1.adv w.length).addError (c1.pos + w.length)).addError ((c1.adv w.length).addError (c1.pos + w.length)).pos) := by
        simp only [P.orErr, P.hcolon, P.ofBool, e]
      rw [e'] at e2
      simp only [Out.ok.injEq, Prod.mk.injEq] at e2
      cases e2.1
  obtain ⟨d, y, hd1, hd2, hd3⟩ := hnext
  have hnl := List.length_pos_iff.mpr hn1
  have hdlf : d ≠ 0x0a := by rcases hd2 with rfl | rfl | rfl <;> decide
  -- a CR in the name is not followed by LF
  have hpair : ∀ i : Nat, n[i]? = some 0x0d → c.rest[i + 1]? ≠ some 0x0a := by
    intro i hi hi2
    have hlt : i < n.length := (List.getElem?_eq_some_iff.1 hi).1
    by_cases h : i + 1 < n.length
    · rw [hn2, List.getElem?_append_left h] at hi2
      have hm : (0x0a : UInt8) ∈ n := List.mem_of_getElem? hi2
      rcases hn4 _ hm with h | h
      · revert h; decide
      · revert h; decide
    · have : i + 1 = n.length := by omega
      rw [hn2, this, List.getElem?_append_right (Nat.le_refl _), Nat.sub_self, hd1] at hi2
      simp at hi2
      exact hdlf hi2
  have hline1 : Line c c1 := by
    refine line_of_text n c1.rest hn2 hn3 (fun i hi hs => ?_)
    rw [← hn2] at hs
    obtain ⟨z, hz, _⟩ := hs
    have e1 : c.rest[i]? = some 0x0d := by rw [getElem?_eq_drop, hz]; rfl
    have e2 : c.rest[i + 1]? = some 0x0a := by
      have : c.rest.drop (i + 1) = (c.rest.drop i).drop 1 := by rw [List.drop_drop]
      rw [getElem?_eq_drop, this, hz]; rfl
    refine hpair i ?_ e2
    rw [hn2, List.getElem?_append_left hi] at e1; exact e1
  refine ⟨hline1.trans s1.src (hq2.2 (PreL.zero _)), by omega, ?_, ?_⟩
  · intro h
    apply hn6
    rw [cur_eq_head, hn2] at h
    obtain ⟨b, n', rfl⟩ := List.exists_cons_of_ne_nil hn1
    exact h
  · intro hns
    refine ⟨n, hn5 (fun b hb hcr => ?_)⟩
    subst hcr
    obtain ⟨i, hi, hi2⟩ := List.getElem_of_mem hb
    have h1 : n[i]? = some 0x0d := by rw [List.getElem?_eq_getElem hi, hi2]
    apply hpair i h1
    have h2 : c.src[c.pos + i]? = some 0x0d := by
      have : c.rest[i]? = some 0x0d := by rw [hn2, List.getElem?_append_left hi]; exact h1
      unfold Ctx.rest at this; rw [List.getElem?_drop] at this; exact this
    have hon : OnLine c (c.pos + i) := ⟨by omega, fun e he hst => by have := hline1 e he hst; omega⟩
    have := hns _ hon
    unfold Ctx.rest; rw [List.getElem?_drop]
    false_or_by_contra
    rename_i hx
    exact this (Or.inl ⟨h2, hx⟩)

/-! ## Header values kept as text -/

theorem lineEnd_lf {c : Ctx} {e : Nat} (he : c.pos ≤ e) (h : StartsEol (c.src.drop e)) : Unfolded c.rest (e + 1 - c.pos) := by
  obtain ⟨z, hz, hn⟩ := h
  have hd : ∀ i, c.rest[e + i - c.pos]? = (c.src.drop e)[i]? := by
    intro i; unfold Ctx.rest; rw [List.getElem?_drop, List.getElem?_drop]; congr 1; omega
  have e1 := hd 1
  have e2 := hd 2
  rw [hz] at e1 e2
  unfold Unfolded
  rw [show e + 1 - c.pos + 1 = e + 2 - c.pos by omega, e1, e2]
  refine ⟨rfl, ?_, ?_⟩ <;> cases z <;> simp_all

theorem findCrlf_safe {N H : Prop} (c : Ctx) (hc : Inv c) :
    GSafe N H false 0 0 (fun b c' => Line2 c c' ∧ c.pos + 1 ≤ c'.pos ∧ c.pos ≤ b ∧ b < c'.pos ∧ 0x0a ∈ c.rest ∧ c.src[c'.pos - 1]? = some 0x0a) P.findCrlf c := by
  obtain ⟨h1, h2⟩ := findCrlf_spec c
  have hl := rest_length c hc.pos
  by_cases h : ∀ i, ¬ Unfolded c.rest i
  · exact .of_none (h1 h) (Step.setPos hc hc.pos (Nat.le_refl _)) (by simp)
  · cases hlf : lfEnd c.rest with
    | none => exact absurd ((lfEnd_none _).1 hlf) h
    | some k =>
      cases k with
      | zero => exact absurd hlf (lfEnd_pos _)
      | succ k =>
        obtain ⟨g1, g2⟩ := (lfEnd_spec _ _).1 hlf
        have hk : k < c.rest.length := (List.getElem?_eq_some_iff.1 g1.1).1
        have hlfk : c.src[c.pos + k]? = some 0x0a := by have := g1.1; unfold Ctx.rest at this; rw [List.getElem?_drop] at this; exact this
        refine .of_ok (h2 k g1 g2) (Step.setPos hc (by omega) (by omega)) ⟨?_, by simp only [Ctx.setPos]; omega, by omega, ?_, List.mem_of_getElem? g1.1, ?_⟩
          (by simp only [Ctx.setPos]; omega)
        · intro e he hs
          have hu := lineEnd_lf he hs
          have hle : k ≤ e + 1 - c.pos := by
            false_or_by_contra
            exact g2 _ (by omega) hu
          simp only [Ctx.setPos]
          by_cases hlt : c.pos + k + 1 ≤ e
          · exact Or.inl hlt
          · by_cases heq : c.pos + k = e
            · exfalso
              have := startsEol_head hs
              rw [← heq, List.head?_drop, hlfk] at this
              cases this
            · right; omega
        · simp only [Ctx.setPos]; split <;> omega
        · simp only [Ctx.setPos]; rw [show c.pos + k + 1 - 1 = c.pos + k by omega]; exact hlfk

theorem findCrlf_total (c : Ctx) : (∃ r, P.findCrlf c = .ok r) := by
  unfold P.findCrlf
  cases lfEnd c.rest with
  | none => exact ⟨_, rfl⟩
  | some k => exact ⟨_, rfl⟩

/-- every LF is part of a fold -/
def Folds (v : Bytes) : Prop := ∀ i : Nat, v[i]? = some 0x0a → v[i + 1]? = some 0x20 ∨ v[i + 1]? = some 0x09

theorem findCrlf_folds (c c1 : Ctx) (b : Nat) (h : P.findCrlf c = .ok (some b, c1)) : Folds (c.rest.take (b - c.pos)) := by
  obtain ⟨h1, h2⟩ := findCrlf_spec c
  cases hlf : lfEnd c.rest with
  | none => rw [h1 ((lfEnd_none _).1 hlf)] at h; cases h
  | some k =>
    cases k with
    | zero => exact absurd hlf (lfEnd_pos _)
    | succ k =>
      obtain ⟨g1, g2⟩ := (lfEnd_spec _ _).1 hlf
      rw [h2 k g1 g2] at h
      simp only [Out.ok.injEq, Prod.mk.injEq, Option.some.injEq] at h
      have hm : ∃ m, b - c.pos = m ∧ m ≤ k ∧ (c.rest[m]? = some 0x0d ∨ c.rest[m]? = some 0x0a) := by
        refine ⟨_, rfl, ?_⟩
        rw [← h.1]
        split
        · rename_i hc
          refine ⟨by omega, Or.inl ?_⟩
          rw [show c.pos + (k - 1) - c.pos = k - 1 by omega]; exact hc.2
        · refine ⟨by omega, Or.inr ?_⟩
          rw [show c.pos + k - c.pos = k by omega]; exact g1.1
      obtain ⟨m, e, hk, hend⟩ := hm
      rw [e]
      intro i hi
      rw [List.getElem?_take] at hi
      split at hi
      · rename_i hlt
        have hnu := g2 i (by omega)
        have hw : c.rest[i + 1]? = some 0x20 ∨ c.rest[i + 1]? = some 0x09 := by
          false_or_by_contra
          rename_i hx
          exact hnu ⟨hi, fun h => hx (Or.inl h), fun h => hx (Or.inr h)⟩
        have hlt2 : i + 1 < m := by
          false_or_by_contra
          have : i + 1 = m := by omega
          rw [this] at hw
          rcases hend with h | h <;> rw [h] at hw <;> simp at hw
        rw [List.getElem?_take, if_pos hlt2]; exact hw
      · cases hi

theorem rawValue_safe {N H : Prop} (c : Ctx) (hc : Inv c) :
    GSafe N H false 1 2 (fun v c' => (Line2 c c' ∧ c.pos + 1 ≤ c'.pos ∧ 0x0a ∈ c.rest) ∧ Folds v) parseRawHeaderValue c := by
  have hf := findCrlf_safe (N := N) (H := H) c hc
  have e0 : parseRawHeaderValue c = (P.findCrlf >>= fun b => P.allocStr ((c.src.drop c.pos).take (b - c.pos))) c := rfl
  refine GSafe.congr e0 ?_
  -- the memory is paid by the bytes of the line
  rcases hpc : P.findCrlf c with ⟨_ | b, c1⟩ | _ | _
  · exact .of_none (P.bind_none hpc) (hf.step _ _ hpc) (by simp) (by have := hf.nmem _ hpc; omega)
  · obtain ⟨⟨g1, g2, g3, g4, g5, _⟩, hu⟩ := hf.some _ _ hpc
    have s1 := hf.step _ _ hpc
    have hlen : ((c.src.drop c.pos).take (b - c.pos)).length ≤ b - c.pos := by simp; omega
    have hbind : (P.findCrlf >>= fun b => P.allocStr ((c.src.drop c.pos).take (b - c.pos))) c = P.allocStr ((c.src.drop c.pos).take (b - c.pos)) c1 := P.bind_ok hpc
    have hfold : Folds ((c.src.drop c.pos).take (b - c.pos)) := findCrlf_folds c c1 b hpc
    generalize (c.src.drop c.pos).take (b - c.pos) = v at *
    by_cases h : c1.used + (v.length + 2) > c1.cap
    · exact .of_none (c' := c1) (by rw [hbind]; simp [P.allocStr, Sip.allocStr, h]) s1 (by simp)
    · refine .of_ok (v := v) (c' := { c1 with used := c1.used + (v.length + 2) }) (by rw [hbind]; simp [P.allocStr, Sip.allocStr, h]) ?_ ⟨⟨g1, g2, g5⟩, hfold⟩ (by simp only; omega)
      exact s1.trans ⟨rfl, rfl, rfl, Nat.le_refl _, s1.inv.pos, by simp, by simp only; omega, ErrsIn.refl⟩
  · exact absurd hpc (by obtain ⟨r, hr⟩ := findCrlf_total c; rw [hr]; intro h; cases h)
  · exact absurd hpc (by obtain ⟨r, hr⟩ := findCrlf_total c; rw [hr]; intro h; cases h)

theorem rawHeader_safe {N H : Prop} (id : Nat) (name : Option Bytes) (c : Ctx) (hc : Inv c) :
    GSafe N H false 1 10 (fun h c' => (h.id = id ∧ h.name = name ∧ Folds h.value) ∧ Line2 c c' ∧ c.pos + 1 ≤ c'.pos ∧ 0x0a ∈ c.rest) (parseRawHeader id name) c := by
  unfold parseRawHeader
  have ha := GSafe.of_safe (N := N) (H := H) (SafeAt.alloc (q := 0) (m := 1) (n := 8) hc) (fun _ => Pre.zero _) (fun _ => PreH.zero _)
  refine GSafe.seq (B2 := 2) ha (fun _ c1 e1 hq s1 => ?_)
  have hcc : c1.src = c.src ∧ c1.pos = c.pos := by
    unfold P.alloc Ctx.alloc at e1
    split at e1 <;> simp only [Out.ok.injEq, Prod.mk.injEq] at e1
    · rename_i h; split at h
      · cases h
      · cases h; rw [← e1.2]; exact ⟨rfl, rfl⟩
    · cases e1.1
  refine GSafe.seq (B2 := 0) (rawValue_safe c1 s1.inv) (fun v c2 e2 hq2 s2 => ?_)
  obtain ⟨hq2, hfold⟩ := hq2
  refine GSafe.pure s2.inv ⟨⟨rfl, rfl, hfold⟩, ?_, by have := hq2.2.1; omega, ?_⟩
  · intro e he hs; exact hq2.1 e (by omega) (by rw [hcc.1]; exact hs)
  · have := hq2.2.2; unfold Ctx.rest at *; rw [hcc.1, hcc.2] at this; exact this

/-! ## Header lines with parsed values -/

theorem comma_safe {N H : Prop} (c : Ctx) (hc : Inv c) :
    GSafe N H true 1 0 (fun b c' => Line c c' ∧ (b = true → c.pos + 1 ≤ c'.pos)) P.comma c := by
  have hsp := swsMarkCanOmmit_spec c hc.pos 0x2c
  have st := sws_step c hc
  have hl := rest_length c.sws st.inv.pos
  have back : ∀ d : Ctx, Step c d → Step c (d.setPos c.pos) := fun d hd =>
    ⟨hd.src, hd.cap, hd.flags, Nat.le_refl _, hc.pos, hd.used_le, hd.used_cap, hd.errs⟩
  match hr : c.sws.rest with
  | [] =>
    rw [hr] at hsp; simp only at hsp
    refine .of_ok (v := false) (c' := (c.sws.addError c.sws.pos).setPos c.pos) (by unfold P.comma; rw [hsp]) (back _ (st.addError _)) ⟨Line.refl c, by simp⟩ ?_
    simp only [Ctx.setPos, Ctx.addError, sws_used]; omega
  | x :: y =>
    rw [hr] at hsp; simp only at hsp
    by_cases hx : x = 0x2c
    · rw [if_pos hx] at hsp
      subst hx
      rw [hr] at hl; simp only [List.length_cons] at hl
      have st1 : Step c.sws (c.sws.adv 1) := Step.adv st.inv (by omega)
      have hrest : (c.sws.adv 1).rest = y := by
        have := Ctx.rest_eat c.sws [0x2c] y 0 (by rw [hr]; rfl)
        simpa [Ctx.adv, Ctx.eat] using this
      have e2 := sws_eq _ st1.inv.pos
      rw [hrest] at e2
      have e3 : c.sws.adv (1 + swsLen y) = (c.sws.adv 1).sws := by rw [e2]; simp [Ctx.adv]; omega
      rw [e3] at hsp
      have st2 := sws_step _ st1.inv
      refine .of_ok (v := true) (c' := (c.sws.adv 1).sws) (by unfold P.comma; rw [hsp]) ((st.trans st1).trans st2) ⟨?_, fun _ => ?_⟩ ?_
      · have l1 := line_sws c hc
        have l2 : Line c.sws (c.sws.adv 1) := line_of_noCR [0x2c] y (by rw [hr]; rfl) (by simp [Ctx.adv]) (by simp)
        exact (l1.trans st.src l2).trans (st.trans st1).src (line_sws _ st1.inv)
      · have := st2.pos_le; have := st.pos_le; simp only [Ctx.adv] at *; omega
      · rw [sws_used]; simp only [Ctx.adv, sws_used]; omega
    · rw [if_neg hx] at hsp
      refine .of_ok (v := false) (c' := c.sws.setPos c.pos) (by unfold P.comma; rw [hsp]) (back _ st) ⟨Line.refl c, by simp⟩ ?_
      simp only [Ctx.setPos, sws_used]; omega

/-- a parser that works from here on works after a step inside the line -/
theorem Line2.from {a b c : Ctx} (hs : b.src = a.src) (h1 : Line a b) (h2 : Line2 b c) : Line2 a c := h1.trans2 hs h2

/-- the values of a line -/
def ValuesPost (net : Net) (k : HKind) (c : Ctx) (vs : List HVal) (c' : Ctx) : Prop :=
  vs ≠ [] ∧ (∀ v ∈ vs, k.Parsed net c.flags v) ∧ (BrackOn c → Line2 c c')

theorem skip2_safe {N H : Prop} (c : Ctx) (hc : Inv c) (h : isOnlyCRLF c.src c.pos = true) :
    GSafe N H true 0 0 (fun _ c' => Line2 c c') (P.skip 2) c := by
  have hs : StartsEol (c.src.drop c.pos) := (isOnlyCRLF_spec c.src c.pos).1 h
  obtain ⟨z, hz, _⟩ := hs
  have hl := rest_length c hc.pos
  unfold Ctx.rest at hl; rw [hz] at hl; simp at hl
  refine .of_ok (v := ()) (c' := c.adv 2) rfl (Step.adv hc (by omega)) ?_ (by simp only [Ctx.adv]; omega)
  intro e he hs
  show c.pos + 2 ≤ e ∨ c.pos + 2 = e + 2
  by_cases h0 : e = c.pos
  · right; omega
  · by_cases h1 : e = c.pos + 1
    · exfalso
      have hh := startsEol_head hs
      rw [h1, ← List.drop_drop, hz] at hh
      simp at hh
    · left; omega

theorem values_safe (net : Net) (hnet : net.Ok) (k : HKind) (c : Ctx) (hc : Inv c) :
    GSafe (Pre 2 c) (PreH 2 c) false 140 232 (ValuesPost net k c) (parseHeaderValues net k) c := by
  unfold parseHeaderValues
  have hv := GSafe.of_safe (N := Pre 2 c) (H := PreH 2 c) (header_alloc_safe net hnet k c hc) id id
  refine GSafe.seq (B2 := 116) hv (fun v c1 e1 hq s1 => ?_)
  have hqL : BrackOn c → Line c c1 := fun h => hq.2 (fun _ => h)
  by_cases hm : k.multi = true
  · rw [if_pos hm]
    refine (GSafe.forLoop (B' := 116) (d := 1) (m := 24) (B := 116)
      (I := fun s c2 => c.pos ≤ c2.pos ∧ (∀ x ∈ s.1, k.Parsed net c.flags x) ∧ k.Parsed net c.flags s.2 ∧ (BrackOn c → Line c c2))
      (Q := ValuesPost net k c) ?_ (by omega) (by omega) ⟨s1.pos_le, by simp, hq.1, hqL⟩ s1.inv).mono id id id (by omega) (by omega) (fun _ _ _ h => h)
    rintro ⟨acc, v⟩ c2 ⟨i0, i1, i2, i3⟩ hc2 hfl hsrc
    have hfl : c2.flags = c.flags := hfl.trans s1.flags
    have hsrc : c2.src = c.src := hsrc.trans s1.src
    have hall : ∀ x ∈ acc ++ [v], k.Parsed net c.flags x := by
      intro x hx
      rcases List.mem_append.1 hx with h | h
      · exact i1 x h
      · rw [List.mem_singleton] at h; subst h; exact i2
    unfold valuesBody
    refine GSafe.get ?_
    by_cases h1 : c2.pos ≥ c2.src.length
    · rw [if_pos h1]
      exact GSafe.pure hc2 ⟨by simp, hall, fun h => (i3 h).line2⟩
    rw [if_neg h1]
    by_cases h2 : isOnlyCRLF c2.src c2.pos = true
    · rw [if_pos h2]
      refine GSafe.seq (B2 := 0) (skip2_safe c2 hc2 h2) (fun _ c3 e3 hq3 s3 => ?_)
      exact GSafe.pure s3.inv ⟨by simp, hall, fun h => (i3 h).trans2 hsrc hq3⟩
    rw [if_neg h2]
    refine GSafe.seq (B2 := 116) (comma_safe c2 hc2) (fun b c3 e3 hq3 s3 => ?_)
    cases b with
    | true =>
      rw [if_pos rfl]
      have hsrc3 : c3.src = c.src := s3.src.trans hsrc
      have l3 : BrackOn c → Line c c3 := fun h => (i3 h).trans hsrc hq3.1
      have hp3 : c.pos ≤ c3.pos := Nat.le_trans i0 s3.pos_le
      have hv := GSafe.of_safe (N := Pre 2 c) (H := PreH 2 c) (header_alloc_safe net hnet k c3 s3.inv)
        (fun h => h.step hsrc3 hp3 (l3 (h.1 (by omega)).2)) (fun h => h.step hsrc3 hp3 (fun h => l3 (h (by omega))))
      refine GSafe.seq (B2 := 0) hv (fun v' c4 e4 hq4 s4 => ?_)
      refine GSafe.pure s4.inv ⟨⟨Nat.le_trans hp3 s4.pos_le, hall, ?_, fun h => ?_⟩, ?_⟩
      · have := hq4.1; rw [s3.flags, hfl] at this; exact this
      · exact (l3 h).trans hsrc3 (hq4.2 (fun _ => h.step hsrc3 hp3 (l3 h)))
      · have := hq3.2 rfl; have := s4.pos_le; omega
    | false =>
      rw [if_neg (by decide)]
      have hsrc3 : c3.src = c.src := s3.src.trans hsrc
      have l3 : BrackOn c → Line c c3 := fun h => (i3 h).trans hsrc hq3.1
      refine GSafe.seq (B2 := 0) (gsafe_crlf (m := 0) (B := 0) c3 s3.inv) (fun _ c4 e4 hq4 s4 => ?_)
      exact GSafe.pure s4.inv ⟨by simp, hall, fun h => (l3 h).trans2 hsrc3 hq4.1⟩
  · rw [if_neg hm]
    refine GSafe.seq (B2 := 0) (gsafe_crlf (m := 0) (B := 0) c1 s1.inv) (fun _ c2 e2 hq2 s2 => ?_)
    refine GSafe.pure s2.inv ⟨by simp, ?_, fun h => (hqL h).trans2 s1.src hq2.1⟩
    intro x hx; rw [List.mem_singleton] at hx; subst hx; exact hq.1

/-! ## Lists of header lines -/

/-- at `e` the headers end: an end of line, and behind it the end of the input, an empty line, or a last line without end that starts with a dash (the
close delimiter of a multipart body) -/
def HeadEnd (s : Bytes) (e : Nat) : Prop :=
  ∃ y, s.drop e = [0x0d, 0x0a] ++ y ∧ (y = [] ∨ (∃ z, y = 0x0d :: 0x0a :: z) ∨ (y.head? = some 0x2d ∧ 0x0a ∉ y))

theorem HeadEnd.eol {s : Bytes} {e : Nat} (h : HeadEnd s e) : StartsEol (s.drop e) := by
  obtain ⟨y, hy, h⟩ := h
  refine ⟨y, hy, fun b hb => ?_⟩
  rcases h with rfl | ⟨z, rfl⟩ | ⟨h, _⟩
  · cases hb
  · cases hb; decide
  · rw [h] at hb; cases hb; decide

/-- a place where the headers end is still to come or just passed, `T` holds of it, and up to there `A` holds nowhere -/
def AheadT (T A : Nat → Prop) (c : Ctx) : Prop := ∃ e, HeadEnd c.src e ∧ T e ∧ (c.pos ≤ e ∨ c.pos = e + 2) ∧ ∀ i, c.pos ≤ i → i < e → ¬ A i

/-- the same without a condition on the place -/
def Ahead (A : Nat → Prop) (c : Ctx) : Prop := AheadT (fun _ => True) A c

/-- up to the place `e` no `phone-context` stands without value -/
def TelUpTo (s : Bytes) (e : Nat) : Prop := ∀ i, i ≤ e → ¬ TelBare s i

/-- what excludes a panic of the header list parser: a place where the headers end is still to come or just passed, in the headers no bracket is closed behind the
end of its line, and up to there is no `phone-context` without value -/
def NH (c : Ctx) : Prop := AheadT (TelUpTo c.src) (OpenAt c.src) c

/-- what excludes an endless loop of the header list parser: behind the position no quoted string starts that loops for ever; or a place where the headers end, and in
the headers neither such a quoted string starts nor is a bracket closed behind the end of its line -/
def HL (c : Ctx) : Prop := NoLoop c ∨ Ahead (fun i => OpenAt c.src i ∨ QLoop c.src i) c

/-- what makes the header list parser return headers as expected: no stray CR or LF in the input; or a place where the headers end, and in the headers neither a stray
CR or LF nor a bracket closed behind the end of its line -/
def HH (c : Ctx) : Prop := NoStray c.src ∨ Ahead (fun i => OpenAt c.src i ∨ StrayAt c.src i) c

theorem Ahead.on {A : Nat → Prop} {c : Ctx} {e : Nat} (he : HeadEnd c.src e) (hp : c.pos ≤ e) (h : ∀ i, c.pos ≤ i → i < e → ¬ A i) : ∀ i, OnLine c i → ¬ A i :=
  fun i hi => h i hi.1 (hi.2 e hp he.eol)

/-- what the header list parser returns -/
def HItem.Ok (net : Net) (fl : Flags) (need : HKind → Bool) : HItem → Prop
  | .parsed k v => need k = true ∧ k.Parsed net fl v
  | .raw h => (∃ n, NameOf h.id h.name n) ∧ (∀ k, HKind.ofIndex h.id = some k → need k = false) ∧ Folds h.value

theorem headerLine_safe {N H : Prop} (net : Net) (hnet : net.Ok) (need : HKind → Bool) (r : Option Bytes × Nat) (c : Ctx) (hc : Inv c)
    (hN : N → HKind.ofIndex r.2 ≠ none → Pre 2 c) (hH : H → HKind.ofIndex r.2 ≠ none → PreH 2 c) :
    GSafe N H false 140 232
      (fun its c' => ((∃ n, NameOf r.2 r.1 n) → ∀ it ∈ its, it.Ok net c.flags need) ∧ (BrackOn c → Line2 c c') ∧ (r.2 = 0 → 0x0a ∈ c.rest))
      (parseHeaderLine net need r) c := by
  obtain ⟨n, i⟩ := r
  have hraw : (∀ k, HKind.ofIndex i = some k → need k = false) → GSafe N H false 140 232
      (fun its c' => ((∃ m, NameOf i n m) → ∀ it ∈ its, it.Ok net c.flags need) ∧ (BrackOn c → Line2 c c') ∧ (i = 0 → 0x0a ∈ c.rest))
      (parseRawHeader i n >>= fun h => (pure [.raw h] : P (List HItem))) c := by
    intro hk
    refine GSafe.seq (B2 := 0) (rawHeader_safe i n c hc) (fun h c1 e1 hq s1 => ?_)
    refine GSafe.pure s1.inv ⟨fun hn it hit => ?_, fun _ => hq.2.1, fun _ => hq.2.2.2⟩
    rw [List.mem_singleton] at hit; subst hit
    obtain ⟨⟨rfl, rfl, hfold⟩, _⟩ := hq
    exact ⟨hn, hk, hfold⟩
  have e0 : parseHeaderLine net need (n, i) = parseHeaderLine net need (n, i) := rfl
  conv at e0 => rhs; unfold parseHeaderLine
  rw [e0]
  cases hk : HKind.ofIndex i with
  | none => simp only [hk]; exact hraw (fun k h => by rw [hk] at h; cases h)
  | some k =>
    simp only [hk]
    by_cases hnd : need k = true
    · rw [if_pos hnd]
      refine GSafe.seq (B2 := 0) ((values_safe net hnet k c hc).mono (fun h => hN h (by rw [hk]; simp)) (fun h => hH h (by rw [hk]; simp)) id (Nat.le_refl _) (Nat.le_refl _) (fun _ _ _ h => h))
        (fun vs c1 e1 hq s1 => ?_)
      refine GSafe.pure s1.inv ⟨fun _ it hit => ?_, hq.2.2, fun h0 => ?_⟩
      · obtain ⟨v, hv, rfl⟩ := List.mem_map.1 hit
        exact ⟨hnd, hq.2.1 v hv⟩
      · subst h0; exact absurd hk (by rw [show HKind.ofIndex 0 = none by decide]; simp)
    · rw [if_neg hnd]
      exact hraw (fun k' h => by rw [hk] at h; cases h; simpa using hnd)

/-- where the header list parser stops: the end of the input, or behind an empty line -/
def AfterHeaders (c' : Ctx) : Prop := c'.pos = c'.src.length ∨ ∃ p, c'.pos = p + 2 ∧ isCRLF c'.src p = true

def HeadersPost (net : Net) (need : HKind → Bool) (c : Ctx) (its : List HItem) (c' : Ctx) : Prop :=
  (HH c → ∀ it ∈ its, it.Ok net c.flags need) ∧ AfterHeaders c'

theorem headersBody_safe (net : Net) (hnet : net.Ok) (need : HKind → Bool) (acc : List HItem) (c : Ctx) (hc : Inv c) (G : Prop) (hG : G → HH c) (L : Prop) (hL : L → HL c)
    (hacc : G → ∀ it ∈ acc, it.Ok net c.flags need) :
    GSafe (NH c) L false 140 234
      (fun r c' => match r with
        | .inl its => ((G → ∀ it ∈ its, it.Ok net c.flags need) ∧ (NH c → NH c') ∧ (G → HH c') ∧ (L → HL c')) ∧ c.pos + 2 ≤ c'.pos
        | .inr its => (G → ∀ it ∈ its, it.Ok net c.flags need) ∧ AfterHeaders c')
      (headersBody net need acc) c := by
  unfold headersBody
  refine GSafe.get ?_
  by_cases h1 : c.pos ≥ c.src.length
  · rw [if_pos h1]; exact GSafe.pure hc ⟨hacc, Or.inl (by have := hc.pos; omega)⟩
  rw [if_neg h1]
  by_cases h2 : isCRLF c.src c.pos = true
  · rw [if_pos h2]
    have hlen : c.pos + 2 ≤ c.src.length := by
      obtain ⟨y, hy⟩ := (isCRLF_iff c).1 h2
      have := rest_length c hc.pos
      rw [hy] at this; simp at this; omega
    refine GSafe.seq (B2 := 0) (Q := fun _ c' => c' = c.adv 2) (.of_ok (m := 0) (B := 0) (l := false) (v := ()) (c' := c.adv 2) rfl (Step.adv hc hlen) rfl (by simp only [Ctx.adv]; omega)) (fun _ c1 e1 hq s1 => ?_)
    subst hq
    exact GSafe.pure s1.inv ⟨hacc, Or.inr ⟨c.pos, rfl, h2⟩⟩
  rw [if_neg h2]
  -- where the end of the headers is
  have hwhere : ∀ T A : Nat → Prop, AheadT T A c → ∃ e, HeadEnd c.src e ∧ T e ∧ (c.pos ≤ e ∨ (c.pos = e + 2 ∧ c.cur? = some 0x2d ∧ 0x0a ∉ c.rest)) ∧
      ∀ i, c.pos ≤ i → i < e → ¬ A i := by
    rintro T A ⟨e, he, hT, hp | hp, hA⟩
    · exact ⟨e, he, hT, Or.inl hp, hA⟩
    · refine ⟨e, he, hT, Or.inr ⟨hp, ?_⟩, hA⟩
      obtain ⟨y, hy, h⟩ := he
      have hrest : c.rest = y := by
        unfold Ctx.rest; rw [hp, ← List.drop_drop, hy]; rfl
      have hl := rest_length c hc.pos
      rcases h with rfl | ⟨z, rfl⟩ | h
      · rw [hrest] at hl; simp at hl; omega
      · exact absurd ((isCRLF_iff c).2 ⟨z, hrest⟩) h2
      · rw [cur_eq_head, hrest]; exact h
  have hname : NH c → NameOk c := by
    intro h
    obtain ⟨e, he, _, hp | hp, _⟩ := hwhere _ _ h
    · left
      have := lineEnd_lf hp he.eol
      exact ⟨0x0a, List.mem_of_getElem? this.1, by decide, by decide⟩
    · exact Or.inr hp.2.1
  refine GSafe.seq (B2 := 232) (GSafe.orErr (l := true) (msgHeaderName_safe c hc hname)) (fun r c1 e1 hq s1 => ?_)
  obtain ⟨q1, q2, q3, q4⟩ := hq
  have hline := headerLine_safe (N := NH c) (H := L) net hnet need r c1 s1.inv (fun h hk => by
      obtain ⟨e, he, hT, hp | hp, hA⟩ := hwhere _ _ h
      · have : Pre 2 c := ⟨fun _ => ⟨⟨e, hp, he.eol⟩, Ahead.on he hp hA⟩, fun _ i hi => hT i (hi e hp he.eol)⟩
        exact this.step s1.src s1.pos_le q1
      · exfalso; apply hk; rw [q3 hp.2.1]; decide)
    (fun g hk => by
      rcases hL g with h | h
      · exact NoLoop.preH (h.step s1.src s1.pos_le)
      obtain ⟨e, he, _, hp | hp, hA⟩ := hwhere _ _ h
      · have : PreH 2 c := fun _ => Or.inr ⟨fun i hi hs => Ahead.on he hp hA i hi (Or.inr hs), fun i hi hs => Ahead.on he hp hA i hi (Or.inl hs)⟩
        exact this.step s1.src s1.pos_le (fun _ => q1)
      · exfalso; apply hk; rw [q3 hp.2.1]; decide)
  rw [s1.flags] at hline
  refine GSafe.seq (B2 := 0) hline (fun its c2 e2 hq2 s2 => ?_)
  obtain ⟨p1, p2, p3⟩ := hq2
  have hno : c.cur? = some 0x2d → 0x0a ∉ c.rest → False := by
    intro hd hn
    have hlf := p3 (q3 hd)
    apply hn
    have : c1.rest = c.rest.drop (c1.pos - c.pos) := by
      unfold Ctx.rest; rw [s1.src, List.drop_drop]; congr 1; have := s1.pos_le; omega
    rw [this] at hlf
    exact List.mem_of_mem_drop hlf
  have hkeep : ∀ T A : Nat → Prop, (∀ i, OpenAt c.src i → A i) → AheadT T A c → AheadT T A c2 := by
    intro T A hOA h
    obtain ⟨e, he, hT, hp | hp, hA⟩ := hwhere T A h
    · have hb : BrackOn c := fun i hi ho => Ahead.on he hp hA i hi (hOA i ho)
      exact ⟨e, by rw [s2.src, s1.src]; exact he, hT, (q1.trans2 s1.src (p2 (hb.step s1.src s1.pos_le q1))) e hp he.eol,
        fun i hi => hA i (Nat.le_trans (Nat.le_trans s1.pos_le s2.pos_le) hi)⟩
    · exact (hno hp.2.1 hp.2.2).elim
  have hsrc2 : c2.src = c.src := s2.src.trans s1.src
  refine GSafe.pure s2.inv ⟨⟨fun g it hit => ?_, fun h => by unfold NH at *; rw [hsrc2]; exact hkeep _ _ (fun _ h => h) h, fun g => ?_, fun g => ?_⟩,
    by have := s2.pos_le; omega⟩
  · rcases List.mem_append.1 hit with h | h
    · exact hacc g it h
    · refine p1 (q4 ?_) it h
      rcases hG g with h | h
      · exact h.on
      · obtain ⟨e, he, _, hp | hp, hA⟩ := hwhere _ _ h
        · exact fun i hi hs => Ahead.on he hp hA i hi (Or.inr hs)
        · exact (hno hp.2.1 hp.2.2).elim
  · rcases hG g with h | h
    · exact Or.inl (by rw [hsrc2]; exact h)
    · right; rw [hsrc2]; exact hkeep _ _ (fun _ h => Or.inl h) h
  · rcases hL g with h | h
    · exact Or.inl (h.step hsrc2 (Nat.le_trans s1.pos_le s2.pos_le))
    · right; rw [hsrc2]; exact hkeep _ _ (fun _ h => Or.inl h) h

theorem HH.ends {c : Ctx} (h : HH c) : HL c := by
  rcases h with h | ⟨e, he, _, hp | hp, hA⟩
  · exact Or.inl h.noLoop
  · refine Or.inr ⟨e, he, trivial, Or.inl hp, fun i h1 h2 h3 => ?_⟩
    rcases h3 with h3 | h3
    · exact hA i h1 h2 (Or.inl h3)
    · obtain ⟨j, g1, g2, g3⟩ := h3.stray
      refine hA j (by omega) (Nat.lt_of_not_le fun hle => g3 e h2 hle he.eol) (Or.inr g2)
  · exact Or.inr ⟨e, he, trivial, Or.inr hp, fun i h1 h2 => by omega⟩

/-- **C28 - C31 for header lists** For every input and every choice of headers to parse: the list parser moves forward inside the input, does not panic when the end of the headers is still
to come (and the conditions of the values hold), terminates when in the headers no quoted string starts that loops for ever (and no
bracket is closed behind its line), uses memory in proportion to the text, stops at the end of the input or
behind an empty line, and returns parsed headers only for the kinds asked for and raw headers for all others. -/
theorem headers_safe (net : Net) (hnet : net.Ok) (need : HKind → Bool) (c : Ctx) (hc : Inv c) :
    GSafe (NH c) (HL c) false 257 234 (HeadersPost net need c) (parseHeaders net need) c := by
  unfold parseHeaders
  refine GSafe.forLoop (B' := 117) (d := 2) (m := 140) (B := 234)
    (I := fun s c2 => (HH c → ∀ it ∈ s, it.Ok net c.flags need) ∧ (NH c → NH c2) ∧ (HH c → HH c2) ∧ (HL c → HL c2)) ?_ (by omega) (by omega) ⟨by simp, id, id, id⟩ hc
  rintro acc c2 ⟨i1, i2, i3, i4⟩ hc2 hfl hsrc
  have h := headersBody_safe net hnet need acc c2 hc2 (HH c) i3 (HL c) i4 (by rw [hfl]; exact i1)
  unfold HeadersPost at *
  rw [hfl] at h
  refine h.mono i2 id id (Nat.le_refl _) (Nat.le_refl _) ?_
  rintro (its | its) c' _ hq
  · exact ⟨⟨hq.1.1, fun h => hq.1.2.1 (i2 h), hq.1.2.2⟩, hq.2⟩
  · exact hq

end Sip
