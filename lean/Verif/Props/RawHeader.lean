import Verif.Props.Method
import Verif.Lemmas.GSafe
import Verif.Model.Message
/-!
# C25, C26: header names in messages, raw header values, lists of raw headers

Specification: `Unfolded t i` (a line end that is not a fold), `RawLine h t` (the text `t` is a line of the header `h`).
-/
namespace Sip

/-! ## Where a header value ends -/

/-- at offset `i` stands a LF that is not followed by SP or HTAB -/
def Unfolded (t : Bytes) (i : Nat) : Prop := t[i]? = some 0x0a ∧ t[i + 1]? ≠ some 0x20 ∧ t[i + 1]? ≠ some 0x09

theorem wspChar_iff (b : UInt8) : isWspChar b = true ↔ b = 0x20 ∨ b = 0x09 := by revert b; decide +kernel

theorem unfolded_cons (b : UInt8) (t : Bytes) (i : Nat) : Unfolded (b :: t) (i + 1) ↔ Unfolded t i := by
  unfold Unfolded; simp

theorem unfolded_zero (b : UInt8) (t : Bytes) : Unfolded (b :: t) 0 ↔ (b = 0x0a ∧ (t.head?.map isWspChar) ≠ some true) := by
  unfold Unfolded
  cases t with
  | nil => simp
  | cons d t =>
    have := wspChar_iff d
    simp only [List.getElem?_cons_zero, Option.some.injEq, Nat.zero_add, List.getElem?_cons_succ, List.head?_cons, Option.map_some, ne_eq, this, not_or]

/-- **C26** the search for the end of a header value finds the first LF that is not followed by SP or HTAB, and only that -/
theorem lfEnd_spec (t : Bytes) (k : Nat) : lfEnd t = some (k + 1) ↔ Unfolded t k ∧ ∀ i, i < k → ¬ Unfolded t i := by
  induction t generalizing k with
  | nil => simp [lfEnd, Unfolded]
  | cons b t ih =>
    rw [lfEnd]
    have h0 := unfolded_zero b t
    by_cases h : b = 0x0a ∧ (t.head?.map isWspChar) ≠ some true
    · rw [if_pos h]
      cases k with
      | zero => simp only [Nat.zero_add, true_iff]; exact ⟨h0.2 h, fun i hi => by omega⟩
      | succ k =>
        simp only [Option.some.injEq, Nat.right_eq_add, Nat.add_eq_zero_iff, Nat.succ_ne_self, and_false, false_iff]
        rintro ⟨_, h2⟩; exact absurd (h0.2 h) (h2 0 (by omega))
    · rw [if_neg h]
      cases k with
      | zero =>
        constructor
        · intro e
          cases hl : lfEnd t with
          | none => rw [hl] at e; cases e
          | some j =>
            rw [hl] at e
            simp only [Option.map_some, Option.some.injEq, Nat.zero_add, Nat.add_eq_right] at e
            subst e
            exfalso
            revert hl
            cases t with
            | nil => simp [lfEnd]
            | cons d t => rw [lfEnd]; split <;> simp
        · rintro ⟨h1, _⟩; exact absurd (h0.1 h1) h
      | succ k =>
        rw [unfolded_cons]
        have : (lfEnd t).map (· + 1) = some (k + 1 + 1) ↔ lfEnd t = some (k + 1) := by
          cases lfEnd t <;> simp
        rw [this, ih k]
        constructor
        · rintro ⟨h1, h2⟩
          refine ⟨h1, fun i hi => ?_⟩
          cases i with
          | zero => exact fun hh => h (h0.1 hh)
          | succ i => rw [unfolded_cons]; exact h2 i (by omega)
        · rintro ⟨h1, h2⟩
          exact ⟨h1, fun i hi hh => h2 (i + 1) (by omega) ((unfolded_cons b t i).2 hh)⟩

theorem lfEnd_pos (t : Bytes) : lfEnd t ≠ some 0 := by
  cases t with
  | nil => simp [lfEnd]
  | cons d t => rw [lfEnd]; split <;> simp

/-- **C26** it fails exactly if there is no such LF -/
theorem lfEnd_none (t : Bytes) : lfEnd t = none ↔ ∀ i, ¬ Unfolded t i := by
  constructor
  · intro h i hi
    -- there is a first one
    have : ∃ k, Unfolded t k ∧ ∀ j, j < k → ¬ Unfolded t j := by
      induction i using Nat.strongRecOn with
      | ind i ih =>
        by_cases hh : ∃ j, j < i ∧ Unfolded t j
        · obtain ⟨j, hj, hu⟩ := hh; exact ih j hj hu
        · exact ⟨i, hi, fun j hj hu => hh ⟨j, hj, hu⟩⟩
    obtain ⟨k, hk1, hk2⟩ := this
    rw [(lfEnd_spec t k).2 ⟨hk1, hk2⟩] at h; cases h
  · intro h
    cases hl : lfEnd t with
    | none => rfl
    | some k =>
      cases k with
      | zero => exact absurd hl (lfEnd_pos t)
      | succ k => exact absurd ((lfEnd_spec t k).1 hl).1 (h k)

/-- **C26** `FindCrlfByRFC3261`, for every input: if the text from the position on has no unfolded LF it fails, at the end of the input; otherwise
the position is moved just behind the first one, and the value returned is the position of the CRLF - of the LF, if no CR stands before it or nothing
stands before that CR. -/
theorem findCrlf_spec (c : Ctx) :
    ((∀ i, ¬ Unfolded c.rest i) → P.findCrlf c = .ok (none, c.setPos c.src.length)) ∧
    (∀ k, Unfolded c.rest k → (∀ i, i < k → ¬ Unfolded c.rest i) →
      P.findCrlf c = .ok (some (c.pos + (if 2 ≤ k ∧ c.rest[k - 1]? = some 0x0d then k - 1 else k)), c.setPos (c.pos + k + 1))) := by
  constructor
  · intro h; unfold P.findCrlf; rw [(lfEnd_none c.rest).2 h]
  · intro k h1 h2
    unfold P.findCrlf; rw [(lfEnd_spec c.rest k).2 ⟨h1, h2⟩]
    simp only
    have e : c.src[c.pos + (k + 1) - 2]? = if 1 ≤ k then c.rest[k - 1]? else c.src[c.pos + (k + 1) - 2]? := by
      split
      · unfold Ctx.rest; rw [List.getElem?_drop]; congr 1; omega
      · rfl
    by_cases h : 2 ≤ k ∧ c.rest[k - 1]? = some 0x0d
    · rw [if_pos (by refine ⟨by omega, ?_⟩; rw [e, if_pos (by omega)]; exact h.2), if_pos h]
      have : c.pos + (k + 1) - 2 = c.pos + (k - 1) := by omega
      rw [this]; rfl
    · rw [if_neg (by
        intro hh; apply h
        refine ⟨by omega, ?_⟩
        have := hh.2
        rw [e, if_pos (by omega)] at this; exact this), if_neg h]
      rfl

/-- the text of a value kept as it is: not empty, and every LF in it is part of a fold -/
def RawVal (v : Bytes) : Prop := v ≠ [] ∧ ∀ i : Nat, v[i]? = some 0x0a → v[i + 1]? = some 0x20 ∨ v[i + 1]? = some 0x09

/-- the text does not start with SP or HTAB -/
def NoFold (y : Bytes) : Prop := ∀ b ∈ y.head?, isWspChar b = false

theorem rawVal_first {v y : Bytes} (h : RawVal v) (hy : NoFold y) :
    Unfolded (v ++ [0x0d, 0x0a] ++ y) (v.length + 1) ∧ ∀ i, i < v.length + 1 → ¬ Unfolded (v ++ [0x0d, 0x0a] ++ y) i := by
  constructor
  · have e1 : (v ++ [0x0d, 0x0a] ++ y)[v.length + 1]? = some 0x0a := by
      rw [List.append_assoc, List.getElem?_append_right (by omega)]; simp
    have e2 : (v ++ [0x0d, 0x0a] ++ y)[v.length + 1 + 1]? = y.head? := by
      rw [List.append_assoc, List.getElem?_append_right (by omega), show v.length + 1 + 1 - v.length = 2 by omega]; cases y <;> rfl
    refine ⟨e1, ?_, ?_⟩ <;> rw [e2] <;> intro hh <;> have := hy _ hh <;> revert this <;> decide
  · intro i hi hu
    by_cases hlt : i < v.length
    · have h1 : v[i]? = some 0x0a := by
        have := hu.1
        rwa [List.append_assoc, List.getElem?_append_left hlt] at this
      have hlt2 : i + 1 < v.length := by
        rcases h.2 i h1 with hh | hh <;> exact (List.getElem?_eq_some_iff.1 hh).1
      have e2 : (v ++ [0x0d, 0x0a] ++ y)[i + 1]? = v[i + 1]? := by rw [List.append_assoc, List.getElem?_append_left hlt2]
      rcases h.2 i h1 with hh | hh
      · exact hu.2.1 (by rw [e2]; exact hh)
      · exact hu.2.2 (by rw [e2]; exact hh)
    · have : i = v.length := by omega
      subst this
      have := hu.1
      rw [List.append_assoc, List.getElem?_append_right (by omega)] at this
      simp at this

/-- **C25, C26** a value that is kept as text is the text up to its line end, folds included -/
theorem rawValue_text {fl : Flags} (v : Bytes) (h : RawVal v) : Parses fl parseRawHeaderValue (v ++ [0x0d, 0x0a]) v (v.length + 2) NoFold := by
  intro c y h1 h2 h3 h4 h5
  obtain ⟨hu1, hu2⟩ := rawVal_first h h3
  have hv := List.length_pos_iff.mpr h.1
  have hf := (findCrlf_spec c).2 (v.length + 1) (by rw [h2]; exact hu1) (by rw [h2]; exact hu2)
  have hcr : c.rest[v.length + 1 - 1]? = some 0x0d := by
    rw [h2, List.append_assoc, List.getElem?_append_right (by omega)]; simp
  rw [if_pos ⟨by omega, hcr⟩] at hf
  unfold parseRawHeaderValue
  rw [P.get_bind, P.bind_ok hf]
  have e : (c.src.drop c.pos).take (c.pos + (v.length + 1 - 1) - c.pos) = v := by
    have : c.src.drop c.pos = v ++ ([0x0d, 0x0a] ++ y) := by have := h2; unfold Ctx.rest at this; rw [this]; simp
    rw [this, show c.pos + (v.length + 1 - 1) - c.pos = v.length by omega]; simp
  rw [e]
  have hfit : ¬ c.used + (v.length + 2) > c.cap := by omega
  simp only [P.allocStr, Sip.allocStr, Ctx.setPos, hfit, if_false]
  simp only [Ctx.eat, Out.ok.injEq, Prod.mk.injEq, Ctx.mk.injEq, true_and, and_true, List.length_append, List.length_cons, List.length_nil]
  omega

/-! ## Header names -/

theorem header_index_nopanic (src : Bytes) (pos : Nat) (h : ∃ b ∈ src.drop pos, b ≠ 0x0d ∧ Rfc.token b = false) : getSipHeaderIndex src pos ≠ .panic := by
  intro hp
  unfold getSipHeaderIndex Trie.lookup at hp
  split at hp
  · cases hp
  · obtain ⟨ps, h1, h2, h3⟩ := Trie.run_panic _ _ _ hp
    obtain ⟨b, hb, hne, htk⟩ := h
    obtain ⟨p, hp1, hp2⟩ := testAll_mem h2 b (by rw [← h3, List.take_length]; exact hb)
    have hg := headerTrie_good p (Trie.stops_pats _ _ h1 p hp1)
    rcases (goodPats_test p hg b).mp hp2 with hh | hh
    · have := goodPats_token p hg b hh
      have h5 := (charset_sip b).1
      rw [htk] at h5
      rw [this] at h5; cases h5
    · exact hne hh.1

/-- a name the library knows, in any letter case -/
def isHeaderName (n : Bytes) : Bool := headerTable.any (fun e => str e.1 == n.map asciiLower)

theorem headerTable_all : headerTable.all (fun e => e.2 != 0 && !(str e.1).isEmpty && (str e.1).all csSipToken.mem) = true := by decide +kernel
theorem headerTable_facts : ∀ e ∈ headerTable, e.2 ≠ 0 ∧ str e.1 ≠ [] ∧ InSet csSipToken (str e.1) := by
  intro e he
  have := List.all_eq_true.1 headerTable_all e he
  simp only [Bool.and_eq_true, bne_iff_ne, ne_eq, Bool.not_eq_true', List.isEmpty_eq_false_iff, List.all_eq_true] at this
  exact ⟨this.1.1, this.1.2, this.2⟩

theorem lower_token (b : UInt8) (h : csSipToken.mem (asciiLower b) = true) : csSipToken.mem b = true := by revert b; decide +kernel

theorem sameLetters_token {w : Bytes} {n : Bytes} (h : SameLetters w n) (hn : InSet csSipToken n) (hne : n ≠ []) : w ≠ [] ∧ InSet csSipToken w := by
  unfold SameLetters at h
  refine ⟨fun e => by subst e; exact hne h.symm, fun b hb => lower_token b (hn _ ?_)⟩
  rw [← h]; exact List.mem_map.mpr ⟨b, hb, rfl⟩

/-- `n` is a spelling of the name of the header: for a known header its name or compact form in any letter case (the name is then not stored), otherwise
any other token, which is stored -/
def NameOf (id : Nat) (name : Option Bytes) (n : Bytes) : Prop :=
  (∃ s, (s, id) ∈ headerTable ∧ SameLetters n (str s) ∧ name = none) ∨ (id = 0 ∧ name = some n ∧ n ≠ [] ∧ InSet csSipToken n ∧ isHeaderName n = false)

theorem NameOf.token {id : Nat} {name : Option Bytes} {n : Bytes} (h : NameOf id name n) : n ≠ [] ∧ InSet csSipToken n := by
  rcases h with ⟨s, h1, h2, _⟩ | ⟨_, _, h3, h4, _⟩
  · obtain ⟨_, h5, h6⟩ := headerTable_facts _ h1
    exact sameLetters_token h2 h6 h5
  · exact ⟨h3, h4⟩

/-- arena bytes for the name -/
def nameCost (name : Option Bytes) : Nat := match name with
  | some n => n.length + 2
  | none => 0

theorem headerIndex_unknown (c : Ctx) (n y : Bytes) (hr : c.rest = n ++ y) (hn : InSet csSipToken n) (hne : isHeaderName n = false) (hy : NotIn csSipToken y)
    (hy2 : y ≠ []) (hcr : y.head? ≠ some 0x0d) : ∃ k, k ≤ n.length ∧ getSipHeaderIndex c.src c.pos = .ok (0, c.pos + k) := by
  have hr' : c.src.drop c.pos = n ++ y := hr
  obtain ⟨d, z, rfl⟩ := List.exists_cons_of_ne_nil hy2
  have hd : Rfc.token d = false := by
    have := hy d rfl
    rw [← (charset_sip d).1]; exact this
  have hnp := header_index_nopanic c.src c.pos ⟨d, by rw [hr']; simp, fun e => hcr (by simp [e]), hd⟩
  obtain ⟨i, k, e, hk, hb⟩ := header_index_returns c.src c.pos hnp
  have hkn : k ≤ n.length := by
    false_or_by_contra
    rename_i hgt
    have : d ∈ (c.src.drop c.pos).take k := by
      rw [hr', List.take_append, List.mem_append]
      right
      obtain ⟨j, hj⟩ : ∃ j, k - n.length = j + 1 := ⟨k - n.length - 1, by omega⟩
      rw [hj]; simp
    rcases hb d this with hh | hh
    · rw [hd] at hh; cases hh
    · exact hcr (by simp [hh])
  have hi : i = 0 := by
    false_or_by_contra
    rename_i hi
    have hnocr : ∀ b ∈ (c.src.drop c.pos).take (c.pos + k - c.pos), b ≠ 0x0d := by
      intro b hb2 e; subst e
      rw [Nat.add_sub_cancel_left, hr', List.take_append_of_le_length hkn] at hb2
      have := hn _ (List.mem_of_mem_take hb2)
      revert this; decide +kernel
    obtain ⟨s, w, y', g1, g2, g3, g4, g5⟩ := header_index_sound_noCr _ _ _ _ hi e hnocr
    obtain ⟨_, h5, h6⟩ := headerTable_facts _ g1
    have hw := sameLetters_token g3 h6 h5
    rw [hr'] at g2
    obtain ⟨k1, _⟩ := nodup_of_append_token hn hw.2 hy ((tokenEnd_iff _).1 g4) g2
    have hx : isHeaderName n = true := by
      unfold isHeaderName
      rw [List.any_eq_true]
      refine ⟨_, g1, ?_⟩
      rw [k1]
      unfold SameLetters at g3
      simp [g3]
    rw [hx] at hne; cases hne
  subst hi
  exact ⟨k, hkn, e⟩

/-- the name of a header line -/
theorem msgHeaderName_text {fl : Flags} {id : Nat} {name : Option Bytes} {n : Bytes} (h : NameOf id name n) (w1 w2 : Bytes) (hw1 : AllWsp w1) (hw2 : IsSWS w2) :
    Parses fl parseMsgHeaderName (n ++ (w1 ++ 0x3a :: w2)) (name, id) (nameCost name) NoWs := by
  have hT := h.token
  have hhead : ∀ z : Bytes, NotIn csSipToken (w1 ++ 0x3a :: w2 ++ z) ∧ w1 ++ 0x3a :: w2 ++ z ≠ [] ∧ (w1 ++ 0x3a :: w2 ++ z).head? ≠ some 0x0d := by
    intro z
    cases w1 with
    | nil => exact ⟨by intro b hb; simp at hb; subst hb; decide +kernel, by simp, by simp⟩
    | cons a w1 =>
      have := hw1 a (by simp)
      refine ⟨by intro b hb; simp at hb; subst hb; rcases this with rfl | rfl <;> decide +kernel, by simp, ?_⟩
      simp only [List.cons_append, List.head?_cons, ne_eq, Option.some.injEq]
      rcases this with rfl | rfl <;> decide
  -- the index and the name
  have h1 : Parses fl (P.headerIndex >>= storeName) n (name, id) (nameCost name) (fun y => NotIn csSipToken y ∧ y ≠ [] ∧ y.head? ≠ some 0x0d) := by
    intro c y e1 e2 e3 e4 e5
    have e2' : c.src.drop c.pos = n ++ y := e2
    rcases h with ⟨s, g1, g2, rfl⟩ | ⟨rfl, rfl, g3, g4, g5⟩
    · obtain ⟨f1, f2, f3⟩ := headerTable_facts _ g1
      have hi := header_index_complete c.src c.pos id s n y g1 e2' g2 ((tokenEnd_iff y).2 e3.1)
      have hh : P.headerIndex c = .ok (some (id, c.pos + n.length), c) := by unfold P.headerIndex; rw [hi]
      rw [P.bind_ok hh]
      obtain ⟨j, rfl⟩ : ∃ j, id = j + 1 := ⟨id - 1, by have : id ≠ 0 := f1; omega⟩
      rfl
    · obtain ⟨k, hk, hi⟩ := headerIndex_unknown c n y e2 g4 g5 e3.1 e3.2.1 e3.2.2
      have hh : P.headerIndex c = .ok (some (0, c.pos + k), c) := by unfold P.headerIndex; rw [hi]
      rw [P.bind_ok hh]
      have hrl := rest_length c e4
      rw [e2, List.length_append] at hrl
      have hs := parseStrFromPos_spec csSipToken c (c.pos + k) (by omega) (by omega) (n.take k) (n.drop k) y (by rw [List.take_append_drop]; exact e2)
        (by simp; omega) ⟨rfl, fun d hd => g4 d (List.mem_of_mem_drop hd), e3.1⟩ (by simp only [nameCost] at e5; simp; omega)
        (by rw [List.take_append_drop]; exact g3)
      rw [List.take_append_drop] at hs
      show (parseStrFromPos csSipToken (c.pos + k) >>= fun n => (pure (some n, 0) : P (Option Bytes × Nat))) c = _
      rw [P.bind_ok hs]
      show Out.ok _ = Out.ok _
      simp only [nameCost, Ctx.eat, Out.ok.injEq, Prod.mk.injEq, Ctx.mk.injEq, true_and, and_true, List.length_take, List.length_drop]
      omega
  have e : parseMsgHeaderName = (P.headerIndex >>= storeName) >>= fun n => (do P.orErr P.hcolon; pure n) := by
    funext c
    show (P.headerIndex >>= fun r => storeName r >>= fun n => (do P.orErr P.hcolon; pure n)) c = _
    rw [P.bind_apply, P.bind_apply, P.bind_apply]
    rcases P.headerIndex c with ⟨_ | a, c1⟩ | _ | _ <;> rfl
  rw [e]
  refine Parses.bind' h1 (n2 := 0) ?_ (fun y _ => hhead y) rfl rfl
  exact Parses.bind' (Parses.orErr (Parses.hcolon w1 w2 hw1 hw2)) (Parses.pure _) (fun y hy => hy) (List.append_nil _).symm rfl

/-! ## Raw headers -/

/-- the text `t` is a line of the header `h`: a spelling of its name, a colon with white space around it, its value and the end of the line -/
def RawLine (h : RawHeader) (t : Bytes) : Prop :=
  ∃ n w1 w2, t = n ++ (w1 ++ 0x3a :: w2) ++ (h.value ++ [0x0d, 0x0a]) ∧ NameOf h.id h.name n ∧ AllWsp w1 ∧ IsSWS w2 ∧ RawVal h.value ∧ NoWs h.value

def RawHeader.cost (h : RawHeader) : Nat := nameCost h.name + 8 + (h.value.length + 2)

theorem rawHeader_text {fl : Flags} (h : RawHeader) (hv : RawVal h.value) :
    Parses fl (parseRawHeader h.id h.name) (h.value ++ [0x0d, 0x0a]) h (8 + (h.value.length + 2)) NoFold := by
  unfold parseRawHeader
  refine Parses.bind' (F := AnyText) (t1 := []) (Parses.alloc 8) ?_ (fun _ _ => trivial) rfl rfl
  exact Parses.bind' (rawValue_text h.value hv) (Parses.pure _) (fun y hy => hy) (List.append_nil _).symm rfl

theorem noWs_append {v y : Bytes} (h : NoWs v) (hne : v ≠ []) : NoWs (v ++ y) := by
  obtain ⟨b, z, rfl⟩ := List.exists_cons_of_ne_nil hne
  exact h

theorem isCRLF_iff (c : Ctx) : isCRLF c.src c.pos = true ↔ ∃ y, c.rest = 0x0d :: 0x0a :: y := by
  unfold isCRLF Ctx.rest
  rw [getElem?_eq_drop, getElem?_drop_add]
  match hd : c.src.drop c.pos with
  | [] => simp
  | [x] => simp
  | x :: y :: r =>
    have hlt := lt_of_drop_cons hd
    have hlen := length_eq_of_drop hd (by omega)
    simp at hlen
    have : c.pos + 1 < c.src.length := by omega
    simp [this]

/-- looking for the end of the headers at a header line -/
theorem notEnd {c : Ctx} {n y : Bytes} (hr : c.rest = n ++ y) (hp : c.pos ≤ c.src.length) (hne : n ≠ []) (hn : InSet csSipToken n) :
    ¬ c.pos ≥ c.src.length ∧ isCRLF c.src c.pos = false := by
  have hl := rest_length c hp
  rw [hr, List.length_append] at hl
  have := List.length_pos_iff.mpr hne
  refine ⟨by omega, ?_⟩
  cases h : isCRLF c.src c.pos with
  | false => rfl
  | true =>
    obtain ⟨z, hz⟩ := (isCRLF_iff c).1 h
    rw [hr] at hz
    obtain ⟨b, n, rfl⟩ := List.exists_cons_of_ne_nil hne
    simp only [List.cons_append, List.cons.injEq] at hz
    have := hn b (by simp)
    rw [hz.1] at this
    revert this; decide +kernel

theorem rawHeaders_line {fl : Flags} (acc : List RawHeader) (h : RawHeader) (t : Bytes) (ht : RawLine h t) :
    Parses fl (rawHeadersBody acc) t (.inl (acc ++ [h])) h.cost NoFold := by
  obtain ⟨n, w1, w2, rfl, hn, hw1, hw2, hv, hws⟩ := ht
  unfold rawHeadersBody
  refine Parses.get ?_
  intro c y h1 h2 h3 h4 h5
  obtain ⟨e1, e2⟩ := notEnd (c := c) (n := n) (y := w1 ++ 0x3a :: w2 ++ (h.value ++ [0x0d, 0x0a]) ++ y) (by rw [h2]; simp) h4 hn.token.1 hn.token.2
  rw [if_neg e1, if_neg (by rw [e2]; decide)]
  have key : Parses fl (do let (n, i) ← parseMsgHeaderName; let h ← parseRawHeader i n; pure (.inl (acc ++ [h])) : P (List RawHeader ⊕ List RawHeader))
      (n ++ (w1 ++ 0x3a :: w2) ++ (h.value ++ [0x0d, 0x0a])) (.inl (acc ++ [h])) h.cost NoFold := by
    refine Parses.bind' (msgHeaderName_text hn w1 w2 hw1 hw2) (n2 := 8 + (h.value.length + 2)) ?_ (fun y _ => ?_) rfl (by unfold RawHeader.cost; omega)
    · exact Parses.bind' (rawHeader_text h hv) (Parses.pure _) (fun y hy => hy) (List.append_nil _).symm rfl
    · rw [List.append_assoc]; exact noWs_append hws hv.1
  exact key c y h1 h2 h3 h4 h5

/-- the lines of a list of headers -/
inductive RawLines : List RawHeader → Bytes → Prop
  | nil : RawLines [] []
  | cons {h t hs ts} : RawLine h t → RawLines hs ts → RawLines (h :: hs) (t ++ ts)

def rawCost (hs : List RawHeader) : Nat := (hs.map RawHeader.cost).sum

theorem noFold_crlf (y : Bytes) : NoFold ([0x0d, 0x0a] ++ y) := by intro b hb; simp at hb; subst hb; decide
theorem RawLine.head {h : RawHeader} {t : Bytes} (ht : RawLine h t) : t ≠ [] ∧ ∀ y, NoFold (t ++ y) := by
  obtain ⟨n, w1, w2, rfl, hn, _⟩ := ht
  obtain ⟨h1, h2⟩ := hn.token
  obtain ⟨b, n, rfl⟩ := List.exists_cons_of_ne_nil h1
  refine ⟨by simp, fun y d hd => ?_⟩
  simp at hd; subst hd
  have : ∀ b : UInt8, csSipToken.mem b = true → isWspChar b = false := by decide +kernel
  exact this b (h2 b (by simp))

theorem rawLines_run {fl : Flags} {hs : List RawHeader} {ts : Bytes} (h : RawLines hs ts) : ∀ acc : List RawHeader,
    (∃ k, Run fl rawHeadersBody AnyText acc (ts ++ [0x0d, 0x0a]) (acc ++ hs) (rawCost hs) k) ∧
    (∃ k, Run fl rawHeadersBody (fun y => y = []) acc ts (acc ++ hs) (rawCost hs) k) := by
  induction h with
  | nil =>
    intro acc
    constructor
    · refine ⟨1, Run.last ?_⟩
      unfold rawHeadersBody
      refine Parses.get ?_
      intro c y h1 h2 h3 h4 h5
      have hl := rest_length c h4
      rw [h2] at hl; simp at hl
      rw [if_neg (by omega), if_pos ((isCRLF_iff c).2 ⟨y, h2⟩)]
      simp; rfl
    · refine ⟨1, Run.last ?_⟩
      unfold rawHeadersBody
      refine Parses.get ?_
      intro c y h1 h2 h3 h4 h5
      have hl := rest_length c h4
      rw [h2, h3] at hl; simp at hl
      rw [if_pos (by omega)]
      simp; rfl
  | @cons h t hs ts ht hts ih =>
    intro acc
    obtain ⟨⟨k1, r1⟩, ⟨k2, r2⟩⟩ := ih (acc ++ [h])
    rw [List.append_assoc] at r1 r2
    have hc : rawCost (h :: hs) = h.cost + rawCost hs := by simp [rawCost]
    rw [hc]
    have hfold : ∀ y, NoFold (ts ++ [0x0d, 0x0a] ++ y) := by
      intro y
      cases hts with
      | nil => exact noFold_crlf y
      | cons a b => rw [List.append_assoc, List.append_assoc]; exact a.head.2 _
    have hfold2 : NoFold ts := by
      cases hts with
      | nil => intro b hb; cases hb
      | cons a b => exact a.head.2 _
    refine ⟨⟨k1 + 1, ?_⟩, ⟨k2 + 1, ?_⟩⟩
    · rw [List.append_assoc]
      exact Run.step NoFold (rawHeaders_line acc h t ht) ht.head.1 (fun y _ => hfold y) r1
    · exact Run.step NoFold (rawHeaders_line acc h t ht) ht.head.1 (fun y hy => by subst hy; rw [List.append_nil]; exact hfold2) r2

/-- **C25** every header of a list of header lines - names in any letter case and in the compact form, white space around the colon, folded values -
is found once, in order, with its value unchanged; the list ends with an empty line or with the end of the input -/
theorem rawHeaders_parse (fl : Flags) (hs : List RawHeader) (t : Bytes) (h : RawLines hs t) :
    Parses fl parseRawHeaders (t ++ [0x0d, 0x0a]) hs (rawCost hs) AnyText ∧ Parses fl parseRawHeaders t hs (rawCost hs) (fun y => y = []) := by
  obtain ⟨⟨k1, r1⟩, ⟨k2, r2⟩⟩ := rawLines_run (fl := fl) h []
  rw [List.nil_append] at r1 r2
  unfold parseRawHeaders
  exact ⟨r1.forLoop, r2.forLoop⟩

/-! ## Encoding a list of raw headers -/

/-- the raw headers that are written so that they can be read: a known header has a name in the table of `SipHeadersInfo.go` -/
def RawHeader.WF (h : RawHeader) : Prop :=
  ((h.name = none ∧ (headerInfoName h.id).isSome ∧ h.id ≠ 0) ∨ (h.id = 0 ∧ ∃ n, h.name = some n ∧ n ≠ [] ∧ InSet csSipToken n ∧ isHeaderName n = false)) ∧
  RawVal h.value ∧ NoWs h.value

theorem headerInfoName_table (i : Nat) (n : Bytes) (h : headerInfoName i = some n) : ∃ s, (s, i) ∈ headerTable ∧ SameLetters n (str s) := by
  have key : ∀ i : Fin 84, ∀ n ∈ headerInfoName i.val, (headerTable.any fun e => decide (e.2 = i.val) && (n.map asciiLower == str e.1)) = true := by decide +kernel
  have hi : i < 84 := by
    false_or_by_contra
    rename_i hge
    unfold headerInfoName at h
    split at h <;> first | omega | cases h
  have := key ⟨i, hi⟩ n h
  rw [List.any_eq_true] at this
  obtain ⟨⟨s, j⟩, h1, h2⟩ := this
  simp only [Bool.and_eq_true, decide_eq_true_eq, beq_iff_eq] at h2
  obtain ⟨rfl, h3⟩ := h2
  exact ⟨s, h1, h3⟩

theorem rawHeader_line (h : RawHeader) (hw : h.WF) : RawLine h h.encode := by
  have hs : IsSWS [0x20] := Or.inr ⟨[0x20], by simp, by simp [AllWsp], Or.inl rfl⟩
  have e1 : str ": " = [0x3a, 0x20] := by decide
  obtain ⟨h1 | ⟨h1, n, h2, h3, h4, h5⟩, hv, hws⟩ := hw
  · obtain ⟨hn, hi, h0⟩ := h1
    obtain ⟨n, hn'⟩ := Option.isSome_iff_exists.1 hi
    obtain ⟨s, g1, g2⟩ := headerInfoName_table _ n hn'
    refine ⟨n, [], [0x20], ?_, Or.inl ⟨s, g1, g2, hn⟩, by simp [AllWsp], hs, hv, hws⟩
    unfold RawHeader.encode
    rw [if_neg h0, hn', e1]; simp
  · refine ⟨n, [], [0x20], ?_, Or.inr ⟨h1, h2, h3, h4, h5⟩, by simp [AllWsp], hs, hv, hws⟩
    unfold RawHeader.encode
    rw [if_pos h1, e1, h2]; simp [writeStr]

theorem rawHeaders_lines (hs : List RawHeader) (h : ∀ x ∈ hs, x.WF) : RawLines hs (encodeRawHeaders hs) := by
  induction hs with
  | nil => exact .nil
  | cons a hs ih =>
    have e : encodeRawHeaders (a :: hs) = a.encode ++ encodeRawHeaders hs := by simp [encodeRawHeaders]
    rw [e]
    exact .cons (rawHeader_line a (h a (by simp))) (ih (fun x hx => h x (by simp [hx])))

/-- **C25** a list of raw headers survives encode and parse: every header exactly once, in order, with name and value -/
theorem rawHeaders_roundtrip (fl : Flags) (hs : List RawHeader) (h : ∀ x ∈ hs, x.WF) :
    Parses fl parseRawHeaders (encodeRawHeaders hs ++ [0x0d, 0x0a]) hs (rawCost hs) AnyText ∧
    Parses fl parseRawHeaders (encodeRawHeaders hs) hs (rawCost hs) (fun y => y = []) :=
  rawHeaders_parse fl hs _ (rawHeaders_lines hs h)

/-- the hypotheses are met by a known header, an extension header and a folded value -/
def RawHeader.samples : List RawHeader := [⟨42, none, str "SIP/2.0/UDP a"⟩, ⟨0, some (str "X-a"), str "b\r\n c"⟩, ⟨5, none, str "INVITE"⟩]
theorem RawHeader.samples_wf : ∀ x ∈ RawHeader.samples, x.WF := by
  have fin : ∀ v : Bytes, v ≠ [] → (∀ i ∈ List.range v.length, v[i]? = some 0x0a → v[i + 1]? = some 0x20 ∨ v[i + 1]? = some 0x09) → RawVal v := by
    intro v h0 h
    refine ⟨h0, fun i hi => h i ?_ hi⟩
    rw [List.mem_range]; exact (List.getElem?_eq_some_iff.1 hi).1
  have nw : ∀ v : Bytes, v.head?.all (fun b => !isLwsChar b) = true → NoWs v := by
    intro v h b hb
    have hb' : v.head? = some b := hb
    rw [hb'] at h; simpa using h
  intro x hx
  simp only [RawHeader.samples, List.mem_cons, List.not_mem_nil, or_false] at hx
  rcases hx with rfl | rfl | rfl
  · exact ⟨Or.inl ⟨rfl, by decide, by decide⟩, fin _ (by decide) (by decide +kernel), nw _ (by decide +kernel)⟩
  · exact ⟨Or.inr ⟨rfl, _, rfl, by decide, by decide +kernel, by decide +kernel⟩, fin _ (by decide) (by decide +kernel), nw _ (by decide +kernel)⟩
  · exact ⟨Or.inl ⟨rfl, by decide, by decide⟩, fin _ (by decide) (by decide +kernel), nw _ (by decide +kernel)⟩
example : encodeRawHeaders RawHeader.samples = str "Via: SIP/2.0/UDP a\r\nX-a: b\r\n c\r\nAllow: INVITE\r\n" := by decide +kernel

/-! ## Limits -/

/-- **C25, negation**: an empty value is stored as a CR; a value of white space grows by a space with every encode and parse -/
theorem raw_empty_value :
    (∃ c', parseRawHeaders { src := str "X-a:\r\nY-a: b\r\n\r\n", cap := 200 } = .ok (some [⟨0, some (str "X-a"), [0x0d]⟩, ⟨0, some (str "Y-a"), str "b"⟩], c')) ∧
    (∃ c', parseRawHeaders { src := str "X-a: \r\n\r\n", cap := 200 } = .ok (some [⟨0, some (str "X-a"), str " "⟩], c')) ∧
    encodeRawHeaders [⟨0, some (str "X-a"), str " "⟩] = str "X-a:  \r\n" ∧
    (∃ c', parseRawHeaders { src := str "X-a:  \r\n\r\n", cap := 200 } = .ok (some [⟨0, some (str "X-a"), str "  "⟩], c')) :=
  ⟨resultOf_ok (by decide +kernel), resultOf_ok (by decide +kernel), by decide +kernel, resultOf_ok (by decide +kernel)⟩

/-- **C25, negation**: the name of a known header that has no entry in the table of `SipHeadersInfo.go` is lost -/
theorem raw_name_lost (i : Nat) (v : Bytes) (h : headerInfoName i = none) : RawHeader.encode ⟨i, none, v⟩ = str ": " ++ v ++ [0x0d, 0x0a] := by
  have : (if i = 0 then none else headerInfoName i) = none := by split <;> simp [h]
  unfold RawHeader.encode
  rw [this]; rfl
theorem raw_name_lost_example :
    (∃ c', parseRawHeaders { src := str "Warning: x\r\n\r\n", cap := 200 } = .ok (some [⟨43, none, str "x"⟩], c')) ∧
    encodeRawHeaders [⟨43, none, str "x"⟩] = str ": x\r\n" := ⟨resultOf_ok (by decide +kernel), by decide +kernel⟩

end Sip
