import Verif.Model.Ref
import Verif.Props.Store
import Verif.Props.Str
/-!
# C48 Scanning first, storing afterwards

`Decodes` and `BadEscape` (Props/Str.lean) are the specification: which text is read, what it stands for, where a malformed escape sits.
-/
namespace Sip
attribute [local irreducible] u32 u16 roundToAlign

/-! ## The scanners -/

theorem refInner_lit {s : CS} {v : UInt8} (h : s.mem v = true) (t : Bytes) (p : Nat) : refInner s (v :: t) p = refInner s t (p + 1) := by
  simp [refInner, h]

theorem refOuter_lit {s : CS} {v : UInt8} (h : s.mem v = true) (fuel : Nat) (t : Bytes) (p e : Nat) :
    refOuter s fuel (v :: t) p e = refOuter s fuel t (p + 1) e := by
  cases fuel with
  | zero => rfl
  | succ f => simp only [refOuter, refInner_lit h]

theorem refOuter_decodes {s : CS} {t o y : Bytes} (h : Decodes s t o y) :
    ∃ n, t.length = y.length + o.length + 2 * n ∧ ∀ fuel p e, t.length < fuel →
      refOuter s fuel t p e = .ok (e + n, p + (t.length - y.length), true) := by
  induction h with
  | stop y h =>
    refine ⟨0, by simp, fun fuel p e hf => ?_⟩
    obtain ⟨f, rfl⟩ : ∃ f, fuel = f + 1 := ⟨fuel - 1, by omega⟩
    cases y with
    | nil => simp [refOuter, refInner]
    | cons v r =>
      obtain ⟨h1, h2⟩ := h v (by simp)
      simp [refOuter, refInner, h1, h2]
  | lit v t o y h hr ih =>
    obtain ⟨n, h1, h2⟩ := ih
    refine ⟨n, by simp; omega, fun fuel p e hf => ?_⟩
    simp only [List.length_cons] at hf ⊢
    rw [refOuter_lit h, h2 fuel _ _ (by omega)]
    congr 3; omega
  | esc a b t o y h ha hb hr ih =>
    obtain ⟨n, h1, h2⟩ := ih
    refine ⟨n + 1, by simp; omega, fun fuel p e hf => ?_⟩
    simp only [List.length_cons] at hf ⊢
    obtain ⟨f, rfl⟩ : ∃ f, fuel = f + 1 := ⟨fuel - 1, by omega⟩
    simp only [refOuter, refInner, h, Bool.not_false, if_true, ha, hb, Bool.not_true, Bool.or_self, Bool.false_eq_true, if_false]
    rw [h2 f _ _ (by omega)]
    congr 2
    · omega
    · congr 1; omega

theorem refOuter_bad {s : CS} {t : Bytes} {k : Nat} (h : BadEscape s t k) :
    ∃ n, 3 * n ≤ k ∧ k < t.length ∧ ∀ fuel p e, t.length < fuel → refOuter s fuel t p e = .ok (e + n, p + k, false) := by
  induction h with
  | here t h hb =>
    refine ⟨0, by simp, by simp, fun fuel p e hf => ?_⟩
    obtain ⟨f, rfl⟩ : ∃ f, fuel = f + 1 := ⟨fuel - 1, by omega⟩
    simp only [refOuter, refInner, h, Bool.not_false, if_true]
    match t with
    | [] => rfl
    | [a] => rfl
    | a :: b :: t' =>
      simp only
      rw [if_pos]; · rfl
      have := fun ha hb' => hb ⟨a, b, t', rfl, ha, hb'⟩
      cases h1 : isHex a <;> cases h2 : isHex b <;> simp_all
  | lit v t k h hr ih =>
    obtain ⟨n, h1, h3, h2⟩ := ih
    refine ⟨n, by omega, by simp; omega, fun fuel p e hf => ?_⟩
    simp only [List.length_cons] at hf ⊢
    rw [refOuter_lit h, h2 fuel _ _ (by omega)]
    congr 3; omega
  | esc a b t k h ha hb hr ih =>
    obtain ⟨n, h1, h3, h2⟩ := ih
    refine ⟨n + 1, by omega, by simp; omega, fun fuel p e hf => ?_⟩
    simp only [List.length_cons] at hf ⊢
    obtain ⟨f, rfl⟩ : ∃ f, fuel = f + 1 := ⟨fuel - 1, by omega⟩
    simp only [refOuter, refInner, h, Bool.not_false, if_true, ha, hb, Bool.not_true, Bool.or_self, Bool.false_eq_true, if_false]
    rw [h2 f _ _ (by omega)]
    congr 2
    · omega
    · congr 1; omega

theorem drop_lt_fuel (src : Bytes) (pos : Nat) : (src.drop pos).length < src.length + 1 := by simp; omega

/-- **C48** The scanner accepts exactly the texts that decode; it stops where the text ends, and it counts the escapes: the text is two bytes per escape longer than
what it stands for. -/
theorem refEsc_decodes (s : CS) (ref : Ref) (src : Bytes) (pos : Nat) (o y : Bytes) (h : Decodes s (src.drop pos) o y) :
    ∃ n q, refEsc s ref src pos = .ok { escapeNum := n, newPos := q, ok := true, ref := { first := pos, last := q } } ∧
      (src.drop pos).length = y.length + (q - pos) ∧ q - pos = o.length + 2 * n ∧ pos ≤ q := by
  obtain ⟨n, h1, h2⟩ := refOuter_decodes h
  refine ⟨n, pos + ((src.drop pos).length - y.length), ?_, ?_, ?_, ?_⟩
  · unfold refEsc
    rw [h2 _ _ _ (drop_lt_fuel src pos)]
    simp only [refClose, Nat.zero_add, if_true]
  all_goals omega

/-- **C48** … and a malformed escape is refused at its '%'; the end of the reference stays what it was. -/
theorem refEsc_bad (s : CS) (ref : Ref) (src : Bytes) (pos k : Nat) (h : BadEscape s (src.drop pos) k) :
    ∃ n, refEsc s ref src pos = .ok { escapeNum := n, newPos := pos + k, ok := false, ref := { first := pos, last := ref.last } } ∧ 3 * n ≤ k := by
  obtain ⟨n, h1, h3, h2⟩ := refOuter_bad h
  refine ⟨n, ?_, h1⟩
  unfold refEsc
  rw [h2 _ _ _ (drop_lt_fuel src pos)]
  simp [refClose]

/-- **C48** no input makes it panic or loop, whatever the position -/
theorem refEsc_total (s : CS) (ref : Ref) (src : Bytes) (pos : Nat) : ∃ x, refEsc s ref src pos = .ok x := by
  rcases decodes_or_bad s (src.drop pos) with ⟨o, y, h⟩ | ⟨k, h⟩
  · obtain ⟨n, q, h, _⟩ := refEsc_decodes s ref src pos o y h; exact ⟨_, h⟩
  · obtain ⟨n, h, _⟩ := refEsc_bad s ref src pos k h; exact ⟨_, h⟩

/-! ## The second version -/

theorem refInner_idem (s : CS) (t : Bytes) (p : Nat) : refInner s (refInner s t p).2.2 (refInner s t p).2.1 = refInner s t p := by
  induction t generalizing p with
  | nil => rfl
  | cons v r ih =>
    by_cases hv : s.mem v = true
    · rw [refInner_lit hv]; exact ih _
    · have hv' : s.mem v = false := by simpa using hv
      by_cases h25 : v = 0x25
      · subst h25; simp [refInner, hv']
      · simp [refInner, hv', h25]

theorem refInner_len (s : CS) (t : Bytes) (p : Nat) : (refInner s t p).2.2.length ≤ t.length := by
  induction t generalizing p with
  | nil => simp [refInner]
  | cons v r ih =>
    by_cases hv : s.mem v = true
    · rw [refInner_lit hv]; exact Nat.le_trans (ih _) (by simp)
    · have hv' : s.mem v = false := by simpa using hv
      by_cases h25 : v = 0x25
      · subst h25; simp [refInner, hv']
      · simp [refInner, hv', h25]

theorem refInner_percent (s : CS) (t : Bytes) (p : Nat) (p' : Nat) (v : UInt8) (r : Bytes) (h : refInner s t p = (false, p', v :: r)) :
    s.mem 0x25 = false := by
  induction t generalizing p with
  | nil => simp [refInner] at h
  | cons w r' ih =>
    by_cases hv : s.mem w = true
    · rw [refInner_lit hv] at h; exact ih _ h
    · have hv' : s.mem w = false := by simpa using hv
      by_cases h25 : w = 0x25
      · subst h25; exact hv'
      · simp [refInner, hv', h25] at h

theorem ref2Loop_eq (s : CS) (h25 : s.mem 0x25 = false) (t : Bytes) (fuel p e : Nat) (hf : t.length < fuel) :
    refOuter s fuel t p e = .ok (ref2Loop s t p e) := by
  induction hn : t.length using Nat.strongRecOn generalizing t fuel p e with
  | ind n ih =>
    match t with
    | [] =>
      obtain ⟨f, rfl⟩ : ∃ f, fuel = f + 1 := ⟨fuel - 1, by omega⟩
      simp [refOuter, refInner, ref2Loop]
    | v :: r =>
      simp only [List.length_cons] at hf hn
      by_cases hv : v = 0x25
      · subst hv
        obtain ⟨f, rfl⟩ : ∃ f, fuel = f + 1 := ⟨fuel - 1, by omega⟩
        match r with
        | [] => simp [refOuter, refInner, ref2Loop, h25]
        | [a] => simp [refOuter, refInner, ref2Loop, h25]
        | a :: b :: r' =>
          simp only [List.length_cons] at hf hn
          simp only [refOuter, refInner, ref2Loop, h25, Bool.not_false, if_true]
          split
          · rfl
          · exact ih _ (by omega) r' f _ _ (by omega) rfl
      · by_cases hm : s.mem v = true
        · rw [refOuter_lit hm, ih _ (by omega) r fuel _ _ (by omega) rfl]
          rw [ref2Loop.eq_def s (v :: r)]
          simp only [if_neg hv, hm, Bool.not_true, Bool.false_eq_true, if_false]
        · have hv' : s.mem v = false := by simpa using hm
          obtain ⟨f, rfl⟩ : ∃ f, fuel = f + 1 := ⟨fuel - 1, by omega⟩
          rw [ref2Loop.eq_def s (v :: r)]
          simp only [refOuter, refInner, if_neg hv, hv', Bool.not_false, if_true]

/-- **C48** The version with two loops agrees with the first one on every set, input and position. -/
theorem refEsc2_eq (s : CS) (ref : Ref) (src : Bytes) (pos : Nat) : refEsc s ref src pos = .ok (refEsc2 s ref src pos) := by
  unfold refEsc refEsc2
  have hid := refInner_idem s (src.drop pos) pos
  have hlen := refInner_len s (src.drop pos) pos
  have hpc := refInner_percent s (src.drop pos) pos
  have hstep : refOuter s (src.length + 1) (src.drop pos) pos 0 =
      refOuter s (src.length + 1) (refInner s (src.drop pos) pos).2.2 (refInner s (src.drop pos) pos).2.1 0 := by
    simp only [refOuter, hid]
  rw [hstep]
  have hd := drop_lt_fuel src pos
  rcases hr : refInner s (src.drop pos) pos with ⟨b, p', rest⟩
  rw [hr] at hid hlen
  dsimp only at hid hlen ⊢
  cases b with
  | true => simp only [refOuter, hid]
  | false =>
    match rest with
    | [] => simp [refOuter, refInner, ref2Loop]
    | v :: r => rw [ref2Loop_eq s (hpc _ _ _ hr) (v :: r) _ _ _ (by omega)]

/-! ## The third version, on addresses -/

theorem ref3Inner_eq (s : CS) (src : Bytes) (base i fuel : Nat) (hi : i ≤ src.length) (hf : src.length - i < fuel) :
    ∃ i', i ≤ i' ∧ i' ≤ src.length ∧ refInner s (src.drop i) i = ((refInner s (src.drop i) i).1, i', src.drop i') ∧
      ref3Inner s src base fuel (base + i) = .ok ((refInner s (src.drop i) i).1, base + i') := by
  induction fuel generalizing i with
  | zero => omega
  | succ f ih =>
    by_cases hl : i < src.length
    · have hb : byteAt src base (base + i) = src[i] := by
        unfold byteAt
        rw [Nat.add_sub_cancel_left, List.getD_eq_getElem?_getD, List.getElem?_eq_getElem hl]; rfl
      have hd : src.drop i = src[i] :: src.drop (i + 1) := List.drop_eq_getElem_cons hl
      by_cases hv : s.mem src[i] = true
      · obtain ⟨i', h1, h2, h3, h4⟩ := ih (i + 1) (by omega) (by omega)
        refine ⟨i', by omega, h2, ?_, ?_⟩
        · rw [hd, refInner_lit hv]; exact h3
        · rw [hd, refInner_lit hv, ref3Inner, if_neg (by omega), hb, if_neg (by simp [hv])]
          exact h4
      · have hv' : s.mem src[i] = false := by simpa using hv
        refine ⟨i, Nat.le_refl i, hi, ?_, ?_⟩
        · by_cases h25 : src[i] = 0x25
          · have hv2 := hv'
            rw [h25] at hv2
            rw [hd, h25]; simp [refInner, hv2]
          · rw [hd]; simp [refInner, hv', h25]
        · rw [ref3Inner, if_neg (by omega), hb, if_pos (by simp [hv']), hd]
          by_cases h25 : src[i] = 0x25
          · rw [if_pos h25, h25]; rw [h25] at hv'; simp [refInner, hv']
          · rw [if_neg h25]; simp [refInner, hv', h25]
    · have hd : src.drop i = [] := List.drop_eq_nil_of_le (by omega)
      refine ⟨i, Nat.le_refl i, hi, by rw [hd]; rfl, ?_⟩
      rw [ref3Inner, if_pos (by omega), hd]; rfl

theorem ref3Outer_eq (s : CS) (src : Bytes) (base i fuel e : Nat) (hi : i ≤ src.length) (hf : src.length - i < fuel) :
    ref3Outer s src base fuel (base + i) e = refOuter s fuel (src.drop i) i e := by
  induction fuel generalizing i e with
  | zero => omega
  | succ f ih =>
    obtain ⟨i', h1, h2, h3, h4⟩ := ref3Inner_eq s src base i (src.length + 1) hi (by omega)
    rw [ref3Outer, refOuter, h4]
    rcases hr : refInner s (src.drop i) i with ⟨b, q, rest⟩
    rw [hr] at h3 h4
    have hb : byteAt src base (base + i' + 1) = src.getD (i' + 1) 0 := by unfold byteAt; congr 1; omega
    have hb2 : byteAt src base (base + i' + 2) = src.getD (i' + 2) 0 := by unfold byteAt; congr 1; omega
    cases h3
    have hsub : base + i' - base = i' := by omega
    cases b with
    | true => simp only [hsub]
    | false =>
      simp only [hsub, hb, hb2]
      by_cases h6 : base + i' ≥ base + src.length
      · rw [if_pos h6, List.drop_eq_nil_of_le (by omega)]
      · rw [if_neg h6]
        by_cases h7 : base + i' + 2 ≥ base + src.length
        · rw [if_pos h7]
          rcases hx : src.drop i' with _ | ⟨a, _ | ⟨b, _ | ⟨d, r⟩⟩⟩
          · have := congrArg List.length hx; simp at this; omega
          · rfl
          · rfl
          · have := congrArg List.length hx; simp at this; omega
        · rw [if_neg h7]
          have hx : src.drop i' = src[i'] :: src[i' + 1] :: src[i' + 2] :: src.drop (i' + 3) := by
            rw [List.drop_eq_getElem_cons (show i' < src.length by omega), List.drop_eq_getElem_cons (show i' + 1 < src.length by omega),
              List.drop_eq_getElem_cons (show i' + 2 < src.length by omega)]
          rw [hx]
          simp only [List.getD_eq_getElem?_getD, List.getElem?_eq_getElem (show i' + 1 < src.length by omega),
            List.getElem?_eq_getElem (show i' + 2 < src.length by omega), Option.getD_some]
          split
          · rfl
          · rw [Nat.add_assoc, ih (i' + 3) (e + 1) (by omega) (by omega)]

/-- **C48** The version on addresses agrees with the first one wherever the slice lies in memory, if there is a byte at the position … -/
theorem refEsc3_eq (s : CS) (ref : Ref) (src : Bytes) (base pos : Nat) (h : pos < src.length) :
    refEsc3 s ref src base pos = refEsc s ref src pos := by
  unfold refEsc3 refEsc
  rw [if_neg (by omega), ref3Outer_eq s src base pos _ _ (by omega) (by omega)]

/-- **C48** … and panics at the end of the input, where the others report an empty text. -/
theorem refEsc3_panics (s : CS) (ref : Ref) (src : Bytes) (base pos : Nat) (h : pos ≥ src.length) :
    refEsc3 s ref src base pos = .panic ∧
    refEsc s ref src pos = .ok { escapeNum := 0, newPos := pos, ok := true, ref := { first := pos, last := pos } } := by
  constructor
  · unfold refEsc3; rw [if_pos h]
  · unfold refEsc
    rw [List.drop_eq_nil_of_le h]
    simp [refOuter, refInner, refClose]

/-! ## Storing what has been scanned -/

theorem unescCopy_eq (lim : Int) (base : Nat) (x : Bytes) (j : Nat) (m : Mem) :
    (match unescCopy lim base x j m with
     | .panic => .panic
     | .hang => .hang
     | .ok (rest, j, m) => unescRest lim base rest j m) = unescRest lim base x j m := by
  induction x generalizing j m with
  | nil => rfl
  | cons v r ih =>
    by_cases hv : v = 0x25
    · subst hv; simp [unescCopy]
    · rw [unescCopy, if_pos hv, unescRest.eq_def lim base (v :: r)]
      dsimp only
      by_cases hl : 0 ≤ lim ∧ lim ≤ (j : Int)
      · simp only [if_pos hl]
      · rw [if_neg hl, if_neg hl, if_pos hv]
        exact ih _ _

/-- the bytes that are scanned, and what copying them with unescaping stores -/
theorem unesc_decodes {s : CS} (h25 : s.mem 0x25 = false) {t o y : Bytes} (h : Decodes s t o y) :
    ∃ x, t = x ++ y ∧ ∀ lim base m out, (lim < 0 ∨ ((out.length + o.length : Nat) : Int) ≤ lim) →
      unescRest lim base x out.length (storeBytes m base out) = .ok (out.length + o.length, storeBytes m base (out ++ o)) := by
  induction h with
  | stop y h => exact ⟨[], rfl, fun lim base m out _ => by simp [unescRest]⟩
  | lit v t o y h hr ih =>
    obtain ⟨x, rfl, ih⟩ := ih
    refine ⟨v :: x, rfl, fun lim base m out hl => ?_⟩
    have hv : v ≠ 0x25 := by rintro rfl; rw [h] at h25; cases h25
    simp only [List.length_cons] at hl ⊢
    rw [unescRest.eq_def]
    dsimp only
    rw [if_neg (by omega), if_pos hv, upd_storeBytes]
    have := ih lim base m (out ++ [v]) (by simp only [List.length_append, List.length_singleton]; omega)
    simp only [List.length_append, List.length_singleton, List.append_assoc, List.singleton_append] at this
    rw [this]
    congr 2; omega
  | esc a b t o y h ha hb hr ih =>
    obtain ⟨x, rfl, ih⟩ := ih
    refine ⟨0x25 :: a :: b :: x, rfl, fun lim base m out hl => ?_⟩
    simp only [List.length_cons] at hl ⊢
    rw [unescRest.eq_def]
    dsimp only
    rw [if_neg (by omega), if_neg (by simp), ha, hb, Bool.and_self, if_pos rfl, upd_storeBytes]
    have := ih lim base m (out ++ [unescapeByte a b]) (by simp only [List.length_append, List.length_singleton]; omega)
    simp only [List.length_append, List.length_singleton, List.append_assoc, List.singleton_append] at this
    rw [this]
    congr 2; omega

/-- `r` is what storing the text `o` gives: if there is room, a pointer to it, and below the mark nothing has changed; if not, nil -/
def StoredStr (c : BCtx) (o : Bytes) (r : Out (Nat × BCtx)) : Prop :=
  ∃ p b, r = .ok (p, b) ∧ SameBelow c b ∧
    if c.a.used + 2 + o.length ≤ c.a.cap then
      p = c.a.used + 2 ∧ readStr b.a.mem p = o ∧ b.abs = { c.abs with used := c.a.used + 2 + o.length }
    else p = 0 ∧ b.abs = c.abs

theorem StoredStr.allocStr (c : BCtx) (buf : Bytes) (h8 : 8 ≤ c.a.used) (hu : c.a.used ≤ c.a.cap) (hcap : c.a.cap < 65536)
    (hb : buf.length < 2147483648) : StoredStr c buf (bAllocStr buf c) := by
  by_cases hl : buf.length < 65536
  · obtain ⟨p, b, e, hs, h⟩ := store_allocStr c (by omega) hu buf hl h8 hcap
    refine ⟨p, b, e, hs, ?_⟩
    unfold Sip.allocStr at h
    simp only [show c.abs.used = c.a.used from rfl, show c.abs.cap = c.a.cap from rfl] at h
    by_cases hr : c.a.used + (buf.length + 2) > c.a.cap
    · rw [if_pos hr] at h
      rw [if_neg (by omega)]
      exact h
    · rw [if_neg hr] at h
      rw [if_pos (by omega)]
      obtain ⟨h1, h2, h3⟩ := h
      refine ⟨h1, h3, ?_⟩
      rw [h2, show c.a.used + 2 + buf.length = c.a.used + (buf.length + 2) by omega]
      rfl
  · unfold bAllocStr
    simp only [u32_id (show buf.length < 4294967296 by omega), u32_id (show buf.length + 2 < 4294967296 by omega)]
    have ha := alloc_spec c.a (buf.length + 2) (by omega)
    rw [if_pos (by omega)] at ha
    rw [ha]
    refine ⟨0, _, rfl, ⟨fun _ _ => rfl, rfl⟩, ?_⟩
    rw [if_neg (by omega)]
    exact ⟨rfl, rfl⟩

/-- **C48** `AllocCStringWithUnescapeNum`, given the number of escapes, stores what the text stands for: the same as `AllocCString` of the decoded text, with the same
memory, and it never writes outside its block. -/
theorem allocUnescNum_stores (s : CS) (t o y : Bytes) (h : Decodes s t o y) (n : Nat) (x : Bytes) (hx : t = x ++ y) (hn : x.length = o.length + 2 * n)
    (c : BCtx) (h8 : 8 ≤ c.a.used) (hu : c.a.used ≤ c.a.cap) (hcap : c.a.cap < 65536) (hb : x.length < 2147483648) :
    StoredStr c o (bAllocUnescNum x n c) := by
  unfold bAllocUnescNum
  by_cases hn0 : n = 0
  · subst hn0
    rw [if_pos (by simp)]
    have : x = o := by
      have hgen : ∀ {t o y : Bytes}, Decodes s t o y → ∀ x, t = x ++ y → x.length = o.length → x = o := by
        intro t o y h
        induction h with
        | stop y h => intro x hx hl; exact List.eq_nil_of_length_eq_zero hl
        | lit v t o y h hr ih =>
          intro x hx hl
          cases x with
          | nil => simp at hl
          | cons w x =>
            simp only [List.cons_append, List.cons.injEq] at hx
            simp only [List.length_cons, Nat.add_right_cancel_iff] at hl
            rw [hx.1, ih x hx.2 hl]
        | esc a b t o y h ha hb hr ih =>
          intro x hx hl
          obtain ⟨n, h1, _⟩ := refOuter_decodes hr
          have := congrArg List.length hx
          simp only [List.length_cons, List.length_append] at this hl
          omega
      exact hgen h x hx (by simpa using hn)
    subst this
    exact StoredStr.allocStr c x h8 hu hcap hb
  · have h25 : s.mem 0x25 = false := by
      rcases hm : s.mem 0x25 with _ | _
      · rfl
      · have hgen : ∀ {t o y : Bytes}, Decodes s t o y → t = o ++ y := by
          intro t o y h
          induction h with
          | stop => rfl
          | lit v t o y h hr ih => rw [ih]; rfl
          | esc a b t o y h => rw [h] at hm; cases hm
        have := hgen h
        rw [hx] at this
        have := congrArg List.length (List.append_cancel_right this)
        omega
    obtain ⟨x', hx', hst⟩ := unesc_decodes h25 h
    have : x' = x := List.append_cancel_right (hx'.symm.trans hx)
    subst this
    rw [if_neg (by omega)]
    have ho : o.length ≠ 0 := by
      intro h0
      have := List.eq_nil_of_length_eq_zero h0
      subst this
      cases h with
      | stop =>
        have := congrArg List.length hx
        simp only [List.length_append] at this
        simp only [List.length_nil] at hn
        omega
    have hlim : ((x'.length : Int) - 2 * (n : Int)) = (o.length : Int) := by omega
    have hsz : u32i ((o.length : Int) + 2) = o.length + 2 := by unfold u32i; omega
    simp only [hlim, hsz]
    have ha := alloc_spec c.a (o.length + 2) (by omega)
    by_cases hr : c.a.used + (o.length + 2) > c.a.cap
    · rw [if_pos (Or.inr hr)] at ha
      rw [ha]
      refine ⟨0, _, rfl, ⟨fun _ _ => rfl, rfl⟩, ?_⟩
      rw [if_neg (by omega)]
      exact ⟨rfl, rfl⟩
    · rw [if_neg (by omega), u16_id (show c.a.used < 65536 by omega)] at ha
      generalize hal : c.a.alloc (o.length + 2) = r at ha
      have hc : r.1.cap = c.a.cap := by rw [ha]; rfl
      have hm : r.1.mem = c.a.mem := by rw [ha]; rfl
      have hus : r.1.used = c.a.used + (o.length + 2) := by rw [ha]
      have hp : r.2 = c.a.used := by rw [ha]
      clear ha hal
      obtain ⟨ra, rp⟩ := r
      obtain ⟨rau, ras, ram, rac⟩ := ra
      simp only at hc hm hus hp
      subst hp hm hc hus
      simp only
      rw [if_neg (by omega)]
      simp only [u16_id (show c.a.used + 2 < 65536 by omega)]
      rw [if_neg (by omega)]
      simp only [if_neg (show ¬ c.a.used + 2 = 0 by omega)]
      have h1 := unescCopy_eq (o.length : Int) (c.a.used + 2) x' 0 c.a.mem
      have h2 := hst (o.length : Int) (c.a.used + 2) c.a.mem [] (by right; simp)
      simp only [List.length_nil, storeBytes_nil, Nat.zero_add, List.nil_append] at h2
      rw [h2] at h1
      rcases hcp : unescCopy (o.length : Int) (c.a.used + 2) x' 0 c.a.mem with ⟨rest, j, m⟩ | _ | _ <;> rw [hcp] at h1 <;> dsimp only at h1
      · simp only [h1]
        rw [if_neg (by omega), u16_id (show o.length < 65536 by omega)]
        refine ⟨_, _, rfl, ⟨?_, rfl⟩, ?_⟩
        · intro i hi
          show putU16 _ _ _ i = _
          rw [putU16_other _ _ _ _ (by omega), storeBytes_below _ _ _ _ (by omega)]
        · rw [if_pos (by omega)]
          refine ⟨rfl, readStr_store c.a.mem c.a.used o (by omega), ?_⟩
          show BCtx.abs _ = _
          rw [show c.a.used + 2 + o.length = c.a.used + (o.length + 2) by omega]
          rfl
      · cases h1
      · cases h1

/-- the text that is scanned -/
theorem Decodes.split {s : CS} {t o y : Bytes} (h : Decodes s t o y) : ∃ x n, t = x ++ y ∧ x.length = o.length + 2 * n := by
  induction h with
  | stop y h => exact ⟨[], 0, rfl, rfl⟩
  | lit v t o y h hr ih =>
    obtain ⟨x, n, rfl, h⟩ := ih
    exact ⟨v :: x, n, rfl, by simp; omega⟩
  | esc a b t o y h ha hb hr ih =>
    obtain ⟨x, n, rfl, h⟩ := ih
    exact ⟨0x25 :: a :: b :: x, n + 1, rfl, by simp; omega⟩

/-- **C48** The two pass functions: the text that decodes is stored decoded, the new position is behind it, the position of the context does not move; an empty text is
an error only for the function that does not allow it; without room the result is nil and an error.  They do not panic. -/
theorem twoPass_decodes (e : Bool) (s : CS) (src : Bytes) (pos : Nat) (hp : pos ≤ src.length) (o y : Bytes) (h : Decodes s (src.drop pos) o y)
    (c : BCtx) (h8 : 8 ≤ c.a.used) (hu : c.a.used ≤ c.a.cap) (hcap : c.a.cap < 65536) (hb : src.length < 2147483648) :
    ∃ p ok b, bEscTwoPass e s src pos c = .ok (p, src.length - y.length, ok, b) ∧ SameBelow c b ∧
      if e = false ∧ o = [] ∨ ¬ c.a.used + 2 + o.length ≤ c.a.cap then
        p = 0 ∧ ok = false ∧ b.abs = c.abs.addError (src.length - y.length)
      else p = c.a.used + 2 ∧ ok = true ∧ readStr b.a.mem p = o ∧ b.abs = { c.abs with used := c.a.used + 2 + o.length } := by
  obtain ⟨n, q, e1, e2, e3, e4⟩ := refEsc_decodes s {} src pos o y h
  obtain ⟨x, n', hx, hxn⟩ := h.split
  have hlen := congrArg List.length hx
  simp only [List.length_append, List.length_drop] at hlen e2
  have hn : n' = n := by omega
  subst hn
  have hq : q = src.length - y.length := by omega
  subst hq
  have htake : (src.drop pos).take (src.length - y.length - pos) = x := by
    rw [hx, List.take_left' (by omega)]
  unfold bEscTwoPass
  rw [e1]
  simp only [Bool.not_true, Bool.false_eq_true, if_false]
  by_cases hemp : e = false ∧ o = []
  · obtain ⟨rfl, rfl⟩ := hemp
    simp only [List.length_nil, Nat.zero_add] at *
    have hnil : ∀ t : Bytes, Decodes s t [] y → t.length = y.length := by
      intro t h; cases h; rfl
    have hn0 : n' = 0 := by
      have := hnil _ h
      simp only [List.length_drop] at this
      omega
    rw [if_pos (by simp; omega)]
    exact ⟨0, false, _, rfl, ⟨fun _ _ => rfl, rfl⟩, by rw [if_pos (Or.inl ⟨trivial, trivial⟩)]; exact ⟨rfl, rfl, rfl⟩⟩
  · have hne : ¬ ((!e) = true ∧ src.length - y.length ≤ pos) := by
      rintro ⟨h1, h2⟩
      apply hemp
      refine ⟨by simpa using h1, List.eq_nil_of_length_eq_zero (by omega)⟩
    rw [if_neg hne, if_neg (by omega), htake]
    obtain ⟨p, b, h1, h2, h3⟩ := allocUnescNum_stores s _ o y h n' x hx hxn c h8 hu hcap (by omega)
    rw [h1]
    simp only
    by_cases hr : c.a.used + 2 + o.length ≤ c.a.cap
    · rw [if_pos hr] at h3
      obtain ⟨rfl, h4, h5⟩ := h3
      rw [if_neg (by omega)]
      exact ⟨_, _, _, rfl, h2, by rw [if_neg (by rintro (h | h); exact hemp h; exact h hr)]; exact ⟨rfl, rfl, h4, h5⟩⟩
    · rw [if_neg hr] at h3
      obtain ⟨rfl, h4⟩ := h3
      rw [if_pos rfl]
      exact ⟨_, _, _, rfl, h2, by rw [if_pos (Or.inr hr)]; exact ⟨rfl, rfl, by rw [← h4]; rfl⟩⟩

/-- **C48** … and a malformed escape is an error at its '%', with nothing stored. -/
theorem twoPass_bad (e : Bool) (s : CS) (src : Bytes) (pos k : Nat) (h : BadEscape s (src.drop pos) k) (c : BCtx) :
    bEscTwoPass e s src pos c = .ok (0, pos + k, false, c.addError (pos + k)) := by
  obtain ⟨n, e1, _⟩ := refEsc_bad s {} src pos k h
  unfold bEscTwoPass
  rw [e1]
  simp

/-- **C48** Both ways of reading text with escapes give the same: the two pass function on the input of the context, and the one pass function that the parsers use,
return the same pointer, the same position, the same text and the same memory mark, if the text and one byte more fit. -/
theorem twoPass_onePass (e : Bool) (s : CS) (c : BCtx) (o y : Bytes) (h : Decodes s (c.src.drop c.pos) o y) (hne : e = true ∨ o ≠ [])
    (hp : c.pos ≤ c.src.length) (h8 : 8 ≤ c.a.used) (hcap : c.a.cap < 65536) (hb : c.src.length < 2147483648)
    (hfit : c.a.used + 2 + o.length < c.a.cap) :
    ∃ b1 b2, bEscTwoPass e s c.src c.pos c = .ok (c.a.used + 2, c.src.length - y.length, true, b1) ∧
      bEscOnePass e s c.pos c = .ok (c.a.used + 2, c.src.length - y.length, true, b2) ∧
      readStr b1.a.mem (c.a.used + 2) = o ∧ readStr b2.a.mem (c.a.used + 2) = o ∧ b1.a.used = b2.a.used ∧ b1.a.used = c.a.used + 2 + o.length := by
  obtain ⟨p, ok, b1, e1, _, h1⟩ := twoPass_decodes e s c.src c.pos hp o y h c h8 (by omega) hcap hb
  rw [if_neg (by
    rintro (⟨h1, h2⟩ | h2)
    · rcases hne with h | h
      · rw [h] at h1; cases h1
      · exact h h2
    · omega)] at h1
  obtain ⟨rfl, rfl, h2, h3⟩ := h1
  have hl := congrArg List.length (h.split.choose_spec.choose_spec).1
  simp only [List.length_append, List.length_drop] at hl
  have hspec := parseStrEscapable_spec s c.abs o y h hfit
  have hst := store_parseStrEscapable s c (by omega) (by omega)
  have hpos : c.pos + ((c.src.drop c.pos).length - y.length) = c.src.length - y.length := by
    rw [List.length_drop]; omega
  have key : ∀ b2 : BCtx, b2.abs = { c.abs with pos := c.pos + ((c.src.drop c.pos).length - y.length), used := c.a.used + 2 + o.length } →
      b2.pos = c.src.length - y.length ∧ b2.a.used = c.a.used + 2 + o.length := by
    intro b2 hb2
    exact ⟨(congrArg Ctx.pos hb2).trans hpos, congrArg Ctx.used hb2⟩
  have hset : c.setPos c.pos = c := rfl
  have hone : ∃ b2, bEscOnePass e s c.pos c = .ok (c.a.used + 2, b2.pos, true, b2) ∧
      b2.abs = { c.abs with pos := c.pos + ((c.src.drop c.pos).length - y.length), used := c.a.used + 2 + o.length } ∧
      readStr b2.a.mem (c.a.used + 2) = o := by
    unfold bEscOnePass
    rw [hset]
    cases e with
    | false =>
      have ho : o ≠ [] := by rcases hne with h | h; cases h; exact h
      have h6 := hst.1
      rw [hspec.1, if_neg ho] at h6
      obtain ⟨b, j1, j2, _, j3, _⟩ := h6
      rw [j1]
      exact ⟨b, rfl, j2, j3⟩
    | true =>
      have h6 := hst.2
      rw [hspec.2] at h6
      obtain ⟨b, j1, j2, _, j3, _⟩ := h6
      rw [j1]
      exact ⟨b, rfl, j2, j3⟩
  obtain ⟨b2, j1, j2, j3⟩ := hone
  obtain ⟨k1, k2⟩ := key b2 j2
  refine ⟨b1, b2, e1, ?_, h2, j3, ?_, congrArg Ctx.used h3⟩
  · rw [j1, k1]
  · exact (congrArg Ctx.used h3).trans k2.symm

/-! ## Tokens -/

/-- **C48** `AbnfRef.Parse` marks the longest run of bytes of the set. -/
theorem refParse_exact (s : CS) (src : Bytes) (pos : Nat) (x y : Bytes) (h : MaxRun s (src.drop pos) x y) :
    refParse s src pos = { first := pos, last := pos + x.length } := by
  have ht := maxRun_takeWhile h
  unfold refParse
  rcases hd : src.drop pos with _ | ⟨v, r⟩
  · rw [hd] at ht; simp only [List.takeWhile_nil] at ht; rw [← ht]; rfl
  · rw [hd] at ht
    by_cases hv : s.mem v = true
    · simp only [List.takeWhile_cons, hv, if_true] at ht
      simp only [hv, Bool.not_true, Bool.false_eq_true, if_false]
      rw [← ht, List.length_cons]
      congr 1; omega
    · have hv' : s.mem v = false := by simpa using hv
      simp only [List.takeWhile_cons, hv', Bool.false_eq_true, if_false] at ht
      rw [← ht]
      simp [hv']

/-- **C48** `ParseAndAllocSipToken`: the longest run is stored and the position is behind it.  Without room for it the function still reports success, with nil. -/
theorem sipToken_stores (src : Bytes) (pos : Nat) (x y : Bytes) (h : MaxRun csSipUser (src.drop pos) x y) (hx : x ≠ [])
    (c : BCtx) (h8 : 8 ≤ c.a.used) (hu : c.a.used ≤ c.a.cap) (hcap : c.a.cap < 65536) (hb : src.length < 2147483648) :
    ∃ p b, bSipToken src pos c = .ok (p, true, b) ∧ SameBelow c b ∧
      if c.a.used + 2 + x.length ≤ c.a.cap then
        p = c.a.used + 2 ∧ readStr b.a.mem p = x ∧ b.abs = { c.abs with pos := pos + x.length, used := c.a.used + 2 + x.length }
      else p = 0 ∧ b.abs = { c.abs with pos := pos + x.length } := by
  have hlen := congrArg List.length h.1
  simp only [List.length_drop, List.length_append] at hlen
  have hx0 : x.length ≠ 0 := fun h0 => hx (List.eq_nil_of_length_eq_zero h0)
  unfold bSipToken
  rw [refParse_exact _ _ _ x y h]
  dsimp only
  rw [if_neg (by omega), h.1, show pos + x.length - pos = x.length by omega, List.take_left' rfl]
  obtain ⟨p, b, e, h2, h3⟩ := StoredStr.allocStr (c.setPos (pos + x.length)) x h8 hu hcap (by omega)
  rw [e]
  refine ⟨p, b, rfl, h2, ?_⟩
  change (if c.a.used + 2 + x.length ≤ c.a.cap then _ else _) at h3
  split
  · rename_i hr; rw [if_pos hr] at h3; exact h3
  · rename_i hr; rw [if_neg hr] at h3; exact h3

/-- **C48** An empty token is refused, without an error being recorded. -/
theorem sipToken_empty (src : Bytes) (pos : Nat) (y : Bytes) (h : MaxRun csSipUser (src.drop pos) [] y) (c : BCtx) :
    bSipToken src pos c = .ok (0, false, c.setPos pos) := by
  unfold bSipToken
  rw [refParse_exact _ _ _ [] y h]
  simp

/-- **C48** (fault 28) success with nil: in an arena of 12 bytes "abc" cannot be stored, and the caller is told it was. -/
theorem sipToken_nil_ok : ∃ b, bSipToken (str "abc@") 0 { src := str "abc@", a := { Arena.new 0 with cap := 12 } } = .ok (0, true, b) := by
  obtain ⟨p, b, e, _, h⟩ := sipToken_stores (str "abc@") 0 (str "abc") (str "@") ⟨by decide +kernel, by decide +kernel, by decide +kernel⟩ (by decide +kernel)
    { src := str "abc@", a := { Arena.new 0 with cap := 12 } } (by decide +kernel) (by decide +kernel) (by decide +kernel) (by decide +kernel)
  rw [if_neg (by decide +kernel)] at h
  obtain ⟨rfl, _⟩ := h
  exact ⟨b, e⟩

/-! ## The faulty copies -/

theorem unescRest_total (lim : Int) (hl : lim < 0) (base : Nat) (x : Bytes) (j : Nat) (m : Mem) : ∃ k m', unescRest lim base x j m = .ok (k, m') := by
  induction hn : x.length using Nat.strongRecOn generalizing x j m with
  | ind n ih =>
    match x with
    | [] => exact ⟨_, _, rfl⟩
    | v :: r =>
      simp only [List.length_cons] at hn
      rw [unescRest.eq_def]
      dsimp only
      rw [if_neg (by omega)]
      split
      · exact ih r.length (by omega) r _ _ rfl
      · match r with
        | [] => exact ⟨_, _, rfl⟩
        | [a] => exact ih 1 (by simp at hn; omega) [a] _ _ rfl
        | a :: b :: r' =>
          simp only [List.length_cons] at hn
          dsimp only
          split
          · exact ih r'.length (by omega) r' _ _ rfl
          · exact ih (r'.length + 2) (by omega) (a :: b :: r') _ _ rfl

/-- **C48** (fault 27) `AllocCStringWithUnescape` of a text with a '%' in it, of three bytes at least, moves the mark of the arena *back*, by the length of the text less two:
memory that is in use counts as free from then on, and the next block begins inside it. -/
theorem allocUnesc_frees (buf : Bytes) (hp : (0x25 : UInt8) ∈ buf) (h3 : 3 ≤ buf.length) (c : BCtx) (hlen : buf.length - 2 ≤ c.a.used)
    (h8 : 8 ≤ c.a.used) (hroom : c.a.used + 3 ≤ c.a.cap) (hcap : c.a.cap < 65536) :
    ∃ b, bAllocUnesc buf c = .ok (c.a.used + 2, b) ∧ b.a.used = c.a.used - (buf.length - 2) ∧ b.a.cap = c.a.cap ∧
      (∀ n, 0 < n → n ≤ buf.length - 2 → (b.a.alloc n).2 = c.a.used - (buf.length - 2)) := by
  have hc25 : buf.contains 0x25 = true := by simpa using hp
  have hsz : u32i ((buf.length : Int) - 2 * (buf.length : Int) + 2) = 4294967296 - (buf.length - 2) := by unfold u32i; omega
  have hnew : roundToAlign (u32 (c.a.used + (4294967296 - (buf.length - 2)))) memAlign = c.a.used - (buf.length - 2) := by
    have : u32 (c.a.used + (4294967296 - (buf.length - 2))) = c.a.used - (buf.length - 2) := by
      unfold u32; omega
    rw [this]
    exact roundToAlign_one _ (by omega)
  have hal : c.a.alloc (4294967296 - (buf.length - 2)) =
      ({ (c.a.countReq (4294967296 - (buf.length - 2))) with
          stat := { (c.a.countReq (4294967296 - (buf.length - 2))).stat with allocNumOk := u32 (c.a.stat.allocNumOk + 1) },
          used := c.a.used - (buf.length - 2) }, c.a.used) := by
    unfold Arena.alloc
    have hcr : (c.a.countReq (4294967296 - (buf.length - 2))).used = c.a.used := rfl
    have hcc : (c.a.countReq (4294967296 - (buf.length - 2))).cap = c.a.cap := rfl
    simp only [hcr, hcc, hnew, u16_id (show c.a.used < 65536 by omega)]
    rw [if_neg (by omega), if_neg (by omega)]
    rfl
  unfold bAllocUnesc bAllocUnescNum
  rw [hc25, if_neg (by simp), if_neg (by omega)]
  simp only [hsz, hal]
  rw [if_neg (by omega)]
  simp only [u16_id (show c.a.used + 2 < 65536 by omega)]
  have hcc : (c.a.countReq (4294967296 - (buf.length - 2))).cap = c.a.cap := rfl
  rw [hcc, if_neg (by omega)]
  simp only [if_neg (show ¬ c.a.used + 2 = 0 by omega)]
  obtain ⟨k, m', hu⟩ := unescRest_total ((buf.length : Int) - 2 * (buf.length : Int)) (by omega) (c.a.used + 2) buf 0
    (c.a.countReq (4294967296 - (buf.length - 2))).mem
  have h1 := unescCopy_eq ((buf.length : Int) - 2 * (buf.length : Int)) (c.a.used + 2) buf 0 (c.a.countReq (4294967296 - (buf.length - 2))).mem
  rw [hu] at h1
  rcases hcp : unescCopy ((buf.length : Int) - 2 * (buf.length : Int)) (c.a.used + 2) buf 0 (c.a.countReq (4294967296 - (buf.length - 2))).mem
    with ⟨rest, j, m⟩ | _ | _ <;> rw [hcp] at h1 <;> dsimp only at h1
  · simp only [h1]
    rw [if_neg (by omega)]
    refine ⟨_, rfl, rfl, rfl, fun n hn1 hn2 => ?_⟩
    rw [alloc_spec _ n (by simp only [BCtx.setMem]; omega)]
    rw [if_neg (by simp only [BCtx.setMem]; omega)]
    exact u16_id (show c.a.used - (buf.length - 2) < 65536 by omega)
  · cases h1
  · cases h1

/-- **C48** (fault 27) `AllocCStringWithUnescapeNum2` stores the decoded text but neither writes its length nor makes room for it: the length read back is whatever the
two bytes in front of the block hold. -/
theorem allocUnescNum2_length (s : CS) (t o y : Bytes) (h : Decodes s t o y) (n : Nat) (x : Bytes) (hx : t = x ++ y) (hn : x.length = o.length + 2 * n) (hn0 : 0 < n)
    (c : BCtx) (h8 : 8 ≤ c.a.used) (hfit : c.a.used + o.length ≤ c.a.cap) (hcap : c.a.cap < 65536) (ho : 0 < o.length) :
    ∃ b, bAllocUnescNum2 x n c = .ok (c.a.used, b) ∧ SameBelow c b ∧ b.a.used = c.a.used + o.length ∧
      (∀ i < o.length, b.a.mem (c.a.used + i) = o.getD i 0) ∧ strlen b.a.mem c.a.used = strlen c.a.mem c.a.used := by
  have h25 : s.mem 0x25 = false := by
    rcases hm : s.mem 0x25 with _ | _
    · rfl
    · have hgen : ∀ {t o y : Bytes}, Decodes s t o y → t = o ++ y := by
        intro t o y h
        induction h with
        | stop => rfl
        | lit v t o y h hr ih => rw [ih]; rfl
        | esc a b t o y h => rw [h] at hm; cases hm
      have := hgen h
      rw [hx] at this
      have := congrArg List.length (List.append_cancel_right this)
      omega
  obtain ⟨x', hx', hst⟩ := unesc_decodes h25 h
  have : x' = x := List.append_cancel_right (hx'.symm.trans hx)
  subst this
  unfold bAllocUnescNum2
  rw [if_neg (by omega)]
  have hlim : ((x'.length : Int) - 2 * (n : Int)) = (o.length : Int) := by omega
  have hsz : u32i (o.length : Int) = o.length := by unfold u32i; omega
  simp only [hlim, hsz]
  have ha := alloc_spec c.a o.length (by omega)
  rw [if_neg (by omega), u16_id (show c.a.used < 65536 by omega)] at ha
  rw [ha]
  simp only
  rw [if_neg (by omega), if_neg (by rintro rfl; simp at hn; omega), if_neg (by show ¬ c.a.used ≥ c.a.cap; omega)]
  have h2 := hst (-1) c.a.used c.a.mem [] (by left; omega)
  simp only [List.length_nil, storeBytes_nil, Nat.zero_add, List.nil_append] at h2
  have hm : (c.a.countReq o.length).mem = c.a.mem := rfl
  rw [hm, h2]
  refine ⟨_, rfl, ⟨?_, rfl⟩, rfl, ?_, ?_⟩
  · intro i hi; exact storeBytes_below _ _ _ _ hi
  · intro i hi
    show storeBytes c.a.mem c.a.used o (c.a.used + i) = _
    unfold storeBytes
    rw [if_pos (by omega)]
    congr 1; omega
  · show strlen (storeBytes c.a.mem c.a.used o) c.a.used = _
    unfold strlen
    rw [if_neg (by omega), if_neg (by omega), storeBytes_below _ _ _ _ (by omega), storeBytes_below _ _ _ _ (by omega)]

/-! ## The hypotheses are met -/

/-- "a%42c" followed by "@", read as user part -/
theorem decodes_sample : Decodes csSipUser (str "a%42c@h") (str "aBc") (str "@h") :=
  .lit _ _ _ _ (by decide +kernel) (.esc 0x34 0x32 (str "c@h") (str "c") (str "@h") (by decide +kernel) (by decide +kernel) (by decide +kernel)
    (.lit _ _ _ _ (by decide +kernel) (.stop _ (by decide +kernel))))

example : ∃ b1 b2, bEscTwoPass false csSipUser (str "a%42c@h") 0 { src := str "a%42c@h", a := Arena.new 100 } = .ok (10, 5, true, b1) ∧
    bEscOnePass false csSipUser 0 { src := str "a%42c@h", a := Arena.new 100 } = .ok (10, 5, true, b2) ∧
    readStr b1.a.mem 10 = str "aBc" ∧ readStr b2.a.mem 10 = str "aBc" := by
  obtain ⟨b1, b2, h1, h2, h3, h4, _⟩ := twoPass_onePass false csSipUser { src := str "a%42c@h", a := Arena.new 100 } (str "aBc") (str "@h") decodes_sample
    (.inr (by decide +kernel)) (by decide +kernel) (by decide +kernel) (by decide +kernel) (by decide +kernel) (by decide +kernel)
  exact ⟨b1, b2, h1, h2, h3, h4⟩

/-- **C48** (fault 27) an example: "abc" is stored at 10, then `AllocCStringWithUnescape("a%42c")` returns a pointer to "aBc" - and the next string is stored over "abc". -/
theorem allocUnesc_damages :
    (match bAllocStr (str "abc") { src := [], a := Arena.new 100 } with
     | .ok (p, c) =>
       match bAllocUnesc (str "a%42c") c with
       | .ok (q, c) =>
         let t := readStr c.a.mem q
         match bAllocStr (str "xy") c with
         | .ok (_, c) => some (t, readStr c.a.mem p)
         | _ => none
       | _ => none
     | _ => none) = some (str "aBc", [0x02, 0x00, 0x78]) := by decide +kernel

/-- **C48** (fault 27) and with the other function: "a%42c" in a fresh arena reads back as the empty text -/
theorem allocUnescNum2_empty : (match bAllocUnescNum2 (str "a%42c") 1 { src := [], a := Arena.new 100 } with
     | .ok (q, c) => some (readStr c.a.mem q)
     | _ => none) = some [] := by decide +kernel

end Sip
