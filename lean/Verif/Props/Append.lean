import Verif.Props.EncodeTwice
import Verif.Props.ContentLen
/-!
# C53: Encode appends

What a message is encoded to does not depend on what the buffer already holds, and what the buffer holds is kept.
-/
namespace Sip

/-! ## Judgements -/

/-- the outcome with `w` in front of the text -/
def putFront (w : Bytes) : Out Bytes → Out Bytes
  | .ok t => .ok (w ++ t)
  | .panic => .panic
  | .hang => .hang

/-- two states of the header encoder: the same text behind `w`, and (if `E`) the same place of the Content-Length, at least 16 bytes behind the start -/
def LikeSt (w : Bytes) (E : Prop) (r r' : Bytes × Nat) : Prop := r'.1 = w ++ r.1 ∧ (E → r'.2 = w.length + r.2 ∧ 16 ≤ r.2)
/-- two outcomes of the header encoder -/
def LikeOut (w : Bytes) (E : Prop) : Out (Bytes × Nat) → Out (Bytes × Nat) → Prop
  | .ok r, .ok r' => LikeSt w E r r'
  | .panic, .panic => True
  | .hang, .hang => True
  | _, _ => False

theorem LikeOut.bind {w : Bytes} {E E' : Prop} {a b : Out (Bytes × Nat)} {f g : Bytes × Nat → Out (Bytes × Nat)} (h : LikeOut w E a b)
    (hf : ∀ r r', LikeSt w E r r' → LikeOut w E' (f r) (g r')) : LikeOut w E' (a >>= f) (b >>= g) := by
  rcases a with r | _ | _ <;> rcases b with r' | _ | _
  · exact hf r r' h
  · exact h.elim
  · exact h.elim
  · exact h.elim
  · trivial
  · exact h.elim
  · exact h.elim
  · exact h.elim
  · trivial

theorem encodeCommon_like (net : Net) (fl : Flags) (hs : Hdrs) (k : HKind) (w : Bytes) (E : Prop) (hcl : hs.common .contentLength ≠ []) (r r' : Bytes × Nat) (h : LikeSt w E r r') :
    LikeOut w (E ∨ k = .contentLength) (encodeCommon net fl hs k r) (encodeCommon net fl hs k r') := by
  unfold encodeCommon
  cases hv : hs.common k with
  | nil =>
    refine ⟨h.1, fun hE => ?_⟩
    rcases hE with hE | hE
    · exact h.2 hE
    · rw [hE] at hv; exact absurd hv hcl
  | cons v vs =>
    dsimp only
    rcases encodeValues net fl k v (if k.multi = true then vs else []) with t | _ | _
    · refine ⟨?_, fun hE => ?_⟩
      · show r'.1 ++ k.title ++ str ": " ++ t ++ [0x0d, 0x0a] = w ++ (r.1 ++ k.title ++ str ": " ++ t ++ [0x0d, 0x0a])
        rw [h.1]; simp only [List.append_assoc]
      · show (if k = .contentLength then (r'.1 ++ k.title ++ str ": " ++ t).length else r'.2) = w.length + (if k = .contentLength then (r.1 ++ k.title ++ str ": " ++ t).length else r.2) ∧
          16 ≤ (if k = .contentLength then (r.1 ++ k.title ++ str ": " ++ t).length else r.2)
        by_cases hk : k = .contentLength
        · have ht : k.title.length = 14 := by rw [hk]; decide +kernel
          have h2 : (str ": ").length = 2 := by decide +kernel
          rw [if_pos hk, if_pos hk, h.1]
          simp only [List.length_append, ht, h2]
          omega
        · rw [if_neg hk, if_neg hk]
          exact h.2 (hE.resolve_right hk)
    · trivial
    · trivial

theorem encodeCommons_like (net : Net) (fl : Flags) (hs : Hdrs) (w : Bytes) (hcl : hs.common .contentLength ≠ []) : ∀ (ks : List HKind) (E : Prop) (r r' : Bytes × Nat), LikeSt w E r r' →
    LikeOut w (E ∨ .contentLength ∈ ks) (encodeCommons net fl hs ks r) (encodeCommons net fl hs ks r') := by
  intro ks
  induction ks with
  | nil => intro E r r' h; exact ⟨h.1, fun hE => h.2 (hE.resolve_right (by simp))⟩
  | cons k ks ih =>
    intro E r r' h
    have h1 := (encodeCommon_like net fl hs k w E hcl r r' h).bind (E' := (E ∨ k = .contentLength) ∨ .contentLength ∈ ks)
      (f := encodeCommons net fl hs ks) (g := encodeCommons net fl hs ks) (fun r r' h => ih _ r r' h)
    have e : (E ∨ k = .contentLength) ∨ .contentLength ∈ ks ↔ E ∨ .contentLength ∈ k :: ks := by
      rw [List.mem_cons, or_assoc, eq_comm (a := k)]
    rw [propext e] at h1
    exact h1

theorem hdrs_encode_like (net : Net) (fl : Flags) (hs : Hdrs) (w : Bytes) (hcl : hs.common .contentLength ≠ []) (order : List HKind) (buf : Bytes) :
    LikeOut w (.contentLength ∈ order) (hs.encode net fl order buf) (hs.encode net fl order (w ++ buf)) := by
  have h := (encodeCommons_like net fl hs w hcl order False (buf, 0) (w ++ buf, 0) ⟨rfl, fun h => h.elim⟩).bind (E' := .contentLength ∈ order)
    (f := fun r => .ok (r.1 ++ encodeRawHeaders hs.raw, r.2)) (g := fun r => .ok (r.1 ++ encodeRawHeaders hs.raw, r.2))
    (fun r r' h => ⟨by show r'.1 ++ _ = w ++ (r.1 ++ _); rw [h.1, List.append_assoc], fun hE => h.2 (Or.inr hE)⟩)
  exact h

/-- the same without a Content-Length: only the text -/
theorem encodeCommons_text (net : Net) (fl : Flags) (hs : Hdrs) (w : Bytes) : ∀ (ks : List HKind) (r r' : Bytes × Nat), r'.1 = w ++ r.1 →
    LikeOut w False (encodeCommons net fl hs ks r) (encodeCommons net fl hs ks r') := by
  intro ks
  induction ks with
  | nil => intro r r' h; exact ⟨h, fun h => h.elim⟩
  | cons k ks ih =>
    intro r r' h
    have h1 : LikeOut w False (encodeCommon net fl hs k r) (encodeCommon net fl hs k r') := by
      unfold encodeCommon
      cases hv : hs.common k with
      | nil => exact ⟨h, fun hE => hE.elim⟩
      | cons v vs =>
        dsimp only
        rcases encodeValues net fl k v (if k.multi = true then vs else []) with t | _ | _
        · refine ⟨?_, fun hE => hE.elim⟩
          show r'.1 ++ k.title ++ str ": " ++ t ++ [0x0d, 0x0a] = w ++ (r.1 ++ k.title ++ str ": " ++ t ++ [0x0d, 0x0a])
          rw [h]; simp only [List.append_assoc]
        · trivial
        · trivial
    exact h1.bind (f := encodeCommons net fl hs ks) (g := encodeCommons net fl hs ks) (fun r r' h => ih r r' h.1)

/-- the state of an encoded message, with `w` in front of the text -/
def frontMsg (w : Bytes) : Out (Option (Bytes × Msg) × Ctx) → Out (Option (Bytes × Msg) × Ctx)
  | .ok (r, c) => .ok (r.map (fun x => (w ++ x.1, x.2)), c)
  | .panic => .panic
  | .hang => .hang

theorem body_encode_front (net : Net) (fl : Flags) (b : Body) (w buf : Bytes) : b.encode net fl (w ++ buf) = putFront w (b.encode net fl buf) := by
  have h := encodeCommons_text net fl b.fixLength.hdrs w bodyOrder (buf, 0) (w ++ buf, 0) rfl
  unfold Body.encode Hdrs.encode
  rcases hq : encodeCommons net fl b.fixLength.hdrs bodyOrder (buf, 0) with r | _ | _ <;>
  rcases hq2 : encodeCommons net fl b.fixLength.hdrs bodyOrder (w ++ buf, 0) with r' | _ | _ <;> rw [hq, hq2] at h
  · show Out.ok (r'.1 ++ _ ++ [0x0d, 0x0a] ++ _) = Out.ok (w ++ (r.1 ++ _ ++ [0x0d, 0x0a] ++ _))
    rw [h.1]; simp only [List.append_assoc]
  · exact h.elim
  · exact h.elim
  · exact h.elim
  · rfl
  · exact h.elim
  · exact h.elim
  · exact h.elim
  · rfl

theorem encodeParts_front (net : Net) (fl : Flags) (bd w : Bytes) (bs : List Body) : ∀ buf, encodeParts net fl bd bs (w ++ buf) = putFront w (encodeParts net fl bd bs buf) := by
  induction bs with
  | nil =>
    intro buf
    show Out.ok (w ++ buf ++ str "--" ++ bd ++ str "--") = Out.ok (w ++ (buf ++ str "--" ++ bd ++ str "--"))
    simp only [List.append_assoc]
  | cons b bs ih =>
    intro buf
    have e := body_encode_front net fl b w (buf ++ str "--" ++ bd ++ [0x0d, 0x0a])
    unfold encodeParts
    rw [show w ++ buf ++ str "--" ++ bd ++ [0x0d, 0x0a] = w ++ (buf ++ str "--" ++ bd ++ [0x0d, 0x0a]) by simp only [List.append_assoc], e]
    rcases b.encode net fl (buf ++ str "--" ++ bd ++ [0x0d, 0x0a]) with t | _ | _
    · show encodeParts net fl bd bs (w ++ t ++ [0x0d, 0x0a]) = putFront w (encodeParts net fl bd bs (t ++ [0x0d, 0x0a]))
      rw [List.append_assoc, ih]
    · rfl
    · rfl

/-- the number fits in front of its place, or it does not fit when nothing stands before -/
theorem patch_front (w t d : Bytes) (e : Nat) : patch (w ++ t) (w.length + e) d = putFront w (patch t e d) ∨ (patch t e d = .panic ∧ e < d.length) := by
  by_cases h : e < d.length
  · exact Or.inr ⟨if_pos (Or.inl h), h⟩
  · refine Or.inl ?_
    unfold patch
    by_cases h2 : t.length < e
    · rw [if_pos (Or.inr (by rw [List.length_append]; omega)), if_pos (Or.inr h2)]; rfl
    · rw [if_neg (by rw [List.length_append]; omega), if_neg (by omega)]
      show Out.ok _ = Out.ok _
      rw [show w.length + e - d.length = w.length + (e - d.length) by omega, List.take_length_add_append, List.drop_length_add_append, List.append_assoc, List.append_assoc]
      simp only [List.append_assoc]

theorem patch_length {t d s : Bytes} {e : Nat} (h : patch t e d = .ok s) : s.length = t.length := by
  unfold patch at h
  split at h
  · cases h
  · rename_i hc
    cases h
    simp only [List.length_append, List.length_take, List.length_drop]
    omega

theorem addType_keeps {m m1 : Msg} {v : HVal} {c c1 : Ctx} (h : m.addType c = .ok (some (v, m1), c1)) :
    m1.hdrs.common .contentLength = m.hdrs.common .contentLength := by
  unfold Msg.addType at h
  rcases he : m.hdrs.common .contentType with _ | ⟨x, xs⟩ <;> rw [he] at h <;> dsimp only at h
  case cons => cases h; rfl
  · rcases hp : P.orErr (P.alloc 8) c with ⟨_ | v1, c2⟩ | _ | _
    · rw [P.bind_none hp] at h; cases h
    · rw [P.bind_ok hp] at h
      rcases hq : P.orErr (P.allocStr (str "multipart")) c2 with ⟨_ | v2, c3⟩ | _ | _
      · rw [P.bind_none hq] at h; cases h
      · rw [P.bind_ok hq] at h
        rcases hr : P.orErr (P.allocStr (str "mixed")) c3 with ⟨_ | v3, c4⟩ | _ | _
        · rw [P.bind_none hr] at h; cases h
        · rw [P.bind_ok hr] at h; cases h
          simp [Hdrs.set]
        · rw [P.bind_panic hr] at h; cases h
        · rw [P.bind_hang hr] at h; cases h
      · rw [P.bind_panic hq] at h; cases h
      · rw [P.bind_hang hq] at h; cases h
    · rw [P.bind_panic hp] at h; cases h
    · rw [P.bind_hang hp] at h; cases h

theorem boundary_keeps_length {m m1 : Msg} {bd : Bytes} {c c1 : Ctx} (h : m.boundary c = .ok (some (bd, m1), c1)) :
    m1.hdrs.common .contentLength = m.hdrs.common .contentLength := by
  unfold Msg.boundary at h
  rcases hp : m.addType c with ⟨_ | ⟨v, m2⟩, c2⟩ | _ | _
  · rw [P.bind_none hp] at h; cases h
  · rw [P.bind_ok hp] at h
    dsimp only at h
    have a := addType_keeps hp
    rcases hb : v.boundary? with _ | _ | b <;> rw [hb] at h <;> dsimp only at h
    rotate_right
    · cases h; exact a
    rotate_right
    · cases h
    · rcases hq : P.orErr (allocBoundary v) c2 with ⟨_ | v2, c3⟩ | _ | _
      · rw [P.bind_none hq] at h; cases h
      · rw [P.bind_ok hq] at h; cases h
        rw [← a]
        simp [Hdrs.set]
      · rw [P.bind_panic hq] at h; cases h
      · rw [P.bind_hang hq] at h; cases h
  · rw [P.bind_panic hp] at h; cases h
  · rw [P.bind_hang hp] at h; cases h

theorem findBoundary_keeps {m m1 : Msg} {bd : Bytes} {c c1 : Ctx} (h : m.findBoundary c = .ok (some (bd, m1), c1)) :
    m1.hdrs.common .contentLength = m.hdrs.common .contentLength := by
  unfold Msg.findBoundary at h
  by_cases hm : m.multi = true
  · rw [if_pos hm] at h
    have h' : m.boundary c = .ok (some (bd, m1), c1) := by
      unfold P.orErr at h
      split at h
      · cases h
      · exact h
    exact boundary_keeps_length h'
  · rw [if_neg hm] at h
    cases h
    rfl

/-- what stands behind the first text, once the place of the number is known -/
def tailEnd (net : Net) (fl : Flags) (m : Msg) (bd x : Bytes) (e : Nat) : Out Bytes :=
  match m.bodies with
  | [] => .ok x
  | body :: _ => do
    let t ← (if m.multi then encodeParts net fl bd m.bodies x else .ok (x ++ writeStr body.body))
    patch t e (encodeUInt (t.length - x.length))

theorem encodeTail_eq (net : Net) (fl : Flags) (m : Msg) (bd buf : Bytes) :
    m.encodeTail net fl bd buf = (m.hdrs.encode net fl msgOrder buf >>= fun r => tailEnd net fl m bd (r.1 ++ (if m.multi then m.mimeLine else []) ++ [0x0d, 0x0a]) r.2) := rfl

theorem tailEnd_front (net : Net) (fl : Flags) (m : Msg) (bd w x : Bytes) (e : Nat) (he : 16 ≤ e) :
    tailEnd net fl m bd (w ++ x) (w.length + e) = putFront w (tailEnd net fl m bd x e) ∨
    (tailEnd net fl m bd x e = .panic ∧ ∀ s, tailEnd net fl m bd (w ++ x) (w.length + e) = .ok s → w.length + 10 ^ 16 ≤ s.length) := by
  unfold tailEnd
  cases hb : m.bodies with
  | nil => exact Or.inl rfl
  | cons body bs =>
    dsimp only
    rw [← hb]
    have e1 : (if m.multi = true then encodeParts net fl bd m.bodies (w ++ x) else .ok (w ++ x ++ writeStr body.body)) =
        putFront w (if m.multi = true then encodeParts net fl bd m.bodies x else .ok (x ++ writeStr body.body)) := by
      split
      · exact encodeParts_front net fl bd w m.bodies x
      · show Out.ok _ = Out.ok _
        rw [List.append_assoc]
    rw [e1]
    rcases (if m.multi = true then encodeParts net fl bd m.bodies x else .ok (x ++ writeStr body.body)) with t | _ | _
    · show patch (w ++ t) (w.length + e) (encodeUInt ((w ++ t).length - (w ++ x).length)) = putFront w (patch t e (encodeUInt (t.length - x.length))) ∨
        (patch t e (encodeUInt (t.length - x.length)) = .panic ∧ ∀ s, patch (w ++ t) (w.length + e) (encodeUInt ((w ++ t).length - (w ++ x).length)) = .ok s → _)
      have e2 : (w ++ t).length - (w ++ x).length = t.length - x.length := by rw [List.length_append, List.length_append]; omega
      rw [e2]
      rcases patch_front w t (encodeUInt (t.length - x.length)) e with h | ⟨h, h2⟩
      · exact Or.inl h
      · refine Or.inr ⟨h, fun s hs => ?_⟩
        have h3 := patch_length hs
        have h4 := digits_le (t.length - x.length) 16 (by decide)
        rw [h3, List.length_append]
        have h5 : ¬ (t.length - x.length < 10 ^ 16) := fun h => by have := h4.2 h; omega
        omega
    · exact Or.inl rfl
    · exact Or.inl rfl

/-- the size of the body that is written is the difference of two lengths of the text -/
theorem encodeTail_front (net : Net) (fl : Flags) (m : Msg) (bd w buf : Bytes) (hcl : m.hdrs.common .contentLength ≠ []) :
    m.encodeTail net fl bd (w ++ buf) = putFront w (m.encodeTail net fl bd buf) ∨
    (m.encodeTail net fl bd buf = .panic ∧ ∀ s, m.encodeTail net fl bd (w ++ buf) = .ok s → w.length + 10 ^ 16 ≤ s.length) := by
  have hH := hdrs_encode_like net fl m.hdrs w hcl msgOrder buf
  rw [encodeTail_eq, encodeTail_eq]
  rcases hq : m.hdrs.encode net fl msgOrder buf with r | _ | _ <;>
  rcases hq2 : m.hdrs.encode net fl msgOrder (w ++ buf) with r' | _ | _ <;> rw [hq, hq2] at hH
  · obtain ⟨h1, h2⟩ := hH
    obtain ⟨h3, h4⟩ := h2 (by decide)
    have := tailEnd_front net fl m bd w (r.1 ++ (if m.multi then m.mimeLine else []) ++ [0x0d, 0x0a]) r.2 h4
    have e : r'.1 ++ (if m.multi then m.mimeLine else []) ++ [0x0d, 0x0a] = w ++ (r.1 ++ (if m.multi then m.mimeLine else []) ++ [0x0d, 0x0a]) := by
      rw [h1]; simp only [List.append_assoc]
    rw [← e, ← h3] at this
    exact this
  · exact hH.elim
  · exact hH.elim
  · exact hH.elim
  · exact Or.inl rfl
  · exact hH.elim
  · exact hH.elim
  · exact hH.elim
  · exact Or.inl rfl

/-- both runs -/
theorem encode_front (net : Net) (m : Msg) (w buf : Bytes) (c : Ctx) :
    m.encode net (w ++ buf) c = frontMsg w (m.encode net buf c) ∨
    (m.encode net buf c = .panic ∧ (∀ c', m.encode net (w ++ buf) c ≠ .ok (none, c')) ∧
      ∀ s m' c', m.encode net (w ++ buf) c = .ok (some (s, m'), c') → w.length + 10 ^ 16 ≤ s.length) := by
  unfold Msg.encode
  rw [P.bind_ok (show P.get c = .ok (some c, c) from rfl), P.bind_ok (show P.get c = .ok (some c, c) from rfl)]
  rcases hp : m.addLength c with ⟨_ | m1, c1⟩ | _ | _
  · rw [P.bind_none hp, P.bind_none hp]; exact Or.inl rfl
  · rw [P.bind_ok hp, P.bind_ok hp]
    have hcl := (addLength_common m m1 c c1 hp).2.2.2.1
    rcases hs : m1.start.encode net c.flags with s | _ | _
    · rw [P.bind_ok (show P.ofOut (Out.ok s) c1 = .ok (some s, c1) from rfl), P.bind_ok (show P.ofOut (Out.ok s) c1 = .ok (some s, c1) from rfl)]
      rcases hq : m1.findBoundary c1 with ⟨_ | ⟨bd, m2⟩, c3⟩ | _ | _
      · rw [P.bind_none hq, P.bind_none hq]; exact Or.inl rfl
      · rw [P.bind_ok hq, P.bind_ok hq]
        dsimp only
        have h := encodeTail_front net c.flags m2 bd w (buf ++ s) (by rw [findBoundary_keeps hq]; exact hcl)
        rw [← List.append_assoc] at h
        rcases ht : m2.encodeTail net c.flags bd (buf ++ s) with t | _ | _ <;> rw [ht] at h
        · rcases h with h | ⟨h, _⟩
          · rw [h]; exact Or.inl rfl
          · cases h
        · rcases h with h | ⟨_, h⟩
          · rw [h]; exact Or.inl rfl
          · refine Or.inr ⟨rfl, fun c' hr => ?_, fun s' m' c' hr => ?_⟩ <;>
            rcases ht2 : m2.encodeTail net c.flags bd (w ++ buf ++ s) with t | _ | _ <;> rw [ht2] at hr
            · cases hr
            · cases hr
            · cases hr
            · cases hr
              exact h _ ht2
            · cases hr
            · cases hr
        · rcases h with h | ⟨h, _⟩
          · rw [h]; exact Or.inl rfl
          · cases h
      · rw [P.bind_panic hq, P.bind_panic hq]; exact Or.inl rfl
      · rw [P.bind_hang hq, P.bind_hang hq]; exact Or.inl rfl
    · exact Or.inl rfl
    · exact Or.inl rfl
  · rw [P.bind_panic hp, P.bind_panic hp]; exact Or.inl rfl
  · rw [P.bind_hang hp, P.bind_hang hp]; exact Or.inl rfl

/-! ## The property -/

/-- **C53** what is written behind `w` is what is written into an empty buffer, and the message and the context afterwards are the same -/
theorem encode_appends (net : Net) (m m' : Msg) (w t : Bytes) (c c' : Ctx) (h : m.encode net [] c = .ok (some (t, m'), c')) :
    m.encode net w c = .ok (some (w ++ t, m'), c') := by
  rcases encode_front net m w [] c with e | ⟨e, _⟩
  · rw [List.append_nil, h] at e; exact e
  · rw [h] at e; cases e

/-- **C53** and the other way round: what the buffer held is still in front, for any text of less than 10^16 bytes -/
theorem encode_keeps (net : Net) (m m' : Msg) (w s : Bytes) (c c' : Ctx) (h : m.encode net w c = .ok (some (s, m'), c')) (hs : s.length < 10 ^ 16) :
    ∃ t, s = w ++ t ∧ m.encode net [] c = .ok (some (t, m'), c') := by
  rcases encode_front net m w [] c with e | ⟨_, _, e⟩
  · rw [List.append_nil, h] at e
    rcases hr : m.encode net [] c with ⟨_ | ⟨t, m1⟩, c1⟩ | _ | _ <;> rw [hr] at e
    · cases e
    · cases e; exact ⟨t, rfl, rfl⟩
    · cases e
    · cases e
  · rw [List.append_nil] at e
    have := e s m' c' h
    omega

/-- **C53** an error is the same one, whatever the buffer holds -/
theorem encode_fails_alike (net : Net) (m : Msg) (w : Bytes) (c c' : Ctx) : m.encode net w c = .ok (none, c') ↔ m.encode net [] c = .ok (none, c') := by
  rcases encode_front net m w [] c with e | ⟨e, e2, _⟩
  · rw [List.append_nil] at e
    rw [e]
    rcases m.encode net [] c with ⟨_ | ⟨t, m1⟩, c1⟩ | _ | _
    · exact Iff.rfl
    · constructor <;> intro h <;> cases h
    · constructor <;> intro h <;> cases h
    · constructor <;> intro h <;> cases h
  · rw [List.append_nil] at e2
    rw [e]
    exact ⟨fun h => absurd h (e2 c'), fun h => by cases h⟩

/-- **C53** a message written behind another one: the two texts one after the other -/
theorem encode_one_after_other (net : Net) (m1 m1' m2 m2' : Msg) (t1 t2 : Bytes) (c c1 c2 : Ctx)
    (h1 : m1.encode net [] c = .ok (some (t1, m1'), c1)) (h2 : m2.encode net [] c1 = .ok (some (t2, m2'), c2)) :
    (do let (b, _) ← m1.encode net []; let (b, _) ← m2.encode net b; pure b : P Bytes) c = .ok (some (t1 ++ t2), c2) := by
  rw [P.bind_ok h1]
  dsimp only
  rw [P.bind_ok (encode_appends net m2 m2' t1 t2 c1 c2 h2)]
  rfl

/-- a message with two bodies is encoded behind text, and the first of two messages is kept -/
theorem encode_appends_sample : (twoBodies.encode Net.sample (str "BEFORE") { src := [], cap := 1000 }).all (fun r =>
    match r, twoBodies.encode Net.sample [] { src := [], cap := 1000 } with
    | (some (s, _), c), .ok (some (t, _), c') => s == str "BEFORE" ++ t && 200 < t.length && c.used == c'.used
    | _, _ => false) = true := by decide +kernel

end Sip
