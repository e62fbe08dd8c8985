import Verif.Props.MessageSafe
/-!
# C28 - C31 for bodies and messages
-/
namespace Sip

/-! ## Search -/

/-- `i` is the first place where `d` occurs in `s` -/
def FirstAt (d s : Bytes) (i : Nat) : Prop := d <+: s.drop i ∧ i ≤ s.length ∧ ∀ j < i, ¬ d <+: s.drop j

theorem indexOf_some (d s : Bytes) (i : Nat) (h : indexOf d s = some i) : FirstAt d s i := by
  induction s generalizing i with
  | nil =>
    unfold indexOf at h
    split at h
    · rename_i hd; cases h; subst hd; exact ⟨List.nil_prefix, by simp, by intro j hj; omega⟩
    · cases h
  | cons b y ih =>
    unfold indexOf at h
    split at h
    · rename_i hp; cases h
      exact ⟨by rw [List.isPrefixOf_iff_prefix] at hp; exact hp, by simp, by intro j hj; omega⟩
    · rename_i hp
      rw [List.isPrefixOf_iff_prefix] at hp
      cases hi : indexOf d y with
      | none => rw [hi] at h; cases h
      | some k =>
        rw [hi] at h; cases h
        obtain ⟨h1, h2, h3⟩ := ih k hi
        refine ⟨h1, by simp; omega, ?_⟩
        intro j hj
        cases j with
        | zero => exact hp
        | succ j => exact h3 j (by have : j + 1 < k + 1 := hj; omega)

theorem indexOf_none (d s : Bytes) (h : indexOf d s = none) : ∀ i ≤ s.length, ¬ d <+: s.drop i := by
  induction s with
  | nil =>
    intro i _ hp
    unfold indexOf at h
    rw [List.drop_nil] at hp
    rw [if_pos (List.prefix_nil.1 hp)] at h; cases h
  | cons b y ih =>
    unfold indexOf at h
    split at h
    · cases h
    · rename_i hp
      rw [List.isPrefixOf_iff_prefix] at hp
      have hn : indexOf d y = none := by
        cases hi : indexOf d y with
        | none => rfl
        | some k => rw [hi] at h; cases h
      intro i hi
      cases i with
      | zero => exact hp
      | succ i => exact ih hn i (by simp at hi; omega)

/-- the search finds the first occurrence, and fails only when there is none -/
theorem indexOf_iff (d s : Bytes) (i : Nat) : indexOf d s = some i ↔ FirstAt d s i := by
  refine ⟨indexOf_some d s i, fun h => ?_⟩
  cases hi : indexOf d s with
  | none => exact absurd h.1 (indexOf_none d s hi i h.2.1)
  | some k =>
    obtain ⟨h1, h2, h3⟩ := indexOf_some d s k hi
    have a : ¬ i < k := fun hlt => h3 i hlt h.1
    have b : ¬ k < i := fun hlt => h.2.2 k hlt h1
    rw [show k = i by omega]

/-! ## The body of a message without parts -/

/-- what a single body is: a non-empty text at the position -/
def SingleBody (hs : Hdrs) (c : Ctx) (bs : List Body) : Prop :=
  bs = [] ∨ ∃ n k, (hs.common .contentLength).head? = some (.num n) ∧ k = min n c.rest.length ∧ 0 < k ∧ bs = [{ body := some (c.rest.take k) }]

theorem singleBody_safe {N H : Prop} (hs : Hdrs) (c : Ctx) (hc : Inv c) :
    GSafe N H true 0 (c.src.length - c.pos + 18) (fun bs c' => SingleBody hs c bs ∧ c'.pos = c.pos) (parseSingleBody hs) c := by
  unfold parseSingleBody
  refine GSafe.get ?_
  have hl := rest_length c hc.pos
  have key : ∀ k : Nat, k ≤ c.src.length - c.pos → (0 < k → ∃ n, (hs.common .contentLength).head? = some (.num n) ∧ k = min n c.rest.length) →
      GSafe N H true 0 (c.src.length - c.pos + 18) (fun bs c' => SingleBody hs c bs ∧ c'.pos = c.pos)
        (if k = 0 then pure [] else do
          P.orErr (P.alloc 16)
          let b ← P.orErr (P.allocStr (c.rest.take k))
          pure [{ body := some b }]) c := by
    intro k hk hex
    by_cases h0 : k = 0
    · rw [if_pos h0]; exact GSafe.pure hc ⟨Or.inl rfl, rfl⟩
    rw [if_neg h0]
    have hlen : (c.rest.take k).length = k := by rw [List.length_take]; omega
    by_cases h1 : c.used + 16 > c.cap
    · have e0 : P.orErr (P.alloc 16) c = .ok (none, c.addError c.pos) := by simp [P.orErr, P.alloc, Ctx.alloc, h1]
      exact .of_none (P.bind_none e0) (Step.err hc _) (by simp [Ctx.addError])
    · have e0 : P.orErr (P.alloc 16) c = .ok (some (), { c with used := c.used + 16 }) := by simp [P.orErr, P.alloc, Ctx.alloc, h1]
      have s0 : Step c { c with used := c.used + 16 } := ⟨rfl, rfl, rfl, Nat.le_refl _, hc.pos, by simp, by simp only; omega, ErrsIn.refl⟩
      by_cases h2 : c.used + 16 + (k + 2) > c.cap
      · refine .of_none (c' := { c with used := c.used + 16 }.addError c.pos) ?_ (s0.addError _) (by simp [Ctx.addError])
        rw [P.bind_ok e0]
        refine P.bind_none ?_
        simp [P.orErr, P.allocStr, Sip.allocStr, h2, hlen, Ctx.addError]
      · refine .of_ok (v := [{ body := some (c.rest.take k) }]) (c' := { c with used := c.used + 16 + (k + 2) }) ?_ ?_ ?_ ?_
        · rw [P.bind_ok e0]
          have e1 : P.orErr (P.allocStr (c.rest.take k)) { c with used := c.used + 16 } = .ok (some (c.rest.take k), { c with used := c.used + 16 + (k + 2) }) := by
            simp only [P.orErr, P.allocStr, Sip.allocStr, hlen]; rw [if_neg h2]
          rw [P.bind_ok e1]; rfl
        · exact ⟨rfl, rfl, rfl, Nat.le_refl _, hc.pos, by simp only; omega, by simp only; omega, ErrsIn.refl⟩
        · obtain ⟨n, hn, hkn⟩ := hex (by omega)
          exact ⟨Or.inr ⟨n, k, hn, hkn, by omega, rfl⟩, rfl⟩
        · simp only; omega
  refine key _ ?_ ?_
  · split
    · split <;> omega
    · omega
  · intro hpos
    split at hpos
    · rename_i n _ heq
      refine ⟨n, by rw [heq]; rfl, ?_⟩
      split <;> omega
    · omega

/-! ## Multipart bodies -/

/-- the last line has no end, or is empty: behind the last LF of the input there is nothing, or a text that starts with a dash (the close delimiter) -/
def WellEnded (s : Bytes) : Prop := ∃ e y, s.drop e = [0x0d, 0x0a] ++ y ∧ 0x0a ∉ y ∧ (y = [] ∨ y.head? = some 0x2d)

theorem WellEnded.nh {c : Ctx} (hw : WellEnded c.src) (hb : BrackOk c.src) (ht : TelOk c.src) (hp : 0 < c.pos) (hlf : c.src[c.pos - 1]? = some 0x0a) : NH c := by
  obtain ⟨e, y, h1, h2, h3⟩ := hw
  refine ⟨e, ⟨y, h1, ?_⟩, fun i _ => ht i, ?_, fun i _ _ => hb i⟩
  · rcases h3 with h | h
    · exact Or.inl h
    · exact Or.inr (Or.inr ⟨h, h2⟩)
  · by_cases hle : c.pos ≤ e
    · exact Or.inl hle
    right
    obtain ⟨j, hj⟩ : ∃ j, c.pos - 1 = e + j := ⟨c.pos - 1 - e, by omega⟩
    have hg : (c.src.drop e)[j]? = some 0x0a := by rw [List.getElem?_drop, ← hj]; exact hlf
    rw [h1] at hg
    match j with
    | 0 => simp at hg
    | 1 => omega
    | j + 2 =>
      have : y[j]? = some 0x0a := by simpa using hg
      exact absurd (List.mem_of_getElem? this) h2

/-- a body part that was read: its headers are of the right sort, its text occurs in the input, and the delimiter `d` is not in it -/
def Body.Read (net : Net) (fl : Flags) (src d : Bytes) (b : Body) : Prop :=
  ∃ its, b.hdrs = Hdrs.ofItems its ∧ (NoStray src → ∀ it ∈ its, it.Ok net fl (bodyNeed fl)) ∧ ∀ t, b.body = some t → (∃ x z, src = x ++ t ++ z) ∧ (d ≠ [] → ¬ d <:+: t)

theorem bodyPart_safe (net : Net) (hnet : net.Ok) (d : Bytes) (c : Ctx) (hc : Inv c) :
    GSafe (BrackOk c.src ∧ TelOk c.src ∧ WellEnded c.src) (NoLoop c) true 257 252
      (fun b c' => b.Read net c.flags c.src d ∧ c.pos + 1 ≤ c'.pos) (parseBodyPart net d) c := by
  unfold parseBodyPart
  refine GSafe.seq (B2 := 252) (GSafe.orErr (l := true) (findCrlf_safe c hc)) (fun b c1 e1 hq1 s1 => ?_)
  refine GSafe.seq (B1 := 16) (B2 := 236) (Q := fun _ c2 => c2.pos = c1.pos ∧ c2.src = c1.src)
    (GSafe.orErr (l := true) (l' := false) (m := 0) ?_) (fun _ c2 e2 hq2 s2 => ?_)
  · by_cases h : c1.used + 16 > c1.cap
    · exact .of_none (c' := c1) (by simp [P.alloc, Ctx.alloc, h]) (Step.refl s1.inv) (by simp)
    · refine .of_ok (v := ()) (c' := { c1 with used := c1.used + 16 }) (by simp [P.alloc, Ctx.alloc, h]) ?_ ⟨rfl, rfl⟩ (by simp)
      exact ⟨rfl, rfl, rfl, Nat.le_refl _, s1.inv.pos, by simp, by simp only; omega, ErrsIn.refl⟩
  refine GSafe.get ?_
  have hsrc2 : c2.src = c.src := hq2.2.trans s1.src
  have hh := headers_safe net hnet (bodyNeed c2.flags) c2 s2.inv
  refine GSafe.seq (B2 := 2) (GSafe.orErr (l := true) (hh.mono (N' := BrackOk c.src ∧ TelOk c.src ∧ WellEnded c.src) (H' := NoLoop c) (l' := false) ?_ (fun h => Or.inl (h.step hsrc2 (Nat.le_trans s1.pos_le s2.pos_le))) (by simp) (Nat.le_refl _) (Nat.le_refl _) (fun _ _ _ h => h)))
    (fun its c3 e3 hq3 s3 => ?_)
  · rintro ⟨h1, h2, h3⟩
    refine WellEnded.nh (c := c2) (by rw [hsrc2]; exact h3) (by rw [hsrc2]; exact h1) (by rw [hsrc2]; exact h2) ?_ ?_
    · rw [hq2.1]; have := hq1.2.1; omega
    · rw [hq2.1, hsrc2]; exact hq1.2.2.2.2.2
  refine GSafe.get ?_
  cases hi : indexOf d c3.rest with
  | none => exact GSafe.err s3.inv
  | some e =>
    obtain ⟨g1, g2, g3⟩ := indexOf_some _ _ _ hi
    have hl := rest_length c3 s3.inv.pos
    have hlen : e + d.length ≤ c3.rest.length := by
      have := g1.length_le; rw [List.length_drop] at this; omega
    have htl : (c3.rest.take e).length = e := by rw [List.length_take]; omega
    have hsrc3 : c3.src = c.src := s3.src.trans hsrc2
    have hfl : c2.flags = c.flags := s2.flags.trans s1.flags
    have hits : NoStray c.src → ∀ it ∈ its, it.Ok net c.flags (bodyNeed c.flags) := by
      have := hq3.1; rw [hfl] at this; exact fun h => this (Or.inl (by rw [hsrc2]; exact h))
    have hpos : c.pos + 1 ≤ c3.pos := by have := s3.pos_le; have := hq1.2.1; omega
    simp only
    by_cases h : c3.used + (e + 2) > c3.cap
    · have ea : P.allocStrAny (c3.rest.take e) c3 = .ok (some none, c3) := by simp [P.allocStrAny, Sip.allocStr, htl, h]
      have eb : (P.allocStrAny (c3.rest.take e) >>= fun b => do P.skip (e + d.length); pure (⟨Hdrs.ofItems its, b⟩ : Body)) c3
          = .ok (some ⟨Hdrs.ofItems its, none⟩, c3.adv (e + d.length)) := P.bind_ok ea
      refine .of_ok eb (Step.adv s3.inv (by omega)) ⟨⟨its, rfl, hits, by simp⟩, by simp only [Ctx.adv]; omega⟩ (by simp only [Ctx.adv]; omega)
    · have ea : P.allocStrAny (c3.rest.take e) c3 = .ok (some (some (c3.rest.take e)), { c3 with used := c3.used + (e + 2) }) := by
        simp only [P.allocStrAny, Sip.allocStr, htl]; rw [if_neg h]
      have eb : (P.allocStrAny (c3.rest.take e) >>= fun b => do P.skip (e + d.length); pure (⟨Hdrs.ofItems its, b⟩ : Body)) c3
          = .ok (some ⟨Hdrs.ofItems its, some (c3.rest.take e)⟩, { c3 with used := c3.used + (e + 2) }.adv (e + d.length)) := P.bind_ok ea
      refine .of_ok eb ?_ ⟨⟨its, rfl, hits, ?_⟩, by simp only [Ctx.adv]; omega⟩ (by simp only [Ctx.adv]; omega)
      · exact ⟨rfl, rfl, rfl, by simp only [Ctx.adv]; omega, by simp only [Ctx.adv]; omega, by simp only [Ctx.adv]; omega, by simp only [Ctx.adv]; omega, ErrsIn.refl⟩
      · rintro t ht
        cases ht
        refine ⟨⟨c.src.take c3.pos, c.src.drop (c3.pos + e), ?_⟩, ?_⟩
        · unfold Ctx.rest
          rw [hsrc3, List.append_assoc, ← List.drop_drop, List.take_append_drop, List.take_append_drop]
        · rintro hd ⟨x, z, hx⟩
          have hdl : 0 < d.length := List.length_pos_iff.2 hd
          have hxl := congrArg List.length hx
          simp only [List.length_append, htl] at hxl
          refine g3 x.length (by omega) ?_
          have : (c3.rest.take e).drop x.length = d ++ z := by rw [← hx, List.append_assoc, List.drop_left]
          refine (List.prefix_append d z).trans ?_
          rw [← this]
          rw [List.drop_take]; exact List.take_prefix _ _

theorem multiBodies_safe (net : Net) (hnet : net.Ok) (d : Bytes) (c : Ctx) (hc : Inv c) :
    GSafe (BrackOk c.src ∧ TelOk c.src ∧ WellEnded c.src) (NoLoop c) false 509 252
      (fun bs _ => ∀ b ∈ bs, b.Read net c.flags c.src d) (P.forLoop (multiBody net d) []) c := by
  refine GSafe.forLoop (B' := 252) (d := 1) (m := 257) (B := 252)
    (I := fun bs c2 => (∀ b ∈ bs, b.Read net c.flags c.src d) ∧ (NoLoop c → NoLoop c2)) ?_ (by omega) (by omega) ⟨by simp, id⟩ hc
  rintro acc c1 ⟨hI, hL⟩ hc1 hfl hsrc
  unfold multiBody
  refine GSafe.get ?_
  by_cases h1 : c1.pos ≥ c1.src.length
  · rw [if_pos h1]; exact GSafe.fail hc1
  rw [if_neg h1]
  by_cases h2 : c1.pos + 1 ≥ c1.src.length
  · rw [if_pos h2]; exact GSafe.err hc1
  rw [if_neg h2]
  by_cases h3 : c1.src[c1.pos]? = some 0x2d ∨ c1.src[c1.pos + 1]? = some 0x2d
  · rw [if_pos h3]
    exact .of_ok (v := .inr acc) (c' := c1.adv 2) rfl (Step.adv hc1 (by omega)) hI (by simp only [Ctx.adv]; omega)
  rw [if_neg h3]
  have hp := bodyPart_safe net hnet d c1 hc1
  rw [hsrc, hfl] at hp
  refine GSafe.seq (B2 := 0) (hp.mono id hL (l' := false) (by simp) (Nat.le_refl _) (Nat.le_refl _) (fun _ _ _ h => h)) (fun b c2 e2 hq s2 => ?_)
  refine GSafe.pure s2.inv ⟨⟨?_, fun h => (hL h).step s2.src s2.pos_le⟩, hq.2⟩
  intro x hx
  rcases List.mem_append.1 hx with h | h
  · exact hI x h
  · rw [List.mem_singleton] at h; subst h; exact hq.1

/-- **C28 - C31 for multipart bodies** -/
theorem multiBody_safe (net : Net) (hnet : net.Ok) (boundary : Bytes) (c : Ctx) (hc : Inv c) :
    GSafe (BrackOk c.src ∧ TelOk c.src ∧ WellEnded c.src) (NoLoop c) false 509 252
      (fun bs _ => ∀ b ∈ bs, b.Read net c.flags c.src (0x0d :: 0x0a :: 0x2d :: 0x2d :: boundary)) (parseMultiBody net boundary) c := by
  unfold parseMultiBody
  refine GSafe.get ?_
  by_cases h : (0x2d :: 0x2d :: boundary).isPrefixOf c.rest = true
  · rw [if_neg (by simp [h])]
    have hle : (0x2d :: 0x2d :: boundary : Bytes).length ≤ c.rest.length := by
      rw [List.isPrefixOf_iff_prefix] at h; exact h.length_le
    have hl := rest_length c hc.pos
    have st : Step c (c.adv (0x2d :: 0x2d :: boundary : Bytes).length) := Step.adv hc (by omega)
    refine GSafe.seq (B2 := 252) (Q := fun _ c' => c' = c.adv (0x2d :: 0x2d :: boundary : Bytes).length)
      (.of_ok (m := 0) (B := 0) (l := false) (v := ()) rfl st rfl (by simp only [Ctx.adv]; omega)) (fun _ c1 e1 hq s1 => ?_)
    have := multiBodies_safe net hnet (0x0d :: 0x0a :: 0x2d :: 0x2d :: boundary) c1 s1.inv
    rw [s1.src, s1.flags] at this
    exact this.mono id (fun h => h.step s1.src s1.pos_le) id (Nat.le_refl _) (Nat.le_refl _) (fun _ _ _ h => h)
  · rw [if_pos (by simp [h])]; exact GSafe.err hc

/-! ## Messages -/

theorem P.orErr_some {α : Type} {p : P α} {v : α} {c c' : Ctx} (h : P.orErr p c = .ok (some v, c')) : p c = .ok (some v, c') := by
  unfold P.orErr at h
  rcases hp : p c with ⟨_ | a, c1⟩ | _ | _ <;> rw [hp] at h <;> first | exact h | cases h

/-- the boundary of a Content-Type -/
def boundaryText : Option GenValue → Bytes
  | some v => v.bytes
  | none => []

/-- the bodies of a message that was read: without Content-Type none; the parts of a multipart message; or at most one body of the length of Content-Length (or less,
when the input ends) -/
def BodiesOf (net : Net) (hs : Hdrs) (c : Ctx) (bs : List Body) : Prop :=
  (hs.common .contentType = [] ∧ bs = []) ∨
  (∃ ct l, hs.common .contentType = ct :: l ∧ ct.isMultipart = false ∧ SingleBody hs c bs) ∨
  (∃ ct l v, hs.common .contentType = ct :: l ∧ ct.isMultipart = true ∧ ct.boundary? = some v ∧
    ∀ b ∈ bs, b.Read net c.flags c.src (0x0d :: 0x0a :: 0x2d :: 0x2d :: boundaryText v))

theorem msgBody_safe (net : Net) (hnet : net.Ok) (hs : Hdrs) (c : Ctx) (hc : Inv c) :
    GSafe ((hs.common .contentType).head?.map HVal.isMultipart = some true → BrackOk c.src ∧ TelOk c.src ∧ WellEnded c.src)
      ((hs.common .contentType).head?.map HVal.isMultipart = some true → NoLoop c) false 509 (c.src.length - c.pos + 252)
      (fun bs _ => BodiesOf net hs c bs) (parseMsgBody net hs) c := by
  unfold parseMsgBody
  cases hct : hs.common .contentType with
  | nil => exact GSafe.pure hc (Or.inl ⟨hct, rfl⟩)
  | cons ct l =>
    simp only
    by_cases hm : ct.isMultipart = true
    · rw [if_pos hm]
      have hmp : (ct :: l).head?.map HVal.isMultipart = some true := by simp [hm]
      cases hv : ct.boundary? with
      | none => exact GSafe.err hc
      | some v =>
        exact (multiBody_safe net hnet _ c hc).mono (fun h => h hmp) (fun h => h hmp) id (Nat.le_refl _) (by omega) (fun _ _ _ h => Or.inr (Or.inr ⟨ct, l, v, hct, hm, hv, h⟩))
    · rw [if_neg hm]
      exact (singleBody_safe hs c hc).mono id id (by simp) (by omega) (by omega) (fun _ _ _ h => Or.inr (Or.inl ⟨ct, l, hct, by simpa using hm, h.1⟩))

/-- the message at the position has a multipart body: its start line and its headers are read, and its Content-Type is `multipart` -/
def HasParts (net : Net) (c : Ctx) : Prop :=
  ∃ s c1 its c2, StartLine.parse net c = .ok (some s, c1) ∧ parseHeaders net (msgNeed c.flags) c1 = .ok (some its, c2) ∧
    ((Hdrs.ofItems its).common .contentType).head?.map HVal.isMultipart = some true

/-- what excludes a panic of the message parser: the headers have an end, up to there no bracket is closed behind the end of its line and no `phone-context` stands
without value, and when the body has parts, the whole input is such and ends well -/
structure MsgOk (net : Net) (c : Ctx) : Prop where
  head : ∃ e, c.pos ≤ e ∧ HeadEnd c.src e ∧ (∀ i, c.pos ≤ i → i < e → ¬ OpenAt c.src i) ∧ ∀ i, i ≤ e → ¬ TelBare c.src i
  parts : HasParts net c → WellEnded c.src ∧ BrackOk c.src ∧ TelOk c.src

/-- what excludes an endless loop of the message parser: no quoted string starts in it that loops for ever; for a message without parts it is enough that none starts up to
the end of the headers, and no bracket is closed behind the end of its line -/
def MsgEnds (net : Net) (c : Ctx) : Prop :=
  NoLoop c ∨ (¬ HasParts net c ∧ ∃ e, c.pos ≤ e ∧ HeadEnd c.src e ∧ ∀ i, c.pos ≤ i → i < e → ¬ (OpenAt c.src i ∨ QLoop c.src i))

/-- what makes the headers of a message be as expected: no stray CR or LF; for a message without parts it is enough that there is none up to the end of the headers,
and no bracket closed behind the end of its line -/
def MsgHalts (net : Net) (c : Ctx) : Prop :=
  NoStray c.src ∨ (¬ HasParts net c ∧ ∃ e, c.pos ≤ e ∧ HeadEnd c.src e ∧ ∀ i, c.pos ≤ i → i < e → ¬ (OpenAt c.src i ∨ StrayAt c.src i))

theorem MsgHalts.ends {net : Net} {c : Ctx} (h : MsgHalts net c) : MsgEnds net c := by
  rcases h with h | ⟨h, e, he, hh, hA⟩
  · exact Or.inl h.noLoop
  · refine Or.inr ⟨h, e, he, hh, fun i h1 h2 h3 => ?_⟩
    rcases h3 with h3 | h3
    · exact hA i h1 h2 (Or.inl h3)
    · obtain ⟨j, g1, g2, g3⟩ := h3.stray
      exact hA j (by omega) (Nat.lt_of_not_le fun hle => g3 e h2 hle hh.eol) (Or.inr g2)

theorem MsgHalts.of_noStray {net : Net} {c : Ctx} (h : NoStray c.src) : MsgHalts net c := Or.inl h

/-- what the message parser returns: a start line, headers of which just those asked for are parsed, and bodies -/
def Msg.Read (net : Net) (c : Ctx) (m : Msg) : Prop :=
  m.start.Parsed net c.flags ∧ ∃ its, m.hdrs = Hdrs.ofItems its ∧ (MsgHalts net c → ∀ it ∈ its, it.Ok net c.flags (msgNeed c.flags)) ∧
    ((m.hdrs.common .contentType).head?.map HVal.isMultipart = some true → HasParts net c) ∧
    ∃ c', c'.src = c.src ∧ c'.flags = c.flags ∧ c.pos ≤ c'.pos ∧ AfterHeaders c' ∧ BodiesOf net m.hdrs c' m.bodies

/-- **C28 - C31 for messages** For every input, every arena and every setting: the parser of messages moves forward inside the input, records an error whenever it
fails, does not panic when the input has an end of headers (and a multipart body an end) and the arena has room for it, terminates on every input in which no quoted string
starts that loops for ever (in the headers, when the body has no parts), uses memory in proportion to the text, and returns headers and bodies that are in the input. -/
theorem msg_safe (net : Net) (hnet : net.Ok) (c : Ctx) (hc : Inv c) :
    GSafe (MsgOk net c) (MsgEnds net c) true 509 (c.src.length - c.pos + 562) (fun m _ => m.Read net c) (Msg.parse net) c := by
  unfold Msg.parse
  have h1 := (startLine_safe net hnet c hc).mono (N' := MsgOk net c) (H' := MsgEnds net c) (l' := true) (m' := 509) (B' := 76) (Q' := StartLine.After net c)
    (fun h => by obtain ⟨e, he, hh, hA, hT⟩ := h.head; exact ⟨fun _ => ⟨⟨e, he, hh.eol⟩, Ahead.on hh he hA⟩, fun _ i hi => hT i (hi e he hh.eol)⟩)
    (fun h _ => by
      rcases h with h | ⟨_, e, he, hh, hA⟩
      · exact Or.inl h
      · exact Or.inr ⟨fun i hi hs => Ahead.on hh he hA i hi (Or.inr hs), fun i hi hs => Ahead.on hh he hA i hi (Or.inl hs)⟩) (by simp) (by omega) (by omega) (fun _ _ _ h => h)
  refine GSafe.seq (B2 := c.src.length - c.pos + 486) (GSafe.orErr (l := true) h1) (fun s c1 e1 hq1 s1 => ?_)
  refine GSafe.get ?_
  by_cases hend : c1.pos ≥ c1.src.length
  · rw [if_pos hend]; exact GSafe.err s1.inv
  rw [if_neg hend]
  have e1' : StartLine.parse net c = .ok (some s, c1) := P.orErr_some e1
  have hahead : ∀ T A : Nat → Prop, (∀ i, OpenAt c.src i → A i) → (∃ e, c.pos ≤ e ∧ HeadEnd c.src e ∧ (∀ i, c.pos ≤ i → i < e → ¬ A i) ∧ T e) → AheadT T A c1 := by
    rintro T A hOA ⟨e, he, hh, hA, hT⟩
    have hb : BrackOn c := fun i hi ho => Ahead.on hh he hA i hi (hOA i ho)
    exact ⟨e, by rw [s1.src]; exact hh, hT, hq1.2.1 (fun _ => hb) e he hh.eol, fun i hi => hA i (Nat.le_trans s1.pos_le hi)⟩
  have hHH : MsgHalts net c → HH c1 := by
    rintro (h | ⟨_, h⟩)
    · exact Or.inl (by rw [s1.src]; exact h)
    · right; rw [s1.src]; obtain ⟨e, h1, h2, h3⟩ := h; exact hahead _ _ (fun _ h => Or.inl h) ⟨e, h1, h2, h3, trivial⟩
  have hHL : MsgEnds net c → HL c1 := by
    rintro (h | ⟨_, h⟩)
    · exact Or.inl (h.step s1.src s1.pos_le)
    · right; rw [s1.src]; obtain ⟨e, h1, h2, h3⟩ := h; exact hahead _ _ (fun _ h => Or.inl h) ⟨e, h1, h2, h3, trivial⟩
  have h2 := (headers_safe net hnet (msgNeed c1.flags) c1 s1.inv).mono (N' := MsgOk net c) (H' := MsgEnds net c) (l' := false) (m' := 509) (B' := 234)
    (fun h => by
      unfold NH
      rw [s1.src]
      exact hahead _ _ (fun _ h => h) h.head)
    hHL (by simp) (by omega) (by omega) (fun _ _ _ h => h)
  refine GSafe.seq (B2 := c.src.length - c.pos + 252) (GSafe.orErr (l := true) h2) (fun its c2 e2 hq2 s2 => ?_)
  have e2' : parseHeaders net (msgNeed c1.flags) c1 = .ok (some its, c2) := P.orErr_some e2
  have hsrc2 : c2.src = c.src := s2.src.trans s1.src
  have hfl2 : c2.flags = c.flags := s2.flags.trans s1.flags
  have hparts : ((Hdrs.ofItems its).common .contentType).head?.map HVal.isMultipart = some true → HasParts net c :=
    fun hp => ⟨s, c1, its, c2, e1', by rw [← s1.flags]; exact e2', hp⟩
  have h3 := (msgBody_safe net hnet (Hdrs.ofItems its) c2 s2.inv).mono (N' := MsgOk net c) (H' := MsgEnds net c) (l' := false) (m' := 509) (B' := c.src.length - c.pos + 252)
    (fun h hp => by
      rw [hsrc2]
      exact ⟨(h.parts (hparts hp)).2.1, (h.parts (hparts hp)).2.2, (h.parts (hparts hp)).1⟩)
    (fun h hp => by
      rcases h with h | h
      · exact h.step hsrc2 (Nat.le_trans s1.pos_le s2.pos_le)
      · exact absurd (hparts hp) h.1) (by simp) (Nat.le_refl _) (by have := s1.pos_le; have := s2.pos_le; rw [hsrc2]; omega) (fun _ _ _ h => h)
  refine GSafe.seq (B2 := 0) (GSafe.orErr (l := true) h3) (fun bs c3 e3 hq3 s3 => ?_)
  refine GSafe.pure s3.inv ⟨hq1.1, its, rfl, ?_, hparts, c2, hsrc2, hfl2, by have := s1.pos_le; have := s2.pos_le; omega, hq2.2, hq3⟩
  have := hq2.1
  rw [s1.flags] at this
  exact fun h => this (hHH h)

/-! ## Raw headers and the raw scan -/

/-- a place where the headers end is still to come or just passed -/
def EndAhead (c : Ctx) : Prop := ∃ e, HeadEnd c.src e ∧ (c.pos ≤ e ∨ c.pos = e + 2)

theorem rawHeadersBody_safe (acc : List RawHeader) (c : Ctx) (hc : Inv c) :
    GSafe (EndAhead c) True false 1 12
      (fun r c' => match r with
        | .inl hs => ((∃ h, hs = acc ++ [h]) ∧ (EndAhead c → EndAhead c')) ∧ c.pos + 3 ≤ c'.pos
        | .inr hs => hs = acc ∧ AfterHeaders c')
      (rawHeadersBody acc) c := by
  unfold rawHeadersBody
  refine GSafe.get ?_
  by_cases h1 : c.pos ≥ c.src.length
  · rw [if_pos h1]; exact GSafe.pure hc ⟨rfl, Or.inl (by have := hc.pos; omega)⟩
  rw [if_neg h1]
  by_cases h2 : isCRLF c.src c.pos = true
  · rw [if_pos h2]
    have hlen : c.pos + 2 ≤ c.src.length := by
      obtain ⟨y, hy⟩ := (isCRLF_iff c).1 h2
      have := rest_length c hc.pos
      rw [hy] at this; simp at this; omega
    exact .of_ok (v := .inr acc) (c' := c.adv 2) rfl (Step.adv hc hlen) ⟨rfl, Or.inr ⟨c.pos, rfl, h2⟩⟩ (by simp only [Ctx.adv]; omega)
  rw [if_neg h2]
  have hwhere : EndAhead c → ∃ e, HeadEnd c.src e ∧ (c.pos ≤ e ∨ (c.pos = e + 2 ∧ c.cur? = some 0x2d ∧ 0x0a ∉ c.rest)) := by
    rintro ⟨e, he, hp | hp⟩
    · exact ⟨e, he, Or.inl hp⟩
    · refine ⟨e, he, Or.inr ⟨hp, ?_⟩⟩
      obtain ⟨y, hy, h⟩ := he
      have hrest : c.rest = y := by
        unfold Ctx.rest; rw [hp, ← List.drop_drop, hy]; rfl
      have hl := rest_length c hc.pos
      rcases h with rfl | ⟨z, rfl⟩ | h
      · rw [hrest] at hl; simp at hl; omega
      · exact absurd ((isCRLF_iff c).2 ⟨z, hrest⟩) h2
      · rw [cur_eq_head, hrest]; exact h
  have hname : EndAhead c → NameOk c := by
    intro h
    obtain ⟨e, he, hp | hp⟩ := hwhere h
    · left
      have := lineEnd_lf hp he.eol
      exact ⟨0x0a, List.mem_of_getElem? this.1, by decide, by decide⟩
    · exact Or.inr hp.2.1
  refine GSafe.seq (B2 := 10) (msgHeaderName_safe c hc hname) (fun r c1 e1 hq s1 => ?_)
  obtain ⟨q1, q2, q3, q4⟩ := hq
  obtain ⟨n, i⟩ := r
  refine GSafe.seq (B2 := 0) (rawHeader_safe i n c1 s1.inv) (fun h c2 e2 hq2 s2 => ?_)
  obtain ⟨p1, p2, p3, p4⟩ := hq2
  refine GSafe.pure s2.inv ⟨⟨⟨h, rfl⟩, fun hN => ?_⟩, by omega⟩
  obtain ⟨e, he, hp | hp⟩ := hwhere hN
  · exact ⟨e, by rw [s2.src, s1.src]; exact he, (q1.trans2 s1.src p2) e hp he.eol⟩
  · exfalso
    apply hp.2.2
    have : c1.rest = c.rest.drop (c1.pos - c.pos) := by
      unfold Ctx.rest; rw [s1.src, List.drop_drop]; congr 1; have := s1.pos_le; omega
    rw [this] at p4
    exact List.mem_of_mem_drop p4

/-- **C25, C28 - C31 for raw headers** For every input: the parser of raw headers terminates, moves forward inside the input, uses at most five bytes of memory
for a byte of text (and 12 more), stops behind an empty line or at the end, and does not panic when the headers have an end and the arena has room. -/
theorem rawHeaders_safe (c : Ctx) (hc : Inv c) : GSafe (EndAhead c) True false 5 12 (fun _ c' => AfterHeaders c') parseRawHeaders c := by
  unfold parseRawHeaders
  refine GSafe.forLoop (B' := 4) (d := 3) (m := 1) (B := 12) (I := fun _ c2 => EndAhead c → EndAhead c2) ?_ (by omega) (by omega) id hc
  intro acc c2 hI hc2 _ _
  refine (rawHeadersBody_safe acc c2 hc2).mono hI id id (Nat.le_refl _) (Nat.le_refl _) ?_
  rintro (hs | hs) c' _ hq
  · exact ⟨fun h => hq.1.2 (hI h), hq.2⟩
  · exact hq.2

/-- **C26, C28 - C31 for the raw scan** For every input, without any condition: the scan neither panics nor runs forever, uses no memory, and stops behind an
empty line or at the end of the input. -/
theorem rawScan_safe (c : Ctx) (hc : Inv c) : GSafe True True false 0 0 (fun _ c' => AfterHeaders c') rawScan c := by
  unfold rawScan
  refine GSafe.forLoop (B' := 0) (d := 1) (m := 0) (B := 0) (I := fun _ _ => True) ?_ (by omega) (by omega) trivial hc
  intro _ c2 _ hc2 _ _
  unfold rawScanBody
  refine GSafe.get ?_
  by_cases h1 : c2.pos ≥ c2.src.length
  · rw [if_pos h1]; exact GSafe.pure hc2 (Or.inl (by have := hc2.pos; omega))
  rw [if_neg h1]
  by_cases h2 : isCRLF c2.src c2.pos = true
  · rw [if_pos h2]
    have hlen : c2.pos + 2 ≤ c2.src.length := by
      obtain ⟨y, hy⟩ := (isCRLF_iff c2).1 h2
      have := rest_length c2 hc2.pos
      rw [hy] at this; simp at this; omega
    exact .of_ok (v := .inr ()) (c' := c2.adv 2) rfl (Step.adv hc2 hlen) (Or.inr ⟨c2.pos, rfl, h2⟩) (by simp only [Ctx.adv]; omega)
  rw [if_neg h2]
  refine GSafe.seq (B2 := 0) (findCrlf_safe c2 hc2) (fun b c3 e3 hq s3 => ?_)
  exact GSafe.pure s3.inv ⟨trivial, hq.2.1⟩

/-! ## The conditions, as tests -/

/-- every `[` is followed by a `]` before any CR -/
def brackTest : Bytes → Bool
  | [] => true
  | b :: y => (b != 0x5b || (y.takeWhile (fun x => x != 0x0d)).contains 0x5d) && brackTest y

theorem brackTest_closed : ∀ (s : Bytes) (i : Nat), brackTest s = true → s[i]? = some 0x5b →
      ∃ k, i < k ∧ s[k]? = some 0x5d ∧ ∀ j, i ≤ j → j ≤ k → s[j]? ≠ some 0x0d := by
    intro s
    induction s with
    | nil => intro i _ hi; simp at hi
    | cons b y ih =>
      intro i h hi
      simp only [brackTest, Bool.and_eq_true] at h
      cases i with
      | zero =>
        simp only [List.getElem?_cons_zero, Option.some.injEq] at hi
        have h1 := h.1
        rw [hi] at h1
        simp only [bne_self_eq_false, Bool.false_or, List.contains_iff_mem] at h1
        obtain ⟨k, hk⟩ := List.mem_iff_getElem?.1 h1
        obtain ⟨hlt, hk'⟩ := List.getElem?_eq_some_iff.1 hk
        have hpre : ∀ n, n < (y.takeWhile (fun x : UInt8 => x != 0x0d)).length → y[n]? = (y.takeWhile (fun x : UInt8 => x != 0x0d))[n]? := by
          intro n hn
          obtain ⟨t, ht⟩ := List.takeWhile_prefix (fun x : UInt8 => x != 0x0d) (l := y)
          conv => lhs; rw [← ht]
          exact List.getElem?_append_left hn
        refine ⟨k + 1, by omega, ?_, ?_⟩
        · rw [List.getElem?_cons_succ, hpre k hlt]; exact hk
        · intro j _ hj
          cases j with
          | zero => rw [List.getElem?_cons_zero, hi]; decide
          | succ j =>
            rw [List.getElem?_cons_succ]
            intro hc
            have hjl : j < (y.takeWhile (fun x : UInt8 => x != 0x0d)).length := by omega
            have e2 : (y.takeWhile (fun x : UInt8 => x != 0x0d))[j]? = some 0x0d := by
              rw [← hpre j hjl]; exact hc
            have := List.all_eq_true.1 (List.all_takeWhile (p := fun x : UInt8 => x != 0x0d) (l := y)) 0x0d (List.mem_of_getElem? e2)
            simp at this
      | succ i =>
        rw [List.getElem?_cons_succ] at hi
        obtain ⟨k, g1, g2, g3⟩ := ih i h.2 hi
        refine ⟨k + 1, by omega, by rw [List.getElem?_cons_succ]; exact g2, ?_⟩
        intro j h1 h2
        cases j with
        | zero => omega
        | succ j => rw [List.getElem?_cons_succ]; exact g3 j (by omega) (by omega)

theorem brackTest_ok (s : Bytes) (h : brackTest s = true) : BrackOk s := by
  rintro i ⟨hi, e, he, hs, hno, _⟩
  obtain ⟨k, g1, g2, g3⟩ := brackTest_closed s i h hi
  have hke : e ≤ k := by
    false_or_by_contra
    exact hno k (by omega) (by omega) g2
  obtain ⟨z, hz, _⟩ := hs
  refine g3 e he hke ?_
  rw [← Nat.add_zero e, ← List.getElem?_drop, hz]; rfl

/-- reading a name, with escapes -/
def decodeTest (s : CS) : Bytes → Option (Bytes × Bytes)
  | [] => some ([], [])
  | v :: t => if s.mem v then (decodeTest s t).map (fun r => (v :: r.1, r.2)) else if v = 0x25 then
      match t with
      | a :: b :: t' => if isHex a && isHex b then (decodeTest s t').map (fun r => (unescapeByte a b :: r.1, r.2)) else none
      | _ => none
    else some ([], v :: t)

theorem decodeTest_eq {s : CS} {t o y : Bytes} (h : Decodes s t o y) : decodeTest s t = some (o, y) := by
  induction h with
  | stop y h =>
    cases y with
    | nil => rfl
    | cons v t =>
      obtain ⟨h1, h2⟩ := h v rfl
      unfold decodeTest
      rw [if_neg (by simp [h1]), if_neg h2]
  | lit v t o y h _ ih => unfold decodeTest; rw [if_pos h, ih]; rfl
  | esc a b t o y h ha hb _ ih =>
    unfold decodeTest
    rw [if_neg (by simp [h]), if_pos rfl]
    simp only [ha, hb, Bool.and_self, if_true, ih]
    rfl

def telTest1 (s : Bytes) : Bool :=
  match decodeTest csSipPname s with
  | some (o, y) => o.map asciiLower != str "phone-context" || y.head? == some 0x3d
  | none => true

def telTest : Bytes → Bool
  | [] => true
  | b :: y => telTest1 (b :: y) && telTest y

/-- a text of name bytes reads as itself -/
theorem decodes_plain {s : CS} (t : Bytes) (h : ∀ b ∈ t, s.mem b = true) : Decodes s t t [] := by
  induction t with
  | nil => exact .stop [] (by simp)
  | cons v t ih => exact .lit v t t [] (h v (by simp)) (ih fun b hb => h b (by simp [hb]))

theorem telTest1_ok {s : Bytes} {i : Nat} (h1 : telTest1 (s.drop i) = true) : ¬ TelBare s i := by
  rintro ⟨o, y, hd, ho, hne⟩
  refine hne ?_
  unfold telTest1 at h1
  rw [decodeTest_eq hd] at h1
  simp only [ho, bne_self_eq_false, Bool.false_or, beq_iff_eq] at h1
  exact h1

theorem telTest_ok (s : Bytes) (h : telTest s = true) : TelOk s := by
  intro i
  refine telTest1_ok ?_
  induction s generalizing i with
  | nil => rw [List.drop_nil]; decide
  | cons b z ih =>
    simp only [telTest, Bool.and_eq_true] at h
    cases i with
    | zero => exact h.1
    | succ i => exact ih h.2 i

def strayTest (s : Bytes) : Bool :=
  (List.range s.length).all fun i =>
    (s[i]? != some 0x0d || s[i + 1]? == some 0x0a) && (s[i]? != some 0x0a || (i != 0 && s[i - 1]? == some 0x0d)) &&
    (s[i]? != some 0x5c || (s[i + 1]? != some 0x0d && s[i + 1]? != some 0x0a))

theorem strayTest_ok (s : Bytes) (h : strayTest s = true) : NoStray s := by
  unfold strayTest at h
  rw [List.all_eq_true] at h
  have hr : ∀ (i : Nat) (b : UInt8), s[i]? = some b → i ∈ List.range s.length := by
    intro i b hi
    obtain ⟨hlt, _⟩ := List.getElem?_eq_some_iff.1 hi
    exact List.mem_range.2 hlt
  rintro i (⟨hi, h2⟩ | ⟨hi, h2⟩ | ⟨hi, h2⟩)
  · have := h i (hr i _ hi); simp [hi] at this; exact h2 this
  · have := h i (hr i _ hi); simp [hi] at this
    exact h2 (i - 1) (by omega) this.2
  · have := h i (hr i _ hi); simp [hi] at this
    rcases h2 with h2 | h2
    · exact this.1 h2
    · exact this.2 h2

/-! ## Messages that meet the conditions -/

/-- a request with a body -/
def msgSample : Bytes := str "INVITE sip:bob@[::1] SIP/2.0\r\nVia: SIP/2.0/UDP a.b;branch=z9\r\nTo: \"Bob\" <sip:bob@b.c>\r\nX-Y: z\r\nContent-Type: a/b\r\nContent-Length: 5\r\n\r\nv=0\r\n"

/-- a response with two parts -/
def partsSample : Bytes := str "SIP/2.0 200 OK\r\nContent-Type: multipart/mixed;boundary=xx\r\n\r\n--xx\r\nContent-Length: 2\r\n\r\nab\r\n--xx\r\nS: t\r\n\r\nc\r\n--xx--"

/-- a test for the conditions of `msg_safe` -/
theorem MsgOk.of_test (net : Net) (c : Ctx) (e e2 : Nat) (hb : brackTest c.src = true) (ht : telTest c.src = true) (hp : c.pos ≤ e)
    (h1 : (c.src.drop e).take 4 = [0x0d, 0x0a, 0x0d, 0x0a]) (h2 : (c.src.drop e2).take 2 = [0x0d, 0x0a])
    (h3 : 0x0a ∉ (c.src.drop e2).drop 2) (h4 : (c.src.drop e2).drop 2 = [] ∨ ((c.src.drop e2).drop 2).head? = some 0x2d) : MsgOk net c := by
  refine ⟨⟨e, hp, ⟨0x0d :: 0x0a :: (c.src.drop e).drop 4, ?_, Or.inr (Or.inl ⟨_, rfl⟩)⟩, fun i _ _ => brackTest_ok _ hb i, fun i _ => telTest_ok _ ht i⟩,
    fun _ => ⟨⟨e2, (c.src.drop e2).drop 2, ?_, h3, h4⟩, brackTest_ok _ hb, telTest_ok _ ht⟩⟩
  · conv => lhs; rw [← List.take_append_drop 4 (c.src.drop e), h1]
    rfl
  · conv => lhs; rw [← List.take_append_drop 2 (c.src.drop e2), h2]

theorem msgSample_ok : MsgOk Net.sample { src := msgSample, cap := 100000 } ∧ NoStray msgSample ∧
    Inv { src := msgSample, cap := 100000 } ∧ Room { src := msgSample, cap := 100000 } 509 (msgSample.length + 562) :=
  ⟨MsgOk.of_test _ _ 131 138 (by decide +kernel) (by decide +kernel) (by decide) (by decide +kernel) (by decide +kernel) (by decide +kernel) (by decide +kernel),
    strayTest_ok _ (by decide +kernel), ⟨by decide +kernel, by decide +kernel⟩, by unfold Room; decide +kernel⟩

theorem partsSample_ok : MsgOk Net.sample { src := partsSample, cap := 100000 } ∧ NoStray partsSample ∧
    Inv { src := partsSample, cap := 100000 } ∧ Room { src := partsSample, cap := 100000 } 509 (partsSample.length + 562) :=
  ⟨MsgOk.of_test _ _ 57 107 (by decide +kernel) (by decide +kernel) (by decide) (by decide +kernel) (by decide +kernel) (by decide +kernel) (by decide +kernel),
    strayTest_ok _ (by decide +kernel), ⟨by decide +kernel, by decide +kernel⟩, by unfold Room; decide +kernel⟩

theorem partsSample_halts : MsgHalts Net.sample { src := partsSample, cap := 100000 } := by
  obtain ⟨_, h, _⟩ := partsSample_ok
  generalize partsSample = s at h ⊢
  exact Or.inl h

/-- an arena of 32768 bytes, for which the value layer describes the library, is enough for a small message -/
theorem smallSample_ok : MsgOk Net.sample { src := str "SIP/2.0 200 OK\r\nTo: <sip:a@b>\r\n\r\n", cap := 32768 } ∧
    Room { src := str "SIP/2.0 200 OK\r\nTo: <sip:a@b>\r\n\r\n", cap := 32768 } 509 (34 + 562) :=
  ⟨MsgOk.of_test _ _ 29 31 (by decide +kernel) (by decide +kernel) (by decide +kernel) (by decide +kernel) (by decide +kernel) (by decide +kernel) (by decide +kernel),
    by unfold Room; decide +kernel⟩

/-! A body may be any text: the conditions reach only up to the end of the headers -/

theorem startsEol_at {s : Bytes} {i : Nat} (h : StartsEol (s.drop i)) : s[i]? = some 0x0d := by
  have := startsEol_head h
  rw [List.head?_drop] at this; exact this

/-- a test of the conditions for the headers: the first `n` bytes have no stray CR or LF, and every bracket in them is closed before any CR -/
theorem head_of_test (s : Bytes) (n : Nat) (h1 : brackTest (s.take n) = true) (h2 : strayTest (s.take (n + 2)) = true) :
    ∀ i, i < n → ¬ (OpenAt s i ∨ StrayAt s i) := by
  have hget : ∀ m i, i < m → (s.take m)[i]? = s[i]? := fun m i h => by rw [List.getElem?_take, if_pos h]
  rintro i hi (⟨ho, e, he, hs, hno, k, hk, hk2⟩ | hs)
  · obtain ⟨k', g1, g2, g3⟩ := brackTest_closed _ i h1 (by rw [hget _ _ hi]; exact ho)
    have hk'n : k' < n := by
      have := (List.getElem?_eq_some_iff.1 g2).1; rw [List.length_take] at this; omega
    by_cases hke : k' < e
    · exact hno k' (by omega) hke (by rw [← hget n k' hk'n]; exact g2)
    · exact g3 e he (by omega) (by rw [hget n e (by omega)]; exact startsEol_at hs)
  · refine strayTest_ok _ h2 i ?_
    unfold StrayAt at hs ⊢
    rw [hget _ _ (by omega), hget _ _ (by omega)]
    rcases hs with h | ⟨h, hj⟩ | h
    · exact Or.inl h
    · refine Or.inr (Or.inl ⟨h, fun j hj2 => ?_⟩)
      rw [hget _ _ (by omega)]; exact hj j hj2
    · exact Or.inr (Or.inr h)

/-- a request whose body has bare LFs, a bracket that is not closed on its line, a backslash before LF, and a `phone-context` without value -/
def bodySample : Bytes := str "INFO sip:bob@b.c SIP/2.0\r\nContent-Type: a/b\r\nContent-Length: 25\r\n\r\na\n[\\\nb\r\n]\rc;phone-context"

theorem bodySample_noParts : ¬ HasParts Net.sample { src := bodySample, cap := 100000 } := by
  rintro ⟨s, c1, its, c2, h1, h2, h3⟩
  have : (StartLine.parse Net.sample { src := bodySample, cap := 100000 }).all (fun r => r.1.isSome && (parseHeaders Net.sample (msgNeed {}) r.2).all (fun r =>
      r.1.all (fun its => ((Hdrs.ofItems its).common .contentType).head?.map HVal.isMultipart == some false))) = true := by decide +kernel
  rw [h1] at this
  simp only [Out.all, Option.isSome_some, Bool.true_and] at this
  rw [h2] at this
  simp only [Option.all_some, h3] at this
  cases this

theorem bodySample_ok : MsgOk Net.sample { src := bodySample, cap := 100000 } ∧ MsgHalts Net.sample { src := bodySample, cap := 100000 } ∧
    ¬ NoStray bodySample ∧ ¬ BrackOk bodySample ∧ ¬ TelOk bodySample := by
  have h := head_of_test bodySample 63 (by decide +kernel) (by decide +kernel)
  have he : HeadEnd bodySample 63 := ⟨0x0d :: 0x0a :: bodySample.drop 67, by decide +kernel, Or.inr (Or.inl ⟨_, rfl⟩)⟩
  refine ⟨⟨⟨63, Nat.zero_le _, he, fun i _ hi ho => h i hi (Or.inl ho), fun i hi =>
      telTest1_ok (List.all_eq_true.1 (show (List.range 64).all (fun i => telTest1 (bodySample.drop i)) = true by decide +kernel) i (List.mem_range.2 (by omega)))⟩, fun hp => absurd hp bodySample_noParts⟩,
    Or.inr ⟨bodySample_noParts, 63, Nat.zero_le _, he, fun i _ hi => h i hi⟩, fun hn => ?_, fun hn => ?_, fun hn => hn 79 ⟨str "phone-context", [], ?_, by decide +kernel, by decide⟩⟩
  · exact hn 68 (Or.inr (Or.inl ⟨by decide +kernel, fun j hj => (by cases hj; decide +kernel)⟩))
  · exact hn 69 ⟨by decide +kernel, 73, by decide, ⟨bodySample.drop 75, by decide +kernel, by decide +kernel⟩, fun k h1 h2 => (by
      have : k = 69 ∨ k = 70 ∨ k = 71 ∨ k = 72 := by omega
      rcases this with rfl | rfl | rfl | rfl <;> decide +kernel), 75, by decide, by decide +kernel⟩
  · have : bodySample.drop 79 = str "phone-context" := by decide +kernel
    rw [this]
    exact decodes_plain _ (by decide +kernel)

end Sip
