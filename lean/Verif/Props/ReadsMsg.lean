import Verif.Props.ReadsStart
import Verif.Props.IndexCr
import Verif.Props.MessageEnc
import Verif.Props.BodySafe
import Verif.Props.Settings
import Verif.Props.MessageIdem
/-!
# Header lines and messages follow the grammar (C42)
-/
namespace Sip

theorem ReadsAt.of_pos {α : Type} {R : Rel α} {p : P α} {c : Ctx} (h : Inv c → ∀ v c', p c = .ok (some v, c') → Step c c' ∧ ∃ t y, c.rest = t ++ y ∧ c'.pos = c.pos + t.length ∧ R v t y) :
    ReadsAt R p c := by
  intro hc v c' e
  obtain ⟨st, t, y, h1, h2, h3⟩ := h hc v c' e
  have hy : c'.rest = y := by
    have : (c.adv t.length).rest = y := Ctx.rest_adv h1
    rw [← this]; unfold Ctx.rest; rw [st.src, h2]; rfl
  exact ⟨st, t, by rw [hy]; exact h1, by rw [hy]; exact h3⟩

/-! ## Lines kept as text -/

theorem ReadsAt.findCrlf {c : Ctx} : ReadsAt (fun b t y => ∃ v e, t = v ++ e ∧ b = c.pos + v.length ∧ Gram.rawLine v e y) P.findCrlf c := by
  refine ReadsAt.of_pos (fun hc b c' e => ⟨(findCrlf_safe (N := True) (H := True) c hc).step _ _ e, ?_⟩)
  obtain ⟨h1, h2⟩ := findCrlf_spec c
  cases hlf : lfEnd c.rest with
  | none => rw [h1 ((lfEnd_none _).1 hlf)] at e; cases e
  | some k =>
    cases k with
    | zero => exact absurd hlf (lfEnd_pos _)
    | succ k =>
      obtain ⟨g1, g2⟩ := (lfEnd_spec _ _).1 hlf
      have hfold := findCrlf_folds c c' b e
      rw [h2 k g1 g2] at e
      simp only [Out.ok.injEq, Prod.mk.injEq, Option.some.injEq] at e
      have hk : k < c.rest.length := (List.getElem?_eq_some_iff.1 g1.1).1
      have hsplit : c.rest = c.rest.take k ++ 0x0a :: c.rest.drop (k + 1) := by
        conv => lhs; rw [← List.take_append_drop k c.rest]
        rw [List.drop_eq_getElem_cons hk]
        have : c.rest[k] = 0x0a := by have := g1.1; rw [List.getElem?_eq_getElem hk] at this; exact Option.some.inj this
        rw [this]
      have hnf : NoFold (c.rest.drop (k + 1)) := by
        intro d hd
        rw [List.head?_drop] at hd
        cases hw : isWspChar d with
        | false => rfl
        | true =>
          rcases (wspChar_iff d).1 hw with rfl | rfl
          · exact absurd hd g1.2.1
          · exact absurd hd g1.2.2
      have hlk : (c.rest.take k).length = k := by rw [List.length_take]; omega
      obtain ⟨e1, rfl⟩ := e
      by_cases hcr : 2 ≤ k ∧ c.rest[k - 1]? = some 0x0d
      · rw [if_pos hcr] at e1
        have hb : b - c.pos = k - 1 := by omega
        rw [hb] at hfold
        have htk : c.rest.take k = c.rest.take (k - 1) ++ [0x0d] := by
          have hk1 : k - 1 < c.rest.length := by omega
          have h3 := hcr.2
          rw [List.getElem?_eq_getElem hk1] at h3
          have h4 := List.take_succ_eq_append_getElem hk1
          rw [show k - 1 + 1 = k by omega, Option.some.inj h3] at h4
          exact h4
        have hl1 : (c.rest.take (k - 1)).length = k - 1 := by rw [List.length_take]; omega
        refine ⟨c.rest.take (k - 1) ++ [0x0d, 0x0a], c.rest.drop (k + 1), ?_, ?_, c.rest.take (k - 1), [0x0d, 0x0a], rfl, by omega, .crlf _ _ ?_ hfold hnf⟩
        · conv => lhs; rw [hsplit, htk]
          simp
        · simp only [Ctx.setPos, List.length_append, hl1, List.length_cons, List.length_nil]; omega
        · intro h; rw [h] at hl1; simp at hl1; omega
      · rw [if_neg hcr] at e1
        have hb : b - c.pos = k := by omega
        rw [hb] at hfold
        refine ⟨c.rest.take k ++ [0x0a], c.rest.drop (k + 1), ?_, ?_, c.rest.take k, [0x0a], rfl, by omega, .lf _ _ hfold hnf ?_⟩
        · conv => lhs; rw [hsplit]
          simp
        · simp only [Ctx.setPos, List.length_append, hlk, List.length_cons, List.length_nil]; omega
        · intro hl
          rw [hlk]
          have hk0 : k ≠ 0 := by rintro rfl; simp at hl
          have : c.rest[k - 1]? = some 0x0d := by
            rw [List.getLast?_eq_getElem?, hlk, List.getElem?_take] at hl
            rw [if_pos (by omega)] at hl; exact hl
          false_or_by_contra
          exact hcr ⟨by omega, this⟩

theorem ReadsAt.rawHeader {id : Nat} {name : Option Bytes} {c : Ctx} :
    ReadsAt (fun h t y => ∃ v e, t = v ++ e ∧ h = ⟨id, name, v⟩ ∧ Gram.rawLine v e y) (parseRawHeader id name) c := by
  unfold parseRawHeader
  refine ReadsAt.bind (ReadsAt.alloc 8) (fun _ t1 c1 _ s1 h1 ht => ?_)
  subst ht
  refine ReadsAt.bind (R := fun v t y => ∃ e, t = v ++ e ∧ Gram.rawLine v e y) ?_ (fun v t2 c2 _ s2 h2 r2 => ReadsAt.pure ?_)
  · unfold parseRawHeaderValue
    refine ReadsAt.get ?_
    refine ReadsAt.bind ReadsAt.findCrlf (fun b t2 c2 _ s2 h2 r2 => ?_)
    obtain ⟨v, e, rfl, hb, hl⟩ := r2
    have htx : (c1.src.drop c1.pos).take (b - c1.pos) = v := by
      rw [hb, Nat.add_sub_cancel_left, show c1.src.drop c1.pos = c1.rest from rfl, h2, List.append_assoc, List.take_left]
    rw [htx]
    refine (ReadsAt.allocStr v).mono (fun w t y h3 h => ?_)
    obtain ⟨rfl, rfl⟩ := h
    rw [List.nil_append] at h3
    rw [h3] at hl
    exact ⟨e, by simp, hl⟩
  · obtain ⟨e, rfl, hl⟩ := r2
    exact ⟨v, e, by simp, rfl, hl⟩

/-! ## Header names -/

theorem storedName_reads {c : Ctx} : ReadsAt (fun r t y => NotIn csSipToken y ∧
    ((∃ s i m, (s, i) ∈ headerTable ∧ Gram.nameAs t m ∧ SameLetters m (str s) ∧ r = (none, i)) ∨
     (∃ m, Gram.nameAs t m ∧ m ≠ [] ∧ InSet csSipToken m ∧ (∀ s i, (s, i) ∈ headerTable → ¬ SameLetters m (str s)) ∧ r = (some t, 0)))) (P.headerIndex >>= storeName) c := by
  refine ReadsAt.of_pos (fun hc r c' e => ⟨(gsafe_name (N := False) (H := False) c hc (fun h => h.elim)).step _ _ e, ?_⟩)
  have hp : getSipHeaderIndex c.src c.pos ≠ .panic := by
    intro hp
    rw [P.bind_panic (by unfold P.headerIndex; rw [hp])] at e; cases e
  obtain ⟨i, k, ei, hk, hb⟩ := header_index_returns c.src c.pos hp
  have hh : P.headerIndex c = .ok (some (i, c.pos + k), c) := by unfold P.headerIndex; rw [ei]
  rw [P.bind_ok hh] at e
  cases i with
  | zero =>
    have e : (parseStrFromPos csSipToken (c.pos + k) >>= fun n => (Pure.pure (some n, 0) : P (Option Bytes × Nat))) c = _ := e
    obtain ⟨v, c1, e1, e2⟩ := P.bind_some e
    cases e2
    obtain ⟨g1, g2⟩ := strFromPos_pos e1
    have hne : v ≠ [] := ((gsafe_strFromPos (N := False) (H := False) csSipToken (c.pos + k) c hc (by omega) (by have := rest_length c hc.pos; have h2 : (c.src.drop c.pos).length = c.rest.length := rfl; omega)).some _ _ e1).1.1
    have hsplit : c.rest = v ++ (c.src.drop (c.pos + k)).dropWhile csSipToken.mem := by
      rw [g2, List.append_assoc, List.takeWhile_append_dropWhile, ← List.drop_drop]
      exact (List.take_append_drop k c.rest).symm
    have hnot : NotIn csSipToken ((c.src.drop (c.pos + k)).dropWhile csSipToken.mem) := notIn_dropWhile _ _
    obtain ⟨w, m, z, w1, w2, w3, w4⟩ := header_index_zero _ _ _ ei
    have hwk : w.length = k := by omega
    have hw : c.rest.take k = w := by
      show (c.src.drop c.pos).take k = w
      rw [w1, ← hwk, List.take_left]
    rw [hw] at g2
    have hna : Gram.nameAs v (m ++ (c.src.drop (c.pos + k)).takeWhile csSipToken.mem) := by rw [g2]; exact nameAs_append w2 _
    refine ⟨v, (c.src.drop (c.pos + k)).dropWhile csSipToken.mem, hsplit, ?_, hnot, Or.inr ⟨_, hna, ?_, ?_, ?_, rfl⟩⟩
    · rw [g1, g2, List.length_append]
      omega
    · intro h
      have := nameAs_length hna
      rw [h] at this
      exact hne (List.length_eq_zero_iff.1 this)
    · intro b hb2
      rcases List.mem_append.1 hb2 with h | h
      · exact w3 b h
      · exact inSet_takeWhile _ _ b h
    · intro s j g1 g2
      have := header_index_nameAs c.src c.pos j s v _ _ g1 hsplit hna g2 ((tokenEnd_iff _).2 hnot)
      rw [this] at ei
      simp only [Out.ok.injEq, Prod.mk.injEq] at ei
      exact (headerTable_facts _ g1).1 ei.1
  | succ i =>
    have e : (P.get >>= fun c' => (P.set (c'.setPos (c.pos + k)) >>= fun _ => (Pure.pure (none, i + 1) : P (Option Bytes × Nat)))) c = _ := e
    cases e
    obtain ⟨s, w, m, y, g1, g2, g3, g4, g5, g6⟩ := header_index_sound_nameAs _ _ _ _ (Nat.succ_ne_zero i) ei
    exact ⟨w, y, g2, g6, (tokenEnd_iff _).1 g5, Or.inl ⟨s, i + 1, m, g1, g3, g4, rfl⟩⟩

theorem ReadsAt.msgName {c : Ctx} : ReadsAt Gram.msgName parseMsgHeaderName c := by
  have e : parseMsgHeaderName = (P.headerIndex >>= storeName) >>= fun n => (do P.orErr P.hcolon; Pure.pure n) := by
    unfold parseMsgHeaderName; rw [P.bind_assoc]
  rw [e]
  refine ReadsAt.bind storedName_reads (fun r t1 c1 _ s1 h1 r1 => ?_)
  refine ReadsAt.bind (ReadsAt.orErr ReadsAt.hcolon) (fun _ t2 c2 _ s2 h2 r2 => ReadsAt.pure ?_)
  rcases r1.2 with ⟨s, i, m, hs, hn, hm, rfl⟩ | ⟨m, hn, hne, ht, hno, rfl⟩
  · exact rel_text (Gram.msgName.known s i t1 m t2 _ hs hn hm r2) (by simp)
  · exact rel_text (Gram.msgName.other t1 m t2 _ hn hne ht hno r2) (by simp)

/-! ## The values of a line -/

theorem ReadsAt.comma {c : Ctx} : ReadsAt (fun b t y => (b = true → Gram.mark 0x2c t y) ∧ (b = false → t = [] ∧ ¬ ∃ w z, IsSWS w ∧ y = w ++ 0x2c :: z)) P.comma c := by
  intro hc v c' e
  have st := (comma_safe (N := True) (H := True) c hc).step _ _ e
  unfold P.comma at e
  rw [swsMarkCanOmmit_spec c hc.pos] at e
  have e2 : ∀ d : Ctx, d.src = c.src → (d.setPos c.pos).rest = c.rest := fun d hd => by unfold Ctx.rest; rw [← hd]; rfl
  have hsrc : c.sws.src = c.src := (sws_step c hc).src
  have hno : (c.sws.rest.head? ≠ some 0x2c) → ¬ ∃ w z, IsSWS w ∧ c.rest = w ++ 0x2c :: z := by
    intro h
    rw [noSemi_iff (by decide), ← Ctx.rest_drop, ← sws_eq c hc.pos]; exact h
  match hr : c.sws.rest with
  | [] =>
    rw [hr] at e; cases e
    have e2 := e2 (c.sws.addError c.sws.pos) hsrc
    exact ⟨st, [], by rw [e2]; rfl, fun h => (by cases h), fun _ => ⟨rfl, by rw [e2]; exact hno (by rw [hr]; simp)⟩⟩
  | b :: y =>
    rw [hr] at e
    dsimp only at e
    by_cases hb : b = 0x2c
    · rw [if_pos hb] at e
      subst hb
      cases e
      obtain ⟨t, ht⟩ := st.text
      exact ⟨st, t, ht, fun _ => markText hc hr ht, fun h => (by cases h)⟩
    · rw [if_neg hb] at e; cases e
      have e2 := e2 c.sws hsrc
      exact ⟨st, [], by rw [e2]; rfl, fun h => (by cases h), fun _ => ⟨rfl, by rw [e2]; exact hno (by rw [hr]; simpa using hb)⟩⟩

/-- the values read so far and the last one; `y` follows -/
def ValRead (net : Net) (fl : Flags) (k : HKind) (acc : List HVal) (v : HVal) (a y : Bytes) : Prop :=
  ∃ a0 t, a = a0 ++ t ∧ Gram.value net fl k v t y ∧ ∀ xs t' y', t ++ y = t' ++ y' → Gram.values net fl k xs t' y' → Gram.values net fl k (acc ++ xs) (a0 ++ t') y'

theorem ReadsAt.values {net : Net} {k : HKind} {c : Ctx} : ReadsAt (Gram.values net c.flags k) (parseHeaderValues net k) c := by
  unfold parseHeaderValues
  refine ReadsAt.bind ReadsAt.parseAlloc (fun v t1 c1 _ s1 h1 r1 => ?_)
  refine ReadsAt.ite (fun hm => ?_) (fun hm => ?_)
  · have hk : rfcList k := (header_multi k).1 hm
    refine ReadsAt.loop (J := fun s a y => ValRead net c.flags k s.1 s.2 a y) (fl := c.flags) ?_ _ _ t1 c1 s1.flags ⟨[], t1, rfl, r1, fun _ _ _ _ h => by simpa using h⟩
    rintro ⟨acc, v⟩ a c2 hf ⟨a0, t, rfl, hv, hJ⟩
    unfold valuesBody
    refine ReadsAt.get ?_
    refine ReadsAt.ite (fun hend => ReadsAt.pure ⟨fun _ h => (by cases h), fun w h => ?_⟩) (fun hend => ?_)
    · cases h
      have hr : c2.rest = [] := by unfold Ctx.rest; exact List.drop_eq_nil_of_le hend
      rw [hr] at hv hJ ⊢
      have := hJ [v] t [] rfl (.atEnd v t hk hv)
      simpa using this
    · refine ReadsAt.ite (fun ho => ?_) (fun ho => ?_)
      · have ho := (isOnlyCRLF_spec _ _).1 ho
        change StartsEol c2.rest at ho
        have hsw := swsLen_eol ho
        obtain ⟨z, hz, hz2⟩ := ho
        refine ReadsAt.bind (R := fun _ t y => t = [0x0d, 0x0a] ∧ y = z) (ReadsAt.skip (t := [0x0d, 0x0a]) hz ⟨rfl, rfl⟩) (fun _ t3 c3 _ s3 h3 r3 => ReadsAt.pure ⟨fun _ h => (by cases h), fun w h => ?_⟩)
        cases h
        obtain ⟨rfl, hy⟩ := r3
        rw [hz] at hv hJ hsw
        rw [hy]
        have hno : ¬ ∃ w y, IsSWS w ∧ [0x0d, 0x0a] ++ z = w ++ 0x2c :: y := by
          rw [noSemi_iff (by decide), hsw]; simp
        have := hJ [v] (t ++ [0x0d, 0x0a]) z (by simp) (.one v t z hv (fun _ => hno))
        simpa using this
      · refine ReadsAt.bind ReadsAt.comma (fun m t3 c3 _ s3 h3 r3 => ?_)
        refine ReadsAt.ite (fun hm3 => ?_) (fun hm3 => ?_)
        · have hmark := r3.1 hm3
          refine ReadsAt.bind ReadsAt.parseAlloc (fun v' t4 c4 _ s4 h4 r4 => ReadsAt.pure ⟨fun s h => ?_, fun w h => (by cases h)⟩)
          cases h
          rw [s3.flags, hf] at r4
          refine ⟨a0 ++ t ++ t3, t4, by simp, r4, fun xs t' y' ey hx => ?_⟩
          have := hJ (v :: xs) (t ++ t3 ++ t') y' (by rw [h3, h4, ey]; simp) (.more v t t3 xs t' y' hk (by rw [h3, h4, ey] at hv; simpa using hv) (by rw [h4, ey] at hmark; simpa using hmark) hx)
          simpa using this
        · obtain ⟨rfl, hno⟩ := r3.2 (by simpa using hm3)
          refine ReadsAt.bind ReadsAt.crlf (fun _ t4 c4 _ s4 h4 r4 => ReadsAt.pure ⟨fun _ h => (by cases h), fun w h => ?_⟩)
          cases h
          subst r4
          rw [h4] at hno h3
          rw [List.nil_append] at h3
          rw [h3] at hv hJ
          have := hJ [v] (t ++ [0x0d, 0x0a]) c4.rest (by simp) (.one v t c4.rest hv (fun _ => hno))
          simpa using this
  · refine ReadsAt.bind ReadsAt.crlf (fun _ t2 c2 _ s2 h2 r2 => ReadsAt.pure ?_)
    subst r2
    rw [h2] at r1
    exact rel_text (Gram.values.one v t1 _ r1 (fun h => absurd ((header_multi k).2 h) hm)) (by simp)

/-! ## Header lines -/

theorem ofIndex_some {i : Nat} {k : HKind} : HKind.ofIndex i = some k ↔ k.index = i := by
  constructor
  · intro h
    have := List.find?_some h
    simpa using this
  · rintro rfl; exact ofIndex_index k

theorem ReadsAt.headerLine {net : Net} {need : HKind → Bool} {want : HKind → Prop} (hw : ∀ k, need k = true ↔ want k) {r : Option Bytes × Nat} {tn : Bytes} {c : Ctx}
    (hn : Gram.msgName r tn c.rest) : ReadsAt (fun its t y => Gram.line net c.flags want its (tn ++ t) y) (parseHeaderLine net need r) c := by
  obtain ⟨n, i⟩ := r
  have hraw : (∀ k, k.index = i → ¬ want k) → ReadsAt (fun its t y => Gram.line net c.flags want its (tn ++ t) y) (do let h ← parseRawHeader i n; Pure.pure [HItem.raw h]) c := by
    intro hk
    refine ReadsAt.bind ReadsAt.rawHeader (fun h t2 c2 _ s2 h2 r2 => ReadsAt.pure ?_)
    obtain ⟨v, e, rfl, rfl, hl⟩ := r2
    rw [h2] at hn
    exact rel_text (R := fun its t y => Gram.line net c.flags want its t y) (Gram.line.raw n i tn v e _ hk hn hl) (by simp)
  unfold parseHeaderLine
  dsimp only
  cases hk : HKind.ofIndex i with
  | none =>
    dsimp only
    refine hraw (fun k h => ?_)
    rw [ofIndex_some.2 h] at hk; cases hk
  | some k =>
    have hki := ofIndex_some.1 hk
    dsimp only
    refine ReadsAt.ite (fun hneed => ?_) (fun hneed => ?_)
    · refine ReadsAt.bind ReadsAt.values (fun vs t2 c2 _ s2 h2 r2 => ReadsAt.pure ?_)
      rw [h2] at hn
      subst hki
      exact rel_text (R := fun its t y => Gram.line net c.flags want its t y) (Gram.line.parsed k n tn vs t2 _ ((hw k).1 hneed) hn r2) (by simp)
    · refine hraw (fun j hj hwj => ?_)
      have : j = k := by
        have := ofIndex_some.2 hj; rw [hk] at this; exact (Option.some.inj this).symm
      subst this
      exact hneed ((hw j).2 hwj)

theorem ReadsAt.headers {net : Net} {need : HKind → Bool} {want : HKind → Prop} (hw : ∀ k, need k = true ↔ want k) {c : Ctx} :
    ReadsAt (Gram.headers net c.flags want) (parseHeaders net need) c := by
  unfold parseHeaders
  refine ReadsAt.forLoop (J := fun acc a y => ∀ xs t' y', y = t' ++ y' → Gram.headers net c.flags want xs t' y' → Gram.headers net c.flags want (acc ++ xs) (a ++ t') y') (fl := c.flags) ?_ rfl
    (fun _ _ _ _ h => h)
  intro acc a c2 hf hJ
  unfold headersBody
  refine ReadsAt.get ?_
  refine ReadsAt.ite (fun hend => ReadsAt.pure ⟨fun _ h => (by cases h), fun w h => ?_⟩) (fun hend => ?_)
  · cases h
    have hr : c2.rest = [] := by unfold Ctx.rest; exact List.drop_eq_nil_of_le hend
    have := hJ [] [] [] (by rw [hr]; rfl) .atEnd
    rw [hr]; simpa using this
  · refine ReadsAt.ite (fun ho => ?_) (fun ho => ?_)
    · obtain ⟨z, hz⟩ := (isCRLF_iff c2).1 ho
      have hz : c2.rest = [0x0d, 0x0a] ++ z := hz
      refine ReadsAt.bind (R := fun _ t y => t = [0x0d, 0x0a]) (ReadsAt.skip (t := [0x0d, 0x0a]) hz rfl) (fun _ t3 c3 _ s3 h3 r3 => ReadsAt.pure ⟨fun _ h => (by cases h), fun w h => ?_⟩)
      cases h
      subst r3
      have := hJ [] [0x0d, 0x0a] c3.rest h3 (.blank _)
      simpa using this
    · refine ReadsAt.bind (ReadsAt.orErr ReadsAt.msgName) (fun n t3 c3 _ s3 h3 r3 => ?_)
      refine ReadsAt.bind (ReadsAt.headerLine hw r3) (fun l t4 c4 _ s4 h4 r4 => ReadsAt.pure ⟨fun s h => ?_, fun w h => (by cases h)⟩)
      cases h
      rw [s3.flags, hf] at r4
      intro xs t' y' ey hx
      have := hJ (l ++ xs) (t3 ++ t4 ++ t') y' (by rw [h3, h4, ey]; simp) (.cons l (t3 ++ t4) xs t' y' (by rw [ey] at r4; exact r4) hx)
      simpa using this

/-! ## Headers of a message -/

theorem collected_ofItems (items : List HItem) : Gram.collected items (Hdrs.ofItems items) := by
  obtain ⟨h1, h2, h3⟩ := setHeaders_spec items
  exact ⟨h3, fun k => ⟨h1 k, h2 k⟩⟩

theorem values_value {net : Net} {fl : Flags} {k : HKind} {vs : List HVal} {t y : Bytes} (h : Gram.values net fl k vs t y) : ∀ v ∈ vs, ∃ t y, Gram.value net fl k v t y := by
  induction h with
  | one v t y h _ => intro w hw; simp at hw; subst hw; exact ⟨_, _, h⟩
  | atEnd v t _ h => intro w hw; simp at hw; subst hw; exact ⟨_, _, h⟩
  | more v t m vs t' y _ h _ _ ih =>
    intro w hw
    rcases List.mem_cons.1 hw with rfl | hw
    · exact ⟨_, _, h⟩
    · exact ih w hw

theorem headers_value {net : Net} {fl : Flags} {want : HKind → Prop} {items : List HItem} {t y : Bytes} (h : Gram.headers net fl want items t y) {k : HKind} {v : HVal}
    (hv : HItem.parsed k v ∈ items) : ∃ t y, Gram.value net fl k v t y := by
  induction h with
  | blank => cases hv
  | atEnd => cases hv
  | cons l t ls t' y hl _ ih =>
    rcases List.mem_append.1 hv with hv | hv
    · cases hl with
      | parsed k' n tn vs t y _ _ hvs =>
        obtain ⟨w, hw, he⟩ := List.mem_map.1 hv
        cases he
        exact values_value hvs _ hw
      | raw => simp at hv
    · exact ih hv

/-- the headers that describe the body have the values they should have -/
def BodyHdrs (h : Hdrs) : Prop :=
  (∀ v ∈ h.common .contentType, ∃ a b ps, v = .contentType a b ps) ∧ ∀ v ∈ h.common .contentLength, ∃ n, v = .num n

theorem bodyHdrs_ofItems {net : Net} {fl : Flags} {want : HKind → Prop} {items : List HItem} {t y : Bytes} (h : Gram.headers net fl want items t y) :
    BodyHdrs (Hdrs.ofItems items) := by
  constructor
  · intro v hv
    obtain ⟨t, y, h⟩ := headers_value h (ofItems_mem hv)
    cases h with
    | contentType a m b ps => exact ⟨a, b, ps, rfl⟩
    | addr _ _ _ _ _ _ hk => simp at hk
    | route _ _ _ _ _ _ hk => simp at hk
    | num _ _ _ _ hk => simp at hk
  · intro v hv
    obtain ⟨t, y, h⟩ := headers_value h (ofItems_mem hv)
    cases h with
    | num _ n => exact ⟨_, rfl⟩
    | addr _ _ _ _ _ _ hk => simp at hk
    | route _ _ _ _ _ _ hk => simp at hk

/-! ## Bodies -/

theorem ReadsAt.set_alloc {c : Ctx} (b : Bytes) : ReadsAt (fun o t _ => t = [] ∧ (o = some b ∨ o = none)) (P.allocStrAny b) c := by
  intro hc v c' e
  unfold P.allocStrAny at e
  rcases ha : Sip.allocStr b c with ⟨r, d⟩
  rw [ha] at e
  cases e
  have h : Step c c' ∧ c'.rest = c.rest ∧ (v = some b ∨ v = none) := by
    cases v with
    | none =>
      have hp : P.allocStr b c = .ok (none, c') := by unfold P.allocStr; rw [ha]
      have st := (SafeAt.allocStr (q := 0) (m := 0) (b := b) hc).step _ _ hp
      unfold Sip.allocStr at ha
      split at ha
      · cases ha; exact ⟨st, rfl, Or.inr rfl⟩
      · cases ha
    | some v =>
      have hp : P.allocStr b c = .ok (some v, c') := by unfold P.allocStr; rw [ha]
      obtain ⟨st, t, h1, h2, h3⟩ := ReadsAt.allocStr b hc _ _ hp
      subst h3
      exact ⟨st, h1.symm, Or.inl (by rw [h2])⟩
  exact ⟨h.1, [], by rw [h.2.1]; rfl, rfl, h.2.2⟩

theorem bodyNeed_iff (fl : Flags) (k : HKind) : bodyNeed fl k = true ↔ Gram.wantedInPart fl k := by
  unfold bodyNeed Gram.wantedInPart
  cases fl.parseSipHeaderAsRaw <;> cases k <;> simp

theorem msgNeed_iff (fl : Flags) (k : HKind) : msgNeed fl k = true ↔ Gram.wanted fl k := by
  unfold msgNeed Gram.wanted
  cases fl.parseSipHeaderAsRaw <;> simp [or_assoc]

theorem ReadsAt.bodyPart {net : Net} {delim : Bytes} {c : Ctx} :
    ReadsAt (fun b t y => ∃ l e items th h u o, b = ⟨h, o⟩ ∧ t = l ++ e ++ th ++ u ++ delim ∧ Gram.rawLine l e (th ++ u ++ delim ++ y) ∧
      Gram.headers net c.flags (Gram.wantedInPart c.flags) items th (u ++ delim ++ y) ∧ Gram.collected items h ∧
      (∀ v z, u ++ delim ++ y = v ++ delim ++ z → u.length ≤ v.length) ∧ (o = some u ∨ o = none)) (parseBodyPart net delim) c := by
  unfold parseBodyPart
  refine ReadsAt.bind (ReadsAt.orErr ReadsAt.findCrlf) (fun b t1 c1 _ s1 h1 r1 => ?_)
  obtain ⟨l, e, rfl, _, hl⟩ := r1
  refine ReadsAt.bind (ReadsAt.orErr (ReadsAt.alloc 16)) (fun _ t2 c2 _ s2 h2 ht => ?_)
  subst ht
  refine ReadsAt.get ?_
  refine ReadsAt.bind (ReadsAt.orErr (ReadsAt.headers (bodyNeed_iff c2.flags))) (fun items th c3 _ s3 h3 r3 => ?_)
  refine ReadsAt.get ?_
  cases hi : indexOf delim c3.rest with
  | none => exact ReadsAt.err
  | some i =>
    obtain ⟨g1, g2, g3⟩ := indexOf_some _ _ _ hi
    obtain ⟨z, hz⟩ := g1
    have hsplit : c3.rest = c3.rest.take i ++ delim ++ z := by
      rw [List.append_assoc, hz, List.take_append_drop]
    have hli : (c3.rest.take i).length = i := by rw [List.length_take]; omega
    dsimp only
    refine ReadsAt.bind (ReadsAt.set_alloc (c3.rest.take i)) (fun o t4 c4 _ s4 h4 r4 => ?_)
    obtain ⟨rfl, ho⟩ := r4
    rw [List.nil_append] at h4
    refine ReadsAt.bind (R := fun _ t y => t = c3.rest.take i ++ delim ∧ y = z) ?_ (fun _ t5 c5 _ s5 h5 r5 => ReadsAt.pure ?_)
    · have : i + delim.length = (c3.rest.take i ++ delim).length := by rw [List.length_append, hli]
      rw [this]
      exact ReadsAt.skip (y := z) (by rw [← h4]; exact hsplit) ⟨rfl, rfl⟩
    · obtain ⟨rfl, hy⟩ := r5
      rw [hy]
      rw [s2.flags, s1.flags, hsplit] at r3
      rw [h2, h3, hsplit] at hl
      refine ⟨l, e, items, th, _, c3.rest.take i, o, rfl, by simp, by simpa using hl, r3, collected_ofItems items, fun v w hvw => ?_, ho⟩
      rw [← hsplit] at hvw
      rw [hli]
      false_or_by_contra
      rename_i hlt
      refine g3 v.length (by omega) ⟨w, ?_⟩
      rw [hvw, List.append_assoc, List.drop_left]

theorem ReadsAt.parts {net : Net} {delim : Bytes} {c : Ctx} : ReadsAt (Gram.parts net c.flags delim) (P.forLoop (multiBody net delim) []) c := by
  refine ReadsAt.forLoop (J := fun acc a y => ∀ xs t' y', y = t' ++ y' → Gram.parts net c.flags delim xs t' y' → Gram.parts net c.flags delim (acc ++ xs) (a ++ t') y') (fl := c.flags) ?_ rfl
    (fun _ _ _ _ h => h)
  intro acc a c2 hf hJ
  unfold multiBody
  refine ReadsAt.get ?_
  refine ReadsAt.ite (fun hend => ReadsAt.fail) (fun hend => ReadsAt.ite (fun hend2 => ReadsAt.err) (fun hend2 => ?_))
  have g : ∀ k, c2.src[c2.pos + k]? = c2.rest[k]? := by intro k; unfold Ctx.rest; rw [List.getElem?_drop]
  have g0 := g 0
  rw [Nat.add_zero] at g0
  rw [g0, g 1]
  match hr : c2.rest with
  | [] =>
    have : c2.src.length ≤ c2.pos := by unfold Ctx.rest at hr; exact List.drop_eq_nil_iff.1 hr
    omega
  | [x] =>
    have := congrArg List.length hr
    unfold Ctx.rest at this; rw [List.length_drop] at this; simp at this; omega
  | x :: z :: r =>
    simp only [List.getElem?_cons_zero, List.getElem?_cons_succ, Option.some.injEq]
    refine ReadsAt.ite (fun hd => ?_) (fun hd => ?_)
    · have hr' : c2.rest = [x, z] ++ r := hr
      refine ReadsAt.bind (R := fun _ t y => t = [x, z]) (ReadsAt.skip (t := [x, z]) hr' rfl) (fun _ t3 c3 _ s3 h3 r3 => ReadsAt.pure ⟨fun _ h => (by cases h), fun w h => ?_⟩)
      cases h
      subst r3
      have := hJ [] [x, z] c3.rest h3 (.close x z _ hd)
      simpa using this
    · refine ReadsAt.bind ReadsAt.bodyPart (fun b t3 c3 _ s3 h3 r3 => ReadsAt.pure ⟨fun s h => ?_, fun w h => (by cases h)⟩)
      cases h
      obtain ⟨l, e, items, th, h, u, o, rfl, rfl, hl, hh, hc, hu, ho⟩ := r3
      rw [hf] at hh
      intro xs t' y' ey hx
      rw [ey] at hl hh hu h3
      have := hJ (⟨h, o⟩ :: xs) (l ++ e ++ th ++ u ++ delim ++ t') y' (by rw [h3]; simp)
        (.part l e items th h u o xs t' y' (fun p q r' hpq => ?_) (by simpa using hl) (by simpa using hh) hc (by simpa using hu) ho hx)
      · simpa using this
      · have e2 : c2.rest = p :: q :: r' := by rw [h3, ← hpq]; simp
        rw [hr] at e2
        cases e2
        exact ⟨fun h => hd (Or.inl h), fun h => hd (Or.inr h)⟩

theorem ReadsAt.multipart {net : Net} {boundary : Bytes} {c : Ctx} :
    ReadsAt (fun bs t y => ∃ t', t = 0x2d :: 0x2d :: boundary ++ t' ∧ Gram.parts net c.flags (0x0d :: 0x0a :: 0x2d :: 0x2d :: boundary) bs t' y) (parseMultiBody net boundary) c := by
  unfold parseMultiBody
  dsimp only
  refine ReadsAt.get ?_
  refine ReadsAt.ite (fun _ => ReadsAt.err) (fun hp => ?_)
  simp only [Bool.not_eq_true', Bool.not_eq_false] at hp
  obtain ⟨z, hz⟩ := List.isPrefixOf_iff_prefix.1 hp
  refine ReadsAt.bind (R := fun _ t y => t = 0x2d :: 0x2d :: boundary) (ReadsAt.skip (t := 0x2d :: 0x2d :: boundary) hz.symm rfl) (fun _ t3 c3 _ s3 h3 r3 => ?_)
  subst r3
  refine ReadsAt.parts.mono (fun bs t y _ h => ⟨t, rfl, ?_⟩)
  rw [s3.flags] at h; exact h

theorem multipart_iff (a b : Bytes) (ps : Params) : (HVal.contentType a b ps).isMultipart = true ↔ Gram.word "multipart" a := by
  show strEqNoCase (some a) (str "multipart") = true ↔ _
  rw [strEqNoCase_iff]
  have : (str "multipart").map asciiLower = str "multipart" := by decide +kernel
  rw [this]; rfl

theorem ReadsAt.body {net : Net} {h : Hdrs} (hb : BodyHdrs h) {c : Ctx} : ReadsAt (Gram.body net c.flags h) (parseMsgBody net h) c := by
  unfold parseMsgBody
  cases hct : h.common .contentType with
  | nil => exact ReadsAt.pure (.noType _ hct)
  | cons ct r =>
    obtain ⟨a, b, ps, rfl⟩ := hb.1 ct (by rw [hct]; simp)
    dsimp only
    refine ReadsAt.ite (fun hm => ?_) (fun hm => ?_)
    · have hm := (multipart_iff a b ps).1 hm
      cases hbd : (HVal.contentType a b ps).boundary? with
      | none => exact ReadsAt.err
      | some v =>
        dsimp only
        have hk : ∃ p ks, ps.known = some p :: ks ∧ v = p.value := by
          unfold HVal.boundary? at hbd
          dsimp only at hbd
          split at hbd
          · rename_i p ks hk; cases hbd; exact ⟨p, ks, hk, rfl⟩
          · cases hbd
        obtain ⟨p, ks, hk, rfl⟩ := hk
        refine ReadsAt.multipart.mono ?_
        rintro bs t y _ ⟨t', rfl, hp⟩
        refine .multi a b ps r p ks _ bs t' y hct hm hk ?_ hp
        cases p.value with
        | none => exact Or.inl ⟨rfl, rfl⟩
        | some v =>
          cases v with
          | token v => exact Or.inr (Or.inl rfl)
          | quoted v => exact Or.inr (Or.inr (Or.inl rfl))
          | ipv6 v => exact Or.inr (Or.inr (Or.inr rfl))
    · have hm : ¬ Gram.word "multipart" a := fun h => hm ((multipart_iff a b ps).2 h)
      intro hc
      have hlen := rest_length c hc.pos
      have hleft : c.src.length - c.pos = c.rest.length := by omega
      revert hc
      change ReadsAt (Gram.body net c.flags h) (parseSingleBody h) c
      unfold parseSingleBody
      refine ReadsAt.get ?_
      dsimp only
      cases hcl : h.common .contentLength with
      | nil =>
        dsimp only
        rw [if_pos rfl]
        exact ReadsAt.pure (.empty a b ps r _ hct hm (Or.inl hcl))
      | cons v r' =>
        obtain ⟨n, rfl⟩ := hb.2 v (by rw [hcl]; simp)
        dsimp only
        rw [hleft]
        refine ReadsAt.ite (fun hz => ReadsAt.pure (.empty a b ps r _ hct hm ?_)) (fun hz => ?_)
        · right
          by_cases hn : n > c.rest.length
          · rw [if_pos hn] at hz; exact Or.inr (List.length_eq_zero_iff.1 hz)
          · rw [if_neg hn] at hz; subst hz; exact Or.inl ⟨r', hcl⟩
        · refine ReadsAt.bind (ReadsAt.orErr (ReadsAt.alloc 16)) (fun _ t2 c2 _ s2 h2 ht => ?_)
          subst ht
          refine ReadsAt.bind (ReadsAt.orErr (ReadsAt.allocStr _)) (fun v t3 c3 _ s3 h3 r3 => ReadsAt.pure ?_)
          obtain ⟨rfl, rfl⟩ := r3
          rw [List.nil_append] at h2 h3
          rw [← h3, ← h2]
          have hn0 : n ≠ 0 := by
            rintro rfl; apply hz; split <;> omega
          have hy : c.rest ≠ [] := by
            intro hr; apply hz; rw [hr]; simp
          have htk : c.rest.take (if n > c.rest.length then c.rest.length else n) = c.rest.take n := by
            split
            · rw [List.take_length, List.take_of_length_le (by omega)]
            · rfl
          rw [htk]
          exact .single a b ps r n r' _ hct hm hcl hn0 hy

/-! ## Messages -/

/-- every accepted message stands in the relation of the grammar to its text -/
theorem ReadsAt.message {net : Net} {c : Ctx} : ReadsAt (Gram.message net c.flags) (Msg.parse net) c := by
  unfold Msg.parse
  refine ReadsAt.bind (ReadsAt.orErr ReadsAt.startLine) (fun s t1 c1 _ s1 h1 r1 => ?_)
  refine ReadsAt.get ?_
  refine ReadsAt.ite (fun _ => ReadsAt.err) (fun hend => ?_)
  have hne : c1.rest ≠ [] := by
    unfold Ctx.rest; intro h; exact hend (List.drop_eq_nil_iff.1 h)
  refine ReadsAt.bind (ReadsAt.orErr (ReadsAt.headers (msgNeed_iff c1.flags))) (fun items th c3 _ s3 h3 r3 => ?_)
  dsimp only
  refine ReadsAt.bind (ReadsAt.orErr (ReadsAt.body (bodyHdrs_ofItems r3))) (fun bs tb c4 _ s4 h4 r4 => ReadsAt.pure ?_)
  rw [s3.flags, s1.flags] at r4
  rw [s1.flags, h4] at r3
  rw [h3, h4] at r1 hne
  exact rel_text (Gram.message.mk s t1 items th _ bs tb _ (by simpa using r1) (by simpa using hne) r3 (collected_ofItems items) r4) (by simp)

end Sip
