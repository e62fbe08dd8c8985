import Verif.Props.AccStart
import Verif.Props.ReadsMsg
/-! # What is in the grammar is accepted: header lines and messages (C43) -/
namespace Sip

theorem Gram.hcolon_head {c y : Bytes} (h : Gram.hcolon c y) : ∃ b z, c ++ y = b :: z ∧ (b = 0x20 ∨ b = 0x09 ∨ b = 0x3a) := by
  obtain ⟨w1, w2, h1, _, rfl⟩ := h
  cases w1 with
  | nil => exact ⟨0x3a, w2 ++ y, rfl, by simp⟩
  | cons b w1 =>
    refine ⟨b, w1 ++ 0x3a :: w2 ++ y, by simp, ?_⟩
    rcases h1 b (by simp) with h | h
    · exact Or.inl h
    · exact Or.inr (Or.inl h)

theorem Gram.hcolon_notIn {c y : Bytes} (h : Gram.hcolon c y) : NotIn csSipToken (c ++ y) ∧ (c ++ y).head? ≠ some 0x0d := by
  obtain ⟨b, z, e, hb⟩ := Gram.hcolon_head h
  rw [e]
  constructor
  · intro x hx
    cases hx
    rcases hb with rfl | rfl | rfl <;> decide +kernel
  · rcases hb with rfl | rfl | rfl <;> simp

/-- a colon follows the name -/
theorem Gram.hcolon_nopanic {c y : Bytes} (h : Gram.hcolon c y) : ∃ b ∈ c ++ y, b ≠ 0x0d ∧ Rfc.token b = false := by
  obtain ⟨w1, w2, h1, _, rfl⟩ := h
  exact ⟨0x3a, by simp, by decide, by decide +kernel⟩

theorem Gram.msgName_head {r : Option Bytes × Nat} {t y : Bytes} (h : Gram.msgName r t y) : ∃ b z, t = b :: z ∧ csSipToken.mem b = true := by
  have key : ∀ n m : Bytes, Gram.nameAs n m → m ≠ [] → InSet csSipToken m → ∃ b z, n = b :: z ∧ csSipToken.mem b = true := by
    intro n m hn hne ht
    rcases nameAs_cases hn ht with rfl | ⟨a, b, rfl, rfl, ha, hta, _⟩
    · cases n with
      | nil => exact absurd rfl hne
      | cons b z => exact ⟨b, z, rfl, ht b (by simp)⟩
    · cases a with
      | nil => exact absurd rfl (crPrefix_facts _ ha).2
      | cons x a => exact ⟨x, a ++ 0x0d :: b, rfl, hta x (by simp)⟩
  cases h with
  | known s i n m c y hs hn hm hc =>
    obtain ⟨h1, h2⟩ := sameLetters_token hm (headerTable_facts _ hs).2.2 (headerTable_facts _ hs).2.1
    obtain ⟨b, z, rfl, hb⟩ := key n m hn h1 h2
    exact ⟨b, z ++ c, rfl, hb⟩
  | other n m c y hn hne ht hno hc =>
    obtain ⟨b, z, rfl, hb⟩ := key n m hn hne ht
    exact ⟨b, z ++ c, rfl, hb⟩

namespace Acc
variable {fl : Flags} {net : Net}

/-! ## Header names -/

theorem msgName {r : Option Bytes × Nat} {t y : Bytes} (h : Gram.msgName r t y) : Acc fl parseMsgHeaderName t r y := by
  have e : parseMsgHeaderName = (P.headerIndex >>= storeName) >>= fun n => (do P.orErr P.hcolon; Pure.pure n) := by
    unfold parseMsgHeaderName; rw [P.bind_assoc]
  rw [e]
  cases h with
  | known s i n m c y hs hn hm hc =>
    refine bind (t1 := n) (v1 := (none, i)) ?_ (map (orErr (hcolon hc)) rfl)
    refine ⟨0, fun ctx hf hr hp hu => ⟨ctx.adv n.length, ?_, Moved.of_eat ctx n.length 0⟩⟩
    have ei := header_index_nameAs ctx.src ctx.pos i s n m _ hs hr hn hm ((tokenEnd_iff _).2 (Gram.hcolon_notIn hc).1)
    rw [P.bind_ok (a := (i, ctx.pos + n.length)) (c' := ctx) (by unfold P.headerIndex; rw [ei])]
    cases i with
    | zero => exact absurd rfl (headerTable_facts _ hs).1
    | succ i => rfl
  | other n m c y hn hne ht hno hc =>
    refine bind (t1 := n) (v1 := (some n, 0)) ?_ (map (orErr (hcolon hc)) rfl)
    refine ⟨n.length + 2, fun ctx hf hr hp hu => ?_⟩
    obtain ⟨h1, h2⟩ := Gram.hcolon_notIn hc
    have hnp : getSipHeaderIndex ctx.src ctx.pos ≠ .panic := by
      apply header_index_nopanic
      obtain ⟨b, hb, h3⟩ := Gram.hcolon_nopanic hc
      refine ⟨b, ?_, h3⟩
      show b ∈ ctx.rest
      rw [hr]; simp at hb ⊢; exact Or.inr hb
    obtain ⟨n1, n2, rfl, ei, hn2⟩ := header_index_other ctx.src ctx.pos n m _ hr hn ht hno h1 h2 hnp
    have hlen := rest_length ctx hp
    rw [hr] at hlen
    simp only [List.length_append] at hlen hu
    have hnn : n1 ++ n2 ≠ [] := by
      intro h0
      have := nameAs_length hn
      rw [h0] at this
      exact hne (List.length_eq_zero_iff.1 this.symm)
    have sp := parseStrFromPos_spec csSipToken ctx (ctx.pos + n1.length) (by omega) (by omega) n1 n2 _ hr (by omega) ⟨rfl, hn2, h1⟩ (by omega) hnn
    refine ⟨_, (by
      rw [P.bind_ok (a := (0, ctx.pos + n1.length)) (c' := ctx) (by unfold P.headerIndex; rw [ei])]
      show (parseStrFromPos csSipToken (ctx.pos + n1.length) >>= fun n => (Pure.pure (some n, 0) : P (Option Bytes × Nat))) ctx = _
      rw [P.bind_ok sp]; rfl), ?_⟩
    exact ⟨rfl, rfl, rfl, by simp; omega, by simp; omega⟩

/-! ## Lines kept as text -/

theorem findCrlf_at {v e y : Bytes} (h : Gram.rawLine v e y) (c : Ctx) (hr : c.rest = v ++ e ++ y) : P.findCrlf c = .ok (some (c.pos + v.length), c.adv (v ++ e).length) := by
  obtain ⟨_, h2⟩ := findCrlf_spec c
  have hun : ∀ (w : Bytes), Gram.folded w → ∀ z, NoFold y → z = w ++ 0x0a :: y → Unfolded z w.length ∧ ∀ i, i < w.length → ¬ Unfolded z i := by
    rintro w hw z hy rfl
    constructor
    · refine ⟨by rw [List.getElem?_append_right (Nat.le_refl _), Nat.sub_self]; rfl, ?_⟩
      have hg : (w ++ 0x0a :: y)[w.length + 1]? = y.head? := by
        rw [List.getElem?_append_right (by omega), show w.length + 1 - w.length = 0 + 1 by omega, List.getElem?_cons_succ, List.head?_eq_getElem?]
      rw [hg]
      constructor
      · intro hh; have := hy _ hh; revert this; decide +kernel
      · intro hh; have := hy _ hh; revert this; decide +kernel
    · rintro i hi ⟨g1, g2, g3⟩
      rw [List.getElem?_append_left hi] at g1
      have hlt : i + 1 < w.length ∨ i + 1 = w.length := by omega
      rcases hlt with hlt | hlt
      · rw [List.getElem?_append_left hlt] at g2 g3
        rcases hw i g1 with h | h
        · exact g2 h
        · exact g3 h
      · rcases hw i g1 with h | h <;> rw [hlt, List.getElem?_eq_none (Nat.le_refl _)] at h <;> cases h
  cases h with
  | crlf v hv hf hy =>
    have hl := List.length_pos_iff.2 hv
    have hf' : Gram.folded (v ++ [0x0d]) := by
      intro i hi
      by_cases hlt : i < v.length
      · rw [List.getElem?_append_left hlt] at hi
        rcases hf i hi with h | h
        · left; rw [List.getElem?_append_left (List.getElem?_eq_some_iff.1 h).1]; exact h
        · right; rw [List.getElem?_append_left (List.getElem?_eq_some_iff.1 h).1]; exact h
      · exfalso
        rw [List.getElem?_append_right (by omega)] at hi
        by_cases h0 : i - v.length = 0
        · rw [h0] at hi; simp at hi
        · rw [List.getElem?_eq_none (by simp; omega)] at hi; cases hi
    obtain ⟨g1, g2⟩ := hun (v ++ [0x0d]) hf' c.rest hy (by rw [hr]; simp)
    rw [h2 _ g1 g2, if_pos]
    · simp [Ctx.setPos, Ctx.adv]; omega
    · refine ⟨by simp; omega, ?_⟩
      rw [hr, show (v ++ [(0x0d : UInt8)]).length - 1 = v.length by simp, List.append_assoc, List.getElem?_append_right (Nat.le_refl _), Nat.sub_self]; rfl
  | lf v hf hy hcr =>
    obtain ⟨g1, g2⟩ := hun v hf c.rest hy (by rw [hr]; simp)
    rw [h2 _ g1 g2, if_neg]
    · simp [Ctx.setPos, Ctx.adv]; omega
    · rintro ⟨k1, k2⟩
      rw [hr, List.append_assoc, List.getElem?_append_left (by omega), ← List.getLast?_eq_getElem?] at k2
      have := hcr k2; omega

theorem findCrlf {β : Type} {v e y : Bytes} (h : Gram.rawLine v e y) {q : P β} {t : Bytes} {r : β} {z : Bytes} (hy : y = t ++ z) (h' : Acc fl q t r z) :
    Acc fl (P.orErr P.findCrlf >>= fun _ => q) (v ++ e ++ t) r z := by
  subst hy
  obtain ⟨n, h'⟩ := h'
  refine ⟨n, fun c hf hr hp hu => ?_⟩
  rw [List.append_assoc] at hr
  have e1 := findCrlf_at h c hr
  have m1 : Moved c (c.adv (v ++ e).length) (v ++ e).length 0 := Moved.of_eat c _ 0
  obtain ⟨c2, e2, m2⟩ := h' (c.adv (v ++ e).length) hf (Ctx.rest_adv hr) (m1.pos_le hr hp) hu
  refine ⟨c2, by rw [P.bind_ok (P.orErr_ok e1)]; exact e2, m2.src, m2.flags, m2.cap, ?_, m2.used⟩
  rw [m2.pos, List.length_append (as := v ++ e)]
  show c.pos + _ + _ = _
  omega

theorem rawHeader {id : Nat} {name : Option Bytes} {v e y : Bytes} (h : Gram.rawLine v e y) : Acc fl (parseRawHeader id name) (v ++ e) ⟨id, name, v⟩ y := by
  unfold parseRawHeader
  refine bind0 (alloc 8 _) (map (v := v) ?_ rfl)
  refine ⟨v.length + 2, fun c hf hr hp hu => ?_⟩
  have e1 := findCrlf_at h c hr
  have htx : (c.src.drop c.pos).take (c.pos + v.length - c.pos) = v := by
    rw [Nat.add_sub_cancel_left, show c.src.drop c.pos = c.rest from rfl, hr, List.append_assoc, List.take_left]
  unfold parseRawHeaderValue
  rw [P.get_bind, P.bind_ok e1, htx]
  have m1 : Moved c (c.adv (v ++ e).length) (v ++ e).length 0 := Moved.of_eat c _ 0
  refine ⟨_, Parses.allocStr (fl := fl) (F := AnyText) v (c.adv (v ++ e).length) y hf (Ctx.rest_adv hr) trivial (m1.pos_le hr hp) hu, rfl, rfl, rfl, ?_, Nat.le_refl _⟩
  simp [Ctx.eat, Ctx.adv]

/-! ## The values of a line -/

theorem commaYes {m y : Bytes} (h : Gram.mark 0x2c m y) : Acc fl P.comma m true y := by
  obtain ⟨n, h⟩ := markYes (fl := fl) (by decide) h
  refine ⟨n, fun c hf hr hp hu => ?_⟩
  obtain ⟨c', e, mv⟩ := h c hf hr hp hu
  refine ⟨c', ?_, mv⟩
  unfold P.markCanOmmit at e
  unfold P.comma
  rcases hx : parseSWSMarkCanOmmit c 0x2c with ⟨⟨a, b⟩, d⟩
  rw [hx] at e
  cases a <;> cases b <;> simp at e ⊢
  exact e

theorem commaNo {y : Bytes} (h : ¬ ∃ w z, IsSWS w ∧ y = w ++ 0x2c :: z) : Acc fl P.comma [] false y := by
  refine ⟨0, fun c hf hr hp hu => ?_⟩
  rw [List.nil_append] at hr
  have hno : c.sws.rest.head? ≠ some 0x2c := by
    rw [noSemi_iff (by decide), ← hr, ← Ctx.rest_drop, ← sws_eq c hp] at h; exact h
  have hs := swsMarkCanOmmit_spec c hp 0x2c
  have hsrc : c.sws = c.adv (swsLen c.rest) := sws_eq c hp
  unfold P.comma
  rw [hs]
  match hr2 : c.sws.rest with
  | [] =>
    refine ⟨_, rfl, ?_⟩
    rw [hsrc]
    exact ⟨rfl, rfl, rfl, rfl, Nat.le_refl _⟩
  | b :: r =>
    dsimp only
    rw [if_neg (by rw [hr2] at hno; simpa using hno)]
    refine ⟨_, rfl, ?_⟩
    rw [hsrc]
    exact ⟨rfl, rfl, rfl, rfl, Nat.le_refl _⟩

theorem notEnd {c : Ctx} (h : c.rest ≠ []) : ¬ c.pos ≥ c.src.length := fun hge => h (List.drop_eq_nil_of_le hge)

theorem valuesRun {k : HKind} {vs : List HVal} {t y : Bytes} (hk : rfcList k) (h : Gram.values net fl k vs t y) :
    ∃ v t1 t2, t = t1 ++ t2 ∧ Gram.value net fl k v t1 (t2 ++ y) ∧ ∀ acc, Run fl (valuesBody net k) (acc ++ vs) y (acc, v) t2 := by
  induction h with
  | one v t y h hs =>
    refine ⟨v, t, [0x0d, 0x0a], rfl, h, fun acc => .last ?_⟩
    unfold valuesBody
    by_cases hcr : StartsEol ([0x0d, 0x0a] ++ y)
    · refine get (q := P.skip 2 >>= fun _ => Pure.pure (Sum.inr (acc ++ [v]))) (map (skip [0x0d, 0x0a] y) rfl) (fun c _ hr hp => ?_)
      rw [if_neg (notEnd (by rw [hr]; simp)), if_pos ((isOnlyCRLF_spec _ _).2 (by show StartsEol c.rest; rw [hr]; exact hcr))]
    · refine get (bind0 (p := P.comma) (f := fun m => if m = true then (k.parseAlloc net >>= fun v' => Pure.pure (Sum.inl (acc ++ [v], v'))) else (P.crlf >>= fun _ => Pure.pure (Sum.inr (acc ++ [v]))))
        (commaNo (hs hk)) (ite_neg (by simp) (map (crlf y) rfl))) (fun c _ hr hp => ?_)
      rw [if_neg (notEnd (by rw [hr]; simp)), if_neg (fun h => hcr (by rw [← hr]; exact (isOnlyCRLF_spec _ _).1 h))]
  | atEnd v t _ h =>
    refine ⟨v, t, [], by simp, h, fun acc => .last ?_⟩
    unfold valuesBody
    refine get (q := Pure.pure (Sum.inr (acc ++ [v]))) (pure _ _) (fun c _ hr hp => ?_)
    rw [if_pos]
    exact List.drop_eq_nil_iff.1 hr
  | more v t m vs t' y _ h hm hs ih =>
    obtain ⟨v', t1, t2, rfl, hv', hrun⟩ := ih
    refine ⟨v, t, m ++ (t1 ++ t2), by simp, by simpa using h, fun acc => ?_⟩
    have hne : m ≠ [] := by obtain ⟨b, x, rfl, _⟩ := mark_head hm; simp
    have hm' : Gram.mark 0x2c m (t1 ++ (t2 ++ y)) := by simpa using hm
    have hr := hrun (acc ++ [v])
    rw [List.append_assoc acc [v] vs] at hr
    have st : Acc fl (valuesBody net k (acc, v)) (m ++ t1) (Sum.inl (acc ++ [v], v')) (t2 ++ y) := by
      unfold valuesBody
      refine get (bind (p := P.comma) (f := fun m => if m = true then (k.parseAlloc net >>= fun v' => Pure.pure (Sum.inl (acc ++ [v], v'))) else (P.crlf >>= fun _ => Pure.pure (Sum.inr (acc ++ [v]))))
        (commaYes hm') (ite_pos rfl (map (parseAlloc hv') rfl))) (fun c _ hr hp => ?_)
      rw [if_neg (notEnd (by rw [hr]; simp [hne])), if_neg (fun h => mark_notEol (by decide +kernel) hm' (by
        have := (isOnlyCRLF_spec _ _).1 h
        have hr : c.src.drop c.pos = m ++ t1 ++ (t2 ++ y) := hr
        rw [hr] at this; simpa using this))]
    have := Run.step st (by simp [hne]) hr
    simpa using this

theorem values {k : HKind} {vs : List HVal} {t y : Bytes} (h : Gram.values net fl k vs t y) : Acc fl (parseHeaderValues net k) t vs y := by
  unfold parseHeaderValues
  by_cases hk : rfcList k
  · obtain ⟨v, t1, t2, rfl, hv, hrun⟩ := valuesRun hk h
    exact bind (parseAlloc hv) (ite_pos ((header_multi k).2 hk) (forLoop (hrun [])))
  · have hm : ¬ k.multi = true := fun h => hk ((header_multi k).1 h)
    cases h with
    | one v t y h hs => exact bind (parseAlloc h) (ite_neg hm (map (crlf y) rfl))
    | atEnd v t h' h => exact absurd h' hk
    | more v t m vs t' y h' => exact absurd h' hk

/-! ## Header lines -/

theorem line {need : HKind → Bool} {want : HKind → Prop} (hw : ∀ k, need k = true ↔ want k) {l : List HItem} {t y : Bytes} (h : Gram.line net fl want l t y) :
    Acc fl (P.orErr parseMsgHeaderName >>= parseHeaderLine net need) t l y ∧ ∃ b z, t = b :: z ∧ csSipToken.mem b = true := by
  cases h with
  | parsed k n tn vs t y hwk hn hv =>
    constructor
    · refine bind (orErr (msgName hn)) ?_
      unfold parseHeaderLine
      dsimp only
      rw [ofIndex_index k]
      exact ite_pos ((hw k).2 hwk) (map (values hv) rfl)
    · obtain ⟨b, z, rfl, hb⟩ := Gram.msgName_head hn
      exact ⟨b, z ++ t, rfl, hb⟩
  | raw n i tn v e y hwk hn hv =>
    constructor
    · refine bind' (t1 := tn) (t2 := v ++ e) (orErr (msgName (by simpa using hn))) ?_ (by simp)
      unfold parseHeaderLine
      dsimp only
      cases hk : HKind.ofIndex i with
      | none => exact map (rawHeader hv) rfl
      | some k =>
        dsimp only
        refine ite_neg (fun h => hwk k (ofIndex_some.1 hk) ((hw k).1 h)) (map (rawHeader hv) rfl)
    · obtain ⟨b, z, rfl, hb⟩ := Gram.msgName_head hn
      exact ⟨b, z ++ v ++ e, by simp, hb⟩

theorem headersRun {need : HKind → Bool} {want : HKind → Prop} (hw : ∀ k, need k = true ↔ want k) {items : List HItem} {t y : Bytes} (h : Gram.headers net fl want items t y) :
    ∀ acc, Run fl (headersBody net need) (acc ++ items) y acc t := by
  induction h with
  | blank y =>
    intro acc
    rw [List.append_nil]
    refine .last ?_
    unfold headersBody
    refine get (q := P.skip 2 >>= fun _ => Pure.pure (Sum.inr acc)) (map (skip [0x0d, 0x0a] y) rfl) (fun c _ hr hp => ?_)
    rw [if_neg (notEnd (by rw [hr]; simp)), if_pos ((isCRLF_iff c).2 ⟨y, hr⟩)]
  | atEnd =>
    intro acc
    rw [List.append_nil]
    refine .last ?_
    unfold headersBody
    refine get (q := Pure.pure (Sum.inr acc)) (pure _ _) (fun c _ hr hp => ?_)
    rw [if_pos]
    exact List.drop_eq_nil_iff.1 hr
  | cons l t ls t' y hl _ ih =>
    intro acc
    obtain ⟨ha, b, z, rfl, hb⟩ := line hw hl
    have hr := ih (acc ++ l)
    rw [List.append_assoc] at hr
    refine .step (s' := acc ++ l) ?_ (by simp) hr
    unfold headersBody
    refine get (q := (P.orErr parseMsgHeaderName >>= parseHeaderLine net need) >>= fun hs => Pure.pure (Sum.inl (acc ++ hs))) (map ha rfl) (fun c _ hr hp => ?_)
    · rw [if_neg (notEnd (by rw [hr]; simp)), if_neg, P.bind_assoc]
      intro hcr
      obtain ⟨z', hz⟩ := (isCRLF_iff c).1 hcr
      rw [hr] at hz
      simp only [List.cons_append, List.cons.injEq] at hz
      rw [hz.1] at hb
      exact absurd hb (by decide +kernel)

theorem headers {need : HKind → Bool} {want : HKind → Prop} (hw : ∀ k, need k = true ↔ want k) {items : List HItem} {t y : Bytes} (h : Gram.headers net fl want items t y) :
    Acc fl (parseHeaders net need) t items y := forLoop (headersRun hw h [])

/-! ## Headers of a message -/

theorem collected_eq {items : List HItem} {h : Hdrs} (hc : Gram.collected items h) : h = Hdrs.ofItems items := by
  obtain ⟨g1, g2⟩ := hc
  obtain ⟨e1, e2⟩ := collected_ofItems items
  cases h with
  | mk common raw =>
    cases hh : Hdrs.ofItems items with
    | mk common' raw' =>
      rw [hh] at e1 e2
      dsimp only at g1 g2 e1 e2
      have : common = common' := by
        funext k
        by_cases hk : rfcList k
        · rw [(g2 k).1 hk, (e2 k).1 hk]
        · rw [(g2 k).2 hk, (e2 k).2 hk]
      rw [this, g1, e1]

/-! ## Bodies -/

theorem allocStrAny (b y : Bytes) : Acc fl (P.allocStrAny b) [] (some b) y := by
  obtain ⟨n, h⟩ := allocStr (fl := fl) b y
  refine ⟨n, fun c h1 h2 h3 h4 => ?_⟩
  obtain ⟨c', e, m⟩ := h c h1 h2 h3 h4
  refine ⟨c', ?_, m⟩
  unfold P.allocStr at e
  unfold P.allocStrAny
  rcases hx : Sip.allocStr b c with ⟨r, d⟩
  rw [hx] at e
  cases r with
  | none => cases e
  | some w => cases e; rfl

theorem bodyPart {delim l e th u y : Bytes} {items : List HItem} {h : Hdrs} (hl : Gram.rawLine l e (th ++ u ++ delim ++ y))
    (hh : Gram.headers net fl (Gram.wantedInPart fl) items th (u ++ delim ++ y)) (hc : Gram.collected items h) (hu : ∀ v z, u ++ delim ++ y = v ++ delim ++ z → u.length ≤ v.length) :
    Acc fl (parseBodyPart net delim) (l ++ e ++ th ++ u ++ delim) ⟨h, some u⟩ y := by
  unfold parseBodyPart
  refine cast (t := l ++ e ++ (th ++ (u ++ delim))) (findCrlf hl (by simp) ?_) (by simp) rfl
  refine bind0 (orErr (alloc 16 _)) ?_
  refine get (q := P.orErr (parseHeaders net (bodyNeed fl)) >>= fun hs => (do
    let c ← P.get
    match indexOf delim c.rest with
    | none => P.err
    | some e => do
      let b ← P.allocStrAny (c.rest.take e)
      P.skip (e + delim.length)
      Pure.pure ⟨Hdrs.ofItems hs, b⟩)) ?_ (fun c hf _ _ => by rw [hf]; rfl)
  refine bind (orErr (headers (bodyNeed_iff fl) (by simpa using hh))) ?_
  have hi : indexOf delim (u ++ delim ++ y) = some u.length := by
    rw [indexOf_iff]
    refine ⟨⟨y, by rw [List.append_assoc, List.drop_left]⟩, by simp, fun j hj hpre => ?_⟩
    obtain ⟨z, hz⟩ := hpre
    have := hu ((u ++ delim ++ y).take j) z (by rw [List.append_assoc ((u ++ delim ++ y).take j), hz, List.take_append_drop])
    rw [List.length_take] at this
    omega
  refine get (q := P.allocStrAny u >>= fun b => P.skip (u ++ delim).length >>= fun _ => Pure.pure ⟨Hdrs.ofItems items, b⟩) ?_ (fun c _ hr _ => ?_)
  · exact bind0 (allocStrAny u _) (map (skip (u ++ delim) y) (by rw [collected_eq hc]))
  · rw [hr, hi]
    dsimp only
    rw [List.append_assoc, List.take_left, List.length_append]

theorem partsRun {delim : Bytes} (hd : 2 ≤ delim.length) {bs : List Body} {t y : Bytes} (h : Gram.parts net fl delim bs t y) (hb : ∀ b ∈ bs, b.body ≠ none) :
    ∀ acc, Run fl (multiBody net delim) (acc ++ bs) y acc t := by
  induction h with
  | close a b y h =>
    intro acc
    rw [List.append_nil]
    refine .last ?_
    unfold multiBody
    refine get (q := P.skip 2 >>= fun _ => Pure.pure (Sum.inr acc)) (map (skip [a, b] y) rfl) (fun c _ hr hp => ?_)
    have g : ∀ k, c.src[c.pos + k]? = (a :: b :: y)[k]? := by intro k; rw [show a :: b :: y = c.rest by rw [hr]; rfl]; unfold Ctx.rest; rw [List.getElem?_drop]
    have hlen := rest_length c hp
    rw [hr] at hlen
    simp at hlen
    rw [if_neg (by omega), if_neg (by omega), show c.src[c.pos]? = some a from g 0, g 1, if_pos]
    simpa using h
  | part l e items th h u o bs t y hnc hl hh hc hu ho hs ih =>
    intro acc
    have ho : o = some u := by
      rcases ho with ho | ho
      · exact ho
      · exact absurd ho (hb ⟨h, o⟩ (by simp))
    subst ho
    have hr := ih (fun b hb' => hb b (by simp [hb'])) (acc ++ [⟨h, some u⟩])
    rw [List.append_assoc, List.singleton_append] at hr
    have hd0 : delim ≠ [] := by intro h0; rw [h0] at hd; simp at hd
    refine Run.step (s' := acc ++ [⟨h, some u⟩]) (t := l ++ e ++ th ++ u ++ delim) ?_ (by simp [hd0]) hr
    unfold multiBody
    refine get (q := parseBodyPart net delim >>= fun b => Pure.pure (Sum.inl (acc ++ [b])))
      (map (bodyPart (by simpa using hl) (by simpa using hh) hc (by simpa using hu)) rfl) (fun c _ hr hp => ?_)
    have hlen := rest_length c hp
    rw [hr] at hlen
    simp only [List.length_append] at hlen
    rw [if_neg (by omega), if_neg (by omega), if_neg]
    intro hor
    match hx : c.rest with
    | [] => rw [hr] at hx; have := congrArg List.length hx; simp only [List.length_append, List.length_nil, List.length_cons] at this; omega
    | [_] => rw [hr] at hx; have := congrArg List.length hx; simp only [List.length_append, List.length_nil, List.length_cons] at this; omega
    | a :: b :: z =>
      have g : ∀ k, c.src[c.pos + k]? = (a :: b :: z)[k]? := by intro k; rw [← hx]; unfold Ctx.rest; rw [List.getElem?_drop]
      rw [show c.src[c.pos]? = some a from g 0, g 1] at hor
      simp at hor
      have := hnc a b z (by rw [← hx, hr]; simp)
      rcases hor with h | h
      · exact this.1 h
      · exact this.2 h

theorem multipart {boundary : Bytes} {bs : List Body} {t y : Bytes} (h : Gram.parts net fl (0x0d :: 0x0a :: 0x2d :: 0x2d :: boundary) bs t y) (hb : ∀ b ∈ bs, b.body ≠ none) :
    Acc fl (parseMultiBody net boundary) (0x2d :: 0x2d :: boundary ++ t) bs y := by
  unfold parseMultiBody
  dsimp only
  refine get (bind (f := fun _ => P.forLoop (multiBody net (0x0d :: 0x0a :: 0x2d :: 0x2d :: boundary)) []) (skip (0x2d :: 0x2d :: boundary) _) (forLoop (partsRun (by simp) h hb []))) (fun c _ hr hp => ?_)
  rw [if_neg]
  simp only [Bool.not_eq_true', Bool.not_eq_false]
  rw [List.isPrefixOf_iff_prefix, hr]
  exact ⟨t ++ y, by simp⟩

theorem body {h : Hdrs} {bs : List Body} {t y : Bytes} (hg : Gram.body net fl h bs t y) (hb : ∀ b ∈ bs, b.body ≠ none) : Acc fl (parseMsgBody net h) t bs y := by
  unfold parseMsgBody
  cases hg with
  | noType y hc => rw [hc]; exact pure _ _
  | empty a b ps r y hc hm hl =>
    rw [hc]
    dsimp only
    refine ite_neg (fun h => hm ((multipart_iff a b ps).1 h)) ?_
    unfold parseSingleBody
    refine get (q := Pure.pure []) (pure _ _) (fun c _ hr hp => ?_)
    rw [List.nil_append] at hr
    have hleft : c.src.length - c.pos = y.length := by rw [← hr]; have := rest_length c hp; omega
    dsimp only
    rw [hleft]
    rcases hl with hl | ⟨r, hl⟩ | rfl
    · rw [hl]; rfl
    · rw [hl]; simp
    · rw [if_pos]
      split
      · split <;> simp at * <;> omega
      · rfl
  | single a b ps r n r' y hc hm hl hn hy =>
    rw [hc]
    dsimp only
    refine ite_neg (fun h => hm ((multipart_iff a b ps).1 h)) ?_
    unfold parseSingleBody
    refine get (q := P.orErr (P.alloc 16) >>= fun _ => P.orErr (P.allocStr (y.take n)) >>= fun b => Pure.pure [({ body := some b } : Body)])
      (bind0 (orErr (alloc 16 _)) (map (orErr (allocStr _ _)) rfl)) (fun c _ hr hp => ?_)
    rw [List.nil_append] at hr
    have hleft : c.src.length - c.pos = y.length := by rw [← hr]; have := rest_length c hp; omega
    dsimp only
    rw [hleft, hl, hr]
    dsimp only
    have hy := List.length_pos_iff.2 hy
    rw [if_neg (by split <;> omega)]
    have htk : y.take (if n > y.length then y.length else n) = y.take n := by
      split
      · rw [List.take_length, List.take_of_length_le (by omega)]
      · rfl
    rw [htk]
  | multi a b ps r p ks v bs t y hc hm hk hv hp =>
    rw [hc]
    dsimp only
    refine ite_pos ((multipart_iff a b ps).2 hm) ?_
    have e : (HVal.contentType a b ps).boundary? = some p.value := by unfold HVal.boundary?; dsimp only; rw [hk]
    rw [e]
    dsimp only
    have e2 : (match p.value with | some v => v.bytes | none => []) = v := by
      rcases hv with ⟨h1, rfl⟩ | h1 | h1 | h1 <;> rw [h1] <;> rfl
    have := multipart hp hb
    rw [← e2] at this ⊢
    exact this

/-! ## Messages -/

theorem message {m : Msg} {t y : Bytes} (h : Gram.message net fl m t y) (hb : ∀ b ∈ m.bodies, b.body ≠ none) : Acc fl (Msg.parse net) t m y := by
  obtain ⟨s, ts, items, th, h, bs, tb, y, hs, hne, hh, hc, hbd⟩ := h
  unfold Msg.parse
  refine bind' (t1 := ts) (t2 := th ++ tb) (orErr (startLine (by simpa using hs))) ?_ (by simp)
  refine get (bind (p := P.orErr (parseHeaders net (msgNeed fl))) (f := fun items => (P.orErr (parseMsgBody net (Hdrs.ofItems items)) >>= fun bs => Pure.pure ⟨s, Hdrs.ofItems items, bs⟩))
    (orErr (headers (msgNeed_iff fl) hh)) (map (g := fun bs => (⟨s, Hdrs.ofItems items, bs⟩ : Msg)) (v := bs) (orErr (body (by rw [← collected_eq hc]; exact hbd) hb)) (by rw [collected_eq hc]))) (fun c hf hr _ => ?_)
  rw [if_neg (notEnd (by rw [hr]; simpa using hne)), hf]

end Acc
end Sip
