import Verif.Props.AccUri
import Verif.Props.ReadsAddr
/-! # What is in the grammar is accepted: addresses and header parameters (C43) -/
namespace Sip

/-- no colon stands behind a text of scheme characters -/
def NoScheme (x : Bytes) : Prop := ∀ s z, x = s ++ 0x3a :: z → ∃ b ∈ s, csUriScheme.mem b = false

theorem noScheme_of {p q : Bytes} {b : UInt8} (hp : 0x3a ∉ p) (hb : csUriScheme.mem b = false) (hb' : b ≠ 0x3a) : NoScheme (p ++ b :: q) := by
  intro s z h
  rcases List.append_eq_append_iff.1 h with ⟨w, h1, h2⟩ | ⟨w, h1, h2⟩
  · cases w with
    | nil => simp only [List.nil_append, List.cons.injEq] at h2; exact absurd h2.1 hb'
    | cons x w =>
      simp only [List.cons_append, List.cons.injEq] at h2
      exact ⟨b, by rw [h1, h2.1]; simp, hb⟩
  · cases w with
    | nil => simp only [List.nil_append, List.cons.injEq] at h2; exact absurd h2.1.symm hb'
    | cons x w =>
      simp only [List.cons_append, List.cons.injEq] at h2
      exact absurd (by rw [h1, ← h2.1]; simp) hp

theorem scheme_letter : ∀ a p : UInt8, 0x61 ≤ p → p ≤ 0x7a → a ||| 0x20 = p → csUriScheme.mem a = true := by
  intro a p h1 h2 h
  subst h
  revert a; decide +kernel

theorem Rej.otherScheme {fl : Flags} {x : Bytes} (h : NoScheme x) : Rej fl parseOtherScheme x := by
  unfold parseOtherScheme
  refine Rej.peek ?_
  cases x with
  | nil => exact Rej.fail _
  | cons b x =>
    simp only [List.head?_cons]
    by_cases ha : isAlpha b = true
    · rw [if_pos ha]
      obtain ⟨t, y, h1, h2, h3⟩ := exists_maxRun csUriScheme (b :: x)
      rw [h1]
      have hb : csUriScheme.mem b = true := by
        have : ∀ b : UInt8, isAlpha b = true → csUriScheme.mem b = true := by decide +kernel
        exact this b ha
      have hne : t ≠ [] := by
        rintro rfl
        rw [List.nil_append] at h1
        have := h3 b (by rw [← h1]; simp)
        rw [this] at hb; cases hb
      refine Rej.snd (Acc.str ⟨rfl, hne, h2, h3⟩) (Rej.peek (Rej.ite_neg ?_ (Rej.fail _)))
      intro hc
      cases y with
      | nil => cases hc
      | cons d y =>
        cases hc
        obtain ⟨z, hz1, hz2⟩ := h t y h1
        rw [h2 z hz1] at hz2; cases hz2
    · rw [if_neg ha]; exact Rej.fail _

theorem Rej.addrScheme {fl : Flags} {x : Bytes} (h : NoScheme x) : Rej fl parseAddrScheme x := by
  obtain ⟨n, hn⟩ := Rej.otherScheme (fl := fl) h
  refine ⟨n, fun c h1 h2 h3 h4 => ?_⟩
  have hother := hn c h1 h2 h3 h4
  have key : ∀ {a b d e : UInt8} {r : Bytes} {p1 p2 p3 : UInt8}, x = a :: b :: d :: e :: r → (0x61 ≤ p1 ∧ p1 ≤ 0x7a) → (0x61 ≤ p2 ∧ p2 ≤ 0x7a) → (0x61 ≤ p3 ∧ p3 ≤ 0x7a) →
      a ||| 0x20 = p1 → b ||| 0x20 = p2 → d ||| 0x20 = p3 → e = 0x3a → False := by
    intro a b d e r p1 p2 p3 hx g1 g2 g3 e1 e2 e3 he
    obtain ⟨z, hz1, hz2⟩ := h [a, b, d] r (by rw [hx, he]; rfl)
    simp only [List.mem_cons, List.not_mem_nil, or_false] at hz1
    rcases hz1 with rfl | rfl | rfl
    · rw [scheme_letter _ _ g1.1 g1.2 e1] at hz2; cases hz2
    · rw [scheme_letter _ _ g2.1 g2.2 e2] at hz2; cases hz2
    · rw [scheme_letter _ _ g3.1 g3.2 e3] at hz2; cases hz2
  unfold parseAddrScheme
  split
  · rename_i a b d e r hr
    rw [h2] at hr
    split
    · rename_i ha
      split
      · rename_i hbd
        split
        · rename_i he
          exact (key hr (by decide) (by decide) (by decide) ha hbd.1 hbd.2 he).elim
        · split
          · rename_i he
            split
            · exact ⟨_, rfl, rfl, rfl, rfl, by show c.used ≤ _; omega⟩
            · rename_i f r'
              split
              · rename_i hf
                obtain ⟨z, hz1, hz2⟩ := h [a, b, d, e] r' (by rw [hr, hf]; rfl)
                simp only [List.mem_cons, List.not_mem_nil, or_false] at hz1
                rcases hz1 with rfl | rfl | rfl | rfl
                · rw [scheme_letter _ _ (by decide) (by decide) ha] at hz2; cases hz2
                · rw [scheme_letter _ _ (by decide) (by decide) hbd.1] at hz2; cases hz2
                · rw [scheme_letter _ _ (by decide) (by decide) hbd.2] at hz2; cases hz2
                · rw [scheme_letter _ _ (by decide) (by decide) he] at hz2; cases hz2
              · exact hother
          · exact hother
      · exact hother
    · split
      · rename_i ha
        split
        · rename_i hh
          exact (key hr (by decide) (by decide) (by decide) ha hh.1 hh.2.1 hh.2.2).elim
        · exact hother
      · split
        · rename_i ha
          split
          · rename_i hh
            exact (key hr (by decide) (by decide) (by decide) ha hh.1 hh.2.1 hh.2.2).elim
          · exact hother
        · exact hother
  · exact hother

theorem isSWS_chars {w : Bytes} (h : IsSWS w) : ∀ b ∈ w, isLwsChar b = true := by
  have hw : ∀ {a : Bytes}, AllWsp a → ∀ b ∈ a, isLwsChar b = true := by
    intro a ha b hb
    rcases ha b hb with rfl | rfl <;> decide +kernel
  intro b hb
  rcases h with rfl | ⟨s, hne, hs, rfl | ⟨p, hp, rfl⟩⟩
  · cases hb
  · exact hw hs b hb
  · simp only [List.mem_append, List.mem_cons, List.not_mem_nil, or_false] at hb
    rcases hb with (hb | rfl | rfl) | hb
    · exact hw hp b hb
    · decide +kernel
    · decide +kernel
    · exact hw hs b hb

namespace Acc
variable {fl : Flags} {net : Net}

/-! ## Addresses -/

theorem schemeSip {t y : Bytes} (h : Gram.word "sip:" t) : Acc fl parseAddrScheme t .sip y := by
  obtain ⟨a, b, d, rfl, h1, h2, h3⟩ := sipWord h
  refine ⟨0, fun c _ hr _ _ => ⟨c.adv 4, ?_, Moved.of_eat c 4 0⟩⟩
  unfold parseAddrScheme
  rw [hr]
  simp [h1, h2, h3]
theorem schemeSips {t y : Bytes} (h : Gram.word "sips:" t) : Acc fl parseAddrScheme t .sips y := by
  obtain ⟨a, b, d, e, rfl, h1, h2, h3, h4⟩ := sipsWord h
  refine ⟨0, fun c _ hr _ _ => ⟨c.adv 5, ?_, Moved.of_eat c 5 0⟩⟩
  have he : e ≠ 0x3a := by rintro rfl; exact absurd h4 (by decide)
  unfold parseAddrScheme
  rw [hr]
  simp [h1, h2, h3, h4, he]
theorem schemeTel {t y : Bytes} (h : Gram.word "tel:" t) : Acc fl parseAddrScheme t .tel y := by
  obtain ⟨a, b, d, rfl, h1, h2, h3⟩ := telWord h
  refine ⟨0, fun c _ hr _ _ => ⟨c.adv 4, ?_, Moved.of_eat c 4 0⟩⟩
  unfold parseAddrScheme
  rw [hr]
  simp [h1, h2, h3]

theorem addrUri {β : Type} {u : AddrUri} {t y z : Bytes} {f : AddrUri → P β} {w : β} (h : Gram.addrUri net fl u t (z ++ y)) (hf : Acc fl (f u) z w y) :
    Acc fl (parseAddrScheme >>= fun ty => parseUriAfterScheme net true ty >>= f) (t ++ z) w y := by
  cases h with
  | sip u t0 t _ h0 h =>
    refine bind' (t1 := t0) (t2 := t ++ z) (schemeSip h0) ?_ (by simp)
    unfold parseUriAfterScheme
    refine bind (bind0 (orErr (alloc 18 _)) (map (ite_pos rfl (sipRest h)) rfl) : Acc fl _ t (AddrUri.sip u) _) hf
  | sips u t0 t _ h0 h =>
    refine bind' (t1 := t0) (t2 := t ++ z) (schemeSips h0) ?_ (by simp)
    unfold parseUriAfterScheme
    refine bind (bind0 (orErr (alloc 18 _)) (map (ite_pos rfl (sipRest h)) rfl) : Acc fl _ t (AddrUri.sip u) _) hf
  | tel u t0 t _ h0 h =>
    refine bind' (t1 := t0) (t2 := t ++ z) (schemeTel h0) ?_ (by simp)
    unfold parseUriAfterScheme
    refine bind (bind0 (orErr (alloc 10 _)) (map (ite_pos rfl (telRest h)) rfl) : Acc fl _ t (AddrUri.tel u) _) hf

theorem tokens_ne {d y : Bytes} (h : Gram.tokens d y) : ∃ b d', d = b :: d' ∧ csSipToken.mem b = true := by
  have : ∀ {t z : Bytes}, Gram.run csSipToken t t z → ∀ w : Bytes, ∃ b d', t ++ w = b :: d' ∧ csSipToken.mem b = true := by
    intro t z hr w
    obtain ⟨_, h1, h2, _⟩ := hr
    cases t with
    | nil => exact absurd rfl h1
    | cons b t => exact ⟨b, t ++ w, rfl, h2 b (by simp)⟩
  cases h with
  | one t w y ht hw hy => exact this ht w
  | more t w x y ht hw hx => rw [List.append_assoc]; exact this ht _

theorem tokens_noColon {d y : Bytes} (h : Gram.tokens d y) : 0x3a ∉ d := by
  have h1 : csSipToken.mem 0x3a = false := by decide +kernel
  have h2 : isLwsChar 0x3a = false := by decide +kernel
  induction h with
  | one t w y ht hw hy =>
    intro hm
    rcases List.mem_append.1 hm with hm | hm
    · rw [ht.2.2.1 _ hm] at h1; cases h1
    · rw [isSWS_chars hw.1 _ hm] at h2; cases h2
  | more t w x y ht hw hx ih =>
    intro hm
    rcases List.mem_append.1 hm with hm | hm
    · rcases List.mem_append.1 hm with hm | hm
      · rw [ht.2.2.1 _ hm] at h1; cases h1
      · rw [isSWS_chars hw _ hm] at h2; cases h2
    · exact ih hm

theorem tokensRun {d y : Bytes} (h : Gram.tokens d y) {w0 z : Bytes} (hy : y = w0 ++ 0x3c :: z) (hw0 : IsSWS w0) : Run fl tokensBody () y () d := by
  have stop : ∀ {y : Bytes}, NotIn csSipToken y → Run fl tokensBody () y () [] := by
    intro y hn
    refine .last ?_
    unfold tokensBody
    refine peek ?_
    rw [List.nil_append]
    cases y with
    | nil => exact pure _ _
    | cons b y =>
      simp only [List.head?_cons]
      rw [if_neg (by rw [hn b (by simp)]; simp)]
      exact pure _ _
  have step : ∀ {t w y : Bytes}, Gram.run csSipToken t t (w ++ y) → Gram.sws w y → ¬ Gram.endsLine (w ++ y) → Acc fl (tokensBody ()) (t ++ w) (.inl ()) y := by
    intro t w y ht hw hne
    unfold tokensBody
    refine peek ?_
    obtain ⟨_, h1, h2, h3⟩ := ht
    cases t with
    | nil => exact absurd rfl h1
    | cons b t =>
      simp only [List.cons_append, List.head?_cons]
      rw [if_pos (h2 b (by simp))]
      exact map (orBack (bind (t1 := b :: t) (skipRun h2 h3) (lws hw hne))) rfl
  induction h with
  | one t w y ht hw hn =>
    have : t ++ w = (t ++ w) ++ [] := by simp
    rw [this]
    refine .step (step ht hw ?_) (by have := ht.2.1; simp [this]) (stop hn)
    intro he
    have := hw.2.1 he
    subst this
    rw [List.nil_append] at he
    rw [hy] at he
    rcases endsLine_no hw0 (noWs_of (b := 0x3c) rfl (by decide +kernel)) with g | g
    · exact g he
    · subst g
      obtain ⟨a, b, g1, g2, g3⟩ := he
      cases a with
      | nil =>
        obtain ⟨q, g4, _⟩ := g3
        rw [g4] at g1; simp at g1
      | cons x a =>
        simp only [List.nil_append, List.cons_append, List.cons.injEq] at g1
        have := g2 x (by simp)
        rw [← g1.1] at this
        simp at this
  | more t w x y ht hw hx ih =>
    obtain ⟨b, x', rfl, hb⟩ := tokens_ne hx
    have hbw : isLwsChar b = false := by
      have : ∀ b : UInt8, csSipToken.mem b = true → isLwsChar b = false := by decide +kernel
      exact this b hb
    refine .step (step (by simpa using ht) (swsNo hw hbw) ?_) (by have := ht.2.1; simp [this]) (ih hy)
    rcases endsLine_no hw (noWs_of (b := b) (r := x' ++ y) rfl hbw) with g | g
    · exact g
    · subst g
      have := ht.2.2.2 b (by simp)
      rw [this] at hb; cases hb

theorem tokens {d y w0 z : Bytes} (h : Gram.tokens d y) (hy : y = w0 ++ 0x3c :: z) (hw0 : IsSWS w0) : Acc fl parseTokens d d y := by
  obtain ⟨n, hn⟩ := forLoop (tokensRun (fl := fl) h hy hw0)
  unfold parseTokens
  obtain ⟨m, hm⟩ := allocStr (fl := fl) d y
  refine ⟨n + m, fun c h1 h2 h3 h4 => ?_⟩
  rw [P.get_bind]
  obtain ⟨c1, e1, m1⟩ := hn c h1 h2 h3 (by omega)
  have := m1.used
  rw [P.bind_ok e1, P.get_bind]
  have htx : (c.src.drop c.pos).take (c1.pos - c.pos) = d := by
    rw [m1.pos, Nat.add_sub_cancel_left, show c.src.drop c.pos = c.rest from rfl, h2, List.take_left]
  rw [htx]
  obtain ⟨c2, e2, m2⟩ := hm c1 (m1.flags.trans h1) (m1.rest h2) (m1.pos_le h2 h3) (by rw [m1.cap]; omega)
  refine ⟨c2, P.orErr_ok e2, m2.src.trans m1.src, m2.flags.trans m1.flags, m2.cap.trans m1.cap, ?_, ?_⟩
  · rw [m2.pos, m1.pos]; rfl
  · have := m2.used; omega

theorem quoted_head {v t y : Bytes} (h : Gram.quoted v t y) : ∃ b t', t = b :: t' ∧ (b = 0x22 ∨ isLwsChar b = true) := by
  obtain ⟨w, q, hw, rfl, _⟩ := h
  cases w with
  | nil => exact ⟨0x22, _, rfl, Or.inl rfl⟩
  | cons b w => exact ⟨b, _, rfl, Or.inr (isSWS_chars hw b (by simp))⟩
theorem quoted_byte {b : UInt8} (h : b = 0x22 ∨ isLwsChar b = true) : csSipToken.mem b = false ∧ b ≠ 0x3c ∧ csUriScheme.mem b = false ∧ b ≠ 0x3a := by
  revert b; decide +kernel

theorem display {d : Option (Bool × Bytes)} {t y : Bytes} (h : Gram.display d t y) : Acc fl parseDisplayLaquot t d y := by
  unfold parseDisplayLaquot
  refine peek ?_
  cases h with
  | none y => exact ite_neg (by simp) skipPure
  | tokens d w y h hw =>
    obtain ⟨b, d', rfl, hb⟩ := tokens_ne h
    simp only [List.cons_append, List.head?_cons]
    have hb' : b ≠ 0x3c := by
      rintro rfl; exact absurd hb (by decide +kernel)
    refine ite_pos hb' ?_
    refine bind' (t1 := b :: d') (t2 := w ++ [0x3c]) (v1 := (false, b :: d')) ?_ (map (laquot hw) rfl) (by simp)
    unfold parseDisplayName
    refine peek ?_
    simp only [List.cons_append, List.head?_cons]
    exact ite_pos hb (map (tokens (z := y) (w0 := w) (by simpa using h) (by simp) hw) rfl)
  | quoted v t w y h hw =>
    obtain ⟨b, t', rfl, hb⟩ := quoted_head h
    obtain ⟨g1, g2, _⟩ := quoted_byte hb
    simp only [List.cons_append, List.head?_cons]
    refine ite_pos g2 ?_
    refine bind' (t1 := b :: t') (t2 := w ++ [0x3c]) (v1 := (true, v)) ?_ (map (laquot hw) rfl) (by simp)
    unfold parseDisplayName
    refine peek ?_
    simp only [List.cons_append, List.head?_cons]
    exact ite_neg (by simp [g1]) (map (quoted (by simpa using h)) rfl)

theorem nameAddr {a : Addr} {t y : Bytes} (h : Gram.nameAddr net fl a t y) : Acc fl (parseNameAddr net) t a y := by
  unfold parseNameAddr
  obtain ⟨w, d, td, u, tu, w', _, h1, hd, hu, h3⟩ := h
  refine bind' (t1 := w) (t2 := td ++ (tu ++ 0x3e :: w')) (sws (by simpa using h1)) ?_ (by simp)
  refine bind (display (by simpa using hd)) (addrUri (by simpa using hu) ?_)
  exact map (raquot h3) rfl

theorem nameAddr_head {a : Addr} {t y : Bytes} (h : Gram.nameAddr net fl a t y) : ∃ b x, t ++ y = b :: x ∧ (b = 0x3c ∨ b = 0x22 ∨ (b ≠ 0x3c ∧ b ≠ 0x22 ∧ NoScheme (t ++ y))) := by
  obtain ⟨w, d, td, u, tu, w', _, h1, hd, hu, h3⟩ := h
  cases w with
  | cons b w =>
    have hb := isSWS_chars h1.1 b (by simp)
    obtain ⟨_, g2, g3, g4⟩ := quoted_byte (Or.inr hb)
    have g5 : b ≠ 0x22 := by rintro rfl; exact absurd hb (by decide +kernel)
    exact ⟨b, _, rfl, Or.inr (Or.inr ⟨g2, g5, noScheme_of (p := []) (by simp) g3 g4⟩)⟩
  | nil =>
    simp only [List.nil_append]
    cases hd with
    | none => exact ⟨0x3c, _, rfl, Or.inl rfl⟩
    | tokens d w _ h hw =>
      obtain ⟨b, d', hdd, hb⟩ := tokens_ne h
      have hb' : b ≠ 0x3c ∧ b ≠ 0x22 := by
        constructor
        · rintro rfl; exact absurd hb (by decide +kernel)
        · rintro rfl; exact absurd hb (by decide +kernel)
      refine ⟨b, _, by rw [hdd]; rfl, Or.inr (Or.inr ⟨hb'.1, hb'.2, ?_⟩)⟩
      have hnc : 0x3a ∉ d ++ w := by
        intro hm
        rcases List.mem_append.1 hm with hm | hm
        · exact tokens_noColon h hm
        · have := isSWS_chars hw _ hm
          exact absurd this (by decide +kernel)
      have := noScheme_of (p := d ++ w) (b := 0x3c) (q := tu ++ 0x3e :: w' ++ y) hnc (by decide +kernel) (by decide)
      simpa using this
    | quoted v t w _ h hw =>
      obtain ⟨b, t', htt, hb⟩ := quoted_head h
      obtain ⟨_, g2, g3, g4⟩ := quoted_byte hb
      refine ⟨b, _, by rw [htt]; rfl, ?_⟩
      by_cases hq : b = 0x22
      · exact Or.inr (Or.inl hq)
      · refine Or.inr (Or.inr ⟨g2, hq, ?_⟩)
        rw [htt]
        exact noScheme_of (p := []) (by simp) g3 g4

theorem addr {a : Addr} {t y : Bytes} (h : Gram.addr net fl a t y) : Acc fl (parseAddr net false) t a y := by
  unfold parseAddr
  refine peek ?_
  cases h with
  | name a t y h =>
    obtain ⟨b, x, hx, hh⟩ := nameAddr_head h
    rw [hx]
    simp only [List.head?_cons]
    rcases hh with rfl | rfl | ⟨h1, h2, h3⟩
    · exact ite_pos (by decide) (nameAddr h)
    · exact ite_pos (by decide) (nameAddr h)
    · refine ite_neg (by simp [h1, h2]) (bind0 (v1 := none) (orElse2 (Rej.fst (Rej.addrScheme h3)) (pure _ _)) ?_)
      exact nameAddr h
  | spec u t y h =>
    have go : ∀ {t0 t' : Bytes} {ty : UriType} {b : UInt8} {x : Bytes}, t = t0 ++ t' → t0 = b :: x → b ≠ 0x3c → b ≠ 0x22 → Acc fl parseAddrScheme t0 ty (t' ++ y) →
        Acc fl (parseUriAfterScheme net false ty) t' u y →
        Acc fl (match (t ++ y).head? with
          | none => P.err
          | some b => if (b = 0x3c || b = 0x22) = true then parseNameAddr net else do
            let t ← P.orElse (do let t ← parseAddrScheme; Pure.pure (some t)) (Pure.pure none)
            parseAddrSpecOrName net false t) t ⟨false, none, u⟩ y := by
      intro t0 t' ty b x e1 e2 hb1 hb2 ha hu
      subst e1
      have hh : (t0 ++ t' ++ y).head? = some b := by rw [e2]; rfl
      rw [hh]
      refine ite_neg (by simp [hb1, hb2]) (bind (v1 := some ty) (orElse1 (map ha rfl)) ?_)
      exact map hu rfl
    have lower_ne : ∀ a p : UInt8, (0x61 ≤ p ∧ p ≤ 0x7a) → a ||| 0x20 = p → a ≠ 0x3c ∧ a ≠ 0x22 := by
      intro a p hp h
      constructor
      · rintro rfl; subst h; revert hp; decide
      · rintro rfl; subst h; revert hp; decide
    cases h with
    | sip u t0 t' y h0 h =>
      obtain ⟨a, b, d, e, h1, _⟩ := sipWord h0
      obtain ⟨g1, g2⟩ := lower_ne a _ (by decide) h1
      refine go rfl e g1 g2 (schemeSip h0) ?_
      unfold parseUriAfterScheme
      exact bind0 (orErr (alloc 18 _)) (map (ite_neg (by simp) (sipRestNoParam h)) rfl)
    | sips u t0 t' y h0 h =>
      obtain ⟨a, b, d, f, e, h1, _⟩ := sipsWord h0
      obtain ⟨g1, g2⟩ := lower_ne a _ (by decide) h1
      refine go rfl e g1 g2 (schemeSips h0) ?_
      unfold parseUriAfterScheme
      exact bind0 (orErr (alloc 18 _)) (map (ite_neg (by simp) (sipRestNoParam h)) rfl)
    | tel u t0 t' y h0 h =>
      obtain ⟨a, b, d, e, h1, _⟩ := telWord h0
      obtain ⟨g1, g2⟩ := lower_ne a _ (by decide) h1
      refine go rfl e g1 g2 (schemeTel h0) ?_
      unfold parseUriAfterScheme
      exact bind0 (orErr (alloc 10 _)) (map (ite_neg (by simp) (telRestNoParam h)) rfl)

theorem addrSpec {a : Addr} {t y : Bytes} (h : Gram.addrSpec net fl a t y) : Acc fl (parseAddrSpec net) t a y := by
  unfold parseAddrSpec
  obtain ⟨u, _, _, h⟩ := h
  have := addrUri (net := net) (fl := fl) (z := []) (t := t) (y := y) (f := fun u => (Pure.pure ⟨false, none, u⟩ : P Addr)) h (pure _ _)
  rwa [List.append_nil] at this

/-! ## Header parameters -/

theorem bracket {x y : Bytes} (h : 0x5d ∉ x) : Acc fl parseBracketValue (0x5b :: x ++ [0x5d]) (0x5b :: x ++ [0x5d]) y := by
  obtain ⟨n, hn⟩ := allocStr (fl := fl) (0x5b :: x ++ [0x5d]) (0x5b :: x ++ [0x5d] ++ y)
  refine ⟨n, fun c h1 h2 h3 h4 => ?_⟩
  obtain ⟨c1, e1, m1⟩ := hn c h1 h2 h3 h4
  unfold parseBracketValue
  have hfi : c.rest.findIdx? (· = 0x5d) = some (x.length + 1) := by
    rw [h2, List.findIdx?_eq_some_iff_getElem]
    refine ⟨by simp, by simp, ?_⟩
    intro j hj
    simp only [decide_eq_true_eq]
    intro e
    cases j with
    | zero => simp at e
    | succ j =>
      have hj' : j < x.length := by omega
      simp only [List.cons_append, List.getElem_cons_succ, List.append_assoc] at e
      rw [List.getElem_append_left hj'] at e
      exact h (e ▸ List.getElem_mem hj')
  rw [hfi]
  have htk : c.rest.take (x.length + 1 + 1) = 0x5b :: x ++ [0x5d] := by
    rw [h2]
    have : x.length + 1 + 1 = (0x5b :: x ++ [0x5d]).length := by simp
    rw [this, List.take_left]
  simp only [htk]
  unfold P.allocStr at e1
  rcases ha : Sip.allocStr (0x5b :: x ++ [0x5d]) c with ⟨v, d⟩
  rw [ha] at e1
  cases v with
  | none => cases e1
  | some v =>
  cases e1
  refine ⟨_, rfl, m1.src, m1.flags, m1.cap, ?_, m1.used⟩
  have := m1.pos
  show c1.pos + (x.length + 1 + 1) = _
  rw [this]; simp

theorem genValue {v : GenValue} {t y : Bytes} (h : Gram.genValue v t y) : Acc fl GenericParam.parseValue t v y := by
  unfold GenericParam.parseValue
  refine peek ?_
  cases h with
  | token v y h =>
    have h' := h
    obtain ⟨_, h1, h2, _⟩ := h'
    cases t with
    | nil => exact absurd rfl h1
    | cons b t => exact ite_pos (h2 b (by simp)) (map (str h) rfl)
  | quoted v t y h =>
    obtain ⟨b, t', rfl, hb⟩ := quoted_head h
    obtain ⟨g1, _⟩ := quoted_byte hb
    exact ite_neg (by simp [g1]) (ite_pos (by rcases hb with rfl | hb <;> simp [*]) (map (quoted h) rfl))
  | ipv6 x y h =>
    refine ite_neg ?_ (ite_neg ?_ (ite_pos rfl (map (bracket h) rfl)))
    · decide +kernel
    · decide +kernel

theorem genericParam {p : GenericParam} {t y : Bytes} (h : Gram.genericParam p t y) : Acc fl GenericParam.parse t p y := by
  unfold GenericParam.parse
  cases h with
  | flag n w y hn hw hy he =>
    refine bind (orErr (strEsc_token hn)) (peek ?_)
    cases hwy : w ++ y with
    | nil =>
      obtain ⟨rfl, rfl⟩ := List.append_eq_nil_iff.1 hwy
      exact pure _ _
    | cons b x =>
      simp only [List.head?_cons]
      by_cases hb : isLwsChar b = true
      · refine ite_neg (by simp [hb]) (bindE (markNo hw ?_ hy) (ite_pos rfl (pure _ _)))
        cases w with
        | nil => rw [List.nil_append] at hwy; rw [hwy]; simp
        | cons => exact he (by simp)
      · cases w with
        | nil =>
          rw [List.nil_append] at hwy
          rw [hwy] at hy
          exact ite_pos (by simp at hy; simp [hb, hy]) (pure _ _)
        | cons d w =>
          rw [List.cons_append, List.cons.injEq] at hwy
          rw [← hwy.1] at hb
          exact absurd (isSWS_chars hw.1 d (by simp)) hb
  | value n e v t y hn he hv =>
    refine bind' (t1 := n) (t2 := e ++ t) (orErr (strEsc_token (by simpa using hn))) (peek ?_) (by simp)
    have hh : ∃ b x, e = b :: x ∧ (b = 0x3d ∨ isLwsChar b = true) := by
      obtain ⟨w1, w2, h1, h2, rfl⟩ := he
      cases w1 with
      | nil => exact ⟨_, _, rfl, Or.inl rfl⟩
      | cons b w1 => exact ⟨b, _, rfl, Or.inr (isSWS_chars h1 b (by simp))⟩
    obtain ⟨b, x, hx, hb⟩ := hh
    have hhd : (e ++ t ++ y).head? = some b := by rw [hx]; rfl
    rw [hhd]
    exact ite_neg (by rcases hb with rfl | hb <;> simp [*]) (bind (markYes (by decide +kernel) he) (ite_neg (by simp) (map (genValue hv) rfl)))

theorem mark_head {m : UInt8} {t y : Bytes} (h : Gram.mark m t y) : ∃ b x, t = b :: x ∧ (b = m ∨ isLwsChar b = true) := by
  obtain ⟨w1, w2, h1, h2, rfl⟩ := h
  cases w1 with
  | nil => exact ⟨_, _, rfl, Or.inl rfl⟩
  | cons b w1 => exact ⟨b, _, rfl, Or.inr (isSWS_chars h1 b (by simp))⟩

/-- a mark does not begin with the end of the line -/
theorem mark_notEol {m : UInt8} (hm : isLwsChar m = false) {t y : Bytes} (h : Gram.mark m t y) : ¬ StartsEol (t ++ y) := by
  obtain ⟨w1, w2, h1, h2, rfl⟩ := h
  intro he
  have e : swsLen (w1 ++ m :: (w2 ++ y)) = w1.length := swsLen_eq_of_sws h1 (noWs_of rfl hm)
  have e' : w1 ++ m :: w2 ++ y = w1 ++ m :: (w2 ++ y) := by simp
  rw [e'] at he
  rw [swsLen_eol he] at e
  have : w1 = [] := List.length_eq_zero_iff.1 e.symm
  subst this
  obtain ⟨z, hz, _⟩ := he
  simp only [List.nil_append, List.cons_append, List.cons.injEq] at hz
  rw [hz.1] at hm
  exact absurd hm (by decide +kernel)

theorem nextYes {sep : UInt8} (hm : isLwsChar sep = false) {t y : Bytes} (h : Gram.mark sep t y) : Acc fl (nextParamMark sep) t true y := by
  obtain ⟨n, hn⟩ := markYes (fl := fl) hm h
  refine ⟨n, fun c h1 h2 h3 h4 => ?_⟩
  obtain ⟨c', e, m⟩ := hn c h1 h2 h3 h4
  exact ⟨c', by unfold nextParamMark; rw [e], m⟩

theorem nextNo {sep : UInt8} (hs : isLwsChar sep = false) {y : Bytes} (h : ¬ ∃ w z, IsSWS w ∧ y = w ++ sep :: z) (he : ¬ IsSWS y) : Acc fl (nextParamMark sep) [] false y := by
  have hw : Gram.sws (y.take (swsLen y)) (y.drop (swsLen y)) := gsws_take y
  have hne : y.drop (swsLen y) ≠ [] := by
    intro e
    apply he
    have := swsLen_isSWS y
    rwa [List.take_of_length_le (List.drop_eq_nil_iff.1 e)] at this
  obtain ⟨n, hn⟩ := markNo (fl := fl) (m := sep) hw hne ((noSemi_iff hs y).1 h)
  refine ⟨n, fun c h1 h2 h3 h4 => ?_⟩
  obtain ⟨c', e, m⟩ := hn c h1 (by rw [List.take_append_drop]; exact h2) h3 h4
  exact ⟨c'.setPos c.pos, by unfold nextParamMark; rw [e], m.src, m.flags, m.cap, rfl, m.used⟩

theorem params_run {κ : Type} {K : List GenericParam → κ → List GenericParam → Prop} {setK : κ → GenericParam → P (Option κ)} (hset : Sets fl (fun _ => True) K setK)
    {ps : List GenericParam} {t y : Bytes} (h : Gram.paramList ps t y) : ∀ qs k acc, K qs k acc →
    ∃ r, K (qs ++ ps) r.1 r.2 ∧ Run fl (genericParamsBody 0x3b setK) r y (k, acc) t := by
  induction h with
  | nil y hy he =>
    intro qs k acc hK
    refine ⟨(k, acc), by simpa using hK, .last ?_⟩
    unfold genericParamsBody
    by_cases hn : y = []
    · subst hn
      exact get (pure _ _) (fun c _ hr _ => by rw [cur_eq_head, hr]; rfl)
    by_cases ho : StartsEol y
    · refine get (pure (Sum.inr (k, acc)) _) (fun c _ hr _ => ?_)
      rw [List.nil_append] at hr
      have hoc : isOnlyCRLF c.src c.pos = true := (isOnlyCRLF_spec _ _).2 (by show StartsEol c.rest; rw [hr]; exact ho)
      rw [cur_eq_head, hr]
      cases y with
      | nil => exact absurd rfl hn
      | cons b y => simp only [List.head?_cons, hoc, if_true]
    cases y with
    | nil => exact absurd rfl hn
    | cons b y =>
      have hoc : ∀ c : Ctx, c.rest = [] ++ b :: y → ¬ isOnlyCRLF c.src c.pos = true := fun c hr h => ho (by
        have := (isOnlyCRLF_spec _ _).1 h
        have hr : c.src.drop c.pos = b :: y := hr
        rw [hr] at this; exact this)
      by_cases hb : (b ≠ 0x3b && !isLwsChar b) = true
      · exact get (pure (Sum.inr (k, acc)) _) (fun c _ hr _ => by
          have hcur : c.cur? = some b := by rw [cur_eq_head, hr]; rfl
          simp only [hcur]
          rw [if_neg (hoc c hr), if_pos hb])
      · refine get ?_ (fun c _ hr _ => by
          have hcur : c.cur? = some b := by rw [cur_eq_head, hr]; rfl
          simp only [hcur]
          rw [if_neg (hoc c hr), if_neg hb])
        exact bind0 (nextNo (by decide +kernel) hy (he hn)) (ite_pos rfl (pure _ _))
  | cons m p t ps t' y hm hp _ ih =>
    intro qs k acc hK
    obtain ⟨r, g1, g2⟩ := hset qs k acc p hK trivial
    obtain ⟨r', g3, g4⟩ := ih _ _ _ g2
    refine ⟨r', by simpa using g3, .step ?_ (by obtain ⟨b, x, hx, _⟩ := mark_head hm; simp [hx]) g4⟩
    unfold genericParamsBody
    have hm' : Gram.mark 0x3b m (t ++ (t' ++ y)) := by simpa using hm
    obtain ⟨b, x, hx, hb⟩ := mark_head hm
    refine get ?_ (fun c _ hr _ => by
      have hcur : c.cur? = some b := by rw [cur_eq_head, hr, hx]; rfl
      have hoc : ¬ isOnlyCRLF c.src c.pos = true := fun h => mark_notEol (by decide +kernel) hm' (by
        have := (isOnlyCRLF_spec _ _).1 h
        have hr : c.src.drop c.pos = m ++ t ++ (t' ++ y) := hr
        rw [hr] at this; simpa using this)
      simp only [hcur]
      rw [if_neg hoc, if_neg (by rcases hb with rfl | hb <;> simp [*])])
    refine bind (nextYes (by decide +kernel) hm') (ite_neg (by simp) (bind0 (orErr (alloc 8 _)) (bindE (genericParam hp) (bind0 (g1 _) ?_))))
    cases r <;> exact pure _ _

theorem params {k : HKind} {ps : Params} {t y : Bytes} (h : Gram.params fl k ps t y) : Acc fl (Params.parse k.paramNames k.paramFlag) t ps y := by
  unfold Params.parse
  obtain ⟨ps, known, others, _, _, h, hs⟩ := h
  obtain ⟨⟨kn, o⟩, g1, g2⟩ := params_run (fl := fl) (K := fun ps known acc => Gram.Sorted k.paramNames (k.paramFlag fl) GenericParam.name ps known acc)
    (setK := setKnownGeneric k.paramNames k.paramFlag) (fun ps kn acc p hK _ => by
      obtain ⟨r, g1, g2⟩ := setKnown (fl := fl) (names := k.paramNames) (by cases k <;> decide +kernel) (by cases k <;> decide +kernel) hK p
      refine ⟨r, fun y => ?_, g2⟩
      unfold setKnownGeneric
      exact get (g1 y) (fun c hf _ _ => by rw [hf])) h [] [] [] sorted_nil
  refine map (orErr (forLoop g2)) ?_
  rw [List.nil_append] at g1
  rw [hs.2.trans g1.2.symm, hs.1.trans g1.1.symm]

end Acc
end Sip
