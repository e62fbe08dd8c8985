import Verif.Props.PanicExact
/-!
# C30: which messages are never parsed to an end

`Plain.lean` proves that only a quoted string can make the message parser loop. This file has the other direction for display names, for all messages: a start line, any
headers, and then an address header that is parsed, whose value starts with a quoted string that loops: the message parser does not return, whatever follows.
-/
namespace Sip

/-- on every input that starts with the text, and goes on with a bare LF or a CR without LF, the parser does not return -/
def Hangs {α : Type} (fl : Flags) (p : P α) (t : Bytes) (n : Nat) : Prop :=
  ∀ (c : Ctx) (y : Bytes), c.flags = fl → c.rest = t ++ y → Stuck y → c.pos ≤ c.src.length → c.used + n < c.cap → p c = .hang

theorem orErr_hang {α : Type} (p : P α) (c : Ctx) : P.orErr p c = .hang ↔ p c = .hang := by
  unfold P.orErr
  split
  · next h => rw [h]; simp
  · rfl

namespace Hangs
variable {α β : Type} {fl : Flags} {F : Bytes → Prop}
theorem left {p : P α} {f : α → P β} {t : Bytes} {n : Nat} (h : Hangs fl p t n) : Hangs fl (p >>= f) t n :=
  fun c y h1 h2 h3 h4 h5 => P.bind_hang (h c y h1 h2 h3 h4 h5)
theorem orErr {p : P α} {t : Bytes} {n : Nat} (h : Hangs fl p t n) : Hangs fl (P.orErr p) t n :=
  fun c y h1 h2 h3 h4 h5 => (orErr_hang p c).2 (h c y h1 h2 h3 h4 h5)
theorem right {p : P α} {f : α → P β} {t t1 t2 : Bytes} {v1 : α} {n n1 n2 : Nat}
    (h1 : Parses fl p t1 v1 n1 F) (h2 : Hangs fl (f v1) t2 n2) (hF : ∀ y, Stuck y → F (t2 ++ y)) (ht : t = t1 ++ t2) (hn : n1 + n2 ≤ n) :
    Hangs fl (p >>= f) t n := by
  subst ht
  intro c y hfl hr hg hp hu
  rw [List.append_assoc] at hr
  have e1 := h1 c (t2 ++ y) hfl hr (hF y hg) hp (by omega)
  have hr2 := Ctx.rest_eat c t1 (t2 ++ y) n1 hr
  have hlen := rest_length c hp
  rw [hr] at hlen; simp only [List.length_append] at hlen
  have e2 := h2 (c.eat t1.length n1) y hfl hr2 hg (by simp; omega) (by simp; omega)
  rw [P.bind_ok e1, e2]
theorem peek {f : Option UInt8 → P β} {b : UInt8} {t : Bytes} {n : Nat} (h : Hangs fl (f (some b)) (b :: t) n) : Hangs fl (P.peek >>= f) (b :: t) n := by
  intro c y h1 h2 h3 h4 h5
  rw [P.peek_bind, cur_eq_head, h2]
  exact h c y h1 h2 h3 h4 h5
end Hangs

/-- the display name -/
theorem quoted_hangs {fl : Flags} {q o : Bytes} (hq : QText q o) : Hangs fl P.quoted (0x22 :: q) (2 + q.length) := by
  intro c y hfl hr hy hp hu
  have hi : Inv c := ⟨hp, by omega⟩
  have hsw := Parses.sws (fl := fl) [] (Or.inl rfl) c (0x22 :: q ++ y) hfl hr (by intro b hb; simp at hb; subst hb; decide +kernel) hp (by omega)
  have e : c.sws.pos = c.pos := by
    have h1 : (P.sws c).bind (fun r => .ok r.2.pos) = (Out.ok c.sws.pos : Out Nat) := rfl
    rw [hsw] at h1
    exact (Out.ok.inj h1).symm
  have hlen := (qtext_verbatim q o hq).1
  refine quoted_loops_forever c q o y _ ?_ hq (by omega) hy
  rw [sws_pos_eq c hi, e]; exact hr

theorem displayLaquot_hangs {fl : Flags} {q o : Bytes} (hq : QText q o) : Hangs fl parseDisplayLaquot (0x22 :: q) (2 + q.length) := by
  unfold parseDisplayLaquot
  refine Hangs.peek ?_
  simp only
  rw [if_pos (by decide)]
  refine Hangs.left ?_
  unfold parseDisplayName
  refine Hangs.peek ?_
  simp only
  rw [if_neg (by decide +kernel)]
  exact Hangs.left (quoted_hangs hq)

theorem nameAddr_hangs {net : Net} {fl : Flags} {q o : Bytes} (hq : QText q o) : Hangs fl (parseNameAddr net) (0x22 :: q) (2 + q.length) := by
  unfold parseNameAddr
  exact Hangs.right (Parses.sws [] (Or.inl rfl)) (Hangs.left (displayLaquot_hangs hq)) (by intro y _ b hb; simp at hb; subst hb; decide +kernel) rfl (by omega)

theorem addr_hangs {net : Net} {fl : Flags} {ps : Bool} {q o : Bytes} (hq : QText q o) : Hangs fl (parseAddr net ps) (0x22 :: q) (2 + q.length) := by
  unfold parseAddr
  refine Hangs.peek ?_
  simp only
  rw [if_pos (by decide)]
  exact nameAddr_hangs hq

/-- the headers whose value is an address -/
def addrKinds : List HKind := [.to, .from, .contact, .route, .recordRoute, .path, .serviceRoute, .pAssertedIdentity]

theorem addrValue_hangs {net : Net} {fl : Flags} {k : HKind} (hk : k ∈ addrKinds) {q o : Bytes} (hq : QText q o) : Hangs fl (k.parseValue net) (0x22 :: q) (2 + q.length) := by
  have ha : ∀ k, Hangs fl (parseAddrParams net k) (0x22 :: q) (2 + q.length) := fun k => Hangs.left (Hangs.orErr (addr_hangs hq))
  have hr : ∀ k, Hangs fl (parseRouteParams net k) (0x22 :: q) (2 + q.length) := fun k => Hangs.left (Hangs.orErr (nameAddr_hangs hq))
  simp only [addrKinds, List.mem_cons, List.not_mem_nil, or_false] at hk
  rcases hk with rfl | rfl | rfl | rfl | rfl | rfl | rfl | rfl
  · exact ha _
  · exact ha _
  · show Hangs fl (parseContact net) _ _
    unfold parseContact
    refine Hangs.right (Parses.sws [] (Or.inl rfl)) (n2 := 2 + q.length) ?_ (by intro y _ b hb; simp at hb; subst hb; decide +kernel) rfl (by omega)
    refine Hangs.peek ?_
    simp only
    rw [if_neg (by decide)]
    exact ha _
  · exact hr _
  · exact hr _
  · exact hr _
  · exact hr _
  · exact Hangs.left (Hangs.orErr (addr_hangs hq))

/-- the header line -/
theorem headerLine_hangs {net : Net} {fl : Flags} {need : HKind → Bool} {k : HKind} (hn : need k = true) {w w1 w2 tv : Bytes} {nv : Nat} (hw : IsNameOf k w)
    (h1 : AllWsp w1) (h2 : IsSWS w2) (hval : Hangs fl (k.parseValue net) tv nv) (hws : ∀ y, NoWs (tv ++ y)) (acc : List HItem) :
    Hangs fl (headersBody net need acc) (w ++ (w1 ++ 0x3a :: w2) ++ tv) (18 + nv) := by
  have hsz : k.structSize ≤ 18 := by cases k <;> decide
  have htok := hw.nameOf.token
  have key : Hangs fl (do let n ← P.orErr parseMsgHeaderName; let hs ← parseHeaderLine net need n; pure (.inl (acc ++ hs)) : P (List HItem ⊕ List HItem))
      (w ++ (w1 ++ 0x3a :: w2) ++ tv) (18 + nv) := by
    refine Hangs.right (Parses.orErr (msgHeaderName_text hw.nameOf w1 w2 h1 h2)) (n2 := k.structSize + nv) ?_ (fun y _ => hws y) rfl
      (by simp [nameCost]; omega)
    refine Hangs.left ?_
    have hl : parseHeaderLine net need (none, k.index) = (do let vs ← parseHeaderValues net k; pure (vs.map (.parsed k))) := by
      simp only [parseHeaderLine, (header_index_of k).2.2.1, hn, if_true]
    rw [hl]
    refine Hangs.left ?_
    unfold parseHeaderValues
    refine Hangs.left ?_
    unfold HKind.parseAlloc
    exact Hangs.right (F := AnyText) (Parses.orErr (Parses.alloc _)) hval (fun _ _ => trivial) rfl (Nat.le_refl _)
  intro c y hfl hr hy hp hu
  obtain ⟨b, r, rfl⟩ := List.exists_cons_of_ne_nil htok.1
  have hl := rest_length c hp
  rw [hr] at hl; simp only [List.length_append, List.length_cons] at hl
  have hb : b ≠ 0x0d := by
    have := htok.2 b List.mem_cons_self
    rintro rfl
    exact absurd this (by decide +kernel)
  unfold headersBody
  rw [P.get_bind, if_neg (by omega), if_neg]
  · exact key c y hfl hr hy hp hu
  · intro e
    obtain ⟨z, hz⟩ := (isCRLF_iff c).1 e
    rw [hr] at hz
    simp only [List.cons_append] at hz
    exact hb (List.cons.inj hz).1

theorem headersLoop_hangs {net : Net} {fl : Flags} {need : HKind → Bool} {k : HKind} (hn : need k = true) {w w1 w2 tv : Bytes} {nv : Nat} (hw : IsNameOf k w)
    (h1 : AllWsp w1) (h2 : IsSWS w2) (hval : Hangs fl (k.parseValue net) tv nv) (hws : ∀ y, NoWs (tv ++ y)) {its : List HItem} {t : Bytes} {n : Nat} (h : HeaderLines net fl need its t n) :
    ∀ (f : Nat) (acc : List HItem), Hangs fl (P.loop (headersBody net need) f acc) (t ++ (w ++ (w1 ++ 0x3a :: w2) ++ tv)) (n + (18 + nv)) := by
  have hnf : ∀ y, NoFold (w ++ (w1 ++ 0x3a :: w2) ++ tv ++ y) := by
    intro y b hb
    obtain ⟨c, r, rfl⟩ := List.exists_cons_of_ne_nil hw.nameOf.token.1
    simp at hb; subst hb
    exact (by decide +kernel : ∀ b : UInt8, csSipToken.mem b = true → isWspChar b = false) _ (hw.nameOf.token.2 _ List.mem_cons_self)
  induction h with
  | nil =>
    intro f acc
    cases f with
    | zero => intro c y _ _ _ _ _; rfl
    | succ f =>
      rw [List.nil_append]
      intro c y h3 h4 h5 h6 h7
      exact P.bind_hang (headerLine_hangs hn hw h1 h2 hval hws acc c y h3 h4 h5 h6 (by omega))
  | @cons its t n its' ts m ht hts ih =>
    intro f acc
    cases f with
    | zero => intro c y _ _ _ _ _; rfl
    | succ f =>
      exact Hangs.right (line_round ht acc) (ih f (acc ++ its)) (fun y _ => by rw [List.append_assoc]; exact hts.noFold _ (hnf y)) (List.append_assoc _ _ _) (by omega)

/-- a message with a start line, any headers, and a header that is parsed whose value starts with a text at which the parser of the value loops -/
theorem msg_hangs_at_value (net : Net) (fl : Flags) (s : StartLine) (ts : Bytes) (ns : Nat) (its : List HItem) (th : Bytes) (nh : Nat)
    (h1 : Parses fl (StartLine.parse net) ts s ns AnyText) (h2 : HeaderLines net fl (msgNeed fl) its th nh)
    (k : HKind) (hn : msgNeed fl k = true) (w w1 w2 tv : Bytes) (nv : Nat) (hw : IsNameOf k w) (hw1 : AllWsp w1) (hw2 : IsSWS w2) (hval : Hangs fl (k.parseValue net) tv nv)
    (hws : ∀ y, NoWs (tv ++ y)) : Hangs fl (Msg.parse net) (ts ++ (th ++ (w ++ (w1 ++ 0x3a :: w2) ++ tv))) (ns + (nh + (18 + nv))) := by
  unfold Msg.parse
  refine Hangs.right (Parses.orErr h1) (n2 := nh + (18 + nv)) ?_ (fun _ _ => trivial) rfl (Nat.le_refl _)
  intro c y hfl hr hy hp hu
  have hl := rest_length c hp
  have hne : w ++ (w1 ++ 0x3a :: w2) ++ tv ≠ [] := by simp
  rw [hr] at hl; simp only [List.length_append, List.length_cons] at hl
  rw [P.get_bind, if_neg (by omega)]
  refine P.bind_hang ((orErr_hang _ _).2 ?_)
  unfold parseHeaders
  rw [hfl]
  exact headersLoop_hangs hn hw hw1 hw2 hval hws h2 (c.src.length + 1) [] c y hfl hr hy hp hu

/-- **C30, converse of `msg_hangs_only_at_quote` for display names** a message with a start line, any headers, and an address header that is parsed (its name in any
letter case or compact form, white space around the colon) whose display name is a quoted string followed, before its closing quote, by a bare LF or a CR without LF:
the message parser does not return, whatever stands behind -/
theorem msg_hangs_at_display_name (net : Net) (fl : Flags) (s : StartLine) (ts : Bytes) (ns : Nat) (its : List HItem) (th : Bytes) (nh : Nat)
    (h1 : Parses fl (StartLine.parse net) ts s ns AnyText) (h2 : HeaderLines net fl (msgNeed fl) its th nh)
    (k : HKind) (hk : k ∈ addrKinds) (hn : msgNeed fl k = true) (w w1 w2 q o y : Bytes) (hw : IsNameOf k w) (hw1 : AllWsp w1) (hw2 : IsSWS w2) (hq : QText q o) (hy : Stuck y)
    (c : Ctx) (hfl : c.flags = fl) (hr : c.rest = ts ++ (th ++ (w ++ (w1 ++ 0x3a :: w2) ++ 0x22 :: q)) ++ y) (hp : c.pos ≤ c.src.length)
    (hu : c.used + (ns + (nh + (20 + q.length))) < c.cap) : Msg.parse net c = .hang := by
  refine msg_hangs_at_value net fl s ts ns its th nh h1 h2 k hn w w1 w2 _ _ hw hw1 hw2 (addrValue_hangs hk hq) ?_ c y hfl hr hy hp (by omega)
  intro y b hb; simp at hb; subst hb; decide +kernel

/-- the compact name, white space on both sides of the colon, the LF inside the display name, more text behind; the same message with the LF escaped away is answered -/
theorem msg_hang_samples :
    Msg.parse Net.sample (fresh (str "SIP/2.0 200 OK\r\nX-a: b\r\n c\r\nT : \"a\nb\" <sip:a@b>\r\n\r\n") 500 {}) = .hang ∧
    ((Msg.parse Net.sample (fresh (str "SIP/2.0 200 OK\r\nX-a: b\r\n c\r\nT : \"a b\" <sip:a@b>\r\n\r\n") 500 {})).all fun _ => true) = true := by
  refine ⟨?_, by decide +kernel⟩
  have hwf : StartLine.WF Net.sample {} (.status .v20 200 (str "OK")) := ⟨trivial, by decide, fun h => by cases h⟩
  obtain ⟨t, e, hst⟩ := startLine_roundtrip Net.sample Net.sample_ok {} _ hwf
  have et : t = str "SIP/2.0 200 OK\r\n" := by
    have : StartLine.encode Net.sample {} (.status .v20 200 (str "OK")) = .ok (str "SIP/2.0 200 OK\r\n") := by decide +kernel
    rw [this] at e; exact (Out.ok.inj e).symm
  subst et
  have hraw := raws_lines Net.sample {} (msgNeed {}) [⟨0, some (str "X-a"), str "b\r\n c"⟩] (by
    intro r hr
    simp only [List.mem_cons, List.not_mem_nil, or_false] at hr
    subst hr
    exact ⟨RawHeader.samples_wf _ (by simp [RawHeader.samples]), fun k hk => absurd (hk.symm.trans (show HKind.ofIndex 0 = none by decide +kernel)) (by simp)⟩)
  exact msg_hangs_at_display_name Net.sample {} _ _ _ _ _ _ hst hraw .to (by decide) (by decide +kernel) (str "T") (str " ") (str " ") (str "a") (str "a")
    (str "\nb\" <sip:a@b>\r\n\r\n") (Or.inr ⟨_, rfl, by decide +kernel⟩) (by unfold AllWsp; decide +kernel) (Or.inr ⟨str " ", by decide, by unfold AllWsp; decide +kernel, Or.inl rfl⟩)
    (.lit _ _ _ (by decide +kernel) .nil) (Or.inl ⟨_, rfl⟩) _ rfl (by decide +kernel) (by decide +kernel) (by decide +kernel)

end Sip
