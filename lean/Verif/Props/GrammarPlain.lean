import Verif.Props.ReadsMsg
import Verif.Props.Plain
/-!
# C42 in plain words: what is accepted follows the grammar

For a context that was just made with the input `s`: if the parser accepts, `s` is a text `t` that the grammar of `Grammar.lean` relates to the value returned,
followed by what was not read; the position is the length of `t`.  So every byte in front of the position belongs to an element of the grammar, and every part of the
value comes from the text.  The arena may have any size of at least 8 bytes, and there are no conditions on the input.
-/
namespace Sip

theorem ReadsAt.fresh {α : Type} {R : Rel α} {p : P α} {s : Bytes} {cap : Nat} {fl : Flags} (h8 : 8 ≤ cap) (h : ReadsAt R p (Sip.fresh s cap fl)) {v : α} {c' : Ctx}
    (e : p (Sip.fresh s cap fl) = .ok (some v, c')) : ∃ t y, s = t ++ y ∧ c'.pos = t.length ∧ R v t y := by
  obtain ⟨st, t, ht, hr⟩ := h (fresh_inv h8) v c' e
  exact ⟨t, _, by simpa [Ctx.rest] using ht, by simpa using st.pos_text ht, hr⟩

/-- **C42** an accepted message: a start line, header lines, bodies -/
theorem msg_follows_grammar (net : Net) (s : Bytes) (cap : Nat) (h8 : 8 ≤ cap) (fl : Flags) (m : Msg) (c' : Ctx)
    (h : Msg.parse net (fresh s cap fl) = .ok (some m, c')) : ∃ t y, s = t ++ y ∧ c'.pos = t.length ∧ Gram.message net fl m t y :=
  ReadsAt.message.fresh h8 h

/-- **C42** an accepted header of kind `k`: a name of it, a colon, a value -/
theorem header_follows_grammar (net : Net) (k : HKind) (s : Bytes) (cap : Nat) (h8 : 8 ≤ cap) (fl : Flags) (v : HVal) (c' : Ctx)
    (h : k.parse net (fresh s cap fl) = .ok (some v, c')) : ∃ t y, s = t ++ y ∧ c'.pos = t.length ∧ Gram.header net fl k v t y :=
  ReadsAt.header.fresh h8 h

/-- **C42** an accepted start line -/
theorem startLine_follows_grammar (net : Net) (s : Bytes) (cap : Nat) (h8 : 8 ≤ cap) (fl : Flags) (v : StartLine) (c' : Ctx)
    (h : StartLine.parse net (fresh s cap fl) = .ok (some v, c')) : ∃ t y, s = t ++ y ∧ c'.pos = t.length ∧ Gram.startLine net fl v t y :=
  ReadsAt.startLine.fresh h8 h

/-- **C42** an accepted SIP URI -/
theorem sipUri_follows_grammar (net : Net) (s : Bytes) (cap : Nat) (h8 : 8 ≤ cap) (fl : Flags) (u : SipUri) (c' : Ctx)
    (h : SipUri.parse net (fresh s cap fl) = .ok (some u, c')) : ∃ t y, s = t ++ y ∧ c'.pos = t.length ∧ Gram.sipUri net fl u t y :=
  ReadsAt.sipUri.fresh h8 h

/-- **C42** an accepted telephone URI -/
theorem telUri_follows_grammar (s : Bytes) (cap : Nat) (h8 : 8 ≤ cap) (fl : Flags) (u : TelUri) (c' : Ctx)
    (h : TelUri.parse (fresh s cap fl) = .ok (some u, c')) : ∃ t y, s = t ++ y ∧ c'.pos = t.length ∧ Gram.telUri fl u t y :=
  ReadsAt.telUri.fresh h8 h

/-- **C42** an accepted address with brackets -/
theorem nameAddr_follows_grammar (net : Net) (s : Bytes) (cap : Nat) (h8 : 8 ≤ cap) (fl : Flags) (a : Addr) (c' : Ctx)
    (h : parseNameAddr net (fresh s cap fl) = .ok (some a, c')) : ∃ t y, s = t ++ y ∧ c'.pos = t.length ∧ Gram.nameAddr net fl a t y :=
  ReadsAt.nameAddr.fresh h8 h

/-- **C42** an accepted address of a header that has parameters -/
theorem addr_follows_grammar (net : Net) (s : Bytes) (cap : Nat) (h8 : 8 ≤ cap) (fl : Flags) (a : Addr) (c' : Ctx)
    (h : parseAddr net false (fresh s cap fl) = .ok (some a, c')) : ∃ t y, s = t ++ y ∧ c'.pos = t.length ∧ Gram.addr net fl a t y :=
  ReadsAt.addr.fresh h8 h

/-- the hypotheses are met: inputs of every kind that are accepted, two of them not to their end -/
theorem grammar_samples :
    (Msg.parse Net.sample (fresh msgSample 100000 {})).all (fun r => r.1.isSome) = true ∧
    (HKind.via.parse Net.sample (fresh (str "v: SIP / 2.0 / UDP [::1]:5060 ;branch = z9hG4bK, x") 100000 {})).all (fun r => r.1.isSome && r.2.pos == 47) = true ∧
    (StartLine.parse Net.sample (fresh (str "INVITE sip:a;x=y@b:5060;lr?p=q SIP/2.0\r\nTo: ") 100000 {})).all (fun r => r.1.isSome && r.2.pos == 40) = true ∧
    (SipUri.parse Net.sample (fresh (str "SipS:%61:b@c;lr;p=%20?a=b&c=") 100000 {})).all (fun r => r.1.isSome) = true ∧
    (TelUri.parse (fresh (str "tel:+1-(2).3;phone-context=+1.2;isub=9") 100000 {})).all (fun r => r.1.isSome) = true ∧
    (parseNameAddr Net.sample (fresh (str " \"a\\\"b\" <sip:c>") 100000 {})).all (fun r => r.1.isSome) = true ∧
    (parseAddr Net.sample false (fresh (str "sip:a@b;tag=c") 100000 {})).all (fun r => r.1.isSome && r.2.pos == 7) = true := by
  refine ⟨?_, ?_, ?_, ?_, ?_, ?_, ?_⟩ <;> decide +kernel

/-- **C42, fault** the white space that RFC 3261 wants in CSeq, RAck and Via may be missing -/
theorem missing_space_accepted :
    (HKind.cseq.parse Net.sample (fresh (str "CSeq: 1INVITE\r\n") 1000 {})).all (fun r => r.1 == some (.cseq 1 (.known 1))) = true ∧
    (HKind.rack.parse Net.sample (fresh (str "RAck: 1 2INVITE\r\n") 1000 {})).all (fun r => r.1 == some (.rack 1 2 (.known 1))) = true ∧
    (HKind.via.parse Net.sample (fresh (str "Via: SIP/2.0/UDP[::1]\r\n") 1000 {})).all (fun r => r.1.isSome && r.2.pos == 21) = true := by
  refine ⟨?_, ?_, ?_⟩ <;> decide +kernel

/-! ## What follows for a user -/

/-- **C42** a message that is accepted begins with `SIP/` in any letter case, or with a method name and a space -/
theorem msg_first_word (net : Net) (s : Bytes) (cap : Nat) (h8 : 8 ≤ cap) (fl : Flags) (m : Msg) (c' : Ctx)
    (h : Msg.parse net (fresh s cap fl) = .ok (some m, c')) :
    (∃ w y, s = w ++ y ∧ w.map asciiLower = str "sip/") ∨ ∃ w y, s = w ++ 0x20 :: y ∧ w ≠ [] ∧ InSet csSipToken w := by
  obtain ⟨t, y, rfl, _, hg⟩ := msg_follows_grammar net s cap h8 fl m c' h
  cases hg with
  | mk sl ts items th hd bs tb y hs hne hh hc hb =>
    cases hs with
    | request m tm a ta ts v tv y hm ha hs hv =>
      refine .inr ⟨tm, _, by simp only [List.append_assoc, List.cons_append]; rfl, ?_⟩
      cases hm with
      | known i n y hi hn hy =>
        have key : ∀ j < sipMethodName.length, j ≠ 0 → (sipMethodName[j]?).all (fun n => decide (n ≠ []) && n.all csSipToken.mem) = true := by decide +kernel
        have := key i (List.getElem?_eq_some_iff.1 hn).1 hi
        rw [hn] at this
        simp only [Option.all_some, Bool.and_eq_true, decide_eq_true_eq, List.all_eq_true] at this
        exact this
      | token t y hr hn => exact ⟨hr.2.1, hr.2.2.1⟩
    | status ts v tv n tn r tr y hs hv hn hr =>
      exact .inl ⟨ts, _, by simp only [List.append_assoc]; rfl, hs⟩

end Sip
