import Verif.Props.BodySafe
/-!
# C28 - C31 in plain words, for a fresh context

The theorems of the `*Safe` modules hold from every state; here they are stated for a context that was just made: an input `s`, an arena of `cap` bytes and the
settings `fl`, without the structures used in the proofs.
-/
namespace Sip

/-- a context that was just made (AbnfContext.go:41-60, AbnfMem.go:70-81): nothing is read, 8 bytes of the arena are in use, no errors -/
def fresh (s : Bytes) (cap : Nat) (fl : Flags) : Ctx := { src := s, cap := cap, flags := fl }

@[simp] theorem fresh_src (s : Bytes) (cap : Nat) (fl : Flags) : (fresh s cap fl).src = s := rfl
@[simp] theorem fresh_pos (s : Bytes) (cap : Nat) (fl : Flags) : (fresh s cap fl).pos = 0 := rfl
@[simp] theorem fresh_used (s : Bytes) (cap : Nat) (fl : Flags) : (fresh s cap fl).used = 8 := rfl
@[simp] theorem fresh_cap (s : Bytes) (cap : Nat) (fl : Flags) : (fresh s cap fl).cap = cap := rfl
@[simp] theorem fresh_errs (s : Bytes) (cap : Nat) (fl : Flags) : (fresh s cap fl).errs = [] := rfl

theorem fresh_inv {s : Bytes} {cap : Nat} {fl : Flags} (h : 8 ≤ cap) : Inv (fresh s cap fl) := ⟨by simp [fresh], h⟩

/-- **C31** whatever the input, the arena and the settings are: a message that is rejected is rejected with an error -/
theorem msg_rejected_has_error (net : Net) (hnet : net.Ok) (s : Bytes) (cap : Nat) (h8 : 8 ≤ cap) (fl : Flags) (c' : Ctx)
    (h : Msg.parse net (fresh s cap fl) = .ok (none, c')) : c'.errs ≠ [] := by
  have := (msg_safe net hnet _ (fresh_inv h8)).none rfl _ h
  intro he; rw [he] at this; simp [fresh] at this

set_option maxRecDepth 8000 in
/-- **C31** the memory used by the message parser, accepted or not, is at most linear in the length of the input -/
theorem msg_memory_linear (net : Net) (hnet : net.Ok) (s : Bytes) (cap : Nat) (h8 : 8 ≤ cap) (fl : Flags) (r : Option Msg) (c' : Ctx)
    (h : Msg.parse net (fresh s cap fl) = .ok (r, c')) : c'.used ≤ 510 * s.length + 570 ∧ c'.used ≤ cap := by
  have hs := msg_safe net hnet _ (fresh_inv (s := s) (fl := fl) h8)
  have st := hs.step _ _ h
  have h2 : c'.used ≤ cap := st.used_cap
  refine ⟨?_, h2⟩
  cases r with
  | none => have := hs.nmem _ h; simp only [fresh_used, fresh_src, fresh_pos, Nat.sub_zero] at this; omega
  | some v =>
    have := (hs.some _ _ h).2
    have h3 := st.pos_len
    rw [fresh_src] at h3
    simp only [fresh_used, fresh_src, fresh_pos, Nat.sub_zero] at this
    omega

/-- **C29** the parser never reads past the end: where it stops is inside the input -/
theorem msg_stays_inside (net : Net) (hnet : net.Ok) (s : Bytes) (cap : Nat) (h8 : 8 ≤ cap) (fl : Flags) (r : Option Msg) (c' : Ctx)
    (h : Msg.parse net (fresh s cap fl) = .ok (r, c')) : c'.pos ≤ s.length ∧ c'.src = s := by
  have st := (msg_safe net hnet _ (fresh_inv (s := s) (fl := fl) h8)).step _ _ h
  exact ⟨st.pos_len, st.src⟩

set_option maxRecDepth 8000 in
/-- **C29** with enough memory the message parser does not panic on any input whose headers have an end -/
theorem msg_no_panic (net : Net) (hnet : net.Ok) (s : Bytes) (cap : Nat) (hcap : 510 * s.length + 570 < cap) (fl : Flags) (hok : MsgOk net (fresh s cap fl)) :
    Msg.parse net (fresh s cap fl) ≠ .panic := by
  refine (msg_safe net hnet _ (fresh_inv (s := s) (fl := fl) (by omega))).nopanic hok ?_
  unfold Room; simp only [fresh_used, fresh_src, fresh_pos, fresh_cap, Nat.sub_zero]; omega

/-- **C30** only a quoted string can make the message parser loop: when it does not return, somewhere in the input a quoted string starts whose text is followed by
a bare LF, or by a CR without LF (at such a place `ParseAndAllocSipQuotedString` does loop for ever, `quoted_hangs_exactly`) -/
theorem msg_hangs_only_at_quote (net : Net) (hnet : net.Ok) (s : Bytes) (cap : Nat) (h8 : 8 ≤ cap) (fl : Flags)
    (h : Msg.parse net (fresh s cap fl) = .hang) : ∃ i, QLoop s i :=
  Classical.byContradiction fun hn =>
    (msg_safe net hnet _ (fresh_inv (s := s) (fl := fl) h8)).nohang (Or.inl fun i _ hq => hn ⟨i, hq⟩) h

/-- **C30** the same for the parser of each header -/
theorem header_hangs_only_at_quote (net : Net) (hnet : net.Ok) (k : HKind) (s : Bytes) (cap : Nat) (h8 : 8 ≤ cap) (fl : Flags)
    (h : k.parse net (fresh s cap fl) = .hang) : ∃ i, QLoop s i :=
  Classical.byContradiction fun hn =>
    (header_safe net hnet k _ (fresh_inv (s := s) (fl := fl) h8)).nohang (NoLoop.preH (c := fresh s cap fl) fun i _ hq => hn ⟨i, hq⟩) h

/-- **C30** the parser of quoted strings fails to return exactly at these places: with an arena that has room for the rest of the input, it loops for ever if and only
if behind white space such a quoted string starts -/
theorem quoted_hangs_exactly (c : Ctx) (hroom : c.used + 2 + c.src.length ≤ c.cap) :
    P.quoted c = .hang ↔ QLoop c.src (parseSWS c.src c.pos) := by
  have e0 : P.quoted c = parseQuoted (c.src.length + 1) c := rfl
  constructor
  · intro h
    rw [e0] at h
    unfold parseQuoted at h
    generalize parseSWS c.src c.pos = n at *
    simp only at h
    cases hs : c.src[n]? with
    | none => rw [hs] at h; cases h
    | some v =>
      rw [hs] at h
      simp only at h
      by_cases h1 : v ≠ 0x22
      · rw [if_pos h1] at h; cases h
      rw [if_neg h1] at h
      have h1 : v = 0x22 := by simpa using h1
      subst h1
      rcases hq : quotedLoop (c.src.length + 1) c (n + 1) (c.used + 2) [] with ⟨_ | ⟨p, u, o⟩, d⟩ | _ | _
      · rw [hq] at h; cases h
      · rw [hq] at h
        simp only at h
        by_cases h2 : c.used + 2 > c.cap
        · rw [if_pos h2] at h; cases h
        · rw [if_neg h2] at h; cases h
      · rw [hq] at h; cases h
      · exact ⟨hs, quotedLoop_hang _ _ _ _ _ (by omega) hq⟩
  · rintro ⟨h0, t, o, y, h1, h2, h3⟩
    rw [e0]
    refine quoted_loops_forever c t o y _ ?_ h2 ?_ h3
    · rw [(getElem?_of_drop_cons h0).1, h1]; rfl
    · have hl := congrArg List.length h1
      rw [List.length_drop, List.length_append] at hl
      have := (qtext_verbatim t o h2).1
      have : parseSWS c.src c.pos + 1 ≤ c.src.length := (getElem?_of_drop_cons h0).2
      omega

/-- **C30** a message without a double quote is always parsed to an end -/
theorem msg_without_quotes_terminates (net : Net) (hnet : net.Ok) (s : Bytes) (cap : Nat) (h8 : 8 ≤ cap) (fl : Flags) (hs : 0x22 ∉ s) :
    Msg.parse net (fresh s cap fl) ≠ .hang := fun h => by
  obtain ⟨i, hi, _⟩ := msg_hangs_only_at_quote net hnet s cap h8 fl h
  exact hs (List.mem_of_getElem? hi)

/-- **C30** the message parser terminates on every input in which no quoted string starts whose text is followed by a bare LF, or by a CR without LF -/
theorem msg_terminates (net : Net) (hnet : net.Ok) (s : Bytes) (cap : Nat) (h8 : 8 ≤ cap) (fl : Flags) (hs : ∀ i, ¬ QLoop s i) :
    Msg.parse net (fresh s cap fl) ≠ .hang := fun h => by
  obtain ⟨i, hi⟩ := msg_hangs_only_at_quote net hnet s cap h8 fl h
  exact hs i hi

/-- **C30** in particular on every input in which every CR and LF is part of a line end, and no backslash stands in front of one -/
theorem noLoop_of_noStray {s : Bytes} (h : NoStray s) : ∀ i, ¬ QLoop s i :=
  fun i => NoStray.noLoop (c := fresh s 8 {}) h i (Nat.zero_le _)

/-- the premises are met: a message with quoted strings, and one with stray line ends and no quote; and the place where a quoted string loops -/
theorem hang_samples : (∀ i, ¬ QLoop msgSample i) ∧ 0x22 ∉ bodySample ∧ QLoop (str "To: \"a\nb\" <sip:a@b>\r\n") 4 :=
  ⟨noLoop_of_noStray msgSample_ok.2.1, by decide +kernel, by decide +kernel, str "a", str "a", str "\nb\" <sip:a@b>\r\n", by decide +kernel,
    .lit _ _ _ (by decide +kernel) .nil, Or.inl ⟨str "b\" <sip:a@b>\r\n", by decide +kernel⟩⟩

/-- **C30, negation** a To header whose display name holds a bare LF is never parsed to an end -/
theorem header_hangs : HKind.parse Net.sample .to (fresh (str "To: \"a\nb\" <sip:a@b>\r\n") 400 {}) = .hang := by decide +kernel

/-- **C31** the same for every header parser: a rejected header is rejected with an error -/
theorem header_rejected_has_error (net : Net) (hnet : net.Ok) (k : HKind) (s : Bytes) (cap : Nat) (h8 : 8 ≤ cap) (fl : Flags) (c' : Ctx)
    (h : k.parse net (fresh s cap fl) = .ok (none, c')) : c'.errs ≠ [] := by
  have := (header_safe net hnet k _ (fresh_inv h8)).none rfl _ h
  intro he; rw [he] at this; simp [fresh] at this

theorem header_memory_linear (net : Net) (hnet : net.Ok) (k : HKind) (s : Bytes) (cap : Nat) (h8 : 8 ≤ cap) (fl : Flags) (r : Option HVal) (c' : Ctx)
    (h : k.parse net (fresh s cap fl) = .ok (r, c')) : c'.used ≤ 24 * s.length + 106 := by
  have hs := header_safe net hnet k _ (fresh_inv (s := s) (fl := fl) h8)
  have st := hs.step _ _ h
  cases r with
  | none => have := hs.nmem _ h; simp only [fresh_used, fresh_src, fresh_pos, Nat.sub_zero] at this; omega
  | some v =>
    have := (hs.some _ _ h).2.2
    have h3 := st.pos_len
    rw [fresh_src] at h3
    simp only [fresh_used, fresh_src, fresh_pos, Nat.sub_zero] at this
    omega

/-- **C31, fault** the address parser called by itself can fail without recording an error: `<` at the end of the input -/
theorem addr_silent_failure : ∃ c', parseAddr Net.sample true (fresh (str "<") 1000 {}) = .ok (none, c') ∧ c'.errs = [] := by
  refine ⟨{ src := str "<", cap := 1000, pos := 1 }, ?_, rfl⟩
  decide +kernel

/-- **C31, fault** so can the telephone URI parser: no scheme -/
theorem tel_silent_failure : ∃ c', TelUri.parse (fresh (str "x") 1000 {}) = .ok (none, c') ∧ c'.errs = [] := by
  refine ⟨{ src := str "x", cap := 1000 }, ?_, rfl⟩
  decide +kernel

/-- the hypotheses are met: a message that is rejected with two errors, one that is accepted -/
theorem plain_samples :
    (Msg.parse Net.sample (fresh (str "SIP/2.0 200 OK\r\nTo: <sip\r\n\r\n") 1000 {})).all (fun r => r.1.isNone && !r.2.errs.isEmpty) = true ∧
    (Msg.parse Net.sample (fresh msgSample 100000 {})).all (fun r => r.1.isSome && decide (r.2.used ≤ 1000)) = true := by
  constructor <;> decide +kernel

end Sip
