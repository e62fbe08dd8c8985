import Verif.Props.Tight
import Verif.Props.Capacity
/-!
# C41 the size of the arena decides whether there is an answer, not what the answer is

A run that comes to an end in one arena with room to spare comes to the same end in every other arena with room for it: same result, same position,
same errors, same memory used.
-/
namespace Sip

/-- two runs of a parser that `CapAll` holds for, in two arenas -/
theorem capacity_irrelevant {α : Type} {p : P α} (hp : CapAll p) (s : Bytes) (fl : Flags) (K1 K2 : Nat) (r : Option α) (c' : Ctx)
    (h : p (fresh s K1 fl) = .ok (r, c')) (h1 : c'.used + s.length + 40 ≤ K1) (h2 : c'.used + s.length + 40 ≤ K2) :
    p (fresh s K2 fl) = .ok (r, { c' with cap := K2 }) := (hp (fresh s K1 fl) r c' h).2.2.2 h1 K2 h2

/-- **C41** the message parser: if it ends in an arena of `K1` bytes and leaves `len + 40` bytes free there, then it ends in the same way in every arena of
`K2` bytes in which it would leave that much free -/
theorem msg_capacity_irrelevant (net : Net) (s : Bytes) (fl : Flags) (K1 K2 : Nat) (r : Option Msg) (c' : Ctx)
    (h : Msg.parse net (fresh s K1 fl) = .ok (r, c')) (h1 : c'.used + s.length + 40 ≤ K1) (h2 : c'.used + s.length + 40 ≤ K2) :
    Msg.parse net (fresh s K2 fl) = .ok (r, { c' with cap := K2 }) := capacity_irrelevant (cap_msg net) s fl K1 K2 r c' h h1 h2

/-- **C41** every header parser -/
theorem header_capacity_irrelevant (net : Net) (k : HKind) (s : Bytes) (fl : Flags) (K1 K2 : Nat) (r : Option HVal) (c' : Ctx)
    (h : k.parse net (fresh s K1 fl) = .ok (r, c')) (h1 : c'.used + s.length + 40 ≤ K1) (h2 : c'.used + s.length + 40 ≤ K2) :
    k.parse net (fresh s K2 fl) = .ok (r, { c' with cap := K2 }) := capacity_irrelevant (cap_header net k) s fl K1 K2 r c' h h1 h2

/-- **C41** above a bound that is linear in the input all arenas are alike: one has an answer exactly if the other has, and it is the same -/
theorem msg_large_arenas_alike (net : Net) (hnet : net.Ok) (s : Bytes) (fl : Flags) (K1 K2 : Nat) (h1 : 10 * s.length + 66 ≤ K1)
    (h2 : 10 * s.length + 66 ≤ K2) (r : Option Msg) (c' : Ctx) :
    (Msg.parse net (fresh s K1 fl) = .ok (r, c') ↔ (c'.cap = K1 ∧ Msg.parse net (fresh s K2 fl) = .ok (r, { c' with cap := K2 }))) := by
  constructor
  · intro h
    have hm := msg_memory_tight net hnet s K1 (by omega) fl r c' h
    have hc : c'.cap = K1 := (cap_msg net (fresh s K1 fl) r c' h).2.2.1
    exact ⟨hc, msg_capacity_irrelevant net s fl K1 K2 r c' h (by omega) (by omega)⟩
  · rintro ⟨hc, h⟩
    have hm := msg_memory_tight net hnet s K2 (by omega) fl r _ h
    have := msg_capacity_irrelevant net s fl K2 K1 r _ h (Nat.le_trans (by omega) h2) (Nat.le_trans (by omega) h1)
    rw [this, ← hc]

/-- **C41** the same for every header parser -/
theorem header_large_arenas_alike (net : Net) (hnet : net.Ok) (k : HKind) (s : Bytes) (fl : Flags) (K1 K2 : Nat) (h1 : 10 * s.length + 70 ≤ K1)
    (h2 : 10 * s.length + 70 ≤ K2) (r : Option HVal) (c' : Ctx) :
    (k.parse net (fresh s K1 fl) = .ok (r, c') ↔ (c'.cap = K1 ∧ k.parse net (fresh s K2 fl) = .ok (r, { c' with cap := K2 }))) := by
  constructor
  · intro h
    have hm := header_memory_tight net hnet k s K1 (by omega) fl r c' h
    have hc : c'.cap = K1 := (cap_header net k (fresh s K1 fl) r c' h).2.2.1
    exact ⟨hc, header_capacity_irrelevant net k s fl K1 K2 r c' h (by omega) (by omega)⟩
  · rintro ⟨hc, h⟩
    have hm := header_memory_tight net hnet k s K2 (by omega) fl r _ h
    have := header_capacity_irrelevant net k s fl K2 K1 r _ h (Nat.le_trans (by omega) h2) (Nat.le_trans (by omega) h1)
    rw [this, ← hc]

/-! ## With ten bytes of arena for a byte of input there is always an answer -/

/-- whether a body has parts does not depend on the size of the arena -/
theorem HasParts.withCap {net : Net} (hnet : net.Ok) {s : Bytes} {fl : Flags} {K1 K2 : Nat} (h1 : 10 * s.length + 66 ≤ K1) (h2 : 10 * s.length + 66 ≤ K2)
    (h : HasParts net (fresh s K1 fl)) : HasParts net (fresh s K2 fl) := by
  obtain ⟨v, c1, its, c2, e1, e2, hm⟩ := h
  have hi : Inv (fresh s K1 fl) := fresh_inv (by omega)
  obtain ⟨s1, m1⟩ := (MemAt.startLine hnet).some hi v c1 e1
  obtain ⟨s2, m2⟩ := (MemAt.headers hnet _).some s1.inv its c2 e2
  have p1 := s1.pos_len
  have p2 := s2.pos_len
  rw [s1.src] at p2
  simp only [fresh_src, fresh_used, fresh_pos] at m1 p1 p2
  have g1 := (cap_startLine net _ _ _ e1).2.2.2 (by simp only [fresh_src, fresh_cap]; omega) K2 (by simp only [fresh_src]; omega)
  have g2 := (cap_headers net _ _ _ _ e2).2.2.2 (by rw [s1.src, s1.cap]; simp only [fresh_src, fresh_cap]; omega) K2 (by rw [s1.src]; simp only [fresh_src]; omega)
  exact ⟨v, _, its, _, g1, g2, hm⟩

set_option maxRecDepth 8000 in
/-- **C29, C30** an arena of 10 bytes for every byte of input, and 66 more, is enough for every message: the parser returns, with an answer -/
theorem msg_answers (net : Net) (hnet : net.Ok) (s : Bytes) (cap : Nat) (hcap : 10 * s.length + 66 ≤ cap) (fl : Flags) (hok : MsgOk net (fresh s cap fl)) (hs : MsgEnds net (fresh s cap fl)) :
    ∃ r c', Msg.parse net (fresh s cap fl) = .ok (r, c') := by
  have hok' : MsgOk net (fresh s (cap + 511 * s.length + 611) fl) := ⟨hok.head, fun h => hok.parts (h.withCap hnet (by omega) (by omega))⟩
  have h1 := msg_no_panic net hnet s (cap + 511 * s.length + 611) (by omega) fl hok'
  have hs' : MsgEnds net (fresh s (cap + 511 * s.length + 611) fl) := by
    rcases hs with h | ⟨h, h'⟩
    · exact Or.inl h
    · exact Or.inr ⟨fun hp => h (hp.withCap hnet (by omega) (by omega)), h'⟩
  have h2 := (msg_safe net hnet _ (fresh_inv (s := s) (fl := fl) (by omega))).nohang hs'
  rcases e : Msg.parse net (fresh s (cap + 511 * s.length + 611) fl) with ⟨r, c'⟩ | _ | _
  · have hm := msg_memory_tight net hnet s _ (by omega) fl r c' e
    exact ⟨r, _, msg_capacity_irrelevant net s fl _ cap r c' e (by omega) (by omega)⟩
  · exact absurd e h1
  · exact absurd e h2

/-- **C29, C30** the same for every header parser: the line has an end, no bracket is closed behind the end of its line, no `phone-context` without a value, no
quoted string that loops for ever -/
theorem header_answers (net : Net) (hnet : net.Ok) (k : HKind) (s : Bytes) (cap : Nat) (hcap : 10 * s.length + 70 ≤ cap) (fl : Flags) (e : Nat) (he : StartsEol (s.drop e))
    (hb : ∀ i, i < e → ¬ OpenAt s i) (ht : ∀ i, i ≤ e → ¬ TelBare s i) (hs : ∀ i, ¬ QLoop s i) : ∃ r c', k.parse net (fresh s cap fl) = .ok (r, c') := by
  have hi : Inv (fresh s (cap + 25 * s.length + 110) fl) := fresh_inv (by omega)
  have hx := header_safe net hnet k _ hi
  rcases e1 : k.parse net (fresh s (cap + 25 * s.length + 110) fl) with ⟨r, c'⟩ | _ | _
  · have hm := header_memory_tight net hnet k s _ (by omega) fl r c' e1
    exact ⟨r, _, header_capacity_irrelevant net k s fl _ cap r c' e1 (by omega) (by omega)⟩
  · refine absurd e1 (hx.nopanic ⟨fun _ => ⟨⟨e, Nat.zero_le _, he⟩, fun i hi => hb i (hi.2 e (Nat.zero_le _) he)⟩, fun _ i hi => ht i (hi e (Nat.zero_le _) he)⟩ ?_)
    unfold Room
    simp only [fresh_used, fresh_src, fresh_pos, fresh_cap, Nat.sub_zero]; omega
  · exact absurd e1 (hx.nohang (NoLoop.preH (c := fresh s _ fl) fun i _ => hs i))

/-- the premises are met: a header line whose first line end is at 19, with a second line that need not meet them -/
theorem header_answers_sample : StartsEol ((str "To: <sip:[::1];x=y>\r\n[\r\n];phone-context").drop 19) ∧
    (∀ i, i < 19 → ¬ OpenAt (str "To: <sip:[::1];x=y>\r\n[\r\n];phone-context") i) ∧
    (∀ i, i ≤ 19 → ¬ TelBare (str "To: <sip:[::1];x=y>\r\n[\r\n];phone-context") i) ∧ (∀ i, ¬ QLoop (str "To: <sip:[::1];x=y>\r\n[\r\n];phone-context") i) ∧
    ¬ TelOk (str "To: <sip:[::1];x=y>\r\n[\r\n];phone-context") := by
  refine ⟨⟨str "[\r\n];phone-context", by decide +kernel, by decide +kernel⟩, fun i hi ho => ?_,
    fun i hi => telTest1_ok (List.all_eq_true.1 (show (List.range 20).all (fun i => telTest1 ((str "To: <sip:[::1];x=y>\r\n[\r\n];phone-context").drop i)) = true by decide +kernel) i (List.mem_range.2 (by omega))),
    noLoop_of_noStray (strayTest_ok _ (by decide +kernel)), fun h => h 26 ⟨str "phone-context", [], ?_, by decide +kernel, by decide⟩⟩
  · exact head_of_test _ 19 (by decide +kernel) (by decide +kernel) i hi (Or.inl ho)
  · rw [show (str "To: <sip:[::1];x=y>\r\n[\r\n];phone-context").drop 26 = str "phone-context" by decide +kernel]
    exact decodes_plain _ (by decide +kernel)

/-- the premises are met: a REGISTER request uses less than 200 bytes, and is parsed alike in arenas of 400 and 100000 bytes -/
theorem capacity_sample : (Msg.parse Net.sample
      (fresh (str "REGISTER sip:a@b.c SIP/2.0\r\nFrom: <sip:a@b.c>;tag=1\r\nCSeq: 1 REGISTER\r\n\r\n") 400 {})).all
    (fun r => r.1.isSome && decide (r.2.used + 73 + 40 ≤ 400)) = true ∧
    (str "REGISTER sip:a@b.c SIP/2.0\r\nFrom: <sip:a@b.c>;tag=1\r\nCSeq: 1 REGISTER\r\n\r\n").length = 73 := by
  constructor <;> decide +kernel

end Sip
