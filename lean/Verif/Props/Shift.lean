import Verif.Lemmas.ShiftLine
import Verif.Props.Plain
/-!
# C52: only the text ahead, the free memory and the settings count

Two contexts with the same text ahead of the position, the same number of free bytes in the arena and the same settings: whatever was read before, however
much memory is in use and whichever errors are recorded.  A parser has the same outcome in both: the same value or none, it moves by the same distance, takes
the same number of bytes, and records errors at the same distances.  So a message in the middle of a buffer (a stream) is parsed as if it stood alone.
-/
namespace Sip

/-! ## Specification -/

/-- what two contexts have in common -/
structure SameAhead (c d : Ctx) : Prop where
  text : c.src.drop c.pos = d.src.drop d.pos
  free : c.cap - c.used = d.cap - d.used
  settings : c.flags = d.flags

/-- `c'` is `c` moved by `n` bytes, with `m` bytes more in use and new errors at the distances `es` from the old position (the latest first) -/
structure MovedBy (n m : Nat) (es : List Nat) (c c' : Ctx) : Prop where
  pos : c'.pos = c.pos + n
  used : c'.used = c.used + m
  errs : c'.errs = es.map (fun e => c.pos + e) ++ c.errs
  src : c'.src = c.src
  cap : c'.cap = c.cap
  flags : c'.flags = c.flags

/-- both panic, both hang, or both return with the same value (or both without one), moved by the same amounts -/
def SameMove {α : Type} (c d : Ctx) : Out (Option α × Ctx) → Out (Option α × Ctx) → Prop
  | .ok (r, c'), .ok (r', d') => r = r' ∧ ∃ n m es, MovedBy n m es c c' ∧ MovedBy n m es d d'
  | .panic, .panic => True
  | .hang, .hang => True
  | _, _ => False

/-- nothing else counts -/
def OnlyAhead {α : Type} (p : P α) : Prop :=
  ∀ c d : Ctx, c.pos ≤ c.src.length → c.used ≤ c.cap → d.pos ≤ d.src.length → d.used ≤ d.cap → SameAhead c d → SameMove c d (p c) (p d)

/-! ## From the judgement -/

/-- the context as if nothing had been read, stored or recorded -/
def Ctx.ahead (c : Ctx) : Ctx := { src := c.src.drop c.pos, pos := 0, used := 0, cap := c.cap - c.used, errs := [], flags := c.flags }
/-- what had been read, stored and recorded -/
def Ctx.past (c : Ctx) : Past := ⟨c.src.take c.pos, c.errs, c.used⟩

theorem ahead_past {c : Ctx} (h : Inv c) : c.ahead.sh c.past = c := by
  have hp : (c.src.take c.pos).length = c.pos := by rw [List.length_take]; exact Nat.min_eq_left h.pos
  have h1 : (c.ahead.sh c.past).src = c.src := List.take_append_drop _ _
  have h2 : (c.ahead.sh c.past).pos = c.pos := by show (c.src.take c.pos).length + 0 = _; rw [hp]; rfl
  have h3 : (c.ahead.sh c.past).cap = c.cap := by show c.used + (c.cap - c.used) = _; have := h.used; omega
  obtain ⟨src, pos, used, cap, errs, flags⟩ := c
  unfold Ctx.sh Ctx.ahead Ctx.past at h1 h2 h3 ⊢
  dsimp only at h1 h2 h3 ⊢
  rw [h1, h2, h3]
  rfl
theorem ahead_inv (c : Ctx) : Inv c.ahead := ⟨Nat.zero_le _, Nat.zero_le _⟩

theorem moved_sh {c e' : Ctx} (h : Inv c) (hs : Step c.ahead e') : MovedBy e'.pos e'.used e'.errs c (e'.sh c.past) := by
  have hp : (c.src.take c.pos).length = c.pos := by rw [List.length_take]; exact Nat.min_eq_left h.pos
  refine ⟨?_, ?_, ?_, ?_, ?_, ?_⟩
  · show (c.src.take c.pos).length + e'.pos = _; rw [hp]
  · rfl
  · show e'.errs.map ((c.src.take c.pos).length + ·) ++ c.errs = _; rw [hp]
  · show c.src.take c.pos ++ e'.src = c.src
    rw [hs.src]; exact List.take_append_drop _ _
  · show c.used + e'.cap = c.cap
    rw [hs.cap]; show c.used + (c.cap - c.used) = c.cap; have := h.used; omega
  · exact hs.flags

theorem onlyAhead {α : Type} {p : P α} (h : ∀ {o : Past}, Sh o p) : OnlyAhead p := by
  intro c d hc1 hc2 hd1 hd2 hs
  have hc : Inv c := ⟨hc1, hc2⟩
  have hd : Inv d := ⟨hd1, hd2⟩
  have e : d.ahead = c.ahead := by unfold Ctx.ahead; rw [hs.text, hs.free, hs.settings]
  have h1 := h (o := c.past) c.ahead (ahead_inv c)
  have h2 := h (o := d.past) c.ahead (ahead_inv c)
  have q1 := h1.eq
  have q2 := h2.eq
  rw [ahead_past hc] at q1
  rw [← e, ahead_past hd, e] at q2
  rw [q1, q2]
  rcases hq : p c.ahead with ⟨r, e'⟩ | _ | _
  · have st := h1.step _ _ hq
    exact ⟨rfl, e'.pos, e'.used, e'.errs, moved_sh hc st, moved_sh hd (e ▸ st)⟩
  · trivial
  · trivial

/-! ## URIs, addresses, hosts -/

/-- **C52** SIP URI -/
theorem sipUri_ahead (net : Net) : OnlyAhead (SipUri.parse net) := onlyAhead (sh_sipUri net)
/-- **C52** telephone URI -/
theorem telUri_ahead : OnlyAhead TelUri.parse := onlyAhead sh_telUri
/-- **C52** host and port -/
theorem hostPort_ahead (net : Net) : OnlyAhead (HostPort.parse net) := onlyAhead (sh_hostPort net)
/-- **C52** address -/
theorem addr_ahead (net : Net) (params : Bool) : OnlyAhead (parseAddr net params) := onlyAhead (sh_addr net params)
/-- **C52** name-addr -/
theorem nameAddr_ahead (net : Net) : OnlyAhead (parseNameAddr net) := onlyAhead (sh_nameAddr net)

/-! ## Headers -/

/-- **C52** the parser of a header with its name -/
theorem header_ahead (net : Net) (k : HKind) : OnlyAhead (k.parse net) := onlyAhead (sh_header net k)
/-- **C52** the values of a header line, with its end of line -/
theorem headerValues_ahead (net : Net) (k : HKind) : OnlyAhead (parseHeaderValues net k) := onlyAhead (sh_values net k)
/-- **C52** a header kept as text -/
theorem rawHeader_ahead (id : Nat) (name : Option Bytes) : OnlyAhead (parseRawHeader id name) := onlyAhead (sh_rawHeader id name)
/-- **C52** a header line behind its name -/
theorem headerLine_ahead (net : Net) (need : HKind → Bool) (r : Option Bytes × Nat) : OnlyAhead (parseHeaderLine net need r) := onlyAhead (sh_headerLine net need r)
/-- **C52** the headers of a message or body part -/
theorem headers_ahead (net : Net) (need : HKind → Bool) : OnlyAhead (parseHeaders net need) := onlyAhead (sh_headers net need)
/-- **C52** headers kept as text -/
theorem rawHeaders_ahead : OnlyAhead parseRawHeaders := onlyAhead sh_rawHeaders

/-! ## Messages -/

/-- **C52** start line -/
theorem startLine_ahead (net : Net) : OnlyAhead (StartLine.parse net) := onlyAhead (sh_startLine net)
/-- **C52** multipart body -/
theorem multiBody_ahead (net : Net) (boundary : Bytes) : OnlyAhead (parseMultiBody net boundary) := onlyAhead (sh_multiBody net boundary)
/-- **C52** message -/
theorem msg_ahead (net : Net) : OnlyAhead (Msg.parse net) := onlyAhead (sh_msg net)
/-- **C52** skipping a message -/
theorem rawScan_ahead : OnlyAhead rawScan := onlyAhead sh_rawScan
/-- **C52** what is written for a message does not depend on the input, the position and the errors, nor on how much memory is in use when the same is free -/
theorem encode_ahead (net : Net) (m : Msg) (buf : Bytes) : OnlyAhead (m.encode net buf) := onlyAhead (sh_encode net m buf)

/-! ## A message in the middle of a buffer -/

/-- **C52** a message behind other text `w` is accepted exactly when it is accepted alone, with the same value, the same distance and the same memory -/
theorem msg_in_stream (net : Net) (w s : Bytes) (cap k : Nat) (h8 : 8 ≤ cap) (fl : Flags) (errs : List Nat) (m : Msg) (n u : Nat) :
    (∃ c', Msg.parse net { src := w ++ s, pos := w.length, used := k + 8, cap := k + cap, errs := errs, flags := fl } = .ok (some m, c') ∧
      c'.pos = w.length + n ∧ c'.used = k + u) ↔
    (∃ c', Msg.parse net { src := s, cap := cap, flags := fl } = .ok (some m, c') ∧ c'.pos = n ∧ c'.used = u) := by
  have hs := msg_ahead net { src := w ++ s, pos := w.length, used := k + 8, cap := k + cap, errs := errs, flags := fl } { src := s, cap := cap, flags := fl }
    (by simp) (by dsimp only; omega) (Nat.zero_le _) h8 ⟨by simp, by dsimp only; omega, rfl⟩
  rcases hq : Msg.parse net { src := w ++ s, pos := w.length, used := k + 8, cap := k + cap, errs := errs, flags := fl } with ⟨r, c'⟩ | _ | _ <;>
  rcases hq2 : Msg.parse net { src := s, cap := cap, flags := fl } with ⟨r', d'⟩ | _ | _ <;> rw [hq, hq2] at hs <;> dsimp only [SameMove] at hs
  · obtain ⟨rfl, i, j, es, h1, h2⟩ := hs
    have p1 := h1.pos; have p2 := h2.pos; have p3 := h1.used; have p4 := h2.used
    dsimp only at p1 p2 p3 p4
    constructor
    · rintro ⟨x, e, e1, e2⟩
      cases e
      exact ⟨d', rfl, by omega, by omega⟩
    · rintro ⟨x, e, e1, e2⟩
      cases e
      exact ⟨c', rfl, by omega, by omega⟩
  · constructor <;> rintro ⟨x, e, _⟩ <;> cases e
  · constructor <;> rintro ⟨x, e, _⟩ <;> cases e

/-- a response with a body, and another message behind it -/
def streamSample : Bytes := str "SIP/2.0 200 OK\r\nTo: <sip:a@b>;tag=1\r\nContent-Type: a/b\r\nContent-Length: 3\r\n\r\nabcOPTIONS sip:h SIP/2.0\r\nX: y\r\n\r\n"

/-- the conditions are met: the second message of the buffer behind the first one, after a first run that left an error and used memory, against the same
message alone; both are accepted -/
theorem ahead_sample :
    let c : Ctx := { src := streamSample, pos := 80, used := 300, cap := 1300, errs := [7] }
    let d : Ctx := { src := str "OPTIONS sip:h SIP/2.0\r\nX: y\r\n\r\n", cap := 1008 }
    c.pos ≤ c.src.length ∧ c.used ≤ c.cap ∧ d.pos ≤ d.src.length ∧ d.used ≤ d.cap ∧ SameAhead c d ∧
    (Msg.parse Net.sample c).all (fun r => r.1.isSome && decide (r.2.pos = 111) && decide (r.2.errs = [7])) = true ∧
    (Msg.parse Net.sample d).all (fun r => r.1.isSome && decide (r.2.pos = 31) && decide (r.2.errs = [])) = true :=
  ⟨by decide +kernel, by decide, by decide +kernel, by decide, ⟨by decide +kernel, rfl, rfl⟩, by decide +kernel, by decide +kernel⟩

/-- the free memory counts: the same message with less memory is rejected -/
theorem free_counts :
    (Msg.parse Net.sample { src := str "OPTIONS sip:h SIP/2.0\r\nX: y\r\n\r\n", used := 300, cap := 310 }).all (fun r => r.1.isNone) = true := by decide +kernel

end Sip
