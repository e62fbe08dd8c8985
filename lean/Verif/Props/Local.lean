import Verif.Lemmas.LocLine
import Verif.Props.Plain
/-!
# C51: what stands behind the end of a line does not matter

Two inputs that agree up to the end of a line: `a`, CRLF, and then two different texts that do not continue the line (they do not start with SP or HTAB).
A parser started somewhere in `a` has the same outcome for both.  `a` may be several lines.  With an empty line as the next one: what a message has behind the
empty line has no influence on its start line and headers.

The text must not have an opening bracket that is never closed (`Closed`): the library looks for the closing bracket in everything behind
(`open_bracket_reads_body`).
-/
namespace Sip

/-! ## Specification -/

/-- the same outcome: both panic, both hang, or both return with the same value (or both without one), at the same position, with the same use of memory and
the same errors -/
def SameOutcome {α : Type} : Out (Option α × Ctx) → Out (Option α × Ctx) → Prop
  | .ok (r, c), .ok (r', c') => r = r' ∧ c.pos = c'.pos ∧ c.used = c'.used ∧ c.errs = c'.errs
  | .panic, .panic => True
  | .hang, .hang => True
  | _, _ => False

/-- the parser does not look behind the end of the line: from any position in `a`, in any state of the context -/
def StaysOnLine {α : Type} (p : P α) : Prop :=
  ∀ (a z z' : Bytes) (c : Ctx), NoCont z → NoCont z' → Closed a → c.pos ≤ a.length → c.used ≤ c.cap →
    SameOutcome (p { c with src := a ++ [0x0d, 0x0a] ++ z }) (p { c with src := a ++ [0x0d, 0x0a] ++ z' })

theorem ln_eq (a z : Bytes) : a ++ [0x0d, 0x0a] ++ z = ln a z := by unfold ln; simp
theorem same_mv {α : Type} (s : Bytes) (o : Out (Option α × Ctx)) : SameOutcome o (mv s o) := by
  rcases o with ⟨r, c⟩ | _ | _
  · exact ⟨rfl, rfl, rfl, rfl⟩
  · trivial
  · trivial
theorem same_of_eq {α : Type} {p : P α} {a z z' : Bytes} {c : Ctx}
    (h : p (({ c with src := ln a z } : Ctx).tail (ln a z')) = mv (ln a z') (p { c with src := ln a z })) :
    SameOutcome (p { c with src := a ++ [0x0d, 0x0a] ++ z }) (p { c with src := a ++ [0x0d, 0x0a] ++ z' }) := by
  rw [ln_eq, ln_eq]
  rw [show ({ c with src := ln a z' } : Ctx) = ({ c with src := ln a z } : Ctx).tail (ln a z') from rfl, h]
  exact same_mv _ _
theorem stays_of_loc {α : Type} {p : P α} (h : ∀ {a z z' : Bytes}, NoCont z → NoCont z' → Closed a → Loc a z z' p) : StaysOnLine p :=
  fun a z _ c hz hz' hcl hp hu => same_of_eq (h hz hz' hcl { c with src := ln a z } ⟨rfl, hp, hu⟩).eq
theorem stays_of_locQ {α : Type} {p : P α} {Q : Bytes → α → Nat → Prop} (h : ∀ {a z z' : Bytes} {c : Ctx}, NoCont z → NoCont z' → Closed a → InA a z c → LocQ a z' (Q a) p c) : StaysOnLine p :=
  fun a z _ c hz hz' hcl hp hu => same_of_eq (h (c := { c with src := ln a z }) hz hz' hcl ⟨rfl, hp, hu⟩).eq

/-! ## URIs, addresses, hosts -/

/-- **C51** SIP URI -/
theorem sipUri_local (net : Net) : StaysOnLine (SipUri.parse net) := stays_of_loc (fun hz _ hcl => loc_sipUri net hz hcl)
/-- **C51** tel URI -/
theorem telUri_local : StaysOnLine TelUri.parse := stays_of_loc (fun hz _ _ => loc_telUri hz)
/-- **C51** host and port -/
theorem hostPort_local (net : Net) : StaysOnLine (HostPort.parse net) := stays_of_loc (fun hz _ hcl => loc_hostPort net hz hcl)
/-- **C51** an address of a header: name-addr or addr-spec -/
theorem addr_local (net : Net) (params : Bool) : StaysOnLine (parseAddr net params) := stays_of_loc (fun hz hz' hcl => loc_addr net hz hz' hcl params)
/-- **C51** name-addr -/
theorem nameAddr_local (net : Net) : StaysOnLine (parseNameAddr net) := stays_of_loc (fun hz hz' hcl => loc_nameAddr net hz hz' hcl)

/-! ## Headers -/

/-- **C51** the `Parse` method of every header type -/
theorem header_local (net : Net) (k : HKind) : StaysOnLine (k.parse net) := stays_of_loc (fun hz hz' hcl => loc_header net hz hz' hcl k)
/-- **C51** the values of a header line, with the end of the line -/
theorem headerValues_local (net : Net) (k : HKind) : StaysOnLine (parseHeaderValues net k) :=
  stays_of_locQ (Q := fun a _ n => AtEol a n) (fun hz hz' hcl hc => loc_values net hz hz' hcl k hc)
/-- **C51** a header line that is kept as text -/
theorem rawHeader_local (id : Nat) (name : Option Bytes) : StaysOnLine (parseRawHeader id name) :=
  stays_of_locQ (Q := fun a _ n => AtEol a n) (fun hz hz' _ hc => loc_rawHeader hz hz' id name hc)
/-- **C51** a header line as `ParseHeaders` reads it: name, colon, values, end of the line -/
theorem headerLine_local (net : Net) (need : HKind → Bool) : StaysOnLine (do
    let n ← P.orErr parseMsgHeaderName
    parseHeaderLine net need n) :=
  stays_of_locQ (Q := fun a _ n => AtEol a n) (fun hz hz' hcl hc => .seq hc (.orErr (loc_msgHeaderName hz hz' _ hc)) (fun n _ _ h1 => loc_headerLine net hz hz' hcl need n h1))

/-! ## Start lines and messages -/

/-- **C51** the start line, when something stands behind it (at the end of the input the version is rejected with other errors: `startLine_end`) -/
theorem startLine_local (net : Net) (a z z' : Bytes) (c : Ctx) (hz : NoCont z) (hcl : Closed a) (hn : z ≠ []) (hn' : z' ≠ [])
    (hp : c.pos ≤ a.length) (hu : c.used ≤ c.cap) :
    SameOutcome (StartLine.parse net { c with src := a ++ [0x0d, 0x0a] ++ z }) (StartLine.parse net { c with src := a ++ [0x0d, 0x0a] ++ z' }) :=
  same_of_eq (loc_startLine (c := { c with src := ln a z }) net hz hcl hn hn' ⟨rfl, hp, hu⟩).eq

theorem crlf_noCont (b : Bytes) : NoCont (0x0d :: 0x0a :: b) := by intro x hx; simp at hx; subst hx; decide
theorem blank_eq (a b : Bytes) : a ++ [0x0d, 0x0a, 0x0d, 0x0a] ++ b = ln a (0x0d :: 0x0a :: b) := by unfold ln; simp

/-- **C51** the headers of a message or body part: what stands behind the empty line has no influence -/
theorem headers_local (net : Net) (need : HKind → Bool) (a b b' : Bytes) (c : Ctx) (hcl : Closed a) (hp : c.pos ≤ a.length) (hu : c.used ≤ c.cap) :
    SameOutcome (parseHeaders net need { c with src := a ++ [0x0d, 0x0a, 0x0d, 0x0a] ++ b }) (parseHeaders net need { c with src := a ++ [0x0d, 0x0a, 0x0d, 0x0a] ++ b' }) := by
  rw [blank_eq, blank_eq, ← ln_eq, ← ln_eq]
  exact same_of_eq (loc_headers (c := { c with src := ln a (0x0d :: 0x0a :: b) }) net b b' hcl need ⟨rfl, Or.inl hp, hu⟩).eq

/-- the part of `Msg.parse` before the bodies: start line and headers -/
def parseHead (net : Net) : P (StartLine × Hdrs) := do
  let s ← P.orErr (StartLine.parse net)
  let c ← P.get
  if c.pos ≥ c.src.length then P.err else do
  let items ← P.orErr (parseHeaders net (msgNeed c.flags))
  pure (s, Hdrs.ofItems items)

/-- a message is the head and then the bodies -/
theorem parse_head (net : Net) : Msg.parse net = (parseHead net >>= fun h => P.orErr (parseMsgBody net h.2) >>= fun bs => pure ⟨h.1, h.2, bs⟩) := by
  unfold Msg.parse parseHead
  rw [P.bind_assoc]
  congr; funext s
  rw [P.bind_assoc]
  congr; funext c
  split
  · rfl
  · rw [P.bind_assoc]; rfl

theorem loc_head (net : Net) {a : Bytes} (b b' : Bytes) {c : Ctx} (hcl : Closed a) (hc : InA a (0x0d :: 0x0a :: b) c) :
    LocQ a (0x0d :: 0x0a :: b') (fun _ n => n ≤ a.length + 4) (parseHead net) c := by
  have hl := ln_length a (0x0d :: 0x0a :: b); have hl' := ln_length a (0x0d :: 0x0a :: b')
  simp only [List.length_cons] at hl hl'
  unfold parseHead
  refine (loc_startLine net (crlf_noCont b) hcl (by simp) (by simp) hc).orErr.bind (fun s c1 _ s1 h1 => ?_)
  have hE : InE a (0x0d :: 0x0a :: b) c1 := ⟨s1.src.trans hc.src, h1, by rw [s1.cap]; exact s1.used_cap⟩
  have hp : c1.pos ≤ a.length + 2 := by rcases h1 with h | h <;> omega
  refine .get ?_ ?_
  · rw [if_neg (show ¬ (c1.tail (ln a (0x0d :: 0x0a :: b'))).pos ≥ (c1.tail (ln a (0x0d :: 0x0a :: b'))).src.length by show ¬ c1.pos ≥ (ln a (0x0d :: 0x0a :: b')).length; omega),
      if_neg (show ¬ c1.pos ≥ c1.src.length by rw [hE.src]; omega)]
    rfl
  rw [if_neg (show ¬ c1.pos ≥ c1.src.length by rw [hE.src]; omega)]
  exact (loc_headers net b b' hcl _ hE).orErr.bind (fun _ c2 _ s2 h2 => .ret s2.inv h2)

/-- **C51** the head of a message: what stands behind the empty line has no influence, whether the head is accepted, rejected, or makes the library panic or hang -/
theorem head_local (net : Net) (a b b' : Bytes) (c : Ctx) (hcl : Closed a) (hp : c.pos ≤ a.length) (hu : c.used ≤ c.cap) :
    SameOutcome (parseHead net { c with src := a ++ [0x0d, 0x0a, 0x0d, 0x0a] ++ b }) (parseHead net { c with src := a ++ [0x0d, 0x0a, 0x0d, 0x0a] ++ b' }) := by
  rw [blank_eq, blank_eq, ← ln_eq, ← ln_eq]
  exact same_of_eq (loc_head (c := { c with src := ln a (0x0d :: 0x0a :: b) }) net b b' hcl ⟨rfl, hp, hu⟩).eq

/-- **C51** two messages with the same head and different bodies, both accepted, have the same start line and the same headers -/
theorem msg_head_local (net : Net) (a b b' : Bytes) (cap : Nat) (h8 : 8 ≤ cap) (fl : Flags) (hcl : Closed a) (m m' : Msg) (c c' : Ctx)
    (h : Msg.parse net (fresh (a ++ [0x0d, 0x0a, 0x0d, 0x0a] ++ b) cap fl) = .ok (some m, c))
    (h' : Msg.parse net (fresh (a ++ [0x0d, 0x0a, 0x0d, 0x0a] ++ b') cap fl) = .ok (some m', c')) : m.start = m'.start ∧ m.hdrs = m'.hdrs := by
  have hs := head_local net a b b' { src := [], cap := cap, flags := fl } hcl (Nat.zero_le _) h8
  rw [parse_head] at h h'
  have hs : SameOutcome (parseHead net (fresh (a ++ [0x0d, 0x0a, 0x0d, 0x0a] ++ b) cap fl)) (parseHead net (fresh (a ++ [0x0d, 0x0a, 0x0d, 0x0a] ++ b') cap fl)) := hs
  have key : ∀ (x : Ctx) (m : Msg) (c : Ctx), (parseHead net >>= fun h => P.orErr (parseMsgBody net h.2) >>= fun bs => pure ⟨h.1, h.2, bs⟩ : P Msg) x = .ok (some m, c) →
      ∃ d, parseHead net x = .ok (some (m.start, m.hdrs), d) := by
    intro x m c h
    rcases hq : parseHead net x with ⟨_ | ⟨s, hd⟩, d⟩ | _ | _
    · rw [P.bind_none hq] at h; cases h
    · rw [P.bind_ok hq] at h
      rcases hq2 : P.orErr (parseMsgBody net hd) d with ⟨_ | bs, d2⟩ | _ | _
      · rw [P.bind_none hq2] at h; cases h
      · rw [P.bind_ok hq2] at h; cases h; exact ⟨d, rfl⟩
      · rw [P.bind_panic hq2] at h; cases h
      · rw [P.bind_hang hq2] at h; cases h
    · rw [P.bind_panic hq] at h; cases h
    · rw [P.bind_hang hq] at h; cases h
  obtain ⟨d, hd⟩ := key _ _ _ h
  obtain ⟨d', hd'⟩ := key _ _ _ h'
  rw [hd, hd'] at hs
  have := hs.1
  simp only [Option.some.injEq, Prod.mk.injEq] at this
  exact this

/-- **C51** a message whose headers do not announce a body: replacing everything behind the empty line gives the same message -/
theorem msg_nobody_local (net : Net) (a b b' : Bytes) (cap : Nat) (h8 : 8 ≤ cap) (fl : Flags) (hcl : Closed a) (m : Msg) (c : Ctx)
    (h : Msg.parse net (fresh (a ++ [0x0d, 0x0a, 0x0d, 0x0a] ++ b) cap fl) = .ok (some m, c)) (hct : m.hdrs.common .contentType = []) :
    ∃ c', Msg.parse net (fresh (a ++ [0x0d, 0x0a, 0x0d, 0x0a] ++ b') cap fl) = .ok (some m, c') ∧ c'.pos = c.pos ∧ c'.used = c.used ∧ c'.errs = c.errs := by
  have hs : SameOutcome (parseHead net (fresh (a ++ [0x0d, 0x0a, 0x0d, 0x0a] ++ b) cap fl)) (parseHead net (fresh (a ++ [0x0d, 0x0a, 0x0d, 0x0a] ++ b') cap fl)) :=
    head_local net a b b' { src := [], cap := cap, flags := fl } hcl (Nat.zero_le _) h8
  rw [parse_head] at h
  rcases hq : parseHead net (fresh (a ++ [0x0d, 0x0a, 0x0d, 0x0a] ++ b) cap fl) with ⟨_ | ⟨s, hd⟩, d⟩ | _ | _
  · rw [P.bind_none hq] at h; cases h
  · rw [P.bind_ok hq] at h
    rcases hq2 : P.orErr (parseMsgBody net hd) d with ⟨_ | bs, d2⟩ | _ | _
    · rw [P.bind_none hq2] at h; cases h
    · rw [P.bind_ok hq2] at h; cases h
      have hb : parseMsgBody net hd = pure [] := by unfold parseMsgBody; rw [show hd.common .contentType = [] from hct]
      rw [hb] at hq2
      cases hq2
      rcases hq' : parseHead net (fresh (a ++ [0x0d, 0x0a, 0x0d, 0x0a] ++ b') cap fl) with ⟨_ | ⟨s', hd'⟩, d'⟩ | _ | _ <;> rw [hq, hq'] at hs
      · cases hs.1
      · obtain ⟨g1, g2, g3, g4⟩ := hs
        simp only [Option.some.injEq, Prod.mk.injEq] at g1
        obtain ⟨rfl, rfl⟩ := g1
        refine ⟨d', ?_, g2.symm, g3.symm, g4.symm⟩
        rw [parse_head]
        refine (P.bind_ok hq').trans ?_
        rw [hb]; rfl
      · exact hs.elim
      · exact hs.elim
    · rw [P.bind_panic hq2] at h; cases h
    · rw [P.bind_hang hq2] at h; cases h
  · rw [P.bind_panic hq] at h; cases h
  · rw [P.bind_hang hq] at h; cases h

/-! ## Examples -/

theorem closed_of_check {a : Bytes} (h : (List.range a.length).all (fun i => decide (a[i]? ≠ some 0x5b) || (List.range a.length).any (fun k => decide (i ≤ k) && decide (a[k]? = some 0x5d))) = true) : Closed a := by
  intro i hi
  have hlt : i < a.length := (List.getElem?_eq_some_iff.1 hi).1
  have := List.all_eq_true.1 h i (List.mem_range.2 hlt)
  rw [Bool.or_eq_true] at this
  rcases this with h1 | h1
  · exact absurd hi (of_decide_eq_true h1)
  · obtain ⟨k, _, hk⟩ := List.any_eq_true.1 h1
    rw [Bool.and_eq_true] at hk
    exact ⟨k, of_decide_eq_true hk.1, of_decide_eq_true hk.2⟩

/-- a head with brackets -/
def headSample : Bytes := str "OPTIONS sip:[::1] SIP/2.0\r\nVia: SIP/2.0/UDP a;p=[x]\r\nX: y\r\nContent-Type: a/b\r\nContent-Length: 3"

/-- the conditions are met: the brackets are closed, and the message is accepted with two different bodies -/
theorem local_samples : Closed headSample ∧
    (Msg.parse Net.sample (fresh (headSample ++ [0x0d, 0x0a, 0x0d, 0x0a] ++ str "abc") 1000 {})).all (fun r => match r.1 with
       | some m => m.hdrs.raw.length == 1 && (m.hdrs.common .via).length == 1 && m.bodies.map (·.body) == [some (str "abc")]
       | none => false) = true ∧
    (Msg.parse Net.sample (fresh (headSample ++ [0x0d, 0x0a, 0x0d, 0x0a] ++ str " ]\r\nZ: d") 1000 {})).all (fun r => match r.1 with
       | some m => m.hdrs.raw.length == 1 && (m.hdrs.common .via).length == 1 && m.bodies.map (·.body) == [some (str " ]\r")]
       | none => false) = true :=
  ⟨closed_of_check (by decide +kernel), by decide +kernel, by decide +kernel⟩

/-- a message without a body: the conditions of `msg_nobody_local` are met -/
theorem local_nobody_sample : Closed (str "OPTIONS sip:h SIP/2.0\r\nX: y") ∧
    (Msg.parse Net.sample (fresh (str "OPTIONS sip:h SIP/2.0\r\nX: y" ++ [0x0d, 0x0a, 0x0d, 0x0a] ++ str "abc") 1000 {})).all (fun r => match r.1 with
       | some m => decide (m.hdrs.common .contentType = []) && m.hdrs.raw.length == 1
       | none => false) = true :=
  ⟨closed_of_check (by decide +kernel), by decide +kernel⟩

/-- `Closed` is needed: a parameter with an opening bracket at the end of the head takes everything up to a bracket in the body; the message with the bracket
in its body is accepted, the same head with another body is rejected -/
theorem open_bracket_reads_body :
    (let a := str "OPTIONS sip:h SIP/2.0\r\nVia: SIP/2.0/UDP h;p=["
     (Msg.parse Net.sample (fresh (a ++ str "\r\n\r\n" ++ str "secret]\r\n\r\n") 1000 {})).all (fun r => match r.1 with
       | some m => (m.hdrs.common .via).length == 1
       | none => false) &&
     (Msg.parse Net.sample (fresh (a ++ str "\r\n\r\n" ++ str "secret\r\n\r\n") 1000 {})).all (fun r => r.1.isNone)) = true := by decide +kernel

/-- `startLine_local` needs something behind the line: `ParseStart` wants seven bytes of input, so the errors of a rejected line at the end of the input are others -/
theorem startLine_end :
    (StartLine.parse Net.sample (fresh (str "OPTIONS sip:h SIP/\r\n") 1000 {})).all (fun r => r.1.isNone && decide (r.2.pos = 14)) = true ∧
    (StartLine.parse Net.sample (fresh (str "OPTIONS sip:h SIP/\r\nx") 1000 {})).all (fun r => r.1.isNone && decide (r.2.pos = 18)) = true := by
  constructor <;> decide +kernel

end Sip
