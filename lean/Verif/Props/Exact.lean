import Verif.Props.AccMsg
import Verif.Props.GrammarPlain
import Verif.Props.Memory
/-!
# C43 The parsers accept exactly the grammar

C42 says that what is accepted follows the grammar of `Grammar.lean`.  Here is the other direction, and both together: in an arena of a size that is linear in the
input, a parser that is given the input `s` returns the value `v` and stops at `n` exactly if the first `n` bytes of `s` are, in front of the bytes behind them, a text
the grammar relates to `v`.  So the grammar - which does not mention contexts, arenas, loops or positions - says all there is to say about which inputs the library
takes and what it makes of them.  It follows that the grammar is not ambiguous: an input has at most one reading.
-/
namespace Sip

theorem cap_sipUri (net : Net) : CapAll (SipUri.parse net) := by
  unfold SipUri.parse
  refine CapAll.bind (CapAll.of_pure (fun c r c' e => ?_) (fun c r c' K e => ?_)) (cap_sipAfterScheme net)
  · unfold SipUri.parseScheme at e
    repeat' split at e
    all_goals (cases e; exact ⟨rfl, rfl, rfl⟩)
  · unfold SipUri.parseScheme at *
    simp only [Ctx.withCap_rest]
    repeat' split at e
    all_goals (cases e; simp only [*]; rfl)

theorem cap_telUri : CapAll TelUri.parse := by
  unfold TelUri.parse
  refine CapAll.bind (CapAll.of_pure (fun c r c' e => ?_) (fun c r c' K e => ?_)) (fun _ => cap_telAfterScheme)
  · unfold TelUri.parseScheme at e
    repeat' split at e
    all_goals (cases e; exact ⟨rfl, rfl, rfl⟩)
  · unfold TelUri.parseScheme at *
    simp only [Ctx.withCap_rest]
    repeat' split at e
    all_goals (cases e; simp [*]; try rfl)

/-- acceptance in one large arena gives acceptance in every arena with room for what is used -/
theorem Acc.fresh {α : Type} {fl : Flags} {p : P α} {t y : Bytes} {v : α} (hp : CapAll p) {A B : Nat}
    (hm : ∀ cap c', 8 ≤ cap → p (Sip.fresh (t ++ y) cap fl) = .ok (some v, c') → c'.used ≤ A * (t ++ y).length + B)
    (h : Acc fl p t v y) {cap : Nat} (hcap : (A + 1) * (t ++ y).length + B + 40 ≤ cap) :
    ∃ c', p (Sip.fresh (t ++ y) cap fl) = .ok (some v, c') ∧ c'.pos = t.length := by
  obtain ⟨n, h⟩ := h
  have e1 : (A + 1) * (t ++ y).length = A * (t ++ y).length + (t ++ y).length := by rw [Nat.add_mul, Nat.one_mul]
  obtain ⟨c', e, mv⟩ := h (Sip.fresh (t ++ y) (cap + n + 9) fl) rfl (by simp [Ctx.rest]) (by simp) (by simp; omega)
  have hu := hm _ _ (by omega) e
  refine ⟨_, capacity_irrelevant hp (t ++ y) fl _ cap _ c' e (by omega) (by omega), ?_⟩
  show c'.pos = _
  rw [mv.pos]; simp

/-- from both directions: the parser is exact -/
theorem exact_of {α : Type} {fl : Flags} {p : P α} {R : Rel α} (hp : CapAll p) {A B : Nat} {s : Bytes}
    (hm : ∀ cap v c', 8 ≤ cap → p (fresh s cap fl) = .ok (some v, c') → c'.used ≤ A * s.length + B)
    (hr : ∀ cap, ReadsAt R p (fresh s cap fl)) (ha : ∀ v t y, R v t y → Acc fl p t v y)
    {cap : Nat} (hcap : (A + 1) * s.length + B + 40 ≤ cap) (v : α) (n : Nat) :
    (∃ c', p (fresh s cap fl) = .ok (some v, c') ∧ c'.pos = n) ↔ ∃ t y, s = t ++ y ∧ t.length = n ∧ R v t y := by
  constructor
  · rintro ⟨c', e, rfl⟩
    obtain ⟨t, y, h1, h2, h3⟩ := (hr cap).fresh (by omega) e
    exact ⟨t, y, h1, h2.symm, h3⟩
  · rintro ⟨t, y, rfl, rfl, h⟩
    exact Acc.fresh hp (fun cap c' h8 e => hm cap v c' h8 e) (ha v t y h) hcap

/-- **C43** headers of every kind -/
theorem header_exact (net : Net) (hnet : net.Ok) (k : HKind) (s : Bytes) (cap : Nat) (hcap : 10 * s.length + 70 ≤ cap) (fl : Flags) (v : HVal) (n : Nat) :
    (∃ c', k.parse net (fresh s cap fl) = .ok (some v, c') ∧ c'.pos = n) ↔ ∃ t y, s = t ++ y ∧ t.length = n ∧ Gram.header net fl k v t y :=
  exact_of (cap_header net k) (fun cap _ _ h8 e => header_memory_tight net hnet k s cap h8 fl _ _ e) (fun _ => ReadsAt.header) (fun _ _ _ h => Acc.header h) (by omega) v n

/-- **C43** start lines -/
theorem startLine_exact (net : Net) (hnet : net.Ok) (s : Bytes) (cap : Nat) (hcap : 10 * s.length + 50 ≤ cap) (fl : Flags) (v : StartLine) (n : Nat) :
    (∃ c', StartLine.parse net (fresh s cap fl) = .ok (some v, c') ∧ c'.pos = n) ↔ ∃ t y, s = t ++ y ∧ t.length = n ∧ Gram.startLine net fl v t y :=
  exact_of (cap_startLine net) (fun cap _ _ h8 e => startLine_memory_tight net hnet s cap h8 fl _ _ e) (fun _ => ReadsAt.startLine) (fun _ _ _ h => Acc.startLine h) (by omega) v n

/-- **C43** SIP URIs -/
theorem sipUri_exact (net : Net) (hnet : net.Ok) (s : Bytes) (cap : Nat) (hcap : 10 * s.length + 64 ≤ cap) (fl : Flags) (v : SipUri) (n : Nat) :
    (∃ c', SipUri.parse net (fresh s cap fl) = .ok (some v, c') ∧ c'.pos = n) ↔ ∃ t y, s = t ++ y ∧ t.length = n ∧ Gram.sipUri net fl v t y :=
  exact_of (cap_sipUri net) (fun cap _ _ h8 e => sipUri_memory_tight net hnet s cap h8 fl _ _ e) (fun _ => ReadsAt.sipUri) (fun _ _ _ h => Acc.sipUri h) (by omega) v n

/-- **C43** telephone URIs -/
theorem telUri_exact (s : Bytes) (cap : Nat) (hcap : 10 * s.length + 60 ≤ cap) (fl : Flags) (v : TelUri) (n : Nat) :
    (∃ c', TelUri.parse (fresh s cap fl) = .ok (some v, c') ∧ c'.pos = n) ↔ ∃ t y, s = t ++ y ∧ t.length = n ∧ Gram.telUri fl v t y :=
  exact_of cap_telUri (fun cap _ _ h8 e => telUri_memory_tight s cap h8 fl _ _ e) (fun _ => ReadsAt.telUri) (fun _ _ _ h => Acc.telUri h) (by omega) v n

/-- **C43** addresses with brackets -/
theorem nameAddr_exact (net : Net) (hnet : net.Ok) (s : Bytes) (cap : Nat) (hcap : 10 * s.length + 50 ≤ cap) (fl : Flags) (v : Addr) (n : Nat) :
    (∃ c', parseNameAddr net (fresh s cap fl) = .ok (some v, c') ∧ c'.pos = n) ↔ ∃ t y, s = t ++ y ∧ t.length = n ∧ Gram.nameAddr net fl v t y :=
  exact_of (cap_nameAddr net) (fun cap _ _ h8 e => nameAddr_memory_tight net hnet s cap h8 fl _ _ e) (fun _ => ReadsAt.nameAddr) (fun _ _ _ h => Acc.nameAddr h) (by omega) v n

/-- **C43** addresses of a header that has parameters -/
theorem addr_exact (net : Net) (hnet : net.Ok) (s : Bytes) (cap : Nat) (hcap : 10 * s.length + 50 ≤ cap) (fl : Flags) (v : Addr) (n : Nat) :
    (∃ c', parseAddr net false (fresh s cap fl) = .ok (some v, c') ∧ c'.pos = n) ↔ ∃ t y, s = t ++ y ∧ t.length = n ∧ Gram.addr net fl v t y :=
  exact_of (cap_addr net false) (fun cap _ _ h8 e => addr_memory_tight net hnet false s cap h8 fl _ _ e) (fun _ => ReadsAt.addr) (fun _ _ _ h => Acc.addr h) (by omega) v n

/-! ## Messages

The grammar leaves open whether the content of a body part is kept, because a full arena makes the parser lose it without a word.  In an arena that is large enough
nothing is lost. -/

/-- no body has lost its content -/
def Msg.Whole (m : Msg) : Prop := ∀ b ∈ m.bodies, b.body ≠ none

theorem parts_fill {net : Net} {fl : Flags} {d : Bytes} {bs : List Body} {t y : Bytes} (h : Gram.parts net fl d bs t y) :
    ∃ bs', Gram.parts net fl d bs' t y ∧ (∀ b ∈ bs', b.body ≠ none) := by
  induction h with
  | close a b y h => exact ⟨[], .close a b y h, by simp⟩
  | part l e items th h u o bs t y hnc hl hh hc hu ho hs ih =>
    obtain ⟨bs', h1, h2⟩ := ih
    refine ⟨⟨h, some u⟩ :: bs', .part l e items th h u (some u) bs' t y hnc hl hh hc hu (.inl rfl) h1, ?_⟩
    intro b hb
    rcases List.mem_cons.1 hb with rfl | hb
    · simp
    · exact h2 b hb

theorem message_fill {net : Net} {fl : Flags} {m : Msg} {t y : Bytes} (h : Gram.message net fl m t y) : ∃ m', Gram.message net fl m' t y ∧ m'.Whole := by
  obtain ⟨s, ts, items, th, h, bs, tb, y, hs, hne, hh, hc, hb⟩ := h
  have : ∃ bs', Gram.body net fl h bs' tb y ∧ (∀ b ∈ bs', b.body ≠ none) := by
    cases hb with
    | noType y hc => exact ⟨[], .noType y hc, by simp⟩
    | empty a b ps r y hc hm hl => exact ⟨[], .empty a b ps r y hc hm hl, by simp⟩
    | single a b ps r n r' y hc hm hl hn hy => exact ⟨_, .single a b ps r n r' y hc hm hl hn hy, by simp⟩
    | multi a b ps r p ks v bs t y hc hm hk hv hp =>
      obtain ⟨bs', h1, h2⟩ := parts_fill hp
      exact ⟨bs', .multi a b ps r p ks v bs' t y hc hm hk hv h1, h2⟩
  obtain ⟨bs', h1, h2⟩ := this
  exact ⟨⟨s, h, bs'⟩, .mk s ts items th h bs' tb y hs hne hh hc h1, h2⟩

/-- **C43** messages: the parser returns `m` and stops behind the first `n` bytes exactly if these are a message of the grammar that `m` stands for, with the content
of all its bodies -/
theorem msg_exact (net : Net) (hnet : net.Ok) (s : Bytes) (cap : Nat) (hcap : 10 * s.length + 66 ≤ cap) (fl : Flags) (m : Msg) (n : Nat) :
    (∃ c', Msg.parse net (fresh s cap fl) = .ok (some m, c') ∧ c'.pos = n) ↔
      ∃ t y, s = t ++ y ∧ t.length = n ∧ Gram.message net fl m t y ∧ m.Whole := by
  have key : ∀ m' t y, s = t ++ y → Gram.message net fl m' t y → m'.Whole → ∃ c', Msg.parse net (fresh s cap fl) = .ok (some m', c') ∧ c'.pos = t.length := by
    rintro m' t y rfl hg hw
    exact Acc.fresh (cap_msg net) (A := 9) (B := 26) (fun cap c' h8 e => msg_memory_tight net hnet _ cap h8 fl _ c' e) (Acc.message hg hw) (by omega)
  constructor
  · rintro ⟨c', e, rfl⟩
    obtain ⟨t, y, h1, h2, h3⟩ := msg_follows_grammar net s cap (by omega) fl m c' e
    obtain ⟨m', h4, h5⟩ := message_fill h3
    obtain ⟨c2, e2, _⟩ := key m' t y h1 h4 h5
    rw [e] at e2
    cases e2
    exact ⟨t, y, h1, h2.symm, h3, h5⟩
  · rintro ⟨t, y, h1, rfl, h2, h3⟩
    exact key m t y h1 h2 h3

/-- **C43** the grammar is not ambiguous: an input has at most one message in front -/
theorem message_unique (net : Net) (hnet : net.Ok) (fl : Flags) (m m' : Msg) (t t' y y' : Bytes) (h : Gram.message net fl m t y) (h' : Gram.message net fl m' t' y')
    (hw : m.Whole) (hw' : m'.Whole) (e : t ++ y = t' ++ y') : m = m' ∧ t = t' ∧ y = y' := by
  obtain ⟨c1, e1, p1⟩ := (msg_exact net hnet (t ++ y) _ (Nat.le_refl _) fl m t.length).2 ⟨t, y, rfl, rfl, h, hw⟩
  obtain ⟨c2, e2, p2⟩ := (msg_exact net hnet (t ++ y) _ (Nat.le_refl _) fl m' t'.length).2 ⟨t', y', e, rfl, h', hw'⟩
  rw [e1] at e2
  cases e2
  exact ⟨rfl, List.append_inj e (p1.symm.trans p2)⟩

/-- **C43** the same for a header -/
theorem header_unique (net : Net) (hnet : net.Ok) (k : HKind) (fl : Flags) (v v' : HVal) (t t' y y' : Bytes) (h : Gram.header net fl k v t y)
    (h' : Gram.header net fl k v' t' y') (e : t ++ y = t' ++ y') : v = v' ∧ t = t' ∧ y = y' := by
  obtain ⟨c1, e1, p1⟩ := (header_exact net hnet k (t ++ y) _ (Nat.le_refl _) fl v t.length).2 ⟨t, y, rfl, rfl, h⟩
  obtain ⟨c2, e2, p2⟩ := (header_exact net hnet k (t ++ y) _ (Nat.le_refl _) fl v' t'.length).2 ⟨t', y', e, rfl, h'⟩
  rw [e1] at e2
  cases e2
  exact ⟨rfl, List.append_inj e (p1.symm.trans p2)⟩

/-- **C43** what is rejected is outside of the grammar: if the parser comes to an end, it returns false exactly if no beginning of the input is a message -/
theorem msg_rejects_exactly (net : Net) (hnet : net.Ok) (s : Bytes) (cap : Nat) (hcap : 10 * s.length + 66 ≤ cap) (fl : Flags) (r : Option Msg) (c' : Ctx)
    (h : Msg.parse net (fresh s cap fl) = .ok (r, c')) : r = none ↔ ¬ ∃ m t y, s = t ++ y ∧ Gram.message net fl m t y := by
  constructor
  · rintro rfl ⟨m, t, y, h1, h2⟩
    obtain ⟨m', h3, h4⟩ := message_fill h2
    obtain ⟨c2, e2, _⟩ := (msg_exact net hnet s cap hcap fl m' t.length).2 ⟨t, y, h1, rfl, h3, h4⟩
    rw [h] at e2; cases e2
  · intro hn
    cases r with
    | none => rfl
    | some m =>
      obtain ⟨t, y, h1, _, h2⟩ := msg_follows_grammar net s cap (by omega) fl m c' h
      exact absurd ⟨m, t, y, h1, h2⟩ hn

/-- **C43** the same for a header -/
theorem header_rejects_exactly (net : Net) (hnet : net.Ok) (k : HKind) (s : Bytes) (cap : Nat) (hcap : 10 * s.length + 70 ≤ cap) (fl : Flags) (r : Option HVal) (c' : Ctx)
    (h : k.parse net (fresh s cap fl) = .ok (r, c')) : r = none ↔ ¬ ∃ v t y, s = t ++ y ∧ Gram.header net fl k v t y := by
  constructor
  · rintro rfl ⟨v, t, y, h1, h2⟩
    obtain ⟨c2, e2, _⟩ := (header_exact net hnet k s cap hcap fl v t.length).2 ⟨t, y, h1, rfl, h2⟩
    rw [h] at e2; cases e2
  · intro hn
    cases r with
    | none => rfl
    | some v =>
      obtain ⟨t, y, h1, _, h2⟩ := header_follows_grammar net k s cap (by omega) fl v c' h
      exact absurd ⟨v, t, y, h1, h2⟩ hn

/-! ## Arenas of any size

A user knows the size of the arena and, after a run, how much of it is used (`Used`, `Left`).  If at least as many bytes as the input has, and 40 more, are left, the
answer is the one the grammar gives, whatever the size of the arena. -/

theorem exact_if_room {α : Type} {p : P α} (hp : CapAll p) {S : Bytes → α → Nat → Prop} {s : Bytes} {fl : Flags} {N : Nat}
    (hx : ∀ K, N ≤ K → ∀ v n, (∃ c', p (fresh s K fl) = .ok (some v, c') ∧ c'.pos = n) ↔ S s v n) {cap : Nat} {r : Option α} {c' : Ctx}
    (h : p (fresh s cap fl) = .ok (r, c')) (hroom : c'.used + s.length + 40 ≤ cap) (v : α) (n : Nat) : (r = some v ∧ c'.pos = n) ↔ S s v n := by
  have h2 := capacity_irrelevant hp s fl cap (cap + N) r c' h hroom (by omega)
  rw [← hx (cap + N) (by omega) v n, h2]
  constructor
  · rintro ⟨rfl, rfl⟩; exact ⟨_, rfl, rfl⟩
  · rintro ⟨c2, e, rfl⟩
    cases e; exact ⟨rfl, rfl⟩

/-- **C43** a run of the message parser that ends with room to spare, in any arena: the answer is the one of the grammar -/
theorem msg_exact_if_room (net : Net) (hnet : net.Ok) (s : Bytes) (cap : Nat) (fl : Flags) (r : Option Msg) (c' : Ctx)
    (h : Msg.parse net (fresh s cap fl) = .ok (r, c')) (hroom : c'.used + s.length + 40 ≤ cap) (m : Msg) (n : Nat) :
    (r = some m ∧ c'.pos = n) ↔ ∃ t y, s = t ++ y ∧ t.length = n ∧ Gram.message net fl m t y ∧ m.Whole :=
  exact_if_room (cap_msg net) (S := fun s m n => ∃ t y, s = t ++ y ∧ t.length = n ∧ Gram.message net fl m t y ∧ m.Whole)
    (fun K hK v n => msg_exact net hnet s K hK fl v n) h hroom m n

/-- **C43** the same for every header parser -/
theorem header_exact_if_room (net : Net) (hnet : net.Ok) (k : HKind) (s : Bytes) (cap : Nat) (fl : Flags) (r : Option HVal) (c' : Ctx)
    (h : k.parse net (fresh s cap fl) = .ok (r, c')) (hroom : c'.used + s.length + 40 ≤ cap) (v : HVal) (n : Nat) :
    (r = some v ∧ c'.pos = n) ↔ ∃ t y, s = t ++ y ∧ t.length = n ∧ Gram.header net fl k v t y :=
  exact_if_room (cap_header net k) (S := fun s v n => ∃ t y, s = t ++ y ∧ t.length = n ∧ Gram.header net fl k v t y)
    (fun K hK v n => header_exact net hnet k s K hK fl v n) h hroom v n

/-- the premises are met: the sample message in an arena of 4000 bytes leaves enough -/
theorem exact_if_room_sample : (Msg.parse Net.sample (fresh msgSample 4000 {})).all (fun r => r.1.isSome && decide (r.2.used + msgSample.length + 40 ≤ 4000)) = true := by
  decide +kernel

/-- the premises are met, for the messages: a sample is a message of the grammar with whole bodies, and the line `REGISTER` alone is not -/
theorem msg_exact_samples :
    (∃ m t y, msgSample = t ++ y ∧ Gram.message Net.sample {} m t y ∧ m.Whole) ∧
    ¬ ∃ m t y, str "REGISTER sip:a SIP/2.0\r\n" = t ++ y ∧ Gram.message Net.sample {} m t y := by
  constructor
  · have h : (Msg.parse Net.sample (fresh msgSample 1000000 {})).all (fun r => r.1.isSome) = true := by decide +kernel
    rcases e : Msg.parse Net.sample (fresh msgSample 1000000 {}) with ⟨_ | m, c'⟩ | _ | _ <;> rw [e] at h
    · cases h
    · obtain ⟨t, y, h1, _, h2, h3⟩ := (msg_exact Net.sample Net.sample_ok msgSample 1000000 (by decide +kernel) {} m c'.pos).1 ⟨c', e, rfl⟩
      exact ⟨m, t, y, h1, h2, h3⟩
    · cases h
    · cases h
  · have h : (Msg.parse Net.sample (fresh (str "REGISTER sip:a SIP/2.0\r\n") 100000 {})).all (fun r => r.1.isNone) = true := by decide +kernel
    rcases e : Msg.parse Net.sample (fresh (str "REGISTER sip:a SIP/2.0\r\n") 100000 {}) with ⟨_ | m, c'⟩ | _ | _ <;> rw [e] at h
    · exact (msg_rejects_exactly Net.sample Net.sample_ok _ 100000 (by decide +kernel) {} _ _ e).1 rfl
    · cases h
    · cases h
    · cases h

/-- the premises are met, for the headers: a derivation in the grammar, put together by hand, and what follows for the parser -/
theorem header_exact_sample : ∃ c', HKind.maxForwards.parse Net.sample (fresh (str "max-forwards :\t70\r\n") 1000 {}) = .ok (some (.num 70), c') ∧ c'.pos = 17 := by
  refine (header_exact Net.sample Net.sample_ok .maxForwards _ 1000 (by decide +kernel) {} (.num 70) 17).2
    ⟨str "max-forwards :\t70", [0x0d, 0x0a], by decide +kernel, by decide +kernel, ?_⟩
  refine .mk (str "max-forwards") (str " :\t") (.num 70) (str "70") [0x0d, 0x0a] (.inl (by decide +kernel)) ⟨0x20, rfl, .inr (.inl rfl)⟩ ⟨[0x20], [0x09], by simp [AllWsp], ?_, by decide +kernel⟩
    (.maxForwards 70 (str "70") _ ⟨by decide +kernel, by decide +kernel, by decide +kernel, by decide +kernel⟩)
  · exact gsws_iff.2 (by decide +kernel)

end Sip
