import Verif.Props.Version
/-!
# C17: host and port

Specification predicates: `Host.WF`, `HostPort.WF` say which values the types can denote (a host name is a non-empty string of host name
characters that does not read as an IPv4 address, ...); `Ipv4Text` is the grammar of dotted quads.
-/
namespace Sip

/-! ## Host -/

/-- What is assumed of the two functions of package net: a text accepted by `ParseIP` has no CR, and the canonical text of the address is read back
as the same address and consists of hex digits, `:` and `.`. -/
structure Net.Ok (net : Net) : Prop where
  noCR : ∀ t ip, net.parseIP t = some ip → ∀ b ∈ t, b ≠ 0x0d
  back : ∀ t ip, net.parseIP t = some ip → net.parseIP (net.ipString ip) = some ip
  chars : ∀ t ip, net.parseIP t = some ip → ∀ b ∈ net.ipString ip, isHex b = true ∨ b = 0x3a ∨ b = 0x2e

theorem Net.Ok.close {net : Net} (h : net.Ok) (t ip) (ht : net.parseIP t = some ip) : ∀ b ∈ net.ipString ip, b ≠ 0x5d := by
  intro b hb
  have : ∀ b : UInt8, (isHex b = true ∨ b = 0x3a ∨ b = 0x2e) → b ≠ 0x5d := by decide +kernel
  exact this b (h.chars t ip ht b hb)

/-- `k` times "." 1*DIGIT with a value up to 255 (the digits are read modulo 2^64) -/
inductive Octets : Nat → Bytes → List UInt8 → Prop
  | zero : Octets 0 [] []
  | succ (k d s ip) (hne : d ≠ []) (hd : InSet csDigit d) (hv : decVal d % 18446744073709551616 ≤ 255) (h : Octets k s ip) :
      Octets (k + 1) (0x2e :: d ++ s) (UInt8.ofNat (decVal d % 18446744073709551616) :: ip)

/-- a dotted quad -/
def Ipv4Text (s : Bytes) (ip : List UInt8) : Prop := Octets 4 (0x2e :: s) ip

theorem octets_length {k s ip} (h : Octets k s ip) : ip.length = k := by
  induction h with
  | zero => rfl
  | succ k d s ip _ _ _ _ ih => simp [ih]

theorem octets_head {k s ip} (h : Octets k s ip) : ∀ b ∈ s.head?, b = 0x2e := by
  cases h <;> simp

theorem octets_zero {s ip} : Octets 0 s ip ↔ s = [] ∧ ip = [] := by
  constructor
  · intro h; cases h; exact ⟨rfl, rfl⟩
  · rintro ⟨rfl, rfl⟩; exact .zero
theorem octets_succ {k s ip} : Octets (k + 1) s ip ↔ ∃ d s' ip', s = 0x2e :: (d ++ s') ∧ ip = UInt8.ofNat (decVal d % 18446744073709551616) :: ip' ∧
    d ≠ [] ∧ InSet csDigit d ∧ decVal d % 18446744073709551616 ≤ 255 ∧ Octets k s' ip' := by
  constructor
  · intro h
    cases h with
    | succ _ d s ip hne hd hv h => exact ⟨d, s, ip, rfl, rfl, hne, hd, hv, h⟩
  · rintro ⟨d, s', ip', rfl, rfl, hne, hd, hv, h⟩
    exact .succ k d s' ip' hne hd hv h

theorem digit_hostname (b : UInt8) : isDigit b = true → isHostname b = true := by revert b; decide +kernel

theorem digitRun_unique {p : UInt8 → Bool} {d d' r r' : Bytes} (h : d ++ r = d' ++ r') (hd : ∀ b ∈ d, p b = true) (hd' : ∀ b ∈ d', p b = true)
    (hr : ∀ b ∈ r.head?, p b = false) (hr' : ∀ b ∈ r'.head?, p b = false) : d = d' ∧ r = r' := by
  have e1 := takeWhile_split (p := p) h hd' hr'
  have e2 := takeWhile_split (p := p) (rfl : d ++ r = d ++ r) hd hr
  have : d = d' := by rw [← e2, e1]
  subst this
  exact ⟨rfl, List.append_cancel_left h⟩

/-- `ParseUInt` on a digit run -/
theorem parseUInt_run (src : Bytes) (pos : Nat) (d r : Bytes) (h : src.drop pos = d ++ r) (hd : InSet csDigit d) (hr : NotIn csDigit r) :
    (d = [] → parseUInt src pos = ⟨0, 0, pos, false⟩) ∧
    (d ≠ [] → (parseUInt src pos).ok = true ∧ (parseUInt src pos).digit = decVal d % 18446744073709551616 ∧ (parseUInt src pos).newPos = pos + d.length) := by
  have hrl : runLen isDigit (src.drop pos) = d.length := by
    rw [h, runLen_append_of_all (p := isDigit) hd]
    cases r with
    | nil => simp [runLen]
    | cons x r => rw [runLen_cons_false (p := isDigit) (hr x (by simp))]; omega
  rw [parseUInt_eq, hrl]
  constructor
  · rintro rfl; simp
  · intro hne
    rw [if_neg (by simpa using hne)]
    refine ⟨rfl, ?_, rfl⟩
    simp only [h, u64]
    simp

theorem ipv4Loop_spec (src : Bytes) (k newPos : Nat) (acc : List UInt8) (s y : Bytes) (h : src.drop newPos = s ++ y) (hs : InSet csHostname s) (hy : NotIn csHostname y) :
    (∃ ip, Octets k s ip ∧ ipv4Loop src k newPos acc = (some (acc ++ ip), newPos + s.length)) ∨
    ((¬ ∃ ip, Octets k s ip) ∧ ((∃ p, ipv4Loop src k newPos acc = (none, p)) ∨
      ∃ ip p b, ipv4Loop src k newPos acc = (some ip, p) ∧ src[p]? = some b ∧ isHostname b = true)) := by
  induction k generalizing newPos acc s with
  | zero =>
    cases s with
    | nil => exact Or.inl ⟨[], .zero, by simp [ipv4Loop]⟩
    | cons b s =>
      refine Or.inr ⟨(fun ⟨ip, h⟩ => by have := (octets_zero.1 h).1; cases this), Or.inr ⟨acc, newPos, b, rfl, ?_, hs b (by simp)⟩⟩
      rw [getElem?_eq_drop, h]; rfl
  | succ k ih =>
    unfold ipv4Loop
    cases s with
    | nil =>
      refine Or.inr ⟨(fun ⟨ip, h⟩ => by obtain ⟨_, _, _, h, _⟩ := octets_succ.1 h; cases h), Or.inl ?_⟩
      cases hn : src[newPos]? with
      | none => exact ⟨newPos, rfl⟩
      | some d =>
        refine ⟨newPos, ?_⟩
        simp only
        have : d ≠ 0x2e := by
          intro e; subst e
          rw [getElem?_eq_drop, h] at hn
          cases y with
          | nil => simp at hn
          | cons b y =>
            simp at hn; subst hn
            have := hy 0x2e (by simp)
            exact absurd this (by decide +kernel)
        rw [if_pos this]
    | cons b s =>
      have hn : src[newPos]? = some b := by rw [getElem?_eq_drop, h]; rfl
      rw [hn]
      simp only
      by_cases hb : b ≠ 0x2e
      · rw [if_pos hb]
        refine Or.inr ⟨?_, Or.inl ⟨_, rfl⟩⟩
        rintro ⟨ip, ho⟩
        exact hb (octets_head ho b (by simp))
      rw [if_neg hb]
      have hb : b = 0x2e := by simpa using hb
      subst hb
      have h1 : src.drop (newPos + 1) = s ++ y := by
        have := drop_add_of_drop h 1; simpa using this
      -- the digit run
      obtain ⟨d, r, hsplit, hd, hr0, _⟩ := exists_run csDigit.mem s
      have hr : NotIn csDigit (r ++ y) := by
        intro x hx
        cases r with
        | nil =>
          simp only [List.nil_append] at hx
          have := hy x hx
          cases hh : csDigit.mem x
          · rfl
          · rw [show csHostname.mem x = true from digit_hostname x hh] at this; cases this
        | cons g r => exact hr0 x (by simpa using hx)
      have hinv : ∀ ip, Octets (k + 1) (0x2e :: s) ip → ∃ ip', d ≠ [] ∧ decVal d % 18446744073709551616 ≤ 255 ∧ Octets k r ip' := by
        intro ip ho
        obtain ⟨d', s', ip', he, _, hne', hd', hv', h'⟩ := octets_succ.1 ho
        have hh := octets_head h'
        obtain ⟨e1, e2⟩ := digitRun_unique (p := csDigit.mem) (hsplit.symm.trans (List.cons.inj he).2) hd hd' hr0
          (by intro x hx; rw [hh x hx]; decide +kernel)
        exact ⟨ip', by rw [e1]; exact hne', by rw [e1]; exact hv', by rw [e2]; exact h'⟩
      have hpu := parseUInt_run src (newPos + 1) d (r ++ y) (by rw [h1, hsplit, List.append_assoc]) hd hr
      by_cases hdne : d = []
      · rw [hpu.1 hdne]
        simp only [Bool.not_false, Bool.true_or, if_true]
        exact Or.inr ⟨fun ⟨ip, ho⟩ => (hinv ip ho).elim fun _ hh => hh.1 hdne, Or.inl ⟨_, rfl⟩⟩
      · obtain ⟨p1, p2, p3⟩ := hpu.2 hdne
        rw [p1, p2, p3]
        by_cases hv : decVal d % 18446744073709551616 > 0xff
        · rw [if_pos (by simp; omega)]
          exact Or.inr ⟨fun ⟨ip, ho⟩ => (hinv ip ho).elim fun _ hh => by have := hh.2.1; omega, Or.inl ⟨_, rfl⟩⟩
        · rw [if_neg (by simp; omega)]
          have hrs : InSet csHostname r := fun x hx => hs x (by rw [hsplit]; simp [hx])
          have := ih (newPos + 1 + d.length) (acc ++ [UInt8.ofNat (decVal d % 18446744073709551616)]) r (by
            rw [← List.drop_drop, h1, hsplit]; simp) hrs
          rcases this with ⟨ip, ho, he⟩ | ⟨hno, he⟩
          · refine Or.inl ⟨UInt8.ofNat (decVal d % 18446744073709551616) :: ip, ?_, ?_⟩
            · rw [hsplit]
              exact Octets.succ k d r ip hdne hd (by omega) ho
            · rw [he]
              simp only [List.append_assoc, List.cons_append, List.nil_append, List.length_cons, List.length_append, hsplit, Prod.mk.injEq, true_and]
              omega
          · exact Or.inr ⟨fun ⟨ip, ho⟩ => (hinv ip ho).elim fun ip' hh => hno ⟨ip', hh.2.2⟩, he⟩

/-- **C17** the IPv4 recogniser on a run of host name characters: it succeeds exactly on dotted quads. -/
theorem parseIpv4_spec (src : Bytes) (pos : Nat) (s y : Bytes) (h : src.drop pos = s ++ y) (hs : InSet csHostname s) (hy : NotIn csHostname y) :
    (∃ ip, Ipv4Text s ip ∧ parseIpv4 src pos = (some ip, pos + s.length)) ∨
    ((¬ ∃ ip, Ipv4Text s ip) ∧ ∃ p, parseIpv4 src pos = (none, p)) := by
  unfold parseIpv4
  by_cases hp : pos ≥ src.length
  · rw [if_pos hp]
    have : s ++ y = [] := by rw [← h]; exact List.drop_eq_nil_of_le hp
    have hs0 : s = [] := (List.append_eq_nil_iff.1 this).1
    subst hs0
    refine Or.inr ⟨?_, _, rfl⟩
    rintro ⟨ip, ho⟩
    obtain ⟨d, s', ip', he, _, hne, _⟩ := octets_succ.1 ho
    simp at he; exact hne he.1
  rw [if_neg hp]
  obtain ⟨d, r, hsplit, hd, hr0, _⟩ := exists_run csDigit.mem s
  have hr : NotIn csDigit (r ++ y) := by
    intro x hx
    cases r with
    | nil =>
      simp only [List.nil_append] at hx
      have := hy x hx
      cases hh : csDigit.mem x
      · rfl
      · rw [show csHostname.mem x = true from digit_hostname x hh] at this; cases this
    | cons g r => exact hr0 x (by simpa using hx)
  have hinv : ∀ ip, Ipv4Text s ip → ∃ ip', d ≠ [] ∧ decVal d % 18446744073709551616 ≤ 255 ∧ Octets 3 r ip' := by
    intro ip ho
    obtain ⟨d', s', ip', he, _, hne', hd', hv', h'⟩ := octets_succ.1 ho
    have hh := octets_head h'
    obtain ⟨e1, e2⟩ := digitRun_unique (p := csDigit.mem) (hsplit.symm.trans (List.cons.inj he).2) hd hd' hr0
      (by intro x hx; rw [hh x hx]; decide +kernel)
    exact ⟨ip', by rw [e1]; exact hne', by rw [e1]; exact hv', by rw [e2]; exact h'⟩
  have hpu := parseUInt_run src pos d (r ++ y) (by rw [h, hsplit, List.append_assoc]) hd hr
  simp only
  by_cases hdne : d = []
  · rw [hpu.1 hdne]
    simp only [Bool.not_false, Bool.true_or, if_true]
    exact Or.inr ⟨fun ⟨ip, ho⟩ => (hinv ip ho).elim fun _ hh => hh.1 hdne, _, rfl⟩
  · obtain ⟨p1, p2, p3⟩ := hpu.2 hdne
    rw [p1, p2, p3]
    by_cases hv : decVal d % 18446744073709551616 > 0xff
    · rw [if_pos (by simp; omega)]
      exact Or.inr ⟨fun ⟨ip, ho⟩ => (hinv ip ho).elim fun _ hh => by have := hh.2.1; omega, _, rfl⟩
    · rw [if_neg (by simp; omega)]
      have hrs : InSet csHostname r := fun x hx => hs x (by rw [hsplit]; simp [hx])
      have := ipv4Loop_spec src 3 (pos + d.length) [UInt8.ofNat (decVal d % 18446744073709551616)] r y (by
        rw [← List.drop_drop, h, hsplit]; simp) hrs hy
      rcases this with ⟨ip, ho, he⟩ | ⟨hno, ⟨p, he⟩ | ⟨ip, p, b, he, hb1, hb2⟩⟩
      · refine Or.inl ⟨UInt8.ofNat (decVal d % 18446744073709551616) :: ip, ?_, ?_⟩
        · rw [hsplit]
          exact Octets.succ 3 d r ip hdne hd (by omega) ho
        · rw [he]
          simp only
          have hend : (src[pos + d.length + r.length]?.map isHostname) ≠ some true := by
            rw [getElem?_eq_drop, Nat.add_assoc, ← List.drop_drop, h]
            have : (s ++ y).drop (d.length + r.length) = y := by rw [hsplit]; simp
            rw [this]
            cases y with
            | nil => simp
            | cons b y => have := hy b (by simp); simp; exact this
          rw [if_neg hend]
          simp [hsplit, Nat.add_assoc]
      · rw [he]; exact Or.inr ⟨fun ⟨ip, ho⟩ => (hinv ip ho).elim fun ip' hh => hno ⟨ip', hh.2.2⟩, _, rfl⟩
      · rw [he]
        simp only
        rw [if_pos (by rw [hb1]; simp [hb2])]
        exact Or.inr ⟨fun ⟨ip, ho⟩ => (hinv ip ho).elim fun ip' hh => hno ⟨ip', hh.2.2⟩, _, rfl⟩

theorem digits_of_allDigits {d : Bytes} (h : AllDigits d) : InSet csDigit d := fun b hb => (isDigit_iff b).2 (h b hb)

theorem writeByte_spec (v : UInt8) : writeByteAsString v ≠ [] ∧ InSet csDigit (writeByteAsString v) ∧ decVal (writeByteAsString v) = v.toNat := by
  have h1 : ∀ v : UInt8, writeByteAsString v ≠ [] := by decide +kernel
  have h2 : ∀ v : UInt8, (writeByteAsString v).all (fun c => Nat.ble 48 c.toNat && Nat.ble c.toNat 57) = true := by decide +kernel
  have h3 : ∀ v : UInt8, decVal (writeByteAsString v) = v.toNat := by decide +kernel
  refine ⟨h1 v, digits_of_allDigits ?_, h3 v⟩
  intro b hb
  have := List.all_eq_true.1 (h2 v) b hb
  simpa using this

/-- the dotted quad that `Encode` writes is the dotted quad of the grammar -/
theorem ipv4_encode_text (net : Net) (a b c d : UInt8) : Ipv4Text ((Host.ipv4 a b c d).encode net) [a, b, c, d] := by
  have key : ∀ (k : Nat) (v : UInt8) (s : Bytes) (ip : List UInt8), Octets k s ip → Octets (k + 1) (0x2e :: writeByteAsString v ++ s) (v :: ip) := by
    intro k v s ip h
    obtain ⟨h1, h2, h3⟩ := writeByte_spec v
    have hlt : v.toNat < 256 := v.toNat_lt
    have := Octets.succ k (writeByteAsString v) s ip h1 h2 (by rw [h3]; omega) h
    rw [h3, Nat.mod_eq_of_lt (by omega), UInt8.ofNat_toNat] at this
    exact this
  have := key 3 a _ _ (key 2 b _ _ (key 1 c _ _ (key 0 d _ _ .zero)))
  unfold Ipv4Text Host.encode
  simpa using this

/-- the values a host can have -/
def Host.WF (net : Net) : Host → Prop
  | .unknown => False
  | .ipv4 .. => True
  | .ipv6 ip => ∃ t, net.parseIP t = some ip
  | .name s => s ≠ [] ∧ InSet csHostname s ∧ ((∃ b ∈ s.head?, isAlpha b = true) ∨ ¬ ∃ ip, Ipv4Text s ip)

/-- arena bytes a parsed host takes -/
def Host.cost : Host → Nat
  | .unknown => 0
  | .ipv4 .. => 4
  | .ipv6 _ => 16
  | .name s => s.length + 2

theorem octets_hostname {k s ip} (h : Octets k s ip) : InSet csHostname s := by
  induction h with
  | zero => intro b hb; cases hb
  | succ k d s ip _ hd _ _ ih =>
    intro b hb
    simp only [List.cons_append, List.mem_cons, List.mem_append] at hb
    rcases hb with rfl | hb | hb
    · decide +kernel
    · exact digit_hostname b (hd b hb)
    · exact ih b hb

theorem ipv4Text_hostname {s ip} (h : Ipv4Text s ip) : InSet csHostname s := fun b hb => octets_hostname h b (by simp [hb])

theorem ipv4Text_head {s ip} (h : Ipv4Text s ip) : ∃ b ∈ s.head?, isDigit b = true := by
  obtain ⟨d, s', _, he, _, hne, hd, _⟩ := octets_succ.1 h
  simp only [List.cons.injEq, true_and] at he
  subst he
  cases d with
  | nil => exact absurd rfl hne
  | cons b d => exact ⟨b, by simp, hd b (by simp)⟩

theorem alloc_ok (c : Ctx) (n : Nat) (h : c.used + n ≤ c.cap) : c.alloc n = (true, { c with used := c.used + n }) := by
  unfold Ctx.alloc; rw [if_neg (by omega)]
theorem alloc_no (c : Ctx) (n : Nat) (h : ¬ c.used + n ≤ c.cap) : c.alloc n = (false, c) := by
  unfold Ctx.alloc; rw [if_pos (by omega)]

/-- **C17** a host survives encode and parse. -/
theorem host_roundtrip (net : Net) (hnet : net.Ok) (fl : Flags) (h : Host) (hw : h.WF net) :
    Parses fl (parseHost net) (h.encode net) h h.cost (NotIn csHostname) := by
  intro c y hfl hr hF hp hu
  have hcur := cur_eq_head c
  rw [hr] at hcur
  cases h with
  | unknown => exact hw.elim
  | name s =>
    obtain ⟨hne, hs, hcase⟩ := hw
    have hstr := Parses.str (fl := fl) csHostname s hne hs c y hfl hr hF hp hu
    have hpn : parseHostname c = .ok (some (.name s), c.eat s.length (s.length + 2)) := P.bind_ok hstr
    unfold parseHost
    cases s with
    | nil => exact absurd rfl hne
    | cons b s =>
      rw [hcur]
      show (if b = 0x5b then _ else _) = _
      rw [if_neg (by intro e; subst e; exact absurd (hs 0x5b (by simp)) (by decide +kernel))]
      by_cases hb : isAlpha b = true
      · rw [if_pos hb]; exact hpn
      · rw [if_neg hb]
        rcases hcase with ⟨b', hb', ha⟩ | hno
        · simp at hb'; subst hb'; exact absurd ha hb
        · rcases parseIpv4_spec c.src c.pos (b :: s) y hr hs hF with ⟨ip, hi, _⟩ | ⟨_, p, he⟩
          · exact absurd ⟨ip, hi⟩ hno
          · rw [he]; exact hpn
  | ipv4 a b d e =>
    have ht := ipv4_encode_text net a b d e
    obtain ⟨x, hx, hxd⟩ := ipv4Text_head ht
    have hsp := parseIpv4_spec c.src c.pos _ y hr (ipv4Text_hostname ht) hF
    unfold parseHost
    generalize (Host.ipv4 a b d e).encode net = t at *
    cases t with
    | nil => simp at hx
    | cons x' t =>
      simp at hx; subst hx
      rw [hcur]
      show (if x' = 0x5b then _ else _) = _
      have hna : ∀ x : UInt8, isDigit x = true → x ≠ 0x5b ∧ isAlpha x = false := by decide +kernel
      rw [if_neg (hna x' hxd).1, if_neg (by rw [(hna x' hxd).2]; simp)]
      rcases hsp with ⟨ip, hi, he⟩ | ⟨hno, _⟩
      · -- the grammar is unambiguous
        have huniq : ip = [a, b, d, e] := by
          have key : ∀ (k : Nat) (s : Bytes) (i j : List UInt8), Octets k s i → Octets k s j → i = j := by
            intro k
            induction k with
            | zero => intro s i j h1 h2; rw [(octets_zero.1 h1).2, (octets_zero.1 h2).2]
            | succ k ih =>
              intro s i j h1 h2
              obtain ⟨d1, s1, i1, e1, rfl, _, hd1, _, o1⟩ := octets_succ.1 h1
              obtain ⟨d2, s2, i2, e2, rfl, _, hd2, _, o2⟩ := octets_succ.1 h2
              have hh1 := octets_head o1
              have hh2 := octets_head o2
              obtain ⟨q1, q2⟩ := digitRun_unique (p := csDigit.mem) (List.cons.inj (e1.symm.trans e2)).2 hd1 hd2
                (by intro x hx; rw [hh1 x hx]; decide +kernel) (by intro x hx; rw [hh2 x hx]; decide +kernel)
              subst q1 q2
              rw [ih _ _ _ o1 o2]
          exact key 4 _ _ _ hi ht
        subst huniq
        rw [he]
        have hu4 : c.used + 4 < c.cap := hu
        have ha : (c.setPos (c.pos + (x' :: t).length)).alloc 4 = (true, c.eat (x' :: t).length 4) :=
          alloc_ok _ 4 (by show c.used + 4 ≤ c.cap; omega)
        simp only [ha]
        rfl
      · exact absurd ⟨_, ht⟩ hno
  | ipv6 ip =>
    obtain ⟨t, ht⟩ := hw
    have hb := hnet.back t ip ht
    have hcl := hnet.close t ip ht
    have hr2 : c.rest = 0x5b :: (net.ipString ip ++ 0x5d :: y) := by rw [hr]; simp [Host.encode]
    have hlen := rest_length c hp
    rw [hr2] at hlen; simp only [List.length_cons, List.length_append] at hlen
    have hd : c.src.drop (c.pos + 1) = net.ipString ip ++ 0x5d :: y := by
      have := drop_add_of_drop (r := 0x5b :: (net.ipString ip ++ 0x5d :: y)) (by exact hr2) 1
      simpa using this
    have hsk : skipWhile (fun x => decide (x ≠ 0x5d)) c.src (c.pos + 1) = c.pos + 1 + (net.ipString ip).length :=
      skipWhile_append hd (fun b hb => by simpa using hcl b hb) (by intro b hb; simp at hb; subst hb; simp)
    unfold parseHost
    rw [hcur]
    show (if (0x5b : UInt8) = 0x5b then _ else _) = _
    rw [if_pos rfl]
    have hsk' : skipWhile (fun x => decide (x ≠ 0x5d)) (c.adv 1).src (c.adv 1).pos = c.pos + 1 + (net.ipString ip).length := hsk
    unfold parseIpv6
    simp only [hsk']
    rw [if_neg (show ¬ c.pos + 1 + (net.ipString ip).length ≥ ((c.adv 1).setPos (c.pos + 1 + (net.ipString ip).length)).src.length by
      show ¬ c.pos + 1 + (net.ipString ip).length ≥ c.src.length; omega)]
    have htk : ((c.adv 1).src.drop (c.adv 1).pos).take (c.pos + 1 + (net.ipString ip).length - (c.adv 1).pos) = net.ipString ip := by
      show (c.src.drop (c.pos + 1)).take (c.pos + 1 + (net.ipString ip).length - (c.pos + 1)) = net.ipString ip
      rw [hd, show c.pos + 1 + (net.ipString ip).length - (c.pos + 1) = (net.ipString ip).length by omega]; simp
    rw [htk, hb]
    have hu16 : c.used + 16 < c.cap := hu
    have ha : ((c.adv 1).setPos (c.pos + 1 + (net.ipString ip).length)).alloc 16 = (true, c.eat (1 + (net.ipString ip).length) 16) := by
      rw [alloc_ok _ 16 (by show c.used + 16 ≤ c.cap; omega)]
      simp only [Ctx.eat, Ctx.adv, Ctx.setPos, Prod.mk.injEq, Ctx.mk.injEq, true_and, and_true]; omega
    simp only [ha]
    simp only [Ctx.adv, Ctx.eat, Host.encode, Host.cost, Out.ok.injEq, Prod.mk.injEq, Ctx.mk.injEq, true_and, and_true, List.length_append, List.length_cons, List.length_nil]
    omega

/-- the values a host/port can have -/
def HostPort.WF (net : Net) (h : HostPort) : Prop := h.host.WF net ∧ ∀ p ∈ h.port, p < 65536

/-- **C17** host and port survive encode and parse. -/
theorem hostport_roundtrip (net : Net) (hnet : net.Ok) (fl : Flags) (h : HostPort) (hw : h.WF net) :
    Parses fl (HostPort.parse net) (h.encode net) h h.host.cost (fun y => NotIn csHostname y ∧ y.head? ≠ some 0x3a) := by
  obtain ⟨host, port⟩ := h
  obtain ⟨hh, hport⟩ := hw
  unfold HostPort.parse HostPort.encode
  cases port with
  | none =>
    refine Parses.bind' (F := NotIn csHostname) (n2 := 0) (t2 := []) (Parses.orErr (host_roundtrip net hnet fl host hh)) ?_ (fun y hy => hy.1) (by simp) rfl
    refine Parses.peekEnd (fun y hy => ?_)
    have : y.head? ≠ some 0x3a := hy.2
    generalize y.head? = o at this
    match o, this with
    | none, _ => exact Parses.pure _
    | some b, h =>
      have hb : b ≠ 0x3a := fun e => h (by rw [e])
      dsimp only
      split
      · rename_i heq; exact absurd heq h
      · exact Parses.pure _
  | some p =>
    have hp : p < 65536 := hport p (by simp)
    refine Parses.bind' (F := NotIn csHostname) (n2 := 0) (Parses.orErr (host_roundtrip net hnet fl host hh)) ?_ ?_ rfl rfl
    · refine Parses.peek (Parses.skip1 ?_)
      obtain ⟨hd, hdv, hne⟩ := encodeUInt_spec p
      refine Parses.get (fun c y hfl hr hF hpp hu => ?_)
      have hpu := (parseUInt_run c.src c.pos (encodeUInt p) y hr (digits_of_allDigits hd) (fun b hb => by
        cases hx : csDigit.mem b
        · rfl
        · have := hF.1 b hb; rw [show csHostname.mem b = true from digit_hostname b hx] at this; cases this)).2 ?_
      · obtain ⟨p1, p2, p3⟩ := hpu
        rw [hdv, Nat.mod_eq_of_lt (by omega)] at p2
        simp only [p1, p2, p3, Bool.not_true, Bool.false_eq_true, if_false, if_neg (show ¬ p > 0xffff by omega)]
        have : u16 p = p := Nat.mod_eq_of_lt hp
        rw [this]; rfl
      · intro e; rw [e] at hne; simp at hne
    · intro y hy; intro b hb; simp at hb; subst hb; decide +kernel

/-! ## What is accepted -/

theorem str_val {s : CS} {c c' : Ctx} {v : Bytes} (h : P.str s c = .ok (some v, c')) : v = c.rest.takeWhile s.mem := by
  simp only [P.str, parseStr] at h
  split at h
  · cases h
  · split at h
    · cases h
    · split at h
      · cases h
      · split at h
        · cases h
        · simp only [Out.ok.injEq, Prod.mk.injEq, Option.some.injEq] at h
          exact h.1.symm

/-- **C17, C28–C32** whatever `ParseHost` accepts is a well formed host. -/
theorem host_safe (net : Net) (hnet : net.Ok) : Safe 0 true 1 16 (Host.WF net) (parseHost net) := by
  intro c hc
  have e0 : parseHost net c = parseHost net c := rfl
  conv at e0 => rhs; unfold parseHost
  -- the host name
  have hname : ((∃ b ∈ (c.rest.takeWhile csHostname.mem).head?, isAlpha b = true) ∨ ¬ ∃ ip, Ipv4Text (c.rest.takeWhile csHostname.mem) ip) →
      SafeAt 0 true 1 16 (Host.WF net) parseHostname c := by
    intro hcase
    have hs := safe_str csHostname (by decide +kernel) c hc
    have : SafeAt 0 true 1 (2 + 0) (Host.WF net) parseHostname c := by
      refine SafeAt.bind hs (fun v c1 hv hq hc1 => SafeAt.pure hc1 ⟨hq.1, hq.2, ?_⟩)
      rw [str_val hv]; exact hcase
    exact this.mono (Nat.le_refl _) (by simp) (Nat.le_refl _) (by omega) (fun _ h => h)
  have hlen := rest_length c hc.pos
  cases hcur : c.cur? with
  | none => rw [hcur] at e0; exact .of_none e0 (Step.err hc _) (by simp [Ctx.addError])
  | some v =>
    rw [hcur] at e0
    simp only at e0
    obtain ⟨hr, hlt⟩ := rest_eq_cons hcur
    by_cases hb : v = 0x5b
    · rw [if_pos hb] at e0
      subst hb
      have hb2 := skipWhile_bounds (fun x => decide (x ≠ 0x5d)) c.src (c.pos + 1) hlt
      have hsk : skipWhile (fun x => decide (x ≠ 0x5d)) (c.adv 1).src (c.adv 1).pos = skipWhile (fun x => decide (x ≠ 0x5d)) c.src (c.pos + 1) := rfl
      conv at e0 => rhs; unfold parseIpv6
      simp only [hsk] at e0
      generalize hp : skipWhile (fun x => decide (x ≠ 0x5d)) c.src (c.pos + 1) = p at *
      have st1 : Step c ((c.adv 1).setPos p) := ⟨rfl, rfl, rfl, by show c.pos ≤ p; omega, hb2.2, Nat.le_refl _, hc.used, ErrsIn.refl⟩
      by_cases h1 : p ≥ ((c.adv 1).setPos p).src.length
      · rw [if_pos h1] at e0
        exact .of_none e0 (st1.addError _) (by simp [Ctx.addError, Ctx.setPos, Ctx.adv])
      rw [if_neg h1] at e0
      have h1 : p < c.src.length := by have : ¬ p ≥ c.src.length := h1; omega
      rcases hip : net.parseIP ((c.src.drop (c.pos + 1)).take (p - (c.pos + 1))) with _ | ip
      · have hip' : net.parseIP (((c.adv 1).src.drop (c.adv 1).pos).take (p - (c.adv 1).pos)) = none := hip
        rw [hip'] at e0
        exact .of_none e0 (st1.addError _) (by simp [Ctx.addError, Ctx.setPos, Ctx.adv])
      · have hip' : net.parseIP (((c.adv 1).src.drop (c.adv 1).pos).take (p - (c.adv 1).pos)) = some ip := hip
        rw [hip'] at e0
        by_cases h2 : ((c.adv 1).setPos p).used + 16 ≤ ((c.adv 1).setPos p).cap
        · rw [alloc_ok _ 16 h2] at e0
          have h2 : c.used + 16 ≤ c.cap := h2
          refine .of_ok e0 ?_ ⟨_, hip⟩ ?_ ?_
          · exact ⟨rfl, rfl, rfl, by show c.pos ≤ p + 1; omega, by show p + 1 ≤ c.src.length; omega, by show c.used ≤ c.used + 16; omega, h2, ErrsIn.refl⟩
          · -- the text without its closing bracket has no CR
            have hclose : c.src[p]? = some 0x5d := by
              have hh := runLen_stop (fun x : UInt8 => decide (x ≠ 0x5d)) (c.src.drop (c.pos + 1))
              rw [List.head?_drop, List.getElem?_drop] at hh
              have e : c.pos + 1 + runLen (fun x : UInt8 => decide (x ≠ 0x5d)) (c.src.drop (c.pos + 1)) = p := by rw [← hp]; rfl
              rw [e, List.getElem?_eq_getElem h1] at hh
              have := hh c.src[p] rfl
              rw [List.getElem?_eq_getElem h1]
              simpa using this
            have hz : c.src.drop (c.pos + 1) = (c.src.drop (c.pos + 1)).take (p - (c.pos + 1)) ++ 0x5d :: c.src.drop (p + 1) := by
              have := (List.take_append_drop (p - (c.pos + 1)) (c.src.drop (c.pos + 1))).symm
              rw [List.drop_drop, show c.pos + 1 + (p - (c.pos + 1)) = p by omega] at this
              rw [List.drop_eq_getElem_cons h1] at this
              rw [List.getElem?_eq_getElem h1] at hclose
              simp only [Option.some.injEq] at hclose
              rw [hclose] at this
              exact this
            have hzl : ((c.src.drop (c.pos + 1)).take (p - (c.pos + 1))).length = p - (c.pos + 1) := by simp; omega
            have hno := hnet.noCR _ _ hip
            generalize (c.src.drop (c.pos + 1)).take (p - (c.pos + 1)) = z at *
            refine line_of_noCR (0x5b :: (z ++ [0x5d])) (c.src.drop (p + 1)) (by rw [hr, hz]; simp) ?_ ?_
            · show p + 1 = c.pos + (0x5b :: (z ++ [0x5d])).length
              simp only [List.length_cons, List.length_append, List.length_nil]; omega
            · intro b hb
              simp only [List.mem_cons, List.mem_append, List.not_mem_nil, or_false] at hb
              rcases hb with rfl | hb | rfl
              · decide
              · exact hno b hb
              · decide
          · show c.used + 16 ≤ c.used + 1 * (p + 1 - c.pos) + 16
            omega
        · rw [alloc_no _ 16 h2] at e0
          exact .of_none e0 (st1.addError _) (by simp [Ctx.addError, Ctx.setPos, Ctx.adv])
    · rw [if_neg hb] at e0
      by_cases ha : isAlpha v = true
      · rw [if_pos ha] at e0
        refine SafeAt.congr e0 (hname (Or.inl ⟨v, ?_, ha⟩))
        have hv : csHostname.mem v = true := by
          have : ∀ v, isAlpha v = true → isHostname v = true := by decide +kernel
          exact this v ha
        rw [hr, List.takeWhile_cons, if_pos hv]; simp
      · rw [if_neg ha] at e0
        have hsplit := takeWhile_drop_split csHostname.mem c.rest
        have hstop : NotIn csHostname (c.rest.drop (c.rest.takeWhile csHostname.mem).length) := by
          intro b hb
          have h1 := runLen_stop csHostname.mem c.rest b
          rw [runLen_eq_takeWhile] at h1
          exact h1 hb
        have hall : InSet csHostname (c.rest.takeWhile csHostname.mem) := inSet_takeWhile _ _
        rcases parseIpv4_spec c.src c.pos _ _ hsplit hall hstop with ⟨ip, hi, he⟩ | ⟨hno, p, he⟩
        · rw [he] at e0
          simp only at e0
          have h4 := octets_length hi
          generalize hx : c.rest.takeWhile csHostname.mem = x at *
          have hxl : c.pos + x.length ≤ c.src.length := by
            rw [hsplit] at hlen; simp only [List.length_append] at hlen; omega
          have st1 := Step.setPos hc (p := c.pos + x.length) (by omega) hxl
          by_cases h2 : (c.setPos (c.pos + x.length)).used + 4 ≤ (c.setPos (c.pos + x.length)).cap
          · rw [alloc_ok _ 4 h2] at e0
            have h2 : c.used + 4 ≤ c.cap := h2
            match ip, h4 with
            | [a, b, d, e], _ =>
              refine .of_ok e0 ?_ trivial ?_ ?_
              · exact ⟨rfl, rfl, rfl, by show c.pos ≤ c.pos + x.length; omega, hxl, by show c.used ≤ c.used + 4; omega, h2, ErrsIn.refl⟩
              · refine line_of_noCR x _ hsplit rfl (fun b hb e => ?_)
                subst e; exact absurd (hall _ hb) (by decide +kernel)
              · show c.used + 4 ≤ c.used + 1 * (c.pos + x.length - c.pos) + 16
                omega
          · rw [alloc_no _ 4 h2] at e0
            exact .of_none e0 (st1.addError _) (by simp [Ctx.addError, Ctx.setPos])
        · rw [he] at e0
          exact SafeAt.congr e0 (hname (Or.inr hno))

/-- `ParseUInt` moves over digits only -/
theorem parseUInt_text (c : Ctx) (hc : Inv c) : Step c (c.setPos (parseUInt c.src c.pos).newPos) ∧ Line c (c.setPos (parseUInt c.src c.pos).newPos) := by
  have hr := takeWhile_drop_split csDigit.mem c.rest
  have hall : InSet csDigit (c.rest.takeWhile csDigit.mem) := inSet_takeWhile _ _
  have hstop : NotIn csDigit (c.rest.drop (c.rest.takeWhile csDigit.mem).length) := by
    intro b hb
    have h1 := runLen_stop csDigit.mem c.rest b
    rw [runLen_eq_takeWhile] at h1
    exact h1 hb
  have hlen := rest_length c hc.pos
  generalize c.rest.takeWhile csDigit.mem = x at *
  have hpu := parseUInt_run c.src c.pos _ _ hr hall hstop
  have hnp : (parseUInt c.src c.pos).newPos = c.pos + x.length := by
    by_cases hx : x = []
    · rw [hpu.1 hx]; simp [hx]
    · exact (hpu.2 hx).2.2
  rw [hnp]
  have : c.rest.length = x.length + (c.rest.drop x.length).length := by
    conv => lhs; rw [hr]
    simp only [List.length_append]
  refine ⟨Step.setPos hc (by omega) (by omega), line_of_noCR x _ hr rfl (fun b hb e => ?_)⟩
  subst e; exact absurd (hall _ hb) (by decide +kernel)

/-- **C17, C28–C32** whatever `SipHostPort.Parse` accepts is a well formed host and port; the parser moves forward inside the input, never
passes a line end, reports every failure, and never panics or hangs given memory. -/
theorem hostport_safe (net : Net) (hnet : net.Ok) : Safe 0 true 1 16 (HostPort.WF net) (HostPort.parse net) := by
  intro c hc
  have : SafeAt 0 true 1 (16 + 0) (HostPort.WF net) (HostPort.parse net) c := by
    refine SafeAt.bind (SafeAt.orErr (host_safe net hnet c hc)) (fun h c1 _ hh hc1 => SafeAt.peek ?_)
    rcases hcur : c1.cur? with _ | b
    · exact SafeAt.pure hc1 ⟨hh, by simp⟩
    · by_cases hb : b = 0x3a
      · subst hb
        refine SafeAt.skip1 hc1 hcur (by decide) (fun hc2 => SafeAt.get ?_)
        obtain ⟨st, hl⟩ := parseUInt_text (c1.adv 1) hc2
        refine SafeAt.after (p' := (if !(parseUInt (c1.adv 1).src (c1.adv 1).pos).ok then P.err else
          if (parseUInt (c1.adv 1).src (c1.adv 1).pos).digit > 0xffff then P.err else
          pure ⟨h, some (u16 (parseUInt (c1.adv 1).src (c1.adv 1).pos).digit)⟩ : P HostPort)) rfl st hl rfl ?_
        by_cases h1 : (!(parseUInt (c1.adv 1).src (c1.adv 1).pos).ok) = true
        · rw [if_pos h1]; exact SafeAt.err st.inv
        · rw [if_neg h1]
          by_cases h2 : (parseUInt (c1.adv 1).src (c1.adv 1).pos).digit > 0xffff
          · rw [if_pos h2]; exact SafeAt.err st.inv
          · rw [if_neg h2]
            refine SafeAt.pure st.inv ⟨hh, ?_⟩
            intro p hp
            simp only [Option.mem_def, Option.some.injEq] at hp
            rw [← hp, u16]; omega
      · dsimp only
        split
        · rename_i heq; exact absurd (Option.some.inj heq) hb
        · exact SafeAt.pure hc1 ⟨hh, by simp⟩
  exact this

/-- an instance of the two functions of package net, knowing one address, that meets the assumptions -/
def Net.sample : Net := ⟨fun t => if t = str "::1" ∨ t = str "0:0:0:0:0:0:0:1" then some [0,0,0,0,0,0,0,0,0,0,0,0,0,0,0,1] else none, fun _ => str "::1"⟩

theorem Net.sample_ok : Net.sample.Ok where
  noCR t ip h := by
    simp only [Net.sample] at h
    split at h
    · rename_i h'; rcases h' with rfl | rfl <;> decide +kernel
    · cases h
  back t ip h := by
    simp only [Net.sample] at h ⊢
    split at h
    · cases h; decide +kernel
    · cases h
  chars t ip h := by simp only [Net.sample]; decide +kernel

/-- the hypotheses are met by an IPv4 address, an IPv6 reference and a name that only looks like an address; and the theorem says what happens -/
example : HostPort.WF Net.sample ⟨.ipv4 192 0 2 255, some 5060⟩ ∧ HostPort.WF Net.sample ⟨.ipv6 [0,0,0,0,0,0,0,0,0,0,0,0,0,0,0,1], none⟩ ∧
    HostPort.parse Net.sample { src := str "192.0.2.255:5060;a", cap := 100 } = .ok (some ⟨.ipv4 192 0 2 255, some 5060⟩, { src := str "192.0.2.255:5060;a", pos := 16, used := 12, cap := 100 }) ∧
    HostPort.parse Net.sample { src := str "[0:0:0:0:0:0:0:1]>", cap := 100 } = .ok (some ⟨.ipv6 [0,0,0,0,0,0,0,0,0,0,0,0,0,0,0,1], none⟩, { src := str "[0:0:0:0:0:0:0:1]>", pos := 17, used := 24, cap := 100 }) ∧
    HostPort.parse Net.sample { src := str "1.2.3.256", cap := 100 } = .ok (some ⟨.name (str "1.2.3.256"), none⟩, { src := str "1.2.3.256", pos := 9, used := 19, cap := 100 }) :=
  ⟨⟨trivial, by simp⟩, ⟨⟨str "::1", by decide +kernel⟩, by simp⟩, by decide +kernel, by decide +kernel, by decide +kernel⟩

/-- **C17** what `SipHostPort.Parse` makes of a host followed by `:` and digits: the port is the value of the digits if that value, *modulo
2^64*, is at most 65535; otherwise the parse fails. -/
theorem hostport_port (net : Net) (hnet : net.Ok) (h : Host) (hw : h.WF net) (d y : Bytes) (hd : InSet csDigit d) (hne : d ≠ []) (hy : NotIn csDigit y)
    (c : Ctx) (hr : c.rest = h.encode net ++ 0x3a :: d ++ y) (hp : c.pos ≤ c.src.length) (hu : c.used + h.cost < c.cap) :
    (decVal d % 2 ^ 64 ≤ 65535 → HostPort.parse net c = .ok (some ⟨h, some (decVal d % 2 ^ 64)⟩, c.eat ((h.encode net).length + 1 + d.length) h.cost)) ∧
    (decVal d % 2 ^ 64 > 65535 → ∃ c', HostPort.parse net c = .ok (none, c') ∧ c'.errs.length = c.errs.length + 1) := by
  have hb := host_roundtrip net hnet c.flags h hw c (0x3a :: d ++ y) rfl (by rw [hr]; simp) (by intro b hb; simp at hb; subst hb; decide +kernel) hp hu
  have hlen := rest_length c hp
  rw [hr] at hlen; simp only [List.length_append, List.length_cons, List.cons_append, List.append_assoc] at hlen
  have hr1 := Ctx.rest_eat c (h.encode net) (0x3a :: d ++ y) h.cost (by rw [hr]; simp)
  have e1 : HostPort.parse net c = _ := P.bind_ok (P.orErr_ok hb)
  generalize hc1 : c.eat (h.encode net).length h.cost = c1 at *
  have hcur : c1.cur? = some 0x3a := by rw [cur_eq_head, hr1]; rfl
  rw [P.peek_bind, hcur] at e1
  have hr2 : c1.src.drop (c1.pos + 1) = d ++ y := by
    have := drop_add_of_drop (r := 0x3a :: (d ++ y)) (by exact hr1) 1
    simpa using this
  obtain ⟨p1, p2, p3⟩ := (parseUInt_run c1.src (c1.pos + 1) d y hr2 hd hy).2 hne
  have e2 : HostPort.parse net c = (if !(parseUInt c1.src (c1.pos + 1)).ok then P.err else
          if (parseUInt c1.src (c1.pos + 1)).digit > 0xffff then P.err else
          pure ⟨h, some (u16 (parseUInt c1.src (c1.pos + 1)).digit)⟩ : P HostPort) (c1.setPos (parseUInt c1.src (c1.pos + 1)).newPos) := e1
  rw [p1, p2, p3] at e2
  simp only [Bool.not_true, Bool.false_eq_true, if_false] at e2
  constructor
  · intro hv
    rw [if_neg (by omega)] at e2
    rw [e2, u16, Nat.mod_eq_of_lt (by omega : decVal d % 18446744073709551616 < 65536)]
    subst hc1
    show Out.ok (some _, _) = Out.ok (some _, _)
    simp only [Ctx.eat, Ctx.setPos, Out.ok.injEq, Prod.mk.injEq, Ctx.mk.injEq, true_and, and_true]; omega
  · intro hv
    rw [if_pos (by omega)] at e2
    refine ⟨_, e2, ?_⟩
    subst hc1
    simp [Ctx.addError, Ctx.setPos, Ctx.eat]

/-- **C17, negation**: a port of 2^64 + 5060 is accepted and becomes 5060. -/
theorem hostport_port_wraps : HostPort.parse Net.sample { src := str "h:18446744073709556676;", cap := 100 } =
    .ok (some ⟨.name (str "h"), some 5060⟩, { src := str "h:18446744073709556676;", pos := 22, used := 11, cap := 100 }) := by decide +kernel

end Sip
