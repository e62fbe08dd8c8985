import Verif.Lemmas.Trie
import Verif.Props.Charset
import Verif.Props.Str
/-!
# C15, C16: method and header name recognition

The specification is a table of names; a name is recognised iff it stands at the position and is followed by the end of the input or by a
byte that is not a token character of RFC 3261 (`Rfc.token`).
-/
namespace Sip

/-- the text `y` does not go on with a token character -/
def TokenEnd (y : Bytes) : Prop := ∀ b ∈ y.head?, Rfc.token b = false

theorem endOfToken_iff (y : Bytes) : endOfToken y = true ↔ TokenEnd y := by
  cases y with
  | nil => simp [endOfToken, TokenEnd]
  | cons b z => simp [endOfToken, TokenEnd, (charset_sip b).1]

/-- The methods of RFC 3261, 3262, 3265, 3311, 3428, 3515, 3903, 6086 known to the library, with the values of the `SIP_METHOD_...` constants. -/
def methodTable : List (String × Nat) :=
  [("INVITE", 1), ("PRACK", 2), ("UPDATE", 3), ("INFO", 4), ("ACK", 5), ("BYE", 6), ("REGISTER", 7), ("SUBSCRIBE", 8), ("NOTIFY", 9),
   ("REFER", 10), ("OPTIONS", 11), ("MESSAGE", 12), ("PUBLISH", 13)]

theorem testAll_exact (n l : Bytes) : Pat.testAll (n.map (Pat.mk false)) l = true ↔ ∃ y, l = n ++ y := by
  induction n generalizing l with
  | nil => simp [Pat.testAll]
  | cons c n ih =>
    cases l with
    | nil => simp [Pat.testAll]
    | cons b bs =>
      simp only [List.map_cons, Pat.testAll, Bool.and_eq_true, ih, Pat.test, Bool.false_eq_true, if_false, beq_iff_eq, List.cons_append,
        List.cons.injEq]
      exact ⟨fun ⟨h, y, hy⟩ => ⟨y, h, hy⟩, fun ⟨y, h, hy⟩ => ⟨h, y, hy⟩⟩

theorem methodTrie_paths :
    (∀ x ∈ methodTrie.paths, x ∈ methodTable.map fun e => ((str e.1).map (Pat.mk false), e.2)) ∧
    (∀ x ∈ methodTable.map fun e => ((str e.1).map (Pat.mk false), e.2), x ∈ methodTrie.paths) := by decide +kernel

theorem methodTrie_det : methodTrie.det = true := by decide +kernel

theorem methodTable_tokens : ∀ e ∈ methodTable, ∀ b ∈ str e.1, isSipToken b = true := by decide +kernel

/-- **C15** `GetSipMethodIndex` returns a known index `i` iff the name of method `i` stands at the position and the token ends there; the
position is then moved just behind the name. -/
theorem method_index_iff (src : Bytes) (pos i q : Nat) (hi : i ≠ 0) :
    getSipMethodIndex src pos = .ok (i, q) ↔
      ∃ name y, (name, i) ∈ methodTable ∧ src.drop pos = str name ++ y ∧ TokenEnd y ∧ q = pos + (str name).length := by
  unfold getSipMethodIndex Trie.lookup
  constructor
  · intro h
    split at h
    · simp only [Out.ok.injEq, Prod.mk.injEq] at h; exact absurd h.1.symm hi
    · obtain ⟨ps, h1, h2, h3, h4⟩ := Trie.run_sound _ _ _ _ _ h hi
      have := methodTrie_paths.1 _ h1
      simp only [List.mem_map, Prod.mk.injEq] at this
      obtain ⟨⟨n, j⟩, hm, rfl, rfl⟩ := this
      obtain ⟨y, hy⟩ := (testAll_exact _ _).mp h2
      refine ⟨n, y, hm, hy, ?_, by simpa using h4⟩
      rw [hy] at h3
      simpa [endOfToken_iff] using h3
  · rintro ⟨n, y, hm, hy, he, rfl⟩
    have hne : str n ≠ [] := by
      intro h
      have : ∀ e ∈ methodTable, str e.1 ≠ [] := by decide +kernel
      exact this _ hm h
    have hlt : ¬ pos ≥ src.length := by
      intro h
      rw [List.drop_eq_nil_of_le h] at hy
      exact hne (List.append_eq_nil_iff.mp hy.symm).1
    rw [if_neg hlt]
    have := Trie.run_complete methodTrie methodTrie_det (src.drop pos) pos i _
      (methodTrie_paths.2 _ (List.mem_map.mpr ⟨_, hm, rfl⟩)) ((testAll_exact _ _).mpr ⟨y, hy⟩)
      (by
        intro b hb
        rw [hy, List.length_map, List.take_left] at hb
        exact methodTable_tokens _ hm b hb)
      (by rw [hy, List.length_map, List.drop_left, endOfToken_iff]; exact he)
    simpa using this

/-- a known method: `INVITE` in a request line -/
example : getSipMethodIndex (str "INVITE sip:a@b") 0 = .ok (1, 6) := by decide +kernel
/-- a longer token is not the method -/
example : getSipMethodIndex (str "INVITED sip:a@b") 0 = .ok (0, 6) := by decide +kernel

/-- **C29 for methods** `GetSipMethodIndex` panics exactly when the rest of the input is `P`, `IN` or `RE`. -/
theorem method_index_panics (src : Bytes) (pos : Nat) :
    getSipMethodIndex src pos = .panic ↔ src.drop pos = str "P" ∨ src.drop pos = str "IN" ∨ src.drop pos = str "RE" := by
  unfold getSipMethodIndex Trie.lookup
  constructor
  · intro h
    split at h
    · cases h
    · next hp =>
      obtain ⟨ps, h1, h2, h3⟩ := Trie.run_panic _ _ _ h
      have hs : ∀ x ∈ methodTrie.stops, x ∈ [[], (str "P").map (Pat.mk false), (str "IN").map (Pat.mk false), (str "RE").map (Pat.mk false)] := by
        decide +kernel
      have h1 := hs _ h1
      simp only [List.mem_cons, List.not_mem_nil, or_false] at h1
      have key : ∀ n : Bytes, ps = n.map (Pat.mk false) → src.drop pos = n := by
        rintro n rfl
        obtain ⟨y, hy⟩ := (testAll_exact _ _).mp h2
        rw [hy] at h3
        simp at h3
        rw [hy, h3, List.append_nil]
      rcases h1 with rfl | h | h | h
      · simp at h3; omega
      · exact Or.inl (key _ h)
      · exact Or.inr (Or.inl (key _ h))
      · exact Or.inr (Or.inr (key _ h))
  · intro h
    have hlt : ¬ pos ≥ src.length := by
      intro hp
      rw [List.drop_eq_nil_of_le hp] at h
      revert h; decide +kernel
    rw [if_neg hlt]
    rcases h with h | h | h <;> rw [h]
    · exact Trie.run_panics _ methodTrie_det _ _ ((str "P").map (Pat.mk false)) (by decide +kernel) (by decide +kernel) (by decide +kernel) rfl
        (fun i hi => by have := methodTrie_paths.1 _ hi; revert this; simp only [List.mem_map, Prod.mk.injEq]; rintro ⟨e, he, h1, h2⟩; clear h2; revert h1; revert e; decide +kernel)
    · exact Trie.run_panics _ methodTrie_det _ _ ((str "IN").map (Pat.mk false)) (by decide +kernel) (by decide +kernel) (by decide +kernel) rfl
        (fun i hi => by have := methodTrie_paths.1 _ hi; revert this; simp only [List.mem_map, Prod.mk.injEq]; rintro ⟨e, he, h1, h2⟩; clear h2; revert h1; revert e; decide +kernel)
    · exact Trie.run_panics _ methodTrie_det _ _ ((str "RE").map (Pat.mk false)) (by decide +kernel) (by decide +kernel) (by decide +kernel) rfl
        (fun i hi => by have := methodTrie_paths.1 _ hi; revert this; simp only [List.mem_map, Prod.mk.injEq]; rintro ⟨e, he, h1, h2⟩; clear h2; revert h1; revert e; decide +kernel)

/-- Otherwise it returns, with a position that has only passed token characters. -/
theorem method_index_returns (src : Bytes) (pos : Nat) (h : getSipMethodIndex src pos ≠ .panic) :
    ∃ i n, getSipMethodIndex src pos = .ok (i, pos + n) ∧ n ≤ (src.drop pos).length ∧ ∀ b ∈ (src.drop pos).take n, Rfc.token b = true := by
  cases hr : getSipMethodIndex src pos with
  | panic => exact absurd hr h
  | hang =>
    exfalso
    unfold getSipMethodIndex Trie.lookup at hr
    split at hr
    · cases hr
    · exact Trie.run_no_hang _ _ _ hr
  | ok x =>
    obtain ⟨i, q⟩ := x
    unfold getSipMethodIndex Trie.lookup at hr
    split at hr
    · simp only [Out.ok.injEq, Prod.mk.injEq] at hr; exact ⟨i, 0, by simp [hr.2], by simp, by simp⟩
    · obtain ⟨n, h1, h2, h3⟩ := Trie.run_pos _ _ _ _ _ hr
      refine ⟨i, n, by rw [h2], h1, fun b hb => ?_⟩
      obtain ⟨p, hp, ht⟩ := h3 b hb
      have : ∀ p ∈ methodTrie.pats, p.low = false ∧ Rfc.token p.ch = true := by decide +kernel
      obtain ⟨g1, g2⟩ := this p hp
      simp only [Pat.test, g1, Bool.false_eq_true, if_false, beq_iff_eq] at ht
      rw [ht]; exact g2

/-! ## Header names -/

/-- The header names the library knows, lower case, with the values of the `SIP_HDR_...` constants (SipHeadersIndex.go:5-127) and compact forms.
The spellings are the ones of the code: entries 1-3 and 63 are not the registered names, see `header_names_missing`. -/
def headerTable : List (String × Nat) :=
  [("accpet", 1), ("accpet-encoding", 2), ("accpet-language", 3), ("alert-info", 4), ("allow", 5),
   ("authentication-info", 6), ("authorization", 7), ("call-id", 8), ("i", 8), ("call-info", 9),
   ("contact", 10), ("m", 10), ("content-disposition", 11), ("content-encoding", 12), ("e", 12),
   ("content-language", 13), ("content-length", 14), ("l", 14), ("content-type", 15), ("c", 15),
   ("cseq", 16), ("date", 17), ("error-info", 18), ("expires", 19), ("from", 20),
   ("f", 20), ("in-reply-to", 21), ("max-forwards", 22), ("min-expires", 23), ("mime-version", 24),
   ("organization", 25), ("priority", 26), ("proxy-authenticate", 27), ("proxy-authorization", 28), ("proxy-require", 29),
   ("record-route", 30), ("reply-to", 31), ("require", 32), ("retry-after", 33), ("route", 34),
   ("server", 35), ("subject", 36), ("s", 36), ("supported", 37), ("k", 37),
   ("timestamp", 38), ("to", 39), ("t", 39), ("unsupported", 40), ("user-agent", 41),
   ("via", 42), ("v", 42), ("warning", 43), ("www-authenticate", 44), ("rseq", 45),
   ("rack", 46), ("subscription-state", 47), ("allow-events", 48), ("u", 48), ("event", 49),
   ("o", 49), ("p-media-authorization", 50), ("privacy", 51), ("p-asserted-identity", 52), ("p-preferred-identity", 53),
   ("reason", 54), ("path", 55), ("security-client", 56), ("security-server", 57), ("security-verify", 58),
   ("p-associated-uri", 59), ("p-called-party-id", 60), ("p-visited-network-id", 61), ("p-access-network-info", 62), ("p-charging-function-address", 63),
   ("p-charging-vector", 64), ("refer-to", 65), ("r", 65), ("p-dcs-trace-party-id", 66), ("p-dcs-osps", 67),
   ("p-dcs-billing-info", 68), ("p-dcs-laes", 69), ("p-dcs-redirect", 70), ("service-route", 71), ("accept-contact", 72),
   ("a", 72), ("reject-contact", 73), ("j", 73), ("request-disposition", 74), ("replaces", 75),
   ("referred-by", 76), ("b", 76), ("sip-etag", 77), ("sip-if-match", 78), ("join", 79),
   ("content-transfer-encoding", 80), ("content-id", 81), ("content-description", 82), ("session-expires", 83), ("x", 83),
   ("min-se", 84), ("history-info", 85), ("resource-priority", 86), ("accept-resource-priority", 87), ("p-user-database", 88),
   ("identity", 89), ("identity-info", 90), ("refer-sub", 91), ("target-dialog", 92), ("p-answer-state", 93),
   ("p-profile-key", 94), ("p-early-media", 95), ("p-refused-uri-list", 96), ("permission-missing", 97), ("trigger-consent", 98),
   ("answer-mode", 99), ("priv-answer-mode", 100), ("max-breadth", 101), ("p-served-user", 102), ("flow-timer", 103),
   ("suppress-if-match", 104), ("diversion", 105), ("p-asserted-service", 106), ("p-preferred-service", 107), ("info-package", 108),
   ("recv-info", 109), ("geolocation", 110), ("geolocation-routing", 111), ("geolocation-error", 112), ("policy-id", 113),
   ("policy-contact", 114), ("feature-caps", 115), ("p-private-network-indication", 116), ("session-id", 117), ("user-to-user", 118),
   ("refer-events-at", 119)]

/-- the byte `b` of the input counts as the byte `c` of a header name: equal ignoring case -/
def SameLetters (w n : Bytes) : Prop := w.map asciiLower = n

/-- a byte test that is a case-insensitive letter test or a test for '-' -/
def goodPats : List Pat := (List.range 26).map (fun k => ⟨true, UInt8.ofNat (0x61 + k)⟩) ++ [⟨false, 0x2d⟩, ⟨true, 0x2d⟩]

theorem goodPats_test : ∀ p ∈ goodPats, ∀ b : UInt8, p.test b = true ↔ asciiLower b = p.ch ∨ (b = 0x0d ∧ p = ⟨true, 0x2d⟩) := by decide +kernel

theorem goodPats_token : ∀ p ∈ goodPats, ∀ b : UInt8, asciiLower b = p.ch → isSipToken b = true := by decide +kernel

theorem testAll_names (ps : List Pat) (hg : ∀ p ∈ ps, p ∈ goodPats) (l : Bytes) (h0 : ∀ b ∈ l.take ps.length, b ≠ 0x0d) :
    Pat.testAll ps l = true ↔ ∃ w y, l = w ++ y ∧ SameLetters w (ps.map (·.ch)) := by
  unfold SameLetters
  induction ps generalizing l with
  | nil => simp [Pat.testAll]
  | cons p ps ih =>
    cases l with
    | nil => simp [Pat.testAll]
    | cons b bs =>
      have := ih (fun q hq => hg q (by simp [hq])) bs (fun c hc => h0 c (by simp [hc]))
      simp only [Pat.testAll, Bool.and_eq_true, this, goodPats_test p (hg p (by simp)) b]
      have hb : b ≠ 0x0d := h0 b (by simp)
      constructor
      · rintro ⟨h1 | h1, w, y, rfl, h2⟩
        · exact ⟨b :: w, y, rfl, by simp [h1, h2]⟩
        · exact absurd h1.1 hb
      · rintro ⟨w, y, h1, h2⟩
        cases w with
        | nil => simp at h2
        | cons x w =>
          simp only [List.cons_append, List.cons.injEq] at h1
          simp only [List.map_cons, List.cons.injEq] at h2
          exact ⟨Or.inl (by rw [h1.1]; exact h2.1), w, y, h1.2, h2.2⟩

theorem headerTrie_paths :
    (∀ x ∈ headerTrie.paths, (x.1.map (·.ch), x.2) ∈ headerTable.map fun e => (str e.1, e.2)) ∧
    (∀ x ∈ headerTable.map fun e => (str e.1, e.2), x ∈ headerTrie.paths.map fun y => (y.1.map (·.ch), y.2)) := by decide +kernel

theorem headerTrie_det : headerTrie.det = true := by decide +kernel

theorem headerTrie_good : ∀ p ∈ headerTrie.pats, p ∈ goodPats := by decide +kernel

theorem Trie.paths_pats (t : Trie) : ∀ x ∈ t.paths, ∀ p ∈ x.1, p ∈ t.pats := by
  induction t with
  | fail => simp [Trie.paths]
  | acc i k ih =>
    intro x hx p hp
    simp only [Trie.paths, List.mem_cons] at hx
    rcases hx with rfl | hx
    · simp at hp
    · exact ih x hx p hp
  | byte q k ih =>
    intro x hx p hp
    simp only [Trie.paths, List.mem_map] at hx
    obtain ⟨y, hy, rfl⟩ := hx
    simp only [List.mem_cons] at hp
    simp only [Trie.pats, List.mem_cons]
    exact hp.imp id (ih y hy p)
  | lits qs k ih =>
    intro x hx p hp
    simp only [Trie.paths, List.mem_map] at hx
    obtain ⟨y, hy, rfl⟩ := hx
    simp only [List.mem_append] at hp
    simp only [Trie.pats, List.mem_append]
    exact hp.imp id (ih y hy p)
  | case q k els ih1 ih2 =>
    intro x hx p hp
    simp only [Trie.paths, List.mem_append, List.mem_map] at hx
    simp only [Trie.pats, List.mem_cons, List.mem_append]
    rcases hx with ⟨y, hy, rfl⟩ | hx
    · simp only [List.mem_cons] at hp
      rcases hp with hp | hp
      · exact Or.inl hp
      · exact Or.inr (Or.inl (ih1 y hy p hp))
    · exact Or.inr (Or.inr (ih2 x hx p hp))

theorem Trie.stops_pats (t : Trie) : ∀ x ∈ t.stops, ∀ p ∈ x, p ∈ t.pats := by
  induction t with
  | fail => simp [Trie.stops]
  | acc i k ih => exact fun x hx p hp => ih x hx p hp
  | byte q k ih =>
    intro x hx p hp
    simp only [Trie.stops, List.mem_map] at hx
    obtain ⟨y, hy, rfl⟩ := hx
    simp only [List.mem_cons] at hp
    simp only [Trie.pats, List.mem_cons]
    exact hp.imp id (ih y hy p)
  | lits qs k ih =>
    intro x hx p hp
    simp only [Trie.stops, List.mem_map] at hx
    obtain ⟨y, hy, rfl⟩ := hx
    simp only [List.mem_append] at hp
    simp only [Trie.pats, List.mem_append]
    exact hp.imp id (ih y hy p)
  | case q k els ih1 ih2 =>
    intro x hx p hp
    simp only [Trie.stops, List.mem_cons, List.mem_append, List.mem_map] at hx
    simp only [Trie.pats, List.mem_cons, List.mem_append]
    rcases hx with rfl | ⟨y, hy, rfl⟩ | hx
    · simp at hp
    · simp only [List.mem_cons] at hp
      rcases hp with hp | hp
      · exact Or.inl hp
      · exact Or.inr (Or.inl (ih1 y hy p hp))
    · exact Or.inr (Or.inr (ih2 x hx p hp))

/-- **C16** A name of the table, written with any capitalisation and followed by the end of the token, is recognised as its header. -/
theorem header_index_complete (src : Bytes) (pos i : Nat) (name : String) (w y : Bytes) (hm : (name, i) ∈ headerTable)
    (hs : src.drop pos = w ++ y) (hw : SameLetters w (str name)) (he : TokenEnd y) :
    getSipHeaderIndex src pos = .ok (i, pos + w.length) := by
  have hp := headerTrie_paths.2 _ (List.mem_map.mpr ⟨_, hm, rfl⟩)
  simp only [List.mem_map, Prod.mk.injEq] at hp
  obtain ⟨⟨ps, j⟩, hp, h1, rfl⟩ := hp
  simp only at h1
  have hlen : w.length = ps.length := by
    have := congrArg List.length hw; rw [← h1] at this; simpa using this
  have hgood : ∀ p ∈ ps, p ∈ goodPats := fun p h => headerTrie_good p (Trie.paths_pats _ _ hp p h)
  have htok : ∀ b ∈ w, isSipToken b = true := by
    intro b hb
    have : asciiLower b ∈ ps.map (·.ch) := by rw [h1, ← hw]; exact List.mem_map.mpr ⟨b, hb, rfl⟩
    obtain ⟨p, hp1, hp2⟩ := List.mem_map.mp this
    exact goodPats_token p (hgood p hp1) b hp2.symm
  have hne : str name ≠ [] := by
    have : ∀ e ∈ headerTable, str e.1 ≠ [] := by decide +kernel
    exact this _ hm
  have hlt : ¬ pos ≥ src.length := by
    intro h
    rw [List.drop_eq_nil_of_le h] at hs
    have := (List.append_eq_nil_iff.mp hs.symm).1
    rw [this] at hw; exact hne hw.symm
  unfold getSipHeaderIndex Trie.lookup
  rw [if_neg hlt, hs, hlen]
  have ht : (w ++ y).take ps.length = w := by rw [← hlen]; simp
  have hd : (w ++ y).drop ps.length = y := by rw [← hlen]; simp
  refine Trie.run_complete _ headerTrie_det _ _ _ ps hp ?_ (by rw [ht]; exact htok) (by rw [hd, endOfToken_iff]; exact he)
  rw [testAll_names ps hgood _ (by
    rw [ht]; intro b hb h0; subst h0
    have := htok _ hb; revert this; decide +kernel)]
  exact ⟨w, y, rfl, by rw [h1]; exact hw⟩

/-- `Call-ID` in mixed case meets the hypotheses -/
example : getSipHeaderIndex (str "cALL-iD: x") 0 = .ok (8, 7) := by decide +kernel

/-- **C16** What is recognised is a name of the table, ignoring case, followed by the end of the token – as long as no CR is passed
over (`header_cr_is_dash`); see `header_index_sound` for all inputs. -/
theorem header_index_sound_noCr (src : Bytes) (pos i q : Nat) (hi : i ≠ 0) (h : getSipHeaderIndex src pos = .ok (i, q))
    (h0 : ∀ b ∈ (src.drop pos).take (q - pos), b ≠ 0x0d) :
    ∃ name w y, (name, i) ∈ headerTable ∧ src.drop pos = w ++ y ∧ SameLetters w (str name) ∧ TokenEnd y ∧ q = pos + w.length := by
  unfold getSipHeaderIndex Trie.lookup at h
  split at h
  · simp only [Out.ok.injEq, Prod.mk.injEq] at h; exact absurd h.1.symm hi
  · obtain ⟨ps, h1, h2, h3, h4⟩ := Trie.run_sound _ _ _ _ _ h hi
    rw [h4, Nat.add_sub_cancel_left] at h0
    have hgood : ∀ p ∈ ps, p ∈ goodPats := fun p h => headerTrie_good p (Trie.paths_pats _ _ h1 p h)
    obtain ⟨w, y, g1, g2⟩ := (testAll_names ps hgood _ h0).mp h2
    have := headerTrie_paths.1 _ h1
    simp only [List.mem_map, Prod.mk.injEq] at this
    obtain ⟨⟨n, j⟩, hm, e1, rfl⟩ := this
    have hlen : w.length = ps.length := by
      have := congrArg List.length g2; simpa using this
    refine ⟨n, w, y, hm, g1, by rw [e1]; exact g2, ?_, by rw [h4, hlen]⟩
    rw [g1, ← hlen, List.drop_left] at h3
    exact (endOfToken_iff y).mp h3

/-- equal after lowering the letters and reading a CR as `-` -/
def crDash (b : UInt8) : UInt8 := if b = 0x0d then 0x2d else asciiLower b

theorem goodPats_crDash : ∀ p ∈ goodPats, ∀ b : UInt8, p.test b = true → crDash b = p.ch := by decide +kernel

theorem testAll_crDash (ps : List Pat) (hg : ∀ p ∈ ps, p ∈ goodPats) (l : Bytes) (h : Pat.testAll ps l = true) :
    ∃ w y, l = w ++ y ∧ w.map crDash = ps.map (·.ch) := by
  induction ps generalizing l with
  | nil => exact ⟨[], l, rfl, rfl⟩
  | cons p ps ih =>
    cases l with
    | nil => simp [Pat.testAll] at h
    | cons b bs =>
      simp only [Pat.testAll, Bool.and_eq_true] at h
      obtain ⟨w, y, rfl, h2⟩ := ih (fun q hq => hg q (by simp [hq])) bs h.2
      exact ⟨b :: w, y, rfl, by simp only [List.map_cons, h2, goodPats_crDash p (hg p (by simp)) b h.1]⟩

/-- **C16** Whatever is recognised - for every input - is a name of the table followed by the end of the token, up to letter case and up to CRs in the place of dashes. -/
theorem header_index_sound (src : Bytes) (pos i q : Nat) (hi : i ≠ 0) (h : getSipHeaderIndex src pos = .ok (i, q)) :
    ∃ name w y, (name, i) ∈ headerTable ∧ src.drop pos = w ++ y ∧ w.map crDash = str name ∧ TokenEnd y ∧ q = pos + w.length := by
  unfold getSipHeaderIndex Trie.lookup at h
  split at h
  · simp only [Out.ok.injEq, Prod.mk.injEq] at h; exact absurd h.1.symm hi
  · obtain ⟨ps, h1, h2, h3, h4⟩ := Trie.run_sound _ _ _ _ _ h hi
    have hgood : ∀ p ∈ ps, p ∈ goodPats := fun p h => headerTrie_good p (Trie.paths_pats _ _ h1 p h)
    obtain ⟨w, y, g1, g2⟩ := testAll_crDash ps hgood _ h2
    have := headerTrie_paths.1 _ h1
    simp only [List.mem_map, Prod.mk.injEq] at this
    obtain ⟨⟨n, j⟩, hm, e1, rfl⟩ := this
    have hlen : w.length = ps.length := by
      have := congrArg List.length g2; simpa using this
    refine ⟨n, w, y, hm, g1, by rw [e1]; exact g2, ?_, by rw [h4, hlen]⟩
    rw [g1, ← hlen, List.drop_left] at h3
    exact (endOfToken_iff y).mp h3

/-- **C16, negation**: a CR is taken for the `-` of a header name. -/
theorem header_cr_is_dash :
    getSipHeaderIndex (str "Refer\rTo: x") 0 = .ok (65, 8) ∧ getSipHeaderIndex (str "P\rEarly-Media: x") 0 = .ok (95, 13) := by
  decide +kernel

/-- **C16, negation**: registered names (and compact forms) of headers the library has constants and table entries for, that it does not
recognise: Accept, Accept-Encoding, Accept-Language (spelled "accpet" in the code), P-Charging-Function-Addresses, and the compact forms
`d` (Request-Disposition), `y` (Identity) and `n` (Identity-Info). -/
theorem header_names_missing :
    ∀ n ∈ ["Accept: x", "Accept-Encoding: x", "Accept-Language: x", "P-Charging-Function-Addresses: x", "d: x", "y: x", "n: x"],
      (getSipHeaderIndex (str n) 0).all (fun r => r.1 = 0) = true := by decide +kernel

/-- the text left in the input for which `GetSipHeaderIndex` panics, in lower case -/
def headerStops : List String :=
  ["acc", "accept-", "accpet-", "al", "auth", "call-i", "cont", "content-", "content-d", "content-l", "content-t", "d", "geolocation-", "in",
   "max-", "mi", "min-", "p", "p-", "p-a", "p-ass", "p-asserted-", "p-c", "p-charging-", "p-dcs-", "p-pr", "p-preferred-", "policy-", "pr",
   "pri", "priv", "proxy-", "proxy-auth", "re", "rec", "refer", "refer-", "repl", "requ", "se", "security-", "serv", "session-", "sip-", "su",
   "sub", "supp", "user-", "w"]

/-- **C29 for header names** `GetSipHeaderIndex` panics exactly when the input ends inside one of these beginnings of names. -/
theorem header_index_panics (src : Bytes) (pos : Nat) (h0 : ∀ b ∈ src.drop pos, b ≠ 0x0d) :
    getSipHeaderIndex src pos = .panic ↔ ∃ n ∈ headerStops, SameLetters (src.drop pos) (str n) := by
  have hs1 : ∀ ps ∈ headerTrie.stops, ps = [] ∨ ps.map (·.ch) ∈ headerStops.map str ∨ ∃ x ∈ headerTrie.paths, x.1 = ps := by decide +kernel
  have hs2 : ∀ n ∈ headerStops.map str, n ∈ headerTrie.stops.map (fun ps => ps.map (·.ch)) ∧ n ∉ headerTable.map (fun e => str e.1) ∧ n ≠ [] := by
    decide +kernel
  unfold getSipHeaderIndex Trie.lookup
  constructor
  · intro h
    split at h
    · cases h
    · next hp =>
      obtain ⟨ps, h1, h2, h3⟩ := Trie.run_panic _ _ _ h
      have hgood : ∀ p ∈ ps, p ∈ goodPats := fun p h => headerTrie_good p (Trie.stops_pats _ _ h1 p h)
      obtain ⟨w, y, g1, g2⟩ := (testAll_names ps hgood _ (fun b hb => h0 b (List.mem_of_mem_take hb))).mp h2
      have hlen : w.length = ps.length := by
        have := congrArg List.length g2; simpa using this
      have hy : y = [] := by
        have : (w ++ y).length = ps.length := by rw [← g1]; exact h3
        simp at this
        apply List.eq_nil_of_length_eq_zero; omega
      subst hy
      rw [List.append_nil] at g1
      rcases hs1 ps h1 with rfl | h4 | ⟨⟨ps', i⟩, hx, rfl⟩
      · simp at h3; omega
      · obtain ⟨n, hn, e⟩ := List.mem_map.mp h4
        exact ⟨n, hn, by rw [g1, e]; exact g2⟩
      · -- an accepted name at the end of the input does not panic
        exfalso
        have := Trie.run_complete headerTrie headerTrie_det (src.drop pos) pos i _ hx h2
          (by
            intro b hb
            have hb' : b ∈ w := by rw [← g1]; exact List.mem_of_mem_take hb
            have : asciiLower b ∈ ps'.map (·.ch) := by rw [← g2]; exact List.mem_map.mpr ⟨b, hb', rfl⟩
            obtain ⟨p, hp1, hp2⟩ := List.mem_map.mp this
            exact goodPats_token p (hgood p hp1) b hp2.symm)
          (by rw [List.drop_eq_nil_of_le (Nat.le_of_eq h3)]; rfl)
        rw [this] at h; cases h
  · rintro ⟨n, hn, hw⟩
    obtain ⟨g1, g2, g3⟩ := hs2 _ (List.mem_map.mpr ⟨n, hn, rfl⟩)
    obtain ⟨ps, hps, e⟩ := List.mem_map.mp g1
    have hgood : ∀ p ∈ ps, p ∈ goodPats := fun p h => headerTrie_good p (Trie.stops_pats _ _ hps p h)
    have hlen : (src.drop pos).length = ps.length := by
      have := congrArg List.length hw; rw [← e] at this; simpa using this
    have hlt : ¬ pos ≥ src.length := by
      intro h
      rw [List.drop_eq_nil_of_le h] at hw
      exact g3 hw.symm
    rw [if_neg hlt]
    refine Trie.run_panics _ headerTrie_det _ _ ps hps ?_ ?_ hlen ?_
    · rw [testAll_names ps hgood _ (fun b hb => h0 b (List.mem_of_mem_take hb))]
      exact ⟨src.drop pos, [], by rw [List.append_nil], by rw [e]; exact hw⟩
    · intro b hb
      have : asciiLower b ∈ ps.map (·.ch) := by rw [e, ← hw]; exact List.mem_map.mpr ⟨b, hb, rfl⟩
      obtain ⟨p, hp1, hp2⟩ := List.mem_map.mp this
      exact goodPats_token p (hgood p hp1) b hp2.symm
    · intro i hi
      have := headerTrie_paths.1 _ hi
      simp only [List.mem_map, Prod.mk.injEq] at this
      obtain ⟨e', he', e1, _⟩ := this
      exact g2 (List.mem_map.mpr ⟨e', he', by rw [e1, e]⟩)

/-- the beginning of a header name at the end of the input panics -/
example : getSipHeaderIndex (str "Content-") 0 = .panic := by decide +kernel

/-- Otherwise it returns, with a position inside the input that has only passed token characters and CRs. -/
theorem header_index_returns (src : Bytes) (pos : Nat) (h : getSipHeaderIndex src pos ≠ .panic) :
    ∃ i n, getSipHeaderIndex src pos = .ok (i, pos + n) ∧ n ≤ (src.drop pos).length ∧
      ∀ b ∈ (src.drop pos).take n, Rfc.token b = true ∨ b = 0x0d := by
  cases hr : getSipHeaderIndex src pos with
  | panic => exact absurd hr h
  | hang =>
    exfalso
    unfold getSipHeaderIndex Trie.lookup at hr
    split at hr
    · cases hr
    · exact Trie.run_no_hang _ _ _ hr
  | ok x =>
    obtain ⟨i, q⟩ := x
    unfold getSipHeaderIndex Trie.lookup at hr
    split at hr
    · simp only [Out.ok.injEq, Prod.mk.injEq] at hr; exact ⟨i, 0, by simp [hr.2], by simp, by simp⟩
    · obtain ⟨n, h1, h2, h3⟩ := Trie.run_pos _ _ _ _ _ hr
      refine ⟨i, n, by rw [h2], h1, fun b hb => ?_⟩
      obtain ⟨p, hp, ht⟩ := h3 b hb
      have hg := headerTrie_good p hp
      rcases (goodPats_test p hg b).mp ht with h | h
      · left; rw [← (charset_sip b).1]; exact goodPats_token p hg b h
      · exact Or.inr h.1

end Sip
