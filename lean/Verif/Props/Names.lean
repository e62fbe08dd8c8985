import Verif.Props.HeadersSafe
import Verif.Model.Message
/-!
# C37: the names of the headers, against a list written from the RFCs

The list below is independent of the tables of the model: RFC 3261 section 20 (and 3262 for RSeq and RAck, 3327 for Path, 3608 for Service-Route, 3325 for
P-Asserted-Identity).
-/
namespace Sip

/-- the name of the header as the RFC writes it -/
def rfcName : HKind → Bytes
  | .to => str "To"
  | .from => str "From"
  | .contact => str "Contact"
  | .route => str "Route"
  | .recordRoute => str "Record-Route"
  | .path => str "Path"
  | .serviceRoute => str "Service-Route"
  | .pAssertedIdentity => str "P-Asserted-Identity"
  | .via => str "Via"
  | .callId => str "Call-ID"
  | .cseq => str "CSeq"
  | .rack => str "RAck"
  | .rseq => str "RSeq"
  | .expires => str "Expires"
  | .maxForwards => str "Max-Forwards"
  | .contentLength => str "Content-Length"
  | .contentType => str "Content-Type"
  | .contentDisposition => str "Content-Disposition"

/-- the compact form of the header: RFC 3261 section 7.3.3 -/
def rfcCompact : HKind → Option Bytes
  | .to => some (str "t")
  | .from => some (str "f")
  | .contact => some (str "m")
  | .via => some (str "v")
  | .callId => some (str "i")
  | .contentLength => some (str "l")
  | .contentType => some (str "c")
  | _ => none

/-- the headers whose values may be listed with commas: the ABNF of RFC 3261 section 25.1 (Via, Contact, Route, Record-Route), RFC 3327, 3608, 3325 -/
def rfcList : HKind → Prop
  | .via | .contact | .route | .recordRoute | .path | .serviceRoute | .pAssertedIdentity => True
  | _ => False

/-- `w` is a spelling of a name of the header -/
def IsNameOf (k : HKind) (w : Bytes) : Prop := w.map asciiLower = (rfcName k).map asciiLower ∨ ∃ s, rfcCompact k = some s ∧ w.map asciiLower = s

theorem names_rfc (k : HKind) : k.names.all (fun n => n == (rfcName k).map asciiLower || rfcCompact k == some n || ((k == .contentType || k == .contentDisposition) && n == str "l")) = true ∧
    k.names.contains ((rfcName k).map asciiLower) = true ∧ (rfcCompact k).all (fun s => k.names.contains s) = true := by
  cases k <;> decide +kernel

/-- **C37** The parser of a header accepts the name of the header and its compact form, in any letter case, in front of `:` or white space, consuming just the name. -/
theorem headerName_complete (fl : Flags) (k : HKind) (w : Bytes) (h : IsNameOf k w) : Parses fl k.parseName w () 0 NameStop := by
  obtain ⟨_, h1, h2⟩ := names_rfc k
  rcases h with h | ⟨s, hs, h⟩
  · exact headerName_accepts fl k _ w (List.contains_iff_mem.1 h1) h
  · rw [hs] at h2
    exact headerName_accepts fl k s w (List.contains_iff_mem.1 h2) h

/-- **C37** What it accepts is the name of the header or its compact form.  Exceptions: names with a CR in the place of a dash (`headerName_cr`, see `headerName_exact`) and `l` in front of
the values of Content-Type and Content-Disposition (`headerName_l`). -/
theorem headerName_only_noCr (k : HKind) (c c' : Ctx) (h : k.parseName c = .ok (some (), c')) :
    ∃ w y, c.rest = w ++ y ∧ NameStop y ∧ c' = c.adv w.length ∧
      ((∀ b ∈ w, b ≠ 0x0d) → IsNameOf k w ∨ ((k = .contentType ∨ k = .contentDisposition) ∧ w.map asciiLower = str "l")) := by
  obtain ⟨h1, _⟩ | ⟨_, w, y, g1, g2, g3, g4⟩ := headerName_sound_noCr k c c' _ h
  · cases h1
  · refine ⟨w, y, g1, g2, g3, fun hcr => ?_⟩
    obtain ⟨n, hn, hw⟩ := g4 hcr
    have := List.all_eq_true.1 (names_rfc k).1 n hn
    simp only [Bool.or_eq_true, Bool.and_eq_true, beq_iff_eq] at this
    rcases this with (h | h) | ⟨h, h'⟩
    · exact Or.inl (Or.inl (hw.trans h))
    · exact Or.inl (Or.inr ⟨n, h, hw⟩)
    · exact Or.inr ⟨h, hw.trans h'⟩

/-- how the parser of a header reads a byte of the name: Record-Route, Service-Route and P-Asserted-Identity read a CR as `-` -/
def readByte (k : HKind) (b : UInt8) : UInt8 :=
  if (k = .recordRoute ∨ k = .serviceRoute ∨ k = .pAssertedIdentity) ∧ b = 0x0d then 0x2d else asciiLower b

/-- what the parser of a header takes for its name: a name of the header as read by `readByte`, or `l` in the case of Content-Type and Content-Disposition -/
def TakenAsName (k : HKind) (w : Bytes) : Prop :=
  w.map (readByte k) = (rfcName k).map asciiLower ∨ (∃ s, rfcCompact k = some s ∧ w.map (readByte k) = s) ∨
  ((k = .contentType ∨ k = .contentDisposition) ∧ w.map (readByte k) = str "l")

theorem nameByte_read (k : HKind) (p : UInt8) (hp : p ∈ nameChars) (b : UInt8) : nameByte k.looseDash p b = true ↔ readByte k b = p := by
  have key : ∀ b : UInt8, asciiLower b = 0x0d ↔ b = 0x0d := by decide +kernel
  have hcr : (0x0d : UInt8) ∉ nameChars := by decide +kernel
  obtain ⟨h1, h2⟩ := nameByte_iff p hp b
  have hb : asciiLower b = p → b ≠ 0x0d := fun h e => hcr (by rw [← (key b).2 e, h]; exact hp)
  by_cases hk : k = .recordRoute ∨ k = .serviceRoute ∨ k = .pAssertedIdentity
  · have hl : k.looseDash = true := by rcases hk with rfl | rfl | rfl <;> rfl
    rw [hl, h1]
    unfold readByte
    by_cases hc : b = 0x0d
    · rw [if_pos ⟨hk, hc⟩]
      exact ⟨fun h => h.elim (fun h => absurd hc (hb h)) (fun h => h.1.symm), fun h => Or.inr ⟨h.symm, hc⟩⟩
    · rw [if_neg (fun h => hc h.2)]
      exact ⟨fun h => h.elim id (fun h => absurd h.2 hc), Or.inl⟩
  · have hl : k.looseDash = false := by
      cases k <;> first | rfl | (exfalso; apply hk; simp)
    rw [hl, h2]
    unfold readByte
    rw [if_neg (fun h => hk h.1)]

theorem nameMatch_read (k : HKind) (n w : Bytes) (hn : ∀ p ∈ n, p ∈ nameChars) : NameMatch k.looseDash n w ↔ w.map (readByte k) = n := by
  induction n generalizing w with
  | nil => cases w with
    | nil => exact ⟨fun _ => rfl, fun _ => .nil⟩
    | cons b w => exact ⟨fun h => (by cases h), fun h => (by cases h)⟩
  | cons p n ih => cases w with
    | nil => exact ⟨fun h => (by cases h), fun h => (by cases h)⟩
    | cons b w =>
      simp only [List.map_cons, List.cons.injEq]
      rw [← ih w (fun p hp => hn p (by simp [hp])), ← nameByte_read k p (hn p (by simp)) b]
      exact ⟨fun h => (by cases h with | cons a b => exact ⟨a, b⟩), fun h => .cons h.1 h.2⟩

theorem takenAsName_iff (k : HKind) (w : Bytes) : TakenAsName k w ↔ ∃ n ∈ k.names, w.map (readByte k) = n := by
  obtain ⟨h0, h1, h2⟩ := names_rfc k
  constructor
  · rintro (h | ⟨s, hs, h⟩ | ⟨hk, h⟩)
    · exact ⟨_, List.contains_iff_mem.1 h1, h⟩
    · rw [hs] at h2; exact ⟨s, List.contains_iff_mem.1 h2, h⟩
    · refine ⟨str "l", ?_, h⟩
      rcases hk with rfl | rfl <;> decide +kernel
  · rintro ⟨n, hn, h⟩
    have := List.all_eq_true.1 h0 n hn
    simp only [Bool.or_eq_true, Bool.and_eq_true, beq_iff_eq] at this
    rcases this with (g | g) | ⟨g, g'⟩
    · exact Or.inl (h.trans g)
    · exact Or.inr (Or.inl ⟨n, g, h⟩)
    · exact Or.inr (Or.inr ⟨g, h.trans g'⟩)

/-- **C37** What each header parser takes for its name, exactly, for every input: a name of the RFC in any letter case in front of `:` or white space (with a CR for a dash in three
headers, and `l` in two); the position is moved behind the name; and otherwise nothing changes. -/
theorem headerName_exact (k : HKind) (c : Ctx) :
    (∀ c', k.parseName c = .ok (some (), c') ↔ ∃ w y, c.rest = w ++ y ∧ NameStop y ∧ TakenAsName k w ∧ c' = c.adv w.length) ∧
    ((¬ ∃ w y, c.rest = w ++ y ∧ NameStop y ∧ TakenAsName k w) → k.parseName c = .ok (none, c)) := by
  have hc := k.names_chars
  have hat : ∀ n ∈ k.names, (nameAt k.looseDash n c.rest = true ↔ ∃ w y, c.rest = w ++ y ∧ w.map (readByte k) = n ∧ NameStop y) := by
    intro n hn
    rw [nameAt_iff]
    constructor
    · rintro ⟨w, y, e, h, hy⟩; exact ⟨w, y, e, (nameMatch_read k n w (hc n hn)).1 h, hy⟩
    · rintro ⟨w, y, e, h, hy⟩; exact ⟨w, y, e, (nameMatch_read k n w (hc n hn)).2 h, hy⟩
  unfold HKind.parseName
  cases hf : k.names.find? (fun n => nameAt k.looseDash n c.rest) with
  | none =>
    have hno : ¬ ∃ w y, c.rest = w ++ y ∧ NameStop y ∧ TakenAsName k w := by
      rintro ⟨w, y, e, hy, h⟩
      obtain ⟨n, hn, hw⟩ := (takenAsName_iff k w).1 h
      exact List.find?_eq_none.1 hf n hn ((hat n hn).2 ⟨w, y, e, hw, hy⟩)
    refine ⟨fun c' => ⟨fun h => (by cases h), ?_⟩, fun _ => rfl⟩
    rintro ⟨w, y, e, hy, h, _⟩
    exact absurd ⟨w, y, e, hy, h⟩ hno
  | some n =>
    have g1 := List.find?_some hf
    have g2 := List.mem_of_find?_eq_some hf
    obtain ⟨w, y, e, hw, hy⟩ := (hat n g2).1 g1
    have hl : n.length = w.length := by rw [← hw, List.length_map]
    refine ⟨fun c' => ?_, fun h => absurd ⟨w, y, e, hy, (takenAsName_iff k w).2 ⟨n, g2, hw⟩⟩ h⟩
    simp only [Out.ok.injEq, Prod.mk.injEq, true_and]
    constructor
    · rintro rfl
      exact ⟨w, y, e, hy, (takenAsName_iff k w).2 ⟨n, g2, hw⟩, by rw [hl]⟩
    · rintro ⟨w', y', e', hy', h, rfl⟩
      obtain ⟨n', hn', hw'⟩ := (takenAsName_iff k w').1 h
      have := name_len (hc n g2) (hc n' hn') ((nameMatch_read k n w (hc n g2)).2 hw) ((nameMatch_read k n' w' (hc n' hn')).2 hw') hy hy' (e.symm.trans e')
      rw [hl, this]

/-- **C37** the name that is written is the name of the RFC -/
theorem header_title (k : HKind) : k.title = rfcName k := by cases k <;> rfl

/-- **C16** the number by which a message knows the header type is the number the name lookup gives for its name and its compact form; distinct types have distinct
numbers, and none has the number of unknown headers -/
theorem header_index_of (k : HKind) : (∃ s, (s, k.index) ∈ headerTable ∧ SameLetters (rfcName k) (str s)) ∧
    (∀ s, rfcCompact k = some s → ∃ s', (s', k.index) ∈ headerTable ∧ str s' = s) ∧ HKind.ofIndex k.index = some k ∧ k.index ≠ 0 := by
  have key : headerTable.any (fun x => x.2 == k.index && (rfcName k).map asciiLower == str x.1) = true ∧
      (rfcCompact k).all (fun s => headerTable.any (fun x => x.2 == k.index && str x.1 == s)) = true ∧ HKind.ofIndex k.index = some k ∧ k.index ≠ 0 := by
    cases k <;> decide +kernel
  obtain ⟨h1, h2, h3, h4⟩ := key
  refine ⟨?_, ?_, h3, h4⟩
  · obtain ⟨⟨s, i⟩, hm, hx⟩ := List.any_eq_true.1 h1
    simp only [Bool.and_eq_true, beq_iff_eq] at hx
    obtain ⟨rfl, hx⟩ := hx
    exact ⟨s, hm, hx⟩
  · intro s hs
    rw [hs] at h2
    obtain ⟨⟨s', i⟩, hm, hx⟩ := List.any_eq_true.1 h2
    simp only [Bool.and_eq_true, beq_iff_eq] at hx
    obtain ⟨rfl, hx⟩ := hx
    exact ⟨s', hm, hx⟩

/-- **C38** comma separated values are read for just the headers that are lists in the RFCs -/
theorem header_multi (k : HKind) : k.multi = true ↔ rfcList k := by cases k <;> simp [HKind.multi, rfcList]

example : IsNameOf .callId (str "CALL-id") ∧ IsNameOf .callId (str "I") ∧ ¬ IsNameOf .callId (str "c") := by
  unfold IsNameOf; decide +kernel

end Sip
