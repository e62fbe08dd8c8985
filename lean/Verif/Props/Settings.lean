import Verif.Props.MessageEnc
import Verif.Props.BodySafe
/-!
# C40: which headers of a message are parsed and which are kept as text
-/
namespace Sip

/-- what a loop with an invariant returns -/
theorem P.loop_inv {σ ρ : Type} (body : σ → P (σ ⊕ ρ)) (I : σ → Prop) (R : ρ → Prop)
    (hb : ∀ s c r c', I s → body s c = .ok (some r, c') → match r with | .inl s' => I s' | .inr v => R v) (n : Nat) :
    ∀ s c v c', I s → P.loop body n s c = .ok (some v, c') → R v := by
  induction n with
  | zero => intro s c v c' _ h; cases h
  | succ n ih =>
    intro s c v c' hI h
    rw [P.loop, P.bind_apply] at h
    rcases hp : body s c with ⟨_ | r, c1⟩ | _ | _
    · rw [hp] at h; cases h
    · rw [hp] at h
      have := hb s c r c1 hI hp
      cases r with
      | inl s' => exact ih s' c1 v c' this h
      | inr w => cases h; exact this
    · rw [hp] at h; cases h
    · rw [hp] at h; cases h

/-- a parsed item only where it is asked for, a raw one only where not -/
def HItem.Sorted (need : HKind → Bool) : HItem → Prop
  | .parsed k _ => need k = true
  | .raw h => ∀ k, HKind.ofIndex h.id = some k → need k = false

theorem rawHeader_id {i : Nat} {n : Option Bytes} {c : Ctx} {h : RawHeader} {c' : Ctx} (e : parseRawHeader i n c = .ok (some h, c')) : h.id = i := by
  unfold parseRawHeader at e
  obtain ⟨_, c1, _, e⟩ := P.bind_some e
  obtain ⟨v, c2, _, e⟩ := P.bind_some e
  cases e; rfl

theorem headerLine_sorted (net : Net) (need : HKind → Bool) (r : Option Bytes × Nat) (c : Ctx) (l : List HItem) (c' : Ctx)
    (e : parseHeaderLine net need r c = .ok (some l, c')) : ∀ it ∈ l, it.Sorted need := by
  obtain ⟨n, i⟩ := r
  unfold parseHeaderLine at e
  dsimp only at e
  cases hk : HKind.ofIndex i with
  | some k =>
    rw [hk] at e
    simp only at e
    split at e
    · rename_i hn
      obtain ⟨vs, c1, _, e⟩ := P.bind_some e
      cases e
      intro it hit
      obtain ⟨v, _, rfl⟩ := List.mem_map.1 hit
      exact hn
    · rename_i hn
      obtain ⟨h, c1, e1, e⟩ := P.bind_some e
      cases e
      intro it hit
      rw [List.mem_singleton] at hit; subst hit
      intro j hj
      rw [rawHeader_id e1, hk] at hj
      cases hj; simpa using hn
  | none =>
    rw [hk] at e
    simp only at e
    obtain ⟨h, c1, e1, e⟩ := P.bind_some e
    cases e
    intro it hit
    rw [List.mem_singleton] at hit; subst hit
    intro j hj
    rw [rawHeader_id e1, hk] at hj; cases hj

theorem headers_sorted (net : Net) (need : HKind → Bool) (c : Ctx) (l : List HItem) (c' : Ctx)
    (e : parseHeaders net need c = .ok (some l, c')) : ∀ it ∈ l, it.Sorted need := by
  unfold parseHeaders P.forLoop at e
  refine P.loop_inv (headersBody net need) (fun a => ∀ it ∈ a, it.Sorted need) (fun a => ∀ it ∈ a, it.Sorted need) ?_ _ [] c l c' (by simp) e
  intro s c r c' hs h
  unfold headersBody at h
  obtain ⟨c0, c1, h0, h⟩ := P.bind_some h
  split at h
  · cases h; exact hs
  · split at h
    · obtain ⟨_, c2, _, h⟩ := P.bind_some h
      cases h; exact hs
    · obtain ⟨n, c2, _, h⟩ := P.bind_some h
      obtain ⟨hl, c3, h3, h⟩ := P.bind_some h
      cases h
      simp only
      intro it hit
      rcases List.mem_append.1 hit with hit | hit
      · exact hs it hit
      · exact headerLine_sorted net need n c2 hl _ h3 it hit

theorem sorted_hdrs {need : HKind → Bool} {l : List HItem} (h : ∀ it ∈ l, it.Sorted need) :
    (∀ k, need k = false → (Hdrs.ofItems l).common k = []) ∧ ∀ r ∈ (Hdrs.ofItems l).raw, ∀ k, HKind.ofIndex r.id = some k → need k = false := by
  obtain ⟨h1, h2, h3⟩ := setHeaders_spec l
  have hv : ∀ k, need k = false → valuesOf k l = [] := by
    intro k hk
    cases he : valuesOf k l with
    | nil => rfl
    | cons v w =>
      exfalso
      have hm : v ∈ valuesOf k l := by rw [he]; simp
      unfold valuesOf at hm
      obtain ⟨it, hit, hi⟩ := List.mem_filterMap.1 hm
      have := h it hit
      cases it with
      | raw r => simp at hi
      | parsed j u =>
        by_cases hj : j = k
        · subst hj; simp only [HItem.Sorted] at this; rw [this] at hk; cases hk
        · simp [hj] at hi
  constructor
  · intro k hk
    by_cases hr : rfcList k
    · rw [h1 k hr]; exact hv k hk
    · rw [h2 k hr, hv k hk]; rfl
  · rw [h3]
    intro r hr
    unfold rawsOf at hr
    obtain ⟨it, hit, hi⟩ := List.mem_filterMap.1 hr
    have := h it hit
    cases it with
    | parsed j u => simp at hi
    | raw r' => simp at hi; subst hi; exact this

theorem ofIndex_index (k : HKind) : HKind.ofIndex k.index = some k := by cases k <;> decide +kernel

/-- the headers that describe the body -/
def Describes (k : HKind) : Prop := k = .contentType ∨ k = .contentLength ∨ k = .contentDisposition

/-- **C40** Which headers of an accepted message are parsed: with the setting `ParseSipHeaderAsRaw` those that describe the body, and no others; without it those
whose entry in the table of headers says so.  A header type that is not parsed has no parsed value, and one that is parsed is never kept as text. -/
theorem msg_parsed_headers (net : Net) (hnet : net.Ok) (c : Ctx) (hc : Inv c) (m : Msg) (c' : Ctx) (h : Msg.parse net c = .ok (some m, c')) (k : HKind) :
    ((if c.flags.parseSipHeaderAsRaw then ¬ Describes k else k.index ∈ c.flags.noParse) → m.hdrs.common k = []) ∧
    ((if c.flags.parseSipHeaderAsRaw then Describes k else k.index ∉ c.flags.noParse) → ∀ r ∈ m.hdrs.raw, r.id ≠ k.index) := by
  unfold Msg.parse at h
  obtain ⟨s, c1, h1, h⟩ := P.bind_some h
  obtain ⟨c2, c3, h2, h⟩ := P.bind_some h
  cases h2
  split at h
  · cases h
  obtain ⟨its, c4, h3, h⟩ := P.bind_some h
  obtain ⟨bs, c5, _, h⟩ := P.bind_some h
  cases h
  have h1' : StartLine.parse net c = .ok (some s, c1) := P.orErr_some h1
  have h3' : parseHeaders net (msgNeed c1.flags) c1 = .ok (some its, c4) := P.orErr_some h3
  rw [((startLine_safe net hnet c hc).step _ _ h1').flags] at h3'
  obtain ⟨g1, g2⟩ := sorted_hdrs (headers_sorted net _ _ _ _ h3')
  have hno : msgNeed c.flags k = false ↔ (if c.flags.parseSipHeaderAsRaw then ¬ Describes k else k.index ∈ c.flags.noParse) := by
    unfold msgNeed Describes
    cases c.flags.parseSipHeaderAsRaw <;> simp [not_or, and_assoc]
  constructor
  · intro hk
    exact g1 k (hno.2 hk)
  · intro hk r hr he
    have := hno.1 (g2 r hr k (by rw [he]; exact ofIndex_index k))
    split at hk
    · rename_i hf; rw [if_pos hf] at this; exact this hk
    · rename_i hf; rw [if_neg hf] at this; exact hk this

/-- the hypotheses are met, and both cases occur: with the table entry of To switched off, To is kept as text and From is parsed -/
theorem settings_sample :
    (Msg.parse Net.sample { src := str "SIP/2.0 200 OK\r\nTo: <sip:a@b>\r\nf: <sip:c@d>\r\n\r\n", cap := 10000, flags := { noParse := [HKind.to.index] } }).all
      (fun r => r.1.any (fun m => decide ((m.hdrs.common .to).length = 0) && decide ((m.hdrs.common .from).length = 1) && m.hdrs.raw == [⟨HKind.to.index, none, str "<sip:a@b>"⟩])) = true := by
  decide +kernel

end Sip
