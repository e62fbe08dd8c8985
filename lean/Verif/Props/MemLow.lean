import Verif.Props.Exact
/-!
# C44 the bound on the memory cannot be improved

`LowAt f p c`: a successful run of `p` with the result `v` takes at least `f v` bytes of the arena.  Every value of a header and every header kept as text has its
own struct, so a message with many short ones takes much memory: a Contact header with `n` stars takes 18 bytes for every two bytes of input.
-/
namespace Sip

def LowAt {α : Type} (f : α → Int) (p : P α) (c : Ctx) : Prop := Inv c → ∀ v c', p c = .ok (some v, c') → Inv c' ∧ (c.used : Int) + f v ≤ c'.used

namespace LowAt
variable {α β : Type} {c : Ctx}

theorem mono {f g : α → Int} {p : P α} (h : LowAt f p c) (hg : ∀ v, g v ≤ f v) : LowAt g p c := fun hc v c' e => by
  obtain ⟨h1, h2⟩ := h hc v c' e; have := hg v; exact ⟨h1, by omega⟩
theorem pure {f : α → Int} {v : α} (h : f v ≤ 0 := by omega) : LowAt f (pure v : P α) c := fun hc w c' e => by cases e; exact ⟨hc, by omega⟩
theorem bind {f : α → Int} {g : β → Int} {p : P α} {q : α → P β} (hp : LowAt f p c) (hq : ∀ v c1, Inv c1 → LowAt (fun w => g w - f v) (q v) c1) : LowAt g (p >>= q) c := by
  intro hc w c' e
  rcases hpc : p c with ⟨_ | v, c1⟩ | _ | _
  · rw [P.bind_none hpc] at e; cases e
  · rw [P.bind_ok hpc] at e
    obtain ⟨i1, h1⟩ := hp hc v c1 hpc
    obtain ⟨i2, h2⟩ := hq v c1 i1 i1 w c' e
    dsimp only at h2
    exact ⟨i2, by omega⟩
  · rw [P.bind_panic hpc] at e; cases e
  · rw [P.bind_hang hpc] at e; cases e
theorem seq {b : Int} {g : β → Int} {p : P α} {q : α → P β} (hp : LowAt (fun _ => b) p c) (hq : ∀ v c1, Inv c1 → LowAt (fun w => g w - b) (q v) c1) :
    LowAt g (p >>= q) c := bind hp hq
theorem congr {f : α → Int} {p p' : P α} (h : p c = p' c) (hs : LowAt f p' c) : LowAt f p c := fun hc v c' e => hs hc v c' (h ▸ e)
theorem get {g : β → Int} {f : Ctx → P β} (h : LowAt g (f c) c) : LowAt g (P.get >>= f) c := congr (P.get_bind f c) h
theorem ite {f : α → Int} {q : Prop} [Decidable q] {x y : P α} (h1 : LowAt f x c) (h2 : LowAt f y c) : LowAt f (if q then x else y) c := by
  by_cases h : q
  · rw [if_pos h]; exact h1
  · rw [if_neg h]; exact h2
theorem orErr {f : α → Int} {p : P α} (h : LowAt f p c) : LowAt f (P.orErr p) c := by
  intro hc v c' e
  unfold P.orErr at e
  split at e
  · cases e
  · exact h hc v c' e
/-- memory is never given back -/
theorem ofMem {F C : Int} {B : α → Int} {p : P α} (h : MemAt F B C p c) : LowAt (fun _ => 0) p c := fun hc v c' e => by
  obtain ⟨s, _⟩ := h.some hc v c' e; have := s.used_le; exact ⟨s.inv, by dsimp only; omega⟩
theorem alloc {n : Nat} : LowAt (fun _ => (n : Int)) (P.alloc n) c := by
  intro hc v c' e
  unfold P.alloc Ctx.alloc at e
  by_cases h : c.used + n > c.cap
  · rw [if_pos h] at e; cases e
  · rw [if_neg h] at e; cases e
    exact ⟨⟨hc.pos, by show c.used + n ≤ c.cap; omega⟩, by show (c.used : Int) + n ≤ ((c.used + n : Nat) : Int); omega⟩

theorem loop {σ ρ : Type} {φ : σ → Int} {D : ρ → Int} {body : σ → P (σ ⊕ ρ)}
    (hb : ∀ s c, Inv c → LowAt (fun r => match r with | Sum.inl s' => φ s' - φ s | Sum.inr r => D r - φ s) (body s) c) (n : Nat) :
    ∀ s c, LowAt (fun r => D r - φ s) (P.loop body n s) c := by
  induction n with
  | zero => exact fun s c hc v c' e => (by cases e)
  | succ n ih =>
    intro s c hc
    refine bind (hb s c hc) (fun r c1 hi => ?_) hc
    cases r with
    | inl s' => exact (ih s' c1).mono (fun v => by show D v - φ s - (φ s' - φ s) ≤ D v - φ s'; omega)
    | inr r => exact pure (by show D r - φ s - (D r - φ s) ≤ 0; omega)

theorem forLoop {σ ρ : Type} (φ : σ → Int) {D : ρ → Int} {body : σ → P (σ ⊕ ρ)} {s : σ}
    (hb : ∀ s c, Inv c → LowAt (fun r => match r with | Sum.inl s' => φ s' - φ s | Sum.inr r => D r - φ s) (body s) c) : LowAt (fun r => D r - φ s) (P.forLoop body s) c :=
  congr (p' := P.loop body (c.src.length + 1) s) rfl (loop hb _ s c)

theorem skip {n : Nat} (h : c.pos + n ≤ c.src.length) : LowAt (fun _ => 0) (P.skip n) c := ofMem (MemAt.skip (F := 9) (n := n) h)

/-! ## Headers -/

theorem parseAlloc {net : Net} (hnet : net.Ok) (k : HKind) : LowAt (fun _ => (k.structSize : Int)) (k.parseAlloc net) c := by
  unfold HKind.parseAlloc
  exact seq (orErr alloc) (fun _ c1 _ => (ofMem (MemAt.value hnet k)).mono (fun _ => by omega))

theorem rawHeader (id : Nat) (name : Option Bytes) : LowAt (fun _ => 8) (parseRawHeader id name) c := by
  intro hc v c' e
  obtain ⟨s, _⟩ := (MemAt.rawHeader id name).some hc v c' e
  refine ⟨s.inv, ?_⟩
  unfold parseRawHeader at e
  rcases ha : P.alloc 8 c with ⟨_ | u, c1⟩ | _ | _
  · rw [P.bind_none ha] at e; cases e
  · rw [P.bind_ok ha] at e
    have h1 := (alloc (n := 8) hc u c1 ha).2
    rcases hv : parseRawHeaderValue c1 with ⟨_ | w, c2⟩ | _ | _
    · rw [P.bind_none hv] at e; cases e
    · rw [P.bind_ok hv] at e; cases e
      have h2 := (cap_rawValue c1 _ _ hv).2.1
      dsimp only at h1 ⊢
      omega
    · rw [P.bind_panic hv] at e; cases e
    · rw [P.bind_hang hv] at e; cases e
  · rw [P.bind_panic ha] at e; cases e
  · rw [P.bind_hang ha] at e; cases e

theorem values {net : Net} (hnet : net.Ok) (k : HKind) : LowAt (fun vs => (k.structSize : Int) * vs.length) (parseHeaderValues net k) c := by
  unfold parseHeaderValues
  refine seq (parseAlloc hnet k) (fun v c1 _ => ite ?_ ?_)
  · refine (forLoop (φ := fun s => (k.structSize : Int) * (s.1.length + 1)) (D := fun vs => (k.structSize : Int) * vs.length) (fun s c2 hi => ?_)).mono (fun vs => ?_)
    · obtain ⟨acc, v⟩ := s
      unfold valuesBody
      refine get ?_
      by_cases h0 : c2.pos ≥ c2.src.length
      · rw [if_pos h0]; exact pure (by simp)
      · rw [if_neg h0]
        by_cases h : isOnlyCRLF c2.src c2.pos = true
        · rw [if_pos h]
          have hl : c2.pos + 2 ≤ c2.src.length := by
            obtain ⟨z, hz, _⟩ := (isOnlyCRLF_spec _ _).1 h
            have := rest_length c2 hi.pos
            have h2 : c2.rest.length = (0x0d :: 0x0a :: z : Bytes).length := congrArg List.length hz
            simp only [List.length_cons] at h2
            omega
          exact seq (skip (n := 2) hl) (fun _ c3 _ => pure (by simp))
        · rw [if_neg h]
          refine seq (ofMem (MemAt.comma)) (fun m c3 _ => ?_)
          cases m with
          | true =>
            rw [if_pos rfl]
            refine seq (parseAlloc hnet k) (fun v' c4 _ => pure ?_)
            show (k.structSize : Int) * (((acc ++ [v]).length : Nat) + 1) - k.structSize * (acc.length + 1) - 0 - k.structSize ≤ 0
            rw [List.length_append, List.length_singleton, Int.natCast_add, Int.mul_add, Int.mul_add, Int.mul_add]
            omega
          | false =>
            rw [if_neg (by simp)]
            exact seq (ofMem (MemAt.crlf)) (fun _ c4 _ => pure (by simp))
    · show (k.structSize : Int) * vs.length - k.structSize ≤ k.structSize * vs.length - k.structSize * ((([] : List HVal).length : Int) + 1)
      simp
  · exact seq (ofMem (MemAt.crlf)) (fun _ c4 _ => pure (by simp))

/-- what the headers of a message take at least -/
def itemSize : HItem → Int
  | .parsed k _ => k.structSize
  | .raw _ => 8
def itemsSize (l : List HItem) : Int := (l.map itemSize).sum

theorem itemsSize_append (l l' : List HItem) : itemsSize (l ++ l') = itemsSize l + itemsSize l' := by simp [itemsSize]
theorem itemsSize_parsed (k : HKind) (vs : List HVal) : itemsSize (vs.map (HItem.parsed k)) = k.structSize * vs.length := by
  induction vs with
  | nil => rfl
  | cons v vs ih =>
    have : itemsSize (List.map (HItem.parsed k) (v :: vs)) = k.structSize + itemsSize (vs.map (HItem.parsed k)) := by simp [itemsSize, itemSize]
    rw [this, ih, List.length_cons, Int.natCast_add, Int.mul_add]; omega

theorem line {net : Net} (hnet : net.Ok) (need : HKind → Bool) (n : Option Bytes × Nat) : LowAt itemsSize (parseHeaderLine net need n) c := by
  obtain ⟨n, i⟩ := n
  unfold parseHeaderLine
  dsimp only
  split
  · refine ite ?_ ?_
    · exact bind (values hnet _) (fun vs c1 _ => pure (by rw [itemsSize_parsed]; omega))
    · exact seq (rawHeader i n) (fun h c1 _ => pure (by simp [itemsSize, itemSize]))
  · exact seq (rawHeader i n) (fun h c1 _ => pure (by simp [itemsSize, itemSize]))

theorem headers {net : Net} (hnet : net.Ok) (need : HKind → Bool) : LowAt itemsSize (parseHeaders net need) c := by
  unfold parseHeaders
  refine (forLoop (φ := itemsSize) (D := itemsSize) (fun s c2 hi => ?_)).mono (fun vs => by show itemsSize vs ≤ itemsSize vs - itemsSize []; simp [itemsSize])
  unfold headersBody
  refine get ?_
  by_cases h0 : c2.pos ≥ c2.src.length
  · rw [if_pos h0]; exact pure (by simp)
  · rw [if_neg h0]
    by_cases h : isCRLF c2.src c2.pos = true
    · rw [if_pos h]
      have hl : c2.pos + 2 ≤ c2.src.length := by
        unfold isCRLF at h
        simp only [Bool.and_eq_true, decide_eq_true_eq] at h
        omega
      exact seq (skip (n := 2) hl) (fun _ c3 _ => pure (by simp))
    · rw [if_neg h]
      refine seq (orErr (ofMem MemAt.msgName)) (fun n c3 _ => bind (line hnet need n) (fun hs c4 _ => pure ?_))
      show itemsSize (s ++ hs) - itemsSize s - 0 - itemsSize hs ≤ 0
      rw [itemsSize_append]; omega

end LowAt

open LowAt in
theorem common_size (k : HKind) (l : List HItem) : (k.structSize : Int) * ((Hdrs.ofItems l).common k).length ≤ itemsSize l := by
  have h1 : ((Hdrs.ofItems l).common k).length ≤ (valuesOf k l).length := by
    obtain ⟨a, b, _⟩ := setHeaders_spec l
    by_cases hk : rfcList k
    · rw [a k hk]; exact Nat.le_refl _
    · rw [b k hk]
      cases hl : (valuesOf k l).getLast? with
      | none => simp
      | some v =>
        have := List.mem_of_getLast? hl
        have := List.length_pos_iff.2 (List.ne_nil_of_mem this)
        simp only [Option.toList_some, List.length_singleton]; omega
  have h2 : (k.structSize : Int) * (valuesOf k l).length ≤ itemsSize l := by
    clear h1
    induction l with
    | nil => simp [valuesOf, itemsSize]
    | cons it l ih =>
      have e1 : itemsSize (it :: l) = itemSize it + itemsSize l := by simp [itemsSize]
      rw [e1]
      cases it with
      | raw r =>
        have e2 : valuesOf k (.raw r :: l) = valuesOf k l := by simp [valuesOf]
        rw [e2]; dsimp only [itemSize]; omega
      | parsed j v =>
        by_cases hj : j = k
        · subst hj
          have e2 : valuesOf j (.parsed j v :: l) = v :: valuesOf j l := by simp [valuesOf]
          rw [e2, List.length_cons, Int.natCast_add, Int.mul_add]; dsimp only [itemSize]; omega
        · have e2 : valuesOf k (.parsed j v :: l) = valuesOf k l := by simp [valuesOf, hj]
          rw [e2]; dsimp only [itemSize]; omega
  have h3 : (k.structSize : Int) * ((Hdrs.ofItems l).common k).length ≤ k.structSize * (valuesOf k l).length := Int.mul_le_mul_of_nonneg_left (by omega) (by omega)
  omega

/-- **C44** every value of a header of an accepted message has its own struct in the arena -/
theorem msg_memory_lower (net : Net) (hnet : net.Ok) (s : Bytes) (cap : Nat) (h8 : 8 ≤ cap) (fl : Flags) (m : Msg) (c' : Ctx)
    (h : Msg.parse net (fresh s cap fl) = .ok (some m, c')) (k : HKind) : 8 + k.structSize * (m.hdrs.common k).length ≤ c'.used := by
  have hi : Inv (fresh s cap fl) := fresh_inv h8
  unfold Msg.parse at h
  rcases e1 : P.orErr (StartLine.parse net) (fresh s cap fl) with ⟨_ | v, c1⟩ | _ | _
  · rw [P.bind_none e1] at h; cases h
  · rw [P.bind_ok e1] at h
    obtain ⟨s1, _⟩ := (MemAt.orErr (MemAt.startLine hnet)).some hi v c1 e1
    have h : (if c1.pos ≥ c1.src.length then P.err else _ : P Msg) c1 = .ok (some m, c') := h
    by_cases h0 : c1.pos ≥ c1.src.length
    · rw [if_pos h0] at h; cases h
    · rw [if_neg h0] at h
      rcases e2 : P.orErr (parseHeaders net (msgNeed c1.flags)) c1 with ⟨_ | its, c2⟩ | _ | _
      · rw [P.bind_none e2] at h; cases h
      · rw [P.bind_ok e2] at h
        obtain ⟨i2, l2⟩ := LowAt.orErr (LowAt.headers hnet _) s1.inv its c2 e2
        have h : (P.orErr (parseMsgBody net (Hdrs.ofItems its)) >>= fun bs => (Pure.pure ⟨v, Hdrs.ofItems its, bs⟩ : P Msg)) c2 = .ok (some m, c') := h
        rcases e3 : P.orErr (parseMsgBody net (Hdrs.ofItems its)) c2 with ⟨_ | b, c3⟩ | _ | _
        · rw [P.bind_none e3] at h; cases h
        · rw [P.bind_ok e3] at h
          injection h with h; injection h with h h'; injection h with h; subst h; subst h'
          have hb := MemTotal.body hnet (Hdrs.ofItems its) (c := c2) i2
          have e4 : parseMsgBody net (Hdrs.ofItems its) c2 = .ok (some b, c3) := by
            unfold P.orErr at e3
            split at e3
            · cases e3
            · exact e3
          have u3 := (hb _ _ e4).1.used_le
          have u1 := s1.used_le
          have := common_size k its
          simp only [fresh_used] at u1
          have e5 : ((k.structSize * ((Hdrs.ofItems its).common k).length : Nat) : Int) = (k.structSize : Int) * ((Hdrs.ofItems its).common k).length := Int.natCast_mul _ _
          show 8 + k.structSize * ((Hdrs.ofItems its).common k).length ≤ c3.used
          omega
        · rw [P.bind_panic e3] at h; cases h
        · rw [P.bind_hang e3] at h; cases h
      · rw [P.bind_panic e2] at h; cases h
      · rw [P.bind_hang e2] at h; cases h
  · rw [P.bind_panic e1] at h; cases h
  · rw [P.bind_hang e1] at h; cases h

/-! ## A message that takes as much as there may be -/

/-- `n` times `,*` -/
def stars (n : Nat) : Bytes := (List.replicate n [0x2c, 0x2a]).flatten
/-- a response with a Contact header of `n + 1` stars -/
def starMsg (n : Nat) : Bytes := str "SIP/2.0 1 \r\nm:*" ++ stars n

theorem stars_length (n : Nat) : (stars n).length = 2 * n := by
  unfold stars
  induction n with
  | zero => rfl
  | succ n ih => rw [List.replicate_succ, List.flatten_cons, List.length_append, ih]; simp; omega

theorem stars_values (net : Net) (fl : Flags) (n : Nat) : Gram.values net fl .contact (List.replicate (n + 1) .star) (0x2a :: stars n) [] := by
  induction n with
  | zero => exact .atEnd .star [0x2a] trivial (.star [] [] [] (.inl rfl) (gsws_iff.2 (by decide +kernel)))
  | succ n ih =>
    have e : 0x2a :: stars (n + 1) = [0x2a] ++ [0x2c] ++ (0x2a :: stars n) := by simp [stars, List.replicate_succ]
    rw [e, List.replicate_succ]
    refine .more .star [0x2a] [0x2c] _ _ [] trivial (.star [] [] _ (.inl rfl) (Acc.swsNo (.inl rfl) (by decide +kernel))) ?_ ih
    exact ⟨[], [], .inl rfl, Acc.swsNo (.inl rfl) (by decide +kernel), rfl⟩

theorem stars_message (net : Net) (n : Nat) :
    ∃ m, Gram.message net {} m (starMsg n) [] ∧ m.Whole ∧ (m.hdrs.common .contact).length = n + 1 := by
  have hl : Gram.line net {} (Gram.wanted {}) ((List.replicate (n + 1) HVal.star).map (HItem.parsed .contact)) (str "m:" ++ (0x2a :: stars n)) ([] ++ []) :=
    .parsed .contact none (str "m:") _ _ _ (.inr ⟨rfl, by decide⟩)
      (.known "m" _ (str "m") (str "m") (str ":") _ (by decide +kernel) (.same _) (show (str "m").map asciiLower = str "m" by decide +kernel) ⟨[], [], by simp [AllWsp], Acc.swsNo (.inl rfl) (by decide +kernel), by decide +kernel⟩)
      (stars_values net {} n)
  have hh := Gram.headers.cons _ _ _ _ _ hl .atEnd
  have hs : Gram.startLine net {} (.status .v20 (1 % 65536) []) (str "SIP/2.0 1 \r\n") ((str "m:" ++ (0x2a :: stars n) ++ []) ++ [] ++ []) :=
    .status (str "SIP/") .v20 (str "2.0") 1 (str "1") [] [] _ (show (str "SIP/").map asciiLower = str "sip/" by decide +kernel)
      (.v20 _ (by intro b hb; cases hb; decide +kernel)) ⟨by decide +kernel, by decide +kernel, (by intro b hb; cases hb; decide +kernel), by decide +kernel⟩
      (.stop _ (by intro b hb; cases hb; decide +kernel))
  obtain ⟨a, b, d⟩ := setHeaders_spec ((List.replicate (n + 1) HVal.star).map (HItem.parsed .contact) ++ [])
  refine ⟨⟨.status .v20 (1 % 65536) [], Hdrs.ofItems ((List.replicate (n + 1) HVal.star).map (HItem.parsed .contact) ++ []), []⟩, ?_, by simp [Msg.Whole], ?_⟩
  · have e : starMsg n = str "SIP/2.0 1 \r\n" ++ (str "m:" ++ (0x2a :: stars n) ++ []) ++ [] := by
      unfold starMsg
      have : str "SIP/2.0 1 \r\nm:*" = str "SIP/2.0 1 \r\n" ++ str "m:" ++ [0x2a] := by decide +kernel
      rw [this]; simp
    rw [e]
    refine .mk _ _ _ _ _ [] [] [] hs (by simp [str]) hh (collected_ofItems _) (.noType [] ?_)
    rw [b .contentType (fun h => h)]
    simp [valuesOf]
  · rw [a .contact trivial]
    have : ∀ j, valuesOf .contact ((List.replicate j HVal.star).map (HItem.parsed .contact) ++ []) = List.replicate j HVal.star := by
      intro j
      induction j with
      | zero => rfl
      | succ j ih => rw [List.replicate_succ, List.map_cons, List.cons_append]; show HVal.star :: valuesOf .contact _ = _; rw [ih]
    rw [this, List.length_replicate]

/-- **C44** nine bytes for a byte of input cannot be made less: for every `n` there is a message of `2 * n + 15` bytes that is accepted and takes `18 * n + 26` -/
theorem contact_memory_needed (net : Net) (hnet : net.Ok) (n cap : Nat) (hcap : 10 * (2 * n + 15) + 66 ≤ cap) :
    (starMsg n).length = 2 * n + 15 ∧ ∃ m c', Msg.parse net (fresh (starMsg n) cap {}) = .ok (some m, c') ∧ 9 * (starMsg n).length - 109 ≤ c'.used := by
  have hlen : (starMsg n).length = 2 * n + 15 := by
    unfold starMsg
    rw [List.length_append, stars_length]
    have : (str "SIP/2.0 1 \r\nm:*").length = 15 := by decide +kernel
    omega
  refine ⟨hlen, ?_⟩
  obtain ⟨m, h1, h2, h3⟩ := stars_message net n
  obtain ⟨c', e, _⟩ := (msg_exact net hnet (starMsg n) cap (by rw [hlen]; exact hcap) {} m (starMsg n).length).2 ⟨starMsg n, [], by simp, rfl, h1, h2⟩
  have := msg_memory_lower net hnet _ cap (by omega) {} m c' e .contact
  rw [h3] at this
  have hz : HKind.contact.structSize = 18 := rfl
  rw [hz] at this
  exact ⟨m, c', e, by omega⟩

end Sip
