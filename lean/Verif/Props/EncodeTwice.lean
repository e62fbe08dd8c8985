import Verif.Props.MessageRound
import Verif.Props.MessageIdem
import Verif.Props.Settings
/-!
# C45 encoding a message

`Encode` of a message uses the arena - it creates a missing Content-Length, and for several bodies a missing Content-Type and boundary - and changes the message.
Here for every message, well formed or not: what it costs, when it fails, and that a second `Encode` writes the same bytes, costs nothing and changes nothing.
-/
namespace Sip

/-- a step that does not touch the input, the position, the settings and the size of the arena, takes at most `B` bytes of the arena, and records an error when it
fails (if `l`) -/
structure Quiet {α : Type} (l : Bool) (B : Nat) (p : P α) (c : Ctx) : Prop where
  src : ∀ r c', p c = .ok (r, c') → c'.src = c.src ∧ c'.pos = c.pos ∧ c'.flags = c.flags ∧ c'.cap = c.cap
  errs : ∀ r c', p c = .ok (r, c') → c.errs <:+ c'.errs
  used : ∀ r c', p c = .ok (r, c') → c.used ≤ c'.used ∧ c'.used ≤ c.used + B
  loud : l = true → ∀ c', p c = .ok (none, c') → c.errs.length < c'.errs.length

namespace Quiet
variable {α β : Type} {l : Bool} {B : Nat} {c : Ctx}

theorem pure {v : α} : Quiet l B (pure v : P α) c where
  src r c' e := by cases e; exact ⟨rfl, rfl, rfl, rfl⟩
  errs r c' e := by cases e; exact List.suffix_refl _
  used r c' e := by cases e; omega
  loud _ c' e := by cases e
theorem get : Quiet l B P.get c where
  src r c' e := by cases e; exact ⟨rfl, rfl, rfl, rfl⟩
  errs r c' e := by cases e; exact List.suffix_refl _
  used r c' e := by cases e; omega
  loud _ c' e := by cases e
theorem fail : Quiet false B (P.fail : P α) c where
  src r c' e := by cases e; exact ⟨rfl, rfl, rfl, rfl⟩
  errs r c' e := by cases e; exact List.suffix_refl _
  used r c' e := by cases e; omega
  loud h := by cases h
theorem alloc {n : Nat} : Quiet false n (P.alloc n) c where
  src r c' e := by
    unfold P.alloc Ctx.alloc at e
    by_cases h : c.used + n > c.cap
    · rw [if_pos h] at e; cases e; exact ⟨rfl, rfl, rfl, rfl⟩
    · rw [if_neg h] at e; cases e; exact ⟨rfl, rfl, rfl, rfl⟩
  errs r c' e := by
    unfold P.alloc Ctx.alloc at e
    by_cases h : c.used + n > c.cap
    · rw [if_pos h] at e; cases e; exact List.suffix_refl _
    · rw [if_neg h] at e; cases e; exact List.suffix_refl _
  used r c' e := by
    unfold P.alloc Ctx.alloc at e
    by_cases h : c.used + n > c.cap
    · rw [if_pos h] at e; cases e; omega
    · rw [if_neg h] at e; cases e; exact ⟨Nat.le_add_right _ _, Nat.le_refl _⟩
  loud h := by cases h
theorem allocStr {b : Bytes} : Quiet false (b.length + 2) (P.allocStr b) c where
  src r c' e := by
    unfold P.allocStr Sip.allocStr at e
    by_cases h : c.used + (b.length + 2) > c.cap
    · rw [if_pos h] at e; cases e; exact ⟨rfl, rfl, rfl, rfl⟩
    · rw [if_neg h] at e; cases e; exact ⟨rfl, rfl, rfl, rfl⟩
  errs r c' e := by
    unfold P.allocStr Sip.allocStr at e
    by_cases h : c.used + (b.length + 2) > c.cap
    · rw [if_pos h] at e; cases e; exact List.suffix_refl _
    · rw [if_neg h] at e; cases e; exact List.suffix_refl _
  used r c' e := by
    unfold P.allocStr Sip.allocStr at e
    by_cases h : c.used + (b.length + 2) > c.cap
    · rw [if_pos h] at e; cases e; omega
    · rw [if_neg h] at e; cases e; exact ⟨Nat.le_add_right _ _, Nat.le_refl _⟩
  loud h := by cases h
theorem ofOut {o : Out α} : Quiet l B (P.ofOut o) c := by
  cases o with
  | ok a => exact pure (v := a)
  | panic => exact ⟨fun _ _ e => (by cases e), fun _ _ e => (by cases e), fun _ _ e => (by cases e), fun _ _ e => (by cases e)⟩
  | hang => exact ⟨fun _ _ e => (by cases e), fun _ _ e => (by cases e), fun _ _ e => (by cases e), fun _ _ e => (by cases e)⟩
theorem orErr {p : P α} (h : Quiet l B p c) : Quiet true B (P.orErr p) c := by
  have key : ∀ r c', P.orErr p c = .ok (r, c') → (p c = .ok (r, c') ∧ r ≠ none) ∨ (r = none ∧ ∃ d, p c = .ok (none, d) ∧ c' = d.addError d.pos) := by
    intro r c' e
    unfold P.orErr at e
    split at e
    · rename_i d hd; cases e; exact .inr ⟨rfl, d, hd, rfl⟩
    · rename_i hx
      refine .inl ⟨e, ?_⟩
      rintro rfl
      exact hx _ e
  refine ⟨fun r c' e => ?_, fun r c' e => ?_, fun r c' e => ?_, fun _ c' e => ?_⟩
  · rcases key r c' e with ⟨h1, _⟩ | ⟨_, d, h1, rfl⟩
    · exact h.src _ _ h1
    · have := h.src _ _ h1; exact this
  · rcases key r c' e with ⟨h1, _⟩ | ⟨_, d, h1, rfl⟩
    · exact h.errs _ _ h1
    · exact (h.errs _ _ h1).trans (List.suffix_cons _ _)
  · rcases key r c' e with ⟨h1, _⟩ | ⟨_, d, h1, rfl⟩
    · exact h.used _ _ h1
    · have := h.used _ _ h1; exact this
  · rcases key _ c' e with ⟨_, h1⟩ | ⟨_, d, h1, rfl⟩
    · exact absurd rfl h1
    · have := (h.errs _ _ h1).length_le
      show _ < (_ :: d.errs).length
      simp only [List.length_cons]; omega
theorem bind {B1 B2 : Nat} {p : P α} {f : α → P β} (hp : Quiet l B1 p c) (hf : ∀ v c1, p c = .ok (some v, c1) → Quiet l B2 (f v) c1) (hB : B1 + B2 ≤ B := by omega) :
    Quiet l B (p >>= f) c := by
  rcases hpc : p c with ⟨_ | v, c1⟩ | _ | _
  · refine ⟨fun r c' e => ?_, fun r c' e => ?_, fun r c' e => ?_, fun hl c' e => ?_⟩
    all_goals rw [P.bind_none hpc] at e; cases e
    · exact hp.src _ _ hpc
    · exact hp.errs _ _ hpc
    · have := hp.used _ _ hpc; omega
    · exact hp.loud hl _ hpc
  · have h2 := hf v c1 hpc
    obtain ⟨a1, a2, a3, a4⟩ := hp.src _ _ hpc
    have a5 := hp.errs _ _ hpc
    have a6 := hp.used _ _ hpc
    refine ⟨fun r c' e => ?_, fun r c' e => ?_, fun r c' e => ?_, fun hl c' e => ?_⟩
    all_goals rw [P.bind_ok hpc] at e
    · obtain ⟨b1, b2, b3, b4⟩ := h2.src _ _ e
      exact ⟨b1.trans a1, b2.trans a2, b3.trans a3, b4.trans a4⟩
    · exact a5.trans (h2.errs _ _ e)
    · have := h2.used _ _ e; omega
    · have := h2.loud hl _ e; have := a5.length_le; omega
  · refine ⟨fun r c' e => ?_, fun r c' e => ?_, fun r c' e => ?_, fun hl c' e => ?_⟩
    all_goals rw [P.bind_panic hpc] at e; cases e
  · refine ⟨fun r c' e => ?_, fun r c' e => ?_, fun r c' e => ?_, fun hl c' e => ?_⟩
    all_goals rw [P.bind_hang hpc] at e; cases e
theorem mono {l' : Bool} {B' : Nat} {p : P α} (h : Quiet l B p c) (hl : l' = true → l = true) (hB : B ≤ B') : Quiet l' B' p c :=
  ⟨h.src, h.errs, fun r c' e => by have := h.used r c' e; omega, fun x => h.loud (hl x)⟩

theorem addLength (m : Msg) : Quiet true 8 m.addLength c := by
  unfold Msg.addLength
  split
  · exact pure
  · exact bind (orErr alloc) (fun _ _ _ => pure (B := 0))

theorem addType (m : Msg) : Quiet true 26 m.addType c := by
  unfold Msg.addType
  split
  · exact pure
  · refine bind (B1 := 8) (B2 := 18) (orErr alloc) (fun _ _ _ => bind (B1 := 11) (B2 := 7) (orErr (allocStr (b := str "multipart"))) (fun _ _ _ => bind (B1 := 7) (B2 := 0) (orErr (allocStr (b := str "mixed"))) (fun _ _ _ => pure)))

theorem allocBoundary (v : HVal) : Quiet true 53 (allocBoundary v) c := by
  unfold Sip.allocBoundary
  refine bind (B1 := 2) (B2 := 51) ?_ (fun _ _ _ => bind (B1 := 8) (B2 := 43) (orErr alloc) (fun _ _ _ => bind (B1 := 10) (B2 := 33) (orErr (orErr (allocStr (b := str "boundary")))) (fun _ _ _ => bind (B1 := 33) (B2 := 0) (orErr (orErr (allocStr (b := defaultBoundary)))) (fun _ _ _ => pure))))
  split
  · split
    · exact orErr alloc
    · exact pure
  · exact pure

theorem boundary (m : Msg) : Quiet false 79 m.boundary c := by
  unfold Msg.boundary
  refine bind (B1 := 26) (B2 := 53) ((addType m).mono (fun h => by cases h) (Nat.le_refl _)) (fun x c1 _ => ?_)
  obtain ⟨v, m1⟩ := x
  dsimp only
  split
  · exact pure
  · exact fail
  · exact bind (B1 := 53) (B2 := 0) ((orErr (allocBoundary v)).mono (fun h => by cases h) (Nat.le_refl _)) (fun _ _ _ => pure)

theorem findBoundary (m : Msg) : Quiet true 79 m.findBoundary c := by
  unfold Msg.findBoundary
  split
  · exact orErr (boundary m)
  · exact pure

theorem encode (net : Net) (m : Msg) (buf : Bytes) : Quiet true 87 (m.encode net buf) c := by
  unfold Msg.encode
  have key : ∀ fl c, Quiet true 87 (do
      let m ← m.addLength
      let s ← P.ofOut (m.start.encode net fl)
      let (boundary, m) ← m.findBoundary
      let t ← P.ofOut (m.encodeTail net fl boundary (buf ++ s))
      Pure.pure (t, { m with bodies := if m.multi then m.bodies.map Body.fixLength else m.bodies }) : P (Bytes × Msg)) c := by
    intro fl c
    refine bind (B1 := 8) (B2 := 79) (addLength m) (fun m1 c1 _ => bind (B1 := 0) (B2 := 79) ofOut (fun s c2 _ => bind (B1 := 79) (B2 := 0) (findBoundary m1) (fun x c3 _ => ?_)))
    obtain ⟨bd, m2⟩ := x
    exact bind (B1 := 0) (B2 := 0) ofOut (fun t c4 _ => pure)
  exact bind (B1 := 0) (B2 := 87) get (fun d _ _ => key _ _)
end Quiet

/-- **C45** `Encode` of any message: the input, the position and the settings stay as they are, it takes at most 87 bytes of the arena, and if it fails an error is
recorded -/
theorem encode_quiet (net : Net) (m : Msg) (buf : Bytes) (c c' : Ctx) (r : Option (Bytes × Msg)) (h : m.encode net buf c = .ok (r, c')) :
    c'.src = c.src ∧ c'.pos = c.pos ∧ c'.flags = c.flags ∧ c'.cap = c.cap ∧ c.errs <:+ c'.errs ∧ c.used ≤ c'.used ∧ c'.used ≤ c.used + 87 ∧
    (r = none → c.errs.length < c'.errs.length) := by
  have q := Quiet.encode (c := c) net m buf
  obtain ⟨a1, a2, a3, a4⟩ := q.src _ _ h
  obtain ⟨b1, b2⟩ := q.used _ _ h
  exact ⟨a1, a2, a3, a4, q.errs _ _ h, b1, b2, fun e => q.loud rfl _ (e ▸ h)⟩

/-! ## A second call -/

theorem addLength_common (m m1 : Msg) (c c1 : Ctx) (h : m.addLength c = .ok (some m1, c1)) :
    m1.start = m.start ∧ m1.bodies = m.bodies ∧ m1.hdrs.raw = m.hdrs.raw ∧ m1.hdrs.common .contentLength ≠ [] ∧ m1.hdrs.common .contentType = m.hdrs.common .contentType := by
  unfold Msg.addLength at h
  rcases he : m.hdrs.common .contentLength with _ | ⟨x, xs⟩ <;> rw [he] at h <;> dsimp only at h
  case cons => cases h; exact ⟨rfl, rfl, rfl, by rw [he]; simp, rfl⟩
  · rcases hp : P.orErr (P.alloc 8) c with ⟨_ | v, c2⟩ | _ | _
    · rw [P.bind_none hp] at h; cases h
    · rw [P.bind_ok hp] at h; cases h; exact ⟨rfl, rfl, rfl, by simp [Hdrs.set, HKind.multi], by simp [Hdrs.set]⟩
    · rw [P.bind_panic hp] at h; cases h
    · rw [P.bind_hang hp] at h; cases h

/-- the Content-Type of a message is a Content-Type -/
def Msg.TypeOk (m : Msg) : Prop := ∀ v ∈ m.hdrs.common .contentType, ∃ t s ps, v = .contentType t s ps

theorem addType_common (m m1 : Msg) (v : HVal) (c c1 : Ctx) (h : m.addType c = .ok (some (v, m1), c1)) (ht : m.TypeOk) :
    m1.start = m.start ∧ m1.bodies = m.bodies ∧ m1.hdrs.common .contentLength = m.hdrs.common .contentLength ∧ (m1.hdrs.common .contentType).head? = some v ∧
    (∃ t s ps, v = .contentType t s ps) := by
  unfold Msg.addType at h
  rcases he : m.hdrs.common .contentType with _ | ⟨x, xs⟩ <;> rw [he] at h <;> dsimp only at h
  case cons => cases h; exact ⟨rfl, rfl, rfl, by rw [he]; rfl, ht _ (by rw [he]; simp)⟩
  · rcases hp : P.orErr (P.alloc 8) c with ⟨_ | v1, c2⟩ | _ | _
    · rw [P.bind_none hp] at h; cases h
    · rw [P.bind_ok hp] at h
      rcases hq : P.orErr (P.allocStr (str "multipart")) c2 with ⟨_ | v2, c3⟩ | _ | _
      · rw [P.bind_none hq] at h; cases h
      · rw [P.bind_ok hq] at h
        rcases hr : P.orErr (P.allocStr (str "mixed")) c3 with ⟨_ | v3, c4⟩ | _ | _
        · rw [P.bind_none hr] at h; cases h
        · rw [P.bind_ok hr] at h; cases h
          exact ⟨rfl, rfl, by simp [Hdrs.set], by simp [Hdrs.set, HKind.multi], _, _, _, rfl⟩
        · rw [P.bind_panic hr] at h; cases h
        · rw [P.bind_hang hr] at h; cases h
      · rw [P.bind_panic hq] at h; cases h
      · rw [P.bind_hang hq] at h; cases h
    · rw [P.bind_panic hp] at h; cases h
    · rw [P.bind_hang hp] at h; cases h

/-- the boundary of the message is there and it is `bd` -/
def Msg.HasBoundary (m : Msg) (bd : Bytes) : Prop := ∃ v vs b, m.hdrs.common .contentType = v :: vs ∧ v.boundary? = some (some b) ∧ b.bytes = bd

theorem boundary_common (m m1 : Msg) (bd : Bytes) (c c1 : Ctx) (h : m.boundary c = .ok (some (bd, m1), c1)) (ht : m.TypeOk) :
    m1.start = m.start ∧ m1.bodies = m.bodies ∧ m1.hdrs.common .contentLength = m.hdrs.common .contentLength ∧ m1.HasBoundary bd := by
  unfold Msg.boundary at h
  rcases hp : m.addType c with ⟨_ | ⟨v, m2⟩, c2⟩ | _ | _
  · rw [P.bind_none hp] at h; cases h
  · rw [P.bind_ok hp] at h
    dsimp only at h
    obtain ⟨a1, a2, a3, a4, t, s, ps, rfl⟩ := addType_common m m2 v c c2 hp ht
    rcases hb : (HVal.contentType t s ps).boundary? with _ | _ | b <;> rw [hb] at h <;> dsimp only at h
    rotate_right
    · cases h
      rcases hc : m1.hdrs.common .contentType with _ | ⟨w, ws⟩
      · rw [hc] at a4; cases a4
      · rw [hc] at a4; cases a4
        exact ⟨a1, a2, a3, _, _, _, hc, hb, rfl⟩
    rotate_right
    · cases h
    · rcases hq : P.orErr (allocBoundary (.contentType t s ps)) c2 with ⟨_ | v2, c3⟩ | _ | _
      · rw [P.bind_none hq] at h; cases h
      · rw [P.bind_ok hq] at h; cases h
        refine ⟨a1, a2, ?_, (HVal.contentType t s ps).setBoundary defaultBoundary, [], .quoted defaultBoundary, ?_, rfl, rfl⟩
        · simp [Hdrs.set, a3]
        · simp [Hdrs.set, HKind.multi]
      · rw [P.bind_panic hq] at h; cases h
      · rw [P.bind_hang hq] at h; cases h
  · rw [P.bind_panic hp] at h; cases h
  · rw [P.bind_hang hp] at h; cases h

theorem fixLength_fixLength (b : Body) : b.fixLength.fixLength = b.fixLength := by
  rcases h : b.hdrs.common .contentLength with _ | ⟨x, xs⟩
  · have : b.fixLength = b := by unfold Body.fixLength; rw [h]
    rw [this, this]
  · have : b.fixLength = { b with hdrs := { b.hdrs with common := fun j => if j = .contentLength then [.num (writeStr b.body).length] else b.hdrs.common j } } := by
      unfold Body.fixLength; rw [h]
    rw [this]
    unfold Body.fixLength
    simp only [if_true]
    congr 2
    funext j
    split
    · rfl
    · rfl

theorem encodeParts_fix (net : Net) (fl : Flags) (bd : Bytes) (bs : List Body) : ∀ buf, encodeParts net fl bd (bs.map Body.fixLength) buf = encodeParts net fl bd bs buf := by
  induction bs with
  | nil => intro buf; rfl
  | cons b bs ih =>
    intro buf
    have hb : b.fixLength.body = b.body := by unfold Body.fixLength; split <;> rfl
    have : ∀ x, b.fixLength.encode net fl x = b.encode net fl x := by
      intro x; unfold Body.encode; rw [fixLength_fixLength, hb]
    simp only [List.map_cons, encodeParts, this, ih]

/-- a message in which nothing is missing -/
theorem encode_settled (net : Net) (m : Msg) (buf bd : Bytes) (c : Ctx) (hl : m.hdrs.common .contentLength ≠ []) (hb : m.multi = true → m.HasBoundary bd)
    (hn : m.multi = false → bd = []) :
    m.encode net buf c = (do
      let s ← P.ofOut (m.start.encode net c.flags)
      let t ← P.ofOut (m.encodeTail net c.flags bd (buf ++ s))
      pure (t, { m with bodies := if m.multi then m.bodies.map Body.fixLength else m.bodies })) c := by
  have h1 : ∀ d, m.addLength d = .ok (some m, d) := by
    intro d
    unfold Msg.addLength
    rcases he : m.hdrs.common .contentLength with _ | ⟨x, xs⟩
    · exact absurd he hl
    · rfl
  have h2 : ∀ d, m.findBoundary d = .ok (some (bd, m), d) := by
    intro d
    unfold Msg.findBoundary
    split
    · rename_i hm
      obtain ⟨v, vs, b, e1, e2, e3⟩ := hb hm
      have h3 : m.boundary d = .ok (some (bd, m), d) := by
        have h4 : m.addType d = .ok (some (v, m), d) := by
          unfold Msg.addType; rw [e1]; rfl
        unfold Msg.boundary
        rw [P.bind_ok h4]
        dsimp only
        rw [e2, ← e3]; rfl
      exact P.orErr_ok h3
    · rename_i hm
      rw [hn (by simpa using hm)]; rfl
  unfold Msg.encode
  rw [P.bind_ok (show P.get c = .ok (some c, c) from rfl), P.bind_ok (h1 c)]
  rcases hs : m.start.encode net c.flags with s | _ | _
  · have : P.ofOut (Out.ok s) c = .ok (some s, c) := rfl
    rw [P.bind_ok this, P.bind_ok this, P.bind_ok (h2 c)]
  · rfl
  · rfl

/-- **C45** a second call of `Encode` writes the same bytes, takes no memory, and changes neither the message nor the context -/
theorem encode_twice (net : Net) (m m' : Msg) (buf t : Bytes) (c c' c2 : Ctx) (ht : m.TypeOk) (h : m.encode net buf c = .ok (some (t, m'), c')) (hf : c2.flags = c.flags) :
    m'.encode net buf c2 = .ok (some (t, m'), c2) := by
  have h0 := h
  unfold Msg.encode at h
  rw [P.bind_ok (show P.get c = .ok (some c, c) from rfl)] at h
  rcases hp : m.addLength c with ⟨_ | m1, c1⟩ | _ | _
  · rw [P.bind_none hp] at h; cases h
  · rw [P.bind_ok hp] at h
    obtain ⟨a1, a2, _, a3, a4⟩ := addLength_common m m1 c c1 hp
    rcases hs : m1.start.encode net c.flags with s | _ | _
    · rw [hs, P.bind_ok (show P.ofOut (Out.ok s) c1 = .ok (some s, c1) from rfl)] at h
      rcases hq : m1.findBoundary c1 with ⟨_ | ⟨bd, m2⟩, c3⟩ | _ | _
      · rw [P.bind_none hq] at h; cases h
      · rw [P.bind_ok hq] at h
        dsimp only at h
        have key : m2.start = m1.start ∧ m2.bodies = m1.bodies ∧ m2.hdrs.common .contentLength = m1.hdrs.common .contentLength ∧ (m1.multi = true → m2.HasBoundary bd) ∧
            (m1.multi = false → bd = []) := by
          unfold Msg.findBoundary at hq
          by_cases hm : m1.multi = true
          · rw [if_pos hm] at hq
            have hq' : m1.boundary c1 = .ok (some (bd, m2), c3) := by
              unfold P.orErr at hq
              split at hq
              · cases hq
              · exact hq
            obtain ⟨b1, b2, b3, b4⟩ := boundary_common m1 m2 bd c1 c3 hq' (by unfold Msg.TypeOk; rw [a4]; exact ht)
            exact ⟨b1, b2, b3, fun _ => b4, fun x => by rw [hm] at x; cases x⟩
          · rw [if_neg hm] at hq
            cases hq
            exact ⟨rfl, rfl, rfl, fun x => absurd x hm, fun _ => rfl⟩
        obtain ⟨b1, b2, b3, b4, b5⟩ := key
        rcases hr : m2.encodeTail net c.flags bd (buf ++ s) with x | _ | _
        · rw [hr] at h
          cases h
          have hm : m2.multi = m1.multi := by unfold Msg.multi; rw [b2]
          generalize hM : ({ m2 with bodies := if m2.multi then m2.bodies.map Body.fixLength else m2.bodies } : Msg) = M
          have e1 : M.hdrs = m2.hdrs := by rw [← hM]
          have e2 : M.start = m1.start := by rw [← hM]; exact b1
          have e3 : M.bodies = if m2.multi then m2.bodies.map Body.fixLength else m2.bodies := by rw [← hM]
          have e4 : M.multi = m2.multi := by
            unfold Msg.multi; rw [e3]; split <;> simp
          refine (encode_settled net M buf bd c2 (by rw [e1, b3]; exact a3) (fun y => ?_) (fun y => b5 (by rw [← hm, ← e4]; exact y))).trans ?_
          · unfold Msg.HasBoundary; rw [e1]; exact b4 (by rw [← hm, ← e4]; exact y)
          · have e5 : M.encodeTail net c.flags bd (buf ++ s) = .ok t := by
              rw [← hr]
              have e6 : M.mimeLine = m2.mimeLine := by unfold Msg.mimeLine; rw [e1]
              unfold Msg.encodeTail
              rw [e1, e3, e4, e6]
              by_cases hy : m2.multi = true
              · simp only [hy, if_true]
                cases hz : m2.bodies with
                | nil => rfl
                | cons z zs =>
                  rw [← hz]
                  simp only [encodeParts_fix]
                  simp only [hz, List.map_cons]
              · simp only [hy]; rfl
            have e7 : ({ M with bodies := if M.multi then M.bodies.map Body.fixLength else M.bodies } : Msg) = M := by
              have : (if M.multi then M.bodies.map Body.fixLength else M.bodies) = M.bodies := by
                rw [e4, e3]
                split
                · rw [List.map_map]; congr 1; funext b; exact fixLength_fixLength b
                · rfl
              rw [this]
            rw [e7, hf]
            rw [e2, hs, P.bind_ok (show P.ofOut (Out.ok s) c2 = .ok (some s, c2) from rfl), e5]
            rfl
        · rw [hr] at h; cases h
        · rw [hr] at h; cases h
      · rw [P.bind_panic hq] at h; cases h
      · rw [P.bind_hang hq] at h; cases h
    · rw [hs] at h; cases h
    · rw [hs] at h; cases h
  · rw [P.bind_panic hp] at h; cases h
  · rw [P.bind_hang hp] at h; cases h

/-! ## When it fails -/

theorem orErr_alloc_room {n : Nat} {c : Ctx} (h : c.used + n ≤ c.cap) : P.orErr (P.alloc n) c = .ok (some (), { c with used := c.used + n }) :=
  P.orErr_ok (by unfold P.alloc Ctx.alloc; rw [if_neg (by omega)])
theorem orErr_allocStr_room {b : Bytes} {c : Ctx} (h : c.used + (b.length + 2) ≤ c.cap) : P.orErr (P.allocStr b) c = .ok (some b, { c with used := c.used + (b.length + 2) }) :=
  P.orErr_ok (by unfold P.allocStr Sip.allocStr; rw [if_neg (by omega)])

/-- **C45** with 87 bytes of the arena left, `Encode` returns false exactly for a message with several bodies whose Content-Type has a `boundary` parameter without
a value; it then records one error -/
theorem encode_fails_iff (net : Net) (m : Msg) (buf : Bytes) (c c' : Ctx) (r : Option (Bytes × Msg)) (hr : c.used + 87 ≤ c.cap) (h : m.encode net buf c = .ok (r, c')) :
    (r = none ↔ 1 < m.bodies.length ∧ ∃ v vs, m.hdrs.common .contentType = v :: vs ∧ v.boundary? = some none) ∧
    (r = none → c'.errs = c.pos :: c.errs) ∧ (r ≠ none → c'.errs = c.errs) := by
  have l1 : ∃ m1 c1, m.addLength c = .ok (some m1, c1) ∧ c1.used ≤ c.used + 8 ∧ c1.cap = c.cap ∧ c1.errs = c.errs ∧ c1.pos = c.pos := by
    unfold Msg.addLength
    rcases he : m.hdrs.common .contentLength with _ | ⟨x, xs⟩
    · refine ⟨_, _, P.bind_ok (orErr_alloc_room (by omega)), Nat.le_refl _, rfl, rfl, rfl⟩
    · exact ⟨m, c, rfl, by omega, rfl, rfl, rfl⟩
  obtain ⟨m1, c1, hp, u1, cap1, er1, po1⟩ := l1
  obtain ⟨a1, a2, _, a3, a4⟩ := addLength_common m m1 c c1 hp
  have hm : m1.multi = m.multi := by unfold Msg.multi; rw [a2]
  unfold Msg.encode at h
  rw [P.bind_ok (show P.get c = .ok (some c, c) from rfl), P.bind_ok hp] at h
  rcases hs : m1.start.encode net c.flags with s | _ | _
  rotate_left
  · rw [hs] at h; cases h
  · rw [hs] at h; cases h
  rw [hs, P.bind_ok (show P.ofOut (Out.ok s) c1 = .ok (some s, c1) from rfl)] at h
  by_cases hx : 1 < m.bodies.length ∧ ∃ v vs, m.hdrs.common .contentType = v :: vs ∧ v.boundary? = some none
  · obtain ⟨x1, v, vs, x2, x3⟩ := hx
    have hb : m1.boundary c1 = .ok (none, c1) := by
      have h4 : m1.addType c1 = .ok (some (v, m1), c1) := by
        unfold Msg.addType; rw [a4, x2]; rfl
      unfold Msg.boundary
      rw [P.bind_ok h4]
      dsimp only
      rw [x3]; rfl
    have hq : m1.findBoundary c1 = .ok (none, c1.addError c1.pos) := by
      unfold Msg.findBoundary
      rw [if_pos (by rw [hm]; unfold Msg.multi; simpa using x1)]
      unfold P.orErr; rw [hb]
    rw [P.bind_none hq] at h
    cases h
    exact ⟨⟨fun _ => ⟨x1, v, vs, x2, x3⟩, fun _ => rfl⟩, fun _ => by show c1.pos :: c1.errs = _; rw [er1, po1], fun y => absurd rfl y⟩
  · have hq : ∃ z c2, m1.findBoundary c1 = .ok (some z, c2) ∧ c2.errs = c1.errs := by
      unfold Msg.findBoundary
      by_cases hy : m1.multi = true
      · rw [if_pos hy]
        have hy' : 1 < m.bodies.length := by rw [hm] at hy; unfold Msg.multi at hy; simpa using hy
        have ht : ∃ v m2 c2, m1.addType c1 = .ok (some (v, m2), c2) ∧ v.boundary? ≠ some none ∧ c2.used ≤ c1.used + 26 ∧ c2.cap = c1.cap ∧ c2.errs = c1.errs := by
          unfold Msg.addType
          rcases he : m1.hdrs.common .contentType with _ | ⟨v, vs⟩
          · have h9 : (str "multipart").length = 9 := by decide
            have h5 : (str "mixed").length = 5 := by decide
            dsimp only
            rw [P.bind_ok (orErr_alloc_room (by omega)), P.bind_ok (orErr_allocStr_room (by simp only [h9]; omega)), P.bind_ok (orErr_allocStr_room (by simp only [h9, h5]; omega))]
            exact ⟨_, _, _, rfl, (by intro x; cases x), (by simp only [h9, h5]; omega), rfl, rfl⟩
          · refine ⟨v, m1, c1, rfl, fun hb => hx ⟨hy', v, vs, by rw [← a4, he], hb⟩, by omega, rfl, rfl⟩
        obtain ⟨v, m2, c2, t1, t2, t3, t4, t5⟩ := ht
        have hb : ∃ z c3, m1.boundary c1 = .ok (some z, c3) ∧ c3.errs = c1.errs := by
          unfold Msg.boundary
          rw [P.bind_ok t1]
          dsimp only
          rcases hv : v.boundary? with _ | _ | b
          · dsimp only
            have h8 : (str "boundary").length = 8 := by decide
            have h31 : defaultBoundary.length = 31 := by decide
            have ha : ∃ c4, allocBoundary v c2 = .ok (some (), c4) ∧ c4.errs = c2.errs := by
              unfold allocBoundary
              have hc : ∃ c5, (match v with
                  | .contentType _ _ ps => if ps.known = [] then P.orErr (P.alloc 2) else pure ()
                  | _ => pure () : P Unit) c2 = .ok (some (), c5) ∧ c5.errs = c2.errs ∧ c5.used ≤ c2.used + 2 ∧ c5.cap = c2.cap := by
                split
                · split
                  · exact ⟨_, orErr_alloc_room (by omega), rfl, Nat.le_refl _, rfl⟩
                  · exact ⟨c2, rfl, rfl, by omega, rfl⟩
                · exact ⟨c2, rfl, rfl, by omega, rfl⟩
              obtain ⟨c5, w1, w2, w3, w4⟩ := hc
              have w5 : ∃ c6, (do
                  P.orErr (P.alloc 8)
                  let _ ← P.orErr (P.orErr (P.allocStr (str "boundary")))
                  let _ ← P.orErr (P.orErr (P.allocStr defaultBoundary))
                  pure () : P Unit) c5 = .ok (some (), c6) ∧ c6.errs = c5.errs := by
                rw [P.bind_ok (orErr_alloc_room (by omega)), P.bind_ok (P.orErr_ok (orErr_allocStr_room (by simp only [h8]; omega))), P.bind_ok (P.orErr_ok (orErr_allocStr_room (by simp only [h8, h31]; omega)))]
                exact ⟨_, rfl, rfl⟩
              obtain ⟨c6, w6, w7⟩ := w5
              exact ⟨c6, (P.bind_ok w1).trans w6, w7.trans w2⟩
            obtain ⟨c4, w1, w2⟩ := ha
            rw [P.bind_ok (P.orErr_ok w1)]
            exact ⟨_, _, rfl, w2.trans t5⟩
          · exact absurd hv t2
          · exact ⟨_, _, rfl, t5⟩
        obtain ⟨z, c3, w1, w2⟩ := hb
        exact ⟨z, c3, P.orErr_ok w1, w2⟩
      · rw [if_neg hy]; exact ⟨_, _, rfl, rfl⟩
    obtain ⟨⟨bd, m2⟩, c2, hq, hq2⟩ := hq
    rw [P.bind_ok hq] at h
    dsimp only at h
    rcases ht : m2.encodeTail net c.flags bd (buf ++ s) with x | _ | _ <;> rw [ht] at h <;> cases h
    exact ⟨⟨fun y => (by cases y), fun y => absurd y hx⟩, fun y => (by cases y), fun _ => hq2.trans er1⟩

/-! ## Messages that have been read -/

/-- a Content-Type item holds a Content-Type -/
def HItem.Typed : HItem → Prop
  | .parsed .contentType v => ∃ t s ps, v = .contentType t s ps
  | _ => True

theorem headerLine_typed (net : Net) (need : HKind → Bool) (r : Option Bytes × Nat) (c : Ctx) (l : List HItem) (c' : Ctx)
    (e : parseHeaderLine net need r c = .ok (some l, c')) : ∀ it ∈ l, it.Typed := by
  obtain ⟨n, i⟩ := r
  unfold parseHeaderLine at e
  dsimp only at e
  cases hk : HKind.ofIndex i with
  | some k =>
    rw [hk] at e
    simp only at e
    split at e
    · obtain ⟨vs, c1, h1, e⟩ := P.bind_some e
      cases e
      intro it hit
      obtain ⟨v, hv, rfl⟩ := List.mem_map.1 hit
      cases k
      case contentType =>
        unfold parseHeaderValues at h1
        obtain ⟨w, c2, h2, h1⟩ := P.bind_some h1
        rw [if_neg (by decide)] at h1
        obtain ⟨_, c3, _, h1⟩ := P.bind_some h1
        cases h1
        rw [List.mem_singleton] at hv; subst hv
        unfold HKind.parseAlloc at h2
        obtain ⟨_, c4, _, h2⟩ := P.bind_some h2
        replace h2 : parseContentType c4 = .ok (some v, c2) := h2
        unfold parseContentType at h2
        obtain ⟨t, _, _, h2⟩ := P.bind_some h2
        obtain ⟨_, _, _, h2⟩ := P.bind_some h2
        obtain ⟨s, _, _, h2⟩ := P.bind_some h2
        obtain ⟨ps, _, _, h2⟩ := P.bind_some h2
        cases h2
        exact ⟨t, s, ps, rfl⟩
      all_goals trivial
    · obtain ⟨h, c1, e1, e⟩ := P.bind_some e
      cases e
      intro it hit
      rw [List.mem_singleton] at hit; subst hit
      trivial
  | none =>
    rw [hk] at e
    simp only at e
    obtain ⟨h, c1, e1, e⟩ := P.bind_some e
    cases e
    intro it hit
    rw [List.mem_singleton] at hit; subst hit
    trivial

theorem headers_typed (net : Net) (need : HKind → Bool) (c : Ctx) (l : List HItem) (c' : Ctx)
    (e : parseHeaders net need c = .ok (some l, c')) : ∀ it ∈ l, it.Typed := by
  unfold parseHeaders P.forLoop at e
  refine P.loop_inv (headersBody net need) (fun a => ∀ it ∈ a, it.Typed) (fun a => ∀ it ∈ a, it.Typed) ?_ _ [] c l c' (by simp) e
  intro s c r c' hs h
  unfold headersBody at h
  obtain ⟨c0, c1, h0, h⟩ := P.bind_some h
  split at h
  · cases h; exact hs
  · split at h
    · obtain ⟨_, c2, _, h⟩ := P.bind_some h
      cases h; exact hs
    · obtain ⟨n, c2, _, h⟩ := P.bind_some h
      obtain ⟨hl, c3, h3, h⟩ := P.bind_some h
      cases h
      simp only
      intro it hit
      rcases List.mem_append.1 hit with hit | hit
      · exact hs it hit
      · exact headerLine_typed net need n c2 hl _ h3 it hit

/-- **C45** every message the parser returns has a Content-Type in the place of the Content-Type: the hypothesis of `encode_twice` -/
theorem parsed_typeOk (net : Net) (c : Ctx) (m : Msg) (c' : Ctx) (h : Msg.parse net c = .ok (some m, c')) : m.TypeOk := by
  unfold Msg.parse at h
  obtain ⟨s, c1, h1, h⟩ := P.bind_some h
  obtain ⟨c2, c3, h2, h⟩ := P.bind_some h
  cases h2
  split at h
  · cases h
  obtain ⟨its, c4, h3, h⟩ := P.bind_some h
  obtain ⟨bs, c5, _, h⟩ := P.bind_some h
  cases h
  intro v hv
  exact headers_typed net _ _ _ _ (P.orErr_some h3) _ (ofItems_mem hv)

/-- **C45** parse, encode, encode again: the same bytes, no memory, nothing changes -/
theorem parsed_encode_twice (net : Net) (c c1 c2 : Ctx) (m m' : Msg) (buf t : Bytes) (h : Msg.parse net c = .ok (some m, c1))
    (he : m.encode net buf c1 = .ok (some (t, m'), c2)) : m'.encode net buf c2 = .ok (some (t, m'), c2) :=
  encode_twice net m m' buf t c1 c2 c2 (parsed_typeOk net c m c1 h) he (encode_quiet net m buf c1 c2 _ he).2.2.1

/-- the first call costs memory and changes the message: Content-Length and boundary are created -/
def twoBodies : Msg := { start := .status .v20 200 (str "OK"), bodies := [{ body := str "ab" }, { body := str "cde" }] }
theorem encode_twice_sample : twoBodies.TypeOk ∧ (twoBodies.encode Net.sample [] { src := [], cap := 1000 }).all (fun r =>
    r.2.used == 95 && r.1.any (fun x => x.1 == str "SIP/2.0 200 OK\r\nContent-Length:        118\r\nContent-Type: multipart/mixed;boundary=\"sip-unique-boundary-aasdasdewfd\"\r\nMIME-Version: 1.0\r\n\r\n--sip-unique-boundary-aasdasdewfd\r\n\r\nab\r\n--sip-unique-boundary-aasdasdewfd\r\n\r\ncde\r\n--sip-unique-boundary-aasdasdewfd--" &&
      (x.2.encode Net.sample [] r.2).all (fun r2 => r2.1.any (fun y => y.1 == x.1) && r2.2.used == 95))) = true :=
  ⟨(by intro v hv; cases hv), (by decide +kernel)⟩

/-- a boundary without a value: the call fails and records one error -/
theorem encode_fails_sample : (({ twoBodies with hdrs := { common := fun (k : HKind) => if k = .contentType then [.contentType (str "multipart") (str "mixed") { known := [some ⟨str "boundary", none⟩] }] else [] } } : Msg).encode
    Net.sample [] { src := [], cap := 1000 }).all (fun r => r.1.isNone && r.2.errs == [0]) = true := by decide +kernel

end Sip
