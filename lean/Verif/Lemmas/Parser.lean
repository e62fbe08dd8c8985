import Verif.Model.Parser
import Verif.Props.Lws
import Verif.Props.Str
import Verif.Props.Num
import Verif.Props.Quoted
/-!
# Two judgements about parsers

* `Parses fl p t v n F`: on every input that starts with the text `t` followed by something that satisfies `F`, and with enough memory, `p`
  yields `v`, consumes exactly `t` and uses exactly `n` bytes of the arena.
* `SafeAt q l m B Q p c`: from the state `c` the parser only moves forward inside the input, only grows the arena inside its capacity, keeps
  input and flags, keeps earlier errors; on success the value satisfies `Q`, no end of line has been passed and at most `m` bytes of memory per
  byte of input and `B` more were used; with `l` a failure is reported; it neither panics nor hangs, provided (`Pre`, `PreH`) level 0: nothing,
  level 1: a line end is still to come, no bracket is open over a line end and no quoted string that loops for ever starts on the rest of the input, level 2: that and no `phone-context` parameter without value.
-/
namespace Sip

/-! ## Safety -/

/-- the state is inside the input and inside the arena -/
structure Inv (c : Ctx) : Prop where
  pos : c.pos ≤ c.src.length
  used : c.used ≤ c.cap

/-- the list of errors only grows, by errors at positions from `lo` to `hi` -/
def ErrsIn (lo hi : Nat) (old new : List Nat) : Prop := ∃ xs, new = xs ++ old ∧ ∀ x ∈ xs, lo ≤ x ∧ x ≤ hi

theorem ErrsIn.refl {lo hi : Nat} {l : List Nat} : ErrsIn lo hi l l := ⟨[], rfl, fun _ h => by cases h⟩
theorem ErrsIn.mono {lo lo' hi : Nat} {a b : List Nat} (h : ErrsIn lo' hi a b) (hl : lo ≤ lo') : ErrsIn lo hi a b := by
  obtain ⟨xs, h1, h2⟩ := h
  exact ⟨xs, h1, fun x hx => ⟨Nat.le_trans hl (h2 x hx).1, (h2 x hx).2⟩⟩
theorem ErrsIn.trans {lo hi : Nat} {a b c : List Nat} (h1 : ErrsIn lo hi a b) (h2 : ErrsIn lo hi b c) : ErrsIn lo hi a c := by
  obtain ⟨xs, e1, g1⟩ := h1
  obtain ⟨ys, e2, g2⟩ := h2
  refine ⟨ys ++ xs, by rw [e2, e1, List.append_assoc], fun x hx => ?_⟩
  rcases List.mem_append.1 hx with h | h
  · exact g2 x h
  · exact g1 x h
theorem ErrsIn.cons {lo hi p : Nat} {a b : List Nat} (h : ErrsIn lo hi a b) (hp : lo ≤ p ∧ p ≤ hi) : ErrsIn lo hi a (p :: b) :=
  h.trans ⟨[p], rfl, fun x hx => by rw [List.mem_singleton.1 hx]; exact hp⟩
theorem ErrsIn.length_le {lo hi : Nat} {a b : List Nat} (h : ErrsIn lo hi a b) : a.length ≤ b.length := by
  obtain ⟨xs, e1, -⟩ := h
  rw [e1, List.length_append]; omega

/-- what every parser guarantees about the context, successful or not -/
structure Step (c c' : Ctx) : Prop where
  src : c'.src = c.src
  cap : c'.cap = c.cap
  flags : c'.flags = c.flags
  pos_le : c.pos ≤ c'.pos
  pos_len : c'.pos ≤ c.src.length
  used_le : c.used ≤ c'.used
  used_cap : c'.used ≤ c.cap
  errs : ErrsIn c.pos c.src.length c.errs c'.errs

/-- no end of line (a CRLF that is not a fold) is passed -/
def Line (c c' : Ctx) : Prop := ∀ e, c.pos ≤ e → StartsEol (c.src.drop e) → c'.pos ≤ e

/-- an end of line is still to come -/
def HasEol (c : Ctx) : Prop := ∃ e, c.pos ≤ e ∧ StartsEol (c.src.drop e)

/-- a place where an endless loop may start: a CR not followed by LF, an LF not preceded by CR, a backslash in front of a CR or LF -/
def StrayAt (s : Bytes) (i : Nat) : Prop :=
  (s[i]? = some 0x0d ∧ s[i + 1]? ≠ some 0x0a) ∨ (s[i]? = some 0x0a ∧ ∀ j, i = j + 1 → s[j]? ≠ some 0x0d) ∨
  (s[i]? = some 0x5c ∧ (s[i + 1]? = some 0x0d ∨ s[i + 1]? = some 0x0a))

/-- every CR is followed by LF, every LF preceded by CR, and no backslash stands before a CR or LF -/
def NoStray (s : Bytes) : Prop := ∀ i, ¬ StrayAt s i

/-- `i` is not in front of the position, and in front of the next end of line -/
def OnLine (c : Ctx) (i : Nat) : Prop := c.pos ≤ i ∧ ∀ e, c.pos ≤ e → StartsEol (c.src.drop e) → i < e

/-- memory for the rest of the input, at `m` bytes of arena for a byte of input, and `B` more -/
def Room (c : Ctx) (m B : Nat) : Prop := c.used + m * (c.src.length - c.pos) + B < c.cap

/-- a parameter name that reads `phone-context` (after unescaping, ignoring case) stands here without `=` behind it -/
def TelBare (s : Bytes) (i : Nat) : Prop :=
  ∃ o y, Decodes csSipPname (s.drop i) o y ∧ o.map asciiLower = str "phone-context" ∧ y.head? ≠ some 0x3d

/-- there is none in the input -/
def TelOk (s : Bytes) : Prop := ∀ i, ¬ TelBare s i

/-- there is none up to the end of the line the position is on -/
def TelOn (c : Ctx) : Prop := ∀ i, (∀ e, c.pos ≤ e → StartsEol (c.src.drop e) → i ≤ e) → ¬ TelBare c.src i

/-- a bracket that is closed only behind the end of its line -/
def OpenAt (s : Bytes) (i : Nat) : Prop :=
  s[i]? = some 0x5b ∧ ∃ e, i ≤ e ∧ StartsEol (s.drop e) ∧ (∀ k, i ≤ k → k < e → s[k]? ≠ some 0x5d) ∧ ∃ k, i ≤ k ∧ s[k]? = some 0x5d

/-- no bracket is closed behind the end of its line -/
def BrackOk (s : Bytes) : Prop := ∀ i, ¬ OpenAt s i

/-- the same for the line the position is on -/
def NoStrayOn (c : Ctx) : Prop := ∀ i, OnLine c i → ¬ StrayAt c.src i
def BrackOn (c : Ctx) : Prop := ∀ i, OnLine c i → ¬ OpenAt c.src i

/-- what excludes a panic, by level: nothing (0), a line end still to come and no bracket on this line open over the line end (1), that and no `phone-context`
without value (2) -/
def Pre (q : Nat) (c : Ctx) : Prop := (1 ≤ q → HasEol c ∧ BrackOn c) ∧ (2 ≤ q → TelOn c)
/-- what excludes passing a line end, by level -/
def PreL (q : Nat) (c : Ctx) : Prop := 1 ≤ q → BrackOn c
/-- the white space copier is stuck here: a LF, or a CR without LF -/
def Stuck (y : Bytes) : Prop := (∃ z, y = 0x0a :: z) ∨ ∃ z, y = 0x0d :: z ∧ z.head? ≠ some 0x0a

/-- at `i` a quoted string starts whose text is followed by a bare LF, or a CR without LF: the places where `ParseAndAllocSipQuotedString` loops for ever
(`quoted_loops_forever`) -/
def QLoop (s : Bytes) (i : Nat) : Prop := s[i]? = some 0x22 ∧ ∃ t o y, s.drop (i + 1) = t ++ y ∧ QText t o ∧ Stuck y

/-- none starts at or behind the position -/
def NoLoop (c : Ctx) : Prop := ∀ i, c.pos ≤ i → ¬ QLoop c.src i
/-- none starts on the line the position is on -/
def NoLoopOn (c : Ctx) : Prop := ∀ i, OnLine c i → ¬ QLoop c.src i

/-- what excludes an endless loop, by level: no quoted string that loops starts on the rest of the input, or none on this line and no bracket is open over its end -/
def PreH (q : Nat) (c : Ctx) : Prop := 1 ≤ q → NoLoop c ∨ (NoLoopOn c ∧ BrackOn c)

/-- a quoted string that loops has a stray CR or LF in it, before the next line end -/
theorem qtext_stray {s t o y : Bytes} (ht : QText t o) : ∀ n, s.drop n = t ++ y → Stuck y → (∀ j, n = j + 1 → s[j]? ≠ some 0x0d) →
    ∃ i, n ≤ i ∧ StrayAt s i ∧ ∀ e, n ≤ e → e ≤ i → ¬ StartsEol (s.drop e) := by
  have hat : ∀ (n k : Nat) (x : Bytes), s.drop n = x → s[n + k]? = x[k]? := by
    intro n k x h; rw [← h, List.getElem?_drop]
  have hne : ∀ (e : Nat) (b : UInt8), s[e]? = some b → b ≠ 0x0d → ¬ StartsEol (s.drop e) := by
    rintro e b hb hn ⟨z, hz, _⟩
    have := hat e 0 _ hz
    rw [Nat.add_zero, hb] at this
    exact hn (by simpa using this)
  have hdr : ∀ (n k : Nat) (x : Bytes), s.drop n = x → s.drop (n + k) = x.drop k := by
    intro n k x h; rw [← h, List.drop_drop]
  have step : ∀ n k, (∀ e, n ≤ e → e < n + k → ¬ StartsEol (s.drop e)) →
      (∃ i, n + k ≤ i ∧ StrayAt s i ∧ ∀ e, n + k ≤ e → e ≤ i → ¬ StartsEol (s.drop e)) →
      ∃ i, n ≤ i ∧ StrayAt s i ∧ ∀ e, n ≤ e → e ≤ i → ¬ StartsEol (s.drop e) := by
    rintro n k h ⟨i, h1, h2, h3⟩
    exact ⟨i, by omega, h2, fun e he1 he2 => if hk : e < n + k then h e he1 hk else h3 e (by omega) he2⟩
  induction ht with
  | nil =>
    intro n hs hy hp
    refine ⟨n, Nat.le_refl _, ?_, fun e h1 h2 => ?_⟩
    · rcases hy with ⟨z, rfl⟩ | ⟨z, rfl, hz⟩
      · exact Or.inr (Or.inl ⟨by have := hat n 0 _ hs; simpa using this, hp⟩)
      · refine Or.inl ⟨by have := hat n 0 _ hs; simpa using this, ?_⟩
        have := hat n 1 _ hs
        rw [this]; intro h; apply hz
        simpa [List.head?_eq_getElem?] using h
    · have : e = n := by omega
      subst this
      rintro ⟨z, hz, _⟩
      rw [hs] at hz
      rcases hy with ⟨w, rfl⟩ | ⟨w, rfl, hw⟩
      · simp at hz
      · simp at hz; rw [hz] at hw; simp at hw
  | lit v t o h hr ih =>
    intro n hs hy hp
    have h0 : s[n]? = some v := by have := hat n 0 _ hs; simpa using this
    have hv : v ≠ 0x0d := by rintro rfl; exact absurd h.2 (by decide +kernel)
    refine step n 1 (fun e h1 h2 => by rw [show e = n by omega]; exact hne n v h0 hv) (ih (n + 1) (by rw [hdr n 1 _ hs]; rfl) hy ?_)
    intro j hj; rw [show j = n by omega, h0]; intro e; exact hv (by simpa using e)
  | wsp v t o h hr ih =>
    intro n hs hy hp
    have h0 : s[n]? = some v := by have := hat n 0 _ hs; simpa using this
    have hv : v ≠ 0x0d := by rintro rfl; revert h; decide
    refine step n 1 (fun e h1 h2 => by rw [show e = n by omega]; exact hne n v h0 hv) (ih (n + 1) (by rw [hdr n 1 _ hs]; rfl) hy ?_)
    intro j hj; rw [show j = n by omega, h0]; intro e; exact hv (by simpa using e)
  | fold w t o h hr ih =>
    intro n hs hy hp
    have h1 : s[n + 1]? = some 0x0a := by have := hat n 1 _ hs; simpa using this
    have h2 : s[n + 2]? = some w := by have := hat n 2 _ hs; simpa using this
    have hv : w ≠ 0x0d := by rintro rfl; revert h; decide
    refine step n 3 (fun e g1 g2 => ?_) (ih (n + 3) (by rw [hdr n 3 _ hs]; rfl) hy ?_)
    · rcases (by omega : e = n ∨ e = n + 1 ∨ e = n + 2) with rfl | rfl | rfl
      · rintro ⟨z, hz, hzz⟩
        rw [hs] at hz
        simp only [List.cons_append, List.nil_append, List.cons.injEq, true_and] at hz
        subst hz
        have := hzz w (by simp)
        rcases h with h | h
        · exact this.1 h
        · exact this.2 h
      · exact hne _ _ h1 (by decide)
      · exact hne _ _ h2 hv
    · intro j hj; rw [show j = n + 2 by omega, h2]; intro e; exact hv (by simpa using e)
  | pair x t o hr ih =>
    intro n hs hy hp
    have h0 : s[n]? = some 0x5c := by have := hat n 0 _ hs; simpa using this
    have h1 : s[n + 1]? = some x := by have := hat n 1 _ hs; simpa using this
    by_cases hx : x = 0x0d
    · subst hx
      exact ⟨n, Nat.le_refl _, Or.inr (Or.inr ⟨h0, Or.inl h1⟩), fun e g1 g2 => by rw [show e = n by omega]; exact hne _ _ h0 (by decide)⟩
    · refine step n 2 (fun e g1 g2 => ?_) (ih (n + 2) (by rw [hdr n 2 _ hs]; rfl) hy ?_)
      · rcases (by omega : e = n ∨ e = n + 1) with rfl | rfl
        · exact hne _ _ h0 (by decide)
        · exact hne _ _ h1 hx
      · intro j hj; rw [show j = n + 1 by omega, h1]; intro e; exact hx (by simpa using e)

theorem QLoop.stray {s : Bytes} {i : Nat} (h : QLoop s i) : ∃ j, i < j ∧ StrayAt s j ∧ ∀ e, i < e → e ≤ j → ¬ StartsEol (s.drop e) := by
  obtain ⟨h0, t, o, y, h1, h2, h3⟩ := h
  obtain ⟨j, g1, g2, g3⟩ := qtext_stray h2 (i + 1) h1 h3 (fun j hj => by rw [show j = i by omega, h0]; decide)
  exact ⟨j, g1, g2, fun e he1 he2 => g3 e he1 he2⟩

theorem NoStray.noLoop {c : Ctx} (h : NoStray c.src) : NoLoop c := fun i _ hq => by
  obtain ⟨j, _, hj, _⟩ := hq.stray
  exact h j hj
theorem NoStrayOn.noLoopOn {c : Ctx} (h : NoStrayOn c) : NoLoopOn c := fun i hi hq => by
  obtain ⟨j, h1, hj, h2⟩ := hq.stray
  refine h j ⟨Nat.le_of_lt (Nat.lt_of_le_of_lt hi.1 h1), fun e he hs => ?_⟩ hj
  have := hi.2 e he hs
  exact Nat.lt_of_not_le (fun hle => h2 e this hle hs)
theorem NoLoop.on {c : Ctx} (h : NoLoop c) : NoLoopOn c := fun i hi => h i hi.1
theorem NoLoop.preH {q : Nat} {c : Ctx} (h : NoLoop c) : PreH q c := fun _ => Or.inl h

theorem NoStray.on {c : Ctx} (h : NoStray c.src) : NoStrayOn c := fun i _ => h i
theorem BrackOk.on {c : Ctx} (h : BrackOk c.src) : BrackOn c := fun i _ => h i
theorem NoStray.preH {q : Nat} {c : Ctx} (h : NoStray c.src) : PreH q c := fun _ => Or.inl h.noLoop

theorem Pre.mono {q q' : Nat} {c : Ctx} (h : Pre q' c) (hq : q ≤ q') : Pre q c := ⟨fun h1 => h.1 (by omega), fun h2 => h.2 (by omega)⟩
theorem PreH.mono {q q' : Nat} {c : Ctx} (h : PreH q' c) (hq : q ≤ q') : PreH q c := fun h1 => h (by omega)
theorem PreL.mono {q q' : Nat} {c : Ctx} (h : PreL q' c) (hq : q ≤ q') : PreL q c := fun h1 => h (by omega)
theorem Pre.toL {q : Nat} {c : Ctx} (h : Pre q c) : PreL q c := fun h1 => (h.1 h1).2
theorem PreL.zero (c : Ctx) : PreL 0 c := fun h => by omega
theorem Pre.zero (c : Ctx) : Pre 0 c := ⟨fun h => by omega, fun h => by omega⟩
theorem PreH.zero (c : Ctx) : PreH 0 c := fun h => by omega

structure SafeAt {α : Type} (q : Nat) (l : Bool) (m B : Nat) (Q : α → Prop) (p : P α) (c : Ctx) : Prop where
  step : ∀ r c', p c = .ok (r, c') → Step c c'
  some : ∀ v c', p c = .ok (some v, c') → Q v ∧ (PreL q c → Line c c') ∧ c'.used ≤ c.used + m * (c'.pos - c.pos) + B
  none : l = true → ∀ c', p c = .ok (none, c') → c.errs.length < c'.errs.length
  nopanic : Pre q c → Room c m B → p c ≠ .panic
  nohang : PreH q c → p c ≠ .hang
  nmem : ∀ c', p c = .ok (Option.none, c') → c'.used ≤ c.used + m * (c.src.length - c.pos) + B

/-- from every state -/
def Safe {α : Type} (q : Nat) (l : Bool) (m B : Nat) (Q : α → Prop) (p : P α) : Prop := ∀ c, Inv c → SafeAt q l m B Q p c

theorem Step.refl {c : Ctx} (h : Inv c) : Step c c :=
  ⟨rfl, rfl, rfl, Nat.le_refl _, h.pos, Nat.le_refl _, h.used, ErrsIn.refl⟩
theorem Step.trans {a b c : Ctx} (h1 : Step a b) (h2 : Step b c) : Step a c where
  src := h2.src.trans h1.src
  cap := h2.cap.trans h1.cap
  flags := h2.flags.trans h1.flags
  pos_le := Nat.le_trans h1.pos_le h2.pos_le
  pos_len := by have := h2.pos_len; rw [h1.src] at this; exact this
  used_le := Nat.le_trans h1.used_le h2.used_le
  used_cap := by have := h2.used_cap; rw [h1.cap] at this; exact this
  errs := h1.errs.trans (by have := h2.errs; rw [h1.src] at this; exact this.mono h1.pos_le)
theorem Step.inv {c c' : Ctx} (h : Step c c') : Inv c' := ⟨by rw [h.src]; exact h.pos_len, by rw [h.cap]; exact h.used_cap⟩
/-- a reported position lies between the position before and the end of the input -/
syntax "errpos" : tactic
macro_rules
  | `(tactic| errpos) => `(tactic| first
    | exact ⟨Nat.le_refl _, Inv.pos (by assumption)⟩
    | exact ⟨Step.pos_le (by assumption), Step.pos_len (by assumption)⟩
    | (constructor <;> first | omega | (dsimp only [Ctx.adv, Ctx.setPos]; omega)))
theorem Step.err {c : Ctx} (h : Inv c) (p : Nat) (hp : c.pos ≤ p ∧ p ≤ c.src.length := by errpos) : Step c (c.addError p) :=
  ⟨rfl, rfl, rfl, Nat.le_refl _, h.pos, Nat.le_refl _, h.used, ErrsIn.refl.cons hp⟩
theorem Step.addError {c c' : Ctx} (h : Step c c') (p : Nat) (hp : c.pos ≤ p ∧ p ≤ c.src.length := by errpos) : Step c (c'.addError p) :=
  ⟨h.src, h.cap, h.flags, h.pos_le, h.pos_len, h.used_le, h.used_cap, h.errs.cons hp⟩
theorem Step.addErrorHere {c c' : Ctx} (h : Step c c') : Step c (c'.addError c'.pos) := h.addError _ ⟨h.pos_le, h.pos_len⟩
theorem Step.setPos {c : Ctx} (h : Inv c) {p : Nat} (h1 : c.pos ≤ p) (h2 : p ≤ c.src.length) : Step c (c.setPos p) :=
  ⟨rfl, rfl, rfl, h1, h2, Nat.le_refl _, h.used, ErrsIn.refl⟩
theorem Step.adv {c : Ctx} (h : Inv c) {n : Nat} (h2 : c.pos + n ≤ c.src.length) : Step c (c.adv n) :=
  ⟨rfl, rfl, rfl, Nat.le_add_right _ _, h2, Nat.le_refl _, h.used, ErrsIn.refl⟩

theorem Line.refl (c : Ctx) : Line c c := fun _ h _ => h
theorem Line.trans {a b c : Ctx} (hs : b.src = a.src) (h1 : Line a b) (h2 : Line b c) : Line a c :=
  fun e he hl => h2 e (h1 e he hl) (by rw [hs]; exact hl)
theorem HasEol.step {c c' : Ctx} (h : HasEol c) (hs : c'.src = c.src) (hl : Line c c') : HasEol c' := by
  obtain ⟨e, h1, h2⟩ := h
  exact ⟨e, hl e h1 h2, by rw [hs]; exact h2⟩
theorem OnLine.back {c c' : Ctx} {i : Nat} (h : OnLine c' i) (hs : c'.src = c.src) (hp : c.pos ≤ c'.pos) (hl : Line c c') : OnLine c i :=
  ⟨Nat.le_trans hp h.1, fun e he hst => h.2 e (hl e he hst) (by rw [hs]; exact hst)⟩
theorem BrackOn.step {c c' : Ctx} (h : BrackOn c) (hs : c'.src = c.src) (hp : c.pos ≤ c'.pos) (hl : Line c c') : BrackOn c' :=
  fun i hi => by rw [hs]; exact h i (hi.back hs hp hl)
theorem NoStrayOn.step {c c' : Ctx} (h : NoStrayOn c) (hs : c'.src = c.src) (hp : c.pos ≤ c'.pos) (hl : Line c c') : NoStrayOn c' :=
  fun i hi => by rw [hs]; exact h i (hi.back hs hp hl)
theorem NoLoopOn.step {c c' : Ctx} (h : NoLoopOn c) (hs : c'.src = c.src) (hp : c.pos ≤ c'.pos) (hl : Line c c') : NoLoopOn c' :=
  fun i hi => by rw [hs]; exact h i (hi.back hs hp hl)
theorem NoLoop.step {c c' : Ctx} (h : NoLoop c) (hs : c'.src = c.src) (hp : c.pos ≤ c'.pos) : NoLoop c' :=
  fun i hi => by rw [hs]; exact h i (Nat.le_trans hp hi)
theorem TelOk.on {c : Ctx} (h : TelOk c.src) : TelOn c := fun i _ => h i
theorem TelOn.step {c c' : Ctx} (h : TelOn c) (hs : c'.src = c.src) (hl : Line c c') : TelOn c' := fun i hi => by
  rw [hs]
  exact h i fun e he hse => hi e (hl e he hse) (by rw [hs]; exact hse)
theorem Pre.step {q : Nat} {c c' : Ctx} (h : Pre q c) (hs : c'.src = c.src) (hp : c.pos ≤ c'.pos) (hl : Line c c') : Pre q c' :=
  ⟨fun h1 => ⟨(h.1 h1).1.step hs hl, (h.1 h1).2.step hs hp hl⟩, fun h2 => (h.2 h2).step hs hl⟩
theorem PreL.step {q : Nat} {c c' : Ctx} (h : PreL q c) (hs : c'.src = c.src) (hp : c.pos ≤ c'.pos) (hl : Line c c') : PreL q c' :=
  fun h1 => (h h1).step hs hp hl
theorem PreH.step {q : Nat} {c c' : Ctx} (h : PreH q c) (hs : c'.src = c.src) (hp : c.pos ≤ c'.pos) (hl : PreL q c → Line c c') : PreH q c' := by
  intro h1
  rcases h h1 with h | ⟨g1, g2⟩
  · exact Or.inl (h.step hs hp)
  · have := hl (fun _ => g2)
    exact Or.inr ⟨g1.step hs hp this, g2.step hs hp this⟩
theorem Room.step {c c' : Ctx} {m B1 B2 : Nat} (h : Room c m (B1 + B2)) (hs : Step c c') (hu : c'.used ≤ c.used + m * (c'.pos - c.pos) + B1) :
    Room c' m B2 := by
  unfold Room at *
  have h1 := hs.pos_le; have h2 := hs.pos_len
  rw [hs.src, hs.cap]
  have e : c.src.length - c.pos = (c'.pos - c.pos) + (c.src.length - c'.pos) := by omega
  rw [e, Nat.mul_add] at h
  omega
/-- memory used by two steps -/
theorem Step.mem {c c1 c' : Ctx} {m B1 B2 : Nat} (hs : Step c c1) (hu : c1.used ≤ c.used + m * (c1.pos - c.pos) + B1)
    (h : c'.used ≤ c1.used + m * (c1.src.length - c1.pos) + B2) : c'.used ≤ c.used + m * (c.src.length - c.pos) + (B1 + B2) := by
  have h1 := hs.pos_le; have h2 := hs.pos_len
  rw [hs.src] at h
  have e : c.src.length - c.pos = (c1.pos - c.pos) + (c.src.length - c1.pos) := by omega
  rw [e, Nat.mul_add]
  omega
theorem Room.mono {c : Ctx} {m m' B1 B2 : Nat} (h : Room c m B2) (hm : m' ≤ m) (hb : B1 ≤ B2) : Room c m' B1 := by
  unfold Room at *
  have := Nat.mul_le_mul_right (c.src.length - c.pos) hm
  omega

theorem startsEol_head {y : Bytes} (h : StartsEol y) : y.head? = some 0x0d := by
  obtain ⟨z, rfl, _⟩ := h; rfl

/-- a text without an unfolded line end inside it does not pass one -/
theorem line_of_text {c c' : Ctx} (x y : Bytes) (hr : c.rest = x ++ y) (hp : c'.pos = c.pos + x.length)
    (hx : ∀ i, i < x.length → ¬ StartsEol ((x ++ y).drop i)) : Line c c' := by
  intro e he hl
  false_or_by_contra
  rename_i hgt
  have : ¬ StartsEol ((x ++ y).drop (e - c.pos)) := hx _ (by omega)
  apply this
  have h2 : c.src.drop e = c.rest.drop (e - c.pos) := by
    unfold Ctx.rest; rw [List.drop_drop]; congr 1; omega
  rw [← hr, ← h2]; exact hl

/-- a text without CR does not pass a line end -/
theorem line_of_noCR {c c' : Ctx} (x y : Bytes) (hr : c.rest = x ++ y) (hp : c'.pos = c.pos + x.length)
    (hx : ∀ b ∈ x, b ≠ 0x0d) : Line c c' := by
  apply line_of_text x y hr hp
  intro i hi h
  have := startsEol_head h
  rw [List.head?_drop, List.getElem?_append_left hi] at this
  exact hx _ (List.mem_of_getElem? this) rfl

theorem line_sws (c : Ctx) (h : Inv c) : Line c c.sws := by
  obtain ⟨x, y, hr, hx, hs, _⟩ := sws_sound c h.pos
  apply line_of_text x y hr (by rw [hs]; rfl)
  intro i hi hst
  rcases hx with rfl | ⟨b, hbne, hb, rfl | ⟨a, ha, rfl⟩⟩
  · simp at hi
  · have := startsEol_head hst
    rw [List.head?_drop, List.getElem?_append_left hi] at this
    rcases hb _ (List.mem_of_getElem? this) with h | h <;> cases h
  · have hh := startsEol_head hst
    rw [List.head?_drop, List.getElem?_append_left hi] at hh
    -- the CR can only be the one of the fold
    have hia : i = a.length := by
      rcases Nat.lt_trichotomy i a.length with hlt | heq | hgt
      · rw [List.append_assoc, List.getElem?_append_left hlt] at hh
        rcases ha _ (List.mem_of_getElem? hh) with h | h <;> cases h
      · exact heq
      · rw [List.append_assoc, List.getElem?_append_right (by omega)] at hh
        have : i - a.length ≠ 0 := by omega
        obtain ⟨k, hk⟩ := Nat.exists_eq_succ_of_ne_zero this
        rw [hk] at hh
        cases k with
        | zero => simp at hh
        | succ k =>
          simp only [List.cons_append, List.nil_append, List.getElem?_cons_succ] at hh
          rcases hb _ (List.mem_of_getElem? hh) with h | h <;> cases h
    subst hia
    have e : (a ++ [0x0d, 0x0a] ++ b ++ y).drop a.length = 0x0d :: 0x0a :: (b ++ y) := by simp
    rw [e] at hst
    obtain ⟨z, hz, hzz⟩ := hst
    simp only [List.cons_append, List.nil_append, List.cons.injEq, true_and] at hz
    subst hz
    cases b with
    | nil => exact hbne rfl
    | cons w b =>
      have := hzz w (by simp)
      rcases hb w (by simp) with h | h
      · exact this.1 h
      · exact this.2 h

theorem sws_step (c : Ctx) (h : Inv c) : Step c c.sws := by
  obtain ⟨x, y, hr, hx, hs, _, hle⟩ := sws_sound c h.pos
  rw [hs] at hle ⊢
  exact Step.adv h hle
theorem sws_used (c : Ctx) : c.sws.used = c.used := by
  unfold Ctx.sws; split <;> try rfl
  split <;> try rfl
  split <;> rfl
theorem sws_errs (c : Ctx) : c.sws.errs = c.errs := by
  unfold Ctx.sws; split <;> try rfl
  split <;> try rfl
  split <;> rfl

namespace SafeAt
variable {α β : Type} {q : Nat} {l : Bool} {m B : Nat} {Q : α → Prop} {R : β → Prop} {c : Ctx}

theorem mono {p : P α} {q' : Nat} {l' : Bool} {m' B' : Nat} {Q' : α → Prop} (h : SafeAt q l m B Q p c) (hq : q ≤ q') (hl : l' = true → l = true)
    (hm : m ≤ m') (hB : B ≤ B') (hQ : ∀ v, Q v → Q' v) : SafeAt q' l' m' B' Q' p c where
  step := h.step
  some v c' e := by
    obtain ⟨a, b, d⟩ := h.some v c' e
    exact ⟨hQ v a, fun hL => b (hL.mono hq), by have := Nat.mul_le_mul_right (c'.pos - c.pos) hm; omega⟩
  none hl' := h.none (hl hl')
  nopanic he hr := h.nopanic (he.mono hq) (hr.mono hm hB)
  nohang he := h.nohang (he.mono hq)
  nmem c' e := by have := h.nmem c' e; have := Nat.mul_le_mul_right (c.src.length - c.pos) hm; omega

theorem ret (hc : Inv c) {v : α} (h : Q v) : SafeAt q l m B Q (P.ret v) c where
  step r c' e := by cases e; exact Step.refl hc
  some v' c' e := by cases e; exact ⟨h, fun _ => Line.refl c, by omega⟩
  none _ c' e := by cases e
  nopanic _ _ := by intro e; cases e
  nohang _ := by intro e; cases e
  nmem c' e := by cases e
theorem pure (hc : Inv c) {v : α} (h : Q v) : SafeAt q l m B Q (pure v) c := ret hc h

theorem fail (hc : Inv c) : SafeAt q false m B Q P.fail c where
  step r c' e := by cases e; exact Step.refl hc
  some v' c' e := by cases e
  none h := by cases h
  nopanic _ _ := by intro e; cases e
  nohang _ := by intro e; cases e
  nmem c' e := by cases e; omega
theorem err (hc : Inv c) : SafeAt q l m B Q P.err c where
  step r c' e := by cases e; exact Step.err hc _
  some v' c' e := by cases e
  none _ c' e := by cases e; simp [Ctx.addError]
  nopanic _ _ := by intro e; cases e
  nohang _ := by intro e; cases e
  nmem c' e := by cases e; simp only [Ctx.addError]; omega

theorem bind {B1 B2 : Nat} {p : P α} {f : α → P β} (hp : SafeAt q l m B1 Q p c)
    (hf : ∀ v c', p c = .ok (Option.some v, c') → Q v → Inv c' → SafeAt q l m B2 R (f v) c') : SafeAt q l m (B1 + B2) R (p >>= f) c := by
  rcases hpc : p c with ⟨_ | v, c1⟩ | _ | _
  · have e0 : (p >>= f) c = .ok (Option.none, c1) := P.bind_none hpc
    constructor
    · intro r c' e; rw [e0] at e; cases e; exact hp.step _ _ hpc
    · intro v c' e; rw [e0] at e; cases e
    · intro hl c' e; rw [e0] at e; cases e; exact hp.none hl _ hpc
    · intro _ _ e; rw [e0] at e; cases e
    · intro _ e; rw [e0] at e; cases e
    · intro c' e; rw [e0] at e; cases e; have := hp.nmem _ hpc; omega
  · have s1 := hp.step _ _ hpc
    obtain ⟨hq, hline, hu⟩ := hp.some _ _ hpc
    have hs := hf v c1 hpc hq s1.inv
    have e0 : (p >>= f) c = f v c1 := P.bind_ok hpc
    constructor
    · intro r c' e; rw [e0] at e; exact s1.trans (hs.step _ _ e)
    · intro v c' e; rw [e0] at e
      obtain ⟨a, b, d⟩ := hs.some _ _ e
      refine ⟨a, fun hL => (hline hL).trans s1.src (b (hL.step s1.src s1.pos_le (hline hL))), ?_⟩
      have h2 := hs.step _ _ e
      have h3 := s1.pos_le; have h4 := h2.pos_le
      have e : c'.pos - c.pos = (c1.pos - c.pos) + (c'.pos - c1.pos) := by omega
      rw [e, Nat.mul_add]
      omega
    · intro hl c' e; rw [e0] at e
      have := hs.none hl _ e
      have := s1.errs.length_le
      omega
    · intro he hr e; rw [e0] at e
      exact hs.nopanic (he.step s1.src s1.pos_le (hline he.toL)) (hr.step s1 hu) e
    · intro he e; rw [e0] at e
      exact hs.nohang (he.step s1.src s1.pos_le hline) e
    · intro c' e; rw [e0] at e
      exact s1.mem hu (hs.nmem _ e)
  · have e0 : (p >>= f) c = .panic := by rw [P.bind_apply, hpc]
    constructor
    · intro r c' e; rw [e0] at e; cases e
    · intro v c' e; rw [e0] at e; cases e
    · intro hl c' e; rw [e0] at e; cases e
    · intro he hr e; exact hp.nopanic he (hr.mono (Nat.le_refl _) (by omega)) hpc
    · intro _ e; rw [e0] at e; cases e
    · intro c' e; rw [e0] at e; cases e
  · have e0 : (p >>= f) c = .hang := by rw [P.bind_apply, hpc]
    constructor
    · intro r c' e; rw [e0] at e; cases e
    · intro v c' e; rw [e0] at e; cases e
    · intro hl c' e; rw [e0] at e; cases e
    · intro _ _ e; rw [e0] at e; cases e
    · intro he e; exact hp.nohang he hpc
    · intro c' e; rw [e0] at e; cases e

/-- `bind` with the bounds adjusted -/
theorem seq {q1 : Nat} {l1 : Bool} {m1 B1 B2 : Nat} {p : P α} {f : α → P β} (hp : SafeAt q1 l1 m1 B1 Q p c)
    (hf : ∀ v c', p c = .ok (Option.some v, c') → Q v → Inv c' → SafeAt q l m B2 R (f v) c')
    (hB : B1 + B2 ≤ B := by omega) (hm : m1 ≤ m := by omega) (hq : q1 ≤ q := by omega) (hl : l = true → l1 = true := by simp) :
    SafeAt q l m B R (p >>= f) c :=
  (bind (hp.mono hq hl hm (Nat.le_refl _) (fun _ h => h)) hf).mono (Nat.le_refl _) (fun h => h) (Nat.le_refl _) hB (fun _ h => h)

theorem orErr {p : P α} {l' : Bool} (h : SafeAt q l' m B Q p c) : SafeAt q l m B Q (P.orErr p) c := by
  rcases hpc : p c with ⟨_ | v, c1⟩ | _ | _
  · have e0 : P.orErr p c = .ok (Option.none, c1.addError c1.pos) := by simp [P.orErr, hpc]
    have s1 := h.step _ _ hpc
    constructor
    · intro r c' e; rw [e0] at e; cases e; exact s1.addError _
    · intro v c' e; rw [e0] at e; cases e
    · intro hl c' e; rw [e0] at e; cases e
      have := s1.errs.length_le
      simp [Ctx.addError]; omega
    · intro _ _ e; rw [e0] at e; cases e
    · intro _ e; rw [e0] at e; cases e
    · intro c' e; rw [e0] at e; cases e; simp only [Ctx.addError]; exact h.nmem _ hpc
  · have e0 : P.orErr p c = .ok (Option.some v, c1) := P.orErr_ok hpc
    constructor
    · intro r c' e; rw [e0] at e; cases e; exact h.step _ _ hpc
    · intro v c' e; rw [e0] at e; cases e; exact h.some _ _ hpc
    · intro hl c' e; rw [e0] at e; cases e
    · intro _ _ e; rw [e0] at e; cases e
    · intro _ e; rw [e0] at e; cases e
    · intro c' e; rw [e0] at e; cases e
  · have e0 : P.orErr p c = .panic := by simp [P.orErr, hpc]
    constructor
    · intro r c' e; rw [e0] at e; cases e
    · intro v c' e; rw [e0] at e; cases e
    · intro hl c' e; rw [e0] at e; cases e
    · intro he hr e; exact h.nopanic he hr hpc
    · intro _ e; rw [e0] at e; cases e
    · intro c' e; rw [e0] at e; cases e
  · have e0 : P.orErr p c = .hang := by simp [P.orErr, hpc]
    constructor
    · intro r c' e; rw [e0] at e; cases e
    · intro v c' e; rw [e0] at e; cases e
    · intro hl c' e; rw [e0] at e; cases e
    · intro _ _ e; rw [e0] at e; cases e
    · intro he e; exact h.nohang he hpc
    · intro c' e; rw [e0] at e; cases e

/-- an equal parser -/
theorem congr {p p' : P α} (h : p c = p' c) (hs : SafeAt q l m B Q p' c) : SafeAt q l m B Q p c where
  step r c' e := hs.step r c' (h ▸ e)
  some v c' e := hs.some v c' (h ▸ e)
  none hl c' e := hs.none hl c' (h ▸ e)
  nopanic he hr e := hs.nopanic he hr (h ▸ e)
  nohang he e := hs.nohang he (h ▸ e)
  nmem c' e := hs.nmem c' (h ▸ e)

/-- a successful outcome -/
theorem of_okL {p : P α} {v : α} {c' : Ctx} (e0 : p c = .ok (Option.some v, c')) (hs : Step c c') (hq : Q v) (hl : PreL q c → Line c c')
    (hu : c'.used ≤ c.used + m * (c'.pos - c.pos) + B) : SafeAt q l m B Q p c where
  step r d e := by rw [e0] at e; cases e; exact hs
  some v d e := by rw [e0] at e; cases e; exact ⟨hq, hl, hu⟩
  none _ d e := by rw [e0] at e; cases e
  nopanic _ _ e := by rw [e0] at e; cases e
  nohang _ e := by rw [e0] at e; cases e
  nmem d e := by rw [e0] at e; cases e
theorem of_ok {p : P α} {v : α} {c' : Ctx} (e0 : p c = .ok (Option.some v, c')) (hs : Step c c') (hq : Q v) (hl : Line c c')
    (hu : c'.used ≤ c.used + m * (c'.pos - c.pos) + B) : SafeAt q l m B Q p c := of_okL e0 hs hq (fun _ => hl) hu
/-- a failure -/
theorem of_none {p : P α} {c' : Ctx} (e0 : p c = .ok (Option.none, c')) (hs : Step c c') (hl : l = true → c.errs.length < c'.errs.length)
    (hu : c'.used ≤ c.used + m * (c.src.length - c.pos) + B := by (try simp only [Ctx.addError, Ctx.setPos, Ctx.adv, sws_used]) <;> omega) : SafeAt q l m B Q p c where
  step r d e := by rw [e0] at e; cases e; exact hs
  some v d e := by rw [e0] at e; cases e
  none h d e := by rw [e0] at e; cases e; exact hl h
  nopanic _ _ e := by rw [e0] at e; cases e
  nohang _ e := by rw [e0] at e; cases e
  nmem d e := by rw [e0] at e; cases e; exact hu
/-- a panic that memory or a line end excludes -/
theorem of_panic {p : P α} (e0 : p c = .panic) (h : Pre q c → Room c m B → False) : SafeAt q l m B Q p c where
  step r d e := by rw [e0] at e; cases e
  some v d e := by rw [e0] at e; cases e
  none h d e := by rw [e0] at e; cases e
  nopanic a b _ := h a b
  nohang _ e := by rw [e0] at e; cases e
  nmem d e := by rw [e0] at e; cases e

theorem get {f : Ctx → P β} (h : SafeAt q l m B R (f c) c) : SafeAt q l m B R (P.get >>= f) c := congr (P.get_bind f c) h
theorem peek {f : Option UInt8 → P β} (h : SafeAt q l m B R (f c.cur?) c) : SafeAt q l m B R (P.peek >>= f) c := congr (P.peek_bind f c) h

/-- continuing after a step that costs nothing -/
theorem after {p p' : P α} {c1 : Ctx} (e0 : p c = p' c1) (hs : Step c c1) (hl : Line c c1) (hu : c1.used = c.used)
    (h : SafeAt q l m B Q p' c1) : SafeAt q l m B Q p c where
  step r d e := hs.trans (h.step r d (e0 ▸ e))
  some v d e := by
    obtain ⟨a, b, g⟩ := h.some v d (e0 ▸ e)
    refine ⟨a, fun hL => hl.trans hs.src (b (hL.step hs.src hs.pos_le hl)), ?_⟩
    have h3 := hs.pos_le; have h4 := (h.step _ _ (e0 ▸ e)).pos_le
    have e : d.pos - c.pos = (c1.pos - c.pos) + (d.pos - c1.pos) := by omega
    rw [e, Nat.mul_add]
    omega
  none hh d e := by
    have := h.none hh d (e0 ▸ e)
    have := hs.errs.length_le
    omega
  nopanic he hr e := by
    refine h.nopanic (he.step hs.src hs.pos_le hl) ?_ (e0 ▸ e)
    have : Room c m (0 + B) := by simpa using hr
    exact this.step hs (by omega)
  nohang he e := h.nohang (he.step hs.src hs.pos_le (fun _ => hl)) (e0 ▸ e)
  nmem d e := by
    have := hs.mem (m := m) (B1 := 0) (by omega) (h.nmem d (e0 ▸ e))
    omega

/-- `parsePos++` over a byte that is not CR -/
theorem skip1 {f : Unit → P β} {b : UInt8} (hc : Inv c) (hb : c.cur? = Option.some b) (hcr : b ≠ 0x0d)
    (h : Inv (c.adv 1) → SafeAt q l m B R (f ()) (c.adv 1)) : SafeAt q l m B R (P.skip 1 >>= f) c := by
  have hlt : c.pos < c.src.length := by
    unfold Ctx.cur? at hb; exact (List.getElem?_eq_some_iff.1 hb).1
  have hr : c.rest = b :: (c.src.drop (c.pos + 1)) := by
    unfold Ctx.rest Ctx.cur? at *
    obtain ⟨_, hb⟩ := List.getElem?_eq_some_iff.1 hb
    rw [← hb]; exact List.drop_eq_getElem_cons hlt
  have st : Step c (c.adv 1) := Step.adv hc hlt
  exact after (P.skip_bind 1 f c) st (line_of_noCR [b] _ hr rfl (by simpa using hcr)) rfl (h st.inv)

theorem sws {f : Unit → P β} (hc : Inv c) (h : Inv c.sws → SafeAt q l m B R (f ()) c.sws) : SafeAt q l m B R (P.sws >>= f) c :=
  after (P.sws_bind f c) (sws_step c hc) (line_sws c hc) (sws_used c) (h (sws_step c hc).inv)

theorem alloc {n : Nat} (hc : Inv c) : SafeAt q false m n (fun _ => True) (P.alloc n) c := by
  by_cases h : c.used + n > c.cap
  · exact of_none (c' := c) (by simp [P.alloc, Ctx.alloc, h]) (Step.refl hc) (by simp)
  · refine of_ok (v := ()) (c' := { c with used := c.used + n }) (by simp [P.alloc, Ctx.alloc, h]) ?_ trivial (Line.refl c) (by simp)
    exact ⟨rfl, rfl, rfl, Nat.le_refl _, hc.pos, by simp, by simp only; omega, ErrsIn.refl⟩

theorem allocStr {b : Bytes} (hc : Inv c) : SafeAt q false m (b.length + 2) (fun v => v = b) (P.allocStr b) c := by
  by_cases h : c.used + (b.length + 2) > c.cap
  · exact of_none (c' := c) (by simp [P.allocStr, Sip.allocStr, h]) (Step.refl hc) (by simp)
  · refine of_ok (v := b) (c' := { c with used := c.used + (b.length + 2) }) (by simp [P.allocStr, Sip.allocStr, h]) ?_ rfl (Line.refl c) (by simp)
    exact ⟨rfl, rfl, rfl, Nat.le_refl _, hc.pos, by simp, by simp only; omega, ErrsIn.refl⟩
end SafeAt

theorem rest_eq_cons {c : Ctx} {b : UInt8} (hb : c.cur? = some b) : c.rest = b :: c.src.drop (c.pos + 1) ∧ c.pos < c.src.length := by
  unfold Ctx.rest Ctx.cur? at *
  obtain ⟨hlt, hb⟩ := List.getElem?_eq_some_iff.1 hb
  exact ⟨by rw [← hb]; exact List.drop_eq_getElem_cons hlt, hlt⟩

theorem rest_length (c : Ctx) (h : c.pos ≤ c.src.length) : c.pos + c.rest.length = c.src.length := by
  unfold Ctx.rest; simp; omega

theorem cur_eq_head (c : Ctx) : c.cur? = c.rest.head? := by
  unfold Ctx.cur? Ctx.rest; simp

/-- bytes of a run -/
def InSet (s : CS) (x : Bytes) : Prop := ∀ b ∈ x, s.mem b = true
instance (s : CS) (x : Bytes) : Decidable (InSet s x) := by unfold InSet; infer_instance

theorem inSet_takeWhile (s : CS) (x : Bytes) : InSet s (x.takeWhile s.mem) := by
  intro b hb
  exact List.all_eq_true.1 List.all_takeWhile b hb

theorem takeWhile_len_le (s : CS) (c : Ctx) (h : c.pos ≤ c.src.length) : c.pos + (c.rest.takeWhile s.mem).length ≤ c.src.length := by
  have h1 := rest_length c h
  have := (List.takeWhile_sublist (p := s.mem) (l := c.rest)).length_le
  omega

theorem safe_str (s : CS) (hcr : s.mem 0x0d = false) : Safe 0 true 1 2 (fun v => v ≠ [] ∧ InSet s v) (P.str s) := by
  intro c hc
  have hlen := takeWhile_len_le s c hc.pos
  have hin := inSet_takeWhile s c.rest
  generalize hrun : c.rest.takeWhile s.mem = run at *
  have hr : c.rest = run ++ c.rest.drop run.length := by
    conv => lhs; rw [← List.takeWhile_append_dropWhile (p := s.mem) (l := c.rest)]
    rw [hrun]; congr 1
    have := List.takeWhile_append_dropWhile (p := s.mem) (l := c.rest)
    rw [hrun] at this
    conv => rhs; rw [← this]
    simp
  by_cases h1 : c.used + 2 ≥ c.cap
  · exact .of_none (c' := c.addError c.pos) (by simp [P.str, parseStr, h1]) (Step.err hc _) (by simp [Ctx.addError])
  by_cases h2 : c.used + 2 + run.length > c.cap
  · refine .of_panic (by simp [P.str, parseStr, h1, hrun, h2]) (fun _ h => ?_)
    unfold Room at h; omega
  by_cases h3 : run = []
  · exact .of_none (c' := c.addError c.pos) (by simp [P.str, parseStr, h1, hrun, h3]; omega) (Step.err hc _) (by simp [Ctx.addError])
  have h3' : run.length ≠ 0 := by simpa using h3
  by_cases h4 : c.used + 2 + run.length ≥ c.cap
  · refine .of_none (c' := c.addError (c.pos + run.length)) ?_ (Step.err hc _) (by simp [Ctx.addError])
    simp only [P.str, parseStr, hrun]
    rw [if_neg h1, if_neg h2, if_neg (by omega), if_pos h4]
  · refine .of_ok (v := run) (c' := { c with used := c.used + 2 + run.length, pos := c.pos + run.length }) ?_ ?_ ⟨h3, hin⟩ ?_ ?_
    · simp only [P.str, parseStr, hrun]
      rw [if_neg h1, if_neg h2, if_neg (by omega), if_neg h4]
    · exact ⟨rfl, rfl, rfl, Nat.le_add_right _ _, hlen, by simp only; omega, by simp only; omega, ErrsIn.refl⟩
    · exact line_of_noCR run _ hr rfl (fun b hb e => by subst e; rw [hin _ hb] at hcr; cases hcr)
    · simp only; omega

theorem isHex_noCR (v : UInt8) (h : isHex v = true) : v ≠ 0x0d := by
  revert v; decide +kernel

/-- what the unescaping loop can do -/
theorem escLoop_cases (s : CS) (hcr : s.mem 0x0d = false) (cap : Nat) (t : Bytes) (p u : Nat) (out : Bytes) :
    match escLoop s cap t p u out with
    | .stop p' u' out' => ∃ x y o, t = x ++ y ∧ p' = p + x.length ∧ u' = u + o.length ∧ out' = out ++ o ∧ o.length ≤ x.length ∧
        (x ≠ [] → o ≠ []) ∧ (∀ b ∈ x, b ≠ 0x0d) ∧ (u ≤ cap → u' ≤ cap)
    | .bad p' => p ≤ p' ∧ p' < p + t.length
    | .noMem p' => p ≤ p' ∧ p' < p + t.length ∧ cap ≤ u + t.length
    | .panic => cap ≤ u + t.length := by
  induction hn : t.length using Nat.strongRecOn generalizing t p u out with
  | ind n ih =>
    match t with
    | [] => exact ⟨[], [], [], by simp⟩
    | v :: r =>
      rw [escLoop_cons]
      by_cases hv : s.mem v = true
      · rw [if_pos hv]
        by_cases hu : u ≥ cap
        · rw [if_pos hu]; simp only at hn ⊢; omega
        · rw [if_neg hu]
          have h := ih r.length (by simp at hn; omega) r (p + 1) (u + 1) (out ++ [v]) rfl
          simp only [List.length_cons] at hn
          split at h
          · obtain ⟨x, y, o, h1, h2, h3, h4, h5, h6, h7, h8⟩ := h
            refine ⟨v :: x, y, v :: o, by simp [h1], by simp; omega, by simp; omega, by simp [h4], by simp; omega, by simp, ?_, fun _ => h8 (by omega)⟩
            intro b hb
            rcases List.mem_cons.1 hb with rfl | hb
            · intro e; subst e; rw [hcr] at hv; cases hv
            · exact h7 b hb
          · omega
          · omega
          · omega
      · rw [if_neg hv]
        by_cases h25 : v ≠ 0x25
        · rw [if_pos h25]
          exact ⟨[], v :: r, [], by simp⟩
        · rw [if_neg h25]
          have h25 : v = 0x25 := by simpa using h25
          subst h25
          match r with
          | [] => simp at hn ⊢; omega
          | [_] => simp at hn ⊢; omega
          | v1 :: v2 :: r' =>
            simp only [List.length_cons] at hn
            simp only
            by_cases hx : (!isHex v1 || !isHex v2) = true
            · rw [if_pos hx]; simp only; omega
            · rw [if_neg hx]
              by_cases hu : u ≥ cap
              · rw [if_pos hu]; simp only; omega
              · rw [if_neg hu]
                have h := ih r'.length (by omega) r' (p + 3) (u + 1) (out ++ [unescapeByte v1 v2]) rfl
                simp only [Bool.or_eq_true, Bool.not_eq_true', not_or, Bool.not_eq_false] at hx
                split at h
                · obtain ⟨x, y, o, h1, h2, h3, h4, h5, h6, h7, h8⟩ := h
                  refine ⟨0x25 :: v1 :: v2 :: x, y, unescapeByte v1 v2 :: o, by simp [h1], by simp; omega, by simp; omega, by simp [h4], by simp; omega, by simp, ?_, fun _ => h8 (by omega)⟩
                  intro b hb
                  simp only [List.mem_cons] at hb
                  rcases hb with rfl | rfl | rfl | hb
                  · decide
                  · exact isHex_noCR _ hx.1
                  · exact isHex_noCR _ hx.2
                  · exact h7 b hb
                · omega
                · omega
                · omega

theorem safe_strEsc (s : CS) (hcr : s.mem 0x0d = false) : Safe 0 true 1 2 (fun v => v ≠ []) (P.strEsc s) := by
  intro c hc
  have hlen := rest_length c hc.pos
  by_cases h1 : c.used + 2 ≥ c.cap
  · exact .of_none (c' := c.addError c.pos) (by simp [P.strEsc, parseStrEscapable, h1]) (Step.err hc _) (by simp [Ctx.addError])
  have h := escLoop_cases s hcr c.cap c.rest c.pos (c.used + 2) []
  split at h
  · rename_i p' u' out' heq
    obtain ⟨x, y, o, e1, e2, e3, e4, e5, e6, e7, e8⟩ := h
    have hxl : x.length ≤ c.rest.length := by rw [e1]; simp
    simp only [List.nil_append] at e4
    subst e4
    have hd : P.strEsc s c = if p' ≤ c.pos then .ok (none, c.addError p') else
        if u' ≥ c.cap then .ok (none, c.addError p') else .ok (some out', { c with pos := p', used := u' }) := by
      simp only [P.strEsc, parseStrEscapable, if_neg h1, heq]
    by_cases h2 : p' ≤ c.pos
    · rw [if_pos h2] at hd
      exact .of_none hd (Step.err hc _) (by simp [Ctx.addError])
    · rw [if_neg h2] at hd
      have hx : x ≠ [] := by intro e; subst e; simp at e2; omega
      by_cases h3 : u' ≥ c.cap
      · rw [if_pos h3] at hd
        exact .of_none hd (Step.err hc _) (by simp [Ctx.addError])
      · rw [if_neg h3] at hd
        refine .of_ok hd ?_ (e6 hx) ?_ ?_
        · exact ⟨rfl, rfl, rfl, by simp only; omega, by simp only; omega, by simp only; omega, by simp only; omega, ErrsIn.refl⟩
        · exact line_of_noCR x y e1 (by simp only; omega) e7
        · simp only; omega
  · rename_i p' heq
    refine .of_none (c' := (c.setPos p').addError p') (by simp [P.strEsc, parseStrEscapable, h1, heq]) ?_ (by simp [Ctx.addError, Ctx.setPos])
    exact (Step.setPos hc h.1 (by omega)).addError _
  · rename_i p' heq
    exact .of_none (c' := c.addError p') (by simp [P.strEsc, parseStrEscapable, h1, heq]) (Step.err hc _) (by simp [Ctx.addError])
  · rename_i heq
    refine .of_panic (by simp [P.strEsc, parseStrEscapable, h1, heq]) (fun _ hr => ?_)
    unfold Room at hr; omega

theorem safe_strEscEmpty (s : CS) (hcr : s.mem 0x0d = false) : Safe 0 true 1 2 (fun _ => True) (P.strEscEmpty s) := by
  intro c hc
  have hlen := rest_length c hc.pos
  by_cases h1 : c.used + 2 ≥ c.cap
  · exact .of_none (c' := c.addError c.pos) (by simp [P.strEscEmpty, parseStrEscapableEnableEmpty, h1]) (Step.err hc _) (by simp [Ctx.addError])
  have h := escLoop_cases s hcr c.cap c.rest c.pos (c.used + 2) []
  split at h
  · rename_i p' u' out' heq
    obtain ⟨x, y, o, e1, e2, e3, e4, e5, e6, e7, e8⟩ := h
    have hxl : x.length ≤ c.rest.length := by rw [e1]; simp
    simp only [List.nil_append] at e4
    subst e4
    have hd : P.strEscEmpty s c =
        if u' ≥ c.cap then .ok (none, c.addError p') else .ok (some out', { c with pos := p', used := u' }) := by
      simp only [P.strEscEmpty, parseStrEscapableEnableEmpty, if_neg h1, heq]
    by_cases h3 : u' ≥ c.cap
    · rw [if_pos h3] at hd
      exact .of_none hd (Step.err hc _) (by simp [Ctx.addError])
    · rw [if_neg h3] at hd
      refine .of_ok hd ?_ trivial ?_ ?_
      · exact ⟨rfl, rfl, rfl, by simp only; omega, by simp only; omega, by simp only; omega, by simp only; omega, ErrsIn.refl⟩
      · exact line_of_noCR x y e1 (by simp only; omega) e7
      · simp only; omega
  · rename_i p' heq
    refine .of_none (c' := (c.setPos p').addError p') (by simp [P.strEscEmpty, parseStrEscapableEnableEmpty, h1, heq]) ?_ (by simp [Ctx.addError, Ctx.setPos])
    exact (Step.setPos hc h.1 (by omega)).addError _
  · rename_i p' heq
    exact .of_none (c' := c.addError p') (by simp [P.strEscEmpty, parseStrEscapableEnableEmpty, h1, heq]) (Step.err hc _) (by simp [Ctx.addError])
  · rename_i heq
    refine .of_panic (by simp [P.strEscEmpty, parseStrEscapableEnableEmpty, h1, heq]) (fun _ hr => ?_)
    unfold Room at hr; omega

theorem safe_markCanOmmit (m : UInt8) (hm : m ≠ 0x0d) : Safe 0 true 1 0 (fun _ => True) (P.markCanOmmit m) := by
  intro c hc
  have hsp := swsMarkCanOmmit_spec c hc.pos m
  have st := sws_step c hc
  have hs := st.inv
  match hr : c.sws.rest with
  | [] =>
    rw [hr] at hsp
    refine .of_none (c' := c.sws.addError c.sws.pos) (by simp only [P.markCanOmmit, hsp]) (st.addError _) ?_
    have := st.errs.length_le
    simp only [Ctx.addError, List.length_cons]; omega
  | x :: y =>
    rw [hr] at hsp
    simp only at hsp
    by_cases hx : x = m
    · rw [if_pos hx] at hsp
      have hlt : c.sws.pos + 1 ≤ c.sws.src.length := by
        have := rest_length _ hs.pos; rw [hr] at this; simp only [List.length_cons] at this; omega
      have st2 : Step c.sws (c.sws.adv 1) := Step.adv hs hlt
      have hrest2 : (c.sws.adv 1).rest = y := by
        have : (c.sws.adv 1).rest = c.sws.rest.drop 1 := by simp [Ctx.rest, Ctx.adv]
        rw [this, hr]; rfl
      have e2 := sws_eq (c.sws.adv 1) st2.inv.pos
      rw [hrest2] at e2
      have e3 : c.sws.adv (1 + swsLen y) = (c.sws.adv 1).sws := by rw [e2]; simp [Ctx.adv]; omega
      rw [e3] at hsp
      have st3 := sws_step _ st2.inv
      refine .of_ok (v := true) (c' := (c.sws.adv 1).sws) (by simp only [P.markCanOmmit, hsp]) ((st.trans st2).trans st3) trivial ?_ ?_
      · have l1 := line_sws c hc
        have l2 : Line c.sws (c.sws.adv 1) := line_of_noCR [x] y hr rfl (by simp [hx, hm])
        exact (l1.trans st.src l2).trans (st.trans st2).src (line_sws _ st2.inv)
      · rw [sws_used]
        show c.sws.used ≤ _
        rw [sws_used]; omega
    · rw [if_neg hx] at hsp
      refine .of_ok (v := false) (c' := c.sws) (by simp only [P.markCanOmmit, hsp]) st trivial (line_sws c hc) ?_
      rw [sws_used]; omega

end Sip
