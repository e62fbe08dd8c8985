import Verif.Model.Message
import Verif.Lemmas.Loop
import Verif.Lemmas.Marks
import Verif.Lemmas.QuotedSafe
import Verif.Lemmas.Cap
/-!
# What stands behind the end of a line does not matter

A judgement for parsers: `src` is `a`, CRLF and `z`, where `z` does not continue the line; the run from a position in `a` is the same, step by step, when `z` is
replaced by any other such `z'`.
-/
namespace Sip

/-- a text, the end of a line and what follows -/
def ln (a z : Bytes) : Bytes := a ++ 0x0d :: 0x0a :: z

/-- the text does not start with the white space that would make the line end before it a fold -/
def NoCont (z : Bytes) : Prop := ∀ b ∈ z.head?, b ≠ 0x20 ∧ b ≠ 0x09

/-- every opening bracket is closed in the text -/
def Closed (a : Bytes) : Prop := ∀ i : Nat, a[i]? = some 0x5b → ∃ k : Nat, i ≤ k ∧ a[k]? = some 0x5d

/-- the two texts compared: the same `a`, and behind the line end `z` or `z'` -/
structure Cut (a z z' : Bytes) : Prop where
  z : NoCont z
  z' : NoCont z'
  closed : Closed a

/-- the same context with another input -/
def Ctx.tail (c : Ctx) (s : Bytes) : Ctx := { c with src := s }
/-- the same outcome with another input -/
def mv {α : Type} (s : Bytes) : Out (Option α × Ctx) → Out (Option α × Ctx)
  | .ok (r, c) => .ok (r, c.tail s)
  | .panic => .panic
  | .hang => .hang

/-- a state inside `a` -/
structure InA (a z : Bytes) (c : Ctx) : Prop where
  src : c.src = ln a z
  pos : c.pos ≤ a.length
  used : c.used ≤ c.cap

/-- the run is the same with `z'`; a successful one ends inside `a` -/
structure LocAt {α : Type} (a z z' : Bytes) (p : P α) (c : Ctx) : Prop where
  eq : p (c.tail (ln a z')) = mv (ln a z') (p c)
  step : ∀ r c', p c = .ok (r, c') → Step c c'
  inside : ∀ v c', p c = .ok (some v, c') → c'.pos ≤ a.length

/-- from every state inside `a` -/
def Loc {α : Type} (a z z' : Bytes) (p : P α) : Prop := ∀ c, InA a z c → LocAt a z z' p c

@[simp] theorem Ctx.tail_src (c : Ctx) (s : Bytes) : (c.tail s).src = s := rfl
@[simp] theorem Ctx.tail_pos (c : Ctx) (s : Bytes) : (c.tail s).pos = c.pos := rfl
@[simp] theorem Ctx.tail_used (c : Ctx) (s : Bytes) : (c.tail s).used = c.used := rfl
@[simp] theorem Ctx.tail_cap (c : Ctx) (s : Bytes) : (c.tail s).cap = c.cap := rfl
@[simp] theorem Ctx.tail_flags (c : Ctx) (s : Bytes) : (c.tail s).flags = c.flags := rfl

section
variable {a z z' : Bytes} {c : Ctx} {α β : Type}

theorem ln_length (a z : Bytes) : (ln a z).length = a.length + 2 + z.length := by
  unfold ln; simp only [List.length_append, List.length_cons]; omega
theorem ln_get (a z z' : Bytes) {i : Nat} (h : i ≤ a.length + 1) : (ln a z)[i]? = (ln a z')[i]? := by
  unfold ln
  rcases Nat.lt_or_ge i a.length with h1 | h1
  · rw [List.getElem?_append_left h1, List.getElem?_append_left h1]
  · rw [List.getElem?_append_right h1, List.getElem?_append_right h1]
    have : i - a.length = 0 ∨ i - a.length = 1 := by omega
    rcases this with h2 | h2 <;> rw [h2] <;> rfl
theorem ln_get_a (a z : Bytes) {i : Nat} (h : i < a.length) : (ln a z)[i]? = a[i]? := by
  unfold ln; rw [List.getElem?_append_left h]
theorem ln_cr (a z : Bytes) : (ln a z)[a.length]? = some 0x0d := by
  unfold ln; rw [List.getElem?_append_right (Nat.le_refl _), Nat.sub_self]; rfl
theorem ln_lf (a z : Bytes) : (ln a z)[a.length + 1]? = some 0x0a := by
  unfold ln; rw [List.getElem?_append_right (by omega), Nat.add_sub_cancel_left]; rfl
theorem ln_drop (a z : Bytes) {i : Nat} (h : i ≤ a.length) : (ln a z).drop i = a.drop i ++ 0x0d :: 0x0a :: z := by
  unfold ln; rw [List.drop_append_of_le_length h]
theorem ln_eol (z : Bytes) (hz : NoCont z) : StartsEol ((ln a z).drop a.length) := by
  rw [ln_drop a z (Nat.le_refl _), List.drop_length]; exact ⟨z, rfl, hz⟩
theorem ln_wsp {z : Bytes} (hz : NoCont z) : ((ln a z)[a.length + 2]?.map isSpHtab) ≠ some true := by
  unfold ln; rw [List.getElem?_append_right (by omega), Nat.add_sub_cancel_left]
  show (z[0]?.map isSpHtab) ≠ some true
  cases z with
  | nil => simp
  | cons b z =>
    have := hz b (by simp)
    simp only [List.getElem?_cons_zero, Option.map_some]
    intro h
    rcases (spHtab_iff b).1 (by simpa using h) with h | h
    · exact this.1 h
    · exact this.2 h
/-- inside the text no CRLF can start directly before the line end -/
theorem ln_crlf {z : Bytes} {i : Nat} (h : i < a.length) (h1 : (ln a z)[i]? = some 0x0d) (h2 : (ln a z)[i + 1]? = some 0x0a) : i + 2 ≤ a.length := by
  rcases Nat.lt_or_ge (i + 1) a.length with h3 | h3
  · omega
  · have : i + 1 = a.length := by omega
    rw [this, ln_cr] at h2; cases h2

theorem InA.inv (h : InA a z c) : Inv c := ⟨by rw [h.src, ln_length]; have := h.pos; omega, h.used⟩
theorem InA.step {c' : Ctx} (h : InA a z c) (hs : Step c c') (hp : c'.pos ≤ a.length) : InA a z c' :=
  ⟨hs.src.trans h.src, hp, by rw [hs.cap]; exact hs.used_cap⟩
theorem InA.cur (h : InA a z c) (z' : Bytes) : (c.tail (ln a z')).cur? = c.cur? := by
  unfold Ctx.cur?; rw [h.src]; exact ln_get a z' z (by have := h.pos; show c.pos ≤ _; omega)
theorem InA.rest (h : InA a z c) : c.rest = a.drop c.pos ++ 0x0d :: 0x0a :: z := by
  unfold Ctx.rest; rw [h.src]; exact ln_drop a z h.pos
theorem InA.rest' (h : InA a z c) (z' : Bytes) : (c.tail (ln a z')).rest = a.drop c.pos ++ 0x0d :: 0x0a :: z' := by
  unfold Ctx.rest; exact ln_drop a z' h.pos
theorem InA.lt (h : InA a z c) {b : UInt8} (hb : c.cur? = some b) (h1 : b ≠ 0x0d) : c.pos < a.length := by
  rcases Nat.lt_or_ge c.pos a.length with h2 | h2
  · exact h2
  · have : c.pos = a.length := by have := h.pos; omega
    unfold Ctx.cur? at hb
    rw [h.src, this, ln_cr] at hb; cases hb; exact absurd rfl h1
theorem InA.more (h : InA a z c) : c.cur? ≠ none := by
  unfold Ctx.cur?
  intro h1
  rw [List.getElem?_eq_none_iff, h.src, ln_length] at h1
  have := h.pos; omega

theorem InA.line (h : InA a z c) (hz : NoCont z) {c' : Ctx} (hl : Line c c') : c'.pos ≤ a.length :=
  hl a.length h.pos (by rw [h.src]; exact ln_eol z hz)

theorem takeWhile_cr {f : UInt8 → Bool} (hf : f 0x0d = false) (x y y' : Bytes) : (x ++ 0x0d :: y).takeWhile f = (x ++ 0x0d :: y').takeWhile f := by
  induction x with
  | nil => simp [hf]
  | cons b x ih => simp only [List.cons_append, List.takeWhile_cons, ih]
theorem takeWhile_cr_len {f : UInt8 → Bool} (hf : f 0x0d = false) (x y : Bytes) : ((x ++ 0x0d :: y).takeWhile f).length ≤ x.length := by
  induction x with
  | nil => simp [hf]
  | cons b x ih =>
    simp only [List.cons_append, List.takeWhile_cons]
    split
    · simp only [List.length_cons]; omega
    · simp
theorem skipWhile_ln {f : UInt8 → Bool} (hf : f 0x0d = false) (z z' : Bytes) {i : Nat} (h : i ≤ a.length) :
    skipWhile f (ln a z) i = skipWhile f (ln a z') i ∧ skipWhile f (ln a z) i ≤ a.length := by
  unfold skipWhile
  rw [runLen_eq_takeWhile, runLen_eq_takeWhile, ln_drop a z h, ln_drop a z' h]
  have h1 := takeWhile_cr_len hf (a.drop i) (0x0a :: z)
  rw [List.length_drop] at h1
  exact ⟨by rw [takeWhile_cr hf (a.drop i) (0x0a :: z) (0x0a :: z')], by omega⟩

/-! ## Rules -/

theorem LocAt.bind {p : P α} {f : α → P β} (hc : InA a z c) (hp : LocAt a z z' p c)
    (hf : ∀ v c1, p c = .ok (some v, c1) → InA a z c1 → LocAt a z z' (f v) c1) : LocAt a z z' (p >>= f) c := by
  rcases hpc : p c with ⟨_ | v, c1⟩ | _ | _
  · have e0 : (p >>= f) c = .ok (none, c1) := P.bind_none hpc
    refine ⟨?_, fun r c' e => ?_, fun v c' e => ?_⟩
    · have := hp.eq; rw [hpc] at this
      rw [e0, P.bind_none this]; rfl
    · rw [e0] at e; cases e; exact hp.step _ _ hpc
    · rw [e0] at e; cases e
  · have e0 : (p >>= f) c = f v c1 := P.bind_ok hpc
    have s1 := hp.step _ _ hpc
    have h2 := hf v c1 hpc (hc.step s1 (hp.inside _ _ hpc))
    refine ⟨?_, fun r c' e => ?_, fun w c' e => ?_⟩
    · have := hp.eq; rw [hpc] at this
      rw [e0, P.bind_ok this]; exact h2.eq
    · rw [e0] at e; exact s1.trans (h2.step _ _ e)
    · rw [e0] at e; exact h2.inside _ _ e
  · have e0 : (p >>= f) c = .panic := P.bind_panic hpc
    refine ⟨?_, fun r c' e => ?_, fun v c' e => ?_⟩
    · have := hp.eq; rw [hpc] at this
      rw [e0, P.bind_panic this]; rfl
    · rw [e0] at e; cases e
    · rw [e0] at e; cases e
  · have e0 : (p >>= f) c = .hang := P.bind_hang hpc
    refine ⟨?_, fun r c' e => ?_, fun v c' e => ?_⟩
    · have := hp.eq; rw [hpc] at this
      rw [e0, P.bind_hang this]; rfl
    · rw [e0] at e; cases e
    · rw [e0] at e; cases e

theorem LocAt.ret (hc : InA a z c) (v : α) : LocAt a z z' (pure v : P α) c :=
  ⟨rfl, fun r c' e => by cases e; exact Step.refl hc.inv, fun v c' e => by cases e; exact hc.pos⟩
theorem LocAt.fail (hc : InA a z c) : LocAt a z z' (P.fail : P α) c :=
  ⟨rfl, fun r c' e => by cases e; exact Step.refl hc.inv, fun v c' e => by cases e⟩
theorem LocAt.err (hc : InA a z c) : LocAt a z z' (P.err : P α) c :=
  ⟨rfl, fun r c' e => by cases e; exact Step.err hc.inv _ ⟨Nat.le_refl _, hc.inv.pos⟩, fun v c' e => by cases e⟩
theorem LocAt.panic : LocAt a z z' (P.panic : P α) c :=
  ⟨rfl, fun r c' e => by (cases e), fun v c' e => by cases e⟩
theorem LocAt.orErr {p : P α} (hp : LocAt a z z' p c) : LocAt a z z' (P.orErr p) c := by
  have he := hp.eq
  rcases hpc : p c with ⟨_ | v, c1⟩ | _ | _ <;> rw [hpc] at he
  · have e0 : P.orErr p c = .ok (none, c1.addError c1.pos) := by unfold P.orErr; rw [hpc]
    have s1 := hp.step _ _ hpc
    refine ⟨?_, fun r c' e => ?_, fun v c' e => ?_⟩
    · rw [e0]; unfold P.orErr; rw [he]; rfl
    · rw [e0] at e; cases e; exact s1.addErrorHere
    · rw [e0] at e; cases e
  · have e0 : P.orErr p c = .ok (some v, c1) := P.orErr_ok hpc
    refine ⟨?_, fun r c' e => ?_, fun v c' e => ?_⟩
    · rw [e0]; exact P.orErr_ok he
    · rw [e0] at e; cases e; exact hp.step _ _ hpc
    · rw [e0] at e; cases e; exact hp.inside _ _ hpc
  · have e0 : P.orErr p c = .panic := by unfold P.orErr; rw [hpc]
    refine ⟨?_, fun r c' e => ?_, fun v c' e => ?_⟩
    · rw [e0]; unfold P.orErr; rw [he]; rfl
    · rw [e0] at e; cases e
    · rw [e0] at e; cases e
  · have e0 : P.orErr p c = .hang := by unfold P.orErr; rw [hpc]
    refine ⟨?_, fun r c' e => ?_, fun v c' e => ?_⟩
    · rw [e0]; unfold P.orErr; rw [he]; rfl
    · rw [e0] at e; cases e
    · rw [e0] at e; cases e

/-- `orBack`: a failure goes back to the position before -/
theorem LocAt.orBack {p : P α} (hc : InA a z c) (hp : LocAt a z z' p c) : LocAt a z z' (P.orBack p) c := by
  have he := hp.eq
  rcases hpc : p c with ⟨_ | v, c1⟩ | _ | _ <;> rw [hpc] at he
  · have e0 : P.orBack p c = .ok (none, (c1.setPos c.pos).addError c.pos) := by unfold P.orBack; rw [hpc]
    have s1 := hp.step _ _ hpc
    refine ⟨?_, fun r c' e => ?_, fun v c' e => ?_⟩
    · rw [e0]; unfold P.orBack; rw [he]; rfl
    · rw [e0] at e; cases e
      exact ⟨s1.src, s1.cap, s1.flags, Nat.le_refl _, hc.inv.pos, s1.used_le, s1.used_cap, s1.errs.cons ⟨Nat.le_refl _, hc.inv.pos⟩⟩
    · rw [e0] at e; cases e
  · have e0 : P.orBack p c = .ok (some v, c1) := by unfold P.orBack; rw [hpc]
    refine ⟨?_, fun r c' e => ?_, fun v c' e => ?_⟩
    · rw [e0]; unfold P.orBack; rw [he]; rfl
    · rw [e0] at e; cases e; exact hp.step _ _ hpc
    · rw [e0] at e; cases e; exact hp.inside _ _ hpc
  · have e0 : P.orBack p c = .panic := by unfold P.orBack; rw [hpc]
    refine ⟨?_, fun r c' e => ?_, fun v c' e => ?_⟩
    · rw [e0]; unfold P.orBack; rw [he]; rfl
    · rw [e0] at e; cases e
    · rw [e0] at e; cases e
  · have e0 : P.orBack p c = .hang := by unfold P.orBack; rw [hpc]
    refine ⟨?_, fun r c' e => ?_, fun v c' e => ?_⟩
    · rw [e0]; unfold P.orBack; rw [he]; rfl
    · rw [e0] at e; cases e
    · rw [e0] at e; cases e

/-- `orElse`: the alternative starts at the position before -/
theorem LocAt.orElse {p q : P α} (hc : InA a z c) (hp : LocAt a z z' p c) (hq : Loc a z z' q) : LocAt a z z' (P.orElse p q) c := by
  have he := hp.eq
  rcases hpc : p c with ⟨_ | v, c1⟩ | _ | _ <;> rw [hpc] at he
  · have e0 : P.orElse p q c = q (c1.setPos c.pos) := by unfold P.orElse; rw [hpc]
    have s1 := hp.step _ _ hpc
    have s2 : Step c (c1.setPos c.pos) := ⟨s1.src, s1.cap, s1.flags, Nat.le_refl _, hc.inv.pos, s1.used_le, s1.used_cap, s1.errs⟩
    have h2 := hq _ (hc.step s2 hc.pos)
    refine ⟨?_, fun r c' e => ?_, fun v c' e => ?_⟩
    · rw [e0, ← h2.eq]; unfold P.orElse; rw [he]; rfl
    · rw [e0] at e; exact s2.trans (h2.step _ _ e)
    · rw [e0] at e; exact h2.inside _ _ e
  · have e0 : P.orElse p q c = .ok (some v, c1) := by unfold P.orElse; rw [hpc]
    refine ⟨?_, fun r c' e => ?_, fun v c' e => ?_⟩
    · rw [e0]; unfold P.orElse; rw [he]; rfl
    · rw [e0] at e; cases e; exact hp.step _ _ hpc
    · rw [e0] at e; cases e; exact hp.inside _ _ hpc
  · have e0 : P.orElse p q c = .panic := by unfold P.orElse; rw [hpc]
    refine ⟨?_, fun r c' e => ?_, fun v c' e => ?_⟩
    · rw [e0]; unfold P.orElse; rw [he]; rfl
    · rw [e0] at e; cases e
    · rw [e0] at e; cases e
  · have e0 : P.orElse p q c = .hang := by unfold P.orElse; rw [hpc]
    refine ⟨?_, fun r c' e => ?_, fun v c' e => ?_⟩
    · rw [e0]; unfold P.orElse; rw [he]; rfl
    · rw [e0] at e; cases e
    · rw [e0] at e; cases e

theorem LocAt.peek {f : Option UInt8 → P β} (hc : InA a z c) (h : LocAt a z z' (f c.cur?) c) : LocAt a z z' (P.peek >>= f) c where
  eq := by rw [P.peek_bind, P.peek_bind, hc.cur]; exact h.eq
  step r c' e := h.step r c' e
  inside v c' e := h.inside v c' e
theorem LocAt.get {f : Ctx → P β} (hf : f (c.tail (ln a z')) = f c) (h : LocAt a z z' (f c) c) : LocAt a z z' (P.get >>= f) c where
  eq := by rw [P.get_bind, P.get_bind, hf]; exact h.eq
  step r c' e := h.step r c' e
  inside v c' e := h.inside v c' e
theorem LocAt.skipN {n : Nat} (hc : InA a z c) (hn : c.pos + n ≤ a.length) : LocAt a z z' (P.skip n) c :=
  ⟨rfl, fun r c' e => by cases e; exact Step.adv hc.inv (by rw [hc.src, ln_length]; omega), fun v c' e => by cases e; exact hn⟩
theorem LocAt.skip1 {b : UInt8} (hc : InA a z c) (hb : c.cur? = some b) (h1 : b ≠ 0x0d) : LocAt a z z' (P.skip 1) c :=
  LocAt.skipN hc (hc.lt hb h1)
theorem LocAt.alloc {n : Nat} (hc : InA a z c) : LocAt a z z' (P.alloc n) c := by
  by_cases h : c.used + n > c.cap
  · have e0 : P.alloc n c = .ok (none, c) := by unfold P.alloc Ctx.alloc; rw [if_pos h]
    refine ⟨?_, fun r c' e => ?_, fun v c' e => ?_⟩
    · rw [e0]; unfold P.alloc Ctx.alloc; rw [if_pos (show (c.tail (ln a z')).used + n > (c.tail (ln a z')).cap from h)]; rfl
    · rw [e0] at e; cases e; exact Step.refl hc.inv
    · rw [e0] at e; cases e
  · have e0 : P.alloc n c = .ok (some (), { c with used := c.used + n }) := by unfold P.alloc Ctx.alloc; rw [if_neg h]
    refine ⟨?_, fun r c' e => ?_, fun v c' e => ?_⟩
    · rw [e0]; unfold P.alloc Ctx.alloc; rw [if_neg (show ¬ (c.tail (ln a z')).used + n > (c.tail (ln a z')).cap from h)]; rfl
    · rw [e0] at e; cases e
      exact ⟨rfl, rfl, rfl, Nat.le_refl _, hc.inv.pos, Nat.le_add_right _ _, by dsimp only; omega, ErrsIn.refl⟩
    · rw [e0] at e; cases e; exact hc.pos
theorem LocAt.allocMust {n : Nat} (hc : InA a z c) : LocAt a z z' (P.allocMust n) c := by
  by_cases h : c.used + n > c.cap
  · have e0 : P.allocMust n c = .panic := by unfold P.allocMust Ctx.alloc; rw [if_pos h]
    refine ⟨?_, fun r c' e => ?_, fun v c' e => ?_⟩
    · rw [e0]; unfold P.allocMust Ctx.alloc; rw [if_pos (show (c.tail (ln a z')).used + n > (c.tail (ln a z')).cap from h)]; rfl
    · rw [e0] at e; cases e
    · rw [e0] at e; cases e
  · have e0 : P.allocMust n c = .ok (some (), { c with used := c.used + n }) := by unfold P.allocMust Ctx.alloc; rw [if_neg h]
    refine ⟨?_, fun r c' e => ?_, fun v c' e => ?_⟩
    · rw [e0]; unfold P.allocMust Ctx.alloc; rw [if_neg (show ¬ (c.tail (ln a z')).used + n > (c.tail (ln a z')).cap from h)]; rfl
    · rw [e0] at e; cases e
      exact ⟨rfl, rfl, rfl, Nat.le_refl _, hc.inv.pos, Nat.le_add_right _ _, by dsimp only; omega, ErrsIn.refl⟩
    · rw [e0] at e; cases e; exact hc.pos
theorem LocAt.allocStr {b : Bytes} (hc : InA a z c) : LocAt a z z' (P.allocStr b) c := by
  by_cases h : c.used + (b.length + 2) > c.cap
  · have e0 : P.allocStr b c = .ok (none, c) := by unfold P.allocStr Sip.allocStr; rw [if_pos h]
    refine ⟨?_, fun r c' e => ?_, fun v c' e => ?_⟩
    · rw [e0]; unfold P.allocStr Sip.allocStr; rw [if_pos (show (c.tail (ln a z')).used + (b.length + 2) > (c.tail (ln a z')).cap from h)]; rfl
    · rw [e0] at e; cases e; exact Step.refl hc.inv
    · rw [e0] at e; cases e
  · have e0 : P.allocStr b c = .ok (some b, { c with used := c.used + (b.length + 2) }) := by unfold P.allocStr Sip.allocStr; rw [if_neg h]
    refine ⟨?_, fun r c' e => ?_, fun v c' e => ?_⟩
    · rw [e0]; unfold P.allocStr Sip.allocStr; rw [if_neg (show ¬ (c.tail (ln a z')).used + (b.length + 2) > (c.tail (ln a z')).cap from h)]; rfl
    · rw [e0] at e; cases e
      exact ⟨rfl, rfl, rfl, Nat.le_refl _, hc.inv.pos, Nat.le_add_right _ _, by dsimp only; omega, ErrsIn.refl⟩
    · rw [e0] at e; cases e; exact hc.pos

/-- a parser whose safety is known -/
theorem LocAt.of_safe {p : P α} {l : Bool} {m B : Nat} {Q : α → Prop} (hz : NoCont z) (hc : InA a z c) (hs : SafeAt 0 l m B Q p c)
    (he : p (c.tail (ln a z')) = mv (ln a z') (p c)) : LocAt a z z' p c where
  eq := he
  step := hs.step
  inside v c' e := hc.line hz ((hs.some v c' e).2.1 (PreL.zero c))

/-- a loop that moves forward whenever it goes on: its budget does not matter -/
theorem loc_loop {σ ρ : Type} {body : σ → P (σ ⊕ ρ)} (hb : ∀ s, Loc a z z' (body s))
    (he : ∀ s c s' c', InA a z c → body s c = .ok (some (.inl s'), c') → c.pos < c'.pos) (k : Nat) :
    ∀ s c n n', InA a z c → a.length - c.pos < k → a.length < n + c.pos → a.length < n' + c.pos →
      P.loop body n' s (c.tail (ln a z')) = mv (ln a z') (P.loop body n s c) ∧ (∀ r c', P.loop body n s c = .ok (r, c') → Step c c') ∧
      (∀ v c', P.loop body n s c = .ok (some v, c') → c'.pos ≤ a.length) := by
  induction k with
  | zero => intro s c n n' _ h; omega
  | succ k ih =>
    intro s c n n' hc hk hn hn'
    have h0 := hc.pos
    obtain ⟨n, rfl⟩ : ∃ m, n = m + 1 := ⟨n - 1, by omega⟩
    obtain ⟨n', rfl⟩ : ∃ m, n' = m + 1 := ⟨n' - 1, by omega⟩
    have hbs := hb s c hc
    have heq := hbs.eq
    rcases hpc : body s c with ⟨_ | v, c1⟩ | _ | _ <;> rw [hpc] at heq
    · have e0 : P.loop body (n + 1) s c = .ok (none, c1) := P.bind_none hpc
      rw [e0]
      refine ⟨P.bind_none heq, fun r c' e => ?_, fun v c' e => ?_⟩
      · cases e; exact hbs.step _ _ hpc
      · cases e
    · have st := hbs.step _ _ hpc
      have hp1 := hbs.inside _ _ hpc
      cases v with
      | inr r =>
        have e0 : P.loop body (n + 1) s c = .ok (some r, c1) := P.bind_ok hpc
        rw [e0]
        refine ⟨P.bind_ok heq, fun r c' e => ?_, fun v c' e => ?_⟩
        · cases e; exact st
        · cases e; exact hp1
      | inl s' =>
        have e0 : P.loop body (n + 1) s c = P.loop body n s' c1 := P.bind_ok hpc
        have e1 : P.loop body (n' + 1) s (c.tail (ln a z')) = P.loop body n' s' (c1.tail (ln a z')) := P.bind_ok heq
        have hlt := he s c s' c1 hc hpc
        obtain ⟨g1, g2, g3⟩ := ih s' c1 n n' (hc.step st hp1) (by omega) (by omega) (by omega)
        rw [e0, e1]
        exact ⟨g1, fun r c' e => st.trans (g2 r c' e), g3⟩
    · have e0 : P.loop body (n + 1) s c = .panic := P.bind_panic hpc
      rw [e0]
      exact ⟨P.bind_panic heq, fun r c' e => by (cases e), fun v c' e => by cases e⟩
    · have e0 : P.loop body (n + 1) s c = .hang := P.bind_hang hpc
      rw [e0]
      exact ⟨P.bind_hang heq, fun r c' e => by (cases e), fun v c' e => by cases e⟩

theorem LocAt.forLoop {σ ρ : Type} {body : σ → P (σ ⊕ ρ)} {s : σ} (hc : InA a z c) (hb : ∀ s, Loc a z z' (body s))
    (he : ∀ s c s' c', InA a z c → body s c = .ok (some (.inl s'), c') → c.pos < c'.pos) : LocAt a z z' (P.forLoop body s) c := by
  have hl := ln_length a z; have hl' := ln_length a z'
  obtain ⟨g1, g2, g3⟩ := loc_loop hb he (a.length + 1) s c (c.src.length + 1) ((ln a z').length + 1) hc (by omega) (by rw [hc.src]; omega) (by omega)
  exact ⟨g1, g2, g3⟩

end
end Sip
