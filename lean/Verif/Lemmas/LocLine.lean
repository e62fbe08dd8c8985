import Verif.Lemmas.LocAddr
import Verif.Props.MessageSafe
/-! # What stands behind the end of a line does not matter: whole lines, start lines and headers

A parser of a whole line may end behind the line end, so the judgement has a predicate for the position where a successful run ends. -/
namespace Sip

/-- the run is the same with `z'`; a successful one ends at a position the predicate allows -/
structure LocQ {α : Type} (a z' : Bytes) (Q : α → Nat → Prop) (p : P α) (c : Ctx) : Prop where
  eq : p (c.tail (ln a z')) = mv (ln a z') (p c)
  step : ∀ r c', p c = .ok (r, c') → Step c c'
  out : ∀ v c', p c = .ok (some v, c') → Q v c'.pos

/-- inside the text, or behind its line end -/
def AtEol (a : Bytes) (p : Nat) : Prop := p ≤ a.length ∨ p = a.length + 2

/-- a state at such a position -/
structure InE (a z : Bytes) (c : Ctx) : Prop where
  src : c.src = ln a z
  pos : AtEol a c.pos
  used : c.used ≤ c.cap

section
variable {a z z' : Bytes} {c : Ctx} {α β : Type} {Q : α → Nat → Prop} {R : β → Nat → Prop}

theorem InE.inv (h : InE a z c) : Inv c := ⟨by rw [h.src, ln_length]; rcases h.pos with h | h <;> omega, h.used⟩
theorem InA.toE (h : InA a z c) : InE a z c := ⟨h.src, Or.inl h.pos, h.used⟩

theorem LocAt.toQ {p : P α} (h : LocAt a z z' p c) (hQ : ∀ v c', p c = .ok (some v, c') → c'.pos ≤ a.length → Q v c'.pos) : LocQ a z' Q p c :=
  ⟨h.eq, h.step, fun v c' e => hQ v c' e (h.inside v c' e)⟩

theorem LocQ.mono {p : P α} {Q' : α → Nat → Prop} (h : LocQ a z' Q p c) (hQ : ∀ v n, Q v n → Q' v n) : LocQ a z' Q' p c :=
  ⟨h.eq, h.step, fun v c' e => hQ _ _ (h.out v c' e)⟩

theorem LocQ.bind {p : P α} {f : α → P β} (hp : LocQ a z' Q p c)
    (hf : ∀ v c1, p c = .ok (some v, c1) → Step c c1 → Q v c1.pos → LocQ a z' R (f v) c1) : LocQ a z' R (p >>= f) c := by
  rcases hpc : p c with ⟨_ | v, c1⟩ | _ | _
  · have e0 : (p >>= f) c = .ok (none, c1) := P.bind_none hpc
    refine ⟨?_, fun r c' e => ?_, fun v c' e => ?_⟩
    · have := hp.eq; rw [hpc] at this
      rw [e0, P.bind_none this]; rfl
    · rw [e0] at e; cases e; exact hp.step _ _ hpc
    · rw [e0] at e; cases e
  · have e0 : (p >>= f) c = f v c1 := P.bind_ok hpc
    have s1 := hp.step _ _ hpc
    have h2 := hf v c1 hpc s1 (hp.out _ _ hpc)
    refine ⟨?_, fun r c' e => ?_, fun w c' e => ?_⟩
    · have := hp.eq; rw [hpc] at this
      rw [e0, P.bind_ok this]; exact h2.eq
    · rw [e0] at e; exact s1.trans (h2.step _ _ e)
    · rw [e0] at e; exact h2.out _ _ e
  · have e0 : (p >>= f) c = .panic := P.bind_panic hpc
    refine ⟨?_, fun r c' e => ?_, fun v c' e => ?_⟩
    · have := hp.eq; rw [hpc] at this
      rw [e0, P.bind_panic this]; rfl
    · rw [e0] at e; cases e
    · rw [e0] at e; cases e
  · have e0 : (p >>= f) c = .hang := P.bind_hang hpc
    refine ⟨?_, fun r c' e => ?_, fun v c' e => ?_⟩
    · have := hp.eq; rw [hpc] at this
      rw [e0, P.bind_hang this]; rfl
    · rw [e0] at e; cases e
    · rw [e0] at e; cases e

/-- first a parser that stays inside -/
theorem LocQ.seq {p : P α} {f : α → P β} (hc : InA a z c) (hp : LocAt a z z' p c)
    (hf : ∀ v c1, p c = .ok (some v, c1) → InA a z c1 → LocQ a z' R (f v) c1) : LocQ a z' R (p >>= f) c :=
  (hp.toQ (Q := fun _ n => n ≤ a.length) (fun _ _ _ h => h)).bind (fun v c1 e s1 h1 => hf v c1 e (hc.step s1 h1))

theorem LocQ.ret {v : α} (hc : Inv c) (h : Q v c.pos) : LocQ a z' Q (pure v : P α) c :=
  ⟨rfl, fun r c' e => by (cases e; exact Step.refl hc), fun v c' e => by (cases e; exact h)⟩
theorem LocQ.err (hc : Inv c) : LocQ a z' Q (P.err : P α) c :=
  ⟨rfl, fun r c' e => by (cases e; exact Step.err hc _ ⟨Nat.le_refl _, hc.pos⟩), fun v c' e => by cases e⟩
theorem LocQ.orErr {p : P α} (hp : LocQ a z' Q p c) : LocQ a z' Q (P.orErr p) c := by
  have he := hp.eq
  rcases hpc : p c with ⟨_ | v, c1⟩ | _ | _ <;> rw [hpc] at he
  · have e0 : P.orErr p c = .ok (none, c1.addError c1.pos) := by unfold P.orErr; rw [hpc]
    have s1 := hp.step _ _ hpc
    refine ⟨?_, fun r c' e => ?_, fun v c' e => ?_⟩
    · rw [e0]; unfold P.orErr; rw [he]; rfl
    · rw [e0] at e; cases e; exact s1.addErrorHere
    · rw [e0] at e; cases e
  · have e0 : P.orErr p c = .ok (some v, c1) := P.orErr_ok hpc
    refine ⟨?_, fun r c' e => ?_, fun v c' e => ?_⟩
    · rw [e0]; exact P.orErr_ok he
    · rw [e0] at e; cases e; exact hp.step _ _ hpc
    · rw [e0] at e; cases e; exact hp.out _ _ hpc
  · have e0 : P.orErr p c = .panic := by unfold P.orErr; rw [hpc]
    refine ⟨?_, fun r c' e => ?_, fun v c' e => ?_⟩
    · rw [e0]; unfold P.orErr; rw [he]; rfl
    · rw [e0] at e; cases e
    · rw [e0] at e; cases e
  · have e0 : P.orErr p c = .hang := by unfold P.orErr; rw [hpc]
    refine ⟨?_, fun r c' e => ?_, fun v c' e => ?_⟩
    · rw [e0]; unfold P.orErr; rw [he]; rfl
    · rw [e0] at e; cases e
    · rw [e0] at e; cases e
theorem LocQ.get {f : Ctx → P β} (hf : f (c.tail (ln a z')) = f c) (h : LocQ a z' R (f c) c) : LocQ a z' R (P.get >>= f) c where
  eq := by rw [P.get_bind, P.get_bind, hf]; exact h.eq
  step r c' e := h.step r c' e
  out v c' e := h.out v c' e
theorem LocQ.skipN {n : Nat} {Q : Unit → Nat → Prop} (hc : Inv c) (hn : c.pos + n ≤ c.src.length) (hQ : Q () (c.pos + n)) : LocQ a z' Q (P.skip n) c :=
  ⟨rfl, fun r c' e => by (cases e; exact Step.adv hc hn), fun v c' e => by (cases e; exact hQ)⟩

/-- a loop that moves forward whenever it goes on -/
theorem locQ_loop {σ ρ : Type} {body : σ → P (σ ⊕ ρ)} {Q : ρ → Nat → Prop} (hb : ∀ s c, InE a z c → LocQ a z' (fun r n => match r with
      | .inl _ => AtEol a n
      | .inr r => Q r n) (body s) c)
    (he : ∀ s c s' c', InE a z c → body s c = .ok (some (.inl s'), c') → c.pos < c'.pos) (k : Nat) :
    ∀ s c n n', InE a z c → a.length + 2 - c.pos < k → a.length + 2 < n + c.pos → a.length + 2 < n' + c.pos →
      P.loop body n' s (c.tail (ln a z')) = mv (ln a z') (P.loop body n s c) ∧ (∀ r c', P.loop body n s c = .ok (r, c') → Step c c') ∧
      (∀ v c', P.loop body n s c = .ok (some v, c') → Q v c'.pos) := by
  induction k with
  | zero => intro s c n n' _ h; omega
  | succ k ih =>
    intro s c n n' hc hk hn hn'
    have h0 : c.pos ≤ a.length + 2 := by rcases hc.pos with h | h <;> omega
    obtain ⟨n, rfl⟩ : ∃ m, n = m + 1 := ⟨n - 1, by omega⟩
    obtain ⟨n', rfl⟩ : ∃ m, n' = m + 1 := ⟨n' - 1, by omega⟩
    have hbs := hb s c hc
    have heq := hbs.eq
    rcases hpc : body s c with ⟨_ | v, c1⟩ | _ | _ <;> rw [hpc] at heq
    · have e0 : P.loop body (n + 1) s c = .ok (none, c1) := P.bind_none hpc
      rw [e0]
      refine ⟨P.bind_none heq, fun r c' e => ?_, fun v c' e => ?_⟩
      · cases e; exact hbs.step _ _ hpc
      · cases e
    · have st := hbs.step _ _ hpc
      have hp1 := hbs.out _ _ hpc
      cases v with
      | inr r =>
        have e0 : P.loop body (n + 1) s c = .ok (some r, c1) := P.bind_ok hpc
        rw [e0]
        refine ⟨P.bind_ok heq, fun r c' e => ?_, fun v c' e => ?_⟩
        · cases e; exact st
        · cases e; exact hp1
      | inl s' =>
        have e0 : P.loop body (n + 1) s c = P.loop body n s' c1 := P.bind_ok hpc
        have e1 : P.loop body (n' + 1) s (c.tail (ln a z')) = P.loop body n' s' (c1.tail (ln a z')) := P.bind_ok heq
        have hlt := he s c s' c1 hc hpc
        have hp2 : AtEol a c1.pos := hp1
        have h3 : c1.pos ≤ a.length + 2 := by rcases hp2 with h | h <;> omega
        obtain ⟨g1, g2, g3⟩ := ih s' c1 n n' ⟨st.src.trans hc.src, hp2, by rw [st.cap]; exact st.used_cap⟩ (by omega) (by omega) (by omega)
        rw [e0, e1]
        exact ⟨g1, fun r c' e => st.trans (g2 r c' e), g3⟩
    · have e0 : P.loop body (n + 1) s c = .panic := P.bind_panic hpc
      rw [e0]
      exact ⟨P.bind_panic heq, fun r c' e => by (cases e), fun v c' e => by cases e⟩
    · have e0 : P.loop body (n + 1) s c = .hang := P.bind_hang hpc
      rw [e0]
      exact ⟨P.bind_hang heq, fun r c' e => by (cases e), fun v c' e => by cases e⟩

theorem LocQ.forLoop {σ ρ : Type} {body : σ → P (σ ⊕ ρ)} {Q : ρ → Nat → Prop} {s : σ} (hc : InE a z c) (hb : ∀ s c, InE a z c → LocQ a z' (fun r n => match r with
      | .inl _ => AtEol a n
      | .inr r => Q r n) (body s) c)
    (he : ∀ s c s' c', InE a z c → body s c = .ok (some (.inl s'), c') → c.pos < c'.pos) : LocQ a z' Q (P.forLoop body s) c := by
  have hl := ln_length a z; have hl' := ln_length a z'
  obtain ⟨g1, g2, g3⟩ := locQ_loop hb he (a.length + 3) s c (c.src.length + 1) ((ln a z').length + 1) hc (by omega) (by rw [hc.src]; omega) (by omega)
  exact ⟨g1, g2, g3⟩

/-! ## The end of a line -/

theorem eol_skip {i : Nat} (h : i ≤ a.length) (h1 : (ln a z)[i]? = some 0x0d) (h2 : (ln a z)[i + 1]? = some 0x0a) : AtEol a (i + 2) := by
  rcases Nat.lt_or_ge i a.length with h3 | h3
  · exact Or.inl (ln_crlf h3 h1 h2)
  · exact Or.inr (by omega)

theorem loc_crlf (hc : InA a z c) : LocQ a z' (fun _ n => AtEol a n) P.crlf c := by
  have hl := ln_length a z; have hl' := ln_length a z'
  have hp := hc.pos
  have no : ∀ d : Ctx, ¬ (d.src[d.pos]? = some 0x0d ∧ d.src[d.pos + 1]? = some 0x0a) → P.crlf d = .ok (none, d) := by
    intro d h; unfold P.crlf P.ofBool parseCRLF; rw [if_neg (fun h' => h h'.2)]
  have yes : ∀ d : Ctx, d.pos + 1 < d.src.length → d.src[d.pos]? = some 0x0d ∧ d.src[d.pos + 1]? = some 0x0a → P.crlf d = .ok (some (), d.adv 2) := by
    intro d h0 h; unfold P.crlf P.ofBool parseCRLF; rw [if_pos ⟨h0, h⟩]
  have hg : ((c.tail (ln a z')).src[(c.tail (ln a z')).pos]? = some 0x0d ∧ (c.tail (ln a z')).src[(c.tail (ln a z')).pos + 1]? = some 0x0a) ↔
      (c.src[c.pos]? = some 0x0d ∧ c.src[c.pos + 1]? = some 0x0a) := by
    rw [Ctx.tail_src, Ctx.tail_pos, hc.src, ln_get a z' z (i := c.pos) (by omega), ln_get a z' z (i := c.pos + 1) (by omega)]
  by_cases h : c.src[c.pos]? = some 0x0d ∧ c.src[c.pos + 1]? = some 0x0a
  · have e0 := yes c (by rw [hc.src]; omega) h
    have e1 := yes (c.tail (ln a z')) (by show c.pos + 1 < (ln a z').length; omega) (hg.2 h)
    rw [hc.src] at h
    exact ⟨by rw [e0, e1]; rfl, fun r c' e => by (rw [e0] at e; cases e; exact Step.adv hc.inv (by rw [hc.src]; omega)),
      fun v c' e => by (rw [e0] at e; cases e; exact eol_skip hp h.1 h.2)⟩
  · have e0 := no c h
    have e1 := no (c.tail (ln a z')) (fun h' => h (hg.1 h'))
    exact ⟨by rw [e0, e1]; rfl, fun r c' e => by (rw [e0] at e; cases e; exact Step.refl hc.inv), fun v c' e => by (rw [e0] at e; cases e)⟩

theorem lfEnd_ln (hz : NoCont z) (hz' : NoCont z') (x : Bytes) : lfEnd (x ++ 0x0d :: 0x0a :: z') = lfEnd (x ++ 0x0d :: 0x0a :: z) ∧
    ∃ k, lfEnd (x ++ 0x0d :: 0x0a :: z) = some (k + 1) ∧ (k + 1 ≤ x.length ∨ k + 1 = x.length + 2) := by
  have h0 : ∀ y : Bytes, NoCont y → lfEnd (0x0d :: 0x0a :: y) = some 2 := by
    intro y hy
    have h1 : lfEnd (0x0a :: y) = some 1 := by
      unfold lfEnd
      rw [if_pos]
      refine ⟨rfl, ?_⟩
      cases y with
      | nil => simp
      | cons b y =>
        have := hy b (by simp)
        simp only [List.head?_cons, Option.map_some]
        intro h
        rcases (wspChar_iff b).1 (by simpa using h) with h | h
        · exact this.1 h
        · exact this.2 h
    unfold lfEnd
    rw [if_neg (by simp), h1]; rfl
  induction x with
  | nil => rw [List.nil_append, List.nil_append, h0 z hz, h0 z' hz']; exact ⟨rfl, 1, rfl, Or.inr rfl⟩
  | cons b x ih =>
    obtain ⟨g1, k, g2, g3⟩ := ih
    have hh : (x ++ 0x0d :: 0x0a :: z').head? = (x ++ 0x0d :: 0x0a :: z).head? := by cases x <;> rfl
    have e : ∀ y : Bytes, lfEnd (b :: y) = if b = 0x0a ∧ (y.head?.map isWspChar) ≠ some true then some 1 else (lfEnd y).map (· + 1) := fun y => by conv => lhs; unfold lfEnd
    rw [List.cons_append, List.cons_append, e, e, hh, g1, g2]
    refine ⟨rfl, ?_⟩
    split
    · exact ⟨0, rfl, Or.inl (by simp)⟩
    · exact ⟨k + 1, rfl, by simp only [List.length_cons]; omega⟩

theorem take_ln (z z' : Bytes) {i n : Nat} (h : i + n ≤ a.length + 2) : ((ln a z').drop i).take n = ((ln a z).drop i).take n := by
  apply List.ext_getElem?
  intro j
  rw [List.getElem?_take, List.getElem?_take]
  by_cases hj : j < n
  · rw [if_pos hj, if_pos hj, List.getElem?_drop, List.getElem?_drop]; exact ln_get a z' z (by omega)
  · rw [if_neg hj, if_neg hj]

theorem loc_rawValue (hz : NoCont z) (hz' : NoCont z') (hc : InA a z c) : LocQ a z' (fun _ n => AtEol a n) parseRawHeaderValue c := by
  obtain ⟨g1, k, g2, g3⟩ := lfEnd_ln hz hz' (a.drop c.pos)
  rw [← hc.rest' z', ← hc.rest] at g1
  rw [← hc.rest] at g2
  rw [List.length_drop] at g3
  have hp := hc.pos
  have hl := ln_length a z
  have hE : AtEol a (c.pos + (k + 1)) := by rcases g3 with h | h; exact Or.inl (by omega); exact Or.inr (by omega)
  have hle : c.pos + (k + 1) ≤ a.length + 2 := by rcases hE with h | h <;> omega
  have run : ∀ d : Ctx, lfEnd d.rest = some (k + 1) → P.findCrlf d = .ok (some (if d.pos + 2 < d.pos + (k + 1) ∧ d.src[d.pos + (k + 1) - 2]? = some 0x0d then d.pos + (k + 1) - 2 else d.pos + (k + 1) - 1), d.setPos (d.pos + (k + 1))) := by
    intro d h; unfold P.findCrlf; rw [h]
  have hg : (c.tail (ln a z')).src[c.pos + (k + 1) - 2]? = c.src[c.pos + (k + 1) - 2]? := by rw [hc.src]; exact ln_get a z' z (by omega)
  have hb : ∃ b, (if c.pos + 2 < c.pos + (k + 1) ∧ c.src[c.pos + (k + 1) - 2]? = some 0x0d then c.pos + (k + 1) - 2 else c.pos + (k + 1) - 1) = b ∧ b ≤ a.length + 2 := by
    refine ⟨_, rfl, ?_⟩; split <;> omega
  obtain ⟨b, hb, hb2⟩ := hb
  have r0 := run c g2
  have r1 := run (c.tail (ln a z')) (g1.trans g2)
  rw [hb] at r0
  rw [Ctx.tail_pos, hg, hb] at r1
  have st : Step c (c.setPos (c.pos + (k + 1))) := Step.setPos hc.inv (by omega) (by rw [hc.src]; omega)
  have e0 : parseRawHeaderValue c = P.allocStr ((c.src.drop c.pos).take (b - c.pos)) (c.setPos (c.pos + (k + 1))) := by
    show (P.findCrlf >>= fun b => P.allocStr ((c.src.drop c.pos).take (b - c.pos))) c = _
    exact P.bind_ok r0
  have e1 : parseRawHeaderValue (c.tail (ln a z')) = P.allocStr ((c.src.drop c.pos).take (b - c.pos)) ((c.setPos (c.pos + (k + 1))).tail (ln a z')) := by
    show (P.findCrlf >>= fun b => P.allocStr (((c.tail (ln a z')).src.drop c.pos).take (b - c.pos))) (c.tail (ln a z')) = _
    refine (P.bind_ok r1).trans ?_
    rw [Ctx.tail_src, show ((ln a z').drop c.pos).take (b - c.pos) = (c.src.drop c.pos).take (b - c.pos) by rw [hc.src]; exact take_ln z z' (by omega)]
    rfl
  generalize (c.src.drop c.pos).take (b - c.pos) = t at e0 e1
  by_cases h : c.used + (t.length + 2) > c.cap
  · have a0 : ∀ d : Ctx, d.used = c.used → d.cap = c.cap → P.allocStr t d = .ok (none, d) := by
      intro d h1 h2; unfold P.allocStr Sip.allocStr; rw [if_pos (by rw [h1, h2]; exact h)]
    rw [a0 _ (by rfl) (by rfl)] at e0
    rw [a0 _ (by rfl) (by rfl)] at e1
    exact ⟨by rw [e0, e1]; rfl, fun r c' e => by (rw [e0] at e; cases e; exact st), fun v c' e => by (rw [e0] at e; cases e)⟩
  · have a0 : ∀ d : Ctx, d.used = c.used → d.cap = c.cap → P.allocStr t d = .ok (some t, { d with used := d.used + (t.length + 2) }) := by
      intro d h1 h2; unfold P.allocStr Sip.allocStr; rw [if_neg (by rw [h1, h2]; exact h)]
    rw [a0 _ (by rfl) (by rfl)] at e0
    rw [a0 _ (by rfl) (by rfl)] at e1
    refine ⟨by rw [e0, e1]; rfl, fun r c' e => ?_, fun v c' e => by (rw [e0] at e; cases e; exact hE)⟩
    rw [e0] at e; cases e
    exact ⟨rfl, rfl, rfl, st.pos_le, st.pos_len, Nat.le_add_right _ _, by show c.used + (t.length + 2) ≤ c.cap; omega, ErrsIn.refl⟩

theorem loc_rawHeader (hz : NoCont z) (hz' : NoCont z') (id : Nat) (name : Option Bytes) (hc : InA a z c) : LocQ a z' (fun _ n => AtEol a n) (parseRawHeader id name) c := by
  unfold parseRawHeader
  refine .seq hc (.alloc hc) (fun _ c1 _ h1 => (loc_rawValue hz hz' h1).bind (fun v c2 _ s2 h2 => ?_))
  exact .ret s2.inv h2

/-! ## Header lines -/

theorem isCRLF_ln (z z' : Bytes) {i : Nat} (h : i ≤ a.length) : isCRLF (ln a z') i = isCRLF (ln a z) i := by
  have hl := ln_length a z; have hl' := ln_length a z'
  unfold isCRLF
  rw [ln_get a z' z (i := i) (by omega), ln_get a z' z (i := i + 1) (by omega), decide_eq_true (show i + 1 < (ln a z').length by omega),
    decide_eq_true (show i + 1 < (ln a z).length by omega)]

theorem InA.eol_crlf (hc : InA a z c) (h : isCRLF c.src c.pos = true) : AtEol a (c.pos + 2) := by
  rw [hc.src] at h
  unfold isCRLF at h
  simp only [Bool.and_eq_true, decide_eq_true_eq] at h
  exact eol_skip hc.pos h.1.2 h.2
theorem onlyCRLF_isCRLF {s : Bytes} {i : Nat} (h : isOnlyCRLF s i = true) : isCRLF s i = true := by
  unfold isOnlyCRLF at h
  unfold isCRLF
  split at h
  · simp only [Bool.and_eq_true, decide_eq_true_eq] at h ⊢
    exact ⟨⟨by omega, h.1.1⟩, h.1.2⟩
  · simp only [Bool.and_eq_true, decide_eq_true_eq] at h ⊢
    exact ⟨⟨by omega, h.1.2⟩, h.2⟩

/-- a successful round of the loop that goes on stays inside -/
theorem loc_valuesBody (net : Net) (hz : NoCont z) (hz' : NoCont z') (hcl : Closed a) (k : HKind) (s : List HVal × HVal) (hc : InA a z c) :
    LocQ a z' (fun r n => match r with
      | .inl _ => c.pos < n ∧ n ≤ a.length
      | .inr _ => AtEol a n) (valuesBody net k s) c := by
  have hl := ln_length a z; have hl' := ln_length a z'
  have hp := hc.pos
  obtain ⟨acc, v⟩ := s
  unfold valuesBody
  refine .get ?_ ?_
  · rw [show isOnlyCRLF (c.tail (ln a z')).src (c.tail (ln a z')).pos = isOnlyCRLF c.src c.pos by rw [hc.src]; exact isOnlyCRLF_ln hz hz' hp,
      if_neg (show ¬ (c.tail (ln a z')).pos ≥ (c.tail (ln a z')).src.length by show ¬ c.pos ≥ (ln a z').length; omega),
      if_neg (show ¬ c.pos ≥ c.src.length by rw [hc.src]; omega)]
  rw [if_neg (show ¬ c.pos ≥ c.src.length by rw [hc.src]; omega)]
  split
  · rename_i h
    exact (LocQ.skipN (Q := fun _ n => AtEol a n) hc.inv (by rw [hc.src]; omega) (hc.eol_crlf (onlyCRLF_isCRLF h))).bind (fun _ c1 _ s1 h1 => .ret s1.inv h1)
  · refine .seq hc (loc_comma hz hz' c hc) (fun m c1 e1 h1 => ?_)
    split
    · rename_i hm
      have hm : m = true := hm
      subst hm
      have hlt := ((comma_safe (N := True) (H := True) c hc.inv).some _ _ e1).1.2 rfl
      have hL := loc_alloc (z' := z') net hz hz' hcl k c1 h1
      refine .seq h1 hL (fun v' c2 e2 h2 => .ret h2.inv ?_)
      have := (hL.step _ _ e2).pos_le
      exact ⟨by omega, h2.pos⟩
    · exact (loc_crlf h1).bind (fun _ c2 _ s2 h2 => .ret s2.inv h2)

theorem loc_values (net : Net) (hz : NoCont z) (hz' : NoCont z') (hcl : Closed a) (k : HKind) (hc : InA a z c) :
    LocQ a z' (fun _ n => AtEol a n) (parseHeaderValues net k) c := by
  unfold parseHeaderValues
  refine .seq hc (loc_alloc net hz hz' hcl k c hc) (fun v c1 _ h1 => ?_)
  split
  · -- the loop
    have hl := ln_length a z; have hl' := ln_length a z'
    have main : ∀ (m : Nat) (s : List HVal × HVal) (c : Ctx) (n n' : Nat), InA a z c → a.length - c.pos < m → a.length < n + c.pos → a.length < n' + c.pos →
        LocQ a z' (fun _ n => AtEol a n) (P.loop (valuesBody net k) n s) c ∧ P.loop (valuesBody net k) n' s (c.tail (ln a z')) = P.loop (valuesBody net k) n s (c.tail (ln a z')) := by
      intro m
      induction m with
      | zero => intro s c n n' _ h; omega
      | succ m ih =>
        intro s c n n' hc hm hn hn'
        have hp := hc.pos
        obtain ⟨n, rfl⟩ : ∃ m, n = m + 1 := ⟨n - 1, by omega⟩
        obtain ⟨n', rfl⟩ : ∃ m, n' = m + 1 := ⟨n' - 1, by omega⟩
        have hb := loc_valuesBody (z' := z') net hz hz' hcl k s hc
        constructor
        · refine hb.bind (fun r c1 e1 s1 h1 => ?_)
          match r, h1 with
          | .inr r, h1 => exact .ret s1.inv h1
          | .inl s', h1 => exact (ih s' c1 n n (hc.step s1 h1.2) (by omega) (by omega) (by omega)).1
        · have he := hb.eq
          rcases hpc : valuesBody net k s c with ⟨_ | r, c1⟩ | _ | _ <;> rw [hpc] at he
          · exact (P.bind_none he).trans (P.bind_none he).symm
          · refine (P.bind_ok he).trans (Eq.trans ?_ (P.bind_ok he).symm)
            have h1 := hb.out _ _ hpc
            match r, h1 with
            | .inr r, h1 => rfl
            | .inl s', h1 => exact (ih s' c1 n n' (hc.step (hb.step _ _ hpc) h1.2) (by omega) (by omega) (by omega)).2
          · exact (P.bind_panic he).trans (P.bind_panic he).symm
          · exact (P.bind_hang he).trans (P.bind_hang he).symm
    obtain ⟨g1, g2⟩ := main (a.length + 1) ([], v) c1 (c1.src.length + 1) ((ln a z').length + 1) h1 (by omega) (by rw [h1.src]; omega) (by omega)
    exact ⟨g2.trans g1.eq, g1.step, g1.out⟩
  · exact (loc_crlf h1).bind (fun _ c2 _ s2 h2 => .ret s2.inv h2)

theorem loc_headerLine (net : Net) (hz : NoCont z) (hz' : NoCont z') (hcl : Closed a) (need : HKind → Bool) (r : Option Bytes × Nat) (hc : InA a z c) :
    LocQ a z' (fun _ n => AtEol a n) (parseHeaderLine net need r) c := by
  obtain ⟨n, i⟩ := r
  have hraw : LocQ a z' (fun _ n => AtEol a n) (parseRawHeader i n >>= fun h => (pure [.raw h] : P (List HItem))) c :=
    (loc_rawHeader hz hz' i n hc).bind (fun _ c2 _ s2 h2 => .ret s2.inv h2)
  have e0 : parseHeaderLine net need (n, i) = parseHeaderLine net need (n, i) := rfl
  conv at e0 => rhs; unfold parseHeaderLine
  rw [e0]
  cases hk : HKind.ofIndex i with
  | none => simp only [hk]; exact hraw
  | some k =>
    simp only [hk]
    split
    · exact (loc_values net hz hz' hcl k hc).bind (fun _ c2 _ s2 h2 => .ret s2.inv h2)
    · exact hraw

/-! ## The list of headers; behind the text stands an empty line -/

theorem loc_headersBody (net : Net) (b b' : Bytes) (hcl : Closed a) (need : HKind → Bool) (acc : List HItem) (hc : InE a (0x0d :: 0x0a :: b) c) :
    LocQ a (0x0d :: 0x0a :: b') (fun r n => match r with
      | .inl _ => AtEol a n
      | .inr _ => n ≤ a.length + 4) (headersBody net need acc) c := by
  have hz : NoCont (0x0d :: 0x0a :: b) := by intro x hx; simp at hx; subst hx; decide
  have hz' : NoCont (0x0d :: 0x0a :: b') := by intro x hx; simp at hx; subst hx; decide
  have hl := ln_length a (0x0d :: 0x0a :: b); have hl' := ln_length a (0x0d :: 0x0a :: b')
  simp only [List.length_cons] at hl hl'
  have hp : c.pos ≤ a.length + 2 := by rcases hc.pos with h | h <;> omega
  have hcr : isCRLF (ln a (0x0d :: 0x0a :: b')) c.pos = isCRLF (ln a (0x0d :: 0x0a :: b)) c.pos ∧ (c.pos = a.length + 2 → isCRLF (ln a (0x0d :: 0x0a :: b)) c.pos = true) := by
    have two : ∀ y : Bytes, isCRLF (ln a (0x0d :: 0x0a :: y)) (a.length + 2) = true := by
      intro y
      have hly := ln_length a (0x0d :: 0x0a :: y)
      simp only [List.length_cons] at hly
      have e1 : (ln a (0x0d :: 0x0a :: y))[a.length + 2]? = some 0x0d := by
        unfold ln; rw [List.getElem?_append_right (by omega), Nat.add_sub_cancel_left]; rfl
      have e2 : (ln a (0x0d :: 0x0a :: y))[a.length + 2 + 1]? = some 0x0a := by
        unfold ln; rw [List.getElem?_append_right (by omega), show a.length + 2 + 1 - a.length = 3 by omega]; rfl
      unfold isCRLF
      rw [e1, e2, decide_eq_true (show a.length + 2 + 1 < (ln a (0x0d :: 0x0a :: y)).length by omega)]; rfl
    rcases hc.pos with h | h
    · exact ⟨isCRLF_ln _ _ h, fun h' => by omega⟩
    · rw [h, two b, two b']; exact ⟨rfl, fun _ => rfl⟩
  unfold headersBody
  refine .get ?_ ?_
  · rw [show isCRLF (c.tail (ln a (0x0d :: 0x0a :: b'))).src (c.tail (ln a (0x0d :: 0x0a :: b'))).pos = isCRLF c.src c.pos by rw [hc.src]; exact hcr.1,
      if_neg (show ¬ (c.tail (ln a (0x0d :: 0x0a :: b'))).pos ≥ (c.tail (ln a (0x0d :: 0x0a :: b'))).src.length by show ¬ c.pos ≥ (ln a (0x0d :: 0x0a :: b')).length; omega),
      if_neg (show ¬ c.pos ≥ c.src.length by rw [hc.src]; omega)]
  rw [if_neg (show ¬ c.pos ≥ c.src.length by rw [hc.src]; omega)]
  split
  · exact (LocQ.skipN (Q := fun _ n => n ≤ a.length + 4) hc.inv (by rw [hc.src]; omega) (by omega)).bind (fun _ c1 _ s1 h1 => .ret s1.inv h1)
  · rename_i h
    have hA : InA a (0x0d :: 0x0a :: b) c := ⟨hc.src, by
      rcases hc.pos with h' | h'
      · exact h'
      · exact absurd (hc.src ▸ hcr.2 h') h, hc.used⟩
    refine .seq hA (.orErr (loc_msgHeaderName hz hz' c hA)) (fun n c1 _ h1 => (loc_headerLine net hz hz' hcl need n h1).bind (fun hs c2 _ s2 h2 => .ret s2.inv h2))

theorem headersBody_progress (net : Net) (need : HKind → Bool) (acc s' : List HItem) {b : Bytes} (hcl : Closed a) {c' : Ctx} (hc : InE a (0x0d :: 0x0a :: b) c)
    (e : headersBody net need acc c = .ok (some (.inl s'), c')) : c.pos < c'.pos := by
  have hz : NoCont (0x0d :: 0x0a :: b) := by intro x hx; simp at hx; subst hx; decide
  have hl := ln_length a (0x0d :: 0x0a :: b)
  simp only [List.length_cons] at hl
  unfold headersBody at e
  have e : (if c.pos ≥ c.src.length then (pure (.inr acc) : P (List HItem ⊕ List HItem)) else
    if isCRLF c.src c.pos then do
      P.skip 2
      pure (.inr acc)
    else do
      let n ← P.orErr parseMsgHeaderName
      let hs ← parseHeaderLine net need n
      pure (.inl (acc ++ hs))) c = .ok (some (.inl s'), c') := e
  by_cases h1 : c.pos ≥ c.src.length
  · rw [if_pos h1] at e; cases e
  rw [if_neg h1] at e
  by_cases h2 : isCRLF c.src c.pos = true
  · rw [if_pos h2] at e; cases e
  rw [if_neg h2] at e
  have hS := GSafe.orErr (l := true) (msgHeaderName_safe (N := False) (H := False) c hc.inv (fun h => h.elim))
  rcases hq : P.orErr parseMsgHeaderName c with ⟨_ | n, c1⟩ | _ | _
  · rw [P.bind_none hq] at e; cases e
  · rw [P.bind_ok hq] at e
    have hlt := (hS.some _ _ hq).1.2.1
    have s1 := hS.step _ _ hq
    rcases hq2 : parseHeaderLine net need n c1 with ⟨_ | hs, c2⟩ | _ | _
    · rw [P.bind_none hq2] at e; cases e
    · rw [P.bind_ok hq2] at e
      cases e
      have hE : c.pos ≤ a.length := by
        rcases hc.pos with h | h
        · exact h
        · exfalso; apply h2; rw [hc.src, h]
          have e1 : (ln a (0x0d :: 0x0a :: b))[a.length + 2]? = some 0x0d := by
            unfold ln; rw [List.getElem?_append_right (by omega), Nat.add_sub_cancel_left]; rfl
          have e2 : (ln a (0x0d :: 0x0a :: b))[a.length + 2 + 1]? = some 0x0a := by
            unfold ln; rw [List.getElem?_append_right (by omega), show a.length + 2 + 1 - a.length = 3 by omega]; rfl
          unfold isCRLF
          rw [e1, e2, decide_eq_true (show a.length + 2 + 1 < (ln a (0x0d :: 0x0a :: b)).length by omega)]; rfl
      have hA : InA a (0x0d :: 0x0a :: b) c := ⟨hc.src, hE, hc.used⟩
      have hn := LocAt.orErr (loc_msgHeaderName (z' := 0x0d :: 0x0a :: b) hz hz c hA)
      have h1 := hA.step s1 (hn.inside _ _ hq)
      have := ((loc_headerLine (z' := 0x0d :: 0x0a :: b) net hz hz hcl need n h1).step _ _ hq2).pos_le
      omega
    · rw [P.bind_panic hq2] at e; cases e
    · rw [P.bind_hang hq2] at e; cases e
  · rw [P.bind_panic hq] at e; cases e
  · rw [P.bind_hang hq] at e; cases e

theorem loc_headers (net : Net) (b b' : Bytes) (hcl : Closed a) (need : HKind → Bool) (hc : InE a (0x0d :: 0x0a :: b) c) :
    LocQ a (0x0d :: 0x0a :: b') (fun _ n => n ≤ a.length + 4) (parseHeaders net need) c :=
  .forLoop hc (fun s c hc => (loc_headersBody net b b' hcl need s hc).mono (fun v n h => by cases v <;> exact h)) (fun s _ s' _ hc e => headersBody_progress net need s s' hcl hc e)

/-! ## Start lines -/

theorem loc_sp : Loc a z z' P.sp := by
  intro c hc
  unfold P.sp
  refine .peek hc ?_
  split
  · exact .err hc
  · rename_i x hx
    split
    · exact .err hc
    · rename_i h
      have h : x = 0x20 := Decidable.not_not.1 h
      exact .skip1 hc hx (by rw [h]; decide)

theorem loc_request (net : Net) (hz : NoCont z) (hcl : Closed a) (hn : z ≠ []) (hn' : z' ≠ []) (hc : InA a z c) :
    LocQ a z' (fun _ n => AtEol a n) (StartLine.parseRequest net) c := by
  unfold StartLine.parseRequest
  exact .seq hc (.orErr (loc_method c hc)) (fun m c1 _ h1 => .seq h1 (loc_sp c1 h1) (fun _ c2 _ h2 => .seq h2 (.orErr (loc_addrSpec net hz hcl c2 h2)) (fun _ c3 _ h3 =>
    .seq h3 (loc_sp c3 h3) (fun _ c4 _ h4 => .seq h4 (.orErr (loc_version hn hn' c4 h4)) (fun _ c5 _ h5 => (loc_crlf h5).orErr.bind (fun _ c6 _ s6 h6 => .ret s6.inv h6))))))

theorem loc_status (hz : NoCont z) (hc : InA a z c) : LocQ a z' (fun _ n => AtEol a n) StartLine.parseStatus c := by
  unfold StartLine.parseStatus
  exact .seq hc (.orErr (loc_afterStart c hc)) (fun m c1 _ h1 => .seq h1 (loc_sp c1 h1) (fun _ c2 _ h2 => .seq h2 (loc_uint hz c2 h2) (fun _ c3 _ h3 =>
    .seq h3 (loc_sp c3 h3) (fun _ c4 _ h4 => .seq h4 (.orErr (loc_strEscEmpty hz _ (by decide +kernel) c4 h4)) (fun _ c5 _ h5 => (loc_crlf h5).orErr.bind (fun _ c6 _ s6 h6 => .ret s6.inv h6))))))

theorem loc_startLine (net : Net) (hz : NoCont z) (hcl : Closed a) (hn : z ≠ []) (hn' : z' ≠ []) (hc : InA a z c) :
    LocQ a z' (fun _ n => AtEol a n) (StartLine.parse net) c := by
  unfold StartLine.parse
  refine .seq hc (.orElse hc (.bind hc (loc_parseStart hn hn' c hc) (fun _ c1 _ h1 => .ret h1 _)) (fun d hd => .ret hd _)) (fun s c1 _ h1 => ?_)
  split
  · exact loc_status hz h1
  · exact loc_request net hz hcl hn hn' h1

end
end Sip
