import Verif.Lemmas.Loop
import Verif.Lemmas.Marks
/-! # Safety of parsers that consume ends of lines

`GSafe N H l m B Q p c`: like `SafeAt`, with the conditions that exclude panics (`N`) and endless loops (`H`) given as such, and a predicate on the
value and the new state. -/
namespace Sip

structure GSafe {α : Type} (N H : Prop) (l : Bool) (m B : Nat) (Q : α → Ctx → Prop) (p : P α) (c : Ctx) : Prop where
  step : ∀ r c', p c = .ok (r, c') → Step c c'
  some : ∀ v c', p c = .ok (some v, c') → Q v c' ∧ c'.used ≤ c.used + m * (c'.pos - c.pos) + B
  none : l = true → ∀ c', p c = .ok (none, c') → c.errs.length < c'.errs.length
  nopanic : N → Room c m B → p c ≠ .panic
  nohang : H → p c ≠ .hang
  nmem : ∀ c', p c = .ok (Option.none, c') → c'.used ≤ c.used + m * (c.src.length - c.pos) + B

namespace GSafe
variable {α β : Type} {N H : Prop} {l : Bool} {m B : Nat} {Q : α → Ctx → Prop} {R : β → Ctx → Prop} {c : Ctx}

/-- a parser that stays on its line -/
theorem of_safe {q : Nat} {Q : α → Prop} {p : P α} (h : SafeAt q l m B Q p c) (hN : N → Pre q c) (hH : H → PreH q c) :
    GSafe N H l m B (fun v c' => Q v ∧ (PreL q c → Line c c')) p c where
  step := h.step
  some v c' e := by obtain ⟨a, b, d⟩ := h.some v c' e; exact ⟨⟨a, b⟩, d⟩
  none := h.none
  nopanic n := h.nopanic (hN n)
  nohang n := h.nohang (hH n)
  nmem := h.nmem

theorem mono {p : P α} {N' H' : Prop} {l' : Bool} {m' B' : Nat} {Q' : α → Ctx → Prop} (h : GSafe N H l m B Q p c) (hN : N' → N) (hH : H' → H)
    (hl : l' = true → l = true) (hm : m ≤ m') (hB : B ≤ B') (hQ : ∀ v c', Step c c' → Q v c' → Q' v c') : GSafe N' H' l' m' B' Q' p c where
  step := h.step
  some v c' e := by
    obtain ⟨a, d⟩ := h.some v c' e
    exact ⟨hQ v c' (h.step _ _ e) a, by have := Nat.mul_le_mul_right (c'.pos - c.pos) hm; omega⟩
  none hl' := h.none (hl hl')
  nopanic he hr := h.nopanic (hN he) (hr.mono hm hB)
  nohang he := h.nohang (hH he)
  nmem c' e := by have := h.nmem c' e; have := Nat.mul_le_mul_right (c.src.length - c.pos) hm; omega

theorem of_ok {p : P α} {v : α} {c' : Ctx} (e0 : p c = .ok (Option.some v, c')) (hs : Step c c') (hq : Q v c')
    (hu : c'.used ≤ c.used + m * (c'.pos - c.pos) + B) : GSafe N H l m B Q p c where
  step r d e := by rw [e0] at e; cases e; exact hs
  some v d e := by rw [e0] at e; cases e; exact ⟨hq, hu⟩
  none _ d e := by rw [e0] at e; cases e
  nopanic _ _ e := by rw [e0] at e; cases e
  nohang _ e := by rw [e0] at e; cases e
  nmem d e := by rw [e0] at e; cases e
theorem of_none {p : P α} {c' : Ctx} (e0 : p c = .ok (Option.none, c')) (hs : Step c c') (hl : l = true → c.errs.length < c'.errs.length)
    (hu : c'.used ≤ c.used + m * (c.src.length - c.pos) + B := by (try simp only [Ctx.addError, Ctx.setPos, Ctx.adv, sws_used]) <;> omega) : GSafe N H l m B Q p c where
  step r d e := by rw [e0] at e; cases e; exact hs
  some v d e := by rw [e0] at e; cases e
  none h d e := by rw [e0] at e; cases e; exact hl h
  nopanic _ _ e := by rw [e0] at e; cases e
  nohang _ e := by rw [e0] at e; cases e
  nmem d e := by rw [e0] at e; cases e; exact hu
theorem of_panic {p : P α} (e0 : p c = .panic) (h : N → Room c m B → False) : GSafe N H l m B Q p c where
  step r d e := by rw [e0] at e; cases e
  some v d e := by rw [e0] at e; cases e
  none h d e := by rw [e0] at e; cases e
  nopanic a b _ := h a b
  nohang _ e := by rw [e0] at e; cases e
  nmem d e := by rw [e0] at e; cases e

theorem pure (hc : Inv c) {v : α} (h : Q v c) : GSafe N H l m B Q (pure v) c := of_ok rfl (Step.refl hc) h (by omega)
theorem fail (hc : Inv c) : GSafe N H false m B Q P.fail c := of_none (c' := c) rfl (Step.refl hc) (by simp)
theorem err (hc : Inv c) : GSafe N H l m B Q P.err c := of_none (c' := c.addError c.pos) rfl (Step.err hc _) (by simp [Ctx.addError])

theorem congr {p p' : P α} (h : p c = p' c) (hs : GSafe N H l m B Q p' c) : GSafe N H l m B Q p c where
  step r c' e := hs.step r c' (h ▸ e)
  some v c' e := hs.some v c' (h ▸ e)
  none hl c' e := hs.none hl c' (h ▸ e)
  nopanic he hr e := hs.nopanic he hr (h ▸ e)
  nohang he e := hs.nohang he (h ▸ e)
  nmem c' e := hs.nmem c' (h ▸ e)
theorem get {f : Ctx → P β} (h : GSafe N H l m B R (f c) c) : GSafe N H l m B R (P.get >>= f) c := congr (P.get_bind f c) h
theorem peek {f : Option UInt8 → P β} (h : GSafe N H l m B R (f c.cur?) c) : GSafe N H l m B R (P.peek >>= f) c := congr (P.peek_bind f c) h

theorem bind {B1 B2 : Nat} {p : P α} {f : α → P β} (hp : GSafe N H l m B1 Q p c)
    (hf : ∀ v c', p c = .ok (Option.some v, c') → Q v c' → Step c c' → GSafe N H l m B2 R (f v) c') : GSafe N H l m (B1 + B2) R (p >>= f) c := by
  rcases hpc : p c with ⟨_ | v, c1⟩ | _ | _
  · exact of_none (P.bind_none hpc) (hp.step _ _ hpc) (fun h => hp.none h _ hpc) (by have := hp.nmem _ hpc; omega)
  · have s1 := hp.step _ _ hpc
    obtain ⟨hq, hu⟩ := hp.some _ _ hpc
    have hs := hf v c1 hpc hq s1
    have e0 : (p >>= f) c = f v c1 := P.bind_ok hpc
    constructor
    · intro r c' e; rw [e0] at e; exact s1.trans (hs.step _ _ e)
    · intro v c' e; rw [e0] at e
      obtain ⟨a, d⟩ := hs.some _ _ e
      refine ⟨a, ?_⟩
      have h2 := hs.step _ _ e
      have h3 := s1.pos_le; have h4 := h2.pos_le
      have e : c'.pos - c.pos = (c1.pos - c.pos) + (c'.pos - c1.pos) := by omega
      rw [e, Nat.mul_add]
      omega
    · intro hl c' e; rw [e0] at e
      have := hs.none hl _ e
      have := s1.errs.length_le
      omega
    · intro he hr e; rw [e0] at e
      exact hs.nopanic he (hr.step s1 hu) e
    · intro he e; rw [e0] at e
      exact hs.nohang he e
    · intro c' e; rw [e0] at e
      exact s1.mem hu (hs.nmem _ e)
  · exact of_panic (P.bind_panic hpc) (fun he hr => hp.nopanic he (hr.mono (Nat.le_refl _) (by omega)) hpc)
  · have e0 : (p >>= f) c = .hang := P.bind_hang hpc
    constructor
    · intro r c' e; rw [e0] at e; cases e
    · intro v c' e; rw [e0] at e; cases e
    · intro hl c' e; rw [e0] at e; cases e
    · intro _ _ e; rw [e0] at e; cases e
    · intro he e; exact hp.nohang he hpc
    · intro c' e; rw [e0] at e; cases e

theorem seq {l1 : Bool} {m1 B1 B2 : Nat} {p : P α} {f : α → P β} (hp : GSafe N H l1 m1 B1 Q p c)
    (hf : ∀ v c', p c = .ok (Option.some v, c') → Q v c' → Step c c' → GSafe N H l m B2 R (f v) c')
    (hB : B1 + B2 ≤ B := by omega) (hm : m1 ≤ m := by omega) (hl : l = true → l1 = true := by simp) :
    GSafe N H l m B R (p >>= f) c :=
  (bind (hp.mono id id hl hm (Nat.le_refl _) (fun _ _ _ h => h)) hf).mono id id (fun h => h) (Nat.le_refl _) hB (fun _ _ _ h => h)

theorem orErr {p : P α} {l' : Bool} (h : GSafe N H l' m B Q p c) : GSafe N H l m B Q (P.orErr p) c := by
  rcases hpc : p c with ⟨_ | v, c1⟩ | _ | _
  · have s1 := h.step _ _ hpc
    refine of_none (c' := c1.addError c1.pos) (by simp [P.orErr, hpc]) (s1.addError _) (fun _ => ?_) (by simp only [Ctx.addError]; exact h.nmem _ hpc)
    have := s1.errs.length_le
    simp [Ctx.addError]; omega
  · obtain ⟨a, b⟩ := h.some _ _ hpc
    exact of_ok (P.orErr_ok hpc) (h.step _ _ hpc) a b
  · exact of_panic (by simp [P.orErr, hpc]) (fun a b => h.nopanic a b hpc)
  · have e0 : P.orErr p c = .hang := by simp [P.orErr, hpc]
    constructor
    · intro r c' e; rw [e0] at e; cases e
    · intro v c' e; rw [e0] at e; cases e
    · intro hl c' e; rw [e0] at e; cases e
    · intro _ _ e; rw [e0] at e; cases e
    · intro he e; exact h.nohang he hpc
    · intro c' e; rw [e0] at e; cases e

/-- a loop whose rounds keep `I` and move forward by at least `d` bytes whenever they go on -/
theorem loop {σ ρ : Type} {I : σ → Ctx → Prop} {Q : ρ → Ctx → Prop} {body : σ → P (σ ⊕ ρ)} {B' d : Nat} {fl : Flags} {src : Bytes}
    (hb : ∀ s c, I s c → Inv c → c.flags = fl → c.src = src → GSafe N H l m B (fun r c' => match r with | .inl s' => I s' c' ∧ c.pos + d ≤ c'.pos | .inr v => Q v c') (body s) c)
    (hd : 0 < d) (hB : B ≤ B' * d) (n : Nat) :
    ∀ s c, I s c → Inv c → c.flags = fl → c.src = src → c.src.length < n + c.pos → GSafe N H l (m + B') B Q (P.loop body n s) c := by
  induction n with
  | zero => intro s c _ hc _ _ hn; have := hc.pos; omega
  | succ n ih =>
    intro s c hs hc hfl hsrc hn
    have hbs := hb s c hs hc hfl hsrc
    rcases hpc : body s c with ⟨_ | a, c1⟩ | _ | _
    · exact of_none (P.bind_none hpc) (hbs.step _ _ hpc) (fun h => hbs.none h _ hpc) (by have := hbs.nmem _ hpc; rw [Nat.add_mul]; omega)
    · obtain ⟨hq, hu⟩ := hbs.some _ _ hpc
      have st := hbs.step _ _ hpc
      cases a with
      | inr r =>
        have e0 : P.loop body (n + 1) s c = .ok (Option.some r, c1) := P.bind_ok hpc
        refine of_ok e0 st hq ?_
        rw [Nat.add_mul]; omega
      | inl s' =>
        have e0 : P.loop body (n + 1) s c = P.loop body n s' c1 := P.bind_ok hpc
        obtain ⟨hI, hlt⟩ := hq
        have hi := ih s' c1 hI st.inv (st.flags.trans hfl) (st.src.trans hsrc) (by rw [st.src]; omega)
        have hB : B ≤ B' * (c1.pos - c.pos) := Nat.le_trans hB (Nat.mul_le_mul_left _ (by omega))
        constructor
        · intro r c' e; rw [e0] at e; exact st.trans (hi.step _ _ e)
        · intro v c' e; rw [e0] at e
          obtain ⟨a, d⟩ := hi.some _ _ e
          refine ⟨a, ?_⟩
          have h2 := (hi.step _ _ e).pos_le
          have e : c'.pos - c.pos = (c1.pos - c.pos) + (c'.pos - c1.pos) := by omega
          rw [e, Nat.mul_add, Nat.add_mul m B' (c1.pos - c.pos)]
          omega
        · intro hl c' e; rw [e0] at e
          have := hi.none hl _ e
          have := st.errs.length_le
          omega
        · intro heol hr e; rw [e0] at e
          refine hi.nopanic heol ?_ e
          unfold Room at *
          rw [st.src, st.cap]
          have h1 := st.pos_le; have h2 := st.pos_len
          have e : c.src.length - c.pos = (c1.pos - c.pos) + (c.src.length - c1.pos) := by omega
          rw [e, Nat.mul_add, Nat.add_mul m B' (c1.pos - c.pos)] at hr
          omega
        · intro hn e; rw [e0] at e
          exact hi.nohang hn e
        · intro c' e; rw [e0] at e
          have := st.mem (m := m + B') (B1 := 0) (by rw [Nat.add_mul]; omega) (hi.nmem _ e)
          omega
    · exact of_panic (P.bind_panic hpc) (fun h1 h2 => hbs.nopanic h1 (h2.mono (by omega) (Nat.le_refl _)) hpc)
    · have e0 : P.loop body (n + 1) s c = .hang := P.bind_hang hpc
      constructor
      · intro r c' e; rw [e0] at e; cases e
      · intro v c' e; rw [e0] at e; cases e
      · intro hl c' e; rw [e0] at e; cases e
      · intro _ _ e; rw [e0] at e; cases e
      · intro h e; exact hbs.nohang h hpc
      · intro c' e; rw [e0] at e; cases e

theorem forLoop {σ ρ : Type} {I : σ → Ctx → Prop} {Q : ρ → Ctx → Prop} {body : σ → P (σ ⊕ ρ)} {B' d : Nat} {s : σ} {c : Ctx}
    (hb : ∀ s c1, I s c1 → Inv c1 → c1.flags = c.flags → c1.src = c.src →
      GSafe N H l m B (fun r c' => match r with | .inl s' => I s' c' ∧ c1.pos + d ≤ c'.pos | .inr v => Q v c') (body s) c1)
    (hd : 0 < d) (hB : B ≤ B' * d) (hs : I s c) (hc : Inv c) : GSafe N H l (m + B') B Q (P.forLoop body s) c :=
  GSafe.congr (p' := P.loop body (c.src.length + 1) s) rfl (loop (fl := c.flags) (src := c.src) hb hd hB (c.src.length + 1) s c hs hc rfl rfl (by omega))

end GSafe

/-- the next end of line, if it is passed, is passed just behind it -/
def Line2 (c c' : Ctx) : Prop := ∀ e, c.pos ≤ e → StartsEol (c.src.drop e) → c'.pos ≤ e ∨ c'.pos = e + 2

theorem Line.line2 {a b : Ctx} (h : Line a b) : Line2 a b := fun e h1 h2 => Or.inl (h e h1 h2)
theorem Line.trans2 {a b c : Ctx} (hs : b.src = a.src) (h1 : Line a b) (h2 : Line2 b c) : Line2 a c :=
  fun e he hl => h2 e (h1 e he hl) (by rw [hs]; exact hl)

/-- the end of a line, folded or not -/
theorem gsafe_crlf {N H : Prop} {m B : Nat} (c : Ctx) (hc : Inv c) :
    GSafe N H false m B (fun _ c' => Line2 c c' ∧ c'.pos = c.pos + 2 ∧ c.rest = 0x0d :: 0x0a :: c'.rest) P.crlf c := by
  by_cases h : ∃ y, c.rest = 0x0d :: 0x0a :: y
  · obtain ⟨y, hr⟩ := h
    have e0 : P.crlf c = .ok (some (), c.adv 2) := by simp only [P.crlf, P.ofBool, (crlf_spec c).1 y hr]
    have hl := rest_length c hc.pos
    rw [hr] at hl; simp only [List.length_cons] at hl
    have hy : (c.adv 2).rest = y := by
      have : (c.adv 2).rest = c.rest.drop 2 := by simp [Ctx.rest, Ctx.adv]
      rw [this, hr]; rfl
    refine .of_ok e0 (Step.adv hc (by omega)) ⟨?_, rfl, by rw [hy]; exact hr⟩ (by simp only [Ctx.adv]; omega)
    intro e he hs
    simp only [Ctx.adv]
    false_or_by_contra
    rename_i hn
    have : e = c.pos + 1 := by omega
    subst this
    have hh := startsEol_head hs
    have e2 : c.src.drop (c.pos + 1) = c.rest.drop 1 := by simp [Ctx.rest]
    rw [e2, hr] at hh
    simp at hh
  · have e0 : P.crlf c = .ok (none, c) := by simp only [P.crlf, P.ofBool, (crlf_spec c).2 h]
    exact .of_none e0 (Step.refl hc) (by simp)

end Sip
