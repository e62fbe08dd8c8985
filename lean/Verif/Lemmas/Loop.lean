import Verif.Lemmas.Parses
/-! # Loops: safety and round trips -/
namespace Sip

theorem P.bind_panic {α β} {p : P α} {f : α → P β} {c : Ctx} (h : p c = .panic) : (p >>= f) c = .panic := by rw [P.bind_apply, h]
theorem P.bind_hang {α β} {p : P α} {f : α → P β} {c : Ctx} (h : p c = .hang) : (p >>= f) c = .hang := by rw [P.bind_apply, h]

/-- a successful run moves forward -/
def EatsAt {α : Type} (p : P α) (c : Ctx) : Prop := ∀ v c', p c = .ok (some v, c') → c.pos < c'.pos

theorem EatsAt.bind {α β : Type} {q : Nat} {l : Bool} {m B : Nat} {Q : α → Prop} {R : β → Prop} {p : P α} {f : α → P β} {c : Ctx} (hp : EatsAt p c)
    (hs : SafeAt q l m B Q p c) (hf : ∀ v c', Q v → Inv c' → SafeAt q l m B R (f v) c') : EatsAt (p >>= f) c := by
  intro v c' e
  rcases hpc : p c with ⟨_ | a, c1⟩ | _ | _
  · rw [P.bind_none hpc] at e; cases e
  · rw [P.bind_ok hpc] at e
    have h1 := hp a c1 hpc
    have h2 := ((hf a c1 (hs.some _ _ hpc).1 (hs.step _ _ hpc).inv).step _ _ e).pos_le
    omega
  · rw [P.bind_apply, hpc] at e; cases e
  · rw [P.bind_apply, hpc] at e; cases e

/-- moving forward in the first part, anything that does not move back in the second -/
theorem EatsAt.seq {α β : Type} {p : P α} {f : α → P β} {c : Ctx} (hp : EatsAt p c)
    (hf : ∀ v c1, p c = .ok (some v, c1) → ∀ w c', f v c1 = .ok (some w, c') → c1.pos ≤ c'.pos) : EatsAt (p >>= f) c := by
  intro v c' e
  rcases hpc : p c with ⟨_ | a, c1⟩ | _ | _
  · rw [P.bind_none hpc] at e; cases e
  · rw [P.bind_ok hpc] at e
    have h1 := hp a c1 hpc
    have h2 := hf a c1 hpc _ _ e
    omega
  · rw [P.bind_apply, hpc] at e; cases e
  · rw [P.bind_apply, hpc] at e; cases e

/-- a successful run with a result of a kind moves forward -/
def EatsOn {α : Type} (T : α → Prop) (p : P α) (c : Ctx) : Prop := ∀ v c', p c = .ok (some v, c') → T v → c.pos < c'.pos

theorem EatsOn.ret {α : Type} {T : α → Prop} {v : α} {c : Ctx} (h : ¬ T v) : EatsOn T (pure v : P α) c := by
  intro w c' e ht; cases e; exact absurd ht h
theorem EatsOn.err {α : Type} {T : α → Prop} {c : Ctx} : EatsOn T (P.err : P α) c := by intro w c' e; cases e
theorem EatsOn.peek {β : Type} {T : β → Prop} {f : Option UInt8 → P β} {c : Ctx} (h : EatsOn T (f c.cur?) c) : EatsOn T (P.peek >>= f) c := h
theorem EatsOn.skip1 {β : Type} {T : β → Prop} {f : Unit → P β} {c : Ctx} (h : ∀ v c', f () (c.adv 1) = .ok (some v, c') → c.pos + 1 ≤ c'.pos) :
    EatsOn T (P.skip 1 >>= f) c := fun v c' e _ => by
  have : f () (c.adv 1) = .ok (some v, c') := e
  have := h v c' this
  omega
theorem EatsOn.skipPure {β : Type} {T : β → Prop} {v : β} {c : Ctx} : EatsOn T (P.skip 1 >>= fun _ => (pure v : P β)) c :=
  EatsOn.skip1 (fun v c' e => by cases e; exact Nat.le_refl _)
theorem EatsOn.snd {α β : Type} {q : Nat} {l : Bool} {m B : Nat} {Q : α → Prop} {T : β → Prop} {p : P α} {f : α → P β} {c : Ctx}
    (hs : SafeAt q l m B Q p c) (hf : ∀ v c', p c = .ok (some v, c') → Q v → Inv c' → EatsOn T (f v) c') : EatsOn T (p >>= f) c := by
  intro v c' e ht
  rcases hpc : p c with ⟨_ | a, c1⟩ | _ | _
  · rw [P.bind_none hpc] at e; cases e
  · rw [P.bind_ok hpc] at e
    have st := hs.step _ _ hpc
    have h2 := hf a c1 hpc (hs.some _ _ hpc).1 st.inv v c' e ht
    have := st.pos_le
    omega
  · rw [P.bind_panic hpc] at e; cases e
  · rw [P.bind_hang hpc] at e; cases e
theorem EatsOn.fst {α β : Type} {q : Nat} {l : Bool} {m B : Nat} {Q : α → Prop} {T : β → Prop} {p : P α} {f : α → P β} {c : Ctx}
    (hp : EatsAt p c) (hs : SafeAt q l m B Q p c) (hf : ∀ v c1, p c = .ok (some v, c1) → Inv c1 → ∀ w c', f v c1 = .ok (some w, c') → c1.pos ≤ c'.pos) :
    EatsOn T (p >>= f) c := fun v c' e _ =>
  EatsAt.seq hp (fun a c1 h => hf a c1 h (hs.step _ _ h).inv) v c' e

/-- a predicate on the result of a round of a loop: on the new state or on the result -/
def SumQ {σ ρ : Type} (I : σ → Prop) (Q : ρ → Prop) : σ ⊕ ρ → Prop
  | .inl s => I s
  | .inr r => Q r
/-- a predicate on an optional result -/
def OptQ {κ : Type} (N : Prop) (J : κ → Prop) : Option κ → Prop
  | none => N
  | some k => J k

/-- a loop whose body is safe and moves forward whenever it goes on is safe; its memory rate accounts for the constant part of the body -/
theorem safe_loop {σ ρ : Type} {q : Nat} {l : Bool} {m B : Nat} {fl : Flags} {src : Bytes} {I : σ → Prop} {Q : ρ → Prop} {body : σ → P (σ ⊕ ρ)}
    (hb : ∀ s c, I s → Inv c → c.flags = fl → c.src = src → SafeAt q l m B (SumQ I Q) (body s) c)
    (he : ∀ s c s' c', I s → Inv c → c.flags = fl → c.src = src → body s c = .ok (some (.inl s'), c') → c.pos < c'.pos)
    (n : Nat) : ∀ s c, I s → Inv c → c.flags = fl → c.src = src → c.src.length < n + c.pos → SafeAt q l (m + B) B Q (P.loop body n s) c := by
  induction n with
  | zero => intro s c _ hc _ _ hn; have := hc.pos; omega
  | succ n ih =>
    intro s c hs hc hfl hsrc hn
    have hbs := hb s c hs hc hfl hsrc
    rcases hpc : body s c with ⟨_ | a, c1⟩ | _ | _
    · have e0 : P.loop body (n + 1) s c = .ok (none, c1) := P.bind_none hpc
      exact .of_none e0 (hbs.step _ _ hpc) (fun h => hbs.none h _ hpc) (by have := hbs.nmem _ hpc; rw [Nat.add_mul]; omega)
    · obtain ⟨hq, hline, hu⟩ := hbs.some _ _ hpc
      have st := hbs.step _ _ hpc
      cases a with
      | inr r =>
        have e0 : P.loop body (n + 1) s c = .ok (some r, c1) := P.bind_ok hpc
        refine .of_okL e0 st hq hline ?_
        rw [Nat.add_mul]; omega
      | inl s' =>
        have e0 : P.loop body (n + 1) s c = P.loop body n s' c1 := P.bind_ok hpc
        have hlt := he s c s' c1 hs hc hfl hsrc hpc
        have hi := ih s' c1 hq st.inv (st.flags.trans hfl) (st.src.trans hsrc) (by rw [st.src]; omega)
        have hB : B ≤ B * (c1.pos - c.pos) := Nat.le_mul_of_pos_right _ (by omega)
        constructor
        · intro r c' e; rw [e0] at e; exact st.trans (hi.step _ _ e)
        · intro v c' e; rw [e0] at e
          obtain ⟨a, b, d⟩ := hi.some _ _ e
          refine ⟨a, fun hL => (hline hL).trans st.src (b (hL.step st.src st.pos_le (hline hL))), ?_⟩
          have h2 := (hi.step _ _ e).pos_le
          have e : c'.pos - c.pos = (c1.pos - c.pos) + (c'.pos - c1.pos) := by omega
          rw [e, Nat.mul_add, Nat.add_mul m B (c1.pos - c.pos)]
          omega
        · intro hl c' e; rw [e0] at e
          have := hi.none hl _ e
          have := st.errs.length_le
          omega
        · intro heol hr e; rw [e0] at e
          refine hi.nopanic (heol.step st.src st.pos_le (hline heol.toL)) ?_ e
          unfold Room at *
          rw [st.src, st.cap]
          have h1 := st.pos_le; have h2 := st.pos_len
          have e : c.src.length - c.pos = (c1.pos - c.pos) + (c.src.length - c1.pos) := by omega
          rw [e, Nat.mul_add, Nat.add_mul m B (c1.pos - c.pos)] at hr
          omega
        · intro hn e; rw [e0] at e
          exact hi.nohang (hn.step st.src st.pos_le hline) e
        · intro c' e; rw [e0] at e
          have := st.mem (m := m + B) (B1 := 0) (by rw [Nat.add_mul]; omega) (hi.nmem _ e)
          omega
    · have e0 : P.loop body (n + 1) s c = .panic := P.bind_panic hpc
      refine .of_panic e0 (fun h1 h2 => ?_)
      exact hbs.nopanic h1 (h2.mono (by omega) (Nat.le_refl _)) hpc
    · have e0 : P.loop body (n + 1) s c = .hang := P.bind_hang hpc
      constructor
      · intro r c' e; rw [e0] at e; cases e
      · intro v c' e; rw [e0] at e; cases e
      · intro hl c' e; rw [e0] at e; cases e
      · intro _ _ e; rw [e0] at e; cases e
      · intro h e; exact hbs.nohang h hpc
      · intro c' e; rw [e0] at e; cases e

theorem safe_forLoop {σ ρ : Type} {q : Nat} {l : Bool} {m B : Nat} {I : σ → Prop} {Q : ρ → Prop} {body : σ → P (σ ⊕ ρ)} {s : σ} {c : Ctx}
    (hb : ∀ s c1, I s → Inv c1 → c1.flags = c.flags → c1.src = c.src → SafeAt q l m B (SumQ I Q) (body s) c1)
    (he : ∀ s c1 s' c', I s → Inv c1 → c1.flags = c.flags → c1.src = c.src → body s c1 = .ok (some (.inl s'), c') → c1.pos < c'.pos)
    (hs : I s) (hc : Inv c) : SafeAt q l (m + B) B Q (P.forLoop body s) c :=
  SafeAt.congr (p' := P.loop body (c.src.length + 1) s) rfl (safe_loop (fl := c.flags) (src := c.src) hb he (c.src.length + 1) s c hs hc rfl rfl (by omega))

/-- what a loop does on a text: rounds on the parts of the text, each consuming something, and a last one -/
inductive Run {σ ρ : Type} (fl : Flags) (body : σ → P (σ ⊕ ρ)) (F : Bytes → Prop) : σ → Bytes → ρ → Nat → Nat → Prop
  | last {s t r n} (h : Parses fl (body s) t (.inr r) n F) : Run fl body F s t r n 1
  | step {s s' t t' r n n' k} (G : Bytes → Prop) (h : Parses fl (body s) t (.inl s') n G) (ht : t ≠ []) (hF : ∀ y, F y → G (t' ++ y))
      (h' : Run fl body F s' t' r n' k) : Run fl body F s (t ++ t') r (n + n') (k + 1)

theorem Run.parses {σ ρ : Type} {fl : Flags} {body : σ → P (σ ⊕ ρ)} {F : Bytes → Prop} {s : σ} {t : Bytes} {r : ρ} {n k : Nat}
    (h : Run fl body F s t r n k) : ∀ f, k ≤ f → Parses fl (P.loop body f s) t r n F := by
  induction h with
  | last h =>
    intro f hf
    obtain ⟨f, rfl⟩ : ∃ g, f = g + 1 := ⟨f - 1, by omega⟩
    exact Parses.bind' h (Parses.ret _) (fun y hy => hy) (by simp) rfl
  | step G h ht hF h' ih =>
    intro f hf
    obtain ⟨f, rfl⟩ : ∃ g, f = g + 1 := ⟨f - 1, by omega⟩
    exact Parses.bind' h (ih f (by omega)) hF rfl rfl

theorem Run.len {σ ρ : Type} {fl : Flags} {body : σ → P (σ ⊕ ρ)} {F : Bytes → Prop} {s : σ} {t : Bytes} {r : ρ} {n k : Nat}
    (h : Run fl body F s t r n k) : k ≤ t.length + 1 := by
  induction h with
  | last h => omega
  | step G h ht hF h' ih =>
    have := List.length_pos_iff.mpr ht
    rw [List.length_append]; omega

theorem Run.forLoop {σ ρ : Type} {fl : Flags} {body : σ → P (σ ⊕ ρ)} {F : Bytes → Prop} {s : σ} {t : Bytes} {r : ρ} {n k : Nat}
    (h : Run fl body F s t r n k) : Parses fl (P.forLoop body s) t r n F := by
  intro c y hfl hr hF hp hu
  have hl := rest_length c hp
  rw [hr] at hl; simp only [List.length_append] at hl
  exact h.parses (c.src.length + 1) (by have := h.len; omega) c y hfl hr hF hp hu

end Sip
