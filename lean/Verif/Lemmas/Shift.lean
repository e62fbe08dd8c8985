import Verif.Lemmas.Loc
/-!
# What was read and stored before does not matter

A judgement for parsers: the same run when other input `w` stands before the present one, `k` more bytes of the arena are in use (and the arena is larger by as
much) and other errors were recorded before.
-/
namespace Sip

/-- what came before: input already read, errors already recorded, memory already handed out -/
structure Past where
  read : Bytes
  errs : List Nat
  used : Nat

/-- the same context with more behind it -/
def Ctx.sh (c : Ctx) (o : Past) : Ctx :=
  { c with src := o.read ++ c.src, pos := o.read.length + c.pos, used := o.used + c.used, cap := o.used + c.cap,
           errs := c.errs.map (o.read.length + ·) ++ o.errs }
/-- the same outcome with more behind it -/
def msh {α : Type} (o : Past) : Out (Option α × Ctx) → Out (Option α × Ctx)
  | .ok (r, c) => .ok (r, c.sh o)
  | .panic => .panic
  | .hang => .hang

/-- the run is the same -/
structure ShAt {α : Type} (o : Past) (p : P α) (c : Ctx) : Prop where
  eq : p (c.sh o) = msh o (p c)
  step : ∀ r c', p c = .ok (r, c') → Step c c'

/-- from every state -/
def Sh {α : Type} (o : Past) (p : P α) : Prop := ∀ c, Inv c → ShAt o p c

section
variable {o : Past} {c : Ctx} {α β : Type}

theorem Ctx.sh_src (c : Ctx) (o : Past) : (c.sh o).src = o.read ++ c.src := rfl
theorem Ctx.sh_pos (c : Ctx) (o : Past) : (c.sh o).pos = o.read.length + c.pos := rfl
theorem Ctx.sh_used (c : Ctx) (o : Past) : (c.sh o).used = o.used + c.used := rfl
theorem Ctx.sh_cap (c : Ctx) (o : Past) : (c.sh o).cap = o.used + c.cap := rfl
theorem Ctx.sh_flags (c : Ctx) (o : Past) : (c.sh o).flags = c.flags := rfl

theorem sh_drop (w s : Bytes) (i : Nat) : (w ++ s).drop (w.length + i) = s.drop i := by
  rw [List.drop_append, List.drop_of_length_le (by omega), List.nil_append, Nat.add_sub_cancel_left]
theorem sh_get (w s : Bytes) (i : Nat) : (w ++ s)[w.length + i]? = s[i]? := by
  rw [List.getElem?_append_right (by omega), Nat.add_sub_cancel_left]
theorem sh_get1 (w s : Bytes) (i k : Nat) : (w ++ s)[w.length + i + k]? = s[i + k]? := by
  rw [Nat.add_assoc]; exact sh_get w s _
theorem sh_ge (w s : Bytes) (i : Nat) : (w.length + i ≥ (w ++ s).length) = (i ≥ s.length) := by
  rw [List.length_append]; exact propext (by omega)
theorem sh_lt (w s : Bytes) (i : Nat) : (w.length + i < (w ++ s).length) = (i < s.length) := by
  rw [List.length_append]; exact propext (by omega)
theorem sh_ge1 (w s : Bytes) (i k : Nat) : (w.length + i + k ≥ (w ++ s).length) = (i + k ≥ s.length) := by
  rw [List.length_append]; exact propext (by omega)
theorem sh_lt1 (w s : Bytes) (i k : Nat) : (w.length + i + k < (w ++ s).length) = (i + k < s.length) := by
  rw [List.length_append]; exact propext (by omega)
theorem sh_skipWhile (f : UInt8 → Bool) (w s : Bytes) (i : Nat) : skipWhile f (w ++ s) (w.length + i) = w.length + skipWhile f s i := by
  unfold skipWhile; rw [sh_drop, Nat.add_assoc]
theorem sh_skipWhile1 (f : UInt8 → Bool) (w s : Bytes) (i k : Nat) : skipWhile f (w ++ s) (w.length + i + k) = w.length + skipWhile f s (i + k) := by
  rw [Nat.add_assoc]; exact sh_skipWhile f w s _

theorem Ctx.sh_cur (c : Ctx) (o : Past) : (c.sh o).cur? = c.cur? := sh_get _ _ _
theorem Ctx.sh_rest (c : Ctx) (o : Past) : (c.sh o).rest = c.rest := sh_drop _ _ _
theorem Ctx.sh_setPos (c : Ctx) (o : Past) (p : Nat) : (c.sh o).setPos (o.read.length + p) = (c.setPos p).sh o := rfl
theorem Ctx.sh_adv (c : Ctx) (o : Past) (k : Nat) : (c.sh o).adv k = (c.adv k).sh o := by
  unfold Ctx.adv Ctx.sh; dsimp only; rw [Nat.add_assoc]
theorem Ctx.sh_addError (c : Ctx) (o : Past) (p : Nat) : (c.sh o).addError (o.read.length + p) = (c.addError p).sh o := rfl

theorem msh_ite {α : Type} (o : Past) (p : Prop) [Decidable p] (x y : Out (Option α × Ctx)) : msh o (if p then x else y) = if p then msh o x else msh o y := by
  split <;> rfl
theorem msh_ok {α : Type} (o : Past) (r : Option α) (c : Ctx) : msh o (.ok (r, c)) = .ok (r, c.sh o) := rfl
theorem msh_panic {α : Type} (o : Past) : msh o (.panic : Out (Option α × Ctx)) = .panic := rfl
theorem msh_hang {α : Type} (o : Past) : msh o (.hang : Out (Option α × Ctx)) = .hang := rfl

/-! ## Rules -/

theorem ShAt.bind {p : P α} {f : α → P β} (hp : ShAt o p c)
    (hf : ∀ v c1, p c = .ok (some v, c1) → Inv c1 → ShAt o (f v) c1) : ShAt o (p >>= f) c := by
  have he := hp.eq
  rcases hpc : p c with ⟨_ | v, c1⟩ | _ | _ <;> rw [hpc] at he
  · have e0 : (p >>= f) c = .ok (none, c1) := P.bind_none hpc
    refine ⟨?_, fun r c' e => ?_⟩
    · rw [e0, P.bind_none he]; rfl
    · rw [e0] at e; cases e; exact hp.step _ _ hpc
  · have e0 : (p >>= f) c = f v c1 := P.bind_ok hpc
    have s1 := hp.step _ _ hpc
    have h2 := hf v c1 hpc s1.inv
    refine ⟨?_, fun r c' e => ?_⟩
    · rw [e0, P.bind_ok he]; exact h2.eq
    · rw [e0] at e; exact s1.trans (h2.step _ _ e)
  · have e0 : (p >>= f) c = .panic := P.bind_panic hpc
    refine ⟨?_, fun r c' e => ?_⟩
    · rw [e0, P.bind_panic he]; rfl
    · rw [e0] at e; cases e
  · have e0 : (p >>= f) c = .hang := P.bind_hang hpc
    refine ⟨?_, fun r c' e => ?_⟩
    · rw [e0, P.bind_hang he]; rfl
    · rw [e0] at e; cases e
theorem Sh.bind {p : P α} {f : α → P β} (hp : Sh o p) (hf : ∀ v, Sh o (f v)) : Sh o (p >>= f) :=
  fun c hc => (hp c hc).bind fun v c1 _ h1 => hf v c1 h1

theorem Sh.ret (v : α) : Sh o (pure v : P α) := fun _ hc =>
  ⟨rfl, fun r c' e => by cases e; exact Step.refl hc⟩
theorem Sh.ret' (v : α) : Sh o (P.ret v : P α) := Sh.ret v
theorem Sh.fail : Sh o (P.fail : P α) := fun _ hc =>
  ⟨rfl, fun r c' e => by cases e; exact Step.refl hc⟩
theorem Sh.err : Sh o (P.err : P α) := fun _ hc =>
  ⟨rfl, fun r c' e => by cases e; exact Step.err hc _ ⟨Nat.le_refl _, hc.pos⟩⟩
theorem Sh.panic : Sh o (P.panic : P α) := fun _ _ =>
  ⟨rfl, fun r c' e => by cases e⟩
theorem ShAt.orErr {p : P α} (hp : ShAt o p c) : ShAt o (P.orErr p) c := by
  have he := hp.eq
  rcases hpc : p c with ⟨_ | v, c1⟩ | _ | _ <;> rw [hpc] at he
  · have e0 : P.orErr p c = .ok (none, c1.addError c1.pos) := by unfold P.orErr; rw [hpc]
    have s1 := hp.step _ _ hpc
    refine ⟨?_, fun r c' e => ?_⟩
    · rw [e0]; unfold P.orErr; rw [he]; rfl
    · rw [e0] at e; cases e; exact s1.addErrorHere
  · have e0 : P.orErr p c = .ok (some v, c1) := P.orErr_ok hpc
    refine ⟨?_, fun r c' e => ?_⟩
    · rw [e0]; exact P.orErr_ok he
    · rw [e0] at e; cases e; exact hp.step _ _ hpc
  · have e0 : P.orErr p c = .panic := by unfold P.orErr; rw [hpc]
    refine ⟨?_, fun r c' e => ?_⟩
    · rw [e0]; unfold P.orErr; rw [he]; rfl
    · rw [e0] at e; cases e
  · have e0 : P.orErr p c = .hang := by unfold P.orErr; rw [hpc]
    refine ⟨?_, fun r c' e => ?_⟩
    · rw [e0]; unfold P.orErr; rw [he]; rfl
    · rw [e0] at e; cases e
theorem Sh.orErr {p : P α} (hp : Sh o p) : Sh o (P.orErr p) := fun c hc => (hp c hc).orErr

/-- `orBack`: a failure goes back to the position before -/
theorem Sh.orBack {p : P α} (hp : Sh o p) : Sh o (P.orBack p) := by
  intro c hc
  have hp := hp c hc
  have he := hp.eq
  rcases hpc : p c with ⟨_ | v, c1⟩ | _ | _ <;> rw [hpc] at he
  · have e0 : P.orBack p c = .ok (none, (c1.setPos c.pos).addError c.pos) := by unfold P.orBack; rw [hpc]
    have s1 := hp.step _ _ hpc
    refine ⟨?_, fun r c' e => ?_⟩
    · rw [e0]; unfold P.orBack; rw [he]; rfl
    · rw [e0] at e; cases e
      exact ⟨s1.src, s1.cap, s1.flags, Nat.le_refl _, hc.pos, s1.used_le, s1.used_cap, s1.errs.cons ⟨Nat.le_refl _, hc.pos⟩⟩
  · have e0 : P.orBack p c = .ok (some v, c1) := by unfold P.orBack; rw [hpc]
    refine ⟨?_, fun r c' e => ?_⟩
    · rw [e0]; unfold P.orBack; rw [he]; rfl
    · rw [e0] at e; cases e; exact hp.step _ _ hpc
  · have e0 : P.orBack p c = .panic := by unfold P.orBack; rw [hpc]
    refine ⟨?_, fun r c' e => ?_⟩
    · rw [e0]; unfold P.orBack; rw [he]; rfl
    · rw [e0] at e; cases e
  · have e0 : P.orBack p c = .hang := by unfold P.orBack; rw [hpc]
    refine ⟨?_, fun r c' e => ?_⟩
    · rw [e0]; unfold P.orBack; rw [he]; rfl
    · rw [e0] at e; cases e

/-- `orElse`: the alternative starts at the position before -/
theorem Sh.orElse {p q : P α} (hp : Sh o p) (hq : Sh o q) : Sh o (P.orElse p q) := by
  intro c hc
  have hp := hp c hc
  have he := hp.eq
  rcases hpc : p c with ⟨_ | v, c1⟩ | _ | _ <;> rw [hpc] at he
  · have e0 : P.orElse p q c = q (c1.setPos c.pos) := by unfold P.orElse; rw [hpc]
    have s1 := hp.step _ _ hpc
    have s2 : Step c (c1.setPos c.pos) := ⟨s1.src, s1.cap, s1.flags, Nat.le_refl _, hc.pos, s1.used_le, s1.used_cap, s1.errs⟩
    have h2 := hq _ s2.inv
    refine ⟨?_, fun r c' e => ?_⟩
    · rw [e0, ← h2.eq]; unfold P.orElse; rw [he]; rfl
    · rw [e0] at e; exact s2.trans (h2.step _ _ e)
  · have e0 : P.orElse p q c = .ok (some v, c1) := by unfold P.orElse; rw [hpc]
    refine ⟨?_, fun r c' e => ?_⟩
    · rw [e0]; unfold P.orElse; rw [he]; rfl
    · rw [e0] at e; cases e; exact hp.step _ _ hpc
  · have e0 : P.orElse p q c = .panic := by unfold P.orElse; rw [hpc]
    refine ⟨?_, fun r c' e => ?_⟩
    · rw [e0]; unfold P.orElse; rw [he]; rfl
    · rw [e0] at e; cases e
  · have e0 : P.orElse p q c = .hang := by unfold P.orElse; rw [hpc]
    refine ⟨?_, fun r c' e => ?_⟩
    · rw [e0]; unfold P.orElse; rw [he]; rfl
    · rw [e0] at e; cases e

theorem ShAt.peek {f : Option UInt8 → P β} (h : ShAt o (f c.cur?) c) : ShAt o (P.peek >>= f) c where
  eq := by rw [P.peek_bind, P.peek_bind, c.sh_cur]; exact h.eq
  step r c' e := h.step r c' e
theorem Sh.peek {f : Option UInt8 → P β} (h : ∀ b, Sh o (f b)) : Sh o (P.peek >>= f) := fun c hc => ShAt.peek (h _ c hc)
theorem ShAt.get {f : Ctx → P β} (hf : f (c.sh o) = f c) (h : ShAt o (f c) c) : ShAt o (P.get >>= f) c where
  eq := by rw [P.get_bind, P.get_bind, hf]; exact h.eq
  step r c' e := h.step r c' e
/-- the state is only looked at -/
theorem ShAt.get' {f : Ctx → P β} (hf : f (c.sh o) (c.sh o) = f c (c.sh o)) (h : ShAt o (f c) c) : ShAt o (P.get >>= f) c where
  eq := by rw [P.get_bind, P.get_bind, hf]; exact h.eq
  step r c' e := h.step r c' e
theorem ShAt.skipN {n : Nat} (hc : Inv c) (hn : c.pos + n ≤ c.src.length) : ShAt o (P.skip n) c :=
  ⟨by unfold P.skip; rw [c.sh_adv]; rfl, fun r c' e => by cases e; exact Step.adv hc hn⟩
theorem cur_lt {c : Ctx} {b : UInt8} (hb : c.cur? = some b) : c.pos + 1 ≤ c.src.length := (List.getElem?_eq_some_iff.1 hb).1
theorem ShAt.skip1 {b : UInt8} (hc : Inv c) (hb : c.cur? = some b) : ShAt o (P.skip 1) c :=
  ShAt.skipN hc (cur_lt hb)
theorem sh_mem (c : Ctx) (o : Past) (n : Nat) : ((c.sh o).used + n > (c.sh o).cap) = (c.used + n > c.cap) := by
  rw [c.sh_used, c.sh_cap]; exact propext (by omega)
theorem sh_take (c : Ctx) (o : Past) (n : Nat) : ({ c.sh o with used := (c.sh o).used + n } : Ctx) = ({ c with used := c.used + n } : Ctx).sh o := by
  unfold Ctx.sh; dsimp only; rw [Nat.add_assoc]
theorem Sh.alloc {n : Nat} : Sh o (P.alloc n) := by
  intro c hc
  by_cases h : c.used + n > c.cap
  · have e0 : P.alloc n c = .ok (none, c) := by unfold P.alloc Ctx.alloc; rw [if_pos h]
    refine ⟨?_, fun r c' e => ?_⟩
    · rw [e0]; unfold P.alloc Ctx.alloc; rw [if_pos (by rw [sh_mem]; exact h)]; rfl
    · rw [e0] at e; cases e; exact Step.refl hc
  · have e0 : P.alloc n c = .ok (some (), { c with used := c.used + n }) := by unfold P.alloc Ctx.alloc; rw [if_neg h]
    refine ⟨?_, fun r c' e => ?_⟩
    · rw [e0]; unfold P.alloc Ctx.alloc; rw [if_neg (by rw [sh_mem]; exact h)]; rw [msh_ok, ← sh_take]
    · rw [e0] at e; cases e
      exact ⟨rfl, rfl, rfl, Nat.le_refl _, hc.pos, Nat.le_add_right _ _, by dsimp only; omega, ErrsIn.refl⟩
theorem Sh.allocMust {n : Nat} : Sh o (P.allocMust n) := by
  intro c hc
  by_cases h : c.used + n > c.cap
  · have e0 : P.allocMust n c = .panic := by unfold P.allocMust Ctx.alloc; rw [if_pos h]
    refine ⟨?_, fun r c' e => ?_⟩
    · rw [e0]; unfold P.allocMust Ctx.alloc; rw [if_pos (by rw [sh_mem]; exact h)]; rfl
    · rw [e0] at e; cases e
  · have e0 : P.allocMust n c = .ok (some (), { c with used := c.used + n }) := by unfold P.allocMust Ctx.alloc; rw [if_neg h]
    refine ⟨?_, fun r c' e => ?_⟩
    · rw [e0]; unfold P.allocMust Ctx.alloc; rw [if_neg (by rw [sh_mem]; exact h)]; rw [msh_ok, ← sh_take]
    · rw [e0] at e; cases e
      exact ⟨rfl, rfl, rfl, Nat.le_refl _, hc.pos, Nat.le_add_right _ _, by dsimp only; omega, ErrsIn.refl⟩
theorem Sh.allocStr {b : Bytes} : Sh o (P.allocStr b) := by
  intro c hc
  by_cases h : c.used + (b.length + 2) > c.cap
  · have e0 : P.allocStr b c = .ok (none, c) := by unfold P.allocStr Sip.allocStr; rw [if_pos h]
    refine ⟨?_, fun r c' e => ?_⟩
    · rw [e0]; unfold P.allocStr Sip.allocStr; rw [if_pos (by rw [sh_mem]; exact h)]; rfl
    · rw [e0] at e; cases e; exact Step.refl hc
  · have e0 : P.allocStr b c = .ok (some b, { c with used := c.used + (b.length + 2) }) := by unfold P.allocStr Sip.allocStr; rw [if_neg h]
    refine ⟨?_, fun r c' e => ?_⟩
    · rw [e0]; unfold P.allocStr Sip.allocStr; rw [if_neg (by rw [sh_mem]; exact h)]; rw [msh_ok, ← sh_take]
    · rw [e0] at e; cases e
      exact ⟨rfl, rfl, rfl, Nat.le_refl _, hc.pos, Nat.le_add_right _ _, by dsimp only; omega, ErrsIn.refl⟩

/-- a parser whose safety is known -/
theorem ShAt.of_safe {p : P α} {l : Bool} {k m B : Nat} {Q : α → Prop} (hs : SafeAt k l m B Q p c)
    (he : p (c.sh o) = msh o (p c)) : ShAt o p c := ⟨he, hs.step⟩

/-- a loop that moves forward whenever it goes on: its budget does not matter -/
theorem sh_loop {σ ρ : Type} {body : σ → P (σ ⊕ ρ)} (hb : ∀ s, Sh o (body s))
    (he : ∀ s c s' c', Inv c → body s c = .ok (some (.inl s'), c') → c.pos < c'.pos) (k : Nat) :
    ∀ s c n n', Inv c → c.src.length - c.pos < k → c.src.length < n + c.pos → c.src.length < n' + c.pos →
      P.loop body n' s (c.sh o) = msh o (P.loop body n s c) ∧ (∀ r c', P.loop body n s c = .ok (r, c') → Step c c') := by
  induction k with
  | zero => intro s c n n' _ h; omega
  | succ k ih =>
    intro s c n n' hc hk hn hn'
    have h0 := hc.pos
    obtain ⟨n, rfl⟩ : ∃ m, n = m + 1 := ⟨n - 1, by omega⟩
    obtain ⟨n', rfl⟩ : ∃ m, n' = m + 1 := ⟨n' - 1, by omega⟩
    have hbs := hb s c hc
    have heq := hbs.eq
    rcases hpc : body s c with ⟨_ | v, c1⟩ | _ | _ <;> rw [hpc] at heq
    · have e0 : P.loop body (n + 1) s c = .ok (none, c1) := P.bind_none hpc
      rw [e0]
      refine ⟨P.bind_none heq, fun r c' e => ?_⟩
      cases e; exact hbs.step _ _ hpc
    · have st := hbs.step _ _ hpc
      cases v with
      | inr r =>
        have e0 : P.loop body (n + 1) s c = .ok (some r, c1) := P.bind_ok hpc
        rw [e0]
        refine ⟨P.bind_ok heq, fun r c' e => ?_⟩
        cases e; exact st
      | inl s' =>
        have e0 : P.loop body (n + 1) s c = P.loop body n s' c1 := P.bind_ok hpc
        have e1 : P.loop body (n' + 1) s (c.sh o) = P.loop body n' s' (c1.sh o) := P.bind_ok heq
        have hlt := he s c s' c1 hc hpc
        have hl := st.pos_len
        obtain ⟨g1, g2⟩ := ih s' c1 n n' st.inv (by rw [st.src]; omega) (by rw [st.src]; omega) (by rw [st.src]; omega)
        rw [e0, e1]
        exact ⟨g1, fun r c' e => st.trans (g2 r c' e)⟩
    · have e0 : P.loop body (n + 1) s c = .panic := P.bind_panic hpc
      rw [e0]
      exact ⟨P.bind_panic heq, fun r c' e => by cases e⟩
    · have e0 : P.loop body (n + 1) s c = .hang := P.bind_hang hpc
      rw [e0]
      exact ⟨P.bind_hang heq, fun r c' e => by cases e⟩

theorem Sh.forLoop {σ ρ : Type} {body : σ → P (σ ⊕ ρ)} {s : σ} (hb : ∀ s, Sh o (body s))
    (he : ∀ s c s' c', Inv c → body s c = .ok (some (.inl s'), c') → c.pos < c'.pos) : Sh o (P.forLoop body s) := by
  intro c hc
  have hl : (c.sh o).src.length = o.read.length + c.src.length := by rw [c.sh_src, List.length_append]
  obtain ⟨g1, g2⟩ := sh_loop hb he (c.src.length + 1) s c (c.src.length + 1) ((c.sh o).src.length + 1) hc (by omega) (by omega) (by omega)
  exact ⟨g1, g2⟩

end
end Sip
