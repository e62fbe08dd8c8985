import Verif.Props.HeadersSafe
/-!
# What a parser has read

`ReadsAt R p c`: when `p` succeeds from `c`, it has read a text `t` - the bytes from the position before to the position after - and `R v t y` holds for its
result `v`, where `y` is the input behind `t`.
-/
namespace Sip

/-- a relation between a value, its text and the input behind the text -/
abbrev Rel (α : Type) := α → Bytes → Bytes → Prop

def ReadsAt {α : Type} (R : Rel α) (p : P α) (c : Ctx) : Prop :=
  Inv c → ∀ v c', p c = .ok (some v, c') → Step c c' ∧ ∃ t, c.rest = t ++ c'.rest ∧ R v t c'.rest

/-- from every context with the options `fl` -/
def Reads {α : Type} (fl : Flags) (R : Rel α) (p : P α) : Prop := ∀ c, c.flags = fl → ReadsAt R p c

theorem Step.text {c c' : Ctx} (h : Step c c') : ∃ t, c.rest = t ++ c'.rest := by
  refine ⟨c.rest.take (c'.pos - c.pos), ?_⟩
  have e : c'.rest = c.rest.drop (c'.pos - c.pos) := by
    unfold Ctx.rest; rw [h.src, List.drop_drop]; congr 1; have := h.pos_le; omega
  rw [e, List.take_append_drop]

theorem Step.pos_text {c c' : Ctx} (h : Step c c') {t : Bytes} (ht : c.rest = t ++ c'.rest) : c'.pos = c.pos + t.length := by
  have h1 := h.pos_le; have h2 := h.pos_len
  have := congrArg List.length ht
  rw [List.length_append] at this
  unfold Ctx.rest at this
  rw [List.length_drop, List.length_drop, h.src] at this
  omega

theorem Step.of_rest {c : Ctx} (hc : Inv c) {t y : Bytes} (h : c.rest = t ++ y) : Step c (c.adv t.length) := by
  refine Step.adv hc ?_
  have := congrArg List.length h
  unfold Ctx.rest at this
  rw [List.length_drop, List.length_append] at this
  have := hc.pos
  omega
theorem Ctx.rest_adv {c : Ctx} {t y : Bytes} (h : c.rest = t ++ y) : (c.adv t.length).rest = y := by
  unfold Ctx.rest at *
  show c.src.drop (c.pos + t.length) = y
  rw [← List.drop_drop, h, List.drop_left]

namespace ReadsAt
variable {α β : Type} {c : Ctx}

theorem mono {R S : Rel α} {p : P α} (h : ReadsAt R p c) (hm : ∀ v t y, c.rest = t ++ y → R v t y → S v t y) : ReadsAt S p c := by
  intro hc v c' e
  obtain ⟨s, t, h1, h2⟩ := h hc v c' e
  exact ⟨s, t, h1, hm v t _ h1 h2⟩

/-- one step after the other: the text of the second follows that of the first -/
theorem bind {R : Rel α} {S : Rel β} {p : P α} {f : α → P β} (hp : ReadsAt R p c)
    (hf : ∀ v t1 c1, p c = .ok (some v, c1) → Step c c1 → c.rest = t1 ++ c1.rest → R v t1 c1.rest → ReadsAt (fun w t2 y => S w (t1 ++ t2) y) (f v) c1) :
    ReadsAt S (p >>= f) c := by
  intro hc w c' e
  rcases hpc : p c with ⟨_ | v, c1⟩ | _ | _
  · rw [P.bind_none hpc] at e; cases e
  · rw [P.bind_ok hpc] at e
    obtain ⟨s1, t1, h1, h2⟩ := hp hc v c1 hpc
    obtain ⟨s2, t2, h3, h4⟩ := hf v t1 c1 hpc s1 h1 h2 s1.inv w c' e
    exact ⟨s1.trans s2, t1 ++ t2, by rw [h1, h3, List.append_assoc], h4⟩
  · rw [P.bind_apply, hpc] at e; cases e
  · rw [P.bind_apply, hpc] at e; cases e

theorem pure {R : Rel α} {v : α} (h : R v [] c.rest) : ReadsAt R (pure v : P α) c := by
  intro hc w c' e; cases e; exact ⟨Step.refl hc, [], rfl, h⟩
theorem fail {R : Rel α} : ReadsAt R (P.fail : P α) c := by intro hc w c' e; cases e
theorem err {R : Rel α} : ReadsAt R (P.err : P α) c := by intro hc w c' e; cases e
theorem panic {R : Rel α} : ReadsAt R (P.panic : P α) c := by intro hc w c' e; cases e
theorem orErr {R : Rel α} {p : P α} (h : ReadsAt R p c) : ReadsAt R (P.orErr p) c := by
  intro hc v c' e
  refine h hc v c' ?_
  unfold P.orErr at e
  split at e
  · cases e
  · exact e
theorem get {R : Rel β} {f : Ctx → P β} (h : ReadsAt R (f c) c) : ReadsAt R (P.get >>= f) c := h
theorem peek {R : Rel β} {f : Option UInt8 → P β} (h0 : c.rest = [] → ReadsAt R (f none) c)
    (h1 : ∀ b y, c.rest = b :: y → ReadsAt R (f (some b)) c) : ReadsAt R (P.peek >>= f) c := by
  show ReadsAt R (f c.cur?) c
  have e : c.cur? = c.rest.head? := by unfold Ctx.cur? Ctx.rest; rw [List.head?_drop]
  rw [e]
  match hr : c.rest with
  | [] => exact h0 hr
  | b :: y => exact h1 b y hr
theorem byteAt {R : Rel β} {k : Nat} {f : UInt8 → P β} (h : ∀ b, c.src[c.pos + k]? = some b → ReadsAt R (f b) c) : ReadsAt R (P.byteAt k >>= f) c := by
  intro hc v c' e
  rw [P.bind_apply] at e
  cases hb : c.src[c.pos + k]? with
  | none => simp only [P.byteAt, hb] at e; cases e
  | some b => simp only [P.byteAt, hb] at e; exact h b hb hc v c' e
/-- the bytes looked at before are passed -/
theorem skip {t y : Bytes} {R : Rel Unit} (hr : c.rest = t ++ y) (h : R () t y) : ReadsAt R (P.skip t.length) c := by
  intro hc v c' e; cases e
  exact ⟨Step.of_rest hc hr, t, by rw [Ctx.rest_adv hr]; exact hr, by rw [Ctx.rest_adv hr]; exact h⟩
theorem skip1 {b : UInt8} {y : Bytes} {R : Rel Unit} (hr : c.rest = b :: y) (h : R () [b] y) : ReadsAt R (P.skip 1) c :=
  skip (t := [b]) (y := y) hr h
theorem ite {p : Prop} [Decidable p] {R : Rel α} {a b : P α} (h1 : p → ReadsAt R a c) (h2 : ¬ p → ReadsAt R b c) : ReadsAt R (if p then a else b) c := by
  split
  · exact h1 (by assumption)
  · exact h2 (by assumption)

/-- a step that does not move -/
theorem still {R : Rel α} {p : P α} (hs : ∀ c, Inv c → ∀ r c', p c = .ok (r, c') → Step c c') (hp : ∀ c, Inv c → ∀ v c', p c = .ok (some v, c') → c'.pos = c.pos ∧ R v [] c.rest) : ReadsAt R p c := by
  intro hc v c' e
  have s := hs c hc _ _ e
  obtain ⟨h1, h2⟩ := hp c hc v c' e
  have e2 : c'.rest = c.rest := by unfold Ctx.rest; rw [s.src, h1]
  exact ⟨s, [], by rw [e2]; rfl, by rw [e2]; exact h2⟩

theorem alloc (n : Nat) : ReadsAt (fun _ t _ => t = []) (P.alloc n) c := by
  intro hc v c' e
  have s := (SafeAt.alloc (q := 0) (m := 0) (n := n) hc).step _ _ e
  unfold P.alloc at e
  by_cases h : c.used + n ≤ c.cap
  · rw [alloc_ok c n h] at e; cases e; exact ⟨s, [], rfl, rfl⟩
  · rw [alloc_no c n h] at e; cases e
theorem allocMust (n : Nat) : ReadsAt (fun _ t _ => t = []) (P.allocMust n) c := by
  intro hc v c' e
  have s := (SafeAt.allocMust (q := 0) (l := false) (m := 0) (n := n) hc).step _ _ e
  unfold P.allocMust at e
  by_cases h : c.used + n ≤ c.cap
  · rw [alloc_ok c n h] at e; cases e; exact ⟨s, [], rfl, rfl⟩
  · rw [alloc_no c n h] at e; cases e

/-- a loop: `J s a y` says what the state stands for after the text `a`, in front of `y` -/
theorem loop {σ : Type} {J : σ → Bytes → Bytes → Prop} {R : Rel β} {body : σ → P (σ ⊕ β)} {fl : Flags}
    (hb : ∀ s a c, c.flags = fl → J s a c.rest →
      ReadsAt (fun r t y => (∀ s', r = .inl s' → J s' (a ++ t) y) ∧ ∀ v, r = .inr v → R v (a ++ t) y) (body s) c)
    (n : Nat) (s : σ) (a : Bytes) (c : Ctx) (hf : c.flags = fl) (hj : J s a c.rest) : ReadsAt (fun v t y => R v (a ++ t) y) (P.loop body n s) c := by
  induction n generalizing s a c with
  | zero => intro hc v c' e; cases e
  | succ n ih =>
    refine bind (hb s a c hf hj) (fun r t1 c1 _ s1 h1 h2 => ?_)
    cases r with
    | inl s' =>
      refine (ih s' (a ++ t1) c1 (s1.flags.trans hf) (h2.1 s' rfl)).mono (fun v t y _ h => ?_)
      rw [← List.append_assoc]; exact h
    | inr v =>
      refine pure ?_
      rw [List.append_nil]; exact h2.2 v rfl

theorem forLoop {σ : Type} {J : σ → Bytes → Bytes → Prop} {R : Rel β} {body : σ → P (σ ⊕ β)} {fl : Flags} {c : Ctx} {s : σ}
    (hb : ∀ s a c, c.flags = fl → J s a c.rest →
      ReadsAt (fun r t y => (∀ s', r = .inl s' → J s' (a ++ t) y) ∧ ∀ v, r = .inr v → R v (a ++ t) y) (body s) c)
    (hf : c.flags = fl) (hj : J s [] c.rest) : ReadsAt R (P.forLoop body s) c :=
  loop hb (c.src.length + 1) s [] c hf hj
end ReadsAt

/-- a step known from a safety lemma, with a fact about the text it has read -/
theorem ReadsAt.of_safe {α : Type} {q : Nat} {l : Bool} {m B : Nat} {Q : α → Prop} {R : Rel α} {p : P α} {c : Ctx} (hs : Inv c → SafeAt q l m B Q p c)
    (h : Inv c → ∀ v c' t, p c = .ok (some v, c') → Step c c' → c.rest = t ++ c'.rest → Q v → R v t c'.rest) : ReadsAt R p c := by
  intro hc v c' e
  have s := (hs hc).step _ _ e
  obtain ⟨t, ht⟩ := s.text
  exact ⟨s, t, ht, h hc v c' t e s ht ((hs hc).some _ _ e).1⟩

end Sip
