import Verif.Lemmas.ReadsPrim
/-!
# What a parser accepts

`Acc fl p t v y`: with enough memory, `p` reads the text `t` in front of `y` and yields `v`.  `Rej fl p x`: with enough memory, `p` returns false on `x`.
-/
namespace Sip

/-- from `c` to `c'`: `k` bytes further, at most `n` bytes of the arena more in use -/
structure Moved (c c' : Ctx) (k n : Nat) : Prop where
  src : c'.src = c.src
  flags : c'.flags = c.flags
  cap : c'.cap = c.cap
  pos : c'.pos = c.pos + k
  used : c'.used ≤ c.used + n

def Acc {α : Type} (fl : Flags) (p : P α) (t : Bytes) (v : α) (y : Bytes) : Prop :=
  ∃ n, ∀ c : Ctx, c.flags = fl → c.rest = t ++ y → c.pos ≤ c.src.length → c.used + n < c.cap → ∃ c', p c = .ok (some v, c') ∧ Moved c c' t.length n

/-- `p` returns false; where the position is then is not said -/
def Rej {α : Type} (fl : Flags) (p : P α) (x : Bytes) : Prop :=
  ∃ n, ∀ c : Ctx, c.flags = fl → c.rest = x → c.pos ≤ c.src.length → c.used + n < c.cap →
    ∃ c', p c = .ok (none, c') ∧ c'.src = c.src ∧ c'.flags = c.flags ∧ c'.cap = c.cap ∧ c'.used ≤ c.used + n

theorem Moved.rest {c c' : Ctx} {t y : Bytes} {n : Nat} (h : Moved c c' t.length n) (hr : c.rest = t ++ y) : c'.rest = y := by
  unfold Ctx.rest at *
  rw [h.src, h.pos, ← List.drop_drop, hr, List.drop_left]
theorem Moved.pos_le {c c' : Ctx} {t y : Bytes} {n : Nat} (h : Moved c c' t.length n) (hr : c.rest = t ++ y) (hp : c.pos ≤ c.src.length) : c'.pos ≤ c'.src.length := by
  have := rest_length c hp
  rw [hr, List.length_append] at this
  rw [h.src, h.pos]; omega
theorem Moved.of_eat (c : Ctx) (k n : Nat) : Moved c (c.eat k n) k n := ⟨rfl, rfl, rfl, rfl, Nat.le_refl _⟩
theorem Moved.mono {c c' : Ctx} {k n m : Nat} (h : Moved c c' k n) (hm : n ≤ m) : Moved c c' k m := ⟨h.src, h.flags, h.cap, h.pos, by have := h.used; omega⟩

theorem Parses.acc {α : Type} {fl : Flags} {p : P α} {t : Bytes} {v : α} {n : Nat} {F : Bytes → Prop} {y : Bytes} (h : Parses fl p t v n F) (hF : F y) : Acc fl p t v y :=
  ⟨n, fun c h1 h2 h3 h4 => ⟨_, h c y h1 h2 hF h3 h4, Moved.of_eat c _ _⟩⟩

namespace Acc
variable {α β : Type} {fl : Flags}

theorem cast {p : P α} {t t' : Bytes} {v v' : α} {y : Bytes} (h : Acc fl p t v y) (ht : t' = t) (hv : v' = v) : Acc fl p t' v' y := by subst ht hv; exact h
/-- on the contexts in question the parser is another one -/
theorem congr {p q : P α} {t : Bytes} {v : α} {y : Bytes} (h : Acc fl q t v y) (e : ∀ c : Ctx, c.flags = fl → c.rest = t ++ y → c.pos ≤ c.src.length → p c = q c) : Acc fl p t v y := by
  obtain ⟨n, h⟩ := h
  exact ⟨n, fun c h1 h2 h3 h4 => by rw [e c h1 h2 h3]; exact h c h1 h2 h3 h4⟩
theorem pure (v : α) (y : Bytes) : Acc fl (pure v : P α) [] v y := ⟨0, fun c _ _ _ _ => ⟨c, rfl, Moved.of_eat c 0 0⟩⟩
theorem pure' {v v' : α} {y : Bytes} (h : v' = v) : Acc fl (Pure.pure v : P α) [] v' y := by subst h; exact pure v' y

theorem bind {p : P α} {f : α → P β} {t1 t2 : Bytes} {v1 : α} {v2 : β} {y : Bytes} (h1 : Acc fl p t1 v1 (t2 ++ y)) (h2 : Acc fl (f v1) t2 v2 y) :
    Acc fl (p >>= f) (t1 ++ t2) v2 y := by
  obtain ⟨n1, h1⟩ := h1
  obtain ⟨n2, h2⟩ := h2
  refine ⟨n1 + n2, fun c hf hr hp hu => ?_⟩
  rw [List.append_assoc] at hr
  obtain ⟨c1, e1, m1⟩ := h1 c hf hr hp (by omega)
  have := m1.used
  obtain ⟨c2, e2, m2⟩ := h2 c1 (m1.flags.trans hf) (m1.rest hr) (m1.pos_le hr hp) (by rw [m1.cap]; omega)
  refine ⟨c2, by rw [P.bind_ok e1]; exact e2, m2.src.trans m1.src, m2.flags.trans m1.flags, m2.cap.trans m1.cap, ?_, ?_⟩
  · rw [m2.pos, m1.pos, List.length_append]; omega
  · have := m2.used; omega
theorem bind' {p : P α} {f : α → P β} {t t1 t2 : Bytes} {v1 : α} {v2 : β} {y : Bytes} (h1 : Acc fl p t1 v1 (t2 ++ y)) (h2 : Acc fl (f v1) t2 v2 y) (ht : t = t1 ++ t2) :
    Acc fl (p >>= f) t v2 y := by subst ht; exact bind h1 h2
/-- a first step that reads nothing -/
theorem bind0 {p : P α} {f : α → P β} {t : Bytes} {v1 : α} {v2 : β} {y : Bytes} (h1 : Acc fl p [] v1 (t ++ y)) (h2 : Acc fl (f v1) t v2 y) : Acc fl (p >>= f) t v2 y :=
  bind' h1 h2 rfl
/-- a last step that reads nothing -/
theorem bindE {p : P α} {f : α → P β} {t : Bytes} {v1 : α} {v2 : β} {y : Bytes} (h1 : Acc fl p t v1 y) (h2 : Acc fl (f v1) [] v2 y) : Acc fl (p >>= f) t v2 y :=
  bind' (t2 := []) h1 h2 (by simp)
theorem map {p : P α} {t : Bytes} {v : α} {w : β} {g : α → β} {y : Bytes} (h : Acc fl p t v y) (hw : w = g v) : Acc fl (p >>= fun x => (Pure.pure (g x) : P β)) t w y :=
  bindE h (pure' hw)

theorem orErr {p : P α} {t : Bytes} {v : α} {y : Bytes} (h : Acc fl p t v y) : Acc fl (P.orErr p) t v y := by
  obtain ⟨n, h⟩ := h
  refine ⟨n, fun c h1 h2 h3 h4 => ?_⟩
  obtain ⟨c', e, m⟩ := h c h1 h2 h3 h4
  exact ⟨c', P.orErr_ok e, m⟩
theorem peek {f : Option UInt8 → P β} {t : Bytes} {v : β} {y : Bytes} (h : Acc fl (f (t ++ y).head?) t v y) : Acc fl (P.peek >>= f) t v y :=
  congr h (fun c _ h2 _ => by rw [P.peek_bind, cur_eq_head, h2])
theorem get {f : Ctx → P β} {q : P β} {t : Bytes} {v : β} {y : Bytes} (h : Acc fl q t v y)
    (e : ∀ c : Ctx, c.flags = fl → c.rest = t ++ y → c.pos ≤ c.src.length → f c c = q c) : Acc fl (P.get >>= f) t v y :=
  congr h (fun c h1 h2 h3 => by rw [P.get_bind]; exact e c h1 h2 h3)
theorem skip (t y : Bytes) : Acc fl (P.skip t.length) t () y := Parses.acc (F := AnyText) (Parses.skip t) trivial
theorem skip1 {f : Unit → P β} {b : UInt8} {t : Bytes} {v : β} {y : Bytes} (h : Acc fl (f ()) t v y) : Acc fl (P.skip 1 >>= f) (b :: t) v y :=
  bind' (t1 := [b]) (skip [b] _) h rfl
theorem skipPure {b : UInt8} {v : β} {y : Bytes} : Acc fl (P.skip 1 >>= fun _ => (Pure.pure v : P β)) [b] v y := skip1 (pure v y)
theorem ite_pos {q : Prop} [Decidable q] {a b : P α} {t : Bytes} {v : α} {y : Bytes} (hq : q) (h : Acc fl a t v y) : Acc fl (if q then a else b) t v y := by rw [if_pos hq]; exact h
theorem ite_neg {q : Prop} [Decidable q] {a b : P α} {t : Bytes} {v : α} {y : Bytes} (hq : ¬ q) (h : Acc fl b t v y) : Acc fl (if q then a else b) t v y := by rw [if_neg hq]; exact h
theorem byteAt0 {f : UInt8 → P β} {b : UInt8} {x t : Bytes} {v : β} {y : Bytes} (hb : t ++ y = b :: x) (h : Acc fl (f b) t v y) : Acc fl (P.byteAt 0 >>= f) t v y :=
  congr h (fun c _ h2 _ => by
    have e : c.src[c.pos + 0]? = some b := by
      have := cur_eq_head c
      rw [h2, hb] at this
      exact this
    exact P.bind_ok (a := b) (c' := c) (by simp only [P.byteAt, e]))
theorem alloc (k : Nat) (y : Bytes) : Acc fl (P.alloc k) [] () y := Parses.acc (F := AnyText) (Parses.alloc k) trivial
theorem allocMust (k : Nat) (y : Bytes) : Acc fl (P.allocMust k) [] () y := Parses.acc (F := AnyText) (Parses.allocMust k) trivial
theorem allocStr (b y : Bytes) : Acc fl (P.allocStr b) [] b y := Parses.acc (F := AnyText) (Parses.allocStr b) trivial

/-- the way of a loop through a text -/
inductive Run {σ ρ : Type} (fl : Flags) (body : σ → P (σ ⊕ ρ)) (r : ρ) (y : Bytes) : σ → Bytes → Prop
  | last {s t} (h : Acc fl (body s) t (.inr r) y) : Run fl body r y s t
  | step {s s' t t'} (h : Acc fl (body s) t (.inl s') (t' ++ y)) (ht : t ≠ []) (h' : Run fl body r y s' t') : Run fl body r y s (t ++ t')

theorem Run.loop {σ ρ : Type} {fl : Flags} {body : σ → P (σ ⊕ ρ)} {r : ρ} {y : Bytes} {s : σ} {t : Bytes} (h : Run fl body r y s t) :
    ∃ n, ∀ f, t.length + 1 ≤ f → ∀ c : Ctx, c.flags = fl → c.rest = t ++ y → c.pos ≤ c.src.length → c.used + n < c.cap →
      ∃ c', P.loop body f s c = .ok (some r, c') ∧ Moved c c' t.length n := by
  induction h with
  | last h =>
    obtain ⟨n, h⟩ := h
    refine ⟨n, fun f hf c h1 h2 h3 h4 => ?_⟩
    obtain ⟨f, rfl⟩ : ∃ g, f = g + 1 := ⟨f - 1, by omega⟩
    obtain ⟨c', e, m⟩ := h c h1 h2 h3 h4
    exact ⟨c', P.bind_ok e, m⟩
  | @step s s' t t' h ht h' ih =>
    obtain ⟨n1, h⟩ := h
    obtain ⟨n2, ih⟩ := ih
    refine ⟨n1 + n2, fun f hf c h1 h2 h3 h4 => ?_⟩
    have hl := List.length_pos_iff.mpr ht
    rw [List.length_append] at hf
    obtain ⟨f, rfl⟩ : ∃ g, f = g + 1 := ⟨f - 1, by omega⟩
    rw [List.append_assoc] at h2
    obtain ⟨c1, e1, m1⟩ := h c h1 h2 h3 (by omega)
    have := m1.used
    obtain ⟨c2, e2, m2⟩ := ih f (by omega) c1 (m1.flags.trans h1) (m1.rest h2) (m1.pos_le h2 h3) (by rw [m1.cap]; omega)
    refine ⟨c2, (P.bind_ok e1).trans e2, m2.src.trans m1.src, m2.flags.trans m1.flags, m2.cap.trans m1.cap, ?_, ?_⟩
    · rw [m2.pos, m1.pos, List.length_append]; omega
    · have := m2.used; omega

theorem forLoop {σ ρ : Type} {body : σ → P (σ ⊕ ρ)} {r : ρ} {y : Bytes} {s : σ} {t : Bytes} (h : Run fl body r y s t) : Acc fl (P.forLoop body s) t r y := by
  obtain ⟨n, h⟩ := h.loop
  refine ⟨n, fun c h1 h2 h3 h4 => h _ ?_ c h1 h2 h3 h4⟩
  have := rest_length c h3
  rw [h2, List.length_append] at this; omega
end Acc

namespace Rej
variable {α β : Type} {fl : Flags}
theorem fail (x : Bytes) : Rej fl (P.fail : P α) x := ⟨0, fun c _ _ _ _ => ⟨c, rfl, rfl, rfl, rfl, by omega⟩⟩
theorem err (x : Bytes) : Rej fl (P.err : P α) x := ⟨0, fun c _ _ _ _ => ⟨c.addError c.pos, rfl, rfl, rfl, rfl, by show c.used ≤ _; omega⟩⟩
theorem congr {p q : P α} {x : Bytes} (h : Rej fl q x) (e : ∀ c : Ctx, c.flags = fl → c.rest = x → c.pos ≤ c.src.length → p c = q c) : Rej fl p x := by
  obtain ⟨n, h⟩ := h
  exact ⟨n, fun c h1 h2 h3 h4 => by rw [e c h1 h2 h3]; exact h c h1 h2 h3 h4⟩
theorem fst {p : P α} {f : α → P β} {x : Bytes} (h : Rej fl p x) : Rej fl (p >>= f) x := by
  obtain ⟨n, h⟩ := h
  refine ⟨n, fun c h1 h2 h3 h4 => ?_⟩
  obtain ⟨c', e, m⟩ := h c h1 h2 h3 h4
  exact ⟨c', P.bind_none e, m⟩
theorem snd {p : P α} {f : α → P β} {t x : Bytes} {v : α} (h : Acc fl p t v x) (h' : Rej fl (f v) x) : Rej fl (p >>= f) (t ++ x) := by
  obtain ⟨n1, h1⟩ := h
  obtain ⟨n2, h2⟩ := h'
  refine ⟨n1 + n2, fun c hf hr hp hu => ?_⟩
  obtain ⟨c1, e1, m1⟩ := h1 c hf hr hp (by omega)
  have := m1.used
  obtain ⟨c2, e2, g1, g2, g3, g4⟩ := h2 c1 (m1.flags.trans hf) (m1.rest hr) (m1.pos_le hr hp) (by rw [m1.cap]; omega)
  exact ⟨c2, by rw [P.bind_ok e1]; exact e2, g1.trans m1.src, g2.trans m1.flags, g3.trans m1.cap, by omega⟩
theorem orErr {p : P α} {x : Bytes} (h : Rej fl p x) : Rej fl (P.orErr p) x := by
  obtain ⟨n, h⟩ := h
  refine ⟨n, fun c h1 h2 h3 h4 => ?_⟩
  obtain ⟨c', e, m⟩ := h c h1 h2 h3 h4
  exact ⟨c'.addError c'.pos, by unfold P.orErr; rw [e], m⟩
theorem peek {f : Option UInt8 → P β} {x : Bytes} (h : Rej fl (f x.head?) x) : Rej fl (P.peek >>= f) x :=
  congr h (fun c _ h2 _ => by rw [P.peek_bind, cur_eq_head, h2])
theorem ite_pos {q : Prop} [Decidable q] {a b : P α} {x : Bytes} (hq : q) (h : Rej fl a x) : Rej fl (if q then a else b) x := by rw [if_pos hq]; exact h
theorem ite_neg {q : Prop} [Decidable q] {a b : P α} {x : Bytes} (hq : ¬ q) (h : Rej fl b x) : Rej fl (if q then a else b) x := by rw [if_neg hq]; exact h
end Rej

/-! ## Lexical elements -/
namespace Acc
variable {fl : Flags}

theorem str {s : CS} {v t y : Bytes} (h : Gram.run s v t y) : Acc fl (P.str s) t v y := by
  obtain ⟨rfl, h1, h2, h3⟩ := h
  exact Parses.acc (Parses.str s v h1 h2) h3

theorem strEsc {s : CS} {v t y : Bytes} (h : Gram.esc s v t y) : Acc fl (P.strEsc s) t v y := by
  obtain ⟨h1, h2⟩ := h
  refine ⟨v.length + 2, fun c _ hr hp hu => ?_⟩
  have := (parseStrEscapable_spec s c v y (by rw [hr]; exact h2) (by omega)).1
  rw [if_neg h1] at this
  refine ⟨_, this, rfl, rfl, rfl, ?_, by show c.used + 2 + v.length ≤ _; omega⟩
  show c.pos + (c.rest.length - y.length) = _
  rw [hr, List.length_append]; omega

theorem strEscEmpty {s : CS} {v t y : Bytes} (h : Gram.escEmpty s v t y) : Acc fl (P.strEscEmpty s) t v y := by
  refine ⟨v.length + 2, fun c _ hr hp hu => ?_⟩
  have := (parseStrEscapable_spec s c v y (by rw [hr]; exact h) (by omega)).2
  refine ⟨_, this, rfl, rfl, rfl, ?_, by show c.used + 2 + v.length ≤ _; omega⟩
  show c.pos + (c.rest.length - y.length) = _
  rw [hr, List.length_append]; omega

theorem strEsc_token {v t y : Bytes} (h : Gram.run csSipToken v t y) : Acc fl (P.strEsc csSipToken) t v y := by
  obtain ⟨rfl, h1, h2, h3⟩ := h
  refine strEsc ⟨h1, ?_⟩
  have : ∀ v : Bytes, InSet csSipToken v → Decodes csSipToken (v ++ y) v y := by
    intro v hv
    induction v with
    | nil => exact .stop y (fun b hb => ⟨h3 b hb, fun e => by have := h3 b hb; rw [e] at this; exact absurd this (by decide +kernel)⟩)
    | cons b v ih => exact .lit b _ _ _ (hv b (by simp)) (ih (fun x hx => hv x (by simp [hx])))
  exact this v h2

theorem sws {w y : Bytes} (h : Gram.sws w y) : Acc fl P.sws w () y := by
  refine ⟨0, fun c _ hr hp _ => ⟨c.sws, rfl, ?_⟩⟩
  rw [sws_eq c hp, hr, gsws_iff.1 h]
  exact Moved.of_eat c _ 0

/-- white space in front of something else -/
theorem gsws_of {w y : Bytes} (hw : IsSWS w) (hy : NoWs y) : Gram.sws w y := gsws_iff.2 (swsLen_eq_of_sws hw hy)

theorem swsNo {w : Bytes} {b : UInt8} {y : Bytes} (hw : IsSWS w) (hb : isLwsChar b = false) : Gram.sws w (b :: y) := gsws_of hw (noWs_of rfl hb)

theorem mark {m : UInt8} (hm : isLwsChar m = false) {t y : Bytes} (h : Gram.mark m t y) : Acc fl (P.mark m) t () y := by
  obtain ⟨w1, w2, h1, h2, rfl⟩ := h
  refine ⟨0, fun c _ hr hp _ => ?_⟩
  have hr' : c.rest = w1 ++ m :: (w2 ++ y) := by rw [hr]; simp
  have e1 : c.sws = c.adv w1.length := by rw [sws_eq c hp, hr', gsws_iff.1 (swsNo h1 hm)]
  have e2 : c.sws.rest = m :: (w2 ++ y) := by rw [e1]; exact Ctx.rest_adv hr'
  rcases swsMark_spec c hp m with ⟨z, g1, g2⟩ | ⟨g1, g2⟩
  · rw [e2] at g1
    simp only [List.cons.injEq, true_and] at g1
    subst g1
    refine ⟨_, (by simp only [P.mark, P.ofBool, g2]; rfl), ?_⟩
    rw [e1, gsws_iff.1 h2]
    exact ⟨rfl, rfl, rfl, by simp only [Ctx.adv, List.length_append, List.length_cons]; omega, Nat.le_refl _⟩
  · exact absurd (by rw [e2]; rfl) g1

theorem markYes {m : UInt8} (hm : isLwsChar m = false) {t y : Bytes} (h : Gram.mark m t y) : Acc fl (P.markCanOmmit m) t true y := by
  obtain ⟨w1, w2, h1, h2, rfl⟩ := h
  refine ⟨0, fun c _ hr hp _ => ?_⟩
  have hr' : c.rest = w1 ++ m :: (w2 ++ y) := by rw [hr]; simp
  have e1 : c.sws = c.adv w1.length := by rw [sws_eq c hp, hr', gsws_iff.1 (swsNo h1 hm)]
  have e2 : c.sws.rest = m :: (w2 ++ y) := by rw [e1]; exact Ctx.rest_adv hr'
  have g := swsMarkCanOmmit_spec c hp m
  rw [e2] at g
  simp only [if_pos] at g
  refine ⟨_, (by simp only [P.markCanOmmit, g]; rfl), ?_⟩
  rw [e1, gsws_iff.1 h2]
  exact ⟨rfl, rfl, rfl, by simp only [Ctx.adv, List.length_append, List.length_cons]; omega, Nat.le_refl _⟩

theorem markNo {m : UInt8} {w y : Bytes} (h : Gram.sws w y) (hne : y ≠ []) (hy : y.head? ≠ some m) : Acc fl (P.markCanOmmit m) w false y := by
  refine ⟨0, fun c _ hr hp _ => ?_⟩
  have e1 : c.sws = c.adv w.length := by rw [sws_eq c hp, hr, gsws_iff.1 h]
  have e2 : c.sws.rest = y := by rw [e1]; exact Ctx.rest_adv hr
  have g := swsMarkCanOmmit_spec c hp m
  rw [e2] at g
  cases y with
  | nil => exact absurd rfl hne
  | cons b y =>
    simp only [if_neg (show ¬ b = m by simpa using hy)] at g
    refine ⟨_, (by simp only [P.markCanOmmit, g]; rfl), ?_⟩
    rw [e1]
    exact ⟨rfl, rfl, rfl, rfl, Nat.le_refl _⟩

theorem hcolon {t y : Bytes} (h : Gram.hcolon t y) : Acc fl P.hcolon t () y := by
  obtain ⟨w1, w2, h1, h2, rfl⟩ := h
  refine ⟨0, fun c _ hr hp _ => ?_⟩
  have hr' : c.rest = w1 ++ 0x3a :: (w2 ++ y) := by rw [hr]; simp
  rcases hcolon_spec c hp with ⟨w, z, hw, hrz, e⟩ | ⟨w, z, hw, hrz, hz, e⟩
  · rw [hr'] at hrz
    obtain ⟨e1, e2⟩ := allWsp_split h1 hw (by simp) (by simp) hrz
    subst e1
    simp only [List.cons.injEq, true_and] at e2
    subst e2
    refine ⟨_, (by simp only [P.hcolon, P.ofBool, e]; rfl), ?_⟩
    rw [gsws_iff.1 h2]
    exact ⟨rfl, rfl, rfl, by simp only [Ctx.adv, List.length_append, List.length_cons]; omega, Nat.le_refl _⟩
  · rw [hr'] at hrz
    obtain ⟨e1, e2⟩ := allWsp_split h1 hw (by simp) (fun d hd => (hz d hd).2) hrz
    exact absurd rfl (hz 0x3a (by rw [← e2]; simp)).1

theorem crlf (y : Bytes) : Acc fl P.crlf [0x0d, 0x0a] () y := Parses.acc (F := AnyText) Parses.crlf trivial
theorem uint {n : Nat} {t y : Bytes} (h : Gram.number n t y) : Acc fl P.uint t n y := by
  obtain ⟨h1, h2, h3, rfl⟩ := h
  exact Parses.acc (Parses.digits t h1 h2) h3

theorem endsLine_no {w y : Bytes} (hw : IsSWS w) (hy : NoWs y) : ¬ Gram.endsLine (w ++ y) ∨ w = [] := by
  have := swsLen_eq_of_sws hw hy
  cases w with
  | nil => exact Or.inr rfl
  | cons b w => exact Or.inl (fun h => by rw [swsLen_endsLine h] at this; simp at this)

theorem parseLWS_fails {src : Bytes} {pos p : Nat} (h : parseLWS src pos = (p, false)) : Gram.endsLine (src.drop pos) := by
  unfold parseLWS at h
  have hk : skipWhile isSpHtab src pos = pos + runLen isSpHtab (src.drop pos) := rfl
  simp only [hk] at h
  split at h
  · cases h
  · rename_i hl
    split at h
    · rename_i hcl
      have hd : (src.drop pos).drop (runLen isSpHtab (src.drop pos)) = 0x0d :: 0x0a :: src.drop (pos + runLen isSpHtab (src.drop pos) + 2) := by
        rw [List.drop_drop]
        generalize pos + runLen isSpHtab (src.drop pos) = k at hl hcl ⊢
        have g1 := hcl.1; have g2 := hcl.2
        rw [← List.head?_drop] at g1 g2
        match hx : src.drop k with
        | [] => rw [hx] at g1; cases g1
        | x :: r =>
          rw [hx] at g1; cases g1
          have : src.drop (k + 1) = r := by rw [← List.drop_drop, hx]; rfl
          rw [this] at g2
          cases r with
          | nil => cases g2
          | cons b r =>
            cases g2
            have : src.drop (k + 2) = r := by rw [← List.drop_drop, hx]; rfl
            rw [this]
      refine ⟨(src.drop pos).take (runLen isSpHtab (src.drop pos)), _, (List.take_append_drop _ _).symm, allWsp_take _, _, hd, ?_⟩
      intro b hb
      split at h
      · rename_i h2
        rw [List.drop_eq_nil_of_le h2] at hb; cases hb
      · split at h
        · rename_i h3
          rw [List.head?_drop] at hb
          rw [hb] at h3
          have : isSpHtab b = false := by simpa using h3
          constructor
          · intro e; subst e; exact absurd this (by decide +kernel)
          · intro e; subst e; exact absurd this (by decide +kernel)
        · cases h
    · cases h

/-- `ParseLWS` in front of anything but a line end -/
theorem lws {w y : Bytes} (h : Gram.sws w y) (hne : ¬ Gram.endsLine (w ++ y)) : Acc fl P.lws w () y := by
  refine ⟨0, fun c _ hr hp hu => ?_⟩
  have g := parseLWS_spec c.src c.pos hp
  have hd : c.src.drop c.pos = w ++ y := hr
  unfold P.lws
  rcases hpp : parseLWS c.src c.pos with ⟨p, _ | _⟩
  · exact absurd (hd ▸ parseLWS_fails hpp) hne
  · rw [hpp] at g
    have g1 := g.1
    rw [hd, gsws_iff.1 h] at g1
    simp only [if_true] at g1
    subst g1
    exact ⟨_, rfl, rfl, rfl, rfl, rfl, Nat.le_refl _⟩

theorem quoted {v t y : Bytes} (h : Gram.quoted v t y) : Acc fl P.quoted t v y := by
  obtain ⟨w, q, hw, rfl, hq⟩ := h
  refine ⟨v.length + 2, fun c _ hr hp hu => ?_⟩
  have hd : c.src.drop c.pos = w ++ 0x22 :: (q ++ 0x22 :: y) := by have := hr; unfold Ctx.rest at this; rw [this]; simp
  have hsp : parseSWS c.src c.pos = c.pos + w.length := by
    rw [parseSWS_eq _ _ hp, hd, gsws_iff.1 (swsNo hw (by decide +kernel))]
  have hlen := rest_length c hp
  rw [hr] at hlen; simp only [List.cons_append, List.append_assoc, List.length_append, List.length_cons] at hlen
  refine ⟨_, parseQuoted_spec c q v y (c.src.length + 1) (by omega) (by rw [hsp, ← List.drop_drop, hd, List.drop_left]; rfl) hq (by omega), ?_⟩
  rw [hsp]
  refine ⟨rfl, rfl, rfl, ?_, ?_⟩
  · simp only [List.cons_append, List.append_assoc, List.length_append, List.length_cons, List.length_nil]; omega
  · simp only; omega

theorem orBack {α : Type} {p : P α} {t : Bytes} {v : α} {y : Bytes} (h : Acc fl p t v y) : Acc fl (P.orBack p) t v y := by
  obtain ⟨n, h⟩ := h
  refine ⟨n, fun c h1 h2 h3 h4 => ?_⟩
  obtain ⟨c', e, m⟩ := h c h1 h2 h3 h4
  exact ⟨c', by unfold P.orBack; rw [e], m⟩
theorem orElse1 {α : Type} {p q : P α} {t : Bytes} {v : α} {y : Bytes} (h : Acc fl p t v y) : Acc fl (P.orElse p q) t v y := by
  obtain ⟨n, h⟩ := h
  refine ⟨n, fun c h1 h2 h3 h4 => ?_⟩
  obtain ⟨c', e, m⟩ := h c h1 h2 h3 h4
  exact ⟨c', by unfold P.orElse; rw [e], m⟩
theorem orElse2 {α : Type} {p q : P α} {t : Bytes} {v : α} {y : Bytes} (hr : Rej fl p (t ++ y)) (h : Acc fl q t v y) : Acc fl (P.orElse p q) t v y := by
  obtain ⟨n, hr⟩ := hr
  obtain ⟨m, h⟩ := h
  refine ⟨n + m, fun c h1 h2 h3 h4 => ?_⟩
  obtain ⟨d, e, g1, g2, g3, g4⟩ := hr c h1 h2 h3 (by omega)
  obtain ⟨c', e', m'⟩ := h (d.setPos c.pos) (g2.trans h1) (by show d.src.drop c.pos = _; rw [g1]; exact h2) (by show c.pos ≤ d.src.length; rw [g1]; exact h3) (by show d.used + m < d.cap; omega)
  refine ⟨c', by unfold P.orElse; rw [e]; exact e', m'.src.trans g1, m'.flags.trans g2, m'.cap.trans g3, m'.pos, ?_⟩
  have := m'.used
  have : (d.setPos c.pos).used = d.used := rfl
  omega

theorem skipRun {s : CS} {t y : Bytes} (h : InSet s t) (hy : NotIn s y) : Acc fl (P.skipRun s) t () y := by
  refine ⟨0, fun c _ hr _ _ => ⟨_, rfl, ?_⟩⟩
  have : skipWhile s.mem c.src c.pos = c.pos + t.length := by
    unfold skipWhile
    have : c.src.drop c.pos = t ++ y := hr
    rw [this, runLen_append_of_all h]
    cases y with
    | nil => simp [runLen]
    | cons b y => rw [runLen_cons_false (hy b (by simp))]; omega
  rw [this]
  exact ⟨rfl, rfl, rfl, rfl, Nat.le_refl _⟩

theorem laquot {w y : Bytes} (hw : IsSWS w) : Acc fl (P.ofBool parseLeftAngleQuote) (w ++ [0x3c]) () y := by
  refine ⟨0, fun c _ hr hp _ => ?_⟩
  have hr' : c.rest = w ++ 0x3c :: y := by rw [hr]; simp
  have e1 : c.sws = c.adv w.length := by rw [sws_eq c hp, hr', gsws_iff.1 (swsNo hw (by decide +kernel))]
  have e2 : c.sws.rest = 0x3c :: y := by rw [e1]; exact Ctx.rest_adv hr'
  obtain ⟨h1, h2, _⟩ := angleQuotes_spec c hp
  have h3 := h1.2 ⟨y, e2⟩
  have h4 := h2 h3
  refine ⟨(parseLeftAngleQuote c).2, by unfold P.ofBool; rcases hq : parseLeftAngleQuote c with ⟨_ | _, d⟩ <;> rw [hq] at h3 <;> simp at h3 ⊢, ?_⟩
  rw [h4, e1]
  exact ⟨rfl, rfl, rfl, by simp only [Ctx.adv, List.length_append, List.length_cons, List.length_nil]; omega, Nat.le_refl _⟩

theorem raquot {w y : Bytes} (hw : Gram.sws w y) : Acc fl (P.ofBool parseRightAngleQuote) (0x3e :: w) () y := by
  refine ⟨0, fun c _ hr hp _ => ?_⟩
  have hr' : c.rest = 0x3e :: (w ++ y) := by rw [hr]; simp
  obtain ⟨_, _, h1, h2, _⟩ := angleQuotes_spec c hp
  have h3 := h1.2 ⟨_, hr'⟩
  have h4 := h2 _ hr'
  refine ⟨(parseRightAngleQuote c).2, by unfold P.ofBool; rcases hq : parseRightAngleQuote c with ⟨_ | _, d⟩ <;> rw [hq] at h3 <;> simp at h3 ⊢, ?_⟩
  rw [h4, gsws_iff.1 hw]
  exact ⟨rfl, rfl, rfl, by simp only [Ctx.adv, List.length_cons]; omega, Nat.le_refl _⟩

end Acc
end Sip
