import Verif.Lemmas.QuotedSafe
/-! # Rules for `Parses`: what a parser makes of a text -/
namespace Sip

/-- on every input that continues with `t` and then with something satisfying `F`, with enough memory: the parser yields `v`, consumes exactly
`t` and uses exactly `n` bytes of the arena, and reports no error -/
def Parses {α : Type} (fl : Flags) (p : P α) (t : Bytes) (v : α) (n : Nat) (F : Bytes → Prop) : Prop :=
  ∀ (c : Ctx) (y : Bytes), c.flags = fl → c.rest = t ++ y → F y → c.pos ≤ c.src.length → c.used + n < c.cap →
    p c = .ok (some v, c.eat t.length n)

/-- the text does not start with a byte of the set -/
def NotIn (s : CS) (y : Bytes) : Prop := ∀ b ∈ y.head?, s.mem b = false
/-- the text does not start with white space -/
def NoWs (y : Bytes) : Prop := ∀ b ∈ y.head?, isLwsChar b = false
/-- anything may follow -/
def AnyText (_ : Bytes) : Prop := True

instance (s : CS) (y : Bytes) : Decidable (NotIn s y) := by
  unfold NotIn; cases y.head? with
  | none => exact isTrue (by simp)
  | some b => exact decidable_of_iff (s.mem b = false) (by simp)

namespace Ctx
@[simp] theorem eat_pos (c : Ctx) (k n : Nat) : (c.eat k n).pos = c.pos + k := rfl
@[simp] theorem eat_used (c : Ctx) (k n : Nat) : (c.eat k n).used = c.used + n := rfl
@[simp] theorem eat_cap (c : Ctx) (k n : Nat) : (c.eat k n).cap = c.cap := rfl
@[simp] theorem eat_src (c : Ctx) (k n : Nat) : (c.eat k n).src = c.src := rfl
@[simp] theorem eat_flags (c : Ctx) (k n : Nat) : (c.eat k n).flags = c.flags := rfl
theorem eat_eat (c : Ctx) (k n k' n' : Nat) : (c.eat k n).eat k' n' = c.eat (k + k') (n + n') := by
  simp [eat, Nat.add_assoc]
theorem eat_zero (c : Ctx) : c.eat 0 0 = c := rfl
theorem adv_eq_eat (c : Ctx) (k : Nat) : c.adv k = c.eat k 0 := rfl
theorem rest_eat (c : Ctx) (t y : Bytes) (n : Nat) (h : c.rest = t ++ y) : (c.eat t.length n).rest = y := by
  have : (c.eat t.length n).rest = c.rest.drop t.length := by simp [Ctx.rest, eat]
  rw [this, h]; simp
end Ctx

namespace Parses
variable {α β : Type} {fl : Flags} {F G : Bytes → Prop}

theorem mono {p : P α} {t : Bytes} {v : α} {n : Nat} (h : Parses fl p t v n F) (hF : ∀ y, G y → F y) : Parses fl p t v n G :=
  fun c y h1 h2 h3 h4 h5 => h c y h1 h2 (hF y h3) h4 h5

theorem cast {p : P α} {t t' : Bytes} {v v' : α} {n n' : Nat} (h : Parses fl p t v n F) (ht : t' = t) (hv : v' = v) (hn : n' = n) : Parses fl p t' v' n' F := by
  subst ht hv hn; exact h

theorem pure (v : α) : Parses fl (pure v) [] v 0 F := fun _ _ _ _ _ _ _ => rfl
theorem ret (v : α) : Parses fl (P.ret v) [] v 0 F := fun _ _ _ _ _ _ _ => rfl

theorem bind {p : P α} {f : α → P β} {t1 t2 : Bytes} {v1 : α} {v2 : β} {n1 n2 : Nat}
    (h1 : Parses fl p t1 v1 n1 F) (h2 : Parses fl (f v1) t2 v2 n2 G) (hF : ∀ y, G y → F (t2 ++ y)) :
    Parses fl (p >>= f) (t1 ++ t2) v2 (n1 + n2) G := by
  intro c y hfl hr hg hp hu
  rw [List.append_assoc] at hr
  have e1 := h1 c (t2 ++ y) hfl hr (hF y hg) hp (by omega)
  have hr2 := Ctx.rest_eat c t1 (t2 ++ y) n1 hr
  have hlen := rest_length c hp
  rw [hr] at hlen; simp only [List.length_append] at hlen
  have e2 := h2 (c.eat t1.length n1) y hfl hr2 hg (by simp; omega) (by simp; omega)
  rw [P.bind_ok e1, e2, Ctx.eat_eat]
  simp

/-- `bind` in the shape in which it is mostly used -/
theorem bind' {p : P α} {f : α → P β} {t t1 t2 : Bytes} {v1 : α} {v2 : β} {n n1 n2 : Nat}
    (h1 : Parses fl p t1 v1 n1 F) (h2 : Parses fl (f v1) t2 v2 n2 G) (hF : ∀ y, G y → F (t2 ++ y)) (ht : t = t1 ++ t2) (hn : n = n1 + n2) :
    Parses fl (p >>= f) t v2 n G := by
  subst ht hn; exact bind h1 h2 hF

theorem orErr {p : P α} {t : Bytes} {v : α} {n : Nat} (h : Parses fl p t v n F) : Parses fl (P.orErr p) t v n F :=
  fun c y h1 h2 h3 h4 h5 => P.orErr_ok (h c y h1 h2 h3 h4 h5)

/-- looking at the next byte, which belongs to the text -/
theorem peek {f : Option UInt8 → P β} {b : UInt8} {t : Bytes} {v : β} {n : Nat} (h : Parses fl (f (some b)) (b :: t) v n F) :
    Parses fl (P.peek >>= f) (b :: t) v n F := by
  intro c y h1 h2 h3 h4 h5
  rw [P.peek_bind, cur_eq_head, h2]
  exact h c y h1 h2 h3 h4 h5
/-- the same for a text that is known not to be empty -/
theorem peekNE {f : Option UInt8 → P β} {t : Bytes} {v : β} {n : Nat} (ht : t ≠ []) (h : Parses fl (f t.head?) t v n F) :
    Parses fl (P.peek >>= f) t v n F := by
  obtain ⟨b, t, rfl⟩ := List.exists_cons_of_ne_nil ht
  exact peek h
/-- looking at the next byte, which belongs to what follows -/
theorem peekEnd {f : Option UInt8 → P β} {v : β} {n : Nat} (h : ∀ y, F y → Parses fl (f y.head?) [] v n (fun z => z = y)) :
    Parses fl (P.peek >>= f) [] v n F := by
  intro c y h1 h2 h3 h4 h5
  rw [P.peek_bind, cur_eq_head, h2]
  exact h y h3 c y h1 h2 rfl h4 h5
theorem get {f : Ctx → P β} {t : Bytes} {v : β} {n : Nat}
    (h : ∀ c y, c.flags = fl → c.rest = t ++ y → F y → c.pos ≤ c.src.length → c.used + n < c.cap → f c c = .ok (some v, c.eat t.length n)) :
    Parses fl (P.get >>= f) t v n F := by
  intro c y h1 h2 h3 h4 h5
  rw [P.get_bind]; exact h c y h1 h2 h3 h4 h5

theorem skip (t : Bytes) : Parses fl (P.skip t.length) t () 0 F := fun _ _ _ _ _ _ _ => rfl
theorem skip1 {f : Unit → P β} {b : UInt8} {t : Bytes} {v : β} {n : Nat} (h : Parses fl (f ()) t v n F) : Parses fl (P.skip 1 >>= f) (b :: t) v n F :=
  bind' (F := AnyText) (skip [b]) h (fun _ _ => trivial) rfl (by omega)

/-- optional white space (as far as the parser reads it) in front of something that is not white space -/
theorem sws (w : Bytes) (hw : w = [] ∨ IsLWS w) : Parses fl P.sws w () 0 NoWs := by
  intro c y h1 h2 h3 h4 h5
  have hns : ¬ ∃ a b, c.rest = a ++ b ∧ AllWsp a ∧ StartsEol b := by
    rintro ⟨a, b, he, ha, z, rfl, hz⟩
    -- the first byte of y is not white space, so the CR is inside w, and w has WSP behind it
    rw [h2] at he
    have key : ∀ (a x : Bytes), AllWsp a → AllWsp x → x ++ y = a ++ ([0x0d, 0x0a] ++ z) → False := by
      intro a x ha hx he
      induction a generalizing x with
      | nil =>
        cases x with
        | nil =>
          simp only [List.nil_append] at he
          have := h3 0x0d (by rw [he]; simp)
          exact absurd this (by decide +kernel)
        | cons b x =>
          simp only [List.cons_append, List.nil_append, List.cons.injEq] at he
          rcases hx b (by simp) with h | h <;> · rw [he.1] at h; cases h
      | cons g a ih =>
        cases x with
        | nil =>
          simp only [List.nil_append] at he
          have := h3 g (by rw [he]; simp)
          rcases ha g (by simp) with h | h <;> · rw [h] at this; exact absurd this (by decide +kernel)
        | cons b x =>
          simp only [List.cons_append, List.cons.injEq] at he
          exact ih x (fun b hb => ha b (by simp [hb])) (fun b hb => hx b (by simp [hb])) he.2
    rcases hw with rfl | ⟨b, hbne, hb, rfl | ⟨a', ha', rfl⟩⟩
    · exact key a [] ha (by simp [AllWsp]) (by simpa using he)
    · exact key a _ ha hb he
    · -- both sides are WSP followed by CR LF
      have key2 : ∀ (a a' : Bytes), AllWsp a → AllWsp a' → a' ++ ([0x0d, 0x0a] ++ (b ++ y)) = a ++ ([0x0d, 0x0a] ++ z) → b ++ y = z := by
        intro a a' ha ha' he
        induction a generalizing a' with
        | nil =>
          cases a' with
          | nil => simpa using he
          | cons g a' =>
            simp only [List.cons_append, List.nil_append, List.cons.injEq] at he
            rcases ha' g (by simp) with h | h <;> · rw [he.1] at h; cases h
        | cons g a ih =>
          cases a' with
          | nil =>
            simp only [List.cons_append, List.nil_append, List.cons.injEq] at he
            rcases ha g (by simp) with h | h <;> · rw [← he.1] at h; cases h
          | cons g' a' =>
            simp only [List.cons_append, List.cons.injEq] at he
            exact ih a' (fun b hb => ha b (by simp [hb])) (fun b hb => ha' b (by simp [hb])) he.2
      have := key2 a a' ha ha' (by simpa using he)
      subst this
      cases b with
      | nil => exact hbne rfl
      | cons g b =>
        have h := hz g (by simp)
        rcases hb g (by simp) with h' | h'
        · exact h.1 h'
        · exact h.2 h'
  obtain ⟨x, y', hr, hx, hs, hs2, hs3⟩ := sws_sound c h4
  -- what is consumed is exactly w
  have hwx : w.length ≤ x.length := by
    rcases hw with rfl | hw
    · simp
    · have := sws_maximal c h4 w y h2 hw hns
      rw [hs] at this; simp only [Ctx.adv] at this; omega
  have hxw : x.length ≤ w.length := by
    false_or_by_contra
    rename_i hgt
    have hlt : w.length < x.length := by omega
    -- the first byte of y is a byte of x behind w
    rw [hr] at h2
    have hg : x[w.length]? = y.head? := by
      have : (x ++ y')[w.length]? = (w ++ y)[w.length]? := by rw [h2]
      rw [List.getElem?_append_left hlt, List.getElem?_append_right (by omega)] at this
      rw [this]; simp [List.head?_eq_getElem?]
    obtain ⟨b, hb⟩ : ∃ b, x[w.length]? = some b := ⟨x[w.length], List.getElem?_eq_getElem hlt⟩
    have hbn := h3 b (by rw [← hg, hb]; simp)
    have hbm := List.mem_of_getElem? hb
    have hall : ∀ b ∈ x, isLwsChar b = true := by
      have hwsp : ∀ l, AllWsp l → ∀ b ∈ l, isLwsChar b = true := by
        intro l hl b hb; rcases hl b hb with rfl | rfl <;> decide +kernel
      rcases hx with rfl | ⟨b', _, hb', rfl | ⟨a', ha', rfl⟩⟩
      · simp
      · exact hwsp _ hb'
      · intro b hb
        simp only [List.append_assoc, List.mem_append, List.mem_cons, List.not_mem_nil, or_false] at hb
        rcases hb with h | (rfl | rfl) | h
        · exact hwsp _ ha' b h
        · decide +kernel
        · decide +kernel
        · exact hwsp _ hb' b h
    rw [hall b hbm] at hbn; cases hbn
  show Out.ok (some (), c.sws) = _
  rw [hs, Ctx.adv_eq_eat, show x.length = w.length by omega]

theorem sws0 : Parses fl P.sws [] () 0 NoWs := sws [] (Or.inl rfl)

theorem alloc (k : Nat) : Parses fl (P.alloc k) [] () k F := by
  intro c y h1 h2 h3 h4 h5
  have : ¬ c.used + k > c.cap := by omega
  simp [P.alloc, Ctx.alloc, this, Ctx.eat]

theorem allocStr (b : Bytes) : Parses fl (P.allocStr b) [] b (b.length + 2) F := by
  intro c y h1 h2 h3 h4 h5
  have : ¬ c.used + (b.length + 2) > c.cap := by omega
  simp [P.allocStr, Sip.allocStr, this, Ctx.eat]

theorem str (s : CS) (t : Bytes) (hne : t ≠ []) (ht : InSet s t) : Parses fl (P.str s) t t (t.length + 2) (NotIn s) := by
  intro c y h1 h2 h3 h4 h5
  show parseStr s c = _
  rw [parseStr_spec s c t y ⟨h2, ht, h3⟩ (by omega), if_neg hne]
  simp only [Ctx.eat, Out.ok.injEq, Prod.mk.injEq, Ctx.mk.injEq, true_and, and_true]; omega

theorem strEsc (s : CS) (h25 : s.mem 0x25 = false) (b : Bytes) (hne : b ≠ []) :
    Parses fl (P.strEsc s) (escapeStr s b) b (b.length + 2) (fun y => NotIn s y ∧ y.head? ≠ some 0x25) := by
  intro c y h1 h2 h3 h4 h5
  show parseStrEscapable s c = _
  rw [escape_roundtrip s h25 b hne c y h2 (fun b hb => ⟨h3.1 b hb, fun e => h3.2 (by rw [← e]; exact hb)⟩) (by omega)]
  simp only [Ctx.eat, Out.ok.injEq, Prod.mk.injEq, Ctx.mk.injEq, true_and, and_true]; omega

theorem strEscEmpty (s : CS) (h25 : s.mem 0x25 = false) (b : Bytes) :
    Parses fl (P.strEscEmpty s) (escapeStr s b) b (b.length + 2) (fun y => NotIn s y ∧ y.head? ≠ some 0x25) := by
  intro c y h1 h2 h3 h4 h5
  show parseStrEscapableEnableEmpty s c = _
  rw [escape_roundtrip_empty s h25 b c y h2 (fun b hb => ⟨h3.1 b hb, fun e => h3.2 (by rw [← e]; exact hb)⟩) (by omega)]
  simp only [Ctx.eat, Out.ok.injEq, Prod.mk.injEq, Ctx.mk.injEq, true_and, and_true]; omega

/-- a quoted string (after optional white space) -/
theorem quoted (t o : Bytes) (h : QText t o) : Parses fl P.quoted (0x22 :: t ++ [0x22]) o (o.length + 2) F := by
  intro c y h1 h2 h3 h4 h5
  have hsp : parseSWS c.src c.pos = c.pos := by
    rw [parseSWS_eq _ _ h4]
    have : c.src.drop c.pos = 0x22 :: (t ++ 0x22 :: y) := by have := h2; unfold Ctx.rest at this; rw [this]; simp
    rw [this, swsLen_cons_not_lws (by decide +kernel)]; omega
  show parseQuoted (c.src.length + 1) c = _
  have hlen := rest_length c h4
  rw [h2] at hlen; simp only [List.cons_append, List.length_append, List.length_cons] at hlen
  rw [parseQuoted_spec c t o y (c.src.length + 1) (by omega) (by rw [hsp]; have := h2; unfold Ctx.rest at this; rw [this]; simp) h (by omega), hsp]
  simp only [Ctx.eat, Out.ok.injEq, Prod.mk.injEq, Ctx.mk.injEq, true_and, and_true, List.cons_append, List.length_append, List.length_cons, List.length_nil]
  omega

/-- the mark is there, with optional white space around it -/
theorem markYes (m : UInt8) (hm : isLwsChar m = false) (w1 w2 : Bytes) (hw1 : w1 = [] ∨ IsLWS w1) (hw2 : w2 = [] ∨ IsLWS w2) :
    Parses fl (P.markCanOmmit m) (w1 ++ m :: w2) true 0 NoWs := by
  intro c y h1 h2 h3 h4 h5
  have e1 := sws (fl := fl) w1 hw1 c (m :: w2 ++ y) h1 (by rw [h2]; simp) (by intro b hb; simp at hb; subst hb; exact hm) h4 (by omega)
  have e1' : c.sws = c.eat w1.length 0 := by
    have : (Out.ok (some (), c.sws) : Out (Option Unit × Ctx)) = .ok (some (), c.eat w1.length 0) := e1
    simpa using this
  have hr : c.sws.rest = m :: (w2 ++ y) := by rw [e1']; exact Ctx.rest_eat c w1 _ 0 (by rw [h2]; simp)
  have hsp := swsMarkCanOmmit_spec c h4 m
  rw [hr] at hsp
  simp only [if_pos] at hsp
  have hlen := rest_length c h4
  rw [h2] at hlen; simp only [List.length_append, List.length_cons] at hlen
  -- the white space behind the mark
  have e2 := sws (fl := fl) w2 hw2 (c.eat (w1.length + 1) 0) y h1 (by
    have := Ctx.rest_eat c (w1 ++ [m]) (w2 ++ y) 0 (by rw [h2]; simp)
    simpa using this) h3 (by simp; omega) (by simp; omega)
  have e2' : (c.eat (w1.length + 1) 0).sws = (c.eat (w1.length + 1) 0).eat w2.length 0 := by
    have : (Out.ok (some (), (c.eat (w1.length + 1) 0).sws) : Out (Option Unit × Ctx)) = .ok (some (), _) := e2
    simpa using this
  have hw2l : swsLen (w2 ++ y) = w2.length := by
    have := sws_eq (c.eat (w1.length + 1) 0) (by simp; omega)
    have hr2 : (c.eat (w1.length + 1) 0).rest = w2 ++ y := by
      have := Ctx.rest_eat c (w1 ++ [m]) (w2 ++ y) 0 (by rw [h2]; simp)
      simpa using this
    rw [hr2, e2'] at this
    have := congrArg Ctx.pos this
    simp only [Ctx.eat_pos, Ctx.adv] at this; omega
  simp only [P.markCanOmmit, hsp]
  rw [hw2l, e1']
  simp only [Ctx.adv, Ctx.eat, List.length_append, List.length_cons, Nat.add_zero, Out.ok.injEq, Prod.mk.injEq, Ctx.mk.injEq, true_and, and_true]
  omega
theorem markYes0 (m : UInt8) (hm : isLwsChar m = false) : Parses fl (P.markCanOmmit m) [m] true 0 NoWs := by
  have := markYes (fl := fl) m hm [] [] (Or.inl rfl) (Or.inl rfl)
  simpa using this

/-- the mark is not there -/
theorem markNo (m : UInt8) : Parses fl (P.markCanOmmit m) [] false 0 (fun y => y ≠ [] ∧ y.head? ≠ some m ∧ NoWs y) := by
  intro c y h1 h2 h3 h4 h5
  have e1 := sws0 (fl := fl) c y h1 h2 h3.2.2 h4 (by omega)
  have e1' : c.sws = c := by
    have : (Out.ok (some (), c.sws) : Out (Option Unit × Ctx)) = .ok (some (), c.eat 0 0) := e1
    simpa [Ctx.eat_zero] using this
  have hsp := swsMarkCanOmmit_spec c h4 m
  rw [e1', h2] at hsp
  cases y with
  | nil => exact absurd rfl h3.1
  | cons b y =>
    have hbm : b ≠ m := by intro e; exact h3.2.1 (by simp [e])
    simp only [List.nil_append, if_neg hbm] at hsp
    simp [P.markCanOmmit, hsp, Ctx.eat]
end Parses

theorem noWs_of {y : Bytes} {b : UInt8} {r : Bytes} (h : y = b :: r) (hb : isLwsChar b = false) : NoWs y := by
  subst h; intro x hx; simp at hx; subst hx; exact hb

end Sip
