import Verif.Lemmas.ReadsPrim
/-!
# Exact memory accounting

`MemAt F B C p c`: a successful run of `p` from `c` with result `v` uses at most `9` bytes of the arena for every byte of input it has passed, and `B v` more
(`B v` may be negative: what is left over); a failing run uses at most `F` bytes for every byte of the rest of the input and `C` more.
-/
namespace Sip

structure MemAt {α : Type} (F : Int) (B : α → Int) (C : Int) (p : P α) (c : Ctx) : Prop where
  some : Inv c → ∀ v c', p c = .ok (some v, c') → Step c c' ∧ (c'.used : Int) ≤ c.used + 9 * ((c'.pos : Int) - c.pos) + B v
  none : Inv c → ∀ c', p c = .ok (none, c') → Step c c' ∧ (c'.used : Int) ≤ c.used + F * ((c.src.length : Int) - c.pos) + C

theorem decodes_len {s : CS} {t v y : Bytes} (h : Decodes s t v y) : v.length + y.length ≤ t.length := by
  induction h with
  | stop => simp
  | lit v t o y h hr ih => simp only [List.length_cons]; omega
  | esc a b t o y h ha hb hr ih => simp only [List.length_cons]; omega

namespace MemAt
variable {α β : Type} {F C : Int} {c : Ctx}

theorem mono {F' C' : Int} {B B' : α → Int} {p : P α} (h : MemAt F B C p c) (hF : F ≤ F') (hB : ∀ v, B v ≤ B' v) (hC : C ≤ C') : MemAt F' B' C' p c where
  some hc v c' e := by obtain ⟨s, h1⟩ := h.some hc v c' e; have := hB v; exact ⟨s, by omega⟩
  none hc c' e := by
    obtain ⟨s, h1⟩ := h.none hc c' e
    refine ⟨s, Int.le_trans h1 ?_⟩
    have h2 := hc.pos
    have : F * ((c.src.length : Int) - c.pos) ≤ F' * ((c.src.length : Int) - c.pos) := Int.mul_le_mul_of_nonneg_right hF (by omega)
    omega

/-- weaken constants -/
theorem le {b b' C' : Int} {p : P α} (h : MemAt F (fun _ => b) C p c) (hB : b ≤ b' := by omega) (hC : C ≤ C' := by omega) : MemAt F (fun _ => b') C' p c :=
  h.mono (Int.le_refl _) (fun _ => hB) hC

theorem pure {B : α → Int} {v : α} (h : 0 ≤ B v := by omega) : MemAt F B C (pure v : P α) c where
  some hc w c' e := by cases e; exact ⟨Step.refl hc, by omega⟩
  none hc c' e := by cases e
theorem fail {B : α → Int} (hF : 0 ≤ F := by omega) (h : 0 ≤ C := by omega) : MemAt F B C (P.fail : P α) c where
  some hc v c' e := by cases e
  none hc c' e := by
    cases e
    have := hc.pos
    have : 0 ≤ F * ((c.src.length : Int) - c.pos) := Int.mul_nonneg hF (by omega)
    exact ⟨Step.refl hc, by omega⟩
theorem err {B : α → Int} (hF : 0 ≤ F := by omega) (h : 0 ≤ C := by omega) : MemAt F B C (P.err : P α) c where
  some hc v c' e := by cases e
  none hc c' e := by
    cases e
    have := hc.pos
    have : 0 ≤ F * ((c.src.length : Int) - c.pos) := Int.mul_nonneg hF (by omega)
    exact ⟨Step.err hc _, by show (c.used : Int) ≤ _; omega⟩
theorem panic {B : α → Int} : MemAt F B C (P.panic : P α) c where
  some hc v c' e := by cases e
  none hc c' e := by cases e

theorem congr {B : α → Int} {p p' : P α} (h : p c = p' c) (hs : MemAt F B C p' c) : MemAt F B C p c where
  some hc v c' e := hs.some hc v c' (h ▸ e)
  none hc c' e := hs.none hc c' (h ▸ e)

theorem orErr {B : α → Int} {p : P α} (h : MemAt F B C p c) : MemAt F B C (P.orErr p) c where
  some hc v c' e := by
    unfold P.orErr at e
    split at e
    · cases e
    · exact h.some hc v c' e
  none hc c' e := by
    unfold P.orErr at e
    split at e
    · rename_i d hd; cases e
      obtain ⟨s, h1⟩ := h.none hc d hd
      exact ⟨s.addError _, h1⟩
    · exact h.none hc c' e

theorem get {B : β → Int} {f : Ctx → P β} (h : MemAt F B C (f c) c) : MemAt F B C (P.get >>= f) c := congr (P.get_bind f c) h
theorem peek {B : β → Int} {f : Option UInt8 → P β} (h : MemAt F B C (f c.cur?) c) : MemAt F B C (P.peek >>= f) c := congr (P.peek_bind f c) h
theorem ite {B : α → Int} {q : Prop} [Decidable q] {x y : P α} (h1 : q → MemAt F B C x c) (h2 : ¬ q → MemAt F B C y c) : MemAt F B C (if q then x else y) c := by
  by_cases h : q
  · rw [if_pos h]; exact h1 h
  · rw [if_neg h]; exact h2 h

/-- one step after the other -/
theorem bind {B : α → Int} {D : β → Int} {C1 : Int} {p : P α} {f : α → P β} (hp : MemAt F B C1 p c)
    (hf : ∀ v c1, p c = .ok (Option.some v, c1) → Step c c1 → Inv c1 → MemAt F (fun w => D w - B v) (C - B v) (f v) c1) (hF : 9 ≤ F := by omega)
    (hC : C1 ≤ C := by omega) : MemAt F D C (p >>= f) c where
  some hc w c' e := by
    rcases hpc : p c with ⟨_ | v, c1⟩ | _ | _
    · rw [P.bind_none hpc] at e; cases e
    · rw [P.bind_ok hpc] at e
      obtain ⟨s1, h1⟩ := hp.some hc v c1 hpc
      obtain ⟨s2, h2⟩ := (hf v c1 hpc s1 s1.inv).some s1.inv w c' e
      exact ⟨s1.trans s2, by omega⟩
    · rw [P.bind_apply, hpc] at e; cases e
    · rw [P.bind_apply, hpc] at e; cases e
  none hc c' e := by
    rcases hpc : p c with ⟨_ | v, c1⟩ | _ | _
    · rw [P.bind_none hpc] at e; cases e
      obtain ⟨s1, h1⟩ := hp.none hc _ hpc
      exact ⟨s1, by omega⟩
    · rw [P.bind_ok hpc] at e
      obtain ⟨s1, h1⟩ := hp.some hc v c1 hpc
      obtain ⟨s2, h2⟩ := (hf v c1 hpc s1 s1.inv).none s1.inv c' e
      refine ⟨s1.trans s2, ?_⟩
      rw [s1.src] at h2
      have := s1.pos_le
      have h3 : 9 * ((c1.pos : Int) - c.pos) ≤ F * ((c1.pos : Int) - c.pos) := Int.mul_le_mul_of_nonneg_right hF (by omega)
      have h4 : F * ((c.src.length : Int) - c.pos) = F * ((c.src.length : Int) - c1.pos) + F * ((c1.pos : Int) - c.pos) := by
        rw [← Int.mul_add]; congr 1; omega
      omega
    · rw [P.bind_apply, hpc] at e; cases e
    · rw [P.bind_apply, hpc] at e; cases e

/-- one step after the other, with constants -/
theorem seq {b d C1 : Int} {p : P α} {f : α → P β} (hp : MemAt F (fun _ => b) C1 p c)
    (hf : ∀ v c1, p c = .ok (Option.some v, c1) → Step c c1 → Inv c1 → MemAt F (fun _ => d - b) (C - b) (f v) c1) (hF : 9 ≤ F := by omega) (hC : C1 ≤ C := by omega) :
    MemAt F (fun _ => d) C (p >>= f) c := bind hp hf hF hC

/-- from what `SafeAt` says -/
theorem ofSafe {q : Nat} {l : Bool} {m B : Nat} {Q : α → Prop} {p : P α} {k : Nat} {b : Int} (hs : Inv c → SafeAt q l m B Q p c)
    (he : ∀ v c', Inv c → p c = .ok (Option.some v, c') → c.pos + k ≤ c'.pos) (hm : m ≤ 9) (hF : 9 ≤ F := by omega) (hb : (B : Int) - (9 - m) * k ≤ b := by omega)
    (hC : (B : Int) ≤ C := by omega) : MemAt F (fun _ => b) C p c where
  some hc v c' e := by
    refine ⟨(hs hc).step _ _ e, ?_⟩
    have h1 := ((hs hc).some _ _ e).2.2
    have h2 := he v c' hc e
    have h3 : (9 - (m : Int)) * k ≤ (9 - m) * ((c'.pos : Int) - c.pos) := Int.mul_le_mul_of_nonneg_left (by omega) (by omega)
    have h4 : (9 - (m : Int)) * ((c'.pos : Int) - c.pos) = 9 * ((c'.pos : Int) - c.pos) - m * ((c'.pos : Int) - c.pos) := Int.sub_mul _ _ _
    have h5 : ((m * (c'.pos - c.pos) : Nat) : Int) = m * ((c'.pos : Int) - c.pos) := by rw [Int.natCast_mul, Int.ofNat_sub (by omega)]
    omega
  none hc c' e := by
    refine ⟨(hs hc).step _ _ e, ?_⟩
    have h1 := (hs hc).nmem _ e
    have h2 := hc.pos
    have h5 : ((m * (c.src.length - c.pos) : Nat) : Int) = m * ((c.src.length : Int) - c.pos) := by rw [Int.natCast_mul, Int.ofNat_sub (by omega)]
    have h6 : (m : Int) * ((c.src.length : Int) - c.pos) ≤ F * ((c.src.length : Int) - c.pos) := Int.mul_le_mul_of_nonneg_right (by omega) (by omega)
    omega

/-- after moving forward without allocating -/
theorem after {B : α → Int} {p p' : P α} {c1 : Ctx} (e0 : p c = p' c1) (hs : Inv c → Step c c1) (hu : c1.used = c.used) (h : MemAt F B C p' c1) (hF : 9 ≤ F := by omega) :
    MemAt F B C p c where
  some hc v c' e := by
    rw [e0] at e
    obtain ⟨s, h1⟩ := h.some (hs hc).inv v c' e
    have := (hs hc).pos_le
    exact ⟨(hs hc).trans s, by omega⟩
  none hc c' e := by
    rw [e0] at e
    obtain ⟨s, h1⟩ := h.none (hs hc).inv c' e
    have h2 := (hs hc).pos_le
    rw [(hs hc).src] at h1
    have h3 : F * ((c.src.length : Int) - c1.pos) ≤ F * ((c.src.length : Int) - c.pos) := Int.mul_le_mul_of_nonneg_left (by omega) (by omega)
    exact ⟨(hs hc).trans s, by omega⟩

theorem byteAt {k : Nat} : MemAt F (fun _ => 0) 0 (P.byteAt k) c where
  some hc v c' e := by
    unfold P.byteAt at e
    split at e
    · cases e; exact ⟨Step.refl hc, by omega⟩
    · cases e
  none hc c' e := by
    unfold P.byteAt at e
    split at e <;> cases e

/-- `skip` of `n` bytes that are there -/
theorem skip {n : Nat} (h : c.pos + n ≤ c.src.length) : MemAt F (fun _ => -9 * (n : Int)) 0 (P.skip n) c where
  some hc v c' e := by
    cases e
    refine ⟨Step.adv hc h, ?_⟩
    show (c.used : Int) ≤ c.used + 9 * (((c.pos + n : Nat) : Int) - c.pos) + -9 * (n : Int)
    omega
  none hc c' e := by cases e
theorem skip1 (h : c.cur? ≠ Option.none) : MemAt F (fun _ => -9) 0 (P.skip 1) c := by
  refine skip (n := 1) ?_
  cases hx : c.cur? with
  | none => exact absurd hx h
  | some x => exact (rest_eq_cons hx).2

theorem alloc {n : Nat} (hF : 9 ≤ F := by omega) : MemAt F (fun _ => (n : Int)) 0 (P.alloc n) c where
  some hc v c' e := by
    have h := SafeAt.alloc (q := 0) (m := 0) (n := n) hc
    have h1 := (h.some _ _ e).2.2
    have s := h.step _ _ e
    have := s.pos_le
    exact ⟨s, by omega⟩
  none hc c' e := by
    have h := SafeAt.alloc (q := 0) (m := 0) (n := n) hc
    have s := h.step _ _ e
    refine ⟨s, ?_⟩
    have hu : c'.used ≤ c.used := by
      unfold P.alloc at e
      split at e
      · cases e
      · rename_i d hd
        cases e
        unfold Ctx.alloc at hd
        split at hd
        · cases hd; exact Nat.le_refl _
        · cases hd
    have := hc.pos
    have : 0 ≤ F * ((c.src.length : Int) - c.pos) := Int.mul_nonneg (by omega) (by omega)
    omega
theorem allocMust {n : Nat} : MemAt F (fun _ => (n : Int)) 0 (P.allocMust n) c where
  some hc v c' e := by
    have e' : P.alloc n c = .ok (Option.some v, c') := by
      unfold P.allocMust at e
      unfold P.alloc
      split at e
      · exact e
      · cases e
    exact (alloc (F := 9)).some hc v c' e'
  none hc c' e := by
    unfold P.allocMust at e
    split at e <;> cases e

theorem allocStr {s : Bytes} (hF : 9 ≤ F := by omega) :
    MemAt F (fun _ => (s.length : Int) + 2) 0 (P.allocStr s) c where
  some hc v c' e := by
    have h := SafeAt.allocStr (q := 0) (m := 0) (b := s) hc
    have h1 := (h.some _ _ e).2.2
    have st := h.step _ _ e
    have := st.pos_le
    exact ⟨st, by omega⟩
  none hc c' e := by
    have h := SafeAt.allocStr (q := 0) (m := 0) (b := s) hc
    have st := h.step _ _ e
    refine ⟨st, ?_⟩
    have hu : c'.used ≤ c.used := by
      unfold P.allocStr Sip.allocStr at e
      by_cases hx : c.used + (s.length + 2) > c.cap
      · rw [if_pos hx] at e; cases e; exact Nat.le_refl _
      · rw [if_neg hx] at e; cases e
    have := hc.pos
    have : 0 ≤ F * ((c.src.length : Int) - c.pos) := Int.mul_nonneg (by omega) (by omega)
    omega

theorem sws : MemAt F (fun _ => 0) 0 P.sws c where
  some hc v c' e := by
    cases e
    have := (sws_step c hc).pos_le
    exact ⟨sws_step c hc, by rw [sws_used]; omega⟩
  none hc c' e := by cases e

/-- what a round of a loop may cost, with the potential `φ` -/
def roundCost {σ ρ : Type} (φ : σ → Int) (D : ρ → Int) (s : σ) : σ ⊕ ρ → Int
  | Sum.inl s' => φ s - φ s'
  | Sum.inr r => φ s + D r

/-- a loop with the potential `φ` -/
theorem loop {σ ρ : Type} {φ : σ → Int} {D : ρ → Int} {body : σ → P (σ ⊕ ρ)} (hF : 9 ≤ F)
    (hb : ∀ s c, Inv c → MemAt F (roundCost φ D s) (φ s + C) (body s) c) (n : Nat) : ∀ s c, MemAt F (fun r => φ s + D r) (φ s + C) (P.loop body n s) c := by
  induction n with
  | zero => exact fun s c => ⟨fun _ v c' e => (by cases e), fun _ c' e => (by cases e)⟩
  | succ n ih =>
    intro s c
    by_cases hc : Inv c
    · refine bind (hb s c hc) (fun r c1 _ st hi => ?_) hF (Int.le_refl _)
      cases r with
      | inl s' =>
        refine (ih s' c1).mono (Int.le_refl _) (fun v => ?_) ?_
        · show φ s' + D v ≤ φ s + D v - (φ s - φ s'); omega
        · show φ s' + C ≤ φ s + C - (φ s - φ s'); omega
      | inr r => exact pure (by show 0 ≤ φ s + D r - (φ s + D r); omega)
    · exact ⟨fun h => absurd h hc, fun h => absurd h hc⟩

theorem forLoop {σ ρ : Type} (φ : σ → Int) {D : ρ → Int} {body : σ → P (σ ⊕ ρ)} {s : σ}
    (hb : ∀ s c, Inv c → MemAt F (roundCost φ D s) (φ s + C) (body s) c) (hF : 9 ≤ F := by omega) : MemAt F (fun r => φ s + D r) (φ s + C) (P.forLoop body s) c :=
  congr (p' := P.loop body (c.src.length + 1) s) rfl (loop hF hb _ s c)

/-- a loop every round of which pays for itself -/
theorem forLoop0 {σ ρ : Type} {b : Int} {body : σ → P (σ ⊕ ρ)} {s : σ} (hb : ∀ s c, Inv c → MemAt F (fun _ => b) C (body s) c) (h0 : b ≤ 0 := by omega)
    (hF : 9 ≤ F := by omega) : MemAt F (fun _ => 0) C (P.forLoop body s) c :=
  (forLoop (φ := fun _ => 0) (D := fun _ => 0) (C := C) (body := body) (s := s) (c := c) (fun s c hi => (hb s c hi).mono (Int.le_refl _)
    (fun r => by cases r <;> (dsimp only [roundCost]; omega)) (by show C ≤ 0 + C; omega)) hF).mono (Int.le_refl _) (fun _ => by show (0 : Int) + 0 ≤ 0; omega) (by show 0 + C ≤ C; omega)

/-- the position goes back when it fails -/
theorem orBack {B : α → Int} {p : P α} (h : MemAt F B C p c) : MemAt F B C (P.orBack p) c where
  some hc v c' e := by
    unfold P.orBack at e
    split at e
    · cases e
    · exact h.some hc v c' e
  none hc c' e := by
    unfold P.orBack at e
    split at e
    · rename_i d hd; cases e
      obtain ⟨s, h1⟩ := h.none hc d hd
      refine ⟨?_, h1⟩
      exact ⟨s.src, s.cap, s.flags, Nat.le_refl _, hc.pos, s.used_le, s.used_cap, s.errs.cons ⟨Nat.le_refl _, hc.pos⟩⟩
    · exact h.none hc c' e

/-- the text that was read is at least `k` bytes long -/
theorem eats {R : Rel α} {p : P α} {k : Nat} (h : ReadsAt R p c) (hk : ∀ v t y, R v t y → k ≤ t.length) :
    ∀ v c', Inv c → p c = .ok (Option.some v, c') → c.pos + k ≤ c'.pos := by
  intro v c' hc e
  obtain ⟨s, t, h1, h2⟩ := h hc v c' e
  have := hk v t _ h2
  have := s.pos_text h1
  omega

/-! ## Primitive parsers -/

theorem str (s : CS) (hcr : s.mem 0x0d = false := by decide +kernel) (hF : 9 ≤ F := by omega) :
    MemAt F (fun _ => -6) 2 (P.str s) c :=
  ofSafe (k := 1) (fun hc => safe_str s hcr c hc) (eats (ReadsAt.str s hcr) (fun v t y h => List.length_pos_iff.2 h.2.1)) (by omega) hF (by omega) (by omega)

theorem strEsc (s : CS) (hcr : s.mem 0x0d = false := by decide +kernel) (hF : 9 ≤ F := by omega) :
    MemAt F (fun _ => -6) 2 (P.strEsc s) c := by
  refine ofSafe (k := 1) (fun hc => safe_strEsc s hcr c hc) (eats (ReadsAt.strEsc s hcr) (fun v t y h => ?_)) (by omega) hF (by omega) (by omega)
  rcases t with _ | ⟨a, t⟩
  · obtain ⟨h1, h2⟩ := h
    exfalso
    have h3 := decodes_len h2
    have : v.length = 0 := by simp at h3; omega
    exact h1 (List.length_eq_zero_iff.1 this)
  · simp

theorem strEscEmpty (s : CS) (hcr : s.mem 0x0d = false := by decide +kernel) (hF : 9 ≤ F := by omega) :
    MemAt F (fun _ => 2) 2 (P.strEscEmpty s) c :=
  ofSafe (k := 0) (fun hc => safe_strEscEmpty s hcr c hc) (fun v c' hc e => ((safe_strEscEmpty s hcr c hc).step _ _ e).pos_le) (by omega) hF (by omega) (by omega)

/-- a parser that allocates nothing -/
theorem ofFree {q : Nat} {l : Bool} {m B : Nat} {Q : α → Prop} {p : P α} {D : α → Int} (hs : Inv c → SafeAt q l m B Q p c)
    (hu : Inv c → ∀ r c', p c = .ok (r, c') → c'.used = c.used)
    (he : ∀ v c', Inv c → p c = .ok (Option.some v, c') → 0 ≤ 9 * ((c'.pos : Int) - c.pos) + D v) (hF : 0 ≤ F := by omega) (hC : 0 ≤ C := by omega) :
    MemAt F D C p c where
  some hc v c' e := by
    refine ⟨(hs hc).step _ _ e, ?_⟩
    have h1 := hu hc _ _ e
    have h2 := he v c' hc e
    omega
  none hc c' e := by
    refine ⟨(hs hc).step _ _ e, ?_⟩
    have h1 := hu hc _ _ e
    have h2 := hc.pos
    have : 0 ≤ F * ((c.src.length : Int) - c.pos) := Int.mul_nonneg hF (by omega)
    omega
/-- the same, when at least `k` bytes are passed -/
theorem ofFreeK {q : Nat} {l : Bool} {m B : Nat} {Q : α → Prop} {p : P α} {k : Nat} {b : Int} (hs : Inv c → SafeAt q l m B Q p c)
    (hu : Inv c → ∀ r c', p c = .ok (r, c') → c'.used = c.used) (he : ∀ v c', Inv c → p c = .ok (Option.some v, c') → c.pos + k ≤ c'.pos)
    (hb : -9 * (k : Int) ≤ b := by omega) (hF : 0 ≤ F := by omega) (hC : 0 ≤ C := by omega) : MemAt F (fun _ => b) C p c :=
  ofFree hs hu (fun v c' hc e => by have := he v c' hc e; omega) hF hC

theorem mark (m : UInt8) (hm : m ≠ 0x0d := by decide) (hF : 9 ≤ F := by omega) :
    MemAt F (fun _ => -9) 0 (P.mark m) c := by
  refine ofFreeK (k := 1) (fun hc => safe_mark m hm c hc) (fun hc r c' e => ?_) (eats (ReadsAt.mark m hm) (fun v t y h => ?_)) (by omega) (by omega) (by omega)
  · simp only [P.mark, P.ofBool] at e
    rcases swsMark_spec c hc.pos m with ⟨y, h1, h2⟩ | ⟨h1, h2⟩
    · rw [h2] at e; cases e; exact sws_used c
    · rw [h2] at e; cases e; exact sws_used c
  · obtain ⟨w1, w2, _, _, rfl⟩ := h
    simp only [List.length_append, List.length_cons]; omega

theorem markCanOmmit (m : UInt8) (hm : m ≠ 0x0d := by decide) (hF : 9 ≤ F := by omega) :
    MemAt F (fun b => if b = true then -9 else 0) 0 (P.markCanOmmit m) c := by
  refine ofFree (fun hc => safe_markCanOmmit m hm c hc) (fun hc r c' e => ?_) (fun v c' hc e => ?_) (by omega) (by omega)
  · simp only [P.markCanOmmit] at e
    rw [swsMarkCanOmmit_spec c hc.pos m] at e
    split at e
    · rename_i h; split at h
      · cases h
      · split at h
        · cases h; cases e; exact sws_used c
        · cases h; cases e; exact sws_used c
    · rename_i h; split at h
      · cases h; cases e; exact sws_used c
      · split at h <;> cases h
  · obtain ⟨s, t, h1, h2, h3⟩ := ReadsAt.markCanOmmit m hm hc v c' e
    have := s.pos_text h1
    cases v with
    | false => simp only [Bool.false_eq_true, if_false]; omega
    | true =>
      obtain ⟨w1, w2, _, _, rfl⟩ := h2 rfl
      simp only [List.length_append, List.length_cons] at this
      simp only [if_true]; omega

theorem hcolon (hF : 9 ≤ F := by omega) : MemAt F (fun _ => -9) 0 P.hcolon c := by
  refine ofFreeK (k := 1) (fun hc => safe_hcolon c hc) (fun hc r c' e => ?_) (eats ReadsAt.hcolon (fun v t y h => ?_)) (by omega) (by omega) (by omega)
  · simp only [P.hcolon, P.ofBool] at e
    rcases hcolon_spec c hc.pos with ⟨w, z, hw, hr, e2⟩ | ⟨w, z, hw, hr, hz, e2⟩
    · rw [e2] at e; cases e; rfl
    · rw [e2] at e; cases e; rfl
  · obtain ⟨w1, w2, _, _, rfl⟩ := h
    simp only [List.length_append, List.length_cons]; omega

theorem uint (hF : 9 ≤ F := by omega) : MemAt F (fun _ => -9) 0 P.uint c := by
  refine ofFreeK (k := 1) (fun hc => safe_uint c hc) (fun hc r c' e => ?_) (eats ReadsAt.uint (fun v t y h => List.length_pos_iff.2 h.1)) (by omega) (by omega) (by omega)
  unfold P.uint at e
  dsimp only at e
  split at e <;> cases e <;> rfl

theorem lws (hF : 9 ≤ F := by omega) : MemAt F (fun _ => 0) 0 P.lws c := by
  refine ofFreeK (k := 0) (fun hc => safe_lws c hc) (fun hc r c' e => ?_) (fun v c' hc e => ((safe_lws c hc).step _ _ e).pos_le) (by omega) (by omega) (by omega)
  rcases P.lws_cases c hc with h | ⟨p, h, _⟩
  · rw [h] at e; cases e; rfl
  · rw [h] at e; cases e; rfl

theorem quoted (hF : 9 ≤ F := by omega) : MemAt F (fun _ => -14) 2 P.quoted c := by
  refine ofSafe (k := 2) (fun hc => safe_quoted c hc) (eats ReadsAt.quoted (fun v t y h => ?_)) (by omega) hF (by omega) (by omega)
  obtain ⟨w, q, _, rfl, _⟩ := h
  simp only [List.length_append, List.length_cons, List.length_nil]; omega

/-- no failing run of a parser that always succeeds, when it succeeds -/
theorem ofReads {R : Rel α} {p : P α} {D : α → Int} (hr : ReadsAt R p c) (hn : ∀ c', p c = .ok (Option.none, c') → Inv c → Step c c' ∧ c'.used = c.used)
    (hu : ∀ v c', Inv c → p c = .ok (Option.some v, c') → c'.used = c.used) (hD : ∀ v t y, R v t y → 0 ≤ 9 * (t.length : Int) + D v) (hF : 0 ≤ F := by omega)
    (hC : 0 ≤ C := by omega) : MemAt F D C p c where
  some hc v c' e := by
    obtain ⟨s, t, h1, h2⟩ := hr hc v c' e
    have h3 := hD v t _ h2
    have h4 := s.pos_text h1
    have h5 := hu v c' hc e
    exact ⟨s, by omega⟩
  none hc c' e := by
    obtain ⟨s, h⟩ := hn c' e hc
    have h2 := hc.pos
    have : 0 ≤ F * ((c.src.length : Int) - c.pos) := Int.mul_nonneg hF (by omega)
    exact ⟨s, by omega⟩
end MemAt
end Sip
