import Verif.Lemmas.Sep
/-!
# The value layer is a correct abstraction of the byte layer: rules

`Sim A p b R`: started in a memory with `A`, the byte level method `b` does what the value level method `p` does - the same outcome, the same position, errors and
memory mark - and leaves a memory in which `R v x` holds, `v` being the value `p` returns and `x` the one `b` returns (an address, mostly).  Everything below the
memory mark that is not part of `A` is unchanged.
-/
namespace Sip
attribute [local irreducible] u32 u16 roundToAlign
open Asrt

/-- an arena of at most 32768 bytes with the mark inside, an input of less than 2^31 bytes -/
def Fine (c : BCtx) : Prop := c.a.cap ≤ 32768 ∧ 8 ≤ c.a.used ∧ c.a.used ≤ c.a.cap ∧ c.src.length < 2147483648

/-- the bytes below the mark of `c` outside `S` are unchanged, the mark has not gone back -/
structure HeapMoved (S : Nat → Prop) (c c' : BCtx) : Prop where
  mem : ∀ i, i < c.a.used → ¬ S i → c'.a.mem i = c.a.mem i
  used : c.a.used ≤ c'.a.used
  le : c'.a.used ≤ c.a.cap
  cap : c'.a.cap = c.a.cap
  src : c'.src = c.src
  flags : c'.flags = c.flags

theorem HeapMoved.refl (S) {c : BCtx} (h : Fine c) : HeapMoved S c c := ⟨fun _ _ _ => rfl, Nat.le_refl _, h.2.2.1, rfl, rfl, rfl⟩
theorem HeapMoved.fine {S} {c c' : BCtx} (h : HeapMoved S c c') (hf : Fine c) : Fine c' := by
  obtain ⟨h1, h2, h3, h4⟩ := hf
  obtain ⟨_, k2, k3, k4, k5, _⟩ := h
  exact ⟨by omega, by omega, by omega, by rw [k5]; exact h4⟩
theorem HeapMoved.trans {S T : Nat → Prop} {c c' c'' : BCtx} (h : HeapMoved S c c') (k : HeapMoved T c' c'') (hT : ∀ i, T i → i < c.a.used → S i) : HeapMoved S c c'' where
  mem i hi hs := (k.mem i (Nat.lt_of_lt_of_le hi h.used) (fun ht => hs (hT i ht hi))).trans (h.mem i hi hs)
  used := Nat.le_trans h.used k.used
  le := h.cap ▸ k.le
  cap := k.cap.trans h.cap
  src := k.src.trans h.src
  flags := k.flags.trans h.flags
theorem HeapMoved.mono {S T : Nat → Prop} {c c' : BCtx} (h : HeapMoved S c c') (hs : ∀ i, S i → T i) : HeapMoved T c c' :=
  { h with mem := fun i hi ht => h.mem i hi (fun hh => ht (hs i hh)) }

/-- what `b` does from `c`, given what `p` does -/
def SimOut {α β : Type} (c : BCtx) (S : Nat → Prop) (v : Out (Option α × Ctx)) (o : Out (Option β × BCtx)) (R : α → β → Asrt) : Prop :=
  match v with
  | .panic => o = .panic
  | .hang => o = .hang
  | .ok (none, d) => ∃ c', o = .ok (none, c') ∧ c'.abs = d ∧ HeapMoved S c c'
  | .ok (some v, d) => ∃ x c', o = .ok (some x, c') ∧ c'.abs = d ∧ HeapMoved S c c' ∧
      ∃ S', (R v x).holds c'.a.mem S' ∧ (∀ i, S' i → S i ∨ c.a.used ≤ i) ∧ ∀ i, S' i → i < c'.a.used

def Sim {α β : Type} (A : Asrt) (p : P α) (b : B β) (R : α → β → Asrt) : Prop :=
  ∀ (c : BCtx) (S : Nat → Prop), Fine c → A.holds c.a.mem S → (∀ i, S i → i < c.a.used) → SimOut c S (p c.abs) (b c) R

namespace Sim
variable {α β γ δ : Type} {A A' F : Asrt} {p : P α} {b : B β} {R R' : α → β → Asrt}

theorem pre (h : Sim A p b R) (hA : A' ⊢ₘ A) : Sim A' p b R := by
  intro c S hf hA' hS
  obtain ⟨T, hT, hTA⟩ := hA _ _ hA'
  have := h c T hf hTA (fun i hi => hS i (hT i hi))
  unfold SimOut at this ⊢
  rcases hp : p c.abs with ⟨_ | v, d⟩ | _ | _ <;> rw [hp] at this <;> dsimp only at this ⊢
  · obtain ⟨c', h1, h2, h3⟩ := this
    exact ⟨c', h1, h2, h3.mono hT⟩
  · obtain ⟨x, c', h1, h2, h3, S', h4, h5, h6⟩ := this
    exact ⟨x, c', h1, h2, h3.mono hT, S', h4, fun i hi => (h5 i hi).imp (hT i) id, h6⟩
  · exact this
  · exact this

theorem pre_eq (hA : A' = A) (h : Sim A p b R) : Sim A' p b R := hA ▸ h

theorem post (h : Sim A p b R) (hR : ∀ v x, R v x ⊢ₘ R' v x) : Sim A p b R' := by
  intro c S hf hA hS
  have := h c S hf hA hS
  unfold SimOut at this ⊢
  rcases hp : p c.abs with ⟨_ | v, d⟩ | _ | _ <;> rw [hp] at this <;> dsimp only at this ⊢
  · exact this
  · obtain ⟨x, c', h1, h2, h3, S', h4, h5, h6⟩ := this
    obtain ⟨T, hT, hTR⟩ := hR v x _ _ h4
    exact ⟨x, c', h1, h2, h3, T, hTR, fun i hi => h5 i (hT i hi), fun i hi => h6 i (hT i hi)⟩
  · exact this
  · exact this

theorem frame (F : Asrt) (h : Sim A p b R) : Sim (A ∗ F) p b (fun v x => R v x ∗ F) := by
  intro c S hf hA hS
  obtain ⟨S1, S2, k1, k2, k3, k4⟩ := hA
  have := h c S1 hf k3 (fun i hi => hS i ((k1 i).2 (.inl hi)))
  unfold SimOut at this ⊢
  rcases hp : p c.abs with ⟨_ | v, d⟩ | _ | _ <;> rw [hp] at this <;> dsimp only at this ⊢
  · obtain ⟨c', h1, h2, h3⟩ := this
    exact ⟨c', h1, h2, h3.mono (fun i hi => (k1 i).2 (.inl hi))⟩
  · obtain ⟨x, c', h1, h2, h3, S', h4, h5, h6⟩ := this
    have hlt : ∀ i, S2 i → i < c.a.used := fun i hi => hS i ((k1 i).2 (.inr hi))
    refine ⟨x, c', h1, h2, h3.mono (fun i hi => (k1 i).2 (.inl hi)), fun i => S' i ∨ S2 i, ⟨S', S2, fun i => Iff.rfl, fun i hi => ?_, h4, ?_⟩, ?_, ?_⟩
    · rcases h5 i hi.1 with h | h
      · exact k2 i ⟨h, hi.2⟩
      · have := hlt i hi.2; omega
    · exact F.loc k4 (fun i hi => h3.mem i (hlt i hi) (fun h => k2 i ⟨h, hi⟩))
    · rintro i (hi | hi)
      · exact (h5 i hi).imp (fun h => (k1 i).2 (.inl h)) id
      · exact .inl ((k1 i).2 (.inr hi))
    · rintro i (hi | hi)
      · exact h6 i hi
      · exact Nat.lt_of_lt_of_le (hlt i hi) h3.used
  · exact this
  · exact this

theorem bind {f : α → P γ} {g : β → B δ} {Q : γ → δ → Asrt} (h : Sim A p b R) (k : ∀ v x, Sim (R v x) (f v) (g x) Q) :
    Sim A (p >>= f) (b >>= g) Q := by
  intro c S hf hA hS
  have h1 := h c S hf hA hS
  unfold SimOut at h1
  show SimOut c S (P.bind p f c.abs) (B.bind b g c) Q
  rcases hp : p c.abs with ⟨_ | v, d⟩ | _ | _ <;> rw [hp] at h1 <;> dsimp only at h1
  · obtain ⟨c', h1, h2, h3⟩ := h1
    unfold P.bind B.bind
    rw [hp, h1]
    exact ⟨c', rfl, h2, h3⟩
  · obtain ⟨x, c', h1, h2, h3, S', h4, h5, h6⟩ := h1
    have h7 := k v x c' S' (h3.fine hf) h4 h6
    unfold P.bind B.bind
    rw [hp, h1]
    dsimp only
    rw [← h2]
    have hT : ∀ i, S' i → i < c.a.used → S i := fun i hi hlt => (h5 i hi).resolve_right (by omega)
    unfold SimOut at h7 ⊢
    rcases hq : f v c'.abs with ⟨_ | w, d⟩ | _ | _ <;> rw [hq] at h7 <;> dsimp only at h7 ⊢
    · obtain ⟨c'', j1, j2, j3⟩ := h7
      exact ⟨c'', j1, j2, h3.trans j3 hT⟩
    · obtain ⟨y, c'', j1, j2, j3, S'', j4, j5, j6⟩ := h7
      refine ⟨y, c'', j1, j2, h3.trans j3 hT, S'', j4, fun i hi => ?_, j6⟩
      rcases j5 i hi with h | h
      · exact h5 i h
      · exact .inr (Nat.le_trans h3.used h)
    · exact h7
    · exact h7
  · unfold P.bind B.bind SimOut
    rw [hp, h1]
  · unfold P.bind B.bind SimOut
    rw [hp, h1]

/-- `p` needs only the part `A` of the memory -/
theorem seq {f : α → P γ} {g : β → B δ} {Q : γ → δ → Asrt} (h : Sim A p b R) (k : ∀ v x, Sim (R v x ∗ F) (f v) (g x) Q) :
    Sim (A ∗ F) (p >>= f) (b >>= g) Q := bind (frame F h) k

/-- `p` needs nothing of the memory -/
theorem seq0 {f : α → P γ} {g : β → B δ} {Q : γ → δ → Asrt} (h : Sim emp p b R) (k : ∀ v x, Sim (R v x ∗ F) (f v) (g x) Q) :
    Sim F (p >>= f) (b >>= g) Q := pre_eq (emp_star F).symm (seq h k)

theorem ret {v : α} {x : β} (h : A ⊢ₘ R v x) : Sim A (pure v) (pure x) R := by
  intro c S hf hA hS
  obtain ⟨T, hT, hR⟩ := h _ _ hA
  exact ⟨x, c, rfl, rfl, HeapMoved.refl S hf, T, hR, fun i hi => .inl (hT i hi), fun i hi => hS i (hT i hi)⟩

theorem ret' {v : α} {x : β} (h : A = R v x) : Sim A (pure v) (pure x) R := ret (Ent.of_eq h)

theorem fail : Sim A (P.fail : P α) (B.fail : B β) R := fun c S hf _ _ => ⟨c, rfl, rfl, HeapMoved.refl S hf⟩
theorem err : Sim A (P.err : P α) (B.err : B β) R := fun c S hf _ _ =>
  ⟨c.addError c.pos, rfl, rfl, ⟨fun _ _ _ => rfl, Nat.le_refl _, hf.2.2.1, rfl, rfl, rfl⟩⟩
theorem panic : Sim A (P.panic : P α) (B.panic : B β) R := fun _ _ _ _ _ => rfl
theorem orErr (h : Sim A p b R) : Sim A (P.orErr p) (B.orErr b) R := by
  intro c S hf hA hS
  have h1 := h c S hf hA hS
  unfold SimOut at h1 ⊢
  unfold P.orErr B.orErr
  rcases hp : p c.abs with ⟨_ | v, d⟩ | _ | _ <;> rw [hp] at h1 <;> dsimp only at h1 ⊢
  · obtain ⟨c', h1, h2, h3⟩ := h1
    rw [h1]
    refine ⟨c'.addError c'.pos, rfl, by rw [← h2]; rfl, ⟨h3.mem, h3.used, h3.le, h3.cap, h3.src, h3.flags⟩⟩
  · obtain ⟨x, c', h1, h2⟩ := h1
    rw [h1]
    exact ⟨x, c', rfl, h2⟩
  · rw [h1]
  · rw [h1]

theorem ex_elim {ι : Type} {f : ι → Asrt} (h : ∀ i, Sim (f i) p b R) : Sim (Asrt.ex f) p b R := by
  rintro c S hf ⟨i, hA⟩ hS
  exact h i c S hf hA hS
theorem fact_elim {φ : Prop} (h : φ → Sim A p b R) : Sim (fact φ ∗ A) p b R := by
  intro c S hf hA hS
  obtain ⟨h1, h2⟩ := fact_star_holds.1 hA
  exact h h1 c S hf h2 hS
/-- a fact that follows from the memory -/
theorem know {φ : Prop} (hφ : ∀ m S, A.holds m S → φ) (h : φ → Sim A p b R) : Sim A p b R := by
  intro c S hf hA hS
  exact h (hφ _ _ hA) c S hf hA hS
theorem ofB {b' : B β} (hb : ∀ c, b c = b' c) (h : Sim A p b' R) : Sim A p b R := by
  have : b = b' := funext hb
  exact this ▸ h
theorem ofP {p' : P α} (hp : ∀ c, p c = p' c) (h : Sim A p' b R) : Sim A p b R := by
  have : p = p' := funext hp
  exact this ▸ h

/-! ## functions that do not touch the arena -/
/-- `p` does not touch the arena -/
def _root_.Sip.Dry {α : Type} (p : P α) : Prop := ∀ c r d, p c = .ok (r, d) → d.src = c.src ∧ d.used = c.used ∧ d.cap = c.cap ∧ d.flags = c.flags

theorem lift (hp : Dry p) : Sim emp p (B.lift p) (fun v x => fact (v = x)) := by
  intro c S hf hA hS
  unfold SimOut B.lift
  rw [show (⟨c.src, c.pos, c.a.used, c.a.cap, c.errs, c.flags⟩ : Ctx) = c.abs from rfl]
  rcases h : p c.abs with ⟨_ | v, d⟩ | _ | _ <;> dsimp only
  · obtain ⟨h1, h2, h3, h4⟩ := hp _ _ _ h
    refine ⟨_, rfl, ?_, ⟨fun _ _ _ => rfl, Nat.le_refl _, hf.2.2.1, rfl, rfl, rfl⟩⟩
    obtain ⟨ds, dp, du, dc, de, df⟩ := d
    dsimp only at h1 h2 h3 h4
    subst h1 h2 h3 h4
    rfl
  · obtain ⟨h1, h2, h3, h4⟩ := hp _ _ _ h
    refine ⟨v, _, rfl, ?_, ⟨fun _ _ _ => rfl, Nat.le_refl _, hf.2.2.1, rfl, rfl, rfl⟩, fun _ => False, ⟨rfl, fun _ h => h⟩, fun _ h => h.elim, fun _ h => h.elim⟩
    obtain ⟨ds, dp, du, dc, de, df⟩ := d
    dsimp only at h1 h2 h3 h4
    subst h1 h2 h3 h4
    rfl

theorem dry {f : α → P γ} {g : α → B δ} {Q : γ → δ → Asrt} (hp : Dry p) (k : ∀ v, Sim A (f v) (g v) Q) :
    Sim A (p >>= f) (B.lift p >>= g) Q :=
  seq0 (lift hp) (fun v x => fact_elim (fun h => by subst h; exact k v))

/-! ## fields -/
theorem put8 {a : Nat} {v w : UInt8} {g : Unit → B β} (k : Sim (u8At a v ∗ F) p (g ()) R) : Sim (u8At a w ∗ F) p (B.put8 a v >>= g) R := by
  rintro c S hf ⟨S1, S2, k1, k2, k3, k4⟩ hS
  have h1 := k3.1
  simp only [List.length_singleton] at h1
  have hlt : a < c.a.used := hS a ((k1 a).2 (.inl ((h1 a).2 (by omega))))
  have hf' : Fine (c.setMem (upd c.a.mem a v)) := hf
  have := k (c.setMem (upd c.a.mem a v)) S hf' ⟨S1, S2, k1, k2, ⟨k3.1, ?_⟩, F.loc k4 (fun i hi => ?_)⟩ hS
  · unfold SimOut at this ⊢
    rw [show (B.put8 a v >>= g) c = g () (c.setMem (upd c.a.mem a v)) from rfl]
    rw [show (c.setMem (upd c.a.mem a v)).abs = c.abs from rfl] at this
    have hm : ∀ {c'}, HeapMoved S (c.setMem (upd c.a.mem a v)) c' → HeapMoved S c c' := fun h =>
      ⟨fun i hi hs => (h.mem i hi hs).trans (if_neg (fun hh => hs (by subst hh; exact (k1 _).2 (.inl ((h1 _).2 (by omega)))))), h.used, h.le, h.cap, h.src, h.flags⟩
    rcases hp : p c.abs with ⟨_ | w, d⟩ | _ | _ <;> rw [hp] at this <;> dsimp only at this ⊢
    · obtain ⟨c', j1, j2, j3⟩ := this; exact ⟨c', j1, j2, hm j3⟩
    · obtain ⟨x, c', j1, j2, j3, j4⟩ := this; exact ⟨x, c', j1, j2, hm j3, j4⟩
    · exact this
    · exact this
  · intro j hj
    simp only [List.length_singleton] at hj
    obtain rfl : j = 0 := by omega
    exact if_pos rfl
  · refine if_neg (fun hh => ?_)
    subst hh
    exact k2 i ⟨(h1 i).2 (by omega), hi⟩

theorem _root_.Sip.Asrt.u16At_holds {a n : Nat} {m : Mem} {S : Nat → Prop} : (u16At a n).holds m S ↔
    n < 65536 ∧ (∀ i, S i ↔ i = a ∨ i = a + 1) ∧ m a = UInt8.ofNat (n % 256) ∧ m (a + 1) = UInt8.ofNat (n / 256) := by
  unfold u16At
  rw [fact_star_holds]
  refine and_congr_right (fun _ => ?_)
  constructor
  · rintro ⟨h1, h2⟩
    refine ⟨fun i => (h1 i).trans (by simp only [List.length_cons, List.length_nil]; omega), h2 0 (by simp), h2 1 (by simp)⟩
  · rintro ⟨h1, h2, h3⟩
    refine ⟨fun i => (h1 i).trans (by simp only [List.length_cons, List.length_nil]; omega), fun j hj => ?_⟩
    simp only [List.length_cons, List.length_nil] at hj
    match j, hj with
    | 0, _ => exact h2
    | 1, _ => exact h3

theorem put16 {a m n : Nat} {g : Unit → B β} (hn : n < 65536) (k : Sim (u16At a n ∗ F) p (g ()) R) : Sim (u16At a m ∗ F) p (B.put16 a n >>= g) R := by
  rintro c S hf ⟨S1, S2, k1, k2, k3, k4⟩ hS
  obtain ⟨_, h1, _, _⟩ := u16At_holds.1 k3
  have hf' : Fine (c.setMem (putU16 c.a.mem a n)) := hf
  have := k (c.setMem (putU16 c.a.mem a n)) S hf' ⟨S1, S2, k1, k2, u16At_holds.2 ⟨hn, h1, ?_, ?_⟩, F.loc k4 (fun i hi => ?_)⟩ hS
  · unfold SimOut at this ⊢
    rw [show (B.put16 a n >>= g) c = g () (c.setMem (putU16 c.a.mem a n)) from rfl]
    rw [show (c.setMem (putU16 c.a.mem a n)).abs = c.abs from rfl] at this
    have hm : ∀ {c'}, HeapMoved S (c.setMem (putU16 c.a.mem a n)) c' → HeapMoved S c c' := fun h =>
      ⟨fun i hi hs => (h.mem i hi hs).trans (putU16_other _ _ _ _ (by
        constructor <;> (intro hh; subst hh; exact hs ((k1 _).2 (.inl ((h1 _).2 (by omega))))))), h.used, h.le, h.cap, h.src, h.flags⟩
    rcases hp : p c.abs with ⟨_ | w, d⟩ | _ | _ <;> rw [hp] at this <;> dsimp only at this ⊢
    · obtain ⟨c', j1, j2, j3⟩ := this; exact ⟨c', j1, j2, hm j3⟩
    · obtain ⟨x, c', j1, j2, j3, j4⟩ := this; exact ⟨x, c', j1, j2, hm j3, j4⟩
    · exact this
    · exact this
  · show putU16 _ _ _ _ = _
    unfold putU16 upd
    rw [if_neg (by omega), if_pos rfl, u16_id hn]
  · show putU16 _ _ _ _ = _
    unfold putU16 upd
    rw [if_pos rfl, u16_id hn]
  · refine putU16_other _ _ _ _ ?_
    constructor <;> (intro hh; exact k2 i ⟨(h1 i).2 (by omega), hi⟩)

theorem get16 {a n : Nat} {g : Nat → B β} (k : Sim (u16At a n ∗ F) p (g n) R) : Sim (u16At a n ∗ F) p (B.get16 a >>= g) R := by
  intro c S hf hA hS
  have : (B.get16 a >>= g) c = g n c := by
    obtain ⟨S1, S2, k1, k2, k3, k4⟩ := hA
    obtain ⟨hn, _, h1, h2⟩ := u16At_holds.1 k3
    show g ((c.a.mem a).toNat + 256 * (c.a.mem (a + 1)).toNat) c = g n c
    congr 1
    rw [h1, h2, UInt8.toNat_ofNat', UInt8.toNat_ofNat']
    omega
  rw [this]
  exact k c S hf hA hS

theorem get8 {a : Nat} {v : UInt8} {g : UInt8 → B β} (k : Sim (u8At a v ∗ F) p (g v) R) : Sim (u8At a v ∗ F) p (B.get8 a >>= g) R := by
  intro c S hf hA hS
  have : (B.get8 a >>= g) c = g v c := by
    obtain ⟨S1, S2, k1, k2, k3, k4⟩ := hA
    have h1 := k3.2 0 (by simp)
    show g (c.a.mem a) c = g v c
    rw [show c.a.mem a = v from h1]
  rw [this]
  exact k c S hf hA hS

end Sim
end Sip
