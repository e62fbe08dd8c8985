import Verif.Model.Heap
import Verif.Props.Store
/-!
# Assertions about the bytes of the arena

An assertion says what lies at which addresses: `A.holds m S` - the bytes of `m` at the addresses in `S` are as `A` says.  `A ∗ B` means that `A` and `B` hold of
different parts of the memory.
-/
namespace Sip
attribute [local irreducible] u32 u16 roundToAlign

structure Asrt where
  holds : Mem → (Nat → Prop) → Prop
  loc : ∀ {m m' : Mem} {S : Nat → Prop}, holds m S → (∀ i, S i → m' i = m i) → holds m' S

namespace Asrt
theorem ext {A B : Asrt} (h : ∀ m S, A.holds m S ↔ B.holds m S) : A = B := by
  obtain ⟨f, hf⟩ := A
  obtain ⟨g, hg⟩ := B
  have : f = g := by funext m S; exact propext (h m S)
  subst this; rfl

/-- both, of different parts of the memory -/
def star (A B : Asrt) : Asrt where
  holds m S := ∃ S1 S2, (∀ i, S i ↔ S1 i ∨ S2 i) ∧ (∀ i, ¬ (S1 i ∧ S2 i)) ∧ A.holds m S1 ∧ B.holds m S2
  loc := by
    rintro m m' S ⟨S1, S2, h1, h2, h3, h4⟩ h
    exact ⟨S1, S2, h1, h2, A.loc h3 (fun i hi => h i ((h1 i).2 (.inl hi))), B.loc h4 (fun i hi => h i ((h1 i).2 (.inr hi)))⟩
@[inherit_doc] infixr:60 " ∗ " => Asrt.star

/-- a statement that is not about the memory -/
def fact (φ : Prop) : Asrt where
  holds _ S := φ ∧ ∀ i, ¬ S i
  loc h _ := h
/-- nothing -/
def emp : Asrt := fact True
/-- for some `x` -/
def ex {ι : Type} (f : ι → Asrt) : Asrt where
  holds m S := ∃ x, (f x).holds m S
  loc := by rintro m m' S ⟨x, hx⟩ h; exact ⟨x, (f x).loc hx h⟩

theorem star_comm (A B : Asrt) : A ∗ B = B ∗ A := by
  apply ext
  intro m S
  constructor
  · rintro ⟨S1, S2, h1, h2, h3, h4⟩
    exact ⟨S2, S1, fun i => (h1 i).trans or_comm, fun i h => h2 i ⟨h.2, h.1⟩, h4, h3⟩
  · rintro ⟨S1, S2, h1, h2, h3, h4⟩
    exact ⟨S2, S1, fun i => (h1 i).trans or_comm, fun i h => h2 i ⟨h.2, h.1⟩, h4, h3⟩

theorem star_assoc (A B C : Asrt) : (A ∗ B) ∗ C = A ∗ (B ∗ C) := by
  apply ext
  intro m S
  constructor
  · rintro ⟨S12, S3, h1, h2, ⟨S1, S2, k1, k2, k3, k4⟩, h4⟩
    refine ⟨S1, fun i => S2 i ∨ S3 i, fun i => ?_, fun i h => ?_, k3, S2, S3, fun i => Iff.rfl, fun i h => ?_, k4, h4⟩
    · rw [h1, k1, or_assoc]
    · rcases h.2 with h' | h'
      · exact k2 i ⟨h.1, h'⟩
      · exact h2 i ⟨(k1 i).2 (.inl h.1), h'⟩
    · exact h2 i ⟨(k1 i).2 (.inr h.1), h.2⟩
  · rintro ⟨S1, S23, h1, h2, h3, S2, S3, k1, k2, k3, k4⟩
    refine ⟨fun i => S1 i ∨ S2 i, S3, fun i => ?_, fun i h => ?_, ⟨S1, S2, fun i => Iff.rfl, fun i h => ?_, h3, k3⟩, k4⟩
    · rw [h1, k1, or_assoc]
    · rcases h.1 with h' | h'
      · exact h2 i ⟨h', (k1 i).2 (.inr h.2)⟩
      · exact k2 i ⟨h', h.2⟩
    · exact h2 i ⟨h.1, (k1 i).2 (.inl h.2)⟩

instance : Std.Commutative star := ⟨star_comm⟩
instance : Std.Associative star := ⟨star_assoc⟩

theorem emp_star (A : Asrt) : emp ∗ A = A := by
  apply ext
  intro m S
  constructor
  · rintro ⟨S1, S2, h1, h2, ⟨_, h3⟩, h4⟩
    have : S2 = S := by
      funext i; apply propext; rw [h1]
      exact ⟨.inr, fun h => h.resolve_left (h3 i)⟩
    exact this ▸ h4
  · intro h
    exact ⟨fun _ => False, S, fun i => (by simp), fun i h => h.1, ⟨trivial, fun i h => h⟩, h⟩
theorem star_emp (A : Asrt) : A ∗ emp = A := by rw [star_comm, emp_star]

theorem fact_true {φ : Prop} (h : φ) : fact φ = emp := by
  apply ext; intro m S; exact ⟨fun x => ⟨trivial, x.2⟩, fun x => ⟨h, x.2⟩⟩
theorem fact_star_holds {φ : Prop} {A : Asrt} {m : Mem} {S : Nat → Prop} : (fact φ ∗ A).holds m S ↔ φ ∧ A.holds m S := by
  constructor
  · intro h
    have hφ : φ := by obtain ⟨_, _, _, _, h, _⟩ := h; exact h.1
    rw [fact_true hφ, emp_star] at h
    exact ⟨hφ, h⟩
  · rintro ⟨hφ, h⟩
    rw [fact_true hφ, emp_star]; exact h
theorem ex_star {ι : Type} (f : ι → Asrt) (A : Asrt) : ex f ∗ A = ex (fun x => f x ∗ A) := by
  apply ext
  intro m S
  constructor
  · rintro ⟨S1, S2, h1, h2, ⟨x, h3⟩, h4⟩; exact ⟨x, S1, S2, h1, h2, h3, h4⟩
  · rintro ⟨x, S1, S2, h1, h2, h3, h4⟩; exact ⟨S1, S2, h1, h2, ⟨x, h3⟩, h4⟩

/-- `A` gives `B` (and perhaps more memory) -/
def Ent (A B : Asrt) : Prop := ∀ m S, A.holds m S → ∃ S', (∀ i, S' i → S i) ∧ B.holds m S'
@[inherit_doc] infix:50 " ⊢ₘ " => Asrt.Ent

theorem Ent.refl (A : Asrt) : A ⊢ₘ A := fun _ S h => ⟨S, fun _ h => h, h⟩
theorem Ent.of_eq {A B : Asrt} (h : A = B) : A ⊢ₘ B := h ▸ Ent.refl A
theorem Ent.trans {A B C : Asrt} (h1 : A ⊢ₘ B) (h2 : B ⊢ₘ C) : A ⊢ₘ C := by
  intro m S h
  obtain ⟨S1, k1, k2⟩ := h1 m S h
  obtain ⟨S2, k3, k4⟩ := h2 m S1 k2
  exact ⟨S2, fun i hi => k1 i (k3 i hi), k4⟩
theorem Ent.star {A B C D : Asrt} (h1 : A ⊢ₘ B) (h2 : C ⊢ₘ D) : A ∗ C ⊢ₘ B ∗ D := by
  rintro m S ⟨S1, S2, k1, k2, k3, k4⟩
  obtain ⟨S1', j1, j2⟩ := h1 m S1 k3
  obtain ⟨S2', j3, j4⟩ := h2 m S2 k4
  refine ⟨fun i => S1' i ∨ S2' i, fun i hi => (k1 i).2 (hi.imp (j1 i) (j3 i)), S1', S2', fun i => Iff.rfl, fun i h => k2 i ⟨j1 i h.1, j3 i h.2⟩, j2, j4⟩
theorem Ent.frame {A B : Asrt} (C : Asrt) (h : A ⊢ₘ B) : A ∗ C ⊢ₘ B ∗ C := Ent.star h (Ent.refl C)
theorem Ent.framel {A B : Asrt} (C : Asrt) (h : A ⊢ₘ B) : C ∗ A ⊢ₘ C ∗ B := Ent.star (Ent.refl C) h
theorem Ent.drop (A B : Asrt) : A ∗ B ⊢ₘ A := by
  rintro m S ⟨S1, S2, k1, k2, k3, k4⟩
  exact ⟨S1, fun i hi => (k1 i).2 (.inl hi), k3⟩
theorem Ent.ex {ι : Type} {f : ι → Asrt} {A : Asrt} (x : ι) (h : A ⊢ₘ f x) : A ⊢ₘ Asrt.ex f := by
  intro m S hA
  obtain ⟨S', k1, k2⟩ := h m S hA
  exact ⟨S', k1, x, k2⟩
theorem Ent.ex_elim {ι : Type} {f : ι → Asrt} {A : Asrt} (h : ∀ x, f x ⊢ₘ A) : Asrt.ex f ⊢ₘ A := by
  rintro m S ⟨x, hx⟩; exact h x m S hx
theorem Ent.fact {φ : Prop} {A B : Asrt} (hφ : φ) (h : A ⊢ₘ B) : A ⊢ₘ Asrt.fact φ ∗ B := by
  rw [fact_true hφ, emp_star]; exact h
theorem Ent.fact_elim {φ : Prop} {A B : Asrt} (h : φ → A ⊢ₘ B) : Asrt.fact φ ∗ A ⊢ₘ B := by
  intro m S hA
  obtain ⟨h1, h2⟩ := fact_star_holds.1 hA
  exact h h1 m S h2

/-- the bytes `l` from address `a` on -/
def bytes (a : Nat) (l : Bytes) : Asrt where
  holds m S := (∀ i, S i ↔ a ≤ i ∧ i < a + l.length) ∧ ∀ j, j < l.length → m (a + j) = l.getD j 0
  loc := by
    rintro m m' S ⟨h1, h2⟩ h
    exact ⟨h1, fun j hj => (h _ ((h1 _).2 (by omega))).trans (h2 j hj)⟩

theorem bytes_nil (a : Nat) : bytes a [] = emp := by
  apply ext
  intro m S
  constructor
  · rintro ⟨h1, _⟩; exact ⟨trivial, fun i hi => by have := (h1 i).1 hi; simp at this; omega⟩
  · rintro ⟨_, h⟩
    exact ⟨fun i => ⟨fun hi => absurd hi (h i), fun hi => by simp at hi; omega⟩, fun j hj => by simp at hj⟩

theorem bytes_append (a : Nat) (l k : Bytes) : bytes a (l ++ k) = bytes a l ∗ bytes (a + l.length) k := by
  apply ext
  intro m S
  constructor
  · rintro ⟨h1, h2⟩
    refine ⟨fun i => a ≤ i ∧ i < a + l.length, fun i => a + l.length ≤ i ∧ i < a + l.length + k.length, fun i => ?_, fun i h => by omega,
      ⟨fun i => Iff.rfl, fun j hj => ?_⟩, fun i => Iff.rfl, fun j hj => ?_⟩
    · rw [h1, List.length_append]; omega
    · rw [h2 j (by rw [List.length_append]; omega), List.getD_eq_getElem?_getD, List.getElem?_append_left hj, List.getD_eq_getElem?_getD]
    · rw [show a + l.length + j = a + (l.length + j) by omega, h2 (l.length + j) (by rw [List.length_append]; omega), List.getD_eq_getElem?_getD,
        List.getElem?_append_right (by omega), List.getD_eq_getElem?_getD, Nat.add_sub_cancel_left]
  · rintro ⟨S1, S2, h1, h2, ⟨h3, h4⟩, h5, h6⟩
    refine ⟨fun i => ?_, fun j hj => ?_⟩
    · rw [h1, h3, h5, List.length_append]; omega
    · rw [List.length_append] at hj
      by_cases hl : j < l.length
      · rw [h4 j hl, List.getD_eq_getElem?_getD, List.getD_eq_getElem?_getD, List.getElem?_append_left hl]
      · have := h6 (j - l.length) (by omega)
        rw [show a + l.length + (j - l.length) = a + j by omega] at this
        rw [this, List.getD_eq_getElem?_getD, List.getD_eq_getElem?_getD, List.getElem?_append_right (by omega)]

/-- `n` bytes 0 -/
def zeros (a n : Nat) : Asrt := bytes a (List.replicate n 0)
theorem zeros_split (a n k : Nat) : zeros a (n + k) = zeros a n ∗ zeros (a + n) k := by
  unfold zeros
  rw [← List.replicate_append_replicate, bytes_append, List.length_replicate]

/-- a field of one byte -/
def u8At (a : Nat) (v : UInt8) : Asrt := bytes a [v]
/-- a field of two bytes, little endian -/
def u16At (a n : Nat) : Asrt := fact (n < 65536) ∗ bytes a [UInt8.ofNat (n % 256), UInt8.ofNat (n / 256)]
/-- a field of four bytes -/
def u32At (a n : Nat) : Asrt := fact (n < 4294967296) ∗ (u16At a (n % 65536) ∗ u16At (a + 2) (n / 65536))

theorem zeros_u8 (a : Nat) : zeros a 1 = u8At a 0 := rfl
theorem zeros_u16 (a : Nat) : zeros a 2 = u16At a 0 := by
  unfold u16At; rw [fact_true (by omega), emp_star]; rfl
theorem zeros_u32 (a : Nat) : zeros a 4 = u32At a 0 := by
  unfold u32At; rw [fact_true (by omega), emp_star, show 4 = 2 + 2 from rfl, zeros_split, zeros_u16, zeros_u16]

/-- a stored string -/
def strAt (p : Nat) (s : Bytes) : Asrt where
  holds m S := (10 ≤ p ∧ p + s.length ≤ 32768 ∧ readStr m p = s) ∧ ∀ i, S i ↔ p - 2 ≤ i ∧ i < p + s.length
  loc := by
    rintro m m' S ⟨⟨h1, h2, h3⟩, h4⟩ h
    have hl : strlen m p = s.length := by rw [← h3]; simp [readStr]
    refine ⟨⟨h1, h2, ?_⟩, h4⟩
    rw [← h3]
    exact (readStr_congr m m' p (by omega) (fun i a b => h i ((h4 i).2 ⟨a, by rw [← hl]; exact b⟩))).2

/-- a string or nil -/
def strOpt (p : Nat) : Option Bytes → Asrt
  | none => fact (p = 0)
  | some s => strAt p s

theorem star_left_comm (A B C : Asrt) : A ∗ (B ∗ C) = B ∗ (A ∗ C) := by rw [← star_assoc, star_comm A B, star_assoc]
end Asrt

end Sip
