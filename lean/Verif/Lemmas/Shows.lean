import Verif.Lemmas.Shapes
import Verif.Model.HeapEnc
/-!
# What an encode method writes, given what lies in the memory

`Shows A e v`: in every memory with `A` (below 32768) the method `e` gives `v`.
-/
namespace Sip
attribute [local irreducible] u32 u16 roundToAlign
open Asrt

def Shows (A : Asrt) (e : E) (v : Out Bytes) : Prop := ∀ m S, A.holds m S → (∀ i, S i → i < 32768) → e m = v

/-! ## the length of a list -/
section
open Classical
/-- how many of the addresses below `n` -/
noncomputable def cnt (S : Nat → Prop) : Nat → Nat
  | 0 => 0
  | n + 1 => cnt S n + (if S n then 1 else 0)

theorem cnt_le (S : Nat → Prop) (n : Nat) : cnt S n ≤ n := by
  induction n with
  | zero => exact Nat.le_refl _
  | succ n ih => unfold cnt; split <;> omega

theorem cnt_star {S S1 S2 : Nat → Prop} (h1 : ∀ i, S i ↔ S1 i ∨ S2 i) (h2 : ∀ i, ¬ (S1 i ∧ S2 i)) (n : Nat) : cnt S n = cnt S1 n + cnt S2 n := by
  induction n with
  | zero => rfl
  | succ n ih =>
    unfold cnt
    rw [ih]
    have a := h1 n
    have b := h2 n
    by_cases x : S1 n <;> by_cases y : S2 n
    · exact (b ⟨x, y⟩).elim
    · rw [if_pos (a.2 (.inl x)), if_pos x, if_neg y]; omega
    · rw [if_pos (a.2 (.inr y)), if_neg x, if_pos y]; omega
    · rw [if_neg (fun h => (a.1 h).elim x y), if_neg x, if_neg y]; omega

theorem cnt_pos {S : Nat → Prop} {i n : Nat} (h : S i) (hn : i < n) : 1 ≤ cnt S n := by
  induction n with
  | zero => omega
  | succ n ih =>
    unfold cnt
    by_cases hi : i = n
    · subst hi; rw [if_pos h]; omega
    · have := ih (by omega); omega
end

theorem Asrt.seg_length {α : Type} (nd : Nat → α → Asrt) (off q : Nat) (m : Mem) (N : Nat) :
    ∀ (vs : List α) (p : Nat) (S : Nat → Prop), (seg nd off p vs q).holds m S → (∀ i, S i → i < N) → vs.length ≤ cnt S N
  | [], _, _, _, _ => Nat.zero_le _
  | v :: r, p, S, h, hN => by
    obtain ⟨n, h⟩ := h
    obtain ⟨_, S1, S2, k1, k2, _, S3, S4, k3, k4, k5, k6⟩ := fact_star_holds.1 h
    have hs : ∀ i, S4 i → i < N := fun i hi => hN i ((k1 i).2 (.inr ((k3 i).2 (.inr hi))))
    have ih := seg_length nd off q m N r n S4 k6 hs
    obtain ⟨_, hu, _, _⟩ := u16At_holds.1 k5
    have h3 : S3 (p + off) := (hu _).2 (.inl rfl)
    have c1 := cnt_pos h3 (hN _ ((k1 _).2 (.inr ((k3 _).2 (.inl h3)))))
    have c2 := cnt_star k1 k2 N
    have c3 := cnt_star k3 k4 N
    rw [List.length_cons]
    omega

namespace Shows
variable {A A' F : Asrt} {e e' : E} {v v' : Out Bytes}

theorem pre (h : Shows A e v) (hA : A' ⊢ₘ A) : Shows A' e v := by
  intro m S hS hlt
  obtain ⟨T, h1, h2⟩ := hA m S hS
  exact h m T h2 (fun i hi => hlt i (h1 i hi))
theorem pre_eq (hA : A' = A) (h : Shows A e v) : Shows A' e v := hA ▸ h
theorem left (h : Shows A e v) : Shows (A ∗ F) e v := pre h (Ent.drop _ _)
theorem right (h : Shows F e v) : Shows (A ∗ F) e v := pre h (Ent.dropl _ _)
theorem ex_elim {ι : Type} {f : ι → Asrt} (h : ∀ i, Shows (f i) e v) : Shows (Asrt.ex f) e v := by
  rintro m S ⟨i, hS⟩ hlt; exact h i m S hS hlt
theorem ex_elim_star {ι : Type} {f : ι → Asrt} (h : ∀ i, Shows (f i ∗ F) e v) : Shows (Asrt.ex f ∗ F) e v := by
  rw [ex_star]; exact ex_elim h
theorem fact_elim {φ : Prop} (h : φ → Shows A e v) : Shows (fact φ ∗ A) e v := by
  intro m S hS hlt
  obtain ⟨h1, h2⟩ := fact_star_holds.1 hS
  exact h h1 m S h2 hlt
theorem lit (b : Bytes) : Shows A (E.lit b) (.ok b) := fun _ _ _ _ => rfl
theorem cat {x y : Bytes} (h1 : Shows A e (.ok x)) (h2 : Shows A e' (.ok y)) : Shows A (e +++ e') (.ok (x ++ y)) := by
  intro m S hS hlt
  unfold E.cat
  rw [h1 m S hS hlt, h2 m S hS hlt]; rfl
theorem catO (h1 : Shows A e v) (h2 : Shows A e' v') : Shows A (e +++ e') (v.app v') := by
  intro m S hS hlt
  unfold E.cat
  rw [h1 m S hS hlt, h2 m S hS hlt]
theorem f8 {a : Nat} {b : UInt8} {k : UInt8 → E} (h : Shows (u8At a b ∗ F) (k b) v) : Shows (u8At a b ∗ F) (E.u8 a k) v := by
  intro m S hS hlt
  have h' := h m S hS hlt
  obtain ⟨S1, S2, k1, k2, k3, k4⟩ := hS
  have h1 := k3.2 0 (by simp)
  show k (m a) m = v
  rw [show m a = b from h1]
  exact h'
theorem f16 {a n : Nat} {k : Nat → E} (h : Shows (u16At a n ∗ F) (k n) v) : Shows (u16At a n ∗ F) (E.u16 a k) v := by
  intro m S hS hlt
  have h' := h m S hS hlt
  obtain ⟨S1, S2, k1, k2, k3, k4⟩ := hS
  obtain ⟨hn, _, h1, h2⟩ := u16At_holds.1 k3
  show k ((m a).toNat + 256 * (m (a + 1)).toNat) m = v
  rw [show (m a).toNat + 256 * (m (a + 1)).toNat = n by rw [h1, h2, UInt8.toNat_ofNat', UInt8.toNat_ofNat']; omega]
  exact h'
theorem f16' {a n : Nat} {k : Nat → E} (h : Shows (u16At a n) (k n) v) : Shows (u16At a n) (E.u16 a k) v := by
  rw [← star_emp (u16At a n)] at h ⊢; exact f16 h
theorem f32 {a n : Nat} {k : Nat → E} (h : Shows (u32At a n ∗ F) (k n) v) : Shows (u32At a n ∗ F) (E.u32 a k) v := by
  unfold u32At at h ⊢
  refine pre_eq (star_assoc _ _ _) (fact_elim (fun hn => ?_))
  refine pre_eq (star_assoc _ _ _) (f16 ?_)
  refine pre_eq (star_left_comm _ _ _) (f16 ?_)
  rw [show n % 65536 + 65536 * (n / 65536) = n by omega]
  rw [fact_true hn, emp_star] at h
  refine pre_eq ?_ h
  rw [star_assoc, star_left_comm]
theorem cstr {p : Nat} {s : Bytes} : Shows (strAt p s) (E.str p) (.ok s) := by
  intro m S hS _
  show Out.ok (readStr m p) = _
  rw [hS.1.2.2]
theorem cstrEsc {cs : CS} {p : Nat} {s : Bytes} : Shows (strAt p s) (E.strEsc cs p) (.ok (escapeStr cs s)) := by
  intro m S hS _
  show Out.ok (escapeStr cs (readStr m p)) = _
  rw [hS.1.2.2]
theorem slice {p n : Nat} {l : Bytes} {k : Bytes → E} (hn : l.length = n) (h : Shows (bytes p l ∗ F) (k l) v) : Shows (bytes p l ∗ F) (E.slice p n k) v := by
  intro m S hS hlt
  have h' := h m S hS hlt
  obtain ⟨S1, S2, k1, k2, k3, k4⟩ := hS
  show k ((List.range n).map fun i => m (p + i)) m = v
  rw [show ((List.range n).map fun i => m (p + i)) = l from ?_]
  · exact h'
  · apply List.ext_getElem
    · simp [hn]
    · intro i h1 h2
      rw [List.getElem_map, List.getElem_range, k3.2 i h2]
      simp [List.getD_eq_getElem?_getD, h2]
theorem ite {φ : Prop} [Decidable φ] (h1 : φ → Shows A e v) (h2 : ¬ φ → Shows A e' v) : Shows A (if φ then e else e') v := by
  split
  · exact h1 ‹_›
  · exact h2 ‹_›
theorem str_ne {p : Nat} {s : Bytes} (h : p ≠ 0 → Shows (strAt p s ∗ F) e v) : Shows (strAt p s ∗ F) e v := by
  intro m S hS hlt
  have := strAt_lt hS
  exact h (by omega) m S hS hlt

/-- the texts of a list with a separator -/
def _root_.Sip.joined (sep : Bytes) : Out Bytes → List (Out Bytes) → Out Bytes
  | v, [] => v.app (.ok [])
  | v, w :: r => v.app (Out.app (.ok sep) (joined sep w r))

theorem walk_seg {α : Type} {nd : Nat → α → Asrt} {off : Nat} {f : Nat → E} {g : α → Out Bytes} {sep : Bytes} (hf : ∀ a v, Shows (nd a v) (f a) (g v)) :
    ∀ (vs : List α) (w : α) (p n : Nat), vs.length < n → Shows (listAt nd off p (w :: vs)) (E.walk off f sep n p) (joined sep (g w) (vs.map g))
  | [], w, p, n + 1, _ => by
    refine ex_elim (fun q => fact_elim (fun hp => ?_))
    refine catO (left (hf p w)) (right (f16 (right ?_)))
    refine pre_eq (star_emp _).symm (fact_elim (fun hq => ?_))
    rw [if_pos hq]
    exact lit _
  | x :: r, w, p, n + 1, h => by
    refine ex_elim (fun q => fact_elim (fun hp => ?_))
    refine catO (left (hf p w)) (right (f16 (right ?_)))
    have ih := walk_seg (off := off) (sep := sep) hf r x q n (by simpa using h)
    intro m S hS hlt
    have hq : ¬ q = 0 := by
      obtain ⟨_, hS⟩ := hS
      have := (fact_star_holds.1 hS).1
      omega
    rw [if_neg hq]
    exact catO (lit sep) ih m S hS hlt
termination_by vs => vs.length

theorem walk {α : Type} {nd : Nat → α → Asrt} {off : Nat} {f : Nat → E} {g : α → Out Bytes} {sep : Bytes} (hf : ∀ a v, Shows (nd a v) (f a) (g v))
    (w : α) (vs : List α) (p : Nat) : Shows (listAt nd off p (w :: vs)) (E.walk off f sep 32768 p) (joined sep (g w) (vs.map g)) := by
  intro m S hS hlt
  have h1 := seg_length nd off 0 m 32768 (w :: vs) p S hS hlt
  have h2 := cnt_le S 32768
  exact walk_seg hf vs w p 32768 (by rw [List.length_cons] at h1; omega) m S hS hlt

theorem list_ne {α : Type} {nd : Nat → α → Asrt} {off p : Nat} {w : α} {vs : List α} (h : p ≠ 0 → Shows (listAt nd off p (w :: vs)) e v) :
    Shows (listAt nd off p (w :: vs)) e v := by
  intro m S hS hlt
  have hq : p ≠ 0 := by
    obtain ⟨_, hS⟩ := hS
    have := (fact_star_holds.1 hS).1
    omega
  exact h hq m S hS hlt

theorem slots {α : Type} {nd : Nat → α → Asrt} {sep : UInt8} {enc : Nat → E} {g : α → Bytes} (hf : ∀ a v, Shows (nd a v) (enc a) (.ok (g v))) :
    ∀ (names : List Bytes) (known : List (Option α)) (a : Nat), known.length = names.length → Shows (Asrt.slots nd a known) (E.slots sep enc names a) (.ok (encodeKnown names sep g known))
  | [], [], _, _ => lit _
  | n :: names, o :: known, a, h => by
    have ih := slots (sep := sep) hf names known (a + 2) (by simpa using h)
    have : encodeKnown (n :: names) sep g (o :: known) = (match o with | some p => sep :: n ++ g p | none => []) ++ encodeKnown names sep g known := by
      unfold encodeKnown; rw [List.zip_cons_cons, List.flatMap_cons]; cases o <;> rfl
    rw [this]
    refine cat (left ?_) (right ih)
    refine ex_elim (fun q => f16 ?_)
    rcases o with _ | x <;> dsimp only [optNode]
    · refine pre_eq (star_comm _ _) (fact_elim (fun hq => ?_))
      rw [if_neg (by omega)]
      exact lit _
    · refine pre_eq (star_left_comm _ _ _) (fact_elim (fun hq => ?_))
      rw [if_pos (by omega)]
      exact cat (lit _) (right (hf q x))

theorem known {α : Type} {nd : Nat → α → Asrt} {sep : UInt8} {enc : Nat → E} {g : α → Bytes} (hf : ∀ a v, Shows (nd a v) (enc a) (.ok (g v)))
    (names : List Bytes) (kn : List (Option α)) (field : Nat) :
    Shows (knownAt nd names.length field kn) (E.known names sep enc field) (.ok (encodeKnown names sep g kn)) := by
  refine ex_elim (fun q => f16 ?_)
  by_cases hk : kn = []
  · rw [if_pos hk, hk]
    refine pre_eq (star_comm _ _) (fact_elim (fun hq => ?_))
    rw [if_pos hq, show encodeKnown names sep g [] = [] by unfold encodeKnown; rw [List.zip_nil_right]; rfl]
    exact lit _
  · rw [if_neg hk]
    refine pre_eq (star_left_comm _ _ _) (fact_elim (fun hq => ?_))
    rw [if_neg (by omega)]
    exact right (slots hf names kn q hq.2)
end Shows
end Sip
