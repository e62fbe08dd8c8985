import Verif.Lemmas.Shows
import Verif.Model.HeapMsg
/-!
# Reading the memory in a method

`Sees A f v`: in every memory with `A` (below 32768) the function `f` gives `v`.
-/
namespace Sip
attribute [local irreducible] u32 u16 roundToAlign
open Asrt

def Sees {γ : Type} (A : Asrt) (f : Rd γ) (v : Out γ) : Prop := ∀ m S, A.holds m S → (∀ i, S i → i < 32768) → f m = v

namespace Sees
variable {γ : Type} {A A' F : Asrt} {f : Rd γ} {v : Out γ}
theorem ofShows {e : E} {w : Out Bytes} (h : Shows A e w) : Sees A e w := h
theorem pre (h : Sees A f v) (hA : A' ⊢ₘ A) : Sees A' f v := by
  intro m S hS hlt
  obtain ⟨T, h1, h2⟩ := hA m S hS
  exact h m T h2 (fun i hi => hlt i (h1 i hi))
theorem pre_eq (hA : A' = A) (h : Sees A f v) : Sees A' f v := hA ▸ h
theorem left (h : Sees A f v) : Sees (A ∗ F) f v := pre h (Ent.drop _ _)
theorem right (h : Sees F f v) : Sees (A ∗ F) f v := pre h (Ent.dropl _ _)
theorem ex_elim {ι : Type} {g : ι → Asrt} (h : ∀ i, Sees (g i) f v) : Sees (Asrt.ex g) f v := by
  rintro m S ⟨i, hS⟩ hlt; exact h i m S hS hlt
theorem ex_elim_star {ι : Type} {g : ι → Asrt} (h : ∀ i, Sees (g i ∗ F) f v) : Sees (Asrt.ex g ∗ F) f v := by
  rw [ex_star]; exact ex_elim h
theorem fact_elim {φ : Prop} (h : φ → Sees A f v) : Sees (fact φ ∗ A) f v := by
  intro m S hS hlt
  obtain ⟨h1, h2⟩ := fact_star_holds.1 hS
  exact h h1 m S h2 hlt
theorem fact_elim' {φ : Prop} (h : φ → Sees emp f v) : Sees (fact φ) f v := pre_eq (star_emp _).symm (fact_elim h)
theorem ret (x : γ) : Sees A (Rd.ret x) (.ok x) := fun _ _ _ _ => rfl
theorem f16 {a n : Nat} {k : Nat → Rd γ} (h : Sees (u16At a n ∗ F) (k n) v) : Sees (u16At a n ∗ F) (Rd.u16 a k) v := by
  intro m S hS hlt
  have h' := h m S hS hlt
  obtain ⟨S1, S2, k1, k2, k3, k4⟩ := hS
  obtain ⟨hn, _, h1, h2⟩ := u16At_holds.1 k3
  show k ((m a).toNat + 256 * (m (a + 1)).toNat) m = v
  rw [show (m a).toNat + 256 * (m (a + 1)).toNat = n by rw [h1, h2, UInt8.toNat_ofNat', UInt8.toNat_ofNat']; omega]
  exact h'
theorem f32 {a n : Nat} {k : Nat → Rd γ} (h : Sees (u32At a n ∗ F) (k n) v) : Sees (u32At a n ∗ F) (Rd.u32 a k) v := by
  unfold u32At at h ⊢
  refine pre_eq (star_assoc _ _ _) (fact_elim (fun hn => ?_))
  refine pre_eq (star_assoc _ _ _) (f16 ?_)
  refine pre_eq (star_left_comm _ _ _) (f16 ?_)
  rw [show n % 65536 + 65536 * (n / 65536) = n by omega]
  rw [fact_true hn, emp_star] at h
  refine pre_eq ?_ h
  rw [star_assoc, star_left_comm]
theorem cstr {p : Nat} {s : Bytes} {k : Bytes → Rd γ} (h : p ≠ 0 → Sees (strAt p s ∗ F) (k s) v) : Sees (strAt p s ∗ F) (Rd.cstr p k) v := by
  intro m S hS hlt
  have hp := strAt_lt hS
  have h' := h (by omega) m S hS hlt
  obtain ⟨S1, S2, k1, k2, k3, k4⟩ := hS
  show k (readStr m p) m = v
  rw [k3.1.2.2]
  exact h'
theorem str_ne {p : Nat} {s : Bytes} (h : p ≠ 0 → Sees (strAt p s ∗ F) f v) : Sees (strAt p s ∗ F) f v := by
  intro m S hS hlt
  have := strAt_lt hS
  exact h (by omega) m S hS hlt
end Sees

namespace Sim
variable {α β γ δ ν : Type} {A A' F : Asrt} {p : P α} {b : B β} {R R' : α → β → Asrt}

/-- a step on the byte layer only: read what is known -/
theorem look {f : Rd γ} {v : γ} {g : γ → B β} (hs : Sees A f (.ok v)) (k : Sim A p (g v) R) : Sim A p (B.look f >>= g) R := by
  intro c S hf hA hS
  have : (B.look f >>= g) c = g v c := by
    have h1 := hs _ _ hA (fun i hi => by have := hS i hi; have := hf.1; have := hf.2.2.1; omega)
    show B.bind (B.look f) g c = _
    unfold B.bind B.look
    rw [h1]
  rw [this]
  exact k c S hf hA hS

/-- both layers evaluate the same function -/
theorem lookO {f : Rd γ} {v : Out γ} (hs : Sees A f v) : Sim A (P.ofOut v) (B.look f) (fun x y => fact (y = x) ∗ A) := by
  intro c S hf hA hS
  have h1 := hs _ _ hA (fun i hi => by have := hS i hi; have := hf.1; have := hf.2.2.1; omega)
  unfold SimOut P.ofOut B.look
  rw [h1]
  rcases v with x | _ | _ <;> dsimp only
  exact ⟨x, c, rfl, rfl, HeapMoved.refl S hf, S, fact_star_holds.2 ⟨rfl, hA⟩, fun i hi => .inl hi, hS⟩

theorem get32 {a n : Nat} {g : Nat → B β} (k : Sim (u32At a n ∗ F) p (g n) R) : Sim (u32At a n ∗ F) p (B.look (Rd.u32 a Rd.ret) >>= g) R :=
  look (Sees.f32 (Sees.ret _)) k

/-- the loop to the last element of a list, and the new one behind it -/
theorem append_seg {nd : Nat → ν → Asrt} {off a : Nat} {w : ν} (h8 : 8 ≤ a) (ha : a < 65536) {g : Unit → B β} : ∀ (vs : List ν) (v : ν) (q n : Nat) (F : Asrt), vs.length < n →
    Sim (listAt nd off q (v :: vs ++ [w]) ∗ F) p (g ()) R → Sim (listAt nd off q (v :: vs) ∗ ((nd a w ∗ u16At (a + off) 0) ∗ F)) p (B.append off a n q >>= g) R
  | [], v, q, n + 1, F, _, k => by
    unfold B.append
    refine ex_elim_star (fun r => ?_)
    refine pre_eq (A := fact (8 ≤ q ∧ q < 65536) ∗ (fact (r = 0) ∗ (u16At (q + off) r ∗ (nd q v ∗ ((nd a w ∗ u16At (a + off) 0) ∗ F))))) (by unfold seg; ac_rfl) (fact_elim (fun hq => fact_elim (fun hr => ?_)))
    refine ofB (b' := B.get16 (q + off) >>= fun r => (if r = 0 then (do B.put16 (q + off) a; pure ()) else B.append off a n r) >>= g) (fun c => rfl) (get16 ?_)
    rw [if_pos hr]
    refine ofB (b' := B.put16 (q + off) a >>= fun _ => g ()) (fun c => rfl) (put16 ha (pre k ?_))
    show _ ⊢ₘ seg nd off q ([v] ++ [w]) 0 ∗ F
    refine Ent.pre_eq (A' := ((nd q v ∗ u16At (q + off) a) ∗ (nd a w ∗ u16At (a + off) 0)) ∗ F) (by ac_rfl) (Ent.frame F ?_)
    refine Ent.trans (Ent.frame _ ?_) (seg_snoc nd off w a 0 ⟨h8, ha⟩ [v] q)
    exact Ent.ex a (Ent.fact hq (Ent.framel _ (Ent.post_eq (by unfold seg; rw [fact_true rfl, star_emp]) (Ent.refl _))))
  | x :: vs, v, q, n + 1, F, hn, k => by
    unfold B.append
    refine ex_elim_star (fun r => ?_)
    refine pre_eq (A := fact (8 ≤ q ∧ q < 65536) ∗ (u16At (q + off) r ∗ (listAt nd off r (x :: vs) ∗ (nd q v ∗ ((nd a w ∗ u16At (a + off) 0) ∗ F))))) (by unfold listAt; ac_rfl) (fact_elim (fun hq => ?_))
    refine ofB (b' := B.get16 (q + off) >>= fun r => (if r = 0 then (do B.put16 (q + off) a; pure ()) else B.append off a n r) >>= g) (fun c => rfl) (get16 ?_)
    refine know (φ := 8 ≤ r) (fun m S h => ?_) (fun hr => ?_)
    · obtain ⟨_, _, _, _, _, _, _, _, _, h, _⟩ := h
      obtain ⟨_, h⟩ := h
      exact (fact_star_holds.1 h).1.1
    rw [if_neg (by omega)]
    refine pre_eq (A := listAt nd off r (x :: vs) ∗ ((nd a w ∗ u16At (a + off) 0) ∗ ((u16At (q + off) r ∗ nd q v) ∗ F))) (by ac_rfl) ?_
    refine append_seg h8 ha vs x r n _ (by simpa using hn) (pre k ?_)
    refine Ent.pre_eq (A' := (nd q v ∗ (u16At (q + off) r ∗ listAt nd off r (x :: vs ++ [w]))) ∗ F) (by ac_rfl) (Ent.frame F ?_)
    exact Ent.ex r (Ent.fact hq (Ent.refl _))

theorem append {nd : Nat → ν → Asrt} {off a q : Nat} {v w : ν} {vs : List ν} (h8 : 8 ≤ a) (ha : a < 65536) {g : Unit → B β}
    (k : Sim (listAt nd off q (v :: vs ++ [w]) ∗ F) p (g ()) R) : Sim (listAt nd off q (v :: vs) ∗ ((nd a w ∗ u16At (a + off) 0) ∗ F)) p (B.append off a 32768 q >>= g) R := by
  intro c S hf hA hS
  refine append_seg h8 ha vs v q 32768 F ?_ k c S hf hA hS
  obtain ⟨S1, S2, k1, k2, k3, k4⟩ := hA
  have h1 := seg_length nd off 0 c.a.mem 32768 (v :: vs) q S1 k3 (fun i hi => by have := hS i ((k1 i).2 (.inl hi)); have := hf.1; have := hf.2.2.1; omega)
  have h2 := cnt_le S1 32768
  rw [List.length_cons] at h1
  omega
end Sim
end Sip
