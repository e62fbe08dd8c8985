import Verif.Lemmas.SimMem
import Verif.Model.HeapUri
/-! # Linked lists and arrays of pointers in the arena -/
namespace Sip
attribute [local irreducible] u32 u16 roundToAlign
open Asrt

namespace Asrt
variable {α : Type}

theorem star_ex {ι : Type} (A : Asrt) (f : ι → Asrt) : A ∗ ex f = ex (fun x => A ∗ f x) := by
  rw [star_comm, ex_star]; congr 1; funext x; rw [star_comm]
theorem Ent.ex_elim_star {ι : Type} {f : ι → Asrt} {A B : Asrt} (h : ∀ x, f x ∗ A ⊢ₘ B) : Asrt.ex f ∗ A ⊢ₘ B := by
  rw [ex_star]; exact Ent.ex_elim h
theorem Ent.pre_eq {A A' B : Asrt} (h : A = A') (k : A' ⊢ₘ B) : A ⊢ₘ B := h ▸ k
theorem Ent.post_eq {A B B' : Asrt} (h : B' = B) (k : A ⊢ₘ B) : A ⊢ₘ B' := h ▸ k
/-- drop the left part -/
theorem Ent.dropl (A B : Asrt) : A ∗ B ⊢ₘ B := Ent.pre_eq (star_comm A B) (Ent.drop B A)
theorem Ent.fact' {φ : Prop} {A : Asrt} (hφ : φ) : A ⊢ₘ Asrt.fact φ ∗ A := Ent.fact hφ (Ent.refl A)

/-- the elements `vs` of a list: the first one at `p`, the pointer behind the last one is `q`; `nd a v` says that the element at `a` is `v`, `off` is the offset of
the field `next` -/
def seg (nd : Nat → α → Asrt) (off : Nat) : Nat → List α → Nat → Asrt
  | p, [], q => fact (p = q)
  | p, v :: r, q => ex fun n => fact (8 ≤ p ∧ p < 65536) ∗ (nd p v ∗ (u16At (p + off) n ∗ seg nd off n r q))

/-- a linked list -/
def listAt (nd : Nat → α → Asrt) (off p : Nat) (vs : List α) : Asrt := seg nd off p vs 0

theorem seg_snoc (nd : Nat → α → Asrt) (off : Nat) (w : α) (q n : Nat) (h8 : 8 ≤ q ∧ q < 65536) :
    ∀ (ws : List α) (p : Nat), seg nd off p ws q ∗ (nd q w ∗ u16At (q + off) n) ⊢ₘ seg nd off p (ws ++ [w]) n
  | [], p => by
    refine Ent.fact_elim (fun h => ?_)
    subst h
    refine Ent.ex n (Ent.fact h8 ?_)
    refine Ent.framel _ ?_
    exact Ent.post_eq (by rw [seg, fact_true rfl, star_emp]) (Ent.refl _)
  | v :: r, p => by
    refine Ent.ex_elim_star (fun m => ?_)
    refine Ent.ex m ?_
    refine Ent.pre_eq (A' := fact (8 ≤ p ∧ p < 65536) ∗ (nd p v ∗ (u16At (p + off) m ∗ (seg nd off m r q ∗ (nd q w ∗ u16At (q + off) n))))) (by ac_rfl) ?_
    exact Ent.framel _ (Ent.framel _ (Ent.framel _ (seg_snoc nd off w q n h8 r m)))

theorem listAt_lt {nd : Nat → α → Asrt} {off p : Nat} {vs : List α} {m S} (h : (listAt nd off p vs).holds m S) : p < 65536 := by
  unfold listAt at h
  cases vs with
  | nil => have : p = 0 := h.1; omega
  | cons v r =>
    obtain ⟨n, h⟩ := h
    exact (fact_star_holds.1 h).1.2

/-- a list under construction: `first` and `prev` are the local variables of the loop -/
def openList (nd : Nat → α → Asrt) (off first prev : Nat) (vs : List α) : Asrt :=
  if prev = 0 then fact (vs = [] ∧ first = 0)
  else ex fun ws => ex fun w => fact (vs = ws ++ [w] ∧ 8 ≤ prev ∧ prev < 65536) ∗ (seg nd off first ws prev ∗ (nd prev w ∗ u16At (prev + off) 0))

theorem openList_nil (nd : Nat → α → Asrt) (off : Nat) : openList nd off 0 0 [] = emp := by
  unfold openList; rw [if_pos rfl, fact_true ⟨rfl, rfl⟩]

theorem openList_close (nd : Nat → α → Asrt) (off first prev : Nat) (vs : List α) : openList nd off first prev vs ⊢ₘ listAt nd off first vs := by
  unfold openList
  split
  · refine Ent.pre_eq (star_emp _).symm (Ent.fact_elim ?_)
    rintro ⟨rfl, rfl⟩
    exact Ent.post_eq (show listAt nd off 0 [] = emp by unfold listAt seg; rw [fact_true rfl]) (Ent.refl _)
  · refine Ent.ex_elim (fun ws => Ent.ex_elim (fun w => Ent.fact_elim ?_))
    rintro ⟨rfl, h8⟩
    exact seg_snoc nd off w prev 0 h8 ws first

/-- a pointer that may be nil, and what it points to -/
def optNode (nd : Nat → α → Asrt) (q : Nat) : Option α → Asrt
  | none => fact (q = 0)
  | some v => fact (8 ≤ q) ∗ nd q v
/-- a field with such a pointer -/
def slot (nd : Nat → α → Asrt) (a : Nat) (o : Option α) : Asrt := ex fun q => u16At a q ∗ optNode nd q o

/-- an array of such pointers -/
def slots (nd : Nat → α → Asrt) : Nat → List (Option α) → Asrt
  | _, [] => emp
  | a, o :: r => slot nd a o ∗ slots nd (a + 2) r

theorem slots_set (nd : Nat → α → Asrt) : ∀ (vs : List (Option α)) (a i : Nat), i < vs.length →
    ∃ (o : Option α) (H : Asrt), slots nd a vs = slot nd (a + 2 * i) o ∗ H ∧ ∀ o', slots nd a (vs.set i o') = slot nd (a + 2 * i) o' ∗ H
  | o :: r, a, 0, _ => ⟨o, slots nd (a + 2) r, rfl, fun _ => rfl⟩
  | o :: r, a, i + 1, h => by
    obtain ⟨x, H, h1, h2⟩ := slots_set nd r (a + 2) i (by simpa using h)
    refine ⟨x, slot nd a o ∗ H, ?_, fun o' => ?_⟩
    · show slot nd a o ∗ slots nd (a + 2) r = _
      rw [h1, show a + 2 + 2 * i = a + 2 * (i + 1) by omega, star_left_comm]
    · show slot nd a o ∗ slots nd (a + 2) (r.set i o') = _
      rw [h2, show a + 2 + 2 * i = a + 2 * (i + 1) by omega, star_left_comm]

theorem slot_nil (nd : Nat → α → Asrt) (a : Nat) : u16At a 0 ⊢ₘ slot nd a none :=
  Ent.ex 0 (Ent.post_eq (by unfold optNode; rw [fact_true rfl, star_emp]) (Ent.refl _))

theorem slots_nil (nd : Nat → α → Asrt) : ∀ (n a : Nat), zeros a (2 * n) ⊢ₘ slots nd a (List.replicate n none)
  | 0, a => Ent.of_eq (bytes_nil a)
  | n + 1, a => by
    rw [show 2 * (n + 1) = 2 + 2 * n by omega, zeros_split, zeros_u16]
    exact Ent.star (slot_nil nd a) (slots_nil nd n (a + 2))

/-- the field `knownParams`: nil or a pointer to an array of `n` pointers -/
def knownAt (nd : Nat → α → Asrt) (n field : Nat) (known : List (Option α)) : Asrt :=
  ex fun q => u16At field q ∗ (if known = [] then fact (q = 0) else fact (8 ≤ q ∧ known.length = n) ∗ slots nd q known)

theorem knownAt_nil (nd : Nat → α → Asrt) (n field : Nat) : u16At field 0 ⊢ₘ knownAt nd n field [] :=
  Ent.ex 0 (Ent.post_eq (by rw [if_pos rfl, fact_true rfl, star_emp]) (Ent.refl _))
end Asrt

namespace Sim
variable {α β γ δ ν : Type} {A A' F : Asrt} {p : P α} {b : B β} {R R' : α → β → Asrt}

theorem u16_lt {a n : Nat} (h : n < 65536 → Sim (u16At a n ∗ F) p b R) : Sim (u16At a n ∗ F) p b R :=
  know (fun m S hh => by obtain ⟨_, _, _, _, h, _⟩ := hh; exact (u16At_holds.1 h).1) h
theorem str_lt {x : Nat} {v : Bytes} (h : 10 ≤ x → x < 65536 → Sim (strAt x v ∗ F) p b R) : Sim (strAt x v ∗ F) p b R :=
  know (φ := 10 ≤ x ∧ x < 65536) (fun m S hh => by have := strAt_lt hh; omega) (fun hh => h hh.1 hh.2)
theorem list_lt {nd : Nat → ν → Asrt} {off x : Nat} {vs : List ν} (h : x < 65536 → Sim (listAt nd off x vs ∗ F) p b R) : Sim (listAt nd off x vs ∗ F) p b R :=
  know (fun m S hh => by obtain ⟨_, _, _, _, hh, _⟩ := hh; exact listAt_lt hh) h
theorem ex_elim_star {ι : Type} {f : ι → Asrt} (h : ∀ i, Sim (f i ∗ F) p b R) : Sim (Asrt.ex f ∗ F) p b R := by
  rw [ex_star]; exact ex_elim h

/-- a step on the byte layer only -/
theorem link {nd : Nat → ν → Asrt} {off first prev a : Nat} {vs : List ν} {v : ν} {g : Nat × Nat → B β} (h8 : 8 ≤ a) (ha : a < 65536)
    (k : ∀ first' prev', Sim (openList nd off first' prev' (vs ++ [v]) ∗ F) p (g (first', prev')) R) :
    Sim (openList nd off first prev vs ∗ (nd a v ∗ (u16At (a + off) 0 ∗ F))) p (B.link off first prev a >>= g) R := by
  unfold B.link
  by_cases hp : prev = 0
  · rw [if_neg (by omega)]
    unfold openList
    rw [if_pos hp]
    refine fact_elim ?_
    rintro ⟨rfl, rfl⟩
    refine pre (k a a) ?_
    unfold openList
    rw [if_neg (by omega)]
    refine Ent.pre_eq (A' := (nd a v ∗ u16At (a + off) 0) ∗ F) (by ac_rfl) (Ent.frame F ?_)
    refine Ent.ex [] (Ent.ex v (Ent.fact ⟨rfl, h8, ha⟩ ?_))
    exact Ent.fact rfl (Ent.refl _)
  · rw [if_pos hp]
    unfold openList
    rw [if_neg hp]
    refine ex_elim_star (fun ws => ex_elim_star (fun w => ?_))
    rw [star_assoc]
    refine fact_elim ?_
    rintro ⟨rfl, h8'⟩
    show Sim _ p (B.put16 (prev + off) a >>= fun _ => g (first, a)) R
    refine pre_eq (A := u16At (prev + off) 0 ∗ (seg nd off first ws prev ∗ (nd prev w ∗ (nd a v ∗ (u16At (a + off) 0 ∗ F))))) (by ac_rfl) ?_
    refine put16 ha ?_
    refine pre (k first a) ?_
    unfold openList
    rw [if_neg (by omega)]
    refine Ent.pre_eq (A' := ((seg nd off first ws prev ∗ (nd prev w ∗ u16At (prev + off) a)) ∗ (nd a v ∗ u16At (a + off) 0)) ∗ F) (by ac_rfl) (Ent.frame F ?_)
    refine Ent.ex (ws ++ [w]) (Ent.ex v (Ent.fact ⟨rfl, h8, ha⟩ ?_))
    exact Ent.frame _ (seg_snoc nd off w prev a h8' ws first)

/-- what `SetKnownParams` does: `K` describes the object, `N` the parameter that is handed over -/
def Took {κ : Type} (K : κ → Asrt) (k : κ) (N : Asrt) : Option κ → Bool → Asrt
  | some k', true => K k'
  | none, false => K k ∗ N
  | _, _ => fact False

theorem setKnown {nd : Nat → ν → Asrt} {names : List Bytes} {on : Flags → Bool} {field n a : Nat} {known : List (Option ν)} {nm : Bytes} {v : ν} {rest : Asrt}
    (hnl : names.length < 65536) (h8 : 8 ≤ a) (ha : a < 65536) (hnd : strAt n nm ∗ rest ⊢ₘ nd a v) :
    Sim (knownAt nd names.length field known ∗ (strAt n nm ∗ rest)) (P.get >>= fun c => Sip.setKnown names (on c.flags) known nm v) (B.setKnown names on field n a)
      (Took (knownAt nd names.length field) known (strAt n nm ∗ rest)) := by
  unfold B.setKnown
  refine dry (by intro c r d h; cases h; exact ⟨rfl, rfl, rfl, rfl⟩) (fun c => ?_)
  unfold Sip.setKnown
  refine ite (fun _ => ?_) (fun _ => ?_)
  · exact ret (Ent.refl _)
  refine pre_eq (A := strAt n nm ∗ (knownAt nd names.length field known ∗ rest)) (by ac_rfl) (getStr ?_)
  rcases hi : knownIndex names nm with _ | i <;> dsimp only
  · exact ret' (show _ = knownAt nd names.length field known ∗ (strAt n nm ∗ rest) by ac_rfl)
  have hil : i < names.length := by
    unfold knownIndex at hi
    rw [List.findIdx?_eq_some_iff_getElem] at hi
    exact hi.1
  refine pre_eq (A := knownAt nd names.length field known ∗ (strAt n nm ∗ rest)) (by ac_rfl) ?_
  refine ex_elim_star (fun q => ?_)
  refine pre_eq (star_assoc _ _ _) (get16 ?_)
  -- the write into the array
  have hw : ∀ (k : Nat) (vs : List (Option ν)), 8 ≤ k → vs.length = names.length →
      Sim (u16At field k ∗ (slots nd k vs ∗ (strAt n nm ∗ rest))) (pure (some (vs.set i (some v)))) (B.put16 (k + 2 * i) a >>= fun _ => pure true)
        (Took (knownAt nd names.length field) known (strAt n nm ∗ rest)) := by
    intro k vs hk hvs
    obtain ⟨o, H, e1, e2⟩ := slots_set nd vs k i (by omega)
    rw [e1]
    refine pre_eq (A := slot nd (k + 2 * i) o ∗ (H ∗ (u16At field k ∗ (strAt n nm ∗ rest)))) (by ac_rfl) ?_
    refine ex_elim_star (fun x => pre_eq (star_assoc _ _ _) (put16 ha ?_))
    refine ret ?_
    show _ ⊢ₘ knownAt nd names.length field (vs.set i (some v))
    refine Ent.ex k ?_
    rw [if_neg (by intro h; rw [List.set_eq_nil_iff] at h; subst h; simp at hvs; omega), fact_true ⟨hk, by simp [hvs]⟩, emp_star, e2]
    refine Ent.pre_eq (A' := (u16At field k ∗ (u16At (k + 2 * i) a ∗ ((strAt n nm ∗ rest) ∗ H))) ∗ optNode nd x o) (by ac_rfl) (Ent.trans (Ent.drop _ _) ?_)
    refine Ent.framel _ ?_
    refine Ent.trans ?_ (Ent.frame H (Ent.ex a (Ent.refl _)))
    refine Ent.post_eq (star_assoc _ _ _) ?_
    refine Ent.framel _ (Ent.frame H ?_)
    exact Ent.fact h8 hnd
  by_cases hk : known = []
  · rw [if_pos hk, if_pos hk]
    refine pre_eq (star_left_comm _ _ _) (fact_elim (fun hq => ?_))
    rw [if_pos hq]
    refine seq0 (allocMust (by omega) (by omega)) (fun _ k => ?_)
    refine pre_eq (star_assoc _ _ _) (fact_elim (fun hk8 => ?_))
    refine pre_eq (star_left_comm _ _ _) (put16 (by omega) ?_)
    refine pre (hw k (List.replicate names.length none) hk8.1 (by simp)) ?_
    refine Ent.framel _ (Ent.frame _ ?_)
    exact slots_nil nd _ k
  · rw [if_neg hk, if_neg hk]
    refine pre_eq (A := fact (8 ≤ q ∧ known.length = names.length) ∗ (u16At field q ∗ (slots nd q known ∗ (strAt n nm ∗ rest)))) (by ac_rfl) (fact_elim (fun hq => ?_))
    rw [if_neg (by omega)]
    exact hw q known hq.1 hq.2
end Sim
end Sip
