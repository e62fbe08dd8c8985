import Verif.Model.Uri
import Verif.Props.Host
/-! # Known parameters: what `SetKnownParams` does along a list of parameters -/
namespace Sip

/-- the result of a parser call without the context (to evaluate concrete cases) -/
def resultOf {α : Type} : Out (Option α × Ctx) → Option (Option α)
  | .ok (r, _) => some r
  | _ => none

theorem resultOf_ok {α : Type} {o : Out (Option α × Ctx)} {r : Option α} (h : resultOf o = some r) : ∃ c', o = .ok (r, c') := by
  match o, h with
  | .ok (r', c'), h => simp only [resultOf, Option.some.injEq] at h; subst h; exact ⟨c', rfl⟩

/-- the state after one parameter, given the answer of `SetKnownParams` -/
def kstep {κ α : Type} (s : κ × List α) (p : α) (r : Option κ) : κ × List α :=
  match r with
  | some k' => (k', s.2)
  | none => (s.1, s.2 ++ [p])

/-- `SetKnownParams` along a list of parameters: the state before, the parameters, the state afterwards, the memory used -/
inductive SetRun {κ α : Type} (fl : Flags) (setK : κ → α → P (Option κ)) : κ × List α → List α → κ × List α → Nat → Prop
  | nil (s) : SetRun fl setK s [] s 0
  | cons {s p ps s' r n n'} (h : Parses fl (setK s.1 p) [] r n AnyText) (h' : SetRun fl setK (kstep s p r) ps s' n') :
      SetRun fl setK s (p :: ps) s' (n + n')

theorem SetRun.append {κ α : Type} {fl : Flags} {setK : κ → α → P (Option κ)} {s1 s2 s3 : κ × List α} {ps qs : List α} {n m : Nat}
    (h1 : SetRun fl setK s1 ps s2 n) (h2 : SetRun fl setK s2 qs s3 m) : SetRun fl setK s1 (ps ++ qs) s3 (n + m) := by
  induction h1 with
  | nil s => simpa using h2
  | cons h h' ih => have := SetRun.cons h (ih h2); rw [Nat.add_assoc]; exact this

/-- parameters that are not known ones are kept in order -/
theorem SetRun.unknown {κ α : Type} {fl : Flags} {setK : κ → α → P (Option κ)} {k : κ} {acc ps : List α}
    (h : ∀ p ∈ ps, Parses fl (setK k p) [] none 0 AnyText) : SetRun fl setK (k, acc) ps (k, acc ++ ps) 0 := by
  induction ps generalizing acc with
  | nil => simpa using SetRun.nil (fl := fl) (setK := setK) (k, acc)
  | cons p ps ih =>
    have h1 := h p (by simp)
    have h2 := ih (acc := acc ++ [p]) (fun q hq => h q (by simp [hq]))
    have := SetRun.cons (s := (k, acc)) h1 h2
    simpa using this

theorem Parses.allocMust {fl : Flags} {F : Bytes → Prop} (k : Nat) : Parses fl (P.allocMust k) [] () k F := by
  intro c y h1 h2 h3 h4 h5
  rw [P.allocMust, alloc_ok c k (by omega)]; rfl

theorem SafeAt.allocMust {q : Nat} {l : Bool} {m n : Nat} {c : Ctx} (hc : Inv c) : SafeAt q l m n (fun _ => True) (P.allocMust n) c := by
  by_cases h : c.used + n ≤ c.cap
  · refine of_ok (v := ()) (c' := { c with used := c.used + n }) (by rw [P.allocMust, alloc_ok c n h]) ?_ trivial (Line.refl c) (by simp)
    exact ⟨rfl, rfl, rfl, Nat.le_refl _, hc.pos, by simp, by simp only; omega, ErrsIn.refl⟩
  · refine .of_panic (by rw [P.allocMust, alloc_no c n h]) (fun _ hr => ?_)
    unfold Room at hr; omega

/-- `SetKnownParams` with the flag off knows nothing -/
theorem setKnown_off {α : Type} {fl : Flags} {F : Bytes → Prop} (names : List Bytes) (known : List (Option α)) (name : Bytes) (p : α) :
    Parses fl (setKnown names false known name p) [] none 0 F := fun _ _ _ _ _ _ _ => rfl
theorem setKnown_none {α : Type} {fl : Flags} {F : Bytes → Prop} (names : List Bytes) (on : Bool) (known : List (Option α)) (name : Bytes) (p : α)
    (h : on = true → knownIndex names name = none) : Parses fl (setKnown names on known name p) [] none 0 F := by
  intro c y _ _ _ _ _
  cases on with
  | false => rfl
  | true => unfold setKnown; rw [h rfl]; rfl
theorem setKnown_first {α : Type} {fl : Flags} {F : Bytes → Prop} (names : List Bytes) (name : Bytes) (p : α) (i : Nat)
    (h : knownIndex names name = some i) :
    Parses fl (setKnown names true [] name p) [] (some ((List.replicate names.length none).set i (some p))) (2 * names.length) F := by
  unfold setKnown; rw [h]
  simp only [Bool.not_true, Bool.false_eq_true, if_false, if_true]
  exact Parses.bind' (F := AnyText) (Parses.allocMust _) (Parses.pure _) (fun _ _ => trivial) rfl (by omega)
theorem setKnown_next {α : Type} {fl : Flags} {F : Bytes → Prop} (names : List Bytes) (known : List (Option α)) (name : Bytes) (p : α) (i : Nat)
    (h : knownIndex names name = some i) (hk : known ≠ []) :
    Parses fl (setKnown names true known name p) [] (some (known.set i (some p))) 0 F := by
  intro c y _ _ _ _ hu
  unfold setKnown; rw [h]
  simp only [Bool.not_true, Bool.false_eq_true, if_false]
  rw [if_neg hk]; rfl

/-- the known parameters that are there, under their names -/
def knownList {α : Type} (rename : Bytes → α → α) (names : List Bytes) (known : List (Option α)) : List α :=
  (names.zip known).filterMap fun x => x.2.map (rename x.1)
/-- the known parameters with their canonical names -/
def canonKnown {α : Type} (rename : Bytes → α → α) (names : List Bytes) (known : List (Option α)) : List (Option α) :=
  List.zipWith (fun n (p : Option α) => p.map (rename n)) names known

/-- the values the array of known parameters can have: nil, or one entry per name, at least one of them set -/
def KnownShape {α : Type} (names : List Bytes) (known : List (Option α)) : Prop :=
  known = [] ∨ (known.length = names.length ∧ ∃ p ∈ known, p ≠ none)

/-- memory of the array -/
def knownCost {α : Type} (names : List Bytes) (known : List (Option α)) : Nat := if known = [] then 0 else 2 * names.length

/-- the names are different from each other (ignoring case), none is empty -/
def NamesOk (names : List Bytes) : Prop := ∀ i : Fin names.length, knownIndex names names[i] = some i.val

theorem canonKnown_length {α : Type} (rename : Bytes → α → α) (names : List Bytes) (known : List (Option α)) (h : known.length = names.length) :
    (canonKnown rename names known).length = names.length := by simp [canonKnown, h]

theorem setRun_known {α κ : Type} {fl : Flags} (names : List Bytes) (hN : NamesOk names) (rename : Bytes → α → α) (nameOf : α → Bytes)
    (hren : ∀ n p, nameOf (rename n p) = n) (known : List (Option α)) (hk : KnownShape names known)
    (setK : κ → α → P (Option κ)) (put : List (Option α) → κ)
    (hset : ∀ k p r n, nameOf p ∈ names → Parses fl (setKnown names true k (nameOf p) p) [] (some r) n AnyText → Parses fl (setK (put k) p) [] (some (put r)) n AnyText)
    (acc : List α) :
    SetRun fl setK (put [], acc) (knownList rename names known) (put (canonKnown rename names known), acc) (knownCost names known) := by
  rcases hk with rfl | ⟨hlen, hsome⟩
  · simp [knownList, canonKnown, knownCost]; exact SetRun.nil _
  have hne : known ≠ [] := by intro e; subst e; simp at hsome
  rw [knownCost, if_neg hne]
  -- the state after the first `i` names
  let ck := canonKnown rename names known
  have hckl : ck.length = names.length := canonKnown_length rename names known hlen
  have key : ∀ j i, i + j = names.length →
      (∀ (st : List (Option α)), st.length = names.length → (∀ k < i, st[k]? = ck[k]?) → (∀ k, i ≤ k → k < names.length → st[k]? = some none) →
        SetRun fl setK (put st, acc) (knownList rename (names.drop i) (known.drop i)) (put ck, acc) 0) ∧
      ((∀ k < i, ck[k]? = some none) → (∃ k, i ≤ k ∧ k < names.length ∧ ck[k]? ≠ some none) →
        SetRun fl setK (put [], acc) (knownList rename (names.drop i) (known.drop i)) (put ck, acc) (2 * names.length)) := by
    intro j
    induction j with
    | zero =>
      intro i hi
      constructor
      · intro st hl h1 h2
        have : st = ck := by
          apply List.ext_getElem?
          intro k
          by_cases hk : k < i
          · exact h1 k hk
          · rw [List.getElem?_eq_none (by omega), List.getElem?_eq_none (by omega)]
        subst this
        rw [List.drop_eq_nil_of_le (by omega)]
        exact SetRun.nil _
      · rintro _ ⟨k, h1, h2, _⟩; omega
    | succ j ih =>
      intro i hi
      have hil : i < names.length := by omega
      have hikl : i < known.length := by omega
      obtain ⟨ih1, ih2⟩ := ih (i + 1) (by omega)
      have hcons : knownList rename (names.drop i) (known.drop i) =
          (match known[i] with | some p => [rename names[i] p] | none => []) ++ knownList rename (names.drop (i + 1)) (known.drop (i + 1)) := by
        rw [List.drop_eq_getElem_cons hil, List.drop_eq_getElem_cons hikl]
        unfold knownList
        rw [List.zip_cons_cons, List.filterMap_cons]
        cases known[i] <;> simp
      have hcki : ck[i]? = some (known[i].map (rename names[i])) := by
        simp only [ck, canonKnown, List.getElem?_zipWith, List.getElem?_eq_getElem hil, List.getElem?_eq_getElem hikl]
      have hidx : ∀ p, knownIndex names (nameOf (rename names[i] p)) = some i := fun p => by rw [hren]; exact hN ⟨i, hil⟩
      rw [hcons]
      cases hki : known[i] with
      | none =>
        rw [hki] at hcki
        simp only [List.nil_append]
        constructor
        · intro st hl h1 h2
          refine ih1 st hl (fun k hk => ?_) (fun k h3 h4 => h2 k (by omega) h4)
          rcases Nat.lt_succ_iff_lt_or_eq.1 hk with h | rfl
          · exact h1 k h
          · rw [h2 k (Nat.le_refl _) hil, hcki]; rfl
        · intro h1 ⟨k, h2, h3, h4⟩
          refine ih2 (fun k hk => ?_) ⟨k, ?_, h3, h4⟩
          · rcases Nat.lt_succ_iff_lt_or_eq.1 hk with h | rfl
            · exact h1 k h
            · exact hcki
          · rcases Nat.lt_or_eq_of_le h2 with h | rfl
            · exact h
            · exact absurd hcki h4
      | some p =>
        rw [hki] at hcki
        simp only [List.cons_append, List.nil_append]
        have hmem : nameOf (rename names[i] p) ∈ names := by rw [hren]; exact List.getElem_mem hil
        have hcont : ∀ st : List (Option α), st.length = names.length → (∀ k < i, st[k]? = ck[k]?) → (∀ k, i ≤ k → k < names.length → st[k]? = some none) →
            SetRun fl setK (put (st.set i (some (rename names[i] p))), acc) (knownList rename (names.drop (i + 1)) (known.drop (i + 1))) (put ck, acc) 0 := by
          intro st hl h1 h2
          refine ih1 _ (by simp [hl]) (fun k hk => ?_) (fun k h3 h4 => ?_)
          · rcases Nat.lt_succ_iff_lt_or_eq.1 hk with h | rfl
            · rw [List.getElem?_set_ne (by omega)]; exact h1 k h
            · rw [List.getElem?_set_self (by omega), hcki]; rfl
          · rw [List.getElem?_set_ne (by omega)]; exact h2 k (by omega) h4
        constructor
        · intro st hl h1 h2
          have hst : st ≠ [] := by intro e; subst e; simp at hl; omega
          have hp := hset st _ _ _ hmem (setKnown_next (fl := fl) names st _ (rename names[i] p) i (hidx p) hst)
          have := SetRun.cons (s := (put st, acc)) hp (hcont st hl h1 h2)
          simpa using this
        · intro h1 _
          have hp := hset [] _ _ _ hmem (setKnown_first (fl := fl) names _ (rename names[i] p) i (hidx p))
          have hc := hcont (List.replicate names.length none) (by simp) (fun k hk => by rw [h1 k hk, List.getElem?_replicate, if_pos (by omega)]) (fun k _ h4 => by simp [h4])
          have := SetRun.cons (s := (put [], acc)) hp hc
          simpa using this
  have h0 := (key names.length 0 (by omega)).2 (by omega)
  simp only [List.drop_zero] at h0
  apply h0
  obtain ⟨p, hp, hpn⟩ := hsome
  obtain ⟨k, hk, rfl⟩ := List.mem_iff_getElem.1 hp
  refine ⟨k, by omega, by omega, ?_⟩
  simp only [ck, canonKnown, List.getElem?_zipWith, List.getElem?_eq_getElem hk, List.getElem?_eq_getElem (show k < names.length by omega)]
  cases h : known[k] with
  | none => exact absurd h hpn
  | some q => simp

/-- what `SetKnownParams` keeps true, and its safety -/
theorem safe_setKnown {α : Type} {q : Nat} {m B : Nat} (names : List Bytes) (on : Bool) (known : List (Option α)) (name : Bytes) (p : α)
    (hsh : KnownShape names known) (hon : on = false → known = []) (hB : 2 * names.length ≤ B) (c : Ctx) (hc : Inv c) :
    SafeAt q true m B (fun r => match r with
      | none => on = true → knownIndex names name = none
      | some k' => on = true ∧ KnownShape names k' ∧ k' ≠ [] ∧ ∃ i, knownIndex names name = some i ∧ ∀ j, k'[j]? = if j = i then some (some p) else if known = [] then (if j < names.length then some none else none) else known[j]?)
      (setKnown names on known name p) c := by
  unfold setKnown
  cases on with
  | false => exact .pure hc (by simp)
  | true =>
    simp only [Bool.not_true, Bool.false_eq_true, if_false]
    cases hi : knownIndex names name with
    | none => exact .pure hc (by simp)
    | some i =>
      have hil : i < names.length := by
        unfold knownIndex at hi
        exact (List.findIdx?_eq_some_iff_findIdx_eq.1 hi).1
      simp only
      by_cases hk : known = []
      · rw [if_pos hk]
        refine SafeAt.seq (B2 := 0) (SafeAt.allocMust (q := q) (l := true) (m := m) hc) (fun _ c1 _ _ hc1 => .pure hc1 ?_)
        refine ⟨trivial, Or.inr ⟨by simp, some p, ?_, by simp⟩, ?_, i, rfl, fun j => ?_⟩
        · exact List.mem_iff_getElem.2 ⟨i, by simp [hil], by simp⟩
        · intro e; have := congrArg List.length e; rw [List.length_set, List.length_replicate, List.length_nil] at this; omega
        · by_cases hj : j = i
          · subst hj; simp [hil]
          · rw [if_neg hj, if_pos hk, List.getElem?_set_ne (fun e => hj e.symm), List.getElem?_replicate]
      · rw [if_neg hk]
        rcases hsh with h | ⟨hl, _⟩
        · exact absurd h hk
        refine .pure hc ?_
        refine ⟨trivial, Or.inr ⟨by simp [hl], some p, ?_, by simp⟩, ?_, i, rfl, fun j => ?_⟩
        · exact List.mem_iff_getElem.2 ⟨i, by simp [hl, hil], by simp⟩
        · intro e; have := congrArg List.length e; rw [List.length_set] at this; simp at this; exact hk this
        · by_cases hj : j = i
          · subst hj; simp [hl, hil]
          · rw [if_neg hj, if_neg hk, List.getElem?_set_ne (fun e => hj e.symm)]

end Sip
