import Verif.Props.HeapOps
import Verif.Props.Forget
/-! # C56: looking up a URI parameter by its name, on the bytes of the arena -/
namespace Sip
attribute [local irreducible] u32 u16 roundToAlign
open Asrt

/-- a parameter with the name `n` up to letter case -/
def ParamNamed (n : Bytes) (p : UriParam) : Prop := p.name.map asciiLower = n.map asciiLower

/-- **C56** in a list of parameters the first one with the name is found, whatever the case of its letters, or none exactly when there is no such parameter -/
theorem uriParamByName_exact (ps : List UriParam) (n : Bytes) :
    (∀ p, getUriParamByName ps n = some p ↔ IsFirst (ParamNamed n) ps p) ∧ (getUriParamByName ps n = none ↔ ∀ p ∈ ps, ¬ ParamNamed n p) :=
  find_first _ _ (fun p => by show strEqNoCase (some p.name) n = true ↔ _; rw [strEqNoCase_iff]; rfl) ps

/-- what a search must give: nil, or the address of the parameter -/
def FoundParam (r : Option UriParam) (m : Mem) (S : Nat → Prop) (x : Nat) : Prop :=
  match r with
  | none => x = 0
  | some p => 8 ≤ x ∧ ∃ T, (uriParamAt x p).holds m T ∧ ∀ j, T j → S j

theorem FoundParam.mono {r : Option UriParam} {m : Mem} {S T : Nat → Prop} {x : Nat} (h : FoundParam r m S x) (hs : ∀ j, S j → T j) : FoundParam r m T x := by
  unfold FoundParam at h ⊢
  rcases r with _ | r <;> dsimp only at h ⊢
  · exact h
  · obtain ⟨h1, U, h2, h3⟩ := h
    exact ⟨h1, U, h2, fun j hj => hs j (h3 j hj)⟩

theorem paramList_cons {r : UriParam} {hs : List UriParam} {q : Nat} {m : Mem} {S : Nat → Prop} (h : (listAt uriParamAt 4 q (r :: hs)).holds m S) (hlt : ∀ i, S i → i < 32768) :
    8 ≤ q ∧ ∃ q' T U, (uriParamAt q r).holds m T ∧ (listAt uriParamAt 4 q' hs).holds m U ∧ (∀ j, T j → S j) ∧ (∀ j, U j → S j) ∧
      (∀ γ (g : Nat → Rd γ), Rd.u16 (q + 4) g m = g q' m) := by
  obtain ⟨q', h⟩ := h
  obtain ⟨h8, h⟩ := fact_star_holds.1 h
  obtain ⟨T, V, e1, e2, h1, h⟩ := h
  have hV : ∀ j, V j → j < 32768 := fun j hj => hlt j ((e1 j).2 (.inr hj))
  refine ⟨h8.1, q', T, ?_⟩
  have hr := fun γ (g : Nat → Rd γ) => read16 h hV g
  obtain ⟨W, U, f1, f2, _, h⟩ := h
  exact ⟨U, h1, h, fun j hj => (e1 j).2 (.inl hj), fun j hj => (e1 j).2 (.inr ((f1 j).2 (.inr hj))), hr⟩

theorem paramAt_name {q : Nat} {r : UriParam} {m : Mem} {T : Nat → Prop} (h : (uriParamAt q r).holds m T) (hlt : ∀ i, T i → i < 32768) {name : Bytes} (hn : name = [] → r.name ≠ []) :
    ∃ p, (∀ γ (g : Nat → Rd γ), Rd.u16 q g m = g p m) ∧ bEqNoCase m p name = .ok (strEqNoCase (some r.name) name) := by
  unfold uriParamAt strField at h
  rw [ex_star] at h
  obtain ⟨p, h⟩ := h
  dsimp only at h
  rw [star_assoc] at h
  refine ⟨p, fun γ g => read16 h hlt g, ?_⟩
  obtain ⟨_, _, _, _, _, h⟩ := h
  obtain ⟨_, _, _, _, h, _⟩ := h
  have hs : readStr m p = r.name := h.1.2.2
  have hp := h.1.1
  have := eqNoCase_exact m p name (by omega)
  rw [if_neg (fun e => hn e.1 (hs ▸ e.2)), hs] at this
  obtain ⟨b, e1, e2⟩ := this
  rw [e1]
  congr 1
  exact Bool.eq_iff_iff.2 (e2.trans (strEqNoCase_iff r.name name).symm)

theorem uriParamByName_finds (name : Bytes) : ∀ (hs : List UriParam) (n q : Nat) (m : Mem) (S : Nat → Prop), (∀ p ∈ hs, name = [] → p.name ≠ []) → hs.length < n →
    (listAt uriParamAt 4 q hs).holds m S → (∀ i, S i → i < 32768) → ∃ x, Rd.uriParamByName name n q m = .ok x ∧ FoundParam (getUriParamByName hs name) m S x
  | [], n + 1, q, m, S, _, _, h, _ => by
    obtain ⟨h1, _⟩ := h
    refine ⟨0, ?_, rfl⟩
    unfold Rd.uriParamByName
    rw [if_pos h1]
    rfl
  | r :: hs, n + 1, q, m, S, hne, hn, h, hlt => by
    obtain ⟨h8, q', T, U, h1, h2, h3, h4, h5⟩ := paramList_cons h hlt
    obtain ⟨x, hx1, hx2⟩ := uriParamByName_finds name hs n q' m U (fun p hp => hne p (List.mem_cons_of_mem _ hp)) (by simpa using hn) h2 (fun j hj => hlt j (h4 j hj))
    obtain ⟨p, p1, p2⟩ := paramAt_name h1 (fun j hj => hlt j (h3 j hj)) (hne r List.mem_cons_self)
    unfold Rd.uriParamByName getUriParamByName
    rw [if_neg (by omega), p1]
    unfold Rd.andThen
    dsimp only
    rw [p2]
    dsimp only
    by_cases hi : strEqNoCase (some r.name) name = true
    · rw [if_pos hi, List.find?_cons_of_pos (by simpa using hi)]
      exact ⟨q, rfl, h8, T, h1, h3⟩
    · rw [if_neg hi, h5, hx1, List.find?_cons_of_neg (by simpa using hi)]
      exact ⟨x, rfl, hx2.mono h4⟩

theorem paramList_short {q : Nat} {hs : List UriParam} {m : Mem} {S : Nat → Prop} (h : (listAt uriParamAt 4 q hs).holds m S) (hlt : ∀ i, S i → i < 32768) : hs.length < 32769 := by
  have h1 := seg_length uriParamAt 4 0 m 32768 hs q S h hlt
  have h2 := cnt_le S 32768
  omega

/-- **C56** `ParseUriParams` and then, at any later time, `GetUriParamByName`: as long as the bytes below the memory mark of the end of the parse are not written, the search comes to an end without
panic, gives nil exactly when none of the parameters of the text has the name, and otherwise the address of the first one that has it: `Encode` and `EncodeValue` write that parameter there.  (An
empty name: when no parameter has one.) -/
theorem uriParam_lookup_in_memory (cs : CharsetInfo) (c : BCtx) (hf : Fine c) (ps : List UriParam) (d : Ctx) (h : parseUriParams cs (fun (_ : Unit) _ => pure none) () c.abs = .ok (some ((), ps), d)) :
    ∃ q c', B.uriParams cs (fun _ _ => pure false) c = .ok (some q, c') ∧ c'.abs = d ∧
      ∀ (m : Mem) (name : Bytes), (∀ i, i < c'.a.used → m i = c'.a.mem i) → (name = [] → ∀ p ∈ ps, p.name ≠ []) →
        ∃ x, Rd.uriParamByName name 32769 q m = .ok x ∧
          match getUriParamByName ps name with
          | none => x = 0
          | some p => x ≠ 0 ∧ ∀ fl cs, E.uriParam fl cs x m = .ok (p.encode fl cs) ∧ E.uriParamValue fl cs x m = .ok (p.encodeValue fl cs) := by
  have h1 := (Sim.post (sim_uriParams cs (fun _ => emp) (fun (_ : Unit) _ => pure none) (fun _ _ => pure false) (fun k v n a X _ _ _ => Sim.ret (Ent.refl _)) ()) (fun v x => Ent.of_eq (emp_star _)))
    c (fun _ => False) hf ⟨trivial, fun i hi => hi⟩ (fun i hi => hi.elim)
  unfold SimOut at h1
  rw [h] at h1
  dsimp only at h1
  obtain ⟨q, c', j1, j2, j3, S', j4, j5, j6⟩ := h1
  refine ⟨q, c', j1, j2, fun m name hm hne => ?_⟩
  have hf' := j3.fine hf
  have hlt : ∀ i, S' i → i < 32768 := fun i hi => by have := j6 i hi; have := hf'.1; have := hf'.2.2.1; omega
  have hL : (listAt uriParamAt 4 q ps).holds m S' := (listAt uriParamAt 4 q ps).loc j4 (fun i hi => hm i (j6 i hi))
  obtain ⟨x, x1, x2⟩ := uriParamByName_finds name ps 32769 q m S' (fun p hp e => hne e p hp) (paramList_short hL hlt) hL hlt
  refine ⟨x, x1, ?_⟩
  unfold FoundParam at x2
  rcases hg : getUriParamByName ps name with _ | p <;> rw [hg] at x2 <;> dsimp only at x2 ⊢
  · exact x2
  · obtain ⟨k1, T, k2, k3⟩ := x2
    exact ⟨by omega, fun fl cs => ⟨shows_uriParam fl cs x p m T k2 (fun j hj => hlt j (k3 j hj)), shows_uriParamValue fl cs x p m T k2 (fun j hj => hlt j (k3 j hj))⟩⟩

/-- with the character sets of SIP URIs no name is empty: the search gives the right answer for every name, the empty one too -/
theorem uriParams_have_names (c : Ctx) (hc : Inv c) (ps : List UriParam) (d : Ctx) (h : parseUriParams sipUriParamCS (fun (_ : Unit) _ => pure none) () c = .ok (some ((), ps), d)) : ∀ p ∈ ps, p.name ≠ [] := by
  have := (safe_uriParams 0 0 sipUriParamCS sipUriParamCS_ok (fun (_ : Unit) _ => pure none) c hc (fun _ => True) (fun _ => True) (fun k p c1 _ _ _ h1 _ _ => SafeAt.pure h1 trivial) () trivial).some _ _ h
  exact fun p hp => (this.1.2 p hp).1.name

theorem sipUriParam_lookup_in_memory (c : BCtx) (hf : Fine c) (hp : c.pos ≤ c.src.length) (ps : List UriParam) (d : Ctx)
    (h : parseUriParams sipUriParamCS (fun (_ : Unit) _ => pure none) () c.abs = .ok (some ((), ps), d)) :
    ∃ q c', B.uriParams sipUriParamCS (fun _ _ => pure false) c = .ok (some q, c') ∧ c'.abs = d ∧
      ∀ (m : Mem) (name : Bytes), (∀ i, i < c'.a.used → m i = c'.a.mem i) →
        ∃ x, Rd.uriParamByName name 32769 q m = .ok x ∧
          match getUriParamByName ps name with
          | none => x = 0
          | some p => x ≠ 0 ∧ ∀ fl cs, E.uriParam fl cs x m = .ok (p.encode fl cs) ∧ E.uriParamValue fl cs x m = .ok (p.encodeValue fl cs) := by
  obtain ⟨q, c', h1, h2, h3⟩ := uriParam_lookup_in_memory sipUriParamCS c hf ps d h
  exact ⟨q, c', h1, h2, fun m name hm => h3 m name hm (fun _ => uriParams_have_names c.abs ⟨hp, hf.2.2.1⟩ ps d h)⟩

/-- the hypotheses hold: two parameters with the same name up to case, one without value -/
theorem paramLookup_sample :
    let c := heapSample "a=1;lr;X=y;x=z"
    Fine c ∧ c.pos ≤ c.src.length ∧ (match parseUriParams sipUriParamCS (fun (_ : Unit) _ => pure none) () c.abs with
      | .ok (some (_, ps), _) => (ps.length, (getUriParamByName ps (str "x")).map (·.value), (getUriParamByName ps (str "LR")).map (·.value), (getUriParamByName ps (str "b")).map (·.value))
      | _ => (0, none, none, none)) = (4, some (some (str "y")), some none, none) ∧
    (match B.uriParams sipUriParamCS (fun _ _ => pure false) c with
      | .ok (some q, c) => (match Rd.uriParamByName (str "x") 32769 q c.a.mem with | .ok x => E.uriParam {} sipUriParamCS x c.a.mem | _ => .panic)
      | _ => .panic) = .ok (str "X=y") := by
  refine ⟨by unfold Fine; decide +kernel, by decide +kernel, by decide +kernel, by decide +kernel⟩
end Sip
