import Verif.Props.HeapShow
import Verif.Model.HeapAddr
import Verif.Props.HeadersSafe
/-! # C46: header parameters and addresses in the arena -/
namespace Sip
attribute [local irreducible] u32 u16 roundToAlign
open Asrt

/-! ## rules -/
/-- `n` bytes with any contents -/
def Asrt.anyAt (a n : Nat) : Asrt := ex fun l : Bytes => fact (l.length = n) ∗ bytes a l
/-- an assertion about the place only -/
def Asrt.Blank (A : Asrt) : Prop := ∀ m m' S, A.holds m S → A.holds m' S
theorem Asrt.blank_any (a n : Nat) : Blank (anyAt a n) := by
  rintro m m' S ⟨l, h⟩
  obtain ⟨h1, h2, h3⟩ := fact_star_holds.1 h
  refine ⟨(List.range n).map (fun j => m' (a + j)), fact_star_holds.2 ⟨by simp, fun i => by rw [h2 i, h1]; simp, fun j hj => ?_⟩⟩
  rw [List.length_map, List.length_range] at hj
  rw [List.getD_eq_getElem?_getD, List.getElem?_map, List.getElem?_range hj]
  rfl
theorem Asrt.Blank.star {A A' : Asrt} (h : Blank A) (h' : Blank A') : Blank (A ∗ A') := by
  rintro m m' S ⟨S1, S2, k1, k2, k3, k4⟩
  exact ⟨S1, S2, k1, k2, h m m' S1 k3, h' m m' S2 k4⟩

namespace Sim
variable {α β γ δ : Type} {A A' F : Asrt} {p : P α} {b : B β} {R R' : α → β → Asrt}

theorem any_bytes {a n : Nat} {l : Bytes} (hl : l.length = n) : bytes a l ⊢ₘ anyAt a n := Ent.ex l (Ent.fact hl (Ent.refl _))
theorem any_zeros {a n : Nat} : zeros a n ⊢ₘ anyAt a n := any_bytes (by simp)
theorem any_u8 {a : Nat} {v : UInt8} : u8At a v ⊢ₘ anyAt a 1 := any_bytes rfl
theorem any_u16 {a v : Nat} : u16At a v ⊢ₘ anyAt a 2 := Ent.fact_elim (fun _ => any_bytes rfl)
/-- two bytes are a number -/
theorem anyput16 {a n : Nat} {g : Unit → B β} (hn : n < 65536) (k : Sim (u16At a n ∗ F) p (g ()) R) : Sim (anyAt a 2 ∗ F) p (B.put16 a n >>= g) R := by
  refine ex_elim_star (fun l => pre_eq (star_assoc _ _ _) (fact_elim (fun hl => ?_)))
  match l, hl with
  | [x, y], _ =>
    have : bytes a [x, y] = u16At a (x.toNat + 256 * y.toNat) := by
      unfold u16At
      have h1 := x.toNat_lt
      have h2 := y.toNat_lt
      rw [fact_true (by omega), emp_star, show (x.toNat + 256 * y.toNat) % 256 = x.toNat by omega, show (x.toNat + 256 * y.toNat) / 256 = y.toNat by omega, UInt8.ofNat_toNat, UInt8.ofNat_toNat]
    rw [this]
    exact put16 hn k
theorem anyput8 {a : Nat} {v : UInt8} {g : Unit → B β} (k : Sim (u8At a v ∗ F) p (g ()) R) : Sim (anyAt a 1 ∗ F) p (B.put8 a v >>= g) R := by
  refine ex_elim_star (fun l => pre_eq (star_assoc _ _ _) (fact_elim (fun hl => ?_)))
  match l, hl with
  | [x], _ => exact put8 k

theorem orBack (h : Sim A p b R) : Sim A (P.orBack p) (B.orBack b) R := by
  intro c S hf hA hS
  have h1 := h c S hf hA hS
  unfold SimOut at h1 ⊢
  unfold P.orBack B.orBack
  rcases hp : p c.abs with ⟨_ | v, d⟩ | _ | _ <;> rw [hp] at h1 <;> dsimp only at h1 ⊢
  · obtain ⟨c', h1, h2, h3⟩ := h1
    rw [h1]
    refine ⟨_, rfl, by rw [← h2]; rfl, ⟨h3.mem, h3.used, h3.le, h3.cap, h3.src, h3.flags⟩⟩
  · obtain ⟨x, c', h1, h2⟩ := h1
    rw [h1]
    exact ⟨x, c', rfl, h2⟩
  · rw [h1]
  · rw [h1]

/-- the second method starts with what the first one left: the place of the object, with any contents -/
theorem orElse {q : P α} {d : B β} (hb : Blank A) (h : Sim A p b R) (hR : ∀ v x, R v x ∗ F ⊢ₘ R' v x) (k : Sim (A ∗ F) q d R') :
    Sim (A ∗ F) (P.orElse p q) (B.orElse b d) R' := by
  intro c S hf hA hS
  have h0 := post (frame F h) hR c S hf hA hS
  obtain ⟨S1, S2, k1, k2, k3, k4⟩ := hA
  have h1 := h c S1 hf k3 (fun i hi => hS i ((k1 i).2 (.inl hi)))
  unfold P.orElse B.orElse
  unfold SimOut at h1
  rcases hp : p c.abs with ⟨_ | v, e⟩ | _ | _ <;> rw [hp] at h1 h0
  · dsimp only at h1 ⊢
    obtain ⟨c', j1, j2, j3⟩ := h1
    rw [j1]
    dsimp only
    have hm : HeapMoved S1 c { c' with pos := c.pos } := ⟨j3.mem, j3.used, j3.le, j3.cap, j3.src, j3.flags⟩
    have hlt : ∀ i, S i → i < { c' with pos := c.pos }.a.used := fun i hi => Nat.lt_of_lt_of_le (hS i hi) j3.used
    have := k { c' with pos := c.pos } S (hm.fine hf) ⟨S1, S2, k1, k2, hb _ _ _ k3, F.loc k4 (fun i hi => j3.mem i (hS i ((k1 i).2 (.inr hi))) (fun h => k2 i ⟨h, hi⟩))⟩ hlt
    rw [show e.setPos c.abs.pos = ({ c' with pos := c.pos } : BCtx).abs by rw [← j2]; rfl]
    have hmS : HeapMoved S c { c' with pos := c.pos } := hm.mono (fun i hi => (k1 i).2 (.inl hi))
    unfold SimOut at this ⊢
    rcases hq : q ({ c' with pos := c.pos } : BCtx).abs with ⟨_ | w, d⟩ | _ | _ <;> rw [hq] at this <;> dsimp only at this ⊢
    · obtain ⟨c'', l1, l2, l3⟩ := this
      exact ⟨c'', l1, l2, hmS.trans l3 (fun i hi _ => hi)⟩
    · obtain ⟨y, c'', l1, l2, l3, S'', l4, l5, l6⟩ := this
      refine ⟨y, c'', l1, l2, hmS.trans l3 (fun i hi _ => hi), S'', l4, fun i hi => (l5 i hi).imp id (fun h => Nat.le_trans j3.used h), l6⟩
    · exact this
    · exact this
  · unfold SimOut at h0 ⊢
    dsimp only at h0 ⊢
    obtain ⟨x, c', j1, j2⟩ := h0
    rw [j1]
    exact ⟨x, c', rfl, j2⟩
  · dsimp only at h1 ⊢
    rw [h1]; rfl
  · dsimp only at h1 ⊢
    rw [h1]; rfl

/-- a fact about the value -/
theorem val {φ : α → Prop} (hφ : ∀ c v d, p c = .ok (some v, d) → φ v) (h : Sim A p b R) : Sim A p b (fun v x => fact (φ v) ∗ R v x) := by
  intro c S hf hA hS
  have h1 := h c S hf hA hS
  unfold SimOut at h1 ⊢
  rcases hp : p c.abs with ⟨_ | v, d⟩ | _ | _ <;> rw [hp] at h1 <;> dsimp only at h1 ⊢
  · exact h1
  · obtain ⟨x, c', h1, h2, h3, S', h4, h5⟩ := h1
    exact ⟨x, c', h1, h2, h3, S', fact_star_holds.2 ⟨hφ _ _ _ hp, h4⟩, h5⟩
  · exact h1
  · exact h1

/-- the input is shorter than 2^31 -/
theorem ctx' {f : Ctx → P γ} {g : Ctx → B δ} {Q : γ → δ → Asrt} (k : ∀ c, c.src.length < 2147483648 → Sim A (f c) (g c) Q) : Sim A (P.get >>= f) (B.ctx >>= g) Q :=
  fun c S hf hA hS => k c.abs hf.2.2.2 c S hf hA hS

end Sim

theorem Dry.loop {σ ρ : Type} {body : σ → P (σ ⊕ ρ)} (h : ∀ s, Dry (body s)) : ∀ n s, Dry (P.loop body n s)
  | 0, s => by intro c r d h; cases h
  | n + 1, s => by
    unfold P.loop
    refine Dry.bind (h s) (fun v => ?_)
    rcases v with s' | r
    · exact Dry.loop h n s'
    · exact Dry.ret r
theorem Dry.forLoop {σ ρ : Type} {body : σ → P (σ ⊕ ρ)} (h : ∀ s, Dry (body s)) (s : σ) : Dry (P.forLoop body s) := fun c r d hr => Dry.loop h _ s c r d hr
/-- everything but position and errors is the same -/
def Ctx.Same (c d : Ctx) : Prop := d.src = c.src ∧ d.used = c.used ∧ d.cap = c.cap ∧ d.flags = c.flags
theorem Ctx.Same.refl (c : Ctx) : c.Same c := ⟨rfl, rfl, rfl, rfl⟩
theorem Ctx.Same.sws {c d : Ctx} (h : c.Same d) : c.Same d.sws := by
  unfold Ctx.sws
  repeat' split
  all_goals exact h
theorem Ctx.Same.adv {c d : Ctx} (h : c.Same d) (n : Nat) : c.Same (d.adv n) := h
theorem Ctx.Same.addError {c d : Ctx} (h : c.Same d) (n : Nat) : c.Same (d.addError n) := h
theorem Dry.markCanOmmit (m : UInt8) : Dry (P.markCanOmmit m) := by
  intro c r d h
  have h0 := (Ctx.Same.refl c).sws
  unfold P.markCanOmmit parseSWSMarkCanOmmit at h
  dsimp only at h
  by_cases h1 : c.sws.pos ≥ c.sws.src.length
  · rw [if_pos h1] at h; cases h; exact h0.addError _
  rw [if_neg h1] at h
  by_cases h2 : c.sws.src[c.sws.pos]? ≠ some m
  · rw [if_pos h2] at h; cases h; exact h0
  · rw [if_neg h2] at h; cases h; exact (h0.adv 1).sws
theorem Dry.nextParamMark (m : UInt8) : Dry (nextParamMark m) := by
  intro c r d h
  unfold Sip.nextParamMark at h
  rcases hm : P.markCanOmmit m c with ⟨_ | b, e⟩ | _ | _ <;> rw [hm] at h
  · cases h; exact Dry.markCanOmmit m c _ _ hm
  · have := Dry.markCanOmmit m c _ _ hm
    cases b <;> dsimp only at h <;> cases h <;> exact this
  · cases h
  · cases h
theorem Dry.ofBool {f : Ctx → Bool × Ctx} (h : ∀ c : Ctx, c.Same (f c).2) : Dry (P.ofBool f) := by
  intro c r d hr
  have := h c
  unfold P.ofBool at hr
  rcases hf : f c with ⟨_ | _, e⟩ <;> rw [hf] at hr this <;> cases hr <;> exact this
theorem Dry.leftAngle : Dry (P.ofBool parseLeftAngleQuote) := Dry.ofBool (fun c => by
  have h0 := (Ctx.Same.refl c).sws
  unfold parseLeftAngleQuote
  dsimp only
  repeat' split
  · exact (Ctx.Same.refl c).addError _
  · exact h0.addError _
  · exact h0.addError _
  · exact h0.adv _)
theorem Dry.rightAngle : Dry (P.ofBool parseRightAngleQuote) := Dry.ofBool (fun c => by
  unfold parseRightAngleQuote
  repeat' split
  · exact (Ctx.Same.refl c).addError _
  · exact (Ctx.Same.refl c).addError _
  · exact ((Ctx.Same.refl c).adv _).sws)
theorem Dry.lws : Dry P.lws := by
  intro c r d h
  unfold P.lws at h
  split at h <;> (cases h; exact ⟨rfl, rfl, rfl, rfl⟩)
theorem Dry.skipRun (s : CS) : Dry (P.skipRun s) := by intro c r d h; cases h; exact ⟨rfl, rfl, rfl, rfl⟩
theorem Dry.orBack {α : Type} {p : P α} (hp : Dry p) : Dry (P.orBack p) := by
  intro c r d h
  unfold P.orBack at h
  rcases hm : p c with ⟨_ | b, e⟩ | _ | _ <;> rw [hm] at h <;> dsimp only at h
  · have := hp c _ _ hm
    cases h; exact this
  · have := hp c _ _ hm
    cases h; exact this
  · cases h
  · cases h
theorem Dry.tokens : Dry (P.forLoop tokensBody ()) := by
  refine Dry.forLoop (fun _ => Dry.bind Dry.peek (fun o => ?_)) ()
  rcases o with _ | b <;> dsimp only
  · exact Dry.ret _
  · exact Dry.ite (Dry.bind (Dry.orBack (Dry.bind (Dry.skipRun _) (fun _ => Dry.lws))) (fun _ => Dry.ret _)) (Dry.ret _)

open Sim
/-! ## generic parameters -/
/-- the fields `value` and `valueType` -/
def genValueAt (a : Nat) : Option GenValue → Asrt
  | none => u16At (a + 2) 0 ∗ u8At (a + 6) 0
  | some (.token s) => strField (a + 2) (some s) ∗ u8At (a + 6) 0
  | some (.quoted s) => strField (a + 2) (some s) ∗ u8At (a + 6) 1
  | some (.ipv6 s) => strField (a + 2) (some s) ∗ u8At (a + 6) 2
/-- SipGenericParam.go:20-25 without the field `next` -/
def genericParamAt (a : Nat) (v : GenericParam) : Asrt := strField a (some v.name) ∗ genValueAt a v.value
/-- the same without the string of the name -/
def genericParamRaw (a n : Nat) (v : GenericParam) : Asrt := u16At a n ∗ genValueAt a v.value
theorem genericParam_fold (a n : Nat) (v : GenericParam) : strAt n v.name ∗ genericParamRaw a n v ⊢ₘ genericParamAt a v := by
  unfold genericParamRaw genericParamAt
  exact Ent.pre_eq (A' := (u16At a n ∗ strAt n v.name) ∗ genValueAt a v.value) (by ac_rfl) (Ent.frame _ (strField_some _ _ _))

theorem bracketValue_eq : parseBracketValue = (do
    let c ← P.get
    match c.rest.findIdx? (· = 0x5d) with
    | none => P.err
    | some p1 => do
      let v ← P.orErr (P.allocStr (c.rest.take (p1 + 1)))
      P.skip (p1 + 1)
      pure v) := by
  funext c
  rw [P.get_bind]
  unfold parseBracketValue
  generalize c.rest.findIdx? _ = o
  rcases o with _ | p1
  · rfl
  show _ = (P.orErr (P.allocStr (c.rest.take (p1 + 1))) >>= fun v => P.skip (p1 + 1) >>= fun _ => pure v) c
  dsimp only
  rw [P.bind_apply]
  unfold P.orErr P.allocStr
  rcases allocStr (c.rest.take (p1 + 1)) c with ⟨_ | v, d⟩ <;> rfl

theorem sim_bracketValue : Sim emp parseBracketValue B.bracketValue (fun v x => strAt x v) := by
  rw [bracketValue_eq]
  unfold B.bracketValue
  refine ctx' (fun c hc => ?_)
  generalize c.rest.findIdx? _ = o
  rcases o with _ | p1 <;> dsimp only
  · exact err
  refine seq0 (orErr (Sim.allocStr _ ?_)) (fun v x => ?_)
  · unfold Ctx.rest
    rw [List.length_take, List.length_drop]
    omega
  rw [star_emp]
  exact fact_elim (fun _ => skip (ret (Ent.refl _)))

theorem sim_genValue (a : Nat) : Sim (u16At (a + 2) 0 ∗ u8At (a + 6) 0) GenericParam.parseValue (B.genValue a) (fun v _ => genValueAt a (some v)) := by
  unfold GenericParam.parseValue B.genValue
  refine peek (fun o => ?_)
  rcases o with _ | b <;> dsimp only
  · exact err
  refine ite (fun _ => ?_) (fun _ => ite (fun _ => ?_) (fun _ => ite (fun _ => ?_) (fun _ => err)))
  · refine strPut (Sim.str _) (fun v x _ _ => pre_eq (A := u8At (a + 6) 0 ∗ (u16At (a + 2) x ∗ strAt x v)) (by ac_rfl) (put8 (ret ?_)))
    exact Ent.pre_eq (star_comm _ _) (Ent.frame _ (strField_some _ _ _))
  · refine strPut quoted (fun v x _ _ => pre_eq (A := u8At (a + 6) 0 ∗ (u16At (a + 2) x ∗ strAt x v)) (by ac_rfl) (put8 (ret ?_)))
    exact Ent.pre_eq (star_comm _ _) (Ent.frame _ (strField_some _ _ _))
  · refine strPut sim_bracketValue (fun v x _ _ => pre_eq (A := u8At (a + 6) 0 ∗ (u16At (a + 2) x ∗ strAt x v)) (by ac_rfl) (put8 (ret ?_)))
    exact Ent.pre_eq (star_comm _ _) (Ent.frame _ (strField_some _ _ _))

theorem sim_genericParam (a : Nat) : Sim (u16At a 0 ∗ (u16At (a + 2) 0 ∗ u8At (a + 6) 0)) GenericParam.parse (B.genericParam a)
    (fun v _ => ex fun n => u16At a n ∗ (strAt n v.name ∗ genValueAt a v.value)) := by
  unfold GenericParam.parse B.genericParam
  refine strPut (orErr (strEsc _)) (fun n x _ _ => peek (fun o => ?_))
  rcases o with _ | b <;> dsimp only
  · exact ret (Ent.ex x (Ent.refl _))
  refine ite (fun _ => ret (Ent.ex x (Ent.refl _))) (fun _ => dry (Dry.markCanOmmit _) (fun m => ite (fun _ => ret (Ent.ex x (Ent.refl _))) (fun _ => ?_)))
  refine pre_eq (A := (u16At (a + 2) 0 ∗ u8At (a + 6) 0) ∗ (u16At a x ∗ strAt x n)) (by ac_rfl) ?_
  refine ofB (B.bind_pure' _) (seq (sim_genValue a) (fun v _ => ret (Ent.ex x ?_)))
  exact Ent.of_eq (by dsimp only; ac_rfl)

theorem sim_genericParams {κ : Type} (sep : UInt8) (K : κ → Asrt) (setK : κ → GenericParam → P (Option κ)) (bK : Nat → Nat → B Bool)
    (hK : SetsKnownAt genericParamAt genericParamRaw GenericParam.name K setK bK) (k : κ) :
    Sim (K k) (parseGenericParams sep setK k) (B.genericParams sep bK) (fun v x => K v.1 ∗ listAt genericParamAt 4 x v.2) := by
  unfold parseGenericParams B.genericParams
  refine pre_eq (A := K k ∗ openList genericParamAt 4 0 0 []) (by rw [openList_nil, star_emp]) ?_
  refine forLoop (I := fun s t => K s.1 ∗ openList genericParamAt 4 t.1 t.2 s.2) (s := (k, [])) (t := (0, 0)) ?_
  rintro ⟨k, acc⟩ ⟨params, prev⟩
  unfold genericParamsBody B.genericParamsBody
  have hclose : K k ∗ openList genericParamAt 4 params prev acc ⊢ₘ K k ∗ listAt genericParamAt 4 params acc := Ent.framel _ (openList_close _ _ _ _ _)
  refine ctx (fun c => ?_)
  rcases c.cur? with _ | b <;> dsimp only
  · exact ret hclose
  refine ite (fun _ => ret hclose) (fun _ => ite (fun _ => ret hclose) (fun _ => dry (Dry.nextParamMark _) (fun m => ite (fun _ => ret hclose) (fun _ => ?_))))
  refine seq0 (orErr (alloc (by omega) (by omega))) (fun _ a => ?_)
  refine pre_eq (star_assoc _ _ _) (fact_elim (fun h8 => ?_))
  refine pre (A := (u16At a 0 ∗ (u16At (a + 2) 0 ∗ u8At (a + 6) 0)) ∗ (u16At (a + 4) 0 ∗ (K k ∗ openList genericParamAt 4 params prev acc))) ?_ ?_
  rotate_left
  · have e : zeros a (2 + (2 + (2 + (1 + 1)))) = u16At a 0 ∗ (u16At (a + 2) 0 ∗ (u16At (a + 4) 0 ∗ (u8At (a + 6) 0 ∗ u8At (a + 7) 0))) := by
      simp only [zeros_split, zeros_u8, zeros_u16]
    rw [show 8 = 2 + (2 + (2 + (1 + 1))) from rfl, e]
    refine Ent.pre_eq (A' := ((u16At a 0 ∗ (u16At (a + 2) 0 ∗ u8At (a + 6) 0)) ∗ (u16At (a + 4) 0 ∗ (K k ∗ openList genericParamAt 4 params prev acc))) ∗ u8At (a + 7) 0) (by ac_rfl) (Ent.drop _ _)
  refine seq (sim_genericParam a) (fun v _ => ex_elim_star (fun n => ?_))
  refine pre_eq (star_assoc _ _ _) (get16 ?_)
  refine pre_eq (A := (K k ∗ (strAt n v.name ∗ (genericParamRaw a n v ∗ u16At (a + 4) 0))) ∗ openList genericParamAt 4 params prev acc) (by unfold genericParamRaw; ac_rfl) ?_
  refine seq (hK k v n a _ h8.1 (by omega) (genericParam_fold a n v)) (fun r x => ?_)
  match r, x with
  | some k', true =>
    dsimp only [Took]
    rw [if_pos rfl]
    exact pureB (ret (Ent.refl _))
  | none, false =>
    dsimp only [Took]
    rw [if_neg (by decide)]
    refine pre (A := openList genericParamAt 4 params prev acc ∗ (genericParamAt a v ∗ (u16At (a + 4) 0 ∗ K k))) ?_ ?_
    · exact Sim.link h8.1 (by omega) (fun first' prev' => ret' (star_comm _ _))
    · refine Ent.pre_eq (A' := openList genericParamAt 4 params prev acc ∗ ((strAt n v.name ∗ genericParamRaw a n v) ∗ (u16At (a + 4) 0 ∗ K k))) (by ac_rfl) ?_
      exact Ent.framel _ (Ent.frame _ (genericParam_fold a n v))
  | none, true => dsimp only [Took]; exact fact_elim (fun h => h.elim)
  | some _, false => dsimp only [Took]; exact fact_elim (fun h => h.elim)

/-- the fields `params` and `knownParams` of a header -/
def paramsAt (names : List Bytes) (pf kf : Nat) (ps : Params) : Asrt :=
  (ex fun q => u16At pf q ∗ listAt genericParamAt 4 q ps.params) ∗ knownAt genericParamAt names.length kf ps.known

theorem generic_setsKnown (names : List Bytes) (h2 : names.length < 65536) (flag : Flags → Bool) (kf : Nat) :
    SetsKnownAt genericParamAt genericParamRaw GenericParam.name (knownAt genericParamAt names.length kf) (setKnownGeneric names flag) (B.setKnown names flag kf) := by
  intro k v n q X h8 hq hnd
  unfold setKnownGeneric
  refine Sim.setKnown (on := flag) h2 h8 hq ?_
  exact Ent.trans (Ent.pre_eq (star_assoc _ _ _).symm (Ent.drop _ _)) hnd

theorem sim_headerParams (names : List Bytes) (h2 : names.length < 65536) (flag : Flags → Bool) (pf kf : Nat) :
    Sim (u16At pf 0 ∗ u16At kf 0) (Params.parse names flag) (B.headerParams names flag pf kf) (fun v _ => paramsAt names pf kf v) := by
  unfold Params.parse B.headerParams
  refine pre (A := knownAt genericParamAt names.length kf [] ∗ u16At pf 0) ?_ (Ent.pre_eq (star_comm _ _) (Ent.frame _ (knownAt_nil _ _ _)))
  refine seq (orErr (sim_genericParams _ _ _ _ (generic_setsKnown names h2 flag kf) [])) (fun v x => ?_)
  obtain ⟨k, ps⟩ := v
  dsimp only
  refine pre_eq (A := listAt genericParamAt 4 x ps ∗ (knownAt genericParamAt names.length kf k ∗ u16At pf 0)) (by ac_rfl) (list_lt (fun hx => ?_))
  refine pre_eq (A := u16At pf 0 ∗ (knownAt genericParamAt names.length kf k ∗ listAt genericParamAt 4 x ps)) (by ac_rfl) (put16 hx (ret ?_))
  unfold paramsAt
  exact Ent.pre_eq (A' := (u16At pf x ∗ listAt genericParamAt 4 x ps) ∗ knownAt genericParamAt names.length kf k) (by ac_rfl) (Ent.frame _ (Ent.ex x (Ent.refl _)))

/-! ## addresses -/
theorem sim_telUriAfterSchemeWithoutParam (a : Nat) : Sim (telUriZero a) TelUri.parseAfterSchemeWithoutParam (B.telUriAfterSchemeWithoutParam a) (fun v _ => telUriAt a v) := by
  unfold TelUri.parseAfterSchemeWithoutParam B.telUriAfterSchemeWithoutParam telUriZero
  refine pre (A := (u8At a 0 ∗ u16At (a + 2) 0) ∗ (telKnownAt a {} ∗ u16At (a + 6) 0)) ?_ ?_
  · refine ofB (B.bind_pure' _) (seq (sim_telNumber a) (fun v _ => ret ?_))
    unfold telUriAt
    exact Ent.pre_eq (star_assoc _ _ _) (Ent.framel _ (Ent.framel _ (Ent.framel _ (listField_nil _ _ _))))
  · refine Ent.pre_eq (A' := (u8At a 0 ∗ u16At (a + 2) 0) ∗ ((u8At (a + 1) 0 ∗ (u16At (a + 4) 0 ∗ u16At (a + 8) 0)) ∗ u16At (a + 6) 0)) (by ac_rfl) ?_
    exact Ent.framel _ (Ent.frame _ (telKnownAt_nil a))

/-- SipAddr.go:8-15 -/
def UriType.code : UriType → UInt8
  | .absolute => 1
  | .sip => 2
  | .sips => 3
  | .tel => 4
  | .urn => 5
/-- the fields `uriType` and `addr` -/
def addrUriAt (a : Nat) : AddrUri → Asrt
  | .sip u => u8At (a + 1) (if u.secure then 3 else 2) ∗ (ex fun q => u16At (a + 8) q ∗ (fact (8 ≤ q) ∗ sipUriAt q u))
  | .tel u => u8At (a + 1) 4 ∗ (ex fun q => u16At (a + 8) q ∗ (fact (8 ≤ q) ∗ telUriAt q u))
/-- the fields `displayNameIsQuotedString` and `displayName` -/
def displayAt (a : Nat) : Option (Bool × Bytes) → Asrt
  | none => u8At (a + 2) 0 ∗ u16At (a + 6) 0
  | some (q, s) => u8At (a + 2) (if q then 1 else 0) ∗ strField (a + 6) (some s)
/-- SipAddr.go:22-29, without the field `scheme`, which nothing reads -/
def addrAt (a : Nat) (v : Addr) : Asrt := u8At a (if v.nameAddr then 1 else 0) ∗ (displayAt a v.display ∗ addrUriAt a v.uri)
/-- the two fields `ParseScheme` writes, with any contents -/
def schemeAny (a : Nat) : Asrt := anyAt (a + 1) 1 ∗ anyAt (a + 4) 2
/-- the other fields of an empty struct -/
def addrRest (a : Nat) : Asrt := u8At a 0 ∗ ((u8At (a + 2) 0 ∗ u16At (a + 6) 0) ∗ u16At (a + 8) 0)

theorem addr_zeros (a : Nat) : zeros a 10 ⊢ₘ schemeAny a ∗ addrRest a := by
  have e : zeros a (1 + (1 + (1 + (1 + (2 + (2 + 2)))))) = u8At a 0 ∗ (u8At (a + 1) 0 ∗ (u8At (a + 2) 0 ∗ (u8At (a + 3) 0 ∗ (u16At (a + 4) 0 ∗ (u16At (a + 6) 0 ∗ u16At (a + 8) 0))))) := by
    simp only [zeros_split, zeros_u8, zeros_u16]
  rw [show 10 = 1 + (1 + (1 + (1 + (2 + (2 + 2))))) from rfl, e]
  unfold schemeAny addrRest
  refine Ent.pre_eq (A' := ((u8At (a + 1) 0 ∗ u16At (a + 4) 0) ∗ (u8At a 0 ∗ ((u8At (a + 2) 0 ∗ u16At (a + 6) 0) ∗ u16At (a + 8) 0))) ∗ u8At (a + 3) 0) (by ac_rfl) (Ent.trans (Ent.drop _ _) ?_)
  exact Ent.frame _ (Ent.star any_u8 any_u16)

theorem sim_otherScheme (a : Nat) : Sim (schemeAny a) parseOtherScheme (B.otherScheme a) (fun t _ => u8At (a + 1) t.code ∗ anyAt (a + 4) 2) := by
  unfold parseOtherScheme B.otherScheme schemeAny
  refine peek (fun o => ?_)
  rcases o with _ | b <;> dsimp only
  · exact fail
  refine ite (fun _ => ?_) (fun _ => fail)
  refine seq0 (Sim.str _) (fun v x => str_lt (fun _ hx => ?_))
  refine pre_eq (A := anyAt (a + 4) 2 ∗ (strAt x v ∗ anyAt (a + 1) 1)) (by ac_rfl) (anyput16 hx ?_)
  refine peek (fun o => ite (fun _ => skip ?_) (fun _ => fail))
  refine pre_eq (A := anyAt (a + 1) 1 ∗ (u16At (a + 4) x ∗ strAt x v)) (by ac_rfl) (anyput8 (ret ?_))
  exact Ent.framel _ (Ent.trans (Ent.drop _ _) any_u16)

/-- the type of a scheme, behind it -/
def uriTypeP (n : Nat) (t : UriType) : P UriType := do
  P.skip n
  pure t
theorem sim_uriTypeIs (a n : Nat) (t : UriType) : Sim (schemeAny a) (uriTypeP n t) (B.uriTypeIs a n t.code) (fun t _ => u8At (a + 1) t.code ∗ anyAt (a + 4) 2) :=
  skip (anyput8 (ret (Ent.refl _)))

theorem parseAddrScheme_eq : parseAddrScheme = (do
    let c ← P.get
    match c.rest with
    | a :: b :: d :: e :: r =>
      if a ||| 0x20 = 0x73 then
        if b ||| 0x20 = 0x69 ∧ d ||| 0x20 = 0x70 then
          if e = 0x3a then uriTypeP 4 .sip else
          if e ||| 0x20 = 0x73 then
            match r with
            | [] => (P.skip 4 >>= fun _ => P.fail)
            | f :: _ => if f = 0x3a then uriTypeP 5 .sips else parseOtherScheme
          else parseOtherScheme
        else parseOtherScheme
      else if a ||| 0x20 = 0x74 then
        if b ||| 0x20 = 0x65 ∧ d ||| 0x20 = 0x6c ∧ e = 0x3a then uriTypeP 4 .tel else parseOtherScheme
      else if a ||| 0x20 = 0x75 then
        if b ||| 0x20 = 0x72 ∧ d ||| 0x20 = 0x6e ∧ e = 0x3a then uriTypeP 4 .urn else parseOtherScheme
      else parseOtherScheme
    | _ => parseOtherScheme) := by
  funext c
  rw [P.get_bind]
  unfold parseAddrScheme
  rcases c.rest with _ | ⟨a, _ | ⟨b, _ | ⟨d, _ | ⟨e, r⟩⟩⟩⟩
  · rfl
  · rfl
  · rfl
  · rfl
  dsimp only
  have app : ∀ {φ : Prop} {i : Decidable φ} (p q : P UriType) (x y : Out (Option UriType × Ctx)), p c = x → q c = y → (@_root_.ite _ φ i p q) c = @_root_.ite _ φ i x y := by
    intro φ _ p q x y h1 h2
    split <;> assumption
  symm
  refine app _ _ _ _ ?_ ?_
  · refine app _ _ _ _ ?_ rfl
    refine app _ _ _ _ rfl ?_
    refine app _ _ _ _ ?_ rfl
    rcases r with _ | ⟨f, r⟩
    · rfl
    · exact app _ _ _ _ rfl rfl
  · refine app _ _ _ _ (app _ _ _ _ rfl rfl) ?_
    exact app _ _ _ _ (app _ _ _ _ rfl rfl) rfl

theorem sim_addrScheme (a : Nat) : Sim (schemeAny a) parseAddrScheme (B.addrScheme a) (fun t _ => u8At (a + 1) t.code ∗ anyAt (a + 4) 2) := by
  rw [parseAddrScheme_eq]
  unfold B.addrScheme
  refine ctx (fun c => ?_)
  rcases c.rest with _ | ⟨x, _ | ⟨b, _ | ⟨d, _ | ⟨e, r⟩⟩⟩⟩
  · exact sim_otherScheme a
  · exact sim_otherScheme a
  · exact sim_otherScheme a
  · exact sim_otherScheme a
  dsimp only
  have ho := sim_otherScheme a
  refine ite (fun _ => ite (fun _ => ite (fun _ => sim_uriTypeIs a 4 .sip) (fun _ => ite (fun _ => ?_) (fun _ => ho))) (fun _ => ho))
    (fun _ => ite (fun _ => ite (fun _ => sim_uriTypeIs a 4 .tel) (fun _ => ho)) (fun _ => ite (fun _ => ite (fun _ => sim_uriTypeIs a 4 .urn) (fun _ => ho)) (fun _ => ho)))
  rcases r with _ | ⟨f, r⟩
  · exact skip fail
  · exact ite (fun _ => sim_uriTypeIs a 5 .sips) (fun _ => ho)

theorem afterScheme_secure (net : Net) (s : Bool) (c : Ctx) (v : SipUri) (d : Ctx) (h : SipUri.parseAfterScheme net s c = .ok (some v, d)) : v.secure = s := by
  unfold SipUri.parseAfterScheme at h
  obtain ⟨⟨_, _⟩, _, _, h⟩ := P.bind_some h
  obtain ⟨_, _, _, h⟩ := P.bind_some h
  obtain ⟨⟨_, _⟩, _, _, h⟩ := P.bind_some h
  obtain ⟨_, _, _, h⟩ := P.bind_some h
  cases h
  rfl
theorem afterSchemeWithoutParam_secure (net : Net) (s : Bool) (c : Ctx) (v : SipUri) (d : Ctx) (h : SipUri.parseAfterSchemeWithoutParam net s c = .ok (some v, d)) : v.secure = s := by
  unfold SipUri.parseAfterSchemeWithoutParam at h
  obtain ⟨⟨_, _⟩, _, _, h⟩ := P.bind_some h
  obtain ⟨_, _, _, h⟩ := P.bind_some h
  cases h
  rfl

theorem sim_addrAfterScheme (net : Net) (hn : net.Len16) (params : Bool) (t : UriType) (a : Nat) :
    Sim (u8At (a + 1) t.code ∗ u16At (a + 8) 0) (parseUriAfterScheme net params t) (B.addrAfterScheme net params a) (fun v _ => addrUriAt a v) := by
  unfold B.addrAfterScheme
  refine get8 ?_
  have sip : ∀ s : Bool, Sim (u8At (a + 1) (if s then 3 else 2) ∗ u16At (a + 8) 0) (do
      P.orErr (P.alloc 18)
      let u ← (if params then SipUri.parseAfterScheme net s else SipUri.parseAfterSchemeWithoutParam net s)
      pure (AddrUri.sip u)) (do
      let p ← B.orErr (B.alloc 18)
      B.put16 (a + 8) p
      B.put8 p (if s then 1 else 0)
      if params then B.sipUriAfterScheme net p else B.sipUriAfterSchemeWithoutParam net p) (fun v _ => addrUriAt a v) := by
    intro s
    refine seq0 (orErr (alloc (by omega) (by omega))) (fun _ q => ?_)
    refine pre_eq (star_assoc _ _ _) (fact_elim (fun h8 => ?_))
    refine pre_eq (A := u16At (a + 8) 0 ∗ (zeros q 18 ∗ u8At (a + 1) (if s then 3 else 2))) (by ac_rfl) (put16 (by omega) ?_)
    refine pre (A := u8At q 0 ∗ (sipUriRest q ∗ (u16At (a + 8) q ∗ u8At (a + 1) (if s then 3 else 2)))) ?_ ?_
    · refine put8 ?_
      refine pre_eq (star_assoc _ _ _).symm (ofB (B.bind_pure' _) (seq (R := fun v _ => fact (v.secure = s) ∗ sipUriAt q v) ?_ (fun u _ => ?_)))
      · cases params
        · exact val (afterSchemeWithoutParam_secure net s) (sim_sipUriAfterSchemeWithoutParam net hn s q)
        · exact val (afterScheme_secure net s) (sim_sipUriAfterScheme net hn s q)
      · refine pre_eq (star_assoc _ _ _) (fact_elim (fun hs => ret ?_))
        unfold addrUriAt
        dsimp only
        rw [hs]
        refine Ent.pre_eq (A' := u8At (a + 1) (if s then 3 else 2) ∗ (u16At (a + 8) q ∗ sipUriAt q u)) (by ac_rfl) ?_
        exact Ent.framel _ (Ent.ex q (Ent.framel _ (Ent.fact h8.1 (Ent.refl _))))
    · refine Ent.pre_eq (A' := zeros q 18 ∗ (u16At (a + 8) q ∗ u8At (a + 1) (if s then 3 else 2))) (by ac_rfl) (Ent.trans (Ent.frame _ (sipUri_zeros q)) (Ent.of_eq (by ac_rfl)))
  cases t
  · rw [if_neg (by decide), if_neg (by decide), if_neg (by decide)]
    exact fail
  · rw [if_pos (by decide)]
    exact sip false
  · rw [if_neg (by decide), if_pos (by decide)]
    exact sip true
  · rw [if_neg (by decide), if_neg (by decide), if_pos (by decide)]
    show Sim _ (do
      P.orErr (P.alloc 10)
      let u ← (if params then TelUri.parseAfterScheme else TelUri.parseAfterSchemeWithoutParam)
      pure (AddrUri.tel u)) (do
      let p ← B.orErr (B.alloc 10)
      B.put16 (a + 8) p
      if params then B.telUriAfterScheme p else B.telUriAfterSchemeWithoutParam p) _
    refine seq0 (orErr (alloc (by omega) (by omega))) (fun _ q => ?_)
    refine pre_eq (star_assoc _ _ _) (fact_elim (fun h8 => ?_))
    refine pre_eq (A := u16At (a + 8) 0 ∗ (zeros q 10 ∗ u8At (a + 1) 4)) (by unfold UriType.code; ac_rfl) (put16 (by omega) ?_)
    rw [telUri_zeros]
    refine pre_eq (A := telUriZero q ∗ (u16At (a + 8) q ∗ u8At (a + 1) 4)) (by ac_rfl) (ofB (B.bind_pure' _) (seq (R := fun v _ => telUriAt q v) ?_ (fun u _ => ret ?_)))
    · cases params
      · exact sim_telUriAfterSchemeWithoutParam q
      · exact sim_telUriAfterScheme q
    · unfold addrUriAt
      refine Ent.pre_eq (A' := u8At (a + 1) 4 ∗ (u16At (a + 8) q ∗ telUriAt q u)) (by ac_rfl) ?_
      exact Ent.framel _ (Ent.ex q (Ent.framel _ (Ent.fact h8.1 (Ent.refl _))))
  · rw [if_neg (by decide), if_neg (by decide), if_neg (by decide)]
    exact fail

theorem sim_addrTokens (a : Nat) : Sim (u8At (a + 2) 0 ∗ u16At (a + 6) 0) parseTokens (B.addrTokens a) (fun v _ => displayAt a (some (false, v))) := by
  unfold parseTokens B.addrTokens
  refine ctx' (fun c hc => put8 (dry Dry.tokens (fun _ => ctx (fun d => ?_))))
  refine ofP (P.bind_pure' _) (pre_eq (star_comm _ _) (strPut (orErr (post (Sim.allocStr _ ?_) (fun v x => Ent.dropl _ _))) (fun v x _ _ => ret ?_)))
  · rw [List.length_take, List.length_drop]
    omega
  · exact Ent.pre_eq (A' := u8At (a + 2) 0 ∗ (u16At (a + 6) x ∗ strAt x v)) (by ac_rfl) (Ent.framel _ (strField_some _ _ _))

theorem sim_displayName (a : Nat) (b : UInt8) : Sim (u8At (a + 2) 0 ∗ u16At (a + 6) 0)
    (if csSipToken.mem b then (parseTokens >>= fun d => pure (false, d)) else (P.quoted >>= fun d => pure (true, d)))
    (if csSipToken.mem b then B.addrTokens a else (B.quoted >>= fun s => B.put16 (a + 6) s >>= fun _ => B.put8 (a + 2) 1 >>= fun _ => pure ()))
    (fun v _ => displayAt a (some v)) := by
  refine ite (fun _ => ?_) (fun _ => ?_)
  · exact ofB (B.bind_pure' _) (bind (sim_addrTokens a) (fun v _ => ret (Ent.refl _)))
  · refine pre_eq (star_comm _ _) (strPut quoted (fun v x _ _ => pre_eq (A := u8At (a + 2) 0 ∗ (u16At (a + 6) x ∗ strAt x v)) (by ac_rfl) (put8 (ret ?_))))
    exact Ent.framel _ (strField_some _ _ _)

theorem parseDisplayLaquot_eq : parseDisplayLaquot = (P.peek >>= fun o => match o with
    | none => P.err
    | some b => if b ≠ 0x3c then
        (if csSipToken.mem b then (parseTokens >>= fun d => pure (false, d)) else (P.quoted >>= fun d => pure (true, d))) >>= fun d =>
          P.ofBool parseLeftAngleQuote >>= fun _ => pure (some d)
      else P.skip 1 >>= fun _ => pure none) := by
  funext c
  unfold parseDisplayLaquot
  rw [P.bind_apply, P.bind_apply]
  rcases h : P.peek c with ⟨_ | o, d⟩ | _ | _
  · rfl
  · rcases o with _ | b
    · rfl
    · dsimp only
      split
      · rw [P.bind_apply, P.bind_apply]
        have : parseDisplayName d = (if csSipToken.mem b then (parseTokens >>= fun d => pure (false, d)) else (P.quoted >>= fun d => pure (true, d)) : P (Bool × Bytes)) d := by
          rw [show P.peek c = .ok (some c.cur?, c) from rfl] at h
          injection h with h
          injection h with h1 h2
          injection h1 with h1
          unfold parseDisplayName
          rw [P.bind_apply, show P.peek d = .ok (some d.cur?, d) from rfl, ← h2, h1]
        rw [this]
      · rfl
  · rfl
  · rfl
theorem displayLaquot_eq (a : Nat) : B.displayLaquot a = (B.peek >>= fun o => match o with
    | none => B.err
    | some b => if b ≠ 0x3c then
        (if csSipToken.mem b then B.addrTokens a else (B.quoted >>= fun s => B.put16 (a + 6) s >>= fun _ => B.put8 (a + 2) 1 >>= fun _ => pure ())) >>= fun _ =>
          B.lift (P.ofBool parseLeftAngleQuote)
      else B.skip 1) := by
  funext c
  unfold B.displayLaquot
  have hpk : ∀ {γ : Type} (f : Option UInt8 → B γ), (B.peek >>= f) c = f c.src[c.pos]? c := fun f => rfl
  rw [hpk, hpk]
  rcases h : c.src[c.pos]? with _ | b
  · rfl
  dsimp only
  split
  · show B.bind _ _ c = B.bind _ _ c
    unfold B.bind
    have : B.displayName a c = (if csSipToken.mem b then B.addrTokens a else (B.quoted >>= fun s => B.put16 (a + 6) s >>= fun _ => B.put8 (a + 2) 1 >>= fun _ => pure ()) : B Unit) c := by
      unfold B.displayName
      rw [hpk, h]
    rw [this]
  · rfl

theorem sim_displayLaquot (a : Nat) : Sim (u8At (a + 2) 0 ∗ u16At (a + 6) 0) parseDisplayLaquot (B.displayLaquot a) (fun v _ => displayAt a v) := by
  rw [parseDisplayLaquot_eq, displayLaquot_eq]
  refine peek (fun o => ?_)
  rcases o with _ | b <;> dsimp only
  · exact err
  refine ite (fun _ => ?_) (fun _ => ?_)
  · exact bind (sim_displayName a b) (fun v _ => ofB (B.bind_pure' _) (dry Dry.leftAngle (fun _ => ret (Ent.refl _))))
  · exact ofB (B.bind_pure' _) (skip (ret (Ent.refl _)))

theorem sim_nameAddr (net : Net) (hn : net.Len16) (a : Nat) : Sim (schemeAny a ∗ addrRest a) (parseNameAddr net) (B.nameAddr net a) (fun v _ => addrAt a v) := by
  unfold parseNameAddr B.nameAddr addrRest
  refine dry Dry.sws (fun _ => ?_)
  refine pre_eq (A := (u8At (a + 2) 0 ∗ u16At (a + 6) 0) ∗ (schemeAny a ∗ (u8At a 0 ∗ u16At (a + 8) 0))) (by ac_rfl) (seq (sim_displayLaquot a) (fun d _ => ?_))
  refine pre_eq (star_left_comm _ _ _) (seq (sim_addrScheme a) (fun t _ => ?_))
  refine pre_eq (A := (u8At (a + 1) t.code ∗ u16At (a + 8) 0) ∗ (anyAt (a + 4) 2 ∗ (displayAt a d ∗ u8At a 0))) (by ac_rfl) (seq (sim_addrAfterScheme net hn true t a) (fun u _ => ?_))
  refine dry Dry.rightAngle (fun _ => ?_)
  refine pre_eq (A := u8At a 0 ∗ (displayAt a d ∗ (addrUriAt a u ∗ anyAt (a + 4) 2))) (by ac_rfl) (put8 (ret ?_))
  exact Ent.framel _ (Ent.framel _ (Ent.drop _ _))

theorem sim_addrSpecRest (net : Net) (hn : net.Len16) (params : Bool) (t : UriType) (a : Nat) :
    Sim ((u8At (a + 1) t.code ∗ anyAt (a + 4) 2) ∗ addrRest a) (parseUriAfterScheme net params t >>= fun u => pure (⟨false, none, u⟩ : Addr)) (B.addrAfterScheme net params a)
      (fun v _ => addrAt a v) := by
  unfold addrRest
  refine pre_eq (A := (u8At (a + 1) t.code ∗ u16At (a + 8) 0) ∗ (u8At a 0 ∗ ((u8At (a + 2) 0 ∗ u16At (a + 6) 0) ∗ anyAt (a + 4) 2))) (by ac_rfl) ?_
  refine ofB (B.bind_pure' _) (seq (sim_addrAfterScheme net hn params t a) (fun u _ => ret ?_))
  refine Ent.pre_eq (A' := u8At a 0 ∗ ((u8At (a + 2) 0 ∗ u16At (a + 6) 0) ∗ (addrUriAt a u ∗ anyAt (a + 4) 2))) (by ac_rfl) ?_
  exact Ent.framel _ (Ent.framel _ (Ent.drop _ _))

/-- whether `ParseScheme` succeeded, and what it left -/
def schemeTried (a : Nat) : Option UriType → Bool → Asrt
  | some t, true => u8At (a + 1) t.code ∗ anyAt (a + 4) 2
  | none, false => schemeAny a
  | _, _ => fact False

theorem sim_addr (net : Net) (hn : net.Len16) (params : Bool) (a : Nat) : Sim (schemeAny a ∗ addrRest a) (parseAddr net params) (B.addr net params a) (fun v _ => addrAt a v) := by
  unfold parseAddr B.addr
  refine peek (fun o => ?_)
  rcases o with _ | b <;> dsimp only
  · exact err
  refine ite (fun _ => sim_nameAddr net hn a) (fun _ => ?_)
  refine bind (R := fun t x => schemeTried a t x ∗ addrRest a) (orElse ((blank_any _ _).star (blank_any _ _)) ?_ (fun _ _ => Ent.refl _) ?_) (fun t x => ?_)
  · exact bind (sim_addrScheme a) (fun t _ => ret (R := schemeTried a) (Ent.refl _))
  · exact ret (Ent.refl _)
  · match t, x with
    | some t, true => exact sim_addrSpecRest net hn params t a
    | none, false => exact sim_nameAddr net hn a
    | none, true => exact fact_elim (fun h => h.elim)
    | some _, false => exact fact_elim (fun h => h.elim)

theorem sim_addrSpec (net : Net) (hn : net.Len16) (a : Nat) : Sim (schemeAny a ∗ addrRest a) (parseAddrSpec net) (B.addrSpec net a) (fun v _ => addrAt a v) := by
  unfold parseAddrSpec B.addrSpec
  refine seq (sim_addrScheme a) (fun t _ => ?_)
  unfold addrRest
  refine pre_eq (A := (u8At (a + 1) t.code ∗ u16At (a + 8) 0) ∗ (u8At a 0 ∗ ((u8At (a + 2) 0 ∗ u16At (a + 6) 0) ∗ anyAt (a + 4) 2))) (by ac_rfl) ?_
  refine seq (sim_addrAfterScheme net hn true t a) (fun u _ => ?_)
  refine pre_eq (A := u8At a 0 ∗ ((u8At (a + 2) 0 ∗ u16At (a + 6) 0) ∗ (addrUriAt a u ∗ anyAt (a + 4) 2))) (by ac_rfl) (put8 (ret ?_))
  exact Ent.framel _ (Ent.framel _ (Ent.drop _ _))

theorem sim_addrParse (net : Net) (hn : net.Len16) (params : Bool) (a : Nat) (l : Bytes) (hl : l.length = 10) :
    Sim (bytes a l) (parseAddr net params) (B.addrParse net params a) (fun v _ => addrAt a v) := by
  unfold B.addrParse
  refine pre_eq (star_emp _).symm (zero hl ?_)
  rw [star_emp]
  exact pre (sim_addr net hn params a) (addr_zeros a)

/-! ## encoding -/
open Shows
theorem shows_genericParamValue (a : Nat) (v : GenericParam) : Shows (genericParamAt a v) (E.genericParamValue a) (.ok v.encodeValue) := by
  refine Shows.right ?_
  unfold E.genericParamValue GenericParam.encodeValue
  have h : ∀ (s : Bytes) (t : UInt8) (o : Bytes), (∀ q, Shows (strAt q s) (if t = 0 ∨ t = 2 then E.str q else if t = 1 then E.lit [0x22] +++ (E.str q +++ E.lit [0x22]) else E.lit []) (.ok o)) →
      Shows (strField (a + 2) (some s) ∗ u8At (a + 6) t) (E.u16 (a + 2) fun v => if v ≠ 0 then E.lit [0x3d] +++ (E.u8 (a + 6) fun t =>
        if t = 0 ∨ t = 2 then E.str v else if t = 1 then E.lit [0x22] +++ (E.str v +++ E.lit [0x22]) else E.lit []) else E.lit []) (.ok (0x3d :: o)) := by
    intro s t o ho
    refine Shows.ex_elim_star (fun q => Shows.pre_eq (star_assoc _ _ _) (f16 (Shows.pre_eq (star_left_comm _ _ _) (str_ne (fun hq => ?_)))))
    rw [if_pos hq]
    refine cat (lit [0x3d]) ?_
    exact Shows.pre_eq (A := u8At (a + 6) t ∗ (u16At (a + 2) q ∗ strAt q s)) (by ac_rfl) (f8 (Shows.right (Shows.right (ho q))))
  rcases v.value with _ | ⟨s⟩ | ⟨s⟩ | ⟨s⟩ <;> dsimp only [genValueAt]
  · refine f16 ?_
    rw [if_neg (by decide)]
    exact lit _
  · refine h s 0 s (fun q => ?_)
    rw [if_pos (by decide)]
    exact cstr
  · refine h s 1 (0x22 :: s ++ [0x22]) (fun q => ?_)
    rw [if_neg (by decide), if_pos rfl]
    exact cat (x := [0x22]) (y := s ++ [0x22]) (lit [0x22]) (cat cstr (lit [0x22]))
  · refine h s 2 s (fun q => ?_)
    rw [if_pos (by decide)]
    exact cstr

theorem shows_genericParam (a : Nat) (v : GenericParam) : Shows (genericParamAt a v) (E.genericParam a) (.ok v.encode) := by
  unfold E.genericParam GenericParam.encode
  have h2 := shows_genericParamValue a v
  unfold genericParamAt at h2 ⊢
  unfold strField at h2 ⊢
  rw [ex_star] at h2 ⊢
  refine Shows.ex_elim (fun q => Shows.pre_eq (star_assoc _ _ _) (f16 (Shows.pre_eq (star_left_comm _ _ _) (str_ne (fun hq => ?_)))))
  rw [if_pos hq]
  refine cat (left cstr) (Shows.pre h2 (Ent.ex q ?_))
  exact Ent.of_eq (show strAt q v.name ∗ (u16At a q ∗ _) = (u16At a q ∗ strAt q v.name) ∗ _ by ac_rfl)

theorem shows_headerParams (names : List Bytes) (pf kf : Nat) (ps : Params) : Shows (paramsAt names pf kf ps) (E.headerParams names pf kf) (.ok (ps.encode names)) := by
  unfold E.headerParams Params.encode paramsAt encodeGenericParams
  refine cat (Shows.right (known shows_genericParamValue _ _ _)) (left (Shows.ex_elim (fun q => f16 (Shows.right ?_))))
  rcases ps.params with _ | ⟨w, vs⟩
  · refine Shows.pre_eq (star_emp _).symm (Shows.fact_elim (fun hq => ?_))
    rw [if_neg (by omega)]
    exact lit _
  · refine list_ne (fun hp => ?_)
    rw [if_pos hp]
    have := walk (off := 4) (sep := []) (g := fun v => .ok (0x3b :: GenericParam.encode v)) (fun a v => cat (lit [0x3b]) (shows_genericParam a v)) w vs q
    rw [show (vs.map fun v => Out.ok (0x3b :: GenericParam.encode v)) = (vs.map fun v => 0x3b :: GenericParam.encode v).map Out.ok by rw [List.map_map]; rfl, joined_ok] at this
    rw [show ((w :: vs).flatMap fun p => (0x3b : UInt8) :: p.encode) = (0x3b :: w.encode) ++ List.flatMap (fun x => [] ++ x) (vs.map fun v => 0x3b :: GenericParam.encode v) from ?_]
    · exact this
    · rw [List.flatMap_cons, List.flatMap_map]
      rfl

theorem shows_addrUri (net : Net) (fl : Flags) (a : Nat) (v : AddrUri) : Shows (addrUriAt a v) (E.addrUri net fl a) (.ok (v.encode net fl)) := by
  unfold E.addrUri AddrUri.encode
  rcases v with u | u <;> dsimp only [addrUriAt]
  · rw [star_ex]
    refine Shows.ex_elim (fun q => Shows.pre_eq (star_left_comm _ _ _) (f16 (Shows.pre_eq (A := fact (8 ≤ q) ∗ (u8At (a + 1) (if u.secure then 3 else 2) ∗ (u16At (a + 8) q ∗ sipUriAt q u))) (by ac_rfl)
      (Shows.fact_elim (fun hq => ?_)))))
    rw [if_pos (show q ≠ 0 by omega)]
    refine f8 (Shows.right (Shows.right ?_))
    rw [if_pos (by cases u.secure <;> decide)]
    exact shows_sipUri net fl q u
  · rw [star_ex]
    refine Shows.ex_elim (fun q => Shows.pre_eq (star_left_comm _ _ _) (f16 (Shows.pre_eq (A := fact (8 ≤ q) ∗ (u8At (a + 1) 4 ∗ (u16At (a + 8) q ∗ telUriAt q u))) (by ac_rfl)
      (Shows.fact_elim (fun hq => ?_)))))
    rw [if_pos (show q ≠ 0 by omega)]
    refine f8 (Shows.right (Shows.right ?_))
    rw [if_neg (by decide), if_pos (by decide)]
    exact shows_telUri fl q u

theorem shows_addr (net : Net) (fl : Flags) (a : Nat) (v : Addr) : Shows (addrAt a v) (E.addr net fl a) (.ok (v.encode net fl)) := by
  unfold E.addr Addr.encode addrAt
  refine f8 (Shows.right ?_)
  rw [show (decide ((if v.nameAddr = true then (1 : UInt8) else 0) = 1) || fl.encodeUriAsNameSpace) = (v.nameAddr || fl.encodeUriAsNameSpace) by cases v.nameAddr <;> rfl]
  cases (v.nameAddr || fl.encodeUriAsNameSpace)
  · rw [if_neg (by decide), if_neg (by decide)]
    exact Shows.right (shows_addrUri net fl a v.uri)
  · rw [if_pos rfl, if_pos rfl]
    rw [show v.encodeDisplay ++ 0x3c :: v.uri.encode net fl ++ [0x3e] = v.encodeDisplay ++ ([0x3c] ++ (v.uri.encode net fl ++ [0x3e])) by simp]
    refine cat (left ?_) (cat (lit _) (cat (Shows.right (shows_addrUri net fl a v.uri)) (lit _)))
    unfold Addr.encodeDisplay
    rcases v.display with _ | ⟨q, s⟩ <;> dsimp only [displayAt]
    · refine Shows.pre_eq (star_comm _ _) (f16 ?_)
      rw [if_neg (by decide)]
      exact lit _
    · refine Shows.pre_eq (star_comm _ _) (Shows.ex_elim_star (fun p => Shows.pre_eq (star_assoc _ _ _) (f16 (Shows.pre_eq (star_left_comm _ _ _) (str_ne (fun hp => ?_))))))
      rw [if_pos hp]
      refine Shows.pre_eq (A := u8At (a + 2) (if q then 1 else 0) ∗ (u16At (a + 6) p ∗ strAt p s)) (by ac_rfl) (f8 (Shows.right (Shows.right ?_)))
      cases q
      · exact cstr
      · exact cat (x := [0x22]) (y := s ++ [0x22]) (lit [0x22]) (cat cstr (lit [0x22]))

theorem shows_addrSpec (net : Net) (fl : Flags) (a : Nat) (v : Addr) : Shows (addrAt a v) (E.addrSpec net fl a) (.ok (v.encodeAddrSpec net fl)) := by
  unfold E.addrSpec Addr.encodeAddrSpec addrAt
  refine Shows.right (Shows.right ?_)
  rcases v.uri with u | u <;> dsimp only [addrUriAt]
  · rw [star_ex]
    refine Shows.ex_elim (fun q => Shows.pre_eq (star_left_comm _ _ _) (f16 (Shows.pre_eq (A := fact (8 ≤ q) ∗ (u8At (a + 1) (if u.secure then 3 else 2) ∗ (u16At (a + 8) q ∗ sipUriAt q u))) (by ac_rfl)
      (Shows.fact_elim (fun hq => ?_)))))
    rw [if_pos (show q ≠ 0 by omega)]
    refine f8 (Shows.right (Shows.right ?_))
    rw [if_pos (by cases u.secure <;> decide)]
    exact shows_sipUri net fl q u
  · rw [star_ex]
    refine Shows.ex_elim (fun q => Shows.pre_eq (star_left_comm _ _ _) (f16 (Shows.pre_eq (A := fact (8 ≤ q) ∗ (u8At (a + 1) 4 ∗ (u16At (a + 8) q ∗ telUriAt q u))) (by ac_rfl)
      (Shows.fact_elim (fun hq => ?_)))))
    rw [if_pos (show q ≠ 0 by omega)]
    refine f8 (lit _)

/-- `SipAddr.Parse` on the bytes of the arena. -/
theorem addr_in_memory (net : Net) (hn : net.Len16) (params : Bool) (c : BCtx) (hf : Fine c) (a : Nat) (ha : a + 10 ≤ c.a.used) :
    StoresAs c (fun i => a ≤ i ∧ i < a + 10) (parseAddr net params c.abs) (B.addrParse net params a c) (fun (fl : Flags) _ => E.addr net fl a) (fun fl v => .ok (v.encode net fl)) := by
  obtain ⟨l, hl, hb⟩ := bytes_of_mem c.a.mem a 10
  exact stores_of_sim (sim_addrParse net hn params a l hl) (fun fl u _ => shows_addr net fl a u) c hf _ hb (fun i hi => by omega)
/-- the hypotheses hold and the parse succeeds: the bytes at 10 encode to the address, the neighbours are untouched, and the telephone number has lost its separators -/
theorem heap_sample_addr : Fine (heapSample "Bob Smith <tel:86-10;x=1>;tag=7") ∧
    (match B.addrParse ⟨fun _ => none, fun _ => []⟩ false 10 (heapSample "Bob Smith <tel:86-10;x=1>;tag=7") with
     | .ok (some _, c) => (E.addr ⟨fun _ => none, fun _ => []⟩ {} 10 c.a.mem, c.pos, c.a.used, c.a.mem 9, c.a.mem 20)
     | _ => (.panic, 0, 0, 0, 0)) = (.ok (str "Bob Smith <tel:8610;x=1>"), 25, 85, 0xa5, 0xa5) := by
  refine ⟨by unfold Fine; decide +kernel, by decide +kernel⟩
end Sip
