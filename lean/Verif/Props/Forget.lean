import Verif.Props.HeapEncodeTop
/-! # C54: what the arena held before has no influence -/
namespace Sip
attribute [local irreducible] u32 u16 roundToAlign
open Asrt

/-! ## the statement -/
/-- what a caller sees of an outcome besides the bytes of the arena: panic, hang, failure or success, and afterwards position, errors, flags and memory mark -/
def seen {β : Type} : Out (Option β × BCtx) → Out (Option Unit × Ctx)
  | .ok (x, c) => .ok (x.map fun _ => (), c.abs)
  | .panic => .panic
  | .hang => .hang

/-- Two runs that cannot be told apart: they look alike, and after success writing the struct of the one and the struct of the other gives the same, whatever the parameter `j` of the
writer (the flags) is. -/
def Twins {β₁ β₂ ι : Type} (w1 : ι → β₁ → E) (w2 : ι → β₂ → E) (o1 : Out (Option β₁ × BCtx)) (o2 : Out (Option β₂ × BCtx)) : Prop :=
  seen o1 = seen o2 ∧ ∀ x1 d1 x2 d2, o1 = .ok (some x1, d1) → o2 = .ok (some x2, d2) → ∀ j, w1 j x1 d1.a.mem = w2 j x2 d2.a.mem

theorem twins_of_stores {α β₁ β₂ ι : Type} {c1 c2 : BCtx} {own1 own2 : Nat → Prop} {v : Out (Option α × Ctx)} {o1 : Out (Option β₁ × BCtx)} {o2 : Out (Option β₂ × BCtx)}
    {w1 : ι → β₁ → E} {w2 : ι → β₂ → E} {enc : ι → α → Out Bytes} (h1 : StoresAs c1 own1 v o1 w1 enc) (h2 : StoresAs c2 own2 v o2 w2 enc) : Twins w1 w2 o1 o2 := by
  unfold StoresAs at h1 h2
  rcases v with ⟨_ | v, d⟩ | _ | _ <;> dsimp only at h1 h2
  · obtain ⟨d1, rfl, i2, _⟩ := h1
    obtain ⟨d2, rfl, k2, _⟩ := h2
    refine ⟨?_, fun x1 _ _ _ h _ => by cases h⟩
    unfold seen
    dsimp only
    rw [i2, k2]
    rfl
  · obtain ⟨y1, d1, rfl, i2, _, i4⟩ := h1
    obtain ⟨y2, d2, rfl, k2, _, k4⟩ := h2
    refine ⟨?_, ?_⟩
    · unfold seen
      dsimp only
      rw [i2, k2]
      rfl
    · intro x1 e1 x2 e2 h h' j
      cases h
      cases h'
      rw [i4 j _ (fun _ _ => rfl), k4 j _ (fun _ _ => rfl)]
  · subst h1 h2
    exact ⟨rfl, fun x1 _ _ _ h _ => by cases h⟩
  · subst h1 h2
    exact ⟨rfl, fun x1 _ _ _ h _ => by cases h⟩

/-! ## the parse methods
`c1` and `c2` are the same input, position, errors, flags, capacity and memory mark, over any two contents of the arena; the structs may be at different addresses. -/
theorem sipUri_forgets (net : Net) (hn : net.Len16) (c1 c2 : BCtx) (h : c1.abs = c2.abs) (f1 : Fine c1) (f2 : Fine c2) (a1 a2 : Nat) (h1 : a1 + 18 ≤ c1.a.used) (h2 : a2 + 18 ≤ c2.a.used) :
    Twins (fun (fl : Flags) _ => E.sipUri net fl a1) (fun fl _ => E.sipUri net fl a2) (B.sipUri net a1 c1) (B.sipUri net a2 c2) := by
  have k1 := sipUri_in_memory net hn c1 f1 a1 h1
  rw [h] at k1
  exact twins_of_stores k1 (sipUri_in_memory net hn c2 f2 a2 h2)

theorem telUri_forgets (c1 c2 : BCtx) (h : c1.abs = c2.abs) (f1 : Fine c1) (f2 : Fine c2) (a1 a2 : Nat) (h1 : a1 + 10 ≤ c1.a.used) (h2 : a2 + 10 ≤ c2.a.used) :
    Twins (fun (fl : Flags) _ => E.telUri fl a1) (fun fl _ => E.telUri fl a2) (B.telUri a1 c1) (B.telUri a2 c2) := by
  have k1 := telUri_in_memory c1 f1 a1 h1
  rw [h] at k1
  exact twins_of_stores k1 (telUri_in_memory c2 f2 a2 h2)

theorem addr_forgets (net : Net) (hn : net.Len16) (params : Bool) (c1 c2 : BCtx) (h : c1.abs = c2.abs) (f1 : Fine c1) (f2 : Fine c2) (a1 a2 : Nat) (h1 : a1 + 10 ≤ c1.a.used) (h2 : a2 + 10 ≤ c2.a.used) :
    Twins (fun (fl : Flags) _ => E.addr net fl a1) (fun fl _ => E.addr net fl a2) (B.addrParse net params a1 c1) (B.addrParse net params a2 c2) := by
  have k1 := addr_in_memory net hn params c1 f1 a1 h1
  rw [h] at k1
  exact twins_of_stores k1 (addr_in_memory net hn params c2 f2 a2 h2)

theorem header_forgets (net : Net) (hn : net.Len16) (k : HKind) (c1 c2 : BCtx) (h : c1.abs = c2.abs) (f1 : Fine c1) (f2 : Fine c2) (a1 a2 : Nat)
    (h1 : a1 + B.initSize k ≤ c1.a.used) (h2 : a2 + B.initSize k ≤ c2.a.used) :
    Twins (fun (fl : Flags) _ => E.hdr net fl k a1) (fun fl _ => E.hdr net fl k a2) (B.hdrParse net k a1 c1) (B.hdrParse net k a2 c2) := by
  have k1 := header_in_memory net hn k c1 f1 a1 h1
  rw [h] at k1
  exact twins_of_stores k1 (header_in_memory net hn k c2 f2 a2 h2)

/-- `ParseValue` of a header, after `Init` -/
theorem header_value_forgets (net : Net) (hn : net.Len16) (k : HKind) (c1 c2 : BCtx) (h : c1.abs = c2.abs) (f1 : Fine c1) (f2 : Fine c2) (a1 a2 : Nat)
    (h1 : a1 + B.initSize k ≤ c1.a.used) (h2 : a2 + B.initSize k ≤ c2.a.used) :
    Twins (fun (fl : Flags) _ => E.hdrValue net fl k a1) (fun fl _ => E.hdrValue net fl k a2) (B.hdrInitValue net k a1 c1) (B.hdrInitValue net k a2 c2) := by
  have k1 := header_value_in_memory net hn k c1 f1 a1 h1
  rw [h] at k1
  exact twins_of_stores k1 (header_value_in_memory net hn k c2 f2 a2 h2)

/-- reading a header value into a struct that is allocated on the way, as `ParseHeaders` does -/
theorem header_alloc_forgets (net : Net) (hn : net.Len16) (k : HKind) (c1 c2 : BCtx) (h : c1.abs = c2.abs) (f1 : Fine c1) (f2 : Fine c2) :
    Twins (fun (fl : Flags) x => E.hdrValue net fl k x) (fun fl x => E.hdrValue net fl k x) (B.hdrAlloc net k c1) (B.hdrAlloc net k c2) := by
  have k1 := header_alloc_in_memory net hn k c1 f1
  rw [h] at k1
  exact twins_of_stores k1 (header_alloc_in_memory net hn k c2 f2)

theorem startLine_forgets (net : Net) (hn : net.Len16) (c1 c2 : BCtx) (h : c1.abs = c2.abs) (f1 : Fine c1) (f2 : Fine c2) (a1 a2 : Nat) (h1 : a1 + 20 ≤ c1.a.used) (h2 : a2 + 20 ≤ c2.a.used) :
    Twins (fun (fl : Flags) _ => E.startLine net fl a1) (fun fl _ => E.startLine net fl a2) (B.startLineParse net a1 c1) (B.startLineParse net a2 c2) := by
  have k1 := startLine_in_memory net hn c1 f1 a1 h1
  rw [h] at k1
  exact twins_of_stores k1 (startLine_in_memory net hn c2 f2 a2 h2)

/-- UriParam.go:108-147 `ParseUriParams` (no parameter is a known one) and 193-206 `EncodeUriParams`, on the bytes of the arena -/
theorem uriParams_in_memory (cs : CharsetInfo) (c : BCtx) (hf : Fine c) :
    StoresAs c (fun _ => False) (parseUriParams cs (fun (_ : Unit) _ => pure none) () c.abs) (B.uriParams cs (fun _ _ => pure false) c)
      (fun (fl : Flags) x => E.uriParams fl cs x) (fun fl v => .ok (encodeUriParams fl cs v.2)) := by
  refine stores_of_sim (A := emp) (Sim.post (sim_uriParams cs (fun _ => emp) _ _ (fun k v n a X _ _ _ => Sim.ret ?_) ()) (fun v x => Ent.of_eq (emp_star _))) (fun fl v x => shows_uriParams fl cs x v.2) c hf _ ⟨trivial, fun i hi => hi⟩ (fun i hi => hi.elim)
  exact Ent.refl _
theorem uriParams_forget (cs : CharsetInfo) (c1 c2 : BCtx) (h : c1.abs = c2.abs) (f1 : Fine c1) (f2 : Fine c2) :
    Twins (fun (fl : Flags) x => E.uriParams fl cs x) (fun fl x => E.uriParams fl cs x) (B.uriParams cs (fun _ _ => pure false) c1) (B.uriParams cs (fun _ _ => pure false) c2) := by
  have k1 := uriParams_in_memory cs c1 f1
  rw [h] at k1
  exact twins_of_stores k1 (uriParams_in_memory cs c2 f2)

/-! ## messages -/
theorem msg_forgets (net : Net) (hn : net.Len16) (c1 c2 : BCtx) (h : c1.abs = c2.abs) (f1 : Fine c1) (f2 : Fine c2) (a1 a2 : Nat) (h1 : a1 + 68 ≤ c1.a.used) (h2 : a2 + 68 ≤ c2.a.used) :
    seen (B.msg net a1 c1) = seen (B.msg net a2 c2) := by
  have k1 := msg_in_memory net hn c1 f1 a1 h1
  have k2 := msg_in_memory net hn c2 f2 a2 h2
  rw [h] at k1
  rcases hp : Msg.parse net c2.abs with ⟨r, d⟩ | _ | _ <;> rw [hp] at k1 k2 <;> dsimp only at k1 k2
  · obtain ⟨d1, i1, i2, _⟩ := k1
    obtain ⟨d2, j1, j2, _⟩ := k2
    rw [i1, j1]
    unfold seen
    dsimp only
    rw [i2, j2]
  · rw [k1, k2]
  · rw [k1, k2]

/-- A message that is read once and written into any number of buffers: the same texts, and at the end the same position, errors and memory mark. -/
theorem msg_texts_forget (net : Net) (hn : net.Len16) (c1 c2 : BCtx) (h : c1.abs = c2.abs) (f1 : Fine c1) (f2 : Fine c2) (a1 a2 : Nat) (h1 : a1 + 68 ≤ c1.a.used) (h2 : a2 + 68 ≤ c2.a.used)
    (bufs : List Bytes) (hs : ∀ m d, Msg.parse net c1.abs = .ok (some m, d) → Short net m bufs d) :
    (match (B.msg net a1 >>= fun _ => B.encodes net a1 bufs) c1 with | .ok (r, d) => Out.ok (r, d.abs) | .panic => .panic | .hang => .hang) =
      (match (B.msg net a2 >>= fun _ => B.encodes net a2 bufs) c2 with | .ok (r, d) => Out.ok (r, d.abs) | .panic => .panic | .hang => .hang) := by
  have k1 := msg_in_memory net hn c1 f1 a1 h1
  have k2 := msg_in_memory net hn c2 f2 a2 h2
  rw [h] at k1 hs
  rcases hp : Msg.parse net c2.abs with ⟨_ | m, d⟩ | _ | _ <;> rw [hp] at k1 k2 <;> dsimp only at k1 k2
  · obtain ⟨d1, i1, i2, _⟩ := k1
    obtain ⟨d2, j1, j2, _⟩ := k2
    rw [show (B.msg net a1 >>= fun _ => B.encodes net a1 bufs) c1 = .ok (none, d1) from by rw [B.bind_apply']; unfold B.bind; rw [i1]; rfl,
      show (B.msg net a2 >>= fun _ => B.encodes net a2 bufs) c2 = .ok (none, d2) from by rw [B.bind_apply']; unfold B.bind; rw [j1]; rfl]
    dsimp only
    rw [i2, j2]
  · have hs := hs m d hp
    have hne : ∃ r d', P.encodes net m bufs d = .ok (r, d') := by
      obtain ⟨d1, i1, i2, i3, _, i5⟩ := k1
      obtain ⟨own, i6, _⟩ := i5 m rfl
      have := encodes_in_memory net a1 bufs m own d1 i3 i6 (by rw [i2]; exact hs)
      rw [i2] at this
      rcases he : P.encodes net m bufs d with ⟨r, d'⟩ | _ | _ <;> rw [he] at this <;> dsimp only at this
      exact ⟨r, d', rfl⟩
    obtain ⟨r, d', he⟩ := hne
    obtain ⟨e1, i1, i2⟩ := msg_memory_roundtrip net hn c1 f1 a1 h1 bufs m d (by rw [h]; exact hp) hs r d' he
    obtain ⟨e2, j1, j2⟩ := msg_memory_roundtrip net hn c2 f2 a2 h2 bufs m d hp hs r d' he
    rw [i1, j1]
    dsimp only
    rw [i2, j2]
  · rw [show (B.msg net a1 >>= fun _ => B.encodes net a1 bufs) c1 = .panic from by rw [B.bind_apply']; unfold B.bind; rw [k1],
      show (B.msg net a2 >>= fun _ => B.encodes net a2 bufs) c2 = .panic from by rw [B.bind_apply']; unfold B.bind; rw [k2]]
  · rw [show (B.msg net a1 >>= fun _ => B.encodes net a1 bufs) c1 = .hang from by rw [B.bind_apply']; unfold B.bind; rw [k1],
      show (B.msg net a2 >>= fun _ => B.encodes net a2 bufs) c2 = .hang from by rw [B.bind_apply']; unfold B.bind; rw [k2]]

/-! ## the structs whose `Parse` does not call `Init`
A parameter or header of a URI and a generic parameter that are read a second time into the same struct keep the old value when the new text has none. -/
open Sim
/-- UriParam.go:46-68 `Parse` twice into one struct, the second time at `q` -/
def UriParam.reuse (cs : CharsetInfo) (q : Nat) : P UriParam := do
  let v ← UriParam.parse cs
  P.setPos q
  let w ← UriParam.parse cs
  pure { w with value := w.value.or v.value }
/-- SipGenericParam.go:70-99 `Parse` twice into one struct, the second time at `q` -/
def GenericParam.reuse (q : Nat) : P GenericParam := do
  let v ← GenericParam.parse
  P.setPos q
  let w ← GenericParam.parse
  pure { w with value := w.value.or v.value }
/-- UriHeader.go:39-66 `Parse` twice into one struct, the second time at `q` -/
def UriHeader.reuse (cs : CharsetInfo) (q : Nat) : P UriHeader := do
  let v ← UriHeader.parse cs
  P.setPos q
  let w ← UriHeader.parse cs
  pure { w with value := w.value.or v.value }

theorem sim_uriParam_over (cs : CharsetInfo) (a n : Nat) (old : Option Bytes) :
    Sim (u16At a n ∗ strField (a + 2) old) (UriParam.parse cs) (B.uriParam cs a) (fun w _ => uriParamAt a { w with value := w.value.or old }) := by
  unfold UriParam.parse B.uriParam
  refine strPut (orErr (strEsc _)) (fun v x _ _ => peek (fun o => ite (fun _ => ?_) (fun _ => ?_)))
  · refine skip ?_
    refine pre_eq (A := strField (a + 2) old ∗ (u16At a x ∗ strAt x v)) (by ac_rfl) (ex_elim_star (fun y0 => ?_))
    refine pre (A := u16At (a + 2) y0 ∗ (u16At a x ∗ strAt x v)) (strPut (orErr (strEsc _)) (fun w y _ _ => ?_)) (Ent.frame _ (Ent.drop _ _))
    refine ret ?_
    refine Ent.pre_eq (A' := (u16At a x ∗ strAt x v) ∗ (u16At (a + 2) y ∗ strAt y w)) (by ac_rfl) (Ent.star (strField_some _ _ _) (strField_some _ _ _))
  · refine ret ?_
    exact Ent.pre_eq (star_assoc _ _ _).symm (Ent.frame _ (strField_some _ _ _))

theorem sim_uriParam_reuse (cs : CharsetInfo) (a q : Nat) :
    Sim (zeros a 4) (UriParam.reuse cs q) (B.uriParam cs a >>= fun _ => B.setPos q >>= fun _ => B.uriParam cs a) (fun w _ => uriParamAt a w) := by
  unfold UriParam.reuse
  refine bind (sim_uriParam cs a) (fun v _ => ex_elim (fun n => dry (Dry.setPos q) (fun _ => ?_)))
  refine ofB (B.bind_pure' _) (bind (pre (sim_uriParam_over cs a n v.value) (Ent.framel _ (Ent.dropl _ _))) (fun w _ => ret (Ent.refl _)))

theorem sim_uriHeader_over (cs : CharsetInfo) (a n : Nat) (old : Option Bytes) :
    Sim (u16At a n ∗ strField (a + 2) old) (UriHeader.parse cs) (B.uriHeader cs a) (fun w _ => uriHeaderAt a { w with value := w.value.or old }) := by
  unfold UriHeader.parse B.uriHeader
  refine strPut (orErr (strEsc _)) (fun v x _ _ => peek (fun o => ite (fun _ => err) (fun _ => ?_)))
  refine skip (peek (fun o => ite (fun _ => ?_) (fun _ => ?_)))
  · refine ret ?_
    exact Ent.pre_eq (star_assoc _ _ _).symm (Ent.frame _ (strField_some _ _ _))
  · refine pre_eq (A := strField (a + 2) old ∗ (u16At a x ∗ strAt x v)) (by ac_rfl) (ex_elim_star (fun y0 => ?_))
    refine pre (A := u16At (a + 2) y0 ∗ (u16At a x ∗ strAt x v)) (strPut (orErr (strEscEmpty _)) (fun w y _ _ => ?_)) (Ent.frame _ (Ent.drop _ _))
    refine ret ?_
    refine Ent.pre_eq (A' := (u16At a x ∗ strAt x v) ∗ (u16At (a + 2) y ∗ strAt y w)) (by ac_rfl) (Ent.star (strField_some _ _ _) (strField_some _ _ _))

theorem sim_uriHeader_reuse (cs : CharsetInfo) (a q : Nat) :
    Sim (zeros a 4) (UriHeader.reuse cs q) (B.uriHeader cs a >>= fun _ => B.setPos q >>= fun _ => B.uriHeader cs a) (fun w _ => uriHeaderAt a w) := by
  unfold UriHeader.reuse
  refine bind (sim_uriHeader cs a) (fun v _ => ex_elim_star (fun n => dry (Dry.setPos q) (fun _ => ?_)))
  refine pre (A := u16At a n ∗ strField (a + 2) v.value) ?_ (Ent.frame _ (Ent.drop _ _))
  refine ofB (B.bind_pure' _) (bind (sim_uriHeader_over cs a n v.value) (fun w _ => ret (Ent.refl _)))

theorem genValueAt_fields (a : Nat) (v : Option GenValue) : genValueAt a v ⊢ₘ (ex fun p : Nat × UInt8 => u16At (a + 2) p.1 ∗ u8At (a + 6) p.2) := by
  have k (s : Option Bytes) (t : UInt8) : strField (a + 2) s ∗ u8At (a + 6) t ⊢ₘ (ex fun p : Nat × UInt8 => u16At (a + 2) p.1 ∗ u8At (a + 6) p.2) := by
    unfold strField
    rw [ex_star]
    exact Ent.ex_elim (fun q => Ent.ex (q, t) (Ent.frame _ (Ent.drop _ _)))
  rcases v with _ | _ | _ | _
  · exact Ent.ex (0, 0) (Ent.refl _)
  · exact k _ _
  · exact k _ _
  · exact k _ _

theorem sim_genValue_over (a n : Nat) (t : UInt8) : Sim (u16At (a + 2) n ∗ u8At (a + 6) t) GenericParam.parseValue (B.genValue a) (fun v _ => genValueAt a (some v)) := by
  unfold GenericParam.parseValue B.genValue
  refine peek (fun o => ?_)
  rcases o with _ | b <;> dsimp only
  · exact err
  refine ite (fun _ => ?_) (fun _ => ite (fun _ => ?_) (fun _ => ite (fun _ => ?_) (fun _ => err)))
  · refine strPut (Sim.str _) (fun v x _ _ => pre_eq (A := u8At (a + 6) t ∗ (u16At (a + 2) x ∗ strAt x v)) (by ac_rfl) (put8 (ret ?_)))
    exact Ent.pre_eq (star_comm _ _) (Ent.frame _ (strField_some _ _ _))
  · refine strPut quoted (fun v x _ _ => pre_eq (A := u8At (a + 6) t ∗ (u16At (a + 2) x ∗ strAt x v)) (by ac_rfl) (put8 (ret ?_)))
    exact Ent.pre_eq (star_comm _ _) (Ent.frame _ (strField_some _ _ _))
  · refine strPut sim_bracketValue (fun v x _ _ => pre_eq (A := u8At (a + 6) t ∗ (u16At (a + 2) x ∗ strAt x v)) (by ac_rfl) (put8 (ret ?_)))
    exact Ent.pre_eq (star_comm _ _) (Ent.frame _ (strField_some _ _ _))

theorem sim_genericParam_over (a n : Nat) (old : Option GenValue) :
    Sim (u16At a n ∗ genValueAt a old) GenericParam.parse (B.genericParam a) (fun w _ => genericParamAt a { w with value := w.value.or old }) := by
  unfold GenericParam.parse B.genericParam
  have keep (v : Bytes) (x : Nat) : u16At a x ∗ (strAt x v ∗ genValueAt a old) ⊢ₘ genericParamAt a ⟨v, (none : Option GenValue).or old⟩ :=
    Ent.pre_eq (star_assoc _ _ _).symm (Ent.frame _ (strField_some _ _ _))
  refine strPut (orErr (strEsc _)) (fun v x _ _ => peek (fun o => ?_))
  rcases o with _ | b <;> dsimp only
  · exact ret (keep v x)
  refine ite (fun _ => ret (keep v x)) (fun _ => dry (Dry.markCanOmmit _) (fun m => ite (fun _ => ret (keep v x)) (fun _ => ?_)))
  refine pre (A := (ex fun p : Nat × UInt8 => u16At (a + 2) p.1 ∗ u8At (a + 6) p.2) ∗ (u16At a x ∗ strAt x v)) (ex_elim_star (fun p => ?_)) ?_
  · refine ofB (B.bind_pure' _) (seq (sim_genValue_over a p.1 p.2) (fun v _ => ret ?_))
    refine Ent.pre_eq (star_comm _ _) ?_
    exact Ent.frame _ (strField_some _ _ _)
  · exact Ent.pre_eq (A' := genValueAt a old ∗ (u16At a x ∗ strAt x v)) (by ac_rfl) (Ent.frame _ (genValueAt_fields a old))

theorem sim_genericParam_reuse (a q : Nat) :
    Sim (u16At a 0 ∗ (u16At (a + 2) 0 ∗ u8At (a + 6) 0)) (GenericParam.reuse q) (B.genericParam a >>= fun _ => B.setPos q >>= fun _ => B.genericParam a) (fun w _ => genericParamAt a w) := by
  unfold GenericParam.reuse
  refine bind (sim_genericParam a) (fun v _ => ex_elim (fun n => dry (Dry.setPos q) (fun _ => ?_)))
  refine ofB (B.bind_pure' _) (bind (pre (sim_genericParam_over a n v.value) (Ent.framel _ (Ent.dropl _ _))) (fun w _ => ret (Ent.refl _)))

theorem zeros_of_mem {m : Mem} {a n : Nat} (h : ∀ i, a ≤ i → i < a + n → m i = 0) : (zeros a n).holds m (fun i => a ≤ i ∧ i < a + n) := by
  have := bytes_holds_of (a := a) (l := List.replicate n 0) (m := m) (fun j hj => by
    rw [List.length_replicate] at hj
    rw [h (a + j) (by omega) (by omega), List.getD_eq_getElem?_getD, List.getElem?_replicate, if_pos hj]
    rfl)
  rw [List.length_replicate] at this
  exact this

/-- `UriParam.Parse` twice into one struct that was empty before: what the struct then holds. -/
theorem uriParam_reused (cs : CharsetInfo) (q : Nat) (c : BCtx) (hf : Fine c) (a : Nat) (ha : a + 4 ≤ c.a.used) (h0 : ∀ i, a ≤ i → i < a + 4 → c.a.mem i = 0) :
    StoresAs c (fun i => a ≤ i ∧ i < a + 4) (UriParam.reuse cs q c.abs) ((B.uriParam cs a >>= fun _ => B.setPos q >>= fun _ => B.uriParam cs a) c)
      (fun (fl : Flags) _ => E.uriParam fl cs a) (fun fl w => .ok (w.encode fl cs)) :=
  stores_of_sim (sim_uriParam_reuse cs a q) (fun fl w _ => shows_uriParam fl cs a w) c hf _ (zeros_of_mem h0) (fun i hi => by omega)
theorem uriHeader_reused (cs : CharsetInfo) (q : Nat) (c : BCtx) (hf : Fine c) (a : Nat) (ha : a + 4 ≤ c.a.used) (h0 : ∀ i, a ≤ i → i < a + 4 → c.a.mem i = 0) :
    StoresAs c (fun i => a ≤ i ∧ i < a + 4) (UriHeader.reuse cs q c.abs) ((B.uriHeader cs a >>= fun _ => B.setPos q >>= fun _ => B.uriHeader cs a) c)
      (fun (fl : Flags) _ => E.uriHeader fl cs a) (fun fl w => .ok (w.encode fl cs)) :=
  stores_of_sim (sim_uriHeader_reuse cs a q) (fun fl w _ => shows_uriHeader fl cs a w) c hf _ (zeros_of_mem h0) (fun i hi => by omega)

theorem genericParam_reused (q : Nat) (c : BCtx) (hf : Fine c) (a : Nat) (ha : a + 8 ≤ c.a.used) (h0 : ∀ i, a ≤ i → i < a + 8 → c.a.mem i = 0) :
    StoresAs c (fun i => a ≤ i ∧ i < a + 8) (GenericParam.reuse q c.abs) ((B.genericParam a >>= fun _ => B.setPos q >>= fun _ => B.genericParam a) c)
      (fun (_ : Flags) _ => E.genericParam a) (fun _ w => .ok w.encode) := by
  refine stores_of_sim (A := zeros a 8) (pre (sim_genericParam_reuse a q) ?_) (fun _ w _ => shows_genericParam a w) c hf _ (zeros_of_mem h0) (fun i hi => by omega)
  have e : zeros a (2 + (2 + (2 + (1 + 1)))) = u16At a 0 ∗ (u16At (a + 2) 0 ∗ (u16At (a + 4) 0 ∗ (u8At (a + 6) 0 ∗ u8At (a + 7) 0))) := by
    simp only [zeros_split, zeros_u8, zeros_u16]
  rw [show 8 = 2 + (2 + (2 + (1 + 1))) from rfl, e]
  exact Ent.pre_eq (A' := (u16At a 0 ∗ (u16At (a + 2) 0 ∗ u8At (a + 6) 0)) ∗ (u16At (a + 4) 0 ∗ u8At (a + 7) 0)) (by ac_rfl) (Ent.drop _ _)

/-! ## concrete cases -/
/-- the same situation as `heapMsgSample` over an arena with other contents -/
def heapMsgSample' (s : String) : BCtx := { src := str s, a := { Arena.new 2000 with used := 100, mem := fun i => UInt8.ofNat (i * 7 + 3) } }
/-- the hypotheses of the theorems for messages hold, and the texts are not trivial -/
theorem forget_sample :
    let c1 := heapMsgSample "ACK sip:b@h SIP/2.0\r\nl: 9\r\nc: a/b\r\n\r\nhello, world"
    let c2 := heapMsgSample' "ACK sip:b@h SIP/2.0\r\nl: 9\r\nc: a/b\r\n\r\nhello, world"
    c1.abs = c2.abs ∧ Fine c1 ∧ Fine c2 ∧ c1.a.mem 30 ≠ c2.a.mem 30 ∧
    (match (B.msg ⟨fun _ => none, fun _ => []⟩ 10 >>= fun _ => B.encodes ⟨fun _ => none, fun _ => []⟩ 10 [[]]) c1, (B.msg ⟨fun _ => none, fun _ => []⟩ 25 >>= fun _ => B.encodes ⟨fun _ => none, fun _ => []⟩ 25 [[]]) c2 with
     | .ok (some [t], _), .ok (some [u], _) => (t, u)
     | _, _ => ([], [])) =
      (str "ACK sip:b@h SIP/2.0\r\nContent-Length:          9\r\nContent-Type: a/b\r\n\r\nhello, wo", str "ACK sip:b@h SIP/2.0\r\nContent-Length:          9\r\nContent-Type: a/b\r\n\r\nhello, wo") := by
  refine ⟨by rfl, by unfold Fine; decide +kernel, by unfold Fine; decide +kernel, by decide +kernel, by decide +kernel⟩
/-- reading `ab` into the struct that held `x=1` gives `ab=1` -/
theorem reuse_sample :
    let c : BCtx := { src := str "x=1;ab", a := { Arena.new 400 with used := 40, mem := fun _ => 0 } }
    Fine c ∧ (match (B.uriParam sipUriParamCS 10 >>= fun _ => B.setPos 4 >>= fun _ => B.uriParam sipUriParamCS 10) c with
      | .ok (some _, d) => E.uriParam {} sipUriParamCS 10 d.a.mem
      | _ => .panic) = .ok (str "ab=1") := by
  refine ⟨by unfold Fine; decide +kernel, by decide +kernel⟩
end Sip
