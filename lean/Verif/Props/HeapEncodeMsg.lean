import Verif.Props.HeapEncode
/-! # C46: writing a message from the bytes of the arena, the message -/
namespace Sip
attribute [local irreducible] u32 u16 roundToAlign
open Asrt

open Sim
/-- one pointer of a message and the rest -/
theorem msg_split (this : Nat) (m : Msg) {k : HKind} (hk : k.multi = false) :
    ∃ X : Asrt, ∀ h' : Hdrs, (∀ j, j ≠ k → h'.common j = m.hdrs.common j) → h'.raw = m.hdrs.raw →
      msgAt this { m with hdrs := h' } = (ex fun q => u16At ((msgPlace this).field k) q ∗ optNode (hdrAt k) q (h'.common k).head?) ∗ X := by
  obtain ⟨X, hX⟩ := hdrsAt_split hdrAt (pl := msgPlace this) msgOrder_nodup (HKind.mem_msgOrder k) m.hdrs
  refine ⟨X ∗ (startLineAt this m.start ∗ bodiesAt (this + 66) m.bodies), fun h' h1 h2 => ?_⟩
  unfold msgAt
  dsimp only
  rw [hX h' h1 h2]
  unfold commonAt
  simp only [hk, Bool.false_eq_true, if_false]
  ac_rfl

theorem Hdrs.set_ne (h : Hdrs) (k : HKind) (v : HVal) (j : HKind) (hj : j ≠ k) : (h.set (.parsed k v)).common j = h.common j := if_neg hj
theorem Hdrs.set_self (h : Hdrs) {k : HKind} (hk : k.multi = false) (v : HVal) : (h.set (.parsed k v)).common k = [v] := by
  show (if k = k then _ else _) = _
  rw [if_pos rfl, hk]
  rfl

/-! ## Content-Length -/
theorem sim_addLength (this : Nat) (m : Msg) :
    Sim (msgAt this m) m.addLength (B.addLength this) (fun m' _ => fact (m'.bodies = m.bodies ∧ m'.hdrs.common .contentLength ≠ []) ∗ msgAt this m') := by
  obtain ⟨X, hX⟩ := msg_split this m (k := .contentLength) rfl
  have e1 := hX m.hdrs (fun _ _ => rfl) rfl
  have e2 := hX (m.hdrs.set (.parsed .contentLength (.num 0))) (fun j hj => Hdrs.set_ne _ _ _ j hj) rfl
  rw [Hdrs.set_self _ rfl] at e2
  rw [show ({ m with hdrs := m.hdrs } : Msg) = m from rfl] at e1
  unfold Msg.addLength B.addLength
  rcases hc : m.hdrs.common .contentLength with _ | ⟨v, vs⟩
  · rw [e1, hc]
    refine ex_elim_star (fun q => pre_eq (star_assoc _ _ _) (get16 (pre_eq (star_left_comm _ _ _) (fact_elim (fun hq => ?_)))))
    rw [if_pos hq]
    refine seq0 (orErr (alloc (by decide) (by decide))) (fun _ x => pre_eq (star_assoc _ _ _) (fact_elim (fun h8 => ?_)))
    refine pre_eq (star_left_comm _ _ _) (put16 (by omega) (ret (Ent.fact ⟨rfl, ?_⟩ ?_)))
    · show (m.hdrs.set (.parsed .contentLength (.num 0))).common .contentLength ≠ []
      rw [Hdrs.set_self _ rfl]
      simp
    · refine Ent.post_eq e2 (Ent.pre_eq (star_assoc _ _ _).symm (Ent.frame X (Ent.ex x (Ent.framel _ (Ent.fact h8.1 ?_)))))
      rw [show 8 = 4 + 4 from rfl, zeros_split, zeros_u32]
      exact Ent.framel _ any_zeros
  · rw [e1, hc]
    refine ex_elim_star (fun q => pre_eq (star_assoc _ _ _) (get16 (pre_eq (A := fact (8 ≤ q) ∗ (u16At ((msgPlace this).field .contentLength) q ∗ (hdrAt .contentLength q v ∗ X))) (by show _ ∗ ((_ ∗ _) ∗ _) = _; ac_rfl) (fact_elim (fun hq => ?_)))))
    rw [if_neg (by omega)]
    refine ret (Ent.fact ⟨rfl, by rw [hc]; simp⟩ (Ent.post_eq (e1.trans (by rw [hc])) ?_))
    exact Ent.pre_eq (star_assoc _ _ _).symm (Ent.frame X (Ent.ex q (Ent.framel _ (Ent.fact hq (Ent.refl _)))))

/-! ## the boundary -/
theorem boundary_none {ps : Params} {t s : Bytes} (h : (HVal.contentType t s ps).boundary? = none) (h1 : ps.known = [] ∨ ps.known.length = 1) : ps.known = [] ∨ ps.known = [none] := by
  unfold HVal.boundary? at h
  dsimp only at h
  rcases hk : ps.known with _ | ⟨o, r⟩
  · exact .inl rfl
  · rw [hk] at h h1
    rcases h1 with h1 | h1
    · cases h1
    · rcases o with _ | p
      · rcases r with _ | ⟨o, r⟩
        · exact .inr rfl
        · simp at h1
      · cases h

theorem sim_knownArray (x : Nat) (ps : Params) (t s : Bytes) (hb : (HVal.contentType t s ps).boundary? = none) :
    Sim (knownAt genericParamAt 1 (x + 6) ps.known) (if ps.known = [] then P.orErr (P.alloc 2) else pure ()) (B.knownArray x) (fun _ k => fact (8 ≤ k ∧ k < 65536) ∗ (u16At (x + 6) k ∗ u16At k 0)) := by
  unfold B.knownArray
  refine ex_elim (fun q => u16_lt (fun hq16 => get16 ?_))
  by_cases hk : ps.known = []
  · rw [if_pos hk, if_pos hk]
    refine pre_eq (star_comm _ _) (fact_elim (fun hq => ?_))
    rw [if_pos hq]
    refine ofP (P.bind_pure' _) (pre_eq (emp_star _).symm (seq0 (orErr (alloc (by decide) (by decide))) (fun _ a => pre_eq (star_assoc _ _ _) (fact_elim (fun h8 => ?_)))))
    refine pre_eq (A := u16At (x + 6) q ∗ zeros a 2) (by rw [emp_star, star_comm]) (put16 (by omega) (ret (Ent.fact ⟨h8.1, by omega⟩ ?_)))
    rw [zeros_u16]
    exact Ent.refl _
  · rw [if_neg hk, if_neg hk]
    refine pre_eq (star_left_comm _ _ _) (fact_elim (fun hq => ?_))
    rw [if_neg (by omega)]
    obtain hh | hh := boundary_none hb (.inr hq.2)
    · exact absurd hh hk
    · rw [hh]
      refine ret (Ent.fact ⟨hq.1, hq16⟩ (Ent.framel _ (Ent.trans (Ent.drop _ _) (Ent.ex_elim (fun z => Ent.pre_eq (star_comm _ _) (Ent.fact_elim (fun hz => ?_)))))))
      rw [hz]
      exact Ent.refl _

/-- `SetBoundary` -/
theorem sim_setBoundary (x : Nat) (v : HVal) (hb : v.boundary? = none) :
    Sim (hdrAt .contentType x v) (allocBoundary v) (B.setBoundary x) (fun _ q => ex fun y => ex fun Z : Asrt =>
      fact ((u16At (q + 2) y ∗ strAt y defaultBoundary) ∗ Z ⊢ₘ hdrAt .contentType x (v.setBoundary defaultBoundary)) ∗ ((u16At (q + 2) y ∗ strAt y defaultBoundary) ∗ Z)) := by
  rcases v with _ | _ | _ | _ | _ | _ | _ | ⟨t, s, ps⟩ | _ <;> first | exact pre_eq (star_emp _).symm (fact_elim (fun h => h.elim)) | skip
  unfold B.setBoundary allocBoundary
  dsimp only
  refine pre_eq (A := knownAt genericParamAt 1 (x + 6) ps.known ∗ ((ex fun q => u16At (x + 4) q ∗ listAt genericParamAt 4 q ps.params) ∗ (strField x (some t) ∗ strField (x + 2) (some s))))
    (by show strField x (some t) ∗ (strField (x + 2) (some s) ∗ ((ex fun q => u16At (x + 4) q ∗ listAt genericParamAt 4 q ps.params) ∗ knownAt genericParamAt 1 (x + 6) ps.known)) = _; ac_rfl) ?_
  generalize hW : ((ex fun q => u16At (x + 4) q ∗ listAt genericParamAt 4 q ps.params) ∗ (strField x (some t) ∗ strField (x + 2) (some s))) = W
  refine seq (sim_knownArray x ps t s hb) (fun _ k => pre_eq (star_assoc _ _ _) (fact_elim (fun hk => ?_)))
  refine pre_eq (A := u16At k 0 ∗ (u16At (x + 6) k ∗ W)) (by ac_rfl) (get16 ?_)
  rw [if_pos rfl]
  refine seq0 (orErr (alloc (by decide) (by decide))) (fun _ q => pre_eq (star_assoc _ _ _) (fact_elim (fun h8 => ?_)))
  have e : zeros q (2 + (2 + (2 + (1 + 1)))) = u16At q 0 ∗ (u16At (q + 2) 0 ∗ (u16At (q + 4) 0 ∗ (u8At (q + 6) 0 ∗ u8At (q + 7) 0))) := by simp only [zeros_split, zeros_u16, zeros_u8]
  rw [show 8 = 2 + (2 + (2 + (1 + 1))) from rfl, e]
  refine seq0 (orErr (orErr (Sim.allocStr _ (by decide)))) (fun n1 n => pre_eq (star_assoc _ _ _) (fact_elim (fun hn => str_lt (fun _ hn16 => ?_))))
  subst hn
  refine pre_eq (A := u16At q 0 ∗ (strAt n (str "boundary") ∗ ((u16At (q + 2) 0 ∗ (u16At (q + 4) 0 ∗ (u8At (q + 6) 0 ∗ u8At (q + 7) 0))) ∗ (u16At k 0 ∗ (u16At (x + 6) k ∗ W))))) (by ac_rfl) (put16 hn16 ?_)
  refine seq0 (orErr (orErr (Sim.allocStr _ (by decide)))) (fun y1 y => pre_eq (star_assoc _ _ _) (fact_elim (fun hy => str_lt (fun _ hy16 => ?_))))
  subst hy
  refine pre_eq (A := u16At (q + 2) 0 ∗ (strAt y defaultBoundary ∗ ((u16At q n ∗ strAt n (str "boundary")) ∗ ((u16At (q + 4) 0 ∗ (u8At (q + 6) 0 ∗ u8At (q + 7) 0)) ∗ (u16At k 0 ∗ (u16At (x + 6) k ∗ W)))))) (by ac_rfl) (put16 hy16 ?_)
  refine pre_eq (A := u8At (q + 6) 0 ∗ ((u16At (q + 2) y ∗ strAt y defaultBoundary) ∗ ((u16At q n ∗ strAt n (str "boundary")) ∗ ((u16At (q + 4) 0 ∗ u8At (q + 7) 0) ∗ (u16At k 0 ∗ (u16At (x + 6) k ∗ W)))))) (by ac_rfl) (put8 ?_)
  refine pre_eq (A := u16At k 0 ∗ ((u16At (q + 2) y ∗ strAt y defaultBoundary) ∗ ((u16At q n ∗ strAt n (str "boundary")) ∗ ((u16At (q + 4) 0 ∗ u8At (q + 7) 0) ∗ (u8At (q + 6) 1 ∗ (u16At (x + 6) k ∗ W)))))) (by ac_rfl) (put16 (by omega) (ret ?_))
  refine Ent.ex y (Ent.ex ((u16At q n ∗ strAt n (str "boundary")) ∗ (u8At (q + 6) 1 ∗ (u16At k q ∗ (u16At (x + 6) k ∗ W)))) (Ent.fact ?_ ?_))
  · refine Ent.pre_eq (A' := (u16At (x + 6) k ∗ (u16At k q ∗ ((u16At q n ∗ strAt n (str "boundary")) ∗ ((u16At (q + 2) y ∗ strAt y defaultBoundary) ∗ u8At (q + 6) 1)))) ∗ W) (by ac_rfl) ?_
    refine Ent.post_eq (B := knownAt genericParamAt 1 (x + 6) [some ⟨str "boundary", some (.quoted defaultBoundary)⟩] ∗ W) ?_ (Ent.frame W ?_)
    · rw [← hW]
      show strField x (some t) ∗ (strField (x + 2) (some s) ∗ ((ex fun q => u16At (x + 4) q ∗ listAt genericParamAt 4 q ps.params) ∗ knownAt genericParamAt 1 (x + 6) [some ⟨str "boundary", some (.quoted defaultBoundary)⟩])) = _
      ac_rfl
    · refine Ent.ex k (Ent.framel _ ?_)
      rw [if_neg (by simp)]
      refine Ent.fact ⟨hk.1, rfl⟩ (Ent.post_eq (star_emp _) (Ent.ex q (Ent.framel _ (Ent.fact h8.1 ?_))))
      exact Ent.star (strField_some _ _ _) (Ent.frame _ (strField_some _ _ _))
  · refine Ent.pre_eq (A' := ((u16At (q + 2) y ∗ strAt y defaultBoundary) ∗ ((u16At q n ∗ strAt n (str "boundary")) ∗ (u8At (q + 6) 1 ∗ (u16At k q ∗ (u16At (x + 6) k ∗ W))))) ∗ (u16At (q + 4) 0 ∗ u8At (q + 7) 0)) (by ac_rfl) (Ent.drop _ _)

/-- a message with its Content-Type header at `x` -/
def ctAt (this : Nat) (m : Msg) (x : Nat) (v : HVal) : Asrt := ex fun X : Asrt =>
  fact (∀ h' : Hdrs, (∀ j, j ≠ .contentType → h'.common j = m.hdrs.common j) → h'.raw = m.hdrs.raw →
    msgAt this { m with hdrs := h' } = (ex fun q => u16At ((msgPlace this).field .contentType) q ∗ optNode (hdrAt .contentType) q (h'.common .contentType).head?) ∗ X) ∗
    (hdrAt .contentType x v ∗ (u16At ((msgPlace this).field .contentType) x ∗ X))

theorem sim_addType (this : Nat) (m : Msg) :
    Sim (msgAt this m) m.addType (B.addType this) (fun r x => fact (8 ≤ x ∧ (r.2.hdrs.common .contentType).head? = some r.1) ∗ ctAt this r.2 x r.1) := by
  obtain ⟨X, hX⟩ := msg_split this m (k := .contentType) rfl
  have e1 := hX m.hdrs (fun _ _ => rfl) rfl
  rw [show ({ m with hdrs := m.hdrs } : Msg) = m from rfl] at e1
  unfold Msg.addType B.addType
  rcases hc : m.hdrs.common .contentType with _ | ⟨v, vs⟩
  · rw [e1, hc]
    refine ex_elim_star (fun q => pre_eq (star_assoc _ _ _) (get16 (pre_eq (star_left_comm _ _ _) (fact_elim (fun hq => ?_)))))
    rw [if_pos hq]
    refine seq0 (orErr (alloc (by decide) (by decide))) (fun _ x => pre_eq (star_assoc _ _ _) (fact_elim (fun h8 => ?_)))
    have e : zeros x (2 + (2 + (2 + 2))) = u16At x 0 ∗ (u16At (x + 2) 0 ∗ (u16At (x + 4) 0 ∗ u16At (x + 6) 0)) := by simp only [zeros_split, zeros_u16]
    rw [show 8 = 2 + (2 + (2 + 2)) from rfl, e]
    refine pre_eq (A := u16At ((msgPlace this).field .contentType) q ∗ ((u16At x 0 ∗ (u16At (x + 2) 0 ∗ (u16At (x + 4) 0 ∗ u16At (x + 6) 0))) ∗ X)) (by ac_rfl) (put16 (by omega) ?_)
    refine seq0 (orErr (Sim.allocStr _ (by decide))) (fun t1 t => pre_eq (star_assoc _ _ _) (fact_elim (fun ht => str_lt (fun _ ht16 => ?_))))
    subst ht
    refine pre_eq (A := u16At x 0 ∗ (strAt t (str "multipart") ∗ ((u16At (x + 2) 0 ∗ (u16At (x + 4) 0 ∗ u16At (x + 6) 0)) ∗ (u16At ((msgPlace this).field .contentType) x ∗ X)))) (by ac_rfl) (put16 ht16 ?_)
    refine seq0 (orErr (Sim.allocStr _ (by decide))) (fun s1 s => pre_eq (star_assoc _ _ _) (fact_elim (fun hs => str_lt (fun _ hs16 => ?_))))
    subst hs
    refine pre_eq (A := u16At (x + 2) 0 ∗ (strAt s (str "mixed") ∗ ((u16At x t ∗ strAt t (str "multipart")) ∗ ((u16At (x + 4) 0 ∗ u16At (x + 6) 0) ∗ (u16At ((msgPlace this).field .contentType) x ∗ X))))) (by ac_rfl) (put16 hs16 (ret ?_))
    refine Ent.fact ⟨h8.1, ?_⟩ (Ent.ex X (Ent.fact ?_ ?_))
    · show ((m.hdrs.set (.parsed .contentType _)).common .contentType).head? = _
      rw [Hdrs.set_self _ rfl]
      rfl
    · intro h' h1 h2
      exact hX h' (fun j hj => (h1 j hj).trans (Hdrs.set_ne _ _ _ j hj)) h2
    · refine Ent.pre_eq (A' := ((u16At x t ∗ strAt t (str "multipart")) ∗ ((u16At (x + 2) s ∗ strAt s (str "mixed")) ∗ (u16At (x + 4) 0 ∗ u16At (x + 6) 0))) ∗ (u16At ((msgPlace this).field .contentType) x ∗ X)) (by ac_rfl) (Ent.frame _ ?_)
      exact Ent.star (strField_some _ _ _) (Ent.star (strField_some _ _ _) (Ent.star (listField_nil _ _ _) (knownAt_nil _ _ _)))
  · rw [e1, hc]
    refine ex_elim_star (fun q => pre_eq (star_assoc _ _ _) (get16 (pre_eq (A := fact (8 ≤ q) ∗ (u16At ((msgPlace this).field .contentType) q ∗ (hdrAt .contentType q v ∗ X))) (by show _ ∗ ((_ ∗ _) ∗ _) = _; ac_rfl) (fact_elim (fun hq => ?_)))))
    rw [if_neg (by omega)]
    refine ret (Ent.fact ⟨hq, by rw [hc]; rfl⟩ (Ent.ex X (Ent.fact hX ?_)))
    exact Ent.of_eq (star_left_comm _ _ _)

/-- the tail of `FindOrCreateBoundary` -/
def B.boundaryTail (q : Nat) : B Bytes := do
  let v ← B.get16 (q + 2)
  if v = 0 then B.fail else B.getStr v
/-- one read of the boundary -/
theorem boundary_read (p : Nat) (c : BCtx) :
    (B.look (Rd.boundaryParam p Rd.ret) >>= fun q => (if q = 0 then B.orErr (B.setBoundary p) else pure q) >>= fun q => B.boundaryTail q) c =
    (B.look (Rd.boundary p) >>= fun o => match o with
      | none => B.orErr (B.setBoundary p) >>= fun q => B.boundaryTail q
      | some none => B.fail
      | some (some s) => pure s) c := by
  show B.bind _ _ c = B.bind _ _ c
  unfold B.bind B.look Rd.boundary Rd.boundaryParam Rd.u16
  dsimp only
  generalize hq : (c.a.mem (p + 6)).toNat + 256 * (c.a.mem (p + 6 + 1)).toNat = q
  by_cases h0 : q = 0
  · simp only [if_pos h0, Rd.ret, if_true]
  · simp only [if_neg h0, Rd.ret]
    generalize hb : (c.a.mem q).toNat + 256 * (c.a.mem (q + 1)).toNat = b
    by_cases hb0 : b = 0
    · simp only [if_pos hb0, Rd.ret]
    · simp only [if_neg hb0]
      show (B.boundaryTail b) c = _
      unfold B.boundaryTail B.get16
      show (if _ then _ else _ : B Bytes) c = _
      split
      · rfl
      · rfl

theorem sim_boundary (this : Nat) (m : Msg) : Sim (msgAt this m) m.boundary (B.boundary this) (fun r x => fact (x = r.1) ∗ msgAt this r.2) := by
  unfold Msg.boundary B.boundary
  refine bind (sim_addType this m) (fun r x => ?_)
  obtain ⟨v, m1⟩ := r
  dsimp only
  refine fact_elim (fun h8 => ?_)
  obtain ⟨h8, hv⟩ := h8
  refine ofB (boundary_read x) (ex_elim (fun X => fact_elim (fun hX => ?_)))
  have e1 := hX m1.hdrs (fun _ _ => rfl) rfl
  rw [show ({ m1 with hdrs := m1.hdrs } : Msg) = m1 from rfl, hv] at e1
  have e2 := hX (m1.hdrs.set (.parsed .contentType (v.setBoundary defaultBoundary))) (fun j hj => Hdrs.set_ne _ _ _ j hj) rfl
  rw [Hdrs.set_self _ rfl] at e2
  have back (w : HVal) : hdrAt .contentType x w ∗ (u16At ((msgPlace this).field .contentType) x ∗ X) ⊢ₘ (ex fun q => u16At ((msgPlace this).field .contentType) q ∗ optNode (hdrAt .contentType) q (some w)) ∗ X := by
    refine Ent.pre_eq (A' := (u16At ((msgPlace this).field .contentType) x ∗ hdrAt .contentType x w) ∗ X) (by ac_rfl) (Ent.frame X (Ent.ex x (Ent.framel _ (Ent.fact h8 (Ent.refl _)))))
  refine look (sees_boundary x v _) ?_
  rcases hb : v.boundary? with _ | g
  · show Sim _ (P.orErr (allocBoundary v) >>= fun _ => pure _) (B.orErr (B.setBoundary x) >>= fun q => B.boundaryTail q) _
    refine seq (orErr (sim_setBoundary x v hb)) (fun _ q => ex_elim_star (fun y => ex_elim_star (fun Z => pre_eq (star_assoc _ _ _) (fact_elim (fun hZ => ?_)))))
    unfold B.boundaryTail
    refine pre_eq (A := u16At (q + 2) y ∗ (strAt y defaultBoundary ∗ (Z ∗ (u16At ((msgPlace this).field .contentType) x ∗ X)))) (by ac_rfl) (get16 ?_)
    refine pre_eq (star_left_comm _ _ _) (str_lt (fun hy _ => ?_))
    rw [if_neg (by omega)]
    refine ofB (B.bind_pure' _) (getStr (ret (Ent.fact rfl (Ent.post_eq e2 ?_))))
    refine Ent.trans ?_ (back _)
    exact Ent.pre_eq (A' := ((u16At (q + 2) y ∗ strAt y defaultBoundary) ∗ Z) ∗ (u16At ((msgPlace this).field .contentType) x ∗ X)) (by ac_rfl) (Ent.frame _ hZ)
  · rcases g with _ | g
    · exact fail
    · exact ret (Ent.fact rfl (Ent.post_eq e1 (back v)))
end Sip
