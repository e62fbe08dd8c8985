import Verif.Props.HeapMsg
/-! # C46: bodies and messages in the arena -/
namespace Sip
attribute [local irreducible] u32 u16 roundToAlign
open Asrt

open Sim
/-- one pointer of the headers and the rest -/
theorem hdrsAt_split (nd : HKind → Nat → HVal → Asrt) {pl : Place} (hd : pl.order.Nodup) {k : HKind} (hk : k ∈ pl.order) (h : Hdrs) :
    ∃ X : Asrt, ∀ h' : Hdrs, (∀ j, j ≠ k → h'.common j = h.common j) → h'.raw = h.raw → hdrsAt nd pl h' = commonAt nd k (pl.field k) (h'.common k) ∗ X := by
  obtain ⟨X, hX⟩ := commonsAt_split nd k pl.order pl.base h.common hk hd
  refine ⟨X ∗ rawsAt pl.raw h.raw, fun h' h1 h2 => ?_⟩
  unfold hdrsAt
  rw [hX _ h1, h2, star_assoc]
  rfl

theorem HKind.mem_msgOrder (k : HKind) : k ∈ msgOrder := by cases k <;> decide
theorem msgOrder_nodup : msgOrder.Nodup := by decide
theorem bodyOrder_nodup : (HKind.contentType :: bodyOrder).Nodup := by decide

/-- an empty body part -/
theorem body_zeros (p : Nat) : zeros p 16 ⊢ₘ u16At (p + 4) 0 ∗ (hdrsAt hdrAt (bodyPlace p) {} ∗ u16At (p + 8) 0) := by
  have e : zeros p (4 + (2 + (2 + (2 + 6)))) = zeros p 4 ∗ (u16At (p + 4) 0 ∗ (u16At (p + 6) 0 ∗ (u16At (p + 8) 0 ∗ zeros (p + 10) 6))) := by
    simp only [zeros_split, zeros_u16]
  rw [show 16 = 4 + (2 + (2 + (2 + 6))) from rfl, e]
  refine Ent.trans (Ent.dropl _ _) (Ent.framel _ ?_)
  refine Ent.pre_eq (A' := (zeros (p + 10) 6 ∗ u16At (p + 6) 0) ∗ u16At (p + 8) 0) (by ac_rfl) (Ent.frame _ ?_)
  exact Ent.star (commonsAt_nil hdrAt (HKind.contentType :: bodyOrder) (p + 10)) (rawsAt_nil _)

theorem bodiesAt_nil (f : Nat) : u16At f 0 ⊢ₘ bodiesAt f [] := listField_nil bodyAt 8 f

/-- the value of Content-Length, 0 when there is none -/
def Hdrs.length (h : Hdrs) : Nat := match h.common .contentLength with
  | .num n :: _ => n
  | _ => 0

theorem hdrAt_contentLength (a : Nat) (v : HVal) (n : Nat) : v = .num n → hdrAt .contentLength a v = u32At a n ∗ anyAt (a + 4) 4 := by rintro rfl; rfl

/-- what a Content-Length header is -/
theorem Sees.contentLength {γ : Type} {a : Nat} {v : HVal} {F : Asrt} {f : Rd γ} {w : Out γ} (h : ∀ n, v = .num n → Sees (u32At a n ∗ (anyAt (a + 4) 4 ∗ F)) f w) :
    Sees (hdrAt .contentLength a v ∗ F) f w := by
  cases v with
  | num n => exact pre_eq (star_assoc _ _ _) (h n rfl)
  | _ => exact fact_elim (fun hx => hx.elim)
theorem Sim.contentLength {α β : Type} {p : P α} {b : B β} {R : α → β → Asrt} {a : Nat} {v : HVal} {F : Asrt} (h : ∀ n, v = .num n → Sim (u32At a n ∗ (anyAt (a + 4) 4 ∗ F)) p b R) :
    Sim (hdrAt .contentLength a v ∗ F) p b R := by
  cases v with
  | num n => exact pre_eq (star_assoc _ _ _) (h n rfl)
  | _ => exact fact_elim (fun hx => hx.elim)
/-- what a Content-Type header is -/
theorem Sees.contentType {γ : Type} {a : Nat} {v : HVal} {F : Asrt} {f : Rd γ} {w : Out γ}
    (h : ∀ t s ps, v = .contentType t s ps → Sees (strField a (some t) ∗ (strField (a + 2) (some s) ∗ (paramsAt HKind.contentType.paramNames (a + 4) (a + 6) ps ∗ F))) f w) :
    Sees (hdrAt .contentType a v ∗ F) f w := by
  cases v with
  | contentType t s ps => exact pre_eq (by show ((_ ∗ (_ ∗ _)) ∗ _) = _; ac_rfl) (h t s ps rfl)
  | _ => exact fact_elim (fun hx => hx.elim)

theorem sees_length (this : Nat) (h : Hdrs) (F : Asrt) : Sees (hdrsAt hdrAt (msgPlace this) h ∗ F) (Rd.length this) (.ok h.length) := by
  obtain ⟨X, hX⟩ := hdrsAt_split hdrAt (pl := msgPlace this) msgOrder_nodup (HKind.mem_msgOrder .contentLength) h
  rw [hX h (fun _ _ => rfl) rfl]
  refine Sees.left (Sees.left (Sees.ex_elim (fun q => ?_)))
  unfold Rd.length Hdrs.length
  refine Sees.f16 ?_
  rw [if_neg (by decide)]
  rcases h.common .contentLength with _ | ⟨v, vs⟩
  · refine Sees.right (Sees.fact_elim' (fun hq => ?_))
    rw [if_pos hq]
    exact Sees.ret _
  · refine Sees.right (Sees.fact_elim (fun hq => ?_))
    rw [if_neg (by omega)]
    refine Sees.pre_eq (star_emp _).symm (Sees.contentLength (fun n hn => ?_))
    subst hn
    exact Sees.f32 (Sees.ret _)

theorem sees_isMultipart (q : Nat) (v : HVal) (F : Asrt) : Sees (hdrAt .contentType q v ∗ F) (Rd.isMultipart q) (.ok v.isMultipart) := by
  refine Sees.contentType (fun t s ps hv => ?_)
  subst hv
  unfold Rd.isMultipart HVal.isMultipart
  refine Sees.ex_elim_star (fun x => Sees.pre_eq (star_assoc _ _ _) (Sees.f16 (Sees.right (Sees.str_ne (fun hx => ?_)))))
  rw [if_neg hx]
  exact Sees.cstr (fun _ => Sees.ret _)

/-- `GetKnownParam` -/
theorem sees_boundaryParam {γ : Type} {q : Nat} {v : HVal} {F : Asrt} {k : Nat → Rd γ} {w : Out γ}
    (h0 : v.boundary? = none → Sees emp (k 0) w)
    (h1 : ∀ g b, 8 ≤ b → v.boundary? = some g → Sees (genValueAt b g) (k b) w) : Sees (hdrAt .contentType q v ∗ F) (Rd.boundaryParam q k) w := by
  refine Sees.contentType (fun t s ps hv => ?_)
  subst hv
  unfold Rd.boundaryParam
  unfold HVal.boundary? at h0 h1
  dsimp only at h0 h1
  refine Sees.right (Sees.right (Sees.left (Sees.right (Sees.ex_elim (fun a => Sees.f16 (Sees.right ?_))))))
  rcases hk : ps.known with _ | ⟨o, r⟩
  · rw [if_pos rfl]
    refine Sees.fact_elim' (fun ha => ?_)
    rw [if_pos ha]
    exact h0 (by rw [hk])
  · rw [if_neg (by simp)]
    refine Sees.fact_elim (fun ha => ?_)
    rw [if_neg (by omega)]
    refine Sees.left (Sees.ex_elim (fun b => Sees.f16 (Sees.right ?_)))
    rcases o with _ | p
    · refine Sees.fact_elim' (fun hb => ?_)
      rw [hb]
      exact h0 (by rw [hk])
    · refine Sees.fact_elim (fun hb => Sees.right (h1 _ b hb (by rw [hk])))

theorem sees_boundary (q : Nat) (v : HVal) (F : Asrt) : Sees (hdrAt .contentType q v ∗ F) (Rd.boundary q) (.ok (v.boundary?.map (fun g => g.map GenValue.bytes))) := by
  unfold Rd.boundary
  refine sees_boundaryParam (fun h => ?_) (fun g b hb h => ?_)
  · rw [h, if_pos rfl]
    exact Sees.ret _
  · rw [h, if_neg (by omega)]
    have tail (s : Bytes) (X : Asrt) : Sees (strField (b + 2) (some s) ∗ X) (Rd.u16 (b + 2) fun v => if v = 0 then Rd.ret (some none) else Rd.cstr v fun s => Rd.ret (some (some s))) (.ok (some (some s))) := by
      refine Sees.left (Sees.ex_elim (fun x => Sees.f16 (Sees.right (Sees.pre_eq (star_emp _).symm (Sees.str_ne (fun hx => ?_))))))
      rw [if_neg hx]
      exact Sees.cstr (fun _ => Sees.ret _)
    rcases g with _ | g
    · refine Sees.f16 ?_
      rw [if_pos rfl]
      exact Sees.ret _
    · cases g <;> exact tail _ _

/-! ## bodies -/
theorem singleBody_eq (h : Hdrs) : parseSingleBody h = (do
    let c ← P.get
    let size := if h.length > c.src.length - c.pos then c.src.length - c.pos else h.length
    if size = 0 then pure [] else do
    P.orErr (P.alloc 16)
    let b ← P.orErr (P.allocStr (c.rest.take size))
    pure [{ body := some b }]) := by
  unfold parseSingleBody Hdrs.length
  rcases h.common .contentLength with _ | ⟨v, vs⟩
  · simp
  · cases v with
    | num n => rfl
    | _ => simp
theorem sim_singleBody (this : Nat) (h : Hdrs) :
    Sim (hdrsAt hdrAt (msgPlace this) h ∗ u16At (this + 66) 0) (parseSingleBody h) (B.singleBody this) (fun bs _ => hdrsAt hdrAt (msgPlace this) h ∗ bodiesAt (this + 66) bs) := by
  rw [singleBody_eq]
  unfold B.singleBody
  refine ctx' (fun c hc => ?_)
  dsimp only
  refine look (sees_length this h _) ?_
  generalize hsz : (if h.length > c.src.length - c.pos then c.src.length - c.pos else h.length) = size
  refine ite (fun _ => ret (Ent.framel _ (bodiesAt_nil _))) (fun _ => ?_)
  have hl : (c.rest.take size).length < 2147483648 := by
    rw [List.length_take]
    have : c.rest.length ≤ c.src.length := by unfold Ctx.rest; rw [List.length_drop]; omega
    omega
  refine seq0 (orErr (alloc (by decide) (by decide))) (fun _ p => pre_eq (star_assoc _ _ _) (fact_elim (fun h8 => ?_)))
  refine pre ?_ (Ent.frame _ (body_zeros p))
  refine seq0 (orErr (Sim.allocStr _ hl)) (fun b x => pre_eq (star_assoc _ _ _) (fact_elim (fun hb => str_lt (fun _ hx => ?_))))
  refine pre_eq (A := u16At (p + 4) 0 ∗ (strAt x b ∗ (hdrsAt hdrAt (bodyPlace p) {} ∗ (u16At (p + 8) 0 ∗ (hdrsAt hdrAt (msgPlace this) h ∗ u16At (this + 66) 0))))) (by ac_rfl) (put16 hx ?_)
  refine pre_eq (A := u16At (this + 66) 0 ∗ ((hdrsAt hdrAt (bodyPlace p) {} ∗ (u16At (p + 4) x ∗ strAt x b)) ∗ (u16At (p + 8) 0 ∗ hdrsAt hdrAt (msgPlace this) h))) (by ac_rfl) (put16 (by omega) (ret ?_))
  refine Ent.pre_eq (A' := hdrsAt hdrAt (msgPlace this) h ∗ (u16At (this + 66) p ∗ ((hdrsAt hdrAt (bodyPlace p) {} ∗ (u16At (p + 4) x ∗ strAt x b)) ∗ u16At (p + 8) 0))) (by ac_rfl) (Ent.framel _ (Ent.ex p (Ent.framel _ ?_)))
  refine Ent.ex 0 (Ent.fact ⟨h8.1, by omega⟩ (Ent.post_eq (by unfold seg; rw [fact_true rfl, star_emp]) (Ent.frame _ ?_)))
  exact Ent.framel _ (strField_some _ _ _)

/-- `AllocCString` without a test -/
theorem sim_allocStrAny (buf : Bytes) (hbuf : buf.length < 2147483648) : Sim emp (P.allocStrAny buf) (B.allocStrAny buf) (fun v x => strOpt x v) := by
  intro c S hf hA hS
  have h := Sim.allocStr buf hbuf c S hf hA hS
  unfold SimOut P.allocStr B.allocStr at h
  unfold SimOut P.allocStrAny B.allocStrAny
  rcases hv : Sip.allocStr buf c.abs with ⟨r, d⟩
  rw [hv] at h
  dsimp only at h ⊢
  rcases r with _ | v <;> dsimp only at h
  · obtain ⟨c', h1, h2, h3⟩ := h
    rcases hb : bAllocStr buf c with ⟨q, e⟩ | _ | _ <;> rw [hb] at h1 <;> dsimp only at h1
    · split at h1
      · rename_i hq
        cases h1
        exact ⟨q, c', rfl, h2, h3, fun _ => False, ⟨hq, fun _ h => h⟩, fun _ h => h.elim, fun _ h => h.elim⟩
      · cases h1
    · cases h1
    · cases h1
  · obtain ⟨x, c', h1, h2, h3, S', h4, h5⟩ := h
    rcases hb : bAllocStr buf c with ⟨q, e⟩ | _ | _ <;> rw [hb] at h1 <;> dsimp only at h1
    · split at h1
      · cases h1
      · cases h1
        exact ⟨x, c', rfl, h2, h3, S', (fact_star_holds.1 h4).2, h5⟩
    · cases h1
    · cases h1

theorem sim_bodyPart (net : Net) (hn : net.Len16) (delimiter : Bytes) :
    Sim emp (parseBodyPart net delimiter) (B.bodyPart net delimiter) (fun v x => fact (8 ≤ x ∧ x < 65536) ∗ (bodyAt x v ∗ u16At (x + 8) 0)) := by
  unfold parseBodyPart B.bodyPart
  refine dryE Dry.findCrlf (fun _ => ?_)
  refine bind (orErr (alloc (by decide) (by decide))) (fun _ p => fact_elim (fun h8 => pre ?_ (body_zeros p)))
  refine ctx (fun c => ?_)
  have hneed : ∀ k, bodyNeed c.flags k = true → k ∈ (bodyPlace p).order := by
    intro k h
    unfold bodyNeed at h
    show k ∈ [HKind.contentType, .contentLength, .contentDisposition]
    split at h <;> cases k <;> first | decide | (exfalso; revert h; decide)
  refine pre_eq (A := hdrsAt hdrAt (bodyPlace p) {} ∗ (u16At (p + 4) 0 ∗ u16At (p + 8) 0)) (by ac_rfl) (seq (orErr (sim_headers net hn bodyOrder_nodup hneed)) (fun hs _ => ctx' (fun c hc => ?_)))
  rcases indexOf delimiter c.rest with _ | e
  · exact err
  · dsimp only
    refine seq0 (sim_allocStrAny _ ?_) (fun b x => ?_)
    · rw [List.length_take]
      have : c.rest.length ≤ c.src.length := by unfold Ctx.rest; rw [List.length_drop]; omega
      omega
    refine know (φ := x < 65536) (fun m S h => ?_) (fun hx => ?_)
    · rcases b with _ | s
      · obtain ⟨_, _, _, _, h, _⟩ := h
        have : x = 0 := h.1
        omega
      · have := strAt_lt h
        omega
    refine pre_eq (A := u16At (p + 4) 0 ∗ (strOpt x b ∗ (hdrsAt hdrAt (bodyPlace p) (Hdrs.ofItems hs) ∗ u16At (p + 8) 0))) (by ac_rfl) (put16 hx (skip (ret (Ent.fact ⟨h8.1, by omega⟩ ?_))))
    refine Ent.pre_eq (A' := (hdrsAt hdrAt (bodyPlace p) (Hdrs.ofItems hs) ∗ (u16At (p + 4) x ∗ strOpt x b)) ∗ u16At (p + 8) 0) (by ac_rfl) (Ent.frame _ ?_)
    exact Ent.framel _ (Ent.ex x (Ent.refl _))

theorem sim_multiBody (net : Net) (hn : net.Len16) (this : Nat) (delimiter : Bytes) (acc : List Body) (prev : Nat) :
    Sim (ex fun first => u16At (this + 66) first ∗ openList bodyAt 8 first prev acc) (multiBody net delimiter acc) (B.multiBody net this delimiter prev)
      (Both (fun acc prev => ex fun first => u16At (this + 66) first ∗ openList bodyAt 8 first prev acc) (fun bs _ => bodiesAt (this + 66) bs)) := by
  unfold multiBody B.multiBody
  refine ctx (fun c => ite (fun _ => fail) (fun _ => ite (fun _ => err) (fun _ => ite (fun _ => skip (ret ?_)) (fun _ => ?_))))
  · exact Ent.ex_elim (fun first => Ent.ex first (Ent.framel _ (openList_close _ _ _ _ _)))
  refine seq0 (sim_bodyPart net hn delimiter) (fun b p => pre_eq (star_assoc _ _ _) (fact_elim (fun h8 => pre_eq (star_comm _ _) (ex_elim_star (fun first => ?_)))))
  by_cases hp : prev = 0
  · rw [if_pos hp]
    unfold openList
    rw [if_pos hp]
    refine pre_eq (A := fact (acc = [] ∧ first = 0) ∗ (u16At (this + 66) first ∗ (bodyAt p b ∗ u16At (p + 8) 0))) (by ac_rfl) (fact_elim ?_)
    rintro ⟨rfl, rfl⟩
    refine put16 h8.2 (ret (Ent.ex p (Ent.framel _ ?_)))
    rw [if_neg (by omega)]
    exact Ent.ex [] (Ent.ex b (Ent.fact ⟨rfl, h8⟩ (Ent.fact rfl (Ent.refl _))))
  · rw [if_neg hp]
    unfold openList
    rw [if_neg hp]
    refine pre_eq (A := (ex fun ws => ex fun w => fact (acc = ws ++ [w] ∧ 8 ≤ prev ∧ prev < 65536) ∗ (seg bodyAt 8 first ws prev ∗ (bodyAt prev w ∗ u16At (prev + 8) 0))) ∗ (u16At (this + 66) first ∗ (bodyAt p b ∗ u16At (p + 8) 0))) (by ac_rfl)
      (ex_elim_star (fun ws => ex_elim_star (fun w => ?_)))
    rw [star_assoc]
    refine fact_elim ?_
    rintro ⟨rfl, h8'⟩
    refine pre_eq (A := u16At (prev + 8) 0 ∗ (u16At (this + 66) first ∗ (seg bodyAt 8 first ws prev ∗ (bodyAt prev w ∗ (bodyAt p b ∗ u16At (p + 8) 0))))) (by ac_rfl) ?_
    refine put16 h8.2 (ret (Ent.ex first ?_))
    refine Ent.pre_eq (star_left_comm _ _ _) (Ent.framel _ ?_)
    rw [if_neg (by omega)]
    refine Ent.ex (ws ++ [w]) (Ent.ex b (Ent.fact ⟨rfl, h8⟩ ?_))
    refine Ent.pre_eq (A' := (seg bodyAt 8 first ws prev ∗ (bodyAt prev w ∗ u16At (prev + 8) p)) ∗ (bodyAt p b ∗ u16At (p + 8) 0)) (by ac_rfl) (Ent.frame _ ?_)
    exact seg_snoc bodyAt 8 w prev p h8' ws first

theorem sim_multiBodies (net : Net) (hn : net.Len16) (this : Nat) (boundary : Bytes) :
    Sim (u16At (this + 66) 0) (parseMultiBody net boundary) (B.multiBodies net this boundary) (fun bs _ => bodiesAt (this + 66) bs) := by
  unfold parseMultiBody B.multiBodies
  dsimp only
  refine ctx (fun c => ite (fun _ => err) (fun _ => skip ?_))
  refine pre (forLoop (fun acc prev => sim_multiBody net hn this _ acc prev) [] 0) (Ent.ex 0 (Ent.post_eq ?_ (Ent.refl _)))
  rw [openList_nil, star_emp]

theorem sim_msgBody (net : Net) (hn : net.Len16) (this : Nat) (h : Hdrs) :
    Sim (hdrsAt hdrAt (msgPlace this) h ∗ u16At (this + 66) 0) (parseMsgBody net h) (B.msgBody net this) (fun bs _ => hdrsAt hdrAt (msgPlace this) h ∗ bodiesAt (this + 66) bs) := by
  have hsingle := sim_singleBody this h
  obtain ⟨X, hX⟩ := hdrsAt_split hdrAt (pl := msgPlace this) msgOrder_nodup (HKind.mem_msgOrder .contentType) h
  have e := hX h (fun _ _ => rfl) rfl
  rw [e] at hsingle ⊢
  unfold parseMsgBody B.msgBody
  unfold commonAt at hsingle ⊢
  rcases hc : h.common .contentType with _ | ⟨v, vs⟩
  · refine pre_eq (star_assoc _ _ _) (ex_elim_star (fun q => pre_eq (star_assoc _ _ _) (get16 ?_)))
    rw [if_neg (by decide)]
    refine pre_eq (star_left_comm _ _ _) (fact_elim (fun hq => ?_))
    rw [if_pos hq]
    refine ret ?_
    refine Ent.pre_eq (star_assoc _ _ _).symm (Ent.star (Ent.frame _ ?_) (bodiesAt_nil _))
    exact Ent.ex q (Ent.post_eq (by rw [if_neg (by decide)]; exact (congrArg _ (fact_true hq)).trans (star_emp _)) (Ent.refl _))
  · rw [hc] at hsingle
    simp only [if_neg (show ¬ (HKind.contentType.multi = true) by decide)] at hsingle ⊢
    refine pre_eq (star_assoc _ _ _) (ex_elim_star (fun q => ?_))
    refine pre_eq (star_assoc _ _ _) (get16 ?_)
    have back : u16At ((msgPlace this).field .contentType) q ∗ (optNode (hdrAt .contentType) q (v :: vs).head? ∗ (X ∗ u16At (this + 66) 0)) ⊢ₘ
      ((ex fun q => u16At ((msgPlace this).field .contentType) q ∗ optNode (hdrAt .contentType) q (v :: vs).head?) ∗ X) ∗ u16At (this + 66) 0 :=
      Ent.post_eq (star_assoc _ _ _) (Ent.pre_eq (star_assoc _ _ _).symm (Ent.frame _ (Ent.ex q (Ent.refl _))))
    refine know (φ := 8 ≤ q) (fun m S hh => ?_) (fun hq => ?_)
    · obtain ⟨_, _, _, _, _, _, _, _, _, hh, _⟩ := hh
      exact (fact_star_holds.1 hh).1
    rw [if_neg (show ¬ q = 0 by omega)]
    refine look (v := v.isMultipart) (Sees.right (Sees.left (Sees.right (Sees.pre_eq (star_emp _).symm (sees_isMultipart q v _))))) ?_
    refine ite (fun _ => ?_) (fun _ => pre hsingle back)
    refine look (Sees.right (Sees.left (Sees.right (Sees.pre_eq (star_emp _).symm (sees_boundary q v _))))) ?_
    rcases v.boundary? with _ | g
    · exact err
    · have tail (bd : Bytes) := pre (post (frame _ (sim_multiBodies net hn this bd)) (fun bs _ => Ent.of_eq (star_comm _ _))) (Ent.trans back (Ent.of_eq (star_comm _ _)))
      cases g <;> exact tail _

/-! ## messages -/
/-- the fields of an empty message -/
theorem msg_zeros (a : Nat) : zeros a 68 ⊢ₘ zeros a 20 ∗ (hdrsAt hdrAt (msgPlace a) {} ∗ u16At (a + 66) 0) := by
  have e : zeros a (20 + (2 + (36 + (6 + (2 + 2))))) = zeros a 20 ∗ (u16At (a + 20) 0 ∗ (zeros (a + 22) 36 ∗ (zeros (a + 58) 6 ∗ (u16At (a + 64) 0 ∗ u16At (a + 66) 0)))) := by
    simp only [zeros_split, zeros_u16]
  rw [show 68 = 20 + (2 + (36 + (6 + (2 + 2)))) from rfl, e]
  refine Ent.framel _ (Ent.trans (Ent.dropl _ _) ?_)
  refine Ent.pre_eq (A' := zeros (a + 58) 6 ∗ ((zeros (a + 22) 36 ∗ u16At (a + 64) 0) ∗ u16At (a + 66) 0)) (by ac_rfl) (Ent.trans (Ent.dropl _ _) (Ent.frame _ ?_))
  exact Ent.star (commonsAt_nil hdrAt msgOrder (a + 22)) (rawsAt_nil _)

/-- `Parse` of a message, into the 68 bytes at `this` -/
theorem sim_msg (net : Net) (hn : net.Len16) (this : Nat) (l : Bytes) (hl : l.length = 68) :
    Sim (bytes this l) (Msg.parse net) (B.msg net this) (fun m _ => msgAt this m) := by
  unfold Msg.parse B.msg
  refine pre_eq (star_emp _).symm (zero hl ?_)
  rw [star_emp]
  refine pre ?_ (msg_zeros this)
  have hs : Sim (zeros this 20) (StartLine.parse net) (B.startLineParse net this) (fun v _ => startLineAt this v) := by
    unfold B.startLineParse
    refine pre_eq (star_emp _).symm (zero List.length_replicate ?_)
    rw [star_emp]
    exact sim_startLine net hn this
  refine seq (orErr hs) (fun s _ => ctx (fun c => ite (fun _ => err) (fun _ => ?_)))
  refine pre_eq (star_left_comm _ _ _) ?_
  refine pre_eq (A := hdrsAt hdrAt (msgPlace this) {} ∗ (u16At (this + 66) 0 ∗ startLineAt this s)) (by ac_rfl) (seq (orErr (sim_headers net hn msgOrder_nodup (fun k _ => k.mem_msgOrder))) (fun items _ => ?_))
  refine ofB (B.bind_pure' _) ?_
  refine pre_eq (star_assoc _ _ _).symm (seq (orErr (sim_msgBody net hn this _)) (fun bs _ => ret (Ent.of_eq ?_)))
  unfold msgAt
  ac_rfl
end Sip
