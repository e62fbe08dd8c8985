import Verif.Props.HeapEncodeMsg
/-! # C46: writing a message from the bytes of the arena, `Encode` -/
namespace Sip
attribute [local irreducible] u32 u16 roundToAlign
open Asrt

/-! ## reads -/
theorem sees_hasMulti (this : Nat) (bs : List Body) : Sees (bodiesAt (this + 66) bs) (Rd.hasMulti this) (.ok (decide (1 < bs.length))) := by
  refine Sees.ex_elim (fun q => Sees.f16 ?_)
  rcases bs with _ | ⟨b, bs⟩
  · refine Sees.pre_eq (star_comm _ _) (Sees.fact_elim (fun hq => ?_))
    rw [if_pos hq]
    exact Sees.ret false
  · refine Sees.pre_eq (star_comm _ _) (Sees.ex_elim_star (fun n => Sees.pre_eq (star_assoc _ _ _) (Sees.fact_elim (fun hq => ?_))))
    rw [if_neg (by omega)]
    refine Sees.pre_eq (A := u16At (q + 8) n ∗ (seg bodyAt 8 n bs 0 ∗ (bodyAt q b ∗ u16At (this + 66) q))) (by ac_rfl) (Sees.f16 ?_)
    refine Sees.pre_eq (star_left_comm _ _ _) ?_
    rcases bs with _ | ⟨b', bs⟩
    · refine Sees.fact_elim (fun hn => ?_)
      rw [hn]
      exact Sees.ret false
    · refine Sees.ex_elim_star (fun n' => Sees.pre_eq (star_assoc _ _ _) (Sees.fact_elim (fun hn => ?_)))
      have e : (decide (n ≠ 0)) = decide (1 < (b :: b' :: bs).length) := by
        rw [decide_eq_true (show n ≠ 0 by omega), decide_eq_true (by simp)]
      rw [e]
      exact Sees.ret _

theorem read16 {γ : Type} {a n : Nat} {F : Asrt} {m : Mem} {S : Nat → Prop} (h : (u16At a n ∗ F).holds m S) (hlt : ∀ i, S i → i < 32768) (k : Nat → Rd γ) : Rd.u16 a k m = k n m := by
  have e : Rd.u16 a Rd.ret m = .ok n := Sees.f16 (Sees.ret n) m S h hlt
  unfold Rd.u16 at e ⊢
  unfold Rd.ret at e
  injection e with e
  rw [e]

/-- `FindKnownRawHeaderByIndex` finds something exactly when there is such a header -/
theorem sees_findRaw (i : Nat) : ∀ (hs : List RawHeader) (n q : Nat) (m : Mem) (S : Nat → Prop), hs.length < n → (listAt rawAt 6 q hs).holds m S → (∀ i, S i → i < 32768) →
    ∃ x, Rd.findRaw i n q m = .ok x ∧ (x ≠ 0 ↔ hs.any (fun h => h.id = i) = true)
  | [], n + 1, q, m, S, _, h, _ => by
    obtain ⟨h1, _⟩ := h
    refine ⟨0, ?_, by simp⟩
    unfold Rd.findRaw
    rw [if_pos h1]
    rfl
  | r :: hs, n + 1, q, m, S, hn, h, hlt => by
    obtain ⟨q', h⟩ := h
    have hq : q ≠ 0 := by
      obtain ⟨_, _, _, _, ⟨h, _⟩, _⟩ := h
      omega
    obtain ⟨S0, S1, k1, k2, _, S2, S3, l1, l2, l3, S4, S5, m1, m2, m3, m4⟩ := h
    have e1 := fun k : Nat → Rd Nat => read16 (a := q) (n := r.id) l3 (fun i hi => hlt i ((k1 i).2 (.inr ((l1 i).2 (.inl hi))))) k
    have e2 := fun k : Nat → Rd Nat => read16 (a := q + 6) (n := q') (F := emp) (by rw [star_emp]; exact m3) (fun i hi => hlt i ((k1 i).2 (.inr ((l1 i).2 (.inr ((m1 i).2 (.inl hi))))))) k
    obtain ⟨x, hx1, hx2⟩ := sees_findRaw i hs n q' m S5 (by simpa using hn) m4 (fun i hi => hlt i ((k1 i).2 (.inr ((l1 i).2 (.inr ((m1 i).2 (.inr hi)))))))
    unfold Rd.findRaw
    rw [if_neg hq, e1]
    by_cases hi : r.id = i
    · exact ⟨q, by rw [if_pos hi]; rfl, by simp [hq, hi]⟩
    · exact ⟨x, by rw [if_neg hi, e2, hx1], by simp [hx2, hi]⟩

theorem sees_hasMime (this : Nat) (hs : List RawHeader) : Sees (rawsAt (this + 64) hs) (Rd.hasMime this) (.ok (hs.any (fun h => h.id = 24))) := by
  refine Sees.ex_elim (fun q => Sees.f16 (Sees.right ?_))
  intro m S h hlt
  have h1 := seg_length rawAt 6 0 m 32768 hs q S h hlt
  have h2 := cnt_le S 32768
  obtain ⟨x, hx1, hx2⟩ := sees_findRaw 24 hs 32769 q m S (by omega) h hlt
  show (match Rd.findRaw 24 32769 q m with | .ok x => _ | .panic => _ | .hang => _ : Out Bool) = _
  rw [hx1]
  dsimp only
  by_cases h : x = 0
  · have : hs.any (fun h => h.id = 24) = false := by
      by_cases hb : hs.any (fun h => h.id = 24) = true
      · exact absurd h (hx2.2 hb)
      · simpa using hb
    rw [this, h]
    rfl
  · rw [hx2.1 h, decide_eq_true h]

open Sim
/-! ## the head -/
theorem boundary_keeps {m : Msg} {c d : Ctx} {r : Bytes × Msg} (h : m.boundary c = .ok (some r, d)) : r.2.bodies = m.bodies ∧ r.2.hdrs.common .contentLength = m.hdrs.common .contentLength := by
  unfold Msg.boundary at h
  obtain ⟨v, c1, h1, h⟩ := P.bind_some h
  have ha : v.2.bodies = m.bodies ∧ v.2.hdrs.common .contentLength = m.hdrs.common .contentLength := by
    unfold Msg.addType at h1
    rcases hc : m.hdrs.common .contentType with _ | ⟨w, ws⟩ <;> rw [hc] at h1 <;> dsimp only at h1
    · obtain ⟨_, _, _, h1⟩ := P.bind_some h1
      obtain ⟨_, _, _, h1⟩ := P.bind_some h1
      obtain ⟨_, _, _, h1⟩ := P.bind_some h1
      cases h1
      exact ⟨rfl, Hdrs.set_ne _ _ _ _ (by decide)⟩
    · cases h1
      exact ⟨rfl, rfl⟩
  obtain ⟨v, m1⟩ := v
  dsimp only at h ha
  rcases hb : v.boundary? with _ | _ | g <;> rw [hb] at h <;> dsimp only at h
  · obtain ⟨_, _, _, h⟩ := P.bind_some h
    cases h
    exact ⟨ha.1, (Hdrs.set_ne _ _ _ _ (by decide)).trans ha.2⟩
  · cases h
  · cases h
    exact ha

/-- a message whose field `encodeEnd` of the Content-Length header is `e` -/
def msgAtE (e this : Nat) (m : Msg) : Asrt := startLineAt this m.start ∗ (hdrsAt (hdrAtE e) (msgPlace this) m.hdrs ∗ bodiesAt (this + 66) m.bodies)

/-- SipMsg.go:213-222 -/
theorem sim_findBoundary (this : Nat) (m : Msg) : Sim (msgAt this m) m.findBoundary (if m.multi then B.orErr (B.boundary this) else pure [])
    (fun r x => fact (r.2.bodies = m.bodies ∧ r.2.hdrs.common .contentLength = m.hdrs.common .contentLength) ∗ (fact (x = r.1) ∗ msgAt this r.2)) := by
  unfold Msg.findBoundary
  by_cases hm : m.multi = true
  · rw [if_pos hm, if_pos hm]
    exact orErr (val (fun c v d h => boundary_keeps h) (sim_boundary this m))
  · rw [if_neg hm, if_neg hm]
    exact ret (Ent.fact ⟨rfl, rfl⟩ (Ent.fact rfl (Ent.refl _)))

/-- `Encode` up to the bodies, and where the value of Content-Length ends -/
def Msg.headX (net : Net) (fl : Flags) (m : Msg) (buf : Bytes) : P ((Bytes × Bytes) × Nat × Msg) := do
  let m ← m.addLength
  let s ← P.ofOut (m.start.encode net fl)
  let (bd, m) ← m.findBoundary
  let (b, e) ← P.ofOut (m.hdrs.encode net fl msgOrder (buf ++ s))
  pure ((bd, b ++ (if m.multi then m.mimeLine else []) ++ [0x0d, 0x0a]), e, m)

theorem sim_msgHead (net : Net) (fl : Flags) (this : Nat) (m : Msg) (buf : Bytes) : Sim (msgAt this m) (m.headX net fl buf) (B.msgHead net fl this m.multi buf)
    (fun v x => fact (x = v.1 ∧ v.2.2.bodies = m.bodies ∧ v.2.2.hdrs.common .contentLength ≠ []) ∗ msgAtE v.2.1 this v.2.2) := by
  unfold Msg.headX B.msgHead
  refine bind (sim_addLength this m) (fun m1 _ => fact_elim (fun h1 => ?_))
  refine lookB (Sees.ofShows (Shows.left (shows_startLine net fl this m1.start))) (fun s => ?_)
  have hm : m1.multi = m.multi := by unfold Msg.multi; rw [h1.1]
  rw [← hm]
  refine bind (sim_findBoundary this m1) (fun r bd => fact_elim (fun h2 => fact_elim (fun hbd => ?_)))
  obtain ⟨bd', m2⟩ := r
  dsimp only at h2 hbd ⊢
  subst hbd
  have hm2 : m2.multi = m1.multi := by unfold Msg.multi; rw [h2.1]
  rw [← hm2]
  unfold msgAt hdrsAt
  refine pre_eq (A := (commonsAt hdrAt msgOrder (this + 22) m2.hdrs.common ∗ rawsAt (this + 64) m2.hdrs.raw) ∗ (startLineAt this m2.start ∗ bodiesAt (this + 66) m2.bodies)) (by
    show _ ∗ ((commonsAt hdrAt msgOrder (this + 22) m2.hdrs.common ∗ rawsAt (this + 64) m2.hdrs.raw) ∗ _) = _; ac_rfl) ?_
  refine seq (sim_encodeHeaders net fl m2.hdrs msgOrder (this + 22) (this + 64) _ msgOrder_nodup) (fun v b => pre_eq (star_assoc _ _ _) (fact_elim (fun hb => ?_)))
  subst hb
  obtain ⟨b, e⟩ := v
  dsimp only
  have fin (t : Bytes) : (commonsAt (hdrAtE e) msgOrder (this + 22) m2.hdrs.common ∗ rawsAt (this + 64) m2.hdrs.raw) ∗ (startLineAt this m2.start ∗ bodiesAt (this + 66) m2.bodies) ⊢ₘ
      fact ((bd, t) = (bd, t) ∧ m2.bodies = m.bodies ∧ m2.hdrs.common .contentLength ≠ []) ∗ msgAtE e this m2 := by
    refine Ent.fact ⟨rfl, h2.1.trans h1.1, by rw [h2.2]; exact h1.2⟩ (Ent.of_eq ?_)
    show _ = _ ∗ ((commonsAt (hdrAtE e) msgOrder (this + 22) m2.hdrs.common ∗ rawsAt (this + 64) m2.hdrs.raw) ∗ _)
    ac_rfl
  by_cases hmm : m2.multi = true
  · simp only [if_pos hmm]
    refine look (Sees.left (Sees.right (sees_hasMime this m2.hdrs.raw))) (ret ?_)
    exact fin _
  · simp only [if_neg hmm]
    refine ret ?_
    rw [List.append_nil]
    exact fin _

/-! ## the bodies and the correction of Content-Length -/
/-- SipMsg.go:230-252: the bodies and the correction of Content-Length, where `e` is the end of its value (a uint32) -/
def Msg.tailX (net : Net) (fl : Flags) (m : Msg) (bd b : Bytes) (e : Nat) : P (Bytes × Msg) :=
  match m.bodies with
  | [] => pure (b, m)
  | body :: _ => do
    let t ← P.ofOut (if m.multi then encodeParts net fl bd m.bodies b else .ok (b ++ writeStr body.body))
    let t ← P.ofOut (patch t (e % 4294967296) (encodeUInt (t.length - b.length)))
    pure (t, { m with bodies := if m.multi then m.bodies.map Body.fixLength else m.bodies })

/-- `Encode` with the field `encodeEnd` a uint32 -/
def Msg.encodeX (net : Net) (m : Msg) (buf : Bytes) : P (Bytes × Msg) := do
  let c ← P.get
  let ((bd, b), e, m) ← m.headX net c.flags buf
  m.tailX net c.flags bd b e

/-- SipMsg.go:230-252 -/
def B.msgTail (net : Net) (fl : Flags) (this : Nat) (multi : Bool) (bd b : Bytes) : B Bytes := do
  let p ← get16 (this + 66)
  if p = 0 then pure b else do
  let t ← (if multi then encodeParts net fl bd 32769 p b else encodeSingle this b)
  let l ← get16 ((msgPlace this).field .contentLength)
  let e ← look (Rd.u32 (l + 4) Rd.ret)
  look (fun _ => patch t e (encodeUInt (t.length - b.length)))

/-- the field `encodeEnd` of the Content-Length header -/
theorem sees_end {e this : Nat} {h : Hdrs} (hc : h.common .contentLength ≠ []) :
    Sees (hdrsAt (hdrAtE e) (msgPlace this) h) (Rd.u16 ((msgPlace this).field .contentLength) fun l => Rd.u32 (l + 4) Rd.ret) (.ok (e % 4294967296)) := by
  obtain ⟨X, hX⟩ := hdrsAt_split (hdrAtE e) (pl := msgPlace this) msgOrder_nodup (HKind.mem_msgOrder .contentLength) h
  have e1 := hX h (fun _ _ => rfl) rfl
  unfold commonAt at e1
  simp only [if_neg (show ¬ HKind.contentLength.multi = true by decide)] at e1
  rcases hv : h.common .contentLength with _ | ⟨v, vs⟩
  · exact absurd hv hc
  rw [hv] at e1
  refine Sees.pre_eq e1 (Sees.ex_elim_star (fun q => Sees.pre_eq (star_assoc _ _ _) (Sees.f16 ?_)))
  refine Sees.right (Sees.left (Sees.right ?_))
  cases v with
  | num n => exact Sees.pre_eq (star_comm _ _) (Sees.f32 (Sees.ret _))
  | _ => exact Sees.fact_elim' (fun hx => hx.elim)

theorem B.bind_assoc' {α β γ : Type} (x : B α) (f : α → B β) (g : β → B γ) : (x >>= f) >>= g = x >>= fun a => f a >>= g := by
  funext c
  show B.bind (B.bind x f) g c = B.bind x (fun a => B.bind (f a) g) c
  unfold B.bind
  rcases x c with ⟨_ | _, _⟩ | _ | _ <;> rfl

/-- the bodies -/
theorem sim_tail (net : Net) (fl : Flags) (this : Nat) (m : Msg) (bd b : Bytes) (e : Nat) (hc : m.hdrs.common .contentLength ≠ []) :
    Sim (msgAtE e this m) (m.tailX net fl bd b e) (B.msgTail net fl this m.multi bd b) (fun v x => fact (x = v.1) ∗ msgAtE e this v.2) := by
  unfold Msg.tailX B.msgTail
  have fin (bs : List Body) : msgAtE e this { m with bodies := bs } = bodiesAt (this + 66) bs ∗ (startLineAt this m.start ∗ hdrsAt (hdrAtE e) (msgPlace this) m.hdrs) := by
    unfold msgAtE
    ac_rfl
  refine pre_eq (fin m.bodies) (ex_elim_star (fun q => pre_eq (star_assoc _ _ _) (get16 ?_)))
  have pat (t : Bytes) (bs : List Body) (F : Asrt) (hF : F ∗ hdrsAt (hdrAtE e) (msgPlace this) m.hdrs ⊢ₘ msgAtE e this { m with bodies := bs }) :
      Sim (F ∗ hdrsAt (hdrAtE e) (msgPlace this) m.hdrs) (P.ofOut (patch t (e % 4294967296) (encodeUInt (t.length - b.length))) >>= fun t => pure (t, { m with bodies := bs }))
        (B.get16 ((msgPlace this).field .contentLength) >>= fun l => B.look (Rd.u32 (l + 4) Rd.ret) >>= fun e => B.look (fun _ => patch t e (encodeUInt (t.length - b.length))))
        (fun v x => fact (x = v.1) ∗ msgAtE e this v.2) := by
    refine ofB (b' := B.look (Rd.u16 ((msgPlace this).field .contentLength) fun l => Rd.u32 (l + 4) Rd.ret) >>= fun e => B.look (fun _ => patch t e (encodeUInt (t.length - b.length)))) (fun c => rfl) ?_
    refine look (Sees.right (sees_end hc)) (ofB (B.bind_pure' _) ?_)
    exact lookB (fun _ _ _ _ => rfl) (fun t => ret (Ent.fact rfl hF))
  rcases hb : m.bodies with _ | ⟨body, bs⟩
  · refine pre_eq (star_left_comm _ _ _) (fact_elim (fun hq => ?_))
    rw [if_pos hq]
    refine ret (Ent.fact rfl (Ent.post_eq (fin m.bodies) ?_))
    rw [hb]
    exact Ent.pre_eq (A' := (u16At (this + 66) q ∗ emp) ∗ (startLineAt this m.start ∗ hdrsAt (hdrAtE e) (msgPlace this) m.hdrs)) (by rw [star_emp]) (Ent.frame _ (Ent.ex q (Ent.framel _ (Ent.post_eq (fact_true hq) (Ent.refl _)))))
  · refine pre_eq (star_left_comm _ _ _) (ex_elim_star (fun n => pre_eq (star_assoc _ _ _) (fact_elim (fun hq => ?_))))
    rw [if_neg (show ¬ q = 0 by omega)]
    dsimp only
    by_cases hm : m.multi = true
    · simp only [if_pos hm]
      refine pre (A := listAt bodyAt 8 q (body :: bs) ∗ (u16At (this + 66) q ∗ (startLineAt this m.start ∗ hdrsAt (hdrAtE e) (msgPlace this) m.hdrs))) ?_ (Ent.frame _ (Ent.ex n (Ent.fact hq (Ent.refl _))))
      refine seq (sim_encodeParts net fl bd (body :: bs) q b) (fun v t => pre_eq (star_assoc _ _ _) (fact_elim (fun ht => ?_)))
      subst ht
      refine pre_eq (A := (listAt bodyAt 8 q ((body :: bs).map Body.fixLength) ∗ (u16At (this + 66) q ∗ startLineAt this m.start)) ∗ hdrsAt (hdrAtE e) (msgPlace this) m.hdrs) (by ac_rfl) (pat _ _ _ ?_)
      refine Ent.post_eq (fin _) (Ent.pre_eq (A' := (u16At (this + 66) q ∗ listAt bodyAt 8 q ((body :: bs).map Body.fixLength)) ∗ (startLineAt this m.start ∗ hdrsAt (hdrAtE e) (msgPlace this) m.hdrs)) (by ac_rfl) (Ent.frame _ (Ent.ex q (Ent.refl _))))
    · simp only [if_neg hm]
      have hb1 : bs = [] := by
        unfold Msg.multi at hm
        rw [hb] at hm
        cases bs with
        | nil => rfl
        | cons x y => simp at hm
      rw [ofOut_ok]
      refine ofB (b' := B.get16 (this + 66) >>= fun p => B.get16 (p + 4) >>= fun s => B.look (E.str s) >>= fun t => B.get16 ((msgPlace this).field .contentLength) >>= fun l => B.look (Rd.u32 (l + 4) Rd.ret) >>= fun e => B.look (fun _ => patch (b ++ t) e (encodeUInt ((b ++ t).length - b.length)))) (fun c => ?_) ?_
      · unfold B.encodeSingle
        simp only [B.bind_assoc']
        rfl
      refine pre_eq (A := u16At (this + 66) q ∗ (strField (q + 4) body.body ∗ (hdrsAt hdrAt (bodyPlace q) body.hdrs ∗ (u16At (q + 8) n ∗ seg bodyAt 8 n bs 0) ∗ (startLineAt this m.start ∗ hdrsAt (hdrAtE e) (msgPlace this) m.hdrs)))) (by unfold bodyAt; ac_rfl) (get16 ?_)
      refine pre_eq (star_left_comm _ _ _) (ex_elim_star (fun s => pre_eq (star_assoc _ _ _) (get16 ?_)))
      refine look (Sees.ofShows (Shows.right (Shows.left (shows_strOpt s body.body)))) ?_
      refine pre_eq (A := ((u16At (q + 4) s ∗ strOpt s body.body) ∗ (hdrsAt hdrAt (bodyPlace q) body.hdrs ∗ (u16At (q + 8) n ∗ (seg bodyAt 8 n bs 0 ∗ (startLineAt this m.start ∗ u16At (this + 66) q))))) ∗ hdrsAt (hdrAtE e) (msgPlace this) m.hdrs) (by ac_rfl) (pat _ _ _ ?_)
      refine Ent.post_eq (fin _) (Ent.pre_eq (A' := (u16At (this + 66) q ∗ (((hdrsAt hdrAt (bodyPlace q) body.hdrs ∗ (u16At (q + 4) s ∗ strOpt s body.body)) ∗ (u16At (q + 8) n ∗ seg bodyAt 8 n bs 0)))) ∗ (startLineAt this m.start ∗ hdrsAt (hdrAtE e) (msgPlace this) m.hdrs)) (by ac_rfl) (Ent.frame _ (Ent.ex q (Ent.framel _ (Ent.ex n (Ent.fact hq (Ent.frame _ (Ent.framel _ (Ent.ex s (Ent.refl _))))))))))

theorem sim_encodeX (net : Net) (this : Nat) (m : Msg) (buf : Bytes) :
    Sim (msgAt this m) (m.encodeX net buf) (B.msgEncode net this buf) (fun v x => fact (x = v.1) ∗ msgAt this v.2) := by
  unfold Msg.encodeX B.msgEncode
  refine Sim.ctx (fun c => ?_)
  refine look (Sees.right (Sees.right (sees_hasMulti this m.bodies))) ?_
  refine bind (sim_msgHead net c.flags this m buf) (fun v x => fact_elim (fun hx => ?_))
  obtain ⟨⟨bd, b⟩, e, m1⟩ := v
  dsimp only at hx
  obtain ⟨hx, h1, h2⟩ := hx
  subst hx
  have hm : m.multi = m1.multi := by unfold Msg.multi; rw [h1]
  refine post (R := fun v x => fact (x = v.1) ∗ msgAtE e this v.2) ?_ (fun v x => Ent.framel _ ?_)
  · have := sim_tail net c.flags this m1 bd b e h2
    rw [← hm] at this
    exact this
  · exact Ent.framel _ (Ent.frame _ (Ent.frame _ (commonsAt_mono (hdrAtE_any e) _ _ _)))

/-! ## `encodeEnd` as a uint32 -/
theorem patch_short {t d r : Bytes} {e : Nat} (h : patch t e d = .ok r) (hr : r.length < 4294967296) : patch t (e % 4294967296) d = .ok r := by
  have : e ≤ r.length := by
    unfold patch at h
    split at h
    · cases h
    · rename_i hc
      cases h
      simp only [List.length_append, List.length_take, List.length_drop]
      omega
  rw [Nat.mod_eq_of_lt (by omega), h]

theorem Out.ok_bind' {α β : Type} (x : α) (f : α → Out β) : (Out.ok x >>= f) = f x := rfl

theorem encode_head (net : Net) (m : Msg) (buf : Bytes) (c : Ctx) : m.encode net buf c = (m.headX net c.flags buf >>= fun v => match v.2.2.bodies with
    | [] => pure (v.1.2, v.2.2)
    | body :: _ => do
      let t ← P.ofOut (if v.2.2.multi then encodeParts net c.flags v.1.1 v.2.2.bodies v.1.2 else .ok (v.1.2 ++ writeStr body.body))
      let t ← P.ofOut (patch t v.2.1 (encodeUInt (t.length - v.1.2.length)))
      pure (t, { v.2.2 with bodies := if v.2.2.multi then v.2.2.bodies.map Body.fixLength else v.2.2.bodies })) c := by
  unfold Msg.encode Msg.headX
  rw [P.get_bind]
  simp only [P.bind_apply]
  rcases m.addLength c with ⟨_ | m1, c1⟩ | _ | _ <;> try rfl
  dsimp only
  rcases hs : P.ofOut (m1.start.encode net c.flags) c1 with ⟨_ | s, c2⟩ | _ | _ <;> try rfl
  dsimp only
  rcases m1.findBoundary c2 with ⟨_ | ⟨bd, m2⟩, c3⟩ | _ | _ <;> try rfl
  dsimp only
  unfold Msg.encodeTail
  rcases he : m2.hdrs.encode net c.flags msgOrder (buf ++ s) with ⟨b, e⟩ | _ | _
  rotate_left
  · rfl
  · rfl
  obtain ⟨st, hd, bs⟩ := m2
  dsimp only
  rw [Out.ok_bind']
  cases bs with
  | nil => rfl
  | cons body bs =>
    dsimp only
    show _ = (P.ofOut _ >>= fun t => _) c3
    rw [P.bind_apply]
    dsimp only
    generalize (b ++ if (Msg.mk st hd (body :: bs)).multi = true then (Msg.mk st hd (body :: bs)).mimeLine else []) ++ [13, 10] = b'
    rcases (if (Msg.mk st hd (body :: bs)).multi = true then encodeParts net c.flags bd (body :: bs) b' else Out.ok (b' ++ writeStr body.body)) with t | _ | _ <;> try rfl

/-- `encodeEnd` does not overflow when the text is shorter than 4 GB -/
theorem encodeX_eq {net : Net} {m : Msg} {buf : Bytes} {c d : Ctx} {r : Option (Bytes × Msg)} (h : m.encode net buf c = .ok (r, d)) (hr : ∀ x, r = some x → x.1.length < 4294967296) :
    m.encodeX net buf c = .ok (r, d) := by
  rw [encode_head, P.bind_apply] at h
  unfold Msg.encodeX
  rw [P.get_bind, P.bind_apply]
  rcases hh : m.headX net c.flags buf c with ⟨_ | v, c1⟩ | _ | _ <;> rw [hh] at h <;> dsimp only at h ⊢
  · exact h
  · obtain ⟨⟨bd, b⟩, e, m1⟩ := v
    dsimp only at h ⊢
    unfold Msg.tailX
    rcases hb : m1.bodies with _ | ⟨body, bs⟩ <;> rw [hb] at h <;> dsimp only at h ⊢
    · exact h
    · rw [P.bind_apply] at h ⊢
      rcases ho : P.ofOut (if m1.multi = true then encodeParts net c.flags bd (body :: bs) b else Out.ok (b ++ writeStr body.body)) c1 with ⟨_ | t, c2⟩ | _ | _ <;> rw [ho] at h <;> dsimp only at h ⊢
      · exact h
      · rw [P.bind_apply] at h ⊢
        rcases hp : patch t e (encodeUInt (t.length - b.length)) with t' | _ | _ <;> rw [hp] at h
        · have hx : t'.length < 4294967296 := by cases h; exact hr _ rfl
          rw [patch_short hp hx]
          exact h
        · cases h
        · cases h
      · exact h
      · exact h
  · exact h
  · exact h

/-! ## C46 for messages -/
/-- The bytes `own`, all below the mark, hold the message `m` in the struct at `this`; the fields of the structs are those of `startLineAt`, `hdrAt`, `rawAt`, `bodyAt`. -/
def Held (this : Nat) (m : Msg) (own : Nat → Prop) (c : BCtx) : Prop := (msgAt this m).holds c.a.mem own ∧ ∀ i, own i → i < c.a.used

/-- `SipMsg.Parse` on the bytes of the arena: outcome, position, errors and memory mark of `Msg.parse`; of the bytes below the mark only the 68 of the struct are
written; after success the struct and new bytes hold the message. -/
theorem msg_in_memory (net : Net) (hn : net.Len16) (c : BCtx) (hf : Fine c) (this : Nat) (ht : this + 68 ≤ c.a.used) :
    match Msg.parse net c.abs with
    | .panic => B.msg net this c = .panic
    | .hang => B.msg net this c = .hang
    | .ok (r, d) => ∃ c', B.msg net this c = .ok (r.map (fun _ => ()), c') ∧ c'.abs = d ∧ Fine c' ∧
        (∀ i, i < c.a.used → ¬ (this ≤ i ∧ i < this + 68) → c'.a.mem i = c.a.mem i) ∧
        ∀ m, r = some m → ∃ own, Held this m own c' ∧ ∀ i, own i → (this ≤ i ∧ i < this + 68) ∨ c.a.used ≤ i := by
  obtain ⟨l, hl, hb⟩ := bytes_of_mem c.a.mem this 68
  have h1 := sim_msg net hn this l hl c _ hf hb (fun i hi => by omega)
  unfold SimOut at h1
  rcases hp : Msg.parse net c.abs with ⟨_ | v, d⟩ | _ | _ <;> rw [hp] at h1 <;> dsimp only at h1 ⊢
  · obtain ⟨c', j1, j2, j3⟩ := h1
    exact ⟨c', j1, j2, j3.fine hf, j3.mem, fun m hm => by cases hm⟩
  · obtain ⟨x, c', j1, j2, j3, S', j4, j5, j6⟩ := h1
    exact ⟨c', j1, j2, j3.fine hf, j3.mem, fun m hm => by cases hm; exact ⟨S', ⟨j4, j6⟩, j5⟩⟩
  · exact h1
  · exact h1

/-- `SipMsg.Encode` of a message that the bytes hold: text, outcome, errors and memory mark of `Msg.encode`; of the bytes below the mark only those of the message are
written; after success the bytes hold what `Msg.encode` has made of the message. -/
theorem msg_encode_in_memory (net : Net) (c : BCtx) (hf : Fine c) (this : Nat) (m : Msg) (own : Nat → Prop) (hm : Held this m own c) (buf : Bytes) (r : Option (Bytes × Msg)) (d : Ctx)
    (h : m.encode net buf c.abs = .ok (r, d)) (hr : ∀ x, r = some x → x.1.length < 4294967296) :
    ∃ c', B.msgEncode net this buf c = .ok (r.map (·.1), c') ∧ c'.abs = d ∧ Fine c' ∧ (∀ i, i < c.a.used → ¬ own i → c'.a.mem i = c.a.mem i) ∧
      ∀ x, r = some x → ∃ own', Held this x.2 own' c' ∧ ∀ i, own' i → own i ∨ c.a.used ≤ i := by
  have h1 := sim_encodeX net this m buf c own hf hm.1 hm.2
  unfold SimOut at h1
  rw [encodeX_eq h hr] at h1
  rcases r with _ | v <;> dsimp only at h1
  · obtain ⟨c', j1, j2, j3⟩ := h1
    exact ⟨c', j1, j2, j3.fine hf, j3.mem, fun m hm => by cases hm⟩
  · obtain ⟨x, c', j1, j2, j3, S', j4, j5, j6⟩ := h1
    obtain ⟨hx, k4⟩ := fact_star_holds.1 j4
    subst hx
    exact ⟨c', j1, j2, j3.fine hf, j3.mem, fun x hx => by cases hx; exact ⟨S', ⟨k4, j6⟩, j5⟩⟩

/-- a message is not changed when its own bytes are not -/
theorem Held.stays {this : Nat} {m : Msg} {own : Nat → Prop} {c c' : BCtx} (h : Held this m own c) (hu : c.a.used ≤ c'.a.used) (hm : ∀ i, i < c.a.used → own i → c'.a.mem i = c.a.mem i) :
    Held this m own c' :=
  ⟨(msgAt this m).loc h.1 (fun i hi => hm i (h.2 i hi) hi), fun i hi => Nat.lt_of_lt_of_le (h.2 i hi) hu⟩

/-- Parsing another message in the same arena leaves a message alone, whatever the outcome. -/
theorem msg_undisturbed_by_parse (net : Net) (hn : net.Len16) (c : BCtx) (hf : Fine c) (this : Nat) (m : Msg) (own : Nat → Prop) (hm : Held this m own c) (that : Nat) (ht : that + 68 ≤ c.a.used)
    (hd : ∀ i, that ≤ i → i < that + 68 → ¬ own i) (x : Option Unit) (c' : BCtx) (h : B.msg net that c = .ok (x, c')) : Held this m own c' := by
  obtain ⟨l, hl, hb⟩ := bytes_of_mem c.a.mem that 68
  have h1 := sim_msg net hn that l hl c _ hf hb (fun i hi => by omega)
  unfold SimOut at h1
  rcases hp : Msg.parse net c.abs with ⟨_ | v, d⟩ | _ | _ <;> rw [hp] at h1 <;> dsimp only at h1
  · obtain ⟨c1, j1, j2, j3⟩ := h1
    rw [h] at j1
    cases j1
    exact hm.stays j3.used (fun i hi ho => j3.mem i hi (fun hx => hd i hx.1 hx.2 ho))
  · obtain ⟨x, c1, j1, j2, j3, _⟩ := h1
    rw [h] at j1
    cases j1
    exact hm.stays j3.used (fun i hi ho => j3.mem i hi (fun hx => hd i hx.1 hx.2 ho))
  · rw [h] at h1; cases h1
  · rw [h] at h1; cases h1

/-- Encoding another message that shares no byte leaves a message alone. -/
theorem msg_undisturbed_by_encode (net : Net) (c : BCtx) (hf : Fine c) (this that : Nat) (m m' : Msg) (own own' : Nat → Prop) (hm : Held this m own c) (hm' : Held that m' own' c)
    (hd : ∀ i, own i → ¬ own' i) (buf : Bytes) (x : Option Bytes) (c' : BCtx) (h : B.msgEncode net that buf c = .ok (x, c')) : Held this m own c' := by
  have h1 := sim_encodeX net that m' buf c own' hf hm'.1 hm'.2
  unfold SimOut at h1
  rcases hp : m'.encodeX net buf c.abs with ⟨_ | v, d⟩ | _ | _ <;> rw [hp] at h1 <;> dsimp only at h1
  · obtain ⟨c1, j1, j2, j3⟩ := h1
    rw [h] at j1
    cases j1
    exact hm.stays j3.used (fun i hi ho => j3.mem i hi (hd i ho))
  · obtain ⟨x, c1, j1, j2, j3, _⟩ := h1
    rw [h] at j1
    cases j1
    exact hm.stays j3.used (fun i hi ho => j3.mem i hi (hd i ho))
  · rw [h] at h1; cases h1
  · rw [h] at h1; cases h1

/-! ### a message that is read once and written several times -/
/-- `Encode` into each of these buffers -/
def P.encodes (net : Net) : Msg → List Bytes → P (List Bytes)
  | _, [] => pure []
  | m, b :: bs => do
    let (t, m) ← m.encode net b
    let ts ← P.encodes net m bs
    pure (t :: ts)
/-- the same on the bytes of the arena -/
def B.encodes (net : Net) (this : Nat) : List Bytes → B (List Bytes)
  | [] => pure []
  | b :: bs => do
    let t ← B.msgEncode net this b
    let ts ← B.encodes net this bs
    pure (t :: ts)
/-- no panic, and no text of 4 GB -/
def Short (net : Net) : Msg → List Bytes → Ctx → Prop
  | _, [], _ => True
  | m, b :: bs, c => match m.encode net b c with
    | .ok (some (t, m), c) => t.length < 4294967296 ∧ Short net m bs c
    | .ok (none, _) => True
    | _ => False

def Short.dec (net : Net) : (m : Msg) → (bs : List Bytes) → (c : Ctx) → Decidable (Short net m bs c)
  | _, [], _ => .isTrue trivial
  | m, b :: bs, c => by
    unfold Short
    rcases m.encode net b c with ⟨_ | ⟨t, m1⟩, d⟩ | _ | _ <;> dsimp only
    · exact .isTrue trivial
    · exact @instDecidableAnd _ _ _ (Short.dec net m1 bs d)
    · exact .isFalse id
    · exact .isFalse id
instance (net : Net) (m : Msg) (bs : List Bytes) (c : Ctx) : Decidable (Short net m bs c) := Short.dec net m bs c

theorem B.bind_apply' {α β : Type} (x : B α) (f : α → B β) (c : BCtx) : (x >>= f) c = B.bind x f c := rfl

theorem encodes_in_memory (net : Net) (this : Nat) : ∀ (bufs : List Bytes) (m : Msg) (own : Nat → Prop) (c : BCtx), Fine c → Held this m own c → Short net m bufs c.abs →
    match P.encodes net m bufs c.abs with
    | .ok (r, d) => ∃ c', B.encodes net this bufs c = .ok (r, c') ∧ c'.abs = d
    | _ => False
  | [], m, own, c, hf, hm, hs => ⟨c, rfl, rfl⟩
  | b :: bs, m, own, c, hf, hm, hs => by
    unfold Short at hs
    unfold P.encodes B.encodes
    rw [P.bind_apply, B.bind_apply']
    rcases he : m.encode net b c.abs with ⟨_ | ⟨t, m1⟩, d⟩ | _ | _ <;> rw [he] at hs <;> dsimp only at hs ⊢
    · obtain ⟨c1, j1, j2, _⟩ := msg_encode_in_memory net c hf this m own hm b none d he (fun x hx => by cases hx)
      unfold B.bind
      rw [j1]
      exact ⟨c1, rfl, j2⟩
    · obtain ⟨c1, j1, j2, j3, _, j5⟩ := msg_encode_in_memory net c hf this m own hm b _ d he (fun x hx => by cases hx; exact hs.1)
      obtain ⟨own', k1, _⟩ := j5 _ rfl
      rw [← j2] at hs ⊢
      have ih := encodes_in_memory net this bs m1 own' c1 j3 k1 hs.2
      unfold B.bind
      rw [j1, P.bind_apply]
      dsimp only [Option.map]
      rw [B.bind_apply']
      unfold B.bind
      rcases hp : P.encodes net m1 bs c1.abs with ⟨_ | ts, d1⟩ | _ | _ <;> rw [hp] at ih <;> dsimp only at ih ⊢
      · obtain ⟨c2, i1, i2⟩ := ih
        rw [i1]
        exact ⟨c2, rfl, i2⟩
      · obtain ⟨c2, i1, i2⟩ := ih
        rw [i1]
        exact ⟨c2, rfl, i2⟩

/-- Reading a message into the 68 bytes at `this` and writing it into any number of buffers, on the bytes: the texts of the value level. -/
theorem msg_memory_roundtrip (net : Net) (hn : net.Len16) (c : BCtx) (hf : Fine c) (this : Nat) (ht : this + 68 ≤ c.a.used) (bufs : List Bytes) (m : Msg) (d : Ctx)
    (h : Msg.parse net c.abs = .ok (some m, d)) (hs : Short net m bufs d) (r : Option (List Bytes)) (d' : Ctx) (he : P.encodes net m bufs d = .ok (r, d')) :
    ∃ c', (B.msg net this >>= fun _ => B.encodes net this bufs) c = .ok (r, c') ∧ c'.abs = d' := by
  have h1 := msg_in_memory net hn c hf this ht
  rw [h] at h1
  obtain ⟨c1, j1, j2, j3, _, j5⟩ := h1
  obtain ⟨own, k1, _⟩ := j5 m rfl
  rw [← j2] at hs he
  have h2 := encodes_in_memory net this bufs m own c1 j3 k1 hs
  rw [he] at h2
  obtain ⟨c2, i1, i2⟩ := h2
  refine ⟨c2, ?_, i2⟩
  show B.bind _ _ c = _
  unfold B.bind
  rw [j1]
  exact i1

/-! ## concrete cases -/
/-- an arena with room, a message struct at address 10, old contents, and an input -/
def heapMsgSample (s : String) : BCtx := { src := str s, a := { Arena.new 2000 with used := 100, mem := fun i => if i < 100 then 0xa5 else 0x5a } }
/-- two parts, a Content-Length header that has to be created and corrected, two Via headers and a raw header; written twice -/
theorem heap_sample_multipart :
    let c := heapMsgSample "INVITE sip:b@h SIP/2.0\r\nVia: SIP/2.0/UDP h\r\nX: y\r\nv: SIP/2.0/UDP k\r\nc: multipart/mixed;boundary=ab\r\n\r\n--ab\r\nl: 3\r\n\r\nwxyz\r\n--ab\r\n\r\nhi\r\n--ab--"
    Fine c ∧ 10 + 68 ≤ c.a.used ∧
    (match Msg.parse ⟨fun _ => none, fun _ => []⟩ c.abs with | .ok (some m, d) => decide (Short ⟨fun _ => none, fun _ => []⟩ m [[], str "> "] d) | _ => false) = true ∧
    (match (B.msg ⟨fun _ => none, fun _ => []⟩ 10 >>= fun _ => B.encodes ⟨fun _ => none, fun _ => []⟩ 10 [[], str "> "]) c with
     | .ok (some [t, u], c) => (t, u, c.a.mem 9, c.a.mem 78)
     | _ => ([], [], 0, 0)) =
      (str "INVITE sip:b@h SIP/2.0\r\nVia: SIP/2.0/UDP h, SIP/2.0/UDP k\r\nContent-Length:         60\r\nContent-Type: multipart/mixed;boundary=ab\r\nSession-Expires: y\r\nMIME-Version: 1.0\r\n\r\n--ab\r\nContent-Length:          4\r\n\r\nwxyz\r\n--ab\r\n\r\nhi\r\n--ab--",
        str "> INVITE sip:b@h SIP/2.0\r\nVia: SIP/2.0/UDP h, SIP/2.0/UDP k\r\nContent-Length:         60\r\nContent-Type: multipart/mixed;boundary=ab\r\nSession-Expires: y\r\nMIME-Version: 1.0\r\n\r\n--ab\r\nContent-Length:          4\r\n\r\nwxyz\r\n--ab\r\n\r\nhi\r\n--ab--", 0xa5, 0xa5) := by
  refine ⟨by unfold Fine; decide +kernel, by decide +kernel, by decide +kernel, by decide +kernel⟩
/-- a body that is cut at the length given by the message -/
theorem heap_sample_body :
    let c := heapMsgSample "ACK sip:b@h SIP/2.0\r\nl: 9\r\nc: a/b\r\n\r\nhello, world"
    Fine c ∧ 10 + 68 ≤ c.a.used ∧
    (match Msg.parse ⟨fun _ => none, fun _ => []⟩ c.abs with | .ok (some m, d) => decide (Short ⟨fun _ => none, fun _ => []⟩ m [[], str "> "] d) | _ => false) = true ∧
    (match (B.msg ⟨fun _ => none, fun _ => []⟩ 10 >>= fun _ => B.encodes ⟨fun _ => none, fun _ => []⟩ 10 [[], str "> "]) c with
     | .ok (some [t, u], c) => (t, u, c.a.mem 9, c.a.mem 78)
     | _ => ([], [], 0, 0)) =
      (str "ACK sip:b@h SIP/2.0\r\nContent-Length:          9\r\nContent-Type: a/b\r\n\r\nhello, wo", str "> ACK sip:b@h SIP/2.0\r\nContent-Length:          9\r\nContent-Type: a/b\r\n\r\nhello, wo", 0xa5, 0xa5) := by
  refine ⟨by unfold Fine; decide +kernel, by decide +kernel, by decide +kernel, by decide +kernel⟩
end Sip
