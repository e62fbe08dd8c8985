import Verif.Props.HeapBody
/-! # C46: writing a message from the bytes of the arena -/
namespace Sip
attribute [local irreducible] u32 u16 roundToAlign
open Asrt

/-! ## rules -/
theorem ofOut_bind {α β : Type} (o : Out α) (f : α → Out β) : P.ofOut (o >>= f) = (P.ofOut o >>= fun x => P.ofOut (f x)) := by
  funext c
  rw [P.bind_apply]
  unfold P.ofOut
  cases o <;> rfl
theorem ofOut_ok {α : Type} (x : α) : P.ofOut (.ok x) = (pure x : P α) := rfl

namespace Sim
variable {α β γ δ ν : Type} {A A' F : Asrt} {p : P α} {b : B β} {R R' : α → β → Asrt}
/-- both layers evaluate the same function -/
theorem lookB {e : Rd γ} {o : Out γ} {f : γ → P α} {g : γ → B β} (hs : Sees A e o) (k : ∀ x, Sim A (f x) (g x) R) : Sim A (P.ofOut o >>= f) (B.look e >>= g) R :=
  bind (lookO hs) (fun _ _ => fact_elim (fun h => h ▸ k _))
/-- four bytes are a number -/
theorem any_u32 {a : Nat} : anyAt a 4 ⊢ₘ ex fun n => u32At a n := by
  refine Ent.ex_elim (fun l => Ent.fact_elim (fun hl => ?_))
  match l, hl with
  | [x, y, z, w], _ =>
    have two (a : Nat) (x y : UInt8) : bytes a [x, y] = u16At a (x.toNat + 256 * y.toNat) := by
      unfold u16At
      have h1 := x.toNat_lt
      have h2 := y.toNat_lt
      rw [fact_true (by omega), emp_star, show (x.toNat + 256 * y.toNat) % 256 = x.toNat by omega, show (x.toNat + 256 * y.toNat) / 256 = y.toNat by omega, UInt8.ofNat_toNat, UInt8.ofNat_toNat]
    have h1 := x.toNat_lt
    have h2 := y.toNat_lt
    have h3 := z.toNat_lt
    have h4 := w.toNat_lt
    refine Ent.ex (x.toNat + 256 * y.toNat + 65536 * (z.toNat + 256 * w.toNat)) (Ent.fact (by omega) ?_)
    rw [show (x.toNat + 256 * y.toNat + 65536 * (z.toNat + 256 * w.toNat)) % 65536 = x.toNat + 256 * y.toNat by omega,
      show (x.toNat + 256 * y.toNat + 65536 * (z.toNat + 256 * w.toNat)) / 65536 = z.toNat + 256 * w.toNat by omega, ← two, ← two]
    exact Ent.of_eq (bytes_append a [x, y] [z, w])
theorem anyput32 {a n : Nat} {g : Unit → B β} (hn : n < 4294967296) (k : Sim (u32At a n ∗ F) p (g ()) R) : Sim (anyAt a 4 ∗ F) p (B.put32 a n >>= g) R :=
  pre (ex_elim_star (fun _ => put32 hn k)) (Ent.frame F any_u32)
end Sim

theorem any_of_u32 {a n : Nat} : u32At a n ⊢ₘ anyAt a 4 := by
  unfold u32At u16At
  refine Ent.fact_elim (fun _ => Ent.pre_eq (star_assoc _ _ _) (Ent.fact_elim (fun _ => Ent.pre_eq (star_left_comm _ _ _) (Ent.fact_elim (fun _ => ?_)))))
  exact Ent.ex _ (Ent.fact (by rfl) (Ent.of_eq (bytes_append a [_, _] [_, _]).symm))

theorem seg_mono {α : Type} {nd nd' : Nat → α → Asrt} (h : ∀ a v, nd a v ⊢ₘ nd' a v) (off q : Nat) : ∀ (vs : List α) (p : Nat), seg nd off p vs q ⊢ₘ seg nd' off p vs q
  | [], p => Ent.refl _
  | v :: vs, p => Ent.ex_elim (fun n => Ent.ex n (Ent.framel _ (Ent.star (h p v) (Ent.framel _ (seg_mono h off q vs n)))))

/-! ## the headers -/
/-- a header behind `EncodeHeaders`: the field `encodeEnd` of Content-Length is set -/
def hdrAtE (e : Nat) (k : HKind) (a : Nat) (v : HVal) : Asrt :=
  match k, v with
  | .contentLength, .num n => u32At a n ∗ u32At (a + 4) (e % 4294967296)
  | k, v => hdrAt k a v

theorem hdrAtE_ne {e : Nat} {k : HKind} (h : k ≠ .contentLength) : hdrAtE e k = hdrAt k := by
  funext a v
  cases k <;> first | rfl | exact absurd rfl h
theorem hdrAtE_any (e : Nat) (k : HKind) (a : Nat) (v : HVal) : hdrAtE e k a v ⊢ₘ hdrAt k a v := by
  by_cases h : k = .contentLength
  · subst h
    cases v with
    | num n => exact Ent.framel _ any_of_u32
    | _ => exact Ent.refl _
  · rw [hdrAtE_ne h]
    exact Ent.refl _
theorem commonAt_mono {nd nd' : HKind → Nat → HVal → Asrt} (h : ∀ k a v, nd k a v ⊢ₘ nd' k a v) (k : HKind) (f : Nat) (vs : List HVal) : commonAt nd k f vs ⊢ₘ commonAt nd' k f vs := by
  refine Ent.ex_elim (fun q => Ent.ex q (Ent.framel _ ?_))
  by_cases hm : k.multi = true
  · rw [if_pos hm, if_pos hm]
    exact seg_mono (h k) _ _ vs q
  · rw [if_neg hm, if_neg hm]
    rcases vs with _ | ⟨v, vs⟩
    · exact Ent.refl _
    · exact Ent.framel _ (h k q v)
theorem commonsAt_mono {nd nd' : HKind → Nat → HVal → Asrt} (h : ∀ k a v, nd k a v ⊢ₘ nd' k a v) : ∀ (order : List HKind) (f : Nat) (c : HKind → List HVal), commonsAt nd order f c ⊢ₘ commonsAt nd' order f c
  | [], _, _ => Ent.refl _
  | k :: ks, f, c => Ent.star (commonAt_mono h k f _) (commonsAt_mono h ks (f + 2) c)

theorem joined_values (net : Net) (fl : Flags) (k : HKind) : ∀ (vs : List HVal) (v : HVal), joined (str ", ") (k.encodeValue net fl v) (vs.map (k.encodeValue net fl)) = encodeValues net fl k v vs
  | [], v => by
    show Out.app _ _ = k.encodeValue net fl v
    rcases k.encodeValue net fl v with x | _ | _
    · show Out.ok (x ++ []) = _
      rw [List.append_nil]
    · rfl
    · rfl
  | w :: ws, v => by
    show Out.app _ (Out.app _ (joined _ (k.encodeValue net fl w) (ws.map (k.encodeValue net fl)))) = _
    rw [joined_values net fl k ws w]
    show _ = (do
      let t ← k.encodeValue net fl v
      let r ← encodeValues net fl k w ws
      .ok (t ++ str ", " ++ r) : Out Bytes)
    rcases k.encodeValue net fl v with x | _ | _
    · rcases encodeValues net fl k w ws with y | _ | _
      · show Out.ok (x ++ (_ ++ y)) = .ok (x ++ _ ++ y)
        rw [List.append_assoc]
      · rfl
      · rfl
    · rfl
    · rfl

open Sim
theorem sim_encodeCommon (net : Net) (fl : Flags) (h : Hdrs) (k : HKind) (f : Nat) (buf : Bytes) (e : Nat) :
    Sim (commonAt hdrAt k f (h.common k)) (P.ofOut (encodeCommon net fl h k (buf, e))) (B.encodeCommon net fl k f buf) (fun v x => fact (x = v.1) ∗ commonAt (hdrAtE v.2) k f (h.common k)) := by
  unfold encodeCommon B.encodeCommon commonAt
  rcases hc : h.common k with _ | ⟨v, vs⟩
  · refine ex_elim (fun q => get16 ?_)
    have e0 (nd : Nat → HVal → Asrt) : (if k.multi = true then listAt nd k.bodySize q [] else optNode nd q ([] : List HVal).head?) = fact (q = 0) := by
      split <;> rfl
    rw [e0]
    refine pre_eq (star_comm _ _) (fact_elim (fun hq => ?_))
    rw [if_pos hq]
    refine ret (Ent.fact rfl (Ent.ex q (Ent.post_eq ?_ (Ent.refl _))))
    rw [e0, fact_true hq, star_emp]
  · refine ex_elim (fun q => get16 ?_)
    dsimp only
    rw [ofOut_bind]
    by_cases hm : k.multi = true
    · simp only [if_pos hm]
      have hk : k ≠ .contentLength := by rintro rfl; cases hm
      refine know (φ := 8 ≤ q) (fun m S hh => ?_) (fun hq => ?_)
      · obtain ⟨_, _, _, _, _, hh⟩ := hh
        obtain ⟨_, hh⟩ := hh
        exact (fact_star_holds.1 hh).1.1
      rw [if_neg (by omega)]
      refine lookB (Sees.ofShows (Shows.of_eq (Shows.right (Shows.walk (shows_hdrValue net fl k) v vs q)) (joined_values net fl k vs v))) (fun t => ?_)
      rw [if_neg hk]
      simp only [hdrAtE_ne hk]
      exact ret (Ent.fact rfl (Ent.ex q (Ent.refl _)))
    · simp only [if_neg hm]
      refine pre_eq (star_left_comm _ _ _) (fact_elim (fun hq => ?_))
      rw [if_neg (by omega)]
      refine lookB (Sees.ofShows (Shows.right (shows_hdrValue net fl k q v))) (fun t => ?_)
      by_cases hk : k = .contentLength
      · rw [if_pos hk, if_pos hk]
        subst hk
        refine pre_eq (star_comm _ _) (Sim.contentLength (fun n hn => ?_))
        subst hn
        refine pre_eq (star_left_comm _ _ _) (anyput32 (by omega) (ret (Ent.fact rfl (Ent.ex q ?_))))
        refine Ent.pre_eq (A' := u16At f q ∗ (u32At q n ∗ u32At (q + 4) _)) (by ac_rfl) (Ent.framel _ (Ent.fact hq (Ent.refl _)))
      · rw [if_neg hk, if_neg hk]
        simp only [hdrAtE_ne hk]
        exact ret (Ent.fact rfl (Ent.ex q (Ent.framel _ (Ent.fact hq (Ent.refl _)))))

theorem encodeCommons_end {net : Net} {fl : Flags} {h : Hdrs} : ∀ (ks : List HKind) (st st' : Bytes × Nat), .contentLength ∉ ks → encodeCommons net fl h ks st = .ok st' → st'.2 = st.2
  | [], st, st', _, e => by cases e; rfl
  | k :: ks, st, st', hk, e => by
    unfold encodeCommons at e
    rw [List.mem_cons] at hk
    rcases h1 : encodeCommon net fl h k st with s | _ | _ <;> rw [h1] at e
    · have h2 := encodeCommons_end ks s st' (fun hh => hk (.inr hh)) e
      rw [h2]
      unfold encodeCommon at h1
      rcases hc : h.common k with _ | ⟨v, vs⟩ <;> rw [hc] at h1 <;> dsimp only at h1
      · cases h1; rfl
      · rcases ht : encodeValues net fl k v (if k.multi = true then vs else []) with t | _ | _ <;> rw [ht] at h1 <;> cases h1
        rw [if_neg (fun hh => hk (.inl hh.symm))]
    · cases e
    · cases e

theorem sim_encodeCommons (net : Net) (fl : Flags) (h : Hdrs) : ∀ (order : List HKind) (f : Nat) (buf : Bytes) (e : Nat), order.Nodup →
    Sim (commonsAt hdrAt order f h.common) (P.ofOut (encodeCommons net fl h order (buf, e))) (B.encodeCommons net fl order f buf) (fun v x => fact (x = v.1) ∗ commonsAt (hdrAtE v.2) order f h.common)
  | [], f, buf, e, _ => ret (Ent.fact rfl (Ent.refl _))
  | k :: ks, f, buf, e, hd => by
    rw [List.nodup_cons] at hd
    unfold encodeCommons B.encodeCommons
    rw [ofOut_bind]
    refine seq (sim_encodeCommon net fl h k f buf e) (fun st b => pre_eq (star_assoc _ _ _) (fact_elim (fun hb => ?_)))
    subst hb
    refine ofP (P.bind_pure' _) (ofB (B.bind_pure' _) ?_)
    refine pre_eq (star_comm _ _) (seq (val (φ := fun v => encodeCommons net fl h ks st = .ok v) (fun c v d hv => ?_) (sim_encodeCommons net fl h ks (f + 2) st.1 st.2 hd.2)) (fun v x => ?_))
    · unfold P.ofOut at hv
      split at hv <;> cases hv
      assumption
    · refine pre_eq (star_assoc _ _ _) (fact_elim (fun hv => pre_eq (star_assoc _ _ _) (fact_elim (fun hx => ret (Ent.fact hx (Ent.pre_eq (star_comm _ _) (Ent.frame _ ?_)))))))
      by_cases hk : k = .contentLength
      · rw [encodeCommons_end ks st v (hk ▸ hd.1) hv]
        exact Ent.refl _
      · unfold commonAt
        rw [hdrAtE_ne hk, hdrAtE_ne hk]
        exact Ent.refl _

theorem shows_rawHeader (a : Nat) (r : RawHeader) : Shows (rawAt a r) (E.rawHeader a) (.ok r.encode) := by
  unfold E.rawHeader RawHeader.encode rawAt
  refine Shows.of_eq (Shows.cat (x := match (if r.id = 0 then none else headerInfoName r.id) with
    | some n => n
    | none => writeStr r.name) (y := str ": " ++ (r.value ++ [0x0d, 0x0a])) ?_ (Shows.cat (Shows.lit _) (Shows.cat (Shows.right (Shows.right ?_)) (Shows.lit _)))) (by simp only [List.append_assoc]; rfl)
  · refine Shows.f16 ?_
    rcases (if r.id = 0 then none else headerInfoName r.id) with _ | n
    · refine Shows.right (Shows.left (Shows.ex_elim (fun q => Shows.f16 (Shows.right ?_))))
      rcases r.name with _ | s
      · refine Shows.pre_eq (star_emp _).symm (Shows.fact_elim (fun hq => ?_))
        subst hq
        exact fun m S _ _ => rfl
      · exact Shows.cstr
    · exact Shows.lit _
  · refine Shows.ex_elim (fun q => Shows.f16 (Shows.right (Shows.pre_eq (star_emp _).symm (Shows.str_ne (fun hq => ?_)))))
    rw [if_pos hq]
    exact Shows.left Shows.cstr

theorem shows_rawHeaders (q : Nat) (hs : List RawHeader) : Shows (listAt rawAt 6 q hs) (E.rawHeaders q) (.ok (encodeRawHeaders hs)) := by
  unfold E.rawHeaders encodeRawHeaders
  rcases hs with _ | ⟨r, rs⟩
  · refine Shows.pre_eq (star_emp _).symm (Shows.fact_elim (fun hq => ?_))
    rw [if_pos hq]
    exact Shows.lit _
  · refine Shows.list_ne (fun hq => ?_)
    rw [if_neg hq]
    refine Shows.of_eq (Shows.walk (g := fun r => .ok r.encode) shows_rawHeader r rs q) ?_
    have := joined_ok [] r.encode (rs.map RawHeader.encode)
    rw [List.map_map] at this
    refine this.trans ?_
    rw [List.flatMap_cons, List.flatMap_map]
    rfl

/-- `EncodeHeaders` -/
theorem sim_encodeHeaders (net : Net) (fl : Flags) (h : Hdrs) (order : List HKind) (f raw : Nat) (buf : Bytes) (hd : order.Nodup) :
    Sim (commonsAt hdrAt order f h.common ∗ rawsAt raw h.raw) (P.ofOut (h.encode net fl order buf)) (B.encodeHeaders net fl order f raw buf)
      (fun v x => fact (x = v.1) ∗ (commonsAt (hdrAtE v.2) order f h.common ∗ rawsAt raw h.raw)) := by
  unfold Hdrs.encode B.encodeHeaders
  rw [ofOut_bind]
  refine seq (sim_encodeCommons net fl h order f buf 0 hd) (fun st b => pre_eq (star_assoc _ _ _) (fact_elim (fun hb => ?_)))
  subst hb
  refine pre_eq (star_comm _ _) (ex_elim_star (fun q => pre_eq (star_assoc _ _ _) (get16 ?_)))
  refine look (Sees.ofShows (Shows.right (Shows.left (shows_rawHeaders q h.raw)))) ?_
  refine ret (Ent.fact rfl ?_)
  refine Ent.pre_eq (A' := commonsAt (hdrAtE st.2) order f h.common ∗ (u16At raw q ∗ listAt rawAt 6 q h.raw)) (by ac_rfl) (Ent.framel _ (Ent.ex q (Ent.refl _)))

/-! ## body parts -/
theorem shows_strOpt (q : Nat) (o : Option Bytes) : Shows (strOpt q o) (E.str q) (.ok (writeStr o)) := by
  rcases o with _ | s
  · refine Shows.pre_eq (star_emp _).symm (Shows.fact_elim (fun hq => ?_))
    subst hq
    exact fun m S _ _ => rfl
  · exact Shows.cstr

theorem sees_strlen (q : Nat) (o : Option Bytes) : Sees (strOpt q o) (Rd.strlen q) (.ok (writeStr o).length) := by
  rcases o with _ | s
  · refine Sees.fact_elim' (fun hq => ?_)
    subst hq
    exact fun m S _ _ => rfl
  · intro m S hS _
    have h := hS.1.2.2
    show Out.ok (strlen m q) = .ok s.length
    rw [← h]
    simp [readStr]

/-- `Content-Length` of a part is the length of its body -/
theorem sim_fixLength {α β : Type} {p : P α} {R : α → β → Asrt} {F : Asrt} {g : Unit → B β} (this : Nat) (b : Body) (k : Sim (bodyAt this b.fixLength ∗ F) p (g ()) R) :
    Sim (bodyAt this b ∗ F) p (B.fixLength this >>= g) R := by
  obtain ⟨X, hX⟩ := hdrsAt_split hdrAt (pl := bodyPlace this) bodyOrder_nodup (k := .contentLength) (show HKind.contentLength ∈ HKind.contentType :: bodyOrder by decide) b.hdrs
  have e1 := hX b.hdrs (fun _ _ => rfl) rfl
  have e2 := hX b.fixLength.hdrs (fun j hj => by unfold Body.fixLength; split <;> first | rfl | exact if_neg hj) (by unfold Body.fixLength; split <;> rfl)
  have e3 : b.fixLength.body = b.body := by unfold Body.fixLength; split <;> rfl
  have e4 : (bodyPlace this).field .contentLength = this + 12 := rfl
  rw [e4] at e1 e2
  unfold bodyAt at k ⊢
  rw [e2, e3] at k
  rw [e1]
  unfold B.fixLength
  unfold commonAt at k ⊢
  simp only [if_neg (show ¬ (HKind.contentLength.multi = true) by decide)] at k ⊢
  refine pre_eq (star_assoc _ _ _) (pre_eq (star_assoc _ _ _) (ex_elim_star (fun q => pre_eq (star_assoc _ _ _) ?_)))
  refine ofB (b' := B.get16 (this + 12) >>= fun l => (if l = 0 then pure () else do
    let s ← B.get16 (this + 4)
    let n ← B.look (Rd.strlen s)
    B.put32 l n
    pure ()) >>= g) (fun c => rfl) (get16 ?_)
  rcases hc : b.hdrs.common .contentLength with _ | ⟨v, vs⟩
  · have e5 : b.fixLength.hdrs.common .contentLength = [] := by unfold Body.fixLength; rw [hc]; exact hc
    rw [e5] at k
    refine pre_eq (star_left_comm _ _ _) (fact_elim (fun hq => ?_))
    rw [if_pos hq]
    refine pureB (pre k ?_)
    refine Ent.pre_eq (A' := u16At (this + 12) q ∗ ((X ∗ strField (this + 4) b.body) ∗ F)) (by ac_rfl) (Ent.post_eq (B' := _) (B := (ex fun q => u16At (this + 12) q ∗ optNode (hdrAt .contentLength) q none) ∗ ((X ∗ strField (this + 4) b.body) ∗ F)) (by simp only [List.head?]; ac_rfl) (Ent.frame _ ?_))
    exact Ent.ex q (Ent.post_eq (by show _ ∗ fact (q = 0) = _; rw [fact_true hq, star_emp]) (Ent.refl _))
  · have e5 : b.fixLength.hdrs.common .contentLength = [.num (writeStr b.body).length] := by unfold Body.fixLength; rw [hc]; rfl
    rw [e5] at k
    refine pre_eq (A := fact (8 ≤ q) ∗ (hdrAt .contentLength q v ∗ (u16At (this + 12) q ∗ (X ∗ (strField (this + 4) b.body ∗ F))))) (by show _ ∗ ((_ ∗ _) ∗ _) = _; ac_rfl) (fact_elim (fun hq => ?_))
    rw [if_neg (by omega)]
    refine Sim.contentLength (fun n hn => ?_)
    refine pre_eq (A := strField (this + 4) b.body ∗ (u32At q n ∗ (anyAt (q + 4) 4 ∗ (u16At (this + 12) q ∗ (X ∗ F))))) (by ac_rfl) (ex_elim_star (fun s => ?_))
    refine ofB (b' := B.get16 (this + 4) >>= fun s => B.look (Rd.strlen s) >>= fun n => B.put32 q n >>= fun _ => g ()) (fun c => rfl) ?_
    refine pre_eq (star_assoc _ _ _) (get16 (look (Sees.right (Sees.left (sees_strlen s b.body))) ?_))
    refine know (φ := (writeStr b.body).length < 65536) (fun m S hh => ?_) (fun hl => ?_)
    · obtain ⟨_, _, _, _, _, hh⟩ := hh
      rcases hb : b.body with _ | t <;> rw [hb] at hh
      · show 0 < 65536
        omega
      · have := strAt_lt (x := s) (v := t) hh
        show t.length < 65536
        omega
    refine pre_eq (A := u32At q n ∗ (u16At (this + 4) s ∗ (strOpt s b.body ∗ (anyAt (q + 4) 4 ∗ (u16At (this + 12) q ∗ (X ∗ F)))))) (by ac_rfl) (put32 (by omega) (pre k ?_))
    refine Ent.pre_eq (A' := (u16At (this + 12) q ∗ (u32At q (writeStr b.body).length ∗ anyAt (q + 4) 4)) ∗ ((X ∗ (u16At (this + 4) s ∗ strOpt s b.body)) ∗ F)) (by ac_rfl) ?_
    refine Ent.post_eq (B := (ex fun q => u16At (this + 12) q ∗ optNode (hdrAt .contentLength) q (some (.num (writeStr b.body).length))) ∗ ((X ∗ strField (this + 4) b.body) ∗ F)) (by simp only [List.head?]; ac_rfl) ?_
    exact Ent.star (Ent.ex q (Ent.framel _ (Ent.fact hq (Ent.refl _)))) (Ent.frame _ (Ent.framel _ (Ent.ex s (Ent.refl _))))

theorem Body.fixLength_body (b : Body) : b.fixLength.body = b.body := by unfold Body.fixLength; split <;> rfl

theorem sim_bodyEncode (net : Net) (fl : Flags) (this : Nat) (b : Body) (buf : Bytes) :
    Sim (bodyAt this b) (P.ofOut (b.encode net fl buf)) (B.bodyEncode net fl this buf) (fun v x => fact (x = v) ∗ bodyAt this b.fixLength) := by
  unfold B.bodyEncode Body.encode
  rw [ofOut_bind]
  refine pre_eq (star_emp _).symm (sim_fixLength this b ?_)
  rw [star_emp]
  have e : bodyAt this b.fixLength = (commonsAt hdrAt bodyOrder (this + 12) b.fixLength.hdrs.common ∗ rawsAt (this + 6) b.fixLength.hdrs.raw) ∗
      (commonAt hdrAt .contentType (this + 10) (b.fixLength.hdrs.common .contentType) ∗ strField (this + 4) b.fixLength.body) := by
    show ((commonAt hdrAt .contentType (this + 10) _ ∗ commonsAt hdrAt bodyOrder (this + 10 + 2) _) ∗ rawsAt (this + 6) _) ∗ _ = _
    ac_rfl
  rw [e]
  refine seq (sim_encodeHeaders net fl b.fixLength.hdrs bodyOrder (this + 12) (this + 6) buf (by decide)) (fun st t => pre_eq (star_assoc _ _ _) (fact_elim (fun ht => ?_)))
  subst ht
  rw [b.fixLength_body]
  refine pre (A := strField (this + 4) b.body ∗ (commonAt hdrAt .contentType (this + 10) (b.fixLength.hdrs.common .contentType) ∗
    (commonsAt hdrAt bodyOrder (this + 12) b.fixLength.hdrs.common ∗ rawsAt (this + 6) b.fixLength.hdrs.raw))) ?_ ?_
  · refine ex_elim_star (fun s => pre_eq (star_assoc _ _ _) (get16 (look (Sees.ofShows (Shows.right (Shows.left (shows_strOpt s b.body)))) (ret (Ent.fact rfl ?_)))))
    refine Ent.pre_eq (A' := (commonsAt hdrAt bodyOrder (this + 12) b.fixLength.hdrs.common ∗ rawsAt (this + 6) b.fixLength.hdrs.raw) ∗
      (commonAt hdrAt .contentType (this + 10) (b.fixLength.hdrs.common .contentType) ∗ (u16At (this + 4) s ∗ strOpt s b.body))) (by ac_rfl) (Ent.framel _ (Ent.framel _ (Ent.ex s (Ent.refl _))))
  · refine Ent.pre_eq (A' := strField (this + 4) b.body ∗ (commonAt hdrAt .contentType (this + 10) (b.fixLength.hdrs.common .contentType) ∗
      (commonsAt (hdrAtE st.2) bodyOrder (this + 12) b.fixLength.hdrs.common ∗ rawsAt (this + 6) b.fixLength.hdrs.raw))) (by ac_rfl) ?_
    exact Ent.framel _ (Ent.framel _ (Ent.frame _ (commonsAt_mono (hdrAtE_any st.2) _ _ _)))

theorem sim_encodeParts_seg (net : Net) (fl : Flags) (bd : Bytes) : ∀ (bs : List Body) (n p : Nat) (buf : Bytes), bs.length < n →
    Sim (listAt bodyAt 8 p bs) (P.ofOut (encodeParts net fl bd bs buf)) (B.encodeParts net fl bd n p buf) (fun v x => fact (x = v) ∗ listAt bodyAt 8 p (bs.map Body.fixLength))
  | [], n + 1, p, buf, _ => by
    unfold encodeParts B.encodeParts
    refine pre_eq (star_emp _).symm (fact_elim (fun hp => ?_))
    rw [if_pos hp]
    exact ret (Ent.fact rfl (Ent.post_eq (fact_true hp) (Ent.refl _)))
  | b :: bs, n + 1, p, buf, hn => by
    unfold encodeParts B.encodeParts
    rw [ofOut_bind]
    refine ex_elim (fun q => fact_elim (fun hp => ?_))
    rw [if_neg (by omega)]
    refine seq (sim_bodyEncode net fl p b _) (fun t t' => pre_eq (star_assoc _ _ _) (fact_elim (fun ht => ?_)))
    subst ht
    refine pre_eq (star_left_comm _ _ _) (get16 ?_)
    refine ofP (P.bind_pure' _) (ofB (B.bind_pure' _) ?_)
    refine pre_eq (A := listAt bodyAt 8 q bs ∗ (u16At (p + 8) q ∗ bodyAt p b.fixLength)) (by unfold listAt; ac_rfl)
      (seq (sim_encodeParts_seg net fl bd bs n q _ (by simpa using hn)) (fun v x => pre_eq (star_assoc _ _ _) (fact_elim (fun hx => ret (Ent.fact hx (Ent.ex q (Ent.fact hp (Ent.of_eq ?_))))))))
    unfold listAt
    ac_rfl

theorem sim_encodeParts (net : Net) (fl : Flags) (bd : Bytes) (bs : List Body) (p : Nat) (buf : Bytes) :
    Sim (listAt bodyAt 8 p bs) (P.ofOut (encodeParts net fl bd bs buf)) (B.encodeParts net fl bd 32769 p buf) (fun v x => fact (x = v) ∗ listAt bodyAt 8 p (bs.map Body.fixLength)) := by
  intro c S hf hA hS
  refine sim_encodeParts_seg net fl bd bs 32769 p buf ?_ c S hf hA hS
  have h1 := seg_length bodyAt 8 0 c.a.mem 32768 bs p S hA (fun i hi => by have := hS i hi; have := hf.1; have := hf.2.2.1; omega)
  have h2 := cnt_le S 32768
  omega
end Sip
