import Verif.Props.HeapHeaders
import Verif.Lemmas.Sees
/-! # C46: header lines, messages and bodies in the arena -/
namespace Sip
attribute [local irreducible] u32 u16 roundToAlign
open Asrt

open Sim
/-! ## what a message looks like -/
/-- SipHeaders.go:15-20 without the field `next` -/
def rawAt (a : Nat) (r : RawHeader) : Asrt := u16At a r.id ∗ (strField (a + 2) r.name ∗ strField (a + 4) (some r.value))
/-- one pointer of `commonHeaders`: a list for a header type that allows several values, else nil or one header -/
def commonAt (nd : HKind → Nat → HVal → Asrt) (k : HKind) (f : Nat) (vs : List HVal) : Asrt :=
  ex fun q => u16At f q ∗ (if k.multi then listAt (nd k) k.bodySize q vs else optNode (nd k) q vs.head?)
/-- the pointers of `commonHeaders` from `f` on -/
def commonsAt (nd : HKind → Nat → HVal → Asrt) : List HKind → Nat → (HKind → List HVal) → Asrt
  | [], _, _ => emp
  | k :: ks, f, c => commonAt nd k f (c k) ∗ commonsAt nd ks (f + 2) c
/-- the field `headers` -/
def rawsAt (f : Nat) (hs : List RawHeader) : Asrt := ex fun q => u16At f q ∗ listAt rawAt 6 q hs
/-- the headers of a message or body part -/
def hdrsAt (nd : HKind → Nat → HVal → Asrt) (pl : Place) (h : Hdrs) : Asrt := commonsAt nd pl.order pl.base h.common ∗ rawsAt pl.raw h.raw
/-- SipMsgBody.go:29-35 without the fields `id` and `next` -/
def bodyAt (a : Nat) (b : Body) : Asrt := hdrsAt hdrAt (bodyPlace a) b.hdrs ∗ strField (a + 4) b.body
/-- the field `bodies` -/
def bodiesAt (f : Nat) (bs : List Body) : Asrt := ex fun q => u16At f q ∗ listAt bodyAt 8 q bs
/-- SipMsg.go:97-103 without the field `commonBodies`, which is never used -/
def msgAt (a : Nat) (m : Msg) : Asrt := startLineAt a m.start ∗ (hdrsAt hdrAt (msgPlace a) m.hdrs ∗ bodiesAt (a + 66) m.bodies)

theorem commonsAt_congr (nd : HKind → Nat → HVal → Asrt) : ∀ (order : List HKind) (f : Nat) (c c' : HKind → List HVal), (∀ j ∈ order, c' j = c j) → commonsAt nd order f c' = commonsAt nd order f c
  | [], _, _, _, _ => rfl
  | k :: ks, f, c, c', h => by
    unfold commonsAt
    rw [h k List.mem_cons_self, commonsAt_congr nd ks (f + 2) c c' (fun j hj => h j (List.mem_cons_of_mem _ hj))]

/-- one pointer and the others -/
theorem commonsAt_split (nd : HKind → Nat → HVal → Asrt) (k : HKind) : ∀ (order : List HKind) (f : Nat) (c : HKind → List HVal), k ∈ order → order.Nodup →
    ∃ X : Asrt, ∀ c', (∀ j, j ≠ k → c' j = c j) → commonsAt nd order f c' = commonAt nd k (f + 2 * order.idxOf k) (c' k) ∗ X
  | [], _, _, h, _ => by cases h
  | j :: ks, f, c, h, hd => by
    rw [List.nodup_cons] at hd
    by_cases hj : j = k
    · subst hj
      refine ⟨commonsAt nd ks (f + 2) c, fun c' h' => ?_⟩
      show commonAt nd j f (c' j) ∗ commonsAt nd ks (f + 2) c' = _
      rw [commonsAt_congr nd ks (f + 2) c c' (fun i hi => h' i (fun e => hd.1 (e ▸ hi))), List.idxOf_cons_self]
      rfl
    · have hk : k ∈ ks := by
        rcases List.mem_cons.1 h with h | h
        · exact absurd h.symm hj
        · exact h
      obtain ⟨X, hX⟩ := commonsAt_split nd k ks (f + 2) c hk hd.2
      refine ⟨commonAt nd j f (c j) ∗ X, fun c' h' => ?_⟩
      show commonAt nd j f (c' j) ∗ commonsAt nd ks (f + 2) c' = _
      have hi : (j :: ks).idxOf k = ks.idxOf k + 1 := by rw [List.idxOf_cons, beq_false_of_ne hj]; rfl
      rw [hX c' h', h' j hj, hi, show f + 2 + 2 * ks.idxOf k = f + 2 * (ks.idxOf k + 1) by omega, star_left_comm]

/-- all fields nil -/
theorem commonsAt_nil (nd : HKind → Nat → HVal → Asrt) : ∀ (order : List HKind) (f : Nat), zeros f (2 * order.length) ⊢ₘ commonsAt nd order f (fun _ => [])
  | [], f => Ent.of_eq (bytes_nil f)
  | k :: ks, f => by
    rw [List.length_cons, show 2 * (ks.length + 1) = 2 + 2 * ks.length by omega, zeros_split, zeros_u16]
    refine Ent.star ?_ (commonsAt_nil nd ks (f + 2))
    refine Ent.ex 0 (Ent.post_eq ?_ (Ent.refl _))
    unfold listAt seg optNode
    dsimp only [List.head?]
    rw [ite_self, fact_true rfl, star_emp]

theorem rawsAt_nil (f : Nat) : u16At f 0 ⊢ₘ rawsAt f [] := listField_nil rawAt 6 f

namespace Sim
variable {α β γ δ ν : Type} {A F : Asrt} {p : P α} {b : B β} {R : α → β → Asrt}

/-- `SetHeaders` with a parsed value -/
theorem setParsed {pl : Place} (hd : pl.order.Nodup) {k : HKind} (hk : k ∈ pl.order) {h : Hdrs} {x : Nat} {v : HVal} (h8 : 8 ≤ x) (hx : x < 65536) {g : Unit → B β}
    (kk : Sim (hdrsAt hdrAt pl (h.set (.parsed k v)) ∗ F) p (g ()) R) :
    Sim (hdrsAt hdrAt pl h ∗ ((hdrAt k x v ∗ zeros (x + k.bodySize) (k.structSize - k.bodySize)) ∗ F)) p (B.setParsed (pl.field k) k x >>= g) R := by
  obtain ⟨X, hX⟩ := commonsAt_split hdrAt k pl.order pl.base h.common hk hd
  have e1 := hX h.common (fun _ _ => rfl)
  have e2 := hX (h.set (.parsed k v)).common (fun j hj => by show (if j = k then _ else _) = _; rw [if_neg hj])
  have e3 : (h.set (.parsed k v)).common k = if k.multi then h.common k ++ [v] else [v] := by show (if k = k then _ else _) = _; rw [if_pos rfl]
  have e4 : (h.set (.parsed k v)).raw = h.raw := rfl
  have e5 : pl.base + 2 * pl.order.idxOf k = pl.field k := rfl
  rw [e5] at e1 e2
  unfold hdrsAt at kk ⊢
  rw [e2, e3, e4] at kk
  rw [e1]
  generalize pl.field k = fd at *
  generalize rawsAt pl.raw h.raw = Y at *
  unfold commonAt at kk ⊢
  unfold B.setParsed
  refine pre_eq (star_assoc _ _ _) (pre_eq (star_assoc _ _ _) (ex_elim_star (fun q => ?_)))
  by_cases hm : k.multi = true
  · simp only [if_pos hm] at kk ⊢
    have hs : k.structSize - k.bodySize = 2 := by have := k.structSize_eq; rw [if_pos hm] at this; omega
    rw [hs, zeros_u16]
    refine ofB (b' := B.get16 fd >>= fun q => (if q = 0 then (do B.put16 fd x; pure ()) else B.append k.bodySize x 32768 q) >>= g) (fun c => rfl) ?_
    refine pre_eq (star_assoc _ _ _) (get16 ?_)
    rcases hc : h.common k with _ | ⟨w, ws⟩
    · refine pre_eq (A := fact (q = 0) ∗ (u16At fd q ∗ (X ∗ (Y ∗ ((hdrAt k x v ∗ u16At (x + k.bodySize) 0) ∗ F))))) (by unfold listAt seg; ac_rfl) (fact_elim (fun hq => ?_))
      rw [if_pos hq]
      refine ofB (b' := B.put16 fd x >>= fun _ => g ()) (fun c => rfl) (put16 hx (pre kk ?_))
      rw [hc]
      refine Ent.pre_eq (A' := ((u16At fd x ∗ (hdrAt k x v ∗ u16At (x + k.bodySize) 0)) ∗ (X ∗ Y)) ∗ F) (by ac_rfl) (Ent.frame F (Ent.post_eq (star_assoc _ _ _) (Ent.frame _ ?_)))
      refine Ent.ex x (Ent.framel _ ?_)
      exact Ent.ex 0 (Ent.fact ⟨h8, hx⟩ (Ent.framel _ (Ent.post_eq (by unfold seg; rw [fact_true rfl, star_emp]) (Ent.refl _))))
    · refine pre_eq (star_left_comm _ _ _) (know (φ := 8 ≤ q) (fun m S h => ?_) (fun hq => ?_))
      · obtain ⟨_, _, _, _, h, _⟩ := h
        obtain ⟨_, h⟩ := h
        exact (fact_star_holds.1 h).1.1
      rw [if_neg (by omega)]
      refine pre_eq (A := listAt (hdrAt k) k.bodySize q (w :: ws) ∗ ((hdrAt k x v ∗ u16At (x + k.bodySize) 0) ∗ ((u16At fd q ∗ (X ∗ Y)) ∗ F))) (by ac_rfl) ?_
      refine append h8 hx (pre kk ?_)
      rw [hc]
      refine Ent.pre_eq (A' := ((u16At fd q ∗ listAt (hdrAt k) k.bodySize q (w :: ws ++ [v])) ∗ (X ∗ Y)) ∗ F) (by ac_rfl) (Ent.frame F (Ent.post_eq (star_assoc _ _ _) (Ent.frame _ ?_)))
      exact Ent.ex q (Ent.refl _)
  · simp only [if_neg hm] at kk ⊢
    refine ofB (b' := B.put16 fd x >>= fun _ => g ()) (fun c => rfl) ?_
    refine pre_eq (star_assoc _ _ _) (put16 hx (pre kk ?_))
    refine Ent.pre_eq (A' := (((u16At fd x ∗ hdrAt k x v) ∗ (X ∗ Y)) ∗ F) ∗ (zeros (x + k.bodySize) (k.structSize - k.bodySize) ∗ optNode (hdrAt k) q (h.common k).head?)) (by ac_rfl) (Ent.trans (Ent.drop _ _) ?_)
    refine Ent.frame F (Ent.post_eq (star_assoc _ _ _) (Ent.frame _ ?_))
    exact Ent.ex x (Ent.framel _ (Ent.fact h8 (Ent.refl _)))

/-- `SetHeaders` with a raw header -/
theorem setRaw {pl : Place} {h : Hdrs} {x : Nat} {r : RawHeader} (h8 : 8 ≤ x) (hx : x < 65536) {g : Unit → B β}
    (kk : Sim (hdrsAt hdrAt pl (h.set (.raw r)) ∗ F) p (g ()) R) :
    Sim (hdrsAt hdrAt pl h ∗ ((rawAt x r ∗ u16At (x + 6) 0) ∗ F)) p (B.setRaw pl.raw x >>= g) R := by
  unfold hdrsAt rawsAt at kk ⊢
  rw [show (h.set (.raw r)).common = h.common from rfl, show (h.set (.raw r)).raw = h.raw ++ [r] from rfl] at kk
  generalize commonsAt hdrAt pl.order pl.base h.common = X at *
  generalize pl.raw = fd at *
  refine pre_eq (star_assoc _ _ _) (pre_eq (star_left_comm _ _ _) (ex_elim_star (fun q => ?_)))
  unfold B.setRaw
  refine ofB (b' := B.get16 fd >>= fun q => (if q = 0 then (do B.put16 fd x; pure ()) else B.append 6 x 32768 q) >>= g) (fun c => rfl) ?_
  refine pre_eq (star_assoc _ _ _) (get16 ?_)
  rcases hc : h.raw with _ | ⟨w, ws⟩
  · refine pre_eq (A := fact (q = 0) ∗ (u16At fd q ∗ (X ∗ ((rawAt x r ∗ u16At (x + 6) 0) ∗ F)))) (by unfold listAt seg; ac_rfl) (fact_elim (fun hq => ?_))
    rw [if_pos hq]
    refine ofB (b' := B.put16 fd x >>= fun _ => g ()) (fun c => rfl) (put16 hx (pre kk ?_))
    rw [hc]
    refine Ent.pre_eq (A' := (X ∗ (u16At fd x ∗ (rawAt x r ∗ u16At (x + 6) 0))) ∗ F) (by ac_rfl) (Ent.frame F (Ent.framel _ ?_))
    refine Ent.ex x (Ent.framel _ ?_)
    exact Ent.ex 0 (Ent.fact ⟨h8, hx⟩ (Ent.framel _ (Ent.post_eq (by unfold seg; rw [fact_true rfl, star_emp]) (Ent.refl _))))
  · refine pre_eq (star_left_comm _ _ _) (know (φ := 8 ≤ q) (fun m S h => ?_) (fun hq => ?_))
    · obtain ⟨_, _, _, _, h, _⟩ := h
      obtain ⟨_, h⟩ := h
      exact (fact_star_holds.1 h).1.1
    rw [if_neg (by omega)]
    refine pre_eq (A := listAt rawAt 6 q (w :: ws) ∗ ((rawAt x r ∗ u16At (x + 6) 0) ∗ ((u16At fd q ∗ X) ∗ F))) (by ac_rfl) ?_
    refine append h8 hx (pre kk ?_)
    rw [hc]
    refine Ent.pre_eq (A' := (X ∗ (u16At fd q ∗ listAt rawAt 6 q (w :: ws ++ [r]))) ∗ F) (by ac_rfl) (Ent.frame F (Ent.framel _ ?_))
    exact Ent.ex q (Ent.refl _)
end Sim

/-! ## header lines -/
theorem Dry.findCrlf : Dry P.findCrlf := by
  intro c r d h
  unfold P.findCrlf at h
  split at h <;> cases h <;> exact ⟨rfl, rfl, rfl, rfl⟩
theorem Dry.comma : Dry P.comma := by
  intro c r d h
  unfold P.comma at h
  have hm := Dry.markCanOmmit 0x2c c
  unfold P.markCanOmmit at hm
  rcases hx : parseSWSMarkCanOmmit c 0x2c with ⟨⟨x, y⟩, e⟩
  rw [hx] at h hm
  have he : e.src = c.src ∧ e.used = c.used ∧ e.cap = c.cap ∧ e.flags = c.flags := by
    cases x <;> cases y <;> exact hm _ _ rfl
  cases x <;> cases y <;> cases h <;> exact he

theorem sim_rawValue : Sim emp parseRawHeaderValue B.rawValue (fun v x => strAt x v) := by
  unfold parseRawHeaderValue B.rawValue
  refine ctx' (fun c hc => dry Dry.findCrlf (fun e => ?_))
  refine post (Sim.allocStr _ ?_) (fun v x => Ent.dropl _ _)
  rw [List.length_take, List.length_drop]
  omega

/-- a raw header with its field `next` -/
theorem sim_rawHeader (id name : Nat) (n : Option Bytes) (hid : id < 65536) :
    Sim (strOpt name n) (parseRawHeader id n) (B.rawHeader id name) (fun v x => fact (8 ≤ x ∧ x < 65536) ∗ (rawAt x v ∗ u16At (x + 6) 0)) := by
  unfold parseRawHeader B.rawHeader
  refine know (φ := name < 65536) (fun m S h => ?_) (fun hname => ?_)
  · rcases n with _ | s
    · have : name = 0 := h.1
      omega
    · have := strAt_lt (F := emp) (x := name) (v := s) (by rw [star_emp]; exact h)
      omega
  refine seq0 (alloc (by decide) (by decide)) (fun _ a => pre_eq (star_assoc _ _ _) (fact_elim (fun h8 => ?_)))
  have e : zeros a (2 + (2 + (2 + 2))) = u16At a 0 ∗ (u16At (a + 2) 0 ∗ (u16At (a + 4) 0 ∗ u16At (a + 6) 0)) := by simp only [zeros_split, zeros_u16]
  rw [show 8 = 2 + (2 + (2 + 2)) from rfl, e]
  refine pre_eq (star_assoc _ _ _) (put16 hid (pre_eq (A := u16At (a + 2) 0 ∗ (u16At a id ∗ ((u16At (a + 4) 0 ∗ u16At (a + 6) 0) ∗ strOpt name n))) (by ac_rfl) (put16 hname ?_)))
  refine pre_eq (A := u16At (a + 4) 0 ∗ (u16At a id ∗ (u16At (a + 2) name ∗ (strOpt name n ∗ u16At (a + 6) 0)))) (by ac_rfl) (strPut sim_rawValue (fun v x _ _ => ret ?_))
  refine Ent.fact ⟨h8.1, by omega⟩ ?_
  refine Ent.pre_eq (A' := (u16At a id ∗ ((u16At (a + 2) name ∗ strOpt name n) ∗ (u16At (a + 4) x ∗ strAt x v))) ∗ u16At (a + 6) 0) (by ac_rfl) (Ent.frame _ (Ent.framel _ ?_))
  exact Ent.star (Ent.ex name (Ent.refl _)) (strField_some _ _ _)

theorem headerName_at {c : Ctx} {r : Nat × Nat} (h : getSipHeaderIndex c.src c.pos = .ok r) : parseMsgHeaderName c = (storeName r >>= fun n => P.orErr P.hcolon >>= fun _ => pure n) c := by
  show P.bind P.headerIndex _ c = _
  unfold P.bind P.headerIndex
  rw [h]
theorem B.headerName_at {c : BCtx} {r : Nat × Nat} (h : getSipHeaderIndex c.src c.pos = .ok r) :
    B.msgHeaderName c = (B.storeName r >>= fun n => B.orErr (B.lift P.hcolon) >>= fun _ => pure n) c := by
  have : B.lift P.headerIndex c = .ok (some r, c) := by
    unfold B.lift P.headerIndex
    rw [h]
  show B.bind _ _ c = _
  unfold B.bind
  rw [this]

/-- `ParseHeaderName`: the name of an unknown header is somewhere in the arena -/
theorem sim_msgHeaderName : Sim emp parseMsgHeaderName B.msgHeaderName (fun v x => fact (x.2 = v.2 ∧ v.2 < 65536) ∗ strOpt x.1 v.1) := by
  refine here (fun c hf => ?_)
  rcases h : getSipHeaderIndex c.src c.pos with ⟨i, q⟩ | _ | _
  · obtain ⟨h1, h2⟩ := Trie.lookup_bounds (t := headerTrie) (n := 1000) (by decide +kernel) h
    rcases i with _ | i
    · have hq : q - c.pos < 4294000000 := by have := hf.2.2.2; omega
      refine ⟨nearP q (P.strFromPos csSipToken q) >>= fun b => P.orErr P.hcolon >>= fun _ => pure (some b, 0),
        nearB q (B.strFromPos csSipToken q) >>= fun s => B.orErr (B.lift P.hcolon) >>= fun _ => pure (s, 0), ?_, ?_, ?_⟩
      · rw [headerName_at (c := c.abs) h]
        show P.bind (P.bind (P.strFromPos csSipToken q) _) _ _ = P.bind (nearP q _) _ _
        unfold nearP
        simp only [P.bind, if_pos (show q - c.abs.pos < _ from hq)]
        rcases P.strFromPos csSipToken q c.abs with ⟨_ | b, d⟩ | _ | _ <;> rfl
      · rw [B.headerName_at h]
        show B.bind (B.bind (B.strFromPos csSipToken q) _) _ _ = B.bind (nearB q _) _ _
        unfold nearB
        simp only [B.bind, if_pos hq]
        rcases B.strFromPos csSipToken q c with ⟨_ | b, d⟩ | _ | _ <;> rfl
      · exact bind (strFromPos _ _) (fun v x => dryE Dry.hcolon (fun _ => ret (Ent.fact ⟨rfl, by omega⟩ (Ent.refl _))))
    · refine ⟨_, _, headerName_at (c := c.abs) h, B.headerName_at h, ?_⟩
      refine ofP (p' := P.setPos q >>= fun _ => P.orErr P.hcolon >>= fun _ => pure (none, i + 1)) (fun _ => rfl) ?_
      refine ofB (b' := B.setPos q >>= fun _ => B.orErr (B.lift P.hcolon) >>= fun _ => pure (0, i + 1)) (fun _ => rfl) ?_
      exact dry (Dry.setPos q) (fun _ => dryE Dry.hcolon (fun _ => ret (Ent.fact ⟨rfl, by omega⟩ (Ent.post_eq (fact_true rfl) (Ent.refl _)))))
  · refine ⟨P.panic, B.panic, ?_, ?_, panic⟩
    · show P.bind P.headerIndex _ c.abs = _
      unfold P.bind P.headerIndex
      rw [show getSipHeaderIndex c.abs.src c.abs.pos = .panic from h]
      rfl
    · show B.bind _ _ c = _
      unfold B.bind B.lift P.headerIndex
      dsimp only
      rw [h]; rfl
  · refine ⟨fun _ => .hang, fun _ => .hang, ?_, ?_, fun _ _ _ _ _ => rfl⟩
    · show P.bind P.headerIndex _ c.abs = _
      unfold P.bind P.headerIndex
      rw [show getSipHeaderIndex c.abs.src c.abs.pos = .hang from h]
    · show B.bind _ _ c = _
      unfold B.bind B.lift P.headerIndex
      dsimp only
      rw [h]

/-- the values of a header line -/
def Hdrs.addAll (h : Hdrs) (l : List HItem) : Hdrs := l.foldl Hdrs.set h
theorem Hdrs.addAll_append (h : Hdrs) (l r : List HItem) : h.addAll (l ++ r) = (h.addAll l).addAll r := List.foldl_append

theorem sim_valuesBody (net : Net) (hn : net.Len16) {pl : Place} (hd : pl.order.Nodup) {k : HKind} (hk : k ∈ pl.order) (h : Hdrs) (s : List HVal × HVal) (x : Nat) :
    Sim (fact (8 ≤ x ∧ x < 65536) ∗ (hdrsAt hdrAt pl (h.addAll (s.1.map (.parsed k))) ∗ (hdrAt k x s.2 ∗ zeros (x + k.bodySize) (k.structSize - k.bodySize))))
      (valuesBody net k s) (B.valuesBody net (pl.field k) k x)
      (Both (fun s x => fact (8 ≤ x ∧ x < 65536) ∗ (hdrsAt hdrAt pl (h.addAll (s.1.map (.parsed k))) ∗ (hdrAt k x s.2 ∗ zeros (x + k.bodySize) (k.structSize - k.bodySize))))
        (fun vs _ => hdrsAt hdrAt pl (h.addAll (vs.map (.parsed k))))) := by
  obtain ⟨acc, v⟩ := s
  have e : (h.addAll (acc.map (.parsed k))).set (.parsed k v) = h.addAll ((acc ++ [v]).map (.parsed k)) := by
    rw [List.map_append, Hdrs.addAll_append]; rfl
  have go {p : P ((List HVal × HVal) ⊕ List HVal)} {g : Unit → B (Nat ⊕ Unit)} {R : _ → _ → Asrt} (h8 : 8 ≤ x ∧ x < 65536)
      (kk : Sim (hdrsAt hdrAt pl (h.addAll ((acc ++ [v]).map (.parsed k)))) p (g ()) R) :
      Sim (hdrsAt hdrAt pl (h.addAll (acc.map (.parsed k))) ∗ (hdrAt k x v ∗ zeros (x + k.bodySize) (k.structSize - k.bodySize))) p (B.setParsed (pl.field k) k x >>= g) R := by
    refine pre_eq (A := _ ∗ (_ ∗ emp)) (by rw [star_emp]) (setParsed hd hk h8.1 h8.2 ?_)
    rw [star_emp, e]
    exact kk
  dsimp only
  refine fact_elim (fun h8 => ?_)
  unfold valuesBody B.valuesBody
  refine ctx (fun c => ite (fun _ => go h8 (ret (Ent.refl _))) (fun _ => go h8 (ite (fun _ => skip (ret (Ent.refl _))) (fun _ => dry Dry.comma (fun m => ite (fun _ => ?_) (fun _ => dry Dry.crlf (fun _ => ret (Ent.refl _))))))))
  refine pre_eq (emp_star _).symm (seq (sim_hdrAlloc net hn k) (fun w y => ret ?_))
  refine Ent.pre_eq (star_assoc _ _ _) (Ent.fact_elim (fun hy => Ent.fact ⟨hy.1, by omega⟩ (Ent.of_eq (star_comm _ _))))

theorem sim_headerValues (net : Net) (hn : net.Len16) {pl : Place} (hd : pl.order.Nodup) {k : HKind} (hk : k ∈ pl.order) (h : Hdrs) :
    Sim (hdrsAt hdrAt pl h) (parseHeaderValues net k) (B.headerValues net (pl.field k) k) (fun vs _ => hdrsAt hdrAt pl (h.addAll (vs.map (.parsed k)))) := by
  unfold parseHeaderValues B.headerValues
  refine pre_eq (emp_star _).symm (seq (sim_hdrAlloc net hn k) (fun v x => pre_eq (star_assoc _ _ _) (fact_elim (fun hx => pre_eq (star_comm _ _) (ite (fun _ => ?_) (fun _ => ?_))))))
  · refine pre (forLoop (fun s y => sim_valuesBody net hn hd hk h s y) ([], v) x) ?_
    exact Ent.fact ⟨hx.1, by omega⟩ (Ent.refl _)
  · refine dry Dry.crlf (fun _ => ?_)
    refine ofB (B.bind_pure' _) (pre_eq (A := _ ∗ (_ ∗ emp)) (by rw [star_emp]) (setParsed hd hk hx.1 (by omega) ?_))
    rw [star_emp]
    exact ret (Ent.refl _)

theorem sim_headerLine (net : Net) (hn : net.Len16) {need : HKind → Bool} {pl : Place} (hd : pl.order.Nodup) (hneed : ∀ k, need k = true → k ∈ pl.order) (h : Hdrs)
    (v : Option Bytes × Nat) (x : Nat × Nat) : Sim (hdrsAt hdrAt pl h ∗ (fact (x.2 = v.2 ∧ v.2 < 65536) ∗ strOpt x.1 v.1)) (parseHeaderLine net need v) (B.headerLine net need pl x)
      (fun l _ => hdrsAt hdrAt pl (h.addAll l)) := by
  obtain ⟨n, i⟩ := v
  obtain ⟨a, j⟩ := x
  refine pre_eq (star_left_comm _ _ _) (fact_elim (fun hj => ?_))
  obtain ⟨hj, hi⟩ := hj
  dsimp only at hj hi
  subst hj
  unfold parseHeaderLine B.headerLine
  dsimp only
  have raw : Sim (hdrsAt hdrAt pl h ∗ strOpt a n) (parseRawHeader j n >>= fun h => pure [.raw h]) (B.rawHeader j a >>= fun h => B.setRaw pl.raw h) (fun l _ => hdrsAt hdrAt pl (h.addAll l)) := by
    refine pre_eq (star_comm _ _) (seq (sim_rawHeader j a n hi) (fun r y => pre_eq (star_assoc _ _ _) (fact_elim (fun hy => ?_))))
    refine pre_eq (A := _ ∗ ((rawAt y r ∗ u16At (y + 6) 0) ∗ emp)) (by rw [star_emp, star_comm]) ?_
    refine ofB (B.bind_pure' _) (setRaw hy.1 hy.2 ?_)
    rw [star_emp]
    exact ret (Ent.refl _)
  rcases HKind.ofIndex j with _ | k
  · exact raw
  · dsimp only
    by_cases hk : need k = true
    · rw [if_pos hk, if_pos hk]
      exact pre (ofB (B.bind_pure' _) (bind (sim_headerValues net hn hd (hneed k hk) h) (fun vs _ => ret (Ent.refl _)))) (Ent.drop _ _)
    · rw [if_neg hk, if_neg hk]
      exact raw

/-- `ParseHeaders` -/
theorem sim_headers (net : Net) (hn : net.Len16) {need : HKind → Bool} {pl : Place} (hd : pl.order.Nodup) (hneed : ∀ k, need k = true → k ∈ pl.order) :
    Sim (hdrsAt hdrAt pl {}) (parseHeaders net need) (B.headers net need pl) (fun l _ => hdrsAt hdrAt pl (Hdrs.ofItems l)) := by
  unfold parseHeaders B.headers
  refine forLoop (I := fun l _ => hdrsAt hdrAt pl (Hdrs.ofItems l)) (fun acc _ => ?_) [] ()
  unfold headersBody B.headersBody
  refine ctx (fun c => ite (fun _ => ret (Ent.refl _)) (fun _ => ite (fun _ => skip (ret (Ent.refl _))) (fun _ => ?_)))
  refine pre_eq (emp_star _).symm (seq (orErr sim_msgHeaderName) (fun n x => pre_eq (star_comm _ _) ?_))
  refine bind (sim_headerLine net hn hd hneed (Hdrs.ofItems acc) n x) (fun l _ => ret ?_)
  refine Ent.of_eq ?_
  show _ = hdrsAt hdrAt pl (({} : Hdrs).addAll (acc ++ l))
  rw [Hdrs.addAll_append]
  rfl

/-- `ParseRawHeaders` -/
theorem sim_rawHeaders : Sim emp parseRawHeaders B.rawHeaders (fun l x => listAt rawAt 6 x l) := by
  unfold parseRawHeaders B.rawHeaders
  refine pre (forLoop (I := fun l s => openList rawAt 6 s.1 s.2 l) (fun acc s => ?_) [] (0, 0)) (Ent.of_eq (openList_nil _ _).symm)
  obtain ⟨first, prev⟩ := s
  unfold rawHeadersBody B.rawHeadersBody
  refine ctx (fun c => ite (fun _ => ret (openList_close _ _ _ _ _)) (fun _ => ite (fun _ => skip (ret (openList_close _ _ _ _ _))) (fun _ => ?_)))
  refine pre_eq (emp_star _).symm (seq sim_msgHeaderName (fun n x => ?_))
  obtain ⟨n, i⟩ := n
  obtain ⟨a, j⟩ := x
  refine pre_eq (star_assoc _ _ _) (fact_elim (fun hj => ?_))
  obtain ⟨hj, hi⟩ := hj
  dsimp only at hj hi
  subst hj
  dsimp only
  refine seq (sim_rawHeader j a n hi) (fun r y => pre_eq (star_assoc _ _ _) (fact_elim (fun hy => ?_)))
  refine pre_eq (A := openList rawAt 6 first prev acc ∗ (rawAt y r ∗ (u16At (y + 6) 0 ∗ emp))) (by rw [star_emp, star_comm]) (link hy.1 hy.2 (fun f' p' => ret ?_))
  rw [star_emp]
  exact Ent.refl _
end Sip
