import Verif.Model.HeapOps
import Verif.Props.MemPrim
import Verif.Props.Lookup
import Verif.Props.HeapEncodeTop
/-! # C55: searching and removing headers of a message on the bytes of the arena -/
namespace Sip
attribute [local irreducible] u32 u16 roundToAlign
open Asrt

/-! ## searching -/
/-- the result of a search for a parsed header: nil, or the address of a header whose bytes are in `S` -/
def FoundParsed (i : Nat) (ks : List HKind) (c : HKind → List HVal) (m : Mem) (S : Nat → Prop) (x : Nat) : Prop :=
  match ks.find? (fun k => k.index = i ∧ c k ≠ []) with
  | none => x = 0
  | some k => 8 ≤ x ∧ ∃ v T, (c k).head? = some v ∧ (hdrAt k x v).holds m T ∧ ∀ j, T j → S j

theorem commonAt_ptr {k : HKind} {f : Nat} {vs : List HVal} {F : Asrt} {m : Mem} {S : Nat → Prop} (h : (commonAt hdrAt k f vs ∗ F).holds m S) (hlt : ∀ i, S i → i < 32768) :
    ∃ q, (∀ g : Nat → Rd Nat, Rd.u16 f g m = g q m) ∧ (vs = [] → q = 0) ∧ (∀ v, vs.head? = some v → 8 ≤ q ∧ ∃ T, (hdrAt k q v).holds m T ∧ ∀ j, T j → S j) := by
  unfold commonAt at h
  rw [ex_star] at h
  obtain ⟨q, h⟩ := h
  dsimp only at h
  rw [star_assoc] at h
  refine ⟨q, fun g => read16 h hlt g, ?_, ?_⟩
  · rintro rfl
    obtain ⟨_, _, _, _, _, h⟩ := h
    obtain ⟨_, _, _, _, h, _⟩ := h
    by_cases hm : k.multi = true
    · simp only [if_pos hm] at h
      exact h.1
    · simp only [if_neg hm] at h
      exact h.1
  · intro v hv
    obtain ⟨S0, S1, e1, e2, _, h⟩ := h
    obtain ⟨S2, S3, f1, f2, h, _⟩ := h
    by_cases hm : k.multi = true
    · simp only [if_pos hm] at h
      rcases vs with _ | ⟨w, ws⟩
      · cases hv
      · cases hv
        obtain ⟨n, h⟩ := h
        obtain ⟨h8, h⟩ := fact_star_holds.1 h
        obtain ⟨S4, S5, g1, g2, h, _⟩ := h
        exact ⟨h8.1, S4, h, fun j hj => (e1 j).2 (.inr ((f1 j).2 (.inl ((g1 j).2 (.inl hj)))))⟩
    · simp only [if_neg hm, hv] at h
      obtain ⟨h8, h⟩ := fact_star_holds.1 h
      exact ⟨h8, S2, h, fun j hj => (e1 j).2 (.inr ((f1 j).2 (.inl hj)))⟩

theorem findCommon_finds (i : Nat) : ∀ (ks : List HKind) (f : Nat) (c : HKind → List HVal) (m : Mem) (S : Nat → Prop), (commonsAt hdrAt ks f c).holds m S → (∀ i, S i → i < 32768) →
    ∃ x, Rd.findCommon i ks f m = .ok x ∧ FoundParsed i ks c m S x
  | [], f, c, m, S, _, _ => ⟨0, rfl, rfl⟩
  | k :: ks, f, c, m, S, h, hlt => by
    obtain ⟨q, h1, h2, h3⟩ := commonAt_ptr (F := commonsAt hdrAt ks (f + 2) c) h hlt
    unfold Rd.findCommon
    rw [h1]
    obtain ⟨S0, S1, e1, e2, _, h⟩ := h
    obtain ⟨x, hx, hf⟩ := findCommon_finds i ks (f + 2) c m S1 h (fun i hi => hlt i ((e1 i).2 (.inr hi)))
    unfold FoundParsed
    by_cases hq : q ≠ 0 ∧ k.index = i
    · rw [if_pos hq]
      have hc : c k ≠ [] := fun e => hq.1 (h2 e)
      rw [List.find?_cons_of_pos (by simpa using ⟨hq.2, hc⟩)]
      dsimp only
      obtain ⟨v, vs, hv⟩ := List.exists_cons_of_ne_nil hc
      obtain ⟨h8, T, t1, t2⟩ := h3 v (by rw [hv]; rfl)
      exact ⟨q, rfl, h8, v, T, by rw [hv]; rfl, t1, t2⟩
    · rw [if_neg hq, hx]
      refine ⟨x, rfl, ?_⟩
      rw [List.find?_cons_of_neg]
      · unfold FoundParsed at hf
        rcases hfd : ks.find? (fun k => k.index = i ∧ c k ≠ []) with _ | k' <;> rw [hfd] at hf ⊢ <;> dsimp only at hf ⊢
        · exact hf
        · obtain ⟨h8, v, T, t1, t2, t3⟩ := hf
          exact ⟨h8, v, T, t1, t2, fun j hj => (e1 j).2 (.inr (t3 j hj))⟩
      · intro hk
        simp only [decide_eq_true_eq] at hk
        refine hq ⟨fun e => ?_, hk.1⟩
        obtain ⟨v, vs, hv⟩ := List.exists_cons_of_ne_nil hk.2
        have := (h3 v (by rw [hv]; rfl)).1
        omega

/-- the result of a search in the raw headers -/
def FoundRaw (r : Option RawHeader) (m : Mem) (S : Nat → Prop) (x : Nat) : Prop :=
  match r with
  | none => x = 0
  | some r => 8 ≤ x ∧ ∃ T, (rawAt x r).holds m T ∧ ∀ j, T j → S j

theorem FoundRaw.mono {r : Option RawHeader} {m : Mem} {S T : Nat → Prop} {x : Nat} (h : FoundRaw r m S x) (hs : ∀ j, S j → T j) : FoundRaw r m T x := by
  unfold FoundRaw at h ⊢
  rcases r with _ | r <;> dsimp only at h ⊢
  · exact h
  · obtain ⟨h1, U, h2, h3⟩ := h
    exact ⟨h1, U, h2, fun j hj => hs j (h3 j hj)⟩

/-- one element of the list of raw headers -/
theorem rawList_cons {r : RawHeader} {hs : List RawHeader} {q : Nat} {m : Mem} {S : Nat → Prop} (h : (listAt rawAt 6 q (r :: hs)).holds m S) (hlt : ∀ i, S i → i < 32768) :
    8 ≤ q ∧ q < 65536 ∧ ∃ q' T U, (rawAt q r).holds m T ∧ (listAt rawAt 6 q' hs).holds m U ∧ (∀ j, T j → S j) ∧ (∀ j, U j → S j) ∧
      (∀ γ (g : Nat → Rd γ), Rd.u16 (q + 6) g m = g q' m) := by
  obtain ⟨q', h⟩ := h
  obtain ⟨h8, h⟩ := fact_star_holds.1 h
  obtain ⟨T, V, e1, e2, h1, h⟩ := h
  have hV : ∀ j, V j → j < 32768 := fun j hj => hlt j ((e1 j).2 (.inr hj))
  refine ⟨h8.1, h8.2, q', T, ?_⟩
  have hr := fun γ (g : Nat → Rd γ) => read16 h hV g
  obtain ⟨W, U, f1, f2, _, h⟩ := h
  exact ⟨U, h1, h, fun j hj => (e1 j).2 (.inl hj), fun j hj => (e1 j).2 (.inr ((f1 j).2 (.inr hj))), hr⟩

theorem rawAt_id {q : Nat} {r : RawHeader} {m : Mem} {T : Nat → Prop} (h : (rawAt q r).holds m T) (hlt : ∀ i, T i → i < 32768) {γ : Type} (g : Nat → Rd γ) : Rd.u16 q g m = g r.id m := by
  unfold rawAt at h
  exact read16 h hlt g

theorem findRaw_finds (i : Nat) : ∀ (hs : List RawHeader) (n q : Nat) (m : Mem) (S : Nat → Prop), hs.length < n → (listAt rawAt 6 q hs).holds m S → (∀ i, S i → i < 32768) →
    ∃ x, Rd.findRaw i n q m = .ok x ∧ FoundRaw (findKnownRawHeader hs i) m S x
  | [], n + 1, q, m, S, _, h, _ => by
    obtain ⟨h1, _⟩ := h
    refine ⟨0, ?_, rfl⟩
    unfold Rd.findRaw
    rw [if_pos h1]
    rfl
  | r :: hs, n + 1, q, m, S, hn, h, hlt => by
    obtain ⟨h8, _, q', T, U, h1, h2, h3, h4, h5⟩ := rawList_cons h hlt
    obtain ⟨x, hx1, hx2⟩ := findRaw_finds i hs n q' m U (by simpa using hn) h2 (fun j hj => hlt j (h4 j hj))
    unfold Rd.findRaw findKnownRawHeader
    rw [if_neg (by omega), rawAt_id h1 (fun j hj => hlt j (h3 j hj))]
    by_cases hi : r.id = i
    · rw [if_pos hi, List.find?_cons_of_pos (by simpa using hi)]
      exact ⟨q, rfl, h8, T, h1, h3⟩
    · rw [if_neg hi, h5, hx1, List.find?_cons_of_neg (by simpa using hi)]
      exact ⟨x, rfl, hx2.mono h4⟩

/-- `CStringEqualNoCase` of the field `hname` -/
theorem rawAt_name {q : Nat} {r : RawHeader} {m : Mem} {T : Nat → Prop} (h : (rawAt q r).holds m T) (hlt : ∀ i, T i → i < 32768) {name : Bytes} (hn : name ≠ []) :
    ∃ p, (∀ γ (g : Nat → Rd γ), Rd.u16 (q + 2) g m = g p m) ∧ bEqNoCase m p name = .ok (strEqNoCase r.name name) := by
  unfold rawAt strField at h
  rw [star_left_comm, ex_star] at h
  obtain ⟨p, h⟩ := h
  dsimp only at h
  rw [star_assoc] at h
  refine ⟨p, fun γ g => read16 h hlt g, ?_⟩
  obtain ⟨_, _, _, _, _, h⟩ := h
  obtain ⟨_, _, _, _, h, _⟩ := h
  rcases hr : r.name with _ | s <;> rw [hr] at h
  · have hp : p = 0 := h.1
    subst hp
    rfl
  · have hs : readStr m p = s := h.1.2.2
    have hp := h.1.1
    have := eqNoCase_exact m p name (by omega)
    rw [if_neg (fun e => hn e.1), hs] at this
    obtain ⟨b, e1, e2⟩ := this
    rw [e1]
    congr 1
    have e3 := strEqNoCase_iff s name
    exact Bool.eq_iff_iff.2 (e2.trans e3.symm)

theorem findRawName_finds (name : Bytes) (hne : name ≠ []) : ∀ (hs : List RawHeader) (n q : Nat) (m : Mem) (S : Nat → Prop), hs.length < n → (listAt rawAt 6 q hs).holds m S →
    (∀ i, S i → i < 32768) → ∃ x, Rd.findRawName name n q m = .ok x ∧ FoundRaw (findUnknownRawHeader hs name) m S x
  | [], n + 1, q, m, S, _, h, _ => by
    obtain ⟨h1, _⟩ := h
    refine ⟨0, ?_, rfl⟩
    unfold Rd.findRawName
    rw [if_pos h1]
    rfl
  | r :: hs, n + 1, q, m, S, hn, h, hlt => by
    obtain ⟨h8, _, q', T, U, h1, h2, h3, h4, h5⟩ := rawList_cons h hlt
    obtain ⟨x, hx1, hx2⟩ := findRawName_finds name hne hs n q' m U (by simpa using hn) h2 (fun j hj => hlt j (h4 j hj))
    obtain ⟨p, p1, p2⟩ := rawAt_name h1 (fun j hj => hlt j (h3 j hj)) hne
    unfold Rd.findRawName findUnknownRawHeader
    rw [if_neg (by omega), p1]
    unfold Rd.andThen
    dsimp only
    rw [p2]
    dsimp only
    by_cases hi : strEqNoCase r.name name = true
    · rw [if_pos hi, List.find?_cons_of_pos (by simpa using hi)]
      exact ⟨q, rfl, h8, T, h1, h3⟩
    · rw [if_neg hi, h5, hx1, List.find?_cons_of_neg (by simpa using hi)]
      exact ⟨x, rfl, hx2.mono h4⟩

/-! ## removing -/
open Sim
theorem sim_hasPrefix {α β : Type} {p : P α} {R : α → β → Asrt} {n : Nat} {o : Option Bytes} {F : Asrt} {pre : Bytes} (hpre : pre ≠ []) {g : Bool → B β}
    (k : Sim (strOpt n o ∗ F) p (g (strHasPrefixNoCase (writeStr o) pre)) R) : Sim (strOpt n o ∗ F) p (B.hasPrefix n pre >>= g) R := by
  intro c S hf hA hS
  have e : bHasPrefixNoCase c.a.mem c.a.cap n pre = .ok (strHasPrefixNoCase (writeStr o) pre) := by
    have hl : 0 < pre.length := List.length_pos_iff.2 hpre
    obtain ⟨S1, S2, k1, k2, k3, k4⟩ := hA
    rcases o with _ | s
    · have hn : n = 0 := k3.1
      subst hn
      unfold bHasPrefixNoCase
      have : strlen c.a.mem 0 = 0 := rfl
      rw [this, if_pos hl]
      unfold strHasPrefixNoCase
      rw [if_pos (show (writeStr none).length < pre.length from hl)]
    · obtain ⟨⟨h1, h2, h3⟩, h4⟩ := k3
      have hsl : strlen c.a.mem n = s.length := by rw [← h3]; simp [readStr]
      have hin : n + strlen c.a.mem n ≤ c.a.cap := by
        rw [hsl]
        have hu := hf.2.2.1
        have := hS (n + s.length - 1) ((k1 _).2 (.inl ((h4 _).2 (by omega))))
        omega
      obtain ⟨b, b1, b2⟩ := hasPrefix_exact c.a.mem c.a.cap n pre hin (by have := hf.1; omega)
      rw [b1]
      congr 1
      have e3 := strHasPrefixNoCase_iff (readStr c.a.mem n) pre
      rw [h3] at b2 e3
      show b = strHasPrefixNoCase s pre
      exact Bool.eq_iff_iff.2 (b2.trans e3.symm)
  have : (B.hasPrefix n pre >>= g) c = g (strHasPrefixNoCase (writeStr o) pre) c := by
    show B.bind (B.hasPrefix n pre) g c = _
    unfold B.bind B.hasPrefix
    rw [e]
  rw [this]
  exact k c S hf hA hS

theorem sim_isContent {α β : Type} {p : P α} {R : α → β → Asrt} {q : Nat} {r : RawHeader} {F : Asrt} {g : Bool → B β} (k : Sim (rawAt q r ∗ F) p (g r.isContent) R) :
    Sim (rawAt q r ∗ F) p (B.isContent q >>= g) R := by
  unfold B.isContent RawHeader.isContent at *
  simp only [B.bind_assoc']
  unfold rawAt at k ⊢
  refine pre_eq (star_assoc _ _ _) (get16 ?_)
  by_cases h1 : r.id = 12 ∨ r.id = 80 ∨ r.id = 81 ∨ r.id = 82 ∨ r.id = 13
  · simp only [if_pos h1]
    refine pureB (pre_eq (star_assoc _ _ _).symm ?_)
    have : (r.id = 12 || r.id = 80 || r.id = 81 || r.id = 82 || r.id = 13 || (r.id = 0 && strHasPrefixNoCase (writeStr r.name) (str "Content-")) : Bool) = true := by
      rcases h1 with h | h | h | h | h <;> simp [h]
    rw [this] at k
    exact k
  · simp only [if_neg h1]
    by_cases h0 : r.id = 0
    · simp only [if_pos h0, B.bind_assoc']
      have e : (r.id = 12 || r.id = 80 || r.id = 81 || r.id = 82 || r.id = 13 || (r.id = 0 && strHasPrefixNoCase (writeStr r.name) (str "Content-")) : Bool) =
        strHasPrefixNoCase (writeStr r.name) (str "Content-") := by simp [h0]
      rw [e] at k
      refine pre_eq (A := strField (q + 2) r.name ∗ (u16At q r.id ∗ (strField (q + 4) (some r.value) ∗ F))) (by ac_rfl) ?_
      refine ex_elim_star (fun n => pre_eq (star_assoc _ _ _) (get16 (pre_eq (star_left_comm _ _ _) (sim_hasPrefix (by decide) ?_))))
      refine pre k (Ent.pre_eq (A' := (u16At (q + 2) n ∗ strOpt n r.name) ∗ (u16At q r.id ∗ (strField (q + 4) (some r.value) ∗ F))) (by ac_rfl) ?_)
      have e1 : (u16At (q + 2) n ∗ strOpt n r.name) ∗ (u16At q r.id ∗ (strField (q + 4) (some r.value) ∗ F)) ⊢ₘ strField (q + 2) r.name ∗ (u16At q r.id ∗ (strField (q + 4) (some r.value) ∗ F)) :=
        Ent.frame _ (Ent.ex n (Ent.refl _))
      exact Ent.trans e1 (Ent.of_eq (by ac_rfl))
    · simp only [if_neg h0]
      refine pureB (pre_eq (star_assoc _ _ _).symm ?_)
      have : (r.id = 12 || r.id = 80 || r.id = 81 || r.id = 82 || r.id = 13 || (r.id = 0 && strHasPrefixNoCase (writeStr r.name) (str "Content-")) : Bool) = false := by
        simp only [not_or] at h1
        simp [h1, h0]
      rw [this] at k
      exact k

/-- the loop, when a header has been kept: the rest of its list so far is `x`, then come the headers that are still to be looked at -/
theorem sim_removeRest (this : Nat) (p : RawHeader) (prev : Nat) (hp : 8 ≤ prev ∧ prev < 65536) : ∀ (hs : List RawHeader) (x : List RawHeader) (n next addr : Nat) (F : Asrt), hs.length < n →
    Sim ((u16At (prev + 6) next ∗ (seg rawAt 6 next x addr ∗ listAt rawAt 6 addr hs)) ∗ F) (pure ()) (B.removeLoop this n prev addr)
      (fun _ _ => (ex fun q => u16At (prev + 6) q ∗ listAt rawAt 6 q (removeLoop (some p) (x ++ hs) hs).tail) ∗ F)
  | [], x, n + 1, next, addr, F, _ => by
    unfold B.removeLoop
    refine pre_eq (A := fact (addr = 0) ∗ ((u16At (prev + 6) next ∗ seg rawAt 6 next x addr) ∗ F)) (by unfold listAt; rw [seg]; ac_rfl) (fact_elim (fun ha => ?_))
    subst ha
    rw [if_pos rfl]
    refine ret (Ent.frame F (Ent.ex next ?_))
    rw [List.append_nil]
    exact Ent.refl _
  | r :: hs, x, n + 1, next, addr, F, hn => by
    unfold B.removeLoop
    refine pre_eq (A := (ex fun q => fact (8 ≤ addr ∧ addr < 65536) ∗ (rawAt addr r ∗ (u16At (addr + 6) q ∗ seg rawAt 6 q hs 0))) ∗ ((u16At (prev + 6) next ∗ seg rawAt 6 next x addr) ∗ F))
      (by unfold listAt; rw [seg]; ac_rfl) (ex_elim_star (fun q => pre_eq (star_assoc _ _ _) (fact_elim (fun h8 => ?_))))
    rw [if_neg (by omega)]
    refine pre_eq (star_assoc _ _ _) (sim_isContent ?_)
    refine pre_eq (A := u16At (addr + 6) q ∗ (rawAt addr r ∗ (seg rawAt 6 q hs 0 ∗ ((u16At (prev + 6) next ∗ seg rawAt 6 next x addr) ∗ F)))) (by ac_rfl) (get16 ?_)
    by_cases hc : r.isContent = true
    · simp only [if_pos hc, if_neg (show ¬ prev = 0 by omega)]
      refine know (φ := q < 65536) (fun m S h => ?_) (fun hq => ?_)
      · obtain ⟨_, _, _, _, h, _⟩ := h
        exact (u16At_holds.1 h).1
      refine pre_eq (A := u16At (prev + 6) next ∗ (seg rawAt 6 q hs 0 ∗ (u16At (addr + 6) q ∗ (rawAt addr r ∗ (seg rawAt 6 next x addr ∗ F))))) (by ac_rfl) (put16 hq ?_)
      have e : removeLoop (some p) (x ++ r :: hs) (r :: hs) = removeLoop (some p) hs hs := by
        show (if r.isContent then _ else _) = _
        rw [if_pos hc]
      rw [e]
      refine pre (sim_removeRest this p prev hp hs [] n q q F (by simpa using hn)) ?_
      refine Ent.pre_eq (A' := ((u16At (prev + 6) q ∗ seg rawAt 6 q hs 0) ∗ F) ∗ (u16At (addr + 6) q ∗ (rawAt addr r ∗ seg rawAt 6 next x addr))) (by ac_rfl) (Ent.trans (Ent.drop _ _) (Ent.frame F (Ent.framel _ ?_)))
      refine Ent.post_eq ?_ (Ent.refl _)
      rw [seg, fact_true rfl, emp_star]
      rfl
    · simp only [if_neg hc, if_neg (show ¬ prev = 0 by omega)]
      have e : removeLoop (some p) (x ++ r :: hs) (r :: hs) = removeLoop (some p) (x ++ [r] ++ hs) hs := by
        show (if r.isContent then _ else _) = _
        rw [if_neg hc, List.append_assoc]
        rfl
      rw [e]
      refine pre (sim_removeRest this p prev hp hs (x ++ [r]) n next q F (by simpa using hn)) ?_
      refine Ent.pre_eq (A' := (u16At (prev + 6) next ∗ ((seg rawAt 6 next x addr ∗ (rawAt addr r ∗ u16At (addr + 6) q)) ∗ seg rawAt 6 q hs 0)) ∗ F) (by ac_rfl) (Ent.frame F (Ent.framel _ (Ent.frame _ ?_)))
      exact seg_snoc rawAt 6 r addr q h8 x next

theorem removeLoop_keeps (p : RawHeader) : ∀ (hs l : List RawHeader), removeLoop (some p) l hs = p :: (removeLoop (some p) l hs).tail
  | [], l => rfl
  | r :: hs, l => by
    have e : ∀ l, removeLoop (some p) l (r :: hs) = if r.isContent then removeLoop (some p) hs hs else removeLoop (some p) l hs := fun _ => rfl
    rw [e]
    by_cases hc : r.isContent = true
    · rw [if_pos hc]; exact removeLoop_keeps p hs hs
    · rw [if_neg hc]; exact removeLoop_keeps p hs l

/-- the loop, before a header has been kept -/
theorem sim_removeFirst (this : Nat) : ∀ (hs : List RawHeader) (n addr : Nat) (F : Asrt), hs.length < n →
    Sim ((u16At (this + 64) addr ∗ listAt rawAt 6 addr hs) ∗ F) (pure ()) (B.removeLoop this n 0 addr) (fun _ _ => rawsAt (this + 64) (removeLoop none hs hs) ∗ F)
  | [], n + 1, addr, F, _ => by
    unfold B.removeLoop
    refine pre_eq (A := fact (addr = 0) ∗ (u16At (this + 64) addr ∗ F)) (by unfold listAt; rw [seg]; ac_rfl) (fact_elim (fun ha => ?_))
    rw [if_pos ha]
    refine ret (Ent.frame F (Ent.ex addr ?_))
    refine Ent.post_eq ?_ (Ent.refl _)
    show _ ∗ listAt rawAt 6 addr [] = _
    unfold listAt
    rw [seg, fact_true ha, star_emp]
  | r :: hs, n + 1, addr, F, hn => by
    unfold B.removeLoop
    refine pre_eq (A := (ex fun q => fact (8 ≤ addr ∧ addr < 65536) ∗ (rawAt addr r ∗ (u16At (addr + 6) q ∗ seg rawAt 6 q hs 0))) ∗ (u16At (this + 64) addr ∗ F))
      (by unfold listAt; rw [seg]; ac_rfl) (ex_elim_star (fun q => pre_eq (star_assoc _ _ _) (fact_elim (fun h8 => ?_))))
    rw [if_neg (by omega)]
    refine pre_eq (star_assoc _ _ _) (sim_isContent ?_)
    refine pre_eq (A := u16At (addr + 6) q ∗ (rawAt addr r ∗ (seg rawAt 6 q hs 0 ∗ (u16At (this + 64) addr ∗ F)))) (by ac_rfl) (get16 ?_)
    by_cases hc : r.isContent = true
    · simp only [if_pos hc, if_pos rfl]
      refine know (φ := q < 65536) (fun m S h => ?_) (fun hq => ?_)
      · obtain ⟨_, _, _, _, h, _⟩ := h
        exact (u16At_holds.1 h).1
      refine pre_eq (A := u16At (this + 64) addr ∗ (seg rawAt 6 q hs 0 ∗ (u16At (addr + 6) q ∗ (rawAt addr r ∗ F)))) (by ac_rfl) (put16 hq ?_)
      have e : removeLoop none (r :: hs) (r :: hs) = removeLoop none hs hs := by
        show (if r.isContent then _ else _) = _
        rw [if_pos hc]
      rw [e]
      refine pre (sim_removeFirst this hs n q F (by simpa using hn)) ?_
      exact Ent.pre_eq (A' := ((u16At (this + 64) q ∗ seg rawAt 6 q hs 0) ∗ F) ∗ (u16At (addr + 6) q ∗ rawAt addr r)) (by ac_rfl) (Ent.drop _ _)
    · simp only [if_neg hc, if_pos rfl]
      have e : removeLoop none (r :: hs) (r :: hs) = r :: (removeLoop (some r) ([] ++ hs) hs).tail := by
        rw [List.nil_append, ← removeLoop_keeps r hs hs]
        show (if r.isContent then _ else _) = _
        rw [if_neg hc]
      rw [e]
      refine pre (post (sim_removeRest this r addr h8 hs [] n q q (rawAt addr r ∗ (u16At (this + 64) addr ∗ F)) (by simpa using hn)) (fun _ _ => ?_)) ?_
      · refine Ent.ex_elim_star (fun q' => ?_)
        refine Ent.pre_eq (A' := (u16At (this + 64) addr ∗ (rawAt addr r ∗ (u16At (addr + 6) q' ∗ listAt rawAt 6 q' (removeLoop (some r) ([] ++ hs) hs).tail))) ∗ F) (by ac_rfl) (Ent.frame F ?_)
        exact Ent.ex addr (Ent.framel _ (Ent.ex q' (Ent.fact h8 (Ent.refl _))))
      · rw [show seg rawAt 6 q [] q = emp by rw [seg, fact_true rfl], emp_star]
        exact Ent.of_eq (by unfold listAt; ac_rfl)

theorem sim_removeContent (this : Nat) (m : Msg) : Sim (msgAt this m) (pure m.removeContentHeaders) (B.removeContentHeaders this) (fun m' _ => msgAt this m') := by
  unfold B.removeContentHeaders
  have hbase : msgAt this m = (commonsAt hdrAt msgOrder (this + 22) m.hdrs.common ∗ rawsAt (this + 64) m.hdrs.raw) ∗ (startLineAt this m.start ∗ bodiesAt (this + 66) m.bodies) := by
    show _ ∗ ((commonsAt hdrAt msgOrder (this + 22) m.hdrs.common ∗ rawsAt (this + 64) m.hdrs.raw) ∗ _) = _; ac_rfl
  have hbase' : msgAt this m.removeContentHeaders = (commonsAt hdrAt msgOrder (this + 22) m.removeContentHeaders.hdrs.common ∗ rawsAt (this + 64) (removeLoop none m.hdrs.raw m.hdrs.raw)) ∗
      (startLineAt this m.start ∗ bodiesAt (this + 66) m.bodies) := by
    show _ ∗ ((commonsAt hdrAt msgOrder (this + 22) m.removeContentHeaders.hdrs.common ∗ rawsAt (this + 64) (removeLoop none m.hdrs.raw m.hdrs.raw)) ∗ _) = _; ac_rfl
  obtain ⟨X, hX⟩ := commonsAt_split hdrAt .contentDisposition msgOrder (this + 22) m.hdrs.common (HKind.mem_msgOrder _) msgOrder_nodup
  have e1 := hX m.hdrs.common (fun _ _ => rfl)
  have e2 := hX m.removeContentHeaders.hdrs.common (fun j hj => by show (if j = HKind.contentDisposition then ([] : List HVal) else m.hdrs.common j) = _; rw [if_neg hj])
  have e3 : m.removeContentHeaders.hdrs.common .contentDisposition = [] := by show (if HKind.contentDisposition = HKind.contentDisposition then ([] : List HVal) else m.hdrs.common .contentDisposition) = _; rw [if_pos rfl]
  rw [e3] at e2
  have hfd : this + 22 + 2 * msgOrder.idxOf .contentDisposition = (msgPlace this).field .contentDisposition := rfl
  rw [hfd] at e1 e2
  have e4 : commonAt hdrAt .contentDisposition ((msgPlace this).field .contentDisposition) [] ∗ X = commonsAt hdrAt msgOrder (this + 22) m.removeContentHeaders.hdrs.common := e2.symm
  rw [hbase, e1]
  refine pre_eq (A := commonAt hdrAt .contentDisposition ((msgPlace this).field .contentDisposition) (m.hdrs.common .contentDisposition) ∗ (rawsAt (this + 64) m.hdrs.raw ∗ (X ∗ (startLineAt this m.start ∗ bodiesAt (this + 66) m.bodies)))) (by ac_rfl) ?_
  refine ex_elim_star (fun q => pre_eq (star_assoc _ _ _) (put16 (by omega) ?_))
  refine pre (A := rawsAt (this + 64) m.hdrs.raw ∗ (commonAt hdrAt .contentDisposition ((msgPlace this).field .contentDisposition) [] ∗ (X ∗ (startLineAt this m.start ∗ bodiesAt (this + 66) m.bodies)))) ?_ ?_
  · refine ex_elim_star (fun addr => pre_eq (star_assoc _ _ _) (get16 ?_))
    refine ofB (B.bind_pure' _) (ofP (p' := pure () >>= fun _ => pure m.removeContentHeaders) (fun _ => rfl) ?_)
    refine bind (R := fun _ _ => rawsAt (this + 64) (removeLoop none m.hdrs.raw m.hdrs.raw) ∗ (commonAt hdrAt .contentDisposition ((msgPlace this).field .contentDisposition) [] ∗ (X ∗ (startLineAt this m.start ∗ bodiesAt (this + 66) m.bodies)))) ?_
      (fun _ _ => ret (Ent.of_eq ?_))
    · refine pre_eq (star_assoc _ _ _).symm ?_
      intro c S hf hA hS
      refine sim_removeFirst this m.hdrs.raw 32769 addr _ ?_ c S hf hA hS
      obtain ⟨S1, S2, k1, k2, k3, k4⟩ := hA
      obtain ⟨S3, S4, l1, l2, l3, l4⟩ := k3
      have h1 := seg_length rawAt 6 0 c.a.mem 32768 m.hdrs.raw addr S4 l4 (fun i hi => by
        have := hS i ((k1 i).2 (.inl ((l1 i).2 (.inr hi)))); have := hf.1; have := hf.2.2.1; omega)
      have h2 := cnt_le S4 32768
      omega
    · rw [hbase', ← e4]
      ac_rfl
  · refine Ent.pre_eq (A' := (u16At ((msgPlace this).field .contentDisposition) 0 ∗ (rawsAt (this + 64) m.hdrs.raw ∗ (X ∗ (startLineAt this m.start ∗ bodiesAt (this + 66) m.bodies)))) ∗
      (if HKind.contentDisposition.multi then listAt (hdrAt .contentDisposition) HKind.contentDisposition.bodySize q (m.hdrs.common .contentDisposition) else optNode (hdrAt .contentDisposition) q (m.hdrs.common .contentDisposition).head?)) (by ac_rfl) (Ent.trans (Ent.drop _ _) ?_)
    refine Ent.pre_eq (A' := u16At ((msgPlace this).field .contentDisposition) 0 ∗ (rawsAt (this + 64) m.hdrs.raw ∗ (X ∗ (startLineAt this m.start ∗ bodiesAt (this + 66) m.bodies)))) rfl ?_
    refine Ent.trans (Ent.frame _ ?_) (Ent.of_eq (star_left_comm _ _ _))
    exact Ent.ex 0 (Ent.post_eq (by rw [if_neg (by decide)]; exact (congrArg _ (fact_true rfl)).trans (star_emp _)) (Ent.refl _))

/-! ## on a message that the arena holds -/
theorem rawList_short {q : Nat} {hs : List RawHeader} {m : Mem} {S : Nat → Prop} (h : (listAt rawAt 6 q hs).holds m S) (hlt : ∀ i, S i → i < 32768) : hs.length < 32769 := by
  have h1 := seg_length rawAt 6 0 m 32768 hs q S h hlt
  have h2 := cnt_le S 32768
  omega

theorem held_parts {this : Nat} {m : Msg} {own : Nat → Prop} {c : BCtx} (h : Held this m own c) (hf : Fine c) :
    (∀ i, own i → i < 32768) ∧ ∃ S T q, (commonsAt hdrAt msgOrder (this + 22) m.hdrs.common).holds c.a.mem S ∧ (listAt rawAt 6 q m.hdrs.raw).holds c.a.mem T ∧
      (∀ γ (g : Nat → Rd γ), Rd.u16 (this + 64) g c.a.mem = g q c.a.mem) ∧ (∀ j, S j → own j) ∧ ∀ j, T j → own j := by
  have hlt : ∀ i, own i → i < 32768 := fun i hi => by have := h.2 i hi; have := hf.1; have := hf.2.2.1; omega
  refine ⟨hlt, ?_⟩
  have h1 : (startLineAt this m.start ∗ ((commonsAt hdrAt msgOrder (this + 22) m.hdrs.common ∗ rawsAt (this + 64) m.hdrs.raw) ∗ bodiesAt (this + 66) m.bodies)).holds c.a.mem own := h.1
  obtain ⟨_, S1, e2, _, _, h1⟩ := h1
  obtain ⟨S2, _, f1, _, h1, _⟩ := h1
  obtain ⟨S3, S4, g1, g2, h1, h2⟩ := h1
  unfold rawsAt at h2
  obtain ⟨q, h2⟩ := h2
  dsimp only at h2
  have hl4 : ∀ j, S4 j → own j := fun j hj => (e2 j).2 (.inr ((f1 j).2 (.inl ((g1 j).2 (.inr hj)))))
  have hr := fun γ (g : Nat → Rd γ) => read16 h2 (fun j hj => hlt j (hl4 j hj)) g
  obtain ⟨_, S5, i1, i2, _, h3⟩ := h2
  exact ⟨S3, S5, q, h1, h3, hr, fun j hj => (e2 j).2 (.inr ((f1 j).2 (.inl ((g1 j).2 (.inl hj))))), fun j hj => hl4 j ((i1 j).2 (.inr hj))⟩

/-- what `Encode` of a found header must write: `r` is the raw header at `x` -/
def WritesRaw (r : Option RawHeader) (mem : Mem) (x : Nat) : Prop :=
  match r with
  | none => x = 0
  | some r => x ≠ 0 ∧ E.rawHeader x mem = .ok r.encode

theorem FoundRaw.writes {r : Option RawHeader} {m : Mem} {S : Nat → Prop} {x : Nat} (h : FoundRaw r m S x) (hlt : ∀ i, S i → i < 32768) : WritesRaw r m x := by
  unfold FoundRaw at h
  unfold WritesRaw
  rcases r with _ | r <;> dsimp only at h ⊢
  · exact h
  · obtain ⟨h1, T, h2, h3⟩ := h
    exact ⟨by omega, shows_rawHeader x r m T h2 (fun j hj => hlt j (h3 j hj))⟩

/-- **C55** `GetHeaderByIndex` on the bytes of a message: it comes to an end, it is right about whether there is such a header and whether it is a parsed one, and the address it gives is that of
the header: its `Encode` writes there what the header found in the message gives. -/
theorem msg_headerByIndex_in_memory (net : Net) (fl : Flags) (c : BCtx) (hf : Fine c) (this : Nat) (m : Msg) (own : Nat → Prop) (hm : Held this m own c) (i : Nat) :
    ∃ x b, Rd.headerByIndex this i c.a.mem = .ok (x, b) ∧
      match m.headerByIndex i with
      | none => x = 0 ∧ b = false
      | some (.inl v) => x ≠ 0 ∧ b = true ∧ ∀ k : HKind, k.index = i → E.hdrValue net fl k x c.a.mem = k.encodeValue net fl v
      | some (.inr r) => x ≠ 0 ∧ b = false ∧ E.rawHeader x c.a.mem = .ok r.encode := by
  obtain ⟨hlt, S, T, q, h1, h2, h3, h4, h5⟩ := held_parts hm hf
  obtain ⟨x, x1, x2⟩ := findCommon_finds i msgOrder (this + 22) m.hdrs.common c.a.mem S h1 (fun j hj => hlt j (h4 j hj))
  have hlT : ∀ j, T j → j < 32768 := fun j hj => hlt j (h5 j hj)
  unfold Rd.headerByIndex Rd.andThen
  rw [x1]
  dsimp only
  unfold FoundParsed at x2
  rcases hfd : msgOrder.find? (fun k => k.index = i ∧ m.hdrs.common k ≠ []) with _ | k <;> rw [hfd] at x2 <;> dsimp only at x2
  · subst x2
    rw [if_neg (by simp), h3]
    obtain ⟨y, y1, y2⟩ := findRaw_finds i m.hdrs.raw 32769 q c.a.mem T (rawList_short h2 hlT) h2 hlT
    rw [y1]
    refine ⟨y, false, rfl, ?_⟩
    have y3 := y2.writes hlT
    unfold findKnownRawHeader WritesRaw at y3
    have e : m.headerByIndex i = (m.hdrs.raw.find? (fun h => h.id = i)).map .inr := by unfold Msg.headerByIndex; rw [hfd]; rfl
    rw [e]
    rcases hr : m.hdrs.raw.find? (fun h => h.id = i) with _ | r <;> rw [hr] at y3 ⊢ <;> dsimp only [Option.map] at y3 ⊢
    · exact ⟨y3, rfl⟩
    · exact ⟨y3.1, rfl, y3.2⟩
  · obtain ⟨h8, v, U, u1, u2, u3⟩ := x2
    rw [if_pos (by omega)]
    refine ⟨x, true, rfl, ?_⟩
    have e : m.headerByIndex i = some (.inl v) := by unfold Msg.headerByIndex; rw [hfd]; dsimp only [Option.bind]; rw [u1]
    rw [e]
    refine ⟨by omega, rfl, fun k' hk => ?_⟩
    have hkk := List.find?_some hfd
    simp only [decide_eq_true_eq] at hkk
    rw [index_inj k' k (hk.trans hkk.1.symm)]
    exact shows_hdrValue net fl k x v c.a.mem U u2 (fun j hj => hlt j (h4 j (u3 j hj)))

/-- **C55** `FindKnownRawHeader` on the bytes of a message: the header at the address it gives is the one found in the message. -/
theorem msg_findKnown_in_memory (c : BCtx) (hf : Fine c) (this : Nat) (m : Msg) (own : Nat → Prop) (hm : Held this m own c) (i : Nat) :
    ∃ x, Rd.u16 (this + 64) (Rd.findRaw i 32769) c.a.mem = .ok x ∧ WritesRaw (findKnownRawHeader m.hdrs.raw i) c.a.mem x := by
  obtain ⟨hlt, S, T, q, h1, h2, h3, h4, h5⟩ := held_parts hm hf
  have hlT : ∀ j, T j → j < 32768 := fun j hj => hlt j (h5 j hj)
  rw [h3]
  obtain ⟨y, y1, y2⟩ := findRaw_finds i m.hdrs.raw 32769 q c.a.mem T (rawList_short h2 hlT) h2 hlT
  exact ⟨y, y1, y2.writes hlT⟩

/-- **C55** `FindUnknownRawHeaderByName` on the bytes of a message, for a name that is not empty: the header at the address it gives is the one found in the message. -/
theorem msg_findUnknown_in_memory (c : BCtx) (hf : Fine c) (this : Nat) (m : Msg) (own : Nat → Prop) (hm : Held this m own c) (name : Bytes) (hn : name ≠ []) :
    ∃ x, Rd.u16 (this + 64) (Rd.findRawName name 32769) c.a.mem = .ok x ∧ WritesRaw (findUnknownRawHeader m.hdrs.raw name) c.a.mem x := by
  obtain ⟨hlt, S, T, q, h1, h2, h3, h4, h5⟩ := held_parts hm hf
  have hlT : ∀ j, T j → j < 32768 := fun j hj => hlt j (h5 j hj)
  rw [h3]
  obtain ⟨y, y1, y2⟩ := findRawName_finds name hn m.hdrs.raw 32769 q c.a.mem T (rawList_short h2 hlT) h2 hlT
  exact ⟨y, y1, y2.writes hlT⟩

/-- **C55** `RemoveContentHeaders` on the bytes of a message: it comes to an end, takes no memory, reports no error and writes only bytes of the message; afterwards the bytes hold the message
without those headers. -/
theorem removeContent_in_memory (c : BCtx) (hf : Fine c) (this : Nat) (m : Msg) (own : Nat → Prop) (hm : Held this m own c) :
    ∃ c' own', B.removeContentHeaders this c = .ok (some (), c') ∧ c'.abs = c.abs ∧ Fine c' ∧ (∀ i, i < c.a.used → ¬ own i → c'.a.mem i = c.a.mem i) ∧
      Held this m.removeContentHeaders own' c' ∧ ∀ i, own' i → own i := by
  have h1 := sim_removeContent this m c own hf hm.1 hm.2
  obtain ⟨x, c', j1, j2, j3, S', j4, j5, j6⟩ := (show ∃ x c', _ from h1)
  have hu : c'.a.used = c.a.used := congrArg Ctx.used j2
  exact ⟨c', S', j1, j2, j3.fine hf, j3.mem, ⟨j4, j6⟩, fun i hi => (j5 i hi).elim id (fun h => by have := j6 i hi; omega)⟩

/-- the hypotheses hold for a message with parsed and raw headers; the searches and the removal on its bytes -/
theorem heapOps_sample :
    let net : Net := ⟨fun _ => none, fun _ => []⟩
    let c := heapMsgSample "ACK sip:b@h SIP/2.0\r\nContent-Language: en\r\nX-Y: y\r\nContent-Disposition: a\r\nMIME-Version: 1.0\r\nContent-Zz: q\r\nl: 2\r\nc: a/b\r\nX: y\r\n\r\nhi"
    Fine c ∧ 10 + 68 ≤ c.a.used ∧
    (match Msg.parse net c.abs with
      | .ok (some m, _) => (m.hdrs.raw.length, m.removeContentHeaders.hdrs.raw.length, (m.hdrs.common .contentDisposition).length, (findUnknownRawHeader m.hdrs.raw (str "x-y")).isSome, (m.headerByIndex HKind.contentDisposition.index).isSome)
      | _ => (0, 0, 0, false, false)) = (5, 2, 1, true, true) ∧
    (match (B.msg net 10 >>= fun _ => B.removeContentHeaders 10 >>= fun _ => B.msgEncode net 10 []) c with
      | .ok (some t, _) => t
      | _ => []) = str "ACK sip:b@h SIP/2.0\r\nContent-Length:          2\r\nContent-Type: a/b\r\nX-Y: y\r\nSession-Expires: y\r\n\r\nhi" := by
  refine ⟨by unfold Fine; decide +kernel, by decide +kernel, by decide +kernel, by decide +kernel⟩
end Sip
