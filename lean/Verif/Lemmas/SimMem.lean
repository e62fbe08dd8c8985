import Verif.Lemmas.Sim
import Verif.Props.StoreVis
/-! # Allocation, strings and loops, on both layers -/
namespace Sip
attribute [local irreducible] u32 u16 roundToAlign
open Asrt
namespace Sim
variable {α β γ δ : Type} {A A' F : Asrt} {p : P α} {b : B β} {R R' : α → β → Asrt}

/-! ## allocation -/
theorem _root_.Sip.Asrt.bytes_holds_of {a : Nat} {l : Bytes} {m : Mem} (h : ∀ j, j < l.length → m (a + j) = l.getD j 0) :
    (bytes a l).holds m (fun i => a ≤ i ∧ i < a + l.length) := ⟨fun _ => Iff.rfl, h⟩

theorem alloc_run {c : BCtx} (hf : Fine c) {n : Nat} (h0 : 0 < n) (hn : n < 2147483648) :
    (c.a.used + n > c.a.cap ∧ ∃ c', B.alloc n c = .ok (none, c') ∧ c'.abs = c.abs ∧ c'.a.mem = c.a.mem) ∨
    (c.a.used + n ≤ c.a.cap ∧ ∃ c', B.alloc n c = .ok (some c.a.used, c') ∧ c'.abs = { c.abs with used := c.a.used + n } ∧ c'.a.mem = Arena.zero c.a.mem c.a.used n) := by
  obtain ⟨h1, h2, h3, _⟩ := hf
  unfold B.alloc
  rw [allocWithClear_spec c.a n (by omega)]
  by_cases hc : c.a.used + n > c.a.cap
  · left
    rw [if_pos (Or.inr hc)]
    exact ⟨hc, _, rfl, rfl, rfl⟩
  · right
    have hs := alloc_spec c.a n (by omega)
    rw [if_neg (by omega)] at hs
    rw [if_neg (by omega), hs]
    dsimp only
    rw [u16_id (show c.a.used < 65536 by omega), if_neg (by omega)]
    exact ⟨by omega, _, rfl, rfl, rfl⟩

theorem zeros_zero (m : Mem) (a n : Nat) : (zeros a n).holds (Arena.zero m a n) (fun i => a ≤ i ∧ i < a + n) := by
  have := bytes_holds_of (a := a) (l := List.replicate n 0) (m := Arena.zero m a n) (fun j hj => by
    rw [List.length_replicate] at hj
    simp only [Arena.zero]
    rw [if_pos (by omega), List.getD_eq_getElem?_getD, List.getElem?_replicate, if_pos hj]
    rfl)
  rw [List.length_replicate] at this
  exact this

theorem alloc {n : Nat} (h0 : 0 < n) (hn : n < 2147483648) :
    Sim emp (P.alloc n) (B.alloc n) (fun _ a => fact (8 ≤ a ∧ a + n ≤ 32768) ∗ zeros a n) := by
  intro c S hf hA hS
  have hfc := hf
  obtain ⟨h1, h2, h3, _⟩ := hfc
  unfold SimOut P.alloc
  rcases alloc_run hf h0 hn with ⟨hc, c', j1, j2, j3⟩ | ⟨hc, c', j1, j2, j3⟩
  · have : c.abs.alloc n = (false, c.abs) := if_pos hc
    rw [this, j1]
    have e1 : c'.a.used = c.a.used := congrArg Ctx.used j2
    have e2 : c'.a.cap = c.a.cap := congrArg Ctx.cap j2
    exact ⟨c', rfl, j2, ⟨fun i _ _ => by rw [j3], by omega, by omega, e2, congrArg Ctx.src j2, congrArg Ctx.flags j2⟩⟩
  · have : c.abs.alloc n = (true, { c.abs with used := c.a.used + n }) := if_neg (by show ¬ c.a.used + n > c.a.cap; omega)
    rw [this, j1]
    have e1 : c'.a.used = c.a.used + n := congrArg Ctx.used j2
    have e2 : c'.a.cap = c.a.cap := congrArg Ctx.cap j2
    refine ⟨c.a.used, c', rfl, j2, ⟨fun i hi _ => ?_, by omega, by omega, e2, congrArg Ctx.src j2, congrArg Ctx.flags j2⟩,
      fun i => c.a.used ≤ i ∧ i < c.a.used + n, fact_star_holds.2 ⟨by omega, ?_⟩, fun i hi => .inr hi.1, fun i hi => by omega⟩
    · rw [j3]; simp only [Arena.zero]; rw [if_neg (by omega)]
    · rw [j3]; exact zeros_zero _ _ _

theorem allocMust {n : Nat} (h0 : 0 < n) (hn : n < 2147483648) :
    Sim emp (P.allocMust n) (B.allocMust n) (fun _ a => fact (8 ≤ a ∧ a + n ≤ 32768) ∗ zeros a n) := by
  intro c S hf hA hS
  have h := alloc h0 hn c S hf hA hS
  unfold SimOut P.alloc at h
  unfold SimOut P.allocMust B.allocMust
  rcases hc : c.abs.alloc n with ⟨_ | _, d⟩ <;> rw [hc] at h <;> dsimp only at h ⊢
  · obtain ⟨c', h1, _⟩ := h
    rw [h1]
  · obtain ⟨x, c', h1, h2⟩ := h
    rw [h1]
    exact ⟨x, c', rfl, h2⟩

theorem allocRaw {n : Nat} (h0 : 0 < n) (hn : n < 2147483648) :
    Sim emp (P.alloc n) (B.allocRaw n) (fun _ a => Asrt.ex fun l => fact ((8 ≤ a ∧ a + n ≤ 32768) ∧ l.length = n) ∗ bytes a l) := by
  intro c S hf hA hS
  have hfc := hf
  obtain ⟨h1, h2, h3, _⟩ := hfc
  have hs := alloc_spec c.a n (by omega)
  unfold SimOut P.alloc B.allocRaw
  by_cases hc : c.a.used + n > c.a.cap
  · have : c.abs.alloc n = (false, c.abs) := if_pos hc
    rw [if_pos (Or.inr hc)] at hs
    rw [this, hs]
    exact ⟨_, rfl, rfl, ⟨fun i _ _ => rfl, Nat.le_refl _, h3, rfl, rfl, rfl⟩⟩
  · have : c.abs.alloc n = (true, { c.abs with used := c.a.used + n }) := if_neg hc
    rw [if_neg (by omega)] at hs
    rw [this, hs]
    dsimp only
    rw [u16_id (show c.a.used < 65536 by omega), if_neg (by omega)]
    refine ⟨c.a.used, _, rfl, rfl, ⟨fun i hi _ => rfl, by show c.a.used ≤ c.a.used + n; omega, by show c.a.used + n ≤ c.a.cap; omega, rfl, rfl, rfl⟩,
      fun i => c.a.used ≤ i ∧ i < c.a.used + n, ⟨(List.range n).map (fun j => c.a.mem (c.a.used + j)), fact_star_holds.2 ⟨⟨by omega, by simp⟩, ?_⟩⟩, fun i hi => .inr hi.1, fun i hi => hi.2⟩
    have := bytes_holds_of (a := c.a.used) (l := (List.range n).map (fun j => c.a.mem (c.a.used + j))) (m := c.a.mem) (fun j hj => by
      rw [List.length_map, List.length_range] at hj
      rw [List.getD_eq_getElem?_getD, List.getElem?_map, List.getElem?_range hj]
      rfl)
    rw [List.length_map, List.length_range] at this
    exact this

/-! ## strings -/
theorem _root_.Sip.Asrt.strAt_lt {x : Nat} {v : Bytes} {m S} (h : (strAt x v ∗ F).holds m S) : 10 ≤ x ∧ x + v.length ≤ 32768 := by
  obtain ⟨_, _, _, _, h, _⟩ := h
  exact ⟨h.1.1, h.1.2.1⟩

/-- the input and the options are the same afterwards -/
def Keep {α : Type} (c : Ctx) (v : Out (Option α × Ctx)) : Prop := ∀ r d, v = .ok (r, d) → d.src = c.src ∧ d.flags = c.flags

theorem keep_ok {α : Type} {c d : Ctx} {r : Option α} (h : d.src = c.src ∧ d.flags = c.flags) : Keep c (.ok (r, d)) := by
  intro r' d' e; cases e; exact h
theorem keep_panic {α : Type} {c : Ctx} : Keep (α := α) c .panic := by intro r d e; cases e
theorem keep_hang {α : Type} {c : Ctx} : Keep (α := α) c .hang := by intro r d e; cases e

theorem keep_str (s : CS) (c : Ctx) : Keep c (parseStr s c) := by
  unfold parseStr
  dsimp only
  repeat' split
  all_goals first | exact keep_ok ⟨rfl, rfl⟩ | exact keep_panic
theorem keep_strEnableEmpty (s : CS) (c : Ctx) : Keep c (parseStrEnableEmpty s c) := by
  unfold parseStrEnableEmpty
  dsimp only
  repeat' split
  all_goals first | exact keep_ok ⟨rfl, rfl⟩ | exact keep_panic
theorem keep_strFromPos (s : CS) (pos : Nat) (c : Ctx) : Keep c (parseStrFromPos s pos c) := by
  unfold parseStrFromPos
  dsimp only
  repeat' split
  all_goals first | exact keep_ok ⟨rfl, rfl⟩ | exact keep_panic
theorem keep_strEsc (s : CS) (c : Ctx) : Keep c (parseStrEscapable s c) := by
  unfold parseStrEscapable
  repeat' split
  all_goals first | exact keep_ok ⟨rfl, rfl⟩ | exact keep_panic
theorem keep_strEscEmpty (s : CS) (c : Ctx) : Keep c (parseStrEscapableEnableEmpty s c) := by
  unfold parseStrEscapableEnableEmpty
  repeat' split
  all_goals first | exact keep_ok ⟨rfl, rfl⟩ | exact keep_panic
theorem keep_tel (s : CS) (c : Ctx) : Keep c (parseTelNumber s c) := by
  unfold parseTelNumber
  dsimp only
  repeat' split
  all_goals first | exact keep_ok ⟨rfl, rfl⟩ | exact keep_panic
theorem keep_quotedLoop (fuel : Nat) : ∀ (c : Ctx) (n u : Nat) (out : Bytes), Keep c (quotedLoop fuel c n u out) := by
  induction fuel with
  | zero => intro c n u out; exact keep_hang
  | succ k ih =>
    intro c n u out
    unfold quotedLoop
    rcases c.src[n]? with _ | v
    · exact keep_ok ⟨rfl, rfl⟩
    dsimp only
    split
    · exact keep_ok ⟨rfl, rfl⟩
    split
    · rcases copyLWS c.src c.cap n u with ⟨ok, p, w, o⟩ | _ | _ <;> dsimp only
      · split
        · exact keep_ok ⟨rfl, rfl⟩
        · exact fun r d e => ih { c with pos := p, used := w } _ _ _ r d e
      · exact keep_panic
      · exact keep_hang
    split
    · split
      · exact keep_panic
      · exact ih _ _ _ _
    split
    · rcases c.src[n + 1]? with _ | w <;> dsimp only
      · exact keep_ok ⟨rfl, rfl⟩
      · split
        · exact keep_panic
        · exact ih _ _ _ _
    · exact keep_ok ⟨rfl, rfl⟩
theorem keep_quoted (fuel : Nat) (c : Ctx) : Keep c (parseQuoted fuel c) := by
  unfold parseQuoted
  dsimp only
  rcases c.src[parseSWS c.src c.pos]? with _ | v
  · exact keep_panic
  dsimp only
  split
  · exact keep_ok ⟨rfl, rfl⟩
  have := keep_quotedLoop fuel c (parseSWS c.src c.pos + 1) (c.used + 2) []
  rcases h : quotedLoop fuel c (parseSWS c.src c.pos + 1) (c.used + 2) [] with ⟨_ | ⟨a, b, o⟩, d⟩ | _ | _ <;> rw [h] at this <;> dsimp only
  · exact keep_ok (this _ _ rfl)
  · split
    · exact keep_panic
    · have := this _ _ rfl
      exact keep_ok this
  · exact keep_panic
  · exact keep_hang
theorem usedOk_parseQuoted (fuel : Nat) (c : Ctx) (hu : c.used ≤ c.cap) : UsedOk c (parseQuoted fuel c) := by
  intro r d hq
  unfold parseQuoted at hq
  simp only at hq
  split at hq
  · cases hq
  · split at hq
    · simp only [Out.ok.injEq, Prod.mk.injEq] at hq; obtain ⟨_, rfl⟩ := hq
      exact ⟨Nat.le_refl _, hu⟩
    · by_cases hroom : c.used + 2 ≤ c.cap
      · have hl := quotedLoop_used fuel c (parseSWS c.src c.pos + 1) (c.used + 2) [] c.used ⟨Nat.le_refl _, hu⟩ (by omega) hroom
        split at hq
        · cases hq
        · cases hq
        · rename_i heq
          simp only [Out.ok.injEq, Prod.mk.injEq] at hq; obtain ⟨_, rfl⟩ := hq
          exact ⟨(hl _ _ heq).1, (hl _ _ heq).2.1⟩
        · rename_i heq
          rw [if_neg (by omega)] at hq
          simp only [Out.ok.injEq, Prod.mk.injEq] at hq; obtain ⟨_, rfl⟩ := hq
          exact (hl _ _ heq).2.2 _ _ _ rfl
      · have hl := quotedLoop_noroom fuel c (parseSWS c.src c.pos + 1) (c.used + 2) (by omega) []
        split at hq
        · cases hq
        · cases hq
        · rename_i heq
          simp only [Out.ok.injEq, Prod.mk.injEq] at hq; obtain ⟨_, rfl⟩ := hq
          rw [hl _ _ heq]
          exact ⟨Nat.le_refl _, hu⟩
        · rename_i heq
          rw [if_pos (by omega)] at hq
          cases hq

/-- what `ofStr f` does from `c` -/
theorem ofRefinesAt {q : P Bytes} {f : BCtx → Out (Nat × Bool × BCtx)} (c : BCtx) (S : Nat → Prop) (hf : Fine c)
    (h : Refines c (q c.abs) (f c) ∧ UsedOk c.abs (q c.abs) ∧ Keep c.abs (q c.abs)) : SimOut c S (q c.abs) (B.ofStr f c) (fun v x => strAt x v) := by
  obtain ⟨h1, h2, h3⟩ := h
  obtain ⟨k1, k2, k3, k4⟩ := hf
  unfold SimOut B.ofStr
  rcases hq : q c.abs with ⟨_ | v, d⟩ | _ | _ <;> rw [hq] at h1 h2 h3 <;> dsimp only [Refines] at h1 ⊢
  · obtain ⟨c', j1, j2, j3⟩ := h1
    rw [j1]
    have := h2 _ _ rfl
    have e1 : c'.a.used = d.used := congrArg Ctx.used j2
    obtain ⟨e3, e4⟩ := h3 _ _ rfl
    exact ⟨c', rfl, j2, ⟨fun i hi _ => j3.1 i hi, by rw [e1]; exact this.1, by rw [e1]; exact this.2, j3.2,
      (congrArg Ctx.src j2).trans e3, (congrArg Ctx.flags j2).trans e4⟩⟩
  · obtain ⟨c', j1, j2, j3, j4, j5⟩ := h1
    rw [j1]
    have := h2 _ _ rfl
    have e1 : c'.a.used = d.used := congrArg Ctx.used j2
    have e2 : d.used ≤ c.a.cap := this.2
    obtain ⟨e3, e4⟩ := h3 _ _ rfl
    refine ⟨_, c', rfl, j2, ⟨fun i hi _ => j3.1 i hi, by rw [e1]; exact this.1, by rw [e1]; exact this.2, j3.2,
      (congrArg Ctx.src j2).trans e3, (congrArg Ctx.flags j2).trans e4⟩,
      fun i => c.a.used + 2 - 2 ≤ i ∧ i < c.a.used + 2 + v.length, ⟨⟨by omega, by omega, j4⟩, fun i => Iff.rfl⟩, fun i hi => .inr (by omega), fun i hi => by omega⟩
  · rw [h1]
  · rw [h1]

theorem str (s : CS) : Sim emp (P.str s) (B.str s) (fun v x => strAt x v) := fun c S hf _ _ =>
  ofRefinesAt c S hf ⟨store_parseStr s c (by have := hf.1; omega) hf.2.2.1, usedOk_parseStr s c.abs hf.2.2.1, keep_str s c.abs⟩
theorem strEsc (s : CS) : Sim emp (P.strEsc s) (B.strEsc s) (fun v x => strAt x v) := fun c S hf _ _ =>
  ofRefinesAt c S hf ⟨(store_parseStrEscapable s c (by have := hf.1; omega) hf.2.2.1).1, (usedOk_parseStrEsc s c.abs hf.2.2.1).1, keep_strEsc s c.abs⟩
theorem strEscEmpty (s : CS) : Sim emp (P.strEscEmpty s) (B.strEscEmpty s) (fun v x => strAt x v) := fun c S hf _ _ =>
  ofRefinesAt c S hf ⟨(store_parseStrEscapable s c (by have := hf.1; omega) hf.2.2.1).2, (usedOk_parseStrEsc s c.abs hf.2.2.1).2, keep_strEscEmpty s c.abs⟩
theorem tel (s : CS) : Sim emp (parseTelNumber s) (B.tel s) (fun v x => strAt x v) := fun c S hf _ _ =>
  ofRefinesAt c S hf ⟨store_parseTelNumber s c (by have := hf.1; omega) hf.2.2.1, usedOk_parseTel s c.abs hf.2.2.1, keep_tel s c.abs⟩
theorem quoted : Sim emp P.quoted B.quoted (fun v x => strAt x v) := fun c S hf _ _ =>
  ofRefinesAt (q := parseQuoted (c.src.length + 1)) (f := bParseQuoted (c.src.length + 1)) c S hf ⟨store_parseQuoted c (by have := hf.1; omega) hf.2.2.1 _, usedOk_parseQuoted _ c.abs hf.2.2.1, keep_quoted _ c.abs⟩

theorem allocStr_big {c : BCtx} (hf : Fine c) {S : Nat → Prop} {buf : Bytes} (hb : ¬ buf.length < 65536) (hbuf : buf.length < 2147483648) :
    SimOut c S (P.allocStr buf c.abs) (B.allocStr buf c) (fun v x => fact (v = buf) ∗ strAt x v) := by
  obtain ⟨h1, h2, h3, _⟩ := hf
  have hs := alloc_spec c.a (buf.length + 2) (by omega)
  rw [if_pos (by omega)] at hs
  have hl : u32 buf.length = buf.length := u32_id (by omega)
  have hl2 : u32 (buf.length + 2) = buf.length + 2 := u32_id (by omega)
  have hB : bAllocStr buf c = .ok (0, { c with a := c.a.countReq (buf.length + 2) }) := by
    unfold bAllocStr
    simp only [hl, hl2, hs, if_true]
  have hP : Sip.allocStr buf c.abs = (none, c.abs) := if_pos (by show c.a.used + _ > c.a.cap; omega)
  unfold SimOut P.allocStr B.allocStr
  rw [hB, hP]
  exact ⟨_, rfl, rfl, ⟨fun i _ _ => rfl, Nat.le_refl _, h3, rfl, rfl, rfl⟩⟩

theorem allocStr (buf : Bytes) (hbuf : buf.length < 2147483648) : Sim emp (P.allocStr buf) (B.allocStr buf) (fun v x => fact (v = buf) ∗ strAt x v) := by
  intro c S hf hA hS
  have hfc := hf
  obtain ⟨h1, h2, h3, _⟩ := hfc
  by_cases hb : buf.length < 65536
  · unfold SimOut P.allocStr B.allocStr
    obtain ⟨x, c', j1, j2, j3⟩ := store_allocStr c (by omega) h3 buf hb h2 (by omega)
    rw [j1]
    unfold Sip.allocStr at j3 ⊢
    by_cases hc : c.abs.used + (buf.length + 2) > c.abs.cap
    · rw [if_pos hc] at j3 ⊢
      dsimp only at j3 ⊢
      obtain ⟨rfl, j3⟩ := j3
      have e1 : c'.a.used = c.a.used := congrArg Ctx.used j3
      exact ⟨c', rfl, j3, ⟨fun i hi _ => j2.1 i hi, by omega, by omega, j2.2, congrArg Ctx.src j3, congrArg Ctx.flags j3⟩⟩
    · rw [if_neg hc] at j3 ⊢
      dsimp only at j3 ⊢
      obtain ⟨rfl, j3, j4⟩ := j3
      have e1 : c'.a.used = c.a.used + (buf.length + 2) := congrArg Ctx.used j3
      have hc' : ¬ c.a.used + (buf.length + 2) > c.a.cap := hc
      rw [if_neg (by omega)]
      exact ⟨_, c', rfl, j3, ⟨fun i hi _ => j2.1 i hi, by omega, by omega, j2.2, congrArg Ctx.src j3, congrArg Ctx.flags j3⟩,
        fun i => c.a.used + 2 - 2 ≤ i ∧ i < c.a.used + 2 + buf.length, fact_star_holds.2 ⟨rfl, ⟨by omega, by omega, j4⟩, fun i => Iff.rfl⟩,
        fun i hi => .inr (by omega), fun i hi => by omega⟩
  · exact allocStr_big hf hb hbuf

theorem getStr {x : Nat} {v : Bytes} {g : Bytes → B β} (k : Sim (strAt x v ∗ F) p (g v) R) : Sim (strAt x v ∗ F) p (B.getStr x >>= g) R := by
  intro c S hf hA hS
  have : (B.getStr x >>= g) c = g v c := by
    obtain ⟨S1, S2, k1, k2, k3, k4⟩ := hA
    show g (readStr c.a.mem x) c = g v c
    rw [k3.1.2.2]
  rw [this]
  exact k c S hf hA hS

/-- a change of the memory that `p` does not see -/
theorem modify {X Y : Asrt} {f : Mem → Mem} {b : B β} (hX : ∀ m S, X.holds m S → ∃ T, Y.holds (f m) T ∧ (∀ i, T i → S i) ∧ ∀ i, ¬ S i → f m i = m i)
    (k : Sim (Y ∗ F) p b R) : Sim (X ∗ F) p (fun c => b (c.setMem (f c.a.mem))) R := by
  rintro c S hf ⟨S1, S2, k1, k2, k3, k4⟩ hS
  obtain ⟨T, h1, h2, h3⟩ := hX _ _ k3
  have hf' : Fine (c.setMem (f c.a.mem)) := hf
  have := k (c.setMem (f c.a.mem)) (fun i => T i ∨ S2 i) hf' ⟨T, S2, fun _ => Iff.rfl, fun i hi => k2 i ⟨h2 i hi.1, hi.2⟩, h1,
    F.loc k4 (fun i hi => h3 i (fun h => k2 i ⟨h, hi⟩))⟩ (fun i hi => hS i ((k1 i).2 (hi.imp (h2 i) id)))
  unfold SimOut at this ⊢
  rw [show (c.setMem (f c.a.mem)).abs = c.abs from rfl] at this
  have hm : ∀ {c'}, HeapMoved (fun i => T i ∨ S2 i) (c.setMem (f c.a.mem)) c' → HeapMoved S c c' := fun h =>
    ⟨fun i hi hs => (h.mem i hi (fun hh => hs ((k1 i).2 (hh.imp (h2 i) id)))).trans (h3 i (fun hh => hs ((k1 i).2 (.inl hh)))), h.used, h.le, h.cap, h.src, h.flags⟩
  rcases hp : p c.abs with ⟨_ | w, d⟩ | _ | _ <;> rw [hp] at this <;> dsimp only at this ⊢
  · obtain ⟨c', j1, j2, j3⟩ := this; exact ⟨c', j1, j2, hm j3⟩
  · obtain ⟨x, c', j1, j2, j3, S', j4, j5, j6⟩ := this
    exact ⟨x, c', j1, j2, hm j3, S', j4, fun i hi => (j5 i hi).imp (fun hh => (k1 i).2 (hh.imp (h2 i) id)) id, j6⟩
  · exact this
  · exact this

theorem removeVisual {x : Nat} {v : Bytes} {g : Unit → B β} (k : Sim (strAt x (removeVisualSeparators v) ∗ F) p (g ()) R) :
    Sim (strAt x v ∗ F) p (B.removeVisual x >>= g) R := by
  refine modify (f := fun m => bRemoveVisual m x) (Y := strAt x (removeVisualSeparators v)) (b := g ()) (fun m S hX => ?_) k
  obtain ⟨⟨h1, h2, h3⟩, h4⟩ := hX
  have hl : strlen m x = v.length := by rw [← h3]; simp [readStr]
  have hk : (removeVisualSeparators v).length ≤ v.length := List.length_filter_le _ _
  obtain ⟨j1, j2⟩ := store_removeVisual m x (by omega)
  refine ⟨fun i => x - 2 ≤ i ∧ i < x + (removeVisualSeparators v).length, ⟨⟨h1, by omega, by rw [j1, h3]⟩, fun i => Iff.rfl⟩, fun i hi => (h4 i).2 (by omega), fun i hi => j2 i ?_⟩
  rw [h4] at hi
  omega

theorem copyTo {a n : Nat} {l l' : Bytes} {g : Unit → B β} (hn : l.length = n) (hl : l'.length = n) (k : Sim (bytes a l' ∗ F) p (g ()) R) :
    Sim (bytes a l ∗ F) p (B.copyTo a n l' >>= g) R := by
  refine modify (f := fun m i => if a ≤ i ∧ i < a + n ∧ i < a + l'.length then l'.getD (i - a) 0 else m i) (Y := bytes a l') (b := g ()) (fun m S hX => ?_) k
  obtain ⟨h1, h2⟩ := hX
  refine ⟨S, ⟨fun i => (h1 i).trans (by rw [hl, hn]), fun j hj => ?_⟩, fun _ h => h, fun i hi => ?_⟩
  · dsimp only
    rw [if_pos (by omega), Nat.add_sub_cancel_left]
  · rw [h1] at hi
    exact if_neg (by omega)

theorem zero {a n : Nat} {l : Bytes} {g : Unit → B β} (hn : l.length = n) (k : Sim (zeros a n ∗ F) p (g ()) R) : Sim (bytes a l ∗ F) p (B.zero a n >>= g) R := by
  refine modify (f := fun m => Arena.zero m a n) (Y := zeros a n) (b := g ()) (fun m S hX => ?_) k
  obtain ⟨h1, h2⟩ := hX
  refine ⟨fun i => a ≤ i ∧ i < a + n, zeros_zero m a n, fun i hi => (h1 i).2 (by omega), fun i hi => ?_⟩
  rw [h1] at hi
  simp only [Arena.zero]
  exact if_neg (by omega)

theorem put32 {a m n : Nat} {g : Unit → B β} (hn : n < 4294967296) (k : Sim (u32At a n ∗ F) p (g ()) R) : Sim (u32At a m ∗ F) p (B.put32 a n >>= g) R := by
  have h16 : putU16 = fun (m : Mem) (a v : Nat) => putU16 m a (v % 65536) := by
    funext m a v
    unfold putU16
    rw [show u16 (v % 65536) = u16 v by unfold u16; omega]
  have hb : B.put32 a n >>= g = B.put16 a (n % 65536) >>= fun _ => B.put16 (a + 2) (n / 65536) >>= g := by
    funext c
    show g () (c.setMem (putU16 (putU16 c.a.mem a n) (a + 2) (n / 65536))) = g () (c.setMem (putU16 (putU16 c.a.mem a (n % 65536)) (a + 2) (n / 65536)))
    rw [show putU16 c.a.mem a (n % 65536) = putU16 c.a.mem a n from (congrFun (congrFun (congrFun h16 c.a.mem) a) n).symm]
  rw [hb]
  unfold u32At
  refine pre_eq (star_assoc _ _ _) (fact_elim (fun hm => ?_))
  refine pre_eq (star_assoc _ _ _) (put16 (by omega) ?_)
  refine pre_eq (star_left_comm _ _ _) (put16 (by omega) ?_)
  refine pre_eq ?_ k
  unfold u32At
  rw [fact_true hn, emp_star, star_assoc, star_left_comm]

/-! ## loops -/
/-- the two loops go on together and stop together -/
def Both {σ τ ρ ω : Type} (I : σ → τ → Asrt) (R : ρ → ω → Asrt) : σ ⊕ ρ → τ ⊕ ω → Asrt
  | .inl s, .inl t => I s t
  | .inr v, .inr x => R v x
  | _, _ => fact False

theorem loop {σ τ ρ ω : Type} {I : σ → τ → Asrt} {R : ρ → ω → Asrt} {body : σ → P (σ ⊕ ρ)} {body' : τ → B (τ ⊕ ω)}
    (h : ∀ s t, Sim (I s t) (body s) (body' t) (Both I R)) (n : Nat) : ∀ s t, Sim (I s t) (P.loop body n s) (B.loop body' n t) R := by
  induction n with
  | zero => intro s t c S hf _ _; rfl
  | succ n ih =>
    intro s t
    refine bind (h s t) (fun v x => ?_)
    match v, x with
    | .inl s, .inl t => exact ih s t
    | .inr v, .inr x => exact ret (Ent.refl _)
    | .inl s, .inr x => intro c S hf hA; exact hA.1.elim
    | .inr v, .inl x => intro c S hf hA; exact hA.1.elim

theorem forLoop {σ τ ρ ω : Type} {I : σ → τ → Asrt} {R : ρ → ω → Asrt} {body : σ → P (σ ⊕ ρ)} {body' : τ → B (τ ⊕ ω)}
    (h : ∀ s t, Sim (I s t) (body s) (body' t) (Both I R)) (s : σ) (t : τ) : Sim (I s t) (P.forLoop body s) (B.forLoop body' t) R :=
  fun c S hf hA hS => loop h (c.src.length + 1) s t c S hf hA hS

theorem ite {φ : Prop} [Decidable φ] {p1 p2 : P α} {b1 b2 : B β} (h1 : φ → Sim A p1 b1 R) (h2 : ¬ φ → Sim A p2 b2 R) :
    Sim A (if φ then p1 else p2) (if φ then b1 else b2) R := by
  split
  · exact h1 ‹_›
  · exact h2 ‹_›
end Sim

/-! ## functions that do not touch the arena -/
theorem Dry.peek : Dry P.peek := by intro c r d h; cases h; exact ⟨rfl, rfl, rfl, rfl⟩
theorem Dry.get : Dry P.get := by intro c r d h; cases h; exact ⟨rfl, rfl, rfl, rfl⟩
theorem Dry.skip (n : Nat) : Dry (P.skip n) := by intro c r d h; cases h; exact ⟨rfl, rfl, rfl, rfl⟩
theorem Dry.sws : Dry P.sws := by
  intro c r d h; unfold P.sws at h; cases h
  unfold Ctx.sws
  repeat' split
  all_goals exact ⟨rfl, rfl, rfl, rfl⟩
theorem Dry.byteAt (k : Nat) : Dry (P.byteAt k) := by
  intro c r d h
  unfold P.byteAt at h
  split at h <;> cases h
  exact ⟨rfl, rfl, rfl, rfl⟩
theorem Dry.ret {α : Type} (a : α) : Dry (pure a : P α) := by intro c r d h; cases h; exact ⟨rfl, rfl, rfl, rfl⟩
theorem Dry.err {α : Type} : Dry (P.err : P α) := by intro c r d h; cases h; exact ⟨rfl, rfl, rfl, rfl⟩
theorem Dry.fail {α : Type} : Dry (P.fail : P α) := by intro c r d h; cases h; exact ⟨rfl, rfl, rfl, rfl⟩
theorem Dry.bind {α β : Type} {p : P α} {f : α → P β} (hp : Dry p) (hf : ∀ a, Dry (f a)) : Dry (p >>= f) := by
  intro c r d h
  rw [P.bind_apply] at h
  rcases e : p c with ⟨_ | v, d1⟩ | _ | _ <;> rw [e] at h <;> dsimp only at h
  · cases h; exact hp _ _ _ e
  · obtain ⟨h1, h2, h3, h4⟩ := hp _ _ _ e
    obtain ⟨k1, k2, k3, k4⟩ := hf v _ _ _ h
    exact ⟨k1.trans h1, k2.trans h2, k3.trans h3, k4.trans h4⟩
  · cases h
  · cases h
theorem Dry.orErr {α : Type} {p : P α} (hp : Dry p) : Dry (P.orErr p) := by
  intro c r d h
  unfold P.orErr at h
  rcases e : p c with ⟨_ | v, d1⟩ | _ | _ <;> rw [e] at h <;> dsimp only at h
  · cases h; have := hp _ _ _ e; exact this
  · cases h; exact hp _ _ _ e
  · cases h
  · cases h
theorem Dry.ite {α : Type} {φ : Prop} [Decidable φ] {p q : P α} (hp : Dry p) (hq : Dry q) : Dry (if φ then p else q) := by
  split
  · exact hp
  · exact hq
end Sip
