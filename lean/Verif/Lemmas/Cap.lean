import Verif.Model.Message
import Verif.Lemmas.Str
import Verif.Props.Index
/-!
# The size of the arena does not matter

A judgement for parsers: the result of a run is the same in every arena that has room for what the run has allocated at its end, plus `len + 40` bytes that
are needed in between.
-/
namespace Sip

/-- the context with another size of the arena -/
def Ctx.withCap (c : Ctx) (K : Nat) : Ctx := { c with cap := K }

@[simp] theorem Ctx.withCap_src (c : Ctx) (K : Nat) : (c.withCap K).src = c.src := by cases c; rfl
@[simp] theorem Ctx.withCap_pos (c : Ctx) (K : Nat) : (c.withCap K).pos = c.pos := by cases c; rfl
@[simp] theorem Ctx.withCap_used (c : Ctx) (K : Nat) : (c.withCap K).used = c.used := by cases c; rfl
@[simp] theorem Ctx.withCap_cap (c : Ctx) (K : Nat) : (c.withCap K).cap = K := by cases c; rfl
@[simp] theorem Ctx.withCap_rest (c : Ctx) (K : Nat) : (c.withCap K).rest = c.rest := by cases c; rfl
@[simp] theorem Ctx.withCap_cur (c : Ctx) (K : Nat) : (c.withCap K).cur? = c.cur? := by cases c; rfl
@[simp] theorem Ctx.withCap_flags (c : Ctx) (K : Nat) : (c.withCap K).flags = c.flags := by cases c; rfl

/-- a run that comes to an end keeps the input and the arena, does not free memory, and is the same in every other arena with room for it -/
def CapAt {α : Type} (p : P α) (c : Ctx) : Prop := ∀ r c', p c = .ok (r, c') →
  c'.src = c.src ∧ c.used ≤ c'.used ∧ c'.cap = c.cap ∧
  (c'.used + c.src.length + 40 ≤ c.cap → ∀ K, c'.used + c.src.length + 40 ≤ K → p (c.withCap K) = .ok (r, c'.withCap K))

/-- the same for every context -/
def CapAll {α : Type} (p : P α) : Prop := ∀ c, CapAt p c

theorem CapAt.bind {α β : Type} {p : P α} {f : α → P β} {c : Ctx} (hp : CapAt p c)
    (hf : ∀ a c1, p c = .ok (some a, c1) → c1.src = c.src → CapAt (f a) c1) : CapAt (p >>= f) c := by
  intro r c' e
  rcases hpc : p c with ⟨_ | a, c1⟩ | _ | _
  · rw [P.bind_none hpc] at e; cases e
    obtain ⟨a, b, d, g⟩ := hp _ _ hpc
    exact ⟨a, b, d, fun h K hK => P.bind_none (g h K hK)⟩
  · rw [P.bind_ok hpc] at e
    obtain ⟨x1, x2, x3, x4⟩ := hp _ _ hpc
    obtain ⟨y1, y2, y3, y4⟩ := hf a c1 hpc x1 _ _ e
    refine ⟨y1.trans x1, Nat.le_trans x2 y2, y3.trans x3, fun h K hK => ?_⟩
    rw [P.bind_ok (x4 (by omega) K (by omega))]
    exact y4 (by rw [x1, x3]; exact h) K (by rw [x1]; exact hK)
  · rw [P.bind_apply, hpc] at e; cases e
  · rw [P.bind_apply, hpc] at e; cases e

theorem CapAll.bind {α β : Type} {p : P α} {f : α → P β} (hp : CapAll p) (hf : ∀ a, CapAll (f a)) : CapAll (p >>= f) :=
  fun c => CapAt.bind (hp c) (fun a c1 _ _ => hf a c1)

theorem CapAll.ret {α : Type} (a : α) : CapAll (pure a : P α) := by
  intro c r c' e; cases e; exact ⟨rfl, Nat.le_refl _, rfl, fun _ _ _ => rfl⟩
theorem CapAll.fail {α : Type} : CapAll (P.fail : P α) := by
  intro c r c' e; cases e; exact ⟨rfl, Nat.le_refl _, rfl, fun _ _ _ => rfl⟩
theorem CapAll.err {α : Type} : CapAll (P.err : P α) := by
  intro c r c' e; cases e; exact ⟨rfl, Nat.le_refl _, rfl, fun _ _ _ => rfl⟩
theorem CapAll.panic {α : Type} : CapAll (P.panic : P α) := by intro c r c' e; cases e
theorem CapAll.skip (n : Nat) : CapAll (P.skip n) := by
  intro c r c' e; cases e; exact ⟨rfl, Nat.le_refl _, rfl, fun _ _ _ => rfl⟩
theorem CapAll.peek : CapAll P.peek := by
  intro c r c' e; cases e; exact ⟨rfl, Nat.le_refl _, rfl, fun _ _ _ => rfl⟩
theorem CapAll.orErr {α : Type} {p : P α} (hp : CapAll p) : CapAll (P.orErr p) := by
  intro c r c' e
  unfold P.orErr at e
  rcases hpc : p c with ⟨_ | a, c1⟩ | _ | _ <;> rw [hpc] at e <;> cases e
  · obtain ⟨a, b, d, g⟩ := hp c _ _ hpc
    refine ⟨a, b, d, fun h K hK => ?_⟩
    unfold P.orErr; rw [g h K hK]; rfl
  · obtain ⟨a, b, d, g⟩ := hp c _ _ hpc
    refine ⟨a, b, d, fun h K hK => ?_⟩
    unfold P.orErr; rw [g h K hK]
theorem CapAt.orErr {α : Type} {p : P α} {c : Ctx} (hp : CapAt p c) : CapAt (P.orErr p) c := by
  intro r c' e
  unfold P.orErr at e
  rcases hpc : p c with ⟨_ | a, c1⟩ | _ | _ <;> rw [hpc] at e <;> cases e
  · obtain ⟨a, b, d, g⟩ := hp _ _ hpc
    refine ⟨a, b, d, fun h K hK => ?_⟩
    unfold P.orErr; rw [g h K hK]; rfl
  · obtain ⟨a, b, d, g⟩ := hp _ _ hpc
    refine ⟨a, b, d, fun h K hK => ?_⟩
    unfold P.orErr; rw [g h K hK]

/-- reading the context: the continuation must not look at the size of the arena -/
theorem CapAt.get {β : Type} {f : Ctx → P β} {c : Ctx} (h : CapAt (f c) c) (hc : ∀ K, f (c.withCap K) = f c) : CapAt (P.get >>= f) c := by
  intro r c' e
  have e : f c c = .ok (r, c') := e
  obtain ⟨a, b, d, g⟩ := h _ _ e
  refine ⟨a, b, d, fun h K hK => ?_⟩
  show f (c.withCap K) (c.withCap K) = _
  rw [hc]; exact g h K hK
theorem CapAll.get {β : Type} {f : Ctx → P β} (h : ∀ c, CapAll (f c)) (hc : ∀ c K, f (c.withCap K) = f c) : CapAll (P.get >>= f) :=
  fun c => CapAt.get (h c c) (hc c)

/-- a parser that does not touch the arena or the input -/
theorem CapAll.of_pure {α : Type} {p : P α} (h1 : ∀ c r c', p c = .ok (r, c') → c'.src = c.src ∧ c'.used = c.used ∧ c'.cap = c.cap)
    (h2 : ∀ c r c' K, p c = .ok (r, c') → p (c.withCap K) = .ok (r, c'.withCap K)) : CapAll p := by
  intro c r c' e
  obtain ⟨a, b, d⟩ := h1 _ _ _ e
  exact ⟨a, by omega, d, fun _ K _ => h2 _ _ _ K e⟩

theorem CapAll.ofBool {f : Ctx → Bool × Ctx} (h1 : ∀ c, (f c).2.src = c.src ∧ (f c).2.used = c.used ∧ (f c).2.cap = c.cap)
    (h2 : ∀ c K, f (c.withCap K) = ((f c).1, (f c).2.withCap K)) : CapAll (P.ofBool f) := by
  refine CapAll.of_pure (fun c r c' e => ?_) (fun c r c' K e => ?_)
  · unfold P.ofBool at e
    have := h1 c
    rcases hf : f c with ⟨_ | _, d⟩ <;> rw [hf] at e this <;> cases e <;> exact this
  · unfold P.ofBool at *
    rw [h2]
    rcases hf : f c with ⟨_ | _, d⟩ <;> rw [hf] at e <;> cases e <;> rfl

theorem CapAll.ite {α : Type} {b : Prop} [Decidable b] {p q : P α} (hp : CapAll p) (hq : CapAll q) : CapAll (if b then p else q) := by
  split <;> assumption

theorem CapAll.alloc (n : Nat) (hn : n ≤ 40) : CapAll (P.alloc n) := by
  intro c r c' e
  unfold P.alloc Ctx.alloc at *
  by_cases h : c.used + n > c.cap
  · rw [if_pos h] at e; cases e
    exact ⟨rfl, Nat.le_refl _, rfl, fun h' => by omega⟩
  · rw [if_neg h] at e; cases e
    refine ⟨rfl, by dsimp only; omega, rfl, fun h' K hK => ?_⟩
    dsimp only at h' hK
    simp only [Ctx.withCap_used, Ctx.withCap_cap]
    rw [if_neg (by omega)]; rfl

theorem CapAll.allocMust (n : Nat) (hn : n ≤ 40) : CapAll (P.allocMust n) := by
  intro c r c' e
  unfold P.allocMust Ctx.alloc at *
  by_cases h : c.used + n > c.cap
  · rw [if_pos h] at e; cases e
  · rw [if_neg h] at e; cases e
    refine ⟨rfl, by dsimp only; omega, rfl, fun h' K hK => ?_⟩
    dsimp only at h' hK
    simp only [Ctx.withCap_used, Ctx.withCap_cap]
    rw [if_neg (by omega)]; rfl

theorem CapAt.allocStr (b : Bytes) (c : Ctx) (hb : b.length ≤ c.src.length) : CapAt (P.allocStr b) c := by
  intro r c' e
  unfold P.allocStr Sip.allocStr at *
  by_cases h : c.used + (b.length + 2) > c.cap
  · rw [if_pos h] at e; cases e
    exact ⟨rfl, Nat.le_refl _, rfl, fun h' => by omega⟩
  · rw [if_neg h] at e; cases e
    refine ⟨rfl, by dsimp only; omega, rfl, fun h' K hK => ?_⟩
    dsimp only at h' hK
    simp only [Ctx.withCap_used, Ctx.withCap_cap]
    rw [if_neg (by omega)]; rfl

theorem CapAt.allocStrAny (b : Bytes) (c : Ctx) (hb : b.length ≤ c.src.length) : CapAt (P.allocStrAny b) c := by
  intro r c' e
  unfold P.allocStrAny Sip.allocStr at *
  by_cases h : c.used + (b.length + 2) > c.cap
  · rw [if_pos h] at e; cases e
    exact ⟨rfl, Nat.le_refl _, rfl, fun h' => by omega⟩
  · rw [if_neg h] at e; cases e
    refine ⟨rfl, by dsimp only; omega, rfl, fun h' K hK => ?_⟩
    dsimp only at h' hK
    simp only [Ctx.withCap_used, Ctx.withCap_cap]
    rw [if_neg (by omega)]; rfl

/-- a parser that behaves the same in every arena with `len + 40` free bytes at its beginning -/
theorem CapAt.of_prim {α : Type} {p : P α} {c : Ctx}
    (h1 : ∀ r c', p c = .ok (r, c') → c'.src = c.src ∧ c.used ≤ c'.used ∧ c'.cap = c.cap)
    (h2 : c.used + c.src.length + 40 ≤ c.cap → ∀ K, c.used + c.src.length + 40 ≤ K → ∀ r c', p c = .ok (r, c') → p (c.withCap K) = .ok (r, c'.withCap K)) :
    CapAt p c := by
  intro r c' e
  obtain ⟨a, b, d⟩ := h1 _ _ e
  exact ⟨a, b, d, fun h K hK => h2 (by omega) K (by omega) _ _ e⟩

theorem takeWhile_len (f : UInt8 → Bool) (c : Ctx) : (c.rest.takeWhile f).length ≤ c.src.length := by
  have := (List.takeWhile_sublist f (l := c.rest)).length_le
  have : c.rest.length ≤ c.src.length := by unfold Ctx.rest; rw [List.length_drop]; omega
  omega

theorem takeWhile_drop_len (f : UInt8 → Bool) (s : Bytes) (n : Nat) : ((s.drop n).takeWhile f).length ≤ s.length - n := by
  have := (List.takeWhile_sublist f (l := s.drop n)).length_le
  rw [List.length_drop] at this; exact this

theorem CapAll.str (s : CS) : CapAll (P.str s) := by
  intro c
  have hl := takeWhile_len s.mem c
  refine CapAt.of_prim (fun r c' e => ?_) (fun h K hK r c' e => ?_)
  · unfold P.str parseStr at e; dsimp only at e
    repeat' split at e
    all_goals cases e
    all_goals refine ⟨rfl, ?_, rfl⟩
    all_goals first | exact Nat.le_refl _ | (dsimp only; omega)
  · unfold P.str parseStr at *; simp only [Ctx.withCap_rest, Ctx.withCap_used, Ctx.withCap_cap, Ctx.withCap_pos] at *
    rw [if_neg (by omega), if_neg (by omega)] at e ⊢
    split at e
    · rw [if_pos (by assumption)]; cases e; rfl
    · rw [if_neg (by assumption)]
      rw [if_neg (by omega)] at e ⊢
      cases e; rfl

theorem escLoop_bounds (s : CS) (cap : Nat) (r : Bytes) (p u : Nat) (out : Bytes) :
    ∀ p' u' o, escLoop s cap r p u out = .stop p' u' o → u ≤ u' ∧ u' ≤ u + r.length := by
  fun_induction escLoop s cap r p u out <;> intro p' u' o e
  all_goals try (cases e)
  all_goals try (simp only [List.length_cons, List.length_nil]; omega)
  all_goals (rename_i ih; have := ih _ _ _ e; simp only [List.length_cons]; omega)

theorem escLoop_cap (s : CS) (cap K : Nat) (r : Bytes) (p u : Nat) (out : Bytes) :
    u + r.length ≤ cap → u + r.length ≤ K → escLoop s cap r p u out = escLoop s K r p u out := by
  fun_induction escLoop s cap r p u out <;> intro h1 h2
  · rfl
  · simp only [List.length_cons] at h1; omega
  · rename_i ih
    simp only [List.length_cons] at h1 h2
    rw [escLoop_cons, if_pos (by assumption), if_neg (by omega)]
    exact ih (by omega) (by omega)
  · rw [escLoop_cons, if_neg (by assumption), if_pos (by assumption)]
  · rw [escLoop_cons, if_neg (by assumption), if_neg (by assumption)]; dsimp only; rw [if_pos (by assumption)]
  · simp only [List.length_cons] at h1; omega
  · rename_i ih
    simp only [List.length_cons] at h1 h2
    rw [escLoop_cons, if_neg (by assumption), if_neg (by assumption)]; dsimp only; rw [if_neg (by assumption), if_neg (by omega)]
    exact ih (by omega) (by omega)
  · rename_i h
    rw [escLoop_cons, if_neg (by assumption), if_neg (by assumption)]
    split
    · exact absurd rfl (h _ _ _)
    · rfl

theorem CapAll.strEsc (s : CS) : CapAll (P.strEsc s) := by
  intro c
  have hl : c.rest.length ≤ c.src.length := by unfold Ctx.rest; rw [List.length_drop]; omega
  refine CapAt.of_prim (fun r c' e => ?_) (fun h K hK r c' e => ?_)
  · unfold P.strEsc parseStrEscapable at e
    split at e
    · cases e; exact ⟨rfl, Nat.le_refl _, rfl⟩
    · split at e
      · cases e
      · cases e; exact ⟨rfl, Nat.le_refl _, rfl⟩
      · cases e; exact ⟨rfl, Nat.le_refl _, rfl⟩
      · rename_i hs
        have := (escLoop_bounds _ _ _ _ _ _ _ _ _ hs).1
        repeat' split at e
        all_goals cases e
        all_goals refine ⟨rfl, ?_, rfl⟩
        all_goals first | exact Nat.le_refl _ | (dsimp only; omega)
  · unfold P.strEsc parseStrEscapable at *; simp only [Ctx.withCap_rest, Ctx.withCap_used, Ctx.withCap_cap, Ctx.withCap_pos] at *
    rw [if_neg (by omega)] at e ⊢
    rw [escLoop_cap s c.cap K c.rest c.pos (c.used + 2) [] (by omega) (by omega)] at e
    split at e <;> rename_i hs
    · cases e
    · cases e; rfl
    · cases e; rfl
    · have := (escLoop_bounds _ _ _ _ _ _ _ _ _ hs).2
      split at e
      · rw [if_pos (by assumption)]; cases e; rfl
      · rw [if_neg (by assumption)]
        rw [if_neg (by omega)] at e ⊢
        cases e; rfl

theorem CapAll.strEscEmpty (s : CS) : CapAll (P.strEscEmpty s) := by
  intro c
  have hl : c.rest.length ≤ c.src.length := by unfold Ctx.rest; rw [List.length_drop]; omega
  refine CapAt.of_prim (fun r c' e => ?_) (fun h K hK r c' e => ?_)
  · unfold P.strEscEmpty parseStrEscapableEnableEmpty at e
    split at e
    · cases e; exact ⟨rfl, Nat.le_refl _, rfl⟩
    · split at e
      · cases e
      · cases e; exact ⟨rfl, Nat.le_refl _, rfl⟩
      · cases e; exact ⟨rfl, Nat.le_refl _, rfl⟩
      · rename_i hs
        have := (escLoop_bounds _ _ _ _ _ _ _ _ _ hs).1
        repeat' split at e
        all_goals cases e
        all_goals refine ⟨rfl, ?_, rfl⟩
        all_goals first | exact Nat.le_refl _ | (dsimp only; omega)
  · unfold P.strEscEmpty parseStrEscapableEnableEmpty at *; simp only [Ctx.withCap_rest, Ctx.withCap_used, Ctx.withCap_cap, Ctx.withCap_pos] at *
    rw [if_neg (by omega)] at e ⊢
    rw [escLoop_cap s c.cap K c.rest c.pos (c.used + 2) [] (by omega) (by omega)] at e
    split at e <;> rename_i hs
    · cases e
    · cases e; rfl
    · cases e; rfl
    · have := (escLoop_bounds _ _ _ _ _ _ _ _ _ hs).2
      rw [if_neg (by omega)] at e ⊢
      cases e; rfl

theorem CapAt.strFromPos (s : CS) (n : Nat) (c : Ctx) (hn : c.pos < n → n ≤ c.src.length) : CapAt (parseStrFromPos s n) c := by
  have hl := takeWhile_drop_len s.mem c.src (max c.pos n)
  refine CapAt.of_prim (fun r c' e => ?_) (fun h K hK r c' e => ?_)
  · unfold parseStrFromPos at e; dsimp only at e
    repeat' split at e
    all_goals cases e
    all_goals refine ⟨rfl, ?_, rfl⟩
    all_goals first | exact Nat.le_refl _ | (dsimp only; omega)
  · unfold parseStrFromPos at *
    simp only [Ctx.withCap_used, Ctx.withCap_cap, Ctx.withCap_pos, Ctx.withCap_src] at *
    rw [if_neg (by omega), if_neg (by omega), if_neg (by omega), if_neg (by omega)] at e ⊢
    split at e
    · rw [if_pos (by assumption)]; cases e; rfl
    · rw [if_neg (by assumption)]
      rw [if_neg (by omega)] at e ⊢
      cases e; rfl

theorem CapAll.telNumber (s : CS) : CapAll (parseTelNumber s) := by
  intro c
  refine CapAt.of_prim (fun r c' e => ?_) (fun h K hK r c' e => ?_)
  · unfold parseTelNumber at e; dsimp only at e
    repeat' split at e
    all_goals cases e
    all_goals refine ⟨rfl, ?_, rfl⟩
    all_goals first | exact Nat.le_refl _ | (dsimp only [Ctx.setPos, Ctx.addError]; omega)
  · unfold parseTelNumber at *
    simp only [Ctx.withCap_used, Ctx.withCap_cap, Ctx.withCap_pos, Ctx.withCap_src, Ctx.withCap_cur] at *
    have hp : (if c.cur? = some 0x2b then [(0x2b : UInt8)] else []).length ≤ 1 := by split <;> simp
    generalize hpl : (if c.cur? = some 0x2b then [(0x2b : UInt8)] else []) = plus at *
    have hl := takeWhile_drop_len s.mem c.src (c.pos + plus.length)
    have hf := List.length_filter_le (fun v => !isTelVisualSperator v) ((c.src.drop (c.pos + plus.length)).takeWhile s.mem)
    rw [if_neg (by omega), if_neg (by omega)] at e ⊢
    split at e
    · rw [if_pos (by assumption)]; cases e; rfl
    · rw [if_neg (by assumption)]
      rw [if_neg (by omega)] at e ⊢
      cases e; rfl

theorem copyLWS_cap (src : Bytes) (cap K pos used : Nat) (ok : Bool) (p u : Nat) (o : Bytes) (hc : used + (src.length - pos) + 1 ≤ cap)
    (hK : used + (src.length - pos) + 1 ≤ K) (hpos : pos ≤ src.length) (e : copyLWS src cap pos used = .ok (ok, p, u, o)) : copyLWS src K pos used = .ok (ok, p, u, o) := by
  unfold copyLWS at *
  have h1 := takeWhile_drop_len isSpHtab src pos
  have h2 := takeWhile_drop_len isSpHtab src (pos + ((src.drop pos).takeWhile isSpHtab).length + 2)
  dsimp only at *
  generalize (src.drop pos).takeWhile isSpHtab = run at *
  rw [if_neg (by omega)] at e ⊢
  split at e
  · rw [if_pos (by assumption)]; exact e
  · rw [if_neg (by assumption)]
    split at e
    · rename_i hh
      rw [if_pos hh]
      have hlt : pos + run.length + 1 < src.length := by
        have := hh.2
        rcases Nat.lt_or_ge (pos + run.length + 1) src.length with h | h
        · exact h
        · rw [List.getElem?_eq_none h] at this; cases this
      rw [if_neg (by omega)] at e ⊢
      split at e
      · rw [if_pos (by assumption)]; exact e
      · rw [if_neg (by assumption)]
        split at e
        · rw [if_pos (by assumption)]; exact e
        · rw [if_neg (by assumption)]
          rw [if_neg (by omega)] at e ⊢
          exact e
    · rw [if_neg (by assumption)]; exact e

theorem copyLWS_bounds (src : Bytes) (cap pos used : Nat) (ok : Bool) (p u : Nat) (o : Bytes) (hpos : pos ≤ src.length)
    (e : copyLWS src cap pos used = .ok (ok, p, u, o)) : used ≤ u ∧ u + (src.length - p) ≤ used + (src.length - pos) ∧ p ≤ src.length := by
  unfold copyLWS at *
  have h1 := takeWhile_drop_len isSpHtab src pos
  have h2 := takeWhile_drop_len isSpHtab src (pos + ((src.drop pos).takeWhile isSpHtab).length + 2)
  dsimp only at *
  generalize (src.drop pos).takeWhile isSpHtab = run at *
  split at e
  · cases e
  · split at e
    · cases e; omega
    · split at e
      · rename_i hh
        have hlt : pos + run.length + 1 < src.length := by
          have := hh.2
          rcases Nat.lt_or_ge (pos + run.length + 1) src.length with h | h
          · exact h
          · rw [List.getElem?_eq_none h] at this; cases this
        repeat' split at e
        all_goals cases e
        all_goals omega
      · cases e; omega

theorem quotedLoop_cap (K : Nat) (fuel : Nat) : ∀ (c : Ctx) (p u : Nat) (out : Bytes) (r) (d : Ctx), p ≤ c.src.length → c.used ≤ u →
    quotedLoop fuel c p u out = .ok (r, d) → d.src = c.src ∧ c.used ≤ d.used ∧ d.cap = c.cap ∧ (∀ p' u' o, r = some (p', u', o) → u ≤ u') ∧
      (u + (c.src.length - p) + 1 ≤ c.cap → u + (c.src.length - p) + 1 ≤ K → quotedLoop fuel (c.withCap K) p u out = .ok (r, d.withCap K)) := by
  induction fuel with
  | zero => intro c p u out r d _ _ e; cases e
  | succ n ih =>
    intro c p u out r d hp hu e
    unfold quotedLoop at e
    rw [quotedLoop]
    simp only [Ctx.withCap_src, Ctx.withCap_cap]
    cases hs : c.src[p]? with
    | none =>
      rw [hs] at e; cases e
      exact ⟨rfl, Nat.le_refl _, rfl, (by intro _ _ _ h; cases h), fun _ _ => rfl⟩
    | some v =>
      have hlt : p < c.src.length := by
        rcases Nat.lt_or_ge p c.src.length with h | h
        · exact h
        · rw [List.getElem?_eq_none h] at hs; cases hs
      rw [hs] at e; dsimp only at e ⊢
      by_cases h1 : v = 0x22
      · rw [if_pos h1] at e; cases e
        refine ⟨rfl, Nat.le_refl _, rfl, ?_, fun _ _ => by rw [if_pos h1]⟩
        intro _ _ _ h; cases h; exact Nat.le_refl _
      · rw [if_neg h1] at e ⊢
        by_cases h2 : isLwsChar v = true
        · rw [if_pos h2] at e ⊢
          rcases hl : copyLWS c.src c.cap p u with ⟨ok, p1, u1, o1⟩ | _ | _ <;> rw [hl] at e
          · have hb := copyLWS_bounds _ _ _ _ _ _ _ _ hp hl
            dsimp only at e
            by_cases hok : ok = true
            · rw [hok] at e
              simp only [Bool.not_true] at e
              rw [if_neg (by decide)] at e
              obtain ⟨a, b, g, x, y⟩ := ih _ _ _ _ _ _ (by simpa using hb.2.2) (by dsimp only; omega) e
              dsimp only at a b g y
              refine ⟨a, by omega, g, fun p' u' o h => by have := x p' u' o h; omega, fun k1 k2 => ?_⟩
              rw [copyLWS_cap _ _ K _ _ _ _ _ _ (by omega) (by omega) hp hl]
              dsimp only
              rw [hok]; simp only [Bool.not_true]
              rw [if_neg (by decide)]
              exact y (by omega) (by omega)
            · have hok : ok = false := by simpa using hok
              rw [hok] at e
              simp only [Bool.not_false, if_true] at e
              cases e
              refine ⟨rfl, by simp only [Ctx.addError]; omega, rfl, (by intro _ _ _ h; cases h), fun k1 k2 => ?_⟩
              rw [copyLWS_cap _ _ K _ _ _ _ _ _ (by omega) (by omega) hp hl]
              dsimp only
              rw [hok]; simp only [Bool.not_false, if_true]
              rfl
          · cases e
          · cases e
        · rw [if_neg h2] at e ⊢
          by_cases h3 : isSipQuotedText v = true
          · rw [if_pos h3] at e ⊢
            by_cases h4 : u ≥ c.cap
            · rw [if_pos h4] at e; cases e
            · rw [if_neg h4] at e
              obtain ⟨a, b, g, x, y⟩ := ih _ _ _ _ _ _ (by omega) (by omega) e
              refine ⟨a, b, g, fun p' u' o h => by have := x p' u' o h; omega, fun k1 k2 => ?_⟩
              rw [if_neg (by omega)]
              exact y (by omega) (by omega)
          · rw [if_neg h3] at e ⊢
            by_cases h4 : v = 0x5c
            · rw [if_pos h4] at e ⊢
              cases hw : c.src[p + 1]? with
              | none =>
                rw [hw] at e; cases e
                exact ⟨rfl, Nat.le_refl _, rfl, (by intro _ _ _ h; cases h), fun _ _ => rfl⟩
              | some w =>
                have hlt : p + 1 < c.src.length := by
                  rcases Nat.lt_or_ge (p + 1) c.src.length with h | h
                  · exact h
                  · rw [List.getElem?_eq_none h] at hw; cases hw
                rw [hw] at e; dsimp only at e ⊢
                by_cases h5 : u + 1 ≥ c.cap
                · rw [if_pos h5] at e; cases e
                · rw [if_neg h5] at e
                  obtain ⟨a, b, g, x, y⟩ := ih _ _ _ _ _ _ (by omega) (by omega) e
                  refine ⟨a, b, g, fun p' u' o h => by have := x p' u' o h; omega, fun k1 k2 => ?_⟩
                  rw [if_neg (by omega)]
                  exact y (by omega) (by omega)
            · rw [if_neg h4] at e ⊢; cases e
              exact ⟨rfl, Nat.le_refl _, rfl, (by intro _ _ _ h; cases h), fun _ _ => rfl⟩

theorem CapAll.quoted : CapAll P.quoted := by
  intro c
  have key : ∀ r c', P.quoted c = .ok (r, c') → c'.src = c.src ∧ c.used ≤ c'.used ∧ c'.cap = c.cap ∧
      (c.used + c.src.length + 40 ≤ c.cap → ∀ K, c.used + c.src.length + 40 ≤ K → P.quoted (c.withCap K) = .ok (r, c'.withCap K)) := by
    intro r c' e
    unfold P.quoted parseQuoted at *
    simp only [Ctx.withCap_src, Ctx.withCap_pos, Ctx.withCap_used, Ctx.withCap_cap]
    generalize parseSWS c.src c.pos = n at *
    cases hs : c.src[n]? with
    | none => dsimp only at e; rw [hs] at e; cases e
    | some v =>
      have hlt : n < c.src.length := by
        rcases Nat.lt_or_ge n c.src.length with h | h
        · exact h
        · rw [List.getElem?_eq_none h] at hs; cases hs
      dsimp only at e ⊢; rw [hs] at e; dsimp only at e ⊢
      by_cases h1 : v ≠ 0x22
      · rw [if_pos h1] at e; cases e
        exact ⟨rfl, Nat.le_refl _, rfl, fun _ _ _ => by rw [if_pos h1]; rfl⟩
      · rw [if_neg h1] at e
        rcases hq : quotedLoop (c.src.length + 1) c (n + 1) (c.used + 2) [] with ⟨r1, d⟩ | _ | _ <;> rw [hq] at e
        · have hk := fun K => quotedLoop_cap K _ _ _ _ _ _ _ (by omega) (by omega) hq
          obtain ⟨a, b, g, x, _⟩ := hk 0
          cases r1 with
          | none =>
            cases e
            refine ⟨a, b, g, fun k1 K k2 => ?_⟩
            rw [if_neg h1, (hk K).2.2.2.2 (by omega) (by omega)]
          | some z =>
            obtain ⟨p', u', o⟩ := z
            dsimp only at e
            split at e
            · cases e
            · cases e
              refine ⟨a, ?_, g, fun k1 K k2 => ?_⟩
              · have := x _ _ _ rfl; dsimp only; omega
              rw [if_neg h1, (hk K).2.2.2.2 (by omega) (by omega)]
              dsimp only
              rw [if_neg (by omega)]; rfl
        · cases e
        · cases e
  exact CapAt.of_prim (fun r c' e => ⟨(key r c' e).1, (key r c' e).2.1, (key r c' e).2.2.1⟩) (fun h K hK r c' e => (key r c' e).2.2.2 h K hK)

theorem Ctx.sws_withCap (c : Ctx) (K : Nat) : (c.withCap K).sws = c.sws.withCap K := by
  unfold Ctx.sws
  simp only [Ctx.withCap_src, Ctx.withCap_pos]
  repeat' split
  all_goals rfl
theorem Ctx.sws_fields (c : Ctx) : c.sws.src = c.src ∧ c.sws.used = c.used ∧ c.sws.cap = c.cap := by
  unfold Ctx.sws
  repeat' split
  all_goals exact ⟨rfl, rfl, rfl⟩

theorem CapAll.sws : CapAll P.sws := by
  refine CapAll.of_pure (fun c r c' e => ?_) (fun c r c' K e => ?_)
  · cases e; exact Ctx.sws_fields c
  · cases e; unfold P.sws; rw [Ctx.sws_withCap]

theorem CapAll.lws : CapAll P.lws := by
  refine CapAll.of_pure (fun c r c' e => ?_) (fun c r c' K e => ?_)
  · unfold P.lws at e; split at e <;> cases e <;> exact ⟨rfl, rfl, rfl⟩
  · unfold P.lws at *
    simp only [Ctx.withCap_src, Ctx.withCap_pos]
    split at e <;> cases e <;> rfl

theorem CapAll.skipRun (s : CS) : CapAll (P.skipRun s) := by
  refine CapAll.of_pure (fun c r c' e => ?_) (fun c r c' K e => ?_)
  · cases e; exact ⟨rfl, rfl, rfl⟩
  · cases e; rfl

theorem CapAll.orBack {α : Type} {p : P α} (hp : CapAll p) : CapAll (P.orBack p) := by
  intro c r c' e
  unfold P.orBack at *
  rcases hpc : p c with ⟨_ | a, c1⟩ | _ | _ <;> rw [hpc] at e <;> cases e
  · obtain ⟨a, b, d, g⟩ := hp c _ _ hpc
    exact ⟨a, b, d, fun h K hK => by rw [g h K hK]; rfl⟩
  · obtain ⟨a, b, d, g⟩ := hp c _ _ hpc
    exact ⟨a, b, d, fun h K hK => by rw [g h K hK]⟩

theorem CapAll.orElse {α : Type} {p q : P α} (hp : CapAll p) (hq : CapAll q) : CapAll (P.orElse p q) := by
  intro c r c' e
  unfold P.orElse at *
  rcases hpc : p c with ⟨_ | a, c1⟩ | _ | _ <;> rw [hpc] at e
  · obtain ⟨x1, x2, x3, x4⟩ := hp c _ _ hpc
    obtain ⟨y1, y2, y3, y4⟩ := hq _ _ _ e
    simp only [Ctx.setPos] at y1 y2 y3 y4
    refine ⟨y1.trans x1, by omega, y3.trans x3, fun h K hK => ?_⟩
    rw [x4 (by omega) K (by omega)]
    exact y4 (by rw [x1, x3]; exact h) K (by rw [x1]; exact hK)
  · cases e
    obtain ⟨a, b, d, g⟩ := hp c _ _ hpc
    exact ⟨a, b, d, fun h K hK => by rw [g h K hK]⟩
  · cases e
  · cases e

theorem CapAll.byteAt (k : Nat) : CapAll (P.byteAt k) := by
  refine CapAll.of_pure (fun c r c' e => ?_) (fun c r c' K e => ?_)
  · unfold P.byteAt at e; split at e <;> cases e; exact ⟨rfl, rfl, rfl⟩
  · unfold P.byteAt at *
    simp only [Ctx.withCap_src, Ctx.withCap_pos]
    split at e <;> cases e; rfl

theorem CapAll.mark (m : UInt8) : CapAll (P.mark m) := by
  refine CapAll.ofBool (fun c => ?_) (fun c K => ?_)
  · have := Ctx.sws_fields c
    have h2 := Ctx.sws_fields (c.sws.adv 1)
    unfold parseSWSMark; dsimp only
    repeat' split
    · exact this
    · exact this
    · exact ⟨h2.1.trans this.1, h2.2.1.trans this.2.1, h2.2.2.trans this.2.2⟩
  · unfold parseSWSMark; dsimp only
    rw [Ctx.sws_withCap]
    simp only [Ctx.withCap_src, Ctx.withCap_pos]
    repeat' split
    all_goals first | rfl | exact congrArg (Prod.mk true) (Ctx.sws_withCap (c.sws.adv 1) K)

theorem parseSWSMarkCanOmmit_cap (c : Ctx) (m : UInt8) : (parseSWSMarkCanOmmit c m).2.src = c.src ∧ (parseSWSMarkCanOmmit c m).2.used = c.used ∧ (parseSWSMarkCanOmmit c m).2.cap = c.cap ∧
    ∀ K, parseSWSMarkCanOmmit (c.withCap K) m = ((parseSWSMarkCanOmmit c m).1, (parseSWSMarkCanOmmit c m).2.withCap K) := by
  have h1 := Ctx.sws_fields c
  have h2 := Ctx.sws_fields (c.sws.adv 1)
  unfold parseSWSMarkCanOmmit; dsimp only
  simp only [Ctx.sws_withCap, Ctx.withCap_src, Ctx.withCap_pos]
  by_cases a : c.sws.pos ≥ c.sws.src.length
  · simp only [if_pos a]; exact ⟨h1.1, h1.2.1, h1.2.2, fun K => by first | rfl | trivial⟩
  · simp only [if_neg a]
    by_cases b : c.sws.src[c.sws.pos]? ≠ some m
    · simp only [if_pos b]; exact ⟨h1.1, h1.2.1, h1.2.2, fun K => by first | rfl | trivial⟩
    · simp only [if_neg b]
      exact ⟨h2.1.trans h1.1, h2.2.1.trans h1.2.1, h2.2.2.trans h1.2.2, fun K => congrArg (Prod.mk (true, true)) (Ctx.sws_withCap (c.sws.adv 1) K)⟩

theorem CapAll.markCanOmmit (m : UInt8) : CapAll (P.markCanOmmit m) := by
  have key := fun c => parseSWSMarkCanOmmit_cap c m
  refine CapAll.of_pure (fun c r c' e => ?_) (fun c r c' K e => ?_)
  · obtain ⟨a, b, d, -⟩ := key c
    unfold P.markCanOmmit at e
    split at e <;> rename_i h <;> cases e <;> rw [h] at a b d <;> exact ⟨a, b, d⟩
  · have g := (key c).2.2.2 K
    unfold P.markCanOmmit at *
    rw [g]
    split at e <;> rename_i h <;> cases e <;> rw [h]

theorem CapAll.hcolon : CapAll P.hcolon := by
  refine CapAll.ofBool (fun c => ?_) (fun c K => ?_)
  · have h2 := Ctx.sws_fields (c.setPos (skipWhile isWspChar c.src c.pos + 1))
    unfold parseHcolon; dsimp only
    repeat' split
    · exact ⟨rfl, rfl, rfl⟩
    · exact ⟨rfl, rfl, rfl⟩
    · exact h2
  · unfold parseHcolon; dsimp only
    simp only [Ctx.withCap_src, Ctx.withCap_pos]
    repeat' split
    all_goals first | rfl | exact congrArg (Prod.mk true) (Ctx.sws_withCap (c.setPos (skipWhile isWspChar c.src c.pos + 1)) K)

theorem CapAll.crlf : CapAll P.crlf := by
  refine CapAll.ofBool (fun c => ?_) (fun c K => ?_)
  · unfold parseCRLF; split <;> exact ⟨rfl, rfl, rfl⟩
  · unfold parseCRLF; simp only [Ctx.withCap_src, Ctx.withCap_pos]
    split <;> rfl

theorem CapAll.laquot : CapAll (P.ofBool parseLeftAngleQuote) := by
  refine CapAll.ofBool (fun c => ?_) (fun c K => ?_)
  · have := Ctx.sws_fields c
    unfold parseLeftAngleQuote; dsimp only
    repeat' split
    all_goals first | exact ⟨rfl, rfl, rfl⟩ | exact this
  · unfold parseLeftAngleQuote; dsimp only
    rw [Ctx.sws_withCap]
    simp only [Ctx.withCap_src, Ctx.withCap_pos]
    repeat' split
    all_goals rfl

theorem CapAll.raquot : CapAll (P.ofBool parseRightAngleQuote) := by
  refine CapAll.ofBool (fun c => ?_) (fun c K => ?_)
  · have := Ctx.sws_fields (c.adv 1)
    unfold parseRightAngleQuote
    repeat' split
    all_goals first | exact ⟨rfl, rfl, rfl⟩ | exact this
  · unfold parseRightAngleQuote
    simp only [Ctx.withCap_src, Ctx.withCap_pos]
    repeat' split
    all_goals first | rfl | exact congrArg (Prod.mk true) (Ctx.sws_withCap (c.adv 1) K)

theorem CapAll.uint : CapAll P.uint := by
  refine CapAll.of_pure (fun c r c' e => ?_) (fun c r c' K e => ?_)
  · unfold P.uint at e; dsimp only at e; split at e <;> cases e <;> exact ⟨rfl, rfl, rfl⟩
  · unfold P.uint at *; dsimp only at *
    simp only [Ctx.withCap_src, Ctx.withCap_pos]
    split at e
    · rw [if_pos (by assumption)]; cases e; rfl
    · rw [if_neg (by assumption)]; cases e; rfl

theorem CapAll.findCrlf : CapAll P.findCrlf := by
  refine CapAll.of_pure (fun c r c' e => ?_) (fun c r c' K e => ?_)
  · unfold P.findCrlf at e; split at e <;> cases e <;> exact ⟨rfl, rfl, rfl⟩
  · unfold P.findCrlf at *
    simp only [Ctx.withCap_rest, Ctx.withCap_src, Ctx.withCap_pos]
    split at e <;> cases e <;> rfl

theorem CapAll.headerIndex : CapAll P.headerIndex := by
  refine CapAll.of_pure (fun c r c' e => ?_) (fun c r c' K e => ?_)
  · unfold P.headerIndex at e; split at e <;> cases e; exact ⟨rfl, rfl, rfl⟩
  · unfold P.headerIndex at *
    simp only [Ctx.withCap_src, Ctx.withCap_pos]
    split at e <;> cases e; rfl

theorem CapAll.nextParamMark (m : UInt8) : CapAll (nextParamMark m) := by
  intro c r c' e
  unfold Sip.nextParamMark at *
  rcases hpc : P.markCanOmmit m c with ⟨_ | _ | _, c1⟩ | _ | _ <;> rw [hpc] at e <;> cases e
  all_goals
    obtain ⟨a, b, d, g⟩ := CapAll.markCanOmmit m c _ _ hpc
    exact ⟨a, b, d, fun h K hK => by rw [g h K hK]; first | done | rfl⟩

theorem CapAll.comma : CapAll P.comma := by
  intro c r c' e
  obtain ⟨a, b, d, g⟩ := parseSWSMarkCanOmmit_cap c 0x2c
  unfold P.comma at *
  rcases hm : parseSWSMarkCanOmmit c 0x2c with ⟨⟨_ | _, _ | _⟩, c1⟩ <;> rw [hm] at e a b d g <;> cases e <;>
    exact ⟨a, by simp only [Ctx.setPos] at *; omega, d, fun h K hK => by rw [g K]; first | done | rfl⟩

theorem CapAll.method : CapAll P.method := by
  intro c r c' e
  unfold P.method parseMethod at *
  simp only [Ctx.withCap_src, Ctx.withCap_pos]
  rcases hm : getSipMethodIndex c.src c.pos with ⟨i, n⟩ | _ | _
  · rw [hm] at e
    simp only [Out.ok_bind] at e ⊢
    split at e
    · rename_i hi
      simp only [if_pos hi]
      obtain ⟨i', k, hk1, hk2, -⟩ := method_index_returns c.src c.pos (by rw [hm]; simp)
      rw [hm] at hk1; cases hk1
      rw [List.length_drop] at hk2
      rcases hs : parseStrFromPos csSipToken (c.pos + k) c with ⟨r1, d⟩ | _ | _
      · rw [hs] at e
        obtain ⟨x1, x2, x3, x4⟩ := CapAt.strFromPos csSipToken (c.pos + k) c (by intro h; omega) _ _ hs
        simp only [Out.ok_bind] at e
        cases r1 with
        | none => cases e; exact ⟨x1, x2, x3, fun h K hK => by rw [x4 h K hK]; rfl⟩
        | some b => cases e; exact ⟨x1, x2, x3, fun h K hK => by rw [x4 h K hK]; rfl⟩
      · rw [hs] at e; cases e
      · rw [hs] at e; cases e
    · rename_i hi
      simp only [if_neg hi]
      cases e
      exact ⟨rfl, Nat.le_refl _, rfl, fun _ _ _ => rfl⟩
  · rw [hm] at e; cases e
  · rw [hm] at e; cases e

theorem CapAt.loop {σ ρ : Type} {body : σ → P (σ ⊕ ρ)} (L : Nat) (hb : ∀ s c, c.src.length = L → CapAt (body s) c) (n : Nat) :
    ∀ s c, c.src.length = L → CapAt (P.loop body n s) c := by
  induction n with
  | zero => intro s c _ r c' e; cases e
  | succ n ih =>
    intro s c hL
    refine CapAt.bind (hb s c hL) (fun a c1 h hs => ?_)
    cases a with
    | inl s' => exact ih s' c1 (by rw [hs]; exact hL)
    | inr r => exact CapAll.ret r c1

theorem CapAll.forLoop {σ ρ : Type} {body : σ → P (σ ⊕ ρ)} (hb : ∀ s, CapAll (body s)) (s : σ) : CapAll (P.forLoop body s) := by
  intro c r c' e
  obtain ⟨a, b, d, g⟩ := CapAt.loop c.src.length (fun s c _ => hb s c) (c.src.length + 1) s c rfl r c' e
  exact ⟨a, b, d, fun h K hK => g h K hK⟩

/-- `context.parsePos = n` -/
theorem CapAll.getSet {β : Type} {n : Ctx → Nat} {f : Ctx → Unit → P β} (h : ∀ c, CapAll (f c ())) (hn : ∀ c K, n (c.withCap K) = n c)
    (hf : ∀ c K, f (c.withCap K) () = f c ()) : CapAll (P.get >>= fun c => P.set (c.setPos (n c)) >>= f c) := by
  intro c r c' e
  have e : f c () (c.setPos (n c)) = .ok (r, c') := e
  obtain ⟨a, b, d, g⟩ := h c _ _ _ e
  refine ⟨a, b, d, fun h K hK => ?_⟩
  show f (c.withCap K) () ((c.withCap K).setPos (n (c.withCap K))) = _
  rw [hf, hn]; exact g h K hK

end Sip
