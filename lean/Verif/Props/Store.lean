import Verif.Model.ArenaStr
import Verif.Lemmas.Str
import Verif.Lemmas.Arena
import Verif.Props.Arena
/-!
# C06 (and C04): strings in the arena

The value layer (a pointer *is* the string) is a correct abstraction of the byte layer, for arenas of at most 65536 bytes: the same outcome,
the same position, the same memory mark, and the bytes read back through the returned pointer are the value.  What is below the old mark is
never changed, so strings stored earlier stay what they are.
-/
namespace Sip
attribute [local irreducible] u32 u16 roundToAlign

/-! ## writing bytes one after the other -/

/-- memory after the bytes `out` have been written at `u, u+1, …` -/
def storeBytes (m : Mem) (u : Nat) (out : Bytes) : Mem := fun i => if u ≤ i ∧ i < u + out.length then out.getD (i - u) 0 else m i

theorem storeBytes_nil (m : Mem) (u : Nat) : storeBytes m u [] = m := by
  funext i; simp only [storeBytes, List.length_nil]; rw [if_neg (by omega)]

theorem upd_storeBytes (m : Mem) (u : Nat) (out : Bytes) (v : UInt8) :
    upd (storeBytes m u out) (u + out.length) v = storeBytes m u (out ++ [v]) := by
  funext i
  simp only [upd, storeBytes, List.length_append, List.length_singleton]
  by_cases h : i = u + out.length
  · subst h
    rw [if_pos rfl, if_pos (by omega)]
    simp
  · rw [if_neg h]
    by_cases h2 : u ≤ i ∧ i < u + out.length
    · rw [if_pos h2, if_pos (by omega)]
      simp only [List.getD_eq_getElem?_getD]
      rw [List.getElem?_append_left (by omega)]
    · rw [if_neg h2, if_neg (by omega)]

theorem storeBytes_below (m : Mem) (u : Nat) (out : Bytes) (i : Nat) (h : i < u) : storeBytes m u out i = m i := by
  simp only [storeBytes]; rw [if_neg (by omega)]

theorem putU16_other (m : Mem) (i n j : Nat) (h : j ≠ i ∧ j ≠ i + 1) : putU16 m i n j = m j := by
  simp only [putU16, upd]; rw [if_neg h.2, if_neg h.1]

theorem strlen_putU16 (m : Mem) (u n : Nat) (h : n < 65536) : strlen (putU16 m u n) (u + 2) = n := by
  simp only [strlen, putU16, upd, u16_id h]
  rw [if_neg (by omega), if_neg (by omega), if_pos (by omega), if_pos (by omega)]
  simp only [UInt8.toNat_ofNat']
  omega

/-- reading a string depends only on the bytes of its block -/
theorem readStr_congr (m m' : Mem) (p : Nat) (hp : 2 ≤ p) (h : ∀ i, p - 2 ≤ i → i < p + strlen m p → m' i = m i) :
    strlen m' p = strlen m p ∧ readStr m' p = readStr m p := by
  have h1 : strlen m' p = strlen m p := by
    simp only [strlen]
    rw [if_neg (by omega), if_neg (by omega), h (p - 2) (by omega) (by omega), h (p - 1) (by omega) (by omega)]
  refine ⟨h1, ?_⟩
  simp only [readStr, h1]
  apply List.map_congr_left
  intro i hi
  rw [List.mem_range] at hi
  exact h _ (by omega) (by omega)

theorem readStr_store (m : Mem) (u : Nat) (out : Bytes) (h : out.length < 65536) :
    readStr (putU16 (storeBytes m (u + 2) out) u out.length) (u + 2) = out := by
  simp only [readStr, strlen_putU16 _ _ _ h]
  apply List.ext_getElem?
  intro i
  rw [List.getElem?_map]
  by_cases hi : i < out.length
  · rw [List.getElem?_range hi, Option.map_some, putU16_other _ _ _ _ (by omega)]
    simp only [storeBytes]
    rw [if_pos (by omega)]
    simp only [Nat.add_sub_cancel_left, List.getD_eq_getElem?_getD]
    rw [List.getElem?_eq_getElem hi]
    simp
  · rw [List.getElem?_eq_none (by simp; omega), List.getElem?_eq_none (by omega)]
    rfl

/-! ## the loops -/

theorem bRun_eq (s : CS) (cap : Nat) (hcap : cap ≤ 65536) (r : Bytes) (pos u : Nat) (m : Mem) (out : Bytes) :
    bRun s cap r pos (u + out.length) (storeBytes m u out) =
      if u + out.length + (r.takeWhile s.mem).length > cap ∧ r.takeWhile s.mem ≠ [] then .panic
      else .ok (pos + (r.takeWhile s.mem).length, u + out.length + (r.takeWhile s.mem).length, storeBytes m u (out ++ r.takeWhile s.mem)) := by
  induction r generalizing pos out with
  | nil => simp [bRun]
  | cons v r ih =>
    rw [bRun]
    by_cases hv : s.mem v = true
    · simp only [hv, Bool.not_true, Bool.false_eq_true, if_false, List.takeWhile_cons, if_true, List.length_cons]
      by_cases hc : u + out.length ≥ cap
      · rw [if_pos hc, if_pos ⟨by omega, by simp⟩]
      · rw [if_neg hc, upd_storeBytes, u32_id (by omega)]
        have := ih (pos + 1) (out ++ [v])
        simp only [List.length_append, List.length_singleton] at this
        rw [show u + out.length + 1 = u + (out.length + 1) by omega, this]
        by_cases h2 : u + (out.length + 1) + (r.takeWhile s.mem).length > cap ∧ r.takeWhile s.mem ≠ []
        · rw [if_pos h2, if_pos ⟨by omega, by simp⟩]
        · rw [if_neg h2, if_neg]
          · simp only [List.append_assoc, List.singleton_append, Out.ok.injEq, Prod.mk.injEq, and_true]
            omega
          · rintro ⟨h3, -⟩
            apply h2
            refine ⟨by omega, ?_⟩
            intro h4
            rw [h4] at h3; simp at h3; omega
    · simp only [hv, Bool.not_false, if_true, List.takeWhile_cons, Bool.false_eq_true, if_false]
      simp

theorem bCopy_eq (cap : Nat) (hcap : cap ≤ 65536) (n : Nat) (r : Bytes) (u : Nat) (m : Mem) (out : Bytes) (hu : u + out.length + n ≤ cap) :
    bCopy cap n r (u + out.length) (storeBytes m u out) =
      if r.length < n then .panic else .ok (u + out.length + n, storeBytes m u (out ++ r.take n)) := by
  induction n generalizing r out with
  | zero => simp [bCopy]
  | succ n ih =>
    cases r with
    | nil => simp [bCopy]
    | cons v r =>
      rw [bCopy, if_neg (by omega), upd_storeBytes, u32_id (by omega)]
      have := ih r (out ++ [v]) (by simp; omega)
      simp only [List.length_append, List.length_singleton] at this
      rw [show u + out.length + 1 = u + (out.length + 1) by omega, this]
      simp only [List.length_cons, Nat.add_lt_add_iff_right, List.take_succ_cons]
      split
      · rfl
      · congr 2
        · omega
        · simp

/-- the byte level scan corresponds to the value level scan -/
def ScanRel (m : Mem) (u : Nat) : Scan → BScan → Prop
  | .panic, .panic => True
  | .noMem p, .noMem p' m' => p' = p ∧ ∃ out, m' = storeBytes m u out
  | .bad p, .bad p' m' => p' = p ∧ ∃ out, m' = storeBytes m u out
  | .stop p w out, .stop p' w' m' => p' = p ∧ w' = w ∧ w = u + out.length ∧ m' = storeBytes m u out
  | _, _ => False

theorem bEsc_rel (s : CS) (cap : Nat) (hcap : cap ≤ 65536) (r : Bytes) (pos u : Nat) (m : Mem) (out : Bytes) :
    ScanRel m u (escLoop s cap r pos (u + out.length) out) (bEsc s cap r pos (u + out.length) (storeBytes m u out)) := by
  induction hn : r.length using Nat.strongRecOn generalizing r pos out with
  | ind n ih =>
    match r with
    | [] => rw [escLoop, bEsc]; exact ⟨rfl, rfl, rfl, rfl⟩
    | v :: r =>
      have hb : ∀ pos used m, bEsc s cap (v :: r) pos used m =
          if s.mem v then
            if used ≥ cap then .panic else bEsc s cap r (pos + 1) (u32 (used + 1)) (upd m used v)
          else if v ≠ 0x25 then .stop pos used m
          else match r with
            | v1 :: v2 :: r' =>
              if !isHex v1 || !isHex v2 then .bad pos m
              else if used ≥ cap then .noMem pos m
              else bEsc s cap r' (pos + 3) (u32 (used + 1)) (upd m used (unescapeByte v1 v2))
            | _ => .bad pos m := by
        intro pos used m
        match r with
        | [] => rfl
        | [_] => rfl
        | _ :: _ :: _ => rfl
      rw [escLoop_cons, hb]
      by_cases hv : s.mem v = true
      · rw [if_pos hv, if_pos hv]
        by_cases hc : u + out.length ≥ cap
        · rw [if_pos hc, if_pos hc]; trivial
        · rw [if_neg hc, if_neg hc, upd_storeBytes, u32_id (by omega)]
          have := ih r.length (by simp at hn; omega) r (pos + 1) (out ++ [v]) rfl
          simpa [Nat.add_assoc] using this
      · rw [if_neg hv, if_neg hv]
        by_cases h25 : v ≠ 0x25
        · rw [if_pos h25, if_pos h25]; exact ⟨rfl, rfl, rfl, rfl⟩
        · rw [if_neg h25, if_neg h25]
          match r with
          | [] => exact ⟨rfl, out, rfl⟩
          | [_] => exact ⟨rfl, out, rfl⟩
          | v1 :: v2 :: r' =>
            simp only
            split
            · exact ⟨rfl, out, rfl⟩
            · by_cases hc : u + out.length ≥ cap
              · rw [if_pos hc, if_pos hc]; exact ⟨rfl, out, rfl⟩
              · rw [if_neg hc, if_neg hc, upd_storeBytes, u32_id (by omega)]
                have := ih r'.length (by simp at hn; omega) r' (pos + 3) (out ++ [unescapeByte v1 v2]) rfl
                simpa [Nat.add_assoc] using this

theorem bTel_eq (s : CS) (cap : Nat) (hcap : cap ≤ 65536) (r : Bytes) (pos u num : Nat) (m : Mem) (out : Bytes) (hc : u + out.length ≤ cap) :
    bTel s cap r pos (u + out.length) num (storeBytes m u out) =
      let run := r.takeWhile s.mem
      let ds := run.filter fun v => !isTelVisualSperator v
      if u + out.length + ds.length > cap then .panic
      else .ok (pos + run.length, u + out.length + ds.length, num + ds.length, storeBytes m u (out ++ ds)) := by
  induction r generalizing pos out num with
  | nil => simp [bTel]; omega
  | cons v r ih =>
    rw [bTel]
    by_cases hv : s.mem v = true
    · simp only [hv, Bool.not_true, Bool.false_eq_true, if_false, List.takeWhile_cons, if_true, List.length_cons, List.filter_cons]
      by_cases hs : isTelVisualSperator v = true
      · simp only [hs, if_true, Bool.not_true, Bool.false_eq_true, if_false]
        rw [ih _ _ _ hc]
        simp only
        split
        · rfl
        · congr 2; omega
      · simp only [hs, Bool.false_eq_true, if_false, Bool.not_false, if_true, List.length_cons]
        by_cases hc2 : u + out.length ≥ cap
        · rw [if_pos hc2, if_pos (by omega)]
        · rw [if_neg hc2, upd_storeBytes, u32_id (by omega)]
          have := ih (pos + 1) (num + 1) (out ++ [v]) (by simp; omega)
          simp only [List.length_append, List.length_singleton] at this
          rw [show u + out.length + 1 = u + (out.length + 1) by omega, this]
          simp only [List.append_assoc, List.singleton_append]
          split
          · rw [if_pos (by omega)]
          · rw [if_neg (by omega)]
            congr 2
            · omega
            · congr 1
              · omega
              · congr 1; omega
    · simp only [hv, Bool.not_false, if_true, List.takeWhile_cons, Bool.false_eq_true, if_false]
      simp; omega

/-! ## refinement -/

/-- forget the bytes of the arena -/
def BCtx.abs (c : BCtx) : Ctx := { src := c.src, pos := c.pos, used := c.a.used, cap := c.a.cap, errs := c.errs, flags := c.flags }

@[simp] theorem BCtx.abs_setMem (c : BCtx) (m : Mem) : (c.setMem m).abs = c.abs := rfl

/-- nothing below the mark of `c` has changed, nor has the arena itself -/
def SameBelow (c b : BCtx) : Prop := (∀ i < c.a.used, b.a.mem i = c.a.mem i) ∧ b.a.cap = c.a.cap

/-- `o` (byte level) does what `v` (value level) says, starting from `c` -/
def Refines (c : BCtx) (v : Out (Option Bytes × Ctx)) (o : Out (Nat × Bool × BCtx)) : Prop :=
  match v with
  | .panic => o = .panic
  | .hang => o = .hang
  | .ok (none, d) => ∃ b, o = .ok (0, false, b) ∧ b.abs = d ∧ SameBelow c b
  | .ok (some x, d) => ∃ b, o = .ok (c.a.used + 2, true, b) ∧ b.abs = d ∧ SameBelow c b ∧ readStr b.a.mem (c.a.used + 2) = x ∧
      b.a.used = c.a.used + 2 + x.length

theorem finish_refines (c : BCtx) (hcap : c.a.cap ≤ 65536) (m : Mem) (out : Bytes) (p : Nat) (h : c.a.used + 2 + out.length < c.a.cap)
    (hm : m = storeBytes c.a.mem (c.a.used + 2) out) (d : Ctx)
    (hd : d = { c.abs with pos := p, used := c.a.used + 2 + out.length }) (addr : Nat) (ha : addr = c.a.used + 2) (used : Nat)
    (hu : used = c.a.used + 2 + out.length) :
    Refines c (.ok (some out, d)) (.ok (addr, true, c.finish m used p)) := by
  subst hm hd ha hu
  have hr := roundToAlign_one (c.a.used + 2 + out.length) (show c.a.used + 2 + out.length < 4294967296 by omega)
  have hn : u32 (c.a.used + 2 + out.length + 4294967296 - c.a.used - 2) = out.length := by simp only [u32]; omega
  have hf : c.finish (storeBytes c.a.mem (c.a.used + 2) out) (c.a.used + 2 + out.length) p =
      { c with pos := p, a := { c.a with
          mem := putU16 (storeBytes c.a.mem (c.a.used + 2) out) c.a.used out.length
          used := c.a.used + 2 + out.length
          stat := { c.a.stat with allocNum := u32 (c.a.stat.allocNum + 1), allocNumOk := u32 (c.a.stat.allocNumOk + 1), allocReqBytes := out.length } } } := by
    unfold BCtx.finish
    rw [hn, hr]
  rw [hf]
  refine ⟨_, rfl, rfl, ⟨fun i hi => ?_, rfl⟩, ?_, rfl⟩
  · show putU16 _ _ _ i = _
    rw [putU16_other _ _ _ _ (by omega), storeBytes_below _ _ _ _ (by omega)]
  · exact readStr_store _ _ _ (by omega)

theorem fail_refines (c : BCtx) (m : Mem) (out : Bytes) (hm : m = storeBytes c.a.mem (c.a.used + 2) out) (p q : Nat) (d : Ctx)
    (hd : d = { c.abs with pos := p, errs := q :: c.errs }) :
    Refines c (.ok (none, d)) (.ok (0, false, ((c.setMem m).setPos p).addError q)) := by
  subst hm hd
  refine ⟨_, rfl, rfl, ?_, rfl⟩
  intro i hi
  exact storeBytes_below _ _ _ _ (by omega)

theorem fail_refines0 (c : BCtx) (q : Nat) : Refines c (.ok (none, c.abs.addError q)) (.ok (0, false, c.addError q)) :=
  ⟨_, rfl, rfl, fun _ _ => rfl, rfl⟩

section
variable (s : CS) (c : BCtx) (hcap : c.a.cap ≤ 65536) (hused : c.a.used ≤ c.a.cap)
include hcap hused

/-- **C06** `ParseAndAllocCString` on bytes refines the value layer. -/
theorem store_parseStr : Refines c (parseStr s c.abs) (bParseStr s c) := by
  unfold parseStr bParseStr
  simp only [u32_id (show c.a.used + 2 < 4294967296 by omega)]
  by_cases h1 : c.a.used + 2 ≥ c.a.cap
  · rw [if_pos (show c.abs.used + 2 ≥ c.abs.cap from h1), if_pos h1]; exact fail_refines0 c _
  · rw [if_neg (show ¬ c.abs.used + 2 ≥ c.abs.cap from h1), if_neg h1]
    have h := bRun_eq s c.a.cap hcap (c.src.drop c.pos) c.pos (c.a.used + 2) c.a.mem []
    simp only [storeBytes_nil, List.length_nil, Nat.add_zero, List.nil_append] at h
    rw [h]
    have hr : c.abs.rest = c.src.drop c.pos := rfl
    rw [hr]
    generalize hrun : (c.src.drop c.pos).takeWhile s.mem = run
    simp only [show c.abs.used = c.a.used from rfl, show c.abs.cap = c.a.cap from rfl, show c.abs.pos = c.pos from rfl]
    by_cases h2 : c.a.used + 2 + run.length > c.a.cap
    · rw [if_pos h2, if_pos ⟨h2, by rintro rfl; simp at h2; omega⟩]; rfl
    · rw [if_neg h2, if_neg (show ¬ (_ ∧ run ≠ []) from fun h => h2 h.1)]
      simp only
      split
      · exact fail_refines c _ run rfl _ _ _ rfl
      · split
        · exact fail_refines c _ run rfl _ _ _ rfl
        · exact finish_refines c hcap _ run _ (by omega) rfl _ rfl _ (u16_id (by omega)) _ rfl

/-- **C06** `ParseAndAllocCStringEnableEmpty` -/
theorem store_parseStrEnableEmpty : Refines c (parseStrEnableEmpty s c.abs) (bParseStrEnableEmpty s c) := by
  unfold parseStrEnableEmpty bParseStrEnableEmpty
  simp only [u32_id (show c.a.used + 2 < 4294967296 by omega)]
  by_cases h1 : c.a.used + 2 ≥ c.a.cap
  · rw [if_pos (show c.abs.used + 2 ≥ c.abs.cap from h1), if_pos h1]; exact fail_refines0 c _
  · rw [if_neg (show ¬ c.abs.used + 2 ≥ c.abs.cap from h1), if_neg h1]
    have h := bRun_eq s c.a.cap hcap (c.src.drop c.pos) c.pos (c.a.used + 2) c.a.mem []
    simp only [storeBytes_nil, List.length_nil, Nat.add_zero, List.nil_append] at h
    rw [h]
    have hr : c.abs.rest = c.src.drop c.pos := rfl
    rw [hr]
    generalize hrun : (c.src.drop c.pos).takeWhile s.mem = run
    simp only [show c.abs.used = c.a.used from rfl, show c.abs.cap = c.a.cap from rfl, show c.abs.pos = c.pos from rfl]
    by_cases h2 : c.a.used + 2 + run.length > c.a.cap
    · rw [if_pos h2, if_pos ⟨h2, by rintro rfl; simp at h2; omega⟩]; rfl
    · rw [if_neg h2, if_neg (show ¬ (_ ∧ run ≠ []) from fun h => h2 h.1)]
      simp only
      split
      · exact fail_refines c _ run rfl _ _ _ rfl
      · exact finish_refines c hcap _ run _ (by omega) rfl _ rfl _ (u16_id (by omega)) _ rfl

/-- **C06** `ParseAndAllocCStringEscapable` and `ParseAndAllocCStringEscapableEnableEmpty` -/
theorem store_parseStrEscapable :
    Refines c (parseStrEscapable s c.abs) (bParseStrEsc false s c) ∧
    Refines c (parseStrEscapableEnableEmpty s c.abs) (bParseStrEsc true s c) := by
  unfold parseStrEscapable parseStrEscapableEnableEmpty bParseStrEsc
  simp only [u32_id (show c.a.used + 2 < 4294967296 by omega)]
  by_cases h1 : c.a.used + 2 ≥ c.a.cap
  · rw [if_pos (show c.abs.used + 2 ≥ c.abs.cap from h1), if_pos (show c.abs.used + 2 ≥ c.abs.cap from h1), if_pos h1, if_pos h1]
    exact ⟨fail_refines0 c _, fail_refines0 c _⟩
  · rw [if_neg (show ¬ c.abs.used + 2 ≥ c.abs.cap from h1), if_neg (show ¬ c.abs.used + 2 ≥ c.abs.cap from h1), if_neg h1, if_neg h1]
    have h := bEsc_rel s c.a.cap hcap (c.src.drop c.pos) c.pos (c.a.used + 2) c.a.mem []
    simp only [storeBytes_nil, List.length_nil, Nat.add_zero] at h
    rw [show c.abs.rest = c.src.drop c.pos from rfl, show c.abs.used = c.a.used from rfl, show c.abs.cap = c.a.cap from rfl,
      show c.abs.pos = c.pos from rfl]
    revert h
    generalize escLoop s c.a.cap (c.src.drop c.pos) c.pos (c.a.used + 2) [] = x
    generalize bEsc s c.a.cap (c.src.drop c.pos) c.pos (c.a.used + 2) c.a.mem = y
    intro h
    match x, y, h with
    | .panic, .panic, _ => exact ⟨rfl, rfl⟩
    | .noMem p, .noMem _ m', ⟨rfl, out, h2⟩ =>
      exact ⟨fail_refines c m' out h2 c.pos _ _ rfl, fail_refines c m' out h2 c.pos _ _ rfl⟩
    | .bad p, .bad _ m', ⟨rfl, out, h2⟩ => exact ⟨fail_refines c m' out h2 _ _ _ rfl, fail_refines c m' out h2 _ _ _ rfl⟩
    | .stop p w out, .stop _ _ m', ⟨rfl, rfl, hw, h2⟩ =>
      simp only [Bool.not_false, Bool.not_true, Bool.false_eq_true, false_and, if_false, true_and]
      constructor
      · by_cases hp : p ≤ c.pos
        · rw [if_pos hp, if_pos hp]; exact fail_refines c m' out h2 c.pos _ _ rfl
        · rw [if_neg hp, if_neg hp]
          by_cases hc : w ≥ c.a.cap
          · rw [if_pos hc, if_pos hc]; exact fail_refines c m' out h2 c.pos _ _ rfl
          · rw [if_neg hc, if_neg hc]
            exact finish_refines c hcap m' out p (by omega) h2 _ (by rw [hw]; rfl) _ (u16_id (by omega)) _ hw
      · by_cases hc : w ≥ c.a.cap
        · rw [if_pos hc, if_pos hc]; exact fail_refines c m' out h2 c.pos _ _ rfl
        · rw [if_neg hc, if_neg hc]
          exact finish_refines c hcap m' out p (by omega) h2 _ (by rw [hw]; rfl) _ (u16_id (by omega)) _ hw

/-- **C06** `ParseAndAllocCStringFromPos` -/
theorem store_parseStrFromPos (pos : Nat) (hpos : pos - c.pos + c.a.used + 2 < 4294967296) :
    Refines c (parseStrFromPos s pos c.abs) (bParseStrFromPos s pos c) := by
  unfold parseStrFromPos bParseStrFromPos
  simp only [u32_id (show c.a.used + 2 < 4294967296 by omega), u32_id (show pos - c.pos < 4294967296 by omega),
    u32_id (show pos - c.pos + (c.a.used + 2) < 4294967296 by omega)]
  simp only [show c.abs.pos = c.pos from rfl, show c.abs.used = c.a.used from rfl, show c.abs.cap = c.a.cap from rfl,
    show c.abs.src = c.src from rfl]
  by_cases h1 : c.pos < pos ∧ (pos - c.pos) + (c.a.used + 2) ≥ c.a.cap
  · rw [if_pos h1, if_pos h1]; exact fail_refines0 c _
  · rw [if_neg h1, if_neg h1]
    by_cases hnil : c.a.used + 2 > c.a.cap
    · -- no room even for the length: nothing is copied
      have hp : pos - c.pos = 0 := by omega
      have hp' : ¬ c.pos < pos := by omega
      rw [if_neg (by omega), hp, bCopy]
      simp only
      rw [if_pos (by omega), if_pos (by omega), show max c.pos pos = c.pos by omega]
      have := fail_refines c c.a.mem [] (storeBytes_nil _ _).symm c.pos c.pos _ rfl
      exact this
    have h := bCopy_eq c.a.cap hcap (pos - c.pos) (c.src.drop c.pos) (c.a.used + 2) c.a.mem [] (by simp; omega)
    simp only [storeBytes_nil, List.length_nil, Nat.add_zero, List.nil_append, List.length_drop] at h
    rw [h]
    by_cases h3 : c.pos < pos ∧ pos > c.src.length
    · rw [if_pos h3, if_pos (show c.src.length - c.pos < pos - c.pos by omega)]; rfl
    · rw [if_neg h3, if_neg (show ¬ c.src.length - c.pos < pos - c.pos by omega)]
      simp only
      have hmx : max c.pos pos - c.pos = pos - c.pos := by omega
      rw [hmx]
      generalize hst : max c.pos pos = start
      have hlen : ((c.src.drop c.pos).take (pos - c.pos)).length = pos - c.pos := by
        rw [List.length_take, List.length_drop]; omega
      generalize hz : (c.src.drop c.pos).take (pos - c.pos) = z
      rw [hz] at hlen
      rw [← hlen]
      by_cases h4 : c.a.used + 2 + z.length ≥ c.a.cap
      · rw [if_pos h4, if_pos h4]; exact fail_refines c _ z rfl _ _ _ rfl
      · rw [if_neg h4, if_neg h4]
        rw [bRun_eq s c.a.cap hcap (c.src.drop start) start (c.a.used + 2) c.a.mem z]
        generalize hrun : (c.src.drop start).takeWhile s.mem = run
        by_cases h5 : c.a.used + 2 + z.length + run.length > c.a.cap
        · rw [if_pos h5, if_pos ⟨h5, by rintro rfl; simp at h5; omega⟩]; rfl
        · rw [if_neg h5, if_neg (show ¬ (_ ∧ run ≠ []) from fun h => h5 h.1)]
          simp only
          split
          · exact fail_refines c _ (z ++ run) rfl _ _ _ rfl
          · split
            · exact fail_refines c _ (z ++ run) rfl _ _ _ rfl
            · exact finish_refines c hcap _ (z ++ run) _ (by simp; omega) rfl _ (by simp [BCtx.abs, Nat.add_assoc]) _ (u16_id (by omega)) _
                (by simp [Nat.add_assoc])

/-- **C06** `ParseAndAllocTelNumberRemoveVisualSeperator` -/
theorem store_parseTelNumber : Refines c (parseTelNumber s c.abs) (bParseTelNumber s c) := by
  unfold parseTelNumber bParseTelNumber
  simp only [u32_id (show c.a.used + 2 < 4294967296 by omega)]
  simp only [show c.abs.pos = c.pos from rfl, show c.abs.used = c.a.used from rfl, show c.abs.cap = c.a.cap from rfl,
    show c.abs.src = c.src from rfl, show c.abs.cur? = c.src[c.pos]? from rfl]
  by_cases h1 : c.a.used + 2 ≥ c.a.cap
  · rw [if_pos h1, if_pos h1]; exact fail_refines0 c _
  · rw [if_neg h1, if_neg h1]
    have key : ∀ plus : Bytes, plus.length ≤ 1 →
        Refines c
          (if c.a.used + 2 + plus.length + (((c.src.drop (c.pos + plus.length)).takeWhile s.mem).filter fun v => !isTelVisualSperator v).length > c.a.cap then .panic
           else if (((c.src.drop (c.pos + plus.length)).takeWhile s.mem).filter fun v => !isTelVisualSperator v).length = 0 then
             .ok (none, (c.abs.setPos (c.pos + plus.length + ((c.src.drop (c.pos + plus.length)).takeWhile s.mem).length)).addError
               (c.pos + plus.length + ((c.src.drop (c.pos + plus.length)).takeWhile s.mem).length))
           else if c.a.used + 2 + plus.length + (((c.src.drop (c.pos + plus.length)).takeWhile s.mem).filter fun v => !isTelVisualSperator v).length ≥ c.a.cap then
             .ok (none, (c.abs.setPos (c.pos + plus.length + ((c.src.drop (c.pos + plus.length)).takeWhile s.mem).length)).addError
               (c.pos + plus.length + ((c.src.drop (c.pos + plus.length)).takeWhile s.mem).length))
           else .ok (some (plus ++ ((c.src.drop (c.pos + plus.length)).takeWhile s.mem).filter fun v => !isTelVisualSperator v),
             { c.abs with pos := c.pos + plus.length + ((c.src.drop (c.pos + plus.length)).takeWhile s.mem).length,
                          used := c.a.used + 2 + plus.length + (((c.src.drop (c.pos + plus.length)).takeWhile s.mem).filter fun v => !isTelVisualSperator v).length }))
          (match bTel s c.a.cap (c.src.drop (c.pos + plus.length)) (c.pos + plus.length) (c.a.used + 2 + plus.length) 0 (storeBytes c.a.mem (c.a.used + 2) plus) with
           | .panic => .panic
           | .hang => .hang
           | .ok (newPos, used, num, m) =>
             if num = 0 then .ok (0, false, ((c.setMem m).setPos newPos).addError newPos) else
             if used ≥ c.a.cap then .ok (0, false, ((c.setMem m).setPos newPos).addError newPos) else
             .ok (u16 (c.a.used + 2), true, c.finish m used newPos)) := by
      intro plus hp
      rw [bTel_eq s c.a.cap hcap _ _ _ _ _ _ (by omega)]
      generalize (c.src.drop (c.pos + plus.length)).takeWhile s.mem = run
      simp only [Nat.zero_add]
      generalize run.filter (fun v => !isTelVisualSperator v) = ds
      by_cases h2 : c.a.used + 2 + plus.length + ds.length > c.a.cap
      · rw [if_pos h2, if_pos h2]; rfl
      · rw [if_neg h2, if_neg h2]
        simp only
        split
        · exact fail_refines c _ (plus ++ ds) rfl _ _ _ rfl
        · split
          · exact fail_refines c _ (plus ++ ds) rfl _ _ _ rfl
          · exact finish_refines c hcap _ (plus ++ ds) _ (by simp; omega) rfl _ (by simp [BCtx.abs, Nat.add_assoc]) _ (u16_id (by omega)) _
              (by simp [Nat.add_assoc])
    by_cases hpl : c.src[c.pos]? = some 0x2b
    · have := key [0x2b] (by simp)
      simp only [hpl, if_true]
      have hu := upd_storeBytes c.a.mem (c.a.used + 2) [] 0x2b
      simp only [storeBytes_nil, List.length_nil, Nat.add_zero, List.nil_append] at hu
      rw [hu, u32_id (show c.a.used + 2 + 1 < 4294967296 by omega)]
      exact this
    · have := key [] (by simp)
      simp only [hpl, if_false]
      simp only [storeBytes_nil] at this
      exact this

/-- **C06** `AllocCString`: succeeds iff the `length + 2` bytes fit, and then the string reads back. -/
theorem store_allocStr (buf : Bytes) (hbuf : buf.length < 65536) (h8 : 8 ≤ c.a.used) (hcap' : c.a.cap < 65536) :
    ∃ p b, bAllocStr buf c = .ok (p, b) ∧ SameBelow c b ∧
      match allocStr buf c.abs with
      | (none, d) => p = 0 ∧ b.abs = d
      | (some x, d) => p = c.a.used + 2 ∧ b.abs = d ∧ readStr b.a.mem p = x := by
  unfold bAllocStr allocStr
  have hl : u32 buf.length = buf.length := u32_id (by omega)
  have hl2 : u32 (buf.length + 2) = buf.length + 2 := u32_id (by omega)
  have ha := alloc_spec c.a (buf.length + 2) (by omega)
  simp only [hl, hl2, show c.abs.used = c.a.used from rfl, show c.abs.cap = c.a.cap from rfl]
  by_cases h : c.a.used + (buf.length + 2) > c.a.cap
  · rw [if_pos (Or.inr h)] at ha
    rw [ha, if_pos h]
    simp only [if_true]
    exact ⟨0, _, rfl, ⟨fun _ _ => rfl, rfl⟩, rfl, rfl⟩
  · rw [if_neg (by omega), u16_id (show c.a.used < 65536 by omega)] at ha
    generalize hal : c.a.alloc (buf.length + 2) = r at ha
    have hc : r.1.cap = c.a.cap := by rw [ha]; rfl
    have hm : r.1.mem = c.a.mem := by rw [ha]; rfl
    have hus : r.1.used = c.a.used + (buf.length + 2) := by rw [ha]
    have hp : r.2 = c.a.used := by rw [ha]
    clear ha hal
    obtain ⟨ra, rp⟩ := r
    obtain ⟨rau, ras, ram, rac⟩ := ra
    simp only at hc hm hus hp
    subst hp hm hc hus
    rw [if_neg h]
    simp only
    rw [if_neg (by omega), u16_id (show c.a.used + 2 < 65536 by omega), u16_id (show buf.length < 65536 from hbuf),
      if_neg (by omega), if_neg (by omega)]
    have hmem : (fun i => if c.a.used + 2 ≤ i ∧ i < c.a.used + 2 + buf.length ∧ i < c.a.cap then buf.getD (i - (c.a.used + 2)) 0 else c.a.mem i) =
        storeBytes c.a.mem (c.a.used + 2) buf := by
      funext i
      simp only [storeBytes]
      by_cases hi : c.a.used + 2 ≤ i ∧ i < c.a.used + 2 + buf.length
      · rw [if_pos hi, if_pos ⟨hi.1, hi.2, by omega⟩]
      · rw [if_neg hi, if_neg (fun h => hi ⟨h.1, h.2.1⟩)]
    rw [hmem]
    refine ⟨_, _, rfl, ?_⟩
    refine ⟨⟨?_, rfl⟩, rfl, rfl, readStr_store c.a.mem c.a.used buf hbuf⟩
    intro i hi
    show putU16 _ _ _ i = _
    rw [putU16_other _ _ _ _ (by omega), storeBytes_below _ _ _ _ (by omega)]

end

/-! ## quoted strings -/

theorem bSpRun_eq (cap : Nat) (hcap : cap ≤ 65536) (r : Bytes) (pos u : Nat) (m : Mem) (out : Bytes) :
    bSpRun cap r pos (u + out.length) (storeBytes m u out) =
      if u + out.length + (r.takeWhile isSpHtab).length > cap ∧ r.takeWhile isSpHtab ≠ [] then .panic
      else .ok (pos + (r.takeWhile isSpHtab).length, u + out.length + (r.takeWhile isSpHtab).length,
        storeBytes m u (out ++ r.takeWhile isSpHtab)) := by
  induction r generalizing pos out with
  | nil => simp [bSpRun]
  | cons v r ih =>
    rw [bSpRun]
    by_cases hv : isSpHtab v = true
    · simp only [hv, Bool.not_true, Bool.false_eq_true, if_false, List.takeWhile_cons, if_true, List.length_cons]
      by_cases hc : u + out.length ≥ cap
      · rw [if_pos hc, if_pos ⟨by omega, by simp⟩]
      · rw [if_neg hc, upd_storeBytes, u32_id (by omega)]
        have := ih (pos + 1) (out ++ [v])
        simp only [List.length_append, List.length_singleton] at this
        rw [show u + out.length + 1 = u + (out.length + 1) by omega, this]
        by_cases h2 : u + (out.length + 1) + (r.takeWhile isSpHtab).length > cap ∧ r.takeWhile isSpHtab ≠ []
        · rw [if_pos h2, if_pos ⟨by omega, by simp⟩]
        · rw [if_neg h2, if_neg]
          · simp only [List.append_assoc, List.singleton_append, Out.ok.injEq, Prod.mk.injEq, and_true]
            omega
          · rintro ⟨h3, -⟩
            apply h2
            refine ⟨by omega, ?_⟩
            intro h4
            rw [h4] at h3; simp at h3; omega
    · simp only [hv, Bool.not_false, if_true, List.takeWhile_cons, Bool.false_eq_true, if_false]
      simp

theorem bCopyLWS_eq (src : Bytes) (cap : Nat) (hcap : cap ≤ 65536) (pos u : Nat) (m : Mem) (out : Bytes) :
    bCopyLWS src cap pos (u + out.length) (storeBytes m u out) =
      match copyLWS src cap pos (u + out.length) with
      | .panic => .panic
      | .hang => .hang
      | .ok (ok, p, w, o) => .ok (ok, p, w, storeBytes m u (out ++ o)) := by
  unfold bCopyLWS copyLWS
  rw [bSpRun_eq cap hcap]
  generalize (src.drop pos).takeWhile isSpHtab = run
  simp only
  by_cases h1 : u + out.length + run.length > cap ∧ run ≠ []
  · rw [if_pos h1, if_pos h1]
  · rw [if_neg h1, if_neg h1]
    simp only
    split
    · rfl
    · split
      · split
        · rfl
        · rename_i h4
          rw [u32_id (show u + out.length + run.length + 2 < 4294967296 by omega)]
          have hm : upd (upd (storeBytes m u (out ++ run)) (u + out.length + run.length) 0x0d) (u + out.length + run.length + 1) 0x0d =
              storeBytes m u (out ++ (run ++ [0x0d, 0x0d])) := by
            have e1 := upd_storeBytes m u (out ++ run) 0x0d
            have e2 := upd_storeBytes m u (out ++ run ++ [0x0d]) 0x0d
            simp only [List.length_append, List.length_singleton] at e1 e2
            rw [← Nat.add_assoc] at e1
            rw [← Nat.add_assoc, ← Nat.add_assoc] at e2
            rw [e1, e2]; simp
          rw [hm]
          split
          · rfl
          · split
            · rfl
            · have e3 := bSpRun_eq cap hcap (src.drop (pos + run.length + 2)) (pos + run.length + 2) u m (out ++ (run ++ [0x0d, 0x0d]))
              simp only [List.length_append, List.length_cons, List.length_nil, Nat.zero_add, Nat.reduceAdd] at e3
              rw [← Nat.add_assoc, ← Nat.add_assoc] at e3
              rw [e3]
              generalize hr2 : (src.drop (pos + run.length + 2)).takeWhile isSpHtab = run2
              by_cases h5 : u + out.length + run.length + 2 + run2.length > cap
              · rw [if_pos h5]
                by_cases h6 : run2 = []
                · subst h6; simp at h5; omega
                · rw [if_pos ⟨h5, h6⟩]
              · rw [if_neg h5, if_neg (fun h => h5 h.1)]
                simp
      · rfl

theorem copyLWS_used (src : Bytes) (cap pos used : Nat) (ok : Bool) (p w : Nat) (o : Bytes)
    (h : copyLWS src cap pos used = .ok (ok, p, w, o)) : w = used + o.length := by
  unfold copyLWS at h
  simp only at h
  repeat' split at h
  all_goals first
    | (cases h; done)
    | (simp only [Out.ok.injEq, Prod.mk.injEq] at h; obtain ⟨_, _, rfl, rfl⟩ := h; simp <;> omega)

theorem copyLWS_le (src : Bytes) (cap pos used : Nat) (ok : Bool) (p w : Nat) (o : Bytes)
    (h : copyLWS src cap pos used = .ok (ok, p, w, o)) : w ≤ cap ∨ o = [] := by
  unfold copyLWS at h
  generalize (src.drop pos).takeWhile isSpHtab = run at h
  simp only at h
  by_cases h1 : used + run.length > cap ∧ run ≠ []
  · rw [if_pos h1] at h; cases h
  · rw [if_neg h1] at h
    have h1' : used + run.length ≤ cap ∨ run = [] := by
      by_cases hr : run = []
      · exact Or.inr hr
      · left
        have : ¬ (used + run.length > cap) := fun hh => h1 ⟨hh, hr⟩
        omega
    repeat' split at h
    all_goals first
      | (cases h; done)
      | (simp only [Out.ok.injEq, Prod.mk.injEq] at h; obtain ⟨_, _, rfl, rfl⟩ := h; exact h1')
      | (simp only [Out.ok.injEq, Prod.mk.injEq] at h; obtain ⟨_, _, rfl, rfl⟩ := h; left; omega)

/-- byte level quoted-string loop vs value level: same outcome, and memory is the old one with the bytes `out` appended -/
def QRel (c0 : BCtx) (m : Mem) (u : Nat) : Out (Option (Nat × Nat × Bytes) × Ctx) → Out (Option (Nat × Nat) × BCtx) → Prop
  | .panic, .panic => True
  | .hang, .hang => True
  | .ok (none, d), .ok (none, b) => b.abs = d ∧ (∃ out, b.a.mem = storeBytes m u out) ∧ b.a.cap = c0.a.cap
  | .ok (some (p, w, out), d), .ok (some (p', w'), b) =>
    p' = p ∧ w' = w ∧ w = u + out.length ∧ b.abs = d ∧ b.a.mem = storeBytes m u out ∧ b.a.cap = c0.a.cap ∧ (w ≤ c0.a.cap ∨ out = [])
  | _, _ => False

theorem bQuotedLoop_rel (c0 : BCtx) (hcap : c0.a.cap ≤ 65536) (m : Mem) (u : Nat) (fuel : Nat) (c : BCtx) (hc : c.a.cap = c0.a.cap)
    (newPos : Nat) (out : Bytes) (hm : c.a.mem = storeBytes m u out)
    (hle : u + out.length ≤ c0.a.cap ∨ out = []) :
    QRel c0 m u (quotedLoop fuel c.abs newPos (u + out.length) out) (bQuotedLoop fuel c newPos (u + out.length)) := by
  induction fuel generalizing c newPos out with
  | zero => exact trivial
  | succ fuel ih =>
    rw [quotedLoop, bQuotedLoop]
    rw [show c.abs.src = c.src from rfl]
    cases hs : c.src[newPos]? with
    | none => exact ⟨rfl, ⟨out, hm⟩, hc⟩
    | some v =>
      simp only
      by_cases h1 : v = 0x22
      · rw [if_pos h1, if_pos h1]; exact ⟨rfl, rfl, rfl, rfl, hm, hc, hle⟩
      · rw [if_neg h1, if_neg h1]
        by_cases h2 : isLwsChar v = true
        · rw [if_pos h2, if_pos h2, hm, show c.abs.cap = c.a.cap from rfl, bCopyLWS_eq _ _ (by omega)]
          cases hcl : copyLWS c.src c.a.cap newPos (u + out.length) with
          | panic => exact trivial
          | hang => exact trivial
          | ok r =>
            obtain ⟨ok, p, w, o⟩ := r
            have hw := copyLWS_used _ _ _ _ _ _ _ _ hcl
            simp only
            cases ok with
            | false => exact ⟨rfl, ⟨out ++ o, rfl⟩, hc⟩
            | true =>
              simp only [Bool.not_true, Bool.false_eq_true, if_false]
              have hle2 : w ≤ c0.a.cap ∨ out ++ o = [] := by
                rcases copyLWS_le _ _ _ _ _ _ _ _ hcl with e | e
                · left; omega
                · subst e
                  rcases hle with hle | hle
                  · left; rw [hw]; simpa using hle
                  · right; simp [hle]
              have := ih { c with pos := p, a := { c.a with used := w, mem := storeBytes m u (out ++ o) } } hc p (out ++ o) rfl
                  (by rw [List.length_append, ← Nat.add_assoc, ← hw]; exact hle2)
              have e : u + (out ++ o).length = w := by simp; omega
              rw [e] at this
              exact this
        · rw [if_neg h2, if_neg h2]
          by_cases h3 : isSipQuotedText v = true
          · rw [if_pos h3, if_pos h3, show c.abs.cap = c.a.cap from rfl]
            by_cases h4 : u + out.length ≥ c.a.cap
            · rw [if_pos h4, if_pos h4]; exact trivial
            · rw [if_neg h4, if_neg h4, u32_id (by omega), hm, upd_storeBytes]
              have := ih (c.setMem (storeBytes m u (out ++ [v]))) hc (newPos + 1) (out ++ [v]) rfl (Or.inl (by simp; omega))
              simpa [Nat.add_assoc] using this
          · rw [if_neg h3, if_neg h3]
            by_cases h4 : v = 0x5c
            · rw [if_pos h4, if_pos h4]
              cases hs2 : c.src[newPos + 1]? with
              | none => exact ⟨rfl, ⟨out, hm⟩, hc⟩
              | some w =>
                simp only
                rw [show c.abs.cap = c.a.cap from rfl]
                by_cases h5 : u + out.length + 1 ≥ c.a.cap
                · rw [if_pos h5, if_pos h5]; exact trivial
                · rw [if_neg h5, if_neg h5, u32_id (by omega), hm, upd_storeBytes]
                  have e2 := upd_storeBytes m u (out ++ [v]) w
                  simp only [List.length_append, List.length_singleton] at e2
                  rw [← Nat.add_assoc] at e2
                  rw [e2]
                  have := ih (c.setMem (storeBytes m u (out ++ [v] ++ [w]))) hc (newPos + 2) (out ++ [v, w]) (by simp [BCtx.setMem]) (Or.inl (by simp; omega))
                  simpa [Nat.add_assoc] using this
            · rw [if_neg h4, if_neg h4]; exact ⟨rfl, ⟨out, hm⟩, hc⟩

/-- **C06 / C33** `ParseAndAllocSipQuotedString` for every loop budget. -/
theorem store_parseQuoted (c : BCtx) (hcap : c.a.cap < 65536) (hused : c.a.used ≤ c.a.cap) (fuel : Nat) :
    Refines c (parseQuoted fuel c.abs) (bParseQuoted fuel c) := by
  unfold parseQuoted bParseQuoted
  simp only [show c.abs.src = c.src from rfl, show c.abs.pos = c.pos from rfl, show c.abs.used = c.a.used from rfl, show c.abs.cap = c.a.cap from rfl,
    u32_id (show c.a.used + 2 < 4294967296 by omega),
    show u16 (u16 (c.a.used + 2) + 65534) = c.a.used by simp only [u16]; omega]
  cases hs : c.src[parseSWS c.src c.pos]? with
  | none => rfl
  | some v =>
    simp only
    by_cases hv : v ≠ 0x22
    · rw [if_pos hv, if_pos hv]; exact ⟨_, rfl, rfl, fun _ _ => rfl, rfl⟩
    · rw [if_neg hv, if_neg hv]
      have h := bQuotedLoop_rel c (by omega) c.a.mem (c.a.used + 2) fuel c rfl (parseSWS c.src c.pos + 1) [] (storeBytes_nil _ _).symm (Or.inr rfl)
      simp only [List.length_nil, Nat.add_zero] at h
      generalize quotedLoop fuel c.abs (parseSWS c.src c.pos + 1) (c.a.used + 2) [] = x at h ⊢
      generalize bQuotedLoop fuel c (parseSWS c.src c.pos + 1) (c.a.used + 2) = y at h ⊢
      cases x with
      | panic =>
        cases y with
        | panic => rfl
        | hang => exact h.elim
        | ok => exact h.elim
      | hang =>
        cases y with
        | panic => exact h.elim
        | hang => rfl
        | ok => exact h.elim
      | ok x =>
        cases y with
        | panic => obtain ⟨_ | ⟨_, _, _⟩, _⟩ := x <;> exact h.elim
        | hang => obtain ⟨_ | ⟨_, _, _⟩, _⟩ := x <;> exact h.elim
        | ok y =>
          obtain ⟨x1, d⟩ := x
          obtain ⟨y1, b⟩ := y
          obtain ⟨bsrc, bpos, ⟨bau, bas, bam, bac⟩, berrs, bflags⟩ := b
          cases x1 with
          | none =>
            cases y1 with
            | some => exact h.elim
            | none =>
              obtain ⟨h1, ⟨out, h2⟩, h3⟩ := h
              exact ⟨_, rfl, h1, fun i hi => by rw [h2]; exact storeBytes_below _ _ _ _ (by omega), h3⟩
          | some x2 =>
            cases y1 with
            | none => exact h.elim
            | some y2 =>
              obtain ⟨p, w, out⟩ := x2
              obtain ⟨p', w'⟩ := y2
              obtain ⟨h1, h2, h3, h4, h5, h6, h7⟩ := h
              simp only at h5 h6
              subst h1 h2 h3 h4 h5 h6
              simp only
              by_cases hroom : c.a.used + 2 > c.a.cap
              · rw [if_pos hroom, if_pos hroom]; rfl
              · rw [if_neg hroom, if_neg hroom]
                rw [u16_id (show c.a.used + 2 < 65536 by omega)]
                have hw : out.length < 65536 := by
                  rcases h7 with h7 | h7
                  · omega
                  · rw [h7]; decide
                have hn : u32 (c.a.used + 2 + out.length + 4294967296 - (c.a.used + 2)) = out.length := by simp only [u32]; omega
                rw [hn, roundToAlign_one _ (by omega)]
                refine ⟨_, rfl, rfl, ⟨?_, rfl⟩, readStr_store _ _ _ hw, rfl⟩
                intro i hi
                show putU16 _ _ _ i = _
                rw [putU16_other _ _ _ _ (by omega), storeBytes_below _ _ _ _ (by omega)]

/-! ## histories -/

/-- the calls that allocate or store something -/
inductive StrOp where
  | alloc (n : Nat)
  | allocWithClear (n : Nat)
  | allocStr (buf : Bytes)
  | token (s : CS)
  | tokenOrEmpty (s : CS)
  | fromPos (s : CS) (pos : Nat)
  | esc (enableEmpty : Bool) (s : CS)
  | tel (s : CS)
  | quoted (fuel : Nat)

/-- one call; the pointer it returns -/
def StrOp.run (c : BCtx) : StrOp → Out (Nat × BCtx)
  | .alloc n => .ok ((c.a.alloc n).2, { c with a := (c.a.alloc n).1 })
  | .allocWithClear n =>
    match c.a.allocWithClear n with
    | .ok (a, p) => .ok (p, { c with a := a })
    | .panic => .panic
    | .hang => .hang
  | .allocStr buf => bAllocStr buf c
  | .token s => Out.bind (bParseStr s c) fun r => .ok (r.1, r.2.2)
  | .tokenOrEmpty s => Out.bind (bParseStrEnableEmpty s c) fun r => .ok (r.1, r.2.2)
  | .fromPos s pos => Out.bind (bParseStrFromPos s pos c) fun r => .ok (r.1, r.2.2)
  | .esc e s => Out.bind (bParseStrEsc e s c) fun r => .ok (r.1, r.2.2)
  | .tel s => Out.bind (bParseTelNumber s c) fun r => .ok (r.1, r.2.2)
  | .quoted fuel => Out.bind (bParseQuoted fuel c) fun r => .ok (r.1, r.2.2)

def runStr : BCtx → List StrOp → Out (List Nat × BCtx)
  | c, [] => .ok ([], c)
  | c, op :: ops =>
    match op.run c with
    | .ok (p, c) =>
      match runStr c ops with
      | .ok (ps, c) => .ok (p :: ps, c)
      | .panic => .panic
      | .hang => .hang
    | .panic => .panic
    | .hang => .hang

/-- arguments within the range of the Go types: sizes below 2^31, strings and target positions below 2^31 -/
def StrOp.InRange : StrOp → Prop
  | .alloc n => n < 2147483648
  | .allocWithClear n => n < 2147483648
  | .allocStr buf => buf.length < 65536
  | .fromPos _ pos => pos < 2147483648
  | _ => True

/-- the memory mark of the value layer only grows and stays inside the arena -/
def UsedOk (c : Ctx) (v : Out (Option Bytes × Ctx)) : Prop :=
  ∀ r d, v = .ok (r, d) → c.used ≤ d.used ∧ d.used ≤ c.cap

section
variable (s : CS) (c : Ctx) (hu : c.used ≤ c.cap)
include hu

theorem usedOk_parseStr : UsedOk c (parseStr s c) := by
  intro r d h
  unfold parseStr at h
  simp only at h
  repeat' split at h
  all_goals first
    | (cases h; done)
    | (simp only [Out.ok.injEq, Prod.mk.injEq] at h; obtain ⟨_, rfl⟩ := h; simp only [Ctx.addError, Ctx.setPos] <;> omega)

theorem usedOk_parseStrEnableEmpty : UsedOk c (parseStrEnableEmpty s c) := by
  intro r d h
  unfold parseStrEnableEmpty at h
  simp only at h
  repeat' split at h
  all_goals first
    | (cases h; done)
    | (simp only [Out.ok.injEq, Prod.mk.injEq] at h; obtain ⟨_, rfl⟩ := h; simp only [Ctx.addError, Ctx.setPos] <;> omega)

theorem usedOk_parseStrFromPos (pos : Nat) : UsedOk c (parseStrFromPos s pos c) := by
  intro r d h
  unfold parseStrFromPos at h
  simp only at h
  repeat' split at h
  all_goals first
    | (cases h; done)
    | (simp only [Out.ok.injEq, Prod.mk.injEq] at h; obtain ⟨_, rfl⟩ := h; simp only [Ctx.addError, Ctx.setPos] <;> omega)

theorem usedOk_parseTel : UsedOk c (parseTelNumber s c) := by
  intro r d h
  unfold parseTelNumber at h
  simp only at h
  generalize (if c.cur? = some 0x2b then ([0x2b] : Bytes) else []) = plus at h
  generalize (c.src.drop (c.pos + plus.length)).takeWhile s.mem = run at h
  generalize run.filter (fun v => !isTelVisualSperator v) = ds at h
  repeat' split at h
  all_goals first
    | (cases h; done)
    | (simp only [Out.ok.injEq, Prod.mk.injEq] at h; obtain ⟨_, rfl⟩ := h; simp only [Ctx.addError, Ctx.setPos] <;> omega)
end

theorem escLoop_used (s : CS) (cap : Nat) (t : Bytes) (p u : Nat) (out : Bytes) (p' u' : Nat) (out' : Bytes)
    (h : escLoop s cap t p u out = .stop p' u' out') : u ≤ u' := by
  induction hn : t.length using Nat.strongRecOn generalizing t p u out with
  | ind n ih =>
    match t with
    | [] => rw [escLoop] at h; cases h; exact Nat.le_refl _
    | v :: r =>
      rw [escLoop_cons] at h
      simp only [List.length_cons] at hn
      repeat' split at h
      all_goals first
        | (cases h; done)
        | (cases h; exact Nat.le_refl _)
        | (have := ih r.length (by omega) r _ _ _ h rfl; omega)
        | (rename_i r' _ _; simp only [List.length_cons] at hn; have := ih r'.length (by omega) r' _ _ _ h rfl; omega)

theorem usedOk_parseStrEsc (s : CS) (c : Ctx) (hu : c.used ≤ c.cap) :
    UsedOk c (parseStrEscapable s c) ∧ UsedOk c (parseStrEscapableEnableEmpty s c) := by
  constructor
  · intro r d h
    unfold parseStrEscapable at h
    split at h
    · simp only [Out.ok.injEq, Prod.mk.injEq] at h; obtain ⟨_, rfl⟩ := h; simp [Ctx.addError]; omega
    · split at h
      · cases h
      · simp only [Out.ok.injEq, Prod.mk.injEq] at h; obtain ⟨_, rfl⟩ := h; simp [Ctx.addError]; omega
      · simp only [Out.ok.injEq, Prod.mk.injEq] at h; obtain ⟨_, rfl⟩ := h; simp [Ctx.addError, Ctx.setPos]; omega
      · rename_i hl
        have := escLoop_used _ _ _ _ _ _ _ _ _ hl
        repeat' split at h
        all_goals (simp only [Out.ok.injEq, Prod.mk.injEq] at h; obtain ⟨_, rfl⟩ := h; simp [Ctx.addError] <;> omega)
  · intro r d h
    unfold parseStrEscapableEnableEmpty at h
    split at h
    · simp only [Out.ok.injEq, Prod.mk.injEq] at h; obtain ⟨_, rfl⟩ := h; simp [Ctx.addError]; omega
    · split at h
      · cases h
      · simp only [Out.ok.injEq, Prod.mk.injEq] at h; obtain ⟨_, rfl⟩ := h; simp [Ctx.addError]; omega
      · simp only [Out.ok.injEq, Prod.mk.injEq] at h; obtain ⟨_, rfl⟩ := h; simp [Ctx.addError, Ctx.setPos]; omega
      · rename_i hl
        have := escLoop_used _ _ _ _ _ _ _ _ _ hl
        repeat' split at h
        all_goals (simp only [Out.ok.injEq, Prod.mk.injEq] at h; obtain ⟨_, rfl⟩ := h; simp [Ctx.addError] <;> omega)

theorem quotedLoop_used (fuel : Nat) (c : Ctx) (n : Nat) (w : Nat) (out : Bytes) (u0 : Nat) (hcu : u0 ≤ c.used ∧ c.used ≤ c.cap)
    (hw : u0 ≤ w) (hwc : w ≤ c.cap) :
    ∀ r d, quotedLoop fuel c n w out = .ok (r, d) → u0 ≤ d.used ∧ d.used ≤ c.cap ∧ ∀ p u o, r = some (p, u, o) → u0 ≤ u ∧ u ≤ c.cap := by
  induction fuel generalizing c n w out with
  | zero => intro r d h; cases h
  | succ fuel ih =>
    intro r d h
    rw [quotedLoop] at h
    cases hs : c.src[n]? with
    | none =>
      rw [hs] at h
      simp only [Out.ok.injEq, Prod.mk.injEq] at h; obtain ⟨rfl, rfl⟩ := h
      simp [Ctx.addError, Ctx.setPos]; exact hcu
    | some v =>
      rw [hs] at h
      simp only at h
      split at h
      · simp only [Out.ok.injEq, Prod.mk.injEq] at h; obtain ⟨rfl, rfl⟩ := h
        refine ⟨hcu.1, hcu.2, ?_⟩
        intro p u o hh; cases hh; exact ⟨hw, hwc⟩
      · split at h
        · cases hcl : copyLWS c.src c.cap n w with
          | panic => rw [hcl] at h; cases h
          | hang => rw [hcl] at h; cases h
          | ok x =>
            obtain ⟨ok, p, w', o⟩ := x
            rw [hcl] at h
            simp only at h
            have e1 := copyLWS_used _ _ _ _ _ _ _ _ hcl
            have e2 := copyLWS_le _ _ _ _ _ _ _ _ hcl
            have e3 : w' ≤ c.cap := by rcases e2 with e | rfl; exact e; simpa [e1] using hwc
            cases ok with
            | false =>
              simp only [Bool.not_false, if_true, Out.ok.injEq, Prod.mk.injEq] at h
              obtain ⟨rfl, rfl⟩ := h
              refine ⟨by simp [Ctx.addError]; omega, by simp [Ctx.addError]; omega, by intro _ _ _ hh; cases hh⟩
            | true =>
              simp only [Bool.not_true, Bool.false_eq_true, if_false] at h
              exact ih { c with pos := p, used := w' } p w' _ ⟨by simp only; omega, e3⟩ (by omega) e3 r d h
        · split at h
          · split at h
            · cases h
            · exact ih c _ _ _ hcu (by omega) (by omega) r d h
          · split at h
            · cases hs2 : c.src[n + 1]? with
              | none =>
                rw [hs2] at h
                simp only [Out.ok.injEq, Prod.mk.injEq] at h; obtain ⟨rfl, rfl⟩ := h
                simp [Ctx.addError, Ctx.setPos]; exact hcu
              | some x =>
                rw [hs2] at h
                simp only at h
                split at h
                · cases h
                · exact ih c _ _ _ hcu (by omega) (by omega) r d h
            · simp only [Out.ok.injEq, Prod.mk.injEq] at h; obtain ⟨rfl, rfl⟩ := h
              simp [Ctx.addError, Ctx.setPos]; exact hcu

theorem copyLWS_noroom (src : Bytes) (cap pos used : Nat) (hn : cap < used) (r : Bool × Nat × Nat × Bytes)
    (h : copyLWS src cap pos used = .ok r) : r = (true, pos, used, []) := by
  unfold copyLWS at h
  generalize (src.drop pos).takeWhile isSpHtab = run at h
  simp only at h
  by_cases hr : run = []
  · subst hr
    simp only [List.length_nil, Nat.add_zero, ne_eq, not_true_eq_false, and_false, if_false] at h
    split at h
    · cases h; rfl
    · split at h
      · rw [if_pos (by omega)] at h; cases h
      · cases h; rfl
  · rw [if_pos ⟨by omega, hr⟩] at h; cases h

theorem quotedLoop_lws_noroom (fuel : Nat) (c : Ctx) (n w : Nat) (out : Bytes) (hw : c.cap < w) (v : UInt8) (hv : c.src[n]? = some v)
    (hq : v ≠ 0x22) (hl : isLwsChar v = true) (x) : quotedLoop fuel c n w out ≠ .ok x := by
  induction fuel generalizing c out with
  | zero => intro h; cases h
  | succ fuel ih =>
    intro h
    rw [quotedLoop, hv] at h
    simp only at h
    rw [if_neg hq, if_pos hl] at h
    cases hcl : copyLWS c.src c.cap n w with
    | panic => rw [hcl] at h; cases h
    | hang => rw [hcl] at h; cases h
    | ok r =>
      have := copyLWS_noroom _ _ _ _ hw _ hcl
      subst this
      rw [hcl] at h
      simp only [Bool.not_true, Bool.false_eq_true, if_false] at h
      exact ih { c with pos := n, used := w } _ hw hv h

theorem quotedLoop_noroom (fuel : Nat) (c : Ctx) (n w : Nat) (hw : c.cap < w) (out : Bytes) (r d)
    (h : quotedLoop fuel c n w out = .ok (r, d)) : d.used = c.used := by
  cases hv : c.src[n]? with
  | none =>
    cases fuel with
    | zero => cases h
    | succ fuel => rw [quotedLoop, hv] at h; cases h; rfl
  | some v =>
    by_cases hl : v ≠ 0x22 ∧ isLwsChar v = true
    · exact absurd h (quotedLoop_lws_noroom fuel c n w out hw v hv hl.1 hl.2 _)
    · cases fuel with
      | zero => cases h
      | succ fuel =>
        rw [quotedLoop, hv] at h
        simp only at h
        by_cases h1 : v = 0x22
        · rw [if_pos h1] at h; cases h; rfl
        · rw [if_neg h1, if_neg (fun hh => hl ⟨h1, hh⟩)] at h
          split at h
          · rw [if_pos (by omega)] at h; cases h
          · split at h
            · split at h
              · cases h; rfl
              · rw [if_pos (by omega)] at h; cases h
            · cases h; rfl

/-- one call: nothing below the mark changes, and the mark moves forward inside the arena -/
theorem strOp_step (c : BCtx) (hcap : c.a.cap < 65536) (h8 : 8 ≤ c.a.used) (hu : c.a.used ≤ c.a.cap) (op : StrOp) (hr : op.InRange)
    (p : Nat) (b : BCtx) (h : op.run c = .ok (p, b)) :
    SameBelow c b ∧ c.a.used ≤ b.a.used ∧ b.a.used ≤ b.a.cap := by
  have key : ∀ (v : Out (Option Bytes × Ctx)) (o : Out (Nat × Bool × BCtx)), UsedOk c.abs v → Refines c v o →
      Out.bind o (fun r => .ok (r.1, r.2.2)) = .ok (p, b) → SameBelow c b ∧ c.a.used ≤ b.a.used ∧ b.a.used ≤ b.a.cap := by
    intro v o hv ho hb
    match v, ho with
    | .panic, ho => have ho : o = .panic := ho; rw [ho] at hb; cases hb
    | .hang, ho => have ho : o = .hang := ho; rw [ho] at hb; cases hb
    | .ok (none, d), ⟨b', h1, h2, h3⟩ =>
      rw [h1] at hb
      simp only [Out.bind, Out.ok.injEq, Prod.mk.injEq] at hb
      obtain ⟨_, rfl⟩ := hb
      have := hv none d rfl
      have e : b'.a.used = d.used := by rw [← h2]; rfl
      refine ⟨h3, ?_, ?_⟩
      · rw [e]; exact this.1
      · rw [e, h3.2]; exact this.2
    | .ok (some x, d), ⟨b', h1, h2, h3, _, _⟩ =>
      rw [h1] at hb
      simp only [Out.bind, Out.ok.injEq, Prod.mk.injEq] at hb
      obtain ⟨_, rfl⟩ := hb
      have := hv (some x) d rfl
      have e : b'.a.used = d.used := by rw [← h2]; rfl
      refine ⟨h3, ?_, ?_⟩
      · rw [e]; exact this.1
      · rw [e, h3.2]; exact this.2
  cases op with
  | alloc n =>
    simp only [StrOp.run, Out.ok.injEq, Prod.mk.injEq] at h
    obtain ⟨_, rfl⟩ := h
    simp only [StrOp.InRange] at hr
    have := alloc_spec c.a n (by omega)
    rw [this]
    split
    · exact ⟨⟨fun _ _ => rfl, rfl⟩, Nat.le_refl _, hu⟩
    · refine ⟨⟨fun _ _ => rfl, rfl⟩, by simp only; omega, ?_⟩
      show c.a.used + n ≤ c.a.cap
      omega
  | allocWithClear n =>
    simp only [StrOp.InRange] at hr
    simp only [StrOp.run, allocWithClear_spec c.a n (by omega), Out.ok.injEq, Prod.mk.injEq] at h
    obtain ⟨_, rfl⟩ := h
    split
    · exact ⟨⟨fun _ _ => rfl, rfl⟩, Nat.le_refl _, hu⟩
    · have := alloc_spec c.a n (by omega)
      rw [if_neg (by assumption)] at this
      simp only [this]
      refine ⟨⟨fun i hi => ?_, rfl⟩, by show _ ≤ c.a.used + n; omega, ?_⟩
      · show Arena.zero c.a.mem c.a.used n i = _
        simp only [Arena.zero]; rw [if_neg (by omega)]
      · show c.a.used + n ≤ c.a.cap
        omega
  | allocStr buf =>
    obtain ⟨p', b', h1, h2, h3⟩ := store_allocStr c (by omega) hu buf hr h8 hcap
    simp only [StrOp.run] at h
    rw [h1] at h; cases h
    refine ⟨h2, ?_⟩
    have hb : b.abs.used = b.a.used ∧ b.a.cap = c.a.cap := ⟨rfl, h2.2⟩
    unfold allocStr at h3
    simp only [show c.abs.used = c.a.used from rfl, show c.abs.cap = c.a.cap from rfl] at h3
    split at h3
    · rename_i heq
      split at heq
      · cases heq; have := h3.2; rw [← hb.1, this, hb.2]; exact ⟨Nat.le_refl _, hu⟩
      · cases heq
    · rename_i heq
      split at heq
      · cases heq
      · cases heq; have := h3.2.1; rw [← hb.1, this, hb.2]; simp only; omega
  | token s => exact key _ _ (usedOk_parseStr s c.abs hu) (store_parseStr s c (by omega) hu) h
  | tokenOrEmpty s => exact key _ _ (usedOk_parseStrEnableEmpty s c.abs hu) (store_parseStrEnableEmpty s c (by omega) hu) h
  | fromPos s pos =>
    simp only [StrOp.InRange] at hr
    exact key _ _ (usedOk_parseStrFromPos s c.abs hu pos) (store_parseStrFromPos s c (by omega) hu pos (by omega)) h
  | esc e s =>
    cases e with
    | false => exact key _ _ (usedOk_parseStrEsc s c.abs hu).1 (store_parseStrEscapable s c (by omega) hu).1 h
    | true => exact key _ _ (usedOk_parseStrEsc s c.abs hu).2 (store_parseStrEscapable s c (by omega) hu).2 h
  | tel s => exact key _ _ (usedOk_parseTel s c.abs hu) (store_parseTelNumber s c (by omega) hu) h
  | quoted fuel =>
    refine key _ _ ?_ (store_parseQuoted c hcap hu fuel) h
    intro r d hq
    unfold parseQuoted at hq
    simp only at hq
    split at hq
    · cases hq
    · split at hq
      · simp only [Out.ok.injEq, Prod.mk.injEq] at hq; obtain ⟨_, rfl⟩ := hq
        exact ⟨Nat.le_refl _, hu⟩
      · by_cases hroom : c.abs.used + 2 ≤ c.abs.cap
        · have hl := quotedLoop_used fuel c.abs (parseSWS c.abs.src c.abs.pos + 1) (c.abs.used + 2) [] c.abs.used ⟨Nat.le_refl _, hu⟩ (by omega) hroom
          split at hq
          · cases hq
          · cases hq
          · rename_i heq
            simp only [Out.ok.injEq, Prod.mk.injEq] at hq; obtain ⟨_, rfl⟩ := hq
            exact ⟨(hl _ _ heq).1, (hl _ _ heq).2.1⟩
          · rename_i heq
            rw [if_neg (by omega)] at hq
            simp only [Out.ok.injEq, Prod.mk.injEq] at hq; obtain ⟨_, rfl⟩ := hq
            exact (hl _ _ heq).2.2 _ _ _ rfl
        · have hl := quotedLoop_noroom fuel c.abs (parseSWS c.abs.src c.abs.pos + 1) (c.abs.used + 2) (by omega) []
          split at hq
          · cases hq
          · cases hq
          · rename_i heq
            simp only [Out.ok.injEq, Prod.mk.injEq] at hq; obtain ⟨_, rfl⟩ := hq
            rw [hl _ _ heq]
            exact ⟨Nat.le_refl _, hu⟩
          · rename_i heq
            rw [if_pos (by omega)] at hq
            cases hq

theorem runStr_frame (ops : List StrOp) (c : BCtx) (hcap : c.a.cap < 65536) (h8 : 8 ≤ c.a.used) (hu : c.a.used ≤ c.a.cap)
    (hr : ∀ op ∈ ops, op.InRange) (ps : List Nat) (b : BCtx) (h : runStr c ops = .ok (ps, b)) :
    SameBelow c b ∧ c.a.used ≤ b.a.used ∧ b.a.used ≤ b.a.cap := by
  induction ops generalizing c ps with
  | nil => simp only [runStr, Out.ok.injEq, Prod.mk.injEq] at h; obtain ⟨_, rfl⟩ := h; exact ⟨⟨fun _ _ => rfl, rfl⟩, Nat.le_refl _, hu⟩
  | cons op ops ih =>
    rw [runStr] at h
    cases h1 : op.run c with
    | panic => rw [h1] at h; cases h
    | hang => rw [h1] at h; cases h
    | ok x =>
      obtain ⟨p, c1⟩ := x
      rw [h1] at h
      simp only at h
      obtain ⟨g1, g2, g3⟩ := strOp_step c hcap h8 hu op (hr op (by simp)) p c1 h1
      cases h2 : runStr c1 ops with
      | panic => rw [h2] at h; cases h
      | hang => rw [h2] at h; cases h
      | ok y =>
        obtain ⟨ps', c2⟩ := y
        rw [h2] at h
        simp only [Out.ok.injEq, Prod.mk.injEq] at h
        obtain ⟨_, rfl⟩ := h
        obtain ⟨k1, k2, k3⟩ := ih c1 (by rw [g1.2]; exact hcap) (by omega) g3 (fun o ho => hr o (by simp [ho])) ps' h2
        refine ⟨⟨fun i hi => ?_, k1.2.trans g1.2⟩, by omega, k3⟩
        rw [k1.1 i (by omega), g1.1 i hi]

/-- **C06** every string stored in the arena stays readable, byte for byte, through every later sequence of allocations and stores
(no free in between), for arenas smaller than 64 KiB. -/
theorem strings_survive (c : BCtx) (hcap : c.a.cap < 65536) (h8 : 8 ≤ c.a.used) (hu : c.a.used ≤ c.a.cap)
    (ops : List StrOp) (hr : ∀ op ∈ ops, op.InRange) (ps : List Nat) (b : BCtx) (h : runStr c ops = .ok (ps, b))
    (p : Nat) (hp : 2 ≤ p) (hin : p + strlen c.a.mem p ≤ c.a.used) :
    strlen b.a.mem p = strlen c.a.mem p ∧ readStr b.a.mem p = readStr c.a.mem p := by
  have hf := (runStr_frame ops c hcap h8 hu hr ps b h).1
  exact readStr_congr c.a.mem b.a.mem p hp (fun i _ hi => hf.1 i (by omega))

/-- **C06** in one statement: a token stored by `ParseAndAllocCString` at any moment, followed by any allocations and stores, reads back as the
longest run of the set that was at the parse position. -/
theorem token_survives (s : CS) (c : BCtx) (hcap : c.a.cap < 65536) (h8 : 8 ≤ c.a.used) (hu : c.a.used ≤ c.a.cap)
    (p : Nat) (c1 : BCtx) (h1 : bParseStr s c = .ok (p, true, c1)) (ops : List StrOp) (hr : ∀ op ∈ ops, op.InRange)
    (ps : List Nat) (b : BCtx) (h : runStr c1 ops = .ok (ps, b)) :
    readStr b.a.mem p = (c.src.drop c.pos).takeWhile s.mem ∧ p = c.a.used + 2 ∧
      c1.pos = c.pos + ((c.src.drop c.pos).takeWhile s.mem).length := by
  have hs := store_parseStr s c (by omega) hu
  have hv := usedOk_parseStr s c.abs hu
  cases hq : parseStr s c.abs with
  | panic => rw [hq] at hs; have hs : bParseStr s c = .panic := hs; rw [hs] at h1; cases h1
  | hang => rw [hq] at hs; have hs : bParseStr s c = .hang := hs; rw [hs] at h1; cases h1
  | ok x =>
    obtain ⟨o, d⟩ := x
    cases o with
    | none =>
      rw [hq] at hs
      obtain ⟨b', g1, _⟩ := hs
      rw [g1] at h1
      simp at h1
    | some x =>
      rw [hq] at hs
      obtain ⟨b', g1, g2, g3, g4, g5⟩ := hs
      rw [g1] at h1
      simp only [Out.ok.injEq, Prod.mk.injEq, true_and] at h1
      obtain ⟨rfl, rfl⟩ := h1
      have hd := hv (some x) d hq
      have e : b'.a.used = d.used := by rw [← g2]; rfl
      have hlen : strlen b'.a.mem (c.a.used + 2) = x.length := by
        rw [← g4]; simp [readStr]
      have := strings_survive b' (by rw [g3.2]; exact hcap) (by omega) (by rw [e, g3.2]; exact hd.2) ops hr ps b h (c.a.used + 2) (by omega)
        (by rw [hlen]; omega)
      have hx : x = (c.src.drop c.pos).takeWhile s.mem ∧ d.pos = c.pos + x.length := by
        unfold parseStr at hq
        simp only at hq
        repeat' split at hq
        all_goals first
          | (cases hq; done)
          | (simp only [Out.ok.injEq, Prod.mk.injEq, Option.some.injEq] at hq
             obtain ⟨rfl, rfl⟩ := hq
             exact ⟨rfl, rfl⟩)
      refine ⟨by rw [this.2, g4]; exact hx.1, rfl, ?_⟩
      have : b'.pos = d.pos := by rw [← g2]; rfl
      rw [this, hx.2, ← hx.1]

/-- the hypotheses are met by a real run: a token is stored, then another string, a struct and a cleared struct -/
example : (Out.bind (bParseStr csSipToken { src := str "alice;bob", a := Arena.new 100 }) fun r =>
      Out.bind (runStr r.2.2 [.allocStr (str "xyz"), .alloc 14, .allocWithClear 9]) fun q =>
        .ok (r.1, r.2.1, readStr q.2.a.mem r.1, q.1)) = .ok (10, true, str "alice", [17, 20, 34]) := by decide +kernel

/-- **C04, negation**: after storing a 5 byte and then a 2 byte token `AllocReqBytes` is 2: the parse functions overwrite the counter instead of
adding to it. -/
theorem allocReqBytes_overwritten :
    (Out.bind (bParseStr csSipToken { src := str "alice bo", a := Arena.new 100 }) fun r =>
      Out.bind (bParseStr csSipToken { r.2.2 with pos := 6 }) fun q =>
        .ok (r.2.2.a.stat.allocReqBytes, q.2.2.a.stat.allocReqBytes, q.2.2.a.stat.allocNum)) = .ok (5, 2, 2) := by decide +kernel

end Sip
