import Verif.Lemmas.Shift
import Verif.Lemmas.LocLine
/-! # What was read and stored before does not matter: the low level parsers -/
namespace Sip
section
variable {o : Past} {c : Ctx}

/-- all of the shift pushed to the leaves -/
local macro "push_shift" : tactic => `(tactic| simp only [Ctx.sh, Ctx.addError, Ctx.setPos, Ctx.adv, Ctx.rest, Ctx.cur?, sh_drop, sh_get, sh_skipWhile, Nat.add_assoc, ge_iff_le, gt_iff_lt,
  Nat.add_le_add_iff_left, Nat.add_lt_add_iff_left, Nat.add_left_cancel_iff, List.length_append, msh_ite, msh_ok, msh_panic, msh_hang, List.map_cons, List.cons_append])

/-! ## Strings -/

theorem sh_str (s : CS) (hs : s.mem 0x0d = false) : Sh o (P.str s) := by
  intro c hc
  refine ShAt.of_safe (safe_str s hs c hc) ?_
  unfold P.str parseStr
  push_shift

/-- the same end of the scan, shifted -/
def Scan.sh (o : Past) : Scan → Scan
  | .stop p u out => .stop (o.read.length + p) (o.used + u) out
  | .panic => .panic
  | .noMem p => .noMem (o.read.length + p)
  | .bad p => .bad (o.read.length + p)

theorem escLoop_sh (o : Past) (s : CS) (cap : Nat) (n : Nat) :
    ∀ x : Bytes, x.length < n → ∀ p u out, escLoop s (o.used + cap) x (o.read.length + p) (o.used + u) out = (escLoop s cap x p u out).sh o := by
  induction n with
  | zero => intro x h; omega
  | succ n ih =>
    intro x h p u out
    cases x with
    | nil => rfl
    | cons b x =>
      have hx : x.length < n := by simp only [List.length_cons] at h; omega
      rw [escLoop_cons, escLoop_cons]
      have e1 : (o.used + u ≥ o.used + cap) = (u ≥ cap) := propext (by omega)
      by_cases h1 : s.mem b = true
      · rw [if_pos h1, if_pos h1]
        by_cases h2 : u ≥ cap
        · rw [if_pos h2, if_pos (by rw [e1]; exact h2)]; rfl
        · rw [if_neg h2, if_neg (by rw [e1]; exact h2), Nat.add_assoc, Nat.add_assoc, ih x hx]
      · rw [if_neg h1, if_neg h1]
        by_cases h2 : b ≠ 0x25
        · rw [if_pos h2, if_pos h2]; rfl
        · rw [if_neg h2, if_neg h2]
          match x, hx with
          | [], _ => rfl
          | [v1], _ => rfl
          | v1 :: v2 :: x, hx =>
            dsimp only
            by_cases h3 : (!isHex v1 || !isHex v2) = true
            · rw [if_pos h3, if_pos h3]; rfl
            · rw [if_neg h3, if_neg h3]
              by_cases h4 : u ≥ cap
              · rw [if_pos h4, if_pos (by rw [e1]; exact h4)]; rfl
              · rw [if_neg h4, if_neg (by rw [e1]; exact h4), Nat.add_assoc, Nat.add_assoc, ih x (by simp only [List.length_cons] at hx; omega)]

theorem sh_strEsc (s : CS) (hs : s.mem 0x0d = false) : Sh o (P.strEsc s) := by
  intro c hc
  refine ShAt.of_safe (safe_strEsc s hs c hc) ?_
  unfold P.strEsc parseStrEscapable
  rw [c.sh_rest, c.sh_used, c.sh_pos, c.sh_cap, Nat.add_assoc, escLoop_sh o s c.cap _ _ (Nat.lt_succ_self _)]
  rw [msh_ite]
  rcases escLoop s c.cap c.rest c.pos (c.used + 2) [] with ⟨p, u, out⟩ | _ | p | p <;> dsimp only [Scan.sh] <;> push_shift
theorem sh_strEscEmpty (s : CS) (hs : s.mem 0x0d = false) : Sh o (P.strEscEmpty s) := by
  intro c hc
  refine ShAt.of_safe (safe_strEscEmpty s hs c hc) ?_
  unfold P.strEscEmpty parseStrEscapableEnableEmpty
  rw [c.sh_rest, c.sh_used, c.sh_pos, c.sh_cap, Nat.add_assoc, escLoop_sh o s c.cap _ _ (Nat.lt_succ_self _)]
  rw [msh_ite]
  rcases escLoop s c.cap c.rest c.pos (c.used + 2) [] with ⟨p, u, out⟩ | _ | p | p <;> dsimp only [Scan.sh] <;> push_shift

theorem sh_telNumber (s : CS) (hs : s.mem 0x0d = false) : Sh o (parseTelNumber s) := by
  intro c hc
  refine ShAt.of_safe (safe_telNumber s hs c hc) ?_
  unfold parseTelNumber
  rw [c.sh_cur]
  generalize (if c.cur? = some 0x2b then [0x2b] else [] : Bytes) = plus
  push_shift

theorem sh_strFromPos_eq (s : CS) (p : Nat) (c : Ctx) : parseStrFromPos s (o.read.length + p) (c.sh o) = msh o (parseStrFromPos s p c) := by
  unfold parseStrFromPos
  have h1 : max (o.read.length + c.pos) (o.read.length + p) = o.read.length + max c.pos p := by omega
  have h2 : o.read.length + p - (o.read.length + c.pos) = p - c.pos := by omega
  have h3 : o.read.length + max c.pos p - (o.read.length + c.pos) = max c.pos p - c.pos := by omega
  have h4 : (p - c.pos + (o.used + (c.used + 2))) = o.used + (p - c.pos + (c.used + 2)) := by omega
  simp only [c.sh_pos, h1, h2, h3]
  simp only [c.sh_used, Nat.add_assoc, h4]
  push_shift

/-! ## White space -/

theorem parseLWS_sh (o : Past) (s : Bytes) (i : Nat) : parseLWS (o.read ++ s) (o.read.length + i) = (o.read.length + (parseLWS s i).1, (parseLWS s i).2) := by
  unfold parseLWS
  simp only [sh_skipWhile, Nat.add_assoc, sh_get, sh_ge]
  repeat' split
  all_goals simp_all
theorem parseSWS_sh (o : Past) (s : Bytes) (i : Nat) : parseSWS (o.read ++ s) (o.read.length + i) = o.read.length + parseSWS s i := by
  unfold parseSWS
  simp only [parseLWS_sh, sh_get, sh_ge]
  rcases parseLWS s i with ⟨p, _ | _⟩ <;> (repeat' split) <;> simp_all
theorem sh_lws : Sh o P.lws := by
  intro c hc
  refine ShAt.of_safe (safe_lws c hc) ?_
  unfold P.lws
  rw [c.sh_src, c.sh_pos, parseLWS_sh]
  rcases parseLWS c.src c.pos with ⟨p, _ | _⟩ <;> rfl
theorem sws_sh (o : Past) (c : Ctx) : (c.sh o).sws = c.sws.sh o := by
  unfold Ctx.sws
  rw [c.sh_src, c.sh_pos, parseLWS_sh, sh_get]
  simp only [sh_ge]
  by_cases h1 : c.pos ≥ c.src.length
  · rw [if_pos h1, if_pos h1]
  rw [if_neg h1, if_neg h1]
  by_cases h2 : c.src[c.pos]?.map isLwsChar ≠ some true
  · rw [if_pos h2, if_pos h2]
  rw [if_neg h2, if_neg h2]
  rcases parseLWS c.src c.pos with ⟨p, _ | _⟩ <;> rfl
theorem sh_sws : Sh o P.sws := by
  intro c hc
  refine ⟨?_, fun r c' e => ?_⟩
  · unfold P.sws; rw [sws_sh]; rfl
  · cases e; exact sws_step c hc

theorem endTest_sh (o : Past) (c : Ctx) : ((c.sh o).pos ≥ (c.sh o).src.length) = (c.pos ≥ c.src.length) := sh_ge _ _ _
theorem here_sh (o : Past) (c : Ctx) : (c.sh o).src[(c.sh o).pos]? = c.src[c.pos]? := sh_get _ _ _

/-- a result with a flag, shifted -/
def bsh {α : Type} (o : Past) (r : α × Ctx) : α × Ctx := (r.1, r.2.sh o)
theorem bsh_ite {α : Type} (o : Past) (p : Prop) [Decidable p] (x y : α × Ctx) : bsh o (if p then x else y) = if p then bsh o x else bsh o y := by
  split <;> rfl
theorem bsh_mk {α : Type} (o : Past) (x : α) (c : Ctx) : bsh o (x, c) = (x, c.sh o) := rfl

theorem markCanOmmit_sh (o : Past) (m : UInt8) (c : Ctx) : parseSWSMarkCanOmmit (c.sh o) m = bsh o (parseSWSMarkCanOmmit c m) := by
  unfold parseSWSMarkCanOmmit
  dsimp only
  simp only [sws_sh, Ctx.sh_adv, endTest_sh, here_sh, bsh_ite, bsh_mk]; rfl
theorem mark_sh (o : Past) (m : UInt8) (c : Ctx) : parseSWSMark (c.sh o) m = bsh o (parseSWSMark c m) := by
  unfold parseSWSMark
  dsimp only
  simp only [sws_sh, Ctx.sh_adv, endTest_sh, here_sh, bsh_ite, bsh_mk]; rfl
theorem laquot_sh (o : Past) (c : Ctx) : parseLeftAngleQuote (c.sh o) = bsh o (parseLeftAngleQuote c) := by
  unfold parseLeftAngleQuote
  dsimp only
  simp only [sws_sh, Ctx.sh_adv, endTest_sh, here_sh, bsh_ite, bsh_mk]; rfl
theorem raquot_sh (o : Past) (c : Ctx) : parseRightAngleQuote (c.sh o) = bsh o (parseRightAngleQuote c) := by
  unfold parseRightAngleQuote
  simp only [sws_sh, Ctx.sh_adv, endTest_sh, here_sh, bsh_ite, bsh_mk]; rfl
theorem hcolon_sh (o : Past) (c : Ctx) : parseHcolon (c.sh o) = bsh o (parseHcolon c) := by
  unfold parseHcolon
  dsimp only
  rw [c.sh_src, c.sh_pos, sh_skipWhile]
  simp only [sh_get, sh_ge, Nat.add_assoc, Ctx.sh_setPos, Ctx.sh_addError, sws_sh, bsh_ite, bsh_mk]
theorem crlf_sh (o : Past) (c : Ctx) : parseCRLF (c.sh o) = bsh o (parseCRLF c) := by
  unfold parseCRLF
  rw [c.sh_src, c.sh_pos]
  simp only [sh_get, sh_lt, Nat.add_assoc, Ctx.sh_adv, bsh_ite, bsh_mk]
theorem isCRLF_sh (o : Past) (s : Bytes) (i : Nat) : isCRLF (o.read ++ s) (o.read.length + i) = isCRLF s i := by
  unfold isCRLF
  simp only [Nat.add_assoc, sh_get, sh_lt]
theorem isOnlyCRLF_sh (o : Past) (s : Bytes) (i : Nat) : isOnlyCRLF (o.read ++ s) (o.read.length + i) = isOnlyCRLF s i := by
  unfold isOnlyCRLF
  have h : (o.read.length + (i + 2) = (o.read ++ s).length) = (i + 2 = s.length) := by rw [List.length_append]; exact propext (by omega)
  simp only [Nat.add_assoc, sh_get, sh_lt, h]

theorem ofBool_sh {f : Ctx → Bool × Ctx} (h : f (c.sh o) = bsh o (f c)) : P.ofBool f (c.sh o) = msh o (P.ofBool f c) := by
  unfold P.ofBool
  rw [h]
  rcases f c with ⟨_ | _, d⟩ <;> rfl

theorem sh_markCanOmmit (m : UInt8) (hm : m ≠ 0x0d) : Sh o (P.markCanOmmit m) := by
  intro c hc
  refine ShAt.of_safe (safe_markCanOmmit m hm c hc) ?_
  unfold P.markCanOmmit
  rw [markCanOmmit_sh]
  rcases parseSWSMarkCanOmmit c m with ⟨⟨b, _ | _⟩, d⟩ <;> rfl
theorem sh_mark (m : UInt8) (hm : m ≠ 0x0d) : Sh o (P.mark m) := fun c hc => ShAt.of_safe (safe_mark m hm c hc) (ofBool_sh (f := (parseSWSMark · m)) (mark_sh o m c))
theorem sh_hcolon : Sh o P.hcolon := fun c hc => ShAt.of_safe (safe_hcolon c hc) (ofBool_sh (hcolon_sh o c))
theorem sh_laquot : Sh o (P.ofBool parseLeftAngleQuote) := fun c hc => ShAt.of_safe (safe_ofBool_laquot c hc) (ofBool_sh (laquot_sh o c))
theorem sh_raquot : Sh o (P.ofBool parseRightAngleQuote) := fun c hc => ShAt.of_safe (safe_ofBool_raquot c hc) (ofBool_sh (raquot_sh o c))
theorem sh_crlf : Sh o P.crlf := fun c hc => ⟨ofBool_sh (crlf_sh o c), (gsafe_crlf (N := False) (H := False) (m := 0) (B := 0) c hc).step⟩

theorem sh_nextParamMark (m : UInt8) (hm : m ≠ 0x0d) : Sh o (nextParamMark m) := by
  intro c hc
  refine ShAt.of_safe (safe_nextParamMark m hm c hc).1 ?_
  unfold nextParamMark
  rw [(sh_markCanOmmit m hm c hc).eq]
  rcases P.markCanOmmit m c with ⟨_ | b, d⟩ | _ | _
  · rfl
  · cases b <;> rfl
  · rfl
  · rfl
theorem sh_comma : Sh o P.comma := by
  intro c hc
  have h1 := (sh_markCanOmmit (o := o) 0x2c (by decide) c hc).step
  have hb : ∀ {d : Ctx}, Step c d → Step c (d.setPos c.pos) := fun st => ⟨st.src, st.cap, st.flags, Nat.le_refl _, hc.pos, st.used_le, st.used_cap, st.errs⟩
  refine ⟨?_, fun r c' e => ?_⟩
  · unfold P.comma
    rw [markCanOmmit_sh]
    rcases parseSWSMarkCanOmmit c 0x2c with ⟨⟨_ | _, _ | _⟩, d⟩ <;> rfl
  · unfold P.comma at e
    unfold P.markCanOmmit at h1
    rcases h2 : parseSWSMarkCanOmmit c 0x2c with ⟨⟨_ | _, _ | _⟩, d⟩ <;> rw [h2] at e h1 <;> cases e
    · exact hb (h1 _ _ rfl)
    · exact hb (h1 _ _ rfl)
    · exact hb (h1 _ _ rfl)
    · exact h1 _ _ rfl

/-! ## Numbers -/

theorem digitLoop_sh (o : Past) : ∀ (x : Bytes) (d p : Nat), digitLoop x d (o.read.length + p) = ((digitLoop x d p).1, o.read.length + (digitLoop x d p).2) := by
  intro x
  induction x with
  | nil => intro d p; rfl
  | cons b x ih =>
    intro d p
    unfold digitLoop
    split
    · exact ih _ (p + 1)
    · rfl
/-- a number, shifted -/
def NumRes.sh (o : Past) (r : NumRes) : NumRes := { r with newPos := o.read.length + r.newPos }
theorem parseUInt_sh (o : Past) (s : Bytes) (i : Nat) : parseUInt (o.read ++ s) (o.read.length + i) = (parseUInt s i).sh o := by
  unfold parseUInt
  simp only [sh_get, sh_ge, sh_drop, digitLoop_sh]
  split
  · rfl
  · show NumRes.mk _ _ _ _ = NumRes.mk _ _ _ _
    congr 2
    omega
theorem sh_uint : Sh o P.uint := by
  intro c hc
  refine ShAt.of_safe (safe_uint c hc) ?_
  unfold P.uint
  rw [c.sh_src, c.sh_pos, parseUInt_sh]
  dsimp only
  rcases parseUInt c.src c.pos with ⟨d, n, p, _ | _⟩ <;> rfl

/-! ## Quoted strings -/

/-- copied white space, shifted -/
def lsh (o : Past) : Out (Bool × Nat × Nat × Bytes) → Out (Bool × Nat × Nat × Bytes)
  | .ok (b, p, u, out) => .ok (b, o.read.length + p, o.used + u, out)
  | .panic => .panic
  | .hang => .hang
theorem lsh_ite (o : Past) (p : Prop) [Decidable p] (x y : Out (Bool × Nat × Nat × Bytes)) : lsh o (if p then x else y) = if p then lsh o x else lsh o y := by
  split <;> rfl
theorem lsh_ok (o : Past) (b : Bool) (p u : Nat) (out : Bytes) : lsh o (.ok (b, p, u, out)) = .ok (b, o.read.length + p, o.used + u, out) := rfl
theorem lsh_panic (o : Past) : lsh o .panic = .panic := rfl
theorem copyLWS_sh (o : Past) (s : Bytes) (cap i u : Nat) : copyLWS (o.read ++ s) (o.used + cap) (o.read.length + i) (o.used + u) = lsh o (copyLWS s cap i u) := by
  unfold copyLWS
  simp only [sh_drop, sh_get, sh_ge, Nat.add_assoc, gt_iff_lt, Nat.add_lt_add_iff_left, ge_iff_le, Nat.add_le_add_iff_left, lsh_ite, lsh_ok, lsh_panic]

/-- the end of a quoted text, shifted -/
def qsh (o : Past) : Out (Option (Nat × Nat × Bytes) × Ctx) → Out (Option (Nat × Nat × Bytes) × Ctx)
  | .ok (some (p, u, out), c) => .ok (some (o.read.length + p, o.used + u, out), c.sh o)
  | .ok (none, c) => .ok (none, c.sh o)
  | .panic => .panic
  | .hang => .hang

theorem quotedLoop_sh (o : Past) (k : Nat) : ∀ (c : Ctx) (n u : Nat) (out : Bytes) (f f' : Nat),
    c.src.length < k + n → c.src.length < f + n → c.src.length < f' + n → 1 ≤ f → 1 ≤ f' →
    quotedLoop f' (c.sh o) (o.read.length + n) (o.used + u) out = qsh o (quotedLoop f c n u out) := by
  induction k with
  | zero =>
    intro c n u out f f' h1 _ _ h2 h3
    obtain ⟨f, rfl⟩ : ∃ m, f = m + 1 := ⟨f - 1, by omega⟩
    obtain ⟨f', rfl⟩ : ∃ m, f' = m + 1 := ⟨f' - 1, by omega⟩
    have e : c.src[n]? = none := List.getElem?_eq_none_iff.2 (by omega)
    rw [quotedLoop, quotedLoop, c.sh_src, sh_get, e]; rfl
  | succ k ih =>
    intro c n u out f f' hk hf hf' h1 h2
    obtain ⟨f, rfl⟩ : ∃ m, f = m + 1 := ⟨f - 1, by omega⟩
    obtain ⟨f', rfl⟩ : ∃ m, f' = m + 1 := ⟨f' - 1, by omega⟩
    rw [quotedLoop, quotedLoop, c.sh_src, sh_get]
    cases hv : c.src[n]? with
    | none => rfl
    | some v =>
      have hn : n < c.src.length := (List.getElem?_eq_some_iff.1 hv).1
      dsimp only
      by_cases h1 : v = 0x22
      · rw [if_pos h1, if_pos h1]; rfl
      rw [if_neg h1, if_neg h1]
      by_cases h2 : isLwsChar v = true
      · rw [if_pos h2, if_pos h2]
        have hcw := copyLWS_cases c.src c.cap n u v hv h2
        rw [c.sh_cap, copyLWS_sh]
        rcases hc0 : copyLWS c.src c.cap n u with ⟨b, p, w, out'⟩ | _ | _
        · rw [hc0] at hcw
          dsimp only [lsh] at hcw ⊢
          by_cases h3 : (!b) = true
          · rw [if_pos h3, if_pos h3]; rfl
          rw [if_neg h3, if_neg h3]
          have hb : b = true := by simpa using h3
          subst hb
          obtain ⟨q1, -, -, -, -, q2⟩ := hcw
          rcases Nat.eq_or_lt_of_le q1 with he | hlt
          · subst he
            have st := (q2 rfl).2.1 rfl
            rw [quotedLoop_stuck { c with pos := n, used := w } n w _ _ rfl st f,
              quotedLoop_stuck _ _ _ _ (c.src.drop n) (sh_drop _ _ _) st f']
            rfl
          · exact ih { c with pos := p, used := w } p w (out ++ out') f f' (by show c.src.length < _; omega) (by show c.src.length < _; omega) (by show c.src.length < _; omega) (by omega) (by omega)
        · rfl
        · rfl
      rw [if_neg h2, if_neg h2]
      by_cases h3 : isSipQuotedText v = true
      · rw [if_pos h3, if_pos h3]
        by_cases h4 : u ≥ c.cap
        · rw [if_pos (show o.used + u ≥ (c.sh o).cap by rw [c.sh_cap]; omega), if_pos h4]; rfl
        · rw [if_neg (show ¬ o.used + u ≥ (c.sh o).cap by rw [c.sh_cap]; omega), if_neg h4]
          exact ih c (n + 1) (u + 1) _ f f' (by omega) (by omega) (by omega) (by omega) (by omega)
      rw [if_neg h3, if_neg h3]
      by_cases h4 : v = 0x5c
      · rw [if_pos h4, if_pos h4]
        rw [sh_get1]
        cases hw : c.src[n + 1]? with
        | none => rfl
        | some x =>
          have hn : n + 1 < c.src.length := (List.getElem?_eq_some_iff.1 hw).1
          dsimp only
          by_cases h5 : u + 1 ≥ c.cap
          · rw [if_pos (show o.used + u + 1 ≥ (c.sh o).cap by rw [c.sh_cap]; omega), if_pos h5]; rfl
          · rw [if_neg (show ¬ o.used + u + 1 ≥ (c.sh o).cap by rw [c.sh_cap]; omega), if_neg h5]
            exact ih c (n + 2) (u + 2) _ f f' (by omega) (by omega) (by omega) (by omega) (by omega)
      · rw [if_neg h4, if_neg h4]; rfl

theorem sh_quoted : Sh o P.quoted := by
  intro c hc
  refine ⟨?_, (safe_quoted c hc).step⟩
  have e0 : P.quoted c = parseQuoted (c.src.length + 1) c := rfl
  have e1 : P.quoted (c.sh o) = parseQuoted ((c.sh o).src.length + 1) (c.sh o) := rfl
  unfold parseQuoted at e0 e1
  rw [c.sh_src, c.sh_pos, parseSWS_sh] at e1
  generalize parseSWS c.src c.pos = n at *
  dsimp only at e0 e1
  rw [sh_get] at e1
  cases hv : c.src[n]? with
  | none =>
    rw [hv] at e0 e1
    rw [e0, e1]; rfl
  | some v =>
    have hn : n < c.src.length := (List.getElem?_eq_some_iff.1 hv).1
    rw [hv] at e0 e1
    dsimp only at e0 e1
    by_cases h1 : v ≠ 0x22
    · rw [if_pos h1] at e0 e1
      rw [e0, e1]; rfl
    rw [if_neg h1] at e0 e1
    have q1 := quotedLoop_sh o (c.src.length + 1) c (n + 1) (c.used + 2) [] (c.src.length + 1) ((o.read ++ c.src).length + 1)
      (by omega) (by omega) (by rw [List.length_append]; omega) (by omega) (by omega)
    rw [c.sh_used, Nat.add_assoc, Nat.add_assoc, q1] at e1
    rcases hq : quotedLoop (c.src.length + 1) c (n + 1) (c.used + 2) [] with ⟨_ | ⟨p, u, out⟩, d⟩ | _ | _ <;> rw [hq] at e0 e1 <;> dsimp only [qsh] at e0 e1
    · rw [e0, e1]; rfl
    · rw [c.sh_cap] at e1
      by_cases h2 : c.used + 2 > c.cap
      · rw [if_pos h2] at e0
        rw [if_pos (by omega)] at e1
        rw [e0, e1]; rfl
      · rw [if_neg h2] at e0
        rw [if_neg (by omega)] at e1
        rw [e0, e1]; rfl
    · rw [e0, e1]; rfl
    · rw [e0, e1]; rfl

end
end Sip
