import Verif.Props.HeapAddr
import Verif.Model.HeapMsg
import Verif.Props.HeadersSafe
import Verif.Model.Message
/-! # C46: headers and the start line in the arena -/
namespace Sip
attribute [local irreducible] u32 u16 roundToAlign
open Asrt

/-! ## rules -/
namespace Sim
variable {α β γ δ : Type} {A F : Asrt} {p : P α} {b : B β} {R : α → β → Asrt}
/-- the methods may depend on the context they start with -/
theorem here (h : ∀ c, Fine c → ∃ p' b', p c.abs = p' c.abs ∧ b c = b' c ∧ Sim A p' b' R) : Sim A p b R := by
  intro c S hf hA hS
  obtain ⟨p', b', h1, h2, h3⟩ := h c hf
  rw [h1, h2]
  exact h3 c S hf hA hS
/-- `ParseAndAllocCStringFromPos` as a parse method -/
def _root_.Sip.P.strFromPos (s : CS) (q : Nat) : P Bytes := parseStrFromPos s q
/-- the position is not far ahead -/
def nearP {α : Type} (q : Nat) (p : P α) : P α := fun c => if q - c.pos < 4294000000 then p c else .panic
/-- the position is not far ahead -/
def nearB {β : Type} (q : Nat) (b : B β) : B β := fun c => if q - c.pos < 4294000000 then b c else .panic
theorem strFromPos (s : CS) (q : Nat) : Sim emp (nearP q (P.strFromPos s q)) (nearB q (B.strFromPos s q)) (fun v x => strAt x v) := fun c S hf _ _ => by
  unfold nearP nearB
  by_cases h : q - c.pos < 4294000000
  · rw [if_pos h, if_pos (show q - c.abs.pos < _ from h)]
    have := hf.1
    have := hf.2.2.1
    exact ofRefinesAt c S hf ⟨store_parseStrFromPos s c (by omega) hf.2.2.1 q (by omega), usedOk_parseStrFromPos s c.abs hf.2.2.1 q, keep_strFromPos s q c.abs⟩
  · rw [if_neg h, if_neg (show ¬ q - c.abs.pos < _ from h)]
    rfl
end Sim

theorem Dry.mark (m : UInt8) : Dry (P.mark m) := Dry.ofBool (fun c => by
  have h0 := (Ctx.Same.refl c).sws
  unfold parseSWSMark
  dsimp only
  repeat' split
  · exact h0.addError _
  · exact h0.addError _
  · exact (h0.adv 1).sws)
theorem Dry.hcolon : Dry P.hcolon := Dry.ofBool (fun c => by
  unfold parseHcolon
  dsimp only
  repeat' split
  · exact ⟨rfl, rfl, rfl, rfl⟩
  · exact ⟨rfl, rfl, rfl, rfl⟩
  · exact Ctx.Same.sws (c := c) (d := c.setPos _) ⟨rfl, rfl, rfl, rfl⟩)
theorem Dry.crlf : Dry P.crlf := Dry.ofBool (fun c => by
  unfold parseCRLF
  split <;> exact ⟨rfl, rfl, rfl, rfl⟩)
theorem Dry.uint : Dry P.uint := by
  intro c r d h
  unfold P.uint at h
  dsimp only at h
  split at h <;> (cases h; exact ⟨rfl, rfl, rfl, rfl⟩)
theorem Dry.sp : Dry P.sp := by
  unfold P.sp
  refine Dry.bind Dry.peek (fun o => ?_)
  rcases o with _ | b <;> dsimp only
  · exact Dry.err
  · exact Dry.ite Dry.err (Dry.skip 1)
theorem Dry.methodIndex : Dry P.methodIndex := by
  intro c r d h
  unfold P.methodIndex at h
  split at h <;> cases h
  exact ⟨rfl, rfl, rfl, rfl⟩
theorem Dry.parseStart : Dry Version.parseStart := by
  intro c r d h
  unfold Version.parseStart at h
  repeat' split at h
  all_goals (cases h; try exact ⟨rfl, rfl, rfl, rfl⟩)
theorem Dry.parseName (k : HKind) : Dry k.parseName := by
  intro c r d h
  unfold HKind.parseName at h
  split at h <;> (cases h; exact ⟨rfl, rfl, rfl, rfl⟩)
theorem Dry.orElse {α : Type} {p q : P α} (hp : Dry p) (hq : Dry q) : Dry (P.orElse p q) := by
  intro c r d h
  unfold P.orElse at h
  rcases hm : p c with ⟨_ | b, e⟩ | _ | _ <;> rw [hm] at h <;> dsimp only at h
  · have h1 := hp c _ _ hm
    have h2 := hq _ _ _ h
    exact ⟨h2.1.trans h1.1, h2.2.1.trans h1.2.1, h2.2.2.1.trans h1.2.2.1, h2.2.2.2.trans h1.2.2.2⟩
  · cases h; exact hp c _ _ hm
  · cases h
  · cases h

/-! ## the lookup of names -/
/-- every index of the trie is at most `n` -/
def Trie.idxLe (n : Nat) : Trie → Bool
  | .fail => true
  | .acc i k => i ≤ n && k.idxLe n
  | .byte _ k => k.idxLe n
  | .lits _ k => k.idxLe n
  | .case _ k els => k.idxLe n && els.idxLe n
theorem Trie.run_below {n : Nat} : ∀ (t : Trie) (l : Bytes) (pos i q : Nat), t.idxLe n = true → t.run l pos = .ok (i, q) → i ≤ n
  | .fail, l, pos, i, q, _, h => by simp only [run] at h; cases h; omega
  | .acc j k, l, pos, i, q, hb, h => by
    simp only [idxLe, Bool.and_eq_true, decide_eq_true_eq] at hb
    simp only [run] at h
    split at h
    · cases h; exact hb.1
    · exact run_below k _ _ _ _ hb.2 h
  | .byte p k, l, pos, i, q, hb, h => by
    simp only [idxLe] at hb
    cases l with
    | nil => simp only [run] at h; cases h; omega
    | cons b bs =>
      simp only [run] at h
      split at h
      · exact run_below k _ _ _ _ hb h
      · cases h; omega
  | .lits ps k, l, pos, i, q, hb, h => by
    simp only [idxLe] at hb
    simp only [run] at h
    split at h
    · cases h; omega
    · split at h
      · exact run_below k _ _ _ _ hb h
      · cases h; omega
  | .case p k els, l, pos, i, q, hb, h => by
    simp only [idxLe, Bool.and_eq_true] at hb
    cases l with
    | nil => simp only [run] at h; cases h
    | cons b bs =>
      simp only [run] at h
      split at h
      · exact run_below k _ _ _ _ hb.1 h
      · exact run_below els _ _ _ _ hb.2 h
theorem Trie.lookup_bounds {t : Trie} {n : Nat} (ht : t.idxLe n = true) {src : Bytes} {pos i q : Nat} (h : t.lookup src pos = .ok (i, q)) : i ≤ n ∧ q - pos ≤ src.length := by
  unfold lookup at h
  split at h
  · cases h; omega
  · obtain ⟨m, h1, h2, _⟩ := Trie.run_pos _ _ _ _ _ h
    rw [List.length_drop] at h1
    exact ⟨Trie.run_below t _ _ _ _ ht h, by omega⟩

open Sim
/-! ## method and version -/
/-- SipMethod.go:25-29 -/
def methodAt (a : Nat) : Method → Asrt
  | .known i => fact (i < 32768) ∗ u16At a (32768 + i)
  | .token (some s) => fact (s ≠ []) ∗ strField a (some s)
  | .token none => fact False
/-- SipVersion.go:12-14 -/
def versionAt (a : Nat) : Version → Asrt
  | .v20 => u16At a (32768 + 1)
  | .other s => fact (s ≠ []) ∗ strField a (some s)

theorem strFromPos_ne {s : CS} {q : Nat} {c d : Ctx} {v : Bytes} (h : parseStrFromPos s q c = .ok (some v, d)) : v ≠ [] := by
  unfold parseStrFromPos at h
  dsimp only at h
  repeat' split at h
  all_goals try cases h
  rename_i h1 h2 h3 h4 h5 h6
  intro he
  rw [List.append_eq_nil_iff] at he
  rw [he.2] at h5
  simp only [List.length_nil, Nat.add_zero] at h5
  have h7 : c.pos < q := by omega
  have h8 : ¬ q > c.src.length := fun hx => h2 ⟨h7, hx⟩
  have := congrArg List.length he.1
  rw [List.length_take, List.length_drop] at this
  simp only [List.length_nil] at this
  omega
/-- a string read from a position is not empty -/
theorem Sim.strFromPos' (s : CS) (q : Nat) : Sim emp (nearP q (P.strFromPos s q)) (nearB q (B.strFromPos s q)) (fun v x => fact (v ≠ []) ∗ strAt x v) := by
  refine val (fun c v d h => ?_) (strFromPos s q)
  unfold nearP at h
  split at h
  · exact strFromPos_ne h
  · cases h
theorem Sim.strPut' {α : Type} {F : Asrt} {p : P Bytes} {b : B Nat} {a : Nat} {f : Bytes → P α} {g : Nat → B Unit} {R : α → Unit → Asrt} (h : Sim emp p b (fun v x => fact (v ≠ []) ∗ strAt x v))
    (k : ∀ v x, v ≠ [] → Sim (u16At a x ∗ (strAt x v ∗ F)) (f v) (g x) R) : Sim (u16At a 0 ∗ F) (p >>= f) (b >>= fun x => B.put16 a x >>= fun _ => g x) R := by
  refine seq0 h (fun v x => pre_eq (star_assoc _ _ _) (fact_elim (fun hv => str_lt (fun _ hx => ?_))))
  exact pre_eq (star_left_comm _ _ _) (put16 hx (k v x hv))
theorem parseMethod_at {c : Ctx} {i q : Nat} (h : getSipMethodIndex c.src c.pos = .ok (i, q)) :
    parseMethod c = (if i = 0 then P.strFromPos csSipToken q >>= fun b => pure (.token (some b)) else (P.get >>= fun c => P.set (c.setPos q) >>= fun _ => pure (.known i)) : P Method) c := by
  unfold parseMethod
  rw [h]
  show (if i = 0 then _ else _ : Out _) = _
  split
  · rw [P.bind_apply]
    unfold P.strFromPos
    rcases parseStrFromPos csSipToken q c with ⟨_ | b, d⟩ | _ | _ <;> rfl
  · rfl
theorem B.method_at {c : BCtx} {i q : Nat} (a : Nat) (h : getSipMethodIndex c.src c.pos = .ok (i, q)) :
    B.method a c = (if i = 0 then B.strFromPos csSipToken q >>= fun s => B.put16 a s >>= fun _ => pure () else (B.setPos q >>= fun _ => B.put16 a (32768 + i) >>= fun _ => pure ()) : B Unit) c := by
  have : B.lift P.methodIndex c = .ok (some (i, q), c) := by
    unfold B.lift P.methodIndex
    rw [h]
  show B.bind _ _ c = _
  unfold B.bind
  rw [this]

theorem sim_method (a : Nat) : Sim (u16At a 0) P.method (B.method a) (fun v _ => methodAt a v) := by
  refine here (fun c hf => ?_)
  rcases h : getSipMethodIndex c.src c.pos with ⟨i, q⟩ | _ | _
  · obtain ⟨h1, h2⟩ := Trie.lookup_bounds (t := methodTrie) (n := 13) (by decide +kernel) h
    by_cases hi : i = 0
    · have hq : q - c.pos < 4294000000 := by have := hf.2.2.2; omega
      refine ⟨nearP q (P.strFromPos csSipToken q) >>= fun b => pure (.token (some b)), nearB q (B.strFromPos csSipToken q) >>= fun s => B.put16 a s >>= fun _ => pure (), ?_, ?_, ?_⟩
      · rw [show P.method c.abs = parseMethod c.abs from rfl, parseMethod_at h, if_pos hi, P.bind_apply, P.bind_apply]
        unfold nearP
        rw [if_pos (show q - c.abs.pos < _ from hq)]
      · rw [B.method_at a h, if_pos hi]
        show B.bind _ _ c = B.bind _ _ c
        unfold B.bind nearB
        rw [if_pos hq]
      · refine pre_eq (star_emp _).symm (strPut' (g := fun _ => pure ()) (strFromPos' _ _) (fun v x hv => ret ?_))
        rw [star_emp]
        exact Ent.fact hv (strField_some _ _ _)
    · refine ⟨_, _, (parseMethod_at (c := c.abs) h).trans (by rw [if_neg hi]), (B.method_at a h).trans (by rw [if_neg hi]), ?_⟩
      refine ofP (p' := (fun d => .ok (some (), d.setPos q)) >>= fun _ => pure (.known i)) (fun _ => rfl) ?_
      refine dry (by intro c r d h; cases h; exact ⟨rfl, rfl, rfl, rfl⟩) (fun _ => pre_eq (star_emp _).symm (put16 (by omega) (ret ?_)))
      rw [star_emp]
      exact Ent.fact (by omega) (Ent.refl _)
  · refine ⟨P.panic, B.panic, ?_, ?_, panic⟩
    · show parseMethod c.abs = _
      unfold parseMethod
      rw [show getSipMethodIndex c.abs.src c.abs.pos = .panic from h]
      rfl
    · show B.bind _ _ c = _
      unfold B.bind B.lift P.methodIndex
      dsimp only
      rw [h]; rfl
  · refine ⟨fun _ => .hang, fun _ => .hang, ?_, ?_, fun _ _ _ _ _ => rfl⟩
    · show parseMethod c.abs = _
      unfold parseMethod
      rw [show getSipMethodIndex c.abs.src c.abs.pos = .hang from h]
      rfl
    · show B.bind _ _ c = _
      unfold B.bind B.lift P.methodIndex
      dsimp only
      rw [h]

theorem skipWhile_near (f : UInt8 → Bool) (src : Bytes) (pos : Nat) : skipWhile f src pos - pos ≤ src.length := by
  unfold skipWhile
  have := runLen_le f (src.drop pos)
  rw [List.length_drop] at this
  omega
theorem sim_majorMinor (a : Nat) : Sim (u16At a 0) Version.parseMajorMinor (B.majorMinor a) (fun v _ => versionAt a v) := by
  refine here (fun c hf => ?_)
  have hB : B.majorMinor a c = ((if skipWhile isDigit c.src c.pos ≤ c.pos then B.err else
      match c.src[skipWhile isDigit c.src c.pos]? with
      | none => B.panic
      | some d => if d ≠ 0x2e then B.setPos (skipWhile isDigit c.src c.pos) >>= fun _ => B.err else
          B.orErr (B.strFromPos csDigit (skipWhile isDigit c.src c.pos + 1)) >>= fun s => B.put16 a s >>= fun _ => B.ctx >>= fun d =>
            if d.pos ≤ skipWhile isDigit c.src c.pos + 1 then B.err else pure ()) : B Unit) c := rfl
  have hP : Version.parseMajorMinor c.abs = ((if skipWhile isDigit c.src c.pos ≤ c.pos then P.err else
      match c.src[skipWhile isDigit c.src c.pos]? with
      | none => P.panic
      | some d => if d ≠ 0x2e then P.set (c.abs.setPos (skipWhile isDigit c.src c.pos)) >>= fun _ => P.err else
          P.orErr (P.strFromPos csDigit (skipWhile isDigit c.src c.pos + 1)) >>= fun s => P.get >>= fun d =>
            if d.pos ≤ skipWhile isDigit c.src c.pos + 1 then P.err else pure (.other s)) : P Version) c.abs := by
    unfold Version.parseMajorMinor
    dsimp only
    rw [show c.abs.src = c.src from rfl, show c.abs.pos = c.pos from rfl]
    split
    · rfl
    · rcases c.src[skipWhile isDigit c.src c.pos]? with _ | d <;> dsimp only
      · rfl
      · split
        · rfl
        · rw [P.bind_apply]
          unfold P.orErr P.strFromPos
          rcases parseStrFromPos csDigit (skipWhile isDigit c.src c.pos + 1) c.abs with ⟨_ | b, d⟩ | _ | _ <;> try rfl
          dsimp only
          rw [P.get_bind]
          split <;> rfl
  have hn := skipWhile_near isDigit c.src c.pos
  generalize skipWhile isDigit c.src c.pos = n at *
  rw [hP, hB]
  by_cases h1 : n ≤ c.pos
  · rw [if_pos h1, if_pos h1]
    exact ⟨_, _, rfl, rfl, err⟩
  rw [if_neg h1, if_neg h1]
  rcases c.src[n]? with _ | d <;> dsimp only
  · exact ⟨_, _, rfl, rfl, panic⟩
  by_cases h2 : d ≠ 0x2e
  · rw [if_pos h2, if_pos h2]
    refine ⟨(fun d => .ok (some (), d.setPos n)) >>= fun _ => P.err, _, rfl, rfl, ?_⟩
    exact dry (by intro c r d h; cases h; exact ⟨rfl, rfl, rfl, rfl⟩) (fun _ => err)
  rw [if_neg h2, if_neg h2]
  have hq : n + 1 - c.pos < 4294000000 := by have := hf.2.2.2; omega
  refine ⟨P.orErr (nearP (n + 1) (P.strFromPos csDigit (n + 1))) >>= fun s => P.get >>= fun d => if d.pos ≤ n + 1 then P.err else pure (.other s),
    B.orErr (nearB (n + 1) (B.strFromPos csDigit (n + 1))) >>= fun s => B.put16 a s >>= fun _ => B.ctx >>= fun d => if d.pos ≤ n + 1 then B.err else pure (), ?_, ?_, ?_⟩
  · rw [P.bind_apply, P.bind_apply]
    unfold P.orErr nearP
    rw [if_pos (show n + 1 - c.abs.pos < _ from hq)]
  · show B.bind _ _ c = B.bind _ _ c
    unfold B.bind B.orErr nearB
    rw [if_pos hq]
  · refine pre_eq (star_emp _).symm (strPut' (g := fun _ => B.ctx >>= fun d => if d.pos ≤ n + 1 then B.err else pure ()) (orErr (strFromPos' _ _))
      (fun v x hv => ctx (fun d => ite (fun _ => err) (fun _ => ret ?_))))
    rw [star_emp]
    exact Ent.fact hv (strField_some _ _ _)

theorem sim_versionAfterStart (a : Nat) : Sim (u16At a 0) Version.parseAfterStart (B.versionAfterStart a) (fun v _ => versionAt a v) := by
  unfold Version.parseAfterStart B.versionAfterStart
  refine dry (Dry.byteAt 0) (fun _ => ite (fun _ => sim_majorMinor a) (fun _ => dry (Dry.byteAt 1) (fun _ => ite (fun _ => sim_majorMinor a) (fun _ =>
    dry (Dry.byteAt 2) (fun _ => ite (fun _ => sim_majorMinor a) (fun _ => ctx (fun c => ite (fun _ => sim_majorMinor a) (fun _ => skip ?_))))))))
  refine pre_eq (star_emp _).symm (put16 (by omega) (ret ?_))
  rw [star_emp]
  exact Ent.refl _
theorem sim_version (a : Nat) : Sim (u16At a 0) Version.parse (B.version a) (fun v _ => versionAt a v) := by
  unfold Version.parse B.version
  refine bind (R := fun _ _ => u16At a 0) ?_ (fun _ _ => sim_versionAfterStart a)
  refine orErr ?_
  exact pre_eq (emp_star _).symm (post (frame (u16At a 0) (lift Dry.parseStart)) (fun v x => Ent.dropl _ _))

/-! ## rules for headers -/
theorem B.orErr_lift {α : Type} (p : P α) (c : BCtx) : B.orErr (B.lift p) c = B.lift (P.orErr p) c := by
  unfold B.orErr B.lift P.orErr
  generalize (⟨c.src, c.pos, c.a.used, c.a.cap, c.errs, c.flags⟩ : Ctx) = d
  rcases p d with ⟨_ | x, d⟩ | _ | _ <;> rfl
namespace Sim
variable {α β γ δ : Type} {A F : Asrt} {p : P α} {b : B β} {R : α → β → Asrt}
theorem dryE {f : α → P γ} {g : α → B δ} {Q : γ → δ → Asrt} (hp : Dry p) (k : ∀ v, Sim A (f v) (g v) Q) : Sim A (P.orErr p >>= f) (B.orErr (B.lift p) >>= g) Q := by
  rw [show B.orErr (B.lift p) = B.lift (P.orErr p) from funext (B.orErr_lift p)]
  exact dry (Dry.orErr hp) k
/-- the last statement -/
theorem last {v : γ} {Q : γ → β → Asrt} (h : Sim A p b R) (k : ∀ v' x, R v' x ⊢ₘ Q v x) : Sim A (p >>= fun _ => pure v) b Q :=
  ofB (B.bind_pure' _) (bind h (fun _ _ => ret (k _ _)))
end Sim

/-! ## what the headers look like -/
/-- SipHeaderVia.go:42-45 and the field `sentProtocol` -/
def protocolAt (a : Nat) : Option (Bytes × Bytes) → Asrt
  | none => u16At a (32768 + 1)
  | some (n, v) => ex fun q => fact (8 ≤ q ∧ q < 32768) ∗ (u16At a q ∗ (strField q (some n) ∗ strField (q + 2) (some v)))
/-- the address and the parameters of a header -/
def addrParamsAt (k : HKind) (af pf kf : Nat) (a : Addr) (ps : Params) : Asrt := addrAt af a ∗ paramsAt k.paramNames pf kf ps
/-- the struct of a header without the field `next` (the lines of the structs are at the `…Value` functions of Verif/Model/HeapHeaders.lean) -/
def hdrAt (k : HKind) (a : Nat) (v : HVal) : Asrt :=
  match k, v with
  | .to, .addr ad ps => addrParamsAt k a (a + 10) (a + 12) ad ps
  | .from, .addr ad ps => addrParamsAt k a (a + 10) (a + 12) ad ps
  | .contact, .star => u8At a 1
  | .contact, .addr ad ps => u8At a 0 ∗ addrParamsAt k (a + 2) (a + 12) (a + 14) ad ps
  | .route, .addr ad ps => addrParamsAt k a (a + 10) (a + 12) ad ps
  | .recordRoute, .addr ad ps => addrParamsAt k a (a + 10) (a + 12) ad ps
  | .path, .addr ad ps => addrParamsAt k a (a + 10) (a + 12) ad ps
  | .serviceRoute, .addr ad ps => addrParamsAt k a (a + 10) (a + 12) ad ps
  | .pAssertedIdentity, .addr ad ps => fact (ps = {}) ∗ addrAt a ad
  | .via, .via pr t h ps => protocolAt a pr ∗ (strField (a + 2) (some t) ∗ (hostPortAt (a + 4) h ∗ paramsAt k.paramNames (a + 10) (a + 12) ps))
  | .callId, .callId x y => strField a (some x) ∗ strField (a + 2) y
  | .cseq, .cseq n m => u32At a n ∗ methodAt (a + 4) m
  | .rack, .rack r n m => u32At a r ∗ (u32At (a + 4) n ∗ methodAt (a + 8) m)
  | .rseq, .num n => u32At a n
  | .expires, .num n => u32At a n
  | .maxForwards, .num n => fact (n < 256) ∗ u8At a (UInt8.ofNat n)
  | .contentLength, .num n => u32At a n ∗ anyAt (a + 4) 4
  | .contentType, .contentType t s ps => strField a (some t) ∗ (strField (a + 2) (some s) ∗ paramsAt k.paramNames (a + 4) (a + 6) ps)
  | .contentDisposition, .contentDisposition t ps => strField a (some t) ∗ paramsAt k.paramNames (a + 2) (a + 4) ps
  | _, _ => fact False

theorem HKind.structSize_eq (k : HKind) : k.structSize = if k.multi then k.bodySize + 2 else k.bodySize := by cases k <;> rfl
theorem HKind.bodySize_le (k : HKind) : k.bodySize ≤ B.initSize k := by cases k <;> decide

theorem sim_headerParams' (k : HKind) (pf kf : Nat) : Sim (u16At pf 0 ∗ u16At kf 0) k.params (B.headerParams k.paramNames k.paramFlag pf kf) (fun v _ => paramsAt k.paramNames pf kf v) :=
  sim_headerParams _ (by cases k <;> decide) _ _ _

theorem sim_addrParams (net : Net) (hn : net.Len16) (k : HKind) (af pf kf : Nat) (R : HVal → Unit → Asrt) (hR : ∀ a ps, addrParamsAt k af pf kf a ps ∗ F ⊢ₘ R (.addr a ps) ()) :
    Sim ((schemeAny af ∗ addrRest af) ∗ ((u16At pf 0 ∗ u16At kf 0) ∗ F)) (parseAddrParams net k) (B.addrParams net k af pf kf) R := by
  unfold parseAddrParams B.addrParams
  refine seq (orErr (sim_addr net hn false af)) (fun a _ => ?_)
  refine pre_eq (A := (u16At pf 0 ∗ u16At kf 0) ∗ (addrAt af a ∗ F)) (by ac_rfl) ?_
  refine ofB (B.bind_pure' _) (seq (sim_headerParams' k pf kf) (fun ps _ => ret (Ent.trans (Ent.of_eq ?_) (hR a ps))))
  unfold addrParamsAt
  ac_rfl

theorem sim_to (net : Net) (hn : net.Len16) (k : HKind) (a : Nat) : Sim (zeros a 14) (parseAddrParams net k) (B.toValue net k a)
    (fun v _ => ex fun p : Addr × Params => fact (v = .addr p.1 p.2) ∗ addrParamsAt k a (a + 10) (a + 12) p.1 p.2) := by
  unfold B.toValue
  have e : zeros a (10 + (2 + 2)) = zeros a 10 ∗ (u16At (a + 10) 0 ∗ u16At (a + 12) 0) := by simp only [zeros_split, zeros_u16]
  rw [show 14 = 10 + (2 + 2) from rfl, e, ← star_emp (u16At (a + 10) 0 ∗ u16At (a + 12) 0)]
  refine pre (sim_addrParams net hn k a (a + 10) (a + 12) _ (fun ad ps => ?_)) (Ent.frame _ (addr_zeros a))
  rw [star_emp]
  exact Ent.ex (ad, ps) (Ent.fact rfl (Ent.refl _))

theorem sim_route (net : Net) (hn : net.Len16) (k : HKind) (a : Nat) : Sim (zeros a 14) (parseRouteParams net k) (B.routeValue net k a)
    (fun v _ => ex fun p : Addr × Params => fact (v = .addr p.1 p.2) ∗ addrParamsAt k a (a + 10) (a + 12) p.1 p.2) := by
  unfold parseRouteParams B.routeValue
  have e : zeros a (10 + (2 + 2)) = zeros a 10 ∗ (u16At (a + 10) 0 ∗ u16At (a + 12) 0) := by simp only [zeros_split, zeros_u16]
  rw [show 14 = 10 + (2 + 2) from rfl, e]
  refine pre ?_ (Ent.frame _ (addr_zeros a))
  refine seq (orErr (sim_nameAddr net hn a)) (fun ad _ => ?_)
  refine pre_eq (star_comm _ _) ?_
  refine ofB (B.bind_pure' _) (seq (sim_headerParams' k _ _) (fun ps _ => ret (Ent.ex (ad, ps) (Ent.fact rfl (Ent.of_eq ?_)))))
  unfold addrParamsAt
  exact star_comm _ _

theorem sim_contact (net : Net) (hn : net.Len16) (a : Nat) : Sim (zeros a 16) (parseContact net) (B.contactValue net a) (fun v _ => hdrAt .contact a v) := by
  unfold parseContact B.contactValue
  have e : zeros a (1 + (1 + (10 + (2 + 2)))) = u8At a 0 ∗ (u8At (a + 1) 0 ∗ (zeros (a + 2) 10 ∗ (u16At (a + 12) 0 ∗ u16At (a + 14) 0))) := by
    simp only [zeros_split, zeros_u8, zeros_u16]
  rw [show 16 = 1 + (1 + (10 + (2 + 2))) from rfl, e]
  refine dry Dry.sws (fun _ => peek (fun o => ?_))
  rcases o with _ | b <;> dsimp only
  · exact err
  refine ite (fun _ => skip ?_) (fun _ => ?_)
  · exact put8 (ofB (B.bind_pure' _) (dry Dry.sws (fun _ => ret (Ent.drop _ _))))
  · refine pre (sim_addrParams net hn .contact (a + 2) (a + 12) (a + 14) (F := u8At a 0) _ (fun ad ps => Ent.of_eq (star_comm _ _))) ?_
    refine Ent.pre_eq (A' := (zeros (a + 2) 10 ∗ ((u16At (a + 12) 0 ∗ u16At (a + 14) 0) ∗ u8At a 0)) ∗ u8At (a + 1) 0) (by ac_rfl) ?_
    exact Ent.trans (Ent.drop _ _) (Ent.frame _ (addr_zeros (a + 2)))

theorem sim_identity (net : Net) (hn : net.Len16) (a : Nat) : Sim (zeros a 10) (parseIdentity net) (B.identityValue net a) (fun v _ => hdrAt .pAssertedIdentity a v) := by
  unfold parseIdentity B.identityValue
  refine pre ?_ (addr_zeros a)
  exact ofB (B.bind_pure' _) (bind (orErr (sim_addr net hn false a)) (fun ad _ => ret (Ent.fact rfl (Ent.refl _))))

theorem sim_sentProtocol (a : Nat) : Sim (u16At a 0) parseSentProtocol (B.sentProtocol a) (fun v _ => protocolAt a v) := by
  unfold parseSentProtocol B.sentProtocol
  refine ctx (fun c => ite (fun _ => skip (dryE (Dry.mark _) (fun _ => ?_))) (fun _ => ?_))
  · refine pre_eq (star_emp _).symm (put16 (by omega) (ret ?_))
    rw [star_emp]
    exact Ent.refl _
  · unfold parseOtherProtocol B.otherProtocol
    refine seq0 (orErr (alloc (by omega) (by omega))) (fun _ q => ?_)
    refine pre_eq (star_assoc _ _ _) (fact_elim (fun h8 => ?_))
    have e : zeros q (2 + 2) = u16At q 0 ∗ u16At (q + 2) 0 := by simp only [zeros_split, zeros_u16]
    rw [show 4 = 2 + 2 from rfl, e]
    refine pre_eq (A := u16At a 0 ∗ (u16At q 0 ∗ u16At (q + 2) 0)) (by ac_rfl) (put16 (by omega) ?_)
    refine pre_eq (A := u16At q 0 ∗ (u16At (q + 2) 0 ∗ u16At a q)) (by ac_rfl) (strPut (orErr (Sim.str _)) (fun n x _ _ => ?_))
    refine dryE (Dry.mark _) (fun _ => ?_)
    refine pre_eq (A := u16At (q + 2) 0 ∗ (u16At a q ∗ (u16At q x ∗ strAt x n))) (by ac_rfl) (strPut (orErr (Sim.str _)) (fun v y _ _ => ?_))
    refine ofB (B.bind_pure' _) (dryE (Dry.mark _) (fun _ => ret (Ent.ex q (Ent.fact ⟨h8.1, by omega⟩ ?_))))
    refine Ent.pre_eq (A' := u16At a q ∗ ((u16At q x ∗ strAt x n) ∗ (u16At (q + 2) y ∗ strAt y v))) (by ac_rfl) ?_
    exact Ent.framel _ (Ent.star (strField_some _ _ _) (strField_some _ _ _))

theorem sim_via (net : Net) (hn : net.Len16) (a : Nat) : Sim (zeros a 14) (parseVia net) (B.viaValue net a) (fun v _ => hdrAt .via a v) := by
  unfold parseVia B.viaValue
  have e : zeros a (2 + (2 + (6 + (2 + 2)))) = u16At a 0 ∗ (u16At (a + 2) 0 ∗ (zeros (a + 4) 6 ∗ (u16At (a + 10) 0 ∗ u16At (a + 12) 0))) := by
    simp only [zeros_split, zeros_u16]
  rw [show 14 = 2 + (2 + (6 + (2 + 2))) from rfl, e]
  refine seq (orErr (sim_sentProtocol a)) (fun pr _ => ?_)
  refine pre_eq (star_left_comm _ _ _) (strPut (orErr (Sim.str _)) (fun t x _ _ => dryE Dry.lws (fun _ => ?_)))
  refine pre_eq (A := zeros (a + 4) 6 ∗ ((u16At (a + 10) 0 ∗ u16At (a + 12) 0) ∗ (protocolAt a pr ∗ (u16At (a + 2) x ∗ strAt x t)))) (by ac_rfl) ?_
  refine seq (orErr (sim_hostPort net hn (a + 4))) (fun h _ => ?_)
  refine pre_eq (star_left_comm _ _ _) (ofB (B.bind_pure' _) (seq (sim_headerParams' .via _ _) (fun ps _ => ret ?_)))
  refine Ent.pre_eq (A' := protocolAt a pr ∗ ((u16At (a + 2) x ∗ strAt x t) ∗ (hostPortAt (a + 4) h ∗ paramsAt HKind.via.paramNames (a + 10) (a + 12) ps))) (by ac_rfl) ?_
  exact Ent.framel _ (Ent.frame _ (strField_some _ _ _))

theorem strField_none (a : Nat) : u16At a 0 ⊢ₘ strField a none := Ent.ex 0 (Ent.post_eq (by unfold strOpt; rw [fact_true rfl, star_emp]) (Ent.refl _))

theorem sim_callId (a : Nat) : Sim (zeros a 4) parseCallId (B.callIdValue a) (fun v _ => hdrAt .callId a v) := by
  unfold parseCallId B.callIdValue
  have e : zeros a (2 + 2) = u16At a 0 ∗ u16At (a + 2) 0 := by simp only [zeros_split, zeros_u16]
  rw [show 4 = 2 + 2 from rfl, e]
  refine strPut (orErr (Sim.str _)) (fun n x _ _ => peek (fun o => ?_))
  have h0 : u16At a x ∗ (strAt x n ∗ u16At (a + 2) 0) ⊢ₘ hdrAt .callId a (.callId n none) :=
    Ent.pre_eq (star_assoc _ _ _).symm (Ent.star (strField_some _ _ _) (strField_none _))
  rcases o with _ | b <;> dsimp only
  · exact ret h0
  refine ite (fun _ => skip ?_) (fun _ => ret h0)
  refine pre_eq (A := u16At (a + 2) 0 ∗ (u16At a x ∗ strAt x n)) (by ac_rfl) (strPut (orErr (Sim.str _)) (fun v y _ _ => ret ?_))
  exact Ent.pre_eq (A' := (u16At a x ∗ strAt x n) ∗ (u16At (a + 2) y ∗ strAt y v)) (by ac_rfl) (Ent.star (strField_some _ _ _) (strField_some _ _ _))

theorem sim_cseq (a : Nat) : Sim (zeros a 8) parseCSeq (B.cseqValue a) (fun v _ => hdrAt .cseq a v) := by
  unfold parseCSeq B.cseqValue
  have e : zeros a (4 + (2 + 2)) = u32At a 0 ∗ (u16At (a + 4) 0 ∗ u16At (a + 6) 0) := by simp only [zeros_split, zeros_u16, zeros_u32]
  rw [show 8 = 4 + (2 + 2) from rfl, e]
  refine dry Dry.uint (fun n => put32 (by omega) (dryE Dry.lws (fun _ => ?_)))
  refine pre_eq (star_left_comm _ _ _) (ofB (B.bind_pure' _) ?_)
  refine pre_eq (star_assoc _ _ _).symm (pre ?_ (A := u16At (a + 4) 0 ∗ u32At a (n % 4294967296)) ?_)
  · exact seq (orErr (sim_method (a + 4))) (fun m _ => ret' (star_comm _ _))
  · exact Ent.pre_eq (by ac_rfl) (Ent.drop _ (u16At (a + 6) 0))

theorem sim_rack (a : Nat) : Sim (zeros a 12) parseRAck (B.rackValue a) (fun v _ => hdrAt .rack a v) := by
  unfold parseRAck B.rackValue
  have e : zeros a (4 + (4 + (2 + 2))) = u32At a 0 ∗ (u32At (a + 4) 0 ∗ (u16At (a + 8) 0 ∗ u16At (a + 10) 0)) := by simp only [zeros_split, zeros_u16, zeros_u32]
  rw [show 12 = 4 + (4 + (2 + 2)) from rfl, e]
  refine dry Dry.uint (fun r => put32 (by omega) (dryE Dry.lws (fun _ => dry Dry.uint (fun n => pre_eq (star_left_comm _ _ _) (put32 (by omega) (dryE Dry.lws (fun _ => ?_)))))))
  refine pre (A := u16At (a + 8) 0 ∗ (u32At a (r % 4294967296) ∗ u32At (a + 4) (n % 4294967296))) (ofB (B.bind_pure' _) ?_) ?_
  · exact seq (orErr (sim_method (a + 8))) (fun m _ => ret' (show _ = u32At a (r % 4294967296) ∗ (u32At (a + 4) (n % 4294967296) ∗ methodAt (a + 8) m) by ac_rfl))
  · exact Ent.pre_eq (by ac_rfl) (Ent.drop _ (u16At (a + 10) 0))

theorem sim_num32 (a : Nat) : Sim (u32At a 0 ∗ F) (parseNum 4294967296) (B.num32Value a) (fun v _ => ex fun n => fact (v = .num n) ∗ (u32At a n ∗ F)) := by
  unfold parseNum B.num32Value
  exact dry Dry.uint (fun n => put32 (by omega) (ret (Ent.ex (n % 4294967296) (Ent.fact rfl (Ent.refl _)))))

theorem sim_maxForwards (a : Nat) : Sim (zeros a 1) (parseNum 256) (B.num8Value a) (fun v _ => hdrAt .maxForwards a v) := by
  unfold parseNum B.num8Value
  rw [zeros_u8]
  refine dry Dry.uint (fun n => pre_eq (star_emp _).symm (put8 (ret ?_)))
  rw [star_emp]
  exact Ent.fact (by omega) (Ent.refl _)

theorem sim_contentType (a : Nat) : Sim (zeros a 8) parseContentType (B.contentTypeValue a) (fun v _ => hdrAt .contentType a v) := by
  unfold parseContentType B.contentTypeValue
  have e : zeros a (2 + (2 + (2 + 2))) = u16At a 0 ∗ (u16At (a + 2) 0 ∗ (u16At (a + 4) 0 ∗ u16At (a + 6) 0)) := by simp only [zeros_split, zeros_u16]
  rw [show 8 = 2 + (2 + (2 + 2)) from rfl, e]
  refine strPut (orErr (Sim.str _)) (fun t x _ _ => dryE (Dry.mark _) (fun _ => ?_))
  refine pre_eq (A := u16At (a + 2) 0 ∗ ((u16At (a + 4) 0 ∗ u16At (a + 6) 0) ∗ (u16At a x ∗ strAt x t))) (by ac_rfl) (strPut (orErr (Sim.str _)) (fun s y _ _ => ?_))
  refine pre_eq (A := (u16At (a + 4) 0 ∗ u16At (a + 6) 0) ∗ ((u16At a x ∗ strAt x t) ∗ (u16At (a + 2) y ∗ strAt y s))) (by ac_rfl) ?_
  refine ofB (B.bind_pure' _) (seq (sim_headerParams' .contentType _ _) (fun ps _ => ret ?_))
  refine Ent.pre_eq (A' := (u16At a x ∗ strAt x t) ∗ ((u16At (a + 2) y ∗ strAt y s) ∗ paramsAt HKind.contentType.paramNames (a + 4) (a + 6) ps)) (by ac_rfl) ?_
  exact Ent.star (strField_some _ _ _) (Ent.frame _ (strField_some _ _ _))

theorem sim_contentDisposition (a : Nat) : Sim (zeros a 6) parseContentDisposition (B.contentDispositionValue a) (fun v _ => hdrAt .contentDisposition a v) := by
  unfold parseContentDisposition B.contentDispositionValue
  have e : zeros a (2 + (2 + 2)) = u16At a 0 ∗ (u16At (a + 2) 0 ∗ u16At (a + 4) 0) := by simp only [zeros_split, zeros_u16]
  rw [show 6 = 2 + (2 + 2) from rfl, e]
  refine strPut (orErr (Sim.str _)) (fun t x _ _ => ?_)
  refine pre_eq (A := (u16At (a + 2) 0 ∗ u16At (a + 4) 0) ∗ (u16At a x ∗ strAt x t)) (by ac_rfl) ?_
  refine ofB (B.bind_pure' _) (seq (sim_headerParams' .contentDisposition _ _) (fun ps _ => ret ?_))
  exact Ent.pre_eq (star_comm _ _) (Ent.frame _ (strField_some _ _ _))

/-- `ParseValueWithoutInit` on a cleared struct -/
theorem sim_hdrValue (net : Net) (hn : net.Len16) (k : HKind) (a : Nat) : Sim (zeros a k.bodySize) (k.parseValue net) (B.hdrValue net k a) (fun v _ => hdrAt k a v) := by
  have hA : ∀ {k' : HKind} {p : P HVal} {b : B Unit}, (∀ ad ps, hdrAt k' a (.addr ad ps) = addrParamsAt k' a (a + 10) (a + 12) ad ps) →
      Sim (zeros a 14) p b (fun v _ => ex fun q : Addr × Params => fact (v = .addr q.1 q.2) ∗ addrParamsAt k' a (a + 10) (a + 12) q.1 q.2) → Sim (zeros a 14) p b (fun v _ => hdrAt k' a v) := by
    intro k' p b he h
    refine post h (fun v _ => Ent.ex_elim (fun q => Ent.fact_elim (fun hv => ?_)))
    rw [hv, he]
    exact Ent.refl _
  have hN : ∀ {k' : HKind}, (∀ n, hdrAt k' a (.num n) = u32At a n) → Sim (zeros a 4) (parseNum 4294967296) (B.num32Value a) (fun v _ => hdrAt k' a v) := by
    intro k' he
    rw [zeros_u32, ← star_emp (u32At a 0)]
    refine post (sim_num32 a) (fun v _ => Ent.ex_elim (fun n => Ent.fact_elim (fun hv => ?_)))
    rw [hv, he, star_emp]
    exact Ent.refl _
  cases k
  case to => exact hA (fun _ _ => rfl) (sim_to net hn .to a)
  case «from» => exact hA (fun _ _ => rfl) (sim_to net hn .from a)
  case contact => exact sim_contact net hn a
  case route => exact hA (fun _ _ => rfl) (sim_route net hn .route a)
  case recordRoute => exact hA (fun _ _ => rfl) (sim_route net hn .recordRoute a)
  case path => exact hA (fun _ _ => rfl) (sim_route net hn .path a)
  case serviceRoute => exact hA (fun _ _ => rfl) (sim_route net hn .serviceRoute a)
  case pAssertedIdentity => exact sim_identity net hn a
  case via => exact sim_via net hn a
  case callId => exact sim_callId a
  case cseq => exact sim_cseq a
  case rack => exact sim_rack a
  case rseq => exact hN (fun _ => rfl)
  case expires => exact hN (fun _ => rfl)
  case maxForwards => exact sim_maxForwards a
  case contentLength =>
    show Sim (zeros a 8) (parseNum 4294967296) (B.num32Value a) _
    rw [show 8 = 4 + 4 from rfl, zeros_split, zeros_u32]
    refine post (sim_num32 a) (fun v _ => Ent.ex_elim (fun n => Ent.fact_elim (fun hv => ?_)))
    rw [hv]
    exact Ent.framel _ any_zeros
  case contentType => exact sim_contentType a
  case contentDisposition => exact sim_contentDisposition a

/-- `ParseSipTo` and the same for the other headers: the struct is somewhere in the arena, its field `next` is nil -/
theorem sim_hdrAlloc (net : Net) (hn : net.Len16) (k : HKind) : Sim emp (k.parseAlloc net) (B.hdrAlloc net k)
    (fun v x => fact (8 ≤ x ∧ x < 32768) ∗ (hdrAt k x v ∗ zeros (x + k.bodySize) (k.structSize - k.bodySize))) := by
  unfold HKind.parseAlloc B.hdrAlloc
  have h0 : 0 < k.structSize := by cases k <;> decide
  have h1 : k.structSize < 2147483648 := by cases k <;> decide
  have h2 : k.structSize = k.bodySize + (k.structSize - k.bodySize) := by cases k <;> decide
  refine bind (orErr (alloc h0 h1)) (fun _ x => fact_elim (fun h8 => ?_))
  rw [h2, zeros_split, ← h2]
  refine ofP (P.bind_pure' _) (seq (sim_hdrValue net hn k x) (fun v _ => ret (Ent.fact ⟨h8.1, by omega⟩ (Ent.refl _))))

theorem sim_hdrInit (net : Net) (hn : net.Len16) (k : HKind) (a : Nat) (l : Bytes) (hl : l.length = B.initSize k) :
    Sim (bytes a l) (k.parseValue net) (B.hdrInitValue net k a) (fun v _ => hdrAt k a v) := by
  unfold B.hdrInitValue
  refine pre_eq (star_emp _).symm (zero hl ?_)
  rw [star_emp, show B.initSize k = k.bodySize + (B.initSize k - k.bodySize) by have := k.bodySize_le; omega, zeros_split]
  exact pre (sim_hdrValue net hn k a) (Ent.drop _ _)

theorem sim_hdrParse (net : Net) (hn : net.Len16) (k : HKind) (a : Nat) (l : Bytes) (hl : l.length = B.initSize k) :
    Sim (bytes a l) (k.parse net) (B.hdrParse net k a) (fun v _ => hdrAt k a v) := by
  unfold B.hdrParse HKind.parse
  refine pre_eq (star_emp _).symm (zero hl ?_)
  rw [star_emp, show B.initSize k = k.bodySize + (B.initSize k - k.bodySize) by have := k.bodySize_le; omega, zeros_split]
  exact dryE (Dry.parseName k) (fun _ => dryE Dry.hcolon (fun _ => pre (sim_hdrValue net hn k a) (Ent.drop _ _)))

/-! ## the start line -/
/-- SipStartLine.go:8-15 -/
def startLineAt (a : Nat) : StartLine → Asrt
  | .request m ad v => u8At a 1 ∗ (methodAt (a + 4) m ∗ (versionAt (a + 6) v ∗ addrAt (a + 8) ad))
  | .status v n r => u8At a 0 ∗ (u16At (a + 2) n ∗ (versionAt (a + 6) v ∗ strField (a + 18) (some r)))

/-- the fields of an empty start line -/
theorem startLine_zeros (a : Nat) : zeros a 20 = u8At a 0 ∗ (u8At (a + 1) 0 ∗ (u16At (a + 2) 0 ∗ (u16At (a + 4) 0 ∗ (u16At (a + 6) 0 ∗ (zeros (a + 8) 10 ∗ u16At (a + 18) 0))))) := by
  rw [show 20 = 1 + (1 + (2 + (2 + (2 + (10 + 2))))) from rfl]
  simp only [zeros_split, zeros_u8, zeros_u16]

theorem sim_requestLine (net : Net) (hn : net.Len16) (a : Nat) : Sim (zeros a 20) (StartLine.parseRequest net) (B.requestLine net a) (fun v _ => startLineAt a v) := by
  rw [startLine_zeros]
  unfold StartLine.parseRequest B.requestLine
  refine pre (A := u16At (a + 4) 0 ∗ ((schemeAny (a + 8) ∗ addrRest (a + 8)) ∗ (u16At (a + 6) 0 ∗ u8At a 0))) ?_ ?_
  · refine seq (orErr (sim_method (a + 4))) (fun m _ => dry Dry.sp (fun _ => ?_))
    refine pre_eq (star_left_comm _ _ _) (seq (orErr (sim_addrSpec net hn (a + 8))) (fun ad _ => dry Dry.sp (fun _ => ?_)))
    refine pre_eq (A := u16At (a + 6) 0 ∗ (u8At a 0 ∗ (methodAt (a + 4) m ∗ addrAt (a + 8) ad))) (by ac_rfl) (seq (orErr (sim_version (a + 6))) (fun v _ => dryE Dry.crlf (fun _ => ?_)))
    refine pre_eq (star_left_comm _ _ _) (put8 (ret ?_))
    exact Ent.of_eq (show _ = u8At a 1 ∗ (methodAt (a + 4) m ∗ (versionAt (a + 6) v ∗ addrAt (a + 8) ad)) by ac_rfl)
  · refine Ent.pre_eq (A' := (zeros (a + 8) 10 ∗ (u16At (a + 4) 0 ∗ (u16At (a + 6) 0 ∗ u8At a 0))) ∗ (u8At (a + 1) 0 ∗ (u16At (a + 2) 0 ∗ u16At (a + 18) 0))) (by ac_rfl) ?_
    refine Ent.trans (Ent.drop _ _) (Ent.trans (Ent.frame _ (addr_zeros (a + 8))) (Ent.of_eq (by ac_rfl)))

theorem sim_statusLine (a : Nat) : Sim (zeros a 20) StartLine.parseStatus (B.statusLine a) (fun v _ => startLineAt a v) := by
  rw [startLine_zeros]
  unfold StartLine.parseStatus B.statusLine
  refine pre (A := u16At (a + 6) 0 ∗ (u8At a 0 ∗ (u16At (a + 2) 0 ∗ u16At (a + 18) 0))) ?_ ?_
  · refine seq (orErr (sim_versionAfterStart (a + 6))) (fun v _ => dry Dry.sp (fun _ => dry Dry.uint (fun n => ?_)))
    refine pre_eq (A := u16At (a + 2) 0 ∗ (u16At (a + 18) 0 ∗ (u8At a 0 ∗ versionAt (a + 6) v))) (by ac_rfl) (put16 (by omega) (dry Dry.sp (fun _ => ?_)))
    refine pre_eq (star_left_comm _ _ _) (strPut (orErr (Sim.strEscEmpty _)) (fun r x _ _ => dryE Dry.crlf (fun _ => ?_)))
    refine pre_eq (A := u8At a 0 ∗ (u16At (a + 2) (n % 65536) ∗ (versionAt (a + 6) v ∗ (u16At (a + 18) x ∗ strAt x r)))) (by ac_rfl) (put8 (ret ?_))
    exact Ent.framel _ (Ent.framel _ (Ent.framel _ (strField_some _ _ _)))
  · refine Ent.pre_eq (A' := (u16At (a + 6) 0 ∗ (u8At a 0 ∗ (u16At (a + 2) 0 ∗ u16At (a + 18) 0))) ∗ (u8At (a + 1) 0 ∗ (u16At (a + 4) 0 ∗ zeros (a + 8) 10))) (by ac_rfl) (Ent.drop _ _)

theorem sim_startLine (net : Net) (hn : net.Len16) (a : Nat) : Sim (zeros a 20) (StartLine.parse net) (B.startLine net a) (fun v _ => startLineAt a v) := by
  unfold StartLine.parse B.startLine
  exact dry (Dry.orElse (Dry.bind Dry.parseStart (fun _ => Dry.ret _)) (Dry.ret _)) (fun s => ite (fun _ => sim_statusLine a) (fun _ => sim_requestLine net hn a))

/-! ## encoding -/
open Shows
theorem Shows.of_eq {A : Asrt} {e : E} {v w : Out Bytes} (h : Shows A e v) (hv : v = w) : Shows A e w := hv ▸ h
theorem Shows.str_lt' {F : Asrt} {e : E} {v : Out Bytes} {p : Nat} {s : Bytes} (hs : s ≠ []) (h : p < 32768 → Shows (strAt p s ∗ F) e v) : Shows (strAt p s ∗ F) e v := by
  intro m S hA hS
  have := strAt_lt hA
  have : 0 < s.length := List.length_pos_iff.2 hs
  exact h (by omega) m S hA hS

theorem shows_strField {a : Nat} {s : Bytes} : Shows (strField a (some s)) (E.u16 a fun q => E.str q) (.ok s) := Shows.ex_elim (fun _ => f16 (Shows.right cstr))

theorem shows_method (a : Nat) (m : Method) : Shows (methodAt a m) (E.method a) m.encode := by
  unfold E.method
  rcases m with i | ⟨_ | s⟩ <;> dsimp only [methodAt]
  · refine Shows.fact_elim (fun hi => f16' ?_)
    rw [if_pos (by omega), show (32768 + i) % 32768 = i by omega]
    unfold Method.encode
    dsimp only
    rcases sipMethodName[i]? with _ | n
    · exact fun _ _ _ _ => rfl
    · exact lit n
  · exact Shows.pre_eq (star_emp _).symm (Shows.fact_elim (fun h => h.elim))
  · refine Shows.fact_elim (fun hs => Shows.ex_elim (fun q => f16 (Shows.pre_eq (star_comm _ _) (Shows.str_lt' hs (fun hq => ?_)))))
    rw [if_neg (by omega)]
    exact Shows.left cstr

theorem shows_version (a : Nat) (v : Version) : Shows (versionAt a v) (E.version a) (.ok v.encode) := by
  unfold E.version
  rcases v with _ | s <;> dsimp only [versionAt]
  · refine f16' ?_
    rw [if_pos (by omega)]
    exact lit _
  · refine Shows.fact_elim (fun hs => Shows.ex_elim (fun q => f16 (Shows.pre_eq (star_comm _ _) (Shows.str_lt' hs (fun hq => ?_)))))
    rw [if_neg (by omega)]
    exact cat (lit _) (Shows.left cstr)

/-- SipHeaderVia.go:90-98 -/
def protocolText : Option (Bytes × Bytes) → Bytes
  | none => str "SIP/2.0/"
  | some (n, v) => n ++ 0x2f :: v ++ [0x2f]
theorem shows_protocol (a : Nat) (v : Option (Bytes × Bytes)) : Shows (protocolAt a v) (E.sentProtocol a) (.ok (protocolText v)) := by
  unfold E.sentProtocol
  rcases v with _ | ⟨n, v⟩ <;> dsimp only [protocolAt]
  · refine f16' ?_
    rw [if_pos (by omega)]
    exact lit _
  · refine Shows.ex_elim (fun q => Shows.fact_elim (fun hq => f16 (Shows.right ?_)))
    rw [if_neg (by omega)]
    show Shows _ _ (.ok (n ++ 0x2f :: v ++ [0x2f]))
    rw [show n ++ 0x2f :: v ++ [0x2f] = n ++ ([0x2f] ++ (v ++ [0x2f])) by simp]
    exact cat (Shows.left shows_strField) (cat (lit _) (cat (Shows.right shows_strField) (lit _)))

theorem shows_addrParams (net : Net) (fl : Flags) (k : HKind) (af pf kf : Nat) (ad : Addr) (ps : Params) :
    Shows (addrParamsAt k af pf kf ad ps) (E.addrParams net fl k.paramNames af pf kf) (.ok (ad.encode net fl ++ ps.encode k.paramNames)) :=
  cat (Shows.left (shows_addr net fl af ad)) (Shows.right (shows_headerParams _ _ _ _))

theorem shows_false {e : E} {v : Out Bytes} : Shows (fact False) e v := Shows.pre_eq (star_emp _).symm (Shows.fact_elim (fun h => h.elim))

theorem f32' {a n : Nat} {k : Nat → E} {v : Out Bytes} (h : Shows (u32At a n) (k n) v) : Shows (u32At a n) (E.u32 a k) v := by
  rw [← star_emp (u32At a n)] at h ⊢
  exact f32 h
theorem f8' {a : Nat} {n : UInt8} {k : UInt8 → E} {v : Out Bytes} (h : Shows (u8At a n) (k n) v) : Shows (u8At a n) (E.u8 a k) v := by
  rw [← star_emp (u8At a n)] at h ⊢
  exact f8 h

/-- the encoded value of every header the parser can leave in the arena -/
theorem shows_hdrValue (net : Net) (fl : Flags) (k : HKind) (a : Nat) (v : HVal) : Shows (hdrAt k a v) (E.hdrValue net fl k a) (k.encodeValue net fl v) := by
  cases k <;> cases v <;> first | exact shows_false | skip
  case to.addr => exact shows_addrParams net fl .to _ _ _ _ _
  case from.addr => exact shows_addrParams net fl .from _ _ _ _ _
  case route.addr => exact shows_addrParams net fl .route _ _ _ _ _
  case recordRoute.addr => exact shows_addrParams net fl .recordRoute _ _ _ _ _
  case path.addr => exact shows_addrParams net fl .path _ _ _ _ _
  case serviceRoute.addr => exact shows_addrParams net fl .serviceRoute _ _ _ _ _
  case contact.addr ad ps =>
    show Shows (u8At a 0 ∗ addrParamsAt .contact (a + 2) (a + 12) (a + 14) ad ps) (E.u8 a fun s => if s ≠ 0 then E.lit [0x2a] else E.addrParams net fl HKind.contact.paramNames (a + 2) (a + 12) (a + 14)) _
    refine f8 (Shows.right ?_)
    rw [if_neg (by decide)]
    exact shows_addrParams net fl .contact _ _ _ _ _
  case contact.star =>
    show Shows (u8At a 1) (E.u8 a fun s => if s ≠ 0 then E.lit [0x2a] else E.addrParams net fl HKind.contact.paramNames (a + 2) (a + 12) (a + 14)) _
    refine f8' ?_
    rw [if_pos (by decide)]
    exact lit _
  case pAssertedIdentity.addr ad ps =>
    refine Shows.fact_elim (fun hp => ?_)
    have := shows_addr net fl a ad
    rw [hp]
    show Shows _ _ (.ok (ad.encode net fl ++ []))
    rw [List.append_nil]
    exact this
  case via.via pr t h ps =>
    show Shows _ _ (.ok ((match pr with
      | none => str "SIP/2.0/"
      | some (n, v) => n ++ 0x2f :: v ++ [0x2f]) ++ t ++ 0x20 :: h.encode net ++ ps.encode HKind.via.paramNames))
    rw [show (match pr with
      | none => str "SIP/2.0/"
      | some (n, v) => n ++ 0x2f :: v ++ [0x2f]) = protocolText pr by rcases pr with _ | ⟨n, v⟩ <;> rfl]
    rw [show protocolText pr ++ t ++ 0x20 :: h.encode net ++ ps.encode HKind.via.paramNames = protocolText pr ++ (t ++ ([0x20] ++ (h.encode net ++ ps.encode HKind.via.paramNames))) by simp]
    exact cat (Shows.left (shows_protocol _ _)) (Shows.right (cat (Shows.left shows_strField) (Shows.right (cat (lit _) (cat (Shows.left (shows_hostPort net _ _)) (Shows.right (shows_headerParams _ _ _ _)))))))
  case callId.callId x y =>
    refine cat (Shows.left shows_strField) (Shows.right ?_)
    have := Shows.strField (a := a + 2) (o := y) (k := fun j => E.lit [0x40] +++ E.str j) (k0 := E.lit []) (g := fun s => 0x40 :: s) (b0 := []) (lit _) (fun q s _ => cat (lit [0x40]) (Shows.right cstr))
    rcases y with _ | y <;> exact this
  case cseq.cseq n m =>
    have := catO (Shows.left (F := methodAt (a + 4) m) (f32' (k := fun n => E.lit (encodeUInt n)) (lit (encodeUInt n))))
      (catO (lit [0x20]) (Shows.right (A := u32At a n) (shows_method (a + 4) m)))
    refine Shows.of_eq this ?_
    show _ = (m.encode >>= fun m => Out.ok (encodeUInt n ++ 0x20 :: m))
    rcases m.encode with x | _ | _ <;> rfl
  case rack.rack r n m =>
    have := catO (Shows.left (F := u32At (a + 4) n ∗ methodAt (a + 8) m) (f32' (k := fun n => E.lit (encodeUInt n)) (lit (encodeUInt r))))
      (catO (lit [0x20]) (catO (Shows.right (A := u32At a r) (Shows.left (F := methodAt (a + 8) m) (f32' (a := a + 4) (k := fun n => E.lit (encodeUInt n)) (lit (encodeUInt n)))))
      (catO (lit [0x20]) (Shows.right (A := u32At a r) (Shows.right (A := u32At (a + 4) n) (shows_method (a + 8) m))))))
    refine Shows.of_eq this ?_
    show _ = (m.encode >>= fun m => Out.ok (encodeUInt r ++ 0x20 :: encodeUInt n ++ 0x20 :: m))
    rcases m.encode with x | _ | _ <;> try rfl
    show Out.ok _ = Out.ok _
    simp
  case rseq.num n => exact f32' (k := fun n => E.lit (encodeUInt n)) (lit _)
  case expires.num n => exact f32' (k := fun n => E.lit (encodeUInt n)) (lit _)
  case maxForwards.num n =>
    refine Shows.fact_elim (fun hn => f8' (k := fun n => E.lit (encodeUInt n.toNat)) ?_)
    rw [show (UInt8.ofNat n).toNat = n by rw [UInt8.toNat_ofNat']; omega]
    exact lit _
  case contentLength.num n => exact f32 (k := fun n => E.lit (encodeUIntWithWidth n 10)) (lit _)
  case contentType.contentType t s ps =>
    show Shows _ _ (.ok (t ++ 0x2f :: s ++ ps.encode HKind.contentType.paramNames))
    rw [show t ++ 0x2f :: s ++ ps.encode HKind.contentType.paramNames = t ++ ([0x2f] ++ (s ++ ps.encode HKind.contentType.paramNames)) by simp]
    exact cat (Shows.left shows_strField) (Shows.right (cat (lit _) (cat (Shows.left shows_strField) (Shows.right (shows_headerParams _ _ _ _)))))
  case contentDisposition.contentDisposition t ps =>
    exact cat (Shows.left shows_strField) (Shows.right (shows_headerParams _ _ _ _))

theorem shows_hdr (net : Net) (fl : Flags) (k : HKind) (a : Nat) (v : HVal) : Shows (hdrAt k a v) (E.hdr net fl k a) (k.encode net fl v) := by
  refine Shows.of_eq (catO (lit (k.title ++ str ": ")) (shows_hdrValue net fl k a v)) ?_
  unfold HKind.encode
  rcases k.encodeValue net fl v with x | _ | _ <;> rfl

theorem shows_startLine (net : Net) (fl : Flags) (a : Nat) (v : StartLine) : Shows (startLineAt a v) (E.startLine net fl a) (v.encode net fl) := by
  unfold E.startLine StartLine.encode
  have h : Shows (startLineAt a v) (E.u8 a fun r => if r ≠ 0 then E.requestLine net fl a else E.statusLine fl a) (v.encodeLine net fl) := by
    rcases v with ⟨m, ad, v⟩ | ⟨v, n, r⟩ <;> dsimp only [startLineAt]
    · refine f8 (Shows.right ?_)
      rw [if_pos (by decide)]
      unfold E.requestLine
      refine Shows.of_eq (catO (Shows.left (shows_method _ m)) (catO (lit [0x20]) (catO (Shows.right (Shows.right (shows_addrSpec net fl _ ad))) (catO (lit [0x20]) (Shows.right (Shows.left (shows_version _ v))))))) ?_
      show _ = (m.encode >>= fun m => Out.ok (m ++ 0x20 :: ad.encodeAddrSpec net fl ++ 0x20 :: v.encode))
      rcases m.encode with x | _ | _ <;> try rfl
      show Out.ok _ = Out.ok _
      simp
    · refine f8 (Shows.right ?_)
      rw [if_neg (by decide)]
      unfold E.statusLine
      have hr : Shows (strField (a + 18) (some r)) (E.u16 (a + 18) fun r => if fl.encodeReasonPhraseNoEscape then E.str r else E.strEsc csSipReasonPhrase r)
          (.ok (if fl.encodeReasonPhraseNoEscape then r else escapeStr csSipReasonPhrase r)) := by
        refine Shows.ex_elim (fun q => f16 (Shows.right ?_))
        cases fl.encodeReasonPhraseNoEscape
        · exact cstrEsc
        · exact cstr
      have := cat (Shows.right (A := u16At (a + 2) n) (Shows.left (F := strField (a + 18) (some r)) (shows_version (a + 6) v))) (cat (lit [0x20]) (cat (Shows.left (f16' (k := fun n => E.lit (encodeUInt n)) (lit (encodeUInt n)))) (cat (lit [0x20]) (Shows.right (Shows.right hr)))))
      refine Shows.of_eq this ?_
      show Out.ok _ = Out.ok _
      simp
  refine Shows.of_eq (catO h (lit _)) ?_
  rcases v.encodeLine net fl with x | _ | _ <;> rfl

/-! ## C46 for headers and the start line -/
/-- `Parse` of a header on the bytes of the arena: it clears and fills its struct. -/
theorem header_in_memory (net : Net) (hn : net.Len16) (k : HKind) (c : BCtx) (hf : Fine c) (a : Nat) (ha : a + B.initSize k ≤ c.a.used) :
    StoresAs c (fun i => a ≤ i ∧ i < a + B.initSize k) (k.parse net c.abs) (B.hdrParse net k a c) (fun (fl : Flags) _ => E.hdr net fl k a) (fun fl v => k.encode net fl v) := by
  obtain ⟨l, hl, hb⟩ := bytes_of_mem c.a.mem a (B.initSize k)
  exact stores_of_sim (sim_hdrParse net hn k a l hl) (fun fl u _ => shows_hdr net fl k a u) c hf _ hb (fun i hi => by omega)
/-- `ParseValue` of a header on the bytes of the arena. -/
theorem header_value_in_memory (net : Net) (hn : net.Len16) (k : HKind) (c : BCtx) (hf : Fine c) (a : Nat) (ha : a + B.initSize k ≤ c.a.used) :
    StoresAs c (fun i => a ≤ i ∧ i < a + B.initSize k) (k.parseValue net c.abs) (B.hdrInitValue net k a c) (fun (fl : Flags) _ => E.hdrValue net fl k a) (fun fl v => k.encodeValue net fl v) := by
  obtain ⟨l, hl, hb⟩ := bytes_of_mem c.a.mem a (B.initSize k)
  exact stores_of_sim (sim_hdrInit net hn k a l hl) (fun fl u _ => shows_hdrValue net fl k a u) c hf _ hb (fun i hi => by omega)
/-- `ParseSipTo` and the like, which allocate the struct: nothing the arena held before is written. -/
theorem header_alloc_in_memory (net : Net) (hn : net.Len16) (k : HKind) (c : BCtx) (hf : Fine c) :
    StoresAs c (fun _ => False) (k.parseAlloc net c.abs) (B.hdrAlloc net k c) (fun (fl : Flags) x => E.hdrValue net fl k x) (fun fl v => k.encodeValue net fl v) :=
  stores_of_sim (sim_hdrAlloc net hn k) (fun fl u x => Shows.right (Shows.left (shows_hdrValue net fl k x u))) c hf _ ⟨trivial, fun i hi => hi⟩ (fun i hi => hi.elim)
/-- `SipStartLine.Parse` on the bytes of the arena. -/
theorem startLine_in_memory (net : Net) (hn : net.Len16) (c : BCtx) (hf : Fine c) (a : Nat) (ha : a + 20 ≤ c.a.used) :
    StoresAs c (fun i => a ≤ i ∧ i < a + 20) (StartLine.parse net c.abs) (B.startLineParse net a c) (fun (fl : Flags) _ => E.startLine net fl a) (fun fl v => v.encode net fl) := by
  obtain ⟨l, hl, hb⟩ := bytes_of_mem c.a.mem a 20
  refine stores_of_sim (A := bytes a l) (R := fun v _ => startLineAt a v) ?_ (fun fl u _ => shows_startLine net fl a u) c hf _ hb (fun i hi => by omega)
  unfold B.startLineParse
  refine pre_eq (star_emp _).symm (Sim.zero hl ?_)
  rw [star_emp]
  exact sim_startLine net hn a

/-! ## concrete cases -/
/-- the hypotheses hold and the parse succeeds: the 14 bytes at 10 encode to the header, with the known parameter first; the neighbours are untouched -/
theorem heap_sample_via : Fine { heapSample "v: SIP / 2.0/UDP  host:5060 ;x;branch=z9" with flags := { setSipViaKnownParam := true } } ∧
    (match B.hdrParse ⟨fun _ => none, fun _ => []⟩ .via 10 { heapSample "v: SIP / 2.0/UDP  host:5060 ;x;branch=z9" with flags := { setSipViaKnownParam := true } } with
     | .ok (some _, c) => (E.hdr ⟨fun _ => none, fun _ => []⟩ {} .via 10 c.a.mem, c.pos, c.a.mem 9, c.a.mem 24)
     | _ => (.panic, 0, 0, 0)) = (.ok (str "Via: SIP/2.0/UDP host:5060;branch=z9;x"), 40, 0xa5, 0xa5) := by
  refine ⟨by unfold Fine; decide +kernel, by decide +kernel⟩
/-- a value in a newly allocated struct -/
theorem heap_sample_contact : Fine (heapSample "<sip:b@h>;q=1, *") ∧
    (match B.hdrAlloc ⟨fun _ => none, fun _ => []⟩ .contact (heapSample "<sip:b@h>;q=1, *") with
     | .ok (some x, c) => (E.hdrValue ⟨fun _ => none, fun _ => []⟩ {} .contact x c.a.mem, x, c.pos, c.a.mem 39)
     | _ => (.panic, 0, 0, 0)) = (.ok (str "<sip:b@h>;q=1"), 40, 13, 0xa5) := by
  refine ⟨by unfold Fine; decide +kernel, by decide +kernel⟩
theorem heap_sample_startLine : Fine (heapSample "INVITE sip:b@h;lr SIP/2.0\r\n") ∧
    (match B.startLineParse ⟨fun _ => none, fun _ => []⟩ 10 (heapSample "INVITE sip:b@h;lr SIP/2.0\r\n") with
     | .ok (some _, c) => (E.startLine ⟨fun _ => none, fun _ => []⟩ {} 10 c.a.mem, c.pos, c.a.mem 9, c.a.mem 30)
     | _ => (.panic, 0, 0, 0)) = (.ok (str "INVITE sip:b@h;lr SIP/2.0\r\n"), 27, 0xa5, 0xa5) := by
  refine ⟨by unfold Fine; decide +kernel, by decide +kernel⟩
end Sip
