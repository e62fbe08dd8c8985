import Verif.Lemmas.ShiftAddr
import Verif.Props.MessageSafe
import Verif.Props.BodySafe
/-! # What was read and stored before does not matter: lines, start lines, headers, bodies, messages -/
namespace Sip
section
variable {o : Past} {c : Ctx} {α β : Type}

/-- the value is a position -/
def mshp (o : Past) : Out (Option Nat × Ctx) → Out (Option Nat × Ctx)
  | .ok (r, c) => .ok (r.map (o.read.length + ·), c.sh o)
  | .panic => .panic
  | .hang => .hang

theorem lfEnd_le : ∀ (y : Bytes) (k : Nat), lfEnd y = some k → 1 ≤ k ∧ k ≤ y.length := by
  intro y
  induction y with
  | nil => intro k h; cases h
  | cons b y ih =>
    intro k h
    unfold lfEnd at h
    split at h
    · cases h; simp
    · cases hq : lfEnd y with
      | none => rw [hq] at h; cases h
      | some j =>
        rw [hq] at h
        cases h
        have := ih j hq
        simp only [List.length_cons]
        omega

theorem findCrlf_sh (o : Past) (c : Ctx) : P.findCrlf (c.sh o) = mshp o (P.findCrlf c) := by
  unfold P.findCrlf
  rw [c.sh_rest]
  cases hk : lfEnd c.rest with
  | none =>
    show Out.ok (none, (c.sh o).setPos (o.read ++ c.src).length) = _
    rw [List.length_append, c.sh_setPos]; rfl
  | some k =>
    have h1 := (lfEnd_le _ _ hk).1
    dsimp only
    rw [c.sh_pos, Nat.add_assoc o.read.length c.pos k, c.sh_setPos]
    show Out.ok (some _, _) = Out.ok (some _, _)
    rw [c.sh_src]
    congr 3
    by_cases h : c.pos + 2 < c.pos + k ∧ c.src[c.pos + k - 2]? = some 0x0d
    · rw [if_pos h, if_pos ⟨by omega, by
        rw [show o.read.length + (c.pos + k) - 2 = o.read.length + (c.pos + k - 2) by omega, sh_get]; exact h.2⟩]
      dsimp only; omega
    · rw [if_neg h, if_neg]
      · dsimp only; omega
      · intro h'
        refine h ⟨by omega, ?_⟩
        have h2 := h'.2
        rwa [show o.read.length + (c.pos + k) - 2 = o.read.length + (c.pos + k - 2) by omega, sh_get] at h2
theorem findCrlf_step (hc : Inv c) : ∀ r c', P.findCrlf c = .ok (r, c') → Step c c' :=
  (findCrlf_safe (N := True) (H := True) c hc).step
theorem findCrlf_eats (c c' : Ctx) (v : Nat) (e : P.findCrlf c = .ok (some v, c')) : c.pos < c'.pos := by
  unfold P.findCrlf at e
  cases hk : lfEnd c.rest with
  | none => rw [hk] at e; cases e
  | some k =>
    rw [hk] at e
    cases e
    have h1 := (lfEnd_le _ _ hk).1
    show c.pos < c.pos + k
    omega

theorem sh_rawValue : Sh o parseRawHeaderValue := by
  intro c hc
  have e00 : ∀ d : Ctx, parseRawHeaderValue d = (P.findCrlf >>= fun b => P.allocStr ((d.src.drop d.pos).take (b - d.pos))) d := fun d => rfl
  have hs := findCrlf_step hc
  have he := findCrlf_sh o c
  rcases hq : P.findCrlf c with ⟨_ | b, d⟩ | _ | _ <;> rw [hq] at he
  · exact .of_eq ((e00 c).trans (P.bind_none hq)) ((e00 _).trans (P.bind_none he)) (hs _ _ hq)
  · have st := hs _ _ hq
    have e0 := (e00 c).trans (P.bind_ok hq)
    have e1 : parseRawHeaderValue (c.sh o) = P.allocStr (((o.read ++ c.src).drop (o.read.length + c.pos)).take (o.read.length + b - (o.read.length + c.pos))) (d.sh o) := (e00 _).trans (P.bind_ok he)
    rw [sh_drop, Nat.add_sub_add_left] at e1
    have hA : ShAt o (P.allocStr ((c.src.drop c.pos).take (b - c.pos))) d := Sh.allocStr _ st.inv
    exact ⟨by rw [e0, e1]; exact hA.eq, fun r c' e => st.trans (hA.step _ _ (e0 ▸ e))⟩
  · exact .of_panic ((e00 _).trans (P.bind_panic hq)) ((e00 _).trans (P.bind_panic he))
  · exact .of_hang ((e00 _).trans (P.bind_hang hq)) ((e00 _).trans (P.bind_hang he))

/-- the position found is not used -/
theorem sh_afterCrlf {p : P β} (hp : Sh o p) : Sh o (P.orErr P.findCrlf >>= fun _ => p) := by
  intro c hc
  have hs := findCrlf_step hc
  have he := findCrlf_sh o c
  rcases hq : P.findCrlf c with ⟨_ | b, d⟩ | _ | _ <;> rw [hq] at he
  · have q0 : P.orErr P.findCrlf c = .ok (none, d.addError d.pos) := by unfold P.orErr; rw [hq]
    have q1 : P.orErr P.findCrlf (c.sh o) = .ok (none, (d.addError d.pos).sh o) := by unfold P.orErr; rw [he]; rfl
    exact .of_eq (P.bind_none q0) (P.bind_none q1) (hs _ _ hq).addErrorHere
  · have st := hs _ _ hq
    have hA := hp d st.inv
    have e0 : (P.orErr P.findCrlf >>= fun _ => p) c = p d := P.bind_ok (P.orErr_ok hq)
    have e1 : (P.orErr P.findCrlf >>= fun _ => p) (c.sh o) = p (d.sh o) := P.bind_ok (P.orErr_ok he)
    exact ⟨by rw [e0, e1]; exact hA.eq, fun r c' e => st.trans (hA.step _ _ (e0 ▸ e))⟩
  · have q0 : P.orErr P.findCrlf c = .panic := by unfold P.orErr; rw [hq]
    have q1 : P.orErr P.findCrlf (c.sh o) = .panic := by unfold P.orErr; rw [he]; rfl
    exact .of_panic (P.bind_panic q0) (P.bind_panic q1)
  · have q0 : P.orErr P.findCrlf c = .hang := by unfold P.orErr; rw [hq]
    have q1 : P.orErr P.findCrlf (c.sh o) = .hang := by unfold P.orErr; rw [he]; rfl
    exact .of_hang (P.bind_hang q0) (P.bind_hang q1)

theorem sh_rawHeader (id : Nat) (name : Option Bytes) : Sh o (parseRawHeader id name) := by
  unfold parseRawHeader
  exact .bind .alloc (fun _ => .bind sh_rawValue (fun _ => .ret _))

/-! ## Header lines -/

theorem crlf_at {s : Bytes} {i : Nat} (h : isCRLF s i = true) : i + 2 ≤ s.length := by
  unfold isCRLF at h
  simp only [Bool.and_eq_true, decide_eq_true_eq] at h
  omega

theorem sh_valuesBody (net : Net) (k : HKind) (s : List HVal × HVal) : Sh o (valuesBody net k s) := by
  intro c hc
  obtain ⟨acc, v⟩ := s
  unfold valuesBody
  refine .get ?_ ?_
  · simp only [c.sh_src, c.sh_pos, isOnlyCRLF_sh, sh_ge]
  split
  · exact Sh.ret _ _ hc
  · split
    · rename_i h
      exact .bind (.skipN hc (crlf_at (onlyCRLF_isCRLF h))) (fun _ c1 _ h1 => Sh.ret _ _ h1)
    · refine .bind (sh_comma c hc) (fun m c1 _ h1 => ?_)
      split
      · exact .bind (sh_alloc net k c1 h1) (fun _ c2 _ h2 => Sh.ret _ _ h2)
      · exact .bind (sh_crlf c1 h1) (fun _ c2 _ h2 => Sh.ret _ _ h2)
theorem valuesBody_eats (net : Net) (k : HKind) (s : List HVal × HVal) (c : Ctx) (hc : Inv c) : EatsOn Goes (valuesBody net k s) c := by
  obtain ⟨acc, v⟩ := s
  unfold valuesBody
  refine .get ?_
  split
  · exact .ret (fun h => by obtain ⟨s', h⟩ := h; cases h)
  · split
    · rename_i h
      intro w c' e hT
      have e : (P.skip 2 >>= fun _ => (pure (.inr (acc ++ [v])) : P ((List HVal × HVal) ⊕ List HVal))) c = _ := e
      cases e
      obtain ⟨s', h⟩ := hT; cases h
    · intro w c' e hT
      have hC := comma_safe (N := True) (H := True) c hc
      rcases hq : P.comma c with ⟨_ | m, c1⟩ | _ | _
      · rw [P.bind_none hq] at e; cases e
      · rw [P.bind_ok hq] at e
        have st := hC.step _ _ hq
        cases m with
        | true =>
          have hlt := (hC.some _ _ hq).1.2 rfl
          have := (((sh_alloc (o := ⟨[], [], 0⟩) net k c1 st.inv).bind (fun v' c2 _ h2 => (Sh.ret (.inl (acc ++ [v], v')) : Sh _ (pure _ : P ((List HVal × HVal) ⊕ List HVal))) c2 h2)).step _ _ e).pos_le
          omega
        | false =>
          have e : (P.crlf >>= fun _ => (pure (.inr (acc ++ [v])) : P ((List HVal × HVal) ⊕ List HVal))) c1 = _ := e
          rcases hr : P.crlf c1 with ⟨_ | u, c2⟩ | _ | _
          · rw [P.bind_none hr] at e; cases e
          · rw [P.bind_ok hr] at e; cases e
            obtain ⟨s', h⟩ := hT; cases h
          · rw [P.bind_panic hr] at e; cases e
          · rw [P.bind_hang hr] at e; cases e
      · rw [P.bind_panic hq] at e; cases e
      · rw [P.bind_hang hq] at e; cases e

theorem sh_values (net : Net) (k : HKind) : Sh o (parseHeaderValues net k) := by
  unfold parseHeaderValues
  refine .bind (sh_alloc net k) (fun v => ?_)
  split
  · exact fun c hc => .loop hc (sh_valuesBody net k) (fun s c hc => valuesBody_eats net k s c hc)
  · exact .bind sh_crlf (fun _ => .ret _)

theorem sh_headerLine (net : Net) (need : HKind → Bool) (r : Option Bytes × Nat) : Sh o (parseHeaderLine net need r) := by
  obtain ⟨n, i⟩ := r
  have hraw : Sh o (parseRawHeader i n >>= fun h => (pure [.raw h] : P (List HItem))) := .bind (sh_rawHeader i n) (fun _ => .ret _)
  have e0 : parseHeaderLine net need (n, i) = parseHeaderLine net need (n, i) := rfl
  conv at e0 => rhs; unfold parseHeaderLine
  rw [e0]
  cases hk : HKind.ofIndex i with
  | none => simp only [hk]; exact hraw
  | some k =>
    simp only [hk]
    split
    · exact .bind (sh_values net k) (fun _ => .ret _)
    · exact hraw

theorem sh_headersBody (net : Net) (need : HKind → Bool) (acc : List HItem) : Sh o (headersBody net need acc) := by
  intro c hc
  unfold headersBody
  refine .get ?_ ?_
  · simp only [c.sh_src, c.sh_pos, isCRLF_sh, sh_ge]
  split
  · exact Sh.ret _ _ hc
  · split
    · rename_i h
      exact .bind (.skipN hc (crlf_at h)) (fun _ c1 _ h1 => Sh.ret _ _ h1)
    · exact .bind (.orErr (sh_msgHeaderName c hc)) (fun n c1 _ h1 => .bind (sh_headerLine net need n c1 h1) (fun _ c2 _ h2 => Sh.ret _ _ h2))
theorem msgHeaderName_eats {c c' : Ctx} (hc : Inv c) {n : Option Bytes × Nat} (e : parseMsgHeaderName c = .ok (some n, c')) : c.pos < c'.pos := by
  have hS := msgHeaderName_safe (N := False) (H := False) c hc (fun h => h.elim)
  have := (hS.some _ _ e).1.2.1
  omega
theorem headersBody_eats (net : Net) (need : HKind → Bool) (acc : List HItem) (c : Ctx) (hc : Inv c) : EatsOn Goes (headersBody net need acc) c := by
  unfold headersBody
  refine .get ?_
  split
  · exact .ret (fun h => by obtain ⟨s', h⟩ := h; cases h)
  · split
    · intro w c' e hT
      have e : (P.skip 2 >>= fun _ => (pure (.inr acc) : P (List HItem ⊕ List HItem))) c = _ := e
      cases e
      obtain ⟨s', h⟩ := hT; cases h
    · refine .sfirst (o := ⟨[], [], 0⟩) (.orErr (sh_msgHeaderName c hc)) ?_ (fun n c1 _ h1 => .bind (sh_headerLine net need n c1 h1) (fun _ c2 _ h2 => Sh.ret _ _ h2))
      intro v c' e
      exact msgHeaderName_eats hc (P.orErr_some e)
theorem sh_headers (net : Net) (need : HKind → Bool) : Sh o (parseHeaders net need) :=
  fun _ hc => .loop hc (sh_headersBody net need) (fun s c hc => headersBody_eats net need s c hc)

theorem sh_rawHeadersBody (acc : List RawHeader) : Sh o (rawHeadersBody acc) := by
  intro c hc
  unfold rawHeadersBody
  refine .get ?_ ?_
  · simp only [c.sh_src, c.sh_pos, isCRLF_sh, sh_ge]
  split
  · exact Sh.ret _ _ hc
  · split
    · rename_i h
      exact .bind (.skipN hc (crlf_at h)) (fun _ c1 _ h1 => Sh.ret _ _ h1)
    · exact .bind (sh_msgHeaderName c hc) (fun n c1 _ h1 => .bind (sh_rawHeader _ _ c1 h1) (fun _ c2 _ h2 => Sh.ret _ _ h2))
theorem rawHeadersBody_eats (acc : List RawHeader) (c : Ctx) (hc : Inv c) : EatsOn Goes (rawHeadersBody acc) c := by
  unfold rawHeadersBody
  refine .get ?_
  split
  · exact .ret (fun h => by obtain ⟨s', h⟩ := h; cases h)
  · split
    · intro w c' e hT
      have e : (P.skip 2 >>= fun _ => (pure (.inr acc) : P (List RawHeader ⊕ List RawHeader))) c = _ := e
      cases e
      obtain ⟨s', h⟩ := hT; cases h
    · refine .sfirst (o := ⟨[], [], 0⟩) (sh_msgHeaderName c hc) ?_ (fun n c1 _ h1 => .bind (sh_rawHeader _ _ c1 h1) (fun _ c2 _ h2 => Sh.ret _ _ h2))
      intro v c' e
      exact msgHeaderName_eats hc e
theorem sh_rawHeaders : Sh o parseRawHeaders :=
  fun _ hc => .loop hc sh_rawHeadersBody (fun s c hc => rawHeadersBody_eats s c hc)

/-! ## Start lines -/

theorem sh_sp : Sh o P.sp := by
  intro c hc
  unfold P.sp
  refine .peek ?_
  split
  · exact Sh.err _ hc
  · rename_i x hx
    split
    · exact Sh.err _ hc
    · exact .skip1 hc hx

theorem sh_request (net : Net) : Sh o (StartLine.parseRequest net) := by
  unfold StartLine.parseRequest
  exact .bind (.orErr sh_method) (fun _ => .bind sh_sp (fun _ => .bind (.orErr (sh_addrSpec net)) (fun _ => .bind sh_sp (fun _ => .bind (.orErr sh_version) (fun _ =>
    .bind (.orErr sh_crlf) (fun _ => .ret _))))))
theorem sh_status : Sh o StartLine.parseStatus := by
  unfold StartLine.parseStatus
  exact .bind (.orErr sh_afterStart) (fun _ => .bind sh_sp (fun _ => .bind sh_uint (fun _ => .bind sh_sp (fun _ => .bind (.orErr (sh_strEscEmpty _ (by decide +kernel))) (fun _ =>
    .bind (.orErr sh_crlf) (fun _ => .ret _))))))
theorem sh_startLine (net : Net) : Sh o (StartLine.parse net) := by
  unfold StartLine.parse
  refine .bind (.orElse (.bind sh_parseStart (fun _ => .ret _)) (.ret _)) (fun s => ?_)
  split
  · exact sh_status
  · exact sh_request net

/-! ## Bodies -/

theorem sh_singleBody (hs : Hdrs) : Sh o (parseSingleBody hs) := by
  intro c hc
  unfold parseSingleBody
  refine .get ?_ ?_
  · rw [c.sh_rest, c.sh_src, c.sh_pos, List.length_append, Nat.add_sub_add_left]
  dsimp only
  have rest : ∀ size : Nat, ShAt o (if size = 0 then pure [] else do
      P.orErr (P.alloc 16)
      let b ← P.orErr (P.allocStr (c.rest.take size))
      pure [{ body := some b }] : P (List Body)) c := by
    intro size
    split
    · exact Sh.ret _ _ hc
    · exact .bind (.orErr (Sh.alloc _ hc)) (fun _ c1 _ h1 => .bind (.orErr (Sh.allocStr _ h1)) (fun _ c2 _ h2 => Sh.ret _ _ h2))
  exact rest _

theorem sh_allocStrAny (b : Bytes) : Sh o (P.allocStrAny b) := by
  intro c hc
  have e0 : ∀ d : Ctx, P.allocStrAny b d = .ok (some (Sip.allocStr b d).1, (Sip.allocStr b d).2) := fun d => rfl
  refine .of_eq (e0 c) ?_ ?_
  · rw [e0, allocStr_sh]; rfl
  · have := (Sh.allocStr (o := o) (b := b) c hc).step
    unfold P.allocStr at this
    rcases hq : Sip.allocStr b c with ⟨_ | v, d⟩ <;> rw [hq] at this <;> exact this _ _ rfl

/-- SipMsg.go:695-719: a part behind the line of its delimiter -/
theorem sh_partRest (net : Net) (d : Bytes) : Sh o (do
    P.orErr (P.alloc 16)
    let c ← P.get
    let hs ← P.orErr (parseHeaders net (bodyNeed c.flags))
    let c ← P.get
    match indexOf d c.rest with
    | none => P.err
    | some e => do
      let b ← P.allocStrAny (c.rest.take e)
      P.skip (e + d.length)
      pure ⟨Hdrs.ofItems hs, b⟩ : P Body) := by
  refine .bind (.orErr .alloc) (fun _ => ?_)
  intro c hc
  refine .get (by rw [c.sh_flags]) ?_
  refine .bind (.orErr (sh_headers net _ c hc)) (fun hs c1 _ h1 => .get (by rw [c1.sh_rest]) ?_)
  cases he : indexOf d c1.rest with
  | none => exact Sh.err _ h1
  | some e =>
    have h5 := indexOf_some _ _ _ he
    have hF := h5.1.length_le
    have h6 := h5.2.1
    rw [List.length_drop] at hF
    have hr : c1.rest.length = c1.src.length - c1.pos := by unfold Ctx.rest; rw [List.length_drop]
    have hp := h1.pos
    refine .bind (sh_allocStrAny _ c1 h1) (fun b c2 e2 h2 => .bind (.skipN h2 ?_) (fun _ c3 _ h3 => Sh.ret _ _ h3))
    have st := (sh_allocStrAny (o := o) _ c1 h1).step _ _ e2
    have e3 : c2.pos = c1.pos := by
      unfold P.allocStrAny Sip.allocStr at e2
      split at e2
      rename_i h
      split at h <;> cases h <;> cases e2 <;> rfl
    rw [st.src, e3]
    omega
theorem sh_bodyPart (net : Net) (d : Bytes) : Sh o (parseBodyPart net d) := by
  unfold parseBodyPart
  exact sh_afterCrlf (sh_partRest net d)
theorem bodyPart_eats (net : Net) (d : Bytes) (c : Ctx) (hc : Inv c) : EatsAt (parseBodyPart net d) c := by
  intro v c' e
  unfold parseBodyPart at e
  rcases hq : P.orErr P.findCrlf c with ⟨_ | b, c1⟩ | _ | _
  · rw [P.bind_none hq] at e; cases e
  · rw [P.bind_ok hq] at e
    have h0 := P.orErr_some hq
    have h1 := findCrlf_eats _ _ _ h0
    have := ((sh_partRest (o := ⟨[], [], 0⟩) net d c1 (findCrlf_step hc _ _ h0).inv).step _ _ e).pos_le
    omega
  · rw [P.bind_panic hq] at e; cases e
  · rw [P.bind_hang hq] at e; cases e

theorem sh_multiRound (net : Net) (d : Bytes) (acc : List Body) : Sh o (multiBody net d acc) := by
  intro c hc
  unfold multiBody
  refine .get ?_ ?_
  · simp only [c.sh_src, c.sh_pos, sh_ge, sh_ge1, sh_get, sh_get1]
  split
  · exact Sh.fail _ hc
  · split
    · exact Sh.err _ hc
    · rename_i h
      split
      · exact .bind (.skipN hc (by omega)) (fun _ c1 _ h1 => Sh.ret _ _ h1)
      · exact .bind (sh_bodyPart net d c hc) (fun _ c1 _ h1 => Sh.ret _ _ h1)
theorem multiRound_eats (net : Net) (d : Bytes) (acc : List Body) (c : Ctx) (hc : Inv c) : EatsOn Goes (multiBody net d acc) c := by
  unfold multiBody
  refine .get ?_
  split
  · intro w c' e; cases e
  · split
    · intro w c' e; cases e
    · split
      · intro w c' e hT
        have e : (P.skip 2 >>= fun _ => (pure (.inr acc) : P (List Body ⊕ List Body))) c = _ := e
        cases e
        obtain ⟨s', h⟩ := hT; cases h
      · exact .sfirst (o := ⟨[], [], 0⟩) (sh_bodyPart net d c hc) (bodyPart_eats net d c hc) (fun _ c1 _ h1 => Sh.ret _ _ h1)
theorem sh_multiBody (net : Net) (boundary : Bytes) : Sh o (parseMultiBody net boundary) := by
  intro c hc
  have hp := hc.pos
  unfold parseMultiBody
  refine .get (by rw [c.sh_rest]) ?_
  split
  · exact Sh.err _ hc
  · rename_i h
    have hl : (0x2d :: 0x2d :: boundary).length ≤ c.src.length - c.pos := by
      have h : (0x2d :: 0x2d :: boundary).isPrefixOf c.rest = true := by simpa using h
      have := (List.isPrefixOf_iff_prefix.1 h).length_le
      unfold Ctx.rest at this
      rwa [List.length_drop] at this
    exact .bind (.skipN hc (by omega)) (fun _ c1 _ h1 => .loop h1 (sh_multiRound net _) (fun s c hc => multiRound_eats net _ s c hc))

theorem sh_msgBody (net : Net) (hs : Hdrs) : Sh o (parseMsgBody net hs) := by
  unfold parseMsgBody
  split
  · exact .ret _
  · split
    · split
      · exact .err
      · exact sh_multiBody net _
    · exact sh_singleBody hs

/-! ## Messages -/

theorem sh_msg (net : Net) : Sh o (Msg.parse net) := by
  unfold Msg.parse
  refine .bind (.orErr (sh_startLine net)) (fun s c hc => ?_)
  refine .get ?_ ?_
  · simp only [c.sh_src, c.sh_pos, c.sh_flags, sh_ge]
  split
  · exact Sh.err _ hc
  · exact .bind (.orErr (sh_headers net _ c hc)) (fun items c1 _ h1 => .bind (.orErr (sh_msgBody net _ c1 h1)) (fun bs c2 _ h2 => Sh.ret _ _ h2))

theorem sh_rawScan : Sh o rawScan := by
  refine fun _ hc => .loop hc (fun s c hc => ?_) (fun s c hc => ?_)
  · unfold rawScanBody
    refine .get ?_ ?_
    · simp only [c.sh_src, c.sh_pos, isCRLF_sh, sh_ge]
    split
    · exact Sh.ret _ _ hc
    · split
      · rename_i h
        exact .bind (.skipN hc (crlf_at h)) (fun _ c1 _ h1 => Sh.ret _ _ h1)
      · have e00 : ∀ d : Ctx, (P.findCrlf >>= fun _ => (pure (.inl ()) : P (Unit ⊕ Unit))) d = (P.findCrlf >>= fun _ => pure (.inl ())) d := fun d => rfl
        have he := findCrlf_sh o c
        have hs := findCrlf_step hc
        rcases hq : P.findCrlf c with ⟨_ | b, d⟩ | _ | _ <;> rw [hq] at he
        · exact .of_eq (P.bind_none hq) (P.bind_none he) (hs _ _ hq)
        · exact .of_eq (P.bind_ok hq) (P.bind_ok he) (hs _ _ hq)
        · exact .of_panic (P.bind_panic hq) (P.bind_panic he)
        · exact .of_hang (P.bind_hang hq) (P.bind_hang he)
  · unfold rawScanBody
    refine .get ?_
    split
    · exact .ret (fun h => by obtain ⟨s', h⟩ := h; cases h)
    · split
      · intro w c' e hT
        have e : (P.skip 2 >>= fun _ => (pure (.inr ()) : P (Unit ⊕ Unit))) c = _ := e
        cases e
        obtain ⟨s', h⟩ := hT; cases h
      · intro w c' e hT
        have e : (P.findCrlf >>= fun _ => (pure (.inl ()) : P (Unit ⊕ Unit))) c = _ := e
        rcases hq : P.findCrlf c with ⟨_ | b, d⟩ | _ | _
        · rw [P.bind_none hq] at e; cases e
        · rw [P.bind_ok hq] at e; cases e; exact findCrlf_eats _ _ _ hq
        · rw [P.bind_panic hq] at e; cases e
        · rw [P.bind_hang hq] at e; cases e

/-! ## The encoder uses the arena for the headers it adds -/

theorem Sh.ofOut (x : Out α) : Sh o (P.ofOut x) := by
  intro c hc
  cases x with
  | ok a => exact .of_eq (r := some a) (c' := c) rfl rfl (Step.refl hc)
  | panic => exact .of_panic rfl rfl
  | hang => exact .of_hang rfl rfl
theorem sh_addLength (m : Msg) : Sh o m.addLength := by
  unfold Msg.addLength
  split
  · exact .ret _
  · exact .bind (.orErr .alloc) (fun _ => .ret _)
theorem sh_addType (m : Msg) : Sh o m.addType := by
  unfold Msg.addType
  split
  · exact .ret _
  · exact .bind (.orErr .alloc) (fun _ => .bind (.orErr .allocStr) (fun _ => .bind (.orErr .allocStr) (fun _ => .ret _)))
theorem sh_allocBoundary (v : HVal) : Sh o (allocBoundary v) := by
  have h : Sh o (do
      P.orErr (P.alloc 8)
      let _ ← P.orErr (P.orErr (P.allocStr (str "boundary")))
      let _ ← P.orErr (P.orErr (P.allocStr defaultBoundary))
      pure () : P Unit) := .bind (.orErr .alloc) (fun _ => .bind (.orErr (.orErr .allocStr)) (fun _ => .bind (.orErr (.orErr .allocStr)) (fun _ => .ret _)))
  unfold allocBoundary
  refine .bind ?_ (fun _ => h)
  split
  · split
    · exact .orErr .alloc
    · exact .ret _
  · exact .ret _
theorem sh_boundary (m : Msg) : Sh o m.boundary := by
  unfold Msg.boundary
  refine .bind (sh_addType m) (fun r => ?_)
  obtain ⟨v, m⟩ := r
  dsimp only
  split
  · exact .ret _
  · exact .fail
  · exact .bind (.orErr (sh_allocBoundary v)) (fun _ => .ret _)
theorem sh_findBoundary (m : Msg) : Sh o m.findBoundary := by
  unfold Msg.findBoundary
  split
  · exact .orErr (sh_boundary m)
  · exact .ret _
theorem sh_encode (net : Net) (m : Msg) (buf : Bytes) : Sh o (m.encode net buf) := by
  intro c hc
  unfold Msg.encode
  refine .get (by rw [c.sh_flags]) ?_
  refine .bind (sh_addLength m c hc) (fun m1 c1 _ h1 => .bind (Sh.ofOut _ c1 h1) (fun s c2 _ h2 => .bind (sh_findBoundary m1 c2 h2) (fun r c3 _ h3 => ?_)))
  obtain ⟨b, m2⟩ := r
  exact .bind (Sh.ofOut _ c3 h3) (fun t c4 _ h4 => Sh.ret _ _ h4)

end
end Sip
