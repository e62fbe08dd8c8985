import Verif.Lemmas.ShiftPrim
/-! # What was read and stored before does not matter: hosts, schemes, versions, names -/
namespace Sip
section
variable {o : Past} {c : Ctx}

/-- an outcome given explicitly -/
theorem ShAt.of_eq {α : Type} {p : P α} {r : Option α} {c' : Ctx} (e0 : p c = .ok (r, c')) (e1 : p (c.sh o) = .ok (r, c'.sh o))
    (hs : Step c c') : ShAt o p c :=
  ⟨by rw [e0, e1]; rfl, fun r c' e => by rw [e0] at e; cases e; exact hs⟩
theorem ShAt.congr {α : Type} {p q : P α} (e0 : p c = q c) (e1 : p (c.sh o) = q (c.sh o)) (h : ShAt o q c) : ShAt o p c :=
  ⟨by rw [e0, e1]; exact h.eq, fun r c' e => h.step _ _ (e0 ▸ e)⟩
theorem ShAt.of_panic {α : Type} {p : P α} (e0 : p c = .panic) (e1 : p (c.sh o) = .panic) : ShAt o p c :=
  ⟨by rw [e0, e1]; rfl, fun r c' e => by rw [e0] at e; cases e⟩
theorem ShAt.of_hang {α : Type} {p : P α} (e0 : p c = .hang) (e1 : p (c.sh o) = .hang) : ShAt o p c :=
  ⟨by rw [e0, e1]; rfl, fun r c' e => by rw [e0] at e; cases e⟩
theorem Inv.addError (hc : Inv c) : Step c (c.addError c.pos) := (Step.refl hc).addErrorHere
theorem alloc_sh (o : Past) (c : Ctx) (n : Nat) : (c.sh o).alloc n = bsh o (c.alloc n) := by
  unfold Ctx.alloc
  simp only [sh_mem, sh_take, bsh_ite, bsh_mk]
theorem allocStr_sh (o : Past) (c : Ctx) (b : Bytes) : Sip.allocStr b (c.sh o) = bsh o (Sip.allocStr b c) := by
  unfold Sip.allocStr
  simp only [sh_mem, sh_take, bsh_ite, bsh_mk]
theorem step_alloc (hc : Inv c) (n : Nat) : Step c (c.alloc n).2 := by
  unfold Ctx.alloc
  split
  · exact Step.refl hc
  · exact ⟨rfl, rfl, rfl, Nat.le_refl _, hc.pos, Nat.le_add_right _ _, by dsimp only; omega, ErrsIn.refl⟩

theorem skipWhile_le (f : UInt8 → Bool) (s : Bytes) (p : Nat) (h : p ≤ s.length) : skipWhile f s p ≤ s.length := by
  unfold skipWhile; rw [runLen_eq_takeWhile]; exact runLen_drop_le f s p h
theorem parseUInt_le (s : Bytes) (p : Nat) (h : p ≤ s.length) : (parseUInt s p).newPos ≤ s.length :=
  (parseUInt_text { src := s, pos := p, used := 0, cap := 0 } ⟨h, Nat.le_refl _⟩).1.pos_len
theorem ipv4Loop_le (s : Bytes) (k : Nat) : ∀ (p : Nat) (acc : List UInt8), p ≤ s.length → (ipv4Loop s k p acc).2 ≤ s.length := by
  induction k with
  | zero => intro p acc h; exact h
  | succ k ih =>
    intro p acc h
    unfold ipv4Loop
    cases hb : s[p]? with
    | none => exact h
    | some d =>
      have h1 := (List.getElem?_eq_some_iff.1 hb).1
      have h2 := parseUInt_le s (p + 1) h1
      dsimp only
      split
      · exact h
      · split
        · exact h2
        · exact ih _ _ h2
theorem parseIpv4_le (s : Bytes) (p : Nat) (h : p ≤ s.length) : (parseIpv4 s p).2 ≤ s.length := by
  unfold parseIpv4
  have h2 := parseUInt_le s p h
  split
  · exact h
  · dsimp only
    split
    · exact h2
    · have h3 := ipv4Loop_le s 3 (parseUInt s p).newPos [UInt8.ofNat (parseUInt s p).digit] h2
      rcases hq : ipv4Loop s 3 (parseUInt s p).newPos [UInt8.ofNat (parseUInt s p).digit] with ⟨_ | ip, q⟩ <;> rw [hq] at h3
      · exact h3
      · dsimp only
        split <;> exact h3

/-! ## Brackets and hosts -/

theorem sh_bracket : Sh o parseBracketValue := by
  intro c hc
  refine ⟨?_, fun r c' e => ?_⟩
  · unfold parseBracketValue
    rw [c.sh_rest]
    cases c.rest.findIdx? (· = 0x5d) with
    | none => rfl
    | some i =>
      dsimp only
      rw [allocStr_sh]
      rcases Sip.allocStr (c.rest.take (i + 1)) c with ⟨_ | v, d⟩
      · rfl
      · show Out.ok (some v, (d.sh o).adv (i + 1)) = _
        rw [d.sh_adv]; rfl
  · unfold parseBracketValue at e
    cases hf : c.rest.findIdx? (· = 0x5d) with
    | none => rw [hf] at e; cases e; exact hc.addError
    | some i =>
      have hi := (List.findIdx?_eq_some_iff_findIdx_eq.1 hf).1
      have hl : i < c.src.length - c.pos := by unfold Ctx.rest at hi; rwa [List.length_drop] at hi
      have hp := hc.pos
      rw [hf] at e
      dsimp only at e
      unfold Sip.allocStr at e
      split at e
      · rename_i h
        split at h <;> cases h
        cases e; exact hc.addError
      · rename_i h
        split at h <;> cases h
        cases e
        exact ⟨rfl, rfl, rfl, Nat.le_add_right _ _, by show c.pos + (i + 1) ≤ c.src.length; omega, Nat.le_add_right _ _, by show c.used + _ ≤ c.cap; omega, ErrsIn.refl⟩

theorem sh_hostname : Sh o parseHostname := by
  unfold parseHostname
  exact .bind (sh_str _ (by decide +kernel)) (fun v => .ret _)

theorem sh_ipv6 (net : Net) : Sh o (parseIpv6 net) := by
  intro c hc
  have hge : c.pos ≤ skipWhile (· ≠ 0x5d) c.src c.pos := Nat.le_add_right _ _
  refine ⟨?_, fun r c' e => ?_⟩
  · unfold parseIpv6
    rw [c.sh_src, c.sh_pos, sh_skipWhile, sh_drop]
    dsimp only
    generalize skipWhile (fun x => decide (x ≠ 0x5d)) c.src c.pos = p at *
    rw [show o.read.length + p - (o.read.length + c.pos) = p - c.pos by omega]
    have e1 : (o.read.length + p ≥ ((c.sh o).setPos (o.read.length + p)).src.length) = (p ≥ c.src.length) := sh_ge _ _ _
    rw [Ctx.sh_setPos] at *
    rw [alloc_sh]
    by_cases h1 : p ≥ c.src.length
    · rw [if_pos (by rw [e1]; exact h1), if_pos (show p ≥ (c.setPos p).src.length from h1)]; rfl
    rw [if_neg (by rw [e1]; exact h1), if_neg (show ¬ p ≥ (c.setPos p).src.length from h1)]
    cases net.parseIP ((c.src.drop c.pos).take (p - c.pos)) with
    | none => rfl
    | some ip =>
      dsimp only
      rcases (c.setPos p).alloc 16 with ⟨_ | _, d⟩
      · rfl
      · show Out.ok (some (Host.ipv6 ip), (d.sh o).adv 1) = _
        rw [d.sh_adv]; rfl
  · unfold parseIpv6 at e
    dsimp only at e
    have hle := skipWhile_le (fun x => decide (x ≠ 0x5d)) c.src c.pos hc.pos
    generalize skipWhile (fun x => decide (x ≠ 0x5d)) c.src c.pos = p at *
    have hst : Step c (c.setPos p) := Step.setPos hc hge hle
    split at e
    · cases e; exact hst.addErrorHere
    · rename_i h1
      have h1 : ¬ p ≥ c.src.length := h1
      split at e
      · cases e; exact hst.addErrorHere
      · unfold Ctx.alloc at e
        split at e
        · rename_i h
          split at h <;> cases h
          cases e; exact hst.addErrorHere
        · rename_i h
          split at h <;> cases h
          rename_i hm
          have hm : ¬ c.used + 16 > c.cap := hm
          cases e
          exact ⟨rfl, rfl, rfl, by show c.pos ≤ p + 1; omega, by show p + 1 ≤ c.src.length; omega, Nat.le_add_right _ _, by show c.used + _ ≤ c.cap; omega, ErrsIn.refl⟩

theorem ipv4Loop_sh (o : Past) (s : Bytes) (k : Nat) : ∀ (p : Nat) (acc : List UInt8),
    ipv4Loop (o.read ++ s) k (o.read.length + p) acc = ((ipv4Loop s k p acc).1, o.read.length + (ipv4Loop s k p acc).2) := by
  induction k with
  | zero => intro p acc; rfl
  | succ k ih =>
    intro p acc
    unfold ipv4Loop
    rw [sh_get, Nat.add_assoc, parseUInt_sh]
    cases s[p]? with
    | none => rfl
    | some d =>
      dsimp only
      by_cases h1 : d ≠ 0x2e
      · rw [if_pos h1, if_pos h1]
      rw [if_neg h1, if_neg h1]
      show (if (!(parseUInt s (p + 1)).ok || decide ((parseUInt s (p + 1)).digit > 0xff)) = true then _ else _) = _
      by_cases h2 : (!(parseUInt s (p + 1)).ok || decide ((parseUInt s (p + 1)).digit > 0xff)) = true
      · rw [if_pos h2, if_pos h2]; rfl
      · rw [if_neg h2, if_neg h2]; exact ih _ _
theorem parseIpv4_sh (o : Past) (s : Bytes) (p : Nat) : parseIpv4 (o.read ++ s) (o.read.length + p) = ((parseIpv4 s p).1, o.read.length + (parseIpv4 s p).2) := by
  unfold parseIpv4
  simp only [sh_ge, parseUInt_sh]
  by_cases h0 : p ≥ s.length
  · rw [if_pos h0, if_pos h0]
  rw [if_neg h0, if_neg h0]
  show (if (!(parseUInt s p).ok || decide ((parseUInt s p).digit > 0xff)) = true then _ else _) = _
  by_cases h2 : (!(parseUInt s p).ok || decide ((parseUInt s p).digit > 0xff)) = true
  · rw [if_pos h2, if_pos h2]; rfl
  rw [if_neg h2, if_neg h2]
  show (match ipv4Loop (o.read ++ s) 3 (o.read.length + (parseUInt s p).newPos) _ with
    | (none, p) => (none, p)
    | (some ip, p) => if ((o.read ++ s)[p]?.map isHostname) = some true then (none, p) else (some ip, p)) = _
  rw [ipv4Loop_sh]
  show (match ((ipv4Loop s 3 (parseUInt s p).newPos [UInt8.ofNat (parseUInt s p).digit]).1, o.read.length + (ipv4Loop s 3 (parseUInt s p).newPos [UInt8.ofNat (parseUInt s p).digit]).2) with
    | (none, p) => (none, p)
    | (some ip, p) => if ((o.read ++ s)[p]?.map isHostname) = some true then (none, p) else (some ip, p)) = _
  rcases ipv4Loop s 3 (parseUInt s p).newPos [UInt8.ofNat (parseUInt s p).digit] with ⟨_ | ip, q⟩
  · rfl
  · dsimp only
    rw [sh_get]
    split <;> rfl

theorem sh_host (net : Net) : Sh o (parseHost net) := by
  intro c hc
  cases hb : c.cur? with
  | none => exact .of_eq (by unfold parseHost; rw [hb]) (by unfold parseHost; rw [c.sh_cur, hb]; rfl) hc.addError
  | some v =>
    by_cases h1 : v = 0x5b
    · have h := sh_ipv6 (o := o) net (c.adv 1) (Step.adv hc (cur_lt hb)).inv
      refine .congr (q := fun c => parseIpv6 net (c.adv 1)) ?_ ?_ ⟨?_, fun r c' e => (Step.adv hc (cur_lt hb)).trans (h.step _ _ e)⟩
      · unfold parseHost; rw [hb]; dsimp only; rw [if_pos h1]
      · unfold parseHost; rw [c.sh_cur, hb]; dsimp only; rw [if_pos h1]
      · show parseIpv6 net ((c.sh o).adv 1) = _; rw [c.sh_adv]; exact h.eq
    · by_cases h2 : isAlpha v = true
      · refine .congr (q := parseHostname) ?_ ?_ (sh_hostname c hc)
        · unfold parseHost; rw [hb]; dsimp only; rw [if_neg h1, if_pos h2]
        · unfold parseHost; rw [c.sh_cur, hb]; dsimp only; rw [if_neg h1, if_pos h2]
      · have e0 : ∀ d : Ctx, d.cur? = some v → parseHost net d = (match parseIpv4 d.src d.pos with
          | (none, _) => parseHostname d
          | (some ip, p) =>
            match (d.setPos p).alloc 4 with
            | (false, c) => .ok (none, c.addError p)
            | (true, c) =>
              match ip with
              | [a, b, d, e] => .ok (some (.ipv4 a b d e), c)
              | _ => .panic) := by
          intro d hd
          unfold parseHost; rw [hd]; dsimp only; rw [if_neg h1, if_neg h2]; rfl
        have e1 := e0 (c.sh o) (by rw [c.sh_cur]; exact hb)
        have e0 := e0 c hb
        rw [c.sh_src, c.sh_pos, parseIpv4_sh] at e1
        have hge := parseIpv4_ge c.src c.pos
        have hle := parseIpv4_le c.src c.pos hc.pos
        rcases hi : parseIpv4 c.src c.pos with ⟨_ | ip, p⟩ <;> rw [hi] at e0 e1 hge hle <;> dsimp only at e0 e1
        · exact .congr (q := parseHostname) e0 e1 (sh_hostname c hc)
        · have hst : Step c (c.setPos p) := Step.setPos hc hge hle
          have hal := step_alloc hst.inv 4
          rw [Ctx.sh_setPos, alloc_sh] at e1
          rcases ha : (c.setPos p).alloc 4 with ⟨_ | _, d⟩ <;> rw [ha] at e0 e1 hal <;> dsimp only [bsh] at e0 e1 hal
          · exact .of_eq e0 e1 ((hst.trans hal).addError _ ⟨hge, hle⟩)
          · rcases ip with _ | ⟨x, _ | ⟨y, _ | ⟨w, _ | ⟨u, _ | ⟨t, ip⟩⟩⟩⟩⟩
            all_goals first
              | exact .of_eq e0 e1 (hst.trans hal)
              | exact .of_panic e0 e1

theorem sh_hostPort (net : Net) : Sh o (HostPort.parse net) := by
  unfold HostPort.parse
  refine .bind (.orErr (sh_host net)) (fun h c1 hc1 => .peek ?_)
  split
  · rename_i hb
    refine .bind (.skip1 hc1 hb) (fun _ c2 _ hc2 => ?_)
    have hst : Step c2 (c2.setPos (parseUInt c2.src c2.pos).newPos) := Step.setPos hc2 (parseUInt_ge _ _) (parseUInt_le _ _ hc2.pos)
    have e0 : ∀ d : Ctx, (P.get >>= fun c => P.set (c.setPos (parseUInt c.src c.pos).newPos) >>= fun _ =>
        if (!(parseUInt c.src c.pos).ok) = true then P.err else
        if (parseUInt c.src c.pos).digit > 0xffff then P.err else
        (pure ⟨h, some (u16 (parseUInt c.src c.pos).digit)⟩ : P HostPort)) d =
        (if (!(parseUInt d.src d.pos).ok) = true then .ok (none, (d.setPos (parseUInt d.src d.pos).newPos).addError (parseUInt d.src d.pos).newPos) else
        if (parseUInt d.src d.pos).digit > 0xffff then .ok (none, (d.setPos (parseUInt d.src d.pos).newPos).addError (parseUInt d.src d.pos).newPos) else
        .ok (some ⟨h, some (u16 (parseUInt d.src d.pos).digit)⟩, d.setPos (parseUInt d.src d.pos).newPos)) := by
      intro d
      show (if (!(parseUInt d.src d.pos).ok) = true then P.err else
        if (parseUInt d.src d.pos).digit > 0xffff then P.err else
        (pure ⟨h, some (u16 (parseUInt d.src d.pos).digit)⟩ : P HostPort)) (d.setPos (parseUInt d.src d.pos).newPos) = _
      split
      · rfl
      · split <;> rfl
    refine ⟨(e0 _).trans (Eq.trans ?_ (congrArg (msh o) (e0 c2).symm)), fun r c' e => ?_⟩
    · rw [c2.sh_src, c2.sh_pos, parseUInt_sh]
      simp only [msh_ite]; rfl
    · have e := (e0 c2).symm.trans e
      split at e
      · cases e; exact hst.addErrorHere
      · split at e
        · cases e; exact hst.addErrorHere
        · cases e; exact hst
  · exact Sh.ret _ c1 hc1

/-! ## Schemes -/

theorem ShAt.byteAt {β : Type} {k : Nat} {f : UInt8 → P β} (h : ∀ b, c.src[c.pos + k]? = some b → ShAt o (f b) c) : ShAt o (P.byteAt k >>= f) c := by
  have hg : (c.sh o).src[(c.sh o).pos + k]? = c.src[c.pos + k]? := sh_get1 _ _ _ _
  cases hb : c.src[c.pos + k]? with
  | none =>
    refine .of_panic ?_ ?_
    · exact P.bind_panic (by unfold P.byteAt; rw [hb])
    · exact P.bind_panic (by unfold P.byteAt; rw [hg, hb])
  | some b =>
    refine .congr (q := f b) ?_ ?_ (h b hb)
    · exact P.bind_ok (by unfold P.byteAt; rw [hb])
    · exact P.bind_ok (by unfold P.byteAt; rw [hg, hb])

theorem sh_sipScheme : Sh o SipUri.parseScheme := by
  intro c hc
  refine .of_safe (safe_sipScheme c hc) ?_
  unfold SipUri.parseScheme
  rw [c.sh_rest]
  simp only [Ctx.sh_adv, msh_ite, msh_ok]; rfl
theorem sh_telScheme : Sh o TelUri.parseScheme := by
  intro c hc
  refine .of_safe (safe_telScheme 0 c hc) ?_
  rw [telScheme_eq, telScheme_eq, c.sh_rest]
  simp only [Ctx.sh_adv, msh_ite, msh_ok]

theorem sh_otherScheme : Sh o parseOtherScheme := by
  intro c hc
  refine .of_safe (safe_otherScheme c hc).1 ?_
  refine ShAt.eq ?_
  unfold parseOtherScheme
  refine .peek ?_
  split
  · exact Sh.fail c hc
  · split
    · refine .bind (sh_str _ (by decide +kernel) c hc) (fun v c1 _ h1 => .peek ?_)
      split
      · rename_i hb
        exact .bind (.skip1 h1 hb) (fun _ c2 _ h2 => Sh.ret _ c2 h2)
      · exact Sh.fail c1 h1
    · exact Sh.fail c hc
theorem sh_addrScheme : Sh o parseAddrScheme := by
  intro c hc
  refine .of_safe (safe_addrScheme c hc).1 ?_
  rw [addrScheme_eq, addrScheme_eq, c.sh_rest]
  cases schemeSel c.rest with
  | none => exact (sh_otherScheme c hc).eq
  | some x => dsimp only; rw [c.sh_adv]; rfl

/-! ## Name tries -/

/-- a place in the text, shifted -/
def tsh (o : Past) : Out (Nat × Nat) → Out (Nat × Nat)
  | .ok (i, p) => .ok (i, o.read.length + p)
  | .panic => .panic
  | .hang => .hang
theorem trie_sh (o : Past) (t : Trie) : ∀ (y : Bytes) (p : Nat), t.run y (o.read.length + p) = tsh o (t.run y p) := by
  induction t with
  | fail => intro y p; rfl
  | acc i k ih => 
    intro y p
    unfold Trie.run
    split
    · rfl
    · exact ih _ _
  | byte q k ih =>
    intro y p
    cases y with
    | nil => rfl
    | cons b y =>
      unfold Trie.run
      dsimp only
      split
      · rw [Nat.add_assoc]; exact ih _ _
      · rfl
  | lits ps k ih =>
    intro y p
    unfold Trie.run
    split
    · rfl
    · split
      · rw [Nat.add_assoc]; exact ih _ _
      · rfl
  | «case» q k els ih1 ih2 =>
    intro y p
    cases y with
    | nil => rfl
    | cons b y =>
      unfold Trie.run
      dsimp only
      split
      · rw [Nat.add_assoc]; exact ih1 _ _
      · exact ih2 _ _
theorem lookup_sh (o : Past) (t : Trie) (s : Bytes) (p : Nat) : t.lookup (o.read ++ s) (o.read.length + p) = tsh o (t.lookup s p) := by
  unfold Trie.lookup
  rw [sh_drop]
  simp only [sh_ge]
  split
  · rfl
  · exact trie_sh o t _ _

theorem methodIndex_sh (o : Past) (s : Bytes) (p : Nat) : getSipMethodIndex (o.read ++ s) (o.read.length + p) = tsh o (getSipMethodIndex s p) := lookup_sh o _ s p
theorem headerIndex_sh (o : Past) (s : Bytes) (p : Nat) : getSipHeaderIndex (o.read ++ s) (o.read.length + p) = tsh o (getSipHeaderIndex s p) := lookup_sh o _ s p

theorem sh_method : Sh o P.method := by
  intro c hc
  refine .of_safe (method_safe c hc) ?_
  have e0 : ∀ d : Ctx, P.method d = (match getSipMethodIndex d.src d.pos with
    | .ok (m, p) => if m = 0 then (match parseStrFromPos csSipToken p d with
        | .ok (none, c) => .ok (none, c)
        | .ok (some b, c) => .ok (some (.token (some b)), c)
        | .panic => .panic
        | .hang => .hang) else .ok (some (.known m), d.setPos p)
    | .panic => .panic
    | .hang => .hang) := by
    intro d
    show parseMethod d = _
    unfold parseMethod
    rcases getSipMethodIndex d.src d.pos with ⟨m, p⟩ | _ | _
    · show (if m = 0 then _ else _) = _
      dsimp only
      split
      · rcases parseStrFromPos csSipToken p d with ⟨_ | b, d⟩ | _ | _ <;> rfl
      · rfl
    · rfl
    · rfl
  rw [e0, e0, c.sh_src, c.sh_pos, methodIndex_sh]
  rcases getSipMethodIndex c.src c.pos with ⟨m, p⟩ | _ | _
  · dsimp only [tsh]
    rw [sh_strFromPos_eq]
    split
    · rcases parseStrFromPos csSipToken p c with ⟨_ | b, d⟩ | _ | _ <;> rfl
    · rfl
  · rfl
  · rfl

/-! ## Versions -/

theorem sh_majorMinor : Sh o Version.parseMajorMinor := by
  intro c hc
  have hge : c.pos ≤ skipWhile isDigit c.src c.pos := Nat.le_add_right _ _
  have hle := skipWhile_le isDigit c.src c.pos hc.pos
  refine ⟨?_, fun r c' e => ?_⟩
  · unfold Version.parseMajorMinor
    rw [c.sh_src, c.sh_pos, sh_skipWhile]
    dsimp only
    rw [sh_get, Nat.add_assoc, sh_strFromPos_eq]
    generalize skipWhile isDigit c.src c.pos = n at *
    by_cases h1 : n ≤ c.pos
    · rw [if_pos h1, if_pos (by omega)]; rfl
    rw [if_neg h1, if_neg (by omega)]
    cases c.src[n]? with
    | none => rfl
    | some d =>
      dsimp only
      by_cases h2 : d ≠ 0x2e
      · rw [if_pos h2, if_pos h2]; rfl
      rw [if_neg h2, if_neg h2]
      rcases parseStrFromPos csDigit (n + 1) c with ⟨_ | b, d⟩ | _ | _
      · rfl
      · dsimp only [msh]
        rw [d.sh_pos]
        by_cases h3 : d.pos ≤ n + 1
        · rw [if_pos h3, if_pos (by omega)]; rfl
        · rw [if_neg h3, if_neg (by omega)]
      · rfl
      · rfl
  · unfold Version.parseMajorMinor at e
    dsimp only at e
    generalize skipWhile isDigit c.src c.pos = n at *
    split at e
    · cases e; exact hc.addError
    · cases hb : c.src[n]? with
      | none => rw [hb] at e; cases e
      | some b =>
        have hn : n < c.src.length := (List.getElem?_eq_some_iff.1 hb).1
        rw [hb] at e
        dsimp only at e
        split at e
        · cases e; exact (Step.setPos hc hge hle).addErrorHere
        · have hst := (gsafe_strFromPos (N := False) (H := False) csDigit (n + 1) c hc (by omega) (by omega)).step
          rcases hp : parseStrFromPos csDigit (n + 1) c with ⟨_ | v, d⟩ | _ | _ <;> rw [hp] at e <;> dsimp only at e
          · cases e; exact (hst _ _ hp).addErrorHere
          · split at e
            · cases e; exact (hst _ _ hp).addErrorHere
            · cases e; exact hst _ _ hp
          · cases e
          · cases e

theorem sh_afterStart : Sh o Version.parseAfterStart := by
  intro c hc
  unfold Version.parseAfterStart
  refine .byteAt (fun b _ => ?_)
  split
  · exact sh_majorMinor c hc
  · refine .byteAt (fun b _ => ?_)
    split
    · exact sh_majorMinor c hc
    · refine .byteAt (fun b hb => ?_)
      have hb2 : c.pos + 2 < c.src.length := (List.getElem?_eq_some_iff.1 hb).1
      split
      · exact sh_majorMinor c hc
      · have hg : (c.sh o).src[(c.sh o).pos + 3]? = c.src[c.pos + 3]? := sh_get1 _ _ _ _
        refine .get ?_ ?_
        · rw [hg]
        · split
          · exact sh_majorMinor c hc
          · exact .bind (.skipN hc (by omega)) (fun _ c1 _ h1 => Sh.ret _ c1 h1)

theorem sh_parseStart : Sh o Version.parseStart := by
  intro c hc
  have e0 : ∀ d : Ctx, Version.parseStart d = Version.parseStart d := fun _ => rfl
  refine ⟨?_, fun r c' e => ?_⟩
  · unfold Version.parseStart
    rw [c.sh_src, c.sh_pos]
    simp only [sh_ge1, sh_get, sh_get1]
    by_cases h : c.pos + 6 ≥ c.src.length
    · rw [if_pos h, if_pos h]; rfl
    rw [if_neg h, if_neg h]
    rcases c.src[c.pos]? with _ | b0
    · rfl
    rcases c.src[c.pos + 1]? with _ | b1
    · rfl
    rcases c.src[c.pos + 2]? with _ | b2
    · rfl
    rcases c.src[c.pos + 3]? with _ | b3
    · rfl
    dsimp only
    simp only [Ctx.sh_adv, msh_ite, msh_ok]
  · unfold Version.parseStart at e
    split at e
    · cases e; exact Step.refl hc
    · split at e
      · split at e
        · cases e; exact Step.refl hc
        · cases e; exact Step.adv hc (by omega)
      · cases e

theorem sh_version : Sh o Version.parse := by
  unfold Version.parse
  exact .bind (.orErr sh_parseStart) (fun _ => sh_afterStart)

/-! ## Header names -/

theorem sh_parseName (k : HKind) : Sh o k.parseName := by
  intro c hc
  refine ShAt.of_safe (safe_headerName k c hc) ?_
  unfold HKind.parseName
  rw [c.sh_rest]
  rcases k.names.find? (fun n => nameAt k.looseDash n c.rest) with _ | n
  · rfl
  · dsimp only; rw [c.sh_adv]; rfl

/-- the name of a header line and its colon -/
theorem sh_msgHeaderName : Sh o parseMsgHeaderName := by
  have e0 : parseMsgHeaderName = (P.headerIndex >>= storeName) >>= fun n => P.orErr P.hcolon >>= fun _ => pure n := by
    unfold parseMsgHeaderName; rw [P.bind_assoc]
  rw [e0]
  refine .bind (fun c hc => ?_) (fun n => .bind (.orErr sh_hcolon) (fun _ => .ret _))
  refine ⟨?_, (gsafe_name (N := False) (H := False) c hc (fun h => h.elim)).step⟩
  rcases hi : getSipHeaderIndex c.src c.pos with ⟨m, p⟩ | _ | _
  · have i0 : P.headerIndex c = .ok (some (m, p), c) := by unfold P.headerIndex; rw [hi]
    have i1 : P.headerIndex (c.sh o) = .ok (some (m, o.read.length + p), c.sh o) := by unfold P.headerIndex; rw [c.sh_src, c.sh_pos, headerIndex_sh, hi]; rfl
    rw [P.bind_ok i0, P.bind_ok i1]
    cases m with
    | zero =>
      have hs := sh_strFromPos_eq (o := o) csSipToken p c
      rcases hq : parseStrFromPos csSipToken p c with ⟨_ | v, d⟩ | _ | _ <;> rw [hq] at hs
      · exact (P.bind_none hs).trans (congrArg (msh o) (P.bind_none hq).symm)
      · have i2 : storeName (0, p) c = .ok (some (some v, 0), d) := P.bind_ok hq
        rw [i2]; exact P.bind_ok hs
      · exact (P.bind_panic hs).trans (congrArg (msh o) (P.bind_panic hq).symm)
      · exact (P.bind_hang hs).trans (congrArg (msh o) (P.bind_hang hq).symm)
    | succ m => rfl
  · have i0 : P.headerIndex c = .panic := by unfold P.headerIndex; rw [hi]
    have i1 : P.headerIndex (c.sh o) = .panic := by unfold P.headerIndex; rw [c.sh_src, c.sh_pos, headerIndex_sh, hi]; rfl
    rw [P.bind_panic i0, P.bind_panic i1]; rfl
  · have i0 : P.headerIndex c = .hang := by unfold P.headerIndex; rw [hi]
    have i1 : P.headerIndex (c.sh o) = .hang := by unfold P.headerIndex; rw [c.sh_src, c.sh_pos, headerIndex_sh, hi]; rfl
    rw [P.bind_hang i0, P.bind_hang i1]; rfl

end
end Sip
