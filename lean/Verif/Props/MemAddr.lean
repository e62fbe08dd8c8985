import Verif.Props.MemUri
import Verif.Props.ReadsAddr
/-! # Memory used by addresses and header parameters -/
namespace Sip
namespace MemAt
variable {F C : Int} {c : Ctx}

/-! ## Addresses -/

/-- what is left over behind a scheme: the four bytes of `sip:` store nothing -/
def schemeCost : UriType → Int
  | .absolute => 0
  | _ => -36

theorem otherScheme : MemAt 9 schemeCost 2 parseOtherScheme c := by
  have h : MemAt 9 (fun _ => 2) 2 parseOtherScheme c :=
    ofSafe (k := 0) (fun hc => (safe_otherScheme c hc).1) (fun v c' hc e => ((safe_otherScheme c hc).1.step _ _ e).pos_le) (by omega)
  unfold parseOtherScheme
  refine peek ?_
  cases hcur : c.cur? with
  | none => exact fail
  | some b =>
    dsimp only
    refine ite (fun _ => ?_) (fun _ => fail)
    refine bind (str csUriScheme) (fun n c1 _ _ _ => peek (ite (fun h => ?_) (fun _ => fail)))
    exact bind (skip1 (by rw [h]; simp)) (fun _ c2 _ _ _ => pure (by show (0 : Int) ≤ 0 - -6 - -9; omega)) (by omega) (by omega)

theorem addrScheme : MemAt 9 schemeCost 2 parseAddrScheme c where
  some hc v c' e := by
    refine ⟨(safe_addrScheme c hc).1.step _ _ e, ?_⟩
    have other : parseOtherScheme c = .ok (Option.some v, c') → (c'.used : Int) ≤ c.used + 9 * ((c'.pos : Int) - c.pos) + schemeCost v :=
      fun h => (otherScheme.some hc v c' h).2
    have key : ∀ (ty : UriType) n, ty ≠ .absolute → 4 ≤ n → (Out.ok (Option.some ty, c.adv n) : Out (Option UriType × Ctx)) = .ok (Option.some v, c') →
        (c'.used : Int) ≤ c.used + 9 * ((c'.pos : Int) - c.pos) + schemeCost v := by
      intro ty n hty hn e
      cases e
      have : schemeCost v = -36 := by cases v <;> first | rfl | exact absurd rfl hty
      show (c.used : Int) ≤ c.used + 9 * (((c.pos + n : Nat) : Int) - c.pos) + schemeCost v
      omega
    unfold parseAddrScheme at e
    split at e
    · split at e
      · split at e
        · split at e
          · exact key _ 4 (by simp) (by omega) e
          · split at e
            · split at e
              · cases e
              · split at e
                · exact key _ 5 (by simp) (by omega) e
                · exact other e
            · exact other e
        · exact other e
      · split at e
        · split at e
          · exact key _ 4 (by simp) (by omega) e
          · exact other e
        · split at e
          · split at e
            · exact key _ 4 (by simp) (by omega) e
            · exact other e
          · exact other e
    · exact other e
  none hc c' e := by
    have h : MemAt 9 (fun _ => 2) 2 parseAddrScheme c :=
      ofSafe (k := 0) (fun hc => (safe_addrScheme c hc).1) (fun v c' hc e => ((safe_addrScheme c hc).1.step _ _ e).pos_le) (by omega)
    exact h.none hc c' e

/-- the URI with its struct; no other URI is accepted -/
theorem uriAfterScheme {net : Net} (hnet : net.Ok) (params : Bool) (ty : UriType) : MemAt 9 (fun _ => -schemeCost ty - 15) (-schemeCost ty + 2) (parseUriAfterScheme net params ty) c := by
  cases ty with
  | absolute => exact fail (by omega) (by show (0 : Int) ≤ -0 + 2; omega)
  | urn => exact fail (by omega) (by show (0 : Int) ≤ - -36 + 2; omega)
  | sip =>
    refine (seq (C := 34) (d := 21) (orErr alloc) (fun _ c1 _ _ _ => ?_)).le (by show (21 : Int) ≤ - -36 - 15; omega) (by show (34 : Int) ≤ - -36 + 2; omega)
    refine seq (b := 3) (C1 := 16) (ite (fun _ => sipRest hnet false) (fun _ => (sipRestNoParam hnet false).le)) (fun _ c2 _ _ _ => pure)
  | sips =>
    refine (seq (C := 34) (d := 21) (orErr alloc) (fun _ c1 _ _ _ => ?_)).le (by show (21 : Int) ≤ - -36 - 15; omega) (by show (34 : Int) ≤ - -36 + 2; omega)
    refine seq (b := 3) (C1 := 16) (ite (fun _ => sipRest hnet true) (fun _ => (sipRestNoParam hnet true).le)) (fun _ c2 _ _ _ => pure)
  | tel =>
    refine (seq (C := 34) (d := 21) (orErr alloc) (fun _ c1 _ _ _ => ?_)).le (by show (21 : Int) ≤ - -36 - 15; omega) (by show (34 : Int) ≤ - -36 + 2; omega)
    refine seq (b := -6) (C1 := 12) (ite (fun _ => telRest) (fun _ => (telRestNoParam (F := 9)).le)) (fun _ c2 _ _ _ => pure)

/-- a SIP address without brackets -/
theorem addrSpec {net : Net} (hnet : net.Ok) : MemAt 9 (fun _ => -15) 2 (parseAddrSpec net) c := by
  unfold parseAddrSpec
  refine bind addrScheme (fun ty c1 _ _ _ => ?_)
  refine bind (uriAfterScheme hnet true ty) (fun u c2 _ _ _ => pure (by omega)) (by omega) (by omega)

theorem laquot : MemAt 9 (fun _ => -9) 0 (P.ofBool parseLeftAngleQuote) c :=
  ofSafe (k := 1) (m := 0) (fun hc => safe_ofBool_laquot c hc) (eats ReadsAt.laquot (fun v t y h => by obtain ⟨w, _, rfl⟩ := h; simp)) (by omega)
theorem raquot : MemAt 9 (fun _ => -9) 0 (P.ofBool parseRightAngleQuote) c :=
  ofSafe (k := 1) (m := 0) (fun hc => safe_ofBool_raquot c hc) (eats ReadsAt.raquot (fun v t y h => by obtain ⟨w, _, rfl⟩ := h; simp)) (by omega)

theorem display_pos {v : Option (Bool × Bytes)} {t y : Bytes} (h : Gram.display v t y) : 1 ≤ t.length := by
  cases h <;> simp <;> omega

/-- the display name and the opening bracket -/
theorem displayLaquot : MemAt 9 (fun _ => -6) 2 parseDisplayLaquot c :=
  ofSafe (k := 1) (fun hc => (safe_displayLaquot c hc).1) (eats ReadsAt.displayLaquot (fun v t y h => display_pos h)) (by omega)

/-- the rest of an address in brackets -/
theorem nameAddrTail {net : Net} (hnet : net.Ok) (d : Option (Bool × Bytes)) :
    MemAt 9 (fun _ => -24) 2 (do let t ← parseAddrScheme; let u ← parseUriAfterScheme net true t; P.ofBool parseRightAngleQuote; Pure.pure (⟨true, d, u⟩ : Addr)) c := by
  refine bind addrScheme (fun ty c1 _ _ _ => ?_)
  refine bind (uriAfterScheme hnet true ty) (fun u c2 _ _ _ => ?_) (by omega) (by omega)
  exact bind raquot (fun _ c3 _ _ _ => pure (by omega)) (by omega) (by omega)

theorem nameAddr {net : Net} (hnet : net.Ok) : MemAt 9 (fun _ => -30) 2 (parseNameAddr net) c := by
  unfold parseNameAddr
  refine seq sws (fun _ c1 _ _ _ => ?_)
  exact seq displayLaquot (fun d c2 _ _ _ => (nameAddrTail hnet d).le)

/-- an address in brackets whose display name starts with a token: most of the input of the name is not needed -/
theorem nameAddr_token {net : Net} (hnet : net.Ok) (ht : (c.cur?.map csSipToken.mem) = Option.some true) :
    MemAt 9 (fun _ => -22 - 8 * ((c.rest.takeWhile csSipToken.mem).length : Int)) (4 - 8 * ((c.rest.takeWhile csSipToken.mem).length : Int)) (parseNameAddr net) c := by
  by_cases hc : Inv c
  case neg => exact ⟨fun h => absurd h hc, fun h => absurd h hc⟩
  have hsw : c.sws = c := by
    rw [sws_eq c hc.pos]
    have : swsLen c.rest = 0 := by
      cases hcur : c.cur? with
      | none => rw [hcur] at ht; cases ht
      | some b =>
        rw [hcur] at ht
        simp only [Option.map_some, Option.some.injEq] at ht
        exact swsLen_noWs (noWs_of (rest_eq_cons hcur).1 (token_lws b ht).1)
    rw [this]; rfl
  refine congr (p' := parseDisplayLaquot >>= fun d => (do let t ← parseAddrScheme; let u ← parseUriAfterScheme net true t; P.ofBool parseRightAngleQuote; Pure.pure (⟨true, d, u⟩ : Addr))) ?_ ?_
  · show (parseDisplayLaquot >>= fun d => _) c.sws = _
    rw [hsw]
  have hrun := takeWhile_len_le csSipToken c hc.pos
  have hd : MemAt 9 (fun _ => 2 - 8 * ((c.rest.takeWhile csSipToken.mem).length : Int)) (2 - 8 * ((c.rest.takeWhile csSipToken.mem).length : Int)) parseDisplayLaquot c := by
    have hs := safe_displayLaquot c hc
    refine ⟨fun _ v c' e => ⟨hs.1.step _ _ e, ?_⟩, fun _ c' e => ⟨hs.1.step _ _ e, ?_⟩⟩
    · have h1 := (hs.1.some _ _ e).2.2
      have h2 := hs.2 v c' e ht
      omega
    · have h1 := hs.1.nmem _ e
      have h2 := hc.pos
      omega
  exact seq hd (fun d c2 _ _ _ => (nameAddrTail hnet d).le)

/-- moving to a state with `w` more bytes in use at the same position -/
theorem waste {α : Type} {B : α → Int} {p p' : P α} {c1 : Ctx} {w : Int} (e0 : p c = p' c1) (hs : Inv c → Step c c1) (hpos : c1.pos = c.pos) (hu : Inv c → (c1.used : Int) ≤ c.used + w)
    (h : MemAt F B C p' c1) : MemAt F (fun v => B v + w) (C + w) p c where
  some hc v c' e := by
    rw [e0] at e
    obtain ⟨s, h1⟩ := h.some (hs hc).inv v c' e
    have := hu hc
    exact ⟨(hs hc).trans s, by omega⟩
  none hc c' e := by
    rw [e0] at e
    obtain ⟨s, h1⟩ := h.none (hs hc).inv c' e
    rw [(hs hc).src, hpos] at h1
    have := hu hc
    exact ⟨(hs hc).trans s, by omega⟩

/-- **C29** the address: the memory of a scheme that was not one is paid for by the display name -/
theorem addr {net : Net} (hnet : net.Ok) (params : Bool) : MemAt 9 (fun _ => -15) 2 (parseAddr net params) c := by
  by_cases hc : Inv c
  case neg => exact ⟨fun h => absurd h hc, fun h => absurd h hc⟩
  unfold parseAddr
  refine peek ?_
  cases hcur : c.cur? with
  | none => exact err
  | some b =>
    dsimp only
    refine ite (fun _ => (nameAddr hnet).le) (fun _ => ?_)
    have hs := safe_addrScheme c hc
    generalize hp : (P.orElse (do let t ← parseAddrScheme; Pure.pure (Option.some t)) (Pure.pure Option.none) >>= parseAddrSpecOrName net params : P Addr) = p
    have e0 : p c = p c := rfl
    conv at e0 => rhs; rw [← hp]
    rcases hpc : parseAddrScheme c with ⟨_ | t, d⟩ | _ | _
    · have e1 : P.orElse (do let t ← parseAddrScheme; Pure.pure (Option.some t)) (Pure.pure Option.none) c = .ok (Option.some Option.none, d.setPos c.pos) := by
        unfold P.orElse; rw [P.bind_none hpc]; rfl
      rw [P.bind_ok e1] at e0
      have e0 : p c = parseNameAddr net (d.setPos c.pos) := e0
      have st := hs.1.step _ _ hpc
      have hw := hs.2 d hpc
      have stp : Step c (d.setPos c.pos) := ⟨st.src, st.cap, st.flags, Nat.le_refl _, hc.pos, st.used_le, st.used_cap, st.errs⟩
      have hsrc : (d.setPos c.pos).src = c.src := st.src
      have hrest : (d.setPos c.pos).rest = c.rest := by unfold Ctx.rest; rw [hsrc]; rfl
      have hcur' : (d.setPos c.pos).cur? = c.cur? := by unfold Ctx.cur?; rw [hsrc]; rfl
      rcases hw with hw | ⟨ha, hw⟩
      · exact (waste (w := 0) e0 (fun _ => stp) rfl (fun _ => by show (d.used : Int) ≤ _; omega) (nameAddr hnet)).le
      · have htok : (c.cur?.map csSipToken.mem) = Option.some true := by
          rw [hcur] at ha ⊢
          simp only [Option.map_some, Option.some.injEq] at ha ⊢
          exact (scheme_token b (alpha_scheme b ha)).1
        have hpos : 1 ≤ (c.rest.takeWhile csSipToken.mem).length := by
          rw [hcur] at htok
          simp only [Option.map_some, Option.some.injEq] at htok
          rw [(rest_eq_cons hcur).1, List.takeWhile_cons, if_pos htok]
          simp
        have hlt : (c.rest.takeWhile csUriScheme.mem).length ≤ (c.rest.takeWhile csSipToken.mem).length := by
          generalize c.rest = l
          induction l with
          | nil => simp
          | cons a l ih =>
            simp only [List.takeWhile_cons]
            split
            · rename_i h
              rw [if_pos (scheme_token a h).1]; simp only [List.length_cons]; omega
            · simp
        have hn := nameAddr_token (net := net) (c := d.setPos c.pos) hnet (by rw [hcur']; exact htok)
        rw [hrest] at hn
        exact (waste (w := (c.rest.takeWhile csSipToken.mem).length + 2) e0 (fun _ => stp) rfl (fun _ => by show (d.used : Int) ≤ _; omega) hn).le
    · have e1 : P.orElse (do let t ← parseAddrScheme; Pure.pure (Option.some t)) (Pure.pure Option.none) c = .ok (Option.some (Option.some t), d) := by
        unfold P.orElse; rw [P.bind_ok hpc]; rfl
      rw [P.bind_ok e1] at e0
      refine congr (p' := parseAddrScheme >>= fun t => parseAddrSpecOrName net params (Option.some t)) (by rw [P.bind_ok hpc, e0]) ?_
      refine bind addrScheme (fun ty c1 _ _ _ => ?_)
      exact bind (uriAfterScheme hnet params ty) (fun u c2 _ _ _ => pure (by omega)) (by omega) (by omega)
    · have e1 : P.orElse (do let t ← parseAddrScheme; Pure.pure (Option.some t)) (Pure.pure Option.none) c = .panic := by
        unfold P.orElse; rw [P.bind_panic hpc]
      rw [P.bind_panic e1] at e0
      exact congr (p' := P.panic) e0 panic
    · exact absurd hpc (hs.1.nohang (PreH.zero _))

/-! ## Header parameters -/

theorem bracket (hb : c.cur? = Option.some 0x5b) : MemAt 9 (fun _ => -14) 2 parseBracketValue c := by
  refine ofSafe (k := 2) (fun hc => safe_bracket c hc hb) (eats (ReadsAt.bracket (rest_eq_cons hb).1) (fun v t y h => ?_)) (by omega)
  obtain ⟨_, x, rfl, _⟩ := h
  simp

theorem genValue : MemAt 9 (fun _ => -6) 2 GenericParam.parseValue c := by
  unfold GenericParam.parseValue
  refine peek ?_
  cases hcur : c.cur? with
  | none => exact err
  | some b =>
    dsimp only
    refine ite (fun _ => seq (str _) (fun _ _ _ _ _ => pure)) (fun _ => ite (fun _ => seq quoted (fun _ _ _ _ _ => pure)) (fun _ => ite (fun hb => ?_) (fun _ => err)))
    exact seq (bracket (by rw [hcur, hb])) (fun _ _ _ _ _ => pure)

theorem genericParam : MemAt 9 (fun _ => -6) 2 GenericParam.parse c := by
  unfold GenericParam.parse
  refine seq (orErr (strEsc _)) (fun n c1 _ _ _ => peek ?_)
  split
  · exact pure
  · refine ite (fun _ => pure) (fun _ => ?_)
    refine bind (markCanOmmit 0x3d) (fun m c2 _ _ _ => ?_) (by omega) (by omega)
    cases m with
    | false => exact ite (fun _ => pure (by simp)) (fun h => absurd rfl h)
    | true =>
      refine ite (fun h => by cases h) (fun _ => ?_)
      refine bind genValue (fun v c3 _ _ _ => pure ?_) (by omega) ?_
      · simp
      · simp

theorem nextParamMark : MemAt 9 (fun b => if b = true then -9 else 0) 0 (Sip.nextParamMark 0x3b) c where
  some hc v c' e := by
    have s := (safe_nextParamMark 0x3b (by decide) c hc).1.step _ _ e
    refine ⟨s, ?_⟩
    unfold Sip.nextParamMark at e
    split at e
    · rename_i d hd
      cases e
      have h := (markCanOmmit (F := 9) 0x3b).some hc false d hd
      have hu : d.used = c.used := by
        simp only [P.markCanOmmit] at hd
        rw [swsMarkCanOmmit_spec c hc.pos] at hd
        split at hd
        · rename_i h; split at h
          · cases h
          · split at h
            · cases h; cases hd
            · cases h; cases hd; exact sws_used c
        · rename_i h; split at h
          · cases h; cases hd
          · split at h <;> cases h
      show (d.used : Int) ≤ c.used + 9 * ((c.pos : Int) - c.pos) + _
      simp only [Bool.false_eq_true, if_false]
      omega
    · exact ((markCanOmmit (F := 9) 0x3b).some hc v c' e).2
  none hc c' e := by
    unfold Sip.nextParamMark at e
    split at e
    · cases e
    · exact (markCanOmmit (F := 9) 0x3b).none hc c' e

theorem genericParams {κ : Type} {φ : κ → Int} {setK : κ → GenericParam → P (Option κ)} (hset : ∀ k p c, Inv c → MemAt 9 (knownCost φ k) 0 (setK k p) c) (hφ : ∀ k, 0 ≤ φ k)
    (k : κ) : MemAt 9 (fun _ => φ k) (φ k + 1) (parseGenericParams 0x3b setK k) c := by
  refine (forLoop (F := 9) (C := 1) (fun s : κ × List GenericParam => φ s.1) (D := fun r => -φ r.1) (fun s c1 _ => ?_)).mono (Int.le_refl _) (fun r => by have := hφ r.1; show φ k + -φ r.1 ≤ φ k; omega) (Int.le_refl _)
  obtain ⟨k, acc⟩ := s
  have hk := hφ k
  unfold genericParamsBody
  have stop : ∀ c' : Ctx, MemAt 9 (roundCost (fun s : κ × List GenericParam => φ s.1) (fun r : κ × List GenericParam => -φ r.1) (k, acc)) (φ k + 1) (Pure.pure (Sum.inr (k, acc)) : P ((κ × List GenericParam) ⊕ (κ × List GenericParam))) c' :=
    fun c' => pure (by show 0 ≤ φ k + -φ k; omega)
  refine get ?_
  split
  · exact stop c1
  · refine ite (fun _ => stop c1) (fun _ => ite (fun _ => stop c1) (fun _ => ?_))
    refine bind nextParamMark (fun m c2 _ _ _ => ?_) (by omega) (by show 0 ≤ φ k + 1; omega)
    cases m with
    | false =>
      refine ite (fun _ => pure ?_) (fun h => absurd rfl h)
      simp only [Bool.false_eq_true, if_false]
      show 0 ≤ φ k + -φ k - 0; omega
    | true =>
      refine ite (fun h => by cases h) (fun _ => ?_)
      simp only [if_true]
      refine bind (orErr alloc) (fun _ c3 _ _ _ => ?_) (by omega) (by show (0 : Int) ≤ φ k + 1 - -9; omega)
      refine bind genericParam (fun p c4 _ _ hi => ?_) (by omega) (by show (2 : Int) ≤ φ k + 1 - -9 - ((8 : Nat) : Int); omega)
      refine bind (hset k p c4 hi) (fun r c5 _ _ _ => ?_) (by omega) (by show (0 : Int) ≤ φ k + 1 - -9 - ((8 : Nat) : Int) - -6; omega)
      cases r with
      | none => exact pure (by show 0 ≤ φ k - φ k - -9 - ((8 : Nat) : Int) - -6 - 0; omega)
      | some k' => exact pure (by show 0 ≤ φ k - φ k' - -9 - ((8 : Nat) : Int) - -6 - (φ k - φ k'); omega)

theorem params (k : HKind) : MemAt 9 (fun _ => 2 * (k.paramNames.length : Int)) (2 * (k.paramNames.length : Int) + 1) k.params c := by
  unfold HKind.params Params.parse
  refine seq (orErr ((genericParams (φ := knownPot k.paramNames) (fun kn p c _ => get (setKnown _ _ _ _ _)) (knownPot_nonneg _) []).le (Int.le_refl _) (Int.le_refl _))) (fun r c1 _ _ _ => ?_) (by omega) ?_
  · exact pure (by show 0 ≤ _ - knownPot _ []; unfold knownPot; rw [if_pos rfl]; omega)
  · unfold knownPot; rw [if_pos rfl]; omega

end MemAt
end Sip
