import Verif.Lemmas.Mem
import Verif.Props.ReadsUri
/-! # Memory used by hosts and URIs -/
namespace Sip
namespace MemAt
variable {F C : Int} {c : Ctx}

/-- a host: an IPv6 address takes 16 bytes and at least two of input -/
theorem host {net : Net} (hnet : net.Ok) (hF : 9 ≤ F) (hC : 16 ≤ C) : MemAt F (fun _ => 0) C (parseHost net) c := by
  have hs : MemAt F (fun _ => 16) C (parseHost net) c :=
    ofSafe (k := 0) (fun hc => host_safe net hnet c hc) (fun v c' hc e => ((host_safe net hnet c hc).step _ _ e).pos_le) (by omega) hF (by omega) (by omega)
  refine ⟨fun hc v c' e => ?_, hs.none⟩
  refine ⟨(hs.some hc v c' e).1, ?_⟩
  have hread := ReadsAt.host hc v c' e
  obtain ⟨st, t, ht, hg⟩ := hread
  have hp := st.pos_text ht
  unfold parseHost at e
  split at e
  · cases e
  · rename_i b hb
    split at e
    · rename_i hv
      subst hv
      unfold parseIpv6 at e
      dsimp only at e
      have h0 : (c.adv 1).pos = c.pos + 1 := rfl
      have hge := (skipWhile_bounds (fun x => decide (x ≠ (0x5d : UInt8))) (c.adv 1).src (c.adv 1).pos (rest_eq_cons hb).2).1
      split at e
      · cases e
      · split at e
        · cases e
        · split at e
          · cases e
          · rename_i d hd
            cases e
            unfold Ctx.alloc at hd
            split at hd
            · cases hd
            · cases hd
              show (((c.used + 16 : Nat)) : Int) ≤ c.used + 9 * (((skipWhile _ _ _ + 1 : Nat) : Int) - c.pos) + 0
              omega
    · split at e
      · have := (seq (d := 0) (F := 9) (C := 2) (str csHostname) (fun v c1 _ _ _ => pure)).some hc v c' e
        exact this.2
      · split at e
        · have := (seq (d := 0) (F := 9) (C := 2) (str csHostname) (fun v c1 _ _ _ => pure)).some hc v c' e
          exact this.2
        · rename_i ip p hip
          split at e
          · cases e
          · rename_i d hd
            split at e
            · cases e
              have hu : c'.used = c.used + 4 := by
                unfold Ctx.alloc at hd
                split at hd
                · cases hd
                · cases hd; rfl
              have h1 : 1 ≤ t.length := by
                cases hg with
                | ipv4 _ _ _ _ _ _ h hy =>
                  unfold Ipv4Text at h
                  generalize hq : (0x2e :: t : Bytes) = q at h
                  cases h with
                  | succ k d' s' ip' hne hd' hv' h' =>
                    have := congrArg List.length hq
                    have := List.length_pos_iff.2 hne
                    simp only [List.length_append, List.length_cons] at *
                    omega
              omega
            · cases e

theorem hostport {net : Net} (hnet : net.Ok) (hF : 9 ≤ F := by omega) : MemAt F (fun _ => 0) 16 (HostPort.parse net) c := by
  unfold HostPort.parse
  refine seq (orErr (host hnet hF (Int.le_refl _))) (fun h c1 _ _ hi => peek ?_)
  split
  · rename_i hb
    refine seq (skip1 (by rw [hb]; simp)) (fun _ c2 e2 _ hi2 => get ?_)
    refine after (p' := (if !(parseUInt c2.src c2.pos).ok then P.err else
          if (parseUInt c2.src c2.pos).digit > 0xffff then P.err else
          Pure.pure ⟨h, Option.some (u16 (parseUInt c2.src c2.pos).digit)⟩ : P HostPort)) (c1 := c2.setPos (parseUInt c2.src c2.pos).newPos) rfl
      (fun hc => (parseUInt_text c2 hc).1) rfl ?_
    exact ite (fun _ => err) (fun _ => ite (fun _ => err) (fun _ => pure))
  · exact pure

theorem uriParam {cs : CharsetInfo} (hcs : cs.Lines) (hF : 9 ≤ F := by omega) : MemAt F (fun _ => -6) 2 (UriParam.parse cs) c := by
  unfold UriParam.parse
  refine seq (orErr (strEsc _ hcs.1)) (fun n c1 _ _ _ => peek (ite (fun h => ?_) (fun _ => pure)))
  exact seq (skip1 (by rw [h]; simp)) (fun _ c2 _ _ _ => seq (orErr (strEsc _ hcs.2)) (fun _ _ _ _ _ => pure))

/-- what a change of the table of known parameters costs -/
def knownCost {κ : Type} (φ : κ → Int) (k : κ) : Option κ → Int
  | Option.some k' => φ k - φ k'
  | Option.none => 0

theorem uriParamsBody {κ : Type} {φ : κ → Int} {cs : CharsetInfo} (hcs : cs.Lines) {setK : κ → UriParam → P (Option κ)}
    (hset : ∀ k p c, Inv c → MemAt F (knownCost φ k) 0 (setK k p) c) (hφ : ∀ k, 0 ≤ φ k) (s : κ × List UriParam) (hF : 9 ≤ F := by omega) :
    MemAt F (roundCost (fun s : κ × List UriParam => φ s.1) (fun r : κ × List UriParam => -φ r.1) s) (φ s.1 + 8) (Sip.uriParamsBody cs setK s) c := by
  obtain ⟨k, acc⟩ := s
  have hk := hφ k
  refine peek (ite (fun _ => pure (by show 0 ≤ φ k + -φ k; omega)) (fun _ => ?_))
  refine bind (orErr alloc) (fun _ c1 _ _ _ => ?_) hF (by show 0 ≤ φ k + 8; omega)
  refine bind (uriParam hcs) (fun p c2 _ _ hi2 => ?_) hF (by show 2 ≤ φ k + 8 - _; omega)
  refine bind (hset k p c2 hi2) (fun r c3 _ _ _ => peek ?_) hF (by show 0 ≤ φ k + 8 - _ - _; omega)
  have h9 : ∀ (C' : Int) (s' : κ × List UriParam), 0 ≤ C' →
      MemAt F (fun w : (κ × List UriParam) ⊕ (κ × List UriParam) => roundCost (fun s : κ × List UriParam => φ s.1) (fun r : κ × List UriParam => -φ r.1) (k, acc) w - ((6 : Nat) : Int) - -6 - (φ k - φ s'.1)) C'
      (if c3.cur? = Option.some 59 then P.skip 1 >>= fun _ => Pure.pure (Sum.inl s') else Pure.pure (Sum.inr s')) c3 := by
    intro C' s' hC'
    refine ite (fun h => ?_) (fun _ => pure (by show 0 ≤ φ k + -φ s'.1 - ((6 : Nat) : Int) - -6 - (φ k - φ s'.1); omega))
    exact bind (skip1 (by rw [h]; simp)) (fun _ _ _ _ _ => pure (by show 0 ≤ φ k - φ s'.1 - ((6 : Nat) : Int) - -6 - (φ k - φ s'.1) - -9; omega)) hF hC'
  cases r with
  | some k' =>
    have := hφ k'
    exact h9 _ (k', acc) (by show 0 ≤ φ k + 8 - ((6 : Nat) : Int) - -6 - (φ k - φ k'); omega)
  | none =>
    refine (h9 (8 + φ k) (k, acc ++ [p]) (by omega)).mono (Int.le_refl _) (fun w => ?_) ?_
    · show _ - _ - _ - (φ k - φ k) ≤ _ - _ - _ - 0; omega
    · show 8 + φ k ≤ φ k + 8 - ((6 : Nat) : Int) - -6 - 0; omega

theorem uriParams {κ : Type} {φ : κ → Int} {cs : CharsetInfo} (hcs : cs.Lines) {setK : κ → UriParam → P (Option κ)}
    (hset : ∀ k p c, Inv c → MemAt F (knownCost φ k) 0 (setK k p) c) (hφ : ∀ k, 0 ≤ φ k) (k : κ) (hF : 9 ≤ F := by omega) :
    MemAt F (fun _ => φ k) (φ k + 8) (parseUriParams cs setK k) c := by
  have := hφ k
  refine peek (ite (fun _ => err) (fun _ => ?_))
  exact (forLoop (fun s => φ s.1) (D := fun r => -φ r.1) (C := 8) (fun s c1 _ => uriParamsBody hcs hset hφ s)).mono (Int.le_refl _)
    (fun r => by have := hφ r.1; show φ k + -φ r.1 ≤ φ k; omega) (Int.le_refl _)

/-- the array of the known parameters is allocated once -/
def knownPot {α : Type} (names : List Bytes) (known : List (Option α)) : Int := if known = [] then 2 * (names.length : Int) else 0
theorem knownPot_nonneg {α : Type} (names : List Bytes) (known : List (Option α)) : 0 ≤ knownPot names known := by unfold knownPot; split <;> omega

theorem setKnown {α : Type} (names : List Bytes) (on : Bool) (known : List (Option α)) (name : Bytes) (p : α) (hF : 9 ≤ F := by omega) :
    MemAt F (knownCost (knownPot names) known) 0 (Sip.setKnown names on known name p) c := by
  unfold Sip.setKnown
  refine ite (fun _ => pure (Int.le_refl _)) (fun _ => ?_)
  split
  · exact pure (Int.le_refl _)
  · rename_i i hi
    have hlen : i < names.length := by
      unfold knownIndex at hi
      obtain ⟨h, _⟩ := List.findIdx?_eq_some_iff_getElem.1 hi
      exact h
    refine ite (fun h => ?_) (fun h => ?_)
    · refine bind allocMust (fun _ _ _ _ _ => pure ?_) hF (Int.le_refl _)
      show 0 ≤ knownPot names known - knownPot names ((List.replicate names.length Option.none).set i (Option.some p)) - ((2 * names.length : Nat) : Int)
      have h2 : (List.replicate names.length (Option.none : Option α)).set i (Option.some p) ≠ [] := by
        intro hx
        have := congrArg List.length hx
        simp only [List.length_set, List.length_replicate, List.length_nil] at this
        omega
      unfold knownPot
      rw [if_pos h, if_neg h2]
      omega
    · refine pure ?_
      show 0 ≤ knownPot names known - knownPot names (known.set i (Option.some p))
      have h2 : known.set i (Option.some p) ≠ [] := by
        intro hx
        have := congrArg List.length hx
        rw [List.length_set] at this
        exact h (List.length_eq_zero_iff.1 this)
      unfold knownPot
      rw [if_neg h, if_neg h2]
      omega

theorem sipParams (hF : 9 ≤ F := by omega) : MemAt F (fun _ => 3) 11 SipUri.parseParams c := by
  unfold SipUri.parseParams
  refine peek (ite (fun h => ?_) (fun _ => pure))
  refine seq (skip1 (by rw [h]; simp)) (fun _ c1 _ _ _ => ?_)
  refine (orErr (uriParams (φ := knownPot sipUriKnownNames) sipCS_lines.1 (fun k p c _ => get (setKnown _ _ _ _ _)) (knownPot_nonneg _) [])).le ?_ ?_
  · decide +kernel
  · decide +kernel

theorem uriHeader {cs : CharsetInfo} (hcs : cs.Lines) (hF : 9 ≤ F := by omega) : MemAt F (fun _ => -13) 2 (UriHeader.parse cs) c := by
  unfold UriHeader.parse
  refine seq (orErr (strEsc _ hcs.1)) (fun n c1 _ _ _ => peek (ite (fun _ => err) (fun h => ?_)))
  refine seq (skip1 (by intro hx; rw [hx] at h; exact h (by simp))) (fun _ c2 _ _ _ => peek (ite (fun _ => pure) (fun _ => ?_)))
  exact seq (orErr (strEscEmpty _ hcs.2)) (fun _ _ _ _ _ => pure)

theorem sipHeaders (hF : 9 ≤ F := by omega) : MemAt F (fun _ => 0) 8 SipUri.parseHeaders c := by
  unfold SipUri.parseHeaders
  refine peek (ite (fun h => ?_) (fun _ => pure))
  refine seq (skip1 (by rw [h]; simp)) (fun _ c1 _ _ _ => orErr ?_)
  refine peek (ite (fun _ => err) (fun _ => ?_))
  refine (forLoop0 (b := 0) (C := 8) (fun s c2 _ => ?_)).le
  refine peek (ite (fun _ => pure) (fun _ => ?_))
  refine seq (orErr alloc) (fun _ c3 _ _ _ => seq (uriHeader sipCS_lines.2) (fun h c4 _ _ _ => peek (ite (fun h => ?_) (fun _ => pure))))
  exact seq (skip1 (by rw [h]; simp)) (fun _ _ _ _ _ => pure)

theorem password (hF : 9 ≤ F := by omega) : MemAt F (fun _ => 0) 2 SipUri.parsePassword c := by
  unfold SipUri.parsePassword
  refine seq byteAt (fun b c1 e hst hinv => ite (fun h => ?_) (fun _ => pure))
  have hcur : c1.cur? ≠ Option.none := by
    intro hx
    unfold P.byteAt at e
    unfold Ctx.cur? at hx
    split at e
    · rename_i b' hb'; cases e; rw [show c.pos + 0 = c.pos from rfl, hx] at hb'; cases hb'
    · cases e
  refine seq (skip1 hcur) (fun _ c2 _ _ _ => peek (ite (fun _ => err) (fun _ => ?_)))
  exact seq (orErr (strEscEmpty _)) (fun _ _ _ _ _ => pure)

theorem userinfo (hF : 9 ≤ F := by omega) : MemAt F (fun _ => 0) 2 SipUri.parseUserinfo c := by
  unfold SipUri.parseUserinfo
  refine get (ite (fun _ => ?_) (fun _ => pure))
  refine seq (orErr (strEsc _)) (fun u c1 _ _ _ => peek (ite (fun _ => err) (fun _ => ?_)))
  refine seq (orErr password) (fun u c1 _ _ _ => peek (ite (fun _ => err) (fun h => ?_)))
  exact seq (skip1 (by intro hx; rw [hx] at h; exact h (by simp))) (fun _ _ _ _ _ => pure)

theorem sipRest {net : Net} (hnet : net.Ok) (sec : Bool) (hF : 9 ≤ F := by omega) : MemAt F (fun _ => 3) 16 (SipUri.parseAfterScheme net sec) c := by
  unfold SipUri.parseAfterScheme
  refine seq (orErr userinfo) (fun u c1 _ _ _ => ?_)
  refine seq (orErr (hostport hnet)) (fun h c2 _ _ _ => ?_)
  refine seq sipParams (fun ps c3 _ _ _ => ?_)
  exact seq sipHeaders (fun hs c4 _ _ _ => pure)

theorem sipRestNoParam {net : Net} (hnet : net.Ok) (sec : Bool) (hF : 9 ≤ F := by omega) : MemAt F (fun _ => 0) 16 (SipUri.parseAfterSchemeWithoutParam net sec) c := by
  unfold SipUri.parseAfterSchemeWithoutParam
  refine seq userinfo (fun u c1 _ _ _ => ?_)
  exact seq (orErr (hostport hnet)) (fun h c2 _ _ _ => pure)

theorem telNumber (hF : 9 ≤ F := by omega) : MemAt F (fun _ => -6) 2 TelUri.parseNumber c := by
  refine ofSafe (k := 1) (fun hc => safe_parseNumber c hc) (eats ReadsAt.telNumber (fun v t y h => ?_)) (by omega) hF (by omega) (by omega)
  rcases t with _ | ⟨a, t⟩
  · exfalso
    cases h with
    | loc _ _ _ _ hne => exact hne rfl
  · simp

theorem telSetKnown (k : TelKnown) (p : UriParam) (hF : 9 ≤ F := by omega) : MemAt F (knownCost (fun k => knownPot telUriKnownNames k.known) k) 0 (TelUri.setKnown k p) c := by
  unfold TelUri.setKnown
  refine ite (fun _ => ?_) (fun _ => get ?_)
  · split
    · exact panic
    · split
      · exact panic
      · exact pure (by show 0 ≤ knownPot telUriKnownNames k.known - knownPot telUriKnownNames k.known; omega)
  · refine bind (setKnown _ _ _ _ _) (fun r c1 _ _ _ => ?_) hF (Int.le_refl _)
    cases r with
    | none => exact pure (by show (0 : Int) ≤ 0 - 0; omega)
    | some x => exact pure (by show 0 ≤ knownPot telUriKnownNames k.known - knownPot telUriKnownNames x - (knownPot telUriKnownNames k.known - knownPot telUriKnownNames x); omega)

theorem telRest (hF : 9 ≤ F := by omega) : MemAt F (fun _ => -6) 12 TelUri.parseAfterScheme c := by
  unfold TelUri.parseAfterScheme
  refine seq (orErr telNumber) (fun u c1 _ _ _ => peek (ite (fun h => ?_) (fun _ => pure)))
  refine seq (skip1 (by rw [h]; simp)) (fun _ c2 _ _ _ => ?_)
  refine seq (b := 4) (C1 := 12) (orErr ((uriParams (φ := fun k : TelKnown => knownPot telUriKnownNames k.known) sipCS_lines.1 (fun k p c _ => telSetKnown k p) (fun _ => knownPot_nonneg _ _) {}).le
    (by decide +kernel) (by decide +kernel))) (fun _ _ _ _ _ => pure)

theorem telRestNoParam (hF : 9 ≤ F := by omega) : MemAt F (fun _ => -6) 2 TelUri.parseAfterSchemeWithoutParam c := by
  unfold TelUri.parseAfterSchemeWithoutParam
  exact seq telNumber (fun u c1 _ _ _ => pure)

end MemAt
end Sip
