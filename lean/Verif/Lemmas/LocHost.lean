import Verif.Lemmas.LocPrim2
/-! # What stands behind the end of a line does not matter: brackets, hosts, single bytes -/
namespace Sip
section
variable {a z z' : Bytes} {c : Ctx}

/-- an outcome given explicitly -/
theorem LocAt.of_eq {α : Type} {p : P α} {r : Option α} {c' : Ctx} (e0 : p c = .ok (r, c')) (e1 : p (c.tail (ln a z')) = .ok (r, c'.tail (ln a z')))
    (hs : Step c c') (hp : ∀ v, r = some v → c'.pos ≤ a.length) : LocAt a z z' p c :=
  ⟨by rw [e0, e1]; rfl, fun r c' e => by (rw [e0] at e; cases e; exact hs), fun v c' e => by (rw [e0] at e; cases e; exact hp _ rfl)⟩
theorem LocAt.congr {α : Type} {p q : P α} (e0 : p c = q c) (e1 : p (c.tail (ln a z')) = q (c.tail (ln a z'))) (h : LocAt a z z' q c) : LocAt a z z' p c :=
  ⟨by rw [e0, e1]; exact h.eq, fun r c' e => h.step _ _ (e0 ▸ e), fun r c' e => h.inside _ _ (e0 ▸ e)⟩

theorem InA.addError (hc : InA a z c) : Step c (c.addError c.pos) := (Step.refl hc.inv).addErrorHere

/-! ## Brackets -/

/-- at an opening bracket: the closing one -/
theorem InA.closed (hc : InA a z c) (hcl : Closed a) (hb : c.cur? = some 0x5b) : ∃ k : Nat, c.pos < k ∧ a[k]? = some 0x5d := by
  have hlt := hc.lt hb (by decide)
  have h1 : a[c.pos]? = some 0x5b := by
    rw [← ln_get_a a z hlt, ← hc.src]; exact hb
  obtain ⟨k, h2, h3⟩ := hcl c.pos h1
  refine ⟨k, ?_, h3⟩
  rcases Nat.eq_or_lt_of_le h2 with e | h
  · rw [← e, h1] at h3; cases h3
  · exact h

theorem findIdx_append_some {α : Type} (f : α → Bool) (x y : List α) {i : Nat} (h : x.findIdx? f = some i) : (x ++ y).findIdx? f = some i ∧ i < x.length := by
  constructor
  · rw [List.findIdx?_append, h]; rfl
  · exact (List.findIdx?_eq_some_iff_findIdx_eq.1 h).1

theorem loc_bracket (hcl : Closed a) (hc : InA a z c) (hb : c.cur? = some 0x5b) : LocAt a z z' parseBracketValue c := by
  obtain ⟨k, h1, h2⟩ := hc.closed hcl hb
  have hk : k < a.length := (List.getElem?_eq_some_iff.1 h2).1
  have hm : (0x5d : UInt8) ∈ a.drop c.pos := by
    have : (a.drop c.pos)[k - c.pos]? = some 0x5d := by rw [List.getElem?_drop, show c.pos + (k - c.pos) = k by omega]; exact h2
    exact List.mem_of_getElem? this
  cases hf : (a.drop c.pos).findIdx? (· = 0x5d) with
  | none =>
    have := List.findIdx?_eq_none_iff.1 hf _ hm
    simp at this
  | some i =>
    obtain ⟨f1, hlt⟩ := findIdx_append_some _ _ (0x0d :: 0x0a :: z) hf
    obtain ⟨f2, -⟩ := findIdx_append_some _ _ (0x0d :: 0x0a :: z') hf
    have ht : ∀ w, (a.drop c.pos ++ 0x0d :: 0x0a :: w).take (i + 1) = (a.drop c.pos).take (i + 1) := fun w =>
      List.take_append_of_le_length (by omega)
    have hp : c.pos + (i + 1) ≤ a.length := by rw [List.length_drop] at hlt; omega
    have e0 : parseBracketValue c = (match Sip.allocStr ((a.drop c.pos).take (i + 1)) c with
      | (none, c) => .ok (none, c.addError c.pos)
      | (some v, c) => .ok (some v, c.adv (i + 1))) := by
      unfold parseBracketValue; rw [hc.rest, f1]; dsimp only; rw [ht]; rfl
    have e1 : parseBracketValue (c.tail (ln a z')) = (match Sip.allocStr ((a.drop c.pos).take (i + 1)) (c.tail (ln a z')) with
      | (none, c) => .ok (none, c.addError c.pos)
      | (some v, c) => .ok (some v, c.adv (i + 1))) := by
      unfold parseBracketValue; rw [hc.rest', f2]; dsimp only; rw [ht]; rfl
    generalize (a.drop c.pos).take (i + 1) = t at e0 e1
    have := hc.inv.pos
    by_cases h : c.used + (t.length + 2) > c.cap
    · unfold Sip.allocStr at e0 e1
      rw [if_pos h] at e0; rw [if_pos (show (c.tail (ln a z')).used + (t.length + 2) > (c.tail (ln a z')).cap from h)] at e1
      exact .of_eq e0 e1 hc.addError (fun v e => by cases e)
    · unfold Sip.allocStr at e0 e1
      rw [if_neg h] at e0; rw [if_neg (show ¬ (c.tail (ln a z')).used + (t.length + 2) > (c.tail (ln a z')).cap from h)] at e1
      have hl := ln_length a z
      refine .of_eq e0 e1 ⟨rfl, rfl, rfl, Nat.le_add_right _ _, ?_, Nat.le_add_right _ _, ?_, ErrsIn.refl⟩ (fun v e => hp)
      · show c.pos + (i + 1) ≤ c.src.length; rw [hc.src]; omega
      · show c.used + (t.length + 2) ≤ c.cap; omega

theorem takeWhile_append_some {f : UInt8 → Bool} {b : UInt8} (hb : f b = false) : ∀ (x y : Bytes), b ∈ x → (x ++ y).takeWhile f = x.takeWhile f ∧ (x.takeWhile f).length < x.length := by
  intro x y
  induction x with
  | nil => intro h; cases h
  | cons v x ih =>
    intro h
    rw [List.cons_append, List.takeWhile_cons, List.takeWhile_cons]
    cases hv : f v with
    | false => exact ⟨rfl, by simp⟩
    | true =>
      have : b ∈ x := by
        rcases List.mem_cons.1 h with e | h
        · rw [e] at hb; rw [hb] at hv; cases hv
        · exact h
      obtain ⟨h1, h2⟩ := ih this
      simp only [if_true]
      exact ⟨by rw [h1], by rw [List.length_cons, List.length_cons]; omega⟩

theorem ipv6_no (net : Net) (d : Ctx) (p : Nat) (t : Bytes) (hs : skipWhile (fun x => decide (x ≠ 0x5d)) d.src d.pos = p)
    (ht : (d.src.drop d.pos).take (p - d.pos) = t) (hl : p < d.src.length) (h : net.parseIP t = none ∨ d.used + 16 > d.cap) :
    parseIpv6 net d = .ok (none, (d.setPos p).addError p) := by
  subst hs
  unfold parseIpv6
  dsimp only
  rw [if_neg (show ¬ skipWhile (fun x => decide (x ≠ 0x5d)) d.src d.pos ≥ (d.setPos (skipWhile (fun x => decide (x ≠ 0x5d)) d.src d.pos)).src.length from Nat.not_le_of_lt hl), ht]
  cases hn : net.parseIP t with
  | none => rfl
  | some ip =>
    dsimp only
    rcases h with h | h
    · rw [hn] at h; cases h
    · have e : ∀ q, (d.setPos q).alloc 16 = (false, d.setPos q) := by
        intro q; unfold Ctx.alloc; rw [if_pos (show (d.setPos q).used + 16 > (d.setPos q).cap from h)]
      rw [e]
theorem ipv6_yes (net : Net) (d : Ctx) (p : Nat) (t : Bytes) (hs : skipWhile (fun x => decide (x ≠ 0x5d)) d.src d.pos = p)
    (ht : (d.src.drop d.pos).take (p - d.pos) = t) (hl : p < d.src.length) (ip : Bytes) (h : net.parseIP t = some ip) (hu : d.used + 16 ≤ d.cap) :
    parseIpv6 net d = .ok (some (.ipv6 ip), { d with pos := p + 1, used := d.used + 16 }) := by
  subst hs
  unfold parseIpv6
  dsimp only
  rw [if_neg (show ¬ skipWhile (fun x => decide (x ≠ 0x5d)) d.src d.pos ≥ (d.setPos (skipWhile (fun x => decide (x ≠ 0x5d)) d.src d.pos)).src.length from Nat.not_le_of_lt hl), ht, h]
  dsimp only
  have e : ∀ q, (d.setPos q).alloc 16 = (true, { d.setPos q with used := d.used + 16 }) := by
    intro q; unfold Ctx.alloc; rw [if_neg (show ¬ (d.setPos q).used + 16 > (d.setPos q).cap by show ¬ d.used + 16 > d.cap; omega)]; rfl
  rw [e]; rfl
theorem ipv6_cases (net : Net) (d : Ctx) (t : Bytes) : (net.parseIP t = none ∨ d.used + 16 > d.cap) ∨ ∃ ip, net.parseIP t = some ip ∧ d.used + 16 ≤ d.cap := by
  cases h : net.parseIP t with
  | none => exact Or.inl (Or.inl rfl)
  | some ip =>
    rcases Nat.lt_or_ge d.cap (d.used + 16) with h1 | h1
    · exact Or.inl (Or.inr h1)
    · exact Or.inr ⟨ip, rfl, h1⟩

theorem loc_ipv6 (net : Net) (hcl : Closed a) (hc : InA a z c) (hb : c.cur? = some 0x5b) : LocAt a z z' (fun c => parseIpv6 net (c.adv 1)) c := by
  obtain ⟨k, h1, h2⟩ := hc.closed hcl hb
  have hk : k < a.length := (List.getElem?_eq_some_iff.1 h2).1
  have hm : (0x5d : UInt8) ∈ a.drop (c.pos + 1) := by
    have : (a.drop (c.pos + 1))[k - (c.pos + 1)]? = some 0x5d := by rw [List.getElem?_drop, show c.pos + 1 + (k - (c.pos + 1)) = k by omega]; exact h2
    exact List.mem_of_getElem? this
  have hw : ∀ w, skipWhile (fun x => decide (x ≠ 0x5d)) (ln a w) (c.pos + 1) = c.pos + 1 + ((a.drop (c.pos + 1)).takeWhile (fun x => decide (x ≠ 0x5d))).length ∧
      ((a.drop (c.pos + 1)).takeWhile (fun x => decide (x ≠ 0x5d))).length < (a.drop (c.pos + 1)).length := by
    intro w
    unfold skipWhile
    rw [runLen_eq_takeWhile, ln_drop a w (by omega)]
    obtain ⟨g1, g2⟩ := takeWhile_append_some (f := fun x => decide (x ≠ 0x5d)) (b := 0x5d) (by decide) (a.drop (c.pos + 1)) (0x0d :: 0x0a :: w) hm
    rw [g1]; exact ⟨rfl, g2⟩
  obtain ⟨w1, w2⟩ := hw z
  obtain ⟨w3, -⟩ := hw z'
  generalize ((a.drop (c.pos + 1)).takeWhile (fun x => decide (x ≠ 0x5d))).length = n at *
  rw [List.length_drop] at w2
  have ht : ∀ w, ((ln a w).drop (c.pos + 1)).take n = (a.drop (c.pos + 1)).take n := by
    intro w
    rw [ln_drop a w (by omega)]
    exact List.take_append_of_le_length (by rw [List.length_drop]; omega)
  have hl := ln_length a z; have hl' := ln_length a z'
  have hs0 : skipWhile (fun x => decide (x ≠ 0x5d)) (c.adv 1).src (c.adv 1).pos = c.pos + 1 + n := by
    show skipWhile _ c.src (c.pos + 1) = _; rw [hc.src]; exact w1
  have hs1 : skipWhile (fun x => decide (x ≠ 0x5d)) ((c.tail (ln a z')).adv 1).src ((c.tail (ln a z')).adv 1).pos = c.pos + 1 + n := w3
  have ht0 : ((c.adv 1).src.drop (c.adv 1).pos).take (c.pos + 1 + n - (c.adv 1).pos) = (a.drop (c.pos + 1)).take n := by
    show (c.src.drop (c.pos + 1)).take (c.pos + 1 + n - (c.pos + 1)) = _
    rw [hc.src, show c.pos + 1 + n - (c.pos + 1) = n by omega]; exact ht z
  have ht1 : (((c.tail (ln a z')).adv 1).src.drop ((c.tail (ln a z')).adv 1).pos).take (c.pos + 1 + n - ((c.tail (ln a z')).adv 1).pos) = (a.drop (c.pos + 1)).take n := by
    show ((ln a z').drop (c.pos + 1)).take (c.pos + 1 + n - (c.pos + 1)) = _
    rw [show c.pos + 1 + n - (c.pos + 1) = n by omega]; exact ht z'
  have hl0 : c.pos + 1 + n < (c.adv 1).src.length := by show _ < c.src.length; rw [hc.src]; omega
  have hl1 : c.pos + 1 + n < ((c.tail (ln a z')).adv 1).src.length := by show _ < (ln a z').length; omega
  have hst : Step c (c.setPos (c.pos + 1 + n)) := Step.setPos hc.inv (by omega) (Nat.le_of_lt hl0)
  rcases ipv6_cases net (c.adv 1) ((a.drop (c.pos + 1)).take n) with h | ⟨ip, h3, h4⟩
  · refine .of_eq (ipv6_no net (c.adv 1) _ _ hs0 ht0 hl0 h) (ipv6_no net ((c.tail (ln a z')).adv 1) _ _ hs1 ht1 hl1 h) ?_ (fun v e => by cases e)
    exact hst.addErrorHere
  · refine .of_eq (ipv6_yes net (c.adv 1) _ _ hs0 ht0 hl0 ip h3 h4) (ipv6_yes net ((c.tail (ln a z')).adv 1) _ _ hs1 ht1 hl1 ip h3 h4) ?_ (fun v e => ?_)
    · refine ⟨rfl, rfl, rfl, ?_, hl0, Nat.le_add_right _ _, h4, ErrsIn.refl⟩
      show c.pos ≤ c.pos + 1 + n + 1; omega
    · show c.pos + 1 + n + 1 ≤ a.length; omega

/-! ## Hosts -/

theorem ipv4Loop_ln (z z' : Bytes) (k : Nat) : ∀ (p : Nat) (acc : List UInt8), p ≤ a.length →
    ipv4Loop (ln a z') k p acc = ipv4Loop (ln a z) k p acc ∧ (ipv4Loop (ln a z) k p acc).2 ≤ a.length := by
  induction k with
  | zero => intro p acc h; exact ⟨rfl, h⟩
  | succ k ih =>
    intro p acc h
    rw [ipv4Loop, ipv4Loop, ln_get a z' z (show p ≤ a.length + 1 by omega)]
    cases hv : (ln a z)[p]? with
    | none => exact ⟨rfl, h⟩
    | some d =>
      dsimp only
      by_cases h1 : d ≠ 0x2e
      · rw [if_pos h1, if_pos h1]; exact ⟨rfl, h⟩
      rw [if_neg h1, if_neg h1]
      have hlt : p < a.length := by
        rcases Nat.lt_or_ge p a.length with g | g
        · exact g
        · have e : p = a.length := by omega
          rw [e, ln_cr] at hv; cases hv; exact absurd (show (0x0d : UInt8) ≠ 0x2e by decide) h1
      obtain ⟨h2, h3⟩ := parseUInt_ln (a := a) z z' (show p + 1 ≤ a.length by omega)
      rw [h2]
      by_cases h4 : (!(parseUInt (ln a z) (p + 1)).ok || decide ((parseUInt (ln a z) (p + 1)).digit > 0xff)) = true
      · rw [if_pos h4, if_pos h4]; exact ⟨rfl, h3⟩
      · rw [if_neg h4, if_neg h4]; exact ih _ _ h3

theorem parseIpv4_ln (z z' : Bytes) {p : Nat} (h : p ≤ a.length) :
    parseIpv4 (ln a z') p = parseIpv4 (ln a z) p ∧ (parseIpv4 (ln a z) p).2 ≤ a.length := by
  have hl := ln_length a z; have hl' := ln_length a z'
  obtain ⟨h2, h3⟩ := parseUInt_ln (a := a) z z' h
  unfold parseIpv4
  rw [if_neg (show ¬ p ≥ (ln a z).length by omega), if_neg (show ¬ p ≥ (ln a z').length by omega), h2]
  dsimp only
  by_cases h4 : (!(parseUInt (ln a z) p).ok || decide ((parseUInt (ln a z) p).digit > 0xff)) = true
  · rw [if_pos h4, if_pos h4]; exact ⟨rfl, h3⟩
  rw [if_neg h4, if_neg h4]
  obtain ⟨h5, h6⟩ := ipv4Loop_ln (a := a) z z' 3 _ [UInt8.ofNat (parseUInt (ln a z) p).digit] h3
  rw [h5]
  rcases hi : ipv4Loop (ln a z) 3 (parseUInt (ln a z) p).newPos [UInt8.ofNat (parseUInt (ln a z) p).digit] with ⟨_ | ip, q⟩ <;> rw [hi] at h6
  · exact ⟨rfl, h6⟩
  · dsimp only at h6 ⊢
    rw [ln_get a z' z (show q ≤ a.length + 1 by omega)]
    refine ⟨rfl, ?_⟩
    split <;> exact h6

theorem digitLoop_ge (x : Bytes) : ∀ d p, p ≤ (digitLoop x d p).2 := by
  induction x with
  | nil => intro d p; exact Nat.le_refl _
  | cons b x ih =>
    intro d p
    rw [digitLoop]
    split
    · exact Nat.le_trans (Nat.le_succ p) (ih _ _)
    · exact Nat.le_refl _
theorem parseUInt_ge (s : Bytes) (p : Nat) : p ≤ (parseUInt s p).newPos := by
  unfold parseUInt
  split
  · exact Nat.le_refl _
  · dsimp only; exact digitLoop_ge _ _ _

theorem ipv4Loop_ge (s : Bytes) (k : Nat) : ∀ (p : Nat) (acc : List UInt8), p ≤ (ipv4Loop s k p acc).2 := by
  induction k with
  | zero => intro p acc; exact Nat.le_refl _
  | succ k ih =>
    intro p acc
    rw [ipv4Loop]
    have h1 := parseUInt_ge s (p + 1)
    split
    · exact Nat.le_refl _
    · split
      · exact Nat.le_refl _
      · dsimp only
        split
        · omega
        · have := ih (parseUInt s (p + 1)).newPos (acc ++ [UInt8.ofNat (parseUInt s (p + 1)).digit])
          omega
theorem parseIpv4_ge (s : Bytes) (p : Nat) : p ≤ (parseIpv4 s p).2 := by
  have h1 := parseUInt_ge s p
  have h2 := ipv4Loop_ge s 3 (parseUInt s p).newPos [UInt8.ofNat (parseUInt s p).digit]
  unfold parseIpv4
  split
  · exact Nat.le_refl _
  · dsimp only
    split
    · exact h1
    · rcases hi : ipv4Loop s 3 (parseUInt s p).newPos [UInt8.ofNat (parseUInt s p).digit] with ⟨_ | ip, q⟩ <;> rw [hi] at h2 <;> dsimp only at h2 ⊢
      · omega
      · split <;> (dsimp only; omega)

theorem loc_hostname (hz : NoCont z) : Loc a z z' parseHostname := by
  intro c hc
  unfold parseHostname
  exact .bind hc (loc_str hz _ (by decide +kernel) c hc) (fun v c1 _ h => .ret h _)

theorem loc_host (net : Net) (hz : NoCont z) (hcl : Closed a) : Loc a z z' (parseHost net) := by
  intro c hc
  cases hb : c.cur? with
  | none => exact absurd hb hc.more
  | some v =>
    by_cases h1 : v = 0x5b
    · subst h1
      refine .congr (q := fun c => parseIpv6 net (c.adv 1)) ?_ ?_ (loc_ipv6 net hcl hc hb)
      · unfold parseHost; rw [hb]; rfl
      · unfold parseHost; rw [hc.cur, hb]; rfl
    · by_cases h2 : isAlpha v = true
      · refine .congr (q := parseHostname) ?_ ?_ (loc_hostname hz c hc)
        · unfold parseHost; rw [hb]; dsimp only; rw [if_neg h1, if_pos h2]
        · unfold parseHost; rw [hc.cur, hb]; dsimp only; rw [if_neg h1, if_pos h2]
      · obtain ⟨g1, g2⟩ := parseIpv4_ln (a := a) z z' hc.pos
        have e0 : parseHost net c = (match parseIpv4 c.src c.pos with
          | (none, _) => parseHostname c
          | (some ip, p) =>
            match (c.setPos p).alloc 4 with
            | (false, c) => .ok (none, c.addError p)
            | (true, c) =>
              match ip with
              | [a, b, d, e] => .ok (some (.ipv4 a b d e), c)
              | _ => .panic) := by
          unfold parseHost; rw [hb]; dsimp only; rw [if_neg h1, if_neg h2]; rfl
        have e1 : parseHost net (c.tail (ln a z')) = (match parseIpv4 (c.tail (ln a z')).src (c.tail (ln a z')).pos with
          | (none, _) => parseHostname (c.tail (ln a z'))
          | (some ip, p) =>
            match ((c.tail (ln a z')).setPos p).alloc 4 with
            | (false, c) => .ok (none, c.addError p)
            | (true, c) =>
              match ip with
              | [a, b, d, e] => .ok (some (.ipv4 a b d e), c)
              | _ => .panic) := by
          unfold parseHost; rw [hc.cur, hb]; dsimp only; rw [if_neg h1, if_neg h2]; rfl
        rw [Ctx.tail_src, Ctx.tail_pos, g1] at e1
        rw [hc.src] at e0
        have hge := parseIpv4_ge (ln a z) c.pos
        rcases hi : parseIpv4 (ln a z) c.pos with ⟨_ | ip, p⟩ <;> rw [hi] at e0 e1 g2 hge <;> dsimp only at e0 e1 g2
        · exact .congr (q := parseHostname) e0 e1 (loc_hostname hz c hc)
        · have hl := ln_length a z
          have hst : Step c (c.setPos p) := Step.setPos hc.inv hge (by rw [hc.src]; omega)
          by_cases h : c.used + 4 > c.cap
          · unfold Ctx.alloc at e0 e1
            rw [if_pos (show (c.setPos p).used + 4 > (c.setPos p).cap from h)] at e0
            rw [if_pos (show ((c.tail (ln a z')).setPos p).used + 4 > ((c.tail (ln a z')).setPos p).cap from h)] at e1
            exact .of_eq e0 e1 hst.addErrorHere (fun v e => by cases e)
          · unfold Ctx.alloc at e0 e1
            rw [if_neg (show ¬ (c.setPos p).used + 4 > (c.setPos p).cap from h)] at e0
            rw [if_neg (show ¬ ((c.tail (ln a z')).setPos p).used + 4 > ((c.tail (ln a z')).setPos p).cap from h)] at e1
            dsimp only at e0 e1
            rcases ip with _ | ⟨x, _ | ⟨y, _ | ⟨w, _ | ⟨u, _ | ⟨t, ip⟩⟩⟩⟩⟩
            all_goals first
              | exact .of_eq e0 e1 ⟨rfl, rfl, rfl, hge, by show p ≤ c.src.length; rw [hc.src]; omega, Nat.le_add_right _ _, by show c.used + 4 ≤ c.cap; omega, ErrsIn.refl⟩ (fun v e => g2)
              | exact ⟨by rw [e0, e1]; rfl, fun r c' e => by (rw [e0] at e; cases e), fun r c' e => by (rw [e0] at e; cases e)⟩

theorem loc_hostPort (net : Net) (hz : NoCont z) (hcl : Closed a) : Loc a z z' (HostPort.parse net) := by
  intro c hc
  unfold HostPort.parse
  refine .bind hc (.orErr (loc_host net hz hcl c hc)) (fun h c1 _ hc1 => .peek hc1 ?_)
  split
  · rename_i hb
    refine .bind hc1 (.skip1 hc1 hb (by decide)) (fun _ c2 _ hc2 => ?_)
    obtain ⟨g1, g2⟩ := parseUInt_ln (a := a) z z' hc2.pos
    have gg : parseUInt (c2.tail (ln a z')).src (c2.tail (ln a z')).pos = parseUInt c2.src c2.pos := by rw [hc2.src]; exact g1
    have hst : Step c2 (c2.setPos (parseUInt c2.src c2.pos).newPos) := Step.setPos hc2.inv (parseUInt_ge _ _) (by
      have hl := ln_length a z
      rw [hc2.src]; omega)
    by_cases h1 : (!(parseUInt c2.src c2.pos).ok) = true
    · refine .of_eq (r := none) (c' := (c2.setPos (parseUInt c2.src c2.pos).newPos).addError (parseUInt c2.src c2.pos).newPos) ?_ ?_ hst.addErrorHere (fun v e => by cases e)
      · rw [P.get_bind]; show (if (!(parseUInt c2.src c2.pos).ok) = true then _ else _ : P HostPort) _ = _; rw [if_pos h1]; rfl
      · rw [P.get_bind]; show (if (!(parseUInt (ln a z') c2.pos).ok) = true then _ else _ : P HostPort) _ = _; rw [g1, ← hc2.src, if_pos h1]
        show Out.ok _ = _
        rw [Ctx.tail_src, Ctx.tail_pos, g1, hc2.src]; rfl
    · by_cases h2 : (parseUInt c2.src c2.pos).digit > 0xffff
      · refine .of_eq (r := none) (c' := (c2.setPos (parseUInt c2.src c2.pos).newPos).addError (parseUInt c2.src c2.pos).newPos) ?_ ?_ hst.addErrorHere (fun v e => by cases e)
        · rw [P.get_bind]; show (if (!(parseUInt c2.src c2.pos).ok) = true then _ else _ : P HostPort) _ = _; rw [if_neg h1, if_pos h2]; rfl
        · rw [P.get_bind]; show (if (!(parseUInt (c2.tail (ln a z')).src (c2.tail (ln a z')).pos).ok) = true then _ else _ : P HostPort) _ = _; rw [if_neg (show ¬ (!(parseUInt (c2.tail (ln a z')).src (c2.tail (ln a z')).pos).ok) = true by rw [gg]; exact h1), if_pos (show (parseUInt (c2.tail (ln a z')).src (c2.tail (ln a z')).pos).digit > 0xffff by rw [gg]; exact h2)]
          show Out.ok _ = _
          rw [Ctx.tail_src, Ctx.tail_pos, g1, hc2.src]; rfl
      · refine .of_eq (r := some ⟨h, some (u16 (parseUInt c2.src c2.pos).digit)⟩) (c' := c2.setPos (parseUInt c2.src c2.pos).newPos) ?_ ?_ hst (fun v e => by
          show (parseUInt c2.src c2.pos).newPos ≤ a.length; rw [hc2.src]; exact g2)
        · rw [P.get_bind]; show (if (!(parseUInt c2.src c2.pos).ok) = true then _ else _ : P HostPort) _ = _; rw [if_neg h1, if_neg h2]; rfl
        · rw [P.get_bind]; show (if (!(parseUInt (c2.tail (ln a z')).src (c2.tail (ln a z')).pos).ok) = true then _ else _ : P HostPort) _ = _; rw [if_neg (show ¬ (!(parseUInt (c2.tail (ln a z')).src (c2.tail (ln a z')).pos).ok) = true by rw [gg]; exact h1), if_neg (show ¬ (parseUInt (c2.tail (ln a z')).src (c2.tail (ln a z')).pos).digit > 0xffff by rw [gg]; exact h2)]
          show Out.ok _ = _
          rw [Ctx.tail_src, Ctx.tail_pos, g1, hc2.src]; rfl
  · exact .ret hc1 _

end
end Sip
