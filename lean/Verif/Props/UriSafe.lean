import Verif.Props.Uri
/-! # C18, C28–C31: what the URI parser accepts, and that it is safe -/
namespace Sip

theorem P.bind_some {α β : Type} {p : P α} {f : α → P β} {c c' : Ctx} {v : β} (h : (p >>= f) c = .ok (some v, c')) :
    ∃ a c1, p c = .ok (some a, c1) ∧ f a c1 = .ok (some v, c') := by
  rcases hp : p c with ⟨_ | a, c1⟩ | _ | _
  · rw [P.bind_none hp] at h; cases h
  · rw [P.bind_ok hp] at h; exact ⟨a, c1, rfl, h⟩
  · rw [P.bind_panic hp] at h; cases h
  · rw [P.bind_hang hp] at h; cases h

theorem escLoop_stop_decodes (s : CS) (cap : Nat) (t : Bytes) (p u : Nat) (out : Bytes) (p' u' : Nat) (out' : Bytes)
    (h : escLoop s cap t p u out = .stop p' u' out') : ∃ o y, Decodes s t o y ∧ out' = out ++ o ∧ p' + y.length = p + t.length := by
  induction hn : t.length using Nat.strongRecOn generalizing t p u out with
  | ind n ih =>
    match t with
    | [] => simp only [escLoop, Scan.stop.injEq] at h; exact ⟨[], [], .stop [] (by simp), by simp [h.2.2], by simp [← hn, h.1]⟩
    | v :: r =>
      rw [escLoop_cons] at h
      simp only [List.length_cons] at hn
      by_cases hv : s.mem v = true
      · rw [if_pos hv] at h
        by_cases hu : u ≥ cap
        · rw [if_pos hu] at h; cases h
        · rw [if_neg hu] at h
          obtain ⟨o, y, h1, h2, h3⟩ := ih r.length (by omega) r _ _ _ h rfl
          exact ⟨v :: o, y, .lit v r o y hv h1, by simp [h2], by omega⟩
      · rw [if_neg hv] at h
        by_cases h25 : v ≠ 0x25
        · rw [if_pos h25] at h
          simp only [Scan.stop.injEq] at h
          refine ⟨[], v :: r, .stop _ (by intro c hc; simp at hc; subst hc; exact ⟨by simpa using hv, h25⟩), by simp [h.2.2], by simp; omega⟩
        · rw [if_neg h25] at h
          have h25 : v = 0x25 := by simpa using h25
          subst h25
          match r, h with
          | v1 :: v2 :: r', h =>
            simp only [List.length_cons] at hn
            simp only at h
            by_cases hx : (!isHex v1 || !isHex v2) = true
            · rw [if_pos hx] at h; cases h
            · rw [if_neg hx] at h
              simp only [Bool.or_eq_true, Bool.not_eq_true', not_or, Bool.not_eq_false] at hx
              by_cases hu : u ≥ cap
              · rw [if_pos hu] at h; cases h
              · rw [if_neg hu] at h
                obtain ⟨o, y, h1, h2, h3⟩ := ih r'.length (by omega) r' _ _ _ h rfl
                exact ⟨unescapeByte v1 v2 :: o, y, .esc v1 v2 r' o y (by simpa using hv) hx.1 hx.2 h1, by simp [h2], by omega⟩
          | [], h => cases h
          | [_], h => cases h

/-- the value of an escaped component is what its text decodes to -/
theorem strEsc_val {s : CS} {c c' : Ctx} {v : Bytes} (hc : Inv c) (h : P.strEsc s c = .ok (some v, c')) : Decodes s c.rest v c'.rest := by
  have hlen := rest_length c hc.pos
  simp only [P.strEsc, parseStrEscapable] at h
  split at h
  · cases h
  · split at h
    · cases h
    · cases h
    · cases h
    · rename_i p' u' out' heq
      obtain ⟨o, y, h1, h2, h3⟩ := escLoop_stop_decodes s _ _ _ _ _ _ _ _ heq
      split at h
      · cases h
      · split at h
        · cases h
        · simp only [Out.ok.injEq, Prod.mk.injEq, Option.some.injEq] at h
          obtain ⟨rfl, rfl⟩ := h
          simp only [List.nil_append] at h2
          subst h2
          -- the rest at p' is y
          have hsuf : ∀ {t o y}, Decodes s t o y → ∃ x, t = x ++ y := by
            intro t o y h
            induction h with
            | stop y h => exact ⟨[], rfl⟩
            | lit v t o y h hr ih => obtain ⟨x, rfl⟩ := ih; exact ⟨v :: x, rfl⟩
            | esc a b t o y h ha hb hr ih => obtain ⟨x, rfl⟩ := ih; exact ⟨0x25 :: a :: b :: x, rfl⟩
          obtain ⟨x, hx⟩ := hsuf h1
          have e : ({ c with pos := p', used := u' } : Ctx).rest = y := by
            show c.src.drop p' = y
            have hp' : p' = c.pos + x.length := by
              rw [hx] at h3; simp only [List.length_append] at h3; omega
            rw [hp', ← List.drop_drop]
            show c.rest.drop x.length = y
            rw [hx]; simp
          rw [e]; exact h1

/-- what a parameter read from the input is: its name and value are not empty, and without value no `=` follows the name -/
structure UriParam.Read (cs : CharsetInfo) (src : Bytes) (p : UriParam) : Prop where
  name : p.name ≠ []
  value : ∀ v ∈ p.value, v ≠ []
  noValue : p.value = none → ∃ i y, Decodes cs.name (src.drop i) p.name y ∧ y.head? ≠ some 0x3d

theorem safe_uriParam (cs : CharsetInfo) (hcs : cs.Ok) (c : Ctx) (hc : Inv c) : SafeAt 0 true 1 4 (UriParam.Read cs c.src) (UriParam.parse cs) c := by
  unfold UriParam.parse
  refine SafeAt.seq (B2 := 2) (SafeAt.orErr (l := true) (safe_strEsc cs.name hcs.nameCR c hc)) (fun name c1 e1 hn hc1 => SafeAt.peek ?_)
  have hpe : P.strEsc cs.name c = .ok (some name, c1) := by
    unfold P.orErr at e1
    split at e1
    · cases e1
    · exact e1
  have st := (safe_strEsc cs.name hcs.nameCR c hc).step _ _ hpe
  by_cases h : c1.cur? = some 0x3d
  · rw [if_pos h]
    refine SafeAt.skip1 hc1 h (by decide) (fun hc2 => ?_)
    refine SafeAt.seq (B2 := 0) (SafeAt.orErr (l := true) (safe_strEsc cs.value hcs.valueCR _ hc2)) (fun v c3 _ hv hc3 => SafeAt.pure hc3 ?_)
    exact ⟨hn, by intro w hw; simp at hw; subst hw; exact hv, by simp⟩
  · rw [if_neg h]
    refine SafeAt.pure hc1 ⟨hn, by simp, fun _ => ⟨c.pos, c1.rest, strEsc_val hc hpe, ?_⟩⟩
    rw [← cur_eq_head]; exact h

/-- a parameter without value was read at the position: no `=` follows its name -/
theorem uriParam_at {cs : CharsetInfo} (hcs : cs.Ok) {c c' : Ctx} (hc : Inv c) {p : UriParam} (h : UriParam.parse cs c = .ok (some p, c')) (hv : p.value = none) :
    ∃ y, Decodes cs.name (c.src.drop c.pos) p.name y ∧ y.head? ≠ some 0x3d := by
  unfold UriParam.parse at h
  obtain ⟨name, c1, e1, h⟩ := P.bind_some h
  have hpe : P.strEsc cs.name c = .ok (some name, c1) := by
    unfold P.orErr at e1
    split at e1
    · cases e1
    · exact e1
  obtain ⟨b, c2, e2, h⟩ := P.bind_some h
  cases e2
  by_cases h1 : c1.cur? = some 0x3d
  · rw [if_pos h1] at h
    obtain ⟨_, c3, _, h⟩ := P.bind_some h
    obtain ⟨v, c4, _, h⟩ := P.bind_some h
    cases h
    cases hv
  · rw [if_neg h1] at h
    cases h
    refine ⟨_, strEsc_val hc hpe, ?_⟩
    rw [← cur_eq_head]; exact h1

theorem safe_uriParamsBody {κ : Type} (q B : Nat) (cs : CharsetInfo) (hcs : cs.Ok) (setK : κ → UriParam → P (Option κ)) (fl : Flags) (src : Bytes)
    (J : κ → Prop) (Nk : UriParam → Prop)
    (hset : ∀ k p c, J k → UriParam.Read cs src p → (p.value = none → ∃ i, i ≤ c.pos ∧ ∃ y, Decodes cs.name (src.drop i) p.name y ∧ y.head? ≠ some 0x3d) → Inv c → c.flags = fl → c.src = src →
      SafeAt q true 1 B (OptQ (Nk p) J) (setK k p) c) (s : κ × List UriParam) (c : Ctx)
    (hs : J s.1 ∧ ∀ p ∈ s.2, UriParam.Read cs src p ∧ Nk p) (hc : Inv c) (hfl : c.flags = fl) (hsrc : c.src = src) :
    SafeAt q true 1 (10 + B) (SumQ (fun s' => J s'.1 ∧ ∀ p ∈ s'.2, UriParam.Read cs src p ∧ Nk p) (fun s' => J s'.1 ∧ ∀ p ∈ s'.2, UriParam.Read cs src p ∧ Nk p)) (uriParamsBody cs setK s) c ∧
    EatsOn (fun r => ∃ s', r = Sum.inl s') (uriParamsBody cs setK s) c := by
  obtain ⟨k, acc⟩ := s
  have hread : ∀ c1, Inv c1 → c1.src = src → SafeAt 0 true 1 4 (UriParam.Read cs src) (UriParam.parse cs) c1 :=
    fun c1 h1 h2 => by rw [← h2]; exact safe_uriParam cs hcs c1 h1
  have hat : ∀ p c1 c2, Inv c1 → c1.src = src → UriParam.parse cs c1 = .ok (some p, c2) →
      p.value = none → ∃ i, i ≤ c2.pos ∧ ∃ y, Decodes cs.name (src.drop i) p.name y ∧ y.head? ≠ some 0x3d := by
    intro p c1 c2 h1 h2 e hv
    obtain ⟨y, hy⟩ := uriParam_at hcs h1 e hv
    exact ⟨c1.pos, ((hread c1 h1 h2).step _ _ e).pos_le, y, by rw [← h2]; exact hy⟩
  have hstep : ∀ {α : Type} {q l m B Q} {p : P α} {c1 c2 : Ctx} {v : α}, SafeAt q l m B Q p c1 → p c1 = .ok (some v, c2) → c1.flags = fl → c1.src = src → c2.flags = fl ∧ c2.src = src :=
    fun hS e h1 h2 => ⟨(hS.step _ _ e).flags.trans h1, (hS.step _ _ e).src.trans h2⟩
  have hnext : ∀ (p : UriParam) (r : Option κ), UriParam.Read cs src p → OptQ (Nk p) J r →
      J (match r with | some k' => (k', acc) | none => (k, acc ++ [p])).1 ∧ ∀ x ∈ (match r with | some k' => (k', acc) | none => (k, acc ++ [p])).2, UriParam.Read cs src x ∧ Nk x := by
    intro p r hp hr
    cases r with
    | none =>
      refine ⟨hs.1, fun x hx => ?_⟩
      rcases List.mem_append.1 hx with h | h
      · exact hs.2 x h
      · simp at h; subst h; exact ⟨hp, hr⟩
    | some k' => exact ⟨hr, hs.2⟩
  unfold uriParamsBody
  constructor
  · refine SafeAt.peek ?_
    by_cases h0 : c.cur? = none
    · rw [if_pos h0]; exact SafeAt.pure hc hs
    · rw [if_neg h0]
      have hal : SafeAt 0 true 1 6 (fun _ => True) (P.orErr (P.alloc 6)) c := SafeAt.orErr (l' := false) (SafeAt.alloc hc)
      refine SafeAt.seq (B2 := 4 + B) hal (fun _ c1 e1 _ hc1 => ?_)
      obtain ⟨f1, s1⟩ := hstep hal e1 hfl hsrc
      refine SafeAt.seq (B2 := B) (hread c1 hc1 s1) (fun p c2 e2 hp hc2 => ?_)
      obtain ⟨f2, s2⟩ := hstep (hread c1 hc1 s1) e2 f1 s1
      refine SafeAt.seq (B2 := 0) (hset k p c2 hs.1 hp (hat p c1 c2 hc1 s1 e2) hc2 f2 s2) (fun r c3 e3 hr hc3 => SafeAt.peek ?_)
      have := hnext p r hp hr
      by_cases h : c3.cur? = some 0x3b
      · rw [if_pos h]
        exact SafeAt.skip1 hc3 h (by decide) (fun hc4 => SafeAt.pure hc4 this)
      · rw [if_neg h]
        exact SafeAt.pure hc3 this
  · refine EatsOn.peek ?_
    by_cases h0 : c.cur? = none
    · rw [if_pos h0]; exact EatsOn.ret (by simp)
    · rw [if_neg h0]
      have hal : SafeAt 0 true 1 6 (fun _ => True) (P.orErr (P.alloc 6)) c := SafeAt.orErr (l' := false) (SafeAt.alloc hc)
      refine EatsOn.snd hal (fun _ c1 e1 _ hc1 => ?_)
      obtain ⟨f1, s1⟩ := hstep hal e1 hfl hsrc
      refine EatsOn.snd (hread c1 hc1 s1) (fun p c2 e2 hp hc2 => ?_)
      obtain ⟨f2, s2⟩ := hstep (hread c1 hc1 s1) e2 f1 s1
      refine EatsOn.snd (hset k p c2 hs.1 hp (hat p c1 c2 hc1 s1 e2) hc2 f2 s2) (fun r c3 e3 hr hc3 => EatsOn.peek ?_)
      by_cases h : c3.cur? = some 0x3b
      · rw [if_pos h]; exact EatsOn.skipPure
      · rw [if_neg h]; exact EatsOn.ret (by simp)

theorem safe_uriParams {κ : Type} (q B : Nat) (cs : CharsetInfo) (hcs : cs.Ok) (setK : κ → UriParam → P (Option κ)) (c : Ctx) (hc : Inv c)
    (J : κ → Prop) (Nk : UriParam → Prop)
    (hset : ∀ k p c1, J k → UriParam.Read cs c.src p → (p.value = none → ∃ i, i ≤ c1.pos ∧ ∃ y, Decodes cs.name (c.src.drop i) p.name y ∧ y.head? ≠ some 0x3d) → Inv c1 → c1.flags = c.flags → c1.src = c.src →
      SafeAt q true 1 B (OptQ (Nk p) J) (setK k p) c1) (k : κ) (hk : J k) :
    SafeAt q true (1 + (10 + B)) (10 + B) (fun r => J r.1 ∧ ∀ p ∈ r.2, UriParam.Read cs c.src p ∧ Nk p) (parseUriParams cs setK k) c := by
  unfold parseUriParams
  refine SafeAt.peek ?_
  by_cases h0 : c.cur? = none
  · rw [if_pos h0]; exact SafeAt.err hc
  · rw [if_neg h0]
    refine safe_forLoop (I := fun s => J s.1 ∧ ∀ p ∈ s.2, UriParam.Read cs c.src p ∧ Nk p) ?_ ?_ ⟨hk, by simp⟩ hc
    · intro s c1 hs h1 h2 h3
      exact (safe_uriParamsBody q B cs hcs setK c.flags c.src J Nk hset s c1 hs h1 h2 h3).1
    · intro s c1 s' c' hs h1 h2 h3 e
      exact (safe_uriParamsBody q B cs hcs setK c.flags c.src J Nk hset s c1 hs h1 h2 h3).2 _ _ e ⟨s', rfl⟩

theorem safe_uriHeader (cs : CharsetInfo) (hcs : cs.Ok) (c : Ctx) (hc : Inv c) : SafeAt 0 true 1 4 (fun h => h.name ≠ []) (UriHeader.parse cs) c := by
  unfold UriHeader.parse
  refine SafeAt.seq (B2 := 2) (SafeAt.orErr (l := true) (safe_strEsc cs.name hcs.nameCR c hc)) (fun name c1 e1 hn hc1 => SafeAt.peek ?_)
  by_cases h : c1.cur? ≠ some 0x3d
  · rw [if_pos h]; exact SafeAt.err hc1
  · rw [if_neg h]
    have h : c1.cur? = some 0x3d := by simpa using h
    refine SafeAt.skip1 hc1 h (by decide) (fun hc2 => SafeAt.peek ?_)
    by_cases h2 : (c1.adv 1).cur? = none
    · rw [if_pos h2]; exact SafeAt.pure hc2 hn
    · rw [if_neg h2]
      exact SafeAt.seq (B2 := 0) (SafeAt.orErr (l := true) (safe_strEscEmpty cs.value hcs.valueCR _ hc2)) (fun v c3 _ _ hc3 => SafeAt.pure hc3 hn)

theorem safe_uriHeaders (cs : CharsetInfo) (hcs : cs.Ok) (c : Ctx) (hc : Inv c) :
    SafeAt 0 true 11 10 (fun hs => ∀ h ∈ hs, h.name ≠ []) (parseUriHeaders cs) c := by
  unfold parseUriHeaders
  refine SafeAt.peek ?_
  by_cases h0 : c.cur? = none
  · rw [if_pos h0]; exact SafeAt.err hc
  · rw [if_neg h0]
    refine safe_forLoop (m := 1) (B := 10) (I := fun (hs : List UriHeader) => ∀ h ∈ hs, h.name ≠ []) (s := []) ?_ ?_ (fun h hh => by cases hh) hc
    · intro s c1 hs h1 h2 h3
      unfold uriHeadersBody
      refine SafeAt.peek ?_
      by_cases h0 : c1.cur? = none
      · rw [if_pos h0]; exact SafeAt.pure h1 hs
      · rw [if_neg h0]
        refine SafeAt.seq (B2 := 4) (SafeAt.orErr (l := true) (l' := false) (SafeAt.alloc (q := 0) (m := 1) h1)) (fun _ c2 e2 _ hc2 => ?_)
        refine SafeAt.seq (B2 := 0) (safe_uriHeader cs hcs c2 hc2) (fun h c3 e3 hh hc3 => SafeAt.peek ?_)
        have hn : ∀ x ∈ s ++ [h], x.name ≠ [] := by
          intro x hx
          rcases List.mem_append.1 hx with h | h
          · exact hs x h
          · simp at h; subst h; exact hh
        by_cases h : c3.cur? = some 0x26
        · rw [if_pos h]; exact SafeAt.skip1 hc3 h (by decide) (fun hc4 => SafeAt.pure hc4 hn)
        · rw [if_neg h]; exact SafeAt.pure hc3 hn
    · intro s c1 s' c' hs h1 h2 h3 e
      have : EatsOn (fun r => ∃ s', r = Sum.inl s') (uriHeadersBody cs s) c1 := by
        unfold uriHeadersBody
        refine EatsOn.peek ?_
        by_cases h0 : c1.cur? = none
        · rw [if_pos h0]; exact EatsOn.ret (by simp)
        · rw [if_neg h0]
          refine EatsOn.snd (SafeAt.orErr (l := true) (l' := false) (SafeAt.alloc (q := 0) (m := 1) h1)) (fun _ c2 e2 _ hc2 => ?_)
          refine EatsOn.snd (safe_uriHeader cs hcs c2 hc2) (fun h c3 e3 hh hc3 => EatsOn.peek ?_)
          by_cases h : c3.cur? = some 0x26
          · rw [if_pos h]; exact EatsOn.skipPure
          · rw [if_neg h]; exact EatsOn.ret (by simp)
      exact this _ _ e ⟨s', rfl⟩

/-- the known parameters stand at the place of their names -/
def KnownAt {α : Type} (names : List Bytes) (nameOf : α → Bytes) (V : α → Prop) (known : List (Option α)) : Prop :=
  ∀ (j : Nat) n p, names[j]? = some n → known[j]? = some (some p) → (nameOf p).map asciiLower = n ∧ V p

theorem knownAt_zip {α : Type} {names : List Bytes} {nameOf : α → Bytes} {V : α → Prop} {known : List (Option α)} (h : KnownAt names nameOf V known) :
    ∀ x ∈ names.zip known, ∀ p ∈ x.2, (nameOf p).map asciiLower = x.1 ∧ V p := by
  intro x hx p hp
  obtain ⟨i, hi, rfl⟩ := List.mem_iff_getElem.1 hx
  have hi1 : i < names.length := by simp at hi; omega
  have hi2 : i < known.length := by simp at hi; omega
  rw [List.getElem_zip] at hp ⊢
  refine h i _ p (List.getElem?_eq_getElem hi1) ?_
  rw [List.getElem?_eq_getElem hi2, ← hp]

theorem knownIndex_spec {names : List Bytes} {name : Bytes} {i : Nat} (h : knownIndex names name = some i) :
    ∃ n, names[i]? = some n ∧ name.map asciiLower = n.map asciiLower := by
  unfold knownIndex at h
  obtain ⟨hi, hp, _⟩ := List.findIdx?_eq_some_iff_getElem.1 h
  exact ⟨names[i], List.getElem?_eq_getElem hi, (strEqNoCase_iff _ _).1 hp⟩

/-- the state of the known parameters while parsing -/
structure KnownInv {α : Type} (names : List Bytes) (on : Bool) (nameOf : α → Bytes) (V : α → Prop) (known : List (Option α)) : Prop where
  shape : KnownShape names known
  off : on = false → known = []
  at_ : KnownAt names nameOf V known

theorem KnownInv.nil {α : Type} {names : List Bytes} {on : Bool} {nameOf : α → Bytes} {V : α → Prop} : KnownInv names on nameOf V [] :=
  ⟨Or.inl rfl, fun _ => rfl, by intro j n p _ h; simp at h⟩

theorem safe_setKnown_inv {α : Type} {q m : Nat} (names : List Bytes) (hlow : ∀ n ∈ names, n.map asciiLower = n) (on : Bool) (nameOf : α → Bytes) (V : α → Prop)
    (known : List (Option α)) (hk : KnownInv names on nameOf V known) (p : α) (hp : V p) (c : Ctx) (hc : Inv c) :
    SafeAt q true m (2 * names.length) (OptQ (on = true → knownIndex names (nameOf p) = none) (KnownInv names on nameOf V)) (setKnown names on known (nameOf p) p) c := by
  refine (safe_setKnown (q := q) (m := m) (B := 2 * names.length) names on known (nameOf p) p hk.shape hk.off (Nat.le_refl _) c hc).mono (Nat.le_refl _) (fun h => h) (Nat.le_refl _) (Nat.le_refl _) ?_
  intro r hr
  cases r with
  | none => exact hr
  | some k' =>
    obtain ⟨hon, hsh, hne, i, hi, hj⟩ := hr
    refine ⟨hsh, fun h => (by rw [hon] at h; cases h), ?_⟩
    intro j n p' hn hp'
    rw [hj j] at hp'
    by_cases hji : j = i
    · subst hji
      rw [if_pos rfl] at hp'
      simp only [Option.some.injEq] at hp'
      subst hp'
      obtain ⟨n', hn', he⟩ := knownIndex_spec hi
      rw [hn] at hn'
      cases hn'
      exact ⟨by rw [he]; exact hlow n (List.mem_of_getElem? hn), hp⟩
    · rw [if_neg hji] at hp'
      by_cases hk0 : known = []
      · rw [if_pos hk0] at hp'
        split at hp' <;> simp at hp'
      · rw [if_neg hk0] at hp'
        exact hk.at_ j n p' hn hp'

/-- what a successful parse yields: everything `SipUri.WF` asks for, except that header values may be absent, and that without escaping the
decoded text cannot be written again -/
structure SipUri.Parsed (net : Net) (fl : Flags) (u : SipUri) : Prop where
  user : ∀ us ∈ u.user, us ≠ []
  password : ∀ pw ∈ u.password, u.user ≠ none
  hostport : u.hostport.WF net
  params : ∀ p ∈ u.params, p.name ≠ [] ∧ (∀ v ∈ p.value, v ≠ []) ∧ (fl.setSipUriKnownParam = true → knownIndex sipUriKnownNames p.name = none)
  headers : ∀ h ∈ u.headers, h.name ≠ []
  known : KnownInv sipUriKnownNames fl.setSipUriKnownParam UriParam.name (fun p => ∀ v ∈ p.value, v ≠ []) u.known

theorem SipUri.Parsed.wf {net : Net} {fl : Flags} {u : SipUri} (h : u.Parsed net fl) (hesc : fl.encodeUriNoEscape = false) (hv : ∀ g ∈ u.headers, g.value ≠ none) : u.WF net fl := by
  have hE : ∀ s b, EscOk fl s b := fun s b hh => by rw [hesc] at hh; cases hh
  refine ⟨fun us hus => ⟨h.user us hus, hE _ _⟩, fun pw hpw => ⟨h.password pw hpw, hE _ _⟩, h.hostport, ?_, ?_, h.known.shape, h.known.off, ?_⟩
  · intro p hp
    obtain ⟨h1, h2, h3⟩ := h.params p hp
    exact ⟨⟨h1, hE _ _, fun v hv => ⟨h2 v hv, hE _ _⟩⟩, h3⟩
  · intro g hg
    have := hv g hg
    cases hval : g.value with
    | none => exact absurd hval this
    | some v => exact ⟨h.headers g hg, hE _ _, v, hval, hE _ _⟩
  · intro x hx p hp
    obtain ⟨h1, h2⟩ := knownAt_zip h.known.at_ x hx p hp
    exact ⟨h1, fun v hv => ⟨h2 v hv, hE _ _⟩⟩

theorem safe_byteAt {q : Nat} {l : Bool} {m B : Nat} {β : Type} {R : β → Prop} {f : UInt8 → P β} {c : Ctx} {b : UInt8} (hb : c.cur? = some b) (h : SafeAt q l m B R (f b) c) :
    SafeAt q l m B R (P.byteAt 0 >>= f) c := SafeAt.congr (byteAt_bind 0 f c b hb) h

theorem safe_userinfo (c : Ctx) (hc : Inv c) :
    SafeAt 0 true 1 4 (fun r => (∀ us ∈ r.1, us ≠ []) ∧ ∀ pw ∈ r.2, r.1 ≠ none) SipUri.parseUserinfo c := by
  unfold SipUri.parseUserinfo
  refine SafeAt.get ?_
  by_cases hf : findUserinfo c.rest = true
  · rw [if_pos hf]
    refine SafeAt.seq (B2 := 2) (SafeAt.orErr (l := true) (safe_strEsc csSipUser (by decide +kernel) c hc)) (fun user c1 _ hu hc1 => SafeAt.peek ?_)
    cases hcur : c1.cur? with
    | none => rw [if_pos rfl]; exact SafeAt.err hc1
    | some b =>
      rw [if_neg (by simp)]
      have hpw : SafeAt 0 true 1 2 (fun _ => True) SipUri.parsePassword c1 := by
        unfold SipUri.parsePassword
        refine safe_byteAt hcur ?_
        by_cases hb : b = 0x3a
        · subst hb
          rw [if_pos rfl]
          refine SafeAt.skip1 hc1 hcur (by decide) (fun hc2 => SafeAt.peek ?_)
          by_cases h0 : (c1.adv 1).cur? = none
          · rw [if_pos h0]; exact SafeAt.err hc2
          · rw [if_neg h0]
            exact SafeAt.seq (B2 := 0) (SafeAt.orErr (l := true) (safe_strEscEmpty csSipPassword (by decide +kernel) _ hc2)) (fun _ _ _ _ hc3 => SafeAt.pure hc3 trivial)
        · rw [if_neg hb]; exact SafeAt.pure hc1 trivial
      refine SafeAt.seq (B2 := 0) (SafeAt.orErr (l := true) hpw) (fun pw c2 _ _ hc2 => SafeAt.peek ?_)
      by_cases h : c2.cur? ≠ some 0x40
      · rw [if_pos h]; exact SafeAt.err hc2
      · rw [if_neg h]
        have h : c2.cur? = some 0x40 := by simpa using h
        exact SafeAt.skip1 hc2 h (by decide) (fun hc3 => SafeAt.pure hc3 ⟨by intro us hus; simp at hus; subst hus; exact hu, by simp⟩)
  · rw [if_neg hf]
    exact SafeAt.pure hc ⟨by simp, by simp⟩

theorem safe_sipParams (c : Ctx) (hc : Inv c) :
    SafeAt 0 true 23 22 (fun r => KnownInv sipUriKnownNames c.flags.setSipUriKnownParam UriParam.name (fun p => ∀ v ∈ p.value, v ≠ []) r.1 ∧
      ∀ p ∈ r.2, UriParam.Read sipUriParamCS c.src p ∧ (c.flags.setSipUriKnownParam = true → knownIndex sipUriKnownNames p.name = none)) SipUri.parseParams c := by
  unfold SipUri.parseParams
  refine SafeAt.peek ?_
  by_cases h : c.cur? = some 0x3b
  · rw [if_pos h]
    refine SafeAt.skip1 hc h (by decide) (fun hc1 => SafeAt.orErr (l' := true) ?_)
    refine (safe_uriParams 0 12 sipUriParamCS sipUriParamCS_ok SipUri.setKnown (c.adv 1) hc1
      (KnownInv sipUriKnownNames c.flags.setSipUriKnownParam UriParam.name (fun p => ∀ v ∈ p.value, v ≠ []))
      (fun p => c.flags.setSipUriKnownParam = true → knownIndex sipUriKnownNames p.name = none) ?_ [] KnownInv.nil)
    intro k p c1 hk hp _ hc1 hfl _
    unfold SipUri.setKnown
    refine SafeAt.get ?_
    have e : c1.flags.setSipUriKnownParam = c.flags.setSipUriKnownParam := by rw [hfl]; rfl
    rw [e]
    exact safe_setKnown_inv sipUriKnownNames (by decide +kernel) c.flags.setSipUriKnownParam UriParam.name (fun p => ∀ v ∈ p.value, v ≠ []) k hk p hp.value c1 hc1
  · rw [if_neg h]
    exact SafeAt.pure hc ⟨KnownInv.nil, by simp⟩

theorem safe_sipHeaders (c : Ctx) (hc : Inv c) : SafeAt 0 true 11 10 (fun hs => ∀ h ∈ hs, h.name ≠ []) SipUri.parseHeaders c := by
  unfold SipUri.parseHeaders
  refine SafeAt.peek ?_
  by_cases h : c.cur? = some 0x3f
  · rw [if_pos h]
    exact SafeAt.skip1 hc h (by decide) (fun hc1 => SafeAt.orErr (l' := true) (safe_uriHeaders sipUriHeaderCS sipUriHeaderCS_ok _ hc1))
  · rw [if_neg h]; exact SafeAt.pure hc (by simp)

/-- the URI behind the scheme -/
theorem sipUri_afterScheme_safe (net : Net) (hnet : net.Ok) (sec : Bool) (c : Ctx) (hc : Inv c) :
    SafeAt 0 true 23 52 (fun u => SipUri.Parsed net c.flags u) (SipUri.parseAfterScheme net sec) c := by
  unfold SipUri.parseAfterScheme
  have h1 := SafeAt.orErr (l := true) (safe_userinfo c hc)
  refine SafeAt.seq (B2 := 48) h1 (fun r c1 e1 hu hc1 => ?_)
  have f1 := (h1.step _ _ e1).flags
  have h2 := SafeAt.orErr (l := true) (hostport_safe net hnet c1 hc1)
  refine SafeAt.seq (B2 := 32) h2 (fun hp c2 e2 hhp hc2 => ?_)
  have f2 := ((h2.step _ _ e2).flags).trans f1
  refine SafeAt.seq (B2 := 10) (safe_sipParams c2 hc2) (fun ps c3 e3 hps hc3 => ?_)
  refine SafeAt.seq (B2 := 0) (safe_sipHeaders c3 hc3) (fun hs c4 e4 hhs hc4 => SafeAt.pure hc4 ?_)
  rw [f2] at hps
  exact ⟨hu.1, hu.2, hhp, fun p hp => ⟨(hps.2 p hp).1.name, (hps.2 p hp).1.value, (hps.2 p hp).2⟩, hhs, hps.1⟩

theorem safe_sipScheme (c : Ctx) (hc : Inv c) : SafeAt 0 true 23 0 (fun _ => True) SipUri.parseScheme c := by
  have hlen := rest_length c hc.pos
  unfold SipUri.parseScheme
  have key : ∀ (k : Nat) (t r : Bytes) (v : Bool), c.rest = t ++ r → t.length = k → (∀ b ∈ t, b ≠ 0x0d) →
      SafeAt 0 true 23 0 (fun _ => True) (fun c => .ok (some v, c.adv k) : P Bool) c := by
    intro k t r v hr hk hcr
    refine .of_ok (v := v) rfl (Step.adv hc ?_) trivial (line_of_noCR t r hr (by rw [hk]; rfl) hcr) (by show c.used ≤ _; omega)
    rw [hr] at hlen; simp only [List.length_append] at hlen; omega
  have hor : ∀ a k : UInt8, k ≠ 0x2d → a ||| 0x20 = k → a ≠ 0x0d := by
    intro a k hk h e; subst e; exact hk (by rw [← h]; decide)
  by_cases h1 : hasSipPrefix c.rest = true
  · refine SafeAt.congr (p' := fun c => .ok (some false, c.adv 4)) (by rw [if_pos h1]) ?_
    rcases hr : c.rest with _ | ⟨a, _ | ⟨b, _ | ⟨d, _ | ⟨e, r⟩⟩⟩⟩ <;> rw [hr] at h1 <;> simp only [hasSipPrefix, Bool.false_eq_true] at h1
    simp only [Bool.and_eq_true, beq_iff_eq] at h1
    obtain ⟨⟨⟨ha, hb⟩, hd⟩, he⟩ := h1
    refine key 4 [a, b, d, e] r false (by rw [hr]; rfl) rfl ?_
    intro x hx
    simp only [List.mem_cons, List.not_mem_nil, or_false] at hx
    rcases hx with rfl | rfl | rfl | rfl
    · exact hor _ _ (by decide) ha
    · exact hor _ _ (by decide) hb
    · exact hor _ _ (by decide) hd
    · rw [he]; decide
  · by_cases h2 : hasSipsPrefix c.rest = true
    · refine SafeAt.congr (p' := fun c => .ok (some true, c.adv 5)) (by rw [if_neg h1, if_pos h2]) ?_
      rcases hr : c.rest with _ | ⟨a, _ | ⟨b, _ | ⟨d, _ | ⟨e, _ | ⟨f, r⟩⟩⟩⟩⟩ <;> rw [hr] at h2 <;> simp only [hasSipsPrefix, Bool.false_eq_true] at h2
      simp only [Bool.and_eq_true, beq_iff_eq] at h2
      obtain ⟨⟨⟨⟨ha, hb⟩, hd⟩, he⟩, hf⟩ := h2
      refine key 5 [a, b, d, e, f] r true (by rw [hr]; rfl) rfl ?_
      intro x hx
      simp only [List.mem_cons, List.not_mem_nil, or_false] at hx
      rcases hx with rfl | rfl | rfl | rfl | rfl
      · exact hor _ _ (by decide) ha
      · exact hor _ _ (by decide) hb
      · exact hor _ _ (by decide) hd
      · exact hor _ _ (by decide) he
      · rw [hf]; decide
    · exact .of_none (by rw [if_neg h1, if_neg h2]) (Step.err hc _) (by simp [Ctx.addError])

/-- **C18, C28–C31** on every input, `SipUri.Parse` moves forward inside the input and never past a line end, keeps the arena inside its
capacity, reports every failure, never hangs, never panics given 23 bytes of memory per byte of input and 52 more; what it accepts is a well
formed URI. -/
theorem sipUri_safe (net : Net) (hnet : net.Ok) (c : Ctx) (hc : Inv c) :
    SafeAt 0 true 23 52 (fun u => SipUri.Parsed net c.flags u) (SipUri.parse net) c := by
  unfold SipUri.parse
  have h1 := safe_sipScheme c hc
  refine SafeAt.seq (B2 := 52) h1 (fun s c1 e1 _ hc1 => ?_)
  have := (h1.step _ _ e1).flags
  have h2 := sipUri_afterScheme_safe net hnet s c1 hc1
  rw [this] at h2; exact h2

/-- **C18** parse, encode, parse: whatever `Parse` accepts is written by `Encode` as a text that parses to the same URI (with the known
parameters under the names of the table), and from then on encode and parse are inverse to each other. -/
theorem sipUri_idempotent (net : Net) (hnet : net.Ok) (c c' : Ctx) (u : SipUri) (hc : Inv c) (he : c.flags.encodeUriNoEscape = false)
    (h : SipUri.parse net c = .ok (some u, c')) (hv : ∀ g ∈ u.headers, g.value ≠ none) :
    Parses c.flags (SipUri.parse net) (u.encode net c.flags) u.canon u.cost (UriEnd u) ∧
    u.canon.encode net c.flags = u.encode net c.flags ∧ u.canon.canon = u.canon := by
  have hp := ((sipUri_safe net hnet c hc).some _ _ h).1.wf he hv
  refine ⟨sipUri_roundtrip net hnet c.flags u hp, ?_, ?_⟩
  · have : ∀ (names : List Bytes) (known : List (Option UriParam)),
        encodeKnown names 0x3b (UriParam.encodeValue c.flags sipUriParamCS) (canonKnown UriParam.rename names known) =
        encodeKnown names 0x3b (UriParam.encodeValue c.flags sipUriParamCS) known := by
      intro names
      induction names with
      | nil => intro known; simp [encodeKnown, canonKnown]
      | cons n names ih =>
        intro known
        cases known with
        | nil => simp [encodeKnown, canonKnown]
        | cons k known =>
          have := ih known
          unfold encodeKnown canonKnown at *
          rw [List.zipWith_cons_cons, List.zip_cons_cons, List.flatMap_cons, this, List.zip_cons_cons, List.flatMap_cons]
          cases k <;> simp [UriParam.rename, UriParam.encodeValue]
    unfold SipUri.encode SipUri.canon
    simp only [this]
  · have : ∀ (names : List Bytes) (known : List (Option UriParam)),
        canonKnown UriParam.rename names (canonKnown UriParam.rename names known) = canonKnown UriParam.rename names known := by
      intro names
      induction names with
      | nil => intro known; simp [canonKnown]
      | cons n names ih =>
        intro known
        cases known with
        | nil => simp [canonKnown]
        | cons k known =>
          have := ih known
          unfold canonKnown at *
          rw [List.zipWith_cons_cons, List.zipWith_cons_cons, this]
          cases k <;> simp [UriParam.rename]
    unfold SipUri.canon
    simp only [this]

/-- the text `>` or white space or nothing may follow a URI -/
theorem uriEnd_of (u : SipUri) (y : Bytes) (h : ∀ b ∈ y.head?, b = 0x3e ∨ isLwsChar b = true) (h' : y = [] → ∀ g ∈ u.headers.getLast?, g.value ≠ some []) : UriEnd u y := by
  refine ⟨fun b hb => ?_, ?_, h'⟩
  · have : ∀ b : UInt8, (b = 0x3e ∨ isLwsChar b = true) → uriStop b = true := by decide +kernel
    exact this b (h b hb)
  · cases y with
    | nil => rfl
    | cons b y =>
      rw [findUserinfo]
      rcases h b (by simp) with rfl | hb
      · rfl
      · rw [if_neg (by rintro rfl; exact absurd hb (by decide +kernel)), if_pos (by simp [hb])]

/-- the hypotheses are met by a URI with every part, and the theorem says what happens -/
def SipUri.sample : SipUri :=
  { secure := true, user := some (str "al ice"), password := some (str "p@"), hostport := ⟨.name (str "a.example"), some 5061⟩,
    params := [⟨str "x", none⟩, ⟨str "y", some (str "1;2")⟩], headers := [⟨str "Subject", some (str "a b")⟩, ⟨str "e", some []⟩],
    known := [none, some ⟨str "transport", some (str "tcp")⟩, some ⟨str "LR", none⟩, none, none, none] }

theorem SipUri.sample_wf : SipUri.sample.WF Net.sample { setSipUriKnownParam := true } := by
  have hE : ∀ s b, EscOk { setSipUriKnownParam := true } s b := fun s b h => by cases h
  refine ⟨?_, ?_, ⟨⟨by decide, by decide +kernel, Or.inl ⟨0x61, by decide, by decide +kernel⟩⟩, ?_⟩, ?_, ?_, Or.inr ⟨rfl, some ⟨str "LR", none⟩, by decide, by decide⟩, (by intro h; cases h), ?_⟩
  · intro us h; cases h; exact ⟨by decide, hE _ _⟩
  · intro us h; cases h; exact ⟨by decide, hE _ _⟩
  · intro p hp; cases hp; omega
  · intro p hp
    simp only [SipUri.sample, List.mem_cons, List.not_mem_nil, or_false] at hp
    rcases hp with rfl | rfl
    · exact ⟨⟨by decide, hE _ _, by simp⟩, fun _ => by decide +kernel⟩
    · exact ⟨⟨by decide, hE _ _, by intro v hv; cases hv; exact ⟨by decide, hE _ _⟩⟩, fun _ => by decide +kernel⟩
  · intro p hp
    simp only [SipUri.sample, List.mem_cons, List.not_mem_nil, or_false] at hp
    rcases hp with rfl | rfl
    · exact ⟨by decide, hE _ _, _, rfl, hE _ _⟩
    · exact ⟨by decide, hE _ _, _, rfl, hE _ _⟩
  · intro x hx p hp
    simp only [SipUri.sample, sipUriKnownNames, List.zip_cons_cons, List.zip_nil_left, List.mem_cons, List.not_mem_nil, or_false] at hx
    rcases hx with rfl | rfl | rfl | rfl | rfl | rfl <;> simp at hp <;> subst hp
    · exact ⟨by decide +kernel, by intro v hv; cases hv; exact ⟨by decide, hE _ _⟩⟩
    · exact ⟨by decide +kernel, by simp⟩

example : SipUri.sample.encode Net.sample { setSipUriKnownParam := true } =
    str "sips:al%20ice:p%40@a.example:5061;transport=tcp;lr;x;y=1%3B2?Subject=a%20b&e=" := by decide +kernel

/-- **C18, negation**: a header with an empty value at the end of the input is read as a header without value, and is then written without
the `=`; that text is not accepted any more. -/
theorem sipUri_header_lost :
    (∃ u c', SipUri.parse Net.sample { src := str "sip:h?a=", cap := 200 } = .ok (some u, c') ∧ u.encode Net.sample {} = str "sip:h?a") ∧
    ∃ c', SipUri.parse Net.sample { src := str "sip:h?a", cap := 200 } = .ok (none, c') := by
  obtain ⟨c', h⟩ := resultOf_ok (o := SipUri.parse Net.sample { src := str "sip:h?a=", cap := 200 })
    (r := some { hostport := ⟨.name (str "h"), none⟩, headers := [⟨str "a", none⟩] }) (by decide +kernel)
  exact ⟨⟨_, c', h, by decide +kernel⟩, resultOf_ok (by decide +kernel)⟩

end Sip
