import Verif.Lemmas.ReadsPrim
/-! # What is accepted follows the grammar: host, port and URIs (C42) -/
namespace Sip

theorem rel_text {α : Type} {R : Rel α} {v : α} {t t' y : Bytes} (h : R v t y) (e : t' = t) : R v t' y := by rw [e]; exact h

/-! ## Host and port -/

/-- a context that has moved over `t` -/
theorem Step.move {c c' : Ctx} {t y : Bytes} (hr : c.rest = t ++ y) (hs : Step c c') (hp : c'.pos = c.pos + t.length) : c'.rest = y := by
  unfold Ctx.rest
  rw [hs.src, hp, ← List.drop_drop]
  have : c.src.drop c.pos = t ++ y := hr
  rw [this, List.drop_left]

theorem runLen_run {p : UInt8 → Bool} {x y : Bytes} (h2 : ∀ b ∈ x, p b = true) (h3 : ∀ b ∈ y.head?, p b = false) : runLen p (x ++ y) = x.length := by
  rw [runLen_append_of_all h2]
  cases y with
  | nil => simp [runLen]
  | cons b y => rw [runLen_cons_false (h3 b (by simp))]; omega

theorem ReadsAt.hostname {net : Net} {c : Ctx} (h4 : ∀ s y, c.rest = s ++ y → InSet csHostname s → NotIn csHostname y → ¬ ∃ ip, Ipv4Text s ip) :
    ReadsAt (Gram.host net) parseHostname c := by
  refine ReadsAt.bind (ReadsAt.str csHostname (by decide +kernel)) (fun v t1 c1 _ s1 h1 h2 => ReadsAt.pure ?_)
  obtain ⟨rfl, hne, hin, hnot⟩ := h2
  refine rel_text (Gram.host.name v _ hne hin hnot (h4 v _ h1 hin hnot)) (by simp)

theorem ReadsAt.ipv6 {net : Net} {c : Ctx} :
    ReadsAt (fun v t _ => ∃ x ip, v = Host.ipv6 ip ∧ t = x ++ [0x5d] ∧ 0x5d ∉ x ∧ net.parseIP x = some ip) (parseIpv6 net) c := by
  intro hc v c' e
  unfold parseIpv6 at e
  simp only at e
  obtain ⟨x, y, h1, h2, h3, _⟩ := exists_run (· ≠ (0x5d : UInt8)) c.rest
  have hp : skipWhile (fun b => decide (b ≠ 0x5d)) c.src c.pos = c.pos + x.length := by
    unfold skipWhile; rw [show c.src.drop c.pos = c.rest from rfl, h1, runLen_run h2 h3]
  rw [hp] at e
  split at e
  · cases e
  · rename_i hlt
    have htx : (c.src.drop c.pos).take (c.pos + x.length - c.pos) = x := by
      rw [Nat.add_sub_cancel_left, show c.src.drop c.pos = c.rest from rfl, h1, List.take_left]
    rw [htx] at e
    split at e
    · cases e
    · rename_i ip hip
      by_cases hu : (c.setPos (c.pos + x.length)).used + 16 ≤ (c.setPos (c.pos + x.length)).cap
      · rw [alloc_ok _ _ hu] at e
        simp only [Out.ok.injEq, Prod.mk.injEq, Option.some.injEq] at e
        obtain ⟨rfl, rfl⟩ := e
        have hlen := rest_length c hc.pos
        cases y with
        | nil =>
          rw [h1] at hlen; simp only [List.append_nil] at hlen
          exact absurd (by show c.pos + x.length ≥ c.src.length; omega) hlt
        | cons b y =>
          have hb : b = 0x5d := by simpa using h3 b (by simp)
          subst hb
          have hr : c.rest = (x ++ [0x5d]) ++ y := by rw [h1]; simp
          have hcl := congrArg List.length hr
          simp only [List.length_append, List.length_cons, List.length_nil] at hcl
          have hst : Step c { (c.setPos (c.pos + x.length)) with used := c.used + 16, pos := c.pos + x.length + 1 } := by
            refine ⟨rfl, rfl, rfl, ?_, ?_, ?_, hu, ErrsIn.refl⟩
            · show c.pos ≤ c.pos + x.length + 1; omega
            · show c.pos + x.length + 1 ≤ c.src.length; omega
            · show c.used ≤ c.used + 16; omega
          refine ⟨hst, x ++ [0x5d], ?_, x, ip, rfl, rfl, ?_, hip⟩
          · refine hr.trans (congrArg _ (Step.move hr hst ?_).symm)
            simp [Nat.add_assoc]
          · intro hm
            have := h2 _ hm
            revert this; decide
      · rw [alloc_no _ _ hu] at e; cases e

theorem ReadsAt.host {net : Net} {c : Ctx} : ReadsAt (Gram.host net) (parseHost net) c := by
  intro hc v c' e
  unfold parseHost at e
  rw [cur_eq_head] at e
  match hr : c.rest with
  | [] => rw [hr] at e; cases e
  | b :: y =>
    rw [hr] at e
    simp only [List.head?_cons] at e
    by_cases hb : b = 0x5b
    · rw [if_pos hb] at e
      subst hb
      have hr1 : c.rest = [0x5b] ++ y := hr
      have s1 := Step.of_rest hc hr1
      have e1 : (c.adv 1).rest = y := Ctx.rest_adv hr1
      obtain ⟨s2, t, g1, x, ip, rfl, rfl, g2, g3⟩ := ReadsAt.ipv6 (net := net) (c := c.adv 1) s1.inv v c' e
      rw [e1] at g1
      exact ⟨s1.trans s2, 0x5b :: x ++ [0x5d], by rw [g1]; rfl, .ipv6 x ip _ g2 g3⟩
    · rw [if_neg hb] at e
      rw [← hr]
      obtain ⟨s, z, h1, h2, h3⟩ := exists_maxRun csHostname c.rest
      have huniq : ∀ s' y', c.rest = s' ++ y' → InSet csHostname s' → NotIn csHostname y' → s' = s := by
        intro s' y' g1 g2 g3
        exact (digitRun_unique (p := csHostname.mem) (g1.symm.trans h1) g2 h2 g3 h3).1
      have hip := parseIpv4_spec c.src c.pos s z h1 h2 h3
      by_cases ha : isAlpha b
      · rw [if_pos ha] at e
        refine ReadsAt.hostname (fun s' y' g1 g2 g3 ⟨ip, h4⟩ => ?_) hc v c' e
        obtain ⟨b', hb', hd⟩ := ipv4Text_head h4
        have hbb : b = b' := by
          cases s' with
          | nil => simp at hb'
          | cons x s' =>
            rw [g1] at hr
            simp only [List.head?_cons, Option.mem_def, Option.some.injEq] at hb'
            simp only [List.cons_append, List.cons.injEq] at hr
            rw [← hr.1, hb']
        subst hbb
        have : ∀ b : UInt8, isAlpha b = true → isDigit b = true → False := by decide +kernel
        exact this _ ha hd
      · rw [if_neg ha] at e
        rcases hip with ⟨ip, h4, h5⟩ | ⟨h4, p, h5⟩
        · rw [h5] at e
          simp only at e
          by_cases hu : (c.setPos (c.pos + s.length)).used + 4 ≤ (c.setPos (c.pos + s.length)).cap
          · rw [alloc_ok _ _ hu] at e
            simp only at e
            have hcl := congrArg List.length h1
            have hrl := rest_length c hc.pos
            rw [List.length_append] at hcl
            split at e
            · simp only [Out.ok.injEq, Prod.mk.injEq, Option.some.injEq] at e
              obtain ⟨rfl, rfl⟩ := e
              have hst : Step c { c with pos := c.pos + s.length, used := c.used + 4 } := by
                refine ⟨rfl, rfl, rfl, ?_, ?_, ?_, hu, ErrsIn.refl⟩
                · show c.pos ≤ c.pos + s.length; omega
                · show c.pos + s.length ≤ c.src.length; omega
                · show c.used ≤ c.used + 4; omega
              have em := Step.move h1 hst rfl
              exact ⟨hst, s, h1.trans (congrArg _ em.symm), .ipv4 _ _ _ _ s _ h4 (by rw [show ({ c.setPos (c.pos + s.length) with used := (c.setPos (c.pos + s.length)).used + 4 } : Ctx).rest = z from em]; exact h3)⟩
            · cases e
          · rw [alloc_no _ _ hu] at e; cases e
        · rw [h5] at e
          refine ReadsAt.hostname (fun s' y' g1 g2 g3 h6 => ?_) hc v c' e
          rw [huniq s' y' g1 g2 g3] at h6
          exact h4 h6

theorem ReadsAt.hostport {net : Net} {c : Ctx} : ReadsAt (Gram.hostport net) (HostPort.parse net) c := by
  unfold HostPort.parse
  refine ReadsAt.bind (ReadsAt.orErr ReadsAt.host) (fun h t1 c1 _ s1 h1 hh => ?_)
  refine ReadsAt.peek (fun hr => ?_) (fun b y hr => ?_)
  · exact ReadsAt.pure (rel_text (Gram.hostport.noPort h t1 _ hh (by rw [hr]; simp)) (by simp))
  · by_cases hb : b = 0x3a
    · subst hb
      simp only
      refine ReadsAt.bind (ReadsAt.skip1 (R := fun _ t y' => t = [0x3a] ∧ y' = y) hr ⟨rfl, rfl⟩) (fun _ t2 c2 _ s2 h2 h22 => ?_)
      obtain ⟨rfl, h22⟩ := h22
      refine ReadsAt.get ?_
      intro hc2 v c' e
      by_cases hok : (parseUInt c2.src c2.pos).ok = true
      · obtain ⟨t, z, g1, g2, g3⟩ := uint_text hok
        by_cases hd : (parseUInt c2.src c2.pos).digit > 0xffff
        · simp only [P.bind_apply, P.set, hok, hd, Bool.not_true, Bool.false_eq_true, if_false, if_true, P.err] at e; cases e
        · simp only [P.bind_apply, P.set, hok, hd, Bool.not_true, Bool.false_eq_true, if_false, P.pure_apply, Out.ok.injEq, Prod.mk.injEq, Option.some.injEq] at e
          obtain ⟨rfl, rfl⟩ := e
          rw [g3]
          have em : (c2.setPos (c2.pos + t.length)).rest = z := Ctx.rest_adv g1
          refine ⟨Step.of_rest hc2 g1, t, by rw [em]; exact g1, ?_⟩
          rw [em]
          have hu : u16 (parseUInt c2.src c2.pos).digit = (parseUInt c2.src c2.pos).digit := by unfold u16; omega
          rw [hu]
          refine rel_text (Gram.hostport.port h t1 _ t z ?_ g2 (by omega)) (by simp)
          rw [hr, ← h22, g1] at hh; exact hh
      · simp only [P.bind_apply, P.set, hok, Bool.not_false, if_true, P.err] at e; cases e
    · have : ReadsAt (fun w t2 y => Gram.hostport net w (t1 ++ t2) y) (Pure.pure ⟨h, none⟩ : P HostPort) c1 :=
        ReadsAt.pure (rel_text (Gram.hostport.noPort h t1 _ hh (by rw [hr]; simpa using hb)) (by simp))
      split
      · rename_i heq; cases heq; exact absurd rfl hb
      · exact this


/-! ## Lists with separators -/

/-- the items `ps` read so far, with their separators, are the text `a`; `y` follows -/
def SepRead {α : Type} (sep : UInt8) (R : Rel α) (ps : List α) (a y : Bytes) : Prop :=
  (∀ xs t' y', y = t' ++ y' → Gram.sepBy sep R xs t' y' → Gram.sepBy sep R (ps ++ xs) (a ++ t') y') ∧ (y = [] → Gram.sepBy sep R ps a [])

theorem SepRead.nil {α : Type} {sep : UInt8} {R : Rel α} {y : Bytes} (h : y ≠ []) : SepRead sep R [] [] y :=
  ⟨fun _ _ _ _ h => h, fun e => absurd e h⟩
theorem SepRead.more {α : Type} {sep : UInt8} {R : Rel α} {ps : List α} {a t y : Bytes} {p : α} (h : SepRead sep R ps a (t ++ sep :: y)) (hp : R p t (sep :: y)) :
    SepRead sep R (ps ++ [p]) (a ++ t ++ [sep]) y := by
  refine ⟨fun xs t' y' e hx => ?_, fun e => ?_⟩
  · have := h.1 (p :: xs) (t ++ sep :: t') y' (by rw [e]; simp) (.more p t xs t' y' (by rw [e] at hp; exact hp) hx)
    simpa using this
  · subst e
    have := h.1 [p] (t ++ [sep]) [] (by simp) (.trail p t hp)
    simpa using this
theorem SepRead.last {α : Type} {sep : UInt8} {R : Rel α} {ps : List α} {a t y : Bytes} {p : α} (h : SepRead sep R ps a (t ++ y)) (hp : R p t y)
    (hy : y.head? ≠ some sep) : Gram.sepBy sep R (ps ++ [p]) (a ++ t) y :=
  h.1 [p] t y rfl (.last p t y hp hy)

/-! ## Parameters and headers of URIs -/

/-- both character sets are without CR -/
def CharsetInfo.Lines (cs : CharsetInfo) : Prop := cs.name.mem 0x0d = false ∧ cs.value.mem 0x0d = false

theorem ReadsAt.uriParam {cs : CharsetInfo} (hcs : cs.Lines) {c : Ctx} : ReadsAt (Gram.uriParam cs) (UriParam.parse cs) c := by
  unfold UriParam.parse
  refine ReadsAt.bind (ReadsAt.orErr (ReadsAt.strEsc cs.name hcs.1)) (fun n t1 c1 _ s1 h1 hn => ?_)
  refine ReadsAt.peek (fun hr => ?_) (fun b y hr => ?_)
  · exact ReadsAt.ite (fun h => by cases h) (fun _ => ReadsAt.pure (rel_text (Gram.uriParam.flag n t1 _ hn (by rw [hr]; simp)) (by simp)))
  · refine ReadsAt.ite (fun h => ?_) (fun h => ReadsAt.pure (rel_text (Gram.uriParam.flag n t1 _ hn (by rw [hr]; simpa using h)) (by simp)))
    simp only [Option.some.injEq] at h; subst h
    refine ReadsAt.bind (ReadsAt.skip1 (R := fun _ t y' => t = [0x3d] ∧ y' = y) hr ⟨rfl, rfl⟩) (fun _ t2 c2 _ s2 h2 h22 => ?_)
    obtain ⟨rfl, h22⟩ := h22
    refine ReadsAt.bind (ReadsAt.orErr (ReadsAt.strEsc cs.value hcs.2)) (fun v t3 c3 _ s3 h3 hv => ReadsAt.pure ?_)
    rw [hr, ← h22, h3] at hn
    exact rel_text (Gram.uriParam.value n t1 v t3 _ hn hv) (by simp)

theorem ReadsAt.uriHeader {cs : CharsetInfo} (hcs : cs.Lines) {c : Ctx} : ReadsAt (Gram.uriHeader cs) (UriHeader.parse cs) c := by
  unfold UriHeader.parse
  refine ReadsAt.bind (ReadsAt.orErr (ReadsAt.strEsc cs.name hcs.1)) (fun n t1 c1 _ s1 h1 hn => ?_)
  refine ReadsAt.peek (fun hr => ?_) (fun b y hr => ?_)
  · exact ReadsAt.ite (fun _ => ReadsAt.err) (fun h => absurd (by simp) h)
  · refine ReadsAt.ite (fun _ => ReadsAt.err) (fun h => ?_)
    simp only [ne_eq, Option.some.injEq, Classical.not_not] at h; subst h
    refine ReadsAt.bind (ReadsAt.skip1 (R := fun _ t y' => t = [0x3d] ∧ y' = y) hr ⟨rfl, rfl⟩) (fun _ t2 c2 _ s2 h2 h22 => ?_)
    obtain ⟨rfl, h22⟩ := h22
    refine ReadsAt.peek (fun hr2 => ?_) (fun b y2 hr2 => ?_)
    · refine ReadsAt.ite (fun _ => ReadsAt.pure ?_) (fun h => absurd rfl h)
      rw [hr, ← h22, hr2] at hn
      rw [hr2]
      exact rel_text (Gram.uriHeader.atEnd n t1 hn) (by simp)
    · refine ReadsAt.ite (fun h => by cases h) (fun _ => ?_)
      refine ReadsAt.bind (ReadsAt.orErr (ReadsAt.strEscEmpty cs.value hcs.2)) (fun v t3 c3 _ s3 h3 hv => ReadsAt.pure ?_)
      rw [hr, ← h22, h3] at hn
      exact rel_text (Gram.uriHeader.value n t1 v t3 _ hn hv (by rw [← h3, hr2]; simp)) (by simp)

/-- what `SetKnownParams` must do: sort one parameter more -/
def SetsKnown {κ α : Type} (fl : Flags) (K : List α → κ → List α → Prop) (setK : κ → α → P (Option κ)) : Prop :=
  ∀ ps k acc p c, c.flags = fl → K ps k acc →
    ReadsAt (fun r t _ => t = [] ∧ K (ps ++ [p]) (r.getD k) (if r.isSome then acc else acc ++ [p])) (setK k p) c

theorem ReadsAt.uriParams {κ : Type} {cs : CharsetInfo} (hcs : cs.Lines) {fl : Flags} {K : List UriParam → κ → List UriParam → Prop} {setK : κ → UriParam → P (Option κ)}
    (hset : SetsKnown fl K setK) {k : κ} (hk : K [] k []) {c : Ctx} (hf : c.flags = fl) :
    ReadsAt (fun r t y => ∃ ps, K ps r.1 r.2 ∧ Gram.sepBy 0x3b (Gram.uriParam cs) ps t y) (parseUriParams cs setK k) c := by
  unfold parseUriParams
  refine ReadsAt.peek (fun _ => ReadsAt.ite (fun _ => ReadsAt.err) (fun h => absurd rfl h)) (fun b y hr => ReadsAt.ite (fun h => by cases h) (fun _ => ?_))
  refine ReadsAt.forLoop (J := fun s a y => ∃ ps, K ps s.1 s.2 ∧ SepRead 0x3b (Gram.uriParam cs) ps a y) (fl := fl) ?_ hf ⟨[], hk, SepRead.nil (by rw [hr]; simp)⟩
  rintro ⟨k, acc⟩ a c hf ⟨ps, hK, hJ⟩
  unfold uriParamsBody
  refine ReadsAt.peek (fun hr => ?_) (fun b y hr => ?_)
  · refine ReadsAt.ite (fun _ => ReadsAt.pure ⟨fun _ h => (by cases h), fun v h => ?_⟩) (fun h => absurd rfl h)
    cases h
    rw [hr] at hJ ⊢
    exact ⟨ps, hK, by rw [List.append_nil]; exact hJ.2 rfl⟩
  · refine ReadsAt.ite (fun h => by cases h) (fun _ => ?_)
    refine ReadsAt.bind (ReadsAt.orErr (ReadsAt.alloc 6)) (fun _ t1 c1 _ s1 h1 ht => ?_)
    subst ht
    refine ReadsAt.bind (ReadsAt.uriParam hcs) (fun p t2 c2 _ s2 h2 hp => ?_)
    refine ReadsAt.bind (hset ps k acc p c2 (s2.flags.trans (s1.flags.trans hf)) hK) (fun r t3 c3 _ s3 h3 h33 => ?_)
    obtain ⟨rfl, h33⟩ := h33
    simp only [List.nil_append] at h1 h3 ⊢
    rw [h3] at hp h2
    rw [h1, h2] at hJ
    refine ReadsAt.peek (fun hr => ?_) (fun b y hr => ?_)
    · refine ReadsAt.ite (fun h => by cases h) (fun _ => ReadsAt.pure ⟨fun _ h => (by cases h), fun v h => ?_⟩)
      cases h
      refine ⟨ps ++ [p], ?_, ?_⟩
      · cases r <;> exact h33
      · exact rel_text (R := fun _ t y => Gram.sepBy _ _ _ t y) (v := ()) (hJ.last hp (by rw [hr]; simp)) (by simp)
    · refine ReadsAt.ite (fun h => ?_) (fun h => ReadsAt.pure ⟨fun _ h => (by cases h), fun v h2 => ?_⟩)
      · simp only [Option.some.injEq] at h; subst h
        refine ReadsAt.bind (ReadsAt.skip1 (R := fun _ t y' => t = [0x3b] ∧ y' = y) hr ⟨rfl, rfl⟩) (fun _ t4 c4 _ s4 h4 h44 => ReadsAt.pure ⟨fun s h => ?_, fun _ h => by cases h⟩)
        obtain ⟨rfl, h44⟩ := h44
        cases h
        rw [hr] at hJ hp
        refine ⟨ps ++ [p], ?_, ?_⟩
        · cases r <;> exact h33
        · rw [h44]
          exact rel_text (R := fun _ t y => SepRead _ _ _ t y) (v := ()) (hJ.more hp) (by simp)
      · cases h2
        refine ⟨ps ++ [p], ?_, ?_⟩
        · cases r <;> exact h33
        · exact rel_text (R := fun _ t y => Gram.sepBy _ _ _ t y) (v := ()) (hJ.last hp (by rw [hr]; simpa using h)) (by simp)

theorem ReadsAt.uriHeaders {cs : CharsetInfo} (hcs : cs.Lines) {c : Ctx} : ReadsAt (Gram.sepBy 0x26 (Gram.uriHeader cs)) (parseUriHeaders cs) c := by
  unfold parseUriHeaders
  refine ReadsAt.peek (fun _ => ReadsAt.ite (fun _ => ReadsAt.err) (fun h => absurd rfl h)) (fun b y hr => ReadsAt.ite (fun h => by cases h) (fun _ => ?_))
  refine ReadsAt.forLoop (J := fun ps a y => SepRead 0x26 (Gram.uriHeader cs) ps a y) (fl := c.flags) ?_ rfl (SepRead.nil (by rw [hr]; simp))
  rintro ps a c hf hJ
  unfold uriHeadersBody
  refine ReadsAt.peek (fun hr => ?_) (fun b y hr => ?_)
  · refine ReadsAt.ite (fun _ => ReadsAt.pure ⟨fun _ h => (by cases h), fun v h => ?_⟩) (fun h => absurd rfl h)
    cases h
    rw [hr] at hJ ⊢
    rw [List.append_nil]; exact hJ.2 rfl
  · refine ReadsAt.ite (fun h => by cases h) (fun _ => ?_)
    refine ReadsAt.bind (ReadsAt.orErr (ReadsAt.alloc 6)) (fun _ t1 c1 _ s1 h1 ht => ?_)
    subst ht
    refine ReadsAt.bind (ReadsAt.uriHeader hcs) (fun p t2 c2 _ s2 h2 hp => ?_)
    simp only [List.nil_append] at h1 ⊢
    rw [h1, h2] at hJ
    refine ReadsAt.peek (fun hr => ?_) (fun b y hr => ?_)
    · refine ReadsAt.ite (fun h => by cases h) (fun _ => ReadsAt.pure ⟨fun _ h => (by cases h), fun v h => ?_⟩)
      cases h
      exact rel_text (R := fun _ t y => Gram.sepBy _ _ _ t y) (v := ()) (hJ.last hp (by rw [hr]; simp)) (by simp)
    · refine ReadsAt.ite (fun h => ?_) (fun h => ReadsAt.pure ⟨fun _ h => (by cases h), fun v h2 => ?_⟩)
      · simp only [Option.some.injEq] at h; subst h
        refine ReadsAt.bind (ReadsAt.skip1 (R := fun _ t y' => t = [0x26] ∧ y' = y) hr ⟨rfl, rfl⟩) (fun _ t4 c4 _ s4 h4 h44 => ReadsAt.pure ⟨fun s h => ?_, fun _ h => by cases h⟩)
        obtain ⟨rfl, h44⟩ := h44
        cases h
        rw [hr] at hJ hp
        rw [h44]
        exact rel_text (R := fun _ t y => SepRead _ _ _ t y) (v := ()) (hJ.more hp) (by simp)
      · cases h2
        exact rel_text (R := fun _ t y => Gram.sepBy _ _ _ t y) (v := ()) (hJ.last hp (by rw [hr]; simpa using h)) (by simp)

/-! ## Known parameters -/

theorem knownIndex_none {names : List Bytes} (hlow : ∀ n ∈ names, n.map asciiLower = n) {name : Bytes} : knownIndex names name = none ↔ name.map asciiLower ∉ names := by
  unfold knownIndex
  rw [List.findIdx?_eq_none_iff]
  constructor
  · intro h hm
    have := h _ hm
    rw [show strEqNoCase (some name) (name.map asciiLower) = true from (strEqNoCase_iff _ _).2 (hlow _ hm).symm] at this
    cases this
  · intro h n hn
    cases hq : strEqNoCase (some name) n with
    | false => rfl
    | true =>
      have := (strEqNoCase_iff _ _).1 hq
      rw [hlow n hn] at this
      exact absurd (by rw [this]; exact hn) h

theorem sorted_snoc {α : Type} {names : List Bytes} (hlow : ∀ n ∈ names, n.map asciiLower = n) (hnd : names.Nodup) {on : Bool} {nameOf : α → Bytes}
    {ps : List α} {known : List (Option α)} {others : List α} (h : Gram.Sorted names on nameOf ps known others) (p : α) :
    (¬ (on = true ∧ (nameOf p).map asciiLower ∈ names) → Gram.Sorted names on nameOf (ps ++ [p]) known (others ++ [p])) ∧
    (∀ i, on = true → knownIndex names (nameOf p) = some i →
      Gram.Sorted names on nameOf (ps ++ [p]) ((if known = [] then List.replicate names.length none else known).set i (some p)) others) := by
  obtain ⟨h1, h2⟩ := h
  constructor
  · intro hn
    have hb : (on && names.contains ((nameOf p).map asciiLower)) = false := by
      rw [Bool.eq_false_iff]; intro hb
      simp only [Bool.and_eq_true, List.contains_iff_mem] at hb
      exact hn hb
    refine ⟨by rw [List.filter_append, ← h1, List.filter_cons, hb]; rfl, ?_⟩
    rw [h2]
    cases on with
    | false => rfl
    | true =>
      simp only [Bool.true_and] at hb ⊢
      have hm : (nameOf p).map asciiLower ∉ names := by simpa using hb
      have e : ∀ n ∈ names, (ps ++ [p]).filter (fun q => (nameOf q).map asciiLower = n) = ps.filter (fun q => (nameOf q).map asciiLower = n) := by
        intro n hn
        rw [List.filter_append]
        have : (nameOf p).map asciiLower ≠ n := fun e => hm (e ▸ hn)
        simp [this]
      rw [List.any_append]
      simp only [List.any_cons, hb, List.any_nil, Bool.or_false]
      split
      · exact List.map_congr_left (fun n hn => by rw [e n hn])
      · rfl
  · intro i hon hi
    subst hon
    have hm : (nameOf p).map asciiLower ∈ names := by
      false_or_by_contra; rename_i hx
      rw [(knownIndex_none hlow).2 hx] at hi; cases hi
    obtain ⟨n, hn, hne⟩ := knownIndex_spec hi
    rw [hlow n (List.mem_of_getElem? hn)] at hne
    have hc : names.contains ((nameOf p).map asciiLower) = true := by simpa using hm
    refine ⟨by rw [List.filter_append, ← h1]; simp [hm], ?_⟩
    rw [show (if (true && (ps ++ [p]).any fun p => names.contains ((nameOf p).map asciiLower)) = true then names.map (fun n => ((ps ++ [p]).filter (fun q => (nameOf q).map asciiLower = n)).getLast?) else []) = names.map (fun n => ((ps ++ [p]).filter (fun q => (nameOf q).map asciiLower = n)).getLast?) from if_pos (by rw [List.any_append]; simp [hm])]
    have hbase : (if known = [] then List.replicate names.length none else known) = names.map (fun n => (ps.filter (fun q => (nameOf q).map asciiLower = n)).getLast?) := by
      by_cases ha : ps.any (fun q => names.contains ((nameOf q).map asciiLower)) = true
      · rw [if_pos (by rw [ha]; rfl)] at h2
        rw [if_neg, h2]
        intro e; rw [e] at h2
        have := congrArg List.length h2
        simp only [List.length_nil, List.length_map] at this
        have := (List.getElem?_eq_some_iff.1 hn).1
        omega
      · rw [if_neg (by simpa using ha)] at h2
        rw [if_pos h2]
        refine List.ext_getElem? (fun j => ?_)
        rw [List.getElem?_replicate, List.getElem?_map]
        by_cases hj : j < names.length
        · rw [if_pos hj, List.getElem?_eq_getElem hj]
          simp only [Option.map_some, Option.some.injEq]
          have : ps.filter (fun q => (nameOf q).map asciiLower = names[j]) = [] := by
            rw [List.filter_eq_nil_iff]
            intro q hq e
            apply ha
            rw [List.any_eq_true]
            refine ⟨q, hq, ?_⟩
            simp only [decide_eq_true_eq] at e
            rw [List.contains_iff_mem, e]
            exact List.getElem_mem hj
          rw [this]; rfl
        · rw [if_neg hj, List.getElem?_eq_none (by omega)]; rfl
    rw [hbase]
    refine List.ext_getElem? (fun j => ?_)
    rw [List.getElem?_set, List.getElem?_map, List.length_map]
    by_cases hj : i = j
    · subst hj
      rw [if_pos rfl, if_pos (List.getElem?_eq_some_iff.1 hn).1, List.getElem?_map, hn]
      simp only [Option.map_some, Option.some.injEq]
      rw [List.filter_append]
      simp [hne]
    · rw [if_neg hj, List.getElem?_map]
      cases hnj : names[j]? with
      | none => rfl
      | some m =>
        simp only [Option.map_some, Option.some.injEq]
        have hmn : (nameOf p).map asciiLower ≠ m := by
          intro e
          rw [hne] at e; subst e
          obtain ⟨a1, a2⟩ := List.getElem?_eq_some_iff.1 hn
          obtain ⟨b1, b2⟩ := List.getElem?_eq_some_iff.1 hnj
          exact hj ((List.getElem_inj hnd).1 (a2.trans b2.symm))
        rw [List.filter_append]
        simp [hmn]

theorem sorted_nil {α : Type} {names : List Bytes} {on : Bool} {nameOf : α → Bytes} : Gram.Sorted names on nameOf [] [] ([] : List α) := by
  refine ⟨rfl, ?_⟩
  simp

theorem ReadsAt.setKnown {α : Type} {names : List Bytes} (hlow : ∀ n ∈ names, n.map asciiLower = n) (hnd : names.Nodup) {on : Bool} {nameOf : α → Bytes}
    {ps : List α} {known : List (Option α)} {others : List α} (h : Gram.Sorted names on nameOf ps known others) (p : α) {c : Ctx} :
    ReadsAt (fun r t _ => t = [] ∧ Gram.Sorted names on nameOf (ps ++ [p]) (r.getD known) (if r.isSome then others else others ++ [p])) (setKnown names on known (nameOf p) p) c := by
  obtain ⟨h1, h2⟩ := sorted_snoc hlow hnd h p
  unfold Sip.setKnown
  cases on with
  | false => exact ReadsAt.pure ⟨rfl, h1 (by simp)⟩
  | true =>
    simp only [Bool.not_true, Bool.false_eq_true, if_false]
    cases hi : knownIndex names (nameOf p) with
    | none => exact ReadsAt.pure ⟨rfl, h1 (fun hh => (knownIndex_none hlow).1 hi hh.2)⟩
    | some i =>
      simp only
      have h2 := h2 i rfl hi
      refine ReadsAt.ite (fun hk => ?_) (fun hk => ?_)
      · refine ReadsAt.bind (ReadsAt.allocMust _) (fun _ t1 c1 _ s1 _ ht => ReadsAt.pure ?_)
        subst ht
        rw [if_pos hk] at h2
        exact ⟨rfl, h2⟩
      · rw [if_neg hk] at h2
        exact ReadsAt.pure ⟨rfl, h2⟩

/-! ## SIP URI -/

theorem findUserinfo_iff (s : Bytes) : findUserinfo s = true ↔ Gram.hasAt s := by
  induction s with
  | nil =>
    refine ⟨fun h => (by cases h), fun ⟨a, b, h, _⟩ => ?_⟩
    have := congrArg List.length h; simp at this
  | cons v r ih =>
    unfold findUserinfo
    by_cases h1 : v = 0x40
    · rw [if_pos h1]; subst h1
      exact ⟨fun _ => ⟨[], r, rfl, by simp⟩, fun _ => rfl⟩
    · rw [if_neg h1]
      by_cases h2 : (v = 0x3e || isLwsChar v) = true
      · rw [if_pos h2]
        refine ⟨fun h => (by cases h), fun ⟨a, b, h, h3⟩ => ?_⟩
        cases a with
        | nil => cases h; exact absurd rfl h1
        | cons x a =>
          simp only [List.cons_append, List.cons.injEq] at h
          obtain ⟨_, g2, g3⟩ := h3 x (by simp)
          rw [← h.1] at g2 g3
          rw [g3] at h2
          simp [g2] at h2
      · rw [if_neg h2, ih]
        constructor
        · rintro ⟨a, b, rfl, h3⟩
          refine ⟨v :: a, b, rfl, ?_⟩
          intro x hx
          rcases List.mem_cons.1 hx with rfl | hx
          · simp only [Bool.or_eq_true, decide_eq_true_eq, not_or, Bool.not_eq_true] at h2
            exact ⟨h1, h2.1, h2.2⟩
          · exact h3 x hx
        · rintro ⟨a, b, h, h3⟩
          cases a with
          | nil => cases h; exact absurd rfl h1
          | cons x a =>
            simp only [List.cons_append, List.cons.injEq] at h
            exact ⟨a, b, h.2, fun x hx => h3 x (List.mem_cons_of_mem _ hx)⟩

/-- the password, if there is a colon -/
theorem ReadsAt.password {c : Ctx} : ReadsAt (fun v t y => (v = none ∧ t = []) ∨ ∃ p tp, v = some p ∧ t = 0x3a :: tp ∧ Gram.escEmpty csSipPassword p tp y) SipUri.parsePassword c := by
  unfold SipUri.parsePassword
  refine ReadsAt.byteAt (fun b hb => ?_)
  refine ReadsAt.ite (fun h => ?_) (fun _ => ReadsAt.pure (Or.inl ⟨rfl, rfl⟩))
  subst h
  have hcur := cur_eq_head c
  unfold Ctx.cur? at hcur
  rw [Nat.add_zero] at hb
  rw [hb] at hcur
  match hr : c.rest with
  | [] => rw [hr] at hcur; cases hcur
  | b :: y =>
    rw [hr] at hcur
    simp only [List.head?_cons, Option.some.injEq] at hcur
    subst hcur
    refine ReadsAt.bind (ReadsAt.skip1 (R := fun _ t y' => t = [0x3a] ∧ y' = y) hr ⟨rfl, rfl⟩) (fun _ t2 c2 _ s2 h2 h22 => ?_)
    obtain ⟨rfl, h22⟩ := h22
    refine ReadsAt.peek (fun _ => ReadsAt.ite (fun _ => ReadsAt.err) (fun h => absurd rfl h)) (fun b y hr => ReadsAt.ite (fun h => by cases h) (fun _ => ?_))
    refine ReadsAt.bind (ReadsAt.orErr (ReadsAt.strEscEmpty csSipPassword (by decide +kernel))) (fun pw t3 c3 _ s3 h3 hp => ReadsAt.pure ?_)
    exact Or.inr ⟨pw, t3, rfl, by simp, hp⟩

theorem ReadsAt.userinfo {c : Ctx} : ReadsAt Gram.userinfo SipUri.parseUserinfo c := by
  unfold SipUri.parseUserinfo
  refine ReadsAt.get (ReadsAt.ite (fun hu => ?_) (fun hu => ReadsAt.pure (.none _ (fun h => hu ((findUserinfo_iff _).2 h)))))
  rw [findUserinfo_iff] at hu
  refine ReadsAt.bind (ReadsAt.orErr (ReadsAt.strEsc csSipUser (by decide +kernel))) (fun u t1 c1 _ s1 h1 hn => ?_)
  refine ReadsAt.peek (fun _ => ReadsAt.ite (fun _ => ReadsAt.err) (fun h => absurd rfl h)) (fun b y hr => ReadsAt.ite (fun h => by cases h) (fun _ => ?_))
  refine ReadsAt.bind (ReadsAt.orErr ReadsAt.password) (fun pw t2 c2 _ s2 h2 hp => ?_)
  refine ReadsAt.peek (fun _ => ReadsAt.ite (fun _ => ReadsAt.err) (fun h => absurd (by simp) h)) (fun b y2 hr2 => ReadsAt.ite (fun _ => ReadsAt.err) (fun h => ?_))
  simp only [ne_eq, Option.some.injEq, Classical.not_not] at h; subst h
  refine ReadsAt.bind (ReadsAt.skip1 (R := fun _ t y' => t = [0x40] ∧ y' = y2) hr2 ⟨rfl, rfl⟩) (fun _ t3 c3 _ s3 h3 h33 => ReadsAt.pure ?_)
  obtain ⟨rfl, h33⟩ := h33
  rw [h33]
  rcases hp with ⟨rfl, rfl⟩ | ⟨p, tp, rfl, rfl, hp⟩
  · rw [h2, hr2] at hn h1
    simp only [List.nil_append] at hn h1
    rw [h1] at hu
    exact rel_text (Gram.userinfo.user u t1 y2 hu hn) (by simp)
  · rw [h2, hr2] at hn h1
    rw [hr2] at hp
    rw [h1] at hu
    exact rel_text (Gram.userinfo.password u t1 p tp y2 (by simpa using hu) hn hp) (by simp)

theorem sipCS_lines : sipUriParamCS.Lines ∧ sipUriHeaderCS.Lines := by unfold CharsetInfo.Lines; decide +kernel

theorem ReadsAt.sipParams {c : Ctx} : ReadsAt (Gram.sipParams c.flags) SipUri.parseParams c := by
  unfold SipUri.parseParams
  refine ReadsAt.peek (fun hr => ?_) (fun b y hr => ?_)
  · exact ReadsAt.ite (fun h => by cases h) (fun _ => ReadsAt.pure (.none _ (by rw [hr]; simp)))
  · refine ReadsAt.ite (fun h => ?_) (fun h => ReadsAt.pure (.none _ (by rw [hr]; simpa using h)))
    simp only [Option.some.injEq] at h; subst h
    refine ReadsAt.bind (ReadsAt.skip1 (R := fun _ t y' => t = [0x3b] ∧ y' = y) hr ⟨rfl, rfl⟩) (fun _ t2 c2 _ s2 h2 h22 => ?_)
    obtain ⟨rfl, h22⟩ := h22
    refine (ReadsAt.orErr (ReadsAt.uriParams sipCS_lines.1 (fl := c.flags) (K := fun ps k acc => Gram.Sorted sipUriKnownNames c.flags.setSipUriKnownParam UriParam.name ps k acc) ?_ sorted_nil s2.flags)).mono ?_
    · intro ps k acc p c3 hf hK
      unfold SipUri.setKnown
      refine ReadsAt.get ?_
      rw [hf]
      exact ReadsAt.setKnown (by decide +kernel) (by decide +kernel) hK p
    · rintro ⟨k, acc⟩ t y _ ⟨ps, hs, hps⟩
      exact .some ps k acc t y hps hs

theorem ReadsAt.sipHeaders {c : Ctx} : ReadsAt Gram.sipHeaders SipUri.parseHeaders c := by
  unfold SipUri.parseHeaders
  refine ReadsAt.peek (fun hr => ?_) (fun b y hr => ?_)
  · exact ReadsAt.ite (fun h => by cases h) (fun _ => ReadsAt.pure (.none _ (by rw [hr]; simp)))
  · refine ReadsAt.ite (fun h => ?_) (fun h => ReadsAt.pure (.none _ (by rw [hr]; simpa using h)))
    simp only [Option.some.injEq] at h; subst h
    refine ReadsAt.bind (ReadsAt.skip1 (R := fun _ t y' => t = [0x3f] ∧ y' = y) hr ⟨rfl, rfl⟩) (fun _ t2 c2 _ s2 h2 h22 => ?_)
    obtain ⟨rfl, h22⟩ := h22
    exact (ReadsAt.orErr (ReadsAt.uriHeaders sipCS_lines.2)).mono (fun hs t y _ h => .some hs t y h)

theorem ReadsAt.sipRest {net : Net} {sec : Bool} {c : Ctx} : ReadsAt (Gram.sipRest net c.flags sec) (SipUri.parseAfterScheme net sec) c := by
  unfold SipUri.parseAfterScheme
  refine ReadsAt.bind (ReadsAt.orErr ReadsAt.userinfo) (fun u t1 c1 _ s1 h1 r1 => ?_)
  obtain ⟨user, pw⟩ := u
  refine ReadsAt.bind (ReadsAt.orErr ReadsAt.hostport) (fun hp t2 c2 _ s2 h2 r2 => ?_)
  refine ReadsAt.bind ReadsAt.sipParams (fun ps t3 c3 _ s3 h3 r3 => ?_)
  obtain ⟨known, ps⟩ := ps
  refine ReadsAt.bind ReadsAt.sipHeaders (fun hs t4 c4 _ s4 h4 r4 => ReadsAt.pure ?_)
  rw [s2.flags, s1.flags, h4] at r3
  rw [h3, h4] at r2
  rw [h2, h3, h4] at r1
  exact rel_text (Gram.sipRest.mk user pw hp known ps hs t1 t2 t3 t4 _ (by simpa using r1) (by simpa using r2) r3 r4) (by simp)

theorem ReadsAt.sipRestNoParam {net : Net} {sec : Bool} {c : Ctx} : ReadsAt (Gram.sipRestNoParam net sec) (SipUri.parseAfterSchemeWithoutParam net sec) c := by
  unfold SipUri.parseAfterSchemeWithoutParam
  refine ReadsAt.bind ReadsAt.userinfo (fun u t1 c1 _ s1 h1 r1 => ?_)
  obtain ⟨user, pw⟩ := u
  refine ReadsAt.bind (ReadsAt.orErr ReadsAt.hostport) (fun hp t2 c2 _ s2 h2 r2 => ReadsAt.pure ?_)
  rw [h2] at r1
  exact rel_text (Gram.sipRestNoParam.mk user pw hp t1 t2 _ r1 r2) (by simp)

theorem lower_of_bit (a p : UInt8) (hp : 0x61 ≤ p ∧ p ≤ 0x7a) : a ||| 0x20 = p → asciiLower a = p := by
  rintro rfl
  revert a; decide +kernel

theorem word_cons {s : String} {b : UInt8} {t : Bytes} {w : Bytes} (h : str s = b :: w) {a : UInt8} (ha : asciiLower a = b) (ht : t.map asciiLower = w) : Gram.word s (a :: t) := by
  unfold Gram.word
  rw [h, List.map_cons, ha, ht]

theorem sipScheme_word {a b d : UInt8} (h : a ||| 0x20 = 0x73 ∧ b ||| 0x20 = 0x69 ∧ d ||| 0x20 = 0x70) : Gram.word "sip:" [a, b, d, 0x3a] := by
  unfold Gram.word
  simp only [List.map_cons, List.map_nil, lower_of_bit a _ (by decide) h.1, lower_of_bit b _ (by decide) h.2.1, lower_of_bit d _ (by decide) h.2.2]
  decide +kernel
theorem sipsScheme_word {a b d e : UInt8} (h : a ||| 0x20 = 0x73 ∧ b ||| 0x20 = 0x69 ∧ d ||| 0x20 = 0x70 ∧ e ||| 0x20 = 0x73) : Gram.word "sips:" [a, b, d, e, 0x3a] := by
  unfold Gram.word
  simp only [List.map_cons, List.map_nil, lower_of_bit a _ (by decide) h.1, lower_of_bit b _ (by decide) h.2.1, lower_of_bit d _ (by decide) h.2.2.1, lower_of_bit e _ (by decide) h.2.2.2]
  decide +kernel
theorem telScheme_word {a b d : UInt8} (h : a ||| 0x20 = 0x74 ∧ b ||| 0x20 = 0x65 ∧ d ||| 0x20 = 0x6c) : Gram.word "tel:" [a, b, d, 0x3a] := by
  unfold Gram.word
  simp only [List.map_cons, List.map_nil, lower_of_bit a _ (by decide) h.1, lower_of_bit b _ (by decide) h.2.1, lower_of_bit d _ (by decide) h.2.2]
  decide +kernel

theorem ReadsAt.sipScheme {c : Ctx} : ReadsAt (fun sec t _ => if sec then Gram.word "sips:" t else Gram.word "sip:" t) SipUri.parseScheme c := by
  intro hc v c' e
  unfold SipUri.parseScheme at e
  by_cases h1 : hasSipPrefix c.rest = true
  · rw [if_pos h1] at e; cases e
    unfold hasSipPrefix at h1
    split at h1
    · rename_i a b d e' r hr
      simp only [Bool.and_eq_true, beq_iff_eq] at h1
      obtain ⟨⟨⟨g1, g2⟩, g3⟩, rfl⟩ := h1
      have hr' : c.rest = [a, b, d, 0x3a] ++ r := hr
      have em : (c.adv 4).rest = r := Ctx.rest_adv hr'
      exact ⟨Step.of_rest hc hr', [a, b, d, 0x3a], by rw [em]; exact hr', sipScheme_word ⟨g1, g2, g3⟩⟩
    · cases h1
  · rw [if_neg h1] at e
    by_cases h2 : hasSipsPrefix c.rest = true
    · rw [if_pos h2] at e; cases e
      unfold hasSipsPrefix at h2
      split at h2
      · rename_i a b d e' f r hr
        simp only [Bool.and_eq_true, beq_iff_eq] at h2
        obtain ⟨⟨⟨⟨g1, g2⟩, g3⟩, g4⟩, rfl⟩ := h2
        have hr' : c.rest = [a, b, d, e', 0x3a] ++ r := hr
        have em : (c.adv 5).rest = r := Ctx.rest_adv hr'
        exact ⟨Step.of_rest hc hr', [a, b, d, e', 0x3a], by rw [em]; exact hr', sipsScheme_word ⟨g1, g2, g3, g4⟩⟩
      · cases h2
    · rw [if_neg h2] at e; cases e

theorem ReadsAt.sipUri {net : Net} {c : Ctx} : ReadsAt (Gram.sipUri net c.flags) (SipUri.parse net) c := by
  unfold SipUri.parse
  refine ReadsAt.bind ReadsAt.sipScheme (fun sec t1 c1 _ s1 h1 r1 => ?_)
  refine (ReadsAt.sipRest).mono (fun u t y _ h => ?_)
  rw [s1.flags] at h
  cases sec with
  | false => exact .sip u t1 t y r1 h
  | true => exact .sips u t1 t y r1 h

/-! ## Telephone URI -/

theorem ReadsAt.telRun {c : Ctx} (s : CS) (hcr : s.mem 0x0d = false) :
    ReadsAt (fun v t y => ∃ plus x, t = plus ++ x ∧ v = plus ++ x.filter (fun b => ¬ isSeparator b) ∧ (plus = [0x2b] ∨ (plus = [] ∧ (x ++ y).head? ≠ some 0x2b)) ∧
      InSet s x ∧ NotIn s y ∧ x.filter (fun b => ¬ isSeparator b) ≠ []) (parseTelNumber s) c := by
  refine ReadsAt.of_safe (fun hc => safe_telNumber s hcr c hc) (fun hc v c' t e st ht hq => ?_)
  have hcur := cur_eq_head c
  obtain ⟨plus, r, hr, hplus⟩ : ∃ plus r, c.rest = plus ++ r ∧ (plus = [0x2b] ∨ (plus = [] ∧ r.head? ≠ some 0x2b)) := by
    by_cases h : c.rest.head? = some 0x2b
    · cases hr : c.rest with
      | nil => rw [hr] at h; cases h
      | cons b r =>
        rw [hr] at h; simp only [List.head?_cons, Option.some.injEq] at h; subst h
        exact ⟨[0x2b], r, rfl, Or.inl rfl⟩
    · exact ⟨[], c.rest, rfl, Or.inr ⟨rfl, h⟩⟩
  obtain ⟨x, y, h1, h2, h3⟩ := exists_maxRun s r
  rw [h1] at hr
  rw [h1] at hplus
  have hfit : c.used + 2 + plus.length + (x.filter fun b => ¬ isSeparator b).length < c.cap := by
    false_or_by_contra
    rename_i hx
    unfold parseTelNumber at e
    have hpl : (if c.cur? = some 0x2b then [0x2b] else [] : Bytes) = plus := by
      rw [hcur, hr]
      rcases hplus with rfl | ⟨rfl, hp⟩
      · simp
      · rw [List.nil_append, if_neg hp]
    have hrun : (c.src.drop (c.pos + plus.length)).takeWhile s.mem = x := by
      have : c.src.drop (c.pos + plus.length) = x ++ y := by
        have := Ctx.rest_adv hr
        exact this
      rw [this]; exact maxRun_takeWhile ⟨rfl, h2, h3⟩
    simp only [hpl, hrun, filter_tel] at e
    split at e
    · cases e
    · split at e
      · cases e
      · split at e
        · cases e
        · split at e
          · cases e
          · omega
  rw [parseTelNumber_spec s c plus x y hr hplus h2 h3 hfit] at e
  split at e
  · cases e
  · rename_i hne
    simp only [Out.ok.injEq, Prod.mk.injEq, Option.some.injEq] at e
    obtain ⟨rfl, rfl⟩ := e
    have hl := st.pos_text ht
    have hl' : t.length = (plus ++ x).length := by simp only [Ctx.eat] at hl; omega
    have hr' : c.rest = (plus ++ x) ++ y := by rw [hr]; simp
    rw [ht] at hr'
    obtain ⟨rfl, hy⟩ := List.append_inj hr' hl'
    rw [hy]
    exact ⟨plus, x, rfl, rfl, hplus, h2, h3, hne⟩

theorem ReadsAt.telNumber {c : Ctx} : ReadsAt Gram.telNumber TelUri.parseNumber c := by
  unfold TelUri.parseNumber
  refine ReadsAt.peek (fun hr => ReadsAt.err) (fun b y hr => ?_)
  dsimp only
  refine ReadsAt.ite (fun hb => ?_) (fun hb => ?_)
  · subst hb
    refine ReadsAt.bind (ReadsAt.orErr (ReadsAt.telRun csTelPhoneDigit (by decide +kernel))) (fun n t1 c1 _ s1 h1 r1 => ReadsAt.pure ?_)
    obtain ⟨plus, x, rfl, rfl, hp, h2, h3, h4⟩ := r1
    rw [hr] at h1
    rcases hp with rfl | ⟨rfl, hp⟩
    · exact rel_text (Gram.telNumber.glob x _ h2 h3 h4) (by simp)
    · rw [List.nil_append] at h1
      rw [← h1] at hp; exact absurd rfl hp
  · refine ReadsAt.bind (ReadsAt.orErr (ReadsAt.telRun csTelPhoneDigitHex (by decide +kernel))) (fun n t1 c1 _ s1 h1 r1 => ReadsAt.pure ?_)
    obtain ⟨plus, x, rfl, rfl, hp, h2, h3, h4⟩ := r1
    rw [hr] at h1
    rcases hp with rfl | ⟨rfl, hp⟩
    · simp only [List.cons_append, List.cons.injEq] at h1; exact absurd h1.1 hb
    · refine rel_text (Gram.telNumber.loc x _ h2 h3 h4 ?_) (by simp)
      cases x with
      | nil => simp
      | cons z x => exact hp

theorem telSorted_nil {on : Bool} : Gram.TelSorted on [] false none [] [] := .noContext _ _ (by simp) sorted_nil

theorem telSorted_inner {on : Bool} {ps : List UriParam} {d : Bool} {ctx : Option UriParam} {known : List (Option UriParam)} {others : List UriParam}
    (h : Gram.TelSorted on ps d ctx known others) :
    Gram.Sorted telUriKnownNames on UriParam.name (ps.filter (fun p => p.name.map asciiLower ≠ str "phone-context")) known others := by
  cases h with
  | noContext _ _ hn hs =>
    rw [List.filter_eq_self.2 (fun p hp => by simpa using hn p hp)]; exact hs
  | number => assumption
  | domain => assumption

/-- every phone-context has a value -/
theorem telSorted_values {on : Bool} {ps : List UriParam} {d : Bool} {ctx : Option UriParam} {known : List (Option UriParam)} {others : List UriParam}
    (h : Gram.TelSorted on ps d ctx known others) : ∀ p ∈ ps, p.name.map asciiLower = str "phone-context" → p.value ≠ none := by
  intro p hp hn
  have key : ∀ (a b : List UriParam) (q : UriParam), ps = a ++ q :: b → q.value ≠ none → (∀ p ∈ a, p.name.map asciiLower = str "phone-context" → p.value ≠ none) →
      (∀ p ∈ b, p.name.map asciiLower ≠ str "phone-context") → p.value ≠ none := by
    intro a b q he hq ha hb
    rw [he] at hp
    rcases List.mem_append.1 hp with hp | hp
    · exact ha p hp hn
    · rcases List.mem_cons.1 hp with rfl | hp
      · exact hq
      · exact absurd hn (hb p hp)
  cases h with
  | noContext _ _ h _ => exact absurd hn (h p hp)
  | number a b n v _ _ he _ ha hb _ => exact key a b _ he (by simp) ha hb
  | domain a b n v _ _ he _ hv _ ha hb _ => exact key a b _ he (by simp) ha hb

theorem telSorted_other {on : Bool} {ps : List UriParam} {d : Bool} {ctx : Option UriParam} {known known' : List (Option UriParam)} {others others' : List UriParam}
    (h : Gram.TelSorted on ps d ctx known others) (p : UriParam) (hp : p.name.map asciiLower ≠ str "phone-context")
    (hs : Gram.Sorted telUriKnownNames on UriParam.name (ps.filter (fun p => p.name.map asciiLower ≠ str "phone-context") ++ [p]) known' others') :
    Gram.TelSorted on (ps ++ [p]) d ctx known' others' := by
  have e : (ps ++ [p]).filter (fun p => p.name.map asciiLower ≠ str "phone-context") = ps.filter (fun p => p.name.map asciiLower ≠ str "phone-context") ++ [p] := by
    rw [List.filter_append]; simp [hp]
  cases h with
  | noContext _ _ hn _ =>
    rw [List.filter_eq_self.2 (fun p hp => by simpa using hn p hp)] at hs
    refine .noContext _ _ ?_ hs
    intro q hq
    rcases List.mem_append.1 hq with hq | hq
    · exact hn q hq
    · rw [List.mem_singleton.1 hq]; exact hp
  | number a b n v _ _ he hn ha hb _ =>
    refine .number a (b ++ [p]) n v _ _ (by rw [he]; simp) hn ha ?_ (by rw [e]; exact hs)
    intro q hq
    rcases List.mem_append.1 hq with hq | hq
    · exact hb q hq
    · rw [List.mem_singleton.1 hq]; exact hp
  | domain a b n v _ _ he hn hv hv' ha hb _ =>
    refine .domain a (b ++ [p]) n v _ _ (by rw [he]; simp) hn hv hv' ha ?_ (by rw [e]; exact hs)
    intro q hq
    rcases List.mem_append.1 hq with hq | hq
    · exact hb q hq
    · rw [List.mem_singleton.1 hq]; exact hp

theorem telSet_sorts (fl : Flags) : SetsKnown fl (fun ps (k : TelKnown) acc => Gram.TelSorted fl.setTelUriKnownParam ps k.contextIsDomain k.context k.known acc) TelUri.setKnown := by
  intro ps k acc p c hf hK
  unfold TelUri.setKnown
  have hpc : (Sip.str "phone-context").map asciiLower = Sip.str "phone-context" := by decide +kernel
  have hin := telSorted_inner hK
  refine ReadsAt.ite (fun hq => ?_) (fun hq => ?_)
  · rw [strEqNoCase_iff, hpc] at hq
    obtain ⟨pn, pv⟩ := p
    cases pv with
    | none => exact ReadsAt.panic
    | some v =>
      cases v with
      | nil => exact ReadsAt.panic
      | cons b v =>
        refine ReadsAt.pure ⟨rfl, ?_⟩
        have e : (ps ++ [(⟨pn, some (b :: v)⟩ : UriParam)]).filter (fun p => p.name.map asciiLower ≠ Sip.str "phone-context") = ps.filter (fun p => p.name.map asciiLower ≠ Sip.str "phone-context") := by
          rw [List.filter_append]
          have : (pn.map asciiLower) = Sip.str "phone-context" := hq
          simp [this]
        by_cases hb : b = 0x2b
        · subst hb
          have hr : removeVisualSeparators (0x2b :: v) = 0x2b :: v.filter (fun x => ¬ isSeparator x) := by
            rw [(removeVisualSeparators_spec _).1, List.filter_cons_of_pos (by decide)]
          simp only [Option.getD_some, ne_eq, not_true_eq_false, decide_false, Bool.not_false, if_true, hr]
          exact .number ps [] pn v _ _ rfl hq (telSorted_values hK) (by simp) (by rw [e]; exact hin)
        · simp only [Option.getD_some, ne_eq, hb, not_false_eq_true, decide_true, Bool.not_true, Bool.false_eq_true, if_false]
          exact .domain ps [] pn (b :: v) _ _ rfl hq (by simpa using hb) (by simp) (telSorted_values hK) (by simp) (by rw [e]; exact hin)
  · have hq' : p.name.map asciiLower ≠ Sip.str "phone-context" := by
      intro e; exact hq ((strEqNoCase_iff _ _).2 (by rw [hpc]; exact e))
    refine ReadsAt.get ?_
    rw [hf]
    refine ReadsAt.bind (ReadsAt.setKnown (by decide +kernel) (by decide +kernel) hin p) (fun r t1 c1 _ s1 h1 r1 => ?_)
    obtain ⟨rfl, r1⟩ := r1
    cases r with
    | none => exact ReadsAt.pure ⟨rfl, telSorted_other hK p hq' r1⟩
    | some k' => exact ReadsAt.pure ⟨rfl, telSorted_other hK p hq' r1⟩

theorem ReadsAt.telRest {c : Ctx} : ReadsAt (Gram.telRest c.flags) TelUri.parseAfterScheme c := by
  unfold TelUri.parseAfterScheme
  refine ReadsAt.bind (ReadsAt.orErr ReadsAt.telNumber) (fun gn t1 c1 _ s1 h1 r1 => ?_)
  obtain ⟨g, n⟩ := gn
  dsimp only
  refine ReadsAt.peek (fun hr => ?_) (fun b y hr => ?_)
  · exact ReadsAt.ite (fun h => by cases h) (fun _ => ReadsAt.pure (rel_text (Gram.telRest.noParam g n t1 _ r1 (by rw [hr]; simp)) (by simp)))
  · refine ReadsAt.ite (fun h => ?_) (fun h => ReadsAt.pure (rel_text (Gram.telRest.noParam g n t1 _ r1 (by rw [hr]; simpa using h)) (by simp)))
    simp only [Option.some.injEq] at h; subst h
    refine ReadsAt.bind (ReadsAt.skip1 (R := fun _ t y' => t = [0x3b] ∧ y' = y) hr ⟨rfl, rfl⟩) (fun _ t2 c2 _ s2 h2 h22 => ?_)
    obtain ⟨rfl, h22⟩ := h22
    refine ReadsAt.bind (ReadsAt.orErr (ReadsAt.uriParams sipCS_lines.1 (telSet_sorts c.flags) telSorted_nil (s2.flags.trans s1.flags))) (fun r t3 c3 _ s3 h3 r3 => ReadsAt.pure ?_)
    obtain ⟨ps, hs, hps⟩ := r3
    rw [hr, ← h22, h3] at r1
    exact rel_text (Gram.telRest.params g n t1 ps t3 _ _ _ _ _ r1 hps hs) (by simp)

theorem ReadsAt.telRestNoParam {c : Ctx} : ReadsAt Gram.telRestNoParam TelUri.parseAfterSchemeWithoutParam c := by
  unfold TelUri.parseAfterSchemeWithoutParam
  refine ReadsAt.bind ReadsAt.telNumber (fun gn t1 c1 _ s1 h1 r1 => ReadsAt.pure ?_)
  exact rel_text (Gram.telRestNoParam.mk _ _ t1 _ r1) (by simp)

theorem ReadsAt.telScheme {c : Ctx} : ReadsAt (fun _ t _ => Gram.word "tel:" t ∨ ∃ x, Gram.word "tel" x ∧ t = x ++ [0x1a]) TelUri.parseScheme c := by
  intro hc v c' e
  unfold TelUri.parseScheme at e
  split at e
  · rename_i a b d e' r hr
    split at e
    · rename_i h
      obtain ⟨g1, g2, g3, g4⟩ := h
      cases e
      have hr' : c.rest = [a, b, d, e'] ++ r := hr
      have em : (c.adv 4).rest = r := Ctx.rest_adv hr'
      refine ⟨Step.of_rest hc hr', [a, b, d, e'], by rw [em]; exact hr', ?_⟩
      have : ∀ x : UInt8, x ||| 0x20 = 0x3a → x = 0x3a ∨ x = 0x1a := by decide +kernel
      rcases this e' g4 with rfl | rfl
      · exact Or.inl (telScheme_word ⟨g1, g2, g3⟩)
      · refine Or.inr ⟨[a, b, d], ?_, rfl⟩
        unfold Gram.word
        simp only [List.map_cons, List.map_nil, lower_of_bit a _ (by decide) g1, lower_of_bit b _ (by decide) g2, lower_of_bit d _ (by decide) g3]
        decide +kernel
    · cases e
  · cases e

theorem ReadsAt.telUri {c : Ctx} : ReadsAt (Gram.telUri c.flags) TelUri.parse c := by
  unfold TelUri.parse
  refine ReadsAt.bind ReadsAt.telScheme (fun _ t1 c1 _ s1 h1 r1 => ?_)
  refine ReadsAt.telRest.mono (fun u t y _ h => ?_)
  rw [s1.flags] at h
  exact .mk u t1 t y r1 h

end Sip
