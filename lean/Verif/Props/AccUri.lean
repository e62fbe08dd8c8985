import Verif.Lemmas.Acc
import Verif.Props.ReadsUri
/-! # What is in the grammar is accepted: host, port and URIs (C43) -/
namespace Sip

theorem bytesLen_rest {c : Ctx} {x : Bytes} (hr : c.rest = x) (hp : c.pos ≤ c.src.length) : c.pos + x.length = c.src.length := by
  have := rest_length c hp
  rw [hr] at this; omega

theorem octets_unique {k : Nat} {s ip} (h : Octets k s ip) : ∀ {ip'}, Octets k s ip' → ip = ip' := by
  induction h with
  | zero => intro ip' h'; exact (octets_zero.1 h').2.symm
  | succ k d s ip hne hd hv h ih =>
    intro ip' h'
    obtain ⟨d', s', ip', he, rfl, hne', hd', hv', h'⟩ := octets_succ.1 h'
    have nodot : csDigit.mem 0x2e = false := by decide +kernel
    have e : d ++ s = d' ++ s' := by simpa using he
    obtain ⟨rfl, rfl⟩ := digitRun_unique (p := csDigit.mem) e hd hd' (fun b hb => by rw [octets_head h b hb]; exact nodot) (fun b hb => by rw [octets_head h' b hb]; exact nodot)
    rw [ih h']
theorem ipv4Text_unique {s ip ip'} (h : Ipv4Text s ip) (h' : Ipv4Text s ip') : ip = ip' := octets_unique h h'

theorem decodes_length {s : CS} {t v y : Bytes} (h : Decodes s t v y) : v.length + y.length ≤ t.length := by
  induction h with
  | stop => simp
  | lit v t o y h hr ih => simp only [List.length_cons]; omega
  | esc a b t o y h ha hb hr ih => simp only [List.length_cons]; omega

namespace Acc
variable {fl : Flags} {net : Net}

/-! ## Host and port -/

theorem host {h : Host} {t y : Bytes} (hh : Gram.host net h t y) : Acc fl (parseHost net) t h y := by
  have hname : ∀ {s y : Bytes}, s ≠ [] → InSet csHostname s → NotIn csHostname y → Acc fl parseHostname s (.name s) y := by
    intro s y h1 h2 h3
    unfold parseHostname
    exact map (str ⟨rfl, h1, h2, h3⟩) rfl
  cases hh with
  | name s y h hs hy h4 =>
    refine congr (hname h hs hy) (fun c _ hr hp => ?_)
    unfold parseHost
    rw [cur_eq_head, hr]
    cases t with
    | nil => exact absurd rfl h
    | cons b t =>
      simp only [List.cons_append, List.head?_cons]
      have hb : b ≠ 0x5b := by
        intro e; subst e
        exact absurd (hs 0x5b (by simp)) (by decide +kernel)
      rw [if_neg hb]
      split
      · rfl
      · rcases parseIpv4_spec c.src c.pos (b :: t) y hr hs hy with ⟨ip, g, _⟩ | ⟨_, p, g⟩
        · exact absurd ⟨ip, g⟩ h4
        · rw [g]
  | ipv4 a b d e s y h hy =>
    refine ⟨4, fun c _ hr hp hu => ?_⟩
    obtain ⟨x, hx, hd⟩ := ipv4Text_head h
    unfold parseHost
    rw [cur_eq_head, hr]
    cases t with
    | nil => simp at hx
    | cons z t =>
      simp only [List.head?_cons, Option.mem_def, Option.some.injEq] at hx
      subst hx
      have hb : z ≠ 0x5b := by
        intro e; subst e
        exact absurd hd (by decide +kernel)
      have ha : isAlpha z = false := by
        have : ∀ b : UInt8, isDigit b = true → isAlpha b = false := by decide +kernel
        exact this _ hd
      simp only [List.cons_append, List.head?_cons]
      rw [if_neg hb, ha]
      rcases parseIpv4_spec c.src c.pos (z :: t) y hr (ipv4Text_hostname h) hy with ⟨ip, g, g'⟩ | ⟨g, _⟩
      · rw [g']
        have := ipv4Text_unique g h
        subst this
        have hu' : (c.setPos (c.pos + (z :: t).length)).used + 4 ≤ (c.setPos (c.pos + (z :: t).length)).cap := by show c.used + 4 ≤ c.cap; omega
        simp only [Bool.false_eq_true, if_false, alloc_ok _ _ hu']
        exact ⟨_, rfl, rfl, rfl, rfl, rfl, Nat.le_refl _⟩
      · exact absurd ⟨_, h⟩ g
  | ipv6 x ip y h hip =>
    refine ⟨16, fun c _ hr hp hu => ?_⟩
    have hl := bytesLen_rest hr hp
    unfold parseHost
    rw [cur_eq_head, hr]
    simp only [List.cons_append, List.head?_cons, if_true]
    have e1 : (c.adv 1).rest = x ++ 0x5d :: y := by
      have hr' : c.rest = [0x5b] ++ (x ++ 0x5d :: y) := by rw [hr]; simp
      exact Ctx.rest_adv hr'
    have hsk : skipWhile (fun b => decide (b ≠ 0x5d)) (c.adv 1).src (c.adv 1).pos = c.pos + 1 + x.length := by
      unfold skipWhile
      rw [show (c.adv 1).src.drop (c.adv 1).pos = x ++ 0x5d :: y from e1, runLen_run (fun b hb => by simp only [ne_eq, decide_not, Bool.not_eq_true', decide_eq_false_iff_not]; rintro rfl; exact h hb) (by simp)]
      rfl
    unfold parseIpv6
    simp only [hsk]
    simp only [List.cons_append, List.length_cons, List.length_append, List.length_nil] at hl
    have hlt : ¬ c.pos + 1 + x.length ≥ ((c.adv 1).setPos (c.pos + 1 + x.length)).src.length := by
      show ¬ c.pos + 1 + x.length ≥ c.src.length; omega
    rw [if_neg hlt]
    have htx : ((c.adv 1).src.drop (c.adv 1).pos).take (c.pos + 1 + x.length - (c.adv 1).pos) = x := by
      rw [show (c.adv 1).src.drop (c.adv 1).pos = x ++ 0x5d :: y from e1, show c.pos + 1 + x.length - (c.adv 1).pos = x.length from by show c.pos + 1 + x.length - (c.pos + 1) = _; omega, List.take_left]
    rw [htx, hip]
    have hu' : ((c.adv 1).setPos (c.pos + 1 + x.length)).used + 16 ≤ ((c.adv 1).setPos (c.pos + 1 + x.length)).cap := by show c.used + 16 ≤ c.cap; omega
    simp only [alloc_ok _ _ hu']
    refine ⟨_, rfl, rfl, rfl, rfl, ?_, Nat.le_refl _⟩
    simp only [Ctx.adv, Ctx.setPos, List.cons_append, List.length_cons, List.length_append, List.length_nil]; omega

theorem hostport {h : HostPort} {t y : Bytes} (hh : Gram.hostport net h t y) : Acc fl (HostPort.parse net) t h y := by
  unfold HostPort.parse
  cases hh with
  | noPort h t y hh hy =>
    refine bindE (orErr (host hh)) (peek ?_)
    rw [List.nil_append]
    split
    · rename_i heq; exact absurd heq hy
    · exact pure _ _
  | port h t n d y hh hn hr =>
    refine bind (orErr (host hh)) (peek ?_)
    simp only [List.cons_append, List.head?_cons]
    refine skip1 (get (q := P.uint >>= fun n => (Pure.pure ⟨h, some n⟩ : P HostPort)) (map (uint hn) rfl) (fun c _ hr' hp => ?_))
    obtain ⟨h1, h2, h3, rfl⟩ := hn
    obtain ⟨g1, g2, g3⟩ := (parseUInt_run c.src c.pos d y hr' h2 h3).2 h1
    have hd : ¬ (parseUInt c.src c.pos).digit > 0xffff := by rw [g2]; omega
    have hu : u16 (parseUInt c.src c.pos).digit = (parseUInt c.src c.pos).digit := by unfold u16; omega
    simp only [P.uint, P.bind_apply, P.set, g1, hd, Bool.not_true, Bool.false_eq_true, if_false, if_true, hu]

/-! ## Parameters and headers of URIs -/

theorem uriParam {cs : CharsetInfo} {p : UriParam} {t y : Bytes} (h : Gram.uriParam cs p t y) : Acc fl (UriParam.parse cs) t p y := by
  unfold UriParam.parse
  cases h with
  | flag n t y hn hy => exact bindE (orErr (strEsc hn)) (peek (ite_neg (by simpa using hy) (pure _ _)))
  | value n t v tv y hn hv => exact bind (orErr (strEsc hn)) (peek (ite_pos (by simp) (skip1 (map (orErr (strEsc hv)) rfl))))

theorem uriHeader {cs : CharsetInfo} {p : UriHeader} {t y : Bytes} (h : Gram.uriHeader cs p t y) : Acc fl (UriHeader.parse cs) t p y := by
  unfold UriHeader.parse
  cases h with
  | value n t v tv y hn hv hy =>
    refine bind (orErr (strEsc hn)) (peek (ite_neg (by simp) (skip1 (peek (ite_neg ?_ (map (orErr (strEscEmpty hv)) rfl))))))
    simpa [List.head?_eq_none_iff] using hy
  | atEnd n t hn => exact bind (orErr (strEsc hn)) (peek (ite_neg (by simp) (skip1 (peek (ite_pos (by simp) (pure _ _))))))

theorem esc_ne {s : CS} {v t y : Bytes} (h : Gram.esc s v t y) : t ≠ [] := by
  rintro rfl
  obtain ⟨h1, h2⟩ := h
  have := decodes_length h2
  cases v with
  | nil => exact h1 rfl
  | cons b v => simp at this; omega
theorem uriParam_ne {cs : CharsetInfo} {p : UriParam} {t y : Bytes} (h : Gram.uriParam cs p t y) : t ≠ [] := by
  cases h with
  | flag n t y hn hy => exact esc_ne hn
  | value => simp
theorem uriHeader_ne {cs : CharsetInfo} {p : UriHeader} {t y : Bytes} (h : Gram.uriHeader cs p t y) : t ≠ [] := by cases h <;> simp

theorem sepBy_ne {α : Type} {sep : UInt8} {R : Rel α} (hR : ∀ {x t y}, R x t y → t ≠ []) {xs : List α} {t y : Bytes} (h : Gram.sepBy sep R xs t y) : t ++ y ≠ [] := by
  cases h with
  | last x t y h hy => simp [hR h]
  | more => simp
  | trail => simp

/-- what `SetKnownParams` must do: sort one parameter more; only the parameters in `OK` may come -/
def Sets {κ α : Type} (fl : Flags) (OK : α → Prop) (K : List α → κ → List α → Prop) (setK : κ → α → P (Option κ)) : Prop :=
  ∀ ps k acc p, K ps k acc → OK p → ∃ r, (∀ y, Acc fl (setK k p) [] r y) ∧ K (ps ++ [p]) (r.getD k) (if r.isSome then acc else acc ++ [p])

theorem uriParams {κ : Type} {cs : CharsetInfo} {OK : UriParam → Prop} {K : List UriParam → κ → List UriParam → Prop} {setK : κ → UriParam → P (Option κ)}
    (hset : Sets fl OK K setK) {k : κ} (hk : K [] k []) {ps : List UriParam} {t y : Bytes} (h : Gram.sepBy 0x3b (Gram.uriParam cs) ps t y) (hok : ∀ p ∈ ps, OK p) :
    ∃ r, K ps r.1 r.2 ∧ Acc fl (parseUriParams cs setK k) t r y := by
  have key : ∀ {ps t y}, Gram.sepBy 0x3b (Gram.uriParam cs) ps t y → (∀ p ∈ ps, OK p) → ∀ qs k acc, K qs k acc →
      ∃ r, K (qs ++ ps) r.1 r.2 ∧ Run fl (uriParamsBody cs setK) r y (k, acc) t := by
    intro ps t y h
    induction h with
    | last p t y h hy =>
      intro hok qs k acc hK
      obtain ⟨r, g1, g2⟩ := hset qs k acc p hK (hok p (by simp))
      refine ⟨(r.getD k, if r.isSome then acc else acc ++ [p]), g2, .last ?_⟩
      unfold uriParamsBody
      refine peek (ite_neg (by simp [uriParam_ne h]) (bind0 (orErr (alloc 6 _)) (bindE (uriParam h) (bind0 (g1 _) (peek (ite_neg (by simpa using hy) (pure' ?_)))))))
      cases r <;> rfl
    | more p t ps t' y h _ ih =>
      intro hok qs k acc hK
      obtain ⟨r, g1, g2⟩ := hset qs k acc p hK (hok p (by simp))
      obtain ⟨r', g3, g4⟩ := ih (fun q hq => hok q (by simp [hq])) _ _ _ g2
      refine ⟨r', by simpa using g3, ?_⟩
      have : t ++ 0x3b :: t' = (t ++ [0x3b]) ++ t' := by simp
      rw [this]
      refine .step ?_ (by simp) g4
      unfold uriParamsBody
      refine peek (ite_neg (by simp [uriParam_ne h]) (bind0 (orErr (alloc 6 _)) (bind (uriParam (by simpa using h)) (bind0 (g1 _) (peek (ite_pos (by simp) (skip1 (pure' ?_))))))))
      cases r <;> rfl
    | trail p t h =>
      intro hok qs k acc hK
      obtain ⟨r, g1, g2⟩ := hset qs k acc p hK (hok p (by simp))
      refine ⟨(r.getD k, if r.isSome then acc else acc ++ [p]), g2, ?_⟩
      have e : t ++ [0x3b] = (t ++ [0x3b]) ++ [] := by simp
      rw [e]
      refine .step (s' := (r.getD k, if r.isSome then acc else acc ++ [p])) ?_ (by simp) (.last ?_)
      · unfold uriParamsBody
        refine peek (ite_neg (by simp [uriParam_ne h]) (bind0 (orErr (alloc 6 _)) (bind (uriParam (by simpa using h)) (bind0 (g1 _) (peek (ite_pos (by simp) (skip1 (pure' ?_))))))))
        cases r <;> rfl
      · unfold uriParamsBody
        exact peek (ite_pos (by simp) (pure _ _))
  obtain ⟨r, g1, g2⟩ := key h hok [] k [] hk
  refine ⟨r, g1, ?_⟩
  unfold parseUriParams
  exact peek (ite_neg (by have := sepBy_ne uriParam_ne h; simpa [List.head?_eq_none_iff] using this) (forLoop g2))

theorem uriHeaders {cs : CharsetInfo} {hs : List UriHeader} {t y : Bytes} (h : Gram.sepBy 0x26 (Gram.uriHeader cs) hs t y) : Acc fl (parseUriHeaders cs) t hs y := by
  have key : ∀ {hs t y}, Gram.sepBy 0x26 (Gram.uriHeader cs) hs t y → ∀ acc, Run fl (uriHeadersBody cs) (acc ++ hs) y acc t := by
    intro hs t y h
    induction h with
    | last p t y h hy =>
      intro acc
      refine .last ?_
      unfold uriHeadersBody
      exact peek (ite_neg (by simp [uriHeader_ne h]) (bind0 (orErr (alloc 6 _)) (bindE (uriHeader h) (peek (ite_neg (by simpa using hy) (pure _ _))))))
    | more p t ps t' y h _ ih =>
      intro acc
      have : t ++ 0x26 :: t' = (t ++ [0x26]) ++ t' := by simp
      rw [this]
      have e2 : acc ++ p :: ps = (acc ++ [p]) ++ ps := by simp
      rw [e2]
      refine .step ?_ (by simp) (ih (acc ++ [p]))
      unfold uriHeadersBody
      exact peek (ite_neg (by simp [uriHeader_ne h]) (bind0 (orErr (alloc 6 _)) (bind (uriHeader (by simpa using h)) (peek (ite_pos (by simp) (skip1 (pure _ _)))))))
    | trail p t h =>
      intro acc
      have e : t ++ [0x26] = (t ++ [0x26]) ++ [] := by simp
      rw [e]
      refine .step (s' := acc ++ [p]) ?_ (by simp) (.last ?_)
      · unfold uriHeadersBody
        exact peek (ite_neg (by simp [uriHeader_ne h]) (bind0 (orErr (alloc 6 _)) (bind (uriHeader (by simpa using h)) (peek (ite_pos (by simp) (skip1 (pure _ _)))))))
      · unfold uriHeadersBody
        exact peek (ite_pos (by simp) (pure _ _))
  unfold parseUriHeaders
  exact peek (ite_neg (by have := sepBy_ne uriHeader_ne h; simpa [List.head?_eq_none_iff] using this) (forLoop (key h [])))

theorem setKnown {α : Type} {names : List Bytes} (hlow : ∀ n ∈ names, n.map asciiLower = n) (hnd : names.Nodup) {on : Bool} {nameOf : α → Bytes}
    {ps : List α} {known : List (Option α)} {others : List α} (h : Gram.Sorted names on nameOf ps known others) (p : α) :
    ∃ r, (∀ y, Acc fl (Sip.setKnown names on known (nameOf p) p) [] r y) ∧ Gram.Sorted names on nameOf (ps ++ [p]) (r.getD known) (if r.isSome then others else others ++ [p]) := by
  obtain ⟨h1, h2⟩ := sorted_snoc hlow hnd h p
  unfold Sip.setKnown
  cases on with
  | false => exact ⟨none, fun y => pure _ _, h1 (by simp)⟩
  | true =>
    simp only [Bool.not_true, Bool.false_eq_true, if_false]
    cases hi : knownIndex names (nameOf p) with
    | none => exact ⟨none, fun y => pure _ _, h1 (fun hh => (knownIndex_none hlow).1 hi hh.2)⟩
    | some i =>
      simp only
      have h2 := h2 i rfl hi
      by_cases hk : known = []
      · rw [if_pos hk] at h2
        rw [if_pos hk]
        exact ⟨_, fun y => bind0 (allocMust _ _) (pure _ _), h2⟩
      · rw [if_neg hk] at h2
        rw [if_neg hk]
        exact ⟨_, fun y => pure _ _, h2⟩

/-! ## SIP URI -/

theorem userinfo {u : Option Bytes × Option Bytes} {t y : Bytes} (h : Gram.userinfo u t y) : Acc fl SipUri.parseUserinfo t u y := by
  unfold SipUri.parseUserinfo
  cases h with
  | none y h =>
    refine get (pure (Option.none, Option.none) y) (fun c _ hr _ => ?_)
    rw [hr, if_neg]
    rw [findUserinfo_iff]; exact h
  | user u t y h hu =>
    refine get ?_ (fun c _ hr _ => by rw [hr, if_pos ((findUserinfo_iff _).2 (by simpa using h))])
    refine bind (orErr (strEsc hu)) (peek (ite_neg (by simp) (bind0 (orErr (v := Option.none) ?_) (peek (ite_neg (by simp) skipPure)))))
    unfold SipUri.parsePassword
    exact byteAt0 rfl (ite_neg (by decide) (pure _ _))
  | password u t p tp y h hu hp =>
    refine get (fl := fl) ?_ (fun c _ hr _ => by rw [hr, if_pos ((findUserinfo_iff _).2 (by simpa using h))])
    refine bind' (t1 := t) (t2 := 0x3a :: tp ++ [0x40]) (orErr (strEsc (by simpa using hu))) (peek (ite_neg (by simp) (bind (orErr (v := some p) ?_) (peek (ite_neg (by simp) skipPure))))) (by simp)
    unfold SipUri.parsePassword
    exact byteAt0 rfl (ite_pos rfl (skip1 (peek (ite_neg (by simp) (map (orErr (strEscEmpty hp)) rfl)))))

theorem sipParams {r : List (Option UriParam) × List UriParam} {t y : Bytes} (h : Gram.sipParams fl r t y) : Acc fl SipUri.parseParams t r y := by
  unfold SipUri.parseParams
  cases h with
  | none y h => exact peek (ite_neg (by simpa using h) (pure _ _))
  | some ps known others t y h hs =>
    refine peek (ite_pos (by simp) (skip1 (orErr ?_)))
    obtain ⟨⟨k, o⟩, g1, g2⟩ := uriParams (fl := fl) (OK := fun _ => True) (K := fun ps k acc => Gram.Sorted sipUriKnownNames fl.setSipUriKnownParam UriParam.name ps k acc)
      (setK := SipUri.setKnown) (fun ps k acc p hK _ => by
        obtain ⟨r, g1, g2⟩ := setKnown (fl := fl) (names := sipUriKnownNames) (by decide +kernel) (by decide +kernel) hK p
        refine ⟨r, fun y => ?_, g2⟩
        unfold SipUri.setKnown
        exact get (g1 y) (fun c hf _ _ => by rw [hf])) (k := []) sorted_nil h (fun _ _ => trivial)
    refine g2.cast rfl ?_
    rw [Prod.mk.injEq]
    exact ⟨hs.2.trans g1.2.symm, hs.1.trans g1.1.symm⟩

theorem sipHeaders {r : List UriHeader} {t y : Bytes} (h : Gram.sipHeaders r t y) : Acc fl SipUri.parseHeaders t r y := by
  unfold SipUri.parseHeaders
  cases h with
  | none y h => exact peek (ite_neg (by simpa using h) (pure _ _))
  | some hs t y h => exact peek (ite_pos (by simp) (skip1 (orErr (uriHeaders h))))

theorem sipRest {sec : Bool} {u : SipUri} {t y : Bytes} (h : Gram.sipRest net fl sec u t y) : Acc fl (SipUri.parseAfterScheme net sec) t u y := by
  unfold SipUri.parseAfterScheme
  obtain ⟨user, pw, hp, known, ps, hs, t1, t2, t3, t4, _, h1, h2, h3, h4⟩ := h
  refine bind' (t1 := t1) (t2 := t2 ++ (t3 ++ t4)) (orErr (userinfo (by simpa using h1))) ?_ (by simp)
  exact bind (orErr (hostport (by simpa using h2))) (bind (sipParams h3) (map (sipHeaders h4) rfl))

theorem sipRestNoParam {sec : Bool} {u : SipUri} {t y : Bytes} (h : Gram.sipRestNoParam net sec u t y) : Acc fl (SipUri.parseAfterSchemeWithoutParam net sec) t u y := by
  unfold SipUri.parseAfterSchemeWithoutParam
  obtain ⟨user, pw, hp, t1, t2, _, h1, h2⟩ := h
  exact bind (userinfo h1) (map (orErr (hostport h2)) rfl)

end Acc

theorem word_length {s : String} {t : Bytes} (h : Gram.word s t) : t.length = (str s).length := by
  have := congrArg List.length h
  rwa [List.length_map] at this

theorem bit_lower : ∀ a p : UInt8, 0x61 ≤ p → p ≤ 0x7a → asciiLower a = p → a ||| 0x20 = p := by
  intro a p h1 h2 h
  subst h
  revert a; decide +kernel
theorem lower_colon : ∀ a : UInt8, asciiLower a = 0x3a → a = 0x3a := by decide +kernel
theorem lower_slash : ∀ a : UInt8, asciiLower a = 0x2f → a = 0x2f := by decide +kernel

/-- the texts of a scheme -/
theorem sipWord {t : Bytes} (h : Gram.word "sip:" t) : ∃ a b d : UInt8, t = [a, b, d, 0x3a] ∧ a ||| 0x20 = 0x73 ∧ b ||| 0x20 = 0x69 ∧ d ||| 0x20 = 0x70 := by
  unfold Gram.word at h
  rw [show str "sip:" = [0x73, 0x69, 0x70, 0x3a] from by decide +kernel] at h
  match t, h with
  | [a, b, d, e], h =>
    simp only [List.map_cons, List.map_nil, List.cons.injEq, and_true] at h
    obtain ⟨h1, h2, h3, h4⟩ := h
    rw [lower_colon e h4]
    exact ⟨a, b, d, rfl, bit_lower _ _ (by decide) (by decide) h1, bit_lower _ _ (by decide) (by decide) h2, bit_lower _ _ (by decide) (by decide) h3⟩
  | [], h => simp at h
  | [_], h => simp at h
  | [_, _], h => simp at h
  | [_, _, _], h => simp at h
  | _ :: _ :: _ :: _ :: _ :: _, h => simp at h

theorem sipsWord {t : Bytes} (h : Gram.word "sips:" t) : ∃ a b d e : UInt8, t = [a, b, d, e, 0x3a] ∧ a ||| 0x20 = 0x73 ∧ b ||| 0x20 = 0x69 ∧ d ||| 0x20 = 0x70 ∧ e ||| 0x20 = 0x73 := by
  unfold Gram.word at h
  rw [show str "sips:" = [0x73, 0x69, 0x70, 0x73, 0x3a] from by decide +kernel] at h
  match t, h with
  | [a, b, d, f, e], h =>
    simp only [List.map_cons, List.map_nil, List.cons.injEq, and_true] at h
    obtain ⟨h1, h2, h3, h5, h4⟩ := h
    rw [lower_colon e h4]
    exact ⟨a, b, d, f, rfl, bit_lower _ _ (by decide) (by decide) h1, bit_lower _ _ (by decide) (by decide) h2, bit_lower _ _ (by decide) (by decide) h3, bit_lower _ _ (by decide) (by decide) h5⟩
  | [], h => simp at h
  | [_], h => simp at h
  | [_, _], h => simp at h
  | [_, _, _], h => simp at h
  | [_, _, _, _], h => simp at h
  | _ :: _ :: _ :: _ :: _ :: _ :: _, h => simp at h

theorem telWord {t : Bytes} (h : Gram.word "tel:" t) : ∃ a b d : UInt8, t = [a, b, d, 0x3a] ∧ a ||| 0x20 = 0x74 ∧ b ||| 0x20 = 0x65 ∧ d ||| 0x20 = 0x6c := by
  unfold Gram.word at h
  rw [show str "tel:" = [0x74, 0x65, 0x6c, 0x3a] from by decide +kernel] at h
  match t, h with
  | [a, b, d, e], h =>
    simp only [List.map_cons, List.map_nil, List.cons.injEq, and_true] at h
    obtain ⟨h1, h2, h3, h4⟩ := h
    rw [lower_colon e h4]
    exact ⟨a, b, d, rfl, bit_lower _ _ (by decide) (by decide) h1, bit_lower _ _ (by decide) (by decide) h2, bit_lower _ _ (by decide) (by decide) h3⟩
  | [], h => simp at h
  | [_], h => simp at h
  | [_, _], h => simp at h
  | [_, _, _], h => simp at h
  | _ :: _ :: _ :: _ :: _ :: _, h => simp at h

theorem telWord3 {t : Bytes} (h : Gram.word "tel" t) : ∃ a b d : UInt8, t = [a, b, d] ∧ a ||| 0x20 = 0x74 ∧ b ||| 0x20 = 0x65 ∧ d ||| 0x20 = 0x6c := by
  unfold Gram.word at h
  rw [show str "tel" = [0x74, 0x65, 0x6c] from by decide +kernel] at h
  match t, h with
  | [a, b, d], h =>
    simp only [List.map_cons, List.map_nil, List.cons.injEq, and_true] at h
    obtain ⟨h1, h2, h3⟩ := h
    exact ⟨a, b, d, rfl, bit_lower _ _ (by decide) (by decide) h1, bit_lower _ _ (by decide) (by decide) h2, bit_lower _ _ (by decide) (by decide) h3⟩
  | [], h => simp at h
  | [_], h => simp at h
  | [_, _], h => simp at h
  | _ :: _ :: _ :: _ :: _, h => simp at h

namespace Acc
variable {fl : Flags} {net : Net}

theorem sipScheme {t y : Bytes} (h : Gram.word "sip:" t) : Acc fl SipUri.parseScheme t false y := by
  obtain ⟨a, b, d, rfl, h1, h2, h3⟩ := sipWord h
  refine ⟨0, fun c _ hr _ _ => ⟨c.adv 4, ?_, Moved.of_eat c 4 0⟩⟩
  unfold SipUri.parseScheme
  rw [hr]
  simp [hasSipPrefix, h1, h2, h3]
theorem sipsScheme {t y : Bytes} (h : Gram.word "sips:" t) : Acc fl SipUri.parseScheme t true y := by
  obtain ⟨a, b, d, e, rfl, h1, h2, h3, h4⟩ := sipsWord h
  refine ⟨0, fun c _ hr _ _ => ⟨c.adv 5, ?_, Moved.of_eat c 5 0⟩⟩
  have he : (e == 0x3a) = false := by
    rw [beq_eq_false_iff_ne]; rintro rfl; exact absurd h4 (by decide)
  unfold SipUri.parseScheme
  rw [hr]
  simp [hasSipPrefix, hasSipsPrefix, h1, h2, h3, h4, he]

/-- **C43** every text of the grammar of SIP URIs is accepted -/
theorem sipUri {u : SipUri} {t y : Bytes} (h : Gram.sipUri net fl u t y) : Acc fl (SipUri.parse net) t u y := by
  unfold SipUri.parse
  cases h with
  | sip u t0 t y h0 h => exact bind (sipScheme h0) (sipRest h)
  | sips u t0 t y h0 h => exact bind (sipsScheme h0) (sipRest h)

/-! ## Telephone URI -/

theorem telNumber {r : Bool × Bytes} {t y : Bytes} (h : Gram.telNumber r t y) : Acc fl TelUri.parseNumber t r y := by
  unfold TelUri.parseNumber
  cases h with
  | glob t y hs hy hne =>
    refine peek ?_
    simp only [List.cons_append, List.head?_cons, if_true]
    refine map (orErr ⟨2 + ([0x2b] ++ t).length, fun c _ hr hp hu => ⟨_, (parseTelNumber_spec csTelPhoneDigit c [0x2b] t y hr (Or.inl rfl) hs hy ?_).trans (if_neg hne), ?_⟩⟩) rfl
    · have := List.length_filter_le (fun b => decide ¬ isSeparator b) t
      simp only [List.cons_append, List.nil_append, List.length_cons, List.length_nil] at hu ⊢
      omega
    · refine ⟨rfl, rfl, rfl, rfl, ?_⟩
      have := List.length_filter_le (fun b => decide ¬ isSeparator b) t
      simp only [Ctx.eat, List.cons_append, List.nil_append, List.length_cons]
      omega
  | loc _ y hs hy hne hp =>
    cases t with
    | nil => simp at hne
    | cons b t =>
      refine peek ?_
      simp only [List.cons_append, List.head?_cons]
      have hb : b ≠ 0x2b := by simpa using hp
      rw [if_neg hb]
      refine map (orErr ⟨2 + (b :: t).length, fun c _ hr hp' hu => ⟨_, (parseTelNumber_spec csTelPhoneDigitHex c [] (b :: t) y hr (Or.inr ⟨rfl, hp⟩) hs hy ?_).trans (if_neg hne), ?_⟩⟩) rfl
      · have := List.length_filter_le (fun b => decide ¬ isSeparator b) (b :: t)
        simp only [List.length_nil] at hu ⊢
        omega
      · refine ⟨rfl, rfl, rfl, rfl, ?_⟩
        have := List.length_filter_le (fun b => decide ¬ isSeparator b) (b :: t)
        simp only [Ctx.eat, List.nil_append]
        omega

/-- the last item of a kind -/
theorem last_split {α : Type} {P : α → Prop} {a b a' b' : List α} {q q' : α} (h : a ++ q :: b = a' ++ q' :: b') (hq : P q) (hq' : P q') (hb : ∀ x ∈ b, ¬ P x) (hb' : ∀ x ∈ b', ¬ P x) :
    a = a' ∧ q = q' ∧ b = b' := by
  rcases List.append_eq_append_iff.1 h with ⟨z, h1, h2⟩ | ⟨z, h1, h2⟩
  · cases z with
    | nil => simp only [List.append_nil] at h1; simp only [List.nil_append, List.cons.injEq] at h2; exact ⟨h1.symm, h2.1, h2.2⟩
    | cons x z =>
      simp only [List.cons_append, List.cons.injEq] at h2
      exact absurd hq' (hb q' (by rw [h2.2]; simp))
  · cases z with
    | nil => simp only [List.append_nil] at h1; simp only [List.nil_append, List.cons.injEq] at h2; exact ⟨h1, h2.1.symm, h2.2.symm⟩
    | cons x z =>
      simp only [List.cons_append, List.cons.injEq] at h2
      exact absurd hq (hb' q (by rw [h2.2]; simp))

theorem telSorted_unique {on : Bool} {ps : List UriParam} {d d' : Bool} {ctx ctx' : Option UriParam} {known known' : List (Option UriParam)} {others others' : List UriParam}
    (h : Gram.TelSorted on ps d ctx known others) (h' : Gram.TelSorted on ps d' ctx' known' others') : d = d' ∧ ctx = ctx' ∧ known = known' ∧ others = others' := by
  have h1 := telSorted_inner h
  have h2 := telSorted_inner h'
  have no : (∀ p ∈ ps, p.name.map asciiLower ≠ Sip.str "phone-context") → ∀ a b n v, ps = a ++ (⟨n, some v⟩ : UriParam) :: b → n.map asciiLower = Sip.str "phone-context" → False :=
    fun hn a b n v he hp => hn ⟨n, some v⟩ (by rw [he]; simp) hp
  have uq : ∀ {a b n v a' b' n' v'}, ps = a ++ (⟨n, some v⟩ : UriParam) :: b → ps = a' ++ (⟨n', some v'⟩ : UriParam) :: b' → n.map asciiLower = Sip.str "phone-context" →
      n'.map asciiLower = Sip.str "phone-context" → (∀ p ∈ b, p.name.map asciiLower ≠ Sip.str "phone-context") → (∀ p ∈ b', p.name.map asciiLower ≠ Sip.str "phone-context") → n = n' ∧ v = v' := by
    intro a b n v a' b' n' v' e e' hn hn' hb hb'
    have := (last_split (P := fun p : UriParam => p.name.map asciiLower = Sip.str "phone-context") (e.symm.trans e') hn hn' hb hb').2.1
    simpa using this
  refine (fun (x : d = d' ∧ ctx = ctx') => ⟨x.1, x.2, h1.2.trans h2.2.symm, h1.1.trans h2.1.symm⟩) ?_
  cases h with
  | noContext _ _ hn _ =>
    cases h' with
    | noContext => exact ⟨rfl, rfl⟩
    | number a b n v _ _ he hp _ _ _ => exact (no hn a b n _ he hp).elim
    | domain a b n v _ _ he hp _ _ _ _ _ => exact (no hn a b n _ he hp).elim
  | number a b n v _ _ he hp _ hb _ =>
    cases h' with
    | noContext _ _ hn _ => exact (no hn a b n _ he hp).elim
    | number a' b' n' v' _ _ he' hp' _ hb' _ =>
      obtain ⟨rfl, e⟩ := uq he he' hp hp' hb hb'
      simp only [List.cons.injEq, true_and] at e
      subst e; exact ⟨rfl, rfl⟩
    | domain a' b' n' v' _ _ he' hp' hv _ _ hb' _ =>
      obtain ⟨rfl, e⟩ := uq he he' hp hp' hb hb'
      subst e; exact absurd rfl hv
  | domain a b n v _ _ he hp hv _ _ hb _ =>
    cases h' with
    | noContext _ _ hn _ => exact (no hn a b n _ he hp).elim
    | number a' b' n' v' _ _ he' hp' _ hb' _ =>
      obtain ⟨rfl, e⟩ := uq he he' hp hp' hb hb'
      subst e; exact absurd rfl hv
    | domain a' b' n' v' _ _ he' hp' _ _ _ hb' _ =>
      obtain ⟨rfl, e⟩ := uq he he' hp hp' hb hb'
      subst e; exact ⟨rfl, rfl⟩

/-- a parameter that `SetKnownParams` of a telephone URI can stand -/
def TelFits (p : UriParam) : Prop := p.name.map asciiLower = Sip.str "phone-context" → ∃ b v, p.value = some (b :: v)

theorem telSet (fl : Flags) : Sets fl TelFits (fun ps (k : TelKnown) acc => Gram.TelSorted fl.setTelUriKnownParam ps k.contextIsDomain k.context k.known acc) TelUri.setKnown := by
  intro ps k acc p hK hok
  unfold TelUri.setKnown
  have hpc : (Sip.str "phone-context").map asciiLower = Sip.str "phone-context" := by decide +kernel
  have hin := telSorted_inner hK
  by_cases hq : strEqNoCase (some p.name) (Sip.str "phone-context") = true
  · rw [if_pos hq]
    rw [strEqNoCase_iff, hpc] at hq
    obtain ⟨b, v, hv⟩ := hok hq
    obtain ⟨pn, pv⟩ := p
    dsimp only at hv
    subst hv
    refine ⟨_, fun y => pure _ _, ?_⟩
    have e : (ps ++ [(⟨pn, some (b :: v)⟩ : UriParam)]).filter (fun p => p.name.map asciiLower ≠ Sip.str "phone-context") = ps.filter (fun p => p.name.map asciiLower ≠ Sip.str "phone-context") := by
      rw [List.filter_append]
      have : (pn.map asciiLower) = Sip.str "phone-context" := hq
      simp [this]
    by_cases hb : b = 0x2b
    · subst hb
      have hr : removeVisualSeparators (0x2b :: v) = 0x2b :: v.filter (fun x => ¬ isSeparator x) := by
        rw [(removeVisualSeparators_spec _).1, List.filter_cons_of_pos (by decide)]
      simp only [Option.getD_some, ne_eq, not_true_eq_false, decide_false, Bool.not_false, if_true, hr]
      exact .number ps [] pn v _ _ rfl hq (telSorted_values hK) (by simp) (by rw [e]; exact hin)
    · simp only [Option.getD_some, ne_eq, hb, not_false_eq_true, decide_true, Bool.not_true, Bool.false_eq_true, if_false]
      exact .domain ps [] pn (b :: v) _ _ rfl hq (by simpa using hb) (by simp) (telSorted_values hK) (by simp) (by rw [e]; exact hin)
  · rw [if_neg hq]
    have hq' : p.name.map asciiLower ≠ Sip.str "phone-context" := by
      intro e; exact hq ((strEqNoCase_iff _ _).2 (by rw [hpc]; exact e))
    obtain ⟨r, g1, g2⟩ := setKnown (fl := fl) (names := telUriKnownNames) (by decide +kernel) (by decide +kernel) hin p
    cases r with
    | none =>
      refine ⟨none, fun y => get (bind0 (g1 y) (pure _ _)) (fun c hf _ _ => by rw [hf]), telSorted_other hK p hq' g2⟩
    | some k' =>
      refine ⟨some { k with known := k' }, fun y => get (bind0 (g1 y) (pure _ _)) (fun c hf _ _ => by rw [hf]), telSorted_other hK p hq' g2⟩

theorem sepBy_mem {α : Type} {sep : UInt8} {R : Rel α} {xs : List α} {t y : Bytes} (h : Gram.sepBy sep R xs t y) : ∀ x ∈ xs, ∃ t y, R x t y := by
  induction h with
  | last x t y h hy => intro z hz; rw [List.mem_singleton.1 hz]; exact ⟨_, _, h⟩
  | more x t xs t' y h _ ih =>
    intro z hz
    rcases List.mem_cons.1 hz with rfl | hz
    · exact ⟨_, _, h⟩
    · exact ih z hz
  | trail x t h => intro z hz; rw [List.mem_singleton.1 hz]; exact ⟨_, _, h⟩

theorem telRest {u : TelUri} {t y : Bytes} (h : Gram.telRest fl u t y) : Acc fl TelUri.parseAfterScheme t u y := by
  unfold TelUri.parseAfterScheme
  cases h with
  | noParam g n t y h hy => exact bindE (orErr (telNumber h)) (peek (ite_neg (by simpa using hy) (pure _ _)))
  | params g n t ps tp y d ctx known others h hp hs =>
    refine bind (orErr (telNumber h)) (peek (ite_pos (by simp) (skip1 ?_)))
    obtain ⟨⟨k, o⟩, g1, g2⟩ := uriParams (telSet fl) (k := {}) telSorted_nil hp (fun p hm hn => by
      obtain ⟨_, _, hp⟩ := sepBy_mem hp p hm
      have hv := telSorted_values hs p hm hn
      cases hp with
      | flag => exact absurd rfl hv
      | value n t v tv y _ hv =>
        cases v with
        | nil => exact absurd rfl hv.1
        | cons b v => exact ⟨b, v, rfl⟩)
    refine map (orErr g2) ?_
    obtain ⟨e1, e2, e3, e4⟩ := telSorted_unique hs g1
    dsimp only at *
    rw [e1, e2, e3, e4]

theorem telRestNoParam {u : TelUri} {t y : Bytes} (h : Gram.telRestNoParam u t y) : Acc fl TelUri.parseAfterSchemeWithoutParam t u y := by
  unfold TelUri.parseAfterSchemeWithoutParam
  obtain ⟨g, n, _, _, h⟩ := h
  exact map (telNumber h) rfl

theorem telScheme {t y : Bytes} (h : Gram.word "tel:" t ∨ ∃ x, Gram.word "tel" x ∧ t = x ++ [0x1a]) : Acc fl TelUri.parseScheme t () y := by
  have key : ∃ a b d e : UInt8, t = [a, b, d, e] ∧ a ||| 0x20 = 0x74 ∧ b ||| 0x20 = 0x65 ∧ d ||| 0x20 = 0x6c ∧ e ||| 0x20 = 0x3a := by
    rcases h with h | ⟨x, h, rfl⟩
    · obtain ⟨a, b, d, rfl, h1, h2, h3⟩ := telWord h
      exact ⟨a, b, d, _, rfl, h1, h2, h3, by decide⟩
    · obtain ⟨a, b, d, rfl, h1, h2, h3⟩ := telWord3 h
      exact ⟨a, b, d, _, rfl, h1, h2, h3, by decide⟩
  obtain ⟨a, b, d, e, rfl, h1, h2, h3, h4⟩ := key
  refine ⟨0, fun c _ hr _ _ => ⟨c.adv 4, ?_, Moved.of_eat c 4 0⟩⟩
  unfold TelUri.parseScheme
  rw [hr]
  simp [h1, h2, h3, h4]

/-- **C43** every text of the grammar of telephone URIs is accepted -/
theorem telUri {u : TelUri} {t y : Bytes} (h : Gram.telUri fl u t y) : Acc fl TelUri.parse t u y := by
  unfold TelUri.parse
  obtain ⟨u, t0, t, y, h0, h⟩ := h
  exact bind (telScheme h0) (telRest h)

end Acc
end Sip
