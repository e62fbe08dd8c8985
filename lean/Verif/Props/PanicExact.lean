import Verif.Props.Plain
import Verif.Props.MessageText
/-!
# C29: where two parsers panic, exactly

`Plain.lean` and `MessageSafe.lean` have conditions under which no parser panics. For the parser of quoted strings and that of the SIP version this file has the
exact condition (with room in the arena for the rest of the input, so that no panic comes from the memory). For telephone URIs it has the general form of the
fault: whatever URI is written in front, a `phone-context` without value behind it makes the parser panic.
-/
namespace Sip

/-- with room for the rest of the input the loop over a quoted string does not panic -/
theorem quotedLoop_nopanic (fuel : Nat) (c : Ctx) (n w : Nat) (out : Bytes) (hw : w + (c.src.length - n) ≤ c.cap) :
    quotedLoop fuel c n w out ≠ .panic := by
  induction fuel generalizing c n w out with
  | zero => intro h; cases h
  | succ fuel ih =>
    intro h
    rw [quotedLoop] at h
    cases hs : c.src[n]? with
    | none => rw [hs] at h; cases h
    | some v =>
      rw [hs] at h
      simp only at h
      have hlt := (getElem?_of_drop_cons hs).2
      by_cases h1 : v = 0x22
      · rw [if_pos h1] at h; cases h
      rw [if_neg h1] at h
      by_cases h2 : isLwsChar v = true
      · rw [if_pos h2] at h
        have hcl := copyLWS_cases c.src c.cap n w v hs h2
        rcases hcw : copyLWS c.src c.cap n w with ⟨b, p, u, o⟩ | _ | _
        · rw [hcw] at hcl h
          obtain ⟨hp1, hp2, hu, _, _, _⟩ := hcl
          simp only at h
          by_cases h3 : (!b) = true
          · rw [if_pos h3] at h; cases h
          rw [if_neg h3] at h
          exact ih _ p u _ (by show u + (c.src.length - p) ≤ c.cap; omega) h
        · rw [hcw] at hcl
          have hcl : c.cap < w + (c.src.length - n) := hcl
          omega
        · rw [hcw] at hcl; exact hcl.elim
      rw [if_neg h2] at h
      by_cases h3 : isSipQuotedText v = true
      · rw [if_pos h3] at h
        rw [if_neg (by omega)] at h
        exact ih _ _ _ _ (by omega) h
      rw [if_neg h3] at h
      by_cases h4 : v = 0x5c
      · rw [if_pos h4] at h
        cases hs2 : c.src[n + 1]? with
        | none => rw [hs2] at h; cases h
        | some x =>
          rw [hs2] at h
          simp only at h
          have := (getElem?_of_drop_cons hs2).2
          rw [if_neg (by omega)] at h
          exact ih _ _ _ _ (by omega) h
      · rw [if_neg h4] at h; cases h

/-- **C29** the parser of quoted strings panics exactly when nothing is left behind the white space it skips -/
theorem quoted_panics_exactly (c : Ctx) (hroom : c.used + 2 + c.src.length ≤ c.cap) :
    P.quoted c = .panic ↔ c.src.length ≤ parseSWS c.src c.pos := by
  have e0 : P.quoted c = parseQuoted (c.src.length + 1) c := rfl
  rw [e0]
  unfold parseQuoted
  generalize parseSWS c.src c.pos = n
  simp only
  cases hs : c.src[n]? with
  | none => exact ⟨fun _ => List.getElem?_eq_none_iff.1 hs, fun _ => rfl⟩
  | some v =>
    have hlt := (getElem?_of_drop_cons hs).2
    refine ⟨fun h => ?_, fun h => by omega⟩
    simp only at h
    by_cases h1 : v ≠ 0x22
    · rw [if_pos h1] at h; cases h
    rw [if_neg h1] at h
    rcases hq : quotedLoop (c.src.length + 1) c (n + 1) (c.used + 2) [] with ⟨_ | ⟨p, u, o⟩, d⟩ | _ | _
    · rw [hq] at h; cases h
    · rw [hq] at h
      simp only at h
      rw [if_neg (by omega)] at h; cases h
    · exact absurd hq (quotedLoop_nopanic _ _ _ _ _ (by omega))
    · rw [hq] at h; cases h

/-- the text at which the version parser reads behind the end: `SIP/` and at least three digits, nothing else -/
def VersionRunsOut (t : Bytes) : Prop :=
  ∃ w ds, t = w ++ ds ∧ SameLetters w (str "sip/") ∧ 3 ≤ ds.length ∧ ∀ d ∈ ds, isDigit d = true

theorem orErr_panic {α : Type} (p : P α) (c : Ctx) : P.orErr p c = .panic ↔ p c = .panic := by
  unfold P.orErr
  split
  · next h => rw [h]; simp
  · rfl

/-- the digits of the version -/
theorem majorMinor_panics (c : Ctx) (hp : c.pos < c.src.length) (hroom : c.used + 2 + c.src.length ≤ c.cap) :
    Version.parseMajorMinor c = .panic ↔ ∀ d ∈ c.rest, isDigit d = true := by
  have hsk := skipWhile_bounds isDigit c.src c.pos (by omega)
  have hsplit := takeWhile_drop_split isDigit c.rest
  have hall := takeWhile_all isDigit c.rest
  have hn : skipWhile isDigit c.src c.pos = c.pos + (c.rest.takeWhile isDigit).length := by
    unfold skipWhile Ctx.rest; rw [runLen_eq_takeWhile]
  have hlen : c.rest.length = c.src.length - c.pos := by unfold Ctx.rest; rw [List.length_drop]
  unfold Version.parseMajorMinor
  generalize skipWhile isDigit c.src c.pos = n at *
  simp only
  constructor
  · intro h
    by_cases h1 : n ≤ c.pos
    · rw [if_pos h1] at h; cases h
    rw [if_neg h1] at h
    cases hs : c.src[n]? with
    | none =>
      have hge := List.getElem?_eq_none_iff.1 hs
      have : c.rest.drop (c.rest.takeWhile isDigit).length = [] := List.drop_eq_nil_iff.2 (by omega)
      rw [this, List.append_nil] at hsplit
      rw [hsplit]; exact hall
    | some d =>
      rw [hs] at h
      simp only at h
      by_cases h2 : d ≠ 0x2e
      · rw [if_pos h2] at h; cases h
      rw [if_neg h2] at h
      have hlt := (getElem?_of_drop_cons hs).2
      exfalso
      have hsf : parseStrFromPos csDigit (n + 1) c ≠ .panic := by
        have hr := runLen_drop_le csDigit.mem c.src (max c.pos (n + 1)) (by omega)
        unfold parseStrFromPos
        dsimp only
        intro h
        split at h
        · cases h
        split at h
        · omega
        split at h
        · cases h
        split at h
        · omega
        split at h
        · cases h
        split at h
        · cases h
        · cases h
      split at h
      · split at h
        · cases h
        · cases h
      · cases h
      · next hps => exact hsf hps
      · cases h
  · intro h
    have htk : c.rest.takeWhile isDigit = c.rest := by
      have hgen : ∀ l : Bytes, (∀ d ∈ l, isDigit d = true) → l.takeWhile isDigit = l := by
        intro l
        induction l with
        | nil => intro _; rfl
        | cons x l ih =>
          intro hl
          rw [List.takeWhile_cons, if_pos (hl x List.mem_cons_self), ih fun d hd => hl d (List.mem_cons_of_mem _ hd)]
      exact hgen _ h
    rw [htk] at hn
    rw [if_neg (by omega), List.getElem?_eq_none (by omega)]

theorem afterStart_panics (c : Ctx) (hp : c.pos + 2 < c.src.length) (hroom : c.used + 2 + c.src.length ≤ c.cap) :
    Version.parseAfterStart c = .panic ↔ ∀ d ∈ c.rest, isDigit d = true := by
  have hmm := majorMinor_panics c (by omega) hroom
  have hlen : c.rest.length = c.src.length - c.pos := by unfold Ctx.rest; rw [List.length_drop]
  match hr : c.rest with
  | x0 :: x1 :: x2 :: y =>
    rw [hr] at hmm
    have g : ∀ k, c.src[c.pos + k]? = (x0 :: x1 :: x2 :: y)[k]? := by intro k; rw [← hr]; unfold Ctx.rest; rw [List.getElem?_drop]
    unfold Version.parseAfterStart
    rw [byteAt_bind 0 _ c x0 (g 0)]
    by_cases h0 : x0 ≠ 0x32
    · rw [if_pos h0]; exact hmm
    rw [if_neg h0, byteAt_bind 1 _ c x1 (g 1)]
    by_cases h1 : x1 ≠ 0x2e
    · rw [if_pos h1]; exact hmm
    rw [if_neg h1, byteAt_bind 2 _ c x2 (g 2)]
    by_cases h2 : x2 ≠ 0x30
    · rw [if_pos h2]; exact hmm
    rw [if_neg h2, P.get_bind]
    by_cases h3 : (c.src[c.pos + 3]?.map isDigit) = some true
    · rw [if_pos h3]; exact hmm
    rw [if_neg h3]
    constructor
    · intro h; cases h
    · intro h
      have h1 : x1 = 0x2e := by simpa using h1
      have := h x1 (by simp)
      rw [h1] at this
      exact absurd this (by decide +kernel)
  | [] => rw [hr] at hlen; simp at hlen; omega
  | [_] => rw [hr] at hlen; simp at hlen; omega
  | [_, _] => rw [hr] at hlen; simp at hlen; omega

/-- **C29** the version parser panics exactly when the whole rest of the input is `SIP/` followed by three digits or more -/
theorem version_panics_exactly (c : Ctx) (hroom : c.used + 2 + c.src.length ≤ c.cap) :
    Version.parse c = .panic ↔ VersionRunsOut c.rest := by
  have hlen : c.rest.length = c.src.length - c.pos := by unfold Ctx.rest; rw [List.length_drop]
  have hlet : ∀ x : UInt8, (x ||| 0x20 = 0x73 ↔ asciiLower x = 0x73) ∧ (x ||| 0x20 = 0x69 ↔ asciiLower x = 0x69) ∧ (x ||| 0x20 = 0x70 ↔ asciiLower x = 0x70) ∧
      (x = 0x2f ↔ asciiLower x = 0x2f) := by decide +kernel
  have hstr : str "sip/" = [0x73, 0x69, 0x70, 0x2f] := by decide
  by_cases h7 : c.pos + 6 ≥ c.src.length
  · have e : Version.parse c = .ok (none, c.addError c.pos) := by
      have e0 : Version.parseStart c = .ok (none, c) := by unfold Version.parseStart; rw [if_pos h7]
      rw [show Version.parse c = (P.orErr Version.parseStart >>= fun _ => Version.parseAfterStart) c from rfl, P.bind_apply]
      unfold P.orErr
      rw [e0]
    rw [e]
    refine ⟨fun h => (by cases h), ?_⟩
    rintro ⟨w, ds, ht, hw, hd, _⟩
    have h4 : w.length = 4 := by have := congrArg List.length hw; rw [hstr] at this; simpa using this
    rw [ht, List.length_append] at hlen; omega
  · match hr : c.rest with
    | a :: b :: d :: e :: y =>
      have e0 := parseStart_eq c a b d e y hr (by rw [hr] at hlen; simp only [List.length_cons] at hlen; omega)
      rw [show Version.parse c = (P.orErr Version.parseStart >>= fun _ => Version.parseAfterStart) c from rfl, P.bind_apply]
      unfold P.orErr
      rw [e0]
      by_cases h2 : a ||| 0x20 ≠ 0x73 ∨ b ||| 0x20 ≠ 0x69 ∨ d ||| 0x20 ≠ 0x70 ∨ e ≠ 0x2f
      · rw [if_pos h2]
        refine ⟨fun h => (by cases h), ?_⟩
        rintro ⟨w, ds, ht, hw, hd, _⟩
        exfalso
        rw [hstr] at hw
        unfold SameLetters at hw
        match w, hw with
        | [w0, w1, w2, w3], hw =>
          simp only [List.map_cons, List.map_nil, List.cons.injEq, and_true] at hw
          simp only [List.cons_append, List.nil_append, List.cons.injEq] at ht
          obtain ⟨q0, q1, q2, q3⟩ := hw
          obtain ⟨rfl, rfl, rfl, rfl, _⟩ := ht
          rcases h2 with h | h | h | h
          · exact h ((hlet _).1.2 q0)
          · exact h ((hlet _).2.1.2 q1)
          · exact h ((hlet _).2.2.1.2 q2)
          · exact h ((hlet _).2.2.2.2 q3)
        | [], hw => cases hw
        | [_], hw => simp at hw
        | [_, _], hw => simp at hw
        | [_, _, _], hw => simp at hw
        | _ :: _ :: _ :: _ :: _ :: _, hw => simp at hw
      · rw [if_neg h2]
        simp only [ne_eq, not_or, Decidable.not_not] at h2
        obtain ⟨q0, q1, q2, q3⟩ := h2
        have hy : (c.adv 4).rest = y := by
          have : (c.adv 4).rest = c.rest.drop 4 := by
            unfold Ctx.rest; rw [List.drop_drop]; rfl
          rw [this, hr]; rfl
        have hap := afterStart_panics (c.adv 4) (by simp only [Ctx.adv]; omega) (by simpa only [Ctx.adv] using hroom)
        rw [hy] at hap
        have hyl : 3 ≤ y.length := by rw [hr] at hlen; simp only [List.length_cons] at hlen; omega
        refine hap.trans ⟨fun h => ⟨[a, b, d, e], y, rfl, ?_, hyl, h⟩, ?_⟩
        · unfold SameLetters
          rw [hstr]
          simp only [List.map_cons, List.map_nil]
          rw [(hlet _).1.1 q0, (hlet _).2.1.1 q1, (hlet _).2.2.1.1 q2, (hlet _).2.2.2.1 q3]
        · rintro ⟨w, ds, ht, hw, _, hds⟩
          have h4 : w.length = 4 := by have := congrArg List.length hw; rw [hstr] at this; simpa using this
          have : ds = y := by
            have := congrArg (List.drop 4) ht
            rw [List.drop_left' h4] at this
            exact this.symm
          rwa [this] at hds
    | [] => rw [hr] at hlen; simp at hlen; omega
    | [_] => rw [hr] at hlen; simp at hlen; omega
    | [_, _] => rw [hr] at hlen; simp at hlen; omega
    | [_, _, _] => rw [hr] at hlen; simp at hlen; omega

/-- on every input that starts with the text the parser panics -/
def Panics {α : Type} (fl : Flags) (p : P α) (t : Bytes) (n : Nat) (F : Bytes → Prop) : Prop :=
  ∀ (c : Ctx) (y : Bytes), c.flags = fl → c.rest = t ++ y → F y → c.pos ≤ c.src.length → c.used + n < c.cap → p c = .panic

namespace Panics
variable {α β : Type} {fl : Flags} {F G : Bytes → Prop}
theorem left {p : P α} {f : α → P β} {t : Bytes} {n : Nat} (h : Panics fl p t n F) : Panics fl (p >>= f) t n F :=
  fun c y h1 h2 h3 h4 h5 => P.bind_panic (h c y h1 h2 h3 h4 h5)
theorem orErr {p : P α} {t : Bytes} {n : Nat} (h : Panics fl p t n F) : Panics fl (P.orErr p) t n F :=
  fun c y h1 h2 h3 h4 h5 => (orErr_panic p c).2 (h c y h1 h2 h3 h4 h5)
theorem right {p : P α} {f : α → P β} {t t1 t2 : Bytes} {v1 : α} {n n1 n2 : Nat}
    (h1 : Parses fl p t1 v1 n1 F) (h2 : Panics fl (f v1) t2 n2 G) (hF : ∀ y, G y → F (t2 ++ y)) (ht : t = t1 ++ t2) (hn : n1 + n2 ≤ n) :
    Panics fl (p >>= f) t n G := by
  subst ht
  intro c y hfl hr hg hp hu
  rw [List.append_assoc] at hr
  have e1 := h1 c (t2 ++ y) hfl hr (hF y hg) hp (by omega)
  have hr2 := Ctx.rest_eat c t1 (t2 ++ y) n1 hr
  have hlen := rest_length c hp
  rw [hr] at hlen; simp only [List.length_append] at hlen
  have e2 := h2 (c.eat t1.length n1) y hfl hr2 hg (by simp; omega) (by simp; omega)
  rw [P.bind_ok e1, e2]
theorem peekNE {f : Option UInt8 → P β} {b : UInt8} {t : Bytes} {n : Nat} (h : Panics fl (f (some b)) (b :: t) n F) : Panics fl (P.peek >>= f) (b :: t) n F := by
  intro c y h1 h2 h3 h4 h5
  rw [P.peek_bind, cur_eq_head, h2]
  exact h c y h1 h2 h3 h4 h5
end Panics

/-- one round of the loop over URI parameters, another one follows -/
theorem uriParams_round {κ : Type} {fl : Flags} {cs cs' : CharsetInfo} (hsub : cs.Sub cs') (hcs : cs'.Ok) {setK : κ → UriParam → P (Option κ)}
    {s : κ × List UriParam} {p : UriParam} {r : Option κ} {n1 : Nat} (hp : p.WF fl cs) (h : Parses fl (setK s.1 p) [] r n1 AnyText) :
    Parses fl (uriParamsBody cs' setK s) (p.encode fl cs ++ [0x3b]) (.inl (kstep s p r)) (6 + p.cost + n1) AnyText := by
  have hne := uriParam_encode_ne fl cs p hp
  unfold uriParamsBody
  refine Parses.peekNE (by simp) ?_
  obtain ⟨b, t, ht⟩ := List.exists_cons_of_ne_nil hne
  rw [if_neg (by rw [ht]; simp)]
  refine Parses.bind' (F := AnyText) (Parses.orErr (Parses.alloc 6)) (t1 := []) (n2 := p.cost + n1) ?_ (fun _ _ => trivial) rfl (by omega)
  refine Parses.bind' (uriParam_roundtrip fl cs cs' hsub hcs p hp) (t2 := [0x3b]) (n2 := n1) ?_
    (fun y _ b hb => by simp at hb; subst hb; exact ⟨hcs.nameSemi, hcs.valueSemi, by decide, by decide⟩) rfl rfl
  refine Parses.bind' (F := AnyText) h (t1 := []) (t2 := [0x3b]) (n2 := 0) ?_ (fun _ _ => trivial) rfl (by omega)
  refine Parses.peek ?_
  rw [if_pos rfl]
  refine Parses.skip1 ?_
  cases r <;> exact Parses.pure _

/-- the last parameter is one at which the setter panics -/
theorem uriParams_panics {κ : Type} {fl : Flags} {cs cs' : CharsetInfo} (hsub : cs.Sub cs') (hcs : cs'.Ok) {setK : κ → UriParam → P (Option κ)}
    (q : UriParam) (hq : q.WF fl cs') (hset : ∀ k c, setK k q c = .panic) :
    ∀ (ps : List UriParam) (s s' : κ × List UriParam) (n f : Nat), (∀ p ∈ ps, p.WF fl cs) → SetRun fl setK s ps s' n → ps.length < f →
      Panics fl (P.loop (uriParamsBody cs' setK) f s) (ps.flatMap (fun p => p.encode fl cs ++ [0x3b]) ++ q.encode fl cs') (uriParamsCost ps + n + (6 + q.cost))
        (ParamEnd cs') := by
  intro ps
  induction ps with
  | nil =>
    intro s s' n f _ _ hf
    obtain ⟨f, rfl⟩ : ∃ g, f = g + 1 := ⟨f - 1, by omega⟩
    have hne := uriParam_encode_ne fl cs' q hq
    refine Panics.left ?_
    rw [List.flatMap_nil, List.nil_append]
    unfold uriParamsBody
    obtain ⟨b, t, ht⟩ := List.exists_cons_of_ne_nil hne
    have hrt := uriParam_roundtrip fl cs' cs' (CharsetInfo.Sub.refl _) hcs q hq
    rw [ht] at hrt ⊢
    refine Panics.peekNE ?_
    rw [if_neg (by simp)]
    refine Panics.right (F := AnyText) (Parses.orErr (Parses.alloc 6)) (t1 := []) (n2 := q.cost) ?_ (fun _ _ => trivial) rfl (by omega)
    refine Panics.right hrt (t2 := []) (n2 := 0) ?_ (fun y hy => hy) (by simp) (by omega)
    exact Panics.left (fun c y _ _ _ _ _ => hset s.1 c)
  | cons p ps ih =>
    intro s s' n f hwf hrun hf
    obtain ⟨f, rfl⟩ : ∃ g, f = g + 1 := ⟨f - 1, by omega⟩
    cases hrun with
    | cons h h' =>
      rename_i r n1 n2
      have h2 := ih _ _ _ f (fun x hx => hwf x (List.mem_cons_of_mem _ hx)) h' (by simp only [List.length_cons] at hf; omega)
      refine Panics.right (uriParams_round hsub hcs (hwf p List.mem_cons_self) h) h2 (fun _ _ => trivial) ?_ ?_
      · rw [List.flatMap_cons, List.append_assoc]
      · simp only [uriParamsCost, List.map_cons, List.sum_cons]; omega

theorem phoneContext_letters : ∀ b : UInt8, asciiLower b ∈ str "phone-context" → csSipPname.mem b = true := by decide +kernel

/-- **C29, negation, in general** behind any telephone URI that can be written, a parameter named `phone-context` (in any case) without a value makes the parser panic -/
theorem tel_context_always_panics (fl : Flags) (u : TelUri) (hu : u.WF fl) (w : Bytes) (hw : SameLetters w (str "phone-context")) :
    Panics fl TelUri.parse (u.encode fl ++ 0x3b :: w) (u.cost + (6 + (w.length + 2))) (ParamEnd sipUriParamCS) := by
  have hset := telUri_setRun fl u hu
  have hin : InSet csSipPname w := by
    intro b hb
    refine phoneContext_letters b ?_
    unfold SameLetters at hw
    rw [← hw]; exact List.mem_map_of_mem hb
  have hwne : w ≠ [] := by rintro rfl; exact absurd hw (by unfold SameLetters; decide +kernel)
  have hq : UriParam.WF fl sipUriParamCS ⟨w, none⟩ := ⟨hwne, fun _ => hin, by simp⟩
  have henc : UriParam.encode fl sipUriParamCS ⟨w, none⟩ = w := by
    unfold UriParam.encode UriParam.encodeValue uriEsc
    simp only [List.append_nil]
    rw [show sipUriParamCS.name = csSipPname from rfl, escape_set hin]
    split <;> rfl
  have hpan : ∀ (k : TelKnown) (c : Ctx), TelUri.setKnown k ⟨w, none⟩ c = .panic := by
    intro k c
    have : strEqNoCase (some w) (str "phone-context") = true := (strEqNoCase_iff _ _).2 (by unfold SameLetters at hw; rw [hw]; decide +kernel)
    unfold TelUri.setKnown
    rw [if_pos this]; rfl
  -- the text of the parameters, with the marks behind them
  have htext : ∀ ps : List UriParam, encodeUriParams fl telUriParamCS ps ++ 0x3b :: w = 0x3b :: (ps.flatMap (fun p => p.encode fl telUriParamCS ++ [0x3b]) ++ w) := by
    intro ps
    induction ps with
    | nil => rfl
    | cons p ps ih =>
      have : encodeUriParams fl telUriParamCS (p :: ps) = 0x3b :: (p.encode fl telUriParamCS ++ encodeUriParams fl telUriParamCS ps) := by simp [encodeUriParams]
      rw [this, List.flatMap_cons, List.cons_append, List.append_assoc, ih]
      simp
  have hlenps : ∀ ps : List UriParam, ps.length ≤ (ps.flatMap (fun p => p.encode fl telUriParamCS ++ [0x3b])).length := by
    intro ps
    induction ps with
    | nil => simp
    | cons p ps ih => simp only [List.flatMap_cons, List.length_append, List.length_cons, List.length_nil]; omega
  rw [telUri_encode_eq fl u hu, List.append_assoc, List.append_assoc, htext]
  have hs : Parses fl TelUri.parseScheme (str "tel:") () 0 AnyText := by
    intro c y h1 h2 h3 h4 h5
    have h2 : c.rest = 0x74 :: 0x65 :: 0x6c :: 0x3a :: y := h2
    unfold TelUri.parseScheme
    rw [h2]
    simp only
    rw [if_pos (by decide)]
    rfl
  have hcost : (⟨w, none⟩ : UriParam).cost = w.length + 2 := rfl
  have hps := fun f => uriParams_panics telCS_sub sipUriParamCS_ok (setK := TelUri.setKnown) ⟨w, none⟩ hq hpan u.allParams ({}, []) _ _ f
    (telUri_allParams_wf fl u hu) hset
  unfold TelUri.parse
  refine Panics.right hs (n2 := u.cost + (6 + (w.length + 2))) ?_ (fun _ _ => trivial) rfl (by omega)
  unfold TelUri.parseAfterScheme
  refine Panics.right (Parses.orErr (telNumber_roundtrip fl u hu)) (n2 := uriParamsCost u.allParams + knownCost telUriKnownNames u.known + (6 + (w.length + 2))) ?_ ?_ rfl
    (by unfold TelUri.cost; omega)
  · refine Panics.peekNE ?_
    rw [if_pos rfl]
    refine Panics.right (F := AnyText) (Parses.skip [0x3b]) (t1 := [0x3b]) (n2 := uriParamsCost u.allParams + knownCost telUriKnownNames u.known + (6 + (w.length + 2))) ?_ (fun _ _ => trivial) rfl (by omega)
    refine Panics.left (Panics.orErr ?_)
    intro c y hfl hr hF hp hu2
    have hr : c.rest = (u.allParams.flatMap (fun p => p.encode fl telUriParamCS ++ [0x3b]) ++ w) ++ y := hr
    have hl := rest_length c hp
    rw [hr, List.length_append, List.length_append] at hl
    have hle := hlenps u.allParams
    have hwl := List.length_pos_iff.mpr hwne
    have key := hps (c.src.length + 1) (by omega) c y hfl (henc.symm ▸ hr) hF hp (by rw [hcost]; exact hu2)
    unfold parseUriParams
    rw [P.peek_bind, if_neg]
    · exact key
    · rw [cur_eq_head, hr]
      intro e
      have := List.head?_eq_none_iff.1 e
      have := congrArg List.length this
      simp only [List.length_append, List.length_nil] at this
      omega
  · intro y _
    constructor <;> intro b hb <;> (simp at hb; subst hb; decide +kernel)

/-- both cases occur, and nearby texts do not panic -/
theorem panic_exact_samples :
    P.quoted { src := str " \r\n ", cap := 100 } = .panic ∧ P.quoted { src := str "\"a", cap := 100 } ≠ .panic ∧
    VersionRunsOut (str "sIP/200") ∧ Version.parse { src := str "sIP/200", cap := 100 } = .panic ∧
    Version.parse { src := str "sIP/20", cap := 100 } ≠ .panic ∧ Version.parse { src := str "sIP/200 ", cap := 100 } ≠ .panic ∧
    Version.parse { src := str "sIP/20.", cap := 100 } ≠ .panic :=
  ⟨by decide +kernel, by decide +kernel, ⟨str "sIP/", str "200", by decide +kernel, by unfold SameLetters; decide +kernel, by decide +kernel, by decide +kernel⟩,
   by decide +kernel, by decide +kernel, by decide +kernel, by decide +kernel⟩

/-- the sample URI with parameters and behind it a `Phone-Context` without value: in front of a `>`, and at the end -/
theorem tel_context_samples :
    TelUri.parse { src := TelUri.sample.encode { setTelUriKnownParam := true } ++ 0x3b :: str "Phone-Context" ++ str ">", cap := 1000, flags := { setTelUriKnownParam := true } } = .panic ∧
    TelUri.parse { src := str "tel:12;a=b;phone-context", cap := 200 } = .panic ∧ ParamEnd sipUriParamCS (str ">") ∧ ParamEnd sipUriParamCS [] :=
  ⟨tel_context_always_panics { setTelUriKnownParam := true } TelUri.sample TelUri.sample_wf (str "Phone-Context") (by unfold SameLetters; decide +kernel) _ (str ">") rfl rfl
      (by unfold ParamEnd; decide +kernel) (Nat.zero_le _) (by decide +kernel),
   by decide +kernel, by unfold ParamEnd; decide +kernel, by unfold ParamEnd; decide +kernel⟩

/-- the loop over the headers of a text that ends inside one of the names at which the lookup panics -/
theorem headersLoop_cut {net : Net} {fl : Flags} {need : HKind → Bool} (x : String) (hx : x ∈ headerStops) (w : Bytes) (hw : SameLetters w (str x))
    {its : List HItem} {t : Bytes} {n : Nat} (h : HeaderLines net fl need its t n) :
    ∀ (f : Nat) (acc : List HItem), t.length < f → Panics fl (P.loop (headersBody net need) f acc) (t ++ w) n (fun y => y = []) := by
  have hgood : ∀ y ∈ headerStops, str y ≠ [] ∧ ∀ b ∈ str y, b ≠ 0x0d ∧ b ≠ 0x20 ∧ b ≠ 0x09 := by decide +kernel
  have hlow : ∀ b : UInt8, (b = 0x0d → asciiLower b = 0x0d) ∧ (b = 0x20 → asciiLower b = 0x20) ∧ (b = 0x09 → asciiLower b = 0x09) := by decide +kernel
  unfold SameLetters at hw
  have hwb : ∀ b ∈ w, b ≠ 0x0d ∧ b ≠ 0x20 ∧ b ≠ 0x09 := by
    intro b hb
    have := (hgood x hx).2 (asciiLower b) (by rw [← hw]; exact List.mem_map_of_mem hb)
    exact ⟨fun e => this.1 ((hlow b).1 e), fun e => this.2.1 ((hlow b).2.1 e), fun e => this.2.2 ((hlow b).2.2 e)⟩
  have hwne : w ≠ [] := by rintro rfl; exact (hgood x hx).1 hw.symm
  have hnf : NoFold w := by
    intro b hb
    have := hwb b (List.mem_of_mem_head? hb)
    exact (by decide +kernel : ∀ b : UInt8, b ≠ 0x20 → b ≠ 0x09 → isWspChar b = false) b this.2.1 this.2.2
  induction h with
  | nil =>
    intro f acc hf
    obtain ⟨f, rfl⟩ : ∃ g, f = g + 1 := ⟨f - 1, by omega⟩
    refine Panics.left ?_
    rw [List.nil_append]
    intro c y hfl hr hy hp hu
    rw [hy, List.append_nil] at hr
    obtain ⟨b, r, rfl⟩ := List.exists_cons_of_ne_nil hwne
    have hl := rest_length c hp
    rw [hr] at hl; simp only [List.length_cons] at hl
    have hpan : getSipHeaderIndex c.src c.pos = .panic :=
      (header_index_panics c.src c.pos (fun b hb => (hwb b (by rw [← hr]; exact hb)).1)).2 ⟨x, hx, by
        show SameLetters c.rest (str x)
        rw [hr]; exact hw⟩
    unfold headersBody
    rw [P.get_bind, if_neg (by omega), if_neg]
    · refine P.bind_panic ((orErr_panic _ _).2 ?_)
      unfold parseMsgHeaderName
      refine P.bind_panic ?_
      unfold P.headerIndex
      rw [hpan]
    · intro e
      obtain ⟨z, hz⟩ := (isCRLF_iff c).1 e
      rw [hr] at hz
      exact (hwb b List.mem_cons_self).1 (List.cons.inj hz).1
  | @cons its t n its' ts m ht hts ih =>
    intro f acc hf
    obtain ⟨f, rfl⟩ : ∃ g, f = g + 1 := ⟨f - 1, by omega⟩
    have htl := List.length_pos_iff.mpr ht.head.2.1
    rw [List.length_append] at hf
    refine Panics.right (line_round ht acc) (ih f (acc ++ its) (by omega)) (fun y hy => ?_) (List.append_assoc _ _ _) (by omega)
    rw [hy, List.append_nil]
    exact hts.noFold _ hnf

/-- **C29, negation, in general** a message that is cut inside a header name - a start line, any headers, and then one of the beginnings of names of `headerStops`, in any
letter case, at the end of the input - makes the parser panic: a message received in pieces stops the program -/
theorem msg_cut_panics (net : Net) (fl : Flags) (s : StartLine) (ts : Bytes) (ns : Nat) (its : List HItem) (th : Bytes) (nh : Nat)
    (h1 : Parses fl (StartLine.parse net) ts s ns AnyText) (h2 : HeaderLines net fl (msgNeed fl) its th nh)
    (x : String) (hx : x ∈ headerStops) (w : Bytes) (hw : SameLetters w (str x)) (c : Ctx) (hfl : c.flags = fl) (hr : c.rest = ts ++ (th ++ w)) (hp : c.pos ≤ c.src.length)
    (hu : c.used + (ns + nh) < c.cap) : Msg.parse net c = .panic := by
  have hwne : w ≠ [] := by
    rintro rfl
    exact (by decide +kernel : ∀ y ∈ headerStops, str y ≠ []) x hx hw.symm
  have key : Panics fl (Msg.parse net) (ts ++ (th ++ w)) (ns + nh) (fun y => y = []) := by
    unfold Msg.parse
    refine Panics.right (Parses.orErr h1) (n2 := nh) ?_ (fun _ _ => trivial) rfl (Nat.le_refl _)
    intro c y hfl hr hy hp hu
    have hl := rest_length c hp
    have hwl := List.length_pos_iff.mpr hwne
    rw [hr, List.length_append, List.length_append] at hl
    rw [P.get_bind, if_neg (by omega)]
    refine P.bind_panic ((orErr_panic _ _).2 ?_)
    unfold parseHeaders
    rw [hfl]
    exact headersLoop_cut x hx w hw h2 (c.src.length + 1) [] (by omega) c y hfl hr hy hp hu
  exact key c [] hfl (by rw [hr, List.append_nil]) rfl hp hu

/-- the same for what `Encode` writes: the text of any well formed start line and any well formed headers, and then the beginning of a name -/
theorem written_msg_cut_panics (net : Net) (hnet : net.Ok) (fl : Flags) (s : StartLine) (hs : s.WF net fl) (h : Hdrs) (hh : h.WF net fl (msgNeed fl)) (order : List HKind)
    (x : String) (hx : x ∈ headerStops) (w : Bytes) (hw : SameLetters w (str x)) (cap : Nat) (hcap : 8 + (s.cost + h.cost order) < cap) :
    ∃ t, s.encode net fl = .ok t ∧ Msg.parse net (fresh (t ++ (h.text net fl order ++ w)) cap fl) = .panic := by
  obtain ⟨t, ht, hst⟩ := startLine_roundtrip net hnet fl s hs
  exact ⟨t, ht, msg_cut_panics net fl _ t _ _ _ _ hst (hdrs_lines net hnet fl (msgNeed fl) h hh order) x hx w hw _ rfl (by unfold Ctx.rest; rw [fresh_src, fresh_pos]; rfl)
    (by rw [fresh_pos]; exact Nat.zero_le _) (by rw [fresh_used, fresh_cap]; omega)⟩

/-- a status line, a header, and the beginning of a name: this panics, with one letter more (or less) it is only rejected -/
theorem msg_cut_samples :
    Msg.parse Net.sample (fresh (str "SIP/2.0 200 OK\r\nX-a: b\r\n c\r\nCONT") 500 {}) = .panic ∧
    Msg.parse Net.sample (fresh (str "SIP/2.0 200 OK\r\nX-a: b\r\n c\r\nCONTE") 500 {}) ≠ .panic ∧
    Msg.parse Net.sample (fresh (str "SIP/2.0 200 OK\r\nX-a: b\r\n c\r\nCO") 500 {}) ≠ .panic := by
  have returns : ∀ t : Bytes, ((Msg.parse Net.sample (fresh t 500 {})).all fun _ => true) = true → Msg.parse Net.sample (fresh t 500 {}) ≠ .panic := by
    intro t h e; rw [e] at h; cases h
  refine ⟨?_, returns _ (by decide +kernel), returns _ (by decide +kernel)⟩
  have hwf : StartLine.WF Net.sample {} (.status .v20 200 (str "OK")) := ⟨trivial, by decide, fun h => by cases h⟩
  obtain ⟨t, e, hst⟩ := startLine_roundtrip Net.sample Net.sample_ok {} _ hwf
  have et : t = str "SIP/2.0 200 OK\r\n" := by
    have : StartLine.encode Net.sample {} (.status .v20 200 (str "OK")) = .ok (str "SIP/2.0 200 OK\r\n") := by decide +kernel
    rw [this] at e; exact (Out.ok.inj e).symm
  subst et
  have hraw := raws_lines Net.sample {} (msgNeed {}) [⟨0, some (str "X-a"), str "b\r\n c"⟩] (by
    intro r hr
    simp only [List.mem_cons, List.not_mem_nil, or_false] at hr
    subst hr
    exact ⟨RawHeader.samples_wf _ (by simp [RawHeader.samples]), fun k hk => absurd (hk.symm.trans (show HKind.ofIndex 0 = none by decide +kernel)) (by simp)⟩)
  exact msg_cut_panics Net.sample {} _ _ _ _ _ _ hst hraw "cont" (by decide) (str "CONT") (by unfold SameLetters; decide +kernel) _ rfl (by decide +kernel) (by decide +kernel) (by decide +kernel)

end Sip
