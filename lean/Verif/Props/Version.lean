import Verif.Lemmas.Parses
import Verif.Model.Host
/-!
# C35: SIP-Version

Specification predicate: `Version.WF`, the values a version can denote.
-/
namespace Sip

theorem skipWhile_bounds (p : UInt8 → Bool) (src : Bytes) (pos : Nat) (h : pos ≤ src.length) : pos ≤ skipWhile p src pos ∧ skipWhile p src pos ≤ src.length := by
  unfold skipWhile
  have := runLen_le p (src.drop pos)
  simp at this; omega

theorem skipWhile_append {p : UInt8 → Bool} {src : Bytes} {pos : Nat} {x y : Bytes} (h : src.drop pos = x ++ y) (hx : ∀ b ∈ x, p b = true)
    (hy : ∀ b ∈ y.head?, p b = false) : skipWhile p src pos = pos + x.length := by
  unfold skipWhile
  rw [h, runLen_append_of_all hx]
  cases y with
  | nil => simp [runLen]
  | cons b y => rw [runLen_cons_false (hy b (by simp))]; omega

/-- a scan over bytes that exclude CR stops before a line end -/
theorem skipWhile_eol {p : UInt8 → Bool} {src : Bytes} {pos e : Nat} (hcr : p 0x0d = false) (he : pos ≤ e) (hs : StartsEol (src.drop e)) :
    skipWhile p src pos ≤ e := by
  false_or_by_contra
  rename_i h
  unfold skipWhile at h
  have hh := startsEol_head hs
  have hm : (src.drop pos)[e - pos]? = some 0x0d := by rw [List.getElem?_drop, ← List.head?_drop, show pos + (e - pos) = e by omega]; exact hh
  have : ((src.drop pos).take (runLen p (src.drop pos)))[e - pos]? = some 0x0d := by rw [List.getElem?_take, if_pos (by omega)]; exact hm
  have := take_runLen_all p (src.drop pos) _ (List.mem_of_getElem? this)
  rw [hcr] at this; cases this

theorem safe_strFromPos (s : CS) (hcr : s.mem 0x0d = false) (pos : Nat) (c : Ctx) (hc : Inv c) (hp : c.pos ≤ pos) (hl : pos ≤ c.src.length)
    (hb : ∀ b ∈ (c.src.drop c.pos).take (pos - c.pos), b ≠ 0x0d) :
    SafeAt 0 true 1 2 (fun v => v ≠ [] ∧ ∃ x, v = (c.src.drop c.pos).take (pos - c.pos) ++ x ∧ InSet s x ∧ x = (c.src.drop pos).takeWhile s.mem) (parseStrFromPos s pos) c := by
  have hmax : max c.pos pos = pos := by omega
  have hlen := runLen_drop_le s.mem c.src pos hl
  have hin := inSet_takeWhile s (c.src.drop pos)
  have hsp := takeWhile_drop_split s.mem (c.src.drop pos)
  have hzl : ((c.src.drop c.pos).take (pos - c.pos)).length = pos - c.pos := by simp; omega
  have hz : c.rest = (c.src.drop c.pos).take (pos - c.pos) ++ c.src.drop pos := by
    have := (List.take_append_drop (pos - c.pos) (c.src.drop c.pos)).symm
    rw [List.drop_drop] at this
    have e : c.pos + (pos - c.pos) = pos := by omega
    rw [e] at this; exact this
  generalize hh : (c.src.drop c.pos).take (pos - c.pos) = z at *
  generalize hrun : (c.src.drop pos).takeWhile s.mem = run at *
  have e0 : parseStrFromPos s pos c = parseStrFromPos s pos c := rfl
  conv at e0 => rhs; unfold parseStrFromPos
  simp only [hmax, hh, hrun] at e0
  by_cases h1 : c.pos < pos ∧ pos - c.pos + (c.used + 2) ≥ c.cap
  · rw [if_pos h1] at e0; exact .of_none e0 (Step.err hc _) (by simp [Ctx.addError])
  rw [if_neg h1, if_neg (by omega)] at e0
  by_cases h2 : c.used + 2 + (pos - c.pos) ≥ c.cap
  · rw [if_pos h2] at e0; exact .of_none e0 ((Step.setPos hc hp hl).addError _) (by simp [Ctx.addError, Ctx.setPos])
  rw [if_neg h2] at e0
  by_cases h3 : c.used + 2 + (pos - c.pos) + run.length > c.cap
  · rw [if_pos h3] at e0
    refine .of_panic e0 (fun _ hr => ?_)
    unfold Room at hr; omega
  rw [if_neg h3] at e0
  by_cases h4 : pos + run.length ≤ c.pos
  · rw [if_pos h4] at e0; exact .of_none e0 ((Step.setPos hc (by omega) hlen).addError _) (by simp [Ctx.addError, Ctx.setPos])
  rw [if_neg h4] at e0
  by_cases h5 : c.used + 2 + (pos - c.pos) + run.length ≥ c.cap
  · rw [if_pos h5] at e0; exact .of_none e0 ((Step.setPos hc (by omega) hlen).addError _) (by simp [Ctx.addError, Ctx.setPos])
  rw [if_neg h5] at e0
  refine .of_ok e0 ?_ ⟨?_, run, rfl, hin, rfl⟩ ?_ ?_
  · exact ⟨rfl, rfl, rfl, by simp only; omega, hlen, by simp only; omega, by simp only; omega, ErrsIn.refl⟩
  · intro e
    have : (z ++ run).length = 0 := by rw [e]; rfl
    simp only [List.length_append] at this; omega
  · refine line_of_noCR (z ++ run) _ (by rw [hz, List.append_assoc, ← hsp]) (by simp only [List.length_append]; omega) ?_
    intro b hbm
    rcases List.mem_append.1 hbm with h | h
    · exact hb b h
    · intro e; subst e; rw [hin _ h] at hcr; cases hcr
  · simp only; omega

/-! ## SIP-Version -/

/-- the values a SIP version can have: `2.0`, or other text `1*DIGIT "." 1*DIGIT` -/
def Version.WF : Version → Prop
  | .v20 => True
  | .other s => s ≠ str "2.0" ∧ ∃ a b, s = a ++ 0x2e :: b ∧ a ≠ [] ∧ b ≠ [] ∧ InSet csDigit a ∧ InSet csDigit b

/-- arena bytes a parsed version takes -/
def Version.cost : Version → Nat
  | .v20 => 0
  | .other s => s.length + 2

theorem parseStart_eq (c : Ctx) (a b d e : UInt8) (y : Bytes) (h : c.rest = a :: b :: d :: e :: y) (h3 : 3 ≤ y.length) :
    Version.parseStart c =
      if a ||| 0x20 ≠ 0x73 ∨ b ||| 0x20 ≠ 0x69 ∨ d ||| 0x20 ≠ 0x70 ∨ e ≠ 0x2f then .ok (none, c) else .ok (some (), c.adv 4) := by
  have hp : c.pos ≤ c.src.length := by
    false_or_by_contra; rename_i hh
    unfold Ctx.rest at h; rw [List.drop_eq_nil_of_le (by omega)] at h; cases h
  have hl := rest_length c hp
  rw [h] at hl; simp only [List.length_cons] at hl
  have g : ∀ k, c.src[c.pos + k]? = (a :: b :: d :: e :: y)[k]? := by intro k; rw [← h]; unfold Ctx.rest; rw [List.getElem?_drop]
  unfold Version.parseStart
  rw [if_neg (by omega)]
  have g0 := g 0; have g1 := g 1; have g2 := g 2; have g3 := g 3
  simp only [Nat.add_zero] at g0
  rw [g0, g1, g2, g3]; rfl

theorem parses_majorMinor (fl : Flags) (a b : Bytes) (ha : a ≠ []) (hb : b ≠ []) (hda : InSet csDigit a) (hdb : InSet csDigit b) :
    Parses fl Version.parseMajorMinor (a ++ 0x2e :: b) (.other (a ++ 0x2e :: b)) ((a ++ 0x2e :: b).length + 2) (NotIn csDigit) := by
  intro c y hfl hr hF hp hu
  have hr' : c.src.drop c.pos = a ++ (0x2e :: b ++ y) := by have := hr; unfold Ctx.rest at this; rw [this]; simp
  have hsk : skipWhile isDigit c.src c.pos = c.pos + a.length :=
    skipWhile_append hr' hda (by intro x hx; simp at hx; subst hx; decide +kernel)
  have hlen := rest_length c hp
  rw [hr] at hlen; simp only [List.length_append, List.length_cons] at hlen hu
  have hal := List.length_pos_iff.mpr ha
  have hbl := List.length_pos_iff.mpr hb
  have hg : c.src[c.pos + a.length]? = some 0x2e := by
    rw [getElem?_drop_add, hr', List.getElem?_append_right (by omega)]; simp
  have hps := parseStrFromPos_spec csDigit c (c.pos + a.length + 1) (by omega) (by omega) (a ++ [0x2e]) b y
    (by rw [hr]; simp) (by simp; omega) ⟨rfl, hdb, hF⟩ (by simp; omega) (by simp)
  unfold Version.parseMajorMinor
  simp only [hsk]
  rw [if_neg (by omega), hg]
  simp only [ne_eq, not_true_eq_false, if_false]
  rw [hps]
  simp only
  rw [if_neg (by omega)]
  simp only [Ctx.eat, Out.ok.injEq, Prod.mk.injEq, Ctx.mk.injEq, true_and, and_true, List.length_append, List.length_cons, List.append_assoc,
    List.cons_append, List.nil_append, List.length_nil]
  omega

theorem byteAt_bind {β} (k : Nat) (f : UInt8 → P β) (c : Ctx) (b : UInt8) (h : c.src[c.pos + k]? = some b) : (P.byteAt k >>= f) c = f b c := by
  apply P.bind_ok; unfold P.byteAt; rw [h]

theorem parses_afterStart (fl : Flags) (v : Version) (h : v.WF) :
    Parses fl Version.parseAfterStart (v.encode.drop 4) v v.cost (NotIn csDigit) := by
  cases v with
  | v20 =>
    intro c y hfl hr hF hp hu
    have hr : c.rest = [0x32, 0x2e, 0x30] ++ y := hr
    have g : ∀ k, c.src[c.pos + k]? = ([0x32, 0x2e, 0x30] ++ y)[k]? := by intro k; rw [← hr]; unfold Ctx.rest; rw [List.getElem?_drop]
    have g3 : (c.src[c.pos + 3]?.map isDigit) ≠ some true := by
      rw [g 3]
      cases y with
      | nil => simp
      | cons b y => have := hF b (by simp); simp; exact this
    unfold Version.parseAfterStart
    rw [byteAt_bind 0 _ c 0x32 (g 0), if_neg (by decide), byteAt_bind 1 _ c 0x2e (g 1), if_neg (by decide), byteAt_bind 2 _ c 0x30 (g 2),
      if_neg (by decide), P.get_bind, if_neg g3]
    rfl
  | other s =>
    obtain ⟨hne, a, b, rfl, ha, hb, hda, hdb⟩ := h
    have key := parses_majorMinor fl a b ha hb hda hdb
    have e4 : List.drop 4 (Version.other (a ++ 0x2e :: b)).encode = a ++ 0x2e :: b := rfl
    rw [e4]
    intro c y hfl hr hF hp hu
    have hkey := key c y hfl hr hF hp hu
    have g : ∀ k, c.src[c.pos + k]? = (a ++ 0x2e :: b ++ y)[k]? := by intro k; rw [← hr]; unfold Ctx.rest; rw [List.getElem?_drop]
    cases a with
    | nil => exact absurd rfl ha
    | cons a0 a =>
      unfold Version.parseAfterStart
      rw [byteAt_bind 0 _ c a0 (g 0)]
      by_cases h0 : a0 ≠ 0x32
      · rw [if_pos h0]; exact hkey
      rw [if_neg h0]
      cases a with
      | cons a1 a =>
        have hd1 := hda a1 (by simp)
        rw [byteAt_bind 1 _ c a1 (g 1), if_pos (by intro e; subst e; exact absurd hd1 (by decide +kernel))]
        exact hkey
      | nil =>
        rw [byteAt_bind 1 _ c 0x2e (g 1), if_neg (by decide)]
        cases b with
        | nil => exact absurd rfl hb
        | cons b0 b =>
          rw [byteAt_bind 2 _ c b0 (g 2)]
          by_cases h2 : b0 ≠ 0x30
          · rw [if_pos h2]; exact hkey
          rw [if_neg h2, P.get_bind]
          cases b with
          | nil =>
            exfalso; apply hne
            have h0 : a0 = 0x32 := by simpa using h0
            have h2 : b0 = 0x30 := by simpa using h2
            subst h0 h2; decide
          | cons b1 b =>
            have hd := hdb b1 (by simp)
            have g3 : (c.src[c.pos + 3]?.map isDigit) = some true := by
              rw [g 3]; simp; exact hd
            rw [if_pos g3]; exact hkey

theorem version_encode_split (v : Version) : v.encode = str "SIP/" ++ v.encode.drop 4 := by cases v <;> rfl

theorem version_encode_len (v : Version) (h : v.WF) : 3 ≤ (v.encode.drop 4).length := by
  cases v with
  | v20 => decide
  | other s =>
    obtain ⟨_, a, b, rfl, ha, hb, _⟩ := h
    have := List.length_pos_iff.mpr ha
    have := List.length_pos_iff.mpr hb
    show 3 ≤ (a ++ 0x2e :: b).length
    simp; omega

/-- **C35** encoding a version and parsing it back gives the same version, whatever stands behind it (other than a digit). -/
theorem version_roundtrip (fl : Flags) (v : Version) (h : v.WF) : Parses fl Version.parse v.encode v v.cost (NotIn csDigit) := by
  rw [version_encode_split v]
  refine Parses.bind' (F := fun y => 3 ≤ y.length) (n1 := 0) (v1 := ()) (Parses.orErr ?_) (parses_afterStart fl v h) ?_ rfl (by omega)
  · intro c y _ hr h3 hp hu
    rw [parseStart_eq c 0x53 0x49 0x50 0x2f y hr h3, if_neg (by decide)]
    rfl
  · intro y _; have := version_encode_len v h; rw [List.length_append]; omega

example : (Version.other (str "2.00")).WF ∧ Version.v20.WF ∧
    Version.parse { src := str "SIP/2.00 200", cap := 100 } = .ok (some (.other (str "2.00")), { src := str "SIP/2.00 200", pos := 8, used := 14, cap := 100 }) :=
  ⟨⟨by decide, str "2", str "00", by decide, by decide, by decide, by decide +kernel, by decide +kernel⟩, trivial, by decide +kernel⟩

theorem majorMinor_safe (c : Ctx) (hc : Inv c) (h2 : c.pos + 2 < c.src.length) (hnot : ∀ y, c.rest = 0x32 :: 0x2e :: 0x30 :: y → ∃ b ∈ y.head?, isDigit b = true) :
    SafeAt 1 true 1 2 Version.WF Version.parseMajorMinor c := by
  have hb := skipWhile_bounds isDigit c.src c.pos hc.pos
  have e0 : Version.parseMajorMinor c = Version.parseMajorMinor c := rfl
  conv at e0 => rhs; unfold Version.parseMajorMinor
  simp only at e0
  generalize hnp : skipWhile isDigit c.src c.pos = n at *
  by_cases h1 : n ≤ c.pos
  · rw [if_pos h1] at e0; exact .of_none e0 (Step.err hc _) (by simp [Ctx.addError])
  rw [if_neg h1] at e0
  cases hn : c.src[n]? with
  | none =>
    rw [hn] at e0
    refine .of_panic e0 (fun he _ => ?_)
    obtain ⟨e, he1, he2⟩ := (he.1 (Nat.le_refl _)).1
    have hle := skipWhile_eol (p := isDigit) (by decide +kernel) he1 he2
    have hh := startsEol_head he2
    rw [hnp] at hle
    rw [List.head?_drop, List.getElem?_eq_none (by have := List.getElem?_eq_none_iff.1 hn; omega)] at hh
    cases hh
  | some d =>
    rw [hn] at e0
    simp only at e0
    obtain ⟨hdn, hlt⟩ := getElem?_of_drop_cons hn
    by_cases h2 : d ≠ 0x2e
    · rw [if_pos h2] at e0
      exact .of_none e0 ((Step.setPos hc hb.1 hb.2).addError _) (by simp [Ctx.addError, Ctx.setPos])
    rw [if_neg h2] at e0
    have h2 : d = 0x2e := by simpa using h2
    subst h2
    -- the text: digits, a dot
    have htk : (c.src.drop c.pos).take (n - c.pos) = (c.src.drop c.pos).take (runLen isDigit (c.src.drop c.pos)) := by
      congr 1; unfold skipWhile at hnp; omega
    have hall := take_runLen_all isDigit (c.src.drop c.pos)
    rw [← htk] at hall
    have hsplit : c.src.drop c.pos = (c.src.drop c.pos).take (n - c.pos) ++ 0x2e :: c.src.drop (n + 1) := by
      have := (List.take_append_drop (n - c.pos) (c.src.drop c.pos)).symm
      rw [List.drop_drop, show c.pos + (n - c.pos) = n by omega, hdn] at this
      exact this
    have hzl : ((c.src.drop c.pos).take (n - c.pos)).length = n - c.pos := by simp; omega
    have htk2 : (c.src.drop c.pos).take (n + 1 - c.pos) = (c.src.drop c.pos).take (n - c.pos) ++ [0x2e] := by
      conv => lhs; rw [hsplit]
      rw [List.take_append, hzl, List.take_of_length_le (by omega), show n + 1 - c.pos - (n - c.pos) = 1 by omega]
      rfl
    generalize hz : (c.src.drop c.pos).take (n - c.pos) = z at *
    have hz0 : z ≠ [] := by intro e; subst e; simp at hzl; omega
    have hsf := safe_strFromPos csDigit (by decide +kernel) (n + 1) c hc (by omega) (by omega) (by
      rw [htk2]
      intro b hb
      rcases List.mem_append.1 hb with h | h
      · have := hall b h
        intro e; subst e; exact absurd this (by decide +kernel)
      · simp at h; subst h; decide)
    rw [htk2] at hsf
    rcases hps : parseStrFromPos csDigit (n + 1) c with ⟨_ | v, c1⟩ | _ | _
    · rw [hps] at e0
      have := hsf.step _ _ hps
      exact .of_none e0 (this.addError _) (by have := this.errs.length_le; simp [Ctx.addError]; omega)
        (by have := hsf.nmem _ hps; simp only [Ctx.addError]; omega)
    · rw [hps] at e0
      simp only at e0
      obtain ⟨⟨hne, x, hx, hxd, _⟩, hline, hu⟩ := hsf.some _ _ hps
      have hst := hsf.step _ _ hps
      by_cases h3 : c1.pos ≤ n + 1
      · rw [if_pos h3] at e0
        exact .of_none e0 (hst.addError _) (by have := hst.errs.length_le; simp [Ctx.addError]; omega)
          (by simp only [Ctx.addError]; omega)
      · rw [if_neg h3] at e0
        -- the position tells that the minor part is not empty
        have hpos : c1.pos = n + 1 + x.length ∧ c1.src.drop c1.pos = (c.src.drop (n + 1)).drop x.length ∧ x = (c.src.drop (n+1)).takeWhile csDigit.mem := by
          have e1 : parseStrFromPos csDigit (n + 1) c = parseStrFromPos csDigit (n + 1) c := rfl
          conv at e1 => rhs; unfold parseStrFromPos
          simp only [show max c.pos (n + 1) = n + 1 by omega] at e1
          rw [hps] at e1
          split at e1
          · cases e1
          · split at e1
            · cases e1
            · split at e1
              · cases e1
              · split at e1
                · cases e1
                · split at e1
                  · cases e1
                  · split at e1
                    · cases e1
                    · simp only [Out.ok.injEq, Prod.mk.injEq, Option.some.injEq] at e1
                      obtain ⟨e1, e2⟩ := e1
                      rw [htk2, hx] at e1
                      have e3 := List.append_cancel_left e1
                      subst e2
                      refine ⟨by simp only; rw [← e3], ?_, e3⟩
                      simp only [List.drop_drop, ← e3]
        have hxne : x ≠ [] := by intro e; subst e; simp at hpos; omega
        refine .of_ok e0 hst ⟨?_, z, x, by rw [hx]; simp, hz0, hxne, hall, hxd⟩ (hline (PreL.zero _)) hu
        -- not the text 2.0
        intro hv
        rw [hx] at hv
        have hzx : z = [0x32] ∧ x = [0x30] := by
          have hl : z.length + x.length = 2 := by
            have := congrArg List.length hv
            simp only [List.length_append, List.length_cons, List.length_nil] at this
            have e : (str "2.0").length = 3 := by decide
            omega
          have hzl' := List.length_pos_iff.mpr hz0
          have hxl' := List.length_pos_iff.mpr hxne
          match z, x with
          | [], _ => simp at hzl'
          | _, [] => simp at hxl'
          | [a], [b] =>
            have e : str "2.0" = [0x32, 0x2e, 0x30] := by decide
            rw [e] at hv; simp at hv; simp [hv]
          | [_], _ :: _ :: _ => simp only [List.length_cons] at hl; omega
          | _ :: _ :: _, _ :: _ => simp only [List.length_cons] at hl; omega
        obtain ⟨rfl, rfl⟩ := hzx
        have hrest : c.src.drop (n + 1) = 0x30 :: (c.src.drop (n + 1)).drop 1 := by
          have := takeWhile_drop_split csDigit.mem (c.src.drop (n + 1))
          rw [← hpos.2.2] at this; exact this
        obtain ⟨b, hb1, hb2⟩ := hnot _ (by unfold Ctx.rest; rw [hsplit, hrest]; rfl)
        -- but the run of digits ended there
        have h5 := hpos.2.2
        rw [hrest] at h5
        rw [List.takeWhile_cons, if_pos (by decide +kernel)] at h5
        cases hy : (c.src.drop (n + 1)).drop 1 with
        | nil => rw [hy] at hb1; simp at hb1
        | cons b' y =>
          rw [hy] at hb1 h5
          simp at hb1
          subst hb1
          rw [List.takeWhile_cons, if_pos (by exact hb2)] at h5
          simp at h5
    · rw [hps] at e0
      exact .of_panic e0 (fun _ hr => hsf.nopanic (Pre.zero _) hr hps)
    · exact absurd hps (hsf.nohang (PreH.zero _))

theorem parseStart_safe (l : Bool) (c : Ctx) (hc : Inv c) : SafeAt 1 l 1 0 (fun _ => True) (P.orErr Version.parseStart) c := by
  apply SafeAt.orErr (l' := false)
  by_cases h1 : c.pos + 6 ≥ c.src.length
  · exact .of_none (c' := c) (by unfold Version.parseStart; rw [if_pos h1]) (Step.refl hc) (by simp)
  · have hl := rest_length c hc.pos
    match hr : c.rest with
    | a :: b :: d :: e :: y =>
      rw [hr] at hl; simp only [List.length_cons] at hl
      have e0 := parseStart_eq c a b d e y hr (by omega)
      by_cases h2 : a ||| 0x20 ≠ 0x73 ∨ b ||| 0x20 ≠ 0x69 ∨ d ||| 0x20 ≠ 0x70 ∨ e ≠ 0x2f
      · rw [if_pos h2] at e0; exact .of_none e0 (Step.refl hc) (by simp)
      · rw [if_neg h2] at e0
        refine .of_ok e0 (Step.adv hc (by omega)) trivial (line_of_noCR [a, b, d, e] y hr rfl ?_) (by simp only [Ctx.adv]; omega)
        simp only [ne_eq, not_or, Decidable.not_not] at h2
        have hno : ∀ x : UInt8, (x ||| 0x20 = 0x73 ∨ x ||| 0x20 = 0x69 ∨ x ||| 0x20 = 0x70 ∨ x = 0x2f) → x ≠ 0x0d := by decide +kernel
        intro x hx
        simp only [List.mem_cons, List.not_mem_nil, or_false] at hx
        apply hno
        rcases hx with rfl | rfl | rfl | rfl
        · exact Or.inl h2.1
        · exact Or.inr (Or.inl h2.2.1)
        · exact Or.inr (Or.inr (Or.inl h2.2.2.1))
        · exact Or.inr (Or.inr (Or.inr h2.2.2.2))
    | [] => rw [hr] at hl; simp at hl; omega
    | [_] => rw [hr] at hl; simp at hl; omega
    | [_, _] => rw [hr] at hl; simp at hl; omega
    | [_, _, _] => rw [hr] at hl; simp at hl; omega

theorem afterStart_safe (c1 : Ctx) (hc1 : Inv c1) (hlen : c1.pos + 2 < c1.src.length) : SafeAt 1 true 1 2 Version.WF Version.parseAfterStart c1 := by
  have hl := rest_length c1 hc1.pos
  match hr : c1.rest with
  | x0 :: x1 :: x2 :: y =>
    have g : ∀ k, c1.src[c1.pos + k]? = (x0 :: x1 :: x2 :: y)[k]? := by intro k; rw [← hr]; unfold Ctx.rest; rw [List.getElem?_drop]
    have hmm1 : (∀ y, c1.rest = 0x32 :: 0x2e :: 0x30 :: y → ∃ b ∈ y.head?, isDigit b = true) → SafeAt 1 true 1 2 Version.WF Version.parseMajorMinor c1 := majorMinor_safe c1 hc1 hlen
    unfold Version.parseAfterStart
    refine SafeAt.congr (byteAt_bind 0 _ c1 x0 (g 0)) ?_
    by_cases h0 : x0 ≠ 0x32
    · rw [if_pos h0]; exact hmm1 (fun y' hy' => by rw [hr] at hy'; simp at hy'; exact absurd hy'.1 h0)
    rw [if_neg h0]
    refine SafeAt.congr (byteAt_bind 1 _ c1 x1 (g 1)) ?_
    by_cases h1 : x1 ≠ 0x2e
    · rw [if_pos h1]; exact hmm1 (fun y' hy' => by rw [hr] at hy'; simp at hy'; exact absurd hy'.2.1 h1)
    rw [if_neg h1]
    refine SafeAt.congr (byteAt_bind 2 _ c1 x2 (g 2)) ?_
    by_cases h2 : x2 ≠ 0x30
    · rw [if_pos h2]; exact hmm1 (fun y' hy' => by rw [hr] at hy'; simp at hy'; exact absurd hy'.2.2.1 h2)
    rw [if_neg h2]
    refine SafeAt.get ?_
    by_cases h3 : (c1.src[c1.pos + 3]?.map isDigit) = some true
    · rw [if_pos h3]
      refine hmm1 (fun y' hy' => ?_)
      rw [hr] at hy'; simp at hy'
      rw [g 3] at h3
      rw [← hy'.2.2.2]
      cases y with
      | nil => simp at h3
      | cons b y => exact ⟨b, by simp, by simpa using h3⟩
    · rw [if_neg h3]
      refine SafeAt.of_ok (v := .v20) (c' := c1.adv 3) rfl (Step.adv hc1 (by omega)) trivial ?_ (by simp only [Ctx.adv]; omega)
      refine line_of_noCR [x0, x1, x2] y hr rfl ?_
      have h0 : x0 = 0x32 := by simpa using h0
      have h1 : x1 = 0x2e := by simpa using h1
      have h2 : x2 = 0x30 := by simpa using h2
      subst h0 h1 h2
      simp
  | [] => rw [hr] at hl; simp at hl; omega
  | [_] => rw [hr] at hl; simp at hl; omega
  | [_, _] => rw [hr] at hl; simp at hl; omega

/-- **C35, C28–C31** whatever `SipVersion.Parse` accepts is a well formed version; it moves forward inside the input, reports every failure,
and panics only without a line end behind it or for lack of memory. -/
theorem version_safe : Safe 1 true 1 2 Version.WF Version.parse := by
  intro c hc
  have : SafeAt 1 true 1 (0 + 2) Version.WF Version.parse c := by
    refine SafeAt.bind (parseStart_safe true c hc) ?_
    intro _ c1 hps _ hc1
    -- three bytes are left
    have hlen : c1.pos + 2 < c1.src.length := by
      have h0 : Version.parseStart c = .ok (some (), c1) := by
        unfold P.orErr at hps
        split at hps
        · cases hps
        · exact hps
      unfold Version.parseStart at h0
      split at h0
      · cases h0
      · split at h0
        · split at h0
          · cases h0
          · simp only [Out.ok.injEq, Prod.mk.injEq] at h0
            rw [← h0.2]; simp only [Ctx.adv]; omega
        · cases h0
    exact afterStart_safe c1 hc1 hlen
  exact this.mono (Nat.le_refl _) (by simp) (Nat.le_refl _) (by omega) (fun _ h => h)

/-- **C29, negation**: a version that ends with its digits at the end of the input makes the parser panic. -/
theorem version_panics : Version.parse { src := str "SIP/222", cap := 100 } = .panic := by decide +kernel

end Sip
