import Verif.Props.ReadsHeaders
import Verif.Props.Version
import Verif.Props.StartLine
/-!
# The start line follows the grammar (C42)
-/
namespace Sip

theorem ReadsAt.versionStart {c : Ctx} : ReadsAt (fun _ t _ => Gram.word "sip/" t) Version.parseStart c := by
  intro hc v c' e
  unfold Version.parseStart at e
  by_cases h1 : c.pos + 6 ≥ c.src.length
  · rw [if_pos h1] at e; cases e
  · rw [if_neg h1] at e
    have hl := rest_length c hc.pos
    match hr : c.rest with
    | a :: b :: d :: x :: y =>
      have g : ∀ k, c.src[c.pos + k]? = (a :: b :: d :: x :: y)[k]? := by intro k; rw [← hr]; unfold Ctx.rest; rw [List.getElem?_drop]
      rw [show c.src[c.pos]? = some a from g 0, g 1, g 2, g 3] at e
      simp only [List.getElem?_cons_succ, List.getElem?_cons_zero] at e
      split at e
      · cases e
      · rename_i hn
        simp only [ne_eq, not_or, Classical.not_not] at hn
        obtain ⟨g1, g2, g3, rfl⟩ := hn
        cases e
        have hr' : c.rest = [a, b, d, 0x2f] ++ y := hr
        refine ⟨Step.of_rest hc hr', [a, b, d, 0x2f], ?_, ?_⟩
        · have := Ctx.rest_adv hr'
          rw [show (c.adv 4).rest = y from this]; rfl
        · unfold Gram.word
          simp only [List.map_cons, List.map_nil, lower_of_bit a _ (by decide) g1, lower_of_bit b _ (by decide) g2, lower_of_bit d _ (by decide) g3]
          decide +kernel
    | [] => rw [hr] at hl; simp at hl; omega
    | [_] => rw [hr] at hl; simp at hl; omega
    | [_, _] => rw [hr] at hl; simp at hl; omega
    | [_, _, _] => rw [hr] at hl; simp at hl; omega

theorem ReadsAt.majorMinor {c : Ctx} (hnot : ∀ y, c.rest = 0x32 :: 0x2e :: 0x30 :: y → ¬ NotIn csDigit y) : ReadsAt Gram.version Version.parseMajorMinor c := by
  intro hc v c' e
  obtain ⟨a, y, hr, ha, hy⟩ := exists_maxRun csDigit c.rest
  have hsk : skipWhile isDigit c.src c.pos = c.pos + a.length := skipWhile_append hr ha hy
  unfold Version.parseMajorMinor at e
  simp only [hsk] at e
  split at e
  · cases e
  · rename_i hne
    have hane : a ≠ [] := by rintro rfl; simp at hne
    have hd : c.src[c.pos + a.length]? = y.head? := by
      have : c.src[c.pos + a.length]? = (c.src.drop c.pos)[a.length]? := by rw [List.getElem?_drop]
      rw [this, show c.src.drop c.pos = a ++ y from hr, List.getElem?_append_right (Nat.le_refl _), Nat.sub_self, List.head?_eq_getElem?]
    rw [hd] at e
    match y, hr, hy, e with
    | [], _, _, e => cases e
    | d :: z, hr, hy, e =>
      simp only [List.head?_cons] at e
      by_cases hdot : d = 0x2e
      · subst hdot
        rw [if_neg (by simp)] at e
        split at e
        · rename_i s c2 hp
          split at e
          · cases e
          · rename_i hpos
            cases e
            have hlen : c.pos + (a.length + 1) ≤ c.src.length := by
              have := rest_length c hc.pos; rw [hr] at this; simp at this; have := hc.pos; omega
            have hst := (safe_strFromPos csDigit (by decide +kernel) (c.pos + (a.length + 1)) c hc (by omega) hlen ?_).step (some s) c' hp
            · obtain ⟨g1, g2⟩ := strFromPos_pos (n := a.length + 1) hp
              have hz : c.src.drop (c.pos + (a.length + 1)) = z := by
                have : (c.src.drop c.pos).drop (a.length + 1) = z := by
                  rw [show c.src.drop c.pos = (a ++ [0x2e]) ++ z by rw [show c.src.drop c.pos = _ from hr]; simp, show a.length + 1 = (a ++ [0x2e]).length by simp, List.drop_left]
                rw [← this, List.drop_drop]
              obtain ⟨b, w, hb1, hb2, hb3⟩ := exists_maxRun csDigit z
              have hb4 : z.takeWhile csDigit.mem = b := maxRun_takeWhile ⟨hb1, hb2, hb3⟩
              rw [hz, hb4] at g1 g2
              have htk : c.rest.take (a.length + 1) = a ++ [0x2e] := by
                rw [hr, show a ++ 0x2e :: z = (a ++ [0x2e]) ++ z by simp, show a.length + 1 = (a ++ [0x2e]).length by simp, List.take_left]
              rw [htk] at g2
              have hbne : b ≠ [] := by rintro rfl; simp at g1; omega
              obtain ⟨t, ht⟩ := hst.text
              have hpt := hst.pos_text ht
              have hfull : c.rest = (a ++ 0x2e :: b) ++ w := by rw [hr, hb1]; simp
              have hinj := List.append_inj (ht.symm.trans hfull) (by simp; omega)
              obtain ⟨rfl, hw⟩ := hinj
              have hs : s = a ++ 0x2e :: b := by rw [g2]; simp
              subst hs
              refine ⟨hst, _, ht, ?_⟩
              rw [hw]
              refine .other a b w hane ha hbne hb2 hb3 ?_
              intro h20
              refine hnot w ?_ hb3
              rw [hfull, h20]; rfl
            · intro x hx
              have htk : (c.src.drop c.pos).take (c.pos + (a.length + 1) - c.pos) = a ++ [0x2e] := by
                rw [show c.src.drop c.pos = (a ++ [0x2e]) ++ z by rw [show c.src.drop c.pos = _ from hr]; simp, show c.pos + (a.length + 1) - c.pos = (a ++ [0x2e]).length by simp, List.take_left]
              rw [htk] at hx
              rcases List.mem_append.1 hx with h | h
              · have := ha x h
                rintro rfl
                revert this; decide +kernel
              · simp at h; subst h; decide
        · cases e
        · cases e
        · cases e
      · rw [if_pos hdot] at e; cases e

theorem ReadsAt.versionAfterStart {c : Ctx} : ReadsAt Gram.version Version.parseAfterStart c := by
  unfold Version.parseAfterStart
  refine ReadsAt.byteAt (fun b0 h0 => ?_)
  have g : ∀ k, c.src[c.pos + k]? = c.rest[k]? := by intro k; unfold Ctx.rest; rw [List.getElem?_drop]
  rw [g] at h0
  refine ReadsAt.ite (fun hb => ReadsAt.majorMinor (fun y hr => ?_)) (fun hb0 => ?_)
  · rw [hr] at h0; cases h0; exact absurd rfl hb
  refine ReadsAt.byteAt (fun b1 h1 => ?_)
  rw [g] at h1
  refine ReadsAt.ite (fun hb => ReadsAt.majorMinor (fun y hr => ?_)) (fun hb1 => ?_)
  · rw [hr] at h1; cases h1; exact absurd rfl hb
  refine ReadsAt.byteAt (fun b2 h2 => ?_)
  rw [g] at h2
  refine ReadsAt.ite (fun hb => ReadsAt.majorMinor (fun y hr => ?_)) (fun hb2 => ?_)
  · rw [hr] at h2; cases h2; exact absurd rfl hb
  refine ReadsAt.get ?_
  rw [g]
  refine ReadsAt.ite (fun hb => ReadsAt.majorMinor (fun y hr => ?_)) (fun hb3 => ?_)
  · rw [hr] at hb
    simp only [List.getElem?_cons_succ] at hb
    intro hn
    match y, hb, hn with
    | x :: z, hb, hn =>
      simp only [List.getElem?_cons_zero, Option.map_some, Option.some.injEq] at hb
      have := hn x (by simp)
      rw [show csDigit.mem x = isDigit x by rfl] at this
      rw [hb] at this; cases this
  · simp only [ne_eq, Classical.not_not] at hb0 hb1 hb2
    subst hb0 hb1 hb2
    match hr : c.rest, h0, h1, h2 with
    | _ :: _ :: _ :: y, h0, h1, h2 =>
      cases h0; cases h1; cases h2
      have hr' : c.rest = [0x32, 0x2e, 0x30] ++ y := hr
      refine ReadsAt.bind (R := fun _ t y' => t = [0x32, 0x2e, 0x30] ∧ y' = y) (ReadsAt.skip (t := [0x32, 0x2e, 0x30]) hr' ⟨rfl, rfl⟩) (fun _ t1 c1 _ s1 h1 r1 => ReadsAt.pure ?_)
      obtain ⟨rfl, hy⟩ := r1
      rw [hy]
      refine .v20 y ?_
      rw [hr] at hb3
      intro x hx
      simp only [List.getElem?_cons_succ] at hb3
      match y, hx, hb3 with
      | z :: _, hx, hb3 =>
        cases hx
        simp only [List.getElem?_cons_zero, Option.map_some, Option.some.injEq] at hb3
        show isDigit _ = false
        simpa using hb3

theorem ReadsAt.version {c : Ctx} : ReadsAt (fun v t y => ∃ ts tv, t = ts ++ tv ∧ Gram.word "sip/" ts ∧ Gram.version v tv y) Version.parse c := by
  unfold Version.parse
  refine ReadsAt.bind (ReadsAt.orErr ReadsAt.versionStart) (fun _ t1 c1 _ s1 h1 r1 => ?_)
  exact ReadsAt.versionAfterStart.mono (fun v t y _ h => ⟨t1, t, rfl, r1, h⟩)

theorem ReadsAt.sp {c : Ctx} : ReadsAt (fun _ t _ => t = [0x20]) P.sp c := by
  unfold P.sp
  refine ReadsAt.peek (fun _ => ReadsAt.err) (fun b y hr => ?_)
  dsimp only
  refine ReadsAt.ite (fun _ => ReadsAt.err) (fun hb => ?_)
  simp only [ne_eq, Classical.not_not] at hb; subst hb
  exact ReadsAt.skip1 hr rfl

theorem ReadsAt.requestLine {net : Net} {c : Ctx} : ReadsAt (Gram.startLine net c.flags) (StartLine.parseRequest net) c := by
  unfold StartLine.parseRequest
  refine ReadsAt.bind (ReadsAt.orErr ReadsAt.method) (fun m t1 c1 _ s1 h1 r1 => ?_)
  refine ReadsAt.bind ReadsAt.sp (fun _ t2 c2 _ s2 h2 r2 => ?_)
  subst r2
  refine ReadsAt.bind (ReadsAt.orErr ReadsAt.addrSpec) (fun a t3 c3 _ s3 h3 r3 => ?_)
  refine ReadsAt.bind ReadsAt.sp (fun _ t4 c4 _ s4 h4 r4 => ?_)
  subst r4
  refine ReadsAt.bind (ReadsAt.orErr ReadsAt.version) (fun v t5 c5 _ s5 h5 r5 => ?_)
  obtain ⟨ts, tv, rfl, hs, hv⟩ := r5
  refine ReadsAt.bind (ReadsAt.orErr ReadsAt.crlf) (fun _ t6 c6 _ s6 h6 r6 => ReadsAt.pure ?_)
  subst r6
  rw [h2, h3, h4, h5, h6] at r1
  rw [h4, h5, h6, s2.flags, s1.flags] at r3
  rw [h6] at hv
  exact rel_text (Gram.startLine.request m t1 a t3 ts v tv _ (by simpa using r1) (by simpa using r3) hs hv) (by simp)

theorem ReadsAt.statusLine {net : Net} {ts : Bytes} (hs : Gram.word "sip/" ts) {fl : Flags} {c : Ctx} :
    ReadsAt (fun v t y => Gram.startLine net fl v (ts ++ t) y) StartLine.parseStatus c := by
  unfold StartLine.parseStatus
  refine ReadsAt.bind (ReadsAt.orErr ReadsAt.versionAfterStart) (fun v t1 c1 _ s1 h1 r1 => ?_)
  refine ReadsAt.bind ReadsAt.sp (fun _ t2 c2 _ s2 h2 r2 => ?_)
  subst r2
  refine ReadsAt.bind ReadsAt.uint (fun n t3 c3 _ s3 h3 r3 => ?_)
  refine ReadsAt.bind ReadsAt.sp (fun _ t4 c4 _ s4 h4 r4 => ?_)
  subst r4
  refine ReadsAt.bind (ReadsAt.orErr (ReadsAt.strEscEmpty csSipReasonPhrase (by decide +kernel))) (fun r t5 c5 _ s5 h5 r5 => ?_)
  refine ReadsAt.bind (ReadsAt.orErr ReadsAt.crlf) (fun _ t6 c6 _ s6 h6 r6 => ReadsAt.pure ?_)
  subst r6
  rw [h2, h3, h4, h5, h6] at r1
  rw [h4, h5, h6] at r3
  rw [h6] at r5
  exact rel_text (Gram.startLine.status ts v t1 n t3 r t5 _ hs (by simpa using r1) (by simpa using r3) r5) (by simp)

/-- every accepted start line stands in the relation of the grammar to its text -/
theorem ReadsAt.startLine {net : Net} {c : Ctx} : ReadsAt (Gram.startLine net c.flags) (StartLine.parse net) c := by
  unfold StartLine.parse
  refine ReadsAt.bind (R := fun b t _ => if b then Gram.word "sip/" t else t = []) (ReadsAt.orElse ?_ ?_ ?_) (fun b t1 c1 _ s1 h1 r1 => ?_)
  · intro hc c' e
    rcases hs : Version.parseStart c with ⟨_ | u, d⟩ | _ | _
    · rw [P.bind_none hs] at e; cases e
      have : P.orErr Version.parseStart c = .ok (none, c'.addError c'.pos) := by unfold P.orErr; rw [hs]
      have st := (parseStart_safe true c hc).step _ _ this
      unfold Version.parseStart at hs
      split at hs
      · cases hs; exact Step.refl hc
      · split at hs
        · split at hs
          · cases hs; exact Step.refl hc
          · cases hs
        · cases hs
    · rw [P.bind_ok hs] at e; cases e
    · rw [P.bind_apply, hs] at e; cases e
    · rw [P.bind_apply, hs] at e; cases e
  · refine ReadsAt.bind ReadsAt.versionStart (fun _ t1 c1 _ s1 h1 r1 => ReadsAt.pure ?_)
    rw [List.append_nil]; exact r1
  · intro d _ _ _; exact ReadsAt.pure rfl
  · cases b with
    | true => exact ReadsAt.statusLine r1
    | false =>
      have : t1 = [] := r1
      subst this
      refine ReadsAt.requestLine.mono (fun v t y _ h => ?_)
      rw [s1.flags] at h; exact h

end Sip
