import Verif.Props.AccAddr
import Verif.Props.ReadsHeaders
/-! # What is in the grammar is accepted: header values (C43) -/
namespace Sip

theorem notEndsLine {w r : Bytes} {b : UInt8} (hw : IsSWS w) (hb : isLwsChar b = false) : ¬ Gram.endsLine (w ++ b :: r) := by
  rcases Acc.endsLine_no hw (noWs_of (b := b) (r := r) rfl hb) with g | g
  · exact g
  · subst g
    rintro ⟨a, x, g1, g2, g3⟩
    cases a with
    | nil =>
      obtain ⟨q, g4, _⟩ := g3
      rw [g4] at g1
      simp only [List.nil_append, List.cons_append, List.cons.injEq] at g1
      rw [g1.1] at hb
      exact absurd hb (by decide +kernel)
    | cons y a =>
      simp only [List.nil_append, List.cons_append, List.cons.injEq] at g1
      have := g2 y (by simp)
      rw [← g1.1] at this
      rcases this with rfl | rfl <;> exact absurd hb (by decide +kernel)

theorem token_notLws : ∀ b : UInt8, csSipToken.mem b = true → isLwsChar b = false := by decide +kernel
theorem digit_notLws : ∀ b : UInt8, csDigit.mem b = true → isLwsChar b = false := by decide +kernel
theorem hostname_notLws : ∀ b : UInt8, csHostname.mem b = true → isLwsChar b = false := by decide +kernel

theorem sipMethodName_mem : ∀ i n, i ≠ 0 → sipMethodName[i]? = some n → ∃ s, (s, i) ∈ methodTable ∧ str s = n := by
  have key : ∀ i, i < sipMethodName.length → i ≠ 0 → ∃ e ∈ methodTable, e.2 = i ∧ sipMethodName[i]? = some (str e.1) := by decide +kernel
  intro i n hi h
  obtain ⟨⟨s, j⟩, h1, rfl, h2⟩ := key i (List.getElem?_eq_some_iff.1 h).1 hi
  rw [h2] at h
  exact ⟨s, h1, by simpa using h⟩

theorem methodTable_drop : ∀ s i, (s, i) ∈ methodTable → str s ∈ sipMethodName.drop 1 := by
  have : ∀ e ∈ methodTable, str e.1 ∈ sipMethodName.drop 1 := by decide +kernel
  intro s i h
  exact this _ h

theorem Gram.method_head {m : Method} {t y : Bytes} (h : Gram.method m t y) : ∃ b x, t = b :: x ∧ csSipToken.mem b = true := by
  cases h with
  | known i n y hi h hy =>
    obtain ⟨s, h1, rfl⟩ := sipMethodName_mem _ _ hi h
    obtain ⟨_, _, h2, h3⟩ := method_names _ _ h1
    cases hs : str s with
    | nil => exact absurd hs h2
    | cons b x => exact ⟨b, x, rfl, h3 b (by rw [hs]; simp)⟩
  | token t y h hn he =>
    obtain ⟨_, h1, h2, _⟩ := h
    cases t with
    | nil => exact absurd rfl h1
    | cons b x => exact ⟨b, x, rfl, h2 b (by simp)⟩

theorem Gram.number_head {n : Nat} {t y : Bytes} (h : Gram.number n t y) : ∃ b x, t = b :: x ∧ csDigit.mem b = true := by
  obtain ⟨h1, h2, _⟩ := h
  cases t with
  | nil => exact absurd rfl h1
  | cons b x => exact ⟨b, x, rfl, h2 b (by simp)⟩

theorem Gram.hostport_head {net : Net} {hp : HostPort} {t y : Bytes} (h : Gram.hostport net hp t y) : ∃ b x, t = b :: x ∧ isLwsChar b = false := by
  have key : ∀ {h : Host} {t y : Bytes}, Gram.host net h t y → ∃ b x, t = b :: x ∧ isLwsChar b = false := by
    intro h t y hh
    cases hh with
    | name s y h hs hy h4 =>
      cases t with
      | nil => exact absurd rfl h
      | cons b x => exact ⟨b, x, rfl, hostname_notLws b (hs b (by simp))⟩
    | ipv4 a b c d s y h hy =>
      cases t with
      | nil => obtain ⟨b, hb, _⟩ := ipv4Text_head h; cases hb
      | cons b x => exact ⟨b, x, rfl, hostname_notLws b (ipv4Text_hostname h b (by simp))⟩
    | ipv6 x ip y h hip => exact ⟨0x5b, _, rfl, by decide +kernel⟩
  cases h with
  | noPort h t y hh hy => exact key hh
  | port h t n d y hh hn hr =>
    obtain ⟨b, x, rfl, hb⟩ := key hh
    exact ⟨b, _, rfl, hb⟩

namespace Acc
variable {fl : Flags} {net : Net}

theorem method {m : Method} {t y : Bytes} (h : Gram.method m t y) : Acc fl P.method t m y := by
  cases h with
  | known i n y hi h hy =>
    obtain ⟨s, h1, rfl⟩ := sipMethodName_mem _ _ hi h
    refine ⟨0, fun c _ hr hp _ => ⟨c.adv (Sip.str s).length, ?_, Moved.of_eat c _ 0⟩⟩
    have e := (method_index_iff c.src c.pos i _ hi).2 ⟨s, y, h1, hr, (tokenEnd_iff y).2 hy, rfl⟩
    unfold P.method parseMethod
    rw [e]
    simp only [Out.ok_bind, if_neg hi]
    rfl
  | token t y h hn he =>
    obtain ⟨_, h1, h2, h3⟩ := h
    refine ⟨t.length + 2, fun c _ hr hp hu => ?_⟩
    have hd : c.src.drop c.pos = t ++ y := hr
    have hlen := rest_length c hp
    rw [hr, List.length_append] at hlen
    have hnp : getSipMethodIndex c.src c.pos ≠ .panic := by
      intro e
      rw [method_index_panics, hd] at e
      have : ∀ s : Bytes, InSet csSipToken s → t ++ y = s → t = s ∧ y = [] := by
        intro s hs e
        cases y with
        | nil => exact ⟨by simpa using e, rfl⟩
        | cons b y =>
          have a1 := h3 b (by simp)
          have a2 := hs b (by rw [← e]; simp)
          rw [a1] at a2; cases a2
      rcases e with e | e | e
      · obtain ⟨g1, g2⟩ := this _ (by decide +kernel) e; exact (he g2).1 g1
      · obtain ⟨g1, g2⟩ := this _ (by decide +kernel) e; exact (he g2).2.1 g1
      · obtain ⟨g1, g2⟩ := this _ (by decide +kernel) e; exact (he g2).2.2 g1
    obtain ⟨i, n, e, hn1, hn2⟩ := method_index_returns c.src c.pos hnp
    have hi : i = 0 := by
      false_or_by_contra; rename_i hi
      obtain ⟨s, z, g1, g2, g3, g4⟩ := (method_index_iff c.src c.pos i _ hi).1 e
      rw [hd] at g2
      obtain ⟨_, _, _, g5⟩ := method_names _ _ g1
      have : t = Sip.str s := (maxRun_takeWhile ⟨rfl, h2, h3⟩).symm.trans (maxRun_takeWhile ⟨g2, g5, (tokenEnd_iff z).1 g3⟩)
      exact hn (this ▸ methodTable_drop _ _ g1)
    subst hi
    rw [hd] at hn1 hn2
    have hnt : n ≤ t.length := by
      false_or_by_contra; rename_i hlt
      cases y with
      | nil => simp at hn1; omega
      | cons b y =>
        have a1 := h3 b (by simp)
        have a2 := hn2 b (by
          rw [List.take_append, List.take_of_length_le (by omega)]
          obtain ⟨k, hk⟩ : ∃ k, n - t.length = k + 1 := ⟨n - t.length - 1, by omega⟩
          rw [hk]; simp)
        have a2 : csSipToken.mem b = true := (charset_sip b).1.trans a2
        rw [a1] at a2; cases a2
    have sp := parseStrFromPos_spec csSipToken c (c.pos + n) (by omega) (by omega) (t.take n) (t.drop n) y (by rw [List.take_append_drop]; exact hr) (by rw [List.length_take]; omega)
      ⟨rfl, fun b hb => h2 b (List.mem_of_mem_drop hb), h3⟩ (by simp only [List.length_take, List.length_drop]; omega) (by rw [List.take_append_drop]; exact h1)
    refine ⟨_, (by
      unfold P.method parseMethod
      rw [e]
      simp only [Out.ok_bind, if_true]
      rw [sp]
      simp only [Out.ok_bind, List.take_append_drop]; rfl), ?_⟩
    · refine ⟨rfl, rfl, rfl, ?_, ?_⟩
      · simp only [List.length_drop]; omega
      · simp only [List.length_take, List.length_drop]; omega

theorem token {v t y : Bytes} (h : Gram.run csSipToken v t y) : Acc fl (P.orErr (P.str csSipToken)) t v y := orErr (str h)
theorem hparams {k : HKind} {ps : Params} {t y : Bytes} (h : Gram.params fl k ps t y) : Acc fl k.params t ps y := params h
theorem slash {t y : Bytes} (h : Gram.mark 0x2f t y) : Acc fl (P.orErr (P.mark 0x2f)) t () y := orErr (mark (by decide +kernel) h)

theorem addrParams {k : HKind} {a : Addr} {ta : Bytes} {ps : Params} {tp y : Bytes} (ha : Gram.addr net fl a ta (tp ++ y)) (hp : Gram.params fl k ps tp y) :
    Acc fl (parseAddrParams net k) (ta ++ tp) (.addr a ps) y := by
  unfold parseAddrParams
  exact bind (orErr (addr ha)) (map (hparams hp) rfl)

theorem protocol {v : Option (Bytes × Bytes)} {t y : Bytes} (h : Gram.protocol v t y) : Acc fl parseSentProtocol t v y := by
  unfold parseSentProtocol
  cases h with
  | sip20 t m y h hm =>
    obtain ⟨b, x, hx, hb⟩ := mark_head hm
    have hd : csDigit.mem b = false := by
      rcases hb with rfl | hb
      · decide +kernel
      · exact (by decide +kernel : ∀ b : UInt8, isLwsChar b = true → csDigit.mem b = false) b hb
    have hl : t.length = 7 := by have := congrArg List.length h; rw [List.length_map] at this; rw [this]; decide +kernel
    refine get (q := do P.skip 7; P.orErr (P.mark 0x2f); Pure.pure none) ?_ (fun c _ hr _ => ?_)
    · rw [← hl]
      exact bind (skip t _) (map (slash hm) rfl)
    · rw [if_pos]
      rw [hr, hx, List.append_assoc]
      exact isSip20_of h hd
  | other n m v m' y hn hm hv hm' hne =>
    refine get (q := parseOtherProtocol) ?_ (fun c _ hr _ => ?_)
    · unfold parseOtherProtocol
      refine bind0 (orErr (alloc 4 _)) ?_
      refine bind' (t1 := n) (t2 := m ++ (v ++ m')) (token (by simpa using hn)) ?_ (by simp)
      refine bind (slash (by simpa using hm)) (bind (token (by simpa using hv)) (map (slash hm') rfl))
    · rw [if_neg]
      intro hs
      obtain ⟨t, i, z, e, _, hw, hi⟩ := isSip20_split hs
      refine hne ⟨t, i, z, by rw [← e, hr], hw, ?_⟩
      exact (by decide +kernel : ∀ b : UInt8, isDigit b = false → csDigit.mem b = false) i hi

theorem via {pr : Option (Bytes × Bytes)} {t1 tr w : Bytes} {h : HostPort} {th : Bytes} {ps : Params} {tp y : Bytes} (h1 : Gram.protocol pr t1 (tr ++ w ++ th ++ tp ++ y))
    (h2 : Gram.run csSipToken tr tr (w ++ th ++ tp ++ y)) (hw : IsSWS w) (h3 : Gram.hostport net h th (tp ++ y)) (hp : Gram.params fl .via ps tp y) :
    Acc fl (parseVia net) (t1 ++ tr ++ w ++ th ++ tp) (.via pr tr h ps) y := by
  unfold parseVia
  obtain ⟨b, x, hx, hb⟩ := Gram.hostport_head h3
  refine bind' (t1 := t1) (t2 := tr ++ (w ++ (th ++ tp))) (orErr (protocol (by simpa using h1))) ?_ (by simp)
  refine bind (token (by simpa using h2)) (bind (orErr (lws ?_ ?_)) (bind (orErr (hostport h3)) (map (hparams hp) rfl)))
  · rw [hx]; exact swsNo hw hb
  · rw [hx]; exact notEndsLine hw hb

theorem swsMethod {w : Bytes} {m : Method} {tm y : Bytes} (hw : IsSWS w) (hm : Gram.method m tm y) : Acc fl (P.orErr P.lws) w () (tm ++ y) := by
  obtain ⟨b, x, hx, hb⟩ := Gram.method_head hm
  refine orErr (lws ?_ ?_)
  · rw [hx]; exact swsNo hw (token_notLws b hb)
  · rw [hx]; exact notEndsLine hw (token_notLws b hb)

theorem num {size n : Nat} {t y : Bytes} (h : Gram.number n t y) : Acc fl (parseNum size) t (.num (n % size)) y := by
  unfold parseNum
  exact map (uint h) rfl

/-- a text that stands in the relation of the grammar to a value is accepted as a header value, and the value is returned -/
theorem value {k : HKind} {v : HVal} {t y : Bytes} (h : Gram.value net fl k v t y) : Acc fl (k.parseValue net) t v y := by
  cases h with
  | addr k a ta ps tp y hk ha hp => rcases hk with rfl | rfl <;> exact addrParams ha hp
  | contact w a ta ps tp y hw ha hp hs =>
    show Acc fl (parseContact net) _ _ _
    unfold parseContact
    refine bind' (t1 := w) (t2 := ta ++ tp) (sws (by simpa using hw)) (peek ?_) (by simp)
    have hne : ∃ b x, ta ++ tp ++ y = b :: x := by
      cases ha with
      | name a t y h => obtain ⟨b, x, hx, _⟩ := nameAddr_head h; exact ⟨b, x, by rw [← hx]; simp⟩
      | spec u t y h =>
        have key : ∀ {s : String} {t0 t : Bytes}, Sip.str s ≠ [] → Gram.word s t0 → ∃ b x, t0 ++ t ++ tp ++ y = b :: x := by
          intro s t0 t hs hw
          cases t0 with
          | nil => exact absurd (show Sip.str s = [] from hw.symm) hs
          | cons b x => exact ⟨b, _, rfl⟩
        cases h with
        | sip u t0 t y h0 h => exact key (by decide +kernel) h0
        | sips u t0 t y h0 h => exact key (by decide +kernel) h0
        | tel u t0 t y h0 h => exact key (by decide +kernel) h0
    obtain ⟨b, x, hx⟩ := hne
    rw [hx] at hs ⊢
    exact ite_neg (by simpa using hs) (addrParams ha hp)
  | star w w' y hw hw' =>
    show Acc fl (parseContact net) _ _ _
    unfold parseContact
    refine bind (sws (swsNo hw (by decide +kernel))) (peek ?_)
    exact ite_pos rfl (skip1 (map (sws hw') rfl))
  | route k a ta ps tp y hk ha hp =>
    have : Acc fl (parseRouteParams net k) (ta ++ tp) (.addr a ps) y := by
      unfold parseRouteParams
      exact bind (orErr (nameAddr ha)) (map (hparams hp) rfl)
    rcases hk with rfl | rfl | rfl | rfl <;> exact this
  | identity a t y ha =>
    show Acc fl (parseIdentity net) _ _ _
    unfold parseIdentity
    exact map (orErr (addr ha)) rfl
  | via pr t1 tr w h th ps tp y h1 h2 hw h3 hp => exact via h1 h2 hw h3 hp
  | callId1 a y h hy =>
    show Acc fl parseCallId _ _ _
    unfold parseCallId
    refine bindE (orErr (str h)) (peek ?_)
    cases y with
    | nil => exact pure _ _
    | cons b y => exact ite_neg (by simpa using hy) (pure _ _)
  | callId2 a b y h h' =>
    show Acc fl parseCallId _ _ _
    unfold parseCallId
    refine bind (orErr (str h)) (peek ?_)
    exact ite_pos rfl (skip1 (map (orErr (str h')) rfl))
  | cseq n tn w m tm y hn hw hm =>
    show Acc fl parseCSeq _ _ _
    unfold parseCSeq
    refine bind' (t1 := tn) (t2 := w ++ tm) (uint (by simpa using hn)) (bind (swsMethod hw hm) (map (orErr (method hm)) rfl)) (by simp)
  | rack r tr w n tn w' m tm y hr hw hn hw' hm =>
    show Acc fl parseRAck _ _ _
    unfold parseRAck
    refine bind' (t1 := tr) (t2 := w ++ (tn ++ (w' ++ tm))) (uint (by simpa using hr)) (bind (orErr (lws ?_ ?_)) (bind (uint (by simpa using hn))
      (bind (swsMethod hw' hm) (map (orErr (method hm)) rfl)))) (by simp)
    · obtain ⟨b, x, hx, hb⟩ := Gram.number_head hn
      rw [hx]; exact swsNo hw (digit_notLws b hb)
    · obtain ⟨b, x, hx, hb⟩ := Gram.number_head hn
      rw [hx]; exact notEndsLine hw (digit_notLws b hb)
  | num k n t y hk h => rcases hk with rfl | rfl | rfl <;> exact num h
  | maxForwards n t y h => exact num h
  | contentType a m b ps tp y ha hm hb hp =>
    show Acc fl parseContentType _ _ _
    unfold parseContentType
    exact bind' (t1 := a) (t2 := m ++ (b ++ tp)) (token (by simpa using ha)) (bind (slash (by simpa using hm)) (bind (token hb) (map (hparams hp) rfl))) (by simp)
  | contentDisposition a ps tp y ha hp =>
    show Acc fl parseContentDisposition _ _ _
    unfold parseContentDisposition
    exact bind (token ha) (map (hparams hp) rfl)

theorem parseAlloc {k : HKind} {v : HVal} {t y : Bytes} (h : Gram.value net fl k v t y) : Acc fl (k.parseAlloc net) t v y := by
  unfold HKind.parseAlloc
  exact bind0 (orErr (alloc _ _)) (value h)

theorem parseName {k : HKind} {n y : Bytes} (h : TakenAsName k n) (hs : NameStop y) : Acc fl k.parseName n () y :=
  ⟨0, fun c _ hr _ _ => ⟨c.adv n.length, ((headerName_exact k c).1 _).2 ⟨n, y, hr, hs, h, rfl⟩, Moved.of_eat c _ 0⟩⟩

/-- the same for a header with its name -/
theorem header {k : HKind} {v : HVal} {t y : Bytes} (h : Gram.header net fl k v t y) : Acc fl (k.parse net) t v y := by
  unfold HKind.parse
  obtain ⟨n, c, _, t, _, hn, hs, hc, hv⟩ := h
  exact bind' (t1 := n) (t2 := c ++ t) (orErr (parseName hn (by simpa using hs))) (bind (orErr (hcolon hc)) (value hv)) (by simp)

end Acc
end Sip
