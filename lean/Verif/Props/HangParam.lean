import Verif.Props.HangExact
/-!
# C30: which messages are never parsed to an end, continued

The other place where the message parser meets a quoted string is the value of a parameter. Behind every value of an address header (written with brackets), Via,
Content-Type or Content-Disposition that can be written, one more parameter whose value is a quoted string that loops makes the parsers of the value and of the message loop.
-/
namespace Sip

/-- `;name="…` up to the place where the quoted string loops, white space allowed around the marks -/
def openParam (w2 name w3 w4 q : Bytes) : Bytes := 0x3b :: (w2 ++ (name ++ w3 ++ 0x3d :: w4 ++ 0x22 :: q))
def openCost (name q : Bytes) : Nat := 8 + (name.length + 2) + (2 + q.length)

theorem Hangs.get {α : Type} {fl : Flags} {f : Ctx → P α} {t : Bytes} {n : Nat}
    (h : ∀ (c : Ctx) (y : Bytes), c.flags = fl → c.rest = t ++ y → Stuck y → c.pos ≤ c.src.length → c.used + n < c.cap → f c c = .hang) : Hangs fl (P.get >>= f) t n := by
  intro c y h1 h2 h3 h4 h5
  rw [P.get_bind]; exact h c y h1 h2 h3 h4 h5

theorem genValue_hangs {fl : Flags} {q o : Bytes} (hq : QText q o) : Hangs fl GenericParam.parseValue (0x22 :: q) (2 + q.length) := by
  unfold GenericParam.parseValue
  refine Hangs.peek ?_
  simp only
  rw [if_neg (by decide +kernel), if_pos (by decide +kernel)]
  exact Hangs.left (quoted_hangs hq)

theorem genericParam_hangs {fl : Flags} {name w3 w4 q o : Bytes} (hne : name ≠ []) (h : InSet csSipToken name) (h3 : IsSWS w3) (h4 : IsSWS w4) (hq : QText q o) :
    Hangs fl GenericParam.parse (name ++ w3 ++ 0x3d :: w4 ++ 0x22 :: q) (name.length + 2 + (2 + q.length)) := by
  unfold GenericParam.parse
  have hhead : ∃ b r, w3 ++ 0x3d :: w4 ++ 0x22 :: q = b :: r ∧ (isLwsChar b = true ∨ b = 0x3d) := by
    cases w3 with
    | nil => exact ⟨_, _, rfl, Or.inr rfl⟩
    | cons g w3 => exact ⟨g, _, rfl, Or.inl (isSWS_head h3 g (by simp))⟩
  obtain ⟨b, r, hb, hbb⟩ := hhead
  refine Hangs.right (Parses.orErr (Parses.tokenEsc name hne h)) (t2 := w3 ++ 0x3d :: w4 ++ 0x22 :: q) (n2 := 2 + q.length) ?_ ?_ (by simp) (by omega)
  · have hm := Parses.markYes (fl := fl) 0x3d (by decide +kernel) w3 w4 h3 h4
    have key : Hangs fl (do let m ← P.markCanOmmit 0x3d; if !m then pure ⟨name, none⟩ else do let v ← GenericParam.parseValue; pure ⟨name, some v⟩ : P GenericParam)
        (w3 ++ 0x3d :: w4 ++ 0x22 :: q) (2 + q.length) := by
      refine Hangs.right hm (t2 := 0x22 :: q) (n2 := 2 + q.length) ?_ (fun y _ => noWs_of rfl (by decide +kernel)) (by simp) (by omega)
      rw [if_neg (by simp)]
      exact Hangs.left (genValue_hangs hq)
    rw [hb] at key ⊢
    refine Hangs.peek ?_
    simp only
    rw [if_neg (by rcases hbb with h | rfl <;> simp [*])]
    exact key
  · intro y _ d hd
    rw [hb] at hd; simp at hd; subst hd
    rcases hbb with h | rfl
    · exact lws_token _ h
    · decide +kernel

theorem openParam_body {κ : Type} {fl : Flags} (setK : κ → GenericParam → P (Option κ)) (s : κ × List GenericParam) {w2 name w3 w4 q o : Bytes} (h2 : IsSWS w2) (hne : name ≠ [])
    (h : InSet csSipToken name) (h3 : IsSWS w3) (h4 : IsSWS w4) (hq : QText q o) :
    Hangs fl (genericParamsBody 0x3b setK s) (openParam w2 name w3 w4 q) (openCost name q) := by
  obtain ⟨k, acc⟩ := s
  unfold genericParamsBody
  refine Hangs.get (fun c y g1 g2 g3 g4 g5 => ?_)
  rw [cur_eq_head, g2]
  unfold openParam
  simp only [List.cons_append, List.head?_cons]
  rw [if_neg (by
    rw [isOnlyCRLF_spec]; have := g2; unfold Ctx.rest at this; rw [this]; exact not_startsEol_cons (by decide +kernel)), if_neg (by simp)]
  refine (show Hangs fl _ (openParam w2 name w3 w4 q) (openCost name q) from ?_) c y g1 g2 g3 g4 g5
  refine Hangs.right (nextParamMark_yes 0x3b (by decide +kernel) [] w2 (Or.inl rfl) h2) (t2 := name ++ w3 ++ 0x3d :: w4 ++ 0x22 :: q) (n2 := openCost name q) ?_ ?_ rfl (by omega)
  · rw [if_neg (by simp)]
    refine Hangs.right (F := AnyText) (Parses.orErr (Parses.alloc 8)) (t1 := []) (n2 := name.length + 2 + (2 + q.length)) ?_ (fun _ _ => trivial) rfl
      (by unfold openCost; omega)
    exact Hangs.left (genericParam_hangs hne h h3 h4 hq)
  · intro y _
    obtain ⟨b, u, rfl⟩ := List.exists_cons_of_ne_nil hne
    exact noWs_of rfl (token_lws b (h b List.mem_cons_self)).1

theorem genericParams_hang {κ : Type} {fl : Flags} {setK : κ → GenericParam → P (Option κ)} {w2 name w3 w4 q o : Bytes} (h2 : IsSWS w2) (hne : name ≠ [])
    (h : InSet csSipToken name) (h3 : IsSWS w3) (h4 : IsSWS w4) (hq : QText q o) :
    ∀ (ps : List GenericParam) (s s' : κ × List GenericParam) (n f : Nat), (∀ p ∈ ps, p.WF) → SetRun fl setK s ps s' n →
      Hangs fl (P.loop (genericParamsBody 0x3b setK) f s) (encodeGenericParams 0x3b ps ++ openParam w2 name w3 w4 q) (genericParamsCost ps + n + openCost name q) := by
  intro ps
  induction ps with
  | nil =>
    intro s s' n f _ _
    cases f with
    | zero => intro c y _ _ _ _ _; rfl
    | succ f =>
      intro c y g1 g2 g3 g4 g5
      exact P.bind_hang (openParam_body setK s h2 hne h h3 h4 hq c y g1 g2 g3 g4 (by omega))
  | cons p ps ih =>
    intro s s' n f hwf hrun
    cases f with
    | zero => intro c y _ _ _ _ _; rfl
    | succ f =>
      cases hrun with
      | cons hs hs' =>
        rename_i r n1 n2
        have hrec := ih _ _ _ f (fun x hx => hwf x (List.mem_cons_of_mem _ hx)) hs'
        have ht := genericParam_encode_text (hwf p List.mem_cons_self)
        have hsemi : ∀ y : Bytes, ∃ z, encodeGenericParams 0x3b ps ++ openParam w2 name w3 w4 q ++ y = 0x3b :: z := by
          intro y
          cases ps with
          | nil => exact ⟨_, rfl⟩
          | cons p' ps' => exact ⟨_, by simp only [encodeGenericParams, List.flatMap_cons, List.cons_append]; rfl⟩
        have hG : ∃ G, Parses fl GenericParam.parse p.encode p p.cost G ∧ ∀ y, G (0x3b :: y) := by
          revert ht; generalize p.encode = tp; intro ht
          cases ht with
          | value name v w1 w2 t hne hin h1 h2 hv => exact ⟨_, genericParam_value hne hin h1 h2 hv, fun y b hb => by simp at hb; subst hb; decide +kernel⟩
          | bare name hne hin => exact ⟨_, genericParam_bare hne hin, fun y => ⟨fun b hb => by simp at hb; subst hb; decide +kernel, by simp, swsLen_cons_not_lws (by decide +kernel)⟩⟩
        obtain ⟨G, hp, hg⟩ := hG
        have hround := genericParams_round 0x3b ⟨by decide +kernel, by decide +kernel, by decide⟩ setK s [] [] p.encode p G r n1 (Or.inl rfl) (Or.inl rfl) (paramText_head ht) hp hs
        refine Hangs.right hround hrec (fun y _ => ?_) ?_ ?_
        · obtain ⟨z, hz⟩ := hsemi y
          rw [hz]; exact hg z
        · simp only [encodeGenericParams, List.flatMap_cons, List.nil_append, List.cons_append, List.append_assoc]
        · simp only [genericParamsCost, List.map_cons, List.sum_cons]; omega

/-- behind all parameters that can be written -/
theorem params_hang (fl : Flags) (k : HKind) (ps : Params) (hps : ps.WF k.paramNames (k.paramFlag fl)) {w2 name w3 w4 q o : Bytes} (h2 : IsSWS w2) (hne : name ≠ [])
    (h : InSet csSipToken name) (h3 : IsSWS w3) (h4 : IsSWS w4) (hq : QText q o) :
    Hangs fl k.params (ps.encode k.paramNames ++ openParam w2 name w3 w4 q) (ps.cost k.paramNames + openCost name q) := by
  have hall := params_all_wf k.namesFine hps
  have henc : ps.encode k.paramNames = encodeGenericParams 0x3b (ps.all k.paramNames) := by
    rw [Params.encode, genericKnown_encode]; simp [Params.all, encodeGenericParams]
  rw [henc]
  unfold HKind.params Params.parse
  refine Hangs.left (Hangs.orErr ?_)
  intro c y g1 g2 g3 g4 g5
  exact genericParams_hang h2 hne h h3 h4 hq _ _ _ _ (c.src.length + 1) hall (params_setRun k.paramNames k.namesFine k.paramFlag ps hps) c y g1 g2 g3 g4 g5

theorem params_semi (names : List Bytes) (ps : Params) (w2 name w3 w4 q y : Bytes) : ∃ z, ps.encode names ++ openParam w2 name w3 w4 q ++ y = 0x3b :: z := by
  rcases params_encode_head names ps with e | ⟨r, e⟩
  · rw [e]; exact ⟨_, rfl⟩
  · rw [e]; exact ⟨_, rfl⟩

/-- the values that carry parameters: an address written with brackets, Via, Content-Type, Content-Disposition -/
def HVal.TakesParams (fl : Flags) : HVal → Prop
  | .addr a _ => (a.nameAddr || fl.encodeUriAsNameSpace) = true
  | .via .. => True
  | .contentType .. => True
  | .contentDisposition .. => True
  | _ => False

/-- a value that can be written, followed by the parameter -/
theorem paramValue_hangs (net : Net) (hnet : net.Ok) (fl : Flags) (k : HKind) (v : HVal) (hv : k.WF net fl v) (htp : v.TakesParams fl) (hk : k ≠ .pAssertedIdentity)
    {w2 name w3 w4 q o : Bytes} (h2 : IsSWS w2) (hne : name ≠ []) (h : InSet csSipToken name) (h3 : IsSWS w3) (h4 : IsSWS w4) (hq : QText q o) :
    ∃ t, k.encodeValue net fl v = .ok t ∧ Hangs fl (k.parseValue net) (t ++ openParam w2 name w3 w4 q) (k.cost v + openCost name q) := by
  cases v with
  | addr a ps =>
    refine ⟨_, rfl, ?_⟩
    obtain ⟨hka, ha, hps, _, _, hs⟩ := hv
    have hph := params_hang fl k ps hps h2 hne h h3 h4 hq
    have hsws : ∀ y, Stuck y → swsLen (ps.encode k.paramNames ++ openParam w2 name w3 w4 q ++ y) = 0 := fun y _ => by
      obtain ⟨z, hz⟩ := params_semi k.paramNames ps w2 name w3 w4 q y
      rw [hz]; exact swsLen_cons_not_lws (by decide +kernel)
    have hA : Hangs fl (parseAddrParams net k) (a.encode net fl ++ ps.encode k.paramNames ++ openParam w2 name w3 w4 q)
        (a.tryCost + a.cost + ps.cost k.paramNames + openCost name q) := by
      unfold parseAddrParams
      exact Hangs.right (Parses.orErr (addr_roundtrip net hnet false fl a ha htp)) (Hangs.left hph) hsws (List.append_assoc _ _ _) (by omega)
    have hR : Hangs fl (parseRouteParams net k) (a.encode net fl ++ ps.encode k.paramNames ++ openParam w2 name w3 w4 q)
        (a.cost + ps.cost k.paramNames + openCost name q) := by
      unfold parseRouteParams
      exact Hangs.right (Parses.orErr (nameAddr_roundtrip net hnet fl a ha htp)) (Hangs.left hph) hsws (List.append_assoc _ _ _) (by omega)
    have hcost : k.cost (.addr a ps) = (if k.isRoute then 0 else a.tryCost) + a.cost + ps.cost k.paramNames := rfl
    rw [hcost]
    cases k <;> first | (cases hka; done) | (exact absurd rfl hk) | skip
    · exact hA
    · exact hA
    · obtain ⟨b, r, e, h1, h2⟩ := addr_encode_head net fl a ha (hs rfl)
      show Hangs fl (parseContact net) _ _
      unfold parseContact
      refine Hangs.right Parses.sws0 (t2 := a.encode net fl ++ ps.encode HKind.contact.paramNames ++ openParam w2 name w3 w4 q) ?_ ?_ rfl (Nat.le_of_eq (Nat.zero_add _))
      · rw [e] at hA ⊢
        refine Hangs.peek ?_
        simp only [if_neg h2]
        exact hA
      · intro y _
        rw [e]
        exact noWs_of rfl h1
    all_goals
      show Hangs fl (parseRouteParams net _) _ _
      simpa only [HKind.isRoute, if_true, Nat.zero_add] using hR
  | via pr t hp ps =>
    obtain ⟨rfl, hpr, ht1, ht2, hh, hps⟩ := hv
    refine ⟨protoText pr ++ t ++ 0x20 :: hp.encode net ++ ps.encode HKind.via.paramNames, by cases pr <;> rfl, ?_⟩
    have hph := params_hang fl .via ps hps h2 hne h h3 h4 hq
    show Hangs fl (parseVia net) (protoText pr ++ t ++ 0x20 :: hp.encode net ++ ps.encode HKind.via.paramNames ++ openParam w2 name w3 w4 q) _
    unfold parseVia
    have hcost : HKind.via.cost (.via pr t hp ps) = protoCost pr + (t.length + 2) + hp.host.cost + ps.cost HKind.via.paramNames := rfl
    rw [hcost]
    refine Hangs.right (Parses.orErr (sentProtocol_text fl pr hpr)) (n2 := (t.length + 2) + (hp.host.cost + (ps.cost HKind.via.paramNames + openCost name q)))
      (t2 := t ++ (0x20 :: (hp.encode net ++ (ps.encode HKind.via.paramNames ++ openParam w2 name w3 w4 q)))) ?_ (fun y _ => by rw [List.append_assoc]; exact noWs_token ht1 ht2) (by simp)
      (by omega)
    refine Hangs.right (Parses.orErr (Parses.str csSipToken t ht1 ht2)) ?_ (fun y _ => by intro b hb; simp at hb; subst hb; decide +kernel) rfl (Nat.le_refl _)
    refine Hangs.right (Parses.orErr (Parses.lws [0x20] (Or.inr ⟨[0x20], by simp, by simp [AllWsp], Or.inl rfl⟩)))
      (t2 := hp.encode net ++ (ps.encode HKind.via.paramNames ++ openParam w2 name w3 w4 q)) (n2 := hp.host.cost + (ps.cost HKind.via.paramNames + openCost name q)) ?_
      (fun y _ => by rw [List.append_assoc]; exact hostport_encode_noWs net hp hh _) rfl (by omega)
    refine Hangs.right (Parses.orErr (hostport_roundtrip net hnet fl hp hh)) (Hangs.left hph) ?_ rfl (Nat.le_refl _)
    intro y _
    obtain ⟨z, hz⟩ := params_semi HKind.via.paramNames ps w2 name w3 w4 q y
    rw [hz]
    exact ⟨fun b hb => by simp at hb; subst hb; decide +kernel, by simp⟩
  | contentType t u ps =>
    obtain ⟨rfl, g1, g2, g3, g4, g5⟩ := hv
    refine ⟨_, rfl, ?_⟩
    have hph := params_hang fl .contentType ps g5 h2 hne h h3 h4 hq
    have hcost : HKind.contentType.cost (.contentType t u ps) = t.length + 2 + (u.length + 2) + ps.cost HKind.contentType.paramNames := rfl
    rw [hcost]
    show Hangs fl parseContentType _ _
    unfold parseContentType
    refine Hangs.right (Parses.orErr (Parses.str csSipToken t g1 g2)) (n2 := u.length + 2 + (ps.cost HKind.contentType.paramNames + openCost name q))
      (t2 := [0x2f] ++ (u ++ (ps.encode HKind.contentType.paramNames ++ openParam w2 name w3 w4 q))) ?_
      (fun y _ => by intro b hb; simp at hb; subst hb; decide +kernel) (by simp) (by omega)
    refine Hangs.right (Parses.orErr (Parses.mark0 0x2f (by decide +kernel))) (n2 := u.length + 2 + (ps.cost HKind.contentType.paramNames + openCost name q)) ?_
      (fun y _ => by rw [List.append_assoc]; exact noWs_token g3 g4) rfl (by omega)
    refine Hangs.right (Parses.orErr (Parses.str csSipToken u g3 g4)) (Hangs.left hph) ?_ rfl (Nat.le_refl _)
    intro y _
    obtain ⟨z, hz⟩ := params_semi HKind.contentType.paramNames ps w2 name w3 w4 q y
    rw [hz]
    intro b hb; simp at hb; subst hb; decide +kernel
  | contentDisposition t ps =>
    obtain ⟨rfl, g1, g2, g5⟩ := hv
    refine ⟨_, rfl, ?_⟩
    have hph := params_hang fl .contentDisposition ps g5 h2 hne h h3 h4 hq
    have hcost : HKind.contentDisposition.cost (.contentDisposition t ps) = t.length + 2 + ps.cost HKind.contentDisposition.paramNames := rfl
    rw [hcost]
    show Hangs fl parseContentDisposition _ _
    unfold parseContentDisposition
    refine Hangs.right (Parses.orErr (Parses.str csSipToken t g1 g2)) (Hangs.left hph) ?_ (List.append_assoc _ _ _) (by omega)
    intro y _
    obtain ⟨z, hz⟩ := params_semi HKind.contentDisposition.paramNames ps w2 name w3 w4 q y
    rw [hz]
    intro b hb; simp at hb; subst hb; decide +kernel
  | star => exact htp.elim
  | callId => exact htp.elim
  | cseq => exact htp.elim
  | rack => exact htp.elim
  | num => exact htp.elim

/-- **C30, converse of `msg_hangs_only_at_quote` for parameters** a message with a start line, any headers, and a header that is parsed (its name in any letter case or
compact form, white space around the colon) with any value that can be written and carries parameters, behind which there is one more parameter, of any name, whose value
is a quoted string followed, before its closing quote, by a bare LF or a CR without LF: the message parser does not return, whatever stands behind -/
theorem msg_hangs_at_param (net : Net) (hnet : net.Ok) (fl : Flags) (s : StartLine) (ts : Bytes) (ns : Nat) (its : List HItem) (th : Bytes) (nh : Nat)
    (h1 : Parses fl (StartLine.parse net) ts s ns AnyText) (h2 : HeaderLines net fl (msgNeed fl) its th nh)
    (k : HKind) (v : HVal) (hv : k.WF net fl v) (htp : v.TakesParams fl) (hk : k ≠ .pAssertedIdentity) (hn : msgNeed fl k = true) (w w1 w2 : Bytes) (hw : IsNameOf k w)
    (hw1 : AllWsp w1) (hw2 : IsSWS w2) (w3 name w4 w5 q o : Bytes) (h3 : IsSWS w3) (hne : name ≠ []) (hname : InSet csSipToken name) (h4 : IsSWS w4) (h5 : IsSWS w5)
    (hq : QText q o) :
    ∃ t, k.encodeValue net fl v = .ok t ∧ ∀ (y : Bytes) (c : Ctx), Stuck y → c.flags = fl →
      c.rest = ts ++ (th ++ (w ++ (w1 ++ 0x3a :: w2) ++ (t ++ 0x3b :: (w3 ++ (name ++ w4 ++ 0x3d :: w5 ++ 0x22 :: q))))) ++ y → c.pos ≤ c.src.length →
      c.used + (ns + (nh + (18 + (k.cost v + (8 + (name.length + 2) + (2 + q.length)))))) < c.cap → Msg.parse net c = .hang := by
  obtain ⟨t, ht, hh⟩ := paramValue_hangs net hnet fl k v hv htp hk h3 hne hname h4 h5 hq
  refine ⟨t, ht, fun y c hy hfl hr hp hu => ?_⟩
  have hkc : k ≠ .contentLength := by
    rintro rfl
    cases v <;> first | exact htp.elim | skip
    · exact absurd hv.1 (by decide)
    · cases hv.1
    · cases hv.1
    · cases hv.1
  refine msg_hangs_at_value net fl s ts ns its th nh h1 h2 k hn w w1 w2 _ _ hw hw1 hw2 hh ?_ c y hfl hr hy hp hu
  intro y
  rw [List.append_assoc]
  exact value_noWs net fl k v hv hkc t ht _

/-- a parameter behind another one, white space around its `=` -/
theorem msg_hang_param_samples :
    Msg.parse Net.sample (fresh (str "SIP/2.0 200 OK\r\nContent-Type: a/b;x=1;d = \"a\rb\"\r\n\r\n") 500 {}) = .hang ∧
    ((Msg.parse Net.sample (fresh (str "SIP/2.0 200 OK\r\nContent-Type: a/b;x=1;d = \"a b\"\r\n\r\n") 500 {})).all fun _ => true) = true := by
  refine ⟨?_, by decide +kernel⟩
  have hwf : StartLine.WF Net.sample {} (.status .v20 200 (str "OK")) := ⟨trivial, by decide, fun h => by cases h⟩
  obtain ⟨t, e, hst⟩ := startLine_roundtrip Net.sample Net.sample_ok {} _ hwf
  have et : t = str "SIP/2.0 200 OK\r\n" := by
    have : StartLine.encode Net.sample {} (.status .v20 200 (str "OK")) = .ok (str "SIP/2.0 200 OK\r\n") := by decide +kernel
    rw [this] at e; exact (Out.ok.inj e).symm
  subst et
  have hps : Params.WF HKind.contentType.paramNames true ⟨[], [⟨str "x", some (.token (str "1"))⟩]⟩ := by
    refine ⟨?_, Or.inl rfl, by simp, by simp⟩
    intro p hp
    simp only [List.mem_singleton] at hp
    subst hp
    exact ⟨⟨by decide, by decide +kernel, fun v hv => by cases hv; exact ⟨by decide, by decide +kernel⟩⟩, fun _ => by decide +kernel⟩
  have hv : HKind.contentType.WF Net.sample {} (.contentType (str "a") (str "b") ⟨[], [⟨str "x", some (.token (str "1"))⟩]⟩) :=
    ⟨rfl, by decide, by decide +kernel, by decide, by decide +kernel, hps⟩
  have hsp : IsSWS (str " ") := Or.inr ⟨str " ", by decide, by unfold AllWsp; decide +kernel, Or.inl rfl⟩
  obtain ⟨t, ht, hh⟩ := msg_hangs_at_param Net.sample Net.sample_ok {} _ _ _ _ _ _ hst .nil .contentType _ hv trivial (by decide) (by decide) (str "Content-Type") [] (str " ")
    (Or.inl (by decide +kernel)) (by simp [AllWsp]) hsp [] (str "d") (str " ") (str " ") (str "a") (str "a") (Or.inl rfl) (by decide) (by decide +kernel) hsp hsp
    (.lit _ _ _ (by decide +kernel) .nil)
  have : t = str "a/b;x=1" := by
    have e : HKind.contentType.encodeValue Net.sample {} (.contentType (str "a") (str "b") ⟨[], [⟨str "x", some (.token (str "1"))⟩]⟩) = .ok (str "a/b;x=1") := by decide +kernel
    rw [e] at ht; exact (Out.ok.inj ht).symm
  subst this
  exact hh (str "\rb\"\r\n\r\n") _ (Or.inr ⟨_, rfl, by decide +kernel⟩) rfl (by decide +kernel) (by decide +kernel) (by decide +kernel)

end Sip
