import Verif.Props.MessageRound
import Verif.Props.BodySafe
import Verif.Props.MessageFacts
/-!
# C38: parse, encode, parse for whole messages
-/
namespace Sip

/-- the accepted headers that are written so that they can be read: values without the exceptions of `HVal.Clean`, `HVal.Boxed` and the context of a global telephone number;
headers kept as text with a value and, if the name is not stored, with a name in the table the encoder uses -/
structure Hdrs.Clean (fl : Flags) (hs : Hdrs) : Prop where
  value : ∀ k, ∀ v ∈ hs.common k, v.Clean ∧ v.Boxed fl ∧ v.norm = v
  raw : ∀ h ∈ hs.raw, (h.name = none → (headerInfoName h.id).isSome) ∧ ∃ b ∈ h.value.head?, isLwsChar b = false

theorem valuesOf_mem {k : HKind} {v : HVal} {l : List HItem} (h : v ∈ valuesOf k l) : .parsed k v ∈ l := by
  unfold valuesOf at h
  obtain ⟨it, h1, h2⟩ := List.mem_filterMap.1 h
  cases it with
  | parsed j w =>
    simp only [Option.ite_none_right_eq_some, Option.some.injEq] at h2
    obtain ⟨rfl, rfl⟩ := h2; exact h1
  | raw r => cases h2

theorem rawsOf_mem {r : RawHeader} {l : List HItem} (h : r ∈ rawsOf l) : .raw r ∈ l := by
  unfold rawsOf at h
  obtain ⟨it, h1, h2⟩ := List.mem_filterMap.1 h
  cases it with
  | parsed j w => cases h2
  | raw r' => simp at h2; subst h2; exact h1

theorem ofItems_mem {k : HKind} {v : HVal} {l : List HItem} (h : v ∈ (Hdrs.ofItems l).common k) : .parsed k v ∈ l := by
  obtain ⟨h1, h2, _⟩ := setHeaders_spec l
  by_cases hk : rfcList k
  · rw [h1 k hk] at h; exact valuesOf_mem h
  · rw [h2 k hk] at h
    exact valuesOf_mem (List.mem_of_getLast? (Option.mem_toList.1 h))

theorem Hdrs.Clean.wf {net : Net} {fl : Flags} {need : HKind → Bool} {its : List HItem} (he : fl.encodeUriNoEscape = false) (h : (Hdrs.ofItems its).Clean fl)
    (ho : ∀ it ∈ its, it.Ok net fl need) : (Hdrs.ofItems its).WF net fl need where
  value := fun k v hv => by
    obtain ⟨c1, c2, c3⟩ := h.value k v hv
    have := (ho _ (ofItems_mem hv)).2.wf he c1
    rw [c3] at this
    exact ⟨this, c2⟩
  single := fun k hk => by
    rw [(setHeaders_spec its).2.1 k hk]
    cases (valuesOf k its).getLast? <;> simp
  needed := fun k hk => by
    obtain ⟨v, hv⟩ := List.exists_mem_of_ne_nil _ hk
    exact (ho _ (ofItems_mem hv)).1
  raw := fun r hr => by
    obtain ⟨c1, b, c2, c3⟩ := h.raw r hr
    rw [(setHeaders_spec its).2.2] at hr
    obtain ⟨⟨n, hn⟩, o2, o3⟩ := ho _ (rawsOf_mem hr)
    have hb : r.value.head? = some b := c2
    refine ⟨⟨?_, ⟨fun e => ?_, o3⟩, fun x hx => ?_⟩, o2⟩
    · rcases hn with ⟨s, h1, h2, h3⟩ | ⟨h1, h2, h3, h4, h5⟩
      · exact Or.inl ⟨h3, c1 h3, (headerTable_facts _ h1).1⟩
      · exact Or.inr ⟨h1, n, h2, h3, h4, h5⟩
    · rw [e] at hb; cases hb
    · have hx' : r.value.head? = some x := hx
      rw [hb] at hx'; cases hx'; exact c3

/-- the accepted messages that are written so that they can be read; the exceptions are shown to be needed by the theorems named -/
structure Msg.Clean (net : Net) (fl : Flags) (m : Msg) : Prop where
  /-- `request_tel_lost` -/
  start : m.start.Clean
  hdrs : m.hdrs.Clean fl
  /-- `part_type_lost` -/
  parts : ∀ b ∈ m.bodies, b.hdrs.Clean fl ∧ b.hdrs.common .contentType = []
  /-- `single_part_rejected` -/
  multi : ∀ ct ∈ m.hdrs.common .contentType, ct.isMultipart = true → 2 ≤ m.bodies.length ∧ ct.boundary? ≠ some none ∧ 0x0d ∉ m.separator
  /-- `length_wrong` -/
  length : m.LengthOk net fl
  size : (m.bodyText net fl).length < 4294967296
  /-- `length_twice` -/
  table : fl.Knows .contentLength

theorem part_length (net : Net) (fl : Flags) (bd : Bytes) (bs : List Body) (b : Body) (h : b ∈ bs) : (writeStr b.body).length ≤ (partsText net fl bd bs).length := by
  induction bs with
  | nil => cases h
  | cons x bs ih =>
    simp only [partsText, partText, List.length_append]
    rcases List.mem_cons.1 h with rfl | h
    · omega
    · have := ih h; omega

theorem bodyNeed_length (fl : Flags) : bodyNeed fl .contentLength = true := by
  unfold bodyNeed
  cases fl.parseSipHeaderAsRaw <;> simp

theorem fixLength_wf {net : Net} {fl : Flags} {b : Body} (h : b.hdrs.WF net fl (bodyNeed fl)) (hl : (writeStr b.body).length < 4294967296) : b.fixLength.hdrs.WF net fl (bodyNeed fl) := by
  unfold Body.fixLength
  split
  · exact h
  · exact Hdrs.WF.put h .contentLength (.num (writeStr b.body).length) (length_wf net fl _ hl).1 trivial (bodyNeed_length fl)

theorem bodyNeed_only {fl : Flags} {k : HKind} (h : bodyNeed fl k = true) : k = .contentType ∨ k = .contentLength ∨ k = .contentDisposition := by
  unfold bodyNeed at h
  split at h <;> simp at h
  · rcases h with (h | h) | h
    · exact Or.inl h
    · exact Or.inr (Or.inl h)
    · exact Or.inr (Or.inr h)
  · exact Or.inr h

/-- an accepted message without the exceptions of `Msg.Clean` can be written and read back -/
theorem Msg.Read.wf {net : Net} {c : Ctx} {m : Msg} (h : m.Read net c) (hs : MsgHalts net c) (he : c.flags.encodeUriNoEscape = false)
    (hr : c.flags.encodeReasonPhraseNoEscape = false) (hcl : m.Clean net c.flags) : m.WF net c.flags := by
  obtain ⟨h1, its, h2, h3, hpt, c1, e1, e2, _, _, hb⟩ := h
  have hw : m.hdrs.WF net c.flags (msgNeed c.flags) := by
    have := hcl.hdrs
    rw [h2] at this ⊢
    exact this.wf he (h3 hs)
  have htab : m.multi = true → c.flags.Knows .contentType := fun hm => by
    have hlen : 1 < m.bodies.length := by simpa [Msg.multi] using hm
    have hne : m.hdrs.common .contentType ≠ [] := by
      rcases hb with ⟨_, hb⟩ | ⟨ct, l, hct, _⟩ | ⟨ct, l, v, hct, _⟩
      · rw [hb] at hlen; cases hlen
      · rw [hct]; simp
      · rw [hct]; simp
    have hn := hw.needed .contentType hne
    unfold msgNeed at hn
    split at hn
    · rename_i hf; exact Or.inl hf
    · exact Or.inr (by simpa using hn)
  refine ⟨⟨hcl.table, htab⟩, h1.wf hcl.start he hr, hw, ?_, ?_, ?_, ?_, hcl.size⟩
  · intro b hbs
    rcases hb with ⟨_, hb⟩ | ⟨ct, l, hct, hm, hb⟩ | ⟨ct, l, v, hct, hm, hv, hb⟩
    · rw [hbs] at hb; cases hb
    · rcases hb with hb | ⟨n, k, g1, g2, g3, g4⟩
      · rw [hbs] at hb; cases hb
      · rw [hbs] at g4; cases g4
        refine ⟨?_, by rw [hct]; simp⟩
        have : 0 < (c1.rest.take k).length := by rw [List.length_take]; omega
        intro e
        have e' : c1.rest.take k = [] := e
        rw [e'] at this; cases this
    · have := (hcl.multi ct (by rw [hct]; simp) hm).1
      rw [hbs] at this; simp at this
  · intro ct hct
    cases hm : ct.isMultipart with
    | true => have := (hcl.multi ct hct hm).1; symm; simp only [Msg.multi, decide_eq_true_eq]; omega
    | false =>
      symm
      rcases hb with ⟨hb, _⟩ | ⟨ct', l, hct', hm', hb⟩ | ⟨ct', l, v, hct', hm', hv, hb⟩
      · rw [hb] at hct; cases hct
      · rcases hb with hb | ⟨n, k, g1, g2, g3, g4⟩
        · simp [Msg.multi, hb]
        · simp [Msg.multi, g4]
      · exfalso
        have hl := hw.single .contentType notList_type.1
        rw [hct'] at hl hct
        have : l = [] := by cases l with | nil => rfl | cons _ _ => simp at hl
        subst this
        simp at hct; subst hct
        rw [hm] at hm'; cases hm'
  · intro hm
    have hlen : 1 < m.bodies.length := by simpa [Msg.multi] using hm
    rcases hb with ⟨_, hb⟩ | ⟨ct, l, hct, hm, hb⟩ | ⟨ct, l, v, hct, hmm, hv, hb⟩
    · rw [hb] at hlen; cases hlen
    · rcases hb with hb | ⟨n, k, g1, g2, g3, g4⟩
      · rw [hb] at hlen; cases hlen
      · rw [g4] at hlen; simp at hlen
    · obtain ⟨_, q2, q3⟩ := hcl.multi ct (by rw [hct]; simp) hmm
      have hl := hw.single .contentType notList_type.1
      rw [hct] at hl
      have : l = [] := by cases l with | nil => rfl | cons _ _ => simp at hl
      subst this
      refine ⟨?_, q3, fun x hx => ?_⟩
      · have hv1 := (hw.value .contentType ct (by rw [hct]; simp)).1
        cases ct with
        | contentType t s ps =>
          obtain ⟨_, _, _, _, _, hps⟩ := hv1
          cases hf : c.flags.setSipContentTypeKnownParam with
          | true => rfl
          | false =>
            have := hps.off (by simp [HKind.paramFlag, hf])
            simp [HVal.boundary?, this] at hv
        | _ => cases hmm
      · rw [hct] at hx; simp at hx; subst hx; exact q2
  · intro hm b hbm
    have hlen : 1 < m.bodies.length := by simpa [Msg.multi] using hm
    rcases hb with ⟨_, hb⟩ | ⟨ct, l, hct, hm, hb⟩ | ⟨ct, l, v, hct, hmm, hv, hb⟩
    · rw [hb] at hlen; cases hlen
    · rcases hb with hb | ⟨n, k, g1, g2, g3, g4⟩
      · rw [hb] at hlen; cases hlen
      · rw [g4] at hlen; simp at hlen
    · obtain ⟨its', g1, g2, g3⟩ := hb b hbm
      obtain ⟨p1, p2⟩ := hcl.parts b hbm
      rw [e1] at g2
      rw [e2] at g2
      have hbw : b.hdrs.WF net c.flags (bodyNeed c.flags) := by
        rw [g1] at p1 ⊢
        have hns : NoStray c.src := by
          rcases hs with h | h
          · exact h
          · exact absurd (hpt (by rw [hct]; simp [hmm])) h.1
        exact p1.wf he (g2 hns)
      have hsz : (writeStr b.body).length < 4294967296 := by
        have h4 := hcl.size
        have h5 : m.bodyText net c.flags = partsText net c.flags m.separator m.bodies := by
          unfold Msg.bodyText
          match hbb : m.bodies with
          | [] => rw [hbb] at hlen; cases hlen
          | [_] => rw [hbb] at hlen; simp at hlen
          | _ :: _ :: _ => rfl
        rw [h5] at h4
        have := part_length net c.flags m.separator m.bodies b hbm
        omega
      refine ⟨fixLength_wf hbw hsz, fun k hk => ?_, ?_⟩
      · rcases bodyNeed_only (hbw.needed k hk) with h | h
        · subst h; exact absurd p2 hk
        · exact h
      · have hsep : m.separator = boundaryText v := by
          unfold Msg.separator
          rw [hct]
          simp only [hv]
          cases v with
          | none => exact absurd hv (hcl.multi ct (by rw [hct]; simp) hmm).2.1
          | some v => rfl
        rw [hsep]
        cases hbb : b.body with
        | none =>
          rintro ⟨x, z, hx⟩
          have := congrArg List.length hx
          simp [writeStr] at this
        | some t => exact (g3 t hbb).2 (by simp)

/-- **C38** parse, encode, parse: a message that was read (from an input without stray CR or LF, and with the exceptions of `Msg.Clean`) is written as a text that is read as
`Msg.sent`: the same start line, the same headers with the Content-Length of the body that is written, and the same bodies -/
theorem msg_idempotent (net : Net) (hnet : net.Ok) (c c' : Ctx) (m : Msg) (hc : Inv c) (hs : MsgHalts net c) (he : c.flags.encodeUriNoEscape = false)
    (hr : c.flags.encodeReasonPhraseNoEscape = false) (h : Msg.parse net c = .ok (some m, c')) (hcl : m.Clean net c.flags) (buf : Bytes) :
    ∃ t m' k n, k ≤ 87 ∧ Parses c.flags (m.encode net buf) [] (buf ++ (t ++ m.tail net c.flags), m') k AnyText ∧
      Parses c.flags (Msg.parse net) t (m.sent net c.flags) n (m.Follow net c.flags) :=
  msg_roundtrip net hnet c.flags m (((msg_safe net hnet c hc).some _ _ h).1.wf hs he hr hcl) hcl.length buf

/-! ## The hypotheses are met -/

/-- a test for values without any exception -/
def cleanVal : HVal → Bool
  | .num _ => true
  | .contentType _ _ ps => ps.params.isEmpty && ps.known.all (fun o => o.all (fun p => match p.value with | some (.token _) => true | _ => false))
  | .addr a ps => a.display.isNone && a.nameAddr && (match a.uri with | .sip u => u.headers.isEmpty | .tel _ => false) && ps.params.isEmpty && ps.known.isEmpty
  | _ => false

theorem cleanVal_ok (fl : Flags) (v : HVal) (h : cleanVal v = true) : v.Clean ∧ v.Boxed fl ∧ v.norm = v := by
  cases v with
  | num n => exact ⟨trivial, trivial, rfl⟩
  | contentType t s ps =>
    refine ⟨?_, trivial, rfl⟩
    simp only [cleanVal, Bool.and_eq_true, List.isEmpty_iff, List.all_eq_true] at h
    refine ⟨fun p hp => (by rw [h.1] at hp; cases hp), fun o ho p hp v hv => ?_⟩
    have h2 := h.2 o ho
    have hp' : o = some p := hp
    subst hp'
    simp only [Option.all_some] at h2
    have hv' : p.value = some v := hv
    rw [hv'] at h2
    cases v with
    | token x => trivial
    | _ => cases h2
  | addr a ps =>
    simp only [cleanVal, Bool.and_eq_true, List.isEmpty_iff, Option.isNone_iff_eq_none] at h
    obtain ⟨⟨⟨⟨h1, h2⟩, h3⟩, h4⟩, h5⟩ := h
    have hu : ∃ u, a.uri = .sip u ∧ u.headers = [] := by
      cases hu : a.uri with
      | sip u => rw [hu] at h3; exact ⟨u, rfl, by simpa using h3⟩
      | tel u => rw [hu] at h3; cases h3
    obtain ⟨u, hu, hh⟩ := hu
    refine ⟨⟨⟨fun d hd => (by rw [h1] at hd; cases hd), fun u' hu' g hg => ?_⟩, ⟨fun p hp => (by rw [h4] at hp; cases hp), fun o ho => (by rw [h5] at ho; cases ho)⟩,
      fun d hd => (by rw [h1] at hd; cases hd)⟩, fun hb => (by rw [h2] at hb; cases hb), ?_⟩
    · rw [hu] at hu'; cases hu'; rw [hh] at hg; cases hg
    · simp only [HVal.norm, Addr.norm]; rw [hu]; simp only [AddrUri.norm]; rw [← hu]
  | _ => cases h

def cleanHdrs (hs : Hdrs) : Bool :=
  msgOrder.all (fun k => (hs.common k).all cleanVal) && hs.raw.all (fun h => (h.name.isSome || (headerInfoName h.id).isSome) && h.value.head?.any (fun b => !isLwsChar b))

theorem cleanHdrs_ok (fl : Flags) (hs : Hdrs) (h : cleanHdrs hs = true) : hs.Clean fl := by
  simp only [cleanHdrs, Bool.and_eq_true, List.all_eq_true, Bool.or_eq_true] at h
  refine ⟨fun k v hv => cleanVal_ok fl v (h.1 k (by cases k <;> decide) v hv), fun r hr => ?_⟩
  obtain ⟨h1, h2⟩ := h.2 r hr
  refine ⟨fun hn => by rw [hn] at h1; simpa using h1, ?_⟩
  cases hb : r.value.head? with
  | none => rw [hb] at h2; cases h2
  | some b => rw [hb] at h2; exact ⟨b, rfl, by simpa using h2⟩

def cleanMsg (net : Net) (fl : Flags) (m : Msg) : Bool :=
  (match m.start with | .request _ a _ => (match a.uri with | .sip u => u.headers.isEmpty | .tel _ => false) | .status .. => true) &&
  cleanHdrs m.hdrs && m.bodies.all (fun b => cleanHdrs b.hdrs && (b.hdrs.common .contentType).isEmpty) &&
  (m.hdrs.common .contentType).all (fun ct => !ct.isMultipart || (decide (2 ≤ m.bodies.length) && ct.boundary? != some none && !m.separator.contains 0x0d)) &&
  (m.bodies.isEmpty || decide ((encodeUInt m.oldLength).length ≤ (encodeUInt (m.bodyText net fl).length).length)) && decide ((m.bodyText net fl).length < 4294967296) && !fl.noParse.contains HKind.contentLength.index

theorem cleanMsg_ok (net : Net) (fl : Flags) (m : Msg) (h : cleanMsg net fl m = true) : m.Clean net fl := by
  simp only [cleanMsg, Bool.and_eq_true] at h
  obtain ⟨⟨⟨⟨⟨⟨h1, h2⟩, h3⟩, h4⟩, h5⟩, h6⟩, h7⟩ := h
  refine ⟨?_, cleanHdrs_ok fl _ h2, fun b hb => ?_, fun ct hct hm => ?_, fun hb => ?_, by simpa using h6, Or.inr (by simpa using h7)⟩
  · cases hst : m.start with
    | request a b d =>
      rw [hst] at h1
      simp only at h1
      cases hu : b.uri with
      | sip u =>
        rw [hu] at h1
        have : u.headers = [] := by simpa using h1
        exact ⟨u, hu, fun g hg => by rw [this] at hg; cases hg⟩
      | tel u => rw [hu] at h1; cases h1
    | status a b d => trivial
  · have := List.all_eq_true.1 h3 b hb
    simp only [Bool.and_eq_true, List.isEmpty_iff] at this
    exact ⟨cleanHdrs_ok fl _ this.1, this.2⟩
  · have := List.all_eq_true.1 h4 ct hct
    rw [hm] at this
    simpa [and_assoc] using this
  · rcases Bool.or_eq_true _ _ |>.mp h5 with h | h
    · exact absurd (List.isEmpty_iff.1 h) hb
    · simpa using h

/-- a response with two parts meets all hypotheses of `msg_idempotent` -/
theorem msg_idempotent_sample : MsgHalts Net.sample { src := partsSample, cap := 100000 } ∧ ∃ m c', Msg.parse Net.sample { src := partsSample, cap := 100000 } = .ok (some m, c') ∧ m.Clean Net.sample {} ∧
    m.bodies.map Body.body = [some (str "ab"), some (str "c")] := by
  refine ⟨partsSample_halts, ?_⟩
  obtain ⟨m, c', h1, h2⟩ := Out.some_of_all (o := Msg.parse Net.sample { src := partsSample, cap := 100000 })
    (fun m _ => cleanMsg Net.sample {} m && m.bodies.map Body.body == [some (str "ab"), some (str "c")]) (by decide +kernel)
  simp only [Bool.and_eq_true, beq_iff_eq] at h2
  exact ⟨m, c', h1, cleanMsg_ok _ _ _ h2.1, h2.2⟩

end Sip
