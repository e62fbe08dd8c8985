import Verif.Props.ContentLen
/-!
# C38: a message is written and read back

`Msg.sent` is the message a receiver gets when `m` is encoded: the headers with the Content-Length of the body that is written, for several bodies also with
Content-Type and MIME-Version, and the bodies.
-/
namespace Sip

/-! ## What is written -/

/-- the parts of a multipart body are separated by this text -/
def Msg.separator (m : Msg) : Bytes :=
  match m.hdrs.common .contentType with
  | [] => defaultBoundary
  | v :: _ => match v.boundary? with
    | some (some b) => b.bytes
    | _ => defaultBoundary

/-- the part of the text of a part behind the delimiter -/
def partText (net : Net) (fl : Flags) (b : Body) : Bytes := b.fixLength.hdrs.text net fl bodyOrder ++ [0x0d, 0x0a] ++ writeStr b.body

/-- the text of a multipart body -/
def partsText (net : Net) (fl : Flags) (boundary : Bytes) : List Body → Bytes
  | [] => str "--" ++ boundary ++ str "--"
  | b :: bs => str "--" ++ boundary ++ [0x0d, 0x0a] ++ partText net fl b ++ [0x0d, 0x0a] ++ partsText net fl boundary bs

/-- the text behind the headers -/
def Msg.bodyText (net : Net) (fl : Flags) (m : Msg) : Bytes :=
  match m.bodies with
  | [] => []
  | [b] => writeStr b.body
  | bs => partsText net fl m.separator bs

/-- the Content-Type that is written -/
def Msg.typeVals (m : Msg) : List HVal :=
  if m.multi then
    match m.hdrs.common .contentType with
    | [] => [(HVal.contentType (str "multipart") (str "mixed") {}).setBoundary defaultBoundary]
    | v :: vs => match v.boundary? with
      | some _ => v :: vs
      | none => [v.setBoundary defaultBoundary]
  else m.hdrs.common .contentType

/-- the Content-Length that is written: that of the body, if there is one -/
def Msg.lengthVals (net : Net) (fl : Flags) (m : Msg) : List HVal :=
  if m.bodies = [] then (match m.hdrs.common .contentLength with | [] => [.num 0] | v => v) else [.num (m.bodyText net fl).length]

/-- the raw headers that are added -/
def Msg.addedRaw (m : Msg) : List RawHeader := if m.multi ∧ ¬ (m.hdrs.raw.any (fun h => h.id = 24)) then [⟨24, none, str "1.0"⟩] else []

/-- the headers that are written -/
def Msg.written (net : Net) (fl : Flags) (m : Msg) : Hdrs where
  common := fun k => if k = .contentLength then m.lengthVals net fl else if k = .contentType then m.typeVals else m.hdrs.common k
  raw := m.hdrs.raw ++ m.addedRaw

/-- the bodies a receiver gets: a single body without headers of its own, several bodies with their headers -/
def Msg.sentBodies (fl : Flags) (m : Msg) : List Body :=
  match m.bodies with
  | [] => []
  | [b] => [{ body := b.body }]
  | bs => bs.map (fun b => ⟨b.fixLength.hdrs.canon fl, some (writeStr b.body)⟩)

/-- the message a receiver gets -/
def Msg.sent (net : Net) (fl : Flags) (m : Msg) : Msg := ⟨m.start.canon, (m.written net fl).canon fl, m.sentBodies fl⟩

/-! ## Which messages -/

/-- a part of a multipart body that can be written and read back -/
structure Body.WF (net : Net) (fl : Flags) (boundary : Bytes) (b : Body) : Prop where
  hdrs : b.fixLength.hdrs.WF net fl (bodyNeed fl)
  order : ∀ k, b.hdrs.common k ≠ [] → k = .contentLength ∨ k = .contentDisposition
  text : ¬ (0x0d :: 0x0a :: 0x2d :: 0x2d :: boundary) <:+: writeStr b.body

/-- the entry of the header in the table of headers does not say that it is kept as text; with `ParseSipHeaderAsRaw` the headers that describe the body are parsed
anyway -/
def Flags.Knows (fl : Flags) (k : HKind) : Prop := fl.parseSipHeaderAsRaw = true ∨ k.index ∉ fl.noParse

/-- messages that can be written and read back -/
structure Msg.WF (net : Net) (fl : Flags) (m : Msg) : Prop where
  /-- `Encode` writes a Content-Length, and a Content-Type if there are several bodies: they are to be parsed -/
  table : fl.Knows .contentLength ∧ (m.multi = true → fl.Knows .contentType)
  start : m.start.WF net fl
  hdrs : m.hdrs.WF net fl (msgNeed fl)
  /-- a body that is not empty is read back only with a Content-Type -/
  single : ∀ b, m.bodies = [b] → writeStr b.body ≠ [] ∧ m.hdrs.common .contentType ≠ []
  /-- the Content-Type says whether there are several bodies -/
  type : ∀ ct ∈ m.hdrs.common .contentType, ct.isMultipart = m.multi
  /-- several bodies need a boundary that can be read back -/
  boundary : m.multi = true → fl.setSipContentTypeKnownParam = true ∧ 0x0d ∉ m.separator ∧ ∀ ct ∈ m.hdrs.common .contentType, ct.boundary? ≠ some none
  parts : m.multi = true → ∀ b ∈ m.bodies, b.WF net fl m.separator
  size : (m.bodyText net fl).length < 4294967296

/-- the Content-Length the message had -/
def Msg.oldLength (m : Msg) : Nat :=
  match m.hdrs.common .contentLength with
  | .num n :: _ => n
  | _ => 0

/-- the Content-Length the message had does not have more digits than the size of the body (`patched_correct`) -/
def Msg.LengthOk (net : Net) (fl : Flags) (m : Msg) : Prop :=
  m.bodies ≠ [] → (encodeUInt m.oldLength).length ≤ (encodeUInt (m.bodyText net fl).length).length

/-! ## Header lists -/

theorem Flags.Knows.need {fl : Flags} {k : HKind} (h : fl.Knows k) (hk : k = .contentType ∨ k = .contentLength) : msgNeed fl k = true := by
  unfold msgNeed
  rcases h with h | h
  · rw [if_pos h]; rcases hk with rfl | rfl <;> rfl
  · split
    · rcases hk with rfl | rfl <;> rfl
    · simp [h]

theorem notList_type : ¬ rfcList .contentType ∧ ¬ rfcList .contentLength := ⟨by unfold rfcList; simp, by unfold rfcList; simp⟩

/-- a single valued header is replaced -/
def Hdrs.put (hs : Hdrs) (k : HKind) (v : HVal) : Hdrs := { hs with common := fun j => if j = k then [v] else hs.common j }

theorem set_put (hs : Hdrs) (k : HKind) (v : HVal) (hk : ¬ rfcList k) : hs.set (.parsed k v) = hs.put k v := by
  unfold Hdrs.set Hdrs.put
  have : k.multi = false := by
    cases h : k.multi with
    | false => rfl
    | true => exact absurd ((header_multi k).1 h) hk
  simp [this]

theorem Hdrs.WF.put {net : Net} {fl : Flags} {need : HKind → Bool} {hs : Hdrs} (h : hs.WF net fl need) (k : HKind) (v : HVal) (hv : k.WF net fl v) (hb : v.Boxed fl)
    (hn : need k = true) : (hs.put k v).WF net fl need where
  value := fun j w hw => by
    by_cases hj : j = k
    · subst hj; simp [Hdrs.put] at hw; subst hw; exact ⟨hv, hb⟩
    · simp [Hdrs.put, hj] at hw; exact h.value j w hw
  single := fun j hj => by
    by_cases hjk : j = k
    · simp [Hdrs.put, hjk]
    · simp [Hdrs.put, hjk]; exact h.single j hj
  needed := fun j hj => by
    by_cases hjk : j = k
    · subst hjk; exact hn
    · simp [Hdrs.put, hjk] at hj; exact h.needed j hj
  raw := h.raw

theorem length_wf (net : Net) (fl : Flags) (n : Nat) (hn : n < 4294967296) : HKind.contentLength.WF net fl (.num n) ∧ (HVal.num n).Boxed fl :=
  ⟨⟨4294967296, rfl, hn⟩, trivial⟩

/-- what Hdrs.encode writes when the Content-Length has its place in the order -/
theorem hdrs_encode (net : Net) (hnet : net.Ok) (fl : Flags) (need : HKind → Bool) (hs : Hdrs) (hw : hs.WF net fl need) (pre post : List HKind)
    (h1 : .contentLength ∉ pre) (h2 : .contentLength ∉ post) (buf : Bytes) :
    hs.encode net fl (pre ++ .contentLength :: post) buf = .ok (buf ++ hs.text net fl (pre ++ .contentLength :: post),
      if hs.common .contentLength ≠ [] then (buf ++ pre.flatMap (hs.line net fl) ++ hs.line net fl .contentLength).length - 2 else 0) := by
  unfold Hdrs.encode
  rw [encodeCommons_append, encodeCommons_eq net hnet fl need hs hw pre buf 0 h1]
  simp only [Out.ok_bind, encodeCommons]
  rw [(encodeCommon_eq net hnet fl need hs hw .contentLength _ _).1]
  simp only [Out.ok_bind, true_and]
  rw [encodeCommons_eq net hnet fl need hs hw post _ _ h2]
  simp only [Out.ok_bind, Hdrs.text, List.flatMap_append, List.flatMap_cons, List.append_assoc]

/-- the line of Content-Length -/
theorem length_line (net : Net) (fl : Flags) (hs : Hdrs) (n : Nat) (h : hs.common .contentLength = [.num n]) :
    hs.line net fl .contentLength = str "Content-Length: " ++ column n ++ [0x0d, 0x0a] := by
  unfold Hdrs.line
  rw [h]
  simp only [ite_self, encodeValues, HKind.encodeValue]
  rw [column_eq]
  rw [header_title]
  rfl

theorem line_put (net : Net) (fl : Flags) (hs : Hdrs) (k j : HKind) (v : HVal) (h : j ≠ k) : (hs.put k v).line net fl j = hs.line net fl j := by
  unfold Hdrs.line Hdrs.put
  simp [h]

theorem lines_put (net : Net) (fl : Flags) (hs : Hdrs) (k : HKind) (v : HVal) (ks : List HKind) (h : k ∉ ks) :
    ks.flatMap ((hs.put k v).line net fl) = ks.flatMap (hs.line net fl) := by
  induction ks with
  | nil => rfl
  | cons j ks ih =>
    rw [List.flatMap_cons, List.flatMap_cons, line_put net fl hs k j v (fun e => h (by simp [e])), ih (fun e => h (by simp [e]))]

theorem msgOrder_split : msgOrder = [.via, .route, .contact, .from, .to, .callId] ++ .contentLength ::
    [.cseq, .recordRoute, .contentType, .maxForwards, .contentDisposition, .expires, .path, .serviceRoute, .rseq, .rack, .pAssertedIdentity] := rfl

/-- **C27, C38** headers, an empty line and a body of `s` bytes are written and the Content-Length is corrected: the text differs from that of headers with the
Content-Length `s` only in the columns of that number -/
theorem patch_text (net : Net) (hnet : net.Ok) (fl : Flags) (hs : Hdrs) (hw : hs.WF net fl (msgNeed fl)) (n : Nat) (hn : n < 4294967296) (hl : hs.common .contentLength = [.num n])
    (buf z : Bytes) (s : Nat) (hs2 : s < 4294967296) :
    ∃ e x y, hs.encode net fl msgOrder buf = .ok (buf ++ hs.text net fl msgOrder, e) ∧
      (hs.put .contentLength (.num s)).text net fl msgOrder = x ++ str "Content-Length: " ++ column s ++ ([0x0d, 0x0a] ++ y) ∧
      hs.text net fl msgOrder = x ++ str "Content-Length: " ++ column n ++ ([0x0d, 0x0a] ++ y) ∧
      patch (buf ++ hs.text net fl msgOrder ++ z) e (encodeUInt s) = .ok (buf ++ (x ++ str "Content-Length: " ++ patched n s ++ ([0x0d, 0x0a] ++ y)) ++ z) := by
  have henc := hdrs_encode net hnet fl (msgNeed fl) hs hw [.via, .route, .contact, .from, .to, .callId]
    [.cseq, .recordRoute, .contentType, .maxForwards, .contentDisposition, .expires, .path, .serviceRoute, .rseq, .rack, .pAssertedIdentity] (by simp) (by simp) buf
  rw [← msgOrder_split, if_pos (by rw [hl]; simp)] at henc
  have hline := length_line net fl hs n hl
  generalize hpre : ([.via, .route, .contact, .from, .to, .callId] : List HKind) = pre at *
  generalize hpost : ([.cseq, .recordRoute, .contentType, .maxForwards, .contentDisposition, .expires, .path, .serviceRoute, .rseq, .rack, .pAssertedIdentity] : List HKind) = post at *
  have hpre' : HKind.contentLength ∉ pre := by rw [← hpre]; simp
  have hpost' : HKind.contentLength ∉ post := by rw [← hpost]; simp
  have hsplit : msgOrder = pre ++ .contentLength :: post := by rw [← hpre, ← hpost]; rfl
  have htext : hs.text net fl msgOrder = pre.flatMap (hs.line net fl) ++ str "Content-Length: " ++ column n ++
      ([0x0d, 0x0a] ++ (post.flatMap (hs.line net fl) ++ encodeRawHeaders hs.raw)) := by
    unfold Hdrs.text
    rw [hsplit, List.flatMap_append, List.flatMap_cons, hline]
    simp
  refine ⟨_, pre.flatMap (hs.line net fl), post.flatMap (hs.line net fl) ++ encodeRawHeaders hs.raw, henc, ?_, htext, ?_⟩
  · unfold Hdrs.text
    rw [hsplit, List.flatMap_append, List.flatMap_cons, lines_put net fl hs _ _ pre hpre', lines_put net fl hs _ _ post hpost',
      length_line net fl (hs.put .contentLength (.num s)) s (by simp [Hdrs.put])]
    simp [Hdrs.put]
  · have e1 : (buf ++ pre.flatMap (hs.line net fl) ++ hs.line net fl .contentLength).length - 2 =
        (buf ++ (pre.flatMap (hs.line net fl) ++ str "Content-Length: ") ++ column n).length := by
      rw [hline]; simp; omega
    rw [e1, htext]
    have := patch_column n s hn hs2 (buf ++ (pre.flatMap (hs.line net fl) ++ str "Content-Length: ")) (([0x0d, 0x0a] ++ post.flatMap (hs.line net fl) ++ encodeRawHeaders hs.raw) ++ z)
    simp only [List.append_assoc] at this ⊢
    exact this

/-! ## Parts -/

theorem encodeParts_eq (net : Net) (hnet : net.Ok) (fl : Flags) (boundary : Bytes) (bs : List Body) : ∀ buf : Bytes,
    (∀ b ∈ bs, b.fixLength.hdrs.WF net fl (bodyNeed fl)) → encodeParts net fl boundary bs buf = .ok (buf ++ partsText net fl boundary bs) := by
  induction bs with
  | nil => intro buf _; simp [encodeParts, partsText]
  | cons b bs ih =>
    intro buf h
    have h1 := hdrs_encode net hnet fl (bodyNeed fl) b.fixLength.hdrs (h b (by simp)) [] [.contentDisposition] (by simp) (by simp) (buf ++ str "--" ++ boundary ++ [0x0d, 0x0a])
    unfold encodeParts Body.encode
    rw [show bodyOrder = [] ++ .contentLength :: [.contentDisposition] from rfl, h1]
    simp only [Out.ok_bind]
    rw [ih _ (fun x hx => h x (by simp [hx]))]
    simp only [partsText, partText, List.append_assoc]
    rfl

theorem fixLength_common (b : Body) (k : HKind) : b.fixLength.hdrs.common k ≠ [] → b.hdrs.common k ≠ [] := by
  unfold Body.fixLength
  split
  · exact id
  · rename_i h
    intro h2
    by_cases hk : k = .contentLength
    · subst hk; rw [h]; simp
    · simpa [hk] using h2

theorem parts_text (net : Net) (hnet : net.Ok) (fl : Flags) (boundary : Bytes) (bs : List Body) (h : ∀ b ∈ bs, b.WF net fl boundary) :
    ∃ t n, partsText net fl boundary bs = 0x2d :: 0x2d :: boundary ++ t ∧
      PartsText net fl boundary (bs.map (fun b => ⟨b.fixLength.hdrs.canon fl, some (writeStr b.body)⟩)) t n := by
  have e : str "--" = [0x2d, 0x2d] := by decide
  induction bs with
  | nil => exact ⟨[0x2d, 0x2d], 0, by simp [partsText, e], .close⟩
  | cons b bs ih =>
    obtain ⟨t, n, e1, h1⟩ := ih (fun x hx => h x (by simp [hx]))
    have hb := h b (by simp)
    have h2 := PartsText.part (pad := []) (boundary := boundary) (by intro x hx; cases hx) (hdrs_lines net hnet fl (bodyNeed fl) b.fixLength.hdrs hb.hdrs bodyOrder) hb.text h1
    have h3 := ofItems_canon net fl (bodyNeed fl) b.fixLength.hdrs hb.hdrs bodyOrder (by decide) (fun k hk => by
      rcases hb.order k (fixLength_common b k hk) with rfl | rfl <;> simp [bodyOrder]) []
    simp only [List.map_nil, List.append_nil] at h3
    rw [h3] at h2
    refine ⟨_, _, ?_, h2⟩
    rw [partsText, e1, partText, e]
    simp

/-! ## The steps of the encoder -/

theorem length_num {net : Net} {fl : Flags} {need : HKind → Bool} {hs : Hdrs} (hw : hs.WF net fl need) :
    hs.common .contentLength = [] ∨ ∃ n, hs.common .contentLength = [.num n] ∧ n < 4294967296 := by
  cases hc : hs.common .contentLength with
  | nil => exact Or.inl rfl
  | cons v vs =>
    right
    have h1 := hw.single .contentLength notList_type.2
    have hv := (hw.value .contentLength v (by rw [hc]; simp)).1
    rw [hc] at h1
    have : vs = [] := by
      cases vs with
      | nil => rfl
      | cons a l => simp at h1
    subst this
    cases v with
    | num n => obtain ⟨s, hs', hn⟩ := hv; cases hs'; exact ⟨n, rfl, hn⟩
    | addr a ps => exact absurd hv.1 (by decide)
    | star => cases hv
    | via pr t h' ps => cases hv.1
    | callId a b => cases hv.1
    | cseq n m => cases hv.1
    | rack r n m => cases hv.1
    | contentType t s ps => cases hv.1
    | contentDisposition t ps => cases hv.1

theorem type_val {net : Net} {fl : Flags} {need : HKind → Bool} {hs : Hdrs} (hw : hs.WF net fl need) :
    hs.common .contentType = [] ∨ ∃ t s ps, hs.common .contentType = [.contentType t s ps] ∧ HKind.contentType.WF net fl (.contentType t s ps) := by
  cases hc : hs.common .contentType with
  | nil => exact Or.inl rfl
  | cons v vs =>
    right
    have h1 := hw.single .contentType notList_type.1
    have hv := (hw.value .contentType v (by rw [hc]; simp)).1
    rw [hc] at h1
    have : vs = [] := by
      cases vs with
      | nil => rfl
      | cons a l => simp at h1
    subst this
    cases v with
    | contentType t s ps => exact ⟨t, s, ps, rfl, hv⟩
    | num n => obtain ⟨s, hs', _⟩ := hv; cases hs'
    | addr a ps => exact absurd hv.1 (by decide)
    | star => cases hv
    | via pr t h' ps => cases hv.1
    | callId a b => cases hv.1
    | cseq n m => cases hv.1
    | rack r n m => cases hv.1
    | contentDisposition t ps => cases hv.1

theorem qtext_plain (t : Bytes) (h : ∀ v ∈ t, isSipQuotedText v = true ∧ isLwsChar v = false) : QText t t := by
  induction t with
  | nil => exact .nil
  | cons v t ih => exact .lit v t t (h v (by simp)) (ih (fun x hx => h x (by simp [hx])))

theorem boundary_wf (net : Net) (fl : Flags) (t s : Bytes) (ps : Params) (hf : fl.setSipContentTypeKnownParam = true)
    (h : HKind.contentType.WF net fl (.contentType t s ps)) : HKind.contentType.WF net fl ((HVal.contentType t s ps).setBoundary defaultBoundary) := by
  obtain ⟨h0, h1, h2, h3, h4, h5⟩ := h
  refine ⟨h0, h1, h2, h3, h4, ⟨h5.params, Or.inr ⟨rfl, some ⟨str "boundary", some (.quoted defaultBoundary)⟩, by simp, by simp⟩, fun hx => ?_, ?_⟩⟩
  · simp only [HKind.paramFlag, hf] at hx; cases hx
  · intro x hx p hp
    have : x = (str "boundary", some ⟨str "boundary", some (.quoted defaultBoundary)⟩) := by
      simpa [HKind.paramNames] using hx
    subst this
    simp at hp; subst hp
    refine ⟨by decide +kernel, fun v hv => ?_⟩
    simp at hv; subst hv
    show QText defaultBoundary defaultBoundary
    exact qtext_plain _ (by decide +kernel)

theorem put_common (hs : Hdrs) (k j : HKind) (v : HVal) : (hs.put k v).common j = if j = k then [v] else hs.common j := rfl

/-- the message with a Content-Length -/
theorem addLength_step (net : Net) (fl : Flags) (m : Msg) (hk : fl.Knows .contentLength) (hw : m.hdrs.WF net fl (msgNeed fl)) :
    ∃ k hs, k ≤ 8 ∧ Parses fl m.addLength [] { m with hdrs := hs } k AnyText ∧ hs.WF net fl (msgNeed fl) ∧ hs.raw = m.hdrs.raw ∧ hs.common .contentLength = [.num m.oldLength] ∧
      m.oldLength < 4294967296 ∧
      ∀ j, j ≠ .contentLength → hs.common j = m.hdrs.common j := by
  unfold Msg.addLength
  rcases length_num hw with hc | ⟨n, hc, hn⟩
  · have ho : m.oldLength = 0 := by unfold Msg.oldLength; rw [hc]
    refine ⟨8, m.hdrs.put .contentLength (.num 0), by omega, ?_, hw.put _ _ (length_wf net fl 0 (by decide)).1 trivial (hk.need (Or.inr rfl)), rfl, by simp [put_common, ho], by rw [ho]; decide,
      fun j hj => by simp [put_common, hj]⟩
    rw [hc]
    simp only
    rw [set_put _ _ _ notList_type.2]
    exact Parses.bind' (F := AnyText) (t1 := []) (Parses.orErr (Parses.alloc 8)) (Parses.pure _) (fun _ _ => trivial) rfl rfl
  · have ho : m.oldLength = n := by unfold Msg.oldLength; rw [hc]
    refine ⟨0, m.hdrs, by omega, ?_, hw, rfl, by rw [ho, hc], by rw [ho]; exact hn, fun _ _ => rfl⟩
    rw [hc]
    exact Parses.pure _

theorem type_wf (net : Net) (fl : Flags) : HKind.contentType.WF net fl (.contentType (str "multipart") (str "mixed") {}) :=
  ⟨rfl, by decide, by unfold InSet; decide +kernel, by decide, by unfold InSet; decide +kernel, ⟨fun p hp => (by cases hp), Or.inl rfl, fun _ => rfl, fun x hx => (by simp at hx)⟩⟩

theorem allocBoundary_step (fl : Flags) (t s : Bytes) (ps : Params) : ∃ k, k ≤ 53 ∧ Parses fl (allocBoundary (.contentType t s ps)) [] () k AnyText := by
  have h1 : Parses fl (do P.orErr (P.alloc 8); let _ ← P.orErr (P.orErr (P.allocStr (str "boundary"))); let _ ← P.orErr (P.orErr (P.allocStr defaultBoundary)); pure () : P Unit) [] () 51 AnyText := by
    refine Parses.bind' (F := AnyText) (t1 := []) (n1 := 8) (n2 := 43) (Parses.orErr (Parses.alloc 8)) ?_ (fun _ _ => trivial) rfl rfl
    refine Parses.bind' (F := AnyText) (t1 := []) (n2 := 33) (Parses.orErr (Parses.orErr (Parses.allocStr _))) ?_ (fun _ _ => trivial) rfl rfl
    exact Parses.bind' (F := AnyText) (t1 := []) (n2 := 0) (Parses.orErr (Parses.orErr (Parses.allocStr _))) (Parses.pure _) (fun _ _ => trivial) rfl rfl
  unfold allocBoundary
  by_cases hk : ps.known = []
  · refine ⟨53, by omega, ?_⟩
    simp only [hk, if_true]
    exact Parses.bind' (F := AnyText) (t1 := []) (n1 := 2) (n2 := 51) (Parses.orErr (Parses.alloc 2)) h1 (fun _ _ => trivial) rfl rfl
  · refine ⟨51, by omega, ?_⟩
    simp only [hk, if_false]
    exact Parses.bind' (F := AnyText) (t1 := []) (n1 := 0) (n2 := 51) (Parses.pure _) h1 (fun _ _ => trivial) rfl rfl

/-- the message with a boundary -/
theorem boundary_step (net : Net) (fl : Flags) (m : Msg) (hkt : m.multi = true → fl.Knows .contentType) (hw : m.hdrs.WF net fl (msgNeed fl)) (hf : m.multi = true → fl.setSipContentTypeKnownParam = true)
    (hb : m.multi = true → ∀ ct ∈ m.hdrs.common .contentType, ct.boundary? ≠ some none) :
    ∃ k hs bd, k ≤ 79 ∧ Parses fl m.findBoundary [] (bd, { m with hdrs := hs }) k AnyText ∧ (m.multi = true → bd = m.separator) ∧ hs.WF net fl (msgNeed fl) ∧
      hs.raw = m.hdrs.raw ∧ hs.common .contentType = m.typeVals ∧ ∀ j, j ≠ .contentType → hs.common j = m.hdrs.common j := by
  unfold Msg.findBoundary Msg.typeVals
  cases hm : m.multi with
  | false => exact ⟨0, m.hdrs, [], by omega, Parses.pure _, fun h => (by cases h), hw, rfl, rfl, fun _ _ => rfl⟩
  | true =>
    simp only [if_true]
    unfold Msg.boundary Msg.separator
    have hset : ∀ t s ps, (HVal.contentType t s ps).setBoundary defaultBoundary = .contentType t s { ps with known := [some ⟨str "boundary", some (.quoted defaultBoundary)⟩] } := fun _ _ _ => rfl
    rcases type_val hw with hc | ⟨t, s, ps, hc, hv⟩
    · obtain ⟨k, hk, ha⟩ := allocBoundary_step fl (str "multipart") (str "mixed") {}
      refine ⟨8 + (11 + (7 + k)), m.hdrs.put .contentType ((HVal.contentType (str "multipart") (str "mixed") {}).setBoundary defaultBoundary), defaultBoundary, by omega, ?_, ?_,
        hw.put _ _ (boundary_wf net fl _ _ _ (hf hm) (type_wf net fl)) trivial ((hkt hm).need (Or.inl rfl)), rfl, ?_, ?_⟩
      · unfold Msg.addType
        rw [hc]
        simp only
        refine Parses.orErr ?_
        refine Parses.bind' (F := AnyText) (t1 := []) (n1 := 8 + (11 + 7)) (n2 := k) (v1 := (HVal.contentType (str "multipart") (str "mixed") {},
          { m with hdrs := m.hdrs.put .contentType (HVal.contentType (str "multipart") (str "mixed") {}) })) ?_ ?_ (fun _ _ => trivial) rfl (by omega)
        · rw [set_put _ _ _ notList_type.1]
          refine Parses.bind' (F := AnyText) (t1 := []) (Parses.orErr (Parses.alloc 8)) ?_ (fun _ _ => trivial) rfl rfl
          refine Parses.bind' (F := AnyText) (t1 := []) (n1 := 11) (n2 := 7) (Parses.orErr (Parses.allocStr _)) ?_ (fun _ _ => trivial) rfl rfl
          exact Parses.bind' (F := AnyText) (t1 := []) (n1 := 7) (n2 := 0) (Parses.orErr (Parses.allocStr _)) (Parses.pure _) (fun _ _ => trivial) rfl rfl
        · simp only [HVal.boundary?]
          refine Parses.bind' (F := AnyText) (t1 := []) (n1 := k) (n2 := 0) (Parses.orErr ha) ?_ (fun _ _ => trivial) rfl rfl
          rw [set_put _ _ _ notList_type.1]
          have : (m.hdrs.put .contentType (HVal.contentType (str "multipart") (str "mixed") {})).put .contentType ((HVal.contentType (str "multipart") (str "mixed") {}).setBoundary defaultBoundary) =
              m.hdrs.put .contentType ((HVal.contentType (str "multipart") (str "mixed") {}).setBoundary defaultBoundary) := by
            unfold Hdrs.put; simp only [Hdrs.mk.injEq, and_true]; funext j; by_cases hj : j = .contentType <;> simp [hj]
          rw [this]
          exact Parses.pure _
      · intro _; rw [hc]
      · rw [hc]; simp [put_common]
      · intro j hj; simp [put_common, hj]
    · have hadd : m.addType = pure (HVal.contentType t s ps, m) := by unfold Msg.addType; rw [hc]
      rw [hadd]
      simp only [P.pure_bind]
      cases hbd : (HVal.contentType t s ps).boundary? with
      | some x =>
        cases x with
        | none => exact absurd hbd (hb hm _ (by rw [hc]; simp))
        | some b =>
          refine ⟨0, m.hdrs, b.bytes, by omega, Parses.orErr (Parses.pure _), fun _ => ?_, hw, rfl, ?_, fun _ _ => rfl⟩
          · rw [hc]; simp only [hbd]
          · rw [hc]; simp only [hbd]
      | none =>
        obtain ⟨k, hk, ha⟩ := allocBoundary_step fl t s ps
        refine ⟨k, m.hdrs.put .contentType ((HVal.contentType t s ps).setBoundary defaultBoundary), defaultBoundary, by omega, ?_, fun _ => ?_,
          hw.put _ _ (boundary_wf net fl _ _ _ (hf hm) hv) trivial ((hkt hm).need (Or.inl rfl)), rfl, ?_, ?_⟩
        · refine Parses.orErr ?_
          simp only
          refine Parses.bind' (F := AnyText) (t1 := []) (n1 := k) (n2 := 0) (Parses.orErr ha) ?_ (fun _ _ => trivial) rfl rfl
          rw [set_put _ _ _ notList_type.1]
          exact Parses.pure _
        · rw [hc]; simp only [hbd]
        · rw [hc]; simp only [hbd, put_common, if_true]
        · intro j hj; simp [put_common, hj]

/-- the text of the bodies with a given boundary -/
def bodiesText (net : Net) (fl : Flags) (bd : Bytes) : List Body → Bytes
  | [] => []
  | [b] => writeStr b.body
  | bs => partsText net fl bd bs

theorem bodyText_eq (net : Net) (fl : Flags) (m : Msg) (bd : Bytes) (h : m.multi = true → bd = m.separator) : m.bodyText net fl = bodiesText net fl bd m.bodies := by
  unfold Msg.bodyText
  match hb : m.bodies with
  | [] => rfl
  | [b] => rfl
  | b :: b2 :: bs =>
    have hm : m.multi = true := by simp [Msg.multi, hb]
    rw [h hm]; rfl

theorem encodeTail_step (net : Net) (hnet : net.Ok) (fl : Flags) (m : Msg) (n : Nat) (bd buf : Bytes) (hw : m.hdrs.WF net fl (msgNeed fl)) (hl : m.hdrs.common .contentLength = [.num n])
    (hn : n < 4294967296) (hp : m.multi = true → ∀ b ∈ m.bodies, b.fixLength.hdrs.WF net fl (bodyNeed fl)) (s : Nat) (hs : (bodiesText net fl bd m.bodies).length < 4294967296)
    (hs2 : s = if m.bodies = [] then n else (bodiesText net fl bd m.bodies).length) :
    ∃ x y, (m.hdrs.put .contentLength (.num s)).text net fl msgOrder = x ++ str "Content-Length: " ++ column s ++ ([0x0d, 0x0a] ++ y) ∧
      m.encodeTail net fl bd buf = .ok (buf ++ (x ++ str "Content-Length: " ++ (if m.bodies = [] then column n else patched n s) ++ ([0x0d, 0x0a] ++ y)) ++
        ((if m.multi then m.mimeLine else []) ++ [0x0d, 0x0a] ++ bodiesText net fl bd m.bodies)) := by
  have hs3 : s < 4294967296 := by rw [hs2]; split <;> omega
  obtain ⟨e, x, y, h1, h2, h3, h4⟩ := patch_text net hnet fl m.hdrs hw n hn hl buf ((if m.multi then m.mimeLine else []) ++ [0x0d, 0x0a] ++ bodiesText net fl bd m.bodies) s hs3
  refine ⟨x, y, h2, ?_⟩
  unfold Msg.encodeTail
  rw [h1]
  simp only [Out.ok_bind]
  cases hb : m.bodies with
  | nil =>
    simp only [if_true, bodiesText, List.append_nil]
    rw [h3]
    simp
  | cons b bs =>
    rw [if_neg (show ¬ (b :: bs) = [] by simp)]
    have ht : (if m.multi then encodeParts net fl bd (b :: bs) (buf ++ m.hdrs.text net fl msgOrder ++ (if m.multi then m.mimeLine else []) ++ [0x0d, 0x0a])
        else .ok (buf ++ m.hdrs.text net fl msgOrder ++ (if m.multi then m.mimeLine else []) ++ [0x0d, 0x0a] ++ writeStr b.body)) =
        .ok (buf ++ m.hdrs.text net fl msgOrder ++ (if m.multi then m.mimeLine else []) ++ [0x0d, 0x0a] ++ bodiesText net fl bd (b :: bs)) := by
      cases bs with
      | nil =>
        have hm : m.multi = false := by simp [Msg.multi, hb]
        simp [hm, bodiesText]
      | cons b2 bs =>
        have hm : m.multi = true := by simp [Msg.multi, hb]
        simp only [hm, if_true]
        rw [encodeParts_eq net hnet fl bd _ _ (fun z hz => hp hm z (by rw [hb]; exact hz))]
        rfl
    simp only
    rw [ht]
    simp only [Out.ok_bind]
    rw [hb] at h4 hs2
    rw [if_neg (show ¬ (b :: bs) = [] by simp)] at hs2
    have el : (buf ++ m.hdrs.text net fl msgOrder ++ (if m.multi then m.mimeLine else []) ++ [0x0d, 0x0a] ++ bodiesText net fl bd (b :: bs)).length -
        (buf ++ m.hdrs.text net fl msgOrder ++ (if m.multi then m.mimeLine else []) ++ [0x0d, 0x0a]).length = s := by
      rw [hs2]; simp only [List.length_append]; omega
    rw [el]
    have e2 : buf ++ m.hdrs.text net fl msgOrder ++ (if m.multi then m.mimeLine else []) ++ [0x0d, 0x0a] ++ bodiesText net fl bd (b :: bs) =
        buf ++ m.hdrs.text net fl msgOrder ++ ((if m.multi then m.mimeLine else []) ++ [0x0d, 0x0a] ++ bodiesText net fl bd (b :: bs)) := by simp only [List.append_assoc]
    rw [e2, h4]

theorem mime_line (m : Msg) : (if m.multi then m.mimeLine else []) = encodeRawHeaders m.addedRaw := by
  have e : (str "MIME-Version: 1.0\r\n") = encodeRawHeaders [⟨24, none, str "1.0"⟩] := by decide +kernel
  unfold Msg.addedRaw Msg.mimeLine
  cases m.multi <;> cases m.hdrs.raw.any (fun h => h.id = 24)
  · rfl
  · rfl
  · exact e
  · rfl

/-- **C27, C38** what `Encode` writes: the start line, the headers of `Msg.written` - except that the columns of Content-Length are those of `patched` -, an empty line and the
bodies.  It needs at most 87 bytes of the arena. -/
theorem msg_encode (net : Net) (hnet : net.Ok) (fl : Flags) (m : Msg) (h : m.WF net fl) (buf : Bytes) :
    ∃ k ts x y m', k ≤ 87 ∧ m.start.encode net fl = .ok ts ∧
      (m.written net fl).text net fl msgOrder = x ++ str "Content-Length: " ++ column (if m.bodies = [] then m.oldLength else (m.bodyText net fl).length) ++ ([0x0d, 0x0a] ++ y) ∧
      Parses fl (m.encode net buf) [] (buf ++ (ts ++ (x ++ str "Content-Length: " ++ (if m.bodies = [] then column m.oldLength else patched m.oldLength (m.bodyText net fl).length) ++ ([0x0d, 0x0a] ++ y)) ++
        [0x0d, 0x0a] ++ m.bodyText net fl), m') k AnyText := by
  obtain ⟨ts, hts, _⟩ := startLine_roundtrip net hnet fl m.start h.start
  obtain ⟨k1, hs1, hk1, hp1, hw1, hr1, hl1, hn1, ho1⟩ := addLength_step net fl m h.table.1 h.hdrs
  have hsame : ({ m with hdrs := hs1 } : Msg).typeVals = m.typeVals ∧ ({ m with hdrs := hs1 } : Msg).separator = m.separator := by
    have := ho1 .contentType (by decide)
    constructor
    · unfold Msg.typeVals; rw [this]; rfl
    · unfold Msg.separator; rw [this]
  obtain ⟨k2, hs2, bd, hk2, hp2, hbd, hw2, hr2, ht2, ho2⟩ := boundary_step net fl { m with hdrs := hs1 } h.table.2 hw1 (fun hm => (h.boundary hm).1)
    (fun hm => by rw [show ({ m with hdrs := hs1 } : Msg).hdrs.common .contentType = m.hdrs.common .contentType from ho1 _ (by decide)]; exact (h.boundary hm).2.2)
  have hbt := bodyText_eq net fl m bd (fun hm => (hbd hm).trans hsame.2)
  obtain ⟨x, y, e1, e2⟩ := encodeTail_step net hnet fl { m with hdrs := hs2 } m.oldLength bd (buf ++ ts) hw2 (by
      rw [show ({ m with hdrs := hs2 } : Msg).hdrs.common .contentLength = hs1.common .contentLength from ho2 _ (by decide)]; exact hl1) hn1
    (fun hm b hb => (h.parts hm b hb).hdrs) (if m.bodies = [] then m.oldLength else (m.bodyText net fl).length) (by rw [← hbt]; exact h.size) (by rw [← hbt])
  have hmime : (if ({ m with hdrs := hs2 } : Msg).multi then ({ m with hdrs := hs2 } : Msg).mimeLine else []) = encodeRawHeaders m.addedRaw := by
    rw [← mime_line m]
    have : ({ m with hdrs := hs2 } : Msg).mimeLine = m.mimeLine := by unfold Msg.mimeLine; simp only [hr2, hr1]
    rw [this]; rfl
  have hwr : (m.written net fl).text net fl msgOrder = (hs2.put .contentLength (.num (if m.bodies = [] then m.oldLength else (m.bodyText net fl).length))).text net fl msgOrder ++ encodeRawHeaders m.addedRaw := by
    have hcom : (m.written net fl).common = (hs2.put .contentLength (.num (if m.bodies = [] then m.oldLength else (m.bodyText net fl).length))).common := by
      funext j
      unfold Msg.written Hdrs.put
      simp only
      by_cases hj : j = .contentLength
      · simp only [hj, if_true]
        unfold Msg.lengthVals
        by_cases hb : m.bodies = []
        · simp only [hb, if_true]
          rcases length_num h.hdrs with hc | ⟨n, hc, hn⟩
          · unfold Msg.oldLength; rw [hc]
          · unfold Msg.oldLength; rw [hc]
        · simp only [hb, if_false]
      · simp only [hj, if_false]
        by_cases hj2 : j = .contentType
        · simp only [hj2, if_true]; rw [ht2, hsame.1]
        · simp only [hj2, if_false]; rw [ho2 j hj2, ← ho1 j hj]
    have hline : (m.written net fl).line net fl = (hs2.put .contentLength (.num (if m.bodies = [] then m.oldLength else (m.bodyText net fl).length))).line net fl := by
      funext j; unfold Hdrs.line; rw [hcom]
    unfold Hdrs.text
    rw [hline]
    have hraw : (m.written net fl).raw = hs2.raw ++ m.addedRaw := by rw [hr2, hr1]; rfl
    rw [hraw]
    simp [encodeRawHeaders, Hdrs.put]
  rw [hmime] at e2
  refine ⟨k1 + k2, ts, x, y ++ encodeRawHeaders m.addedRaw, { m with hdrs := hs2, bodies := if m.multi then m.bodies.map Body.fixLength else m.bodies }, by omega, hts, by rw [hwr, e1]; simp, ?_⟩
  unfold Msg.encode
  refine Parses.get ?_
  intro c z g1 g2 g3 g4 g5
  rw [g1]
  have key : Parses fl (do
      let m ← m.addLength
      let s ← P.ofOut (m.start.encode net fl)
      let (boundary, m) ← m.findBoundary
      let t ← P.ofOut (m.encodeTail net fl boundary (buf ++ s))
      pure (t, { m with bodies := if m.multi then m.bodies.map Body.fixLength else m.bodies }) : P (Bytes × Msg)) [] (buf ++ (ts ++ (x ++ str "Content-Length: " ++
        (if m.bodies = [] then column m.oldLength else patched m.oldLength (m.bodyText net fl).length) ++ ([0x0d, 0x0a] ++ (y ++ encodeRawHeaders m.addedRaw))) ++ [0x0d, 0x0a] ++ m.bodyText net fl),
        { m with hdrs := hs2, bodies := if m.multi then m.bodies.map Body.fixLength else m.bodies }) (k1 + k2) AnyText := by
    refine Parses.bind' (t1 := []) hp1 ?_ (fun _ _ => trivial) rfl rfl
    simp only [hts]
    refine Parses.bind' (F := AnyText) (t1 := []) (n1 := 0) (n2 := k2) (v1 := ts) (fun _ _ _ _ _ _ _ => rfl) ?_ (fun _ _ => trivial) rfl (by omega)
    refine Parses.bind' (t1 := []) (n2 := 0) hp2 ?_ (fun _ _ => trivial) rfl rfl
    simp only [e2]
    refine Parses.bind' (F := AnyText) (t1 := []) (n1 := 0) (n2 := 0) (fun _ _ _ _ _ _ _ => rfl) ?_ (fun _ _ => trivial) rfl rfl
    have hfin : ∀ a b : Bytes, a = b → ∀ r, Parses fl (pure (a, r) : P (Bytes × Msg)) [] (b, r) 0 AnyText := fun a b hab r => hab ▸ Parses.pure _
    apply hfin
    rw [hbt]
    simp only [List.append_assoc]
    by_cases hb : m.bodies = []
    · simp only [hb, if_true]
    · simp only [hb, if_false]
  exact key c z g1 g2 trivial g4 g5

/-! ## The round trip -/

/-- the Content-Type that is written is one that can be read back; of several bodies it holds the separator -/
theorem typeVals_ok (net : Net) (fl : Flags) (m : Msg) (h : m.WF net fl) :
    (m.typeVals = [] ∧ m.multi = false ∧ m.hdrs.common .contentType = []) ∨ ∃ t s ps, m.typeVals = [.contentType t s ps] ∧ HKind.contentType.WF net fl (.contentType t s ps) ∧
      (HVal.contentType t s ps).isMultipart = m.multi ∧
      (m.multi = true → ∃ v, (HVal.contentType t s ps).boundary? = some (some v) ∧ v.bytes = m.separator) := by
  unfold Msg.typeVals
  cases hm : m.multi with
  | false =>
    rcases type_val h.hdrs with hc | ⟨t, s, ps, hc, hv⟩
    · exact Or.inl ⟨hc, rfl, hc⟩
    · refine Or.inr ⟨t, s, ps, hc, hv, ?_, fun hx => (by cases hx)⟩
      rw [← hm]; exact h.type _ (by rw [hc]; simp)
  | true =>
    right
    obtain ⟨hf, _, hb⟩ := h.boundary hm
    unfold Msg.separator
    rcases type_val h.hdrs with hc | ⟨t, s, ps, hc, hv⟩
    · rw [hc]
      exact ⟨str "multipart", str "mixed", _, rfl, boundary_wf net fl _ _ _ hf (type_wf net fl), by decide +kernel, fun _ => ⟨.quoted defaultBoundary, rfl, rfl⟩⟩
    · have hty := h.type (.contentType t s ps) (by rw [hc]; simp)
      rw [hm] at hty
      rw [hc]
      simp only [if_true]
      cases hbd : (HVal.contentType t s ps).boundary? with
      | some x =>
        cases x with
        | none => exact absurd hbd (hb _ (by rw [hc]; simp))
        | some b => exact ⟨t, s, ps, rfl, hv, hty, fun _ => ⟨b, hbd, rfl⟩⟩
      | none => exact ⟨t, s, _, rfl, boundary_wf net fl t s ps hf hv, hty, fun _ => ⟨.quoted defaultBoundary, rfl, rfl⟩⟩

theorem written_wf (net : Net) (fl : Flags) (m : Msg) (h : m.WF net fl) : (m.written net fl).WF net fl (msgNeed fl) := by
  have hlen : ∃ n, m.lengthVals net fl = [.num n] ∧ n < 4294967296 := by
    unfold Msg.lengthVals
    split
    · rcases length_num h.hdrs with hc | ⟨n, hc, hn⟩
      · rw [hc]; exact ⟨0, rfl, by decide⟩
      · rw [hc]; exact ⟨n, rfl, hn⟩
    · exact ⟨_, rfl, h.size⟩
  obtain ⟨n, hn, hn2⟩ := hlen
  have hty := typeVals_ok net fl m h
  have hc : ∀ k, (m.written net fl).common k = if k = .contentLength then m.lengthVals net fl else if k = .contentType then m.typeVals else m.hdrs.common k := fun _ => rfl
  refine ⟨fun k v hv => ?_, fun k hk => ?_, fun k hk => ?_, fun r hr => ?_⟩
  · rw [hc] at hv
    split at hv
    · rename_i hk; subst hk
      rw [hn] at hv; simp at hv; subst hv; exact length_wf net fl n hn2
    · split at hv
      · rename_i hk; subst hk
        rcases hty with ⟨h1, _⟩ | ⟨t, s, ps, h1, h2, _⟩
        · rw [h1] at hv; cases hv
        · rw [h1] at hv; simp at hv; subst hv; exact ⟨h2, trivial⟩
      · exact h.hdrs.value k v hv
  · rw [hc]
    split
    · rw [hn]; simp
    · split
      · rcases hty with ⟨h1, _⟩ | ⟨t, s, ps, h1, h2, _⟩ <;> rw [h1] <;> simp
      · exact h.hdrs.single k hk
  · rw [hc] at hk
    split at hk
    · rename_i hj; subst hj; exact h.table.1.need (Or.inr rfl)
    · split at hk
      · rename_i hj; subst hj
        by_cases hm : m.multi = true
        · exact (h.table.2 hm).need (Or.inl rfl)
        · refine h.hdrs.needed .contentType ?_
          unfold Msg.typeVals at hk
          rw [if_neg hm] at hk
          exact hk
      · exact h.hdrs.needed k hk
  · have hr2 : r ∈ m.hdrs.raw ++ m.addedRaw := hr
    rcases List.mem_append.1 hr2 with hr | hr
    · exact h.hdrs.raw r hr
    · unfold Msg.addedRaw at hr
      split at hr
      · simp at hr; subst hr
        refine ⟨⟨Or.inl ⟨rfl, by decide, by decide⟩, ⟨by decide, fun i hi => ?_⟩, fun b hb => ?_⟩, fun k hk => ?_⟩
        · have : (0x0a : UInt8) ∈ str "1.0" := List.mem_of_getElem? hi
          exact absurd this (by decide +kernel)
        · have e : (str "1.0").head? = some 0x31 := by decide +kernel
          have hb' : (str "1.0").head? = some b := hb
          rw [e] at hb'; cases hb'; decide +kernel
        have : HKind.ofIndex 24 = none := by decide +kernel
        rw [this] at hk; cases hk
      · cases hr

theorem boundary_canon (fl : Flags) (t s : Bytes) (ps : Params) (v : GenValue) (h : (HVal.contentType t s ps).boundary? = some (some v)) :
    (HKind.contentType.canon fl (.contentType t s ps)).boundary? = some (some v) := by
  unfold HVal.boundary? at h
  simp only at h
  cases hk : ps.known with
  | nil => rw [hk] at h; cases h
  | cons p l =>
    rw [hk] at h
    cases p with
    | none => cases h
    | some p =>
      simp only [Option.some.injEq] at h
      simp [HKind.canon, HVal.boundary?, Params.canon, hk, canonKnown, HKind.paramNames, GenericParam.rename, h]

/-- the text that is read as the message, and behind which the position is left: all but a body that is not multipart -/
def Msg.tail (net : Net) (fl : Flags) (m : Msg) : Bytes := if m.multi then [] else m.bodyText net fl

/-- what may follow: anything behind the body; a message without a body but with a Content-Type must have the Content-Length 0, or nothing may follow -/
def Msg.Follow (net : Net) (fl : Flags) (m : Msg) (y : Bytes) : Prop :=
  m.tail net fl <+: y ∧ (m.bodies = [] → m.hdrs.common .contentType = [] ∨ m.oldLength = 0 ∨ y = [])

/-- **C38** A message is written as a text that is read back as the same message: `Msg.sent`.  The position is left behind the headers, or behind a multipart body. -/
theorem msg_roundtrip (net : Net) (hnet : net.Ok) (fl : Flags) (m : Msg) (h : m.WF net fl) (hl : m.LengthOk net fl) (buf : Bytes) :
    ∃ t m' k n, k ≤ 87 ∧ Parses fl (m.encode net buf) [] (buf ++ (t ++ m.tail net fl), m') k AnyText ∧
      Parses fl (Msg.parse net) t (m.sent net fl) n (m.Follow net fl) := by
  obtain ⟨k, ts, x, y, m', hk, hts, hwr, henc⟩ := msg_encode net hnet fl m h buf
  obtain ⟨ts', hts', hstart⟩ := startLine_roundtrip net hnet fl m.start h.start
  rw [hts] at hts'; cases hts'
  have hww := written_wf net fl m h
  have hlines := hdrs_lines net hnet fl (msgNeed fl) (m.written net fl) hww msgOrder
  have hitems := ofItems_canon net fl (msgNeed fl) (m.written net fl) hww msgOrder (by decide) (fun k _ => by cases k <;> decide) []
  simp only [List.map_nil, List.append_nil] at hitems
  have htext : x ++ str "Content-Length: " ++ (if m.bodies = [] then column m.oldLength else patched m.oldLength (m.bodyText net fl).length) ++ ([0x0d, 0x0a] ++ y) = (m.written net fl).text net fl msgOrder := by
    rw [hwr]
    by_cases hb : m.bodies = []
    · simp only [hb, if_true]
    · simp only [hb, if_false]
      have hn : m.oldLength < 4294967296 := by
        unfold Msg.oldLength
        rcases length_num h.hdrs with hc | ⟨n, hc, hn⟩ <;> rw [hc]
        · decide
        · exact hn
      rw [(patched_correct _ _ hn h.size).2 (hl hb)]
  rw [htext] at henc
  have hty := typeVals_ok net fl m h
  have hcct : (Hdrs.canon fl (m.written net fl)).common .contentType = m.typeVals.map (HKind.contentType.canon fl) := rfl
  have hccl : (Hdrs.canon fl (m.written net fl)).common .contentLength = (m.lengthVals net fl).map (HKind.contentLength.canon fl) := rfl
  have hmp : ∀ t s ps, (HKind.contentType.canon fl (.contentType t s ps)).isMultipart = (HVal.contentType t s ps).isMultipart := fun _ _ _ => rfl
  -- the body
  have hbody : ∃ nb, Parses fl (parseMsgBody net ((m.written net fl).canon fl)) (if m.multi then m.bodyText net fl else []) (m.sentBodies fl) nb (m.Follow net fl) := by
    match hb : m.bodies with
    | [] =>
      have hm : m.multi = false := by simp [Msg.multi, hb]
      have hsb : m.sentBodies fl = [] := by unfold Msg.sentBodies; rw [hb]
      rw [hm, hsb]
      refine ⟨0, (noBody_text net fl ((m.written net fl).canon fl) (fun ct hct => ?_)).mono (fun z hz => ?_)⟩
      · rw [hcct] at hct
        rcases hty with ⟨h1, _⟩ | ⟨t, s, ps, h1, _, h3, _⟩
        · rw [h1] at hct; cases hct
        · rw [h1] at hct; simp at hct; subst hct; rw [hmp, h3, hm]
      · rcases hz.2 hb with h1 | h1 | h1
        · left
          rw [hcct]
          have : m.typeVals = m.hdrs.common .contentType := by unfold Msg.typeVals; rw [hm]; rfl
          rw [this, h1]; rfl
        · right; right
          intro n hn
          rw [hccl] at hn
          unfold Msg.lengthVals at hn
          simp only [hb, if_true] at hn
          rcases length_num h.hdrs with hc | ⟨n', hc, _⟩
          · rw [hc] at hn; simp [HKind.canon] at hn; exact hn.symm
          · rw [hc] at hn
            unfold Msg.oldLength at h1
            rw [hc] at h1
            simp [HKind.canon] at hn
            simp at h1
            rw [← hn, h1]
        · right; left; exact h1
    | [b] =>
      have hm : m.multi = false := by simp [Msg.multi, hb]
      obtain ⟨hne, hct⟩ := h.single b hb
      have hbt : m.bodyText net fl = writeStr b.body := by unfold Msg.bodyText; rw [hb]
      have hsb : m.sentBodies fl = [{ body := some (writeStr b.body) }] := by
        unfold Msg.sentBodies; rw [hb]
        cases hbb : b.body with
        | none => rw [hbb] at hne; exact absurd rfl hne
        | some z => simp [writeStr, hbb]
      rw [hm, hsb]
      rcases hty with ⟨_, _, h1⟩ | ⟨t, s, ps, h1, _, h3, _⟩
      · exact absurd h1 hct
      · refine ⟨_, (singleBody_text net fl ((m.written net fl).canon fl) (writeStr b.body).length (HKind.contentType.canon fl (.contentType t s ps)) [] ?_ ?_ ?_ (writeStr b.body) hne).mono (fun z hz => ?_)⟩
        · rw [hccl]; unfold Msg.lengthVals; rw [if_neg (by rw [hb]; simp), hbt]; rfl
        · rw [hcct, h1]; rfl
        · rw [hmp, h3, hm]
        · obtain ⟨r, hr⟩ := hz.1
          unfold Msg.tail at hr
          rw [hm] at hr
          simp only [Bool.false_eq_true, if_false] at hr
          rw [← hr, hbt]; simp
    | b :: b2 :: bs =>
      have hm : m.multi = true := by simp [Msg.multi, hb]
      obtain ⟨_, hcr, _⟩ := h.boundary hm
      have hbt : m.bodyText net fl = partsText net fl m.separator m.bodies := by unfold Msg.bodyText; rw [hb]
      have hsb : m.sentBodies fl = m.bodies.map (fun b => ⟨b.fixLength.hdrs.canon fl, some (writeStr b.body)⟩) := by unfold Msg.sentBodies; rw [hb]
      obtain ⟨t, n, e1, h1⟩ := parts_text net hnet fl m.separator m.bodies (h.parts hm)
      have hmb := multiBody_text net fl m.separator _ t n hcr h1
      rw [← e1, ← hbt, ← hsb] at hmb
      rw [hm]
      refine ⟨n, ?_⟩
      rcases hty with ⟨_, h2, _⟩ | ⟨t, s, ps, h2, _, h3, h4⟩
      · rw [hm] at h2; cases h2
      · obtain ⟨v, h5, h6⟩ := h4 hm
        have hpm : parseMsgBody net ((m.written net fl).canon fl) = parseMultiBody net m.separator := by
          unfold parseMsgBody
          rw [hcct, h2]
          simp only [List.map_cons, hmp, h3, hm, if_true, boundary_canon fl t s ps v h5, h6]
        rw [hpm]
        exact hmb.mono (fun _ _ => trivial)
  obtain ⟨nb, hbody⟩ := hbody
  have hfin := msg_text net fl m.start.canon ts m.start.cost _ _ _ (m.sentBodies fl) _ nb (m.Follow net fl) hstart hlines (by rw [hitems]; exact hbody)
  rw [hitems] at hfin
  refine ⟨_, m', k, _, hk, ?_, hfin⟩
  have htl : (if m.multi then m.bodyText net fl else []) ++ m.tail net fl = m.bodyText net fl := by unfold Msg.tail; cases m.multi <;> simp
  have : ts ++ (m.written net fl).text net fl msgOrder ++ [0x0d, 0x0a] ++ m.bodyText net fl =
      ts ++ ((m.written net fl).text net fl msgOrder ++ [0x0d, 0x0a] ++ (if m.multi then m.bodyText net fl else [])) ++ m.tail net fl := by
    conv => lhs; rw [← htl]
    simp only [List.append_assoc]
  rw [this] at henc
  exact henc

/-! ## The Content-Length that is written -/

theorem oldLength_lt {net : Net} {fl : Flags} {m : Msg} (h : m.WF net fl) : m.oldLength < 4294967296 := by
  unfold Msg.oldLength
  rcases length_num h.hdrs with hc | ⟨n, hc, hn⟩ <;> rw [hc]
  · decide
  · exact hn

/-- **C27** In front of the empty line and the body `Encode` writes one Content-Length line whose number has the digits of the size of the body as its last digits, and
in front of them whatever leading digits the earlier Content-Length had in those columns.  So the number is the size of the body exactly if the earlier
Content-Length had no more digits than the size has. -/
theorem contentLength_written (net : Net) (hnet : net.Ok) (fl : Flags) (m : Msg) (h : m.WF net fl) (hb : m.bodies ≠ []) (buf : Bytes) :
    ∃ x blanks ds y m' k, k ≤ 87 ∧
      Parses fl (m.encode net buf) [] (buf ++ (x ++ str "Content-Length: " ++ (List.replicate blanks 0x20 ++ ds ++ [0x0d, 0x0a]) ++ y ++ [0x0d, 0x0a] ++ m.bodyText net fl), m') k AnyText ∧
      AllDigits ds ∧ ds ≠ [] ∧
      decVal ds = m.oldLength / 10 ^ (encodeUInt (m.bodyText net fl).length).length * 10 ^ (encodeUInt (m.bodyText net fl).length).length + (m.bodyText net fl).length ∧
      (decVal ds = (m.bodyText net fl).length ↔ m.oldLength < 10 ^ (encodeUInt (m.bodyText net fl).length).length) := by
  obtain ⟨k, ts, x, y, m', hk, _, _, henc⟩ := msg_encode net hnet fl m h buf
  obtain ⟨j, ds, e1, h1, h2, h3⟩ := patched_digits m.oldLength (m.bodyText net fl).length (oldLength_lt h) h.size
  rw [if_neg hb, e1] at henc
  refine ⟨ts ++ x, j, ds, y, m', k, hk, ?_, h1, h2, h3, ?_⟩
  · have e : buf ++ (ts ++ (x ++ str "Content-Length: " ++ (List.replicate j 0x20 ++ ds) ++ ([0x0d, 0x0a] ++ y)) ++ [0x0d, 0x0a] ++ m.bodyText net fl) =
      buf ++ ((ts ++ x) ++ str "Content-Length: " ++ (List.replicate j 0x20 ++ ds ++ [0x0d, 0x0a]) ++ y ++ [0x0d, 0x0a] ++ m.bodyText net fl) := by simp only [List.append_assoc]
    rw [e] at henc; exact henc
  · rw [h3]
    have hp : 0 < 10 ^ (encodeUInt (m.bodyText net fl).length).length := Nat.pow_pos (by decide)
    constructor
    · intro h4
      have h5 : m.oldLength / 10 ^ (encodeUInt (m.bodyText net fl).length).length * 10 ^ (encodeUInt (m.bodyText net fl).length).length = 0 := by omega
      rcases Nat.mul_eq_zero.1 h5 with h6 | h6
      · exact (Nat.div_eq_zero_iff.1 h6).resolve_left (by omega)
      · omega
    · intro h4
      rw [Nat.div_eq_of_lt h4]; omega

/-- **C27** A message without a body keeps the Content-Length it has, or gets 0 if it has none. -/
theorem contentLength_noBody (net : Net) (hnet : net.Ok) (fl : Flags) (m : Msg) (h : m.WF net fl) (hb : m.bodies = []) (buf : Bytes) :
    ∃ x blanks y m' k, k ≤ 87 ∧
      Parses fl (m.encode net buf) [] (buf ++ (x ++ str "Content-Length: " ++ (List.replicate blanks 0x20 ++ encodeUInt m.oldLength ++ [0x0d, 0x0a]) ++ y ++ [0x0d, 0x0a]), m') k AnyText := by
  obtain ⟨k, ts, x, y, m', hk, _, _, henc⟩ := msg_encode net hnet fl m h buf
  rw [if_pos hb, show m.bodyText net fl = [] by unfold Msg.bodyText; rw [hb]] at henc
  refine ⟨ts ++ x, 10 - (encodeUInt m.oldLength).length, y, m', k, hk, ?_⟩
  have e : buf ++ (ts ++ (x ++ str "Content-Length: " ++ column m.oldLength ++ ([0x0d, 0x0a] ++ y)) ++ [0x0d, 0x0a] ++ []) =
      buf ++ ((ts ++ x) ++ str "Content-Length: " ++ (List.replicate (10 - (encodeUInt m.oldLength).length) 0x20 ++ encodeUInt m.oldLength ++ [0x0d, 0x0a]) ++ y ++ [0x0d, 0x0a]) := by
    unfold column; simp only [List.append_assoc, List.append_nil]
  rw [e] at henc; exact henc

end Sip
