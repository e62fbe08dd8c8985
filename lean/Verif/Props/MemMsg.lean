import Verif.Props.MemAddr
import Verif.Props.ReadsMsg
/-! # Memory used by headers, header lines and messages -/
namespace Sip
namespace MemAt
variable {F C : Int} {c : Ctx}

/-- from what `GSafe` says -/
theorem ofGSafe {α : Type} {l : Bool} {m B : Nat} {Q : α → Ctx → Prop} {p : P α} {k : Nat} {b : Int} (hs : Inv c → GSafe False False l m B Q p c)
    (he : ∀ v c', Inv c → p c = .ok (Option.some v, c') → c.pos + k ≤ c'.pos) (hm : m ≤ 9) (hF : 9 ≤ F := by omega) (hb : (B : Int) - (9 - m) * k ≤ b := by omega)
    (hC : (B : Int) ≤ C := by omega) : MemAt F (fun _ => b) C p c where
  some hc v c' e := by
    refine ⟨(hs hc).step _ _ e, ?_⟩
    have h1 := ((hs hc).some _ _ e).2
    have h2 := he v c' hc e
    have h3 : (9 - (m : Int)) * k ≤ (9 - m) * ((c'.pos : Int) - c.pos) := Int.mul_le_mul_of_nonneg_left (by omega) (by omega)
    have h4 : (9 - (m : Int)) * ((c'.pos : Int) - c.pos) = 9 * ((c'.pos : Int) - c.pos) - m * ((c'.pos : Int) - c.pos) := Int.sub_mul _ _ _
    have h5 : ((m * (c'.pos - c.pos) : Nat) : Int) = m * ((c'.pos : Int) - c.pos) := by rw [Int.natCast_mul, Int.ofNat_sub (by omega)]
    omega
  none hc c' e := by
    refine ⟨(hs hc).step _ _ e, ?_⟩
    have h1 := (hs hc).nmem _ e
    have h2 := hc.pos
    have h5 : ((m * (c.src.length - c.pos) : Nat) : Int) = m * ((c.src.length : Int) - c.pos) := by rw [Int.natCast_mul, Int.ofNat_sub (by omega)]
    have h6 : (m : Int) * ((c.src.length : Int) - c.pos) ≤ F * ((c.src.length : Int) - c.pos) := Int.mul_le_mul_of_nonneg_right (by omega) (by omega)
    omega

/-! ## Headers -/

theorem method_pos {v : Method} {t y : Bytes} (h : Gram.method v t y) : 1 ≤ t.length := by
  cases h with
  | known i n y hi h hy =>
    have hn := List.mem_of_getElem? h
    have : ∀ n ∈ sipMethodName.drop 1, 1 ≤ n.length := by decide +kernel
    refine this t ?_
    rw [List.mem_drop_iff_getElem]
    obtain ⟨hl, hh⟩ := List.getElem?_eq_some_iff.1 h
    exact ⟨i - 1, by omega, by rw [← hh]; congr 1; omega⟩
  | token t y h => exact List.length_pos_iff.2 h.2.1

theorem method : MemAt 9 (fun _ => -6) 2 P.method c :=
  ofSafe (k := 1) (fun hc => method_safe c hc) (eats ReadsAt.method (fun v t y h => method_pos h)) (by omega)

theorem otherProtocol : MemAt 9 (fun _ => -26) 6 parseOtherProtocol c := by
  unfold parseOtherProtocol
  refine seq (orErr alloc) (fun _ c1 _ _ _ => seq (orErr (str _)) (fun n c2 _ _ _ => ?_))
  refine seq (orErr (mark 0x2f)) (fun _ c3 _ _ _ => seq (orErr (str _)) (fun v c4 _ _ _ => ?_))
  exact seq (orErr (mark 0x2f)) (fun _ c5 _ _ _ => pure)

theorem protocol : MemAt 9 (fun _ => -26) 6 parseSentProtocol c := by
  unfold parseSentProtocol
  refine get (ite (fun h => ?_) (fun _ => otherProtocol))
  have hl : c.pos + 7 ≤ c.src.length := by
    have h8 : 8 ≤ c.rest.length := by
      unfold isSip20 at h
      split at h
      · rename_i heq; rw [heq]; simp
      · cases h
    unfold Ctx.rest at h8
    rw [List.length_drop] at h8
    omega
  exact seq (skip (n := 7) hl) (fun _ c1 _ _ _ => seq (orErr (mark 0x2f)) (fun _ c2 _ _ _ => pure))

/-- the value of a header; its struct is not part of this -/
theorem value {net : Net} (hnet : net.Ok) (k : HKind) : MemAt 9 (fun _ => 9 - (k.structSize : Int)) (22 - (k.structSize : Int)) (k.parseValue net) c := by
  have key : ∀ c1, MemAt 9 (fun _ => 9 - (k.structSize : Int)) (22 - (k.structSize : Int)) (k.parseValue net) c1 := ?_
  · exact key c
  have hp : ∀ (k : HKind) (c : Ctx), MemAt 9 (fun _ => 2 * (k.paramNames.length : Int)) (2 * (k.paramNames.length : Int) + 1) k.params c := fun k c => params k
  have addrParams : ∀ (k : HKind) (S : Nat) (c : Ctx), S ≤ 18 → S + 2 * k.paramNames.length ≤ 24 → MemAt 9 (fun _ => 9 - (S : Int)) (22 - S) (parseAddrParams net k) c := by
    intro k S c h h2
    unfold parseAddrParams
    exact seq (orErr (addr hnet false)) (fun a c1 _ _ _ => seq (hp k c1) (fun ps c2 _ _ _ => pure))
  have routeParams : ∀ (k : HKind) (c : Ctx), k.paramNames = [] → MemAt 9 (fun _ => 9 - ((16 : Nat) : Int)) (22 - ((16 : Nat) : Int)) (parseRouteParams net k) c := by
    intro k c h
    unfold parseRouteParams
    have h3 := hp k
    rw [h] at h3
    exact seq (orErr (nameAddr hnet)) (fun a c1 _ _ _ => seq (h3 c1) (fun ps c2 _ _ _ => pure (by simp)) (by omega) (by simp))
  have num : ∀ (n S : Nat) (c : Ctx), S ≤ 8 → MemAt 9 (fun _ => 9 - (S : Int)) (22 - S) (parseNum n) c := by
    intro n S c h
    unfold parseNum
    exact seq uint (fun n c1 _ _ _ => pure)
  intro c1
  cases k with
  | to => exact addrParams .to 14 c1 (by omega) (by decide)
  | «from» => exact addrParams .from 14 c1 (by omega) (by decide)
  | contact =>
    refine seq (b := 0) (C1 := 0) (d := 9 - ((18 : Nat) : Int)) (C := 22 - ((18 : Nat) : Int)) sws (fun _ c2 _ _ _ => peek ?_)
    split
    · exact err
    · rename_i b hb
      refine ite (fun _ => ?_) (fun _ => (addrParams .contact 18 c2 (by omega) (by decide)).le)
      exact seq (skip1 (by rw [hb]; simp)) (fun _ c3 _ _ _ => seq sws (fun _ c4 _ _ _ => pure))
  | route => exact routeParams .route c1 rfl
  | recordRoute => exact routeParams .recordRoute c1 rfl
  | path => exact routeParams .path c1 rfl
  | serviceRoute => exact routeParams .serviceRoute c1 rfl
  | pAssertedIdentity =>
    exact seq (d := 9 - ((12 : Nat) : Int)) (C := 22 - ((12 : Nat) : Int)) (orErr (addr hnet false)) (fun a c1 _ _ _ => pure)
  | via =>
    refine seq (d := 9 - ((16 : Nat) : Int)) (C := 22 - ((16 : Nat) : Int)) (orErr protocol) (fun pr c2 _ _ _ => ?_)
    refine seq (orErr (str _)) (fun t c3 _ _ _ => seq (orErr lws) (fun _ c4 _ _ _ => ?_))
    refine seq (orErr (hostport hnet)) (fun h c5 _ _ _ => ?_)
    exact seq (hp .via c5) (fun ps c6 _ _ _ => pure (by decide)) (by omega) (by decide)
  | callId =>
    refine seq (d := 9 - ((4 : Nat) : Int)) (C := 22 - ((4 : Nat) : Int)) (orErr (str _)) (fun a c2 _ _ _ => peek ?_)
    split
    · exact pure
    · rename_i b hb
      refine ite (fun _ => ?_) (fun _ => pure)
      exact seq (skip1 (by rw [hb]; simp)) (fun _ c3 _ _ _ => seq (orErr (str _)) (fun d c4 _ _ _ => pure))
  | cseq =>
    refine seq (d := 9 - ((8 : Nat) : Int)) (C := 22 - ((8 : Nat) : Int)) uint (fun n c2 _ _ _ => seq (orErr lws) (fun _ c3 _ _ _ => ?_))
    exact seq (orErr method) (fun m c4 _ _ _ => pure)
  | rack =>
    refine seq (d := 9 - ((12 : Nat) : Int)) (C := 22 - ((12 : Nat) : Int)) uint (fun n c2 _ _ _ => seq (orErr lws) (fun _ c3 _ _ _ => ?_))
    refine seq uint (fun n c2 _ _ _ => seq (orErr lws) (fun _ c3 _ _ _ => ?_))
    exact seq (orErr method) (fun m c4 _ _ _ => pure)
  | rseq => exact num _ 4 c1 (by omega)
  | expires => exact num _ 4 c1 (by omega)
  | maxForwards => exact num _ 1 c1 (by omega)
  | contentLength => exact num _ 8 c1 (by omega)
  | contentType =>
    refine seq (d := 9 - ((8 : Nat) : Int)) (C := 22 - ((8 : Nat) : Int)) (orErr (str _)) (fun t c2 _ _ _ => seq (orErr (mark 0x2f)) (fun _ c3 _ _ _ => ?_))
    refine seq (orErr (str _)) (fun s c4 _ _ _ => ?_)
    exact seq (hp .contentType c4) (fun ps c6 _ _ _ => pure (by decide)) (by omega) (by decide)
  | contentDisposition =>
    refine seq (d := 9 - ((6 : Nat) : Int)) (C := 22 - ((6 : Nat) : Int)) (orErr (str _)) (fun t c2 _ _ _ => ?_)
    exact seq (hp .contentDisposition c2) (fun ps c6 _ _ _ => pure (by decide)) (by omega) (by decide)

/-- the struct of a header and its value -/
theorem parseAlloc {net : Net} (hnet : net.Ok) (k : HKind) : MemAt 9 (fun _ => 9) 22 (k.parseAlloc net) c := by
  unfold HKind.parseAlloc
  exact seq (orErr alloc) (fun _ c1 _ _ _ => value hnet k)

/-- `Parse` of a header by itself: name, colon and value -/
theorem header {net : Net} (hnet : net.Ok) (k : HKind) : MemAt 9 (fun _ => 9) 22 (k.parse net) c := by
  unfold HKind.parse
  refine seq (b := 0) (C1 := 0) (orErr ?_) (fun _ c1 _ _ _ => seq (b := 0) (C1 := 0) (orErr ?_) (fun _ c2 _ _ _ => (value hnet k).le))
  · exact ofSafe (m := 1) (B := 0) (k := 0) (fun hc => safe_headerName k c hc) (fun v c' hc e => ((safe_headerName k c hc).step _ _ e).pos_le) (by omega)
  · exact ofSafe (m := 1) (B := 0) (k := 0) (fun hc => safe_hcolon c1 hc) (fun v c' hc e => ((safe_hcolon c1 hc).step _ _ e).pos_le) (by omega)

/-! ## Header lines -/

theorem crlf : MemAt 9 (fun _ => -18) 0 P.crlf c :=
  ofGSafe (m := 0) (B := 0) (k := 2) (fun hc => gsafe_crlf c hc) (eats ReadsAt.crlf (fun v t y h => by subst h; simp)) (by omega)

theorem msgName_pos {v : Option Bytes × Nat} {t y : Bytes} (h : Gram.msgName v t y) : 2 ≤ t.length := by
  have hcol : ∀ {t y : Bytes}, Gram.hcolon t y → 1 ≤ t.length := by
    rintro t y ⟨w1, w2, _, _, rfl⟩
    simp only [List.length_append, List.length_cons]; omega
  cases h with
  | known s i n m c y hs hn hm hc =>
    have h1 := hcol hc
    have h2 := nameAs_length hn
    have h3 := hm
    have h4 : (Sip.str s).length ≠ 0 := by
      have : ∀ p ∈ headerTable, (Sip.str p.1).length ≠ 0 := by decide +kernel
      exact this _ hs
    have h5 : m.length = (Sip.str s).length := by
      have := congrArg List.length hm
      simpa using this
    rw [List.length_append]; omega
  | other n m c y hn hne ht hno hc =>
    have h1 := hcol hc
    have h2 := nameAs_length hn
    have := List.length_pos_iff.2 hne
    rw [List.length_append]; omega

theorem msgName : MemAt 9 (fun _ => -14) 2 parseMsgHeaderName c :=
  ofGSafe (k := 2) (fun hc => msgHeaderName_safe c hc (fun h => h.elim)) (eats ReadsAt.msgName (fun v t y h => msgName_pos h)) (by omega)

theorem rawHeader (id : Nat) (name : Option Bytes) : MemAt 9 (fun _ => 2) 10 (parseRawHeader id name) c :=
  ofGSafe (k := 1) (fun hc => rawHeader_safe id name c hc) (fun v c' hc e => ((rawHeader_safe (N := False) (H := False) id name c hc).some _ _ e).1.2.2.1) (by omega)

theorem comma : MemAt 9 (fun b => if b = true then -9 else 0) 0 P.comma c := by
  refine ofFree (q := 0) (l := false) (m := 1) (B := 0) (Q := fun _ => True) (fun hc => ?_) (fun hc r c' e => ?_) (fun v c' hc e => ?_) (by omega) (by omega)
  · have h := comma_safe (N := True) (H := True) c hc
    exact ⟨h.step, fun v c' e => ⟨trivial, fun _ => (h.some _ _ e).1.1, (h.some _ _ e).2⟩, fun hx => (by cases hx), fun _ hr => h.nopanic trivial hr, fun _ => h.nohang trivial, h.nmem⟩
  · unfold P.comma at e
    rw [swsMarkCanOmmit_spec c hc.pos] at e
    split at e
    · rename_i h; split at h
      · cases h
      · split at h
        · cases h; cases e; exact sws_used c
        · cases h
    · rename_i h; split at h
      · cases h; cases e; exact sws_used c
      · split at h
        · cases h; cases e; exact sws_used c
        · cases h; cases e; exact sws_used c
  · have h := comma_safe (N := True) (H := True) c hc
    have h1 := (h.some _ _ e).1.2
    have h2 := (h.step _ _ e).pos_le
    cases v with
    | false => simp only [Bool.false_eq_true, if_false]; omega
    | true => have := h1 rfl; simp only [if_true]; omega

theorem values {net : Net} (hnet : net.Ok) (k : HKind) : MemAt 9 (fun _ => 9) 22 (parseHeaderValues net k) c := by
  unfold parseHeaderValues
  refine seq (parseAlloc hnet k) (fun v c1 _ _ _ => ite (fun _ => ?_) (fun _ => ?_))
  · refine (forLoop0 (b := 0) (C := 13) (fun s c2 hi => ?_)).le
    obtain ⟨acc, v⟩ := s
    unfold valuesBody
    refine get (ite (fun _ => pure) (fun _ => ite (fun h => ?_) (fun _ => ?_)))
    · have hl : c2.pos + 2 ≤ c2.src.length := by
        obtain ⟨z, hz, _⟩ := (isOnlyCRLF_spec _ _).1 h
        have := rest_length c2 hi.pos
        have h2 : c2.rest.length = (0x0d :: 0x0a :: z : Bytes).length := congrArg List.length hz
        simp only [List.length_cons] at h2
        omega
      exact seq (skip (n := 2) hl) (fun _ c3 _ _ _ => pure)
    · refine bind comma (fun m c3 _ _ _ => ?_)
      cases m with
      | true =>
        rw [if_pos rfl]
        simp only [if_true]
        exact seq (parseAlloc hnet k) (fun v' c4 _ _ _ => pure)
      | false =>
        rw [if_neg (by simp)]
        simp only [Bool.false_eq_true, if_false]
        exact seq crlf (fun _ c4 _ _ _ => pure)
  · exact seq crlf (fun _ c4 _ _ _ => pure)

theorem headerLine {net : Net} (hnet : net.Ok) (need : HKind → Bool) (n : Option Bytes × Nat) : MemAt 9 (fun _ => 9) 22 (parseHeaderLine net need n) c := by
  obtain ⟨n, i⟩ := n
  unfold parseHeaderLine
  dsimp only
  split
  · refine ite (fun _ => ?_) (fun _ => ?_)
    · exact seq (values hnet _) (fun vs c1 _ _ _ => pure)
    · exact seq (rawHeader i n) (fun h c1 _ _ _ => pure)
  · exact seq (rawHeader i n) (fun h c1 _ _ _ => pure)

theorem headers {net : Net} (hnet : net.Ok) (need : HKind → Bool) : MemAt 9 (fun _ => 0) 8 (parseHeaders net need) c := by
  unfold parseHeaders
  refine forLoop0 (b := 0) (fun s c2 hi => ?_)
  unfold headersBody
  refine get (ite (fun _ => pure) (fun hlt => ite (fun h => ?_) (fun _ => ?_)))
  · have hl : c2.pos + 2 ≤ c2.src.length := by
      unfold isCRLF at h
      simp only [Bool.and_eq_true, decide_eq_true_eq] at h
      omega
    exact seq (skip (n := 2) hl) (fun _ c3 _ _ _ => pure)
  · exact seq (orErr msgName) (fun n c3 _ _ _ => seq (headerLine hnet need n) (fun hs c4 _ _ _ => pure))

/-- `ParseRawHeaders` -/
theorem rawHeaders : MemAt 9 (fun _ => 0) 8 parseRawHeaders c := by
  unfold parseRawHeaders
  refine forLoop0 (b := 0) (fun s c2 hi => ?_)
  unfold rawHeadersBody
  refine get (ite (fun _ => pure) (fun hlt => ite (fun h => ?_) (fun _ => ?_)))
  · have hl : c2.pos + 2 ≤ c2.src.length := by
      unfold isCRLF at h
      simp only [Bool.and_eq_true, decide_eq_true_eq] at h
      omega
    exact seq (skip (n := 2) hl) (fun _ c3 _ _ _ => pure)
  · exact seq msgName (fun n c3 _ _ _ => seq (rawHeader _ _) (fun hs c4 _ _ _ => pure))

/-! ## Bodies -/

theorem findCrlf : MemAt 9 (fun _ => -9) 0 P.findCrlf c :=
  ofGSafe (m := 0) (k := 1) (fun hc => findCrlf_safe c hc) (fun v c' hc e => ((findCrlf_safe (N := False) (H := False) c hc).some _ _ e).1.2.1) (by omega)

theorem allocStrAny (b : Bytes) : MemAt 9 (fun _ => (b.length : Int) + 2) 0 (P.allocStrAny b) c where
  some hc v c' e := by
    unfold P.allocStrAny Sip.allocStr at e
    by_cases h : c.used + (b.length + 2) > c.cap
    · rw [if_pos h] at e; cases e; exact ⟨Step.refl hc, by omega⟩
    · rw [if_neg h] at e; cases e
      refine ⟨⟨rfl, rfl, rfl, Nat.le_refl _, hc.pos, by show c.used ≤ c.used + _; omega, by show c.used + _ ≤ c.cap; omega, ErrsIn.refl⟩, ?_⟩
      show ((c.used + (b.length + 2) : Nat) : Int) ≤ c.used + 9 * ((c.pos : Int) - c.pos) + (b.length + 2)
      omega
  none hc c' e := by
    unfold P.allocStrAny Sip.allocStr at e
    by_cases h : c.used + (b.length + 2) > c.cap
    · rw [if_pos h] at e; cases e
    · rw [if_neg h] at e; cases e

theorem bodyPart {net : Net} (hnet : net.Ok) {d : Bytes} (hd : 4 ≤ d.length) : MemAt 9 (fun _ => 0) 15 (parseBodyPart net d) c := by
  unfold parseBodyPart
  refine seq (orErr findCrlf) (fun _ c1 _ _ _ => seq (orErr alloc) (fun _ c2 _ _ _ => get ?_))
  refine seq (orErr (headers hnet _)) (fun hs c3 _ _ hi3 => get ?_)
  split
  · exact err
  · rename_i e he
    have hf := indexOf_some _ _ _ he
    have hlen := rest_length c3 hi3.pos
    have hpre := hf.1.length_le
    rw [List.length_drop] at hpre
    have h1 := hf.2.1
    refine seq (allocStrAny _) (fun b c4 e4 s4 hi4 => ?_)
    have htk : (c3.rest.take e).length = e := by rw [List.length_take]; omega
    have hp4 : c4.pos = c3.pos := by
      unfold P.allocStrAny Sip.allocStr at e4
      by_cases h : c3.used + ((c3.rest.take e).length + 2) > c3.cap
      · rw [if_pos h] at e4; cases e4; rfl
      · rw [if_neg h] at e4; cases e4; rfl
    rw [htk]
    refine seq (C1 := 6 - (e : Int)) (b := -9 * ((e + d.length : Nat) : Int)) ⟨fun hc v c' e' => (skip (F := 9) (n := e + d.length) ?_).some hc v c' e', fun hc c' e => (by cases e)⟩ (fun _ c5 _ _ _ => pure)
    rw [hp4, s4.src]; have := hi3.pos; omega

theorem parts {net : Net} (hnet : net.Ok) {d : Bytes} (hd : 4 ≤ d.length) (acc : List Body) : MemAt 9 (fun _ => 0) 15 (P.forLoop (multiBody net d) acc) c := by
  refine forLoop0 (b := 0) (fun s c2 hi => ?_)
  unfold multiBody
  refine get (ite (fun _ => fail) (fun h1 => ite (fun _ => err) (fun h2 => ite (fun _ => ?_) (fun _ => ?_))))
  · exact seq (skip (n := 2) (by omega)) (fun _ c3 _ _ _ => pure)
  · exact seq (bodyPart hnet hd) (fun b c3 _ _ _ => pure)

theorem multipart {net : Net} (hnet : net.Ok) (boundary : Bytes) : MemAt 9 (fun _ => 0) 2 (parseMultiBody net boundary) c := by
  by_cases hc : Inv c
  case neg => exact ⟨fun h => absurd h hc, fun h => absurd h hc⟩
  unfold parseMultiBody
  refine get (ite (fun _ => err) (fun h => ?_))
  have hl : c.pos + (0x2d :: 0x2d :: boundary).length ≤ c.src.length := by
    have h : (0x2d :: 0x2d :: boundary).isPrefixOf c.rest = true := by simpa using h
    have := (List.isPrefixOf_iff_prefix.1 h).length_le
    have := rest_length c hc.pos
    have := hc.pos
    omega
  refine seq (skip hl) (fun _ c1 _ _ _ => ?_)
  refine (parts hnet (by simp) []).le ?_ ?_
  · simp only [List.length_cons]; omega
  · simp only [List.length_cons]; omega

/-! ## Start line and message -/

theorem sp : MemAt 9 (fun _ => -9) 0 P.sp c :=
  ofSafe (m := 0) (k := 1) (fun hc => safe_sp c hc) (eats ReadsAt.sp (fun v t y h => by subst h; simp)) (by omega)

theorem version : MemAt 9 (fun _ => 0) 2 Version.parse c :=
  ofSafe (k := 1) (fun hc => version_safe c hc) (eats ReadsAt.version (fun v t y h => by
    obtain ⟨ts, tv, rfl, h1, h2⟩ := h
    have : ts.length = 4 := by have := congrArg List.length h1; rw [List.length_map] at this; exact this
    rw [List.length_append]; omega)) (by omega)

theorem request {net : Net} (hnet : net.Ok) : MemAt 9 (fun _ => 0) 2 (StartLine.parseRequest net) c := by
  unfold StartLine.parseRequest
  refine seq (orErr method) (fun m c1 _ _ _ => seq sp (fun _ c2 _ _ _ => seq (orErr (addrSpec hnet)) (fun a c3 _ _ _ => ?_)))
  exact seq sp (fun _ c4 _ _ _ => seq (orErr version) (fun v c5 _ _ _ => seq (orErr crlf) (fun _ c6 _ _ _ => pure)))

theorem status (h : c.pos + 2 < c.src.length) : MemAt 9 (fun _ => 0) 2 StartLine.parseStatus c := by
  unfold StartLine.parseStatus
  refine seq (b := 2) (orErr (ofSafe (k := 0) (C := 2) (fun hc => afterStart_safe c hc h) (fun v c' hc e => ((afterStart_safe c hc h).step _ _ e).pos_le) (by omega))) (fun v c1 _ _ _ => ?_)
  refine seq sp (fun _ c2 _ _ _ => seq uint (fun n c3 _ _ _ => seq sp (fun _ c4 _ _ _ => seq (orErr (strEscEmpty _)) (fun r c5 _ _ _ => ?_))))
  exact seq (orErr crlf) (fun _ c6 _ _ _ => pure)

theorem startLine {net : Net} (hnet : net.Ok) : MemAt 9 (fun _ => 0) 2 (StartLine.parse net) c := by
  by_cases hc : Inv c
  case neg => exact ⟨fun h => absurd h hc, fun h => absurd h hc⟩
  have hps : Version.parseStart c = .ok (Option.none, c) ∨ (Version.parseStart c = .ok (Option.some (), c.adv 4) ∧ c.pos + 6 < c.src.length) ∨ Version.parseStart c = .panic := by
    unfold Version.parseStart
    split
    · exact Or.inl rfl
    · split
      · split
        · exact Or.inl rfl
        · exact Or.inr (Or.inl ⟨rfl, by omega⟩)
      · exact Or.inr (Or.inr rfl)
  rcases hps with h | ⟨h, hl⟩ | h
  · refine congr (p' := StartLine.parseRequest net) ?_ (request hnet)
    unfold StartLine.parse
    have e1 : P.orElse (do Version.parseStart; Pure.pure true) (Pure.pure false) c = .ok (Option.some false, c) := by unfold P.orElse; rw [P.bind_none h]; rfl
    rw [P.bind_ok e1]
    rfl
  · refine after (p' := StartLine.parseStatus) (c1 := c.adv 4) ?_ (fun _ => Step.adv hc (by omega)) rfl (status ?_)
    · unfold StartLine.parse
      have e1 : P.orElse (do Version.parseStart; Pure.pure true) (Pure.pure false) c = .ok (Option.some true, c.adv 4) := by unfold P.orElse; rw [P.bind_ok h]; rfl
      rw [P.bind_ok e1]
      rfl
    · show c.pos + 4 + 2 < c.src.length; omega
  · refine congr (p' := P.panic) ?_ panic
    unfold StartLine.parse
    rw [P.bind_panic (by unfold P.orElse; rw [P.bind_panic h])]
    rfl

end MemAt

/-- a run takes at most nine bytes for every byte of the rest of the input, and `K` more, whatever its result -/
def MemTotal {α : Type} (K : Int) (p : P α) (c : Ctx) : Prop :=
  Inv c → ∀ r c', p c = .ok (r, c') → Step c c' ∧ (c'.used : Int) ≤ c.used + 9 * ((c.src.length : Int) - c.pos) + K

theorem MemTotal.ofMem {α : Type} {K b C : Int} {p : P α} {c : Ctx} (h : MemAt 9 (fun _ => b) C p c) (hb : b ≤ K := by omega) (hC : C ≤ K := by omega) : MemTotal K p c := by
  intro hc r c' e
  cases r with
  | none => obtain ⟨s, h1⟩ := h.none hc c' e; exact ⟨s, by omega⟩
  | some v => obtain ⟨s, h1⟩ := h.some hc v c' e; have := s.pos_len; exact ⟨s, by omega⟩

theorem MemTotal.seq {α β : Type} {K b C : Int} {p : P α} {f : α → P β} {c : Ctx} (h : MemAt 9 (fun _ => b) C p c)
    (hf : ∀ v c1, p c = .ok (some v, c1) → Step c c1 → Inv c1 → MemTotal (K - b) (f v) c1) (hC : C ≤ K := by omega) : MemTotal K (p >>= f) c := by
  intro hc r c' e
  rcases hp : p c with ⟨_ | v, c1⟩ | _ | _
  · rw [P.bind_none hp] at e; cases e
    obtain ⟨s, h1⟩ := h.none hc _ hp
    exact ⟨s, by omega⟩
  · rw [P.bind_ok hp] at e
    obtain ⟨s, h1⟩ := h.some hc v c1 hp
    obtain ⟨s2, h2⟩ := hf v c1 hp s s.inv s.inv r c' e
    rw [s.src] at h2
    exact ⟨s.trans s2, by omega⟩
  · rw [P.bind_panic hp] at e; cases e
  · rw [P.bind_hang hp] at e; cases e

theorem MemTotal.body {net : Net} (hnet : net.Ok) (hs : Hdrs) {c : Ctx} : MemTotal 18 (parseMsgBody net hs) c := by
  unfold parseMsgBody
  split
  · exact .ofMem (b := 0) (C := 0) MemAt.pure
  · rename_i ct _ _
    by_cases hm : ct.isMultipart = true
    · rw [if_pos hm]
      split
      · exact .ofMem (b := 0) (C := 0) MemAt.err
      · exact .ofMem (MemAt.multipart hnet _)
    · rw [if_neg hm]
      -- the position does not move, the rest of the input pays for the copy
      intro hc r c' e
      have h := singleBody_safe (N := False) (H := False) hs c hc
      have h2 := hc.pos
      refine ⟨h.step _ _ e, ?_⟩
      cases r with
      | none => have h1 := h.nmem _ e; omega
      | some v => have h1 := (h.some _ _ e).2; omega

theorem MemTotal.message {net : Net} (hnet : net.Ok) {c : Ctx} : MemTotal 18 (Msg.parse net) c := by
  unfold Msg.parse
  refine MemTotal.seq (MemAt.orErr (MemAt.startLine hnet)) (fun s c1 _ _ _ => ?_)
  show MemTotal _ (if c1.pos ≥ c1.src.length then P.err else _) c1
  by_cases h : c1.pos ≥ c1.src.length
  · rw [if_pos h]; exact MemTotal.ofMem (b := 0) (C := 0) MemAt.err
  · rw [if_neg h]
    refine MemTotal.seq (MemAt.orErr (MemAt.headers hnet _)) (fun items c2 _ _ hi => ?_)
    intro hc r c' e
    have hb := MemTotal.body hnet (Hdrs.ofItems items) (c := c2)
    dsimp only at e
    rcases hp : parseMsgBody net (Hdrs.ofItems items) c2 with ⟨_ | v, c3⟩ | _ | _
    · obtain ⟨s, h1⟩ := hb hc _ _ hp
      rw [P.bind_none (c' := c3.addError c3.pos) (by unfold P.orErr; rw [hp])] at e; cases e
      exact ⟨s.addError _, by show (c3.used : Int) ≤ _; omega⟩
    · obtain ⟨s, h1⟩ := hb hc _ _ hp
      rw [P.bind_ok (a := v) (c' := c3) (by unfold P.orErr; rw [hp])] at e; cases e
      exact ⟨s, by omega⟩
    · rw [P.bind_panic (by unfold P.orErr; rw [hp])] at e; cases e
    · rw [P.bind_hang (by unfold P.orErr; rw [hp])] at e; cases e

end Sip
