import Verif.Props.ReadsAddr
/-!
# Header values follow the grammar (C42)
-/
namespace Sip

theorem ReadsAt.hparams {k : HKind} {c : Ctx} : ReadsAt (Gram.params c.flags k) k.params c := ReadsAt.params

theorem ReadsAt.token {c : Ctx} : ReadsAt (Gram.run csSipToken) (P.orErr (P.str csSipToken)) c := ReadsAt.orErr (ReadsAt.str csSipToken (by decide +kernel))
theorem ReadsAt.word {c : Ctx} : ReadsAt (Gram.run csSipWord) (P.orErr (P.str csSipWord)) c := ReadsAt.orErr (ReadsAt.str csSipWord (by decide +kernel))

theorem addrParams_reads {net : Net} {k : HKind} {c : Ctx} :
    ReadsAt (fun v t y => ∃ a ta ps tp, v = .addr a ps ∧ t = ta ++ tp ∧ Gram.addr net c.flags a ta (tp ++ y) ∧ Gram.params c.flags k ps tp y) (parseAddrParams net k) c := by
  unfold parseAddrParams
  refine ReadsAt.bind (ReadsAt.orErr ReadsAt.addr) (fun a t1 c1 _ s1 h1 r1 => ?_)
  refine ReadsAt.bind ReadsAt.hparams (fun ps t2 c2 _ s2 h2 r2 => ReadsAt.pure ?_)
  rw [s1.flags] at r2
  rw [h2] at r1
  exact ⟨a, t1, ps, t2, rfl, by simp, r1, r2⟩

theorem routeParams_reads {net : Net} {k : HKind} {c : Ctx} :
    ReadsAt (fun v t y => ∃ a ta ps tp, v = .addr a ps ∧ t = ta ++ tp ∧ Gram.nameAddr net c.flags a ta (tp ++ y) ∧ Gram.params c.flags k ps tp y) (parseRouteParams net k) c := by
  unfold parseRouteParams
  refine ReadsAt.bind (ReadsAt.orErr ReadsAt.nameAddr) (fun a t1 c1 _ s1 h1 r1 => ?_)
  refine ReadsAt.bind ReadsAt.hparams (fun ps t2 c2 _ s2 h2 r2 => ReadsAt.pure ?_)
  rw [s1.flags] at r2
  rw [h2] at r1
  exact ⟨a, t1, ps, t2, rfl, by simp, r1, r2⟩

theorem contact_reads {net : Net} {c : Ctx} : ReadsAt (Gram.value net c.flags .contact) (parseContact net) c := by
  unfold parseContact
  refine ReadsAt.bind ReadsAt.sws (fun _ t1 c1 _ s1 h1 r1 => ?_)
  refine ReadsAt.peek (fun hr => ReadsAt.err) (fun b y hr => ?_)
  dsimp only
  refine ReadsAt.ite (fun hb => ?_) (fun hb => ?_)
  · subst hb
    refine ReadsAt.bind (ReadsAt.skip1 (R := fun _ t y' => t = [0x2a]) hr rfl) (fun _ t2 c2 _ s2 h2 h22 => ?_)
    subst h22
    refine ReadsAt.bind ReadsAt.sws (fun _ t3 c3 _ s3 h3 r3 => ReadsAt.pure ?_)
    exact rel_text (Gram.value.star t1 t3 _ r1.1 r3) (by simp)
  · refine addrParams_reads.mono ?_
    rintro _ _ y hrest ⟨a, ta, ps, tp, rfl, rfl, ha, hp⟩
    rw [s1.flags] at ha hp
    rw [hrest] at r1
    exact rel_text (Gram.value.contact t1 a ta ps tp y (by simpa using r1) ha hp (by rw [← hrest, hr]; simpa using hb)) (by simp)

theorem isSip20_split {y : Bytes} (h : isSip20 y = true) : ∃ t i z, y = t ++ i :: z ∧ t.length = 7 ∧ Gram.word "sip/2.0" t ∧ isDigit i = false := by
  unfold isSip20 at h
  split at h
  · rename_i a b d e f g h' i r
    simp only [Bool.and_eq_true, decide_eq_true_eq, Bool.not_eq_true'] at h
    obtain ⟨⟨⟨⟨⟨⟨⟨h1, h2⟩, h3⟩, h4⟩, h5⟩, h6⟩, h7⟩, h8⟩ := h
    subst h4 h5 h6 h7
    refine ⟨[a, b, d, 0x2f, 0x32, 0x2e, 0x30], i, r, rfl, rfl, ?_, h8⟩
    unfold Gram.word
    simp only [List.map_cons, List.map_nil, lower_of_bit a _ (by decide) h1, lower_of_bit b _ (by decide) h2, lower_of_bit d _ (by decide) h3]
    decide +kernel
  · cases h

theorem bit_of_lower (a p : UInt8) (hp : 0x61 ≤ p ∧ p ≤ 0x7a) : asciiLower a = p → a ||| 0x20 = p := by
  rintro rfl
  revert a; decide +kernel

theorem isSip20_of {t z : Bytes} (ht : Gram.word "sip/2.0" t) {i : UInt8} (hi : csDigit.mem i = false) : isSip20 (t ++ i :: z) = true := by
  unfold Gram.word at ht
  have hl : t.length = 7 := by have := congrArg List.length ht; rw [List.length_map] at this; rw [this]; decide +kernel
  match t, hl with
  | [a, b, d, e, f, g, h], _ =>
    have hs : str "sip/2.0" = [0x73, 0x69, 0x70, 0x2f, 0x32, 0x2e, 0x30] := by decide +kernel
    rw [hs] at ht
    simp only [List.map_cons, List.map_nil, List.cons.injEq, and_true] at ht
    obtain ⟨h1, h2, h3, h4, h5, h6, h7⟩ := ht
    have key : ∀ x : UInt8, ∀ p ∈ [(0x2f : UInt8), 0x32, 0x2e, 0x30], asciiLower x = p → x = p := by decide +kernel
    have h4 := key e _ (by simp) h4
    have h5 := key f _ (by simp) h5
    have h6 := key g _ (by simp) h6
    have h7 := key h _ (by simp) h7
    subst h4 h5 h6 h7
    have hi' : isDigit i = false := by revert hi; exact (by decide +kernel : ∀ i : UInt8, csDigit.mem i = false → isDigit i = false) i
    simp [isSip20, bit_of_lower a _ (by decide) h1, bit_of_lower b _ (by decide) h2, bit_of_lower d _ (by decide) h3, hi']

theorem ReadsAt.protocol {c : Ctx} : ReadsAt Gram.protocol parseSentProtocol c := by
  unfold parseSentProtocol
  refine ReadsAt.get ?_
  refine ReadsAt.ite (fun hs => ?_) (fun hs => ?_)
  · obtain ⟨t, i, z, hr, hl, hw, hi⟩ := isSip20_split hs
    refine ReadsAt.bind (R := fun _ t' y => t' = t ∧ y = i :: z) ?_ (fun _ t1 c1 _ s1 h1 r1 => ?_)
    · rw [← hl]; exact ReadsAt.skip hr ⟨rfl, rfl⟩
    · obtain ⟨rfl, hy⟩ := r1
      refine ReadsAt.bind (ReadsAt.orErr (ReadsAt.mark 0x2f (by decide))) (fun _ t2 c2 _ s2 h2 r2 => ReadsAt.pure ?_)
      exact rel_text (Gram.protocol.sip20 t1 t2 _ hw r2) (by simp)
  · unfold parseOtherProtocol
    refine ReadsAt.bind (ReadsAt.orErr (ReadsAt.alloc 4)) (fun _ t0 c0 _ s0 h0 ht => ?_)
    subst ht
    refine ReadsAt.bind ReadsAt.token (fun n t1 c1 _ s1 h1 r1 => ?_)
    have e1 := r1.1; subst e1
    refine ReadsAt.bind (ReadsAt.orErr (ReadsAt.mark 0x2f (by decide))) (fun _ t2 c2 _ s2 h2 r2 => ?_)
    refine ReadsAt.bind ReadsAt.token (fun v t3 c3 _ s3 h3 r3 => ?_)
    have e3 := r3.1; subst e3
    refine ReadsAt.bind (ReadsAt.orErr (ReadsAt.mark 0x2f (by decide))) (fun _ t4 c4 _ s4 h4 r4 => ReadsAt.pure ?_)
    rw [h2, h3, h4] at r1
    rw [h3, h4] at r2
    rw [h4] at r3
    refine rel_text (Gram.protocol.other n t2 v t4 _ (by simpa using r1) (by simpa using r2) r3 r4 ?_) (by simp)
    rintro ⟨t, i, z, he, hw, hi⟩
    refine hs ?_
    rw [h0, h1, h2, h3, h4]
    have := isSip20_of (z := z) hw hi
    rw [← he] at this
    simpa using this

theorem via_reads {net : Net} {c : Ctx} : ReadsAt (Gram.value net c.flags .via) (parseVia net) c := by
  unfold parseVia
  refine ReadsAt.bind (ReadsAt.orErr ReadsAt.protocol) (fun pr t1 c1 _ s1 h1 r1 => ?_)
  refine ReadsAt.bind ReadsAt.token (fun tr t2 c2 _ s2 h2 r2 => ?_)
  have e2 := r2.1; subst e2
  refine ReadsAt.bind (ReadsAt.orErr ReadsAt.lws) (fun _ t3 c3 _ s3 h3 r3 => ?_)
  refine ReadsAt.bind (ReadsAt.orErr ReadsAt.hostport) (fun h t4 c4 _ s4 h4 r4 => ?_)
  refine ReadsAt.bind ReadsAt.hparams (fun ps t5 c5 _ s5 h5 r5 => ReadsAt.pure ?_)
  rw [s4.flags, s3.flags, s2.flags, s1.flags] at r5
  rw [h2, h3, h4, h5] at r1
  rw [h3, h4, h5] at r2
  rw [h5] at r4
  exact rel_text (Gram.value.via pr t1 tr t3 h t4 ps t5 _ (by simpa using r1) (by simpa using r2) r3.1 r4 r5) (by simp)

theorem callId_reads {net : Net} {c : Ctx} : ReadsAt (Gram.value net c.flags .callId) parseCallId c := by
  unfold parseCallId
  refine ReadsAt.bind ReadsAt.word (fun a t1 c1 _ s1 h1 r1 => ?_)
  have e1 := r1.1; subst e1
  refine ReadsAt.peek (fun hr => ReadsAt.pure ?_) (fun b y hr => ?_)
  · rw [List.append_nil]; exact .callId1 a _ r1 (by rw [hr]; simp)
  · dsimp only
    refine ReadsAt.ite (fun hb => ?_) (fun hb => ReadsAt.pure ?_)
    · subst hb
      refine ReadsAt.bind (ReadsAt.skip1 (R := fun _ t y' => t = [0x40]) hr rfl) (fun _ t2 c2 _ s2 h2 h22 => ?_)
      subst h22
      refine ReadsAt.bind ReadsAt.word (fun d t3 c3 _ s3 h3 r3 => ReadsAt.pure ?_)
      have e3 := r3.1; subst e3
      rw [h2, h3] at r1
      exact rel_text (Gram.value.callId2 a d _ (by simpa using r1) r3) (by simp)
    · rw [List.append_nil]; exact .callId1 a _ r1 (by rw [hr]; simpa using hb)

theorem cseq_reads {net : Net} {c : Ctx} : ReadsAt (Gram.value net c.flags .cseq) parseCSeq c := by
  unfold parseCSeq
  refine ReadsAt.bind ReadsAt.uint (fun n t1 c1 _ s1 h1 r1 => ?_)
  refine ReadsAt.bind (ReadsAt.orErr ReadsAt.lws) (fun _ t2 c2 _ s2 h2 r2 => ?_)
  refine ReadsAt.bind (ReadsAt.orErr ReadsAt.method) (fun m t3 c3 _ s3 h3 r3 => ReadsAt.pure ?_)
  rw [h2, h3] at r1
  exact rel_text (Gram.value.cseq n t1 t2 m t3 _ (by simpa using r1) r2.1 r3) (by simp)

theorem rack_reads {net : Net} {c : Ctx} : ReadsAt (Gram.value net c.flags .rack) parseRAck c := by
  unfold parseRAck
  refine ReadsAt.bind ReadsAt.uint (fun r t1 c1 _ s1 h1 r1 => ?_)
  refine ReadsAt.bind (ReadsAt.orErr ReadsAt.lws) (fun _ t2 c2 _ s2 h2 r2 => ?_)
  refine ReadsAt.bind ReadsAt.uint (fun n t3 c3 _ s3 h3 r3 => ?_)
  refine ReadsAt.bind (ReadsAt.orErr ReadsAt.lws) (fun _ t4 c4 _ s4 h4 r4 => ?_)
  refine ReadsAt.bind (ReadsAt.orErr ReadsAt.method) (fun m t5 c5 _ s5 h5 r5 => ReadsAt.pure ?_)
  rw [h2, h3, h4, h5] at r1
  rw [h4, h5] at r3
  exact rel_text (Gram.value.rack r t1 t2 n t3 t4 m t5 _ (by simpa using r1) r2.1 (by simpa using r3) r4.1 r5) (by simp)

theorem num_reads {size : Nat} {c : Ctx} : ReadsAt (fun v t y => ∃ n, v = .num (n % size) ∧ Gram.number n t y) (parseNum size) c := by
  unfold parseNum
  refine ReadsAt.bind ReadsAt.uint (fun n t1 c1 _ s1 h1 r1 => ReadsAt.pure ?_)
  rw [List.append_nil]; exact ⟨n, rfl, r1⟩

theorem contentType_reads {net : Net} {c : Ctx} : ReadsAt (Gram.value net c.flags .contentType) parseContentType c := by
  unfold parseContentType
  refine ReadsAt.bind ReadsAt.token (fun a t1 c1 _ s1 h1 r1 => ?_)
  have e1 := r1.1; subst e1
  refine ReadsAt.bind (ReadsAt.orErr (ReadsAt.mark 0x2f (by decide))) (fun _ t2 c2 _ s2 h2 r2 => ?_)
  refine ReadsAt.bind ReadsAt.token (fun b t3 c3 _ s3 h3 r3 => ?_)
  have e3 := r3.1; subst e3
  refine ReadsAt.bind ReadsAt.hparams (fun ps t4 c4 _ s4 h4 r4 => ReadsAt.pure ?_)
  rw [s3.flags, s2.flags, s1.flags] at r4
  rw [h2, h3, h4] at r1
  rw [h3, h4] at r2
  rw [h4] at r3
  exact rel_text (Gram.value.contentType a t2 b ps t4 _ (by simpa using r1) (by simpa using r2) r3 r4) (by simp)

theorem contentDisposition_reads {net : Net} {c : Ctx} : ReadsAt (Gram.value net c.flags .contentDisposition) parseContentDisposition c := by
  unfold parseContentDisposition
  refine ReadsAt.bind ReadsAt.token (fun a t1 c1 _ s1 h1 r1 => ?_)
  have e1 := r1.1; subst e1
  refine ReadsAt.bind ReadsAt.hparams (fun ps t4 c4 _ s4 h4 r4 => ReadsAt.pure ?_)
  rw [s1.flags] at r4
  rw [h4] at r1
  exact rel_text (Gram.value.contentDisposition a ps t4 _ r1 r4) (by simp)

/-- every accepted header value stands in the relation of the grammar to its text -/
theorem ReadsAt.value {net : Net} {k : HKind} {c : Ctx} : ReadsAt (Gram.value net c.flags k) (k.parseValue net) c := by
  have ha : ∀ k, (k = .to ∨ k = .from) → ReadsAt (Gram.value net c.flags k) (parseAddrParams net k) c := by
    intro k hk
    refine addrParams_reads.mono ?_
    rintro _ _ y _ ⟨a, ta, ps, tp, rfl, rfl, h1, h2⟩
    exact .addr k a ta ps tp y hk h1 h2
  have hr : ∀ k, (k = .route ∨ k = .recordRoute ∨ k = .path ∨ k = .serviceRoute) → ReadsAt (Gram.value net c.flags k) (parseRouteParams net k) c := by
    intro k hk
    refine routeParams_reads.mono ?_
    rintro _ _ y _ ⟨a, ta, ps, tp, rfl, rfl, h1, h2⟩
    exact .route k a ta ps tp y hk h1 h2
  have hn : ∀ k, (k = .rseq ∨ k = .expires ∨ k = .contentLength) → ReadsAt (Gram.value net c.flags k) (parseNum 4294967296) c := by
    intro k hk
    refine num_reads.mono ?_
    rintro _ t y _ ⟨n, rfl, h⟩
    exact .num k n t y hk h
  cases k with
  | to => exact ha _ (by simp)
  | «from» => exact ha _ (by simp)
  | contact => exact contact_reads
  | route => exact hr _ (by simp)
  | recordRoute => exact hr _ (by simp)
  | path => exact hr _ (by simp)
  | serviceRoute => exact hr _ (by simp)
  | pAssertedIdentity =>
    show ReadsAt _ (parseIdentity net) c
    unfold parseIdentity
    refine ReadsAt.bind (ReadsAt.orErr ReadsAt.addr) (fun a t1 c1 _ s1 h1 r1 => ReadsAt.pure ?_)
    rw [List.append_nil]; exact .identity a t1 _ r1
  | via => exact via_reads
  | callId => exact callId_reads
  | cseq => exact cseq_reads
  | rack => exact rack_reads
  | rseq => exact hn _ (by simp)
  | expires => exact hn _ (by simp)
  | maxForwards =>
    refine num_reads.mono ?_
    rintro _ t y _ ⟨n, rfl, h⟩
    exact .maxForwards n t y h
  | contentLength => exact hn _ (by simp)
  | contentType => exact contentType_reads
  | contentDisposition => exact contentDisposition_reads

theorem ReadsAt.parseAlloc {net : Net} {k : HKind} {c : Ctx} : ReadsAt (Gram.value net c.flags k) (k.parseAlloc net) c := by
  unfold HKind.parseAlloc
  refine ReadsAt.bind (ReadsAt.orErr (ReadsAt.alloc _)) (fun _ t1 c1 _ s1 h1 ht => ?_)
  subst ht
  refine ReadsAt.value.mono (fun v t y _ h => ?_)
  rw [s1.flags] at h; exact h

theorem ReadsAt.parseName {k : HKind} {c : Ctx} : ReadsAt (fun _ t y => TakenAsName k t ∧ NameStop y) k.parseName c := by
  intro hc v c' e
  obtain ⟨w, y, h1, h2, h3, rfl⟩ := ((headerName_exact k c).1 c').1 e
  refine ⟨Step.of_rest hc h1, w, ?_, h3, ?_⟩
  · rw [Ctx.rest_adv h1]; exact h1
  · rw [Ctx.rest_adv h1]; exact h2

/-- every accepted header stands in the relation of the grammar to its text -/
theorem ReadsAt.header {net : Net} {k : HKind} {c : Ctx} : ReadsAt (Gram.header net c.flags k) (k.parse net) c := by
  unfold HKind.parse
  refine ReadsAt.bind (ReadsAt.orErr ReadsAt.parseName) (fun _ t1 c1 _ s1 h1 r1 => ?_)
  refine ReadsAt.bind (ReadsAt.orErr ReadsAt.hcolon) (fun _ t2 c2 _ s2 h2 r2 => ?_)
  refine ReadsAt.value.mono (fun v t y h3 h => ?_)
  rw [s2.flags, s1.flags] at h
  have hs := r1.2
  rw [h2, h3] at hs
  exact rel_text (Gram.header.mk t1 t2 v t y r1.1 (by simpa using hs) (by rw [← h3]; exact r2) h) (by simp)

end Sip
