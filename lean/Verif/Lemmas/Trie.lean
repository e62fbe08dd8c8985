import Verif.Model.Index
/-! Facts about `Trie.run` for an arbitrary trie. -/
namespace Sip

/-- the accepted pattern sequences of a trie -/
def Trie.paths : Trie → List (List Pat × Nat)
  | .fail => []
  | .acc i k => ([], i) :: k.paths
  | .byte p k => k.paths.map fun x => (p :: x.1, x.2)
  | .lits ps k => k.paths.map fun x => (ps ++ x.1, x.2)
  | .case p k els => (k.paths.map fun x => (p :: x.1, x.2)) ++ els.paths

/-- the pattern sequences after which the trie reads a byte without a bounds check -/
def Trie.stops : Trie → List (List Pat)
  | .fail => []
  | .acc _ k => k.stops
  | .byte p k => k.stops.map (p :: ·)
  | .lits ps k => k.stops.map (ps ++ ·)
  | .case p k els => [] :: (k.stops.map (p :: ·) ++ els.stops)

/-- all byte tests of a trie -/
def Trie.pats : Trie → List Pat
  | .fail => []
  | .acc _ k => k.pats
  | .byte p k => p :: k.pats
  | .lits ps k => ps ++ k.pats
  | .case p k els => p :: (k.pats ++ els.pats)

/-- every case in the chain has a label different from `p` -/
def Trie.chainAvoids (p : Pat) : Trie → Bool
  | .fail => true
  | .case q _ els => decide (q.low = p.low) && decide (q.ch ≠ p.ch) && els.chainAvoids p
  | _ => false

/-- determinism: the labels of a switch are different, nothing is accepted twice at the same place -/
def Trie.det : Trie → Bool
  | .fail => true
  | .acc i k => k.det && i != 0 && (match k with | .acc _ _ => false | _ => true)
  | .byte _ k => k.det
  | .lits ps k => k.det && !ps.isEmpty
  | .case p k els => k.det && els.det && els.chainAvoids p

theorem Pat.test_disjoint {p q : Pat} {b : UInt8} (h : q.low = p.low) (hc : q.ch ≠ p.ch) (hp : p.test b = true) : q.test b = false := by
  unfold Pat.test at *
  rw [h]
  simp only [beq_iff_eq] at hp
  simp only [beq_eq_false_iff_ne]
  rw [hp]; exact fun h => hc h.symm

theorem testAll_length {ps : List Pat} {l : Bytes} (h : Pat.testAll ps l = true) : ps.length ≤ l.length := by
  induction ps generalizing l with
  | nil => simp
  | cons p ps ih =>
    cases l with
    | nil => simp [Pat.testAll] at h
    | cons b bs => simp only [Pat.testAll, Bool.and_eq_true] at h; have := ih h.2; simp; omega

theorem testAll_append {ps qs : List Pat} {l : Bytes} :
    Pat.testAll (ps ++ qs) l = true ↔ Pat.testAll ps l = true ∧ Pat.testAll qs (l.drop ps.length) = true := by
  induction ps generalizing l with
  | nil => simp [Pat.testAll]
  | cons p ps ih =>
    cases l with
    | nil => simp [Pat.testAll]
    | cons b bs => simp only [List.cons_append, Pat.testAll, Bool.and_eq_true, ih, List.length_cons, List.drop_succ_cons, and_assoc]

theorem testAll_mem {ps : List Pat} {l : Bytes} (h : Pat.testAll ps l = true) : ∀ b ∈ l.take ps.length, ∃ p ∈ ps, p.test b = true := by
  induction ps generalizing l with
  | nil => simp
  | cons p ps ih =>
    cases l with
    | nil => simp
    | cons c bs =>
      simp only [Pat.testAll, Bool.and_eq_true] at h
      intro b hb
      simp only [List.length_cons, List.take_succ_cons, List.mem_cons] at hb
      rcases hb with rfl | hb
      · exact ⟨p, by simp, h.1⟩
      · obtain ⟨q, h1, h2⟩ := ih h.2 b hb; exact ⟨q, by simp [h1], h2⟩

/-- the position returned is inside the input and everything passed over satisfies some test of the trie -/
theorem Trie.run_pos (t : Trie) (l : Bytes) (pos i q : Nat) (h : t.run l pos = .ok (i, q)) :
    ∃ n, n ≤ l.length ∧ q = pos + n ∧ ∀ b ∈ l.take n, ∃ p ∈ t.pats, p.test b = true := by
  induction t generalizing l pos with
  | fail => simp only [run, Out.ok.injEq, Prod.mk.injEq] at h; exact ⟨0, by simp, by omega, by simp⟩
  | acc j k ih =>
    simp only [run] at h
    split at h
    · simp only [Out.ok.injEq, Prod.mk.injEq] at h; exact ⟨0, by simp, by omega, by simp⟩
    · exact ih l pos h
  | byte p k ih =>
    cases l with
    | nil => simp only [run, Out.ok.injEq, Prod.mk.injEq] at h; exact ⟨0, by simp, by omega, by simp⟩
    | cons b bs =>
      simp only [run] at h
      split at h
      · next hb =>
        obtain ⟨n, h1, h2, h3⟩ := ih bs (pos + 1) h
        refine ⟨n + 1, by simp; omega, by omega, fun c hc => ?_⟩
        simp only [List.take_succ_cons, List.mem_cons] at hc
        rcases hc with rfl | hc
        · exact ⟨p, by simp [pats], hb⟩
        · obtain ⟨r, g1, g2⟩ := h3 c hc; exact ⟨r, by simp [pats, g1], g2⟩
      · simp only [Out.ok.injEq, Prod.mk.injEq] at h; exact ⟨0, by simp, by omega, by simp⟩
  | lits ps k ih =>
    simp only [run] at h
    split at h
    · simp only [Out.ok.injEq, Prod.mk.injEq] at h; exact ⟨0, by simp, by omega, by simp⟩
    · split at h
      · next hb =>
        obtain ⟨n, h1, h2, h3⟩ := ih _ _ h
        have hl := testAll_length hb
        refine ⟨ps.length + n, by rw [List.length_drop] at h1; omega, by omega, fun c hc => ?_⟩
        rw [List.take_add, List.mem_append] at hc
        rcases hc with hc | hc
        · obtain ⟨r, g1, g2⟩ := testAll_mem hb c hc; exact ⟨r, by simp [pats, g1], g2⟩
        · obtain ⟨r, g1, g2⟩ := h3 c hc; exact ⟨r, by simp [pats, g1], g2⟩
      · simp only [Out.ok.injEq, Prod.mk.injEq] at h; exact ⟨0, by simp, by omega, by simp⟩
  | case p k els ih1 ih2 =>
    cases l with
    | nil => simp [run] at h
    | cons b bs =>
      simp only [run] at h
      split at h
      · next hb =>
        obtain ⟨n, h1, h2, h3⟩ := ih1 bs (pos + 1) h
        refine ⟨n + 1, by simp; omega, by omega, fun c hc => ?_⟩
        simp only [List.take_succ_cons, List.mem_cons] at hc
        rcases hc with rfl | hc
        · exact ⟨p, by simp [pats], hb⟩
        · obtain ⟨r, g1, g2⟩ := h3 c hc; exact ⟨r, by simp [pats, g1], g2⟩
      · obtain ⟨n, h1, h2, h3⟩ := ih2 _ _ h
        exact ⟨n, h1, h2, fun c hc => by obtain ⟨r, g1, g2⟩ := h3 c hc; exact ⟨r, by simp [pats, g1], g2⟩⟩

/-- what is recognised is an accepted path followed by the end of the token -/
theorem Trie.run_sound (t : Trie) (l : Bytes) (pos i q : Nat) (h : t.run l pos = .ok (i, q)) (hi : i ≠ 0) :
    ∃ ps, (ps, i) ∈ t.paths ∧ Pat.testAll ps l = true ∧ endOfToken (l.drop ps.length) = true ∧ q = pos + ps.length := by
  induction t generalizing l pos with
  | fail => simp only [run, Out.ok.injEq, Prod.mk.injEq] at h; exact absurd h.1.symm hi
  | acc j k ih =>
    simp only [run] at h
    split at h
    · next he =>
      simp only [Out.ok.injEq, Prod.mk.injEq] at h
      exact ⟨[], by simp [paths, h.1], rfl, he, by simp [h.2]⟩
    · obtain ⟨ps, h1, h2⟩ := ih l pos h
      exact ⟨ps, by simp [paths, h1], h2⟩
  | byte p k ih =>
    cases l with
    | nil => simp only [run, Out.ok.injEq, Prod.mk.injEq] at h; exact absurd h.1.symm hi
    | cons b bs =>
      simp only [run] at h
      split at h
      · next hb =>
        obtain ⟨ps, h1, h2, h3, h4⟩ := ih bs (pos + 1) h
        exact ⟨p :: ps, by simp [paths]; exact h1, by simp [Pat.testAll, hb, h2], by simpa using h3, by simp; omega⟩
      · simp only [Out.ok.injEq, Prod.mk.injEq] at h; exact absurd h.1.symm hi
  | lits ps k ih =>
    simp only [run] at h
    split at h
    · simp only [Out.ok.injEq, Prod.mk.injEq] at h; exact absurd h.1.symm hi
    · split at h
      · next hb =>
        obtain ⟨qs, h1, h2, h3, h4⟩ := ih _ _ h
        exact ⟨ps ++ qs, by simp [paths]; exact h1, testAll_append.mpr ⟨hb, h2⟩, by rw [List.length_append, ← List.drop_drop]; exact h3,
          by simp; omega⟩
      · simp only [Out.ok.injEq, Prod.mk.injEq] at h; exact absurd h.1.symm hi
  | case p k els ih1 ih2 =>
    cases l with
    | nil => simp [run] at h
    | cons b bs =>
      simp only [run] at h
      split at h
      · next hb =>
        obtain ⟨ps, h1, h2, h3, h4⟩ := ih1 bs (pos + 1) h
        exact ⟨p :: ps, by simp [paths, h1], by simp [Pat.testAll, hb, h2], by simpa using h3, by simp; omega⟩
      · obtain ⟨ps, h1, h2⟩ := ih2 _ _ h
        exact ⟨ps, by simp [paths, h1], h2⟩

theorem Trie.run_no_hang (t : Trie) (l : Bytes) (pos : Nat) : t.run l pos ≠ .hang := by
  induction t generalizing l pos with
  | fail => simp [run]
  | acc j k ih => simp only [run]; split <;> simp [ih]
  | byte p k ih =>
    cases l with
    | nil => simp [run]
    | cons b bs => simp only [run]; split <;> simp [ih]
  | lits ps k ih =>
    simp only [run]
    split
    · simp
    · split <;> simp [ih]
  | case p k els ih1 ih2 =>
    cases l with
    | nil => simp [run]
    | cons b bs => simp only [run]; split <;> simp [ih1, ih2]

/-- a panic means that the input ends at an unguarded switch -/
theorem Trie.run_panic (t : Trie) (l : Bytes) (pos : Nat) (h : t.run l pos = .panic) :
    ∃ ps ∈ t.stops, Pat.testAll ps l = true ∧ l.length = ps.length := by
  induction t generalizing l pos with
  | fail => simp [run] at h
  | acc j k ih =>
    simp only [run] at h
    split at h
    · cases h
    · exact ih l pos h
  | byte p k ih =>
    cases l with
    | nil => simp [run] at h
    | cons b bs =>
      simp only [run] at h
      split at h
      · next hb => obtain ⟨ps, h1, h2, h3⟩ := ih _ _ h; exact ⟨p :: ps, by simp [stops, h1], by simp [Pat.testAll, hb, h2], by simp [h3]⟩
      · cases h
  | lits ps k ih =>
    simp only [run] at h
    split at h
    · cases h
    · split at h
      · next hb =>
        obtain ⟨qs, h1, h2, h3⟩ := ih _ _ h
        have := testAll_length hb
        rw [List.length_drop] at h3
        exact ⟨ps ++ qs, by simp [stops, h1], testAll_append.mpr ⟨hb, h2⟩, by simp; omega⟩
      · cases h
  | case p k els ih1 ih2 =>
    cases l with
    | nil => exact ⟨[], by simp [stops], rfl, rfl⟩
    | cons b bs =>
      simp only [run] at h
      split at h
      · next hb =>
        obtain ⟨ps, h1, h2, h3⟩ := ih1 _ _ h
        exact ⟨p :: ps, by simp [stops, h1], by simp [Pat.testAll, hb, h2], by simp [h3]⟩
      · obtain ⟨ps, h1, h2, h3⟩ := ih2 _ _ h
        exact ⟨ps, by simp [stops, h1], h2, h3⟩

/-- in a chain that avoids `p`, the first byte of a path cannot satisfy `p` -/
theorem Trie.chain_paths {p : Pat} {els : Trie} (h : els.chainAvoids p = true) {b : UInt8} (hb : p.test b = true) :
    (∀ ps i, (ps, i) ∈ els.paths → ∀ bs, Pat.testAll ps (b :: bs) = false) ∧
    (∀ ps ∈ els.stops, ps ≠ [] → ∀ bs, Pat.testAll ps (b :: bs) = false) := by
  induction els with
  | fail => simp [paths, stops]
  | acc i k _ => simp [chainAvoids] at h
  | byte q k _ => simp [chainAvoids] at h
  | lits q k _ => simp [chainAvoids] at h
  | case q k els _ ih =>
    simp only [chainAvoids, Bool.and_eq_true, decide_eq_true_eq] at h
    have hq := Pat.test_disjoint h.1.1 h.1.2 hb
    obtain ⟨i1, i2⟩ := ih h.2
    constructor
    · intro ps i hm bs
      simp only [paths, List.mem_append, List.mem_map, Prod.mk.injEq] at hm
      rcases hm with ⟨x, _, rfl, _⟩ | hm
      · simp [Pat.testAll, hq]
      · exact i1 ps i hm bs
    · intro ps hm hne bs
      simp only [stops, List.mem_cons, List.mem_append, List.mem_map] at hm
      rcases hm with rfl | ⟨x, _, rfl⟩ | hm
      · exact absurd rfl hne
      · simp [Pat.testAll, hq]
      · exact i2 ps hm hne bs

/-- an accepted path of token bytes at the end of a token is recognised -/
theorem Trie.run_complete (t : Trie) (hd : t.det = true) (l : Bytes) (pos i : Nat) (ps : List Pat) (hp : (ps, i) ∈ t.paths)
    (ht : Pat.testAll ps l = true) (htok : ∀ b ∈ l.take ps.length, isSipToken b = true) (he : endOfToken (l.drop ps.length) = true) :
    t.run l pos = .ok (i, pos + ps.length) := by
  induction t generalizing l pos ps with
  | fail => simp [paths] at hp
  | acc j k ih =>
    simp only [det, Bool.and_eq_true] at hd
    simp only [paths, List.mem_cons, Prod.mk.injEq] at hp
    rcases hp with ⟨rfl, rfl⟩ | hp
    · simp only [List.length_nil, List.drop_zero] at he
      simp [run, he]
    · have hne : ps ≠ [] := by
        rintro rfl
        cases k with
        | fail => simp [paths] at hp
        | acc _ _ => simp at hd
        | byte _ _ => simp [paths] at hp
        | lits qs _ =>
          simp only [paths, List.mem_map, Prod.mk.injEq, List.append_eq_nil_iff] at hp
          obtain ⟨x, _, ⟨rfl, _⟩, _⟩ := hp
          simp [det] at hd
        | case p k2 els =>
          -- the chain of a switch ends in `fail`
          simp only [paths, List.mem_append, List.mem_map, Prod.mk.injEq] at hp
          rcases hp with ⟨x, _, h, _⟩ | hp
          · cases h
          · simp only [det, Bool.and_eq_true] at hd
            have := hd.1.1.2
            clear hd ih ht htok he
            induction els with
            | fail => simp [paths] at hp
            | acc i k _ => simp [chainAvoids] at this
            | byte q k _ => simp [chainAvoids] at this
            | lits q k _ => simp [chainAvoids] at this
            | case q k els _ ih =>
              simp only [chainAvoids, Bool.and_eq_true] at this
              simp only [paths, List.mem_append, List.mem_map, Prod.mk.injEq] at hp
              rcases hp with ⟨x, _, h, _⟩ | hp
              · cases h
              · exact ih hp this.2
      have hl : endOfToken l = false := by
        cases ps with
        | nil => exact absurd rfl hne
        | cons p ps =>
          cases l with
          | nil => simp [Pat.testAll] at ht
          | cons b bs => simp [endOfToken, htok b (by simp)]
      simp only [run, hl, Bool.false_eq_true, if_false]
      exact ih hd.1.1 l pos ps hp ht htok he
  | byte p k ih =>
    simp only [paths, List.mem_map, Prod.mk.injEq] at hp
    obtain ⟨⟨qs, j⟩, hp, rfl, rfl⟩ := hp
    cases l with
    | nil => simp [Pat.testAll] at ht
    | cons b bs =>
      simp only [Pat.testAll, Bool.and_eq_true] at ht
      simp only [run, ht.1, if_true]
      rw [ih hd bs (pos + 1) qs hp ht.2 (fun c hc => htok c (by simp [hc])) (by simpa using he)]
      simp; omega
  | lits qs k ih =>
    simp only [det, Bool.and_eq_true] at hd
    simp only [paths, List.mem_map, Prod.mk.injEq] at hp
    obtain ⟨⟨rs, j⟩, hp, rfl, rfl⟩ := hp
    rw [testAll_append] at ht
    have hlen := testAll_length ht.1
    have hq : qs ≠ [] := by simpa using hd.2
    have : 0 < qs.length := List.length_pos_iff.mpr hq
    simp only [run]
    rw [if_neg (by omega), if_pos ht.1]
    rw [ih hd.1 _ _ rs hp ht.2 ?_ (by rw [List.drop_drop]; simpa using he)]
    · simp [Nat.add_assoc]
    · intro c hc
      apply htok c
      rw [List.length_append, List.take_add, List.mem_append]
      exact Or.inr hc
  | case p k els ih1 ih2 =>
    simp only [det, Bool.and_eq_true] at hd
    simp only [paths, List.mem_append, List.mem_map, Prod.mk.injEq] at hp
    rcases hp with ⟨⟨qs, j⟩, hp, rfl, rfl⟩ | hp
    · cases l with
      | nil => simp [Pat.testAll] at ht
      | cons b bs =>
        simp only [Pat.testAll, Bool.and_eq_true] at ht
        simp only [run, ht.1, if_true]
        rw [ih1 hd.1.1 bs (pos + 1) qs hp ht.2 (fun c hc => htok c (by simp [hc])) (by simpa using he)]
        simp; omega
    · cases l with
      | nil =>
        have : ps = [] := by cases ps with | nil => rfl | cons _ _ => simp [Pat.testAll] at ht
        subst this
        exfalso
        have := hd.2
        clear hd ih1 ih2 ht htok he
        induction els with
        | fail => simp [paths] at hp
        | acc i k _ => simp [chainAvoids] at this
        | byte q k _ => simp [chainAvoids] at this
        | lits q k _ => simp [chainAvoids] at this
        | case q k els _ ih =>
          simp only [chainAvoids, Bool.and_eq_true] at this
          simp only [paths, List.mem_append, List.mem_map, Prod.mk.injEq] at hp
          rcases hp with ⟨x, _, h, _⟩ | hp
          · cases h
          · exact ih hp this.2
      | cons b bs =>
        have hb : p.test b = false := by
          cases hpb : p.test b with
          | false => rfl
          | true => have := (Trie.chain_paths hd.2 hpb).1 ps i hp bs; rw [ht] at this; cases this
        simp only [run, hb, Bool.false_eq_true, if_false]
        exact ih2 hd.1.2 (b :: bs) pos ps hp ht htok he

/-- an input of token bytes that ends at an unguarded switch is a panic -/
theorem Trie.run_panics (t : Trie) (hd : t.det = true) (l : Bytes) (pos : Nat) (ps : List Pat) (hp : ps ∈ t.stops)
    (ht : Pat.testAll ps l = true) (htok : ∀ b ∈ l, isSipToken b = true) (hlen : l.length = ps.length) (hacc : ∀ i, (ps, i) ∉ t.paths) :
    t.run l pos = .panic := by
  induction t generalizing l pos ps with
  | fail => simp [stops] at hp
  | acc j k ih =>
    simp only [det, Bool.and_eq_true] at hd
    have hl : endOfToken l = false := by
      cases l with
      | nil =>
        have : ps = [] := by simpa using hlen.symm
        subst this
        exact absurd (by simp [paths]) (hacc j)
      | cons b bs => simp [endOfToken, htok b (by simp)]
    simp only [run, hl, Bool.false_eq_true, if_false]
    exact ih hd.1.1 l pos ps hp ht htok hlen (fun i hi => hacc i (by simp [paths, hi]))
  | byte p k ih =>
    simp only [stops, List.mem_map] at hp
    obtain ⟨qs, hp, rfl⟩ := hp
    cases l with
    | nil => simp [Pat.testAll] at ht
    | cons b bs =>
      simp only [Pat.testAll, Bool.and_eq_true] at ht
      simp only [run, ht.1, if_true]
      exact ih hd bs _ qs hp ht.2 (fun c hc => htok c (by simp [hc])) (by simpa using hlen)
        (fun i hi => hacc i (by simp [paths]; exact hi))
  | lits qs k ih =>
    simp only [det, Bool.and_eq_true] at hd
    simp only [stops, List.mem_map] at hp
    obtain ⟨rs, hp, rfl⟩ := hp
    rw [testAll_append] at ht
    have h0 := testAll_length ht.1
    have hq : qs ≠ [] := by simpa using hd.2
    have : 0 < qs.length := List.length_pos_iff.mpr hq
    simp only [run]
    rw [if_neg (by omega), if_pos ht.1]
    exact ih hd.1 _ _ rs hp ht.2 (fun c hc => htok c (List.mem_of_mem_drop hc)) (by simp at hlen ⊢; omega)
      (fun i hi => hacc i (by simp [paths]; exact hi))
  | case p k els ih1 ih2 =>
    simp only [det, Bool.and_eq_true] at hd
    cases l with
    | nil => simp [run]
    | cons b bs =>
      simp only [stops, List.mem_cons, List.mem_append, List.mem_map] at hp
      rcases hp with rfl | ⟨qs, hp, rfl⟩ | hp
      · simp at hlen
      · simp only [Pat.testAll, Bool.and_eq_true] at ht
        simp only [run, ht.1, if_true]
        exact ih1 hd.1.1 bs _ qs hp ht.2 (fun c hc => htok c (by simp [hc])) (by simpa using hlen)
          (fun i hi => hacc i (by simp [paths]; exact Or.inl hi))
      · have hne : ps ≠ [] := by rintro rfl; simp at hlen
        have hb : p.test b = false := by
          cases hpb : p.test b with
          | false => rfl
          | true => have := (Trie.chain_paths hd.2 hpb).2 ps hp hne bs; rw [ht] at this; cases this
        simp only [run, hb, Bool.false_eq_true, if_false]
        exact ih2 hd.1.2 (b :: bs) pos ps hp ht htok hlen (fun i hi => hacc i (by simp [paths, hi]))

end Sip
