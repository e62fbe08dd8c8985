import Verif.Lemmas.Trie
/-! Where a trie stops when nothing is recognised. -/
namespace Sip

/-- the pattern sequences up to a place where the trie can stop -/
def Trie.nodes : Trie → List (List Pat)
  | .fail => [[]]
  | .acc _ k => k.nodes
  | .byte p k => [] :: k.nodes.map (p :: ·)
  | .lits ps k => [] :: k.nodes.map (ps ++ ·)
  | .case p k els => k.nodes.map (p :: ·) ++ els.nodes

/-- the trie stops at one of its nodes -/
theorem Trie.run_stop (t : Trie) (hd : t.det = true) (l : Bytes) (pos q : Nat) (h : t.run l pos = .ok (0, q)) :
    ∃ qs ∈ t.nodes, Pat.testAll qs l = true ∧ q = pos + qs.length := by
  induction t generalizing l pos with
  | fail => simp only [run, Out.ok.injEq, Prod.mk.injEq] at h; exact ⟨[], by simp [nodes], rfl, by simp [h.2]⟩
  | acc j k ih =>
    simp only [det, Bool.and_eq_true] at hd
    simp only [run] at h
    split at h
    · simp only [Out.ok.injEq, Prod.mk.injEq] at h
      have := hd.1.2; rw [h.1] at this; simp at this
    · exact ih hd.1.1 l pos h
  | byte p k ih =>
    cases l with
    | nil => simp only [run, Out.ok.injEq, Prod.mk.injEq] at h; exact ⟨[], by simp [nodes], rfl, by simp [h.2]⟩
    | cons b bs =>
      simp only [run] at h
      split at h
      · next hb =>
        obtain ⟨qs, h1, h2, h3⟩ := ih hd bs (pos + 1) h
        exact ⟨p :: qs, by simp [nodes]; exact h1, by simp [Pat.testAll, hb, h2], by simp; omega⟩
      · simp only [Out.ok.injEq, Prod.mk.injEq] at h; exact ⟨[], by simp [nodes], rfl, by simp [h.2]⟩
  | lits ps k ih =>
    simp only [det, Bool.and_eq_true] at hd
    simp only [run] at h
    split at h
    · simp only [Out.ok.injEq, Prod.mk.injEq] at h; exact ⟨[], by simp [nodes], rfl, by simp [h.2]⟩
    · split at h
      · next hb =>
        obtain ⟨qs, h1, h2, h3⟩ := ih hd.1 _ _ h
        exact ⟨ps ++ qs, by simp [nodes]; exact Or.inr h1, testAll_append.mpr ⟨hb, h2⟩, by simp; omega⟩
      · simp only [Out.ok.injEq, Prod.mk.injEq] at h; exact ⟨[], by simp [nodes], rfl, by simp [h.2]⟩
  | case p k els ih1 ih2 =>
    simp only [det, Bool.and_eq_true] at hd
    cases l with
    | nil => simp [run] at h
    | cons b bs =>
      simp only [run] at h
      split at h
      · next hb =>
        obtain ⟨qs, h1, h2, h3⟩ := ih1 hd.1.1 bs (pos + 1) h
        exact ⟨p :: qs, by simp [nodes]; exact Or.inl h1, by simp [Pat.testAll, hb, h2], by simp; omega⟩
      · obtain ⟨qs, h1, h2, h3⟩ := ih2 hd.1.2 _ _ h
        exact ⟨qs, by simp [nodes, h1], h2, h3⟩

theorem Trie.chain_nodes {p : Pat} {els : Trie} (h : els.chainAvoids p = true) {b : UInt8} (hb : p.test b = true) :
    ∀ ps ∈ els.nodes, ps ≠ [] → ∀ bs, Pat.testAll ps (b :: bs) = false := by
  induction els with
  | fail => simp [nodes]
  | acc i k _ => simp [chainAvoids] at h
  | byte q k _ => simp [chainAvoids] at h
  | lits q k _ => simp [chainAvoids] at h
  | case q k els _ ih =>
    simp only [chainAvoids, Bool.and_eq_true, decide_eq_true_eq] at h
    have hq := Pat.test_disjoint h.1.1 h.1.2 hb
    intro ps hm hne bs
    simp only [nodes, List.mem_append, List.mem_map] at hm
    rcases hm with ⟨x, _, rfl⟩ | hm
    · simp [Pat.testAll, hq]
    · exact ih h.2 ps hm hne bs

/-- it stops behind every node whose tests the input meets -/
theorem Trie.run_passes (t : Trie) (hd : t.det = true) (l : Bytes) (pos q : Nat) (h : t.run l pos = .ok (0, q)) (qs : List Pat) (hq : qs ∈ t.nodes) (ht : Pat.testAll qs l = true) :
    pos + qs.length ≤ q := by
  have hge : ∀ {t : Trie} {l : Bytes} {pos q : Nat}, t.run l pos = .ok (0, q) → pos ≤ q := by
    intro t l pos q h
    obtain ⟨n, _, rfl, _⟩ := Trie.run_pos _ _ _ _ _ h
    omega
  induction t generalizing l pos qs with
  | fail => simp only [nodes, List.mem_singleton] at hq; subst hq; exact hge h
  | acc j k ih =>
    simp only [det, Bool.and_eq_true] at hd
    simp only [run] at h
    split at h
    · simp only [Out.ok.injEq, Prod.mk.injEq] at h
      have := hd.1.2; rw [h.1] at this; simp at this
    · exact ih hd.1.1 l pos h qs hq ht
  | byte p k ih =>
    simp only [nodes, List.mem_cons, List.mem_map] at hq
    rcases hq with rfl | ⟨x, hx, rfl⟩
    · exact hge h
    · cases l with
      | nil => simp [Pat.testAll] at ht
      | cons b bs =>
        simp only [Pat.testAll, Bool.and_eq_true] at ht
        simp only [run, ht.1, if_true] at h
        have := ih hd bs _ h x hx ht.2
        simp; omega
  | lits ps k ih =>
    simp only [det, Bool.and_eq_true] at hd
    simp only [nodes, List.mem_cons, List.mem_map] at hq
    rcases hq with rfl | ⟨x, hx, rfl⟩
    · exact hge h
    · rw [testAll_append] at ht
      have h0 := testAll_length ht.1
      have hq : ps ≠ [] := by simpa using hd.2
      have : 0 < ps.length := List.length_pos_iff.mpr hq
      simp only [run] at h
      rw [if_neg (by omega), if_pos ht.1] at h
      have := ih hd.1 _ _ h x hx ht.2
      simp; omega
  | case p k els ih1 ih2 =>
    simp only [det, Bool.and_eq_true] at hd
    simp only [nodes, List.mem_append, List.mem_map] at hq
    cases l with
    | nil => simp [run] at h
    | cons b bs =>
      rcases hq with ⟨x, hx, rfl⟩ | hq
      · simp only [Pat.testAll, Bool.and_eq_true] at ht
        simp only [run, ht.1, if_true] at h
        have := ih1 hd.1.1 bs _ h x hx ht.2
        simp; omega
      · cases qs with
        | nil => exact hge h
        | cons p' qs =>
          have hb : p.test b = false := by
            cases hpb : p.test b with
            | false => rfl
            | true => have := Trie.chain_nodes hd.2 hpb _ hq (by simp) bs; rw [ht] at this; cases this
          simp only [run, hb, Bool.false_eq_true, if_false] at h
          exact ih2 hd.1.2 _ _ h _ hq ht

/-- an accepted path is recognised at the end of a token, if nothing else is recognised in front of its end -/
theorem Trie.run_complete' (t : Trie) (hd : t.det = true) (l : Bytes) (pos i : Nat) (ps : List Pat) (hp : (ps, i) ∈ t.paths)
    (ht : Pat.testAll ps l = true) (htok : ∀ n < ps.length, endOfToken (l.drop n) = true → ∀ j, (ps.take n, j) ∉ t.paths) (he : endOfToken (l.drop ps.length) = true) :
    t.run l pos = .ok (i, pos + ps.length) := by
  induction t generalizing l pos ps with
  | fail => simp [paths] at hp
  | acc j k ih =>
    simp only [det, Bool.and_eq_true] at hd
    simp only [paths, List.mem_cons, Prod.mk.injEq] at hp
    rcases hp with ⟨rfl, rfl⟩ | hp
    · simp only [List.length_nil, List.drop_zero] at he
      simp [run, he]
    · have hne : ps ≠ [] := by
        rintro rfl
        cases k with
        | fail => simp [paths] at hp
        | acc _ _ => simp at hd
        | byte _ _ => simp [paths] at hp
        | lits qs _ =>
          simp only [paths, List.mem_map, Prod.mk.injEq, List.append_eq_nil_iff] at hp
          obtain ⟨x, _, ⟨rfl, _⟩, _⟩ := hp
          simp [det] at hd
        | case p k2 els =>
          simp only [paths, List.mem_append, List.mem_map, Prod.mk.injEq] at hp
          rcases hp with ⟨x, _, h, _⟩ | hp
          · cases h
          · simp only [det, Bool.and_eq_true] at hd
            have := hd.1.1.2
            clear hd ih ht htok he
            induction els with
            | fail => simp [paths] at hp
            | acc i k _ => simp [chainAvoids] at this
            | byte q k _ => simp [chainAvoids] at this
            | lits q k _ => simp [chainAvoids] at this
            | case q k els _ ih =>
              simp only [chainAvoids, Bool.and_eq_true] at this
              simp only [paths, List.mem_append, List.mem_map, Prod.mk.injEq] at hp
              rcases hp with ⟨x, _, h, _⟩ | hp
              · cases h
              · exact ih hp this.2
      have hl : endOfToken l = false := by
        cases hl : endOfToken l with
        | false => rfl
        | true => exact absurd (by simp [paths]) (htok 0 (List.length_pos_iff.mpr hne) (by simpa using hl) j)
      simp only [run, hl, Bool.false_eq_true, if_false]
      exact ih hd.1.1 l pos ps hp ht (fun n hn h j hj => htok n hn h j (by simp [paths, hj])) he
  | byte p k ih =>
    simp only [paths, List.mem_map, Prod.mk.injEq] at hp
    obtain ⟨⟨qs, j⟩, hp, rfl, rfl⟩ := hp
    cases l with
    | nil => simp [Pat.testAll] at ht
    | cons b bs =>
      simp only [Pat.testAll, Bool.and_eq_true] at ht
      simp only [run, ht.1, if_true]
      rw [ih hd bs (pos + 1) qs hp ht.2 (fun n hn h j hj => htok (n + 1) (by simp; omega) (by simpa using h) j (by simp [paths]; exact hj)) (by simpa using he)]
      simp; omega
  | lits qs k ih =>
    simp only [det, Bool.and_eq_true] at hd
    simp only [paths, List.mem_map, Prod.mk.injEq] at hp
    obtain ⟨⟨rs, j⟩, hp, rfl, rfl⟩ := hp
    rw [testAll_append] at ht
    have hlen := testAll_length ht.1
    have hq : qs ≠ [] := by simpa using hd.2
    have : 0 < qs.length := List.length_pos_iff.mpr hq
    simp only [run]
    rw [if_neg (by omega), if_pos ht.1]
    rw [ih hd.1 _ _ rs hp ht.2 ?_ (by rw [List.drop_drop]; simpa using he)]
    · simp [Nat.add_assoc]
    · intro n hn h j hj
      refine htok (qs.length + n) (by simp; omega) (by rw [← List.drop_drop]; exact h) j ?_
      simp only [paths, List.mem_map, Prod.mk.injEq]
      exact ⟨_, hj, by rw [List.take_length_add_append], rfl⟩
  | case p k els ih1 ih2 =>
    simp only [det, Bool.and_eq_true] at hd
    simp only [paths, List.mem_append, List.mem_map, Prod.mk.injEq] at hp
    rcases hp with ⟨⟨qs, j⟩, hp, rfl, rfl⟩ | hp
    · cases l with
      | nil => simp [Pat.testAll] at ht
      | cons b bs =>
        simp only [Pat.testAll, Bool.and_eq_true] at ht
        simp only [run, ht.1, if_true]
        rw [ih1 hd.1.1 bs (pos + 1) qs hp ht.2 (fun n hn h j hj => htok (n + 1) (by simp; omega) (by simpa using h) j (by simp [paths]; exact Or.inl hj)) (by simpa using he)]
        simp; omega
    · cases l with
      | nil =>
        have : ps = [] := by cases ps with | nil => rfl | cons _ _ => simp [Pat.testAll] at ht
        subst this
        exfalso
        have := hd.2
        clear hd ih1 ih2 ht htok he
        induction els with
        | fail => simp [paths] at hp
        | acc i k _ => simp [chainAvoids] at this
        | byte q k _ => simp [chainAvoids] at this
        | lits q k _ => simp [chainAvoids] at this
        | case q k els _ ih =>
          simp only [chainAvoids, Bool.and_eq_true] at this
          simp only [paths, List.mem_append, List.mem_map, Prod.mk.injEq] at hp
          rcases hp with ⟨x, _, h, _⟩ | hp
          · cases h
          · exact ih hp this.2
      | cons b bs =>
        have hb : p.test b = false := by
          cases hpb : p.test b with
          | false => rfl
          | true => have := (Trie.chain_paths hd.2 hpb).1 ps i hp bs; rw [ht] at this; cases this
        simp only [run, hb, Bool.false_eq_true, if_false]
        exact ih2 hd.1.2 (b :: bs) pos ps hp ht (fun n hn h j hj => htok n hn h j (by simp [paths, hj])) he

end Sip
