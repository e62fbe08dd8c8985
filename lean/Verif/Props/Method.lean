import Verif.Lemmas.Marks
import Verif.Props.Index
/-! # Methods (SipMethod.go): round trip and safety of `SipMethod.Parse` -/
namespace Sip

/-- the names of the known methods -/
def isMethodName (b : Bytes) : Bool := methodTable.any (fun e => str e.1 == b)

/-- the method of a message: an entry of the table of known methods, or any other token (RFC 3261 `extension-method`) -/
def Method.WF : Method → Prop
  | .known i => ∃ name, (name, i) ∈ methodTable
  | .token (some b) => b ≠ [] ∧ InSet csSipToken b ∧ isMethodName b = false
  | .token none => False

/-- the text of the method -/
def Method.text : Method → Bytes
  | .known i => sipMethodName.getD i []
  | .token p => writeStr p

/-- what the arena is charged: a token is stored with its length -/
def Method.cost : Method → Nat
  | .known _ => 0
  | .token p => (writeStr p).length + 2

/-- what may follow: not a token character; at the end of the input the method is not one of the three tokens on which the lookup panics -/
def Method.End (m : Method) (y : Bytes) : Prop := NotIn csSipToken y ∧ (y = [] → m.text ∉ [str "P", str "IN", str "RE"])

/-- The name written for a known method is the one it is recognised by. -/
theorem method_names (name : String) (i : Nat) (h : (name, i) ∈ methodTable) : sipMethodName[i]? = some (str name) ∧ i ≠ 0 ∧ str name ≠ [] ∧ InSet csSipToken (str name) := by
  have : ∀ e ∈ methodTable, sipMethodName[e.2]? = some (str e.1) ∧ e.2 ≠ 0 ∧ str e.1 ≠ [] ∧ InSet csSipToken (str e.1) := by decide +kernel
  exact this _ h

theorem method_encode (m : Method) (h : m.WF) : m.encode = .ok m.text := by
  match m, h with
  | .known i, ⟨name, h⟩ =>
    have := (method_names name i h).1
    simp only [Method.encode, this, Method.text, List.getD_eq_getElem?_getD, Option.getD_some]
  | .token _, _ => rfl

theorem tokenEnd_iff (y : Bytes) : TokenEnd y ↔ NotIn csSipToken y := by
  unfold TokenEnd NotIn
  constructor <;> intro h b hb
  · have := h b hb; rw [← (charset_sip b).1] at this; exact this
  · have := h b hb; rw [← (charset_sip b).1]; exact this

theorem method_text (m : Method) (h : m.WF) : m.text ≠ [] ∧ InSet csSipToken m.text := by
  match m, h with
  | .known i, ⟨name, h⟩ =>
    obtain ⟨h1, _, h3, h4⟩ := method_names name i h
    simp only [Method.text, List.getD_eq_getElem?_getD, h1, Option.getD_some]
    exact ⟨h3, h4⟩
  | .token (some b), h => exact ⟨h.1, h.2.1⟩

theorem nodup_of_append_token {b y b' y' : Bytes} (hb : InSet csSipToken b) (hb' : InSet csSipToken b') (hy : NotIn csSipToken y) (hy' : NotIn csSipToken y')
    (h : b ++ y = b' ++ y') : b = b' ∧ y = y' := by
  have e1 := takeWhile_split (p := csSipToken.mem) (s := b ++ y) rfl hb hy
  have e2 := takeWhile_split (p := csSipToken.mem) (s := b' ++ y') rfl hb' hy'
  rw [h, e2] at e1
  subst e1
  exact ⟨rfl, List.append_cancel_left h⟩

/-- **C15, C21** The text of a method reads back as that method. -/
theorem method_roundtrip (fl : Flags) (m : Method) (hm : m.WF) : Parses fl P.method m.text m m.cost m.End := by
  intro c y h1 h2 h3 h4 h5
  have ht := method_text m hm
  have h2' : c.src.drop c.pos = m.text ++ y := h2
  match m, hm with
  | .known i, ⟨name, h⟩ =>
    obtain ⟨g1, g2, g3, g4⟩ := method_names name i h
    have e : getSipMethodIndex c.src c.pos = .ok (i, c.pos + (str name).length) := by
      rw [method_index_iff _ _ _ _ g2]
      refine ⟨name, y, h, ?_, (tokenEnd_iff y).2 h3.1, rfl⟩
      rw [h2']; simp only [Method.text, List.getD_eq_getElem?_getD, g1, Option.getD_some]
    show parseMethod c = _
    unfold parseMethod
    rw [e]
    simp only [Out.ok_bind, if_neg g2, Method.text, List.getD_eq_getElem?_getD, g1, Option.getD_some]
    rfl
  | .token (some b), h =>
    have hnp : getSipMethodIndex c.src c.pos ≠ .panic := by
      rw [Ne, method_index_panics, h2']
      intro hh
      have hall : InSet csSipToken ((Method.token (some b)).text ++ y) := by
        rcases hh with e | e | e <;> rw [e] <;> decide +kernel
      have hy : y = [] := by
        cases y with
        | nil => rfl
        | cons d z =>
          have a1 := hall d (by simp)
          have a2 := h3.1 d rfl
          rw [a1] at a2; cases a2
      have := h3.2 hy
      apply this
      rw [hy, List.append_nil] at hh
      rcases hh with e | e | e <;> rw [e] <;> simp
    obtain ⟨i, n, e, hn, htk⟩ := method_index_returns c.src c.pos hnp
    have hi : i = 0 := by
      false_or_by_contra
      rename_i hi
      obtain ⟨name, y', g1, g2, g3, _⟩ := (method_index_iff _ _ _ _ hi).1 e
      obtain ⟨_, _, _, g4⟩ := method_names name i g1
      rw [h2'] at g2
      obtain ⟨k1, _⟩ := nodup_of_append_token ht.2 g4 h3.1 ((tokenEnd_iff _).1 g3) g2
      have := h.2.2
      have hx : isMethodName b = true := by
        unfold isMethodName
        rw [List.any_eq_true]
        exact ⟨_, g1, by simpa [Method.text, writeStr] using k1.symm⟩
      rw [hx] at this; cases this
    subst hi
    have hnb : n ≤ b.length := by
      have hin : InSet csSipToken ((c.src.drop c.pos).take n) := by
        intro d hd
        have := htk d hd
        rw [← (charset_sip d).1] at this; exact this
      false_or_by_contra
      rename_i hgt
      rw [h2'] at hn hin
      have hgt : b.length < n := by omega
      have hyl : (y.head?).isSome := by
        cases y with
        | nil => simp [Method.text, writeStr] at hn; omega
        | cons => rfl
      obtain ⟨d, hd⟩ := Option.isSome_iff_exists.1 hyl
      have a2 := h3.1 d hd
      have : d ∈ (((Method.token (some b)).text ++ y).take n) := by
        cases y with
        | nil => cases hd
        | cons d' z =>
          cases hd
          simp only [Method.text, writeStr, Option.getD_some]
          rw [List.take_append, List.mem_append]
          right
          obtain ⟨k, hk⟩ : ∃ k, n - b.length = k + 1 := ⟨n - b.length - 1, by omega⟩
          rw [hk]; simp
      rw [hin d this] at a2; cases a2
    show parseMethod c = _
    unfold parseMethod
    rw [e]
    simp only [Out.ok_bind, if_true]
    have hb2 : c.rest = b.take n ++ b.drop n ++ y := by rw [List.take_append_drop]; exact h2
    have hrl := rest_length c h4
    rw [h2, List.length_append] at hrl
    have hbl : (Method.token (some b)).text.length = b.length := rfl
    have hcost : (Method.token (some b)).cost = b.length + 2 := rfl
    rw [parseStrFromPos_spec csSipToken c (c.pos + n) (by omega) (by omega) (b.take n) (b.drop n) y hb2
      (by simp; omega) ⟨rfl, fun d hd => h.2.1 d (List.mem_of_mem_drop hd), h3.1⟩ (by simp; omega) (by rw [List.take_append_drop]; exact h.1)]
    simp only [Out.ok_bind, List.take_append_drop]
    simp only [Ctx.eat, Out.ok.injEq, Prod.mk.injEq, Ctx.mk.injEq, true_and, and_true, hbl, hcost, List.length_take, List.length_drop]
    omega

/-- a known method and an extension method meet the hypotheses -/
example : (Method.known 1).WF ∧ (Method.token (some (str "FOO"))).WF := ⟨⟨"INVITE", by decide +kernel⟩, by decide +kernel, by decide +kernel, by decide +kernel⟩

/-- **C28-C31 for methods** -/
theorem method_safe : Safe 1 true 1 2 Method.WF P.method := by
  intro c hc
  have e0 : P.method c = parseMethod c := rfl
  conv at e0 => rhs; unfold parseMethod
  by_cases hp : getSipMethodIndex c.src c.pos = .panic
  · rw [hp] at e0
    refine .of_panic e0 (fun h1 _ => ?_)
    obtain ⟨e, he1, he2⟩ := (h1.1 (by omega)).1
    have he2 := startsEol_head he2
    have hh := (method_index_panics _ _).1 hp
    have hx : (c.src.drop c.pos).drop (e - c.pos) = c.src.drop e := by rw [List.drop_drop]; congr 1; omega
    have hmem : (0x0d : UInt8) ∈ c.src.drop c.pos := by
      rw [← hx] at he2
      exact List.mem_of_mem_drop (List.mem_of_mem_head? he2)
    rcases hh with h | h | h <;> rw [h] at hmem <;> revert hmem <;> decide +kernel
  obtain ⟨i, n, e, hn, htk⟩ := method_index_returns c.src c.pos hp
  rw [e] at e0
  simp only [Out.ok_bind] at e0
  have hrl := rest_length c hc.pos
  have hn' : n ≤ c.rest.length := hn
  have hin : InSet csSipToken ((c.src.drop c.pos).take n) := by
    intro d hd
    have := htk d hd
    rw [← (charset_sip d).1] at this; exact this
  have hncr : ∀ b ∈ (c.src.drop c.pos).take n, b ≠ 0x0d := by
    intro b hb hh; subst hh
    have := hin _ hb
    revert this; decide +kernel
  by_cases hi : i = 0
  · subst hi
    rw [if_pos rfl] at e0
    have hs := safe_strFromPos csSipToken (by decide +kernel) (c.pos + n) c hc (by omega) (by omega) (by rw [Nat.add_sub_cancel_left]; exact hncr)
    rcases hpc : parseStrFromPos csSipToken (c.pos + n) c with ⟨_ | v, c1⟩ | _ | _ <;> rw [hpc] at e0
    · exact .of_none e0 (hs.step _ _ hpc) (fun _ => hs.none rfl _ hpc) (hs.nmem _ hpc)
    · obtain ⟨⟨hv, x, hx1, hx2, hx3⟩, hL, hu⟩ := hs.some _ _ hpc
      refine .of_okL e0 (hs.step _ _ hpc) ?_ (fun _ => hL (PreL.zero _)) hu
      rw [Nat.add_sub_cancel_left] at hx1
      have hvin : InSet csSipToken v := by
        intro d hd; rw [hx1] at hd
        rcases List.mem_append.1 hd with h | h
        · exact hin d h
        · exact hx2 d h
      refine ⟨hv, hvin, ?_⟩
      cases hmn : isMethodName v with
      | false => rfl
      | true =>
        exfalso
        unfold isMethodName at hmn
        rw [List.any_eq_true] at hmn
        obtain ⟨⟨name, j⟩, hj, hname⟩ := hmn
        have hname : str name = v := by simpa using hname
        obtain ⟨_, hj0, _, _⟩ := method_names name j hj
        have hd : c.src.drop c.pos = v ++ (c.src.drop (c.pos + n)).dropWhile csSipToken.mem := by
          rw [hx1, hx3, List.append_assoc, List.takeWhile_append_dropWhile, ← List.drop_drop, List.take_append_drop]
        have : getSipMethodIndex c.src c.pos = .ok (j, c.pos + (str name).length) := by
          rw [method_index_iff _ _ _ _ hj0]
          exact ⟨name, _, hj, by rw [hname]; exact hd, (tokenEnd_iff _).2 (notIn_dropWhile _ _), rfl⟩
        rw [this] at e
        simp only [Out.ok.injEq, Prod.mk.injEq] at e
        exact hj0 e.1
    · exact .of_panic e0 (fun _ hr => hs.nopanic (Pre.zero _) hr hpc)
    · exact absurd hpc (hs.nohang (PreH.zero _))
  · rw [if_neg hi] at e0
    have st : Step c (c.setPos (c.pos + n)) := Step.setPos hc (by omega) (by omega)
    refine .of_ok e0 st ?_ ?_ (by simp [Ctx.setPos]; omega)
    · obtain ⟨name, y', g1, _⟩ := (method_index_iff _ _ _ _ hi).1 e
      exact ⟨name, g1⟩
    · refine line_of_noCR (c.rest.take n) (c.rest.drop n) (by rw [List.take_append_drop]) ?_ hncr
      simp [Ctx.setPos, Ctx.rest]
      have : c.rest.length = c.src.length - c.pos := by simp [Ctx.rest]
      omega

end Sip
