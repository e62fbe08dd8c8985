import Verif.Model.Param
import Verif.Lemmas.QuotedVal
import Verif.Props.UriSafe
/-!
# C19: header parameters

`ParamsText` is an independent grammar of `*(SEMI generic-param)` with white space allowed around `;` and `=`; the theorems say which list of
parameters a text of the grammar gives, and that a list is written so that it is read again.
-/
namespace Sip

/-- optional white space -/
def IsSWS (w : Bytes) : Prop := w = [] ∨ IsLWS w

/-! ## Grammar -/

/-- a parameter value and its text (RFC 3261 `gen-value`, with any text in brackets) -/
inductive GenText : GenValue → Bytes → Prop
  | token (v) (hne : v ≠ []) (h : InSet csSipToken v) : GenText (.token v) v
  | quoted (t o) (h : QText t o) : GenText (.quoted o) (0x22 :: t ++ [0x22])
  | bracket (x) (h : 0x5d ∉ x) : GenText (.ipv6 (0x5b :: x ++ [0x5d])) (0x5b :: x ++ [0x5d])

/-- a parameter and its text -/
inductive ParamText : GenericParam → Bytes → Prop
  | bare (name) (hne : name ≠ []) (h : InSet csSipToken name) : ParamText ⟨name, none⟩ name
  | value (name v w1 w2 t) (hne : name ≠ []) (h : InSet csSipToken name) (h1 : IsSWS w1) (h2 : IsSWS w2) (hv : GenText v t) :
      ParamText ⟨name, some v⟩ (name ++ w1 ++ 0x3d :: w2 ++ t)

/-- parameters, each after the separator, with white space around it -/
inductive ParamsText (sep : UInt8) : List GenericParam → Bytes → Prop
  | nil : ParamsText sep [] []
  | cons (p ps w2 t w r) (h2 : IsSWS w2) (ht : ParamText p t) (hw : IsSWS w) (hlast : ps = [] → w = []) (hr : ParamsText sep ps r) :
      ParamsText sep (p :: ps) (sep :: w2 ++ t ++ w ++ r)

/-! ## Arena bytes -/

def GenValue.cost : GenValue → Nat
  | .token v => v.length + 2
  | .quoted v => v.length + 2
  | .ipv6 v => v.length + 2
def GenericParam.cost (p : GenericParam) : Nat := p.name.length + 2 + (match p.value with | some v => v.cost | none => 0)
def genericParamsCost (ps : List GenericParam) : Nat := (ps.map fun p => 8 + p.cost).sum

/-! ## What may follow -/

/-- what may follow the parameters: nothing, an end of line, or a byte that cannot continue them -/
def GenEnd (sep : UInt8) (y : Bytes) : Prop :=
  y = [] ∨ StartsEol y ∨ ∃ b r, y = b :: r ∧ csSipToken.mem b = false ∧ isLwsChar b = false ∧ b ≠ sep ∧ b ≠ 0x3d

/-- a separator -/
structure SepOk (sep : UInt8) : Prop where
  token : csSipToken.mem sep = false
  lws : isLwsChar sep = false
  eq : sep ≠ 0x3d

theorem token_lws (b : UInt8) : csSipToken.mem b = true → isLwsChar b = false ∧ b ≠ 0x3d ∧ b ≠ 0x22 ∧ b ≠ 0x0d ∧ b ≠ 0x3c := by
  revert b; decide +kernel
theorem lws_token (b : UInt8) (h : isLwsChar b = true) : csSipToken.mem b = false := by
  cases hb : csSipToken.mem b with
  | false => rfl
  | true => rw [(token_lws b hb).1] at h; cases h

theorem swsLen_eol {y : Bytes} (h : StartsEol y) : swsLen y = 0 := by
  obtain ⟨z, rfl, hz⟩ := h
  unfold swsLen
  have hr : runLen isSpHtab ([0x0d, 0x0a] ++ z) = 0 := by simp [runLen, isSpHtab]
  rw [hr]
  simp only [List.drop_zero]
  cases z with
  | nil => rfl
  | cons w r =>
    have := hz w (by simp)
    simp [isSpHtab, this]
theorem swsLen_noWs {y : Bytes} (h : NoWs y) : swsLen y = 0 := by
  cases y with
  | nil => rfl
  | cons b r => exact swsLen_cons_not_lws (h b (by simp))
theorem GenEnd.sws {sep : UInt8} {y : Bytes} (h : GenEnd sep y) : swsLen y = 0 := by
  rcases h with rfl | h | ⟨b, r, rfl, _, h, _⟩
  · rfl
  · exact swsLen_eol h
  · exact swsLen_cons_not_lws h
theorem GenEnd.token {sep : UInt8} {y : Bytes} (h : GenEnd sep y) : NotIn csSipToken y := by
  rcases h with rfl | h | ⟨b, r, rfl, h, _⟩
  · intro b hb; simp at hb
  · intro b hb; rw [startsEol_head h] at hb; cases hb; decide +kernel
  · intro c hc; simp at hc; subst hc; exact h

/-- the first byte of white space is white space -/
theorem isSWS_head {w : Bytes} (h : IsSWS w) : ∀ b ∈ w.head?, isLwsChar b = true := by
  intro b hb
  have hwsp : ∀ l, AllWsp l → ∀ b ∈ l, isLwsChar b = true := by
    intro l hl b hb; rcases hl b hb with rfl | rfl <;> decide +kernel
  rcases h with rfl | ⟨x, hne, hx, rfl | ⟨a, ha, rfl⟩⟩
  · simp at hb
  · exact hwsp _ hx b (List.mem_of_mem_head? hb)
  · cases a with
    | nil => simp at hb; subst hb; decide +kernel
    | cons g a => simp at hb; subst hb; exact hwsp _ ha g (by simp)
theorem isSWS_noEol {w y : Bytes} (h : IsSWS w) (hy : ¬ StartsEol y) : ¬ StartsEol (w ++ y) := by
  rcases h with rfl | ⟨x, hne, hx, rfl | ⟨a, ha, rfl⟩⟩
  · exact hy
  · intro he
    have := startsEol_head he
    cases w with
    | nil => exact hne rfl
    | cons g x => simp at this; subst this; rcases hx 0x0d (by simp) with h | h <;> cases h
  · intro he
    cases a with
    | cons g a =>
      have := startsEol_head he
      simp at this; subst this
      rcases ha 0x0d (by simp) with h | h <;> cases h
    | nil =>
      obtain ⟨z, hz, hzz⟩ := he
      simp only [List.nil_append, List.cons_append, List.cons.injEq, true_and] at hz
      cases x with
      | nil => exact hne rfl
      | cons g x =>
        rw [← hz] at hzz
        have h := hzz g (by simp)
        rcases hx g (by simp) with h' | h'
        · exact h.1 h'
        · exact h.2 h'
theorem not_startsEol_cons {b : UInt8} {r : Bytes} (h : isLwsChar b = false) : ¬ StartsEol (b :: r) := by
  intro he
  have := startsEol_head he
  simp at this; subst this
  revert h; decide +kernel

/-! ## Rules -/

namespace Parses
variable {fl : Flags} {F : Bytes → Prop}

/-- a token read by the escapable parser: the set contains `%`, so nothing is unescaped -/
theorem tokenEsc (t : Bytes) (hne : t ≠ []) (ht : InSet csSipToken t) : Parses fl (P.strEsc csSipToken) t t (t.length + 2) (NotIn csSipToken) := by
  intro c y h1 h2 h3 h4 h5
  show parseStrEscapable csSipToken c = _
  have hd : Decodes csSipToken c.rest t y := by
    rw [h2]
    clear h5 h2 hne
    induction t with
    | nil => exact .stop y (fun b hb => ⟨h3 b hb, fun e => by
        subst e; have := h3 _ hb; revert this; decide +kernel⟩)
    | cons b t ih => exact .lit b _ _ _ (ht b (by simp)) (ih (fun x hx => ht x (by simp [hx])))
  rw [(parseStrEscapable_spec csSipToken c t y hd (by omega)).1, if_neg hne, h2]
  simp only [Ctx.eat, Out.ok.injEq, Prod.mk.injEq, Ctx.mk.injEq, true_and, and_true, List.length_append]; omega

/-- the mark is not there; an end of line may follow -/
theorem markNo' (m : UInt8) : Parses fl (P.markCanOmmit m) [] false 0 (fun y => y ≠ [] ∧ y.head? ≠ some m ∧ swsLen y = 0) := by
  intro c y h1 h2 h3 h4 h5
  simp only [List.nil_append] at h2
  have e1 : c.sws = c := by rw [sws_eq c h4, h2, h3.2.2]; rfl
  have hsp := swsMarkCanOmmit_spec c h4 m
  rw [e1, h2] at hsp
  cases y with
  | nil => exact absurd rfl h3.1
  | cons b y =>
    have hbm : b ≠ m := by intro e; exact h3.2.1 (by simp [e])
    simp only [if_neg hbm] at hsp
    simp [P.markCanOmmit, hsp, Ctx.eat]

/-- the mark is not there, and the white space before what is there instead is consumed -/
theorem markSpace (m : UInt8) (w : Bytes) (hw : IsSWS w) : Parses fl (P.markCanOmmit m) w false 0 (fun y => y ≠ [] ∧ y.head? ≠ some m ∧ NoWs y) := by
  intro c y h1 h2 h3 h4 h5
  have e1 : (Out.ok (some (), c.sws) : Out (Option Unit × Ctx)) = .ok (some (), c.eat w.length 0) := sws w hw c y h1 h2 h3.2.2 h4 (by omega)
  have e1 : c.sws = c.eat w.length 0 := by simpa using e1
  have hsp := swsMarkCanOmmit_spec c h4 m
  rw [e1, Ctx.rest_eat c w y 0 h2] at hsp
  cases y with
  | nil => exact absurd rfl h3.1
  | cons b y =>
    have hbm : b ≠ m := by intro e; exact h3.2.1 (by simp [e])
    simp only [if_neg hbm] at hsp
    simp [P.markCanOmmit, hsp]

theorem bracket (x : Bytes) (h : 0x5d ∉ x) : Parses fl parseBracketValue (0x5b :: x ++ [0x5d]) (0x5b :: x ++ [0x5d]) (x.length + 4) F := by
  intro c y h1 h2 h3 h4 h5
  have hi : c.rest.findIdx? (· = 0x5d) = some (x.length + 1) := by
    rw [h2, List.findIdx?_eq_some_iff_getElem]
    refine ⟨by simp, by simp, ?_⟩
    intro j hj
    cases j with
    | zero => simp
    | succ j =>
      simp only [List.cons_append, List.getElem_cons_succ, List.append_assoc]
      rw [List.getElem_append_left (by omega)]
      simp only [decide_eq_true_eq]
      intro e; exact h (e ▸ List.getElem_mem _)
  have ht : c.rest.take (x.length + 1 + 1) = 0x5b :: x ++ [0x5d] := by
    rw [h2, List.take_append_of_le_length (by simp), List.take_of_length_le (by simp)]
  unfold parseBracketValue
  rw [hi]
  simp only [ht, Sip.allocStr]
  rw [if_neg (by simp; omega)]
  simp [Ctx.adv, Ctx.eat]
end Parses

/-! ## One parameter -/

theorem genText_head {v : GenValue} {t : Bytes} (h : GenText v t) : ∃ b r, t = b :: r ∧ isLwsChar b = false ∧
    (csSipToken.mem b = true ∨ b = 0x22 ∨ b = 0x5b) := by
  cases h with
  | token v hne h =>
    obtain ⟨b, r, rfl⟩ := List.exists_cons_of_ne_nil hne
    exact ⟨b, r, rfl, (token_lws b (h b (by simp))).1, Or.inl (h b (by simp))⟩
  | quoted t o h => exact ⟨0x22, _, rfl, by decide +kernel, Or.inr (Or.inl rfl)⟩
  | bracket x h => exact ⟨0x5b, _, rfl, by decide +kernel, Or.inr (Or.inr rfl)⟩

theorem genValue_text {fl : Flags} {v : GenValue} {t : Bytes} (h : GenText v t) : Parses fl GenericParam.parseValue t v v.cost (NotIn csSipToken) := by
  unfold GenericParam.parseValue
  cases h with
  | token v hne h =>
    obtain ⟨b, r, rfl⟩ := List.exists_cons_of_ne_nil hne
    refine Parses.peek ?_
    simp only
    rw [if_pos (h b (by simp))]
    exact Parses.bind' (Parses.str csSipToken _ hne h) (Parses.pure _) (fun y hy => by simpa using hy) (by simp) rfl
  | quoted t o h =>
    refine Parses.peek ?_
    simp only
    rw [if_neg (by decide +kernel), if_pos (by decide +kernel)]
    exact Parses.bind' (F := AnyText) (Parses.quoted t o h) (Parses.pure _) (fun y hy => trivial) (by simp) rfl
  | bracket x h =>
    refine Parses.peek ?_
    simp only
    rw [if_neg (by decide +kernel), if_neg (by decide +kernel), if_pos trivial]
    exact Parses.bind' (F := AnyText) (Parses.bracket x h) (Parses.pure _) (fun y hy => trivial) (by simp) (by simp [GenValue.cost])

theorem genericParam_value {fl : Flags} {name w1 w2 t : Bytes} {v : GenValue} (hne : name ≠ []) (h : InSet csSipToken name) (h1 : IsSWS w1) (h2 : IsSWS w2) (hv : GenText v t) :
    Parses fl GenericParam.parse (name ++ w1 ++ 0x3d :: w2 ++ t) ⟨name, some v⟩ (GenericParam.cost ⟨name, some v⟩) (NotIn csSipToken) := by
  unfold GenericParam.parse
  have hhead : ∀ y, ∃ b r, (w1 ++ 0x3d :: w2 ++ t) ++ y = b :: r ∧ (isLwsChar b = true ∨ b = 0x3d) := by
    intro y
    cases w1 with
    | nil => exact ⟨_, _, rfl, Or.inr rfl⟩
    | cons g w1 => exact ⟨g, _, rfl, Or.inl (isSWS_head h1 g (by simp))⟩
  refine Parses.bind' (Parses.orErr (Parses.tokenEsc name hne h)) (t2 := w1 ++ 0x3d :: w2 ++ t) (n2 := v.cost) ?_ ?_ (by simp) (by simp [GenericParam.cost])
  · refine Parses.peekNE (by simp) ?_
    obtain ⟨b, r, hb, hbb⟩ := hhead []
    rw [List.append_nil] at hb
    rw [hb]
    simp only [List.head?_cons]
    rw [if_neg (by rcases hbb with h | rfl <;> simp [*]), ← hb]
    have hm := Parses.markYes (fl := fl) 0x3d (by decide +kernel) w1 w2 h1 h2
    refine Parses.bind' hm (t2 := t) (n2 := v.cost) ?_ ?_ (by simp) (by omega)
    · rw [if_neg (by simp)]
      exact Parses.bind' (genValue_text hv) (Parses.pure _) (fun y hy => by simpa using hy) (by simp) rfl
    · intro y _
      obtain ⟨b, r, rfl, hbl, _⟩ := genText_head hv
      exact noWs_of rfl hbl
  · intro y hy
    obtain ⟨b, r, hb, hbb⟩ := hhead y
    intro c hc
    rw [hb] at hc; simp at hc; subst hc
    rcases hbb with h | rfl
    · exact lws_token _ h
    · decide +kernel

/-- a parameter without value at the end -/
theorem genericParam_bare {fl : Flags} {name : Bytes} (hne : name ≠ []) (h : InSet csSipToken name) :
    Parses fl GenericParam.parse name ⟨name, none⟩ (GenericParam.cost ⟨name, none⟩) (fun y => NotIn csSipToken y ∧ y.head? ≠ some 0x3d ∧ swsLen y = 0) := by
  unfold GenericParam.parse
  refine Parses.bind' (Parses.orErr (Parses.tokenEsc name hne h)) (t2 := []) (n2 := 0) ?_ (fun y hy => hy.1) (by simp) (by simp [GenericParam.cost])
  refine Parses.peekEnd (fun y hy => ?_)
  cases y with
  | nil => exact Parses.pure _
  | cons b y =>
    simp only [List.head?_cons]
    by_cases hb : (b ≠ 0x3d && !isLwsChar b) = true
    · rw [if_pos hb]; exact Parses.pure _
    · rw [if_neg hb]
      refine Parses.bind' (Parses.markNo' 0x3d) (t1 := []) (t2 := []) (n2 := 0) ?_ (fun z hz => by rw [hz]; exact ⟨by simp, hy.2.1, hy.2.2⟩) rfl rfl
      rw [if_pos (by simp)]; exact Parses.pure _

/-- a parameter without value followed by white space and something else: the white space is consumed with it -/
theorem genericParam_bareSpace {fl : Flags} {name w : Bytes} (hne : name ≠ []) (h : InSet csSipToken name) (hw : IsLWS w) :
    Parses fl GenericParam.parse (name ++ w) ⟨name, none⟩ (GenericParam.cost ⟨name, none⟩) (fun y => y ≠ [] ∧ y.head? ≠ some 0x3d ∧ NoWs y) := by
  unfold GenericParam.parse
  have hwne : w ≠ [] := by
    rintro rfl
    obtain ⟨x, hx, _, h | ⟨a, _, h⟩⟩ := hw
    · exact hx h.symm
    · simp at h
  obtain ⟨b, r, rfl⟩ := List.exists_cons_of_ne_nil hwne
  have hb : isLwsChar b = true := isSWS_head (Or.inr hw) b (by simp)
  refine Parses.bind' (Parses.orErr (Parses.tokenEsc name hne h)) (t2 := b :: r) (n2 := 0) ?_ (fun y hy => ?_) rfl (by simp [GenericParam.cost])
  · refine Parses.peek ?_
    simp only
    rw [if_neg (by simp [hb])]
    refine Parses.bind' (Parses.markSpace 0x3d (b :: r) (Or.inr hw)) (t2 := []) (n2 := 0) ?_ (fun z hz => by simpa using hz) (by simp) rfl
    rw [if_pos (by simp)]; exact Parses.pure _
  · intro c hc; simp at hc; subst hc; exact lws_token _ hb

/-! ## The list -/

theorem genericParams_leave {κ : Type} {fl : Flags} (sep : UInt8) (setK : κ → GenericParam → P (Option κ)) (s : κ × List GenericParam) :
    Parses fl (genericParamsBody sep setK s) [] (.inr s) 0 (GenEnd sep) := by
  obtain ⟨k, acc⟩ := s
  unfold genericParamsBody
  refine Parses.get (fun c y h1 h2 h3 h4 h5 => ?_)
  simp only [List.nil_append] at h2
  rw [cur_eq_head, h2]
  rcases h3 with rfl | h3 | ⟨b, r, rfl, hb1, hb2, hb3, hb4⟩
  · rfl
  · rw [startsEol_head h3]
    simp only
    rw [if_pos ((isOnlyCRLF_spec _ _).2 (by have := h2; unfold Ctx.rest at this; rw [this]; exact h3))]
    rfl
  · simp only [List.head?_cons]
    rw [if_neg (by
      rw [isOnlyCRLF_spec]; have := h2; unfold Ctx.rest at this; rw [this]; exact not_startsEol_cons hb2), if_pos (by simp [hb2, hb3])]
    rfl

theorem nextParamMark_yes {fl : Flags} (sep : UInt8) (hm : isLwsChar sep = false) (w1 w2 : Bytes) (hw1 : IsSWS w1) (hw2 : IsSWS w2) :
    Parses fl (nextParamMark sep) (w1 ++ sep :: w2) true 0 NoWs := by
  intro c y h1 h2 h3 h4 h5
  unfold nextParamMark
  rw [Parses.markYes sep hm w1 w2 hw1 hw2 c y h1 h2 h3 h4 h5]

/-- one round -/
theorem genericParams_round {κ : Type} {fl : Flags} (sep : UInt8) (hsep : SepOk sep) (setK : κ → GenericParam → P (Option κ)) (s : κ × List GenericParam)
    (w1 w2 t : Bytes) (p : GenericParam) (G : Bytes → Prop) (r : Option κ) (n : Nat) (hw1 : IsSWS w1) (hw2 : IsSWS w2) (hne : ∃ b u, t = b :: u ∧ csSipToken.mem b = true)
    (hp : Parses fl GenericParam.parse t p p.cost G) (h : Parses fl (setK s.1 p) [] r n AnyText) :
    Parses fl (genericParamsBody sep setK s) (w1 ++ sep :: w2 ++ t) (.inl (kstep s p r)) (8 + p.cost + n) G := by
  obtain ⟨k, acc⟩ := s
  unfold genericParamsBody
  refine Parses.get (fun c y h1 h2 h3 h4 h5 => ?_)
  have hhead : ∃ b u, w1 ++ sep :: w2 ++ t ++ y = b :: u ∧ (isLwsChar b = true ∨ b = sep) := by
    cases w1 with
    | nil => exact ⟨_, _, rfl, Or.inr rfl⟩
    | cons g w1 => exact ⟨g, _, rfl, Or.inl (isSWS_head hw1 g (by simp))⟩
  obtain ⟨b, u, hb, hbb⟩ := hhead
  rw [cur_eq_head, h2, hb]
  simp only [List.head?_cons]
  have hcr : ¬ isOnlyCRLF c.src c.pos = true := by
    rw [isOnlyCRLF_spec]
    have := h2; unfold Ctx.rest at this; rw [this, List.append_assoc, List.append_assoc]
    exact isSWS_noEol hw1 (not_startsEol_cons hsep.lws)
  rw [if_neg hcr, if_neg (by rcases hbb with h | rfl <;> simp [*])]
  refine (show Parses fl _ (w1 ++ sep :: w2 ++ t) (Sum.inl (kstep (k, acc) p r)) (8 + p.cost + n) G from ?_) c y h1 h2 h3 h4 h5
  refine Parses.bind' (nextParamMark_yes sep hsep.lws w1 w2 hw1 hw2) (t2 := t) (n2 := 8 + p.cost + n) ?_ (fun z hz => ?_) rfl (by omega)
  · rw [if_neg (by simp)]
    refine Parses.bind' (F := AnyText) (Parses.orErr (Parses.alloc 8)) (t1 := []) (n2 := p.cost + n) ?_ (fun _ _ => trivial) rfl (by omega)
    refine Parses.bind' hp (t2 := []) (n2 := n) ?_ (fun z hz => by simpa using hz) (by simp) rfl
    refine Parses.bind' (F := AnyText) h (t2 := []) (n2 := 0) ?_ (fun _ _ => trivial) rfl (by omega)
    cases r <;> exact Parses.pure _
  · obtain ⟨b, u, rfl, hbt⟩ := hne
    exact noWs_of rfl (token_lws b hbt).1

theorem paramText_head {p : GenericParam} {t : Bytes} (h : ParamText p t) : ∃ b u, t = b :: u ∧ csSipToken.mem b = true := by
  cases h with
  | bare name hne h =>
    obtain ⟨b, u, rfl⟩ := List.exists_cons_of_ne_nil hne
    exact ⟨b, u, rfl, h b (by simp)⟩
  | value name v w1 w2 t hne h h1 h2 hv =>
    obtain ⟨b, u, rfl⟩ := List.exists_cons_of_ne_nil hne
    exact ⟨b, _, rfl, h b (by simp)⟩

theorem paramsText_head {sep : UInt8} {ps : List GenericParam} {t : Bytes} (h : ParamsText sep ps t) : (ps = [] ∧ t = []) ∨ ∃ u, t = sep :: u := by
  cases h with
  | nil => exact Or.inl ⟨rfl, rfl⟩
  | cons p ps w2 t w r => exact Or.inr ⟨_, rfl⟩

theorem genericParams_run {κ : Type} {fl : Flags} (sep : UInt8) (hsep : SepOk sep) (setK : κ → GenericParam → P (Option κ)) (ps : List GenericParam) :
    ∀ (t pre : Bytes) (s s' : κ × List GenericParam) (n : Nat), IsSWS pre → (ps = [] → pre = []) → ParamsText sep ps t → SetRun fl setK s ps s' n →
      ∃ k, Run fl (genericParamsBody sep setK) (GenEnd sep) s (pre ++ t) s' (genericParamsCost ps + n) k := by
  induction ps with
  | nil =>
    intro t pre s s' n _ hp ht hrun
    cases ht; cases hrun
    rw [hp rfl]
    exact ⟨1, Run.last (genericParams_leave sep setK _)⟩
  | cons p ps ih =>
    intro t pre s s' n hpre _ ht hrun
    cases hrun with
    | cons h h' =>
      rename_i r n1 n2
      cases ht with
      | cons _ _ w2 t w u h2 ht hw hlast hu =>
        -- what the round for `p` consumes of `w`
        have hcost : genericParamsCost (p :: ps) + (n1 + n2) = 8 + p.cost + n1 + (genericParamsCost ps + n2) := by
          simp only [genericParamsCost, List.map_cons, List.sum_cons]; omega
        rw [hcost]
        have hnext : ∀ y, GenEnd sep y → (ps = [] ∧ u ++ y = y) ∨ ∃ z, u ++ y = sep :: z := by
          intro y hy
          rcases paramsText_head hu with ⟨h1, rfl⟩ | ⟨z, rfl⟩
          · exact Or.inl ⟨h1, rfl⟩
          · exact Or.inr ⟨_, rfl⟩
        by_cases hcase : p.value = none ∧ w ≠ []
        · -- the white space belongs to this round
          obtain ⟨hval, hwne⟩ := hcase
          have hps : ps ≠ [] := fun e => hwne (hlast e)
          cases ht with
          | value => cases hval
          | bare name hne hin =>
            have hw' : IsLWS w := by rcases hw with h | h; exact absurd h hwne; exact h
            obtain ⟨k, hk⟩ := ih u [] _ _ _ (Or.inl rfl) (fun _ => rfl) hu h'
            have hround := genericParams_round sep hsep setK s pre w2 (t ++ w) ⟨t, none⟩ _ r n1 hpre h2
              (by obtain ⟨b, v, rfl⟩ := List.exists_cons_of_ne_nil hne; exact ⟨b, _, rfl, hin b (by simp)⟩) (genericParam_bareSpace hne hin hw') h
            have := Run.step _ hround (by simp) (fun y hy => ?_) hk
            · refine ⟨k + 1, ?_⟩
              simpa [List.append_assoc] using this
            · rcases hnext y hy with ⟨e, _⟩ | ⟨z, hz⟩
              · exact absurd e hps
              · rw [List.nil_append, hz]
                exact ⟨by simp, by simp [hsep.eq], noWs_of rfl hsep.lws⟩
        · obtain ⟨k, hk⟩ := ih u w _ _ _ hw hlast hu h'
          have hG : ∃ G, Parses fl GenericParam.parse t p p.cost G ∧ ∀ y, GenEnd sep y → G (w ++ u ++ y) := by
            have htok : ∀ y, GenEnd sep y → NotIn csSipToken (w ++ u ++ y) := by
              intro y hy
              cases w with
              | nil =>
                rcases hnext y hy with ⟨_, e⟩ | ⟨z, hz⟩
                · rw [List.nil_append, e]; exact hy.token
                · rw [List.nil_append, hz]; intro b hb; simp at hb; subst hb; exact hsep.token
              | cons g w => intro b hb; simp at hb; subst hb; exact lws_token _ (isSWS_head hw _ (by simp))
            cases ht with
            | value name v w1 w2 t hne hin h1 h2 hv => exact ⟨_, genericParam_value hne hin h1 h2 hv, htok⟩
            | bare name hne hin =>
              have hw0 : w = [] := by
                false_or_by_contra
                rename_i hh
                exact hcase ⟨rfl, hh⟩
              subst hw0
              refine ⟨_, genericParam_bare hne hin, fun y hy => ⟨htok y hy, ?_⟩⟩
              rcases hnext y hy with ⟨_, e⟩ | ⟨z, hz⟩
              · rw [List.nil_append, e]
                refine ⟨?_, hy.sws⟩
                rcases hy with rfl | h | ⟨b, r, rfl, _, _, _, h⟩
                · simp
                · rw [startsEol_head h]; decide
                · simpa using h
              · rw [List.nil_append, hz]
                exact ⟨by simp [hsep.eq], swsLen_cons_not_lws hsep.lws⟩
          obtain ⟨G, hp, hF⟩ := hG
          have hround := genericParams_round sep hsep setK s pre w2 t p G r n1 hpre h2 (paramText_head ht) hp h
          have := Run.step G hround (by simp) hF hk
          refine ⟨k + 1, ?_⟩
          simpa [List.append_assoc] using this

/-- **C19** a text of the grammar – white space, even folded, around `;` and `=` – is read as its parameters, in order -/
theorem genericParams_parse {κ : Type} (fl : Flags) (sep : UInt8) (hsep : SepOk sep) (setK : κ → GenericParam → P (Option κ)) (k k' : κ) (ps ps' : List GenericParam)
    (t pre : Bytes) (n : Nat) (hpre : IsSWS pre) (hp : ps = [] → pre = []) (ht : ParamsText sep ps t) (hrun : SetRun fl setK (k, []) ps (k', ps') n) :
    Parses fl (parseGenericParams sep setK k) (pre ++ t) (k', ps') (genericParamsCost ps + n) (GenEnd sep) := by
  obtain ⟨j, hj⟩ := genericParams_run sep hsep setK ps t pre (k, []) (k', ps') n hpre hp ht hrun
  exact hj.forLoop

/-! ## Writing -/

/-- the values a parameter can have -/
def GenValue.WF : GenValue → Prop
  | .token v => v ≠ [] ∧ InSet csSipToken v
  | .quoted v => QText v v
  | .ipv6 v => ∃ x, v = 0x5b :: x ++ [0x5d] ∧ 0x5d ∉ x
structure GenericParam.WF (p : GenericParam) : Prop where
  name : p.name ≠ []
  nameSet : InSet csSipToken p.name
  value : ∀ v ∈ p.value, v.WF

theorem genValue_encode_text {v : GenValue} (h : v.WF) : GenText v v.encode := by
  cases v with
  | token v => exact .token v h.1 h.2
  | quoted v => exact .quoted v v h
  | ipv6 v => obtain ⟨x, rfl, hx⟩ := h; exact .bracket x hx
theorem genericParam_encode_text {p : GenericParam} (h : p.WF) : ParamText p p.encode := by
  obtain ⟨name, value⟩ := p
  cases value with
  | none => simpa [GenericParam.encode, GenericParam.encodeValue] using ParamText.bare name h.name h.nameSet
  | some v => simpa [GenericParam.encode, GenericParam.encodeValue] using ParamText.value name v [] [] _ h.name h.nameSet (Or.inl rfl) (Or.inl rfl) (genValue_encode_text (h.value v rfl))
theorem genericParams_encode_text (sep : UInt8) {ps : List GenericParam} (h : ∀ p ∈ ps, p.WF) : ParamsText sep ps (encodeGenericParams sep ps) := by
  induction ps with
  | nil => exact .nil
  | cons p ps ih =>
    have := ParamsText.cons (sep := sep) p ps [] _ [] _ (Or.inl rfl) (genericParam_encode_text (h p (by simp))) (Or.inl rfl) (fun _ => rfl) (ih (fun q hq => h q (by simp [hq])))
    simpa [encodeGenericParams] using this

/-- the known parameters are written with the names of the table -/
def GenericParam.rename (n : Bytes) (p : GenericParam) : GenericParam := { p with name := n }

/-- a table of known names: different from each other ignoring case, lower case, tokens -/
structure NamesFine (names : List Bytes) : Prop where
  ok : NamesOk names
  lower : ∀ n ∈ names, n.map asciiLower = n
  token : ∀ n ∈ names, n ≠ [] ∧ InSet csSipToken n

/-- the values the parameters of a header can have -/
structure Params.WF (names : List Bytes) (on : Bool) (ps : Params) : Prop where
  params : ∀ p ∈ ps.params, p.WF ∧ (on = true → knownIndex names p.name = none)
  shape : KnownShape names ps.known
  off : on = false → ps.known = []
  known : ∀ x ∈ names.zip ps.known, ∀ p ∈ x.2, p.name.map asciiLower = x.1 ∧ ∀ v ∈ p.value, v.WF

/-- with the names of the known parameters as in the table -/
def Params.canon (names : List Bytes) (ps : Params) : Params := { ps with known := canonKnown GenericParam.rename names ps.known }
/-- all parameters in the order in which they are written -/
def Params.all (names : List Bytes) (ps : Params) : List GenericParam := knownList GenericParam.rename names ps.known ++ ps.params
def Params.cost (names : List Bytes) (ps : Params) : Nat := genericParamsCost (ps.all names) + knownCost names ps.known

theorem genericKnown_encode (names : List Bytes) (sep : UInt8) (known : List (Option GenericParam)) :
    encodeKnown names sep GenericParam.encodeValue known = encodeGenericParams sep (knownList GenericParam.rename names known) := by
  unfold encodeKnown encodeGenericParams knownList
  induction names.zip known with
  | nil => rfl
  | cons x l ih =>
    obtain ⟨n, p⟩ := x
    cases p with
    | none => simpa using ih
    | some p =>
      simp only [List.flatMap_cons, List.filterMap_cons, Option.map_some, ih]
      simp [GenericParam.rename, GenericParam.encode, GenericParam.encodeValue]

theorem params_all_wf {names : List Bytes} (hN : NamesFine names) {on : Bool} {ps : Params} (h : ps.WF names on) : ∀ p ∈ ps.all names, p.WF := by
  intro p hp
  rcases List.mem_append.1 hp with hp | hp
  · obtain ⟨x, hx, hxp⟩ := List.mem_filterMap.1 hp
    cases hx2 : x.2 with
    | none => rw [hx2] at hxp; cases hxp
    | some q =>
      rw [hx2] at hxp
      simp only [Option.map_some, Option.some.injEq] at hxp
      subst hxp
      have hn := List.of_mem_zip hx
      have := hN.token x.1 hn.1
      exact ⟨this.1, this.2, (h.known x hx q (by rw [hx2]; rfl)).2⟩
  · exact (h.params p hp).1

theorem params_setRun {fl : Flags} (names : List Bytes) (hN : NamesFine names) (flag : Flags → Bool) (ps : Params) (h : ps.WF names (flag fl)) :
    SetRun fl (setKnownGeneric names flag) ([], []) (ps.all names) ((ps.canon names).known, ps.params) (knownCost names ps.known) := by
  have hoff : flag fl = false → ps.known = [] := h.off
  cases hon : flag fl with
  | false =>
    have hk := hoff hon
    simp only [Params.all, Params.canon, hk, knownList, canonKnown, knownCost, if_true, List.zip_nil_right, List.filterMap_nil, List.nil_append, List.zipWith_nil_right]
    have := SetRun.unknown (fl := fl) (setK := setKnownGeneric names flag) (k := []) (acc := []) (ps := ps.params) (fun p _ => by
      unfold setKnownGeneric
      refine Parses.get (fun c y h1 h2 h3 h4 h5 => ?_)
      rw [h1, hon]; exact setKnown_off (F := AnyText) (fl := fl) names [] p.name p c y h1 h2 trivial h4 h5)
    simpa using this
  | true =>
    have h1 := setRun_known (fl := fl) names hN.ok GenericParam.rename GenericParam.name (fun _ _ => rfl) ps.known h.shape (setKnownGeneric names flag) id
      (fun k p r n hm hp => by
        unfold setKnownGeneric
        refine Parses.get (fun c y g1 g2 g3 g4 g5 => ?_)
        rw [g1, hon]; exact hp c y g1 g2 g3 g4 g5) []
    have h2 := SetRun.unknown (fl := fl) (setK := setKnownGeneric names flag) (k := (ps.canon names).known) (acc := []) (ps := ps.params) (fun p hp => by
      unfold setKnownGeneric
      refine Parses.get (fun c y g1 g2 g3 g4 g5 => ?_)
      rw [g1, hon]
      exact setKnown_none (F := AnyText) (fl := fl) names true _ p.name p (fun hh => (h.params p hp).2 hon) c y g1 g2 trivial g4 g5)
    have := h1.append h2
    simpa [Params.all, Params.canon] using this

/-- **C19** the parameters of a header, written and read: the same values in the same order (names of known parameters as in the table) -/
theorem params_roundtrip (fl : Flags) (names : List Bytes) (hN : NamesFine names) (flag : Flags → Bool) (ps : Params) (h : ps.WF names (flag fl)) :
    Parses fl (Params.parse names flag) (ps.encode names) (ps.canon names) (ps.cost names) (GenEnd 0x3b) := by
  have hall := params_all_wf hN h
  have henc : ps.encode names = [] ++ encodeGenericParams 0x3b (ps.all names) := by
    rw [Params.encode, genericKnown_encode]; simp [Params.all, encodeGenericParams]
  rw [henc]
  unfold Params.parse
  have hp := genericParams_parse fl 0x3b ⟨by decide +kernel, by decide +kernel, by decide⟩ (setKnownGeneric names flag) [] _ _ _ _ [] _ (Or.inl rfl) (fun _ => rfl)
    (genericParams_encode_text 0x3b hall) (params_setRun names hN flag ps h)
  exact Parses.bind' (Parses.orErr hp) (Parses.pure _) (fun y hy => by simpa using hy) (by simp) rfl

end Sip
