import Verif.Lemmas.Shows
import Verif.Props.HeapUri
/-! # C46: what is in the arena after a URI was parsed -/
namespace Sip
attribute [local irreducible] u32 u16 roundToAlign
open Asrt

/-! ## the statement -/
/-- `o` is what a parse method does from `c` on the bytes of the arena, `v` what the model with values does:
* the same outcome, position, errors and memory mark,
* of the bytes below the mark only those of the object itself (`own`) are written,
* after success the encode method `wr` finds, in this memory and in every later one that agrees with it below the mark, what `enc` gives for the value. -/
def StoresAs {α β ι : Type} (c : BCtx) (own : Nat → Prop) (v : Out (Option α × Ctx)) (o : Out (Option β × BCtx)) (wr : ι → β → E) (enc : ι → α → Out Bytes) : Prop :=
  match v with
  | .panic => o = .panic
  | .hang => o = .hang
  | .ok (none, d) => ∃ c', o = .ok (none, c') ∧ c'.abs = d ∧ ∀ i, i < c.a.used → ¬ own i → c'.a.mem i = c.a.mem i
  | .ok (some x, d) => ∃ y c', o = .ok (some y, c') ∧ c'.abs = d ∧ (∀ i, i < c.a.used → ¬ own i → c'.a.mem i = c.a.mem i) ∧
      ∀ j m, (∀ i, i < c'.a.used → m i = c'.a.mem i) → wr j y m = enc j x

theorem stores_of_sim {α β ι : Type} {A : Asrt} {p : P α} {b : B β} {R : α → β → Asrt} {wr : ι → β → E} {enc : ι → α → Out Bytes} (h : Sim A p b R)
    (hs : ∀ j x y, Shows (R x y) (wr j y) (enc j x)) (c : BCtx) (hf : Fine c) (own : Nat → Prop) (hA : A.holds c.a.mem own) (hlt : ∀ i, own i → i < c.a.used) :
    StoresAs c own (p c.abs) (b c) wr enc := by
  have h1 := h c own hf hA hlt
  unfold SimOut at h1
  unfold StoresAs
  rcases hp : p c.abs with ⟨_ | v, d⟩ | _ | _ <;> rw [hp] at h1 <;> dsimp only at h1 ⊢
  · obtain ⟨c', j1, j2, j3⟩ := h1
    exact ⟨c', j1, j2, j3.mem⟩
  · obtain ⟨x, c', j1, j2, j3, S', j4, j5, j6⟩ := h1
    refine ⟨x, c', j1, j2, j3.mem, fun j m hm => ?_⟩
    refine hs j v x m S' ((R v x).loc j4 (fun i hi => hm i (j6 i hi))) (fun i hi => ?_)
    have := j6 i hi
    have := j3.le
    have := hf.1
    omega
  · exact h1
  · exact h1

/-- any bytes -/
theorem bytes_of_mem (m : Mem) (a n : Nat) : ∃ l : Bytes, l.length = n ∧ (bytes a l).holds m (fun i => a ≤ i ∧ i < a + n) := by
  refine ⟨(List.range n).map (fun j => m (a + j)), by simp, ?_⟩
  have := bytes_holds_of (a := a) (l := (List.range n).map (fun j => m (a + j))) (m := m) (fun j hj => by
    rw [List.length_map, List.length_range] at hj
    rw [List.getD_eq_getElem?_getD, List.getElem?_map, List.getElem?_range hj]
    rfl)
  rw [List.length_map, List.length_range] at this
  exact this

/-! ## encoding -/
namespace Shows
variable {A A' F : Asrt} {e e' : E} {v v' : Out Bytes}
theorem esc {fl : Flags} {cs : CS} {p : Nat} {s : Bytes} : Shows (strAt p s) (E.uriEsc fl cs p) (.ok (Sip.uriEsc fl cs s)) := by
  unfold E.uriEsc Sip.uriEsc
  cases fl.encodeUriNoEscape
  · exact cstrEsc
  · exact cstr
/-- a field with a pointer to a string that may be nil -/
theorem strField {a : Nat} {o : Option Bytes} {k : Nat → E} {k0 : E} {g : Bytes → Bytes} {b0 : Bytes} (h0 : Shows emp k0 (.ok b0)) (h1 : ∀ q s, o = some s → Shows (u16At a q ∗ strAt q s) (k q) (.ok (g s))) :
    Shows (strField a o) (E.u16 a fun q => if q ≠ 0 then k q else k0) (.ok (match (generalizing := false) o with | some s => g s | none => b0)) := by
  refine ex_elim (fun q => f16 ?_)
  rcases o with _ | s <;> dsimp only [strOpt]
  · refine pre_eq (star_comm _ _) (fact_elim (fun hq => ?_))
    rw [if_neg (by omega)]
    exact pre h0 (Ent.pre_eq (star_emp _).symm (Ent.dropl _ _))
  · refine pre_eq (star_comm _ _) (str_ne (fun hq => ?_))
    rw [if_pos hq]
    exact pre_eq (star_comm _ _) (h1 q s rfl)
end Shows
open Shows

theorem shows_uriParamValue (fl : Flags) (cs : CharsetInfo) (a : Nat) (v : UriParam) : Shows (uriParamAt a v) (E.uriParamValue fl cs a) (.ok (v.encodeValue fl cs)) := by
  refine right ?_
  unfold E.uriParamValue UriParam.encodeValue
  exact Shows.strField (g := fun s => 0x3d :: Sip.uriEsc fl cs.value s) (lit _) (fun q s _ => cat (lit [0x3d]) (right esc))

theorem shows_uriParam (fl : Flags) (cs : CharsetInfo) (a : Nat) (v : UriParam) : Shows (uriParamAt a v) (E.uriParam fl cs a) (.ok (v.encode fl cs)) := by
  unfold E.uriParam UriParam.encode
  have h2 := shows_uriParamValue fl cs a v
  unfold uriParamAt at h2 ⊢
  unfold strField at h2 ⊢
  rw [ex_star] at h2 ⊢
  refine ex_elim (fun q => pre_eq (star_assoc _ _ _) (f16 (pre_eq (star_left_comm _ _ _) (str_ne (fun hq => ?_)))))
  rw [if_pos hq]
  refine cat (left esc) (pre h2 (Ent.ex q ?_))
  exact Ent.of_eq (show strAt q v.name ∗ (u16At a q ∗ _) = (u16At a q ∗ strAt q v.name) ∗ _ by ac_rfl)

theorem joined_ok (sep : Bytes) (v : Bytes) (r : List Bytes) : joined sep (.ok v) (r.map .ok) = .ok (v ++ r.flatMap (sep ++ ·)) := by
  induction r generalizing v with
  | nil => rfl
  | cons w r ih =>
    show Out.app (.ok v) (Out.app (.ok sep) (joined sep (.ok w) (r.map .ok))) = _
    rw [ih]
    show Out.ok (v ++ (sep ++ (w ++ r.flatMap (sep ++ ·)))) = Out.ok (v ++ ((sep ++ w) ++ r.flatMap (sep ++ ·)))
    rw [List.append_assoc]

theorem shows_uriParams (fl : Flags) (cs : CharsetInfo) (p : Nat) (vs : List UriParam) :
    Shows (listAt uriParamAt 4 p vs) (E.uriParams fl cs p) (.ok (encodeUriParams fl cs vs)) := by
  unfold E.uriParams
  rcases vs with _ | ⟨w, vs⟩
  · refine pre_eq (star_emp _).symm (fact_elim (fun hq => ?_))
    rw [if_neg (by omega)]
    exact lit _
  · refine list_ne (fun hp => ?_)
    rw [if_pos hp]
    have := walk (off := 4) (sep := []) (g := fun v => .ok (0x3b :: UriParam.encode fl cs v)) (fun a v => cat (lit [0x3b]) (shows_uriParam fl cs a v)) w vs p
    rw [show (vs.map fun v => Out.ok (0x3b :: UriParam.encode fl cs v)) = (vs.map fun v => 0x3b :: UriParam.encode fl cs v).map Out.ok by rw [List.map_map]; rfl, joined_ok] at this
    rw [show encodeUriParams fl cs (w :: vs) = (0x3b :: w.encode fl cs) ++ List.flatMap (fun x => [] ++ x) (vs.map fun v => 0x3b :: UriParam.encode fl cs v) from ?_]
    · exact this
    · unfold encodeUriParams
      rw [List.flatMap_cons, List.flatMap_map]
      rfl

theorem shows_uriHeader (fl : Flags) (cs : CharsetInfo) (a : Nat) (v : UriHeader) : Shows (uriHeaderAt a v) (E.uriHeader fl cs a) (.ok (v.encode fl cs)) := by
  unfold E.uriHeader UriHeader.encode uriHeaderAt
  refine ex_elim_star (fun q => pre_eq (star_assoc _ _ _) (f16 (pre_eq (star_left_comm _ _ _) (str_ne (fun hq => ?_)))))
  rw [if_pos hq]
  refine cat (left esc) (right (right ?_))
  exact Shows.strField (g := fun s => 0x3d :: Sip.uriEsc fl cs.value s) (lit _) (fun q s _ => cat (lit [0x3d]) (right esc))

theorem encodeUriHeaders_cons (fl : Flags) (cs : CharsetInfo) (w : UriHeader) (vs : List UriHeader) :
    encodeUriHeaders fl cs (w :: vs) = w.encode fl cs ++ List.flatMap (fun x => [0x26] ++ x) (vs.map (UriHeader.encode fl cs)) := by
  induction vs generalizing w with
  | nil => simp [encodeUriHeaders]
  | cons x r ih =>
    rw [show encodeUriHeaders fl cs (w :: x :: r) = w.encode fl cs ++ 0x26 :: encodeUriHeaders fl cs (x :: r) from rfl, ih]
    rfl

theorem shows_uriHeaders (fl : Flags) (cs : CharsetInfo) (p : Nat) (w : UriHeader) (vs : List UriHeader) :
    Shows (listAt uriHeaderAt 4 p (w :: vs)) (E.uriHeaders fl cs p) (.ok (encodeUriHeaders fl cs (w :: vs))) := by
  have := walk (off := 4) (sep := [0x26]) (g := fun v => .ok (UriHeader.encode fl cs v)) (fun a v => shows_uriHeader fl cs a v) w vs p
  rw [show (vs.map fun v => Out.ok (UriHeader.encode fl cs v)) = (vs.map (UriHeader.encode fl cs)).map Out.ok by rw [List.map_map]; rfl, joined_ok, ← encodeUriHeaders_cons] at this
  exact this

theorem shows_host (net : Net) (h : Nat) (v : Host) : Shows (hostAt h v) (E.host net h) (.ok (v.encode net)) := by
  unfold E.host
  rcases v with _ | ⟨a, b, c, d⟩ | ip | s <;> dsimp only [hostAt, Host.encode]
  · exact f8 (right (f16' (lit _)))
  · refine f8 (right (ex_elim (fun q => f16 (right ?_))))
    rw [if_pos rfl]
    exact pre_eq (star_emp _).symm (slice rfl (lit _))
  · refine f8 (right (ex_elim (fun q => f16 (right (fact_elim (fun hl => ?_))))))
    rw [if_neg (by decide), if_pos rfl]
    exact pre_eq (star_emp _).symm (slice hl (lit _))
  · refine f8 (right (ex_elim (fun q => f16 (right ?_))))
    exact cstr

theorem shows_hostPort (net : Net) (h : Nat) (v : HostPort) : Shows (hostPortAt h v) (E.hostPort net h) (.ok (v.encode net)) := by
  unfold E.hostPort HostPort.encode
  refine cat (left (shows_host net h v.host)) (right ?_)
  rcases v.port with _ | p <;> dsimp only [portAt]
  · exact f8 (lit _)
  · refine f8 (right ?_)
    rw [if_pos (by decide)]
    exact f16' (lit _)

theorem shows_sipUri (net : Net) (fl : Flags) (a : Nat) (u : SipUri) : Shows (sipUriAt a u) (E.sipUri net fl a) (.ok (u.encode net fl)) := by
  unfold E.sipUri SipUri.encode sipUriAt
  simp only [List.append_assoc]
  refine cat (left ?_) (right (cat ?_ (right (right (cat (left (shows_hostPort net _ _)) (right (cat (right (right (known (shows_uriParamValue fl _) _ _ _)))
    (cat (left ?_) (right (left ?_))))))))))
  · refine pre_eq (star_emp _).symm (f8 ?_)
    cases u.secure <;> exact lit _
  · refine pre_eq (star_assoc _ _ _).symm (left ?_)
    unfold strField
    refine ex_elim_star (fun q => pre_eq (star_assoc _ _ _) (f16 ?_))
    rcases u.user with _ | s <;> dsimp only [strOpt]
    · refine pre_eq (star_left_comm _ _ _) (fact_elim (fun hq => ?_))
      rw [if_neg (by omega)]
      exact lit _
    · refine pre_eq (star_left_comm _ _ _) (str_ne (fun hq => ?_))
      rw [if_pos hq]
      refine cat (left esc) (cat (right (right ?_)) (lit _))
      exact Shows.strField (g := fun s => 0x3a :: Sip.uriEsc fl csSipPassword s) (lit _) (fun q s _ => cat (lit [0x3a]) (right esc))
  · exact ex_elim (fun q => f16 (right (shows_uriParams fl _ q _)))
  · refine ex_elim (fun q => f16 (right ?_))
    rcases u.headers with _ | ⟨w, hs⟩
    · refine pre_eq (star_emp _).symm (fact_elim (fun hq => ?_))
      rw [if_neg (by omega)]
      exact lit _
    · refine list_ne (fun hq => ?_)
      rw [if_pos hq]
      exact cat (lit [0x3f]) (shows_uriHeaders fl _ q w hs)

theorem shows_telUri (fl : Flags) (a : Nat) (u : TelUri) : Shows (telUriAt a u) (E.telUri fl a) (.ok (u.encode fl)) := by
  unfold E.telUri TelUri.encode telUriAt telKnownAt
  simp only [List.append_assoc]
  refine cat (lit _) (cat (right (left ?_)) (cat ?_ (cat (right (right (left (right (right (known (shows_uriParamValue fl _) _ _ _)))))) (right (right (right ?_))))))
  · exact ex_elim (fun q => f16 (right cstr))
  · refine f8 (right (right (left (right (left ?_)))))
    cases u.isGlobal
    · rw [if_pos (by decide), if_pos (by decide)]
      refine ex_elim (fun q => f16 ?_)
      rcases u.context with _ | p <;> dsimp only [optNode]
      · refine pre_eq (star_comm _ _) (fact_elim (fun hq => ?_))
        rw [if_neg (by omega)]
        exact lit _
      · refine pre_eq (star_left_comm _ _ _) (fact_elim (fun hq => ?_))
        rw [if_pos (by omega)]
        exact cat (lit _) (right (shows_uriParamValue fl _ _ _))
    · rw [if_neg (by decide), if_neg (by decide)]
      exact lit _
  · exact ex_elim (fun q => f16 (right (shows_uriParams fl _ q _)))

/-! ## C46 for URIs -/
/-- `SipUri.Parse` on the bytes of the arena. -/
theorem sipUri_in_memory (net : Net) (hn : net.Len16) (c : BCtx) (hf : Fine c) (a : Nat) (ha : a + 18 ≤ c.a.used) :
    StoresAs c (fun i => a ≤ i ∧ i < a + 18) (SipUri.parse net c.abs) (B.sipUri net a c) (fun (fl : Flags) _ => E.sipUri net fl a) (fun fl u => .ok (u.encode net fl)) := by
  obtain ⟨l, hl, hb⟩ := bytes_of_mem c.a.mem a 18
  exact stores_of_sim (sim_sipUri net hn a l hl) (fun fl u _ => shows_sipUri net fl a u) c hf _ hb (fun i hi => by omega)

/-- `TelUri.Parse` on the bytes of the arena. -/
theorem telUri_in_memory (c : BCtx) (hf : Fine c) (a : Nat) (ha : a + 10 ≤ c.a.used) :
    StoresAs c (fun i => a ≤ i ∧ i < a + 10) (TelUri.parse c.abs) (B.telUri a c) (fun (fl : Flags) _ => E.telUri fl a) (fun fl u => .ok (u.encode fl)) := by
  obtain ⟨l, hl, hb⟩ := bytes_of_mem c.a.mem a 10
  exact stores_of_sim (sim_telUri a l hl) (fun fl u _ => shows_telUri fl a u) c hf _ hb (fun i hi => by omega)

/-! ## concrete cases -/
/-- an arena with room, the struct at address 10, other structs up to 40 with old contents, and an input -/
def heapSample (s : String) : BCtx := { src := str s, flags := { setSipUriKnownParam := true, setTelUriKnownParam := true }, a := { Arena.new 400 with used := 40, mem := fun i => if i < 40 then 0xa5 else 0x5a } }
/-- the hypotheses hold and the parse succeeds: the bytes at 10 encode to the URI, with the known parameters in the order of the table -/
theorem heap_sample_sip : Fine (heapSample "sip:alice:pw@10.1.2.3:5060;lr;x=%41;transport=tcp;y?h=v&g=") ∧
    (match B.sipUri ⟨fun _ => none, fun _ => []⟩ 10 (heapSample "sip:alice:pw@10.1.2.3:5060;lr;x=%41;transport=tcp;y?h=v&g=") with
     | .ok (some _, c) => (E.sipUri ⟨fun _ => none, fun _ => []⟩ {} 10 c.a.mem, c.pos, c.a.used, c.a.mem 9, c.a.mem 28)
     | _ => (.panic, 0, 0, 0, 0)) = (.ok (str "sip:alice:pw@10.1.2.3:5060;transport=tcp;lr;x=A;y?h=v&g"), 58, 141, 0xa5, 0xa5) := by
  refine ⟨by unfold Fine; decide +kernel, by decide +kernel⟩
theorem heap_sample_tel : Fine (heapSample "tel:86-10;phone-context=+86;isub=1;x") ∧
    (match B.telUri 10 (heapSample "tel:86-10;phone-context=+86;isub=1;x") with
     | .ok (some _, c) => (E.telUri {} 10 c.a.mem, c.pos, c.a.used, c.a.mem 9, c.a.mem 20)
     | _ => (.panic, 0, 0, 0, 0)) = (.ok (str "tel:8610;phone-context=+86;isub=1;x"), 36, 100, 0xa5, 0xa5) := by
  refine ⟨by unfold Fine; decide +kernel, by decide +kernel⟩
end Sip
