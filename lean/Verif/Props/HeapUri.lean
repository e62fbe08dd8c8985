import Verif.Lemmas.Shapes
/-! # C46: URIs in the arena -/
namespace Sip
attribute [local irreducible] u32 u16 roundToAlign
open Asrt

/-! ## what the structs look like -/
/-- a field with a pointer to a string -/
def strField (a : Nat) (o : Option Bytes) : Asrt := ex fun q => u16At a q ∗ strOpt q o
/-- UriParam.go:13-17 without the field `next` -/
def uriParamAt (a : Nat) (v : UriParam) : Asrt := strField a (some v.name) ∗ strField (a + 2) v.value
/-- UriHeader.go:8-12 without the field `next` -/
def uriHeaderAt (a : Nat) (v : UriHeader) : Asrt := strField a (some v.name) ∗ strField (a + 2) v.value
/-- SipHostPort.go:16-21: `id` and `data` -/
def hostAt (h : Nat) : Host → Asrt
  | .unknown => u8At h 0 ∗ u16At (h + 4) 0
  | .ipv4 a b c d => u8At h 1 ∗ (ex fun q => u16At (h + 4) q ∗ bytes q [a, b, c, d])
  | .ipv6 ip => u8At h 2 ∗ (ex fun q => u16At (h + 4) q ∗ (fact (ip.length = 16) ∗ bytes q ip))
  | .name s => u8At h 3 ∗ strField (h + 4) (some s)
/-- SipHostPort.go:16-21: `hasPort` and `port` -/
def portAt (h : Nat) : Option Nat → Asrt
  | none => u8At (h + 1) 0 ∗ u16At (h + 2) 0
  | some p => u8At (h + 1) 1 ∗ u16At (h + 2) p
/-- SipHostPort.go:16-21 -/
def hostPortAt (h : Nat) (v : HostPort) : Asrt := hostAt h v.host ∗ portAt h v.port
/-- SipUri.go:60-70 -/
def sipUriAt (a : Nat) (u : SipUri) : Asrt :=
  u8At a (if u.secure then 1 else 0) ∗ (strField (a + 2) u.user ∗ (strField (a + 4) u.password ∗ (hostPortAt (a + 6) u.hostport ∗
    ((ex fun q => u16At (a + 12) q ∗ listAt uriParamAt 4 q u.params) ∗ ((ex fun q => u16At (a + 14) q ∗ listAt uriHeaderAt 4 q u.headers) ∗
      knownAt uriParamAt sipUriKnownNames.length (a + 16) u.known)))))

theorem strField_nil (a : Nat) : u16At a 0 ⊢ₘ strField a none := Ent.ex 0 (Ent.post_eq (by unfold strOpt; rw [fact_true rfl, star_emp]) (Ent.refl _))
theorem strField_some (a x : Nat) (s : Bytes) : u16At a x ∗ strAt x s ⊢ₘ strField a (some s) := Ent.ex x (Ent.refl _)
theorem listField_nil {α : Type} (nd : Nat → α → Asrt) (off a : Nat) : u16At a 0 ⊢ₘ (ex fun q => u16At a q ∗ listAt nd off q []) :=
  Ent.ex 0 (Ent.post_eq (by unfold listAt seg; rw [fact_true rfl, star_emp]) (Ent.refl _))

namespace Sim
variable {α β γ δ : Type} {A A' F : Asrt} {p : P α} {b : B β} {R R' : α → β → Asrt}
theorem peek {f : Option UInt8 → P γ} {g : Option UInt8 → B δ} {Q : γ → δ → Asrt} (k : ∀ v, Sim A (f v) (g v) Q) : Sim A (P.peek >>= f) (B.peek >>= g) Q := dry Dry.peek k
theorem skip {n : Nat} {f : Unit → P γ} {g : Unit → B δ} {Q : γ → δ → Asrt} (k : Sim A (f ()) (g ()) Q) : Sim A (P.skip n >>= f) (B.skip n >>= g) Q := dry (Dry.skip n) (fun _ => k)
theorem ctx {f : Ctx → P γ} {g : Ctx → B δ} {Q : γ → δ → Asrt} (k : ∀ c, Sim A (f c) (g c) Q) : Sim A (P.get >>= f) (B.ctx >>= g) Q := dry Dry.get k

theorem pureB {x : γ} {g : γ → B β} (h : Sim A p (g x) R) : Sim A p (pure x >>= g) R := h
theorem pureP {x : γ} {f : γ → P α} (h : Sim A (f x) b R) : Sim A (pure x >>= f) b R := h

/-- a string is read and its address stored in a field -/
theorem strPut {q : P Bytes} {s : B Nat} {a m : Nat} {f : Bytes → P γ} {g : Unit → B δ} {Q : γ → δ → Asrt} (h : Sim emp q s (fun v x => strAt x v))
    (k : ∀ v x, 10 ≤ x → x < 65536 → Sim (u16At a x ∗ (strAt x v ∗ F)) (f v) (g ()) Q) : Sim (u16At a m ∗ F) (q >>= f) (s >>= fun x => B.put16 a x >>= g) Q :=
  seq0 h (fun v x => str_lt (fun h1 h2 => pre_eq (star_left_comm _ _ _) (put16 h2 (k v x h1 h2))))
end Sim

open Sim
/-! ## parameters and headers -/
theorem sim_uriParam (cs : CharsetInfo) (a : Nat) : Sim (zeros a 4) (UriParam.parse cs) (B.uriParam cs a) (fun v _ => ex fun n => u16At a n ∗ (strAt n v.name ∗ strField (a + 2) v.value)) := by
  rw [show 4 = 2 + 2 from rfl, zeros_split, zeros_u16, zeros_u16]
  unfold UriParam.parse B.uriParam
  refine strPut (orErr (strEsc _)) (fun v x _ _ => peek (fun o => ite (fun _ => ?_) (fun _ => ?_)))
  · refine skip ?_
    refine pre_eq (A := u16At (a + 2) 0 ∗ (u16At a x ∗ strAt x v)) (by ac_rfl) (strPut (orErr (strEsc _)) (fun w y _ _ => ?_))
    refine ret (Ent.ex x ?_)
    refine Ent.pre_eq (A' := u16At a x ∗ (strAt x v ∗ (u16At (a + 2) y ∗ strAt y w))) (by ac_rfl) (Ent.framel _ (Ent.framel _ (strField_some _ _ _)))
  · exact ret (Ent.ex x (Ent.framel _ (Ent.framel _ (strField_nil _))))

theorem sim_uriHeader (cs : CharsetInfo) (a : Nat) : Sim (zeros a 4) (UriHeader.parse cs) (B.uriHeader cs a) (fun v _ => uriHeaderAt a v) := by
  rw [show 4 = 2 + 2 from rfl, zeros_split, zeros_u16, zeros_u16]
  unfold UriHeader.parse B.uriHeader
  refine strPut (orErr (strEsc _)) (fun v x _ _ => peek (fun o => ite (fun _ => err) (fun _ => ?_)))
  refine skip (peek (fun o => ite (fun _ => ?_) (fun _ => ?_)))
  · refine ret ?_
    refine Ent.pre_eq (star_assoc _ _ _).symm (Ent.star (strField_some _ _ _) (strField_nil _))
  · refine pre_eq (A := u16At (a + 2) 0 ∗ (u16At a x ∗ strAt x v)) (by ac_rfl) (strPut (orErr (strEscEmpty _)) (fun w y _ _ => ?_))
    refine ret ?_
    refine Ent.pre_eq (A' := (u16At a x ∗ strAt x v) ∗ (u16At (a + 2) y ∗ strAt y w)) (by ac_rfl) (Ent.star (strField_some _ _ _) (strField_some _ _ _))

/-- `setK` on both layers -/
def SetsKnownAt {κ ν : Type} (nd : Nat → ν → Asrt) (raw : Nat → Nat → ν → Asrt) (nm : ν → Bytes) (K : κ → Asrt) (setK : κ → ν → P (Option κ)) (bK : Nat → Nat → B Bool) : Prop :=
  ∀ (k : κ) (v : ν) (n a : Nat) (X : Asrt), 8 ≤ a → a < 65536 → (strAt n (nm v) ∗ raw a n v ⊢ₘ nd a v) →
    Sim (K k ∗ (strAt n (nm v) ∗ (raw a n v ∗ X))) (setK k v) (bK n a) (Took K k (strAt n (nm v) ∗ (raw a n v ∗ X)))

/-- the fields of a UriParam except the string of the name -/
def uriParamRaw (a n : Nat) (v : UriParam) : Asrt := u16At a n ∗ strField (a + 2) v.value

theorem uriParam_fold (a n : Nat) (v : UriParam) : strAt n v.name ∗ uriParamRaw a n v ⊢ₘ uriParamAt a v := by
  unfold uriParamRaw uriParamAt
  refine Ent.pre_eq (A' := (u16At a n ∗ strAt n v.name) ∗ strField (a + 2) v.value) (by ac_rfl) (Ent.frame _ (strField_some _ _ _))

theorem sim_uriParams {κ : Type} (cs : CharsetInfo) (K : κ → Asrt) (setK : κ → UriParam → P (Option κ)) (bK : Nat → Nat → B Bool)
    (hK : SetsKnownAt uriParamAt uriParamRaw UriParam.name K setK bK) (k : κ) :
    Sim (K k) (parseUriParams cs setK k) (B.uriParams cs bK) (fun v x => K v.1 ∗ listAt uriParamAt 4 x v.2) := by
  unfold parseUriParams B.uriParams
  refine peek (fun o => ite (fun _ => err) (fun _ => ?_))
  refine pre_eq (A := K k ∗ openList uriParamAt 4 0 0 []) (by rw [openList_nil, star_emp]) ?_
  refine forLoop (I := fun s t => K s.1 ∗ openList uriParamAt 4 t.1 t.2 s.2) (s := (k, [])) (t := (0, 0)) ?_
  rintro ⟨k, acc⟩ ⟨params, prev⟩
  unfold uriParamsBody B.uriParamsBody
  refine peek (fun o => ite (fun _ => ?_) (fun _ => ?_))
  · exact ret (Ent.framel _ (openList_close _ _ _ _ _))
  refine seq0 (orErr (alloc (by omega) (by omega))) (fun _ a => ?_)
  refine pre_eq (star_assoc _ _ _) (fact_elim (fun h8 => ?_))
  rw [show 6 = 4 + 2 from rfl, zeros_split, zeros_u16]
  refine pre_eq (star_assoc _ _ _) (seq (sim_uriParam cs a) (fun v _ => ex_elim_star (fun n => ?_)))
  refine pre_eq (star_assoc _ _ _) (get16 ?_)
  refine pre_eq (A := (K k ∗ (strAt n v.name ∗ (uriParamRaw a n v ∗ u16At (a + 4) 0))) ∗ openList uriParamAt 4 params prev acc) (by unfold uriParamRaw; ac_rfl) ?_
  refine seq (hK k v n a _ h8.1 (by omega) (uriParam_fold a n v)) (fun r x => ?_)
  match r, x with
  | some k', true =>
    dsimp only [Took]
    rw [if_pos rfl]
    refine pureB ?_
    refine peek (fun o => ite (fun _ => skip ?_) (fun _ => ?_))
    · exact ret (Ent.refl _)
    · exact ret (Ent.framel _ (openList_close _ _ _ _ _))
  | none, false =>
    dsimp only [Took]
    rw [if_neg (by decide)]
    refine pre (A := openList uriParamAt 4 params prev acc ∗ (uriParamAt a v ∗ (u16At (a + 4) 0 ∗ K k))) ?_ ?_
    · refine Sim.link h8.1 (by omega) (fun first' prev' => ?_)
      refine peek (fun o => ite (fun _ => skip ?_) (fun _ => ?_))
      · exact ret' (star_comm _ _)
      · exact ret (Ent.pre_eq (star_comm _ _) (Ent.framel _ (openList_close _ _ _ _ _)))
    · refine Ent.pre_eq (A' := openList uriParamAt 4 params prev acc ∗ ((strAt n v.name ∗ uriParamRaw a n v) ∗ (u16At (a + 4) 0 ∗ K k))) (by ac_rfl) ?_
      exact Ent.framel _ (Ent.frame _ (uriParam_fold a n v))
  | none, true => dsimp only [Took]; exact fact_elim (fun h => h.elim)
  | some _, false => dsimp only [Took]; exact fact_elim (fun h => h.elim)

theorem sim_uriHeaders (cs : CharsetInfo) : Sim emp (parseUriHeaders cs) (B.uriHeaders cs) (fun v x => listAt uriHeaderAt 4 x v) := by
  unfold parseUriHeaders B.uriHeaders
  refine peek (fun o => ite (fun _ => err) (fun _ => ?_))
  refine pre_eq (A := openList uriHeaderAt 4 0 0 []) (by rw [openList_nil]) ?_
  refine forLoop (I := fun s t => openList uriHeaderAt 4 t.1 t.2 s) (s := []) (t := (0, 0)) ?_
  rintro acc ⟨params, prev⟩
  unfold uriHeadersBody B.uriHeadersBody
  refine peek (fun o => ite (fun _ => ?_) (fun _ => ?_))
  · exact ret (openList_close _ _ _ _ _)
  refine seq0 (orErr (alloc (by omega) (by omega))) (fun _ a => ?_)
  refine pre_eq (star_assoc _ _ _) (fact_elim (fun h8 => ?_))
  rw [show 6 = 4 + 2 from rfl, zeros_split, zeros_u16]
  refine pre_eq (star_assoc _ _ _) (seq (sim_uriHeader cs a) (fun v _ => ?_))
  refine pre_eq (A := openList uriHeaderAt 4 params prev acc ∗ (uriHeaderAt a v ∗ (u16At (a + 4) 0 ∗ emp))) (by rw [star_emp]; ac_rfl) ?_
  refine Sim.link h8.1 (by omega) (fun first' prev' => ?_)
  refine peek (fun o => ite (fun _ => skip ?_) (fun _ => ?_))
  · exact ret' (star_emp _)
  · exact ret (Ent.pre_eq (star_emp _) (openList_close _ _ _ _ _))

theorem B.bind_pure' {β : Type} (b : B β) (c : BCtx) : b c = (b >>= fun v => pure v) c := by
  show _ = B.bind b _ c
  unfold B.bind
  rcases b c with ⟨_ | _, _⟩ | _ | _ <;> rfl
theorem P.bind_pure' {α : Type} (p : P α) (c : Ctx) : p c = (p >>= fun v => pure v) c := by
  rw [P.bind_apply]
  rcases p c with ⟨_ | _, _⟩ | _ | _ <;> rfl

/-! ## host and port -/
/-- `context.parsePos = p` -/
def P.setPos (p : Nat) : P Unit := fun c => .ok (some (), c.setPos p)
theorem Dry.setPos (p : Nat) : Dry (P.setPos p) := by intro c r d h; cases h; exact ⟨rfl, rfl, rfl, rfl⟩
theorem Sim.setPos {γ δ : Type} {A : Asrt} {n : Nat} {f : Unit → P γ} {g : Unit → B δ} {Q : γ → δ → Asrt} (k : Sim A (f ()) (g ()) Q) : Sim A (P.setPos n >>= f) (B.setPos n >>= g) Q :=
  dry (Dry.setPos n) (fun _ => k)

theorem P.orErr_alloc_bind {β : Type} (n : Nat) (f : Unit → P β) (c : Ctx) :
    (P.orErr (P.alloc n) >>= f) c = match c.alloc n with | (false, c) => .ok (none, c.addError c.pos) | (true, c) => f () c := by
  rw [P.bind_apply]
  unfold P.orErr P.alloc
  rcases c.alloc n with ⟨_ | _, d⟩ <;> rfl

theorem parseIpv6_eq (net : Net) : parseIpv6 net = (do
    let c ← P.get
    let p := skipWhile (· ≠ 0x5d) c.src c.pos
    P.setPos p
    if p ≥ c.src.length then P.err else
    match net.parseIP ((c.src.drop c.pos).take (p - c.pos)) with
    | none => P.err
    | some ip => do
      P.orErr (P.alloc 16)
      P.skip 1
      pure (.ipv6 ip)) := by
  funext c
  rw [P.get_bind]
  unfold parseIpv6
  dsimp only
  rw [P.bind_ok (show P.setPos _ c = .ok (some (), c.setPos _) from rfl)]
  by_cases h1 : skipWhile (· ≠ 0x5d) c.src c.pos ≥ c.src.length
  · refine (if_pos h1).trans ?_
    rw [if_pos h1]; rfl
  refine (if_neg h1).trans ?_
  rw [if_neg h1]
  rcases net.parseIP _ with _ | ip <;> dsimp only
  · rfl
  rw [P.orErr_alloc_bind]
  by_cases h2 : (c.setPos (skipWhile (· ≠ 0x5d) c.src c.pos)).used + 16 > (c.setPos (skipWhile (· ≠ 0x5d) c.src c.pos)).cap
  · have e : (c.setPos (skipWhile (· ≠ 0x5d) c.src c.pos)).alloc 16 = (false, c.setPos (skipWhile (· ≠ 0x5d) c.src c.pos)) := if_pos h2
    rw [e]; rfl
  · have e : (c.setPos (skipWhile (· ≠ 0x5d) c.src c.pos)).alloc 16 = (true, { c.setPos (skipWhile (· ≠ 0x5d) c.src c.pos) with used := c.used + 16 }) := if_neg h2
    rw [e]; rfl

theorem ipv4Loop_length (src : Bytes) (k : Nat) : ∀ (n : Nat) (acc ip : List UInt8) (p : Nat), ipv4Loop src k n acc = (some ip, p) → ip.length = acc.length + k := by
  induction k with
  | zero => intro n acc ip p h; unfold ipv4Loop at h; cases h; rfl
  | succ k ih =>
    intro n acc ip p h
    unfold ipv4Loop at h
    rcases hd : src[n]? with _ | d <;> rw [hd] at h <;> dsimp only at h
    · cases h
    split at h
    · cases h
    split at h
    · cases h
    have := ih _ _ _ _ h
    rw [List.length_append, List.length_singleton] at this
    omega

theorem parseIpv4_length (src : Bytes) (pos : Nat) (ip : List UInt8) (p : Nat) (h : parseIpv4 src pos = (some ip, p)) : ip.length = 4 := by
  unfold parseIpv4 at h
  split at h
  · cases h
  dsimp only at h
  split at h
  · cases h
  rcases hl : ipv4Loop src 3 (parseUInt src pos).newPos [UInt8.ofNat (parseUInt src pos).digit] with ⟨_ | l, q⟩ <;> rw [hl] at h <;> dsimp only at h
  · cases h
  split at h
  · cases h
  cases h
  exact ipv4Loop_length _ _ _ _ _ _ hl

/-- an IPv4 address as a host -/
def hostOf4 : List UInt8 → P Host
  | [a, b, d, e] => pure (.ipv4 a b d e)
  | _ => P.panic

theorem parseHost_eq (net : Net) : parseHost net = (do
    let c ← P.get
    match c.cur? with
    | none => P.err
    | some v =>
      if v = 0x5b then do
        P.skip 1
        parseIpv6 net
      else if isAlpha v then parseHostname else
      match parseIpv4 c.src c.pos with
      | (none, _) => parseHostname
      | (some ip, p) => do
        P.setPos p
        P.orErr (P.alloc 4)
        hostOf4 ip) := by
  funext c
  rw [P.get_bind]
  unfold parseHost
  rcases c.cur? with _ | v <;> dsimp only
  · rfl
  split
  · rfl
  split
  · rfl
  rcases parseIpv4 c.src c.pos with ⟨_ | ip, p⟩
  · rfl
  dsimp only
  rw [P.bind_ok (show P.setPos _ c = .ok (some (), c.setPos _) from rfl)]
  rw [P.orErr_alloc_bind]
  by_cases h2 : (c.setPos p).used + 4 > (c.setPos p).cap
  · have e : (c.setPos p).alloc 4 = (false, c.setPos p) := if_pos h2
    rw [e]; rfl
  · have e : (c.setPos p).alloc 4 = (true, { c.setPos p with used := c.used + 4 }) := if_neg h2
    rw [e]
    match ip with
    | [] => rfl
    | [_] => rfl
    | [_, _] => rfl
    | [_, _, _] => rfl
    | [_, _, _, _] => rfl
    | _ :: _ :: _ :: _ :: _ :: _ => rfl

/-- `net.ParseIP` returns 16 bytes -/
def Net.Len16 (net : Net) : Prop := ∀ t ip, net.parseIP t = some ip → ip.length = 16

theorem sim_hostname (h : Nat) : Sim (u8At h 0 ∗ u16At (h + 4) 0) parseHostname (B.hostname h) (fun v _ => hostAt h v) := by
  unfold parseHostname B.hostname
  refine pre_eq (star_comm _ _) (strPut (Sim.str _) (fun v x _ _ => ?_))
  refine pre_eq (A := u8At h 0 ∗ (u16At (h + 4) x ∗ strAt x v)) (by ac_rfl) (put8 (ret ?_))
  exact Ent.framel _ (strField_some _ _ _)

theorem sim_ipv6 (net : Net) (hn : net.Len16) (h : Nat) : Sim (u8At h 0 ∗ u16At (h + 4) 0) (parseIpv6 net) (B.ipv6 net h) (fun v _ => hostAt h v) := by
  rw [parseIpv6_eq]
  unfold B.ipv6
  refine ctx (fun c => Sim.setPos (ite (fun _ => err) (fun _ => ?_)))
  rcases hp : net.parseIP ((c.src.drop c.pos).take (skipWhile (· ≠ 0x5d) c.src c.pos - c.pos)) with _ | ip <;> dsimp only
  · exact err
  have h16 := hn _ _ hp
  refine seq0 (orErr (allocRaw (by omega) (by omega))) (fun _ a => ex_elim_star (fun l => ?_))
  refine pre_eq (star_assoc _ _ _) (fact_elim ?_)
  rintro ⟨ha, hl⟩
  refine copyTo hl (by omega) ?_
  refine pre_eq (A := u8At h 0 ∗ (u16At (h + 4) 0 ∗ bytes a ip)) (by ac_rfl) (put8 ?_)
  refine pre_eq (star_left_comm _ _ _) (put16 (by omega) (skip (ret ?_)))
  refine Ent.pre_eq (star_left_comm _ _ _) (Ent.framel _ (Ent.ex a (Ent.framel _ (Ent.fact h16 (Ent.refl _)))))

theorem sim_host (net : Net) (hn : net.Len16) (h : Nat) : Sim (u8At h 0 ∗ u16At (h + 4) 0) (parseHost net) (B.host net h) (fun v _ => hostAt h v) := by
  rw [parseHost_eq]
  unfold B.host
  refine ctx (fun c => ?_)
  rcases c.cur? with _ | v <;> dsimp only
  · exact err
  refine ite (fun _ => skip (sim_ipv6 net hn h)) (fun _ => ite (fun _ => sim_hostname h) (fun _ => ?_))
  rcases hp : parseIpv4 c.src c.pos with ⟨_ | ip, p⟩ <;> dsimp only
  · exact sim_hostname h
  have h4 := parseIpv4_length _ _ _ _ hp
  refine Sim.setPos (seq0 (orErr (allocRaw (by omega) (by omega))) (fun _ a => ex_elim_star (fun l => ?_)))
  refine pre_eq (star_assoc _ _ _) (fact_elim ?_)
  rintro ⟨ha, hl⟩
  refine copyTo hl (by omega) ?_
  refine pre_eq (A := u8At h 0 ∗ (u16At (h + 4) 0 ∗ bytes a ip)) (by ac_rfl) (put8 ?_)
  refine pre_eq (star_left_comm _ _ _) (put16 (by omega) ?_)
  match ip, h4 with
  | [x, y, z, w], _ =>
    refine ret ?_
    exact Ent.pre_eq (star_left_comm _ _ _) (Ent.framel _ (Ent.ex a (Ent.refl _)))

theorem HostPort.parse_eq (net : Net) : HostPort.parse net = (do
    let h ← P.orErr (parseHost net)
    match ← P.peek with
    | some 0x3a => do
      P.skip 1
      let c ← P.get
      let r := parseUInt c.src c.pos
      P.setPos r.newPos
      if !r.ok then P.err else
      if r.digit > 0xffff then P.err else
      pure ⟨h, some (u16 r.digit)⟩
    | _ => pure ⟨h, none⟩) := by
  unfold HostPort.parse
  congr 1

theorem sim_hostPort (net : Net) (hn : net.Len16) (h : Nat) : Sim (zeros h 6) (HostPort.parse net) (B.hostPort net h) (fun v _ => hostPortAt h v) := by
  rw [show 6 = 1 + (1 + (2 + 2)) from rfl, zeros_split, zeros_split, zeros_split, zeros_u8, zeros_u8, zeros_u16, zeros_u16, HostPort.parse_eq]
  unfold B.hostPort
  refine pre_eq (A := (u8At h 0 ∗ u16At (h + 4) 0) ∗ (u8At (h + 1) 0 ∗ u16At (h + 2) 0)) (by ac_rfl) ?_
  refine seq (orErr (sim_host net hn h)) (fun v _ => peek (fun o => ?_))
  split
  · refine skip (ctx (fun c => Sim.setPos (ite (fun _ => err) (fun _ => ite (fun _ => err) (fun hd => ?_)))))
    refine pre_eq (star_left_comm _ _ _) (put8 ?_)
    refine pre_eq (A := u16At (h + 2) 0 ∗ (hostAt h v ∗ u8At (h + 1) 1)) (by ac_rfl) (put16 (by rw [u16_id (by omega)]; omega) (ret ?_))
    exact Ent.of_eq (show _ = hostAt h v ∗ (u8At (h + 1) 1 ∗ u16At (h + 2) _) by ac_rfl)
  · rename_i hx
    split
    · exact (hx rfl).elim
    · exact ret (Ent.refl _)

/-! ## SIP URI -/
theorem sim_password (a : Nat) : Sim (u16At (a + 4) 0) SipUri.parsePassword (B.password a) (fun v _ => strField (a + 4) v) := by
  unfold SipUri.parsePassword B.password
  refine dry (Dry.byteAt 0) (fun b => ite (fun _ => ?_) (fun _ => ret (strField_nil _)))
  refine skip (peek (fun o => ite (fun _ => err) (fun _ => ?_)))
  refine pre_eq (star_emp _).symm (strPut (orErr (strEscEmpty _)) (fun v x _ _ => ret ?_))
  rw [star_emp]
  exact strField_some _ _ _

theorem sim_userinfo (a : Nat) : Sim (u16At (a + 2) 0 ∗ u16At (a + 4) 0) SipUri.parseUserinfo (B.userinfo a) (fun v _ => strField (a + 2) v.1 ∗ strField (a + 4) v.2) := by
  unfold SipUri.parseUserinfo B.userinfo
  refine ctx (fun c => ite (fun _ => ?_) (fun _ => ret (Ent.star (strField_nil _) (strField_nil _))))
  refine seq0 (orErr (strEsc _)) (fun v x => str_lt (fun _ hx => peek (fun o => ite (fun _ => err) (fun _ => ?_))))
  refine pre_eq (star_left_comm _ _ _) (put16 hx ?_)
  refine pre_eq (A := u16At (a + 4) 0 ∗ (u16At (a + 2) x ∗ strAt x v)) (by ac_rfl) ?_
  refine seq (orErr (sim_password a)) (fun w _ => peek (fun o => ite (fun _ => err) (fun _ => skip (ret ?_))))
  exact Ent.pre_eq (star_comm _ _) (Ent.frame _ (strField_some _ _ _))

theorem sipUri_setsKnown (a : Nat) : SetsKnownAt uriParamAt uriParamRaw UriParam.name (knownAt uriParamAt sipUriKnownNames.length (a + 16)) SipUri.setKnown (B.sipUriSetKnown a) := by
  intro k v n q X h8 hq hnd
  unfold SipUri.setKnown B.sipUriSetKnown
  refine Sim.setKnown (on := fun fl => fl.setSipUriKnownParam) (by decide) h8 hq ?_
  exact Ent.trans (Ent.pre_eq (star_assoc _ _ _).symm (Ent.drop _ _)) hnd

theorem sim_sipUriParams (a : Nat) : Sim (u16At (a + 12) 0 ∗ u16At (a + 16) 0) SipUri.parseParams (B.sipUriParams a)
    (fun v _ => knownAt uriParamAt sipUriKnownNames.length (a + 16) v.1 ∗ (ex fun q => u16At (a + 12) q ∗ listAt uriParamAt 4 q v.2)) := by
  unfold SipUri.parseParams B.sipUriParams
  refine peek (fun o => ite (fun _ => skip ?_) (fun _ => ?_))
  · refine pre (A := knownAt uriParamAt sipUriKnownNames.length (a + 16) [] ∗ u16At (a + 12) 0) ?_ (Ent.pre_eq (star_comm _ _) (Ent.frame _ (knownAt_nil _ _ _)))
    show Sim _ (P.orErr (parseUriParams sipUriParamCS SipUri.setKnown [])) _ _
    refine ofP (P.bind_pure' _) ?_
    refine seq (orErr (sim_uriParams _ _ _ _ (sipUri_setsKnown a) [])) (fun v x => ?_)
    refine pre_eq (A := listAt uriParamAt 4 x v.2 ∗ (knownAt uriParamAt sipUriKnownNames.length (a + 16) v.1 ∗ u16At (a + 12) 0)) (by ac_rfl) (list_lt (fun hx => ?_))
    refine pre_eq (A := u16At (a + 12) 0 ∗ (knownAt uriParamAt sipUriKnownNames.length (a + 16) v.1 ∗ listAt uriParamAt 4 x v.2)) (by ac_rfl) (put16 hx (ret ?_))
    exact Ent.pre_eq (star_left_comm _ _ _) (Ent.framel _ (Ent.ex x (Ent.refl _)))
  · exact ret (Ent.pre_eq (star_comm _ _) (Ent.star (knownAt_nil _ _ _) (listField_nil _ _ _)))

theorem sim_sipUriHeaders (a : Nat) : Sim (u16At (a + 14) 0) SipUri.parseHeaders (B.sipUriHeaders a)
    (fun v _ => ex fun q => u16At (a + 14) q ∗ listAt uriHeaderAt 4 q v) := by
  unfold SipUri.parseHeaders B.sipUriHeaders
  refine peek (fun o => ite (fun _ => skip ?_) (fun _ => ret (listField_nil _ _ _)))
  refine ofP (P.bind_pure' _) ?_
  refine seq0 (orErr (sim_uriHeaders _)) (fun v x => list_lt (fun hx => ?_))
  exact pre_eq (A := u16At (a + 14) 0 ∗ listAt uriHeaderAt 4 x v) (by ac_rfl) (put16 hx (ret (Ent.ex x (Ent.refl _))))

/-- the struct behind `isSecure` -/
def sipUriRest (a : Nat) : Asrt := u16At (a + 2) 0 ∗ (u16At (a + 4) 0 ∗ (zeros (a + 6) 6 ∗ (u16At (a + 12) 0 ∗ (u16At (a + 14) 0 ∗ u16At (a + 16) 0))))

theorem sipUri_zeros (a : Nat) : zeros a 18 ⊢ₘ u8At a 0 ∗ sipUriRest a := by
  rw [show 18 = 1 + (1 + (2 + (2 + (6 + (2 + (2 + 2)))))) from rfl]
  simp only [zeros_split, zeros_u8, zeros_u16]
  exact Ent.framel _ (Ent.dropl _ _)

theorem sim_sipUriAfterScheme (net : Net) (hn : net.Len16) (s : Bool) (a : Nat) :
    Sim (u8At a (if s then 1 else 0) ∗ sipUriRest a) (SipUri.parseAfterScheme net s) (B.sipUriAfterScheme net a) (fun v _ => sipUriAt a v) := by
  unfold SipUri.parseAfterScheme B.sipUriAfterScheme sipUriRest
  refine pre_eq (A := (u16At (a + 2) 0 ∗ u16At (a + 4) 0) ∗ (u8At a (if s then 1 else 0) ∗ (zeros (a + 6) 6 ∗ (u16At (a + 12) 0 ∗ (u16At (a + 14) 0 ∗ u16At (a + 16) 0))))) (by ac_rfl) ?_
  refine seq (orErr (sim_userinfo a)) (fun v _ => ?_)
  obtain ⟨user, pw⟩ := v
  dsimp only
  refine pre_eq (A := zeros (a + 6) 6 ∗ ((strField (a + 2) user ∗ strField (a + 4) pw) ∗ (u8At a (if s then 1 else 0) ∗ (u16At (a + 12) 0 ∗ (u16At (a + 14) 0 ∗ u16At (a + 16) 0))))) (by ac_rfl) ?_
  refine seq (orErr (sim_hostPort net hn (a + 6))) (fun hp _ => ?_)
  refine pre_eq (A := (u16At (a + 12) 0 ∗ u16At (a + 16) 0) ∗ (hostPortAt (a + 6) hp ∗ ((strField (a + 2) user ∗ strField (a + 4) pw) ∗ (u8At a (if s then 1 else 0) ∗ u16At (a + 14) 0)))) (by ac_rfl) ?_
  refine seq (sim_sipUriParams a) (fun v _ => ?_)
  obtain ⟨known, params⟩ := v
  dsimp only
  refine pre_eq (A := u16At (a + 14) 0 ∗ ((knownAt uriParamAt sipUriKnownNames.length (a + 16) known ∗ (ex fun q => u16At (a + 12) q ∗ listAt uriParamAt 4 q params)) ∗
    (hostPortAt (a + 6) hp ∗ ((strField (a + 2) user ∗ strField (a + 4) pw) ∗ u8At a (if s then 1 else 0))))) (by ac_rfl) ?_
  refine ofB (B.bind_pure' _) (seq (sim_sipUriHeaders a) (fun hs _ => ret' ?_))
  unfold sipUriAt
  ac_rfl

theorem Dry.sipScheme : Dry SipUri.parseScheme := by
  intro c r d h
  unfold SipUri.parseScheme at h
  repeat' split at h
  all_goals (cases h; exact ⟨rfl, rfl, rfl, rfl⟩)

/-- `Parse` clears the struct first, so it may lie on any 18 bytes -/
theorem sim_sipUri (net : Net) (hn : net.Len16) (a : Nat) (l : Bytes) (hl : l.length = 18) : Sim (bytes a l) (SipUri.parse net) (B.sipUri net a) (fun v _ => sipUriAt a v) := by
  unfold SipUri.parse B.sipUri
  refine pre_eq (star_emp _).symm (zero hl ?_)
  rw [star_emp]
  refine pre ?_ (sipUri_zeros a)
  refine dry Dry.sipScheme (fun s => put8 ?_)
  exact sim_sipUriAfterScheme net hn s a

theorem sim_sipUriAfterSchemeWithoutParam (net : Net) (hn : net.Len16) (s : Bool) (a : Nat) :
    Sim (u8At a (if s then 1 else 0) ∗ sipUriRest a) (SipUri.parseAfterSchemeWithoutParam net s) (B.sipUriAfterSchemeWithoutParam net a) (fun v _ => sipUriAt a v) := by
  unfold SipUri.parseAfterSchemeWithoutParam B.sipUriAfterSchemeWithoutParam sipUriRest
  refine pre_eq (A := (u16At (a + 2) 0 ∗ u16At (a + 4) 0) ∗ (u8At a (if s then 1 else 0) ∗ (zeros (a + 6) 6 ∗ (u16At (a + 12) 0 ∗ (u16At (a + 14) 0 ∗ u16At (a + 16) 0))))) (by ac_rfl) ?_
  refine seq (sim_userinfo a) (fun v _ => ?_)
  obtain ⟨user, pw⟩ := v
  dsimp only
  refine pre_eq (A := zeros (a + 6) 6 ∗ ((strField (a + 2) user ∗ strField (a + 4) pw) ∗ (u8At a (if s then 1 else 0) ∗ (u16At (a + 12) 0 ∗ (u16At (a + 14) 0 ∗ u16At (a + 16) 0))))) (by ac_rfl) ?_
  refine ofB (B.bind_pure' _) (seq (orErr (sim_hostPort net hn (a + 6))) (fun hp _ => ret ?_))
  unfold sipUriAt
  refine Ent.pre_eq (A' := u8At a (if s then 1 else 0) ∗ (strField (a + 2) user ∗ (strField (a + 4) pw ∗ (hostPortAt (a + 6) hp ∗ (u16At (a + 12) 0 ∗ (u16At (a + 14) 0 ∗ u16At (a + 16) 0)))))) (by ac_rfl) ?_
  exact Ent.framel _ (Ent.framel _ (Ent.framel _ (Ent.framel _ (Ent.star (listField_nil _ _ _) (Ent.star (listField_nil _ _ _) (knownAt_nil _ _ _))))))

/-! ## tel URI -/
/-- the fields that `SetKnownParams` changes -/
def telKnownAt (a : Nat) (k : TelKnown) : Asrt :=
  u8At (a + 1) (if k.contextIsDomain then 1 else 0) ∗ (slot uriParamAt (a + 4) k.context ∗ knownAt uriParamAt telUriKnownNames.length (a + 8) k.known)
/-- TelUri.go:44-51 -/
def telUriAt (a : Nat) (u : TelUri) : Asrt :=
  u8At a (if u.isGlobal then 1 else 0) ∗ (strField (a + 2) (some u.number) ∗ (telKnownAt a ⟨u.contextIsDomain, u.context, u.known⟩ ∗
    (ex fun q => u16At (a + 6) q ∗ listAt uriParamAt 4 q u.params)))

theorem telUri_setsKnown (a : Nat) : SetsKnownAt uriParamAt uriParamRaw UriParam.name (telKnownAt a) TelUri.setKnown (B.telUriSetKnown a) := by
  intro k v n q X h8 hq hnd
  unfold TelUri.setKnown B.telUriSetKnown
  refine pre_eq (A := strAt n v.name ∗ (telKnownAt a k ∗ (uriParamRaw q n v ∗ X))) (by ac_rfl) (getStr (ite (fun _ => ?_) (fun _ => ?_)))
  · unfold telKnownAt uriParamRaw
    refine pre_eq (A := slot uriParamAt (a + 4) k.context ∗ (strField (q + 2) v.value ∗ (u16At q n ∗ (strAt n v.name ∗
      (u8At (a + 1) (if k.contextIsDomain then 1 else 0) ∗ (knownAt uriParamAt telUriKnownNames.length (a + 8) k.known ∗ X)))))) (by ac_rfl) ?_
    refine ex_elim_star (fun old => pre_eq (star_assoc _ _ _) (put16 hq ?_))
    refine pre_eq (A := strField (q + 2) v.value ∗ (u16At (a + 4) q ∗ (u16At q n ∗ (strAt n v.name ∗
      (u8At (a + 1) (if k.contextIsDomain then 1 else 0) ∗ (knownAt uriParamAt telUriKnownNames.length (a + 8) k.known ∗ (X ∗ optNode uriParamAt old k.context))))))) (by ac_rfl) ?_
    refine ex_elim_star (fun y => pre_eq (star_assoc _ _ _) (get16 ?_))
    rcases v.value with _ | w <;> dsimp only [strOpt]
    · refine pre_eq (star_left_comm _ _ _) (fact_elim (fun hy => ?_))
      rw [if_pos (show y = 0 from hy)]
      exact panic
    · refine pre_eq (star_left_comm _ _ _) (str_lt (fun hy hy' => ?_))
      rw [if_neg (show ¬ y = 0 by omega)]
      refine getStr ?_
      rcases w.head? with _ | b <;> dsimp only
      · exact panic
      refine pre_eq (A := u8At (a + 1) (if k.contextIsDomain then 1 else 0) ∗ (strAt y w ∗ (u16At (q + 2) y ∗ (u16At (a + 4) q ∗ (u16At q n ∗ (strAt n v.name ∗
        (knownAt uriParamAt telUriKnownNames.length (a + 8) k.known ∗ (X ∗ optNode uriParamAt old k.context)))))))) (by ac_rfl) (put8 ?_)
      have hend : ∀ (d : UInt8) (t : Bytes), u8At (a + 1) d ∗ (strAt y t ∗ (u16At (q + 2) y ∗ (u16At (a + 4) q ∗ (u16At q n ∗ (strAt n v.name ∗
        (knownAt uriParamAt telUriKnownNames.length (a + 8) k.known ∗ (X ∗ optNode uriParamAt old k.context))))))) ⊢ₘ
          u8At (a + 1) d ∗ (slot uriParamAt (a + 4) (some ⟨v.name, some t⟩) ∗ knownAt uriParamAt telUriKnownNames.length (a + 8) k.known) := by
        intro d t
        refine Ent.framel _ ?_
        refine Ent.pre_eq (A' := ((u16At (a + 4) q ∗ ((u16At q n ∗ strAt n v.name) ∗ (u16At (q + 2) y ∗ strAt y t))) ∗
          knownAt uriParamAt telUriKnownNames.length (a + 8) k.known) ∗ (X ∗ optNode uriParamAt old k.context)) (by ac_rfl) (Ent.trans (Ent.drop _ _) ?_)
        refine Ent.frame _ (Ent.ex q (Ent.framel _ (Ent.fact h8 ?_)))
        exact Ent.star (strField_some _ _ _) (strField_some _ _ _)
      by_cases hb : b = 0x2b
      · rw [if_neg (show ¬ b ≠ 43 by simp [hb]), if_neg (show ¬ b ≠ 43 by simp [hb])]
        refine pre_eq (star_left_comm _ _ _) (removeVisual (pre_eq (star_left_comm _ _ _) (ret ?_)))
        refine Ent.trans (hend _ _) (Ent.of_eq ?_)
        simp only [Took, telKnownAt]
        simp [hb]
      · rw [if_pos (show b ≠ 43 from hb), if_pos (show b ≠ 43 from hb)]
        refine ret (Ent.trans (hend _ _) (Ent.of_eq ?_))
        simp only [Took, telKnownAt]
        simp [hb]
  · unfold telKnownAt
    refine pre_eq (A := (knownAt uriParamAt telUriKnownNames.length (a + 8) k.known ∗ (strAt n v.name ∗ (uriParamRaw q n v ∗ X))) ∗
      (u8At (a + 1) (if k.contextIsDomain then 1 else 0) ∗ slot uriParamAt (a + 4) k.context)) (by ac_rfl) ?_
    refine ofB (B.bind_pure' _) (ofP (p' := (P.get >>= fun c => Sip.setKnown telUriKnownNames c.flags.setTelUriKnownParam k.known v.name v) >>=
      fun r => match r with | some known => pure (some { k with known := known }) | none => pure none) (fun c => rfl) ?_)
    refine seq (Sim.setKnown (on := fun fl => fl.setTelUriKnownParam) (rest := uriParamRaw q n v ∗ X) (by decide) h8 hq
      (Ent.trans (Ent.pre_eq (star_assoc _ _ _).symm (Ent.drop _ _)) hnd)) (fun r x => ?_)
    match r, x with
    | some k', true => exact ret' (by dsimp only [Took]; ac_rfl)
    | none, false => exact ret' (by dsimp only [Took]; ac_rfl)
    | none, true => dsimp only [Took]; exact fact_elim (fun h => h.elim)
    | some _, false => dsimp only [Took]; exact fact_elim (fun h => h.elim)

theorem sim_telNumber (a : Nat) : Sim (u8At a 0 ∗ u16At (a + 2) 0) TelUri.parseNumber (B.telNumber a)
    (fun v _ => u8At a (if v.1 then 1 else 0) ∗ strField (a + 2) (some v.2)) := by
  unfold TelUri.parseNumber B.telNumber
  refine peek (fun o => ?_)
  rcases o with _ | b <;> dsimp only
  · exact err
  refine ite (fun _ => ?_) (fun _ => ?_)
  · refine pre_eq (star_comm _ _) (strPut (orErr (tel _)) (fun v x _ _ => ?_))
    refine pre_eq (A := u8At a 0 ∗ (u16At (a + 2) x ∗ strAt x v)) (by ac_rfl) (put8 (ret ?_))
    exact Ent.framel _ (strField_some _ _ _)
  · refine pre_eq (star_comm _ _) (strPut (orErr (tel _)) (fun v x _ _ => ?_))
    refine pre_eq (A := u8At a 0 ∗ (u16At (a + 2) x ∗ strAt x v)) (by ac_rfl) (put8 (ret ?_))
    exact Ent.framel _ (strField_some _ _ _)

/-- the struct with all fields 0 -/
def telUriZero (a : Nat) : Asrt := u8At a 0 ∗ (u8At (a + 1) 0 ∗ (u16At (a + 2) 0 ∗ (u16At (a + 4) 0 ∗ (u16At (a + 6) 0 ∗ u16At (a + 8) 0))))
theorem telUri_zeros (a : Nat) : zeros a 10 = telUriZero a := by
  rw [show 10 = 1 + (1 + (2 + (2 + (2 + 2)))) from rfl]
  simp only [zeros_split, zeros_u8, zeros_u16]
  rfl

theorem telKnownAt_nil (a : Nat) : u8At (a + 1) 0 ∗ (u16At (a + 4) 0 ∗ u16At (a + 8) 0) ⊢ₘ telKnownAt a {} :=
  Ent.framel _ (Ent.star (slot_nil _ _) (knownAt_nil _ _ _))

theorem sim_telUriAfterScheme (a : Nat) : Sim (telUriZero a) TelUri.parseAfterScheme (B.telUriAfterScheme a) (fun v _ => telUriAt a v) := by
  unfold TelUri.parseAfterScheme B.telUriAfterScheme telUriZero
  refine pre (A := (u8At a 0 ∗ u16At (a + 2) 0) ∗ (telKnownAt a {} ∗ u16At (a + 6) 0)) ?_ ?_
  · refine seq (orErr (sim_telNumber a)) (fun v _ => ?_)
    obtain ⟨g, n⟩ := v
    dsimp only
    refine peek (fun o => ite (fun _ => skip ?_) (fun _ => ret ?_))
    · refine pre_eq (star_left_comm _ _ _) ?_
      refine seq (orErr (sim_uriParams _ _ _ _ (telUri_setsKnown a) {})) (fun v x => ?_)
      obtain ⟨k, ps⟩ := v
      dsimp only
      refine pre_eq (A := listAt uriParamAt 4 x ps ∗ (telKnownAt a k ∗ ((u8At a (if g then 1 else 0) ∗ strField (a + 2) (some n)) ∗ u16At (a + 6) 0))) (by ac_rfl) (list_lt (fun hx => ?_))
      refine pre_eq (A := u16At (a + 6) 0 ∗ (listAt uriParamAt 4 x ps ∗ (telKnownAt a k ∗ (u8At a (if g then 1 else 0) ∗ strField (a + 2) (some n))))) (by ac_rfl) (put16 hx (ret ?_))
      unfold telUriAt
      refine Ent.pre_eq (A' := u8At a (if g then 1 else 0) ∗ (strField (a + 2) (some n) ∗ (telKnownAt a k ∗ (u16At (a + 6) x ∗ listAt uriParamAt 4 x ps)))) (by ac_rfl) ?_
      exact Ent.framel _ (Ent.framel _ (Ent.framel _ (Ent.ex x (Ent.refl _))))
    · unfold telUriAt
      refine Ent.pre_eq (star_assoc _ _ _) (Ent.framel _ (Ent.framel _ (Ent.framel _ (listField_nil _ _ _))))
  · refine Ent.pre_eq (A' := (u8At a 0 ∗ u16At (a + 2) 0) ∗ ((u8At (a + 1) 0 ∗ (u16At (a + 4) 0 ∗ u16At (a + 8) 0)) ∗ u16At (a + 6) 0)) (by ac_rfl) ?_
    exact Ent.framel _ (Ent.frame _ (telKnownAt_nil a))

theorem Dry.telScheme : Dry TelUri.parseScheme := by
  intro c r d h
  unfold TelUri.parseScheme at h
  repeat' split at h
  all_goals (cases h; exact ⟨rfl, rfl, rfl, rfl⟩)

theorem sim_telUri (a : Nat) (l : Bytes) (hl : l.length = 10) : Sim (bytes a l) TelUri.parse (B.telUri a) (fun v _ => telUriAt a v) := by
  unfold TelUri.parse B.telUri
  refine pre_eq (star_emp _).symm (zero hl ?_)
  rw [star_emp, telUri_zeros]
  exact dry Dry.telScheme (fun _ => sim_telUriAfterScheme a)
end Sip
