import Verif.Props.MemMsg
import Verif.Props.Plain
/-!
# C44 how much memory the parsers use

Nine bytes of the arena for every byte of input, and a few more, whatever the input, the settings and the result: accepted or rejected, with or without a body,
in an arena of any size.  The 9 cannot be made smaller (`contact_memory_needed`): a Contact header with `n` stars takes 18 bytes for every two bytes of input.
-/
namespace Sip

theorem MemTotal.fresh {α : Type} {K : Int} {p : P α} {s : Bytes} {cap : Nat} {fl : Flags} (h : MemTotal K p (Sip.fresh s cap fl)) (h8 : 8 ≤ cap) {r : Option α} {c' : Ctx}
    (e : p (Sip.fresh s cap fl) = .ok (r, c')) {B : Nat} (hB : K + 8 ≤ B) : c'.used ≤ 9 * s.length + B := by
  obtain ⟨_, h1⟩ := h (fresh_inv h8) r c' e
  simp only [fresh_used, fresh_src, fresh_pos] at h1
  omega

/-- **C44** the message parser uses at most 9 bytes of the arena for a byte of input, and 26 more, accepted or not -/
theorem msg_memory_tight (net : Net) (hnet : net.Ok) (s : Bytes) (cap : Nat) (h8 : 8 ≤ cap) (fl : Flags) (r : Option Msg) (c' : Ctx)
    (h : Msg.parse net (fresh s cap fl) = .ok (r, c')) : c'.used ≤ 9 * s.length + 26 :=
  (MemTotal.message hnet).fresh h8 h (by omega)

/-- **C44, C05** so the addresses of a message of at most 3638 bytes are below 32768, where an address cannot be taken for a value, however large the arena is -/
theorem msg_addresses_small (net : Net) (hnet : net.Ok) (s : Bytes) (hs : s.length ≤ 3638) (cap : Nat) (h8 : 8 ≤ cap) (fl : Flags) (r : Option Msg) (c' : Ctx)
    (h : Msg.parse net (fresh s cap fl) = .ok (r, c')) : c'.used ≤ 32768 := by
  have := msg_memory_tight net hnet s cap h8 fl r c' h
  omega

/-- **C44** every header parser -/
theorem header_memory_tight (net : Net) (hnet : net.Ok) (k : HKind) (s : Bytes) (cap : Nat) (h8 : 8 ≤ cap) (fl : Flags) (r : Option HVal) (c' : Ctx)
    (h : k.parse net (fresh s cap fl) = .ok (r, c')) : c'.used ≤ 9 * s.length + 30 :=
  (MemTotal.ofMem (K := 22) (MemAt.header hnet k)).fresh h8 h (by omega)

/-- **C44** the start line -/
theorem startLine_memory_tight (net : Net) (hnet : net.Ok) (s : Bytes) (cap : Nat) (h8 : 8 ≤ cap) (fl : Flags) (r : Option StartLine) (c' : Ctx)
    (h : StartLine.parse net (fresh s cap fl) = .ok (r, c')) : c'.used ≤ 9 * s.length + 10 :=
  (MemTotal.ofMem (K := 2) (MemAt.startLine hnet)).fresh h8 h (by omega)

/-- **C44** addresses -/
theorem addr_memory_tight (net : Net) (hnet : net.Ok) (params : Bool) (s : Bytes) (cap : Nat) (h8 : 8 ≤ cap) (fl : Flags) (r : Option Addr) (c' : Ctx)
    (h : parseAddr net params (fresh s cap fl) = .ok (r, c')) : c'.used ≤ 9 * s.length + 10 :=
  (MemTotal.ofMem (K := 2) (MemAt.addr hnet params)).fresh h8 h (by omega)

/-- **C44** addresses with brackets -/
theorem nameAddr_memory_tight (net : Net) (hnet : net.Ok) (s : Bytes) (cap : Nat) (h8 : 8 ≤ cap) (fl : Flags) (r : Option Addr) (c' : Ctx)
    (h : parseNameAddr net (fresh s cap fl) = .ok (r, c')) : c'.used ≤ 9 * s.length + 10 :=
  (MemTotal.ofMem (K := 2) (MemAt.nameAddr hnet)).fresh h8 h (by omega)

theorem MemAt.sipUri {net : Net} (hnet : net.Ok) {c : Ctx} : MemAt 9 (fun _ => 3) 16 (SipUri.parse net) c := by
  unfold SipUri.parse
  refine MemAt.seq (b := 0) (C1 := 0) ?_ (fun sec c1 _ _ _ => MemAt.sipRest hnet sec)
  refine MemAt.ofFree (fun hc => safe_sipScheme c hc) (fun hc r c' e => ?_) (fun v c' hc e => ?_) (by omega) (by omega)
  · unfold SipUri.parseScheme at e
    repeat' split at e
    all_goals (cases e; rfl)
  · have := ((safe_sipScheme c hc).step _ _ e).pos_le; omega

theorem MemAt.telUri {c : Ctx} : MemAt 9 (fun _ => 0) 12 TelUri.parse c := by
  unfold TelUri.parse
  refine MemAt.seq (b := 0) (C1 := 0) ?_ (fun _ c1 _ _ _ => MemAt.le MemAt.telRest)
  refine MemAt.ofFree (fun hc => safe_telScheme 0 c hc) (fun hc r c' e => ?_) (fun v c' hc e => ?_) (by omega) (by omega)
  · unfold TelUri.parseScheme at e
    repeat' split at e
    all_goals (cases e; rfl)
  · have := ((safe_telScheme 0 c hc).step _ _ e).pos_le; omega

/-- **C44** SIP URIs -/
theorem sipUri_memory_tight (net : Net) (hnet : net.Ok) (s : Bytes) (cap : Nat) (h8 : 8 ≤ cap) (fl : Flags) (r : Option SipUri) (c' : Ctx)
    (h : SipUri.parse net (fresh s cap fl) = .ok (r, c')) : c'.used ≤ 9 * s.length + 24 :=
  (MemTotal.ofMem (K := 16) (MemAt.sipUri hnet)).fresh h8 h (by omega)

/-- **C44** telephone URIs -/
theorem telUri_memory_tight (s : Bytes) (cap : Nat) (h8 : 8 ≤ cap) (fl : Flags) (r : Option TelUri) (c' : Ctx)
    (h : TelUri.parse (fresh s cap fl) = .ok (r, c')) : c'.used ≤ 9 * s.length + 20 :=
  (MemTotal.ofMem (K := 12) MemAt.telUri).fresh h8 h (by omega)

end Sip
