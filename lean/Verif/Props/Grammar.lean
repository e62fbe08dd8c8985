import Verif.Lemmas.Reads
import Verif.Props.Names
import Verif.Props.RawHeader
import Verif.Props.Index
/-!
# The grammar of what is accepted (C42)

Specification only: relations `R v t y` between a value `v`, its text `t` and the input `y` that follows the text.  They are written in the order of the
grammar of RFC 3261, chapter 25, with the deviations of the library; no parser occurs in them.  That every accepted input stands in these relations to the
value returned is proved in `ReadsUri`, `ReadsAddr`, `ReadsHeaders`, `ReadsMsg`.
-/
namespace Sip
namespace Gram

/-! ## Lexical elements -/

/-- the value is the text: the longest run of bytes of the set, not empty -/
def run (s : CS) : Rel Bytes := fun v t y => v = t ∧ t ≠ [] ∧ InSet s t ∧ NotIn s y
/-- bytes of the set and escapes `%HH`, as many as there are, not none; the value is what they stand for -/
def esc (s : CS) : Rel Bytes := fun v t y => v ≠ [] ∧ Decodes s (t ++ y) v y
/-- the same, possibly empty -/
def escEmpty (s : CS) : Rel Bytes := fun v t y => Decodes s (t ++ y) v y
/-- nothing but white space stands in front of the line end -/
def endsLine (s : Bytes) : Prop := ∃ a b, s = a ++ b ∧ AllWsp a ∧ StartsEol b
/-- SWS as far as it goes: all white space there is - one fold at most -, but none in front of a line end -/
def sws (w y : Bytes) : Prop :=
  IsSWS w ∧ (endsLine (w ++ y) → w = []) ∧ (¬ endsLine (w ++ y) → ∀ w' z, w ++ y = w' ++ z → IsSWS w' → w'.length ≤ w.length)
/-- `m` with white space around it: SWS m SWS -/
def mark (m : UInt8) : Bytes → Bytes → Prop := fun t y => ∃ w1 w2, IsSWS w1 ∧ sws w2 y ∧ t = w1 ++ m :: w2
/-- HCOLON: *(SP / HTAB) ":" SWS -/
def hcolon : Bytes → Bytes → Prop := fun t y => ∃ w1 w2, AllWsp w1 ∧ sws w2 y ∧ t = w1 ++ 0x3a :: w2
/-- 1*DIGIT, all there are; the value is reduced to 64 bits -/
def number : Rel Nat := fun n t y => t ≠ [] ∧ InSet csDigit t ∧ NotIn csDigit y ∧ n = decVal t % 18446744073709551616
/-- quoted-string: SWS DQUOTE text DQUOTE -/
def quoted : Rel Bytes := fun v t _ => ∃ w q, IsSWS w ∧ t = w ++ 0x22 :: q ++ [0x22] ∧ QText q v
/-- a word in any letter case -/
def word (s : String) : Bytes → Prop := fun t => t.map asciiLower = str s

/-- items with the byte `sep` between them; at the very end of the input one `sep` more is accepted -/
inductive sepBy {α : Type} (sep : UInt8) (R : Rel α) : List α → Bytes → Bytes → Prop
  | last (x t y) (h : R x t y) (hy : y.head? ≠ some sep) : sepBy sep R [x] t y
  | more (x t xs t' y) (h : R x t (sep :: t' ++ y)) (hs : sepBy sep R xs t' y) : sepBy sep R (x :: xs) (t ++ sep :: t') y
  | trail (x t) (h : R x t [sep]) : sepBy sep R [x] (t ++ [sep]) []

/-! ## Host and port -/

/-- host = hostname / IPv4address / "[" IPv6 "]" -/
inductive host (net : Net) : Rel Host
  | name (s y) (h : s ≠ []) (hs : InSet csHostname s) (hy : NotIn csHostname y) (h4 : ¬ ∃ ip, Ipv4Text s ip) : host net (.name s) s y
  | ipv4 (a b c d s y) (h : Ipv4Text s [a, b, c, d]) (hy : NotIn csHostname y) : host net (.ipv4 a b c d) s y
  | ipv6 (x ip y) (h : 0x5d ∉ x) (hip : net.parseIP x = some ip) : host net (.ipv6 ip) (0x5b :: x ++ [0x5d]) y

/-- hostport = host [ ":" port ] -/
inductive hostport (net : Net) : Rel HostPort
  | noPort (h t y) (hh : host net h t y) (hy : y.head? ≠ some 0x3a) : hostport net ⟨h, none⟩ t y
  | port (h t n d y) (hh : host net h t (0x3a :: d ++ y)) (hn : number n d y) (hr : n ≤ 65535) : hostport net ⟨h, some n⟩ (t ++ 0x3a :: d) y

/-! ## URIs -/

/-- param = pname [ "=" pvalue ] -/
inductive uriParam (cs : CharsetInfo) : Rel UriParam
  | flag (n t y) (hn : esc cs.name n t y) (hy : y.head? ≠ some 0x3d) : uriParam cs ⟨n, none⟩ t y
  | value (n t v tv y) (hn : esc cs.name n t (0x3d :: tv ++ y)) (hv : esc cs.value v tv y) : uriParam cs ⟨n, some v⟩ (t ++ 0x3d :: tv) y

/-- header = hname "=" hvalue; a header that ends the input has no value -/
inductive uriHeader (cs : CharsetInfo) : Rel UriHeader
  | value (n t v tv y) (hn : esc cs.name n t (0x3d :: tv ++ y)) (hv : escEmpty cs.value v tv y) (hy : tv ++ y ≠ []) : uriHeader cs ⟨n, some v⟩ (t ++ 0x3d :: tv) y
  | atEnd (n t) (hn : esc cs.name n t [0x3d]) : uriHeader cs ⟨n, none⟩ (t ++ [0x3d]) []

/-- which of the parameters `ps` (in the order of the text) are kept in the table of the known ones and which in the list: with the option `on` a parameter whose
name, ignoring case, is in `names` goes into the table, the last one of each name; the others stay in their order; the table is empty if there are none for it -/
def Sorted {α : Type} (names : List Bytes) (on : Bool) (nameOf : α → Bytes) (ps : List α) (known : List (Option α)) (others : List α) : Prop :=
  others = ps.filter (fun p => !(on && names.contains ((nameOf p).map asciiLower))) ∧
  known = if on && ps.any (fun p => names.contains ((nameOf p).map asciiLower)) then
      names.map (fun n => (ps.filter (fun p => (nameOf p).map asciiLower = n)).getLast?) else []

/-- an "@" stands in front of the first ">" or white space -/
def hasAt (s : Bytes) : Prop := ∃ a b, s = a ++ 0x40 :: b ∧ ∀ x ∈ a, x ≠ 0x40 ∧ x ≠ 0x3e ∧ isLwsChar x = false

/-- [ user [ ":" password ] "@" ]: it is there exactly if an "@" is -/
inductive userinfo : Rel (Option Bytes × Option Bytes)
  | none (y) (h : ¬ hasAt y) : userinfo (.none, .none) [] y
  | user (u t y) (h : hasAt (t ++ 0x40 :: y)) (hu : esc csSipUser u t (0x40 :: y)) : userinfo (some u, .none) (t ++ [0x40]) y
  | password (u t p tp y) (h : hasAt (t ++ 0x3a :: tp ++ 0x40 :: y)) (hu : esc csSipUser u t (0x3a :: tp ++ 0x40 :: y))
      (hp : escEmpty csSipPassword p tp (0x40 :: y)) : userinfo (some u, some p) (t ++ 0x3a :: tp ++ [0x40]) y

/-- [ ";" param *( ";" param ) ] -/
inductive sipParams (fl : Flags) : Rel (List (Option UriParam) × List UriParam)
  | none (y) (h : y.head? ≠ some 0x3b) : sipParams fl ([], []) [] y
  | some (ps known others t y) (h : sepBy 0x3b (uriParam sipUriParamCS) ps t y)
      (hs : Sorted sipUriKnownNames fl.setSipUriKnownParam UriParam.name ps known others) : sipParams fl (known, others) (0x3b :: t) y

/-- [ "?" header *( "&" header ) ] -/
inductive sipHeaders : Rel (List UriHeader)
  | none (y) (h : y.head? ≠ some 0x3f) : sipHeaders [] [] y
  | some (hs t y) (h : sepBy 0x26 (uriHeader sipUriHeaderCS) hs t y) : sipHeaders hs (0x3f :: t) y

/-- what stands behind the scheme of a SIP URI -/
inductive sipRest (net : Net) (fl : Flags) (secure : Bool) : Rel SipUri
  | mk (user pw hp known ps hs t1 t2 t3 t4 y) (h1 : userinfo (user, pw) t1 (t2 ++ t3 ++ t4 ++ y)) (h2 : hostport net hp t2 (t3 ++ t4 ++ y))
      (h3 : sipParams fl (known, ps) t3 (t4 ++ y)) (h4 : sipHeaders hs t4 y) : sipRest net fl secure ⟨secure, user, pw, hp, ps, hs, known⟩ (t1 ++ t2 ++ t3 ++ t4) y

/-- a SIP URI outside brackets in a header that has parameters: they belong to the header -/
inductive sipRestNoParam (net : Net) (secure : Bool) : Rel SipUri
  | mk (user pw hp t1 t2 y) (h1 : userinfo (user, pw) t1 (t2 ++ y)) (h2 : hostport net hp t2 y) : sipRestNoParam net secure ⟨secure, user, pw, hp, [], [], []⟩ (t1 ++ t2) y

/-- ( "sip:" / "sips:" ) [ userinfo ] hostport uri-parameters [ headers ] -/
inductive sipUri (net : Net) (fl : Flags) : Rel SipUri
  | sip (u t0 t y) (h0 : word "sip:" t0) (h : sipRest net fl false u t y) : sipUri net fl u (t0 ++ t) y
  | sips (u t0 t y) (h0 : word "sips:" t0) (h : sipRest net fl true u t y) : sipUri net fl u (t0 ++ t) y

/-- the number of a telephone URI: "+" and digits or hex digits, `-`, `.`, `(`, `)` in between are left out; at least one digit -/
inductive telNumber : Rel (Bool × Bytes)
  | glob (t y) (hs : InSet csTelPhoneDigit t) (hy : NotIn csTelPhoneDigit y) (hne : t.filter (fun x => ¬ isSeparator x) ≠ []) :
      telNumber (true, 0x2b :: t.filter (fun x => ¬ isSeparator x)) (0x2b :: t) y
  | loc (t y) (hs : InSet csTelPhoneDigitHex t) (hy : NotIn csTelPhoneDigitHex y) (hne : t.filter (fun x => ¬ isSeparator x) ≠ []) (hp : t.head? ≠ some 0x2b) :
      telNumber (false, t.filter (fun x => ¬ isSeparator x)) t y

/-- the parameters of a telephone URI: `phone-context` must have a value and is kept apart - the last one; a value that begins with "+" is a number, of which the
separators are left out, any other a domain - and the rest is sorted as for SIP URIs -/
inductive TelSorted (on : Bool) (ps : List UriParam) : Bool → Option UriParam → List (Option UriParam) → List UriParam → Prop
  | noContext (known others) (h : ∀ p ∈ ps, p.name.map asciiLower ≠ str "phone-context")
      (hs : Sorted telUriKnownNames on UriParam.name ps known others) : TelSorted on ps false none known others
  | number (a b n v known others) (he : ps = a ++ ⟨n, some (0x2b :: v)⟩ :: b) (hn : n.map asciiLower = str "phone-context")
      (ha : ∀ p ∈ a, p.name.map asciiLower = str "phone-context" → p.value ≠ none)
      (hb : ∀ p ∈ b, p.name.map asciiLower ≠ str "phone-context")
      (hs : Sorted telUriKnownNames on UriParam.name (ps.filter (fun p => p.name.map asciiLower ≠ str "phone-context")) known others) :
      TelSorted on ps false (some ⟨n, some (0x2b :: v.filter (fun x => ¬ isSeparator x))⟩) known others
  | domain (a b n v known others) (he : ps = a ++ ⟨n, some v⟩ :: b) (hn : n.map asciiLower = str "phone-context") (hv : v.head? ≠ some 0x2b) (hv' : v ≠ [])
      (ha : ∀ p ∈ a, p.name.map asciiLower = str "phone-context" → p.value ≠ none)
      (hb : ∀ p ∈ b, p.name.map asciiLower ≠ str "phone-context")
      (hs : Sorted telUriKnownNames on UriParam.name (ps.filter (fun p => p.name.map asciiLower ≠ str "phone-context")) known others) :
      TelSorted on ps true (some ⟨n, some v⟩) known others

/-- what stands behind the scheme of a telephone URI -/
inductive telRest (fl : Flags) : Rel TelUri
  | noParam (g n t y) (h : telNumber (g, n) t y) (hy : y.head? ≠ some 0x3b) : telRest fl ⟨g, false, n, none, [], []⟩ t y
  | params (g n t ps tp y d ctx known others) (h : telNumber (g, n) t (0x3b :: tp ++ y)) (hp : sepBy 0x3b (uriParam sipUriParamCS) ps tp y)
      (hs : TelSorted fl.setTelUriKnownParam ps d ctx known others) : telRest fl ⟨g, d, n, ctx, others, known⟩ (t ++ 0x3b :: tp) y

/-- a telephone URI outside brackets in a header that has parameters -/
inductive telRestNoParam : Rel TelUri
  | mk (g n t y) (h : telNumber (g, n) t y) : telRestNoParam ⟨g, false, n, none, [], []⟩ t y

/-- "tel:" number *( ";" param ); read by itself, byte 1A is taken for the colon -/
inductive telUri (fl : Flags) : Rel TelUri
  | mk (u t0 t y) (h0 : word "tel:" t0 ∨ ∃ x, word "tel" x ∧ t0 = x ++ [0x1a]) (h : telRest fl u t y) : telUri fl u (t0 ++ t) y

/-! ## Addresses -/

/-- ( "sip:" / "sips:" / "tel:" ) and what stands behind it -/
inductive addrUri (net : Net) (fl : Flags) : Rel AddrUri
  | sip (u t0 t y) (h0 : word "sip:" t0) (h : sipRest net fl false u t y) : addrUri net fl (.sip u) (t0 ++ t) y
  | sips (u t0 t y) (h0 : word "sips:" t0) (h : sipRest net fl true u t y) : addrUri net fl (.sip u) (t0 ++ t) y
  | tel (u t0 t y) (h0 : word "tel:" t0) (h : telRest fl u t y) : addrUri net fl (.tel u) (t0 ++ t) y

/-- the same outside brackets, where the parameters belong to the header -/
inductive addrUriNoParam (net : Net) : Rel AddrUri
  | sip (u t0 t y) (h0 : word "sip:" t0) (h : sipRestNoParam net false u t y) : addrUriNoParam net (.sip u) (t0 ++ t) y
  | sips (u t0 t y) (h0 : word "sips:" t0) (h : sipRestNoParam net true u t y) : addrUriNoParam net (.sip u) (t0 ++ t) y
  | tel (u t0 t y) (h0 : word "tel:" t0) (h : telRestNoParam u t y) : addrUriNoParam net (.tel u) (t0 ++ t) y

/-- 1*( token SWS ), all there are (the RFC has LWS; the library does not insist on white space) -/
inductive tokens : Bytes → Bytes → Prop
  | one (t w y) (ht : run csSipToken t t (w ++ y)) (hw : sws w y) (hy : NotIn csSipToken y) : tokens (t ++ w) y
  | more (t w x y) (ht : run csSipToken t t (w ++ x ++ y)) (hw : IsSWS w) (hx : tokens x y) : tokens (t ++ w ++ x) y

/-- [ display-name ] LAQUOT: tokens, kept with the white space behind them, or a quoted string, and the opening bracket -/
inductive display : Rel (Option (Bool × Bytes))
  | none (y) : display .none [0x3c] y
  | tokens (d w y) (h : tokens d (w ++ 0x3c :: y)) (hw : IsSWS w) : display (some (false, d)) (d ++ w ++ [0x3c]) y
  | quoted (v t w y) (h : quoted v t (w ++ 0x3c :: y)) (hw : IsSWS w) : display (some (true, v)) (t ++ w ++ [0x3c]) y

/-- name-addr = SWS [ display-name ] LAQUOT addr-spec ">" SWS -/
inductive nameAddr (net : Net) (fl : Flags) : Rel Addr
  | mk (w d td u tu w' y) (h1 : sws w (td ++ tu ++ 0x3e :: w' ++ y)) (hd : display d td (tu ++ 0x3e :: w' ++ y)) (hu : addrUri net fl u tu (0x3e :: w' ++ y)) (h3 : sws w' y) :
      nameAddr net fl ⟨true, d, u⟩ (w ++ td ++ tu ++ 0x3e :: w') y

/-- name-addr / addr-spec; the parameters of an addr-spec belong to the header -/
inductive addr (net : Net) (fl : Flags) : Rel Addr
  | name (a t y) (h : nameAddr net fl a t y) : addr net fl a t y
  | spec (u t y) (h : addrUriNoParam net u t y) : addr net fl ⟨false, none, u⟩ t y

/-- the Request-URI -/
inductive addrSpec (net : Net) (fl : Flags) : Rel Addr
  | mk (u t y) (h : addrUri net fl u t y) : addrSpec net fl ⟨false, none, u⟩ t y

/-! ## Header parameters -/

/-- gen-value = token / quoted-string / "[" ... "]" (kept with the brackets) -/
inductive genValue : Rel GenValue
  | token (v y) (h : run csSipToken v v y) : genValue (.token v) v y
  | quoted (v t y) (h : quoted v t y) : genValue (.quoted v) t y
  | ipv6 (x y) (h : 0x5d ∉ x) : genValue (.ipv6 (0x5b :: x ++ [0x5d])) (0x5b :: x ++ [0x5d]) y

/-- generic-param = token [ EQUAL gen-value ]; white space behind a name without value is passed, but may not end the input -/
inductive genericParam : Rel GenericParam
  | flag (n w y) (hn : run csSipToken n n (w ++ y)) (hw : sws w y) (hy : y.head? ≠ some 0x3d) (he : w ≠ [] → y ≠ []) : genericParam ⟨n, none⟩ (n ++ w) y
  | value (n e v t y) (hn : run csSipToken n n (e ++ t ++ y)) (he : mark 0x3d e (t ++ y)) (hv : genValue v t y) : genericParam ⟨n, some v⟩ (n ++ e ++ t) y

/-- *( SEMI generic-param ), all there are, in the order of the text; the input may not end with white space behind them -/
inductive paramList : List GenericParam → Bytes → Bytes → Prop
  | nil (y) (hy : ¬ ∃ w z, IsSWS w ∧ y = w ++ 0x3b :: z) (he : y ≠ [] → ¬ IsSWS y) : paramList [] [] y
  | cons (m p t ps t' y) (hm : mark 0x3b m (t ++ t' ++ y)) (hp : genericParam p t (t' ++ y)) (hs : paramList ps t' y) : paramList (p :: ps) (m ++ t ++ t') y

/-- the parameters of a header -/
inductive params (fl : Flags) (k : HKind) : Rel Params
  | mk (ps known others t y) (h : paramList ps t y) (hs : Sorted k.paramNames (k.paramFlag fl) GenericParam.name ps known others) :
      params fl k ⟨known, others⟩ t y

/-! ## Header values -/

/-- Method: a token, the method it names if the library knows that one; `P`, `IN` and `RE` may not end the input -/
inductive method : Rel Method
  | known (i n y) (hi : i ≠ 0) (h : sipMethodName[i]? = some n) (hy : NotIn csSipToken y) : method (.known i) n y
  | token (t y) (h : run csSipToken t t y) (hn : t ∉ sipMethodName.drop 1)
      (he : y = [] → t ≠ str "P" ∧ t ≠ str "IN" ∧ t ≠ str "RE") : method (.token (some t)) t y

/-- the protocol of a Via header: `SIP/2.0` and a slash, or two tokens and a slash that do not begin with `SIP/2.0` and something that is no digit -/
inductive protocol : Rel (Option (Bytes × Bytes))
  | sip20 (t m y) (h : word "sip/2.0" t) (hm : mark 0x2f m y) : protocol none (t ++ m) y
  | other (n m v m' y) (hn : run csSipToken n n (m ++ v ++ m' ++ y)) (hm : mark 0x2f m (v ++ m' ++ y)) (hv : run csSipToken v v (m' ++ y)) (hm' : mark 0x2f m' y)
      (hne : ¬ ∃ t i z, n ++ m ++ v ++ m' ++ y = t ++ i :: z ∧ word "sip/2.0" t ∧ csDigit.mem i = false) :
      protocol (some (n, v)) (n ++ m ++ v ++ m') y

/-- the value of a header of kind `k` -/
inductive value (net : Net) (fl : Flags) : HKind → Rel HVal
  /-- To, From, Contact: ( name-addr / addr-spec ) *( SEMI generic-param ) -/
  | addr (k a ta ps tp y) (hk : k = .to ∨ k = .from) (ha : addr net fl a ta (tp ++ y)) (hp : params fl k ps tp y) : value net fl k (.addr a ps) (ta ++ tp) y
  | contact (w a ta ps tp y) (hw : sws w (ta ++ tp ++ y)) (ha : Gram.addr net fl a ta (tp ++ y)) (hp : params fl .contact ps tp y)
      (hs : (ta ++ tp ++ y).head? ≠ some 0x2a) :
      value net fl .contact (.addr a ps) (w ++ ta ++ tp) y
  /-- Contact: "*" -/
  | star (w w' y) (hw : IsSWS w) (hw' : sws w' y) : value net fl .contact .star (w ++ 0x2a :: w') y
  /-- Route, Record-Route, Path, Service-Route: name-addr *( SEMI generic-param ) -/
  | route (k a ta ps tp y) (hk : k = .route ∨ k = .recordRoute ∨ k = .path ∨ k = .serviceRoute) (ha : nameAddr net fl a ta (tp ++ y))
      (hp : params fl k ps tp y) : value net fl k (.addr a ps) (ta ++ tp) y
  /-- P-Asserted-Identity: name-addr / addr-spec -/
  | identity (a t y) (ha : Gram.addr net fl a t y) : value net fl .pAssertedIdentity (.addr a {}) t y
  /-- Via: sent-protocol SWS sent-by *( SEMI via-params ); the RFC has LWS here and in CSeq and RAck -/
  | via (pr t1 tr w h th ps tp y) (h1 : protocol pr t1 (tr ++ w ++ th ++ tp ++ y)) (h2 : run csSipToken tr tr (w ++ th ++ tp ++ y)) (hw : IsSWS w)
      (h3 : hostport net h th (tp ++ y)) (hp : params fl .via ps tp y) : value net fl .via (.via pr tr h ps) (t1 ++ tr ++ w ++ th ++ tp) y
  /-- Call-ID: word [ "@" word ] -/
  | callId1 (a y) (h : run csSipWord a a y) (hy : y.head? ≠ some 0x40) : value net fl .callId (.callId a none) a y
  | callId2 (a b y) (h : run csSipWord a a (0x40 :: b ++ y)) (h' : run csSipWord b b y) : value net fl .callId (.callId a (some b)) (a ++ 0x40 :: b) y
  /-- CSeq: 1*DIGIT SWS Method -/
  | cseq (n tn w m tm y) (hn : number n tn (w ++ tm ++ y)) (hw : IsSWS w) (hm : method m tm y) : value net fl .cseq (.cseq (n % 4294967296) m) (tn ++ w ++ tm) y
  /-- RAck: 1*DIGIT SWS 1*DIGIT SWS Method -/
  | rack (r tr w n tn w' m tm y) (hr : number r tr (w ++ tn ++ w' ++ tm ++ y)) (hw : IsSWS w) (hn : number n tn (w' ++ tm ++ y)) (hw' : IsSWS w')
      (hm : method m tm y) : value net fl .rack (.rack (r % 4294967296) (n % 4294967296) m) (tr ++ w ++ tn ++ w' ++ tm) y
  /-- RSeq, Expires, Content-Length: 1*DIGIT, kept in 32 bits -/
  | num (k n t y) (hk : k = .rseq ∨ k = .expires ∨ k = .contentLength) (h : number n t y) : value net fl k (.num (n % 4294967296)) t y
  /-- Max-Forwards: 1*DIGIT, kept in 8 bits -/
  | maxForwards (n t y) (h : number n t y) : value net fl .maxForwards (.num (n % 256)) t y
  /-- Content-Type: token SLASH token *( SEMI m-parameter ) -/
  | contentType (a m b ps tp y) (ha : run csSipToken a a (m ++ b ++ tp ++ y)) (hm : mark 0x2f m (b ++ tp ++ y)) (hb : run csSipToken b b (tp ++ y))
      (hp : params fl .contentType ps tp y) : value net fl .contentType (.contentType a b ps) (a ++ m ++ b ++ tp) y
  /-- Content-Disposition: token *( SEMI disp-param ) -/
  | contentDisposition (a ps tp y) (ha : run csSipToken a a (tp ++ y)) (hp : params fl .contentDisposition ps tp y) :
      value net fl .contentDisposition (.contentDisposition a ps) (a ++ tp) y

/-- a header: name HCOLON value -/
inductive header (net : Net) (fl : Flags) (k : HKind) : Rel HVal
  | mk (n c v t y) (hn : TakenAsName k n) (hs : NameStop (c ++ t ++ y)) (hc : hcolon c (t ++ y)) (hv : value net fl k v t y) : header net fl k v (n ++ c ++ t) y

/-! ## Start line -/

/-- the version behind "SIP/" -/
inductive version : Rel Version
  | v20 (y) (hy : NotIn csDigit y) : version .v20 (str "2.0") y
  | other (a b y) (ha : a ≠ []) (ha' : InSet csDigit a) (hb : b ≠ []) (hb' : InSet csDigit b) (hy : NotIn csDigit y) (h : a ++ 0x2e :: b ≠ str "2.0") :
      version (.other (a ++ 0x2e :: b)) (a ++ 0x2e :: b) y

/-- Request-Line / Status-Line -/
inductive startLine (net : Net) (fl : Flags) : Rel StartLine
  | request (m tm a ta ts v tv y) (hm : method m tm (0x20 :: ta ++ 0x20 :: ts ++ tv ++ [0x0d, 0x0a] ++ y)) (ha : addrSpec net fl a ta (0x20 :: ts ++ tv ++ [0x0d, 0x0a] ++ y))
      (hs : word "sip/" ts) (hv : version v tv ([0x0d, 0x0a] ++ y)) :
      startLine net fl (.request m a v) (tm ++ 0x20 :: ta ++ 0x20 :: ts ++ tv ++ [0x0d, 0x0a]) y
  | status (ts v tv n tn r tr y) (hs : word "sip/" ts) (hv : version v tv (0x20 :: tn ++ 0x20 :: tr ++ [0x0d, 0x0a] ++ y))
      (hn : number n tn (0x20 :: tr ++ [0x0d, 0x0a] ++ y)) (hr : escEmpty csSipReasonPhrase r tr ([0x0d, 0x0a] ++ y)) :
      startLine net fl (.status v (n % 65536) r) (ts ++ tv ++ 0x20 :: tn ++ 0x20 :: tr ++ [0x0d, 0x0a]) y

/-! ## Header lines -/

/-- every LF is part of a fold -/
def folded (v : Bytes) : Prop := ∀ i : Nat, v[i]? = some 0x0a → v[i + 1]? = some 0x20 ∨ v[i + 1]? = some 0x09

/-- the text of a line as it is: up to the first CRLF - or LF alone - that is not folded.  The second part is the line end. -/
inductive rawLine : Bytes → Bytes → Bytes → Prop
  | crlf (v y) (hv : v ≠ []) (hf : folded v) (hy : NoFold y) : rawLine v [0x0d, 0x0a] y
  | lf (v y) (hf : folded v) (hy : NoFold y) (hcr : v.getLast? = some 0x0d → v.length = 1) : rawLine v [0x0a] y

/-- the beginnings of header names behind which a CR is taken for the dash -/
def crPrefix : List Bytes := [str "p", str "in", str "priv", str "refer"]

/-- how a header name is read: as it stands, or with a CR behind one of these beginnings taken for a dash -/
inductive nameAs : Bytes → Bytes → Prop
  | same (n) : nameAs n n
  | cr (a b) (ha : a.map asciiLower ∈ crPrefix) : nameAs (a ++ 0x0d :: b) (a ++ 0x2d :: b)

/-- a header name and HCOLON: the number of the header in the table of names, or - if it is not there - the token itself -/
inductive msgName : Rel (Option Bytes × Nat)
  | known (s i n m c y) (hs : (s, i) ∈ headerTable) (hn : nameAs n m) (hm : SameLetters m (str s)) (hc : hcolon c y) : msgName (none, i) (n ++ c) y
  | other (n m c y) (hn : nameAs n m) (hne : m ≠ []) (ht : InSet csSipToken m) (hno : ∀ s i, (s, i) ∈ headerTable → ¬ SameLetters m (str s)) (hc : hcolon c y) :
      msgName (some n, 0) (n ++ c) y

/-- the values of a header line and the line end: value *( COMMA value ) CRLF.  Commas - and a missing line end at the end of the input - only in the headers
that may have several values. -/
inductive values (net : Net) (fl : Flags) (k : HKind) : List HVal → Bytes → Bytes → Prop
  | one (v t y) (h : value net fl k v t ([0x0d, 0x0a] ++ y)) (hs : rfcList k → ¬ ∃ w z, IsSWS w ∧ [0x0d, 0x0a] ++ y = w ++ 0x2c :: z) :
      values net fl k [v] (t ++ [0x0d, 0x0a]) y
  | atEnd (v t) (hk : rfcList k) (h : value net fl k v t []) : values net fl k [v] t []
  | more (v t m vs t' y) (hk : rfcList k) (h : value net fl k v t (m ++ t' ++ y)) (hm : mark 0x2c m (t' ++ y)) (hs : values net fl k vs t' y) :
      values net fl k (v :: vs) (t ++ m ++ t') y

/-- a header line: the values of a header that is wanted parsed, the text of any other -/
inductive line (net : Net) (fl : Flags) (want : HKind → Prop) : List HItem → Bytes → Bytes → Prop
  | parsed (k n tn vs t y) (hw : want k) (hn : msgName (n, k.index) tn (t ++ y)) (hv : values net fl k vs t y) :
      line net fl want (vs.map (HItem.parsed k)) (tn ++ t) y
  | raw (n i tn v e y) (hw : ∀ k, k.index = i → ¬ want k) (hn : msgName (n, i) tn (v ++ e ++ y)) (hv : rawLine v e y) :
      line net fl want [.raw ⟨i, n, v⟩] (tn ++ v ++ e) y

/-- *( header line ) CRLF; at the end of the input the empty line may be missing -/
inductive headers (net : Net) (fl : Flags) (want : HKind → Prop) : List HItem → Bytes → Bytes → Prop
  | blank (y) : headers net fl want [] [0x0d, 0x0a] y
  | atEnd : headers net fl want [] [] []
  | cons (l t ls t' y) (h : line net fl want l t (t' ++ y)) (hs : headers net fl want ls t' y) : headers net fl want (l ++ ls) (t ++ t') y

/-! ## Messages -/

/-- the values of a header among the headers of a message -/
def valuesOf (k : HKind) (items : List HItem) : List HVal := items.filterMap (fun | .parsed j v => if j = k then some v else none | .raw _ => none)
/-- the headers kept as text -/
def rawsOf (items : List HItem) : List RawHeader := items.filterMap (fun | .parsed _ _ => none | .raw h => some h)

/-- the headers of a message: all values in the order of the text, but of a header that is to occur once only the last one -/
def collected (items : List HItem) (h : Hdrs) : Prop :=
  h.raw = rawsOf items ∧ ∀ k, (rfcList k → h.common k = valuesOf k items) ∧ (¬ rfcList k → h.common k = (valuesOf k items).getLast?.toList)

/-- the parsed headers of a message: if the headers are to be kept as text, the three headers the library needs itself, and otherwise all that are not
switched off by the settings -/
def wanted (fl : Flags) (k : HKind) : Prop :=
  (fl.parseSipHeaderAsRaw = true ∧ k ∈ [HKind.contentType, HKind.contentLength, HKind.contentDisposition]) ∨ (fl.parseSipHeaderAsRaw = false ∧ k.index ∉ fl.noParse)

/-- the parsed headers of a body part -/
def wantedInPart (fl : Flags) (k : HKind) : Prop :=
  k ∈ [HKind.contentLength, HKind.contentDisposition] ∨ (fl.parseSipHeaderAsRaw = true ∧ k = .contentType)

/-- the parts of a multipart body, behind the first delimiter.  A delimiter followed by two bytes of which one is a dash ends the body; behind any other one the
rest of its line is passed, then come headers and content, up to the next delimiter.  The content is lost if the arena is full. -/
inductive parts (net : Net) (fl : Flags) (delim : Bytes) : List Body → Bytes → Bytes → Prop
  | close (a b y) (h : a = 0x2d ∨ b = 0x2d) : parts net fl delim [] [a, b] y
  | part (l e items th h u o bs t y) (hnc : ∀ a b z, l ++ e ++ th ++ u ++ delim ++ t ++ y = a :: b :: z → a ≠ 0x2d ∧ b ≠ 0x2d)
      (hl : rawLine l e (th ++ u ++ delim ++ t ++ y)) (hh : headers net fl (wantedInPart fl) items th (u ++ delim ++ t ++ y)) (hc : collected items h)
      (hu : ∀ v z, u ++ delim ++ t ++ y = v ++ delim ++ z → u.length ≤ v.length) (ho : o = some u ∨ o = none)
      (hs : parts net fl delim bs t y) : parts net fl delim (⟨h, o⟩ :: bs) (l ++ e ++ th ++ u ++ delim ++ t) y

/-- the bodies: without Content-Type none; with one that is not multipart the number of bytes of Content-Length, as far as there are so many - the position is
not moved behind them; of a multipart body the parts -/
inductive body (net : Net) (fl : Flags) (h : Hdrs) : Rel (List Body)
  | noType (y) (hc : h.common .contentType = []) : body net fl h [] [] y
  | empty (a b ps r y) (hc : h.common .contentType = .contentType a b ps :: r) (hm : ¬ word "multipart" a)
      (hl : h.common .contentLength = [] ∨ (∃ r, h.common .contentLength = .num 0 :: r) ∨ y = []) : body net fl h [] [] y
  | single (a b ps r n r' y) (hc : h.common .contentType = .contentType a b ps :: r) (hm : ¬ word "multipart" a)
      (hl : h.common .contentLength = .num n :: r') (hn : n ≠ 0) (hy : y ≠ []) : body net fl h [⟨{}, some (y.take n)⟩] [] y
  | multi (a b ps r p ks v bs t y) (hc : h.common .contentType = .contentType a b ps :: r) (hm : word "multipart" a) (hk : ps.known = some p :: ks)
      (hv : (p.value = none ∧ v = []) ∨ p.value = some (.token v) ∨ p.value = some (.quoted v) ∨ p.value = some (.ipv6 v))
      (hp : parts net fl (0x0d :: 0x0a :: 0x2d :: 0x2d :: v) bs t y) : body net fl h bs (0x2d :: 0x2d :: v ++ t) y

/-- start line, headers, bodies; something stands behind the start line -/
inductive message (net : Net) (fl : Flags) : Rel Msg
  | mk (s ts items th h bs tb y) (hs : startLine net fl s ts (th ++ tb ++ y)) (hne : th ++ tb ++ y ≠ []) (hh : headers net fl (wanted fl) items th (tb ++ y))
      (hc : collected items h) (hb : body net fl h bs tb y) : message net fl ⟨s, h, bs⟩ (ts ++ th ++ tb) y

end Gram
end Sip
