# Formal model of lioneagle/sipparser in Lean 4

## 1. Trusted base

* **Lean's kernel** (4.33.0). `decide +kernel` is used for finite evaluations (tables of 256 bytes, sample inputs): the kernel itself evaluates
  the decision procedure; no compiled code is trusted. No `native_decide`, no `bv_decide`, no axiom of our own.
* **Axioms**: at most `propext`, `Classical.choice`, `Quot.sound`, Lean's standard ones. `AXIOMS.md` (written by `tools/axioms.py`) lists them per theorem.
* **The model is a faithful transcription of the Go text.** Nothing checks this mechanically. Every definition cites file and lines. The large tables are not
  transcribed by hand: `Model/CharsetTable.lean` and `Model/TrieTable.lean` are generated from the Go text by `tools/gencharset.py` and `tools/gentrie.py`.
* **The specifications** (`Rfc.*`, `IsLWS`, `SameLetters`, `rfcName`, `Unfolded`, `Decodes`, `Ipv4Text`, ... ) say what the English says.
* **Hypotheses on the outside world**: `net.ParseIP` / `IP.String` of Go's standard library are a parameter `net : Net` with the assumption `Net.Ok`
  (printing then parsing an IPv6 address gives it back, the text is non-empty and contains only bytes that can stand between the brackets). The assumption is
  satisfiable: `Net.sample_ok`. Theorems that need it have the hypothesis `hnet : net.Ok`.

## 2. Layers of the model (`lean/Verif/Model`)

1. **Byte layer** (`Arena`, `ArenaStr`): the bump allocator `MemAllocator` and everything that reads or writes arena bytes directly (string stores, length
   prefixes, 16 bit pointers, tag bit). Byte exact, with the uint32 / uint16 reductions written out.
2. **Scanner layer** (`Charset`, `CharsetTable`, `Num`, `Lws`, `Str`, `Index`, `Trie`, `TrieTable`, `Search`): functions on an input `src : List UInt8` and a position.
3. **Value layer** (`Ctx`, `Parser`, `Host`, `Uri`, `Param`, `Addr`, `Headers`, `StartLine`, `Message`): the parsers and encoders of the protocol structures.
   Pointers to arena strings become byte strings, linked lists become lists, structs become Lean structures, but *memory accounting is kept* (`used`, `cap`:
   the same amounts are charged, in the same order, and the same "no mem" failures and panics occur). The step from layer 1 to layer 3 is justified by C02/C06 (a stored
   string reads back unchanged whatever is allocated later, proved on the byte layer, and `store_*`: each byte level store does what its value level counterpart says),
   under the bound of C05 (no more than 32768 bytes of the arena in use; by C44 that holds for every message of at most 3638 bytes, whatever the size of the arena).

4. **Heap layer** (`Heap`, `HeapUri`, `HeapAddr`, `HeapHeaders`, `HeapMsg`, `HeapOps`, `HeapEnc`): the same parse, search, removal and encode methods on the bytes of the arena. C46 and C47 prove that layer 3 abstracts them correctly.

Results are `Out α = ok a | panic | hang`. `panic` is a Go run-time panic (index or slice out of range, nil slice). `hang` is an exhausted loop budget: loops are
modelled with a budget larger than any number of rounds a terminating run can have (length of the input + 1 or more); for each loop it is proved that `hang` is not
reached except where the code really loops forever (`quoted_loops_forever`: no budget suffices).

### What is modelled

AbnfMem.go, AbnfPtr.go, AbnfRef.go, AbnfBasic.go, AbnfCharset.go (all functions used by the parsers), AbnfContext.go (options, position, error list as a list of
positions), SipMethodIndex.go, SipHeadersIndex.go (complete decision trees), SipMethod.go, SipVersion.go, SipHostPort.go, SipUri.go, UriParam.go, UriHeader.go,
TelUri.go, SipGenericParam.go, SipQuotedString.go, SipAddr.go, SipHeader{Allow.. all header types of `HKind`}.go, SipStartLine.go, SipHeaders.go, SipMsg.go (Parse, Encode,
bodies, RemoveContentHeaders, raw scan, the search functions).

### What is not modelled

* Error *texts* (only that an error is recorded, and its position), `String()`/debug printing, `StringStat`, profiling code, `main` and the test programs.
* Go's garbage collector, goroutines (the library has none), stack depth.
* Struct layout in the value layer: only the size charged to the arena is kept. The heap layer (`Model/Heap*.lean`, C46) has the layout of the structs of URIs, parameters, addresses, headers, the start line, body parts and messages; the offsets
  are those of Go on a 64 bit platform, computed by hand from the struct declarations. Where Go stores the nil result of a failed parse into its field and then fails, the heap layer leaves the
  field unwritten (it is nil already).
* Maps and Go strings used for the table of header infos: the names and flags are constants; the `NeedParse` field, which a user may change, is `Flags.noParse`
  (numbers of the headers switched off). Switching off Content-Type, Content-Length or Content-Disposition is not modelled for body parts and together with
  `ParseSipHeaderAsRaw` (fault 24).
* The external package goutil (`UnescapeToByteEx`, `ToUpperHex`, `ToLower`, `EqualNoCase`), bytes.Index/IndexByte, strconv.FormatUint: modelled by their
  documented behaviour.

### Simplifications (each also in the comment of the definition)

* `uint` positions and lengths are natural numbers (64 bit platform; inputs are shorter than 2^63).
* An allocation failure of a known-parameter block, which Go would dereference as nil pointer, is a panic (`P.allocMust`); what the compiled code does there is `B.setKnownRaw` (C49).
* In FindSipHeader2 the capacity of the input slice is its length.
* Value level theorems describe the library as long as at most 32768 bytes of the arena are in use (addresses have 15 bits); behind that only the byte layer does. By C44
  every message of at most 3638 bytes stays below, in an arena of any size.

## 3. Shape of the theorems (`lean/Verif/Props`, frameworks in `lean/Verif/Lemmas`)

* `Parses fl p t v n F`: for every context with options `fl`, whatever stands before the text `t` and whatever stands behind it that satisfies `F`, parser `p`
  returns `v`, moves the position exactly behind `t`, uses exactly `n` bytes and records no error, provided more than `n` bytes are free. Round trips are
  `Parses fl parse (encode v) v ..`.
* `SafeAt` / `GSafe N H l m B Q p c`: whatever the input, `p` from `c` does not panic if `N`, does not hang if `H`, moves forward inside the input, keeps source, options
  and capacity, uses at most `m` times the bytes consumed + `B` bytes, records an error when it fails (if `l`), and its result satisfies `Q`.
* Faults of the code are theorems too: an exact condition (`iff`) where found, otherwise a witness.

| id | modelled | proof |
|---|---|---|
| C01-C04 | allocator state machine over call histories | invariant by induction over the history; negative witnesses |
| C05 | 16 bit pointer arithmetic | bit lemmas, omega / witnesses |
| C06 | byte level string store and read | refinement to the value layer, frame lemma over later histories |
| C07-C09 | scanners and escape codec | list induction |
| C10 | decimal codec | induction on digit strings |
| C11 | complete 2x256 table (generated from the Go text) | `decide +kernel` over all bytes |
| C12-C14 | white space, marks, comparison | list induction against an independent grammar relation |
| C15-C16 | decision trees (generated from the Go text) | reflective reduction to a name table, all inputs |
| C17-C24, C33-C36 | value layer parsers/encoders | `Parses` composed bottom up; idempotency from "what is parsed is well formed" |
| C25-C26 | raw header list, CRLF search | list induction, exact specification of the search |
| C27 | Content-Length patch in Encode | arithmetic on digit columns, text of the whole encoder |
| C28-C31 | all parsers up to messages | `GSafe` composed bottom up |
| C32 | search loops | strong induction on the position, exact post-conditions |
| C37 | parseHeaderName of every header type | exact characterisation through `TakenAsName` |
| C38 | whole messages | `Parses` for header lists, bodies, parts; text of the encoder |
| C40 | lookups, NeedParse | first match in a list; invariant of the header loop |
| C41 | every parser, two arena sizes | one judgement (CapAll), closed under the combinators of the parser monad |
| C42 | every parser against the relations of `Grammar.lean` | one judgement (`ReadsAt`: the text read and the value are related), composed bottom up |
| C43 | the parsers against the same relations, both directions | completeness by one judgement (`Acc`: with room, the text is read and the value returned), composed along the grammar; soundness from C42; the size of the arena from C31 and C41 |
| C39 | list surgery of RemoveContentHeaders | exact result by induction |
| C44 | memory used by every parser | an exact account (`MemAt`: 9 bytes for a byte of input, and what is left over or missing), composed bottom up; lower bound (`LowAt`) and a family of messages |
| C45 | `Msg.encode` for any message | one judgement (`Quiet`) closed under the combinators; a settled message (nothing missing) is encoded without the arena, and the result of an encode is settled |
| C46 | the parse methods once more on the bytes of the arena (`Model/Heap*.lean`: structs at addresses, fields at offsets, linked lists), the encode methods on bytes | simulation (`Sim A p b R`) in a small separation logic (`Lemmas/Sep.lean`): the method on bytes does what the method on values does and leaves memory that represents the value; `Shows`: the encode method on bytes finds the value |
| C47 | messages, header lines, raw headers and body parts on the bytes of the arena (`Model/HeapMsg.lean`) | the same simulation (`Props/HeapMsg`, `HeapBody`, `HeapEncode*`); the value the bytes hold is `Held`; induction over the sequence of encodes |
| C48 | the scanning functions of AbnfRef.go and the functions that store a scanned text (`Model/Ref.lean`) | induction along `Decodes`/`BadEscape`; loop bounds of the copy expressed on the bytes; refinement to the one-pass parser |
| C49 | clearing, copying, comparing on raw memory, the host setters, SetKnownParams as compiled (`Model/MemPrim.lean`) | induction over the rounds of the loops; direct evaluation of the setters on the bytes |
| C50 | the error list of the context, AbnfError.Write (`Model/Error.lean`) | a judgement over the parsers: success leaves the list as it was (`Silent`), with a memory argument for the second attempt of the address and an invariant for the header loop; the positions from the safety judgement (`Step.errs`); the text by case distinction and induction |
| C51 | the parsers of lines, headers and messages, on two inputs | a relational judgement (`LocAt`, `LocQ`: the run on the other input is the same run with the input replaced, and ends before or directly behind the line end), composed bottom up; loops by induction over the distance to the line end, because the loop budgets of the two runs differ |
| C52 | every parser on two contexts that agree ahead | a relational judgement (`Sh`: the run with more input before, more memory in use and more errors recorded is the same run, shifted), closed under the combinators; two contexts that agree ahead are shifts of the same one |
| C53 | `Encode` behind any text | the header encoder as a relation of two runs (the same text behind `w`, the place of the number shifted by the length of `w` and at least 16 bytes behind the start); the correction of the number commutes with the shift |
| C54 | two runs over two contents of the arena | corollary of C46: both runs are the run of the model with values, and what is written is what the encode method of the value gives; for the structs without `Init` the same with the old value in the field (`sim_uriParam_over` and the like) |
| C55 | header searches and `RemoveContentHeaders` on the bytes of the arena (`Model/HeapOps.lean`) | separation-logic description of the message (`msgAt`); induction over the list; the loop of the removal by an invariant with the part of the list that is already behind `prevHeader` |
| C56 | parameter lists on the bytes (`HeapUri`), `GetUriParamByName` (`Model/HeapOps.lean`) | `sim_uriParams` gives the description of the list; induction over the list; the exact meaning of `CStringEqualNoCase` (C49) |

No property was found that cannot be expressed in the model. The conditions of C29 for whole messages are sufficient, not necessary (exact ones: the parsers of quoted strings, versions, runs, method and header names); that of C30 is exact for the parser of quoted strings, and sufficient for the others (they hang only if they reach such a quoted string; those with one as the display name of a parsed address header, or as the value of a parameter behind a value that can be written, do hang, `msg_hangs_at_display_name`, `msg_hangs_at_param`).

## 4. Faults found in the code (each a theorem unless marked)

 1. FreePart(remain) grows Used() iff Used() < remain < Used()+8 — `freePart_grows_iff`.
 2. An allocation size that wraps uint32 succeeds — `alloc_wraps`.
 3. 16 bit pointers and the tag bit fail in large arenas — `large_arena_pointers`.
 4. ParseAndAllocCString panics when the run is longer than the free memory — `parseStr_memory`, `parseStr_panics`.
 5. AllocReqBytes is overwritten — `allocReqBytes_overwritten`.
 6. Quoted strings: bare CR/LF loops forever, a fold is stored as CR CR, white space up to the end of the input panics — `quoted_loops_forever`, `quoted_hangs_exactly`, `msg_hangs_at_display_name`, `msg_hangs_at_param`, `quoted_fold_corrupted`, `quoted_panics`, `quoted_panics_exactly`.
 7. Numbers wrap — `parseUInt_wraps`, `num_truncates`, `status_truncates`, `hostport_port_wraps`.
 8. A version without `.` at the end of the input panics — `version_panics`, exactly: `version_panics_exactly`.
 9. Method and header lookups panic at the end of the input (every message cut inside one of the beginnings of names: `msg_cut_panics`), misspelt and missing names, CR for '-' — `method_index_panics`, `header_index_panics`, `header_names_missing`, `header_cr_is_dash`.
10. Empty raw value stored as CR; white space value grows — `raw_empty_value`. Raw header name lost — `raw_name_lost`.
11. Content-Type of body parts dropped — `part_type_lost`. Content-Length patch — `length_wrong`, `length_noBody_kept`.
12. RemoveContentHeaders loses headers — `removeContent_loses`.
13. Close-delimiter recognised by one dash — `close_delimiter_loose`; a one-part multipart body is written unreadable — `single_part_rejected`; body parts lost — `parts_lost`, `part_lost_memory`.
14. EncodeAddrSpec ignores tel URIs — `encodeAddrSpec_drops_tel`; tel request line lost — `request_tel_lost`.
15. Tel URI: phone-context without value panics, context of global number lost, 1A for ':' — `tel_context_panics`, `tel_context_always_panics`, `tel_context_lost`, `tel_scheme_sub`.
16. Character table deviations — `charset_deviations`; SIP_TOKEN contains '%' — `token_escape_not_decoded`.
17. 'l' accepted for Content-Type/-Disposition — `headerName_l`; CR for '-' — `headerName_cr`.
18. White space before a line end not consumed — `sws_not_maximal`; ParseSWSMarkCanOmmit consumes white space — `canOmmit_consumes_space`; trailing white space/folds — `params_trailing_space`, `trailing_fold_rejected`.
19. IPv6 references are searched over line ends — `bracket_passes_line_end`.
20. URI header without value at the end — `sipUri_header_lost`; '@' in header parameters — `bare_at_in_params`.
21. Via versions — `via_version`, `via_spaced_version`; Contact '*' — `contact_star_name`; Call-ID '/' — `callId_slash`.
22. Search functions — `search_misses_end`, `header1_misses_adjacent`, `header1_misses_fold`, `header1_panics`, `header2_panics`.
23. An address or telephone URI parsed by itself can fail without an error — `addr_silent_failure`, `tel_silent_failure`.
24. With the Content-Length switched off in the header table, Encode writes a second one — `length_twice`. (By reading:) in body parts, and in messages with `ParseSipHeaderAsRaw`, with a header table that switches Content-Type, -Length or -Disposition off, a raw header is stored in the place of a parsed one (SipMsgBody.go:61-85) and read as a struct later.
25. White space that the RFC demands in CSeq, RAck and Via may be missing — `missing_space_accepted`.
26. (by reading) SipHeaderVia.Init clears 14 of 16 bytes (so modelled in `B.initSize`); hasDisplayName is inverted (not modelled).
27. AllocCStringWithUnescape passes len(buf) as number of escapes and moves the memory mark back over older texts — `allocUnesc_frees`, `allocUnesc_damages`; AllocCStringWithUnescapeNum2 loses the length — `allocUnescNum2_length`, `allocUnescNum2_empty`.
28. ParseAndAllocSipToken reports success with a nil address when memory is out — `sipToken_nil_ok`.
29. CStringEqualNoCase panics for two empty texts — `eqNoCase_exact`; Memcpy repeats bytes when the target begins inside the source — `memcpy_overlap`.
30. Without memory SetKnownParams writes over the beginning of the arena and loses the parameter — `known_param_lost`; SetIpv4 cuts the 16 byte form — `setIpv4_exact`.
31. A list of header values can be accepted with an error in the list: the comma parser reports the end of the input and the caller goes on — `values_success_with_error` (the whole message is rejected then: `msg_errors_iff`). The text prepared for an error without description is not used — `error_unknown_lost`.
32. A bracketed parameter value is searched for its `]` in the whole rest of the input: with a `[` that is not closed, a header takes in the empty line and the body, and whether the head is accepted depends on the body — `open_bracket_reads_body`.
33. `Parse` of a URI parameter, URI header and generic parameter does not clear the struct: read into a struct that held another one, a text without value keeps the old value — `uriParam_reused`, `uriHeader_reused`, `genericParam_reused`, `reuse_sample`.
34. (by reading) SipHeaderCallID.go and SipHeaderCallId.go (and their tests) are the same file twice: on a file system that keeps upper and lower case apart every declaration is there twice, so the package is not accepted by the compiler.

## 5. Testing the theorems

`tools/mutate.py` applies an edit to a definition of the model in a scratch copy, rebuilds, and records in `seeded/LOG.jsonl` which theorems fail. Theorems that
survived an edit that makes their claim false were tightened (recorded in the same line).
