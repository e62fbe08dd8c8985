{
 "claims": [
  {
   "property": "C01",
   "status": "proved",
   "theorems": [
    "Sip.arena_bounds",
    "Sip.alloc_succeeds_iff",
    "Sip.freePart_grows_iff",
    "Sip.freePart_grows_past_capacity",
    "Sip.alloc_wraps",
    "Sip.roundToAlign_least",
    "Sip.live_blocks_disjoint",
    "Sip.inv_step"
   ],
   "note": "all histories without the two faulty calls; both faults are proved with witnesses, the first with its exact condition"
  },
  {
   "property": "C02",
   "status": "proved",
   "theorems": [
    "Sip.live_blocks_disjoint",
    "Sip.run_preserves_memory",
    "Sip.allocWithClear_zeroes"
   ],
   "note": "byte layer, all histories without a free in between"
  },
  {
   "property": "C03",
   "status": "proved",
   "theorems": [
    "Sip.freePart_rollback",
    "Sip.runOps_determined",
    "Sip.freeAll_used",
    "Sip.freePart_can_grow",
    "Sip.freePart_grows_iff"
   ],
   "note": "the mark is restored by every rollback; 'never larger' is false exactly when Used < remain < Used+8"
  },
  {
   "property": "C04",
   "status": "proved",
   "theorems": [
    "Sip.stats_exact",
    "Sip.allocReqBytes_overwritten",
    "Sip.clearAllocNum_spec"
   ],
   "note": "exact for the allocator calls; the parse-and-allocate functions overwrite AllocReqBytes (proved)"
  },
  {
   "property": "C05",
   "status": "proved",
   "theorems": [
    "Sip.tag_roundtrip",
    "Sip.isAbnfPtr_iff",
    "Sip.small_arena_pointers",
    "Sip.large_arena_pointers"
   ],
   "note": "holds for arenas up to 32768 bytes, refuted above"
  },
  {
   "property": "C06",
   "status": "proved",
   "theorems": [
    "Sip.strings_survive",
    "Sip.token_survives",
    "Sip.readStr_store",
    "Sip.readStr_congr",
    "Sip.runStr_frame",
    "Sip.strOp_step",
    "Sip.store_allocStr",
    "Sip.store_parseStr",
    "Sip.store_parseStrEnableEmpty",
    "Sip.store_parseStrEscapable",
    "Sip.store_parseStrFromPos",
    "Sip.store_parseTelNumber",
    "Sip.store_parseQuoted"
   ],
   "note": "byte layer refinement of all string stores, every later history"
  },
  {
   "property": "C07",
   "status": "proved",
   "theorems": [
    "Sip.parseStr_spec",
    "Sip.parseStr_memory",
    "Sip.parseStr_panics",
    "Sip.parseStrEnableEmpty_spec",
    "Sip.parseStrFromPos_spec"
   ],
   "note": "exact behaviour, the exact memory failures and the exact condition of the panic"
  },
  {
   "property": "C08",
   "status": "proved",
   "theorems": [
    "Sip.escape_roundtrip",
    "Sip.escape_roundtrip_empty",
    "Sip.escape_decodes",
    "Sip.decodes_or_bad",
    "Sip.parseStrEscapable_spec",
    "Sip.parseStrEscapable_bad",
    "Sip.unescape_exact",
    "Sip.escape_injective",
    "Sip.token_escape_not_decoded"
   ],
   "note": "every byte string and every set without '%'; the set containing '%' is shown not to decode"
  },
  {
   "property": "C09",
   "status": "proved",
   "theorems": [
    "Sip.escape_output_bytes",
    "Sip.escape_output_length"
   ],
   "note": ""
  },
  {
   "property": "C10",
   "status": "proved",
   "theorems": [
    "Sip.parseUInt_value",
    "Sip.parseUInt_fails_iff",
    "Sip.parseUInt_wraps",
    "Sip.parseUInt_widths",
    "Sip.uint_roundtrip",
    "Sip.encodeUInt_spec",
    "Sip.encodeUInt_length",
    "Sip.encodeUInt_injective",
    "Sip.decVal_leading_zero",
    "Sip.encodeUIntWithWidth_spec"
   ],
   "note": "exact value (mod 2^64 and mod the width), exact failure condition, round trip; parseUInt_wraps is the witness of the fault"
  },
  {
   "property": "C11",
   "status": "proved",
   "theorems": [
    "Sip.charset_basic",
    "Sip.charset_uri",
    "Sip.charset_sip",
    "Sip.charset_deviations",
    "Sip.charset_not_rfc",
    "Sip.charset_comment",
    "Sip.charset_exclusions"
   ],
   "note": "all 256 bytes of every class; the classes that deviate from the RFC are proved to deviate, with the exact difference"
  },
  {
   "property": "C12",
   "status": "proved",
   "theorems": [
    "Sip.sws_sound",
    "Sip.sws_maximal",
    "Sip.sws_stops_before_eol",
    "Sip.sws_not_maximal",
    "Sip.crlf_spec",
    "Sip.isOnlyCRLF_spec"
   ],
   "note": "trailing white space before an end of line is not consumed (sws_not_maximal)"
  },
  {
   "property": "C13",
   "status": "proved",
   "theorems": [
    "Sip.hcolon_spec",
    "Sip.swsMark_spec",
    "Sip.swsMarkCanOmmit_spec",
    "Sip.angleQuotes_spec",
    "Sip.canOmmit_consumes_space"
   ],
   "note": "exact behaviour of every separator parser"
  },
  {
   "property": "C14",
   "status": "proved",
   "theorems": [
    "Sip.strEqNoCase_iff",
    "Sip.strEqNoCase_equiv",
    "Sip.strHasPrefixNoCase_iff",
    "Sip.toLower_eq"
   ],
   "note": ""
  },
  {
   "property": "C15",
   "status": "proved",
   "theorems": [
    "Sip.method_index_iff",
    "Sip.method_index_returns",
    "Sip.method_index_panics"
   ],
   "note": "exact whenever the lookup returns; it panics at the end of input inside a name (exact condition proved)"
  },
  {
   "property": "C16",
   "status": "proved",
   "theorems": [
    "Sip.header_index_complete",
    "Sip.header_index_sound_noCr",
    "Sip.header_cr_is_dash",
    "Sip.header_names_missing",
    "Sip.header_index_returns",
    "Sip.header_index_panics",
    "Sip.header_index_sound",
    "Sip.header_index_of",
    "Sip.header_index_iff"
   ],
   "note": "complete and, for every input, sound up to CR accepted for '-'; misspelt and missing names and panics proved"
  },
  {
   "property": "C17",
   "status": "proved",
   "theorems": [
    "Sip.host_roundtrip",
    "Sip.hostport_roundtrip",
    "Sip.host_safe",
    "Sip.hostport_safe",
    "Sip.hostport_port",
    "Sip.hostport_port_wraps",
    "Sip.parseIpv4_spec"
   ],
   "note": "round trip for every value and every follower; the port is the decimal value of the digits below 2^64, and a port text of 2^64 or more is accepted reduced (hostport_port_wraps)"
  },
  {
   "property": "C18",
   "status": "proved",
   "theorems": [
    "Sip.sipUri_roundtrip",
    "Sip.sipUri_idempotent",
    "Sip.sipUri_safe",
    "Sip.SipUri.sample_wf",
    "Sip.sipUri_header_lost",
    "Sip.uriEnd_of"
   ],
   "note": "round trip for every well formed URI, idempotency for every accepted one; the exception is proved (sipUri_header_lost)"
  },
  {
   "property": "C19",
   "status": "proved",
   "theorems": [
    "Sip.genericParams_parse",
    "Sip.params_roundtrip",
    "Sip.params_idempotent",
    "Sip.params_safe",
    "Sip.bracket_passes_line_end",
    "Sip.params_trailing_space",
    "Sip.Params.sample_wf"
   ],
   "note": "grammar with white space around the marks, round trip and idempotency for every parameter list; the exceptions are proved"
  },
  {
   "property": "C20",
   "status": "proved",
   "theorems": [
    "Sip.nameAddr_roundtrip",
    "Sip.addr_roundtrip",
    "Sip.addrSpec_roundtrip",
    "Sip.bareAddr_roundtrip",
    "Sip.addr_idempotent",
    "Sip.nameAddr_safe",
    "Sip.addr_safe",
    "Sip.addrSpec_safe",
    "Sip.Addr.sample_wf",
    "Sip.bare_at_in_params",
    "Sip.encodeAddrSpec_drops_tel"
   ],
   "note": "every display name, both forms and both URI kinds; the exceptions are proved"
  },
  {
   "property": "C21",
   "status": "proved",
   "theorems": [
    "Sip.header_roundtrip",
    "Sip.header_encode_parse",
    "Sip.header_value_roundtrip",
    "Sip.header_idempotent",
    "Sip.method_roundtrip",
    "Sip.num_value",
    "Sip.num_truncates",
    "Sip.contentLength_padded"
   ],
   "note": "round trip for every representable value; numbers that do not fit are reduced (num_value exactly, num_truncates), the padded Content-Length value is readable only behind the colon"
  },
  {
   "property": "C22",
   "status": "proved",
   "theorems": [
    "Sip.header_roundtrip",
    "Sip.header_value_roundtrip",
    "Sip.header_idempotent",
    "Sip.callId_text",
    "Sip.callId_slash"
   ],
   "note": "every pair of words as the library defines them; a '/' of the RFC word cuts the value (callId_slash)"
  },
  {
   "property": "C23",
   "status": "proved",
   "theorems": [
    "Sip.header_roundtrip",
    "Sip.header_value_roundtrip",
    "Sip.header_idempotent",
    "Sip.via_text",
    "Sip.HVal.sampleVia_wf",
    "Sip.via_version",
    "Sip.via_spaced_version",
    "Sip.headers_parse",
    "Sip.setHeaders_spec"
   ],
   "note": "one value: header_roundtrip; lists in order: headers_parse with setHeaders_spec; the version faults are proved"
  },
  {
   "property": "C24",
   "status": "proved",
   "theorems": [
    "Sip.startLine_kind",
    "Sip.startLine_roundtrip",
    "Sip.startLine_idempotent",
    "Sip.startLine_safe",
    "Sip.StartLine.sample_wf",
    "Sip.status_truncates",
    "Sip.request_tel_lost"
   ],
   "note": "both faults are proved"
  },
  {
   "property": "C25",
   "status": "proved",
   "theorems": [
    "Sip.rawHeaders_parse",
    "Sip.rawHeaders_roundtrip",
    "Sip.rawHeader_line",
    "Sip.RawHeader.samples_wf",
    "Sip.rawHeaders_safe",
    "Sip.raw_empty_value",
    "Sip.raw_name_lost",
    "Sip.raw_name_lost_example"
   ],
   "note": "the three faults are proved"
  },
  {
   "property": "C26",
   "status": "proved",
   "theorems": [
    "Sip.findCrlf_spec",
    "Sip.lfEnd_spec",
    "Sip.lfEnd_none",
    "Sip.findCrlf_folds",
    "Sip.rawValue_text",
    "Sip.rawScan_safe"
   ],
   "note": "exact for every input"
  },
  {
   "property": "C27",
   "status": "proved",
   "theorems": [
    "Sip.contentLength_written",
    "Sip.contentLength_noBody",
    "Sip.patched_correct",
    "Sip.patched_digits",
    "Sip.digits_le",
    "Sip.patch_column",
    "Sip.patch_text",
    "Sip.msg_encode",
    "Sip.length_wrong",
    "Sip.length_noBody_kept",
    "Sip.Msg.sample1_wf"
   ],
   "note": "exact formula; witnesses of the faults: length_wrong, length_noBody_kept"
  },
  {
   "property": "C28",
   "status": "proved",
   "theorems": [
    "Sip.version_safe",
    "Sip.hostport_safe",
    "Sip.sipUri_safe",
    "Sip.telUri_safe",
    "Sip.params_safe",
    "Sip.addr_safe",
    "Sip.method_safe",
    "Sip.header_value_safe",
    "Sip.header_safe",
    "Sip.safe_quoted",
    "Sip.startLine_safe",
    "Sip.msgHeaderName_safe",
    "Sip.values_safe",
    "Sip.headers_safe",
    "Sip.rawHeaders_safe",
    "Sip.rawScan_safe",
    "Sip.singleBody_safe",
    "Sip.multiBody_safe",
    "Sip.msg_safe",
    "Sip.msgSample_ok",
    "Sip.partsSample_ok",
    "Sip.smallSample_ok",
    "Sip.bodySample_ok"
   ],
   "note": "one theorem per parser (GSafe / SafeAt: position forward and inside the input on success, inside it on failure), composed up to whole messages"
  },
  {
   "property": "C29",
   "status": "proved",
   "theorems": [
    "Sip.quoted_panics_exactly",
    "Sip.version_panics_exactly",
    "Sip.tel_context_always_panics",
    "Sip.panic_exact_samples",
    "Sip.tel_context_samples",
    "Sip.msg_cut_panics",
    "Sip.written_msg_cut_panics",
    "Sip.msg_cut_samples",
    "Sip.msg_answers",
    "Sip.header_answers",
    "Sip.header_answers_sample",
    "Sip.msg_no_panic",
    "Sip.msg_stays_inside",
    "Sip.version_safe",
    "Sip.hostport_safe",
    "Sip.sipUri_safe",
    "Sip.telUri_safe",
    "Sip.params_safe",
    "Sip.addr_safe",
    "Sip.method_safe",
    "Sip.header_value_safe",
    "Sip.header_safe",
    "Sip.safe_quoted",
    "Sip.startLine_safe",
    "Sip.msgHeaderName_safe",
    "Sip.values_safe",
    "Sip.headers_safe",
    "Sip.rawHeaders_safe",
    "Sip.rawScan_safe",
    "Sip.singleBody_safe",
    "Sip.multiBody_safe",
    "Sip.msg_safe",
    "Sip.msgSample_ok",
    "Sip.partsSample_ok",
    "Sip.smallSample_ok",
    "Sip.bodySample_ok",
    "Sip.version_panics",
    "Sip.method_index_panics",
    "Sip.header_index_panics",
    "Sip.tel_context_panics",
    "Sip.quoted_panics",
    "Sip.parseStr_panics",
    "Sip.header2_panics",
    "Sip.header1_panics"
   ],
   "note": "absence of panics under the stated conditions for every parser up to whole messages, and a witness for each condition; sufficient conditions for whole messages; exact ones for quoted strings, versions, runs, method and header names (quoted_panics_exactly, version_panics_exactly, parseStr_memory, C15, C16)"
  },
  {
   "property": "C30",
   "status": "proved",
   "theorems": [
    "Sip.msg_hangs_at_display_name",
    "Sip.msg_hangs_at_param",
    "Sip.msg_hang_samples",
    "Sip.msg_hang_param_samples",
    "Sip.msg_hangs_only_at_quote",
    "Sip.header_hangs_only_at_quote",
    "Sip.quoted_hangs_exactly",
    "Sip.msg_without_quotes_terminates",
    "Sip.hang_samples",
    "Sip.header_hangs",
    "Sip.quotedLoop_hang",
    "Sip.noLoop_of_noStray",
    "Sip.msg_answers",
    "Sip.header_answers",
    "Sip.msg_terminates",
    "Sip.version_safe",
    "Sip.hostport_safe",
    "Sip.sipUri_safe",
    "Sip.telUri_safe",
    "Sip.params_safe",
    "Sip.addr_safe",
    "Sip.method_safe",
    "Sip.header_value_safe",
    "Sip.header_safe",
    "Sip.safe_quoted",
    "Sip.startLine_safe",
    "Sip.msgHeaderName_safe",
    "Sip.values_safe",
    "Sip.headers_safe",
    "Sip.rawHeaders_safe",
    "Sip.rawScan_safe",
    "Sip.singleBody_safe",
    "Sip.multiBody_safe",
    "Sip.msg_safe",
    "Sip.msgSample_ok",
    "Sip.partsSample_ok",
    "Sip.smallSample_ok",
    "Sip.bodySample_ok",
    "Sip.quotedLoop_stuck",
    "Sip.quoted_loops_forever"
   ],
   "note": "only a quoted string whose text is followed by a bare LF, or a CR without LF, can make a parser loop (all parsers up to messages); for the parser of quoted strings this is exact (quoted_hangs_exactly); every message with such a quoted string as the display name of a parsed address header, or as the value of a parameter behind any value that can be written, does loop (msg_hangs_at_display_name, msg_hangs_at_param)"
  },
  {
   "property": "C31",
   "status": "proved",
   "theorems": [
    "Sip.msg_rejected_has_error",
    "Sip.header_rejected_has_error",
    "Sip.addr_silent_failure",
    "Sip.tel_silent_failure",
    "Sip.plain_samples",
    "Sip.version_safe",
    "Sip.hostport_safe",
    "Sip.sipUri_safe",
    "Sip.telUri_safe",
    "Sip.params_safe",
    "Sip.addr_safe",
    "Sip.method_safe",
    "Sip.header_value_safe",
    "Sip.header_safe",
    "Sip.safe_quoted",
    "Sip.startLine_safe",
    "Sip.msgHeaderName_safe",
    "Sip.values_safe",
    "Sip.headers_safe",
    "Sip.rawHeaders_safe",
    "Sip.rawScan_safe",
    "Sip.singleBody_safe",
    "Sip.multiBody_safe",
    "Sip.msg_safe",
    "Sip.msgSample_ok",
    "Sip.partsSample_ok",
    "Sip.smallSample_ok",
    "Sip.bodySample_ok",
    "Sip.strings_survive",
    "Sip.part_lost_memory"
   ],
   "note": "msg_* and header_* state it plainly for a fresh context; the *_safe theorems from every state; a body part whose allocation fails is silently lost (part_lost_memory, a fault)"
  },
  {
   "property": "C32",
   "status": "proved",
   "theorems": [
    "Sip.search_exact",
    "Sip.search_none",
    "Sip.search_misses_end",
    "Sip.header2_exact",
    "Sip.header2_panics",
    "Sip.header1_exact",
    "Sip.findHeader1_exact",
    "Sip.compactName_rfc",
    "Sip.header1_misses_adjacent",
    "Sip.header1_misses_fold",
    "Sip.header1_panics"
   ],
   "note": "exact for every text; faults with witnesses"
  },
  {
   "property": "C33",
   "status": "proved",
   "theorems": [
    "Sip.parseQuoted_spec",
    "Sip.qtext_verbatim",
    "Sip.quoted_fold_corrupted",
    "Sip.quotedLoop_stuck",
    "Sip.quoted_loops_forever",
    "Sip.quoted_hang_example",
    "Sip.quoted_panics",
    "Sip.safe_quoted"
   ],
   "note": "verbatim for quoted strings without fold; the fold, loop and panic faults are proved"
  },
  {
   "property": "C34",
   "status": "proved",
   "theorems": [
    "Sip.removeVisualSeparators_spec",
    "Sip.parseTelNumber_spec",
    "Sip.telUri_roundtrip",
    "Sip.telUri_idempotent",
    "Sip.telUri_safe",
    "Sip.TelUri.sample_wf",
    "Sip.tel_context_panics",
    "Sip.tel_context_lost",
    "Sip.tel_scheme_sub",
    "Sip.store_removeVisual",
    "Sip.removeVisual_sample"
   ],
   "note": "the three faults are proved"
  },
  {
   "property": "C35",
   "status": "proved",
   "theorems": [
    "Sip.version_roundtrip",
    "Sip.version_safe",
    "Sip.version_panics"
   ],
   "note": "round trip for all versions; a version that ends the input panics for some texts (version_panics)"
  },
  {
   "property": "C36",
   "status": "proved",
   "theorems": [
    "Sip.header_roundtrip",
    "Sip.header_encode_parse",
    "Sip.header_value_roundtrip",
    "Sip.header_idempotent",
    "Sip.header_value_safe",
    "Sip.addrParams_text",
    "Sip.routeParams_text",
    "Sip.contact_text",
    "Sip.star_text",
    "Sip.identity_text",
    "Sip.contentType_text",
    "Sip.contentDisposition_text",
    "Sip.HVal.sampleTo_wf",
    "Sip.contact_star_name"
   ],
   "note": "all values except the proved deviations"
  },
  {
   "property": "C37",
   "status": "proved",
   "theorems": [
    "Sip.headerName_accepts",
    "Sip.headerName_sound_noCr",
    "Sip.headerName_cr",
    "Sip.headerName_l",
    "Sip.header_roundtrip",
    "Sip.HKind.title_name",
    "Sip.headerName_exact",
    "Sip.headerName_complete",
    "Sip.headerName_only_noCr",
    "Sip.header_title",
    "Sip.names_rfc",
    "Sip.takenAsName_iff"
   ],
   "note": "exact for every input (headerName_exact); the deviations are part of TakenAsName and proved with witnesses"
  },
  {
   "property": "C38",
   "status": "proved",
   "theorems": [
    "Sip.headers_parse",
    "Sip.setHeaders_spec",
    "Sip.header_multi",
    "Sip.multiBody_text",
    "Sip.singleBody_text",
    "Sip.noBody_text",
    "Sip.msg_text",
    "Sip.msg_encode",
    "Sip.msg_roundtrip",
    "Sip.msg_idempotent",
    "Sip.msg_idempotent_sample",
    "Sip.Msg.sample0_wf",
    "Sip.Msg.sample1_wf",
    "Sip.Msg.sample2_wf",
    "Sip.single_part_rejected",
    "Sip.part_type_lost",
    "Sip.length_twice",
    "Sip.close_delimiter_loose",
    "Sip.parts_lost",
    "Sip.trailing_fold_rejected"
   ],
   "note": "reading, writing and both round trips; faults with witnesses"
  },
  {
   "property": "C39",
   "status": "proved",
   "theorems": [
    "Sip.removeContent_exact",
    "Sip.removeContent_correct_iff",
    "Sip.removeContent_loses",
    "Sip.removeContent_common"
   ],
   "note": "exact for every list"
  },
  {
   "property": "C40",
   "status": "proved",
   "theorems": [
    "Sip.findKnown_exact",
    "Sip.findUnknown_exact",
    "Sip.headerByIndex_exact",
    "Sip.isContent_iff",
    "Sip.isContent_samples",
    "Sip.msg_parsed_headers",
    "Sip.settings_sample"
   ],
   "note": "exact for every list and every message; settings that switch the three headers that describe the body off are not modelled (they make the library read text as a struct)"
  },
  {
   "property": "C41",
   "status": "proved",
   "theorems": [
    "Sip.msg_capacity_irrelevant",
    "Sip.header_capacity_irrelevant",
    "Sip.msg_large_arenas_alike",
    "Sip.header_large_arenas_alike",
    "Sip.capacity_irrelevant",
    "Sip.cap_msg",
    "Sip.capacity_sample"
   ],
   "note": "one judgement (CapAll) proved for every parser of the model"
  },
  {
   "property": "C42",
   "status": "proved",
   "theorems": [
    "Sip.msg_follows_grammar",
    "Sip.header_follows_grammar",
    "Sip.startLine_follows_grammar",
    "Sip.sipUri_follows_grammar",
    "Sip.telUri_follows_grammar",
    "Sip.nameAddr_follows_grammar",
    "Sip.addr_follows_grammar",
    "Sip.grammar_samples",
    "Sip.missing_space_accepted",
    "Sip.msg_first_word"
   ],
   "note": "every input and every arena, no conditions; the grammar is the specification in Grammar.lean"
  },
  {
   "property": "C43",
   "status": "proved",
   "theorems": [
    "Sip.msg_exact",
    "Sip.header_exact",
    "Sip.startLine_exact",
    "Sip.sipUri_exact",
    "Sip.telUri_exact",
    "Sip.nameAddr_exact",
    "Sip.addr_exact",
    "Sip.message_unique",
    "Sip.header_unique",
    "Sip.msg_rejects_exactly",
    "Sip.header_rejects_exactly",
    "Sip.msg_exact_samples",
    "Sip.header_exact_sample",
    "Sip.msg_exact_if_room",
    "Sip.header_exact_if_room",
    "Sip.exact_if_room_sample"
   ],
   "note": "both directions, for every input; the arena must have 10 bytes for a byte of input and 70 more (smaller ones make the parser panic or lose a body: C38, C41)"
  },
  {
   "property": "C44",
   "status": "proved",
   "theorems": [
    "Sip.msg_memory_tight",
    "Sip.header_memory_tight",
    "Sip.startLine_memory_tight",
    "Sip.addr_memory_tight",
    "Sip.nameAddr_memory_tight",
    "Sip.sipUri_memory_tight",
    "Sip.telUri_memory_tight",
    "Sip.msg_addresses_small",
    "Sip.msg_memory_lower",
    "Sip.contact_memory_needed",
    "Sip.msg_memory_linear"
   ],
   "note": "upper bound for every run, lower bound by a family of messages"
  },
  {
   "property": "C45",
   "status": "proved",
   "theorems": [
    "Sip.encode_quiet",
    "Sip.encode_twice",
    "Sip.encode_fails_iff",
    "Sip.parsed_typeOk",
    "Sip.parsed_encode_twice",
    "Sip.encode_twice_sample",
    "Sip.encode_fails_sample"
   ],
   "note": "every message, well formed or not"
  },
  {
   "property": "C46",
   "status": "proved",
   "theorems": [
    "Sip.sipUri_in_memory",
    "Sip.telUri_in_memory",
    "Sip.addr_in_memory",
    "Sip.header_in_memory",
    "Sip.header_value_in_memory",
    "Sip.header_alloc_in_memory",
    "Sip.startLine_in_memory",
    "Sip.heap_sample_sip",
    "Sip.heap_sample_tel",
    "Sip.heap_sample_addr",
    "Sip.heap_sample_via",
    "Sip.heap_sample_contact",
    "Sip.heap_sample_startLine"
   ],
   "note": "arenas of at most 32768 bytes (addresses have 15 bits, C05), inputs of less than 2^31 bytes; an IPv6 address of the Go library has 16 bytes"
  },
  {
   "property": "C47",
   "status": "proved",
   "theorems": [
    "Sip.msg_in_memory",
    "Sip.msg_encode_in_memory",
    "Sip.msg_memory_roundtrip",
    "Sip.msg_undisturbed_by_parse",
    "Sip.msg_undisturbed_by_encode",
    "Sip.heap_sample_multipart",
    "Sip.heap_sample_body"
   ],
   "note": "arenas of at most 32768 bytes, inputs of less than 2^31 bytes, encoded texts of less than 2^32 bytes (the field encodeEnd is a uint32)"
  },
  {
   "property": "C48",
   "status": "proved",
   "theorems": [
    "Sip.refEsc_decodes",
    "Sip.refEsc_bad",
    "Sip.refEsc_total",
    "Sip.refEsc2_eq",
    "Sip.refEsc3_eq",
    "Sip.refEsc3_panics",
    "Sip.allocUnescNum_stores",
    "Sip.twoPass_decodes",
    "Sip.twoPass_bad",
    "Sip.twoPass_onePass",
    "Sip.refParse_exact",
    "Sip.sipToken_stores",
    "Sip.sipToken_empty",
    "Sip.sipToken_nil_ok",
    "Sip.allocUnesc_frees",
    "Sip.allocUnesc_damages",
    "Sip.allocUnescNum2_length",
    "Sip.allocUnescNum2_empty",
    "Sip.decodes_sample"
   ],
   "note": "every input that decodes or contains a bad escape (refEsc_total: there is no third case); arenas of less than 65536 bytes for the stores"
  },
  {
   "property": "C49",
   "status": "proved",
   "theorems": [
    "Sip.zeroMem_exact",
    "Sip.zeroByteSlice_exact",
    "Sip.init_is_zeroMem",
    "Sip.memcpy_exact",
    "Sip.memcpy_overlap",
    "Sip.copyFrom_exact",
    "Sip.copyFrom_nil",
    "Sip.strlen2_exact",
    "Sip.strlen2_strlen",
    "Sip.eqNoCase_exact",
    "Sip.eqNoCase_value",
    "Sip.hasPrefix_exact",
    "Sip.setHostname_exact",
    "Sip.setIpv4_exact",
    "Sip.setIpv6_exact",
    "Sip.setPort_exact",
    "Sip.setKnown_compiled",
    "Sip.known_param_lost",
    "Sip.primSample_fine",
    "Sip.prim_samples"
   ],
   "note": "sizes are not negative; the setters in arenas of at most 32768 bytes"
  },
  {
   "property": "C50",
   "status": "proved",
   "theorems": [
    "Sip.msg_errors_iff",
    "Sip.header_errors_iff",
    "Sip.startLine_errors_iff",
    "Sip.sipUri_errors_iff",
    "Sip.silent_msg",
    "Sip.silent_header",
    "Sip.silent_startLine",
    "Sip.silent_sipUri",
    "Sip.silent_telUri",
    "Sip.silent_addr",
    "Sip.msg_reports_inside",
    "Sip.header_reports_inside",
    "Sip.startLine_reports_inside",
    "Sip.sipUri_reports_inside",
    "Sip.telUri_reports_inside",
    "Sip.addr_reports_inside",
    "Sip.hostPort_reports_inside",
    "Sip.msg_error_positions",
    "Sip.msg_last_error",
    "Sip.error_write",
    "Sip.error_quotes",
    "Sip.errors_write",
    "Sip.values_success_with_error",
    "Sip.error_unknown_lost",
    "Sip.errors_samples",
    "Sip.error_text_samples"
   ],
   "note": "every context, every size of the arena (at least the 8 bytes of a fresh one); the buffer package, which formats numbers and ends lines, is not part of the repository"
  },
  {
   "property": "C51",
   "status": "proved",
   "theorems": [
    "Sip.sipUri_local",
    "Sip.telUri_local",
    "Sip.hostPort_local",
    "Sip.addr_local",
    "Sip.nameAddr_local",
    "Sip.header_local",
    "Sip.headerValues_local",
    "Sip.rawHeader_local",
    "Sip.headerLine_local",
    "Sip.startLine_local",
    "Sip.headers_local",
    "Sip.head_local",
    "Sip.parse_head",
    "Sip.msg_head_local",
    "Sip.msg_nobody_local",
    "Sip.open_bracket_reads_body",
    "Sip.startLine_end",
    "Sip.local_samples",
    "Sip.local_nobody_sample"
   ],
   "note": "every opening bracket before the line end has a closing one behind it, before the line end (open_bracket_reads_body shows why); the start line with something behind it (startLine_end)"
  },
  {
   "property": "C52",
   "status": "proved",
   "theorems": [
    "Sip.sipUri_ahead",
    "Sip.telUri_ahead",
    "Sip.hostPort_ahead",
    "Sip.addr_ahead",
    "Sip.nameAddr_ahead",
    "Sip.header_ahead",
    "Sip.headerValues_ahead",
    "Sip.rawHeader_ahead",
    "Sip.headerLine_ahead",
    "Sip.headers_ahead",
    "Sip.rawHeaders_ahead",
    "Sip.startLine_ahead",
    "Sip.multiBody_ahead",
    "Sip.msg_ahead",
    "Sip.rawScan_ahead",
    "Sip.encode_ahead",
    "Sip.msg_in_stream",
    "Sip.ahead_sample",
    "Sip.free_counts"
   ],
   "note": "positions and sizes are natural numbers in the model, so inputs and arenas beyond 32 bits are not covered"
  },
  {
   "property": "C53",
   "status": "proved",
   "theorems": [
    "Sip.encode_appends",
    "Sip.encode_keeps",
    "Sip.encode_fails_alike",
    "Sip.encode_one_after_other",
    "Sip.encode_appends_sample",
    "Sip.body_encode_front"
   ],
   "note": "beyond 10^16 bytes the digits of the size would be written over the old text (encodeTail_front); buffers of the Go code end at 2^32 bytes"
  },
  {
   "property": "C54",
   "status": "proved",
   "theorems": [
    "Sip.sipUri_forgets",
    "Sip.telUri_forgets",
    "Sip.addr_forgets",
    "Sip.header_forgets",
    "Sip.header_value_forgets",
    "Sip.header_alloc_forgets",
    "Sip.startLine_forgets",
    "Sip.uriParams_forget",
    "Sip.msg_forgets",
    "Sip.msg_texts_forget",
    "Sip.forget_sample",
    "Sip.uriParam_reused",
    "Sip.uriHeader_reused",
    "Sip.genericParam_reused",
    "Sip.reuse_sample"
   ],
   "note": "the texts of messages under the condition that none of them panics or reaches 4 GB (Short); arenas of at most 32768 bytes as in C46"
  },
  {
   "property": "C55",
   "status": "proved",
   "theorems": [
    "Sip.msg_headerByIndex_in_memory",
    "Sip.msg_findKnown_in_memory",
    "Sip.msg_findUnknown_in_memory",
    "Sip.removeContent_in_memory",
    "Sip.heapOps_sample"
   ],
   "note": "arenas of at most 32768 bytes as in C47; what the operations do on the message is C40"
  },
  {
   "property": "C56",
   "status": "proved",
   "theorems": [
    "Sip.uriParamByName_exact",
    "Sip.uriParam_lookup_in_memory",
    "Sip.uriParams_have_names",
    "Sip.sipUriParam_lookup_in_memory",
    "Sip.paramLookup_sample"
   ],
   "note": "arenas of at most 32768 bytes, inputs of less than 2^31 bytes; the empty name for character sets with the properties CharsetInfo.Ok only"
  }
 ]
}