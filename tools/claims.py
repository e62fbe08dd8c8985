c("C01", "proved", "arena_bounds alloc_succeeds_iff freePart_grows_iff freePart_grows_past_capacity alloc_wraps roundToAlign_least live_blocks_disjoint inv_step",
  "all histories without the two faulty calls; both faults are proved with witnesses, the first with its exact condition")
c("C02", "proved", "live_blocks_disjoint run_preserves_memory allocWithClear_zeroes", "byte layer, all histories without a free in between")
c("C03", "proved", "freePart_rollback runOps_determined freeAll_used freePart_can_grow freePart_grows_iff",
  "the mark is restored by every rollback; 'never larger' is false exactly when Used < remain < Used+8")
c("C04", "proved", "stats_exact allocReqBytes_overwritten clearAllocNum_spec",
  "exact for the allocator calls; the parse-and-allocate functions overwrite AllocReqBytes (proved)")
c("C05", "proved", "tag_roundtrip isAbnfPtr_iff small_arena_pointers large_arena_pointers",
  "holds for arenas up to 32768 bytes, refuted above")
c("C06", "proved", "strings_survive token_survives readStr_store readStr_congr runStr_frame strOp_step store_allocStr store_parseStr store_parseStrEnableEmpty store_parseStrEscapable store_parseStrFromPos store_parseTelNumber store_parseQuoted", "byte layer refinement of all string stores, every later history")
c("C07", "proved", "parseStr_spec parseStr_memory parseStr_panics parseStrEnableEmpty_spec parseStrFromPos_spec",
  "exact behaviour, the exact memory failures and the exact condition of the panic")
c("C08", "proved", "escape_roundtrip escape_roundtrip_empty escape_decodes decodes_or_bad parseStrEscapable_spec parseStrEscapable_bad unescape_exact escape_injective token_escape_not_decoded", "every byte string and every set without '%'; the set containing '%' is shown not to decode")
c("C09", "proved", "escape_output_bytes escape_output_length", "")
c("C10", "proved", "parseUInt_value parseUInt_fails_iff parseUInt_wraps parseUInt_widths uint_roundtrip encodeUInt_spec encodeUInt_length encodeUInt_injective decVal_leading_zero encodeUIntWithWidth_spec",
  "exact value (mod 2^64 and mod the width), exact failure condition, round trip; parseUInt_wraps is the witness of the fault")
c("C11", "proved", "charset_basic charset_uri charset_sip charset_deviations charset_not_rfc charset_comment charset_exclusions",
  "all 256 bytes of every class; the classes that deviate from the RFC are proved to deviate, with the exact difference")
c("C12", "proved", "sws_sound sws_maximal sws_stops_before_eol sws_not_maximal crlf_spec isOnlyCRLF_spec",
  "trailing white space before an end of line is not consumed (sws_not_maximal)")
c("C13", "proved", "hcolon_spec swsMark_spec swsMarkCanOmmit_spec angleQuotes_spec canOmmit_consumes_space", "exact behaviour of every separator parser")
c("C14", "proved", "strEqNoCase_iff strEqNoCase_equiv strHasPrefixNoCase_iff toLower_eq", "")
c("C15", "proved", "method_index_iff method_index_returns method_index_panics",
  "exact whenever the lookup returns; it panics at the end of input inside a name (exact condition proved)")
c("C16", "proved", "header_index_complete header_index_sound_noCr header_cr_is_dash header_names_missing header_index_returns header_index_panics header_index_sound header_index_of header_index_iff",
  "complete and, for every input, sound up to CR accepted for '-'; misspelt and missing names and panics proved")
c("C17", "proved", "host_roundtrip hostport_roundtrip host_safe hostport_safe hostport_port hostport_port_wraps parseIpv4_spec",
  "round trip for every value and every follower; the port is the decimal value of the digits below 2^64, and a port text of 2^64 or more is accepted reduced (hostport_port_wraps)")
c("C18", "proved", "sipUri_roundtrip sipUri_idempotent sipUri_safe SipUri.sample_wf sipUri_header_lost uriEnd_of",
  "round trip for every well formed URI, idempotency for every accepted one; the exception is proved (sipUri_header_lost)")
c("C19", "proved", "genericParams_parse params_roundtrip params_idempotent params_safe bracket_passes_line_end params_trailing_space Params.sample_wf",
  "grammar with white space around the marks, round trip and idempotency for every parameter list; the exceptions are proved")
c("C20", "proved", "nameAddr_roundtrip addr_roundtrip addrSpec_roundtrip bareAddr_roundtrip addr_idempotent nameAddr_safe addr_safe addrSpec_safe Addr.sample_wf bare_at_in_params encodeAddrSpec_drops_tel",
  "every display name, both forms and both URI kinds; the exceptions are proved")
c("C21", "proved", "header_roundtrip header_encode_parse header_value_roundtrip header_idempotent method_roundtrip num_value num_truncates contentLength_padded",
  "round trip for every representable value; numbers that do not fit are reduced (num_value exactly, num_truncates), the padded Content-Length value is readable only behind the colon")
c("C22", "proved", "header_roundtrip header_value_roundtrip header_idempotent callId_text callId_slash",
  "every pair of words as the library defines them; a '/' of the RFC word cuts the value (callId_slash)")
c("C23", "proved", "header_roundtrip header_value_roundtrip header_idempotent via_text HVal.sampleVia_wf via_version via_spaced_version headers_parse setHeaders_spec",
  "one value: header_roundtrip; lists in order: headers_parse with setHeaders_spec; the version faults are proved")
c("C24", "proved", "startLine_kind startLine_roundtrip startLine_idempotent startLine_safe StartLine.sample_wf status_truncates request_tel_lost",
  "both faults are proved")
c("C25", "proved", "rawHeaders_parse rawHeaders_roundtrip rawHeader_line RawHeader.samples_wf rawHeaders_safe raw_empty_value raw_name_lost raw_name_lost_example",
  "the three faults are proved")
c("C26", "proved", "findCrlf_spec lfEnd_spec lfEnd_none findCrlf_folds rawValue_text rawScan_safe",
  "exact for every input")
c("C27", "proved", "contentLength_written contentLength_noBody patched_correct patched_digits digits_le patch_column patch_text msg_encode length_wrong length_noBody_kept Msg.sample1_wf",
  "exact formula; witnesses of the faults: length_wrong, length_noBody_kept")
c("C28", "proved", "version_safe hostport_safe sipUri_safe telUri_safe params_safe addr_safe method_safe header_value_safe header_safe safe_quoted startLine_safe msgHeaderName_safe values_safe headers_safe rawHeaders_safe rawScan_safe singleBody_safe multiBody_safe msg_safe msgSample_ok partsSample_ok smallSample_ok bodySample_ok",
  "one theorem per parser (GSafe / SafeAt: position forward and inside the input on success, inside it on failure), composed up to whole messages")
c("C29", "proved", "quoted_panics_exactly version_panics_exactly tel_context_always_panics panic_exact_samples tel_context_samples msg_cut_panics written_msg_cut_panics msg_cut_samples msg_answers header_answers header_answers_sample msg_no_panic msg_stays_inside version_safe hostport_safe sipUri_safe telUri_safe params_safe addr_safe method_safe header_value_safe header_safe safe_quoted startLine_safe msgHeaderName_safe values_safe headers_safe rawHeaders_safe rawScan_safe singleBody_safe multiBody_safe msg_safe msgSample_ok partsSample_ok smallSample_ok bodySample_ok version_panics method_index_panics header_index_panics tel_context_panics quoted_panics parseStr_panics header2_panics header1_panics",
  "absence of panics under the stated conditions for every parser up to whole messages, and a witness for each condition; sufficient conditions for whole messages; exact ones for quoted strings, versions, runs, method and header names (quoted_panics_exactly, version_panics_exactly, parseStr_memory, C15, C16)")
c("C30", "proved", "msg_hangs_at_display_name msg_hangs_at_param msg_hang_samples msg_hang_param_samples msg_hangs_only_at_quote header_hangs_only_at_quote quoted_hangs_exactly msg_without_quotes_terminates hang_samples header_hangs quotedLoop_hang noLoop_of_noStray msg_answers header_answers msg_terminates version_safe hostport_safe sipUri_safe telUri_safe params_safe addr_safe method_safe header_value_safe header_safe safe_quoted startLine_safe msgHeaderName_safe values_safe headers_safe rawHeaders_safe rawScan_safe singleBody_safe multiBody_safe msg_safe msgSample_ok partsSample_ok smallSample_ok bodySample_ok quotedLoop_stuck quoted_loops_forever",
  "only a quoted string whose text is followed by a bare LF, or a CR without LF, can make a parser loop (all parsers up to messages); for the parser of quoted strings this is exact (quoted_hangs_exactly); every message with such a quoted string as the display name of a parsed address header, or as the value of a parameter behind any value that can be written, does loop (msg_hangs_at_display_name, msg_hangs_at_param)")
c("C31", "proved", "msg_rejected_has_error header_rejected_has_error addr_silent_failure tel_silent_failure plain_samples version_safe hostport_safe sipUri_safe telUri_safe params_safe addr_safe method_safe header_value_safe header_safe safe_quoted startLine_safe msgHeaderName_safe values_safe headers_safe rawHeaders_safe rawScan_safe singleBody_safe multiBody_safe msg_safe msgSample_ok partsSample_ok smallSample_ok bodySample_ok strings_survive part_lost_memory",
  "msg_* and header_* state it plainly for a fresh context; the *_safe theorems from every state; a body part whose allocation fails is silently lost (part_lost_memory, a fault)")
c("C32", "proved", "search_exact search_none search_misses_end header2_exact header2_panics header1_exact findHeader1_exact compactName_rfc header1_misses_adjacent header1_misses_fold header1_panics",
  "exact for every text; faults with witnesses")
c("C33", "proved", "parseQuoted_spec qtext_verbatim quoted_fold_corrupted quotedLoop_stuck quoted_loops_forever quoted_hang_example quoted_panics safe_quoted",
  "verbatim for quoted strings without fold; the fold, loop and panic faults are proved")
c("C34", "proved", "removeVisualSeparators_spec parseTelNumber_spec telUri_roundtrip telUri_idempotent telUri_safe TelUri.sample_wf tel_context_panics tel_context_lost tel_scheme_sub store_removeVisual removeVisual_sample",
  "the three faults are proved")
c("C35", "proved", "version_roundtrip version_safe version_panics",
  "round trip for all versions; a version that ends the input panics for some texts (version_panics)")
c("C36", "proved", "header_roundtrip header_encode_parse header_value_roundtrip header_idempotent header_value_safe addrParams_text routeParams_text contact_text star_text identity_text contentType_text contentDisposition_text HVal.sampleTo_wf contact_star_name",
  "all values except the proved deviations")
c("C37", "proved", "headerName_accepts headerName_sound_noCr headerName_cr headerName_l header_roundtrip HKind.title_name headerName_exact headerName_complete headerName_only_noCr header_title names_rfc takenAsName_iff",
  "exact for every input (headerName_exact); the deviations are part of TakenAsName and proved with witnesses")
c("C38", "proved", "headers_parse setHeaders_spec header_multi multiBody_text singleBody_text noBody_text msg_text msg_encode msg_roundtrip msg_idempotent msg_idempotent_sample Msg.sample0_wf Msg.sample1_wf Msg.sample2_wf single_part_rejected part_type_lost length_twice close_delimiter_loose parts_lost trailing_fold_rejected",
  "reading, writing and both round trips; faults with witnesses")
c("C39", "proved", "removeContent_exact removeContent_correct_iff removeContent_loses removeContent_common",
  "exact for every list")

c("C40", "proved", "findKnown_exact findUnknown_exact headerByIndex_exact isContent_iff isContent_samples msg_parsed_headers settings_sample",
  "exact for every list and every message; settings that switch the three headers that describe the body off are not modelled (they make the library read text as a struct)")

c("C41", "proved", "msg_capacity_irrelevant header_capacity_irrelevant msg_large_arenas_alike header_large_arenas_alike capacity_irrelevant cap_msg capacity_sample",
  "one judgement (CapAll) proved for every parser of the model")

c("C42", "proved", "msg_follows_grammar header_follows_grammar startLine_follows_grammar sipUri_follows_grammar telUri_follows_grammar nameAddr_follows_grammar addr_follows_grammar grammar_samples missing_space_accepted msg_first_word",
  "every input and every arena, no conditions; the grammar is the specification in Grammar.lean")

c("C43", "proved", "msg_exact header_exact startLine_exact sipUri_exact telUri_exact nameAddr_exact addr_exact message_unique header_unique msg_rejects_exactly header_rejects_exactly msg_exact_samples header_exact_sample msg_exact_if_room header_exact_if_room exact_if_room_sample",
  "both directions, for every input; the arena must have 10 bytes for a byte of input and 70 more (smaller ones make the parser panic or lose a body: C38, C41)")

c("C44", "proved", "msg_memory_tight header_memory_tight startLine_memory_tight addr_memory_tight nameAddr_memory_tight sipUri_memory_tight telUri_memory_tight msg_addresses_small msg_memory_lower contact_memory_needed msg_memory_linear",
  "upper bound for every run, lower bound by a family of messages")

c("C45", "proved", "encode_quiet encode_twice encode_fails_iff parsed_typeOk parsed_encode_twice encode_twice_sample encode_fails_sample",
  "every message, well formed or not")

c("C46", "proved", "sipUri_in_memory telUri_in_memory addr_in_memory header_in_memory header_value_in_memory header_alloc_in_memory startLine_in_memory heap_sample_sip heap_sample_tel heap_sample_addr heap_sample_via heap_sample_contact heap_sample_startLine",
  "arenas of at most 32768 bytes (addresses have 15 bits, C05), inputs of less than 2^31 bytes; an IPv6 address of the Go library has 16 bytes")
c("C47", "proved", "msg_in_memory msg_encode_in_memory msg_memory_roundtrip msg_undisturbed_by_parse msg_undisturbed_by_encode heap_sample_multipart heap_sample_body",
  "arenas of at most 32768 bytes, inputs of less than 2^31 bytes, encoded texts of less than 2^32 bytes (the field encodeEnd is a uint32)")
c("C48", "proved", "refEsc_decodes refEsc_bad refEsc_total refEsc2_eq refEsc3_eq refEsc3_panics allocUnescNum_stores twoPass_decodes twoPass_bad twoPass_onePass refParse_exact sipToken_stores sipToken_empty sipToken_nil_ok allocUnesc_frees allocUnesc_damages allocUnescNum2_length allocUnescNum2_empty decodes_sample",
  "every input that decodes or contains a bad escape (refEsc_total: there is no third case); arenas of less than 65536 bytes for the stores")
c("C49", "proved", "zeroMem_exact zeroByteSlice_exact init_is_zeroMem memcpy_exact memcpy_overlap copyFrom_exact copyFrom_nil strlen2_exact strlen2_strlen eqNoCase_exact eqNoCase_value hasPrefix_exact setHostname_exact setIpv4_exact setIpv6_exact setPort_exact setKnown_compiled known_param_lost primSample_fine prim_samples",
  "sizes are not negative; the setters in arenas of at most 32768 bytes")
c("C50", "proved", "msg_errors_iff header_errors_iff startLine_errors_iff sipUri_errors_iff silent_msg silent_header silent_startLine silent_sipUri silent_telUri silent_addr msg_reports_inside header_reports_inside startLine_reports_inside sipUri_reports_inside telUri_reports_inside addr_reports_inside hostPort_reports_inside msg_error_positions msg_last_error error_write error_quotes errors_write values_success_with_error error_unknown_lost errors_samples error_text_samples",
  "every context, every size of the arena (at least the 8 bytes of a fresh one); the buffer package, which formats numbers and ends lines, is not part of the repository")
c("C51", "proved", "sipUri_local telUri_local hostPort_local addr_local nameAddr_local header_local headerValues_local rawHeader_local headerLine_local startLine_local headers_local head_local parse_head msg_head_local msg_nobody_local open_bracket_reads_body startLine_end local_samples local_nobody_sample",
  "every opening bracket before the line end has a closing one behind it, before the line end (open_bracket_reads_body shows why); the start line with something behind it (startLine_end)")
c("C52", "proved", "sipUri_ahead telUri_ahead hostPort_ahead addr_ahead nameAddr_ahead header_ahead headerValues_ahead rawHeader_ahead headerLine_ahead headers_ahead rawHeaders_ahead startLine_ahead multiBody_ahead msg_ahead rawScan_ahead encode_ahead msg_in_stream ahead_sample free_counts",
  "positions and sizes are natural numbers in the model, so inputs and arenas beyond 32 bits are not covered")
c("C53", "proved", "encode_appends encode_keeps encode_fails_alike encode_one_after_other encode_appends_sample body_encode_front",
  "beyond 10^16 bytes the digits of the size would be written over the old text (encodeTail_front); buffers of the Go code end at 2^32 bytes")
c("C54", "proved", "sipUri_forgets telUri_forgets addr_forgets header_forgets header_value_forgets header_alloc_forgets startLine_forgets uriParams_forget msg_forgets msg_texts_forget forget_sample uriParam_reused uriHeader_reused genericParam_reused reuse_sample",
  "the texts of messages under the condition that none of them panics or reaches 4 GB (Short); arenas of at most 32768 bytes as in C46")
c("C55", "proved", "msg_headerByIndex_in_memory msg_findKnown_in_memory msg_findUnknown_in_memory removeContent_in_memory heapOps_sample",
  "arenas of at most 32768 bytes as in C47; what the operations do on the message is C40")
c("C56", "proved", "uriParamByName_exact uriParam_lookup_in_memory uriParams_have_names sipUriParam_lookup_in_memory paramLookup_sample",
  "arenas of at most 32768 bytes, inputs of less than 2^31 bytes; the empty name for character sets with the properties CharsetInfo.Ok only")
