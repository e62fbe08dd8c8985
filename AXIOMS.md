# Axioms of the theorems in MANIFEST.json

Written by tools/axioms.py from `#print axioms`.

## none (7 theorems)

Sip.capacity_irrelevant Sip.copyFrom_nil Sip.decVal_leading_zero Sip.freeAll_used Sip.freePart_can_grow Sip.memcpy_overlap Sip.primSample_fine

## propext (12 theorems)

Sip.alloc_wraps Sip.charset_comment Sip.clearAllocNum_spec Sip.freePart_grows_past_capacity Sip.header_multi Sip.large_arena_pointers Sip.parseUInt_widths Sip.quotedLoop_stuck Sip.refEsc3_panics Sip.setKnown_compiled Sip.toLower_eq Sip.uriEnd_of

## propext, Classical.choice, Quot.sound (448 theorems)

Sip.Addr.sample_wf Sip.HKind.title_name Sip.HVal.sampleTo_wf Sip.HVal.sampleVia_wf Sip.Msg.sample0_wf Sip.Msg.sample1_wf Sip.Msg.sample2_wf Sip.Params.sample_wf Sip.RawHeader.samples_wf Sip.SipUri.sample_wf Sip.StartLine.sample_wf Sip.TelUri.sample_wf Sip.addrParams_text Sip.addrSpec_roundtrip Sip.addrSpec_safe Sip.addr_ahead Sip.addr_exact Sip.addr_follows_grammar Sip.addr_forgets Sip.addr_idempotent Sip.addr_in_memory Sip.addr_local Sip.addr_memory_tight Sip.addr_reports_inside Sip.addr_roundtrip Sip.addr_safe Sip.addr_silent_failure Sip.ahead_sample Sip.allocReqBytes_overwritten Sip.allocUnescNum2_empty Sip.allocUnescNum2_length Sip.allocUnescNum_stores Sip.allocUnesc_damages Sip.allocUnesc_frees Sip.allocWithClear_zeroes Sip.alloc_succeeds_iff Sip.angleQuotes_spec Sip.arena_bounds Sip.bareAddr_roundtrip Sip.bare_at_in_params Sip.bodySample_ok Sip.body_encode_front Sip.bracket_passes_line_end Sip.callId_slash Sip.canOmmit_consumes_space Sip.cap_msg Sip.capacity_sample Sip.charset_basic Sip.charset_deviations Sip.charset_exclusions Sip.charset_not_rfc Sip.charset_sip Sip.charset_uri Sip.close_delimiter_loose Sip.compactName_rfc Sip.contact_memory_needed Sip.contact_star_name Sip.contact_text Sip.contentDisposition_text Sip.contentLength_noBody Sip.contentLength_padded Sip.contentLength_written Sip.contentType_text Sip.copyFrom_exact Sip.decodes_or_bad Sip.decodes_sample Sip.digits_le Sip.encodeAddrSpec_drops_tel Sip.encodeUInt_injective Sip.encodeUInt_length Sip.encodeUInt_spec Sip.encode_ahead Sip.encode_appends Sip.encode_appends_sample Sip.encode_fails_alike Sip.encode_fails_iff Sip.encode_fails_sample Sip.encode_keeps Sip.encode_one_after_other Sip.encode_quiet Sip.encode_twice Sip.encode_twice_sample Sip.eqNoCase_exact Sip.eqNoCase_value Sip.error_quotes Sip.error_text_samples Sip.error_unknown_lost Sip.error_write Sip.errors_samples Sip.errors_write Sip.exact_if_room_sample Sip.findCrlf_folds Sip.findCrlf_spec Sip.findHeader1_exact Sip.findUnknown_exact Sip.forget_sample Sip.freePart_grows_iff Sip.freePart_rollback Sip.free_counts Sip.genericParam_reused Sip.genericParams_parse Sip.grammar_samples Sip.hang_samples Sip.hasPrefix_exact Sip.hcolon_spec Sip.head_local Sip.header1_exact Sip.header1_misses_adjacent Sip.header1_misses_fold Sip.header1_panics Sip.header2_exact Sip.header2_panics Sip.headerLine_ahead Sip.headerLine_local Sip.headerName_accepts Sip.headerName_complete Sip.headerName_cr Sip.headerName_exact Sip.headerName_l Sip.headerName_only_noCr Sip.headerName_sound_noCr Sip.headerValues_ahead Sip.headerValues_local Sip.header_ahead Sip.header_alloc_forgets Sip.header_alloc_in_memory Sip.header_answers Sip.header_answers_sample Sip.header_capacity_irrelevant Sip.header_cr_is_dash Sip.header_encode_parse Sip.header_errors_iff Sip.header_exact Sip.header_exact_if_room Sip.header_exact_sample Sip.header_follows_grammar Sip.header_forgets Sip.header_hangs Sip.header_hangs_only_at_quote Sip.header_idempotent Sip.header_in_memory Sip.header_index_complete Sip.header_index_iff Sip.header_index_of Sip.header_index_panics Sip.header_index_returns Sip.header_index_sound Sip.header_index_sound_noCr Sip.header_large_arenas_alike Sip.header_local Sip.header_memory_tight Sip.header_names_missing Sip.header_rejected_has_error Sip.header_rejects_exactly Sip.header_reports_inside Sip.header_roundtrip Sip.header_safe Sip.header_title Sip.header_unique Sip.header_value_forgets Sip.header_value_in_memory Sip.header_value_roundtrip Sip.header_value_safe Sip.headers_ahead Sip.headers_local Sip.headers_parse Sip.headers_safe Sip.heapOps_sample Sip.heap_sample_addr Sip.heap_sample_body Sip.heap_sample_contact Sip.heap_sample_multipart Sip.heap_sample_sip Sip.heap_sample_startLine Sip.heap_sample_tel Sip.heap_sample_via Sip.hostPort_ahead Sip.hostPort_local Sip.hostPort_reports_inside Sip.host_roundtrip Sip.host_safe Sip.hostport_port Sip.hostport_port_wraps Sip.hostport_roundtrip Sip.hostport_safe Sip.identity_text Sip.init_is_zeroMem Sip.inv_step Sip.isContent_iff Sip.isContent_samples Sip.known_param_lost Sip.length_noBody_kept Sip.length_twice Sip.length_wrong Sip.lfEnd_none Sip.lfEnd_spec Sip.live_blocks_disjoint Sip.local_nobody_sample Sip.local_samples Sip.memcpy_exact Sip.message_unique Sip.method_index_iff Sip.method_index_panics Sip.method_index_returns Sip.method_roundtrip Sip.method_safe Sip.missing_space_accepted Sip.msgHeaderName_safe Sip.msgSample_ok Sip.msg_addresses_small Sip.msg_ahead Sip.msg_answers Sip.msg_capacity_irrelevant Sip.msg_cut_panics Sip.msg_cut_samples Sip.msg_encode Sip.msg_encode_in_memory Sip.msg_error_positions Sip.msg_errors_iff Sip.msg_exact Sip.msg_exact_if_room Sip.msg_exact_samples Sip.msg_findKnown_in_memory Sip.msg_findUnknown_in_memory Sip.msg_first_word Sip.msg_follows_grammar Sip.msg_forgets Sip.msg_hang_param_samples Sip.msg_hang_samples Sip.msg_hangs_at_display_name Sip.msg_hangs_at_param Sip.msg_hangs_only_at_quote Sip.msg_head_local Sip.msg_headerByIndex_in_memory Sip.msg_idempotent Sip.msg_idempotent_sample Sip.msg_in_memory Sip.msg_in_stream Sip.msg_large_arenas_alike Sip.msg_last_error Sip.msg_memory_linear Sip.msg_memory_lower Sip.msg_memory_roundtrip Sip.msg_memory_tight Sip.msg_no_panic Sip.msg_nobody_local Sip.msg_parsed_headers Sip.msg_rejected_has_error Sip.msg_rejects_exactly Sip.msg_reports_inside Sip.msg_roundtrip Sip.msg_safe Sip.msg_stays_inside Sip.msg_terminates Sip.msg_text Sip.msg_texts_forget Sip.msg_undisturbed_by_encode Sip.msg_undisturbed_by_parse Sip.msg_without_quotes_terminates Sip.multiBody_ahead Sip.multiBody_safe Sip.multiBody_text Sip.nameAddr_ahead Sip.nameAddr_exact Sip.nameAddr_follows_grammar Sip.nameAddr_local Sip.nameAddr_memory_tight Sip.nameAddr_roundtrip Sip.nameAddr_safe Sip.names_rfc Sip.noBody_text Sip.num_truncates Sip.num_value Sip.open_bracket_reads_body Sip.panic_exact_samples Sip.paramLookup_sample Sip.params_idempotent Sip.params_roundtrip Sip.params_safe Sip.params_trailing_space Sip.parseQuoted_spec Sip.parseStr_panics Sip.parseTelNumber_spec Sip.parseUInt_fails_iff Sip.parseUInt_wraps Sip.parse_head Sip.parsed_encode_twice Sip.parsed_typeOk Sip.part_lost_memory Sip.part_type_lost Sip.partsSample_ok Sip.parts_lost Sip.patch_column Sip.patch_text Sip.patched_correct Sip.patched_digits Sip.plain_samples Sip.prim_samples Sip.quotedLoop_hang Sip.quoted_fold_corrupted Sip.quoted_hang_example Sip.quoted_hangs_exactly Sip.quoted_loops_forever Sip.quoted_panics Sip.quoted_panics_exactly Sip.rawHeader_ahead Sip.rawHeader_line Sip.rawHeaders_ahead Sip.rawHeaders_parse Sip.rawHeaders_roundtrip Sip.rawHeaders_safe Sip.rawScan_ahead Sip.rawScan_safe Sip.rawValue_text Sip.raw_empty_value Sip.raw_name_lost Sip.raw_name_lost_example Sip.readStr_store Sip.refEsc3_eq Sip.refEsc_total Sip.removeContent_common Sip.removeContent_correct_iff Sip.removeContent_exact Sip.removeContent_in_memory Sip.removeContent_loses Sip.removeVisual_sample Sip.request_tel_lost Sip.reuse_sample Sip.roundToAlign_least Sip.routeParams_text Sip.runOps_determined Sip.runStr_frame Sip.run_preserves_memory Sip.safe_quoted Sip.search_exact Sip.search_misses_end Sip.search_none Sip.setHostname_exact Sip.setIpv4_exact Sip.setIpv6_exact Sip.setPort_exact Sip.settings_sample Sip.silent_addr Sip.silent_header Sip.silent_msg Sip.silent_sipUri Sip.silent_startLine Sip.silent_telUri Sip.singleBody_safe Sip.singleBody_text Sip.single_part_rejected Sip.sipToken_nil_ok Sip.sipToken_stores Sip.sipUriParam_lookup_in_memory Sip.sipUri_ahead Sip.sipUri_errors_iff Sip.sipUri_exact Sip.sipUri_follows_grammar Sip.sipUri_forgets Sip.sipUri_header_lost Sip.sipUri_idempotent Sip.sipUri_in_memory Sip.sipUri_local Sip.sipUri_memory_tight Sip.sipUri_reports_inside Sip.sipUri_roundtrip Sip.sipUri_safe Sip.smallSample_ok Sip.small_arena_pointers Sip.star_text Sip.startLine_ahead Sip.startLine_end Sip.startLine_errors_iff Sip.startLine_exact Sip.startLine_follows_grammar Sip.startLine_forgets Sip.startLine_idempotent Sip.startLine_in_memory Sip.startLine_kind Sip.startLine_local Sip.startLine_memory_tight Sip.startLine_reports_inside Sip.startLine_roundtrip Sip.startLine_safe Sip.stats_exact Sip.status_truncates Sip.store_allocStr Sip.store_parseQuoted Sip.store_parseStr Sip.store_parseStrEnableEmpty Sip.store_parseStrEscapable Sip.store_parseStrFromPos Sip.store_parseTelNumber Sip.store_removeVisual Sip.strEqNoCase_equiv Sip.strEqNoCase_iff Sip.strHasPrefixNoCase_iff Sip.strOp_step Sip.strings_survive Sip.swsMarkCanOmmit_spec Sip.swsMark_spec Sip.sws_maximal Sip.sws_sound Sip.sws_stops_before_eol Sip.tag_roundtrip Sip.takenAsName_iff Sip.telUri_ahead Sip.telUri_exact Sip.telUri_follows_grammar Sip.telUri_forgets Sip.telUri_idempotent Sip.telUri_in_memory Sip.telUri_local Sip.telUri_memory_tight Sip.telUri_reports_inside Sip.telUri_roundtrip Sip.telUri_safe Sip.tel_context_always_panics Sip.tel_context_lost Sip.tel_context_panics Sip.tel_context_samples Sip.tel_scheme_sub Sip.tel_silent_failure Sip.token_escape_not_decoded Sip.token_survives Sip.trailing_fold_rejected Sip.twoPass_decodes Sip.twoPass_onePass Sip.uint_roundtrip Sip.unescape_exact Sip.uriHeader_reused Sip.uriParamByName_exact Sip.uriParam_lookup_in_memory Sip.uriParam_reused Sip.uriParams_forget Sip.uriParams_have_names Sip.values_safe Sip.values_success_with_error Sip.version_panics Sip.version_panics_exactly Sip.version_roundtrip Sip.version_safe Sip.via_spaced_version Sip.via_text Sip.via_version Sip.written_msg_cut_panics Sip.zeroByteSlice_exact Sip.zeroMem_exact

## propext, Quot.sound (36 theorems)

Sip.callId_text Sip.crlf_spec Sip.encodeUIntWithWidth_spec Sip.escape_decodes Sip.escape_injective Sip.escape_output_bytes Sip.escape_output_length Sip.escape_roundtrip Sip.escape_roundtrip_empty Sip.findKnown_exact Sip.headerByIndex_exact Sip.isAbnfPtr_iff Sip.isOnlyCRLF_spec Sip.noLoop_of_noStray Sip.parseIpv4_spec Sip.parseStrEnableEmpty_spec Sip.parseStrEscapable_bad Sip.parseStrEscapable_spec Sip.parseStrFromPos_spec Sip.parseStr_memory Sip.parseStr_spec Sip.parseUInt_value Sip.qtext_verbatim Sip.rawHeader_local Sip.readStr_congr Sip.refEsc2_eq Sip.refEsc_bad Sip.refEsc_decodes Sip.refParse_exact Sip.removeVisualSeparators_spec Sip.setHeaders_spec Sip.sipToken_empty Sip.strlen2_exact Sip.strlen2_strlen Sip.sws_not_maximal Sip.twoPass_bad
