#!/usr/bin/env python3
"""Writes properties.jsonl (kept as a script only because long JSON lines are hard to edit)."""
import json, os
P = []
def p(id, title, statement, quantifier, why, anchors):
    P.append(dict(id=id, title=title, statement=statement, quantifier=quantifier, why_tests_cant=why, anchors=anchors))

p("C01", "The arena never hands out memory outside itself",
  "For every history of Alloc, AllocEx, AllocWithClear, FreeAll and FreePart on a MemAllocator in which no request makes Used()+8+size reach 2^32 and no FreePart(remain) has Used() < remain < Used()+8: no call panics, Used() <= Capacity(), Used()+Left() = Capacity(), and in an arena of at most 65528 bytes every block returned lies inside the arena, after the 8 byte prefix. The two exceptions are real faults of the code: such a FreePart moves Used() forward, possibly past the capacity, exactly under that condition; and a request that wraps uint32 'succeeds' and moves Used() backwards so that live blocks overlap.",
  "every capacity, every finite sequence of allocator calls with every argument",
  "the number of histories is infinite and the failures sit at argument values near Used() and near 2^32",
  ["AbnfMem.go: MemAllocator.Alloc, AllocEx, AllocWithClear, FreeAll, FreePart, Used, Left, Capacity"])
p("C02", "Live blocks never overlap and are never disturbed",
  "Two blocks obtained from the arena with no free in between occupy disjoint byte ranges; an allocation changes no byte below the previous Used() mark; AllocWithClear returns a zeroed block and changes no byte outside it.",
  "every history of allocations, every pair of blocks, every byte",
  "aliasing shows only for particular sequences and sizes",
  ["AbnfMem.go: Alloc, AllocEx, AllocWithClear", "AbnfBasic.go: ZeroMem"])
p("C03", "Rolling back to a saved mark restores the mark",
  "mark := Used(); any allocations; FreePart(mark) makes Used() = mark again, leaves the bytes below the mark untouched, and a repeat of the same allocations returns the same addresses; FreeAll makes Used() = 0. FreePart(remain) makes Used() larger exactly when Used() < remain < Used()+8 (a fault: it should never).",
  "every history, every mark",
  "the off-by-8 comparison is visible only for arguments within 8 bytes above Used()",
  ["AbnfMem.go: FreePart, FreeAll, Used"])
p("C04", "Allocator statistics count exactly",
  "After any history of allocator calls (without uint32 overflow, arena of at most 65528 bytes), AllocNum is the number of allocation calls, AllocNumOk the number that returned a block, FreeAllNum/FreePartNum the number of frees, AllocReqBytes the sum of the sizes asked for, each mod 2^32. The parse-and-allocate functions, however, overwrite AllocReqBytes instead of adding to it (a fault).",
  "every history of fewer than 2^32 calls",
  "counters are only wrong after particular histories",
  ["AbnfMem.go: MemAllocatorStat, Alloc*, FreeAll, FreePart, ParseAndAllocCString"])
p("C05", "Tagged values and addresses cannot be confused",
  "AbnfPtrSetValue(v).GetValue() = v for v < 2^15 and is not an address; an address returned by an arena of at most 32768 bytes is never nil, is never read as a value and is the offset of the block. In larger arenas this is false: an address of 32768 or more is read as a value, and beyond 64 KiB a successful allocation can return nil.",
  "every 16 bit value, every arena size, every address",
  "needs an arena filled past 32 KiB with a particular structure straddling the boundary",
  ["AbnfPtr.go: IsAbnfPtr, GetValue, AbnfPtrSetValue", "AbnfMem.go: Alloc"])
p("C06", "A stored string reads back unchanged",
  "In an arena of less than 64 KiB, a byte string copied into the arena by AllocCString or by any of the parse-and-allocate functions reads back byte for byte through its pointer (length and contents), takes exactly length+2 bytes, and still does after every later allocation or store that is not preceded by a free below it. A failed store leaves Used() unchanged.",
  "every byte string shorter than 2^16, every arena state, every later sequence of allocations and stores",
  "unbounded strings and histories",
  ["AbnfBasic.go: AllocCString", "AbnfMem.go: ParseAndAllocCString*", "AbnfPtr.go: Strlen, GetCStringAsByteSlice, WriteCString"])
p("C07", "Token scanning takes exactly the longest run",
  "ParseAndAllocCString(charset), when the run fits in the arena: it succeeds iff at least one byte of the set is at the parse position; it stores exactly the maximal run of set bytes and leaves the position just after it; otherwise it records an error and does not move. The FromPos and EnableEmpty variants do the same with their documented differences. It reports 'no mem' when fewer than 3 bytes are free or the string would end exactly at the end of the arena, and panics exactly when the run is longer than the free memory (a fault).",
  "every input, position, character set and arena",
  "unbounded input length",
  ["AbnfMem.go: ParseAndAllocCString, ParseAndAllocCStringFromPos, ParseAndAllocCStringEnableEmpty", "AbnfRef.go: AbnfRef.Parse"])
p("C08", "Percent escaping is lossless",
  "Writing any byte string with WriteCStringEscape and parsing it back with the Escapable parser of the same character set yields the original bytes, for every set that does not contain '%'; parsing is total: it decodes each %HH once and rejects truncated or non-hex escapes at the position of the '%'.",
  "every byte string, every character set, every input",
  "unbounded strings, all 256 byte values and all sets",
  ["AbnfPtr.go: WriteCStringEscape", "AbnfMem.go: ParseAndAllocCStringEscapable, ParseAndAllocCStringEscapableEnableEmpty"])
p("C09", "Escaped output contains only allowed bytes",
  "Every byte written by WriteCStringEscape is either in the given character set, '%' or an upper case hex digit; bytes of the set are written unchanged; output length is the length plus two per escaped byte.",
  "every byte string and set", "unbounded strings", ["AbnfPtr.go: WriteCStringEscape"])
p("C10", "Decimal numbers are read as written",
  "ParseUInt reads exactly the maximal run of digits and returns its decimal value mod 2^64 (ParseUInt32/16/8: mod their width); it fails, without moving, exactly when there is no digit; EncodeUInt writes the decimal digits without leading zeros and parsing them returns the number; leading zeros do not change the value; width variants are right aligned and space padded. The reduction of numbers that do not fit, instead of an error, is a fault.",
  "every digit string and every number", "unbounded digit strings; wrap-around values are rare",
  ["AbnfBasic.go: ParseUInt, ParseUInt32, ParseUInt16, ParseUInt8, EncodeUInt, EncodeUIntWithWidth, EncodeUInt32"])
p("C11", "Character classes equal the RFC sets",
  "The character class functions hold for exactly the bytes the RFC 3261 / 2396 / 2806 grammar lists, for all 256 bytes - except for five classes whose exact sets are stated: word and separators lack '/', separators and reason-phrase have VT instead of HTAB, qdtext lacks 80-BF, the hex phone digits lack '*' and '#'.",
  "all 256 bytes of every class", "a table error is one bit in 16 KiB of constants; the complete table is checked here",
  ["AbnfCharset.go: g_charsets, Is* predicates"])
p("C12", "White space folding grammar",
  "ParseSWS consumes nothing or one LWS of the RFC grammar (SP/HTAB runs with at most one line end that is followed by SP/HTAB), the longest one, never moves backwards and never passes the end - except that when only SP/HTAB stand between the position and a line end that is no fold, it consumes nothing, not even those.",
  "every input and position", "unbounded inputs, boundary at the last two bytes",
  ["AbnfBasic.go: ParseSWS, ParseSWS_2, ParseLWS, ParseLWS_2, ParseSWSMark, ParseSWSMarkCanOmmit, ParseHcolon, ParseCRLF"])
p("C13", "Separators tolerate white space symmetrically",
  "ParseSWSMark(c) accepts SWS c SWS and nothing else and leaves the position after the trailing white space; ParseSWSMarkCanOmmit reports whether the mark was there and, when it was not, leaves the position behind the white space it looked over (white space is consumed; at the end of the input it fails); ParseHcolon accepts *(SP/HTAB) ':' SWS.",
  "every input, position and mark", "unbounded inputs",
  ["AbnfBasic.go: ParseSWSMark, ParseSWSMarkCanOmmit, ParseHcolon, ParseLeftAngleQuote, ParseRightAngleQuote"])
p("C14", "Case-insensitive comparison is ASCII case folding",
  "CStringEqualNoCase(s, name) is true iff both have the same length and are equal after mapping A-Z to a-z; hence reflexive, symmetric, transitive; the two-phase fast path never changes the answer.",
  "every pair of byte strings", "the fast path switches at every possible mismatch offset",
  ["AbnfPtr.go: CStringEqualNoCase, HasPrefixNoCase"])
p("C15", "Method recognition is exact",
  "GetSipMethodIndex, when it returns, returns the index of a known method iff the token at the position (up to the next non-token byte or the end) is exactly that method name, and has only passed token characters; a known method followed by more token characters is unknown. It panics (a fault) exactly when the rest of the input is 'P', 'IN' or 'RE'.",
  "every input and position", "prefix/extension interactions over all tokens",
  ["SipMethodIndex.go: GetSipMethodIndex", "SipMethod.go: SipMethod.Parse, Encode"])
p("C16", "Header name recognition is exact and case-insensitive",
  "GetSipHeaderIndex: every full or compact name of the library's table, in any letter case and in front of a non-token byte or the end, is recognised as its header; what is recognised - for every input - is a name of the table followed by the end of the token, up to letter case and up to a CR in the place of a '-' (a fault); the header types the library parses have distinct numbers that are those of their RFC names. Exceptions of the table, each stated: Accept, Accept-Encoding and Accept-Language are spelt 'Accpet', P-Charging-Function-Addresses and the compact forms d, y, n are missing; the lookup panics at the end of the input inside some names.",
  "every input and position", "over 100 names sharing prefixes, all case variants, all followers",
  ["SipHeadersIndex.go: GetSipHeaderIndex"])
p("C17", "Host and port round-trip",
  "Encoding then parsing an IPv4 address, host name or IPv6 reference with or without port gives the same value, whatever follows that cannot continue it; dotted quads and nothing else are read as IPv4 addresses; the parsed port is the number in the text mod 2^64 if that is at most 65535, and otherwise the parse fails with an error. (So a port text of 2^64 or more can be accepted: a fault.)",
  "every address, host name and port", "2^32 addresses x 2^16 ports, unbounded names",
  ["SipHostPort.go: SipHostPort.Parse, Encode, WriteIp, WritePort"])
p("C18", "SIP URI round-trip",
  "For every well formed sip/sips URI value (user, password, host, port, parameters, headers) encoding and parsing gives the same components (known parameter names in the spelling of the library), and whatever Parse accepts is written as a text that parses to the same URI and is written the same again - provided every header in it has a value: 'h=' at the very end of the input is read as a header without value and then written as a text that is not accepted (a fault).",
  "every URI value of any size, every input, every parse option with escaping on", "unbounded components, every byte value in escaped parts",
  ["SipUri.go: SipUri.Parse, Encode", "UriParam.go", "UriHeader.go"])
p("C19", "Parameters keep order, names and values",
  "Parsing *(SEMI generic-param), with white space or folds around ';' and '=', yields the parameters in order with token, quoted-string, host or no value; encoding gives them back in order; what is accepted is written as a text that is read as the same parameters - unless a quoted string has a folded line in it (stored as CR CR, a fault). White space behind the last parameter at the end of the input is an error (a fault).",
  "every parameter list", "unbounded lists", ["SipGenericParam.go", "UriParam.go"])
p("C20", "name-addr / addr-spec round-trip",
  "Display name (token sequence or quoted string), angle brackets and URI (sip, sips, tel) of From/To/Contact/Route values survive encode and parse, and what is accepted is written as a text that is read as the same address (brackets are added unless the option is off, known parameter names get the library's spelling, the context of a global tel number is lost) - except for folded lines in a quoted display name and an '@' in the header parameters behind a URI without brackets (taken for the end of the user part); EncodeAddrSpec writes nothing for a tel URI (faults).",
  "every address value", "unbounded components", ["SipAddr.go"])
p("C21", "Numeric headers round-trip",
  "CSeq, RAck, RSeq, Expires, Max-Forwards, Content-Length: encode then parse gives the same numbers and method for every representable value, and a digit string is read as its decimal value mod the size of the field. (Numbers that do not fit are silently reduced: a fault. The value text of Content-Length is padded and readable only behind the colon.)",
  "every 8/32 bit value and every method", "2^32 values x unbounded method names",
  ["SipHeaderCSeq.go", "SipHeaderRAck.go", "SipHeaderRSeq.go", "SipHeaderExpires.go", "SipHeaderMaxForwards.go", "SipHeaderContentLength.go"])
p("C36", "Address and content headers round-trip",
  "For To, From, Contact (including *), Route, Record-Route, Path, Service-Route, P-Asserted-Identity, Content-Type and Content-Disposition: Encode writes a text that ParseValue / Parse reads back as the same address, display name, URI, media type and parameters, consuming exactly that text, whatever follows (end of input, end of line, comma); and what a parser accepts is written as a text that is read as the same value. Exceptions: a Contact whose display name begins with '*', an address without brackets followed by '@' in its parameters, folded quoted strings (faults).",
  "every value of the header types, every spelling of the name, every parse option", "values, parameter lists and names are unbounded", ["SipHeaderTo.go, SipHeaderFrom.go, SipHeaderContact.go, SipHeaderRoute.go, SipHeaderRecordRoute.go, SipHeaderPath.go, SipHeaderServiceRoute.go, SipHeaderPAssertedIdentity.go, SipHeaderContentType.go, SipHeaderContentDisposition.go: Parse, ParseValue, Encode, EncodeValue"])
p("C37", "A header parser accepts exactly the names of its header",
  "The Parse function of each header type, for every input, takes for its name exactly: the full name or the compact form of that header in any letter case in front of ':' or white space - and, as faults, the name with a CR for a '-' in three headers, and 'l' for Content-Type and Content-Disposition; it moves the position behind the name, and otherwise changes nothing.",
  "every input", "unbounded inputs, 2^n spellings", ["SipHeader*.go: ParseWithoutInit, parseHeaderName"])
p("C22", "Call-ID round-trip",
  "Call-ID = word [@ word], with the library's word characters (the RFC's without '/'): encode then parse gives the same pair and consumes exactly the text. A '/' cuts the value (a fault).",
  "every pair of words", "unbounded words", ["SipHeaderCallID.go"])
p("C23", "Via round-trip",
  "Via values (protocol, version, transport, sent-by, parameters) survive encode and parse, alone and in lists in their order. A version that continues '2.0' with other token characters is not accepted, or accepted and then not readable after encoding (a fault).",
  "every Via value", "unbounded components", ["SipHeaderVia.go"])
p("C24", "Start line round-trip",
  "Request and status lines survive encode and parse, whatever follows the line end, and what is accepted is written as a line that is read as the same value; a line is read as a status line iff it starts with SIP/ in any letter case with at least three more bytes. Exceptions: a status code is reduced mod 65536, and a tel URI in a request line is read and then lost on encoding (faults).",
  "every method, URI, version, status code, reason, every input", "unbounded components", ["SipStartLine.go", "SipVersion.go", "SipMethod.go"])
p("C25", "Raw headers keep every header once and in order",
  "In raw mode every header line - names in any letter case and in the compact form, white space around the colon, folded values - is found once, in order, with its value bytes unchanged; re-encoding the list writes every header exactly once and in order, and parsing that gives the same list. Exceptions: an empty value is stored as a CR, a value of white space grows by a space with every round, and a known header without registered info is written without its name (faults).",
  "every header list", "unbounded lists and values",
  ["SipHeaders.go: ParseRawHeaders, EncodeRawHeaders, FindCrlfByRFC3261"])
p("C26", "A header value ends at the first CRLF that is not a fold",
  "FindCrlfByRFC3261, for every input: if there is no LF that is not followed by SP/HTAB it fails, at the end of the input; otherwise the position is moved just behind the first such LF and the value returned is the position of the CR before it - of the LF itself if no CR stands there or nothing stands before that CR (which is how empty values become a CR, a fault).",
  "every input", "unbounded inputs with folds at any place",
  ["SipHeaders.go: FindCrlfByRFC3261"])
p("C27", "Content-Length written equals body length",
  "Encode writes one Content-Length line in front of the empty line. With a body of s bytes and an earlier Content-Length of n the number written is n with its last (number of digits of s) digits replaced by s; so it is s exactly if n has no more digits than s (otherwise a fault). Without a body the earlier Content-Length is kept, whatever it is, or 0 written.",
  "every body and every previous Content-Length", "depends on digit counts of two unrelated numbers",
  ["SipMsg.go: SipMsg.Encode", "SipHeaderContentLength.go: EncodeValue"])
p("C28", "Parsing never moves backwards and never leaves the input",
  "Every parser, on every input, leaves the position between its start and the end of the input; the single-line parsers do not pass the line end.",
  "every input, every parser", "unbounded inputs",
  ["all Parse functions"])
p("C29", "Parsing never panics",
  "No parser panics, provided the rest of the input has a line end (for messages: an end of the headers, and an end of a multipart body), every '[' of the headers (of the whole input, when the body has parts) is closed on its line or not at all, no phone-context parameter of the line (of the headers, or of the whole input when the body has parts) lacks a value, and the arena has 10 bytes for every byte of input and 66 (headers: 70) more; if moreover no quoted string loops (C30), the parser returns. Without each of these provisos a panic is possible (faults, each with a witness). With room in the arena the parser of quoted strings panics exactly when nothing but white space is left of the input, the version parser exactly when all that is left is SIP/ and three or more digits; and the tel URI parser panics on every well formed tel URI with a further phone-context parameter (in any case) without value behind it. A message that is cut inside a header name - a start line, headers, and at the end of the input one of the listed beginnings of names, in any case - always makes the message parser panic.",
  "every input", "panics sit at end-of-input positions of particular grammar states",
  ["all Parse functions"])
p("C30", "Parsing always terminates",
  "Only a quoted string can make a parser loop: every parser terminates unless somewhere in the rest of the input a double quote starts a quoted string whose text (quoted text, white space, folds, quoted pairs) is followed by a bare LF or by a CR without LF; in particular every message without a double quote, and every one in which each CR and LF is part of a CRLF or fold and no backslash stands in front of one, is parsed to an end. For a message whose body has no parts only the quoted strings up to the end of the headers count (when no '[' there is closed behind the end of its line). At such a place the parser of quoted strings does loop for ever, and so does the message parser on every message of a start line, any headers and a parsed header with such a quoted string as its display name, or as the value of a parameter behind any value (address in brackets, Via, Content-Type, Content-Disposition) that can be written: a fault.",
  "every input", "non-termination cannot be observed by a test", ["AbnfMem.go: ParseAndAllocSipQuotedString, ParseAndCopyLWS", "all loops"])
p("C31", "Failures are reported",
  "When the parser of a message, start line, header, header value, method, version, host or SIP URI returns false, an error has been recorded; the parsers of addresses and telephone URIs called by themselves can fail silently (faults). Memory obtained before stays intact (C06).",
  "every input, every arena, every setting", "every failing path", ["AbnfError.go", "AbnfContext.go"])
p("C32", "Substring and header search",
  "ByteSliceIndexNoCase returns the first offset of a case-insensitive match that does not end at the end of the text, or reports none exactly if there is no such match (a match at the very end is missed: a fault). FindSipHeader2 finds the first line that begins with one of the two names (any letter case), white space and a colon, or reports none. FindSipHeader1 copies the lines that begin with the name or its compact form, in order, except those directly behind a copied one; it does not follow folds; both panic only on stated texts at the end of the input (faults).",
  "every text and pattern", "unbounded", ["SipMsg.go: ByteSliceIndexNoCase, FindSipHeader1, FindSipHeader2"])
p("C33", "Quoted strings survive",
  "A quoted-string made of qdtext and quoted-pairs is stored verbatim, takes length+2 bytes and is encoded back between double quotes; a folded line inside it is stored as CR CR, and a bare CR or LF, or a backslash in front of a line end, makes the parser loop forever; when nothing but white space is left of the input it panics (faults).",
  "every quoted string", "unbounded", ["AbnfMem.go: ParseAndAllocSipQuotedString", "SipQuotedString.go"])
p("C34", "Telephone URI normalisation",
  "Parsing a tel number removes exactly the visual separators, keeps '+' and the digits in order and is idempotent; a tel URI in normal form survives encode and parse, and what is accepted is written as a text that is read as the same URI, except for the context of a global number, which is lost; phone-context without value panics; byte 1A is accepted for ':' (faults).",
  "every number string", "unbounded", ["TelUri.go", "AbnfMem.go: ParseAndAllocTelNumberRemoveVisualSeperator", "AbnfPtr.go: RemoveTelUriVisualSeperator"])
p("C35", "SIP version text",
  "SIP-Version encode then parse gives the same major and minor number, whatever follows other than a digit. A version text that ends the input can panic (a fault).",
  "every version", "unbounded digits", ["SipVersion.go"])
p("C38", "Messages round-trip",
  "A start line, header lines (any spelling of the names, several values in a line, folded raw values), an empty line and a body are read as a message with that start line, those headers - every value of the list headers in order, the last value of the others, every unparsed header as text - and that body or those body parts. A well formed message whose Content-Length is repairable (C27) is written as a text that is read back as the same message, with the Content-Length of the body that is written; and a message that was read from an input without stray CR or LF and has none of the listed faults is so too. Faults, each with a witness: a multipart body of one part is written as a text that is not accepted, the Content-Type of body parts is dropped, a body without Content-Type is ignored, a close-delimiter is recognised by one '-', trailing folds make a header unreadable, a Content-Length that is switched off in the header table is written twice, and parts are lost when memory runs out.",
  "every message, every header list, every body, every parse option with escaping on", "unbounded messages; the faults need particular combinations of headers and bodies",
  ["SipMsg.go: SipMsg.Parse, Encode, SetHeaders, EncodeHeaders, ParseMsgBody, ParseSingleBody, ParseMultiBody, FindOrCreateBoundary", "SipHeaders.go: ParseHeaders"])
p("C39", "RemoveContentHeaders",
  "RemoveContentHeaders leaves all headers if there is no content header; otherwise it leaves the headers behind the last content header and, of those in front of it, only the first that is no content header. So it removes the content headers and nothing else exactly if at most one other header stands in front of the last content header (otherwise a fault: headers are lost).",
  "every list of raw headers", "unbounded lists; loss needs two other headers before a content header", ["SipMsg.go: RemoveContentHeaders"])
p("C40", "Looking up headers, and which are parsed",
  "FindKnownRawHeaderByIndex and FindUnknownRawHeaderByName return the first raw header with that number, or with that name ignoring case, and nothing exactly if there is none; GetHeaderByIndex returns the first parsed value of that header, otherwise the first raw header with that number, otherwise nothing. RemoveContentHeaders counts as content headers exactly those whose name begins with 'Content-' in any letter case except Content-Type, Content-Length and Content-Disposition. In an accepted message, with ParseSipHeaderAsRaw exactly Content-Type, Content-Length and Content-Disposition are parsed, and otherwise exactly the supported headers whose entry in the header table does not switch them off; a header that is switched off has no parsed value, one that is parsed is never kept as text.",
  "every message, every header list, every name and number, every setting", "unbounded lists of headers", ["SipHeaders.go: FindKnownRawHeaderByIndex, FindUnknownRawHeaderByName, parseKnownHeader", "SipMsg.go: GetHeaderByIndex, RemoveContentHeaders, NeedParse, SetHeaders", "SipHeadersInfo.go"])
p("C41", "The size of the arena does not change the answer",
  "If the message parser, or a header parser, ends in an arena that then still has the length of the input plus 40 bytes free, then it ends in every other arena with that much room with the same result, the same position, the same errors and the same memory used; so above 10 bytes for every byte of input, and 66 (headers: 70) more, all arenas are alike. (In smaller arenas a body part may be lost silently: C38.)",
  "every input, every setting, every two arenas", "unbounded inputs; every allocation of every parser counts", ["AbnfMem.go: Alloc", "SipMsg.go: Parse", "SipHeaders.go: ParseHeaders"])
p("C42", "What is accepted follows the grammar",
  "Whatever a parser accepts - a message, header, start line, SIP or telephone URI, address - is a text of the grammar of RFC 3261, with the deviations listed, followed by input that is not read; the grammar relates the text to the value returned. So no byte in front of the final position is ignored, no element is invented, and every part of the value - names, numbers, decoded escapes, parameters in their order, bodies - is the one that stands in the text. Deviations (faults): white space may be missing in CSeq, RAck and Via; numbers are reduced; a CR is taken for a dash; a separator at the end of the input is accepted; a delimiter with one dash closes the body.",
  "every input, every arena, every setting", "the accepted texts are infinite; a test cannot show that nothing outside the grammar is accepted", ["all Parse functions"])
p("C43", "The parsers accept exactly the grammar",
  "In an arena of 10 bytes for every byte of input, and 70 more, a parser - of a message, header, start line, SIP or telephone URI, address - returns a value and stops at a position exactly if the bytes in front of that position are a text of the grammar (C42) for that value, in front of the bytes that follow. So nothing in the grammar is rejected; a parser that comes to an end rejects exactly the inputs no beginning of which is in the grammar; and an input has at most one reading.",
  "every input, every large enough arena, every setting, every value and position", "both sides range over infinitely many texts", ["all Parse functions"])
p("C44", "Memory needed for a message",
  "The message parser takes at most 9 bytes of the arena for every byte of input and 26 more (headers: 30 more; URIs, addresses and start lines: 10 to 24 more), whatever the input, the settings, the arena and the result, accepted or rejected. The factor cannot be smaller: for every n there is a message of 2n + 15 bytes that takes 18n. Every header value has its own struct. So all addresses stay below 2^15 - where an address cannot be taken for a value (C05) - for every message of at most 3638 bytes.",
  "every input, every arena, every setting", "the worst case over all inputs; a test shows the need of one input", ["AbnfMem.go: Alloc, Used", "all Parse functions", "SipHeaders.go: parseKnownHeader"])
p("C45", "Encoding a message: cost, failure, repetition",
  "Encoding any message, well formed or not, leaves the input, the position and the settings of the context alone and takes at most 87 bytes of the arena (for a missing Content-Length, Content-Type and boundary). If it returns false an error has been recorded; with 87 bytes left it returns false only for several bodies under a Content-Type whose boundary parameter has no value, and then records one error. A second call writes the same bytes, takes no memory and changes nothing.",
  "every message (parsed or built by hand), every context, every buffer", "holds for all messages and all fill levels of the arena", ["SipMsg.go: Encode, FindOrCreateBoundary", "SipHeaderContentType.go: SetBoundary", "SipMsgBody.go: Encode"])
p("C46", "What a parser leaves in the arena",
  "After a SIP or telephone URI, an address, any of the 18 known headers or a start line has been parsed into a struct in the arena (fields at their offsets, 16 bit addresses, linked lists), the encode method run on the bytes of the arena writes exactly what it writes for the parsed value, and goes on doing so whatever is allocated and written behind it later. The parser takes the same memory, stops at the same position and reports the same errors as the model with values; of the bytes below the memory mark it writes only those of the struct it was given, so nothing parsed before is damaged, accepted or not.",
  "every input, every old contents of the arena, every address of the struct, every setting, every later use of the arena", "the claim is about all memory contents and all later histories; a test sees one arena", ["SipUri.go: Parse, Encode", "TelUri.go: Parse, Encode", "SipAddr.go: Parse, Encode", "SipGenericParam.go, UriParam.go, UriHeader.go, SipHostPort.go", "AbnfPtr.go, AbnfMem.go", "AbnfSip.go: Get*", "SipHeader*.go: Parse, ParseValue, ParseSip*, Encode, EncodeValue", "SipStartLine.go: Parse, Encode", "SipMethod.go, SipVersion.go"])
p("C47", "Messages in the arena",
  "A whole message parsed into the 68 bytes of a message struct in the arena (the array of pointers to parsed headers, the chains of values of one header, the chain of unparsed headers, the chain of body parts with headers of their own) and then encoded any number of times, each time from the bytes the last run has left, gives exactly the texts, errors, positions and memory use of the model with values, including the Content-Length and Content-Type headers that Encode creates in the arena, the lengths of the parts it stores there and the end of the number it remembers between two steps. Parsing writes below the memory mark only to the struct, encoding only to bytes of its message; so messages in one arena never disturb each other.",
  "every input, every old contents of the arena, every address of the struct, every setting, every sequence of buffers, every other message in the arena", "the claim is about all memory contents and all histories of encodes; a test sees one arena", ["SipMsg.go: Parse, Encode, EncodeHeaders, FindOrCreateBoundary, SetHeaders, ParseMsgBody, ParseSingleBody, ParseMultiBody, HasMultiBody", "SipMsgBody.go: Encode, EncodeHeaders, SetHeaders", "SipHeaders.go: ParseHeaders, EncodeRawHeaders, FindKnownRawHeaderByIndex", "SipHeaderContentType.go: SetBoundary", "SipHeaderContentLength.go: EncodeValue"])
p("C48", "Scanning first, storing afterwards",
  "ParseEscapable and its two variants find, for every input, character set and start, the longest text of characters of the set and escapes, and count the escapes; they reject exactly a bad escape and report its position; the variants agree (the third panics at the end of the input). AllocCStringWithUnescapeNum then stores the decoded text in exactly its length, so the two steps together store and return the same as the one-pass parser of the library and take the same memory. Parse finds the longest run of the set. Faults: AllocCStringWithUnescape gives memory back that it never took, so that earlier texts are overwritten; the second variant loses the length; ParseAndAllocSipToken reports success without memory.",
  "every input, position, character set, contents and fill level of the arena", "unbounded inputs; the damage shows only in later allocations", ["AbnfRef.go: Parse, ParseEscapable, ParseEscapable2, ParseEscapable3, ParseSipToken", "AbnfMem.go: AllocCStringWithUnescape, AllocCStringWithUnescapeNum, AllocCStringWithUnescapeNum2, ParseAndAllocSipToken"])
p("C49", "The memory primitives do what their callers assume",
  "ZeroMem and ZeroByteSlice clear exactly the bytes they are given, for every address and size, although they work eight bytes at a time; Memcpy copies exactly, unless the target begins inside the source; CopyFrom copies within the arena, overlapping or not, and panics outside it; CStringEqualNoCase and HasPrefixNoCase compare the stored text with the argument ignoring the case of ASCII letters, whatever the lengths (two empty texts panic); Strlen2 gives the length of a stored text exactly if a zero byte follows it and none is in it. SetHostname, SetIpv4, SetIpv6 and SetPort make Encode write what was set, leave every other byte alone, and without memory return false and change nothing. Faults: SetIpv4 cuts the 16 byte form of an address to its first four bytes and shows old memory for a short one; without memory SetKnownParams writes over the beginning of the arena and loses the parameter.",
  "every memory, address, size, text and fill level of the arena", "all sizes and alignments and all old contents of the memory", ["AbnfBasic.go: ZeroMem, ZeroMem2, ZeroByteSlice, ZeroByteSlice2, Memcpy", "AbnfPtr.go: CopyFrom, Strlen2, CStringEqualNoCase, HasPrefixNoCase", "SipHostPort.go: SetPort, SetIpv4, SetIpv6, SetHostname", "SipUri.go: SetKnownParams"])
p("C50", "The error list tells whether and where a text was rejected",
  "Parsing a message, a header, a start line or a SIP URI in a fresh context leaves the list of errors empty exactly when the text was accepted: a rejected text has an error, an accepted one has none, also when memory runs out on the way. A telephone URI or an address that is accepted leaves no error either. Earlier errors stay in the list, and every new error lies between the position at which the parser was started and the end of the input; the newest error of a rejected message is where the parser stopped. Writing an error never panics, whatever its position, and quotes the input at that position, at most 40 bytes; the list is written completely, newest first, numbered from 1. Faults: the parser of a list of header values can succeed and leave an error (white space up to the end of the input behind the line end); the text for an error without description is never written.",
  "every input, every size of the arena, every setting, every earlier list of errors", "all inputs and all points at which the memory may run out", ["AbnfContext.go: AddError", "AbnfError.go: AbnfError.Write, AbnfErrors.Write, Add, Len", "SipMsg.go: Parse", "SipAddr.go: ParseWithoutInit, ParseScheme", "SipHeaders.go: ParseHeaders, parseKnownHeader", "AbnfBasic.go: ParseSWSMarkCanOmmit"])
p("C51", "What follows a line has no influence on how it is parsed",
  "Two inputs that agree up to the end of a line and differ behind it, both without starting the next line with white space: parsing a SIP URI, a tel URI, a host, an address, a header (each of the 18 types and headers kept as text), a header line or a start line from any position before the line end gives the same outcome for both: the same value or rejection, the same position, the same memory use, the same errors, and a panic or an endless loop for both or for none. Therefore nothing behind the empty line has an influence on the start line and the headers of a message: two accepted messages that differ only in the body have equal start lines and headers, and a message without Content-Type is the same whatever follows. Condition and fault: an opening bracket that is not closed before the line end makes the library look for the closing one in the rest of the input, so that a parameter of a header can swallow the empty line and the body.",
  "every text before the line end (also of several lines), every pair of continuations, every position, every state of the context and setting", "pairs of unbounded inputs that agree on a prefix; a test compares a few", ["SipMsg.go: Parse", "SipHeaders.go: ParseHeaders, parseKnownHeader, parseUnknownHeader, FindCrlfByRFC3261", "SipStartLine.go: ParseWithoutInit", "SipUri.go: Parse", "SipAddr.go: Parse", "SipGenericParam.go: Parse", "AbnfBasic.go: ParseSWS, ParseLWS, IsOnlyCRLF, ParseCRLF", "SipHostPort.go: Parse"])
p("C52", "Only the text ahead, the free memory and the settings count",
  "Two contexts with the same text ahead of the position, the same number of free bytes in the arena and the same settings: parsing a SIP URI, a tel URI, a host, an address, a header, a header line, the headers of a message, a start line, a multipart body or a message, and scanning over a message, has the same outcome in both. Either both panic, or both loop, or both return with the same value (or both reject), both positions have moved by the same distance, the same number of bytes of the arena has been taken, and the new errors are at the same distances. What was read before, how much memory is in use and which errors were recorded has no influence. Therefore a message in the middle of a buffer is parsed as if it stood alone, and a context that is used for one message after the other works like a new one with the memory that is left. The text written for a message depends in the same way on the free memory and the settings only.",
  "every two contexts that agree ahead, whatever stands before, is in use or was recorded; every setting; every parse method", "pairs of unbounded histories; a test always starts with a new context", ["SipMsg.go: Parse, Encode, ParseMultiBody, SipMsgRawScan", "SipHeaders.go: ParseHeaders, ParseRawHeaders, FindCrlfByRFC3261", "SipStartLine.go: ParseWithoutInit", "SipUri.go: Parse", "SipAddr.go: Parse", "AbnfContext.go: Context", "AbnfMem.go: Alloc"])
p("C53", "Encode appends",
  "What Encode writes for a message does not depend on what the buffer already holds: the buffer afterwards is the old text followed by the text that Encode writes into an empty buffer, the old text is kept byte for byte, the message and the context afterwards are the same, and an error is the same error. In particular the number of bytes of the body is copied to the right place behind any text. Two messages that are encoded into one buffer are there one after the other.",
  "every message, built by hand or parsed, every text in the buffer, every context, texts of less than 10^16 bytes", "the place of the Content-Length is an offset into the whole buffer; tests encode into an empty buffer", ["SipMsg.go: Encode", "SipHeaders.go: Encode", "SipMsgBody.go: Encode, EncodeHeaders", "SipHeaderContentLength.go: EncodeValue"])
p("C54", "What the arena held before has no influence",
  "A context works in memory that held other things before (an allocator that was reset or cut back, a struct of the caller that is used again). Two contexts with the same input, position, errors, settings, capacity and memory mark over any two contents of the arena, and structs at any addresses below the mark: parsing a SIP URI, a tel URI, a list of URI parameters, an address, a header of each of the 18 types, a header value, a start line or a message panics in both, loops in both, fails in both or succeeds in both, with the same position, errors and memory mark, and after success writing the struct gives the same text for every setting; a message that is then written into any number of buffers gives the same texts. Exception and fault: URI parameters, URI headers and generic parameters do not clear their struct; a struct used again keeps the old value when the new text has no value, and writes it.",
  "every pair of contents of the arena, every pair of addresses, every input, position, setting and fill state", "the contents of reused memory are a history; a test uses fresh memory, which is zero", ["SipMsg.go: Init, Parse, Encode", "SipUri.go: Init, Parse", "TelUri.go: Init, Parse", "SipAddr.go: Init, Parse", "SipStartLine.go: Init, Parse", "UriParam.go: Parse, ParseUriParams, EncodeUriParams", "UriHeader.go: Parse", "SipGenericParam.go: Parse", "AbnfMem.go: AllocWithClear, ZeroMem"])
p("C55", "Searching and removing headers on the bytes",
  "On the bytes of the arena that hold a message, the methods that walk its lists of headers do what they do on the message: GetHeaderByIndex, the search of a raw header by number and by name (for a name that is not empty) come to an end, find nothing exactly when the message has no such header, and otherwise give the address of the header the message has there (its Encode writes that header), parsed or raw as reported; RemoveContentHeaders comes to an end, takes no memory, writes no byte that is not the message's, and leaves bytes that hold the message without the headers it is to take out, so that a later Encode writes that message.",
  "every message the bytes can hold, every arena of at most 32768 bytes, every number and name", "the lists are pointers in reused memory; a wrong link shows only for particular orders of the headers", ["SipMsg.go: GetHeaderByIndex, RemoveContentHeaders", "SipHeaders.go: FindKnownRawHeader, FindUnknownRawHeaderByName", "AbnfPtr.go: HasPrefixNoCase, CStringEqualNoCase"])
p("C56", "Looking up a URI parameter by its name",
  "GetUriParamByName on the list that ParseUriParams has given: it comes to an end without panic and gives nil exactly when none of the parameters of the text has the name (the case of ASCII letters does not count), otherwise the first one that has it, and its Encode and EncodeValue write that parameter; at any later time, as long as the bytes the list was stored in are not written, whatever else has been parsed into the arena since. For the parameters of SIP URIs every name may be asked for, the empty one too.",
  "every input, every parameter list, every name, every arena of at most 32768 bytes and every later content of the rest of it", "several parameters of the same name in different case, a name that is a prefix of another, and later allocations have to be combined", ["UriParam.go: ParseUriParams, GetUriParamByName, Encode, EncodeValue", "AbnfPtr.go: CStringEqualNoCase"])
P.sort(key=lambda x: x["id"])
out = os.path.join(os.path.dirname(os.path.abspath(__file__)), "..", "properties.jsonl")
with open(out, "w") as f:
    for x in P: f.write(json.dumps(x) + "\n")
print(len(P))
