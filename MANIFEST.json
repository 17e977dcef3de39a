{
 "claims": [
  {
   "property": "C01",
   "status": "proved",
   "theorems": [
    "Verif.C01_map",
    "Verif.C01_other_keys"
   ],
   "note": "for memories in which no list is shared between entries (every memory reachable by the methods from new dictionaries, Later.keeps); MultiValueDict(mapping) sharing the caller's lists is outside"
  },
  {
   "property": "C02",
   "status": "proved",
   "theorems": [
    "Verif.C02_getlist",
    "Verif.C02_copy"
   ],
   "note": "getlist of an absent key returns the caller's own default object, as the code does"
  },
  {
   "property": "C03",
   "status": "proved",
   "theorems": [
    "Verif.C03_update_mvd",
    "Verif.C03_update_dict",
    "Verif.C03_keeps"
   ],
   "note": ""
  },
  {
   "property": "C04",
   "status": "partial",
   "theorems": [
    "Verif.C04_partial",
    "Verif.C04_refuted",
    "Verif.C04_pop_refuted",
    "Verif.C04_removed_refuted"
   ],
   "note": "false of the code: pop, popitem and clear are not guarded, for any immutable dictionary (C04_removed_refuted); proved for all other mutating methods"
  },
  {
   "property": "C05",
   "status": "proved",
   "theorems": [
    "Verif.C05_immutable"
   ],
   "note": ""
  },
  {
   "property": "C06",
   "status": "partial",
   "theorems": [
    "Verif.C06_refuted",
    "Verif.C06_always_raises"
   ],
   "note": "false of the code: copy always raises AttributeError; no positive part exists"
  },
  {
   "property": "C07",
   "status": "proved",
   "theorems": [
    "Verif.C07_read_exact",
    "Verif.C07_read_any_state",
    "Verif.C07_read_negative"
   ],
   "note": "All call sequences; the only exception is the anti-loop guard of unget."
  },
  {
   "property": "C08",
   "status": "proved",
   "theorems": [
    "Verif.C08_tell"
   ],
   "note": ""
  },
  {
   "property": "C09",
   "status": "proved",
   "theorems": [
    "Verif.C09_unget_undoes_read",
    "Verif.C09_unget_undoes_read_ok"
   ],
   "note": "The guard may refuse the push; with fewer than 39 earlier pushes it never does."
  },
  {
   "property": "C10",
   "status": "proved",
   "theorems": [
    "Verif.C10_reading_never_raises",
    "Verif.C10_stuck_raises"
   ],
   "note": ""
  },
  {
   "property": "C100",
   "status": "partial",
   "theorems": [
    "Verif.C100_gated_partial",
    "Verif.C100_all_partial",
    "Verif.C100_request_partial",
    "Verif.C100_refuted"
   ],
   "note": "False of the code for MemoryFileUploadHandler and TemporaryFileUploadHandler: the last complete file is closed. Proved in full for ConvenientFileUploadHandler behind any handler that refuses files in new_file; C100_all_partial: with any of the built-in handlers all but the readability of the files, also for whole requests (C100_request_partial)."
  },
  {
   "property": "C101",
   "status": "partial",
   "theorems": [
    "Verif.C100_gated_partial",
    "Verif.C100_all_partial",
    "Verif.C100_request_partial",
    "Verif.C101_refuted",
    "Verif.C101_last_refuted",
    "Verif.C101_request_refuted"
   ],
   "note": "As C100; C101_last_refuted: without a ConvenientFileUploadHandler every stopped upload loses the content of its last complete file, whatever the body; for whole requests C101_request_refuted."
  },
  {
   "property": "C102",
   "status": "partial",
   "theorems": [
    "Verif.C102_closed_partial",
    "Verif.C102_readable_partial",
    "Verif.C102_writable_partial",
    "Verif.C102_seekable_partial",
    "Verif.C102_inner",
    "Verif.C102_made",
    "Verif.C102_refuted"
   ],
   "note": "The partial theorems treat the chains in which every inner File has a positive size, C102_inner says what happens in all others (size 0: counts as closed; negative: ValueError; no number: TypeError). False of the code for an empty wrapped file, for wb (called readable), ab and r+b (called not writable) and pipes (called seekable)."
  },
  {
   "property": "C103",
   "status": "partial",
   "theorems": [
    "Verif.C103_close_partial",
    "Verif.C103_refuted"
   ],
   "note": "False of the code: __exit__ neither removes the file nor sets close_called; a removal that failed is not tried again."
  },
  {
   "property": "C104",
   "status": "partial",
   "theorems": [
    "Verif.C104_repr_partial",
    "Verif.C104_refuted",
    "Verif.C104_size_refuted"
   ],
   "note": "False of the code for File: TypeError if its size is the method of the class, and if a size was assigned, the name is shown for positive sizes only, 0 gives None and a negative one ValueError (C104_size_refuted); true for the uploaded files."
  },
  {
   "property": "C105",
   "status": "proved",
   "theorems": [
    "Verif.C105_from_dict"
   ],
   "note": ""
  },
  {
   "property": "C106",
   "status": "partial",
   "theorems": [
    "Verif.C106_ascii_partial",
    "Verif.C106_same_partial",
    "Verif.C106_exceptions_partial",
    "Verif.C106_refuted",
    "Verif.C106_notation_partial",
    "Verif.C106_written_partial"
   ],
   "note": "False of the code for every body with a byte outside ASCII (C106_refuted); true for ASCII bodies; nothing else than UnicodeDecodeError can differ."
  },
  {
   "property": "C107",
   "status": "partial",
   "theorems": [
    "Verif.C107_exact_partial",
    "Verif.C107_refused_partial",
    "Verif.C107_written_partial",
    "Verif.C107_refuted",
    "Verif.C107_truncated_refuted",
    "Verif.C107_request_refuted"
   ],
   "note": "False of the code for fields sent in base64 (counted before decoding; TypeError when the encoded value is cut), for every request whose form is within the limit only once it is decoded (C107_request_refuted); exact for all other forms. C107_written_partial: which written forms are let through, with or without base64."
  },
  {
   "property": "C108",
   "status": "partial",
   "theorems": [
    "Verif.C108_exceptions_partial",
    "Verif.C108_builtin_partial",
    "Verif.C108_python_partial",
    "Verif.C108_refuted"
   ],
   "note": "False of the code: seven exceptions of Python get through (C108_refuted); the list of them is proved complete, also with the codecs of Python, any way of reading and any file system (C108_python_partial)."
  },
  {
   "property": "C109",
   "status": "partial",
   "theorems": [
    "Verif.C109_map_partial",
    "Verif.C109_query_partial",
    "Verif.C109_converted_partial",
    "Verif.C109_refuted",
    "Verif.C109_append_refuted",
    "Verif.C109_setlist"
   ],
   "note": "False of the code: update() stores its values unconverted (C109_refuted) and appendlist() loses values under charsets that do not extend ASCII (C109_append_refuted); proved for all calls under charsets that extend ASCII, the conversion of values for all calls but update()."
  },
  {
   "property": "C11",
   "status": "proved",
   "theorems": [
    "Verif.C11_chunk_iter"
   ],
   "note": ""
  },
  {
   "property": "C110",
   "status": "partial",
   "theorems": [
    "Verif.C110_setdefault_partial",
    "Verif.C110_setlistdefault_partial",
    "Verif.C110_pop",
    "Verif.C110_popitem",
    "Verif.C110_refuted"
   ],
   "note": "False of the code for ImmutableMultiValueDict (None is returned); proved for MultiValueDict and QueryDict."
  },
  {
   "property": "C111",
   "status": "proved",
   "theorems": [
    "Verif.C111_percent",
    "Verif.C111_unquote",
    "Verif.C111_pairs",
    "Verif.C111_utf8",
    "Verif.C111_latin1"
   ],
   "note": "For every charset given by the bytes of each character; for QueryDict under UTF-8 and ISO-8859-1."
  },
  {
   "property": "C112",
   "status": "proved",
   "theorems": [
    "Verif.C112_memory",
    "Verif.C112_convenient"
   ],
   "note": "The first for every body; the second for every body that has a meaning by Spec.Reads, a fresh handler, a limit >= 0 and temporary files that can be created."
  },
  {
   "property": "C113",
   "status": "partial",
   "theorems": [
    "Verif.C113_dir",
    "Verif.C113_submodule_partial",
    "Verif.C113_refuted"
   ],
   "note": "module_dir is proved. module_has_submodule passes the full dotted name to imp.find_module, which searches for it as it is, and so denies every module (C113_refuted)."
  },
  {
   "property": "C114",
   "status": "proved",
   "theorems": [
    "Verif.C114_repr",
    "Verif.C114_distinct",
    "Verif.C114_sent"
   ],
   "note": "Methods are byte strings; different methods are told apart if they have no space in them."
  },
  {
   "property": "C115",
   "status": "partial",
   "theorems": [
    "Verif.C115_healthy_partial",
    "Verif.C115_all_partial",
    "Verif.C115_refuted",
    "Verif.C146_form_fatal",
    "Verif.C146_request_form_fatal"
   ],
   "note": "False of the code: with a MemoryFileUploadHandler before a TemporaryFileUploadHandler an empty file is an AttributeError (C115_refuted; for all forms with an empty file C146_form_fatal, for whole requests C146_request_form_fatal); with the one handler of the default settings it holds. Proved when only the last handler keeps files from later ones, and for every list of handlers up to AttributeError. The operating system is assumed not to raise StopUpload, SkipFile or StopFutureHandlers (Os.Plain)."
  },
  {
   "property": "C116",
   "status": "proved",
   "theorems": [
    "Verif.C116_lifetime"
   ],
   "note": "Reading in chunks or lines runs to the end with nothing in between. Temporary files that are moved away are C94_refuted; a closed file that is opened again is C89_refuted."
  },
  {
   "property": "C117",
   "status": "partial",
   "theorems": [
    "Verif.C117_partial",
    "Verif.C117_refuted"
   ],
   "note": "False of the code: the producer left by close() is a list, not an iterator, so reading past the bytes that are left raises TypeError and loses them (C117_refuted). Proved: any number of the bytes that are left can be read, and next() gives them."
  },
  {
   "property": "C118",
   "status": "proved",
   "theorems": [
    "Verif.C118_isolated",
    "Verif.C118_requests",
    "Verif.C118_new"
   ],
   "note": "For the handlers of the package as their constructors leave them; a temporary file is a new entry of the model's list of files, so that its name is not used already is assumed. Creating a temporary file is assumed not to raise StopFutureHandlers. Requests are parsed one after another, not interleaved."
  },
  {
   "property": "C119",
   "status": "proved",
   "theorems": [
    "Verif.C119_parse",
    "Verif.C119_request",
    "Verif.C119_any_object"
   ],
   "note": "C119_any_object covers both kinds of boundary and an object that raises or ends at any point and goes on. Counts the data of the fields as bytes, before it is decoded, and the contents of the files; the names are not counted, nor are files that a handler keeps without returning them. Creating a temporary file is assumed not to raise StopFutureHandlers."
  },
  {
   "property": "C12",
   "status": "proved",
   "theorems": [
    "Verif.C12_parts_exact",
    "Verif.C12_parts_unique",
    "Verif.C12_part_exact"
   ],
   "note": ""
  },
  {
   "property": "C120",
   "status": "proved",
   "theorems": [
    "Verif.C120_parse",
    "Verif.C120_request",
    "Verif.C120_written",
    "Verif.C120_trim",
    "Verif.C120_trim_bytes",
    "Verif.C120_type"
   ],
   "note": "The content of a base64 file is the concatenation of what pieces of the part decode to (Base64Pieces; C83 for well-formed base64). A file that was moved to disk while it arrived has the announced length 0. Creating a temporary file is assumed not to raise StopFutureHandlers."
  },
  {
   "property": "C121",
   "status": "proved",
   "theorems": [
    "Verif.C121_exact",
    "Verif.C121_field"
   ],
   "note": ""
  },
  {
   "property": "C122",
   "status": "partial",
   "theorems": [
    "Verif.C122_partial",
    "Verif.C122_refuted",
    "Verif.C122_all_refuted"
   ],
   "note": "False of the code: X-Requested-With is not looked at, a header named XMLHttpRequest is (C122_refuted; C122_all_refuted for every request that has exactly one of the two)."
  },
  {
   "property": "C123",
   "status": "proved",
   "theorems": [
    "Verif.C123_new",
    "Verif.C123_stream",
    "Verif.C123_body_stream"
   ],
   "note": "With the codecs modelled in Verif/Py/Utf8.lean: UTF-8, ASCII and Latin-1 under eight names; other names Python knows count as unknown."
  },
  {
   "property": "C124",
   "status": "proved",
   "theorems": [
    "Verif.C124_never",
    "Verif.C124_body",
    "Verif.C124_same",
    "Verif.C124_raises"
   ],
   "note": "The object keeps raising once it has raised (C124_never, C124_body); the comparison (C124_same, C124_raises) holds for every object that agrees with the ending one until it raises. Streams that raise once and then go on are only covered up to the exception."
  },
  {
   "property": "C125",
   "status": "proved",
   "theorems": [
    "Verif.C125_new",
    "Verif.C125_addresses",
    "Verif.C125_answers",
    "Verif.C125_lost"
   ],
   "note": ""
  },
  {
   "property": "C126",
   "status": "proved",
   "theorems": [
    "Verif.C126_host",
    "Verif.C126_rfc1123",
    "Verif.C126_rfc850",
    "Verif.C126_asctime",
    "Verif.C126_etag",
    "Verif.C126_fields",
    "Verif.C126_entity",
    "Verif.C126_boundary"
   ],
   "note": "The expressions are read from their source text by a parser for the part of Python's syntax that they use (Verif/Py/Re.lean); a match is a relation, Python's preference among several matches is not modelled and not needed, since there is at most one or only its existence counts."
  },
  {
   "property": "C127",
   "status": "proved",
   "theorems": [
    "Verif.C127_reaches",
    "Verif.C127_noted",
    "Verif.C127_form",
    "Verif.C127_faults",
    "Verif.C127_request"
   ],
   "note": "C127_request: a MultiPartParserError raised by a handler is caught by the request, which marks the error and raises it again; if making the empty QueryDict fails, that error is raised instead."
  },
  {
   "property": "C128",
   "status": "partial",
   "theorems": [
    "Verif.C128_bounded_partial",
    "Verif.C128_request_partial",
    "Verif.C128_leaves_file",
    "Verif.C128_refused_leaves_file",
    "Verif.C128_close_leaves_file",
    "Verif.C128_failed_refuted",
    "Verif.C128_request_refuted"
   ],
   "note": "False of the code: whenever parsing fails all files stay open, also after the request is closed (C128_failed_refuted, C128_request_refuted; C128_leaves_file, C128_refused_leaves_file, C128_close_leaves_file). The bound on the bytes is proved, for both kinds of boundary, whatever the object does that the body comes from, and for whole requests (C128_bounded_partial, C128_request_partial)."
  },
  {
   "property": "C129",
   "status": "partial",
   "theorems": [
    "Verif.C129_encoding_partial",
    "Verif.converts_iff",
    "Verif.C129_converts_partial",
    "Verif.C129_no_difference",
    "Verif.C129_argument_ignored",
    "Verif.C129_argument_refuted",
    "Verif.C129_fromkeys_refuted",
    "Verif.C129_bytes_refuted"
   ],
   "note": "False of the code: the argument is ignored, fromkeys always raises AttributeError, native strings outside ASCII are refused, and known encodings make no difference to what is stored (C129_no_difference). What encoding is after any events is proved (C129_encoding_partial); converts_iff says that the model asks for the encoding exactly in the calls whose outcome depends on the conversions."
  },
  {
   "property": "C13",
   "status": "proved",
   "theorems": [
    "Verif.C13_guard_never_trips"
   ],
   "note": ""
  },
  {
   "property": "C130",
   "status": "partial",
   "theorems": [
    "Verif.C130_sealed_partial",
    "Verif.queryConv_plain",
    "Verif.C130_lists_refuted",
    "Verif.C130_made_refuted",
    "Verif.C130_contents",
    "Verif.C130_fresh"
   ],
   "note": "False of the code: lists() hands out the lists themselves (C130_lists_refuted), and MultiValueDict(d) shares the lists of d (C130_made_refuted). Proved for all other methods, in any order (C130_sealed_partial); attributes such as _mutable are not assigned. queryConv_plain says that the conversions of QueryDict meet the hypothesis."
  },
  {
   "property": "C131",
   "status": "partial",
   "theorems": [
    "Verif.C131_map_partial",
    "Verif.C131_set_refuted",
    "Verif.C131_setdefault_refuted",
    "Verif.C131_append_refuted",
    "Verif.C131_update_refuted"
   ],
   "note": "False of the code: d[k]=v wraps the value twice, setdefault returns None, appendlist always raises AttributeError and update always raises TypeError. Proved for any sequence of setlist, setlistdefault, del, pop and clear (C131_map_partial)."
  },
  {
   "property": "C132",
   "status": "partial",
   "theorems": [
    "Verif.C132_kept_partial",
    "Verif.C132_request_partial",
    "Verif.C132_lost_refuted"
   ],
   "note": "False of the code: with charset=rot13 in Content-Type the field of a form is counted but its value is lost (C132_lost_refuted), because appendlist converts a new key a second time in setlist. Proved for all charsets in which an encoded name stays as it is when encoded again, and bodies in the scope of C85 (C132_kept_partial)."
  },
  {
   "property": "C133",
   "status": "partial",
   "theorems": [
    "Verif.C133_written_partial",
    "Verif.C133_request_partial",
    "Verif.C133_refuted",
    "Verif.C133_request_refuted"
   ],
   "note": "False of the code: a name or file name in the extended notation with a character outside ASCII makes parsing raise UnicodeEncodeError, whatever follows (C133_refuted). C133_written_partial is for headers of at most 1024 bytes per part, names in ASCII, files that are not empty and whose names are kept as they are (no slash, backslash, ampersand, at most 255 bytes), the built-in handlers and a DEFAULT_CHARSET that writes ASCII as it is."
  },
  {
   "property": "C134",
   "status": "partial",
   "theorems": [
    "Verif.C134_parse_partial",
    "Verif.C134_request_partial",
    "Verif.C134_refuted",
    "Verif.C134_request_refuted"
   ],
   "note": "False of the code: only fields are counted, so a form with any number of files is accepted, under every field limit (C134_refuted) and in a whole request with default settings and handlers (C134_request_refuted). True: the number of fields is limited (C20), and each entry takes the separator and at least 24 bytes of the body, so the entries are bounded by the length of the body (C134_parse_partial for any handlers that leave the parsing to the parser, C134_request_partial for requests)."
  },
  {
   "property": "C135",
   "status": "partial",
   "theorems": [
    "Verif.C135_partial",
    "Verif.C135_wellformed",
    "Verif.C135_body_partial",
    "Verif.C135_refuted",
    "Verif.C135_attribute"
   ],
   "note": "False of the code: the setter deletes the header attributes, then the new QueryDict raises and the flags stay as they were; if header and body had been parsed, parse() returns at once and POST is still the form of the request before (C135_refuted, C135_partial). Proved: no header data is ever there afterwards; parse() raises if no header had been parsed, even for well-formed requests and settings in order again (C135_wellformed), and if only the header had been parsed and the new stream is not empty (C135_attribute: with an AttributeError). For body_stream (C135_body_partial) success is reported with POST and FILES gone if a body had been parsed; otherwise the new body is parsed as after an assignment that succeeds."
  },
  {
   "property": "C136",
   "status": "partial",
   "theorems": [
    "Verif.C136_partial",
    "Verif.C136_host_refuted",
    "Verif.C136_type_refuted",
    "Verif.C136_length_refuted"
   ],
   "note": "False of the code: the three names that are looked at are compared as they are. host: is NoHostFoundException, with content-type: a form is not parsed, with content-length: an upload is an empty form, both without an error. Proved for all other names (C136_partial: the request arrives as the same request, to which the theorems about whole requests apply, and the attributes are equal; META keeps the names as they were sent)."
  },
  {
   "property": "C137",
   "status": "partial",
   "theorems": [
    "Verif.C137_raw_partial",
    "Verif.C137_refuted",
    "Verif.C137_upload_refuted"
   ],
   "note": "False of the code for every content and every way to cut it: Transfer-Encoding is not looked at, body() has the sizes of the chunks in it (C137_refuted), and an upload, which has no Content-Length, is an empty form without an error (C137_upload_refuted). Proved: body() is the text of the bytes after the header as they are (C137_raw_partial)."
  },
  {
   "property": "C138",
   "status": "proved",
   "theorems": [
    "Verif.before_arrives",
    "Verif.C138_last"
   ],
   "note": "For every request that arrives (Spec.Arrives) and every list of well-formed headers in front of its own: it arrives with the same host, port, type, parameters and query, and the request object has the same attributes. The port is one of them; META, which has all headers, is not compared. A content type in front counts if the request has none itself, which is excluded by hypothesis."
  },
  {
   "property": "C139",
   "status": "partial",
   "theorems": [
    "Verif.C139_refuted"
   ],
   "note": "False of the code for every request without body that is accepted, and for each of the three kinds of ambiguity: the request is accepted and has the host of the last Host header. Nothing of the property is true of the code, so there is no partial theorem; the status is partial because the property itself does not hold."
  },
  {
   "property": "C14",
   "status": "proved",
   "theorems": [
    "Verif.C14_parts_bounded"
   ],
   "note": ""
  },
  {
   "property": "C140",
   "status": "partial",
   "theorems": [
    "Verif.C140_partial",
    "Verif.C140_any",
    "Verif.C140_refuted"
   ],
   "note": "False of the code: every run of ASCII bytes without colon and CR is accepted as a name (C140_any), such as 'Host ' with a space, a continued line, and nothing at all (C140_refuted). Proved: names are ASCII without colon, values ASCII without white space at the ends, and every name has a value (C140_partial)."
  },
  {
   "property": "C141",
   "status": "proved",
   "theorems": [
    "Verif.splitext_splits",
    "Verif.C141_name",
    "Verif.C141_suffix",
    "Verif.C141_temp"
   ],
   "note": "splitext is proved to split where the specification (HasExtension, Splits) says, for every name; C141_name says what a long name becomes, C141_temp that the handlers ask for no temporary file with another suffix (an operating system that refuses slashes makes no difference)."
  },
  {
   "property": "C142",
   "status": "partial",
   "theorems": [
    "Verif.C142_partial",
    "Verif.C142_refuted"
   ],
   "note": "False of the code: the handler decides by the announced Content-Length only, and nothing holds the body to it, so a client that announces one byte gets N bytes kept in memory, for every N and every limit from 1 (C142_refuted). Proved if the body is not longer than announced (C142_partial)."
  },
  {
   "property": "C143",
   "status": "partial",
   "theorems": [
    "Verif.C143_multipart",
    "Verif.C143_accepted",
    "Verif.builtinOps_ignoresLimits",
    "Verif.C143_request_partial",
    "Verif.C143_refuted",
    "Verif.C143_none_refuted",
    "Verif.C143_zero_refuted"
   ],
   "note": "Proved without exception for multipart parsing, for every stream (lawful or not), both kinds of boundary and any limits (C143_multipart: the same outcome, stream and handler state, or a refusal by the lower limits). For whole requests it is false of the code: 0 fields is no limit on a query string, but 1 is, and None as the memory limit refuses every body (C143_refuted; for all requests with a body C143_none_refuted, and for all query strings with more than k parameters C143_zero_refuted); proved for all other pairs of limits (C143_request_partial)."
  },
  {
   "property": "C144",
   "status": "partial",
   "theorems": [
    "Verif.C144_partial",
    "Verif.C144_form_refuted",
    "Verif.C144_upload_refuted",
    "Verif.C144_piece_refuted",
    "Verif.C144_gone_refuted",
    "Verif.C144_default_refuted"
   ],
   "note": "Proved: a failed parse leaves POST, FILES and the flag alone, for every stream and every exception (C144_partial). The rest is false of the code: for every urlencoded form whose fields are refused the second call succeeds with the POST of before (C144_form_refuted), every upload that is refused, for whatever reason, and fits into one piece of the chunk size (64 KiB with the handlers of the library) is accepted as an empty form by the second call (C144_piece_refuted, C144_gone_refuted, C144_default_refuted), and an upload with more fields than allowed that does not fit is accepted in part (C144_upload_refuted, one witness)."
  },
  {
   "property": "C145",
   "status": "partial",
   "theorems": [
    "Verif.C145_not_accepted_partial",
    "Verif.C145_refuted",
    "Verif.C145_request_refuted"
   ],
   "note": "False of the code: every form with a file whose base64 text ends in an incomplete group after groups of characters of the alphabet keeps the parser busy for ever (C145_refuted, for whole requests C145_request_refuted). Proved: such a file is never accepted, the parser raises TypeError or never ends (C145_not_accepted_partial)."
  },
  {
   "property": "C146",
   "status": "proved",
   "theorems": [
    "Verif.C146_left_out",
    "Verif.C146_fatal",
    "Verif.C146_form",
    "Verif.C146_form_fatal",
    "Verif.C146_request",
    "Verif.C146_request_fatal",
    "Verif.C146_request_form",
    "Verif.C146_request_form_fatal"
   ],
   "note": "C146_left_out and C146_fatal speak of every body that has a meaning by Spec.ReadsEmpty, C146_form and C146_form_fatal of forms as a client writes them; the _request theorems say the same of parse() for whole requests. An empty file with nothing after its separator is outside."
  },
  {
   "property": "C147",
   "status": "partial",
   "theorems": [
    "Verif.C147_partial",
    "Verif.C147_refuted",
    "Verif.C147_query_refuted"
   ],
   "note": "False of the code: the header counts as parsed before it is looked at, so parse() called again goes on with the body. C147_refuted: for every header refused before anything of it was taken, the second call reports success if nothing follows the first empty line or the text there is allowed and can be decoded. C147_query_refuted: with too many query parameters the second call succeeds and shows the form. Proved (C147_partial): after a header refused before anything was taken no history of calls ever shows a method, path, host, query parameter, form or file of it, and the settings stay as they are."
  },
  {
   "property": "C148",
   "status": "proved",
   "theorems": [
    "Verif.C148_repr",
    "Verif.C148_printable"
   ],
   "note": "The items are shown in the order of the model's dictionary (arbitrary in Python 2); repr of str, unicode, list and dict of Python 2.7 is part of the model (wide characters). reprVal_fuel shows that the bound on nesting in the model does not matter."
  },
  {
   "property": "C149",
   "status": "partial",
   "theorems": [
    "Verif.C149_partial",
    "Verif.C149_request_refuted",
    "Verif.C149_file_refuted",
    "Verif.C149_form_refuted"
   ],
   "note": "False of the code: every byte of the method other than a space and CR is accepted and shown as it is (C149_request_refuted, for all such requests), and so is the name of a file (C149_file_refuted; for all files of all forms as a client writes them C149_form_refuted). Proved: whatever path and query string a request has, what is shown can be printed if the method can."
  },
  {
   "property": "C15",
   "status": "proved",
   "theorems": [
    "Verif.C15_split",
    "Verif.C15_parse_header"
   ],
   "note": ""
  },
  {
   "property": "C150",
   "status": "proved",
   "theorems": [
    "Verif.C150_left_out",
    "Verif.C150_raised"
   ],
   "note": "Speaks of the loop over the lines (parse_boundary_stream); Readable is taken from the model of one line, whose meaning is treated in C15, C16, C17 and C133. Unknown charsets raise LookupError, which is no ValueError, and leave the loop."
  },
  {
   "property": "C16",
   "status": "proved",
   "theorems": [
    "Verif.C16_quoted_round_trip"
   ],
   "note": "Exact condition: a semicolon in a value follows an even number of quotes of the value, and only the last value may have an odd number of quotes."
  },
  {
   "property": "C17",
   "status": "proved",
   "theorems": [
    "Verif.C17_case_insensitive",
    "Verif.C17_values"
   ],
   "note": ""
  },
  {
   "property": "C18",
   "status": "proved",
   "theorems": [
    "Verif.C18_fields",
    "Verif.C19_files"
   ],
   "note": "every list of fields, boundary, chunk size and cutting of the input; names must fit the 1024-byte header window and the header quoting rules (FormItem.Ok); C18_fields is for any upload handlers and a form without files, C19_files gives the same for a form with files and the built-in handlers"
  },
  {
   "property": "C19",
   "status": "proved",
   "theorems": [
    "Verif.C19_files"
   ],
   "note": "every list of built-in handlers of which one takes files, in any earlier state"
  },
  {
   "property": "C20",
   "status": "proved",
   "theorems": [
    "Verif.C20_field_limit",
    "Verif.C20_limit_exact"
   ],
   "note": "The memory limit is assumed non-negative. The converse (C20_limit_exact) is for charsets in which an encoded name stays as it is when encoded again; in others fields get lost (C132)."
  },
  {
   "property": "C21",
   "status": "proved",
   "theorems": [
    "Verif.C21_memory_limit",
    "Verif.C21_no_assertion",
    "Verif.C21_reads"
   ],
   "note": "For a non-negative limit; with a negative one the assertion does fire (example beside the theorem)."
  },
  {
   "property": "C22",
   "status": "partial",
   "theorems": [
    "Verif.C22_refuted",
    "Verif.C22_terminates_partial",
    "Verif.C22_spin_partial"
   ],
   "note": "False: a base64 file whose length without white space is not a multiple of 4 loops for ever (for every such file: C145_refuted). Termination is proved for all other bodies."
  },
  {
   "property": "C23",
   "status": "proved",
   "theorems": [
    "Verif.C23_contiguous",
    "Verif.C23_log_faithful"
   ],
   "note": "Handlers are arbitrary; the log records every call."
  },
  {
   "property": "C24",
   "status": "proved",
   "theorems": [
    "Verif.C24_convenient"
   ],
   "note": "a fresh handler, temporary files can be created, a limit >= 0"
  },
  {
   "property": "C25",
   "status": "proved",
   "theorems": [
    "Verif.C25_no_truncated_file"
   ],
   "note": "For every file that ends up in FILES the handler that returned it was given the whole content of a delimited part (or what earlier handlers made of it)."
  },
  {
   "property": "C26",
   "status": "partial",
   "theorems": [
    "Verif.C26_nonempty_partial",
    "Verif.C26_empty_refuted",
    "Verif.C26_empty_crash",
    "Verif.C26_last_refuted",
    "Verif.C26_exact_partial",
    "Verif.C26_form_refuted",
    "Verif.C26_request_refuted",
    "Verif.C146_form",
    "Verif.C146_request_form"
   ],
   "note": "False as stated: empty files and a final file with nothing after its separator are dropped, in every form (C26_form_refuted, C26_request_refuted for the last file; C146_form, C146_request_form for empty files)."
  },
  {
   "property": "C27",
   "status": "partial",
   "theorems": [
    "Verif.C27_epilogue_partial",
    "Verif.C27_refuted",
    "Verif.C27_form_refuted",
    "Verif.C27_request_refuted"
   ],
   "note": "False as stated: the parser does not stop at the closing separator; for every form, the parts of another form after its closing separator are added to it (C27_form_refuted, C27_request_refuted). It ignores epilogues without empty line and separator."
  },
  {
   "property": "C28",
   "status": "partial",
   "theorems": [
    "Verif.C28_settled_partial",
    "Verif.C28_forms_partial",
    "Verif.C28_refuted"
   ],
   "note": "False for arbitrary bodies (C28_refuted: a long part that is passed over). Proved for forms as a client writes them and for every body in which no part of 1024 bytes or more is passed over, except empty files, files without a field name and broken base64 (C28_settled_partial)."
  },
  {
   "property": "C29",
   "status": "partial",
   "theorems": [
    "Verif.C29_zero",
    "Verif.C29_length",
    "Verif.C29_negative",
    "Verif.C29_positive_partial",
    "Verif.C29_reads_all",
    "Verif.C29_memory_refuted",
    "Verif.C29_lost_refuted",
    "Verif.C29_request_refuted"
   ],
   "note": "Zero/absent/unparsable and negative lengths proved. Independence of the positive value holds for handlers that ignore the length; it is refuted for MemoryFileUploadHandler (C29_memory_refuted); C29_lost_refuted: with such handlers only, no body whatever stores a file once the announced length is over the limit; for whole requests C29_request_refuted."
  },
  {
   "property": "C30",
   "status": "proved",
   "theorems": [
    "Verif.C30_override",
    "Verif.C30_each_once"
   ],
   "note": ""
  },
  {
   "property": "C31",
   "status": "proved",
   "theorems": [
    "Verif.C31_names",
    "Verif.C31_set_name",
    "Verif.C31_handlers"
   ],
   "note": "C31_names is about the built-in handlers, C31_handlers about what custom handlers are told, C31_set_name about the UploadedFile name setter."
  },
  {
   "property": "C32",
   "status": "partial",
   "theorems": [
    "Verif.C32_written_partial",
    "Verif.C32_boundary_partial",
    "Verif.C32_not_multipart",
    "Verif.C32_missing_refuted",
    "Verif.C32_base64_refuted",
    "Verif.C32_undecodable_refuted",
    "Verif.C32_request_refuted",
    "Verif.C32_number",
    "Verif.C32_length_partial",
    "Verif.C32_charset_refuted",
    "Verif.C32_lookup_refuted",
    "Verif.C32_invalid_refuted"
   ],
   "note": "False as stated: a missing boundary parameter raises AttributeError, bad base64 raises TypeError (for a whole class of texts, in whatever pieces they arrive, up to whole requests: C32_undecodable_refuted, C32_request_refuted), an unknown charset in a parameter raises LookupError. C32_written_partial says what every content type written by the grammar gives (AttributeError exactly when the parameter is missing); C32_boundary_partial covers every content type that parses."
  },
  {
   "property": "C33",
   "status": "proved",
   "theorems": [
    "Verif.C33_chunk_size",
    "Verif.C33_reads",
    "Verif.C33_builtin"
   ],
   "note": ""
  },
  {
   "property": "C34",
   "status": "proved",
   "theorems": [
    "Verif.C34_split",
    "Verif.C34_unterminated",
    "Verif.C34_chunking"
   ],
   "note": "For every lawful input stream (every chunking) and every MAX_HEADER_SIZE >= 1; also when the header text turns out to be malformed."
  },
  {
   "property": "C35",
   "status": "proved",
   "theorems": [
    "Verif.C35_roundtrip"
   ],
   "note": "any white space around values allowed"
  },
  {
   "property": "C36",
   "status": "proved",
   "theorems": [
    "Verif.C36_block",
    "Verif.C36_exact",
    "Verif.C36_request_line"
   ],
   "note": "C36_exact says which header blocks are accepted, with which headers, and which exceptions are raised for all others."
  },
  {
   "property": "C37",
   "status": "partial",
   "theorems": [
    "Verif.C37_partial",
    "Verif.C37_refuted",
    "Verif.C37_linefeed_refuted"
   ],
   "note": "false of the code for a host ending in a line feed (`$` matches before it); exact characterisation for all other hosts in C37_partial, and for all hosts that end in a line feed in C37_linefeed_refuted"
  },
  {
   "property": "C38",
   "status": "proved",
   "theorems": [
    "Verif.C38_port_and_scheme"
   ],
   "note": "Host text and port text are those of splitDomainPort, see C37."
  },
  {
   "property": "C39",
   "status": "partial",
   "theorems": [
    "Verif.C39_partial",
    "Verif.C39_second",
    "Verif.C39_refuted"
   ],
   "note": "Proved for streams that do not raise and MAX_HEADER_SIZE >= 0. False otherwise: the flag is not set when the first read raises (C39_refuted)."
  },
  {
   "property": "C40",
   "status": "proved",
   "theorems": [
    "Verif.C40_once",
    "Verif.C40_empty"
   ],
   "note": "C40_empty says what happens for an empty body: the flag stays unset."
  },
  {
   "property": "C41",
   "status": "proved",
   "theorems": [
    "Verif.C41_body_limit"
   ],
   "note": "A limit of None allows nothing (Python 2 comparison with None)."
  },
  {
   "property": "C42",
   "status": "proved",
   "theorems": [
    "Verif.C42_stable",
    "Verif.C42_parsed",
    "Verif.C42_guarded"
   ],
   "note": "For every history of body, parse_request_header, parse_request_body and read calls."
  },
  {
   "property": "C43",
   "status": "partial",
   "theorems": [
    "Verif.C43_header",
    "Verif.C43_partial",
    "Verif.C43_refuted",
    "Verif.C43_stale_refuted",
    "Verif.C43_empty_refuted",
    "Verif.C43_form_refuted"
   ],
   "note": "The header attributes are always those of the new stream. Body, POST and FILES are for a request that holds no body text and a new body that is not empty; otherwise the claim is false (C43_refuted: stale body, stale POST; C43_empty_refuted: every request without a body shows the POST and FILES of what the object held before; C43_form_refuted: every form that comes after another one shows the old form)."
  },
  {
   "property": "C44",
   "status": "proved",
   "theorems": [
    "Verif.C44_body_stream"
   ],
   "note": ""
  },
  {
   "property": "C45",
   "status": "partial",
   "theorems": [
    "Verif.C45_partial",
    "Verif.C45_only_charset",
    "Verif.C45_refuted",
    "Verif.C45_poisoned",
    "Verif.C45_form_refuted",
    "Verif.C45_text_refuted"
   ],
   "note": "False of the code: the charset of one request is written to the shared settings. Proved when the content type declares no charset; nothing but DEFAULT_CHARSET ever changes. Every request that names a charset unknown to Python makes the settings unusable for all later ones; every request that names a known one decides how later requests without a charset are decoded (C45_form_refuted, C45_text_refuted)."
  },
  {
   "property": "C46",
   "status": "partial",
   "theorems": [
    "Verif.C46_refuted",
    "Verif.C46_assign"
   ],
   "note": "False of the code: for every assigned handler list the result is the same as for any other, the handlers of the settings are always loaded again."
  },
  {
   "property": "C47",
   "status": "partial",
   "theorems": [
    "Verif.C47_refuted",
    "Verif.C47_accepted"
   ],
   "note": "False of the code: MAX_HEADER_SIZE is only the size of one read; header text of any length is buffered."
  },
  {
   "property": "C48",
   "status": "proved",
   "theorems": [
    "Verif.C48_partition",
    "Verif.C48_error"
   ],
   "note": "URLs as unicode text; a native str is decoded as ASCII first (UnicodeDecodeError otherwise). The specification UrlParts is on the text; ValueError exactly for unbalanced brackets in the host part."
  },
  {
   "property": "C49",
   "status": "proved",
   "theorems": [
    "Verif.C49_iff",
    "Verif.C49_sound",
    "Verif.C49_unicode_refuted"
   ],
   "note": "Exact characterisation on the text of the URL. For allowed_hosts given as one unicode string (not an instance of str in Python 2) membership is a substring test, so the claim is limited to None, a native str and collections; C49_unicode_refuted shows the exception."
  },
  {
   "property": "C50",
   "status": "proved",
   "theorems": [
    "Verif.C50_iff"
   ],
   "note": ""
  },
  {
   "property": "C51",
   "status": "proved",
   "theorems": [
    "Verif.C51_limit",
    "Verif.C51_unlimited",
    "Verif.C51_negative"
   ],
   "note": ""
  },
  {
   "property": "C52",
   "status": "partial",
   "theorems": [
    "Verif.C52_parse",
    "Verif.C52_written",
    "Verif.C52_querydict_partial",
    "Verif.C52_nonascii_refuted",
    "Verif.C52_empty_list_refuted"
   ],
   "note": "Parsing any encoding of any pairs gives the pairs back (full). The QueryDict half is false for values outside ASCII (urlencode raises UnicodeEncodeError) and for empty lists; proved for the rest."
  },
  {
   "property": "C53",
   "status": "proved",
   "theorems": [
    "Verif.C53_getlist"
   ],
   "note": "for unicode keys (the parser only produces those)"
  },
  {
   "property": "C54",
   "status": "proved",
   "theorems": [
    "Verif.C54_iri_to_uri",
    "Verif.C54_unicode"
   ],
   "note": "byte strings and ASCII text; C54_unicode: unicode outside ASCII raises UnicodeEncodeError"
  },
  {
   "property": "C55",
   "status": "proved",
   "theorems": [
    "Verif.C55_iri_roundtrip",
    "Verif.C75_iri",
    "Verif.C55_escape_roundtrip",
    "Verif.C55_not_injective",
    "Verif.C55_escape",
    "Verif.C55_escape_text"
   ],
   "note": "The UTF-8 codec is a parameter with the needed facts as hypotheses. C55_not_injective: with encode_percent=False the escaping loses information"
  },
  {
   "property": "C56",
   "status": "proved",
   "theorems": [
    "Verif.C56_chars",
    "Verif.C56_stable"
   ],
   "note": ""
  },
  {
   "property": "C57",
   "status": "proved",
   "theorems": [
    "Verif.C57_no_leading_slashes"
   ],
   "note": ""
  },
  {
   "property": "C58",
   "status": "proved",
   "theorems": [
    "Verif.C58_roundtrip",
    "Verif.C58_negative",
    "Verif.C58_injective",
    "Verif.C58_reads"
   ],
   "note": "C58_reads: which strings base36_to_int accepts, and what they mean."
  },
  {
   "property": "C59",
   "status": "proved",
   "theorems": [
    "Verif.C59_roundtrip"
   ],
   "note": ""
  },
  {
   "property": "C60",
   "status": "proved",
   "theorems": [
    "Verif.C60_parse",
    "Verif.C60_unique",
    "Verif.C60_quote",
    "Verif.C60_inner_quotes"
   ],
   "note": "C60_inner_quotes shows why the restriction on inner quotes is needed."
  },
  {
   "property": "C61",
   "status": "proved",
   "theorems": [
    "Verif.C61_format",
    "Verif.C61_roundtrip",
    "Verif.C61_rfc850",
    "Verif.C61_asctime",
    "Verif.C61_exact"
   ],
   "note": "RFC 850 years are 1970-2069. The library calendar (gmtime, datetime, timegm) is modelled; gmDate_eq and dayOf_real tie it to counting days."
  },
  {
   "property": "C62",
   "status": "partial",
   "theorems": [
    "Verif.C62_partial",
    "Verif.C62_unchanged",
    "Verif.C62_total",
    "Verif.C62_refuted",
    "Verif.C62_named_refuted",
    "Verif.C62_overflow_refuted"
   ],
   "note": "False of the code for numbers that do not fit a C long (OverflowError escapes) and for named references to characters below 256, which are replaced. C62_partial determines the result in every other case, C62_total says when there is one. C62_overflow_refuted: exactly the texts for which an exception escapes."
  },
  {
   "property": "C63",
   "status": "proved",
   "theorems": [
    "Verif.C63_lines",
    "Verif.C63_unique",
    "Verif.C63_chunking",
    "Verif.C63_files"
   ],
   "note": "Byte strings; unicode line ends are not modelled."
  },
  {
   "property": "C64",
   "status": "proved",
   "theorems": [
    "Verif.C64_chunks",
    "Verif.C64_unseekable",
    "Verif.C64_negative",
    "Verif.C64_memory"
   ],
   "note": "For files that can seek; C64_unseekable says what happens otherwise."
  },
  {
   "property": "C65",
   "status": "partial",
   "theorems": [
    "Verif.C65_partial",
    "Verif.C65_dir",
    "Verif.C65_none",
    "Verif.C65_total",
    "Verif.C65_refuted",
    "Verif.C65_attribute_name_ignored",
    "Verif.C65_oserror",
    "Verif.C65_directory",
    "Verif.C65_refused"
   ],
   "note": "False of the code for the upload directory, which is rewritten. Proved for the other five settings and for a directory given as a normal absolute path. C65_directory: what comes of a directory that cannot be used; C65_refused: exactly when, and with what exception, a dictionary of settings is refused."
  },
  {
   "property": "C66",
   "status": "proved",
   "theorems": [
    "Verif.C66_immutable_list",
    "Verif.C66_other"
   ],
   "note": ""
  },
  {
   "property": "C67",
   "status": "proved",
   "theorems": [
    "Verif.C67_exceptions",
    "Verif.C67_no_guard"
   ],
   "note": "Boundaries that are byte strings; for those in the extended notation see C106_exceptions_partial."
  },
  {
   "property": "C68",
   "status": "partial",
   "theorems": [
    "Verif.C68_partial",
    "Verif.C68_refuted",
    "Verif.C68_request_refuted"
   ],
   "note": "False: names '' and '..' are stored; every request with a form that has a file called . or .. is accepted and has it in FILES under this name (C68_request_refuted). C68_partial: the stored name is unusable only if the last component of the client's name is."
  },
  {
   "property": "C69",
   "status": "partial",
   "theorems": [
    "Verif.C69_partial",
    "Verif.C69_exact",
    "Verif.C69_refuted"
   ],
   "note": "False of the code for every body over the limit that exceeds 64 KiB by at most the limit."
  },
  {
   "property": "C70",
   "status": "partial",
   "theorems": [
    "Verif.C70_partial",
    "Verif.C70_refuted"
   ],
   "note": "False of the code: body() exhausts the stream. C70_partial: true for bodies that are not forms."
  },
  {
   "property": "C71",
   "status": "partial",
   "theorems": [
    "Verif.C71_refuted",
    "Verif.C71_partial",
    "Verif.C71_exact",
    "Verif.C71_alphabet_refuted"
   ],
   "note": "False of the code: Python 2's base64 raises TypeError on bad padding; only LookupError and BinasciiError are turned into ValueError. C71_alphabet_refuted: for every text in the URL-safe alphabet with one character over; C71_exact says what becomes of every string."
  },
  {
   "property": "C72",
   "status": "partial",
   "theorems": [
    "Verif.C72_refuted",
    "Verif.C72_exact",
    "Verif.C72_partial",
    "Verif.C72_all_refuted"
   ],
   "note": "False of the code: a well-formed date that does not exist raises TypeError. C72_all_refuted: exactly the texts for which it does."
  },
  {
   "property": "C73",
   "status": "proved",
   "theorems": [
    "Verif.C73_normal",
    "Verif.C73_path"
   ],
   "note": "C73_path says which directory it is, for every value of the setting."
  },
  {
   "property": "C74",
   "status": "partial",
   "theorems": [
    "Verif.C74_query",
    "Verif.C74_text",
    "Verif.C74_marked",
    "Verif.C74_querydict_partial",
    "Verif.C74_refuted"
   ],
   "note": "Concrete UTF-8 codec of Python 2.7. Reading is proved in full. The QueryDict round trip is false of the code: one value outside ASCII makes urlencode raise UnicodeEncodeError, whatever else the dictionary has (C74_refuted); an empty list is not written (C52_empty_list_refuted). Proved for ASCII values and no empty lists (C74_querydict_partial)."
  },
  {
   "property": "C75",
   "status": "proved",
   "theorems": [
    "Verif.C75_iri",
    "Verif.C75_path",
    "Verif.C75_refuted",
    "Verif.C75_unicode_path",
    "Verif.C75_encode"
   ],
   "note": "C75_refuted: bytes that are not UTF-8 for text of scalar values do not come back, so the condition is needed; C75_unicode_path: unicode paths outside ASCII are rejected."
  },
  {
   "property": "C76",
   "status": "proved",
   "theorems": [
    "Verif.C76_header"
   ],
   "note": "Spec/Message.lean says what a well-formed request is (Message.Ok, Arrives)."
  },
  {
   "property": "C77",
   "status": "proved",
   "theorems": [
    "Verif.C77_form",
    "Verif.C77_other",
    "Verif.C77_empty"
   ],
   "note": "The handlers named in the settings can be loaded."
  },
  {
   "property": "C78",
   "status": "proved",
   "theorems": [
    "Verif.C78_multipart"
   ],
   "note": "Built-in handlers, at least one of which takes files, and an operating system that creates temporary files; DATA_UPLOAD_MAX_MEMORY_SIZE must be a number (parse() reads the rest of the body through body(), which rejects None)."
  },
  {
   "property": "C79",
   "status": "proved",
   "theorems": [
    "Verif.C79_full_path",
    "Verif.C79_parts",
    "Verif.C79_raw",
    "Verif.C79_raw_refuted",
    "Verif.C79_text",
    "Verif.C79_fails"
   ],
   "note": "C79_raw_refuted: the raw form does not keep an escaped '?' of the path apart from the query string."
  },
  {
   "property": "C80",
   "status": "partial",
   "theorems": [
    "Verif.C80_full_path",
    "Verif.C80_uri_partial",
    "Verif.C80_port_refuted"
   ],
   "note": "The path half is proved in full. get_uri() leaves out the port (C80_port_refuted) and writes UNKNOWN:// for a target that begins with the path; it is the target when that is absolute, in lower case up to the path, without port and trailing dot."
  },
  {
   "property": "C81",
   "status": "proved",
   "theorems": [
    "Verif.C81_quote",
    "Verif.C81_quote_plus",
    "Verif.C81_plus_exact",
    "Verif.C81_plus_needed",
    "Verif.C81_unquote_bytes"
   ],
   "note": "Concrete UTF-8 codec; C81_plus_needed shows that '+' must not be declared safe; C81_unquote_bytes: byte strings outside ASCII are rejected by urlunquote."
  },
  {
   "property": "C82",
   "status": "partial",
   "theorems": [
    "Verif.C82_partial",
    "Verif.C82_unicode_split",
    "Verif.C82_unicode_refuted",
    "Verif.C82_list_refuted",
    "Verif.C82_lists",
    "Verif.C82_lists_distinct",
    "Verif.C82_none",
    "Verif.C82_none_error",
    "Verif.C82_repr"
   ],
   "note": "Byte-string values and, with doseq, lists. A unicode value is split into its characters (C82_unicode_refuted); a list without doseq is written as Python prints it (C82_list_refuted), and that text determines the list (C82_lists)."
  },
  {
   "property": "C83",
   "status": "proved",
   "theorems": [
    "Verif.C83_base64",
    "Verif.C83_request"
   ],
   "note": "C83_request is the same for whole requests. Spec/Base64.lean defines the encoding (RFC 4648) independently of the decoder."
  },
  {
   "property": "C84",
   "status": "proved",
   "theorems": [
    "Verif.C84_get",
    "Verif.C84_post",
    "Verif.C84_unchanged",
    "Verif.C84_form"
   ],
   "note": "C84_form: the dictionary of a multipart form as an object in memory, made by appendlist in a new mutable QueryDict that is made immutable at the end."
  },
  {
   "property": "C85",
   "status": "proved",
   "theorems": [
    "Verif.C85_meaning",
    "Verif.C85_request"
   ],
   "note": "Spec.Reads (Props/Reading.lean). The header of a part is read through the model's own header functions, which C15-C17 are about."
  },
  {
   "property": "C86",
   "status": "partial",
   "theorems": [
    "Verif.C86_partial",
    "Verif.C86_refuted",
    "Verif.C86_sound",
    "Verif.C86_handlers",
    "Verif.C86_failure",
    "Verif.C86_builtin",
    "Verif.C86_request"
   ],
   "note": "A path without a dot or a missing attribute raises TypeError instead of ImportError (C86_refuted). That what is loaded is what is named, in order, is proved in full."
  },
  {
   "property": "C87",
   "status": "proved",
   "theorems": [
    "Verif.C87_default"
   ],
   "note": "The directory for uploads can be made and temporary files can be created."
  },
  {
   "property": "C88",
   "status": "proved",
   "theorems": [
    "Verif.C88_multiple",
    "Verif.C88_closed",
    "Verif.C88_needed"
   ],
   "note": "C88_needed: a plain File and negative chunk sizes have to be left out."
  },
  {
   "property": "C89",
   "status": "partial",
   "theorems": [
    "Verif.C89_partial",
    "Verif.C89_refuted",
    "Verif.C89_other",
    "Verif.C89_exact"
   ],
   "note": "False of the code: a closed file on disk, opened again, is the file of the working directory with the client's name, which is truncated."
  },
  {
   "property": "C90",
   "status": "partial",
   "theorems": [
    "Verif.C90_partial",
    "Verif.C90_refuted",
    "Verif.C90_simple",
    "Verif.C90_size",
    "Verif.C90_size_raises",
    "Verif.C90_len"
   ],
   "note": "False of the code in Python 2, where __bool__ is not looked at: the truth value is that of the length."
  },
  {
   "property": "C91",
   "status": "proved",
   "theorems": [
    "Verif.C91_items",
    "Verif.C91_lists"
   ],
   "note": "The generators are run to their end with nothing in between."
  },
  {
   "property": "C92",
   "status": "partial",
   "theorems": [
    "Verif.C92_partial",
    "Verif.C92_flag",
    "Verif.C92_refuted"
   ],
   "note": "False of the code: __getstate__ builds a set of dictionaries, a TypeError. C92_partial: __setstate__ restores the lists of a plain MultiValueDict."
  },
  {
   "property": "C93",
   "status": "proved",
   "theorems": [
    "Verif.C93_accessors",
    "Verif.C93_scheme",
    "Verif.C93_fresh"
   ],
   "note": ""
  },
  {
   "property": "C94",
   "status": "partial",
   "theorems": [
    "Verif.C94_partial",
    "Verif.C94_refuted",
    "Verif.C94_files"
   ],
   "note": "False of the code: removing a temporary file that has been moved is an OSError, which 'except IOError' does not catch in Python 2; the files after it stay open."
  },
  {
   "property": "C95",
   "status": "partial",
   "theorems": [
    "Verif.C95_partial",
    "Verif.C95_errors",
    "Verif.C95_body",
    "Verif.C95_refuted"
   ],
   "note": "read() is proved. readline() and iteration always raise AttributeError, and the getters of stream and body_stream always return None."
  },
  {
   "property": "C96",
   "status": "partial",
   "theorems": [
    "Verif.C96_partial",
    "Verif.C96_refuted"
   ],
   "note": "False of the code for other cases of 'multipart/'; true for any case of what follows."
  },
  {
   "property": "C97",
   "status": "proved",
   "theorems": [
    "Verif.C97_deepcopy",
    "Verif.C97_total"
   ],
   "note": "QueryDict.__deepcopy__ is always an AttributeError (C97_total); the interpreter's recursion limit is a parameter."
  },
  {
   "property": "C98",
   "status": "proved",
   "theorems": [
    "Verif.C98_arrival",
    "Verif.C98_pieces"
   ],
   "note": ""
  },
  {
   "property": "C99",
   "status": "partial",
   "theorems": [
    "Verif.C99_consumed_partial",
    "Verif.C99_new_partial",
    "Verif.C99_refuted",
    "Verif.C99_form_refuted",
    "Verif.C99_text_refuted"
   ],
   "note": "False of the code: Content-Length does not bound the reading; the next request on a connection becomes part of the form, for every form and every other body (C99_form_refuted, C99_text_refuted). Proved instead: everything is read."
  }
 ]
}