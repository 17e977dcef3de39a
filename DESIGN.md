# Formal model of wrvenkat/request_parser in Lean 4

The code is Python 2.7 (README: "The master branch is compatible only with
Python 2.7"), so everything below is modelled with Python 2 semantics
(`str` is bytes, truth value falls back to `__len__`, `b64decode` raises
`TypeError`, `raise instance, value` is a `TypeError`, no number is `<= None`, ...).

## Layout

* `lean/Verif/Py/`     Python primitives (find, split, strip, replace, slices, int(), base64, dictionaries, regular expressions)
* `lean/Verif/Model/`  the model, one file per source file or class; every definition cites `/repo` lines
* `lean/Verif/Spec/`   small independent specifications used by theorem statements
* `lean/Verif/Proofs/` helper lemmas
* `lean/Verif/Props/`  the property theorems (one group per file) with examples that meet their hypotheses
* `properties.jsonl`   the properties in English; `MANIFEST.json` maps each to its theorems
* `seeded/LOG.jsonl`   deliberately wrong versions of model definitions and the theorems that noticed

Names: `C12_...` belongs to property C12; the suffix `_partial` marks a theorem that covers only part
of the English statement; `_refuted` marks a proof that the statement is false of the code (with a
concrete witness where it says so).

## Modelling conventions

* Python exceptions are values of an inductive type `Exc`; a method that mutates is a function
  `state -> Except Exc result x state`, so the state after an exception is kept.
* `StopIteration` of a producer is `ok none`.
* A loop gets a fuel argument that is provably large enough (running out is the exception `diverge`,
  and the theorems show that it does not happen); the one loop in the code that can really run for
  ever (base64 filling in `MultiPartParser.parse`) keeps an explicit fuel.
* External functions (codecs, Unicode categories, `import_string`, the operating system, upload
  handlers) are parameters; theorems quantify over them and list what they assume.
* Python 2 `dict` iteration order is arbitrary; dictionaries are association lists and no theorem
  relies on the order of keys.
* Python objects with identity (lists inside dictionaries, files behind handlers) live in an explicit
  memory and are known by addresses, so that sharing is visible.
* Lawful producers (`Lawful`) say what is assumed of the input stream: it never raises and yields
  finitely many chunks (of any sizes, also empty ones, in any cutting).

## Agreement of the model with the code

The code is not run.  What its own unit tests (`request_parser/tests`) expect is computed from the model in
`Verif/Props/RepoTests.lean` and agrees in every case that the model covers (the UTF-16 body is not covered, as
`pyCodecs` has UTF-8, ASCII and ISO-8859-1).  These are tests of the model, and no claim rests on them.  The request
with the picture is shortened there; evaluating the compiled model on the whole file of 830979 bytes also gives
what the test expects (two fields and a file of 622493 bytes).

## Parts of the code that are modelled

| source | model |
|--------|-------|
| `utils/datastructures.py` MultiValueDict, ImmutableMultiValueDict (all methods except those below) | `Model/MVDict.lean` |
| `utils/datastructures.py` MultiValueDict.__deepcopy__ and `copy.deepcopy` of lists | `Model/DeepCopy.lean` |
| `utils/datastructures.py` ImmutableList | `Model/ImmList.lean` |
| `utils/datastructures.py` LazyStream, ChunkIter | `Model/Stream.lean` |
| `http/multipartparser.py` InterBoundaryIter, BoundaryIter (also with a `unicode` separator), exhaust | `Model/Boundary.lean`, `Model/Stream.lean` |
| `http/multipartparser.py` parse_header, _parse_header_params; `utils/encoding.py` force_text | `Model/Header.lean` |
| `http/multipartparser.py` MultiPartParser, parse_boundary_stream, Parser | `Model/Multipart.lean`, `Model/FormDict.lean` (POST as an object) |
| `files/uploadhandler.py` the three handlers; `files/uploadedfile.py` names, sizes, truth value | `Model/Handlers.lean` |
| `files/base.py` chunks, `__iter__`; `files/uploadedfile.py` chunks | `Model/File.lean` |
| `http/request.py` HttpRequest: constructor, setters, parse, header and body parsing, body, is_secure, is_ajax | `Model/Request.lean` |
| `http/request.py` parse_request_headers, parse_request_line, split_domain_port | `Model/RequestHead.lean` |
| `http/request.py` QueryDict, bytes_to_text; `utils/http.py` limited_parse_qsl | `Model/Query.lean`, `Model/MVDict.lean` |
| `utils/http.py` _urlsplit, _urlparse, is_safe_url, is_same_domain, escape_leading_slashes | `Model/Url.lean` |
| `utils/encoding.py` iri_to_uri, uri_to_iri, escape_uri_path; `http/request.py` set_path, get_full_path | `Model/Quote.lean` |
| `http/request.py` get_path, get_full_path, get_uri; `utils/http.py` urlquote, urlquote_plus, urlunquote, urlunquote_plus, urlencode | `Model/Uri.lean` |
| `utils/http.py` base 36, URL-safe base64, entity tags | `Model/Util.lean` |
| `utils/http.py` http_date, parse_http_date(_safe), and the library calendar they use | `Model/Date.lean` |
| `utils/text.py` unescape_entities | `Model/Text.lean` |
| `utils/module_loading.py` import_string; `files/uploadhandler.py` load_handler; `http/request.py` _initialize_handlers | `Model/Load.lean` |
| `files/base.py` File (truth value, length, size, multiple_chunks, open, close); `files/uploadedfile.py` the same methods, SimpleUploadedFile | `Model/FileObj.lean` |
| `utils/datastructures.py` MultiValueDict: items, values, lists, dict, `__getstate__`, `__setstate__` | `Model/Views.lean` |
| `http/request.py` HttpRequest: get_port, set_scheme, is_plain_text, read, readline and iteration, close, getters of the streams | `Model/RequestMore.lean` |
| `files/utils.py` FileProxyMixin; `files/base.py`, `files/uploadedfile.py` `__str__`, `__repr__`, from_dict; `files/temp.py` TemporaryFile | `Model/FileProxy.lean` |
| `conf/settings.py` Settings, default, _check_upload_dir; `files/utils.py` get_abs_path; library path functions | `Model/Conf.lean` |
| `conf/settings.py` the attributes that the parser reads; the exceptions of all modules | `Model/Settings.lean`, `Model/Exc.lean` |
| `utils/datastructures.py` the constructors of MultiValueDict and ImmutableMultiValueDict | `Model/MakeDict.lean` |
| `utils/datastructures.py` MultiValueDict: `__repr__`, with `repr` of strings, lists and dictionaries | `Model/Repr.lean` |
| `http/request.py` QueryDict: constructor with `encoding`, fromkeys, the property encoding | `Model/QueryEncoding.lean` |
| `utils/module_loading.py` module_has_submodule, module_dir; `files/base.py` ContentFile; `utils/encoding.py` DjangoUnicodeDecodeError | `Model/Modules.lean` |
| the methods of the files of a request, applied to the files that the handlers have made | `Model/Use.lean` |

## Parts that are not modelled

* `MultiValueDict`: values of the underlying dictionary that are not lists.
* `files/`: the methods of `ContentFile` (it cannot be constructed, see below), the methods that `FileProxyMixin` only forwards,
  real file system effects, garbage collection of temporary files.
* `utils/encoding.py`: `DjangoUnicodeDecodeError.__str__`.
* Python's own import system (`Modules` and `ModuleFiles` are parameters).
* Exception messages, `code` and `params` attributes, logging; timing; threads.

## Simplifications

Each is stated in the comment of the definition concerned. The ones that matter most:

* The input stream given to `HttpRequest` yields chunks and never raises `IOError` in theorems about
  lawful producers; the model itself (class `Producer`) allows any exception. C124 is about streams that raise
  (`Breaking`, and any producer with `NoEnd`).
* A `BoundaryIter` owns the body stream while a part is read (in the code it holds a reference).
* `_find_boundary`'s index arithmetic is on natural numbers (it cannot become negative because the
  separator starts with `-`).
* A boundary given as `boundary*=charset'lang'value` is kept as its ASCII bytes with a flag (`unicodeBoundary`);
  `MultiPart.parseText` is the parser for it. Handlers are given the bytes.
* ASCII text decoded with `.decode('ascii')` is kept as its bytes.
* `META` is constant during a multipart parse.
* Writing to an open temporary file never fails; creating one may.  `C127_faults` covers a machine where any call of a
  handler may fail.
* `MultiValueDict` values are `None`, lists, or atoms; dictionaries whose values are not lists are not
  considered.
* `host_validation_re`, `ETAG_MATCH`, `_entity_re`, `FIELDS_MATCH`, the date expressions and the expression of `cgi.valid_boundary`
  have matching functions written by hand. C126 proves that these are what the expressions mean: `Py/Re.lean` reads an expression
  from its source text (the part of the syntax that occurs) and says what a match is; `Model/Regex.lean` has the texts. The reader,
  the meaning and the copies of the texts are trusted.
* The codecs are parameters (`Codecs`) about which nothing is assumed unless a theorem says so. `Py/Utf8.lean` has the
  UTF-8, ASCII and Latin-1 codecs of Python 2.7 (`pyCodecs`), used by C74 and C75; other names are a `LookupError` there.

## Properties that are false of the code

For each a theorem proves the negation (or a concrete violation) and, where something remains, a
`_partial` theorem says what.

* **C04** `pop`, `popitem`, `clear` of `ImmutableMultiValueDict` are not overridden: they change it.
* **C06** `QueryDict.copy()` always raises `AttributeError` (`''.DEFAULT_CHARSET`).
* **C22** a base64 file whose length without white space is not a multiple of four loops for ever.
* **C26** an empty file is dropped; so is a file followed by nothing after its separator.
* **C27** the parser does not stop at the closing separator.
* **C28** the result can depend on the chunk size (parts that are skipped are not drained).
* **C29** `MemoryFileUploadHandler` looks at the declared length, so two positive lengths differ; with such handlers only, every file of a request announcing too much is lost silently (`C29_lost_refuted`).
* **C32** a missing boundary raises `AttributeError`, bad base64 `TypeError` (every file without padding whose length is a multiple of four and whose
  number of base64 characters is not, in whatever pieces it arrives).
* **C37** a host ending in a line feed passes the check.
* **C39** the parsed flag is not set when the first read raises, so a second call parses again.
* **C43** assigning a new stream keeps `_body`, `_post`, `_files` of the old one: every request without a body shows the old
  `POST` and `FILES`, every urlencoded form after another one the old form.
* **C45** a `charset` of one request is written into the shared settings: every later request that names none is decoded with it.
* **C46** assigned upload handlers are replaced by those of the settings.
* **C47** `MAX_HEADER_SIZE` is only the size of one read; any amount of header text is buffered.
* **C49** holds, but `allowed_hosts` given as one `unicode` string is a substring test (`C49_unicode_refuted`).
* **C52** `QueryDict.urlencode` raises for values outside ASCII; keys with an empty list disappear.
* **C62** a reference to a number that does not fit a C `long` raises `OverflowError`; named references to characters below 256 are replaced too.
* **C65** the upload directory is rewritten, `OSError` of `mkdir` escapes, three keys differ from the
  attribute names.
* **C68** the names `''` and `'..'` are stored.
* **C69**, **C70** a body over the limit is partly handed out later; reading the raw body first loses the form.
* **C71**, **C72** malformed base64 and dates that do not exist raise `TypeError`, not `ValueError`.
* **C79** holds, but `get_full_path(raw=True)` writes an escaped `?` of the path bare (`C79_raw_refuted`).
* **C80** `get_uri` leaves out the port.
* **C86** `import_string` raises `TypeError` where it means `ImportError` (`six.reraise` with an instance).
* **C89** a closed file on disk, opened again, is the file of the *working directory* with the name the client
  chose; it is truncated.
* **C90** the truth value of a file is that of its length.
* **C92** `__getstate__` always raises `TypeError`.
* **C94** `close()` stops with an `OSError` at a temporary file that has been moved away; the rest stay open.
* **C95** `readline()`, iteration and `readlines()` always raise `AttributeError`; `stream` is always `None`.
* **C96** `Multipart/form-data` is refused.
* **C99** the body is not bounded by `Content-Length`; everything that follows on the stream is taken for body.
* **C100**, **C101** skipping a file or stopping the upload closes the last complete file of a memory or temporary file handler;
  after every stopped upload it is in `FILES` and cannot be read (`C101_last_refuted`, `C101_request_refuted`).
* **C102** `closed`, `readable()`, `writable()`, `seekable()` are wrong for an empty wrapped file, some modes and pipes.
* **C103** leaving a `with` statement does not remove a temporary file on Windows.
* **C104** `repr` of a `File` raises `TypeError`, or, if a size of 0 was assigned, does not show the name.
* **C106** with a boundary in the extended notation, data outside ASCII raises `UnicodeDecodeError`.
* **C107** a field sent in base64 is counted before decoding; cut by the limit it can raise `TypeError`.
* **C108** requests can raise `ValueError`, `UnicodeDecodeError`, `UnicodeEncodeError`, `TypeError`, `OverflowError`,
  `AttributeError` and `LookupError` from `parse()`.
* **C109** `QueryDict.update` stores values unconverted; under a charset that does not extend ASCII `appendlist` converts
  the key twice and loses the value.
* **C110** `ImmutableMultiValueDict.setdefault` and `setlistdefault` return `None`.
* **C113** `module_has_submodule` denies all modules (it looks for a file named with the full dotted name).
* **C115** with a `MemoryFileUploadHandler` before it, an empty file makes `TemporaryFileUploadHandler.file_complete` raise `AttributeError`
  (its `new_file` was never called, because the memory handler keeps the file).
* **C82** `urlencode` splits a `unicode` value into its characters; a list without `doseq` is written as Python
  prints it.
* **C122** `is_ajax()` looks for a header *named* `XMLHttpRequest`; `X-Requested-With` is not looked at.
* **C128** when parsing a form fails, temporary files that upload handlers have opened stay open, also after `close()` of the request.
* **C130** `lists()` hands out the lists of an immutable `QueryDict`, and `MultiValueDict(d)` shares the lists of `d`.
* **C131** an `ImmutableMultiValueDict` made mutable: `d[k] = v` stores `[[v]]`, `setdefault` returns `None`, `appendlist`
  always raises `AttributeError`, `update` always `TypeError`.
* **C132** with `charset=rot13` in `Content-Type` (any charset in which an encoded name changes when it is encoded again)
  the fields of a form are counted but lost, because `appendlist` converts a new key twice.
* **C133** a name or a file name in the extended notation of RFC 2231 (`filename*=UTF-8''%C3%A9`) outside ASCII: the form is
  refused with `UnicodeEncodeError` (`force_text` of a `unicode` string).
* **C134** `DATA_UPLOAD_MAX_NUMBER_FIELDS` counts fields only: a request with any number of files is accepted (no setting
  limits the number or the total size of the files).
* **C136** `host:` instead of `Host:` is `NoHostFoundException`; with `content-type:` a form is not parsed and with
  `content-length:` an upload is an empty form, without an error.
* **C137** `Transfer-Encoding: chunked` is not looked at: the sizes of the chunks are part of the body, an upload is empty.
* **C139** A request with two different hosts, two different lengths, or a length and a transfer encoding is accepted.
* **C140** Header names with white space, empty names and continued lines are accepted as headers of their own.
* **C142** `MemoryFileUploadHandler` believes the announced length: a client that announces one byte and sends N gets N bytes kept in memory.
* **C143** Raising `DATA_UPLOAD_MAX_NUMBER_FIELDS` from 0 to k refuses every query string with more than k parameters, all of them accepted with 0
  (`C143_zero_refuted`); raising
  `DATA_UPLOAD_MAX_MEMORY_SIZE` to `None` refuses every body.
* **C144** After `parse()` has refused a form, `parse()` called again reports success: with the old `POST`, or with the last fields of the
  upload, so that the limit on fields is passed by.  This holds for every upload of up to 64 KiB and every exception
  (`C144_gone_refuted`).
* **C145** Every file whose base64 text is cut short (an incomplete last group, such as text without padding) keeps the parser busy for
  ever; a single well-formed request is enough (`C145_refuted`, `C145_request_refuted`).  Proved: it is never accepted.
* **C147** after `parse()` has refused a request because of its header, `parse()` called again reports success: with the rest of the
  stream as the body of a request without method, path and host, or (too many query parameters) with the form in `POST`.
* **C149** a request whose method has a line feed in it is accepted, and `repr(request)` has two lines; likewise the name of an
  uploaded file.
* **C135** assigning a stream fails half way (the header attributes are deleted, then `QueryDict` raises because of the charset
  in the shared settings); if the request had been parsed before, `parse()` then reports success and `POST` is the old form.
* **C129** the argument `encoding` of `QueryDict` is ignored, `fromkeys` always raises `AttributeError`, and native strings are
  not converted from the encoding: outside ASCII they are refused, whatever it is.
* **C117** after `LazyStream.close()` reading past the bytes that are left raises `TypeError` (`next([])`) and loses them.

Further observations made while modelling (not claimed as properties): `LazyStream`'s guard never trips for a
caller that alternates `read(n)` and `unget` with other lengths in between; parts of type RAW with headers are
pushed back twice; a file part with an empty field name is read but never completed; a non-ASCII `filename*`
raises `UnicodeEncodeError`; after `SkipFile` a completed in-memory file may be closed; `ImmutableMultiValueDict`
made mutable wraps values twice and its `appendlist` and `update` raise; `File.size` is a plain method, so `len(File)` is a `TypeError`; `ContentFile` cannot be
constructed in Python 2 (`super()` without arguments); `parse_http_date` reads a four-digit year below 0100 as one of
1970-2069 and accepts a final line feed and any word as day of the week (`C61_exact`).

## Trusted base

* Lean 4.33 kernel. No axiom is added; the theorems below depend on at most Lean's three standard
  axioms `propext`, `Classical.choice`, `Quot.sound`.
* The reading of the Python source by hand (no code was run), the Python 2.7 library semantics as written
  in `Verif/Py` and in the comments marked "library", and the `future`/`six` helper functions imported
  by the code (`raise_`, `raise_from`, `unquote`, `quote`, `_coerce_args`).
* That the English statements in `properties.jsonl` say what the theorems say.

### Axioms per theorem

* no axioms (4): C125_answers, C71_refuted, C92_refuted, C95_refuted
* `propext` (63): C04_partial, C04_pop_refuted, C04_refuted, C05_immutable, C06_always_raises, C06_refuted,
  C07_read_negative, C100_refuted, C101_refuted, C102_made, C103_close_partial, C103_refuted, C104_refuted,
  C104_repr_partial, C107_refuted, C107_truncated_refuted, C115_refuted, C128_leaves_file,
  C128_refused_leaves_file, C129_bytes_refuted, C131_update_refuted, C132_lost_refuted, C149_file_refuted,
  C26_empty_crash, C26_empty_refuted, C26_last_refuted, C27_refuted, C28_refuted, C29_memory_refuted,
  C29_zero, C32_base64_refuted, C32_missing_refuted, C46_assign, C52_empty_list_refuted, C55_escape_text,
  C55_not_injective, C58_negative, C60_inner_quotes, C62_named_refuted, C62_refuted, C64_memory,
  C65_attribute_name_ignored, C65_none, C65_oserror, C65_refuted, C66_immutable_list, C66_other, C68_refuted,
  C72_refuted, C86_builtin, C86_handlers, C86_partial, C86_refuted, C86_sound, C88_closed, C90_len,
  C90_refuted, C90_size, C90_size_raises, C92_flag, C93_scheme, C94_refuted, C95_errors
* `propext, Quot.sound` (145): C01_map, C01_other_keys, C02_copy, C02_getlist, C03_keeps, C03_update_dict,
  C03_update_mvd, C04_removed_refuted, C102_closed_partial, C102_inner, C102_readable_partial, C102_refuted,
  C102_seekable_partial, C102_writable_partial, C108_refuted, C109_append_refuted, C109_map_partial,
  C109_query_partial, C109_refuted, C109_setlist, C110_pop, C110_setdefault_partial,
  C110_setlistdefault_partial, C113_refuted, C113_submodule_partial, C114_distinct, C114_repr, C117_partial,
  C117_refuted, C118_new, C120_trim, C120_trim_bytes, C120_type, C122_refuted, C124_body, C124_never,
  C124_raises, C124_same, C125_addresses, C127_faults, C127_noted, C127_request, C128_close_leaves_file,
  C129_argument_ignored, C129_argument_refuted, C129_converts_partial, C129_fromkeys_refuted,
  C129_no_difference, C130_contents, C130_fresh, C130_lists_refuted, C130_sealed_partial, C131_append_refuted,
  C131_map_partial, C131_set_refuted, C131_setdefault_refuted, C135_body_partial, C143_refuted, C144_partial,
  C144_upload_refuted, C148_printable, C148_repr, C149_partial, C23_contiguous, C23_log_faithful, C29_length,
  C29_negative, C29_positive_partial, C30_each_once, C31_handlers, C31_names, C31_set_name, C32_not_multipart,
  C33_builtin, C33_chunk_size, C37_linefeed_refuted, C37_partial, C37_refuted, C39_refuted, C39_second,
  C40_once, C42_guarded, C43_header, C43_partial, C43_refuted, C43_stale_refuted, C44_body_stream,
  C45_only_charset, C45_refuted, C46_refuted, C49_unicode_refuted, C50_iff, C51_negative, C51_unlimited,
  C52_parse, C54_iri_to_uri, C55_escape, C55_escape_roundtrip, C55_iri_roundtrip, C56_chars, C56_stable,
  C57_no_leading_slashes, C58_reads, C59_roundtrip, C60_unique, C63_chunking, C63_lines, C63_unique,
  C65_directory, C65_refused, C65_total, C72_partial, C73_normal, C75_encode, C75_refuted, C79_fails,
  C79_full_path, C79_parts, C79_raw_refuted, C79_text, C81_unquote_bytes, C82_list_refuted, C82_none,
  C82_none_error, C82_unicode_refuted, C82_unicode_split, C84_get, C84_post, C84_unchanged, C86_failure,
  C89_other, C89_partial, C89_refuted, C90_partial, C90_simple, C91_items, C91_lists, C92_partial, C93_fresh,
  C94_files, C94_partial, C99_refuted, before_arrives, builtinOps_ignoresLimits, queryConv_plain
* `propext, Classical.choice, Quot.sound` (294): C07_read_any_state, C07_read_exact, C08_tell,
  C09_unget_undoes_read, C09_unget_undoes_read_ok, C100_all_partial, C100_gated_partial, C100_request_partial,
  C101_last_refuted, C101_request_refuted, C104_size_refuted, C105_from_dict, C106_ascii_partial,
  C106_exceptions_partial, C106_notation_partial, C106_refuted, C106_same_partial, C106_written_partial,
  C107_exact_partial, C107_refused_partial, C107_request_refuted, C107_written_partial, C108_builtin_partial,
  C108_exceptions_partial, C108_python_partial, C109_converted_partial, C10_reading_never_raises,
  C10_stuck_raises, C110_popitem, C110_refuted, C111_latin1, C111_pairs, C111_percent, C111_unquote,
  C111_utf8, C112_convenient, C112_memory, C113_dir, C114_sent, C115_all_partial, C115_healthy_partial,
  C116_lifetime, C118_isolated, C118_requests, C119_any_object, C119_parse, C119_request, C11_chunk_iter,
  C120_parse, C120_request, C120_written, C121_exact, C121_field, C122_all_refuted, C122_partial,
  C123_body_stream, C123_new, C123_stream, C125_lost, C125_new, C126_asctime, C126_boundary, C126_entity,
  C126_etag, C126_fields, C126_host, C126_rfc1123, C126_rfc850, C127_form, C127_reaches, C128_bounded_partial,
  C128_failed_refuted, C128_request_partial, C128_request_refuted, C129_encoding_partial, C12_part_exact,
  C12_parts_exact, C12_parts_unique, C130_made_refuted, C132_kept_partial, C132_request_partial, C133_refuted,
  C133_request_partial, C133_request_refuted, C133_written_partial, C134_parse_partial, C134_refuted,
  C134_request_partial, C134_request_refuted, C135_attribute, C135_partial, C135_refuted, C135_wellformed,
  C136_host_refuted, C136_length_refuted, C136_partial, C136_type_refuted, C137_raw_partial, C137_refuted,
  C137_upload_refuted, C138_last, C139_refuted, C13_guard_never_trips, C140_any, C140_partial, C140_refuted,
  C141_name, C141_suffix, C141_temp, C142_partial, C142_refuted, C143_accepted, C143_multipart,
  C143_none_refuted, C143_request_partial, C143_zero_refuted, C144_default_refuted, C144_form_refuted,
  C144_gone_refuted, C144_piece_refuted, C145_not_accepted_partial, C145_refuted, C145_request_refuted,
  C146_fatal, C146_form, C146_form_fatal, C146_left_out, C146_request, C146_request_fatal, C146_request_form,
  C146_request_form_fatal, C147_partial, C147_query_refuted, C147_refuted, C149_form_refuted,
  C149_request_refuted, C14_parts_bounded, C150_left_out, C150_raised, C15_parse_header, C15_split,
  C16_quoted_round_trip, C17_case_insensitive, C17_values, C18_fields, C19_files, C20_field_limit,
  C20_limit_exact, C21_memory_limit, C21_no_assertion, C21_reads, C22_refuted, C22_spin_partial,
  C22_terminates_partial, C24_convenient, C25_no_truncated_file, C26_exact_partial, C26_form_refuted,
  C26_nonempty_partial, C26_request_refuted, C27_epilogue_partial, C27_form_refuted, C27_request_refuted,
  C28_forms_partial, C28_settled_partial, C29_lost_refuted, C29_reads_all, C29_request_refuted, C30_override,
  C32_boundary_partial, C32_charset_refuted, C32_invalid_refuted, C32_length_partial, C32_lookup_refuted,
  C32_number, C32_request_refuted, C32_undecodable_refuted, C32_written_partial, C33_reads, C34_chunking,
  C34_split, C34_unterminated, C35_roundtrip, C36_block, C36_exact, C36_request_line, C38_port_and_scheme,
  C39_partial, C40_empty, C41_body_limit, C42_parsed, C42_stable, C43_empty_refuted, C43_form_refuted,
  C45_form_refuted, C45_partial, C45_poisoned, C45_text_refuted, C47_accepted, C47_refuted, C48_error,
  C48_partition, C49_iff, C49_sound, C51_limit, C52_nonascii_refuted, C52_querydict_partial, C52_written,
  C53_getlist, C54_unicode, C58_injective, C58_roundtrip, C60_parse, C60_quote, C61_asctime, C61_exact,
  C61_format, C61_rfc850, C61_roundtrip, C62_overflow_refuted, C62_partial, C62_total, C62_unchanged,
  C63_files, C64_chunks, C64_negative, C64_unseekable, C65_dir, C65_partial, C67_exceptions, C67_no_guard,
  C68_partial, C68_request_refuted, C69_exact, C69_partial, C69_refuted, C70_partial, C70_refuted,
  C71_alphabet_refuted, C71_exact, C71_partial, C72_all_refuted, C72_exact, C73_path, C74_marked, C74_query,
  C74_querydict_partial, C74_refuted, C74_text, C75_iri, C75_path, C75_unicode_path, C76_header, C77_empty,
  C77_form, C77_other, C78_multipart, C79_raw, C80_full_path, C80_port_refuted, C80_uri_partial,
  C81_plus_exact, C81_plus_needed, C81_quote, C81_quote_plus, C82_lists, C82_lists_distinct, C82_partial,
  C82_repr, C83_base64, C83_request, C84_form, C85_meaning, C85_request, C86_request, C87_default,
  C88_multiple, C88_needed, C89_exact, C93_accessors, C95_body, C95_partial, C96_partial, C96_refuted,
  C97_deepcopy, C97_total, C98_arrival, C98_pieces, C99_consumed_partial, C99_form_refuted, C99_new_partial,
  C99_text_refuted, converts_iff, splitext_splits
