{"id": "C01", "title": "MultiValueDict behaves as a map from keys to value lists", "statement": "After any sequence of MultiValueDict operations (d[k]=v, setlist, setdefault, setlistdefault, appendlist, update, del, pop, clear) every lookup answers as an abstract map from key to list of values would: getlist(k) is the whole list in insertion order (or the default when k is absent), d[k] is its last element ([] for an empty list, MultiValueDictKeyError when absent), get(k,default) is the last element or the default, `k in d` says whether the key is present, and operations on one key never change another key.", "quantifier": "every finite sequence of operations, every key and value", "why_tests_cant": "a test fixes one sequence of operations; the claim is about all histories", "anchors": ["request_parser/utils/datastructures.py:MultiValueDict"]}
{"id": "C02", "title": "Copies and getlist results are isolated from the dictionary", "statement": "Mutating the list returned by getlist(), or the lists inside the object returned by MultiValueDict.copy(), in any way and any number of times never changes what the original dictionary answers; mutating the original never changes the copy.", "quantifier": "every dictionary, every sequence of list mutations through the returned references", "why_tests_cant": "aliasing bugs show only under particular mutation histories", "anchors": ["request_parser/utils/datastructures.py:MultiValueDict.getlist", "request_parser/utils/datastructures.py:MultiValueDict.__copy__"]}
{"id": "C03", "title": "update() extends and never drops values", "statement": "d.update(other) with another MultiValueDict makes getlist(k) equal to the old list followed by other's list for every key; with an ordinary dict it appends exactly that one value; no previously stored value disappears.", "quantifier": "every pair of dictionaries and every key", "why_tests_cant": "needs all pairs of dictionaries, overlapping keys in every pattern", "anchors": ["request_parser/utils/datastructures.py:MultiValueDict.update"]}
{"id": "C04", "title": "An immutable header dictionary cannot be changed", "statement": "While an ImmutableMultiValueDict is immutable (the state in which META['REQUEST_HEADERS'] is handed out), every sequence of its mutating methods raises and leaves every lookup unchanged.", "quantifier": "every sequence of mutating method calls", "why_tests_cant": "one forgotten override breaks it only for the sequences that use it", "anchors": ["request_parser/utils/datastructures.py:ImmutableMultiValueDict"]}
{"id": "C05", "title": "An immutable QueryDict cannot be changed", "statement": "While a QueryDict is immutable (request.GET built from a query string, request.POST after body parsing), every sequence of d[k]=v, del, setlist, setlistdefault, setdefault, appendlist, pop, popitem, clear and update with a non-empty argument raises AttributeError, and no lookup ever changes.", "quantifier": "every QueryDict and every sequence of mutating method calls", "why_tests_cant": "histories are unbounded; each inherited method must be guarded", "anchors": ["request_parser/http/request.py:QueryDict"]}
{"id": "C06", "title": "QueryDict.copy() returns a mutable copy with the same contents", "statement": "QueryDict.copy(), copy.copy() and copy.deepcopy() return a mutable QueryDict whose lookups agree with the original (class docstring: 'the copy() method will always return a mutable copy').", "quantifier": "every QueryDict", "why_tests_cant": "must hold for every stored content and encoding", "anchors": ["request_parser/http/request.py:QueryDict.__copy__", "request_parser/http/request.py:QueryDict.__deepcopy__", "request_parser/http/request.py:QueryDict.copy"]}
{"id": "C07", "title": "LazyStream.read returns exactly the requested prefix of the stream", "statement": "For a LazyStream over any producer of byte chunks, read(n) returns exactly the first min(n, available) bytes of the remaining stream content, read() returns everything that is left, and afterwards the stream content is exactly the rest; nothing is lost, duplicated or reordered, whatever the chunk boundaries and whatever reads and ungets came before.", "quantifier": "every chunking of every byte string, every history of read/next/unget", "why_tests_cant": "chunk boundaries and read sizes combine in unboundedly many ways", "anchors": ["request_parser/utils/datastructures.py:LazyStream"]}
{"id": "C08", "title": "LazyStream.tell() is the net number of bytes consumed", "statement": "After any successful history of read, next and unget calls, tell() equals the number of bytes returned by read/next minus the number of bytes pushed back by unget.", "quantifier": "every history of stream operations", "why_tests_cant": "arbitrary interleavings of partial reads and push-backs", "anchors": ["request_parser/utils/datastructures.py:LazyStream.tell", "request_parser/utils/datastructures.py:LazyStream.next", "request_parser/utils/datastructures.py:LazyStream.unget"]}
{"id": "C09", "title": "unget undoes read", "statement": "Pushing back the bytes just read restores the stream: the remaining content and tell() are what they were before the read.", "quantifier": "every stream state and read size", "why_tests_cant": "must hold at every position relative to chunk boundaries", "anchors": ["request_parser/utils/datastructures.py:LazyStream.unget"]}
{"id": "C10", "title": "The anti-loop guard never fires on pure reading, and always fires on a stuck parser", "statement": "No sequence of read(n)/next calls on a fresh LazyStream ever raises SuspiciousMultipartForm, and pushing back the same number of bytes 41 times without fetching new data always does, on the 41st push at the latest.", "quantifier": "every chunking, every sequence of read sizes; every stream state", "why_tests_cant": "the guard counts within a sliding window of 50 so only long histories exercise it", "anchors": ["request_parser/utils/datastructures.py:LazyStream._update_unget_history"]}
{"id": "C11", "title": "ChunkIter yields non-empty bounded chunks that concatenate to the source", "statement": "Iterating ChunkIter(flo, n) yields non-empty chunks of at most n bytes whose concatenation is the whole content of flo, every chunk but the last having exactly n bytes.", "quantifier": "every source content, source chunking and n >= 1", "why_tests_cant": "all sizes relative to n", "anchors": ["request_parser/utils/datastructures.py:ChunkIter"]}
{"id": "C12", "title": "Part iteration cuts the body exactly at the separator, independently of chunk size", "statement": "Iterating the stream of one multipart part yields exactly the bytes before the first occurrence of the separator '--boundary' minus one directly preceding line end (CRLF, LF or CR), never any separator byte, and leaves the body stream positioned exactly after the separator; if there is no separator it yields all the remaining bytes. This holds for every chunk size >= 1 and every way the input arrives in chunks.", "quantifier": "every body, every boundary, every chunking of the input", "why_tests_cant": "separator straddling chunk boundaries at every offset", "anchors": ["request_parser/http/multipartparser.py:BoundaryIter", "request_parser/http/multipartparser.py:InterBoundaryIter"]}
{"id": "C13", "title": "Reading any multipart body never trips the loop guard", "statement": "Whatever the body bytes, boundary and chunking, reading parts one after another (each part's header chunk read, then any amount of its data) never raises SuspiciousMultipartForm.", "quantifier": "every body and chunking, any number of parts", "why_tests_cant": "needs more than 41 parts in specific alignments", "anchors": ["request_parser/http/multipartparser.py:BoundaryIter", "request_parser/utils/datastructures.py:LazyStream._update_unget_history"]}
{"id": "C14", "title": "Part iteration terminates and makes progress", "statement": "For every body the number of parts produced is finite and bounded by the body length; every part consumes at least one byte of the body.", "quantifier": "every body, boundary and chunking", "why_tests_cant": "termination is a statement about all inputs", "anchors": ["request_parser/http/multipartparser.py:InterBoundaryIter.next", "request_parser/http/multipartparser.py:Parser.__iter__"]}
{"id": "C15", "title": "Header parameter splitting respects quotes and loses nothing", "statement": "parse_header splits the header at exactly those semicolons that are preceded by an even number of double quotes within the current parameter; joining the unstripped parameters with ';' gives back the header, so no byte is lost or invented.", "quantifier": "every header byte string", "why_tests_cant": "all placements of quotes and semicolons", "anchors": ["request_parser/http/multipartparser.py:_parse_header_params"]}
{"id": "C16", "title": "Quoted parameter values round-trip", "statement": "For every byte value, writing it as a double-quoted parameter with backslash escapes for backslash and quote and parsing the header back yields the value, provided the value has no double quote before a semicolon (the code counts escaped quotes as quotes).", "quantifier": "every parameter value and surrounding header", "why_tests_cant": "escape/unescape interplay on all strings", "anchors": ["request_parser/http/multipartparser.py:parse_header"]}
{"id": "C17", "title": "parse_header is case-insensitive in the key and parameter names only", "statement": "The returned key and parameter names are the stripped and lower-cased originals (a trailing * removed from names); parameter values keep their case byte for byte.", "quantifier": "every header", "why_tests_cant": "all letters in all positions", "anchors": ["request_parser/http/multipartparser.py:parse_header"]}
{"id": "C18", "title": "multipart/form-data fields round-trip for every chunk size", "statement": "For every list of form fields (name, value bytes) rendered as a multipart/form-data body with a boundary that does not occur in them, the parser returns exactly these fields, in order, under their names, with their bytes unchanged, for every chunk size and input chunking (within the configured limits).", "quantifier": "every list of fields, every boundary, every chunk size >= 1", "why_tests_cant": "contents, sizes and chunk alignment are unbounded", "anchors": ["request_parser/http/multipartparser.py:MultiPartParser.parse", "request_parser/http/multipartparser.py:parse_boundary_stream", "request_parser/http/multipartparser.py:Parser"]}
{"id": "C19", "title": "uploaded file content round-trips for every chunk size and handler configuration", "statement": "For every non-empty file part in a well-formed body, FILES holds an object under the field name whose content is exactly the part's bytes and whose size is their number, whether it is kept in memory or in a temporary file, and for every chunk size.", "quantifier": "every file content, chunk size, memory limit", "why_tests_cant": "content size relative to chunk size and memory threshold", "anchors": ["request_parser/http/multipartparser.py:MultiPartParser.parse", "request_parser/files/uploadhandler.py:ConvenientFileUploadHandler", "request_parser/files/uploadhandler.py:MemoryFileUploadHandler", "request_parser/files/uploadhandler.py:TemporaryFileUploadHandler"]}
{"id": "C20", "title": "Field count limit", "statement": "Parsing a multipart body succeeds only if the number of form fields is at most DATA_UPLOAD_MAX_NUMBER_FIELDS; with more fields it raises TooManyFieldsSent and never returns a POST dictionary with more entries than the limit.", "quantifier": "every body and limit", "why_tests_cant": "off-by-one at every limit", "anchors": ["request_parser/http/multipartparser.py:MultiPartParser.parse"]}
{"id": "C21", "title": "Memory limit for form fields", "statement": "If multipart parsing returns, the total size of all field values plus names plus 2 bytes per field is at most DATA_UPLOAD_MAX_MEMORY_SIZE, and no single field read ever asks the stream for more than the remaining budget; the internal 'remaining bytes should never go negative' assertion never fires.", "quantifier": "every body, limit and chunking", "why_tests_cant": "accumulation over unboundedly many fields", "anchors": ["request_parser/http/multipartparser.py:MultiPartParser.parse", "request_parser/utils/datastructures.py:LazyStream.read"]}
{"id": "C22", "title": "Parsing terminates on every body", "statement": "MultiPartParser.parse() returns or raises on every finite input.", "quantifier": "every body, boundary, chunk size", "why_tests_cant": "termination for all inputs cannot be tested", "anchors": ["request_parser/http/multipartparser.py:MultiPartParser.parse"]}
{"id": "C23", "title": "Upload handlers receive contiguous data", "statement": "For every handler configuration, the `start` offset passed to receive_data_chunk is the total length of the data passed to that handler before for the same file, and file_complete receives the total length.", "quantifier": "every list of handlers (including user-defined), every file", "why_tests_cant": "unbounded number of chunks and handlers", "anchors": ["request_parser/http/multipartparser.py:MultiPartParser.parse", "request_parser/http/multipartparser.py:MultiPartParser.handle_file_complete"]}
{"id": "C24", "title": "ConvenientFileUploadHandler keeps at most the configured number of bytes in memory and never corrupts content", "statement": "Over any sequence of files and chunks, the content of each completed file is the concatenation of its chunks, whether or not the switch to a temporary file happened in the middle, and the total bytes ever held in memory files is at most FILE_UPLOAD_MAX_MEMORY_SIZE.", "quantifier": "every sequence of files and chunk sizes, every limit", "why_tests_cant": "the switch can happen at any chunk of any file", "anchors": ["request_parser/files/uploadhandler.py:ConvenientFileUploadHandler"]}
{"id": "C25", "title": "A truncated upload never appears in FILES", "statement": "If the body ends inside a file part (no separator after it), that file is not in FILES.", "quantifier": "every truncation point of every body", "why_tests_cant": "all truncation points", "anchors": ["request_parser/http/multipartparser.py:MultiPartParser.parse", "request_parser/http/multipartparser.py:MultiPartParser.handle_file_complete"]}
{"id": "C26", "title": "Every complete uploaded file appears in FILES", "statement": "Every file part that is followed by a separator appears in FILES, including empty files and a final file whose closing separator ends the body.", "quantifier": "every body", "why_tests_cant": "edge cases depend on truthiness of file objects and on trailing bytes", "anchors": ["request_parser/http/multipartparser.py:MultiPartParser.handle_file_complete", "request_parser/files/base.py:File.__len__"]}
{"id": "C27", "title": "Data after the closing separator is ignored", "statement": "Bytes following '--boundary--' (the epilogue) contribute no field and no file.", "quantifier": "every epilogue", "why_tests_cant": "arbitrary epilogue bytes", "anchors": ["request_parser/http/multipartparser.py:Parser.__iter__"]}
{"id": "C28", "title": "Parsing result does not depend on chunk size", "statement": "The POST and FILES contents depend only on the body bytes, boundary and settings, not on the handlers' chunk_size or on how the input stream is chunked.", "quantifier": "every body, every two chunkings", "why_tests_cant": "all pairs of chunkings", "anchors": ["request_parser/http/multipartparser.py:MultiPartParser.parse", "request_parser/http/multipartparser.py:InterBoundaryIter.next"]}
{"id": "C29", "title": "Content-Length zero or absent means an empty form", "statement": "A multipart body with Content-Length absent, unparsable or 0 yields empty POST and FILES without reading the stream or calling any handler; a negative length raises MultiPartParserError; any positive value gives the same result as any other (the stream is read to its end).", "quantifier": "every header value and body", "why_tests_cant": "all integer spellings", "anchors": ["request_parser/http/multipartparser.py:MultiPartParser.__init__", "request_parser/http/multipartparser.py:MultiPartParser.parse"]}
{"id": "C30", "title": "A raw-input handler overrides everything", "statement": "If a handler's handle_raw_input returns a pair, parse() returns exactly it, later handlers are not consulted and the body is not parsed; otherwise every handler is consulted once, in order.", "quantifier": "every list of handlers", "why_tests_cant": "every position of the overriding handler", "anchors": ["request_parser/http/multipartparser.py:MultiPartParser.parse"]}
{"id": "C31", "title": "Stored file names carry no path", "statement": "The name of every uploaded file object contains no '/' and, when produced by the multipart parser, no backslash, and is at most 255 characters long.", "quantifier": "every client-supplied file name", "why_tests_cant": "all strings", "anchors": ["request_parser/files/uploadedfile.py:UploadedFile._set_name", "request_parser/http/multipartparser.py:MultiPartParser.IE_sanitize"]}
{"id": "C32", "title": "Invalid multipart parameters raise MultiPartParserError", "statement": "A multipart/form-data request whose Content-Type has no usable boundary, or whose base64 file data cannot be decoded, raises MultiPartParserError.", "quantifier": "every Content-Type header and body", "why_tests_cant": "all malformed inputs", "anchors": ["request_parser/http/multipartparser.py:MultiPartParser.__init__", "request_parser/http/multipartparser.py:MultiPartParser.parse"]}
{"id": "C33", "title": "The chunk size used is the smallest the handlers ask for", "statement": "The parser reads the input in chunks of min(2^31-4, all handler chunk sizes), never more than 2^31-4.", "quantifier": "every list of handlers", "why_tests_cant": "all lists", "anchors": ["request_parser/http/multipartparser.py:MultiPartParser.__init__"]}
{"id": "C34", "title": "Header parsing leaves exactly the body on the stream", "statement": "After a successful header parse the bytes still readable from the request are exactly those after the first CRLF CRLF of the input, for every MAX_HEADER_SIZE >= 1 and every chunking of the input stream; the parsed header is exactly what precedes it.", "quantifier": "every request, every chunking, every MAX_HEADER_SIZE", "why_tests_cant": "terminator straddling reads at every offset", "anchors": ["request_parser/http/request.py:HttpRequest.parse_request_header"]}
{"id": "C35", "title": "Request headers round-trip", "statement": "For every request line and every non-empty list of (name, value) headers with ASCII names without ':' or CRLF and stripped values without CRLF, parsing the rendered header block returns that request line and, for each name, all its values in order.", "quantifier": "every header list", "why_tests_cant": "unbounded lists with repetitions", "anchors": ["request_parser/http/request.py:parse_request_headers"]}
{"id": "C36", "title": "Malformed header blocks are rejected", "statement": "A header block without CRLF after the request line, with a header line lacking ':', or with no headers at all raises InvalidHttpRequest; the request line must consist of exactly three space-separated tokens.", "quantifier": "every byte string", "why_tests_cant": "all malformed inputs", "anchors": ["request_parser/http/request.py:parse_request_headers", "request_parser/http/request.py:parse_request_line"]}
{"id": "C37", "title": "Host validation is sound", "statement": "split_domain_port returns ('','') unless the host has the form name[:digits] or [ipv6][:digits]; the returned domain is lower-case, made only of permitted characters, has at most one trailing dot removed, and the port is all digits; reassembling gives the lower-cased host.", "quantifier": "every host string", "why_tests_cant": "all strings against the validation regex", "anchors": ["request_parser/http/request.py:split_domain_port"]}
{"id": "C38", "title": "Default port and scheme", "statement": "After header parsing the port is the explicit port of the host if there is one, else 443 for https, 80 for http, 65536 otherwise; the scheme is the lower-cased URI scheme or UNKNOWN.", "quantifier": "every request header", "why_tests_cant": "all requests", "anchors": ["request_parser/http/request.py:HttpRequest.parse_request_header"]}
{"id": "C39", "title": "Header parsing happens once", "statement": "A second parse_request_header() call changes nothing and reads nothing; in particular after a failed parse it silently returns.", "quantifier": "every request object state", "why_tests_cant": "all histories", "anchors": ["request_parser/http/request.py:HttpRequest.parse_request_header"]}
{"id": "C40", "title": "Body parsing happens once", "statement": "After a parse_request_body() call that stored a non-empty body, further parse_request_body() calls change nothing.", "quantifier": "every request object state", "why_tests_cant": "all histories", "anchors": ["request_parser/http/request.py:HttpRequest.parse_request_body"]}
{"id": "C41", "title": "Body size limit is exact", "statement": "body() succeeds iff the remaining body has at most DATA_UPLOAD_MAX_MEMORY_SIZE bytes and then returns exactly those bytes; otherwise it raises RequestDataTooBig.", "quantifier": "every body, limit and chunking", "why_tests_cant": "boundary values of size vs. 64 KiB read chunks", "anchors": ["request_parser/http/request.py:HttpRequest.body"]}
{"id": "C42", "title": "body() is stable and guarded", "statement": "Once read, body() returns the same value on every later call; after form or multipart parsing it raises RawPostDataException.", "quantifier": "every history of calls", "why_tests_cant": "all histories", "anchors": ["request_parser/http/request.py:HttpRequest.body"]}
{"id": "C43", "title": "Assigning a new stream and parsing gives the result for the new stream", "statement": "After request.stream = s, parse() leaves the request with the same method, headers, GET, POST, FILES and body as a fresh HttpRequest(s) parsed with the same settings.", "quantifier": "every earlier history and every new stream", "why_tests_cant": "depends on leftover state of every earlier history", "anchors": ["request_parser/http/request.py:HttpRequest.stream", "request_parser/http/request.py:HttpRequest._reset_header_meta_data"]}
{"id": "C44", "title": "Assigning a new body stream reparses the body from scratch", "statement": "After request.body_stream = s, parse_request_body() yields POST, FILES and body determined by s and the current header data only, independent of any body parsed before.", "quantifier": "every earlier history", "why_tests_cant": "all histories", "anchors": ["request_parser/http/request.py:HttpRequest.body_stream"]}
{"id": "C45", "title": "Requests sharing a Settings object do not influence each other", "statement": "Parsing one request never changes how another request using the same Settings object is decoded.", "quantifier": "every pair of requests sharing settings", "why_tests_cant": "cross-request history", "anchors": ["request_parser/http/request.py:HttpRequest.encoding", "request_parser/http/request.py:HttpRequest.parse_request_header"]}
{"id": "C46", "title": "Assigned upload handlers are used", "statement": "Upload handlers assigned through request.upload_handlers before body parsing are the ones used for it.", "quantifier": "every handler list", "why_tests_cant": "all handler lists and histories", "anchors": ["request_parser/http/request.py:HttpRequest.upload_handlers", "request_parser/http/request.py:HttpRequest.parse_request_body"]}
{"id": "C47", "title": "Header size is bounded by MAX_HEADER_SIZE", "statement": "Header parsing never buffers more than MAX_HEADER_SIZE bytes before giving up.", "quantifier": "every request", "why_tests_cant": "unbounded header", "anchors": ["request_parser/http/request.py:HttpRequest.parse_request_header"]}
{"id": "C48", "title": "URL splitting partitions the URL", "statement": "_urlparse returns scheme, netloc, path, params, query, fragment such that path contains no '?' or '#', query contains no '#', netloc contains no '/', '?' or '#', and reassembling the components gives the URL back (up to scheme case and empty-component delimiters).", "quantifier": "every URL", "why_tests_cant": "all strings", "anchors": ["request_parser/utils/http.py:_urlparse", "request_parser/utils/http.py:_urlsplit"]}
{"id": "C49", "title": "is_safe_url is sound", "statement": "is_safe_url(url, hosts) is True only if, both for the URL as given and with backslashes turned into slashes, the host part is empty or in the allowed hosts, the scheme is http(s) (https only if required) or absent, there is a host whenever there is a scheme, and the URL does not start with three slashes or a control character.", "quantifier": "every URL and host set", "why_tests_cant": "security property over all strings", "anchors": ["request_parser/utils/http.py:is_safe_url", "request_parser/utils/http.py:_is_safe_url"]}
{"id": "C50", "title": "is_same_domain implements exact and wildcard match", "statement": "is_same_domain(host, pattern) is true iff the lower-cased pattern equals the host, or it starts with '.' and the host is the pattern without the dot or ends with the pattern; the empty pattern matches nothing.", "quantifier": "every host and pattern", "why_tests_cant": "all strings", "anchors": ["request_parser/utils/http.py:is_same_domain"]}
{"id": "C51", "title": "Query string field limit is exact", "statement": "limited_parse_qsl with limit n >= 1 raises TooManyFieldsSent iff the query string has more than n '&'/';'-separated pieces (empty pieces count); otherwise the result equals the unlimited result. A limit of 0 or None means no limit.", "quantifier": "every query string and limit", "why_tests_cant": "boundary at every limit", "anchors": ["request_parser/utils/http.py:limited_parse_qsl"]}
{"id": "C52", "title": "Query strings round-trip", "statement": "Parsing the urlencoded form of any list of key/value pairs gives the list back, in order, including empty keys/values, '&', ';', '=', '+', '%' and spaces; and QueryDict(urlencode(d)) has the same lists as d.", "quantifier": "every list of pairs", "why_tests_cant": "all bytes in all positions", "anchors": ["request_parser/utils/http.py:limited_parse_qsl", "request_parser/http/request.py:QueryDict.urlencode"]}
{"id": "C53", "title": "QueryDict groups query pairs by key in order", "statement": "For a QueryDict built from a query string, getlist(k) is the list of the values of all pairs with key k in the order they occur.", "quantifier": "every query string and key", "why_tests_cant": "unbounded repetition patterns", "anchors": ["request_parser/http/request.py:QueryDict.__init__"]}
{"id": "C54", "title": "iri_to_uri output is ASCII and iri_to_uri is idempotent", "statement": "iri_to_uri maps every byte string to a string of URI-legal ASCII characters, leaves such strings unchanged, and applying it twice equals applying it once.", "quantifier": "every IRI", "why_tests_cant": "all bytes", "anchors": ["request_parser/utils/encoding.py:iri_to_uri"]}
{"id": "C55", "title": "Percent-encoding is reversible", "statement": "uri_to_iri(iri_to_uri(x)) gives back x for every UTF-8 string without '%'; percent-decoding inverts escape_uri_path with encode_percent=True for every byte string.", "quantifier": "every string", "why_tests_cant": "all bytes in all combinations", "anchors": ["request_parser/utils/encoding.py:uri_to_iri", "request_parser/utils/encoding.py:escape_uri_path"]}
{"id": "C56", "title": "get_full_path is a safe ASCII path", "statement": "get_full_path() contains only URI-safe ASCII characters, and set_path followed by get_full_path is stable (encoding the encoded path changes nothing).", "quantifier": "every path and query string", "why_tests_cant": "all byte strings", "anchors": ["request_parser/http/request.py:HttpRequest.get_full_path", "request_parser/http/request.py:HttpRequest.set_path", "request_parser/utils/encoding.py:escape_uri_path"]}
{"id": "C57", "title": "escape_leading_slashes never returns a scheme-relative URL", "statement": "The result never starts with '//' and differs from the input only if the input did.", "quantifier": "every URL", "why_tests_cant": "all strings", "anchors": ["request_parser/utils/http.py:escape_leading_slashes"]}
{"id": "C58", "title": "base36 round-trip", "statement": "base36_to_int(int_to_base36(i)) == i for every 0 <= i < 36^13; for larger i it raises ValueError; int_to_base36 raises ValueError on negatives and yields no leading zero.", "quantifier": "every integer", "why_tests_cant": "unbounded integers", "anchors": ["request_parser/utils/http.py:base36_to_int", "request_parser/utils/http.py:int_to_base36"]}
{"id": "C59", "title": "URL-safe base64 round-trip", "statement": "urlsafe_base64_decode(urlsafe_base64_encode(b)) == b for every byte string, and the encoded text uses only letters, digits, '-' and '_'.", "quantifier": "every byte string", "why_tests_cant": "all lengths modulo 3 and all bytes", "anchors": ["request_parser/utils/http.py:urlsafe_base64_encode", "request_parser/utils/http.py:urlsafe_base64_decode"]}
{"id": "C60", "title": "ETag parsing returns only well-formed ETags", "statement": "parse_etags returns ['*'] for '*', else exactly the well-formed (optionally weak) quoted tags of the comma-separated list in order; quote_etag always returns its input or its input in quotes and is idempotent on inputs without inner quotes.", "quantifier": "every header string", "why_tests_cant": "all strings", "anchors": ["request_parser/utils/http.py:parse_etags", "request_parser/utils/http.py:quote_etag"]}
{"id": "C61", "title": "HTTP dates round-trip", "statement": "parse_http_date(http_date(t)) == t for every integral t in the years 1970..9999, and the same instant in RFC850/asctime form parses equal within the supported year range.", "quantifier": "every timestamp", "why_tests_cant": "all days incl. leap years and centuries", "anchors": ["request_parser/utils/http.py:parse_http_date", "request_parser/utils/http.py:http_date"]}
{"id": "C62", "title": "unescape_entities only rewrites complete entities", "statement": "Text without a complete '&...;' entity is returned unchanged; decimal and hexadecimal references below 256 are replaced by that byte, all other references are left as they are.", "quantifier": "every text", "why_tests_cant": "all strings", "anchors": ["request_parser/utils/text.py:unescape_entities"]}
{"id": "C63", "title": "Line iteration over an uploaded file is independent of chunk size", "statement": "Iterating a File yields exactly content.splitlines(True): the lines concatenate to the content and do not depend on how the file is read in chunks (CRLF split across chunks included).", "quantifier": "every content and every chunk size", "why_tests_cant": "CR/LF at every chunk boundary", "anchors": ["request_parser/files/base.py:File.__iter__"]}
{"id": "C64", "title": "File.chunks covers the file", "statement": "chunks(n) yields non-empty pieces of at most n bytes concatenating to the whole content from offset 0 regardless of the current position.", "quantifier": "every content, chunk size and file position", "why_tests_cant": "all sizes", "anchors": ["request_parser/files/base.py:File.chunks"]}
{"id": "C65", "title": "Settings override exactly what is given", "statement": "Settings(d) for a non-empty dict has, for every setting, the value in d if the key is present and the default otherwise; for anything else it has no settings at all.", "quantifier": "every settings dictionary", "why_tests_cant": "all subsets of keys", "anchors": ["request_parser/conf/settings.py:Settings"]}
{"id": "C66", "title": "ImmutableList cannot be mutated", "statement": "Every list-mutating method of ImmutableList raises the configured warning (AttributeError with the message, or the given exception) and never changes its elements.", "quantifier": "every list, method and argument", "why_tests_cant": "all method sequences", "anchors": ["request_parser/utils/datastructures.py:ImmutableList"]}
{"id": "C67", "title": "Complete list of exceptions of multipart parsing", "statement": "Apart from exceptions raised by upload handlers or codecs themselves, parsing a multipart body (with non-negative limits) raises only TooManyFieldsSent, RequestDataTooBig, TypeError (undecodable base64), UnicodeEncodeError or OverflowError (names); in particular the guard against endless push-backs and internal assertions never stop a parse.", "quantifier": "every body, boundary, chunk size, input chunking, handler list and settings with non-negative memory limit", "why_tests_cant": "that no further exception type can escape is a statement about all bodies", "anchors": ["request_parser/http/multipartparser.py:MultiPartParser.parse", "request_parser/http/multipartparser.py:LazyStream"]}
{"id": "C68", "title": "Stored file names are usable as file names", "statement": "The name of every file stored by the built-in handlers is non-empty and is neither '.' nor '..'.", "quantifier": "every client-supplied file name", "why_tests_cant": "Names are produced by entity decoding, backslash stripping, basename and truncation; the bad results come from rare combinations of these.", "anchors": ["request_parser/files/uploadedfile.py:UploadedFile._set_name", "request_parser/http/multipartparser.py:MultiPartParser.IE_sanitize"]}
{"id": "C69", "title": "A body over the limit is never handed out in part", "statement": "If body() has raised RequestDataTooBig for a body, a later call does not return a part of that body as if it were the whole.", "quantifier": "every body, limit and chunking", "why_tests_cant": "needs the retry after an error for all sizes relative to the 64 KiB reads", "anchors": ["request_parser/http/request.py:HttpRequest.body"]}
{"id": "C70", "title": "Reading the raw body first does not lose the form", "statement": "After body() has returned, parse_request_body() yields the same POST and FILES as without that call.", "quantifier": "every request", "why_tests_cant": "all histories and bodies", "anchors": ["request_parser/http/request.py:HttpRequest.body", "request_parser/http/request.py:HttpRequest.parse_request_body"]}
{"id": "C71", "title": "Malformed URL-safe base64 is reported as ValueError", "statement": "urlsafe_base64_decode(s) either returns bytes or raises ValueError (UnicodeDecodeError included), for every byte string s.", "quantifier": "every byte string", "why_tests_cant": "all malformed texts", "anchors": ["request_parser/utils/http.py:urlsafe_base64_decode"]}
{"id": "C72", "title": "Invalid HTTP dates are reported as ValueError", "statement": "parse_http_date(s) returns a number or raises ValueError, for every byte string s; parse_http_date_safe returns None whenever parse_http_date raises.", "quantifier": "every byte string", "why_tests_cant": "all malformed and non-existing dates", "anchors": ["request_parser/utils/http.py:parse_http_date", "request_parser/utils/http.py:parse_http_date_safe"]}
{"id": "C73", "title": "The upload directory is an absolute normal path", "statement": "For every configured FILE_UPLOAD_TEMP_DIR, relative or absolute, with any mix of '.', '..' and repeated slashes, the directory used is an absolute path without empty, '.' or '..' components.", "quantifier": "every directory string and file system state", "why_tests_cant": "all path shapes", "anchors": ["request_parser/conf/settings.py:Settings._check_upload_dir", "request_parser/files/utils.py:get_abs_path"]}
{"id": "C74", "title": "UTF-8 query strings are read exactly", "statement": "With charset utf-8, pairs of Unicode text written as UTF-8 and form-encoded in any way are read back exactly by limited_parse_qsl and QueryDict; bytes that are not UTF-8 are marked with U+FFFD, and a value without U+FFFD is exactly the text of its bytes; QueryDict(d.urlencode()) equals d.", "quantifier": "all lists of pairs of Unicode strings, all form-encodings, all byte strings", "why_tests_cant": "all code points, all malformed byte sequences and all ways of escaping", "anchors": ["request_parser/utils/http.py:limited_parse_qsl", "request_parser/http/request.py:QueryDict.__init__", "request_parser/http/request.py:QueryDict.urlencode"]}
{"id": "C75", "title": "UTF-8 IRIs and paths survive conversion", "statement": "uri_to_iri(iri_to_uri(x)) = x for the UTF-8 form x of every Unicode text without '%'; the path stored by set_path comes back unchanged from get_full_path and storing it again changes nothing.", "quantifier": "all Unicode texts, all paths", "why_tests_cant": "all code points", "anchors": ["request_parser/utils/encoding.py:iri_to_uri", "request_parser/utils/encoding.py:uri_to_iri", "request_parser/http/request.py:HttpRequest.get_full_path"]}
{"id": "C76", "title": "The header of every well-formed request is read as written", "statement": "For every request with a well-formed request line (target in origin or absolute form, path starting with one slash and without ';'), at least one header field, values of visible ASCII with inner blanks, a valid host and a query string in form encoding, creating HttpRequest on a stream of its bytes and calling parse_request_header() returns normally; afterwards method, scheme, host, port, path, protocol, GET, content_type and META have exactly the values that were written (header field values grouped by name in their order, the Host header removed when it named the host), and DEFAULT_CHARSET is the charset parameter of the last Content-Type header if there is one.", "quantifier": "all requests, all cuttings of their text into chunks, all settings with MAX_HEADER_SIZE >= 1, all encodings that extend ASCII", "why_tests_cant": "The round trip ranges over every method, target, header list, parameter list and query string, and every chunking; tests use a handful of requests.", "anchors": ["request_parser/http/request.py:HttpRequest.parse_request_header", "request_parser/http/request.py:HttpRequest.__init__"]}
{"id": "C77", "title": "A whole request with a urlencoded form, another body or no body is parsed as written", "statement": "For every well-formed request as in C76, parse() on a new HttpRequest: with an application/x-www-form-urlencoded body within the limits POST has exactly the written pairs in their order and FILES is empty; with any other content type POST and FILES are empty and body() returns the decoded text, while a body that cannot be decoded in the charset makes parse() raise the codec's error; without a body POST and FILES are empty. The attributes of the header are as in C76.", "quantifier": "all requests, all chunkings, all bodies, all settings and encodings that extend ASCII", "why_tests_cant": "End-to-end composition of the header scanner, the push-back stream, the body reader and the form decoder; chunk edges and sizes interact in ways a finite test set cannot cover.", "anchors": ["request_parser/http/request.py:HttpRequest.parse", "request_parser/http/request.py:HttpRequest.parse_request_body", "request_parser/http/request.py:HttpRequest.body"]}
{"id": "C78", "title": "A whole multipart request is parsed as written", "statement": "For every well-formed request with Content-Type multipart/form-data, a valid boundary, a positive Content-Length and a body that encodes a form (fields and files, with any preamble and epilogue), parse() on a new HttpRequest with the library's upload handlers returns normally, POST has the field values in order by name, FILES has for every file of the form an uploaded file with its name, size and content, and the attributes of the header are as in C76.", "quantifier": "all requests, all forms within the limits, all chunkings, all lists of built-in handlers that take files", "why_tests_cant": "Composition of every layer of the library for unbounded inputs: header, boundary search, part headers, handlers, file storage.", "anchors": ["request_parser/http/request.py:HttpRequest.parse", "request_parser/http/request.py:HttpRequest._parse_file_upload", "request_parser/http/multipartparser.py:MultiPartParser.parse"]}
{"id": "C79", "title": "get_full_path writes path and query string escaped, apart, and unchanged in meaning", "statement": "For all byte-string paths and query strings get_full_path() returns exactly the path with every byte other than letters, digits and -._~/:@!$&'()*+,% written as %XX, then a slash if force_append_slash is given and the path does not end in one, then, unless the query string is empty, '?' and the query string with every byte that no URI may contain written as %XX; the text splits at its first '?' into the two parts and each part percent-decodes to the same bytes as before. With raw=True it returns the percent-decoded bytes when they are UTF-8.", "quantifier": "all byte strings as path and query string, both values of force_append_slash", "why_tests_cant": "Every byte in every position, in combination with escapes that are already there; a test checks some characters.", "anchors": ["request_parser/http/request.py:HttpRequest.get_full_path", "request_parser/http/request.py:HttpRequest._get_full_path", "request_parser/utils/encoding.py:escape_uri_path"]}
{"id": "C80", "title": "The path and URI of a parsed request are those that were sent", "statement": "For every well-formed request as in C76 whose path and query string need no escaping, get_full_path() returns path and query string as they were sent, and get_uri() returns the request target if that is absolute.", "quantifier": "all requests and all chunkings of their text", "why_tests_cant": "Ranges over all requests; composition of the header parser with the URI functions.", "anchors": ["request_parser/http/request.py:HttpRequest.get_uri", "request_parser/http/request.py:HttpRequest.get_full_path", "request_parser/http/request.py:HttpRequest.parse_request_header"]}
{"id": "C81", "title": "urlunquote undoes urlquote and urlunquote_plus undoes urlquote_plus", "statement": "For every text and every set of safe characters without '%', urlunquote(urlquote(text, safe)) is the text, and exactly the bytes of its UTF-8 form other than letters, digits, '_.-' and the safe characters are escaped; if '+' is not safe either, urlunquote_plus(urlquote_plus(text, safe)) is the text.", "quantifier": "all Unicode texts (as unicode or as UTF-8 bytes), all safe strings", "why_tests_cant": "All code points in all positions with all sets of safe characters.", "anchors": ["request_parser/utils/http.py:urlquote", "request_parser/utils/http.py:urlquote_plus", "request_parser/utils/http.py:urlunquote", "request_parser/utils/http.py:urlunquote_plus"]}
{"id": "C82", "title": "limited_parse_qsl undoes urlencode", "statement": "For every list of pairs of a name and a value, where a value is a string or a list of strings, urlencode(query) succeeds unless a value is None, and limited_parse_qsl reads the same names and values back in order; None in a value raises TypeError.", "quantifier": "all queries of strings and lists of strings, both values of doseq", "why_tests_cant": "Unbounded lists of arbitrary texts; separators and escapes inside names and values interact.", "anchors": ["request_parser/utils/http.py:urlencode", "request_parser/utils/http.py:limited_parse_qsl"]}
{"id": "C83", "title": "Files sent in base64 come back decoded", "statement": "In a form whose files are sent as they are or with Content-Transfer-Encoding: base64 (with white space anywhere in the encoded text), every file has in FILES exactly the bytes that were encoded, and fields and other files come back as in C18 and C19.", "quantifier": "every form, every choice of files to encode, every placement of white space, every chunk size and chunking, every list of built-in handlers one of which takes files", "why_tests_cant": "chunk boundaries may fall anywhere in the encoded text, also inside a group of four characters", "anchors": ["request_parser/http/multipartparser.py:MultiPartParser.parse"]}
{"id": "C84", "title": "Parsed query strings and forms are handed out read-only", "statement": "After parse_request_header returns, GET is immutable if the request has a query string (and a mutable empty dictionary if it has none). After parse_request_body returns, either the body was empty and POST is what it was before, or POST is immutable. No sequence of mutating methods changes a dictionary built as immutable.", "quantifier": "every request and every sequence of mutating method calls", "why_tests_cant": "histories are unbounded, and the flag is set on several paths", "anchors": ["request_parser/http/request.py:HttpRequest.parse_request_header", "request_parser/http/request.py:HttpRequest.parse_request_body", "request_parser/http/request.py:QueryDict.__init__"]}
{"id": "C85", "title": "What a multipart body means", "statement": "Parsing a multipart body with the built-in handlers gives exactly the fields, the files or the error that the body means. The meaning is defined part by part on the whole body: cut it at each separator, read the header of the part, then a part without a name adds nothing, a field adds its (decoded) bytes to POST or ends the parsing when a limit is exceeded, and a file adds its (decoded) bytes to FILES as soon as something follows its separator.", "quantifier": "all bodies that have a meaning in this sense, all settings, all lists of built-in handlers one of which takes files, all chunk sizes and all chunkings of the input", "why_tests_cant": "the definition is on the whole body while the code works on chunks, so unboundedly many bodies and chunkings meet one definition", "anchors": ["request_parser/http/multipartparser.py:MultiPartParser.parse", "request_parser/http/multipartparser.py:parse_boundary_stream"]}
{"id": "C86", "title": "Named handlers are loaded from where their names say", "statement": "import_string(path) returns the attribute that the dotted path names, or raises ImportError. The upload handlers named in the settings are loaded in that order, each from its own module.", "quantifier": "for all sets of importable modules, all dotted paths and all lists of handler names", "why_tests_cant": "Tests import a few paths that exist; the claim is about every path, including those without a dot and those whose attribute is missing.", "anchors": ["request_parser/utils/module_loading.py:import_string", "request_parser/files/uploadhandler.py:load_handler", "request_parser/http/request.py:HttpRequest._initialize_handlers"]}
{"id": "C87", "title": "The default configuration parses a whole multipart request as it was written", "statement": "With Settings.default() and the library installed, parsing a well-formed multipart request within the default limits yields its fields and files as they were written, however the bytes arrive.", "quantifier": "for all streams, all chunkings, all requests and all forms within the limits", "why_tests_cant": "A test fixes one request and one chunking, and usually configures its own handlers.", "anchors": ["request_parser/conf/settings.py:Settings.default", "request_parser/http/request.py:HttpRequest.parse", "request_parser/http/request.py:HttpRequest._initialize_handlers"]}
{"id": "C88", "title": "multiple_chunks() tells whether chunks() yields more than one piece", "statement": "For an open uploaded file whose size is that of its content, multiple_chunks(n) is true exactly if chunks(n) yields more than one piece, and the pieces joined are the content.", "quantifier": "for all uploaded files, in memory or on disk, and all chunk sizes n that are None or not negative", "why_tests_cant": "The boundary lies where the size equals the chunk size; tests use sizes far from it.", "anchors": ["request_parser/files/base.py:File.multiple_chunks", "request_parser/files/base.py:File.chunks", "request_parser/files/uploadedfile.py:InMemoryUploadedFile.multiple_chunks"]}
{"id": "C89", "title": "Opening an uploaded file again gives its own content or ValueError", "statement": "open() on an uploaded file that is open rewinds it. On one that is closed it raises ValueError; it never opens another file.", "quantifier": "for all uploaded files, open or closed, all names, all modes and all states of the working directory", "why_tests_cant": "A test's working directory does not happen to have a file with the client's name.", "anchors": ["request_parser/files/base.py:File.open", "request_parser/files/uploadedfile.py:TemporaryUploadedFile.close", "request_parser/files/uploadedfile.py:InMemoryUploadedFile.open"]}
{"id": "C90", "title": "A file object is true exactly if it has a name", "statement": "The truth value of a File is whether it has a name, and its length is the number of its bytes.", "quantifier": "for all file objects, whatever their class, name and content", "why_tests_cant": "The tests run under an interpreter that honours __bool__, or use files that have both a name and content.", "anchors": ["request_parser/files/base.py:File.__bool__", "request_parser/files/base.py:File.__len__", "request_parser/files/uploadedfile.py:SimpleUploadedFile.__init__"]}
{"id": "C91", "title": "items(), values() and dict() show every key once with its last value", "statement": "items() yields every key of a MultiValueDict exactly once, with the value self[key] has: the last of its list, or an empty list. values() yields these values in the same order and dict() is the plain dictionary of these pairs. None of them changes a dictionary.", "quantifier": "for all dictionaries in all states of memory", "why_tests_cant": "The empty list and the sharing of lists are corner cases; a test looks at one small dictionary.", "anchors": ["request_parser/utils/datastructures.py:MultiValueDict.items", "request_parser/utils/datastructures.py:MultiValueDict.values", "request_parser/utils/datastructures.py:MultiValueDict.dict"]}
{"id": "C92", "title": "A MultiValueDict survives pickling", "statement": "__getstate__ returns a state from which __setstate__ restores a dictionary with the same lists.", "quantifier": "for all dictionaries in all states of memory", "why_tests_cant": "The methods are not called by any test; the claim is about every content.", "anchors": ["request_parser/utils/datastructures.py:MultiValueDict.__getstate__", "request_parser/utils/datastructures.py:MultiValueDict.__setstate__"]}
{"id": "C93", "title": "The accessors of a parsed request tell what was sent", "statement": "After the header of a well-formed request has been parsed, the method, protocol and host are as written, get_port() is the port as written or the default of the scheme, is_secure() says whether the scheme is https and is_plain_text() whether the media type is text/plain, regardless of the case of letters. set_scheme() replaces the scheme unless given nothing.", "quantifier": "for all well-formed requests, all chunkings and all settings", "why_tests_cant": "Tests check a handful of requests.", "anchors": ["request_parser/http/request.py:HttpRequest.get_port", "request_parser/http/request.py:HttpRequest.is_secure", "request_parser/http/request.py:HttpRequest.is_plain_text", "request_parser/http/request.py:HttpRequest.set_scheme"]}
{"id": "C94", "title": "close() closes all files of the request", "statement": "HttpRequest.close() closes every uploaded file of the request, whatever the application has done with the temporary files, and touches no other file.", "quantifier": "for all requests, all uploaded files in memory and on disk, and all sets of temporary files that have been moved away", "why_tests_cant": "A test would have to upload several files and move one of them before closing.", "anchors": ["request_parser/http/request.py:HttpRequest.close", "request_parser/files/uploadedfile.py:TemporaryUploadedFile.close"]}
{"id": "C95", "title": "A request can be read like a file", "statement": "read(n) returns the next n bytes that have not been read, readline() the next line, iteration yields the lines; stream returns the stream that was assigned.", "quantifier": "for all requests, all chunkings and all n", "why_tests_cant": "Reading interacts with the header parser, which reads ahead and puts back; a test sees one chunking.", "anchors": ["request_parser/http/request.py:HttpRequest.read", "request_parser/http/request.py:HttpRequest.readline", "request_parser/http/request.py:HttpRequest.__iter__", "request_parser/http/request.py:HttpRequest.xreadlines", "request_parser/http/request.py:HttpRequest.readlines"]}
{"id": "C96", "title": "The media type of a multipart request may be written in any case", "statement": "A multipart request is parsed as it was written whatever the case of the letters of its media type (RFC 7231, 3.1.1.1).", "quantifier": "for all well-formed multipart requests and all ways to write the media type", "why_tests_cant": "Tests use the usual spelling.", "anchors": ["request_parser/http/multipartparser.py:MultiPartParser.__init__", "request_parser/http/request.py:HttpRequest.parse_request_body"]}
{"id": "C97", "title": "A deep copy of a MultiValueDict is equal, equally shared and separate", "statement": "copy.deepcopy of a MultiValueDict or ImmutableMultiValueDict is a dictionary of the same class with the same keys in the same order and, down to the innermost lists, the same elements; two lists in the copy are one object exactly if the originals were one object; no list of the copy existed before; nothing that existed is changed. It fails only for a QueryDict and when the nesting is deeper than the interpreter allows.", "quantifier": "for all dictionaries whose lists hold values and lists, with any sharing and any cycles", "why_tests_cant": "Sharing and cycles have unboundedly many shapes; tests copy a flat dictionary.", "anchors": ["request_parser/utils/datastructures.py:MultiValueDict.__deepcopy__", "request_parser/http/request.py:QueryDict.__deepcopy__"]}
{"id": "C98", "title": "The result of parsing a request does not depend on how its bytes arrive", "statement": "For every byte string, well-formed or not: the outcome or exception of parse(), the settings, every attribute of the request, the upload handlers and their files, and what is left to be read are the same for all ways of cutting the bytes into the pieces (lines) that the file object yields.", "quantifier": "for all byte strings, all two ways to cut them into pieces, all settings, all states of the request object, all handlers whose handle_raw_input cannot tell such streams apart", "why_tests_cant": "There are exponentially many ways to cut a request; tests read from one BytesIO object.", "anchors": ["request_parser/http/request.py:HttpRequest.parse", "request_parser/http/multipartparser.py:MultiPartParser.parse", "request_parser/utils/datastructures.py:LazyStream.read", "request_parser/utils/datastructures.py:ChunkIter.next"]}
{"id": "C99", "title": "The body of a request is as long as Content-Length says", "statement": "Parsing a request takes the number of bytes given by its Content-Length header for the body and leaves what follows on the stream. (False of the code: the header does not bound the reading. What holds is that a new request that parses without exception has been read to the end.)", "quantifier": "for all input streams, settings, handlers whose handle_raw_input cannot tell streams with the same content apart, and all requests that have not been parsed", "why_tests_cant": "Tests read from a BytesIO object that ends where the body ends, so nothing ever follows the body.", "anchors": ["request_parser/http/request.py:HttpRequest.parse", "request_parser/http/request.py:HttpRequest.parse_request_body", "request_parser/http/request.py:HttpRequest.body"]}
{"id": "C100", "title": "A file that a handler skips changes nothing else in the form", "statement": "If a handler raises SkipFile in new_file, the form is read as if the part were not there: its data is passed over, and the other fields and files are as they would be without it. (False of the code: _close_files closes the file attribute of every handler, which can be a file that is already complete.)", "quantifier": "for all bodies with a meaning, all predicates that decide which files are skipped, all chunk sizes and cuttings of the body", "why_tests_cant": "Tests do not have a handler that raises SkipFile.", "anchors": ["request_parser/http/multipartparser.py:MultiPartParser.parse", "request_parser/http/multipartparser.py:MultiPartParser._close_files"]}
{"id": "C101", "title": "Stopping an upload keeps what was read before", "statement": "If a handler raises StopUpload, parse() returns exactly the fields and files that were complete, and reads the rest of the input unless connection_reset is set. (False of the code: the last complete file is closed.)", "quantifier": "for all bodies with a meaning, all predicates that decide which files stop the upload, all chunk sizes and cuttings of the body", "why_tests_cant": "Tests do not have a handler that raises StopUpload.", "anchors": ["request_parser/http/multipartparser.py:MultiPartParser.parse", "request_parser/http/multipartparser.py:MultiPartParser._close_files"]}
{"id": "C102", "title": "A file says truthfully what can be done with it", "statement": "closed, readable(), writable() and seekable() of a File say what holds of the file that it wraps, also through several wrappers: closed exactly when that file is closed, readable when it is open and can be read, and so on. (False of the code: an empty wrapped file counts as no file, and modes are not looked at properly.)", "quantifier": "for all chains of wrappers and all files at the bottom (objects of io, files of Python 2 with any mode, pipes)", "why_tests_cant": "Tests do not wrap files and do not call these methods.", "anchors": ["request_parser/files/utils.py:FileProxyMixin.closed", "request_parser/files/utils.py:FileProxyMixin.readable", "request_parser/files/utils.py:FileProxyMixin.writable", "request_parser/files/utils.py:FileProxyMixin.seekable"]}
{"id": "C103", "title": "Closing a temporary file removes it, once", "statement": "However a temporary file on Windows is closed (close(), leaving a with statement, deletion of the object), the file inside is closed and the entry is removed, and nothing is done a second time. (False of the code: leaving a with statement does neither remove the file nor note that it was closed.)", "quantifier": "for all outcomes of the calls of the operating system and all sequences of later calls", "why_tests_cant": "The class exists on Windows only.", "anchors": ["request_parser/files/temp.py:TemporaryFile.close", "request_parser/files/temp.py:TemporaryFile.__exit__"]}
{"id": "C104", "title": "Every file can be shown", "statement": "repr() of a file object returns a text with class and name (and content type of an uploaded file) and does not raise, whatever the state of the file. (False of the code for File itself: its truth value is asked for, which is a TypeError.)", "quantifier": "for all file objects, names and content types", "why_tests_cant": "Tests do not print files.", "anchors": ["request_parser/files/base.py:File.__repr__", "request_parser/files/uploadedfile.py:UploadedFile.__repr__"]}
{"id": "C105", "title": "A file can be made from a dictionary", "statement": "SimpleUploadedFile.from_dict makes an open file with the base name of filename, with content and its length, with the content type or text/plain, that yields its content however often and in whatever pieces it is read; without file name or content it raises KeyError.", "quantifier": "for all dictionaries, contents and chunk sizes", "why_tests_cant": "There are no tests of from_dict.", "anchors": ["request_parser/files/uploadedfile.py:SimpleUploadedFile.from_dict"]}
{"id": "C106", "title": "A boundary may be given in the extended notation", "statement": "A multipart request whose boundary is given as boundary*=charset'lang'value (RFC 2231) is parsed as one with the same boundary in the plain notation. (False of the code: the boundary is a unicode object, and searching for it in data that is not ASCII raises UnicodeDecodeError.)", "quantifier": "for all bodies, chunk sizes, cuttings of the body, handlers that leave the parsing to the parser, settings and codecs", "why_tests_cant": "Tests do not use the extended notation for the boundary.", "anchors": ["request_parser/http/multipartparser.py:MultiPartParser.__init__", "request_parser/http/multipartparser.py:BoundaryIter._find_boundary", "request_parser/http/multipartparser.py:BoundaryIter.next"]}
{"id": "C107", "title": "The memory limit refuses exactly the forms that are too big", "statement": "DATA_UPLOAD_MAX_MEMORY_SIZE changes nothing about forms whose fields (value, name and 2 bytes each) are together within the limit: the same fields and files, the same bytes taken from the stream and the same calls of the handlers. Every other form is refused with RequestDataTooBig. (False of the code for fields sent in base64: the size before decoding is counted, and cutting the encoded value can raise TypeError.)", "quantifier": "for all bodies, boundaries, chunk sizes, cuttings of the body, non-negative limits and handlers that leave the parsing to the parser", "why_tests_cant": "The field is read up to the rest of the budget and compared afterwards; tests look at one size on each side.", "anchors": ["request_parser/http/multipartparser.py:MultiPartParser.parse"]}
{"id": "C108", "title": "Whatever a client sends, parsing answers with a result or an exception of the package", "statement": "parse() of a new request terminates for every sequence of bytes and either returns or raises one of the exceptions that the package defines for malformed or refused requests (InvalidHttpRequest, NoHostFoundException, TooManyFieldsSent, RequestDataTooBig, MultiPartParserError). (False of the code: ValueError, UnicodeDecodeError, UnicodeEncodeError, TypeError, OverflowError, AttributeError and LookupError get through, and base64 files can make it loop for ever. This list is complete.)", "quantifier": "for all byte sequences, all ways in which they arrive, all settings with a positive header size and a non-negative memory limit, codecs and handlers that leave the parsing to the parser", "why_tests_cant": "The set of byte sequences is infinite; a caller can only catch what is known to be raised.", "anchors": ["request_parser/http/request.py:HttpRequest.parse", "request_parser/http/request.py:HttpRequest.parse_request_header", "request_parser/http/request.py:HttpRequest.parse_request_body"]}
{"id": "C109", "title": "A mutable QueryDict is a map from converted keys to lists of converted values", "statement": "Any sequence of calls of __setitem__, setlist, setdefault, setlistdefault, appendlist, update, __delitem__, pop and clear on a QueryDict made with mutable=True leaves it answering every lookup like an abstract map from keys to lists to which the same calls were applied; a key or value that bytes_to_text refuses is refused with its exception and changes nothing, except that update() keeps what it appended before; every stored key and value has been converted. (False of the code: the values given to update() are stored unconverted, and under a charset that does not extend ASCII appendlist() loses the value.)", "quantifier": "for all memories, query strings, codecs and sequences of calls", "why_tests_cant": "A sequence of calls can be of any length and mixes methods that convert once, twice or not at all.", "anchors": ["request_parser/http/request.py:QueryDict.__setitem__", "request_parser/http/request.py:QueryDict.setlist", "request_parser/http/request.py:QueryDict.setdefault", "request_parser/http/request.py:QueryDict.setlistdefault", "request_parser/http/request.py:QueryDict.appendlist", "request_parser/http/request.py:QueryDict.pop", "request_parser/http/request.py:QueryDict.clear", "request_parser/http/request.py:QueryDict.__delitem__", "request_parser/utils/datastructures.py:MultiValueDict.update", "request_parser/http/request.py:bytes_to_text"]}
{"id": "C110", "title": "What the changing methods of the dictionaries return", "statement": "setdefault() returns the last value the key then has; setlistdefault() returns the very list the dictionary holds, so that changing it changes the dictionary at that key and nowhere else; pop() returns the list the key had, or the default, or raises KeyError, and no dictionary holds that list any more; popitem() returns a key with its list and removes exactly that key, or raises KeyError when there is none. (False of the code for ImmutableMultiValueDict, whose setdefault() and setlistdefault() return None.)", "quantifier": "for all memories, dictionaries that can be changed, keys, defaults", "why_tests_cant": "The lists are shared objects: whether a returned list is still connected to a dictionary depends on the whole memory.", "anchors": ["request_parser/utils/datastructures.py:MultiValueDict.setdefault", "request_parser/utils/datastructures.py:MultiValueDict.setlistdefault", "request_parser/http/request.py:QueryDict.pop", "request_parser/http/request.py:QueryDict.popitem", "request_parser/http/request.py:QueryDict.setdefault", "request_parser/utils/datastructures.py:ImmutableMultiValueDict.setdefault"]}
{"id": "C111", "title": "Query strings with characters outside ASCII, escaped or not, and stray percent signs", "statement": "Percent-decoding replaces each % that two hexadecimal digits follow by the byte they name and leaves everything else, a stray % included, as it is; in a text, every longest run of ASCII characters is decoded so and read with the charset, and the characters outside ASCII stay where they are. So, however someone writes the names and values of a query string (each character itself, or as the escapes of all its bytes, with digits in either case, a space also as +; & or ; between the pairs, with empty pieces anywhere), the QueryDict has exactly these pairs, in order, under UTF-8 and under ISO-8859-1.", "quantifier": "for all texts, lists of pairs and ways to write them", "why_tests_cant": "The escapes of one character may stand beside raw characters that would change the meaning if runs were cut wrongly; only a few spellings can be tried.", "anchors": ["request_parser/utils/http.py:limited_parse_qsl", "request_parser/http/request.py:QueryDict.__init__"]}
{"id": "C112", "title": "Where uploaded files are kept", "statement": "With a MemoryFileUploadHandler followed by a TemporaryFileUploadHandler, every file of the result is kept in memory if the announced length of the request is at most FILE_UPLOAD_MAX_MEMORY_SIZE, and every file is a temporary file otherwise. With the default ConvenientFileUploadHandler a file is kept in memory exactly if it and the files before it in the same request together have at most FILE_UPLOAD_MAX_MEMORY_SIZE bytes.", "quantifier": "for all bodies, limits, announced lengths, chunk sizes and ways the body arrives", "why_tests_cant": "The decision depends on sums over all files and on chunk borders; tests try a few sizes near one limit.", "anchors": ["request_parser/files/uploadhandler.py:MemoryFileUploadHandler.handle_raw_input", "request_parser/files/uploadhandler.py:MemoryFileUploadHandler.new_file", "request_parser/files/uploadhandler.py:ConvenientFileUploadHandler.receive_data_chunk", "request_parser/http/multipartparser.py:MultiPartParser.parse"]}
{"id": "C113", "title": "Modules are found in their packages and directories", "statement": "module_dir gives the directory of a package that has one, and the directory of its file for every other module, and raises ValueError exactly if there is neither. module_has_submodule says whether a package has a module of the given name. (False of the code: it looks for a file whose name has dots in it, and so denies all modules.)", "quantifier": "for all modules, file names and file systems", "why_tests_cant": "The false answer is the expected one in most tests (the name does not exist); slashes in file names have many cases.", "anchors": ["request_parser/utils/module_loading.py:module_has_submodule", "request_parser/utils/module_loading.py:module_dir"]}
{"id": "C114", "title": "A request is shown with its method and path", "statement": "repr() of a request is <HttpRequest> while it has no method, or neither path nor query string, and otherwise <HttpRequest: METHOD 'path'> with the full path between quotation marks (double ones exactly if there is a single one in it) without any escapes; so requests with different methods or different full paths are shown differently, and a parsed request shows what was sent.", "quantifier": "for all requests, paths, query strings and ways a request arrives", "why_tests_cant": "Which quotation marks are used and whether something must be escaped depends on the characters of the path; tests use one path.", "anchors": ["request_parser/http/request.py:HttpRequest.__repr__", "request_parser/http/request.py:HttpRequest.get_full_path"]}
{"id": "C115", "title": "The upload handlers of the package raise no errors of their own", "statement": "While a multipart body is parsed, whatever the body is, the upload handlers of the package raise no exception of their own making: an exception that leaves MultiPartParser.parse is one that the parser raises on purpose or one that the operating system raised when a temporary file was made. In particular no handler writes to a closed file and none uses a file it has not made.", "quantifier": "for all bodies, lists of handlers of the package, states of the handlers and ways the bytes arrive", "why_tests_cant": "Whether a handler is told about a file before it is asked to complete it depends on the order of the handlers, the content length and the contents of every part; tests use one handler and files with data.", "anchors": ["request_parser/files/uploadhandler.py:TemporaryFileUploadHandler.file_complete", "request_parser/files/uploadhandler.py:MemoryFileUploadHandler.new_file", "request_parser/http/multipartparser.py:MultiPartParser.handle_file_complete"]}
{"id": "C116", "title": "The files of a request can be read as they were sent until the request is closed", "statement": "For a well-formed multipart request, the application may use the files of FILES after the parse in any order and as often as it likes, with chunks(n), by lines, with open() and read(), with read(n): for every file, what it sees is what reading the content that was sent gives, starting at the beginning, whatever it does to the other files in between. close() then closes every file of the form (provided that no temporary file has been moved away), changes no other file, and reading any of them raises ValueError from then on.", "quantifier": "for all forms, ways the bytes arrive, lists of handlers of the package, working directories and sequences of uses of the files", "why_tests_cant": "Two files that share an underlying object, or a position left at the end, show only in particular interleavings of uses.", "anchors": ["request_parser/files/base.py:File.chunks", "request_parser/files/base.py:File.open", "request_parser/files/uploadedfile.py:InMemoryUploadedFile.chunks", "request_parser/http/request.py:HttpRequest.close", "request_parser/files/uploadhandler.py:TemporaryFileUploadHandler.file_complete"]}
{"id": "C117", "title": "A closed stream still reports the bytes it has already read", "statement": "After close() a LazyStream gives, by read(), read(n) or next(), the bytes that had been read and put back, and then it is at its end.", "quantifier": "for all streams, bytes put back and amounts asked for", "why_tests_cant": "Nothing in the package closes a stream and reads on; a test that reads exactly what is left passes.", "anchors": ["request_parser/utils/datastructures.py:LazyStream.close", "request_parser/utils/datastructures.py:LazyStream.read", "request_parser/utils/datastructures.py:LazyStream.next"]}
{"id": "C118", "title": "Requests do not touch the files of other requests", "statement": "Parsing a request with the upload handlers of the package, to whatever end, changes no file that existed before. The files of the request are new ones, no two of its entries refer to the same file, and no file is shared by two requests that are parsed one after another.", "quantifier": "for all streams, bytes, settings and lists of handlers of the package, and all numbers of requests", "why_tests_cant": "The handlers keep the last file in an attribute and are told of new files only until one of them stops; whether an old file could be returned again depends on the order of handlers, errors and parts, which tests sample at a few points.", "anchors": ["request_parser/files/uploadhandler.py:MemoryFileUploadHandler.new_file", "request_parser/files/uploadhandler.py:TemporaryFileUploadHandler.new_file", "request_parser/files/uploadhandler.py:ConvenientFileUploadHandler.receive_data_chunk", "request_parser/http/multipartparser.py:MultiPartParser.handle_file_complete", "request_parser/http/request.py:HttpRequest.parse"]}
{"id": "C119", "title": "A form has no more bytes than the body", "statement": "The fields and the files that are parsed from a body, with the upload handlers of the package, have together no more bytes than the body: no byte of the body is kept twice in POST and FILES, and decoding does not make the data longer. For a request, they have no more bytes than what was sent after the header, however parsing ends.", "quantifier": "for all bodies, ways of arrival, chunk sizes, settings and lists of handlers of the package", "why_tests_cant": "What a handler writes depends on how the body is cut into chunks, on the switch from memory to a temporary file and on which handler keeps the data; tests compare the results for a few small forms.", "anchors": ["request_parser/http/multipartparser.py:MultiPartParser.parse", "request_parser/files/uploadhandler.py:ConvenientFileUploadHandler.receive_data_chunk", "request_parser/files/uploadhandler.py:TemporaryFileUploadHandler.receive_data_chunk", "request_parser/files/uploadhandler.py:MemoryFileUploadHandler.receive_data_chunk", "request_parser/http/request.py:HttpRequest.parse"]}
{"id": "C120", "title": "Everything in a parsed form comes from one part of the body", "statement": "With the upload handlers of the package, every file in FILES comes from a part of the body, cut at the separator of the boundary: it is stored under the name the part's disposition gives, its file name, content type, charset, other content type parameters, transfer encoding and announced length are those in the header of the part, its content is the content of the part (decoded if sent in base64) and its size is the length of the content. Every field in POST comes from a part in the same way. For a request this holds with the body after the header and the boundary that the header announces, however parsing ends. For a header written as clients write it, the values are those written: the last field of a name counts, types and encodings are in small letters, parameters are kept as written.", "quantifier": "for all bodies, ways of arrival, chunk sizes, settings and lists of handlers of the package", "why_tests_cant": "Which part a file came from is decided by the interplay of header parsing, handler chain, the switch from memory to disk and the completion of the previous file; tests look at a few forms with one or two files.", "anchors": ["request_parser/http/multipartparser.py:MultiPartParser.parse", "request_parser/http/multipartparser.py:MultiPartParser.handle_file_complete", "request_parser/http/multipartparser.py:parse_boundary_stream", "request_parser/files/uploadhandler.py:ConvenientFileUploadHandler.file_complete", "request_parser/http/request.py:HttpRequest.parse"]}
{"id": "C121", "title": "Which base64 is accepted and what it decodes to", "statement": "A form field whose transfer encoding is base64 has as its value exactly the bytes that the digits of the content make, six bits a character; characters outside the alphabet and a '=' that is not padding count for nothing, everything after the padding is ignored, and a last group that is neither full nor padded is an error. A field without this encoding has the content as its value.", "quantifier": "for all byte strings", "why_tests_cant": "The rule for a stray = depends on its place in the group and on what follows; a test of well-formed base64 does not reach it.", "anchors": ["request_parser/http/multipartparser.py:MultiPartParser.parse"]}
{"id": "C122", "title": "is_ajax() tells the requests made with XMLHttpRequest", "statement": "After the header is parsed, is_ajax() is True exactly for a request that says it was made with XMLHttpRequest, that is with the header X-Requested-With: XMLHttpRequest.", "quantifier": "for all well-formed requests", "why_tests_cant": "That the wrong part of the header is looked at shows only with a request made as browsers make it.", "anchors": ["request_parser/http/request.py:HttpRequest.is_ajax"]}
{"id": "C123", "title": "When a request object can be made", "statement": "Making a request object, and giving an existing one another stream, succeeds for every stream exactly if the settings name a charset that Python knows as DEFAULT_CHARSET and their limit on the number of fields is not negative. Otherwise no stream works: the exception is LookupError for the charset, else TooManyFieldsSent. A request whose change of stream failed has no header data left (GET, META, method, scheme, host, port, path and protocol are gone, is_plain_text() raises AttributeError), while POST, FILES, body and the flags that say what has been parsed are as before. Giving it another stream for the body fails in the same way: POST, FILES and the body are gone then, the header data and the flags are as before.", "quantifier": "for all settings, streams and states of the request", "why_tests_cant": "The charset is looked up to decode an empty text, so nobody expects that making an object can fail, and the settings that make it fail can come from another request.", "anchors": ["request_parser/http/request.py:HttpRequest", "request_parser/http/request.py:HttpRequest.stream", "request_parser/http/request.py:HttpRequest.body_stream", "request_parser/http/request.py:QueryDict", "request_parser/http/request.py:HttpRequest.is_plain_text"]}
{"id": "C124", "title": "A stream that fails while it is read", "statement": "If the file-like object that a request reads from never comes to a proper end (it raises an exception instead), then parse() on a request whose body has not been read never returns normally, and body() never returns anything, whatever the settings and the upload handlers are: a request that was cut off is not reported as parsed. With the library's handlers parse() raises the exception of the file-like object, where an IOError that occurs while the body is collected is a TypeError instead; or it raises what it raises on the object that has the same pieces and ends there, with the same settings, files and attributes afterwards. So whenever the shorter request could be parsed, the exception comes through. The four exceptions that the library's own parts raise for each other (InputStreamExhausted, SkipFile, StopUpload, MultiPartParserError) are left out of the second statement.", "quantifier": "for all pieces, exceptions, settings, operating systems, handler lists and states of the request", "why_tests_cant": "A connection can break at every byte, in the header, in the body or inside a part, and the code has many places that take an exception or a short read for the end of something.", "anchors": ["request_parser/http/request.py:HttpRequest.parse", "request_parser/http/request.py:HttpRequest.body", "request_parser/http/request.py:HttpRequest.read", "request_parser/http/request.py:HttpRequest.parse_request_header", "request_parser/http/request.py:HttpRequest.parse_request_body", "request_parser/http/multipartparser.py:MultiPartParser.parse", "request_parser/utils/datastructures.py:LazyStream.read", "request_parser/utils/datastructures.py:ChunkIter.next"]}
{"id": "C125", "title": "What a request says before it is parsed", "statement": "About a new request, and about one that has just been given another stream, nothing is known: get_path() is empty, get_full_path() is empty (a slash if one is to be appended), get_uri() and the scheme with the host are 'None://None', get_port() is 'None', repr() names only the class, is_secure() and is_plain_text() are false, and is_ajax() raises KeyError. After a change of stream that failed, get_full_path(), get_uri(), is_ajax() and is_plain_text() raise AttributeError.", "quantifier": "for all settings, streams, earlier states of the request and arguments", "why_tests_cant": "The accessors are made for parsed requests, and tests call them on parsed requests only; the text None in an address looks like a host name.", "anchors": ["request_parser/http/request.py:HttpRequest._re_init", "request_parser/http/request.py:HttpRequest.get_path", "request_parser/http/request.py:HttpRequest.get_full_path", "request_parser/http/request.py:HttpRequest.get_uri", "request_parser/http/request.py:HttpRequest.get_port", "request_parser/http/request.py:HttpRequest.is_ajax", "request_parser/http/request.py:HttpRequest.is_plain_text", "request_parser/http/request.py:HttpRequest.stream"]}
{"id": "C126", "title": "The regular expressions mean what the functions do", "statement": "A Host passes the check exactly if host_validation_re, read as it is written, matches it; the three expressions for dates match a text exactly if the reader of dates accepts it in that format, and their groups are the parts the date is computed from, and no text matches in two ways; ETAG_MATCH matches exactly the entity tags and its group is the whole tag; splitting a query at FIELDS_MATCH, with or without a limit, gives the fields; _entity_re matches exactly the character references and its group is what stands between & and ;, and unescape_entities is the substitution of these matches from left to right; and the expression for boundaries matches exactly the boundaries that are accepted.", "quantifier": "for all texts", "why_tests_cant": "Each of these expressions is tested on a handful of texts, and an expression says more than it shows: a dollar sign also matches before a line feed at the end, a range in brackets may contain more than meant.", "anchors": ["request_parser/http/request.py:split_domain_port", "request_parser/utils/http.py:parse_http_date", "request_parser/utils/http.py:parse_etags", "request_parser/utils/http.py:limited_parse_qsl", "request_parser/utils/text.py:unescape_entities", "request_parser/http/multipartparser.py:MultiPartParser.__init__"]}
{"id": "C127", "title": "An error of an upload handler reaches the caller", "statement": "An exception that a method of an upload handler raises while a form is parsed, other than the ones that steer the parser where it looks for them, is raised by MultiPartParser.parse and by parse of the request; after it no method of any handler is called, and the request does not count as parsed. If a form is returned, no handler has failed. On a machine where any call may fail at any moment, parsing raises the exception of the failure or does exactly what it does on a machine where nothing fails.", "quantifier": "for all handlers, states of handlers, failures, bodies, chunk sizes and settings", "why_tests_cant": "A test makes one method fail at one moment; an except clause that is too wide, or a loop that goes on, shows only for another method, another moment or another exception.", "anchors": ["request_parser/http/multipartparser.py:MultiPartParser.parse", "request_parser/http/multipartparser.py:MultiPartParser.handle_file_complete", "request_parser/http/multipartparser.py:MultiPartParser._close_files", "request_parser/http/request.py:HttpRequest.parse", "request_parser/files/uploadhandler.py:FileUploadHandler.receive_data_chunk"]}
{"id": "C128", "title": "What a failed upload leaves behind", "statement": "When parsing a form fails, the files that upload handlers have opened for it are closed, at the latest when the request is closed; and whatever is sent, the files that exist after parsing have together at most twice as many bytes more than before as the body has.", "quantifier": "for all bodies, chunk sizes, settings, new handlers and ways to leave the parser", "why_tests_cant": "Whether a file is left open shows only at the ways out that a test does not look at; a bound on what is written has to hold for every body.", "anchors": ["request_parser/http/multipartparser.py:MultiPartParser.parse", "request_parser/http/request.py:HttpRequest.close", "request_parser/files/uploadhandler.py:ConvenientFileUploadHandler.receive_data_chunk", "request_parser/files/uploadhandler.py:TemporaryFileUploadHandler.receive_data_chunk"]}
{"id": "C129", "title": "The encoding of a QueryDict", "statement": "A QueryDict made with an encoding has that encoding, and DEFAULT_CHARSET otherwise; assigning to encoding changes it, assigning None makes it DEFAULT_CHARSET again; native strings that are set as keys or values are converted from the encoding to text; and fromkeys makes a QueryDict with the given keys, value and encoding.", "quantifier": "for all sequences of assignments to encoding and DEFAULT_CHARSET, reads and calls, all strings and encodings", "why_tests_cant": "The attribute is cached when it is first needed, so what it is depends on the order of everything that happened before; a test tries one order.", "anchors": ["request_parser/http/request.py:QueryDict.__init__", "request_parser/http/request.py:QueryDict.encoding", "request_parser/http/request.py:QueryDict.fromkeys", "request_parser/http/request.py:bytes_to_text"]}
{"id": "C130", "title": "What a dictionary hands out and is made of", "statement": "A MultiValueDict made from pairs of keys and lists has for each key the list given last. An immutable QueryDict cannot be changed through anything it hands out: whatever a client does with the results of its methods and with dictionaries made from it, every lookup answers as before.", "quantifier": "for all dictionaries, all sequences of method calls and changes of lists that were handed out", "why_tests_cant": "Sharing of lists shows only when a list is changed later through another reference; a test would have to guess the pair of references.", "anchors": ["request_parser/utils/datastructures.py:MultiValueDict.__init__", "request_parser/utils/datastructures.py:ImmutableMultiValueDict.__init__", "request_parser/utils/datastructures.py:MultiValueDict.lists", "request_parser/utils/datastructures.py:MultiValueDict.getlist", "request_parser/utils/datastructures.py:MultiValueDict.setlistdefault"]}
{"id": "C131", "title": "A header dictionary that has been made mutable", "statement": "An ImmutableMultiValueDict whose _mutable has been set behaves as a MultiValueDict: every sequence of d[k]=v, setlist, setdefault, setlistdefault, appendlist, update, del, pop and clear has the effect and the results it has there.", "quantifier": "for all dictionaries, keys, values and sequences of calls", "why_tests_cant": "Each method fails in its own way only in this state, which the package itself never puts the dictionary into.", "anchors": ["request_parser/utils/datastructures.py:ImmutableMultiValueDict.__setitem__", "request_parser/utils/datastructures.py:ImmutableMultiValueDict.setlist", "request_parser/utils/datastructures.py:ImmutableMultiValueDict.setdefault", "request_parser/utils/datastructures.py:ImmutableMultiValueDict.setlistdefault", "request_parser/utils/datastructures.py:ImmutableMultiValueDict.appendlist", "request_parser/utils/datastructures.py:ImmutableMultiValueDict.update"]}
{"id": "C132", "title": "No field of a form gets lost", "statement": "If a multipart form is parsed, POST has exactly the form fields of the body, in the order of the body, each under its converted name, whatever charset the Content-Type header names.", "quantifier": "for all bodies, charsets, chunk sizes and cuttings of the body into chunks", "why_tests_cant": "appendlist of a QueryDict converts a new key twice, which makes a difference only in charsets no test uses.", "anchors": ["request_parser/http/multipartparser.py:MultiPartParser.parse", "request_parser/http/request.py:QueryDict.appendlist", "request_parser/http/request.py:QueryDict.setlist", "request_parser/utils/datastructures.py:MultiValueDict.setlistdefault"]}
{"id": "C133", "title": "A form is read as it is written, whatever the headers of its parts", "statement": "Whatever header fields the parts of a multipart form have, in whatever order and case, with parameters bare, quoted or in the extended notation of RFC 2231 (charset'language'value): each part becomes a form field or a file, under the name, file name, content type with its parameters and transfer encoding that its header says, and with the content that is written, in the order of the body.", "quantifier": "for all forms within the limits, header fields, parameters, charsets, preambles, chunk sizes and cuttings of the body into chunks", "why_tests_cant": "Tests use a handful of fixed headers; the notations, orders and charsets are endless, and names outside ASCII in the extended notation are refused.", "anchors": ["request_parser/http/multipartparser.py:MultiPartParser.parse", "request_parser/http/multipartparser.py:parse_header", "request_parser/http/multipartparser.py:parse_boundary_stream", "request_parser/http/multipartparser.py:_parse_header_params", "request_parser/utils/encoding.py:force_text"]}
{"id": "C134", "title": "The settings bound the number of entries of a form", "statement": "A multipart form that is accepted has together no more fields and files than DATA_UPLOAD_MAX_NUMBER_FIELDS allows.", "quantifier": "for all settings, bodies, handlers, chunk sizes and cuttings of the body into chunks", "why_tests_cant": "Tests of the limit send forms with fields; a form of very many small files is not tried, and what bounds the number of entries for every body cannot be found by trying bodies.", "anchors": ["request_parser/http/multipartparser.py:MultiPartParser.parse", "request_parser/http/multipartparser.py:MultiPartParser.handle_file_complete", "request_parser/http/multipartparser.py:parse_boundary_stream", "request_parser/http/request.py:HttpRequest.parse"]}
{"id": "C135", "title": "No success is reported for a stream that was not taken", "statement": "If giving a request another stream fails, a later parse() of this request raises an exception; it does not report success with the data of the request before.", "quantifier": "for all requests in any state, streams, settings, upload handlers and codecs", "why_tests_cant": "That an assignment fails at all needs a charset left in the shared settings by another client; what the half reset object then does depends on how far it had been parsed before, and on every possible new stream.", "anchors": ["request_parser/http/request.py:HttpRequest.stream", "request_parser/http/request.py:HttpRequest._re_init", "request_parser/http/request.py:HttpRequest.parse", "request_parser/http/request.py:HttpRequest.parse_request_header", "request_parser/http/request.py:HttpRequest.parse_request_body"]}
{"id": "C136", "title": "The names of request headers may be written in any case", "statement": "A request is parsed in the same way whatever the case of the letters in the names of its headers (RFC 7230, 3.2): host, content-type and content-length mean what Host, Content-Type and Content-Length mean.", "quantifier": "for all requests, names, bodies, streams and upload handlers", "why_tests_cant": "Tests write the names of the headers as the code does. That nothing else depends on the case can only be said for all requests.", "anchors": ["request_parser/http/request.py:HttpRequest.parse_request_header", "request_parser/http/request.py:parse_request_headers", "request_parser/http/request.py:HttpRequest.parse_request_body", "request_parser/http/multipartparser.py:MultiPartParser.__init__"]}
{"id": "C137", "title": "A body sent in chunks is put together", "statement": "If a request has the header Transfer-Encoding: chunked, body(), POST and FILES are those of the content of the chunks (RFC 7230, 4.1).", "quantifier": "for all contents, ways to cut them into chunks, streams and upload handlers", "why_tests_cant": "There are infinitely many ways to cut a content into chunks, and no test sends one.", "anchors": ["request_parser/http/request.py:HttpRequest.parse", "request_parser/http/request.py:HttpRequest.parse_request_body", "request_parser/http/request.py:HttpRequest.body", "request_parser/http/multipartparser.py:MultiPartParser.parse"]}
{"id": "C138", "title": "Of several headers with the same name the last one counts", "statement": "Well-formed headers put before those of a request make no difference to its method, scheme, host, path, protocol, query, content type and body, as long as the request gives again what they give: it arrives as the request without them.", "quantifier": "for all requests, all lists of well-formed headers put in front, all streams and codecs", "why_tests_cant": "Tests send each header once. That the earlier ones make no difference, whatever they are and say, can only be said for all of them.", "anchors": ["request_parser/http/request.py:HttpRequest.parse_request_header", "request_parser/http/request.py:parse_request_headers", "request_parser/http/request.py:HttpRequest.parse"]}
{"id": "C139", "title": "Ambiguous requests are refused", "statement": "A request that gives two different hosts, two different lengths, or a length and a transfer encoding is refused, as RFC 7230 (3.3.3 and 5.4) demands, since others may understand it differently.", "quantifier": "for all requests, hosts, lengths, transfer encodings, streams and upload handlers", "why_tests_cant": "No test sends such a request; and a test could only show it for some.", "anchors": ["request_parser/http/request.py:HttpRequest.parse_request_header", "request_parser/http/request.py:parse_request_headers", "request_parser/http/request.py:HttpRequest.parse"]}
{"id": "C140", "title": "Only proper header names are accepted", "statement": "A header line is accepted only if its name is a token (RFC 7230, 3.2): not empty, without white space before the colon, and not the continuation of the line before.", "quantifier": "for all header blocks, names and values", "why_tests_cant": "Tests send proper names. Which blocks are accepted can only be said for all of them.", "anchors": ["request_parser/http/request.py:parse_request_headers"]}
{"id": "C141", "title": "A file name that is too long keeps its extension, and only the extension goes into the name of a temporary file", "statement": "A last component of more than 255 bytes is cut to 255 bytes before its extension, so that the stored name ends with the extension the client sent; if the extension itself has more than 255 bytes its first 255 bytes are stored. What the name of a temporary file takes from the client is the extension of the client's name, which is empty or a dot followed by bytes that are neither dots nor slashes, so the file is made in the upload directory.", "quantifier": "for all names and all handlers", "why_tests_cant": "Tests use a few names; where a name is cut depends on every byte of it.", "anchors": ["request_parser/files/uploadedfile.py:UploadedFile._set_name", "request_parser/files/uploadedfile.py:TemporaryUploadedFile.__init__", "request_parser/files/uploadhandler.py:TemporaryFileUploadHandler.new_file"]}
{"id": "C142", "title": "MemoryFileUploadHandler keeps at most the configured number of bytes in memory", "statement": "With a MemoryFileUploadHandler followed by a TemporaryFileUploadHandler, the files of a request that are kept in memory have together at most FILE_UPLOAD_MAX_MEMORY_SIZE bytes.", "quantifier": "for all bodies, announced lengths, limits, chunk sizes and ways the body comes", "why_tests_cant": "Tests send bodies of the announced length. A bound has to hold for every body.", "anchors": ["request_parser/files/uploadhandler.py:MemoryFileUploadHandler.handle_raw_input", "request_parser/files/uploadhandler.py:MemoryFileUploadHandler.receive_data_chunk", "request_parser/http/multipartparser.py:MultiPartParser.parse"]}
{"id": "C143", "title": "Raising a limit never changes what was accepted", "statement": "If a request is accepted under DATA_UPLOAD_MAX_MEMORY_SIZE and DATA_UPLOAD_MAX_NUMBER_FIELDS, it is accepted under every higher limit as well (None is no limit), with the same POST, FILES, body and header attributes; a limit refuses input or has no effect. If multipart parsing does not do the same under both limits, the lower one has refused the body.", "quantifier": "for all streams, request states, bodies, upload handlers that do not look at the limits, and pairs of limits", "why_tests_cant": "Tests compare a few bodies with one limit each. The claim compares two executions, for every pair of limits and every body.", "anchors": ["request_parser/http/multipartparser.py:MultiPartParser.parse", "request_parser/http/request.py:HttpRequest.body", "request_parser/http/request.py:HttpRequest.parse", "request_parser/utils/http.py:limited_parse_qsl"]}
{"id": "C144", "title": "A form that was refused is not accepted in part by parsing again", "statement": "If parse() raises an exception, POST and FILES are as they were before the call and the body does not count as parsed; and if parse() is called again for the same request, it raises an exception too: it does not report success without the form or with a part of it.", "quantifier": "for all requests, streams, upload handlers, settings and exceptions", "why_tests_cant": "Tests stop at the exception. What is left behind depends on where in the body parsing stopped, and every way to fail has to be looked at.", "anchors": ["request_parser/http/request.py:HttpRequest.parse", "request_parser/http/request.py:HttpRequest.parse_request_body", "request_parser/http/multipartparser.py:MultiPartParser.parse"]}
{"id": "C145", "title": "A base64 file that is cut short is refused", "statement": "A file sent with Content-Transfer-Encoding base64 whose text, without white space, does not consist of whole groups of four characters makes parse() raise an exception, whatever the rest of the form is.", "quantifier": "for all forms, texts, chunk sizes, ways in which the body arrives, and built-in upload handlers", "why_tests_cant": "Tests use complete base64 text. Whether and where the parser notices depends on how the text is cut into chunks; a loop that never ends is not an outcome a test can wait for.", "anchors": ["request_parser/http/multipartparser.py:MultiPartParser.parse"]}
{"id": "C146", "title": "What becomes of an empty file", "statement": "A file that is sent with a file name but without content (or with white space only, in base64) and is followed by something is left out of FILES and changes nothing else that is read, when the upload handler that takes files is the last one, as in the default settings: a form with empty files is read like the form without them. When a MemoryFileUploadHandler takes the files and another new handler follows it, the first empty file ends the parsing with an AttributeError instead.", "quantifier": "for all bodies described by Spec.ReadsEmpty and all forms, settings, chunk sizes, ways in which the body arrives, and lists of built-in handlers of either kind", "why_tests_cant": "Tests upload files with content. Here the outcome depends on the combination of the handlers, on where in the form the empty file stands and on what follows it.", "anchors": ["request_parser/http/multipartparser.py:MultiPartParser.parse", "request_parser/http/multipartparser.py:MultiPartParser.handle_file_complete", "request_parser/files/uploadhandler.py:MemoryFileUploadHandler.file_complete", "request_parser/files/uploadhandler.py:TemporaryFileUploadHandler.file_complete"]}
{"id": "C147", "title": "A request whose header was refused is not accepted by parsing it again", "statement": "After parse() has refused a request because of its header, parse() called again on the same request refuses it too: it never reports success, never counts the request as parsed and never shows a form.", "quantifier": "for all requests (any stream and any chunks of it) whose header is refused, all usable settings and all histories of calls after the failure", "why_tests_cant": "The second call is made by callers that retry after an exception, a state no test of the package enters; what it does depends on flags that are set before the header is looked at, on where the stream stands and on which attributes the failed call had assigned.", "anchors": ["request_parser/http/request.py:HttpRequest.parse", "request_parser/http/request.py:HttpRequest.parse_request_header", "request_parser/http/request.py:HttpRequest.parse_request_body"]}
{"id": "C148", "title": "The representation of a dictionary says everything about it and breaks no line", "statement": "Two MultiValueDicts (or subclasses) of strings with the same repr() have the same class, the same keys and under each key the same values in the same order; and repr() of a dictionary consists of printable ASCII characters only, whatever strings came with the request.", "quantifier": "for all dictionaries whose keys are byte strings or texts and whose values are lists of byte strings, texts and None; the second part also for lists in lists and lists that contain themselves", "why_tests_cant": "Tests would have to try strings with quotes, backslashes, control characters and non-ASCII characters in all combinations.", "anchors": ["request_parser/utils/datastructures.py:MultiValueDict.__repr__"]}
{"id": "C149", "title": "What is shown of a request or of a file fits on one line", "statement": "repr() of a request and of an uploaded file consists of printable ASCII characters only, whatever the client sent, so that nothing sent by a client can begin a new line in a log. (False of the code: the method and the name of a file are shown as they are, and neither is restricted to printable characters.)", "quantifier": "for all requests, methods, paths, query strings and file names", "why_tests_cant": "Tests show requests with ordinary methods and files with ordinary names; a line feed in a method or a file name does not occur in them.", "anchors": ["request_parser/http/request.py:HttpRequest.__repr__", "request_parser/files/uploadedfile.py:UploadedFile.__repr__", "request_parser/http/request.py:parse_request_line"]}
{"id": "C150", "title": "Lines that cannot be read do not change a part", "statement": "A line in the header of a part that cannot be read (no colon, a name or parameter that is not ASCII, any other ValueError) is left out: the part is what it is without the line, wherever the line is. Every other exception of a line is raised, the first one if there are several.", "quantifier": "for all lines, all lines before and after them, all codecs and all exceptions", "why_tests_cant": "Tests have a few malformed lines; the code catches a class of exceptions, and which lines raise which exception depends on codecs and parameters.", "anchors": ["request_parser/http/multipartparser.py:parse_boundary_stream", "request_parser/http/multipartparser.py:parse_header"]}
