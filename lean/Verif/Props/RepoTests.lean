import Verif.Model.RequestMore
import Verif.Props.Load
import Verif.Props.Uri
import Verif.Props.Limits
import Verif.Model.Conf
/-!
# The tests of the package, run on the model

What the unit tests of the package (`tests/requests/requests.py`, `tests/uploadhandlers/uploadhandlers.py`,
`tests/settings/settings.py`, `tests/misc/`) expect of the code is here computed from the model, with the same inputs.  These are tests of the
model, not proofs about it: they show that what is modelled is the code that the tests describe.  The request with
the picture is shortened to the first 100 bytes of the picture, so that the kernel can compute it.
-/

namespace Verif.RepoTests

/-- `get-request1.txt` -/
def getRequest1 : Bytes :=
  b!"GET /cgi-bin/process.cgi HTTP/1.1\r\n" ++
  b!"User-Agent: Safari/4.0 (compatible; MSIE5.01; Linux Blah)\r\n" ++
  b!"Host: www.knowhere484.com\r\n" ++
  b!"Content-Type: application/x-www-form-urlencoded\r\n" ++
  b!"Content-Length: length\r\n" ++
  b!"Accept-Language: en-us\r\n" ++
  b!"Cookies: cookie3=value3, cookie4=value4\r\n" ++
  b!"Accept-Encoding: gzip, deflate\r\n" ++
  b!"Connection: Keep-Alive\r\n" ++
  b!"\r\n"

/-- `get-request-with-query-string.txt` -/
def getWithQuery : Bytes :=
  b!"GET /cgi-bin/process.cgi?source=hp&ei=H8jpXI_lN4OiswXa-oOwAw&q=asdfadsf&oq=asdfadsf&gs_l=psy-ab.12..0j0i10l3j0j0i10l5.1255.1577..2445...0.0..1.153.972.2j6......0....1..gws-wiz.....0..0i131.DPwpRijoAMc HTTP/1.1\r\n" ++
  b!"User-Agent: Safari/4.0 (compatible; MSIE5.01; Linux Blah)\r\n" ++
  b!"Host: www.knowhere484.com\r\n" ++
  b!"Content-Type: application/x-www-form-urlencoded\r\n" ++
  b!"Content-Length: length\r\n" ++
  b!"Accept-Language: en-us\r\n" ++
  b!"Cookies: cookie3=value3, cookie4=value4\r\n" ++
  b!"Accept-Encoding: gzip, deflate\r\n" ++
  b!"Connection: Keep-Alive\r\n" ++
  b!"\r\n"

/-- `post-request-with-query.txt` -/
def postWithQuery : Bytes :=
  b!"GET /cgi-bin/process.cgi HTTP/1.1\r\n" ++
  b!"User-Agent: Safari/4.0 (compatible; MSIE5.01; Linux Blah)\r\n" ++
  b!"Host: www.knowhere484.com\r\n" ++
  b!"Content-Type: application/x-www-form-urlencoded\r\n" ++
  b!"Content-Length: length\r\n" ++
  b!"Accept-Language: en-us\r\n" ++
  b!"Cookies: cookie3=value3, cookie4=value4\r\n" ++
  b!"Accept-Encoding: gzip, deflate\r\n" ++
  b!"Connection: Keep-Alive\r\n" ++
  b!"\r\n" ++
  b!"source=hp&ei=H8jpXI_lN4OiswXa-oOwAw&q=asdfadsf&oq=asdfadsf&gs_l=psy-ab.12..0j0i10l3j0j0i10l5.1255.1577..2445...0.0..1.153.972.2j6......0....1..gws-wiz.....0..0i131.DPwpRijoAMc"

/-- `complex-request1.txt` up to the body -/
def complexHead : Bytes :=
  b!"PUT /caf%C3%A9/upload HTTP/1.1\r\n" ++
  b!"Host: www.knowhere123.com\r\n" ++
  b!"Accept: image/gif, image/jpeg, */*\r\n" ++
  b!"Accept-Language: en-us\r\n" ++
  b!"Cookies: cookie1=value1, cookie2=value2\r\n" ++
  b!"Accept-Encoding: gzip, deflate\r\n" ++
  b!"User-Agent: Mozilla/4.0 (compatible; MSIE 6.0; Windows NT 5.1)\r\n" ++
  b!"Cookies: cookie3=value3, cookie4=value4\r\n" ++
  b!"Content-Length: 830543\r\n" ++
  b!"Content-Type: multipart/form-data; boundary=----WebKitFormBoundaryOmz20xyMCkE27rN7\r\n" ++
  b!"\r\n"

/-- `complex-request1.txt`, with the first 100 bytes of the picture only -/
def complexShort : Bytes :=
  b!"PUT /caf%C3%A9/upload HTTP/1.1\r\n" ++
  b!"Host: www.knowhere123.com\r\n" ++
  b!"Accept: image/gif, image/jpeg, */*\r\n" ++
  b!"Accept-Language: en-us\r\n" ++
  b!"Cookies: cookie1=value1, cookie2=value2\r\n" ++
  b!"Accept-Encoding: gzip, deflate\r\n" ++
  b!"User-Agent: Mozilla/4.0 (compatible; MSIE 6.0; Windows NT 5.1)\r\n" ++
  b!"Cookies: cookie3=value3, cookie4=value4\r\n" ++
  b!"Content-Length: 687\r\n" ++
  b!"Content-Type: multipart/form-data; boundary=----WebKitFormBoundaryOmz20xyMCkE27rN7\r\n" ++
  b!"\r\n" ++
  b!"------WebKitFormBoundaryOmz20xyMCkE27rN7\r\n" ++
  b!"Content-Disposition: form-data; name=\"id\"\r\n" ++
  b!"Content-Type: text/plain\r\n" ++
  b!"\r\n" ++
  b!"123e4567-e89b-12d3-a456-426655440000\r\n" ++
  b!"------WebKitFormBoundaryOmz20xyMCkE27rN7\r\n" ++
  b!"Content-Disposition: form-data; name=\"address\"\r\n" ++
  b!"Content-Type: application/json\r\n" ++
  b!"\r\n" ++
  b!"{\r\n" ++
  b!"  \"street\": \"3, Garden St\",\r\n" ++
  b!"  \"city\": \"Hillsbery, UT\"\r\n" ++
  b!"}\r\n" ++
  b!"------WebKitFormBoundaryOmz20xyMCkE27rN7\r\n" ++
  b!"Content-Disposition: form-data; name=\"profileImage \"; filename=\"image1.png\"\r\n" ++
  b!"Content-Type: application/octet-steam\r\n" ++
  b!"Content-Transfer-encoding: base64\r\n" ++
  b!"\r\n" ++
  b!"/9j/4AAQSkZJRgABAQEASABIAAD/2wBDAAoHBwgHBgoICAgLCgoLDhgQDg0NDh0VFhEYIx8lJCIfIiEmKzcvJik0KSEiMEExNDk7Pj4+JS5ESUM8SDc9Pjv/2wBDAQoLCw4NDg==\r\n" ++
  b!"------WebKitFormBoundaryOmz20xyMCkE27rN7--\r\n" ++
  b!"\r\n"

/-- The pairs of the query strings. -/
def queryPairs : List (Bytes × Bytes) :=
  [(b!"source", b!"hp"),
    (b!"ei", b!"H8jpXI_lN4OiswXa-oOwAw"),
    (b!"q", b!"asdfadsf"),
    (b!"oq", b!"asdfadsf"),
    (b!"gs_l", b!"psy-ab.12..0j0i10l3j0j0i10l5.1255.1577..2445...0.0..1.153.972.2j6......0....1..gws-wiz.....0..0i131.DPwpRijoAMc")]

/-- The first 100 bytes of the picture. -/
def picture : Bytes :=
  [255, 216, 255, 224, 0, 16, 74, 70, 73, 70, 0, 1, 1, 1, 0, 72, 0, 72, 0, 0, 255, 219, 0, 67, 0, 10, 7, 7, 8, 7, 6, 10, 8, 8, 8, 11, 10, 10, 11, 14, 24, 16, 14, 13, 13, 14, 29, 21, 22, 17, 24, 35, 31, 37, 36, 34, 31, 34, 33, 38, 43, 55, 47, 38, 41, 52, 41, 33, 34, 48, 65, 49, 52, 57, 59, 62, 62, 62, 37, 46, 68, 73, 67, 60, 72, 55, 61, 62, 59, 255, 219, 0, 67, 1, 10, 11, 11, 14, 13, 14]

/-- The configuration of the tests: the default settings and the default upload handler. -/
def env : Env Source BWorld Uploaded := namedEnv Source pyCodecs [] goodOs sampleModules defaultHandlers 50

/-- `HttpRequest(stream)` and `parse_request_header()`. -/
def headed (S : Settings) (bytes : Bytes) : Option (Settings × Req Source BWorld Uploaded) :=
  match Req.new env.C S ⟨[bytes]⟩ with
  | .error _ => none
  | .ok r =>
    match parseRequestHeader env S r with
    | (.ok (), st) => some st
    | (.error _, _) => none

/-- The exception of `parse_request_header()`. -/
def headError (bytes : Bytes) : Option Exc :=
  match Req.new (σ := BWorld) (F := Uploaded) env.C {} (⟨[bytes]⟩ : Source) with
  | .error e => some e
  | .ok r =>
    match parseRequestHeader env {} r with
    | (.ok (), _) => none
    | (.error e, _) => some e

/-- `getlist(key)` of the request headers. -/
def headers (st : Settings × Req Source BWorld Uploaded) (key : Bytes) : List Bytes :=
  (((st.2.info.bind (·.headers)).getD []).get? key).getD []

/-- `GET` as pairs. -/
def getPairs (st : Settings × Req Source BWorld Uploaded) : List (UStr × UStr) := (st.2.get.map (·.pairs)).getD []

/-- `POST` as pairs, if it is a form of pairs. -/
def postPairs (r : Req Source BWorld Uploaded) : Option (List (UStr × UStr)) :=
  match r.post with
  | some (.query q) => some q.pairs
  | _ => none

/-- `parse_request_body()` after `change` was done to the request. -/
def bodied (change : Settings × Req Source BWorld Uploaded → Settings × Req Source BWorld Uploaded) (S : Settings)
    (bytes : Bytes) : Option (Except Exc Unit × Settings × Req Source BWorld Uploaded × BWorld) :=
  match headed S bytes with
  | none => none
  | some st =>
    match parseRequestBody env (change st).1 (change st).2 { hs := [] } with
    | (x, r, w) => some (x, (change st).1, r, w)

def text (ps : List (Bytes × Bytes)) : List (UStr × UStr) := ps.map fun p => (Py.toU p.1, Py.toU p.2)

/-! ## `HttpRequestBasicTests` -/

/-- `test_empty_request_stream` -/
example : ∃ r : Req Source BWorld Uploaded, (Req.new pyCodecs {} ⟨[]⟩).toOption = some r ∧ r.get = some ⟨[], true⟩ ∧
    r.post = some (.query ⟨[], true⟩) ∧ r.info = some {} ∧ r.files = some [] ∧ r.method = none ∧ r.scheme = none ∧
    r.host = none ∧ r.port = none ∧ r.path = none ∧ r.proto = none ∧ r.contentType = some none := by
  refine ⟨_, rfl, ?_⟩
  decide +kernel

/-- `test_httprequest_full_path` -/
example : (getFullPath pyCodecs (.b b!"/;some/?awful/=path/foo:bar/") (.b b!";some=query&+query=string") false).toOption =
    some b!"/%3Bsome/%3Fawful/%3Dpath/foo:bar/?;some=query&+query=string" := by decide +kernel

/-- `test_httprequest_full_path_with_query_string_and_fragment` -/
example : (getFullPath pyCodecs (.b b!"/foo#bar") (.b b!"baz#quux") false).toOption = some b!"/foo%23bar?baz#quux" := by
  decide +kernel

/-! ## `RequestHeaderTests` -/

/-- `test_http_headers_post_header_parse`, `test_http_request_line`, `test_http_request_url_reconstruct` -/
example : (headed {} complexHead).map (fun st =>
      (st.2.host, headers st b!"Accept", headers st b!"Accept-Language", headers st b!"Accept-Encoding",
        headers st b!"Cookies", headers st b!"User-Agent", headers st b!"Content-Length", st.2.contentType)) ==
    some (some b!"www.knowhere123.com", [b!"image/gif, image/jpeg, */*"], [b!"en-us"], [b!"gzip, deflate"],
      [b!"cookie1=value1, cookie2=value2", b!"cookie3=value3, cookie4=value4"],
      [b!"Mozilla/4.0 (compatible; MSIE 6.0; Windows NT 5.1)"], [b!"830543"], some (some b!"multipart/form-data")) := by
  decide +kernel

example : (headed {} complexHead).map (fun st => (st.2.method, st.2.scheme, st.2.getPath, st.2.proto, st.2.getPort)) ==
    some (some b!"PUT", some b!"UNKNOWN", b!"/caf%C3%A9/upload", some b!"HTTP/1.1", b!"65536") := by decide +kernel

example : (headed {} complexHead).map (fun st => ((st.2.getUri pyCodecs false).toOption,
      (st.2.getUri pyCodecs true).toOption, st.2.isAjax.toOption, st.2.isSecure)) ==
    some (some b!"UNKNOWN://www.knowhere123.com/caf%C3%A9/upload",
      some (b!"UNKNOWN://www.knowhere123.com/caf" ++ [0xC3, 0xA9] ++ b!"/upload"), some false, false) := by decide +kernel

/-- The path of `test_http_request_path_metadata_reset`. -/
def newPath : Bytes :=
  b!"/" ++ [0xD8, 0xB3, 0xD9, 0x84, 0xD8, 0xA7, 0xD9, 0x85] ++ b!"/this%/is$*()$!@/a/new/path/Name/M" ++ [0xC3, 0xBC] ++ b!"eller"

/-- `test_http_request_path_metadata_reset` -/
example : (setPath pyCodecs (.b newPath) true).toOption =
    some (.u (Py.toU b!"/%D8%B3%D9%84%D8%A7%D9%85/this%/is$*()$!@/a/new/path/Name/M%C3%BCeller")) ∧
    (getFullPath pyCodecs (.u (Py.toU b!"/%D8%B3%D9%84%D8%A7%D9%85/this%/is$*()$!@/a/new/path/Name/M%C3%BCeller")) (.b []) false).toOption =
      some b!"/%D8%B3%D9%84%D8%A7%D9%85/this%/is$*()$!@/a/new/path/Name/M%C3%BCeller" ∧
    (getFullPathRaw pyCodecs (.u (Py.toU b!"/%D8%B3%D9%84%D8%A7%D9%85/this%/is$*()$!@/a/new/path/Name/M%C3%BCeller")) (.b []) false).toOption =
      some newPath := by decide +kernel

/-- `test_http_request_encoding_and_bodystream_metadata_reset`, with another text (the files are long): the
content type and the encoding are assigned, then a new body stream; `body()` is then the decoded text. -/
def reset (enc content : Bytes) : Option (Except Exc PyStr) :=
  match headed {} complexHead with
  | none => none
  | some (S, r) =>
    match Req.setEncoding (.b enc) (S, { r with contentType := some (some b!"text/plain") }) with
    | (S, r) =>
      match r.setBodyStream pyCodecs S ⟨[content]⟩ with
      | (.error _, _) => none
      | (.ok (), r) =>
        match parseRequestBody env S r { hs := [] } with
        | (.error _, _) => none
        | (.ok (), r, _) => some (body env S r).1

example : (reset b!"iso-8859-1" (b!"Bar" ++ [0xE7] ++ b!"a")).map (·.toOption) = some (some (.u [66, 97, 114, 0xE7, 97])) := by
  decide +kernel

example : (reset b!"utf-8" (b!"Bar" ++ [0xC3, 0xA7] ++ b!"a")).map (·.toOption) = some (some (.u [66, 97, 114, 0xE7, 97])) := by
  decide +kernel

/-- `test_http_request_stream_set`: a new stream, and its header and body. -/
example : ((headed {} complexHead).bind fun st =>
      match st.2.setStream pyCodecs st.1 ⟨[getRequest1]⟩ with
      | (.error _, _) => none
      | (.ok (), r) =>
        match parseRequestHeader env st.1 r with
        | (.error _, _) => none
        | (.ok (), S, r) =>
          match parseRequestBody env S r { hs := [] } with
          | (x, r, _) => some (x.toOption, r.host, headers (S, r) b!"Accept-Language", headers (S, r) b!"Accept-Encoding",
              headers (S, r) b!"Cookies", headers (S, r) b!"User-Agent", r.contentType)) ==
    some (some (), some b!"www.knowhere484.com", [b!"en-us"], [b!"gzip, deflate"], [b!"cookie3=value3, cookie4=value4"],
      [b!"Safari/4.0 (compatible; MSIE5.01; Linux Blah)"], some (some b!"application/x-www-form-urlencoded")) := by
  decide +kernel

/-! ## `RequestTests` -/

/-- `test_request_query_string`: the query string is in `GET`, `POST` is empty. -/
example : (bodied id {} getWithQuery).map (fun (x, S, r, _) => (x.toOption, getPairs (S, r), postPairs r)) ==
    some (some (), text queryPairs, some []) := by decide +kernel

/-- `test_request_query_string`: the body is in `POST`, `GET` is empty. -/
example : (bodied id {} postWithQuery).map (fun (x, S, r, _) => (x.toOption, getPairs (S, r), postPairs r)) ==
    some (some (), [], some (text queryPairs)) := by decide +kernel

/-- `test_request_multipart_request` -/
example : (bodied id {} complexShort).map (fun (x, S, r, w) => (x.toOption, getPairs (S, r), r.post,
      (r.files.getD []).map fun (k, fs) => (k, fs.map fun f => (f.args.transferEncoding, (w.heap[f.ref]?).map (·.data.take 100))))) ==
    some (some (), [], some (.form [
        (b!"id", [⟨b!"123e4567-e89b-12d3-a456-426655440000", b!"text/plain", [], []⟩]),
        (b!"address", [⟨b!"{\r\n  \"street\": \"3, Garden St\",\r\n  \"city\": \"Hillsbery, UT\"\r\n}", b!"application/json", [], []⟩])]),
      [(b!"profileImage", [(some b!"base64", some picture)])]) := by decide +kernel

/-- The exception raised. -/
def raised (x : Option (Except Exc Unit × Settings × Req Source BWorld Uploaded × BWorld)) : Option (Option Exc) :=
  x.map fun p => match p.1 with | .error e => some e | .ok _ => none

/-- `test_request_data_too_big` -/
example : raised (bodied (fun st => (st.1, { st.2 with contentType := some (some b!"text/plain") }))
      { dataMaxMemory := some 64 } complexShort) = some (some .requestDataTooBig) ∧
    raised (bodied (fun st => (st.1, { st.2 with contentType := some (some b!"application/x-www-form-urlencoded") }))
      { dataMaxMemory := some 64 } complexShort) = some (some .requestDataTooBig) := by decide +kernel

/-- `test_invalid_request_header` -/
example : headError b!"GET asasd\r\nHost: www.knowhere123.com\r\n" = some .invalidHttpRequest ∧
    headError b!"GET dadsadsasd HTTP/1.1\r\n\r\n\r\n" = some .invalidHttpRequest ∧
    (parseRequestHeaders b!"GET asasd HTTP/1.1").toOption = none ∧
    headError b!"GET asasd\r\nHost: www.knowhere123.com\r\n\r\n" = some .invalidHttpRequest ∧
    headError b!"GET asasd asdas HTTP/1.1\r\nHost: www.knowhere123.com\r\n\r\n" = some .invalidHttpRequest ∧
    headError b!"GET asasd HTTP/1.1\r\nHost www.knowhere123.com\r\n\r\n" = some .invalidHttpRequest := by decide +kernel

/-- `test_post_process_body_read` -/
example : (bodied id {} complexShort).map (fun (_, S, r, _) =>
      match (body env S r).1 with
      | .error e => some e
      | .ok _ => none) = some (some .rawPostData) := by decide +kernel

/-- `test_invalid_request_body`: the `Content-Type` header is replaced after the header was parsed. -/
example : raised (bodied (fun st => (st.1, { st.2 with info := st.2.info.map fun m =>
        { m with headers := m.headers.map fun h => h.set b!"Content-Type" [b!"application/x-www-form-urlencoded"] } })) {}
      complexShort) =
    some (some .multiPartParserError) := by decide +kernel

/-- `test_invalid_request_body`: a multipart body read as a urlencoded form. -/
def strayBody : Bytes :=
  b!"---------------------------9051914041544843365972754266\r\n" ++
  b!"Content-Disposition: form-data; name=\"file1\"; filename=\"a.txt\"\r\n" ++
  b!"Content-Type: text/plain\r\n\r\nContent of a.txt:\r\n" ++
  b!" abcdefghijklmnopqrstuvwxyz1234567890aabbccddeeffgghhiijjkkllmmnnooppqqrrssttuuvvwwxxyyzz11223344556677889900~!@#$%^&*()_+\r\n" ++
  b!"---------------------------9051914041544843365972754266--\r\n\r\n"

example : ((headed {} postWithQuery).bind fun (S, r) =>
      match r.setBodyStream pyCodecs S ⟨[strayBody]⟩ with
      | (.error _, _) => none
      | (.ok (), r) =>
        match parseRequestBody env S r { hs := [] } with
        | (.error _, _) => none
        | (.ok (), r, _) => (postPairs r).map fun ps => ps.filter fun p => p.1 = Py.toU b!" name") =
    some [(Py.toU b!" name", Py.toU b!"\"file1\"")] := by decide +kernel

/-! ## `tests/uploadhandlers/uploadhandlers.py`

The picture of the tests has 572562 bytes and is read in chunks of 65536; here it is 8 bytes in chunks of 3. -/

/-- `handle_raw_input`, `new_file`, `receive_data_chunk` for every chunk, `file_complete`: the file and its content. -/
def upload (limit : Int) (b : Builtin) : Option (Except Exc (Option (Bool × Bytes × Option Bytes))) :=
  let b := b.rawInput { contentLength := 8, boundary := [], settings := { fileMaxMemory := limit } }
  let args : NewFileArgs := ⟨b!"", b!"/repo/tests/multipart test files/kitten.jpg", b!"", some 0, none, [], none⟩
  let rec feed (cs : List Bytes) (b : Builtin) (heap : Heap) : Except Exc (Builtin × Heap) :=
    match cs with
    | [] => .ok (b, heap)
    | c :: cs =>
      match b.receive goodOs c heap with
      | (.error e, _) => .error e
      | (.ok _, b, heap) => feed cs b heap
  let run (b : Builtin) (heap : Heap) : Except Exc (Option (Bool × Bytes × Option Bytes)) :=
    match feed [b!"kit", b!"ten", b!"!!"] b heap with
    | .error e => .error e
    | .ok (b, heap) =>
      match b.fileComplete 8 heap with
      | (.error e, _) => .error e
      | (.ok f, _, heap) => .ok (f.map fun f => (f.inMemory, f.name, (heap[f.ref]?).map (·.data)))
  match b.newFile goodOs args [] with
  | (.ok (), b, heap) => some (run b heap)
  | (.error .stopFutureHandlers, b, heap) => some (run b heap)
  | (.error _, _) => none

/-- `test_in_memory_upload_activate` -/
example : (upload 10 (.memory {})).map (·.toOption) == some (some (some (true, b!"kitten.jpg", some b!"kitten!!"))) := by
  decide +kernel

/-- `test_in_memory_upload_inactive` -/
example : (upload 5 (.memory {})).map (·.toOption) == some (some none) := by decide +kernel

/-- `test_temp_file_upload` -/
example : (upload 10 (.temp {})).map (·.toOption) == some (some (some (false, b!"kitten.jpg", some b!"kitten!!"))) := by
  decide +kernel

/-- `test_convenient_file_upload_in_memory` -/
example : (upload 10 (.conv {})).map (·.toOption) == some (some (some (true, b!"kitten.jpg", some b!"kitten!!"))) := by
  decide +kernel

/-- `test_convenient_file_upload_to_disk` -/
example : (upload 5 (.conv {})).map (·.toOption) == some (some (some (false, b!"kitten.jpg", some b!"kitten!!"))) := by
  decide +kernel

/-! ## `tests/settings/settings.py` -/

/-- A file system with the directory `/etc`, in which nothing may be written. -/
def etcFs : Fs where
  isdir p := decide (p = b!"/etc")
  mkdir _ := .ok ()
  touch p := if Py.startsWith b!"/etc/" p then .error .ioError else .ok ()
  base := b!"/repo/request_parser"

/-- `test_invalid_arg_init` -/
example : (settingsInit etcFs .other true).toOption.map (·.fileUploadTempDir) = some none := by decide +kernel

/-- `test_file_upload_directory` -/
example : (settingsDefault etcFs false).toOption.map (·.fileUploadTempDir) =
      some (some (.str b!"/repo/request_parser/files/file_uploads")) ∧
    (settingsInit etcFs (.dict [(b!"FILE_UPLOAD_TEMP_DIR", .str b!"/etc/")]) true).toOption = none := by decide +kernel

/-- `test_default_settings` -/
example : (settingsDefault etcFs false).toOption = some { fileUploadTempDir := some (.str b!"/repo/request_parser/files/file_uploads"), maxHeaderSize := some (.int 16), fileUploadMaxMemorySize := some (.int 31457280), dataUploadMaxMemorySize := some (.int 5242880), dataUploadMaxNumberFields := some (.int 4096), defaultCharset := some (.str b!"ISO-8859-1") } := by
  decide +kernel

/-- `test_custom_setting` -/
example : (settingsInit etcFs (.dict [(b!"FILE_UPLOAD_TEMP_DIR", .str b!"tests/settings/test_file_dir"),
      (b!"FILE_UPLOAD_MAX_MEMORY", .int 10485760)]) true).toOption = some { fileUploadTempDir := some (.str b!"/repo/request_parser/tests/settings/test_file_dir"), maxHeaderSize := some (.int 16), fileUploadMaxMemorySize := some (.int 10485760), dataUploadMaxMemorySize := some (.int 5242880), dataUploadMaxNumberFields := some (.int 4096), defaultCharset := some (.str b!"ISO-8859-1") } := by
  decide +kernel

/-! ## `tests/misc/parse_header-test.py` -/

example : (parseHeader pyCodecs b!"foo/bar;key=\"A,B,C\"").toOption = some (b!"foo/bar", [(b!"key", .b b!"A,B,C")]) := by
  decide +kernel

end Verif.RepoTests
