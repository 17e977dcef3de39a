import Verif.Model.Boundary
import Verif.Model.Header
import Verif.Model.Text
import Verif.Model.Settings
import Verif.Py.Base64
/-!
# MultiPartParser (`http/multipartparser.py:35-340`, `485-564`)

Upload handlers are arbitrary objects: their common state is a *world* of type `σ`, and
`HandlerOps` says what each method call does to it.  Because all handlers (and the file objects
they return) share one world, aliasing between them is covered.  The built-in handlers are an
instance (`Model/Handlers.lean`).
-/

namespace Verif

/-- A multi-value dictionary with string keys, as association list (see `Model/MVDict.lean`
for the class itself). -/
abbrev MVD (α : Type) := Dict Bytes (List α)

/-- `appendlist` (`utils/datastructures.py:169-171`). -/
def MVD.append {α : Type} (d : MVD α) (k : Bytes) (v : α) : MVD α :=
  Dict.set d k ((Dict.get? d k).getD [] ++ [v])

/-- `TYPE` (`http/multipartparser.py:31-33`). -/
inductive ItemType where
  | raw | field | file
  deriving DecidableEq, Repr

/-- `outdict` (`http/multipartparser.py:520`): header name to (value, parameters). -/
abbrev MetaData := Dict Bytes (Bytes × Dict Bytes PyStr)

/-- `_parse_header` inside `parse_boundary_stream` (`http/multipartparser.py:499-505`). -/
def parsePartHeader (C : Codecs) (line : Bytes) : Except Exc (Bytes × Bytes × Dict Bytes PyStr) :=
  match parseHeader C line with
  | .error e => .error e
  | .ok (mainValue, params) =>
    match Py.splitFirst 58 mainValue with
    | none => .error .valueError
    | some (name, value) => .ok (name, value, params)

/-- The loop over header lines (`http/multipartparser.py:519-536`).  Lines that raise a
`ValueError` (of any kind) are skipped. -/
def partHeaders (C : Codecs) : List Bytes → ItemType → MetaData → Except Exc (ItemType × MetaData)
  | [], t, out => .ok (t, out)
  | line :: ls, t, out =>
    match parsePartHeader C line with
    | .error e => if e.isValueError then partHeaders C ls t out else .error e
    | .ok (name, value, params) =>
      let t := if name = b!"content-disposition" then
          (if ((params.get? b!"filename").map PyStr.truthy).getD false then .file else .field)
        else t
      partHeaders C ls t (out.set name (value, params))

/-- `parse_boundary_stream` (`http/multipartparser.py:485-543`).  The returned stream is the
argument itself, here the second component. -/
def parseBoundaryStream {τ : Type} [Producer τ] (C : Codecs) (s : LazyStream τ) (maxHeader : Nat) :
    Res (LazyStream τ) (ItemType × MetaData) :=
  match s.read (some maxHeader) with
  | (.error e, s) => (.error e, s)
  | (.ok chunk, s) =>
    match Py.find b!"\r\n\r\n" chunk with
    | none =>
      match s.unget chunk with
      | (.error e, s) => (.error e, s)
      | (.ok (), s) => (.ok (.raw, []), s)
    | some headerEnd =>
      match s.unget (chunk.drop (headerEnd + 4)) with
      | (.error e, s) => (.error e, s)
      | (.ok (), s) =>
        match partHeaders C (Py.splitPair 13 10 (chunk.take headerEnd)) .raw [] with
        | .error e => (.error e, s)
        | .ok (t, out) =>
          if t = .raw then
            match s.unget chunk with
            | (.error e, s) => (.error e, s)
            | (.ok (), s) => (.ok (t, out), s)
          else (.ok (t, out), s)

/-- The value stored for a form field (`http/multipartparser.py:214-219`). -/
structure PostItem where
  data : Bytes
  contentType : Bytes
  transferEncoding : Bytes
  extra : Dict Bytes PyStr
  deriving DecidableEq, Repr

/-- Arguments of `handler.new_file` (`http/multipartparser.py:243-247`). -/
structure NewFileArgs where
  fieldName : Bytes
  fileName : Bytes
  contentType : Bytes
  contentLength : Option Int
  charset : Option PyStr
  extra : Dict Bytes PyStr
  transferEncoding : Option Bytes
  deriving DecidableEq, Repr

/-- Arguments of `handler.handle_raw_input` besides the stream
(`http/multipartparser.py:115-122`).  Simplification: `META` is constant during a parse; a
handler that looks at it has it in its world. -/
structure RawArgs where
  contentLength : Nat
  boundary : Bytes
  settings : Settings
  deriving DecidableEq, Repr

/-- The upload handlers: `count` objects; the methods are indexed by position.  `ρ` is the type
of the input stream's producer, `σ` the world, `F` the type of file objects.  `chunkSize` is
`none` for a false value.  `truthy` is `bool(file_obj)`, `uploadComplete` returns the truth value
of the method's result, `close` is `handler.file.close()` if the handler has a `file`. -/
structure HandlerOps (ρ σ F : Type) where
  count : Nat
  chunkSize : Nat → Option Nat
  rawInput : Nat → RawArgs → LazyStream ρ → σ →
    Except Exc (Option (MVD PostItem × MVD F)) × LazyStream ρ × σ
  newFile : Nat → NewFileArgs → σ → Res σ Unit
  receive : Nat → Bytes → Nat → σ → Res σ (Option Bytes)
  fileComplete : Nat → Nat → σ → Res σ (Option F)
  truthy : F → σ → Bool
  uploadComplete : Nat → σ → Res σ Bool
  close : Nat → σ → Res σ Unit

/-- Local variables of `parse` (`http/multipartparser.py:131-147`) and the world. -/
structure PState (σ F : Type) where
  world : σ
  post : MVD PostItem := []
  files : MVD F := []
  oldField : Option Bytes := none
  counters : List Nat := []
  numBytes : Nat := 0
  numKeys : Nat := 0

section
variable {ρ σ F τ : Type} [Producer τ]

/-- The loop of `handle_file_complete` (`http/multipartparser.py:322-327`). -/
def completeLoop (H : HandlerOps ρ σ F) (counters : List Nat) : List Nat → σ → Res σ (Option F)
  | [], w => (.ok none, w)
  | i :: is, w =>
    match H.fileComplete i (counters.getD i 0) w with
    | (.error e, w) => (.error e, w)
    | (.ok none, w) => completeLoop H counters is w
    | (.ok (some f), w) => if H.truthy f w then (.ok (some f), w) else completeLoop H counters is w

/-- `handle_file_complete` (`http/multipartparser.py:318-327`). -/
def handleFileComplete (H : HandlerOps ρ σ F) (name : Bytes) (st : PState σ F) :
    Res (PState σ F) Unit :=
  match completeLoop H st.counters (List.range H.count) st.world with
  | (.error e, w) => (.error e, { st with world := w })
  | (.ok none, w) => (.ok (), { st with world := w })
  | (.ok (some f), w) => (.ok (), { st with world := w, files := st.files.append name f })

/-- `_close_files` (`http/multipartparser.py:334-340`). -/
def closeFiles (H : HandlerOps ρ σ F) : List Nat → σ → Res σ Unit
  | [], w => (.ok (), w)
  | i :: is, w =>
    match H.close i w with
    | (.error e, w) => (.error e, w)
    | (.ok (), w) => closeFiles H is w

/-- `IE_sanitize` (`http/multipartparser.py:330-332`). -/
def ieSanitize (name : Bytes) : Bytes :=
  match Py.rfindChar 92 name with
  | none => Py.strip name
  | some i => Py.strip (name.drop (i + 1))

/-- Announce the file to the handlers (`http/multipartparser.py:241-251`). -/
def newFiles (H : HandlerOps ρ σ F) (args : NewFileArgs) : List Nat → σ → Res σ Unit
  | [], w => (.ok (), w)
  | i :: is, w =>
    match H.newFile i args w with
    | (.error .stopFutureHandlers, w) => (.ok (), w)
    | (.error e, w) => (.error e, w)
    | (.ok (), w) => newFiles H args is w

/-- Pass a chunk through the handlers (`http/multipartparser.py:273-283`). -/
def feedChunk (H : HandlerOps ρ σ F) : List Nat → Bytes → List Nat → σ → Res (List Nat × σ) Unit
  | [], _, counters, w => (.ok (), counters, w)
  | i :: is, chunk, counters, w =>
    match H.receive i chunk (counters.getD i 0) w with
    | (.error e, w) => (.error e, counters, w)
    | (.ok none, w) => (.ok (), counters.set i (counters.getD i 0 + chunk.length), w)
    | (.ok (some chunk'), w) =>
      feedChunk H is chunk' (counters.set i (counters.getD i 0 + chunk.length)) w

/-- The base64 filling loop (`http/multipartparser.py:261-265`).  It really can run forever, so
its fuel is an argument of `parse`; running out of it is `diverge`. -/
def fillBase64 : (fuel : Nat) → Bytes → LazyStream τ → Res (LazyStream τ) Bytes
  | 0, stripped, s => if stripped.length % 4 = 0 then (.ok stripped, s) else (.error .diverge, s)
  | fuel + 1, stripped, s =>
    if stripped.length % 4 = 0 then (.ok stripped, s)
    else
      match s.read (some (4 - stripped.length % 4 : Nat)) with
      | (.error e, s) => (.error e, s)
      | (.ok over, s) => fillBase64 fuel (stripped ++ Py.removeSpaces over) s

/-- The chunk handed to the handlers (`http/multipartparser.py:254-271`).  A failed decoding
ends in `six.reraise(instance, exc)`, which is `raise instance, exc` in Python 2 and raises
`TypeError`. -/
def fileChunk (fuel64 : Nat) (base64 : Bool) (chunk : Bytes) (s : LazyStream τ) :
    Res (LazyStream τ) Bytes :=
  if base64 then
    match fillBase64 fuel64 (Py.removeSpaces chunk) s with
    | (.error e, s) => (.error e, s)
    | (.ok stripped, s) =>
      match Py.b64decode stripped with
      | none => (.error .typeError, s)
      | some d => (.ok d, s)
  else (.ok chunk, s)

/-- `for chunk in field_stream` (`http/multipartparser.py:253-283`). -/
def fileLoop (H : HandlerOps ρ σ F) (fuel64 : Nat) (base64 : Bool) :
    (fuel : Nat) → LazyStream τ → List Nat → σ → Res (LazyStream τ × List Nat × σ) Unit
  | 0, s, cs, w => (.error .diverge, s, cs, w)
  | fuel + 1, s, cs, w =>
    match s.next with
    | (.error e, s) => (.error e, s, cs, w)
    | (.ok none, s) => (.ok (), s, cs, w)
    | (.ok (some chunk), s) =>
      match fileChunk fuel64 base64 chunk s with
      | (.error e, s) => (.error e, s, cs, w)
      | (.ok chunk, s) =>
        match feedChunk H (List.range H.count) chunk cs w with
        | (.error e, cs, w) => (.error e, s, cs, w)
        | (.ok (), cs, w) => fileLoop H fuel64 base64 fuel s cs w

/-- `int(s)` on an ASCII `unicode` value (`http/multipartparser.py:235`). -/
def parseIntU (s : Bytes) : Option Int := Py.parseInt (Py.ustrip s)

/-- `QueryDict(settings, mutable=True)` with no query string (`http/request.py:619-642`): the
empty string is decoded with the default charset and split into at most
`DATA_UPLOAD_MAX_NUMBER_FIELDS` fields (`utils/http.py:401-407`). -/
def emptyQueryDict (C : Codecs) (S : Settings) : Except Exc Unit :=
  match C.decode S.defaultCharset [] with
  | .error e => if e = .unicodeDecodeError then
      (if S.maxFields.any (· < 0) then .error .tooManyFieldsSent else .ok ())
    else .error e
  | .ok _ => if S.maxFields.any (· < 0) then .error .tooManyFieldsSent else .ok ()

/-- `bytes_to_text` on a `str` (`http/request.py:764-776`). -/
def bytesToText (C : Codecs) (S : Settings) (s : Bytes) : Except Exc Bytes :=
  C.strEncode S.defaultCharset s

/-- `self._post.appendlist(field_name, item)` (`http/multipartparser.py:214-220`, `http/request.py:694-708`,
`utils/datastructures.py:157-171`).  The key is converted, and once more by `setlist` if it is new.  If that changes
it, the changed key gets an empty list and the item goes into a list that nobody keeps. -/
def postAppend (C : Codecs) (S : Settings) (post : MVD PostItem) (name : Bytes) (item : PostItem) :
    Except Exc (MVD PostItem) :=
  match bytesToText C S name with
  | .error e => .error e
  | .ok key =>
    if (Dict.get? post key).isSome then .ok (post.append key item)
    else
      match bytesToText C S key with
      | .error e => .error e
      | .ok key' => if key' = key then .ok (post.append key item) else .ok (Dict.set post key' [])

/-- Store a form field whose bytes have been read (`http/multipartparser.py:188-220`). -/
def storeField (C : Codecs) (S : Settings) (name : Bytes) (te : Option Bytes) (md : MetaData)
    (raw : Bytes) (st : PState σ F) : Res (PState σ F) Unit :=
  let st := { st with numBytes := st.numBytes + raw.length }
  match (if te = some b!"base64" then Py.b64decode raw else some raw) with
  | none => (.error .typeError, st)
  | some data =>
    let st := { st with numBytes := st.numBytes + (name.length + 2) }
    if S.dataMaxMemory.any (· < (st.numBytes : Int)) then (.error .requestDataTooBig, st)
    else
      let item : PostItem :=
        { data := data, contentType := Py.ustrip ((md.get? b!"content-type").getD ([], [])).1,
          transferEncoding := te.getD [],
          extra := ((md.get? b!"content-type").getD ([], [])).2 }
      match postAppend C S st.post name item with
      | .error e => (.error e, st)
      | .ok post => (.ok (), { st with post := post })

/-- A form field (`http/multipartparser.py:170-220`). -/
def handleField (C : Codecs) (S : Settings) (name : Bytes) (te : Option Bytes) (md : MetaData)
    (s : LazyStream τ) (st : PState σ F) : Res (LazyStream τ × PState σ F) Unit :=
  let st := { st with numKeys := st.numKeys + 1 }
  if S.maxFields.any (· < (st.numKeys : Int)) then (.error .tooManyFieldsSent, s, st)
  else
    match s.read (S.dataMaxMemory.map (· - (st.numBytes : Int))) with
    | (.error e, s) => (.error e, s, st)
    | (.ok raw, s) =>
      match storeField C S name te md raw st with
      | (r, st) => (r, s, st)

/-- The part of the file branch inside `try` (`http/multipartparser.py:239-283`). -/
def receiveFile (H : HandlerOps ρ σ F) (fuel64 : Nat) (args : NewFileArgs)
    (s : LazyStream τ) (w : σ) : Res (LazyStream τ × List Nat × σ) Unit :=
  let cs := List.replicate H.count 0
  match newFiles H args (List.range H.count) w with
  | (.error e, w) => (.error e, s, cs, w)
  | (.ok (), w) =>
    fileLoop H fuel64 (args.transferEncoding = some b!"base64") (s.size + 1) s cs w

/-- The file name as passed to the handlers (`http/multipartparser.py:223-226`). -/
def fileNameOf (n : PyStr) : Except Exc Bytes :=
  match forceText n with
  | .error e => .error e
  | .ok n =>
    match unescapeEntities n with
    | .error e => .error e
    | .ok n => .ok (ieSanitize n)

/-- `file_name` on line 227 (`http/multipartparser.py:223-226`). -/
def dispositionFileName (disposition : Dict Bytes PyStr) : Except Exc Bytes :=
  match disposition.get? b!"filename" with
  | some n => if n.truthy then fileNameOf n else .ok []
  | none => .ok []

/-- The arguments of `new_file` (`http/multipartparser.py:230-237`). -/
def fileArgs (name fileName : Bytes) (te : Option Bytes) (md : MetaData) : NewFileArgs :=
  let ct := (md.get? b!"content-type").getD ([], [])
  { fieldName := name, fileName := fileName, contentType := Py.ustrip ct.1,
    contentLength := (md.get? b!"content-length").bind (fun v => parseIntU v.1),
    charset := ct.2.get? b!"charset", extra := ct.2, transferEncoding := te }

/-- An uploaded file (`http/multipartparser.py:221-292`). -/
def handleFile (H : HandlerOps ρ σ F) (fuel64 : Nat) (name : Bytes) (te : Option Bytes)
    (md : MetaData) (disposition : Dict Bytes PyStr)
    (s : LazyStream τ) (st : PState σ F) : Res (LazyStream τ × PState σ F) Unit :=
  match dispositionFileName disposition with
  | .error e => (.error e, s, st)
  | .ok fileName =>
    if fileName = [] then (.ok (), s, st)
    else
      match receiveFile H fuel64 (fileArgs name fileName te md) s st.world with
      | (.ok (), s, cs, w) => (.ok (), s, { st with world := w, counters := cs, oldField := some name })
      | (.error .skipFile, s, cs, w) =>
        match closeFiles H (List.range H.count) w with
        | (.error e, w) => (.error e, s, { st with world := w, counters := cs })
        | (.ok (), w) =>
          match exhaust s with
          | (.error e, s) => (.error e, s, { st with world := w, counters := cs })
          | (.ok (), s) => (.ok (), s, { st with world := w, counters := cs })
      | (.error e, s, cs, w) => (.error e, s, { st with world := w, counters := cs })

/-- Complete the file of the previous part (`http/multipartparser.py:151-156`). -/
def completeOld (H : HandlerOps ρ σ F) (st : PState σ F) : Res (PState σ F) Unit :=
  match st.oldField with
  | some (c :: n) =>
    match handleFileComplete H (c :: n) st with
    | (.error e, st) => (.error e, st)
    | (.ok (), st) => (.ok (), { st with oldField := none })
  | _ => (.ok (), st)

/-- `disposition` and `disposition['name']` (`http/multipartparser.py:158-162`); `none` is the
`KeyError` that skips the part. -/
def partName (md : MetaData) : Option (Dict Bytes PyStr × PyStr) :=
  (md.get? b!"content-disposition").bind (fun v => (v.2.get? b!"name").map (fun n => (v.2, n)))

/-- `transfer_encoding` (`http/multipartparser.py:164-167`). -/
def transferEnc (md : MetaData) : Option Bytes :=
  (md.get? b!"content-transfer-encoding").map (fun v => Py.ustrip v.1)

/-- The body of the loop over parts (`http/multipartparser.py:151-295`).  For an item of type RAW
there is no `content-disposition` (`http/multipartparser.py:531-541`), so the `KeyError` of line
159 skips it; line 295 is unreachable and stands as `other 295` (`partHead_raw`). -/
def handlePart (C : Codecs) (S : Settings) (H : HandlerOps ρ σ F) (fuel64 : Nat)
    (t : ItemType) (md : MetaData) (s : LazyStream τ) (st : PState σ F) :
    Res (LazyStream τ × PState σ F) Unit :=
  match completeOld H st with
  | (.error e, st) => (.error e, s, st)
  | (.ok (), st) =>
    match partName md with
    | none => (.ok (), s, st)
    | some (disposition, name) =>
      match forceText name.strip with
      | .error e => (.error e, s, st)
      | .ok name =>
        match t with
        | .field => handleField C S name (transferEnc md) md s st
        | .file => handleFile H fuel64 name (transferEnc md) md disposition s st
        | .raw => (.error (.other 295), s, st)

end

section
variable {ρ σ F : Type} [Producer ρ]

/-- `for item_type, meta_data, field_stream in Parser(stream, self._boundary)`
(`http/multipartparser.py:150`, `545-564`).  The stream of the parts is taken back out of the
part that was read last. -/
def partsLoop (C : Codecs) (S : Settings) (H : HandlerOps ρ σ F) (fuel64 : Nat) (sep : Bytes) :
    (fuel : Nat) → LazyStream (ChunkIter ρ) → PState σ F →
    Res (LazyStream (ChunkIter ρ) × PState σ F) Unit
  | 0, s, st => (.error .diverge, s, st)
  | fuel + 1, s, st =>
    match nextPart s sep with
    | (.error e, s) => (.error e, s, st)
    | (.ok none, s) => (.ok (), s, st)
    | (.ok (some sub), _) =>
      match parseBoundaryStream C sub 1024 with
      | (.error e, sub) => (.error e, sub.producer.stream, st)
      | (.ok (t, md), sub) =>
        match handlePart C S H fuel64 t md sub st with
        | (.error e, sub, st) => (.error e, sub.producer.stream, st)
        | (.ok (), sub, st) => partsLoop C S H fuel64 sep fuel sub.producer.stream st

/-- `any(handler.upload_complete() for handler in handlers)` (`http/multipartparser.py:314`). -/
def uploadCompleteLoop (H : HandlerOps ρ σ F) : List Nat → σ → Res σ Unit
  | [], w => (.ok (), w)
  | i :: is, w =>
    match H.uploadComplete i w with
    | (.error e, w) => (.error e, w)
    | (.ok b, w) => if b then (.ok (), w) else uploadCompleteLoop H is w

/-- The loop over `handle_raw_input` (`http/multipartparser.py:114-129`). -/
def rawInputLoop (H : HandlerOps ρ σ F) (args : RawArgs) : List Nat → LazyStream ρ → σ →
    Except Exc (Option (MVD PostItem × MVD F)) × LazyStream ρ × σ
  | [], s, w => (.ok none, s, w)
  | i :: is, s, w =>
    match H.rawInput i args s w with
    | (.error e, s, w) => (.error e, s, w)
    | (.ok (some r), s, w) => (.ok (some r), s, w)
    | (.ok none, s, w) => rawInputLoop H args is s w

/-- A constructed `MultiPartParser` (`http/multipartparser.py:80-93`). -/
structure MultiPart where
  boundary : Bytes
  chunkSize : Nat
  contentLength : Nat
  deriving DecidableEq, Repr

/-- The end of `parse` (`http/multipartparser.py:313-316`). -/
def finishParse (H : HandlerOps ρ σ F) (s : LazyStream ρ) (st : PState σ F) :
    Except Exc (MVD PostItem × MVD F) × LazyStream ρ × σ :=
  match uploadCompleteLoop H (List.range H.count) st.world with
  | (.error e, w) => (.error e, s, w)
  | (.ok (), w) => (.ok (st.post, st.files), s, w)

/-- `parse` (`http/multipartparser.py:95-316`) on the input stream `input`.  Returns the POST and
FILES dictionaries, the input stream and the world afterwards. -/
def MultiPart.parse (C : Codecs) (S : Settings) (H : HandlerOps ρ σ F) (fuel64 : Nat)
    (m : MultiPart) (input : LazyStream ρ) (w : σ) :
    Except Exc (MVD PostItem × MVD F) × LazyStream ρ × σ :=
  if m.contentLength = 0 then
    match emptyQueryDict C S with
    | .error e => (.error e, input, w)
    | .ok () => (.ok ([], []), input, w)
  else
    match rawInputLoop H { contentLength := m.contentLength, boundary := m.boundary, settings := S }
        (List.range H.count) input w with
    | (.error e, s, w) => (.error e, s, w)
    | (.ok (some r), s, w) => (.ok r, s, w)
    | (.ok none, input, w) =>
      match emptyQueryDict C S with
      | .error e => (.error e, input, w)
      | .ok () =>
        let body : LazyStream (ChunkIter ρ) := LazyStream.mk' ⟨input, m.chunkSize⟩
        let st : PState σ F := { world := w, counters := List.replicate H.count 0 }
        match partsLoop C S H fuel64 (b!"--" ++ m.boundary) (body.size + 1) body st with
        | (.ok (), body, st) =>
          match exhaust body.producer.flo with
          | (.error e, s) => (.error e, s, st.world)
          | (.ok (), s) => finishParse H s st
        | (.error (.stopUpload reset), body, st) =>
          match closeFiles H (List.range H.count) st.world with
          | (.error e, w) => (.error e, body.producer.flo, w)
          | (.ok (), w) =>
            if reset then finishParse H body.producer.flo { st with world := w }
            else
              match exhaust body.producer.flo with
              | (.error e, s) => (.error e, s, w)
              | (.ok (), s) => finishParse H s { st with world := w }
        | (.error e, body, st) => (.error e, body.producer.flo, st.world)

/-- The loop over the parts (`http/multipartparser.py:150`, `545-564`) with a `unicode` separator, see
`Model/Boundary.lean`. -/
def textPartsLoop (C : Codecs) (S : Settings) (H : HandlerOps ρ σ F) (fuel64 : Nat) (sep : Bytes) :
    (fuel : Nat) → LazyStream (ChunkIter ρ) → PState σ F →
    Res (LazyStream (ChunkIter ρ) × PState σ F) Unit
  | 0, s, st => (.error .diverge, s, st)
  | fuel + 1, s, st =>
    match nextTextPart s sep with
    | (.error e, s) => (.error e, s, st)
    | (.ok none, s) => (.ok (), s, st)
    | (.ok (some sub), _) =>
      match parseBoundaryStream C sub 1024 with
      | (.error e, sub) => (.error e, sub.producer.iter.stream, st)
      | (.ok (t, md), sub) =>
        match handlePart C S H fuel64 t md sub st with
        | (.error e, sub, st) => (.error e, sub.producer.iter.stream, st)
        | (.ok (), sub, st) => textPartsLoop C S H fuel64 sep fuel sub.producer.iter.stream st

/-- `parse` (`http/multipartparser.py:95-316`) with a boundary that is a `unicode` object.  Simplification:
`handle_raw_input` is given the boundary as bytes. -/
def MultiPart.parseText (C : Codecs) (S : Settings) (H : HandlerOps ρ σ F) (fuel64 : Nat)
    (m : MultiPart) (input : LazyStream ρ) (w : σ) :
    Except Exc (MVD PostItem × MVD F) × LazyStream ρ × σ :=
  if m.contentLength = 0 then
    match emptyQueryDict C S with
    | .error e => (.error e, input, w)
    | .ok () => (.ok ([], []), input, w)
  else
    match rawInputLoop H { contentLength := m.contentLength, boundary := m.boundary, settings := S }
        (List.range H.count) input w with
    | (.error e, s, w) => (.error e, s, w)
    | (.ok (some r), s, w) => (.ok r, s, w)
    | (.ok none, input, w) =>
      match emptyQueryDict C S with
      | .error e => (.error e, input, w)
      | .ok () =>
        let body : LazyStream (ChunkIter ρ) := LazyStream.mk' ⟨input, m.chunkSize⟩
        let st : PState σ F := { world := w, counters := List.replicate H.count 0 }
        match textPartsLoop C S H fuel64 (b!"--" ++ m.boundary) (body.size + 1) body st with
        | (.ok (), body, st) =>
          match exhaust body.producer.flo with
          | (.error e, s) => (.error e, s, st.world)
          | (.ok (), s) => finishParse H s st
        | (.error (.stopUpload reset), body, st) =>
          match closeFiles H (List.range H.count) st.world with
          | (.error e, w) => (.error e, body.producer.flo, w)
          | (.ok (), w) =>
            if reset then finishParse H body.producer.flo { st with world := w }
            else
              match exhaust body.producer.flo with
              | (.error e, s) => (.error e, s, w)
              | (.ok (), s) => finishParse H s { st with world := w }
        | (.error e, body, st) => (.error e, body.producer.flo, st.world)

/-- `re.match("^[ -~]{0,200}[!-~]$", s)` (`cgi.valid_boundary`): `$` also matches before a final
newline. -/
def validBoundary (s : List Nat) : Bool :=
  let t := if s.getLast? = some 10 then s.dropLast else s
  decide (t.length ≤ 201) && t.all (fun c => 32 ≤ c && c ≤ 126) &&
    (match t.getLast? with
      | some c => decide (c ≠ 32)
      | none => false)

/-- `min([2 ** 31 - 4] + possible_sizes)` (`http/multipartparser.py:87-88`). -/
def chunkSizeOf (H : HandlerOps ρ σ F) : Nat :=
  ((List.range H.count).filterMap (fun i => (H.chunkSize i).filter (· ≠ 0))).foldl min (2 ^ 31 - 4)

/-- `MultiPartParser.__init__` (`http/multipartparser.py:42-93`).  `contentType` and
`contentLength` are `META.get('Content-Type')` and `META.get('Content-Length')`.
A boundary written as `boundary*=charset'lang'value` is a `unicode` object in the
code, here it is its ASCII bytes; `unicodeBoundary` tells which. -/
def MultiPart.create (C : Codecs) (H : HandlerOps ρ σ F) (contentType contentLength : Option Bytes) :
    Except Exc MultiPart :=
  let ct := contentType.getD []
  if Py.startsWith b!"multipart/" ct = false then .error .multiPartParserError
  else if Py.isAscii ct = false then .error .unicodeDecodeError
  else
    match parseHeader C ct with
    | .error e => .error e
    | .ok (_, opts) =>
      match opts.get? b!"boundary" with
      | none => .error .attributeError
      | some b =>
        let text : List Nat := match b with
          | .b s => Py.toU s
          | .u s => s
        if text = [] ∨ validBoundary text = false then
          -- `boundary.decode()` in the message
          (match b with
            | .b _ => .error .multiPartParserError
            | .u s => if s.all (· < 128) then .error .multiPartParserError
                else .error .unicodeEncodeError)
        else
          let n : Int := match contentLength with
            | none => 0
            | some l => (Py.parseInt l).getD 0
          if n < 0 then .error .multiPartParserError
          else .ok { boundary := text.map UInt8.ofNat, chunkSize := chunkSizeOf H,
                     contentLength := n.toNat }

/-- Whether `self._boundary` is a `unicode` object: `isinstance(boundary, str)` on line 80 is false
(`http/multipartparser.py:63-64`, `80-82`). -/
def unicodeBoundary (C : Codecs) (contentType : Option Bytes) : Bool :=
  match parseHeader C (contentType.getD []) with
  | .error _ => false
  | .ok (_, opts) =>
    match opts.get? b!"boundary" with
    | some (.u _) => true
    | _ => false

/-- `MultiPartParser(…).parse()` for either kind of boundary (`http/multipartparser.py:80-82`, `95-316`). -/
def MultiPart.run (C : Codecs) (S : Settings) (H : HandlerOps ρ σ F) (fuel64 : Nat) (text : Bool)
    (m : MultiPart) (input : LazyStream ρ) (w : σ) :
    Except Exc (MVD PostItem × MVD F) × LazyStream ρ × σ :=
  if text then m.parseText C S H fuel64 input w else m.parse C S H fuel64 input w

end
end Verif
