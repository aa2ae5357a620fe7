import Verif.Emit
import Verif.Langs
import Verif.TypeStrings

/-!
# The C API: `ulight_state`, `ulight_source_to_tokens`, `ulight_source_to_html`

The model is generic in the table of highlighters (`Dispatch`); the modelled languages are plugged
in by `Verif/Dispatch.lean`.

Simplifications:
* Pointers are `Option`s.  A `const char*` to text is modelled by the bytes that may be read
  through it, so that reading past them can be expressed (`readMem`).
* User callbacks are recorded, not executed: the model returns the arguments of all calls in order.
  They are assumed to return normally and to leave the state object alone.
* A highlighter first produces its whole emission sequence, which is then replayed through the
  token buffer, whose batches are then passed to the callback.  In the C++ code these three are
  interleaved.  As none of them feeds anything back except through `emit` (see `Emit.lean`), the
  calls and their arguments are the same.  If a fault happens the model reports only the fault.
* No exceptions are modelled.  A failing assertion is `Fault.assert` no matter how assertions are
  configured.
-/

namespace Ulight

/-- `ulight_status` (include/ulight/ulight.h:176-200). -/
inductive Status where
  | ok | badBuffer | badLang | badText | badState | badCode | badAlloc | internalError
  deriving DecidableEq, Repr

/-- `Highlight_Options` (include/ulight/impl/highlight.hpp). -/
structure Opts where
  coalescing : Bool := false
  strict : Bool := false
  deriving DecidableEq, Repr

/-- A `Highlight_Fn`: returns the `bool` result and the emissions.  The first argument says whether
`ULIGHT_DEBUG_ASSERT` is active. -/
abbrev Highlight := Bool → Opts → Bytes → Except Fault (Bool × List Emit)

/-- The array `highlight_functions` (include/ulight/impl/highlight.hpp:84-113): `none` is
`nullptr`. -/
abbrev Dispatch := Nat → Option Highlight

/-- What `flush_tokens` points to. -/
inductive FlushTokens where
  | null
  /-- a callback installed by the user -/
  | user
  /-- the local closure of a call of `ulight_source_to_html` that has returned -/
  | ended
  deriving DecidableEq, Repr

/-- `ulight_state` (include/ulight/ulight.h:761-806).  The callback data pointers are numbers. -/
structure State where
  source : Option Bytes := none
  sourceLen : Nat := 0
  lang : Nat := 0
  flags : Nat := 0
  tokenBuf : Bool := false
  tokenBufLen : Nat := 0
  flushTokensData : Nat := 0
  flushTokens : FlushTokens := .null
  htmlTag : Option Bytes := none
  htmlTagLen : Nat := 0
  htmlAttr : Option Bytes := none
  htmlAttrLen : Nat := 0
  textBuf : Bool := false
  textBufLen : Nat := 0
  flushTextData : Nat := 0
  /-- `flush_text` is not null -/
  flushText : Bool := false
  error : Option Bytes := none
  errorLen : Nat := 0
  deriving DecidableEq, Repr

/-- `ulight_init` (src/main/cpp/ulight.cpp:319-348).  The previous content of the object is
irrelevant because every field is assigned. -/
def State.init : State :=
  { source := none, sourceLen := 0, lang := Lang.none, flags := 0, tokenBuf := false,
    tokenBufLen := 0, flushTokensData := 0, flushTokens := .null, htmlTag := some b!"h-",
    htmlTagLen := 2, htmlAttr := some b!"data-h", htmlAttrLen := 6, textBuf := false,
    textBufLen := 0, flushTextData := 0, flushText := false, error := none, errorLen := 0 }

/-- Reading `len` bytes through a pointer. -/
def readMem (p : Option Bytes) (len : Nat) : Except Fault Bytes :=
  match p with
  | some m => if len ≤ m.length then .ok (m.take len) else .error .outOfBounds
  | none => if len = 0 then .ok [] else .error .outOfBounds

/-- `error(state, status, text)` (ulight.cpp:370-375). -/
def State.setError (st : State) (msg : Bytes) : State :=
  { st with error := some msg, errorLen := msg.length }

/-- `to_options` (ulight.cpp:21-27): `ULIGHT_COALESCE = 1`, `ULIGHT_STRICT = 2`. -/
def toOptions (flags : Nat) : Opts :=
  { coalescing := flags &&& 1 != 0, strict := flags &&& 2 != 0 }

/-- `ulight::highlight` (include/ulight/impl/highlight.hpp:76-123), up to the call of the
highlighter: `none` is `Status::bad_lang`. -/
def highlighterOf (disp : Dispatch) (lang : Nat) : Option Highlight :=
  if lang ≥ langCount then none else disp lang

/-- The checks at the start of `ulight_source_to_tokens` (ulight.cpp:397-418). -/
def checkTokensState (st : State) : Option (Status × Bytes) :=
  if st.source = none ∧ st.sourceLen ≠ 0 then
    some (.badState, b!"source is null, but source_length is nonzero.")
  else if st.tokenBuf = false then
    some (.badBuffer, b!"token_buffer must not be null.")
  else if st.tokenBufLen = 0 then
    some (.badBuffer, b!"token_buffer_length must be nonzero.")
  else if st.flushTokens = .null then
    some (.badBuffer, b!"flush_tokens must not be null.")
  else if st.lang = Lang.none ∨ st.lang > langCount then
    some (.badLang, b!"The given language (numeric value) is invalid.")
  else none

/-- `ulight_source_to_tokens` (ulight.cpp:397-455): status, arguments of the `flush_tokens` calls,
new state. -/
def tokensCore (disp : Dispatch) (debug : Bool) (st : State) :
    Except Fault (Status × List (List Token) × State) :=
  match checkTokensState st with
  | some (status, msg) => .ok (status, [], st.setError msg)
  | none =>
    match readMem st.source st.sourceLen with
    | .error f => .error f
    | .ok src =>
      match highlighterOf disp st.lang with
      -- `ULIGHT_ASSERT(result != ulight::Status::bad_lang)` (ulight.cpp:438)
      | none => .error .assert
      | some h =>
        match h debug (toOptions st.flags) src with
        | .error f => .error f
        | .ok (good, es) =>
          match deliver (toOptions st.flags).coalescing st.tokenBufLen es with
          | .error f => .error f
          | .ok batches => .ok (if good then .ok else .badCode, batches, st)

/-- `ulight_source_to_tokens` when called by the user.  Calling through `flush_tokens` after
`ulight_source_to_html` has left a pointer to its own local closure there is undefined behaviour. -/
def sourceToTokens (disp : Dispatch) (debug : Bool) (st : State) :
    Except Fault (Status × List (List Token) × State) :=
  match tokensCore disp debug st with
  | .error f => .error f
  | .ok (status, batches, st') =>
    if st.flushTokens = .ended ∧ batches ≠ [] then .error .dangling else .ok (status, batches, st')

/-! ## HTML -/

/-- `html_entity_of` (ulight.cpp:29-40). -/
def htmlEntityOf (c : UInt8) : Except Fault Bytes :=
  if c = c!"&" then .ok b!"&amp;"
  else if c = c!"<" then .ok b!"&lt;"
  else if c = c!">" then .ok b!"&gt;"
  else if c = c!"'" then .ok b!"&apos;"
  else if c = c!"\"" then .ok b!"&quot;"
  else .error .unreachable

/-- `text.find_first_of("<>&")`; `none` is `npos`. -/
def findBracket : Bytes → Option Nat
  | [] => none
  | c :: cs =>
    if c = c!"<" ∨ c = c!">" ∨ c = c!"&" then some 0 else (findBracket cs).map (· + 1)

/-- `append_html_escaped` (ulight.cpp:42-55).  Each iteration that goes on removes at least one
byte. -/
def appendHtmlEscaped : Nat → Buf UInt8 → Bytes → Except Fault (Buf UInt8)
  | 0, out, text => if text = [] then .ok out else .error .outOfFuel
  | fuel + 1, out, text =>
    if text = [] then .ok out
    else
      match findBracket text with
      | none => out.append text
      | some pos =>
        match out.append (text.take pos) with
        | .error f => .error f
        | .ok out =>
          match text[pos]? with
          | none => .error .outOfBounds
          | some c =>
            match htmlEntityOf c with
            | .error f => .error f
            | .ok ent =>
              match out.append ent with
              | .error f => .error f
              | .ok out => appendHtmlEscaped fuel out (text.drop (pos + 1))

/-- `append_html_escaped(out, text)`. -/
def htmlEscaped (out : Buf UInt8) (text : Bytes) : Except Fault (Buf UInt8) :=
  appendHtmlEscaped text.length out text

/-- `check_flush_validity` (ulight.cpp:377-391), active in debug builds only. -/
def checkFlushValidity (n : Nat) : List Token → Bool
  | [] => true
  | [t] => t.beg < n && t.beg + t.len ≤ n
  | t :: t' :: ts => t.beg < n && t.beg + t.len ≤ n && t.beg < t'.beg && t.beg + t.len ≤ t'.beg &&
      checkFlushValidity n (t' :: ts)

/-- A run-time check: `assertThat c f` faults with `f` unless `c` holds. -/
def assertThat (c : Bool) (f : Fault) : Except Fault Unit := if c then .ok () else .error f

/-- The first part of the loop body (ulight.cpp:505-508): the text between the previous token and
this one.  The view is built from the raw pointer `state->source + previous_end`. -/
def htmlGap (src : Bytes) (prevEnd beg : Nat) (out : Buf UInt8) : Except Fault (Buf UInt8) :=
  if beg > prevEnd then
    if beg ≤ src.length then htmlEscaped out ((src.drop prevEnd).take (beg - prevEnd))
    else .error .outOfBounds
  else .ok out

/-- The loop body of the local closure of `ulight_source_to_html` (ulight.cpp:503-528): one token.
The state is `previous_end` and the text buffer. -/
def htmlToken (st : State) (src : Bytes) (acc : Nat × Buf UInt8) (t : Token) :
    Except Fault (Nat × Buf UInt8) := do
  let (prevEnd, out) := acc
  let out ← htmlGap src prevEnd t.beg out
  -- `source_string.substr(t.begin, t.length)` throws if `t.begin` is too large
  assertThat (t.beg ≤ src.length) .outOfBounds
  let part := (src.drop t.beg).take t.len
  let tag ← readMem st.htmlTag st.htmlTagLen
  let attr ← readMem st.htmlAttr st.htmlAttrLen
  let out ← out.push c!"<"
  let out ← out.append tag
  let out ← out.push c!" "
  let out ← out.append attr
  let out ← out.push c!"="
  let out ← out.append (shortString t.ty.val)
  let out ← out.push c!">"
  let out ← htmlEscaped out part
  let out ← out.append b!"</"
  let out ← out.append tag
  let out ← out.push c!">"
  return (t.beg + t.len, out)

/-- The local closure of `ulight_source_to_html` (ulight.cpp:497-529): one batch of tokens. -/
def htmlBatch (debug : Bool) (st : State) (src : Bytes) (acc : Nat × Buf UInt8)
    (ts : List Token) : Except Fault (Nat × Buf UInt8) :=
  if debug && !checkFlushValidity src.length ts then .error .assert
  else ts.foldlM (htmlToken st src) acc

/-- The checks at the start of `ulight_source_to_html` (ulight.cpp:464-489). -/
def checkHtmlState (st : State) : Option (Status × Bytes) :=
  if st.tokenBuf = false ∧ st.tokenBufLen ≠ 0 then
    some (.badBuffer, b!"token_buffer is null, but token_buffer_length is nonzero.")
  else if st.textBuf = false then
    some (.badBuffer, b!"text_buffer must not be null.")
  else if st.textBufLen = 0 then
    some (.badBuffer, b!"text_buffer_length must be nonzero.")
  else if st.flushText = false then
    some (.badBuffer, b!"flush_text must not be null.")
  else if st.htmlTag = none then
    some (.badState, b!"html_tag_name must not be null.")
  else if st.htmlTagLen = 0 then
    some (.badState, b!"html_tag_name_length must be nonzero.")
  else if st.htmlAttr = none then
    some (.badState, b!"html_attr_name must not be null.")
  else if st.htmlAttrLen = 0 then
    some (.badState, b!"html_attr_name_length must be nonzero.")
  else none

/-- All calls of the closure.  The source is read only if there is one. -/
def htmlBatches (debug : Bool) (st : State) (batches : List (List Token)) (out : Buf UInt8) :
    Except Fault (Nat × Buf UInt8) :=
  if batches = [] then .ok (0, out)
  else
    match readMem st.source st.sourceLen with
    | .error f => .error f
    | .ok src => batches.foldlM (htmlBatch debug st src) (0, out)

/-- The text after the last token (ulight.cpp:545-548). -/
def htmlTail (st : State) (prevEnd : Nat) (out : Buf UInt8) : Except Fault (Buf UInt8) :=
  if prevEnd ≠ st.sourceLen then
    match readMem st.source st.sourceLen with
    | .error f => .error f
    | .ok src => htmlEscaped out (src.drop prevEnd)
  else .ok out

/-- `ulight_source_to_html` (ulight.cpp:460-558): status, arguments of the `flush_text` calls,
new state.  `flush_tokens` is left pointing to the closure. -/
def sourceToHtml (disp : Dispatch) (debug : Bool) (st : State) :
    Except Fault (Status × List Bytes × State) :=
  match checkHtmlState st with
  | some (status, msg) => .ok (status, [], st.setError msg)
  | none => do
    let out ← Buf.new st.textBufLen
    let (status, batches, st') ← tokensCore disp debug { st with flushTokens := .ended }
    -- the callback runs during `ulight_source_to_tokens`
    let (prevEnd, out) ← htmlBatches debug st batches out
    if status ≠ .ok then
      return (status, out.flushed, st')
    else
      assertThat (prevEnd ≤ st.sourceLen) .assert
      let out ← htmlTail st prevEnd out
      return (.ok, out.flush.flushed, st')

/-! ## `ulight::State` (include/ulight/ulight.hpp:393-562)

A `std::string_view` or `std::span` argument is its content; setters of buffers take the length of
a non-null buffer. -/

namespace State

/-- `get_source` / `get_u8source` (ulight.hpp:404-414). -/
def getSource (st : State) : Except Fault Bytes := readMem st.source st.sourceLen

/-- `set_source` (ulight.hpp:416-426). -/
def setSource (st : State) (s : Bytes) : State :=
  { st with source := some s, sourceLen := s.length }

/-- `get_lang` (ulight.hpp:428-432). -/
def getLang (st : State) : Nat := st.lang

/-- `set_lang` (ulight.hpp:434-442). -/
def setLang (st : State) (l : Nat) : State := { st with lang := l }

/-- `get_flags` (ulight.hpp:444-448). -/
def getFlags (st : State) : Nat := st.flags

/-- `set_flags` (ulight.hpp:450-458). -/
def setFlags (st : State) (f : Nat) : State := { st with flags := f }

/-- `set_token_buffer` (ulight.hpp:466-470). -/
def setTokenBuffer (st : State) (len : Nat) : State :=
  { st with tokenBuf := true, tokenBufLen := len }

/-- `on_flush_tokens` (ulight.hpp:472-476). -/
def onFlushTokens (st : State) (data : Nat) : State :=
  { st with flushTokens := .user, flushTokensData := data }

/-- `set_html_tag_name` (ulight.hpp:478-482). -/
def setHtmlTagName (st : State) (s : Bytes) : State :=
  { st with htmlTag := some s, htmlTagLen := s.length }

/-- `set_html_attr_name` (ulight.hpp:484-488).  It really assigns `html_tag_name_length`. -/
def setHtmlAttrName (st : State) (s : Bytes) : State :=
  { st with htmlAttr := some s, htmlTagLen := s.length }

/-- `set_text_buffer` (ulight.hpp:490-494). -/
def setTextBuffer (st : State) (len : Nat) : State :=
  { st with textBuf := true, textBufLen := len }

/-- `on_flush_text` (ulight.hpp:496-505). -/
def onFlushText (st : State) (data : Nat) : State :=
  { st with flushText := true, flushTextData := data }

/-- `get_error_string` (ulight.hpp:551-561). -/
def getError (st : State) : Except Fault Bytes := readMem st.error st.errorLen

end State
end Ulight
