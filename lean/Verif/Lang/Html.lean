import Verif.Hl.Base

/-!
# HTML (src/main/cpp/lang/html.cpp)

The highlighters of CSS and JavaScript, which are used for `<style>` and `<script>` elements, are
parameters of the model.
-/

namespace Ulight.Html

/-- `is_html_tag_name_character` (html.hpp:41-73). -/
def isTagNameChar (c : Nat) : Bool :=
  (c < 0x80 && isAlnum (UInt8.ofNat c)) || c = 0x2D || c = 0x2E || c = 0x5F || c = 0xB7 ||
  (0xC0 ≤ c && c ≤ 0xD6) || (0xD8 ≤ c && c ≤ 0xF6) || (0xF8 ≤ c && c ≤ 0x37D) ||
  (0x37F ≤ c && c ≤ 0x1FFF) || (0x200C ≤ c && c ≤ 0x200D) || (0x203F ≤ c && c ≤ 0x2040) ||
  (0x2070 ≤ c && c ≤ 0x218F) || (0x2C00 ≤ c && c ≤ 0x2FEF) || (0x3001 ≤ c && c ≤ 0xD7FF) ||
  (0xF900 ≤ c && c ≤ 0xFDCF) || (0xFDF0 ≤ c && c ≤ 0xFFFD) || (0x10000 ≤ c && c ≤ 0xEFFFF)

/-- `is_noncharacter` (unicode_chars.hpp:72-88). -/
def isNoncharacter (c : Nat) : Bool :=
  (0xFDD0 ≤ c && c ≤ 0xFDEF) || (0xFFFE ≤ c && c ≤ 0xFFFF) || 0xFFFE ≤ c % 0x10000

/-- `is_html_ascii_attribute_name_character` and `is_html_attribute_name_character`
(html.hpp:84-96). -/
def isAttrNameChar (c : Nat) : Bool :=
  if c < 0x80 then !(c ≤ 0x1F || c = 0x7F) && !(b!" \"'>/=").contains (UInt8.ofNat c)
  else !isNoncharacter c

/-- `is_html_unquoted_attribute_value_terminator` (html.hpp:102-103). -/
def isUnquotedEnd (c : UInt8) : Bool := isHtmlWhitespace c || (b!"\"'=<>`").contains c

/-- `Match_Result` (html.hpp:141-155). -/
structure Match where
  length : Nat := 0
  terminated : Bool := false
  deriving DecidableEq, Repr

/-- `is_character_reference_content` (html.cpp:32-41). -/
def isReferenceContent (s : Bytes) : Bool :=
  if startsWith s b!"#x" then s.length > 2 && (s.drop 2).all isHexDigit
  else if startsWith s b!"#" then s.length > 1 && (s.drop 1).all isDigit
  else !s.isEmpty && s.all isAlnum

/-- `match_whitespace` (html.cpp:45-48). -/
def matchWhitespace (s : Bytes) : Nat := Ascii.length_if s isHtmlWhitespace

/-- `match_character_reference` (html.cpp:50-59). -/
def matchReference (s : Bytes) : Nat :=
  if !startsWith s b!"&" then 0
  else
    match findSub b!";" (s.drop 1) with
    | some k => if isReferenceContent ((s.drop 1).take k) then k + 2 else 0
    | none => 0

/-- `match_tag_name` (html.cpp:61-65). -/
def matchTagName (s : Bytes) : Except Fault Nat :=
  (Utf8.find_if_not s isTagNameChar).map fun r => r.getD s.length

/-- `match_attribute_name` (html.cpp:67-71). -/
def matchAttrName (s : Bytes) : Except Fault Nat :=
  (Utf8.find_if_not s isAttrNameChar).map fun r => r.getD s.length

/-- The characters after the name that end raw text (html.cpp:104, 153). -/
def isRawEnd (c : UInt8) : Bool := isHtmlWhitespace c || c = c!">" || c = c!"/"

/-- The loop of `match_raw_text` (html.cpp:78-110).  Every iteration removes at least one byte, so
the fuel suffices. -/
def rawTextLoop (name : Bytes) : Nat → Nat → Bytes → Except Fault Nat
  | 0, _, _ => .error .outOfFuel
  | fuel + 1, length, s =>
    if s.isEmpty then .ok length
    else
      match findSub b!"</" s with
      | none => .ok (length + s.length)
      | some safe =>
        let length := length + safe
        let s := s.drop (safe + 2)
        if !Ascii.startsWithIgnoreCase s name then rawTextLoop name fuel (length + 2) s
        else
          match s.drop name.length with
          | [] => .ok (length + 2 + name.length)
          | [c] => if isRawEnd c then .ok length else .error .outOfBounds
          | c :: _ :: t => if isRawEnd c then .ok length else rawTextLoop name fuel (length + 2) t

/-- `match_raw_text` (html.cpp:73-111). -/
def matchRawText (s name : Bytes) : Except Fault Nat := rawTextLoop name (s.length + 1) 0 s

/-- The loop of `match_escapable_raw_text_piece` (html.cpp:119-157): the lengths of the text and of
the character reference after it.  `find_first_of(u8"<&")` and `remove_prefix` are modelled by going
through the text one byte at a time. -/
def escapableLoop (name : Bytes) : Nat → Nat → Bytes → Nat × Nat
  | 0, length, _ => (length, 0)
  | _ + 1, length, [] => (length, 0)
  | fuel + 1, length, c :: t =>
    if c ≠ c!"<" ∧ c ≠ c!"&" then escapableLoop name fuel (length + 1) t
    else
      let ref := matchReference (c :: t)
      if ref ≠ 0 then (length, ref)
      else if !startsWith (c :: t) b!"</" then escapableLoop name fuel (length + 1) t
      else
        let s := t.drop 1
        if !Ascii.startsWithIgnoreCase s name then escapableLoop name fuel (length + 2) s
        else
          match s.drop name.length with
          | [] => (length + 2 + name.length, 0)
          | c :: u => if isRawEnd c then (length, 0) else escapableLoop name fuel length (c :: u)

/-- `match_escapable_raw_text_piece` (html.cpp:113-158). -/
def matchEscapable (s name : Bytes) : Nat × Nat := escapableLoop name s.length 0 s

/-- The loop of `match_comment` (html.cpp:174-199).  `find_first_of(u8"<-")` and `remove_prefix` are
modelled by going through the text one byte at a time. -/
def commentLoop : Nat → Bytes → Match
  | length, [] => ⟨length, false⟩
  | length, c :: t =>
    if c ≠ c!"<" ∧ c ≠ c!"-" then commentLoop (length + 1) t
    else if startsWith (c :: t) b!"-->" then ⟨length + 3, true⟩
    else if startsWith (c :: t) b!"<!--" then
      if startsWith (c :: t) b!"<!-->" then ⟨length + 5, true⟩ else {}
    else if startsWith (c :: t) b!"--!>" then {}
    else commentLoop (length + 1) t

/-- `match_comment` (html.cpp:160-200). -/
def matchComment (s : Bytes) : Match :=
  if !startsWith s b!"<!--" then {}
  else if startsWith (s.drop 4) b!">" || startsWith (s.drop 4) b!"->" then {}
  else commentLoop 4 (s.drop 4)

/-- `match_doctype_permissive` (html.cpp:202-213). -/
def matchDoctype (s : Bytes) : Match :=
  if !Ascii.startsWithIgnoreCase s b!"<!DOCTYPE" then {}
  else
    match findSub b!">" (s.drop 9) with
    | none => ⟨s.length, false⟩
    | some k => ⟨9 + k + 1, true⟩

/-- `match_cdata` (html.cpp:215-226). -/
def matchCData (s : Bytes) : Match :=
  if !startsWith s b!"<![CDATA[" then {}
  else
    match findSub b!"]]>" (s.drop 9) with
    | none => ⟨s.length, false⟩
    | some k => ⟨9 + k + 3, true⟩

/-- `match_end_tag_permissive` (html.cpp:228-256): the length of the tag and of its name. -/
def matchEndTag (s : Bytes) : Nat × Nat :=
  if !startsWith s b!"</" then (0, 0)
  else
    match Ascii.find_if s (fun c => isHtmlWhitespace c || c = c!">") 2 with
    | none => (0, 0)
    | some e =>
      if e - 2 = 0 then (0, 0)
      else if s[e]? = some c!">" then (e + 1, e - 2)
      else
        match findSub b!">" (s.drop e) with
        | none => (0, 0)
        | some k => (e + k, e - 2)

/-- `expect_bom` (html.cpp:290-297). -/
def expectBom : HM Unit Bool := do
  let r ← HM.rem
  if startsWith r [0xEF, 0xBB, 0xBF] then do
    HM.advance 3
    pure true
  else pure false

/-- `expect_doctype` (html.cpp:299-306). -/
def expectDoctype : HM Unit Bool := do
  let r ← HM.rem
  let d := matchDoctype r
  if d.length ≠ 0 then do
    HM.emitAdv d.length .name_macro
    pure true
  else pure false

/-- `expect_cdata` (html.cpp:308-322). -/
def expectCData : HM Unit Bool := do
  let r ← HM.rem
  let d := matchCData r
  if d.length ≠ 0 then do
    let i ← HM.index
    HM.emit i 9 .name_macro
    if d.terminated then do
      HM.emit (i + d.length - 3) 3 .name_macro
      HM.advance d.length
      pure true
    else do
      HM.advance d.length
      pure true
  else pure false

/-- `expect_whitespace` (html.cpp:324-331). -/
def expectWhitespace : HM Unit Bool := do
  let r ← HM.rem
  let n := matchWhitespace r
  if n ≠ 0 then do
    HM.advance n
    pure true
  else pure false

/-- `expect_comment` (html.cpp:333-352). -/
def expectComment : HM Unit Bool := do
  let r ← HM.rem
  let c := matchComment r
  if c.length = 0 then pure false
  else do
    HM.emitAdv 4 .comment_delim
    let length := c.length - 4
    if c.terminated then do
      HM.emitAdvIf (length - 3) .comment
      HM.emitAdv 3 .comment_delim
      pure true
    else do
      HM.emitAdvIf length .comment
      pure true

/-- The loop of `expect_unquoted_attribute_value` (html.cpp:457-470). -/
def unquotedStep (n : Nat) : HM Unit (Nat ⊕ Bool) := do
  let r ← HM.rem
  match r[n]? with
  | none => do
    HM.emitAdvIf n .string
    pure (.inr true)
  | some c =>
    if isUnquotedEnd c then do
      HM.emitAdvIf n .string
      pure (.inr true)
    else
      let ref := matchReference (r.drop n)
      if ref ≠ 0 then do
        HM.emitAdvIf n .string
        HM.emitAdv ref .string_escape
        pure (.inl 1)
      else pure (.inl (n + 1))

/-- `expect_unquoted_attribute_value` (html.cpp:447-471).  The length of a piece never gets to twice
the length of the text. -/
def expectUnquoted : HM Unit Bool := do
  let r ← HM.rem
  HM.loop (2 * r.length + 2) unquotedStep 0

/-- The loop of `expect_quoted_attribute_value` (html.cpp:486-500). -/
def quotedStep (quote : UInt8) (n : Nat) : HM Unit (Nat ⊕ Bool) := do
  let r ← HM.rem
  match r[n]? with
  | none => do
    HM.emitAdvIf n .string
    pure (.inr true)
  | some c =>
    if c = quote then do
      HM.emitAdvIf (n + 1) .string
      pure (.inr true)
    else
      let ref := matchReference (r.drop n)
      if ref ≠ 0 then do
        HM.emitAdvIf n .string
        HM.emitAdv ref .string_escape
        pure (.inl 1)
      else pure (.inl (n + 1))

/-- `expect_quoted_attribute_value` (html.cpp:473-501). -/
def expectQuoted (quote : UInt8) : HM Unit Bool := do
  let r ← HM.rem
  if startsWith r [quote] then HM.loop (2 * r.length + 2) (quotedStep quote) 1
  else pure false

/-- `expect_attribute` (html.cpp:424-445). -/
def expectAttribute : HM Unit Bool := do
  let r ← HM.rem
  let n ← HM.lift (matchAttrName r)
  if n = 0 then pure false
  else do
    HM.emitAdv n .markup_attr
    let _ ← expectWhitespace
    let r ← HM.rem
    if startsWith r b!"=" then do
      HM.emitAdv 1 .symbol_punc
      let _ ← expectWhitespace
      HM.or (HM.or (expectQuoted c!"\"") (expectQuoted c!"'")) expectUnquoted
    else pure true

/-- One iteration of the loop over the attributes (html.cpp:368-382): whether the tag is complete. -/
def attributesStep : HM Unit (Unit ⊕ Bool) := do
  let r ← HM.rem
  if r.isEmpty then pure (.inr true)
  else do
    let _ ← expectWhitespace
    let r ← HM.rem
    if startsWith r b!"/>" then do
      HM.emitAdv 2 .symbol_punc
      pure (.inr true)
    else if startsWith r b!">" then do
      HM.emitAdv 1 .symbol_punc
      pure (.inr true)
    else if ← expectAttribute then pure (.inl ())
    else pure (.inr false)

/-- The tokens of nested code, as they are appended to the buffer: `consume_nested_language`
(highlighter.hpp:128-146) with a sub-buffer for 1024 tokens, and `consume_nested_css_or_js`
(html.cpp:413-422), which asserts that the nested highlighter succeeds. -/
def consumeNested (h : Highlight) (length : Nat) : HM Unit Unit := fun env s =>
  if length = 0 then .ok ((), s)
  else
    match h env.debug env.opts (s.rem.take length) with
    | .error f => .error f
    | .ok (false, _) => .error .assert
    | .ok (true, es) =>
      match deliver env.opts.coalescing 1024 es with
      | .error f => .error f
      | .ok batches =>
        HM.advance length env
          { s with out := s.out ++ batches.flatten.map fun t => ⟨s.idx + t.beg, t.len, t.ty, .raw⟩ }

/-- The loop for `<textarea>` and `<title>` (html.cpp:391-396). -/
def escapableStep (name : Bytes) (_ : Unit) : HM Unit (Unit ⊕ Bool) := do
  let r ← HM.rem
  let p := matchEscapable r name
  if p.1 ≠ 0 ∨ p.2 ≠ 0 then do
    HM.advance p.1
    HM.emitAdvIf p.2 .string_escape
    pure (.inl ())
  else pure (.inr true)

/-- The content of elements with special rules (html.cpp:384-410). -/
def elementContent (css js : Highlight) (name : Bytes) : HM Unit Bool := do
  let r ← HM.rem
  if Ascii.equalsIgnoreCase name b!"textarea" || Ascii.equalsIgnoreCase name b!"title" then
    HM.loop (r.length + 1) (escapableStep name) ()
  else if Ascii.equalsIgnoreCase name b!"script" then do
    let n ← HM.lift (matchRawText r b!"script")
    consumeNested js n
    pure true
  else if Ascii.equalsIgnoreCase name b!"style" then do
    let n ← HM.lift (matchRawText r b!"style")
    consumeNested css n
    pure true
  else pure true

/-- `expect_start_tag_permissive` (html.cpp:354-411). -/
def expectStartTag (css js : Highlight) : HM Unit Bool := do
  let r ← HM.rem
  if !startsWith r b!"<" then pure false
  else do
    HM.emitAdv 1 .symbol_punc
    let r ← HM.rem
    let n ← HM.lift (matchTagName r)
    if n = 0 then pure true
    else do
      HM.emitAdv n .markup_tag
      let complete ← HM.loop (r.length + 1) (fun _ => attributesStep) ()
      if complete then elementContent css js (r.take n)
      else pure true

/-- `expect_end_tag` (html.cpp:503-515). -/
def expectEndTag : HM Unit Bool := do
  let r ← HM.rem
  let e := matchEndTag r
  if e.1 = 0 then pure false
  else do
    HM.dassert (e.2 != 0)
    let i ← HM.index
    HM.emit i 2 .symbol_punc
    HM.emit (i + 2) e.2 .markup_tag
    HM.emit (i + e.1 - 1) 1 .symbol_punc
    HM.advance e.1
    pure true

/-- `expect_character_reference` (html.cpp:536-544). -/
def expectReference : HM Unit Bool := do
  let r ← HM.rem
  let n := matchReference r
  if n ≠ 0 then do
    HM.emitAdv n .string_escape
    pure true
  else pure false

/-- One iteration of `expect_normal_text` (html.cpp:519-532). -/
def textStep (_ : Unit) : HM Unit (Unit ⊕ Bool) := do
  let r ← HM.rem
  if r.isEmpty then pure (.inr true)
  else
    match Ascii.find_if r (fun c => c = c!"<" || c = c!"&") with
    | none => do
      HM.advance r.length
      pure (.inr true)
    | some k =>
      if r[k]? = some c!"<" then do
        HM.advance k
        pure (.inr true)
      else if ← expectReference then pure (.inl ())
      else do
        HM.advance 1
        pure (.inl ())

/-- `expect_normal_text` (html.cpp:517-534). -/
def expectText : HM Unit Bool := do
  let r ← HM.rem
  HM.loop (r.length + 1) textStep ()

/-- The body of the main loop (html.cpp:276-284). -/
def step (css js : Highlight) : HM Unit Unit := do
  if ← HM.or expectComment (HM.or expectDoctype (HM.or expectCData (HM.or expectEndTag
      (HM.or (expectStartTag css js) expectText)))) then pure ()
  else HM.fault .unreachable

/-- `operator()` (html.cpp:272-287). -/
def run (css js : Highlight) : HM Unit Bool := do
  let _ ← expectBom
  let r ← HM.rem
  HM.whileNotEof (r.length + 1) (step css js)
  pure true

/-- `highlight_html` (html.cpp:551-559). -/
def highlight (css js : Highlight) : Highlight := HM.runAll (run css js) ()

end Ulight.Html
