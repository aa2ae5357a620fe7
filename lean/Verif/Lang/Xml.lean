import Verif.Lang.Html
import Verif.Parse.Numbers

/-!
# XML (src/main/cpp/lang/xml.cpp)
-/

namespace Ulight.Xml

/-- `is_xml_whitespace` (xml.hpp:14). -/
def isSpace (c : UInt8) : Bool := (b!" \t\n\r").contains c

/-- `is_xml_whitespace` for code points (xml.hpp:14, charset.hpp:87-91). -/
def isSpaceChar (c : Nat) : Bool := c ≤ 0xFF && isSpace (UInt8.ofNat c)

/-- `is_xml_name_start` (xml.hpp:16-41). -/
def isNameStart (c : Nat) : Bool :=
  (c < 0x80 && isAlpha (UInt8.ofNat c)) || c = 0x3A || c = 0x5F ||
  (0xC0 ≤ c && c ≤ 0xD6) || (0xD8 ≤ c && c ≤ 0xF6) || (0xF8 ≤ c && c ≤ 0x2FF) ||
  (0x370 ≤ c && c ≤ 0x37D) || (0x37F ≤ c && c ≤ 0x1FFF) || (0x200C ≤ c && c ≤ 0x200D) ||
  (0x2070 ≤ c && c ≤ 0x218F) || (0x2C00 ≤ c && c ≤ 0x2FEF) || (0x3001 ≤ c && c ≤ 0xD7FF) ||
  (0xF900 ≤ c && c ≤ 0xFDCF) || (0xFDF0 ≤ c && c ≤ 0xFFFD) || (0x10000 ≤ c && c ≤ 0xEFFEF)

/-- `is_xml_name` (xml.hpp:43-61). -/
def isName (c : Nat) : Bool :=
  (c < 0x80 && isDigit (UInt8.ofNat c)) || isNameStart c || c = 0x3A || c = 0x2E || c = 0xB7 ||
  (0x300 ≤ c && c ≤ 0x36F) || (0x203F ≤ c && c ≤ 0x2040)

/-- `match_name` (xml.cpp:47-65): moves on by one byte, whatever the length of the character. -/
def matchName : Bytes → Nat
  | [] => 0
  | c :: t => if isName (Utf8.decodeOrReplacement (c :: t)).1 then matchName t + 1 else 0

/-- `attlist_att_types` (xml.cpp:23-25). -/
def attTypes : List Bytes :=
  [b!"CDATA", b!"IDREFS", b!"IDREF", b!"ID", b!"ENTITY", b!"ENTITIES", b!"NMTOKENS", b!"NMTOKEN",
    b!"NOTATION"]

/-- `default_decl_types` (xml.cpp:26). -/
def defaultDecls : List Bytes := [b!"#REQUIRED", b!"#IMPLIED", b!"#FIXED"]

/-- `match_att_type` (xml.cpp:67-83). -/
def matchAttType (s : Bytes) : Nat :=
  let word := match Ascii.find_if s (fun c => isSpace c || c = c!">") with
    | some k => s.take k
    | none => s
  if attTypes.contains word then word.length else 0

/-- `match_default_decl_type` (xml.cpp:85-95). -/
def matchDefaultDecl (s : Bytes) : Nat :=
  match defaultDecls.find? (startsWith s ·) with
  | some w => w.length
  | none => 0

/-- `match_external_id_type` (xml.cpp:97-109). -/
def matchExternalId (s : Bytes) : Nat :=
  if startsWith s b!"PUBLIC" then 6
  else if startsWith s b!"SYSTEM" then 6
  else 0

/-- `match_content_spec_type` (xml.cpp:111-123). -/
def matchContentSpec (s : Bytes) : Nat :=
  if startsWith s b!"EMPTY" then 5
  else if startsWith s b!"ANY" then 3
  else 0

/-- `match_ndata_decl` (xml.cpp:125-129). -/
def matchNdata (s : Bytes) : Nat := if startsWith s b!"NDATA" then 5 else 0

/-- `match_pcdata_decl` (xml.cpp:131-135). -/
def matchPcdata (s : Bytes) : Nat := if startsWith s b!"#PCDATA" then 7 else 0

/-- `match_whitespace` (xml.cpp:137-141). -/
def matchWhitespace (s : Bytes) : Nat := Ascii.length_if s isSpace

/-- `match_text` (xml.cpp:143-147). -/
def matchText (s : Bytes) : Nat := Ascii.length_if_not s (fun c => c = c!"<" || c = c!"&")

/-- The loop of `match_comment` (xml.cpp:157-172). -/
def commentLoop (length : Nat) : Bytes → Html.Match
  | [] => ⟨length, false⟩
  | c :: t =>
    if startsWith (c :: t) b!"-->" then ⟨length + 3, true⟩
    else if startsWith (c :: t) b!"--" then ⟨length, false⟩
    else commentLoop (length + 1) t

/-- `match_comment` (xml.cpp:149-173). -/
def matchComment (s : Bytes) : Html.Match :=
  if !startsWith s b!"<!--" then {} else commentLoop 4 (s.drop 4)

/-- `match_entity_reference` with `%` (xml.cpp:175-186), and `match_pe_reference` with `&`
(xml.cpp:188-201). -/
def matchReferenceWith (c : UInt8) (s : Bytes) : Nat :=
  if !startsWith s [c] then 0
  else
    match findSub b!";" (s.drop 1) with
    | some k => if matchName ((s.drop 1).take k) = k then k + 2 else 0
    | none => 0

/-- `if (remainder.starts_with(w)) emit_and_advance(w.size(), ty)`, a pattern in many places. -/
def expectLit (w : Bytes) (ty : HT) : HM Unit Bool := do
  let r ← HM.rem
  if startsWith r w then do
    HM.emitAdv w.length ty
    pure true
  else pure false

/-- `expect_whitespace` (xml.cpp:769-774). -/
def expectWhitespace : HM Unit Bool := do
  let r ← HM.rem
  let n := matchWhitespace r
  HM.advance n
  pure (n != 0)

/-- One iteration of `expect_name` (xml.cpp:744-764).  The state is the total length and the length of
the current piece. -/
def nameStep (ty : HT) (stop : Bytes → Bool) (st : Nat × Nat) : HM Unit ((Nat × Nat) ⊕ Nat) := do
  let r ← HM.rem
  if st.2 < r.length && !stop (r.drop st.2) then
    let d := Utf8.decodeOrReplacement (r.drop st.2)
    if (st.1 = 0 && !isNameStart d.1) || !isName d.1 then do
      HM.emitAdvIf st.2 ty
      HM.emitAdv 1 .error
      pure (.inl (st.1 + 1, 0))
    else pure (.inl (st.1 + d.2, st.2 + d.2))
  else do
    HM.emitAdvIf st.2 ty
    pure (.inr st.1)

/-- `expect_name` (xml.cpp:736-767). -/
def expectName (ty : HT) (stop : Bytes → Bool) : HM Unit Nat := do
  let r ← HM.rem
  HM.loop (r.length + 1) (nameStep ty stop) (0, 0)

/-- `expect_reference` (xml.cpp:531-539). -/
def expectReference : HM Unit Bool := do
  let r ← HM.rem
  let n := Html.matchReference r
  if n ≠ 0 then do
    HM.emitAdv n .string_escape
    pure true
  else pure false

/-- One iteration of the loop in `expect_attribute_value` (xml.cpp:625-651). -/
def valueStep (q : UInt8) (n : Nat) : HM Unit (Nat ⊕ Unit) := do
  let r ← HM.rem
  if r[n]? = none ∨ r[n]? = some q then do
    HM.emitAdvIf n .string
    pure (.inr ())
  else if (r[n]? = some c!"&" ∧ Html.matchReference (r.drop n) = 0) ∨ r[n]? = some c!"<" then do
    HM.emitAdvIf n .string
    HM.emitAdv 1 .error
    pure (.inl 0)
  else if r[n]? = some c!"&" then do
    HM.emitAdvIf n .string
    let _ ← expectReference
    pure (.inl 0)
  else pure (.inl (n + 1))

/-- `expect_attribute_value` after the opening quotation mark (xml.cpp:621-657). -/
def valueRest (q : UInt8) : HM Unit Bool := do
  HM.emitAdv 1 .string_delim
  let r ← HM.rem
  HM.loop (r.length + 1) (valueStep q) 0
  let _ ← expectLit [q] .string_delim
  pure true

/-- `expect_attribute_value` (xml.cpp:607-658). -/
def expectValue : HM Unit Bool := do
  let r ← HM.rem
  if startsWith r b!"'" then valueRest c!"'"
  else if startsWith r b!"\"" then valueRest c!"\""
  else pure false

/-- `expect_comment` (xml.cpp:660-685). -/
def expectComment : HM Unit Bool := do
  let r ← HM.rem
  let c := matchComment r
  if c.length = 0 then pure false
  else do
    HM.emitAdv 4 .comment_delim
    if c.terminated then do
      HM.emitAdvIf (c.length - 4 - 3) .comment
      HM.emitAdv 3 .comment_delim
      pure true
    else do
      HM.emitAdvIf (c.length - 4) .comment
      pure true

/-- The ends of the name in a processing instruction (xml.cpp:478-480). -/
def piStop (s : Bytes) : Bool := matchWhitespace s != 0 || startsWith s b!"?>"

/-- The loop of `expect_processing_instruction` (xml.cpp:494-496). -/
def piStep (_ : Unit) : HM Unit (Unit ⊕ Unit) := do
  let r ← HM.rem
  if !r.isEmpty && !startsWith r b!"?>" then do
    HM.advance 1
    pure (.inl ())
  else pure (.inr ())

/-- `expect_processing_instruction` (xml.cpp:470-505).  What is compared to `xml` is not the name but
what comes after it. -/
def expectPI : HM Unit Bool := do
  if ← expectLit b!"<?" .symbol_punc then do
    let n ← expectName .name_macro piStop
    if n = 0 then pure true
    else do
      let r ← HM.rem
      if Ascii.containsIgnoreCase (r.take n) b!"xml" then pure true
      else do
        let _ ← expectWhitespace
        let r ← HM.rem
        HM.loop (r.length + 1) piStep ()
        let _ ← expectLit b!"?>" .symbol_punc
        pure true
  else pure false

/-- `expect_cdata_section` (xml.cpp:507-529). -/
def expectCData : HM Unit Bool := do
  let r ← HM.rem
  let d := Html.matchCData r
  if d.length = 0 then pure false
  else do
    HM.emitAdv 9 .name_macro
    if d.terminated then do
      HM.advance (d.length - 9 - 3)
      HM.emitAdv 3 .name_macro
      pure true
    else do
      HM.advance (d.length - 9)
      pure true

/-- The ends of the name of an attribute (xml.cpp:586-591). -/
def attrStop (s : Bytes) : Bool :=
  matchWhitespace s != 0 || startsWith s b!"/>" || startsWith s b!">" || startsWith s b!"="

/-- `expect_attribute` (xml.cpp:583-605). -/
def expectAttribute : HM Unit Bool := do
  let _ ← expectName .markup_attr attrStop
  let _ ← expectWhitespace
  if ← expectLit b!"=" .symbol_punc then do
    let _ ← expectWhitespace
    expectValue
  else pure true

/-- One iteration of the loop over the attributes (xml.cpp:560-571). -/
def attributesStep (_ : Unit) : HM Unit (Unit ⊕ Unit) := do
  let r ← HM.rem
  if r.isEmpty then pure (.inr ())
  else do
    let _ ← expectWhitespace
    let r ← HM.rem
    if startsWith r b!">" || startsWith r b!"/>" then pure (.inr ())
    else if ← expectAttribute then pure (.inl ())
    else pure (.inr ())

/-- The ends of the name of a start tag (xml.cpp:551-553). -/
def tagStop (s : Bytes) : Bool := matchWhitespace s != 0 || startsWith s b!"/>" || startsWith s b!">"

/-- `expect_start_tag` (xml.cpp:541-581). -/
def expectStartTag : HM Unit Bool := do
  if ← expectLit b!"<" .symbol_punc then do
    let n ← expectName .markup_tag tagStop
    if n = 0 then pure true
    else do
      let r ← HM.rem
      HM.loop (r.length + 1) attributesStep ()
      let _ ← HM.or (expectLit b!">" .symbol_punc) (expectLit b!"/>" .symbol_punc)
      pure true
  else pure false

/-- The ends of the name of an end tag (xml.cpp:696-698). -/
def endStop (s : Bytes) : Bool := matchWhitespace s != 0 || startsWith s b!">"

/-- `expect_end_tag` (xml.cpp:687-712). -/
def expectEndTag : HM Unit Bool := do
  if ← expectLit b!"</" .symbol_punc then do
    let n ← expectName .markup_tag endStop
    if n = 0 then pure true
    else do
      let _ ← expectWhitespace
      let _ ← expectLit b!">" .symbol_punc
      pure true
  else pure false

/-- `expect_text` (xml.cpp:714-734). -/
def expectText : HM Unit Bool := do
  let r ← HM.rem
  let n := matchText r
  if n ≠ 0 then do
    HM.advance n
    pure true
  else if startsWith r b!"&" then do
    if ← expectReference then pure true
    else do
      HM.emitAdv 1 .error
      pure true
  else if startsWith r b!"<" then do
    HM.emitAdv 1 .error
    pure true
  else pure true

/-- `expect_external_id` (xml.cpp:234-257). -/
def expectExternalId : HM Unit Bool := do
  let r ← HM.rem
  let k ← HM.lift (Utf8.find_if r isSpaceChar)
  if r.take (k.getD r.length) = b!"SYSTEM" then do
    HM.emitAdv 6 .keyword
    let _ ← expectWhitespace
    let _ ← expectValue
    pure true
  else if r.take (k.getD r.length) = b!"PUBLIC" then do
    HM.emitAdv 6 .keyword
    let _ ← expectWhitespace
    let _ ← expectValue
    let _ ← expectWhitespace
    let _ ← expectValue
    pure true
  else pure false

/-- The keywords of a declaration (xml.cpp:296-313). -/
def declKeyword (s : Bytes) : Nat :=
  if matchAttType s ≠ 0 then matchAttType s
  else if matchDefaultDecl s ≠ 0 then matchDefaultDecl s
  else if matchExternalId s ≠ 0 then matchExternalId s
  else if matchContentSpec s ≠ 0 then matchContentSpec s
  else if matchNdata s ≠ 0 then matchNdata s
  else matchPcdata s

/-- A part of a declaration (xml.cpp:289-328). -/
def declPart : HM Unit Unit := do
  let r ← HM.rem
  if r.head?.any (b!")(|*,").contains then HM.emitAdv 1 .symbol_punc
  else if declKeyword r ≠ 0 then HM.emitAdv (declKeyword r) .keyword
  else if matchReferenceWith c!"&" r ≠ 0 then HM.emitAdv (matchReferenceWith c!"&" r) .string_escape
  else if matchName r ≠ 0 then HM.emitAdv (matchName r) .name
  else if startsWith r b!"'" || startsWith r b!"\"" then do
    let _ ← expectValue
    pure ()
  else HM.advance (Ascii.length_if_not r (fun c => isSpace c || c = c!">"))

/-- One iteration of the loop in `expect_markup_decl` (xml.cpp:287-330). -/
def declStep (_ : Unit) : HM Unit (Unit ⊕ Unit) := do
  let r ← HM.rem
  if !startsWith r b!">" && !r.isEmpty then do
    declPart
    let _ ← expectWhitespace
    pure (.inl ())
  else pure (.inr ())

/-- `after_markup_decl_name` (xml.cpp:272-273). -/
def declStop (s : Bytes) : Bool := matchWhitespace s != 0

/-- The optional `%` (xml.cpp:278-282). -/
def declPercent : HM Unit Unit := do
  if ← expectLit b!"%" .symbol_punc then do
    let _ ← expectWhitespace
    pure ()
  else pure ()

/-- `expect_markup_decl` (xml.cpp:259-333). -/
def expectMarkupDecl : HM Unit Bool := do
  if ← HM.or expectComment expectPI then pure true
  else if ← expectLit b!"<!" .name_macro then do
    let _ ← expectName .name_macro declStop
    let _ ← expectWhitespace
    declPercent
    let _ ← expectName .name declStop
    let _ ← expectWhitespace
    let r ← HM.rem
    HM.loop (r.length + 1) declStep ()
    pure true
  else pure false

/-- The ends of names in a document type declaration (xml.cpp:343-345). -/
def doctypeStop (s : Bytes) : Bool :=
  startsWith s b!"[" || startsWith s b!">" || matchWhitespace s != 0

/-- A quoted value, if there is one (xml.cpp:360-362, 365-367). -/
def optValue : HM Unit Unit := do
  let r ← HM.rem
  if startsWith r b!"'" || startsWith r b!"\"" then do
    let _ ← expectValue
    pure ()
  else pure ()

/-- What comes after the name in a document type declaration (xml.cpp:352-368). -/
def doctypeExternal : HM Unit Unit := do
  let r ← HM.rem
  if matchExternalId r ≠ 0 then do
    let _ ← expectExternalId
    pure ()
  else if startsWith r b!"[" then pure ()
  else do
    HM.advance (Ascii.length_if_not r isSpace)
    let _ ← expectWhitespace
    optValue
    let _ ← expectWhitespace
    optValue

/-- One iteration of the loop over the declarations (xml.cpp:377-383). -/
def markupStep (_ : Unit) : HM Unit (Unit ⊕ Unit) := do
  if ← expectMarkupDecl then do
    let _ ← expectWhitespace
    let _ ← expectLit b!">" .name_macro
    let _ ← expectWhitespace
    pure (.inl ())
  else pure (.inr ())

/-- The declarations in square brackets (xml.cpp:370-396). -/
def doctypeSubset : HM Unit Unit := do
  if ← expectLit b!"[" .symbol_punc then do
    let _ ← expectWhitespace
    let r ← HM.rem
    HM.loop (r.length + 1) markupStep ()
    if ← expectLit b!"]" .symbol_punc then do
      let _ ← expectWhitespace
      let _ ← expectLit b!">" .name_macro
      pure ()
    else pure ()
  else pure ()

/-- `expect_doctype_decl` (xml.cpp:335-397). -/
def expectDoctype : HM Unit Bool := do
  if ← expectLit b!"<!" .name_macro then do
    let _ ← expectName .name_macro doctypeStop
    let _ ← expectWhitespace
    let _ ← expectName .name doctypeStop
    let _ ← expectWhitespace
    doctypeExternal
    let _ ← expectWhitespace
    doctypeSubset
    pure true
  else pure false

/-- `highlight_number` (xml.cpp:408-422). -/
def highlightNumber : HM Unit Unit := do
  let r ← HM.rem
  let n := matchCommonNumber r {}
  HM.emitAdvIf n.integer .number
  HM.emitAdvIf n.radixPoint .symbol_punc
  HM.emitAdvIf n.fractional .number

/-- `expect_string` (xml.cpp:424). -/
def expectString : HM Unit Unit := do
  let _ ← expectValue
  pure ()

/-- `highlight_decl_attr` (xml.cpp:426-440). -/
def declAttr (name : Bytes) (value : HM Unit Unit) : HM Unit Unit := do
  if ← expectLit name .markup_attr then do
    if ← expectLit b!"=" .symbol_punc then do
      let r ← HM.rem
      if r.isEmpty then pure () else value
    else pure ()
  else pure ()

/-- `expect_xml_decl` (xml.cpp:399-457). -/
def expectXmlDecl : HM Unit Bool := do
  if ← expectLit b!"<?xml" .name_macro then do
    let _ ← expectWhitespace
    declAttr b!"version" highlightNumber
    let _ ← expectWhitespace
    declAttr b!"encoding" expectString
    let _ ← expectWhitespace
    declAttr b!"standalone" expectString
    let _ ← expectWhitespace
    let _ ← expectLit b!"?>" .name_macro
    pure true
  else pure false

/-- The loop of `expect_prolog` (xml.cpp:464). -/
def prologStep (_ : Unit) : HM Unit (Unit ⊕ Unit) := do
  if ← HM.or (HM.or expectPI expectComment) expectWhitespace then pure (.inl ())
  else pure (.inr ())

/-- `expect_prolog` (xml.cpp:459-468). -/
def expectProlog : HM Unit Unit := do
  let _ ← expectXmlDecl
  let r ← HM.rem
  HM.loop (r.length + 1) prologStep ()
  let _ ← expectDoctype
  pure ()

/-- The body of the main loop (xml.cpp:219-228). -/
def step : HM Unit Unit := do
  if ← HM.or expectComment (HM.or expectCData (HM.or expectPI (HM.or expectEndTag
      (HM.or expectStartTag expectText)))) then pure ()
  else HM.fault .unreachable

/-- `operator()` (xml.cpp:215-231). -/
def run : HM Unit Bool := do
  expectProlog
  let r ← HM.rem
  HM.whileNotEof (r.length + 1) step
  pure true

/-- `highlight_xml` (xml.cpp:779-787). -/
def highlight : Highlight := HM.run run ()

end Ulight.Xml
