import Verif.Hl.Base
import Verif.Lang.Html

/-!
# Markdown highlighting (src/main/cpp/lang/markdown.cpp)

Positions in a line are relative to `remainder`, as in the code.  Functions that go through the
first `avail` code units of `remainder` by index are modelled as functions of these code units
(`remainder.take avail`); that there are as many is checked once, in `inlineStep`.
-/

namespace Ulight.Markdown

/-- `is_md_whitespace` (markdown.hpp:10) -/
def isWhitespace (c : UInt8) : Bool := b!" \t\r\n".elem c

/-- `is_md_ascii_punctuation` (markdown.hpp:18) -/
def isPunctuation (c : UInt8) : Bool := b!"!\"#$%&'()*+,-./:;<=>?@[\\]^_`{|}~".elem c

/-- Number of code units at the beginning that are equal to `c`: the loops that count runs. -/
def runOf (c : UInt8) (s : Bytes) : Nat := Ascii.length_if s (· == c)

/-- `s` without the trailing code units that are equal to `c`: the loops of `strip_atx_trailing`. -/
def dropTrailing (c : UInt8) (s : Bytes) : Bytes := (s.reverse.dropWhile (· == c)).reverse

/-- `strip_atx_trailing` (markdown.cpp:28-57) -/
def stripAtxTrailing (s : Bytes) : Nat :=
  let a := dropTrailing c!" " s
  if a = [] then 0
  else if a.getLast? ≠ some c!"#" then a.length
  else
    let b := dropTrailing c!"#" a
    if b = [] ∨ b.getLast? = some c!" " then (dropTrailing c!" " b).length else a.length

/-- `is_blank` (markdown.cpp:60-63) -/
def isBlank (s : Bytes) : Bool := s.all isWhitespace

/-- `match_lead_spaces` (markdown.cpp:68-75) -/
def matchLeadSpaces (s : Bytes) : Nat := runOf c!" " (s.take 3)

/-- The loop of `match_code_span` that searches the closing run of exactly `n` backticks
(markdown.cpp:104-119), which is also in `expect_emphasis` (markdown.cpp:1016-1029): where the run
begins, after `k` code units that have been passed. -/
def closingTicks (n : Nat) : Nat → Nat → Bytes → Option Nat
  | 0, _, _ => none
  | fuel + 1, k, s =>
    let a := Ascii.length_if s (· != c!"`")
    let t := s.drop a
    if t = [] then none
    else
      let b := runOf c!"`" t
      if b = n then some (k + a) else closingTicks n fuel (k + a + b) (t.drop b)

/-- `match_code_span` (markdown.cpp:89-121): `content_start` and `content_length`. -/
def matchCodeSpan (s : Bytes) : Option (Nat × Nat) :=
  let n := runOf c!"`" s
  if n = 0 then none
  else (closingTicks n s.length 0 (s.drop n)).map fun k => (n, k)

/-- `match_autolink` (markdown.cpp:141-174): `content_length`, or zero. -/
def matchAutolink (s : Bytes) : Nat :=
  if s.length < 3 ∨ s.head? ≠ some c!"<" then 0
  else
    let t := s.drop 1
    let n := Ascii.length_if t fun c => c != c!">" && c != c!"<" && !isWhitespace c
    if t[n]? ≠ some c!">" then 0
    else if (t.take n).any (fun c => c == c!":" || c == c!"@") then n
    else 0

/-- The second loop of `find_link_url_end` (markdown.cpp:196-201). -/
def urlLoop : Bytes → Nat
  | [] => 0
  | c :: s =>
    if c = c!")" ∨ isWhitespace c then 0
    else if c = c!"\\" then
      match s with
      | [] => 1
      | _ :: s => 2 + urlLoop s
    else 1 + urlLoop s

/-- `find_link_url_end` (markdown.cpp:181-203): the length of the URL at the beginning of `s`. -/
def linkUrl (s : Bytes) : Nat :=
  if s.head? = some c!"<" then
    let t := s.drop 1
    let n := Ascii.length_if t fun c => c != c!">" && c != c!"<" && c != c!"\n"
    if t[n]? = some c!">" then 1 + n + 1 else 1 + n
  else urlLoop s

/-- `find_link_close` (markdown.cpp:209-217): the distance to the closing parenthesis. -/
def linkClose (s : Bytes) : Nat := Ascii.length_if s (· != c!")")

/-- The name or number of a reference, followed by a semicolon (markdown.cpp:240-246, 250-256,
261-267): the number of code units, including the semicolon, or zero. -/
def referenceTail (p : UInt8 → Bool) (s : Bytes) : Nat :=
  let n := Ascii.length_if s p
  if n ≠ 0 ∧ s[n]? = some c!";" then n + 1 else 0

/-- Adds the length of what precedes, if there is a match. -/
def plus (k n : Nat) : Nat := if n = 0 then 0 else k + n

/-- `match_character_reference` (markdown.cpp:221-270) -/
def matchReference (s : Bytes) : Nat :=
  match s with
  | c :: d :: t =>
    if c ≠ c!"&" then 0
    else if d = c!"#" then
      match t with
      | x :: t' =>
        if x = c!"x" ∨ x = c!"X" then plus 3 (referenceTail isHexDigit t')
        else plus 2 (referenceTail isDigit t)
      | [] => 0
    else plus 1 (referenceTail isAlnum (d :: t))
  | _ => 0

/-- `find_bracket_close` (markdown.cpp:855-877): where the loop stops after the bracket that closes
the `depth`-th one; nothing if there is none. -/
def bracketClose : Nat → Bytes → Option Nat
  | 0, _ => some 0
  | _, [] => none
  | depth + 1, c :: s =>
    if c = c!"\\" then
      match s with
      | [] => none
      | _ :: s => (bracketClose (depth + 1) s).map (2 + ·)
    else if c = c!"[" then (bracketClose (depth + 2) s).map (1 + ·)
    else if c = c!"]" then (bracketClose depth s).map (1 + ·)
    else (bracketClose (depth + 1) s).map (1 + ·)

/-- The members of the highlighter (markdown.cpp:275-278). -/
structure St where
  fenced : Bool := false
  fenceChar : UInt8 := c!"`"
  fenceLength : Nat := 0
  comment : Bool := false
  deriving DecidableEq, Repr

/-- Where the code span that begins at `i` with `n` backticks ends, or else the end of the text
(markdown.cpp:1010-1030). -/
def skipTicks (s : Bytes) (i : Nat) : Nat :=
  let n := runOf c!"`" (s.drop i)
  match closingTicks n s.length 0 (s.drop (i + n)) with
  | some k => i + n + k + n
  | none => s.length

/-- The loop of `expect_emphasis` that searches the closing run (markdown.cpp:1004-1061):
`close_start`. -/
def emphasisClose (c : UInt8) (run : Nat) (s : Bytes) : Nat → Nat → Option Nat
  | 0, _ => none
  | fuel + 1, i =>
    match s[i]? with
    | none => none
    | some ch =>
      if ch = c!"`" then emphasisClose c run s fuel (skipTicks s i)
      else if ch = c then
        let n := runOf c (s.drop i)
        if n = run ∧ ¬ (0 < i ∧ (s[i - 1]?).any isWhitespace)
            ∧ ¬ (c = c!"_" ∧ (s[i + n]?).any isAlnum) then some i
        else emphasisClose c run s fuel (i + n)
      else emphasisClose c run s fuel (i + 1)

/-- The part of `expect_emphasis` (markdown.cpp:976-1064) that decides: `run` and `close_start`. -/
def matchEmphasis (c : UInt8) (s : Bytes) (prev : UInt8) : Option (Nat × Nat) :=
  let run := runOf c (s.take 3)
  if run = 0 then none
  else if s[run]? = some c then none
  else if s.length ≤ run ∨ (s[run]?).any isWhitespace then none
  else if c = c!"_" ∧ isAlnum prev then none
  else (emphasisClose c run s s.length run).map fun k => (run, k)

/-- `is_special_inline_char` (markdown.cpp:665-677) -/
def isSpecial (c : UInt8) : Bool := b!"`<\\&![*_".elem c

open HM

/-- `expect_code_span` (markdown.cpp:783-796) -/
def expectCodeSpan (avail : Nat) : HM St Bool := do
  let r ← rem
  match matchCodeSpan (r.take avail) with
  | none => return false
  | some (n, k) =>
    emitAdv n .string_delim
    emitAdvIf k .text_code
    emitAdv n .string_delim
    return true

/-- `expect_autolink` (markdown.cpp:799-810) -/
def expectAutolink (avail : Nat) : HM St Bool := do
  let r ← rem
  let n := matchAutolink (r.take avail)
  if n = 0 then return false
  else
    emitAdv 1 .symbol_formatting
    emitAdv n .text_link
    emitAdv 1 .symbol_formatting
    return true

/-- `expect_html_comment` (markdown.cpp:814-836) -/
def expectHtmlComment (avail : Nat) : HM St Bool := do
  let r ← rem
  let comment := Html.matchComment (r.take avail)
  if comment.length = 0 then return false
  else
    emitAdv 4 .comment_delim
    if comment.terminated then
      emitAdvIf (comment.length - 4 - 3) .comment
      emitAdv 3 .comment_delim
      return true
    else
      emitAdv (comment.length - 4) .comment
      modify fun x => { x with comment := true }
      return true

/-- `expect_html_character_reference` (markdown.cpp:841-848) -/
def expectReference (avail : Nat) : HM St Bool := do
  let r ← rem
  let n := matchReference (r.take avail)
  if n ≠ 0 then
    emitAdv n .string_escape
    return true
  else return false

/-- The parts of a link or an image whose text begins after `k` code units, as `expect_image` and
`expect_link` find them (markdown.cpp:889-909, 937-954): the lengths of the text, the URL, and what
is between the URL and the closing parenthesis. -/
def matchLink (k : Nat) (s : Bytes) : Option (Nat × Nat × Nat) :=
  match bracketClose 1 (s.drop k) with
  | none => none
  | some a =>
    let t := s.drop (k + a)
    if t.head? ≠ some c!"(" then none
    else
      let url := linkUrl (t.drop 1)
      let title := linkClose (t.drop (1 + url))
      if t.length ≤ 1 + url + title then none else some (a - 1, url, title)

/-- The end of a link or an image (markdown.cpp:917-924, 962-969). -/
def linkEnd (url title : Nat) : HM St Unit := do
  emitAdv 2 .symbol_formatting
  emitAdvIf url .text_link
  advance title
  emitAdv 1 .symbol_formatting

/-- `expect_image` (markdown.cpp:881-926) -/
def expectImage (avail : Nat) : HM St Bool := do
  let r ← rem
  if avail < 5 then return false
  else
    match matchLink 2 (r.take avail) with
    | none => return false
    | some (text, url, title) =>
      emitAdv 2 .symbol_formatting
      advance text
      linkEnd url title
      return true

/-- `expect_link` (markdown.cpp:929-971); `again` is `consume_inline_content`. -/
def expectLink (again : Nat → UInt8 → HM St Unit) (avail : Nat) : HM St Bool := do
  let r ← rem
  if avail < 4 then return false
  else
    match matchLink 1 (r.take avail) with
    | none => return false
    | some (text, url, title) =>
      emitAdv 1 .symbol_formatting
      again text 0
      linkEnd url title
      return true

/-- `expect_emphasis` (markdown.cpp:976-1064); `again` is `consume_inline_content`. -/
def expectEmphasis (again : Nat → UInt8 → HM St Unit) (c : UInt8) (avail : Nat) (prev : UInt8) :
    HM St Bool := do
  let r ← rem
  match matchEmphasis c (r.take avail) prev with
  | none => return false
  | some (run, close) =>
    emitAdv run .symbol_formatting
    again (close - run) c
    emitAdv run .symbol_formatting
    return true

/-- The `default` case (markdown.cpp:763-776). -/
def plainText (heading : Bool) (avail : Nat) : HM St UInt8 := do
  let r ← rem
  let n := 1 + Ascii.length_if ((r.take avail).drop 1) fun c => !isSpecial c
  let prev := (r[n - 1]?).getD 0
  if heading then
    emitAdv n .text_heading
    return prev
  else
    advance n
    return prev

/-- The cases in which nothing matches: one code unit of plain text. -/
def oneByte (c : UInt8) : HM St UInt8 := do
  advance 1
  return c

/-- What follows an attempt to match: the new `prev_char`. -/
def orOne (matched : HM St Bool) (prev c : UInt8) : HM St UInt8 := do
  let b ← matched
  if b then return prev else oneByte c

/-- The `switch` in the loop of `consume_inline_content` (markdown.cpp:680-777); `avail` is
`end_pos - index`.  The result is the new `prev_char`. -/
def inlineStep (again : Nat → UInt8 → HM St Unit) (heading : Bool) (avail : Nat) (prev : UInt8) :
    HM St UInt8 := do
  let r ← rem
  if r.length < avail then fault .outOfBounds
  else
    match r with
    | [] => fault .outOfBounds
    | c :: t =>
      if c = c!"`" then orOne (expectCodeSpan avail) c!"`" c
      else if c = c!"<" then
        orOne (HM.or (expectHtmlComment avail) (expectAutolink avail)) c!">" c
      else if c = c!"\\" then
        if 2 ≤ avail ∧ (t.head?).any isPunctuation then
          emitAdv 2 .string_escape
          return (t.head?).getD 0
        else oneByte c
      else if c = c!"&" then orOne (expectReference avail) c!";" c
      else if c = c!"!" then
        if 2 ≤ avail ∧ t.head? = some c!"[" then orOne (expectImage avail) c!")" c
        else oneByte c
      else if c = c!"[" then orOne (expectLink again avail) c!")" c
      else if c = c!"*" ∨ c = c!"_" then orOne (expectEmphasis again c avail prev) c c
      else plainText heading avail

/-- The loop of `consume_inline_content` (markdown.cpp:679). -/
def inlineLoopStep (again : Nat → UInt8 → HM St Unit) (heading : Bool) (endPos : Nat) (prev : UInt8) :
    HM St (UInt8 ⊕ Unit) := do
  let i ← index
  let e ← eof
  if i < endPos ∧ !e then
    let prev ← inlineStep again heading (endPos - i) prev
    return .inl prev
  else return .inr ()

/-- `consume_inline_content` (markdown.cpp:653-779).  `plain_text_highlight` is `text_heading` or
`none`.  The fuel bounds the depth of the recursion, which the proofs show to be enough. -/
def inline : Nat → Bool → Nat → UInt8 → HM St Unit
  | 0, _, _, _ => fault .outOfFuel
  | depth + 1, heading, length, prev => do
    if length = 0 then return ()
    else
      let i ← index
      loop (length + 1) (inlineLoopStep (inline depth false) heading (i + length)) prev

/-- `consume_inline_content`, with enough fuel. -/
def consumeInline (length : Nat) (prev : UInt8 := 0) (heading : Bool := false) : HM St Unit :=
  inline (length + 1) heading length prev

/-- The content of a heading (markdown.cpp:437-445). -/
def headingContent (length : Nat) : HM St Bool := do
  let r ← rem
  if 0 < length then
    let stripped := stripAtxTrailing (r.take length)
    consumeInline stripped 0 true
    advance (length - stripped)
    return true
  else return true

/-- `expect_atx_heading` (markdown.cpp:403-446) -/
def expectAtxHeading (content : Nat) : HM St Bool := do
  let r ← rem
  let s := r.take content
  let lead := matchLeadSpaces s
  if s[lead]? ≠ some c!"#" then return false
  else
    let n := runOf c!"#" ((s.drop lead).take 6)
    if (s[lead + n]?).any fun c => c != c!" " && c != c!"\t" then return false
    else
      advance lead
      emitAdv n .symbol_formatting
      if (s[lead + n]?).any fun c => c == c!" " || c == c!"\t" then
        advance 1
        headingContent (content - (lead + n + 1))
      else headingContent (content - (lead + n))

/-- `expect_thematic_break` (markdown.cpp:449-481) -/
def expectThematicBreak (content : Nat) : HM St Bool := do
  let r ← rem
  let s := r.take content
  let lead := matchLeadSpaces s
  match s.drop lead with
  | [] => return false
  | c :: t =>
    if !b!"*-_=".elem c then return false
    else if !(c :: t).all (fun d => d == c || d == c!" " || d == c!"\t") then return false
    else if (c :: t).countP (· == c) < 3 then return false
    else
      advance lead
      emitAdv (content - lead) .symbol_formatting
      return true

/-- `expect_fenced_code_open` (markdown.cpp:484-525) -/
def expectFencedCodeOpen (content : Nat) : HM St Bool := do
  let r ← rem
  let s := r.take content
  let lead := matchLeadSpaces s
  match s.drop lead with
  | [] => return false
  | c :: t =>
    if c ≠ c!"`" ∧ c ≠ c!"~" then return false
    else
      let run := runOf c (c :: t)
      if run < 3 then return false
      else if c = c!"`" ∧ ((c :: t).drop run).elem c!"`" then return false
      else
        modify fun x => { x with fenced := true, fenceChar := c, fenceLength := run }
        advance lead
        emitAdv run .string_delim
        advance (content - lead - run)
        return true

/-- `expect_indented_code` (markdown.cpp:528-553) -/
def expectIndentedCode (content : Nat) : HM St Bool := do
  let r ← rem
  if content = 0 then return false
  else if r.head? = some c!"\t" then
    advance 1
    emitAdvIf (content - 1) .text_code
    return true
  else if runOf c!" " ((r.take content).take 4) < 4 then return false
  else
    advance 4
    emitAdvIf (content - 4) .text_code
    return true

/-- The length of the list marker at the beginning of `s` (markdown.cpp:613-640), or zero. -/
def listMarker (s : Bytes) : Nat :=
  match s with
  | [] => 0
  | c :: _ =>
    let n :=
      if c = c!"-" ∨ c = c!"+" ∨ c = c!"*" then 1
      else if isDigit c then
        let d := Ascii.length_if (s.take 9) isDigit
        if s[d]? = some c!"." ∨ s[d]? = some c!")" then d + 1 else 0
      else 0
    if n ≠ 0 ∧ (s[n]?).any (fun c => c == c!" " || c == c!"\t") then n else 0

/-- `expect_list_marker` (markdown.cpp:596-648) -/
def expectListMarker (content : Nat) : HM St Bool := do
  let r ← rem
  let s := r.take content
  let lead := runOf c!" " s
  let n := listMarker (s.drop lead)
  if n = 0 then return false
  else
    advance lead
    emitAdv n .symbol_formatting
    advance 1
    consumeInline (content - (lead + n) - 1)
    return true

/-- `consume_inline_content` where no block matches (markdown.cpp:589-592, 331). -/
def inlineLine (content : Nat) : HM St Bool := do
  consumeInline content
  return true

/-- The end of `expect_blockquote` (markdown.cpp:576-592). -/
def quoted (again : Nat → HM St Bool) (nested : Nat) : HM St Bool := do
  if nested = 0 then return true
  else
    HM.or (expectAtxHeading nested) (HM.or (expectThematicBreak nested)
      (HM.or (expectListMarker nested) (HM.or (again nested)
        (HM.or (expectIndentedCode nested) (inlineLine nested)))))

/-- `expect_blockquote` (markdown.cpp:556-593).  The fuel bounds the depth of the recursion, which
the proofs show to be enough. -/
def blockquote : Nat → Nat → HM St Bool
  | 0, _ => fault .outOfFuel
  | depth + 1, content => do
    let r ← rem
    let s := r.take content
    let lead := matchLeadSpaces s
    if s[lead]? ≠ some c!">" then return false
    else
      advance lead
      emitAdv 1 .symbol_formatting
      let r ← rem
      if lead + 1 < content ∧ (r.head? = some c!" " ∨ r.head? = some c!"\t") then
        advance 1
        quoted (blockquote depth) (content - (lead + 1 + 1))
      else quoted (blockquote depth) (content - (lead + 1))

/-- `expect_blockquote`, with enough fuel. -/
def expectBlockquote (content : Nat) : HM St Bool := blockquote (content + 1) content

/-- `consume_block_line` (markdown.cpp:308-334) -/
def consumeBlockLine : HM St Unit := do
  let r ← rem
  let line := matchCrlfLine r
  if isBlank (r.take line.content) then advance (line.content + line.terminator)
  else
    let _ ← HM.or (expectAtxHeading line.content) (HM.or (expectThematicBreak line.content)
      (HM.or (expectFencedCodeOpen line.content) (HM.or (expectListMarker line.content)
        (HM.or (expectBlockquote line.content) (HM.or (expectIndentedCode line.content)
          (inlineLine line.content))))))
    advance line.terminator

/-- `consume_fenced_line` (markdown.cpp:336-373) -/
def consumeFencedLine : HM St Unit := do
  let r ← rem
  let x ← get
  let line := matchCrlfLine r
  let s := r.take line.content
  let lead := matchLeadSpaces s
  let run := runOf x.fenceChar (s.drop lead)
  if x.fenceLength ≤ run ∧ (s.drop (lead + run)).all (fun c => c == c!" " || c == c!"\t") then
    modify fun x => { x with fenced := false }
    advance lead
    emitAdv run .string_delim
    advance (line.content - lead - run)
    advance line.terminator
  else
    emitAdvIf line.content .text_code
    advance line.terminator

/-- `consume_html_comment_line` (markdown.cpp:375-401) -/
def consumeCommentLine : HM St Unit := do
  let r ← rem
  let line := matchCrlfLine r
  let s := r.take line.content
  match findSub b!"-->" s with
  | none =>
    emitAdvIf line.content .comment
    advance line.terminator
  | some k =>
    emitAdvIf k .comment
    emitAdv 3 .comment_delim
    modify fun x => { x with comment := false }
    consumeInline (line.content - k - 3) c!">"
    advance line.terminator

/-- The body of the loop of `operator()` (markdown.cpp:294-302). -/
def line : HM St Unit := do
  let x ← get
  if x.fenced then consumeFencedLine
  else if x.comment then consumeCommentLine
  else consumeBlockLine

/-- `operator()` (markdown.cpp:291-305) -/
def program : HM St Bool := do
  let r ← rem
  whileNotEof (r.length + 1) line
  return true

/-- `highlight_markdown` (markdown.cpp:1070-1078) -/
def highlight : Highlight := run program {}

end Ulight.Markdown
