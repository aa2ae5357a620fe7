import Verif.Spec.Program
import Verif.Spec.Lang.Kotlin

/-!
# The lexical elements of Kotlin

The state says which constructs are open.
-/

namespace Ulight.Spec.Kotlin

/-- The numbers of Kotlin, without those that have a suffix of two letters. -/
def radixes : List Radix := [
  { exps := some b!"eE", point := true, ints := [b!"L", b!"u", b!"U", b!"f", b!"F"], floats := [b!"f", b!"F"] },
  { pre := b!"0x", base := 16, ints := [b!"L", b!"u", b!"U"] },
  { pre := b!"0X", base := 16, ints := [b!"L", b!"u", b!"U"] },
  { pre := b!"0b", base := 2, ints := [b!"L", b!"u", b!"U"] },
  { pre := b!"0B", base := 2, ints := [b!"L", b!"u", b!"U"] }]

/-- Constructs that can be open: `{…}`, `${…}` in a string, a literal with the quotation marks `q`, and a list of
annotations `[…]`. -/
inductive Open where
  | brace | expression | literal (q : Bytes) | annotations
  deriving DecidableEq, Repr

/-- Neither a literal nor a list of annotations is the innermost construct. -/
def InCode (os : List Open) : Prop := ∀ o, os.head? = some o → o = .brace ∨ o = .expression

/-- An identifier begins here. -/
def Word (s : Bytes) : Prop := ∃ n, Identifier CppId.Start CppId.Continue s n

/-- The text of parts. -/
def text (ps : List (Bytes × HT)) : Bytes := ps.flatMap Prod.fst

/-- The parts of the name of an annotation: identifiers with points between them, and perhaps a point at the end.  The
text `b` follows. -/
inductive Dotted (b : Bytes) : List (Bytes × HT) → Prop where
  | none (h : ¬ Word b) : Dotted b []
  | last {w} (h : Identifier CppId.Start CppId.Continue (w ++ b) w.length) (h' : b.head? ≠ some c!".") :
      Dotted b [(w, .name_attr)]
  | more {w ps} (h : Identifier CppId.Start CppId.Continue (w ++ (b!"." ++ text ps ++ b)) w.length) (h' : Dotted b ps) :
      Dotted b ((w, .name_attr) :: (b!".", .name_attr_delim) :: ps)

/-- No symbol begins here. -/
def NoSymbol (s : Bytes) : Prop := ∀ w ∈ symbols, ¬ w <+: s

/-- Elements that open and close nothing, where neither a literal nor a list of annotations is open. -/
inductive Code : Bytes → List Token → Bytes → Prop where
  | lineComment {t b} (h : Js.Line (t ++ b) t.length) :
      Code (b!"//" ++ t) (parts 0 [(b!"//", .comment_delim), (t, .comment)]) b
  | blockComment {t b} (h : UpTo b!"*/" (t ++ b!"*/" ++ b) t.length) :
      Code (b!"/*" ++ t ++ b!"*/") (parts 0 [(b!"/*", .comment_delim), (t, .comment), (b!"*/", .comment_delim)]) b
  /-- a comment that is not closed -/
  | openComment {t} (h : ∀ k, ¬ OccursAt b!"*/" t k) :
      Code (b!"/*" ++ t) (parts 0 [(b!"/*", .comment_delim), (t, .comment)]) []
  | number {n R b} (hR : R ∈ radixes) (h : Written.In n R) (h' : Boundary b) : Code n.text (parts 0 n.parts) b
  /-- an integer at the beginning of a range such as `1..9` -/
  | range {gs b} (h : gs ≠ []) (h' : ∀ g ∈ gs, Digits 10 g) (h'' : b!".." <+: b) :
      Code (text (groups gs)) (parts 0 (groups gs)) b
  | keyword {w ty b} (h : Identifier CppId.Start CppId.Continue (w ++ b) w.length) (h' : (w, ty) ∈ words)
      (symbol : NoSymbol (w ++ b)) : Code w [⟨0, w.length, ty⟩] b
  /-- a name that does not begin with an underscore -/
  | name {w b} (h : Identifier CppId.Start CppId.Continue (w ++ b) w.length) (h' : ∀ ty, (w, ty) ∉ words)
      (h'' : w.head? ≠ some c!"_") (symbol : NoSymbol (w ++ b)) : Code w [⟨0, w.length, .name⟩] b
  /-- a symbol that does not begin a comment, a literal, a number, or an annotation -/
  | symbol {w ty b} (h : LongestIn symbols (w ++ b) w.length) (h' : (w, ty) ∈ words)
      (comment : ¬ b!"//" <+: w ++ b ∧ ¬ b!"/*" <+: w ++ b) (first : NotFirst b!"\"{}" w)
      (number : w = b!"." → ∀ c, b.head? = some c → ¬ DecDigit c)
      (annotation : w = b!"@" → b.head? ≠ some c!"[" ∧ ¬ Word b) : Code w [⟨0, w.length, ty⟩] b
  /-- a name in backticks -/
  | backticks {t b} (h : t ≠ []) (h' : ∀ c ∈ t, InLine c ∧ c ≠ c!"`") :
      Code (b!"`" ++ t ++ b!"`") (parts 0 [(b!"`", .name_delim), (t, .name), (b!"`", .name_delim)]) b
  /-- backticks without a name between them -/
  | noName {b} : Code b!"``" [⟨0, 2, .error⟩] b
  /-- a name in backticks that is not closed on the same line -/
  | openName {t b} (h : Longest (fun c => InLine c ∧ c ≠ c!"`") (t ++ b) t.length) (h' : b.head? ≠ some c!"`") :
      Code (b!"`" ++ t) [⟨0, 1 + t.length, .error⟩] b
  | annotation {ps b} (h : Dotted b ps) (h0 : ps ≠ []) (h' : b.head? ≠ some c!":") :
      Code (b!"@" ++ text ps) (parts 0 ((b!"@", .name_attr_delim) :: ps)) b
  /-- an annotation with a target -/
  | target {ps qs b} (h : Dotted (b!":" ++ text qs ++ b) ps) (h0 : ps ≠ []) (h' : Dotted b qs)
      (h'' : qs = [] → b.head? ≠ some c!"[") :
      Code (b!"@" ++ text ps ++ b!":" ++ text qs)
        (parts 0 ((b!"@", .name_attr_delim) :: ps ++ (b!":", .name_attr_delim) :: qs)) b
  /-- a character that cannot begin anything -/
  | unknown {c p b} (h : FirstChar c p b) (id : ¬ CppId.Start c) (symbol : NoSymbol (p ++ b))
      (other : ∀ x, p.head? = some x → ¬ DecDigit x ∧ ¬ Space x ∧ x ≠ c!"'" ∧ x ≠ c!"`") : Code p [⟨0, p.length, .error⟩] b

/-- The beginnings of lists of annotations. -/
inductive Listing : Bytes → List Token → Bytes → Prop where
  | plain {b} : Listing b!"@[" [⟨0, 1, .name_attr_delim⟩, ⟨1, 1, .symbol_square⟩] b
  | target {ps b} (h : Dotted (b!":[" ++ b) ps) (h0 : ps ≠ []) :
      Listing (b!"@" ++ text ps ++ b!":[")
        (parts 0 ((b!"@", .name_attr_delim) :: ps ++ [(b!":", .name_attr_delim), (b!"[", .symbol_square)])) b

/-- Elements in a list of annotations. -/
inductive Listed : Bytes → List Token → Bytes → Prop where
  | space {w b} (h : w ≠ []) (h' : Longest Space (w ++ b) w.length) : Listed w [] b
  | name {ps b} (h : Dotted b ps) (h0 : ps ≠ []) : Listed (text ps) (parts 0 ps) b
  /-- a byte that cannot begin a name -/
  | bad {c b} (h : ¬ Space c ∧ c ≠ c!"]") (h' : ¬ Word (c :: b)) : Listed [c] [⟨0, 1, .error⟩] b

/-- Plain text in a literal with the quotation marks `q` ends here. -/
def TextEnd (q s : Bytes) : Prop :=
  s = [] ∨ q <+: s ∨ ∃ c t, s = c :: t ∧ Stop q c

/-- Elements in a literal with the quotation marks `q` that open and close nothing. -/
inductive Content (q : Bytes) : Bytes → List Token → Bytes → Prop where
  | text {t b} (h : t ≠ []) (h' : Plain (fun s => ¬ TextEnd q s) t b) (h'' : TextEnd q b) :
      Content q t [⟨0, t.length, .string⟩] b
  | escape {w b} (hq : q.length = 1) (h : escapes.Ends w b) : Content q w [⟨0, w.length, .string_escape⟩] b
  /-- a backslash that does not begin an escape -/
  | backslash {b} (hq : q.length = 1) (h : NotFirst b!"utbrn'\"\\$" b) : Content q b!"\\" [⟨0, 1, .error⟩] b
  /-- `\u` without four hexadecimal digits; the token has the length of an escape or extends to the end of the text -/
  | badEscape {d b} (hq : q.length = 1) (h : d.length = 4 ∨ d.length < 4 ∧ b = []) (h' : ¬ IsEscape .hex_4 d) :
      Content q (b!"\\u" ++ d) [⟨0, 2 + d.length, .error⟩] b
  /-- a variable -/
  | reference {w b} (hq : q ≠ b!"'") (h : Identifier CppId.Start CppId.Continue (w ++ b) w.length) :
      Content q (b!"$" ++ w) [⟨0, 1 + w.length, .string_interpolation⟩] b
  /-- `$` without a variable or an expression -/
  | badDollar {b} (hq : q ≠ b!"'") (h : ¬ Word b) (h' : b.head? ≠ some c!"{") : Content q b!"$" [⟨0, 1, .error⟩] b

/-- In the state `x`, the text `a` is a lexical element with the tokens `ts` if the text `b` follows, and `y` is the state
after it. -/
inductive Element : List Open → Bytes → List Token → Bytes → List Open → Prop where
  | space {w b os} (h : InCode os) (h' : w ≠ []) (h'' : Longest Space (w ++ b) w.length) : Element os w [] b os
  | code {a ts b os} (h : InCode os) (h' : Code a ts b) : Element os a ts b os
  | openBrace {b os} (h : InCode os) : Element os b!"{" [⟨0, 1, .symbol_brace⟩] b (.brace :: os)
  | closeBrace {b os} : Element (.brace :: os) b!"}" [⟨0, 1, .symbol_brace⟩] b os
  /-- a closing brace without an opening one -/
  | unmatched {b} : Element [] b!"}" [⟨0, 1, .error⟩] b []
  | openList {a ts b os} (h : InCode os) (h' : Listing a ts b) : Element os a ts b (.annotations :: os)
  | list {a ts b os} (h : Listed a ts b) : Element (.annotations :: os) a ts b (.annotations :: os)
  | closeList {b os} : Element (.annotations :: os) b!"]" [⟨0, 1, .symbol_square⟩] b os
  | openLiteral {q b os} (h : InCode os) (hq : q ∈ [b!"'", b!"\"", b!"\"\"\""]) (h' : q = b!"\"" → ¬ b!"\"\"" <+: b) :
      Element os q [⟨0, q.length, .string_delim⟩] b (.literal q :: os)
  | content {q a ts b os} (h : Content q a ts b) : Element (.literal q :: os) a ts b (.literal q :: os)
  | openExpression {q b os} (hq : q ≠ b!"'") :
      Element (.literal q :: os) b!"${" [⟨0, 2, .string_interpolation_delim⟩] b (.expression :: .literal q :: os)
  | closeExpression {b os} : Element (.expression :: os) b!"}" [⟨0, 1, .string_interpolation_delim⟩] b os
  | closeLiteral {q b os} (hq : q.length = 1) : Element (.literal q :: os) q [⟨0, 1, .string_delim⟩] b os
  /-- a multiline string ends with the last three of several quotation marks -/
  | closeLiterals {n b os} (h : b.head? ≠ some c!"\"") :
      Element (.literal b!"\"\"\"" :: os) (List.replicate n c!"\"" ++ b!"\"\"\"")
        (parts 0 [(List.replicate n c!"\"", .string), (b!"\"\"\"", .string_delim)]) b os
  /-- other literals end at the end of the line -/
  | lineEnd {q w b os} (hq : q.length = 1) (h : ∃ c t, w = c :: t ∧ (c = 0x0A ∨ c = 0x0D))
      (h' : Longest Space (w ++ b) w.length) : Element (.literal q :: os) w [] b os

end Ulight.Spec.Kotlin
