import Verif.Spec.Lang.Cowel
import Verif.Spec.Grammar

/-!
# The grammar of COWEL

Text, and expressions in it, which can have text in them.  Errors are included, and so are the cases in which the code
differs from the documentation of the language.
-/

namespace Ulight.Spec.Cowel

open Phrase

/-! ## Comments and escape sequences -/

/-- A comment up to the end of the line. -/
def LineComment : Phrase := word b!"\\:" .comment_delim ⬝ run InLine .comment

/-- A comment that ends with `*\`. -/
def BlockComment : Phrase := word b!"\\*" .comment_delim ⬝ upTo b!"*\\" .comment ⬝ maybe b!"*\\" .comment_delim

/-- A comment. -/
def Comment : Phrase := or LineComment BlockComment

/-- No comment. -/
def NoComment (b : Bytes) : Prop := ¬ b!"\\:" <+: b ∧ ¬ b!"\\*" <+: b

/-- Whitespace and comments, as much as possible. -/
def Blanks (S : UInt8 → Prop) : Phrase := star (all S ⬝ Comment) (all S ⬝ before NoComment)

/-- Escape sequences, including those that are errors. -/
def Escapes : Phrase := or (fun a ts b => Escape (a ++ b) a.length ∧ ts = [⟨0, a.length, .string_escape⟩])
  (fun a ts b => BadEscape (a ++ b) a.length ∧ ts = [⟨0, a.length, .error⟩])

/-- No escape sequence. -/
def NoEscape (b : Bytes) : Prop := ¬ b!"\\" <+: b ∨ ∃ c t, b = c!"\\" :: c :: t ∧ (Start c ∨ c ∈ b!":*( ")

/-! ## Words, numbers and symbols -/

/-- An identifier. -/
def Name (ty : HT) : Phrase := fun a ts b => Ident (a ++ b) a.length ∧ ts = [⟨0, a.length, ty⟩]

/-- No identifier. -/
def NoName (b : Bytes) : Prop := ∀ c, b.head? = some c → ¬ Start c

/-- The highlight types of words. -/
def wordType (w : Bytes) : HT :=
  if w ∈ [b!"unit", b!"null", b!"let"] then .keyword else if w ∈ [b!"true", b!"false"] then .bool_
  else if w = b!"infinity" then .value else .name_var

/-- The text `w`, and no longer identifier. -/
def Exactly (w : Bytes) (s : Bytes) : Prop := w <+: s ∧ ∀ c, s[w.length]? = some c → ¬ Continue c

/-- Words and names of variables. -/
inductive Word : Phrase where
  | word {a b} (h : Ident (a ++ b) a.length) (hf : a ≠ b!"fun") : Word a [⟨0, a.length, wordType a⟩] b
  /-- after the keyword `fun`, there can be the name of a function in the same line -/
  | function {a ts b} (h : (when (Exactly b!"fun") (word b!"fun" .keyword) ⬝ Blanks Horizontal ⬝
      or (Name .name_function_decl) (before NoName)) a ts b) : Word a ts b
  | infinity {b} (h : Exactly b!"-infinity" (b!"-infinity" ++ b)) : Word b!"-infinity" [⟨0, 1, .value_delim⟩, ⟨1, 8, .value⟩] b

/-- The parts of a number. -/
inductive NumberOf : Bytes → List (Bytes × HT) → Prop where
  | prefixed {p b w} (h : (p, b) ∈ [(b!"0b", 2), (b!"0o", 8), (b!"0x", 16)]) (w0 : w ≠ [])
      (hw : ∀ c ∈ w, ∃ v, digitVal c = some v ∧ v < b) : NumberOf (p ++ w) [(p, .number_decor), (w, .number)]
  | decimal {i f x w} (i0 : i ≠ [] ∨ 2 ≤ f.length) (hi : ∀ c ∈ i, DecDigit c)
      (hf : f = [] ∨ ∃ w, f = b!"." ++ w ∧ ∀ c ∈ w, DecDigit c)
      (he : x = [] ∧ w = [] ∨ x ∈ numerals.exps ∧ w ≠ [] ∧ ∀ c ∈ w, DecDigit c) :
      NumberOf (i ++ f ++ (x ++ w)) [(i, .number), (f.take 1, .number_delim), (f.drop 1, .number), (x, .number_delim), (w, .number)]

/-- A number, or what looks like one. -/
inductive Numbers : Phrase where
  | number {a ps b} (h : Numeric (a ++ b) a.length) (h' : NumberOf a ps) : Numbers a (parts 0 ps) b
  | bad {a b} (h : Numeric (a ++ b) a.length) (h0 : ∃ c, a.head? = some c ∧ ¬ Start c) (h' : ¬ Number a) :
      Numbers a [⟨0, a.length, .error⟩] b

/-- A symbol. -/
def Symbol : Phrase := fun a ts b => ∃ ty, LongestIn (symbols.map Prod.fst) (a ++ b) a.length ∧ (a, ty) ∈ symbols ∧ ts = [⟨0, a.length, ty⟩]

/-- No symbol. -/
def NoSymbol (b : Bytes) : Prop := ∀ w ∈ symbols, ¬ w.1 <+: b

/-- No expression. -/
def NoExpression (b : Bytes) : Prop := ¬ Exactly b!"-infinity" b ∧ ∀ c, b.head? = some c → ¬ Continue c ∧ c ∉ b!".\"{("

/-- A name of `n` bytes is followed by arguments in parentheses or content in braces. -/
def IsCall (s : Bytes) (n : Nat) : Prop := Ident s n ∧ ∃ m, Blank (s.drop n) m ∧ ∃ c ∈ b!"({", s[n + m]? = some c

/-- `QuotedEnd s n`: the first `n` bytes of `s` are the rest of a name in quotation marks.  Nothing but escape sequences and
comments can be in it. -/
inductive QuotedEnd : Bytes → Nat → Prop where
  | quote {s} (h : b!"\"" <+: s) : QuotedEnd s 1
  | char {c s n} (h : c ≠ c!"\"" ∧ c ≠ c!"\\") (h' : QuotedEnd s n) : QuotedEnd (c :: s) (1 + n)
  | escape {a ts b n} (h : Escapes a ts b) (h' : QuotedEnd b n) : QuotedEnd (a ++ b) (a.length + n)
  | comment {a ts b n} (h : Comment a ts b) (h' : QuotedEnd b n) : QuotedEnd (a ++ b) (a.length + n)

/-- The name of `n` bytes of a member is followed by `=`. -/
def IsNamed (s : Bytes) : Prop := ∃ n, (Ident s n ∨ ∃ t m, s = c!"\"" :: t ∧ QuotedEnd t m ∧ n = m + 1) ∧
  ∃ m, Blank (s.drop n) m ∧ s[n + m]? = some c!"=" ∧ s[n + m + 1]? ≠ some c!"="

/-! ## Expressions -/

/-- The kinds of text. -/
inductive Kind where
  | document
  /-- the name of a member, in quotation marks -/
  | name
  /-- a string, in quotation marks -/
  | string
  /-- content, in braces -/
  | block
  deriving DecidableEq

/-- What can be inside of delimiters. -/
inductive Inner where
  | members
  | text (k : Kind)

section

variable (N : Inner → Phrase)

/-- A string. -/
def Quoted : Phrase := word b!"\"" .string_delim ⬝ N (.text .string) ⬝ maybe b!"\"" .string_delim

/-- Content in braces. -/
def Block : Phrase := word b!"{" .symbol_brace ⬝ N (.text .block) ⬝ maybe b!"}" .symbol_brace

/-- Arguments in parentheses; the closing parenthesis belongs to `N`. -/
def Group : Phrase := word b!"(" .symbol_parens ⬝ N .members

/-- Arguments and content, where `B` can be before them. -/
def Arguments (B : Phrase) : Phrase :=
  B ⬝ or (Group N) (before fun b => ¬ b!"(" <+: b) ⬝ B ⬝ or (Block N) (before fun b => ¬ b!"{" <+: b)

/-- An expression. -/
inductive Expression : Phrase where
  | call {a ts b} (h : (when (fun s => ∃ n, IsCall s n) (Name .markup_tag) ⬝ Arguments N (Blanks Space)) a ts b) : Expression a ts b
  | word {a ts b} (h : Word a ts b) (e : ∀ n, ¬ IsCall (a ++ b) n) : Expression a ts b
  | number {a ts b} (h : Numbers a ts b) : Expression a ts b
  | string {a ts b} (h : Quoted N a ts b) : Expression a ts b
  | block {a ts b} (h : Block N a ts b) : Expression a ts b
  | group {a ts b} (h : Group N a ts b) : Expression a ts b

/-- An expression, which can be missing. -/
def MaybeExpression : Phrase := or (Expression N) (before NoExpression)

/-- Arguments: with a name, an ellipsis, an expression, or a symbol. -/
inductive Member : Phrase where
  | named {a ts b} (h : (when IsNamed (Name .markup_attr) ⬝ Blanks Space ⬝ word b!"=" .symbol_punc ⬝ Blanks Space ⬝ MaybeExpression N) a ts b) :
      Member a ts b
  | quoted {a ts b} (h : (when IsNamed (word b!"\"" .markup_attr_delim) ⬝ N (.text .name) ⬝ maybe b!"\"" .markup_attr_delim ⬝ Blanks Space ⬝
      word b!"=" .symbol_punc ⬝ Blanks Space ⬝ MaybeExpression N) a ts b) : Member a ts b
  | ellipsis {b} : Member b!"..." [⟨0, 3, .name_attr⟩] b
  | value {a ts b} (h : Expression N a ts b) (h' : ¬ IsNamed (a ++ b)) (h'' : ¬ b!"..." <+: a ++ b) : Member a ts b
  | symbol {a ts b} (h : Symbol a ts b) (h' : NoExpression (a ++ b)) : Member a ts b

/-- No argument. -/
def NoMember (b : Bytes) : Prop := NoExpression b ∧ NoSymbol b ∧ ∀ c, b.head? = some c → ¬ Space c

/-- What does not belong between parentheses, up to the next comma, brace or closing parenthesis. -/
def Junk : Phrase := fun a ts b => a ≠ [] ∧ all (fun c => c ∉ b!"),}") a ts b

/-- Arguments up to the closing parenthesis.  Commas between them are optional. -/
def Members : Phrase :=
  star
    (Blanks Space ⬝ or
      (Member N ⬝ Blanks Space ⬝ or (word b!"," .symbol_punc) (before fun b => ∃ c, b.head? = some c ∧ c ∉ b!"),}"))
      (before NoMember ⬝ Blanks Space ⬝ or (word b!"," .symbol_punc) (Junk ⬝ before fun b => b!"," <+: b)))
    (or
      (Blanks Space ⬝ or (Member N) (before NoMember) ⬝ Blanks Space ⬝
        or (before fun b => b = [] ∨ b!"}" <+: b) (word b!")" .symbol_parens))
      (Blanks Space ⬝ before NoMember ⬝ Blanks Space ⬝ Junk ⬝
        or (before fun b => b = []) (or (word b!"}" .symbol_brace) (word b!")" .symbol_parens))))

/-! ## Text -/

/-- A symbol, or a byte that is an error. -/
def Soup : Phrase := or Symbol fun a ts b => a.length = 1 ∧ ts = [⟨0, 1, .error⟩] ∧ NoSymbol (a ++ b)

/-- Expressions in text.  There have to be symbols between the expressions; otherwise the first byte of the second one is an
error. -/
def Splice : Phrase := word b!"\\(" .string_interpolation_delim ⬝
  star (Blanks Space ⬝ MaybeExpression N ⬝ Blanks Space ⬝ when (fun s => ¬ b!")" <+: s ∧ ¬ b!"}" <+: s) Soup)
    (Blanks Space ⬝ MaybeExpression N ⬝ Blanks Space ⬝
      or (before fun b => b = [] ∨ b!"}" <+: b) (word b!")" .string_interpolation_delim))

/-- The end of a line. -/
def Newline (s : Bytes) : Prop := ∃ c, s.head? = some c ∧ ¬ InLine c

/-- The line is not the last one. -/
def OtherLine (s : Bytes) : Prop := ∃ c ∈ s, ¬ InLine c

/-- Expressions up to the end of the line.  Whitespace at the end of the line includes the end of the line, so that the next
line belongs to the expressions, too. -/
def LineSplice : Phrase := word b!"\\ " .string_interpolation_delim ⬝ when OtherLine
  (star
    (when (fun s => ¬ Newline s)
      (or Escapes (or Comment (or (Expression N) (or (fun a ts b => a ≠ [] ∧ all Space a ts b)
        (when (fun s => NoEscape s ∧ NoComment s ∧ NoExpression s ∧ ∀ c, s.head? = some c → ¬ Space c) Soup))))))
    (or (before fun b => b = []) fun a ts b => a ∈ ([[0x0D, 0x0A], [0x0A], [0x0D]] : List Bytes) ∧ ts = [] ∧
      ([0x0D, 0x0A] <+: a ++ b → a.length = 2)))

/-- A command in text. -/
def Directive : Phrase := (fun a ts b => ∃ w, a = b!"\\" ++ w ∧ Ident (w ++ b) w.length ∧ ts = [⟨0, a.length, .markup_tag⟩]) ⬝
  Arguments N empty

/-- What is not simply text. -/
def Markup : Phrase := or Escapes (or (Directive N) (or (Splice N) (or (LineSplice N) Comment)))

/-- `Braces l t m`: if `l` braces are open before the text `t`, then `m` are open after it. -/
inductive Braces : Nat → Bytes → Nat → Prop where
  | nil {l} : Braces l [] l
  | open_ {l t m} (h : Braces (l + 1) t m) : Braces l (c!"{" :: t) m
  | close {l t m} (h : Braces l t m) : Braces (l + 1) (c!"}" :: t) m
  | other {l c t m} (hc : c ∉ b!"{}\\") (h : Braces l t m) : Braces l (c :: t) m

/-- The bytes that end text, besides the backslash. -/
def ends : Kind → Nat → Bytes
  | .document, _ => b!""
  | .name, _ | .string, _ => b!"\""
  | .block, l => if l = 0 then b!"}" else b!""

/-- Simple text, where `l` braces are open before it and `m` after it. -/
def Plain (k : Kind) (l : Nat) (t : Bytes) (m : Nat) : Prop :=
  if k = .block then Braces l t m else m = l ∧ ∀ c ∈ t, c ≠ c!"\\" ∧ c ∉ ends k l

/-- The highlight type of simple text. -/
def plainType : Kind → Option HT
  | .document | .block => none
  | .name => some .markup_attr
  | .string => some .string

/-- Text, where `l` braces are open before it. -/
inductive Text (k : Kind) : Nat → Phrase where
  /-- Text also ends if there is a backslash and a space in the last line. -/
  | end_ {l b} (h : b = [] ∨ (∃ c, b.head? = some c ∧ c ∈ ends k l) ∨ b!"\\ " <+: b ∧ ¬ OtherLine (b.drop 2)) : Text k l [] [] b
  | markup {l a ts a' us b} (h : Markup N a ts (a' ++ b)) (h' : Text k l a' us b) : Text k l (a ++ a') (ts ++ shift a.length us) b
  | plain {l t m a us b} (h0 : t ≠ []) (h : Plain k l t m)
      (e : a ++ b = [] ∨ ∃ c, (a ++ b).head? = some c ∧ (c = c!"\\" ∨ c ∈ ends k m)) (h' : Text k m a us b) :
      Text k l (t ++ a) ((match plainType k with | none => [] | some ty => [⟨0, t.length, ty⟩]) ++ shift t.length us) b

end

/-- What is inside of delimiters, which are nested at most `n` times. -/
def nested : Nat → Inner → Phrase
  | 0, _ => fun _ _ _ => False
  | n + 1, .members => Members (nested n)
  | n + 1, .text k => Text (nested n) k 0

/-- A document and what is left of it: nothing, unless it ends with a backslash and a space in the last line. -/
def Document (a : Bytes) (ts : List Token) (b : Bytes) : Prop := ∃ n, nested n (.text .document) a ts b

end Ulight.Spec.Cowel
