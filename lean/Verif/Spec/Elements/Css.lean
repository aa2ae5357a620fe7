import Verif.Spec.Program
import Verif.Spec.Lang.Css

/-!
# The lexical elements of CSS

The state says in which part of the style sheet an element is, and how many braces are open.
-/

namespace Ulight.Spec.Css

/-- The parts of a style sheet: selectors, what follows the name of an at-rule, properties, and their values. -/
inductive Part where
  | selector | prelude | property | value
  deriving DecidableEq, Repr

/-- How names are highlighted. -/
def Part.type : Part → HT
  | .selector => .markup_tag
  | .prelude => .name_macro
  | .property => .markup_attr
  | .value => .name

structure Where where
  level : Nat := 0
  part : Part := .selector
  deriving DecidableEq, Repr

/-- After a closing brace.  If another block is open, the part stays the same. -/
def Where.close (x : Where) : Where := ⟨x.level - 1, if x.level ≤ 1 then .selector else x.part⟩

/-- After a semicolon. -/
def Part.next : Part → Part
  | .value => .property
  | .prelude => .selector
  | p => p

/-- The text `w` is an escape, if `b` follows: a backslash and up to six hexadecimal digits, perhaps with whitespace, or a
backslash and another character, or a backslash at the end of the file. -/
inductive IsEscape : Bytes → Bytes → Prop where
  | hex {ds b} (h1 : 1 ≤ ds.length) (h6 : ds.length ≤ 6) (h : ∀ c ∈ ds, HexDigit c)
      (max : ds.length = 6 ∨ ∀ c, b.head? = some c → ¬ HexDigit c) (space : ∀ c, b.head? = some c → ¬ Space c) :
      IsEscape (c!"\\" :: ds) b
  | hexSpace {ds c b} (h1 : 1 ≤ ds.length) (h6 : ds.length ≤ 6) (h : ∀ c ∈ ds, HexDigit c) (hc : Space c) :
      IsEscape (c!"\\" :: (ds ++ [c])) b
  | char {c b} (h : IsScalar c) (h' : ∀ d, (utf8 c).head? = some d → ¬ HexDigit d) : IsEscape (c!"\\" :: utf8 c) b
  | atEnd : IsEscape b!"\\" []

/-- A backslash, and after it something else than a line break. -/
def BeginsEscape (s : Bytes) : Prop := ∃ c t, s = c!"\\" :: c :: t ∧ ¬ Newline c

/-- A letter or underscore. -/
def IdStart (c : UInt8) : Prop := Letter c ∨ c = c!"_"

/-- A name begins here. -/
inductive BeginsName : Bytes → Prop where
  | char {c t} (h : IdStart c) : BeginsName (c :: t)
  | dash {c t} (h : IdStart c) : BeginsName (c!"-" :: c :: t)
  | escape {s} (h : BeginsEscape s) : BeginsName s
  | dashEscape {s} (h : BeginsEscape s) : BeginsName (c!"-" :: s)

/-- The parts of a name: characters and escapes by turns, and characters at the end. -/
def name (ty : HT) (es : List (Bytes × Bytes)) (t : Bytes) : List (Bytes × HT) :=
  match es with
  | [] => [(t, ty)]
  | (u, w) :: es => (u, ty) :: (w, .string_escape) :: name ty es t

/-- The text of a name. -/
def text (es : List (Bytes × Bytes)) (t : Bytes) : Bytes :=
  match es with
  | [] => t
  | (u, w) :: es => u ++ (w ++ text es t)

/-- A name that cannot go on, if `b` follows. -/
def IsName (es : List (Bytes × Bytes)) (t b : Bytes) : Prop :=
  match es with
  | [] => (∀ c ∈ t, IdChar c) ∧ (∀ c, b.head? = some c → ¬ IdChar c) ∧ ¬ BeginsEscape b
  | (u, w) :: es => (∀ c ∈ u, IdChar c) ∧ IsEscape w (text es t ++ b) ∧ BeginsEscape w ∧ IsName es t b

/-- Names that would be of the type `name` are functions before a parenthesis. -/
def nameType (ty : HT) (b : Bytes) : HT := if ty = .name ∧ b.head? = some c!"(" then .name_function else ty

/-- A number that cannot go on, if `b` follows. -/
def IsNumber (w b : Bytes) : Prop := Number w ∧ ∀ m, w.length < m → m ≤ (w ++ b).length → ¬ Number ((w ++ b).take m)

/-- The text begins with a number. -/
def BeginsNumber (s : Bytes) : Prop := ∃ n, n ≤ s.length ∧ Number (s.take n)

/-- The parts of a string after its beginning `o`: characters and escapes by turns, and characters at the end. -/
def string (o : Bytes) (es : List (Bytes × Bytes)) (t : Bytes) : List (Bytes × HT) :=
  match es with
  | [] => [(o ++ t, .string)]
  | (u, w) :: es => (o ++ u, .string) :: (w, .string_escape) :: string [] es t

/-- The content of a string: no line breaks and no quotation mark except in escapes. -/
def IsContent (q : UInt8) (es : List (Bytes × Bytes)) (t b : Bytes) : Prop :=
  match es with
  | [] => ∀ c ∈ t, c ≠ q ∧ ¬ Newline c ∧ c ≠ c!"\\"
  | (u, w) :: es => (∀ c ∈ u, c ≠ q ∧ ¬ Newline c ∧ c ≠ c!"\\") ∧ IsEscape w (text es t ++ b) ∧ IsContent q es t b

/-- `important`, in any case, after whitespace. -/
def Important (s : Bytes) : Prop := ∃ ws w t, s = ws ++ w ++ t ∧ (∀ c ∈ ws, Space c) ∧ w.map lower = b!"important"

/-- The symbols that are the same everywhere. -/
def marks : List (Bytes × HT) := [
  (b!"(", .symbol_parens), (b!")", .symbol_parens), (b!"[", .symbol_square), (b!"]", .symbol_square), (b!",", .symbol_punc),
  (b!"<!--", .comment_delim), (b!"-->", .comment_delim)]

/-- The text `a` is a lexical element with the tokens `ts` if the text `b` follows.  The first and the last argument say
where it is and what comes after it. -/
inductive Element : Where → Bytes → List Token → Bytes → Where → Prop where
  | comment {x t b} (h : UpTo b!"*/" (t ++ b!"*/" ++ b) t.length) :
      Element x (b!"/*" ++ t ++ b!"*/") (parts 0 [(b!"/*", .comment_delim), (t, .comment), (b!"*/", .comment_delim)]) b x
  /-- a comment up to the end of the file -/
  | openComment {x t} (h : ∀ k, ¬ OccursAt b!"*/" t k) :
      Element x (b!"/*" ++ t) (parts 0 [(b!"/*", .comment_delim), (t, .comment)]) [] x
  | space {x w b} (h : w ≠ []) (h' : Longest Space (w ++ b) w.length) : Element x w [] b x
  /-- a string with its closing quotation mark -/
  | string {x q es t b} (hq : q ∈ b!"'\"") (h : IsContent q es t ([q] ++ b)) :
      Element x ([q] ++ text es (t ++ [q])) (parts 0 (string [q] es (t ++ [q]))) b x
  /-- a string up to the end of the line or of the file -/
  | openString {x q es t b} (hq : q ∈ b!"'\"") (h : IsContent q es t b) (h' : ∀ c, b.head? = some c → Newline c) :
      Element x ([q] ++ text es t) (parts 0 (string [q] es t)) b x
  | mark {x w ty b} (h : (w, ty) ∈ marks) : Element x w [⟨0, w.length, ty⟩] b x
  /-- a name with a number sign before it: an identifier or a color -/
  | hash {x es t b} (h : IsName es t b) (h' : text es t ≠ []) :
      Element x (b!"#" ++ text es t)
        (parts 0 ((b!"#", if x.part = .value then .value else x.part.type) ::
          name (if x.part = .value then .value else x.part.type) es t)) b x
  | number {x w b} (h : IsNumber w b) (h' : ¬ BeginsName b) (h'' : b.head? ≠ some c!"%") :
      Element x w [⟨0, w.length, .number⟩] b x
  | percentage {x w b} (h : IsNumber w (b!"%" ++ b)) :
      Element x (w ++ b!"%") (parts 0 [(w, .number), (b!"%", .number_decor)]) b x
  | dimension {x w es t b} (h : IsNumber w (text es t ++ b)) (h' : IsName es t b) (h'' : BeginsName (text es t ++ b))
      (h0 : text es t ≠ []) :
      Element x (w ++ text es t) (parts 0 ((w, .number) :: name .number_decor es t)) b x
  | name {x es t b} (h : IsName es t b) (h' : BeginsName (text es t ++ b)) (h'' : (text es t).head? ≠ some c!"-")
      (h0 : text es t ≠ []) :
      Element x (text es t) (parts 0 (name (nameType x.part.type b) es t)) b x
  /-- a name that begins with a dash -/
  | dashName {x u es t b} (h : IsName es t b) (e : text es t = c!"-" :: u) (h' : BeginsName (u ++ b)) :
      Element x (text es t) (parts 0 (name (nameType .name b) es t)) b x
  | atRule {x es t b} (h : IsName es t b) (h' : BeginsName (text es t ++ b)) (h0 : text es t ≠ []) :
      Element x (b!"@" ++ text es t) (parts 0 ((b!"@", .name_macro_delim) :: name .name_macro es t)) b ⟨x.level, .prelude⟩
  /-- an at-sign without a name -/
  | badAt {x b} (h : ¬ BeginsName b) : Element x b!"@" [⟨0, 1, .error⟩] b ⟨x.level, .prelude⟩
  | sign {x c b} (h : c ∈ b!"+-") (h' : ¬ BeginsNumber (c :: b)) (h'' : c = c!"-" → ¬ BeginsName b ∧ ¬ b!"->" <+: b) :
      Element x [c] [⟨0, 1, if x.part = .value ∨ x.part = .prelude then .symbol_op else .error⟩] b x
  | dot {x b} (h : ¬ BeginsNumber (c!"." :: b)) (h' : x.part = .selector) : Element x b!"." [⟨0, 1, .markup_tag⟩] b x
  | colon {x b} : Element x b!":" [⟨0, 1, if x.part = .selector then .markup_tag else .symbol_punc⟩] b
      ⟨x.level, if x.part = .property then .value else x.part⟩
  | semicolon {x b} : Element x b!";" [⟨0, 1, .symbol_punc⟩] b ⟨x.level, x.part.next⟩
  | less {x b} (h : ¬ b!"!--" <+: b) : Element x b!"<" [⟨0, 1, .symbol_op⟩] b x
  | combinator {x c b} (h : c ∈ b!">~*") :
      Element x [c] [⟨0, 1, if x.part = .selector then .markup_tag else .symbol_op⟩] b x
  | openBrace {x b} : Element x b!"{" [⟨0, 1, .symbol_brace⟩] b ⟨x.level + 1, .property⟩
  | closeBrace {x b} : Element x b!"}" [⟨0, 1, .symbol_brace⟩] b x.close
  | important {x ws w b} (h : ∀ c ∈ ws, Space c) (h' : w.map lower = b!"important") :
      Element x (b!"!" ++ ws ++ w) [⟨0, ws.length + 10, .keyword⟩] b x
  /-- a backslash that is no escape -/
  | backslash {x b} (h : ¬ BeginsEscape (c!"\\" :: b)) : Element x b!"\\" [⟨0, 1, .error⟩] b x
  /-- a character that begins nothing here -/
  | none {x c b} (h : c.toNat < 0x80) (h' : ¬ Letter c) (d : ¬ DecDigit c) (s : ¬ Space c) (n : c ∉ b!"_\"'()+-,:;<>~*@[]\\{}")
      (comment : ¬ b!"/*" <+: c :: b)
      (hash : c = c!"#" → ¬ BeginsEscape b ∧ ∀ d, b.head? = some d → ¬ IdChar d)
      (dot : c = c!"." → ¬ BeginsNumber (c :: b) ∧ x.part ≠ .selector) (bang : c = c!"!" → ¬ Important b) :
      Element x [c] [] b x
  /-- a character that is not ASCII -/
  | other {x c b} (h : IsScalar c) (h' : 0x80 ≤ c) : Element x (utf8 c) [] b x

end Ulight.Spec.Css
