import Verif.Spec.Program
import Verif.Spec.Lang.Bash

/-!
# The lexical elements of Bash

Every text is a sequence of these elements.  The state says what a word would be, and which constructs are open.
-/

namespace Ulight.Spec.Bash

/-- What a word would be: the name of a command or its next part, an argument or its next part, or text in `${…}`. -/
inductive Place where
  | beforeCommand | inCommand | beforeArgument | inArgument | inParameter
  deriving DecidableEq, Repr

/-- Constructs that can be open: `${…}`, `$(…)`, `(…)`, `$((…))` and `"…"`. -/
inductive Open where
  | parameter | command | subshell | arithmetic | string
  deriving DecidableEq, Repr

/-- What a word would be, and the open constructs from the innermost to the outermost one. -/
structure State where
  place : Place := .beforeCommand
  opens : List Open := []

/-- The type of a word. -/
def wordType (p : Place) (w : Bytes) : HT :=
  match p with
  | .beforeCommand | .inCommand => .name_shell_command
  | .beforeArgument => if w.head? = some c!"-" then .name_shell_option else .string
  | .inArgument => .string
  | .inParameter => .string_interpolation

/-- The place after a part of a word. -/
def Place.next : Place → Place
  | .beforeCommand => .inCommand
  | .beforeArgument => .inArgument
  | p => p

/-- The place after blanks. -/
def Place.afterBlanks : Place → Place
  | .inCommand | .inArgument => .beforeArgument
  | p => p

def Blank (c : UInt8) : Prop := c = 0x20 ∨ c = 0x09

/-- A substitution begins here. -/
def Substitution (s : Bytes) : Prop := ∃ c t, s = c!"$" :: c :: t ∧ (c ∈ b!"({" ∨ NameStart c ∨ Special c)

/-- A word ends here, if the innermost open construct is `o`. -/
def WordEnd (o : Option Open) (s : Bytes) : Prop :=
  s = [] ∨ (∃ c t, s = c :: t ∧ (Terminator c ∨ o = some .parameter ∧ c = c!"}")) ∨ Substitution s

/-- The characters that may follow a backslash in double quotes, for it to be an escape. -/
def Escapable (c : UInt8) : Prop := c ∈ b!"'$`\"\\\n"

/-- Plain text in double quotes ends here. -/
def TextEnd (s : Bytes) : Prop :=
  s = [] ∨ (∃ t, s = c!"\"" :: t) ∨ (∃ c t, s = c!"\\" :: c :: t ∧ Escapable c) ∨ Substitution s

/-- Elements that open and close nothing, outside of double quotes.  `o` is the innermost open construct. -/
inductive Outside (o : Option Open) : Place → Bytes → List Token → Bytes → Place → Prop where
  | blanks {p w b} (h : w ≠ []) (h' : Longest Blank (w ++ b) w.length) : Outside o p w [] b p.afterBlanks
  | line {p b} {c : UInt8} (h : c = 0x0B ∨ c = 0x0D ∨ c = 0x0A) : Outside o p [c] [] b .beforeCommand
  | escape {p b} {c : UInt8} (h : c ≠ 0x0A) : Outside o p [c!"\\", c] [⟨0, 2, .string_escape⟩] b p
  | continuation {p b} : Outside o p b!"\\\n" [⟨0, 1, .string_escape⟩] b p
  | backslash {p} : Outside o p b!"\\" [⟨0, 1, .string_escape⟩] [] p
  | single {p t b} (h : c!"'" ∉ t) :
      Outside o p (b!"'" ++ t ++ b!"'") (parts 0 [(b!"'", .string_delim), (t, .string), (b!"'", .string_delim)]) b p
  /-- a string without a quotation mark at its end -/
  | openSingle {p t} (h : c!"'" ∉ t) : Outside o p (b!"'" ++ t) (parts 0 [(b!"'", .string_delim), (t, .string)]) [] p
  | comment {p t b} (h : Longest (· ≠ 0x0A) (t ++ b) t.length) :
      Outside o p (b!"#" ++ t) (parts 0 [(b!"#", .comment_delim), (t, .comment)]) b p
  /-- operators do not change what a word would be -/
  | operator {p w b} (h : LongestIn operators (w ++ b) w.length) : Outside o p w [⟨0, w.length, .symbol_op⟩] b p
  | brace {p b} (h : o ≠ some .parameter) : Outside o p b!"}" [⟨0, 1, .symbol_brace⟩] b p
  | paren {p b} (h : o ≠ some .command ∧ o ≠ some .subshell) (h' : o = some .arithmetic → b.head? ≠ some c!")") :
      Outside o p b!")" [⟨0, 1, .symbol_parens⟩] b p
  | word {p w b} (h : w ≠ []) (first : NotFirst b!"#}" w) (h' : Plain (fun s => ¬ WordEnd o s) w b) (h'' : WordEnd o b) :
      Outside o p w [⟨0, w.length, wordType p w⟩] b p.next

/-- Elements in double quotes, other than substitutions. -/
inductive Quoted : Bytes → List Token → Bytes → Prop where
  | text {t b} (h : t ≠ []) (h' : Plain (fun s => ¬ TextEnd s) t b) (h'' : TextEnd b) : Quoted t [⟨0, t.length, .string⟩] b
  | escape {c b} (h : Escapable c) : Quoted [c!"\\", c] [⟨0, 2, .string_escape⟩] b

/-- A special parameter or a variable. -/
def Variable (a b : Bytes) : Prop :=
  (∃ c, a = [c!"$", c] ∧ Special c) ∨ ∃ c t, a = c!"$" :: c :: t ∧ NameStart c ∧ Longest NameChar (t ++ b) t.length

/-- How substitutions begin, and what a word in them would be. -/
def openings : List (Bytes × Open × Place) :=
  [(b!"${", .parameter, .inParameter), (b!"$((", .arithmetic, .beforeCommand), (b!"$(", .command, .beforeCommand)]

/-- How constructs end. -/
def endings : List (Open × Bytes × HT) :=
  [(.string, b!"\"", .string_delim), (.parameter, b!"}", .string_interpolation_delim),
   (.command, b!")", .string_interpolation_delim), (.subshell, b!")", .symbol_parens),
   (.arithmetic, b!"))", .string_interpolation_delim)]

/-- In the state `x`, the text `a` is a lexical element with the tokens `ts` if the text `b` follows, and `y` is the state
after it. -/
inductive Element : State → Bytes → List Token → Bytes → State → Prop where
  | outside {p q a ts b os} (h : os.head? ≠ some .string) (h' : Outside os.head? p a ts b q) : Element ⟨p, os⟩ a ts b ⟨q, os⟩
  | quoted {p a ts b os} (h : Quoted a ts b) : Element ⟨p, .string :: os⟩ a ts b ⟨p, .string :: os⟩
  | variable {p a b os} (h : Variable a b) : Element ⟨p, os⟩ a [⟨0, a.length, .string_interpolation⟩] b ⟨p.next, os⟩
  | substitution {p q a b o os} (h : (a, o, q) ∈ openings) (h' : a = b!"$(" → b.head? ≠ some c!"(") :
      Element ⟨p, os⟩ a [⟨0, a.length, .string_interpolation_delim⟩] b ⟨q, o :: os⟩
  | subshell {p b os} (h : os.head? ≠ some .string) :
      Element ⟨p, os⟩ b!"(" [⟨0, 1, .symbol_parens⟩] b ⟨.beforeCommand, .subshell :: os⟩
  | string {p b os} (h : os.head? ≠ some .string) : Element ⟨p, os⟩ b!"\"" [⟨0, 1, .string_delim⟩] b ⟨p, .string :: os⟩
  /-- the end of the innermost open construct; what a word would be does not change -/
  | ending {p a b o os ty} (h : (o, a, ty) ∈ endings) : Element ⟨p, o :: os⟩ a [⟨0, a.length, ty⟩] b ⟨p, os⟩

end Ulight.Spec.Bash
