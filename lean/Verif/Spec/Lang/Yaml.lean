import Verif.Spec.Lang.Common
import Verif.Spec.Escapes

/-!
# Specification of YAML highlighting

What a piece of YAML is depends on the text before it, so the rules speak about the text before a token
(`p`) and the text from the token on (`s`).
-/

namespace Ulight.Spec.Yaml

/-- Whitespace. -/
def White (c : UInt8) : Prop := c ∈ b!" \t\r\n"

/-- A space or a tab. -/
def Blank (c : UInt8) : Prop := c ∈ b!" \t"

/-- The text is within a line. -/
def OneLine (v : Bytes) : Prop := ∀ c ∈ v, InLine c

/-- What can follow a colon or a dash that has a meaning: a space, a line break, or nothing. -/
def Separates (t : Bytes) : Prop := ∀ c, t.head? = some c → c ∈ b!" \r\n"

/-- A character that ends the name of a tag, an anchor or an alias. -/
def WordEnd (c : UInt8) : Prop := c ∈ b!"\r\n,[]{}# \t&*!"

/-- A character of the handle of a tag. -/
def HandleChar (c : UInt8) : Prop := Letter c ∨ DecDigit c ∨ c = c!"-"

/-! ## Values without quotation marks -/

/-- Words with a meaning. -/
def words : List (Bytes × HT) :=
  [b!"true", b!"True", b!"TRUE", b!"false", b!"False", b!"FALSE", b!"yes", b!"Yes", b!"YES", b!"no", b!"No",
    b!"NO", b!"on", b!"On", b!"ON", b!"off", b!"Off", b!"OFF"].map (·, HT.bool_) ++
  [b!"null", b!"Null", b!"NULL"].map (·, HT.null)

/-- A word with a meaning can end here. -/
def WordStops (t : Bytes) : Prop := ∀ c, t.head? = some c → WordEnd c ∨ c ∈ b!":-"

/-- Values that are neither numbers in digits nor words. -/
def specials : List Bytes :=
  [b!".nan", b!".NaN", b!".NAN"] ++
    [b!"", b!"+", b!"-"].flatMap fun sign => [b!".inf", b!".Inf", b!".INF"].map (sign ++ ·)

/-- Prefixes of numbers and their bases. -/
def prefixes : List (Bytes × Nat) :=
  [(b!"0x", 16), (b!"0X", 16), (b!"0o", 8), (b!"0O", 8), (b!"0b", 2), (b!"0B", 2)]

/-- Digits in a base. -/
def DigitsIn (base : Nat) (w : Bytes) : Prop := ∀ c ∈ w, ∃ v, digitVal c = some v ∧ v < base

/-- The parts of decimal numbers. -/
def decimals : Numerals where
  decor := [b!"+", b!"-"]
  exps := [b!"e+", b!"e-", b!"e", b!"E+", b!"E-", b!"E"]

/-- A number. -/
inductive Number : Bytes → Prop where
  | special {w} (h : w ∈ specials) : Number w
  | prefixed {pre base ds} (h : (pre, base) ∈ prefixes) (ne : ds ≠ []) (hd : DigitsIn base ds) :
      Number (pre ++ ds)
  | sexagesimal {a b} (ha : DigitsIn 10 a) (hb : DigitsIn 10 b) (na : a ≠ []) (nb : b ≠ []) :
      Number (a ++ b!":" ++ b)
  | sexagesimal3 {a b c} (ha : DigitsIn 10 a) (hb : DigitsIn 10 b) (hc : DigitsIn 10 c) (na : a ≠ [])
      (nb : b ≠ []) : Number (a ++ b!":" ++ b ++ b!":" ++ c)
  /-- the integer part, the fraction and the exponent may be missing, even all of them after a sign -/
  | decimal {p} (h : decimals.Parts p) (ne : p.text ≠ []) (e : p.expSep ≠ [] → p.expDigits ≠ []) :
      Number p.text

/-- A number from which digits are missing. -/
inductive BadNumber : Bytes → Prop where
  | prefix {pre base} (h : (pre, base) ∈ prefixes) : BadNumber pre
  | exponent {p} (h : decimals.Parts p) (s : p.expSep ≠ []) (d : p.expDigits = []) : BadNumber p.text

/-- A number can end here. -/
inductive NumberStops : Bytes → Prop where
  | nil : NumberStops []
  | char {c t} (h : c ∈ b!"\r\n,[]{}#") : NumberStops (c :: t)
  | colon {t} (h : Separates t) : NumberStops (c!":" :: t)
  | space {d t} (h : d ∈ b!"#,[]{}") : NumberStops (c!" " :: d :: t)

/-- A string without quotation marks ends here; `past` says that it is not empty. -/
inductive PlainStops : Bool → Bytes → Prop where
  | nil {past} : PlainStops past []
  | char {past c t} (h : c ∈ b!"\r\n,[]{}#") : PlainStops past (c :: t)
  | comment {t} : PlainStops true (c!" " :: c!"#" :: t)
  | colon {t} (h : Separates t) : PlainStops true (c!":" :: t)

/-- The first `n` bytes of `s` are a string without quotation marks: there is no word with a meaning at
the beginning, and `n` is the first place where the string can end. -/
structure Plain (s : Bytes) (n : Nat) : Prop where
  tilde : s.head? ≠ some c!"~"
  word : ∀ w ∈ words, ∀ t, s = w.1 ++ t → ¬ WordStops t
  inside : ∀ k, k < n → ¬ PlainStops (decide (0 < k)) (s.drop k)
  stops : PlainStops true (s.drop n)

/-! ## Quotation marks -/

/-- Text between double quotation marks. -/
inductive DoubleText : Bytes → Prop where
  | nil : DoubleText []
  | char {c v} (h : c ∉ b!"\"\\") (hv : DoubleText v) : DoubleText (c :: v)
  | escape {c v} (hv : DoubleText v) : DoubleText (c!"\\" :: c :: v)

/-- Text between single quotation marks. -/
inductive SingleText : Bytes → Prop where
  | nil : SingleText []
  | char {c v} (h : c ≠ c!"'") (hv : SingleText v) : SingleText (c :: v)
  | quote {v} (hv : SingleText v) : SingleText (c!"'" :: c!"'" :: v)

/-- The first `n` bytes of `s` are a key in quotation marks; the closing mark may be missing. -/
inductive QuotedKey : Bytes → Nat → Prop where
  | double {v t} (h : DoubleText v) : QuotedKey (b!"\"" ++ v ++ b!"\"" ++ t) (v.length + 2)
  | single {v t} (h : SingleText v) (ht : t.head? ≠ some c!"'") :
      QuotedKey (b!"'" ++ v ++ b!"'" ++ t) (v.length + 2)
  | openDouble {v w} (h : DoubleText v) (hw : w ∈ [b!"", b!"\\"]) :
      QuotedKey (b!"\"" ++ v ++ w) (v.length + w.length + 1)
  | openSingle {v} (h : SingleText v) : QuotedKey (b!"'" ++ v) (v.length + 1)

/-- Escape sequences. -/
def escapes : EscapeForms :=
  [(b!"0abefnrtv\"/\\_NLP \t", .simple), (b!"x", .after .hex_2), (b!"u", .after .hex_4),
    (b!"U", .after .hex_8), (b!"\r\n", .own .lf_cr_crlf)]

/-- The length of what is highlighted in the place of an escape sequence that is malformed: the backslash if
nothing else is known, and as many characters as there should be digits after `x`, `u` or `U`. -/
def BadLength (s : Bytes) (n : Nat) : Prop :=
  n = 1 ∨ ∃ c k, (c, k) ∈ [(c!"x", 2), (c!"u", 4), (c!"U", 8)] ∧ s[1]? = some c ∧ n = min s.length (k + 2)

/-- A part of the text between double quotation marks. -/
inductive DoublePart : Bytes → Prop where
  | nil : DoublePart []
  | char {v c} (hv : DoublePart v) (h : c ≠ c!"\"") : DoublePart (v ++ [c])
  | escape {v s n} (hv : DoublePart v) (h : escapes.Good s n) : DoublePart (v ++ s.take n)
  | badEscape {v s n} (hv : DoublePart v) (h : escapes.Bad s) (hn : BadLength s n) : DoublePart (v ++ s.take n)

/-- Inside double quotation marks. -/
def InDouble (p : Bytes) : Prop := ∃ u v, p = u ++ b!"\"" ++ v ∧ DoublePart v

/-- Inside single quotation marks. -/
def InSingle (p : Bytes) : Prop := ∃ u v, p = u ++ b!"'" ++ v ∧ SingleText v

/-! ## Keys -/

/-- `KeyText t q v`: the text `v` followed by a colon and `t`, from inside quotation marks `q` or outside
of them, is outside of quotation marks at the end, has no other colon that has a meaning, and has no comment
or line break. -/
inductive KeyText (t : Bytes) : Option UInt8 → Bytes → Prop where
  | done : KeyText t none []
  | plain {c v} (h : InLine c) (hc : c ∉ b!"\"'#") (hs : c = c!":" → ¬ Separates (v ++ b!":" ++ t))
      (hv : KeyText t none v) : KeyText t none (c :: v)
  | enter {q v} (h : q ∈ b!"\"'") (hv : KeyText t (some q) v) : KeyText t none (q :: v)
  | leave {q v} (hv : KeyText t none v) : KeyText t (some q) (q :: v)
  | inner {q c v} (h : InLine c) (hc : c ≠ q) (he : ¬ (c = c!"\\" ∧ q = c!"\"")) (hv : KeyText t (some q) v) :
      KeyText t (some q) (c :: v)
  | escape {c v} (hv : KeyText t (some c!"\"") v) : KeyText t (some c!"\"") (c!"\\" :: c :: v)

/-! ## Context -/

/-- In the line of a directive. -/
def InDirective (p : Bytes) : Prop := ∃ u v, p = u ++ b!"%" ++ v ∧ OneLine v

/-- In a tag in angle brackets. -/
def InVerbatim (p : Bytes) : Prop := ∃ u v, p = u ++ b!"!<" ++ v ∧ ∀ c ∈ v, c ∉ b!">\r\n"

/-- In a tag. -/
def InTag (p : Bytes) : Prop := ∃ u v, p = u ++ b!"!" ++ v ∧ ∀ c ∈ v, ¬ WordEnd c

/-- In the text of a block scalar: its mark is in a line above, and there are only spaces before this
place in its line. -/
def InBlock (p : Bytes) : Prop :=
  ∃ u c v e k, p = u ++ [c] ++ v ++ [e] ++ List.replicate k c!" " ∧ c ∈ b!"|>" ∧ e ∈ b!"\r\n"

/-- After the mark of a block scalar. -/
def AfterMark (p : Bytes) : Prop := ∃ u c, p = u ++ [c] ∧ c ∈ b!"|>"

/-- `Tok p s n ty`: after the text `p`, the first `n` bytes of `s` have the highlighting `ty`. -/
inductive Tok : Bytes → Bytes → Nat → HT → Prop where
  | marker {p s n} (h : s.take n ∈ [b!"---", b!"..."]) : Tok p s n .symbol_punc
  | directiveMark {p s n} (h : s.take n = b!"%") : Tok p s n .name_macro_delim
  | directiveName {u s n} (h : Longest (fun c => InLine c ∧ ¬ Blank c) s n) :
      Tok (u ++ b!"%") s n .name_macro
  | parameter {p s n c} (d : InDirective p) (h : s.take n = [c]) (hc : InLine c ∧ ¬ Blank c) : Tok p s n .string
  | commentMark {p s n} (h : s.take n = b!"#") : Tok p s n .comment_delim
  | commentText {u s n} (h : Longest InLine s n) : Tok (u ++ b!"#") s n .comment
  | dash {p s} (h : s.take 2 = b!"- ") : Tok p s 1 .symbol_punc
  | punctuation {p s n} (h : s.take n ∈ [b!"?", b!",", b!":"]) : Tok p s n .symbol_punc
  /-- the first space between a key and its colon -/
  | space {p c w t} (h : ∀ d ∈ c :: w, Blank d) (ht : Separates t) :
      Tok p (c :: w ++ b!":" ++ t) 1 .symbol_punc
  | key {p v w t} (h : KeyText t none (v ++ w)) (hw : ∀ d ∈ w, Blank d) (hv : ∀ d, v.getLast? = some d → ¬ Blank d)
      (ht : Separates t) : Tok p (v ++ w ++ b!":" ++ t) v.length .markup_attr
  | quotedKey {p s n} (h : QuotedKey s n) : Tok p s n .markup_attr
  | plainKey {p s n} (h : Plain s n) : Tok p s n .markup_attr
  | plain {p s n} (h : Plain s n) : Tok p s n .string
  | tilde {p s n} (h : s.take n = b!"~") : Tok p s n .null
  | word {p w ty t} (h : (w, ty) ∈ words) (ht : WordStops t) : Tok p (w ++ t) w.length ty
  | number {p w t} (h : Number w) (ht : NumberStops t) : Tok p (w ++ t) w.length .number
  | badNumber {p w t} (h : BadNumber w) (ht : NumberStops t) : Tok p (w ++ t) w.length .error
  | openSquare {p s n} (h : s.take n = b!"[") : Tok p s n .symbol_square
  | closeSquare {p s n} (h : s.take n = b!"]") (o : c!"[" ∈ p) : Tok p s n .symbol_square
  | openBrace {p s n} (h : s.take n = b!"{") : Tok p s n .symbol_brace
  | closeBrace {p s n} (h : s.take n = b!"}") (o : c!"{" ∈ p) : Tok p s n .symbol_brace
  | wrongBrace {p s n} (h : s.take n = b!"}") (o : c!"[" ∈ p) : Tok p s n .error
  | wrongSquare {p s n} (h : s.take n = b!"]") (o : c!"{" ∈ p) : Tok p s n .error
  | quote {p s n} (h : s.take n ∈ [b!"\"", b!"'"]) : Tok p s n .string_delim
  | doubleText {p s n} (i : InDouble p) (h : Longest (fun c => c ∉ b!"\"\\\r\n") s n) : Tok p s n .string
  | singleText {p v t} (i : InSingle p) (h : SingleText v) (hv : OneLine v)
      (ht : t = [] ∨ (∃ c u, t = c :: u ∧ c ∈ b!"\r\n") ∨ ∃ u, t = b!"'" ++ u ∧ u.head? ≠ some c!"'") :
      Tok p (v ++ t) v.length .string
  | escape {p s n} (i : InDouble p) (h : escapes.Good s n) : Tok p s n .string_escape
  | badEscape {p s n} (i : InDouble p) (h : escapes.Bad s) (hn : BadLength s n) : Tok p s n .error
  | tagMark {p s n} (h : s.take n ∈ [b!"!", b!"!!", b!"!<"]) : Tok p s n .name_attr_delim
  | tagEnd {p s n} (i : InVerbatim p) (h : s.take n = b!">") : Tok p s n .name_attr_delim
  | verbatim {p s n c} (i : InVerbatim p) (h : s.take n = [c]) (hc : c ∉ b!">\r\n") : Tok p s n .name_attr
  | handle {u s n} (h : Longest HandleChar s n) (e : s[n]? = some c!"!") : Tok (u ++ b!"!") s n .name_attr
  | suffix {p s n c} (i : InTag p) (h : s.take n = [c]) (hc : ¬ WordEnd c) : Tok p s n .name_attr
  | reference {p s n} (h : s.take n ∈ [b!"&", b!"*"]) : Tok p s n .name_attr_delim
  | name {u c s n} (hc : c ∈ b!"&*") (h : Longest (fun c => ¬ WordEnd c) s n) : Tok (u ++ [c]) s n .name
  | blockMark {p s n} (h : s.take n ∈ [b!"|", b!">"]) : Tok p s n .string_delim
  | chomping {p s n} (a : AfterMark p) (h : s.take n ∈ [b!"+", b!"-"]) : Tok p s n .number_decor
  | indentation {p w s n c} (a : AfterMark p) (hw : w ∈ [b!"", b!"+", b!"-"]) (h : s.take n = [c])
      (hc : DecDigit c ∧ c ≠ c!"0") : Tok (p ++ w) s n .number_decor
  | blockText {p s n} (i : InBlock p) (h : Longest InLine s n) : Tok p s n .string

/-- `Gap s n`: the first `n` bytes of `s` are not highlighted. -/
inductive Gap : Bytes → Nat → Prop where
  | white {s n} (h : ∀ c ∈ s.take n, White c) : Gap s n
  /-- the rest of a line -/
  | rest {s n} (h : Longest InLine s n) : Gap s n

/-- The rules for a source text. -/
def rules (src : Bytes) : Rules where
  tok s n ty := Tok (src.take (src.length - s.length)) s n ty
  gap s n := Gap s n

/-- The number of dashes and colons that may begin a list entry or end a key. -/
def marks : Bytes → Nat
  | [] => 0
  | c :: t =>
    (if (c = c!"-" ∧ t.head? = some c!" ") ∨ (c = c!":" ∧ t.head?.all (b!" \r\n").contains) then 1 else 0) + marks t

end Ulight.Spec.Yaml
