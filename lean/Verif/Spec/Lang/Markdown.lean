import Verif.Spec.Lang.Common
import Verif.Spec.Lang.Html

/-!
# Specification of Markdown highlighting

What a piece of Markdown is depends on the text before it, so the rules speak about the text before
a token (`p`) and the text from the token on (`s`).
-/

namespace Ulight.Spec.Markdown

/-- Whitespace. -/
def White (c : UInt8) : Prop := c ∈ b!" \t\r\n"

/-- A space or a tab. -/
def Blank (c : UInt8) : Prop := c ∈ b!" \t"

/-- ASCII punctuation, which can be escaped. -/
def Punctuation (c : UInt8) : Prop := c ∈ b!"!\"#$%&'()*+,-./:;<=>?@[\\]^_`{|}~"

/-- Characters with a meaning in the text. -/
def Special (c : UInt8) : Prop := c ∈ b!"`<\\&![*_"

/-- An ASCII letter or digit. -/
def Alnum (c : UInt8) : Prop := Letter c ∨ DecDigit c

/-- The part of a text after its last line break. -/
def lineOf (p : Bytes) : Bytes := (p.reverse.takeWhile fun c => c != 0x0A && c != 0x0D).reverse

/-- The text is within a line. -/
def OneLine (v : Bytes) : Prop := ∀ c ∈ v, InLine c

/-- The line ends here. -/
def Eol (t : Bytes) : Prop := ∀ c, t.head? = some c → ¬ InLine c

/-- A line break. -/
def Terminator (e : Bytes) : Prop := e ∈ [b!"\n", b!"\r\n", b!"\r"]

def spaces (n : Nat) : Bytes := List.replicate n c!" "

/-! ## Blocks -/

/-- The beginning of a line in a block quote, such as `> >`, after which something else can begin. -/
inductive Quotes : Bytes → Prop where
  | nil : Quotes []
  | quote {w t k} (h : Quotes w) (hk : k ≤ 3) (ht : t ∈ [[], b!" ", b!"\t"]) :
      Quotes (w ++ spaces k ++ b!">" ++ t)

/-- The line so far is the beginning of a line in a block quote, possibly an empty one, and `k`
spaces. -/
def Begins (p : Bytes) (k : Nat) : Prop := ∃ w, Quotes w ∧ lineOf p = w ++ spaces k

/-- The line so far begins with the mark of a heading. -/
def InHeading (p : Bytes) : Prop :=
  ∃ w k n c v, Quotes w ∧ k ≤ 3 ∧ 1 ≤ n ∧ n ≤ 6 ∧ Blank c ∧
    lineOf p = w ++ spaces k ++ List.replicate n c!"#" ++ c :: v

/-- What can follow `n` characters `c` that open a code block, in the same line. -/
structure Info (c : UInt8) (n : Nat) (t : Bytes) : Prop where
  fence : c ∈ b!"`~"
  long : 3 ≤ n
  whole : t.head? ≠ some c
  ticks : c = c!"`" → c!"`" ∉ t
  line : OneLine t

/-- A line that begins like this closes a code block: its indentation, the number of characters, and
the rest of the line. -/
structure Closes (c : UInt8) (m : Nat) (k n : Nat) (b t : Bytes) : Prop where
  lead : k ≤ 3
  long : m ≤ n
  blank : ∀ x ∈ b, Blank x
  eol : Eol t

/-- A text that ends, with a line break, in a code block that begins with `m` characters `c`. -/
inductive Fenced (c : UInt8) (m : Nat) : Bytes → Prop where
  | open_ {u k t e} (hu : lineOf u = []) (hk : k ≤ 3) (h : Info c m t) (he : Terminator e) :
      Fenced c m (u ++ spaces k ++ List.replicate m c ++ t ++ e)
  | line {p l e} (h : Fenced c m p) (hl : OneLine l) (he : Terminator e)
      (not : ∀ k n b t, Closes c m k n b t → l ≠ spaces k ++ List.replicate n c ++ b ++ t) :
      Fenced c m (p ++ l ++ e)

/-! ## Text -/

/-- Where text with markup can end: before the end of a construct, or at the end of a line, with the
optional `#` at the end of a heading. -/
def ends (t : Bytes) : Bool :=
  t.head?.any b!"]*_".elem ||
  ((((t.dropWhile (· == c!" ")).dropWhile (· == c!"#")).dropWhile (· == c!" ")).head?).all
    fun c => c == 0x0A || c == 0x0D

/-- Code between `n` backticks each. -/
structure Span (n : Nat) (v t : Bytes) : Prop where
  pos : 0 < n
  /-- the text is a part of a line that neither begins nor ends with a backtick -/
  nonempty : v ≠ []
  head : v.head? ≠ some c!"`"
  last : v.getLast? ≠ some c!"`"
  next : t.head? ≠ some c!"`"
  /-- there are not exactly `n` backticks in between -/
  inner : ∀ a b, v = a ++ List.replicate n c!"`" ++ b → a.getLast? = some c!"`" ∨ b.head? = some c!"`"
  line : OneLine v

/-- What is between `<` and `>` in a link. -/
structure Autolink (v : Bytes) : Prop where
  chars : ∀ c ∈ v, c ∉ b!"<>" ∧ ¬ White c
  mark : c!":" ∈ v ∨ c!"@" ∈ v

/-- A reference to a character, by its name or by a number. -/
inductive Reference : Bytes → Prop where
  | name {v} (h : v ≠ []) (hv : ∀ c ∈ v, Alnum c) : Reference (b!"&" ++ v ++ b!";")
  | dec {v} (h : v ≠ []) (hv : ∀ c ∈ v, DecDigit c) : Reference (b!"&#" ++ v ++ b!";")
  | hex {x v} (hx : x ∈ b!"xX") (h : v ≠ []) (hv : ∀ c ∈ v, c ∈ b!"0123456789abcdefABCDEF") :
      Reference (b!"&#" ++ x :: v ++ b!";")

/-- After `d` opening brackets, all of them are closed in this text, as well as those in it. -/
inductive Brackets : Nat → Bytes → Prop where
  | nil : Brackets 0 []
  | plain {d c v} (hc : c ∉ b!"\\[]") (h : Brackets d v) : Brackets d (c :: v)
  | escape {d c v} (h : Brackets d v) : Brackets d (c!"\\" :: c :: v)
  | open_ {d v} (h : Brackets (d + 1) v) : Brackets d (c!"[" :: v)
  | close {d v} (h : Brackets d v) : Brackets (d + 1) (c!"]" :: v)

/-- Text without whitespace and without a closing parenthesis, except after a backslash. -/
inductive UrlText : Bytes → Prop where
  | nil : UrlText []
  | plain {c v} (hc : c ≠ c!")" ∧ c ≠ c!"\\" ∧ ¬ White c) (h : UrlText v) : UrlText (c :: v)
  | escape {c v} (h : UrlText v) : UrlText (c!"\\" :: c :: v)

/-- The URL of a link before the text `t`. -/
inductive Url : Bytes → Bytes → Prop where
  | angle {v t} (hv : ∀ c ∈ v, c ∉ b!"<>\n") : Url (b!"<" ++ v ++ b!">") t
  | half {v t} (hv : ∀ c ∈ v, c ∉ b!"<>\n") (ht : ∀ c, t.head? = some c → c ∈ b!"<\n") : Url (b!"<" ++ v) t
  | plain {v t} (hv : UrlText v) (hh : v.head? ≠ some c!"<")
      (ht : ∀ c, t.head? = some c → c = c!")" ∨ White c) : Url v t

/-- The parts of a link: its text, its URL, and what follows the URL. -/
structure Link (text url title : Bytes) : Prop where
  brackets : Brackets 0 text
  dest : Url url (title ++ b!")")
  noParen : c!")" ∉ title
  line : OneLine (text ++ url ++ title)

/-- What is between the text of a link and the text after it. -/
def linkEnd (url title t : Bytes) : Bytes := b!"](" ++ url ++ title ++ b!")" ++ t

/-- Emphasis of `v` by `n` characters `c`, between `u` and `t`. -/
structure Emphasis (c : UInt8) (n : Nat) (u v t : Bytes) : Prop where
  mark : c ∈ b!"*_"
  few : 1 ≤ n ∧ n ≤ 3
  nonempty : v ≠ []
  head : ∀ d, v.head? = some d → d ≠ c ∧ ¬ White d
  last : ∀ d, v.getLast? = some d → d ≠ c ∧ ¬ White d
  next : t.head? ≠ some c
  line : OneLine v
  /-- underscores do not begin or end emphasis within a word -/
  word : c = c!"_" → (∀ d, u.getLast? = some d → ¬ Alnum d) ∧ ∀ d, t.head? = some d → ¬ Alnum d

/-- A text that ends, with a line break, in a comment that began in an earlier line. -/
inductive InComment : Bytes → Prop where
  | open_ {u v e} (hv : OneLine v) (he : Terminator e) : InComment (u ++ b!"<!--" ++ v ++ e)
  | line {p l e} (h : InComment p) (hl : OneLine l) (no : ∀ k, ¬ OccursAt b!"-->" l k)
      (he : Terminator e) : InComment (p ++ l ++ e)

/-- The text after which comment text begins. -/
def CommentBegins (p : Bytes) : Prop := InComment p ∨ ∃ u, p = u ++ b!"<!--"

/-- What comes next, in the text until `s.drop k`, is not what its first character suggests.  (There
is nothing about `*` and `_` here.) -/
structure Stray (s : Bytes) (k : Nat) : Prop where
  region : 0 < k ∧ k ≤ s.length ∧ OneLine (s.take k) ∧ ends (s.drop k) = true
  special : ∀ c, s.head? = some c → Special c
  code : ∀ n v t, s.take k = List.replicate n c!"`" ++ v ++ List.replicate n c!"`" ++ t → ¬ Span n v t
  comment : ¬ Html.Comment (s.take k)
  autolink : ∀ v t, s.take k = b!"<" ++ v ++ b!">" ++ t → ¬ Autolink v
  escape : ∀ c t, s.take k = c!"\\" :: c :: t → ¬ Punctuation c
  reference : ∀ v t, s.take k = v ++ t → ¬ Reference v
  image : ∀ text url title t, s.take k = b!"![" ++ text ++ linkEnd url title t → ¬ Link text url title
  link : ∀ text url title t, s.take k = b!"[" ++ text ++ linkEnd url title t → ¬ Link text url title

/-! ## Tokens -/

/-- `Tok p s n ty`: after the text `p`, the first `n` bytes of `s` can be a token of type `ty`. -/
inductive Tok : Bytes → Bytes → Nat → HT → Prop where
  | heading {p s n t k} (b : Begins p k) (hk : k ≤ 3) (h : s = List.replicate n c!"#" ++ t)
      (hn : 1 ≤ n ∧ n ≤ 6) (ht : ∀ c, t.head? = some c → White c) : Tok p s n .symbol_formatting
  | headingText {p s n} (b : InHeading p) (h : ∀ c ∈ s.take n, InLine c ∧ ¬ Special c)
      (e : (∃ c, s[n]? = some c ∧ Special c) ∨ ends (s.drop n) = true) : Tok p s n .text_heading
  | break_ {p s n k c} (b : Begins p k) (hk : k ≤ 3) (l : Longest InLine s n) (hc : c ∈ b!"*-_=")
      (h : ∀ d ∈ s.take n, d = c ∨ Blank d) (first : s.head? = some c) (three : 3 ≤ (s.take n).count c) :
      Tok p s n .symbol_formatting
  | quote {p s n k} (b : Begins p k) (hk : k ≤ 3) (h : s.take n = b!">") : Tok p s n .symbol_formatting
  | bullet {p s n k c} (b : Begins p k) (h : s.take n ∈ [b!"-", b!"+", b!"*"]) (hc : s[n]? = some c)
      (bc : Blank c) : Tok p s n .symbol_formatting
  | number {p s n k v x c t} (b : Begins p k) (h : s = v ++ x :: c :: t) (hv : ∀ c ∈ v, DecDigit c)
      (len : 1 ≤ v.length ∧ v.length ≤ 9) (hx : x ∈ b!".)") (bc : Blank c) (hn : n = v.length + 1) :
      Tok p s n .symbol_formatting
  | fenceOpen {p s n k c i t} (b : lineOf p = spaces k) (hk : k ≤ 3) (h : s = List.replicate n c ++ i ++ t)
      (hi : Info c n i) (e : Eol t) : Tok p s n .string_delim
  | fenceClose {p u s n k c m b t} (f : Fenced c m u) (h : p = u ++ spaces k)
      (hs : s = List.replicate n c ++ b ++ t) (hc : Closes c m k n b t) : Tok p s n .string_delim
  | fencedCode {p s n c m} (f : Fenced c m p) (l : Longest InLine s n)
      (not : ∀ k n b t, Closes c m k n b t → s ≠ spaces k ++ List.replicate n c ++ b ++ t) :
      Tok p s n .text_code
  | indentedCode {p s n w i} (q : Quotes w) (h : lineOf p = w ++ i) (hi : i ∈ [b!"\t", b!"    "])
      (l : Longest InLine s n) : Tok p s n .text_code
  | spanOpen {p s n v t} (h : Span n v t)
      (e : s = List.replicate n c!"`" ++ v ++ List.replicate n c!"`" ++ t) : Tok p s n .string_delim
  | spanText {u p s n v t} (h : Span n v t) (hp : p = u ++ List.replicate n c!"`")
      (e : s = v ++ List.replicate n c!"`" ++ t) : Tok p s v.length .text_code
  | spanClose {u p s n v t} (h : Span n v t) (hp : p = u ++ List.replicate n c!"`" ++ v)
      (e : s = List.replicate n c!"`" ++ t) : Tok p s n .string_delim
  | linkOpen {p s v t} (h : Autolink v) (e : s = b!"<" ++ v ++ b!">" ++ t) : Tok p s 1 .symbol_formatting
  | linkText {u p s v t} (h : Autolink v) (hp : p = u ++ b!"<") (e : s = v ++ b!">" ++ t) :
      Tok p s v.length .text_link
  | linkClose {u p s v t} (h : Autolink v) (hp : p = u ++ b!"<" ++ v) (e : s = b!">" ++ t) :
      Tok p s 1 .symbol_formatting
  | commentOpen {p s n} (h : s.take n = b!"<!--") : Tok p s n .comment_delim
  | commentText {p s n} (c : CommentBegins p) (l : OneLine (s.take n))
      (first : ∀ k, OccursAt b!"-->" s k → n ≤ k)
      (e : OccursAt b!"-->" s n ∨ ends (s.drop n) = true) : Tok p s n .comment
  | commentClose {p u v s n} (c : CommentBegins u) (hp : p = u ++ v) (l : OneLine v)
      (first : ∀ k, OccursAt b!"-->" (v ++ s) k → v.length ≤ k) (h : s.take n = b!"-->") :
      Tok p s n .comment_delim
  | escape {p s n c} (h : s.take n = [c!"\\", c]) (hc : Punctuation c) : Tok p s n .string_escape
  | reference {p s n} (h : Reference (s.take n)) : Tok p s n .string_escape
  | imageBegin {p s text url title t} (h : Link text url title)
      (e : s = b!"![" ++ text ++ linkEnd url title t) : Tok p s 2 .symbol_formatting
  | linkBegin {p s text url title t} (h : Link text url title)
      (e : s = b!"[" ++ text ++ linkEnd url title t) : Tok p s 1 .symbol_formatting
  | linkMiddle {u p s text url title t} (h : Link text url title) (hp : p = u ++ b!"[" ++ text)
      (e : s = linkEnd url title t) : Tok p s 2 .symbol_formatting
  | linkUrl {u p s text url title t} (h : Link text url title) (hp : p = u ++ b!"[" ++ text ++ b!"](")
      (e : s = url ++ title ++ b!")" ++ t) : Tok p s url.length .text_link
  | linkEnd {u p s text url title t} (h : Link text url title)
      (hp : p = u ++ b!"[" ++ text ++ b!"](" ++ url ++ title) (e : s = b!")" ++ t) :
      Tok p s 1 .symbol_formatting
  | emphasisBegin {p s c n v t} (h : Emphasis c n p v t)
      (e : s = List.replicate n c ++ v ++ List.replicate n c ++ t) : Tok p s n .symbol_formatting
  | emphasisEnd {p u s c n v t} (h : Emphasis c n u v t) (hp : p = u ++ List.replicate n c ++ v)
      (e : s = List.replicate n c ++ t) : Tok p s n .symbol_formatting

/-- `Gap p s n`: after the text `p`, the first `n` bytes of `s` are not highlighted. -/
inductive Gap : Bytes → Bytes → Nat → Prop where
  | white {p s n} (h : ∀ c ∈ s.take n, White c) : Gap p s n
  /-- the rest of the line that opens a code block -/
  | info {p s n k m c i t} (b : lineOf p = spaces k ++ List.replicate m c) (hk : k ≤ 3) (h : s = i ++ t)
      (hi : Info c m i) (e : Eol t) (hn : n = i.length) : Gap p s n
  /-- the end of the line of a heading -/
  | closing {p s n i j k t} (b : InHeading p)
      (h : s = spaces i ++ List.replicate j c!"#" ++ spaces k ++ t) (e : Eol t) (hn : n = i + j + k) : Gap p s n
  /-- the text for an image -/
  | alt {p u s text url title t} (h : Link text url title) (hp : p = u ++ b!"![")
      (e : s = text ++ Spec.Markdown.linkEnd url title t) : Gap p s text.length
  /-- what follows the URL of a link -/
  | title {p u s text url title t} (h : Link text url title)
      (hp : p = u ++ b!"[" ++ text ++ b!"](" ++ url) (e : s = title ++ b!")" ++ t) : Gap p s title.length
  | plain {p s n} (h : ∀ c ∈ s.take n, InLine c ∧ ¬ Special c)
      (e : (∃ c, s[n]? = some c ∧ Special c) ∨ ends (s.drop n) = true) : Gap p s n
  | stray {p s k} (h : Stray s k) : Gap p s 1

/-- The rules for a source text. -/
def rules (src : Bytes) : Rules where
  tok s n ty := Tok (src.take (src.length - s.length)) s n ty
  gap s n := Gap (src.take (src.length - s.length)) s n

/-- Nowhere in the text does a comment begin where text with markup may end. -/
def CommentsFit (src : Bytes) : Prop := ∀ u t, src = u ++ b!"<!--" ++ t → ends t = false

end Ulight.Spec.Markdown
