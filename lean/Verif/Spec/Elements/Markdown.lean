import Verif.Spec.Program
import Verif.Spec.Lang.Markdown

/-!
# The lines of Markdown

The elements of a document are its lines.  The state says whether a line is in a code block or in a
comment.
-/

namespace Ulight.Spec.Markdown

/-- What the lines before have begun. -/
inductive Mode where
  | text
  /-- a code block that begins with `n` characters `c` -/
  | code (c : UInt8) (n : Nat)
  | comment

/-- The mode after text; `opened` says that a comment has begun in it and has not ended. -/
def Mode.after (opened : Bool) : Mode := if opened then .comment else .text

/-- `n` times the same character. -/
abbrev copies (n : Nat) (c : UInt8) : Bytes := List.replicate n c

/-! ## Text with markup -/

/-- `n` characters `c` after the character `p` and before the text `t` end an emphasis. -/
structure Ender (c : UInt8) (n k : Nat) (p : UInt8) (t : Bytes) : Prop where
  same : k = n
  before : ¬ White p
  word : c = c!"_" → ∀ d, t.head? = some d → ¬ Alnum d

/-- In the text `v ++ t` after the character `p`, `t` begins with the first `n` characters `c` that end an emphasis.
Those in code do not count. -/
inductive UpTo (c : UInt8) (n : Nat) : UInt8 → Bytes → Bytes → Prop where
  | here {p t} (h : Ender c n n p t) (ht : t.head? ≠ some c) : UpTo c n p [] (copies n c ++ t)
  | code {p k w v t} (h : Span k w (v ++ t)) (rest : UpTo c n c!"`" v t) :
      UpTo c n p (copies k c!"`" ++ w ++ copies k c!"`" ++ v) t
  | run {p k v t} (hk : 0 < k) (ht : (v ++ t).head? ≠ some c) (h : ¬ Ender c n k p (v ++ t)) (rest : UpTo c n c v t) :
      UpTo c n p (copies k c ++ v) t
  | other {p d v t} (hc : d ≠ c) (ht : d ≠ c!"`") (rest : UpTo c n d v t) : UpTo c n p (d :: v) t

/-- Emphasis of `v` by `n` characters `c`, between the character `p` and the text `t`. -/
structure Emphasized (c : UInt8) (n : Nat) (p : UInt8) (v t : Bytes) : Prop where
  mark : c ∈ b!"*_"
  few : 1 ≤ n ∧ n ≤ 3
  nonempty : v ≠ []
  head : ∀ d, v.head? = some d → d ≠ c ∧ ¬ White d
  next : t.head? ≠ some c
  word : c = c!"_" → ¬ Alnum p
  first : UpTo c n c v (copies n c ++ t)

/-- What comes next is not what its first character suggests. -/
structure Nothing (p : UInt8) (s : Bytes) : Prop where
  code : ∀ n v t, s = copies n c!"`" ++ v ++ copies n c!"`" ++ t → ¬ Span n v t
  comment : ¬ Html.Comment s
  autolink : ∀ v t, s = b!"<" ++ v ++ b!">" ++ t → ¬ Autolink v
  escape : ∀ c t, s = c!"\\" :: c :: t → ¬ Punctuation c
  reference : ∀ v t, s = v ++ t → ¬ Reference v
  image : ∀ text url title t, s = b!"![" ++ text ++ linkEnd url title t → ¬ Link text url title
  link : ∀ text url title t, s = b!"[" ++ text ++ linkEnd url title t → ¬ Link text url title
  emphasis : ∀ c n v t, s = copies n c ++ v ++ copies n c ++ t → ¬ Emphasized c n p v t

/-- After the character `p`, the text `a` in a line has the tokens `ts`.  `opened` says that a comment begins in it that does
not end in it.  `heading` says that it is the text of a heading. -/
inductive Inline : (heading : Bool) → (p : UInt8) → (a : Bytes) → (ts : List Token) → (opened : Bool) → Prop where
  | nil {h p} : Inline h p [] [] false
  | plain {h p q v a ts o} (hq : v.getLast? = some q) (hv : ∀ c ∈ v, ¬ Special c) (ha : ∀ c, a.head? = some c → Special c)
      (rest : Inline h q a ts o) :
      Inline h p (v ++ a) ((if h then [⟨0, v.length, .text_heading⟩] else []) ++ shift v.length ts) o
  | code {h p n v a ts o} (s : Span n v a) (rest : Inline h c!"`" a ts o) :
      Inline h p (copies n c!"`" ++ v ++ copies n c!"`" ++ a)
        ([⟨0, n, .string_delim⟩, ⟨n, v.length, .text_code⟩, ⟨n + v.length, n, .string_delim⟩] ++ shift (n + v.length + n) ts) o
  | comment {h p t a ts o} (c : Html.CommentText (t ++ b!"-->" ++ a) t.length) (h1 : ¬ b!">" <+: t ++ b!"-->" ++ a)
      (h2 : ¬ b!"->" <+: t ++ b!"-->" ++ a) (rest : Inline h c!">" a ts o) :
      Inline h p (b!"<!--" ++ t ++ b!"-->" ++ a)
        ([⟨0, 4, .comment_delim⟩] ++ opt 4 t .comment ++ [⟨4 + t.length, 3, .comment_delim⟩] ++ shift (4 + t.length + 3) ts) o
  | openComment {h p t} (ht : t ≠ []) (c : Html.CommentText t t.length) (h1 : ¬ b!">" <+: t) (h2 : ¬ b!"->" <+: t) :
      Inline h p (b!"<!--" ++ t) [⟨0, 4, .comment_delim⟩, ⟨4, t.length, .comment⟩] true
  | autolink {h p v a ts o} (l : Autolink v) (c : ¬ Html.Comment (b!"<" ++ v ++ b!">" ++ a)) (rest : Inline h c!">" a ts o) :
      Inline h p (b!"<" ++ v ++ b!">" ++ a)
        ([⟨0, 1, .symbol_formatting⟩, ⟨1, v.length, .text_link⟩, ⟨1 + v.length, 1, .symbol_formatting⟩] ++
          shift (1 + v.length + 1) ts) o
  | escape {h p c a ts o} (hc : Punctuation c) (rest : Inline h c a ts o) :
      Inline h p (c!"\\" :: c :: a) ([⟨0, 2, .string_escape⟩] ++ shift 2 ts) o
  | reference {h p v a ts o} (r : Reference v) (rest : Inline h c!";" a ts o) :
      Inline h p (v ++ a) ([⟨0, v.length, .string_escape⟩] ++ shift v.length ts) o
  | image {h p text url title a ts o} (l : Link text url title) (rest : Inline h c!")" a ts o) :
      Inline h p (b!"![" ++ text ++ linkEnd url title a)
        ([⟨0, 2, .symbol_formatting⟩, ⟨2 + text.length, 2, .symbol_formatting⟩] ++ opt (2 + text.length + 2) url .text_link ++
          [⟨2 + text.length + 2 + url.length + title.length, 1, .symbol_formatting⟩] ++
          shift (2 + text.length + 2 + url.length + title.length + 1) ts) o
  | link {h p text url title a us o' ts o} (l : Link text url title) (inner : Inline false 0 text us o')
      (rest : Inline h c!")" a ts o) :
      Inline h p (b!"[" ++ text ++ linkEnd url title a)
        ([⟨0, 1, .symbol_formatting⟩] ++ shift 1 us ++ [⟨1 + text.length, 2, .symbol_formatting⟩] ++
          opt (1 + text.length + 2) url .text_link ++
          [⟨1 + text.length + 2 + url.length + title.length, 1, .symbol_formatting⟩] ++
          shift (1 + text.length + 2 + url.length + title.length + 1) ts) (o' || o)
  | emphasis {h p c n v a us o' ts o} (e : Emphasized c n p v a) (inner : Inline false c v us o') (rest : Inline h c a ts o) :
      Inline h p (copies n c ++ v ++ copies n c ++ a)
        ([⟨0, n, .symbol_formatting⟩] ++ shift n us ++ [⟨n + v.length, n, .symbol_formatting⟩] ++ shift (n + v.length + n) ts)
        (o' || o)
  | stray {h p c a ts o} (hc : Special c) (n : Nothing p (c :: a)) (rest : Inline h c a ts o) : Inline h p (c :: a) (shift 1 ts) o

/-! ## Blocks -/

/-- The rest of the line of a heading: the text, and what follows it. -/
inductive HeadingText : Bytes → Bytes → Prop where
  | plain {v k} (hv : v.getLast? ≠ some c!" ")
      (h : ∀ u j, v = u ++ copies j c!"#" → 0 < j → u ≠ [] ∧ u.getLast? ≠ some c!" ") : HeadingText v (spaces k)
  | closed {v i j k} (hv : v.getLast? ≠ some c!" ") (hi : v = [] ∨ 0 < i) (hj : 0 < j) :
      HeadingText v (spaces i ++ copies j c!"#" ++ spaces k)

/-- The mark of an item in a list. -/
inductive Marker : Bytes → Prop where
  | bullet {c} (h : c ∈ b!"-+*") : Marker [c]
  | number {v x} (hv : ∀ c ∈ v, DecDigit c) (len : 1 ≤ v.length ∧ v.length ≤ 9) (hx : x ∈ b!".)") : Marker (v ++ [x])

/-- The line is a heading. -/
def IsHeading (s : Bytes) : Prop :=
  ∃ k n t, k ≤ 3 ∧ 1 ≤ n ∧ n ≤ 6 ∧ s = spaces k ++ copies n c!"#" ++ t ∧ ∀ c, t.head? = some c → Blank c

/-- The line separates parts of the document. -/
def IsBreak (s : Bytes) : Prop :=
  ∃ k c t, k ≤ 3 ∧ c ∈ b!"*-_=" ∧ s = spaces k ++ c :: t ∧ (∀ d ∈ t, d = c ∨ Blank d) ∧ 3 ≤ (c :: t).count c

/-- The line begins a code block. -/
def IsFence (s : Bytes) : Prop := ∃ k n c t, k ≤ 3 ∧ s = spaces k ++ copies n c ++ t ∧ Info c n t

/-- The line begins an item of a list. -/
def IsItem (s : Bytes) : Prop := ∃ k m c t, Marker m ∧ Blank c ∧ s = spaces k ++ m ++ c :: t

/-- The line is in a block quote. -/
def IsQuote (s : Bytes) : Prop := ∃ k t, k ≤ 3 ∧ s = spaces k ++ c!">" :: t

/-- The line is indented code. -/
def IsIndented (s : Bytes) : Prop := b!"\t" <+: s ∨ b!"    " <+: s

/-- There is more than whitespace. -/
def Visible (s : Bytes) : Prop := ∃ c ∈ s, ¬ White c

/-- The line, or the part of a line after the mark of a block quote (if `quote`), has the tokens `ts`, and `m` is the mode after
it. -/
inductive Block : (quote : Bool) → Bytes → List Token → (m : Mode) → Prop where
  | blank {s} (h : ¬ Visible s) : Block false s [] .text
  | nothing : Block true [] [] .text
  | emptyHeading {q k n} (hk : k ≤ 3) (hn : 1 ≤ n ∧ n ≤ 6) :
      Block q (spaces k ++ copies n c!"#") [⟨k, n, .symbol_formatting⟩] .text
  | heading {q k n c v t ts o} (hk : k ≤ 3) (hn : 1 ≤ n ∧ n ≤ 6) (hc : Blank c) (h : HeadingText v t) (i : Inline true 0 v ts o) :
      Block q (spaces k ++ copies n c!"#" ++ c :: (v ++ t)) ([⟨k, n, .symbol_formatting⟩] ++ shift (k + n + 1) ts) (.after o)
  | break_ {q k c t} (hk : k ≤ 3) (hc : c ∈ b!"*-_=") (h : ∀ d ∈ t, d = c ∨ Blank d) (three : 3 ≤ (c :: t).count c) :
      Block q (spaces k ++ c :: t) [⟨k, t.length + 1, .symbol_formatting⟩] .text
  | fence {k n c t} (hk : k ≤ 3) (h : Info c n t) : Block false (spaces k ++ copies n c ++ t) [⟨k, n, .string_delim⟩] (.code c n)
  | item {q k m c a ts o} (h : Marker m) (hc : Blank c) (b : ¬ IsBreak (spaces k ++ m ++ c :: a)) (i : Inline false 0 a ts o) :
      Block q (spaces k ++ m ++ c :: a) ([⟨k, m.length, .symbol_formatting⟩] ++ shift (k + m.length + 1) ts) (.after o)
  | quote {q k t a ts m} (hk : k ≤ 3) (ht : t ∈ [[], b!" ", b!"\t"]) (h : t = [] → ∀ c, a.head? = some c → ¬ Blank c)
      (b : Block true a ts m) :
      Block q (spaces k ++ b!">" ++ t ++ a) ([⟨k, 1, .symbol_formatting⟩] ++ shift (k + 1 + t.length) ts) m
  | indented {q i a} (hi : i ∈ [b!"\t", b!"    "]) (v : q = false → Visible a) (h : ¬ IsItem (i ++ a)) :
      Block q (i ++ a) (opt i.length a .text_code) .text
  | text {q a ts o} (h0 : a ≠ []) (v : q = false → Visible a ∧ ¬ IsFence a) (h1 : ¬ IsHeading a) (h2 : ¬ IsBreak a)
      (h3 : ¬ IsItem a) (h4 : ¬ IsQuote a) (h5 : ¬ IsIndented a) (i : Inline false 0 a ts o) : Block q a ts (.after o)

/-- A line that ends a code block that begins with `m` characters `c`. -/
def IsClosing (c : UInt8) (m : Nat) (s : Bytes) : Prop :=
  ∃ k n t, k ≤ 3 ∧ m ≤ n ∧ s = spaces k ++ copies n c ++ t ∧ ∀ d ∈ t, Blank d

/-- A line in the mode `x`, its tokens, the text after it, and the mode after it. -/
inductive Line : Mode → Bytes → List Token → Bytes → Mode → Prop where
  | block {v e b ts m} (l : FirstLine (v ++ e ++ b) v e b) (ne : v ++ e ≠ []) (h : Block false v ts m) : Line .text (v ++ e) ts b m
  | close {c m k n t e b} (l : FirstLine (spaces k ++ copies n c ++ t ++ e ++ b) (spaces k ++ copies n c ++ t) e b)
      (hk : k ≤ 3) (hn : m ≤ n) (ht : ∀ d ∈ t, Blank d) :
      Line (.code c m) (spaces k ++ copies n c ++ t ++ e) [⟨k, n, .string_delim⟩] b .text
  | code {c m v e b} (l : FirstLine (v ++ e ++ b) v e b) (ne : v ++ e ≠ []) (h : ¬ IsClosing c m v) :
      Line (.code c m) (v ++ e) (opt 0 v .text_code) b (.code c m)
  | comment {v e b} (l : FirstLine (v ++ e ++ b) v e b) (ne : v ++ e ≠ []) (h : ∀ k, ¬ OccursAt b!"-->" v k) :
      Line .comment (v ++ e) (opt 0 v .comment) b .comment
  | endComment {u a e b ts o} (l : FirstLine (u ++ b!"-->" ++ a ++ e ++ b) (u ++ b!"-->" ++ a) e b)
      (first : ∀ k, OccursAt b!"-->" (u ++ b!"-->" ++ a) k → u.length ≤ k) (i : Inline false c!">" a ts o) :
      Line .comment (u ++ b!"-->" ++ a ++ e)
        (opt 0 u .comment ++ [⟨u.length, 3, .comment_delim⟩] ++ shift (u.length + 3) ts) b (.after o)

end Ulight.Spec.Markdown
