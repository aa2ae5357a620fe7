import Verif.Spec.Program
import Verif.Spec.Lang.Yaml

/-!
# The elements of YAML

The state says whether a line, or the rest of an entry of a sequence, begins here, and how many keys and entries may follow:
the highlighter has space for 64 (see `C54_many_keys`).  Not described are lines that have only spaces,
and block scalars (`|` and `>`) after tags and anchors (see `C58_yaml_tagged`).
-/

namespace Ulight.Spec.Yaml

/-- Spaces. -/
abbrev spaces (k : Nat) : Bytes := List.replicate k c!" "

/-- The end of a line where the text `b` follows. -/
def Break (e b : Bytes) : Prop :=
  e = b!"\r\n" ∨ e = b!"\n" ∨ (e = b!"\r" ∧ b.head? ≠ some c!"\n") ∨ (e = [] ∧ b = [])

/-- A line ends here. -/
def LineEnd (b : Bytes) : Prop := ∀ c, b.head? = some c → ¬ InLine c

/-- Whitespace and comments, up to something else. -/
inductive Skip : Bytes → List Token → Bytes → Prop where
  | nil {b} (h : NotFirst b!" \t\r\n#" b) : Skip [] [] b
  | white {c a ts b} (h : White c) (rest : Skip a ts b) : Skip (c :: a) (shift 1 ts) b
  | comment {v a ts b} (h : OneLine v) (e : LineEnd (a ++ b)) (rest : Skip a ts b) :
      Skip (b!"#" ++ v ++ a) ([⟨0, 1, .comment_delim⟩] ++ opt 1 v .comment ++ shift (1 + v.length) ts) b

/-! ## Values -/

/-- Text without a meaning in double quotation marks. -/
def PlainDouble (v : Bytes) : Prop := ∀ c ∈ v, c ∉ b!"\"\\\r\n"

/-- The text after a double quotation mark, up to the next one. -/
inductive Double : Bytes → List Token → Bytes → Prop where
  | close {v b} (hv : PlainDouble v) : Double (v ++ b!"\"") (opt 0 v .string ++ [⟨v.length, 1, .string_delim⟩]) b
  | escape {v w a ts b} (hv : PlainDouble v) (hw : escapes.Ends w (a ++ b)) (rest : Double a ts b) :
      Double (v ++ w ++ a) (opt 0 v .string ++ [⟨v.length, w.length, .string_escape⟩] ++ shift (v.length + w.length) ts) b
  | line {v e k a ts b} (hv : PlainDouble v) (he : Break e (spaces k ++ a ++ b)) (ha : a.head? ≠ some c!" ") (rest : Double a ts b) :
      Double (v ++ e ++ spaces k ++ a) (opt 0 v .string ++ shift (v.length + e.length + k) ts) b

/-- The text after a single quotation mark, up to the next one that is not doubled. -/
inductive Single : Bytes → List Token → Bytes → Prop where
  | close {v b} (hv : SingleText v ∧ OneLine v) (hb : b.head? ≠ some c!"'") :
      Single (v ++ b!"'") (opt 0 v .string ++ [⟨v.length, 1, .string_delim⟩]) b
  | line {v e k a ts b} (hv : SingleText v ∧ OneLine v) (he : Break e (spaces k ++ a ++ b)) (ha : a.head? ≠ some c!" ")
      (rest : Single a ts b) :
      Single (v ++ e ++ spaces k ++ a) (opt 0 v .string ++ shift (v.length + e.length + k) ts) b

/-- No number with a proper end begins here. -/
def NoNumber (s : Bytes) : Prop := ∀ w t, s = w ++ t → Number w ∨ BadNumber w → ¬ NumberStops t

/-- A number; the second text is what follows it. -/
inductive Numeral : Bytes → Bytes → Prop where
  | special {w b} (h : w ∈ specials) : Numeral w b
  | prefixed {pre base ds b} (h : (pre, base) ∈ prefixes) (hd : Digits base ds) : Numeral (pre ++ ds) b
  | sexagesimal {u v b} (hu : Digits 10 u) (hv : Digits 10 v) (hb : b.head? ≠ some c!":") : Numeral (u ++ b!":" ++ v) b
  | sexagesimal3 {u v w b} (hu : Digits 10 u) (hv : Digits 10 v) (hw : Digits 10 w) : Numeral (u ++ b!":" ++ v ++ b!":" ++ w) b
  | decimal {sign i point f e d b} (hs : sign ∈ [b!"", b!"+", b!"-"]) (hi : i = [] ∨ Digits 10 i)
      (hf : point = [] ∧ f = [] ∨ point = b!"." ∧ (f = [] ∨ Digits 10 f)) (hn : i ≠ [] ∨ f ≠ [])
      (he : e = [] ∧ d = [] ∨ e ∈ [b!"e", b!"e+", b!"e-", b!"E", b!"E+", b!"E-"] ∧ Digits 10 d) :
      Numeral (sign ++ i ++ point ++ f ++ e ++ d) b

/-- A value without parts; `key` says that it is a key. -/
inductive Scalar : (key : Bool) → Bytes → List Token → Bytes → Prop where
  | tilde {key b} : Scalar key b!"~" [⟨0, 1, .null⟩] b
  | word {key w ty b} (h : (w, ty) ∈ words) (hb : WordStops b) : Scalar key w [⟨0, w.length, ty⟩] b
  | number {key w b} (h : Numeral w b) (hb : NumberStops b) : Scalar key w [⟨0, w.length, .number⟩] b
  | plain {key a b} (ne : a ≠ []) (first : NotFirst b!" \t\"'*[{|>!&" a) (h : Plain (a ++ b) a.length) (n : NoNumber (a ++ b)) :
      Scalar key a [⟨0, a.length, if key then .markup_attr else .string⟩] b
  | alias {key v b} (h : Longest (fun c => ¬ WordEnd c) (v ++ b) v.length) :
      Scalar key (b!"*" ++ v) ([⟨0, 1, .name_attr_delim⟩] ++ opt 1 v .name) b
  | double {a ts b} (h : Double a ts b) : Scalar false (b!"\"" ++ a) ([⟨0, 1, .string_delim⟩] ++ shift 1 ts) b
  | single {a ts b} (h : Single a ts b) : Scalar false (b!"'" ++ a) ([⟨0, 1, .string_delim⟩] ++ shift 1 ts) b
  | doubleKey {v b} (h : DoubleText v) : Scalar true (b!"\"" ++ v ++ b!"\"") [⟨0, v.length + 2, .markup_attr⟩] b
  | singleKey {v b} (h : SingleText v) (hb : b.head? ≠ some c!"'") : Scalar true (b!"'" ++ v ++ b!"'") [⟨0, v.length + 2, .markup_attr⟩] b

/-- Tokens for single characters. -/
def each (ty : HT) : Nat → List Token
  | 0 => []
  | n + 1 => [⟨0, 1, ty⟩] ++ shift 1 (each ty n)

/-- The end of a name. -/
abbrev NameEnds (v b : Bytes) : Prop := Longest (fun c => ¬ WordEnd c) (v ++ b) v.length

/-- A tag or an anchor.  The characters of the names of tags have separate tokens. -/
inductive Property : Bytes → List Token → Bytes → Prop where
  | anchor {v b} (h : NameEnds v b) : Property (b!"&" ++ v) ([⟨0, 1, .name_attr_delim⟩] ++ opt 1 v .name) b
  | verbatim {v b} (h : ∀ c ∈ v, c ∉ b!">\r\n") :
      Property (b!"!<" ++ v ++ b!">")
        ([⟨0, 2, .name_attr_delim⟩] ++ shift 2 (each .name_attr v.length) ++ [⟨v.length + 2, 1, .name_attr_delim⟩]) b
  | secondary {v b} (h : NameEnds v b) :
      Property (b!"!!" ++ v) ([⟨0, 2, .name_attr_delim⟩] ++ shift 2 (each .name_attr v.length)) b
  | named {u v b} (ne : u ≠ []) (hu : ∀ c ∈ u, HandleChar c) (h : NameEnds v b) :
      Property (b!"!" ++ u ++ b!"!" ++ v)
        ([⟨0, 1, .name_attr_delim⟩, ⟨1, u.length, .name_attr⟩, ⟨u.length + 1, 1, .name_attr_delim⟩] ++
          shift (u.length + 2) (each .name_attr v.length)) b
  | primary {v b} (h : NameEnds v b) (first : NotFirst b!"<!" (v ++ b)) (hb : b.head? ≠ some c!"!") :
      Property (b!"!" ++ v) ([⟨0, 1, .name_attr_delim⟩] ++ shift 1 (each .name_attr v.length)) b

/-- Tags and anchors before a value. -/
inductive Properties : Bytes → List Token → Bytes → Prop where
  | nil {b} (h : NotFirst b!"!&" b) : Properties [] [] b
  | cons {p ps w a ts b} (h : Property p ps (w ++ a ++ b)) (hw : ∀ c ∈ w, Blank c) (hn : NotFirst b!" \t" (a ++ b))
      (rest : Properties a ts b) : Properties (p ++ w ++ a) (ps ++ shift (p.length + w.length) ts) b

/-- Where a part of a value is. -/
inductive Part where
  /-- a value or a key -/
  | node (key : Bool)
  /-- a value or a key without tags and anchors -/
  | bare (key : Bool)
  /-- after a square bracket -/
  | items
  /-- after a brace -/
  | entries
  /-- a key in braces -/
  | key
  /-- what is after the colon of a key in braces -/
  | value

/-- Values with brackets: the part, its text, its tokens, and the text after it. -/
inductive Flow : Part → Bytes → List Token → Bytes → Prop where
  | node {key p ps a ts b} (hp : Properties p ps (a ++ b)) (h : Flow (.bare key) a ts b) : Flow (.node key) (p ++ a) (ps ++ shift p.length ts) b
  /-- nothing after a tag or an anchor -/
  | empty {key p ps b} (hp : Properties p ps b) (ne : p ≠ []) (hb : ∀ c, b.head? = some c → c ∈ b!"\r\n#,]}") : Flow (.node key) p ps b
  | scalar {key a ts b} (h : Scalar key a ts b) : Flow (.bare key) a ts b
  | sequence {key a ts b} (h : Flow .items a ts b) : Flow (.bare key) (b!"[" ++ a) ([⟨0, 1, .symbol_square⟩] ++ shift 1 ts) b
  | mapping {key a ts b} (h : Flow .entries a ts b) : Flow (.bare key) (b!"{" ++ a) ([⟨0, 1, .symbol_brace⟩] ++ shift 1 ts) b
  | closeItems {w us b} (s : Skip w us (b!"]" ++ b)) : Flow .items (w ++ b!"]") (us ++ [⟨w.length, 1, .symbol_square⟩]) b
  | commaItems {w us a ts b} (s : Skip w us (b!"," ++ a ++ b)) (rest : Flow .items a ts b) :
      Flow .items (w ++ b!"," ++ a) (us ++ [⟨w.length, 1, .symbol_punc⟩] ++ shift (w.length + 1) ts) b
  | item {w us a ts r vs b} (s : Skip w us (a ++ r ++ b)) (h : Flow (.node false) a ts (r ++ b)) (rest : Flow .items r vs b) :
      Flow .items (w ++ a ++ r) (us ++ shift w.length ts ++ shift (w.length + a.length) vs) b
  | closeEntries {w us b} (s : Skip w us (b!"}" ++ b)) : Flow .entries (w ++ b!"}") (us ++ [⟨w.length, 1, .symbol_brace⟩]) b
  | commaEntries {w us a ts b} (s : Skip w us (b!"," ++ a ++ b)) (rest : Flow .entries a ts b) :
      Flow .entries (w ++ b!"," ++ a) (us ++ [⟨w.length, 1, .symbol_punc⟩] ++ shift (w.length + 1) ts) b
  | plainKey {a ts b} (q : a.head? ≠ some c!"?") (h : Flow (.node true) a ts b) : Flow .key a ts b
  | explicitKey {w us a ts b} (s : Skip w us (a ++ b)) (h : Flow (.node true) a ts b) :
      Flow .key (b!"?" ++ w ++ a) ([⟨0, 1, .symbol_punc⟩] ++ shift 1 us ++ shift (1 + w.length) ts) b
  | value {a ts b} (h : Flow (.node false) a ts b) : Flow .value a ts b
  | noValue {b} (h : ∃ c ∈ b!",}", b.head? = some c) : Flow .value [] [] b
  /-- a key without a value -/
  | key {w us a ts w' us' r vs b} (s : Skip w us (a ++ w' ++ r ++ b))
      (h : Flow .key a ts (w' ++ r ++ b)) (s' : Skip w' us' (r ++ b)) (hr : r.head? ≠ some c!":") (rest : Flow .entries r vs b) :
      Flow .entries (w ++ a ++ w' ++ r)
        (us ++ shift w.length ts ++ shift (w.length + a.length) us' ++ shift (w.length + a.length + w'.length) vs) b
  | entry {w us a ts w' us' x xs d ds r vs b} (s : Skip w us (a ++ w' ++ b!":" ++ x ++ d ++ r ++ b))
      (h : Flow .key a ts (w' ++ b!":" ++ x ++ d ++ r ++ b)) (s' : Skip w' us' (b!":" ++ x ++ d ++ r ++ b))
      (sx : Skip x xs (d ++ r ++ b)) (hd : Flow .value d ds (r ++ b)) (rest : Flow .entries r vs b) :
      Flow .entries (w ++ a ++ w' ++ b!":" ++ x ++ d ++ r)
        (us ++ shift w.length ts ++ shift (w.length + a.length) us' ++ [⟨w.length + a.length + w'.length, 1, .symbol_punc⟩] ++
          shift (w.length + a.length + w'.length + 1) xs ++ shift (w.length + a.length + w'.length + 1 + x.length) ds ++
          shift (w.length + a.length + w'.length + 1 + x.length + d.length) vs) b

/-! ## Lines -/

/-- There is no key with a colon here. -/
def NoKey (s : Bytes) : Prop := ∀ v t, s = v ++ b!":" ++ t → Separates t → ¬ KeyText t none v

/-- The text is empty, or its first line has less than `k` spaces at the beginning and something else after them. -/
def Outdented (k : Nat) (b : Bytes) : Prop := b = [] ∨ ∃ j c t, b = spaces j ++ c :: t ∧ j < k ∧ c ∉ b!" \r\n"

/-- The lines of a block scalar that has `k` spaces at the beginning of its lines. -/
inductive BlockLines (k : Nat) : Bytes → List Token → Bytes → Prop where
  | done {b} (h : Outdented k b) : BlockLines k [] [] b
  | blank {e a ts b} (he : Break e (a ++ b)) (ne : e ≠ []) (rest : BlockLines k a ts b) : BlockLines k (e ++ a) (shift e.length ts) b
  | line {v e a ts b} (ne : v ≠ []) (hv : OneLine v) (he : Break e (a ++ b)) (rest : BlockLines k a ts b) :
      BlockLines k (spaces k ++ v ++ e ++ a) ([⟨k, v.length, .string⟩] ++ shift (k + v.length + e.length) ts) b

/-- What is after the first line of a block scalar.  The line where it begins has `i` spaces at the beginning. -/
inductive BlockBody (i : Nat) : Bytes → List Token → Bytes → Prop where
  | blank {e a ts b} (he : Break e (a ++ b)) (ne : e ≠ []) (rest : BlockBody i a ts b) : BlockBody i (e ++ a) (shift e.length ts) b
  | empty {b} (h : Outdented (i + 1) b) : BlockBody i [] [] b
  | lines {k c t a ts b} (hk : i < k) (first : a = spaces k ++ c :: t) (hc : c ∉ b!" \r\n") (h : BlockLines k a ts b) : BlockBody i a ts b

/-- The rest of the first line of a block scalar. -/
inductive HeaderEnd : Bytes → List Token → Prop where
  | plain {r} (h : OneLine r) (first : ∀ c, r.head? = some c → Blank c) : HeaderEnd r []
  | comment {v} (h : OneLine v) : HeaderEnd (b!"#" ++ v) ([⟨0, 1, .comment_delim⟩] ++ opt 1 v .comment)

/-- A block scalar. -/
inductive BlockScalar (i : Nat) : Bytes → List Token → Bytes → Prop where
  | block {c m d r rs e a ts b} (hc : c ∈ b!"|>") (hm : m ∈ [[], b!"+", b!"-"]) (hd : d = [] ∨ ∃ x ∈ b!"123456789", d = [x])
      (hr : HeaderEnd r rs) (he : Break e (a ++ b)) (h : BlockBody i a ts b) :
      BlockScalar i ([c] ++ m ++ d ++ r ++ e ++ a)
        ([⟨0, 1, .string_delim⟩] ++ opt 1 m .number_decor ++ opt (1 + m.length) d .number_decor ++ shift (1 + m.length + d.length) rs ++
          shift (1 + m.length + d.length + r.length + e.length) ts) b

/-- What is after the colon of a key, up to the end of the line.  The rest of the line has no tokens, even if it is a comment.
The lines of a block scalar must have more than `i` spaces at the beginning. -/
inductive Value (i : Nat) : Bytes → List Token → Bytes → Prop where
  | block {w a ts b} (hw : ∀ c ∈ w, Blank c) (h : BlockScalar i a ts b) : Value i (w ++ a) (shift w.length ts) b
  | none {w r e b} (hw : ∀ c ∈ w, Blank c) (hr : r = [] ∨ r.head? = some c!"#") (hl : OneLine r) (he : Break e b) :
      Value i (w ++ r ++ e) [] b
  | flow {w a ts r e b} (hw : ∀ c ∈ w, Blank c) (h : Flow (.node false) a ts (r ++ e ++ b))
      (ha : ¬ b!"- " <+: a ++ (r ++ e ++ b) ∧ ¬ b!"? " <+: a ++ (r ++ e ++ b)) (hl : OneLine r) (he : Break e b) :
      Value i (w ++ a ++ r ++ e) (shift w.length ts) b

/-- A key with a colon and its value. -/
inductive Keyed (i : Nat) : Bytes → List Token → Bytes → Prop where
  | keyed {v a ts b} (h : KeyText (a ++ b) none v) (hv : ∀ d, v.getLast? = some d → ¬ Blank d) (ha : Separates (a ++ b))
      (first : NotFirst b!" #|>?" v) (dash : ¬ b!"- " <+: v) (x : Value i a ts b) :
      Keyed i (v ++ b!":" ++ a) (opt 0 v .markup_attr ++ [⟨v.length, 1, .symbol_punc⟩] ++ shift (v.length + 1) ts) b

/-! ## Directives -/

/-- The parameters of a directive: each character has its own token. -/
inductive Parameters : Bytes → List Token → Prop where
  | nil : Parameters [] []
  | blank {c a ts} (h : Blank c) (rest : Parameters a ts) : Parameters (c :: a) (shift 1 ts)
  | char {c a ts} (h : InLine c) (hb : ¬ Blank c) (rest : Parameters a ts) : Parameters (c :: a) ([⟨0, 1, .string⟩] ++ shift 1 ts)

/-- The line of a directive: a name and parameters. -/
inductive Directive : Bytes → List Token → Bytes → Prop where
  | line {v a ts e b} (hv : ∀ c ∈ v, InLine c ∧ ¬ Blank c) (first : ∀ c, a.head? = some c → Blank c) (h : Parameters a ts) (he : Break e b) :
      Directive (b!"%" ++ v ++ a ++ e) ([⟨0, 1, .name_macro_delim⟩] ++ opt 1 v .name_macro ++ shift (1 + v.length) ts) b

/-! ## Documents -/

/-- Where an element begins, and how many keys and entries may follow. -/
inductive Place where
  | start
  /-- after a directive -/
  | directives
  /-- after directives and a marker -/
  | contents
  | line (n : Nat)
  /-- an entry of a sequence; block scalars in it have more than `i` spaces at the beginning of their lines -/
  | entry (n i : Nat)
  /-- after an explicit key -/
  | explicit (n : Nat)

/-- What begins a line, after `k` spaces. -/
inductive Entry (k : Nat) : Place → Bytes → List Token → Bytes → Place → Prop where
  | dash {n w us b} (hw : w.head? = some c!" ") (s : Skip w us b) :
      Entry k (.line (n + 1)) (b!"-" ++ w) ([⟨0, 1, .symbol_punc⟩] ++ shift 1 us) b (.entry n (k + 1))
  | keyed {n a ts b} (h : Keyed k a ts b) : Entry k (.line (n + 1)) a ts b (.line n)
  | value {n a ts r e b} (h : Flow (.node false) a ts (r ++ e ++ b)) (nk : NoKey (a ++ (r ++ e ++ b))) (q : a.head? ≠ some c!"?")
      (dash : ¬ b!"- " <+: a ++ (r ++ e ++ b)) (hl : OneLine r) (he : Break e b) : Entry k (.line n) (a ++ r ++ e) ts b (.line n)

  /-- an explicit key; the rest of its line has no tokens -/
  | explicit {n w us a ts r e b} (hw : ∃ c ∈ b!" \r\n", w.head? = some c) (s : Skip w us (a ++ (r ++ e ++ b)))
      (h : Flow (.node false) a ts (r ++ e ++ b)) (hl : OneLine r) (he : Break e b) :
      Entry k (.line n) (b!"?" ++ w ++ a ++ (r ++ e)) ([⟨0, 1, .symbol_punc⟩] ++ shift 1 us ++ shift (1 + w.length) ts) b (.explicit n)
  /-- a block scalar without a key -/
  | block {n c d t ts b} (h : BlockScalar k (c :: d :: t) ts b) (hd : d ∈ b!" \r\n") : Entry k (.line n) (c :: d :: t) ts b (.line n)

/-- An element, its tokens, the text after it, and the place after it. -/
inductive Element : Place → Bytes → List Token → Bytes → Place → Prop where
  | start {w us b} (s : Skip w us b) (h : NotFirst b!"%" b) : Element .start w us b (.line 64)
  | directive {w us a ts b} (s : Skip w us (a ++ b)) (h : Directive a ts b) : Element .start (w ++ a) (us ++ shift w.length ts) b .directives
  | another {w us a ts b} (s : Skip w us (a ++ b)) (h : Directive a ts b) : Element .directives (w ++ a) (us ++ shift w.length ts) b .directives
  /-- the marker after directives -/
  | begins {w us r e b} (s : Skip w us (b!"---" ++ r ++ e ++ b)) (hl : OneLine r) (he : Break e b) :
      Element .directives (w ++ b!"---" ++ r ++ e) (us ++ [⟨w.length, 3, .symbol_punc⟩]) b .contents
  /-- directives without a marker after them -/
  | omitted {w us b} (s : Skip w us b) (h : NotFirst b!"%" b) (hm : ¬ b!"---" <+: b) : Element .directives w us b (.line 64)
  | contents {w us b} (s : Skip w us b) : Element .contents w us b (.line 64)
  | blank {n e b} (he : Break e b) (ne : e ≠ []) : Element (.line n) e [] b (.line n)
  | comment {n k v e b} (h : OneLine v) (he : Break e b) :
      Element (.line n) (spaces k ++ b!"#" ++ v ++ e) ([⟨k, 1, .comment_delim⟩] ++ opt (k + 1) v .comment) b (.line n)
  | entry {n k a ts b y} (h : Entry k (.line n) a ts b y) (hk : k = 0 → ¬ b!"---" <+: a ++ b ∧ ¬ b!"..." <+: a ++ b) :
      Element (.line n) (spaces k ++ a) (shift k ts) b y
  /-- the beginning or the end of a document; the rest of the line has no tokens -/
  | marker {n m r e b} (hm : m = b!"---" ∨ m = b!"...") (hl : OneLine r) (he : Break e b) :
      Element (.line n) (m ++ r ++ e) [⟨0, 3, .symbol_punc⟩] b .start
  /-- a sequence in an entry of a sequence: the highlighter ignores how many spaces are before it -/
  | dash {n i w us b} (hw : w.head? = some c!" ") (s : Skip w us b) :
      Element (.entry (n + 1) i) (b!"-" ++ w) ([⟨0, 1, .symbol_punc⟩] ++ shift 1 us) b (.entry n 1)
  | keyed {n i a ts b} (h : Keyed i a ts b) : Element (.entry n i) a ts b (.line n)
  | block {n i a ts b} (h : BlockScalar i a ts b) (nk : NoKey (a ++ b)) : Element (.entry n i) a ts b (.line n)
  | value {n i a ts e b} (h : Flow (.node false) a ts (e ++ b)) (nk : NoKey (a ++ (e ++ b))) (dash : ¬ b!"- " <+: a ++ (e ++ b))
      (he : Break e b ∨ e = [] ∧ ¬ LineEnd b) : Element (.entry n i) (a ++ e) ts b (.line n)
  /-- the colon of the value of an explicit key -/
  | colon {n w us d ds b} (s : Skip w us (b!":" ++ d ++ b)) (hd : d.head? = some c!" ") (sd : Skip d ds b) :
      Element (.explicit n) (w ++ b!":" ++ d) (us ++ [⟨w.length, 1, .symbol_punc⟩] ++ shift (w.length + 1) ds) b (.line n)
  /-- no value of an explicit key -/
  | absent {n w us b} (s : Skip w us b) (h : ¬ b!": " <+: b) : Element (.explicit n) w us b (.line n)

end Ulight.Spec.Yaml
