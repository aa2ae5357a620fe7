import Verif.Spec.Lang.Common

/-!
# Specification of HTML highlighting (https://html.spec.whatwg.org/dev/syntax.html)

Where the code differs from the standard, the specification says so.
-/

namespace Ulight.Spec

/-- `RunOf R t n ty`: the first `n` bytes of `t` are one or more tokens of type `ty`, one right after
the other, by the rules of `R`. -/
inductive RunOf (R : Rules) : Bytes → Nat → HT → Prop where
  | one {t n ty} (h : R.tok t n ty) : RunOf R t n ty
  | more {t n m ty} (h : RunOf R t n ty) (h' : R.tok (t.drop n) m ty) : RunOf R t (n + m) ty

namespace Html

/-- Whitespace. -/
def Space (c : UInt8) : Prop := c ∈ ([0x20, 0x09, 0x0A, 0x0C, 0x0D] : Bytes)

/-- `p` (in lower case) begins `s`, up to the case of ASCII letters. -/
def BeginsLower (p s : Bytes) : Prop := (s.take p.length).map lower = p

/-- The content of a character reference. -/
def RefContent (w : Bytes) : Prop :=
  (∃ ds, w = b!"#x" ++ ds ∧ ds ≠ [] ∧ ∀ c ∈ ds, ∃ v, digitVal c = some v ∧ v < 16) ∨
  (∃ ds, w = b!"#" ++ ds ∧ ds ≠ [] ∧ ∀ c ∈ ds, DecDigit c) ∨
  (w ≠ [] ∧ ∀ c ∈ w, Letter c ∨ DecDigit c)

/-- `Ref s n`: the first `n` bytes of `s` are a character reference, such as `&amp;` or `&#64;`.
(The standard also allows `&#X40;`.) -/
def Ref (s : Bytes) (n : Nat) : Prop := ∃ w t, RefContent w ∧ s = b!"&" ++ w ++ b!";" ++ t ∧ n = w.length + 2

/-- There is no character reference at position `k`. -/
def NoRef (s : Bytes) (k : Nat) : Prop := ∀ n, ¬ Ref (s.drop k) n

/-- A character of the name of an element. -/
def TagChar (c : Nat) : Prop :=
  (∃ b : UInt8, b.toNat = c ∧ (Letter b ∨ DecDigit b)) ∨
  c ∈ [0x2D, 0x2E, 0x5F, 0xB7] ∨ ∃ r ∈ [(0xC0, 0xD6), (0xD8, 0xF6), (0xF8, 0x37D), (0x37F, 0x1FFF),
    (0x200C, 0x200D), (0x203F, 0x2040), (0x2070, 0x218F), (0x2C00, 0x2FEF), (0x3001, 0xD7FF),
    (0xF900, 0xFDCF), (0xFDF0, 0xFFFD), (0x10000, 0xEFFFF)], r.1 ≤ c ∧ c ≤ r.2

/-- A character of the name of an attribute.  The standard also excludes the controls U+0080 to
U+009F. -/
def AttrChar (c : Nat) : Prop :=
  0x1F < c ∧ c ≠ 0x7F ∧ (∀ b ∈ b!" \"'>/=", b.toNat ≠ c) ∧
  ¬ (0xFDD0 ≤ c ∧ c ≤ 0xFDEF) ∧ c % 0x10000 ≠ 0xFFFE ∧ c % 0x10000 ≠ 0xFFFF

/-- A character that ends an attribute value without quotation marks. -/
def UnquotedEnd (c : UInt8) : Prop := Space c ∨ c ∈ b!"\"'=<>`"

/-- The text of a comment after `<!--`: it goes to the first `-->` or to the end of the source, and it
has no `--!>` and no `<!--` (except for `<!-->`). -/
structure CommentText (s : Bytes) (n : Nat) : Prop where
  upTo : UpTo b!"-->" s n
  noBang : ∀ k, k < n → ¬ OccursAt b!"--!>" s k
  noOpen : ∀ k, k < n → OccursAt b!"<!--" s k → OccursAt b!"<!-->" s k

/-- A comment begins here. -/
def Comment (s : Bytes) : Prop :=
  ∃ t n, s = b!"<!--" ++ t ∧ t.take 1 ≠ b!">" ∧ t.take 2 ≠ b!"->" ∧ CommentText t n

/-- The names of elements whose content is not HTML. -/
def rawNames : List Bytes := [b!"script", b!"style", b!"textarea", b!"title"]

/-- `</name` at position `k`. -/
def NameAt (name s : Bytes) (k : Nat) : Prop :=
  OccursAt b!"</" s k ∧ BeginsLower name (s.drop (k + 2))

/-- The end of raw text: `</name` at position `k` and then whitespace, `>` or `/`. -/
def Closes (name s : Bytes) (k : Nat) : Prop :=
  NameAt name s k ∧ ∃ c, s[k + 2 + name.length]? = some c ∧ (Space c ∨ c = c!">" ∨ c = c!"/")

/-- The first `n` bytes of `s` are all of the text before the end of the element `name`. -/
def RawText (name s : Bytes) (n : Nat) : Prop :=
  (∀ k, k < n → ¬ Closes name s k) ∧ (n = s.length ∨ Closes name s n)

/-- `b` may be the content of an element `name` in the file: it comes after the name, in a tag, and some
`>`, and it ends where the element does. -/
def ContentOf (name src b : Bytes) : Prop :=
  ∃ u w v c, src = u ++ b!"<" ++ w ++ v ++ b!">" ++ b ++ c ∧ w.map lower = name ∧ RawText name (b ++ c) b.length

/-- Part of the raw text of the element `name`, up to a character reference or the end of the
element. -/
structure RawPiece (name s : Bytes) (n : Nat) : Prop where
  inside : ∀ k, k < n → ¬ Closes name s k ∧ NoRef s k
  until_ : n = s.length ∨ Closes name s n ∨ ∃ m, Ref (s.drop n) m

/-- An end tag: `</`, a name, and `>` somewhere after it. -/
def EndTag (s : Bytes) : Prop :=
  ∃ a w b, s = b!"</" ++ a :: w ++ c!">" :: b ∧ ¬ Space a ∧ a ≠ c!">"

/-- Part of an attribute value in quotation marks `q`: the first byte is the opening quotation mark
(or, after a character reference, any byte whatsoever), then everything up to and including
the closing quotation mark, or up to a character reference or the end of the source. -/
structure QuotedPiece (q : UInt8) (s : Bytes) (n : Nat) : Prop where
  noQuote : ∀ k, 0 < k → k + 1 < n → s[k]? ≠ some q
  noRef : ∀ k, 0 < k → k < n → s[k]? ≠ some q → NoRef s k
  until_ : n = s.length ∨ (2 ≤ n ∧ s[n - 1]? = some q) ∨ ∃ m, Ref (s.drop n) m

/-- Part of an attribute value without quotation marks: after the first byte, which may be any byte
after a character reference, everything up to a terminator, a character reference or the end of
the source. -/
structure UnquotedPiece (s : Bytes) (n : Nat) : Prop where
  inside : ∀ k, 0 < k → k < n → (∀ c, s[k]? = some c → ¬ UnquotedEnd c) ∧ NoRef s k
  until_ : n = s.length ∨ (∃ c, s[n]? = some c ∧ UnquotedEnd c) ∨ ∃ m, Ref (s.drop n) m

/-- What each token is, if `css` and `js` are the rules for the tokens of CSS and JavaScript. -/
inductive Tok (css js : Rules) : Bytes → Nat → HT → Prop where
  | commentOpen {s n} (h : s.take n = b!"<!--") (c : Comment s) : Tok css js s n .comment_delim
  | commentText {s n} (h : CommentText s n) : Tok css js s n .comment
  | commentClose {s n} (h : s.take n = b!"-->") : Tok css js s n .comment_delim
  /-- a document type declaration up to `>` or to the end of the source -/
  | doctype {s n} (h : BeginsLower b!"<!doctype" s) (k : Nat) (u : UpTo b!">" (s.drop 9) k)
      (hn : n = 9 + k + (if 9 + k = s.length then 0 else 1)) : Tok css js s n .name_macro
  | cdataOpen {s n} (h : s.take n = b!"<![CDATA[") : Tok css js s n .name_macro
  | cdataClose {s n} (h : s.take n = b!"]]>") : Tok css js s n .name_macro
  /-- `<`, unless it begins something other than a start tag -/
  | open_ {s n} (h : s.take n = b!"<") (comment : ¬ Comment s) (doctype : ¬ BeginsLower b!"<!doctype" s)
      (cdata : s.take 9 ≠ b!"<![CDATA[") (end_ : ¬ EndTag s) : Tok css js s n .symbol_punc
  | tagName {s n} (h : LongestChars TagChar s n) : Tok css js s n .markup_tag
  | attrName {s n} (h : LongestChars AttrChar s n) : Tok css js s n .markup_attr
  | symbol {s n} (h : s.take n ∈ [b!"=", b!">", b!"/>"]) : Tok css js s n .symbol_punc
  | endOpen {s n} (h : s.take n = b!"</") (e : EndTag s) : Tok css js s n .symbol_punc
  /-- the name in an end tag -/
  | endName {s n} (h : Longest (fun c => ¬ Space c ∧ c ≠ c!">") s n) : Tok css js s n .markup_tag
  /-- If there is something between the name and `>` in an end tag, the character before `>` is
  highlighted rather than `>`. -/
  | beforeEnd {s n c t} (h : s = c :: c!">" :: t) (hn : n = 1) : Tok css js s n .symbol_punc
  | ref {s n} (h : Ref s n) : Tok css js s n .string_escape
  | quoted {s n q} (hq : q = c!"\"" ∨ q = c!"'") (h : QuotedPiece q s n) : Tok css js s n .string
  | unquoted {s n} (h : UnquotedPiece s n) : Tok css js s n .string
  /-- code in a `<style>` element, which goes on for `m` bytes -/
  | css {s n ty m} (h : RawText b!"style" s m) (hn : n ≤ m) (t : RunOf css (s.take m) n ty) :
      Tok css js s n ty
  /-- code in a `<script>` element, which goes on for `m` bytes -/
  | js {s n ty m} (h : RawText b!"script" s m) (hn : n ≤ m) (t : RunOf js (s.take m) n ty) :
      Tok css js s n ty

/-- What is between the tokens. -/
inductive Gap (css js : Rules) : Bytes → Nat → Prop where
  /-- text without tags and character references -/
  | text {s n} (h : ∀ c ∈ s.take n, c ≠ c!"<") (r : ∀ k, k < n → NoRef s k) : Gap css js s n
  | space {s n} (h : ∀ c ∈ s.take n, Space c) : Gap css js s n
  /-- a byte order mark -/
  | bom {s n} (h : s.take n = [0xEF, 0xBB, 0xBF]) : Gap css js s n
  | cdata {s n} (h : UpTo b!"]]>" s n) : Gap css js s n
  | raw {s n name} (hn : name = b!"textarea" ∨ name = b!"title") (h : RawPiece name s n) : Gap css js s n
  /-- in an end tag, after its name -/
  | endTag {s n} (h : ∀ c ∈ s.take n, c ≠ c!">") : Gap css js s n
  | css {s n m} (h : RawText b!"style" s m) (hn : n ≤ m) (t : css.gap (s.take m) n) : Gap css js s n
  | js {s n m} (h : RawText b!"script" s m) (hn : n ≤ m) (t : js.gap (s.take m) n) : Gap css js s n

/-- HTML with the given rules for CSS and JavaScript. -/
def rules (css js : Rules) : Rules := ⟨Tok css js, Gap css js⟩

/-- The sources for which the theorem holds: no character reference at the very end, and where
`</script` (or another name of an element with raw text) occurs, the name ends there. -/
structure Sane (src : Bytes) : Prop where
  ref : src.getLast? ≠ some c!";"
  names : ∀ name ∈ rawNames, ∀ k, NameAt name src k → Closes name src k ∨ k + 2 + name.length = src.length

end Html

end Ulight.Spec
