import Verif.Spec.Program
import Verif.Spec.Lang.Html

/-!
# The lexical elements of HTML

The state says where in the document the element is.
-/

namespace Ulight.Spec.Html

/-- Places in a document. -/
inductive Place where
  | start
  | content
  /-- in the start tag of the element `name` -/
  | tag (name : Bytes)
  /-- in an attribute value in double or single quotation marks, at its beginning or after a character reference -/
  | quoted (double : Bool) (name : Bytes)
  /-- in an attribute value without quotation marks, at its beginning or after a character reference -/
  | unquoted (first : Bool) (name : Bytes)
  /-- in an element that contains only text and character references -/
  | escapable (name : Bytes)
  /-- in an element that contains code in another language -/
  | code (name : Bytes)

/-- The quotation mark. -/
def mark (double : Bool) : UInt8 := if double then c!"\"" else c!"'"

/-- The place after the start tag of the element `name`. -/
def after (name : Bytes) : Place :=
  let name := name.map lower
  if name ∈ [b!"textarea", b!"title"] then .escapable name
  else if name ∈ [b!"script", b!"style"] then .code name
  else .content

/-- A character reference begins here. -/
def RefHere (s : Bytes) : Prop := ∃ n, Ref s n

/-- Neither the element `name` nor one that begins like it ends in the text `t` before `b`. -/
def Within (name t b : Bytes) : Prop := ∀ k, k < t.length → ¬ NameAt name (t ++ b) k

/-- The end of the text or of the element `name`. -/
def Ended (name b : Bytes) : Prop := b = [] ∨ Closes name b 0

/-- At the place `x`, the text `a` is a lexical element with the tokens `ts` if the text `b` follows, and `y` is the place
after it.  `Nested name t us` says that `us` are the tokens of the code `t` in the element `name`. -/
inductive Element (Nested : Bytes → Bytes → List Token → Prop) : Place → Bytes → List Token → Bytes → Place → Prop where
  /-- a byte order mark -/
  | bom {b} : Element Nested .start [0xEF, 0xBB, 0xBF] [] b .content
  | begin {a ts b y} (h : Element Nested .content a ts b y) (h' : ¬ [0xEF, 0xBB, 0xBF] <+: a ++ b) :
      Element Nested .start a ts b y
  | comment {t b} (h : CommentText (t ++ b!"-->" ++ b) t.length) (h' : ¬ b!">" <+: t ++ b!"-->" ++ b)
      (h'' : ¬ b!"->" <+: t ++ b!"-->" ++ b) :
      Element Nested .content (b!"<!--" ++ t ++ b!"-->")
        (parts 0 [(b!"<!--", .comment_delim), (t, .comment), (b!"-->", .comment_delim)]) b .content
  /-- a comment that is not closed -/
  | openComment {t} (h : CommentText t t.length) (h' : ¬ b!">" <+: t) (h'' : ¬ b!"->" <+: t) :
      Element Nested .content (b!"<!--" ++ t) (parts 0 [(b!"<!--", .comment_delim), (t, .comment)]) [] .content
  | doctype {w t b} (h : w.map lower = b!"<!doctype") (h' : c!">" ∉ t) :
      Element Nested .content (w ++ t ++ b!">") [⟨0, 9 + t.length + 1, .name_macro⟩] b .content
  /-- a document type declaration that is not closed -/
  | openDoctype {w t} (h : w.map lower = b!"<!doctype") (h' : c!">" ∉ t) :
      Element Nested .content (w ++ t) [⟨0, 9 + t.length, .name_macro⟩] [] .content
  | cdata {t b} (h : UpTo b!"]]>" (t ++ b!"]]>" ++ b) t.length) :
      Element Nested .content (b!"<![CDATA[" ++ t ++ b!"]]>") [⟨0, 9, .name_macro⟩, ⟨9 + t.length, 3, .name_macro⟩] b .content
  /-- a CDATA section that is not closed -/
  | openCdata {t} (h : ∀ k, ¬ OccursAt b!"]]>" t k) :
      Element Nested .content (b!"<![CDATA[" ++ t) [⟨0, 9, .name_macro⟩] [] .content
  | endTag {w b} (h : w ≠ []) (h' : ∀ c ∈ w, ¬ Space c ∧ c ≠ c!">") :
      Element Nested .content (b!"</" ++ w ++ b!">")
        (parts 0 [(b!"</", .symbol_punc), (w, .markup_tag), (b!">", .symbol_punc)]) b .content
  /-- an end tag with something after the name: the character `c` before `>` is highlighted rather than `>` -/
  | endTagMore {w u c b} (h : w ≠ []) (h' : ∀ c ∈ w, ¬ Space c ∧ c ≠ c!">") (hs : ∀ d, (u ++ [c]).head? = some d → Space d)
      (hu : c!">" ∉ u ++ [c]) (hb : b.head? = some c!">") :
      Element Nested .content (b!"</" ++ w ++ u ++ [c])
        [⟨0, 2, .symbol_punc⟩, ⟨2, w.length, .markup_tag⟩, ⟨2 + w.length + u.length, 1, .symbol_punc⟩] b .content
  /-- a character that does not begin anything else -/
  | less {b} (comment : ¬ Comment (b!"<" ++ b)) (doctype : ¬ BeginsLower b!"<!doctype" (b!"<" ++ b))
      (cdata : ¬ b!"<![CDATA[" <+: b!"<" ++ b) (end_ : ¬ EndTag (b!"<" ++ b)) (tag : LongestChars TagChar b 0) :
      Element Nested .content b!"<" [⟨0, 1, .symbol_punc⟩] b .content
  | startTag {w b} (h : w ≠ []) (h' : LongestChars TagChar (w ++ b) w.length) :
      Element Nested .content (b!"<" ++ w) (parts 0 [(b!"<", .symbol_punc), (w, .markup_tag)]) b (.tag w)
  /-- text up to a tag or a character reference -/
  | text {t b} (h : t ≠ []) (h' : ∀ k, k < t.length → NoRef (t ++ b) k) (h'' : c!"<" ∉ t)
      (hb : b = [] ∨ b.head? = some c!"<" ∨ RefHere b) : Element Nested .content t [] b .content
  | reference {w b} (h : RefContent w) :
      Element Nested .content (b!"&" ++ w ++ b!";") [⟨0, w.length + 2, .string_escape⟩] b .content
  | space {w b name} (h : w ≠ []) (h' : Longest Space (w ++ b) w.length) : Element Nested (.tag name) w [] b (.tag name)
  | close {b name} : Element Nested (.tag name) b!">" [⟨0, 1, .symbol_punc⟩] b (after name)
  | closeEmpty {b name} : Element Nested (.tag name) b!"/>" [⟨0, 2, .symbol_punc⟩] b (after name)
  /-- an attribute without a value -/
  | attribute {w s b name} (h : w ≠ []) (h' : LongestChars AttrChar (w ++ (s ++ b)) w.length)
      (hs : Longest Space (s ++ b) s.length) (hb : b.head? ≠ some c!"=") :
      Element Nested (.tag name) (w ++ s) [⟨0, w.length, .markup_attr⟩] b (.tag name)
  /-- an attribute with a value -/
  | value {w s s' b name y} (h : w ≠ []) (h' : LongestChars AttrChar (w ++ (s ++ (b!"=" ++ (s' ++ b)))) w.length)
      (hs : ∀ c ∈ s, Space c) (hs' : Longest Space (s' ++ b) s'.length)
      (hb : (∃ d, b.head? = some (mark d) ∧ y = .quoted d name) ∨
        (∃ c, b.head? = some c ∧ ¬ UnquotedEnd c ∧ y = .unquoted true name) ∨
        ((∀ c, b.head? = some c → UnquotedEnd c ∧ c ≠ c!"\"" ∧ c ≠ c!"'") ∧ y = .tag name)) :
      Element Nested (.tag name) (w ++ s ++ b!"=" ++ s') [⟨0, w.length, .markup_attr⟩, ⟨w.length + s.length, 1, .symbol_punc⟩] b y
  /-- where no attribute begins, the tag ends -/
  | endOfTag {a ts b name y} (h : Element Nested .content a ts b y) (h' : LongestChars AttrChar (a ++ b) 0)
      (hs : ∀ c, (a ++ b).head? = some c → ¬ Space c ∧ c ≠ c!">") (hc : ¬ b!"/>" <+: a ++ b) : Element Nested (.tag name) a ts b y
  /-- the end of a value in quotation marks; `c` is the opening quotation mark or the first character after a reference -/
  | quotedEnd {c t b d name} (h : mark d ∉ t) (h' : ∀ k, k < t.length → NoRef (t ++ [mark d] ++ b) k) :
      Element Nested (.quoted d name) ([c] ++ t ++ [mark d]) [⟨0, 1 + t.length + 1, .string⟩] b (.tag name)
  | quotedReference {c t w b d name} (h : mark d ∉ t) (h' : ∀ k, k < t.length → NoRef (t ++ (b!"&" ++ w ++ b!";" ++ b)) k)
      (hw : RefContent w) (hb : b ≠ []) :
      Element Nested (.quoted d name) ([c] ++ t ++ (b!"&" ++ w ++ b!";"))
        (parts 0 [([c] ++ t, .string), (b!"&" ++ w ++ b!";", .string_escape)]) b (.quoted d name)
  /-- a value in quotation marks that is not closed -/
  | quotedOpen {c t d name} (h : mark d ∉ t) (h' : ∀ k, k < t.length → NoRef t k) :
      Element Nested (.quoted d name) ([c] ++ t) [⟨0, 1 + t.length, .string⟩] [] (.tag name)
  /-- the end of a value without quotation marks; `p` is the first character after a reference -/
  | unquotedEnd {p t b first name} (h : p.length = if first then 0 else 1) (h0 : p ++ t ≠ [])
      (h' : ∀ k, k < t.length → NoRef (t ++ b) k) (h'' : ∀ c ∈ t, ¬ UnquotedEnd c) (hb : ∀ c, b.head? = some c → UnquotedEnd c) :
      Element Nested (.unquoted first name) (p ++ t) [⟨0, (p ++ t).length, .string⟩] b (.tag name)
  | unquotedReference {p t w b first name} (h : p.length = if first then 0 else 1)
      (h' : ∀ k, k < t.length → NoRef (t ++ (b!"&" ++ w ++ b!";" ++ b)) k) (h'' : ∀ c ∈ t, ¬ UnquotedEnd c)
      (hw : RefContent w) (hb : b ≠ []) :
      Element Nested (.unquoted first name) (p ++ t ++ (b!"&" ++ w ++ b!";"))
        (parts 0 [(p ++ t, .string), (b!"&" ++ w ++ b!";", .string_escape)]) b (.unquoted false name)
  /-- text in an element that contains only text and character references -/
  | rawText {t b name} (h : t ≠ []) (h' : ∀ k, k < t.length → NoRef (t ++ b) k) (h'' : Within name t b) (hb : Ended name b) :
      Element Nested (.escapable name) t [] b (.escapable name)
  | rawReference {t w b name} (h' : ∀ k, k < t.length → NoRef (t ++ (b!"&" ++ w ++ b!";" ++ b)) k)
      (h'' : Within name t (b!"&" ++ w ++ b!";" ++ b)) (hw : RefContent w) :
      Element Nested (.escapable name) (t ++ (b!"&" ++ w ++ b!";")) [⟨t.length, w.length + 2, .string_escape⟩] b (.escapable name)
  | rawEnd {a ts b name y} (h : Element Nested .content a ts b y) (h' : Closes name (a ++ b) 0) :
      Element Nested (.escapable name) a ts b y
  /-- code in another language -/
  | code {t ts b name} (h : t ≠ []) (h' : Within name t b) (hb : Ended name b) (hn : Nested name t ts) :
      Element Nested (.code name) t ts b .content
  /-- the end of an element without code -/
  | codeEnd {a ts b name y} (h : Element Nested .content a ts b y) (h' : Closes name (a ++ b) 0) :
      Element Nested (.code name) a ts b y

end Ulight.Spec.Html
