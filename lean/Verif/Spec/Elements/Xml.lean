import Verif.Spec.Lang.Xml
import Verif.Spec.Grammar

/-!
# The lexical elements of XML

A document is a prolog and then elements.  Errors are included, and so are the cases in which the code differs from the
standard.
-/

namespace Ulight.Spec.Xml

open Phrase

/-! ## Names, whitespace and values -/

/-- Whitespace, which may be empty. -/
def Spaces : Phrase := all Space

/-- Names end at whitespace, and at one of these texts. -/
def NameEnd (ends : List Bytes) (b : Bytes) : Prop := (∃ c, b.head? = some c ∧ Space c) ∨ ∃ w ∈ ends, w <+: b

/-- The first character of the text satisfies `P`. -/
def Begins (P : Nat → Prop) (s : Bytes) : Prop := ∃ c p t, s = p ++ t ∧ FirstChar c p t ∧ P c

/-- `w` is the longest part of a name before `b`.  The first character of a name has to be a name start character. -/
def NamePart (first : Bool) (w b : Bytes) : Prop :=
  LongestChars NameChar (w ++ b) w.length ∧ (first = true → w ≠ [] → Begins NameStart (w ++ b)) ∨
  first = true ∧ w = [] ∧ ¬ Begins NameStart b

/-- What is treated as a name: everything up to the end of a name, where each byte of a character that does not belong in a
name is an error. -/
inductive Named (ty : HT) (ends : List Bytes) : Bool → Phrase where
  | end_ {first w b} (h : NamePart first w b) (e : b = [] ∨ NameEnd ends b) : Named ty ends first w (opt 0 w ty) b
  | bad {first w c a ts b} (h : NamePart first w (c :: (a ++ b))) (e : ¬ NameEnd ends (c :: (a ++ b))) (h' : Named ty ends false a ts b) :
      Named ty ends first (w ++ c :: a) (opt 0 w ty ++ ⟨w.length, 1, .error⟩ :: shift (w.length + 1) ts) b

/-- A name, which may be missing. -/
def Name (ty : HT) (ends : List Bytes) : Phrase := Named ty ends true

/-- A name that is missing. -/
def NoName (ends : List Bytes) : Phrase := before fun b => b = [] ∨ NameEnd ends b

/-- A name that is not missing, where `P` holds for it and what follows. -/
def SomeName (ty : HT) (ends : List Bytes) (P : Bytes → Bytes → Prop := fun _ _ => True) : Phrase := fun a ts b =>
  a ≠ [] ∧ P a b ∧ Name ty ends a ts b

/-- The rest of a value, after the quotation mark `q`: text, references, errors, and the quotation mark or the end of the
source. -/
inductive ValueRest (q : UInt8) : Phrase where
  | closed {t b} (h : ∀ c ∈ t, c ≠ q ∧ c ≠ c!"<" ∧ c ≠ c!"&") :
      ValueRest q (t ++ [q]) (opt 0 t .string ++ [⟨t.length, 1, .string_delim⟩]) b
  | open_ {t} (h : ∀ c ∈ t, c ≠ q ∧ c ≠ c!"<" ∧ c ≠ c!"&") : ValueRest q t (opt 0 t .string) []
  | ref {t w a ts b} (h : ∀ c ∈ t, c ≠ q ∧ c ≠ c!"<" ∧ c ≠ c!"&") (hw : Html.RefContent w) (h' : ValueRest q a ts b) :
      ValueRest q (t ++ (b!"&" ++ w ++ b!";") ++ a)
        (opt 0 t .string ++ ⟨t.length, w.length + 2, .string_escape⟩ :: shift (t.length + (w.length + 2)) ts) b
  | bad {t c a ts b} (h : ∀ c ∈ t, c ≠ q ∧ c ≠ c!"<" ∧ c ≠ c!"&")
      (hc : c = c!"<" ∨ c = c!"&" ∧ Html.NoRef (c :: (a ++ b)) 0) (h' : ValueRest q a ts b) :
      ValueRest q (t ++ c :: a) (opt 0 t .string ++ ⟨t.length, 1, .error⟩ :: shift (t.length + 1) ts) b

/-- A value in quotation marks. -/
def Value : Phrase := or (word b!"'" .string_delim ⬝ ValueRest c!"'") (word b!"\"" .string_delim ⬝ ValueRest c!"\"")

/-- No value. -/
def NoValue : Phrase := before (NotFirst b!"'\"")

/-! ## Comments, processing instructions, tags and text -/

/-- A comment, which ends at the first `--`. -/
def Comment : Phrase := word b!"<!--" .comment_delim ⬝ upTo b!"--" .comment ⬝ maybe b!"-->" .comment_delim

/-- What follows the name `a`, up to the length of the name, has the letters `xml` in it, in any case. -/
def HasXml (a b : Bytes) : Prop := ∃ u x m l v, b.take a.length = u ++ [x, m, l] ++ v ∧ x ∈ b!"xX" ∧ m ∈ b!"mM" ∧ l ∈ b!"lL"

/-- A processing instruction.  The code wants to leave out those named `xml`, but looks for `xml` in the text after the
name. -/
def Instruction : Phrase := word b!"<?" .symbol_punc ⬝
  or (NoName [b!"?>"]) (or (SomeName .name_macro [b!"?>"] HasXml)
    (SomeName .name_macro [b!"?>"] (fun a b => ¬ HasXml a b) ⬝ Spaces ⬝ skipTo b!"?>" ⬝ maybe b!"?>" .symbol_punc))

/-- A `CDATA` section. -/
def CData : Phrase := word b!"<![CDATA[" .name_macro ⬝ skipTo b!"]]>" ⬝ maybe b!"]]>" .name_macro

/-- An attribute, and what can be left of it.  The ones that count as complete have a value or no `=`. -/
def Attribute (complete : Prop) : Phrase := Name .markup_attr [b!"/>", b!">", b!"="] ⬝ Spaces ⬝
  or (fun a ts b => complete ∧ before (fun b => ¬ b!"=" <+: b) a ts b)
    (word b!"=" .symbol_punc ⬝ Spaces ⬝ or (fun a ts b => complete ∧ Value a ts b) (fun a ts b => ¬ complete ∧ NoValue a ts b))

/-- The attributes of a tag end at `>`, at `/>`, after an incomplete one, and at the end of the source. -/
def Attributes : Phrase := star
  (Spaces ⬝ fun a ts b => (¬ b!">" <+: a ++ b ∧ ¬ b!"/>" <+: a ++ b) ∧ Attribute True a ts b)
  (or (before fun b => b = []) (or
    (fun a ts b => a ++ b ≠ [] ∧ (Spaces ⬝ before fun b => b!">" <+: b ∨ b!"/>" <+: b) a ts b)
    (fun a ts b => a ++ b ≠ [] ∧ (Spaces ⬝ fun a ts b => (¬ b!">" <+: a ++ b ∧ ¬ b!"/>" <+: a ++ b) ∧ Attribute False a ts b) a ts b)))

/-- A start tag, or the tag of an empty element. -/
def StartTag : Phrase := word b!"<" .symbol_punc ⬝
  or (NoName [b!"/>", b!">"]) (SomeName .markup_tag [b!"/>", b!">"] ⬝ Attributes ⬝
    or (word b!">" .symbol_punc) (or (word b!"/>" .symbol_punc) (before fun b => ¬ b!">" <+: b ∧ ¬ b!"/>" <+: b)))

/-- An end tag. -/
def EndTag : Phrase := word b!"</" .symbol_punc ⬝
  or (NoName [b!">"]) (SomeName .markup_tag [b!">"] ⬝ Spaces ⬝ maybe b!">" .symbol_punc)

/-! ## The document type declaration -/

/-- The identifier of the external subset, if it is separated from what follows.  What follows `PUBLIC` and `SYSTEM`
otherwise is left to the code for the declarations. -/
inductive External : Phrase where
  | system {a ts b} (h : (word b!"SYSTEM" .keyword ⬝ (fun a ts b => (∀ c, (a ++ b).head? = some c → Space c) ∧ Spaces a ts b) ⬝
      or Value NoValue) a ts b) : External a ts b
  | «public» {a ts b} (h : (word b!"PUBLIC" .keyword ⬝ (fun a ts b => (∀ c, (a ++ b).head? = some c → Space c) ∧ Spaces a ts b) ⬝
      or Value NoValue ⬝ Spaces ⬝ or Value NoValue) a ts b) : External a ts b
  | longer {w b} (hw : w = b!"SYSTEM" ∨ w = b!"PUBLIC") (h : w <+: b) (e : ∃ c, b[6]? = some c ∧ ¬ Space c) : External [] [] b
  | none {b} (h : b!"[" <+: b) : External [] [] b
  /-- Anything else is skipped up to the next whitespace. -/
  | other {a ts b} (h0 : ∀ w ∈ [b!"SYSTEM", b!"PUBLIC", b!"["], ¬ w <+: a ++ b)
      (h : (all (fun c => ¬ Space c) ⬝ Spaces ⬝ or Value NoValue ⬝ Spaces ⬝ or Value NoValue) a ts b) : External a ts b

/-- Keywords of declarations.  Those other than the types of attributes do not have to be separated from what follows. -/
inductive Keyword : Bytes → Bytes → Prop where
  | attType {w b} (h : w ∈ attTypes) (e : ∀ c, b.head? = some c → Space c ∨ c = c!">") : Keyword w b
  | other {w b} (h : w ∈ keywords) : Keyword w b

/-- A part of a declaration. -/
inductive DeclPart : Phrase where
  | symbol {c b} (h : c ∈ b!")(|*,") : DeclPart [c] [⟨0, 1, .symbol_punc⟩] b
  | keyword {w b} (h : Keyword w b) : DeclPart w [⟨0, w.length, .keyword⟩] b
  | entity {a b} (h : EntityRef (a ++ b) a.length) : DeclPart a [⟨0, a.length, .string_escape⟩] b
  | name {a b} (h0 : a ≠ []) (h : LongestChars NameChar (a ++ b) a.length) (hk : ∀ v t, a ++ b = v ++ t → ¬ Keyword v t) :
      DeclPart a [⟨0, a.length, .name⟩] b
  | value {a ts b} (h : Value a ts b) : DeclPart a ts b
  | junk {a b} (h : Longest (fun c => ¬ Space c ∧ c ≠ c!">") (a ++ b) a.length) (h1 : NotFirst b!"()|*,'\"" (a ++ b))
      (h2 : LongestChars NameChar (a ++ b) 0) (h3 : ∀ v t, a ++ b = v ++ t → ¬ Keyword v t) (h4 : ∀ m, ¬ EntityRef (a ++ b) m) :
      DeclPart a [] b

/-- A declaration, without the `>` at its end. -/
def Declaration : Phrase := fun a ts b => ¬ b!"<!--" <+: a ++ b ∧ (word b!"<!" .name_macro ⬝ Name .name_macro [] ⬝ Spaces ⬝
  or (word b!"%" .symbol_punc ⬝ Spaces) (before fun b => ¬ b!"%" <+: b) ⬝ Name .name [] ⬝ Spaces ⬝
  star (DeclPart ⬝ Spaces) (before fun b => b = [] ∨ b!">" <+: b)) a ts b

/-- The declarations in square brackets, after which `]` and `>` are optional. -/
def Subset : Phrase := word b!"[" .symbol_punc ⬝ Spaces ⬝
  star (or Comment (or Instruction Declaration) ⬝ Spaces ⬝ maybe b!">" .name_macro ⬝ Spaces)
    (before fun b => ¬ b!"<!" <+: b ∧ ¬ b!"<?" <+: b) ⬝
  or (word b!"]" .symbol_punc ⬝ Spaces ⬝ maybe b!">" .name_macro) (before fun b => ¬ b!"]" <+: b)

/-- A document type declaration. -/
def Doctype : Phrase := word b!"<!" .name_macro ⬝ Name .name_macro [b!"[", b!">"] ⬝ Spaces ⬝ Name .name [b!"[", b!">"] ⬝ Spaces ⬝
  External ⬝ Spaces ⬝ or Subset (before fun b => ¬ b!"[" <+: b)

/-! ## The XML declaration -/

/-- A number such as `1.0`, without quotation marks. -/
inductive Version : Phrase where
  | number {ds es b} (h : ds ≠ [] ∧ ∀ c ∈ ds, DecDigit c) (h' : es ≠ []) (he : Longest DecDigit (es ++ b) es.length)
      (e : ∀ c, b.head? = some c → c ≠ c!".") :
      Version (ds ++ b!"." ++ es) [⟨0, ds.length, .number⟩, ⟨ds.length, 1, .symbol_punc⟩, ⟨ds.length + 1, es.length, .number⟩] b
  | none {c b} (h : ¬ DecDigit c ∧ c ≠ c!"." ∧ c ≠ 0) : Version [] [] (c :: b)

/-- An attribute of the XML declaration, without whitespace before and after `=`. -/
def DeclAttr (name : Bytes) (value : Phrase) : Phrase :=
  or (word name .markup_attr ⬝ or (word b!"=" .symbol_punc ⬝ or (before fun b => b = []) (fun a ts b => a ++ b ≠ [] ∧ value a ts b))
      (before fun b => ¬ b!"=" <+: b))
    (before fun b => ¬ name <+: b)

/-- The XML declaration. -/
def XmlDecl : Phrase := word b!"<?xml" .name_macro ⬝ Spaces ⬝ DeclAttr b!"version" Version ⬝ Spaces ⬝
  DeclAttr b!"encoding" (or Value NoValue) ⬝ Spaces ⬝ DeclAttr b!"standalone" (or Value NoValue) ⬝ Spaces ⬝ maybe b!"?>" .name_macro

/-- What comes before the elements. -/
def Prolog : Phrase := or XmlDecl (before fun b => ¬ b!"<?xml" <+: b) ⬝
  star (or Instruction (or Comment Spaces))
    (before fun b => ¬ b!"<?" <+: b ∧ ¬ b!"<!--" <+: b ∧ ∀ c, b.head? = some c → ¬ Space c) ⬝
  or Doctype (before fun b => ¬ b!"<!" <+: b)

/-! ## Documents -/

/-- Where an element can be. -/
inductive Place where
  | start
  | content

/-- A lexical element of XML. -/
inductive Element : Place → Bytes → List Token → Bytes → Place → Prop where
  | prolog {a ts b} (h : Prolog a ts b) : Element .start a ts b .content
  | comment {a ts b} (h : Comment a ts b) : Element .content a ts b .content
  | cdata {a ts b} (h : CData a ts b) : Element .content a ts b .content
  | instruction {a ts b} (h : Instruction a ts b) : Element .content a ts b .content
  | endTag {a ts b} (h : EndTag a ts b) : Element .content a ts b .content
  | startTag {a ts b} (h : StartTag a ts b) (h0 : ∀ w ∈ [b!"<!--", b!"<![CDATA[", b!"<?", b!"</"], ¬ w <+: a ++ b) :
      Element .content a ts b .content
  | text {t b} (h : t ≠ []) (h' : Longest (fun c => c ≠ c!"<" ∧ c ≠ c!"&") (t ++ b) t.length) : Element .content t [] b .content
  | ref {w b} (h : Html.RefContent w) : Element .content (b!"&" ++ w ++ b!";") [⟨0, w.length + 2, .string_escape⟩] b .content
  | badRef {b} (h : Html.NoRef (b!"&" ++ b) 0) : Element .content b!"&" [⟨0, 1, .error⟩] b .content

end Ulight.Spec.Xml
