import Verif.Spec.Lang.Html

/-!
# Specification of XML highlighting (https://www.w3.org/TR/xml/)

Where the code differs from the standard, the specification says so.
-/

namespace Ulight.Spec.Xml

/-- Whitespace. -/
def Space (c : UInt8) : Prop := c ∈ ([0x20, 0x09, 0x0A, 0x0D] : Bytes)

/-- The first character of a name. -/
def NameStart (c : Nat) : Prop :=
  (∃ b : UInt8, b.toNat = c ∧ Letter b) ∨
  c ∈ [0x3A, 0x5F] ∨ ∃ r ∈ [(0xC0, 0xD6), (0xD8, 0xF6), (0xF8, 0x2FF), (0x370, 0x37D), (0x37F, 0x1FFF),
    (0x200C, 0x200D), (0x2070, 0x218F), (0x2C00, 0x2FEF), (0x3001, 0xD7FF),
    (0xF900, 0xFDCF), (0xFDF0, 0xFFFD), (0x10000, 0xEFFEF)], r.1 ≤ c ∧ c ≤ r.2

/-- A character of a name.  The standard also has the hyphen, and characters up to U+EFFFF. -/
def NameChar (c : Nat) : Prop :=
  NameStart c ∨ (∃ b : UInt8, b.toNat = c ∧ DecDigit b) ∨ c ∈ [0x2E, 0xB7] ∨
  ∃ r ∈ [(0x300, 0x36F), (0x203F, 0x2040)], r.1 ≤ c ∧ c ≤ r.2

/-- The types of attributes. -/
def attTypes : List Bytes :=
  [b!"CDATA", b!"ID", b!"IDREF", b!"IDREFS", b!"ENTITY", b!"ENTITIES", b!"NMTOKEN", b!"NMTOKENS",
    b!"NOTATION"]

/-- The other keywords of declarations. -/
def keywords : List Bytes :=
  [b!"#REQUIRED", b!"#IMPLIED", b!"#FIXED", b!"PUBLIC", b!"SYSTEM", b!"EMPTY", b!"ANY", b!"NDATA", b!"#PCDATA"]

/-- `EntityRef s n`: the first `n` bytes of `s` are `&`, a name (which may be empty) and `;`. -/
def EntityRef (s : Bytes) (n : Nat) : Prop :=
  ∃ w t, s = b!"&" ++ w ++ b!";" ++ t ∧ n = w.length + 2 ∧ LongestChars NameChar w w.length

/-- What each token is. -/
inductive Tok : Bytes → Nat → HT → Prop where
  | commentOpen {s n} (h : s.take n = b!"<!--") : Tok s n .comment_delim
  /-- the text of a comment, which ends at the first `--` -/
  | commentText {s n} (h : UpTo b!"--" s n) : Tok s n .comment
  | commentClose {s n} (h : s.take n = b!"-->") : Tok s n .comment_delim
  | macro_ {s n} (h : s.take n ∈ [b!"<![CDATA[", b!"]]>", b!"<?xml", b!"?>", b!"<!", b!">"]) :
      Tok s n .name_macro
  | symbol {s n} (h : s.take n ∈ [b!"</", b!">", b!"/>", b!"=", b!"<?", b!"?>", b!"[", b!"]", b!"(", b!")",
      b!"|", b!"*", b!",", b!"%", b!"."]) : Tok s n .symbol_punc
  /-- `<`, unless it begins something other than a start tag -/
  | open_ {s n} (h : s.take n = b!"<")
      (other : ∀ w ∈ [b!"<!--", b!"<![CDATA[", b!"<?", b!"</"], s.take w.length ≠ w) :
      Tok s n .symbol_punc
  /-- a name, as long as possible -/
  | name {s n ty} (h : LongestChars NameChar s n) (t : ty ∈ [HT.name_macro, .name, .markup_tag, .markup_attr]) :
      Tok s n ty
  /-- the attributes of the XML declaration -/
  | attribute {s n} (h : s.take n ∈ [b!"version", b!"encoding", b!"standalone"]) : Tok s n .markup_attr
  /-- a byte of a character that does not belong in a name, or not at its beginning -/
  | badName {s n c p rest} (h : s = p ++ rest) (f : FirstChar c p rest) (b : ¬ NameStart c) (hn : n = 1) :
      Tok s n .error
  | badRef {s n} (h : s.take n = b!"&") (r : Html.NoRef s 0) : Tok s n .error
  | badOpen {s n} (h : s.take n = b!"<") : Tok s n .error
  | ref {s n} (h : Html.Ref s n) : Tok s n .string_escape
  | entityRef {s n} (h : EntityRef s n) : Tok s n .string_escape
  | quote {s n} (h : s.take n ∈ [b!"\"", b!"'"]) : Tok s n .string_delim
  /-- part of an attribute value -/
  | value {s n q} (hq : q = c!"\"" ∨ q = c!"'") (h : Longest (fun c => c ≠ q ∧ c ≠ c!"<" ∧ c ≠ c!"&") s n) :
      Tok s n .string
  /-- digits of the version -/
  | number {s n} (h : ∀ c ∈ s.take n, DecDigit c) : Tok s n .number
  | attType {s n} (h : s.take n ∈ attTypes) (e : ∀ c, s[n]? = some c → Space c ∨ c = c!">") : Tok s n .keyword
  | keyword {s n} (h : s.take n ∈ keywords) : Tok s n .keyword

/-- What is between the tokens. -/
inductive Gap : Bytes → Nat → Prop where
  | space {s n} (h : Longest Space s n) : Gap s n
  /-- text up to the next tag or reference -/
  | text {s n} (h : Longest (fun c => c ≠ c!"<" ∧ c ≠ c!"&") s n) : Gap s n
  /-- the text of a processing instruction -/
  | instruction {s n} (h : ∀ k, k < n → ¬ OccursAt b!"?>" s k) : Gap s n
  | cdata {s n} (h : UpTo b!"]]>" s n) : Gap s n
  /-- something that does not belong in a declaration -/
  | junk {s n} (h : Longest (fun c => ¬ Space c ∧ c ≠ c!">") s n) (name : LongestChars NameChar s 0)
      (other : ∀ c, s[0]? = some c → c ∉ b!"()|*,'\"") (key : ∀ w ∈ keywords, s.take w.length ≠ w)
      (ref : ∀ m, ¬ EntityRef s m) : Gap s n
  /-- In a document type declaration, what comes after the name is skipped up to the next whitespace, even
  if that is far after the end of the declaration. -/
  | word {s n} (h : Longest (fun c => ¬ Space c) s n) (other : s.take 1 ≠ b!"[")
      (key : ∀ w ∈ [b!"PUBLIC", b!"SYSTEM"], s.take w.length ≠ w) : Gap s n

/-- XML. -/
def rules : Rules := ⟨Tok, Gap⟩

end Ulight.Spec.Xml
