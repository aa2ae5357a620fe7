import Verif.Types
import Verif.TypeStrings
import Verif.Emit

/-!
# Specification of the HTML output

Independent of buffers and of the order in which things are flushed.
-/

namespace Ulight.Spec

/-- The text of one source byte in HTML: the three markup characters become entities. -/
def escapeByte (c : UInt8) : Bytes :=
  if c = c!"<" then b!"&lt;" else if c = c!">" then b!"&gt;" else if c = c!"&" then b!"&amp;" else [c]

/-- HTML text for a string. -/
def escape (s : Bytes) : Bytes := s.flatMap escapeByte

/-- Positions `[a, b)` of `s`. -/
def slice (s : Bytes) (a b : Nat) : Bytes := (s.drop a).take (b - a)

/-- One element `<tag attr=id>content</tag>`. -/
def element (tag attr id content : Bytes) : Bytes :=
  b!"<" ++ tag ++ b!" " ++ attr ++ b!"=" ++ id ++ b!">" ++ content ++ b!"</" ++ tag ++ b!">"

/-- The HTML of a token stream, from source position `pos` on: one element per token, plain escaped
text for everything between and after the tokens. -/
def render (tag attr src : Bytes) : Nat → List Token → Bytes
  | pos, [] => escape (src.drop pos)
  | pos, t :: ts =>
    escape (slice src pos t.beg) ++
    element tag attr (shortString t.ty.val) (escape (slice src t.beg (t.beg + t.len))) ++
    render tag attr src (t.beg + t.len) ts

/-- What a reader of the HTML sees: tags are skipped, the three entities are decoded.  `none` if
the text is not well formed (an unfinished tag, a stray `>` or an unknown entity). -/
def decode (s : Bytes) : Option Bytes :=
  match s with
  | [] => some []
  | c :: r =>
    if c = c!"<" then
      match _h : r.dropWhile (· ≠ c!">") with
      | [] => none
      | _ :: r' => decode r'
    else if c = c!">" then none
    else if c = c!"&" then
      if b!"lt;".isPrefixOf r then (decode (r.drop 3)).map (c!"<" :: ·)
      else if b!"gt;".isPrefixOf r then (decode (r.drop 3)).map (c!">" :: ·)
      else if b!"amp;".isPrefixOf r then (decode (r.drop 4)).map (c!"&" :: ·)
      else none
    else (decode r).map (c :: ·)
termination_by s.length
decreasing_by
  all_goals simp_wf
  · have h1 := congrArg List.length _h
    have h2 := (List.dropWhile_sublist (l := r) (fun x => decide (x ≠ c!">"))).length_le
    simp only [List.length_cons] at h1
    omega
  all_goals omega

/-- Text without markup: ordinary characters and the three entities. -/
inductive IsText : Bytes → Prop
  | nil : IsText []
  | char {c r} : c ≠ c!"<" → c ≠ c!">" → c ≠ c!"&" → IsText r → IsText (c :: r)
  | lt {r} : IsText r → IsText (b!"&lt;" ++ r)
  | gt {r} : IsText r → IsText (b!"&gt;" ++ r)
  | amp {r} : IsText r → IsText (b!"&amp;" ++ r)

/-- A legal unquoted attribute value: no whitespace, quotes, `=`, `<`, `>`, `&` or backtick. -/
def IsUnquoted (s : Bytes) : Prop :=
  s ≠ [] ∧ ∀ c ∈ s, c ∉ b!" \t\n\r\"'=<>&`"

/-- Text and non-nested elements with the given tag and attribute name. -/
inductive IsHtml (tag attr : Bytes) : Bytes → Prop
  | text {s} : IsText s → IsHtml tag attr s
  | elem {before id content rest} : IsText before → IsUnquoted id → IsText content →
      IsHtml tag attr rest →
      IsHtml tag attr (before ++ element tag attr id content ++ rest)

end Ulight.Spec
