import Verif.Spec.Parse
import Verif.Emit

/-!
# Specification of the highlighting of diffs
-/

namespace Ulight.Spec

/-- The kind of a nonempty line in a unified or context diff
(<https://www.gnu.org/software/diffutils/manual/html_node/Detailed-Unified.html>). -/
inductive DiffLine : Bytes → HT → Prop where
  /-- `--- file`, `+++ file`, `*** file` -/
  | oldFile (t) : DiffLine (b!"--- " ++ t) .diff_heading
  | newFile (t) : DiffLine (b!"+++ " ++ t) .diff_heading
  | contextFile (t) : DiffLine (b!"*** " ++ t) .diff_heading
  /-- `***************` -/
  | contextHunk (n) : DiffLine (List.replicate (n + 1) c!"*") .diff_heading
  /-- `@@ … @@` -/
  | hunk (t) : DiffLine (b!"@@ " ++ t) .diff_heading_hunk
  | deletion (t) (h : ∀ u, c!"-" :: t ≠ b!"--- " ++ u) : DiffLine (c!"-" :: t) .diff_deletion
  | insertion (t) (h : ∀ u, c!"+" :: t ≠ b!"+++ " ++ u) : DiffLine (c!"+" :: t) .diff_insertion
  | modification (t) : DiffLine (c!"!" :: t) .diff_modification
  | at (t) (h : ∀ u, c!"@" :: t ≠ b!"@@ " ++ u) : DiffLine (c!"@" :: t) .diff_common
  | star (t) (h : ∀ u, c!"*" :: t ≠ b!"*** " ++ u) (h' : ∃ c ∈ t, c ≠ c!"*") :
      DiffLine (c!"*" :: t) .diff_common
  | common (c t) (h : c ∉ b!"-+*!@") : DiffLine (c :: t) .diff_common

/-- `DiffTokens p s ts`: the tokens for the text `s`, which begins at a line start at offset `p` of
the source: one for each nonempty line, and none for the others. -/
inductive DiffTokens : Nat → Bytes → List Token → Prop where
  | nil (p) : DiffTokens p [] []
  | empty {p s term rest ts} (line : FirstLine s [] term rest) (ne : s ≠ [])
      (h : DiffTokens (p + term.length) rest ts) : DiffTokens p s ts
  | line {p s content term rest ty ts} (line : FirstLine s content term rest) (ne : content ≠ [])
      (kind : DiffLine content ty) (h : DiffTokens (p + content.length + term.length) rest ts) :
      DiffTokens p s (⟨p, content.length, ty⟩ :: ts)

end Ulight.Spec
