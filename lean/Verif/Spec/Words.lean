import Verif.Types

/-!
# Lists of words
-/

namespace Ulight.Spec

/-- The words of a line, with a space between each two of them. -/
def wordsOf : Bytes → List Bytes
  | [] => [[]]
  | c :: t =>
    match wordsOf t with
    | [] => [[c]]
    | w :: ws => if c = 0x20 then [] :: w :: ws else (c :: w) :: ws

/-- The words of the given lines, each with the attribute of its line. -/
def vocabulary {α : Type} (lines : List (α × Bytes)) : List (Bytes × α) :=
  lines.flatMap fun l => (wordsOf l.2).map fun w => (w, l.1)

example : vocabulary [(true, b!"if a"), (false, b!"x")] = [(b!"if", true), (b!"a", true), (b!"x", false)] := by decide

end Ulight.Spec
