import Verif.Props.Written.Java
import Verif.Props.Written.Kotlin
import Verif.Props.Written.Python
import Verif.Props.Written.Rust

/-!
# C57: legal numbers that do not get the tokens of their parts
-/

namespace Ulight

open Spec

/-- The number gets the tokens of its parts at the end of a text. -/
abbrev Shown (hl : Highlight) (n : Written) : Prop := Piece hl n.text (parts 0 n.parts) []

/-- The radix point may be the last character of a number in Java, Python and Rust ([JLS 3.10.2], [Python 2.6],
[Rust 2.6]).  At the end of the text that is an error. -/
theorem C57_last_point : ¬ Shown Java.highlight { int := [b!"1"], point := b!"." } ∧
    ¬ Shown Python.highlight { int := [b!"1"], point := b!"." } ∧
    ¬ Shown Rust.highlight { int := [b!"1"], point := b!"." } := by
  refine ⟨not_piece [] [⟨0, 2, .error, .normal⟩] ?_ ?_ ?_, not_piece [] [⟨0, 2, .error, .normal⟩] ?_ ?_ ?_,
    not_piece [] [⟨0, 2, .error, .normal⟩] ?_ ?_ ?_⟩ <;> decide +kernel

/-- The radix point may be the first character of a number in Python, but that is an error. -/
theorem C57_python_first_point : ¬ Shown Python.highlight { point := b!".", frac := [b!"5"] } := by
  refine not_piece [] [⟨0, 2, .error, .normal⟩] ?_ ?_ ?_ <;> decide +kernel

/-- Several underscores may stand between digits in Java, Kotlin and Rust, but that is an error. -/
theorem C57_underscores : ¬ Shown Java.highlight { int := [b!"1", b!"", b!"2"] } ∧
    ¬ Shown Kotlin.highlight { int := [b!"1", b!"", b!"2"] } ∧
    ¬ Shown Rust.highlight { int := [b!"1", b!"", b!"2"] } := by
  refine ⟨not_piece [] [⟨0, 4, .error, .normal⟩] ?_ ?_ ?_, not_piece [] [⟨0, 4, .error, .normal⟩] ?_ ?_ ?_,
    not_piece [] [⟨0, 4, .error, .normal⟩] ?_ ?_ ?_⟩ <;> decide +kernel

example : Written.text { int := [b!"1", b!"", b!"2"] } = b!"1__2" := by decide

/-- An underscore may follow a prefix in Python and Rust, but that is an error. -/
theorem C57_prefix_underscore : ¬ Shown Python.highlight { pre := b!"0x", int := [b!"", b!"f"] } ∧
    ¬ Shown Rust.highlight { pre := b!"0x", int := [b!"", b!"f"] } := by
  refine ⟨not_piece [] [⟨0, 4, .error, .normal⟩] ?_ ?_ ?_, not_piece [] [⟨0, 4, .error, .normal⟩] ?_ ?_ ?_⟩ <;>
    decide +kernel

/-- The parts of `1e1_0`. -/
def tenth : List (Bytes × HT) :=
  [(b!"1", .number), (b!"e", .number_delim), (b!"1", .number), (b!"_", .number_delim), (b!"0", .number)]

/-- Underscores may stand between the digits of an exponent in Java, Kotlin, Python and Rust.  The number ends there, and
the rest is an error, a name or a suffix. -/
theorem C57_exponent_underscore : (tenth.flatMap Prod.fst = b!"1e1_0") ∧
    ¬ Piece Java.highlight b!"1e1_0" (parts 0 tenth) [] ∧ ¬ Piece Kotlin.highlight b!"1e1_0" (parts 0 tenth) [] ∧
    ¬ Piece Python.highlight b!"1e1_0" (parts 0 tenth) [] ∧ ¬ Piece Rust.highlight b!"1e1_0" (parts 0 tenth) [] := by
  refine ⟨by decide, not_piece [] [⟨0, 1, .number, .normal⟩, ⟨1, 1, .number_delim, .normal⟩, ⟨2, 1, .number, .normal⟩,
      ⟨3, 2, .error, .normal⟩] ?_ ?_ ?_,
    not_piece [] [⟨0, 1, .number, .normal⟩, ⟨1, 1, .number_delim, .normal⟩, ⟨2, 1, .number, .normal⟩,
      ⟨3, 2, .error, .normal⟩] ?_ ?_ ?_,
    not_piece [] [⟨0, 1, .number, .normal⟩, ⟨1, 1, .number_delim, .normal⟩, ⟨2, 1, .number, .normal⟩,
      ⟨3, 2, .name, .normal⟩] ?_ ?_ ?_,
    not_piece [] [⟨0, 1, .number, .normal⟩, ⟨1, 1, .number_delim, .normal⟩, ⟨2, 1, .number, .normal⟩,
      ⟨3, 2, .number_decor, .normal⟩] ?_ ?_ ?_⟩ <;> decide +kernel

end Ulight
