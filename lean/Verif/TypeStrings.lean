import Verif.Types

/-!
# Strings of highlight types
-/

namespace Ulight

/-- `highlight_type_long_string` (include/ulight/ulight.hpp:326-344): a `switch` with one case per
table row, and `return {}` after it.  The argument is the numeric value. -/
def longString (v : Nat) : Bytes :=
  match hlTable.find? (fun r => r.1.val == v) with
  | some r => r.2.2.1
  | none => []

/-- `highlight_type_short_string` (include/ulight/ulight.hpp:348-366), also
`ulight_highlight_type_id` (src/main/cpp/ulight.cpp:301-304). -/
def shortString (v : Nat) : Bytes :=
  match hlTable.find? (fun r => r.1.val == v) with
  | some r => r.2.2.2
  | none => []

/-- Every enumerator occurs in the table; used to enumerate all highlight types. -/
def allHT : List HT := hlTable.map (·.1)

theorem mem_allHT (t : HT) : t ∈ allHT := by
  cases t <;> decide +kernel

end Ulight
