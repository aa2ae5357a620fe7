import Verif.Spec.Lang.Common
import Verif.Text.Ascii

/-!
# Identifiers of C++, which other languages share

The Unicode predicates are the published ranges, see `C17_xid`.
-/

namespace Ulight.Spec.CppId

/-- A character that can begin an identifier. -/
def Start (c : Nat) : Prop := c = 0x5F ∨ isXidStart c = true

/-- A character of an identifier. -/
def Continue (c : Nat) : Prop := c = 0x5F ∨ isXidContinue c = true

end Ulight.Spec.CppId
