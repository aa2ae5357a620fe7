import Verif.Spec.Program
import Verif.Spec.Lang.Lua

/-!
# The lexical elements of Lua
-/

namespace Ulight.Spec.Lua

/-- The closing long bracket with `k` equals signs is in the text `t ++ close k` only at its end. -/
def Body (k : Nat) (t : Bytes) : Prop := ∀ j, j < t.length → ¬ OccursAt (close k) (t ++ close k) j

/-- The text `a` is a lexical element with the tokens `ts` if the text `b` follows.  Comments and strings in long brackets
have a token for their content even if it is empty. -/
inductive Element : Bytes → List Token → Bytes → Prop where
  | attr {b} : Element b!"<const>" (parts 0 [(b!"<", .name_attr_delim), (b!"const", .name_attr), (b!">", .name_attr_delim)]) b
  | space {w b} (h : w ≠ []) (h' : Longest Space (w ++ b) w.length) : Element w [] b
  | lineComment {t b} (h : Longest (· ≠ c!"\n") (t ++ b) t.length) (h' : ∀ k, ¬ OccursAt (open_ k) (t ++ b) 0) :
      Element (b!"--" ++ t) [⟨0, 2, .comment_delim⟩, ⟨2, t.length, .comment⟩] b
  | blockComment {k t b} (h : Body k t) :
      Element (b!"--" ++ open_ k ++ t ++ close k)
        [⟨0, k + 4, .comment_delim⟩, ⟨k + 4, t.length, .comment⟩, ⟨k + 4 + t.length, k + 2, .comment_delim⟩] b
  /-- a comment up to the end of the file -/
  | openComment {k t} (h : ∀ j, ¬ OccursAt (close k) t j) :
      Element (b!"--" ++ open_ k ++ t) [⟨0, k + 4, .comment_delim⟩, ⟨k + 4, t.length, .comment⟩] []
  | longString {k t b} (h : Body k t) :
      Element (open_ k ++ t ++ close k) [⟨0, k + 2, .string⟩, ⟨k + 2, t.length, .string⟩, ⟨k + 2 + t.length, k + 2, .string⟩] b
  /-- a string up to the end of the file -/
  | openString {k t} (h : ∀ j, ¬ OccursAt (close k) t j) :
      Element (open_ k ++ t) [⟨0, k + 2, .string⟩, ⟨k + 2, t.length, .string⟩] []
  | string {q t b} (hq : q = c!"\"" ∨ q = c!"'") (h : Quoted q (t ++ b) t.length) : Element (q :: t) [⟨0, t.length + 1, .string⟩] b
  | number {w b} (h : w ≠ []) (h' : Hex (w ++ b) w.length ∨ Decimal (w ++ b) w.length) : Element w [⟨0, w.length, .number⟩] b
  | keyword {w ty b} (h : Identifier IdStart IdContinue (w ++ b) w.length) (h' : (w, ty) ∈ words) : Element w [⟨0, w.length, ty⟩] b
  | name {w b} (h : Identifier IdStart IdContinue (w ++ b) w.length) (h' : ∀ ty, (w, ty) ∉ words) :
      Element w [⟨0, w.length, .name⟩] b
  | symbol {w ty b} (h : LongestIn symbols (w ++ b) w.length) (h' : (w, ty) ∈ words) (h'' : Lua.Plain (w ++ b)) :
      Element w [⟨0, w.length, ty⟩] b
  /-- any other byte -/
  | other {c b} (h : ∀ w ∈ symbols, ¬ OccursAt w (c :: b) 0) (h' : Lua.Plain (c :: b)) : Element [c] [⟨0, 1, .symbol⟩] b

end Ulight.Spec.Lua
