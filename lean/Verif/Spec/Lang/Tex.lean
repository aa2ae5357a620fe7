import Verif.Emit

/-!
# Specification of the highlighting of TeX
-/

namespace Ulight.Spec

/-- An ASCII letter. -/
def TexLetter (c : UInt8) : Prop :=
  (0x41 ≤ c.toNat ∧ c.toNat ≤ 0x5A) ∨ (0x61 ≤ c.toNat ∧ c.toNat ≤ 0x7A)

/-- `TexTokens p s ts`: the tokens of the text `s`, which begins at offset `p` of the source. -/
inductive TexTokens : Nat → Bytes → List Token → Prop where
  | nil (p) : TexTokens p [] []
  /-- ordinary text -/
  | text {p c s ts} (hc : c ∉ b!"[]{}\\~%$#&^_@") (h : TexTokens (p + 1) s ts) :
      TexTokens p (c :: s) ts
  | square {p c s ts} (hc : c ∈ b!"[]") (h : TexTokens (p + 1) s ts) :
      TexTokens p (c :: s) (⟨p, 1, .symbol_square⟩ :: ts)
  | brace {p c s ts} (hc : c ∈ b!"{}") (h : TexTokens (p + 1) s ts) :
      TexTokens p (c :: s) (⟨p, 1, .symbol_brace⟩ :: ts)
  | special {p c s ts} (hc : c ∈ b!"~%$#&^_@") (h : TexTokens (p + 1) s ts) :
      TexTokens p (c :: s) (⟨p, 1, .symbol_op⟩ :: ts)
  /-- a command: the longest run of letters after a backslash -/
  | command {p name s ts} (ne : name ≠ []) (hn : ∀ c ∈ name, TexLetter c)
      (longest : ∀ c, s.head? = some c → ¬ TexLetter c) (h : TexTokens (p + (name.length + 1)) s ts) :
      TexTokens p (c!"\\" :: (name ++ s)) (⟨p, name.length + 1, .markup_tag⟩ :: ts)
  | escape {p c s ts} (hc : ¬ TexLetter c) (h : TexTokens (p + 2) s ts) :
      TexTokens p (c!"\\" :: c :: s) (⟨p, 2, .string_escape⟩ :: ts)
  | trailing (p) : TexTokens p [c!"\\"] [⟨p, 1, .error⟩]

end Ulight.Spec
