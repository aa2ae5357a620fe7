import Verif.Api

/-!
# When a state is ready for highlighting, in the words of the documentation
-/

namespace Ulight.Spec

/-- A pointer and a length describe the text `s`. -/
def Points (p : Option Bytes) (len : Nat) (s : Bytes) : Prop :=
  s.length = len ∧ ((p = none ∧ len = 0) ∨ ∃ rest, p = some (s ++ rest))

/-- The state is ready for `ulight_source_to_tokens` on the source `src`: the language is a real
one, and there is a token buffer and a callback. -/
structure TokensReady (st : State) (src : Bytes) : Prop where
  source : Points st.source st.sourceLen src
  lang_pos : 0 < st.lang
  lang_lt : st.lang < 26
  tokenBuf : st.tokenBuf = true
  tokenBufLen : 0 < st.tokenBufLen
  flushTokens : st.flushTokens = .user

/-- The state is ready for `ulight_source_to_html` on the source `src` with the given tag and
attribute names.  (`flush_tokens` need not be set.) -/
structure HtmlReady (st : State) (src tag attr : Bytes) : Prop where
  source : Points st.source st.sourceLen src
  lang_pos : 0 < st.lang
  lang_lt : st.lang < 26
  tokenBuf : st.tokenBuf = true
  tokenBufLen : 0 < st.tokenBufLen
  textBuf : st.textBuf = true
  textBufLen : 0 < st.textBufLen
  flushText : st.flushText = true
  tagPtr : Points st.htmlTag st.htmlTagLen tag
  tag_ne : tag ≠ []
  attrPtr : Points st.htmlAttr st.htmlAttrLen attr
  attr_ne : attr ≠ []

end Ulight.Spec
