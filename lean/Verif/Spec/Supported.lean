import Verif.Langs
import Verif.Spec.Utf8
import Verif.Spec.Lang.Html
import Verif.Spec.Lang.JavaScript
import Verif.Spec.Lang.Lua
import Verif.Spec.Lang.Markdown
import Verif.Spec.Lang.Rust
import Verif.Spec.Lang.Yaml

/-!
# Which sources are highlighted without fault

Languages that are not mentioned have no condition.  For each condition, a theorem shows a source for
which highlighting goes wrong without it: `C07_css_runs_forever`, `C51_differences`, `C48_reference_at_end`,
`C48_longer_name`, `C52_strings_needed`, `C52_braces_needed`, `C06_lua_empty`, `C53_comments_needed`,
`C45_assertion_fails`, `C54_many_keys`.
-/

namespace Ulight.Spec

/-- `src` is fine in language `lang`, in builds with or without debug assertions. -/
structure Supported (debug : Bool) (lang : Nat) (src : Bytes) : Prop where
  utf8 : lang = Lang.c ∨ lang = Lang.cpp ∨ lang = Lang.css ∨ lang = Lang.html → IsUtf8 src
  html : lang = Lang.html → Html.Sane src ∧ ∀ b, Html.ContentOf b!"script" src b →
    JavaScript.StringsFit b ∧ JavaScript.BracesFit b
  strings : lang = Lang.javascript ∨ lang = Lang.typescript → JavaScript.StringsFit src
  braces : lang = Lang.javascript → JavaScript.BracesFit src
  lua : lang = Lang.lua → Lua.Filled src
  markdown : lang = Lang.markdown → Markdown.CommentsFit src
  rust : lang = Lang.rust → debug = true → ∀ k, ¬ Rust.QuotedLifetime (src.drop k)
  yaml : lang = Lang.yaml → Yaml.marks src ≤ 64

end Ulight.Spec
