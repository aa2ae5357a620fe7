import Verif.Api
import Verif.Lang.Bash
import Verif.Lang.Cowel
import Verif.Lang.Cpp
import Verif.Lang.Css
import Verif.Lang.Diff
import Verif.Lang.Ebnf
import Verif.Lang.Html
import Verif.Lang.Java
import Verif.Lang.Js
import Verif.Lang.Json
import Verif.Lang.Kotlin
import Verif.Lang.Llvm
import Verif.Lang.Lua
import Verif.Lang.Markdown
import Verif.Lang.Nasm
import Verif.Lang.Python
import Verif.Lang.Rust
import Verif.Lang.Tex
import Verif.Lang.Xml
import Verif.Lang.Yaml

/-!
# The table of highlighters
-/

namespace Ulight

/-- `highlight_txt` (include/ulight/impl/highlight.hpp:57-65). -/
def highlightTxt : Highlight := fun _ _ _ => .ok (true, [])

/-- `highlight_html` with the highlighters it uses for style sheets and scripts: they are looked up in
the same table (src/main/cpp/lang/html.cpp:401, 406). -/
def highlightHtml : Highlight := Html.highlight Css.highlight (Js.highlight .javascript)

/-- `highlight_functions` (include/ulight/impl/highlight.hpp:84-113), in the order of that file.
`highlight_latex` (66-74) is `highlight_tex`. -/
def table : List (Nat × Highlight) :=
  [(Lang.bash, Bash.highlight),
   (Lang.c, Cpp.highlightC),
   (Lang.cowel, Cowel.highlight),
   (Lang.cpp, Cpp.highlight),
   (Lang.css, Css.highlight),
   (Lang.diff, Diff.highlight),
   (Lang.ebnf, Ebnf.highlight),
   (Lang.html, highlightHtml),
   (Lang.java, Java.highlight),
   (Lang.javascript, Js.highlight .javascript),
   (Lang.json, Json.highlight),
   (Lang.jsonc, Json.highlightC),
   (Lang.kotlin, Kotlin.highlight),
   (Lang.latex, Tex.highlight),
   (Lang.llvm, Llvm.highlight),
   (Lang.lua, Lua.highlight),
   (Lang.markdown, Markdown.highlight),
   (Lang.nasm, Nasm.highlight),
   (Lang.python, Python.highlight),
   (Lang.rust, Rust.highlight),
   (Lang.tex, Tex.highlight),
   (Lang.txt, highlightTxt),
   (Lang.typescript, Js.highlight .typescript),
   (Lang.xml, Xml.highlight),
   (Lang.yaml, Yaml.highlight)]

/-- The lookup in `highlight_functions` (include/ulight/impl/highlight.hpp:118-121). -/
def dispatch : Dispatch := fun lang => (table.find? fun e => e.1 == lang).map fun e => e.2

end Ulight
