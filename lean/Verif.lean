import Verif.Basic
import Verif.Search
import Verif.Types
import Verif.Langs
import Verif.TypeStrings
import Verif.Buffer
import Verif.Props.Lookup
import Verif.Spec.Tokens
import Verif.Spec.Html
import Verif.Spec.Ready
import Verif.Props.Api
import Verif.Props.Utf8
import Verif.Props.Text
import Verif.Props.Parse
import Verif.Props.Escapes
import Verif.Props.Numbers
import Verif.Props.EditScript
import Verif.Props.Lang.Diff
import Verif.Props.Lang.Tex
import Verif.Props.Lang.Ebnf
import Verif.Props.Lang.Json
import Verif.Props.Lang.JsonParse
import Verif.Hl.Match
import Verif.Lang.Llvm
import Verif.Lang.Bash
import Verif.Spec.Lang.Bash
import Verif.Props.Lang.Llvm
import Verif.Props.Lang.Bash
import Verif.Spec.Lang.Llvm
import Verif.Lang.CppCommon
import Verif.Hl.Chars
import Verif.Spec.Lang.CppId
import Verif.Lang.Python
import Verif.Spec.Lang.Python
import Verif.Props.Lang.Python
import Verif.Hl.Whole
import Verif.Lang.Css
import Verif.Spec.Lang.Css
import Verif.Props.Lang.Css
import Verif.Props.Lang.Java
import Verif.Props.Lang.Kotlin
import Verif.Props.Lang.Rust
import Verif.Props.Lang.Nasm
import Verif.Props.Lang.Lua
import Verif.Props.Lang.Html
import Verif.Props.Lang.Xml
import Verif.Props.Lang.Cowel
import Verif.Props.Lang.Cpp
import Verif.Props.Lang.Js
import Verif.Props.Lang.Markdown
import Verif.Props.Lang.Yaml
import Verif.Dispatch
import Verif.Spec.Supported
import Verif.Props.Dispatch
import Verif.Props.Coalesce
import Verif.Props.SplitEbnf
import Verif.Props.Split
import Verif.Spec.Compose
import Verif.Hl.Compose
import Verif.Props.Compose.Java
import Verif.Props.Compose.Kotlin
import Verif.Props.Program.Java
import Verif.Props.Program.Python
import Verif.Props.Program.Rust
import Verif.Props.Program.Llvm
import Verif.Props.Program.Cpp
import Verif.Props.Program.Bash
import Verif.Props.Program.Nasm
import Verif.Props.Program.Lua
import Verif.Props.Program.Css
import Verif.Props.Program.Kotlin
import Verif.Props.Program.Html
import Verif.Props.Program.Xml
import Verif.Props.Program.Yaml
import Verif.Props.Program.Cowel
import Verif.Props.Program.JavaScript
import Verif.Props.Program.Markdown
import Verif.Props.Written.Java
import Verif.Props.Written.Kotlin
import Verif.Props.Written.Legal
import Verif.Props.Written.Llvm
import Verif.Props.Written.Python
import Verif.Props.Written.Rust
import Verif.Props.Compose.Python
import Verif.Props.Compose.Rust
import Verif.Props.Compose.Llvm
