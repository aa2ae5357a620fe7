import Verif.Spec.Compose
import Verif.Spec.Written
import Verif.Spec.Escapes

/-!
# Texts that are sequences of lexical elements
-/

namespace Ulight.Spec

/-- A text that is a sequence of lexical elements, and its tokens.  `E a ts b` says that the text `a` is a lexical
element with the tokens `ts` if the text `b` follows it. -/
inductive Program (E : Bytes → List Token → Bytes → Prop) : Bytes → List Token → Prop where
  | nil : Program E [] []
  | cons {a ts b us} (h : E a ts b) (h' : Program E b us) : Program E (a ++ b) (ts ++ shift a.length us)

/-- Texts that are sequences of these elements get exactly the tokens of the elements. -/
def Exact (hl : Highlight) (E : Bytes → List Token → Bytes → Prop) : Prop :=
  ∀ src ts, Program E src ts → ∀ debug opts, ∃ es, hl debug opts src = .ok (true, es) ∧ es.map Emit.token = ts

/-- The same for languages in which lexical elements depend on what came before.  `E x a ts b y` says that the text `a` is
a lexical element with the tokens `ts` in the state `x` if the text `b` follows it, and that `y` is the state after it. -/
inductive ProgramIn (E : σ → Bytes → List Token → Bytes → σ → Prop) : σ → Bytes → List Token → Prop where
  | nil {x} : ProgramIn E x [] []
  | cons {x a ts b y us} (h : E x a ts b y) (h' : ProgramIn E y b us) : ProgramIn E x (a ++ b) (ts ++ shift a.length us)

/-- Texts that are sequences of these elements, from the state `x` on, get exactly the tokens of the elements.  The
elements may depend on the options. -/
def ExactIn (hl : Highlight) (E : Opts → σ → Bytes → List Token → Bytes → σ → Prop) (x : σ) : Prop :=
  ∀ opts src ts, ProgramIn (E opts) x src ts → ∀ debug, ∃ es, hl debug opts src = .ok (true, es) ∧ es.map Emit.token = ts

/-- `w` is an escape, and it would not be longer together with what follows. -/
def EscapeForms.Ends (F : EscapeForms) (w b : Bytes) : Prop :=
  F.Is IsEscape w ∧ ∀ m, w.length < m → m ≤ (w ++ b).length → ¬ F.Is IsEscape ((w ++ b).take m)

/-- The parts of the content of a string: plain text and escapes by turns, and plain text at the end.  Each plain text
may be empty.  Escapes have the type `ty`. -/
def content (es : List (Bytes × Bytes)) (t : Bytes) (ty : HT := .string_escape) : List (Bytes × HT) :=
  match es with
  | [] => [(t, .string)]
  | (u, w) :: es => (u, .string) :: (w, ty) :: content es t ty

/-- `P` holds for what follows each position in the text `t`, where `b` follows it. -/
def Plain (P : Bytes → Prop) (t b : Bytes) : Prop := ∀ k, k < t.length → P ((t ++ b).drop k)

/-- The text does not begin with one of these characters. -/
def NotFirst (xs : Bytes) (s : Bytes) : Prop := ∀ c, s.head? = some c → c ∉ xs

/-- `P` holds for what follows each position in the plain text, and `esc w b` holds for each escape `w` and what follows
it, where `b` follows the string. -/
def StringContent (P : Bytes → Prop) (esc : Bytes → Bytes → Prop) (b : Bytes) (es : List (Bytes × Bytes)) (t : Bytes) : Prop :=
  match es with
  | [] => Plain P t b
  | (u, w) :: es => Plain P u (w ++ ((content es t).flatMap Prod.fst ++ b)) ∧ esc w ((content es t).flatMap Prod.fst ++ b) ∧
      StringContent P esc b es t

/-- The parts of a string with the quotation marks `q`. -/
def quoted (q : Bytes) (es : List (Bytes × Bytes)) (t : Bytes) : List (Bytes × HT) :=
  (q, .string_delim) :: content es t ++ [(q, .string_delim)]

end Ulight.Spec
