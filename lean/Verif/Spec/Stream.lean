import Verif.Spec.Tokens

/-!
# Specification of complete highlightings

`Rules` says what a language promises about its tokens: `tok s n ty` is about a token of type `ty`
that covers the first `n` bytes of the text `s` (which goes on to the end of the source), and
`gap s n` is about `n` bytes without highlighting at the beginning of `s`.
-/

namespace Ulight.Spec

/-- A token for `s` at offset `p`, unless `s` is empty. -/
def opt (p : Nat) (s : Bytes) (ty : HT) : List Token :=
  if s = [] then [] else [⟨p, s.length, ty⟩]

/-- Tokens moved by `p`. -/
def shift (p : Nat) (ts : List Token) : List Token := ts.map fun t => ⟨p + t.beg, t.len, t.ty⟩

/-- What a language promises about its tokens and about the text between them. -/
structure Rules where
  tok : Bytes → Nat → HT → Prop
  gap : Bytes → Nat → Prop

/-- `Tiles R src p ts`: the tokens `ts` and the gaps between them partition the first `p` bytes of
`src`; tokens are nonempty and have a type other than `none`, and tokens and gaps obey the rules. -/
inductive Tiles (R : Rules) (src : Bytes) : Nat → List Token → Prop where
  | nil : Tiles R src 0 []
  | gap {p ts} (n : Nat) (h : Tiles R src p ts) (le : p + n ≤ src.length)
      (rule : R.gap (src.drop p) n) : Tiles R src (p + n) ts
  | tok {p ts} (n : Nat) (ty : HT) (h : Tiles R src p ts) (pos : 0 < n) (le : p + n ≤ src.length)
      (some : ty ≠ .none) (rule : R.tok (src.drop p) n ty) :
      Tiles R src (p + n) (ts ++ [⟨p, n, ty⟩])

/-- No promises beyond well-formedness. -/
def Rules.any : Rules := ⟨fun _ _ _ => True, fun _ _ => True⟩

/-- Promises about the text of a token only. -/
def Rules.text (tok : Bytes → HT → Prop) (gap : Bytes → Prop) : Rules :=
  ⟨fun s n ty => tok (s.take n) ty, fun s n => gap (s.take n)⟩

theorem Tiles.le {R : Rules} {src : Bytes} {p : Nat} {ts : List Token} (h : Tiles R src p ts) :
    p ≤ src.length := by
  cases h <;> simp_all

/-- Weaker rules. -/
theorem Tiles.mono {R R' : Rules} {src : Bytes} {p : Nat} {ts : List Token} (h : Tiles R src p ts)
    (ht : ∀ s n ty, R.tok s n ty → R'.tok s n ty) (hg : ∀ s n, R.gap s n → R'.gap s n) :
    Tiles R' src p ts := by
  induction h with
  | nil => exact .nil
  | gap n _ le rule ih => exact .gap n ih le (hg _ _ rule)
  | tok n ty _ pos le some rule ih => exact .tok n ty ih pos le some (ht _ _ _ rule)

theorem wellFormedFrom_snoc {n lo : Nat} {ts : List Token} {t : Token}
    (h : WellFormedFrom n lo ts) (hlo : lo ≤ t.beg) (hts : ∀ u ∈ ts, u.beg + u.len ≤ t.beg)
    (hl : 0 < t.len) (hn : t.beg + t.len ≤ n) (ht : t.ty ≠ .none) :
    WellFormedFrom n lo (ts ++ [t]) := by
  induction ts generalizing lo with
  | nil => exact ⟨hlo, hl, hn, ht, trivial⟩
  | cons u ts ih =>
    obtain ⟨h1, h2, h3, h4, h5⟩ := h
    exact ⟨h1, h2, h3, h4, ih h5 (hts u (by simp)) (fun v hv => hts v (by simp [hv]))⟩

theorem Tiles.wf {R : Rules} {src : Bytes} {p : Nat} {ts : List Token} (h : Tiles R src p ts) :
    WellFormed src.length ts ∧ ∀ t ∈ ts, t.beg + t.len ≤ p := by
  induction h with
  | nil => exact ⟨trivial, by simp⟩
  | gap n _ le rule ih => exact ⟨ih.1, fun t ht => by have := ih.2 t ht; omega⟩
  | @tok p ts n ty _ pos le some rule ih =>
    refine ⟨wellFormedFrom_snoc ih.1 (by simp) ih.2 pos le some, ?_⟩
    intro t ht
    simp at ht
    rcases ht with ht | rfl
    · have := ih.2 t ht; omega
    · simp

/-- Every token obeys the rule. -/
theorem Tiles.tok_rule {R : Rules} {src : Bytes} {p : Nat} {ts : List Token} (h : Tiles R src p ts) :
    ∀ t ∈ ts, R.tok (src.drop t.beg) t.len t.ty := by
  induction h with
  | nil => simp
  | gap n _ le rule ih => exact ih
  | tok n ty _ pos le some rule ih =>
    intro t ht
    simp at ht
    rcases ht with ht | rfl
    · exact ih t ht
    · exact rule

/-- Every byte that no token covers is in a gap. -/
theorem Tiles.gap_rule {R : Rules} {src : Bytes} {p : Nat} {ts : List Token} (h : Tiles R src p ts) :
    ∀ q < p, (∃ t ∈ ts, Covers t q) ∨
      ∃ b n, b ≤ q ∧ q < b + n ∧ b + n ≤ src.length ∧ R.gap (src.drop b) n := by
  induction h with
  | nil => omega
  | @gap p ts n _ le rule ih =>
    intro q hq
    by_cases h : q < p
    · exact ih q h
    · exact Or.inr ⟨p, n, by omega, by omega, le, rule⟩
  | @tok p ts n ty _ pos le some rule ih =>
    intro q hq
    by_cases h : q < p
    · rcases ih q h with ⟨t, ht, hc⟩ | h
      · exact Or.inl ⟨t, by simp [ht], hc⟩
      · exact Or.inr h
    · exact Or.inl ⟨⟨p, n, ty⟩, by simp, by simp [Covers]; omega⟩

end Ulight.Spec
