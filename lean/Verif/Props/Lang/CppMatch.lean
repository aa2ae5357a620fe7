import Verif.Hl.Parts
import Verif.Hl.Whole
import Verif.Hl.Words
import Verif.Spec.Lang.Cpp

/-!
# C and C++: what the matching functions find
-/

namespace Ulight.Cpp

open Spec Spec.Cpp Utf8

set_option maxRecDepth 4000

theorem space_iff (c : UInt8) : isWhitespace c = true ↔ Space c := by
  simp [isWhitespace, Space]
  grind

theorem dchar_iff (c : UInt8) : isDChar c = true ↔ DChar c := by
  have := space_iff c
  simp only [isDChar, DChar, Bool.and_eq_true, Bool.not_eq_true', decide_eq_true_eq]
  rw [← this]
  simp [UInt8.lt_iff_toNat_lt]
  grind

theorem tokens_sorted : SortedTable tokens := by decide +kernel

theorem tokens_some : ∀ e ∈ tokens, e.2.1 ≠ .none := by decide +kernel

/-! ## Line splices -/

theorem newlineEscapeLoop_spec (s : Bytes) (k : Nat) :
    (∃ ws rest, s = ws ++ 0x0A :: rest ∧ (∀ c ∈ ws, Space c ∧ c ≠ 0x0A) ∧
      newlineEscapeLoop k s = k + ws.length + 1) ∨
    (newlineEscapeLoop k s = 0 ∧ ∀ ws rest, s = ws ++ 0x0A :: rest → ¬ ∀ c ∈ ws, Space c ∧ c ≠ 0x0A) := by
  induction s generalizing k with
  | nil => exact Or.inr ⟨rfl, by simp⟩
  | cons c s ih =>
    rw [newlineEscapeLoop]
    by_cases h : c = 0x0A
    · subst h
      exact Or.inl ⟨[], s, by simp⟩
    · rw [if_neg h]
      by_cases hw : isWhitespace c = true
      · simp only [hw, Bool.not_true, Bool.false_eq_true, if_false]
        rcases ih (k + 1) with ⟨ws, rest, h1, h2, h3⟩ | ⟨h1, h2⟩
        · refine Or.inl ⟨c :: ws, rest, by simp [h1], ?_, by simp; omega⟩
          intro d hd
          rcases List.mem_cons.1 hd with rfl | hd
          · exact ⟨(space_iff d).1 hw, h⟩
          · exact h2 d hd
        · refine Or.inr ⟨h1, ?_⟩
          rintro (_ | ⟨a, ws⟩) rest e h3
          · simp at e; exact h e.1
          · simp at e
            exact h2 ws rest e.2 fun c hc => h3 c (by simp [hc])
      · simp only [hw]
        refine Or.inr ⟨by simp, ?_⟩
        rintro (_ | ⟨a, ws⟩) rest e h3
        · simp at e; exact h e.1
        · simp at e
          exact hw ((space_iff c).2 (e.1 ▸ (h3 a (by simp)).1))

theorem splice_facts (s : Bytes) :
    (matchNewlineEscape s = 0 ∧ ∀ k, ¬ Splice s k) ∨
    (2 ≤ matchNewlineEscape s ∧ matchNewlineEscape s ≤ s.length ∧ Splice s (matchNewlineEscape s)) := by
  unfold matchNewlineEscape
  split
  · rename_i h
    refine Or.inl ⟨rfl, ?_⟩
    rintro k ⟨ws, rest, rfl, _⟩
    simp at h
  · rename_i h
    simp at h
    obtain ⟨t, rfl⟩ := startsWith_iff.1 h
    rcases newlineEscapeLoop_spec t 1 with ⟨ws, rest, h1, h2, h3⟩ | ⟨h1, h2⟩
    · refine Or.inr ?_
      simp only [List.cons_append, List.nil_append, List.drop_succ_cons, List.drop_zero, h3]
      exact ⟨by omega, by rw [h1]; simp; omega, ws, rest, by rw [h1], h2, by omega⟩
    · refine Or.inl ⟨by simpa using h1, ?_⟩
      rintro k ⟨ws, rest, e, h3, _⟩
      simp at e
      exact h2 ws rest e h3

theorem splice_len {s : Bytes} {k : Nat} (h : Splice s k) : 2 ≤ k ∧ k ≤ s.length := by
  obtain ⟨ws, rest, rfl, _, rfl⟩ := h
  simp

/-! ## Comments -/

theorem lineLoop_spec (fuel : Nat) (s : Bytes) (hf : s.length ≤ fuel) :
    Line s (lineLoop fuel s) ∧ lineLoop fuel s ≤ s.length := by
  induction fuel generalizing s with
  | zero =>
    have : s = [] := List.eq_nil_of_length_eq_zero (by omega)
    subst this
    exact ⟨Line.done (Or.inl rfl), by simp [lineLoop]⟩
  | succ fuel ih =>
    rw [lineLoop]
    split
    · exact ⟨Line.done (Or.inl (by assumption)), by omega⟩
    rename_i hne
    split
    · rename_i h
      simp at h
      refine ⟨Line.done (Or.inr ?_), by omega⟩
      rcases h with h | h
      · exact Or.inl (startsWith_facts h _ rfl).2
      · exact Or.inr (startsWith_facts h _ rfl).2
    rename_i hnl
    simp only [Bool.or_eq_true, not_or] at hnl
    obtain ⟨c, t, rfl⟩ := List.exists_cons_of_ne_nil hne
    simp at hf
    rcases splice_facts (c :: t) with ⟨h1, h2⟩ | ⟨h1, h2, h3⟩
    · simp only [h1, ne_eq, not_true_eq_false, if_false, List.drop_succ_cons, List.drop_zero]
      obtain ⟨i1, i2⟩ := ih t (by omega)
      rw [Nat.add_comm 1]
      refine ⟨Line.char ?_ ?_ h2 i1, by simp; omega⟩
      · rintro rfl
        exact hnl.1 (by simp)
      · intro e
        refine hnl.2 (startsWith_iff.2 ⟨(c :: t).drop 2, ?_⟩)
        rw [← e, List.take_append_drop]
    · have : matchNewlineEscape (c :: t) ≠ 0 := by omega
      simp only [this, ne_eq, not_false_eq_true, if_true]
      have hl : ((c :: t).drop (matchNewlineEscape (c :: t))).length ≤ fuel := by
        rw [List.length_drop]; simp; omega
      obtain ⟨i1, i2⟩ := ih _ hl
      rw [List.length_drop] at i2
      exact ⟨Line.splice h3 i1, by omega⟩

theorem lineComment_facts (s : Bytes) :
    (matchLineComment s = 0 ∧ startsWith s b!"//" = false) ∨
    (2 ≤ matchLineComment s ∧ matchLineComment s ≤ s.length ∧ s.take 2 = b!"//" ∧
      Line (s.drop 2) (matchLineComment s - 2)) := by
  unfold matchLineComment
  by_cases h : startsWith s b!"//" = true
  · obtain ⟨h1, h2⟩ := startsWith_facts h _ rfl
    simp only [h, Bool.not_true, Bool.false_eq_true, if_false]
    obtain ⟨i1, i2⟩ := lineLoop_spec s.length (s.drop 2) (by simp)
    simp at h1 i2
    refine Or.inr ⟨by omega, by omega, h2, ?_⟩
    rwa [Nat.add_sub_cancel_left]
  · simp at h
    simp [h]

/-! ## Symbols -/

/-- The table has the words of the specification. -/
theorem words_iff (x : Bytes × HT × Source) : x ∈ tokens ↔ x ∈ words := sameWords_iff (by decide +kernel) x

/-- The symbols in the order of the table. -/
def sortedSymbols (cpp : Bool) : List Bytes := (tokens.filter fun e =>
  ((e.1.take 1).all fun c => !isAlpha c && c ≠ c!"_") && (cpp || e.2.2 ≠ .cpp)).map Prod.fst

theorem sortedSymbols_iff (cpp : Bool) (w : Bytes) : w ∈ sortedSymbols cpp ↔ w ∈ symbols cpp := by
  simp only [sortedSymbols, symbols, List.mem_map, List.mem_filter, words_iff]

theorem symbols_sorted (cpp : Bool) : (sortedSymbols cpp).Pairwise (fun a b => bytesLt a b = true) := by
  cases cpp <;> decide +kernel

theorem symbols_tokens (cpp : Bool) : ∀ w ∈ sortedSymbols cpp, ∃ ty, (w, ty) ∈ tokens := by
  intro w hw
  simp only [sortedSymbols, List.mem_filter, List.mem_map] at hw
  obtain ⟨e, ⟨he, _⟩, rfl⟩ := hw
  exact ⟨e.2, he⟩

/-- The exceptions from the longest match. -/
def opOf (w : Bytes) : Bytes := if w = b!"%>" then b!":>" else w

/-- The condition at cpp.cpp:494. -/
def isLess (s : Bytes) : Bool := startsWith s b!"<::" && !startsWith s b!"<:::" && !startsWith s b!"<::>"

theorem matchOp_eq (cpp : Bool) (t : Bytes) (hl : isLess t = false) :
    matchOp cpp t = ((sortedSymbols cpp).reverse.find? (startsWith t ·)).map opOf := by
  have e1 : sortedSymbols true = [b!"!", b!"!=", b!"#", b!"##", b!"%", b!"%:", b!"%:%:", b!"%=", b!"%>", b!"&", b!"&&",
    b!"&=", b!"(", b!")", b!"*", b!"*=", b!"+", b!"++", b!"+=", b!",", b!"-", b!"--", b!"-=", b!"->", b!"->*",
    b!".", b!".*", b!"...", b!"/", b!"/=", b!":", b!"::", b!":>", b!";", b!"<", b!"<%", b!"<:", b!"<<", b!"<<=",
    b!"<=", b!"<=>", b!"=", b!"==", b!">", b!">=", b!">>", b!">>=", b!"?", b!"[", b!"]", b!"^", b!"^=",
    b!"^^", b!"{", b!"|", b!"|=", b!"||", b!"}", b!"~"] := by decide +kernel
  have e2 : sortedSymbols false = [b!"!", b!"!=", b!"#", b!"##", b!"%", b!"%:", b!"%:%:", b!"%=", b!"%>", b!"&", b!"&&",
    b!"&=", b!"(", b!")", b!"*", b!"*=", b!"+", b!"++", b!"+=", b!",", b!"-", b!"--", b!"-=", b!"->",
    b!".", b!"...", b!"/", b!"/=", b!":", b!":>", b!";", b!"<", b!"<%", b!"<:", b!"<<", b!"<<=",
    b!"<=", b!"=", b!"==", b!">", b!">=", b!">>", b!">>=", b!"?", b!"[", b!"]", b!"^", b!"^=",
    b!"{", b!"|", b!"|=", b!"||", b!"}", b!"~"] := by decide +kernel
  match t with
  | [] => cases cpp <;> simp only [e1, e2] <;> rfl
  | c :: t =>
    rw [find_tails c t (sortedSymbols cpp) (by cases cpp <;> decide +kernel)]
    by_cases hc : c ∈ b!"!#%&()*+,-./:;<=>?[]^{|}~"
    · simp only [List.mem_cons, List.not_mem_nil, or_false] at hc
      cases cpp <;> simp only [e1, e2] <;> clear e1 e2
      all_goals
        rcases hc with rfl | rfl | rfl | rfl | rfl | rfl | rfl | rfl | rfl | rfl | rfl | rfl | rfl | rfl |
          rfl | rfl | rfl | rfl | rfl | rfl | rfl | rfl | rfl | rfl | rfl <;>
        (try simp [isLess, startsWith_cons_cons] at hl) <;>
        simp [matchOp, tailsOf, opOf, startsWith_cons_cons, find_startsWith_cons, apply_ite (Option.map _)] <;>
        (try (rcases t with _ | ⟨a, _ | ⟨b, _ | ⟨d, _⟩⟩⟩ <;> simp [startsWith_cons_cons] at hl ⊢ <;> grind))
    · simp only [List.mem_cons, List.not_mem_nil, or_false, not_or] at hc
      have hc' := hc
      simp only [eq_comm (a := c)] at hc'
      cases cpp <;> simp only [e1, e2] <;> simp [matchOp, hc, tailsOf, hc']

theorem isLess_iff (t : Bytes) : isLess t = true ↔ LessColons t := by
  unfold isLess LessColons
  rcases t with _ | ⟨a, _ | ⟨b, _ | ⟨c, _ | ⟨d, t⟩⟩⟩⟩ <;> simp [startsWith_cons_cons] <;> grind

theorem byCode_iff (w : Bytes) (e : HT × Source) : byCode w = some e ↔ (w, e) ∈ words :=
  (table_lookup tokens_sorted w e).trans (words_iff _)

theorem op_facts (cpp strict : Bool) (prev : Option UInt8) (t : Bytes) :
    (∃ w e, matchOp cpp t = some w ∧ byCode w = some e ∧ e.1 ≠ .none ∧ 0 < w.length ∧ w.length ≤ t.length ∧
      Tok cpp strict prev t w.length e.1 ∧ (w = b!"#" ∨ w = b!"%:" → t.take w.length = w)) ∨
    (matchOp cpp t = none ∧ ∀ w ∈ symbols cpp, startsWith t w = false) := by
  cases hl : isLess t with
  | true =>
    have h := (isLess_iff t).1 hl
    refine Or.inl ⟨b!"<", (.symbol_op, .c_cpp), ?_, by decide +kernel, by simp, by simp, ?_,
      Tok.less rfl h, by simp⟩
    · simp only [isLess, Bool.and_eq_true] at hl
      obtain ⟨u, rfl⟩ := startsWith_iff.1 hl.1.1
      have := hl.1.2
      have := hl.2
      simp_all [matchOp]
    · have := congrArg List.length h.1
      rw [List.length_take] at this
      simp at this ⊢
      omega
  | false =>
    rw [matchOp_eq cpp t hl]
    have hl' : ¬ LessColons t := by rw [← isLess_iff, hl]; simp
    rcases symbol_facts (symbols_sorted cpp) (symbols_tokens cpp) t with
      ⟨w, e, h, h1, h2, h3, h4, h5, h6⟩ | h
    · refine Or.inl ⟨opOf w, ?_⟩
      rw [h]
      have hw : 0 < w.length := by
        have : ∀ cpp, ∀ w ∈ sortedSymbols cpp, 0 < w.length := by decide +kernel
        exact this cpp w h2
      by_cases hb : w = b!"%>"
      · subst hb
        exact ⟨(.symbol_square, .c_cpp), by simp [opOf], by decide +kernel, by simp, by simp [opOf],
          by simpa [opOf] using h4, Tok.rightBrace (by simpa [opOf] using h5), by simp [opOf]⟩
      · have : opOf w = w := by simp [opOf, hb]
        rw [this]
        exact ⟨e, by simp [this], (byCode_iff w e).2 ((words_iff _).1 h1), tokens_some _ h1, hw, h4,
          Tok.symbol (src := e.2) (longestIn_congr (sortedSymbols_iff cpp) h6) hl' (by rwa [h5])
            ((words_iff _).1 (by rwa [h5])), fun _ => h5⟩
    · exact Or.inr ⟨by simpa using h.1, fun w hw => h.2 w ((sortedSymbols_iff cpp w).2 hw)⟩

/-! ## Raw strings -/

theorem rawTerminator_iff (d s : Bytes) : isRawTerminator d s = startsWith s (b!")" ++ d ++ b!"\"") := by
  rw [Bool.eq_iff_iff]
  simp only [isRawTerminator, Bool.and_eq_true, startsWith_iff]
  constructor
  · rintro ⟨⟨⟨t, rfl⟩, u, h⟩, v, h2⟩
    simp only [List.cons_append, List.nil_append, List.drop_succ_cons, List.drop_zero] at h
    subst h
    refine ⟨v, ?_⟩
    rw [Nat.add_comm] at h2
    simp at h2
    simp [h2]
  · rintro ⟨t, rfl⟩
    refine ⟨⟨⟨_, by simp; rfl⟩, ⟨c!"\"" :: t, by simp⟩⟩, ⟨t, ?_⟩⟩
    rw [Nat.add_comm]
    simp

theorem rawLoop_spec (d s : Bytes) (n : Nat) :
    ∃ k b, rawLoop d n s = (n + k, b) ∧ k ≤ s.length ∧ UpTo (b!")" ++ d ++ b!"\"") s k ∧
      (b = true → startsWith (s.drop k) (b!")" ++ d ++ b!"\"") = true) ∧ (b = false → k = s.length) := by
  induction s generalizing n with
  | nil => exact ⟨0, false, rfl, by simp, ⟨by simp, Or.inl rfl⟩, by simp, by simp⟩
  | cons c s ih =>
    rw [rawLoop, rawTerminator_iff]
    split
    · rename_i h
      exact ⟨0, true, rfl, by simp, ⟨by simp, Or.inr (by rw [occursAt_iff]; simpa using h)⟩,
        by simpa using h, by simp⟩
    · rename_i h
      obtain ⟨k, b, h1, h2, ⟨h3, h3'⟩, h4, h5⟩ := ih (n + 1)
      refine ⟨k + 1, b, by rw [h1]; simp; omega, by simp; omega, ⟨?_, ?_⟩, by simpa using h4, ?_⟩
      · intro j hj
        match j with
        | 0 => rw [occursAt_iff] at hj; exact absurd (by simpa using hj) h
        | j + 1 =>
          have := h3 j (by rw [occursAt_iff] at hj ⊢; simpa using hj)
          omega
      · rcases h3' with h | h
        · exact Or.inl (by simp; omega)
        · exact Or.inr (by rw [occursAt_iff] at h ⊢; simpa using h)
      · intro hb; simp [h5 hb]

/-! ## Escape sequences -/

/-- The escapes with a prefix of two characters. -/
def longEscapes : List (UInt8 × EscapeKind) := [(c!"u", .hex_4), (c!"u", .hex_braced), (c!"U", .hex_8),
  (c!"x", .hex_1_to_inf), (c!"x", .hex_braced), (c!"o", EscapeKind.octal_braced)]

/-- An escape sequence after the backslash. -/
def EscapeRest (c : UInt8) (t : Bytes) : Prop :=
  (c ∈ simple ∧ t = []) ∨ (Octal c ∧ IsEscape .octal_1_to_3 (c :: t)) ∨
  (∃ k, (c, k) ∈ longEscapes ∧ IsEscape k t) ∨
  (c = c!"N" ∧ ∃ d, d ≠ [] ∧ c!"}" ∉ d ∧ 0x0A ∉ d ∧ t = b!"{" ++ d ++ b!"}") ∨
  ((0x21 ≤ c.toNat ∧ c.toNat ≤ 0x7E) ∧ c ∉ simple ∧ ¬ Octal c ∧ c ∉ b!"NouUx" ∧ t = [])

theorem escape_inv {c : UInt8} {u : Bytes} {m : Nat} (h : EscapeText IsEscape ((c!"\\" :: c :: u).take m)) :
    ∃ j, m = j + 2 ∧ EscapeRest c (u.take j) := by
  have gen : ∀ w, EscapeText IsEscape w → ∃ c t, w = c!"\\" :: c :: t ∧ EscapeRest c t := by
    intro w hw
    cases hw with
    | simple h => exact ⟨_, _, rfl, Or.inl ⟨h, rfl⟩⟩
    | @octal t h =>
      match t, h with
      | [], h => simp [IsEscape] at h
      | c :: t, h => exact ⟨c, t, rfl, Or.inr (Or.inl ⟨h.2.2 c (by simp), h⟩)⟩
    | long h h' => exact ⟨_, _, rfl, Or.inr (Or.inr (Or.inl ⟨_, h, h'⟩))⟩
    | @named d h h' => exact ⟨c!"N", b!"{" ++ d ++ b!"}", by simp, Or.inr (Or.inr (Or.inr (Or.inl
        ⟨rfl, d, h, h'.1, h'.2, rfl⟩)))⟩
    | conditional h h1 h2 h3 => exact ⟨_, _, rfl, Or.inr (Or.inr (Or.inr (Or.inr ⟨h, h1, h2, h3, rfl⟩)))⟩
  obtain ⟨c', t, e, h⟩ := gen _ h
  match m, e with
  | j + 2, e =>
    simp at e
    obtain ⟨rfl, rfl⟩ := e
    exact ⟨j, rfl, h⟩
  | 1, e => simp at e

/-- What is known about an escape sequence that is not a line splice. -/
structure EscapeSays (s : Bytes) (e : EscapeResult) : Prop where
  lo : 2 ≤ e.length
  le : e.length ≤ s.length
  good : e.erroneous = false → EscapeText Accepted (s.take e.length) ∧
    ∀ m, e.length < m → m ≤ s.length → ¬ EscapeText IsEscape (s.take m)
  bad : e.erroneous = true → ∀ m, ¬ EscapeText IsEscape (s.take m)

theorem escape_two {c : UInt8} {u : Bytes} {e : Bool} (h : e = false → EscapeText Accepted [c!"\\", c])
    (h' : e = true → ∀ j, ¬ EscapeRest c (u.take j)) (h1 : e = false → ∀ t, EscapeRest c t → t = []) :
    EscapeSays (c!"\\" :: c :: u) ⟨2, false, e⟩ := by
  refine ⟨by simp, by simp, fun he => ⟨by simpa using h he, ?_⟩, fun he m hm => ?_⟩
  · intro m hm hl hx
    obtain ⟨j, rfl, hr⟩ := escape_inv hx
    have := congrArg List.length (h1 he _ hr)
    rw [List.length_take, List.length_nil] at this
    simp only [List.length_cons] at hm hl
    omega
  · obtain ⟨j, rfl, hr⟩ := escape_inv hm
    exact h' he _ hr

/-- An escape that is one of the common ones; `p` is the length of the prefix. -/
theorem escape_common {c : UInt8} {u : Bytes} {k : EscapeKind} {p : Nat} (hp : p = 1 ∨ p = 2)
    (h2 : p = 1 → (matchCommonEscapeAt k (c!"\\" :: c :: u) p).erroneous = false ∧ k = .octal_1_to_3)
    (mk : ∀ t, Accepted k ((c :: t).drop (p - 1)) → EscapeText Accepted (c!"\\" :: c :: t))
    (inv : ∀ j, EscapeRest c (u.take j) → IsEscape k ((c :: u.take j).drop (p - 1))) :
    EscapeSays (c!"\\" :: c :: u) (.of (matchCommonEscapeAt k (c!"\\" :: c :: u) p)) := by
  have hl := escapeAt_le k (c!"\\" :: c :: u) p (by simp; omega)
  have ek : ∀ j, (c :: u.take j).drop (p - 1) = ((c!"\\" :: c :: u).drop p).take (j + 2 - p) := by
    intro j
    rcases hp with rfl | rfl <;> simp
  have hne : ¬ Accepted k [] := by
    intro h
    cases k <;> simp [Accepted, IsEscape] at h
  have lo : 2 ≤ (matchCommonEscapeAt k (c!"\\" :: c :: u) p).length := by
    rcases hp with rfl | rfl
    · have acc := escapeAt_accepted k (c!"\\" :: c :: u) 1 (h2 rfl).1
      rcases Nat.lt_or_ge (matchCommonEscapeAt k (c!"\\" :: c :: u) 1).length 2 with h | h
      · rw [show (matchCommonEscapeAt k (c!"\\" :: c :: u) 1).length = 1 by omega] at acc
        simp at acc
        exact absurd acc hne
      · exact h
    · exact hl.1
  refine ⟨lo, hl.2, fun he => ⟨?_, ?_⟩, fun he m hm => ?_⟩
  · have acc := escapeAt_accepted k (c!"\\" :: c :: u) p he
    obtain ⟨j, hj⟩ : ∃ j, (matchCommonEscapeAt k (c!"\\" :: c :: u) p).length = j + 2 :=
      ⟨_, (Nat.sub_add_cancel lo).symm⟩
    show EscapeText Accepted (List.take (matchCommonEscapeAt k (c!"\\" :: c :: u) p).length _)
    rw [hj] at acc ⊢
    refine mk _ ?_
    rw [List.drop_take] at acc
    rw [ek]
    exact acc
  · intro m hm hl hx
    obtain ⟨j, rfl, hr⟩ := escape_inv hx
    have hr := inv j hr
    rw [ek] at hr
    have := escape_longest k _ (((c!"\\" :: c :: u).drop p).drop (j + 2 - p)) hr
    rw [List.take_append_drop] at this
    simp only [EscapeResult.of, matchCommonEscapeAt, List.length_take, List.length_drop] at this hm
    omega
  · obtain ⟨j, rfl, hr⟩ := escape_inv hm
    have hr := inv j hr
    rw [ek] at hr
    exact escapeAt_error k _ p he _ _ (List.take_append_drop (j + 2 - p) _).symm (Or.inl hr)

theorem not_splice_of {c : UInt8} {u : Bytes} (h : ¬ Space c) (k : Nat) : ¬ Splice (c!"\\" :: c :: u) k := by
  rintro ⟨ws, rest, e, h1, _⟩
  match ws, e with
  | [], e => simp at e; exact h (by rw [e.1]; simp [Space])
  | a :: ws, e => simp at e; exact h (e.1 ▸ (h1 a (by simp)).1)

theorem not_blank_of {c : UInt8} {u : Bytes} (h : ¬ Space c) : ¬ Blank (c!"\\" :: c :: u) := by
  rintro ⟨_, ⟨d, h1, h2⟩, _⟩
  simp at h1
  exact h (h1 ▸ h2)

theorem escapeRest_octal {c : UInt8} (h : Octal c) {t : Bytes} (hr : EscapeRest c t) :
    IsEscape .octal_1_to_3 (c :: t) := by
  have : Octal c → c ∉ simple ∧ c ≠ c!"N" ∧ ∀ k, (c, k) ∉ longEscapes := by
    intro h
    refine ⟨?_, ?_, ?_⟩
    · intro h'
      simp [simple] at h'
      rcases h' with rfl | rfl | rfl | rfl | rfl | rfl | rfl | rfl | rfl | rfl | rfl <;> simp [Octal] at h
    · rintro rfl; simp [Octal] at h
    · intro k hk
      simp [longEscapes] at hk
      rcases hk with ⟨rfl, _⟩ | ⟨rfl, _⟩ | ⟨rfl, _⟩ | ⟨rfl, _⟩ | ⟨rfl, _⟩ | ⟨rfl, _⟩ <;> simp [Octal] at h
  obtain ⟨h1, h2, h3⟩ := this h
  rcases hr with ⟨hr, _⟩ | ⟨_, hr⟩ | ⟨k, hr, _⟩ | ⟨hr, _⟩ | ⟨_, _, hr, _⟩
  · exact absurd hr h1
  · exact hr
  · exact absurd hr (h3 k)
  · exact absurd hr h2
  · exact absurd h hr

theorem escapeRest_long {c : UInt8} (h : c ∈ b!"uUxo") {t : Bytes} (hr : EscapeRest c t) :
    ∃ k, (c, k) ∈ longEscapes ∧ IsEscape k t := by
  have : ¬ Octal c ∧ c ∉ simple ∧ c ≠ c!"N" ∧ c ∈ b!"NouUx" := by
    simp at h
    rcases h with rfl | rfl | rfl | rfl <;> refine ⟨by simp [Octal], by decide, by decide, by decide⟩
  obtain ⟨h1, h2, h3, h4⟩ := this
  rcases hr with ⟨hr, _⟩ | ⟨hr, _⟩ | hr | ⟨hr, _⟩ | ⟨_, _, _, hr, _⟩
  · exact absurd hr h2
  · exact absurd hr h1
  · exact hr
  · exact absurd hr h3
  · exact absurd h4 hr

theorem escapeRest_name {t : Bytes} (hr : EscapeRest c!"N" t) :
    ∃ d, d ≠ [] ∧ c!"}" ∉ d ∧ 0x0A ∉ d ∧ t = b!"{" ++ d ++ b!"}" := by
  rcases hr with ⟨hr, _⟩ | ⟨hr, _⟩ | ⟨k, hr, _⟩ | ⟨_, hr⟩ | ⟨_, _, _, hr, _⟩
  · exact absurd hr (by decide)
  · simp [Octal] at hr
  · simp [longEscapes] at hr
  · exact hr
  · exact absurd (by decide) hr

/-- Unbraced escapes do not begin with a brace. -/
theorem isEscape_unbraced {k : EscapeKind} (hk : k = .hex_4 ∨ k = .hex_1_to_inf) {t : Bytes} :
    ¬ IsEscape k (c!"{" :: t) := by
  rcases hk with rfl | rfl
  · intro h; exact absurd (h.2 c!"{" (by simp)) (by simp [Hex])
  · intro h; exact absurd (h.2 c!"{" (by simp)) (by simp [Hex])

theorem isEscape_braced {k : EscapeKind} (hk : k = .hex_braced ∨ k = .octal_braced) {t : Bytes}
    (h : IsEscape k t) : t[0]? = some c!"{" := by
  rcases hk with rfl | rfl <;> obtain ⟨ds, rfl, _⟩ := h <;> simp

theorem take_head {u : Bytes} {j : Nat} {c : UInt8} (h : (u.take j)[0]? = some c) : u[0]? = some c := by
  cases j <;> cases u <;> simp_all

theorem isEscape_ne_nil (k : EscapeKind) : ¬ IsEscape k [] := by
  intro h
  cases k <;> simp [IsEscape] at h

/-- Everything about escape sequences. -/
inductive EscapeCases (s : Bytes) (e : EscapeResult) : Prop where
  | alone (h : s = b!"\\") (h' : e.length = 0) : EscapeCases s e
  | splice (h : Splice s e.length) (h' : e.newline = true) : EscapeCases s e
  | blank (h : Blank s) (h' : e.newline = true) (hl : e.length = 2) : EscapeCases s e
  | says (h : EscapeSays s e) (h' : e.newline = false) (hb : ¬ Blank s) (hs : ∀ k, ¬ Splice s k) : EscapeCases s e

theorem basic_facts (c : UInt8) (h : isBasic c = true) (hs : ¬ Space c) : 0x21 ≤ c.toNat ∧ c.toNat ≤ 0x7E := by
  rw [← space_iff] at hs
  revert hs
  revert h
  revert c
  apply forall_byte
  decide +kernel

theorem basic_facts' (c : UInt8) (h : 0x21 ≤ c.toNat ∧ c.toNat ≤ 0x7E) : isBasic c = true := by
  revert h
  revert c
  apply forall_byte
  decide +kernel

theorem octal_iff (c : UInt8) : isOctalDigit c = true ↔ Octal c := by
  unfold Octal
  revert c
  apply forall_byte
  decide +kernel

theorem matchEscape_cons (c : UInt8) (u : Bytes) : matchEscape (c!"\\" :: c :: u) =
    if c ∈ b!"'\"?\\abfnrtv" then ⟨2, false, false⟩
    else if c ∈ b!" \t\x0b\x0c\r" then
      if matchNewlineEscape (c!"\\" :: c :: u) ≠ 0 then ⟨matchNewlineEscape (c!"\\" :: c :: u), true, false⟩
      else ⟨2, true, true⟩
    else if c = 0x0A then ⟨2, true, false⟩
    else if c = c!"u" then
      if u[0]? = some c!"{" then .of (matchCommonEscapeAt .hex_braced (c!"\\" :: c :: u) 2)
      else .of (matchCommonEscapeAt .hex_4 (c!"\\" :: c :: u) 2)
    else if c = c!"U" then .of (matchCommonEscapeAt .hex_8 (c!"\\" :: c :: u) 2)
    else if c = c!"N" then
      if u[0]? = some c!"{" then
        match (c!"\\" :: c :: u).findIdx? (fun c => c = c!"}" || c = 0x0A) with
        | none => ⟨3, false, true⟩
        | some k => if (c!"\\" :: c :: u)[k]? ≠ some c!"}" then ⟨3, false, true⟩ else ⟨k + 1, false, k + 1 ≤ 4⟩
      else ⟨2, false, true⟩
    else if c = c!"x" then
      if u[0]? = some c!"{" then .of (matchCommonEscapeAt .hex_braced (c!"\\" :: c :: u) 2)
      else .of (matchCommonEscapeAt .hex_1_to_inf (c!"\\" :: c :: u) 2)
    else if c = c!"o" then
      if u[0]? = some c!"{" then .of (matchCommonEscapeAt .octal_braced (c!"\\" :: c :: u) 2) else ⟨2, false, true⟩
    else if isOctalDigit c then .of (matchCommonEscapeAt .octal_1_to_3 (c!"\\" :: c :: u) 1)
    else ⟨2, false, !isBasic c⟩ := by
  unfold matchEscape
  rw [if_neg (by simp)]
  rfl

theorem escape_cases (c : UInt8) (u : Bytes) : EscapeCases (c!"\\" :: c :: u) (matchEscape (c!"\\" :: c :: u)) := by
  by_cases hsp : Space c
  · -- line splices
    have hne : c ∉ b!"'\"?\\abfnrtv" := by
      simp [Space] at hsp
      rcases hsp with rfl | rfl | rfl | rfl | rfl | rfl <;> decide
    have hw : c = 0x0A ∨ c ∈ b!" \t\x0b\x0c\r" := by
      simp [Space] at hsp ⊢
      grind
    have hs := splice_facts (c!"\\" :: c :: u)
    by_cases hc : c ∈ b!" \t\x0b\x0c\r"
    · rcases hs with ⟨h1, h2⟩ | ⟨h1, h2, h3⟩
      · have : matchEscape (c!"\\" :: c :: u) = ⟨2, true, true⟩ := by
          rw [matchEscape_cons, if_neg hne, if_pos hc, if_neg (by simp [h1])]
        rw [this]
        exact .blank ⟨by simp, ⟨c, by simp, hsp⟩, h2⟩ rfl rfl
      · have : matchEscape (c!"\\" :: c :: u) = ⟨matchNewlineEscape (c!"\\" :: c :: u), true, false⟩ := by
          have : matchNewlineEscape (c!"\\" :: c :: u) ≠ 0 := by omega
          rw [matchEscape_cons, if_neg hne, if_pos hc, if_pos this]
        rw [this]
        exact .splice h3 rfl
    · obtain rfl : c = 0x0A := by grind
      have : matchEscape (c!"\\" :: 0x0A :: u) = ⟨2, true, false⟩ := by
        rw [matchEscape_cons, if_neg hne, if_neg hc, if_pos rfl]
      rw [this]
      exact .splice ⟨[], u, by simp⟩ rfl
  · have hb := not_blank_of (u := u) hsp
    have hs := not_splice_of (u := u) hsp
    suffices h : EscapeSays (c!"\\" :: c :: u) (matchEscape (c!"\\" :: c :: u)) ∧
        (matchEscape (c!"\\" :: c :: u)).newline = false from .says h.1 h.2 hb hs
    have hws : c ∉ b!" \t\x0b\x0c\r" ∧ c ≠ 0x0A := by
      simp [Space] at hsp ⊢
      grind
    by_cases h1 : c ∈ b!"'\"?\\abfnrtv"
    · have : matchEscape (c!"\\" :: c :: u) = ⟨2, false, false⟩ := by
        rw [matchEscape_cons, if_pos h1]
      rw [this]
      refine ⟨escape_two (fun _ => .simple h1) (by simp) ?_, rfl⟩
      rintro _ t (hr | ⟨hr, _⟩ | ⟨k, hr, _⟩ | ⟨hr, _⟩ | ⟨_, hr, _⟩)
      · exact hr.2
      · have : ∀ c ∈ b!"'\"?\\abfnrtv", ¬ (isOctalDigit c = true) := by decide +kernel
        exact absurd ((octal_iff c).2 hr) (this c h1)
      · have : ∀ c ∈ b!"'\"?\\abfnrtv", ∀ e ∈ longEscapes, e.1 ≠ c := by decide +kernel
        exact absurd rfl (this c h1 _ hr)
      · subst hr; exact absurd h1 (by decide)
      · exact absurd h1 hr
    rw [matchEscape_cons, if_neg h1, if_neg hws.1, if_neg hws.2]
    by_cases hu : c = c!"u"
    · subst hu
      rw [if_pos rfl]
      split
      · rename_i hbr
        refine ⟨escape_common (Or.inr rfl) (by simp) (fun t ht => .long (by simp) ht) ?_, rfl⟩
        intro j hr
        obtain ⟨k, hk, hi⟩ := escapeRest_long (by decide) hr
        simp [longEscapes] at hk
        rcases hk with rfl | rfl
        · exfalso
          match j, u, hbr with
          | 0, _, _ => exact isEscape_ne_nil _ (by simpa using hi)
          | j + 1, a :: u, hbr =>
            simp at hbr
            subst hbr
            exact isEscape_unbraced (Or.inl rfl) hi
        · exact hi
      · rename_i hbr
        refine ⟨escape_common (Or.inr rfl) (by simp) (fun t ht => .long (by simp) ht) ?_, rfl⟩
        intro j hr
        obtain ⟨k, hk, hi⟩ := escapeRest_long (by decide) hr
        simp [longEscapes] at hk
        rcases hk with rfl | rfl
        · exact hi
        · exact absurd (take_head (isEscape_braced (Or.inl rfl) hi)) (by simpa using hbr)
    rw [if_neg hu]
    by_cases hU : c = c!"U"
    · subst hU
      rw [if_pos rfl]
      refine ⟨escape_common (Or.inr rfl) (by simp) (fun t ht => .long (by simp) ht) ?_, rfl⟩
      intro j hr
      obtain ⟨k, hk, hi⟩ := escapeRest_long (by decide) hr
      simp [longEscapes] at hk
      subst hk
      exact hi
    rw [if_neg hU]
    by_cases hN : c = c!"N"
    · subst hN
      rw [if_pos rfl]
      split
      · rename_i hbr
        obtain ⟨a, u, rfl⟩ : ∃ a t, u = a :: t := by
          cases u <;> simp at hbr ⊢
        simp at hbr
        subst hbr
        have hf : (c!"\\" :: c!"N" :: c!"{" :: u).findIdx? (fun c => c = c!"}" || c = 0x0A) =
            (u.findIdx? (fun c => c = c!"}" || c = 0x0A)).map (· + 3) := by
          simp [List.findIdx?_cons, Function.comp_def]
        rw [hf]
        have bad : ∀ e, e = false → (∀ d r, u = d ++ c!"}" :: r → d ≠ [] → c!"}" ∉ d → 0x0A ∉ d → False) →
            ∀ t, ¬ EscapeText IsEscape ((c!"\\" :: c!"N" :: c!"{" :: u).take t) := by
          intro e _ hno m hx
          obtain ⟨j, rfl, hr⟩ := escape_inv hx
          obtain ⟨d, h1, h2, h3, h4⟩ := escapeRest_name hr
          match j, h4 with
          | 0, h4 => simp at h4
          | j + 1, h4 =>
            simp at h4
            refine hno d (u.drop j) ?_ h1 h2 h3
            conv => lhs; rw [← List.take_append_drop j u, h4]
            simp
        cases hx : u.findIdx? (fun c => c = c!"}" || c = 0x0A) with
        | none =>
          refine ⟨⟨by simp, by simp, by simp, fun _ => ?_⟩, rfl⟩
          refine bad false rfl ?_
          rintro d r rfl h1 h2 h3
          rw [List.findIdx?_eq_none_iff] at hx
          have := hx c!"}" (by simp)
          simp at this
        | some k =>
          rw [List.findIdx?_eq_some_iff_getElem] at hx
          obtain ⟨hk, hk1, hk2⟩ := hx
          simp only [Option.map_some]
          split
          · rename_i hne
            refine ⟨⟨by simp, by simp, by simp, fun _ => ?_⟩, rfl⟩
            refine bad false rfl ?_
            rintro d r rfl h1 h2 h3
            have hkd : ¬ k < d.length := by
              intro hkd
              rw [List.getElem_append_left hkd] at hk1
              simp at hk1
              rcases hk1 with h | h
              · exact h2 (h ▸ List.getElem_mem hkd)
              · exact h3 (h ▸ List.getElem_mem hkd)
            have : k = d.length := by
              rcases Nat.lt_trichotomy k d.length with h | h | h
              · exact absurd h hkd
              · exact h
              · exfalso
                have := hk2 d.length h
                simp at this
            subst this
            simp at hne
          · rename_i hne
            simp at hne
            have hd : ∀ c ∈ u.take k, c ≠ c!"}" ∧ c ≠ 0x0A := by
              intro c hc
              obtain ⟨i, hi, rfl⟩ := List.mem_iff_getElem.1 hc
              have := hk2 i (by simp at hi; omega)
              simp at this
              simpa using this
            have eu : u = u.take k ++ c!"}" :: u.drop (k + 1) := by
              have := List.drop_eq_getElem_cons hk
              conv => lhs; rw [← List.take_append_drop k u, this]
              have h' : u[k] = c!"}" := by
                have := List.getElem?_eq_getElem hk
                rw [this] at hne
                exact Option.some.inj hne
              rw [h']
            have hlen : (u.take k).length = k := by simp; omega
            refine ⟨⟨by simp, by simp; omega, fun he => ⟨?_, ?_⟩, fun he => ?_⟩, rfl⟩
            · simp at he
              have : (c!"\\" :: c!"N" :: c!"{" :: u).take (k + 3 + 1) = b!"\\N{" ++ u.take k ++ b!"}" := by
                rw [show k + 3 + 1 = (k + 1) + 3 by omega]
                simp only [List.take_succ_cons]
                rw [List.take_add_one]
                simp [hne]
              rw [this]
              refine .named ?_ ⟨fun h => (hd _ h).1 rfl, fun h => (hd _ h).2 rfl⟩
              intro h
              rw [h] at hlen
              simp at hlen
              omega
            · intro m hm hl hx
              obtain ⟨j, rfl, hr⟩ := escape_inv hx
              obtain ⟨d, h1, h2, h3, h4⟩ := escapeRest_name hr
              match j, h4 with
              | 0, h4 => simp at h4
              | j + 1, h4 =>
                simp at h4 hm hl
                have hj : (u.take j)[k]? = some c!"}" := by
                  rw [List.getElem?_take]
                  rw [if_pos (by omega)]
                  exact hne
                rw [h4] at hj
                have hl' := congrArg List.length h4
                simp at hl'
                rw [List.getElem?_append_left (by omega)] at hj
                exact h2 (List.mem_of_getElem? hj)
            · simp at he
              obtain rfl : k = 0 := by omega
              refine bad false rfl ?_
              rintro d r e h1 h2 h3
              obtain ⟨a, d, rfl⟩ := List.exists_cons_of_ne_nil h1
              simp [e] at hne
              exact h2 (by simp [hne])
      · rename_i hbr
        refine ⟨escape_two (by simp) ?_ (by simp), rfl⟩
        intro _ j hr
        obtain ⟨d, _, _, _, h4⟩ := escapeRest_name hr
        exact hbr (take_head (by rw [h4]; simp))
    rw [if_neg hN]
    by_cases hx : c = c!"x"
    · subst hx
      rw [if_pos rfl]
      split
      · rename_i hbr
        refine ⟨escape_common (Or.inr rfl) (by simp) (fun t ht => .long (by simp) ht) ?_, rfl⟩
        intro j hr
        obtain ⟨k, hk, hi⟩ := escapeRest_long (by decide) hr
        simp [longEscapes] at hk
        rcases hk with rfl | rfl
        · exfalso
          match j, u, hbr with
          | 0, _, _ => exact isEscape_ne_nil _ (by simpa using hi)
          | j + 1, a :: u, hbr =>
            simp at hbr
            subst hbr
            exact isEscape_unbraced (Or.inr rfl) hi
        · exact hi
      · rename_i hbr
        refine ⟨escape_common (Or.inr rfl) (by simp) (fun t ht => .long (by simp) ht) ?_, rfl⟩
        intro j hr
        obtain ⟨k, hk, hi⟩ := escapeRest_long (by decide) hr
        simp [longEscapes] at hk
        rcases hk with rfl | rfl
        · exact hi
        · exact absurd (take_head (isEscape_braced (Or.inl rfl) hi)) hbr
    rw [if_neg hx]
    by_cases ho : c = c!"o"
    · subst ho
      rw [if_pos rfl]
      split
      · rename_i hbr
        refine ⟨escape_common (Or.inr rfl) (by simp) (fun t ht => .long (by simp) ht) ?_, rfl⟩
        intro j hr
        obtain ⟨k, hk, hi⟩ := escapeRest_long (by decide) hr
        simp [longEscapes] at hk
        subst hk
        exact hi
      · rename_i hbr
        refine ⟨escape_two (by simp) ?_ (by simp), rfl⟩
        intro _ j hr
        obtain ⟨k, hk, hi⟩ := escapeRest_long (by decide) hr
        simp [longEscapes] at hk
        subst hk
        exact hbr (take_head (isEscape_braced (Or.inr rfl) hi))
    rw [if_neg ho]
    by_cases h8 : isOctalDigit c = true
    · rw [if_pos h8]
      have h8' := (octal_iff c).1 h8
      refine ⟨escape_common (Or.inl rfl) ?_ (fun t ht => .octal ht) (fun j hr => escapeRest_octal h8' hr), rfl⟩
      intro _
      refine ⟨?_, rfl⟩
      have := (C28_unbraced .octal_1_to_3 (by simp [Braced]) (c :: u)).2 [c] u rfl
        ⟨by simp, by simp, by simpa using h8'⟩
      exact this.1
    rw [if_neg h8]
    have h8' : ¬ Octal c := fun h => h8 ((octal_iff c).2 h)
    have hnl : c ∉ b!"NouUx" := by simp [hN, ho, hu, hU, hx]
    refine ⟨escape_two ?_ ?_ ?_, rfl⟩
    · intro he
      simp at he
      exact .conditional (basic_facts c he hsp) h1 h8' hnl
    · rintro he j (⟨hr, _⟩ | ⟨hr, _⟩ | ⟨k, hr, _⟩ | ⟨hr, _⟩ | ⟨hr, _⟩)
      · exact h1 hr
      · exact h8' hr
      · have : ∀ e ∈ longEscapes, e.1 ∈ b!"NouUx" := by decide +kernel
        exact hnl (this _ hr)
      · exact hN hr
      · rw [basic_facts' c hr] at he
        simp at he
    · rintro he t (⟨hr, _⟩ | ⟨hr, _⟩ | ⟨k, hr, _⟩ | ⟨hr, _⟩ | ⟨_, _, _, _, hr⟩)
      · exact absurd hr h1
      · exact absurd hr h8'
      · have : ∀ e ∈ longEscapes, e.1 ∈ b!"NouUx" := by decide +kernel
        exact absurd (this _ hr) hnl
      · exact absurd hr hN
      · exact hr

theorem escape_alone : EscapeCases b!"\\" (matchEscape b!"\\") := .alone rfl (by decide)

theorem escape_facts' {s : Bytes} (h : s[0]? = some c!"\\") : EscapeCases s (matchEscape s) := by
  match s, h with
  | [a], h =>
    simp at h
    subst h
    exact escape_alone
  | a :: c :: u, h =>
    simp at h
    subst h
    exact escape_cases c u

theorem alone_facts : (∀ m, ¬ EscapeText IsEscape (b!"\\".take m)) ∧ ¬ Blank b!"\\" ∧ ∀ k, ¬ Splice b!"\\" k := by
  refine ⟨?_, ?_, ?_⟩
  · intro m h
    have : ∀ w, EscapeText IsEscape w → 2 ≤ w.length := by
      intro w hw
      cases hw with
      | octal h => have := h.1; simp; omega
      | long => simp
      | _ => simp
    have := this _ h
    rw [List.length_take] at this
    simp at this
    omega
  · rintro ⟨_, ⟨c, h, _⟩, _⟩
    simp at h
  · rintro k ⟨ws, rest, h, _⟩
    simp at h

/-! ## Numbers -/

theorem nondigit_iff (c : UInt8) : isAsciiXidContinue c = true ↔ Nondigit c := by
  unfold Nondigit Letter DecDigit
  revert c
  apply forall_byte
  decide +kernel

theorem nondigit_ascii {c : UInt8} (h : Nondigit c) : c.toNat < 0x80 ∧ CppId.Continue c.toNat := by
  rw [← nondigit_iff] at h
  rw [← cppContinue_iff]
  revert h
  revert c
  apply forall_byte
  decide +kernel

theorem not_continue {c : UInt8} (h : c ∈ b!"+-.'") : c.toNat < 0x80 ∧ ¬ CppId.Continue c.toNat := by
  rw [← cppContinue_iff]
  simp at h
  rcases h with rfl | rfl | rfl | rfl <;> decide +kernel

theorem exponent_continue {c : UInt8} (h : c ∈ b!"eEpP") : c.toNat < 0x80 ∧ CppId.Continue c.toNat := by
  rw [← cppContinue_iff]
  simp at h
  rcases h with rfl | rfl | rfl | rfl <;> decide +kernel

theorem firstChar_ne_nil {c : Nat} {p rest : Bytes} (h : FirstChar c p rest) : p ≠ [] := by
  rcases h with ⟨hs, rfl⟩ | ⟨_, h, _⟩
  · intro e
    have := congrArg List.length e
    unfold utf8 at this
    split at this <;> (try split at this) <;> (try split at this) <;> simp at this
  · exact h

/-- Another character. -/
theorem ppItems_byte {c : UInt8} {s : Bytes} {n : Nat} (h : c.toNat < 0x80 ∧ CppId.Continue c.toNat)
    (t : PpItems s n) : PpItems (c :: s) (n + 1) :=
  PpItems.char (firstChar_ascii h.1 s) h.2 t

theorem ppLoop_spec (fuel : Nat) (s : Bytes) (hf : s.length ≤ fuel) :
    PpItems s (ppLoop fuel s) ∧ ppLoop fuel s ≤ s.length ∧ PpEnd (s.drop (ppLoop fuel s)) := by
  have pend : PpEnd [] := ⟨by simp, by simp, fun c p rest h hc => by
    simp at h; exact absurd h.1 (firstChar_ne_nil hc)⟩
  induction fuel generalizing s with
  | zero =>
    have : s = [] := List.eq_nil_of_length_eq_zero (by omega)
    subst this
    exact ⟨.nil, by simp [ppLoop], by simpa [ppLoop] using pend⟩
  | succ fuel ih =>
    match s with
    | [] => exact ⟨.nil, by simp [ppLoop], by simpa [ppLoop] using pend⟩
    | c :: t =>
      simp at hf
      rw [ppLoop]
      split
      · rename_i h
        subst h
        split
        · rename_i hd
          match t, hd with
          | d :: t, hd =>
            simp at hd
            simp only [List.drop_succ_cons, List.drop_zero]
            simp at hf
            obtain ⟨i1, i2, i3⟩ := ih t (by omega)
            refine ⟨?_, by simp; omega, ?_⟩
            · rw [Nat.add_comm]
              exact .separator ((nondigit_iff d).1 hd) i1
            · rw [Nat.add_comm]
              simpa using i3
        · rename_i hd
          refine ⟨.nil, by simp, by simp, ?_, ?_⟩
          · intro _ d h1 h2
            simp at h1
            rw [h1] at hd
            simp [(nondigit_iff d).2 h2] at hd
          · simp only [List.drop_zero]
            exact (noFirst_ascii (by decide)).2 (not_continue (by decide)).2
      · rename_i h1
        split
        · rename_i h
          split
          · rename_i hd
            match t, hd with
            | d :: t, hd =>
              simp at hd
              simp only [List.drop_succ_cons, List.drop_zero]
              simp at hf
              obtain ⟨i1, i2, i3⟩ := ih t (by omega)
              refine ⟨?_, by simp; omega, ?_⟩
              · rw [Nat.add_comm]
                refine .sign h ?_ i1
                rcases hd with rfl | rfl <;> simp
              · rw [Nat.add_comm]
                simpa using i3
          · obtain ⟨i1, i2, i3⟩ := ih t (by omega)
            rw [Nat.add_comm]
            exact ⟨ppItems_byte (exponent_continue h) i1, by simp; omega, by simpa using i3⟩
        · split
          · rename_i h2 h
            subst h
            obtain ⟨i1, i2, i3⟩ := ih t (by omega)
            rw [Nat.add_comm]
            exact ⟨.point i1, by simp; omega, by simpa using i3⟩
          · rename_i h2 h3
            obtain ⟨p, rest, he, hn, hfc⟩ := firstChar_decode (s := c :: t) (by simp)
            have hd := decode_facts (c :: t) (by simp)
            dsimp only
            split
            · rename_i hc
              have hdr : (c :: t).drop (decodeOrReplacement (c :: t)).2 = rest := by
                rw [hn]; conv => lhs; rw [he]
                simp
              rw [hdr]
              have hl : rest.length ≤ fuel := by
                have := congrArg List.length hdr
                rw [List.length_drop] at this
                simp at this
                omega
              obtain ⟨i1, i2, i3⟩ := ih rest hl
              rw [hn]
              refine ⟨?_, ?_, ?_⟩
              · rw [Nat.add_comm, he]
                exact .char hfc ((cppContinue_iff _).1 hc) i1
              · rw [he]; simp; omega
              · rw [he, List.drop_append, List.drop_of_length_le (by omega)]
                simpa using i3
            · rename_i hc
              refine ⟨.nil, by simp, by simpa using h3, ?_, ?_⟩
              · intro h; simp at h; exact absurd h h1
              · intro c' p' rest' e' hf'
                rw [List.drop_zero] at e'
                obtain ⟨rfl, rfl, rfl⟩ := firstChar_unique hfc hf' (he.symm.trans e')
                rw [← cppContinue_iff]
                simpa using hc

/-- What `match_pp_number` finds. -/
theorem ppNumber_facts (s : Bytes) :
    (matchPpNumber s = 0 ∧ ∀ c, s[0]? = some c → ¬ DecDigit c) ∨
    (0 < matchPpNumber s ∧ matchPpNumber s ≤ s.length ∧ PpItems s (matchPpNumber s) ∧
      PpEnd (s.drop (matchPpNumber s)) ∧ ∃ c, s[0]? = some c ∧ (DecDigit c ∨ c = c!".")) := by
  have dig : ∀ c, isDigit c = true → Nondigit c ∧ DecDigit c := by
    intro c h
    exact ⟨Or.inr (Or.inl ((isDigit_iff c).1 h)), (isDigit_iff c).1 h⟩
  unfold matchPpNumber
  split
  · rename_i h
    simp only [Bool.and_eq_true] at h
    obtain ⟨t, rfl⟩ := startsWith_iff.1 h.1
    match t, h.2 with
    | d :: t, hd =>
      simp at hd
      obtain ⟨i1, i2, i3⟩ := ppLoop_spec (c!"." :: d :: t).length t (by simp; omega)
      refine Or.inr ⟨by omega, by simp at i2 ⊢; omega, ?_, ?_, c!".", by simp, Or.inr rfl⟩
      · rw [Nat.add_comm]
        exact .point (ppItems_byte (nondigit_ascii (dig d hd).1) i1)
      · rw [Nat.add_comm]
        simpa using i3
  · split
    · rename_i h
      match s, h with
      | d :: t, hd =>
        simp at hd
        obtain ⟨i1, i2, i3⟩ := ppLoop_spec (d :: t).length t (by simp)
        refine Or.inr ⟨by omega, by simp at i2 ⊢; omega, ?_, ?_, d, by simp, Or.inl (dig d hd).2⟩
        · rw [Nat.add_comm]
          exact ppItems_byte (nondigit_ascii (dig d hd).1) i1
        · rw [Nat.add_comm]
          simpa using i3
    · rename_i h1 h2
      refine Or.inl ⟨rfl, ?_⟩
      intro c hc hd
      rw [hc] at h2
      simp [(isDigit_iff c).2 hd] at h2

theorem ppItems_inv {t : Bytes} {m : Nat} (h : PpItems t m) : m = 0 ∨
    (∃ d s n, t = c!"'" :: d :: s ∧ m = n + 2 ∧ Nondigit d ∧ PpItems s n) ∨
    (∃ c d s n, t = c :: d :: s ∧ m = n + 2 ∧ c ∈ b!"eEpP" ∧ d ∈ b!"+-" ∧ PpItems s n) ∨
    (∃ s n, t = c!"." :: s ∧ m = n + 1 ∧ PpItems s n) ∨
    (∃ c p rest n, t = p ++ rest ∧ m = n + p.length ∧ FirstChar c p rest ∧ CppId.Continue c ∧ PpItems rest n) := by
  cases h with
  | nil => exact Or.inl rfl
  | separator h t => exact Or.inr (Or.inl ⟨_, _, _, rfl, rfl, h, t⟩)
  | sign h h' t => exact Or.inr (Or.inr (Or.inl ⟨_, _, _, _, rfl, rfl, h, h', t⟩))
  | point t => exact Or.inr (Or.inr (Or.inr (Or.inl ⟨_, _, rfl, rfl, t⟩)))
  | char h h' t => exact Or.inr (Or.inr (Or.inr (Or.inr ⟨_, _, _, _, rfl, rfl, h, h', t⟩)))

theorem ppItems_no_sign {c : UInt8} {s : Bytes} {n : Nat} (h : PpItems (c :: s) (n + 1)) : c ∉ b!"+-" := by
  intro hc
  rcases ppItems_inv h with h | ⟨d, s', n', h, _⟩ | ⟨c', d, s', n', h, _, hc', _⟩ | ⟨s', n', h, _⟩ |
    ⟨c', p, rest, n', h, hn, hf, hk, _⟩
  · omega
  · simp at h; simp [h.1] at hc
  · simp at h
    rw [← h.1] at hc'
    simp at hc hc'
    rcases hc with rfl | rfl <;> simp at hc'
  · simp at h; simp [h.1] at hc
  · have := (noFirst_ascii (P := CppId.Continue) (t := s) (not_continue (c := c) (by simp at hc ⊢; grind)).1).2
      (not_continue (c := c) (by simp at hc ⊢; grind)).2
    exact this c' p rest h hf hk

/-- What is left of a preprocessing number, which may begin with the sign of an exponent. -/
def PpTail (pp rest : Bytes) : Prop :=
  PpItems (pp ++ rest) pp.length ∨ ∃ d pp', pp = d :: pp' ∧ d ∈ b!"+-" ∧ PpItems (pp' ++ rest) pp'.length

theorem PpTail.items {c : UInt8} {pp rest : Bytes} (h : PpTail (c :: pp) rest) (hc : c ∉ b!"+-") :
    PpItems (c :: pp ++ rest) (pp.length + 1) := by
  rcases h with h | ⟨d, pp', e, hd, _⟩
  · exact h
  · simp at e
    exact absurd (e.1 ▸ hd) hc

/-- The next character. -/
theorem PpTail.next {c : UInt8} {pp rest : Bytes} (h : PpTail (c :: pp) rest) (ha : c.toNat < 0x80) :
    PpTail pp rest ∧ ∀ d, pp[0]? = some d → d ∈ b!"+-" → c ∈ b!"eEpP" := by
  have done : ∀ {pp : Bytes}, PpItems (pp ++ rest) pp.length →
      PpTail pp rest ∧ ∀ d, pp[0]? = some d → d ∈ b!"+-" → c ∈ b!"eEpP" := by
    intro pp hp
    refine ⟨Or.inl hp, ?_⟩
    intro d hd hs
    match pp, hd with
    | a :: pp, hd =>
      simp at hd
      subst hd
      exact absurd hs (ppItems_no_sign hp)
  rcases h with h | ⟨d, pp', e, hd, h⟩
  · rcases ppItems_inv h with h | ⟨d, s, n, h, hn, hd, hp⟩ | ⟨c', d, s, n, h, hn, hc, hd, hp⟩ | ⟨s, n, h, hn, hp⟩ |
      ⟨c', p, r, n, h, hn, hf, hk, hp⟩
    · simp at h
    · match pp, h, hn with
      | d' :: pp, h, hn =>
        simp only [List.length_cons, List.cons_append, List.cons.injEq, Nat.add_right_cancel_iff] at h hn
        obtain ⟨rfl, rfl, rfl⟩ := h
        obtain rfl : pp.length = n := by omega
        exact done (ppItems_byte (nondigit_ascii hd) hp)
    · match pp, h, hn with
      | d' :: pp, h, hn =>
        simp only [List.length_cons, List.cons_append, List.cons.injEq, Nat.add_right_cancel_iff] at h hn
        obtain ⟨rfl, rfl, rfl⟩ := h
        obtain rfl : pp.length = n := by omega
        exact ⟨Or.inr ⟨_, _, rfl, hd, hp⟩, fun _ _ _ => hc⟩
    · simp only [List.length_cons, List.cons_append, List.cons.injEq] at h hn
      obtain ⟨rfl, rfl⟩ := h
      obtain rfl : pp.length = n := by omega
      exact done hp
    · have hu := firstChar_unique (firstChar_ascii ha (pp ++ rest)) hf
        (show [c] ++ (pp ++ rest) = p ++ r by simpa using h)
      obtain ⟨rfl, rfl, rfl⟩ := hu
      simp only [List.length_cons, List.length_nil] at hn
      obtain rfl : pp.length = n := by omega
      exact done hp
  · simp at e
    obtain ⟨rfl, rfl⟩ := e
    exact done h

end Ulight.Cpp
