import Verif.Props.Program.JavaScriptNumbers

/-!
# C58: lexical elements of JavaScript and TypeScript
-/

namespace Ulight.Js

open Spec Spec.JavaScript

variable {α β : Type} {env : HEnv} {x y z : Elem} {a b : Bytes} {ts us : List Token} {v : Bool} {m : Dialect} {again : HM Elem Unit}

/-! ## One element -/

theorem skip_blank {m' : HM Elem Bool} (hw : matchWhitespace (a ++ b) = 0) (hh : x = .hashbang → ¬ b!"#!" <+: a ++ b)
    (hc : ¬ Comment (a ++ b)) (ht : m = .javascript → NoTag (a ++ b)) (h : Reads env m' x a ts b v y) :
    Reads env (HM.or expectWhitespace (HM.or expectHashbang (HM.or expectLineComment (HM.or expectBlockComment
      (HM.or (expectJsxIn m again) m'))))) x a ts b v y :=
  reads_or_else (space_fail hw) <| reads_or_else (hashbang_fail hh) <| reads_or_else (lineComment_fail fun h => hc (.inl h)) <|
    reads_or_else (blockComment_fail fun h => hc (.inr h)) <| reads_or_else (jsx_fail ht) h

theorem prefix_head {c d : UInt8} {p t : Bytes} (h : c :: p <+: d :: t) : c = d := by
  obtain ⟨u, hu⟩ := h
  cases hu
  rfl

theorem skip_first {m' : HM Elem Bool} {c : UInt8} {t : Bytes} (e : a ++ b = c :: t) (hw : matchWhitespace (c :: t) = 0)
    (hc : c ∉ b!"#/<") (h : Reads env m' x a ts b v y) :
    Reads env (HM.or expectWhitespace (HM.or expectHashbang (HM.or expectLineComment (HM.or expectBlockComment
      (HM.or (expectJsxIn m again) m'))))) x a ts b v y := by
  simp only [List.mem_cons, List.not_mem_nil, or_false, not_or] at hc
  refine skip_blank (by rwa [e]) (fun _ h => ?_) ?_ (fun _ => .other ?_) h
  · rw [e] at h; exact hc.1 (prefix_head h).symm
  · rw [e]
    rintro (h | h)
    · exact hc.2.1 (prefix_head h).symm
    · exact hc.2.1 (prefix_head h).symm
  · rw [e]
    intro h
    cases h
    exact hc.2.2 rfl

theorem skip_ascii {m' : HM Elem Bool} {c : UInt8} {t : Bytes} (e : a ++ b = c :: t) (h0 : c.toNat < 0x80)
    (hc : c ∉ [0x09, 0x0A, 0x0B, 0x0C, 0x0D, 0x20] ∧ c ∉ b!"#/<") (h : Reads env m' x a ts b v y) :
    Reads env (HM.or expectWhitespace (HM.or expectHashbang (HM.or expectLineComment (HM.or expectBlockComment
      (HM.or (expectJsxIn m again) m'))))) x a ts b v y :=
  skip_first e (no_space_ascii h0 hc.1) hc.2 h

theorem skip_strings {m' : HM Elem Bool} {c : UInt8} {t : Bytes} (e : a ++ b = c :: t) (hc : c ∉ b!"'\"`")
    (h : Reads env m' x a ts b v y) : Reads env (HM.or expectStringLiteral (HM.or (expectTemplate again) m')) x a ts b v y := by
  simp only [List.mem_cons, List.not_mem_nil, or_false, not_or] at hc
  refine reads_or_else (string_fail fun q hq => ?_) <| reads_or_else (template_fail ?_) h
  · rw [e] at hq; cases hq; simp [hc]
  · rw [e]; simp [hc]

theorem skip_regex {m' : HM Elem Bool} {c : UInt8} {t : Bytes} (e : a ++ b = c :: t) (hc : c ≠ c!"/")
    (h : Reads env m' x a ts b v y) : Reads env (HM.or expectRegex m') x a ts b v y := by
  refine reads_or_else (regex_fail fun _ h => ?_) h
  rw [e] at h
  cases h
  exact absurd rfl hc

theorem skip_number {m' : HM Elem Bool} {c : UInt8} {t : Bytes} (e : a ++ b = c :: t) (hc : isDigit c = false ∧ c ≠ c!"_")
    (hd : c = c!"." → t.head?.any isDigit = false)
    (h : Reads env m' x a ts b v y) : Reads env (HM.or expectNumber m') x a ts b v y := by
  refine reads_or_else (number_fail fun d h => ?_) h
  rw [e] at h ⊢
  cases h
  exact ⟨hc.1, hd, hc.2⟩

theorem token_of (h : Reads env (HM.or expectWhitespace (HM.or expectHashbang (HM.or expectLineComment
    (HM.or expectBlockComment (HM.or (expectJsxIn m again) (HM.or expectStringLiteral
      (HM.or (expectTemplate again) (HM.or expectRegex (HM.or expectNumber
        (HM.or expectPrivateIdentifier (HM.or (expectIdentifier m) (expectSymbol m))))))))))))
      x a ts b true y) : Reads env (consumeToken m again) x a ts b () y :=
  h.bind_last (reads_this rfl reads_pure)

theorem digit_or_dot (c : UInt8) : isDigit c = true ∨ c = c!"." ∨ c = c!"_" → c.toNat < 0x80 ∧
    (c ∉ [0x09, 0x0A, 0x0B, 0x0C, 0x0D, 0x20] ∧ c ∉ b!"#/<") ∧ c ∉ b!"'\"`" ∧ c ≠ c!"/" := by
  revert c; apply forall_byte; decide +kernel

theorem token_number {c : UInt8} {t : Bytes} (e : a ++ b = c :: t) (hc : isDigit c = true ∨ c = c!"." ∨ c = c!"_")
    (h : Reads env expectNumber x a ts b true y) : Reads env (consumeToken m again) x a ts b () y := by
  obtain ⟨h1, h2, h3, h4⟩ := digit_or_dot c hc
  exact token_of (skip_ascii e h1 h2 <| skip_strings e h3 <| skip_regex e h4 <| reads_or h)

theorem start_byte (c : UInt8) (h : c.toNat < 0x80 → Start c.toNat) : c ∉ [0x09, 0x0A, 0x0B, 0x0C, 0x0D, 0x20] ∧ c ∉ b!"#/<" ∧ c ∉ b!"'\"`" ∧ c ≠ c!"/" ∧
    isDigit c = false ∧ c ≠ c!"." ∧ c ≠ c!"#" ∧ c ≠ c!"!" := by
  have key : ∀ c : UInt8, 0x80 ≤ c.toNat ∨ isStart c.toNat = true → c ∉ [0x09, 0x0A, 0x0B, 0x0C, 0x0D, 0x20] ∧ c ∉ b!"#/<" ∧ c ∉ b!"'\"`" := by
    apply forall_byte; decide +kernel
  have key' : ∀ c : UInt8, 0x80 ≤ c.toNat ∨ isStart c.toNat = true → c ≠ c!"/" ∧ isDigit c = false ∧ c ≠ c!"." ∧ c ≠ c!"#" ∧ c ≠ c!"!" := by
    apply forall_byte; decide +kernel
  have h : 0x80 ≤ c.toNat ∨ isStart c.toNat = true := by
    by_cases hc : c.toNat < 0x80
    · exact .inr ((start_iff _).2 (h hc))
    · exact .inl (by omega)
  obtain ⟨h1, h2, h3⟩ := key c h
  exact ⟨h1, h2, h3, key' c h⟩

theorem token_word {w : Bytes} (hs : matchWhitespace (w ++ b) = 0) (h : Ident (w ++ b) w.length) (h0 : w.head? ≠ some c!"_")
    (hr : Reads env (expectIdentifier m) x w ts b true y) : Reads env (consumeToken m again) x w ts b () y := by
  obtain ⟨c, t, e, h1, h2⟩ := Identifier.first h
  obtain ⟨-, h3, h4, h5, h6, h7, h8, -⟩ := start_byte c h2
  have hu : c ≠ c!"_" := by
    rintro rfl
    cases w with
    | nil => simp at h1
    | cons d w => cases e; exact h0 rfl
  rw [e] at hs
  refine token_of (skip_first e hs h3 <| skip_strings e h4 <| skip_regex e h5 <| skip_number e ⟨h6, hu⟩ (fun h => absurd h h7) <|
    reads_or_else (private_fail fun h => ?_) <| reads_or hr)
  rw [e] at h
  cases h
  exact absurd rfl h8

theorem words_first : ∀ m, ∀ p ∈ words m, ∃ c t, p.1 = c :: t ∧ c.toNat < 0x80 ∧ c ≠ c!"_" := by
  have : ∀ m, ∀ p ∈ words m, ∃ c, p.1.head? = some c ∧ c.toNat < 0x80 ∧ c ≠ c!"_" := by
    intro m
    have : ∀ p ∈ words m, (p.1.head?.any fun c => c.toNat < 0x80 && c ≠ c!"_") = true := by
      cases m <;> decide +kernel
    intro p hp
    have := this p hp
    cases h : p.1.head? with
    | none => simp [h] at this
    | some c => exact ⟨c, rfl, by simpa [h] using this⟩
  intro m p hp
  obtain ⟨c, h1, h2⟩ := this m p hp
  cases h : p.1 with
  | nil => simp [h] at h1
  | cons d t => rw [h] at h1; cases h1; exact ⟨c, t, rfl, h2⟩

/-- What is known about the first bytes of symbols. -/
theorem symbols_first : ∀ w ∈ symbols, ∃ c t, w = c :: t ∧ c.toNat < 0x80 ∧ c ∉ [0x09, 0x0A, 0x0B, 0x0C, 0x0D, 0x20] ∧ c ≠ c!"#" ∧ c ∉ b!"'\"`" ∧
    isDigit c = false ∧ c ≠ c!"_" ∧ isStart c.toNat = false ∧ (c = c!"." → t ≠ [] → t.head?.any isDigit = false) := by
  have : ∀ w ∈ symbols, (match w with
      | [] => false
      | c :: t => c.toNat < 0x80 && c ∉ [0x09, 0x0A, 0x0B, 0x0C, 0x0D, 0x20] && c ≠ c!"#" && c ∉ b!"'\"`" &&
        !isDigit c && c ≠ c!"_" && !isStart c.toNat && !(c = c!"." && t ≠ [] && t.head?.any isDigit)) = true := by
    decide +kernel
  intro w hw
  have := this w hw
  cases w with
  | nil => cases this
  | cons c t =>
    refine ⟨c, t, rfl, ?_⟩
    simp only [Bool.and_eq_true, decide_eq_true_eq, Bool.not_eq_true', Bool.and_eq_false_iff, decide_eq_false_iff_not] at this
    obtain ⟨⟨⟨⟨⟨⟨⟨h1, h2⟩, h3⟩, h4⟩, h5⟩, h6⟩, h7⟩, h8⟩ := this
    refine ⟨h1, h2, h3, h4, h5, h6, h7, ?_⟩
    intro h h'
    rcases h8 with (h8 | h8) | h8
    · exact absurd h h8
    · exact absurd h' h8
    · exact h8

theorem no_ident_of_byte {c : UInt8} {t : Bytes} (h : c.toNat < 0x80) (h' : isStart c.toNat = false) (k : Nat) : ¬ Ident (c :: t) k := by
  intro hi
  obtain ⟨d, r, e, _, h2⟩ := Identifier.first hi
  cases e
  rw [← start_iff, h'] at h2
  exact absurd (h2 h) (by simp)

theorem token_symbol {w : Bytes} {ty : HT} (h : LongestIn symbols (w ++ b) w.length) (h' : Word m w ty) (comment : ¬ Comment (w ++ b))
    (number : w = b!"." → ∀ c, b.head? = some c → ¬ DecDigit c)
    (regex : x ≠ .div → w.head? = some c!"/" → ∀ n, ¬ Regex ((w ++ b).drop 1) n) (tag : m = .javascript → NoTag (w ++ b)) :
    Reads env (consumeToken m again) x w [⟨0, w.length, ty⟩] b () (if w ∈ closing then .div else .regex) := by
  have hr := symbol_reads (env := env) (x := x) h h'
  obtain ⟨c, t, rfl, h1, h2, h3, h4, h5, h6, h7, h8⟩ := symbols_first w (by simpa using h.1)
  have e : c :: t ++ b = c :: (t ++ b) := rfl
  refine token_of (skip_blank (no_space_ascii h1 h2) (fun _ h => h3 (prefix_head h).symm) comment tag <|
    skip_strings e h4 <| reads_or_else (regex_fail fun hx hh _ n => regex hx hh n) <| skip_number e ⟨h5, h6⟩ (fun hd => ?_) <|
    reads_or_else (private_fail fun h => ?_) <| reads_or_else (identifier_fail (no_ident_of_byte h1 h7)) hr)
  · cases t with
    | nil =>
      subst hd
      have := number rfl
      cases b with
      | nil => rfl
      | cons d u =>
        have := this d rfl
        simp [Bool.eq_false_iff, isDigit_iff, this]
    | cons d u => exact h8 hd (by simp)
  · cases h
    exact absurd rfl h3

theorem token_unknown {c : UInt8} (space : LongestChars White (c :: b) 0) (hash : x = .hashbang → ¬ b!"#!" <+: c :: b)
    (id : ∀ k, ¬ Ident (c :: b) k) (prv : c = c!"#" → ∀ k, ¬ Ident b k)
    (sym : ∀ w ∈ symbols, w <+: c :: b → ∀ ty, ¬ Word m w ty) (other : ¬ DecDigit c ∧ c ∉ b!"'\"`/<._") :
    Reads env (consumeToken m again) x [c] [⟨0, 1, .error⟩] b () .regex := by
  obtain ⟨h1, h2⟩ := other
  simp only [List.mem_cons, List.not_mem_nil, or_false, not_or] at h2
  have e : [] ++ (c :: b) = c :: b := rfl
  have e' : [c] ++ b = c :: b := rfl
  have : Reads env (HM.or expectWhitespace (HM.or expectHashbang (HM.or expectLineComment
    (HM.or expectBlockComment (HM.or (expectJsxIn m again) (HM.or expectStringLiteral
      (HM.or (expectTemplate again) (HM.or expectRegex (HM.or expectNumber
        (HM.or expectPrivateIdentifier (HM.or (expectIdentifier m) (expectSymbol m)))))))))))) x [] [] (c :: b) false x := by
    refine skip_blank (no_space space) hash ?_ (fun _ => .other ?_) <| skip_strings e (by simp [h2]) <| skip_regex e h2.2.2.2.1 <|
      skip_number e ⟨by rw [Bool.eq_false_iff, ne_eq, isDigit_iff]; exact h1, by simp [h2]⟩ (fun h => absurd h (by simp [h2])) <|
      reads_or_else (private_fail ?_) <| reads_or_else (identifier_fail id) (symbol_fail sym)
    · rintro (h | h)
      · exact h2.2.2.2.1 (prefix_head h).symm
      · exact h2.2.2.2.1 (prefix_head h).symm
    · simp [h2]
    · intro h
      cases h
      exact prv rfl
  unfold consumeToken
  refine Reads.bind_none (a := [c]) this (reads_else (by simp) ?_)
  unfold consumeError
  exact (reads_emit (a := [c]) rfl (by simp)).bind_last (reads_set reads_pure)

theorem regex_first {t u : Bytes} (h : Regex (t ++ u) t.length) (h0 : t ≠ []) : t.head? ≠ some c!"/" := by
  obtain ⟨c, t, rfl⟩ := List.exists_cons_of_ne_nil h0
  intro e
  cases e
  have h1 := regex_eq h 0
  have h2 := regex_eq (t := c!"/" :: t ++ u) .done 0
  rw [h1] at h2
  simp at h2

/-- Every element is read. -/
theorem element_reads {N : Bytes → List Token → Bytes → Elem → Prop} {L : Nat}
    (hN : ∀ x c us d z, (c ++ d).length < L → N c us d z → Reads env again x c us d () z)
    (h : Element m N x a ts b y) (hL : (a ++ b).length ≤ L) : a ≠ [] ∧ Reads env (consumeToken m again) x a ts b () y := by
  cases h with
  | space h0 h => exact ⟨h0, token_of (reads_or (space_reads h0 h))⟩
  | hashbang h =>
    exact ⟨by simp, token_of (reads_or_else (space_fail (no_space_ascii (by decide) (by decide))) (reads_or (hashbang_reads h)))⟩
  | lineComment h =>
    exact ⟨by simp, token_of (reads_or_else (space_fail (no_space_ascii (by decide) (by decide))) <|
      reads_or_else (hashbang_fail fun _ h => absurd (prefix_head h) (by decide)) (reads_or (lineComment_reads h)))⟩
  | @blockComment _ t _ h =>
    refine ⟨by simp, token_of (reads_or_else (space_fail (no_space_ascii (by decide) (by decide))) <|
      reads_or_else (hashbang_fail fun _ h => absurd (prefix_head h) (by decide)) <| reads_or_else (lineComment_fail ?_) <|
        reads_or (blockComment_reads h))⟩
    rintro ⟨u, hu⟩
    simp at hu
  | openComment h =>
    refine ⟨by simp, token_of (reads_or_else (space_fail (no_space_ascii (by decide) (by decide))) <|
      reads_or_else (hashbang_fail fun _ h => absurd (prefix_head h) (by decide)) <| reads_or_else (lineComment_fail ?_) <|
        reads_or (openComment_reads h))⟩
    rintro ⟨u, hu⟩
    simp at hu
  | @string _ q _ _ _ hq h =>
    have : q.toNat < 0x80 ∧ q ∉ [0x09, 0x0A, 0x0B, 0x0C, 0x0D, 0x20] ∧ q ∉ b!"#/<" := by
      have : ∀ q ∈ b!"'\"", q.toNat < 0x80 ∧ q ∉ [0x09, 0x0A, 0x0B, 0x0C, 0x0D, 0x20] ∧ q ∉ b!"#/<" := by decide +kernel
      exact this q hq
    exact ⟨by simp, token_of (skip_ascii rfl this.1 this.2 <| reads_or (string_reads hq h))⟩
  | template h =>
    exact ⟨by simp, token_of (skip_ascii rfl (by decide) (by decide) <| reads_or_else (string_fail (by simp)) <|
      reads_or (template_reads hN h (by simp at hL ⊢; omega)))⟩
  | @regex _ t f _ hx h0 h1 h hf =>
    have hslash := regex_first h h0
    obtain ⟨c, u, rfl⟩ := List.exists_cons_of_ne_nil h0
    refine ⟨by simp, token_of (skip_blank (no_space_ascii (by decide) (by decide)) (fun _ h => absurd (prefix_head h) (by decide)) ?_
      (fun _ => .other (by simp)) <| skip_strings rfl (by decide) <| reads_or (regex_reads hx h0 h1 h hf))⟩
    rintro (⟨v, hv⟩ | ⟨v, hv⟩)
    · simp at hv
      simp [← hv.1] at hslash
    · simp at hv
      simp [← hv.1] at h1
  | number hR h h0 h' =>
    obtain ⟨h1, h2, h3, c, t, h4, h5⟩ := number_match hR h h0 h'
    exact ⟨by simpa using h3, token_number h4 (h5.imp_right .inl) (number_reads' h1 h2 h3)⟩
  | legacy h h' =>
    obtain ⟨h1, h2, h3, t, h4⟩ := legacy_match h h'
    exact ⟨by simpa using h3, token_number h4 (.inl rfl) (number_reads' h1 h2 h3)⟩
  | @privateName _ w _ h =>
    obtain ⟨c, t, e, h1, h2⟩ := Identifier.first h
    have h3 := start_byte c h2
    refine ⟨by simp, token_of (skip_blank (no_space_ascii (by decide) (by decide)) ?_ ?_ (fun _ => .other (by simp)) <|
      skip_strings rfl (by decide) <| skip_regex rfl (by decide) <| skip_number rfl (by decide) (by simp) <| reads_or (private_reads h))⟩
    · rintro _ ⟨v, hv⟩
      rw [show c!"#" :: w ++ b = c!"#" :: (w ++ b) from rfl, e] at hv
      simp at hv
      exact h3.2.2.2.2.2.2.2 hv.1.symm
    · rintro (h | h)
      · exact absurd (prefix_head h) (by decide)
      · exact absurd (prefix_head h) (by decide)
  | @keyword _ w ty _ h h' =>
    obtain ⟨c, t, e, h1, h2⟩ := words_first m _ h'
    dsimp only at e
    subst e
    refine ⟨by simp, token_word (no_space_ascii h1 ?_) h (by simpa using h2) (keyword_reads h h')⟩
    obtain ⟨d, r, e', _, h3⟩ := Identifier.first h
    cases e'
    exact (start_byte c h3).1
  | name space h h' h'' => exact ⟨ident_ne h, token_word (no_space space) h h'' (name_reads h h')⟩
  | underscore h h0 h' =>
    obtain ⟨u, rfl⟩ : ∃ u, a = c!"_" :: u := by
      cases a with
      | nil => cases h0
      | cons d u => cases h0; exact ⟨u, rfl⟩
    exact ⟨by simp, token_number rfl (.inr (.inr rfl)) (underscore_reads h h0 h')⟩
  | symbol h h' comment number regex tag =>
    refine ⟨?_, token_symbol h h' comment number regex tag⟩
    rintro rfl
    obtain ⟨c, t, e, _⟩ := symbols_first _ h.1
    cases e
  | unknown space hash id prv sym other => exact ⟨by simp, token_unknown space hash id prv sym other⟩

/-! ## Substitutions -/

theorem inside_reads {E : Reading} {L l fuel : Nat}
    (hE : ∀ x e es b y, (e ++ b).length ≤ L → E x e es b y → e ≠ [] ∧ Reads env (consumeToken m again) x e es b () y)
    (h : Spec.JavaScript.Inside E x l a ts b y) (hL : (a ++ b).length ≤ L) (hf : (a ++ b).length < fuel) :
    Reads env (HM.loop fuel (bracesStep m again) (l : Int)) x a ts b () y := by
  induction h generalizing fuel with
  | source =>
    refine reads_loop_end (by omega) ?_
    unfold bracesStep
    exact reads_rem reads_pure
  | close =>
    refine reads_loop_end (by omega) ?_
    unfold bracesStep
    refine reads_rem ?_
    exact reads_else (by decide) (reads_this rfl (reads_this (by decide) reads_pure))
  | @openBrace _ l _ _ _ _ h ih =>
    simp only [List.cons_append, List.length_cons] at hL hf
    refine reads_loop (a := [c!"{"]) (ts := [_]) (c' := ((l + 1 : Nat) : Int)) (y := Elem.regex) (by omega) ?_ (ih (by omega) (by omega))
    unfold bracesStep
    refine reads_rem ?_
    refine reads_this rfl ?_
    exact (reads_emit (a := [_]) rfl (by simp)).bind_last (reads_set reads_pure)
  | @closeBrace _ l _ _ _ _ h ih =>
    simp only [List.cons_append, List.length_cons] at hL hf
    refine reads_loop (a := [c!"}"]) (ts := [_]) (c' := (l : Int)) (y := Elem.div) (by omega) ?_ (ih (by omega) (by omega))
    unfold bracesStep
    refine reads_rem ?_
    refine reads_else (by simp) (reads_this rfl (reads_else (by omega) ?_))
    refine (reads_emit (a := [_]) rfl (by simp)).bind_last (reads_set ?_)
    rw [show ((l + 1 : Nat) : Int) - 1 = l by omega]
    exact reads_pure
  | @element _ l e es _ a _ b _ h h0 h' ih =>
    rw [List.append_assoc] at hL hf
    obtain ⟨h1, h2⟩ := hE _ _ _ _ _ hL h
    have hp := List.length_pos_iff.2 h1
    rw [List.length_append] at hL hf
    refine reads_loop (c' := (l : Int)) (by omega) ?_ (ih (by omega) (by omega))
    obtain ⟨c, t, rfl⟩ := List.exists_cons_of_ne_nil h1
    have hc := h0 c rfl
    simp only [List.mem_cons, List.not_mem_nil, or_false, not_or] at hc
    unfold bracesStep
    refine reads_rem ?_
    refine reads_else hc.1 (reads_else hc.2 ?_)
    exact h2.bind_last reads_pure

theorem substitution_reads (n : Nat) {depth : Nat} {c d : Bytes} (hL : (c ++ d).length < depth) (h : substitution m n c us d z) :
    Reads env (beforeBrace m depth) x c us d () z := by
  induction n generalizing depth c us d z x with
  | zero => exact h.elim
  | succ n ih =>
    obtain ⟨k, rfl⟩ : ∃ k, depth = k + 1 := ⟨depth - 1, by omega⟩
    unfold beforeBrace
    refine reads_set (reads_rem ?_)
    exact inside_reads (l := 0) (L := (c ++ d).length)
      (fun x e es b y he h => element_reads (fun x c' us d' z hl h => ih (by omega) h) h he) h (by omega) (by omega)

/-! ## Programs -/

theorem program_reads {src : Bytes} {depth fuel : Nat} (h : ProgramIn (Lexical m) x src ts) (hd : src.length ≤ depth) (hf : src.length < fuel) :
    ∃ y, Reads env (HM.whileNotEof fuel (consumeToken m (beforeBrace m depth))) x src ts [] () y := by
  unfold HM.whileNotEof
  induction h generalizing fuel with
  | nil => exact ⟨_, reads_loop_end (by omega) (reads_eof (reads_this rfl reads_pure))⟩
  | @cons x a ts b y us h h' ih =>
    obtain ⟨n, h⟩ := h
    obtain ⟨h1, h2⟩ := element_reads (env := env) (L := (a ++ b).length) (again := beforeBrace m depth)
      (fun x c us d z hl h => substitution_reads n (by omega) h) h (by omega)
    have hp := List.length_pos_iff.2 h1
    rw [List.length_append] at hd hf
    obtain ⟨z, hz⟩ := ih (fuel := fuel - 1) (by omega) (by omega)
    refine ⟨z, reads_loop (b := []) (c' := ()) (by omega) ?_ hz⟩
    rw [List.append_nil]
    exact reads_eof (reads_else (by simp [h1]) (h2.bind_last reads_pure))

theorem exact_of (m : Dialect) : ExactIn (highlight m) (fun _ => Lexical m) .hashbang := by
  intro opts src ts h debug
  obtain ⟨y, hr⟩ := program_reads (env := ⟨debug, opts.seen, src⟩) (depth := src.length + 1) (fuel := src.length + 1) h (by omega) (by omega)
  have : Reads ⟨debug, opts.seen, src⟩ (run m) .hashbang src ts [] true y := by
    unfold run
    refine reads_rem ?_
    rw [List.append_nil]
    exact hr.bind_last reads_pure
  obtain ⟨es, rfl, h1⟩ := this
  have h1 := h1 0 [] (by simp)
  simp at h1
  have hz : ∀ e : Emit, Emit.moved 0 e = e := by intro e; simp [Emit.moved]
  rw [show Emit.moved 0 = id from funext hz] at h1
  exact ⟨es, by simp [highlight, HM.run, HM.runAll, h1], rfl⟩

/-- JavaScript programs get exactly the tokens of their lexical elements. -/
theorem C58_javascript : ExactIn (highlight .javascript) (fun _ => Lexical .javascript) .hashbang := exact_of _

/-- TypeScript programs get exactly the tokens of their lexical elements. -/
theorem C58_typescript : ExactIn (highlight .typescript) (fun _ => Lexical .typescript) .hashbang := exact_of _

/-- Defect: a name that begins with an underscore is highlighted as an error and a name. -/
theorem C58_javascript_underscore {w : Bytes} (h : Ident w w.length) (h0 : LongestChars White w 0) (h1 : ∀ c, w.head? = some c → c ∉ b!"_eEn")
    (h2 : ∀ ty, ¬ Word m w ty) (debug : Bool) (opts : Opts) :
    ∃ es, highlight m debug opts (c!"_" :: w) = .ok (true, es) ∧ es.map Emit.token = [⟨0, 1, .error⟩, ⟨1, w.length, .name⟩] := by
  have hn : ProgramIn (Lexical m) .div (w ++ []) ([⟨0, w.length, .name⟩] ++ shift w.length []) :=
    .cons ⟨0, .name (by simpa using h0) (by simpa using h) h2 fun h => h1 _ h (by decide)⟩ .nil
  obtain ⟨c, t, e, -, hc⟩ := Identifier.first h
  have hs := start_byte c hc
  have h3 := h1 c (by simp [e])
  simp only [List.mem_cons, List.not_mem_nil, or_false, not_or] at h3
  have hu : ProgramIn (Lexical m) .hashbang (b!"_" ++ (w ++ [])) _ := .cons ⟨0, .underscore (w := b!"_") ⟨by simp, ?_⟩ rfl ?_⟩ hn
  · have := exact_of m opts _ _ hu debug
    simpa [shift] using this
  · intro d hd
    subst e
    simp at hd
    subst hd
    rw [not_or]
    refine ⟨h3.1, ?_⟩
    rw [← isDigit_iff, hs.2.2.2.2.1]
    simp
  · intro d hd
    subst e
    cases hd
    simp [h3, hs]

/-- Defect: the digits of a fraction after a leading zero are taken for octal digits, so that the number `0.19` is highlighted as two
numbers, `0.1` and `9`. -/
theorem C58_javascript_fraction (m : Dialect) (debug : Bool) : ∃ es, highlight m debug {} b!"0.19" = .ok (true, es) ∧
    es.map Emit.token = [⟨0, 1, .number⟩, ⟨1, 1, .number_delim⟩, ⟨2, 1, .number⟩, ⟨3, 1, .number⟩] := by
  have : (match highlight m debug {} b!"0.19" with
      | .ok (true, es) => decide (es.map Emit.token = [⟨0, 1, .number⟩, ⟨1, 1, .number_delim⟩, ⟨2, 1, .number⟩, ⟨3, 1, .number⟩])
      | _ => false) = true := by
    cases m <;> cases debug <;> decide +kernel
  split at this
  · rename_i es h
    exact ⟨es, h, by simpa using this⟩
  · cases this

theorem ident_of {s : Bytes} {n : Nat} (h : matchIdentifier s = n) (h0 : n ≠ 0) : Ident s n := by
  rcases (matchIdentifier_facts s).2 with ⟨h1, -⟩ | ⟨-, h1, -⟩
  · exact absurd (h ▸ h1) h0
  · rwa [h] at h1

theorem white_of {s : Bytes} {n : Nat} (h : matchWhitespace s = n) : LongestChars White s n := h ▸ (whitespace_facts s).2.1

/-- The name `_x`. -/
example : ∃ es, highlight .typescript true {} b!"_x" = .ok (true, es) ∧ es.map Emit.token = [⟨0, 1, .error⟩, ⟨1, 1, .name⟩] :=
  C58_javascript_underscore (w := b!"x") (ident_of (by decide +kernel) (by decide)) (white_of (by decide +kernel)) (by simp)
    (fun ty h => by
      have : ∀ p ∈ words .typescript, p.1 ≠ b!"x" := by decide +kernel
      exact this _ h rfl) true {}

theorem no_word {m : Dialect} {w : Bytes} (h : (words m).all (fun p => p.1 ≠ w) = true) (ty : HT) : ¬ Word m w ty := by
  intro h'
  have := List.all_eq_true.1 h _ h'
  simp at this

/-- The program ``let a=`x${{b}}`;``. -/
example : ∃ es, highlight .javascript true {} b!"let a=`x${{b}}`;" = .ok (true, es) ∧ es.map Emit.token =
    [⟨0, 3, .keyword⟩, ⟨4, 1, .name⟩, ⟨5, 1, .symbol_op⟩, ⟨6, 1, .string_delim⟩, ⟨7, 1, .string⟩, ⟨8, 2, .string_interpolation_delim⟩,
     ⟨10, 1, .symbol_brace⟩, ⟨11, 1, .name⟩, ⟨12, 1, .symbol_brace⟩, ⟨13, 1, .string_interpolation_delim⟩, ⟨14, 1, .string_delim⟩,
     ⟨15, 1, .symbol_punc⟩] := by
  have name : Element .javascript (substitution .javascript 0) .regex b!"b" [⟨0, 1, .name⟩] (b!"}" ++ b!"}`;") .div :=
    .name (white_of (by decide +kernel)) (ident_of (by decide +kernel) (by decide)) (no_word (by decide +kernel)) (by simp)
  have code : Spec.JavaScript.Inside (Element .javascript (substitution .javascript 0)) .regex 0 b!"{b}"
      [⟨0, 1, .symbol_brace⟩, ⟨1, 1, .name⟩, ⟨2, 1, .symbol_brace⟩] b!"}`;" .div :=
    .openBrace (a := b!"b}") (ts := [⟨0, 1, .name⟩, ⟨1, 1, .symbol_brace⟩]) (.element (a := b!"}") (ts := [⟨0, 1, .symbol_brace⟩]) name (by simp)
      (.closeBrace (a := []) (ts := []) .close))
  have text : TemplateText b!"x${{b}}`;" 1 := by
    refine ⟨by simp, ?_, ?_, .inr (.inr (.inr ⟨b!"x", b!"{b}}`;", rfl, rfl⟩))⟩
    · rintro k hk ⟨u, v, e, rfl⟩
      have : u = [] := by simpa using hk
      subst this
      cases e
    · intro k hk h
      have : k = 0 := by simpa using hk
      subst this
      cases h
  have template : Template (substitution .javascript 1) .regex b!"x${{b}}`" [⟨0, 1, .string⟩, ⟨1, 2, .string_interpolation_delim⟩,
      ⟨3, 1, .symbol_brace⟩, ⟨4, 1, .name⟩, ⟨5, 1, .symbol_brace⟩, ⟨6, 1, .string_interpolation_delim⟩, ⟨7, 1, .string_delim⟩] b!";" .div :=
    .text (t := b!"x") (a := b!"${{b}}`") (by simp) text (by simp) (.substitution (s := b!"{b}") (a := b!"`") code .close)
  have hp : ProgramIn (Lexical .javascript) .regex [] [] := .nil
  have hp := hp.before b!";" ⟨0, .symbol (m := .javascript) (x := .div) (w := b!";") (longestIn_of (by decide +kernel) (by decide) (by decide +kernel)) (ty := .symbol_punc)
    (by unfold Word; decide +kernel) (by simp [Comment]) (by simp) (by simp) fun _ => .other (by simp)⟩
  have hp := hp.before _ ⟨1, .template template⟩
  have hp := hp.before b!"=" ⟨0, .symbol (x := .div) (w := b!"=") (longestIn_of (by decide +kernel) (by decide) (by decide +kernel)) (ty := .symbol_op)
    (by unfold Word; decide +kernel) (by simp [Comment]) (by simp) (by simp) fun _ => .other (by simp)⟩
  have hp := hp.before b!"a" ⟨0, .name (x := .div) (white_of (by decide +kernel)) (ident_of (by decide +kernel) (by decide)) (no_word (by decide +kernel)) (by simp)⟩
  have hp := hp.before b!" " ⟨0, .space (by simp) (white_of (by decide +kernel))⟩
  have hp := hp.before b!"let" ⟨0, .keyword (x := .hashbang) (w := b!"let") (ident_of (by decide +kernel) (by decide)) (ty := .keyword) (by unfold Word; decide +kernel)⟩
  exact C58_javascript _ _ _ hp true

end Ulight.Js
