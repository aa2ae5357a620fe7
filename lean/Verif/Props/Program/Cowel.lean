import Verif.Props.Program.CowelNumbers

/-!
# C58: the grammar of COWEL
-/

namespace Ulight.Cowel

open Spec Spec.Cowel Phrase

variable {α β : Type} {L : Nat} {P Q : Phrase} {v : α} {again : Call → HM Unit Unit} {N : Inner → Phrase}

/-- The kinds of text in the model. -/
def kind : Spec.Cowel.Kind → Ulight.Cowel.Kind
  | .document => .document
  | .name => .memberName
  | .string => .string
  | .block => .block

/-- What reads the text inside of delimiters. -/
def inner : Inner → Call
  | .members => .group
  | .text k => .text (kind k)

/-- The text inside of delimiters is read, if less than `L` bytes are left. -/
def Inners (L : Nat) (again : Call → HM Unit Unit) (N : Inner → Phrase) : Prop := ∀ c L', L' < L → R L' (again (inner c)) (N c) ()

theorem lit_less {t : Bytes} {ty : HT} {X Y : HM Unit α} (h0 : t ≠ []) (h : ∀ L', L' < L → R L' X P v) :
    R L (emitIfStarts t ty >>= fun c => if c = true then X else Y) (word t ty ⬝ P) v := by
  cases L with
  | zero =>
    rintro env _ _ b hl ⟨u, us, z, zs, rfl, rfl, ⟨rfl, rfl⟩, h2⟩
    simp at hl
    exact absurd hl.1 h0
  | succ L => exact lit_then h0 (h L (by omega))

/-! ## Expressions -/

theorem enclosed_reads {first last : Bytes} {ty : HT} {k : Spec.Cowel.Kind} (h0 : first ≠ []) (h1 : last ≠ []) (h : Inners L again N) :
    R L (enclosed again first last ty (kind k)) (word first ty ⬝ N (.text k) ⬝ maybe last ty) true :=
  lit_less h0 fun L' hl => (h (.text k) L' hl).seq ((maybe_lit h1).last)

theorem no_enclosed {first last : Bytes} {ty : HT} {k : Ulight.Cowel.Kind} {env : HEnv} {b : Bytes} (h : ¬ first <+: b) :
    Reads env (enclosed again first last ty k) () [] [] b false () := lit_else h

theorem group_reads (h : Inners L again N) : R L (expectGroup again) (Group N) true :=
  lit_less (by decide) fun L' hl => (h .members L' hl).any.last

theorem no_group {env : HEnv} {b : Bytes} (h : ¬ b!"(" <+: b) : Reads env (expectGroup again) () [] [] b false () := lit_else h

theorem string_reads (h : Inners L again N) : R L (expectQuotedString again) (Quoted N) true :=
  enclosed_reads (k := .string) (by decide) (by decide) h

theorem block_reads (h : Inners L again N) : R L (expectBlock again) (Block N) true :=
  enclosed_reads (k := .block) (by decide) (by decide) h

theorem none_before {m : HM Unit β} {w : β} {C : Bytes → Prop} (h : ∀ env b, C b → Reads env m () [] [] b w ()) :
    ReadsAny () L m (before C) := by
  rintro env _ _ b - ⟨rfl, rfl, hb⟩
  exact ⟨w, h env b hb⟩

theorem arguments {B : Phrase} {mB : HM Unit Unit} (h : Inners L again N) (hB : R L mB B ()) :
    R L (mB >>= fun _ => expectGroup again >>= fun _ => mB >>= fun _ => expectBlock again >>= fun _ => pure true) (Arguments N B) true :=
  hB.seq (((group_reads h).any.or (none_before fun _ _ => no_group)).seq fun _ =>
    hB.seq (((block_reads h).any.or (none_before fun _ _ => no_enclosed)).last))

theorem call_reads (h : Inners L again N) :
    R L (expectCall again) (when (fun s => ∃ n, IsCall s n) (Name .markup_tag) ⬝ Arguments N (Blanks Space)) true := by
  rintro env _ _ b hl ⟨u, us, z, zs, rfl, rfl, ⟨hc, hn, rfl⟩, h2⟩
  refine reads_rem ?_
  rw [List.append_assoc]
  refine reads_this ((isCall_iff _).2 hc) ?_
  rw [ident_eq hn (by simp)]
  obtain ⟨c, t, e, -⟩ := ident_first hn
  exact (reads_emit (by rfl) (by rw [e]; simp)).bind (arguments h blanks _ _ _ _ (by simp at hl ⊢; omega) h2)

theorem no_call {env : HEnv} {b : Bytes} (h : ∀ n, ¬ IsCall b n) : Reads env (expectCall again) () [] [] b false () :=
  reads_rem (reads_else (by rw [isCall_iff]; rintro ⟨n, hn⟩; exact h n hn) reads_pure)

theorem noName_noCall {b : Bytes} (h : NoName b) (n : Nat) : ¬ IsCall b n := by
  rintro ⟨⟨⟨c, hc, hs⟩, -⟩, -⟩
  exact h c (by rwa [List.head?_eq_getElem?]) hs

/-- Words and numbers do not begin with a delimiter. -/
theorem delim_facts {c : UInt8} (h : c ∈ b!"\"{(") : ¬ Start c ∧ ¬ (Letter c ∨ DecDigit c ∨ c = c!".") ∧ c ≠ c!"-" := by
  have h1 : ∀ c : UInt8, c ∈ b!"\"{(" → isIdStart c = false ∧ isDigit c = false ∧ c ≠ c!"." ∧ c ≠ c!"-" ∧ isAlpha c = false := by
    apply forall_byte
    decide +kernel
  obtain ⟨h1, h2, h3, h4, h5⟩ := h1 c h
  refine ⟨by rw [← isIdStart_iff, h1]; simp, ?_, h4⟩
  rw [← isDigit_iff, ← isAlpha_iff]
  simp [h2, h3, h5]

theorem digit_facts {c : UInt8} (h : DecDigit c ∨ c = c!".") : ¬ Start c ∧ c ≠ c!"-" := by
  have h1 : ∀ c : UInt8, isDigit c = true ∨ c = c!"." → isIdStart c = false ∧ c ≠ c!"-" := by
    apply forall_byte
    decide +kernel
  obtain ⟨h1, h2⟩ := h1 c (by rwa [isDigit_iff])
  exact ⟨by rw [← isIdStart_iff, h1]; simp, h2⟩

theorem not_exactly {w s : Bytes} (h : s.head? ≠ w.head?) (h0 : w ≠ []) : ¬ Exactly w s := by
  rintro ⟨⟨t, rfl⟩, -⟩
  cases w with
  | nil => exact h0 rfl
  | cons c w => exact h rfl

theorem no_words {env : HEnv} {c : UInt8} {t : Bytes} (h : c ∈ b!"\"{(") :
    Reads env (expectCall again) () [] [] (c :: t) false () ∧ Reads env expectIdentifierLike () [] [] (c :: t) false () ∧
      Reads env expectNumber () [] [] (c :: t) false () := by
  obtain ⟨h1, h2, h3⟩ := delim_facts h
  have hn : NoName (c :: t) := by
    intro d hd
    cases hd
    exact h1
  exact ⟨no_call (noName_noCall hn), no_word hn (not_exactly (by simpa using h3) (by simp)), no_number (by
    intro d hd
    cases hd
    exact h2)⟩

theorem expression (h : Inners L again N) : R L (expectExpression again) (Expression N) true := by
  intro env a ts b hl he
  cases he with
  | call hc => exact reads_or (call_reads h _ _ _ _ hl hc)
  | word hw e => exact reads_or_else (no_call e) (reads_or (words_read _ _ _ _ hl hw))
  | number hn =>
    obtain ⟨c, t, rfl, hc⟩ := numbers_first hn
    obtain ⟨h1, h2⟩ := digit_facts hc
    have hN : NoName (c :: t ++ b) := by
      intro d hd
      cases hd
      exact h1
    exact reads_or_else (no_call (noName_noCall hN)) (reads_or_else (no_word hN (not_exactly (by simpa using h2) (by simp)))
      (reads_or (numbers _ _ _ _ hl hn)))
  | string hs =>
    have := string_reads h env _ _ _ hl hs
    obtain ⟨_, _, z, zs, rfl, rfl, ⟨rfl, rfl⟩, -⟩ := hs
    obtain ⟨h1, h2, h3⟩ := no_words (env := env) (again := again) (c := c!"\"") (t := z ++ b) (by decide)
    exact reads_or_else h1 (reads_or_else h2 (reads_or_else h3 (reads_or this)))
  | block hs =>
    have := block_reads h env _ _ _ hl hs
    obtain ⟨_, _, z, zs, rfl, rfl, ⟨rfl, rfl⟩, -⟩ := hs
    obtain ⟨h1, h2, h3⟩ := no_words (env := env) (again := again) (c := c!"{") (t := z ++ b) (by decide)
    exact reads_or_else h1 (reads_or_else h2 (reads_or_else h3 (reads_or_else (no_enclosed (by simp)) (reads_or this))))
  | group hs =>
    have := group_reads h env _ _ _ hl hs
    obtain ⟨_, _, z, zs, rfl, rfl, ⟨rfl, rfl⟩, -⟩ := hs
    obtain ⟨h1, h2, h3⟩ := no_words (env := env) (again := again) (c := c!"(") (t := z ++ b) (by decide)
    exact reads_or_else h1 (reads_or_else h2 (reads_or_else h3 (reads_or_else (no_enclosed (by simp))
      (reads_or_else (no_enclosed (by simp)) this))))

theorem starts_head {c : UInt8} {b : Bytes} (h : ∀ d, b.head? = some d → d ≠ c) : ¬ [c] <+: b := by
  rintro ⟨t, rfl⟩
  exact h c rfl rfl

theorem no_expression {env : HEnv} {b : Bytes} (h : Spec.Cowel.NoExpression b) : Reads env (expectExpression again) () [] [] b false () := by
  obtain ⟨h1, h2⟩ := h
  have hn : NoName b := fun c hc hs => (h2 c hc).1 (Or.inl hs)
  have h3 : ∀ c ∈ b!".\"{(", ∀ d, b.head? = some d → d ≠ c := by
    rintro c hc d hd rfl
    exact (h2 _ hd).2 hc
  refine reads_or_else (a := []) (ts := []) (no_call (noName_noCall hn)) (reads_or_else (no_word hn h1) (reads_or_else (no_number ?_)
    (reads_or_else (no_enclosed (starts_head (h3 _ (by decide)))) (reads_or_else (no_enclosed (starts_head (h3 _ (by decide))))
      (no_group (starts_head (h3 _ (by decide))))))))
  rintro c hc (h | h | rfl)
  · exact (h2 c hc).1 (Or.inl (Or.inl h))
  · exact (h2 c hc).1 (Or.inr h)
  · exact (h2 _ hc).2 (by decide)

theorem maybe_expression (h : Inners L again N) : ReadsAny () L (expectExpression again) (MaybeExpression N) :=
  (expression h).any.or (none_before fun _ _ => no_expression)

/-- How expressions begin. -/
theorem expression_first {a b : Bytes} {ts : List Token} (h : Expression N a ts b) :
    ∃ c t, a = c :: t ∧ (Start c ∨ DecDigit c ∨ c ∈ b!"-.\"{(") := by
  cases h with
  | call h =>
    obtain ⟨u, us, z, zs, rfl, rfl, ⟨hc, hn, rfl⟩, h2⟩ := h
    obtain ⟨c, t, rfl, h⟩ := ident_first hn
    exact ⟨c, _, rfl, Or.inl h⟩
  | word h e =>
    rcases word_start h with ⟨c, t, rfl, h'⟩ | rfl
    · exact ⟨c, _, rfl, Or.inl h'⟩
    · exact ⟨_, _, rfl, Or.inr (Or.inr (by decide))⟩
  | number h =>
    obtain ⟨c, t, rfl, h | rfl⟩ := numbers_first h
    · exact ⟨c, _, rfl, Or.inr (Or.inl h)⟩
    · exact ⟨_, _, rfl, Or.inr (Or.inr (by decide))⟩
  | string h | block h | group h =>
    obtain ⟨_, _, z, zs, rfl, rfl, ⟨rfl, rfl⟩, -⟩ := h
    exact ⟨_, _, rfl, Or.inr (Or.inr (by decide))⟩

theorem first_facts {c : UInt8} (h : Start c ∨ DecDigit c ∨ c ∈ b!"-.\"{(") : ¬ Space c ∧ c ≠ c!"\\" ∧ InLine c := by
  have h1 : ∀ c : UInt8, (isIdStart c = true ∨ isDigit c = true ∨ c ∈ b!"-.\"{(") →
      isHtmlWhitespace c = false ∧ c ≠ c!"\\" ∧ c ≠ 0x0A ∧ c ≠ 0x0D := by
    apply forall_byte
    decide +kernel
  obtain ⟨h1, h2, h3, h4⟩ := h1 c (by rwa [isDigit_iff, isIdStart_iff])
  exact ⟨by rw [← isSpace_iff, h1]; simp, h2, by simp [InLine, h3, h4]⟩

/-! ## Arguments -/

theorem seq_assoc {P Q S : Phrase} {a b : Bytes} {ts : List Token} : (P ⬝ (Q ⬝ S)) a ts b → ((P ⬝ Q) ⬝ S) a ts b := by
  rintro ⟨u, us, _, _, rfl, rfl, h1, v, vs, w, ws, rfl, rfl, h2, h3⟩
  refine ⟨u ++ v, us ++ shift u.length vs, w, ws, by simp, by simp [shift_append, shift_shift], ⟨u, us, v, vs, rfl, rfl, ?_, h2⟩, h3⟩
  simpa using h1

theorem no_whitespace {s : Bytes} (h : ∀ c, s.head? = some c → ¬ Space c) : matchWhitespace s = 0 := by
  refine length_if_eq (n := 0) ⟨by simp, ?_⟩ (by simp)
  intro c hc hs
  exact h c (by rwa [List.head?_eq_getElem?]) ((isSpace_iff c).1 hs)

theorem memberTail (h : Inners L again N) :
    R L (consumeBlank >>= fun _ => HM.rem >>= fun r => HM.hassert (startsWith r b!"=") >>= fun _ => HM.emitAdv 1 .symbol_punc >>= fun _ =>
      consumeBlank >>= fun _ => expectExpression again >>= fun _ => pure true)
      (Blanks Space ⬝ word b!"=" .symbol_punc ⬝ Blanks Space ⬝ MaybeExpression N) true := by
  refine blanks.seq ?_
  rintro env _ _ b hl ⟨_, _, z, zs, rfl, rfl, ⟨rfl, rfl⟩, h2⟩
  refine reads_rem ?_
  refine Reads.bind_none (w := ()) (y := ()) ⟨[], rfl, fun i out _ => by simp [HM.hassert]⟩ ?_
  exact (reads_emit (by rfl) (by simp)).bind ((blanks.seq (maybe_expression h).last) _ _ _ _ (by simp at hl ⊢; omega) h2)

theorem nameLength_ident {a b : Bytes} (h : Ident (a ++ b) a.length) : nameLength (a ++ b) = a.length := by
  unfold nameLength
  rw [ident_eq h (by simp), if_pos (Nat.pos_iff_ne_zero.1 h.2.1)]

theorem notNamed_first {c : UInt8} {t : Bytes} (h1 : ¬ Start c) (h2 : c ≠ c!"\"") : ¬ IsNamed (c :: t) := by
  rintro ⟨n, ⟨⟨d, hd, h⟩, -⟩ | ⟨t, m, e, -⟩, -⟩
  · cases hd
    exact h1 h
  · cases e
    exact h2 rfl

theorem notNamed_nil : ¬ IsNamed [] := by
  rintro ⟨n, ⟨⟨d, hd, h⟩, -⟩ | ⟨t, m, e, -⟩, -⟩
  · cases hd
  · cases e

theorem ellipsis_not {s : Bytes} (h : ¬ b!"..." <+: s) {env : HEnv} : Reads env expectEllipsis () [] [] s false () := by
  refine reads_rem (reads_else ?_ reads_pure)
  simp [matchEllipsis, starts_not.2 h]

/-- The part of `memberValue` after the ellipsis and the expression. -/
theorem memberValue_other {env : HEnv} {a b : Bytes} {ts : List Token} {v : Bool}
    (h : ∀ c, (a ++ b).head? = some c → ¬ Space c) (h1 : Spec.Cowel.NoExpression (a ++ b)) (h2 : Reads env (do
      let r ← HM.rem
      match memberToken r with
      | some t => do
        emitFixed t
        pure true
      | none => pure false : HM Unit Bool) () a ts b v ()) : Reads env (memberValue again) () a ts b v () := by
  refine reads_rem ?_
  rw [no_whitespace h]
  refine (reads_advance (a := []) rfl).bind_none ((reads_or_else (a := []) (ts := []) (ellipsis_not ?_) (no_expression h1)).bind_none
    (reads_else (by simp) h2))
  rintro ⟨t, ht⟩
  rw [List.nil_append] at ht
  exact (h1.2 c!"." (by rw [← ht]; rfl)).2 (by decide)

theorem symbol_notSpace {c : UInt8} (h : c ∈ b!"=|&!<>+-*/%~") : ¬ Space c ∧ ¬ Start c ∧ c ≠ c!"\"" := by
  have h1 : ∀ c : UInt8, c ∈ b!"=|&!<>+-*/%~" → isHtmlWhitespace c = false ∧ isIdStart c = false ∧ c ≠ c!"\"" := by
    apply forall_byte
    decide +kernel
  obtain ⟨h1, h2, h3⟩ := h1 c h
  exact ⟨by rw [← isSpace_iff, h1]; simp, by rw [← isIdStart_iff, h2]; simp, h3⟩

theorem named_reads (h : Inners L again N) : R L (expectMember again)
    (when IsNamed (Name .markup_attr) ⬝ Blanks Space ⬝ word b!"=" .symbol_punc ⬝ Blanks Space ⬝ MaybeExpression N) true := by
  rintro env _ _ b hl ⟨u, us, z, zs, rfl, rfl, ⟨hc, hn, rfl⟩, h2⟩
  refine reads_rem ?_
  rw [List.append_assoc]
  refine reads_this ((isNamed_iff _).2 hc) ?_
  rw [nameLength_ident hn]
  obtain ⟨c, t, e, hs⟩ := ident_first hn
  refine Reads.bind (w := ()) (y := ()) ?_ (memberTail h _ _ _ _ (by simp at hl ⊢; omega) h2)
  refine Reads.bind_none (no_enclosed ?_) (reads_else (by simp) (reads_emit (by rfl) (by rw [e]; simp)))
  rw [e]
  have := (start_facts hs).2.2.2.1
  simp [Ne.symm this]

theorem quotedName_reads (h : Inners L again N) : R L (expectMember again)
    (when IsNamed (word b!"\"" .markup_attr_delim) ⬝ N (.text .name) ⬝ maybe b!"\"" .markup_attr_delim ⬝ Blanks Space ⬝
      word b!"=" .symbol_punc ⬝ Blanks Space ⬝ MaybeExpression N) true := by
  rintro env a ts b hl ⟨u, us, z, zs, e1, e2, ⟨hc, hn⟩, h2⟩
  have h3 := seq_assoc ((⟨u, us, z, zs, e1, e2, hn, seq_assoc h2⟩ : (word b!"\"" .markup_attr_delim ⬝ _) a ts b))
  subst e1
  obtain ⟨u', us', z', zs', e3, rfl, h4, h5⟩ := h3
  refine reads_rem ?_
  refine reads_this ((isNamed_iff _).2 (by simpa using hc)) ?_
  generalize nameLength (u ++ z ++ b) = n
  rw [e3] at hl ⊢
  refine Reads.bind (w := ()) (y := ()) ?_ (memberTail h _ _ _ _ (by simp at hl ⊢; omega) h5)
  exact (enclosed_reads (k := .name) (by decide) (by decide) h _ _ _ _ (by simpa using hl) h4).bind_last (reads_this rfl reads_pure)

theorem member (h : Inners L again N) : R L (expectMember again) (Member N) true := by
  intro env a ts b hl hm
  cases hm with
  | named hm => exact named_reads h _ _ _ _ hl hm
  | quoted hm => exact quotedName_reads h _ _ _ _ hl hm
  | ellipsis =>
    refine reads_rem (reads_else (by rw [isNamed_iff]; exact notNamed_first (by simp [Start, Letter]) (by decide)) ?_)
    refine reads_rem ?_
    have he : matchEllipsis (b!"..." ++ b) = 3 := by simp [matchEllipsis]
    rw [no_whitespace (by simp [Space])]
    exact (reads_advance (a := []) rfl).bind_none ((reads_or (reads_rem (reads_this (by rw [he]; decide)
      (by rw [he]; exact (reads_emit (by rfl) (by simp)).bind_last reads_pure)))).bind_last (reads_this rfl reads_pure))
  | value he h1 h2 =>
    refine reads_rem (reads_else (by rw [isNamed_iff]; exact h1) ?_)
    refine reads_rem ?_
    rw [no_whitespace ?_]
    · exact (reads_advance (a := []) rfl).bind_none ((reads_or_else (ellipsis_not h2) (expression h _ _ _ _ hl he)).bind_last
        (reads_this rfl reads_pure))
    · obtain ⟨c, t, rfl, hc⟩ := expression_first he
      rintro d hd
      cases hd
      exact (first_facts hc).1
  | symbol hs hn =>
    obtain ⟨c, t, rfl, hc⟩ := symbol_first hs
    obtain ⟨h1, h2, h3⟩ := symbol_notSpace hc
    refine reads_rem (reads_else (by rw [isNamed_iff]; exact notNamed_first h2 h3) ?_)
    refine memberValue_other (by rintro d hd; cases hd; exact h1) hn ?_
    obtain ⟨ty, h4, h5, rfl⟩ := hs
    refine reads_rem ?_
    rw [symbol_eq h4 h5]
    exact (reads_emit (by rfl) (by simp)).bind_last reads_pure

theorem no_member {env : HEnv} {b : Bytes} (h : NoMember b) : Reads env (expectMember again) () [] [] b false () := by
  obtain ⟨h1, h2, h3⟩ := h
  refine reads_rem (reads_else ?_ ?_)
  · rw [isNamed_iff]
    cases b with
    | nil => exact notNamed_nil
    | cons c t =>
      refine notNamed_first (fun h => (h1.2 c rfl).1 (Or.inl h)) ?_
      rintro rfl
      exact (h1.2 _ rfl).2 (by decide)
  · refine memberValue_other h3 h1 (reads_rem ?_)
    rw [List.nil_append, no_symbol h2]
    exact reads_pure

theorem member_ne {a b : Bytes} {ts : List Token} (h : Member N a ts b) : a ≠ [] := by
  cases h with
  | named h =>
    obtain ⟨u, us, z, zs, rfl, rfl, ⟨hc, hn, rfl⟩, h2⟩ := h
    obtain ⟨c, t, rfl, -⟩ := ident_first hn
    simp
  | quoted h =>
    obtain ⟨u, us, z, zs, rfl, rfl, ⟨hc, rfl, rfl⟩, h2⟩ := h
    simp
  | ellipsis => simp
  | value h =>
    obtain ⟨c, t, rfl, -⟩ := expression_first h
    simp
  | symbol h =>
    obtain ⟨c, t, rfl, -⟩ := symbol_first h
    simp

theorem blanks_nil {S : UInt8 → Prop} {ts : List Token} {b : Bytes} (h : Blanks S [] ts b) : ts = [] := by
  generalize e : ([] : Bytes) = a at h
  cases h with
  | last h =>
    obtain ⟨u, us, z, zs, rfl, rfl, ⟨-, rfl⟩, -, rfl, -⟩ := h
    rfl
  | more h h0 h' => exact absurd (List.append_eq_nil_iff.1 e.symm).1 h0

theorem star_ne {P Q : Phrase} {a b : Bytes} {ts : List Token} (h : star P Q a ts b) : star (fun a ts b => P a ts b ∧ a ≠ []) Q a ts b := by
  induction h with
  | last h => exact .last h
  | more h h0 h' ih => exact .more ⟨h, h0⟩ h0 ih

theorem next_comma {m : Bool} : R L (groupNext m) (word b!"," .symbol_punc) (.inl ()) := by
  rintro env _ _ b - ⟨rfl, rfl⟩
  exact reads_rem (reads_else (by simp) (reads_else (by simp) (reads_this (by simp)
    ((reads_emit (by rfl) (by simp)).bind_last reads_pure))))

theorem next_other {env : HEnv} {m : Bool} {w : Unit ⊕ Unit} {c : UInt8} {a b : Bytes} {ts : List Token} (hc : c ∉ b!"),}")
    (h0 : (a ++ b).head? = some c)
    (h : Reads env (if m = true then pure (.inl ()) else recover) () a ts b w ()) : Reads env (groupNext m) () a ts b w () := by
  refine reads_rem ?_
  obtain ⟨t, e⟩ : ∃ t, a ++ b = c :: t := by
    generalize a ++ b = s at h0
    cases s with
    | nil => cases h0
    | cons d t => cases h0; exact ⟨t, rfl⟩
  simp only [List.mem_cons, List.not_mem_nil, or_false, not_or] at hc
  obtain ⟨h1, h2, h3⟩ := hc
  rw [e]
  exact reads_else (by simp) (reads_else (by simp [startsWith, Ne.symm h1]) (reads_else (by simp [startsWith, Ne.symm h2])
    (reads_else (by simp [startsWith, Ne.symm h3]) h)))

theorem next_item : R L (groupNext true) (before fun b => ∃ c, b.head? = some c ∧ c ∉ b!"),}") (.inl ()) := by
  rintro env _ _ b - ⟨rfl, rfl, c, h, hc⟩
  exact next_other hc h (reads_this rfl reads_pure)

theorem junk_find {a b : Bytes} (h : ∀ c ∈ a, c ∉ b!"),}") (hb : ∀ c, b.head? = some c → c ∈ b!"),}") :
    Ascii.find_if (a ++ b) (b!",})").contains = if b = [] then none else some a.length := by
  have hp : ∀ c : UInt8, (b!",})").contains c = false ↔ c ∉ b!"),}" := by
    apply forall_byte
    decide +kernel
  have hl : Longest (fun c => c ∉ b!"),}") (a ++ b) a.length := by
    refine ⟨by simpa using h, ?_⟩
    intro c hc h'
    refine h' (hb c ?_)
    rwa [List.head?_eq_getElem?, ← Nat.sub_self a.length, ← List.getElem?_append_right (Nat.le_refl _)]
  rcases find_if_longest (a ++ b) _ _ hp 0 (by simp) with ⟨j, c, h1, -, h2, h3, h4, h5⟩ | ⟨h1, h2⟩
  · have := Longest.unique hl (by simpa using h5) (by simp) (by omega)
    rw [h1, if_neg, this]
    rintro rfl
    simp at h2 this
    omega
  · have := Longest.unique hl (by simpa using h2) (by simp) (by simp)
    rw [h1, if_pos]
    simpa using this

theorem junk_first {a b : Bytes} {ts : List Token} (h : Junk a ts b) : ∃ c t, a = c :: t ∧ c ∉ b!"),}" := by
  obtain ⟨h0, ⟨h, -⟩, -⟩ := h
  obtain ⟨c, t, rfl⟩ := List.exists_cons_of_ne_nil h0
  exact ⟨c, t, rfl, h c (by simp)⟩

theorem junk_reads {env : HEnv} {a b : Bytes} {ts : List Token} {w : Unit ⊕ Unit} {z : Bytes} {zs : List Token}
    (hj : Junk a ts (z ++ b)) (hr : z ++ b = [] ∧ zs = [] ∧ w = .inr () ∨ z ++ b ≠ [] ∧ Reads env (do
      let r ← HM.rem
      if r.head? = some c!"," then pure (.inl ())
      else do
        HM.emitAdv 1 (if r.head? = some c!"}" then .symbol_brace else .symbol_parens)
        pure (.inr ()) : HM Unit (Unit ⊕ Unit)) () z zs b w ()) : Reads env (groupNext false) () (a ++ z) (ts ++ shift a.length zs) b w () := by
  obtain ⟨c, t, e, hc⟩ := junk_first hj
  refine next_other (c := c) hc (by rw [e]; rfl) (reads_else (by simp) (reads_rem ?_))
  obtain ⟨-, ⟨h1, h2⟩, rfl⟩ := hj
  rw [List.append_assoc, junk_find (by simpa using h1) ?_]
  · rcases hr with ⟨h, rfl, rfl⟩ | ⟨h, hr⟩
    · rw [if_pos h]
      obtain ⟨rfl, rfl⟩ := List.append_eq_nil_iff.1 h
      exact (reads_advance (by simp)).bind (reads_pure)
    · rw [if_neg h]
      exact (reads_advance rfl).bind hr
  · intro c hc
    refine Classical.byContradiction fun h => h2 c ?_ h
    rwa [List.getElem?_append_right (Nat.le_refl _), Nat.sub_self, ← List.head?_eq_getElem?]

theorem junk_comma : R L (groupNext false) (Junk ⬝ before fun b => b!"," <+: b) (.inl ()) := by
  rintro env _ _ _ - ⟨u, us, z, zs, rfl, rfl, hj, rfl, rfl, t, rfl⟩
  exact junk_reads hj (Or.inr ⟨by simp, reads_rem (reads_this rfl reads_pure)⟩)

theorem junk_end : R L (groupNext false)
    (Junk ⬝ or (before fun b => b = []) (or (word b!"}" .symbol_brace) (word b!")" .symbol_parens))) (.inr ()) := by
  rintro env _ _ _ - ⟨u, us, z, zs, rfl, rfl, hj, ⟨rfl, rfl, rfl⟩ | ⟨rfl, rfl⟩ | ⟨rfl, rfl⟩⟩
  · exact junk_reads hj (Or.inl ⟨rfl, rfl, rfl⟩)
  · exact junk_reads hj (Or.inr ⟨by simp, reads_rem (reads_else (by simp) ((reads_emit (by rfl) (by simp)).bind_last reads_pure))⟩)
  · exact junk_reads hj (Or.inr ⟨by simp, reads_rem (reads_else (by simp) ((reads_emit (by rfl) (by simp)).bind_last reads_pure))⟩)

theorem next_end {m : Bool} : R L (groupNext m) (or (before fun b => b = [] ∨ b!"}" <+: b) (word b!")" .symbol_parens)) (.inr ()) := by
  rintro env _ _ b - (⟨rfl, rfl, rfl | ⟨t, rfl⟩⟩ | ⟨rfl, rfl⟩)
  · exact reads_rem (reads_this rfl reads_pure)
  · exact reads_rem (reads_else (by simp) (reads_else (by simp [startsWith]) (reads_else (by simp [startsWith]) (reads_this (by simp) reads_pure))))
  · exact reads_rem (reads_else (by simp) (reads_this (by simp) ((reads_emit (by rfl) (by simp)).bind_last reads_pure)))

theorem members (h : Inners L again N) : R L (groupRest again) (Members N) () := by
  refine ReadsAll.of (ReadsAll.star ?_ ?_) fun a ts b => star_ne
  · rintro env a ts b hl ⟨hp, h0⟩
    refine reads_rem (reads_else (by simpa using fun h => absurd h h0) ?_)
    refine (blanks.seq (P := Blanks Space) (f := fun _ => expectMember again >>= fun m => consumeBlank >>= fun _ => groupNext m) ?_) _ _ _ _ hl hp
    refine ((member h).seq (blanks.seq (next_comma.or next_item))).or ?_
    have : R L (expectMember again) (before NoMember) false := by
      rintro env _ _ b - ⟨rfl, rfl, h⟩
      exact no_member h
    exact this.seq (blanks.seq (next_comma.or junk_comma))
  · have hno : R L (expectMember again) (before NoMember) false := by
      rintro env _ _ b - ⟨rfl, rfl, h⟩
      exact no_member h
    intro env a ts b hl hq
    by_cases h0 : a ++ b = []
    · refine reads_rem (reads_this (by rw [h0]; rfl) ?_)
      obtain ⟨rfl, rfl⟩ := List.append_eq_nil_iff.1 h0
      suffices ts = [] by
        subst this
        exact reads_pure
      rcases hq with ⟨u, us, z, zs, e, rfl, h1, m, ms, w, ws, rfl, rfl, h2, u', us', z', zs', rfl, rfl, h3, h4⟩ |
        ⟨u, us, z, zs, e, rfl, h1, m, ms, w, ws, rfl, rfl, h2, u', us', z', zs', rfl, rfl, h3, y, ys, x, xs, rfl, rfl, h4, h5⟩
      · simp only [List.nil_eq, List.append_eq_nil_iff] at e
        obtain ⟨rfl, rfl, rfl, rfl⟩ := e
        rw [blanks_nil h1, blanks_nil h3]
        rcases h2 with h2 | ⟨-, rfl, -⟩
        · exact absurd rfl (member_ne h2)
        · rcases h4 with ⟨-, rfl, -⟩ | ⟨h4, -⟩
          · rfl
          · cases h4
      · simp only [List.nil_eq, List.append_eq_nil_iff] at e
        exact absurd e.2.2.2.1 h4.1
    · refine reads_rem (reads_else (by simpa using h0) ?_)
      rcases hq with hq | hq
      · refine (blanks.seq (P := Blanks Space) (f := fun _ => expectMember again >>= fun m => consumeBlank >>= fun _ => groupNext m) ?_) _ _ _ _ hl hq
        exact ((member h).any.or hno.any).seq fun m => blanks.seq next_end
      · refine (blanks.seq (P := Blanks Space) (f := fun _ => expectMember again >>= fun m => consumeBlank >>= fun _ => groupNext m) ?_) _ _ _ _ hl hq
        exact hno.seq (blanks.seq junk_end)

/-! ## Text -/

theorem soup_ne {a b : Bytes} {ts : List Token} (h : Soup a ts b) : a ≠ [] := by
  rcases h with h | ⟨h, -⟩
  · obtain ⟨c, t, rfl, -⟩ := symbol_first h
    simp
  · rintro rfl
    simp at h

theorem splice_end : R L (do
    let r ← HM.rem
    if r.isEmpty then pure (.inr ())
    else if startsWith r b!")" then do
      HM.emitAdv 1 .string_interpolation_delim
      pure (.inr ())
    else if startsWith r b!"}" then pure (.inr ())
    else do
      soup
      pure (.inl ()) : HM Unit (Unit ⊕ Unit))
    (or (before fun b => b = [] ∨ b!"}" <+: b) (word b!")" .string_interpolation_delim)) (.inr ()) := by
  rintro env _ _ b - (⟨rfl, rfl, rfl | ⟨t, rfl⟩⟩ | ⟨rfl, rfl⟩)
  · exact reads_rem (reads_this rfl reads_pure)
  · exact reads_rem (reads_else (by simp) (reads_else (by simp [startsWith]) (reads_this (by simp) reads_pure)))
  · exact reads_rem (reads_else (by simp) (reads_this (by simp) ((reads_emit (by rfl) (by simp)).bind_last reads_pure)))

theorem splice_soup : R L (do
    let r ← HM.rem
    if r.isEmpty then pure (.inr ())
    else if startsWith r b!")" then do
      HM.emitAdv 1 .string_interpolation_delim
      pure (.inr ())
    else if startsWith r b!"}" then pure (.inr ())
    else do
      soup
      pure (.inl ()) : HM Unit (Unit ⊕ Unit))
    (when (fun s => ¬ b!")" <+: s ∧ ¬ b!"}" <+: s) Soup) (.inl ()) := by
  rintro env a ts b hl ⟨⟨h1, h2⟩, h3⟩
  have h0 := soup_ne h3
  exact reads_rem (reads_else (by simpa using fun h => absurd h h0) (reads_else (by rw [starts_not.2 h1]; simp)
    (reads_else (by rw [starts_not.2 h2]; simp) ((soup_reads _ _ _ _ hl h3).bind_last reads_pure))))

theorem maybe_expression_nil {ts : List Token} {b : Bytes} (h : MaybeExpression N [] ts b) : ts = [] := by
  rcases h with h | ⟨-, rfl, -⟩
  · obtain ⟨c, t, e, -⟩ := expression_first h
    cases e
  · rfl

theorem splice (h : Inners L again N) : R L (expectSplice again) (Splice N) true := by
  refine lit_less (by decide) fun L' hL => ?_
  have h : Inners L' again N := fun c L'' hl => h c L'' (by omega)
  refine ReadsAny.last (ReadsAll.any (v := ()) (ReadsAll.of (ReadsAll.star ?_ ?_) fun a ts b => star_ne))
  · rintro env a ts b hl ⟨hp, h0⟩
    refine reads_rem (reads_else (by simpa using fun h => absurd h h0) ?_)
    exact (blanks.seq ((maybe_expression h).seq fun _ => blanks.seq splice_soup)) _ _ _ _ hl hp
  · intro env a ts b hl hq
    by_cases h0 : a ++ b = []
    · refine reads_rem (reads_this (by rw [h0]; rfl) ?_)
      obtain ⟨rfl, rfl⟩ := List.append_eq_nil_iff.1 h0
      suffices ts = [] by
        subst this
        exact reads_pure
      obtain ⟨u, us, z, zs, e, rfl, h1, m, ms, w, ws, rfl, rfl, h2, u', us', z', zs', rfl, rfl, h3, h4⟩ := hq
      simp only [List.nil_eq, List.append_eq_nil_iff] at e
      obtain ⟨rfl, rfl, rfl, rfl⟩ := e
      rw [blanks_nil h1, blanks_nil h3, maybe_expression_nil h2]
      rcases h4 with ⟨-, rfl, -⟩ | ⟨h4, -⟩
      · rfl
      · cases h4
    · refine reads_rem (reads_else (by simpa using h0) ?_)
      exact (blanks.seq ((maybe_expression h).seq fun _ => blanks.seq splice_end)) _ _ _ _ hl hq

theorem escape_not {b : Bytes} (h : b.head? ≠ some c!"\\") : ¬ b!"\\" <+: b := by
  rintro ⟨t, rfl⟩
  exact h rfl

theorem noComment_head {b : Bytes} (h : b.head? ≠ some c!"\\") : NoComment b := by
  constructor <;>
  · rintro ⟨t, rfl⟩
    exact h rfl

theorem space_noExpression {c : UInt8} {t : Bytes} (h : Space c) : Spec.Cowel.NoExpression (c :: t) ∧ c ≠ c!"\\" := by
  have h1 : ∀ c : UInt8, isHtmlWhitespace c = true → isIdStart c = false ∧ isDigit c = false ∧ c ∉ b!".\"{(" ∧ c ≠ c!"-" ∧ c ≠ c!"\\" := by
    apply forall_byte
    decide +kernel
  obtain ⟨h1, h2, h3, h4, h5⟩ := h1 c ((isSpace_iff c).2 h)
  refine ⟨⟨not_exactly (by simpa using h4) (by simp), ?_⟩, h5⟩
  intro d hd
  cases hd
  refine ⟨?_, h3⟩
  unfold Continue
  rw [← isIdStart_iff, ← isDigit_iff]
  simp [h1, h2]

/-- A step of a line splice in which the line goes on. -/
theorem line_going {env : HEnv} {a b : Bytes} {ts : List Token} {w : Unit ⊕ Unit} (h0 : a ≠ []) (h : ¬ Newline (a ++ b))
    (h' : Reads env (HM.or expectEscape (HM.or expectLineComment (HM.or expectBlockComment (expectExpression again))) >>= fun c =>
      if c = true then pure (.inl ())
      else if matchWhitespace (a ++ b) ≠ 0 then do
        HM.advance (matchWhitespace (a ++ b))
        pure (.inl ())
      else do
        soup
        pure (.inl ()) : HM Unit (Unit ⊕ Unit)) () a ts b w ()) : Reads env (lineStep again ()) () a ts b w () := by
  obtain ⟨c, t, rfl⟩ := List.exists_cons_of_ne_nil h0
  have hc : InLine c := Classical.byContradiction fun hc => h ⟨c, rfl, hc⟩
  have h1 : c ≠ 0x0A ∧ c ≠ 0x0D := by simpa [InLine] using hc
  exact reads_rem (reads_else (by simp) (reads_else (by simp [startsWith, Ne.symm h1.2]) (reads_else (by
    simp [startsWith, Ne.symm h1.1, Ne.symm h1.2]) h')))

/-- The parts that are tried first are not there. -/
theorem line_others {env : HEnv} {b : Bytes} (h1 : NoEscape b) (h2 : NoComment b) (h3 : Spec.Cowel.NoExpression b) :
    Reads env (HM.or expectEscape (HM.or expectLineComment (HM.or expectBlockComment (expectExpression again)))) () [] [] b false () :=
  reads_or_else (a := []) (ts := []) (no_escape h1) (reads_or_else (a := []) (ts := []) (no_lineComment h2.1)
    (reads_or_else (a := []) (ts := []) (no_blockComment h2.2) (no_expression h3)))

theorem lineSplice (h : Inners L again N) : R L (expectLineSplice again) (LineSplice N) true := by
  rintro env _ _ b hl ⟨_, _, z, zs, rfl, rfl, ⟨rfl, rfl⟩, ⟨c, hc, hi⟩, hs⟩
  refine reads_rem (reads_this ?_ ((reads_emit (by rfl) (by simp)).bind (reads_rem (Reads.bind_last (w := ()) (y := ()) ?_ reads_pure))))
  · simp only [List.append_assoc, Bool.and_eq_true, List.any_eq_true, Bool.or_eq_true, decide_eq_true_eq]
    refine ⟨startsWith_iff.2 ⟨z ++ b, rfl⟩, c, hc, ?_⟩
    refine Classical.byContradiction fun h => hi ?_
    simp only [not_or] at h
    simp [InLine, h]
  refine readsAll_loop (L := L) ?_ ?_ (star_ne hs) (by simp at hl ⊢; omega) _ (by omega)
  · rintro env a ts b hl ⟨⟨hn, hp⟩, h0⟩
    refine line_going h0 hn ?_
    rcases hp with hp | hp | hp | hp | hp
    · exact (reads_or (escapes _ _ _ _ hl hp)).bind_last (reads_this rfl reads_pure)
    · obtain ⟨c, t, e, hc⟩ := comment_first hp
      refine (reads_or_else (no_escape (Or.inr ⟨c, t ++ b, by rw [e]; rfl, Or.inr ?_⟩)) ?_).bind_last (reads_this rfl reads_pure)
      · have : ∀ c ∈ b!":*", c ∈ b!":*( " := by decide
        exact this c hc
      · rcases hp with hp | hp
        · exact reads_or (lineComment _ _ _ _ hl hp)
        · refine reads_or_else (no_lineComment ?_) (reads_or (blockComment _ _ _ _ hl hp))
          obtain ⟨_, _, _, _, rfl, rfl, ⟨rfl, rfl⟩, _⟩ := hp
          simp
    · obtain ⟨c, t, e, hc⟩ := expression_first hp
      have h1 : (a ++ b).head? ≠ some c!"\\" := by
        rw [e]
        simpa using (first_facts hc).2.1
      exact (reads_or_else (no_escape (Or.inl (escape_not h1))) (reads_or_else (no_lineComment (noComment_head h1).1)
        (reads_or_else (no_blockComment (noComment_head h1).2) (expression h _ _ _ _ hl hp)))).bind_last (reads_this rfl reads_pure)
    · obtain ⟨-, hs, rfl⟩ := hp
      have hw : matchWhitespace (a ++ b) = a.length := length_if_eq (by simpa only [isSpace_iff] using hs) (by simp)
      have ha := List.length_pos_iff.2 h0
      rw [hw]
      obtain ⟨c, t, e⟩ := List.exists_cons_of_ne_nil h0
      have hc : Space c := hs.1 c (by rw [e]; simp)
      obtain ⟨h2, h3⟩ := space_noExpression (t := t ++ b) hc
      have h1 : (a ++ b).head? ≠ some c!"\\" := by
        rw [e]
        simpa using h3
      exact (line_others (Or.inl (escape_not h1)) (noComment_head h1) (by rw [e]; exact h2)).bind_none (reads_else (by simp)
        (reads_this (by omega) ((reads_advance rfl).bind_last reads_pure)))
    · obtain ⟨⟨h1, h2, h3, h4⟩, hp⟩ := hp
      rw [no_whitespace h4]
      exact (line_others h1 h2 h3).bind_none (reads_else (by simp) (reads_else (by simp) ((soup_reads _ _ _ _ hl hp).bind_last reads_pure)))
  · rintro env _ _ b hl (⟨rfl, rfl, rfl⟩ | ⟨ha, rfl, h2⟩)
    · exact reads_rem (reads_this rfl reads_pure)
    · simp only [List.mem_cons, List.not_mem_nil, or_false] at ha
      rcases ha with rfl | rfl | rfl
      · exact reads_rem (reads_else (by simp) (reads_this (by simp) ((reads_advance rfl).bind_last reads_pure)))
      · exact reads_rem (reads_else (by simp) (reads_else (by simp [startsWith]) (reads_this (by simp)
          ((reads_advance rfl).bind_last reads_pure))))
      · refine reads_rem (reads_else (by simp) (reads_else ?_ (reads_this (by simp) ((reads_advance rfl).bind_last reads_pure))))
        intro h
        exact absurd (h2 (startsWith_iff.1 h |>.imp fun _ h => h.symm)) (by simp)

theorem directive (h : Inners L again N) : R L (expectDirective again) (Directive N) true := by
  rintro env _ _ b hl ⟨_, _, z, zs, rfl, rfl, ⟨w, rfl, hw, rfl⟩, h2⟩
  refine reads_rem ?_
  have hi : matchIdentifier ((b!"\\" ++ w ++ z ++ b).drop 1) = w.length := by
    have := ident_eq hw (by simp)
    simpa using this
  have h0 := hw.2.1
  rw [hi]
  refine reads_this ?_ ?_
  · rw [Bool.and_eq_true, decide_eq_true_eq]
    exact ⟨startsWith_iff.2 ⟨w ++ z ++ b, by simp⟩, by omega⟩
  have hB : R L (pure ()) Phrase.empty () := by
    rintro env _ _ b - ⟨rfl, rfl⟩
    exact reads_pure
  have := arguments h hB env z zs b (by simp at hl ⊢; omega) h2
  have e : (b!"\\" ++ w).length = 1 + w.length := by simp; omega
  rw [← e]
  change Reads env (expectGroup again >>= fun _ => expectBlock again >>= fun _ => pure true) () z zs b true () at this
  exact (reads_emit rfl (by simp)).bind this

theorem not_directive {env : HEnv} {b : Bytes} (h : ¬ b!"\\" <+: b ∨ NoName (b.drop 1)) : Reads env (expectDirective again) () [] [] b false () := by
  refine reads_rem (reads_else ?_ reads_pure)
  rw [List.nil_append]
  rcases h with h | h
  · rw [starts_not.2 h]
    simp
  · rw [no_ident h]
    simp

theorem not_lineSplice {env : HEnv} {b : Bytes} (h : ¬ b!"\\ " <+: b ∨ ¬ OtherLine (b.drop 2)) :
    Reads env (expectLineSplice again) () [] [] b false () := by
  refine reads_rem (reads_else ?_ reads_pure)
  rw [List.nil_append]
  rcases h with h | h
  · rw [starts_not.2 h]
    simp
  · rw [Bool.and_eq_true, List.any_eq_true]
    rintro ⟨-, c, hc, hi⟩
    refine h ⟨c, hc, ?_⟩
    simp at hi
    rcases hi with rfl | rfl <;> simp [InLine]

theorem start_not {c : UInt8} (h : Start c) : c ∉ b!":*( " := by
  have h1 : ∀ c : UInt8, isIdStart c = true → c ∉ b!":*( " := by
    apply forall_byte
    decide +kernel
  exact h1 c ((isIdStart_iff c).2 h)

theorem noName_cons {c : UInt8} {t : Bytes} (h : c ∈ b!":*( ") : NoName (c :: t) := by
  intro d hd
  cases hd
  exact fun hs => start_not hs h

theorem markup (h : Inners L again N) : R L (expectMarkup again) (Markup N) true := by
  intro env a ts b hl hm
  rcases hm with hm | hm | hm | hm | hm
  · exact reads_or (escapes _ _ _ _ hl hm)
  · have hd := directive h env _ _ _ hl hm
    obtain ⟨_, _, z, zs, rfl, rfl, ⟨w, rfl, hw, rfl⟩, h2⟩ := hm
    obtain ⟨c, t, rfl, hc⟩ := ident_first hw
    exact reads_or_else (no_escape (Or.inr ⟨c, t ++ z ++ b, by simp, Or.inl hc⟩)) (reads_or hd)
  · have hd := splice h env _ _ _ hl hm
    obtain ⟨_, _, z, zs, rfl, rfl, ⟨rfl, rfl⟩, h2⟩ := hm
    exact reads_or_else (no_escape (Or.inr ⟨c!"(", z ++ b, rfl, Or.inr (by decide)⟩)) (reads_or_else (not_directive (Or.inr
      (noName_cons (by decide)))) (reads_or hd))
  · have hd := lineSplice h env _ _ _ hl hm
    obtain ⟨_, _, z, zs, rfl, rfl, ⟨rfl, rfl⟩, h2⟩ := hm
    exact reads_or_else (no_escape (Or.inr ⟨c!" ", z ++ b, rfl, Or.inr (by decide)⟩)) (reads_or_else (not_directive (Or.inr
      (noName_cons (by decide)))) (reads_or_else (lit_else (by simp)) (reads_or hd)))
  · obtain ⟨c, t, rfl, hc⟩ := comment_first hm
    have hc' : c ∈ b!":*( " ∧ c ≠ c!"(" ∧ c ≠ c!" " := by
      have : ∀ c ∈ b!":*", c ∈ b!":*( " ∧ c ≠ c!"(" ∧ c ≠ c!" " := by decide
      exact this c hc
    exact reads_or_else (no_escape (Or.inr ⟨c, t ++ b, rfl, Or.inr hc'.1⟩)) (reads_or_else (not_directive (Or.inr
      (noName_cons hc'.1))) (reads_or_else (lit_else (by simp [Ne.symm hc'.2.1])) (reads_or_else (not_lineSplice (Or.inl (by simp [Ne.symm hc'.2.2])))
        (comment _ _ _ _ hl hm))))

theorem no_markup {env : HEnv} {b : Bytes} (h : b.head? ≠ some c!"\\" ∨ b!"\\ " <+: b ∧ ¬ OtherLine (b.drop 2)) :
    Reads env (expectMarkup again) () [] [] b false () := by
  rcases h with h | ⟨⟨t, rfl⟩, h⟩
  · have h1 := escape_not h
    have h2 : ∀ c, ¬ [c!"\\", c] <+: b := by
      rintro c ⟨t, rfl⟩
      exact h rfl
    exact reads_or_else (a := []) (ts := []) (no_escape (Or.inl h1)) (reads_or_else (a := []) (ts := []) (not_directive (Or.inl h1))
      (reads_or_else (a := []) (ts := []) (lit_else (h2 _)) (reads_or_else (a := []) (ts := []) (not_lineSplice (Or.inl (h2 _)))
        (no_comment (noComment_head h)))))
  · exact reads_or_else (a := []) (ts := []) (no_escape (Or.inr ⟨c!" ", t, rfl, Or.inr (by decide)⟩)) (reads_or_else (a := []) (ts := [])
      (not_directive (Or.inr (noName_cons (by decide)))) (reads_or_else (a := []) (ts := []) (lit_else (by simp)) (reads_or_else (a := []) (ts := [])
        (not_lineSplice (Or.inr h)) (no_comment ⟨by simp, by simp⟩))))

theorem markup_first {a b : Bytes} {ts : List Token} (h : Markup N a ts b) : ∃ t, a = c!"\\" :: t := by
  rcases h with h | h | h | h | h
  · exact escapes_first h
  · obtain ⟨_, _, z, zs, rfl, rfl, ⟨w, rfl, hw, rfl⟩, h2⟩ := h
    exact ⟨_, rfl⟩
  · obtain ⟨_, _, z, zs, rfl, rfl, ⟨rfl, rfl⟩, h2⟩ := h
    exact ⟨_, rfl⟩
  · obtain ⟨_, _, z, zs, rfl, rfl, ⟨rfl, rfl⟩, h2⟩ := h
    exact ⟨_, rfl⟩
  · obtain ⟨c, t, rfl, -⟩ := comment_first h
    exact ⟨_, rfl⟩

/-! ## Simple text -/

/-- The number of open braces after simple text: -1 if the text ended before a closing brace. -/
def levelAfter (k : Spec.Cowel.Kind) (m : Nat) (r : Bytes) : Int := if k = .block ∧ r.head? = some c!"}" then -1 else m

theorem scan_braces {l m : Nat} {t r : Bytes} (h : Braces l t m)
    (hr : r = [] ∨ ∃ c, r.head? = some c ∧ (c = c!"\\" ∨ c ∈ ends .block m)) :
    textScan .block (l : Int) (t ++ r) = (t.length, levelAfter .block m r) := by
  induction h with
  | @nil l =>
    cases r with
    | nil => rfl
    | cons c r =>
      rcases hr with hr | ⟨c', h1, rfl | h2⟩
      · cases hr
      · cases h1
        simp [textScan, levelAfter]
      · cases h1
        by_cases hl : l = 0
        · subst hl
          simp [ends] at h2
          subst h2
          simp [textScan, levelAfter]
        · simp [ends, hl] at h2
  | @open_ l t m _ ih =>
    have := ih hr
    rw [List.cons_append]
    unfold textScan
    rw [if_neg (by decide)]
    dsimp only
    rw [if_neg (by decide), if_pos rfl, show (l : Int) + 1 = ((l + 1 : Nat) : Int) by omega, this]
    rfl
  | @close l t m _ ih =>
    have := ih hr
    rw [List.cons_append]
    unfold textScan
    rw [if_neg (by decide)]
    dsimp only
    rw [if_pos rfl, if_neg (by omega), show ((l + 1 : Nat) : Int) - 1 = (l : Int) by omega, this]
    rfl
  | @other l c t m hc _ ih =>
    have := ih hr
    simp only [List.mem_cons, List.not_mem_nil, or_false, not_or] at hc
    rw [List.cons_append]
    unfold textScan
    rw [if_neg hc.2.2]
    dsimp only
    rw [if_neg hc.2.1, if_neg hc.1, this]
    rfl

theorem scan_plain {k : Spec.Cowel.Kind} {l : Nat} {t r : Bytes} (hk : k ≠ .block) (h : ∀ c ∈ t, c ≠ c!"\\" ∧ c ∉ ends k l)
    (hr : r = [] ∨ ∃ c, r.head? = some c ∧ (c = c!"\\" ∨ c ∈ ends k l)) :
    textScan (kind k) (l : Int) (t ++ r) = (t.length, (l : Int)) := by
  induction t with
  | nil =>
    cases r with
    | nil => rfl
    | cons c r =>
      rcases hr with hr | ⟨c', h1, rfl | h2⟩
      · cases hr
      · cases h1
        simp [textScan]
      · cases h1
        cases k <;> simp [ends] at h2 hk
        · subst h2
          simp [textScan, kind]
        · subst h2
          simp [textScan, kind]
  | cons c t ih =>
    have ih := ih fun d hd => h d (List.mem_cons_of_mem _ hd)
    obtain ⟨h1, h2⟩ := h c (by simp)
    rw [List.cons_append]
    unfold textScan
    rw [if_neg h1]
    cases k <;> simp [ends] at h2 hk
    · dsimp only [kind] at ih ⊢
      rw [ih]
      rfl
    · dsimp only [kind] at ih ⊢
      rw [if_neg h2, ih]
      rfl
    · dsimp only [kind] at ih ⊢
      rw [if_neg h2, ih]
      rfl

theorem scan {k : Spec.Cowel.Kind} {l m : Nat} {t r : Bytes} (h : Spec.Cowel.Plain k l t m)
    (hr : r = [] ∨ ∃ c, r.head? = some c ∧ (c = c!"\\" ∨ c ∈ ends k m)) :
    textScan (kind k) (l : Int) (t ++ r) = (t.length, levelAfter k m r) := by
  by_cases hk : k = .block
  · subst hk
    exact scan_braces (by simpa [Spec.Cowel.Plain] using h) hr
  · simp only [Spec.Cowel.Plain, hk, if_false] at h
    obtain ⟨rfl, h⟩ := h
    rw [scan_plain hk h hr]
    simp [levelAfter, hk]

theorem plain_first {k : Spec.Cowel.Kind} {l m : Nat} {c : UInt8} {t : Bytes} (h : Spec.Cowel.Plain k l (c :: t) m) :
    c ≠ c!"\\" ∧ (k = .block → l = 0 → c ≠ c!"}") := by
  unfold Spec.Cowel.Plain at h
  split at h
  · cases h with
    | open_ h => exact ⟨by decide, fun _ _ => by decide⟩
    | close h => exact ⟨by decide, fun _ h => by cases h⟩
    | other hc h =>
      simp only [List.mem_cons, List.not_mem_nil, or_false, not_or] at hc
      exact ⟨hc.2.2, fun _ _ => hc.2.1⟩
  · rename_i hk
    exact ⟨(h.2 c (by simp)).1, fun hb => absurd hb hk⟩

/-- Nothing of a text is left before the brace that ends it. -/
theorem text_brace {l : Nat} {a b : Bytes} {ts : List Token} (h : Text N .block l a ts b) (hl : l = 0)
    (hb : (a ++ b).head? = some c!"}") : a = [] ∧ ts = [] := by
  cases h with
  | end_ h => exact ⟨rfl, rfl⟩
  | markup h h' =>
    obtain ⟨t, rfl⟩ := markup_first h
    cases hb
  | @plain _ t m a us _ h0 h e h' =>
    obtain ⟨c, t, rfl⟩ := List.exists_cons_of_ne_nil h0
    cases hb
    exact absurd rfl ((plain_first h).2 rfl hl)

theorem hassert_then {c : Bool} {env : HEnv} {a b : Bytes} {ts : List Token} {m : HM Unit α} (hc : c = true)
    (h : Reads env m () a ts b v ()) : Reads env (HM.hassert c >>= fun _ => m) () a ts b v () := by
  subst hc
  exact Reads.bind_none (w := ()) (y := ()) ⟨[], rfl, fun i out _ => by simp [HM.hassert]⟩ h

theorem emitText_reads {k : Spec.Cowel.Kind} {env : HEnv} {t b : Bytes} (h0 : t ≠ []) :
    Reads env (emitText (kind k) t.length) () t (match plainType k with | none => [] | some ty => [⟨0, t.length, ty⟩]) b true () := by
  have := List.length_pos_iff.2 h0
  refine reads_else (by omega) ?_
  cases k
  · exact (reads_advance rfl).bind_last reads_pure
  · exact (reads_emit rfl h0).bind_last reads_pure
  · exact (reads_emit rfl h0).bind_last reads_pure
  · exact (reads_advance rfl).bind_last reads_pure

theorem text_reads (h : Inners L again N) {k : Spec.Cowel.Kind} {l : Nat} {a b : Bytes} {ts : List Token} {env : HEnv}
    (ht : Text N k l a ts b) (hl : (a ++ b).length ≤ L) (m : Nat) (hm : (a ++ b).length < m) :
    Reads env (HM.loop m (textStep again (kind k)) (l : Int)) () a ts b () () := by
  induction ht generalizing m with
  | @end_ l b he =>
    refine reads_loop_end (by omega) (reads_this (by omega) (hassert_then (by simp) ?_))
    have hs := scan (k := k) (l := l) (m := l) (t := []) (r := b) ?_ ?_
    · refine Reads.bind_none (no_markup ?_) (reads_else (by simp) (reads_rem ?_))
      · rcases he with rfl | ⟨c, hc, h⟩ | he
        · simp
        · left
          rw [List.nil_append, hc]
          intro e
          cases e
          cases k <;> simp [ends] at h
        · exact Or.inr he
      · rw [hs]
        exact (reads_this rfl reads_pure).bind_none (reads_else (by simp) reads_pure)
    · unfold Spec.Cowel.Plain
      split
      · exact .nil
      · exact ⟨rfl, by simp⟩
    · rcases he with rfl | ⟨c, hc, h⟩ | ⟨⟨t, rfl⟩, -⟩
      · exact Or.inl rfl
      · exact Or.inr ⟨c, hc, Or.inr h⟩
      · exact Or.inr ⟨_, rfl, Or.inl rfl⟩
  | @markup l a ts a' us b hM ht ih =>
    obtain ⟨t, e⟩ := markup_first hM
    have h0 : 0 < a.length := by rw [e]; simp
    refine reads_loop (by omega) (reads_this (by omega) (hassert_then (by simp)
      ((markup h _ _ _ _ (by simpa using hl) hM).bind_last (reads_this rfl reads_pure)))) (ih (by simp at hl ⊢; omega) _ (by simp at hm ⊢; omega))
  | @plain l t n a us b h0 hp he ht ih =>
    have hpos := List.length_pos_iff.2 h0
    obtain ⟨c, t', e⟩ := List.exists_cons_of_ne_nil h0
    have hc := (plain_first (e ▸ hp)).1
    have hs := scan hp he
    have key : Reads env (textStep again (kind k) (l : Int)) () t (match plainType k with | none => [] | some ty => [⟨0, t.length, ty⟩]) (a ++ b)
        (.inl (levelAfter k n (a ++ b))) () := by
      refine reads_this (by omega) (hassert_then (by simp) ((no_markup (Or.inl (by rw [e]; simpa using hc))).bind_none
        (reads_else (by simp) (reads_rem ?_))))
      rw [hs]
      exact (emitText_reads h0).bind_last (reads_this rfl reads_pure)
    refine reads_loop (by omega) key ?_
    by_cases hk : k = .block ∧ (a ++ b).head? = some c!"}"
    · have hn : n = 0 := by
        obtain ⟨rfl, hk⟩ := hk
        rcases he with he | ⟨c, h1, h2⟩
        · rw [he] at hk
          cases hk
        · rw [hk] at h1
          cases h1
          refine Classical.byContradiction fun hn => ?_
          simp [ends, hn] at h2
      rw [levelAfter, if_pos hk]
      obtain ⟨rfl, hk⟩ := hk
      obtain ⟨rfl, rfl⟩ := text_brace ht hn hk
      exact reads_loop_end (by simp at hm; omega) (reads_else (by decide) reads_pure)
    · rw [levelAfter, if_neg hk]
      exact ih (by simp at hl ⊢; omega) _ (by simp at hm ⊢; omega)

theorem calls (n : Nat) : ∀ c L f, L < f → R L (call f (inner c)) (nested n c) () := by
  induction n with
  | zero =>
    intro c L f _ env a ts b _ h
    exact absurd h id
  | succ n ih =>
    intro c L f hf
    obtain ⟨f, rfl⟩ : ∃ k, f = k + 1 := ⟨f - 1, by omega⟩
    have hi : Inners L (call f) (nested n) := fun c L' hl => ih c L' f (by omega)
    cases c with
    | members => exact members hi
    | text k =>
      intro env a ts b hl h
      exact reads_rem (text_reads hi h hl _ (by omega))

/-- COWEL documents get exactly the tokens of their grammar.  What is left of the document gets no tokens. -/
theorem C58_cowel {a b : Bytes} {ts : List Token} (h : Document a ts b) (debug : Bool) (opts : Opts) :
    ∃ es, highlight debug opts (a ++ b) = .ok (true, es) ∧ es.map Emit.token = ts := by
  obtain ⟨n, h⟩ := h
  have : Reads ⟨debug, opts.seen, a ++ b⟩ run () a ts b true () :=
    reads_rem ((calls n (.text .document) _ _ (Nat.lt_succ_self _) _ _ _ _ (Nat.le_refl _) h).bind_last reads_pure)
  obtain ⟨es, rfl, this⟩ := this
  refine ⟨es, ?_, rfl⟩
  have h1 := this 0 [] (by simp)
  have hz : ∀ e : Emit, e.moved 0 = e := by
    rintro ⟨⟩
    simp [Emit.moved]
  rw [show Emit.moved 0 = id from funext hz] at h1
  simp [highlight, HM.run, HM.runAll, h1]

theorem blanks_none {b : Bytes} {S : UInt8 → Prop} (h : ∀ c, b.head? = some c → ¬ S c ∧ c ≠ c!"\\") : Blanks S [] [] b := by
  refine .last ⟨[], [], [], [], rfl, rfl, ⟨⟨by simp, ?_⟩, rfl⟩, rfl, rfl, noComment_head ?_⟩
  · intro c hc
    exact (h c (by simpa [List.head?_eq_getElem?] using hc)).1
  · intro hc
    exact (h _ hc).2 rfl

/-- A command with an argument and content. -/
example (debug : Bool) (opts : Opts) : ∃ es, highlight debug opts b!"a\\b(x=1){c}" = .ok (true, es) ∧
    es.map Emit.token = [⟨1, 2, .markup_tag⟩, ⟨3, 1, .symbol_parens⟩, ⟨4, 1, .markup_attr⟩, ⟨5, 1, .symbol_punc⟩, ⟨6, 1, .number⟩,
      ⟨7, 1, .symbol_parens⟩, ⟨8, 1, .symbol_brace⟩, ⟨10, 1, .symbol_brace⟩] := by
  have ident : ∀ {c : UInt8} {t : Bytes}, isIdStart c = true → (∀ d, t.head? = some d → isIdStart d = false ∧ isDigit d = false) →
      Ident (c :: t) 1 := by
    intro c t hc ht
    refine ⟨⟨c, rfl, (isIdStart_iff c).1 hc⟩, by decide, ⟨by simp [Continue, ← isIdStart_iff, hc], ?_⟩⟩
    intro d hd
    have := ht d (by simpa [List.head?_eq_getElem?] using hd)
    unfold Continue
    rw [← isIdStart_iff, ← isDigit_iff]
    simp [this]
  have number : Numbers b!"1" (parts 0 [(b!"1", .number), (b!"", .number_delim), (b!"", .number), (b!"", .number_delim), (b!"", .number)])
      b!"){c}" :=
    .number (.char (by simp [DecDigit]) (by simp) (.done (by simp [Letter, DecDigit])))
      (.decimal (i := b!"1") (f := []) (x := []) (w := []) (by simp) (by simp [DecDigit]) (Or.inl rfl) (Or.inl ⟨rfl, rfl⟩))
  have named : IsNamed b!"x=1){c}" := by
    refine ⟨1, Or.inl (ident (by decide) (by decide)), 0, .done (by simp [Space]) (by decide), rfl, by decide⟩
  have member : Member (nested 1) b!"x=1" [⟨0, 1, .markup_attr⟩, ⟨1, 1, .symbol_punc⟩, ⟨2, 1, .number⟩] b!"){c}" :=
    .named ⟨b!"x", _, b!"=1", _, rfl, rfl, ⟨named, ident (by decide) (by decide), rfl⟩,
      [], [], b!"=1", [⟨0, 1, .symbol_punc⟩, ⟨1, 1, .number⟩], rfl, rfl, blanks_none (by simp [Space]), b!"=", _, b!"1", [⟨0, 1, .number⟩], rfl, rfl, ⟨rfl, rfl⟩,
        [], [], b!"1", [⟨0, 1, .number⟩], rfl, rfl, blanks_none (by simp [Space]), Or.inl (.number number)⟩
  have members : nested 2 .members b!"x=1)" [⟨0, 1, .markup_attr⟩, ⟨1, 1, .symbol_punc⟩, ⟨2, 1, .number⟩, ⟨3, 1, .symbol_parens⟩] b!"{c}" :=
    .last (Or.inl ⟨[], [], b!"x=1)", [⟨0, 1, .markup_attr⟩, ⟨1, 1, .symbol_punc⟩, ⟨2, 1, .number⟩, ⟨3, 1, .symbol_parens⟩], rfl, rfl,
      blanks_none (by simp [Space]), b!"x=1", _, b!")", [⟨0, 1, .symbol_parens⟩], rfl, rfl, Or.inl member, [], [], b!")", _, rfl, rfl,
      blanks_none (by simp [Space]), Or.inr ⟨rfl, rfl⟩⟩)
  have text : nested 2 (.text .block) b!"c" [] b!"}" :=
    .plain (t := b!"c") (m := 0) (a := []) (us := []) (by simp) (.other (by decide) .nil) (Or.inr ⟨_, rfl, Or.inr (by decide)⟩)
      (.end_ (Or.inr (Or.inl ⟨_, rfl, by decide⟩)))
  have block : Block (nested 2) b!"{c}" [⟨0, 1, .symbol_brace⟩, ⟨2, 1, .symbol_brace⟩] [] :=
    ⟨b!"{", _, b!"c}", [⟨1, 1, .symbol_brace⟩], rfl, rfl, ⟨rfl, rfl⟩, b!"c", [], b!"}", [⟨0, 1, .symbol_brace⟩], rfl, rfl, text, Or.inl ⟨rfl, rfl⟩⟩
  have group : Group (nested 2) b!"(x=1)" [⟨0, 1, .symbol_parens⟩, ⟨1, 1, .markup_attr⟩, ⟨2, 1, .symbol_punc⟩, ⟨3, 1, .number⟩,
      ⟨4, 1, .symbol_parens⟩] b!"{c}" := ⟨b!"(", _, b!"x=1)", _, rfl, rfl, ⟨rfl, rfl⟩, members⟩
  have directive : Directive (nested 2) b!"\\b(x=1){c}" [⟨0, 2, .markup_tag⟩, ⟨2, 1, .symbol_parens⟩, ⟨3, 1, .markup_attr⟩, ⟨4, 1, .symbol_punc⟩,
      ⟨5, 1, .number⟩, ⟨6, 1, .symbol_parens⟩, ⟨7, 1, .symbol_brace⟩, ⟨9, 1, .symbol_brace⟩] [] :=
    ⟨b!"\\b", _, b!"(x=1){c}", [⟨0, 1, .symbol_parens⟩, ⟨1, 1, .markup_attr⟩, ⟨2, 1, .symbol_punc⟩, ⟨3, 1, .number⟩, ⟨4, 1, .symbol_parens⟩,
      ⟨5, 1, .symbol_brace⟩, ⟨7, 1, .symbol_brace⟩], rfl, rfl, ⟨b!"b", rfl, ident (by decide) (by decide), rfl⟩,
      [], [], b!"(x=1){c}", [⟨0, 1, .symbol_parens⟩, ⟨1, 1, .markup_attr⟩, ⟨2, 1, .symbol_punc⟩, ⟨3, 1, .number⟩, ⟨4, 1, .symbol_parens⟩,
      ⟨5, 1, .symbol_brace⟩, ⟨7, 1, .symbol_brace⟩], rfl, rfl, ⟨rfl, rfl⟩, b!"(x=1)", _, b!"{c}", [⟨0, 1, .symbol_brace⟩, ⟨2, 1, .symbol_brace⟩],
      rfl, rfl, Or.inl group, [], [], b!"{c}", _, rfl, rfl, ⟨rfl, rfl⟩, Or.inl block⟩
  exact C58_cowel (a := b!"a\\b(x=1){c}") (b := []) ⟨3, .plain (t := b!"a") (m := 0) (a := b!"\\b(x=1){c}") (by simp) ⟨rfl, by simp [ends]⟩
    (Or.inr ⟨_, rfl, Or.inl rfl⟩) (.markup (a' := []) (us := []) (Or.inr (Or.inl directive)) (.end_ (Or.inl rfl)))⟩ debug opts

/-- Defect: if there is a backslash and a space in the last line, then highlighting ends there. -/
theorem C58_cowel_last_line (t : Bytes) (h : ∀ c ∈ t, InLine c) (debug : Bool) (opts : Opts) :
    ∃ es, highlight debug opts (b!"\\ " ++ t) = .ok (true, es) ∧ es.map Emit.token = [] :=
  C58_cowel (a := []) ⟨1, .end_ (Or.inr (Or.inr ⟨⟨t, rfl⟩, by rintro ⟨c, hc, hi⟩; exact hi (h c hc)⟩))⟩ debug opts

theorem name_expression {x b : Bytes} (hx : ∀ c ∈ x, Letter c) (hx0 : x ≠ []) (hw : wordType x = .name_var ∧ x ≠ b!"fun") {c : UInt8}
    {t : Bytes} (hb : b = c :: t) (hc : Space c) (he : ∀ d ∈ b!"({", b[matchBlank b]? ≠ some d) :
    Expression N x [⟨0, x.length, .name_var⟩] b := by
  subst hb
  have hl : Longest Continue (x ++ c :: t) x.length := by
    refine ⟨fun d hd => Or.inl (Or.inl (hx d (by simpa using hd))), ?_⟩
    rintro d hd hcon
    simp at hd
    subst hd
    exact ((space_noExpression (t := t) hc).1.2 c rfl).1 hcon
  have hi : Ident (x ++ c :: t) x.length := by
    obtain ⟨d, x', rfl⟩ := List.exists_cons_of_ne_nil hx0
    exact ⟨⟨d, rfl, Or.inl (hx d (by simp))⟩, by simp, hl⟩
  rw [← hw.1]
  refine .word (.word hi hw.2) ?_
  rintro n ⟨h1, m, h2, d, hd, h3⟩
  obtain ⟨h4, -⟩ := List.getElem?_eq_some_iff.1 h3
  have h5 := ident_eq h1 (by omega)
  rw [ident_eq hi (by simp)] at h5
  subst h5
  rw [List.drop_left] at h2
  have h6 := blank_eq h2 (by rw [List.length_append] at h4; omega)
  refine he d hd ?_
  rw [h6, ← h3, List.getElem?_append_right (by omega)]
  congr 1
  omega

/-- Defect: if there is a space at the end of the line of an expression, then the next line belongs to the expressions, too. -/
theorem C58_cowel_trailing_space {y : Bytes} (hy : ∀ c ∈ y, Letter c) (hy0 : y ≠ []) (hw : wordType y = .name_var ∧ y ≠ b!"fun") (debug : Bool)
    (opts : Opts) :
    (∃ es, highlight debug opts (b!"\\ x\n" ++ y ++ b!"\n") = .ok (true, es) ∧
      es.map Emit.token = [⟨0, 2, .string_interpolation_delim⟩, ⟨2, 1, .name_var⟩]) ∧
    ∃ es, highlight debug opts (b!"\\ x \n" ++ y ++ b!"\n") = .ok (true, es) ∧
      es.map Emit.token = [⟨0, 2, .string_interpolation_delim⟩, ⟨2, 1, .name_var⟩, ⟨5, y.length, .name_var⟩] := by
  obtain ⟨c, y', e⟩ := List.exists_cons_of_ne_nil hy0
  have hl : ∀ c : UInt8, Letter c → ¬ Space c ∧ c ≠ c!"\\" ∧ c ∉ b!"({" ∧ InLine c := by
    intro c
    rw [← isAlpha_iff, ← isSpace_iff]
    revert c
    have : ∀ c : UInt8, isAlpha c = true → isHtmlWhitespace c = false ∧ c ≠ c!"\\" ∧ c ∉ b!"({" ∧ c ≠ 0x0A ∧ c ≠ 0x0D := by
      apply forall_byte
      decide +kernel
    intro c hc
    obtain ⟨h1, h2, h3, h4⟩ := this c hc
    exact ⟨by rw [h1]; simp, h2, h3, by simp [InLine, h4]⟩
  have hc := hl c (hy c (by rw [e]; simp))
  have hy1 : ∀ d, d ∈ y → d ≠ c!"\\" := fun d hd => (hl d (hy d hd)).2.1
  have x : ∀ {t : Bytes} {c : UInt8}, Space c → (∀ d ∈ b!"({", (c :: t)[matchBlank (c :: t)]? ≠ some d) →
      Expression (nested 0) b!"x" [⟨0, 1, .name_var⟩] (c :: t) := fun h h' =>
    name_expression (by simp [Letter]) (by simp) (by decide) rfl h h'
  constructor
  · have hm : matchBlank (b!"\n" ++ (y ++ b!"\n")) = 1 := by
      refine blank_eq (.space (k := 1) (n := 0) ⟨by simp [Space], ?_⟩ (.done ?_ ?_)) (by simp)
      all_goals rw [e]
      all_goals simp [hc.1, hc.2.1]
    have hx := x (t := y ++ b!"\n") (c := 0x0A) (by simp [Space]) (by
      rw [show (0x0A : UInt8) :: (y ++ b!"\n") = b!"\n" ++ (y ++ b!"\n") from rfl, hm, e]
      rintro d hd h
      cases h
      exact hc.2.2.1 hd)
    have hs : LineSplice (nested 0) b!"\\ x\n" [⟨0, 2, .string_interpolation_delim⟩, ⟨2, 1, .name_var⟩] (y ++ b!"\n" ++ []) := by
      refine ⟨b!"\\ ", _, b!"x\n", [⟨0, 1, .name_var⟩], rfl, rfl, ⟨rfl, rfl⟩, ⟨0x0A, by simp, by simp [InLine]⟩, ?_⟩
      refine star.more (a := b!"x") (ts := [⟨0, 1, .name_var⟩]) (a' := b!"\n") (us := []) ?_ (by simp) (.last (Or.inr ⟨by simp, rfl, by simp⟩))
      exact ⟨by simp [Newline, InLine], Or.inr (Or.inr (Or.inl (by simpa using hx)))⟩
    have hp : Spec.Cowel.Plain .document 0 (y ++ b!"\n") 0 := ⟨rfl, by
        rintro d hd
        refine ⟨?_, by simp [ends]⟩
        rcases List.mem_append.1 hd with hd | hd
        · exact hy1 d hd
        · simp at hd
          subst hd
          decide⟩
    have ht : nested 1 (.text .document) (b!"\\ x\n" ++ (y ++ b!"\n" ++ [])) _ [] := .markup (Or.inr (Or.inr (Or.inr (Or.inl (by simpa using hs)))))
      (.plain (by simp) hp (Or.inl rfl) (.end_ (Or.inl rfl)))
    have := C58_cowel ⟨1, ht⟩ debug opts
    simpa [shift, plainType] using this
  · have hm : matchBlank (b!" \n" ++ (y ++ b!"\n")) = 2 := by
      refine blank_eq (.space (k := 2) (n := 0) ⟨by simp [Space], ?_⟩ (.done ?_ ?_)) (by simp)
      all_goals rw [e]
      all_goals simp [hc.1, hc.2.1]
    have hx := x (t := b!"\n" ++ (y ++ b!"\n")) (c := 0x20) (by simp [Space]) (by
      rw [show (0x20 : UInt8) :: (b!"\n" ++ (y ++ b!"\n")) = b!" \n" ++ (y ++ b!"\n") from rfl, hm, e]
      rintro d hd h
      cases h
      exact hc.2.2.1 hd)
    have hye : Expression (nested 0) y [⟨0, y.length, .name_var⟩] b!"\n" := name_expression hy hy0 hw rfl (by simp [Space]) (by decide +kernel)
    have hs : LineSplice (nested 0) (b!"\\ " ++ (b!"x" ++ (b!" \n" ++ (y ++ b!"\n")))) _ [] :=
      ⟨b!"\\ ", _, _, _, rfl, rfl, ⟨rfl, rfl⟩, ⟨0x0A, by simp, by simp [InLine]⟩,
        .more ⟨by simp [Newline, InLine], Or.inr (Or.inr (Or.inl (by simpa using hx)))⟩ (by simp)
          (.more ⟨by simp [Newline, InLine], Or.inr (Or.inr (Or.inr (Or.inl ⟨by simp, ⟨by simp [Space], by rw [e]; simp [hc.1]⟩, rfl⟩)))⟩ (by simp)
            (.more ⟨by rw [e]; simp [Newline, hc.2.2.2], Or.inr (Or.inr (Or.inl hye))⟩ hy0
              (.last (Or.inr ⟨by simp, rfl, by simp⟩))))⟩
    have := C58_cowel (b := []) ⟨1, .markup (a' := []) (us := []) (Or.inr (Or.inr (Or.inr (Or.inl hs)))) (.end_ (Or.inl rfl))⟩ debug opts
    simpa [shift] using this

end Ulight.Cowel
