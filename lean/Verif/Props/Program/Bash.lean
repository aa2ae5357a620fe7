import Verif.Hl.ProgramIn
import Verif.Hl.ProgramTotal
import Verif.Spec.Elements.Bash
import Verif.Props.Lang.Bash

/-!
# C58 for Bash
-/

namespace Ulight.Bash

open Spec
open Spec.Bash (Place Open Outside Quoted Element WordEnd TextEnd Substitution Escapable openings endings Variable Blank
  Terminator Special NameStart NameChar operators)

variable {env : HEnv} {rec : Context → HM State Unit}

/-- The state of the highlighter for what a word would be. -/
def stateOf : Place → State
  | .beforeCommand => .before_command
  | .inCommand => .in_command
  | .beforeArgument => .before_argument
  | .inArgument => .in_argument
  | .inParameter => .parameter_sub

/-- The context for the innermost open construct. -/
def contextOf : Option Open → Context
  | some .parameter => .parameter_sub
  | some .command => .command_sub
  | some .subshell => .subshell
  | some .arithmetic => .arith_sub
  | _ => .file

theorem context_parameter (o : Option Open) : contextOf o = .parameter_sub ↔ o = some .parameter := by
  rcases o with _ | _ | _ | _ | _ | _ <;> simp [contextOf]

theorem context_command (o : Option Open) : contextOf o = .command_sub ↔ o = some .command := by
  rcases o with _ | _ | _ | _ | _ | _ <;> simp [contextOf]

theorem context_subshell (o : Option Open) : contextOf o = .subshell ↔ o = some .subshell := by
  rcases o with _ | _ | _ | _ | _ | _ <;> simp [contextOf]

theorem context_arith (o : Option Open) : contextOf o = .arith_sub ↔ o = some .arithmetic := by
  rcases o with _ | _ | _ | _ | _ | _ <;> simp [contextOf]

theorem substitution_iff (s : Bytes) : startsWithSubstitution s = true ↔ Substitution s := by
  unfold startsWithSubstitution Substitution
  split
  · rename_i a b t
    simp only [isSubstitutionStart, Bool.and_eq_true, Bool.or_eq_true, decide_eq_true_eq, idStart_iff, special_iff]
    constructor
    · rintro ⟨rfl, h⟩
      exact ⟨b, t, rfl, by simpa [or_assoc] using h⟩
    · rintro ⟨c, u, e, h⟩
      simp at e
      obtain ⟨rfl, rfl, rfl⟩ := e
      exact ⟨rfl, by simpa [or_assoc] using h⟩
  · rename_i h
    simp
    rintro c t rfl
    exact absurd rfl (h _ _ _)

/-! ## Words -/

theorem wordEnd_iff (o : Option Open) (c : UInt8) (s : Bytes) :
    (isUnquotedTerminator c || startsWithSubstitution (c :: s) || (contextOf o = .parameter_sub && c = c!"}")) = true ↔
      WordEnd o (c :: s) := by
  simp only [Bool.or_eq_true, Bool.and_eq_true, decide_eq_true_eq, terminator_iff, substitution_iff, context_parameter, WordEnd]
  constructor
  · rintro ((h | h) | h)
    · exact .inr (.inl ⟨c, s, rfl, .inl h⟩)
    · exact .inr (.inr h)
    · exact .inr (.inl ⟨c, s, rfl, .inr h⟩)
  · rintro (h | ⟨c', t, e, h | h⟩ | h)
    · cases h
    · cases e; exact .inl (.inl h)
    · cases e; exact .inr h
    · exact .inl (.inr h)

theorem wordLength_eq {o : Option Open} {w b : Bytes} (h : Plain (fun s => ¬ WordEnd o s) w b) (h' : WordEnd o b) :
    wordLength (contextOf o) (w ++ b) = w.length := by
  induction w with
  | nil =>
    cases b with
    | nil => rfl
    | cons c b => simp only [List.nil_append, wordLength, (wordEnd_iff o c b).2 h', if_true]; rfl
  | cons c w ih =>
    have h0 := h 0 (by simp)
    simp only [List.drop_zero, List.cons_append, ← wordEnd_iff] at h0
    simp only [List.cons_append, wordLength, if_neg h0, List.length_cons]
    rw [ih]
    intro k hk
    exact h (k + 1) (by simpa using hk)

theorem wp_word {o : Option Open} {p : Place} {w b : Bytes} {i : Nat} {out : List Emit} (hw : w ≠ [])
    (h : Plain (fun s => ¬ WordEnd o s) w b) (h' : WordEnd o b) (hi : i + (w ++ b).length = env.src.length) :
    wp (consumeWord (contextOf o)) (fun _ s => s = ⟨b, i + w.length, out ++ [⟨i, w.length, Spec.Bash.wordType p w, .normal⟩],
      stateOf p.next⟩) env ⟨w ++ b, i, out, stateOf p⟩ := by
  have h0 : 0 < w.length := List.length_pos_iff.2 hw
  obtain ⟨c, v, rfl⟩ := List.exists_cons_of_ne_nil hw
  have hh : startsWith (c :: v ++ b) b!"-" = decide (c = c!"-") := by
    by_cases hc : c = c!"-"
    · simp [hc, startsWith_cons_cons]
    · simp [hc, startsWith_one_false]
  unfold consumeWord
  rw [wp_bind, wp_rem, wp_bind, wordLength_eq h h']
  simp only [show ((c :: v).length != 0) = true by simp]
  refine (wp_of_ok rfl).2 ?_
  rw [wp_bind, wp_get, hh]
  cases p with
  | beforeCommand =>
    simp only [stateOf]
    rw [wp_bind, wp_emitAdv_iff (by simpa using hi) h0 (by simp)]
    simp [wp_set_iff, HS.emitted, HS.withExt, Spec.Bash.wordType, Place.next]
  | inCommand =>
    simp only [stateOf]
    rw [wp_bind, wp_emitAdv_iff (by simpa using hi) h0 (by simp)]
    simp [wp_set_iff, HS.emitted, HS.withExt, Spec.Bash.wordType, Place.next]
  | beforeArgument =>
    simp only [stateOf]
    rw [wp_bind, wp_emitAdv_iff (by simpa using hi) h0 (by simp)]
    simp [wp_set_iff, HS.emitted, HS.withExt, Spec.Bash.wordType, Place.next]
  | inArgument =>
    simp only [stateOf]
    rw [wp_emitAdv_iff (by simpa using hi) h0 (by simp)]
    simp [HS.emitted, Spec.Bash.wordType, Place.next]
  | inParameter =>
    simp only [stateOf]
    rw [wp_emitAdv_iff (by simpa using hi) h0 (by simp)]
    simp [HS.emitted, Spec.Bash.wordType, Place.next]

/-! ## Elements outside of double quotes -/

/-- The text `a` before `b` gets the tokens `es`, and the result is `r`. -/
def Gives (m : HM State α) (p : Place) (a : Bytes) (es : List Emit) (b : Bytes) (q : Place) (r : α) : Prop :=
  ∀ (env : HEnv) i out, i + (a ++ b).length = env.src.length →
    wp m (fun r' s => r' = r ∧ s = ⟨b, i + a.length, out ++ es.map (Emit.moved i), stateOf q⟩) env ⟨a ++ b, i, out, stateOf p⟩

theorem gives_step {ctx : Context} {c : UInt8} {r a b : Bytes} {p q : Place} {es : List Emit} {x : Bool} (e : a ++ b = c :: r)
    (h : Gives (commandsSwitch rec ctx c) p a es b q x) :
    Gives (commandsStep rec ctx ()) p a es b q (if x then .inr () else .inl ()) := by
  intro env i out hi
  unfold commandsStep
  rw [wp_bind, wp_rem]
  simp only [e]
  rw [wp_bind, ← e]
  refine wp_mono (h env i out hi) ?_
  rintro y _ ⟨h, rfl⟩
  rw [h]
  cases x <;> exact (wp_of_ok rfl).2 ⟨rfl, rfl⟩

theorem gives_then {m : HM State α} {p q : Place} {a b : Bytes} {es : List Emit} {x : β}
    (h : ∀ (env : HEnv) i out, i + (a ++ b).length = env.src.length → wp m (fun _ s => s = ⟨b, i + a.length,
      out ++ es.map (Emit.moved i), stateOf q⟩) env ⟨a ++ b, i, out, stateOf p⟩) :
    Gives (do let _ ← m; pure x) p a es b q x := by
  intro env i out hi
  rw [wp_bind]
  refine wp_mono (h env i out hi) ?_
  rintro _ _ rfl
  exact (wp_of_ok rfl).2 ⟨rfl, rfl⟩

theorem wp_one {a b : Bytes} {i n : Nat} {ty : HT} {x : State} {out : List Emit} (ha : a ≠ []) (hn : a.length = n)
    (hi : i + (a ++ b).length = env.src.length) :
    wp (HM.emitAdv n ty) (fun _ s => s = ⟨b, i + a.length, out ++ [Emit.moved i ⟨0, a.length, ty, .normal⟩], x⟩) env ⟨a ++ b, i, out, x⟩ := by
  subst hn
  rw [wp_emitAdv_iff (by simpa using hi) (List.length_pos_iff.2 ha) (by simp)]
  simp [HS.emitted, Emit.moved]

theorem word_first (c : UInt8) (h : isUnquotedTerminator c = false) : c ∉ b!"\\'\" \t\x0b\r\n()|&;<>" := by
  revert h
  revert c
  apply forall_byte
  decide +kernel

theorem switch_word {ctx : Context} {c : UInt8} {s : Bytes} (h : isUnquotedTerminator c = false) (h' : c ∉ b!"#}")
    (hs : startsWithSubstitution (c :: s) = false) {i : Nat} {out : List Emit} {x : State} :
    commandsSwitch rec ctx c env ⟨c :: s, i, out, x⟩ = (do consumeWord ctx; pure false : HM State Bool) env ⟨c :: s, i, out, x⟩ := by
  have h1 := word_first c h
  simp at h' h1
  unfold commandsSwitch
  simp only [h1, h', if_false, or_self]
  by_cases hd : c = c!"$"
  · rw [if_pos hd]
    show (if startsWithSubstitution (c :: s) = true then _ else _ : HM State Bool) env ⟨c :: s, i, out, x⟩ = _
    simp only [hs]
    rfl
  · simp only [if_neg hd]

theorem matchSingle_closed {t b : Bytes} (h : c!"'" ∉ t) : matchSingleQuoted (b!"'" ++ t ++ b!"'" ++ b) = ⟨t.length + 2, true⟩ := by
  have hl : Longest (· ≠ c!"'") ((b!"'" ++ t ++ b!"'" ++ b).drop 1) t.length := by
    constructor
    · intro c hc
      simp at hc
      grind
    · simp
  rcases matchSingleQuoted_facts (t := b!"'" ++ t ++ b!"'" ++ b) rfl with ⟨n, h1, h2, h3, h4⟩ | ⟨n, h1, h2, h3⟩
  · rw [h1, Longest.unique h3 hl (by simp at h2 ⊢; omega) (by simp)]
  · have := Longest.unique h3 hl (by simp at h2 ⊢; omega) (by simp)
    simp at h2
    omega

theorem matchSingle_open {t : Bytes} (h : c!"'" ∉ t) : matchSingleQuoted (b!"'" ++ t) = ⟨t.length + 1, false⟩ := by
  have hl : Longest (· ≠ c!"'") ((b!"'" ++ t).drop 1) t.length := by
    constructor
    · intro c hc
      simp at hc
      grind
    · simp
  rcases matchSingleQuoted_facts (t := b!"'" ++ t) rfl with ⟨n, h1, h2, h3, h4⟩ | ⟨n, h1, h2, h3⟩
  · have := Longest.unique h3 hl (by simp at h2 ⊢; omega) (by simp)
    simp at h2
    omega
  · rw [h1, Longest.unique h3 hl (by simp at h2 ⊢; omega) (by simp)]

theorem matchComment_eq {t b : Bytes} (h : Longest (· ≠ 0x0A) (t ++ b) t.length) : matchComment (b!"#" ++ t ++ b) = t.length + 1 := by
  obtain ⟨h1, h2, h3⟩ := matchComment_facts (t := b!"#" ++ t ++ b) rfl
  have := Longest.unique h3 (n := t.length) (by simpa using h) (by simp at h2 ⊢; omega) (by simp)
  omega

theorem matchOperator_at {w b : Bytes} (h : LongestIn operators (w ++ b) w.length) :
    matchOperator (w ++ b) = some w ∧ ∃ c v, w = c :: v ∧ c ∈ b!"|&;<>" := by
  have hw : w ∈ operators := by simpa using h.1
  have hf : ∃ c v, w = c :: v ∧ c ∈ b!"|&;<>" := by
    have : ∀ w ∈ operators, w.head?.any (fun c => c ∈ b!"|&;<>") = true := by decide +kernel
    have := this w hw
    cases w with
    | nil => cases this
    | cons c v => exact ⟨c, v, rfl, by simpa using this⟩
  refine ⟨?_, hf⟩
  obtain ⟨c, v, rfl, hc⟩ := hf
  obtain ⟨op, h1, h2, h3, h4⟩ := matchOperator_facts (t := c :: v ++ b) rfl (by simpa using hc)
  have h5 := longestIn_unique h4 h h3 (by simp)
  have h6 : startsWith (c :: v ++ b) op = true := by
    have hp : ∀ op, matchOperator (c :: v ++ b) = some op → startsWith (c :: v ++ b) op = true := by
      simp at hc
      rcases hc with rfl | rfl | rfl | rfl | rfl <;> simp [matchOperator] <;> (repeat' split) <;> simp_all
    exact hp op h1
  obtain ⟨u, hu⟩ := startsWith_iff.1 h6
  rw [h1, (List.append_inj hu h5.symm).1]

theorem outside_gives {o : Option Open} {p q : Place} {a b : Bytes} {ts : List Token} (h : Outside o p a ts b q) :
    ∃ c r es, a ++ b = c :: r ∧ a ≠ [] ∧ ts = es.map Emit.token ∧ Gives (commandsSwitch rec (contextOf o) c) p a es b q false := by
  cases h with
  | blanks h h' =>
    obtain ⟨c, v, rfl⟩ := List.exists_cons_of_ne_nil h
    have hc : Blank c := h'.1 c (by simp)
    refine ⟨c, v ++ b, [], rfl, h, rfl, ?_⟩
    have hm : matchBlank (c :: v ++ b) = (c :: v).length := by
      refine length_if_eq ?_ (by simp)
      have : ∀ c, isBlank c = true ↔ Blank c := by intro c; simp [isBlank, Blank]
      simpa only [this] using h'
    have e : commandsSwitch rec (contextOf o) c = (do
        let r ← HM.rem
        HM.advance (matchBlank r)
        HM.modify afterBlank
        pure false) := by
      rcases hc with rfl | rfl <;> rfl
    rw [e]
    intro env i out hi
    rw [wp_bind, wp_rem, hm, wp_bind, wp_advance_iff (by simp)]
    rw [wp_bind]
    refine (wp_of_ok rfl).2 ?_
    refine (wp_of_ok rfl).2 ⟨rfl, ?_⟩
    cases p <;> simp [stateOf, Place.afterBlanks, afterBlank, HS.adv]
  | line h =>
    rename_i c
    refine ⟨c, b, [], rfl, by simp, rfl, ?_⟩
    have e : commandsSwitch rec (contextOf o) c = (do
        HM.advance 1
        HM.set .before_command
        pure false) := by
      rcases h with rfl | rfl | rfl <;> rfl
    rw [e]
    intro env i out hi
    rw [wp_bind, wp_advance_iff (by simp), wp_bind, wp_set_iff]
    exact (wp_of_ok rfl).2 ⟨rfl, by simp [HS.adv, HS.withExt, stateOf]⟩
  | escape h =>
    rename_i c
    refine ⟨c!"\\", c :: b, [⟨0, 2, .string_escape, .normal⟩], rfl, by simp, rfl, ?_⟩
    refine gives_then fun env i out hi => ?_
    unfold consumeEscape
    rw [wp_bind, wp_rem]
    have : startsWith ([c!"\\", c] ++ b) b!"\\\n" = false := by
      simp [startsWith_cons_cons]
      exact fun hx => h hx.symm
    simp only [this]
    exact wp_one (a := [c!"\\", c]) (by simp) (by simp) hi
  | continuation =>
    refine ⟨c!"\\", 0x0A :: b, [⟨0, 1, .string_escape, .normal⟩], rfl, by simp, rfl, ?_⟩
    refine gives_then fun env i out hi => ?_
    unfold consumeEscape
    rw [wp_bind, wp_rem]
    have : startsWith (b!"\\\n" ++ b) b!"\\\n" = true := by
      simp [startsWith_cons_cons]
    simp only [this, if_true]
    rw [wp_bind, wp_emitAdv_iff (by simpa using hi) (by simp) (by simp), wp_advance_iff (by simp [HS.emitted])]
    simp [HS.emitted, HS.adv, Emit.moved]
  | backslash =>
    refine ⟨c!"\\", [], [⟨0, 1, .string_escape, .normal⟩], rfl, by simp, rfl, ?_⟩
    exact gives_then fun env i out hi => wp_one (a := b!"\\") (b := []) (by simp) (by simp) hi
  | single h =>
    rename_i t
    refine ⟨c!"'", _, partsEmit 0 [(b!"'", .string_delim), (t, .string), (b!"'", .string_delim)], rfl, by simp, (partsEmit_token _ _).symm, ?_⟩
    refine gives_then (m := do let r ← HM.rem; highlightString (matchSingleQuoted r)) fun env i out hi => ?_
    rw [wp_bind, wp_rem, matchSingle_closed h, partsEmit_moved]
    unfold highlightString
    rw [wp_bind]
    refine (wp_of_ok rfl).2 ?_
    rw [wp_bind, wp_emitAdv_iff (by simpa using hi) (by simp) (by simp), wp_bind,
      wp_emitAdvIf_iff (by simp [HS.emitted] at hi ⊢; omega) (by simp [HS.emitted])]
    simp only [if_true]
    rw [wp_emitAdv_iff (by simp [HS.emitted] at hi ⊢; omega) (by simp) (by simp [HS.emitted])]
    simp [HS.emitted, partsEmit, optEmit, Nat.add_comm]
    omega
  | openSingle h =>
    rename_i t
    refine ⟨c!"'", t, partsEmit 0 [(b!"'", .string_delim), (t, .string)], by simp, by simp, (partsEmit_token _ _).symm, ?_⟩
    refine gives_then (m := do let r ← HM.rem; highlightString (matchSingleQuoted r)) fun env i out hi => ?_
    rw [wp_bind, wp_rem, List.append_nil, matchSingle_open h, partsEmit_moved]
    unfold highlightString
    rw [wp_bind]
    refine (wp_of_ok rfl).2 ?_
    rw [wp_bind, wp_emitAdv_iff (by simpa using hi) (by simp) (by simp), wp_bind,
      wp_emitAdvIf_iff (by simp [HS.emitted] at hi ⊢; omega) (by simp [HS.emitted])]
    refine (wp_of_ok rfl).2 ?_
    simp [HS.emitted, partsEmit, optEmit, Nat.add_comm]
    omega
  | comment h =>
    rename_i t
    refine ⟨c!"#", _, partsEmit 0 [(b!"#", .comment_delim), (t, .comment)], rfl, by simp, (partsEmit_token _ _).symm, ?_⟩
    refine gives_then (m := consumeComment) fun env i out hi => ?_
    unfold consumeComment
    rw [wp_bind, wp_rem, matchComment_eq h, partsEmit_moved]
    rw [wp_bind, wp_emitAdv_iff (by simpa using hi) (by simp) (by simp),
      wp_emitAdvIf_iff (by simp [HS.emitted] at hi ⊢; omega) (by simp [HS.emitted])]
    simp [HS.emitted, partsEmit, optEmit, Nat.add_comm]
    omega
  | operator h =>
    obtain ⟨h1, c, v, rfl, hc⟩ := matchOperator_at h
    refine ⟨c, v ++ b, [⟨0, (c :: v).length, .symbol_op, .normal⟩], rfl, by simp, rfl, ?_⟩
    have e : commandsSwitch rec (contextOf o) c = (do consumeOperator; pure false) := by
      simp at hc
      rcases hc with rfl | rfl | rfl | rfl | rfl <;> rfl
    rw [e]
    refine gives_then fun env i out hi => ?_
    unfold consumeOperator
    rw [wp_bind, wp_rem, h1]
    exact wp_one (by simp) rfl hi
  | brace h =>
    refine ⟨c!"}", b, [⟨0, 1, .symbol_brace, .normal⟩], rfl, by simp, rfl, ?_⟩
    have e : commandsSwitch rec (contextOf o) c!"}" = (do HM.emitAdv 1 .symbol_brace; pure false) := by
      rw [ne_eq, ← context_parameter] at h
      simp [commandsSwitch, h]
    rw [e]
    exact gives_then fun env i out hi => wp_one (a := b!"}") (by simp) rfl hi
  | paren h h' =>
    refine ⟨c!")", b, [⟨0, 1, .symbol_parens, .normal⟩], rfl, by simp, rfl, ?_⟩
    have e : commandsSwitch rec (contextOf o) c!")" = closeParen (contextOf o) := rfl
    rw [e]
    unfold closeParen
    rw [ne_eq, ← context_command, ne_eq, ← context_subshell] at h
    rw [← context_arith] at h'
    simp only [h, if_false]
    by_cases ha : contextOf o = .arith_sub
    · simp only [ha, if_true]
      intro env i out hi
      rw [wp_bind, wp_rem]
      have : ¬ (b!")" ++ b)[1]? = some c!")" := by
        have := h' ha
        rw [List.head?_eq_getElem?] at this
        simpa using this
      simp only [this, if_false]
      exact gives_then (fun env i out hi => wp_one (a := b!")") (by simp) rfl hi) env i out hi
    · simp only [ha, if_false]
      exact gives_then fun env i out hi => wp_one (a := b!")") (by simp) rfl hi
  | word h first h' h'' =>
    obtain ⟨c, v, rfl⟩ := List.exists_cons_of_ne_nil h
    refine ⟨c, v ++ b, [⟨0, (c :: v).length, Spec.Bash.wordType p (c :: v), .normal⟩], rfl, by simp, rfl, ?_⟩
    have h0 := h' 0 (by simp)
    simp only [List.drop_zero, List.cons_append, ← wordEnd_iff, Bool.or_eq_true, not_or, Bool.not_eq_true] at h0
    intro env i out hi
    have := switch_word (rec := rec) (env := env) (ctx := contextOf o) h0.1.1 (first c rfl) h0.1.2 (i := i) (out := out) (x := stateOf p)
    show wp _ _ _ _
    unfold wp
    rw [List.cons_append, this]
    exact gives_then (fun env i out hi => wp_mono (wp_word h h' h'' hi) (by rintro _ _ rfl; simp [Emit.moved])) env i out hi

/-! ## Substitutions -/

theorem special_first (c : UInt8) (h : isSpecialParameter c = true) : c ≠ c!"{" ∧ c ≠ c!"(" := by
  revert h
  revert c
  apply forall_byte
  decide +kernel

theorem start_first (c : UInt8) (h : isIdStart c = true) : c ≠ c!"{" ∧ c ≠ c!"(" ∧ isSpecialParameter c = false := by
  revert h
  revert c
  apply forall_byte
  decide +kernel

theorem modify_next (p : Place) : updateState (stateOf p) = stateOf p.next := by cases p <;> rfl

theorem variable_substitution {a b : Bytes} (h : Variable a b) : ∃ c r, a ++ b = c!"$" :: c :: r ∧ Substitution (a ++ b) ∧ a ≠ [] := by
  rcases h with ⟨c, rfl, h⟩ | ⟨c, t, rfl, h, _⟩
  · exact ⟨c, b, rfl, ⟨c, b, rfl, .inr (.inr h)⟩, by simp⟩
  · exact ⟨c, t ++ b, rfl, ⟨c, t ++ b, rfl, .inr (.inl h)⟩, by simp⟩

theorem wp_variable {a b : Bytes} {p : Place} (h : Variable a b) {i : Nat} {out : List Emit}
    (hi : i + (a ++ b).length = env.src.length) :
    wp (consumeSubstitution rec) (fun _ s => s = ⟨b, i + a.length, out ++ [⟨i, a.length, .string_interpolation, .normal⟩],
      stateOf p.next⟩) env ⟨a ++ b, i, out, stateOf p⟩ := by
  unfold consumeSubstitution
  rw [wp_bind, wp_rem]
  rcases h with ⟨c, rfl, h⟩ | ⟨c, t, rfl, h, hl⟩
  · rw [← special_iff] at h
    obtain ⟨h1, h2⟩ := special_first c h
    rw [wp_bind]
    refine (wp_of_ok (by rfl)).2 ?_
    simp only [List.cons_append, List.getElem?_cons_succ, List.getElem?_cons_zero, h1, h2, if_false, h, if_true]
    rw [wp_bind, wp_emitAdv_iff (by simpa using hi) (by simp) (by simp)]
    refine (wp_of_ok rfl).2 ?_
    simp [HS.emitted, modify_next]
  · rw [← idStart_iff] at h
    obtain ⟨h1, h2, h3⟩ := start_first c h
    have hm : matchIdentifier (c :: (t ++ b)) = t.length + 1 := by
      have hl' := length_if_le (c :: (t ++ b)) isId 1 (by simp)
      have ha := length_if_longest (c :: (t ++ b)) isId NameChar id_iff 1 (by simp)
      have e : matchIdentifier (c :: (t ++ b)) = Ascii.length_if (c :: (t ++ b)) isId 1 := by
        simp [matchIdentifier, Ascii.length_if_head_tail, Ascii.length_if, h]
      rw [e]
      have := Longest.unique ha hl (by simp at hl' ⊢; omega) (by simp)
      omega
    rw [wp_bind]
    refine (wp_of_ok (by rfl)).2 ?_
    simp only [List.cons_append, List.getElem?_cons_succ, List.getElem?_cons_zero, h1, h2, if_false, h3, List.drop_succ_cons, List.drop_zero, hm]
    simp only [Bool.false_eq_true, if_false, ne_eq, Nat.add_one_ne_zero, not_false_eq_true, if_true]
    rw [wp_bind, wp_emitAdv_iff (by simpa using hi) (by simp) (by simp)]
    refine (wp_of_ok rfl).2 ?_
    simp [HS.emitted, modify_next]

theorem wp_opening {a b : Bytes} {o : Open} {q : Place} {x : State} (h : (a, o, q) ∈ openings) (h' : a = b!"$(" → b.head? ≠ some c!"(")
    {i : Nat} {out : List Emit} (hi : i + (a ++ b).length = env.src.length) {Q : Unit → HS State → Prop}
    (hQ : wp (rec (contextOf (some o))) Q env ⟨b, i + a.length, out ++ [⟨i, a.length, .string_interpolation_delim, .normal⟩], stateOf q⟩) :
    wp (consumeSubstitution rec) Q env ⟨a ++ b, i, out, x⟩ := by
  unfold consumeSubstitution
  rw [wp_bind, wp_rem]
  simp [openings] at h
  rcases h with ⟨rfl, rfl, rfl⟩ | ⟨rfl, rfl, rfl⟩ | ⟨rfl, rfl, rfl⟩
  · rw [wp_bind]
    refine (wp_of_ok (by rfl)).2 ?_
    simp
    rw [wp_emitAdv_iff (by simpa using hi) (by simp) (by simp), wp_set_iff]
    simpa [HS.emitted, HS.withExt, stateOf, contextOf] using hQ
  · rw [wp_bind]
    refine (wp_of_ok (by rfl)).2 ?_
    simp
    rw [wp_emitAdv_iff (by simpa using hi) (by simp) (by simp), wp_set_iff]
    simpa [HS.emitted, HS.withExt, stateOf, contextOf] using hQ
  · have := h' rfl
    rw [List.head?_eq_getElem?] at this
    rw [wp_bind]
    refine (wp_of_ok (by rfl)).2 ?_
    simp [this]
    rw [wp_emitAdv_iff (by simpa using hi) (by simp) (by simp), wp_set_iff]
    simpa [HS.emitted, HS.withExt, stateOf, contextOf] using hQ

theorem opening_substitution {a b : Bytes} {o : Open} {q : Place} (h : (a, o, q) ∈ openings) :
    (∃ c r, a ++ b = c!"$" :: c :: r) ∧ Substitution (a ++ b) ∧ a ≠ [] := by
  simp [openings] at h
  rcases h with ⟨rfl, rfl, rfl⟩ | ⟨rfl, rfl, rfl⟩ | ⟨rfl, rfl, rfl⟩ <;> simp [Substitution]

/-! ## The loops -/

theorem wp_loop_step {body : β → HM σ (β ⊕ α)} {m : Nat} {c : β} {s : HS σ} {Q : α → HS σ → Prop}
    (h : wp (body c) (fun r s => match r with
      | .inl c' => wp (HM.loop m body c') Q env s
      | .inr a => Q a s) env s) : wp (HM.loop (m + 1) body c) Q env s := by
  unfold HM.loop
  rw [wp_bind]
  refine wp_mono h ?_
  intro r s h
  cases r with
  | inl c' => exact h
  | inr a => exact (wp_of_ok rfl).2 h

/-- A loop has ended at this state.  It was the one for the innermost of the open constructs `os`, and the tokens of the
whole text are `T`. -/
def Rest (env : HEnv) (n : Nat) (os : List Open) (T : List Token) (s : HS State) : Prop :=
  ∃ q us, s.ext = stateOf q ∧ s.idx + s.rem.length = env.src.length ∧ ProgramIn Element ⟨q, os.tail⟩ s.rem us ∧
    s.rem.length ≤ n ∧ s.out.map Emit.token ++ shift s.idx us = T ∧ (os = [] → us = [])

theorem textEnd_iff (c : UInt8) (s : Bytes) : TextEnd (c :: s) ↔
    c = c!"\"" ∨ (c = c!"\\" ∧ (s[0]?).any isEscapable = true) ∨ startsWithSubstitution (c :: s) = true := by
  unfold TextEnd
  rw [substitution_iff]
  have he : ∀ d, isEscapable d = true ↔ Escapable d := by intro d; simp [isEscapable, Escapable]
  constructor
  · rintro (h | ⟨t, h⟩ | ⟨d, t, h, h'⟩ | h)
    · cases h
    · cases h; exact .inl rfl
    · cases h; exact .inr (.inl ⟨rfl, by simpa [he] using h'⟩)
    · exact .inr (.inr h)
  · rintro (rfl | ⟨rfl, h⟩ | h)
    · exact .inr (.inl ⟨s, rfl⟩)
    · cases s with
      | nil => cases h
      | cons d s => exact .inr (.inr (.inl ⟨d, s, rfl, by simpa [he] using h⟩))
    · exact .inr (.inr (.inr h))

/-- One more character of plain text. -/
theorem dq_more {c : UInt8} {w s : Bytes} {i : Nat} {out : List Emit} {x : State} (h : ¬ TextEnd (c :: s)) :
    doubleQuotedStep rec w.length env ⟨w ++ c :: s, i, out, x⟩ = .ok (.inl (w.length + 1), ⟨w ++ c :: s, i, out, x⟩) := by
  rw [textEnd_iff] at h
  simp only [not_or] at h
  have e : (w ++ c :: s)[w.length]? = some c := by simp
  have e' : (w ++ c :: s)[w.length + 1]? = s[0]? := by rw [List.getElem?_append_right (by omega), Nat.add_sub_cancel_left]; rfl
  show (match (w ++ c :: s)[w.length]? with | none => _ | some c => _ : HM State (Nat ⊕ Unit)) env _ = _
  simp only [e, if_neg h.1, e', if_neg h.2.1, List.drop_left, if_neg h.2.2]
  rfl

theorem dq_text {t : Bytes} {w b : Bytes} {i m : Nat} {out : List Emit} {x : State} {Q : Unit → HS State → Prop}
    (h : Plain (fun s => ¬ TextEnd s) t b)
    (hQ : wp (HM.loop m (doubleQuotedStep rec) (w ++ t).length) Q env ⟨w ++ t ++ b, i, out, x⟩) :
    wp (HM.loop (m + t.length) (doubleQuotedStep rec) w.length) Q env ⟨w ++ t ++ b, i, out, x⟩ := by
  induction t generalizing w with
  | nil => simpa using hQ
  | cons c t ih =>
    have h0 := h 0 (by simp)
    rw [List.length_cons, ← Nat.add_assoc]
    refine wp_loop_step ?_
    have e : w ++ c :: t ++ b = w ++ c :: (t ++ b) := by simp
    rw [e]
    refine (wp_of_ok (dq_more h0)).2 ?_
    have := ih (w := w ++ [c]) (fun k hk => h (k + 1) (by simpa using hk)) (by simpa using hQ)
    simpa using this

/-- What the loop does at the end of plain text. -/
theorem dq_stop {w b : Bytes} {i : Nat} {out : List Emit} {x : State} {Q : Nat ⊕ Unit → HS State → Prop}
    (hi : i + (w ++ b).length = env.src.length)
    (hQ : wp (doubleQuotedStep rec 0) Q env ⟨b, i + w.length, out ++ optEmit i w .string, x⟩)
    (hb : TextEnd b) : wp (doubleQuotedStep rec w.length) Q env ⟨w ++ b, i, out, x⟩ := by
  unfold doubleQuotedStep at hQ ⊢
  rw [wp_bind, wp_rem] at hQ ⊢
  have e0 : (w ++ b)[w.length]? = b[0]? := by rw [List.getElem?_append_right (Nat.le_refl _), Nat.sub_self]
  have e1 : (w ++ b)[w.length + 1]? = b[1]? := by rw [List.getElem?_append_right (by omega), Nat.add_sub_cancel_left]
  have em : ∀ {α : Type} (m : HM State α) (Q : α → HS State → Prop),
      wp m Q env ⟨b, i + w.length, out ++ optEmit i w .string, x⟩ →
      wp (do HM.emitAdvIf w.length .string; m) Q env ⟨w ++ b, i, out, x⟩ := by
    intro α m Q h
    rw [wp_bind, wp_emitAdvIf_iff (by simpa using hi) (by simp)]
    simpa [optEmit] using h
  have ez : ∀ {α : Type} (m : HM State α) (Q : α → HS State → Prop) s, wp (do HM.emitAdvIf 0 .string; m) Q env s → wp m Q env s := by
    intro α m Q s h
    rw [wp_bind] at h
    exact (wp_of_ok (a := ()) (s' := s) rfl).1 h
  simp only [e0, e1, List.drop_left, List.drop_zero, Nat.zero_add] at hQ ⊢
  cases b with
  | nil => exact em _ _ (ez _ _ _ hQ)
  | cons c b =>
    rw [textEnd_iff] at hb
    simp only [List.getElem?_cons_zero, List.getElem?_cons_succ] at hQ ⊢
    by_cases h1 : c = c!"\""
    · rw [if_pos h1] at hQ ⊢
      exact em _ _ (ez _ _ _ hQ)
    · simp only [h1, if_false, false_or] at hQ hb ⊢
      by_cases h2 : c = c!"\\" ∧ (b[0]?).any isEscapable = true
      · rw [if_pos h2] at hQ ⊢
        exact em _ _ (ez _ _ _ hQ)
      · rw [if_neg h2] at hQ ⊢
        have h3 := hb.resolve_left h2
        rw [if_pos h3] at hQ ⊢
        exact em _ _ (ez _ _ _ hQ)

theorem shift_token (i : Nat) (n : Nat) (ty : HT) : shift i [⟨0, n, ty⟩] = [⟨i, n, ty⟩] := by simp [shift]

theorem commands_step {fuel : Nat} {o : Option Open} {a b : Bytes} {x : State} {i : Nat} {out : List Emit}
    {Q : Unit ⊕ Unit → HS State → Prop} {c : UInt8} {r : Bytes} (e : a ++ b = c :: r)
    (h : wp (commandsSwitch (consumeCommands fuel) (contextOf o) c)
      (fun r s => Q (if r = true then .inr () else .inl ()) s) env ⟨a ++ b, i, out, x⟩) :
    wp (commandsStep (consumeCommands fuel) (contextOf o) ()) Q env ⟨a ++ b, i, out, x⟩ := by
  unfold commandsStep
  rw [wp_bind, wp_rem]
  simp only [e]
  rw [wp_bind, ← e]
  refine wp_mono h ?_
  intro y s hy
  cases y <;> exact (wp_of_ok rfl).2 hy

theorem tokens_next {i : Nat} {a : Bytes} {out es : List Emit} {us T : List Token}
    (h : out.map Emit.token ++ shift i (es.map Emit.token ++ shift a.length us) = T) :
    (out ++ es.map (Emit.moved i)).map Emit.token ++ shift (i + a.length) us = T := by
  rw [← h, List.map_append, moved_token, shift_append, shift_shift, List.append_assoc]

theorem tokens_one {i n : Nat} {ty : HT} {out : List Emit} {us T : List Token} 
    (h : out.map Emit.token ++ shift i ([⟨0, n, ty⟩] ++ shift n us) = T) :
    (out ++ [(⟨i, n, ty, .normal⟩ : Emit)]).map Emit.token ++ shift (i + n) us = T := by
  have := tokens_next (a := List.replicate n 0) (es := [⟨0, n, ty, .normal⟩]) (by simpa [Emit.token] using h)
  simpa [Emit.moved] using this

theorem wp_tok {a b : Bytes} {i n : Nat} {ty : HT} {x : State} {out : List Emit} (ha : a ≠ []) (hn : a.length = n)
    (hi : i + (a ++ b).length = env.src.length) :
    wp (HM.emitAdv n ty) (fun _ s => s = ⟨b, i + n, out ++ [⟨i, n, ty, .normal⟩], x⟩) env ⟨a ++ b, i, out, x⟩ := by
  subst hn
  rw [wp_emitAdv_iff (by simpa using hi) (List.length_pos_iff.2 ha) (by simp)]
  simp [HS.emitted]

theorem Rest.mono {n m : Nat} {os : List Open} {T : List Token} {s : HS State} (h : Rest env n os T s) (hn : n ≤ m) :
    Rest env m os T s := by
  obtain ⟨q, us, h1, h2, h3, h4, h5⟩ := h
  exact ⟨q, us, h1, h2, h3, by omega, h5⟩

/-- What holds for the loop of commands. -/
def Commands (env : HEnv) (src : Bytes) (ts : List Token) (p : Place) (os : List Open) : Prop :=
  os.head? ≠ some .string → ∀ fuel m, src.length ≤ fuel → src.length < m → ∀ i out T, i + src.length = env.src.length →
    out.map Emit.token ++ shift i ts = T →
    wp (HM.loop m (commandsStep (consumeCommands fuel) (contextOf os.head?)) ()) (fun _ => Rest env src.length os T) env
      ⟨src, i, out, stateOf p⟩

/-- What holds for the loop of strings. -/
def Strings (env : HEnv) (src : Bytes) (ts : List Token) (p : Place) (os : List Open) : Prop :=
  os.head? = some .string → ∀ fuel m w, src.length ≤ fuel → src.length < m → (w = [] ∨ TextEnd src) →
    ∀ i out T, i + (w ++ src).length = env.src.length →
    out.map Emit.token ++ opt i w .string ++ shift (i + w.length) ts = T →
    wp (HM.loop m (doubleQuotedStep (consumeCommands fuel)) w.length) (fun _ => Rest env src.length os T) env
      ⟨w ++ src, i, out, stateOf p⟩

/-- Both hold for all texts that are shorter than `n`. -/
def Below' (env : HEnv) (n : Nat) : Prop :=
  ∀ src ts p os, src.length < n → ProgramIn Element ⟨p, os⟩ src ts → Commands env src ts p os ∧ Strings env src ts p os

theorem resume_commands {n fuel m k : Nat} {o : Open} {os : List Open} {T : List Token} {s : HS State} (ih : Below' env n)
    (h : Rest env k (o :: os) T s) (hk : k < n) (ho : os.head? ≠ some .string) (hf : k ≤ fuel) (hm : k < m) :
    wp (HM.loop m (commandsStep (consumeCommands fuel) (contextOf os.head?)) ()) (fun _ => Rest env k os T) env s := by
  obtain ⟨q, us, h1, h2, h3, h4, h5, -⟩ := h
  obtain ⟨r, i, out, x⟩ := s
  dsimp only at *
  subst h1
  refine wp_mono ((ih r us q os (by omega) h3).1 ho fuel m (by omega) (by omega) i out T h2 h5) fun _ s hs => ?_
  exact hs.mono h4

theorem resume_strings {n fuel m k : Nat} {o : Open} {os : List Open} {T : List Token} {s : HS State} (ih : Below' env n)
    (h : Rest env k (o :: os) T s) (hk : k < n) (ho : os.head? = some .string) (hf : k ≤ fuel) (hm : k < m) :
    wp (HM.loop m (doubleQuotedStep (consumeCommands fuel)) 0) (fun _ => Rest env k os T) env s := by
  obtain ⟨q, us, h1, h2, h3, h4, h5, -⟩ := h
  obtain ⟨r, i, out, x⟩ := s
  dsimp only at *
  subst h1
  refine wp_mono ((ih r us q os (by omega) h3).2 ho fuel m [] (by omega) (by omega) (.inl rfl) i out T h2
    (by simpa [opt] using h5)) fun _ s hs => ?_
  exact hs.mono h4

/-- The loop of commands in a substitution or subshell. -/
theorem inner {n fuel : Nat} {b : Bytes} {us : List Token} {q : Place} {o : Open} {os : List Open} {T : List Token} {i : Nat}
    {out : List Emit} (ih : Below' env n) (hp : ProgramIn Element ⟨q, o :: os⟩ b us) (hb : b.length < n) (ho : o ≠ .string)
    (hf : b.length < fuel) (hi : i + b.length = env.src.length) (hT : out.map Emit.token ++ shift i us = T) :
    wp (consumeCommands fuel (contextOf (some o))) (fun _ => Rest env b.length (o :: os) T) env ⟨b, i, out, stateOf q⟩ := by
  obtain ⟨fuel, rfl⟩ : ∃ k, fuel = k + 1 := ⟨fuel - 1, by omega⟩
  unfold consumeCommands
  rw [wp_bind, wp_rem]
  exact (ih b us q (o :: os) hb hp).1 (by simpa using ho) fuel _ (by omega) (by simp) i out T hi hT

theorem commands_of {n : Nat} (ih : Below' env n) {src : Bytes} {ts : List Token} {p : Place} {os : List Open}
    (hn : src.length = n) (hp : ProgramIn Element ⟨p, os⟩ src ts) : Commands env src ts p os := by
  intro ho fuel m hf hm i out T hi hT
  obtain ⟨m, rfl⟩ : ∃ k, m = k + 1 := ⟨m - 1, by omega⟩
  refine wp_loop_step ?_
  cases hp with
  | nil =>
    refine (wp_of_ok rfl).2 ?_
    exact ⟨p, [], rfl, by simpa using hi, .nil, by simp, by simpa [shift] using hT, fun _ => rfl⟩
  | @cons _ a t1 b y us he hp =>
    have hl : (a ++ b).length = a.length + b.length := by simp
    cases he with
    | outside h h' =>
      obtain ⟨c, r, es, e, ha, rfl, hg⟩ := outside_gives (rec := consumeCommands fuel) h'
      have ha := List.length_pos_iff.2 ha
      refine commands_step e (wp_mono (hg env i out hi) ?_)
      rintro _ _ ⟨rfl, rfl⟩
      simp only [Bool.false_eq_true, if_false]
      refine wp_mono ((ih b us _ os (by omega) hp).1 ho fuel m (by omega) (by omega) _ _ T (by omega) (tokens_next hT)) fun _ s hs => ?_
      exact hs.mono (by omega)
    | quoted h => simp at ho
    | «variable» h =>
      obtain ⟨c, r, e, hs, ha⟩ := variable_substitution h
      have ha := List.length_pos_iff.2 ha
      refine commands_step e ?_
      show wp (do
        let r ← HM.rem
        if startsWithSubstitution r then do
          consumeSubstitution (consumeCommands fuel)
          pure false
        else do
          consumeWord (contextOf os.head?)
          pure false : HM State Bool) _ env _
      rw [wp_bind, wp_rem]
      simp only [(substitution_iff _).2 hs, if_true]
      rw [wp_bind]
      refine wp_mono (wp_variable h hi) ?_
      rintro _ _ rfl
      refine (wp_of_ok rfl).2 ?_
      simp only [Bool.false_eq_true, if_false]
      refine wp_mono ((ih b us _ os (by omega) hp).1 ho fuel m (by omega) (by omega) _ _ T (by omega) ?_) fun _ s hs => hs.mono (by omega)
      exact tokens_one hT
    | substitution h h' =>
      obtain ⟨⟨c, r, e⟩, hs, ha⟩ := opening_substitution (b := b) h
      have ha := List.length_pos_iff.2 ha
      refine commands_step e ?_
      show wp (do
        let r ← HM.rem
        if startsWithSubstitution r then do
          consumeSubstitution (consumeCommands fuel)
          pure false
        else do
          consumeWord (contextOf os.head?)
          pure false : HM State Bool) _ env _
      rw [wp_bind, wp_rem]
      simp only [(substitution_iff _).2 hs, if_true]
      rw [wp_bind]
      refine wp_opening h h' hi (wp_mono (inner (T := T) ih hp (by omega) ?_ (by omega) (by omega) ?_) ?_)
      · rintro rfl
        simp [openings] at h
      · exact tokens_one hT
      · intro _ s hr
        refine (wp_of_ok rfl).2 ?_
        simp only [Bool.false_eq_true, if_false]
        exact wp_mono (resume_commands ih hr (by omega) ho (by omega) (by omega)) fun _ s hs => hs.mono (by omega)
    | subshell h =>
      refine commands_step rfl ?_
      show wp (do
        HM.emitAdv 1 .symbol_parens
        HM.set .before_command
        consumeCommands fuel .subshell
        pure false : HM State Bool) _ env _
      rw [List.length_singleton] at hl
      rw [wp_bind]
      refine wp_mono (wp_tok (a := b!"(") (b := b) (by simp) rfl hi) ?_
      rintro _ _ rfl
      rw [wp_bind, wp_set_iff, wp_bind]
      show wp _ _ _ ⟨b, i + 1, out ++ [⟨i, 1, .symbol_parens, .normal⟩], stateOf .beforeCommand⟩
      refine wp_mono (inner (o := .subshell) (q := .beforeCommand) (T := T) ih hp (by omega) (by simp) (by omega) ?_ ?_) ?_
      · simp at hi ⊢
        omega
      · exact tokens_one hT
      · intro _ s hr
        refine (wp_of_ok rfl).2 ?_
        simp only [Bool.false_eq_true, if_false]
        exact wp_mono (resume_commands ih hr (by omega) ho (by omega) (by omega)) fun _ s hs => hs.mono (by omega)
    | string h =>
      refine commands_step rfl ?_
      show wp (do
        HM.emitAdv 1 .string_delim
        consumeDoubleQuoted (consumeCommands fuel)
        pure false : HM State Bool) _ env _
      rw [List.length_singleton] at hl
      rw [wp_bind]
      refine wp_mono (wp_tok (a := b!"\"") (b := b) (by simp) rfl hi) ?_
      rintro _ _ rfl
      rw [wp_bind]
      unfold consumeDoubleQuoted
      rw [wp_bind, wp_rem]
      refine wp_mono ((ih b us p (.string :: os) (by omega) hp).2 rfl fuel _ [] (by omega) (by simp)
        (.inl rfl) (i + 1) (out ++ [⟨i, 1, .string_delim, .normal⟩]) T ?_ ?_) ?_
      · simp at hi ⊢
        omega
      · rw [show opt (i + 1) [] HT.string = [] by simp [opt], List.append_nil]
        exact tokens_one hT
      · intro _ s hr
        refine (wp_of_ok rfl).2 ?_
        simp only [Bool.false_eq_true, if_false]
        exact wp_mono (resume_commands ih hr (by omega) ho (by omega) (by omega)) fun _ s hs => hs.mono (by omega)
    | @ending _ _ _ o os ty h =>
      have key : a ≠ [] ∧ ∃ c r, a ++ b = c :: r ∧ (commandsSwitch (consumeCommands fuel) (contextOf (some o)) c env ⟨a ++ b, i, out, stateOf p⟩ =
          (do HM.emitAdv a.length ty; pure true : HM State Bool) env ⟨a ++ b, i, out, stateOf p⟩) := by
        simp [endings] at h
        rcases h with ⟨rfl, rfl, rfl⟩ | ⟨rfl, rfl, rfl⟩ | ⟨rfl, rfl, rfl⟩ | ⟨rfl, rfl, rfl⟩ | ⟨rfl, rfl, rfl⟩
        · simp at ho
        · exact ⟨by simp, _, _, rfl, rfl⟩
        · exact ⟨by simp, _, _, rfl, rfl⟩
        · exact ⟨by simp, _, _, rfl, rfl⟩
        · exact ⟨by simp, _, _, rfl, rfl⟩
      obtain ⟨ha, c, r, e, hk⟩ := key
      have ha' := List.length_pos_iff.2 ha
      refine commands_step e ?_
      show wp _ _ _ _
      unfold wp
      rw [List.head?_cons, hk]
      show wp _ _ _ _
      rw [wp_bind]
      refine wp_mono (wp_tok ha rfl hi) ?_
      rintro _ _ rfl
      refine (wp_of_ok rfl).2 ?_
      exact ⟨p, us, rfl, by simp at hi ⊢; omega, hp, by simp, tokens_one hT, by simp⟩

theorem strings_of {n : Nat} (ih : Below' env n) {src : Bytes} {ts : List Token} {p : Place} {os : List Open}
    (hn : src.length = n) (hp : ProgramIn Element ⟨p, os⟩ src ts) : Strings env src ts p os := by
  intro ho fuel m w hf hm hw i out T hi hT
  -- plain text that is followed by something else
  have stop : TextEnd src → ∀ {i out}, i + src.length = env.src.length → out.map Emit.token ++ shift i ts = T →
      ∀ m, src.length ≤ m → wp (doubleQuotedStep (consumeCommands fuel) 0) (fun r s => match r with
        | .inl c' => wp (HM.loop m (doubleQuotedStep (consumeCommands fuel)) c') (fun _ => Rest env src.length os T) env s
        | .inr _ => Rest env src.length os T s) env ⟨src, i, out, stateOf p⟩ := by
    intro he i out hi hT m hm
    cases hp with
    | nil =>
      refine (wp_of_ok rfl).2 ?_
      exact ⟨p, [], rfl, by simpa using hi, .nil, by simp, by simpa [shift] using hT, fun _ => rfl⟩
    | @cons _ a t1 b y us he' hp =>
      have hl : (a ++ b).length = a.length + b.length := by simp
      have sub : Substitution (a ++ b) → ∀ {Q}, wp (do
          HM.emitAdvIf 0 .string
          consumeSubstitution (consumeCommands fuel)
          pure (.inl 0) : HM State (Nat ⊕ Unit)) Q env ⟨a ++ b, i, out, stateOf p⟩ →
          wp (doubleQuotedStep (consumeCommands fuel) 0) Q env ⟨a ++ b, i, out, stateOf p⟩ := by
        rintro hs Q h
        unfold doubleQuotedStep
        rw [wp_bind, wp_rem]
        obtain ⟨c, t, e, hc⟩ := id hs
        simp only [e, List.getElem?_cons_zero, List.drop_zero]
        rw [← e]
        simp only [(substitution_iff _).2 hs, if_true]
        exact h
      cases he' with
      | outside h _ => exact absurd ho h
      | subshell h => exact absurd ho h
      | string h => exact absurd ho h
      | @quoted _ _ _ _ os h =>
        cases h with
        | text h h' =>
          exfalso
          have := h' 0 (List.length_pos_iff.2 h)
          exact this (by simpa using he)
        | @escape c _ h =>
          have hc : isEscapable c = true := by simpa [isEscapable, Escapable] using h
          have e : doubleQuotedStep (consumeCommands fuel) 0 env ⟨[c!"\\", c] ++ b, i, out, stateOf p⟩ =
              (do HM.emitAdvIf 0 .string; HM.emitAdv 2 .string_escape; pure (.inl 0) : HM State (Nat ⊕ Unit)) env
                ⟨[c!"\\", c] ++ b, i, out, stateOf p⟩ := by
            unfold doubleQuotedStep
            simp only [bind, HM.bind, HM.rem]
            simp [hc]
            rfl
          show wp _ _ _ _
          unfold wp
          rw [e]
          show wp _ _ _ _
          rw [wp_bind]
          refine (wp_of_ok (a := ()) rfl).2 ?_
          rw [wp_bind]
          refine wp_mono (wp_tok (a := [c!"\\", c]) (by simp) rfl hi) ?_
          rintro _ _ rfl
          refine (wp_of_ok rfl).2 ?_
          rw [show [c!"\\", c].length = 2 from rfl] at hl
          refine wp_mono ((ih b us p (.string :: os) (by omega) hp).2 rfl fuel m [] (by omega) (by omega) (.inl rfl) (i + 2)
            (out ++ [⟨i, 2, .string_escape, .normal⟩]) T (by simp at hi ⊢; omega) ?_) fun _ s hs => hs.mono (by omega)
          rw [show opt (i + 2) [] HT.string = [] by simp [opt], List.append_nil]
          exact tokens_one hT
      | «variable» h =>
        obtain ⟨c, r, e, hs, ha⟩ := variable_substitution h
        have ha := List.length_pos_iff.2 ha
        refine sub hs ?_
        rw [wp_bind]
        refine (wp_of_ok (a := ()) rfl).2 ?_
        rw [wp_bind]
        refine wp_mono (wp_variable h hi) ?_
        rintro _ _ rfl
        refine (wp_of_ok rfl).2 ?_
        refine wp_mono ((ih b us _ os (by omega) hp).2 ho fuel m [] (by omega) (by omega) (.inl rfl) _ _ T (by simp at hi ⊢; omega) ?_)
          fun _ s hs => hs.mono (by omega)
        rw [show opt (i + a.length) [] HT.string = [] by simp [opt], List.append_nil]
        exact tokens_one hT
      | substitution h h' =>
        obtain ⟨⟨c, r, e⟩, hs, ha⟩ := opening_substitution (b := b) h
        have ha := List.length_pos_iff.2 ha
        refine sub hs ?_
        rw [wp_bind]
        refine (wp_of_ok (a := ()) rfl).2 ?_
        rw [wp_bind]
        refine wp_opening h h' hi (wp_mono (inner (T := T) ih hp (by omega) ?_ (by omega) (by omega) ?_) ?_)
        · rintro rfl
          simp [openings] at h
        · exact tokens_one hT
        · intro _ s hr
          refine (wp_of_ok rfl).2 ?_
          exact wp_mono (resume_strings ih hr (by omega) ho (by omega) (by omega)) fun _ s hs => hs.mono (by omega)
      | @ending _ _ _ o os ty h =>
        simp at ho
        subst ho
        simp [endings] at h
        obtain ⟨rfl, rfl⟩ := h
        have e : doubleQuotedStep (consumeCommands fuel) 0 env ⟨b!"\"" ++ b, i, out, stateOf p⟩ =
              (do HM.emitAdvIf 0 .string; HM.emitAdv 1 .string_delim; pure (.inr ()) : HM State (Nat ⊕ Unit)) env
                ⟨b!"\"" ++ b, i, out, stateOf p⟩ := rfl
        show wp _ _ _ _
        unfold wp
        rw [e]
        show wp _ _ _ _
        rw [wp_bind]
        refine (wp_of_ok (a := ()) rfl).2 ?_
        rw [wp_bind]
        refine wp_mono (wp_tok (a := b!"\"") (by simp) rfl hi) ?_
        rintro _ _ rfl
        refine (wp_of_ok rfl).2 ?_
        exact ⟨p, us, rfl, by simp at hi ⊢; omega, hp, by simp, tokens_one hT, by simp⟩
  by_cases he : TextEnd src
  · obtain ⟨m, rfl⟩ : ∃ k, m = k + 1 := ⟨m - 1, by omega⟩
    refine wp_loop_step (dq_stop hi (wp_mono (stop he (i := i + w.length) (out := out ++ optEmit i w .string)
      (by simp at hi ⊢; omega) ?_ m (by omega)) (fun r s h => by cases r <;> exact h)) he)
    rw [List.map_append, optEmit_token]
    exact hT
  · obtain rfl := hw.resolve_right he
    clear stop
    rw [List.nil_append] at hi
    rw [show opt i [] HT.string = [] by simp [opt], List.append_nil] at hT
    cases hp with
    | nil => exact absurd (.inl rfl) he
    | @cons _ a t1 b y us he' hp =>
      cases he' with
      | outside h _ => exact absurd ho h
      | subshell h => exact absurd ho h
      | string h => exact absurd ho h
      | @quoted _ _ _ _ os h =>
        cases h with
        | @text _ _ h h' h'' =>
          have hl : (a ++ b).length = a.length + b.length := by simp
          have ha := List.length_pos_iff.2 h
          obtain ⟨m, rfl⟩ : ∃ k, m = k + a.length := ⟨m - a.length, by omega⟩
          have := dq_text (rec := consumeCommands fuel) (w := []) (b := b) (i := i) (m := m) (out := out) (x := stateOf p)
            (env := env) (Q := fun _ => Rest env (a ++ b).length (.string :: os) T) h'
          rw [List.nil_append] at this
          refine this ?_
          refine wp_mono ((ih b us p (.string :: os) (by omega) hp).2 rfl fuel m a (by omega) (by omega) (.inr h'') i out T hi ?_)
            fun _ s hs => hs.mono (by omega)
          rw [← hT, opt, if_neg h, shift_append, shift_token, shift_shift, List.append_assoc]
          rfl
        | @escape c _ h => exact absurd (.inr (.inr (.inl ⟨c, b, rfl, h⟩))) he
      | «variable» h =>
        obtain ⟨_, _, _, hs, _⟩ := variable_substitution h
        exact absurd (.inr (.inr (.inr hs))) he
      | substitution h h' =>
        obtain ⟨_, hs, _⟩ := opening_substitution (b := b) h
        exact absurd (.inr (.inr (.inr hs))) he
      | @ending _ _ _ o os ty h =>
        simp at ho
        subst ho
        simp [endings] at h
        obtain ⟨rfl, rfl⟩ := h
        exact absurd (.inr (.inl ⟨b, rfl⟩)) he

theorem elements (n : Nat) : Below' env n := by
  induction n with
  | zero => intro _ _ _ _ h; simp at h
  | succ n ih =>
    intro src ts p os h hp
    by_cases hn : src.length = n
    · exact ⟨commands_of ih hn hp, strings_of ih hn hp⟩
    · exact ih src ts p os (by omega) hp

/-- Bash scripts get exactly the tokens of their lexical elements. -/
theorem C58_bash : ExactIn highlight (fun _ => Element) ⟨.beforeCommand, []⟩ := by
  intro opts src ts hp debug
  have key : wp run (fun r s => r = true ∧ s.out.map Emit.token = ts) ⟨debug, opts.seen, src⟩ ⟨src, 0, [], .before_command⟩ := by
    unfold run
    rw [wp_bind, wp_rem, wp_bind]
    unfold consumeCommands
    rw [wp_bind, wp_rem]
    refine wp_mono ((elements (src.length + 1) src ts .beforeCommand [] (by simp) hp).1 (by simp) src.length _ (by simp)
      (by simp) 0 [] ts (by simp) (by simp [shift])) ?_
    rintro _ s ⟨q, us, -, -, -, -, h, h'⟩
    refine (wp_of_ok rfl).2 ⟨rfl, ?_⟩
    rw [← h, h' rfl]
    simp [shift]
  obtain ⟨r, s, h1, rfl, h2⟩ := key
  exact ⟨s.out, by simp [highlight, HM.run, HM.runAll, h1], h2⟩

theorem substitution_total {src : Bytes} (h : Substitution src) (x : Spec.Bash.State) :
    ∃ a ts b y, src = a ++ b ∧ a ≠ [] ∧ Element x a ts b y := by
  obtain ⟨p, os⟩ := x
  obtain ⟨c, t, rfl, h | h | h⟩ := h
  · simp at h
    rcases h with rfl | rfl
    · by_cases ht : t.head? = some c!"("
      · obtain ⟨t, rfl⟩ : ∃ u, t = c!"(" :: u := by
          cases t with
          | nil => simp at ht
          | cons d t => simp at ht; exact ⟨t, by rw [ht]⟩
        exact ⟨b!"$((", _, t, _, rfl, by simp, .substitution (o := .arithmetic) (q := .beforeCommand) (by decide) (by simp)⟩
      · exact ⟨b!"$(", _, t, _, rfl, by simp, .substitution (o := .command) (q := .beforeCommand) (by decide) (fun _ => ht)⟩
    · exact ⟨b!"${", _, t, _, rfl, by simp, .substitution (o := .parameter) (q := .inParameter) (by decide) (by simp)⟩
  · obtain ⟨u, b, rfl, hu⟩ := longest_split NameChar t
    exact ⟨c!"$" :: c :: u, _, b, _, rfl, by simp, .variable (.inr ⟨c, u, rfl, h, hu⟩)⟩
  · exact ⟨[c!"$", c], _, t, _, rfl, by simp, .variable (.inl ⟨c, rfl, h⟩)⟩

theorem quoted_total {src : Bytes} (hs : src ≠ []) (p : Place) (os : List Open) :
    ∃ a ts b y, src = a ++ b ∧ a ≠ [] ∧ Element ⟨p, .string :: os⟩ a ts b y := by
  by_cases h : TextEnd src
  · rcases h with h | ⟨t, rfl⟩ | ⟨c, t, rfl, h⟩ | h
    · exact absurd h hs
    · exact ⟨b!"\"", _, t, _, rfl, by simp, .ending (ty := .string_delim) (by decide)⟩
    · exact ⟨[c!"\\", c], _, t, _, rfl, by simp, .quoted (.escape h)⟩
    · exact substitution_total h _
  · obtain ⟨t, b, rfl, h1, h2, h3⟩ := split_first (P := TextEnd) (.inl rfl) h
    exact ⟨t, _, b, _, rfl, h1, .quoted (.text h1 h2 h3)⟩

theorem outside_total {src : Bytes} (hs : src ≠ []) (p : Place) (os : List Open) (ho : os.head? ≠ some .string) :
    ∃ a ts b y, src = a ++ b ∧ a ≠ [] ∧ Element ⟨p, os⟩ a ts b y := by
  by_cases hsub : Substitution src
  · exact substitution_total hsub _
  obtain ⟨c, t, rfl⟩ := List.exists_cons_of_ne_nil hs
  by_cases hb : Blank c
  · obtain ⟨w, b, e, h⟩ := longest_split Blank (c :: t)
    exact ⟨w, _, b, _, e, h.ne_nil e hb, .outside ho (.blanks (h.ne_nil e hb) h)⟩
  by_cases hl : c = 0x0B ∨ c = 0x0D ∨ c = 0x0A
  · exact ⟨[c], _, t, _, rfl, by simp, .outside ho (.line hl)⟩
  by_cases h1 : c = c!"\\"
  · subst h1
    cases t with
    | nil => exact ⟨b!"\\", _, [], _, rfl, by simp, .outside ho .backslash⟩
    | cons d t =>
      by_cases hd : d = 0x0A
      · subst hd
        exact ⟨b!"\\\n", _, t, _, rfl, by simp, .outside ho .continuation⟩
      · exact ⟨[c!"\\", d], _, t, _, rfl, by simp, .outside ho (.escape hd)⟩
  by_cases h2 : c = c!"'"
  · subst h2
    rcases before_byte c!"'" t with h | ⟨t, b, rfl, h⟩
    · exact ⟨b!"'" ++ t, _, [], _, by simp, by simp, .outside ho (.openSingle h)⟩
    · exact ⟨b!"'" ++ t ++ b!"'", _, b, _, by simp, by simp, .outside ho (.single h)⟩
  by_cases h3 : c = c!"#"
  · subst h3
    obtain ⟨u, b, rfl, h⟩ := longest_split (· ≠ 0x0A) t
    exact ⟨b!"#" ++ u, _, b, _, rfl, by simp, .outside ho (.comment h)⟩
  by_cases h4 : c = c!"\""
  · subst h4
    exact ⟨b!"\"", _, t, _, rfl, by simp, .string ho⟩
  by_cases h5 : c = c!"("
  · subst h5
    exact ⟨b!"(", _, t, _, rfl, by simp, .subshell ho⟩
  by_cases h6 : c = c!")"
  · subst h6
    by_cases hp : (os.head? ≠ some .command ∧ os.head? ≠ some .subshell) ∧ (os.head? = some .arithmetic → t.head? ≠ some c!")")
    · exact ⟨b!")", _, t, _, rfl, by simp, .outside ho (.paren hp.1 hp.2)⟩
    · obtain ⟨o, os, rfl⟩ : ∃ o u, os = o :: u := by
        cases os with
        | nil => simp at hp
        | cons o os => exact ⟨o, os, rfl⟩
      cases o with
      | parameter => simp at hp
      | string => simp at ho
      | command => exact ⟨b!")", _, t, _, rfl, by simp, .ending (ty := .string_interpolation_delim) (by decide)⟩
      | subshell => exact ⟨b!")", _, t, _, rfl, by simp, .ending (ty := .symbol_parens) (by decide)⟩
      | arithmetic =>
        simp at hp
        obtain ⟨u, rfl⟩ : ∃ u, t = c!")" :: u := by
          cases t with
          | nil => simp at hp
          | cons d t => simp at hp; exact ⟨t, by rw [hp]⟩
        exact ⟨b!"))", _, u, _, rfl, by simp, .ending (ty := .string_interpolation_delim) (by decide)⟩
  by_cases h7 : c ∈ b!"|&;<>"
  · obtain ⟨op, -, h8, h9, h10⟩ := matchOperator_facts (t := c :: t) rfl (by simpa using h7)
    refine ⟨(c :: t).take op.length, _, (c :: t).drop op.length, _, by simp, ?_, .outside ho (.operator ?_)⟩
    · apply List.length_pos_iff.1
      rw [List.length_take]
      omega
    · rw [List.take_append_drop, List.length_take, Nat.min_eq_left h9]
      exact h10
  by_cases h8 : c = c!"}"
  · subst h8
    by_cases hp : os.head? = some .parameter
    · cases os with
      | nil => simp at hp
      | cons o os =>
        simp at hp
        subst hp
        exact ⟨b!"}", _, t, _, rfl, by simp, .ending (ty := .string_interpolation_delim) (by decide)⟩
    · exact ⟨b!"}", _, t, _, rfl, by simp, .outside ho (.brace hp)⟩
  have hw : ¬ WordEnd os.head? (c :: t) := by
    rintro (h | ⟨d, u, h, h'⟩ | h)
    · simp at h
    · simp at h
      obtain ⟨rfl, rfl⟩ := h
      rcases h' with h | h
      · simp [Terminator, Spec.Bash.Space, Blank] at *
        grind
      · exact h8 h.2
    · exact hsub h
  obtain ⟨w, b, e, h, h', h''⟩ := split_first (P := WordEnd os.head?) (.inl rfl) hw
  refine ⟨w, _, b, _, e, h, .outside ho (.word h ?_ h' h'')⟩
  obtain ⟨d, w, rfl⟩ := List.exists_cons_of_ne_nil h
  simp at e
  obtain ⟨rfl, -⟩ := e
  simp [NotFirst, h3, h8]

/-- Every text is a sequence of lexical elements of Bash, so Bash scripts get exactly the tokens of their elements whatever
they contain. -/
theorem C58_bash_total (src : Bytes) : ∃ ts, ProgramIn Element ⟨.beforeCommand, []⟩ src ts := by
  refine total_of (fun x src hs => ?_) src _
  obtain ⟨p, os⟩ := x
  by_cases ho : os.head? = some .string
  · cases os with
    | nil => simp at ho
    | cons o os =>
      simp at ho
      subst ho
      exact quoted_total hs p os
  · exact outside_total hs p os ho

theorem nameChar_ne (c : UInt8) (h : NameChar c) : c ∉ b!" \t\x0b\r\n|&;()<>\\'\"}$#-" := by
  rintro hc
  have : ∀ c ∈ b!" \t\x0b\r\n|&;()<>\\'\"}$#-", ¬ NameChar c := by
    simp [NameChar, NameStart, Letter, DecDigit]
  exact this c hc h

theorem name_plain {o : Option Open} {y b : Bytes} (h : ∀ c ∈ y, NameChar c) : Plain (fun s => ¬ WordEnd o s) y b := by
  intro k hk he
  rw [List.drop_append_of_le_length (by omega), List.drop_eq_getElem_cons hk] at he
  have hc := nameChar_ne _ (h _ (List.getElem_mem hk))
  generalize y[k] = c at hc he
  rcases he with he | ⟨d, t, he, he'⟩ | ⟨d, t, he, _⟩
  · simp at he
  · simp at he
    obtain ⟨rfl, -⟩ := he
    simp [Terminator, Spec.Bash.Space] at he' hc
    grind
  · simp at he
    simp [he.1] at hc

theorem name_first {y : Bytes} (h : ∀ c ∈ y, NameChar c) : NotFirst b!"#}" y := by
  intro c hc
  have := nameChar_ne c (h c (List.mem_of_head? hc))
  simp at this ⊢
  grind

/-- What a word would be is not restored after `${…}`: the word `y` after it is highlighted as if it were inside of the
braces. -/
theorem C58_bash_parameter {x y : Bytes} (hx : ∀ c ∈ x, NameChar c) (hx0 : x ≠ []) (hy : ∀ c ∈ y, NameChar c) (hy0 : y ≠ [])
    (debug : Bool) :
    ∃ es, highlight debug {} (b!"echo ${" ++ x ++ b!"} " ++ y) = .ok (true, es) ∧ es.map Emit.token =
      [⟨0, 4, .name_shell_command⟩, ⟨5, 2, .string_interpolation_delim⟩, ⟨7, x.length, .string_interpolation⟩,
       ⟨7 + x.length, 1, .string_interpolation_delim⟩, ⟨9 + x.length, y.length, .string_interpolation⟩] := by
  have hp : ProgramIn Element ⟨.inParameter, []⟩ [] [] := .nil
  have hp := hp.before y (.outside (p := .inParameter) (by simp) (.word hy0 (name_first hy) (name_plain hy) (.inl rfl)))
  have hl : ∀ c ∈ (y ++ []).head?, ¬ Blank c := by
    intro c hc
    rw [List.append_nil] at hc
    have := nameChar_ne c (hy c (List.mem_of_head? hc))
    simp [Blank] at this ⊢
    grind
  have hp := hp.before b!" " (.outside (p := .inParameter) (by simp) (.blanks (by simp) ⟨by simp [Blank], by
    intro c hc
    exact hl c (by simpa [List.head?_eq_getElem?] using hc)⟩))
  have hp := hp.before b!"}" (.ending (o := .parameter) (ty := .string_interpolation_delim) (by decide))
  have hp := hp.before x (.outside (p := .inParameter) (by simp) (.word hx0 (name_first hx) (name_plain hx)
    (.inr (.inl ⟨c!"}", _, rfl, .inr ⟨rfl, rfl⟩⟩))))
  have hp := hp.before b!"${" (.substitution (p := .beforeArgument) (q := .inParameter) (o := .parameter) (by decide) (by simp))
  have hp := hp.before b!" " (.outside (p := .inCommand) (by simp) (.blanks (by simp) ⟨by simp [Blank], by simp [Blank]⟩))
  have hp := hp.before b!"echo" (.outside (p := .beforeCommand) (by simp) (.word (by simp) (by simp [NotFirst])
    (name_plain (by simp [NameChar, NameStart, Letter])) (.inr (.inl ⟨c!" ", _, rfl, .inl (.inl (by simp [Spec.Bash.Space]))⟩))))
  obtain ⟨es, h1, h2⟩ := C58_bash {} _ _ hp debug
  refine ⟨es, ?_, ?_⟩
  · rw [← h1]
    simp
  · rw [h2]
    simp [shift, Spec.Bash.wordType]
    omega

/-- A non-trivial case: `x="a\$b $(ls -l|wc) $y" # z`. -/
example (debug : Bool) : ∃ es, highlight debug {} b!"x=\"a\\$b $(ls -l|wc)$y\" # z" = .ok (true, es) ∧ es.map Emit.token =
    [⟨0, 2, .name_shell_command⟩, ⟨2, 1, .string_delim⟩, ⟨3, 1, .string⟩, ⟨4, 2, .string_escape⟩, ⟨6, 2, .string⟩,
     ⟨8, 2, .string_interpolation_delim⟩, ⟨10, 2, .name_shell_command⟩, ⟨13, 2, .name_shell_option⟩, ⟨15, 1, .symbol_op⟩,
     ⟨16, 2, .string⟩, ⟨18, 1, .string_interpolation_delim⟩, ⟨19, 2, .string_interpolation⟩, ⟨21, 1, .string_delim⟩,
     ⟨23, 1, .comment_delim⟩, ⟨24, 2, .comment⟩] := by
  have plain : ∀ {o : Option Open} {t b : Bytes}, (∀ c ∈ t, ¬ (Terminator c ∨ c = c!"}" ∨ c = c!"$")) → Plain (fun s => ¬ WordEnd o s) t b := by
    intro o t b h k hk he
    rw [List.drop_append_of_le_length (by omega), List.drop_eq_getElem_cons hk] at he
    have hc := h _ (List.getElem_mem hk)
    generalize t[k] = c at hc he
    rcases he with he | ⟨d, u, he, he'⟩ | ⟨d, u, he, _⟩
    · simp at he
    · simp at he
      obtain ⟨rfl, -⟩ := he
      grind
    · simp at he
      grind
  have text : ∀ {t b : Bytes}, (∀ c ∈ t, c ∉ b!"\"\\$") → Plain (fun s => ¬ TextEnd s) t b := by
    intro t b h k hk he
    rw [List.drop_append_of_le_length (by omega), List.drop_eq_getElem_cons hk] at he
    have hc := h _ (List.getElem_mem hk)
    generalize t[k] = c at hc he
    rcases he with he | ⟨d, he⟩ | ⟨d, u, he, _⟩ | ⟨d, u, he, _⟩ <;> simp at he hc <;> grind
  have stop : ∀ {o : Option Open} {c : UInt8} {t : Bytes}, Terminator c → WordEnd o (c :: t) := fun h => .inr (.inl ⟨_, _, rfl, .inl h⟩)
  have hp : ProgramIn Element ⟨.beforeArgument, []⟩ [] [] := .nil
  have hp := hp.before b!"# z" (.outside (p := .beforeArgument) (by simp) (.comment (t := b!" z") (by simp [Longest])))
  have hp := hp.before b!" " (.outside (p := .inArgument) (by simp) (.blanks (by simp) ⟨by simp [Blank], by simp [Blank]⟩))
  have hp := hp.before b!"\"" (.ending (o := .string) (ty := .string_delim) (by decide))
  have hp := hp.before b!"$y" (.variable (p := .inArgument) (.inr ⟨c!"y", [], rfl, by simp [NameStart, Letter], by simp [Longest, NameChar, NameStart, Letter, DecDigit]⟩))
  have hp := hp.before b!")" (.ending (o := .command) (ty := .string_interpolation_delim) (by decide))
  have hp := hp.before b!"wc" (.outside (p := .inArgument) (by simp) (.word (by simp) (by simp [NotFirst])
    (plain (by simp [Terminator, Spec.Bash.Space])) (stop (by simp [Terminator]))))
  have hp := hp.before b!"|" (.outside (p := .inArgument) (by simp) (.operator (longestIn_of (by decide) (by decide) (by decide +kernel))))
  have hp := hp.before b!"-l" (.outside (p := .beforeArgument) (by simp) (.word (by simp) (by simp [NotFirst])
    (plain (by simp [Terminator, Spec.Bash.Space])) (stop (by simp [Terminator]))))
  have hp := hp.before b!" " (.outside (p := .inCommand) (by simp) (.blanks (by simp) ⟨by simp [Blank], by simp [Blank]⟩))
  have hp := hp.before b!"ls" (.outside (p := .beforeCommand) (by simp) (.word (by simp) (by simp [NotFirst])
    (plain (by simp [Terminator, Spec.Bash.Space])) (stop (by simp [Terminator, Spec.Bash.Space]))))
  have hp := hp.before b!"$(" (.substitution (p := .inCommand) (q := .beforeCommand) (o := .command) (by decide) (by simp))
  have hp := hp.before b!"b " (.quoted (.text (by simp) (text (by simp)) (.inr (.inr (.inr ⟨c!"(", _, rfl, by simp⟩)))))
  have hp := hp.before b!"\\$" (.quoted (.escape (by simp [Escapable])))
  have hp := hp.before b!"a" (.quoted (.text (by simp) (text (by simp)) (.inr (.inr (.inl ⟨c!"$", _, rfl, by simp [Escapable]⟩)))))
  have hp := hp.before b!"\"" (.string (by simp))
  have hp := hp.before b!"x=" (.outside (p := .beforeCommand) (by simp) (.word (by simp) (by simp [NotFirst])
    (plain (by simp [Terminator, Spec.Bash.Space])) (stop (by simp [Terminator]))))
  exact C58_bash.of_program ⟨_, hp, rfl⟩ _

end Ulight.Bash
