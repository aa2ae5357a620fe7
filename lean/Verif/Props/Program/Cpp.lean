import Verif.Props.Program.CppLiteral
import Verif.Props.Program.CppNumber

/-!
# C58 for C and C++
-/

namespace Ulight.Cpp

open Spec Spec.Cpp Utf8

variable {cpp : Bool} {x : Bool} {opts : Opts}

theorem wp_or_false {a b : HM Bool Bool} {env : HEnv} {s : HS Bool} {Q : Bool → HS Bool → Prop} (h : a env s = .ok (false, s))
    (h' : wp b Q env s) : wp (HM.or a b) Q env s := by
  refine wp_step_or ((wp_of_ok h).2 ?_)
  simpa using h'

theorem wp_or_true {a b : HM Bool Bool} {env : HEnv} {s t : HS Bool} (h : wp a (fun r s => r = true ∧ s = t) env s) :
    wp (HM.or a b) (fun r s => r = true ∧ s = t) env s := by
  refine wp_step_or (wp_mono h ?_)
  rintro _ _ ⟨rfl, rfl⟩
  simp

/-- The text does not begin with whitespace, a comment or a directive. -/
structure Begins (cpp x : Bool) (r : Bytes) : Prop where
  space : Ascii.length_if r isWhitespace = 0
  line : matchLineComment r = 0
  block : (matchBlockComment r).length = 0
  directive : x = false ∨ ∀ op, matchOp cpp r = some op → op ≠ b!"#" ∧ op ≠ b!"%:"

variable {env : HEnv} {s t : HS Bool}

theorem no_space {r : Bytes} (h : Ascii.length_if r isWhitespace = 0) (hs : s.rem = r) : expectWhitespace env s = .ok (false, s) := by
  refine ok_of_wp ?_
  unfold expectWhitespace
  simp [hs, h]

theorem no_line {r : Bytes} (h : matchLineComment r = 0) (hs : s.rem = r) : expectLineComment env s = .ok (false, s) := by
  refine ok_of_wp ?_
  unfold expectLineComment
  simp [hs, h]

theorem no_block {r : Bytes} (h : (matchBlockComment r).length = 0) (hs : s.rem = r) : expectBlockComment env s = .ok (false, s) := by
  refine ok_of_wp ?_
  unfold expectBlockComment
  simp [hs, h]

theorem no_directive {r : Bytes} (h : s.ext = false ∨ ∀ op, matchOp cpp r = some op → op ≠ b!"#" ∧ op ≠ b!"%:") (hs : s.rem = r) :
    expectDirective cpp env s = .ok (false, s) := by
  refine ok_of_wp ?_
  unfold expectDirective
  rw [wp_bind, wp_get, wp_bind, wp_rem, hs]
  cases hm : matchOp cpp r with
  | none => simp
  | some op =>
    have : (!s.ext || (op ≠ b!"#" && op ≠ b!"%:")) = true := by
      rcases h with h | h
      · simp [h]
      · simp [h op hm]
    simp only [this, if_true]
    simp

theorem no_string {r : Bytes} (h : r[matchIdentifier r]? ≠ some c!"\"") (hs : s.rem = r) :
    expectStringLiteral cpp env s = .ok (false, s) := by
  refine ok_of_wp ?_
  unfold expectStringLiteral
  simp [hs, h]

theorem no_character {r : Bytes} (h : r[matchIdentifier r]? ≠ some c!"'") (hs : s.rem = r) :
    expectCharacterLiteral cpp env s = .ok (false, s) := by
  refine ok_of_wp ?_
  unfold expectCharacterLiteral
  simp [hs, h]

theorem no_number {r : Bytes} (h : matchPpNumber r = 0) (hs : s.rem = r) : expectPpNumber env s = .ok (false, s) := by
  refine ok_of_wp ?_
  unfold expectPpNumber
  simp [hs, h]

theorem no_word {r : Bytes} {fb : Bytes → HT} (h : matchIdentifier r = 0) (hs : s.rem = r) :
    expectIdentifier cpp fb env s = .ok (false, s) := by
  refine ok_of_wp ?_
  unfold expectIdentifier
  rw [wp_bind, wp_rem, wp_bind, wp_opts, hs]
  simp [h]

/-- The alternatives after the directive. -/
def rest (cpp : Bool) : HM Bool Bool :=
  HM.or (expectStringLiteral cpp) (HM.or (expectCharacterLiteral cpp)
    (HM.or expectPpNumber (HM.or (expectIdentifier cpp usualFallback) (HM.or (expectOp cpp) expectNonWhitespace))))

theorem wp_step {t : HS Bool} (h : wp (HM.or expectWhitespace (HM.or expectLineComment (HM.or expectBlockComment
    (HM.or (expectDirective cpp) (rest cpp))))) (fun r s => r = true ∧ s = t) env s) :
    wp (step cpp) (fun _ s => s = t) env s := by
  unfold step
  rw [wp_bind]
  refine wp_mono h ?_
  rintro _ _ ⟨rfl, rfl⟩
  simp

theorem wp_rest {r : Bytes} (h : Begins cpp s.ext r) (hs : s.rem = r)
    (h' : wp (rest cpp) (fun r s => r = true ∧ s = t) env s) : wp (step cpp) (fun _ s => s = t) env s :=
  wp_step (wp_or_false (no_space h.space hs) (wp_or_false (no_line h.line hs) (wp_or_false (no_block h.block hs)
    (wp_or_false (no_directive h.directive hs) h'))))

theorem begins_of_first {c : UInt8} {r : Bytes} (h : isWhitespace c = false) (h' : c ∉ b!"/#%") : Begins cpp x (c :: r) where
  space := length_if_cons_neg h
  line := by
    simp at h'
    simp [matchLineComment, startsWith_cons_cons, Ne.symm h'.1]
  block := by
    simp at h'
    simp [matchBlockComment, startsWith_cons_cons, Ne.symm h'.1]
  directive := by
    refine .inr fun op hop => ?_
    rcases op_facts cpp true none (c :: r) with ⟨w, _, h1, _, _, _, _, _, h2⟩ | ⟨h1, _⟩
    · rw [hop] at h1
      cases h1
      constructor
      · rintro rfl
        have := h2 (.inl rfl)
        simp at this h'
        exact h'.2.1 this
      · rintro rfl
        have := h2 (.inr rfl)
        simp at this h'
        exact h'.2.2 this.1
    · rw [hop] at h1
      cases h1


/-- The text `a` before `b` gets the tokens `ts` in one step. -/
def Found (cpp : Bool) (opts : Opts) (x : Bool) (a : Bytes) (ts : List Token) (b : Bytes) (y : Bool) : Prop :=
  ∃ es : List Emit, ts = es.map Emit.token ∧ Does (step cpp) opts x a es b y

theorem found_of {a b : Bytes} {es : List Emit} {y : Bool}
    (h : ∀ (env : HEnv) i out, env.opts = opts → i + (a ++ b).length = env.src.length →
      wp (step cpp) (fun _ s => s = ⟨b, i + a.length, out ++ es.map (Emit.moved i), y⟩) env ⟨a ++ b, i, out, x⟩) :
    Found cpp opts x a (es.map Emit.token) b y :=
  ⟨es, rfl, fun debug src i out hi => h ⟨debug, opts, src⟩ i out rfl hi⟩

theorem found_parts {a b : Bytes} {ps : List (Bytes × HT)} {y : Bool}
    (h : ∀ (env : HEnv) i out, env.opts = opts → i + (a ++ b).length = env.src.length →
      wp (step cpp) (fun _ s => s = ⟨b, i + a.length, out ++ partsEmit i ps, y⟩) env ⟨a ++ b, i, out, x⟩) :
    Found cpp opts x a (parts 0 ps) b y := by
  rw [← partsEmit_token]
  refine found_of fun env i out h1 h2 => ?_
  rw [partsEmit_moved]
  exact h env i out h1 h2

/-! ## Whitespace and comments -/

theorem space_found {w b : Bytes} (h : w ≠ []) (h' : Longest Space (w ++ b) w.length) :
    Found cpp opts x w [] b (x || w.contains 0x0A) := by
  refine found_of (es := []) fun env i out _ hi => ?_
  have h1 : Ascii.length_if (w ++ b) isWhitespace = w.length :=
    length_if_eq (by simpa only [space_iff] using h') (by simp)
  refine wp_step (wp_or_true ?_)
  unfold expectWhitespace
  rw [wp_bind, wp_rem]
  simp only [h1]
  rw [if_neg (by simp [h]), List.take_left, wp_bind]
  refine (wp_of_ok rfl).2 ?_
  rw [wp_bind, wp_advance_iff (by simp)]
  simp [HS.adv]

theorem lineComment_found {t b : Bytes} (h : Line (t ++ b) t.length) :
    Found cpp opts x (b!"//" ++ t) (parts 0 [(b!"//", .comment_delim), (t, .comment)]) b true := by
  refine found_parts fun env i out _ hi => ?_
  have h1 := matchLineComment_at h
  refine wp_step (wp_or_false (no_space (length_if_cons_neg (by decide)) rfl) (wp_or_true ?_))
  unfold expectLineComment
  rw [wp_bind, wp_rem]
  simp only [h1]
  rw [if_neg (by simp), wp_bind, wp_emitAdv_iff (by simpa using hi) (by simp) (by simp), wp_bind,
    wp_emitAdvIf_iff (by simp [HS.emitted] at hi ⊢; omega) (by simp [HS.emitted]), wp_bind, wp_set_iff]
  simp [HS.emitted, HS.withExt, partsEmit, optEmit]
  omega

theorem blockComment_found {t b : Bytes} (h : UpTo b!"*/" (t ++ b!"*/" ++ b) t.length) :
    Found cpp opts x (b!"/*" ++ t ++ b!"*/") (parts 0 [(b!"/*", .comment_delim), (t, .comment), (b!"*/", .comment_delim)]) b x := by
  refine found_parts fun env i out _ hi => ?_
  have h1 := matchBlockComment_at h
  refine wp_step (wp_or_false (no_space (length_if_cons_neg (by decide)) rfl) (wp_or_false (no_line ?_ rfl) (wp_or_true ?_)))
  · simp [matchLineComment, startsWith_cons_cons]
  · unfold expectBlockComment
    rw [wp_bind, wp_rem]
    simp only [h1]
    rw [if_neg (by simp), wp_bind, wp_highlightBlockComment_iff (by simpa using hi) (by simp)]
    simp [partsEmit, optEmit]

/-! ## Directives -/

theorem pound_facts {p r : Bytes} (h : Pound p r) : matchOp cpp (p ++ r) = some p ∧ (p = b!"#" ∨ p = b!"%:") ∧ p ≠ [] ∧
    Ascii.length_if (p ++ r) isWhitespace = 0 ∧ matchLineComment (p ++ r) = 0 ∧ (matchBlockComment (p ++ r)).length = 0 := by
  obtain ⟨h1, h2⟩ := h
  have h3 := not_startsWith h2
  rcases h1 with rfl | rfl
  · refine ⟨?_, .inl rfl, by simp, length_if_cons_neg (by decide), ?_, ?_⟩
    · simp [matchOp, startsWith_cons_cons, h3]
    · simp [matchLineComment, startsWith_cons_cons]
    · simp [matchBlockComment, startsWith_cons_cons]
  · refine ⟨?_, .inr rfl, by simp, length_if_cons_neg (by decide), ?_, ?_⟩
    · simp [matchOp, startsWith_cons_cons, h3]
    · simp [matchLineComment, startsWith_cons_cons]
    · simp [matchBlockComment, startsWith_cons_cons]

theorem blanks_longest {w r : Bytes} (h : Blanks w) (hr : ∀ c, r.head? = some c → ¬ Space c) :
    Ascii.length_if (w ++ r) isWhitespace = w.length := by
  refine length_if_eq ⟨?_, ?_⟩ (by simp)
  · simp only [List.take_left, space_iff]
    exact fun c hc => (h c hc).1
  · intro c hc
    rw [List.getElem?_append_right (by simp), Nat.sub_self, ← List.head?_eq_getElem?] at hc
    show ¬ isWhitespace c = true
    rw [space_iff]
    exact hr c hc

theorem not_space_of_start (c : UInt8) (h : 0x80 ≤ c.toNat ∨ isAlpha c = true ∨ c = c!"_") : isWhitespace c = false := by
  revert c
  apply forall_byte
  decide +kernel

theorem ident_not_space {s : Bytes} {n : Nat} (h : Ident s n) : ∀ c, s.head? = some c → ¬ Space c := by
  obtain ⟨b, r, rfl, _, h⟩ := Identifier.first h
  intro c hc
  cases hc
  have := not_space_of_start b (cppStart_byte b h)
  rw [← space_iff, this]
  simp

/-- The beginning of a directive. -/
theorem wp_directive {p w n r : Bytes} (h : Pound p (w ++ n ++ r)) (hw : Blanks w) (h' : Ident (n ++ r) n.length) {i : Nat}
    {out : List Emit} (hi : i + (p ++ w ++ n ++ r).length = env.src.length)
    (hQ : wp (if n = b!"include" then do highlightHeader; pure true else pure true) (fun r s => r = true ∧ s = t) env
      ⟨r, i + p.length + w.length + n.length, out ++ [⟨i, p.length, .name_macro_delim, .normal⟩,
        ⟨i + p.length + w.length, n.length, .name_macro, .normal⟩], true⟩) :
    wp (step cpp) (fun _ s => s = t) env ⟨p ++ w ++ n ++ r, i, out, true⟩ := by
  obtain ⟨h1, h2, h3, h4, h5, h6⟩ := pound_facts (cpp := cpp) h
  have e : p ++ w ++ n ++ r = p ++ (w ++ n ++ r) := by simp
  rw [e] at hi ⊢
  refine wp_step (wp_or_false (no_space h4 rfl) (wp_or_false (no_line h5 rfl) (wp_or_false (no_block h6 rfl) (wp_or_true ?_))))
  have hn : n ≠ [] := by
    rintro rfl
    obtain ⟨_, _, _, h, _⟩ := Identifier.first h'
    simp at h
  have h7 : Ascii.length_if (w ++ (n ++ r)) isWhitespace = w.length := blanks_longest hw (ident_not_space h')
  have h8 := matchIdentifier_eq h'
  unfold expectDirective
  rw [wp_bind, wp_get, wp_bind, wp_rem]
  simp only [h1]
  have h9 : (!true || (p ≠ b!"#" && p ≠ b!"%:")) = false := by rcases h2 with rfl | rfl <;> decide
  simp only [h9]
  simp
  rw [wp_emitAdv_iff (by simpa using hi) (by cases p <;> simp at h3 ⊢) (by simp)]
  simp [HS.emitted, h7]
  rw [wp_advance_iff (by simp)]
  simp [HS.adv, h8, hn]
  rw [wp_emitAdv_iff (by simp at hi ⊢; omega) (by cases n <;> simp at hn ⊢) (by simp)]
  simp [HS.emitted]
  simpa [Nat.add_assoc] using hQ

theorem directive_found {p w n b : Bytes} (h : Pound p (w ++ n ++ b)) (hw : Blanks w) (h' : Ident (n ++ b) n.length)
    (hn : n ≠ b!"include") :
    Found cpp opts true (p ++ w ++ n) [⟨0, p.length, .name_macro_delim⟩, ⟨p.length + w.length, n.length, .name_macro⟩] b true := by
  refine found_of (es := [⟨0, p.length, .name_macro_delim, .normal⟩, ⟨p.length + w.length, n.length, .name_macro, .normal⟩])
    fun env i out _ hi => wp_directive h hw h' hi ?_
  rw [if_neg hn]
  simp [Emit.moved, Nat.add_assoc, Nat.add_comm]

theorem include_ident {r : Bytes} (h : Boundary r) : Ident (b!"include" ++ r) b!"include".length := by
  refine identifier_of_match (matchIdentifier_ascii ?_ ⟨_, _, rfl, ?_⟩ h) (by simp)
  · simp only [← cppContinue_iff]
    decide +kernel
  · rw [← cppStart_iff]
    decide +kernel

theorem pound_append {p s r : Bytes} (h : Pound p s) (hs : 2 ≤ s.length) : Pound p (s ++ r) := by
  refine ⟨h.1, fun hp => h.2 ?_⟩
  refine List.prefix_of_prefix_length_le hp (List.prefix_append s r) ?_
  rcases h.1 with e | e <;> rw [e] <;> simp <;> omega

theorem space_boundary (c : UInt8) (h : isWhitespace c = true) : c.toNat < 0x80 ∧ ¬ Letter c ∧ ¬ DecDigit c ∧ c ∉ b!"_." := by
  unfold Letter DecDigit
  revert h
  revert c
  apply forall_byte
  decide +kernel

theorem blanks_boundary {v r : Bytes} (h : ∀ c ∈ v, Space c) (hr : Boundary r) : Boundary (v ++ r) := by
  cases v with
  | nil => exact hr
  | cons c v =>
    intro d hd
    cases hd
    exact space_boundary c ((space_iff c).2 (h c (by simp)))

theorem include_found {p w v t b : Bytes} (h : Pound p (w ++ b!"include")) (hw : Blanks w) (hv : Blanks v)
    (ht : ∀ c ∈ t, c ≠ c!">" ∧ InLine c) :
    Found cpp opts true (p ++ w ++ b!"include" ++ v ++ b!"<" ++ t ++ b!">")
      ([⟨0, p.length, .name_macro_delim⟩, ⟨p.length + w.length, 7, .name_macro⟩] ++
        parts (p.length + w.length + 7 + v.length) [(b!"<", .string_delim), (t, .string), (b!">", .string_delim)]) b true := by
  have e : p ++ w ++ b!"include" ++ v ++ b!"<" ++ t ++ b!">" ++ b = p ++ w ++ b!"include" ++ (v ++ (b!"<" ++ (t ++ (b!">" ++ b)))) := by
    simp
  rw [← partsEmit_token, show ([⟨0, p.length, .name_macro_delim⟩, ⟨p.length + w.length, 7, .name_macro⟩] : List Token) =
    ([⟨0, p.length, .name_macro_delim, .normal⟩, ⟨p.length + w.length, 7, .name_macro, .normal⟩] : List Emit).map Emit.token from rfl,
    ← List.map_append]
  refine found_of fun env i out _ hi => ?_
  rw [e] at hi ⊢
  refine wp_directive (pound_append h (by simp)) hw
    (include_ident (blanks_boundary (fun c hc => (hv c hc).1) (by simp [Boundary, Letter, DecDigit]))) hi ?_
  have h7 : Ascii.length_if (v ++ (b!"<" ++ (t ++ (b!">" ++ b)))) isWhitespace = v.length :=
    blanks_longest hv (by simp [Space])
  have h8 : (t ++ (b!">" ++ b)).findIdx? (fun c => c = c!">" || c = 0x0D || c = 0x0A) = some t.length := by
    rw [List.findIdx?_eq_some_iff_getElem]
    refine ⟨by simp, by simp, fun j hj => ?_⟩
    rw [List.getElem_append_left hj]
    have := ht _ (List.getElem_mem hj)
    unfold InLine at this
    simp [this]
  rw [if_pos rfl]
  unfold highlightHeader
  rw [wp_bind, wp_bind, wp_rem]
  simp only [h7]
  rw [wp_bind, wp_advance_iff (by simp), wp_bind, wp_rem]
  have h9 : startsWith (b!"<" ++ (t ++ (b!">" ++ b))) b!"<" = true := by simp [startsWith_cons_cons]
  simp only [HS.adv, List.drop_left, h9, if_true]
  rw [wp_bind, wp_emitAdv_iff (by simp at hi ⊢; omega) (by simp) (by simp), wp_bind, wp_rem]
  simp only [HS.emitted]
  have h10 : (b!"<" ++ (t ++ (b!">" ++ b))).drop 1 = t ++ (b!">" ++ b) := rfl
  simp only [h10, h8]
  rw [wp_bind, wp_emitAdvIf_iff (by simp at hi ⊢; omega) (by simp)]
  simp
  rw [wp_emitAdv_iff (by simp at hi ⊢; omega) (by simp) (by simp)]
  simp [HS.emitted, Emit.moved, partsEmit, optEmit]
  by_cases ht0 : t = [] <;> simp [ht0, Emit.moved, Nat.add_assoc, Nat.add_comm, Nat.add_left_comm]

theorem includeOther_found {p w v b : Bytes} (h : Pound p (w ++ b!"include")) (hw : Blanks w) (hv : v ≠ [])
    (h' : Longest Space (v ++ b) v.length) (hb : b.head? ≠ some c!"<") :
    Found cpp opts true (p ++ w ++ b!"include" ++ v)
      [⟨0, p.length, .name_macro_delim⟩, ⟨p.length + w.length, 7, .name_macro⟩] b true := by
  have e : p ++ w ++ b!"include" ++ v ++ b = p ++ w ++ b!"include" ++ (v ++ b) := by simp
  refine found_of (es := [⟨0, p.length, .name_macro_delim, .normal⟩, ⟨p.length + w.length, 7, .name_macro, .normal⟩])
    fun env i out _ hi => ?_
  rw [e] at hi ⊢
  have hs : ∀ c ∈ v, Space c := by simpa using h'.1
  have hB : Boundary (v ++ b) := by
    obtain ⟨c, v, rfl⟩ := List.exists_cons_of_ne_nil hv
    intro d hd
    cases hd
    exact space_boundary c ((space_iff c).2 (hs c (by simp)))
  refine wp_directive (pound_append h (by simp)) hw (include_ident hB) hi ?_
  have h7 : Ascii.length_if (v ++ b) isWhitespace = v.length := length_if_eq (by simpa only [space_iff] using h') (by simp)
  rw [if_pos rfl]
  unfold highlightHeader
  rw [wp_bind, wp_bind, wp_rem]
  simp only [h7]
  rw [wp_bind, wp_advance_iff (by simp), wp_bind, wp_rem]
  have h9 : startsWith b b!"<" = false := by
    cases b with
    | nil => rfl
    | cons c b => exact startsWith_one_false (by simpa using hb)
  simp only [HS.adv, List.drop_left, h9]
  simp [Emit.moved, Nat.add_assoc, Nat.add_comm, Nat.add_left_comm]

/-! ## Literals -/

theorem encoding_ident {p : Bytes} (hp : p ∈ b!"operator" :: (encodings ++ encodings.map (· ++ b!"R"))) {c : UInt8}
    (hc : c = c!"\"" ∨ c = c!"'") (r : Bytes) : matchIdentifier (p ++ (c :: r)) = p.length := by
  by_cases h0 : p = []
  · subst h0
    rcases hc with rfl | rfl <;> exact matchIdentifier_start (by decide) (by decide +kernel) r
  · refine matchIdentifier_ascii ?_ ?_ ?_
    · simp only [← cppContinue_iff]
      revert p
      decide +kernel
    · simp only [← cppStart_iff]
      have : ∀ p ∈ b!"operator" :: (encodings ++ encodings.map (· ++ b!"R")), p ≠ [] → p.head?.any (fun c => isIdStart c.toNat) = true := by
        decide +kernel
      obtain ⟨c, t, rfl⟩ := List.exists_cons_of_ne_nil h0
      exact ⟨c, t, rfl, by simpa using this _ hp h0⟩
    · rcases hc with rfl | rfl <;> simp [Boundary, Letter, DecDigit]

theorem begins_encoding {p : Bytes} (hp : p ∈ b!"operator" :: (encodings ++ encodings.map (· ++ b!"R"))) {c : UInt8}
    (hc : c = c!"\"" ∨ c = c!"'") (r : Bytes) : Begins cpp x (p ++ (c :: r)) := by
  have : ∀ p ∈ b!"operator" :: (encodings ++ encodings.map (· ++ b!"R")), p = [] ∨ p.head?.any (fun c => !isWhitespace c && c ∉ b!"/#%") = true := by
    decide +kernel
  rcases this p hp with rfl | h
  · rcases hc with rfl | rfl <;> exact begins_of_first (by decide) (by decide)
  · cases p with
    | nil => cases h
    | cons a p =>
      simp only [List.head?_cons, Option.any_some, Bool.and_eq_true, Bool.not_eq_true', decide_eq_true_eq] at h
      exact begins_of_first h.1 h.2

theorem literal_text (p : Bytes) (ty : HT) (q : UInt8) (es : List (Bytes × Bytes)) (t suf b : Bytes) :
    (literal p ty q es t suf).flatMap Prod.fst ++ b = p ++ (q :: ((content es t).flatMap Prod.fst ++ ([q] ++ suf ++ b))) := by
  simp [literal, quoted]

theorem literal_emit (i : Nat) (p : Bytes) (ty : HT) (q : UInt8) (es : List (Bytes × Bytes)) (t suf : Bytes) :
    partsEmit i (literal p ty q es t suf) = optEmit i p ty ++ (⟨i + p.length, 1, .string_delim, .normal⟩ ::
      partsEmit (i + p.length + 1) (content es t ++ [([q], .string_delim), (suf, .string_decor)])) := by
  simp [literal, quoted, partsEmit, optEmit]

theorem literal_length (p : Bytes) (ty : HT) (q : UInt8) (es : List (Bytes × Bytes)) (t suf : Bytes) :
    ((literal p ty q es t suf).flatMap Prod.fst).length =
      p.length + 1 + ((content es t).flatMap Prod.fst).length + 1 + suf.length := by
  have := congrArg List.length (literal_text p ty q es t suf [])
  simp only [List.length_append, List.length_cons, List.append_nil, List.length_nil] at this
  omega

theorem string_found {p : Bytes} {ty : HT} {es : List (Bytes × Bytes)} {t suf b : Bytes}
    (hp : p ∈ encodings ∧ ty = .string_decor ∨ p = b!"operator" ∧ ty = .keyword)
    (h : Inside c!"\"" (b!"\"" ++ suf ++ b) es t) (hs : Suffix cpp opts.strict suf b) :
    Found cpp opts x ((literal p ty c!"\"" es t suf).flatMap Prod.fst) (parts 0 (literal p ty c!"\"" es t suf)) b false := by
  refine found_parts fun env i out ho hi => ?_
  rw [literal_text] at hi ⊢
  rw [literal_emit, literal_length]
  have hp' : p ∈ b!"operator" :: (encodings ++ encodings.map (· ++ b!"R")) := by
    rcases hp with ⟨hp, _⟩ | ⟨rfl, _⟩
    · simp [hp]
    · simp
  have hty : (if p = b!"operator" then HT.keyword else if isStringPrefix p then .string_decor else .error) = ty ∨ p = [] := by
    rcases hp with ⟨hp, rfl⟩ | ⟨rfl, rfl⟩
    · have : ∀ p ∈ encodings, (if p = b!"operator" then HT.keyword else if isStringPrefix p then .string_decor else .error) = .string_decor ∨ p = [] := by
        decide +kernel
      exact this p hp
    · simp
  have hR : endsWith p b!"R" = false := by
    have : ∀ p ∈ b!"operator" :: encodings, endsWith p b!"R" = false := by decide +kernel
    refine this p ?_
    rcases hp with ⟨hp, _⟩ | ⟨rfl, _⟩
    · simp [hp]
    · simp
  refine wp_rest (begins_encoding hp' (.inl rfl) _) rfl (wp_or_true ?_)
  unfold expectStringLiteral
  rw [wp_bind, wp_rem]
  simp only [encoding_ident hp' (.inl rfl), List.take_left]
  rw [if_neg (by simp), wp_bind, wp_emitAdvIf_iff (by simpa using hi) (by simp), wp_bind, wp_rem]
  simp [hR, startsWith_cons_cons]
  rw [wp_emitAdv_iff (by simp at hi ⊢; omega) (by simp) (by simp)]
  simp [HS.emitted]
  refine wp_chars h (.inl rfl) (ho ▸ hs) (by simp at hi ⊢; omega) ?_
  rcases hty with hty | rfl
  · simp [optEmit, Nat.add_assoc]
    by_cases h0 : p = [] <;> simp [h0]
    simpa using hty
  · simp [optEmit, Nat.add_assoc]

theorem character_found {p : Bytes} {es : List (Bytes × Bytes)} {t suf b : Bytes} (hp : p ∈ encodings)
    (h : Inside c!"'" (b!"'" ++ suf ++ b) es t) (hs : Suffix cpp opts.strict suf b) :
    Found cpp opts x ((literal p .string_decor c!"'" es t suf).flatMap Prod.fst) (parts 0 (literal p .string_decor c!"'" es t suf)) b
      false := by
  refine found_parts fun env i out ho hi => ?_
  rw [literal_text] at hi ⊢
  rw [literal_emit, literal_length]
  have hp' : p ∈ b!"operator" :: (encodings ++ encodings.map (· ++ b!"R")) := by simp [hp]
  have hty : (p = b!"u8" ∨ p = b!"u" ∨ p = b!"U" ∨ p = b!"L") ∨ p = [] := by
    simp [encodings] at hp
    grind
  have hm := encoding_ident hp' (.inr rfl) ((content es t).flatMap Prod.fst ++ ([c!"'"] ++ suf ++ b))
  refine wp_rest (begins_encoding hp' (.inr rfl) _) rfl (wp_or_false (no_string (by rw [hm]; simp) rfl) (wp_or_true ?_))
  unfold expectCharacterLiteral
  rw [wp_bind, wp_rem]
  simp only [hm, List.take_left]
  rw [if_neg (by simp), wp_bind, wp_emitAdvIf_iff (by simpa using hi) (by simp), wp_bind, wp_rem]
  simp [startsWith_cons_cons]
  rw [wp_emitAdv_iff (by simp at hi ⊢; omega) (by simp) (by simp)]
  simp [HS.emitted]
  refine wp_chars h (.inr rfl) (ho ▸ hs) (by simp at hi ⊢; omega) ?_
  rcases hty with hty | rfl
  · by_cases h0 : p = [] <;> simp [h0, optEmit, Nat.add_assoc]
    grind
  · simp [optEmit, Nat.add_assoc]

theorem rawLoop_at {d t r : Bytes} (h : UpTo (b!")" ++ d ++ b!"\"") (t ++ (b!")" ++ d ++ b!"\"") ++ r) t.length) :
    rawLoop d 0 (t ++ (b!")" ++ d ++ b!"\"") ++ r) = (t.length, true) := by
  obtain ⟨k, f, h1, h2, h3, h4, h5⟩ := rawLoop_spec d (t ++ (b!")" ++ d ++ b!"\"") ++ r) 0
  have ho : OccursAt (b!")" ++ d ++ b!"\"") (t ++ (b!")" ++ d ++ b!"\"") ++ r) t.length := ⟨t, r, rfl, rfl⟩
  have k1 := h3.1 _ ho
  have k2 : t.length ≤ k := by
    rcases h3.2 with e | e
    · rw [e]; simp
    · exact h.1 _ e
  obtain rfl : k = t.length := by omega
  rw [h1]
  cases f with
  | true => simp
  | false =>
    have := h5 rfl
    simp at this

theorem raw_found {p d t suf b : Bytes} (hp : p ∈ encodings) (hd : ∀ c ∈ d, DChar c)
    (h : UpTo (b!")" ++ d ++ b!"\"") (t ++ (b!")" ++ d ++ b!"\"") ++ suf ++ b) t.length) (hs : Suffix cpp opts.strict suf b) :
    Found cpp opts x ((rawParts p d t suf).flatMap Prod.fst) (parts 0 (rawParts p d t suf)) b false := by
  refine found_parts fun env i out ho hi => ?_
  have e : (rawParts p d t suf).flatMap Prod.fst ++ b =
      p ++ b!"R" ++ (c!"\"" :: (d ++ (c!"(" :: (t ++ (b!")" ++ d ++ b!"\"") ++ (suf ++ b))))) := by simp [rawParts]
  rw [e] at hi ⊢
  have hp' : p ++ b!"R" ∈ b!"operator" :: (encodings ++ encodings.map (· ++ b!"R")) := by simp [hp]
  have hm := fun r => encoding_ident hp' (.inl rfl) r
  have hty : (p ++ b!"R" ≠ b!"operator" ∧ isStringPrefix (p ++ b!"R") = true) ∧ endsWith (p ++ b!"R") b!"R" = true := by
    have : ∀ p ∈ encodings, (p ++ b!"R" ≠ b!"operator" ∧ isStringPrefix (p ++ b!"R") = true) ∧
        endsWith (p ++ b!"R") b!"R" = true := by decide +kernel
    exact this p hp
  have h1 : Ascii.length_if (d ++ (c!"(" :: (t ++ (b!")" ++ d ++ b!"\"") ++ (suf ++ b)))) isDChar = d.length := by
    refine length_if_eq ⟨?_, ?_⟩ (by simp)
    · simp only [List.take_left, dchar_iff]
      exact hd
    · intro c hc
      simp at hc
      subst hc
      decide
  have h2 := rawLoop_at (r := suf ++ b) (by simpa using h)
  refine wp_rest (begins_encoding hp' (.inl rfl) _) rfl (wp_or_true ?_)
  unfold expectStringLiteral
  rw [wp_bind, wp_rem]
  simp only [hm, List.take_left]
  rw [if_neg (by simp), wp_bind, wp_emitAdvIf_iff (by simpa using hi) (by simp), wp_bind, wp_rem]
  simp only [hty.1, hty.2, List.drop_left, if_true, if_false]
  rw [wp_bind]
  refine wp_dassert (by simp [startsWith_cons_cons]) ?_
  unfold consumeRawString
  rw [wp_bind, wp_bind, wp_rem, wp_bind]
  refine wp_dassert (by simp [startsWith_cons_cons]) ?_
  rw [wp_bind, wp_set_iff]
  have h3 : (c!"\"" :: (d ++ (c!"(" :: (t ++ (b!")" ++ d ++ b!"\"") ++ (suf ++ b))))).drop (d.length + 2) =
      t ++ (b!")" ++ d ++ b!"\"") ++ (suf ++ b) := by simp
  have h4 : (c!"\"" :: (d ++ (c!"(" :: (t ++ (b!")" ++ d ++ b!"\"") ++ (suf ++ b)))))[d.length + 1]? = some c!"(" := by simp
  have h5 : (c!"\"" :: (d ++ (c!"(" :: (t ++ (b!")" ++ d ++ b!"\"") ++ (suf ++ b))))).drop 1 =
      d ++ (c!"(" :: (t ++ (b!")" ++ d ++ b!"\"") ++ (suf ++ b))) := rfl
  simp only [h5, h1, h4, List.take_left]
  rw [if_neg (by simp), wp_bind, wp_emitAdv_iff (by simp [HS.withExt] at hi ⊢; omega) (by simp) (by simp [HS.withExt])]
  simp only [h3, h2, HS.emitted, HS.withExt]
  rw [wp_bind, wp_emitAdvIf_iff (by simp at hi ⊢; omega) (by simp)]
  simp only [if_true]
  rw [wp_bind, wp_emitAdv_iff (by simp at hi ⊢; omega) (by simp) (by simp)]
  simp only [HS.emitted]
  have h6 : ((t ++ (b!")" ++ d ++ b!"\"") ++ (suf ++ b)).drop t.length).drop (d.length + 2) = suf ++ b := by simp
  rw [h6]
  refine wp_suffix (w := suf) (b := b) (ho ▸ hs) (by simp at hi ⊢; omega) ?_
  rintro y hy
  obtain rfl : y = false := by rcases hy with h | h <;> exact h
  simp [rawParts, partsEmit, optEmit, Nat.add_assoc, Nat.add_comm, Nat.add_left_comm]

/-! ## Numbers, words and symbols -/

theorem digit_first (c : UInt8) (h : isDigit c = true) : isWhitespace c = false ∧ c ∉ b!"/#%" ∧ c ≠ c!"\"" ∧ c ≠ c!"'" := by
  revert h
  revert c
  apply forall_byte
  decide +kernel

theorem number_found {n : Number} {b : Bytes} (h : n.Valid b) : Found cpp opts x n.text (parts 0 n.parts) b false := by
  refine found_parts fun env i out ho hi => ?_
  obtain ⟨h1, h2⟩ := matchPpNumber_at h
  have key : ∃ c r, n.text ++ b = c :: r ∧ (c = c!"." ∨ isDigit c = true) := by
    have h3 : matchPpNumber (n.text ++ b) ≠ 0 := by rw [h1]; simpa using h2
    obtain ⟨c, r, hc⟩ := List.exists_cons_of_ne_nil h2
    refine ⟨c, r ++ b, by simp [hc], ?_⟩
    rw [hc] at h3
    unfold matchPpNumber at h3
    split at h3
    · rename_i hd
      rw [Bool.and_eq_true] at hd
      obtain ⟨u, hu⟩ := startsWith_iff.1 hd.1
      simp at hu
      exact .inl hu.1
    · split at h3
      · rename_i hd
        exact .inr (by simpa using hd)
      · exact absurd rfl h3
  obtain ⟨c, r, e, hc⟩ := key
  have hf : (isWhitespace c = false ∧ c ∉ b!"/#%" ∧ c ≠ c!"\"" ∧ c ≠ c!"'") ∧ matchIdentifier (c :: r) = 0 := by
    rcases hc with rfl | hc
    · exact ⟨by decide, matchIdentifier_start (by decide) (by decide +kernel) r⟩
    · exact ⟨digit_first c hc, matchIdentifier_digit hc r⟩
  obtain ⟨⟨f1, f2, f3, f4⟩, f5⟩ := hf
  refine wp_rest (by rw [e]; exact begins_of_first f1 f2) rfl (wp_or_false (no_string ?_ rfl) (wp_or_false (no_character ?_ rfl)
    (wp_or_true (wp_number h hi))))
  · rw [e, f5]
    simpa using f3
  · rw [e, f5]
    simpa using f4

theorem start_first (c : UInt8) (h : 0x80 ≤ c.toNat ∨ isAlpha c = true ∨ c = c!"_") :
    c ∉ b!"/#%." ∧ isDigit c = false := by
  revert c
  apply forall_byte
  decide +kernel

theorem word_found {w b : Bytes} {ty : HT} (h : Ident (w ++ b) w.length) (hb : NotFirst b!"\"'" b)
    (ht : wordType cpp opts.strict usualFallback w = ty) : Found cpp opts x w [⟨0, w.length, ty⟩] b false := by
  refine found_of (es := [⟨0, w.length, ty, .normal⟩]) fun env i out ho hi => ?_
  obtain ⟨c, r, e, hn, hc⟩ := Identifier.first h
  have hs := cppStart_byte c hc
  have f1 := not_space_of_start c hs
  obtain ⟨f2, f3⟩ := start_first c hs
  have hm := matchIdentifier_eq h
  have hq : ∀ q ∈ b!"\"'", (w ++ b)[w.length]? ≠ some q := by
    intro q hq hb'
    rw [List.getElem?_append_right (by simp), Nat.sub_self] at hb'
    cases b with
    | nil => cases hb'
    | cons a b =>
      simp at hb'
      subst hb'
      exact notFirst_cons.1 hb hq
  refine wp_rest (by rw [e]; exact begins_of_first f1 (fun hx => f2 (by simp at hx ⊢; grind))) rfl
    (wp_or_false (no_string ?_ rfl) (wp_or_false (no_character ?_ rfl) (wp_or_false (no_number ?_ rfl) (wp_or_true
      (wp_identifier (by rintro rfl; simp at hn) hm hi ?_)))))
  · rw [hm]
    exact hq _ (by decide)
  · rw [hm]
    exact hq _ (by decide)
  · rw [e]
    unfold matchPpNumber
    have : startsWith (c :: r) b!"." = false := startsWith_one_false (by simp at f2 ⊢; grind)
    simp [this, f3]
  · rw [ho, ht]
    simp [Emit.moved]

theorem fallback_eq (w : Bytes) : usualFallback w = if b!"_t" <:+ w then .name_type else .name := by
  unfold usualFallback
  have : endsWith w b!"_t" = true ↔ b!"_t" <:+ w := by
    rw [endsWith_iff]
    exact ⟨fun ⟨u, hu⟩ => ⟨u, hu.symm⟩, fun ⟨u, hu⟩ => ⟨u, hu.symm⟩⟩
  by_cases h : b!"_t" <:+ w
  · simp [h, this.2 h]
  · rw [if_neg h, if_neg (fun hx => h (this.1 hx))]

theorem symbols_first : ∀ cpp, ∀ w ∈ sortedSymbols cpp, w.head?.any (fun c =>
    !isWhitespace c && c ≠ c!"\"" && c ≠ c!"'" && !isDigit c && decide (c.toNat < 0x80) && !isIdStart c.toNat) = true := by
  decide +kernel

theorem symbols_point : ∀ cpp, ∀ w ∈ sortedSymbols cpp, w.head? = some c!"." → (w.drop 1).head?.any isDigit = false := by
  decide +kernel

theorem op_found {w b : Bytes} {ty : HT} {src : Source} {c : UInt8} {r : Bytes} (hc : w ++ b = c :: r)
    (hf : (!isWhitespace c && c ≠ c!"\"" && c ≠ c!"'" && !isDigit c && decide (c.toNat < 0x80) && !isIdStart c.toNat) = true)
    (h : matchOp cpp (w ++ b) = some w) (h' : (w, ty, src) ∈ words) (hw : w ≠ [])
    (comment : ¬ b!"//" <+: w ++ b ∧ ¬ b!"/*" <+: w ++ b)
    (number : c = c!"." → ∀ c, r.head? = some c → ¬ DecDigit c) (pound : w = b!"#" ∨ w = b!"%:" → x = false) :
    Found cpp opts x w [⟨0, w.length, ty⟩] b false := by
  refine found_of (es := [⟨0, w.length, ty, .normal⟩]) fun env i out ho hi => ?_
  simp only [Bool.and_eq_true, Bool.not_eq_true', decide_eq_true_eq] at hf
  obtain ⟨⟨⟨⟨⟨f1, f2⟩, f3⟩, f4⟩, f5⟩, f6⟩ := hf
  have hm : matchIdentifier (w ++ b) = 0 := by
    rw [hc]
    exact matchIdentifier_start f5 f6 r
  have hb : Begins cpp x (w ++ b) := by
    refine ⟨by rw [hc]; exact length_if_cons_neg f1, ?_, ?_, ?_⟩
    · simp [matchLineComment, not_startsWith comment.1]
    · simp [matchBlockComment, not_startsWith comment.2]
    · by_cases hp : w = b!"#" ∨ w = b!"%:"
      · exact .inl (pound hp)
      · refine .inr fun op hop => ?_
        rw [h] at hop
        cases hop
        simpa using hp
  refine wp_rest hb rfl (wp_or_false (no_string ?_ rfl) (wp_or_false (no_character ?_ rfl) (wp_or_false (no_number ?_ rfl)
    (wp_or_false (no_word hm rfl) (wp_or_true ?_)))))
  · rw [hm, hc]
    simpa using f2
  · rw [hm, hc]
    simpa using f3
  · rw [hc]
    unfold matchPpNumber
    by_cases hd : c = c!"."
    · have : (r[0]?.any isDigit) = false := by
        cases r with
        | nil => rfl
        | cons d r =>
          have := number hd d rfl
          rw [← isDigit_iff] at this
          simpa using this
      simp [f4]
      intro _
      simpa using this
    · have : startsWith (c :: r) b!"." = false := startsWith_one_false (by simp [hd])
      simp [this, f4]
  · unfold expectOp
    rw [wp_bind, wp_rem]
    simp only [h]
    rw [wp_bind, wp_get]
    have hx : (!x || (w ≠ b!"#" && w ≠ b!"%:")) = true := by
      by_cases hp : w = b!"#" ∨ w = b!"%:"
      · simp [pound hp]
      · simp at hp
        simp [hp]
    simp only [hx, (byCode_iff w (ty, src)).2 h']
    rw [wp_bind]
    simp
    rw [wp_emitAdv_iff (by simpa using hi) (by cases w <;> simp at hw ⊢) (by simp)]
    simp [HS.emitted, wp_set_iff, HS.withExt, Emit.moved]

theorem symbol_found {w b : Bytes} {ty : HT} {src : Source} (h : LongestIn (symbols cpp) (w ++ b) w.length)
    (h' : (w, ty, src) ∈ words) (less : ¬ LessColons (w ++ b)) (brace : w ≠ b!"%>")
    (comment : ¬ b!"//" <+: w ++ b ∧ ¬ b!"/*" <+: w ++ b)
    (number : w = b!"." → ∀ c, b.head? = some c → ¬ DecDigit c) (pound : w = b!"#" ∨ w = b!"%:" → x = false) :
    Found cpp opts x w [⟨0, w.length, ty⟩] b false := by
  have hl : isLess (w ++ b) = false := by
    rw [Bool.eq_false_iff, ne_eq, isLess_iff]
    exact less
  have h1 : matchOp cpp (w ++ b) = some w := by
    rw [matchOp_eq cpp _ hl, symbol_eq (symbols_sorted cpp) (symbols_tokens cpp) (sortedSymbols_iff cpp) h]
    simp [opOf, brace]
  have hmem : w ∈ sortedSymbols cpp := by
    have := h.1
    rw [List.take_left] at this
    exact (sortedSymbols_iff cpp w).2 this
  have hf := symbols_first cpp w hmem
  cases w with
  | nil => cases hf
  | cons c v =>
    refine op_found (c := c) (r := v ++ b) rfl (by simpa using hf) h1 h' (by simp) comment ?_ pound
    rintro rfl
    have hp := symbols_point cpp _ hmem rfl
    cases v with
    | nil => exact number rfl
    | cons d v =>
      intro c hc
      simp at hc hp
      rw [← isDigit_iff, ← hc, hp]
      simp

theorem less_found {b : Bytes} (h : LessColons (b!"<" ++ b)) : Found cpp opts x b!"<" [⟨0, 1, .symbol_op⟩] b false := by
  refine op_found (c := c!"<") (r := b) rfl (by decide +kernel) ?_ (src := .c_cpp) (by decide +kernel) (by simp) (by simp) (by simp)
    (by simp)
  have hl := (isLess_iff _).2 h
  simp only [isLess, Bool.and_eq_true] at hl
  obtain ⟨u, hu⟩ := startsWith_iff.1 hl.1.1
  have := hl.1.2
  have := hl.2
  rw [hu] at *
  simp_all [matchOp]

theorem flatMap_ne_nil {ps qs : List (Bytes × HT)} {w : Bytes} {ty : HT} (h : w ≠ []) :
    (ps ++ (w, ty) :: qs).flatMap Prod.fst ≠ [] := by
  simp [h]

/-- Texts that are sequences of the lexical elements of C or C++ get exactly the tokens of the elements. -/
theorem exact_for (cpp : Bool) : ExactIn (highlightFor cpp) (fun o => Element cpp o.strict) true := by
  refine exactIn_of_step (R := fun u x => u = x) (fun _ => rfl) ?_ rfl
  rintro opts u a ts b v x h rfl
  suffices hf : a ≠ [] ∧ Found cpp opts u a ts b v by
    obtain ⟨h1, es, h2, h3⟩ := hf
    exact ⟨h1, es, _, rfl, h2, h3⟩
  cases h with
  | space h h' => exact ⟨h, space_found h h'⟩
  | lineComment h => exact ⟨by simp, lineComment_found h⟩
  | blockComment h => exact ⟨by simp, blockComment_found h⟩
  | directive h hw h' hn =>
    refine ⟨?_, directive_found h hw h' hn⟩
    obtain ⟨rfl | rfl, _⟩ := h <;> simp
  | «include» h hw hv ht => exact ⟨by simp, include_found h hw hv ht⟩
  | includeOther h hw hv h' hb => exact ⟨by simp, includeOther_found h hw hv h' hb⟩
  | string hp h hs => exact ⟨by simp [literal, quoted], string_found (.inl ⟨hp, rfl⟩) h hs⟩
  | operator h hs => exact ⟨by simp [literal, quoted], string_found (.inr ⟨rfl, rfl⟩) h hs⟩
  | character hp h hs => exact ⟨by simp [literal, quoted], character_found hp h hs⟩
  | raw hp hd h hs => exact ⟨by simp [rawParts], raw_found hp hd h hs⟩
  | number h => exact ⟨(matchPpNumber_at h).2, number_found h⟩
  | keyword h h' h'' =>
    refine ⟨?_, word_found h h'' (wordType_keyword h')⟩
    rintro rfl
    obtain ⟨_, _, _, hn, _⟩ := Identifier.first h
    simp at hn
  | name h h' h'' =>
    refine ⟨?_, word_found h h'' (by rw [wordType_other h', fallback_eq])⟩
    rintro rfl
    obtain ⟨_, _, _, hn, _⟩ := Identifier.first h
    simp at hn
  | symbol h h' less brace comment number pound =>
    refine ⟨?_, symbol_found h h' less brace comment number pound⟩
    rintro rfl
    have := (sortedSymbols_iff cpp _).2 h.1
    have := symbols_first cpp _ this
    cases this
  | less h => exact ⟨by simp, less_found h⟩

/-- Texts that are sequences of the lexical elements of C get exactly the tokens of the elements. -/
theorem C58_c : ExactIn highlightC (fun o => Element false o.strict) true := exact_for false

/-- Texts that are sequences of the lexical elements of C++ get exactly the tokens of the elements. -/
theorem C58_cpp : ExactIn highlight (fun o => Element true o.strict) true := exact_for true

theorem simple_first (c : UInt8) (h : c ∈ simple) : c ∉ b!"uUxoN" ∧ ¬ (48 ≤ c.toNat ∧ c.toNat ≤ 55) := by
  revert h
  revert c
  apply forall_byte
  decide +kernel

/-- Simple escape sequences do not depend on what follows. -/
theorem escaped_simple {c : UInt8} (h : c ∈ simple) (b : Bytes) : Escaped [c!"\\", c] b := by
  refine ⟨.simple h, fun m h1 h2 hx => ?_⟩
  obtain ⟨m, rfl⟩ : ∃ k, m = k + 3 := ⟨m - 3, by simp at h1; omega⟩
  obtain ⟨hn, ho⟩ := simple_first c h
  obtain ⟨d, b, rfl⟩ : ∃ d r, b = d :: r := by
    cases b with
    | nil => simp at h2
    | cons d b => exact ⟨d, b, rfl⟩
  simp only [List.cons_append, List.nil_append, List.take_succ_cons] at hx
  generalize List.take m b = v at hx
  generalize ht : c!"\\" :: c :: d :: v = t at hx
  cases hx with
  | simple => simp at ht
  | octal hx =>
    simp at ht
    subst ht
    have := hx.2.2 c (by simp)
    exact ho (by simpa [Octal] using this)
  | long hk _ =>
    simp at hk hn ht
    grind
  | named => simp at ht hn; grind
  | conditional => simp at ht

example : ∃ es, highlight true {} b!"#include <a>\nint f_t=0x1'Fp+3;u8\"a\\n\"_x" = .ok (true, es) ∧
    es.map Emit.token = [⟨0, 1, .name_macro_delim⟩, ⟨1, 7, .name_macro⟩, ⟨9, 1, .string_delim⟩, ⟨10, 1, .string⟩,
      ⟨11, 1, .string_delim⟩, ⟨13, 3, .keyword_type⟩, ⟨17, 3, .name_type⟩, ⟨20, 1, .symbol_op⟩, ⟨21, 2, .number_decor⟩,
      ⟨23, 1, .number⟩, ⟨24, 1, .number_delim⟩, ⟨25, 1, .number⟩, ⟨26, 1, .number_delim⟩, ⟨27, 2, .number⟩,
      ⟨29, 1, .symbol_punc⟩, ⟨30, 2, .string_decor⟩, ⟨32, 1, .string_delim⟩, ⟨33, 1, .string⟩, ⟨34, 2, .string_escape⟩,
      ⟨36, 1, .string_delim⟩, ⟨37, 2, .string_decor⟩] := by
  have no : ∀ w ∈ [b!"_x", b!"f_t"], ∀ ty, ¬ Keyword true false w ty := by
    rintro w hw ty ⟨src, h, _⟩
    have : ∀ e ∈ words, e.1 ∉ [b!"_x", b!"f_t"] := by decide +kernel
    exact this _ h hw
  have symbol : ∀ (w b : Bytes) ty, w = b!";" ∧ b.head? = some c!"u" ∨ w = b!"=" ∧ b.head? = some c!"0" → (w, ty, .c_cpp) ∈ words →
      startsWith (w ++ b) w = true → w ∈ symbols true → (∀ v ∈ symbols true, w.length < v.length → startsWith (w ++ b) v = false) →
      Element true false false w [⟨0, w.length, ty⟩] b false := by
    intro w b ty h1 h2 h3 h4 h5
    refine .symbol (longestIn_of h4 h3 h5) h2 ?_ ?_ ?_ ?_ ?_
    all_goals rcases h1 with ⟨rfl, h1⟩ | ⟨rfl, h1⟩
    all_goals simp [LessColons]
  have hp : ProgramIn (Element true false) false [] [] := .nil
  have hp := hp.before b!"u8\"a\\n\"_x" (.string (x := false) (p := b!"u8") (es := [(b!"a", b!"\\n")]) (t := b!"") (suf := b!"_x")
    (by decide) ⟨⟨⟨b!"a".map UInt8.toNat, by decide, rfl⟩, by simp [InLine]⟩, escaped_simple (by decide) _,
      ⟨⟨[], by decide, rfl⟩, by simp⟩⟩
    (.inr ⟨identifier_of_match (by decide +kernel) (by decide), no _ (by decide)⟩))
  have hp := hp.before b!";" (symbol _ _ .symbol_punc (by decide) (by decide +kernel) (by decide +kernel) (by decide +kernel)
    (by decide +kernel))
  have hp := hp.before b!"0x1'Fp+3" (.number (x := false) (n := { pre := b!"0x", int := [b!"1", b!"F"], exp := b!"p", digits := b!"+3" })
    ⟨by decide, by simp, by simp [Digits, Number.base, Number.Hex]; decide, by simp, by simp, by simp,
      .inr ⟨by simp [Number.Binary], by simp [Number.Hex], b!"+", b!"3", rfl, by decide, by simp [Digits]; decide⟩, by simp, ⟨by simp, by simp,
      fun c p r h h' => (noFirst_ascii (a := c!";") (by decide)).2 (by rw [← cppContinue_iff]; decide +kernel) c p r h h'⟩, by simp [Number.text, Number.parts, Cpp.groups, ExponentLetter]⟩)
  have hp := hp.before b!"=" (symbol _ _ .symbol_op (by decide) (by decide +kernel) (by decide +kernel) (by decide +kernel)
    (by decide +kernel))
  have hp := hp.before b!"f_t" (.name (x := false) (identifier_of_match (by decide +kernel) (by decide)) (no _ (by decide))
    (by simp [NotFirst]))
  have hp := hp.before b!" " (.space (x := false) (by decide) (longest_of space_iff (by decide +kernel)))
  have hp := hp.before b!"int" (.keyword (x := true) (ty := .keyword_type) (identifier_of_match (by decide +kernel) (by decide))
    ⟨.c_cpp, by decide +kernel, by simp [Allowed]⟩ (by simp [NotFirst]))
  have hp := hp.before b!"\n" (.space (x := true) (by decide) (longest_of space_iff (by decide +kernel)))
  have hp := hp.before b!"#include <a>" (.include (p := b!"#") (w := b!"") (v := b!" ") (t := b!"a") (by simp [Pound]) (by simp [Blanks])
    (by simp [Blanks, InLine, Space]) (by simp [InLine]))
  exact C58_cpp.of_program ⟨_, hp, rfl⟩ _

end Ulight.Cpp
