import Verif.Hl.ProgramStep
import Verif.Props.Written.Kotlin

/-!
# C58 for Kotlin: elements that open and close nothing
-/

namespace Ulight.Kotlin

open Spec Spec.Kotlin

variable {env : HEnv} {rec : HM Unit Unit}

/-! ## Tokens outside of literals -/

/-- The text `a` before `b` is one token of the loop. -/
def Gives (m : HM Unit α) (a : Bytes) (es : List Emit) (b : Bytes) (r : α) : Prop :=
  ∀ (env : HEnv) i out, i + (a ++ b).length = env.src.length →
    wp m (fun x s => x = r ∧ s = ⟨b, i + a.length, out ++ es.map (Emit.moved i), ()⟩) env ⟨a ++ b, i, out, ()⟩

theorem gives_parts {m : HM Unit α} {a b : Bytes} {ps : List (Bytes × HT)} {r : α}
    (h : ∀ (env : HEnv) i out, i + (a ++ b).length = env.src.length →
      wp m (fun x s => x = r ∧ s = ⟨b, i + a.length, out ++ partsEmit i ps, ()⟩) env ⟨a ++ b, i, out, ()⟩) :
    Gives m a (partsEmit 0 ps) b r := by
  intro env i out hi
  rw [partsEmit_moved]
  exact h env i out hi

theorem gives_one {m : HM Unit α} {a b : Bytes} {n : Nat} {ty : HT} {mode : Mode} {r : α}
    (h : ∀ (env : HEnv) i out, i + (a ++ b).length = env.src.length →
      wp m (fun x s => x = r ∧ s = ⟨b, i + a.length, out ++ [⟨i, n, ty, mode⟩], ()⟩) env ⟨a ++ b, i, out, ()⟩) :
    Gives m a [⟨0, n, ty, mode⟩] b r := by
  intro env i out hi
  simpa [Emit.moved] using h env i out hi

theorem wp_nospace {c : UInt8} {r : Bytes} {i : Nat} {out : List Emit} {Q : Unit → HS Unit → Prop}
    (h0 : Python.isWhitespace c = false) (hQ : Q () ⟨c :: r, i, out, ()⟩) :
    wp consumeWhitespace Q env ⟨c :: r, i, out, ()⟩ := by
  unfold consumeWhitespace
  rw [wp_bind, wp_rem, length_if_cons_neg h0, wp_advance_iff (by simp)]
  exact hQ

theorem gives_step {c : UInt8} {r a b : Bytes} {es : List Emit} {string : Bool} {level : Nat} (e : a ++ b = c :: r)
    (h : Python.isWhitespace c = false ∧ c ∉ b!"{}") (h' : Gives (expectToken rec) a es b true) :
    Gives (tokensStep rec string level) a es b (.inl level) := by
  intro env i out hi
  obtain ⟨h0, h1⟩ := h
  simp at h1
  unfold tokensStep
  rw [wp_bind, e]
  refine wp_nospace h0 ?_
  rw [wp_bind, wp_rem]
  simp only [h1, if_false]
  rw [wp_bind, ← e]
  refine wp_mono (h' env i out hi) ?_
  rintro _ _ ⟨rfl, rfl⟩
  exact (wp_of_ok rfl).2 ⟨rfl, rfl⟩

theorem gives_this {m m' : HM Unit Bool} {a b : Bytes} {es : List Emit} (h : Gives m a es b true) :
    Gives (HM.or m m') a es b true := fun env i out hi => wp_this (h env i out hi)

/-- Nothing is found here. -/
def Fails (m : HM Unit Bool) (s : Bytes) : Prop := ∀ (env : HEnv) i out, m env ⟨s, i, out, ()⟩ = .ok (false, ⟨s, i, out, ()⟩)

theorem gives_else {m m' : HM Unit Bool} {a b : Bytes} {es : List Emit} (h : Fails m (a ++ b)) (h' : Gives m' a es b true) :
    Gives (HM.or m m') a es b true := fun env i out hi => wp_else (h env i out) (h' env i out hi)

theorem line_fails {s : Bytes} (h : startsWith s b!"//" = false) : Fails expectLineComment s := by
  intro env i out
  have : Js.matchLineComment s = 0 := by simp [Js.matchLineComment, h]
  show (if Js.matchLineComment s ≠ 0 then _ else pure false : HM Unit Bool) env _ = _
  rw [if_neg (by simp [this])]
  rfl

theorem block_fails {s : Bytes} (h : startsWith s b!"/*" = false) : Fails expectBlockComment s := by
  intro env i out
  have : Js.matchBlockComment s = ⟨0, false⟩ := by simp [Js.matchBlockComment, h]
  show (if (Js.matchBlockComment s).length = 0 then pure false else _ : HM Unit Bool) env _ = _
  rw [if_pos (by simp [this])]
  rfl

theorem literal_fails {s : Bytes} (h : NotFirst b!"'\"" s) : Fails (expectStringOrCharacter rec) s := by
  intro env i out
  have h1 : terminator s = [] := by
    unfold terminator
    cases s with
    | nil => rfl
    | cons c s =>
      rw [notFirst_cons] at h
      simp at h
      simp [startsWith_cons_cons, Ne.symm h.1, Ne.symm h.2]
  show (if terminator s = [] then pure false else _ : HM Unit Bool) env _ = _
  rw [if_pos h1]
  rfl

theorem number_fails {s : Bytes} (h : matchNumber s = {}) : Fails expectNumber s := by
  intro env i out
  show (if (matchNumber s).length = 0 then pure false else _ : HM Unit Bool) env _ = _
  rw [if_pos (by rw [h])]
  rfl

theorem annotation_fails {s : Bytes} (h : startsWith s b!"@" = true → startsWith (s.drop 1) b!"[" = false ∧
    Cpp.matchIdentifier (s.drop 1) = 0) : Fails expectAnnotation s := by
  intro env i out
  show (if (!startsWith s b!"@") = true then pure false else if startsWith (s.drop 1) b!"[" = true then _ else
    if Cpp.matchIdentifier (s.drop 1) = 0 then pure false else _ : HM Unit Bool) env _ = _
  by_cases h0 : startsWith s b!"@" = true
  · obtain ⟨h1, h2⟩ := h h0
    rw [if_neg (by simp [h0]), if_neg (by rw [h1]; simp), if_pos h2]
    rfl
  · rw [if_pos (by simpa using h0)]
    rfl

theorem symbol_fails {s : Bytes} (h : NoSymbol s) : Fails expectSymbol s := by
  intro env i out
  have h1 : matchSymbol s = none := by
    rw [matchSymbol_eq, List.find?_eq_none]
    intro p hp
    rw [not_startsWith (h p ((sortedSymbols_iff p).1 (List.mem_reverse.1 hp)))]
    simp
  show (match matchSymbol s with | some w => _ | none => pure false : HM Unit Bool) env _ = _
  simp only [h1]
  rfl

theorem backtick_fails {s : Bytes} (h : NotFirst b!"`" s) : Fails expectBacktickIdentifier s := by
  intro env i out
  have : startsWith s b!"`" = false := by
    cases s with
    | nil => rfl
    | cons c s =>
      rw [notFirst_cons] at h
      simp at h
      simp [startsWith_cons_cons, Ne.symm h]
  show (if (!startsWith s b!"`") = true then pure false else _ : HM Unit Bool) env _ = _
  rw [if_pos (by simp [this])]
  rfl

theorem no_number {c : UInt8} {t : Bytes} (h : isDigitBase c 10 = false ∧ c ≠ c!"0" ∧ c ≠ c!"_")
    (hc : c = c!"." → t.head?.any isDigit = false) : matchNumber (c :: t) = {} := by
  unfold matchNumber
  rw [matchCommonNumber_none' (by simp [numberOptions]) (by simp [numberOptions])
    (by simp [numberOptions, startsWith_cons_cons, Ne.symm h.2.1]) h.1 h.2.1 hc h.2.2]
  rfl

/-- No comment, literal or number begins here. -/
def Other (s : Bytes) : Prop :=
  startsWith s b!"//" = false ∧ startsWith s b!"/*" = false ∧ NotFirst b!"'\"" s ∧ matchNumber s = {}

theorem gives_other {a b : Bytes} {es : List Emit} (h : Other (a ++ b))
    (h' : Gives (HM.or expectAnnotation (HM.or expectSymbol (HM.or expectBacktickIdentifier expectIdentifier))) a es b true) :
    Gives (expectToken rec) a es b true :=
  gives_else (line_fails h.1) (gives_else (block_fails h.2.1) (gives_else (literal_fails h.2.2.1) (gives_else (number_fails h.2.2.2) h')))

theorem line_gives {t b : Bytes} (h : Js.Line (t ++ b) t.length) :
    Gives expectLineComment (b!"//" ++ t) (partsEmit 0 [(b!"//", .comment_delim), (t, .comment)]) b true := by
  refine gives_parts fun env i out hi => ?_
  have hm := Js.matchLineComment_eq h
  unfold expectLineComment
  rw [wp_bind, wp_rem, List.append_assoc, hm]
  simp only [show (t.length + 2 ≠ 0) = True by simp, if_true, Nat.add_sub_cancel]
  rw [wp_bind, wp_emit (by rfl) (by simp) (by simpa using hi), wp_bind, wp_emitNonempty rfl (by simp at hi ⊢; omega)]
  refine (wp_of_ok rfl).2 ⟨rfl, ?_⟩
  simp [partsEmit, optEmit]
  omega

theorem block_gives {t b : Bytes} (h : UpTo b!"*/" (t ++ b!"*/" ++ b) t.length) :
    Gives expectBlockComment (b!"/*" ++ t ++ b!"*/")
      (partsEmit 0 [(b!"/*", .comment_delim), (t, .comment), (b!"*/", .comment_delim)]) b true := by
  refine gives_parts fun env i out hi => ?_
  have hm := Cpp.matchBlockComment_at h
  rw [← Js.matchBlockComment_eq] at hm
  unfold expectBlockComment
  rw [wp_bind, wp_rem, hm]
  dsimp only
  rw [if_neg (by simp), wp_bind, Cpp.wp_highlightBlockComment_iff hi (by simp)]
  refine (wp_of_ok rfl).2 ⟨rfl, ?_⟩
  have el : t.length + 4 = (b!"/*" ++ t ++ b!"*/").length := by simp
  rw [el, List.drop_left]
  simp [partsEmit, optEmit]

theorem open_block_gives {t : Bytes} (h : ∀ k, ¬ OccursAt b!"*/" t k) :
    Gives expectBlockComment (b!"/*" ++ t) (partsEmit 0 [(b!"/*", .comment_delim), (t, .comment)]) [] true := by
  refine gives_parts fun env i out hi => ?_
  have hm : Js.matchBlockComment (b!"/*" ++ t ++ []) = ⟨t.length + 2, false⟩ := by
    rw [Js.matchBlockComment_eq, List.append_nil]
    unfold Cpp.matchBlockComment
    have : findSub b!"*/" t = none := by
      have key := findSub_spec b!"*/" t
      cases hf : findSub b!"*/" t with
      | none => rfl
      | some k =>
        rw [hf] at key
        exact absurd key.1 (h k)
    simp [this, startsWith]
  unfold expectBlockComment
  rw [wp_bind, wp_rem, hm]
  dsimp only
  rw [if_neg (by simp), wp_bind]
  unfold Cpp.highlightBlockComment
  rw [wp_bind, wp_index, wp_bind, wp_emit_iff (by omega) (by simp at hi ⊢; omega), wp_bind]
  simp only [Bool.false_eq_true, if_false, Nat.sub_zero, Nat.add_sub_cancel]
  rw [wp_emitIf_iff (by simp at hi ⊢; omega), wp_bind, Cpp.emitWhen, if_neg (by simp), wp_pure, wp_advance_iff (by simp)]
  refine (wp_pure _).2 ⟨rfl, ?_⟩
  simp [partsEmit, optEmit, HS.adv, Nat.add_assoc]

/-- What is known about a number. -/
theorem number_at {n : Written} {R : Radix} {b : Bytes} (hR : R ∈ radixes) (hn : n.In R) (hb : Boundary b) :
    matchNumber (n.text ++ b) = n.result ∧ Separated n R.separated ∧ n.text.length ≠ 0 ∧
      ∃ c t, n.text ++ b = c :: t ∧ (isDigit c = true ∨ c = c!".") := by
  obtain ⟨hm, hd, hl, c, r, e, hc⟩ := written_facts (o := numberOptions) (by decide +kernel) (.inl rfl) hR hn hb
  refine ⟨?_, hd, hl, c, r, e, hc.imp_right And.right⟩
  unfold matchNumber
  rw [hm]
  have h1 : joined n.frac = [] → n.point = [] := by
    intro h
    rcases hn.frac with h' | ⟨_, _, h', h2, _⟩
    · exact h'.1
    · exact absurd h (joined_ne h' fun g hg => (h2 g hg).1)
  have h2 : n.pre = [] ∨ n.point = [] ∧ n.frac = [] := by
    rcases hn.frac with h' | ⟨h', _⟩
    · exact .inr h'
    · rw [hn.pre]
      simp [radixes] at hR
      rcases hR with rfl | rfl | rfl | rfl | rfl <;> simp at h' ⊢
  have h3 : ((((joined n.frac).length != 0 || n.point.length != 0) && n.pre.length != 0)) = false := by
    rcases h2 with h | ⟨h, h'⟩ <;> simp [*]
  have h4 : ¬ (n.point.length ≠ 0 ∧ (joined n.frac).length = 0 ∧ (n.text ++ b)[n.text.length]? = some c!".") := by
    rintro ⟨h, h', _⟩
    exact h (by simp [h1 (List.length_eq_zero_iff.1 h')])
  simp only [Spec.Written.result, h3, Bool.or_false, h4]
  rfl

theorem number_gives {n : Written} {b : Bytes} {separated : Bool} (hm : matchNumber (n.text ++ b) = n.result)
    (hd : Separated n separated) (hl : n.text.length ≠ 0) :
    Gives expectNumber n.text (partsEmit 0 n.parts) b true := by
  refine gives_parts fun env i out hi => ?_
  unfold expectNumber
  rw [wp_bind, wp_rem, hm]
  dsimp only
  rw [if_neg (by simpa using hl), wp_bind, wp_written_at (.inl rfl) hd hi]
  exact (wp_of_ok rfl).2 ⟨rfl, rfl⟩

theorem range_number {gs : List Bytes} {b : Bytes} (h : gs ≠ []) (h' : ∀ g ∈ gs, Digits 10 g) (h'' : b!".." <+: b) :
    matchNumber (joined gs ++ b) = ({ int := gs } : Written).result ∧ ∃ c t, joined gs ++ b = c :: t ∧ isDigit c = true := by
  obtain ⟨u, rfl⟩ := h''
  have hg : DigitGroups 10 c!"_" gs := by
    refine ⟨h, fun g hg => ⟨(h' g hg).1, fun c hc => ?_⟩, .inl rfl⟩
    have := (h' g hg).2 c hc
    exact ⟨(digits_iff (by simp) c).2 this, no_underscore c (digit_le (by simp) this)⟩
  obtain ⟨g, gt, rfl⟩ := List.exists_cons_of_ne_nil h
  obtain ⟨hg0, hgd⟩ := h' g (by simp)
  obtain ⟨c, t, rfl⟩ := List.exists_cons_of_ne_nil hg0
  have hc : isDigit c = true := isDigit_of_mem (hgd c (by simp))
  obtain ⟨r, e⟩ : ∃ r, joined ((c :: t) :: gt) ++ (b!".." ++ u) = c :: r := ⟨_, by rw [joined_cons]; rfl⟩
  refine ⟨?_, c, _, e, hc⟩
  generalize hgs : (c :: t) :: gt = gs at *
  have hpre : numPrefix numberOptions (joined gs ++ (b!".." ++ u)) = (0, 10, true) := by
    unfold numPrefix
    rw [List.find?_eq_none.2]
    · simp [numberOptions]
    · intro p hp
      have key : ∀ x : UInt8, isAlpha x = true → startsWith (joined gs ++ (b!".." ++ u)) [c!"0", x] = false := by
        intro x hx
        rw [← hgs, joined_cons]
        simp only [List.cons_append, startsWith_cons_cons]
        cases t with
        | cons y t =>
          have hy : isDigit y = true := isDigit_of_mem (hgd y (by simp))
          have : ∀ x y : UInt8, isAlpha x = true → isDigit y = true → x ≠ y := by
            rintro x _ hx hy rfl
            revert hx hy; revert x; 
            have : ∀ x : UInt8, isAlpha x = true → isDigit x = true → False := by apply forall_byte; decide +kernel
            exact this
          simp [startsWith_cons_cons, this x y hx hy]
        | nil =>
          have h1 : x ≠ c!"_" := by rintro rfl; exact absurd hx (by decide)
          have h2 : x ≠ c!"." := by rintro rfl; exact absurd hx (by decide)
          split <;> simp [startsWith_cons_cons, h1, h2]
      simp [numberOptions] at hp
      rcases hp with rfl | rfl | rfl | rfl <;>
        simp only [key c!"b" (by decide), key c!"B" (by decide), key c!"x" (by decide), key c!"X" (by decide),
          Bool.false_eq_true, not_false_eq_true]
  have hi : matchSeparatedDigits (joined gs ++ (b!".." ++ u)) 10 c!"_" = ⟨(joined gs).length, false⟩ :=
    matchSeparatedDigits_eq hg (by intro x hx; cases hx; decide)
  have hj : joined gs ≠ [] := joined_ne h fun g hg' => (h' g hg').1
  have hj' : 0 < (joined gs).length := List.length_pos_iff.2 hj
  have hm : matchCommonNumber (joined gs ++ (b!".." ++ u)) numberOptions =
      { length := (joined gs).length + 1, integer := (joined gs).length, radixPoint := 1 } := by
    unfold matchCommonNumber
    have hs : numSign numberOptions (joined gs ++ (b!".." ++ u)) = 0 := by simp [numSign, numberOptions]
    have hf : numFraction numberOptions 10 0 (joined gs).length true (b!".." ++ u) = some (1, 0, false) := by
      unfold numFraction
      have : matchSeparatedDigits (b!"." ++ u) 10 c!"_" = ⟨0, false⟩ := matchSeparatedDigits_none (by decide) (by decide)
      simp at this
      simp [startsWith_cons_cons, numberOptions, this, hj]
    have he : ∀ o : NumberOptions, o.exponentSeparators = numberOptions.exponentSeparators → numExponent o (b!"." ++ u) = (0, 0, false) := by
      intro o ho
      simp [numExponent, ho, numberOptions, startsWith_cons_cons]
    have hx : numSuffix numberOptions (b!"." ++ u) = 0 := by simp [numSuffix, numberOptions, startsWith_cons_cons]
    have e1 : (joined gs ++ (b!".." ++ u)).drop ((joined gs).length + 1) = b!"." ++ u := by
      rw [List.drop_append]
      simp
    rw [if_neg (by simp [hj]), hs]
    simp only [List.drop_zero, hpre, Nat.zero_add, show numberOptions.digitSeparator = c!"_" from rfl, hi, List.drop_left, hf]
    rw [if_neg (by omega)]
    simp only [Nat.add_zero, e1, he numberOptions rfl, ite_self, hx]
    simp [numberOptions]
  unfold matchNumber
  rw [hm]
  have e2 : (joined gs ++ (b!".." ++ u))[(joined gs).length + 1]? = some c!"." := by
    rw [List.getElem?_append_right (by omega), Nat.add_sub_cancel_left]; rfl
  simp only [e2]
  simp [Spec.Written.result, Spec.Written.text, Spec.Written.parts, joined, groups]

theorem identifier_gives {w b : Bytes} {ty : HT} (h : Identifier CppId.Start CppId.Continue (w ++ b) w.length)
    (ht : (highlightByCode w).getD .name = ty) : Gives expectIdentifier w [⟨0, w.length, ty, .normal⟩] b true := by
  refine gives_one fun env i out hi => ?_
  obtain ⟨_, _, _, h0, _⟩ := Identifier.first h
  unfold expectIdentifier
  rw [wp_bind, wp_rem, Cpp.matchIdentifier_eq h]
  dsimp only
  rw [if_pos (by omega), List.take_left, ht, wp_bind, wp_emit rfl h0 hi]
  exact (wp_of_ok rfl).2 ⟨rfl, rfl⟩

theorem identifier_other {w b : Bytes} (h : Identifier CppId.Start CppId.Continue (w ++ b) w.length)
    (h' : w.head? ≠ some c!"_") : Other (w ++ b) ∧ startsWith (w ++ b) b!"@" = false ∧ NotFirst b!"`" (w ++ b) ∧
      ∃ c r, w ++ b = c :: r ∧ Python.isWhitespace c = false ∧ c ∉ b!"{}" := by
  obtain ⟨c, r, e, h0, hc⟩ := Identifier.first h
  have hu : c ≠ c!"_" := by
    rintro rfl
    cases w with
    | nil => simp at h0
    | cons d w => cases e; exact h' rfl
  have key := name_byte c ⟨cppStart_byte c hc, hu⟩
  simp only [Bool.or_eq_false_iff] at key
  obtain ⟨⟨k1, k2⟩, k8⟩ := key
  simp at k2
  obtain ⟨k2, k3, k4, k5, k6, k7, k9, k10, k11⟩ := k2
  rw [e]
  refine ⟨⟨?_, ?_, ?_, no_number ⟨k8, k5, hu⟩ fun h => absurd h k6⟩, ?_, ?_, c, r, rfl, k1, by simp [k10, k11]⟩
  · simp [startsWith_cons_cons, Ne.symm k2]
  · simp [startsWith_cons_cons, Ne.symm k2]
  · simp [notFirst_cons, k3, k4]
  · simp [startsWith_cons_cons, Ne.symm k7]
  · simp [notFirst_cons, k9]

theorem underscore_word : ∀ w, w.head? = some c!"_" → ∀ ty, (w, ty) ∉ words := by
  have : words.all (fun x => x.1.head? != some c!"_") = true := by decide +kernel
  intro w hw ty h
  have := List.all_eq_true.1 this _ h
  simp [hw] at this

theorem symbols_first : ∀ w ∈ symbols, ∃ c t, w = c :: t ∧
    (Python.isWhitespace c || isDigitBase c 10 || b!"'_0".contains c || (c == c!"@" && w != b!"@")) = false := by
  have : symbols.all (fun w => match w with
    | c :: _ => !(Python.isWhitespace c || isDigitBase c 10 || b!"'_0".contains c || (c == c!"@" && w != b!"@"))
    | [] => false) = true := by decide +kernel
  intro w hw
  have := List.all_eq_true.1 this w hw
  cases w with
  | nil => cases this
  | cons c t => exact ⟨c, t, rfl, by simpa only [Bool.not_eq_true'] using this⟩

theorem symbol_gives {w b : Bytes} {ty : HT} (h : LongestIn symbols (w ++ b) w.length) (h' : (w, ty) ∈ words) (h0 : 0 < w.length) :
    Gives expectSymbol w [⟨0, w.length, ty, .normal⟩] b true := by
  refine gives_one fun env i out hi => ?_
  have hs : matchSymbol (w ++ b) = some w := by
    rw [matchSymbol_eq]
    exact symbol_eq symbols_sorted symbols_tokens sortedSymbols_iff h
  have ht : highlightByCode w = some ty := (C33_kotlin w ty).2 h'
  unfold expectSymbol
  rw [wp_bind, wp_rem]
  simp only [hs, ht]
  rw [wp_bind, wp_emit rfl h0 hi]
  exact (wp_of_ok rfl).2 ⟨rfl, rfl⟩

theorem not_word {s : Bytes} (h : ¬ Word s) : Cpp.matchIdentifier s = 0 := by
  rcases Nat.eq_zero_or_pos (Cpp.matchIdentifier s) with h' | h'
  · exact h'
  · exact absurd ⟨_, Cpp.identifier_of_match rfl h'⟩ h

theorem symbol_other {w b : Bytes} (h : LongestIn symbols (w ++ b) w.length)
    (comment : ¬ b!"//" <+: w ++ b ∧ ¬ b!"/*" <+: w ++ b) (first : NotFirst b!"\"{}" w)
    (number : w = b!"." → ∀ c, b.head? = some c → ¬ DecDigit c)
    (annotation : w = b!"@" → b.head? ≠ some c!"[" ∧ ¬ Word b) :
    Other (w ++ b) ∧ Fails expectAnnotation (w ++ b) ∧
      ∃ c t, w = c :: t ∧ Python.isWhitespace c = false ∧ c ∉ b!"{}" := by
  have hw : w ∈ symbols := by simpa using h.1
  obtain ⟨c, t, rfl, hc⟩ := symbols_first w hw
  simp only [Bool.or_eq_false_iff, and_assoc] at hc
  obtain ⟨k1, k2, k3, k4⟩ := hc
  rw [notFirst_cons] at first
  simp at k3 k4 first
  refine ⟨⟨not_startsWith comment.1, not_startsWith comment.2, ?_, ?_⟩, annotation_fails ?_, c, t, rfl, k1, ?_⟩
  · simp [notFirst_cons, k3, first]
  · refine no_number ⟨k2, k3.2.2, k3.2.1⟩ fun e' => ?_
    subst e'
    cases t with
    | nil =>
      cases b with
      | nil => rfl
      | cons x b =>
        have := number rfl x rfl
        simpa [← isDigit_iff] using this
    | cons x t =>
      have : symbols.all (fun w => match w with | 0x2e :: x :: _ => !isDigit x | _ => true) = true := by decide +kernel
      have := List.all_eq_true.1 this _ hw
      simpa using this
  · intro e
    have ec : c = c!"@" := by
      rw [List.cons_append, startsWith_cons_cons] at e
      simp at e
      exact e.symm
    obtain ⟨-, rfl⟩ := k4 ec
    subst ec
    obtain ⟨h1, h2⟩ := annotation rfl
    refine ⟨not_startsWith ?_, not_word h2⟩
    rintro ⟨u, hu⟩
    exact h1 (by simp at hu; simp [← hu])
  · simp [first]

/-! ### Names in backticks -/

theorem backtick_loop {t r : Bytes} {i m : Nat} {out : List Emit} {Q : Unit → HS Unit → Prop}
    (h : ∀ c ∈ t, InLine c ∧ c ≠ c!"`")
    (hQ : wp (HM.loop m backtickStep (t.length + 1)) Q env ⟨c!"`" :: (t ++ r), i, out, ()⟩) :
    wp (HM.loop (m + t.length) backtickStep 1) Q env ⟨c!"`" :: (t ++ r), i, out, ()⟩ := by
  have key : ∀ k ≤ t.length, wp (HM.loop (m + k) backtickStep (t.length - k + 1)) Q env ⟨c!"`" :: (t ++ r), i, out, ()⟩ := by
    intro k
    induction k with
    | zero => intro _; exact hQ
    | succ k ih =>
      intro hk
      have hx : t.length - (k + 1) < t.length := by omega
      have h1 := h _ (List.getElem_mem hx)
      have e : (c!"`" :: (t ++ r))[t.length - (k + 1) + 1]? = some t[t.length - (k + 1)] := by
        rw [List.getElem?_cons_succ, List.getElem?_append_left hx]
        simp
      refine wp_loop_next ?_
      have := ih (by omega)
      rw [show t.length - k = t.length - (k + 1) + 1 by omega] at this
      unfold backtickStep
      rw [wp_bind, wp_rem]
      simp only [e]
      rw [if_neg h1.2, if_neg (by have := h1.1; simp [InLine] at this; simp [this])]
      exact (wp_of_ok rfl).2 ⟨_, rfl, this⟩
  have := key t.length (Nat.le_refl _)
  rwa [Nat.sub_self] at this

theorem backtick_gives {a b : Bytes} {es : List Emit} {t r : Bytes} (e : a ++ b = c!"`" :: (t ++ r))
    (h : ∀ c ∈ t, InLine c ∧ c ≠ c!"`") (h' : Gives (backtickStep (t.length + 1)) a es b (.inr ())) :
    Gives expectBacktickIdentifier a es b true := by
  intro env i out hi
  unfold expectBacktickIdentifier
  rw [wp_bind, wp_rem, e, if_neg (by simp [startsWith_cons_cons]), wp_bind]
  have hl : (c!"`" :: (t ++ r)).length + 1 = (r.length + 1) + 1 + t.length := by simp; omega
  rw [hl]
  refine backtick_loop h (wp_loop_last ?_)
  rw [← e]
  refine wp_mono (h' env i out hi) ?_
  rintro _ _ ⟨rfl, rfl⟩
  exact ⟨(), rfl, (wp_of_ok rfl).2 ⟨rfl, rfl⟩⟩

theorem backticks_gives {t b : Bytes} (h : t ≠ []) (h' : ∀ c ∈ t, InLine c ∧ c ≠ c!"`") :
    Gives expectBacktickIdentifier (b!"`" ++ t ++ b!"`") (partsEmit 0 [(b!"`", .name_delim), (t, .name), (b!"`", .name_delim)])
      b true := by
  refine backtick_gives (r := b!"`" ++ b) (by simp) h' (gives_parts fun env i out hi => ?_)
  have e0 : b!"`" ++ t ++ b!"`" ++ b = b!"`" ++ (t ++ (b!"`" ++ b)) := by simp
  have e : (b!"`" ++ (t ++ (b!"`" ++ b)))[t.length + 1]? = some c!"`" := by simp
  have hl := List.length_pos_iff.2 h
  have hl' : (b!"`" ++ (t ++ (b!"`" ++ b))).length = t.length + b.length + 2 := by simp; omega
  rw [e0] at hi ⊢
  unfold backtickStep
  rw [wp_bind, wp_rem]
  simp only [e]
  rw [if_pos trivial, if_neg (by omega), wp_bind, wp_emit (by rfl) (by simp) hi, wp_bind,
    wp_emit (a := t) (by simp) (by omega) (by simp at hi ⊢; omega), wp_bind,
    wp_emit (by rfl) (by simp) (by simp at hi ⊢; omega)]
  refine (wp_of_ok rfl).2 ⟨rfl, ?_⟩
  simp [partsEmit, optEmit, h]
  omega

theorem noName_gives {b : Bytes} : Gives expectBacktickIdentifier b!"``" [⟨0, 2, .error, .normal⟩] b true := by
  refine backtick_gives (t := []) (r := b!"`" ++ b) (by simp) (by simp) (gives_one fun env i out hi => ?_)
  show wp (do HM.emitAdv 2 .error; pure (.inr ()) : HM Unit (Nat ⊕ Unit)) _ _ _
  rw [wp_bind, wp_emit (by rfl) (by simp) hi]
  exact (wp_of_ok rfl).2 ⟨rfl, rfl⟩

theorem openName_gives {t b : Bytes} (h : Longest (fun c => InLine c ∧ c ≠ c!"`") (t ++ b) t.length) (h' : b.head? ≠ some c!"`") :
    Gives expectBacktickIdentifier (b!"`" ++ t) [⟨0, 1 + t.length, .error, .normal⟩] b true := by
  refine backtick_gives (t := t) (r := b) (by simp) (fun c hc => h.1 c (by simpa using hc)) (gives_one fun env i out hi => ?_)
  have e : (b!"`" ++ t ++ b)[t.length + 1]? = b.head? := by
    rw [List.head?_eq_getElem?, show t.length + 1 = (b!"`" ++ t).length by simp, List.getElem?_append_right (by omega), Nat.sub_self]
  have hl : (b!"`" ++ t).length = t.length + 1 := by simp
  unfold backtickStep
  rw [wp_bind, wp_rem]
  simp only [e]
  rw [Nat.add_comm 1]
  have h2 := h.2
  simp only [List.getElem?_append_right (Nat.le_refl t.length), Nat.sub_self, ← List.head?_eq_getElem?] at h2
  cases hb : b.head? with
  | none =>
    dsimp only
    rw [wp_bind, wp_emit hl (by omega) hi]
    exact (wp_of_ok rfl).2 ⟨rfl, by rw [hl]⟩
  | some x =>
    have h3 := h2 x hb
    rw [hb] at h'
    have hx : x ≠ c!"`" := by simpa using h'
    dsimp only
    rw [if_neg hx, if_pos, wp_bind, wp_emit hl (by omega) hi]
    · exact (wp_of_ok rfl).2 ⟨rfl, by rw [hl]⟩
    · simp [InLine, hx] at h3
      by_cases hx' : x = 0x0D
      · simp [hx']
      · simp [hx']
        grind

/-! ### Annotations -/

theorem text_cons (p : Bytes) (ty : HT) (ps : List (Bytes × HT)) : text ((p, ty) :: ps) = p ++ text ps := rfl

theorem Dotted.length {b : Bytes} {ps : List (Bytes × HT)} (h : Dotted b ps) : ps.length ≤ (text ps).length := by
  induction h with
  | none h => simp
  | last h h' =>
    obtain ⟨_, _, _, h0, _⟩ := Identifier.first h
    simp [text]
    omega
  | more h h' ih =>
    obtain ⟨_, _, _, h0, _⟩ := Identifier.first h
    simp [text_cons]
    omega

theorem wp_dotted {ps : List (Bytes × HT)} {b : Bytes} (h : Dotted b ps) {i m : Nat} {out : List Emit} (hm : ps.length < m)
    (hi : i + (text ps ++ b).length = env.src.length) :
    wp (HM.loop m dottedStep ()) (fun _ s => s = ⟨b, i + (text ps).length, out ++ partsEmit i ps, ()⟩) env
      ⟨text ps ++ b, i, out, ()⟩ := by
  induction h generalizing i m out with
  | none h =>
    obtain ⟨m, rfl⟩ : ∃ k, m = k + 1 := ⟨m - 1, by omega⟩
    refine wp_loop_last ?_
    unfold dottedStep
    rw [wp_bind, wp_rem]
    simp only [text, List.flatMap_nil, List.nil_append, not_word h, if_true]
    exact (wp_of_ok rfl).2 ⟨(), rfl, by simp [partsEmit]⟩
  | @last w h h' =>
    obtain ⟨m, rfl⟩ : ∃ k, m = k + 1 := ⟨m - 1, by omega⟩
    obtain ⟨_, _, _, h0, _⟩ := Identifier.first h
    have h0' : w ≠ [] := List.length_pos_iff.1 h0
    have h3 : startsWith b b!"." = false := not_startsWith fun ⟨r, e⟩ => h' (by simp [← e])
    refine wp_loop_last ?_
    unfold dottedStep
    have e : text [(w, HT.name_attr)] = w := by simp [text]
    rw [e] at hi ⊢
    rw [wp_bind, wp_rem, Cpp.matchIdentifier_eq h]
    dsimp only
    rw [if_neg (by omega), wp_bind, wp_emit rfl h0 hi, wp_bind, wp_rem, if_pos (by simp [h3])]
    exact (wp_of_ok rfl).2 ⟨(), rfl, by simp [partsEmit, optEmit, h0']⟩
  | @more w ps h h' ih =>
    obtain ⟨m, rfl⟩ : ∃ k, m = k + 1 := ⟨m - 1, by omega⟩
    obtain ⟨_, _, _, h0, _⟩ := Identifier.first h
    have h0' : w ≠ [] := List.length_pos_iff.1 h0
    refine wp_loop_next ?_
    have e : text ((w, .name_attr) :: (b!".", .name_attr_delim) :: ps) ++ b = w ++ (b!"." ++ (text ps ++ b)) := by
      simp [text_cons]
    have el : (text ((w, .name_attr) :: (b!".", .name_attr_delim) :: ps)).length = w.length + 1 + (text ps).length := by
      simp [text_cons]; omega
    rw [List.append_assoc] at h
    rw [e] at hi ⊢
    have key := ih (i := i + w.length + 1) (m := m) (out := out ++ [⟨i, w.length, .name_attr, .normal⟩] ++
      [⟨i + w.length, 1, .name_attr_delim, .normal⟩]) (by simp at hm; omega) (by simp at hi ⊢; omega)
    unfold dottedStep
    rw [wp_bind, wp_rem, Cpp.matchIdentifier_eq h]
    dsimp only
    rw [if_neg (by omega), wp_bind, wp_emit rfl h0 hi, wp_bind, wp_rem, if_neg (by simp [startsWith_cons_cons]), wp_bind,
      wp_emit (by rfl) (by simp) (by simp at hi ⊢; omega)]
    refine (wp_of_ok rfl).2 ⟨(), rfl, ?_⟩
    refine wp_mono key ?_
    rintro _ _ rfl
    rw [el]
    simp [partsEmit, optEmit, h0']
    omega

theorem wp_consumeDotted {ps : List (Bytes × HT)} {b : Bytes} (h : Dotted b ps) {i : Nat} {out : List Emit}
    (hi : i + (text ps ++ b).length = env.src.length) :
    wp consumeDotted (fun _ s => s = ⟨b, i + (text ps).length, out ++ partsEmit i ps, ()⟩) env ⟨text ps ++ b, i, out, ()⟩ := by
  unfold consumeDotted
  rw [wp_bind, wp_rem]
  exact wp_dotted h (by have := Dotted.length h; simp; omega) hi

theorem Dotted.word {ps : List (Bytes × HT)} {b : Bytes} (h : Dotted b ps) (h0 : ps ≠ []) :
    Cpp.matchIdentifier (text ps ++ b) ≠ 0 := by
  cases h with
  | none h => exact absurd rfl h0
  | @last w h h' =>
    obtain ⟨_, _, _, h1, _⟩ := Identifier.first h
    have : text [(w, HT.name_attr)] = w := by simp [text]
    rw [this, Cpp.matchIdentifier_eq h]
    omega
  | @more w ps h h' =>
    obtain ⟨_, _, _, h1, _⟩ := Identifier.first h
    rw [List.append_assoc] at h
    rw [text_cons, text_cons, List.append_assoc, List.append_assoc, Cpp.matchIdentifier_eq h]
    omega

theorem at_start {s : Bytes} : startsWith (b!"@" ++ s) b!"@" = true := by simp [startsWith_cons_cons]

theorem Dotted.start {ps : List (Bytes × HT)} {b : Bytes} (h : Dotted b ps) (h0 : ps ≠ []) :
    startsWith (text ps ++ b) b!"[" = false := by
  have := Dotted.word h h0
  cases hs : text ps ++ b with
  | nil => rfl
  | cons c s =>
    rw [hs] at this
    have h1 := Cpp.identifier_of_match rfl (Nat.pos_of_ne_zero this)
    obtain ⟨c', r, e, _, hc⟩ := Identifier.first h1
    cases e
    have : c ≠ c!"[" := by
      rintro rfl
      exact absurd (cppStart_byte _ hc) (by decide)
    simp [startsWith_cons_cons, Ne.symm this]

/-- An annotation, up to what follows its first name. -/
theorem annotation_wp {ps : List (Bytes × HT)} {b : Bytes} (h : Dotted b ps) (h0 : ps ≠ []) {i : Nat} {out : List Emit}
    {Q : Bool → HS Unit → Prop} (hi : i + (b!"@" ++ text ps ++ b).length = env.src.length)
    (hQ : wp (if startsWith b b!":" then do
      HM.emitAdv 1 .name_attr_delim
      let r ← HM.rem
      if startsWith r b!"[" then do
        consumeMulti
        pure true
      else do
        consumeDotted
        pure true
    else pure true : HM Unit Bool) Q env
      ⟨b, i + (1 + (text ps).length), out ++ partsEmit i ((b!"@", .name_attr_delim) :: ps), ()⟩) :
    wp expectAnnotation Q env ⟨b!"@" ++ text ps ++ b, i, out, ()⟩ := by
  unfold expectAnnotation
  rw [List.append_assoc] at hi ⊢
  rw [wp_bind, wp_rem, if_neg (by simp), show (b!"@" ++ (text ps ++ b)).drop 1 = text ps ++ b from rfl,
    if_neg (by simp [Dotted.start h h0]), if_neg (Dotted.word h h0), wp_bind, wp_emit (by rfl) (by simp) hi, wp_bind]
  refine wp_mono (wp_consumeDotted h (by simp at hi ⊢; omega)) ?_
  rintro _ _ rfl
  rw [wp_bind, wp_rem]
  have e : out ++ [(⟨i, 1, .name_attr_delim, .normal⟩ : Emit)] ++ partsEmit (i + 1) ps =
      out ++ partsEmit i ((b!"@", .name_attr_delim) :: ps) := by simp [partsEmit, optEmit]
  rw [Nat.add_assoc, e]
  exact hQ

theorem annotation_gives {ps : List (Bytes × HT)} {b : Bytes} (h : Dotted b ps) (h0 : ps ≠ []) (h' : b.head? ≠ some c!":") :
    Gives expectAnnotation (b!"@" ++ text ps) (partsEmit 0 ((b!"@", .name_attr_delim) :: ps)) b true := by
  refine gives_parts fun env i out hi => annotation_wp h h0 hi ?_
  have h3 : startsWith b b!":" = false := not_startsWith fun ⟨r, e⟩ => h' (by simp [← e])
  rw [if_neg (by simp [h3])]
  exact (wp_of_ok rfl).2 ⟨rfl, by simp; omega⟩

theorem target_gives {ps qs : List (Bytes × HT)} {b : Bytes} (h : Dotted (b!":" ++ text qs ++ b) ps) (h0 : ps ≠ []) (h' : Dotted b qs)
    (h'' : qs = [] → b.head? ≠ some c!"[") :
    Gives expectAnnotation (b!"@" ++ text ps ++ b!":" ++ text qs)
      (partsEmit 0 ((b!"@", .name_attr_delim) :: ps ++ (b!":", .name_attr_delim) :: qs)) b true := by
  refine gives_parts fun env i out hi => ?_
  have e : b!"@" ++ text ps ++ b!":" ++ text qs ++ b = b!"@" ++ text ps ++ (b!":" ++ text qs ++ b) := by simp
  rw [e] at hi ⊢
  refine annotation_wp h h0 hi ?_
  have hb : startsWith (text qs ++ b) b!"[" = false := by
    by_cases hq : qs = []
    · subst hq
      exact not_startsWith fun ⟨r, e⟩ => h'' rfl (by simp [text] at e; simp [← e])
    · exact Dotted.start h' hq
  rw [List.append_assoc] at hi ⊢
  rw [if_pos (by simp [startsWith_cons_cons]), wp_bind, wp_emit (by rfl) (by simp) (by simp at hi ⊢; omega), wp_bind, wp_rem,
    if_neg (by simp [hb]), wp_bind]
  refine wp_mono (wp_consumeDotted h' (by simp at hi ⊢; omega)) ?_
  rintro _ _ rfl
  refine (wp_of_ok rfl).2 ⟨rfl, ?_⟩
  have e1 : i + (b!"@" ++ (text ps ++ b!":") ++ text qs).length = i + (1 + (text ps).length) + 1 + (text qs).length := by
    simp; omega
  have e2 : i + (((b!"@", HT.name_attr_delim) :: ps).flatMap Prod.fst).length = i + (1 + (text ps).length) := by
    simp [text]; omega
  rw [partsEmit_append, e2]
  simp only [← List.append_assoc] at e1 ⊢
  rw [e1]
  simp [partsEmit, optEmit]

/-! ### Characters that cannot begin anything -/

theorem firstChar_ne {c : Nat} {p rest : Bytes} (h : FirstChar c p rest) : p ≠ [] := by
  rcases h with ⟨hs, rfl⟩ | ⟨_, h, _⟩
  · intro e
    have := congrArg List.length e
    unfold utf8 at this
    split at this <;> (try split at this) <;> (try split at this) <;> simp at this
  · exact h

theorem fails_or {m m' : HM Unit Bool} {s : Bytes} (h : Fails m s) (h' : Fails m' s) : Fails (HM.or m m') s :=
  fun env i out => (or_ok (h env i out)).trans (h' env i out)

theorem identifier_fails {s : Bytes} (h : Cpp.matchIdentifier s = 0) : Fails expectIdentifier s := by
  intro env i out
  show (if Cpp.matchIdentifier s ≠ 0 then _ else pure false : HM Unit Bool) env _ = _
  rw [if_neg (by simp [h])]
  rfl

theorem unknown_gives {c : Nat} {p b : Bytes} {string : Bool} {level : Nat} (h : FirstChar c p b) (id : ¬ CppId.Start c)
    (symbol : NoSymbol (p ++ b))
    (other : ∀ x, p.head? = some x → ¬ DecDigit x ∧ ¬ Space x ∧ x ≠ c!"'" ∧ x ≠ c!"`") :
    Gives (tokensStep rec string level) p [⟨0, p.length, .error, .forced⟩] b (.inl level) := by
  refine gives_one fun env i out hi => ?_
  have hp : p ≠ [] := firstChar_ne h
  have hl := List.length_pos_iff.2 hp
  have hid : Cpp.matchIdentifier (p ++ b) = 0 := by
    refine not_word ?_
    rintro ⟨n, c', p', r', e, h1, h2, _⟩
    exact id ((Utf8.firstChar_unique h h1 e).1 ▸ h2)
  have hd : (Utf8.decodeOrReplacement (p ++ b)).2 = p.length := by
    obtain ⟨p', r', e, hd, h1⟩ := Utf8.firstChar_decode (s := p ++ b) (by simp [hp])
    rw [hd, (Utf8.firstChar_unique h h1 e).2.1]
  have hs : ∀ w ∈ symbols, ¬ w <+: p ++ b := symbol
  obtain ⟨x, t, rfl⟩ := List.exists_cons_of_ne_nil hp
  obtain ⟨o1, o2, o3, o4⟩ := other x rfl
  have h0 : Python.isWhitespace x = false := by
    simpa [← space_iff] using o2
  have hx : ∀ y ∈ b!"{}/@.\"", x ≠ y := by
    rintro y hy rfl
    have : ∀ y ∈ b!"{}/@.\"", [y] ∈ symbols := by decide +kernel
    exact hs _ (this _ hy) ⟨_, rfl⟩
  simp at hx
  obtain ⟨x1, x2, x3, x4, x5, x6⟩ := hx
  have x7 : x ≠ c!"_" := by
    rintro rfl
    exact id ((Utf8.firstChar_unique h (firstChar_ascii (by decide) (t ++ b)) rfl).1 ▸ (cppStart_iff _).1 (by decide +kernel))
  have x10 : isDigit x = false := by
    rw [← Bool.not_eq_true, isDigit_iff]
    exact o1
  have x8 : x ≠ c!"0" := by
    rintro rfl
    exact absurd x10 (by decide)
  have x9 : isDigitBase x 10 = false := by
    have : ∀ x : UInt8, isDigit x = false → isDigitBase x 10 = false := by apply forall_byte; decide +kernel
    exact this x x10
  have hf : Fails (expectToken rec) (x :: (t ++ b)) := by
    refine fails_or (line_fails ?_) (fails_or (block_fails ?_) (fails_or (literal_fails ?_) (fails_or (number_fails ?_)
      (fails_or (annotation_fails ?_) (fails_or (symbol_fails hs) (fails_or (backtick_fails ?_) (identifier_fails hid)))))))
    · simp [startsWith_cons_cons, Ne.symm x3]
    · simp [startsWith_cons_cons, Ne.symm x3]
    · simp [notFirst_cons, o3, x6]
    · exact no_number ⟨x9, x8, x7⟩ fun h => absurd h x5
    · simp [startsWith_cons_cons, Ne.symm x4]
    · simp [notFirst_cons, o4]
  unfold tokensStep
  rw [List.cons_append] at hi hd ⊢
  rw [wp_bind]
  refine wp_nospace h0 ?_
  rw [wp_bind, wp_rem]
  simp only [x1, x2, if_false]
  rw [wp_bind, wp_of_ok (hf env i out)]
  simp only [Bool.false_eq_true, if_false]
  rw [wp_bind, wp_rem, hd, wp_bind, wp_hassert]
  refine ⟨by simp, ?_⟩
  rw [wp_bind, ← List.cons_append, wp_emit rfl hl hi]
  exact (wp_of_ok rfl).2 ⟨rfl, rfl⟩

/-! ### All of them -/

theorem tokens_one' {n : Nat} {ty : HT} {mode : Mode} : [(⟨0, n, ty⟩ : Token)] = [(⟨0, n, ty, mode⟩ : Emit)].map Emit.token := rfl

theorem annotation_other {s r : Bytes} (e : s = c!"@" :: r) : Other s := by
  subst e
  exact ⟨by simp [startsWith_cons_cons], by simp [startsWith_cons_cons], by simp [notFirst_cons],
    no_number (by decide) (by simp)⟩

theorem backtick_other {a b r : Bytes} {es : List Emit} (e : a ++ b = c!"`" :: r)
    (h : Gives expectBacktickIdentifier a es b true) : Gives (expectToken rec) a es b true := by
  have hs : NoSymbol (a ++ b) := by
    intro w hw
    rw [e]
    have : symbols.all (fun w => match w with | c :: _ => c != c!"`" | [] => false) = true := by decide +kernel
    have := List.all_eq_true.1 this w hw
    cases w with
    | nil => cases this
    | cons c w =>
      rintro ⟨u, hu⟩
      cases hu
      cases this
  refine gives_other ?_ (gives_else (annotation_fails ?_) (gives_else (symbol_fails hs) (gives_this h)))
  · rw [e]
    exact ⟨by simp [startsWith_cons_cons], by simp [startsWith_cons_cons], by simp [notFirst_cons],
      no_number (by decide) (by simp)⟩
  · simp [e, startsWith_cons_cons]

theorem code_gives {a b : Bytes} {ts : List Token} (h : Code a ts b) : a ≠ [] ∧ ∃ es : List Emit, ts = es.map Emit.token ∧
    ∀ rec string level, Gives (tokensStep rec string level) a es b (.inl level) := by
  cases h with
  | lineComment h =>
    exact ⟨by simp, _, (partsEmit_token ..).symm, fun rec string level =>
      gives_step (by rfl) (by decide) (gives_this (line_gives h))⟩
  | blockComment h =>
    exact ⟨by simp, _, (partsEmit_token ..).symm, fun rec string level => gives_step (by rfl) (by decide)
      (gives_else (line_fails (by simp [startsWith_cons_cons])) (gives_this (block_gives h)))⟩
  | openComment h =>
    exact ⟨by simp, _, (partsEmit_token ..).symm, fun rec string level => gives_step (by rfl) (by decide)
      (gives_else (line_fails (by simp [startsWith_cons_cons])) (gives_this (open_block_gives h)))⟩
  | number hR h h' =>
    obtain ⟨hm, hd, hl, c, t, e, hc⟩ := number_at hR h h'
    have key : ∀ c : UInt8, (isDigit c = true ∨ c = c!".") →
      Python.isWhitespace c = false ∧ c ∉ b!"{}/'\"" := by apply forall_byte; decide +kernel
    obtain ⟨k1, k2⟩ := key c hc
    simp at k2
    refine ⟨by intro e; simp [e] at hl, _, (partsEmit_token ..).symm, fun rec string level => gives_step e ⟨k1, by simp [k2]⟩
      (gives_else (line_fails ?_) (gives_else (block_fails ?_) (gives_else (literal_fails ?_) (gives_this (number_gives hm hd hl)))))⟩
    · simp [e, startsWith_cons_cons, Ne.symm k2.2.2.1]
    · simp [e, startsWith_cons_cons, Ne.symm k2.2.2.1]
    · simp [e, notFirst_cons, k2]
  | @range gs b h h' h'' =>
    obtain ⟨hm, c, t, e, hc⟩ := range_number h h' h''
    have key : ∀ c : UInt8, isDigit c = true → Python.isWhitespace c = false ∧ c ∉ b!"{}/'\"" := by
      apply forall_byte; decide +kernel
    obtain ⟨k1, k2⟩ := key c hc
    simp at k2
    have et : ({ int := gs } : Written).text = text (groups gs) := by
      simp [Written.text, Written.parts, text, groups]
    have ep : partsEmit 0 ({ int := gs } : Written).parts = partsEmit 0 (groups gs) := by
      simp [Written.parts, partsEmit, partsEmit_append, optEmit, show groups [] = [] from rfl]
    have ej : joined gs = text (groups gs) := rfl
    rw [ej] at hm e
    have hl : text (groups gs) ≠ [] := ej ▸ joined_ne h fun g hg' => (h' g hg').1
    have hg := number_gives (n := { int := gs }) (separated := true) (by rw [et]; exact hm) ⟨fun g hg c hc => digit_le (by simp) ((h' g (by (simp at hg; rcases hg with h | rfl; exact h; cases hc))).2 c hc), by simp⟩ (by simp [et, hl])
    rw [et, ep] at hg
    refine ⟨hl, _, (partsEmit_token ..).symm, fun rec string level => gives_step e ⟨k1, by simp [k2]⟩
      (gives_else (line_fails ?_) (gives_else (block_fails ?_) (gives_else (literal_fails ?_) (gives_this hg))))⟩
    · simp [e, startsWith_cons_cons, Ne.symm k2.2.2.1]
    · simp [e, startsWith_cons_cons, Ne.symm k2.2.2.1]
    · simp [e, notFirst_cons, k2]
  | @keyword _ ty _ h h' symbol =>
    obtain ⟨h1, h2, h3, c, r, e, h4⟩ := identifier_other h fun h0 => underscore_word a h0 ty h'
    have ht : (highlightByCode a).getD .name = ty := by rw [(C33_kotlin a ty).2 h']; rfl
    obtain ⟨_, _, _, h0, _⟩ := Identifier.first h
    exact ⟨List.length_pos_iff.1 h0, _, tokens_one', fun rec string level => gives_step e h4 (gives_other h1
      (gives_else (annotation_fails (by simp [h2])) (gives_else (symbol_fails symbol) (gives_else (backtick_fails h3)
        (identifier_gives h ht)))))⟩
  | name h h' h'' symbol =>
    obtain ⟨h1, h2, h3, c, r, e, h4⟩ := identifier_other h h''
    have ht : (highlightByCode a).getD .name = .name := by
      cases hw : highlightByCode a with
      | none => rfl
      | some ty => exact absurd ((C33_kotlin a ty).1 hw) (h' ty)
    obtain ⟨_, _, _, h0, _⟩ := Identifier.first h
    exact ⟨List.length_pos_iff.1 h0, _, tokens_one', fun rec string level => gives_step e h4 (gives_other h1
      (gives_else (annotation_fails (by simp [h2])) (gives_else (symbol_fails symbol) (gives_else (backtick_fails h3)
        (identifier_gives h ht)))))⟩
  | symbol h h' comment first number annotation =>
    obtain ⟨h1, h2, c, t, rfl, h3⟩ := symbol_other h comment first number annotation
    exact ⟨by simp, _, tokens_one', fun rec string level => gives_step (by rfl) h3 (gives_other h1
      (gives_else h2 (gives_this (symbol_gives h h' (by simp)))))⟩
  | backticks h h' =>
    exact ⟨by simp, _, (partsEmit_token ..).symm, fun rec string level =>
      gives_step (by rfl) (by decide) (backtick_other (by rfl) (backticks_gives h h'))⟩
  | noName =>
    exact ⟨by simp, _, tokens_one', fun rec string level =>
      gives_step (by rfl) (by decide) (backtick_other (by rfl) noName_gives)⟩
  | openName h h' =>
    exact ⟨by simp, _, tokens_one', fun rec string level =>
      gives_step (by rfl) (by decide) (backtick_other (by rfl) (openName_gives h h'))⟩
  | annotation h h0 h' =>
    exact ⟨by simp, _, (partsEmit_token ..).symm, fun rec string level =>
      gives_step (by rfl) (by decide) (gives_other (annotation_other (by rfl)) (gives_this (annotation_gives h h0 h')))⟩
  | target h h0 h' h'' =>
    exact ⟨by simp, _, (partsEmit_token ..).symm, fun rec string level =>
      gives_step (by simp only [List.append_assoc]; rfl) (by decide) (gives_other (annotation_other (by simp only [List.append_assoc]; rfl)) (gives_this (target_gives h h0 h' h'')))⟩
  | unknown h id symbol other =>
    exact ⟨firstChar_ne h, _, tokens_one', fun rec string level => unknown_gives h id symbol other⟩

end Ulight.Kotlin
