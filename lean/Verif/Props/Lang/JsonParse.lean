import Verif.Props.Lang.JsonParseComplete

/-!
# C29: `parse_json`
-/

namespace Ulight.Json

open Spec Spec.JsonParse

section

variable {debug : Bool} {o : JOptions} {src : Bytes} {b : Bool} {es : List Event}

theorem start_good (env : HEnv) : Parser.Good env 0 [] [] :=
  ⟨Nat.zero_le _, by simp, by simp, by simp, rfl⟩

theorem parse_start (env : HEnv) : (⟨env.src, 0, [], {}⟩ : HS Parser.Ext) = Parser.st env 0 [] := by
  simp [Parser.st, posAt]

theorem parse_out (h : parseJson debug o src = .ok (b, es)) :
    ∃ s', Parser.Out o ⟨debug, ⟨false, false⟩, src⟩ 0 [] [] (fun u ms _ => Document true o u ms) b s' ∧
      s'.ext.events = es := by
  have := Parser.run_sound (o := o) (start_good ⟨debug, ⟨false, false⟩, src⟩)
  unfold parseJson at h
  rw [parse_start ⟨debug, ⟨false, false⟩, src⟩] at h
  unfold Parser.tri at this
  cases hm : Parser.run o ⟨debug, ⟨false, false⟩, src⟩ (Parser.st ⟨debug, ⟨false, false⟩, src⟩ 0 []) with
  | ok r =>
    obtain ⟨b', s'⟩ := r
    rw [hm] at this h
    simp only [Except.ok.injEq, Prod.mk.injEq] at h
    obtain ⟨rfl, rfl⟩ := h
    exact ⟨s', this, rfl⟩
  | error f =>
    rw [hm] at h
    cases h

end

/-- C29: for every text, the calls of the visitor can be read as properly nested: every pop matches
the innermost push, literals and escapes are inside strings and nothing else is, and an error is the
last call.  After success, everything is closed and there was no error. -/
theorem C29_balanced (debug : Bool) (o : JOptions) (src : Bytes) (b : Bool) (es : List Event)
    (h : parseJson debug o src = .ok (b, es)) :
    ∃ n, Nesting.read {} (es.map Event.payload) = some n ∧ (b = true → n = {}) := by
  obtain ⟨s', ho, rfl⟩ := parse_out h
  cases b with
  | true =>
    obtain ⟨u, ms, r, es', rfl, _, hd⟩ := ho
    exact ⟨_, hd.good.nest, fun _ => rfl⟩
  | false =>
    obtain ⟨n, hn, _⟩ := ho.nest
    exact ⟨n, hn, by simp⟩

/-- C29: for every text, the line and the column of each position are those of its offset, positions
are in ascending order and within the text, and the characters given to the visitor are those at the
position.  Missing: the characters given for block comments (`C29_block_comment`). -/
theorem C29_positions_partial (debug : Bool) (o : JOptions) (src : Bytes) (b : Bool) (es : List Event)
    (h : parseJson debug o src = .ok (b, es)) :
    (∀ e ∈ es, e.pos = posAt src e.pos.codeUnit ∧ e.pos.codeUnit ≤ src.length) ∧
    es.Pairwise (fun e e' => e.pos.codeUnit ≤ e'.pos.codeUnit) ∧
    ∀ e ∈ es, isBlockComment e.payload = false → ∀ t, textOf e.payload = some t →
      OccursAt t src e.pos.codeUnit := by
  obtain ⟨s', ho, rfl⟩ := parse_out h
  cases b with
  | true =>
    obtain ⟨u, ms, r, es', rfl, _, hd⟩ := ho
    exact ⟨fun e he => ⟨(hd.good.valid e he).1, Nat.le_trans (hd.good.valid e he).2 hd.good.le⟩,
      hd.good.sorted, hd.good.text⟩
  | false => exact ⟨ho.valid, ho.sorted, ho.text⟩

/-- C29: success means that the text begins with a JSON document, and its parts were reported
completely.  Missing: that it is the whole text (`C29_trailing_text`), that form feeds are not
whitespace (`C29_form_feed`), and block comments (`C29_block_comment`). -/
theorem C29_success_partial (debug : Bool) (o : JOptions) (src : Bytes) (es : List Event)
    (h : parseJson debug o src = .ok (true, es)) :
    ∃ u r ms, src = u ++ r ∧ Document true o u ms ∧ noBlocks es = noBlocks (events src 0 ms) := by
  obtain ⟨s', ho, rfl⟩ := parse_out h
  obtain ⟨u, ms, r, es', rfl, hdoc, hd⟩ := ho
  refine ⟨u, r, ms, by simpa using hd.src, hdoc, ?_⟩
  have := hd.ev
  simpa [noBlocks, Parser.st] using this

/-- C29: every JSON document is accepted, with exactly the calls that its parts require.  Missing: the
calls for block comments (`C29_block_comment`), and what `std::strtod` is given (`C29_strtod`). -/
theorem C29_accepts_partial (debug : Bool) (o : JOptions) (src : Bytes) (ms : Marks)
    (h : Document false o src ms) :
    ∃ es, parseJson debug o src = .ok (true, es) ∧ bare es = bare (events src 0 ms) := by
  obtain ⟨b, s', h1, rfl, es', rfl, h2⟩ :=
    Parser.run_complete (env := ⟨debug, ⟨false, false⟩, src⟩) h
  refine ⟨es', ?_, by simpa [bare, noBlocks] using h2⟩
  unfold parseJson
  rw [parse_start ⟨debug, ⟨false, false⟩, src⟩, h1]
  rfl

/-- C29: a failure is reported to the visitor, as the last call.  Missing: where a value is expected,
there may be nothing or a misspelled literal (`C29_unreported`). -/
theorem C29_failure_partial (debug : Bool) (o : JOptions) (src : Bytes) (es : List Event)
    (h : parseJson debug o src = .ok (false, es)) :
    (∃ es' e, es = es' ++ [e] ∧ ∃ err, e.payload = .error err) ∨ Unreported o src := by
  obtain ⟨s', ho, rfl⟩ := parse_out h
  obtain ⟨n, hn, hf | hu⟩ := ho.nest
  · left
    have key : ∀ (ps : List Payload) (m : Nesting), m.failed = false → Nesting.read m ps = some n →
        ∃ qs err, ps = qs ++ [.error err] := by
      intro ps
      induction ps with
      | nil =>
        intro m hm h
        simp [Nesting.read] at h
        subst h
        rw [hm] at hf
        cases hf
      | cons p ps ih =>
        intro m hm h
        simp only [Nesting.read] at h
        cases hx : m.next p with
        | none => rw [hx] at h; cases h
        | some m' =>
          rw [hx] at h
          simp only at h
          cases hmf : m'.failed with
          | false =>
            obtain ⟨qs, err, e⟩ := ih m' hmf h
            exact ⟨p :: qs, err, by rw [e]; rfl⟩
          | true =>
            have hps : ps = [] := by
              cases ps with
              | nil => rfl
              | cons q ps => simp [Nesting.read, Nesting.next, hmf] at h
            subst hps
            cases p with
            | error err => exact ⟨[], err, rfl⟩
            | _ =>
              exfalso
              simp only [Nesting.next, hm, Bool.false_eq_true, if_false] at hx
              split at hx <;> first
                | (next h => cases h; done)
                | (simp at hx; done)
                | (simp at hx; subst hx; simp at hmf; done)
    obtain ⟨qs, err, e⟩ := key _ {} rfl hn
    obtain ⟨l, l', h1, h2, h3⟩ := List.map_eq_append_iff.1 e
    obtain ⟨x, l'', h4, h5, h6⟩ := List.map_eq_cons_iff.1 h3
    simp at h6
    subst h6
    exact ⟨l, x, by rw [h1, h4], err, h5⟩
  · exact Or.inr hu

/-- C29: parsing ends for every text, without undefined behaviour and without failing assertions.
Missing: where a member is expected, there may be something else than a string
(`C29_member_without_name`). -/
theorem C29_total_partial (debug : Bool) (o : JOptions) (src : Bytes)
    (h : ¬ MemberWithoutName o src) : ∃ r, parseJson debug o src = .ok r := by
  have := Parser.run_sound (o := o) (start_good ⟨debug, ⟨false, false⟩, src⟩)
  unfold parseJson
  rw [parse_start ⟨debug, ⟨false, false⟩, src⟩]
  unfold Parser.tri at this
  cases hm : Parser.run o ⟨debug, ⟨false, false⟩, src⟩ (Parser.st ⟨debug, ⟨false, false⟩, src⟩ 0 []) with
  | ok r => exact ⟨_, rfl⟩
  | error f =>
    rw [hm] at this
    exact absurd this.2 h

/-! ## Examples -/

/-- A document with all kinds of parts. -/
example : Document false { allowComments := true, escapes := .parse } b!"[1, {\"a\\n\": true}] // x"
    [(0, .pushArray), (1, .number b!"1"), (4, .pushObject), (5, .pushProperty), (6, .literal b!"a"),
      (7, .escapeValue b!"\\n" 10), (9, .popProperty), (12, .boolean true), (16, .popObject),
      (17, .popArray), (19, .lineComment b!"// x")] := by
  have hn : Spec.Json.Number b!"1" :=
    ⟨[], b!"1", [], [], rfl, by simp, ⟨⟨by simp, by decide⟩, by simp⟩, Or.inl rfl, Or.inl rfl⟩
  have hc : Content .parse b!"a\\n" [(0, .literal b!"a"), (1, .escapeValue b!"\\n" 10)] :=
    .plainEscape (u := b!"a") (v := b!"\\n") (s := []) (by simp)
      (by intro c hc; simp at hc; subst hc; unfold Spec.Json.Plain; decide) (.parse .lineFeed) .nil
  have hs : Ws false true false b!" " [] := .char (Or.inl (by decide)) .nil
  have ho : Text false { allowComments := true, escapes := .parse } .value b!"{\"a\\n\": true}" _ :=
    .object (m := b!"\"a\\n\": true") (.member (n := b!"a\\n") (w3 := b!" ") .nil hc .nil hs .true_ .nil)
  have ha : Text false { allowComments := true, escapes := .parse } .value
      b!"[1, {\"a\\n\": true}]" _ :=
    .array (m := b!"1, {\"a\\n\": true}")
      (.moreElements (a := b!"1") (b := b!" {\"a\\n\": true}")
        (.element .nil (.number (p := .number b!"1") hn (by simp [IsNumber])) .nil) (.element hs ho .nil))
  have hl : Ws false true true b!" // x" _ := .char (Or.inl (by decide)) (.lastLine (body := b!" x") rfl rfl
    (by
      rintro k ⟨t, ht, a, b, h, _⟩
      simp [Js.lineTerminators] at ht
      have hm : ∀ c ∈ t, c ∈ b!" x" := by
        intro c hc
        rw [h]
        simp [hc]
      rcases ht with rfl | rfl | rfl | rfl <;> simp at hm))
  exact .mk .nil ha hl

example : (parseJson true { escapes := .parse } b!"[1, {\"a\\n\": true}]").map
      (fun r => (r.1, r.2.map fun e => (e.pos.codeUnit, e.payload))) =
    .ok (true, [(0, .pushArray), (1, .number b!"1"), (4, .pushObject), (5, .pushProperty),
      (6, .literal b!"a"), (7, .escapeValue b!"\\n" 10), (9, .popProperty), (12, .boolean true),
      (16, .popObject), (17, .popArray)]) := by decide +kernel

/-- A failure that is reported. -/
example : parseJson true {} b!"[1,\n ?" = .ok (false, [⟨⟨0, 0, 0⟩, .pushArray⟩,
    ⟨⟨1, 0, 1⟩, .number b!"1"⟩, ⟨⟨5, 1, 1⟩, .error .illegal_escape⟩]) := by decide +kernel

/-- A text without a member that has no name. -/
example : ¬ MemberWithoutName {} b!"[1]" := by
  rintro ⟨i, ⟨hi, p, w, ms, h1, _, h | ⟨c, hc, hp⟩⟩, _⟩
  · cases h.1
  · have : c ∈ b!"[1]" := by
      have h2 : c ∈ p := List.mem_of_getLast? hp
      exact List.mem_of_mem_take (i := i) (by rw [h1]; simp [h2])
    simp at hc this
    rcases hc with rfl | rfl <;> simp at this

/-! ## Where the code does not do what it should -/

/-- The call for a block comment has the position after the comment and the text that follows it,
instead of those of the comment (json.cpp:520-535). -/
theorem C29_block_comment : parseJson true { allowComments := true } b!"/*a*/ 12" =
    .ok (true, [⟨⟨5, 0, 5⟩, .blockComment b!" 12"⟩, ⟨⟨6, 0, 6⟩, .number b!"12"⟩]) := by
  decide +kernel

/-- Success although the text is not a JSON document: the end of the source is not checked
(json.cpp:441-445). -/
theorem C29_trailing_text : parseJson true {} b!"1 2" = .ok (true, [⟨⟨0, 0, 0⟩, .number b!"1"⟩]) := by
  decide +kernel

/-- A form feed counts as whitespace. -/
theorem C29_form_feed : parseJson true {} [0x0C, c!"1"] =
    .ok (true, [⟨⟨1, 0, 1⟩, .number b!"1"⟩]) := by decide +kernel

/-- `std::strtod` is called with the text from the number on, which is not terminated: for `[0x1F]`, it
reads the hexadecimal number. -/
theorem C29_strtod : (parseJson true { parseNumbers := true } b!"[0x1F]").map (fun r => r.2.map
    Event.payload) = .ok [.pushArray, .numberValue b!"0" b!"0x1F]", .error .illegal_character] := by
  decide +kernel

/-- Failures without a call of `error` (json.cpp:537-592). -/
theorem C29_unreported :
    parseJson true {} [] = .ok (false, []) ∧
    parseJson true {} b!"[1," =
      .ok (false, [⟨⟨0, 0, 0⟩, .pushArray⟩, ⟨⟨1, 0, 1⟩, .number b!"1"⟩]) ∧
    parseJson true {} b!"tru" = .ok (false, []) := by decide +kernel

/-- Where the name of a member is expected, something else leads to a failing assertion in debug builds
and to undefined behaviour in others (json.cpp:594-600). -/
theorem C29_member_without_name :
    parseJson true {} b!"{1}" = .error .assert ∧
    parseJson false {} b!"{1}" = .error .unreachable ∧
    parseJson false {} b!"{\"a\":1,}" = .error .unreachable := by decide +kernel

/-- Comments that are not allowed are not reported as such, and unterminated comments are, although
comments are allowed. -/
theorem C29_comment_errors :
    parseJson true {} b!"/**/1" = .ok (false, [⟨⟨0, 0, 0⟩, .error .illegal_escape⟩]) ∧
    parseJson true { allowComments := true } b!"/*1" =
      .ok (false, [⟨⟨0, 0, 0⟩, .error .comment⟩]) := by decide +kernel

/-- An escaped surrogate is given to the visitor as code units that are not valid UTF-8. -/
theorem C29_surrogate : (parseJson true { escapes := .parseEncode } b!"\"\\uD800\"").map
    (fun r => r.2.map Event.payload) =
    .ok [.pushString, .escapeUnits b!"\\uD800" 0xD800 [0xED, 0xA0, 0x80], .popString] := by
  decide +kernel

end Ulight.Json
