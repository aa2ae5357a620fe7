import Verif.Hl.Program
import Verif.Props.Written.Java

/-!
# C58 for Java
-/

namespace Ulight.Java

open Spec Spec.Java

theorem space_piece {w b : Bytes} (h : w ≠ []) (h' : Longest Space (w ++ b) w.length) : Piece highlight w [] b := by
  have hl : Longest (fun c => isWhitespace c = true) (w ++ b) w.length :=
    ⟨fun c hc => (space_iff c).2 (h'.1 c hc), fun c hc hw => h'.2 c hc ((space_iff c).1 hw)⟩
  by_cases hb : b = []
  · subst hb
    refine piece_of_step (ts := []) h fun debug opts => ?_
    have := (advance_space (x := ()) (debug := debug) (opts := opts) hl).1
    unfold step
    rw [bind_ok]
    refine ⟨_, _, this, ?_⟩
    rw [bind_ok]
    exact ⟨_, _, rfl, rfl⟩
  · refine piece_of_skip_step hb fun debug opts => ?_
    have := advance_space (x := ()) (debug := debug) (opts := opts) hl
    exact bind_left (this.1.trans this.2.symm)

theorem unbraced : escapes.Unbraced := by
  simp [escapes, EscapeForms.Unbraced, Braced]

theorem matchEscape_ends {w b : Bytes} (h : escapes.Ends w b) : matchEscape (w ++ b) = ⟨w.length, false⟩ ∧ w ≠ [] ∧
    w.head? = some c!"\\" := by
  obtain ⟨c, t, e, _⟩ := h.1
  refine ⟨escape_eq (by decide) (matchEscape_facts ?_).1 h, by simp [e], by simp [e]⟩
  simp [e]

theorem string_loop : StringLoop stringStep b!"\"" (NotFirst b!"\"\\\r\n") escapes.Ends where
  plain := by
    intro k env s Q hk hc hQ
    rw [List.drop_eq_getElem_cons hk, notFirst_cons] at hc
    unfold stringStep
    simp at hc
    simp [hk, hc, hQ]
  escape := by
    intro t w r i out ext env Q he hl hQ
    obtain ⟨h1, h2, h3⟩ := matchEscape_ends he
    obtain ⟨c, u, rfl⟩ := List.exists_cons_of_ne_nil h2
    cases h3
    unfold stringStep consumeEscape
    simp
    rw [wp_emitAdvIf_iff hl (by simp)]
    simp at h1
    simp [h1]
    rw [wp_emitAdv_iff (by simp at hl ⊢; omega) (by simp) (by simp)]
    simpa [HS.emitted, optEmit] using hQ
  close := by
    intro t r i out ext env Q hl hQ
    unfold stringStep
    simp
    rw [wp_emitAdvIf_iff hl (by simp)]
    simp
    rw [wp_emitAdv_iff (by simp at hl ⊢; omega) (by simp) (by simp)]
    simpa [HS.emitted, optEmit] using hQ
  nonempty := fun w r h => (matchEscape_ends h).2.1

theorem string_piece {es : List (Bytes × Bytes)} {t b : Bytes}
    (h : StringContent (NotFirst b!"\"\\\r\n") escapes.Ends (b!"\"" ++ b) es t)
    (h' : (content es t).flatMap Prod.fst = [] → ¬ b!"\"" <+: b) :
    Piece highlight ((quoted b!"\"" es t).flatMap Prod.fst) (parts 0 (quoted b!"\"" es t)) b := by
  have e : (quoted b!"\"" es t).flatMap Prod.fst ++ b = c!"\"" :: ((content es t).flatMap Prod.fst ++ (b!"\"" ++ b)) := by
    simp [quoted]
  have h3 : startsWith (c!"\"" :: ((content es t).flatMap Prod.fst ++ (b!"\"" ++ b))) b!"\"\"\"" = false :=
    not_three' (content_first h (by simp [notFirst_cons]) fun w r he => by simp [matchEscape_ends he]) h'
  rw [← partsEmit_token]
  refine piece_of_step (by simp [quoted]) fun debug opts => ok_of_wp ?_
  rw [e]
  have h0 := length_if_cons_neg (c := c!"\"") (t := (content es t).flatMap Prod.fst ++ (b!"\"" ++ b)) (p := isWhitespace) rfl
  have h1 : Js.matchLineComment (c!"\"" :: ((content es t).flatMap Prod.fst ++ (b!"\"" ++ b))) = 0 := by
    simp [Js.matchLineComment, startsWith_cons_cons]
  have h2 : Js.matchBlockComment (c!"\"" :: ((content es t).flatMap Prod.fst ++ (b!"\"" ++ b))) = ⟨0, false⟩ := by
    simp [Js.matchBlockComment, startsWith_cons_cons]
  unfold step consumeWhitespace expectToken HM.or expectLineComment expectBlockComment
    expectStringOrCharacterOrTextBlock expectStringLiteral
  generalize hT : (content es t).flatMap Prod.fst ++ (b!"\"" ++ b) = T at *
  simp
  rw [h0, wp_advance_iff (by simp)]
  simp [HS.adv, h1, h2, h3, startsWith_cons_cons]
  rw [wp_emitAdv_iff (by simp) (by simp) (by simp)]
  simp [HS.emitted]
  subst hT
  refine wp_string_loop string_loop h (by simp; omega) (by simp; omega) ?_
  simp [quoted, partsEmit, optEmit]
  omega

theorem text_loop : StringLoop textStep b!"\"\"\"" (fun s => NotFirst b!"\\" s ∧ ¬ b!"\"\"\"" <+: s) escapes.Ends where
  plain := by
    intro k env s Q hk hc hQ
    have := not_startsWith hc.2
    rw [List.drop_eq_getElem_cons hk, notFirst_cons] at hc
    unfold textStep
    simp at hc
    simp [hk, hc, hQ, this]
  escape := by
    intro t w r i out ext env Q he hl hQ
    obtain ⟨h1, h2, h3⟩ := matchEscape_ends he
    obtain ⟨c, u, rfl⟩ := List.exists_cons_of_ne_nil h2
    cases h3
    unfold textStep consumeEscape
    simp [startsWith_cons_cons]
    rw [wp_emitAdvIf_iff hl (by simp)]
    simp at h1
    simp [h1]
    rw [wp_emitAdv_iff (by simp at hl ⊢; omega) (by simp) (by simp)]
    simpa [HS.emitted, optEmit] using hQ
  close := by
    intro t r i out ext env Q hl hQ
    unfold textStep
    simp [startsWith_cons_cons]
    rw [wp_emitAdvIf_iff hl (by simp)]
    simp
    rw [wp_emitAdv_iff (by simp at hl ⊢; omega) (by simp) (by simp)]
    simpa [HS.emitted, optEmit] using hQ
  nonempty := fun w r h => (matchEscape_ends h).2.1

theorem text_piece {sp br : Bytes} {es : List (Bytes × Bytes)} {t b : Bytes}
    (h : StringContent (fun s => NotFirst b!"\\" s ∧ ¬ b!"\"\"\"" <+: s) escapes.Ends (b!"\"\"\"" ++ b) es t)
    (hsp : ∀ c ∈ sp, Space c ∧ c ∉ b!"\r\n") (hbr : br ∈ [b!"\n", b!"\r\n"]) :
    Piece highlight (b!"\"\"\"" ++ sp ++ br ++ (content es t).flatMap Prod.fst ++ b!"\"\"\"")
        (⟨0, 3, .string_delim⟩ :: parts (3 + sp.length + br.length) (content es t ++ [(b!"\"\"\"", .string_delim)])) b := by
  have e : b!"\"\"\"" ++ sp ++ br ++ (content es t).flatMap Prod.fst ++ b!"\"\"\"" ++ b =
      c!"\"" :: c!"\"" :: c!"\"" :: (sp ++ (br ++ ((content es t).flatMap Prod.fst ++ (b!"\"\"\"" ++ b)))) := by
    simp
  have ht : (⟨0, 3, .string_delim⟩ :: parts (3 + sp.length + br.length) (content es t ++ [(b!"\"\"\"", .string_delim)])) =
      ((⟨0, 3, .string_delim, .normal⟩ ::
        partsEmit (3 + sp.length + br.length) (content es t ++ [(b!"\"\"\"", .string_delim)])).map Emit.token) := by
    rw [List.map_cons, partsEmit_token]
    rfl
  rw [ht]
  refine piece_of_step (by simp) fun debug opts => ok_of_wp ?_
  rw [e]
  generalize hT : (content es t).flatMap Prod.fst ++ (b!"\"\"\"" ++ b) = T
  have h0 := length_if_cons_neg (c := c!"\"") (t := c!"\"" :: c!"\"" :: (sp ++ (br ++ T))) (p := isWhitespace) rfl
  have h1 : Js.matchLineComment (c!"\"" :: c!"\"" :: c!"\"" :: (sp ++ (br ++ T))) = 0 := by
    simp [Js.matchLineComment, startsWith_cons_cons]
  have h2 : Js.matchBlockComment (c!"\"" :: c!"\"" :: c!"\"" :: (sp ++ (br ++ T))) = ⟨0, false⟩ := by
    simp [Js.matchBlockComment, startsWith_cons_cons]
  have h3 : Ascii.length_if (sp ++ (br ++ T)) (fun c => c ≠ 0x0D && c ≠ 0x0A && isWhitespace c) = sp.length := by
    refine length_if_eq ⟨fun c hc => ?_, fun c hc => ?_⟩ (by simp)
    · have := hsp c (by simpa using hc)
      simp at this
      simp [this.2, (space_iff c).2 this.1]
    · simp at hbr
      rcases hbr with rfl | rfl <;> · simp at hc; simp [← hc]
  simp only [ne_eq, decide_not] at h3
  have h4 : openingLineBreak (br ++ T) = br.length := by
    simp at hbr
    rcases hbr with rfl | rfl <;> simp [openingLineBreak, startsWith_cons_cons]
  unfold step consumeWhitespace expectToken HM.or expectLineComment expectBlockComment
    expectStringOrCharacterOrTextBlock expectTextBlock
  simp
  rw [h0, wp_advance_iff (by simp)]
  simp [HS.adv, h1, h2, startsWith_cons_cons]
  rw [wp_emitAdv_iff (by simp) (by simp) (by simp)]
  simp only [HS.emitted, List.drop_succ_cons, List.drop_zero, h3]
  rw [wp_advance_iff (by simp)]
  simp only [HS.adv, List.drop_left, h4]
  rw [wp_advance_iff (by simp)]
  simp only [HS.adv, List.drop_left, ← hT]
  refine wp_string_loop text_loop h ?_ ?_ ?_
  · simp; omega
  · simp; omega
  · simp [Nat.add_assoc]
    omega

theorem character_piece {w b : Bytes} {ty : HT} (h : (∃ c, w = [c] ∧ c ∉ b!"'\\\r\n" ∧ ty = .string) ∨
      escapes.Ends w (b!"'" ++ b) ∧ ty = .string_escape) :
    Piece highlight (b!"'" ++ w ++ b!"'") (parts 0 [(b!"'", .string_delim), (w, ty), (b!"'", .string_delim)]) b := by
  rw [← partsEmit_token]
  refine piece_of_step (by simp) fun debug opts => ok_of_wp ?_
  have h0 := length_if_cons_neg (c := c!"'") (t := w ++ (c!"'" :: b)) (p := isWhitespace) rfl
  have h1 : Js.matchLineComment (c!"'" :: (w ++ (c!"'" :: b))) = 0 := by
    simp [Js.matchLineComment, startsWith_cons_cons]
  have h2 : Js.matchBlockComment (c!"'" :: (w ++ (c!"'" :: b))) = ⟨0, false⟩ := by
    simp [Js.matchBlockComment, startsWith_cons_cons]
  unfold step consumeWhitespace expectToken HM.or expectLineComment expectBlockComment
    expectStringOrCharacterOrTextBlock expectCharacterLiteral
  simp
  rw [h0, wp_advance_iff (by simp)]
  simp [HS.adv, h1, h2, startsWith_cons_cons]
  rw [wp_emitAdv_iff (by simp) (by simp) (by simp)]
  simp [HS.emitted]
  unfold characterBody
  rcases h with ⟨c, rfl, hc, rfl⟩ | ⟨he, rfl⟩
  · simp at hc
    simp [hc]
    rw [wp_emitAdv_iff (by simp; omega) (by simp) (by simp)]
    simp [HS.emitted, startsWith_cons_cons]
    rw [wp_emitAdv_iff (by simp; omega) (by simp) (by simp)]
    simp [HS.emitted, partsEmit, optEmit]
  · obtain ⟨h1, h2, h3⟩ := matchEscape_ends he
    obtain ⟨c, u, rfl⟩ := List.exists_cons_of_ne_nil h2
    cases h3
    simp at h1
    unfold consumeEscape
    simp [h1]
    rw [wp_emitAdv_iff (by simp; omega) (by simp) (by simp)]
    simp [HS.emitted, startsWith_cons_cons]
    rw [wp_emitAdv_iff (by simp; omega) (by simp) (by simp)]
    simp [HS.emitted, partsEmit, optEmit]
    omega

theorem symbols_first : ∀ w ∈ symbols, ∃ c t, w = c :: t ∧
    (isWhitespace c || isDigitBase c 10 || b!"'_0".contains c || (c == c!"@" && w != b!"@")) = false := by
  have : symbols.all (fun w => match w with
    | c :: _ => !(isWhitespace c || isDigitBase c 10 || b!"'_0".contains c || (c == c!"@" && w != b!"@"))
    | [] => false) = true := by decide +kernel
  intro w hw
  have := List.all_eq_true.1 this w hw
  cases w with
  | nil => cases this
  | cons c t => exact ⟨c, t, rfl, by simpa only [Bool.not_eq_true'] using this⟩

theorem symbol_piece {w : Bytes} {ty : HT} {b : Bytes} (h : LongestIn symbols (w ++ b) w.length) (h' : (w, ty) ∈ words)
    (comment : ¬ b!"//" <+: w ++ b ∧ ¬ b!"/*" <+: w ++ b)
    (quote : w.head? ≠ some c!"\"") (number : w = b!"." → ∀ c, b.head? = some c → ¬ DecDigit c)
    (annotation : w ≠ b!"@") : Piece highlight w [⟨0, w.length, ty⟩] b := by
  have hw : w ∈ symbols := by simpa using h.1
  obtain ⟨c, t, e, hc⟩ := symbols_first w hw
  simp only [Bool.or_eq_false_iff, and_assoc] at hc
  obtain ⟨k1, k2, k3, k4⟩ := hc
  have hs : matchSymbol (w ++ b) = some w := by
    rw [matchSymbol_eq]
    exact symbol_eq symbols_sorted symbols_tokens sortedSymbols_iff h
  have ht : highlightByCode w = some ty := (C33_java w ty).2 h'
  have h4 : matchCommonNumber (w ++ b) numberOptions = {} := by
    rw [e]
    simp at k3
    refine matchCommonNumber_none' nofun nofun (fun p hp => ?_) k2 k3.2.2 (fun e' => ?_) k3.2.1
    · simp [numberOptions] at hp
      rcases hp with rfl | rfl | rfl | rfl <;> simp [startsWith_cons_cons, Ne.symm k3.2.2]
    · subst e'
      cases t with
      | nil =>
        cases b with
        | nil => rfl
        | cons x b =>
          have := number e x rfl
          simpa [← isDigit_iff] using this
      | cons x t =>
        have : symbols.all (fun w => match w with | 0x2e :: x :: _ => !isDigit x | _ => true) = true := by decide +kernel
        have := List.all_eq_true.1 this w hw
        rw [e] at this
        simpa using this
  have h0 : ∀ p : UInt8, ∀ q, c ≠ p → startsWith (w ++ b) (p :: q) = false := by
    intro p q hp
    simp [e, startsWith_cons_cons, Ne.symm hp]
  simp at k3 k4
  have hq : c ≠ c!"\"" := by simpa [e] using quote
  have ha : c ≠ c!"@" := fun h => annotation (k4 h)
  refine piece_of_step (ts := [⟨0, w.length, ty, .normal⟩]) (by simp [e]) fun debug opts => ok_of_wp ?_
  have h1 : Ascii.length_if (w ++ b) isWhitespace = 0 := by rw [e]; exact length_if_cons_neg k1
  have h2 : Js.matchLineComment (w ++ b) = 0 := by simp [Js.matchLineComment, not_startsWith comment.1]
  have h3 : Js.matchBlockComment (w ++ b) = ⟨0, false⟩ := by simp [Js.matchBlockComment, not_startsWith comment.2]
  have h9 : 0 < w.length := by simp [e]
  unfold step consumeWhitespace expectToken HM.or expectLineComment expectBlockComment
    expectStringOrCharacterOrTextBlock expectNumber expectAnnotation expectSymbol
  simp
  rw [h1, wp_advance_iff (by simp)]
  have : w ≠ [] := by simp [e]
  simp [HS.adv, h2, h3, h4, h0 _ _ k3.1, h0 _ _ hq, h0 _ _ ha, hs, ht, this]
  rw [wp_emitAdv_iff (by simp) h9 (by simp)]
  simp [HS.emitted]

theorem dotted_cons (w w' : Bytes) (ws : List Bytes) :
    dotted (w :: w' :: ws) = (w, .name_attr) :: (b!".", .name_attr_delim) :: dotted (w' :: ws) := rfl

theorem wp_dotted {env : HEnv} {b : Bytes} (ws : List Bytes) (h : Qualified ws b) (s : HS Unit) (n : Nat)
    (hs : s.rem = (dotted ws).flatMap Prod.fst ++ b) (hn : ws.length ≤ n)
    (hl : s.idx + s.rem.length = env.src.length) :
    wp (HM.loop n dottedStep ()) (fun _ t => t = ⟨b, s.idx + ((dotted ws).flatMap Prod.fst).length,
      s.out ++ partsEmit s.idx (dotted ws), ()⟩) env s := by
  induction ws generalizing s n with
  | nil => exact h.elim
  | cons w ws ih =>
    obtain ⟨n, rfl⟩ : ∃ m, n = m + 1 := ⟨n - 1, by simp at hn; omega⟩
    cases ws with
    | nil =>
      obtain ⟨h1, h2⟩ := h
      have hi := Cpp.matchIdentifier_eq h1
      obtain ⟨_, _, _, h0, _⟩ := Identifier.first h1
      have h0' : w ≠ [] := fun e => by simp [e] at h0
      have h3 : startsWith b b!"." = false := not_startsWith fun ⟨r, e⟩ => h2 (by simp [← e])
      simp [dotted] at hs
      refine wp_loop_last ?_
      unfold dottedStep
      simp [hs, hi, h0']
      rw [wp_emitAdv_iff hl h0 (by simp [hs])]
      simp [HS.emitted, hs, h3, dotted, partsEmit, optEmit, h0']
    | cons w' ws =>
      obtain ⟨h1, h2⟩ := h
      have hi := Cpp.matchIdentifier_eq h1
      obtain ⟨_, _, _, h0, _⟩ := Identifier.first h1
      have h0' : w ≠ [] := fun e => by simp [e] at h0
      rw [dotted_cons] at hs ⊢
      simp at hs hi
      have := ih h2 ⟨(dotted (w' :: ws)).flatMap Prod.fst ++ b, s.idx + w.length + 1,
        s.out ++ [⟨s.idx, w.length, .name_attr, .normal⟩, ⟨s.idx + w.length, 1, .name_attr_delim, .normal⟩], ()⟩ n rfl
        (by simp at hn ⊢; omega) (by simp [hs] at hl ⊢; omega)
      refine wp_loop_next ?_
      revert this
      generalize HM.loop n dottedStep = m
      intro this
      unfold dottedStep
      simp [hs, hi, h0']
      rw [wp_emitAdv_iff hl h0 (by simp [hs])]
      simp [HS.emitted, hs, startsWith_cons_cons]
      rw [wp_emitAdv_iff (by simp [hs] at hl ⊢; omega) (by simp) (by simp)]
      simp [HS.emitted]
      refine ⟨_, wp_mono this ?_⟩
      rintro _ t rfl
      simp [partsEmit, optEmit, h0']
      omega

theorem Qualified.first {ws : List Bytes} {b : Bytes} (h : Qualified ws b) :
    0 < Cpp.matchIdentifier ((dotted ws).flatMap Prod.fst ++ b) := by
  cases ws with
  | nil => exact h.elim
  | cons w ws =>
    cases ws with
    | nil =>
      obtain ⟨h1, h2⟩ := h
      obtain ⟨_, _, _, h0, _⟩ := Identifier.first h1
      have := Cpp.matchIdentifier_eq h1
      simp [dotted, this]
      omega
    | cons w' ws =>
      obtain ⟨h1, h2⟩ := h
      obtain ⟨_, _, _, h0, _⟩ := Identifier.first h1
      have := Cpp.matchIdentifier_eq h1
      rw [dotted_cons]
      simp at this ⊢
      omega

theorem dotted_length {ws : List Bytes} {b : Bytes} (h : Qualified ws b) :
    ws.length ≤ ((dotted ws).flatMap Prod.fst).length := by
  induction ws with
  | nil => exact h.elim
  | cons w ws ih =>
    cases ws with
    | nil =>
      obtain ⟨h1, h2⟩ := h
      obtain ⟨_, _, _, h0, _⟩ := Identifier.first h1
      simp [dotted]
      omega
    | cons w' ws =>
      obtain ⟨h1, h2⟩ := h
      have := ih h2
      rw [dotted_cons]
      simp at this ⊢
      omega

theorem annotation_piece {ws : List Bytes} {b : Bytes} (h : Qualified ws b) :
    Piece highlight (b!"@" ++ (dotted ws).flatMap Prod.fst) (parts 0 ((b!"@", .name_attr_delim) :: dotted ws)) b := by
  rw [← partsEmit_token]
  refine piece_of_step (by simp) fun debug opts => ok_of_wp ?_
  have h0 := length_if_cons_neg (c := c!"@") (t := (dotted ws).flatMap Prod.fst ++ b) (p := isWhitespace) rfl
  have h1 : Js.matchLineComment (c!"@" :: ((dotted ws).flatMap Prod.fst ++ b)) = 0 := by
    simp [Js.matchLineComment, startsWith_cons_cons]
  have h2 : Js.matchBlockComment (c!"@" :: ((dotted ws).flatMap Prod.fst ++ b)) = ⟨0, false⟩ := by
    simp [Js.matchBlockComment, startsWith_cons_cons]
  have h3 : matchCommonNumber (c!"@" :: ((dotted ws).flatMap Prod.fst ++ b)) numberOptions = {} := by
    refine matchCommonNumber_none nofun nofun (fun p hp => ?_) (by decide) (by decide) (by decide) (by decide)
    simp [numberOptions] at hp
    rcases hp with rfl | rfl | rfl | rfl <;> simp [startsWith_cons_cons]
  have h4 := Qualified.first h
  have h5 := dotted_length h
  unfold step consumeWhitespace expectToken HM.or expectLineComment expectBlockComment
    expectStringOrCharacterOrTextBlock expectNumber expectAnnotation
  simp
  rw [h0, wp_advance_iff (by simp)]
  simp [HS.adv, h1, h2, h3, startsWith_cons_cons, Nat.ne_of_gt h4]
  rw [wp_emitAdv_iff (by simp) (by simp) (by simp)]
  simp [HS.emitted]
  refine wp_mono (wp_dotted ws h _ _ rfl (by simp at h5 ⊢; omega) (by simp; omega)) ?_
  rintro _ _ rfl
  simp [partsEmit, optEmit]
  omega

theorem underscore_word : ∀ w, w.head? = some c!"_" → ∀ ty, (w, ty) ∈ words → w = b!"_" := by
  have : words.all (fun x => x.1.head? != some c!"_" || x.1 == b!"_") = true := by decide +kernel
  intro w hw ty h
  have := List.all_eq_true.1 this _ h
  simpa [hw] using this

/-- A Java program gets the tokens of its lexical elements. -/
theorem C58_java : Exact highlight Element := by
  refine exact_of_pieces (fun a ts b h => ?_) (fun _ _ => rfl)
  have first : ∀ {w : Bytes}, Identifier CppId.Start CppId.Continue (w ++ b) w.length → w.head? ≠ some c!"_" →
      (w ++ b)[0]? ≠ some c!"_" := by
    intro w h h'
    obtain ⟨_, _, _, h0, _⟩ := Identifier.first h
    cases w with
    | nil => simp at h0
    | cons c w => simpa using h'
  cases h with
  | space h h' => exact space_piece h h'
  | lineComment h => rw [line_parts (by simp)]; exact C55_java_line_comments _ _ h
  | blockComment h => rw [enclosed_parts (by simp) (by simp)]; exact C55_java_block_comments _ _ trivial h
  | string h h' => exact string_piece h h'
  | textBlock h hsp hbr => exact text_piece h hsp hbr
  | character h => exact character_piece (w := [_]) (.inl ⟨_, rfl, h, rfl⟩)
  | escape h => exact character_piece (.inr ⟨h, rfl⟩)
  | number hR h h' => exact C57_java _ hR _ _ h h'
  | keyword h h' h'' =>
    exact (C55_java_names _ _ ⟨h, first h fun e => h'' (underscore_word _ e _ h')⟩).1 _ h'
  | name h h' h'' => exact (C55_java_names _ _ ⟨h, first h h''⟩).2 h'
  | symbol h h' h1 h2 h3 h4 => exact symbol_piece h h' h1 h2 h3 h4
  | annotation h => exact annotation_piece h

/-- The program `@A int x='\\n';// y`. -/
example : ∃ es, highlight true {} b!"@A int x='\\n';// y" = .ok (true, es) ∧ es.map Emit.token =
    [⟨0, 1, .name_attr_delim⟩, ⟨1, 1, .name_attr⟩, ⟨3, 3, .keyword_type⟩, ⟨7, 1, .name⟩, ⟨8, 1, .symbol_punc⟩,
      ⟨9, 1, .string_delim⟩, ⟨10, 2, .string_escape⟩, ⟨12, 1, .string_delim⟩, ⟨13, 1, .symbol_punc⟩,
      ⟨14, 2, .comment_delim⟩, ⟨16, 2, .comment⟩] := by
  have symbol : ∀ {w b : Bytes} {ty}, (w, ty) ∈ words ∧ LongestIn symbols (w ++ b) w.length ∧ ¬ b!"//" <+: w ++ b ∧
      ¬ b!"/*" <+: w ++ b ∧ w ∈ [b!"=", b!";"] → Element w [⟨0, w.length, ty⟩] b := by
    intro w b ty ⟨h, h1, h2, h3, h4⟩
    simp at h4
    rcases h4 with rfl | rfl <;> exact .symbol h1 h ⟨h2, h3⟩ (by decide) (fun h => absurd h (by decide)) (by decide)
  have p0 : Program Element b!"// y" _ :=
    .next b!"// y" [] _ _ .nil (.lineComment (t := b!" y") (line_of_match (by decide +kernel))) rfl rfl
  have p1 := Program.next b!";" _ _ _ p0 (symbol (ty := .symbol_punc)
    ⟨by decide +kernel, longestIn_of_all (by decide +kernel) (by decide +kernel), by decide, by decide, by decide⟩) rfl rfl
  have p2 := Program.next b!"'\\n'" _ _ _ p1 (.escape (w := b!"\\n") (ends_of_match (matchEscape_facts (by decide)).1 (by decide +kernel)
    unbraced)) rfl rfl
  have p3 := Program.next b!"=" _ _ _ p2 (symbol (ty := .symbol_punc)
    ⟨by decide +kernel, longestIn_of_all (by decide +kernel) (by decide +kernel), by decide, by decide, by decide⟩) rfl rfl
  have p4 := Program.next b!"x" _ _ _ p3
    (.name (Cpp.identifier_of_match (by decide +kernel) (by decide)) (notWord (by decide +kernel)) (by decide)) rfl rfl
  have p5 := Program.next b!" " _ _ _ p4 (.space (by decide) (longest_of space_iff (by decide +kernel))) rfl rfl
  have p6 := Program.next b!"int" _ _ _ p5
    (.keyword (ty := .keyword_type) (Cpp.identifier_of_match (by decide +kernel) (by decide)) (by decide +kernel) (by decide)) rfl rfl
  have p7 := Program.next b!" " _ _ _ p6 (.space (by decide) (longest_of space_iff (by decide +kernel))) rfl rfl
  have p8 := Program.next b!"@A" _ _ _ p7 (.annotation (ws := [b!"A"])
    ⟨Cpp.identifier_of_match (by decide +kernel) (by decide), by decide⟩) rfl rfl
  exact C58_java _ _ p8 true {}

end Ulight.Java
