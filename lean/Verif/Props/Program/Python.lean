import Verif.Hl.Program
import Verif.Props.Written.Python
import Verif.Props.Lang.CppMatch

/-!
# C58 for Python
-/

namespace Ulight.Python

open Spec Spec.Python Utf8

theorem space_piece {w b : Bytes} (h : w ≠ []) (h' : Longest Space (w ++ b) w.length) : Piece highlight w [] b := by
  have hl : Longest (fun c => isWhitespace c = true) (w ++ b) w.length :=
    ⟨fun c hc => (space_iff c).2 (h'.1 c hc), fun c hc hw => h'.2 c hc ((space_iff c).1 hw)⟩
  by_cases hb : b = []
  · subst hb
    refine piece_of_step (ts := []) h fun debug opts => ?_
    have := (advance_space (x := ()) (debug := debug) (opts := opts) hl).1
    unfold step
    rw [bind_ok]
    refine ⟨_, _, this, ?_⟩
    rw [bind_ok]
    exact ⟨_, _, rfl, rfl⟩
  · refine piece_of_skip_step hb fun debug opts => ?_
    have := advance_space (x := ()) (debug := debug) (opts := opts) hl
    exact bind_left (this.1.trans this.2.symm)

theorem octal_byte (c : UInt8) : c ∉ b!"01234567" → ¬ (c!"0" ≤ c ∧ c ≤ c!"7") := by
  revert c; apply forall_byte; decide +kernel

theorem text_escape_facts {p : StringPrefix} (hp : p.isByte = false) {t : Bytes} (h : t[0]? = some c!"\\") :
    EscapeFacts textEscapes t (matchEscape t p) := by
  refine escape_facts (F := textEscapes) (f := (matchEscape · p)) (by decide) ?_ ?_ (by simp [matchEscape]) h
  · simp [textEscapes, byteEscapes, matchEscape, EscapeForm.run, notInBytes, hp]
  · intro c hc u
    simp [textEscapes, byteEscapes] at hc
    have := octal_byte c (by simp [hc])
    simp only [matchEscape]
    simp [hc, this]

theorem byte_escape_facts {p : StringPrefix} (hp : p.isByte = true) {t : Bytes} (h : t[0]? = some c!"\\") :
    EscapeFacts byteEscapes t (matchEscape t p) := by
  refine escape_facts (F := byteEscapes) (f := (matchEscape · p)) (by decide) ?_ ?_ (by simp [matchEscape]) h
  · simp [byteEscapes, matchEscape, EscapeForm.run]
  · intro c hc u
    simp [byteEscapes] at hc
    have := octal_byte c (by simp [hc])
    simp only [matchEscape]
    simp [hc, this, notInBytes, hp]
    have h2 : ∀ k, (matchCommonEscapeAt k (c!"\\" :: c :: u) 2).length ≤ u.length + 2 := fun k =>
      (escapeAt_le k (c!"\\" :: c :: u) 2 (by simp)).2
    split
    · exact ⟨rfl, h2 _⟩
    · split
      · exact ⟨rfl, h2 _⟩
      · split
        · exact ⟨rfl, h2 _⟩
        · simp

/-- What the prefix says about the string. -/
def Fit (p : Bytes) (k : StringPrefix) : Prop :=
  (k.isRaw = true ↔ c!"r" ∈ p.map lower) ∧ (k.isByte = true ↔ c!"b" ∈ p.map lower)

theorem IsEsc.first {p w b : Bytes} (h : IsEsc p w b) : w.head? = some c!"\\" := by
  unfold IsEsc at h
  split at h
  · obtain ⟨c, q, rfl, _⟩ := h
    rfl
  · split at h <;> obtain ⟨⟨c, t, rfl, _⟩, _⟩ := h <;> rfl

theorem escape_step {p : Bytes} {k : StringPrefix} (hk : Fit p k) {w b : Bytes} (h : IsEsc p w b) {i : Nat}
    {out : List Emit} {ext : Unit} {env : HEnv} (hl : i + (w ++ b).length = env.src.length) {Q : Unit → HS Unit → Prop}
    (hQ : Q () ⟨b, i + w.length, out ++ [⟨i, w.length, escType p, .normal⟩], ext⟩) :
    wp (stringEscape k) Q env ⟨w ++ b, i, out, ext⟩ := by
  have hw := IsEsc.first h
  unfold stringEscape
  simp
  unfold IsEsc at h
  unfold escType at hQ
  obtain ⟨h1, h2⟩ := hk
  by_cases hr : c!"r" ∈ p.map lower
  · rw [if_pos hr] at h hQ
    obtain ⟨c, q, rfl, hc, hb⟩ := h
    obtain ⟨c', q', r, e1, e2, e3, _⟩ := firstChar_of_decode (s := q ++ b) (by
      have := Cpp.firstChar_ne_nil hc
      simp [this])
    obtain ⟨_, rfl, _⟩ := firstChar_unique hc e2 e1
    simp [h1.2 hr, e3]
    rw [wp_emitAdv_iff hl (by omega) (by simp; omega)]
    have : (if k.isByte = true ∧ ¬ q.length = 1 then HT.error else HT.string) = .string := by
      rw [if_neg]
      rintro ⟨h3, h4⟩
      exact h4 (hb (h2.1 h3))
    simpa [HS.emitted, this, Nat.add_comm 1] using hQ
  · rw [if_neg hr] at h hQ
    have h3 : k.isRaw = false := by rw [Bool.eq_false_iff]; exact fun h => hr (h1.1 h)
    have he : matchEscape (w ++ b) k = ⟨w.length, false⟩ := by
      split at h
      · exact escape_eq (by decide) (byte_escape_facts (h2.2 (by assumption)) (by cases w <;> simp_all)) h
      · refine escape_eq (by decide) (text_escape_facts ?_ (by cases w <;> simp_all)) h
        rw [Bool.eq_false_iff]
        exact fun h' => absurd (h2.1 h') (by assumption)
    have h0 : w ≠ [] := by rintro rfl; simp at hw
    simp [h3, he, h0]
    rw [wp_emitAdv_iff hl (List.length_pos_iff.2 h0) (by simp)]
    simpa [HS.emitted] using hQ

theorem string_loop {p q : Bytes} {k : StringPrefix} {l : Bool} (hk : Fit p k) (hq : q ≠ []) (hq' : ¬ c!"\\" ∈ q)
    (hl : l = false ↔ q.length = 1) :
    StringLoop (stringStep k q l) q (Text q) (IsEsc p) (escType p) where
  plain := by
    intro k env s Q hk hc hQ
    have := not_startsWith hc.1
    have hc := hc.2
    rw [List.drop_eq_getElem_cons hk, notFirst_cons] at hc
    unfold stringStep
    simp [hk, this]
    split at hc
    · simp at hc
      simp [hc, hQ]
    · have : l = true := by rw [← Bool.not_eq_false]; rw [hl]; assumption
      simp at hc
      simp [hc, hQ, this]
  escape := by
    intro t w r i out ext env Q he hl hQ
    have hw := IsEsc.first he
    obtain ⟨c, u, rfl⟩ := List.exists_cons_of_ne_nil (l := w) (by rintro rfl; simp at hw)
    cases hw
    obtain ⟨d, v, e⟩ := List.exists_cons_of_ne_nil hq
    have hd : d ≠ c!"\\" := fun h => hq' (by simp [e, h])
    have hs : startsWith (c!"\\" :: (u ++ r)) q = false := by simp [e, startsWith_cons_cons, hd]
    unfold stringStep
    simp [hs]
    rw [wp_emitAdvIf_iff hl (by simp)]
    simp
    refine escape_step hk he (by simp at hl ⊢; omega) ?_
    simpa [HS.emitted, optEmit] using hQ
  close := by
    intro t r i out ext env Q hl hQ
    obtain ⟨x, e4⟩ := getElem?_first (t := t) (b := r) hq
    have e5 : startsWith (q ++ r) q = true := startsWith_iff.2 ⟨r, rfl⟩
    unfold stringStep
    simp [e4, e5]
    rw [wp_emitAdvIf_iff hl (by simp)]
    simp
    rw [wp_emitAdv_iff (by simp at hl ⊢; omega) (List.length_pos_iff.2 hq) (by simp)]
    simpa [HS.emitted, optEmit, hq] using hQ
  nonempty := fun w r h e => by have := IsEsc.first h; simp [e] at this

theorem prefix_fits {p : Bytes} (h : p = [] ∨ Prefix p) : ∃ k, Fit p k ∧ (p ≠ [] → classifyStringPrefix p = some k) ∧
    (p = [] → k = .unicode) ∧ ∀ c r, c = c!"'" ∨ c = c!"\"" → Bash.matchIdentifier (p ++ c :: r) = p.length ∧
      Ascii.length_if (p ++ c :: r) isWhitespace = 0 ∧ startsWith (p ++ c :: r) b!"#" = false := by
  have key : ∀ e ∈ ((b!"", StringPrefix.unicode) :: prefixes), Fit e.1 e.2 ∧
      ∀ c r, c = c!"'" ∨ c = c!"\"" → Bash.matchIdentifier (e.1 ++ c :: r) = e.1.length ∧
      Ascii.length_if (e.1 ++ c :: r) isWhitespace = 0 ∧ startsWith (e.1 ++ c :: r) b!"#" = false := by
    intro e he
    refine ⟨?_, ?_⟩
    · unfold Fit
      revert e
      decide +kernel
    · revert e
      simp only [prefixes, List.forall_mem_cons]
      repeat' apply And.intro
      all_goals first
        | (intro c r hc; rcases hc with rfl | rfl <;> exact ⟨rfl, rfl, rfl⟩)
        | exact fun e he => nomatch he
  rcases h with rfl | h
  · have := key (b!"", .unicode) (by simp)
    exact ⟨.unicode, this.1, by simp, by simp, this.2⟩
  · obtain ⟨k, hk⟩ := (prefix_iff p).2 h
    have hm := (table_lookup prefixes_sorted p k).1 hk
    have := key (p, k) (by simp [hm])
    refine ⟨k, this.1, fun _ => hk, ?_, this.2⟩
    rintro rfl
    have := h.1
    simp [AnyPrefix] at this

theorem any_string_piece {p q : Bytes} {es : List (Bytes × Bytes)} {t b : Bytes} (hp : p = [] ∨ Prefix p)
    (hq : q ∈ [b!"'", b!"\"", b!"'''", b!"\"\"\""])
    (h : StringContent (Text q) (IsEsc p) (q ++ b) es t)
    (h' : q.length = 1 → (content es t).flatMap Prod.fst = [] → ¬ q <+: b) :
    Piece highlight ((stringParts p q es t).flatMap Prod.fst) (parts 0 (stringParts p q es t)) b := by
  obtain ⟨k, hk, h1, h2, h3⟩ := prefix_fits hp
  obtain ⟨c, l, hc, hl, hq1⟩ : ∃ c l, (c = c!"'" ∨ c = c!"\"") ∧ (l = false ↔ q.length = 1) ∧
      q = if l then [c, c, c] else [c] := by
    simp at hq
    rcases hq with rfl | rfl | rfl | rfl
    · exact ⟨c!"'", false, by simp⟩
    · exact ⟨c!"\"", false, by simp⟩
    · exact ⟨c!"'", true, by simp⟩
    · exact ⟨c!"\"", true, by simp⟩
  have hx : (stringParts p q es t).flatMap Prod.fst ++ b =
      p ++ (q ++ ((content es t (escType p)).flatMap Prod.fst ++ (q ++ b))) := by
    simp [stringParts]
  have hloop := string_loop (l := l) hk (by cases l <;> simp [hq1]) (by rcases hc with rfl | rfl <;> cases l <;> simp [hq1]) hl
  have hlong : startsWith (q ++ ((content es t (escType p)).flatMap Prod.fst ++ (q ++ b))) [c, c, c] = l := by
    cases l with
    | true => simp [hq1, startsWith_cons_cons]
    | false =>
      simp only [if_false, Bool.false_eq_true] at hq1
      subst hq1
      refine not_three' ?_ ?_
      · rw [content_text]
        refine content_first h (fun t h => h.1 ⟨t, rfl⟩) fun w r he => ?_
        have := IsEsc.first he
        rw [this]
        refine ⟨by rintro rfl; simp at this, ?_⟩
        rcases hc with rfl | rfl <;> simp
      · rw [content_text]
        exact h' rfl
  obtain ⟨z, hz⟩ : ∃ z, q = c :: z := by cases l <;> simp [hq1]
  have hid : Bash.matchIdentifier (p ++ (q ++ ((content es t (escType p)).flatMap Prod.fst ++ (q ++ b)))) = p.length := by
    rw [hz]
    exact (h3 c _ hc).1
  have hsp : Ascii.length_if (p ++ (q ++ ((content es t (escType p)).flatMap Prod.fst ++ (q ++ b)))) isWhitespace = 0 ∧
      startsWith (p ++ (q ++ ((content es t (escType p)).flatMap Prod.fst ++ (q ++ b)))) b!"#" = false := by
    rw [hz]
    exact (h3 c _ hc).2
  rw [← partsEmit_token]
  refine piece_of_step (by simp [stringParts, hz]) fun debug opts => ok_of_wp ?_
  rw [hx]
  have h0 : startsWith (q ++ ((content es t (escType p)).flatMap Prod.fst ++ (q ++ b))) q = true := startsWith_iff.2 ⟨_, rfl⟩
  have h4 : ∀ d, startsWith (q ++ ((content es t (escType p)).flatMap Prod.fst ++ (q ++ b))) [d] = (d == c) := by
    simp [hz, startsWith_cons_cons]
  have h7 : (if c!"'" = c then c!"'" else c!"\"") = c := by rcases hc with rfl | rfl <;> rfl
  have h8 : ¬ (¬ c!"'" = c ∧ ¬ c!"\"" = c) := by rcases hc with rfl | rfl <;> simp
  have h9 : 0 < q.length := by simp [hz]
  unfold step consumeWhitespace HM.or expectComment expectStringLiteral consumeString
  generalize hT : (content es t (escType p)).flatMap Prod.fst ++ (q ++ b) = T at *
  have hne : q ≠ [] := by simp [hz]
  have hek : (if p = [] then StringPrefix.unicode else (classifyStringPrefix p).getD .unicode) = k := by
    by_cases hp : p = []
    · simp [hp, h2 hp]
    · simp [hp, h1 hp]
  have hee : ¬ (¬ p = [] ∧ classifyStringPrefix p = none) := by
    rintro ⟨hp, h⟩
    rw [h1 hp] at h
    cases h
  simp [hsp]
  rw [wp_advance_iff (by simp)]
  simp [HS.adv, hid, hsp, h4, h8, hne, hek, hee]
  rw [wp_emitAdvIf_iff (by simp) (by simp)]
  simp [h4, h7, hlong, ← hq1, h0]
  rw [wp_emitAdv_iff (by simp) h9 (by simp)]
  refine ⟨by rcases hc with rfl | rfl <;> simp, ?_⟩
  simp only [HS.emitted, List.drop_left, ← hT]
  refine wp_string_loop hloop h ?_ ?_ ?_
  · simp; omega
  · simp; omega
  · simp [stringParts, partsEmit, optEmit, hne]
    omega

theorem symbols_first : ∀ w ∈ symbols, ∃ c t, w = c :: t ∧ (isWhitespace c || isDigitBase c 10 || b!"#'\"_0".contains c ||
    Bash.isIdStart c || !decide (c.toNat < 0x80) || Cpp.isIdStart c.toNat) = false := by
  have : symbols.all (fun w => match w with
    | c :: _ => !(isWhitespace c || isDigitBase c 10 || b!"#'\"_0".contains c ||
      Bash.isIdStart c || !decide (c.toNat < 0x80) || Cpp.isIdStart c.toNat)
    | [] => false) = true := by decide +kernel
  intro w hw
  have := List.all_eq_true.1 this w hw
  cases w with
  | nil => cases this
  | cons c t => exact ⟨c, t, rfl, by simpa only [Bool.not_eq_true'] using this⟩

theorem symbol_piece {w : Bytes} {ty : HT} {b : Bytes} (h : LongestIn symbols (w ++ b) w.length) (h' : (w, ty) ∈ words)
    (number : w = b!"." → ∀ c, b.head? = some c → ¬ DecDigit c) : Piece highlight w [⟨0, w.length, ty⟩] b := by
  have hw : w ∈ symbols := by simpa using h.1
  obtain ⟨c, t, e, hc⟩ := symbols_first w hw
  simp only [Bool.or_eq_false_iff, and_assoc] at hc
  obtain ⟨k1, k2, k3, k4, k5, k6⟩ := hc
  have hs : matchSymbol (w ++ b) = some w := by
    rw [matchSymbol_eq]
    exact symbol_eq symbols_sorted symbols_tokens sortedSymbols_iff h
  have ht : highlightByCode w = some ty := (C33_python w ty).2 h'
  have h4 : matchCommonNumber (w ++ b) numberOptions = {} := by
    rw [e]
    simp at k3
    refine matchCommonNumber_none' nofun nofun (fun p hp => ?_) k2 k3.2.2.2.2 (fun e' => ?_) k3.2.2.2.1
    · simp [numberOptions] at hp
      rcases hp with rfl | rfl | rfl | rfl | rfl | rfl <;> simp [startsWith_cons_cons, Ne.symm k3.2.2.2.2]
    · subst e'
      cases t with
      | nil =>
        cases b with
        | nil => rfl
        | cons x b =>
          have := number e x rfl
          simpa [← isDigit_iff] using this
      | cons x t =>
        have : symbols.all (fun w => match w with | 0x2e :: x :: _ => !isDigit x | _ => true) = true := by decide +kernel
        have := List.all_eq_true.1 this w hw
        rw [e] at this
        simpa using this
  have h0 : ∀ p : UInt8, ∀ q, c ≠ p → startsWith (w ++ b) (p :: q) = false := by
    intro p q hp
    simp [e, startsWith_cons_cons, Ne.symm hp]
  simp at k3 k5
  refine piece_of_step (ts := [⟨0, w.length, ty, .normal⟩]) (by simp [e]) fun debug opts => ok_of_wp ?_
  have h1 : Ascii.length_if (w ++ b) isWhitespace = 0 := by rw [e]; exact length_if_cons_neg k1
  have h2 : Bash.matchIdentifier (w ++ b) = 0 := by
    simp [e, Bash.matchIdentifier, Ascii.length_if_head_tail, k4]
  have h3 : Cpp.matchIdentifier (w ++ b) = 0 := by
    rw [e]
    exact Cpp.matchIdentifier_start k5 k6 _
  have h9 : 0 < w.length := by simp [e]
  unfold step consumeWhitespace HM.or expectComment expectStringLiteral expectIdentifier expectNumber expectSymbol
  simp
  rw [h1, wp_advance_iff (by simp)]
  have : w ≠ [] := by simp [e]
  simp [HS.adv, h2, h3, h4, h0 _ _ k3.1, h0 _ _ k3.2.1, h0 _ _ k3.2.2.1, hs, ht, this]
  rw [wp_emitAdv_iff (by simp) h9 (by simp)]
  simp [HS.emitted]

/-- A Python program gets the tokens of its lexical elements. -/
theorem C58_python : Exact highlight Element := by
  refine exact_of_pieces (fun a ts b h => ?_) (fun _ _ => rfl)
  have quote : ∀ {w : Bytes}, NotFirst b!"'\"" b → (w ++ b)[w.length]? ≠ some c!"'" ∧ (w ++ b)[w.length]? ≠ some c!"\"" := by
    intro w h
    cases b with
    | nil => simp
    | cons c b => simpa [notFirst_cons] using h
  cases h with
  | space h h' => exact space_piece h h'
  | comment h => rw [line_parts (by simp)]; exact C55_python_comments _ _ h
  | string hp hq h h' => exact any_string_piece hp hq h h'
  | number hR h h' => exact C57_python _ hR _ _ h h'
  | keyword h h' h'' => exact (C55_python_names _ _ ⟨h, quote h''⟩).1 _ h'
  | name h h' h'' => exact (C55_python_names _ _ ⟨h, quote h''⟩).2 h'
  | symbol h h' h1 => exact symbol_piece h h' h1

/-- The program `if s==b'a\n':# y`. -/
example : ∃ es, highlight true {} b!"if s==b'a\\n':# y" = .ok (true, es) ∧ es.map Emit.token =
    [⟨0, 2, .keyword_control⟩, ⟨3, 1, .name⟩, ⟨4, 2, .symbol_op⟩, ⟨6, 1, .string_decor⟩, ⟨7, 1, .string_delim⟩,
      ⟨8, 1, .string⟩, ⟨9, 2, .string_escape⟩, ⟨11, 1, .string_delim⟩, ⟨12, 1, .symbol_punc⟩,
      ⟨13, 1, .comment_delim⟩, ⟨14, 2, .comment⟩] := by
  have esc : IsEsc b!"b" b!"\\n" b!"':# y" := by
    unfold IsEsc
    rw [if_neg (by decide), if_pos (by decide)]
    exact ends_of_match (byte_escape_facts (p := .byte) rfl (by decide)) (by decide +kernel)
      (by simp [byteEscapes, EscapeForms.Unbraced, Braced])
  have p0 : Program Element b!"# y" _ :=
    .next b!"# y" [] _ _ .nil (.comment (t := b!" y") (longest_of (q := (!isNewline ·)) (by simp [newline_iff]) (by decide +kernel))) rfl rfl
  have p1 := Program.next b!":" _ _ _ p0 (.symbol (ty := .symbol_punc)
    (longestIn_of_all (by decide +kernel) (by decide +kernel)) (by decide +kernel) (fun h => absurd h (by decide))) rfl rfl
  have p2 := Program.next b!"b'a\\n'" _ _ _ p1 (.string (p := b!"b") (q := b!"'") (es := [(b!"a", b!"\\n")]) (t := b!"")
    (.inr ((prefix_iff _).1 ⟨.byte, by decide +kernel⟩)) (by simp)
    ⟨fun k hk => by
      obtain rfl : k = 0 := by simp at hk; exact hk
      exact ⟨by decide, by simp [NotFirst]⟩, esc, nofun⟩ (by simp [content])) rfl rfl
  have p3 := Program.next b!"==" _ _ _ p2 (.symbol (ty := .symbol_op)
    (longestIn_of_all (by decide +kernel) (by decide +kernel)) (by decide +kernel) (fun h => absurd h (by decide))) rfl rfl
  have p4 := Program.next b!"s" _ _ _ p3
    (.name (Cpp.identifier_of_match (by decide +kernel) (by decide)) (notWord (by decide +kernel)) (by simp [NotFirst])) rfl rfl
  have p5 := Program.next b!" " _ _ _ p4 (.space (by decide) (longest_of space_iff (by decide +kernel))) rfl rfl
  have p6 := Program.next b!"if" _ _ _ p5
    (.keyword (ty := .keyword_control) (Cpp.identifier_of_match (by decide +kernel) (by decide)) (by decide +kernel) (by simp [NotFirst])) rfl rfl
  exact C58_python _ _ p6 true {}

end Ulight.Python
