import Verif.Hl.Program
import Verif.Props.Written.Rust
import Verif.Props.Lang.CppMatch

/-!
# C58 for Rust
-/

namespace Ulight.Rust

open Spec Spec.Rust Utf8

theorem space_piece {w b : Bytes} (h : w ≠ []) (h' : LongestChars Space (w ++ b) w.length) : Piece highlight w [] b := by
  have h1 : Utf8.length_if (w ++ b) isWhitespace = .ok w.length := by
    obtain ⟨n, h1, _, h2⟩ := length_if_chars _ _ space_iff (w ++ b)
    rw [h1, chars_unique h2 h']
  have h2 : Utf8.length_if b isWhitespace = .ok 0 := by
    refine utf8_length_if_zero ?_
    have := LongestChars.noFirst h'
    simpa [space_iff] using this
  have key : ∀ debug opts, consumeWhitespace ⟨debug, opts, w ++ b⟩ ⟨w ++ b, 0, [], ()⟩ = .ok ((), ⟨b, w.length, [], ()⟩) ∧
      consumeWhitespace ⟨debug, opts, w ++ b⟩ ⟨b, w.length, [], ()⟩ = .ok ((), ⟨b, w.length, [], ()⟩) := by
    intro debug opts
    constructor
    · refine ok_of_wp ?_
      unfold consumeWhitespace
      simp [h1]
      rw [wp_advance_iff (by simp)]
      simp [HS.adv]
    · refine ok_of_wp ?_
      unfold consumeWhitespace
      simp [h2]
      rw [wp_advance_iff (by simp)]
      simp [HS.adv]
  by_cases hb : b = []
  · subst hb
    refine piece_of_step (ts := []) h fun debug opts => ?_
    unfold step
    rw [bind_ok]
    refine ⟨_, _, (key debug opts).1, ?_⟩
    rw [bind_ok]
    exact ⟨_, _, rfl, rfl⟩
  · refine piece_of_skip_step hb fun debug opts => ?_
    exact bind_left ((key debug opts).1.trans (key debug opts).2.symm)

/-- A piece that is found by `expectToken`. -/
theorem token_piece {a b : Bytes} {ts : List Emit} (ha : a ≠ []) (h1 : Utf8.length_if (a ++ b) isWhitespace = .ok 0)
    (h : ∀ debug opts, wp expectToken (fun r s => r = true ∧ s = ⟨b, a.length, ts, ()⟩) ⟨debug, opts, a ++ b⟩
      ⟨a ++ b, 0, [], ()⟩) : Piece highlight a (ts.map Emit.token) b := by
  refine piece_of_step ha fun debug opts => ok_of_wp ?_
  unfold step consumeWhitespace
  simp [h1]
  rw [wp_advance_iff (by simp)]
  simp [HS.adv, ha]
  refine wp_mono (h debug opts) ?_
  rintro _ _ ⟨rfl, rfl⟩
  simp

theorem string_loop {p : Bytes} {type : StringType} (hp : escapesIn p = escapesOf type) :
    StringLoop (stringStep type) b!"\"" (NotFirst b!"\"\\") (escapesIn p).Ends where
  plain := by
    intro k env s Q hk hc hQ
    rw [List.drop_eq_getElem_cons hk, notFirst_cons] at hc
    unfold stringStep
    simp at hc
    simp [hk, hc, hQ]
  escape := by
    intro t w r i out ext env Q he hl hQ
    obtain ⟨c, u, rfl, _⟩ := he.1
    have h1 := escape_eq (by unfold escapesIn; split <;> decide) (hp ▸ matchEscape_facts type (t := c!"\\" :: c :: u ++ r) rfl) he
    unfold stringStep consumeEscape
    simp
    rw [wp_emitAdvIf_iff hl (by simp)]
    simp at h1
    simp [h1]
    rw [wp_emitAdv_iff (by simp at hl ⊢; omega) (by simp) (by simp)]
    simpa [HS.emitted, optEmit] using hQ
  close := by
    intro t r i out ext env Q hl hQ
    unfold stringStep
    simp
    rw [wp_emitAdvIf_iff hl (by simp)]
    simp
    rw [wp_emitAdv_iff (by simp at hl ⊢; omega) (by simp) (by simp)]
    simpa [HS.emitted, optEmit] using hQ
  nonempty := by
    rintro _ _ ⟨⟨c, u, rfl, _⟩, _⟩
    simp

theorem string_piece {p b : Bytes} {es : List (Bytes × Bytes)} {t : Bytes} (hp : p ∈ [b!"", b!"b", b!"c"])
    (h : StringContent (NotFirst b!"\"\\") (escapesIn p).Ends (b!"\"" ++ b) es t) (h' : ∀ m, ¬ Id b m) :
    Piece highlight (((p, .string_decor) :: quoted b!"\"" es t).flatMap Prod.fst)
      (parts 0 ((p, .string_decor) :: quoted b!"\"" es t)) b := by
  have hi := noId_iff h'
  obtain ⟨type, ht, ht', hf⟩ : ∃ type, escapesIn p = escapesOf type ∧ type.isRaw = false ∧
      ∀ r, classifyStringPrefix (p ++ (b!"\"" ++ r)) = some (p.length, type) := by
    simp at hp
    rcases hp with rfl | rfl | rfl
    · exact ⟨.string, rfl, rfl, fun r => by simp [classifyStringPrefix, stringPrefixes, startsWith_cons_cons]⟩
    · exact ⟨.byte, rfl, rfl, fun r => by simp [classifyStringPrefix, stringPrefixes, startsWith_cons_cons]⟩
    · exact ⟨.c, rfl, rfl, fun r => by simp [classifyStringPrefix, stringPrefixes, startsWith_cons_cons]⟩
  have e : (((p, .string_decor) :: quoted b!"\"" es t).flatMap Prod.fst) ++ b =
      p ++ (b!"\"" ++ ((content es t).flatMap Prod.fst ++ (b!"\"" ++ b))) := by simp [quoted]
  have key : ∀ r, Utf8.length_if (p ++ (b!"\"" ++ r)) isWhitespace = .ok 0 ∧ Js.matchLineComment (p ++ (b!"\"" ++ r)) = 0 ∧
      Js.matchBlockComment (p ++ (b!"\"" ++ r)) = ⟨0, false⟩ ∧
      (p ++ (b!"\"" ++ r))[if startsWith (p ++ (b!"\"" ++ r)) b!"b" then 1 else 0]? ≠ some c!"'" := by
    intro r
    simp at hp
    rcases hp with rfl | rfl | rfl
    all_goals
      refine ⟨space_zero (by decide) rfl, ?_, ?_, ?_⟩
      · simp [Js.matchLineComment, startsWith_cons_cons]
      · simp [Js.matchBlockComment, startsWith_cons_cons]
      · simp [startsWith_cons_cons]
  rw [← partsEmit_token]
  obtain ⟨k1, k2, k3, k4⟩ := key ((content es t).flatMap Prod.fst ++ (b!"\"" ++ b))
  refine token_piece (by simp [quoted]) (by rw [e, k1]) fun debug opts => ?_
  rw [e]
  have h0 := hf ((content es t).flatMap Prod.fst ++ (b!"\"" ++ b))
  unfold expectToken HM.or expectLineComment expectBlockComment expectCharOrByte expectStringLiteral
    consumeStringContentAndSuffix
  generalize hT : (content es t).flatMap Prod.fst ++ (b!"\"" ++ b) = T at *
  simp at k1 k2 k3 k4 h0
  simp [k2, k3, k4, h0, ht', startsWith_cons_cons]
  rw [wp_emitAdvIf_iff (by simp) (by simp), wp_emitAdv_iff (by simp) (by simp) (by simp)]
  simp [HS.emitted]
  subst hT
  refine wp_string_loop (string_loop ht) h ?_ ?_ ?_
  · simp; omega
  · simp; omega
  · simp [consumeSuffix, hi]
    rw [wp_emitAdvIf_iff (by simp; omega) (by simp)]
    simp [quoted, partsEmit, optEmit]
    omega

theorem hashes_eq {k : Nat} {r : Bytes} (h : r.head? ≠ some c!"#") :
    Ascii.length_before_not (List.replicate k c!"#" ++ r) c!"#" = k := by
  obtain ⟨_, h2, h3, h4⟩ := run_facts (List.replicate k c!"#" ++ r) c!"#"
  have h5 : k ≤ Ascii.length_before_not (List.replicate k c!"#" ++ r) c!"#" := (h4 k).1 (startsWith_iff.2 ⟨r, rfl⟩)
  rcases Nat.eq_or_lt_of_le h5 with h6 | h6
  · exact h6.symm
  · exfalso
    have h7 := (h4 (k + 1)).2 h6
    obtain ⟨u, hu⟩ := startsWith_iff.1 h7
    rw [List.replicate_succ', List.append_assoc] at hu
    have := List.append_cancel_left hu
    exact h (by simp [this])

theorem raw_piece {p t b : Bytes} {k : Nat} (hp : p ∈ [b!"r", b!"br"])
    (h : UpTo (rawClose k) (t ++ rawClose k ++ b) t.length) (h' : ∀ m, ¬ Id b m) (h'' : b.head? ≠ some c!"#") :
    Piece highlight (p ++ rawOpen k ++ t ++ rawClose k)
      (parts 0 [(p, .string_decor), (rawOpen k, .string_delim), (t, .string), (rawClose k, .string_delim)]) b := by
  have hi := noId_iff h'
  obtain ⟨type, ht, hf⟩ : ∃ type, StringType.isRaw type = true ∧
      ∀ r, classifyStringPrefix (p ++ (rawOpen k ++ r)) = some (p.length, type) := by
    simp at hp
    cases k with
    | zero =>
      rcases hp with rfl | rfl
      · exact ⟨.raw, rfl, fun r => by simp [classifyStringPrefix, stringPrefixes, startsWith_cons_cons, rawOpen]⟩
      · exact ⟨.raw_byte, rfl, fun r => by simp [classifyStringPrefix, stringPrefixes, startsWith_cons_cons, rawOpen]⟩
    | succ k =>
      rcases hp with rfl | rfl
      · exact ⟨.raw, rfl, fun r => by simp [classifyStringPrefix, stringPrefixes, startsWith_cons_cons, rawOpen, List.replicate_succ]⟩
      · exact ⟨.raw_byte, rfl, fun r => by simp [classifyStringPrefix, stringPrefixes, startsWith_cons_cons, rawOpen, List.replicate_succ]⟩
  have e : p ++ rawOpen k ++ t ++ rawClose k ++ b = p ++ (rawOpen k ++ (t ++ (rawClose k ++ b))) := by simp
  have key : ∀ r, Utf8.length_if (p ++ (rawOpen k ++ r)) isWhitespace = .ok 0 ∧
      Js.matchLineComment (p ++ (rawOpen k ++ r)) = 0 ∧ Js.matchBlockComment (p ++ (rawOpen k ++ r)) = ⟨0, false⟩ ∧
      (p ++ (rawOpen k ++ r))[if startsWith (p ++ (rawOpen k ++ r)) b!"b" then 1 else 0]? ≠ some c!"'" := by
    intro r
    simp at hp
    rcases hp with rfl | rfl
    all_goals
      refine ⟨space_zero (by decide) rfl, ?_, ?_, ?_⟩
      · simp [Js.matchLineComment, startsWith_cons_cons]
      · simp [Js.matchBlockComment, startsWith_cons_cons]
      · simp [startsWith_cons_cons]
  rw [← partsEmit_token]
  obtain ⟨k1, k2, k3, k4⟩ := key (t ++ (rawClose k ++ b))
  have h0 := hf (t ++ (rawClose k ++ b))
  have k5 : Ascii.length_before_not (rawOpen k ++ (t ++ (rawClose k ++ b))) c!"#" = k := by
    unfold rawOpen
    rw [List.append_assoc]
    exact hashes_eq (by simp)
  have k6 : (p ++ (rawOpen k ++ (t ++ (rawClose k ++ b)))).drop (p.length + k) = c!"\"" :: (t ++ (rawClose k ++ b)) := by
    rw [← List.drop_drop, List.drop_left]
    unfold rawOpen
    rw [List.append_assoc]
    simp
  refine token_piece (by simp [rawClose]) (by rw [e, k1]) fun debug opts => ?_
  rw [e]
  unfold expectToken HM.or expectLineComment expectBlockComment expectCharOrByte expectStringLiteral
    consumeStringContentAndSuffix
  have hl : (rawOpen k).length = 1 + k := by simp [rawOpen]; omega
  simp [k2, k3, k4, h0, ht, k5, k6, startsWith_cons_cons]
  rw [wp_emitAdvIf_iff (by simp) (by simp), wp_emitAdv_iff (by simp) (by omega) (by simp [hl])]
  rw [show (rawClose k ++ b) = rawClose k ++ b from rfl]
  simp only [HS.emitted, List.drop_left, ← hl]
  rw [show (t ++ (rawClose k ++ b)).length + 1 = (rawClose k ++ b).length + 1 + t.length by simp; omega]
  rw [List.append_assoc] at h
  refine wp_loop_count t.length (fun i hi => ?_) (wp_loop_last ?_)
  · obtain ⟨x, hx, e⟩ := getElem?_plain (b := rawClose k ++ b) hi
    have : ¬ OccursAt (rawClose k) (t ++ (rawClose k ++ b)) i := fun ho => absurd (h.1 i ho) (by omega)
    unfold rawClose at this
    rw [closing_iff] at this
    rw [← rawClose] at this
    unfold rawStep
    rw [Nat.zero_add]
    simp [e] at this ⊢
    rw [if_neg (by rintro ⟨rfl, h⟩; simp at this; omega)]
    simp
  · have k7 : (t ++ (rawClose k ++ b))[t.length]? = some c!"\"" := by simp [rawClose]
    have k8 : (t ++ (rawClose k ++ b)).drop (t.length + 1) = List.replicate k c!"#" ++ b := by
      rw [← List.drop_drop, List.drop_left]
      simp [rawClose]
    unfold rawStep
    rw [Nat.zero_add]
    simp [k7, k8, hashes_eq h'']
    have hr : 1 + k = (rawClose k).length := by simp [rawClose]; omega
    rw [wp_emitAdvIf_iff (by simp; omega) (by simp), wp_emitAdv_iff (by simp; omega) (by omega) (by simp [← hr])]
    simp [HS.emitted, consumeSuffix, hr, hi]
    rw [wp_emitAdvIf_iff (by simp; omega) (by simp)]
    simp [partsEmit, optEmit]
    have : ¬ rawOpen k = [] := by simp [rawOpen]
    have : ¬ rawClose k = [] := by simp [rawClose]
    simp [*]
    omega

theorem character_piece {p w b : Bytes} {ty : HT} (hp : p ∈ [b!"", b!"b"]) (h : CharBody w ty (b!"'" ++ b)) (h' : ∀ m, ¬ Id b m) :
    Piece highlight (p ++ b!"'" ++ w ++ b!"'")
      (parts 0 [(p, .string_decor), (b!"'", .string_delim), (w, ty), (b!"'", .string_delim)]) b := by
  have hi := noId_iff h'
  have hw : w ≠ [] := by
    rcases h with ⟨_, h, _⟩ | ⟨⟨⟨c, u, rfl, _⟩, _⟩, _⟩
    · exact Cpp.firstChar_ne_nil h
    · simp
  have hc : charContent (w ++ (b!"'" ++ b)) = some (w.length, ty) := by
    rcases h with ⟨c, h1, h2, rfl⟩ | ⟨h1, h2, rfl⟩
    · obtain ⟨c', q', r, e1, e2, e3, _⟩ := firstChar_of_decode (s := w ++ (b!"'" ++ b)) (by simp)
      obtain ⟨_, rfl, rfl⟩ := firstChar_unique h1 e2 e1
      obtain ⟨d, u, rfl⟩ := List.exists_cons_of_ne_nil hw
      rw [notFirst_cons] at h2
      simp at h2 e3
      simp [charContent, h2, e3, startsWith_cons_cons]
    · obtain ⟨c, u, rfl, _⟩ := h1.1
      have h3 := escape_eq (by decide) (matchEscape_facts .string (t := c!"\\" :: c :: u ++ (b!"'" ++ b)) rfl) h1
      simp at h2 h3
      simp [charContent, h3, startsWith_cons_cons]
      grind
  have e : p ++ b!"'" ++ w ++ b!"'" ++ b = p ++ (c!"'" :: (w ++ (b!"'" ++ b))) := by simp
  have hlen : 0 < w.length := List.length_pos_iff.2 hw
  rw [← partsEmit_token]
  generalize hT : w ++ (b!"'" ++ b) = T at *
  have key : Utf8.length_if (p ++ (c!"'" :: T)) isWhitespace = .ok 0 ∧
      Js.matchLineComment (p ++ (c!"'" :: T)) = 0 ∧ Js.matchBlockComment (p ++ (c!"'" :: T)) = ⟨0, false⟩ ∧
      (if startsWith (p ++ (c!"'" :: T)) b!"b" then 1 else 0) = p.length := by
    simp at hp
    rcases hp with rfl | rfl
    all_goals
      refine ⟨space_zero (by decide) rfl, ?_, ?_, ?_⟩
      · simp [Js.matchLineComment, startsWith_cons_cons]
      · simp [Js.matchBlockComment, startsWith_cons_cons]
      · simp [startsWith_cons_cons]
  obtain ⟨k1, k2, k3, k4⟩ := key
  have hTl : 2 ≤ T.length := by rw [← hT]; simp; omega
  have k5 : ¬ (p ++ (c!"'" :: T)).length < 3 + p.length := by simp; omega
  have k6 : (p ++ (c!"'" :: T)).drop (p.length + 1) = T := by simp [List.drop_append]
  refine token_piece (by simp) (by rw [e, k1]) fun debug opts => ?_
  rw [e]
  unfold expectToken HM.or expectLineComment expectBlockComment expectCharOrByte
  simp [k2, k3]
  rw [k4]
  simp [k6, hc]
  have k7 : ¬ T.length + 1 < 3 := by omega
  simp [Nat.add_comm 3, k7]
  subst hT
  rw [wp_emitAdvIf_iff (by simp) (by simp), wp_emitAdv_iff (by simp) (by simp) (by simp),
    wp_emitAdv_iff (by simp [HS.emitted]; omega) hlen (by simp [HS.emitted]),
    wp_emitAdv_iff (by simp [HS.emitted]; omega) (by simp) (by simp [HS.emitted])]
  simp [HS.emitted, consumeSuffix, hi]
  rw [wp_emitAdvIf_iff (by simp; omega) (by simp)]
  simp [partsEmit, optEmit, hw]
  omega

theorem word_prefix : ∀ p ∈ stringPrefixes, p.1.getLast! ≠ c!"!" := by decide +kernel

/-- What is not found before a word. -/
theorem word_facts {w b : Bytes} (h : Id (w ++ b) w.length) (hu : w.head? ≠ some c!"_") (hq : NotFirst b!"'\"#" b) :
    Utf8.length_if (w ++ b) isWhitespace = .ok 0 ∧ Js.matchLineComment (w ++ b) = 0 ∧
      Js.matchBlockComment (w ++ b) = ⟨0, false⟩ ∧ matchNumber (w ++ b) = .ok {} ∧ classifyStringPrefix (w ++ b) = none ∧
      (w ++ b)[if startsWith (w ++ b) b!"b" then 1 else 0]? ≠ some c!"'" ∧ startsWith (w ++ b) b!"'" = false := by
  obtain ⟨c, r, e, h0, hc⟩ := Identifier.first h
  have hq : ∀ q ∈ b!"'\"#", (w ++ b)[w.length]? ≠ some q := by
    intro q hm he
    cases b with
    | nil => simp at he
    | cons x b =>
      simp at he
      subst he
      exact notFirst_cons.1 hq hm
  have hu : c ≠ c!"_" := by
    cases w with
    | nil => simp at h0
    | cons d w => simp at e hu; rw [← e.1]; exact hu
  have key := name_byte c ⟨cppStart_byte c hc, hu⟩
  simp at key
  obtain ⟨⟨k1, k2, k3, k4, k5⟩, k6⟩ := key
  refine ⟨utf8_length_if_zero (Identifier.noFirst h start_space), ?_, ?_, ?_, ?_, ?_, ?_⟩
  · rw [e]; simp [Js.matchLineComment, startsWith_cons_cons, Ne.symm k1]
  · rw [e]; simp [Js.matchBlockComment, startsWith_cons_cons, Ne.symm k1]
  · have : matchCommonNumber (w ++ b) numberOptions = {} := by
      rw [e]
      exact matchCommonNumber_none (by simp [numberOptions]) (by simp [numberOptions])
        (by simp [numberOptions, startsWith_cons_cons, Ne.symm k4]) k6 k4 k5 hu
    unfold matchNumber
    rw [this]
    rfl
  · unfold classifyStringPrefix
    rw [List.find?_eq_none.2, Option.map_none]
    intro p hpm
    obtain ⟨e1, e2, e3, e4, e5⟩ := prefix_bytes p hpm
    have e6 := word_prefix p hpm
    rw [e1, not_prefix h e5 ⟨e3, e4⟩ (hq _ (by simp only [List.mem_cons] at e2 ⊢; grind))]
    simp
  · refine not_at h ?_ (by unfold CppId.Start CppId.Continue; decide +kernel) (hq _ (by simp))
    split <;> omega
  · rw [e]; simp [startsWith_cons_cons, Ne.symm k2]

theorem word_piece {w b : Bytes} {ty : HT} (h : Id (w ++ b) w.length) (hu : w.head? ≠ some c!"_") (hq : NotFirst b!"'\"#" b)
    (ht : highlightByCode w = some ty ∨ (highlightByCode w = none ∧ ty = .name ∧ b.head? ≠ some c!"!")) :
    Piece highlight w [⟨0, w.length, ty⟩] b := by
  have hi := Cpp.matchIdentifier_eq h
  obtain ⟨_, _, _, h0, _⟩ := Identifier.first h
  have hw : w ≠ [] := by rintro rfl; simp at h0
  obtain ⟨h1, h2, h3, h5, h6, h7, h8⟩ := word_facts h hu hq
  refine token_piece (ts := [⟨0, w.length, ty, .normal⟩]) hw h1 fun debug opts => ?_
  unfold expectToken HM.or expectLineComment expectBlockComment expectCharOrByte
    expectStringLiteral expectNumber expectLifetime expectIdentifierOrKeyword
  simp [h2, h3, h5, h6, h7, h8, hi, hw]
  rcases ht with ht | ⟨ht, rfl, hb⟩
  · simp [ht]
    rw [wp_emitAdv_iff (by simp) h0 (by simp)]
    simp [HS.emitted]
  · simp [ht, startsWith_one_false (by simpa [← List.head?_eq_getElem?] using hb)]
    rw [wp_emitAdv_iff (by simp) h0 (by simp)]
    simp [HS.emitted]

theorem macro_piece {w b : Bytes} (h : Id (w ++ b!"!" ++ b) w.length) (h' : highlightByCode w = none) (hu : w.head? ≠ some c!"_") :
    Piece highlight (w ++ b!"!") (parts 0 [(w, .name_macro), (b!"!", .name_macro_delim)]) b := by
  rw [List.append_assoc] at h
  have hi := Cpp.matchIdentifier_eq h
  obtain ⟨_, _, _, h0, _⟩ := Identifier.first h
  have hw : w ≠ [] := by rintro rfl; simp at h0
  obtain ⟨h1, h2, h3, h5, h6, h7, h8⟩ := word_facts h hu (by simp [NotFirst])
  rw [← partsEmit_token]
  refine token_piece (by simp) (by rw [List.append_assoc]; exact h1) fun debug opts => ?_
  rw [List.append_assoc]
  unfold expectToken HM.or expectLineComment expectBlockComment expectCharOrByte
    expectStringLiteral expectNumber expectLifetime expectIdentifierOrKeyword
  simp at h1 h2 h3 h5 h6 h7 h8 hi
  simp [h2, h3, h5, h6, h7, h8, hi, hw, h', startsWith_cons_cons]
  rw [wp_emitAdv_iff (by simp) h0 (by simp), wp_emitAdv_iff (by simp [HS.emitted]) (by simp) (by simp [HS.emitted])]
  simp [HS.emitted, partsEmit, optEmit, hw]

theorem byte_start (c : UInt8) : (0x80 ≤ c.toNat ∨ isAlpha c = true ∨ c = c!"_") → b!"'\\#".contains c = false := by
  revert c; apply forall_byte; decide +kernel

theorem lifetime_piece {w b : Bytes} {ty ty' : HT} (h : Id (w ++ b) w.length) (hb : b.head? ≠ some c!"'")
    (ht : b.head? ≠ some c!":" ∧ ty = .name_lifetime_delim ∧ ty' = .name_lifetime ∨
      b.head? = some c!":" ∧ ty = .name_label_delim ∧ ty' = .name_label) :
    Piece highlight (b!"'" ++ w) (parts 0 [(b!"'", ty), (w, ty')]) b := by
  have hi := Cpp.matchIdentifier_eq h
  obtain ⟨c, r, e, h0, hc⟩ := Identifier.first h
  have hw : w ≠ [] := by rintro rfl; simp at h0
  have hq : (w ++ b)[w.length]? ≠ some c!"'" := by
    rw [List.getElem?_append_right (by omega)]
    simpa [← List.head?_eq_getElem?] using hb
  have key := byte_start c (cppStart_byte c hc)
  simp at key
  have h1 : charContent (w ++ b) = none := by
    obtain ⟨d, q, rest, e1, e2, _, e3, _⟩ := id h
    obtain ⟨c', q', r', e4, e5, e6, _⟩ := firstChar_of_decode (s := w ++ b) (by simp [hw])
    obtain ⟨_, rfl, _⟩ := firstChar_unique e2 e5 (by rw [← e1, e4])
    have := not_at h e3 (by unfold CppId.Start CppId.Continue; decide +kernel) hq
    have := startsWith_one_false (s := (w ++ b).drop q.length) (q := c!"'") (by simpa using this)
    rw [e] at this e6 ⊢
    simp [charContent, key, e6, this]
  have h2 : Js.matchLineComment (c!"'" :: (w ++ b)) = 0 := by simp [Js.matchLineComment, startsWith_cons_cons]
  have h3 : Js.matchBlockComment (c!"'" :: (w ++ b)) = ⟨0, false⟩ := by simp [Js.matchBlockComment, startsWith_cons_cons]
  have h4 : classifyStringPrefix (c!"'" :: (w ++ b)) = none := by
    simp [classifyStringPrefix, stringPrefixes, startsWith_cons_cons]
  have h5 : matchNumber (c!"'" :: (w ++ b)) = .ok {} := by
    unfold matchNumber
    rw [matchCommonNumber_none (by simp [numberOptions]) (by simp [numberOptions])
        (by simp [numberOptions, startsWith_cons_cons]) (by decide) (by decide) (by decide) (by decide)]
    rfl
  have h6 : startsWith (w ++ b) b!"#r" = false := by
    rw [e]
    simp [startsWith_cons_cons, Ne.symm key.2.2]
  rw [← partsEmit_token]
  refine token_piece (by simp) (space_zero (by decide) rfl) fun debug opts => ?_
  unfold expectToken HM.or expectLineComment expectBlockComment expectCharOrByte
    expectStringLiteral expectNumber expectLifetime emitLifetime
  simp [h2, h3, h4, h1, h5, startsWith_cons_cons, h6, hi, hw]
  have k1 : (c!"'" :: (w ++ b)).drop (1 + w.length) = b := by simp [Nat.add_comm 1]
  have k2 : startsWith b b!"'" = false := startsWith_one_false (by simpa [← List.head?_eq_getElem?] using hb)
  rw [k1]
  have k3 : (if startsWith b b!":" = true then HT.name_label_delim else HT.name_lifetime_delim) = ty ∧
      (if startsWith b b!":" = true then HT.name_label else HT.name_lifetime) = ty' := by
    rcases ht with ⟨h, rfl, rfl⟩ | ⟨h, rfl, rfl⟩
    · rw [startsWith_one_false (by simpa [← List.head?_eq_getElem?] using h)]
      simp
    · obtain ⟨x, v, rfl⟩ := List.exists_cons_of_ne_nil (l := b) (by rintro rfl; simp at h)
      cases h
      simp [startsWith_cons_cons]
  rw [k3.1, k3.2, wp_emitAdv_iff (by simp) (by simp) (by simp), wp_emitAdv_iff (by simp [HS.emitted]; omega) h0 (by simp [HS.emitted])]
  simp [HS.emitted, k2, partsEmit, optEmit, hw]
  omega

theorem symbols_first : ∀ w ∈ symbols, ∃ c t, w = c :: t ∧ (isWhitespace c.toNat || isDigitBase c 10 || b!"'_0br\"c".contains c ||
    !decide (c.toNat < 0x80) || Cpp.isIdStart c.toNat) = false := by
  have : symbols.all (fun w => match w with
    | c :: _ => !(isWhitespace c.toNat || isDigitBase c 10 || b!"'_0br\"c".contains c ||
      !decide (c.toNat < 0x80) || Cpp.isIdStart c.toNat)
    | [] => false) = true := by decide +kernel
  intro w hw
  have := List.all_eq_true.1 this w hw
  cases w with
  | nil => cases this
  | cons c t => exact ⟨c, t, rfl, by simpa only [Bool.not_eq_true'] using this⟩

theorem symbol_piece {w : Bytes} {ty : HT} {b : Bytes} (h : LongestIn symbols (w ++ b) w.length) (h' : (w, ty) ∈ words)
    (comment : ¬ b!"//" <+: w ++ b ∧ ¬ b!"/*" <+: w ++ b)
    (number : w = b!"." → ∀ c, b.head? = some c → ¬ DecDigit c) : Piece highlight w [⟨0, w.length, ty⟩] b := by
  have hw : w ∈ symbols := by simpa using h.1
  obtain ⟨c, t, e, hc⟩ := symbols_first w hw
  simp only [Bool.or_eq_false_iff, and_assoc] at hc
  obtain ⟨k1, k2, k3, k5, k6⟩ := hc
  have hs : matchSymbol (w ++ b) = some w := by
    rw [matchSymbol_eq]
    exact symbol_eq symbols_sorted symbols_tokens sortedSymbols_iff h
  have ht : highlightByCode w = some ty := (C33_rust w ty).2 h'
  simp at k3 k5
  have h4 : matchNumber (w ++ b) = .ok {} := by
    have : matchCommonNumber (w ++ b) numberOptions = {} := by
      rw [e]
      refine matchCommonNumber_none' nofun nofun (fun p hp => ?_) k2 k3.2.2.1 (fun e' => ?_) k3.2.1
      · simp [numberOptions] at hp
        rcases hp with rfl | rfl | rfl <;> simp [startsWith_cons_cons, Ne.symm k3.2.2.1]
      · subst e'
        cases t with
        | nil =>
          cases b with
          | nil => rfl
          | cons x b =>
            have := number e x rfl
            simpa [← isDigit_iff] using this
        | cons x t =>
          have : symbols.all (fun w => match w with | 0x2e :: x :: _ => !isDigit x | _ => true) = true := by decide +kernel
          have := List.all_eq_true.1 this w hw
          rw [e] at this
          simpa using this
    unfold matchNumber
    rw [this]
    rfl
  have h0 : ∀ p : UInt8, ∀ q, c ≠ p → startsWith (w ++ b) (p :: q) = false := by
    intro p q hp
    simp [e, startsWith_cons_cons, Ne.symm hp]
  have h1 : Utf8.length_if (w ++ b) isWhitespace = .ok 0 := by rw [e]; exact space_zero k5 k1
  have h2 : Js.matchLineComment (w ++ b) = 0 := by simp [Js.matchLineComment, not_startsWith comment.1]
  have h3 : Js.matchBlockComment (w ++ b) = ⟨0, false⟩ := by simp [Js.matchBlockComment, not_startsWith comment.2]
  have h5 : Cpp.matchIdentifier (w ++ b) = 0 := by
    rw [e]
    exact Cpp.matchIdentifier_start k5 k6 _
  have h6 : classifyStringPrefix (w ++ b) = none := by
    simp [classifyStringPrefix, stringPrefixes, h0, k3]
  have h7 : (w ++ b)[0]? ≠ some c!"'" := by simp [e, k3]
  have h9 : 0 < w.length := by simp [e]
  have hne : w ≠ [] := by simp [e]
  refine token_piece (ts := [⟨0, w.length, ty, .normal⟩]) hne h1 fun debug opts => ?_
  unfold expectToken HM.or expectLineComment expectBlockComment expectCharOrByte
    expectStringLiteral expectNumber expectLifetime expectIdentifierOrKeyword expectRawIdentifier expectSymbol
  simp [h2, h3, h4, h5, h6, h7, h0, k3, hs, ht]
  rw [wp_emitAdv_iff (by simp) h9 (by simp)]
  simp [HS.emitted]

theorem word_first : ∀ w ty, (w, ty) ∈ words → w.head? ≠ some c!"_" := by
  have : words.all (fun x => x.1.head? != some c!"_") = true := by decide +kernel
  intro w ty h
  have := List.all_eq_true.1 this _ h
  simpa using this

/-- A Rust program gets the tokens of its lexical elements. -/
theorem C58_rust : Exact highlight Element := by
  refine exact_of_pieces (fun a ts b h => ?_) (fun _ _ => rfl)
  have none_of : ∀ {w : Bytes}, (∀ ty, (w, ty) ∉ words) → highlightByCode w = none := by
    intro w h
    cases hh : highlightByCode w with
    | none => rfl
    | some ty => exact absurd ((C33_rust w ty).1 hh) (h ty)
  have head : ∀ {xs : Bytes} {x : UInt8}, NotFirst xs b → x ∈ xs → b.head? ≠ some x := fun h hx e => h _ e hx
  cases h with
  | space h h' => exact space_piece h h'
  | lineComment h => rw [line_parts (by simp)]; exact C55_rust_line_comments _ _ h
  | blockComment h => rw [enclosed_parts (by simp) (by simp)]; exact C55_rust_block_comments _ _ trivial h
  | string hp h h' => exact string_piece hp h h'
  | raw hp h h' h'' => exact raw_piece hp h h' h''
  | character hp h h' => exact character_piece hp h h'
  | number hR h h' => exact C57_rust _ hR _ _ h h'
  | keyword h h' h'' => exact word_piece h (word_first _ _ h') h'' (.inl ((C33_rust _ _).2 h'))
  | name h h' h'' h''' =>
    exact word_piece h h''' (fun c hc hm => h'' c hc (by simp at hm ⊢; grind)) (.inr ⟨none_of h', rfl, head h'' (by simp)⟩)
  | macroName h h' h'' => exact macro_piece h (none_of h') h''
  | lifetime h h' => exact lifetime_piece h (head h' (by simp)) (.inl ⟨head h' (by simp), rfl, rfl⟩)
  | label h h' => exact lifetime_piece h (by rw [h']; simp) (.inr ⟨h', rfl, rfl⟩)
  | symbol h h' h1 h2 => exact symbol_piece h h' h1 h2

theorem space_of {s : Bytes} {n : Nat} (h : Utf8.length_if s isWhitespace = .ok n) : LongestChars Space s n := by
  obtain ⟨m, h1, _, h2⟩ := length_if_chars _ _ space_iff s
  rw [h] at h1
  cases h1
  exact h2

/-- The program `f!('a',b"\n",&'b x)// y`. -/
example : ∃ es, highlight true {} b!"f!('a',b\"\\n\",&'b x)// y" = .ok (true, es) ∧ es.map Emit.token =
    [⟨0, 1, .name_macro⟩, ⟨1, 1, .name_macro_delim⟩, ⟨2, 1, .symbol_parens⟩, ⟨3, 1, .string_delim⟩, ⟨4, 1, .string⟩,
      ⟨5, 1, .string_delim⟩, ⟨6, 1, .symbol_punc⟩, ⟨7, 1, .string_decor⟩, ⟨8, 1, .string_delim⟩, ⟨9, 2, .string_escape⟩,
      ⟨11, 1, .string_delim⟩, ⟨12, 1, .symbol_punc⟩, ⟨13, 1, .symbol_op⟩, ⟨14, 1, .name_lifetime_delim⟩,
      ⟨15, 1, .name_lifetime⟩, ⟨17, 1, .name⟩, ⟨18, 1, .symbol_parens⟩, ⟨19, 2, .comment_delim⟩, ⟨21, 2, .comment⟩] := by
  have noId : ∀ {c : UInt8} {r : Bytes}, c.toNat < 0x80 ∧ Cpp.isIdStart c.toNat = false → ∀ m, ¬ Id (c :: r) m := by
    intro c r ⟨h1, h2⟩ m
    refine not_identifier (fun _ => (noFirst_ascii h1).2 ?_) _
    rw [← cppStart_iff, h2]
    decide
  have symbol : ∀ {w b : Bytes} {ty}, (w, ty) ∈ words ∧ LongestIn symbols (w ++ b) w.length ∧ w ∈ [b!"(", b!")", b!"&", b!","] →
      Element w [⟨0, w.length, ty⟩] b := by
    intro w b ty ⟨h, h1, h4⟩
    simp at h4
    rcases h4 with rfl | rfl | rfl | rfl <;> exact .symbol h1 h (by simp [List.cons_prefix_cons]) (fun h => absurd h (by decide))
  have p0 : Program Element b!"// y" _ :=
    .next b!"// y" [] _ _ .nil (.lineComment (t := b!" y") (line_of_match (by decide +kernel))) rfl rfl
  have p1 := Program.next b!")" _ _ _ p0 (symbol (ty := .symbol_parens)
    ⟨by decide +kernel, longestIn_of_all (by decide +kernel) (by decide +kernel), by decide⟩) rfl rfl
  have p2 := Program.next b!"x" _ _ _ p1
    (.name (Cpp.identifier_of_match (by decide +kernel) (by decide)) (notWord (by decide +kernel)) (by simp [NotFirst]) (by decide)) rfl rfl
  have p3 := Program.next b!" " _ _ _ p2 (.space (by decide) (space_of (by decide +kernel))) rfl rfl
  have p4 := Program.next b!"'b" _ _ _ p3 (.lifetime (w := b!"b") (Cpp.identifier_of_match (by decide +kernel) (by decide))
    (by simp [NotFirst])) rfl rfl
  have p5 := Program.next b!"&" _ _ _ p4 (symbol (ty := .symbol_op)
    ⟨by decide +kernel, longestIn_of_all (by decide +kernel) (by decide +kernel), by decide⟩) rfl rfl
  have p6 := Program.next b!"," _ _ _ p5 (symbol (ty := .symbol_punc)
    ⟨by decide +kernel, longestIn_of_all (by decide +kernel) (by decide +kernel), by decide⟩) rfl rfl
  have p7 := Program.next b!"b\"\\n\"" _ _ _ p6 (.string (p := b!"b") (es := [(b!"", b!"\\n")]) (t := b!"") (by simp)
    ⟨nofun, ends_of_match (matchEscape_facts .byte (by decide)) (by decide +kernel)
      (by simp [escapesIn, byteEscapes, EscapeForms.Unbraced, Braced]), nofun⟩ (noId (by decide +kernel))) rfl rfl
  have p8 := Program.next b!"," _ _ _ p7 (symbol (ty := .symbol_punc)
    ⟨by decide +kernel, longestIn_of_all (by decide +kernel) (by decide +kernel), by decide⟩) rfl rfl
  have p9 := Program.next b!"'a'" _ _ _ p8 (.character (p := b!"") (w := b!"a") (ty := .string) (by simp)
    (.inl ⟨_, firstChar_ascii (a := c!"a") (by decide) _, by simp [NotFirst], rfl⟩) (noId (by decide +kernel))) rfl rfl
  have p10 := Program.next b!"(" _ _ _ p9 (symbol (ty := .symbol_parens)
    ⟨by decide +kernel, longestIn_of_all (by decide +kernel) (by decide +kernel), by decide⟩) rfl rfl
  have p11 := Program.next b!"f!" _ _ _ p10 (.macroName (w := b!"f") (Cpp.identifier_of_match (by decide +kernel) (by decide))
    (notWord (by decide +kernel)) (by decide)) rfl rfl
  exact C58_rust _ _ p11 true {}

end Ulight.Rust
