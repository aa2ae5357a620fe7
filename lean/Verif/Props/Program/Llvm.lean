import Verif.Hl.Program
import Verif.Props.Written.Llvm

/-!
# C58 for LLVM
-/

namespace Ulight.Llvm

open Spec Spec.Llvm

theorem hex_eq {x y : UInt8} {r : Bytes} (hx : Hex x) (hy : Hex y) :
    matchCommonEscapeAt .hex_2 (c!"\\" :: x :: y :: r) 1 = ⟨3, false⟩ := by
  have he : (matchCommonEscapeAt .hex_2 (c!"\\" :: x :: y :: r) 1).erroneous = false := by
    rw [Bool.eq_false_iff]
    intro h
    refine escapeAt_erroneous .hex_2 (by simp [Braced]) _ 1 h [x, y] r rfl ⟨rfl, ?_⟩
    simp [hx, hy]
  have h1 := (escapeAt_spec .hex_2 (by simp [Braced]) (c!"\\" :: x :: y :: r) 1 he).1
  have h2 := escapeAt_le .hex_2 (c!"\\" :: x :: y :: r) 1 (by simp)
  generalize matchCommonEscapeAt .hex_2 (c!"\\" :: x :: y :: r) 1 = e at *
  obtain ⟨n, _⟩ := e
  simp at he h1 h2 ⊢
  subst he
  simp
  omega

theorem string_loop : StringLoop stringStep b!"\"" (NotFirst b!"\"\\") (fun w _ => IsEsc w) where
  plain := by
    intro k env s Q hk hc hQ
    rw [List.drop_eq_getElem_cons hk, notFirst_cons] at hc
    unfold stringStep
    simp at hc
    simp [hk, hc, hQ]
  escape := by
    intro t w r i out ext env Q he hl hQ
    rcases he with rfl | ⟨x, y, rfl, hx, hy⟩
    · unfold stringStep stringEscape
      simp
      rw [wp_emitAdvIf_iff hl (by simp)]
      simp [startsWith_cons_cons]
      rw [wp_emitAdv_iff (by simp at hl ⊢; omega) (by simp) (by simp)]
      simpa [HS.emitted, optEmit] using hQ
    · have h1 := hex_eq (r := r) hx hy
      have h2 : c!"\\" ≠ x := by
        rintro rfl
        simp [Hex] at hx
      unfold stringStep stringEscape
      simp
      rw [wp_emitAdvIf_iff hl (by simp)]
      simp at h1 h2
      simp [startsWith_cons_cons, h1, h2]
      rw [wp_emitAdv_iff (by simp at hl ⊢; omega) (by simp) (by simp)]
      simpa [HS.emitted, optEmit] using hQ
  close := by
    intro t r i out ext env Q hl hQ
    unfold stringStep
    simp
    rw [wp_emitAdvIf_iff hl (by simp)]
    simp
    rw [wp_emitAdv_iff (by simp at hl ⊢; omega) (by simp) (by simp)]
    simpa [HS.emitted, optEmit] using hQ
  nonempty := by
    rintro _ _ (rfl | ⟨x, y, rfl, _⟩) <;> simp

theorem string_piece {b : Bytes} {es : List (Bytes × Bytes)} {t : Bytes}
    (h : StringContent (NotFirst b!"\"\\") (fun w _ => IsEsc w) (b!"\"" ++ b) es t) :
    Piece highlight ((quoted b!"\"" es t).flatMap Prod.fst) (parts 0 (quoted b!"\"" es t)) b := by
  have e : (quoted b!"\"" es t).flatMap Prod.fst ++ b = b!"\"" ++ ((content es t).flatMap Prod.fst ++ (b!"\"" ++ b)) := by
    simp [quoted]
  rw [← partsEmit_token]
  refine piece_of_step (by simp [quoted]) fun debug opts => ok_of_wp ?_
  rw [e]
  unfold step consumeAnything consumeString
  simp [isDigit, startsWith_cons_cons]
  rw [wp_emitAdv_iff (by simp) (by simp) (by simp)]
  simp [HS.emitted]
  refine wp_string_loop string_loop h ?_ ?_ ?_
  · simp
    omega
  · simp
    omega
  · simp [quoted, partsEmit, optEmit]
    omega

theorem symbol_piece {c : UInt8} {ty : HT} {b : Bytes} (h : (c, ty) ∈ symbols) : Piece highlight [c] [⟨0, 1, ty⟩] b := by
  refine piece_of_step (ts := [⟨0, 1, ty, .normal⟩]) (by simp) fun debug opts => ok_of_wp ?_
  unfold step consumeAnything
  simp [symbols] at h
  rcases h with ⟨rfl, rfl⟩ | ⟨rfl, rfl⟩ | ⟨rfl, rfl⟩ | ⟨rfl, rfl⟩ | ⟨rfl, rfl⟩ | ⟨rfl, rfl⟩ | ⟨rfl, rfl⟩ | ⟨rfl, rfl⟩ |
    ⟨rfl, rfl⟩ | ⟨rfl, rfl⟩ | ⟨rfl, rfl⟩
  all_goals
    simp [isDigit]
    rw [wp_emitAdv_iff (by simp) (by simp) (by simp)]
    simp [HS.emitted]

theorem space_piece {c : UInt8} {b : Bytes} (h : c ∈ b!" \t\r\n") : Piece highlight [c] [] b := by
  refine piece_of_step (ts := []) (by simp) fun debug opts => ok_of_wp ?_
  unfold step consumeAnything
  simp at h
  simp [h]
  rw [wp_advance_iff (by simp)]
  simp [HS.adv]

theorem opt_parts (a w : Bytes) (ta tw : HT) (ha : a ≠ []) :
    parts 0 [(a, ta), (w, tw)] = ⟨0, a.length, ta⟩ :: opt a.length w tw := by
  simp [parts, opt, ha]

/-- Texts that are sequences of the lexical elements of LLVM get exactly the tokens of the elements. -/
theorem C58_llvm : Exact highlight Element := by
  refine exact_of_pieces ?_ fun _ _ => rfl
  intro a ts b h
  cases h with
  | space h => exact space_piece h
  | lineComment h =>
    rw [opt_parts _ _ _ _ (by simp)]
    exact C55_llvm_comments _ _ _ h
  | blockComment h =>
    rw [enclosed_parts (by simp) (by simp)]
    exact C55_llvm_block_comments _ _ trivial h
  | string h => exact string_piece h
  | var h =>
    rw [opt_parts _ _ _ _ (by simp)]
    exact (C55_llvm_names _ _ h).1
  | function h =>
    rw [opt_parts _ _ _ _ (by simp)]
    exact (C55_llvm_names _ _ h).2
  | word h h' h'' =>
    obtain ⟨h1, h2, h3, h4, h5⟩ := h
    refine C55_llvm_words _ _ _ h1 h2 h' (fun c r e => h3 c (by simp [e])) h4 h5 ?_
    rintro ⟨t, rfl⟩
    simp at h''
  | label h =>
    obtain ⟨h1, h2, h3, h4, h5⟩ := h
    have := C55_llvm_labels _ _ h1 (by simpa using h2) (fun c r e => h3 c (by simp [e])) h4 h5
    simpa [parts, opt, h1] using this
  | number hR h h' =>
    rcases List.mem_append.1 hR with hR | hR
    · exact C57_llvm _ hR _ _ h h'
    · exact C57_llvm_signed _ hR _ _ h h'
  | symbol h => exact symbol_piece h

example : ∃ es, highlight true {} b!"a:\n ret i8 %x, c\"\\0a\";y" = .ok (true, es) ∧
    es.map Emit.token = [⟨0, 1, .name_label_decl⟩, ⟨1, 1, .name_label_delim⟩, ⟨4, 3, .keyword_control⟩,
      ⟨8, 2, .keyword_type⟩, ⟨11, 1, .name_var_delim⟩, ⟨12, 1, .name_var⟩, ⟨13, 1, .symbol_punc⟩, ⟨15, 1, .string_decor⟩,
      ⟨16, 1, .string_delim⟩, ⟨17, 3, .string_escape⟩, ⟨20, 1, .string_delim⟩, ⟨21, 1, .comment_delim⟩, ⟨22, 1, .comment⟩] := by
  have hp : Program Element [] [] := .nil
  have hp := hp.before b!";y" (.lineComment (t := b!"y") (e := b!"") ⟨rfl, by decide, by decide⟩)
  have hp := hp.before b!"\"\\0a\"" (.string (es := [(b!"", b!"\\0a")]) (t := b!"")
    ⟨nofun, .inr ⟨c!"0", c!"a", rfl, by simp [Hex], by simp [Hex]⟩, nofun⟩)
  have hp := hp.before b!"c" (.word ⟨by simp, by simp [Longest, WordChar, Letter, DecDigit], by simp [DecDigit], by decide,
    by decide⟩ (.special (ty := .string_decor) (by decide +kernel)) (by simp))
  have hp := hp.before b!" " (.space (by decide))
  have hp := hp.before b!"," (.symbol (ty := .symbol_punc) (by decide))
  have hp := hp.before b!"%x" (.var (w := b!"x") (by simp [Longest, NameChar, Letter, DecDigit]))
  have hp := hp.before b!" " (.space (by decide))
  have hp := hp.before b!"i8" (.word ⟨by simp, by simp [Longest, WordChar, Letter, DecDigit], by simp [DecDigit], by decide,
    by decide⟩ (.integer ⟨b!"8", rfl, by simp, by simp [DecDigit]⟩) (by simp))
  have hp := hp.before b!" " (.space (by decide))
  have hp := hp.before b!"ret" (.word ⟨by simp, by simp [Longest, WordChar, Letter, DecDigit], by simp [DecDigit], by decide,
    by decide⟩ (.special (ty := .keyword_control) (by decide +kernel)) (by simp))
  have hp := hp.before b!" " (.space (by decide))
  have hp := hp.before b!"\n" (.space (by decide))
  have hp := hp.before b!"a:" (.label (w := b!"a") ⟨by simp, by simp [Longest, WordChar, Letter, DecDigit], by simp [DecDigit],
    by decide, by decide⟩)
  exact C58_llvm.of_program ⟨_, hp, rfl⟩ _ _

end Ulight.Llvm
