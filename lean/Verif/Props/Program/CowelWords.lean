import Verif.Spec.Elements.Cowel
import Verif.Hl.Grammar
import Verif.Hl.ProgramStep
import Verif.Props.Lang.Cowel

/-!
# C58: comments, escape sequences and words of COWEL
-/

namespace Ulight.Cowel

open Spec Spec.Cowel Phrase

variable {α β : Type} {L : Nat} {P Q : Phrase} {v : α}

/-- The function reads phrases of the kind `P`, if at most `L` bytes are left, and returns `v`. -/
abbrev R (L : Nat) (m : HM Unit α) (P : Phrase) (v : α) : Prop := ReadsAll () L m P v

theorem starts_iff {t s : Bytes} : startsWith s t = true ↔ t <+: s :=
  ⟨fun h => by obtain ⟨r, e⟩ := startsWith_iff.1 h; exact ⟨r, e.symm⟩, fun ⟨r, e⟩ => startsWith_iff.2 ⟨r, e.symm⟩⟩

theorem starts_not {t s : Bytes} : startsWith s t = false ↔ ¬ t <+: s := by
  rw [← Bool.not_eq_true, starts_iff]

theorem lit {t : Bytes} {ty : HT} (h0 : t ≠ []) : R L (emitIfStarts t ty) (word t ty) true := by
  rintro env _ _ b - ⟨rfl, rfl⟩
  exact reads_rem (reads_this (startsWith_iff.2 ⟨b, rfl⟩) ((reads_emit rfl h0).bind_last reads_pure))

theorem no_lit {t : Bytes} {ty : HT} : R L (emitIfStarts t ty) (before fun b => ¬ t <+: b) false := by
  rintro env _ _ b - ⟨rfl, rfl, h⟩
  exact reads_rem (reads_else (by simp [starts_iff]; exact h) reads_pure)

theorem maybe_lit {t : Bytes} {ty : HT} (h0 : t ≠ []) : ReadsAny () L (emitIfStarts t ty) (maybe t ty) := (lit h0).any.or no_lit.any

theorem lit_then {t : Bytes} {ty : HT} {X Y : HM Unit α} (h0 : t ≠ []) (h : R L X P v) :
    R (L + 1) (emitIfStarts t ty >>= fun c => if c = true then X else Y) (word t ty ⬝ P) v := by
  refine (lit h0).less (by rintro _ _ _ ⟨rfl, rfl⟩; exact h0) ?_
  rw [if_pos rfl]
  exact h

theorem lit_else {t : Bytes} {ty : HT} {X : HM Unit Bool} {env : HEnv} {b : Bytes} (h : ¬ t <+: b) :
    Reads env (emitIfStarts t ty >>= fun c => if c = true then X else pure false) () [] [] b false () :=
  Reads.bind_none (no_lit (L := b.length) _ _ _ _ (by simp) ⟨rfl, rfl, h⟩) (reads_else (by simp) reads_pure)

/-! ## Comments -/

theorem lineComment_eq {t b : Bytes} (ht : Longest InLine (t ++ b) t.length) : matchLineComment (b!"\\:" ++ t ++ b) = 2 + t.length := by
  have h0 : matchLineComment (b!"\\:" ++ t ++ b) ≠ 0 := fun h => absurd (by simp) (lineComment_zero h)
  obtain ⟨-, h2, h3, h4⟩ := lineComment_facts h0
  have := Longest.unique h4 (by simpa using ht) (by rw [List.length_drop]; omega) (by simp)
  omega

theorem lineComment : R L expectLineComment LineComment true := by
  rintro env _ _ b - ⟨_, _, t, _, rfl, rfl, ⟨rfl, rfl⟩, ht, rfl⟩
  have hm := lineComment_eq ht
  refine reads_rem ?_
  rw [hm]
  dsimp only
  refine reads_this (by omega) ?_
  refine Reads.bind_none (w := ()) (y := ()) ?_ ?_
  · exact ⟨[], rfl, fun i out _ => by simp [HM.hassert]⟩
  · exact (reads_emit (by rfl) (by simp)).bind ((reads_emitIf (by omega)).bind_last reads_pure)

theorem no_lineComment {env : HEnv} {b : Bytes} (h : ¬ b!"\\:" <+: b) : Reads env expectLineComment () [] [] b false () := by
  refine reads_rem ?_
  have : matchLineComment b = 0 := by unfold matchLineComment; rw [if_pos (by simp [starts_not.2 h])]
  rw [List.nil_append, this]
  exact reads_else (by simp) reads_pure

theorem blockComment_eq {t b : Bytes} (h1 : ∀ k, k < t.length → ¬ OccursAt b!"*\\" (t ++ b) k) (h2 : b = [] ∨ b!"*\\" <+: b) :
    matchBlockComment (b!"\\*" ++ t ++ b) = if startsWith b b!"*\\" = true then ⟨2 + t.length + 2, true⟩ else ⟨2 + t.length, false⟩ := by
  have hs := findSub_spec b!"*\\" (t ++ b)
  unfold matchBlockComment
  rw [if_neg (by simp), show (b!"\\*" ++ t ++ b).drop 2 = t ++ b from rfl]
  by_cases hb : b!"*\\" <+: b
  · rw [if_pos (starts_iff.2 hb)]
    have ho : OccursAt b!"*\\" (t ++ b) t.length := by
      obtain ⟨r, rfl⟩ := hb
      exact ⟨t, r, by simp, rfl⟩
    cases hk : findSub b!"*\\" (t ++ b) with
    | none => rw [hk] at hs; exact absurd ho (hs _)
    | some k =>
      rw [hk] at hs
      have : k = t.length := by
        rcases Nat.lt_trichotomy k t.length with h | h | h
        · exact absurd hs.1 (h1 k h)
        · exact h
        · exact absurd ho (hs.2 _ h)
      subst this
      simp
      omega
  · rw [if_neg (by rw [starts_iff]; exact hb)]
    obtain rfl : b = [] := by exact h2.resolve_right hb
    cases hk : findSub b!"*\\" (t ++ []) with
    | none => simp; omega
    | some k =>
      rw [hk] at hs
      obtain ⟨u, w, e, hl⟩ := hs.1
      have := congrArg List.length e
      simp at this
      exact absurd hs.1 (h1 k (by omega))

theorem blockComment : R L expectBlockComment BlockComment true := by
  rintro env _ _ b - ⟨_, _, _, _, rfl, rfl, ⟨rfl, rfl⟩, t, _, w, ws, rfl, rfl, ⟨h1, h2, rfl⟩, h3⟩
  have hm := blockComment_eq h1 h2
  have ha : ∀ {v : Bool}, v = true → ∀ {a b : Bytes} {ts : List Token} {m : HM Unit Bool}, Reads env m () a ts b true () →
      Reads env (HM.hassert v >>= fun _ => m) () a ts b true () := by
    rintro _ rfl a b ts m h
    exact Reads.bind_none ⟨[], rfl, fun i out _ => by simp [HM.hassert]; rfl⟩ h
  refine reads_rem ?_
  rw [show b!"\\*" ++ (t ++ w) ++ b = b!"\\*" ++ t ++ (w ++ b) by simp, hm]
  clear hm
  rcases h3 with ⟨rfl, rfl⟩ | ⟨rfl, rfl, h3⟩
  · rw [show startsWith (b!"*\\" ++ b) b!"*\\" = true from starts_iff.2 (by simp)]
    simp only [if_true]
    refine reads_this (by simp) (ha (by simp) ?_)
    refine (reads_emit (by rfl) (by simp)).bind ?_
    exact (reads_emitIf (by omega)).bind ((reads_emit (by rfl) (by simp)).bind_last reads_pure)
  · have hf : startsWith b b!"*\\" = false := by
      rw [← Bool.not_eq_true, starts_iff]
      simpa using h3
    simp only [List.nil_append, hf, Bool.false_eq_true, if_false]
    refine reads_this (by simp) (ha (by simp) ?_)
    refine (reads_emit (by rfl) (by simp)).bind ?_
    simp only [List.append_nil, shift, List.map_nil]
    exact (reads_emitIf (by omega)).bind_last reads_pure

theorem no_blockComment {env : HEnv} {b : Bytes} (h : ¬ b!"\\*" <+: b) : Reads env expectBlockComment () [] [] b false () := by
  refine reads_rem ?_
  have : matchBlockComment b = {} := by unfold matchBlockComment; rw [if_pos (by simp [starts_not.2 h])]
  rw [List.nil_append, this]
  exact reads_else (by simp) reads_pure

theorem comment : R L (HM.or expectLineComment expectBlockComment) Spec.Cowel.Comment true := by
  intro env a ts b hl h
  rcases h with h | h
  · exact reads_or (lineComment _ _ _ _ hl h)
  · refine reads_or_else (no_lineComment ?_) (blockComment _ _ _ _ hl h)
    obtain ⟨_, _, _, _, rfl, rfl, ⟨rfl, rfl⟩, _⟩ := h
    simp

theorem no_comment {env : HEnv} {b : Bytes} (h : NoComment b) :
    Reads env (HM.or expectLineComment expectBlockComment) () [] [] b false () :=
  reads_or_else (a := []) (ts := []) (no_lineComment h.1) (no_blockComment h.2)

theorem blanks_read {space : UInt8 → Bool} {S : UInt8 → Prop} (hs : ∀ c, space c = true ↔ S c) :
    R L (HM.rem >>= fun r => HM.loop (r.length + 1) (blankStep space) ()) (Blanks S) () := by
  have hlen : ∀ a ts b, all S a ts b → Ascii.length_if (a ++ b) space = a.length := by
    rintro a ts b ⟨h, rfl⟩
    exact length_if_eq (by simpa only [hs] using h) (by simp)
  refine ReadsAll.star ?_ ?_
  · rintro env _ _ b hl ⟨u, us, z, zs, rfl, rfl, h1, h2⟩
    have hz : z ≠ [] := by
      rcases h2 with ⟨_, _, _, _, rfl, rfl, ⟨rfl, rfl⟩, _⟩ | ⟨_, _, _, _, rfl, rfl, ⟨rfl, rfl⟩, _⟩ <;> simp
    have hu : us = [] := h1.2
    subst hu
    refine reads_rem (reads_else (by simp [hz]) ?_)
    refine Reads.bind (y := ()) (w := ()) (reads_advance (by rw [List.append_assoc]; exact hlen _ _ _ h1)) ?_
    exact (comment (L := (z ++ b).length) _ _ _ _ (Nat.le_refl _) h2).bind_last (reads_this rfl reads_pure)
  · rintro env _ _ b hl ⟨u, us, z, zs, rfl, rfl, h1, rfl, rfl, h2⟩
    have hu : us = [] := h1.2
    subst hu
    simp only [List.append_nil, shift, List.map_nil]
    refine reads_rem ?_
    by_cases h0 : (u ++ b).isEmpty = true
    · have : u = [] := by simp at h0; exact h0.1
      subst this
      exact reads_this h0 reads_pure
    · exact reads_else h0 ((reads_advance (hlen _ _ _ h1)).bind_last ((no_comment h2).bind_none (reads_else (by simp) reads_pure)))

theorem blanks : R L consumeBlank (Blanks Space) () := blanks_read isSpace_iff

theorem hblanks : R L consumeHorizontalBlank (Blanks Horizontal) () := blanks_read isHorizontal_iff

/-! ## Names -/

theorem ident_eq {s : Bytes} {n : Nat} (h : Ident s n) (hn : n ≤ s.length) : matchIdentifier s = n := by
  obtain ⟨⟨c, hc, h1⟩, h2, h3⟩ := h
  have : matchIdentifier s ≠ 0 := fun h => identifier_zero h c hc h1
  exact Longest.unique (identifier_ident this).2.2 h3 (identifier_le s) hn

theorem no_ident {s : Bytes} (h : ∀ c, s.head? = some c → ¬ Start c) : matchIdentifier s = 0 := by
  refine Classical.byContradiction fun h' => ?_
  obtain ⟨⟨c, hc, h1⟩, _⟩ := identifier_ident h'
  exact h c (by rwa [List.head?_eq_getElem?]) h1

theorem blank_eq {s : Bytes} {n : Nat} (h : Blank s n) (hn : n ≤ s.length) : matchBlank s = n := by
  have hc : ∀ {s w : Bytes}, s.take 2 = w → w.length = 2 → ∃ t, s = w ++ t := fun {s w} h _ => ⟨s.drop 2, by rw [← h, List.take_append_drop]⟩
  induction h with
  | @done s sp c =>
    have h1 : matchWhitespace s = 0 := Longest.unique (whitespace_facts s).2 ⟨by simp, sp⟩ (whitespace_facts s).1 (by omega)
    simp at c
    have h2 : matchLineComment s = 0 := Classical.byContradiction fun h => c.1 (lineComment_facts h).1
    have h3 : (matchBlockComment s).length = 0 := Classical.byContradiction fun h => c.2 (blockComment_facts h).1
    rw [matchBlank_eq, if_neg (by rw [h1]; decide), if_neg (by rw [h2]; decide), if_neg (by rw [h3]; decide)]
  | @space s k n h b ih =>
    have h1 : matchWhitespace s = k := Longest.unique (whitespace_facts s).2 h (whitespace_facts s).1 (by omega)
    have := ih (by simp; omega)
    by_cases h0 : k = 0
    · subst h0
      simpa using this
    · rw [matchBlank_eq, if_pos (by omega), h1, this]
  | @line s k n h l b ih =>
    obtain ⟨t, rfl⟩ := hc h rfl
    have h1 : matchWhitespace (b!"\\:" ++ t) = 0 := Longest.unique (whitespace_facts _).2 ⟨by simp, by simp [Space]⟩ (whitespace_facts _).1 (by omega)
    have := ih (by simp at hn ⊢; omega)
    obtain ⟨u, r, rfl, hu, -⟩ := split_at (n := k) (s := t) (by simp at hn ⊢; omega)
    subst hu
    have h2 : matchLineComment (b!"\\:" ++ (u ++ r)) = 2 + u.length := by
      rw [← List.append_assoc]
      exact lineComment_eq (by simpa using l)
    rw [matchBlank_eq, if_neg (by rw [h1]; decide), if_pos (by omega), h2, this]
  | @block s k n h l c b ih =>
    obtain ⟨t, rfl⟩ := hc h rfl
    have h1 : matchWhitespace (b!"\\*" ++ t) = 0 := Longest.unique (whitespace_facts _).2 ⟨by simp, by simp [Space]⟩ (whitespace_facts _).1 (by omega)
    have h2 : matchLineComment (b!"\\*" ++ t) = 0 := by simp [matchLineComment]
    have := ih (by simp at hn ⊢; omega)
    obtain ⟨u, r, e, hu⟩ := c
    rw [List.drop_append_of_le_length (by simp)] at e
    simp at e
    subst e hu
    have h3 : matchBlockComment (b!"\\*" ++ (u ++ (c!"*" :: c!"\\" :: r))) = ⟨2 + u.length + 2, true⟩ := by
      rw [← List.append_assoc, blockComment_eq (t := u) (b := c!"*" :: c!"\\" :: r) ?_ (Or.inr ⟨r, rfl⟩), if_pos (by simp)]
      intro j hj ho
      have := l j (by simpa using ho)
      omega
    rw [matchBlank_eq, if_neg (by rw [h1]; decide), if_neg (by rw [h2]; decide), h3, if_pos (by simp)]
    simp only
    rw [show 2 + u.length + 2 = u.length + 4 by omega, this]
  | @open_ s h l =>
    obtain ⟨t, rfl⟩ := hc h rfl
    have h1 : matchWhitespace (b!"\\*" ++ t) = 0 := Longest.unique (whitespace_facts _).2 ⟨by simp, by simp [Space]⟩ (whitespace_facts _).1 (by omega)
    have h2 : matchLineComment (b!"\\*" ++ t) = 0 := by simp [matchLineComment]
    have h3 := blockComment_eq (t := t) (b := []) (fun k _ ho => l k (by simpa using ho)) (Or.inl rfl)
    rw [List.append_nil, if_neg (by decide +kernel)] at h3
    rw [matchBlank_eq, if_neg (by rw [h1]; decide), if_neg (by rw [h2]; decide), h3, if_pos (by simp)]
    have := (matchBlank_spec (List.drop (2 + t.length) (b!"\\*" ++ t))).2
    simp at this ⊢
    omega

theorem isCall_iff (s : Bytes) : isCall s = true ↔ ∃ n, IsCall s n := by
  unfold isCall
  simp only [Bool.and_eq_true, decide_eq_true_eq]
  constructor
  · rintro ⟨h1, h2⟩
    refine ⟨_, identifier_ident h1, _, (matchBlank_spec _).1, ?_⟩
    cases hc : s[matchIdentifier s + matchBlank (s.drop (matchIdentifier s))]? with
    | none => simp [hc] at h2
    | some c => exact ⟨c, by simpa [hc] using h2, rfl⟩
  · rintro ⟨n, h1, m, h2, c, hc, h3⟩
    have hl := (List.getElem?_eq_some_iff.1 h3).1
    have h4 := ident_eq h1 (by omega)
    have h5 := blank_eq h2 (by simp; omega)
    rw [h4, h5, h3]
    refine ⟨?_, by simpa using hc⟩
    have := h1.2.1
    omega

/-! ## Escape sequences -/

theorem numeric_eq {t : Bytes} {k : Nat} (hk : matchNumericEscape (b!"\\+" ++ t) = k) (h0 : k ≠ 0) :
    matchEscape (b!"\\+" ++ t) = ⟨k, false⟩ := by
  unfold matchEscape
  simp [isEscapeable] at hk ⊢
  rw [hk, if_neg h0]

theorem name_eq {w t : Bytes} (hw : ∀ c ∈ w, c ≠ c!"'" ∧ InLine c) {x : UInt8} (hx : ¬ (x ≠ c!"'" ∧ InLine x)) :
    Ascii.find_if (b!"\\'" ++ (w ++ x :: t)) (fun c => c = c!"'" || c = 0x0D || c = 0x0A) 2 = some (w.length + 2) := by
  have hP : ∀ c : UInt8, (c = c!"'" || c = 0x0D || c = 0x0A) = false ↔ (c ≠ c!"'" ∧ InLine c) := by
    intro c
    unfold InLine
    simp
    grind
  have hl : Longest (fun c => c ≠ c!"'" ∧ InLine c) (w ++ x :: t) w.length := ⟨by simpa using hw, by simpa using hx⟩
  rcases find_if_longest (b!"\\'" ++ (w ++ x :: t)) _ _ hP 2 (by simp) with ⟨j, c, hj, h2, hl', hc, hpc, hL⟩ | ⟨hj, hL⟩
  · rw [hj]
    have := Longest.unique hL (by simpa using hl) (by simp at hl' ⊢; omega) (by simp)
    congr 1
    omega
  · have := Longest.unique hL (by simpa using hl) (by simp) (by simp)
    simp at this

theorem charName_inLine {w : Bytes} (h : CharName w) : ∀ c ∈ w, c ≠ c!"'" ∧ InLine c := by
  intro c hc
  have := (isCharacterName_iff c).2 (h.chars c hc)
  have hb : ∀ c : UInt8, isCharacterName c = true → c ≠ c!"'" ∧ c ≠ 0x0A ∧ c ≠ 0x0D := by
    apply forall_byte
    decide +kernel
  exact hb c this

theorem nameEscape_eq {w t : Bytes} (hw : ∀ c ∈ w, c ≠ c!"'" ∧ InLine c) (r : Bool) (hr : r = false ↔ CharName w) :
    matchEscape (b!"\\'" ++ w ++ b!"'" ++ t) = ⟨w.length + 3, r⟩ := by
  have h1 := name_eq (t := t) hw (x := c!"'") (by simp)
  have h2 : b!"\\'" ++ w ++ b!"'" ++ t = b!"\\'" ++ (w ++ c!"'" :: t) := by simp
  have h3 : matchEscape (b!"\\'" ++ (w ++ c!"'" :: t)) = matchNameEscape (b!"\\'" ++ (w ++ c!"'" :: t)) := by
    simp [matchEscape, isEscapeable]
  rw [h2, h3]
  unfold matchNameEscape
  rw [h1]
  simp only
  rw [if_neg (by simp)]
  by_cases h0 : w = []
  · subst h0
    have : r = true := by
      cases r with
      | true => rfl
      | false => exact absurd rfl (hr.1 rfl).nonempty
    simp [this]
  have hl := List.length_pos_iff.2 h0
  rw [if_neg (by omega)]
  have e : (List.drop 2 (b!"\\'" ++ (w ++ c!"'" :: t))).take (w.length + 2 - 2) = w := by simp
  rw [e]
  by_cases hc : CharName w
  · obtain rfl := hr.2 hc
    rw [if_neg]
    simp only [Bool.or_eq_true, decide_eq_true_eq, not_or, Bool.not_eq_true', Bool.not_eq_false, List.all_eq_true]
    exact ⟨⟨hc.head, hc.last⟩, fun x hx => (isCharacterName_iff x).2 (hc.chars x hx)⟩
  · obtain rfl : r = true := by
      cases r with
      | true => rfl
      | false => exact absurd (hr.1 rfl) hc
    rw [if_pos]
    refine Classical.byContradiction fun hb => hc ?_
    simp only [Bool.or_eq_true, decide_eq_true_eq, not_or, Bool.not_eq_true', Bool.not_eq_false, List.all_eq_true] at hb
    exact ⟨h0, hb.1.1, hb.1.2, fun x hx => (isCharacterName_iff x).1 (hb.2 x hx)⟩

theorem take_app {s w : Bytes} {n : Nat} (h : s.take n = w) (hn : n ≤ s.length) : ∃ t, s = w ++ t ∧ n = w.length :=
  ⟨s.drop n, by rw [← h, List.take_append_drop], by rw [← h, List.length_take]; omega⟩

theorem escape_eq {s : Bytes} {n : Nat} (h : Spec.Cowel.Escape s n) (hn : n ≤ s.length) :
    (∃ c t, s = c!"\\" :: c :: t ∧ (c = 0x0D ∨ c = 0x0A) ∧ n = 1) ∨
    ((∃ c t, s = c!"\\" :: c :: t ∧ InLine c) ∧ matchEscape s = ⟨n, false⟩ ∧ 0 < n) := by
  cases h with
  | plain h =>
    right
    generalize e : s.take n = w at h
    obtain ⟨t, rfl, hl⟩ := take_app e hn
    clear e
    simp only [List.mem_cons, List.not_mem_nil, or_false] at h
    rcases h with rfl | rfl | rfl | rfl <;> subst hl <;> exact ⟨⟨_, _, rfl, by simp [InLine]⟩, by simp [matchEscape, isEscapeable], by simp⟩
  | @newline c h h' hc =>
    left
    obtain ⟨t, rfl, hl⟩ := take_app h hn
    cases t with
    | nil => simp at h'
    | cons d t =>
      simp at h'
      subst h'
      refine ⟨d, t, rfl, ?_, hl⟩
      simp at hc
      grind
  | @code8 w t h l hw hn' =>
    subst h hn'
    right
    refine ⟨⟨_, _, by simp only [List.cons_append, List.nil_append]; rfl, by simp [InLine]⟩, ?_, by simp⟩
    rw [List.append_assoc]
    refine numeric_eq ?_ (by simp)
    have h8 : 8 ≤ hexRun 0 (List.drop 2 (b!"\\+" ++ (w ++ t))) := (hexRun_iff _ _).2 ⟨by simp; omega, by simpa [← l] using hw⟩
    rcases numericEscape_spec (b!"\\+" ++ (w ++ t)) with h | h | h
    · exact absurd (h.2 (by simp)) (by omega)
    · exact h.2.1
    · exact absurd h8 h.2.2.2
  | @code4 w t h l hw hn' other =>
    subst h hn'
    right
    refine ⟨⟨_, _, by simp only [List.cons_append, List.nil_append]; rfl, by simp [InLine]⟩, ?_, by simp⟩
    rw [List.append_assoc] at *
    refine numeric_eq ?_ (by simp)
    have h4 : 4 ≤ hexRun 0 (List.drop 2 (b!"\\+" ++ (w ++ t))) := (hexRun_iff _ _).2 ⟨by simp; omega, by simpa [← l] using hw⟩
    rw [ge_iff_le, ← hexRun_iff] at other
    rcases numericEscape_spec (b!"\\+" ++ (w ++ t)) with h | h | h
    · exact absurd (h.2 (by simp)) (by omega)
    · exact absurd h.2.2 other
    · exact h.2.1
  | @name w t h hw hn' =>
    subst h hn'
    right
    refine ⟨⟨_, _, by simp only [List.cons_append, List.nil_append]; rfl, by simp [InLine]⟩, ?_, by simp⟩
    exact nameEscape_eq (charName_inLine hw) false (by simpa using hw)

theorem badEscape_eq {s : Bytes} {n : Nat} (h : BadEscape s n) (hn : n ≤ s.length) :
    (s = b!"\\" ∨ ∃ c t, s = c!"\\" :: c :: t ∧ InLine c) ∧ matchEscape s = ⟨n, true⟩ ∧ 0 < n := by
  cases h with
  | alone h hn' =>
    subst h hn'
    exact ⟨Or.inl rfl, by simp [matchEscape], by simp⟩
  | code h other =>
    obtain ⟨t, rfl, rfl⟩ := take_app h hn
    refine ⟨Or.inr ⟨_, _, rfl, by simp [InLine]⟩, ?_, by simp⟩
    rw [ge_iff_le, ← hexRun_iff] at other
    rcases numericEscape_spec (b!"\\+" ++ t) with h | h | h
    · have := h.1
      simp at this
      simp [matchEscape, isEscapeable, this]
    · exact absurd (by omega) other
    · exact absurd h.2.2.1 other
  | @name w t h hw hn' other =>
    subst h hn'
    exact ⟨Or.inr ⟨_, _, by simp only [List.cons_append, List.nil_append]; rfl, by simp [InLine]⟩, nameEscape_eq hw true (by simpa using other), by simp⟩
  | @openName k h l e =>
    obtain ⟨t, rfl, rfl⟩ := take_app h hn
    refine ⟨Or.inr ⟨_, _, rfl, by simp [InLine]⟩, ?_, by simp⟩
    have h3 : matchEscape (b!"\\'" ++ t) = matchNameEscape (b!"\\'" ++ t) := by simp [matchEscape, isEscapeable]
    rw [h3]
    unfold matchNameEscape
    have hP : ∀ c : UInt8, (c = c!"'" || c = 0x0D || c = 0x0A) = false ↔ (c ≠ c!"'" ∧ InLine c) := by
      intro c
      unfold InLine
      simp
      grind
    rcases find_if_longest (b!"\\'" ++ t) _ _ hP 2 (by simp) with ⟨j, c, hj, h2, hl', hc, hpc, hL⟩ | ⟨hj, hL⟩
    · rw [hj]
      simp only
      rw [if_pos]
      · simp
      intro hq
      obtain ⟨i, rfl⟩ := Nat.exists_eq_add_of_le h2
      have hq' : t[i]? = some c!"'" := by
        rw [List.getElem?_append_right (by simp)] at hq
        simpa using hq
      simp at e l hL
      have hi := (List.getElem?_eq_some_iff.1 hq').1
      by_cases hk : k ≤ t.length
      · obtain rfl : i = k := Longest.unique (by simpa using hL) l (by omega) hk
        exact e hq'
      · exact absurd rfl ((l.1 c!"'" (List.mem_take_iff_getElem.2 ⟨i, by omega, (List.getElem?_eq_some_iff.1 hq').2⟩)).1)
    · rw [hj]
      simp
  | @reserved c h hc start other =>
    obtain ⟨t, rfl, rfl⟩ := take_app h hn
    have hr : isReservedEscapable c = true := (isReserved_iff c).2 ⟨hc, start, other⟩
    have he : ¬ isEscapeable c = true := by
      rw [isEscapeable_iff]
      simp at other ⊢
      grind
    have hu : c < 0x80 := by simpa [UInt8.lt_iff_toNat_lt] using hc
    refine ⟨Or.inr ⟨_, _, rfl, ?_⟩, ?_, by simp⟩
    · simp at other
      simp [InLine]
      grind
    · simp [matchEscape, he, hu, hr]
  | @unicode c p rest h hc ascii hn' =>
    subst h hn'
    have h0 : p ≠ [] := by
      rcases hc with ⟨_, rfl⟩ | ⟨_, h, _⟩
      · intro e
        have := congrArg List.length e
        unfold utf8 at this
        split at this <;> (try split at this) <;> (try split at this) <;> simp at this
      · exact h
    obtain ⟨q, p, rfl⟩ := List.exists_cons_of_ne_nil h0
    have hq := ascii q (by simp)
    have hf : ∀ q : UInt8, 0x80 ≤ q.toNat → isEscapeable q = false ∧ ¬ q < 0x80 ∧ q ≠ 0x0A ∧ q ≠ 0x0D := by
      apply forall_byte
      decide +kernel
    have := hf q hq
    refine ⟨Or.inr ⟨q, p ++ rest, by simp, this.2.2⟩, ?_, by omega⟩
    obtain ⟨p', rest', e, hl, hfc⟩ := Utf8.firstChar_decode (s := q :: p ++ rest) (by simp)
    have hu := (Utf8.firstChar_unique hc hfc e).2.1
    have hl' : (Utf8.decodeOrReplacement (q :: (p ++ rest))).2 = p.length + 1 := by
      rw [← hu] at hl
      simpa using hl
    simp [matchEscape, this, hl']
    omega

theorem escape_newline {c : UInt8} {t : Bytes} (hc : c = 0x0D ∨ c = 0x0A) : matchEscape (c!"\\" :: c :: t) = ⟨2, false⟩ ∨
    ∃ u, c = 0x0D ∧ t = 0x0A :: u ∧ matchEscape (c!"\\" :: c :: t) = ⟨3, false⟩ := by
  by_cases h : startsWith (c!"\\" :: c :: t) b!"\\\r\n" = true
  · right
    obtain ⟨u, e⟩ := startsWith_iff.1 h
    simp at e
    obtain ⟨rfl, rfl⟩ := e
    exact ⟨u, rfl, rfl, by simp [matchEscape, isEscapeable]⟩
  · left
    unfold matchEscape
    rcases hc with rfl | rfl
    · rw [if_neg (by simp)]
      simp only [List.getElem?_cons_succ, List.getElem?_cons_zero]
      rw [if_pos (by decide), if_neg (by decide), if_neg (by decide), if_neg h]
    · rw [if_neg (by simp)]
      simp only [List.getElem?_cons_succ, List.getElem?_cons_zero]
      rw [if_pos (by decide), if_neg (by decide), if_neg (by decide), if_neg h]

theorem escapes : R L expectEscape Escapes true := by
  rintro env a ts b - h
  have ha : ∀ n, (matchEscape (a ++ b)).length = n → ∀ c t, a ++ b = c!"\\" :: c :: t → InLine c →
      ¬ (((a ++ b).take n).getLast? = some 0x0A ∨ ((a ++ b).take n).getLast? = some 0x0D) := by
    rintro n rfl c t e hc
    rcases matchEscape_facts (a ++ b) with h | ⟨-, h0, h1, z, hz, h | h⟩
    · rw [h.1]
      simp
    · obtain ⟨c', t', e', hc', -⟩ := h.2.2
      rw [e] at e'
      cases e'
      exact absurd hc hc'
    · rw [getLast_take h0 h1, hz]
      have := h.1
      simp [InLine] at this ⊢
      exact this
  have key : ∀ r, matchEscape (a ++ b) = ⟨a.length, r⟩ → a ≠ [] → (a ++ b = b!"\\" ∨ ∃ c t, a ++ b = c!"\\" :: c :: t ∧ InLine c) →
      ts = [⟨0, a.length, if r then .error else .string_escape⟩] → Reads env expectEscape () a ts b true () := by
    rintro r hr h0 h1 rfl
    have hp := List.length_pos_iff.2 h0
    refine reads_rem (reads_else (by rw [hr]; simpa using h0) (reads_else ?_ ?_))
    · rw [hr]
      rw [Bool.or_eq_true, decide_eq_true_eq, decide_eq_true_eq]
      rcases h1 with h1 | ⟨c, t, e, hc⟩
      · rw [h1]
        have : a.length = 1 := by
          have := congrArg List.length h1
          simp at this
          omega
        rw [this]
        simp
      · exact ha _ (by rw [hr]) c t e hc
    · rw [hr]
      cases r <;> exact (reads_emit (by rfl) h0).bind_last reads_pure
  rcases h with ⟨h, rfl⟩ | ⟨h, rfl⟩
  · rcases escape_eq h (by simp) with ⟨c, t, e, hc, hl⟩ | ⟨hc, hm⟩
    · obtain ⟨x, rfl⟩ := List.length_eq_one_iff.1 hl
      obtain ⟨rfl, rfl⟩ := List.cons.inj (show x :: b = _ from e)
      rcases escape_newline (t := t) hc with h | ⟨u, rfl, rfl, h⟩
      · refine reads_rem (reads_else (by simp [h]) (reads_this ?_ ((reads_emit (by rfl) (by simp)).bind_last reads_pure)))
        simp [h]
        grind
      · exact reads_rem (reads_else (by simp [h]) (reads_this (by simp [h]) ((reads_emit (by rfl) (by simp)).bind_last reads_pure)))
    · obtain ⟨c, t, e, hc⟩ := hc
      exact key false hm.1 (List.length_pos_iff.1 hm.2) (Or.inr ⟨c, t, e, hc⟩) rfl
  · have hm := badEscape_eq h (by simp)
    exact key true hm.2.1 (List.length_pos_iff.1 hm.2.2) hm.1 rfl

theorem noEscape_eq {b : Bytes} (h : NoEscape b) : (matchEscape b).length = 0 := by
  rcases h with h | ⟨c, t, rfl, h⟩
  · rcases matchEscape_facts b with h' | ⟨h', -⟩
    · exact h'.1
    · cases b with
      | nil => simp at h'
      | cons x b =>
        simp at h'
        subst h'
        exact absurd (by simp) h
  · have hb : ∀ c : UInt8, (isIdStart c = true ∨ c ∈ b!":*( ") → isEscapeable c = false ∧ c < 0x80 ∧ isReservedEscapable c = false := by
      apply forall_byte
      decide +kernel
    have := hb c (by rwa [isIdStart_iff])
    simp [matchEscape, this]

theorem no_escape {env : HEnv} {b : Bytes} (h : NoEscape b) : Reads env expectEscape () [] [] b false () := by
  refine reads_rem (reads_this ?_ reads_pure)
  simpa using noEscape_eq h

/-! ## Names of members -/

theorem escapes_length {a b : Bytes} {ts : List Token} (h : Escapes a ts b) : (matchEscape (a ++ b)).length = a.length ∨
    ∃ c t, a = b!"\\" ∧ b = c :: t ∧ ((c = 0x0D ∨ c = 0x0A) ∧ (matchEscape (a ++ b)).length = 2 ∨
      ∃ u, c = 0x0D ∧ t = 0x0A :: u ∧ (matchEscape (a ++ b)).length = 3) := by
  rcases h with ⟨h, rfl⟩ | ⟨h, rfl⟩
  · rcases escape_eq h (by simp) with ⟨c, t, e, hc, hl⟩ | ⟨hc, hm⟩
    · right
      obtain ⟨x, rfl⟩ := List.length_eq_one_iff.1 hl
      obtain ⟨rfl, rfl⟩ := List.cons.inj (show x :: b = _ from e)
      refine ⟨c, t, rfl, rfl, ?_⟩
      rcases escape_newline (t := t) hc with h | ⟨u, rfl, rfl, h⟩
      · exact Or.inl ⟨hc, by simp [h]⟩
      · exact Or.inr ⟨u, rfl, rfl, by simp [h]⟩
    · left
      rw [hm.1]
  · left
    rw [(badEscape_eq h (by simp)).2.1]

theorem escapes_first {a b : Bytes} {ts : List Token} (h : Escapes a ts b) : ∃ t, a = c!"\\" :: t := by
  have key : 0 < a.length → (a ++ b = b!"\\" ∨ ∃ c t, a ++ b = c!"\\" :: c :: t) → ∃ t, a = c!"\\" :: t := by
    intro h0 h
    cases a with
    | nil => simp at h0
    | cons x a =>
      simp at h
      exact ⟨a, by rcases h with h | h <;> simp [h]⟩
  rcases h with ⟨h, -⟩ | ⟨h, -⟩
  · rcases escape_eq h (by simp) with ⟨c, t, e, hc, hl⟩ | ⟨⟨c, t, e, -⟩, hm⟩
    · exact key (by omega) (Or.inr ⟨c, t, e⟩)
    · exact key hm.2 (Or.inr ⟨c, t, e⟩)
  · have := badEscape_eq h (by simp)
    exact key this.2.2 (this.1.imp id fun ⟨c, t, e, _⟩ => ⟨c, t, e⟩)

theorem comment_first {a b : Bytes} {ts : List Token} (h : Comment a ts b) : ∃ c t, a = c!"\\" :: c :: t ∧ c ∈ b!":*" := by
  rcases h with ⟨_, _, t, _, rfl, rfl, ⟨rfl, rfl⟩, -⟩ | ⟨_, _, t, _, rfl, rfl, ⟨rfl, rfl⟩, -⟩
  · exact ⟨_, _, rfl, by simp⟩
  · exact ⟨_, _, rfl, by simp⟩

theorem comment_length {a b : Bytes} {ts : List Token} (h : Comment a ts b) : matchLineComment (a ++ b) = a.length ∨
    matchLineComment (a ++ b) = 0 ∧ (matchBlockComment (a ++ b)).length = a.length := by
  rcases h with ⟨_, _, t, _, rfl, rfl, ⟨rfl, rfl⟩, ht, rfl⟩ | ⟨_, _, _, _, rfl, rfl, ⟨rfl, rfl⟩, t, _, w, ws, rfl, rfl, ⟨h1, h2, rfl⟩, h3⟩
  · left
    rw [lineComment_eq ht]
    simp
    omega
  · right
    refine ⟨by simp [matchLineComment], ?_⟩
    have hm := blockComment_eq h1 h2
    rw [show b!"\\*" ++ (t ++ w) ++ b = b!"\\*" ++ t ++ (w ++ b) by simp, hm]
    rcases h3 with ⟨rfl, rfl⟩ | ⟨rfl, rfl, h3⟩
    · rw [if_pos (starts_iff.2 (by simp))]
      simp
      omega
    · rw [if_neg (by rw [starts_iff]; simpa using h3)]
      simp
      omega

theorem quotedEnd_cons {c : UInt8} {t : Bytes} {n : Nat} (h : QuotedEnd (c :: t) n) (hc : c ≠ c!"\"" ∧ c ≠ c!"\\") :
    ∃ m, n = 1 + m ∧ QuotedEnd t m := by
  generalize e : c :: t = s at h
  cases h with
  | quote h =>
    obtain ⟨u, rfl⟩ := h
    cases e
    exact absurd rfl hc.1
  | char h h' =>
    cases e
    exact ⟨_, rfl, h'⟩
  | escape h h' =>
    obtain ⟨u, rfl⟩ := escapes_first h
    cases e
    exact absurd rfl hc.2
  | comment h h' =>
    obtain ⟨c, u, rfl, -⟩ := comment_first h
    cases e
    exact absurd rfl hc.2

theorem quotedLoop_of {s : Bytes} {n : Nat} (h : QuotedEnd s n) (f : Nat) (hf : s.length < f) : quotedLoop f s = some n := by
  induction f generalizing s n with
  | zero => omega
  | succ f ih =>
    cases h with
    | quote h =>
      obtain ⟨u, rfl⟩ := h
      simp [quotedLoop]
    | @char c s n h h' =>
      simp at hf
      rw [quotedLoop, if_neg h.1, if_neg h.2, ih h' (by omega)]
      simp
    | @escape a ts b n h h' =>
      obtain ⟨u, rfl⟩ := escapes_first h
      simp at hf
      rw [List.cons_append, quotedLoop, if_neg (by decide), if_pos rfl]
      rcases escapes_length h with e | ⟨c, t, hu, rfl, ⟨hc, e⟩ | ⟨w, rfl, rfl, e⟩⟩
      · rw [List.cons_append] at e
        rw [e, if_pos (by simp), ← List.cons_append, List.drop_left, ih h' (by omega)]
        simp
      · simp at hu
        subst hu
        obtain ⟨m, rfl, hm⟩ := quotedEnd_cons h' (by rcases hc with rfl | rfl <;> decide)
        rw [List.nil_append]
        rw [List.cons_append, List.nil_append] at e
        simp at hf
        rw [e, if_pos (by simp), show List.drop 2 (c!"\\" :: c :: t) = t from rfl, ih hm (by omega)]
        simp
        omega
      · simp at hu
        subst hu
        obtain ⟨m, rfl, hm⟩ := quotedEnd_cons h' (by decide)
        obtain ⟨m', rfl, hm'⟩ := quotedEnd_cons hm (by decide)
        rw [List.nil_append]
        rw [List.cons_append, List.nil_append] at e
        simp at hf
        rw [e, if_pos (by simp), show List.drop 3 (c!"\\" :: 0x0D :: 0x0A :: w) = w from rfl, ih hm' (by omega)]
        simp
        omega
    | @comment a ts b n h h' =>
      obtain ⟨c, u, rfl, hc⟩ := comment_first h
      simp at hf
      have hn : (matchEscape (c!"\\" :: c :: (u ++ b))).length = 0 :=
        noEscape_eq (Or.inr ⟨c, _, rfl, Or.inr (by simp at hc ⊢; grind)⟩)
      rw [List.cons_append, List.cons_append, quotedLoop, if_neg (by decide), if_pos rfl, if_neg (by rw [hn]; decide)]
      have hd := List.drop_left (l₁ := c!"\\" :: c :: u) (l₂ := b)
      rcases comment_length h with e | ⟨e, e'⟩
      · rw [List.cons_append, List.cons_append] at e hd
        rw [e, if_pos (by simp), hd, ih h' (by omega)]
        simp
      · rw [List.cons_append, List.cons_append] at e e' hd
        rw [if_neg (by rw [e]; decide), e', if_pos (by simp), hd, ih h' (by omega)]
        simp

theorem comment_of {s : Bytes} {n : Nat} (h : n = matchLineComment s ∨ n = (matchBlockComment s).length) (h0 : n ≠ 0) :
    ∃ ts, Comment (s.take n) ts (s.drop n) ∧ n ≤ s.length := by
  rcases h with rfl | rfl
  · obtain ⟨h1, h2, h3, h4⟩ := lineComment_facts h0
    obtain ⟨t, rfl, -⟩ := take_app h1 (by omega)
    obtain ⟨u, r, rfl, hu, -⟩ := split_at (n := matchLineComment (b!"\\:" ++ t) - 2) (s := t) (by simp at h3 ⊢; omega)
    have e : matchLineComment (b!"\\:" ++ (u ++ r)) = (b!"\\:" ++ u).length := by
      simp only [List.length_append, List.length_cons, List.length_nil]
      omega
    refine Exists.imp (fun ts h => ⟨h, h3⟩) ?_
    rw [e, ← List.append_assoc, List.take_left, List.drop_left]
    exact ⟨_, Or.inl ⟨_, _, u, _, rfl, rfl, ⟨rfl, rfl⟩, by rw [hu]; exact h4, rfl⟩⟩
  · obtain ⟨h1, h2, h3⟩ := blockComment_facts h0
    obtain ⟨t, rfl, -⟩ := take_app h1 (by omega)
    refine Exists.imp (fun ts h => ⟨h, h3.1⟩) ?_
    rcases h3.2 with ⟨-, h4, h5, u, r, e, hu⟩ | ⟨-, hl, h6⟩
    · have e' : t = u ++ b!"*\\" ++ r := by simpa using e
      have hl : (matchBlockComment (b!"\\*" ++ t)).length = (b!"\\*" ++ (u ++ b!"*\\")).length := by
        simp only [List.length_append, List.length_cons, List.length_nil]
        omega
      rw [hl, show b!"\\*" ++ t = b!"\\*" ++ (u ++ b!"*\\") ++ r by rw [e']; simp, List.take_left, List.drop_left]
      refine ⟨_, Or.inr ⟨_, _, _, _, rfl, rfl, ⟨rfl, rfl⟩, u, _, _, _, rfl, rfl, ⟨fun k hk ho => ?_, Or.inr (by simp), rfl⟩, Or.inl ⟨rfl, rfl⟩⟩⟩
      have := h5.1 k (by simpa [e'] using ho)
      omega
    · rw [hl, List.take_length, List.drop_length]
      exact ⟨_, Or.inr ⟨_, _, _, _, rfl, rfl, ⟨rfl, rfl⟩, t, _, [], _, by simp, rfl, ⟨fun k _ h => h6 k (by simpa using h), Or.inl rfl, rfl⟩,
        Or.inr ⟨rfl, rfl, by simp⟩⟩⟩

theorem of_quotedLoop {f : Nat} {s : Bytes} {n : Nat} (h : quotedLoop f s = some n) : QuotedEnd s n := by
  induction f generalizing s n with
  | zero => simp [quotedLoop] at h
  | succ f ih =>
    cases s with
    | nil => simp [quotedLoop] at h
    | cons c t =>
      rw [quotedLoop] at h
      split at h
      · rename_i hc
        subst hc
        cases h
        exact .quote (by simp)
      rename_i hc
      split at h
      · rename_i hb
        subst hb
        split at h
        · rename_i h0
          obtain ⟨m, hm, rfl⟩ := Option.map_eq_some_iff.1 h
          have hq := ih hm
          rcases matchEscape_facts (c!"\\" :: t) with h | ⟨-, h1, h2, z, hz, h | h⟩
          · exact absurd h.1 h0
          · obtain ⟨c, t', e, hc, hl⟩ := h.2.2
            cases e
            have hc' : c = 0x0D ∨ c = 0x0A := by
              simp [InLine] at hc
              grind
            have hE : Escapes b!"\\" [⟨0, 1, .string_escape⟩] (c :: t') :=
              Or.inl ⟨.newline (c := c) rfl rfl (by simp; grind), rfl⟩
            have hne : c ≠ c!"\"" ∧ c ≠ c!"\\" := by rcases hc' with rfl | rfl <;> decide
            rcases hl with hl | ⟨hl, d, u, rfl, hd⟩
            · rw [hl] at hq ⊢
              have := QuotedEnd.escape hE (.char hne hq)
              simpa [← Nat.add_assoc] using this
            · rw [hl] at hq ⊢
              have hd' : d ≠ c!"\"" ∧ d ≠ c!"\\" := by
                simp [InLine] at hd
                constructor <;> rintro rfl <;> simp at hd
              have := QuotedEnd.escape hE (.char hne (.char hd' hq))
              simpa [← Nat.add_assoc] using this
          · have hE : ∃ ts, Escapes (List.take (matchEscape (c!"\\" :: t)).length (c!"\\" :: t)) ts
                (List.drop (matchEscape (c!"\\" :: t)).length (c!"\\" :: t)) := by
              unfold Escapes Phrase.or
              simp only
              rw [List.take_append_drop, List.length_take, Nat.min_eq_left h2]
              cases hr : (matchEscape (c!"\\" :: t)).reserved with
              | true => exact ⟨_, Or.inr ⟨h.2.1 hr, rfl⟩⟩
              | false => exact ⟨_, Or.inl ⟨h.2.2 hr, rfl⟩⟩
            obtain ⟨ts, hE⟩ := hE
            have := QuotedEnd.escape hE hq
            rwa [List.take_append_drop, List.length_take, Nat.min_eq_left h2] at this
        · have comm : ∀ k, (k = matchLineComment (c!"\\" :: t) ∨ k = (matchBlockComment (c!"\\" :: t)).length) → k ≠ 0 →
              (quotedLoop f (List.drop k (c!"\\" :: t))).map (k + ·) = some n → QuotedEnd (c!"\\" :: t) n := by
            intro k hk h0 h
            obtain ⟨m, hm, rfl⟩ := Option.map_eq_some_iff.1 h
            obtain ⟨ts, hC, hl⟩ := comment_of hk h0
            have := QuotedEnd.comment hC (ih hm)
            rwa [List.take_append_drop, List.length_take, Nat.min_eq_left hl] at this
          split at h
          · exact comm _ (Or.inl rfl) (by assumption) h
          · split at h
            · exact comm _ (Or.inr rfl) (by assumption) h
            · cases h
      · obtain ⟨m, hm, rfl⟩ := Option.map_eq_some_iff.1 h
        exact .char ⟨hc, by assumption⟩ (ih hm)

theorem isNamed_iff (s : Bytes) : isNamed s = true ↔ IsNamed s := by
  unfold isNamed nameLength
  simp only [Bool.and_eq_true, decide_eq_true_eq, ne_eq, List.getElem?_drop, Nat.add_zero]
  constructor
  · rintro ⟨⟨h0, h1⟩, h2⟩
    split at h0
    · rename_i hi
      simp only [hi, not_false_eq_true, if_true] at h1 h2
      exact ⟨_, Or.inl (identifier_ident hi), _, (matchBlank_spec _).1, h1, h2⟩
    · rename_i hi
      simp only [hi, if_false] at h1 h2
      refine ⟨_, Or.inr ?_, _, (matchBlank_spec _).1, h1, h2⟩
      cases s with
      | nil => simp [matchQuotedName] at h0
      | cons c t =>
        rw [matchQuotedName] at h0 ⊢
        split at h0
        · rename_i hc
          subst hc
          rw [if_pos rfl]
          cases hq : quotedLoop (t.length + 1) t with
          | none => simp [hq] at h0
          | some m => exact ⟨t, m, rfl, of_quotedLoop hq, rfl⟩
        · exact absurd rfl h0
  · rintro ⟨n, hn, m, hb, h1, h2⟩
    have hl := (List.getElem?_eq_some_iff.1 h1).1
    have hm := blank_eq hb (by simp; omega)
    have key : (if ¬ matchIdentifier s = 0 then matchIdentifier s else matchQuotedName s) = n ∧ n ≠ 0 := by
      rcases hn with h | ⟨t, k, rfl, hq, rfl⟩
      · have := h.2.1
        rw [ident_eq h (by omega), if_pos (by omega)]
        exact ⟨rfl, by omega⟩
      · rw [if_neg, matchQuotedName, if_pos rfl, quotedLoop_of hq _ (by omega)]
        · simp
        · simp [no_ident (s := c!"\"" :: t) (by intro c hc; simp at hc; subst hc; rw [← isIdStart_iff]; decide)]
    rw [key.1, hm]
    exact ⟨⟨key.2, h1⟩, by simpa [Nat.add_assoc] using h2⟩

/-! ## Words -/

theorem exactly_ident {w b : Bytes} (h : Exactly w (w ++ b)) (hw : w.all isId = true) (h0 : ∃ c t, w = c :: t ∧ Start c) :
    Ident (w ++ b) w.length := by
  obtain ⟨c, t, rfl, hc⟩ := h0
  refine ⟨⟨c, rfl, hc⟩, by simp, fun x hx => ?_, h.2⟩
  rw [List.take_left] at hx
  exact (isId_iff x).1 (List.all_eq_true.1 hw x hx)

theorem ident_first {a b : Bytes} (h : Ident (a ++ b) a.length) : ∃ c t, a = c :: t ∧ Start c := by
  obtain ⟨⟨c, hc, hs⟩, h0, -⟩ := h
  cases a with
  | nil => simp at h0
  | cons x a =>
    simp at hc
    subst hc
    exact ⟨_, _, rfl, hs⟩

theorem start_facts {c : UInt8} (h : Start c) : c ≠ c!"-" ∧ isDigit c = false ∧ c ≠ c!"." ∧ c ≠ c!"\"" ∧ c ≠ c!"{" ∧ c ≠ c!"(" := by
  rw [← isIdStart_iff] at h
  revert c
  apply forall_byte
  decide +kernel

theorem functionName_reads : R L functionName (or (Name .name_function_decl) (before NoName)) () := by
  rintro env a ts b - (⟨h, rfl⟩ | ⟨rfl, rfl, h⟩)
  · refine reads_rem ?_
    have := ident_eq h (by simp)
    obtain ⟨c, t, rfl, -⟩ := ident_first h
    rw [this]
    simpa [opt] using reads_emitIf (a := c :: t) (by rfl)
  · refine reads_rem ?_
    have := no_ident h
    simp only [List.nil_append, this]
    simpa [opt] using reads_emitIf (a := []) (by rfl)

theorem word_start {a b : Bytes} {ts : List Token} (h : Word a ts b) : (∃ c t, a = c :: t ∧ Start c) ∨ a = b!"-infinity" := by
  cases h with
  | word h => exact Or.inl (ident_first h)
  | infinity => exact Or.inr rfl
  | function h =>
    obtain ⟨_, _, v, _, rfl, rfl, ⟨-, rfl, rfl⟩, -⟩ := h
    exact Or.inl ⟨_, _, rfl, by rw [← isIdStart_iff]; decide⟩

theorem words_read : R L expectIdentifierLike Word true := by
  intro env a ts b hl h
  cases h with
  | word h hf =>
    refine reads_rem ?_
    have hi := ident_eq h (by simp)
    obtain ⟨c, t, rfl, hc⟩ := ident_first h
    have hc' := start_facts hc
    refine reads_else (by simp [hc'.1.symm]) ?_
    rw [hi]
    refine reads_else (by simp) (Reads.bind_none (w := ()) (y := ()) ⟨[], rfl, fun i out _ => ?_⟩ ?_)
    · simp [HM.dassert, hc'.2.1]
    · have e : List.take (c :: t).length (c :: t ++ b) = c :: t := List.take_left
      rw [e]
      refine reads_else hf ?_
      by_cases h1 : c :: t ∈ [b!"unit", b!"null", b!"let"]
      · refine reads_this (by simpa [or_assoc] using h1) ?_
        rw [show wordType (c :: t) = .keyword by unfold wordType; rw [if_pos h1]]
        exact (reads_emit (by rfl) (by simp)).bind_last reads_pure
      refine reads_else (by simpa [and_assoc] using h1) ?_
      by_cases h2 : c :: t ∈ [b!"true", b!"false"]
      · rw [show wordType (c :: t) = .bool_ by unfold wordType; rw [if_neg h1, if_pos h2]]
        simp only [List.mem_cons, List.not_mem_nil, or_false] at h2
        rcases h2 with h2 | h2
        · rw [h2]
          exact reads_this rfl ((reads_emit (by rfl) (by simp)).bind_last reads_pure)
        · rw [h2]
          exact reads_else (by decide) (reads_this rfl ((reads_emit (by rfl) (by simp)).bind_last reads_pure))
      refine reads_else (fun h => h2 (by simp [h])) (reads_else (fun h => h2 (by simp [h])) ?_)
      by_cases h3 : c :: t = b!"infinity"
      · rw [show wordType (c :: t) = .value by unfold wordType; rw [if_neg h1, if_neg h2, if_pos h3], h3]
        exact reads_this rfl ((reads_emit (by rfl) (by simp)).bind_last reads_pure)
      · rw [show wordType (c :: t) = .name_var by unfold wordType; rw [if_neg h1, if_neg h2, if_neg h3]]
        exact reads_else h3 ((reads_emit (by rfl) (by simp)).bind_last reads_pure)
  | function h =>
    obtain ⟨_, _, v, vs, rfl, rfl, ⟨h1, rfl, rfl⟩, h2⟩ := h
    refine reads_rem ?_
    have hi := ident_eq (exactly_ident h1 (by decide) ⟨_, _, rfl, by rw [← isIdStart_iff]; decide⟩) (by simp)
    rw [List.append_assoc, hi]
    refine reads_else (by simp) (reads_else (by simp) (Reads.bind_none (w := ()) (y := ()) ⟨[], rfl, fun i out _ => ?_⟩ ?_))
    · simp [HM.dassert, isDigit]
    · refine reads_this (by simp) ((reads_emit (by rfl) (by simp)).bind ?_)
      exact (hblanks (L := (v ++ b).length)).seq (f := fun _ => functionName >>= fun _ => pure true) (functionName_reads.any.last) _ _ _ _ (Nat.le_refl _) h2
  | infinity h =>
    refine reads_rem ?_
    have hi : Ident (b!"infinity" ++ b) 8 := exactly_ident ⟨by simp, fun c hc => h.2 c (by simpa using hc)⟩ (by decide) ⟨_, _, rfl, by rw [← isIdStart_iff]; decide⟩
    have hi := ident_eq hi (by simp)
    refine reads_this (by simp) ?_
    rw [show List.drop 1 (b!"-infinity" ++ b) = b!"infinity" ++ b from rfl, hi]
    refine reads_this (by simp) ?_
    have h1 : Reads env (HM.emitAdv 8 .value >>= fun _ => pure true : HM Unit Bool) () b!"infinity" [⟨0, 8, .value⟩] b true () :=
      (reads_emit (a := b!"infinity") (by rfl) (by simp)).bind_last reads_pure
    exact Reads.bind (f := fun _ => HM.emitAdv 8 .value >>= fun _ => pure true) (reads_emit (a := b!"-") (by rfl) (by simp)) h1

theorem no_word {env : HEnv} {b : Bytes} (h : NoName b) (h' : ¬ Exactly b!"-infinity" b) : Reads env expectIdentifierLike () [] [] b false () := by
  refine reads_rem ?_
  simp only [List.nil_append]
  by_cases h0 : startsWith b b!"-" = true
  · refine reads_this h0 (reads_else (fun e => h' ?_) reads_pure)
    have hle := identifier_le (b.drop 1)
    have hl := congrArg List.length e
    simp only [List.length_take, List.nil_append, List.length_cons, List.length_nil] at hl
    rw [List.length_drop] at hle
    have hk : matchIdentifier (b.drop 1) = 8 := by omega
    rw [hk] at e
    refine ⟨⟨b.drop 9, by rw [← e, List.take_append_drop]⟩, fun c hc => (identifier_ident (s := b.drop 1) (by omega)).2.2.2 c ?_⟩
    rw [hk, List.getElem?_drop]
    exact hc
  · exact reads_else h0 (reads_this (no_ident h) reads_pure)

end Ulight.Cowel
