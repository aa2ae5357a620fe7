import Verif.Hl.Parts
import Verif.Hl.Whole
import Verif.Hl.Words
import Verif.Lang.Lua
import Verif.Spec.Lang.Lua

/-!
# Lua: every token says something true about its text
-/

namespace Ulight.Lua

open Spec Spec.Lua Utf8

set_option maxRecDepth 2000

theorem tokens_sorted : SortedTable tokens := by decide +kernel

theorem tokens_some : ∀ e ∈ tokens, e.2 ≠ .none := by decide +kernel

/-- The table has the words of the specification. -/
theorem words_iff (x : Bytes × HT) : x ∈ tokens ↔ x ∈ words := sameWords_iff (by decide +kernel) x

theorem symbols_sorted : symbols.Pairwise (fun a b => bytesLt a b = true) := by decide +kernel

theorem symbols_tokens : ∀ w ∈ symbols, ∃ ty, (w, ty) ∈ tokens := by
  have : ∀ w ∈ symbols, (tokens.find? (·.1 == w)).isSome = true := by decide +kernel
  intro w hw
  obtain ⟨e, he⟩ := Option.isSome_iff_exists.1 (this w hw)
  have h1 := List.find?_some he
  have h2 := List.mem_of_find?_eq_some he
  simp at h1
  subst h1
  exact ⟨e.2, h2⟩

theorem matchOperator_eq (t : Bytes) : matchOperator t = symbols.reverse.find? (startsWith t ·) := by
  match t with
  | [] => rfl
  | c :: t =>
    have h5 : ¬ (t.length ≥ 5 ∧ t.take 5 = b!"const>") := by
      rintro ⟨_, h⟩
      have := congrArg List.length h
      simp at this
      omega
    rw [find_tails c t symbols (by decide +kernel)]
    by_cases hc : c ∈ b!"/=<>~.:+-*%^#&|;,(){}[]"
    · simp only [List.mem_cons, List.not_mem_nil, or_false] at hc
      rcases hc with rfl | rfl | rfl | rfl | rfl | rfl | rfl | rfl | rfl | rfl | rfl | rfl | rfl | rfl | rfl | rfl |
        rfl | rfl | rfl | rfl | rfl | rfl | rfl
      all_goals simp only [matchOperator, symbols, tailsOf, h5]
      all_goals simp [find_startsWith_cons, apply_ite (Option.map _)]
      all_goals (rcases t with _ | ⟨a, _ | ⟨b, _⟩⟩ <;> simp [startsWith_cons_cons] <;> grind)
    · simp only [List.mem_cons, List.not_mem_nil, or_false, not_or] at hc
      have hc' := hc
      simp only [eq_comm (a := c)] at hc'
      simp [matchOperator, hc, tailsOf, hc', symbols]

theorem matchOperator_facts (t : Bytes) :
    (∃ w ty, matchOperator t = some w ∧ highlightByCode w = some ty ∧ ty ≠ .none ∧ (w, ty) ∈ tokens ∧ 0 < w.length ∧
      w.length ≤ t.length ∧ t.take w.length = w ∧ LongestIn symbols t w.length) ∨
    (matchOperator t = none ∧ ∀ w ∈ symbols, startsWith t w = false) := by
  rw [matchOperator_eq]
  rcases symbol_facts symbols_sorted symbols_tokens t with ⟨w, ty, h, h1, h2, h3, h4, h5, h6⟩ | ⟨h1, h2⟩
  · have : ∀ w ∈ symbols, 0 < w.length := by decide +kernel
    exact Or.inl ⟨w, ty, h, (table_lookup tokens_sorted w ty).2 h1, tokens_some _ h1, h1, this w h2, h4, h5, h6⟩
  · exact Or.inr ⟨h1, h2⟩

theorem space_iff (c : UInt8) : isWhitespace c = true ↔ Space c := by
  have h := forall_byte (p := fun c => isWhitespace c = decide (c ∈ b!" \t\n\r" ∨ c = 0x0B ∨ c = 0x0C))
    (by decide +kernel) c
  rw [h, decide_eq_true_iff]
  rfl

theorem hex_iff (c : UInt8) : isHexDigit c = true ↔ HexDigit c := by
  have h := forall_byte (p := fun c => isHexDigit c = (digitVal c).any (· < 16)) (by decide +kernel) c
  rw [h, Option.any_eq_true]
  simp [HexDigit]

theorem idStart_iff (c : Nat) : isIdStart c = true ↔ IdStart c := by
  unfold isIdStart IdStart
  by_cases h : c ≤ 0xFF
  · have : ∀ b : UInt8, (isAsciiXidStart b || b = 0x5F) = decide (b.toNat = 0x5F ∨ 0x41 ≤ b.toNat ∧ b.toNat ≤ 0x5A ∨
        0x61 ≤ b.toNat ∧ b.toNat ≤ 0x7A) := by
      apply forall_byte
      decide +kernel
    have h1 := this (UInt8.ofNat c)
    have e : (UInt8.ofNat c).toNat = c := by simp; omega
    have e2 : UInt8.ofNat c = 0x5F ↔ c = 0x5F := by
      rw [← UInt8.toNat_inj, e]; rfl
    rw [e] at h1
    simp only [e2] at h1
    simp [h, h1]
  · simp [h]
    omega

theorem idContinue_iff (c : Nat) : isIdContinue c = true ↔ IdContinue c := by
  unfold isIdContinue IdContinue IdStart
  by_cases h : c ≤ 0xFF
  · have : ∀ b : UInt8, isAsciiXidContinue b = decide ((b.toNat = 0x5F ∨ 0x41 ≤ b.toNat ∧ b.toNat ≤ 0x5A ∨
        0x61 ≤ b.toNat ∧ b.toNat ≤ 0x7A) ∨ 0x30 ≤ b.toNat ∧ b.toNat ≤ 0x39) := by
      apply forall_byte
      decide +kernel
    have h1 := this (UInt8.ofNat c)
    have e : (UInt8.ofNat c).toNat = c := by simp; omega
    rw [e] at h1
    simp [h, h1]
  · simp [h]
    omega

theorem identifier_facts (s : Bytes) :
    matchIdentifier s ≤ s.length ∧ (matchIdentifier s = 0 ∧ (s ≠ [] → NoFirst IdStart s) ∨
     0 < matchIdentifier s ∧ Identifier IdStart IdContinue s (matchIdentifier s)) :=
  lengthHeadTail_spec _ _ _ _ idStart_iff idContinue_iff s

/-! ## Numbers -/

theorem digits_facts (p : UInt8 → Bool) (P : UInt8 → Prop) (hP : ∀ c, p c = true ↔ P c) (s : Bytes) (i : Nat) :
    Digits P (s.drop i) (digits p s i) :=
  ⟨(List.takeWhile_sublist p).length_le, takeWhile_longest p P hP _⟩

theorem Digits.unique {D : UInt8 → Prop} {s : Bytes} {m n : Nat} (hm : Digits D s m) (hn : Digits D s n) : m = n := by
  have key : ∀ {m n : Nat}, Digits D s m → Digits D s n → ¬ m < n := by
    intro m n hm hn h
    have hl : m < s.length := by have := hn.1; omega
    refine hm.2.2 s[m] (by simp [hl]) (hn.2.1 _ ?_)
    rw [List.mem_take_iff_getElem]
    exact ⟨m, by omega, rfl⟩
  have h1 := key hm hn
  have h2 := key hn hm
  omega

theorem fraction_facts (p : UInt8 → Bool) (P : UInt8 → Prop) (hP : ∀ c, p c = true ↔ P c) (s : Bytes) (i : Nat) :
    Fraction P (s.drop i) (fraction p s i) := by
  unfold Fraction fraction
  simp only [List.getElem?_drop, Nat.add_zero]
  split
  · refine ⟨by omega, ?_⟩
    rw [List.drop_drop, Nat.add_sub_cancel_left]
    exact digits_facts p P hP s (i + 1)
  · rfl

theorem sign_facts (s : Bytes) (i : Nat) : Sign (s.drop i) (sign s i) := by
  unfold Sign sign
  simp only [List.getElem?_drop, Nat.add_zero]
  split <;> rfl

theorem Sign.unique {s : Bytes} {m n : Nat} (hm : Sign s m) (hn : Sign s n) : m = n := by
  unfold Sign at hm hn
  split at hm <;> simp_all

theorem digits_le (p : UInt8 → Bool) (s : Bytes) (i : Nat) (h : i ≤ s.length) : i + digits p s i ≤ s.length := by
  have := (List.takeWhile_sublist (l := s.drop i) p).length_le
  simp only [List.length_drop] at this
  unfold digits
  omega

theorem fraction_le (p : UInt8 → Bool) (s : Bytes) (i : Nat) (h : i ≤ s.length) : i + fraction p s i ≤ s.length := by
  unfold fraction
  split
  · rename_i h1
    have := (List.getElem?_eq_some_iff.1 h1).1
    have := digits_le p s (i + 1) (by omega)
    omega
  · omega

theorem sign_le (s : Bytes) (i : Nat) (h : i ≤ s.length) : i + sign s i ≤ s.length := by
  unfold sign
  split
  · rename_i h1
    rcases h1 with h1 | h1 <;> have := (List.getElem?_eq_some_iff.1 h1).1 <;> omega
  · omega

theorem exponent_some {letters : Bytes} {least : Nat} {s : Bytes} {i : Nat} {c : UInt8} (h : s[i]? = some c)
    (hc : c ∈ letters) (hl : least ≤ digits isDigit s (i + 1 + sign s (i + 1))) :
    MaybeExponent letters least (s.drop i) (1 + sign s (i + 1) + digits isDigit s (i + 1 + sign s (i + 1))) := by
  refine Or.inl ⟨c, sign s (i + 1), _, by simpa using h, hc, ?_, ?_, hl, rfl⟩
  · rw [List.drop_drop]
    exact sign_facts s (i + 1)
  · rw [List.drop_drop, ← Nat.add_assoc]
    exact digits_facts isDigit DecDigit isDigit_iff s _

theorem exponent_none {letters : Bytes} {least : Nat} {s : Bytes} {i : Nat}
    (h : ∀ c, s[i]? = some c → c ∈ letters → digits isDigit s (i + 1 + sign s (i + 1)) < least) :
    MaybeExponent letters least (s.drop i) 0 := by
  refine Or.inr ⟨rfl, ?_⟩
  rintro n ⟨c, k, m, h1, h2, h3, h4, h5, _⟩
  rw [List.getElem?_drop, Nat.add_zero] at h1
  have h6 := h c h1 h2
  rw [List.drop_drop] at h3 h4
  have := Sign.unique h3 (sign_facts s (i + 1))
  subst this
  rw [← Nat.add_assoc] at h4
  have := Digits.unique h4 (digits_facts isDigit DecDigit isDigit_iff s _)
  omega

theorem take_two (s : Bytes) (a b : UInt8) : s.take 2 = [a, b] ↔ s[0]? = some a ∧ s[1]? = some b := by
  rcases s with _ | ⟨x, _ | ⟨y, s⟩⟩ <;> simp

theorem matchNumber_facts (s : Bytes) :
    matchNumber s ≤ s.length ∧ (0 < matchNumber s ∧ (Hex s (matchNumber s) ∨ Decimal s (matchNumber s)) ∨
      matchNumber s = 0 ∧ ∀ n, ¬ Hex s n ∧ ¬ Decimal s n) := by
  unfold matchNumber
  by_cases hx : s[0]? = some c!"0" ∧ (s[1]? = some c!"x" ∨ s[1]? = some c!"X")
  · rw [if_pos hx]
    have hx' : s.take 2 = b!"0x" ∨ s.take 2 = b!"0X" := by
      rw [take_two, take_two]
      grind
    have h2 : 2 ≤ s.length := by
      obtain ⟨_, h | h⟩ := hx <;> have := (List.getElem?_eq_some_iff.1 h).1 <;> omega
    have l1 := digits_le isHexDigit s 2 h2
    have l2 := fraction_le isHexDigit s _ l1
    have d1 := digits_facts isHexDigit HexDigit hex_iff s 2
    have d2 := fraction_facts isHexDigit HexDigit hex_iff s (2 + digits isHexDigit s 2)
    dsimp only
    generalize digits isHexDigit s 2 = a at *
    generalize fraction isHexDigit s (2 + a) = f at *
    split
    · rename_i hp
      have l3 : 2 + a + f + 1 ≤ s.length := by
        obtain h | h := hp <;> have := (List.getElem?_eq_some_iff.1 h).1 <;> omega
      have l4 := sign_le s _ l3
      have l5 := digits_le isDigit s _ l4
      have he : MaybeExponent b!"pP" 0 (s.drop (2 + a + f)) (1 + sign s (2 + a + f + 1) +
          digits isDigit s (2 + a + f + 1 + sign s (2 + a + f + 1))) := by
        rcases hp with h | h
        · exact exponent_some h (by simp) (Nat.zero_le _)
        · exact exponent_some h (by simp) (Nat.zero_le _)
      exact ⟨l5, Or.inl ⟨by omega, Or.inl ⟨hx', a, f, _, d1, d2, he, by omega⟩⟩⟩
    · rename_i hp
      refine ⟨l2, Or.inl ⟨by omega, Or.inl ⟨hx', a, f, 0, d1, d2, exponent_none ?_, rfl⟩⟩⟩
      intro c hc hm
      simp at hm
      grind
  · rw [if_neg hx]
    have hx' : ¬ (s.take 2 = b!"0x" ∨ s.take 2 = b!"0X") := by
      rw [take_two, take_two]
      grind
    have hnx : ∀ n, ¬ Hex s n := fun n h => hx' h.1
    have l1 := digits_le isDigit s 0 (by omega)
    have d1 := digits_facts isDigit DecDigit isDigit_iff s 0
    have d2 := fraction_facts isDigit DecDigit isDigit_iff s (digits isDigit s 0)
    have l2 := fraction_le isDigit s (digits isDigit s 0) (by omega)
    have hf0 : digits isDigit s 0 = 0 → s[0]? = some c!"." → fraction isDigit s 0 = 1 + digits isDigit s 1 := by
      intro _ h
      simp [fraction, h]
    have hany : (s[1]?).any isDigit = true ↔ 0 < digits isDigit s 1 := by
      unfold digits
      rcases s with _ | ⟨x, _ | ⟨y, s⟩⟩
      · simp
      · simp
      · simp [List.takeWhile_cons]
        split <;> simp_all
    have hb : (if digits isDigit s 0 = 0 ∧ s[0]? = some c!"." ∧ (s[1]?).any isDigit = true then 1 + digits isDigit s 1
        else if 0 < digits isDigit s 0 then digits isDigit s 0 + fraction isDigit s (digits isDigit s 0) else digits isDigit s 0) =
        if 0 < digits isDigit s 0 ∨ 1 < fraction isDigit s (digits isDigit s 0) then
          digits isDigit s 0 + fraction isDigit s (digits isDigit s 0) else 0 := by
      simp only [hany]
      by_cases ha : digits isDigit s 0 = 0
      · by_cases hd : s[0]? = some c!"."
        · have := hf0 ha hd
          simp [ha, hd, this]
        · simp [ha, hd, fraction]
      · simp [ha, Nat.pos_of_ne_zero ha]
    dsimp only
    rw [hb]
    rw [List.drop_zero] at d1
    by_cases hpos : 0 < digits isDigit s 0 ∨ 1 < fraction isDigit s (digits isDigit s 0)
    · rw [if_pos hpos]
      have hnz : ¬ (digits isDigit s 0 + fraction isDigit s (digits isDigit s 0) = 0 ∨
          (digits isDigit s 0 + fraction isDigit s (digits isDigit s 0) = 1 ∧ s[0]? = some c!".")) := by
        rintro (h | ⟨h, h'⟩)
        · omega
        · have : digits isDigit s 0 = 0 := by
            unfold digits
            rcases s with _ | ⟨x, s⟩
            · simp
            · simp at h'
              subst h'
              simp [isDigit]
          omega
      rw [if_neg hnz]
      generalize digits isDigit s 0 = a at *
      generalize fraction isDigit s a = f at *
      split
      · rename_i hp
        have l3 : a + f + 1 ≤ s.length := by
          obtain h | h := hp <;> have := (List.getElem?_eq_some_iff.1 h).1 <;> omega
        have l4 := sign_le s _ l3
        have l5 := digits_le isDigit s _ l4
        split
        · refine ⟨by omega, Or.inl ⟨by omega, Or.inr ⟨hx', a, f, 0, d1, d2, exponent_none ?_, hpos, rfl⟩⟩⟩
          intros
          omega
        · have he : MaybeExponent b!"eE" 1 (s.drop (a + f)) (1 + sign s (a + f + 1) +
              digits isDigit s (a + f + 1 + sign s (a + f + 1))) := by
            rcases hp with h | h
            · exact exponent_some h (by simp) (by omega)
            · exact exponent_some h (by simp) (by omega)
          exact ⟨l5, Or.inl ⟨by omega, Or.inr ⟨hx', a, f, _, d1, d2, he, hpos, by omega⟩⟩⟩
      · rename_i hp
        refine ⟨by omega, Or.inl ⟨by omega, Or.inr ⟨hx', a, f, 0, d1, d2, exponent_none ?_, hpos, rfl⟩⟩⟩
        intro c hc hm
        simp at hm
        grind
    · rw [if_neg hpos]
      refine ⟨by simp, Or.inr ⟨by simp, fun n => ⟨hnx n, ?_⟩⟩⟩
      rintro ⟨_, a, f, e, h1, h2, _, h4, _⟩
      have := Digits.unique h1 d1
      subst this
      refine hpos (h4.imp id fun h => ?_)
      unfold Fraction at h2 d2
      split at h2
      · rw [if_pos (by assumption)] at d2
        have := Digits.unique h2.2 d2.2
        omega
      · omega

/-! ## Long brackets -/

theorem eqs_iff (u : Bytes) (k : Nat) : startsWith u (List.replicate k c!"=" ++ b!"[") = true ↔
    (u.takeWhile (· = c!"=")).length = k ∧ u[k]? = some c!"[" := by
  induction k generalizing u with
  | zero =>
    rcases u with _ | ⟨a, u⟩
    · simp
    · by_cases h : a = c!"["
      · subst h; simp [startsWith_cons_cons]
      · simp [startsWith_cons_cons, h]
        grind
  | succ k ih =>
    rcases u with _ | ⟨a, u⟩
    · simp [List.replicate_succ]
    · by_cases h : a = c!"="
      · subst h
        simp [List.replicate_succ, startsWith_cons_cons, ih]
      · simp [List.replicate_succ, startsWith_cons_cons, h]
        grind

theorem open_iff (t : Bytes) (k : Nat) : startsWith t (open_ k) = true ↔
    t[0]? = some c!"[" ∧ countEq t 1 = k ∧ t[1 + k]? = some c!"[" := by
  rcases t with _ | ⟨a, t⟩
  · simp [open_]
  · simp [open_, startsWith_cons_cons, eqs_iff, countEq, Nat.add_comm 1 k]
    grind

theorem countEq_drop (t : Bytes) (i j : Nat) : countEq (t.drop i) j = countEq t (i + j) := by
  simp [countEq, List.drop_drop]

/-- A long bracket at some position. -/
theorem open_at (t : Bytes) (i k : Nat) : startsWith (t.drop i) (open_ k) = true ↔
    t[i]? = some c!"[" ∧ countEq t (i + 1) = k ∧ t[i + 1 + k]? = some c!"[" := by
  rw [open_iff, countEq_drop]
  simp [List.getElem?_drop, Nat.add_assoc]

theorem occurs_open (t : Bytes) (i k : Nat) : OccursAt (open_ k) t i ↔
    t[i]? = some c!"[" ∧ countEq t (i + 1) = k ∧ t[i + 1 + k]? = some c!"[" := by
  rw [occursAt_iff, open_at]
  constructor
  · exact fun h => h.2
  · exact fun h => ⟨Nat.le_of_lt (List.getElem?_eq_some_iff.1 h.1).1, h⟩

theorem search_eq {s pre : Bytes} {k eq : Nat} (h : startsWith s pre = true) (hk : pre.length = k) :
    search eq s k = matchEnclosed s pre (close eq) := by
  have e : closing eq = close eq := by simp [closing, close]
  have e2 : (close eq).length = 2 + eq := by simp [close]; omega
  unfold search matchEnclosed
  rw [if_neg (by simp [h]), e, hk]
  split
  · rename_i j h1
    rw [h1, e2]
    simp only [Nat.add_assoc]
  · rename_i h1
    rw [h1]

/-- What is known about a comment or string in long brackets. -/
inductive Bracketed (s pre : Bytes) (k : Nat) (b : Enclosed) : Prop where
  | closed (body rest : Bytes) (e : s = pre ++ (body ++ (close k ++ rest)))
      (u : UpTo (close k) (body ++ (close k ++ rest)) body.length)
      (hb : b = ⟨pre.length + body.length + (close k).length, true⟩)
  | unclosed (body : Bytes) (e : s = pre ++ body) (u : UpTo (close k) body body.length) (hb : b = ⟨s.length, false⟩)

theorem search_facts {s pre : Bytes} {i k : Nat} (h : startsWith s pre = true) (hi : pre.length = i) :
    Bracketed s pre k (search k s i) := by
  rw [search_eq h hi]
  rcases matchEnclosed_spec s pre (close k) with ⟨h1, _⟩ | ⟨body, rest, e, h1, h2⟩ | ⟨body, e, h1, h2⟩
  · rw [h] at h1; cases h1
  · refine .closed body rest (by simpa using e) ⟨fun j hj => h1 j (by simpa using hj), Or.inr ⟨body, rest, by simp, rfl⟩⟩ h2
  · exact .unclosed body e ⟨fun j hj => absurd hj (h1 j), Or.inl rfl⟩ h2

/-! ## Sequences with empty tokens -/

/-- The emissions up to position `p`: those that are not empty and the gaps are a partition. -/
structure Done (src : Bytes) (p : Nat) (es : List Emit) : Prop where
  tiles : Tiles rules src p ((es.map Emit.token).filter (·.len ≠ 0))
  le : ∀ e ∈ es, e.beg + e.len ≤ p
  order : es.Pairwise (fun a b => a.beg + a.len ≤ b.beg)
  empty : ∀ e ∈ es, e.len = 0 → (e.ty = .comment ∨ e.ty = .string) ∧ Hollow (src.take e.beg) (src.drop e.beg)

theorem Done.emit {src : Bytes} {p n : Nat} {es : List Emit} {ty : HT} {m : Mode} (h : Done src p es)
    (le : p + n ≤ src.length) (tok : 0 < n → Tok (src.drop p) n ty ∧ ty ≠ .none)
    (emp : n = 0 → (ty = .comment ∨ ty = .string) ∧ Hollow (src.take p) (src.drop p)) : Done src (p + n) (es ++ [⟨p, n, ty, m⟩]) := by
  refine ⟨?_, ?_, ?_, ?_⟩
  · rw [List.map_append, List.filter_append]
    by_cases hn : n = 0
    · subst hn
      simpa [Emit.token] using h.tiles
    · have := Tiles.tok n ty h.tiles (by omega) le (tok (by omega)).2 (tok (by omega)).1
      simpa [Emit.token, hn] using this
  · intro e he
    simp at he
    rcases he with he | rfl
    · have := h.le e he; omega
    · simp
  · rw [List.pairwise_append]
    refine ⟨h.order, by simp, ?_⟩
    intro a ha b hb
    simp at hb
    subst hb
    exact h.le a ha
  · intro e he h0
    simp at he
    rcases he with he | rfl
    · exact h.empty e he h0
    · exact emp h0

theorem Done.gap {src : Bytes} {p n : Nat} {es : List Emit} (h : Done src p es) (le : p + n ≤ src.length)
    (g : rules.gap (src.drop p) n) : Done src (p + n) es :=
  ⟨Tiles.gap n h.tiles le g, fun e he => by have := h.le e he; omega, h.order, h.empty⟩

/-- A comment or string in long brackets. -/
theorem long_spec {src : Bytes} {i k c : Nat} {out : List Emit} {pre : Bytes} {b : Enclosed} {delim content : HT}
    (h : Done src i out) (hb : Bracketed (src.drop i) pre k b) (hi : i ≤ src.length) (hp : 0 < pre.length)
    (hc : c = if b.terminated then k + 2 else 0)
    (h1 : ∀ t, Tok (pre ++ t) pre.length delim ∧ delim ≠ .none) (h2 : ∀ t n, UpTo (close k) t n → Tok t n content)
    (h3 : ∀ t, Tok (close k ++ t) (k + 2) delim) (h4 : content = .comment ∨ content = .string)
    (h6 : ∃ x, pre = x ++ open_ k) :
    ∃ es, long i b.length pre.length c b.terminated delim content = .ok es ∧ 0 < b.length ∧
      i + b.length ≤ src.length ∧ Done src (i + b.length) (out ++ es) := by
  have h5 : content ≠ .none := by rcases h4 with rfl | rfl <;> decide
  have hk : (close k).length = k + 2 := by simp [close]
  have hlen : i + (src.drop i).length = src.length := by simp; omega
  unfold long
  cases hb with
  | closed body rest e u hb =>
    subst hb
    have hl : (src.drop i).length = pre.length + (body.length + (k + 2 + rest.length)) := by
      rw [e]; simp [hk]
    simp only [if_true] at hc
    subst hc
    rw [if_neg (by dsimp only; omega)]
    refine ⟨_, rfl, by dsimp only; omega, by dsimp only; omega, ?_⟩
    have e1 : src.drop (i + pre.length) = body ++ (close k ++ rest) := by
      rw [← List.drop_drop, e, List.drop_left]
    have hol : body.length = 0 → Hollow (src.take (i + pre.length)) (src.drop (i + pre.length)) := by
      intro h0
      obtain ⟨x, rfl⟩ := h6
      rw [e1, List.length_eq_zero_iff.1 h0, List.take_add, e, List.take_left, ← List.append_assoc]
      exact .long (Or.inr ⟨[], rest, by simp, rfl⟩)
    have e2 : src.drop (i + pre.length + body.length) = close k ++ rest := by
      rw [← List.drop_drop, e1, List.drop_left]
    have s1 : Done src (i + pre.length) (out ++ [⟨i, pre.length, delim, .normal⟩]) :=
      h.emit (by omega) (fun _ => by rw [e]; exact h1 _) (fun h0 => by omega)
    have s2 := s1.emit (n := body.length) (ty := content) (m := .normal) (by omega)
      (fun _ => by rw [e1]; exact ⟨h2 _ _ u, h5⟩) (fun h0 => ⟨h4, hol h0⟩)
    have s3 := s2.emit (n := k + 2) (ty := delim) (m := .normal) (by omega)
      (fun _ => by rw [e2]; exact ⟨h3 _, (h1 []).2⟩) (fun h0 => by omega)
    have a1 : pre.length + body.length + (close k).length - pre.length - (k + 2) = body.length := by omega
    have a3 : i + (pre.length + body.length + (close k).length) = i + pre.length + body.length + (k + 2) := by omega
    simp only [if_true, a1, a3]
    simpa using s3
  | unclosed body e u hb =>
    subst hb
    have hl : (src.drop i).length = pre.length + body.length := by
      rw [e]; simp
    simp only [Bool.false_eq_true, if_false] at hc
    subst hc
    rw [if_neg (by dsimp only; omega)]
    refine ⟨_, rfl, by dsimp only; omega, by dsimp only; omega, ?_⟩
    have e1 : src.drop (i + pre.length) = body := by
      rw [← List.drop_drop, e, List.drop_left]
    have hol : body.length = 0 → Hollow (src.take (i + pre.length)) (src.drop (i + pre.length)) := by
      intro h0
      obtain ⟨x, rfl⟩ := h6
      rw [e1, List.length_eq_zero_iff.1 h0, List.take_add, e, List.take_left, ← List.append_assoc]
      exact .long (Or.inl rfl)
    have s1 : Done src (i + pre.length) (out ++ [⟨i, pre.length, delim, .normal⟩]) :=
      h.emit (by omega) (fun _ => by rw [e]; exact h1 _) (fun h0 => by omega)
    have s2 := s1.emit (n := body.length) (ty := content) (m := .normal) (by omega)
      (fun _ => by rw [e1]; exact ⟨h2 _ _ u, h5⟩) (fun h0 => ⟨h4, hol h0⟩)
    simp only [Bool.false_eq_true, if_false, hl]
    simpa [Nat.add_assoc] using s2

/-! ## Strings -/

theorem quoted_facts (q : UInt8) (hq : q = c!"\"" ∨ q = c!"'") (t : Bytes) :
    (quotedLoop q false t).1 ≤ t.length ∧ Quoted q t (quotedLoop q false t).1 := by
  match t with
  | [] => exact ⟨by simp [quotedLoop], .atEnd⟩
  | c :: t =>
    unfold quotedLoop
    rw [if_neg (by simp)]
    by_cases h1 : c = c!"\\"
    · subst h1
      match t with
      | [] => simpa [quotedLoop] using Quoted.lastBackslash
      | d :: t =>
        have ih := quoted_facts q hq t
        simp only [quotedLoop, if_true, List.length_cons]
        exact ⟨by omega, .escape ih.2⟩
    · rw [if_neg h1]
      split
      · rename_i h2
        subst h2
        exact ⟨by simp, .closed⟩
      · split
        · rename_i h3
          subst h3
          exact ⟨by simp, .lineEnd⟩
        · have ih := quoted_facts q hq t
          simp only [List.length_cons]
          refine ⟨by omega, .plain (by simp [*]) ih.2⟩

theorem matchBlockComment_facts {s : Bytes} (hd : startsWith s b!"--" = true) {k : Nat} (h : OccursAt (open_ k) s 2) :
    Bracketed s (b!"--" ++ open_ k) k (matchBlockComment s) ∧ commentPrefix s = (b!"--" ++ open_ k).length ∧
      ∀ b, commentClose s b = if b then k + 2 else 0 := by
  have hpre : startsWith s (b!"--" ++ open_ k) = true := by
    obtain ⟨u, rfl⟩ := startsWith_iff.1 hd
    rw [occursAt_iff] at h
    simpa [startsWith_cons_cons] using h.2
  have hl : (b!"--" ++ open_ k).length = 4 + k := by simp [open_]; omega
  obtain ⟨u, hu⟩ := startsWith_iff.1 hpre
  have hlen : 4 + k ≤ s.length := by rw [hu]; simp [open_]; omega
  have h3 := (occurs_open s 2 k).1 h
  simp only [Nat.reduceAdd] at h3
  by_cases hk : k = 0
  · subst hk
    have e : startsWith s b!"--[[" = true := by
      rw [hu]; simp [open_, startsWith_cons_cons]
    refine ⟨?_, ?_, ?_⟩
    · unfold matchBlockComment
      rw [if_neg (by simp [e]; omega)]
      exact search_facts hpre hl
    · simp [commentPrefix, h3.2.2, open_]
    · intro b
      simp [commentClose, h3.2.2]
  · have e : startsWith s b!"--[[" = false := by
      rw [hu]
      cases k with
      | zero => exact absurd rfl hk
      | succ k => simp [open_, startsWith_cons_cons, List.replicate_succ]
    have e2 : startsWith s b!"--[" = true := by
      rw [hu]; simp [open_, startsWith_cons_cons]
    have e3 : s[3]? ≠ some c!"[" := by
      rw [hu]
      cases k with
      | zero => exact absurd rfl hk
      | succ k => simp [open_, List.replicate_succ]
    refine ⟨?_, ?_, ?_⟩
    · unfold matchBlockComment
      rw [if_pos (by simp [e]), if_neg (by simp [e2]; omega), h3.2.1, if_neg (by simp [hk, h3.2.2])]
      exact search_facts hpre (by rw [hl]; omega)
    · simp [commentPrefix, h3.1, e3, open_, h3.2.1]
      omega
    · intro b
      have : 2 + k = k + 2 := Nat.add_comm _ _
      simp only [commentClose, commentPrefix, h3.1, h3.2.1]
      simp [e3, this]

theorem matchLineComment_facts (s : Bytes) :
    (startsWith s b!"--" = true ∧ (∀ k, ¬ OccursAt (open_ k) s 2) ∧ ∃ n, matchLineComment s = n + 2 ∧
      n + 2 ≤ s.length ∧ Longest (· ≠ c!"\n") (s.drop 2) n) ∨
    (matchLineComment s = 0 ∧ startsWith s b!"--" = true ∧ ∃ k, OccursAt (open_ k) s 2) ∨
    (matchLineComment s = 0 ∧ startsWith s b!"--" = false) := by
  unfold matchLineComment
  cases hd : startsWith s b!"--" with
  | false => simp
  | true =>
    have h2 : 2 ≤ s.length := by simpa using startsWith_length hd
    rw [if_neg (by simp)]
    by_cases h4 : startsWith s b!"--[[" = true
    · rw [if_pos h4]
      refine Or.inr (Or.inl ⟨rfl, rfl, 0, ?_⟩)
      obtain ⟨u, rfl⟩ := startsWith_iff.1 h4
      exact ⟨b!"--", u, by simp [open_], rfl⟩
    · rw [if_neg h4]
      split
      · rename_i h
        exact Or.inr (Or.inl ⟨rfl, rfl, countEq s 3, (occurs_open s 2 _).2 ⟨h.1, rfl, h.2⟩⟩)
      · rename_i h
        refine Or.inl ⟨rfl, ?_, _, Nat.add_comm _ _, ?_, ?_⟩
        · intro k hk
          have := (occurs_open s 2 k).1 hk
          refine h ⟨this.1, ?_⟩
          have h5 := this.2.1
          simp only [Nat.reduceAdd] at h5
          rw [h5]
          exact this.2.2
        · have := (List.takeWhile_sublist (l := s.drop 2) (fun x => decide (x ≠ c!"\n"))).length_le
          simp only [List.length_drop] at this
          omega
        · exact takeWhile_longest _ _ (by simp) _

theorem matchBlockComment_none {s : Bytes} (hd : startsWith s b!"--" = false) : matchBlockComment s = {} := by
  have h1 : startsWith s b!"--[[" = false := by
    cases h : startsWith s b!"--[[" with
    | false => rfl
    | true =>
      obtain ⟨u, rfl⟩ := startsWith_iff.1 h
      simp [startsWith_cons_cons] at hd
  have h2 : startsWith s b!"--[" = false := by
    cases h : startsWith s b!"--[" with
    | false => rfl
    | true =>
      obtain ⟨u, rfl⟩ := startsWith_iff.1 h
      simp [startsWith_cons_cons] at hd
  simp [matchBlockComment, h1, h2]

theorem matchString_facts (s : Bytes) :
    (∃ q t, s = q :: t ∧ (q = c!"\"" ∨ q = c!"'") ∧ (matchString s).long = false ∧
      (matchString s).length = (quotedLoop q false t).1 + 1) ∨
    (∃ k, OccursAt (open_ k) s 0 ∧ (matchString s).long = true ∧ stringOpen s = (open_ k).length ∧
      (∀ b, stringClose s b = if b then k + 2 else 0) ∧
      Bracketed s (open_ k) k ⟨(matchString s).length, (matchString s).terminated⟩) ∨
    ((matchString s).length = 0 ∧ (∀ k, ¬ OccursAt (open_ k) s 0) ∧
      ∀ c, s[0]? = some c → c ≠ c!"\"" ∧ c ≠ c!"'") := by
  match s with
  | [] =>
    refine Or.inr (Or.inr ⟨rfl, ?_, by simp⟩)
    intro k hk
    simpa using ((occurs_open [] 0 k).1 hk).1
  | c :: t =>
    by_cases hq : c = c!"\"" ∨ c = c!"'"
    · refine Or.inl ⟨c, t, rfl, hq, ?_⟩
      simp only [matchString, hq, if_true, true_and]
      omega
    · right
      by_cases hk : ∃ k, OccursAt (open_ k) (c :: t) 0
      · left
        obtain ⟨k, hk⟩ := hk
        refine ⟨k, hk, ?_⟩
        have h0 := (occurs_open _ _ _).1 hk
        simp only [Nat.zero_add] at h0
        have hpre := occursAt_zero.1 hk
        have hl : (open_ k).length = k + 2 := by simp [open_]
        obtain ⟨u, hu⟩ := startsWith_iff.1 hpre
        have hlen : k + 2 ≤ (c :: t).length := by rw [hu]; simp [open_]
        simp only [matchString, if_neg hq]
        by_cases hk0 : k = 0
        · subst hk0
          have e : startsWith (c :: t) b!"[[" = true := by
            rw [hu]; simp [open_, startsWith_cons_cons]
          have e1 : (c :: t)[1]? = some c!"[" := h0.2.2
          rw [if_pos e]
          refine ⟨rfl, ?_, ?_, search_facts hpre hl⟩
          · simp [stringOpen, e1, open_]
          · intro b; simp [stringClose, e1]
        · have e : startsWith (c :: t) b!"[[" = false := by
            rw [hu]
            cases k with
            | zero => exact absurd rfl hk0
            | succ k => simp [open_, startsWith_cons_cons, List.replicate_succ]
          have e2 : startsWith (c :: t) b!"[" = true := by
            rw [hu]; simp [open_, startsWith_cons_cons]
          have e1 : (c :: t)[1]? = some c!"=" := by
            rw [hu]
            cases k with
            | zero => exact absurd rfl hk0
            | succ k => simp [open_, List.replicate_succ]
          have h3 : 3 ≤ (c :: t).length := by omega
          rw [if_neg (by simp [e]), if_pos ⟨e2, h3⟩, h0.2.1, if_neg (by simp only [not_or]; exact ⟨hk0, by simp [h0.2.2]⟩)]
          refine ⟨rfl, ?_, ?_, search_facts hpre (by rw [hl]; omega)⟩
          · unfold stringOpen
            rw [if_pos ⟨h0.1, h3, e1⟩, h0.2.1, hl]
            omega
          · intro b
            have hs : stringOpen (c :: t) = k + 2 := by
              unfold stringOpen
              rw [if_pos ⟨h0.1, h3, e1⟩, h0.2.1]
              omega
            unfold stringClose
            rw [hs]
            cases b with
            | false => rfl
            | true => rw [if_pos rfl, if_pos ⟨h0.1, h3, e1⟩]; rfl
      · right
        have hk' : ∀ k, ¬ OccursAt (open_ k) (c :: t) 0 := fun k h => hk ⟨k, h⟩
        refine ⟨?_, hk', ?_⟩
        · simp only [matchString, if_neg hq]
          have e : startsWith (c :: t) b!"[[" = false := by
            cases h : startsWith (c :: t) b!"[[" with
            | false => rfl
            | true => exact absurd (occursAt_zero.2 h) (hk' 0)
          rw [if_neg (by simp [e])]
          split
          · rw [if_pos]
            by_cases h0 : countEq (c :: t) 1 = 0
            · exact Or.inl h0
            · refine Or.inr fun h => hk' (countEq (c :: t) 1) ((occurs_open _ _ _).2 ⟨?_, rfl, by simpa using h⟩)
              rename_i hs
              obtain ⟨u, hu⟩ := startsWith_iff.1 hs.1
              rw [hu]
              rfl
          · rfl
        · intro d hd
          simp at hd
          subst hd
          simpa using hq

/-! ## The loop -/

theorem stepRest_spec {src : Bytes} {i : Nat} {out : List Emit} (h : Done src i out) (hi : i < src.length)
    (hattr : startsWith (src.drop i) b!"<const>" = false) :
    ∃ es n, stepRest (src.drop i) i = .ok (es, n) ∧ 0 < n ∧ i + n ≤ src.length ∧ Done src (i + n) (out ++ es) := by
  have hlen : i + (src.drop i).length = src.length := by simp; omega
  have hne : src.drop i ≠ [] := by
    intro h0
    rw [h0] at hlen
    simp at hlen
    omega
  generalize hr : src.drop i = r at *
  unfold stepRest
  by_cases hw : matchWhitespace r ≠ 0
  · rw [if_pos hw]
    have h1 := length_if_le r isWhitespace 0 (by omega)
    have h2 := length_if_zero_longest r isWhitespace Space space_iff
    refine ⟨[], _, rfl, by omega, ?_, ?_⟩
    · have : matchWhitespace r ≤ r.length := h1.2
      omega
    · rw [List.append_nil]
      refine h.gap ?_ ?_
      · have : matchWhitespace r ≤ r.length := h1.2
        omega
      · rw [hr]
        exact h2.1
  rw [if_neg hw]
  have hspace : ∀ c, r[0]? = some c → ¬ Space c := by
    have h2 := length_if_zero_longest r isWhitespace Space space_iff
    have h0 : Ascii.length_if r isWhitespace = 0 := by simpa [matchWhitespace] using hw
    rw [h0] at h2
    exact h2.2
  rcases matchLineComment_facts r with ⟨h1, h2, n, h3, h4, h5⟩ | ⟨h1, h2, k, h3⟩ | ⟨h1, h2⟩
  · rw [h3, if_pos (by omega)]
    refine ⟨_, _, rfl, by omega, by omega, ?_⟩
    have s1 := h.emit (n := 2) (ty := .comment_delim) (m := .normal) (by omega)
      (fun _ => ⟨by rw [hr]; exact Tok.commentDelim (occursAt_zero.2 h1) h2, by decide⟩) (fun h0 => by omega)
    have s2 := s1.emit (n := n) (ty := .comment) (m := .normal) (by omega)
      (fun _ => ⟨by rw [← List.drop_drop, hr]; exact Tok.comment h5, by decide⟩) (fun h0 => ⟨Or.inl rfl, by
        obtain ⟨u, hu⟩ := startsWith_iff.1 h1
        rw [List.take_add, ← List.drop_drop, hr, hu]
        refine .line ?_
        rw [h0, hu] at h5
        cases u with
        | nil => exact Or.inl rfl
        | cons c u => exact Or.inr (by have := h5.2 c rfl; simpa using this)⟩)
    rw [Nat.add_assoc, Nat.add_comm 2 n] at s2
    simpa using s2
  · rw [if_neg (by omega)]
    obtain ⟨b1, b2, b3⟩ := matchBlockComment_facts h2 h3
    rw [b2]
    have hc : ∀ k, (close k).length = k + 2 := by intro k; simp [close]
    obtain ⟨es, e1, e2, e3, e4⟩ := long_spec (delim := .comment_delim) (content := .comment) h (by rw [hr]; exact b1)
      (by omega) (by simp) (b3 _) (fun t => ⟨Tok.commentOpen (k := k) (by simp), by decide⟩)
      (fun t n hu => Tok.blockComment hu) (fun t => Tok.commentClose (k := k) (by rw [← hc k]; simp)) (Or.inl rfl) ⟨b!"--", rfl⟩
    rw [if_pos (by omega), e1]
    exact ⟨es, _, rfl, e2, e3, e4⟩
  rw [if_neg (by omega), matchBlockComment_none h2, if_neg (by simp)]
  rcases matchString_facts r with ⟨q, t, rfl, q1, q2, q3⟩ | ⟨k, k1, k2, k3, k4, k5⟩ | ⟨n1, n2, n3⟩
  · rw [q3, if_pos (by omega), if_neg (by simp [q2])]
    obtain ⟨f1, f2⟩ := quoted_facts q q1 t
    simp only [List.length_cons] at hlen
    refine ⟨_, _, rfl, by omega, by omega, ?_⟩
    exact h.emit (by omega) (fun _ => ⟨by rw [hr]; exact Tok.quoted q1 f2, by decide⟩) (fun h0 => by omega)
  · rw [k3]
    have hc : ∀ k, (close k).length = k + 2 := by intro k; simp [close]
    obtain ⟨es, e1, e2, e3, e4⟩ := long_spec (delim := .string) (content := .string) h (by rw [hr]; exact k5)
      (by omega) (by simp [open_]) (k4 _) (fun t => ⟨Tok.longOpen (k := k) (by simp), by decide⟩)
      (fun t n hu => Tok.long hu) (fun t => Tok.longClose (k := k) (by rw [← hc k]; simp)) (Or.inr rfl) ⟨[], (List.nil_append _).symm⟩
    dsimp only at e1 e2 e3 e4
    rw [if_pos (by omega), if_pos k2, e1]
    exact ⟨es, _, rfl, e2, e3, e4⟩
  rw [if_neg (by omega)]
  obtain ⟨m1, m2 | m2⟩ := matchNumber_facts r
  · rw [if_pos (by omega)]
    exact ⟨_, _, rfl, m2.1, by omega, h.emit (by omega) (fun _ => ⟨by rw [hr]; exact Tok.number m2.2, by decide⟩)
      (fun h0 => by omega)⟩
  rw [if_neg (by omega)]
  obtain ⟨i1, i2 | i2⟩ := identifier_facts r
  rotate_left
  · rw [if_pos (by omega)]
    refine ⟨_, _, rfl, i2.1, by omega, h.emit (by omega) (fun _ => ?_) (fun h0 => by omega)⟩
    rw [hr]
    cases hl : highlightByCode (r.take (matchIdentifier r)) with
    | none =>
      have : lookupSorted Prod.fst tokens (r.take (matchIdentifier r)) = none := by
        simpa [highlightByCode] using hl
      exact ⟨Tok.name i2.2 (fun ty hty => (table_lookup_none tokens_sorted _).1 this ty ((words_iff _).2 hty)), by decide⟩
    | some ty =>
      have := (table_lookup tokens_sorted _ ty).1 hl
      exact ⟨Tok.keyword i2.2 ((words_iff _).1 this), tokens_some _ this⟩
  rw [if_neg (by omega)]
  have plain : Plain r := by
    refine ⟨by rw [occursAt_zero, h2]; simp, n2, by rw [occursAt_zero, hattr]; simp, m2.2, ?_⟩
    intro c hc
    refine ⟨hspace c hc, (n3 c hc).1, (n3 c hc).2, ?_⟩
    intro hid
    match r, hc with
    | d :: t, hc =>
      simp at hc
      subst hc
      refine i2.2 hne d.toNat [d] t rfl (firstChar_ascii ?_ t) hid
      unfold IdStart at hid
      omega
  rcases matchOperator_facts r with ⟨w, ty, o1, o2, o3, o4, o5, o6, o7, o8⟩ | ⟨o1, o2⟩
  · rw [o1]
    simp only [o2]
    exact ⟨_, _, rfl, o5, by omega, h.emit (by omega)
      (fun _ => ⟨by rw [hr]; exact Tok.symbol o8 (by rw [o7]; exact (words_iff _).1 o4) plain, o3⟩) (fun h0 => by omega)⟩
  · rw [o1]
    have : 0 < r.length := List.length_pos_iff.2 hne
    exact ⟨_, _, rfl, by omega, by omega, h.emit (by omega)
      (fun _ => ⟨by rw [hr]; exact Tok.other hne (fun w hw => by rw [occursAt_zero, o2 w hw]; simp) plain, by decide⟩)
      (fun h0 => by omega)⟩

theorem step_spec {src : Bytes} {i : Nat} {out : List Emit} (h : Done src i out) (hi : i < src.length) :
    ∃ es n, step (src.drop i) i = .ok (es, n) ∧ 0 < n ∧ i + n ≤ src.length ∧ Done src (i + n) (out ++ es) := by
  unfold step
  split
  · rename_i hs
    obtain ⟨u, hu⟩ := startsWith_iff.1 hs
    have hlen : i + (src.drop i).length = src.length := by simp; omega
    rw [hu] at hlen
    simp at hlen
    have e1 : src.drop (i + 1) = b!"const>" ++ u := by rw [← List.drop_drop, hu]; rfl
    have e2 : src.drop (i + 1 + 5) = b!">" ++ u := by rw [← List.drop_drop, e1]; rfl
    refine ⟨_, _, rfl, by omega, by omega, ?_⟩
    have s1 := h.emit (n := 1) (ty := .name_attr_delim) (m := .normal) (by omega)
      (fun _ => ⟨Tok.attrOpen (occursAt_zero.2 hs), by decide⟩) (fun h0 => by omega)
    have s2 := s1.emit (n := 5) (ty := .name_attr) (m := .normal) (by omega)
      (fun _ => ⟨by rw [e1]; exact Tok.attr ⟨[], u, by simp, rfl⟩, by decide⟩) (fun h0 => by omega)
    have s3 := s2.emit (n := 1) (ty := .name_attr_delim) (m := .normal) (by omega)
      (fun _ => ⟨by rw [e2]; exact Tok.attrClose ⟨[], u, by simp, rfl⟩, by decide⟩) (fun h0 => by omega)
    simpa [Nat.add_assoc] using s3
  · rename_i hs
    exact stepRest_spec h hi (by simpa using hs)

theorem loop_spec {src : Bytes} (fuel i : Nat) (out : List Emit) (h : Done src i out) (hi : i ≤ src.length)
    (hf : src.length < i + fuel) : ∃ es, loop src fuel i out = .ok es ∧ Done src src.length es := by
  induction fuel generalizing i out with
  | zero => omega
  | succ fuel ih =>
    unfold loop
    split
    · have : i = src.length := by omega
      subst this
      exact ⟨out, rfl, h⟩
    · obtain ⟨es, n, h1, h2, h3, h4⟩ := step_spec h (by omega)
      rw [h1]
      exact ih (i + n) _ h4 h3 (by omega)

theorem highlight_done (debug : Bool) (opts : Opts) (src : Bytes) :
    ∃ es, highlight debug opts src = .ok (true, es) ∧ Done src src.length es := by
  obtain ⟨es, h1, h2⟩ := loop_spec (src := src) (src.length + 1) 0 [] ⟨.nil, by simp, by simp, by simp⟩ (by omega) (by omega)
  exact ⟨es, by simp [highlight, h1], h2⟩

/-- Words are looked up as the specification says. -/
theorem C33_lua (w : Bytes) (ty : HT) : highlightByCode w = some ty ↔ (w, ty) ∈ words :=
  (table_lookup tokens_sorted w ty).trans (words_iff _)

example : highlightByCode b!"local" = some .keyword ∧ highlightByCode b!"nil" = some .null ∧
    highlightByCode b!"self" = none := by decide +kernel

/-- Highlighting a Lua file succeeds.  Every token that is not empty is what its type says, and text without
a token is white space.  Empty tokens are comments or strings in which there is nothing, and all tokens are in order. -/
theorem C47_lua_tokens (debug : Bool) (opts : Opts) (src : Bytes) :
    ∃ es, highlight debug opts src = .ok (true, es) ∧
      Tiles rules src src.length ((es.map Emit.token).filter (·.len ≠ 0)) ∧
      (∀ e ∈ es, e.beg + e.len ≤ src.length ∧ (e.len = 0 →
        (e.ty = .comment ∨ e.ty = .string) ∧ Hollow (src.take e.beg) (src.drop e.beg))) ∧
      es.Pairwise (fun a b => a.beg + a.len ≤ b.beg) := by
  obtain ⟨es, h1, h2⟩ := highlight_done debug opts src
  exact ⟨es, h1, h2.tiles, fun e he => ⟨h2.le e he, h2.empty e he⟩, h2.order⟩

/-- If there are no empty comments and strings, there are no empty tokens. -/
theorem C47_lua_tokens_filled (debug : Bool) (opts : Opts) (src : Bytes) (hf : Filled src) :
    ∃ es, highlight debug opts src = .ok (true, es) ∧ Tiles rules src src.length (es.map Emit.token) := by
  obtain ⟨es, h1, h2, h3, _⟩ := C47_lua_tokens debug opts src
  refine ⟨es, h1, ?_⟩
  rwa [List.filter_eq_self.2] at h2
  intro t ht
  obtain ⟨e, he, rfl⟩ := List.mem_map.1 ht
  have : e.len ≠ 0 := fun h0 => hf _ _ (List.take_append_drop e.beg src).symm ((h3 e he).2 h0).2
  exact decide_eq_true this

theorem filled_of {src : Bytes}
    (h : ∀ k ≤ src.length, ((src.take k).drop (k - 2) = b!"--" → (src.drop k).head?.any (· ≠ c!"\n")) ∧
      ((src.take k).getLast? = some c!"[" → (src.drop k).head?.any (· ≠ c!"]"))) : Filled src := by
  rintro u t rfl hh
  have h := h u.length (by simp)
  simp only [List.take_left, List.drop_left] at h
  cases hh with
  | line hh =>
    have := h.1 (by simp)
    rcases hh with rfl | hh
    · simp at this
    · simp [hh] at this
  | long hh =>
    have := h.2 (by rw [open_, ← List.append_assoc]; exact List.getLast?_concat)
    rcases hh with rfl | ⟨a, b, rfl, ha⟩
    · simp at this
    · simp at ha
      subst ha
      simp [close] at this

example : Filled b!"a[1] = [==[x]==] --hi\n-- ho" := filled_of (by decide +kernel)

/-- What is highlighted in a debug build. -/
def tokensOf (src : Bytes) : Option (List Token) :=
  (highlight true {} src).toOption.map (fun r => r.2.map Emit.token)

example : tokensOf b!"local x <const> = 0x1.8p3 + .5e1 .. 1e --hi" =
    some [⟨0, 5, .keyword⟩, ⟨6, 1, .name⟩, ⟨8, 1, .name_attr_delim⟩, ⟨9, 5, .name_attr⟩, ⟨14, 1, .name_attr_delim⟩,
      ⟨16, 1, .symbol_op⟩, ⟨18, 7, .number⟩, ⟨26, 1, .symbol_op⟩, ⟨28, 4, .number⟩, ⟨33, 2, .symbol_op⟩, ⟨36, 1, .number⟩,
      ⟨37, 1, .name⟩, ⟨39, 2, .comment_delim⟩, ⟨41, 2, .comment⟩] := by decide +kernel

example : tokensOf b!"[==[a]=]]==] 'a\\'b' --[=[" =
    some [⟨0, 4, .string⟩, ⟨4, 4, .string⟩, ⟨8, 4, .string⟩, ⟨13, 6, .string⟩, ⟨20, 5, .comment_delim⟩,
      ⟨25, 0, .comment⟩] := by decide +kernel

/-- An empty comment or string gets an empty token, which the checks of a debug build reject. -/
theorem C06_lua_empty :
    tokensOf b!"--\n" = some [⟨0, 2, .comment_delim⟩, ⟨2, 0, .comment⟩] ∧
    tokensOf b!"--" = some [⟨0, 2, .comment_delim⟩, ⟨2, 0, .comment⟩] ∧
    checkFlushValidity 2 [⟨0, 2, .comment_delim⟩, ⟨2, 0, .comment⟩] = false ∧
    tokensOf b!"[[]]" = some [⟨0, 2, .string⟩, ⟨2, 0, .string⟩, ⟨2, 2, .string⟩] ∧
    checkFlushValidity 4 [⟨0, 2, .string⟩, ⟨2, 0, .string⟩, ⟨2, 2, .string⟩] = false := by decide +kernel

/-- The attribute `<close>` is not recognised, unlike `<const>`.  A comment that ends with a carriage return goes on to
the end of the next line. -/
theorem C47_differences :
    tokensOf b!"<close>" = some [⟨0, 1, .symbol_op⟩, ⟨1, 5, .name⟩, ⟨6, 1, .symbol_op⟩] ∧
    tokensOf b!"<const>" = some [⟨0, 1, .name_attr_delim⟩, ⟨1, 5, .name_attr⟩, ⟨6, 1, .name_attr_delim⟩] ∧
    tokensOf b!"--a\rb" = some [⟨0, 2, .comment_delim⟩, ⟨2, 3, .comment⟩] := by
  decide +kernel

/-- A character outside of ASCII is highlighted byte by byte. -/
theorem C31_lua_splits : IsUtf8 [0xC3, 0xA9] ∧ tokensOf [0xC3, 0xA9] = some [⟨0, 1, .symbol⟩, ⟨1, 1, .symbol⟩] ∧
    ¬ IsUtf8 ([0xC3, 0xA9].take 1) :=
  ⟨⟨[0xE9], by simp [IsScalar], by decide +kernel⟩, by decide +kernel, not_isUtf8_one (by decide)⟩

end Ulight.Lua
