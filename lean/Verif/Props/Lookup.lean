import Verif.Langs
import Verif.TypeStrings

/-!
# Properties C09, C10, C11: language lookup, path lookup, highlight type strings
-/

namespace Ulight

/-! ## C09 -/

/-- The published list is strictly sorted (kernel evaluation of the whole table). -/
theorem langList_sorted : langList.Pairwise (fun a b => bytesLt a.1 b.1 = true) := by
  decide +kernel

theorem langList_langs : ∀ e ∈ langList, 0 < e.2 ∧ e.2 < langCount := by decide +kernel

/-- C09: a name is mapped to a language exactly when the pair is in the published list. -/
theorem C09_get_lang_exact (name : Bytes) (lang : Nat) (h : lang ≠ Lang.none) :
    getLang name = lang ↔ (name, lang) ∈ langList := by
  have hs := lookupSorted_eq_some Prod.fst langList langList_sorted name
  unfold getLang
  constructor
  · intro hg
    split at hg
    · rename_i e he
      obtain ⟨hm, hk⟩ := (hs e).mp he
      obtain ⟨a, b⟩ := e
      simp only at hk hg
      subst hk hg
      exact hm
    · exact absurd hg.symm h
  · intro hm
    rw [(hs (name, lang)).mpr ⟨hm, rfl⟩]

example : getLang b!"cpp" = Lang.cpp ∧ getLang b!"zsh" = Lang.bash ∧ getLang b!"asm" = Lang.nasm := by
  decide +kernel

/-- C09: every other string gives `ULIGHT_LANG_NONE`. -/
theorem C09_get_lang_none (name : Bytes) :
    getLang name = Lang.none ↔ ∀ lang, (name, lang) ∉ langList := by
  constructor
  · intro hg lang hm
    have h0 := (langList_langs _ hm).1
    have := (C09_get_lang_exact name lang (Nat.ne_of_gt (by assumption))).mpr hm
    rw [hg] at this
    simp only at h0
    exact absurd this (Nat.ne_of_lt h0)
  · intro h
    cases hq : getLang name with
    | zero => rfl
    | succ n =>
      have := (C09_get_lang_exact name (n + 1) (by simp)).mp hq
      exact absurd this (h _)

example : getLang b!"CPP" = Lang.none ∧ getLang [] = Lang.none ∧ getLang b!"cp" = Lang.none := by
  decide +kernel

/-- C09: names are unique. -/
theorem C09_names_unique (name : Bytes) (l₁ l₂ : Nat) (h₁ : (name, l₁) ∈ langList)
    (h₂ : (name, l₂) ∈ langList) : l₁ = l₂ := by
  have n1 := (langList_langs _ h₁).1
  have n2 := (langList_langs _ h₂).1
  have e1 := (C09_get_lang_exact name l₁ (Nat.ne_of_gt (by assumption))).mpr h₁
  have e2 := (C09_get_lang_exact name l₂ (Nat.ne_of_gt (by assumption))).mpr h₂
  rw [← e1, ← e2]

/-- C09: names are non-empty and consist of lower-case letters, digits and `+`. -/
theorem C09_names_lowercase : ∀ e ∈ langList, e.1 ≠ [] ∧
    ∀ b ∈ e.1, (97 ≤ b ∧ b ≤ 122) ∨ (48 ≤ b ∧ b ≤ 57) ∨ b = c!"+" := by decide +kernel

/-- C09: every language other than `NONE` can be reached by some name. -/
theorem C09_every_lang_has_name (lang : Nat) (h0 : lang ≠ Lang.none) (h : lang < langCount) :
    ∃ name, getLang name = lang := by
  have key : ∀ l ∈ List.range langCount, l ≠ 0 → ∃ e ∈ langList, e.2 = l := by decide +kernel
  obtain ⟨⟨n, l⟩, hm, rfl⟩ := key lang (List.mem_range.mpr h) h0
  exact ⟨n, (C09_get_lang_exact n l h0).mpr hm⟩

/-- ASCII lower-casing of a display name, for the cross-check below. -/
def lowerName (s : Bytes) : Bytes := s.map (fun b => if 65 ≤ b ∧ b ≤ 90 then b + 32 else b)

/-- C09: the two tables agree: looking up the lower-cased display name of a language finds that
language (the display name of JSONC is a phrase, not a name). -/
theorem C09_display_names_agree (lang : Nat) (h0 : lang ≠ Lang.none) (h : lang < langCount)
    (hj : lang ≠ Lang.jsonc) : getLang (lowerName (langDisplayName lang)) = lang := by
  have key : ∀ l ∈ List.range langCount, l ≠ 0 → l ≠ Lang.jsonc →
      getLang (lowerName (langDisplayName l)) = l := by decide +kernel
  exact key lang (List.mem_range.mpr h) h0 hj

/-- C09: display names exist exactly for the languages other than `NONE`, and are distinct. -/
theorem C09_display_name_total (lang : Nat) :
    langDisplayName lang ≠ [] ↔ lang ≠ Lang.none ∧ lang < langCount := by
  have key : ∀ l ∈ List.range langCount, l ≠ 0 → langDisplayName l ≠ [] := by decide +kernel
  constructor
  · intro h
    unfold langDisplayName at h
    split at h
    · exact absurd rfl h
    · rename_i hc; simp only [not_or] at hc; omega
  · rintro ⟨h0, h⟩
    exact key lang (List.mem_range.mpr h) h0

theorem C09_display_names_distinct (a b : Nat) (ha : a ≠ Lang.none ∧ a < langCount)
    (hb : b ≠ Lang.none ∧ b < langCount) (h : langDisplayName a = langDisplayName b) : a = b := by
  have key : ∀ a ∈ List.range langCount, ∀ b ∈ List.range langCount, a ≠ 0 → b ≠ 0 →
      langDisplayName a = langDisplayName b → a = b := by decide +kernel
  exact key a (List.mem_range.mpr ha.2) b (List.mem_range.mpr hb.2) ha.1 hb.1 h

/-! ## C10 -/

theorem findLast_none (c : UInt8) : ∀ s : Bytes, c ∉ s → findLast c s = none
  | [], _ => rfl
  | x :: t, h => by
    simp only [List.mem_cons, not_or] at h
    simp [findLast, findLast_none c t h.2, Ne.symm h.1]

theorem findLast_append (c : UInt8) (ext : Bytes) (h : c ∉ ext) :
    ∀ pre : Bytes, findLast c (pre ++ c :: ext) = some pre.length
  | [] => by simp [findLast, findLast_none c ext h]
  | x :: t => by simp [findLast, findLast_append c ext h t]

/-- C10: the extension after the last dot decides. -/
theorem C10_lang_from_path_extension (dir ext : Bytes) (h : c!"." ∉ ext) :
    langFromPath (dir ++ c!"." :: ext) = getLang ext := by
  unfold langFromPath
  rw [findLast_append _ _ h]
  simp

example : langFromPath b!"a.b/main.cpp" = Lang.cpp ∧ c!"." ∉ b!"cpp" := by decide +kernel

/-- C10: a path without a dot has no language. -/
theorem C10_lang_from_path_no_dot (path : Bytes) (h : c!"." ∉ path) :
    langFromPath path = Lang.none := by
  unfold langFromPath
  rw [findLast_none _ _ h]

example : c!"." ∉ b!"cpp" ∧ langFromPath b!"cpp" = Lang.none := by decide +kernel

/-- C10 fails for the u8 overload: no path with an extension is ever recognised by it. -/
theorem C10_u8_overload_ignores_extension (path : Bytes) (h : c!"." ∈ path) :
    langFromPathU8 path = Lang.none := by
  unfold langFromPathU8
  rw [C09_get_lang_none]
  intro lang hm
  have := (C09_names_lowercase _ hm).2 _ h
  revert this
  decide

/-- C10 fails for the u8 overload: concrete witness where both overloads disagree. -/
theorem C10_u8_overload_disagrees :
    ∃ path : Bytes, langFromPath path = Lang.cpp ∧ langFromPathU8 path = Lang.none :=
  ⟨b!"main.cpp", by decide +kernel⟩

/-- C10, what remains true of the u8 overload: it never invents a language, i.e. a result other
than `NONE` is the language named by the whole argument. -/
theorem C10_u8_overload_partial (path : Bytes) (lang : Nat) (h : lang ≠ Lang.none) :
    langFromPathU8 path = lang ↔ (path, lang) ∈ langList :=
  C09_get_lang_exact path lang h

/-! ## C11 -/

/-- The values of the enumerators are pairwise different. -/
theorem HT.val_injective (a b : HT) (h : a.val = b.val) : a = b := by
  have key : ∀ t ∈ allHT, (allHT.find? (fun u => u.val == t.val)) = some t := by decide +kernel
  have ha := key a (mem_allHT a)
  rw [h, key b (mem_allHT b)] at ha
  exact (Option.some.inj ha).symm

/-- A character that is allowed in the long string: lower-case letters and `-`. -/
def isLongChar (b : UInt8) : Bool := (97 ≤ b && b ≤ 122) || b == c!"-"
/-- A character that is allowed in the short string: lower-case letters and `_`. -/
def isShortChar (b : UInt8) : Bool := (97 ≤ b && b ≤ 122) || b == c!"_"

/-- C11: every published type other than `NONE` has a non-empty long and short string made of
letters and `-` / `_` only (so it is a legal unquoted HTML attribute value). -/
theorem C11_strings_legal (t : HT) (h : t ≠ .none) :
    longString t.val ≠ [] ∧ shortString t.val ≠ [] ∧
    (∀ b ∈ longString t.val, isLongChar b = true) ∧
    (∀ b ∈ shortString t.val, isShortChar b = true) := by
  have key : ∀ t ∈ allHT, t ≠ .none → longString t.val ≠ [] ∧ shortString t.val ≠ [] ∧
    (∀ b ∈ longString t.val, isLongChar b = true) ∧
    (∀ b ∈ shortString t.val, isShortChar b = true) := by decide +kernel
  exact key t (mem_allHT t) h

/-- C11: every number that is not a published type gives the empty string. -/
theorem C11_unknown_empty (v : Nat) (h : ∀ t : HT, t.val ≠ v) :
    longString v = [] ∧ shortString v = [] := by
  have : hlTable.find? (fun r => r.1.val == v) = none := by
    rw [List.find?_eq_none]
    intro r _ hr
    exact h r.1 (by simpa using hr)
  simp [longString, shortString, this]

example : ∀ t : HT, t.val ≠ 0x23 := by
  intro t
  have key : ∀ t ∈ allHT, t.val ≠ 0x23 := by decide +kernel
  exact key t (mem_allHT t)

/-- Decoding a long string by searching the table. -/
def decodeLong (s : Bytes) : Option HT := (hlTable.find? (fun r => r.2.2.1 == s)).map (·.1)
/-- Decoding a short string by searching the table. -/
def decodeShort (s : Bytes) : Option HT := (hlTable.find? (fun r => r.2.2.2 == s)).map (·.1)

/-- C11: long strings identify the type. -/
theorem C11_long_injective (a b : HT) (h : longString a.val = longString b.val) : a = b := by
  have key : ∀ t ∈ allHT, decodeLong (longString t.val) = some t := by decide +kernel
  have ha := key a (mem_allHT a)
  rw [h, key b (mem_allHT b)] at ha
  exact (Option.some.inj ha).symm

/-- C11 fails for short strings: two different types share the short string `name_cmd`. -/
theorem C11_short_not_injective :
    HT.name_shell_command ≠ HT.name_shell_command_delim ∧
    shortString HT.name_shell_command.val = b!"name_cmd" ∧
    shortString HT.name_shell_command_delim.val = b!"name_cmd" := by decide +kernel

/-- C11: that pair is the only collision. -/
theorem C11_short_injective_partial (a b : HT) (h : shortString a.val = shortString b.val) :
    a = b ∨ (a = .name_shell_command ∧ b = .name_shell_command_delim) ∨
      (a = .name_shell_command_delim ∧ b = .name_shell_command) := by
  have key : ∀ t ∈ allHT, t ≠ .name_shell_command_delim →
      decodeShort (shortString t.val) = some t := by decide +kernel
  have kd : decodeShort (shortString HT.name_shell_command_delim.val) =
      some .name_shell_command := by decide +kernel
  by_cases ha : a = .name_shell_command_delim <;> by_cases hb : b = .name_shell_command_delim
  · exact .inl (ha.trans hb.symm)
  · right; right
    have := key b (mem_allHT b) hb
    rw [← h, ha, kd] at this
    exact ⟨ha, (Option.some.inj this).symm⟩
  · right; left
    have := key a (mem_allHT a) ha
    rw [h, hb, kd] at this
    exact ⟨(Option.some.inj this).symm, hb⟩
  · left
    have h1 := key a (mem_allHT a) ha
    rw [h, key b (mem_allHT b) hb] at h1
    exact (Option.some.inj h1).symm

/-- The documented spelling of the long string (ulight.h:706-710): the enumerator without
`ULIGHT_HL_`, in lower case, with `-` instead of `_` (the identifier column has a trailing `_`
where the name would be a C++ keyword). -/
def documentedLong (identifier : Bytes) : Bytes :=
  (if identifier.getLast? = some c!"_" then identifier.dropLast else identifier).map
    (fun b => if b = c!"_" then c!"-" else b)

/-- C11: the documented spelling holds for every type except the ten listed ones, and fails for
each of those. -/
theorem C11_long_spelling_partial (r : HT × Bytes × Bytes × Bytes) (h : r ∈ hlTable) :
    longString r.1.val = documentedLong r.2.1 ↔
      r.1 ∉ [HT.none, .name_delim, .name_shell_command, .name_shell_command_decl,
        .name_shell_command_builtin, .name_shell_command_delim, .name_shell_option,
        .name_shell_option_decl, .name_shell_option_builtin, .name_shell_option_delim] := by
  have key : ∀ r ∈ hlTable, (longString r.1.val = documentedLong r.2.1 ↔
      r.1 ∉ [HT.none, .name_delim, .name_shell_command, .name_shell_command_decl,
        .name_shell_command_builtin, .name_shell_command_delim, .name_shell_option,
        .name_shell_option_decl, .name_shell_option_builtin, .name_shell_option_delim]) := by
    decide +kernel
  exact key r h

end Ulight
