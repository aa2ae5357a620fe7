import Verif.Hl.Chars
import Verif.Props.Lang.JsCommon

/-!
# Escapes and comments that several languages share
-/

namespace Ulight

open Spec Utf8

/-! ## Escapes -/

/-- The longest match, for kinds in braces as well. -/
theorem escape_longest (kind : EscapeKind) (t u : Bytes) (h : IsEscape kind t) :
    t.length ≤ (matchCommonEscape kind (t ++ u)).length := by
  by_cases hk : Braced kind
  · have key : ∀ ds, c!"}" ∉ ds → ds ≠ [] → t = b!"{" ++ ds ++ b!"}" →
        t.length ≤ (matchCommonEscape kind (t ++ u)).length := by
      rintro ds h1 h2 rfl
      have := (C28_braced_partial kind hk ds u h1 fun _ => h2).1
      rw [this]
      simp
    rcases hk with rfl | rfl | rfl
    · obtain ⟨ds, h1, h2, h3⟩ := h
      exact key ds (fun hc => by have := h3 _ hc; revert this; simp [Octal]) h2 h1
    · obtain ⟨ds, h1, h2, h3⟩ := h
      exact key ds (fun hc => by have := h3 _ hc; revert this; simp [Hex]) h2 h1
    · obtain ⟨ds, h1, h2, h3⟩ := h
      exact key ds h3 h2 h1
  · exact ((C28_unbraced kind hk (t ++ u)).2 t u rfl h).2

/-- How a form is matched. -/
def Spec.EscapeForm.run (s : Bytes) : EscapeForm → Escape
  | .own k => matchCommonEscapeAt k s 1
  | .after k => matchCommonEscapeAt k s 2
  | .simple => ⟨2, false⟩

/-- No character has two forms. -/
def FormsDisjoint (F : EscapeForms) : Prop := F.Pairwise fun a b => ∀ c ∈ a.1, c ∉ b.1

instance (F : EscapeForms) : Decidable (FormsDisjoint F) := by unfold FormsDisjoint; infer_instance

theorem FormsDisjoint.unique {F : EscapeForms} (h : FormsDisjoint F) {a b : Bytes × EscapeForm} {c : UInt8}
    (ha : a ∈ F) (hb : b ∈ F) (h1 : c ∈ a.1) (h2 : c ∈ b.1) : a = b := by
  unfold FormsDisjoint at h
  induction F with
  | nil => cases ha
  | cons x F ih =>
    rw [List.pairwise_cons] at h
    rcases List.mem_cons.1 ha with rfl | ha <;> rcases List.mem_cons.1 hb with rfl | hb
    · rfl
    · exact absurd h2 (h.1 _ hb c h1)
    · exact absurd h1 (h.1 _ (by assumption) c h2)
    · exact ih h.2 (by assumption) (by assumption)

/-- What `e` says about the text `t`. -/
structure EscapeFacts (F : EscapeForms) (t : Bytes) (e : Escape) : Prop where
  le : e.length ≤ t.length
  good : e.erroneous = false → F.Good t e.length
  bad : e.erroneous = true → F.Bad t

theorem escape_facts {F : EscapeForms} (hF : FormsDisjoint F) {f : Bytes → Escape}
    (forms : ∀ e ∈ F, ∀ c ∈ e.1, ∀ u, f (c!"\\" :: c :: u) = e.2.run (c!"\\" :: c :: u))
    (other : ∀ c, (∀ e ∈ F, c ∉ e.1) → ∀ u, (f (c!"\\" :: c :: u)).erroneous = true ∧
      (f (c!"\\" :: c :: u)).length ≤ u.length + 2)
    (single : (f b!"\\").erroneous = true ∧ (f b!"\\").length ≤ 1)
    {t : Bytes} (h : t[0]? = some c!"\\") : EscapeFacts F t (f t) := by
  match t, h with
  | [a], h =>
    simp at h
    subst h
    refine ⟨single.2, by rw [single.1]; simp, fun _ => ⟨rfl, ?_⟩⟩
    rintro m ⟨c, u, h, _⟩
    have := congrArg List.length h
    simp at this
    omega
  | a :: c :: u, h =>
    simp at h
    subst h
    by_cases hc : ∃ e ∈ F, c ∈ e.1
    · obtain ⟨e, he, hc⟩ := hc
      rw [forms e he c hc u]
      have inv : ∀ A m, EscapeForms.Is F A ((c!"\\" :: c :: u).take m) → ∃ j, m = j + 2 ∧ e.2.Is A c (u.take j) := by
        rintro A m ⟨c', t', h1, e', he', hc', h2⟩
        match m, h1 with
        | j + 2, h1 =>
          simp at h1
          obtain ⟨rfl, rfl⟩ := h1
          obtain rfl := hF.unique he he' hc hc'
          exact ⟨j, rfl, h2⟩
        | 1, h1 => simp at h1
      have key : ∀ k kind, k ≤ 2 → 1 ≤ k → (∀ A t, e.2.Is A c t ↔ A kind ((c :: t).drop (k - 1))) →
          EscapeFacts F (c!"\\" :: c :: u) (matchCommonEscapeAt kind (c!"\\" :: c :: u) k) := by
        intro k kind hk hk1 iff
        have hl := escapeAt_le kind (c!"\\" :: c :: u) k (by simp; omega)
        have dr : ∀ m, ((c!"\\" :: c :: u).take m).drop k = ((c!"\\" :: c :: u).drop k).take (m - k) := by
          intro m; rw [List.drop_take]
        have ek : ∀ j, (c :: u.take j).drop (k - 1) = ((c!"\\" :: c :: u).drop k).take (j + 2 - k) := by
          intro j
          obtain rfl | rfl : k = 1 ∨ k = 2 := by omega
          · simp
          · simp
        refine ⟨hl.2, fun he' => ⟨?_, ?_⟩, fun he' => ⟨rfl, ?_⟩⟩
        · have acc := escapeAt_accepted kind (c!"\\" :: c :: u) k he'
          rw [dr] at acc
          have hn : 2 ≤ (matchCommonEscapeAt kind (c!"\\" :: c :: u) k).length := by
            have hne : ¬ Accepted kind [] := by
              intro h
              cases kind <;> simp [Accepted, IsEscape] at h
            rcases Nat.lt_or_ge (matchCommonEscapeAt kind (c!"\\" :: c :: u) k).length 2 with h | h
            · exfalso
              apply hne
              rwa [show (matchCommonEscapeAt kind (c!"\\" :: c :: u) k).length - k = 0 by omega, List.take_zero] at acc
            · exact h
          obtain ⟨j, hj⟩ : ∃ j, (matchCommonEscapeAt kind (c!"\\" :: c :: u) k).length = j + 2 :=
            ⟨(matchCommonEscapeAt kind (c!"\\" :: c :: u) k).length - 2, by omega⟩
          rw [hj] at acc ⊢
          refine ⟨c, u.take j, by simp, e, he, hc, ?_⟩
          rw [iff, ek]
          exact acc
        · intro m hm hm' his
          obtain ⟨j, rfl, h2⟩ := inv _ m his
          rw [iff, ek] at h2
          have := escape_longest kind _ (((c!"\\" :: c :: u).drop k).drop (j + 2 - k)) h2
          rw [List.take_append_drop] at this
          simp only [matchCommonEscapeAt, List.length_take, List.length_drop] at this hm
          omega
        · intro m his
          obtain ⟨j, rfl, h2⟩ := inv _ m his
          rw [iff, ek] at h2
          exact escapeAt_error kind _ k he' _ _ (List.take_append_drop (j + 2 - k) _).symm (Or.inl h2)
      cases hf : e.2 with
      | own kind => exact key 1 kind (by omega) (by omega) (by simp [hf, EscapeForm.Is])
      | after kind => exact key 2 kind (by omega) (by omega) (by simp [hf, EscapeForm.Is])
      | simple =>
        refine ⟨by simp [EscapeForm.run], fun _ => ⟨⟨c, [], by simp [EscapeForm.run], e, he, hc, by simp [hf, EscapeForm.Is]⟩, ?_⟩,
          by simp [EscapeForm.run]⟩
        intro m hm hm' his
        obtain ⟨j, rfl, h2⟩ := inv _ m his
        simp [hf, EscapeForm.Is] at h2
        simp [EscapeForm.run] at hm
        rcases h2 with rfl | rfl
        · omega
        · simp at hm'; omega
    · have hc : ∀ e ∈ F, c ∉ e.1 := fun e he h => hc ⟨e, he, h⟩
      obtain ⟨h1, h2⟩ := other c hc u
      refine ⟨by simpa using h2, by rw [h1]; simp, fun _ => ⟨rfl, ?_⟩⟩
      rintro m ⟨c', t, h, e, he, hce, _⟩
      match m, h with
      | m + 2, h => 
        simp at h
        exact hc e he (h.1 ▸ hce)
      | 1, h => simp at h

/-! ## The text of strings -/

/-- The first `n` bytes of `s` may be the beginning of the text of a string. -/
def Pending (q s : Bytes) (n : Nat) : Prop :=
  (∀ k, k < n → ¬ OccursAt q s k) ∧ ∀ c ∈ s.take n, c ≠ c!"\\" ∧ (q.length = 1 → InLine c)

theorem Pending.zero (q s : Bytes) : Pending q s 0 := ⟨by simp, by simp⟩

theorem Pending.succ {q s : Bytes} {n : Nat} {c : UInt8} (h : Pending q s n) (hc : s[n]? = some c)
    (hq : startsWith (s.drop n) q = false) (hb : c ≠ c!"\\") (hl : q.length = 1 → InLine c) :
    Pending q s (n + 1) := by
  refine ⟨?_, take_all_succ h.2 hc ⟨hb, hl⟩⟩
  intro k hk
  rcases Nat.lt_succ_iff_lt_or_eq.1 hk with hk | rfl
  · exact h.1 k hk
  · rw [occursAt_iff]
    simp [hq]

theorem startsWith_drop_one {s : Bytes} {n : Nat} {c q : UInt8} (hc : s[n]? = some c) :
    startsWith (s.drop n) [q] = decide (c = q) := by
  obtain ⟨h, rfl⟩ := List.getElem?_eq_some_iff.1 hc
  rw [List.drop_eq_getElem_cons h, startsWith_cons_one]

theorem startsWith_drop_iff {s : Bytes} {n : Nat} {q : UInt8} :
    startsWith (s.drop n) [q] = true ↔ s[n]? = some q := by
  cases hc : s[n]? with
  | none =>
    rw [List.drop_of_length_le (by simpa using hc)]
    simp
  | some c => simp [startsWith_drop_one hc]

theorem Pending.succ_one {q : UInt8} {s : Bytes} {n : Nat} {c : UInt8} (h : Pending [q] s n)
    (hc : s[n]? = some c) (hq : c ≠ q) (hb : c ≠ c!"\\") (h1 : c ≠ 0x0A) (h2 : c ≠ 0x0D) :
    Pending [q] s (n + 1) :=
  h.succ hc (by simp [startsWith_drop_one hc, hq]) hb (fun _ => ⟨h1, h2⟩)

theorem Pending.atEnd {q s : Bytes} {n : Nat} (h : Pending q s n) (e : s.length ≤ n) (hn : n ≤ s.length) :
    Content q s n := ⟨h.1, h.2, Or.inl (by omega)⟩

theorem Pending.atQuote {q s : Bytes} {n : Nat} (h : Pending q s n) (e : startsWith (s.drop n) q = true)
    (hn : n ≤ s.length) : Content q s n := ⟨h.1, h.2, Or.inr (Or.inl (occursAt_iff.2 ⟨hn, e⟩))⟩

theorem Pending.atQuote_one {q c : UInt8} {s : Bytes} {n : Nat} (h : Pending [q] s n)
    (hc : s[n]? = some c) (e : c = q) : Content [q] s n := by
  refine h.atQuote ?_ ?_
  · simp [startsWith_drop_one hc, e]
  · obtain ⟨h, _⟩ := List.getElem?_eq_some_iff.1 hc
    omega

theorem Pending.atEscape {q s : Bytes} {n : Nat} {c : UInt8} (h : Pending q s n) (hc : s[n]? = some c)
    (e : c = c!"\\") : Content q s n := ⟨h.1, h.2, Or.inr (Or.inr (Or.inl (e ▸ hc)))⟩

theorem Pending.atLine {q s : Bytes} {n : Nat} {c : UInt8} (h : Pending q s n) (hc : s[n]? = some c)
    (hq : q.length = 1) (e : c = 0x0D ∨ c = 0x0A) : Content q s n := by
  refine ⟨h.1, h.2, Or.inr (Or.inr (Or.inr ⟨hq, ?_⟩))⟩
  rcases e with rfl | rfl
  · exact Or.inr hc
  · exact Or.inl hc

/-! ## Comments -/

namespace Js

theorem blockCommentLoop_eq (N : Nat) (s : Bytes) (n : Nat) :
    blockCommentLoop N s n = match findSub b!"*/" s with
      | none => ⟨N, false⟩
      | some k => ⟨n + k + 2, true⟩ := by
  induction s generalizing n with
  | nil => simp [blockCommentLoop, findSub]
  | cons a s ih =>
    cases s with
    | nil => simp [blockCommentLoop, findSub, startsWith_cons_cons]
    | cons b t =>
      simp only [blockCommentLoop]
      rw [findSub]
      simp only [startsWith_cons_cons, startsWith_nil_right, Bool.and_true, Bool.and_eq_true, beq_iff_eq,
        eq_comm (a := a), eq_comm (a := b)]
      split
      · simp
      · rw [ih]
        cases findSub b!"*/" (b :: t) with
        | none => rfl
        | some k => simp; omega

theorem matchBlockComment_eq (s : Bytes) : matchBlockComment s = Cpp.matchBlockComment s := by
  unfold matchBlockComment Cpp.matchBlockComment
  rw [blockCommentLoop_eq]
  rfl

theorem matchLineComment_facts (t : Bytes) :
    (matchLineComment t = 0 ∧ startsWith t b!"//" = false) ∨
    (2 ≤ matchLineComment t ∧ matchLineComment t ≤ t.length ∧ startsWith t b!"//" = true ∧
      Spec.Js.Line (t.drop 2) (matchLineComment t - 2)) := by
  rcases matchLineComment_spec t with ⟨h, h'⟩ | ⟨body, rest, ⟨h1, h2, h3⟩, h4⟩
  · exact Or.inl ⟨by assumption, by assumption⟩
  · have hl := congrArg List.length h1
    simp at hl
    refine Or.inr ⟨by omega, by omega, startsWith_iff.2 ⟨body ++ rest, by rw [h1]; simp⟩, ?_⟩
    have : t.drop 2 = body ++ rest := by rw [h1]; simp
    rw [this, h4]
    refine ⟨by simpa using h2, ?_⟩
    by_cases hr : rest = []
    · left; simp [hr]
    · right; simpa using h3 hr

end Js

/-- The part of `TextTo` that is known while scanning. -/
def Scanned (q : Bytes) (stop : UInt8 → Prop) (s : Bytes) (n : Nat) : Prop :=
  (∀ k, k < n → ¬ OccursAt q s k) ∧ ∀ c ∈ s.take n, ¬ stop c

namespace Scanned

variable {q s : Bytes} {stop : UInt8 → Prop} {n : Nat} {c : UInt8}

theorem zero (q : Bytes) (stop : UInt8 → Prop) (s : Bytes) : Scanned q stop s 0 := ⟨by simp, by simp⟩

theorem succ (h : Scanned q stop s n) (hc : s[n]? = some c) (hq : startsWith (s.drop n) q = false)
    (hs : ¬ stop c) : Scanned q stop s (n + 1) := by
  refine ⟨?_, take_all_succ h.2 hc hs⟩
  intro k hk
  rcases Nat.lt_succ_iff_lt_or_eq.1 hk with hk | rfl
  · exact h.1 k hk
  · rw [occursAt_iff]
    simp [hq]

theorem atEnd (h : Scanned q stop s n) (e : s.length ≤ n) (hn : n ≤ s.length) : TextTo q stop s n :=
  ⟨h.1, h.2, Or.inl (by omega)⟩

theorem atQuote (h : Scanned q stop s n) (e : startsWith (s.drop n) q = true) (hn : n ≤ s.length) :
    TextTo q stop s n :=
  ⟨h.1, h.2, Or.inr (Or.inl (occursAt_iff.2 ⟨hn, e⟩))⟩

theorem atStop (h : Scanned q stop s n) (hc : s[n]? = some c) (hs : stop c) : TextTo q stop s n :=
  ⟨h.1, h.2, Or.inr (Or.inr ⟨c, hc, hs⟩)⟩

end Scanned

theorem not_identifier {S C : Nat → Prop} {s : Bytes} (h : s ≠ [] → NoFirst S s) :
    ∀ m, ¬ Identifier S C s m := by
  rintro m ⟨c, p, rest, rfl, hc, hS, _⟩
  refine h ?_ c p rest rfl hc hS
  intro e
  obtain ⟨rfl, rfl⟩ := List.append_eq_nil_iff.1 e
  rcases hc with ⟨_, h⟩ | ⟨_, h, _⟩
  · unfold utf8 at h
    repeat' split at h
    all_goals cases h
  · exact h rfl


theorem Cpp.no_identifier {t : Bytes} (h : Cpp.matchIdentifier t = 0) :
    ∀ m, ¬ Identifier CppId.Start CppId.Continue t m := by
  have hl := Cpp.matchIdentifier_facts t
  refine not_identifier ?_
  grind

theorem ne_of_startsWith {t : Bytes} {c a : UInt8} (h : t[0]? = some c) (h' : startsWith t [a] = false) :
    c ≠ a := by
  cases t with
  | nil => simp at h
  | cons b t =>
    simp at h
    subst h
    rw [startsWith_cons_one] at h'
    simpa using h'

theorem Rules.tok_at {R : Rules} {t t' : Bytes} {n : Nat} {ty : HT} (h : R.tok t n ty) (e : t' = t) :
    R.tok t' n ty := e ▸ h

/-- Uses a fact about the text that is left after some steps. -/
macro "hm_at " h:term : tactic =>
  `(tactic| (refine Rules.tok_at $h ?_; first | done | rfl | assumption | simp only [*, List.drop_drop]))

end Ulight
