import Verif.Lang.Tex
import Verif.Spec.Lang.Tex
import Verif.Spec.Utf8
import Verif.Hl.Lemmas
import Verif.Hl.Scan

/-!
# C35: highlighting of TeX
-/

namespace Ulight.Tex

open Spec

theorem isCommandName_iff (c : UInt8) : isCommandName c = true ↔ TexLetter c := by
  simp only [isCommandName, isAlpha, isLower, isUpper, TexLetter, Bool.or_eq_true, Bool.and_eq_true,
    decide_eq_true_eq, UInt8.le_iff_toNat_le]
  grind

theorem wp_flushText {n : Nat} {Q : Unit → HS Unit → Prop} {env : HEnv} {s : HS Unit}
    (hn : n ≤ s.rem.length) : wp (flushText n) Q env s ↔ Q () (s.adv n) := by
  unfold flushText
  split
  · exact wp_advance_iff hn
  · have : n = 0 := by omega
    subst this
    rw [wp_pure]
    rfl

/-- Ordinary characters. -/
abbrev Plain (c : UInt8) : Prop := c ∉ b!"[]{}\\~%$#&^_@"

theorem texTokens_text (pre s : Bytes) (p : Nat) (ts : List Token) (hp : ∀ c ∈ pre, Plain c)
    (h : TexTokens (p + pre.length) s ts) : TexTokens p (pre ++ s) ts := by
  induction pre generalizing p with
  | nil => simpa using h
  | cons c pre ih =>
    refine .text (hp c (by simp)) (ih _ (fun d hd => hp d (by simp [hd])) ?_)
    rw [List.length_cons] at h
    rwa [show p + 1 + pre.length = p + (pre.length + 1) by omega]

/-- The output so far, followed by the tokens of the remaining text, is right. -/
def Inv (env : HEnv) (s : HS Unit) : Prop :=
  s.idx + s.rem.length = env.src.length ∧
  ∀ ts, TexTokens s.idx s.rem ts → TexTokens 0 env.src (s.out.map Emit.token ++ ts)

theorem Inv.text {env : HEnv} {s : HS Unit} {n : Nat} (h : Inv env s)
    (hp : ∀ c ∈ s.rem.take n, Plain c) (hn : n ≤ s.rem.length) : Inv env (s.adv n) := by
  refine ⟨by simp [HS.adv]; have := h.1; omega, fun ts ht => h.2 ts ?_⟩
  have := texTokens_text (s.rem.take n) (s.rem.drop n) s.idx ts hp (by
    simpa [HS.adv, Nat.min_eq_left hn] using ht)
  rwa [List.take_append_drop] at this

/-- After a token. -/
theorem Inv.emitted {env : HEnv} {s : HS Unit} {n : Nat} {ty : HT} {m : Mode} (h : Inv env s)
    (hn : n ≤ s.rem.length)
    (ht : ∀ ts, TexTokens (s.idx + n) (s.rem.drop n) ts → TexTokens s.idx s.rem (⟨s.idx, n, ty⟩ :: ts)) :
    Inv env (s.emitted n ty m) := by
  refine ⟨by simp [HS.emitted]; have := h.1; omega, fun ts hts => ?_⟩
  have := h.2 _ (ht ts hts)
  simpa [HS.emitted, Emit.token] using this

theorem backslash_spec (env : HEnv) (s : HS Unit) (hi : Inv env s) (t : Bytes)
    (hs : s.rem = c!"\\" :: t) :
    wp backslash (fun _ s' => Inv env s' ∧ s'.rem.length < s.rem.length) env s := by
  unfold backslash
  simp only [wp_bind, wp_rem, wp_hassert]
  have hl : s.rem.length = t.length + 1 := by simp [hs]
  refine ⟨by simp [hl], ?_⟩
  apply wp_ite
  · intro h1
    rw [wp_emitAdv_iff hi.1 (by omega) (by omega)]
    have ht : t = [] := by
      apply List.eq_nil_of_length_eq_zero; omega
    subst ht
    refine ⟨hi.emitted (by omega) ?_, by simp [HS.emitted]; omega⟩
    intro ts h
    rw [hs] at h ⊢
    simp at h
    cases h
    exact .trailing _
  · intro h1
    have hstart := Ascii.length_if_start s.rem isCommandName 1 (by omega)
    have hd : s.rem.drop 1 = t := by simp [hs]
    rw [hd] at hstart
    have htw : (t.takeWhile isCommandName).length ≤ t.length :=
      (List.takeWhile_prefix _).length_le
    have hhead : ∀ c, (t.dropWhile isCommandName).head? = some c → ¬ TexLetter c := by
      intro c hc
      rw [← isCommandName_iff]
      have := List.head?_dropWhile_not isCommandName t
      rw [hc] at this
      simpa using this
    simp only [wp_bind, wp_hassert]
    refine ⟨by simp [hstart], wp_ite ?_ ?_⟩
    · intro h2
      rw [wp_emitAdv_iff hi.1 (by omega) (by omega)]
      refine ⟨hi.emitted (by omega) ?_, by simp [HS.emitted]; omega⟩
      intro ts h
      match t, h1, hs, hhead with
      | c :: t', _, hs, hhead =>
        rw [hs] at h ⊢
        have h0 : ((c :: t').takeWhile isCommandName).length = 0 := by omega
        have hc : ¬ TexLetter c := by
          rw [← isCommandName_iff]
          intro hc
          simp [hc] at h0
        exact .escape hc (by simpa using h)
      | [], h1, hs, _ => simp [hs] at h1
    · intro h2
      rw [wp_emitAdv_iff hi.1 (by omega) (by omega)]
      refine ⟨hi.emitted (by omega) ?_, by simp [HS.emitted]; omega⟩
      intro ts h
      have e : t = t.takeWhile isCommandName ++ t.dropWhile isCommandName := by simp
      rw [hstart, Nat.add_comm 1] at h ⊢
      rw [hs, List.drop_succ_cons, drop_length_takeWhile] at h
      rw [hs]
      rw [show (c!"\\" :: t) = c!"\\" :: (t.takeWhile isCommandName ++ t.dropWhile isCommandName) by
        rw [← e]]
      refine .command ?_ ?_ hhead h
      · intro h0
        rw [h0] at hstart
        simp at hstart
        omega
      · intro c hc
        rw [← isCommandName_iff]
        exact List.all_eq_true.1 (List.all_takeWhile (l := t) (p := isCommandName)) c hc

theorem step_spec (env : HEnv) (n : Nat) (s : HS Unit)
    (h : Inv env s ∧ n ≤ s.rem.length ∧ ∀ c ∈ s.rem.take n, Plain c) :
    wp (step n) (fun r s' => match r with
      | .inl n' => (Inv env s' ∧ n' ≤ s'.rem.length ∧ ∀ c ∈ s'.rem.take n', Plain c) ∧
          s'.rem.length - n' < s.rem.length - n
      | .inr n' => Inv env s' ∧ n' = s'.rem.length ∧ ∀ c ∈ s'.rem, Plain c) env s := by
  obtain ⟨hi, hn, hp⟩ := h
  have hi' := hi.text hp hn
  unfold step
  simp only [wp_bind, wp_rem]
  cases hc : s.rem[n]? with
  | none =>
    simp only [wp_pure]
    rw [List.getElem?_eq_none_iff] at hc
    have : n = s.rem.length := by omega
    subst this
    exact ⟨hi, rfl, by simpa using hp⟩
  | some c =>
    have hlt : n < s.rem.length := (List.getElem?_eq_some_iff.1 hc).1
    have hdrop : s.rem.drop n = c :: s.rem.drop (n + 1) := by
      rw [List.drop_eq_getElem_cons hlt, (List.getElem?_eq_some_iff.1 hc).2]
    have hr : (s.adv n).rem = c :: s.rem.drop (n + 1) := hdrop
    have hl : (s.adv n).rem.length = s.rem.length - n := by simp [HS.adv]
    have one : ∀ ty : HT, (∀ p t ts, TexTokens (p + 1) t ts →
        TexTokens p (c :: t) (⟨p, 1, ty⟩ :: ts)) →
        wp (do HM.emitAdv 1 ty; pure (Sum.inl 0)) (fun (r : Nat ⊕ Nat) s' => match r with
          | .inl n' => (Inv env s' ∧ n' ≤ s'.rem.length ∧ ∀ c ∈ s'.rem.take n', Plain c) ∧
              s'.rem.length - n' < s.rem.length - n
          | .inr n' => Inv env s' ∧ n' = s'.rem.length ∧ ∀ c ∈ s'.rem, Plain c) env (s.adv n) := by
      intro ty hty
      rw [wp_bind, wp_emitAdv_iff hi'.1 (by omega) (by omega), wp_pure]
      refine ⟨⟨hi'.emitted (by omega) ?_, by simp, by simp⟩, ?_⟩
      · intro ts hts
        rw [hr] at hts ⊢
        exact hty _ _ _ hts
      · simp only [HS.emitted, List.length_drop]; omega
    apply wp_ite
    · intro h
      rw [wp_bind, wp_flushText hn]
      exact one _ fun p t ts h' => .square (by simpa using h) h'
    intro h1
    apply wp_ite
    · intro h
      rw [wp_bind, wp_flushText hn]
      exact one _ fun p t ts h' => .brace (by simpa using h) h'
    intro h2
    apply wp_ite
    · rintro rfl
      simp only [wp_bind]
      rw [wp_flushText hn]
      refine wp_mono (backslash_spec env (s.adv n) hi' _ hr) ?_
      rintro _ s' ⟨h1, h2⟩
      rw [wp_pure]
      exact ⟨⟨h1, by simp, by simp⟩, by omega⟩
    intro h3
    apply wp_ite
    · intro h
      rw [wp_bind, wp_flushText hn]
      refine one _ fun p t ts h' => .special ?_ h'
      simp [isSpecial] at h ⊢
      grind
    · intro h4
      rw [wp_pure]
      refine ⟨⟨hi, by omega, ?_⟩, by omega⟩
      intro d hd
      rw [List.take_add_one, hc] at hd
      simp only [List.mem_append] at hd
      rcases hd with hd | hd
      · exact hp d hd
      · simp at hd
        subst hd
        simp [isSpecial] at h1 h2 h3 h4
        simp [Plain]
        grind

/-- C35: the TeX language never fails, and its tokens are those of the specification. -/
theorem C35_tex (debug : Bool) (opts : Opts) (src : Bytes) :
    ∃ es, highlight debug opts src = .ok (true, es) ∧ TexTokens 0 src (es.map Emit.token) := by
  have : wp run (fun b s => b = true ∧ TexTokens 0 src (s.out.map Emit.token))
      ⟨debug, opts.seen, src⟩ ⟨src, 0, [], ()⟩ := by
    unfold run
    simp only [wp_bind, wp_rem]
    refine wp_loop (fun n s => Inv ⟨debug, opts.seen, src⟩ s ∧ n ≤ s.rem.length ∧
      ∀ c ∈ s.rem.take n, Plain c) (fun n s => s.rem.length - n) ?_ _ _ _ ?_ ?_
    · intro n s h
      refine wp_mono (step_spec _ n s h) ?_
      intro r s' h
      cases r with
      | inl n' => exact h
      | inr n' =>
        simp only at h ⊢
        obtain ⟨hi, rfl, hp⟩ := h
        rw [wp_flushText (Nat.le_refl _), wp_pure]
        refine ⟨rfl, ?_⟩
        have := (hi.text (n := s'.rem.length) (by simpa using hp) (Nat.le_refl _)).2 []
        simp [HS.adv] at this
        exact this (.nil _)
    · exact ⟨⟨by simp, fun ts h => by simpa using h⟩, by simp, by simp⟩
    · simp
  obtain ⟨b, s', h1, rfl, h2⟩ := this
  exact ⟨s'.out, by simp [highlight, HM.run, HM.runAll, h1], h2⟩

/-- The specification determines the tokens. -/
theorem C35_tex_tokens_unique {p : Nat} {s : Bytes} {ts ts' : List Token} (h : TexTokens p s ts)
    (h' : TexTokens p s ts') : ts = ts' := by
  have split : ∀ (n n' r r' : Bytes), n ++ r = n' ++ r' → (∀ c ∈ n, TexLetter c) →
      (∀ c ∈ n', TexLetter c) → (∀ c, r.head? = some c → ¬ TexLetter c) →
      (∀ c, r'.head? = some c → ¬ TexLetter c) → n = n' ∧ r = r' := by
    intro n
    induction n with
    | nil =>
      intro n' r r' e _ h2 h3 _
      cases n' with
      | nil => exact ⟨rfl, by simpa using e⟩
      | cons c n' =>
        simp at e
        exact absurd (h2 c (by simp)) (h3 c (by simp [e]))
    | cons a n ih =>
      intro n' r r' e h1 h2 h3 h4
      cases n' with
      | nil =>
        simp at e
        exact absurd (h1 a (by simp)) (h4 a (by simp [← e]))
      | cons c n' =>
        simp at e
        obtain ⟨rfl, e⟩ := e
        obtain ⟨rfl, rfl⟩ := ih n' r r' e (fun c hc => h1 c (by simp [hc]))
          (fun c hc => h2 c (by simp [hc])) h3 h4
        exact ⟨rfl, rfl⟩
  induction h generalizing ts' with
  | nil => cases h'; rfl
  | text hc h ih =>
    cases h' with
    | text _ h' => exact ih h'
    | _ => exfalso; clear ih h split; simp_all <;> grind
  | square hc h ih =>
    cases h' with
    | square _ h' => rw [ih h']
    | _ => exfalso; clear ih h split; simp_all <;> grind
  | brace hc h ih =>
    cases h' with
    | brace _ h' => rw [ih h']
    | _ => exfalso; clear ih h split; simp_all <;> grind
  | special hc h ih =>
    cases h' with
    | special _ h' => rw [ih h']
    | _ => exfalso; clear ih h split; simp_all <;> grind
  | @command p name s ts ne hn hl h ih =>
    generalize e : c!"\\" :: (name ++ s) = u at h'
    cases h' with
    | command _ hn' hl' h' =>
      injection e with _ e
      obtain ⟨rfl, rfl⟩ := split _ _ _ _ e hn hn' hl hl'
      rw [ih h']
    | escape hc _ =>
      injection e with _ e
      cases name with
      | nil => exact absurd rfl ne
      | cons a name =>
        injection e with e _
        subst e
        exact absurd (hn a (by simp)) hc
    | _ => exfalso; clear ih h split; simp_all <;> grind
  | @escape p c s ts hc h ih =>
    generalize e : c!"\\" :: c :: s = u at h'
    cases h' with
    | escape _ h' =>
      injection e with _ e
      injection e with _ e
      subst e
      rw [ih h']
    | @command _ name _ _ ne hn _ _ =>
      injection e with _ e
      cases name with
      | nil => exact absurd rfl ne
      | cons a name =>
        injection e with e _
        subst e
        exact absurd (hn c (by simp)) hc
    | _ => exfalso; clear ih h split; simp_all <;> grind
  | trailing p =>
    generalize e : ([c!"\\"] : Bytes) = u at h'
    cases h' with
    | trailing => rfl
    | _ => exfalso; clear split; simp_all <;> grind

/-- The tokens are well-formed. -/
theorem wellFormed {p : Nat} {s : Bytes} {ts : List Token} (h : TexTokens p s ts) :
    WellFormedFrom (p + s.length) p ts := by
  have mono : ∀ (ts : List Token) (n n' lo lo' : Nat), lo ≤ lo' → n = n' →
      WellFormedFrom n lo' ts → WellFormedFrom n' lo ts := by
    intro ts n n' lo lo' h e w
    subst e
    cases ts with
    | nil => trivial
    | cons t ts => obtain ⟨a, b⟩ := w; exact ⟨by omega, b⟩
  induction h with
  | nil => trivial
  | text hc h ih => exact mono _ _ _ _ _ (by omega) (by simp; omega) ih
  | square hc h ih | brace hc h ih | special hc h ih =>
    exact ⟨by simp, by simp, by simp, by simp, mono _ _ _ _ _ (by simp) (by simp; omega) ih⟩
  | command ne hn hl h ih =>
    exact ⟨by simp, by simp, by simp, by simp, mono _ _ _ _ _ (by simp) (by simp; omega) ih⟩
  | escape hc h ih =>
    exact ⟨by simp, by simp, by simp, by simp, mono _ _ _ _ _ (by simp) (by simp; omega) ih⟩
  | trailing => exact ⟨by simp, by simp, by simp, by simp, trivial⟩

example : highlight true {} b!"a\\bc{\\$}\\" = .ok (true, [⟨1, 3, .markup_tag, .normal⟩,
    ⟨4, 1, .symbol_brace, .normal⟩, ⟨5, 2, .string_escape, .normal⟩, ⟨7, 1, .symbol_brace, .normal⟩,
    ⟨8, 1, .error, .normal⟩]) := by
  decide +kernel

end Ulight.Tex
