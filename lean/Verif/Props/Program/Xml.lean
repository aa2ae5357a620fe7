import Verif.Spec.Elements.Xml
import Verif.Hl.Reads
import Verif.Props.Lang.Xml
import Verif.Props.Lang.CppMatch
import Verif.Props.Program.Html

/-!
# C58: lexical elements of XML
-/

namespace Ulight.Xml

open Spec Spec.Xml Phrase

variable {α β : Type}

/-! ## Reading phrases -/

/-- The function reads phrases of the kind `P` and returns `v`. -/
def R (m : HM Unit α) (P : Phrase) (v : α) : Prop := ∀ env a ts b, P a ts b → Reads env m () a ts b v ()

/-- The function reads phrases of the kind `P`. -/
def R' (m : HM Unit α) (P : Phrase) : Prop := ∀ env a ts b, P a ts b → ∃ v, Reads env m () a ts b v ()

variable {P Q : Phrase} {m : HM Unit β} {f : β → HM Unit α} {v : α} {w : β}

theorem R.any {m : HM Unit α} (h : R m P v) : R' m P := fun env a ts b hp => ⟨v, h env a ts b hp⟩

theorem R.seq (h : R m P w) (h' : R (f w) Q v) : R (m >>= f) (P ⬝ Q) v := by
  rintro env _ _ b ⟨u, us, x, xs, rfl, rfl, h1, h2⟩
  exact (h _ _ _ _ h1).bind (h' _ _ _ _ h2)

theorem R'.seq (h : R' m P) (h' : ∀ w, R (f w) Q v) : R (m >>= f) (P ⬝ Q) v := by
  rintro env _ _ b ⟨u, us, x, xs, rfl, rfl, h1, h2⟩
  obtain ⟨w, h⟩ := h _ _ _ _ h1
  exact h.bind (h' w _ _ _ _ h2)

/-- The last part of a function. -/
theorem R'.last (h : R' m P) : R (m >>= fun _ => pure v) P v := by
  intro env a ts b hp
  obtain ⟨w, h⟩ := h _ _ _ _ hp
  exact h.bind_last reads_pure

theorem R.or {m : HM Unit α} (h : R m P v) (h' : R m Q v) : R m (or P Q) v := fun _ _ _ _ hp => hp.elim (h _ _ _ _) (h' _ _ _ _)

theorem R'.or {m : HM Unit α} (h : R' m P) (h' : R' m Q) : R' m (Phrase.or P Q) := fun _ _ _ _ hp => hp.elim (h _ _ _ _) (h' _ _ _ _)

theorem R.pure {C : Bytes → Prop} : R (Pure.pure v) (before C) v := by
  rintro env _ _ b ⟨rfl, rfl, -⟩
  exact reads_pure

theorem R.of {m : HM Unit α} (h : R m P v) (h' : ∀ a ts b, Q a ts b → P a ts b) : R m Q v := fun _ _ _ _ hq => h _ _ _ _ (h' _ _ _ hq)

theorem lit {t : Bytes} {ty : HT} (h0 : t ≠ []) : R (expectLit t ty) (word t ty) true := by
  rintro env _ _ b ⟨rfl, rfl⟩
  exact reads_rem (reads_this (startsWith_iff.2 ⟨b, rfl⟩) ((reads_emit rfl h0).bind_last reads_pure))

theorem no_lit {t : Bytes} {ty : HT} : R (expectLit t ty) (before fun b => ¬ t <+: b) false := by
  rintro env _ _ b ⟨rfl, rfl, h⟩
  refine reads_rem (reads_else ?_ reads_pure)
  intro h'
  obtain ⟨t, e⟩ := startsWith_iff.1 h'
  exact h ⟨t, e.symm⟩

theorem maybe_lit {t : Bytes} {ty : HT} (h0 : t ≠ []) : R' (expectLit t ty) (maybe t ty) := (lit h0).any.or no_lit.any

theorem lit_then {t : Bytes} {ty : HT} {X Y : HM Unit α} (h0 : t ≠ []) (h : R X P v) :
    R (expectLit t ty >>= fun c => if c = true then X else Y) (word t ty ⬝ P) v := by
  refine (lit h0).seq ?_
  rw [if_pos rfl]
  exact h

theorem lit_else {t : Bytes} {ty : HT} {X Y : HM Unit α} (h : R Y P v) :
    R (expectLit t ty >>= fun c => if c = true then X else Y) (fun a ts b => ¬ t <+: a ++ b ∧ P a ts b) v := by
  rintro env a ts b ⟨h1, h2⟩
  refine (no_lit _ _ _ _ ⟨rfl, rfl, h1⟩).bind_none ?_
  rw [if_neg (by simp)]
  exact h _ _ _ _ h2

theorem spaces : R' expectWhitespace Spaces := by
  rintro env a _ b ⟨h, rfl⟩
  have hn := Longest.unique (whitespace_facts (a ++ b)).2 h (whitespace_facts (a ++ b)).1 (by simp)
  exact ⟨_, reads_rem ((reads_advance (by rw [hn])).bind_last reads_pure)⟩

/-! ## Names -/

theorem name_char {s : Bytes} {c : Nat} {p t : Bytes} (h : s = p ++ t) (hc : FirstChar c p t) :
    Utf8.decodeOrReplacement s = (c, p.length) := by
  have hp : s ≠ [] := by
    rw [h]
    simp
    intro e
    exact absurd e (Cpp.firstChar_ne_nil hc)
  obtain ⟨q, rest, he, hn, hf⟩ := Utf8.firstChar_decode hp
  have := Utf8.firstChar_unique hf hc (he.symm.trans h)
  exact Prod.ext this.1 (hn.trans (by rw [this.2.1]))

/-- The characters of a name are read together. -/
theorem chars_loop {ty : HT} {stop : Bytes → Bool} (hs : Stops stop) {env : HEnv} {a b : Bytes} {ts : List Token} {v L : Nat}
    (cs ds : List (Nat × Bytes)) : ∀ (r u : Bytes) (t : Nat), Chars r (cs ++ ds) → a ++ b = u ++ r → (∀ c ∈ cs, NameChar c.1) →
    (t = 0 → ∀ c, cs.head? = some c → NameStart c.1) →
    (∀ m, L < m → Reads env (HM.loop m (nameStep ty stop) (t + (cs.flatMap Prod.snd).length, u.length + (cs.flatMap Prod.snd).length)) () a ts b v ()) →
    ∀ m, L + (cs.flatMap Prod.snd).length < m → Reads env (HM.loop m (nameStep ty stop) (t, u.length)) () a ts b v () := by
  induction cs with
  | nil =>
    intro r u t _ _ _ _ h m hm
    exact h m (by simpa using hm)
  | cons x cs ih =>
    intro r u t hc he hn h1 h m hm
    obtain ⟨c, p⟩ := x
    obtain ⟨rest, rfl, hf, hc⟩ : ∃ rest, r = p ++ rest ∧ FirstChar c p rest ∧ Chars rest (cs ++ ds) := by
      cases hc with
      | cons hf hc => exact ⟨_, rfl, hf, hc⟩
    have hp : 0 < p.length := List.length_pos_iff.2 (Cpp.firstChar_ne_nil hf)
    have hd := name_char (s := p ++ rest) rfl hf
    have hname : isName c = true := (name_iff c).2 (hn (c, p) (by simp))
    have hst : stop (p ++ rest) = false := by
      cases h' : stop (p ++ rest) with
      | false => rfl
      | true =>
        have h2 := hs _ h'
        rw [matchName_char (fun e => by rw [(List.append_eq_nil_iff.1 e).1] at hp; exact absurd hp (by decide)) (by rw [hd]; exact hname), hd] at h2
        dsimp only at h2
        omega
    have hdrop : (a ++ b).drop u.length = p ++ rest := by rw [he]; exact List.drop_left' rfl
    refine reads_loop_none (c' := (t + p.length, u.length + p.length)) (y := ()) (by omega) ?_ ?_
    · refine reads_rem (reads_this ?_ ?_)
      · rw [List.nil_append, hdrop, hst]
        have : u.length < (a ++ b).length := by rw [he]; simp; omega
        simpa using this
      · rw [List.nil_append, hdrop]
        dsimp only
        rw [hd]
        refine reads_else ?_ reads_pure
        rw [hname]
        intro e
        simp at e
        have := (nameStart_iff c).2 (h1 e.1 _ rfl)
        simp [this] at e
    · have := ih rest (u ++ p) (t + p.length) hc (by rw [he]; simp) (fun c hc => hn c (by simp [hc])) (by omega) ?_ (m - 1) ?_
      · simpa using this
      · intro m hm
        simpa [Nat.add_assoc] using h m hm
      · rw [List.flatMap_cons, List.length_append] at hm
        dsimp only at hm
        omega

theorem name_part {ty : HT} {stop : Bytes → Bool} (hs : Stops stop) {env : HEnv} {a b : Bytes} {ts : List Token} {v L t : Nat}
    {w r : Bytes} {first : Bool} (hf : first = true ↔ t = 0) (hw : NamePart first w r) (he : a ++ b = w ++ r)
    (h : ∀ m, L < m → Reads env (HM.loop m (nameStep ty stop) (t + w.length, w.length)) () a ts b v ()) (m : Nat) (hm : L + w.length < m) :
    Reads env (HM.loop m (nameStep ty stop) (t, 0)) () a ts b v () := by
  rcases hw with ⟨⟨cs, ds, h1, h2, h3, h4⟩, h5⟩ | ⟨h1, rfl, h2⟩
  · refine chars_loop (L := L) hs cs ds (w ++ r) [] t h1 he h3 ?_ ?_ m (by rw [h2]; exact hm)
    · intro ht c hc
      obtain ⟨c', p', t', e, f, hn⟩ := h5 (hf.2 ht) (by
        rintro rfl
        cases cs with
        | nil => simp at hc
        | cons x cs =>
          cases h1 with
          | cons f _ =>
            have := Cpp.firstChar_ne_nil f
            simp at h2
            simp [h2] at this)
      cases cs with
      | nil => simp at hc
      | cons x cs =>
        simp at hc
        subst hc
        revert h1
        generalize hs' : w ++ r = s at *
        intro h1
        cases h1 with
        | cons f' _ =>
          rw [(Utf8.firstChar_unique f' f e).1]
          exact hn
    · intro m hm
      rw [h2]
      simpa using h m hm
  · exact h m (by simp at hm; omega)

theorem bad_char {s : Bytes} {t : Nat} {first : Bool} {w : Bytes} (hf : first = true ↔ t = 0) (h0 : s ≠ []) (hw : NamePart first w s) :
    ((t + w.length = 0 && !isNameStart (Utf8.decodeOrReplacement s).1) || !isName (Utf8.decodeOrReplacement s).1) = true := by
  obtain ⟨q, rest, he, hn, hc⟩ := Utf8.firstChar_decode h0
  rcases hw with ⟨h1, _⟩ | ⟨h1, rfl, h2⟩
  · have := LongestChars.noFirst h1
    rw [List.drop_left' rfl] at this
    have h' := this _ _ _ he hc
    rw [← name_iff] at h'
    simp at h'
    simp [h']
  · have ht := hf.1 h1
    have : ¬ NameStart (Utf8.decodeOrReplacement s).1 := fun h => h2 ⟨_, _, _, he, hc, h⟩
    rw [← nameStart_iff] at this
    simp at this
    simp [ht, this]

theorem named {ty : HT} {ends : List Bytes} {stop : Bytes → Bool} (hs : Stops stop) (he : ∀ s, stop s = true ↔ NameEnd ends s)
    {env : HEnv} {a b : Bytes} {ts : List Token} {first : Bool} (h : Named ty ends first a ts b) :
    ∀ t, (first = true ↔ t = 0) → ∀ m, a.length < m → Reads env (HM.loop m (nameStep ty stop) (t, 0)) () a ts b (t + a.length) () := by
  induction h with
  | @end_ first w b h e =>
    intro t ht m hm
    refine name_part (L := 0) hs ht h rfl (fun m hm => reads_loop_end (by omega) (reads_rem (reads_else ?_ ?_))) m (by omega)
    · rw [List.drop_left' rfl]
      rcases e with rfl | e
      · simp
      · simp [(he b).2 e]
    · exact (reads_emitIf rfl).bind_last reads_pure
  | @bad first w c a ts b h e _ ih =>
    intro t ht m hm
    refine name_part (L := a.length + 1) (r := c :: (a ++ b)) hs ht h (by simp) ?_ m (by simp at hm ⊢; omega)
    intro m hm
    have h1 : Reads env (HM.loop (m - 1) (nameStep ty stop) (t + w.length + 1, 0)) () a ts b (t + w.length + 1 + a.length) () :=
      ih _ (by simp) _ (by omega)
    have h2 : Reads env (nameStep ty stop (t + w.length, w.length)) () (w ++ [c]) (opt 0 w ty ++ [⟨w.length, 1, .error⟩]) (a ++ b)
        (.inl (t + w.length + 1, 0)) () := by
      refine reads_rem ?_
      have hd : (w ++ [c] ++ (a ++ b)).drop w.length = c :: (a ++ b) := by
        rw [List.append_assoc]
        exact List.drop_left' rfl
      dsimp only
      rw [hd]
      refine reads_this ?_ (reads_this (bad_char ht (by simp) h) ?_)
      · have : stop (c :: (a ++ b)) = false := by
          cases h' : stop (c :: (a ++ b)) with
          | false => rfl
          | true => exact absurd ((he _).1 h') e
        rw [this]
        simp
      · have := (reads_emitIf (env := env) (x := ()) (a := w) (b := [c] ++ (a ++ b)) (ty := ty) rfl).bind (f := fun _ => do HM.emitAdv 1 .error; pure (Sum.inl (t + w.length + 1, 0) : (Nat × Nat) ⊕ Nat))
          ((reads_emit (env := env) (x := ()) (a := [c]) (b := a ++ b) (ty := .error) (n := 1) (mode := .normal) rfl (by simp)).bind_last reads_pure)
        simpa [shift] using this
    have := reads_loop (by omega) h2 h1
    have e1 : t + w.length + 1 + a.length = t + (w ++ c :: a).length := by simp; omega
    rw [← e1]
    simpa [shift] using this

theorem name {ty : HT} {ends : List Bytes} {stop : Bytes → Bool} (hs : Stops stop) (he : ∀ s, stop s = true ↔ NameEnd ends s)
    {env : HEnv} {a b : Bytes} {ts : List Token} (h : Name ty ends a ts b) : Reads env (expectName ty stop) () a ts b a.length () := by
  refine reads_rem ?_
  simpa using named hs he h (env := env) 0 (by simp) ((a ++ b).length + 1) (by simp; omega)

theorem space_end (s : Bytes) : (matchWhitespace s != 0) = true ↔ ∃ c, s.head? = some c ∧ Space c := by
  cases s with
  | nil => exact ⟨fun h => absurd h (by decide), by simp⟩
  | cons c t =>
    rw [matchWhitespace, Ascii.length_if_start _ _ 0 (by omega)]
    cases hc : isSpace c with
    | true => simp [hc, (isSpace_iff c).1 hc]
    | false =>
      have : ¬ Space c := by rw [← isSpace_iff, hc]; simp
      simp [hc, this]

theorem prefix_iff {s w : Bytes} : startsWith s w = true ↔ w <+: s := by
  rw [startsWith_iff]
  exact ⟨fun ⟨t, h⟩ => ⟨t, h.symm⟩, fun ⟨t, h⟩ => ⟨t, h.symm⟩⟩

theorem not_prefix_iff {s w : Bytes} : startsWith s w = false ↔ ¬ w <+: s := by
  rw [← prefix_iff]
  simp

theorem piStop_iff (s : Bytes) : piStop s = true ↔ NameEnd [b!"?>"] s := by
  simp only [piStop, NameEnd, Bool.or_eq_true, space_end, prefix_iff]
  simp

theorem attrStop_iff (s : Bytes) : attrStop s = true ↔ NameEnd [b!"/>", b!">", b!"="] s := by
  simp only [attrStop, NameEnd, Bool.or_eq_true, space_end, prefix_iff]
  simp [or_assoc]

theorem tagStop_iff (s : Bytes) : tagStop s = true ↔ NameEnd [b!"/>", b!">"] s := by
  simp only [tagStop, NameEnd, Bool.or_eq_true, space_end, prefix_iff]
  simp [or_assoc]

theorem endStop_iff (s : Bytes) : endStop s = true ↔ NameEnd [b!">"] s := by
  simp only [endStop, NameEnd, Bool.or_eq_true, space_end, prefix_iff]
  simp

theorem declStop_iff (s : Bytes) : declStop s = true ↔ NameEnd [] s := by
  simp only [declStop, NameEnd, space_end]
  simp

theorem doctypeStop_iff (s : Bytes) : doctypeStop s = true ↔ NameEnd [b!"[", b!">"] s := by
  simp only [doctypeStop, NameEnd, Bool.or_eq_true, space_end, prefix_iff]
  simp
  constructor
  · rintro ((h | h) | h) <;> simp [h]
  · rintro (h | h | h) <;> simp [h]

theorem names {ty : HT} {ends : List Bytes} {stop : Bytes → Bool} (hs : Stops stop) (he : ∀ s, stop s = true ↔ NameEnd ends s) :
    R' (expectName ty stop) (Name ty ends) := fun _ a _ _ h => ⟨a.length, name hs he h⟩

theorem no_name {ty : HT} {ends : List Bytes} {stop : Bytes → Bool} (he : ∀ s, stop s = true ↔ NameEnd ends s) :
    R (expectName ty stop) (NoName ends) 0 := by
  rintro env _ _ b ⟨rfl, rfl, h⟩
  refine reads_rem (reads_loop_end (by omega) (reads_rem (reads_else ?_ (Reads.bind_last (w := ()) (y := ()) ?_ reads_pure))))
  · rw [List.nil_append, List.drop_zero]
    rcases h with rfl | h
    · simp
    · simp [(he b).2 h]
  · exact reads_emitIf (a := []) rfl

/-! ## Values -/

theorem plain_loop {q : UInt8} {env : HEnv} {a b : Bytes} {ts : List Token} {L : Nat} (t r : Bytes) (h : ∀ c ∈ t, c ≠ q ∧ c ≠ c!"<" ∧ c ≠ c!"&") :
    ∀ (u : Bytes), a ++ b = u ++ (t ++ r) →
    (∀ m, L < m → Reads env (HM.loop m (valueStep q) (u.length + t.length)) () a ts b () ()) →
    ∀ m, L + t.length < m → Reads env (HM.loop m (valueStep q) u.length) () a ts b () () := by
  induction t with
  | nil =>
    intro u _ h m hm
    exact h m (by simpa using hm)
  | cons c t ih =>
    intro u he h' m hm
    obtain ⟨h1, h2, h3⟩ := h c (by simp)
    have hg : (a ++ b)[u.length]? = some c := by rw [he]; simp
    refine reads_loop_none (c' := u.length + 1) (y := ()) (by omega) (reads_rem ?_) ?_
    · rw [List.nil_append, hg]
      refine reads_else (by simp [h1]) (reads_else (by simp [h2, h3]) (reads_else (by simp [h3]) reads_pure))
    · have := ih (fun c hc => h c (by simp [hc])) (u ++ [c]) (by rw [he]; simp) ?_ (m - 1) (by simp at hm; omega)
      · simpa using this
      · intro m hm
        simpa [Nat.add_assoc, Nat.add_comm 1] using h' m hm

theorem value_end {q : UInt8} {env : HEnv} {t b : Bytes} (h : ∀ c ∈ t, c ≠ q ∧ c ≠ c!"<" ∧ c ≠ c!"&") (hb : b = [] ∨ b.head? = some q) (m : Nat)
    (hm : t.length < m) : Reads env (HM.loop m (valueStep q) 0) () t (opt 0 t .string) b () () := by
  refine plain_loop (a := t) (b := b) (L := 0) t b h [] rfl (fun m hm => reads_loop_end (by omega) (reads_rem (reads_this ?_ ?_))) m (by omega)
  · simp
    rcases hb with rfl | hb
    · simp
    · rw [List.getElem?_append_right (by omega)]
      simp [← List.head?_eq_getElem?, hb]
  · exact (reads_emitIf (by simp)).bind_last reads_pure

theorem head_split {b : Bytes} {q : UInt8} (h : b.head? = some q) : ∃ t, b = q :: t := by
  cases b with
  | nil => simp at h
  | cons c t => simp at h; exact ⟨t, by rw [h]⟩

/-- A value up to its end. -/
inductive ValueText (q : UInt8) : Phrase where
  | end_ {t b} (h : ∀ c ∈ t, c ≠ q ∧ c ≠ c!"<" ∧ c ≠ c!"&") (hb : b = [] ∨ b.head? = some q) : ValueText q t (opt 0 t .string) b
  | ref {t w a ts b} (h : ∀ c ∈ t, c ≠ q ∧ c ≠ c!"<" ∧ c ≠ c!"&") (hw : Html.RefContent w) (h' : ValueText q a ts b) :
      ValueText q (t ++ (b!"&" ++ w ++ b!";") ++ a)
        (opt 0 t .string ++ ⟨t.length, w.length + 2, .string_escape⟩ :: shift (t.length + (w.length + 2)) ts) b
  | bad {t c a ts b} (h : ∀ c ∈ t, c ≠ q ∧ c ≠ c!"<" ∧ c ≠ c!"&")
      (hc : c = c!"<" ∨ c = c!"&" ∧ Html.NoRef (c :: (a ++ b)) 0) (h' : ValueText q a ts b) :
      ValueText q (t ++ c :: a) (opt 0 t .string ++ ⟨t.length, 1, .error⟩ :: shift (t.length + 1) ts) b

theorem value_text {q : UInt8} (hq : q = c!"'" ∨ q = c!"\"") {env : HEnv} {a b : Bytes} {ts : List Token} (h : ValueText q a ts b) :
    ∀ m, a.length < m → Reads env (HM.loop m (valueStep q) 0) () a ts b () () := by
  have hq1 : q ≠ c!"<" ∧ q ≠ c!"&" := by rcases hq with rfl | rfl <;> decide
  induction h with
  | end_ h hb => exact fun m hm => value_end h hb m hm
  | @ref t w a ts b h hw _ ih =>
    refine fun m hm => plain_loop (L := a.length + 1) t (b!"&" ++ w ++ b!";" ++ a ++ b) h [] (by simp) ?_ m (by simp at hm ⊢; omega)
    intro m hm
    rw [List.length_nil, Nat.zero_add]
    have hr : b!"&" ++ w ++ b!";" ++ (a ++ b) = b!"&" ++ w ++ b!";" ++ a ++ b := by simp
    have h2 : Reads env (valueStep q t.length) () (t ++ (b!"&" ++ w ++ b!";")) (opt 0 t .string ++ [⟨t.length, w.length + 2, .string_escape⟩]) (a ++ b)
        (.inl 0) () := by
      refine reads_rem ?_
      have hd : (t ++ (b!"&" ++ w ++ b!";") ++ (a ++ b)).drop t.length = b!"&" ++ w ++ b!";" ++ (a ++ b) := by
        rw [List.append_assoc]
        exact List.drop_left' rfl
      have hg : (t ++ (b!"&" ++ w ++ b!";") ++ (a ++ b))[t.length]? = some c!"&" := by
        rw [List.append_assoc, List.getElem?_append_right (by omega)]
        simp
      have hm := Html.ref_eq hw (a ++ b)
      rw [hd, hg, hm]
      refine reads_else (by simp [hq1.2.symm]) (reads_else (by simp) (reads_this rfl ?_))
      have h3 : Reads env expectReference () (b!"&" ++ w ++ b!";") [⟨0, w.length + 2, .string_escape⟩] (a ++ b) true () := by
        refine reads_rem ?_
        dsimp only
        rw [hm]
        exact reads_this (by omega) ((reads_emit (by simp) (by simp)).bind_last reads_pure)
      have := (reads_emitIf (env := env) (x := ()) (a := t) (b := b!"&" ++ w ++ b!";" ++ (a ++ b)) (ty := .string) rfl).bind
        (f := fun _ => do let _ ← expectReference; pure (Sum.inl 0 : Nat ⊕ Unit)) (h3.bind_last reads_pure)
      simpa [shift] using this
    have := reads_loop (by omega) h2 (ih (m - 1) (by omega))
    simpa [shift, Nat.add_assoc] using this
  | @bad t c a ts b h hc _ ih =>
    refine fun m hm => plain_loop (L := a.length + 1) t (c :: a ++ b) h [] (by simp) ?_ m (by simp at hm ⊢; omega)
    intro m hm
    rw [List.length_nil, Nat.zero_add]
    have h2 : Reads env (valueStep q t.length) () (t ++ [c]) (opt 0 t .string ++ [⟨t.length, 1, .error⟩]) (a ++ b) (.inl 0) () := by
      refine reads_rem ?_
      have hd : (t ++ [c] ++ (a ++ b)).drop t.length = c :: (a ++ b) := by
        rw [List.append_assoc]
        exact List.drop_left' rfl
      have hg : (t ++ [c] ++ (a ++ b))[t.length]? = some c := by
        rw [List.append_assoc, List.getElem?_append_right (by omega)]
        simp
      rw [hd, hg]
      refine reads_else ?_ (reads_this ?_ ?_)
      · rcases hc with rfl | ⟨rfl, _⟩
        · simp [hq1.1.symm]
        · simp [hq1.2.symm]
      · rcases hc with rfl | ⟨rfl, h⟩
        · exact Or.inr rfl
        · exact Or.inl ⟨rfl, by simpa using Html.ref_zero h⟩
      have := (reads_emitIf (env := env) (x := ()) (a := t) (b := [c] ++ (a ++ b)) (ty := .string) rfl).bind
        (f := fun _ => do HM.emitAdv 1 .error; pure (Sum.inl 0 : Nat ⊕ Unit))
        ((reads_emit (env := env) (x := ()) (a := [c]) (b := a ++ b) (ty := .error) (n := 1) (mode := .normal) rfl (by simp)).bind_last reads_pure)
      simpa [shift] using this
    have := reads_loop (by omega) h2 (ih (m - 1) (by omega))
    simpa [shift, Nat.add_assoc] using this

theorem valueRest_split {q : UInt8} {a b : Bytes} {ts : List Token} (h : Spec.Xml.ValueRest q a ts b) :
    ∃ u us, ValueText q u us (a.drop u.length ++ b) ∧ (a = u ++ [q] ∧ ts = us ++ [⟨u.length, 1, .string_delim⟩] ∨ a = u ∧ ts = us ∧ b = []) := by
  induction h with
  | @closed t b h => exact ⟨t, _, .end_ h (Or.inr (by simp)), Or.inl ⟨rfl, rfl⟩⟩
  | @open_ t h => exact ⟨t, _, .end_ h (Or.inl (by simp)), Or.inr ⟨rfl, rfl, rfl⟩⟩
  | @ref t w a ts b h hw _ ih =>
    obtain ⟨u, us, h1, h2⟩ := ih
    refine ⟨t ++ (b!"&" ++ w ++ b!";") ++ u, opt 0 t .string ++ ⟨t.length, w.length + 2, .string_escape⟩ :: shift (t.length + (w.length + 2)) us, ?_, ?_⟩
    · have : (t ++ (b!"&" ++ w ++ b!";") ++ a).drop (t ++ (b!"&" ++ w ++ b!";") ++ u).length = a.drop u.length := by
        rw [List.length_append, ← List.drop_drop, List.drop_left' rfl]
      rw [this]
      exact .ref h hw h1
    · rcases h2 with ⟨rfl, rfl⟩ | ⟨rfl, rfl, rfl⟩
      · left
        simp [shift, Nat.add_comm, Nat.add_left_comm]
      · right
        simp
  | @bad t c a ts b h hc _ ih =>
    obtain ⟨u, us, h1, h2⟩ := ih
    refine ⟨t ++ c :: u, opt 0 t .string ++ ⟨t.length, 1, .error⟩ :: shift (t.length + 1) us, ?_, ?_⟩
    · have : (t ++ c :: a).drop (t ++ c :: u).length = a.drop u.length := by
        rw [List.length_append, ← List.drop_drop, List.drop_left' rfl]
        simp
      rw [this]
      refine .bad h ?_ h1
      rcases h2 with ⟨rfl, rfl⟩ | ⟨rfl, rfl, rfl⟩
      · simpa using hc
      · simpa using hc
    · rcases h2 with ⟨rfl, rfl⟩ | ⟨rfl, rfl, rfl⟩
      · left
        simp [shift, Nat.add_comm, Nat.add_left_comm]
      · right
        simp

theorem value_rest {q : UInt8} (hq : q = c!"'" ∨ q = c!"\"") : R (valueRest q) (word [q] .string_delim ⬝ Spec.Xml.ValueRest q) true := by
  refine R.seq (w := ()) (P := word [q] .string_delim) ?_ ?_
  · rintro env _ _ b ⟨rfl, rfl⟩
    exact reads_emit rfl (by simp)
  · intro env a ts b h
    refine reads_rem ?_
    obtain ⟨u, us, h1, ⟨rfl, rfl⟩ | ⟨rfl, rfl, rfl⟩⟩ := valueRest_split h
    · rw [List.drop_left' rfl] at h1
      have h2 : Reads env (do let _ ← expectLit [q] .string_delim; pure true) () [q] [⟨0, 1, .string_delim⟩] b true () :=
        (lit (by simp) _ _ _ _ ⟨rfl, rfl⟩).bind_last reads_pure
      have := (value_text hq h1 ((u ++ [q] ++ b).length + 1) (by simp; omega)).bind (f := fun _ => do let _ ← expectLit [q] .string_delim; pure true) h2
      simpa [shift] using this
    · simp only [List.drop_length, List.append_nil] at h1 ⊢
      refine (value_text hq h1 _ (by simp)).bind_last ?_
      exact (no_lit _ _ _ _ ⟨rfl, rfl, by simp⟩).bind_none reads_pure

theorem value : R expectValue Value true := by
  refine R.or ?_ ?_
  · intro env a ts b h
    refine reads_rem (reads_this ?_ (value_rest (Or.inl rfl) _ _ _ _ h))
    obtain ⟨u, us, v, vs, rfl, rfl, ⟨rfl, rfl⟩, _⟩ := h
    exact prefix_iff.2 ⟨v ++ b, by simp⟩
  · intro env a ts b h
    refine reads_rem (reads_else ?_ (reads_this ?_ (value_rest (Or.inr rfl) _ _ _ _ h)))
    all_goals obtain ⟨u, us, v, vs, rfl, rfl, ⟨rfl, rfl⟩, _⟩ := h
    · simp [startsWith_cons_cons]
    · exact prefix_iff.2 ⟨v ++ b, by simp⟩

theorem noQuote {b : Bytes} (h : NotFirst b!"'\"" b) : startsWith b b!"'" = false ∧ startsWith b b!"\"" = false := by
  cases b with
  | nil => decide
  | cons c t =>
    have := h c rfl
    simp at this
    simp [startsWith_cons_cons, Ne.symm this.1, Ne.symm this.2]

theorem no_value : R expectValue NoValue false := by
  rintro env _ _ b ⟨rfl, rfl, h⟩
  obtain ⟨h1, h2⟩ := noQuote h
  exact reads_rem (reads_else (by simp [h1]) (reads_else (by simp [h2]) reads_pure))

theorem some_value : R' expectValue (Phrase.or Value NoValue) := value.any.or no_value.any

/-! ## Comments, instructions and sections -/

theorem upTo_of {p a b : Bytes} (h : ∀ k, k < a.length → ¬ OccursAt p (a ++ b) k) (hb : b = [] ∨ p <+: b) :
    UpTo p (a ++ b) a.length := by
  refine ⟨fun k hk => ?_, ?_⟩
  · by_cases h' : k < a.length
    · exact absurd hk (h k h')
    · omega
  · rcases hb with rfl | ⟨t, rfl⟩
    · simp
    · exact Or.inr ⟨a, t, by simp, rfl⟩

theorem occurs_tail {p s : Bytes} {c : UInt8} {k : Nat} (h : OccursAt p s k) : OccursAt p (c :: s) (k + 1) := by
  obtain ⟨x, y, rfl, rfl⟩ := h
  exact ⟨c :: x, y, by simp, by simp⟩

theorem commentLoop_at (r : Bytes) (hr : r = [] ∨ b!"--" <+: r) (t : Bytes) : ∀ n, (∀ k, k < t.length → ¬ OccursAt b!"--" (t ++ r) k) →
    commentLoop n (t ++ r) = if startsWith r b!"-->" = true then ⟨n + t.length + 3, true⟩ else ⟨n + t.length, false⟩ := by
  induction t with
  | nil =>
    intro n _
    rcases hr with rfl | ⟨u, rfl⟩
    · rfl
    · show commentLoop n (c!"-" :: c!"-" :: u) = _
      rw [commentLoop]
      have : startsWith (c!"-" :: c!"-" :: u) b!"--" = true := prefix_iff.2 ⟨u, rfl⟩
      rw [this, if_pos rfl]
      rfl
  | cons c t ih =>
    intro n h
    have h0 : startsWith (c :: t ++ r) b!"--" = false := by
      rw [not_prefix_iff]
      rintro ⟨u, hu⟩
      exact h 0 (by simp) ⟨[], u, by rw [← hu]; rfl, rfl⟩
    have h1 : startsWith (c :: t ++ r) b!"-->" = false := by
      rw [not_prefix_iff] at h0 ⊢
      rintro ⟨u, hu⟩
      exact h0 ⟨c!">" :: u, by rw [← hu]; rfl⟩
    show commentLoop n (c :: (t ++ r)) = _
    rw [commentLoop]
    rw [List.cons_append] at h0 h1
    rw [h0, h1, if_neg (by simp), if_neg (by simp), ih (n + 1) (fun k hk ho => h (k + 1) (by simp; omega) (occurs_tail ho))]
    simp [Nat.add_assoc, Nat.add_comm, Nat.add_left_comm]

theorem comment : R expectComment Spec.Xml.Comment true := by
  rintro env _ _ b ⟨_, _, v, vs, rfl, rfl, ⟨rfl, rfl⟩, t, _, w, ws, rfl, rfl, ⟨h1, h2, rfl⟩, h3⟩
  have hm : matchComment (b!"<!--" ++ (t ++ w) ++ b) =
      if startsWith (w ++ b) b!"-->" = true then ⟨4 + t.length + 3, true⟩ else ⟨4 + t.length, false⟩ := by
    have hs : startsWith (b!"<!--" ++ (t ++ w) ++ b) b!"<!--" = true := prefix_iff.2 ⟨t ++ w ++ b, by simp⟩
    have hd : (b!"<!--" ++ (t ++ w) ++ b).drop 4 = t ++ (w ++ b) := by simp
    unfold matchComment
    rw [hs, hd]
    exact commentLoop_at _ h2 t 4 h1
  refine reads_rem ?_
  rcases h3 with ⟨rfl, rfl⟩ | ⟨rfl, rfl, h3⟩
  · rw [if_pos (prefix_iff.2 ⟨b, rfl⟩)] at hm
    rw [hm]
    refine reads_else (by simp) ((reads_emit (by rfl) (by simp)).bind (reads_this (by rfl) ((reads_emitIf ?_).bind ((reads_emit (by rfl) (by simp)).bind_last reads_pure))))
    dsimp only
    omega
  · rw [if_neg (by rw [prefix_iff]; exact h3)] at hm
    rw [hm]
    refine reads_else (by simp) (Reads.bind (a := b!"<!--") (reads_emit (by rfl) (by simp)) (reads_else (by simp)
      (Reads.bind (a := t) (a' := []) (reads_emitIf ?_) reads_pure)))
    dsimp only
    omega

theorem no_comment {env : HEnv} {b : Bytes} (h : ¬ b!"<!--" <+: b) : Reads env expectComment () [] [] b false () := by
  refine reads_rem ?_
  rw [List.nil_append]
  unfold matchComment
  rw [not_prefix_iff.2 h]
  exact reads_this rfl reads_pure

theorem cdata : R expectCData CData true := by
  rintro env _ _ b ⟨_, _, v, vs, rfl, rfl, ⟨rfl, rfl⟩, t, _, w, ws, rfl, rfl, ⟨h1, h2, rfl⟩, h3⟩
  have hu := upTo_of h1 h2
  refine reads_rem ?_
  rcases h3 with ⟨rfl, rfl⟩ | ⟨rfl, rfl, h3⟩
  · have e : b!"<![CDATA[" ++ (t ++ b!"]]>") ++ b = b!"<![CDATA[" ++ (t ++ b!"]]>" ++ b) := by simp
    have := Html.matchCData_closed (b := b) (t := t) (by simpa using hu)
    dsimp only
    rw [e, this]
    refine reads_else (by simp) ((reads_emit (by rfl) (by simp)).bind (reads_this (by rfl) ((reads_advance ?_).bind ((reads_emit (by rfl) (by simp)).bind_last reads_pure))))
    dsimp only
    omega
  · rcases h2 with h2 | h2
    · simp only [List.nil_append] at h2
      subst h2
      have : Html.matchCData (b!"<![CDATA[" ++ (t ++ []) ++ []) = ⟨9 + t.length, false⟩ := by
        rw [List.append_nil, List.append_nil]
        refine Html.matchCData_open (t := t) (fun k hk => ?_)
        have h1' := h1 k
        obtain ⟨x, y, e, rfl⟩ := hk
        exact h1' (by rw [e]; simp) ⟨x, y, by simpa using e, rfl⟩
      rw [this]
      refine reads_else (by simp) (Reads.bind (a := b!"<![CDATA[") (reads_emit (by rfl) (by simp)) (reads_else (by simp)
        (Reads.bind (a := t) (a' := []) (reads_advance ?_) reads_pure)))
      dsimp only
      omega
    · exact absurd h2 h3

theorem no_cdata {env : HEnv} {b : Bytes} (h : ¬ b!"<![CDATA[" <+: b) : Reads env expectCData () [] [] b false () := by
  refine reads_rem ?_
  rw [List.nil_append]
  unfold Html.matchCData
  rw [not_prefix_iff.2 h]
  exact reads_this rfl reads_pure

theorem hasXml_iff (a b : Bytes) : Ascii.containsIgnoreCase (b.take a.length) b!"xml" = true ↔ HasXml a b := by
  rw [(Ascii.C19_ignore_case _ _).2.2]
  have hx : ∀ c : UInt8, toLower c = c!"x" ↔ c ∈ b!"xX" := by apply forall_byte; decide +kernel
  have hm : ∀ c : UInt8, toLower c = c!"m" ↔ c ∈ b!"mM" := by apply forall_byte; decide +kernel
  have hl : ∀ c : UInt8, toLower c = c!"l" ↔ c ∈ b!"lL" := by apply forall_byte; decide +kernel
  have e : (b!"xml").map toLower = b!"xml" := by decide
  rw [e]
  constructor
  · rintro ⟨u, v, h⟩
    obtain ⟨u', v', h1, h2, h3⟩ := List.map_eq_append_iff.1 h.symm
    obtain ⟨u1, w1, h4, h5, h6⟩ := List.map_eq_append_iff.1 h2
    match w1, h6 with
    | [], h6 | [_], h6 | [_, _], h6 | _ :: _ :: _ :: _ :: _, h6 => simp at h6
    | [x, m, l], h6 =>
      simp only [List.map_cons, List.map_nil, List.cons.injEq, and_true] at h6
      exact ⟨u1, x, m, l, v', by rw [h1, h4], (hx x).1 h6.1, (hm m).1 h6.2.1, (hl l).1 h6.2.2⟩
  · rintro ⟨u, x, m, l, v, h, h1, h2, h3⟩
    rw [h]
    refine ⟨u.map toLower, v.map toLower, ?_⟩
    simp [(hx x).2 h1, (hm m).2 h2, (hl l).2 h3]

theorem skip_loop {env : HEnv} {b : Bytes} (hb : b = [] ∨ b!"?>" <+: b) (a : Bytes) : (∀ k, k < a.length → ¬ OccursAt b!"?>" (a ++ b) k) →
    ∀ m, a.length < m → Reads env (HM.loop m piStep ()) () a [] b () () := by
  induction a with
  | nil =>
    intro _ m hm
    refine reads_loop_end (by omega) (reads_rem (reads_else ?_ reads_pure))
    rcases hb with rfl | hb
    · simp
    · simp [prefix_iff.2 hb]
  | cons c t ih =>
    intro h m hm
    have h0 : startsWith ([c] ++ (t ++ b)) b!"?>" = false := by
      rw [not_prefix_iff]
      rintro ⟨u, hu⟩
      exact h 0 (by simp) ⟨[], u, by rw [show c :: t ++ b = [c] ++ (t ++ b) from rfl, ← hu]; rfl, rfl⟩
    have := reads_loop (m := m) (env := env) (body := piStep) (a := [c]) (ts := []) (a' := t) (us := []) (b := b) (x := ()) (y := ()) (c := ()) (c' := ()) (by omega) (reads_rem (reads_this (by
      rw [h0]; rfl) ((reads_advance rfl).bind_last reads_pure)))
      (ih (fun k hk ho => h (k + 1) (by simp; omega) (occurs_tail ho)) _ (by simp at hm; omega))
    simpa [shift] using this

theorem instruction : R expectPI Instruction true := by
  refine lit_then (by simp) (R.or ?_ (R.or ?_ ?_))
  · refine R.of (P := NoName [b!"?>"] ⬝ before fun _ => True) ((no_name piStop_iff).seq ?_) ?_
    · rw [if_pos rfl]
      exact R.pure
    · intro a ts b h
      obtain ⟨rfl, rfl, _⟩ := id h
      exact ⟨[], [], [], [], rfl, rfl, h, rfl, rfl, trivial⟩
  · rintro env a ts b ⟨h0, h1, h2⟩
    refine (name piStop_stops piStop_iff h2).bind_last (reads_else (by simpa using h0) (reads_rem (reads_this ?_ reads_pure)))
    rw [List.nil_append]
    exact (hasXml_iff a b).2 h1
  · rintro env _ _ b ⟨a, ts, c, us, rfl, rfl, ⟨h0, h1, h2⟩, h3⟩
    refine (name piStop_stops piStop_iff h2).bind (reads_else (by simpa using h0) (reads_rem (reads_else ?_ ?_)))
    · rw [hasXml_iff]
      exact h1
    · refine spaces.seq (fun _ => ?_) _ _ _ _ h3
      rintro env _ _ b ⟨a, _, c, us, rfl, rfl, ⟨h1, h2, rfl⟩, h3⟩
      exact reads_rem ((skip_loop h2 a h1 _ (by simp; omega)).bind ((maybe_lit (by simp)).last _ _ _ _ h3))

theorem no_instruction {env : HEnv} {b : Bytes} (h : ¬ b!"<?" <+: b) : Reads env expectPI () [] [] b false () :=
  lit_else (P := before fun _ => True) R.pure _ _ _ _ ⟨h, rfl, rfl, trivial⟩

/-! ## Tags and text -/

theorem attribute_true : R expectAttribute (Spec.Xml.Attribute True) true := by
  refine (names attrStop_stops attrStop_iff).seq fun _ => spaces.seq fun _ => R.or ?_ ?_
  · rintro env _ _ b ⟨-, rfl, rfl, h⟩
    exact lit_else (P := before fun _ => True) R.pure _ _ _ _ ⟨h, rfl, rfl, trivial⟩
  · refine lit_then (by simp) (spaces.seq fun _ => R.or ?_ ?_)
    · exact value.of fun _ _ _ h => h.2
    · rintro _ _ _ _ ⟨h, _⟩
      exact absurd trivial h

theorem attribute_false : R expectAttribute (Spec.Xml.Attribute False) false := by
  refine (names attrStop_stops attrStop_iff).seq fun _ => spaces.seq fun _ => R.or ?_ ?_
  · rintro env _ _ b ⟨h, -⟩
    exact h.elim
  · refine lit_then (by simp) (spaces.seq fun _ => R.or ?_ ?_)
    · rintro _ _ _ _ ⟨h, _⟩
      exact h.elim
    · exact no_value.of fun _ _ _ h => h.2

theorem no_close {s : Bytes} (h : ¬ b!">" <+: s ∧ ¬ b!"/>" <+: s) : ¬ (startsWith s b!">" || startsWith s b!"/>") = true := by
  simp [not_prefix_iff.2 h.1, not_prefix_iff.2 h.2]

theorem attribute_step {complete : Prop} {v : Unit ⊕ Unit} {c : Bool} (h : R expectAttribute (Spec.Xml.Attribute complete) c)
    (hv : v = if c = true then .inl () else .inr ()) {env : HEnv} {a : Bytes} {ts : List Token} {b : Bytes} (h0 : a ++ b ≠ [])
    (h1 : (Spaces ⬝ fun a ts b => (¬ b!">" <+: a ++ b ∧ ¬ b!"/>" <+: a ++ b) ∧ Spec.Xml.Attribute complete a ts b) a ts b) :
    Reads env (attributesStep ()) () a ts b v () := by
  refine reads_rem (reads_else (by simpa using h0) (spaces.seq (fun _ => ?_) _ _ _ _ h1))
  rintro env a ts b ⟨h1, h2⟩
  refine reads_rem (reads_else (no_close h1) ((h _ _ _ _ h2).bind_last ?_))
  cases c with
  | true => exact hv ▸ reads_pure
  | false => exact hv ▸ reads_pure

theorem attributes {env : HEnv} {a : Bytes} {ts : List Token} {b : Bytes} (h : Attributes a ts b) :
    Reads env (HM.loop ((a ++ b).length + 1) attributesStep ()) () a ts b () () := by
  refine reads_star h ?_ ?_ _ (by omega)
  · intro a ts b h h0
    exact attribute_step attribute_true rfl (by simp [h0]) h
  · rintro a ts b (⟨rfl, rfl, rfl⟩ | ⟨h0, h⟩ | ⟨h0, h⟩)
    · exact reads_rem (reads_this rfl reads_pure)
    · refine reads_rem (reads_else (by simpa using h0) (spaces.seq (fun _ => ?_) _ _ _ _ h))
      rintro env _ _ b ⟨rfl, rfl, h⟩
      refine reads_rem (reads_this ?_ reads_pure)
      rw [List.nil_append]
      rcases h with h | h <;> simp [prefix_iff.2 h]
    · exact attribute_step attribute_false rfl h0 h

theorem startTag : R expectStartTag StartTag true := by
  refine lit_then (by simp) (R.or ?_ ?_)
  · rintro env _ _ b ⟨rfl, rfl, h⟩
    exact (no_name tagStop_iff _ _ _ _ ⟨rfl, rfl, h⟩).bind_none (reads_this rfl reads_pure)
  · rintro env _ _ b ⟨a, ts, c, us, rfl, rfl, ⟨h0, -, h2⟩, d, ds, e, es, rfl, rfl, h3, h4⟩
    refine (name tagStop_stops tagStop_iff h2).bind (reads_else (by simpa using h0) (reads_rem ?_))
    rw [List.append_assoc]
    refine (attributes h3).bind (Reads.bind_last (w := decide (e ≠ [])) (y := ()) ?_ reads_pure)
    rcases h4 with ⟨rfl, rfl⟩ | ⟨rfl, rfl⟩ | ⟨rfl, rfl, h⟩
    · exact reads_or (lit (by simp) _ _ _ _ ⟨rfl, rfl⟩)
    · exact reads_or_else (no_lit _ _ _ _ ⟨rfl, rfl, by simp⟩) (lit (by simp) _ _ _ _ ⟨rfl, rfl⟩)
    · exact reads_or_else (no_lit _ _ _ _ ⟨rfl, rfl, h.1⟩) (no_lit _ _ _ _ ⟨rfl, rfl, h.2⟩)

theorem endTag : R expectEndTag EndTag true := by
  refine lit_then (by simp) (R.or ?_ ?_)
  · rintro env _ _ b ⟨rfl, rfl, h⟩
    exact (no_name endStop_iff _ _ _ _ ⟨rfl, rfl, h⟩).bind_none (reads_this rfl reads_pure)
  · rintro env _ _ b ⟨a, ts, c, us, rfl, rfl, ⟨h0, -, h2⟩, h3⟩
    refine (name endStop_stops endStop_iff h2).bind (reads_else (by simpa using h0) ?_)
    exact spaces.seq (fun _ => (maybe_lit (by simp)).last) _ _ _ _ h3

theorem no_endTag {env : HEnv} {b : Bytes} (h : ¬ b!"</" <+: b) : Reads env expectEndTag () [] [] b false () :=
  lit_else (P := before fun _ => True) R.pure _ _ _ _ ⟨h, rfl, rfl, trivial⟩

theorem no_startTag {env : HEnv} {b : Bytes} (h : ¬ b!"<" <+: b) : Reads env expectStartTag () [] [] b false () :=
  lit_else (P := before fun _ => True) R.pure _ _ _ _ ⟨h, rfl, rfl, trivial⟩

theorem text {t b : Bytes} {env : HEnv} (h : t ≠ []) (h' : Longest (fun c => c ≠ c!"<" ∧ c ≠ c!"&") (t ++ b) t.length) :
    Reads env expectText () t [] b true () := by
  have hm : matchText (t ++ b) = t.length := length_if_not_eq (by intro c; simp) h' (by simp)
  refine reads_rem ?_
  rw [hm]
  exact reads_this (by simpa using h) ((reads_advance rfl).bind_last reads_pure)

theorem text_ref {w b : Bytes} {env : HEnv} (h : Html.RefContent w) :
    Reads env expectText () (b!"&" ++ w ++ b!";") [⟨0, w.length + 2, .string_escape⟩] b true () := by
  have hm : matchText (b!"&" ++ w ++ b!";" ++ b) = 0 := length_if_not_eq (P := fun c => c ≠ c!"<" ∧ c ≠ c!"&") (by intro c; simp) ⟨by simp, by simp⟩ (by simp)
  have h3 : Reads env expectReference () (b!"&" ++ w ++ b!";") [⟨0, w.length + 2, .string_escape⟩] b true () := by
    refine reads_rem ?_
    rw [Html.ref_eq h b]
    exact reads_this (by omega) ((reads_emit (by simp) (by simp)).bind_last reads_pure)
  refine reads_rem ?_
  rw [hm]
  exact reads_else (by simp) (reads_this (prefix_iff.2 ⟨w ++ b!";" ++ b, by simp⟩) (h3.bind_last (reads_this rfl reads_pure)))

theorem text_badRef {b : Bytes} {env : HEnv} (h : Html.NoRef (b!"&" ++ b) 0) :
    Reads env expectText () b!"&" [⟨0, 1, .error⟩] b true () := by
  have hm : matchText (b!"&" ++ b) = 0 := length_if_not_eq (P := fun c => c ≠ c!"<" ∧ c ≠ c!"&") (by intro c; simp) ⟨by simp, by simp⟩ (by simp)
  have h0 := Html.ref_zero h
  rw [List.drop_zero] at h0
  have h3 : Reads env expectReference () [] [] (b!"&" ++ b) false () := by
    refine reads_rem ?_
    rw [List.nil_append, h0]
    exact reads_else (by simp) reads_pure
  refine reads_rem ?_
  rw [hm]
  exact reads_else (by simp) (reads_this (prefix_iff.2 ⟨b, rfl⟩) (h3.bind_none (reads_else (by simp) ((reads_emit (by rfl) (by simp)).bind_last reads_pure))))

/-! ## The document type declaration -/

theorem space_char {c : Nat} (h : isSpaceChar c = true) : ∃ d : UInt8, d.toNat = c ∧ d.toNat < 0x80 ∧ Space d := by
  simp only [isSpaceChar, Bool.and_eq_true, decide_eq_true_eq] at h
  have h1 : (UInt8.ofNat c).toNat = c := by simp; omega
  have h2 : ∀ d : UInt8, isSpace d = true → d.toNat < 0x80 := by apply forall_byte; decide +kernel
  exact ⟨UInt8.ofNat c, h1, h2 _ h.2, (isSpace_iff _).1 h.2⟩

theorem char_space {d : UInt8} (h : Space d) : d.toNat < 0x80 ∧ isSpaceChar d.toNat = true := by
  rw [← isSpace_iff] at h
  revert d
  apply forall_byte
  decide +kernel

theorem first_space {s : Bytes} {cs : List (Nat × Bytes)} (h : Chars s cs) :
    (firstOffset isSpaceChar cs).getD s.length ≤ s.length ∧ Longest (fun c => ¬ Space c) s ((firstOffset isSpaceChar cs).getD s.length) := by
  induction h with
  | nil => simp [firstOffset, Longest]
  | @cons c p rest cs hf _ ih =>
    unfold firstOffset
    split
    · rename_i hc
      obtain ⟨d, rfl, h1, h2⟩ := space_char hc
      have : p = [d] := by
        rcases hf with ⟨_, rfl⟩ | ⟨e, _⟩
        · simp [utf8, h1]
        · omega
      subst this
      simp [Longest, h2]
    · rename_i hc
      have hp : ∀ b ∈ p, ¬ Space b := by
        intro b hb hs
        obtain ⟨h1, h2⟩ := char_space hs
        rw [← firstChar_bytes_all hf b hb h1] at hc
        exact hc h2
      have key : ((firstOffset isSpaceChar cs).map (p.length + ·)).getD (p ++ rest).length = p.length + (firstOffset isSpaceChar cs).getD rest.length := by
        cases firstOffset isSpaceChar cs <;> simp
      rw [key]
      refine ⟨by simp; exact ih.1, ?_, ?_⟩
      · intro b hb
        rw [List.take_append, List.take_of_length_le (by omega), Nat.add_sub_cancel_left] at hb
        rcases List.mem_append.1 hb with hb | hb
        · exact hp b hb
        · exact ih.2.1 b hb
      · intro b hb
        rw [List.getElem?_append_right (by omega), Nat.add_sub_cancel_left] at hb
        exact ih.2.2 b hb

theorem find_space (s : Bytes) : ∃ k, Utf8.find_if s isSpaceChar = .ok k ∧ k.getD s.length ≤ s.length ∧ Longest (fun c => ¬ Space c) s (k.getD s.length) := by
  obtain ⟨cs, hcs, _⟩ := Utf8.C14_chars_exist_unique s
  exact ⟨_, (Utf8.C15_find_if s cs hcs isSpaceChar).1, first_space hcs⟩

theorem word_end {w b : Bytes} (hw : w = b!"SYSTEM" ∨ w = b!"PUBLIC") {n : Nat} (hn : n ≤ (w ++ b).length) (h : Longest (fun c => ¬ Space c) (w ++ b) n)
    (hb : ∀ c, b.head? = some c → Space c) : (w ++ b).take n = w := by
  have h0 : ∀ c ∈ w, ¬ Space c := by rcases hw with rfl | rfl <;> simp [Space]
  have : n = w.length := Longest.unique h ⟨by simpa using h0, by
    intro c hc
    rw [List.getElem?_append_right (by omega), Nat.sub_self, ← List.head?_eq_getElem?] at hc
    simpa using hb c hc⟩ hn (by simp)
  rw [this]
  exact List.take_left

theorem external_id {w : Bytes} (hw : w = b!"SYSTEM" ∨ w = b!"PUBLIC") (b : Bytes) : matchExternalId (w ++ b) ≠ 0 := by
  unfold matchExternalId
  rcases hw with rfl | rfl <;> simp [startsWith_cons_cons]

theorem value_unit : R (do let _ ← expectValue; pure ()) (Phrase.or Value NoValue) () := some_value.last

theorem opt_value : R optValue (Phrase.or Value NoValue) () := by
  refine R.or ?_ ?_
  · intro env a ts b h
    refine reads_rem (reads_this ?_ (value.any.last _ _ _ _ h))
    rcases h with ⟨u, us, v, vs, rfl, rfl, ⟨rfl, rfl⟩, _⟩ | ⟨u, us, v, vs, rfl, rfl, ⟨rfl, rfl⟩, _⟩ <;> simp [startsWith_cons_cons]
  · rintro env _ _ b ⟨rfl, rfl, h⟩
    obtain ⟨h1, h2⟩ := noQuote h
    refine reads_rem (reads_else ?_ reads_pure)
    rw [List.nil_append]
    simp [h1, h2]

theorem space_follows : R' expectWhitespace (fun a ts b => (∀ c, (a ++ b).head? = some c → Space c) ∧ Spaces a ts b) :=
  fun _ _ _ _ h => spaces _ _ _ _ h.2

theorem external : R doctypeExternal External () := by
  intro env a ts b h
  cases h with
  | system h =>
    obtain ⟨_, _, v, vs, rfl, rfl, ⟨rfl, rfl⟩, h⟩ := h
    refine reads_rem (reads_this (by rw [List.append_assoc]; exact external_id (Or.inl rfl) _) ?_)
    refine Reads.bind_last (w := true) (y := ()) (reads_rem ?_) reads_pure
    obtain ⟨k, hk, hk1, hk2⟩ := find_space (b!"SYSTEM" ++ v ++ b)
    have hv : ∀ c, (v ++ b).head? = some c → Space c := by
      obtain ⟨x, xs, y, ys, rfl, rfl, ⟨h, _⟩, _⟩ := h
      simpa using h
    rw [List.append_assoc] at hk1 hk2
    refine reads_lift hk (reads_this (by rw [List.append_assoc]; exact word_end (Or.inl rfl) hk1 hk2 hv) ?_)
    exact (reads_emit (by rfl) (by simp)).bind (space_follows.seq (fun _ => some_value.last) _ _ _ _ h)
  | «public» h =>
    obtain ⟨_, _, v, vs, rfl, rfl, ⟨rfl, rfl⟩, h⟩ := h
    refine reads_rem (reads_this (by rw [List.append_assoc]; exact external_id (Or.inr rfl) _) ?_)
    refine Reads.bind_last (w := true) (y := ()) (reads_rem ?_) reads_pure
    obtain ⟨k, hk, hk1, hk2⟩ := find_space (b!"PUBLIC" ++ v ++ b)
    have hv : ∀ c, (v ++ b).head? = some c → Space c := by
      obtain ⟨x, xs, y, ys, rfl, rfl, ⟨h, _⟩, _⟩ := h
      simpa using h
    rw [List.append_assoc] at hk1 hk2
    have hw := word_end (Or.inr rfl) hk1 hk2 hv
    refine reads_lift hk (reads_else (by rw [List.append_assoc, hw]; decide) (reads_this (by rw [List.append_assoc]; exact hw) ?_))
    exact (reads_emit (by rfl) (by simp)).bind (space_follows.seq (fun _ => some_value.seq fun _ => spaces.seq fun _ => some_value.last) _ _ _ _ h)
  | @longer w b hw h e =>
    obtain ⟨t, rfl⟩ := h
    refine reads_rem (reads_this (external_id hw _) ?_)
    refine Reads.bind_last (w := false) (y := ()) (reads_rem ?_) reads_pure
    obtain ⟨k, hk, hk1, hk2⟩ := find_space (w ++ t)
    have hl : w.length = 6 := by rcases hw with rfl | rfl <;> rfl
    obtain ⟨c, hc, hcs⟩ := e
    have hlt : 6 < (w ++ t).length := by
      have := List.getElem?_eq_some_iff.1 hc
      exact this.1
    have hne : ∀ x : Bytes, x.length = 6 → (w ++ t).take (k.getD (w ++ t).length) ≠ x := by
      intro x hx e
      have h6 : k.getD (w ++ t).length = 6 := by
        have := congrArg List.length e
        rw [List.length_take, hx] at this
        omega
      rw [h6] at hk2
      exact hk2.2 c hc hcs
    exact reads_lift hk (reads_else (hne _ rfl) (reads_else (hne _ rfl) reads_pure))
  | none h =>
    obtain ⟨t, rfl⟩ := h
    exact reads_rem (reads_else (by simp [matchExternalId, startsWith_cons_cons]) (reads_this (prefix_iff.2 ⟨t, rfl⟩) reads_pure))
  | other h0 h =>
    have h1 := not_prefix_iff.2 (h0 b!"SYSTEM" (by simp))
    have h2 := not_prefix_iff.2 (h0 b!"PUBLIC" (by simp))
    have h3 := h0 b!"[" (by simp)
    refine reads_rem (reads_else (by simp [matchExternalId, h1, h2]) (reads_else (by rw [prefix_iff]; exact h3) ?_))
    obtain ⟨u, us, v, vs, rfl, rfl, ⟨h4, rfl⟩, h5⟩ := h
    have hm : Ascii.length_if_not (u ++ v ++ b) isSpace = u.length := by
      rw [List.append_assoc]
      refine length_if_not_eq (P := fun c => ¬ Space c) (by intro c; rw [← isSpace_iff]; simp) h4 (by simp)
    rw [hm]
    exact (reads_advance rfl).bind (spaces.seq (fun _ => opt_value.any.seq fun _ => spaces.seq fun _ => opt_value) _ _ _ _ h5)

/-! ### Declarations -/

theorem matchAttType_eq {w b : Bytes} (h : w ∈ Spec.Xml.attTypes) (e : ∀ c, b.head? = some c → Space c ∨ c = c!">") : matchAttType (w ++ b) = w.length := by
  have h0 : ∀ w ∈ Spec.Xml.attTypes, Xml.attTypes.contains w = true ∧ ∀ c ∈ w, (isSpace c || decide (c = c!">")) = false := by decide +kernel
  obtain ⟨h1, h2⟩ := h0 w h
  unfold matchAttType
  dsimp only
  cases b with
  | nil =>
    rcases find_if_longest (w ++ []) (fun c => isSpace c || c = c!">") _ (fun _ => Iff.rfl) 0 (by simp) with ⟨j, c, _, _, _, h4, h5, _⟩ | ⟨h3, _⟩
    · have := h2 c (List.mem_of_getElem? (by simpa using h4))
      rw [this] at h5
      cases h5
    · rw [h3]
      dsimp only
      rw [List.append_nil, h1, if_pos rfl]
  | cons c t =>
    have hc : (isSpace c || decide (c = c!">")) = true := by
      rcases e c rfl with h | h
      · simp [(isSpace_iff c).2 h]
      · simp [h]
    have := Html.find_if_first (a := w) (p := fun c => isSpace c || c = c!">") (q := []) (t := t) (c := c) (k := 0) h2 hc rfl
    rw [List.nil_append, Nat.zero_add] at this
    simp only [this, List.take_left, h1, if_true]

theorem matchAttType_none {w b : Bytes} (h : w ∈ keywords) : matchAttType (w ++ b) = 0 := by
  have h0 : ∀ w ∈ keywords, (∀ x ∈ Xml.attTypes, ¬ w <+: x) ∧ ∀ c ∈ w, (isSpace c || decide (c = c!">")) = false := by decide +kernel
  obtain ⟨h1, h2⟩ := h0 w h
  unfold matchAttType
  dsimp only
  rw [if_neg]
  intro h'
  refine h1 _ (List.contains_iff_mem.1 h') ?_
  rcases find_if_longest (w ++ b) (fun c => isSpace c || c = c!">") _ (fun _ => Iff.rfl) 0 (by simp) with ⟨j, c, h3, _, _, h4, h5, _⟩ | ⟨h3, _⟩
  · rw [h3]
    dsimp only
    by_cases hj : j < w.length
    · rw [List.getElem?_append_left hj] at h4
      have := h2 c (List.mem_of_getElem? h4)
      rw [this] at h5
      cases h5
    · exact ⟨b.take (j - w.length), by rw [List.take_append, List.take_of_length_le (l := w) (by omega)]⟩
  · rw [h3]
    exact ⟨b, rfl⟩

theorem declKeyword_eq {w b : Bytes} (h : Keyword w b) : declKeyword (w ++ b) = w.length := by
  cases h with
  | attType h e =>
    have h0 : w.length ≠ 0 := by
      have : ∀ w ∈ Spec.Xml.attTypes, w.length ≠ 0 := by decide
      exact this w h
    unfold declKeyword
    rw [matchAttType_eq h e, if_pos h0]
  | other h =>
    have h0 := matchAttType_none (b := b) h
    unfold declKeyword
    rw [h0, if_neg (by simp)]
    simp only [keywords, List.mem_cons, List.not_mem_nil, or_false] at h
    rcases h with rfl | rfl | rfl | rfl | rfl | rfl | rfl | rfl | rfl <;>
      simp [matchDefaultDecl, defaultDecls, matchExternalId, matchContentSpec, matchNdata, matchPcdata, startsWith_cons_cons]

theorem declKeyword_zero {s : Bytes} (h : ∀ v t, s = v ++ t → ¬ Keyword v t) : declKeyword s = 0 := by
  rcases declKeyword_spec s with h' | ⟨h1, h2, h3⟩
  · exact h'.1
  · exfalso
    generalize declKeyword s = n at h1 h2 h3
    have e := (List.take_append_drop n s).symm
    have hh : (s.drop n).head? = s[n]? := by rw [List.head?_eq_getElem?]; simp
    cases h3 with
    | attType h3 h4 => exact h _ _ e (.attType h3 (by rw [hh]; exact h4))
    | keyword h3 => exact h _ _ e (.other h3)
    | name _ t => simp at t

theorem punct_iff (c : UInt8) (t : Bytes) : (c :: t).head?.any (b!")(|*,").contains = true ↔ c ∈ b!")(|*," := by simp

theorem no_punct {s : Bytes} (h : NotFirst b!")(|*," s) : ¬ s.head?.any (b!")(|*,").contains = true := by
  cases s with
  | nil => simp
  | cons c t => rw [punct_iff]; exact h c rfl

theorem keyword_first {w b : Bytes} (h : Keyword w b) : w ≠ [] ∧ NotFirst b!")(|*,>" (w ++ b) := by
  have h0 : ∀ w ∈ Spec.Xml.attTypes ++ keywords, w ≠ [] ∧ ∀ c, w.head? = some c → c ∉ b!")(|*,>" := by decide +kernel
  obtain ⟨h1, h2⟩ := h0 w (by cases h <;> simp [*])
  refine ⟨h1, ?_⟩
  cases w with
  | nil => exact absurd rfl h1
  | cons x t => exact h2

theorem name_first {a b : Bytes} (h0 : a ≠ []) (h : LongestChars NameChar (a ++ b) a.length) : NotFirst b!")(|*,>&'\"" (a ++ b) := by
  have h1 := (longestChars_bytes h).1
  rw [List.take_left] at h1
  cases a with
  | nil => exact absurd rfl h0
  | cons c t =>
    intro d hd
    simp at hd
    subst hd
    intro hm
    have h2 : ∀ c : UInt8, c ∈ b!")(|*,>&'\"" → c.toNat < 0x80 ∧ isName c.toNat = false := by apply forall_byte; decide +kernel
    have := h1 c (by simp) (h2 c hm).1
    rw [← name_iff, (h2 c hm).2] at this
    cases this

theorem entity_first {s : Bytes} {n : Nat} (h : EntityRef s n) : ∃ t, s = c!"&" :: t := by
  obtain ⟨w, t, rfl, _⟩ := h
  exact ⟨w ++ b!";" ++ t, by simp⟩

theorem no_entity {s : Bytes} (h : ∀ m, ¬ EntityRef s m) : matchReferenceWith c!"&" s = 0 := by
  by_cases h0 : matchReferenceWith c!"&" s = 0
  · exact h0
  · exact absurd ((entityRef_iff s _).2 ⟨rfl, h0⟩) (h _)

theorem no_entity_first {s : Bytes} (h : s.head? ≠ some c!"&") : matchReferenceWith c!"&" s = 0 :=
  no_entity fun m hm => by
    obtain ⟨t, rfl⟩ := entity_first hm
    exact h rfl

theorem matchName_eq' {s : Bytes} {n : Nat} (h : LongestChars NameChar s n) : matchName s = n := longestChars_unique (matchName_spec s).2 h

theorem no_keyword_first {c : UInt8} (h : c ∈ b!"&'\"") (t : Bytes) : ∀ v u, c :: t = v ++ u → ¬ Keyword v u := by
  intro v u e hk
  have h0 : ∀ w ∈ Spec.Xml.attTypes ++ keywords, w ≠ [] ∧ ∀ c, w.head? = some c → c ∉ b!"&'\"" := by decide +kernel
  obtain ⟨h1, h2⟩ := h0 v (by cases hk <;> simp [*])
  cases v with
  | nil => exact h1 rfl
  | cons x v =>
    obtain ⟨rfl, -⟩ := List.cons.inj (show c :: t = x :: (v ++ u) from e)
    exact h2 c rfl h

theorem declPart_reads {env : HEnv} {a : Bytes} {ts : List Token} {b : Bytes} (h : DeclPart a ts b) : Reads env declPart () a ts b () () := by
  cases h with
  | @symbol c b h => exact reads_rem (reads_this ((punct_iff c b).2 h) (reads_emit (by rfl) (by simp)))
  | @keyword w b h =>
    obtain ⟨h0, h1⟩ := keyword_first h
    refine reads_rem (reads_else (no_punct fun c hc hm => h1 c hc (by simp at hm ⊢; grind)) ?_)
    rw [declKeyword_eq h]
    exact reads_this (by simpa using h0) (reads_emit rfl h0)
  | @entity a b h =>
    obtain ⟨t, e⟩ := entity_first h
    have h1 := ((entityRef_iff _ _).1 h)
    refine reads_rem ?_
    rw [h1.1, declKeyword_zero (by rw [e]; exact no_keyword_first (by simp) t)]
    refine reads_else (no_punct (by rw [e]; simp [NotFirst])) (reads_else (by simp) (reads_this h1.2 (reads_emit rfl ?_)))
    have := h1.2
    intro e
    simp [e] at this
  | @name a b h0 h hk =>
    have hf := name_first h0 h
    refine reads_rem ?_
    rw [declKeyword_zero hk, no_entity_first (fun e => hf _ e (by simp)), matchName_eq' h]
    exact reads_else (no_punct fun c hc hm => hf c hc (by simp at hm ⊢; grind)) (reads_else (by simp) (reads_else (by simp)
      (reads_this (by simpa using h0) (reads_emit rfl h0))))
  | value h =>
    have : ∃ c t, a ++ b = c :: t ∧ c ∈ b!"'\"" := by
      rcases h with ⟨u, us, v, vs, rfl, rfl, ⟨rfl, rfl⟩, _⟩ | ⟨u, us, v, vs, rfl, rfl, ⟨rfl, rfl⟩, _⟩
      · exact ⟨_, v ++ b, rfl, by simp⟩
      · exact ⟨_, v ++ b, rfl, by simp⟩
    obtain ⟨c, t, e, hc⟩ := this
    refine reads_rem ?_
    have h1 : ∀ c : UInt8, c ∈ b!"'\"" → c.toNat < 0x80 ∧ isName c.toNat = false ∧ c ∉ b!")(|*," ∧ c ≠ c!"&" := by apply forall_byte; decide +kernel
    obtain ⟨h2, h3, h4, h5⟩ := h1 c hc
    rw [declKeyword_zero (by rw [e]; exact no_keyword_first (by simp at hc ⊢; grind) t), no_entity_first (by rw [e]; simpa using h5),
      show matchName (a ++ b) = 0 by rw [e]; exact matchName_ascii h2 h3]
    refine reads_else (no_punct (by rw [e]; simpa [NotFirst] using h4)) (reads_else (by simp) (reads_else (by simp) (reads_else (by simp)
      (reads_this ?_ (value.any.last _ _ _ _ h)))))
    rw [e]
    simp at hc
    rcases hc with rfl | rfl <;> simp [startsWith_cons_cons]
  | junk h h1 h2 h3 h4 =>
    refine reads_rem ?_
    have hq : startsWith (a ++ b) b!"'" = false ∧ startsWith (a ++ b) b!"\"" = false := noQuote fun c hc hm => h1 c hc (by simp at hm ⊢; grind)
    have hm : Ascii.length_if_not (a ++ b) (fun c => isSpace c || c = c!">") = a.length :=
      length_if_not_eq (P := fun c => ¬ Space c ∧ c ≠ c!">") (by intro c; rw [← isSpace_iff]; simp) h (by simp)
    rw [declKeyword_zero h3, no_entity h4, matchName_eq' h2, hm, hq.1, hq.2]
    exact reads_else (no_punct fun c hc hm => h1 c hc (by simp at hm ⊢; grind)) (reads_else (by simp) (reads_else (by simp) (reads_else (by simp)
      (reads_else (by simp) (reads_advance rfl)))))

theorem declPart_first {a : Bytes} {ts : List Token} {b : Bytes} (h : DeclPart a ts b) (hb : a = [] → NotFirst b!">" b) : NotFirst b!">" (a ++ b) := by
  cases h with
  | symbol h =>
    intro c hc
    simp at hc
    subst hc
    simp at h ⊢
    rcases h with rfl | rfl | rfl | rfl | rfl <;> decide
  | keyword h => exact fun c hc hm => (keyword_first h).2 c hc (by simp at hm ⊢; grind)
  | entity h =>
    obtain ⟨t, e⟩ := entity_first h
    rw [e]
    simp [NotFirst]
  | name h0 h hk => exact fun c hc hm => name_first h0 h c hc (by simp at hm ⊢; grind)
  | value h =>
    rcases h with ⟨u, us, v, vs, rfl, rfl, ⟨rfl, rfl⟩, _⟩ | ⟨u, us, v, vs, rfl, rfl, ⟨rfl, rfl⟩, _⟩ <;> simp [NotFirst]
  | junk h h1 h2 h3 h4 =>
    cases a with
    | nil => exact hb rfl
    | cons c t =>
      have := h.1 c (by simp)
      simpa [NotFirst] using this.2

theorem declaration : R expectMarkupDecl Declaration true := by
  rintro env a ts b ⟨h, h'⟩
  have h1 : ¬ b!"<?" <+: a ++ b := by
    obtain ⟨_, _, v, vs, rfl, rfl, ⟨rfl, rfl⟩, _⟩ := h'
    simp
  refine (reads_or_else (a := []) (ts := []) (no_comment h) (no_instruction h1)).bind_none (reads_else (by simp) ?_)
  refine lit_then (by simp) ?_ _ _ _ _ h'
  refine (names declStop_stops declStop_iff).seq fun _ => spaces.seq fun _ => R'.seq (P := Phrase.or (word b!"%" .symbol_punc ⬝ Spaces) (before fun b => ¬ b!"%" <+: b)) ?_ fun _ =>
    (names declStop_stops declStop_iff).seq fun _ => spaces.seq fun _ => ?_
  · refine (R.any (v := ()) (lit_then (by simp) spaces.last)).or (R.any (v := ()) ?_)
    exact (lit_else (P := before fun _ => True) R.pure).of fun a ts b ⟨h1, h2, h3⟩ => ⟨by rw [h1]; exact h3, h1, h2, trivial⟩
  · intro env a ts b h
    refine reads_rem (Reads.bind_last (w := ()) (y := ()) ?_ reads_pure)
    refine reads_star h ?_ ?_ _ (by omega)
    · rintro a ts b ⟨u, us, v, vs, rfl, rfl, hp, hs⟩ h0
      have hf : NotFirst b!">" (u ++ v ++ b) := by
        rw [List.append_assoc]
        refine declPart_first hp ?_
        rintro rfl
        cases v with
        | nil => exact absurd rfl h0
        | cons c t =>
          have := hs.1.1 c (by simp)
          intro d hd
          simp at hd
          subst hd
          simp [Space] at this ⊢
          rcases this with rfl | rfl | rfl | rfl <;> decide
      have hgt : startsWith (u ++ v ++ b) b!">" = false := by
        rw [not_prefix_iff]
        rintro ⟨t, e⟩
        exact hf c!">" (by rw [← e]; rfl) (by simp)
      refine reads_rem (reads_this ?_ ?_)
      · rw [hgt]
        simp at h0 ⊢
        grind
      · exact (declPart_reads hp).bind (spaces.last _ _ _ _ hs)
    · rintro _ _ b ⟨rfl, rfl, h⟩
      refine reads_rem (reads_else ?_ reads_pure)
      rcases h with rfl | h
      · simp
      · simp [prefix_iff.2 h]

theorem subset_reads : R doctypeSubset (Phrase.or Subset (before fun b => ¬ b!"[" <+: b)) () := by
  refine R.or (lit_then (by simp) (spaces.seq fun _ => ?_)) ?_
  · intro env a ts b h
    refine reads_rem ?_
    obtain ⟨u, us, v, vs, rfl, rfl, h1, h2⟩ := h
    rw [List.append_assoc]
    refine Reads.bind (w := ()) (y := ()) ?_ ?_
    · refine reads_star h1 ?_ ?_ _ (by omega)
      · rintro a ts b ⟨u, us, v, vs, rfl, rfl, h1, h2⟩ -
        have h3 : Reads env expectMarkupDecl () u us (v ++ b) true () := by
          rcases h1 with h1 | h1 | h1
          · exact (reads_or (comment _ _ _ _ h1)).bind_last (reads_this rfl reads_pure)
          · have h4 : ¬ b!"<!--" <+: u ++ (v ++ b) := by
              obtain ⟨_, _, x, xs, rfl, rfl, ⟨rfl, rfl⟩, _⟩ := h1
              simp
            exact (reads_or_else (no_comment h4) (instruction _ _ _ _ h1)).bind_last (reads_this rfl reads_pure)
          · exact declaration _ _ _ _ h1
        exact h3.bind (reads_this rfl (spaces.seq (fun _ => (maybe_lit (by simp)).seq fun _ => spaces.last) _ _ _ _ h2))
      · rintro _ _ b ⟨rfl, rfl, h1, h2⟩
        have h4 : ¬ b!"<!--" <+: b := fun h => h1 (List.IsPrefix.trans (by decide) h)
        have h3 : Reads env expectMarkupDecl () [] [] b false () :=
          (reads_or_else (a := []) (ts := []) (no_comment h4) (no_instruction h2)).bind_none (reads_else (by simp)
            (lit_else (P := before fun _ => True) R.pure _ _ _ _ ⟨h1, rfl, rfl, trivial⟩))
        exact h3.bind_none (reads_else (by simp) reads_pure)
    · revert h2
      refine R.or (lit_then (by simp) (spaces.seq fun _ => (maybe_lit (by simp)).last)) ?_ env v vs b
      exact (lit_else (P := before fun _ => True) R.pure).of fun a ts b ⟨h1, h2, h3⟩ => ⟨by rw [h1]; exact h3, h1, h2, trivial⟩
  · exact (lit_else (P := before fun _ => True) R.pure).of fun a ts b ⟨h1, h2, h3⟩ => ⟨by rw [h1]; exact h3, h1, h2, trivial⟩

theorem doctype : R expectDoctype Doctype true :=
  lit_then (by simp) ((names doctypeStop_stops doctypeStop_iff).seq fun _ => spaces.seq fun _ => (names doctypeStop_stops doctypeStop_iff).seq fun _ =>
    spaces.seq fun _ => external.any.seq fun _ => spaces.seq fun _ => subset_reads.any.last)

theorem no_doctype {env : HEnv} {b : Bytes} (h : ¬ b!"<!" <+: b) : Reads env expectDoctype () [] [] b false () :=
  lit_else (P := before fun _ => True) R.pure _ _ _ _ ⟨h, rfl, rfl, trivial⟩

/-! ## The prolog -/

theorem digit_base (c : UInt8) : isDigitBase c 10 = isDigit c := by
  revert c
  apply forall_byte
  decide +kernel

theorem digit_facts {c : UInt8} (h : DecDigit c) : isDigitBase c 10 = true ∧ c ≠ 0 := by
  refine ⟨by rw [digit_base]; exact (isDigit_iff c).2 h, ?_⟩
  rintro rfl
  revert h
  unfold DecDigit
  decide

theorem no_digit {c : UInt8} (h : ¬ DecDigit c) : isDigitBase c 10 = false := by
  rw [digit_base, ← Bool.not_eq_true]
  exact fun h' => h ((isDigit_iff c).1 h')

theorem version : R highlightNumber Version () := by
  intro env a ts b h
  refine reads_rem ?_
  cases h with
  | @number ds es b h h' he e =>
    have hn := matchCommonNumber_eq (o := {}) (n := { int := [ds], point := b!".", frac := [es] }) (b := b) (base := 10) (float := true)
      rfl (by simp [numPrefix]) (Or.inl ⟨by simp, by
        simp
        exact ⟨h.1, fun c hc => digit_facts (h.2 c hc)⟩, Or.inr rfl⟩) (Or.inr ⟨rfl, rfl, by simp, by
        simp
        refine ⟨h', fun c hc => ?_⟩
        exact digit_facts (he.1 c (by rwa [List.take_left])), Or.inr rfl⟩) (Or.inl ⟨rfl, rfl⟩) (by simp) (by simp [numSuffix]) (by
        intro c hc
        have := he.2 c (by rw [List.getElem?_append_right (Nat.le_refl _), Nat.sub_self, ← List.head?_eq_getElem?]; exact hc)
        exact ⟨no_digit this, no_digit this, fun h => absurd rfl h, e c hc⟩) (by simp) (by decide)
    have et : Written.text { int := [ds], point := b!".", frac := [es] } = ds ++ b!"." ++ es := by
      simp [Written.text, Written.parts, Spec.groups]
    rw [et] at hn
    dsimp only
    rw [hn]
    have hd : ds ≠ [] := h.1
    have := (reads_emitIf (σ := Unit) (env := env) (x := ()) (a := ds) (b := b!"." ++ es ++ b) (n := ds.length) (ty := .number) rfl).bind
      (f := fun _ => HM.emitAdvIf 1 .symbol_punc >>= fun _ => HM.emitAdvIf es.length .number) (a' := b!"." ++ es) (b := b)
      ((reads_emitIf (a := b!".") (b := es ++ b) (n := 1) (ty := .symbol_punc) rfl).bind (reads_emitIf (a := es) rfl))
    simp [opt, hd, h', shift] at this
    simpa [Spec.Written.result, joined, Spec.groups, Nat.add_comm] using this
  | @none c b h =>
    have := matchCommonNumber_none (o := {}) (c := c) (t := b) (by simp) (by simp) (by simp) (no_digit h.1) (by
      rintro rfl
      exact h.1 (by unfold DecDigit; decide)) h.2.1 h.2.2
    rw [List.nil_append, this]
    exact reads_pure.bind_none (reads_pure.bind_none reads_pure)

theorem declAttr_reads {name : Bytes} {value : HM Unit Unit} {V : Phrase} (h0 : name ≠ []) (hv : R value V ()) :
    R (declAttr name value) (DeclAttr name V) () := by
  refine R.or (lit_then h0 (R.or (lit_then (by simp) (R.or ?_ ?_)) ?_)) ?_
  · rintro env _ _ b ⟨rfl, rfl, rfl⟩
    exact reads_rem (reads_this rfl reads_pure)
  · rintro env a ts b ⟨h1, h2⟩
    exact reads_rem (reads_else (by simpa using h1) (hv _ _ _ _ h2))
  · exact (lit_else (P := before fun _ => True) R.pure).of fun a ts b ⟨h1, h2, h3⟩ => ⟨by rw [h1]; exact h3, h1, h2, trivial⟩
  · exact (lit_else (P := before fun _ => True) R.pure).of fun a ts b ⟨h1, h2, h3⟩ => ⟨by rw [h1]; exact h3, h1, h2, trivial⟩

theorem xmlDecl : R expectXmlDecl XmlDecl true :=
  lit_then (by simp) (spaces.seq fun _ => (declAttr_reads (by simp) version).seq (spaces.seq fun _ =>
    (declAttr_reads (by simp) some_value.last).seq (spaces.seq fun _ => (declAttr_reads (by simp) some_value.last).seq
      (spaces.seq fun _ => (maybe_lit (by simp)).last))))

theorem no_xmlDecl {env : HEnv} {b : Bytes} (h : ¬ b!"<?xml" <+: b) : Reads env expectXmlDecl () [] [] b false () :=
  lit_else (P := before fun _ => True) R.pure _ _ _ _ ⟨h, rfl, rfl, trivial⟩

/-- Whitespace that is there. -/
theorem some_spaces {env : HEnv} {a b : Bytes} {ts : List Token} (h : Spaces a ts b) (h0 : a ≠ []) :
    Reads env expectWhitespace () a ts b true () := by
  obtain ⟨h, rfl⟩ := h
  have hn := Longest.unique (whitespace_facts (a ++ b)).2 h (whitespace_facts (a ++ b)).1 (by simp)
  refine reads_rem ?_
  dsimp only
  rw [hn]
  exact (reads_advance rfl).bind_last (by
    have : (a.length != 0) = true := by simpa using h0
    rw [this]
    exact reads_pure)

theorem no_spaces {env : HEnv} {b : Bytes} (h : ∀ c, b.head? = some c → ¬ Space c) : Reads env expectWhitespace () [] [] b false () := by
  have hn := Longest.unique (whitespace_facts b).2 (n := 0) ⟨by simp, by simpa [List.head?_eq_getElem?] using h⟩ (whitespace_facts b).1 (by simp)
  refine reads_rem ?_
  dsimp only
  rw [List.nil_append, hn]
  exact (reads_advance (a := []) rfl).bind_last reads_pure

theorem prolog : R expectProlog Prolog () := by
  rintro env _ _ b ⟨u, us, v, vs, rfl, rfl, h1, w, ws, x, xs, rfl, rfl, h2, h3⟩
  have h1 : ∃ r, Reads env expectXmlDecl () u us (w ++ x ++ b) r () := by
    rcases h1 with h1 | ⟨rfl, rfl, h1⟩
    · exact ⟨_, xmlDecl _ _ _ _ h1⟩
    · exact ⟨_, no_xmlDecl h1⟩
  obtain ⟨_, h1⟩ := h1
  have h3 : ∃ r, Reads env expectDoctype () x xs b r () := by
    rcases h3 with h3 | ⟨rfl, rfl, h3⟩
    · exact ⟨_, doctype _ _ _ _ h3⟩
    · exact ⟨_, no_doctype h3⟩
  obtain ⟨_, h3⟩ := h3
  refine h1.bind (reads_rem (Reads.bind (y := ()) (w := ()) ?_ (h3.bind_last reads_pure)))
  refine reads_star h2 ?_ ?_ _ (by simp)
  · rintro a ts b h h0
    refine Reads.bind_last (w := true) (y := ()) ?_ (reads_this rfl reads_pure)
    rcases h with h | h | h
    · exact reads_or (reads_or (instruction _ _ _ _ h))
    · have h4 : ¬ b!"<?" <+: a ++ b := by
        obtain ⟨_, _, x, xs, rfl, rfl, ⟨rfl, rfl⟩, _⟩ := h
        simp
      exact reads_or (reads_or_else (no_instruction h4) (comment _ _ _ _ h))
    · have h4 : ∀ w t : Bytes, w = c!"<" :: t → ¬ w <+: a ++ b := by
        rintro w t rfl ⟨r, e⟩
        cases a with
        | nil => exact h0 rfl
        | cons d a =>
          have hd := h.1.1 d (by simp)
          obtain rfl : c!"<" = d := (List.cons.inj (show c!"<" :: (t ++ r) = d :: (a ++ b) from e)).1
          simp [Space] at hd
      exact reads_or_else (reads_or_else (a := []) (ts := []) (no_instruction (h4 _ _ rfl)) (no_comment (h4 _ _ rfl))) (some_spaces h h0)
  · rintro _ _ b ⟨rfl, rfl, h1, h2, h3⟩
    exact (reads_or_else (a := []) (ts := []) (reads_or_else (a := []) (ts := []) (no_instruction h1) (no_comment h2))
      (no_spaces h3)).bind_last (reads_else (by simp) reads_pure)

/-! ## Documents -/

/-- The body of the main loop reads the elements after the prolog. -/
theorem step_reads {env : HEnv} {a b : Bytes} {ts : List Token} {x : Place} (h : Element .content a ts b x) :
    Reads env step () a ts b () () ∧ a ≠ [] ∧ x = .content := by
  suffices h : Reads env (HM.or expectComment (HM.or expectCData (HM.or expectPI (HM.or expectEndTag
      (HM.or expectStartTag expectText))))) () a ts b true () ∧ a ≠ [] ∧ x = .content from
    ⟨h.1.bind_last (reads_this rfl reads_pure), h.2⟩
  have no : ∀ w : Bytes, b!"<" <+: w → (∀ c, (a ++ b).head? = some c → c ≠ c!"<") → ¬ w <+: a ++ b := by
    rintro _ ⟨t, rfl⟩ h ⟨r, e⟩
    exact h c!"<" (by rw [← e]; rfl) rfl
  have other : (∀ c, (a ++ b).head? = some c → c ≠ c!"<") → Reads env expectText () a ts b true () →
      Reads env (HM.or expectComment (HM.or expectCData (HM.or expectPI (HM.or expectEndTag
      (HM.or expectStartTag expectText))))) () a ts b true () := fun hc h =>
    reads_or_else (no_comment (no _ (by decide) hc)) (reads_or_else (no_cdata (no _ (by decide) hc))
      (reads_or_else (no_instruction (no _ (by decide) hc)) (reads_or_else (no_endTag (no _ (by decide) hc))
        (reads_or_else (no_startTag (no _ (by decide) hc)) h))))
  cases h with
  | comment h =>
    refine ⟨reads_or (comment _ _ _ _ h), ?_, rfl⟩
    obtain ⟨_, _, x, xs, rfl, rfl, ⟨rfl, rfl⟩, _⟩ := h
    simp
  | cdata h =>
    have h' := cdata env _ _ _ h
    obtain ⟨_, _, x, xs, rfl, rfl, ⟨rfl, rfl⟩, _⟩ := h
    exact ⟨reads_or_else (no_comment (by simp)) (reads_or h'), by simp, rfl⟩
  | instruction h =>
    have h' := instruction env _ _ _ h
    obtain ⟨_, _, x, xs, rfl, rfl, ⟨rfl, rfl⟩, _⟩ := h
    exact ⟨reads_or_else (no_comment (by simp)) (reads_or_else (no_cdata (by simp)) (reads_or h')), by simp, rfl⟩
  | endTag h =>
    have h' := endTag env _ _ _ h
    obtain ⟨_, _, x, xs, rfl, rfl, ⟨rfl, rfl⟩, _⟩ := h
    exact ⟨reads_or_else (no_comment (by simp)) (reads_or_else (no_cdata (by simp)) (reads_or_else (no_instruction (by simp)) (reads_or h'))),
      by simp, rfl⟩
  | startTag h h0 =>
    have h' := startTag env _ _ _ h
    refine ⟨reads_or_else (no_comment (h0 _ (by simp))) (reads_or_else (no_cdata (h0 _ (by simp)))
      (reads_or_else (no_instruction (h0 _ (by simp))) (reads_or_else (no_endTag (h0 _ (by simp))) (reads_or h')))), ?_, rfl⟩
    obtain ⟨_, _, x, xs, rfl, rfl, ⟨rfl, rfl⟩, _⟩ := h
    simp
  | text h h' =>
    refine ⟨other ?_ (text h h'), h, rfl⟩
    intro c hc
    cases a with
    | nil => exact absurd rfl h
    | cons d a =>
      cases hc
      exact (h'.1 _ (List.mem_cons_self ..)).1
  | ref h => exact ⟨other (by simp) (text_ref h), by simp, rfl⟩
  | badRef h => exact ⟨other (by simp) (text_badRef h), by simp, rfl⟩

/-- What remains to be done leads to these tokens. -/
def At (env : HEnv) (T : List Token) : Place → Bytes → Nat → List Emit → Prop
  | .start, s, i, out => wp run (fun r s => r = true ∧ s.out.map Emit.token = T) env ⟨s, i, out, ()⟩
  | .content, s, i, out => ∀ n, s.length < n →
    wp (HM.whileNotEof n step) (fun _ s => s.out.map Emit.token = T) env ⟨s, i, out, ()⟩

theorem element_goes {debug : Bool} {opts : Opts} {src : Bytes} {T : List Token} {x y : Place} {a b : Bytes} {ts : List Token}
    (h : Element x a ts b y) : Goes (At ⟨debug, opts, src⟩ T) src.length x a ts b y := by
  cases x with
  | start =>
    cases h with
    | prolog h =>
      obtain ⟨es, he, hr⟩ := prolog ⟨debug, opts, src⟩ _ _ _ h
      refine ⟨es, he, fun i out hi h' => ?_⟩
      show wp run _ _ _
      unfold run
      rw [wp_bind]
      refine (wp_of_ok (hr i out hi)).2 ?_
      rw [wp_bind, wp_rem, wp_bind]
      refine wp_mono (h' _ (Nat.lt_succ_self _)) ?_
      intro _ s hs
      rw [wp_pure]
      exact ⟨rfl, hs⟩
  | content =>
    obtain ⟨⟨es, he, hr⟩, h0, rfl⟩ := step_reads (env := ⟨debug, opts, src⟩) h
    refine ⟨es, he, fun i out hi h' n hn => ?_⟩
    have := List.length_pos_iff.2 h0
    unfold HM.whileNotEof
    refine wp_loop_more (by omega) ?_
    rw [wp_bind, wp_eof, if_neg (by simp [h0]), wp_bind]
    refine (wp_of_ok (hr i out hi)).2 ?_
    rw [wp_pure]
    exact h' _ (by simp at hn ⊢; omega)

theorem at_end {debug : Bool} {opts : Opts} {src : Bytes} {T : List Token} (x : Place) {i : Nat} {out : List Emit}
    (hi : i = src.length) (h : out.map Emit.token = T) : At ⟨debug, opts, src⟩ T x [] i out := by
  have hc : At ⟨debug, opts, src⟩ T .content [] i out := by
    intro n hn
    unfold HM.whileNotEof
    refine wp_loop_more (by omega) ?_
    rw [wp_bind, wp_eof, if_pos (by rfl), wp_pure]
    exact h
  cases x with
  | content => exact hc
  | start =>
    have : Prolog [] [] [] := ⟨[], [], [], [], rfl, rfl, .inr ⟨rfl, rfl, by simp⟩, [], [], [], [], rfl, rfl,
      .last ⟨rfl, rfl, by simp, by simp, by simp⟩, .inr ⟨rfl, rfl, by simp⟩⟩
    obtain ⟨es, he, hg⟩ := element_goes (debug := debug) (opts := opts) (src := src) (T := T) (.prolog this)
    have he : es = [] := by simpa using he.symm
    subst he
    exact hg i out (by simp [hi]) (by simpa using hc)

/-- XML documents get exactly the tokens of their lexical elements. -/
theorem C58_xml : ExactIn highlight (fun _ => Element) .start := by
  intro opts src ts hp debug
  have := at_program (At := At ⟨debug, opts.seen, src⟩ ts) (L := src.length) (T := ts) (fun _ _ _ _ _ h => element_goes h)
    (fun x i out hi h => at_end x hi h) hp 0 [] (by simp) (by simp [shift])
  obtain ⟨r, s, h1, rfl, h2⟩ := this
  exact ⟨s.out, by simp [highlight, HM.run, HM.runAll, h1], h2⟩

/-- A name of letters. -/
theorem name_of_ascii {ty : HT} {ends : List Bytes} {w b : Bytes} (hb : b = [] ∨ NameEnd ends b) (h : matchName (w ++ b) = w.length)
    (h1 : Begins NameStart (w ++ b)) : Name ty ends w (opt 0 w ty) b :=
  .end_ (.inl ⟨h ▸ (matchName_spec _).2, fun _ _ => h1⟩) hb

theorem begins_letter {c : UInt8} {s : Bytes} (hc : c.toNat < 0x80) (h : isNameStart c.toNat = true) : Begins NameStart (c :: s) :=
  ⟨c.toNat, [c], s, rfl, firstChar_ascii hc s, (nameStart_iff _).1 h⟩

/-- The document `<?xml version=1.0?><a b="c">d&lt;</a>`. -/
example : ∃ es, highlight true {} b!"<?xml version=1.0?><a b=\"c\">d&lt;</a>" = .ok (true, es) ∧ es.map Emit.token =
    [⟨0, 5, .name_macro⟩, ⟨6, 7, .markup_attr⟩, ⟨13, 1, .symbol_punc⟩, ⟨14, 1, .number⟩, ⟨15, 1, .symbol_punc⟩, ⟨16, 1, .number⟩,
     ⟨17, 2, .name_macro⟩, ⟨19, 1, .symbol_punc⟩, ⟨20, 1, .markup_tag⟩, ⟨22, 1, .markup_attr⟩, ⟨23, 1, .symbol_punc⟩,
     ⟨24, 1, .string_delim⟩, ⟨25, 1, .string⟩, ⟨26, 1, .string_delim⟩, ⟨27, 1, .symbol_punc⟩, ⟨29, 4, .string_escape⟩,
     ⟨33, 2, .symbol_punc⟩, ⟨35, 1, .markup_tag⟩, ⟨36, 1, .symbol_punc⟩] := by
  have no : ∀ {b : Bytes}, (∀ c, b.head? = some c → ¬ Space c) → Spaces [] [] b :=
    fun h => ⟨⟨by simp, by simpa [List.head?_eq_getElem?] using h⟩, rfl⟩
  have one : ∀ {b : Bytes}, (∀ c, b.head? = some c → ¬ Space c) → Spaces b!" " [] b :=
    fun h => ⟨⟨by simp [Space], by simpa [List.head?_eq_getElem?] using h⟩, rfl⟩
  have hp : ProgramIn Element .content [] [] := .nil
  have hp := hp.before b!"</a>" (.endTag ⟨b!"</", _, b!"a>", _, rfl, rfl, ⟨rfl, rfl⟩, .inr ⟨b!"a", _, b!">", _, rfl, rfl,
    ⟨by simp, trivial, name_of_ascii (.inr (.inr ⟨_, List.mem_singleton.2 rfl, by decide⟩)) (by decide +kernel)
      (begins_letter (by decide) (by decide +kernel))⟩, [], _, b!">", _, rfl, rfl, no (by simp [Space]), .inl ⟨rfl, rfl⟩⟩⟩)
  have hp := hp.before b!"&lt;" (.ref (w := b!"lt") (.inr (.inr ⟨by decide, by simp [Letter]⟩)))
  have hp := hp.before b!"d" (.text (by decide) ⟨by simp, by simp⟩)
  have hp := hp.before b!"<a b=\"c\">" (.startTag ⟨b!"<", _, b!"a b=\"c\">", _, rfl, rfl, ⟨rfl, rfl⟩, .inr ⟨b!"a", _, b!" b=\"c\">", _, rfl, rfl,
    ⟨by simp, trivial, name_of_ascii (.inr (.inl ⟨_, rfl, by simp [Space]⟩)) (by decide +kernel)
      (begins_letter (by decide) (by decide +kernel))⟩,
    b!" b=\"c\"", _, b!">", _, rfl, rfl,
    .more (a := b!" b=\"c\"") (a' := []) ⟨b!" ", _, b!"b=\"c\"", _, rfl, rfl, one (by simp [Space]), by decide, b!"b", _, b!"=\"c\"", _, rfl, rfl,
      name_of_ascii (.inr (.inr ⟨b!"=", by simp, by decide⟩)) (by decide +kernel) (begins_letter (by decide) (by decide +kernel)),
      [], _, b!"=\"c\"", _, rfl, rfl, no (by simp [Space]), .inr ⟨b!"=", _, b!"\"c\"", _, rfl, rfl, ⟨rfl, rfl⟩, [], _, b!"\"c\"", _, rfl, rfl,
        no (by simp [Space]), .inl ⟨trivial, .inr ⟨b!"\"", _, b!"c\"", _, rfl, rfl, ⟨rfl, rfl⟩, .closed (t := b!"c") (by decide)⟩⟩⟩⟩ (by decide)
      (.last (.inr (.inl ⟨by simp, [], _, [], _, rfl, rfl, no (by simp [Space]), rfl, rfl, by decide⟩))), .inl ⟨rfl, rfl⟩⟩⟩ (by decide))
  have hp := hp.before b!"<?xml version=1.0?>" (x := .start) (.prolog ⟨b!"<?xml version=1.0?>", _, [], _, rfl, rfl,
    .inl ⟨b!"<?xml", _, b!" version=1.0?>", _, rfl, rfl, ⟨rfl, rfl⟩, b!" ", _, b!"version=1.0?>", _, rfl, rfl, one (by simp [Space]),
      b!"version=1.0", _, b!"?>", _, rfl, rfl, .inl ⟨b!"version", _, b!"=1.0", _, rfl, rfl, ⟨rfl, rfl⟩, .inl ⟨b!"=", _, b!"1.0", _, rfl, rfl,
        ⟨rfl, rfl⟩, .inr ⟨by simp, .number (ds := b!"1") (es := b!"0") (by simp [DecDigit]) (by simp) ⟨by simp [DecDigit], by simp [DecDigit]⟩ (by simp)⟩⟩⟩,
      [], _, b!"?>", _, rfl, rfl, no (by simp [Space]), [], _, b!"?>", _, rfl, rfl, .inr ⟨rfl, rfl, by decide⟩,
      [], _, b!"?>", _, rfl, rfl, no (by simp [Space]), [], _, b!"?>", _, rfl, rfl, .inr ⟨rfl, rfl, by decide⟩,
      [], _, b!"?>", _, rfl, rfl, no (by simp [Space]), .inl ⟨rfl, rfl⟩⟩,
    [], _, [], _, rfl, rfl, .last ⟨rfl, rfl, by decide, by decide, by simp [Space]⟩, .inr ⟨rfl, rfl, by decide⟩⟩)
  exact C58_xml.of_program ⟨_, hp, rfl⟩ _

theorem matchName_letter {c : UInt8} {t : Bytes} (hc : c.toNat < 0x80) (h : isName c.toNat = true) : matchName (c :: t) = 1 + matchName t := by
  have hd := name_char (s := c :: t) (c := c.toNat) (p := [c]) (t := t) rfl (firstChar_ascii hc t)
  rw [matchName_char (by simp) (by rw [hd]; exact h), hd]
  rfl

/-- A document type declaration without external subset hides everything that follows it, up to the next whitespace: whatever
`t` is, nothing in it gets a token. -/
theorem C58_xml_doctype (t : Bytes) (h : ∀ c ∈ t, ¬ Space c) (debug : Bool) : ∃ es, highlight debug {} (b!"<!DOCTYPE a>" ++ t) = .ok (true, es) ∧
    es.map Emit.token = [⟨0, 2, .name_macro⟩, ⟨2, 7, .name_macro⟩, ⟨10, 1, .name⟩] := by
  have no : ∀ {b : Bytes}, (∀ c, b.head? = some c → ¬ Space c) → Spaces [] [] b :=
    fun h => ⟨⟨by simp, by simpa [List.head?_eq_getElem?] using h⟩, rfl⟩
  have hg : ∀ c ∈ b!">" ++ t, ¬ Space c := by
    simp only [List.mem_append]
    rintro c (hc | hc)
    · simp at hc
      subst hc
      simp [Space]
    · exact h c hc
  have hn : ∀ w : Bytes, b!">" <+: w ++ t → ∀ c, (w ++ t).head? = some c → ¬ Space c := by
    rintro w ⟨r, e⟩ c hc
    rw [← e] at hc
    cases hc
    simp [Space]
  have h1 : matchName (b!"DOCTYPE" ++ (b!" a>" ++ t)) = 7 := by
    show matchName (c!"D" :: c!"O" :: c!"C" :: c!"T" :: c!"Y" :: c!"P" :: c!"E" :: c!" " :: (b!"a>" ++ t)) = 7
    have hc : ∀ c ∈ b!"DOCTYPE", c.toNat < 0x80 ∧ isName c.toNat = true := by decide +kernel
    rw [matchName_letter (hc _ (by simp)).1 (hc _ (by simp)).2, matchName_letter (hc _ (by simp)).1 (hc _ (by simp)).2,
      matchName_letter (hc _ (by simp)).1 (hc _ (by simp)).2, matchName_letter (hc _ (by simp)).1 (hc _ (by simp)).2,
      matchName_letter (hc _ (by simp)).1 (hc _ (by simp)).2, matchName_letter (hc _ (by simp)).1 (hc _ (by simp)).2,
      matchName_letter (hc _ (by simp)).1 (hc _ (by simp)).2, matchName_ascii (by decide) (by decide +kernel)]
  have h2 : matchName (b!"a" ++ (b!">" ++ t)) = 1 := by
    show matchName (c!"a" :: c!">" :: t) = 1
    rw [matchName_letter (by decide) (by decide +kernel), matchName_ascii (by decide) (by decide +kernel)]
  have hx : External (b!">" ++ t) [] [] := .other (by simp) ⟨b!">" ++ t, [], [], [], by simp, rfl,
    ⟨⟨by simpa using hg, by simp⟩, rfl⟩, [], [], [], [], rfl, rfl, no (by simp), [], [], [], [], rfl, rfl, .inr ⟨rfl, rfl, by simp [NotFirst]⟩,
    [], [], [], [], rfl, rfl, no (by simp), .inr ⟨rfl, rfl, by simp [NotFirst]⟩⟩
  have hd : Doctype (b!"<!DOCTYPE a>" ++ t) [⟨0, 2, .name_macro⟩, ⟨2, 7, .name_macro⟩, ⟨10, 1, .name⟩] [] :=
    ⟨b!"<!", _, b!"DOCTYPE a>" ++ t, _, rfl, rfl, ⟨rfl, rfl⟩, b!"DOCTYPE", _, b!" a>" ++ t, _, rfl, rfl,
      name_of_ascii (.inr (.inl ⟨_, rfl, by simp [Space]⟩)) (by simpa using h1) (begins_letter (by decide) (by decide +kernel)),
      b!" ", _, b!"a>" ++ t, _, rfl, rfl, ⟨⟨by simp [Space], by simp [Space]⟩, rfl⟩, b!"a", _, b!">" ++ t, _, rfl, rfl,
      name_of_ascii (.inr (.inr ⟨b!">", by simp, by simp⟩)) (by simpa using h2) (begins_letter (by decide) (by decide +kernel)),
      [], _, b!">" ++ t, _, rfl, rfl, no (by simp [Space]), b!">" ++ t, _, [], _, by simp, rfl, by simpa using hx, [], _, [], _, rfl, rfl,
      no (by simp), .inr ⟨rfl, rfl, by simp⟩⟩
  have hp : ProgramIn Element .start (b!"<!DOCTYPE a>" ++ t ++ []) _ := .cons (.prolog ⟨[], _, b!"<!DOCTYPE a>" ++ t, _, rfl, rfl,
    .inr ⟨rfl, rfl, by simp⟩, [], _, b!"<!DOCTYPE a>" ++ t, _, rfl, rfl, .last ⟨rfl, rfl, by simp, by simp, by simp [Space]⟩, .inl hd⟩) .nil
  rw [List.append_nil] at hp
  exact C58_xml.of_program ⟨_, hp, rfl⟩ _

/-- The document `<!DOCTYPE a><a></a>`. -/
example : ∀ c ∈ b!"<a></a>", ¬ Space c := by simp [Space]

end Ulight.Xml
