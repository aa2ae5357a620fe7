import Verif.Lang.Html
import Verif.Spec.Lang.Html
import Verif.Hl.Parts
import Verif.Hl.Whole
import Verif.Props.Lang.Css

/-!
# C48: highlighting of HTML
-/

namespace Ulight

open Spec

/-! ## Nested tokens -/

theorem Spec.Tiles.last {R : Rules} {src : Bytes} {p : Nat} {ts' ts : List Token} {b l : Nat} {ty : HT}
    (h : Tiles R src p ts') (e : ts' = ts ++ [⟨b, l, ty⟩]) :
    Tiles R src b ts ∧ 0 < l ∧ b + l ≤ p ∧ ty ≠ .none ∧ R.tok (src.drop b) l ty := by
  induction h with
  | nil => simp at e
  | gap n _ le rule ih =>
    obtain ⟨h1, h2, h3, h4⟩ := ih e
    exact ⟨h1, h2, by omega, h4⟩
  | tok n ty' h pos le some rule ih =>
    obtain ⟨e1, e2⟩ := List.append_inj' e rfl
    subst e1
    simp at e2
    obtain ⟨rfl, rfl, rfl⟩ := e2
    exact ⟨h, pos, Nat.le_refl _, some, rule⟩

/-- Gluing tokens together keeps what is known about their parts. -/
theorem Spec.Tiles.glue {R : Rules} {src : Bytes} (coal : Bool) {p : Nat} {ts : List Token} (h : Tiles R src p ts)
    (es : List Emit) (e : es.map Emit.token = ts) : Tiles ⟨RunOf R, R.gap⟩ src p (glueAll coal es) := by
  induction h generalizing es with
  | nil =>
    simp at e
    subst e
    exact .nil
  | gap n _ le rule ih => exact .gap n (ih es e) le rule
  | @tok p ts n ty h pos le some rule ih =>
    obtain ⟨es, x, rfl⟩ : ∃ es' x, es = es' ++ [x] := by
      refine ⟨es.dropLast, es.getLast ?_, ?_⟩
      · rintro rfl
        simp at e
      · rw [List.dropLast_concat_getLast]
    rw [List.map_append] at e
    obtain ⟨e1, e2⟩ := List.append_inj' e rfl
    have ih := ih es e1
    simp [Emit.token] at e2
    obtain ⟨e2, e3, e4⟩ := e2
    rw [glueAll_snoc]
    rcases emitSeq_cases coal (glueAll coal es) x with h | ⟨ts0, b, l, h1, h2, h3, h4⟩
    · rw [h]
      simp only [Emit.token, e2, e3, e4]
      exact .tok n ty ih pos le some (.one rule)
    · rw [h4, e3, e4]
      obtain ⟨i1, i2, i3, i4, i5⟩ := ih.last h1
      rw [e2] at h2
      subst h2
      rw [Nat.add_assoc]
      refine .tok (l + n) ty i1 (by omega) (by omega) some (.more (e4 ▸ i5) ?_)
      rwa [List.drop_drop]

/-- Tokens of a part of the source. -/
theorem Spec.Tiles.embed {R R' : Rules} {src : Bytes} {p m : Nat} {ts : List Token} (h : Tiles R src p ts)
    (hm : p + m ≤ src.length) {q : Nat} {us : List Token} (h' : Tiles R' ((src.drop p).take m) q us)
    (tok : ∀ k n ty, k + n ≤ m → R'.tok (((src.drop p).take m).drop k) n ty → R.tok (src.drop (p + k)) n ty)
    (gap : ∀ k n, k + n ≤ m → R'.gap (((src.drop p).take m).drop k) n → R.gap (src.drop (p + k)) n) :
    Tiles R src (p + q) (ts ++ shift p us) := by
  have hl : ((src.drop p).take m).length = m := by simp; omega
  induction h' with
  | nil => simpa [shift] using h
  | gap n _ le rule ih =>
    rw [hl] at le
    rw [← Nat.add_assoc]
    exact .gap n ih (by omega) (gap _ _ le rule)
  | @tok q us n ty _ pos le some rule ih =>
    rw [hl] at le
    rw [← Nat.add_assoc]
    have := Tiles.tok n ty ih pos (by omega) some (tok _ _ _ le rule)
    simpa [shift] using this

namespace Html

open Spec.Html Utf8

/-- The nested highlighter succeeds on whatever may be the content of an element `name`. -/
def NestedOk (name : Bytes) (h : Highlight) (R : Rules) (debug : Bool) (opts : Opts) (src : Bytes) : Prop :=
  ∀ b, ContentOf name src b →
    ∃ es, h debug opts b = .ok (true, es) ∧ Tiles R b b.length (es.map Emit.token)

variable {css js : Rules} {env : HEnv} {s : HS Unit}

theorem wp_consumeNested {h : Highlight} {R R' : Rules} {n : Nat} {Q : Unit → HS Unit → Prop} (g : Good R env s)
    (hn : n ≤ s.rem.length)
    (ok : 0 < n → ∃ es, h env.debug env.opts (s.rem.take n) = .ok (true, es) ∧
      Tiles R' (s.rem.take n) (s.rem.take n).length (es.map Emit.token))
    (tok : ∀ k m ty, k + m ≤ n → RunOf R' ((s.rem.take n).drop k) m ty → R.tok (s.rem.drop k) m ty)
    (gap : ∀ k m, k + m ≤ n → R'.gap ((s.rem.take n).drop k) m → R.gap (s.rem.drop k) m)
    (k : ∀ s', Good R env s' → s'.idx + s'.rem.length = env.src.length → s'.rem = s.rem.drop n →
      s'.idx = s.idx + n → Q () s') : wp (consumeNested h n) Q env s := by
  have hl := g.len
  by_cases h0 : n = 0
  · subst h0
    exact ⟨(), s, by simp [consumeNested], k s g g.len (by simp) (by simp)⟩
  obtain ⟨es, h1, h2⟩ := ok (by omega)
  obtain ⟨bs, h3, h4⟩ := deliver_spec env.opts.coalescing 1024 (by omega) es
  have h5 := h2.glue env.opts.coalescing es rfl
  have hr : s.rem = env.src.drop s.idx := g.rem
  rw [hr] at h5 tok gap
  have h6 := Tiles.embed g.tiles (m := n) (by omega) h5
    (fun k m ty hk ht => by have := tok k m ty hk ht; rwa [List.drop_drop] at this)
    (fun k m hk ht => by have := gap k m hk ht; rwa [List.drop_drop] at this)
  rw [show ((env.src.drop s.idx).take n).length = n by simp; omega] at h6
  refine ⟨(), ⟨s.rem.drop n, s.idx + n, s.out ++ bs.flatten.map fun t => ⟨s.idx + t.beg, t.len, t.ty, .raw⟩, s.ext⟩,
    by simp [consumeNested, h0, h1, h3, HM.advance, hn], ?_⟩
  have g' : Good R env (⟨s.rem.drop n, s.idx + n, s.out ++ bs.flatten.map fun t =>
      ⟨s.idx + t.beg, t.len, t.ty, .raw⟩, s.ext⟩ : HS Unit) := by
    refine ⟨by simp only; omega, by simp [hr], ?_⟩
    simp only [List.map_append, List.map_map]
    rw [show bs.flatten = glueAll env.opts.coalescing es from h4.1]
    exact h6
  exact k _ g' g'.len rfl rfl

/-! ## Matching -/

theorem lower_eq : toLower = lower := by
  funext c
  revert c
  apply forall_byte
  decide +kernel

theorem isSpace_iff (c : UInt8) : isHtmlWhitespace c = true ↔ Space c := by
  revert c
  unfold Space
  apply forall_byte
  decide +kernel

theorem beginsLower_iff (s name : Bytes) :
    Ascii.startsWithIgnoreCase s name = true ↔ BeginsLower (name.map lower) s := by
  rw [(Ascii.C19_ignore_case s name).2.1, List.prefix_iff_eq_take, BeginsLower, lower_eq, List.map_take]
  exact eq_comm

theorem beginsLower_le {p s : Bytes} (h : BeginsLower p s) : p.length ≤ s.length := by
  have := congrArg List.length h
  simp at this
  omega

theorem occursAt_cons {p t : Bytes} {c : UInt8} {k : Nat} : OccursAt p (c :: t) (k + 1) ↔ OccursAt p t k := by
  simp [occursAt_iff]

theorem occursAt_drop {p s : Bytes} {j k : Nat} (hj : j ≤ s.length) : OccursAt p (s.drop j) k ↔ OccursAt p s (j + k) := by
  simp only [occursAt_iff, List.length_drop, List.drop_drop]
  constructor <;> rintro ⟨h1, h2⟩ <;> exact ⟨by omega, h2⟩

/-! ### Character references -/

theorem refContent_iff (w : Bytes) : isReferenceContent w = true ↔ RefContent w := by
  have hx : ∀ c, isHexDigit c = true ↔ ∃ v, digitVal c = some v ∧ v < 16 := by
    intro c
    have : isHexDigit c = (digitVal c).any (· < 16) := by
      revert c; apply forall_byte; decide +kernel
    rw [this]
    cases digitVal c <;> simp
  have ha : ∀ c, isAlnum c = true ↔ Letter c ∨ DecDigit c := isAlnum_iff
  unfold isReferenceContent RefContent
  split
  · rename_i h
    obtain ⟨ds, rfl⟩ := startsWith_iff.1 h
    constructor
    · intro h
      left
      simp at h
      exact ⟨ds, rfl, by rintro rfl; simp at h, fun c hc => (hx c).1 (h.2 c hc)⟩
    · rintro (⟨ds', h, h1, h2⟩ | ⟨ds', h, h1, h2⟩ | ⟨h1, h2⟩)
      · simp at h
        subst h
        simp
        exact ⟨List.length_pos_iff.2 h1, fun c hc => (hx c).2 (h2 c hc)⟩
      · simp at h
        have := h2 c!"x" (by rw [← h]; simp)
        simp [DecDigit] at this
      · have := h2 c!"#" (by simp)
        simp [DecDigit, Letter] at this
  · rename_i hn
    split
    · rename_i h
      obtain ⟨ds, rfl⟩ := startsWith_iff.1 h
      constructor
      · intro h
        right; left
        simp at h
        exact ⟨ds, rfl, by rintro rfl; simp at h, fun c hc => (isDigit_iff c).1 (h.2 c hc)⟩
      · rintro (⟨ds', h, h1, h2⟩ | ⟨ds', h, h1, h2⟩ | ⟨h1, h2⟩)
        · exact absurd (startsWith_iff.2 ⟨ds', h⟩) hn
        · simp at h
          subst h
          simp
          exact ⟨List.length_pos_iff.2 h1, fun c hc => (isDigit_iff c).2 (h2 c hc)⟩
        · have := h2 c!"#" (by simp)
          simp [DecDigit, Letter] at this
    · rename_i hn'
      constructor
      · intro h
        right; right
        simp at h
        exact ⟨h.1, fun c hc => (ha c).1 (h.2 c hc)⟩
      · rintro (⟨ds', h, h1, h2⟩ | ⟨ds', h, h1, h2⟩ | ⟨h1, h2⟩)
        · exact absurd (startsWith_iff.2 ⟨ds', h⟩) hn
        · exact absurd (startsWith_iff.2 ⟨ds', h⟩) hn'
        · simp
          exact ⟨h1, fun c hc => (ha c).2 (h2 c hc)⟩

theorem refContent_no_semicolon {w : Bytes} (h : RefContent w) : c!";" ∉ w := by
  rw [← refContent_iff] at h
  intro hm
  unfold isReferenceContent at h
  split at h
  · rename_i h'
    obtain ⟨ds, rfl⟩ := startsWith_iff.1 h'
    simp at h hm
    have := h.2 _ hm
    simp [isHexDigit, isDigit] at this
  · split at h
    · rename_i h'
      obtain ⟨ds, rfl⟩ := startsWith_iff.1 h'
      simp at h hm
      have := h.2 _ hm
      simp [isDigit] at this
    · simp at h
      have := h.2 _ hm
      simp [isAlnum, isAlpha, isLower, isUpper, isDigit] at this

theorem findSub_one {a t : Bytes} {c : UInt8} (h : c ∉ a) : findSub [c] (a ++ c :: t) = some a.length := by
  induction a with
  | nil => simp [findSub]
  | cons b a ih =>
    simp at h
    rw [List.cons_append, findSub]
    simp [h.1, ih h.2]

theorem findSub_one_some {s : Bytes} {c : UInt8} {k : Nat} (h : findSub [c] s = some k) :
    ∃ a t, s = a ++ c :: t ∧ c ∉ a ∧ a.length = k := by
  induction s generalizing k with
  | nil => simp [findSub] at h
  | cons b s ih =>
    rw [findSub] at h
    split at h
    · rename_i hb
      simp at hb h
      exact ⟨[], s, by simp [hb], by simp, by simp [h]⟩
    · rename_i hb
      simp at hb
      cases hk : findSub [c] s with
      | none => simp [hk] at h
      | some j =>
        simp [hk] at h
        obtain ⟨a, t, rfl, h1, h2⟩ := ih hk
        exact ⟨b :: a, t, rfl, by simp [h1, hb], by simp [h2, h]⟩

theorem findSub_one_none {s : Bytes} {c : UInt8} (h : findSub [c] s = none) : c ∉ s := by
  intro hc
  obtain ⟨a, t, rfl⟩ := List.append_of_mem hc
  induction a with
  | nil => simp [findSub] at h
  | cons b a ih =>
    rw [List.cons_append, findSub] at h
    split at h
    · simp at h
    · simp at h
      exact ih h (by simp)

theorem ref_iff (s : Bytes) (n : Nat) : Ref s n ↔ matchReference s = n ∧ n ≠ 0 := by
  unfold matchReference
  constructor
  · rintro ⟨w, t, hw, rfl, rfl⟩
    have hf : findSub b!";" (w ++ b!";" ++ t) = some w.length := by
      rw [List.append_assoc]
      exact findSub_one (refContent_no_semicolon hw)
    have hs : startsWith (b!"&" ++ w ++ b!";" ++ t) b!"&" = true := startsWith_iff.2 ⟨w ++ b!";" ++ t, by simp⟩
    rw [hs]
    have hd : (b!"&" ++ w ++ b!";" ++ t).drop 1 = w ++ b!";" ++ t := by simp
    rw [hd, hf]
    have htk : (w ++ b!";" ++ t).take w.length = w := by simp
    simp only [htk, (refContent_iff w).2 hw]
    simp
  · rintro ⟨h, h0⟩
    split at h
    · exact absurd h.symm h0
    · rename_i hs
      simp at hs
      obtain ⟨u, rfl⟩ := startsWith_iff.1 hs
      simp only [List.cons_append, List.nil_append, List.drop_succ_cons, List.drop_zero] at h
      split at h
      · rename_i k hk
        obtain ⟨a, t, rfl, h1, rfl⟩ := findSub_one_some hk
        split at h
        · rename_i hc
          simp at hc
          exact ⟨a, t, (refContent_iff a).1 hc, by simp, h.symm⟩
        · exact absurd h.symm h0
      · exact absurd h.symm h0

theorem noRef_iff (s : Bytes) (k : Nat) : NoRef s k ↔ matchReference (s.drop k) = 0 := by
  simp only [NoRef, ref_iff]
  constructor
  · intro h
    have := h (matchReference (s.drop k))
    simpa using this
  · rintro h n ⟨h1, h2⟩
    exact h2 (h1.symm.trans h)

theorem ref_le {s : Bytes} {n : Nat} (h : Ref s n) : n ≤ s.length ∧ 3 ≤ n ∧ s[n - 1]? = some c!";" ∧ s[0]? = some c!"&" := by
  obtain ⟨w, t, hw, rfl, rfl⟩ := h
  have : w ≠ [] := by
    rintro rfl
    simp [RefContent] at hw
  have := List.length_pos_iff.2 this
  refine ⟨by simp, by omega, ?_, by simp⟩
  rw [show w.length + 2 - 1 = (b!"&" ++ w).length by simp, List.append_assoc, List.getElem?_append_right (Nat.le_refl _)]
  simp

theorem matchReference_spec (s : Bytes) : (matchReference s = 0 ∧ NoRef s 0) ∨
    (matchReference s ≠ 0 ∧ Ref s (matchReference s)) := by
  by_cases h : matchReference s = 0
  · exact Or.inl ⟨h, (noRef_iff s 0).2 (by simpa using h)⟩
  · exact Or.inr ⟨h, (ref_iff s _).2 ⟨rfl, h⟩⟩

/-! ### Names -/

theorem tagChar_iff (c : Nat) : isTagNameChar c = true ↔ TagChar c := by
  have hb : (c < 0x80 ∧ isAlnum (UInt8.ofNat c) = true) ↔ ∃ b : UInt8, b.toNat = c ∧ (Letter b ∨ DecDigit b) := by
    constructor
    · rintro ⟨h1, h2⟩
      exact ⟨UInt8.ofNat c, by simp; omega, (isAlnum_iff _).1 h2⟩
    · rintro ⟨b, rfl, h⟩
      refine ⟨?_, by simpa using (isAlnum_iff _).2 h⟩
      simp [Letter, DecDigit] at h
      omega
  unfold isTagNameChar TagChar
  rw [← hb]
  simp only [Bool.or_eq_true, Bool.and_eq_true, decide_eq_true_eq, List.mem_cons, List.not_mem_nil, or_false,
    exists_eq_or_imp, exists_eq_left]
  grind

theorem attrChar_iff (c : Nat) : isAttrNameChar c = true ↔ AttrChar c := by
  unfold isAttrNameChar AttrChar
  split
  · rename_i h
    have : ∀ c : Fin 0x80, (!(decide (c.val ≤ 0x1F) || decide (c.val = 0x7F)) && !(b!" \"'>/=").contains (UInt8.ofNat c.val)) = true ↔
        (0x1F < c.val ∧ c.val ≠ 0x7F ∧ ∀ b ∈ b!" \"'>/=", b.toNat ≠ c.val) := by decide +kernel
    rw [this ⟨c, h⟩]
    simp only
    grind
  · rename_i h
    simp only [isNoncharacter]
    simp
    grind

theorem matchTagName_spec (s : Bytes) : ∃ n, matchTagName s = .ok n ∧ n ≤ s.length ∧ LongestChars TagChar s n := by
  obtain ⟨n, h1, h2, h3⟩ := length_if_chars isTagNameChar TagChar tagChar_iff s
  refine ⟨n, ?_, h2, h3⟩
  obtain ⟨cs, h, _⟩ := C14_chars_exist_unique s
  rw [(C15_find_if s cs h _).2.2.1] at h1
  rw [matchTagName, (C15_find_if s cs h _).2.1]
  exact h1

theorem matchAttrName_spec (s : Bytes) : ∃ n, matchAttrName s = .ok n ∧ n ≤ s.length ∧ LongestChars AttrChar s n := by
  obtain ⟨n, h1, h2, h3⟩ := length_if_chars isAttrNameChar AttrChar attrChar_iff s
  refine ⟨n, ?_, h2, h3⟩
  obtain ⟨cs, h, _⟩ := C14_chars_exist_unique s
  rw [(C15_find_if s cs h _).2.2.1] at h1
  rw [matchAttrName, (C15_find_if s cs h _).2.1]
  exact h1

/-! ### Raw text -/

theorem isRawEnd_iff (c : UInt8) : isRawEnd c = true ↔ Space c ∨ c = c!">" ∨ c = c!"/" := by
  simp [isRawEnd, isSpace_iff, or_assoc]

theorem nameAt_drop {name s : Bytes} {j k : Nat} (hj : j ≤ s.length) :
    NameAt name (s.drop j) k ↔ NameAt name s (j + k) := by
  simp only [NameAt, occursAt_drop hj, List.drop_drop, Nat.add_assoc]

theorem closes_drop {name s : Bytes} {j k : Nat} (hj : j ≤ s.length) :
    Closes name (s.drop j) k ↔ Closes name s (j + k) := by
  simp only [Closes, nameAt_drop hj, List.getElem?_drop, Nat.add_assoc]

/-- Where the name occurs, it ends. -/
def NamesEnd (name s : Bytes) : Prop :=
  ∀ k, NameAt name s k → Closes name s k ∨ k + 2 + name.length = s.length

theorem NamesEnd.drop {name s : Bytes} (h : NamesEnd name s) {j : Nat} (hj : j ≤ s.length) : NamesEnd name (s.drop j) := by
  intro k hk
  rw [nameAt_drop hj] at hk
  rw [closes_drop hj]
  rcases h _ hk with h | h
  · exact Or.inl h
  · right
    simp
    omega

/-- Nothing closes before the first `</`. -/
theorem not_closes {name s : Bytes} {k : Nat} (h : ¬ OccursAt b!"</" s k) : ¬ Closes name s k := fun hc => h hc.1.1

theorem rawTextLoop_spec (name lo : Bytes) (hlo : name.map lower = lo) (fuel : Nat) (length : Nat) (s : Bytes)
    (hn : NamesEnd lo s) (hf : s.length < fuel) :
    ∃ n, rawTextLoop name fuel length s = .ok (length + n) ∧ n ≤ s.length ∧ RawText lo s n := by
  have hlen : lo.length = name.length := by rw [← hlo]; simp
  induction fuel generalizing length s with
  | zero => omega
  | succ fuel ih =>
    unfold rawTextLoop
    split
    · rename_i he
      simp at he
      subst he
      exact ⟨0, by simp, by simp, by simp, by simp⟩
    have hs := findSub_spec b!"</" s
    cases hk : findSub b!"</" s with
    | none =>
      rw [hk] at hs
      exact ⟨s.length, rfl, Nat.le_refl _, fun k _ => not_closes (hs k), Or.inl rfl⟩
    | some k =>
      rw [hk] at hs
      simp only at hs ⊢
      obtain ⟨hs1, hs2⟩ := hs
      have hs3 := hs1
      obtain ⟨a, b, he, rfl⟩ := hs1
      have hl := congrArg List.length he
      simp at hl
      have hd : s.drop (a.length + 2) = b := by rw [he]; simp
      have hb : ∀ j, j < a.length → ¬ Closes lo s j := fun j hj => not_closes (hs2 j hj)
      have hb1 : ¬ Closes lo s (a.length + 1) := by
        refine not_closes ?_
        rw [occursAt_iff, he]
        simp
      rw [hd]
      have hrec : ¬ Closes lo s a.length → ∃ n, rawTextLoop name fuel (length + a.length + 2) b = .ok (length + n) ∧
          n ≤ s.length ∧ RawText lo s n := by
        intro hc
        obtain ⟨n, h1, h2, h3, h4⟩ := ih (length + a.length + 2) b (by rw [← hd]; exact hn.drop (by omega)) (by omega)
        refine ⟨a.length + 2 + n, by rw [h1, show length + a.length + 2 + n = length + (a.length + 2 + n) by omega],
          by omega, ?_, ?_⟩
        · intro j hj
          by_cases h : j < a.length
          · exact hb j h
          by_cases h : j = a.length
          · exact h ▸ hc
          by_cases h : j = a.length + 1
          · exact h ▸ hb1
          · rw [show j = (a.length + 2) + (j - (a.length + 2)) by omega, ← closes_drop (by omega), hd]
            exact h3 _ (by omega)
        · rcases h4 with h4 | h4
          · exact Or.inl (by omega)
          · right
            rw [← closes_drop (by omega), hd]
            exact h4
      split
      · rename_i hb
        simp at hb
        refine hrec fun hc => ?_
        have := hc.1.2
        rw [hd, ← hlo, ← beginsLower_iff] at this
        simp [this] at hb
      · rename_i hb'
        simp at hb'
        rw [beginsLower_iff, hlo] at hb'
        have hle := beginsLower_le hb'
        have hna : NameAt lo s a.length := ⟨hs3, by rw [hd]; exact hb'⟩
        have hget : ∀ i, s[a.length + 2 + i]? = b[i]? := by
          intro i; rw [← hd, List.getElem?_drop]
        have hc : ∀ c t, b.drop name.length = c :: t → isRawEnd c = true ∧ Closes lo s a.length := by
          intro c t hc
          have hbc : b[name.length]? = some c := by rw [← List.head?_drop, hc]; rfl
          have hcl : Closes lo s a.length := by
            rcases hn _ hna with h | h
            · exact h
            · have := congrArg List.length hc
              simp at this
              omega
          have h1 := hcl
          obtain ⟨_, c', h1, h2⟩ := h1
          rw [hget, hlen, hbc] at h1
          cases h1
          exact ⟨(isRawEnd_iff c).2 h2, hcl⟩
        match hx : b.drop name.length with
        | [] =>
          have := congrArg List.length hx
          simp at this
          refine ⟨a.length + 2 + name.length, by simp [Nat.add_assoc], by omega, ?_, Or.inl (by omega)⟩
          intro j hj hcl
          have h1 := hcl
          obtain ⟨_, c, h1, _⟩ := h1
          have h2 := (List.getElem?_eq_some_iff.1 h1).1
          have hj : j < a.length := by omega
          exact hb j hj hcl
        | [c] =>
          obtain ⟨h1, h2⟩ := hc c [] hx
          exact ⟨a.length, by simp [h1], by omega, hb, Or.inr h2⟩
        | c :: d :: t =>
          obtain ⟨h1, h2⟩ := hc c _ hx
          exact ⟨a.length, by simp [h1], by omega, hb, Or.inr h2⟩

theorem matchRawText_spec (name s : Bytes) (hlo : name.map lower = name) (hn : NamesEnd name s) :
    ∃ n, matchRawText s name = .ok n ∧ n ≤ s.length ∧ RawText name s n := by
  obtain ⟨n, h1, h2⟩ := rawTextLoop_spec name name hlo (s.length + 1) 0 s hn (by omega)
  exact ⟨n, by rw [matchRawText, h1]; simp, h2⟩

theorem noRef_of_ne {s : Bytes} {k : Nat} (h : s[k]? ≠ some c!"&") : NoRef s k := by
  intro n hr
  have := (ref_le hr).2.2.2
  rw [List.getElem?_drop] at this
  exact h this

theorem noRef_drop {s : Bytes} {j k : Nat} : NoRef (s.drop j) k ↔ NoRef s (j + k) := by
  simp only [NoRef, List.drop_drop]

/-- Part of raw text, and the reference after it if `r` is not zero. -/
def Escapable (name s : Bytes) (n r : Nat) : Prop :=
  n + r ≤ s.length ∧ RawPiece name s n ∧ (r ≠ 0 → Ref (s.drop n) r) ∧
    (n = 0 → r = 0 → s = [] ∨ Closes name s 0)

theorem Escapable.skip {name s : Bytes} {n r : Nat} (m : Nat) (hm : m ≤ s.length) (hm0 : 0 < m)
    (h : ∀ k, k < m → ¬ Closes name s k ∧ NoRef s k) (h' : Escapable name (s.drop m) n r) :
    Escapable name s (m + n) r := by
  obtain ⟨h1, ⟨h2, h3⟩, h4, h5⟩ := h'
  rw [List.length_drop] at h1
  refine ⟨by omega, ⟨?_, ?_⟩, ?_, by omega⟩
  · intro k hk
    by_cases hkm : k < m
    · exact h k hkm
    · obtain ⟨h6, h7⟩ := h2 (k - m) (by omega)
      rw [closes_drop hm] at h6
      rw [noRef_drop] at h7
      rw [show k = m + (k - m) by omega]
      exact ⟨h6, h7⟩
  · rcases h3 with h3 | h3 | ⟨j, h3⟩
    · rw [List.length_drop] at h3
      exact Or.inl (by omega)
    · exact Or.inr (Or.inl ((closes_drop hm).1 h3))
    · rw [List.drop_drop] at h3
      exact Or.inr (Or.inr ⟨j, h3⟩)
  · intro hr
    have := h4 hr
    rwa [List.drop_drop] at this

theorem escapableLoop_spec (name lo : Bytes) (hlo : name.map lower = lo) (hamp : c!"&" ∉ lo) (fuel length : Nat) (s : Bytes)
    (hn : NamesEnd lo s) (hf : s.length ≤ fuel) :
    ∃ n r, escapableLoop name fuel length s = (length + n, r) ∧ Escapable lo s n r := by
  have hlen : lo.length = name.length := by rw [← hlo]; simp
  have nil : Escapable lo [] 0 0 := ⟨by simp, ⟨by simp, by simp⟩, by simp, by simp⟩
  induction fuel generalizing length s with
  | zero =>
    obtain rfl := List.length_eq_zero_iff.1 (Nat.le_zero.1 hf)
    exact ⟨0, 0, rfl, nil⟩
  | succ fuel ih =>
    match s with
    | [] => exact ⟨0, 0, rfl, nil⟩
    | c :: t =>
      have again : ∀ m l, 0 < m → m ≤ (c :: t).length → (∀ k, k < m → ¬ Closes lo (c :: t) k ∧ NoRef (c :: t) k) →
          l = length + m →
          ∃ n r, escapableLoop name fuel l ((c :: t).drop m) = (length + n, r) ∧ Escapable lo (c :: t) n r := by
        rintro m l hm hml h rfl
        obtain ⟨n, r, h1, h2⟩ := ih (length + m) ((c :: t).drop m) (hn.drop hml) (by simp at hf ⊢; omega)
        exact ⟨m + n, r, by rw [h1, Nat.add_assoc], h2.skip m hml hm h⟩
      have noC : c ≠ c!"<" → ¬ Closes lo (c :: t) 0 := by
        intro h
        refine not_closes ?_
        rw [occursAt_zero]
        simp [startsWith_cons_cons, Ne.symm h]
      rw [escapableLoop]
      split
      · rename_i hc
        refine again 1 _ (by omega) (by simp) ?_ rfl
        intro k hk
        obtain rfl : k = 0 := by omega
        exact ⟨noC hc.1, noRef_of_ne (by simpa using hc.2)⟩
      rcases matchReference_spec (c :: t) with ⟨h1, h2⟩ | ⟨h1, h2⟩
      case inr =>
        have := ref_le h2
        have hcl : c = c!"&" := by simpa using this.2.2.2
        simp only [h1, ne_eq, not_false_eq_true, if_true]
        refine ⟨0, matchReference (c :: t), rfl, by omega, ⟨by simp, Or.inr (Or.inr ⟨_, by simpa using h2⟩)⟩,
          fun _ => by simpa using h2, fun _ h => absurd h h1⟩
      simp only [h1, ne_eq, not_true_eq_false, if_false]
      split
      · rename_i hs
        simp only [Bool.not_eq_true'] at hs
        refine again 1 _ (by omega) (by simp) ?_ rfl
        intro k hk
        obtain rfl : k = 0 := by omega
        refine ⟨not_closes ?_, h2⟩
        rw [occursAt_zero, hs]
        simp
      · rename_i hs
        simp only [Bool.not_eq_true', Bool.not_eq_false] at hs
        have hs0 := occursAt_zero.2 hs
        obtain ⟨b, hb⟩ := startsWith_iff.1 hs
        simp at hb
        obtain ⟨rfl, rfl⟩ := hb
        simp only [List.drop_succ_cons, List.drop_zero]
        have two : ¬ Closes lo (c!"<" :: c!"/" :: b) 0 → ∀ k, k < 2 → ¬ Closes lo (c!"<" :: c!"/" :: b) k ∧
            NoRef (c!"<" :: c!"/" :: b) k := by
          intro h k hk
          obtain rfl | rfl : k = 0 ∨ k = 1 := by omega
          · exact ⟨h, h2⟩
          · refine ⟨not_closes ?_, noRef_of_ne (by simp)⟩
            rw [occursAt_iff]
            simp
        split
        · rename_i hb
          refine again 2 _ (by omega) (by simp) (two ?_) rfl
          intro hc
          have := hc.1.2
          simp only [Nat.zero_add, List.drop_succ_cons, List.drop_zero] at this
          rw [← hlo, ← beginsLower_iff] at this
          simp [this] at hb
        · rename_i hb
          simp at hb
          rw [beginsLower_iff, hlo] at hb
          have hle := beginsLower_le hb
          have hna : NameAt lo (c!"<" :: c!"/" :: b) 0 := ⟨hs0, by simpa using hb⟩
          match hx : b.drop name.length with
          | [] =>
            have := congrArg List.length hx
            simp at this
            refine ⟨2 + name.length, 0, by simp [Nat.add_assoc], by simp; omega, ⟨?_, Or.inl (by simp; omega)⟩, by simp, by omega⟩
            intro k hk
            constructor
            · intro hcl
              obtain ⟨h6, d, h3, _⟩ := hcl
              have h4 := (List.getElem?_eq_some_iff.1 h3).1
              simp at h4
              have : k = 0 := by omega
              subst this
              omega
            · intro m hr
              have h5 := ref_le hr
              have h6 := h5.2.2.2
              rw [List.getElem?_drop] at h6
              obtain _ | _ | k := k
              · simp at h6
              · simp at h6
              · simp at h6
                have hm : c!"&" ∈ (b.take lo.length) := by
                  rw [List.mem_take_iff_getElem]
                  have := List.getElem?_eq_some_iff.1 h6
                  exact ⟨k, by have := this.1; omega, this.2⟩
                have := List.mem_map_of_mem (f := lower) hm
                rw [hb] at this
                exact hamp this
          | c :: u =>
            have hbc : b[name.length]? = some c := by rw [← List.head?_drop, hx]; rfl
            have hcl : Closes lo (c!"<" :: c!"/" :: b) 0 := by
              rcases hn _ hna with h | h
              · exact h
              · have := congrArg List.length hx
                simp at this h
                omega
            have hr : isRawEnd c = true := by
              have h1 := hcl
              obtain ⟨_, c', h1, h2⟩ := h1
              rw [show 0 + 2 + lo.length = lo.length + 2 by omega, List.getElem?_cons_succ, List.getElem?_cons_succ,
                hlen, hbc] at h1
              cases h1
              exact (isRawEnd_iff c).2 h2
            simp only [hr, if_true]
            exact ⟨0, 0, rfl, by simp, ⟨by simp, Or.inr (Or.inl hcl)⟩, by simp, fun _ _ => Or.inr hcl⟩

theorem matchEscapable_spec (name lo s : Bytes) (hlo : name.map lower = lo) (hamp : c!"&" ∉ lo) (hn : NamesEnd lo s) :
    Escapable lo s (matchEscapable s name).1 (matchEscapable s name).2 := by
  obtain ⟨n, r, h1, h2⟩ := escapableLoop_spec name lo hlo hamp s.length 0 s hn (Nat.le_refl _)
  rw [matchEscapable, h1]
  simpa using h2

/-! ### Comments -/

theorem commentText_cons {c : UInt8} {t : Bytes} {n : Nat} : CommentText (c :: t) (n + 1) ↔
    CommentText t n ∧ startsWith (c :: t) b!"-->" = false ∧ startsWith (c :: t) b!"--!>" = false ∧
      (startsWith (c :: t) b!"<!--" = true → startsWith (c :: t) b!"<!-->" = true) := by
  constructor
  · rintro ⟨⟨h1, h2⟩, h3, h4⟩
    refine ⟨⟨⟨?_, ?_⟩, ?_, ?_⟩, ?_, ?_, ?_⟩
    · intro k hk
      have := h1 (k + 1) (occursAt_cons.2 hk)
      omega
    · rcases h2 with h2 | h2
      · left; simpa using h2
      · exact Or.inr (occursAt_cons.1 h2)
    · intro k hk ho
      exact h3 (k + 1) (by omega) (occursAt_cons.2 ho)
    · intro k hk ho
      exact occursAt_cons.1 (h4 (k + 1) (by omega) (occursAt_cons.2 ho))
    · rw [Bool.eq_false_iff]
      intro h
      have := h1 0 (occursAt_zero.2 h)
      omega
    · rw [Bool.eq_false_iff]
      intro h
      exact h3 0 (by omega) (occursAt_zero.2 h)
    · intro h
      exact occursAt_zero.1 (h4 0 (by omega) (occursAt_zero.2 h))
  · rintro ⟨⟨⟨h1, h2⟩, h3, h4⟩, h5, h6, h7⟩
    refine ⟨⟨?_, ?_⟩, ?_, ?_⟩
    · rintro (_ | k) hk
      · rw [occursAt_zero, h5] at hk
        simp at hk
      · have := h1 k (occursAt_cons.1 hk)
        omega
    · rcases h2 with h2 | h2
      · left; simpa using h2
      · exact Or.inr (occursAt_cons.2 h2)
    · rintro (_ | k) hk ho
      · rw [occursAt_zero, h6] at ho
        simp at ho
      · exact h3 k (by omega) (occursAt_cons.1 ho)
    · rintro (_ | k) hk ho
      · exact occursAt_zero.2 (h7 (occursAt_zero.1 ho))
      · exact occursAt_cons.2 (h4 k (by omega) (occursAt_cons.1 ho))

theorem commentText_zero {s : Bytes} (h : s = [] ∨ startsWith s b!"-->" = true) : CommentText s 0 := by
  refine ⟨⟨by simp, ?_⟩, by simp, by simp⟩
  rcases h with rfl | h
  · simp
  · exact Or.inr (occursAt_zero.2 h)

theorem commentLoop_spec (s : Bytes) (length : Nat) (h0 : 0 < length) :
    (commentLoop length s = {} ∧ ∀ n, ¬ CommentText s n) ∨
    ∃ n, n ≤ s.length ∧ CommentText s n ∧ ((commentLoop length s = ⟨length + n + 3, true⟩ ∧ OccursAt b!"-->" s n) ∨
      (commentLoop length s = ⟨length + n, false⟩ ∧ n = s.length)) := by
  induction s generalizing length with
  | nil => exact Or.inr ⟨0, by simp, commentText_zero (Or.inl rfl), Or.inr ⟨rfl, rfl⟩⟩
  | cons c t ih =>
    have skip : startsWith (c :: t) b!"-->" = false → startsWith (c :: t) b!"--!>" = false →
        (startsWith (c :: t) b!"<!--" = true → startsWith (c :: t) b!"<!-->" = true) →
        (commentLoop (length + 1) t = {} ∧ ∀ n, ¬ CommentText (c :: t) n) ∨
        ∃ n, n ≤ (c :: t).length ∧ CommentText (c :: t) n ∧
          ((commentLoop (length + 1) t = ⟨length + n + 3, true⟩ ∧ OccursAt b!"-->" (c :: t) n) ∨
          (commentLoop (length + 1) t = ⟨length + n, false⟩ ∧ n = (c :: t).length)) := by
      intro h1 h2 h3
      rcases ih (length + 1) (by omega) with ⟨h, hn⟩ | ⟨n, hl, hn, h⟩
      · refine Or.inl ⟨h, ?_⟩
        rintro (_ | n) hc
        · rcases hc.upTo.2 with h | h
          · simp at h
          · rw [occursAt_zero, h1] at h
            simp at h
        · exact hn n (commentText_cons.1 hc).1
      · refine Or.inr ⟨n + 1, by simpa using hl, commentText_cons.2 ⟨hn, h1, h2, h3⟩, ?_⟩
        rcases h with ⟨h, h'⟩ | ⟨h, h'⟩
        · exact Or.inl ⟨by rw [h]; simp; omega, occursAt_cons.2 h'⟩
        · exact Or.inr ⟨by rw [h]; simp; omega, by simp [h']⟩
    have never : (∀ n, ¬ CommentText (c :: t) (n + 1)) → startsWith (c :: t) b!"-->" = false →
        ∀ n, ¬ CommentText (c :: t) n := by
      rintro h h1 (_ | n) hc
      · rcases hc.upTo.2 with h | h
        · simp at h
        · rw [occursAt_zero, h1] at h
          simp at h
      · exact h n hc
    rw [commentLoop]
    split
    · rename_i hc
      refine skip ?_ ?_ ?_ <;> simp [startsWith_cons_cons, Ne.symm hc.1, Ne.symm hc.2]
    split
    · rename_i h
      exact Or.inr ⟨0, by simp, commentText_zero (Or.inr h), Or.inl ⟨rfl, occursAt_zero.2 h⟩⟩
    rename_i h1
    simp only [Bool.not_eq_true] at h1
    split
    · rename_i h2
      split
      · rename_i h3
        obtain ⟨u, hu⟩ := startsWith_iff.1 h3
        simp at hu
        obtain ⟨rfl, rfl⟩ := hu
        refine Or.inr ⟨2, by simp, ?_, Or.inl ⟨rfl, ?_⟩⟩
        · rw [commentText_cons, commentText_cons]
          refine ⟨⟨commentText_zero (Or.inr (by simp [startsWith_cons_cons])), ?_⟩, ?_⟩ <;> simp [startsWith_cons_cons]
        · simp [occursAt_iff, startsWith_cons_cons]
      · rename_i h3
        refine Or.inl ⟨rfl, never (fun n hc => h3 ((commentText_cons.1 hc).2.2.2 h2)) h1⟩
    rename_i h2
    split
    · rename_i h3
      refine Or.inl ⟨rfl, never (fun n hc => ?_) h1⟩
      have := (commentText_cons.1 hc).2.2.1
      rw [h3] at this
      simp at this
    · rename_i h3
      exact skip h1 (by simpa using h3) (fun h => absurd h h2)

theorem matchComment_spec (s : Bytes) :
    (matchComment s = {} ∧ ¬ Comment s) ∨
    ∃ t n, s = b!"<!--" ++ t ∧ Comment s ∧ n ≤ t.length ∧ CommentText t n ∧
      ((matchComment s = ⟨4 + n + 3, true⟩ ∧ OccursAt b!"-->" t n) ∨ (matchComment s = ⟨4 + n, false⟩ ∧ n = t.length)) := by
  unfold matchComment
  split
  · rename_i h
    left
    simp at h
    refine ⟨rfl, ?_⟩
    rintro ⟨t, n, rfl, _⟩
    simp [startsWith_cons_cons] at h
  rename_i h
  simp at h
  obtain ⟨t, rfl⟩ := startsWith_iff.1 h
  have hd : (b!"<!--" ++ t).drop 4 = t := by simp
  rw [hd]
  have key : ∀ u p : Bytes, startsWith u p = true ↔ u.take p.length = p := by
    intro u p
    constructor
    · exact fun h => (startsWith_facts h _ rfl).2
    · intro h
      rw [startsWith_iff]
      exact ⟨u.drop p.length, by conv => rhs; lhs; rw [← h]
                                 rw [List.take_append_drop]⟩
  split
  · rename_i h
    left
    refine ⟨rfl, ?_⟩
    rintro ⟨t', n, h1, h2, h3, _⟩
    simp only [List.append_cancel_left_eq] at h1
    subst h1
    simp only [Bool.or_eq_true, key] at h
    rcases h with h | h
    · exact h2 h
    · exact h3 h
  rename_i h
  simp only [Bool.or_eq_true, key, not_or] at h
  rcases commentLoop_spec t 4 (by omega) with ⟨h1, h2⟩ | ⟨n, h1, h2, h3⟩
  · left
    refine ⟨h1, ?_⟩
    rintro ⟨t', n, h1, _, _, h3⟩
    simp only [List.append_cancel_left_eq] at h1
    subst h1
    exact h2 n h3
  · exact Or.inr ⟨t, n, rfl, ⟨t, n, rfl, h.1, h.2, h2⟩, h1, h2, h3⟩

/-! ### Other markup -/

theorem upTo_of_findSub (p s : Bytes) : UpTo p s ((findSub p s).getD s.length) := by
  have := findSub_spec p s
  cases h : findSub p s with
  | none =>
    rw [h] at this
    exact ⟨fun k hk => absurd hk (this k), Or.inl rfl⟩
  | some k =>
    rw [h] at this
    refine ⟨fun j hj => ?_, Or.inr this.1⟩
    rcases Nat.lt_or_ge j k with h | h
    · exact absurd hj (this.2 j h)
    · exact h

theorem matchDoctype_spec (s : Bytes) :
    (matchDoctype s = {} ∧ ¬ BeginsLower b!"<!doctype" s) ∨
    ((matchDoctype s).length ≤ s.length ∧ 0 < (matchDoctype s).length ∧ BeginsLower b!"<!doctype" s ∧
      ∃ k, UpTo b!">" (s.drop 9) k ∧ (matchDoctype s).length = 9 + k + (if 9 + k = s.length then 0 else 1)) := by
  have hb := beginsLower_iff s b!"<!DOCTYPE"
  rw [show (b!"<!DOCTYPE").map lower = b!"<!doctype" by decide +kernel] at hb
  unfold matchDoctype
  split
  · rename_i h
    left
    refine ⟨rfl, fun h' => ?_⟩
    simp [hb.2 h'] at h
  rename_i h
  simp at h
  have h := hb.1 h
  have hle : 9 ≤ s.length := beginsLower_le h
  right
  have hu := upTo_of_findSub b!">" (s.drop 9)
  cases hk : findSub b!">" (s.drop 9) with
  | none =>
    rw [hk] at hu
    simp only at hu ⊢
    refine ⟨by omega, by omega, h, _, hu, ?_⟩
    simp only [Option.getD_none, List.length_drop]
    rw [if_pos] <;> omega
  | some k =>
    rw [hk] at hu
    have := findSub_spec b!">" (s.drop 9)
    rw [hk] at this
    obtain ⟨⟨a, b, e, rfl⟩, _⟩ := this
    have := congrArg List.length e
    simp at this
    simp only at hu ⊢
    refine ⟨by omega, by omega, h, _, hu, ?_⟩
    simp only [Option.getD_some]
    rw [if_neg]
    omega

theorem matchCData_spec (s : Bytes) :
    (matchCData s = {} ∧ s.take 9 ≠ b!"<![CDATA[") ∨
    (s.take 9 = b!"<![CDATA[" ∧ ∃ k, 9 + k ≤ s.length ∧ UpTo b!"]]>" (s.drop 9) k ∧
      ((matchCData s = ⟨9 + k + 3, true⟩ ∧ 9 + k + 3 ≤ s.length ∧ (s.drop (9 + k)).take 3 = b!"]]>") ∨
      (matchCData s = ⟨9 + k, false⟩ ∧ 9 + k = s.length))) := by
  unfold matchCData
  split
  · rename_i h
    left
    refine ⟨rfl, fun h' => ?_⟩
    simp at h
    have : startsWith s b!"<![CDATA[" = true := startsWith_iff.2 ⟨s.drop 9, by rw [← h', List.take_append_drop]⟩
    rw [h] at this
    simp at this
  rename_i h
  simp at h
  obtain ⟨t, rfl⟩ := startsWith_iff.1 h
  right
  have hd : (b!"<![CDATA[" ++ t).drop 9 = t := by simp
  refine ⟨by simp, ?_⟩
  rw [hd]
  have hu := upTo_of_findSub b!"]]>" t
  cases hk : findSub b!"]]>" t with
  | none =>
    rw [hk] at hu
    refine ⟨_, ?_, hu, Or.inr ⟨?_, ?_⟩⟩
    · simp; omega
    · simp; omega
    · simp; omega
  | some k =>
    rw [hk] at hu
    have := findSub_spec b!"]]>" t
    rw [hk] at this
    obtain ⟨⟨a, b, e, rfl⟩, _⟩ := this
    refine ⟨_, ?_, hu, Or.inl ⟨rfl, ?_, ?_⟩⟩
    · rw [e]; simp; omega
    · rw [e]; simp; omega
    · simp only [Option.getD_some]
      rw [← List.drop_drop, hd, e]
      simp

theorem matchEndTag_spec (s : Bytes) :
    (matchEndTag s = (0, 0) ∧ ¬ EndTag s) ∨
    (EndTag s ∧ s.take 2 = b!"</" ∧ ∃ n, 0 < n ∧ Longest (fun c => ¬ Space c ∧ c ≠ c!">") (s.drop 2) n ∧
      ((matchEndTag s = (n + 3, n) ∧ n + 3 ≤ s.length ∧ (s.drop (n + 2)).take 1 = b!">") ∨
      ∃ k a t, matchEndTag s = (n + 2 + k + 1, n) ∧ s.drop (n + 2 + k) = a :: c!">" :: t ∧
        ∀ c ∈ (s.drop (n + 2)).take k, c ≠ c!">")) := by
  unfold matchEndTag
  split
  · rename_i h
    left
    simp at h
    refine ⟨rfl, ?_⟩
    rintro ⟨a, w, b, rfl, _⟩
    simp [startsWith_cons_cons] at h
  rename_i h
  simp at h
  obtain ⟨t, rfl⟩ := startsWith_iff.1 h
  have hP : ∀ c, (isHtmlWhitespace c || decide (c = c!">")) = false ↔ (¬ Space c ∧ c ≠ c!">") := by
    intro c
    rw [← isSpace_iff]
    simp
  have hd : (b!"</" ++ t).drop 2 = t := by simp
  rcases find_if_longest (b!"</" ++ t) _ _ hP 2 (by simp) with ⟨j, c, h1, h2, h3, h4, h5, h6⟩ | ⟨h1, h2⟩
  · rw [h1]
    rw [hd] at h6
    simp only
    obtain ⟨n, rfl⟩ : ∃ n, j = n + 2 := ⟨j - 2, by omega⟩
    have hget : t[n]? = some c := by
      rw [← hd, List.getElem?_drop, Nat.add_comm]
      exact h4
    obtain ⟨hnl, hnc⟩ := List.getElem?_eq_some_iff.1 hget
    rw [Nat.add_sub_cancel] at h6 ⊢
    split
    · rename_i hn
      subst hn
      left
      refine ⟨rfl, ?_⟩
      rintro ⟨a, w, b, e, ha, ha'⟩
      simp at e
      subst e
      simp at hget
      subst hget
      have := (hP a).2 ⟨ha, ha'⟩
      rw [this] at h5
      simp at h5
    · rename_i hn
      have hfirst : ∃ a w, t = a :: w ∧ ¬ Space a ∧ a ≠ c!">" := by
        obtain _ | ⟨a, w⟩ := t
        · simp at hget
        · exact ⟨a, w, rfl, h6.1 a (by obtain ⟨m, rfl⟩ : ∃ m, n = m + 1 := ⟨n - 1, by omega⟩; simp)⟩
      obtain ⟨a, w, rfl, ha, ha'⟩ := hfirst
      have hend : c!">" ∈ w → EndTag (b!"</" ++ a :: w) := by
        intro hm
        obtain ⟨x, y, rfl⟩ := List.append_of_mem hm
        exact ⟨a, x, y, by simp, ha, ha'⟩
      obtain ⟨m, rfl⟩ : ∃ m, n = m + 1 := ⟨n - 1, by omega⟩
      have hdrop : (b!"</" ++ a :: w).drop (m + 1 + 2) = w.drop m := by simp
      simp only [List.getElem?_cons_succ] at hget
      have hdw : w.drop m = c :: w.drop (m + 1) := by
        obtain ⟨hl, rfl⟩ := List.getElem?_eq_some_iff.1 hget
        exact List.drop_eq_getElem_cons hl
      split
      · rename_i hc
        right
        rw [h4] at hc
        simp at hc
        subst hc
        refine ⟨hend (List.mem_of_getElem? hget), by simp, m + 1, by omega, by rw [hd]; exact h6, Or.inl ⟨rfl, by omega, ?_⟩⟩
        rw [hdrop, hdw]
        simp
      · rename_i hc
        rw [h4] at hc
        simp at hc
        rw [hdrop, hdw]
        cases hk : findSub b!">" (c :: w.drop (m + 1)) with
        | none =>
          left
          refine ⟨rfl, ?_⟩
          have hno := findSub_one_none hk
          rintro ⟨a', w', b, e, _⟩
          simp at e
          obtain ⟨rfl, rfl⟩ := e
          rw [← hdw] at hno
          have hm : c!">" ∈ (w' ++ c!">" :: b).take m ++ (w' ++ c!">" :: b).drop m := by
            rw [List.take_append_drop]
            simp
          rcases List.mem_append.1 hm with hm | hm
          · exact (h6.1 c!">" (by rw [List.take_succ_cons]; exact List.mem_cons_of_mem _ hm)).2 rfl
          · exact hno hm
        | some k =>
          right
          obtain ⟨x, y, hx, h7, rfl⟩ := findSub_one_some hk
          have hx0 : x ≠ [] := by
            rintro rfl
            simp at hx
            exact hc hx.1
          have hlast := List.dropLast_concat_getLast hx0
          have hlen : x.dropLast.length = x.length - 1 := by simp
          have hpos := List.length_pos_iff.2 hx0
          refine ⟨hend (List.mem_of_mem_drop (i := m) (by rw [hdw, hx]; simp)), by simp, m + 1, by omega,
            by rw [hd]; exact h6, Or.inr ⟨x.dropLast.length, x.getLast hx0, y, ?_, ?_, ?_⟩⟩
          · rw [hlen]
            simp
            omega
          · rw [← List.drop_drop, hdrop, hdw, hx]
            conv => lhs; arg 2; rw [← hlast]
            simp
          · rw [hdrop, hdw, hx]
            intro d hd' e
            conv at hd' => arg 1; arg 2; rw [← hlast]
            subst e
            simp at hd'
            exact h7 ((List.dropLast_sublist x).subset hd')
  · rw [h1]
    left
    refine ⟨rfl, ?_⟩
    rintro ⟨a, w, b, e, ha, ha'⟩
    simp only [List.append_assoc, List.append_cancel_left_eq] at e
    subst e
    have := h2.1 c!">" (by rw [hd, List.take_of_length_le (by simp)]; simp)
    exact this.2 rfl

/-! ## The highlighter -/

theorem expectBom_spec : Expects (rules css js) expectBom := by
  intro env s g
  unfold expectBom
  rw [wp_bind, wp_rem]
  split
  · rename_i h
    have := startsWith_facts h _ rfl
    hm_bare
    exact Gap.bom this.2
  · hm

theorem expectDoctype_spec : ExpectsOr (rules css js) expectDoctype fun s => ¬ BeginsLower b!"<!doctype" s.rem := by
  intro env s g
  unfold expectDoctype
  rw [wp_bind, wp_rem]
  dsimp only
  rcases matchDoctype_spec s.rem with ⟨h1, h2⟩ | ⟨h1, h2, h3, k, h4, h5⟩
  · rw [h1]
    hm
  · rw [if_pos (by omega)]
    hm_bare
    exact Tok.doctype h3 k h4 h5

theorem expectWhitespace_spec : Expects (rules css js) expectWhitespace := by
  intro env s g
  unfold expectWhitespace
  rw [wp_bind, wp_rem]
  dsimp only
  split
  · rename_i h
    have h1 : ∀ c ∈ s.rem.take (matchWhitespace s.rem), Space c :=
      (length_if_zero_longest s.rem isHtmlWhitespace Space isSpace_iff).1
    have h2 : matchWhitespace s.rem ≤ s.rem.length :=
      (length_if_le s.rem isHtmlWhitespace 0 (by omega)).2
    hm_bare
    exact Gap.space h1
  · hm

theorem expectComment_spec : ExpectsOr (rules css js) expectComment fun s => ¬ Comment s.rem := by
  intro env s g
  unfold expectComment
  rw [wp_bind, wp_rem]
  dsimp only
  rcases matchComment_spec s.rem with ⟨h1, h2⟩ | ⟨t, n, ht, hc, hn, hx, h⟩
  · rw [h1]
    hm
  · have hl : s.rem.length = t.length + 4 := by rw [ht]; simp
    rcases h with ⟨h1, h2⟩ | ⟨h1, h2⟩
    · rw [h1, if_neg (by simp), wp_bind]
      obtain ⟨a, b, e, he⟩ := h2
      have hb : n + 3 ≤ t.length := by rw [e]; simp; omega
      refine wp_step_emitAdv g (by omega) (by omega) (by simp) (Tok.commentOpen (by rw [ht]; simp) hc) fun s1 g1 l1 e1 i1 x1 => ?_
      have e1 : s1.rem = t := by rw [e1, ht]; simp
      simp only [if_true, wp_bind]
      refine wp_step_emitAdvIf g1 (by rw [e1]; omega) (by simp) (fun _ => Tok.commentText ?_) fun s2 g2 l2 e2 i2 x2 => ?_
      · rw [e1, show 4 + n + 3 - 4 - 3 = n by omega]
        exact hx
      rw [show 4 + n + 3 - 4 - 3 = n by omega, e1] at e2
      refine wp_step_emitAdv g2 (by omega) ?_ (by simp) (Tok.commentClose ?_) fun s3 g3 l3 e3 i3 x3 => ?_
      · rw [e2]; simp; omega
      · rw [e2, e, ← he]; simp
      · hm
    · rw [h1, if_neg (by simp), wp_bind]
      refine wp_step_emitAdv g (by omega) (by omega) (by simp) (Tok.commentOpen (by rw [ht]; simp) hc) fun s1 g1 l1 e1 i1 x1 => ?_
      have e1 : s1.rem = t := by rw [e1, ht]; simp
      simp only [Bool.false_eq_true, if_false, wp_bind]
      refine wp_step_emitAdvIf g1 (by rw [e1]; omega) (by simp) (fun _ => Tok.commentText ?_) fun s2 g2 l2 e2 i2 x2 => ?_
      · rw [e1, show 4 + n - 4 = n by omega]
        exact hx
      · hm

theorem expectCData_spec : ExpectsOr (rules css js) expectCData fun s => s.rem.take 9 ≠ b!"<![CDATA[" := by
  intro env s g
  unfold expectCData
  rw [wp_bind, wp_rem]
  dsimp only
  have hl := g.len
  have hr : s.rem = env.src.drop s.idx := g.rem
  rcases matchCData_spec s.rem with ⟨h1, h2⟩ | ⟨h0, k, hk, hu, ⟨h1, h2, h3⟩ | ⟨h1, h2⟩⟩
  · rw [h1]
    hm
  all_goals
    rw [h1, if_pos (by simp), wp_bind, wp_index, wp_bind]
    refine wp_emitAt g (by omega) (by omega) (by simp) (Tok.cdataOpen (by rw [← hr]; exact h0)) fun s1 g1 e1 i1 x1 => ?_
    simp only [if_true, Bool.false_eq_true, if_false, wp_bind]
  · have g2 : GoodAt (rules css js) env (s.idx + 9 + k) s1 := ⟨g1.le, g1.rem, .gap k g1.tiles (by omega)
      (Gap.cdata (by rw [← List.drop_drop, ← hr]; exact hu))⟩
    rw [show s.idx + (9 + k + 3) - 3 = s.idx + 9 + k by omega]
    refine wp_emitAt g2 (by omega) (by omega) (by simp) (Tok.cdataClose ?_) fun s3 g3 e3 i3 x3 => ?_
    · rw [Nat.add_assoc, ← List.drop_drop, ← hr]
      exact h3
    refine wp_advanceAt g3 (by rw [e3, e1]; omega) fun s4 g4 e4 i4 x4 => ?_
    rw [wp_pure]
    exact Or.inl ⟨rfl, g4.good (by omega), by omega⟩
  · have g2 : GoodAt (rules css js) env (s.idx + 9 + k) s1 := ⟨g1.le, g1.rem, .gap k g1.tiles (by omega)
      (Gap.cdata (by rw [← List.drop_drop, ← hr]; exact hu))⟩
    refine wp_advanceAt g2 (by rw [e1]; omega) fun s4 g4 e4 i4 x4 => ?_
    rw [wp_pure]
    exact Or.inl ⟨rfl, g4.good (by omega), by omega⟩

theorem expectEndTag_spec : ExpectsOr (rules css js) expectEndTag fun s => ¬ EndTag s.rem := by
  intro env s g
  unfold expectEndTag
  rw [wp_bind, wp_rem]
  dsimp only
  have hl := g.len
  have hr : s.rem = env.src.drop s.idx := g.rem
  rcases matchEndTag_spec s.rem with ⟨h1, h2⟩ | ⟨h0, h2, n, hn, hx, ⟨h1, h3, h4⟩ | ⟨k, a, t, h1, h3, h4⟩⟩
  · rw [h1]
    hm
  · rw [h1, if_neg (by simp), wp_bind]
    refine wp_dassert (by simp; omega) ?_
    rw [wp_bind, wp_index, wp_bind]
    refine wp_emitAt g (by omega) (by omega) (by simp) (Tok.endOpen (by rw [← hr]; exact h2) (by rw [← hr]; exact h0)) fun s1 g1 e1 i1 x1 => ?_
    rw [wp_bind]
    refine wp_emitAt g1 (by omega) (by simp only; omega) (by simp) (Tok.endName (by rw [← List.drop_drop, ← hr]; exact hx)) fun s2 g2 e2 i2 x2 => ?_
    simp only at g2
    rw [wp_bind, show s.idx + (n + 3) - 1 = s.idx + 2 + n by omega]
    refine wp_emitAt g2 (by omega) (by omega) (by simp) (Tok.symbol ?_) fun s3 g3 e3 i3 x3 => ?_
    · rw [show s.idx + 2 + n = s.idx + (n + 2) by omega, ← List.drop_drop, ← hr, h4]
      simp
    rw [wp_bind]
    refine wp_advanceAt g3 (by rw [e3, e2, e1]; simp only; omega) fun s4 g4 e4 i4 x4 => ?_
    rw [wp_pure]
    simp only at i4
    exact Or.inl ⟨rfl, g4.good (by omega), by omega⟩
  · rw [h1, if_neg (by simp), wp_bind]
    have hlen : n + 2 + k + 2 ≤ s.rem.length := by
      have := congrArg List.length h3
      simp at this
      omega
    refine wp_dassert (by simp; omega) ?_
    rw [wp_bind, wp_index, wp_bind]
    refine wp_emitAt g (by omega) (by omega) (by simp) (Tok.endOpen (by rw [← hr]; exact h2) (by rw [← hr]; exact h0)) fun s1 g1 e1 i1 x1 => ?_
    rw [wp_bind]
    refine wp_emitAt g1 (by omega) (by simp only; omega) (by simp) (Tok.endName (by rw [← List.drop_drop, ← hr]; exact hx)) fun s2 g2 e2 i2 x2 => ?_
    simp only at g2
    have g3 : GoodAt (rules css js) env (s.idx + 2 + n + k) s2 := ⟨g2.le, g2.rem, .gap k g2.tiles (by omega)
      (Gap.endTag (by rw [show s.idx + 2 + n = s.idx + (n + 2) by omega, ← List.drop_drop, ← hr]; exact h4))⟩
    rw [wp_bind]
    simp only
    rw [show s.idx + (n + 2 + k + 1) - 1 = s.idx + 2 + n + k by omega]
    refine wp_emitAt g3 (by omega) (by omega) (by simp) (Tok.beforeEnd (c := a) (t := t) ?_ rfl) fun s4 g4 e4 i4 x4 => ?_
    · rw [show s.idx + 2 + n + k = s.idx + (n + 2 + k) by omega, ← List.drop_drop, ← hr, h3]
    rw [wp_bind]
    refine wp_advanceAt g4 (by rw [e4, e2, e1]; omega) fun s5 g5 e5 i5 x5 => ?_
    rw [wp_pure]
    exact Or.inl ⟨rfl, g5.good (by omega), by omega⟩

/-! ### Attributes -/

theorem ref_not_end (hs : Sane env.src) (g : Good R env s) {n m : Nat} (h : Ref (s.rem.drop n) m) :
    n + m < s.rem.length := by
  obtain ⟨h1, h2, h3, _⟩ := ref_le h
  simp only [List.length_drop] at h1
  rcases Nat.lt_or_ge (n + m) s.rem.length with h | h
  · exact h
  · exfalso
    have hl := g.len
    apply hs.ref
    rw [List.getElem?_drop, show s.rem = env.src.drop s.idx from g.rem, List.getElem?_drop] at h3
    rw [List.getLast?_eq_getElem?, ← h3]
    congr 1
    omega

theorem unquotedEnd_iff (c : UInt8) : isUnquotedEnd c = true ↔ UnquotedEnd c := by
  unfold UnquotedEnd Space
  revert c
  apply forall_byte
  decide +kernel

theorem unquotedStep_spec (hs : Sane env.src) {n : Nat} (g : Good (rules css js) env s) (hn : n ≤ s.rem.length)
    (hi : ∀ k, 0 < k → k < n → (∀ c, s.rem[k]? = some c → ¬ UnquotedEnd c) ∧ NoRef s.rem k) :
    wp (unquotedStep n) (fun r s' => match r with
      | .inl n' => Good (rules css js) env s' ∧ s.idx ≤ s'.idx ∧ n' ≤ s'.rem.length ∧ s.idx + n < s'.idx + n' ∧
          ∀ k, 0 < k → k < n' → (∀ c, s'.rem[k]? = some c → ¬ UnquotedEnd c) ∧ NoRef s'.rem k
      | .inr a => a = true ∧ Good (rules css js) env s' ∧ s.idx ≤ s'.idx) env s := by
  unfold unquotedStep
  rw [wp_bind, wp_rem]
  have hl := g.len
  cases hc : s.rem[n]? with
  | none =>
    have : n = s.rem.length := by
      have := List.getElem?_eq_none_iff.1 hc
      omega
    simp only
    rw [wp_bind]
    refine wp_step_emitAdvIf g hn (by simp) (fun _ => Tok.unquoted ⟨hi, Or.inl this⟩) fun s1 g1 l1 e1 i1 x1 => ?_
    rw [wp_pure]
    exact ⟨rfl, g1, by omega⟩
  | some c =>
    simp only
    split
    · rename_i h
      rw [wp_bind]
      refine wp_step_emitAdvIf g hn (by simp)
        (fun _ => Tok.unquoted ⟨hi, Or.inr (Or.inl ⟨c, hc, (unquotedEnd_iff c).1 h⟩)⟩) fun s1 g1 l1 e1 i1 x1 => ?_
      rw [wp_pure]
      exact ⟨rfl, g1, by omega⟩
    · rename_i h
      split
      · rename_i hr
        have hr := (ref_iff _ _).2 ⟨rfl, hr⟩
        have hne := ref_not_end hs g hr
        have hr3 := (ref_le hr).2.1
        rw [wp_bind]
        refine wp_step_emitAdvIf g hn (by simp)
          (fun _ => Tok.unquoted ⟨hi, Or.inr (Or.inr ⟨_, hr⟩)⟩) fun s1 g1 l1 e1 i1 x1 => ?_
        rw [wp_bind]
        refine wp_step_emitAdv g1 (by omega) (by rw [e1]; simp; omega) (by simp)
          (Tok.ref (by rw [e1]; exact hr)) fun s2 g2 l2 e2 i2 x2 => ?_
        rw [wp_pure]
        refine ⟨g2, by omega, by omega, by omega, fun k h1 h2 => by omega⟩
      · rename_i hr
        rw [wp_pure]
        refine ⟨g, by omega, (List.getElem?_eq_some_iff.1 hc).1, by omega, fun k h1 h2 => ?_⟩
        by_cases hk : k < n
        · exact hi k h1 hk
        · obtain rfl : k = n := by omega
          refine ⟨?_, (noRef_iff _ _).2 (by simpa using hr)⟩
          intro c' h' hu
          rw [hc] at h'
          cases h'
          exact h ((unquotedEnd_iff c).2 hu)

theorem expectUnquoted_spec (hs : Sane env.src) (g : Good (rules css js) env s) :
    wp expectUnquoted (fun b s' => b = true ∧ Good (rules css js) env s' ∧ s.idx ≤ s'.idx) env s := by
  unfold expectUnquoted
  rw [wp_bind, wp_rem]
  refine wp_scan (R := rules css js) (fun n s' => ∀ k, 0 < k → k < n →
    (∀ c, s'.rem[k]? = some c → ¬ UnquotedEnd c) ∧ NoRef s'.rem k) ?_ g (by omega) (by omega) (by omega)
  intro n s1 g1 l1 i1 n1 h1
  refine wp_mono (unquotedStep_spec hs g1 n1 h1) ?_
  intro r s' h
  cases r with
  | inl n' => exact h
  | inr a => exact ⟨h.1, h.2.1, by omega⟩

def QuotedInv (q : UInt8) (s : Bytes) (n : Nat) : Prop :=
  ∀ k, 0 < k → k < n → s[k]? ≠ some q ∧ NoRef s k

theorem quotedStep_spec {q : UInt8} (hq : q = c!"\"" ∨ q = c!"'") (hs : Sane env.src) {n : Nat} (g : Good (rules css js) env s)
    (h0 : 0 < n) (hn : n ≤ s.rem.length) (hi : QuotedInv q s.rem n) :
    wp (quotedStep q n) (fun r s' => match r with
      | .inl n' => Good (rules css js) env s' ∧ s.idx ≤ s'.idx ∧ n' ≤ s'.rem.length ∧ s.idx + n < s'.idx + n' ∧
          0 < n' ∧ QuotedInv q s'.rem n'
      | .inr a => a = true ∧ Good (rules css js) env s' ∧ s.idx < s'.idx) env s := by
  unfold quotedStep
  rw [wp_bind, wp_rem]
  have hl := g.len
  cases hc : s.rem[n]? with
  | none =>
    have : n = s.rem.length := by
      have := List.getElem?_eq_none_iff.1 hc
      omega
    simp only
    rw [wp_bind]
    refine wp_step_emitAdvIf g hn (by simp) (fun _ => Tok.quoted hq ⟨fun k h1 h2 => (hi k h1 (by omega)).1,
      fun k h1 h2 _ => (hi k h1 h2).2, Or.inl this⟩) fun s1 g1 l1 e1 i1 x1 => ?_
    rw [wp_pure]
    exact ⟨rfl, g1, by omega⟩
  | some c =>
    have hlt := (List.getElem?_eq_some_iff.1 hc).1
    simp only
    split
    · rename_i h
      subst h
      rw [wp_bind]
      refine wp_step_emitAdvIf g (by omega) (by simp)
        (fun _ => Tok.quoted hq ⟨fun k h1 h2 => (hi k h1 (by omega)).1, fun k h1 h2 h3 => ?_,
          Or.inr (Or.inl ⟨by omega, hc⟩)⟩) fun s1 g1 l1 e1 i1 x1 => ?_
      · by_cases hk : k < n
        · exact (hi k h1 hk).2
        · obtain rfl : k = n := by omega
          exact absurd hc h3
      rw [wp_pure]
      exact ⟨rfl, g1, by omega⟩
    · rename_i h
      split
      · rename_i hr
        have hr := (ref_iff _ _).2 ⟨rfl, hr⟩
        have hne := ref_not_end hs g hr
        have hr3 := (ref_le hr).2.1
        rw [wp_bind]
        refine wp_step_emitAdvIf g hn (by simp)
          (fun _ => Tok.quoted hq ⟨fun k h1 h2 => (hi k h1 (by omega)).1,
            fun k h1 h2 _ => (hi k h1 h2).2, Or.inr (Or.inr ⟨_, hr⟩)⟩) fun s1 g1 l1 e1 i1 x1 => ?_
        rw [wp_bind]
        refine wp_step_emitAdv g1 (by omega) (by rw [e1]; simp; omega) (by simp)
          (Tok.ref (by rw [e1]; exact hr)) fun s2 g2 l2 e2 i2 x2 => ?_
        rw [wp_pure]
        refine ⟨g2, by omega, by omega, by omega, by omega, fun k h1 h2 => by omega⟩
      · rename_i hr
        rw [wp_pure]
        refine ⟨g, by omega, hlt, by omega, by omega, fun k h1 h2 => ?_⟩
        by_cases hk : k < n
        · exact hi k h1 hk
        · obtain rfl : k = n := by omega
          refine ⟨?_, (noRef_iff _ _).2 (by simpa using hr)⟩
          rw [hc]
          simpa using h

theorem expectQuoted_spec {q : UInt8} (hq : q = c!"\"" ∨ q = c!"'") (hs : Sane env.src) (g : Good (rules css js) env s) :
    ExpectsAt (rules css js) env s (expectQuoted q) True := by
  unfold ExpectsAt expectQuoted
  rw [wp_bind, wp_rem]
  split
  · rename_i h
    have h := (startsWith_facts h _ rfl).1
    simp only [List.length_cons, List.length_nil] at h
    refine wp_scan (R := rules css js) (fun n s' => 0 < n ∧ QuotedInv q s'.rem n) ?_ g (by omega)
      ⟨by omega, fun k h1 h2 => by omega⟩ (by omega)
    intro n s1 g1 l1 i1 n1 h1
    refine wp_mono (quotedStep_spec hq hs g1 h1.1 n1 h1.2) ?_
    intro r s' h
    cases r with
    | inl n' => exact h
    | inr a => exact Or.inl ⟨h.1, h.2.1, by omega⟩
  · rw [wp_pure]
    exact Or.inr ⟨rfl, rfl, trivial⟩

theorem wp_skipSpace {Q : Bool → HS Unit → Prop} (g : Good (rules css js) env s)
    (k : ∀ b s', Good (rules css js) env s' → s.idx ≤ s'.idx → Q b s') : wp expectWhitespace Q env s := by
  refine wp_mono (expectWhitespace_spec env s g) ?_
  rintro b s' (⟨_, g', h⟩ | ⟨_, rfl⟩)
  · exact k _ _ g' (by omega)
  · exact k _ _ g (by omega)

theorem expectAttribute_spec (hs : Sane env.src) (g : Good (rules css js) env s) :
    ExpectsAt (rules css js) env s expectAttribute True := by
  unfold ExpectsAt expectAttribute
  rw [wp_bind, wp_rem, wp_bind, wp_lift]
  obtain ⟨n, h1, h2, h3⟩ := matchAttrName_spec s.rem
  refine ⟨n, h1, ?_⟩
  split
  · rw [wp_pure]
    exact Or.inr ⟨rfl, rfl, trivial⟩
  · rw [wp_bind]
    refine wp_step_emitAdv g (by omega) h2 (by simp) (Tok.attrName h3) fun s1 g1 l1 e1 i1 x1 => ?_
    rw [wp_bind]
    refine wp_skipSpace g1 fun b s2 g2 i2 => ?_
    rw [wp_bind, wp_rem]
    split
    · rename_i h
      have h := startsWith_facts h _ rfl
      rw [wp_bind]
      refine wp_step_emitAdv g2 (by omega) h.1 (by simp) (Tok.symbol (by rw [show s2.rem.take 1 = b!"=" from h.2]; simp)) fun s3 g3 l3 e3 i3 x3 => ?_
      rw [wp_bind]
      refine wp_skipSpace g3 fun b s4 g4 i4 => ?_
      refine wp_step_or (wp_step_or ?_)
      refine wp_mono (expectQuoted_spec (Or.inl rfl) hs g4) ?_
      rintro _ s5 (⟨rfl, g5, h5⟩ | ⟨rfl, rfl, _⟩)
      · exact Or.inl ⟨rfl, g5, by omega⟩
      simp only [Bool.false_eq_true, if_false]
      refine wp_mono (expectQuoted_spec (Or.inr rfl) hs g4) ?_
      rintro _ s5 (⟨rfl, g5, h5⟩ | ⟨rfl, rfl, _⟩)
      · exact Or.inl ⟨by simp, g5, by omega⟩
      simp only [Bool.false_eq_true, if_false]
      refine wp_mono (expectUnquoted_spec hs g4) ?_
      rintro _ s5 ⟨rfl, g5, h5⟩
      exact Or.inl ⟨rfl, g5, by omega⟩
    · rw [wp_pure]
      exact Or.inl ⟨rfl, g2, by omega⟩

/-- A tag, with a name before position `i`, ends right before the rest of the source. -/
def AfterTag (env : HEnv) (i : Nat) (s : HS Unit) : Prop :=
  s.rem = [] ∨ ∃ a, env.src = a ++ b!">" ++ s.rem ∧ i ≤ a.length

theorem afterTag {w : Bytes} {i : Nat} {s0 : HS Unit} (g0 : Good R env s0) (hi : i ≤ s0.idx)
    (h : s0.rem = w ++ b!">" ++ s.rem) : AfterTag env i s := by
  right
  have hl := g0.len
  refine ⟨env.src.take s0.idx ++ w, ?_, by simp; omega⟩
  have : env.src = env.src.take s0.idx ++ s0.rem := by
    rw [show s0.rem = env.src.drop s0.idx from g0.rem, List.take_append_drop]
  conv => lhs; rw [this, h]
  simp

theorem attributesStep_spec (hs : Sane env.src) (g : Good (rules css js) env s) :
    wp attributesStep (fun r s' => match r with
      | .inl _ => Good (rules css js) env s' ∧ s.idx < s'.idx ∧ True
      | .inr complete => Good (rules css js) env s' ∧ s.idx ≤ s'.idx ∧ (complete = true → AfterTag env s.idx s')) env s := by
  unfold attributesStep
  rw [wp_bind, wp_rem]
  split
  · rename_i h
    rw [wp_pure]
    exact ⟨g, by omega, fun _ => Or.inl (by simpa using h)⟩
  · rw [wp_bind]
    refine wp_skipSpace g fun b s2 g2 i2 => ?_
    rw [wp_bind, wp_rem]
    split
    · rename_i h
      have h1 := startsWith_facts h _ rfl
      obtain ⟨t, ht⟩ := startsWith_iff.1 h
      rw [wp_bind]
      refine wp_step_emitAdv g2 (by omega) h1.1 (by simp) (Tok.symbol (by rw [show s2.rem.take 2 = b!"/>" from h1.2]; simp)) fun s3 g3 l3 e3 i3 x3 => ?_
      rw [wp_pure]
      refine ⟨g3, by omega, fun _ => afterTag (w := b!"/") g2 (by omega) ?_⟩
      rw [e3, ht]
      simp
    split
    · rename_i h
      have h1 := startsWith_facts h _ rfl
      obtain ⟨t, ht⟩ := startsWith_iff.1 h
      rw [wp_bind]
      refine wp_step_emitAdv g2 (by omega) h1.1 (by simp) (Tok.symbol (by rw [show s2.rem.take 1 = b!">" from h1.2]; simp)) fun s3 g3 l3 e3 i3 x3 => ?_
      rw [wp_pure]
      refine ⟨g3, by omega, fun _ => afterTag (w := []) g2 (by omega) ?_⟩
      rw [e3, ht]
      simp
    · rw [wp_bind]
      refine wp_mono (expectAttribute_spec hs g2) ?_
      rintro _ s5 (⟨rfl, g5, h5⟩ | ⟨rfl, rfl, _⟩)
      · simp only [if_true]
        rw [wp_pure]
        exact ⟨g5, by omega, trivial⟩
      · simp only [Bool.false_eq_true, if_false]
        rw [wp_pure]
        exact ⟨g2, by omega, by simp⟩

/-! ### Elements -/

theorem namesEnd (hs : Sane env.src) (g : Good R env s) {name : Bytes} (hn : name ∈ rawNames) : NamesEnd name s.rem := by
  rw [show s.rem = env.src.drop s.idx from g.rem]
  exact NamesEnd.drop (hs.names name hn) g.le

theorem RawText.drop {name t : Bytes} {n k : Nat} (h : RawText name t n) (hk : k ≤ n) (hn : n ≤ t.length) :
    RawText name (t.drop k) (n - k) := by
  refine ⟨fun j hj hc => ?_, ?_⟩
  · rw [closes_drop (by omega)] at hc
    exact h.1 (k + j) (by omega) hc
  · rcases h.2 with h | h
    · left; simp; omega
    · right
      rw [closes_drop (by omega), show k + (n - k) = n by omega]
      exact h

/-- The rest of the source comes after a tag with this name. -/
def Inside (env : HEnv) (name : Bytes) (s : HS Unit) : Prop :=
  s.rem = [] ∨ ∃ u v, env.src = u ++ b!"<" ++ name ++ v ++ b!">" ++ s.rem

theorem nested_ok {h : Highlight} {R' : Rules} {name lo : Bytes} (ok : NestedOk lo h R' env.debug env.opts env.src)
    (ha : Inside env name s) (hlo : name.map lower = lo) {n : Nat} (hn : n ≤ s.rem.length) (ht : RawText lo s.rem n) (h0 : 0 < n) :
    ∃ es, h env.debug env.opts (s.rem.take n) = .ok (true, es) ∧
      Tiles R' (s.rem.take n) (s.rem.take n).length (es.map Emit.token) := by
  rcases ha with ha | ⟨u, v, ha⟩
  · rw [ha] at hn
    simp at hn
    omega
  · refine ok (s.rem.take n) ⟨u, name, v, s.rem.drop n, ?_, hlo, ?_⟩
    · rw [List.append_assoc _ (s.rem.take n), List.take_append_drop]
      exact ha
    · rw [List.take_append_drop, List.length_take, Nat.min_eq_left hn]
      exact ht

theorem elementContent_spec {cssH jsH : Highlight} (hs : Sane env.src) (okCss : NestedOk b!"style" cssH css env.debug env.opts env.src)
    (okJs : NestedOk b!"script" jsH js env.debug env.opts env.src) (g : Good (rules css js) env s) (name : Bytes) (ha : Inside env name s) :
    wp (elementContent cssH jsH name) (fun b s' => b = true ∧ Good (rules css js) env s' ∧ s.idx ≤ s'.idx) env s := by
  unfold elementContent
  rw [wp_bind, wp_rem]
  have hl := g.len
  split
  · rename_i h
    have hlo : ∃ lo, name.map lower = lo ∧ (lo = b!"textarea" ∨ lo = b!"title") := by
      refine ⟨_, rfl, ?_⟩
      simp only [Bool.or_eq_true, (Ascii.C19_ignore_case _ _).1, lower_eq] at h
      exact h
    obtain ⟨lo, hlo, hcase⟩ := hlo
    have hmem : lo ∈ rawNames := by rcases hcase with rfl | rfl <;> simp [rawNames]
    have hamp : c!"&" ∉ lo := by rcases hcase with rfl | rfl <;> simp
    refine wp_loop_moved (R := rules css js) (fun _ _ => True) ?_ g trivial (by omega)
    intro _ s1 g1 l1 i1 _
    unfold escapableStep
    rw [wp_bind, wp_rem]
    obtain ⟨h1, h2, h3, _⟩ := matchEscapable_spec name lo s1.rem hlo hamp (namesEnd hs g1 hmem)
    dsimp only
    split
    · rename_i hne
      rw [wp_bind]
      refine wp_step_advance g1 (by omega) (Gap.raw hcase h2) fun s2 g2 l2 e2 i2 x2 => ?_
      rw [wp_bind]
      refine wp_step_emitAdvIf g2 (by rw [e2]; simp; omega) (by simp) (fun h => Tok.ref (by rw [e2]; exact h3 (by omega))) fun s3 g3 l3 e3 i3 x3 => ?_
      rw [wp_pure]
      exact ⟨g3, by omega, trivial⟩
    · rw [wp_pure]
      exact ⟨rfl, g1, by omega⟩
  split
  · rename_i hn
    rw [(Ascii.C19_ignore_case _ _).1, lower_eq] at hn
    rw [wp_bind, wp_lift]
    obtain ⟨n, h1, h2, h3⟩ := matchRawText_spec b!"script" s.rem (by decide +kernel) (namesEnd hs g (by simp [rawNames]))
    refine ⟨n, h1, ?_⟩
    rw [wp_bind]
    refine wp_consumeNested (R' := js) g h2 (nested_ok okJs ha hn h2 h3) ?_ ?_ fun s1 g1 l1 e1 i1 => ?_
    · intro k m ty hk ht
      refine Tok.js (RawText.drop h3 (by omega) h2) (by omega) ?_
      rwa [List.drop_take] at ht
    · intro k m hk ht
      refine Gap.js (RawText.drop h3 (by omega) h2) (by omega) ?_
      rwa [List.drop_take] at ht
    · rw [wp_pure]
      exact ⟨rfl, g1, by omega⟩
  split
  · rename_i hn
    rw [(Ascii.C19_ignore_case _ _).1, lower_eq] at hn
    rw [wp_bind, wp_lift]
    obtain ⟨n, h1, h2, h3⟩ := matchRawText_spec b!"style" s.rem (by decide +kernel) (namesEnd hs g (by simp [rawNames]))
    refine ⟨n, h1, ?_⟩
    rw [wp_bind]
    refine wp_consumeNested (R' := css) g h2 (nested_ok okCss ha hn h2 h3) ?_ ?_ fun s1 g1 l1 e1 i1 => ?_
    · intro k m ty hk ht
      refine Tok.css (RawText.drop h3 (by omega) h2) (by omega) ?_
      rwa [List.drop_take] at ht
    · intro k m hk ht
      refine Gap.css (RawText.drop h3 (by omega) h2) (by omega) ?_
      rwa [List.drop_take] at ht
    · rw [wp_pure]
      exact ⟨rfl, g1, by omega⟩
  · rw [wp_pure]
    exact ⟨rfl, g, by omega⟩

theorem expectStartTag_spec {cssH jsH : Highlight} (hs : Sane env.src) (okCss : NestedOk b!"style" cssH css env.debug env.opts env.src)
    (okJs : NestedOk b!"script" jsH js env.debug env.opts env.src) (g : Good (rules css js) env s)
    (comment : ¬ Comment s.rem) (doctype : ¬ BeginsLower b!"<!doctype" s.rem)
    (cdata : s.rem.take 9 ≠ b!"<![CDATA[") (end_ : ¬ EndTag s.rem) :
    ExpectsAt (rules css js) env s (expectStartTag cssH jsH) (s.rem.take 1 ≠ b!"<") := by
  unfold ExpectsAt expectStartTag
  rw [wp_bind, wp_rem]
  have hl := g.len
  split
  · rename_i h
    rw [wp_pure]
    refine Or.inr ⟨rfl, rfl, fun h' => ?_⟩
    simp at h
    have : startsWith s.rem b!"<" = true := startsWith_iff.2 ⟨s.rem.drop 1, by rw [← h', List.take_append_drop]⟩
    rw [h] at this
    simp at this
  · rename_i h
    simp at h
    have h := startsWith_facts h _ rfl
    rw [wp_bind]
    refine wp_step_emitAdv g (by omega) h.1 (by simp) (Tok.open_ h.2 comment doctype cdata end_) fun s1 g1 l1 e1 i1 x1 => ?_
    rw [wp_bind, wp_rem, wp_bind, wp_lift]
    obtain ⟨n, h1, h2, h3⟩ := matchTagName_spec s1.rem
    refine ⟨n, h1, ?_⟩
    split
    · rw [wp_pure]
      exact Or.inl ⟨rfl, g1, by omega⟩
    rw [wp_bind]
    refine wp_step_emitAdv g1 (by omega) h2 (by simp) (Tok.tagName h3) fun s2 g2 l2 e2 i2 x2 => ?_
    rw [wp_bind]
    refine wp_loop_moved (R := rules css js) (fun _ _ => True) ?_ g2 trivial (by omega)
    intro _ s3 g3 l3 i3 _
    refine wp_mono (attributesStep_spec hs g3) ?_
    intro r s4 h4
    cases r with
    | inl u => exact h4
    | inr complete =>
      obtain ⟨g4, h4, h5⟩ := h4
      simp only
      split
      · rename_i hc
        have hin : Inside env (s1.rem.take n) s4 := by
          rcases h5 hc with h | ⟨a, h', hi⟩
          · exact Or.inl h
          · right
            have hlt : env.src.take (s.idx + 1 + n) = env.src.take s.idx ++ b!"<" ++ s1.rem.take n := by
              rw [List.take_add, List.take_add, ← show s.rem = env.src.drop s.idx from g.rem, show s.rem.take 1 = b!"<" from h.2,
                ← i1, ← show s1.rem = env.src.drop s1.idx from g1.rem]
            refine ⟨env.src.take s.idx, a.drop (s.idx + 1 + n), ?_⟩
            rw [← hlt]
            have : env.src.take (s.idx + 1 + n) = a.take (s.idx + 1 + n) := by
              conv => lhs; rw [h']
              rw [List.append_assoc, List.take_append_of_le_length (by omega)]
            rw [this, List.take_append_drop]
            exact h'
        refine wp_mono (elementContent_spec hs okCss okJs g4 _ hin) ?_
        rintro _ s5 ⟨rfl, g5, h5⟩
        exact Or.inl ⟨rfl, g5, by omega⟩
      · rw [wp_pure]
        exact Or.inl ⟨rfl, g4, by omega⟩

/-! ### Text -/

theorem expectReference_spec : ExpectsOr (rules css js) expectReference fun s => NoRef s.rem 0 := by
  intro env s g
  unfold expectReference
  rw [wp_bind, wp_rem]
  dsimp only
  split
  · rename_i h
    have hr := (ref_iff _ _).2 ⟨rfl, h⟩
    have := ref_le hr
    rw [wp_bind]
    refine wp_step_emitAdv g (by omega) this.1 (by simp) (Tok.ref hr) fun s1 g1 l1 e1 i1 x1 => ?_
    rw [wp_pure]
    exact Or.inl ⟨rfl, g1, by omega⟩
  · rename_i h
    rw [wp_pure]
    exact Or.inr ⟨rfl, rfl, (noRef_iff _ _).2 (by simpa using h)⟩

theorem textStep_spec (g : Good (rules css js) env s) (h : s.rem.take 1 ≠ b!"<" ∨ s0 < s.idx) (h0 : s0 ≤ s.idx) (hne : s.rem ≠ [] ∨ s0 < s.idx) :
    wp (textStep ()) (fun r s' => match r with
      | .inl _ => Good (rules css js) env s' ∧ s.idx < s'.idx
      | .inr b => b = true ∧ Good (rules css js) env s' ∧ s0 < s'.idx) env s := by
  unfold textStep
  rw [wp_bind, wp_rem]
  have hl := g.len
  split
  · rename_i he
    rw [wp_pure]
    simp at he
    exact ⟨rfl, g, by rcases hne with h | h; · exact absurd he h
                      · exact h⟩
  rename_i he
  simp at he
  have hpos := List.length_pos_iff.2 he
  have hP : ∀ c, (decide (c = c!"<") || decide (c = c!"&")) = false ↔ (c ≠ c!"<" ∧ c ≠ c!"&") := by simp
  have noref : ∀ n, (∀ c ∈ s.rem.take n, c ≠ c!"<" ∧ c ≠ c!"&") → ∀ k, k < n → NoRef s.rem k := by
    intro n hn k hk
    apply noRef_of_ne
    intro hc
    exact (hn c!"&" (List.mem_of_getElem? (i := k) (by rw [List.getElem?_take_of_lt hk]; exact hc))).2 rfl
  rcases find_if_longest s.rem _ _ hP 0 (by simp) with ⟨j, c, h1, h2, h3, h4, h5, h6⟩ | ⟨h1, h2⟩
  · rw [h1]
    simp only
    rw [List.drop_zero, Nat.sub_zero] at h6
    split
    · rename_i hc
      rw [wp_bind]
      refine wp_step_advance g (by omega) (Gap.text (fun c hc => (h6.1 c hc).1) (noref j h6.1)) fun s1 g1 l1 e1 i1 x1 => ?_
      rw [wp_pure]
      refine ⟨rfl, g1, ?_⟩
      rcases h with h | h
      · have : j ≠ 0 := by
          rintro rfl
          apply h
          cases hr : s.rem with
          | nil => simp [hr] at hc
          | cons a t => simp [hr] at hc; simp [hc]
        omega
      · omega
    · rename_i hc
      rw [wp_bind]
      refine wp_mono (expectReference_spec env s g) ?_
      rintro _ s2 (⟨rfl, g2, h2⟩ | ⟨rfl, rfl, h2⟩)
      · simp only [if_true, wp_pure]
        exact ⟨g2, h2⟩
      · simp only [Bool.false_eq_true, if_false]
        rw [wp_bind]
        refine wp_step_advance g (by omega) (Gap.text ?_ ?_) fun s1 g1 l1 e1 i1 x1 => ?_
        · intro d hd
          cases hr : s2.rem with
          | nil => simp [hr] at hd
          | cons a t =>
            simp [hr] at hd
            subst hd
            rintro rfl
            by_cases hj : j = 0
            · subst hj
              simp [hr] at hc
            · exact (h6.1 c!"<" (by rw [hr]; obtain ⟨m, rfl⟩ : ∃ m, j = m + 1 := ⟨j - 1, by omega⟩; simp)).1 rfl
        · intro k hk
          obtain rfl : k = 0 := by omega
          exact h2
        · rw [wp_pure]
          exact ⟨g1, by omega⟩
  · rw [h1]
    simp only
    rw [List.drop_zero, Nat.sub_zero] at h2
    rw [wp_bind]
    refine wp_step_advance g (by omega) (Gap.text (fun c hc => (h2.1 c hc).1) (noref _ h2.1)) fun s1 g1 l1 e1 i1 x1 => ?_
    rw [wp_pure]
    exact ⟨rfl, g1, by omega⟩

theorem expectText_spec (g : Good (rules css js) env s) (h : s.rem.take 1 ≠ b!"<") (hne : s.rem ≠ []) :
    wp expectText (fun b s' => b = true ∧ Good (rules css js) env s' ∧ s.idx < s'.idx) env s := by
  unfold expectText
  rw [wp_bind, wp_rem]
  refine wp_loop_moved (R := rules css js) (fun _ s' => (s'.rem.take 1 ≠ b!"<" ∧ s'.rem ≠ []) ∨ s.idx < s'.idx) ?_ g (Or.inl ⟨h, hne⟩) (by omega)
  rintro ⟨⟩ s1 g1 l1 i1 h1
  refine wp_mono (textStep_spec (s0 := s.idx) g1 (by rcases h1 with h | h <;> simp [h]) i1 (by rcases h1 with h | h <;> simp [h])) ?_
  intro r s' h'
  cases r with
  | inl u => exact ⟨h'.1, h'.2, Or.inr (by have := h'.2; omega)⟩
  | inr b => exact h'

theorem step_spec {cssH jsH : Highlight} (hs : Sane env.src) (okCss : NestedOk b!"style" cssH css env.debug env.opts env.src)
    (okJs : NestedOk b!"script" jsH js env.debug env.opts env.src) (g : Good (rules css js) env s) (hne : s.rem ≠ []) :
    wp (step cssH jsH) (fun _ s' => Good (rules css js) env s' ∧ s.idx < s'.idx) env s := by
  unfold step
  rw [wp_bind]
  refine wp_step_or (wp_mono (expectComment_spec env s g) ?_)
  rintro _ s1 (⟨rfl, g1, h1⟩ | ⟨rfl, rfl, hcomment⟩)
  · simpa using ⟨g1, h1⟩
  simp only [Bool.false_eq_true, if_false]
  refine wp_step_or (wp_mono (expectDoctype_spec env s1 g) ?_)
  rintro _ s2 (⟨rfl, g1, h1⟩ | ⟨rfl, rfl, hdoctype⟩)
  · simpa using ⟨g1, h1⟩
  simp only [Bool.false_eq_true, if_false]
  refine wp_step_or (wp_mono (expectCData_spec env s2 g) ?_)
  rintro _ s3 (⟨rfl, g1, h1⟩ | ⟨rfl, rfl, hcdata⟩)
  · simpa using ⟨g1, h1⟩
  simp only [Bool.false_eq_true, if_false]
  refine wp_step_or (wp_mono (expectEndTag_spec env s3 g) ?_)
  rintro _ s4 (⟨rfl, g1, h1⟩ | ⟨rfl, rfl, hend⟩)
  · simpa using ⟨g1, h1⟩
  simp only [Bool.false_eq_true, if_false]
  refine wp_step_or (wp_mono (expectStartTag_spec hs okCss okJs g hcomment hdoctype hcdata hend) ?_)
  rintro _ s5 (⟨rfl, g1, h1⟩ | ⟨rfl, rfl, hopen⟩)
  · simpa using ⟨g1, h1⟩
  simp only [Bool.false_eq_true, if_false]
  refine wp_mono (expectText_spec g hopen hne) ?_
  rintro _ s5 ⟨rfl, g1, h1⟩
  simpa using ⟨g1, h1⟩

theorem highlight_tiles {cssH jsH : Highlight} (debug : Bool) (opts : Opts) (src : Bytes) (hs : Sane src)
    (okCss : NestedOk b!"style" cssH css debug opts src) (okJs : NestedOk b!"script" jsH js debug opts src) :
    ∃ es, highlight cssH jsH debug opts src = .ok (true, es) ∧
      Tiles (rules css js) src src.length (es.map Emit.token) := by
  have := runAll_of_wp (m := run cssH jsH) (ext := ()) (R := rules css js) (debug := debug) (opts := opts) (src := src)
    (P := (· = true)) ?_
  · obtain ⟨good, es, h1, rfl, h2⟩ := this
    exact ⟨es, h1, h2⟩
  · intro s g hr hi _
    unfold run
    rw [wp_bind]
    refine wp_mono (expectBom_spec _ s g) ?_
    intro b s1 h1
    have g1 : Good (rules css js) ⟨debug, opts, src⟩ s1 := by
      rcases h1 with ⟨_, h, _⟩ | ⟨_, rfl⟩
      · exact h
      · exact g
    rw [wp_bind, wp_rem, wp_bind]
    refine wp_while_moved (R := rules css js) (fun _ => True) ?_ g1 trivial (by omega) ?_
    · intro s2 g2 l2 i2 hne _
      refine wp_mono (step_spec hs okCss okJs g2 hne) ?_
      rintro _ s3 ⟨g3, h3⟩
      exact ⟨g3, h3, trivial⟩
    · intro s2 g2 l2 i2 h2 _
      rw [wp_pure]
      exact ⟨g2, h2, rfl⟩

/-! ## Theorems -/

/-- Every token of an HTML file is what its type says, and so is the text without tokens: for every
file without a character reference at the very end in which `</script`, `</style`, `</textarea` and
`</title` are not part of longer names, as long as the highlighters for CSS and JavaScript do their
job on the content of the elements. -/
theorem C48_html_tokens {cssH jsH : Highlight} (debug : Bool) (opts : Opts) (src : Bytes) (hs : Sane src)
    (okCss : NestedOk b!"style" cssH css debug opts src) (okJs : NestedOk b!"script" jsH js debug opts src) :
    ∃ es, highlight cssH jsH debug opts src = .ok (true, es) ∧
      Tiles (rules css js) src src.length (es.map Emit.token) :=
  highlight_tiles debug opts src hs okCss okJs

/-- The content of an element of a file that is encoded as UTF-8 is, too. -/
theorem isUtf8_content {name src b : Bytes} (hu : IsUtf8 src) (hb : ContentOf name src b) : IsUtf8 b := by
  obtain ⟨u, w, v, c, rfl, _, _, hc⟩ := hb
  generalize u ++ b!"<" ++ w ++ v = a at hu
  have hc : c = [] ∨ c.head? = some c!"<" := by
    rcases hc with h | h
    · left
      simpa using h
    · right
      obtain ⟨x, y, e, hx⟩ := h.1.1
      rw [List.append_assoc] at e
      obtain ⟨rfl, e'⟩ := List.append_inj e hx.symm
      rw [e']
      simp
  have h1 := (isUtf8_boundary hu (k := a.length) (b := c!">") (by simp) (by decide)).2
  simp only [List.append_assoc, List.drop_left] at h1
  have h1 : IsUtf8 (b ++ c) := (isUtf8_cons_iff (.one c!">" (by decide))).1 h1
  rcases hc with rfl | hc
  · simpa using h1
  · cases c with
    | nil => simp at hc
    | cons x c =>
      simp at hc
      subst hc
      have := (isUtf8_boundary h1 (k := b.length) (b := c!"<") (by simp) (by decide)).1
      simpa using this

/-- The CSS highlighter does its job if the file is encoded as UTF-8. -/
theorem nestedOk_css (debug : Bool) (opts : Opts) (src : Bytes) (hu : IsUtf8 src) :
    NestedOk b!"style" Css.highlight Spec.Css.rules debug opts src := by
  intro b hb
  exact Css.C42_css_tokens debug opts b (isUtf8_content hu hb)

/-- So every token of an HTML file with style sheets is what its type says. -/
theorem C48_html_css_tokens {jsH : Highlight} (debug : Bool) (opts : Opts) (src : Bytes) (hs : Sane src)
    (hu : IsUtf8 src) (okJs : NestedOk b!"script" jsH js debug opts src) :
    ∃ es, highlight Css.highlight jsH debug opts src = .ok (true, es) ∧
      Tiles (rules Spec.Css.rules js) src src.length (es.map Emit.token) :=
  highlight_tiles debug opts src hs (nestedOk_css debug opts src hu) okJs

theorem sane_of {src : Bytes} (h1 : src.getLast? ≠ some c!";")
    (h2 : ∀ name ∈ rawNames, ∀ k, k < src.length → startsWith (src.drop k) b!"</" = true →
      ((src.drop (k + 2)).take name.length).map lower = name →
      (src[k + 2 + name.length]?).any isRawEnd = true ∨ k + 2 + name.length = src.length) : Sane src := by
  refine ⟨h1, fun name hn k hk => ?_⟩
  obtain ⟨x, y, e, hx⟩ := hk.1
  have hlt : k < src.length := by rw [e, ← hx]; simp
  refine (h2 name hn k hlt (by rw [e, ← hx]; simp [startsWith_cons_cons]) hk.2).imp (fun h => ⟨hk, ?_⟩) id
  cases hc : src[k + 2 + name.length]? with
  | none => simp [hc] at h
  | some c => exact ⟨c, rfl, (isRawEnd_iff c).1 (by simpa [hc] using h)⟩

/-- A highlighter that finds no tokens. -/
def plain : Highlight := fun _ _ _ => .ok (true, [])

theorem nestedOk_plain (debug : Bool) (opts : Opts) (src : Bytes) :
    NestedOk b!"script" plain ⟨fun _ _ _ => False, fun _ _ => True⟩ debug opts src := by
  intro b _
  refine ⟨[], rfl, ?_⟩
  have := Tiles.gap (R := ⟨fun _ _ _ => False, fun _ _ => True⟩) (src := b) b.length .nil (by simp) trivial
  simpa using this

def tokensOf (src : Bytes) (debug : Bool := true) : Except Fault (List Token) :=
  (highlight Css.highlight plain debug {} src).map (fun r => r.2.map Emit.token)

instance : DecidableEq (Except Fault (List Token)) := fun a b =>
  match a, b with
  | .ok x, .ok y => if h : x = y then isTrue (by rw [h]) else isFalse (by simpa using h)
  | .error x, .error y => if h : x = y then isTrue (by rw [h]) else isFalse (by simpa using h)
  | .ok _, .error _ => isFalse (by simp)
  | .error _, .ok _ => isFalse (by simp)

example : Sane b!"<!doctype html><!--a--><p class=\"x&lt;y\" id = z>&copy;<style>p{}</style></p>" ∧
    IsUtf8 b!"<!doctype html><!--a--><p class=\"x&lt;y\" id = z>&copy;<style>p{}</style></p>" ∧
    tokensOf b!"<!doctype html><!--a--><p class=\"x&lt;y\" id = z>&copy;<style>p{}</style></p>" =
    .ok [⟨0, 15, .name_macro⟩, ⟨15, 4, .comment_delim⟩, ⟨19, 1, .comment⟩, ⟨20, 3, .comment_delim⟩,
      ⟨23, 1, .symbol_punc⟩, ⟨24, 1, .markup_tag⟩, ⟨26, 5, .markup_attr⟩, ⟨31, 1, .symbol_punc⟩,
      ⟨32, 2, .string⟩, ⟨34, 4, .string_escape⟩, ⟨38, 2, .string⟩, ⟨41, 2, .markup_attr⟩,
      ⟨44, 1, .symbol_punc⟩, ⟨46, 1, .string⟩, ⟨47, 1, .symbol_punc⟩, ⟨48, 6, .string_escape⟩,
      ⟨54, 1, .symbol_punc⟩, ⟨55, 5, .markup_tag⟩, ⟨60, 1, .symbol_punc⟩, ⟨61, 1, .markup_tag⟩,
      ⟨62, 1, .symbol_brace⟩, ⟨63, 1, .symbol_brace⟩, ⟨64, 2, .symbol_punc⟩, ⟨66, 5, .markup_tag⟩,
      ⟨71, 1, .symbol_punc⟩, ⟨72, 2, .symbol_punc⟩, ⟨74, 1, .markup_tag⟩, ⟨75, 1, .symbol_punc⟩] :=
  ⟨sane_of (by decide) (by decide +kernel), isUtf8_ascii (by decide), by decide +kernel⟩

/-- Without the first condition, the highlighter reads past the end of the source, after an assertion
in debug builds. -/
theorem C48_reference_at_end :
    tokensOf b!"<a b=&amp;" = .error .assert ∧ tokensOf b!"<a b=&amp;" false = .error .outOfBounds ∧
    tokensOf b!"<a b=\"&amp;" = .error .assert ∧ tokensOf b!"<a b=\"&amp;" false = .error .outOfBounds := by
  refine ⟨by decide +kernel, by decide +kernel, by decide +kernel, by decide +kernel⟩

/-- Without the second condition, it reads past the end of the source too. -/
theorem C48_longer_name : tokensOf b!"<script></scriptx" false = .error .outOfBounds := by decide +kernel

/-- A longer name in a title is taken for part of the text, but then a character reference is sought in
the wrong place: here, four bytes `/tit` are highlighted as one. -/
theorem C48_wrong_place : tokensOf b!"<title></titlex&lt;</title>" =
    .ok [⟨0, 1, .symbol_punc⟩, ⟨1, 5, .markup_tag⟩, ⟨6, 1, .symbol_punc⟩, ⟨8, 4, .string_escape⟩,
      ⟨15, 4, .string_escape⟩, ⟨19, 2, .symbol_punc⟩, ⟨21, 5, .markup_tag⟩, ⟨26, 1, .symbol_punc⟩] := by
  decide +kernel

/-- Where the highlighter differs from the standard.  After a character reference, the closing quotation
mark or `>` is taken for part of the value.  In an end tag with a space, the space is
highlighted rather than `>`.  `&#X41;` is not taken for a character reference. -/
theorem C48_differences :
    tokensOf b!"<a b=\"&amp;\">c" =
      .ok [⟨0, 1, .symbol_punc⟩, ⟨1, 1, .markup_tag⟩, ⟨3, 1, .markup_attr⟩, ⟨4, 1, .symbol_punc⟩,
        ⟨5, 1, .string⟩, ⟨6, 5, .string_escape⟩, ⟨11, 3, .string⟩] ∧
    tokensOf b!"<a b=&amp;>c" =
      .ok [⟨0, 1, .symbol_punc⟩, ⟨1, 1, .markup_tag⟩, ⟨3, 1, .markup_attr⟩, ⟨4, 1, .symbol_punc⟩,
        ⟨5, 5, .string_escape⟩, ⟨10, 2, .string⟩] ∧
    tokensOf b!"</a >" = .ok [⟨0, 2, .symbol_punc⟩, ⟨2, 1, .markup_tag⟩, ⟨3, 1, .symbol_punc⟩] ∧
    tokensOf b!"&#X41;" = .ok [] := by
  refine ⟨by decide +kernel, by decide +kernel, by decide +kernel, by decide +kernel⟩

/-- `</a é>`: a character is cut. -/
theorem C31_html_splits : IsUtf8 [0x3C, 0x2F, 0x61, 0x20, 0xC3, 0xA9, 0x3E] ∧
    tokensOf [0x3C, 0x2F, 0x61, 0x20, 0xC3, 0xA9, 0x3E] =
      .ok [⟨0, 2, .symbol_punc⟩, ⟨2, 1, .markup_tag⟩, ⟨5, 1, .symbol_punc⟩] ∧
    ¬ IsUtf8 (([0x3C, 0x2F, 0x61, 0x20, 0xC3, 0xA9, 0x3E].drop 5).take 1) := by
  exact ⟨⟨[0x3C, 0x2F, 0x61, 0x20, 0xE9, 0x3E], by simp [IsScalar], by decide +kernel⟩, by decide +kernel,
    not_isUtf8_one (by decide)⟩

end Html

end Ulight
