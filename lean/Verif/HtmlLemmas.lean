import Verif.Api
import Verif.Spec.Html
import Verif.EmitLemmas

/-!
# Lemmas about HTML generation
-/

namespace Ulight
open Spec

theorem findBracket_none {text : Bytes} (h : findBracket text = none) : escape text = text := by
  induction text with
  | nil => rfl
  | cons c cs ih =>
    simp only [findBracket] at h
    split at h
    · cases h
    · rename_i hc
      simp only [Option.map_eq_none_iff] at h
      simp only [escape, List.flatMap_cons] at ih ⊢
      rw [ih h]
      have : escapeByte c = [c] := by
        unfold escapeByte; grind
      rw [this]; rfl

theorem findBracket_some {text : Bytes} {pos : Nat} (h : findBracket text = some pos) :
    ∃ c ent, text[pos]? = some c ∧ htmlEntityOf c = .ok ent ∧
      escape text = text.take pos ++ ent ++ escape (text.drop (pos + 1)) := by
  induction text generalizing pos with
  | nil => simp [findBracket] at h
  | cons c cs ih =>
    simp only [findBracket] at h
    split at h
    · rename_i hc
      cases h
      refine ⟨c, escapeByte c, rfl, ?_, by simp [escape]⟩
      unfold htmlEntityOf escapeByte
      rcases hc with hc | hc | hc <;> subst hc <;> rfl
    · rename_i hc
      simp only [Option.map_eq_some_iff] at h
      obtain ⟨p, hp, rfl⟩ := h
      obtain ⟨c', ent, h1, h2, h3⟩ := ih hp
      refine ⟨c', ent, by simpa using h1, h2, ?_⟩
      have : escapeByte c = [c] := by
        unfold escapeByte; grind
      simp only [escape, List.flatMap_cons, this] at h3 ⊢
      rw [h3]; simp

theorem appendHtmlEscaped_holds {cap : Nat} (hc : 0 < cap) : ∀ (fuel : Nat) (text xs : Bytes)
    (out : Buf UInt8), text.length ≤ fuel → Buf.Holds cap xs out →
    ∃ out', appendHtmlEscaped fuel out text = .ok out' ∧
      Buf.Holds cap (xs ++ escape text) out' := by
  intro fuel
  induction fuel with
  | zero =>
    intro text xs out hl h
    have : text = [] := List.length_eq_zero_iff.mp (by omega)
    subst this
    exact ⟨out, by simp [appendHtmlEscaped], by simpa [escape] using h⟩
  | succ fuel ih =>
    intro text xs out hl h
    unfold appendHtmlEscaped
    split
    · rename_i ht
      subst ht
      exact ⟨out, rfl, by simpa [escape] using h⟩
    · split
      · rename_i hb
        rw [findBracket_none hb]
        exact h.append hc text
      · rename_i pos hb
        obtain ⟨c, ent, h1, h2, h3⟩ := findBracket_some hb
        obtain ⟨o1, e1, e2⟩ := h.append hc (text.take pos)
        obtain ⟨o2, e3, e4⟩ := e2.append hc ent
        obtain ⟨o3, e5, e6⟩ := ih (text.drop (pos + 1)) _ o2 (by
          have : pos < text.length := by
            rcases Nat.lt_or_ge pos text.length with h | h
            · exact h
            · simp [List.getElem?_eq_none h] at h1
          simp only [List.length_drop]; omega) e4
        refine ⟨o3, by simp [e1, h1, h2, e3, e5], ?_⟩
        rw [h3]
        simpa using e6

theorem htmlEscaped_holds {cap : Nat} (hc : 0 < cap) {text xs : Bytes} {out : Buf UInt8}
    (h : Buf.Holds cap xs out) :
    ∃ out', htmlEscaped out text = .ok out' ∧ Buf.Holds cap (xs ++ escape text) out' :=
  appendHtmlEscaped_holds hc _ _ _ _ (Nat.le_refl _) h

/-- The tag and attribute names can be read. -/
structure NamesOk (st : State) (tag attr : Bytes) : Prop where
  tag : readMem st.htmlTag st.htmlTagLen = .ok tag
  attr : readMem st.htmlAttr st.htmlAttrLen = .ok attr

theorem htmlToken_holds {cap : Nat} (hc : 0 < cap) {st : State} {src tag attr xs : Bytes}
    {out : Buf UInt8} (hn : NamesOk st tag attr) (h : Buf.Holds cap xs out) {prevEnd : Nat}
    {t : Token} (hp : prevEnd ≤ t.beg) (ht : t.beg + t.len ≤ src.length) :
    ∃ out', htmlToken st src (prevEnd, out) t = .ok (t.beg + t.len, out') ∧
      Buf.Holds cap (xs ++ (escape (slice src prevEnd t.beg) ++
        element tag attr (shortString t.ty.val) (escape (slice src t.beg (t.beg + t.len))))) out' := by
  have hgap : ∃ o, htmlGap src prevEnd t.beg out = .ok o ∧
      Buf.Holds cap (xs ++ escape (slice src prevEnd t.beg)) o := by
    unfold htmlGap
    split
    · rw [if_pos (by omega)]
      exact htmlEscaped_holds hc h
    · have : slice src prevEnd t.beg = [] := by
        unfold slice; rw [show t.beg - prevEnd = 0 by omega]; rfl
      exact ⟨out, rfl, by simpa [this, escape] using h⟩
  obtain ⟨o0, e0, f0⟩ := hgap
  obtain ⟨o1, e1, f1⟩ := f0.push hc c!"<"
  obtain ⟨o2, e2, f2⟩ := f1.append hc tag
  obtain ⟨o3, e3, f3⟩ := f2.push hc c!" "
  obtain ⟨o4, e4, f4⟩ := f3.append hc attr
  obtain ⟨o5, e5, f5⟩ := f4.push hc c!"="
  obtain ⟨o6, e6, f6⟩ := f5.append hc (shortString t.ty.val)
  obtain ⟨o7, e7, f7⟩ := f6.push hc c!">"
  obtain ⟨o8, e8, f8⟩ := htmlEscaped_holds hc (text := (src.drop t.beg).take t.len) f7
  obtain ⟨o9, e9, f9⟩ := f8.append hc b!"</"
  obtain ⟨o10, e10, f10⟩ := f9.append hc tag
  obtain ⟨o11, e11, f11⟩ := f10.push hc c!">"
  refine ⟨o11, ?_, ?_⟩
  · simp only [htmlToken]
    have : t.beg ≤ src.length := by omega
    simp [bind, e0, assertThat, Except.bind, pure, Except.pure, this, hn.tag, hn.attr, e1, e2, e3, e4, e5, e6, e7,
      e8, e9, e10, e11]
  · have : slice src t.beg (t.beg + t.len) = (src.drop t.beg).take t.len := by
      simp [slice]
    rw [this]
    simpa [element] using f11

/-- Output for a list of tokens, without the trailing text. -/
def renderToks (tag attr src : Bytes) : Nat → List Token → Bytes
  | _, [] => []
  | pos, t :: ts =>
    escape (slice src pos t.beg) ++
    element tag attr (shortString t.ty.val) (escape (slice src t.beg (t.beg + t.len))) ++
    renderToks tag attr src (t.beg + t.len) ts

theorem lastEnd_cons (lo : Nat) (t : Token) (ts : List Token) :
    lastEnd lo (t :: ts) = lastEnd (t.beg + t.len) ts := by
  cases ts with
  | nil => rfl
  | cons t' ts => simp [lastEnd, List.getLast?_cons]

theorem lastEnd_append (lo : Nat) (a b : List Token) :
    lastEnd lo (a ++ b) = lastEnd (lastEnd lo a) b := by
  induction a generalizing lo with
  | nil => rfl
  | cons t a ih => rw [List.cons_append, lastEnd_cons, lastEnd_cons, ih]

theorem renderToks_append (tag attr src : Bytes) (pos : Nat) (a b : List Token) :
    renderToks tag attr src pos (a ++ b) =
      renderToks tag attr src pos a ++ renderToks tag attr src (lastEnd pos a) b := by
  induction a generalizing pos with
  | nil => rfl
  | cons t a ih => simp [renderToks, ih, lastEnd_cons]

theorem render_eq (tag attr src : Bytes) (pos : Nat) (ts : List Token) :
    render tag attr src pos ts =
      renderToks tag attr src pos ts ++ escape (src.drop (lastEnd pos ts)) := by
  induction ts generalizing pos with
  | nil => rfl
  | cons t ts ih => simp [render, renderToks, ih, lastEnd_cons]

theorem wellFormedFrom_append {n lo : Nat} {a b : List Token} :
    WellFormedFrom n lo (a ++ b) ↔ WellFormedFrom n lo a ∧ WellFormedFrom n (lastEnd lo a) b := by
  induction a generalizing lo with
  | nil => simp [WellFormedFrom, lastEnd]
  | cons t a ih => simp only [List.cons_append, WellFormedFrom, ih, lastEnd_cons]; grind

theorem htmlTokens_holds {cap : Nat} (hc : 0 < cap) {st : State} {src tag attr : Bytes}
    (hn : NamesOk st tag attr) : ∀ (ts : List Token) (xs : Bytes) (out : Buf UInt8) (prevEnd : Nat),
    Buf.Holds cap xs out → WellFormedFrom src.length prevEnd ts →
    ∃ out', ts.foldlM (htmlToken st src) (prevEnd, out) = .ok (lastEnd prevEnd ts, out') ∧
      Buf.Holds cap (xs ++ renderToks tag attr src prevEnd ts) out' := by
  intro ts
  induction ts with
  | nil => intro xs out p h _; exact ⟨out, rfl, by simpa [renderToks] using h⟩
  | cons t ts ih =>
    intro xs out p h hw
    obtain ⟨h1, h2, h3, _, h4⟩ := hw
    obtain ⟨o1, e1, f1⟩ := htmlToken_holds hc hn h h1 h3
    obtain ⟨o2, e2, f2⟩ := ih _ o1 _ f1 h4
    refine ⟨o2, ?_, ?_⟩
    · simp only [List.foldlM_cons, e1, bind, Except.bind]
      rw [e2, lastEnd_cons]
    · simpa [renderToks] using f2

theorem checkFlushValidity_of_wf {n lo : Nat} {ts : List Token} (h : WellFormedFrom n lo ts) :
    checkFlushValidity n ts = true := by
  induction ts generalizing lo with
  | nil => rfl
  | cons t ts ih =>
    cases ts with
    | nil =>
      obtain ⟨h1, h2, h3, _⟩ := h
      simp [checkFlushValidity]; omega
    | cons t' ts =>
      obtain ⟨h1, h2, h3, _, h4⟩ := h
      have := ih h4
      obtain ⟨h5, h6, h7, h8⟩ := h4
      simp [checkFlushValidity, this]; omega

theorem htmlBatches_holds {cap : Nat} (hc : 0 < cap) (debug : Bool) {st : State}
    {src tag attr : Bytes} (hn : NamesOk st tag attr) : ∀ (bs : List (List Token)) (xs : Bytes)
    (out : Buf UInt8) (prevEnd : Nat), Buf.Holds cap xs out →
    WellFormedFrom src.length prevEnd bs.flatten →
    ∃ out', bs.foldlM (htmlBatch debug st src) (prevEnd, out) =
        .ok (lastEnd prevEnd bs.flatten, out') ∧
      Buf.Holds cap (xs ++ renderToks tag attr src prevEnd bs.flatten) out' := by
  intro bs
  induction bs with
  | nil => intro xs out p h _; exact ⟨out, rfl, by simpa [renderToks] using h⟩
  | cons b bs ih =>
    intro xs out p h hw
    rw [List.flatten_cons, wellFormedFrom_append] at hw
    obtain ⟨o1, e1, f1⟩ := htmlTokens_holds hc hn b _ out p h hw.1
    obtain ⟨o2, e2, f2⟩ := ih _ o1 _ f1 hw.2
    refine ⟨o2, ?_, ?_⟩
    · simp only [List.foldlM_cons, htmlBatch, checkFlushValidity_of_wf hw.1, Bool.not_true,
        Bool.and_false, Bool.false_eq_true, if_false, e1, bind, Except.bind]
      rw [e2, List.flatten_cons, lastEnd_append]
    · rw [List.flatten_cons, renderToks_append]
      simpa using f2

theorem lastEnd_le {n lo : Nat} {ts : List Token} (h : WellFormedFrom n lo ts) (hl : lo ≤ n) :
    lastEnd lo ts ≤ n := by
  induction ts generalizing lo with
  | nil => exact hl
  | cons t ts ih => rw [lastEnd_cons]; exact ih h.2.2.2.2 h.2.2.1

/-! ## Decoding what was rendered -/

theorem decode_char {c : UInt8} {r : Bytes} (h1 : c ≠ c!"<") (h2 : c ≠ c!">") (h3 : c ≠ c!"&") :
    Spec.decode (c :: r) = (Spec.decode r).map (c :: ·) := by
  rw [Spec.decode.eq_def]; simp [h1, h2, h3]

theorem decode_escapeByte (c : UInt8) (r : Bytes) :
    Spec.decode (escapeByte c ++ r) = (Spec.decode r).map (c :: ·) := by
  unfold escapeByte
  split
  · subst_vars
    simp only [List.cons_append, List.nil_append]
    rw [Spec.decode.eq_def]; simp
  · split
    · subst_vars
      simp only [List.cons_append, List.nil_append]
      rw [Spec.decode.eq_def]; simp
    · split
      · subst_vars
        simp only [List.cons_append, List.nil_append]
        rw [Spec.decode.eq_def]; simp
      · exact decode_char ‹_› ‹_› ‹_›

theorem decode_escape (s r : Bytes) :
    Spec.decode (escape s ++ r) = (Spec.decode r).map (s ++ ·) := by
  induction s with
  | nil => simp [escape]
  | cons c s ih =>
    simp only [escape, List.flatMap_cons, List.append_assoc] at ih ⊢
    rw [decode_escapeByte, ih]
    simp [Function.comp_def]

theorem decode_tag {s r : Bytes} (h : c!">" ∉ s) :
    Spec.decode (c!"<" :: (s ++ c!">" :: r)) = Spec.decode r := by
  rw [Spec.decode.eq_def]
  have : (s ++ c!">" :: r).dropWhile (fun x => decide (x ≠ c!">")) = c!">" :: r := by
    induction s with
    | nil => simp
    | cons a s ih =>
      simp only [List.mem_cons, not_or] at h
      rw [List.cons_append, List.dropWhile_cons, if_pos (by simpa using fun h' => h.1 h'.symm)]
      exact ih h.2
  simp only [if_true]
  split
  · rename_i h'; rw [this] at h'; cases h'
  · rename_i h'; rw [this] at h'; cases h'; rfl

theorem decode_element {tag attr id s r : Bytes} (h1 : c!">" ∉ tag) (h2 : c!">" ∉ attr)
    (h3 : c!">" ∉ id) :
    Spec.decode (element tag attr id (escape s) ++ r) = (Spec.decode r).map (s ++ ·) := by
  have e1 : element tag attr id (escape s) ++ r =
      c!"<" :: ((tag ++ b!" " ++ attr ++ b!"=" ++ id) ++ c!">" ::
        (escape s ++ (c!"<" :: ((b!"/" ++ tag) ++ c!">" :: r)))) := by
    simp [element]
  rw [e1, decode_tag (by simp [h1, h2, h3]), decode_escape, decode_tag (by simp [h1])]

theorem slice_append (src : Bytes) {a b c : Nat} (h1 : a ≤ b) (h2 : b ≤ c) :
    slice src a b ++ slice src b c = slice src a c := by
  unfold slice
  have e : src.drop b = (src.drop a).drop (b - a) := by
    rw [List.drop_drop]; congr 1; omega
  rw [e]
  generalize src.drop a = l
  have : c - a = (b - a) + (c - b) := by omega
  rw [this, List.take_add]

theorem slice_drop (src : Bytes) {a b : Nat} (h1 : a ≤ b) :
    slice src a b ++ src.drop b = src.drop a := by
  unfold slice
  have e : src.drop b = (src.drop a).drop (b - a) := by
    rw [List.drop_drop]; congr 1; omega
  rw [e, List.take_append_drop]

theorem decode_render {tag attr src : Bytes} (h1 : c!">" ∉ tag) (h2 : c!">" ∉ attr)
    (h3 : ∀ t : HT, c!">" ∉ shortString t.val) : ∀ (ts : List Token) (pos : Nat),
    WellFormedFrom src.length pos ts → Spec.decode (render tag attr src pos ts) = some (src.drop pos) := by
  intro ts
  induction ts with
  | nil =>
    intro pos _
    have := decode_escape (src.drop pos) []
    rw [List.append_nil] at this
    simp only [render]
    rw [this, Spec.decode.eq_def]; simp
  | cons t ts ih =>
    intro pos hw
    obtain ⟨h4, h5, h6, _, h7⟩ := hw
    simp only [render, List.append_assoc]
    rw [decode_escape, decode_element h1 h2 (h3 t.ty), ih _ h7]
    simp only [Option.map_some]
    rw [slice_drop src (by omega), slice_drop src h4]

/-! ## The output is HTML -/

theorem isText_append {a b : Bytes} (ha : IsText a) (hb : IsText b) : IsText (a ++ b) := by
  induction ha with
  | nil => exact hb
  | char h1 h2 h3 _ ih => exact .char h1 h2 h3 ih
  | lt _ ih => simpa using IsText.lt ih
  | gt _ ih => simpa using IsText.gt ih
  | amp _ ih => simpa using IsText.amp ih

theorem isText_escape (s : Bytes) : IsText (escape s) := by
  induction s with
  | nil => exact .nil
  | cons c s ih =>
    simp only [escape, List.flatMap_cons] at ih ⊢
    apply isText_append _ ih
    unfold escapeByte
    split
    · simpa using IsText.lt .nil
    · split
      · simpa using IsText.gt .nil
      · split
        · simpa using IsText.amp .nil
        · exact .char ‹_› ‹_› ‹_› .nil

theorem isHtml_render {tag attr src : Bytes}
    (h3 : ∀ t : HT, t ≠ .none → IsUnquoted (shortString t.val)) {n : Nat} :
    ∀ (ts : List Token) (pos : Nat), WellFormedFrom n pos ts →
      IsHtml tag attr (render tag attr src pos ts) := by
  intro ts
  induction ts with
  | nil => intro pos _; exact .text (isText_escape _)
  | cons t ts ih =>
    intro pos hw
    exact .elem (isText_escape _) (h3 _ hw.2.2.2.1) (isText_escape _) (ih _ hw.2.2.2.2)

theorem shortString_legal (t : HT) :
    c!">" ∉ shortString t.val ∧ (t ≠ .none → IsUnquoted (shortString t.val)) := by
  have key : ∀ t ∈ allHT, c!">" ∉ shortString t.val ∧ (t ≠ .none → shortString t.val ≠ [] ∧
      ∀ c ∈ shortString t.val, c ∉ b!" \t\n\r\"'=<>&`") := by decide +kernel
  exact key t (mem_allHT t)

end Ulight
