import Verif.ApiLemmas
import Verif.Spec.Ready

/-!
# C01-C05, C08, C32: the two entry points, for any highlighter

The theorems of this file hold for every table of highlighters `disp`.  Those about the output
assume that the highlighter in use produces well-formed emissions (`Runs`); `Verif/Props/Lang*.lean`
prove that for the modelled languages.
-/

namespace Ulight
open Spec

theorem readMem_of_points {p : Option Bytes} {n : Nat} {s : Bytes} (h : Points p n s) :
    readMem p n = .ok s := by
  obtain ⟨h1, h2 | ⟨r, h2⟩⟩ := h
  · obtain ⟨rfl, rfl⟩ := h2
    have : s = [] := List.length_eq_zero_iff.mp h1
    simp [readMem, this]
  · subst h2; subst h1
    simp [readMem]

theorem points_ne_none {p : Option Bytes} {n : Nat} {s : Bytes} (h : Points p n s) (hs : s ≠ []) :
    p ≠ none ∧ n ≠ 0 := by
  obtain ⟨h1, h2⟩ := h
  have : s.length ≠ 0 := by simpa using hs
  refine ⟨?_, by omega⟩
  rcases h2 with h2 | ⟨r, h2⟩
  · omega
  · simp [h2]

theorem Spec.TokensReady.check {st : State} {src : Bytes} (h : TokensReady st src) :
    checkTokensState st = none := by
  have h1 : ¬ (st.source = none ∧ st.sourceLen ≠ 0) := by
    rintro ⟨a, b⟩
    rcases h.source.2 with c | ⟨r, c⟩
    · omega
    · rw [a] at c; cases c
  have h2 := h.tokenBufLen
  have h3 := h.lang_pos
  have h4 := h.lang_lt
  have h5 : ¬ (st.lang = Lang.none ∨ st.lang > langCount) := by
    simp only [Lang.none, langCount]; omega
  unfold checkTokensState
  rw [if_neg h1, if_neg (by simp [h.tokenBuf]), if_neg (by omega), if_neg (by simp [h.flushTokens]),
    if_neg h5]

theorem Spec.HtmlReady.check {st : State} {src tag attr : Bytes} (h : HtmlReady st src tag attr) :
    checkHtmlState st = none ∧ checkTokensState { st with flushTokens := .ended } = none := by
  have t1 := points_ne_none h.tagPtr h.tag_ne
  have t2 := points_ne_none h.attrPtr h.attr_ne
  have h0 := h.textBufLen
  constructor
  · unfold checkHtmlState
    rw [if_neg (by simp [h.tokenBuf]), if_neg (by simp [h.textBuf]), if_neg (by omega),
      if_neg (by simp [h.flushText]), if_neg t1.1, if_neg t1.2, if_neg t2.1, if_neg t2.2]
  · have h1 : ¬ (st.source = none ∧ st.sourceLen ≠ 0) := by
      rintro ⟨a, b⟩
      rcases h.source.2 with c | ⟨r, c⟩
      · omega
      · rw [a] at c; cases c
    have h2 := h.tokenBufLen
    have h3 := h.lang_pos
    have h4 := h.lang_lt
    have h5 : ¬ (st.lang = Lang.none ∨ st.lang > langCount) := by
      simp only [Lang.none, langCount]; omega
    unfold checkTokensState
    simp only
    rw [if_neg h1, if_neg (by simp [h.tokenBuf]), if_neg (by omega), if_neg (by simp), if_neg h5]

theorem sourceToTokens_run {disp : Dispatch} {debug : Bool} {st : State} {src : Bytes}
    {h : Highlight} {good : Bool} {es : List Emit} (hr : TokensReady st src)
    (hh : highlighterOf disp st.lang = some h)
    (hrun : h debug (toOptions st.flags) src = .ok (good, es)) :
    ∃ bs, sourceToTokens disp debug st = .ok (if good then .ok else .badCode, bs, st) ∧
      Batches st.tokenBufLen (glueAll (toOptions st.flags).coalescing es) bs := by
  obtain ⟨bs, _, h2, h3⟩ := tokensCore_run (disp := disp) (debug := debug) hr.check
    (readMem_of_points hr.source) hh hrun
  exact ⟨bs, by simp [sourceToTokens, h2, hr.flushTokens], h3⟩

/-! ## A small instance, used to show that the theorems are not vacuous -/

/-- A highlighter that marks the second and third byte. -/
def toyHighlight : Highlight := fun _ _ _ =>
  .ok (true, [⟨1, 1, .symbol_op, .normal⟩, ⟨2, 1, .symbol_op, .normal⟩])

def toyDisp : Dispatch := fun l => if l = Lang.cpp then some toyHighlight else none

def toyState : State :=
  (((((State.init.setSource b!"a<<&").setLang Lang.cpp).setTokenBuffer 7).onFlushTokens 0).setTextBuffer
    5).onFlushText 0

theorem toy_html_ready : HtmlReady toyState b!"a<<&" b!"h-" b!"data-h" := by
  constructor <;> first | decide | exact ⟨rfl, Or.inr ⟨[], rfl⟩⟩

theorem toy_runs (debug : Bool) (o : Opts) : Runs toyHighlight debug o b!"a<<&" true
    [⟨1, 1, .symbol_op, .normal⟩, ⟨2, 1, .symbol_op, .normal⟩] :=
  ⟨rfl, by simp [WellFormed, WellFormedFrom, Emit.token]⟩

/-! ## C01, C02, C03: HTML -/

/-- C02 (exact form): the concatenated output of `ulight_source_to_html` is the rendering of some
token stream `ts`: escaped text between tokens, one element per token, the source text escaped.
`ts` is the token stream that `ulight_source_to_tokens` delivers for the same state. -/
theorem C02_html_is_rendering (disp : Dispatch) (debug : Bool) (st : State) (src tag attr : Bytes)
    (h : Highlight) (es : List Emit) (hr : HtmlReady st src tag attr)
    (hh : highlighterOf disp st.lang = some h)
    (hrun : Runs h debug (toOptions st.flags) src true es) :
    ∃ chunks st' ts, sourceToHtml disp debug st = .ok (.ok, chunks, st') ∧
      chunks.flatten = render tag attr src 0 ts ∧ WellFormed src.length ts ∧
      ∃ batches st'', sourceToTokens disp debug { st with flushTokens := .user } =
        .ok (.ok, batches, st'') ∧ batches.flatten = ts := by
  obtain ⟨bs, h1, h2⟩ := sourceToHtml_run hr.check.1 hr.check.2 (readMem_of_points hr.source)
    ⟨readMem_of_points hr.tagPtr, readMem_of_points hr.attrPtr⟩ hh hrun
  have ht : TokensReady { st with flushTokens := .user } src :=
    ⟨hr.source, hr.lang_pos, hr.lang_lt, hr.tokenBuf, hr.tokenBufLen, rfl⟩
  obtain ⟨bs', e2, e3⟩ := sourceToTokens_run (disp := disp) (debug := debug) ht hh hrun.run
  exact ⟨bs, _, _, h1, h2.1, glueAll_wellFormed hrun.wf, bs', _, e2, e3.1⟩

example : (sourceToHtml toyDisp true toyState).toOption.map (fun r => (r.1, r.2.1.flatten)) =
    some (.ok, b!"a<h- data-h=sym_op>&lt;</h-><h- data-h=sym_op>&lt;</h->&amp;") := by
  decide +kernel

/-- C01: stripping the tags from the concatenated output and decoding the entities gives back the
source (tag and attribute names are chosen by the user and must not contain `>`). -/
theorem C01_html_preserves_source (disp : Dispatch) (debug : Bool) (st : State)
    (src tag attr : Bytes) (h : Highlight) (es : List Emit) (hr : HtmlReady st src tag attr)
    (htag : c!">" ∉ tag) (hattr : c!">" ∉ attr) (hh : highlighterOf disp st.lang = some h)
    (hrun : Runs h debug (toOptions st.flags) src true es) :
    ∃ chunks st', sourceToHtml disp debug st = .ok (.ok, chunks, st') ∧
      Spec.decode chunks.flatten = some src := by
  obtain ⟨bs, st', ts, h1, h2, h3, _⟩ := C02_html_is_rendering disp debug st src tag attr h es hr hh hrun
  refine ⟨bs, st', h1, ?_⟩
  rw [h2, decode_render htag hattr (fun t => (shortString_legal t).1) ts 0 h3]
  rfl

example : ∃ chunks st', sourceToHtml toyDisp true toyState = .ok (.ok, chunks, st') ∧
    Spec.decode chunks.flatten = some b!"a<<&" :=
  C01_html_preserves_source toyDisp true toyState _ _ _ toyHighlight _ toy_html_ready (by decide)
    (by decide) rfl (toy_runs true _)

/-- C02: the output is a sequence of escaped text runs and unnested elements with the given tag and
attribute name, whose attribute values are legal without quotes. -/
theorem C02_html_well_formed (disp : Dispatch) (debug : Bool) (st : State)
    (src tag attr : Bytes) (h : Highlight) (es : List Emit) (hr : HtmlReady st src tag attr)
    (hh : highlighterOf disp st.lang = some h)
    (hrun : Runs h debug (toOptions st.flags) src true es) :
    ∃ chunks st', sourceToHtml disp debug st = .ok (.ok, chunks, st') ∧
      IsHtml tag attr chunks.flatten := by
  obtain ⟨bs, st', ts, h1, h2, h3, _⟩ := C02_html_is_rendering disp debug st src tag attr h es hr hh hrun
  refine ⟨bs, st', h1, ?_⟩
  rw [h2]
  exact isHtml_render (fun t => (shortString_legal t).2) ts 0 h3

example : ∃ chunks st', sourceToHtml toyDisp true toyState = .ok (.ok, chunks, st') ∧
    IsHtml b!"h-" b!"data-h" chunks.flatten :=
  C02_html_well_formed toyDisp true toyState _ _ _ toyHighlight _ toy_html_ready rfl (toy_runs true _)

/-- C03: changing the capacity of the text buffer to any other non-zero value does not change the
concatenated output; every chunk is non-empty and fits, and all but the last one are full. -/
theorem C03_text_capacity_unobservable (disp : Dispatch) (debug : Bool) (st : State)
    (src tag attr : Bytes) (h : Highlight) (es : List Emit) (hr : HtmlReady st src tag attr)
    (hh : highlighterOf disp st.lang = some h)
    (hrun : Runs h debug (toOptions st.flags) src true es) (cap : Nat) (hcap : 0 < cap) :
    ∃ chunks chunks' st' st'', sourceToHtml disp debug st = .ok (.ok, chunks, st') ∧
      sourceToHtml disp debug { st with textBufLen := cap } = .ok (.ok, chunks', st'') ∧
      chunks'.flatten = chunks.flatten ∧
      (∀ c ∈ chunks', 0 < c.length ∧ c.length ≤ cap) ∧
      ∀ c ∈ chunks'.dropLast, c.length = cap := by
  have hr' : HtmlReady { st with textBufLen := cap } src tag attr :=
    { hr with textBufLen := hcap }
  obtain ⟨bs, h1, h2⟩ := sourceToHtml_run hr.check.1 hr.check.2 (readMem_of_points hr.source)
    ⟨readMem_of_points hr.tagPtr, readMem_of_points hr.attrPtr⟩ hh hrun
  obtain ⟨bs', h1', h2'⟩ := sourceToHtml_run hr'.check.1 hr'.check.2 (readMem_of_points hr'.source)
    ⟨readMem_of_points hr'.tagPtr, readMem_of_points hr'.attrPtr⟩ hh hrun
  exact ⟨bs, bs', _, _, h1, h1', by rw [h2'.1, h2.1], h2'.2.1, h2'.2.2⟩

example : ∃ chunks chunks' st' st'', sourceToHtml toyDisp true toyState = .ok (.ok, chunks, st') ∧
    sourceToHtml toyDisp true { toyState with textBufLen := 1 } = .ok (.ok, chunks', st'') ∧
    chunks'.flatten = chunks.flatten ∧ (∀ c ∈ chunks', 0 < c.length ∧ c.length ≤ 1) ∧
    ∀ c ∈ chunks'.dropLast, c.length = 1 :=
  C03_text_capacity_unobservable toyDisp true toyState _ _ _ toyHighlight _ toy_html_ready rfl
    (toy_runs true _) 1 (by decide)

/-- An operation on a buffer: one `push_back` or one `append_range`. -/
inductive BufOp (α : Type) where
  | push (e : α)
  | append (es : List α)

/-- The elements that an operation adds. -/
def BufOp.content : BufOp α → List α
  | .push e => [e]
  | .append es => es

/-- Executing an operation. -/
def BufOp.run (b : Buf α) : BufOp α → Except Fault (Buf α)
  | .push e => b.push e
  | .append es => b.append es

/-- C03 for the buffer itself: any sequence of `push_back` and `append_range` calls on a fresh
buffer, followed by `flush`, delivers exactly the pushed elements, in full batches except for the
last one, and never stores more elements than the capacity. -/
theorem C03_buffer_ops (cap : Nat) (hcap : 0 < cap) (ops : List (BufOp α)) :
    ∃ b b', Buf.new cap = .ok b ∧ ops.foldlM BufOp.run b = .ok b' ∧
      Batches cap (ops.flatMap BufOp.content) b'.flush.flushed ∧ b'.data.length ≤ cap := by
  obtain ⟨b, h1, h2⟩ := Buf.holds_new (α := α) hcap
  suffices H : ∀ (ops : List (BufOp α)) (xs : List α) (b : Buf α), Buf.Holds cap xs b →
      ∃ b', ops.foldlM BufOp.run b = .ok b' ∧
        Buf.Holds cap (xs ++ ops.flatMap BufOp.content) b' by
    obtain ⟨b', h3, h4⟩ := H ops [] b h2
    obtain ⟨h5, _, h6, h7⟩ := h4.flush_batches hcap
    exact ⟨b, b', h1, h3, ⟨by rw [h5]; rfl, h6, h7⟩, h4.size_le⟩
  intro ops
  induction ops with
  | nil => intro xs b h; exact ⟨b, rfl, by simpa using h⟩
  | cons op ops ih =>
    intro xs b h
    have : ∃ b1, BufOp.run b op = .ok b1 ∧ Buf.Holds cap (xs ++ op.content) b1 := by
      cases op with
      | push e => exact h.push hcap e
      | append es => exact h.append hcap es
    obtain ⟨b1, h1, h2⟩ := this
    obtain ⟨b2, h3, h4⟩ := ih _ b1 h2
    refine ⟨b2, ?_, ?_⟩
    · simp only [List.foldlM_cons, h1, bind, Except.bind]
      exact h3
    · rw [List.flatMap_cons, ← List.append_assoc]; exact h4

example : ([BufOp.push 1, .append [2, 3, 4], .push 5].foldlM BufOp.run
    ({ cap := 2 } : Buf Nat)).toOption.map (fun b => b.flush.flushed) =
      some [[1, 2], [3, 4], [5]] := by
  decide +kernel

/-! ## C04, C05: tokens -/

/-- C04: `ulight_source_to_tokens` passes to the callback, in batches that are non-empty, fit into
the token buffer and are full except for the last one, exactly the emissions of the highlighter, in
order, glued together only where a token directly continues the previous one with the same type
and gluing is enabled (by the flag, or forced by the highlighter).  The status is `OK` if the
highlighter accepts and `BAD_CODE` otherwise. -/
theorem C04_delivery_lossless (disp : Dispatch) (debug : Bool) (st : State) (src : Bytes)
    (h : Highlight) (good : Bool) (es : List Emit) (hr : TokensReady st src)
    (hh : highlighterOf disp st.lang = some h)
    (hrun : h debug (toOptions st.flags) src = .ok (good, es)) :
    ∃ batches ts, sourceToTokens disp debug st = .ok (if good then .ok else .badCode, batches, st) ∧
      Batches st.tokenBufLen ts batches ∧
      Glued (fun e => e.mode = .forced || (e.mode = .normal && st.flags &&& 1 != 0)) es ts := by
  obtain ⟨bs, _, h2, h3⟩ := tokensCore_run (disp := disp) (debug := debug) hr.check
    (readMem_of_points hr.source) hh hrun
  refine ⟨bs, _, ?_, h3, ?_⟩
  · simp [sourceToTokens, h2, hr.flushTokens]
  · have : (fun e : Emit => (e.mode = .forced || (e.mode = .normal && st.flags &&& 1 != 0) : Bool)) =
        Emit.mayMerge (toOptions st.flags).coalescing := by
      funext e
      unfold Emit.mayMerge toOptions
      cases e.mode <;> simp
    rw [this]
    exact glueAll_glued _ es

/-- C04, without coalescing: if the flag is off and the highlighter never forces coalescing, the
delivered tokens are exactly the emissions. -/
theorem C04_delivery_exact (disp : Dispatch) (debug : Bool) (st : State) (src : Bytes)
    (h : Highlight) (good : Bool) (es : List Emit) (hr : TokensReady st src)
    (hh : highlighterOf disp st.lang = some h)
    (hrun : h debug (toOptions st.flags) src = .ok (good, es))
    (hflag : st.flags &&& 1 = 0) (hforce : ∀ e ∈ es, e.mode ≠ .forced) :
    ∃ batches, sourceToTokens disp debug st = .ok (if good then .ok else .badCode, batches, st) ∧
      Batches st.tokenBufLen (es.map fun e => ⟨e.beg, e.len, e.ty⟩) batches := by
  obtain ⟨bs, _, h2, h3⟩ := tokensCore_run (disp := disp) (debug := debug) hr.check
    (readMem_of_points hr.source) hh hrun
  refine ⟨bs, by simp [sourceToTokens, h2, hr.flushTokens], ?_⟩
  have : (toOptions st.flags).coalescing = false := by simp [toOptions, hflag]
  rw [this, glueAll_eq_map es hforce] at h3
  exact h3

theorem toy_tokens_ready : TokensReady toyState b!"a<<&" := by
  constructor <;> first | decide | exact ⟨rfl, Or.inr ⟨[], rfl⟩⟩

example : sourceToTokens toyDisp true { toyState with tokenBufLen := 1 } =
    .ok (.ok, [[⟨1, 1, .symbol_op⟩], [⟨2, 1, .symbol_op⟩]], { toyState with tokenBufLen := 1 }) := by
  decide +kernel

/-- C05: turning `ULIGHT_COALESCE` on or off, or changing the token buffer length, does not change
the highlight type of any byte of the source: it is always that of the highlighter's own
emissions. -/
theorem C05_type_of_byte (disp : Dispatch) (debug : Bool) (st : State) (src : Bytes)
    (h : Highlight) (good : Bool) (es : List Emit) (hr : TokensReady st src)
    (hh : highlighterOf disp st.lang = some h)
    (hrun : h debug (toOptions st.flags) src = .ok (good, es)) :
    ∃ status batches st', sourceToTokens disp debug st = .ok (status, batches, st') ∧
      ∀ p, typeAt batches.flatten p = typeAt (es.map fun e => ⟨e.beg, e.len, e.ty⟩) p := by
  obtain ⟨bs, ts, h1, h2, h3⟩ := C04_delivery_lossless disp debug st src h good es hr hh hrun
  exact ⟨_, bs, _, h1, fun p => by rw [h2.1]; exact glued_typeAt h3 p⟩

example : sourceToTokens toyDisp true { toyState with flags := 1 } =
    .ok (.ok, [[⟨1, 2, .symbol_op⟩]], { toyState with flags := 1 }) ∧
    typeAt [⟨1, 2, .symbol_op⟩] 2 = some .symbol_op ∧ typeAt [⟨1, 2, .symbol_op⟩] 3 = none := by
  refine ⟨?_, ?_, ?_⟩ <;> decide +kernel

/-- C05: the delivered token stream (not only the types of bytes) is independent of the token
buffer length. -/
theorem C05_capacity_independent (disp : Dispatch) (debug : Bool) (st : State) (src : Bytes)
    (h : Highlight) (good : Bool) (es : List Emit) (hr : TokensReady st src)
    (hh : highlighterOf disp st.lang = some h)
    (hrun : h debug (toOptions st.flags) src = .ok (good, es)) (cap : Nat) (hcap : 0 < cap) :
    ∃ status batches batches' st' st'', sourceToTokens disp debug st = .ok (status, batches, st') ∧
      sourceToTokens disp debug { st with tokenBufLen := cap } = .ok (status, batches', st'') ∧
      batches'.flatten = batches.flatten := by
  have hr' : TokensReady { st with tokenBufLen := cap } src := { hr with tokenBufLen := hcap }
  obtain ⟨bs, h2, h3⟩ := sourceToTokens_run (disp := disp) (debug := debug) hr hh hrun
  obtain ⟨bs', h2', h3'⟩ := sourceToTokens_run (disp := disp) (debug := debug) hr' hh hrun
  exact ⟨_, bs, bs', _, _, h2, h2', by rw [h3.1, h3'.1]⟩

example : ∃ status batches batches' st' st'', sourceToTokens toyDisp true toyState =
    .ok (status, batches, st') ∧ sourceToTokens toyDisp true { toyState with tokenBufLen := 1 } =
      .ok (status, batches', st'') ∧ batches'.flatten = batches.flatten :=
  C05_capacity_independent toyDisp true toyState _ toyHighlight true _
    (by constructor <;> first | decide | exact ⟨rfl, Or.inr ⟨[], rfl⟩⟩) rfl (toy_runs true _).run 1
    (by decide)

/-- C05: with `ULIGHT_COALESCE`, no two neighbouring tokens of the same type touch (provided that
the highlighter does not embed another language, whose tokens are appended as they are). -/
theorem C05_coalesced_maximally (disp : Dispatch) (debug : Bool) (st : State) (src : Bytes)
    (h : Highlight) (good : Bool) (es : List Emit) (hr : TokensReady st src)
    (hh : highlighterOf disp st.lang = some h)
    (hrun : h debug (toOptions st.flags) src = .ok (good, es))
    (hflag : st.flags &&& 1 ≠ 0) (hraw : ∀ e ∈ es, e.mode ≠ .raw) :
    ∃ status batches st', sourceToTokens disp debug st = .ok (status, batches, st') ∧
      NoTouching batches.flatten := by
  obtain ⟨bs, h2, h3⟩ := sourceToTokens_run (disp := disp) (debug := debug) hr hh hrun
  refine ⟨_, bs, _, h2, ?_⟩
  have : (toOptions st.flags).coalescing = true := by
    unfold toOptions; simpa only [bne_iff_ne] using hflag
  rw [h3.1, this]
  exact glueAll_noTouching es hraw

example : ∃ status batches st', sourceToTokens toyDisp true { toyState with flags := 3 } =
    .ok (status, batches, st') ∧ NoTouching batches.flatten := by
  refine C05_coalesced_maximally toyDisp true _ b!"a<<&" toyHighlight true _ ?_ rfl rfl (by decide)
    (by decide)
  constructor <;> first | decide | exact ⟨rfl, Or.inr ⟨[], rfl⟩⟩

/-! ## C08: status codes -/

/-- C08: `ulight_source_to_tokens` returns `BAD_STATE` for a null source of non-zero length; then
`BAD_BUFFER` for a missing token buffer or callback; then `BAD_LANG` for language zero or a number
above `ULIGHT_LANG_COUNT`.  In these cases it calls no callback and changes nothing but the error
message, which is set. -/
theorem C08_tokens_rejects (disp : Dispatch) (debug : Bool) (st : State) (status : Status)
    (h : (st.source = none ∧ st.sourceLen ≠ 0 ∧ status = .badState) ∨
      (¬ (st.source = none ∧ st.sourceLen ≠ 0) ∧
        (st.tokenBuf = false ∨ st.tokenBufLen = 0 ∨ st.flushTokens = .null) ∧
        status = .badBuffer) ∨
      (¬ (st.source = none ∧ st.sourceLen ≠ 0) ∧
        ¬ (st.tokenBuf = false ∨ st.tokenBufLen = 0 ∨ st.flushTokens = .null) ∧
        (st.lang = 0 ∨ st.lang > 26) ∧ status = .badLang)) :
    ∃ msg, msg ≠ [] ∧ sourceToTokens disp debug st =
      .ok (status, [], { st with error := some msg, errorLen := msg.length }) := by
  have key : ∃ msg, msg ≠ [] ∧ checkTokensState st = some (status, msg) := by
    unfold checkTokensState
    rcases h with ⟨h1, h2, rfl⟩ | ⟨h1, h2, rfl⟩ | ⟨h1, h2, h3, rfl⟩
    · rw [if_pos ⟨h1, h2⟩]; exact ⟨_, by decide, rfl⟩
    · rw [if_neg h1]
      by_cases a : st.tokenBuf = false
      · rw [if_pos a]; exact ⟨_, by decide, rfl⟩
      · rw [if_neg a]
        by_cases b : st.tokenBufLen = 0
        · rw [if_pos b]; exact ⟨_, by decide, rfl⟩
        · rw [if_neg b]
          have c : st.flushTokens = .null := by grind
          rw [if_pos c]; exact ⟨_, by decide, rfl⟩
    · rw [if_neg h1, if_neg (by grind), if_neg (by grind), if_neg (by grind)]
      have : st.lang = Lang.none ∨ st.lang > langCount := h3
      rw [if_pos this]; exact ⟨_, by decide, rfl⟩
  obtain ⟨msg, h1, h2⟩ := key
  exact ⟨msg, h1, by simp [sourceToTokens, tokensCore, h2, State.setError]⟩

example : sourceToTokens toyDisp true State.init =
    .ok (.badBuffer, [], { State.init with error := some b!"token_buffer must not be null.", errorLen := 30 }) := by
  decide +kernel

/-- C08: conversely, in a state that is ready (a usable source, a real language, a token buffer and a
user callback) the call does not return one of these codes: if the highlighter runs without fault
the status is `OK` or `BAD_CODE` as the highlighter decides. -/
theorem C08_tokens_accepts (disp : Dispatch) (debug : Bool) (st : State) (src : Bytes)
    (h : Highlight) (good : Bool) (es : List Emit) (hr : TokensReady st src)
    (hh : highlighterOf disp st.lang = some h)
    (hrun : h debug (toOptions st.flags) src = .ok (good, es)) :
    ∃ batches, sourceToTokens disp debug st =
      .ok (if good then .ok else .badCode, batches, st) := by
  obtain ⟨bs, ts, h1, _, _⟩ := C04_delivery_lossless disp debug st src h good es hr hh hrun
  exact ⟨bs, h1⟩

/-- C08, disproved for one language number: `ULIGHT_LANG_COUNT` itself (26) is not a language, but
the check lets it pass (`>` instead of `>=`, ulight.cpp:414) and an assertion fails instead of
`BAD_LANG` being returned. -/
theorem C08_lang_count_asserts (disp : Dispatch) (debug : Bool) (st : State) (src : Bytes)
    (hsrc : Points st.source st.sourceLen src) (hb : st.tokenBuf = true) (hl : 0 < st.tokenBufLen)
    (hf : st.flushTokens = .user) (hlang : st.lang = 26) :
    sourceToTokens disp debug st = .error .assert := by
  have h1 : ¬ (st.source = none ∧ st.sourceLen ≠ 0) := by
    rintro ⟨a, b⟩
    rcases hsrc.2 with c | ⟨r, c⟩
    · omega
    · rw [a] at c; cases c
  have hc : checkTokensState st = none := by
    unfold checkTokensState
    rw [if_neg h1, if_neg (by simp [hb]), if_neg (by omega), if_neg (by simp [hf]),
      if_neg (by rw [hlang]; decide)]
  simp [sourceToTokens, tokensCore, hc, readMem_of_points hsrc, highlighterOf, hlang, langCount]

example : sourceToTokens toyDisp true (toyState.setLang 26) = .error .assert := by decide +kernel

/-- C08 for HTML: `BAD_BUFFER` for an inconsistent token buffer, a missing text buffer or text
callback, then `BAD_STATE` for a missing tag or attribute name; no callback is called and only the
error message changes. -/
theorem C08_html_rejects (disp : Dispatch) (debug : Bool) (st : State) (status : Status)
    (h : (((st.tokenBuf = false ∧ st.tokenBufLen ≠ 0) ∨ st.textBuf = false ∨ st.textBufLen = 0 ∨
          st.flushText = false) ∧ status = .badBuffer) ∨
      (¬ ((st.tokenBuf = false ∧ st.tokenBufLen ≠ 0) ∨ st.textBuf = false ∨ st.textBufLen = 0 ∨
          st.flushText = false) ∧
        (st.htmlTag = none ∨ st.htmlTagLen = 0 ∨ st.htmlAttr = none ∨ st.htmlAttrLen = 0) ∧
        status = .badState)) :
    ∃ msg, msg ≠ [] ∧ sourceToHtml disp debug st =
      .ok (status, [], { st with error := some msg, errorLen := msg.length }) := by
  have key : ∃ msg, msg ≠ [] ∧ checkHtmlState st = some (status, msg) := by
    unfold checkHtmlState
    rcases h with ⟨h1, rfl⟩ | ⟨h1, h2, rfl⟩
    · split
      · exact ⟨_, by decide, rfl⟩
      · split
        · exact ⟨_, by decide, rfl⟩
        · split
          · exact ⟨_, by decide, rfl⟩
          · rw [if_pos (by grind)]; exact ⟨_, by decide, rfl⟩
    · rw [if_neg (by grind), if_neg (by grind), if_neg (by grind), if_neg (by grind)]
      split
      · exact ⟨_, by decide, rfl⟩
      · split
        · exact ⟨_, by decide, rfl⟩
        · split
          · exact ⟨_, by decide, rfl⟩
          · rw [if_pos (by grind)]; exact ⟨_, by decide, rfl⟩
  obtain ⟨msg, h1, h2⟩ := key
  exact ⟨msg, h1, by simp [sourceToHtml, h2, State.setError]⟩

example : sourceToHtml toyDisp true { toyState with htmlTagLen := 0 } =
    .ok (.badState, [], { toyState with
      htmlTagLen := 0, error := some b!"html_tag_name_length must be nonzero.", errorLen := 37 }) := by
  decide +kernel

/-- C08 for HTML: if its own checks pass, the remaining invalid states are reported as by
`ulight_source_to_tokens` (with the callback check out of the way, since the callback is set
internally), again before any text is flushed. -/
theorem C08_html_rejects_inner (disp : Dispatch) (debug : Bool) (st : State) (status : Status)
    (h : ¬ ((st.tokenBuf = false ∧ st.tokenBufLen ≠ 0) ∨ st.textBuf = false ∨ st.textBufLen = 0 ∨
        st.flushText = false ∨ st.htmlTag = none ∨ st.htmlTagLen = 0 ∨ st.htmlAttr = none ∨
        st.htmlAttrLen = 0))
    (h' : (st.source = none ∧ st.sourceLen ≠ 0 ∧ status = .badState) ∨
      (¬ (st.source = none ∧ st.sourceLen ≠ 0) ∧
        (st.tokenBuf = false ∨ st.tokenBufLen = 0) ∧ status = .badBuffer) ∨
      (¬ (st.source = none ∧ st.sourceLen ≠ 0) ∧ ¬ (st.tokenBuf = false ∨ st.tokenBufLen = 0) ∧
        (st.lang = 0 ∨ st.lang > 26) ∧ status = .badLang)) :
    ∃ msg, msg ≠ [] ∧ sourceToHtml disp debug st = .ok (status, [],
      { st with flushTokens := .ended, error := some msg, errorLen := msg.length }) := by
  obtain ⟨msg, h1, h2⟩ := C08_tokens_rejects disp debug { st with flushTokens := .ended } status (by
    rcases h' with h' | h' | h'
    · exact Or.inl h'
    · refine Or.inr (Or.inl ⟨h'.1, ?_, h'.2.2⟩); grind
    · refine Or.inr (Or.inr ⟨h'.1, ?_, h'.2.2⟩); simp only [reduceCtorEq, or_false]; exact h'.2.1)
  have hc : checkHtmlState st = none := by
    unfold checkHtmlState
    simp only [not_or] at h
    rw [if_neg h.1, if_neg h.2.1, if_neg h.2.2.1, if_neg h.2.2.2.1, if_neg h.2.2.2.2.1,
      if_neg h.2.2.2.2.2.1, if_neg h.2.2.2.2.2.2.1, if_neg h.2.2.2.2.2.2.2]
  have hcap : 0 < st.textBufLen := by grind
  obtain ⟨b, hb, hb'⟩ := Buf.holds_new (α := UInt8) hcap
  have hne : status ≠ .ok := by
    rintro rfl; rcases h' with ⟨_, _, h⟩ | ⟨_, _, h⟩ | ⟨_, _, _, h⟩ <;> cases h
  have ht : tokensCore disp debug { st with flushTokens := .ended } = .ok (status, [],
      { st with flushTokens := .ended, error := some msg, errorLen := msg.length }) := by
    unfold sourceToTokens at h2
    split at h2
    · cases h2
    · rename_i heq
      rw [heq]
      split at h2
      · cases h2
      · exact h2
  have hfl : b.flushed = [] := by
    unfold Buf.new at hb
    split at hb <;> cases hb
    rfl
  refine ⟨msg, h1, ?_⟩
  simp [sourceToHtml, hc, hb, ht, bind, Except.bind, pure, Except.pure, htmlBatches, hne, hfl]

example : ∃ msg, msg ≠ [] ∧ sourceToHtml toyDisp true (toyState.setLang 0) =
    .ok (.badLang, [], { toyState.setLang 0 with
      flushTokens := .ended, error := some msg, errorLen := msg.length }) :=
  C08_html_rejects_inner toyDisp true (toyState.setLang 0) .badLang (by decide)
    (Or.inr (Or.inr (by decide)))

/-- C08, histories: after `ulight_source_to_html` the callback pointer refers to an object that no
longer exists, so a following `ulight_source_to_tokens` on the same state is undefined behaviour as
soon as there is a token to deliver, unless the user installs a callback again. -/
theorem C08_html_leaves_dangling_callback (disp : Dispatch) (debug : Bool) (st : State)
    (src tag attr : Bytes) (h : Highlight) (good : Bool) (es : List Emit)
    (hr : HtmlReady st src tag attr) (hh : highlighterOf disp st.lang = some h)
    (hrun : Runs h debug (toOptions st.flags) src good es) (hes : es ≠ []) :
    ∃ status chunks st', sourceToHtml disp debug st = .ok (status, chunks, st') ∧
      sourceToTokens disp debug st' = .error .dangling ∧
      ∃ batches, sourceToTokens disp debug (st'.onFlushTokens 0) =
        .ok (status, batches, st'.onFlushTokens 0) := by
  obtain ⟨bs, h1, h2⟩ := sourceToHtml_run hr.check.1 hr.check.2 (readMem_of_points hr.source)
    ⟨readMem_of_points hr.tagPtr, readMem_of_points hr.attrPtr⟩ hh hrun
  obtain ⟨bs', _, e2, e3⟩ := tokensCore_run (disp := disp) (debug := debug)
    (st := { st with flushTokens := .ended }) hr.check.2 (readMem_of_points hr.source) hh hrun.run
  refine ⟨_, bs, _, h1, ?_, ?_⟩
  · have : bs' ≠ [] := by
      intro hb
      have h4 := e3.1
      rw [hb] at h4
      have h5 := glueAll_glued (toOptions st.flags).coalescing es
      rw [← h4] at h5
      generalize hx : ([] : List (List Token)).flatten = x at h5
      cases h5 with
      | nil => exact hes rfl
      | snoc => simp at hx
      | glue => simp at hx
    unfold sourceToTokens
    rw [e2]
    simp only
    rw [if_pos ⟨trivial, this⟩]
  · have hr2 : TokensReady (State.onFlushTokens { st with flushTokens := .ended } 0) src :=
      ⟨hr.source, hr.lang_pos, hr.lang_lt, hr.tokenBuf, hr.tokenBufLen, rfl⟩
    exact C08_tokens_accepts disp debug _ src h good es hr2 hh hrun.run

example : ∃ status chunks st', sourceToHtml toyDisp true toyState = .ok (status, chunks, st') ∧
    sourceToTokens toyDisp true st' = .error .dangling ∧
    ∃ batches, sourceToTokens toyDisp true (st'.onFlushTokens 0) =
      .ok (status, batches, st'.onFlushTokens 0) :=
  C08_html_leaves_dangling_callback toyDisp true toyState _ _ _ toyHighlight true _ toy_html_ready
    rfl (toy_runs true _) (by decide)

/-! ## C32: setters -/

/-- C32: every setter except `set_html_attr_name` changes exactly the fields that it names (shown
by giving the whole resulting state), and the getters return what was set. -/
theorem C32_setters (st : State) (s : Bytes) (n : Nat) :
    (st.setSource s = { st with source := some s, sourceLen := s.length } ∧
      (st.setSource s).getSource = .ok s) ∧
    (st.setLang n = { st with lang := n } ∧ (st.setLang n).getLang = n) ∧
    (st.setFlags n = { st with flags := n } ∧ (st.setFlags n).getFlags = n) ∧
    st.setTokenBuffer n = { st with tokenBuf := true, tokenBufLen := n } ∧
    st.onFlushTokens n = { st with flushTokens := .user, flushTokensData := n } ∧
    (st.setHtmlTagName s = { st with htmlTag := some s, htmlTagLen := s.length } ∧
      readMem (st.setHtmlTagName s).htmlTag (st.setHtmlTagName s).htmlTagLen = .ok s) ∧
    st.setTextBuffer n = { st with textBuf := true, textBufLen := n } ∧
    st.onFlushText n = { st with flushText := true, flushTextData := n } := by
  simp [State.setSource, State.getSource, readMem, State.setLang, State.getLang, State.setFlags,
    State.getFlags, State.setTokenBuffer, State.onFlushTokens, State.setHtmlTagName,
    State.setTextBuffer, State.onFlushText]

/-- C32, disproved for `set_html_attr_name`: it overwrites the length of the *tag* name.  After
setting a longer attribute name on a fresh state, producing HTML reads past the tag name. -/
theorem C32_set_html_attr_name_reads_out_of_bounds :
    ∃ st : State, (∃ src tag attr, HtmlReady st src tag attr) ∧
      sourceToHtml toyDisp true (st.setHtmlAttrName b!"data-highlight") = .error .outOfBounds := by
  refine ⟨toyState, ⟨_, _, _, toy_html_ready⟩, ?_⟩
  decide +kernel

/-- C32, disproved for `set_html_attr_name`, in general: setting an attribute name of a different
length than the current tag name never yields a state in which both names are right. -/
theorem C32_set_html_attr_name_corrupts_tag (st : State) (tag name : Bytes) (hlen : name.length ≠ tag.length) :
    ∀ src', ¬ HtmlReady (st.setHtmlAttrName name) src' tag name := by
  intro src' h
  exact hlen h.tagPtr.1.symm

/-- C32, partial: `set_html_attr_name` works when the new attribute name has both the length of the
current attribute name and that of the current tag name. -/
theorem C32_set_html_attr_name_partial (st : State) (src tag attr name : Bytes)
    (hr : HtmlReady st src tag attr) (h1 : name.length = tag.length)
    (h2 : name.length = attr.length) : HtmlReady (st.setHtmlAttrName name) src tag name := by
  have t1 := hr.tagPtr
  have t2 := hr.attrPtr
  refine { hr with tagPtr := ?_, attrPtr := ?_, attr_ne := ?_ }
  · exact ⟨h1.symm, Or.inr (by
      rcases t1.2 with a | ⟨r, a⟩
      · exact absurd (List.length_eq_zero_iff.mp (t1.1.trans a.2)) hr.tag_ne
      · exact ⟨r, a⟩)⟩
  · exact ⟨h2.trans t2.1, Or.inr ⟨[], by simp [State.setHtmlAttrName]⟩⟩
  · intro hn
    subst hn
    exact hr.attr_ne (List.length_eq_zero_iff.mp h2.symm)

example : HtmlReady ((toyState.setHtmlTagName b!"abcdef").setHtmlAttrName b!"data-i") b!"a<<&"
    b!"abcdef" b!"data-i" :=
  C32_set_html_attr_name_partial _ _ _ b!"data-h" _
    (by constructor <;> first | decide | exact ⟨rfl, Or.inr ⟨[], rfl⟩⟩) rfl rfl

end Ulight
