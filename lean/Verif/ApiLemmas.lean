import Verif.HtmlLemmas

/-!
# Lemmas about the two entry points
-/

namespace Ulight
open Spec

/-- Highlighter `h`, run on `src`, returns `good` and makes the emissions `es`, which are
well formed. -/
structure Runs (h : Highlight) (debug : Bool) (opts : Opts) (src : Bytes) (good : Bool)
    (es : List Emit) : Prop where
  run : h debug opts src = .ok (good, es)
  wf : WellFormed src.length (es.map Emit.token)

theorem tokensCore_run {disp : Dispatch} {debug : Bool} {st : State} {src : Bytes} {h : Highlight}
    {good : Bool} {es : List Emit} (hc : checkTokensState st = none)
    (hsrc : readMem st.source st.sourceLen = .ok src) (hh : highlighterOf disp st.lang = some h)
    (hrun : h debug (toOptions st.flags) src = .ok (good, es)) :
    ∃ bs, deliver (toOptions st.flags).coalescing st.tokenBufLen es = .ok bs ∧
      tokensCore disp debug st = .ok (if good then .ok else .badCode, bs, st) ∧
      Batches st.tokenBufLen (glueAll (toOptions st.flags).coalescing es) bs := by
  have hcap : 0 < st.tokenBufLen := by
    unfold checkTokensState at hc
    repeat' split at hc <;> first | cases hc | skip
    omega
  obtain ⟨bs, h1, h2⟩ := deliver_spec (toOptions st.flags).coalescing st.tokenBufLen hcap es
  refine ⟨bs, h1, ?_, h2⟩
  simp [tokensCore, hc, hsrc, hh, hrun, h1]

theorem readMem_length {p : Option Bytes} {n : Nat} {s : Bytes} (h : readMem p n = .ok s) :
    s.length = n := by
  unfold readMem at h
  split at h
  · split at h
    · cases h; simp; omega
    · cases h
  · split at h
    · cases h; simp_all
    · cases h

theorem sourceToHtml_run {disp : Dispatch} {debug : Bool} {st : State} {src tag attr : Bytes}
    {h : Highlight} {good : Bool} {es : List Emit} (hc : checkHtmlState st = none)
    (hc' : checkTokensState { st with flushTokens := .ended } = none)
    (hsrc : readMem st.source st.sourceLen = .ok src) (hn : NamesOk st tag attr)
    (hh : highlighterOf disp st.lang = some h)
    (hrun : Runs h debug (toOptions st.flags) src good es) :
    let ts := glueAll (toOptions st.flags).coalescing es
    ∃ bs, sourceToHtml disp debug st =
        .ok (if good then .ok else .badCode, bs, { st with flushTokens := .ended }) ∧
      if good then Batches st.textBufLen (render tag attr src 0 ts) bs
      else ∃ rest, bs.flatten ++ rest = renderToks tag attr src 0 ts ∧
        ∀ b ∈ bs, b.length = st.textBufLen := by
  intro ts
  have hcap : 0 < st.textBufLen := by
    unfold checkHtmlState at hc
    repeat' split at hc <;> first | cases hc | skip
    omega
  obtain ⟨bs, h1, h2, h3⟩ := tokensCore_run (disp := disp) (debug := debug) hc' hsrc hh hrun.run
  obtain ⟨o, ho, hho⟩ := Buf.holds_new (α := UInt8) hcap
  have hwf : WellFormedFrom src.length 0 bs.flatten := by
    rw [h3.1]; exact glueAll_wellFormed hrun.wf
  obtain ⟨o1, e1, f1⟩ := htmlBatches_holds hcap debug hn bs _ o 0 hho hwf
  have hhb : htmlBatches debug st bs o = .ok (lastEnd 0 bs.flatten, o1) := by
    unfold htmlBatches
    split
    · rename_i hb
      subst hb
      simp only [List.foldlM_nil, pure, Except.pure] at e1
      cases e1
      rfl
    · rw [hsrc]; exact e1
  have hlen := readMem_length hsrc
  have hle := lastEnd_le hwf (Nat.zero_le _)
  cases good with
  | false =>
    refine ⟨o1.flushed, ?_, ?_⟩
    · simp [sourceToHtml, hc, bind, Except.bind, pure, Except.pure, ho, h2, hhb]
    · refine ⟨o1.data, ?_, f1.full_batches⟩
      rw [f1.content, h3.1]; simp [ts]
  | true =>
    have htail : ∃ o2, htmlTail st (lastEnd 0 bs.flatten) o1 = .ok o2 ∧
        Buf.Holds st.textBufLen (render tag attr src 0 ts) o2 := by
      rw [render_eq]
      unfold htmlTail
      rw [h3.1] at *
      split
      · rw [hsrc]
        obtain ⟨o2, e2, f2⟩ := htmlEscaped_holds hcap
          (text := src.drop (lastEnd 0 ts)) f1
        exact ⟨o2, e2, by simpa using f2⟩
      · rename_i he
        refine ⟨o1, rfl, ?_⟩
        have : src.drop (lastEnd 0 ts) = [] := by
          apply List.drop_eq_nil_of_le
          have := Classical.not_not.mp he
          show _ ≤ lastEnd 0 ts
          rw [hlen]
          exact Nat.le_of_eq this.symm
        rw [this]
        simpa [escape] using f1
    obtain ⟨o2, e2, f2⟩ := htail
    obtain ⟨g1, _, g2, g3⟩ := f2.flush_batches hcap
    refine ⟨o2.flush.flushed, ?_, g1, g2, g3⟩
    have : lastEnd 0 bs.flatten ≤ st.sourceLen := by omega
    simp [sourceToHtml, hc, bind, Except.bind, pure, Except.pure, ho, h2, hhb, assertThat, this, e2]

end Ulight
