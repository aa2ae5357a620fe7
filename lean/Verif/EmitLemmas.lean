import Verif.Spec.Tokens

/-!
# Lemmas about replaying emissions
-/

namespace Ulight
open Spec

theorem dropLast_snoc {α : Type} {l : List α} {a : α} (h : l.getLast? = some a) :
    l.dropLast ++ [a] = l := by
  have hne : l ≠ [] := by intro hn; simp [hn] at h
  have := List.getLast?_eq_some_getLast hne
  rw [this] at h
  cases h
  exact List.dropLast_concat_getLast hne

/-- One emission on the level of the token sequence, without buffers. -/
def emitSeq (coal : Bool) (ts : List Token) (e : Emit) : List Token :=
  match ts.getLast? with
  | some t => if e.mayMerge coal && touches t e then ts.dropLast ++ [t.extend e] else ts ++ [e.token]
  | none => ts ++ [e.token]

/-- All emissions, without buffers. -/
def glueAll (coal : Bool) (es : List Emit) : List Token := es.foldl (emitSeq coal) []

theorem Buf.Holds.getLast? {cap : Nat} {ts : List Token} {b : Buf Token} (h : Buf.Holds cap ts b) :
    b.data.getLast? = ts.getLast? := by
  have hc := h.content
  rw [← hc]
  by_cases hd : b.data = []
  · have hf : b.flushed = [] := by
      cases hfl : b.flushed with
      | nil => rfl
      | cons a t => exact absurd hd (h.nonempty (by simp [hfl]))
    simp [hd, hf]
  · have : b.data.getLast? = some (b.data.getLast hd) := List.getLast?_eq_some_getLast hd
    simp [List.getLast?_append, this]

theorem Buf.Holds.emit {cap : Nat} {ts : List Token} {b : Buf Token} (hc : 0 < cap) (coal : Bool)
    (h : Buf.Holds cap ts b) (e : Emit) :
    ∃ b', b.emit coal e = .ok b' ∧ Buf.Holds cap (emitSeq coal ts e) b' := by
  unfold Buf.emit emitSeq
  rw [h.getLast?]
  generalize hg : ts.getLast? = g
  cases g with
  | some t =>
    have ht := hg
    simp only
    split
    · refine ⟨_, rfl, ?_⟩
      have hd : b.data ≠ [] := by
        intro hd
        have := h.getLast?
        rw [hd, ht] at this
        simp at this
      constructor
      · exact h.cap_eq
      · show _ ++ (_ ++ _) = _
        have : ts.dropLast = b.flushed.flatten ++ b.data.dropLast := by
          rw [← h.content, List.dropLast_append_of_ne_nil hd]
        rw [this, List.append_assoc]
      · exact h.full_batches
      · have := h.size_le
        have : b.data.length ≠ 0 := by simpa using hd
        simp; omega
      · simp
    · exact h.push hc _
  | none => exact h.push hc _

theorem replay_holds {cap : Nat} (hc : 0 < cap) (coal : Bool) : ∀ (es : List Emit)
    (ts : List Token) (b : Buf Token), Buf.Holds cap ts b →
    ∃ b', replay coal es b = .ok b' ∧ Buf.Holds cap (es.foldl (emitSeq coal) ts) b' := by
  intro es
  induction es with
  | nil => intro ts b h; exact ⟨b, rfl, h⟩
  | cons e es ih =>
    intro ts b h
    obtain ⟨b', h1, h2⟩ := h.emit hc coal e
    obtain ⟨b'', h3, h4⟩ := ih _ _ h2
    exact ⟨b'', by simp [replay, h1, h3], by simpa using h4⟩

/-- What the callback receives. -/
theorem deliver_spec (coal : Bool) (cap : Nat) (hc : 0 < cap) (es : List Emit) :
    ∃ bs, deliver coal cap es = .ok bs ∧ Batches cap (glueAll coal es) bs := by
  obtain ⟨b, h1, h2⟩ := Buf.holds_new (α := Token) hc
  obtain ⟨b', h3, h4⟩ := replay_holds hc coal es [] b h2
  obtain ⟨h5, _, h6, h7⟩ := h4.flush_batches hc
  exact ⟨b'.flush.flushed, by simp [deliver, h1, h3], h5, h6, h7⟩

/-! ## Properties of `glueAll` -/

theorem emitSeq_cases (coal : Bool) (ts : List Token) (e : Emit) :
    emitSeq coal ts e = ts ++ [e.token] ∨
    ∃ ts0 b l, ts = ts0 ++ [⟨b, l, e.ty⟩] ∧ b + l = e.beg ∧ e.mayMerge coal = true ∧
      emitSeq coal ts e = ts0 ++ [⟨b, l + e.len, e.ty⟩] := by
  unfold emitSeq
  split
  · rename_i t ht
    split
    · rename_i hm
      right
      simp only [touches, Bool.and_eq_true, beq_iff_eq] at hm
      refine ⟨ts.dropLast, t.beg, t.len, ?_, hm.2.2, hm.1, ?_⟩
      · rw [← hm.2.1]
        exact (dropLast_snoc ht).symm
      · simp [Token.extend, ← hm.2.1]
    · left; rfl
  · left; rfl

theorem snoc_induction {α : Type} {P : List α → Prop} (h0 : P []) (h1 : ∀ l a, P l → P (l ++ [a])) :
    ∀ l, P l := by
  intro l
  have : P l.reverse.reverse := by
    generalize l.reverse = r
    induction r with
    | nil => exact h0
    | cons a r ih => simpa using h1 _ a ih
  simpa using this

theorem glueAll_snoc (coal : Bool) (es : List Emit) (e : Emit) :
    glueAll coal (es ++ [e]) = emitSeq coal (glueAll coal es) e := by
  simp [glueAll]

theorem glueAll_glued (coal : Bool) (es : List Emit) :
    Glued (Emit.mayMerge coal) es (glueAll coal es) := by
  refine snoc_induction (P := fun es => Glued (Emit.mayMerge coal) es (glueAll coal es)) ?_ ?_ es
  · exact .nil
  · intro es e ih
    rw [glueAll_snoc]
    rcases emitSeq_cases coal (glueAll coal es) e with h | ⟨ts0, b, l, h1, h2, h3, h4⟩
    · rw [h]; exact .snoc e ih
    · rw [h4]; rw [h1] at ih; exact .glue e ih h2 h3

theorem typeAt_append (a b : List Token) (p : Nat) :
    typeAt (a ++ b) p = (typeAt a p).or (typeAt b p) := by
  induction a with
  | nil => simp [typeAt]
  | cons t a ih => simp only [List.cons_append, typeAt]; split <;> simp [ih]

theorem glued_typeAt {may : Emit → Bool} {es : List Emit} {ts : List Token} (h : Glued may es ts)
    (p : Nat) : typeAt ts p = typeAt (es.map Emit.token) p := by
  induction h with
  | nil => rfl
  | snoc e _ ih => simp [typeAt_append, ih, Emit.token]
  | @glue es ts b l e _ hb _ ih =>
    simp only [List.map_append, typeAt_append, ← ih, List.map_cons, List.map_nil, Emit.token]
    rw [Option.or_assoc]
    congr 1
    simp only [typeAt]
    by_cases h1 : Covers ⟨b, l, e.ty⟩ p
    · rw [if_pos h1, if_pos (by simp only [Covers] at *; omega)]; rfl
    · rw [if_neg h1]
      by_cases h2 : Covers ⟨e.beg, e.len, e.ty⟩ p
      · rw [if_pos h2, if_pos (by simp only [Covers] at *; omega)]; rfl
      · rw [if_neg h2, if_neg (by simp only [Covers] at *; omega)]; rfl

theorem noTouching_snoc {ts : List Token} {e : Token} (h : NoTouching ts)
    (hl : ∀ t, ts.getLast? = some t → ¬ (t.ty = e.ty ∧ t.beg + t.len = e.beg)) :
    NoTouching (ts ++ [e]) := by
  induction ts with
  | nil => simp [NoTouching]
  | cons a ts ih =>
    cases ts with
    | nil => simp only [List.cons_append, List.nil_append, NoTouching, and_true]; exact hl a rfl
    | cons b ts =>
      simp only [List.cons_append, NoTouching] at h ih ⊢
      exact ⟨h.1, ih h.2 (fun t ht => hl t (by simpa using ht))⟩

theorem noTouching_replace_last {ts : List Token} {b l l' : Nat} {ty : HT}
    (h : NoTouching (ts ++ [⟨b, l, ty⟩])) : NoTouching (ts ++ [⟨b, l', ty⟩]) := by
  induction ts with
  | nil => simp [NoTouching]
  | cons a ts ih =>
    cases ts with
    | nil => simpa only [List.cons_append, List.nil_append, NoTouching] using h
    | cons c ts =>
      simp only [List.cons_append, NoTouching] at h ih ⊢
      exact ⟨h.1, ih h.2⟩

theorem glueAll_noTouching (es : List Emit) (hr : ∀ e ∈ es, e.mode ≠ .raw) :
    NoTouching (glueAll true es) := by
  revert hr
  refine snoc_induction (P := fun es => (∀ e ∈ es, e.mode ≠ .raw) → NoTouching (glueAll true es))
    ?_ ?_ es
  · intro _; simp [glueAll, NoTouching]
  · intro es e ih hr
    have ih := ih (fun x hx => hr x (by simp [hx]))
    have hm : e.mayMerge true = true := by
      have := hr e (by simp)
      unfold Emit.mayMerge
      split <;> simp_all
    rw [glueAll_snoc]
    unfold emitSeq
    split
    · rename_i t ht
      split
      · rename_i h
        have h1 := dropLast_snoc ht
        rw [← h1] at ih
        exact noTouching_replace_last ih
      · rename_i h
        apply noTouching_snoc ih
        intro t' ht'
        rw [ht] at ht'
        cases ht'
        simpa [hm, touches, Emit.token] using h
    · rename_i h
      apply noTouching_snoc ih
      intro t' ht'
      rw [h] at ht'
      cases ht'

theorem glueAll_eq_map (es : List Emit) (hr : ∀ e ∈ es, e.mode ≠ .forced) :
    glueAll false es = es.map Emit.token := by
  revert hr
  refine snoc_induction (P := fun es => (∀ e ∈ es, e.mode ≠ .forced) →
    glueAll false es = es.map Emit.token) ?_ ?_ es
  · intro _; rfl
  · intro es e ih hr
    rw [glueAll_snoc, ih (fun x hx => hr x (by simp [hx]))]
    have hm : e.mayMerge false = false := by
      have := hr e (by simp)
      unfold Emit.mayMerge
      split <;> simp_all
    simp only [emitSeq, hm]
    split <;> simp

/-! ## Well-formedness -/

theorem wellFormedFrom_mono {n lo lo' : Nat} {ts : List Token} (h : WellFormedFrom n lo ts)
    (hl : lo' ≤ lo) : WellFormedFrom n lo' ts := by
  cases ts with
  | nil => trivial
  | cons t ts => exact ⟨Nat.le_trans hl h.1, h.2⟩

theorem wellFormedFrom_snoc {n lo : Nat} {ts : List Token} {e : Token} :
    WellFormedFrom n lo (ts ++ [e]) ↔ WellFormedFrom n lo ts ∧
      (match ts.getLast? with | some t => t.beg + t.len | none => lo) ≤ e.beg ∧ 0 < e.len ∧
      e.beg + e.len ≤ n ∧ e.ty ≠ .none := by
  induction ts generalizing lo with
  | nil => simp [WellFormedFrom]
  | cons t ts ih =>
    simp only [List.cons_append, WellFormedFrom, ih]
    cases ts with
    | nil => simp [WellFormedFrom]; grind
    | cons t' ts => simp [List.getLast?_cons]; grind

/-- The end of the last token (or `lo`). -/
def lastEnd (lo : Nat) (ts : List Token) : Nat :=
  match ts.getLast? with | some t => t.beg + t.len | none => lo

theorem glued_wellFormed {may : Emit → Bool} {n : Nat} {es : List Emit} {ts : List Token}
    (h : Glued may es ts) (hw : WellFormed n (es.map Emit.token)) :
    WellFormed n ts ∧ lastEnd 0 ts = lastEnd 0 (es.map Emit.token) := by
  induction h with
  | nil => exact ⟨hw, rfl⟩
  | snoc e _ ih =>
    simp only [WellFormed, List.map_append, List.map_cons, List.map_nil,
      wellFormedFrom_snoc] at hw ih ⊢
    obtain ⟨h1, h2⟩ := ih hw.1
    refine ⟨⟨h1, ?_⟩, by simp [lastEnd, Emit.token]⟩
    change lastEnd 0 _ ≤ _ ∧ _
    rw [h2]
    exact hw.2
  | @glue es ts b l e _ hb _ ih =>
    simp only [WellFormed, List.map_append, List.map_cons, List.map_nil,
      wellFormedFrom_snoc] at hw ih ⊢
    obtain ⟨h1, h2⟩ := ih hw.1
    refine ⟨⟨h1.1, ?_⟩, ?_⟩
    · have h3 := hw.2
      simp only [Emit.token] at h3
      exact ⟨h1.2.1, by omega, by omega, h3.2.2.2⟩
    · simp [lastEnd, Emit.token]; omega

theorem glueAll_wellFormed {coal : Bool} {n : Nat} {es : List Emit}
    (hw : WellFormed n (es.map Emit.token)) : WellFormed n (glueAll coal es) :=
  (glued_wellFormed (glueAll_glued coal es) hw).1

end Ulight
