import Verif.Spec.EditScript

/-!
# C20, C21, C22: edit scripts and splitting into lines
-/

namespace Ulight

open Spec

/-- The distance of two sequences, from the back. -/
def dist : List Bytes → List Bytes → Nat
  | [], ys => ys.length
  | xs, [] => xs.length
  | a :: xs, b :: ys =>
    if a = b then min (dist xs ys) (min (dist xs (b :: ys) + 1) (dist (a :: xs) ys + 1))
    else min (dist xs (b :: ys) + 1) (dist (a :: xs) ys + 1)

theorem dist_nil_right (xs : List Bytes) : dist xs [] = xs.length := by cases xs <;> simp [dist]

theorem dist_le_add (xs ys : List Bytes) : dist xs ys ≤ xs.length + ys.length := by
  induction xs generalizing ys with
  | nil => simp [dist]
  | cons a xs ih =>
    cases ys with
    | nil => simp [dist]
    | cons b ys =>
      have := ih (b :: ys)
      simp only [dist, List.length_cons] at this ⊢
      split <;> omega

theorem dist_lipschitz (xs ys : List Bytes) :
    (∀ a, dist xs ys ≤ dist (a :: xs) ys + 1) ∧ (∀ b, dist xs ys ≤ dist xs (b :: ys) + 1) := by
  generalize hn : xs.length + ys.length = n
  induction n using Nat.strongRecOn generalizing xs ys with
  | ind n ih =>
    constructor
    · intro a
      cases ys with
      | nil => simp [dist_nil_right]; omega
      | cons b ys =>
        simp only [dist]
        have h2 := (ih (xs.length + ys.length) (by simp at hn; omega) xs ys rfl).1 a
        have h4 : dist xs (b :: ys) ≤ dist xs ys + 1 := by
          cases xs with
          | nil => simp [dist]
          | cons => simp only [dist]; split <;> omega
        split <;> omega
    · intro b
      cases xs with
      | nil => simp [dist]; omega
      | cons a xs =>
        simp only [dist]
        have h1 := (ih (xs.length + ys.length) (by simp at hn; omega) xs ys rfl).2 b
        have h4 : dist (a :: xs) ys ≤ dist xs ys + 1 := by
          cases ys with
          | nil => simp [dist_nil_right]
          | cons => simp only [dist]; split <;> omega
        split <;> omega

/-- Equal last elements can always be kept. -/
theorem dist_common (a : Bytes) (xs ys : List Bytes) : dist (a :: xs) (a :: ys) = dist xs ys := by
  simp only [dist, if_true]
  have h1 := (dist_lipschitz xs ys).1 a
  have h2 := (dist_lipschitz xs ys).2 a
  omega

/-! ### The distance is the smallest cost -/

theorem Spec.Edits.append {α : Type} {e1 e2 : List Edit} {x1 x2 y1 y2 : List α}
    (h1 : Edits e1 x1 y1) (h2 : Edits e2 x2 y2) : Edits (e1 ++ e2) (x1 ++ x2) (y1 ++ y2) := by
  induction h1 with
  | nil => exact h2
  | common a _ ih => exact .common a ih
  | del a _ ih => exact .del a ih
  | ins a _ ih => exact .ins a ih

theorem Spec.Edits.reverse {α : Type} {es : List Edit} {xs ys : List α} (h : Edits es xs ys) :
    Edits es.reverse xs.reverse ys.reverse := by
  induction h with
  | nil => exact .nil
  | common a _ ih => simpa using ih.append (.common a .nil)
  | del a _ ih => simpa using ih.append (.del a .nil)
  | ins a _ ih => simpa using ih.append (.ins a .nil)

theorem cost_reverse (es : List Edit) : cost es.reverse = cost es := by simp [cost]

theorem dist_le_cost {es : List Edit} {xs ys : List Bytes} (h : Edits es xs ys) :
    dist xs ys ≤ cost es := by
  induction h with
  | nil => simp [dist]
  | common a h ih => rw [dist_common]; simpa [cost] using ih
  | @del es xs ys a h ih =>
    have : dist (a :: xs) ys ≤ dist xs ys + 1 := by
      cases ys with
      | nil => simp [dist_nil_right]
      | cons => simp only [dist]; split <;> omega
    simp [cost] at ih ⊢
    omega
  | @ins es xs ys a h ih =>
    have : dist xs (a :: ys) ≤ dist xs ys + 1 := by
      cases xs with
      | nil => simp [dist]
      | cons => simp only [dist]; split <;> omega
    simp [cost] at ih ⊢
    omega

/-! ### The table contains the distances -/

/-- Row of distances of `P` to the prefixes of `to` that are longer than `Q` reversed. -/
def dists (P Q : List Bytes) : List Bytes → List Nat
  | [] => []
  | b :: to => dist P (b :: Q) :: dists P (b :: Q) to

theorem editRow_eq (a : Bytes) (P Q to : List Bytes)
    (h : P.length + 1 + Q.length + to.length ≤ mismatchCost) :
    editRow a (dist (a :: P) Q) (dist P Q) to (dists P Q to) = dists (a :: P) Q to := by
  induction to generalizing Q with
  | nil => rfl
  | cons b to ih =>
    simp only [dists, editRow]
    have hv : min (if a = b then dist P Q else mismatchCost) (min (dist P (b :: Q) + 1)
        (dist (a :: P) Q + 1)) = dist (a :: P) (b :: Q) := by
      have h1 := dist_le_add (a :: P) Q
      simp at h h1
      simp only [dist]
      split <;> omega
    rw [hv, ih (b :: Q) (by simp at h ⊢; omega)]

theorem dists_nil (Q to : List Bytes) : dists [] Q to = (List.range to.length).map (· + (Q.length + 1)) := by
  induction to generalizing Q with
  | nil => rfl
  | cons b to ih =>
    simp only [dists, List.length_cons, List.range_succ_eq_map, List.map_cons, List.map_map]
    rw [ih]
    simp [dist]
    intro x _
    omega

theorem editRows_get (to P from_ : List Bytes) (i : Nat)
    (h : P.length + from_.length + to.length ≤ mismatchCost) (hi : i ≤ from_.length) :
    (editRows to P.length (dist P [] :: dists P [] to) from_)[i]? =
      some (dist ((from_.take i).reverse ++ P) [] :: dists ((from_.take i).reverse ++ P) [] to) := by
  induction from_ generalizing P i with
  | nil =>
    simp at hi
    subst hi
    simp [editRows]
  | cons a from_ ih =>
    simp only [editRows]
    cases i with
    | zero => simp
    | succ i =>
      simp only [List.getElem?_cons_succ, List.headD_cons, List.tail_cons]
      have e : P.length + 1 = dist (a :: P) [] := by simp [dist]
      have hrow := editRow_eq a P [] to (by simp at h ⊢; omega)
      rw [← e] at hrow
      rw [hrow]
      have := ih (a :: P) i (by simp at h ⊢; omega) (by simp at hi; omega)
      simp only [List.length_cons] at this
      rw [← e] at this
      rw [this]
      simp

theorem dists_get (P Q to : List Bytes) (j : Nat) (h : j < to.length) :
    (dists P Q to)[j]? = some (dist P ((to.take (j + 1)).reverse ++ Q)) := by
  induction to generalizing Q j with
  | nil => simp at h
  | cons b to ih =>
    cases j with
    | zero => simp [dists]
    | succ j =>
      simp only [dists, List.getElem?_cons_succ]
      rw [ih (b :: Q) j (by simpa using h)]
      simp

theorem editEntry_eq (from_ to : List Bytes) (i j : Nat)
    (h : from_.length + to.length ≤ mismatchCost) (hi : i ≤ from_.length) (hj : j ≤ to.length) :
    editEntry (editTable from_ to) i j = .ok (dist (from_.take i).reverse (to.take j).reverse) := by
  have h0 : List.range (to.length + 1) = dist [] [] :: dists [] [] to := by
    rw [dists_nil, List.range_succ_eq_map]
    simp [dist]
  have := editRows_get to [] from_ i (by simpa using h) hi
  rw [← h0] at this
  simp only [editEntry, editTable]
  simp only [List.length_nil, List.append_nil] at this
  rw [this]
  cases j with
  | zero => simp
  | succ j =>
    simp only [List.getElem?_cons_succ]
    rw [dists_get _ _ _ _ (by omega)]
    simp

/-! ### Backtracking -/

theorem take_succ_reverse (l : List Bytes) (i : Nat) (h : i < l.length) :
    (l.take (i + 1)).reverse = l[i] :: (l.take i).reverse := by
  rw [List.take_succ_eq_append_getElem h]
  simp

theorem editBacktrack_spec (from_ to : List Bytes) (h : from_.length + to.length ≤ mismatchCost)
    (fuel i j : Nat) (hi : i ≤ from_.length) (hj : j ≤ to.length) (hf : i + j ≤ fuel) :
    ∃ out, editBacktrack from_ to (editTable from_ to) fuel i j = .ok out ∧
      Edits out (from_.take i).reverse (to.take j).reverse ∧
      cost out = dist (from_.take i).reverse (to.take j).reverse := by
  induction fuel generalizing i j with
  | zero =>
    have : i = 0 := by omega
    have : j = 0 := by omega
    subst i j
    exact ⟨[], rfl, .nil, by simp [cost, dist]⟩
  | succ fuel ih =>
    unfold editBacktrack
    by_cases h0 : i ≠ 0 ∨ j ≠ 0
    · rw [if_pos h0]
      by_cases h1 : i ≠ 0 ∧ j ≠ 0 ∧ from_[i - 1]? = to[j - 1]?
      · rw [if_pos h1]
        obtain ⟨hi0, hj0, he⟩ := h1
        obtain ⟨i, rfl⟩ : ∃ i', i = i' + 1 := ⟨i - 1, by omega⟩
        obtain ⟨j, rfl⟩ : ∃ j', j = j' + 1 := ⟨j - 1, by omega⟩
        simp only [Nat.add_sub_cancel] at he ⊢
        obtain ⟨out, ho, hed, hc⟩ := ih i j (by omega) (by omega) (by omega)
        rw [List.getElem?_eq_getElem (by omega), List.getElem?_eq_getElem (by omega)] at he
        simp only [Option.some.injEq] at he
        refine ⟨.common :: out, by rw [ho]; rfl, ?_, ?_⟩
        · rw [take_succ_reverse _ _ (by omega), take_succ_reverse _ _ (by omega), he]
          exact .common _ hed
        · rw [take_succ_reverse _ _ (by omega), take_succ_reverse _ _ (by omega), he, dist_common, ← hc]
          simp [cost]
      · rw [if_neg h1]
        have insCase : j ≠ 0 → dist (from_.take i).reverse (to.take j).reverse =
              dist (from_.take i).reverse (to.take (j - 1)).reverse + 1 →
            ∃ out, (do
              let out ← editBacktrack from_ to (editTable from_ to) fuel i (j - 1)
              (.ok (.ins :: out) : Except Fault (List Edit))) = .ok out ∧
              Edits out (from_.take i).reverse (to.take j).reverse ∧
              cost out = dist (from_.take i).reverse (to.take j).reverse := by
          intro hj0 hd
          obtain ⟨j, rfl⟩ : ∃ j', j = j' + 1 := ⟨j - 1, by omega⟩
          simp only [Nat.add_sub_cancel] at hd ⊢
          obtain ⟨out, ho, hed, hc⟩ := ih i j (by omega) (by omega) (by omega)
          refine ⟨.ins :: out, by rw [ho]; rfl, ?_, ?_⟩
          · rw [take_succ_reverse to _ (by omega)]
            exact .ins _ hed
          · rw [hd, ← hc]; simp [cost]
        by_cases hi0 : i ≠ 0
        · rw [if_pos hi0]
          obtain ⟨i, rfl⟩ : ∃ i', i = i' + 1 := ⟨i - 1, by omega⟩
          simp only [Nat.add_sub_cancel] at h1 ⊢
          rw [editEntry_eq from_ to _ _ h hi hj, editEntry_eq from_ to _ _ h (by omega) hj]
          simp only [bind, Except.bind]
          by_cases hd : dist (from_.take (i + 1)).reverse (to.take j).reverse =
              dist (from_.take i).reverse (to.take j).reverse + 1
          · rw [if_pos hd]
            obtain ⟨out, ho, hed, hc⟩ := ih i j (by omega) (by omega) (by omega)
            refine ⟨.del :: out, by rw [ho], ?_, ?_⟩
            · rw [take_succ_reverse _ _ (by omega)]
              exact .del _ hed
            · rw [hd, ← hc]; simp [cost]
          · rw [if_neg hd]
            have hj0 : j ≠ 0 := by
              rintro rfl
              apply hd
              simp [dist_nil_right, List.length_take]
              omega
            rw [if_neg hj0]
            apply insCase hj0
            obtain ⟨j, rfl⟩ : ∃ j', j = j' + 1 := ⟨j - 1, by omega⟩
            simp only [Nat.add_sub_cancel] at h1 ⊢
            have hne : from_[i]'(by omega) ≠ to[j]'(by omega) := by
              intro he
              apply h1
              refine ⟨by omega, by omega, ?_⟩
              rw [List.getElem?_eq_getElem (by omega), List.getElem?_eq_getElem (by omega), he]
            rw [take_succ_reverse from_ _ (by omega), take_succ_reverse to _ (by omega)] at hd ⊢
            simp only [dist, hne, if_false] at hd ⊢
            omega
        · rw [if_neg hi0]
          have hj0 : j ≠ 0 := by omega
          rw [if_neg hj0]
          apply insCase hj0
          have : i = 0 := by omega
          subst this
          simp [dist]
          omega
    · rw [if_neg h0]
      have : i = 0 := by omega
      have : j = 0 := by omega
      subst i j
      exact ⟨[], rfl, .nil, by simp [cost, dist]⟩

/-! ### Ordering deletions before insertions -/

theorem edits_dels (n : Nat) {xs : List Bytes} (h : xs.length = n) : Edits (List.replicate n .del) xs [] := by
  induction n generalizing xs with
  | zero => rw [List.length_eq_zero_iff.1 h]; exact .nil
  | succ n ih =>
    match xs, h with
    | a :: xs, h => exact .del a (ih (by simpa using h))

theorem edits_inss (n : Nat) {ys : List Bytes} (h : ys.length = n) : Edits (List.replicate n .ins) [] ys := by
  induction n generalizing ys with
  | zero => rw [List.length_eq_zero_iff.1 h]; exact .nil
  | succ n ih =>
    match ys, h with
    | a :: ys, h => exact .ins a (ih (by simpa using h))

theorem partitionEdits_eq (b : List Edit) (hb : ∀ e ∈ b, e ≠ .common) :
    partitionEdits b = List.replicate (b.count .del) .del ++ List.replicate (b.count .ins) .ins := by
  unfold partitionEdits
  congr 1
  · rw [List.eq_replicate_iff]
    constructor
    · rw [List.count, List.countP_eq_length_filter]
      congr 2
    · simp
  · rw [List.eq_replicate_iff]
    constructor
    · rw [List.count, List.countP_eq_length_filter]
      congr 1
      apply List.filter_congr
      intro x hx
      have := hb x hx
      cases x <;> simp_all
    · intro x hx
      simp at hx
      have := hb x hx.1
      cases x <;> simp_all

theorem partition_edits {b : List Edit} (hb : ∀ e ∈ b, e ≠ .common) {xs ys : List Bytes}
    (h : Edits b xs ys) : Edits (partitionEdits b) xs ys := by
  have hc : xs.length = b.count .del ∧ ys.length = b.count .ins := by
    induction h with
    | nil => simp
    | common a _ _ => exact absurd rfl (hb .common (by simp))
    | del a _ ih =>
      have := ih (fun e he => hb e (by simp [he]))
      simp [this]
    | ins a _ ih =>
      have := ih (fun e he => hb e (by simp [he]))
      simp [this]
  rw [partitionEdits_eq b hb]
  have := (edits_dels _ hc.1).append (edits_inss _ hc.2)
  simpa using this

theorem edits_split {α : Type} {e1 e2 : List Edit} {xs ys : List α} (h : Edits (e1 ++ e2) xs ys) :
    ∃ x1 x2 y1 y2, xs = x1 ++ x2 ∧ ys = y1 ++ y2 ∧ Edits e1 x1 y1 ∧ Edits e2 x2 y2 := by
  induction e1 generalizing xs ys with
  | nil => exact ⟨[], xs, [], ys, rfl, rfl, .nil, h⟩
  | cons e e1 ih =>
    cases h with
    | common a h =>
      obtain ⟨x1, x2, y1, y2, rfl, rfl, h1, h2⟩ := ih h
      exact ⟨a :: x1, x2, a :: y1, y2, rfl, rfl, .common a h1, h2⟩
    | del a h =>
      obtain ⟨x1, x2, y1, y2, rfl, rfl, h1, h2⟩ := ih h
      exact ⟨a :: x1, x2, y1, y2, rfl, rfl, .del a h1, h2⟩
    | ins a h =>
      obtain ⟨x1, x2, y1, y2, rfl, rfl, h1, h2⟩ := ih h
      exact ⟨x1, x2, a :: y1, y2, rfl, rfl, .ins a h1, h2⟩

theorem orderEdits_edits (b es : List Edit) (hb : ∀ e ∈ b, e ≠ .common) {xs ys : List Bytes}
    (h : Edits (b ++ es) xs ys) : Edits (orderEdits b es) xs ys := by
  induction es generalizing b xs ys with
  | nil =>
    simp only [List.append_nil] at h
    exact partition_edits hb h
  | cons e es ih =>
    cases e with
    | common =>
      simp only [orderEdits]
      obtain ⟨x1, x2, y1, y2, rfl, rfl, h1, h2⟩ := edits_split h
      refine (partition_edits hb h1).append ?_
      cases h2 with
      | common a h2 => exact .common a (ih [] (by simp) h2)
    | del =>
      simp only [orderEdits]
      exact ih (b ++ [.del]) (by
        intro e he
        simp at he
        rcases he with he | rfl
        · exact hb e he
        · simp) (by simpa using h)
    | ins =>
      simp only [orderEdits]
      exact ih (b ++ [.ins]) (by
        intro e he
        simp at he
        rcases he with he | rfl
        · exact hb e he
        · simp) (by simpa using h)

theorem cost_append (a b : List Edit) : cost (a ++ b) = cost a + cost b := by simp [cost]

theorem cost_partition (b : List Edit) : cost (partitionEdits b) = cost b := by
  unfold partitionEdits
  rw [cost_append]
  induction b with
  | nil => rfl
  | cons e b ih => cases e <;> simp [cost] at ih ⊢ <;> omega

theorem orderEdits_cost (b es : List Edit) : cost (orderEdits b es) = cost b + cost es := by
  induction es generalizing b with
  | nil => simp [orderEdits, cost_partition]; rfl
  | cons e es ih =>
    cases e with
    | common =>
      simp only [orderEdits, cost_append, cost_partition]
      have := ih []
      simp [cost] at this ⊢
      omega
    | del => simp only [orderEdits, ih, cost_append]; simp [cost]; omega
    | ins => simp only [orderEdits, ih, cost_append]; simp [cost]; omega

/-- No insertion is directly followed by a deletion, as a check over neighbours. -/
def noInsDel : List Edit → Bool
  | .ins :: .del :: _ => false
  | _ :: es => noInsDel es
  | [] => true

theorem noInsDel_iff (es : List Edit) : noInsDel es = true ↔ DeletionsFirst es := by
  induction es with
  | nil => simp [noInsDel, DeletionsFirst]
  | cons e es ih =>
    have step : DeletionsFirst (e :: es) ↔ (¬ (e = .ins ∧ ∃ t, es = .del :: t)) ∧ DeletionsFirst es := by
      constructor
      · intro h
        refine ⟨?_, ?_⟩
        · rintro ⟨rfl, t, rfl⟩
          exact h [] t rfl
        · rintro a b rfl
          exact h (e :: a) b rfl
      · rintro ⟨h1, h2⟩ a b he
        cases a with
        | nil =>
          simp at he
          exact h1 ⟨he.1, b, he.2⟩
        | cons x a =>
          simp at he
          exact h2 a b (by simpa using he.2)
    rw [step, ← ih]
    cases e <;> cases es with
    | nil => simp [noInsDel]
    | cons e' es => cases e' <;> simp [noInsDel]

theorem noInsDel_append_common (a b : List Edit) :
    noInsDel (a ++ .common :: b) = (noInsDel a && noInsDel b) := by
  induction a with
  | nil => simp [noInsDel]
  | cons e a ih =>
    cases e <;> cases a with
    | nil => simp [noInsDel]
    | cons e' a => cases e' <;> simp_all [noInsDel]

theorem noInsDel_replicate (m n : Nat) :
    noInsDel (List.replicate m .del ++ List.replicate n .ins) = true := by
  have hi : noInsDel (List.replicate n .ins) = true := by
    induction n with
    | zero => rfl
    | succ n ih =>
      cases n with
      | zero => rfl
      | succ n => simpa [List.replicate_succ, noInsDel] using ih
  induction m with
  | zero => simpa using hi
  | succ m ih => simpa [List.replicate_succ, noInsDel] using ih

theorem orderEdits_ordered (b es : List Edit) (hb : ∀ e ∈ b, e ≠ .common) :
    noInsDel (orderEdits b es) = true := by
  induction es generalizing b with
  | nil => simp only [orderEdits]; rw [partitionEdits_eq b hb]; exact noInsDel_replicate _ _
  | cons e es ih =>
    cases e with
    | common =>
      simp only [orderEdits]
      rw [noInsDel_append_common, ih [] (by simp), partitionEdits_eq b hb, noInsDel_replicate]
      rfl
    | del =>
      simp only [orderEdits]
      apply ih
      intro e he
      simp at he
      rcases he with he | rfl
      · exact hb e he
      · simp
    | ins =>
      simp only [orderEdits]
      apply ih
      intro e he
      simp at he
      rcases he with he | rfl
      · exact hb e he
      · simp

/-! ### The properties -/

theorem script_spec (from_ to : List Bytes) (h : from_.length + to.length < 2 ^ 64) :
    ∃ es, shortestEditScript from_ to = .ok es ∧ Edits es from_ to ∧ DeletionsFirst es ∧
      cost es = dist from_.reverse to.reverse := by
  obtain ⟨out, h1, h2, h3⟩ := editBacktrack_spec from_ to (by simp [mismatchCost]; omega)
    (from_.length + to.length) from_.length to.length (by omega) (by omega) (by omega)
  have h4 := h2.reverse
  simp only [List.take_length, List.reverse_reverse] at h3 h4
  refine ⟨orderEdits [] out.reverse, ?_, ?_, ?_, ?_⟩
  · simp [shortestEditScript, h1, bind, Except.bind]
  · exact orderEdits_edits [] _ (by simp) (by simpa using h4)
  · exact (noInsDel_iff _).1 (orderEdits_ordered [] _ (by simp))
  · rw [orderEdits_cost, cost_reverse, h3]; simp [cost]

/-- The computed script turns the old sequence into the new one.  (The bound says that the
sequences fit into the address space.) -/
theorem C20_script_correct (from_ to : List Bytes) (h : from_.length + to.length < 2 ^ 64) :
    ∃ es, shortestEditScript from_ to = .ok es ∧ Edits es from_ to := by
  obtain ⟨es, h1, h2, _⟩ := script_spec from_ to h
  exact ⟨es, h1, h2⟩

/-- No script has fewer insertions and deletions, and inside every run of changes the deletions
come before the insertions. -/
theorem C21_script_shortest (from_ to : List Bytes) (h : from_.length + to.length < 2 ^ 64) :
    ∃ es, shortestEditScript from_ to = .ok es ∧ DeletionsFirst es ∧
      ∀ es', Edits es' from_ to → cost es ≤ cost es' := by
  obtain ⟨es, h1, _, h3, h4⟩ := script_spec from_ to h
  refine ⟨es, h1, h3, ?_⟩
  intro es' h'
  rw [h4, ← cost_reverse es']
  exact dist_le_cost h'.reverse

example : shortestEditScript [b!"a", b!"b", b!"c"] [b!"x", b!"b", b!"y", b!"c"] =
    .ok [.del, .ins, .common, .ins, .common] := by rfl

/-! ### Lines -/

theorem splitLinesLoop_spec (line s : Bytes) (hl : 0x0A ∉ line) :
    splitLinesLoop line s ≠ [] ∧ [0x0A].intercalate (splitLinesLoop line s) = line ++ s ∧
    ∀ l ∈ splitLinesLoop line s, 0x0A ∉ l := by
  induction s generalizing line with
  | nil => simp [splitLinesLoop, hl, List.intercalate]
  | cons c s ih =>
    simp only [splitLinesLoop]
    split
    · rename_i hc
      subst hc
      obtain ⟨h1, h2, h3⟩ := ih [] (by simp)
      refine ⟨by simp, ?_, ?_⟩
      · rw [List.intercalate_cons_of_ne_nil h1, h2]
        simp
      · intro l hm
        simp at hm
        rcases hm with rfl | hm
        · exact hl
        · exact h3 l hm
    · rename_i hc
      have := ih (line ++ [c]) (by simp; exact ⟨hl, fun h => hc h.symm⟩)
      simpa using this

/-- The lines returned by `split_lines` contain no line feed, and joined with line feeds they give
back the text. -/
theorem C22_split_lines (s : Bytes) :
    splitLines s ≠ [] ∧ [0x0A].intercalate (splitLines s) = s ∧ ∀ l ∈ splitLines s, 0x0A ∉ l := by
  simpa [splitLines] using splitLinesLoop_spec [] s (by simp)

example : splitLines b!"a\n\nb" = [b!"a", [], b!"b"] := by decide +kernel

end Ulight
