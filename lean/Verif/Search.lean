import Verif.Basic

/-!
# Ordered tables and binary search

`std::ranges::lower_bound` on a random access range, and the lexicographic order of
`std::string_view` / `std::u8string_view` (both compare bytes as unsigned values).
-/

namespace Ulight

/-- `operator<` of `std::string_view`: lexicographic comparison of unsigned bytes. -/
def bytesLt : Bytes → Bytes → Bool
  | [], [] => false
  | [], _ :: _ => true
  | _ :: _, [] => false
  | a :: as, b :: bs => if a < b then true else if b < a then false else bytesLt as bs

/-- The loop of `std::ranges::lower_bound` (libstdc++ `bits/ranges_algo.h`): halve `len`, move
`first` past the middle element when that element is less than the searched value.
`fuel` bounds the number of iterations; `len` iterations are always enough.
`less x` stands for `proj(x) < value`. -/
def lowerBoundLoop (less : α → Bool) (xs : List α) : Nat → Nat → Nat → Nat
  | 0, first, _ => first
  | fuel + 1, first, len =>
    if len = 0 then first
    else
      let half := len / 2
      match xs[first + half]? with
      | none => first
      | some x =>
        if less x then lowerBoundLoop less xs fuel (first + half + 1) (len - half - 1)
        else lowerBoundLoop less xs fuel first half

/-- `std::ranges::lower_bound(xs, value, {}, proj)` as an offset from the beginning. -/
def lowerBound (less : α → Bool) (xs : List α) : Nat :=
  lowerBoundLoop less xs xs.length 0 xs.length

/-- Lookup idiom used all over the code: `lower_bound`, then compare for equality.
Returns the offset of the element equal to the key. -/
def lookupSorted (key : α → Bytes) (xs : List α) (k : Bytes) : Option α :=
  match xs[lowerBound (fun x => bytesLt (key x) k) xs]? with
  | some x => if key x = k then some x else none
  | none => none

/-! ## Lemmas -/

theorem bytesLt_irrefl : ∀ a : Bytes, bytesLt a a = false
  | [] => rfl
  | a :: as => by simp [bytesLt, bytesLt_irrefl as]

theorem bytesLt_trans : ∀ {a b c : Bytes}, bytesLt a b = true → bytesLt b c = true →
    bytesLt a c = true
  | [], [], _, h, _ => by simp [bytesLt] at h
  | [], _ :: _, [], _, h => by simp [bytesLt] at h
  | [], _ :: _, _ :: _, _, _ => by simp [bytesLt]
  | _ :: _, [], _, h, _ => by simp [bytesLt] at h
  | _ :: _, _ :: _, [], _, h => by simp [bytesLt] at h
  | a :: as, b :: bs, c :: cs, h1, h2 => by
    have ih := @bytesLt_trans as bs cs
    simp only [bytesLt] at h1 h2 ⊢
    simp only [UInt8.lt_iff_toNat_lt] at *
    grind

theorem bytesLt_asymm {a b : Bytes} (h : bytesLt a b = true) : bytesLt b a = false := by
  cases hb : bytesLt b a with
  | false => rfl
  | true => have := bytesLt_trans h hb; rw [bytesLt_irrefl] at this; cases this

theorem bytesLt_total : ∀ {a b : Bytes}, bytesLt a b = false → bytesLt b a = false → a = b
  | [], [], _, _ => rfl
  | [], _ :: _, h, _ => by simp [bytesLt] at h
  | _ :: _, [], _, h => by simp [bytesLt] at h
  | a :: as, b :: bs, h1, h2 => by
    simp only [bytesLt, UInt8.lt_iff_toNat_lt] at h1 h2
    split at h1
    · cases h1
    · split at h1
      · simp_all
      · rename_i hab hba
        have : a = b := by apply UInt8.toNat_inj.mp; omega
        subst this
        simp at h2
        rw [bytesLt_total h1 h2]

/-- Loop invariant of `lower_bound` on a range partitioned by `less`. -/
theorem lowerBoundLoop_spec (less : α → Bool) (xs : List α)
    (hpart : ∀ i j (hi : i < xs.length) (hj : j < xs.length), i ≤ j → less xs[j] = true →
      less xs[i] = true) :
    ∀ fuel first len, len ≤ fuel → first + len ≤ xs.length →
      (∀ i (hi : i < xs.length), i < first → less xs[i] = true) →
      (∀ i (hi : i < xs.length), first + len ≤ i → less xs[i] = false) →
      let r := lowerBoundLoop less xs fuel first len
      r ≤ xs.length ∧ (∀ i (hi : i < xs.length), i < r → less xs[i] = true) ∧
        (∀ i (hi : i < xs.length), r ≤ i → less xs[i] = false) := by
  intro fuel
  induction fuel with
  | zero =>
    intro first len hlen hle hlo hhi
    have : len = 0 := by omega
    subst this
    exact ⟨by simpa [lowerBoundLoop] using hle, by simpa [lowerBoundLoop] using hlo,
      by simpa [lowerBoundLoop] using hhi⟩
  | succ fuel ih =>
    intro first len hlen hle hlo hhi
    simp only [lowerBoundLoop]
    split
    · subst len; exact ⟨by omega, hlo, by simpa using hhi⟩
    · rename_i hne
      have hm : first + len / 2 < xs.length := by omega
      rw [List.getElem?_eq_getElem hm]
      simp only
      split
      · rename_i hless
        apply ih
        · omega
        · omega
        · intro i hi hlt
          exact hpart i (first + len / 2) hi hm (by omega) hless
        · intro i hi hge
          exact hhi i hi (by omega)
      · rename_i hless
        apply ih
        · omega
        · omega
        · exact hlo
        · intro i hi hge
          cases hx : less xs[i] with
          | false => rfl
          | true => exact absurd (hpart (first + len / 2) i hm hi hge hx) hless

/-- `lower_bound` returns the partition point. -/
theorem lowerBound_spec (less : α → Bool) (xs : List α)
    (hpart : ∀ i j (hi : i < xs.length) (hj : j < xs.length), i ≤ j → less xs[j] = true →
      less xs[i] = true) :
    lowerBound less xs ≤ xs.length ∧
      (∀ i (hi : i < xs.length), i < lowerBound less xs → less xs[i] = true) ∧
      (∀ i (hi : i < xs.length), lowerBound less xs ≤ i → less xs[i] = false) := by
  apply lowerBoundLoop_spec less xs hpart xs.length 0 xs.length (Nat.le_refl _) (by omega)
  · intro i hi h; omega
  · intro i hi h; omega

/-- On a strictly sorted table, the lookup finds exactly the entries of the table. -/
theorem lookupSorted_eq_some (key : α → Bytes) (xs : List α)
    (hs : xs.Pairwise (fun a b => bytesLt (key a) (key b) = true)) (k : Bytes) (x : α) :
    lookupSorted key xs k = some x ↔ x ∈ xs ∧ key x = k := by
  have hp : ∀ i j (hi : i < xs.length) (hj : j < xs.length), i < j →
      bytesLt (key xs[i]) (key xs[j]) = true := fun i j hi hj hij =>
    List.pairwise_iff_getElem.mp hs i j hi hj hij
  have hpart : ∀ i j (hi : i < xs.length) (hj : j < xs.length), i ≤ j →
      bytesLt (key xs[j]) k = true → bytesLt (key xs[i]) k = true := by
    intro i j hi hj hij h
    rcases Nat.lt_or_eq_of_le hij with h1 | h1
    · exact bytesLt_trans (hp i j hi hj h1) h
    · subst h1; exact h
  obtain ⟨_, hlt, hge⟩ := lowerBound_spec (fun x => bytesLt (key x) k) xs hpart
  generalize hr : lowerBound (fun x => bytesLt (key x) k) xs = r at *
  unfold lookupSorted
  rw [hr]
  constructor
  · intro h
    split at h
    · rename_i y hy
      split at h
      · rename_i hk
        cases h
        exact ⟨List.mem_of_getElem? hy, hk⟩
      · cases h
    · cases h
  · rintro ⟨hmem, hk⟩
    obtain ⟨i, hi, rfl⟩ := List.getElem_of_mem hmem
    have hir : i = r := by
      rcases Nat.lt_trichotomy i r with h | h | h
      · have := hlt i hi h
        simp only [hk, bytesLt_irrefl] at this
        cases this
      · exact h
      · have hrl : r < xs.length := by omega
        have h1 := hge r hrl (Nat.le_refl _)
        have h2 := hp r i hrl hi h
        rw [hk] at h2
        rw [h2] at h1
        cases h1
    subst hir
    simp [List.getElem?_eq_getElem hi, hk]

theorem lookupSorted_eq_none (key : α → Bytes) (xs : List α)
    (hs : xs.Pairwise (fun a b => bytesLt (key a) (key b) = true)) (k : Bytes) :
    lookupSorted key xs k = none ↔ ∀ x ∈ xs, key x ≠ k := by
  constructor
  · intro h x hx hk
    have := (lookupSorted_eq_some key xs hs k x).mpr ⟨hx, hk⟩
    rw [h] at this; cases this
  · intro h
    cases hq : lookupSorted key xs k with
    | none => rfl
    | some x =>
      have := (lookupSorted_eq_some key xs hs k x).mp hq
      exact absurd this.2 (h x this.1)

end Ulight
