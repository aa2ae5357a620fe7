import Verif.Text.Ascii
import Verif.Text.Charset
import Verif.Text.Utf8Lemmas

/-!
# Properties of ASCII search (C16), identifier tables (C17), character sets (C18) and
case-insensitive comparison (C19)
-/

namespace Ulight

/-! ## C16 -/

namespace Ascii

theorem findLoop_spec (pred : UInt8 → Bool) (e : Bool) (i : Nat) (s : Bytes) :
    match findLoop pred e i s with
    | some k => i ≤ k ∧ (∃ c, s[k - i]? = some c ∧ pred c = e) ∧
        ∀ j c, j < k - i → s[j]? = some c → pred c ≠ e
    | none => ∀ c ∈ s, pred c ≠ e := by
  induction s generalizing i with
  | nil => simp [findLoop]
  | cons a s ih =>
    simp only [findLoop]
    by_cases h : pred a = e
    · simp [h]
    · simp only [h, if_false]
      have := ih (i + 1)
      split at this
      · rename_i k hk
        obtain ⟨h1, ⟨c, hc, hp⟩, h3⟩ := this
        refine ⟨by omega, ⟨c, ?_, hp⟩, ?_⟩
        · rw [show k - i = (k - (i + 1)) + 1 by omega]; simpa using hc
        · intro j c hj hc
          obtain _ | j := j
          · simp at hc; rwa [← hc]
          · exact h3 j c (by omega) (by simpa using hc)
      · intro c hc
        rcases List.mem_cons.1 hc with rfl | hc
        · exact h
        · exact this c hc

theorem findLoop_eq (pred : UInt8 → Bool) (e : Bool) (i n : Nat) (s : Bytes) (hn : n = i + s.length) :
    (findLoop pred e i s).getD n = i + (s.takeWhile (fun c => pred c != e)).length := by
  induction s generalizing i with
  | nil => simp [findLoop, hn]
  | cons a s ih =>
    simp only [findLoop]
    by_cases h : pred a = e
    · simp [h]
    · simp only [h, if_false]
      rw [ih (i + 1) (by simp at hn; omega)]
      rw [List.takeWhile_cons_of_pos (by simpa using h)]
      simp; omega

/-- `find_if` returns the position of the first byte, at or after `start`, with the property;
nothing when there is none. -/
theorem C16_find_if (s : Bytes) (pred : UInt8 → Bool) (start : Nat) :
    match find_if s pred start with
    | some k => start ≤ k ∧ (∃ c, s[k]? = some c ∧ pred c = true) ∧
        ∀ j c, start ≤ j → j < k → s[j]? = some c → pred c = false
    | none => ∀ j c, start ≤ j → s[j]? = some c → pred c = false := by
  have := findLoop_spec pred true start (s.drop start)
  unfold find_if
  split at this
  · rename_i k hk
    obtain ⟨h1, ⟨c, hc, hp⟩, h3⟩ := this
    refine ⟨h1, ⟨c, ?_, hp⟩, ?_⟩
    · rw [List.getElem?_drop, show start + (k - start) = k by omega] at hc; exact hc
    · intro j c hj hjk hc
      have := h3 (j - start) c (by omega)
        (by rw [List.getElem?_drop, show start + (j - start) = j by omega]; exact hc)
      simpa using this
  · intro j c hj hc
    have := this c (List.mem_of_getElem? (i := j - start)
      (by rw [List.getElem?_drop, show start + (j - start) = j by omega]; exact hc))
    simpa using this

theorem find_if_not_eq (s : Bytes) (pred : UInt8 → Bool) (start : Nat) :
    find_if_not s pred start = find_if s (fun c => !pred c) start := by
  unfold find_if_not find_if
  generalize s.drop start = t
  induction t generalizing start with
  | nil => rfl
  | cons a t ih =>
    simp only [findLoop]
    rw [ih (start + 1)]
    by_cases h : pred a = true <;> simp [h]

/-- The same for the negated predicate. -/
theorem C16_find_if_not (s : Bytes) (pred : UInt8 → Bool) (start : Nat) :
    match find_if_not s pred start with
    | some k => start ≤ k ∧ (∃ c, s[k]? = some c ∧ pred c = false) ∧
        ∀ j c, start ≤ j → j < k → s[j]? = some c → pred c = true
    | none => ∀ j c, start ≤ j → s[j]? = some c → pred c = true := by
  have := C16_find_if s (fun c => !pred c) start
  rw [find_if_not_eq]
  split at this <;> simpa using this

theorem length_if_eq (s : Bytes) (pred : UInt8 → Bool) :
    length_if s pred = (s.takeWhile pred).length := by
  have := findLoop_eq pred false 0 s.length s (by simp)
  have e : (fun c => pred c != false) = pred := by funext c; cases pred c <;> rfl
  simpa [length_if, e] using this

theorem length_if_not_eq (s : Bytes) (pred : UInt8 → Bool) :
    length_if_not s pred = (s.takeWhile (fun c => !pred c)).length := by
  have := findLoop_eq pred true 0 s.length s (by simp)
  have e : (fun c => pred c != true) = fun c => !pred c := by funext c; cases pred c <;> rfl
  simpa [length_if_not, e] using this

/-- The length functions measure the longest run of bytes from `start` that (do not) have the
property. -/
theorem C16_lengths (s : Bytes) (pred head : UInt8 → Bool) (d : UInt8) (start : Nat)
    (h : start ≤ s.length) :
    length_if s pred start = start + ((s.drop start).takeWhile pred).length ∧
    length_if_not s pred start = start + ((s.drop start).takeWhile (fun c => !pred c)).length ∧
    length_before s d start = start + ((s.drop start).takeWhile (· != d)).length ∧
    length_before_not s d start = start + ((s.drop start).takeWhile (· == d)).length ∧
    length_if_head_tail s head pred =
      (match s with
       | [] => 0
       | c :: t => if head c then 1 + (t.takeWhile pred).length else 0) := by
  have hl : s.length = start + (s.drop start).length := by simp; omega
  have e1 : ∀ p : UInt8 → Bool, (fun c => p c != false) = p := by
    intro p; funext c; cases p c <;> rfl
  have e2 : ∀ p : UInt8 → Bool, (fun c => p c != true) = fun c => !p c := by
    intro p; funext c; cases p c <;> rfl
  refine ⟨?_, ?_, ?_, ?_, ?_⟩
  · rw [length_if, findLoop_eq _ _ _ _ _ hl, e1]
  · rw [length_if_not, findLoop_eq _ _ _ _ _ hl, e2]
  · rw [length_before, findLoop_eq _ _ _ _ _ hl]
    congr 3; funext c; rw [Bool.eq_iff_iff]; simp
  · rw [length_before_not, findLoop_eq _ _ _ _ _ hl, e1]
  · cases s with
    | nil => rfl
    | cons c t =>
      simp only [length_if_head_tail]
      rw [findLoop_eq _ _ _ _ _ (by simp; omega), e1]
      cases head c <;> simp

/-- `length_until` and `length_until_not` also count the byte that ends the run. -/
theorem C16_length_until (s : Bytes) (d : UInt8) (start : Nat) (h : start ≤ s.length) :
    length_until s d start = min s.length (length_before s d start + 1) ∧
    length_until_not s d start = min s.length (length_before_not s d start + 1) := by
  have key : ∀ e, (match findLoop (· == d) e start (s.drop start) with
      | none => s.length
      | some r => r + 1) =
      min s.length ((findLoop (· == d) e start (s.drop start)).getD s.length + 1) := by
    intro e
    have := findLoop_spec (· == d) e start (s.drop start)
    split at this
    · rename_i k hk
      rw [hk]
      obtain ⟨h1, ⟨c, hc, _⟩, _⟩ := this
      have := (List.getElem?_eq_some_iff.1 hc).1
      simp at this ⊢; omega
    · rename_i hk
      rw [hk]; simp
  exact ⟨key true, key false⟩

example : length_if (b!"12ab") isDigit = 2 ∧ find_if (b!"12ab3") isDigit 2 = some 4 := by decide

end Ascii

/-! ## C17 -/

/-- The ranges are non-empty, sorted and disjoint. -/
def SortedRanges (t : List (Nat × Nat)) : Prop :=
  (∀ r ∈ t, r.1 ≤ r.2) ∧ t.Pairwise (fun a b => a.2 < b.1)

/-- A recursive check of `SortedRanges`, used only in proofs. -/
def sortedFrom : Nat → List (Nat × Nat) → Bool
  | _, [] => true
  | lo, r :: t => decide (lo ≤ r.1) && decide (r.1 ≤ r.2) && sortedFrom (r.2 + 1) t

theorem sortedFrom_spec : ∀ {lo t}, sortedFrom lo t = true →
    (∀ r ∈ t, lo ≤ r.1 ∧ r.1 ≤ r.2) ∧ t.Pairwise (fun a b => a.2 < b.1)
  | _, [], _ => by simp
  | lo, r :: t, h => by
    simp only [sortedFrom, Bool.and_eq_true, decide_eq_true_eq] at h
    obtain ⟨h1, h2⟩ := sortedFrom_spec h.2
    refine ⟨?_, ?_⟩
    · intro x hx
      rcases List.mem_cons.1 hx with rfl | hx
      · exact h.1
      · have := h1 x hx; omega
    · refine List.pairwise_cons.2 ⟨fun x hx => ?_, h2⟩
      have := (h1 x hx).1; omega

theorem sortedRanges_of {t : List (Nat × Nat)} (h : sortedFrom 0 t = true) : SortedRanges t :=
  ⟨fun r hr => ((sortedFrom_spec h).1 r hr).2, (sortedFrom_spec h).2⟩

theorem inRanges_iff {t : List (Nat × Nat)} (h : SortedRanges t) (c : Nat) :
    inRanges t c = true ↔ ∃ r ∈ t, r.1 ≤ c ∧ c ≤ r.2 := by
  obtain ⟨h1, h2⟩ := h
  have hp : ∀ i j (hi : i < t.length) (hj : j < t.length), i < j → t[i].2 < t[j].1 :=
    fun i j hi hj hij => List.pairwise_iff_getElem.mp h2 i j hi hj hij
  have hr : ∀ i (hi : i < t.length), t[i].1 ≤ t[i].2 := fun i hi => h1 _ (List.getElem_mem hi)
  have hpart : ∀ i j (hi : i < t.length) (hj : j < t.length), i ≤ j →
      decide (t[j].2 < c) = true → decide (t[i].2 < c) = true := by
    intro i j hi hj hij hd
    simp only [decide_eq_true_eq] at hd ⊢
    rcases Nat.lt_or_eq_of_le hij with h | h
    · have := hp i j hi hj h
      have := hr j hj
      omega
    · subst h; exact hd
  obtain ⟨hle, hlt, hge⟩ := lowerBound_spec (fun r => decide (r.2 < c)) t hpart
  unfold inRanges
  generalize lowerBound (fun r => decide (r.2 < c)) t = k at *
  constructor
  · intro hk
    split at hk
    · rename_i r hr'
      obtain ⟨hk', rfl⟩ := List.getElem?_eq_some_iff.1 hr'
      have := hge k hk' (Nat.le_refl _)
      simp at this hk
      exact ⟨_, List.getElem_mem hk', hk, this⟩
    · simp at hk
  · rintro ⟨r, hmem, ha, hb⟩
    obtain ⟨i, hi, rfl⟩ := List.getElem_of_mem hmem
    have hik : ¬ i < k := fun h => by have := hlt i hi h; simp at this; omega
    have hkl : k < t.length := by omega
    rw [List.getElem?_eq_getElem hkl]
    have := hge k hkl (Nat.le_refl _)
    simp only [decide_eq_false_iff_not] at this
    simp only [Bool.not_eq_true', decide_eq_false_iff_not, Nat.not_lt]
    rcases Nat.lt_or_eq_of_le (Nat.le_of_not_lt hik) with h | h
    · have := hp k i hkl hi h
      omega
    · subst h; exact ha

/-- Both identifier tables are sorted and disjoint. -/
theorem C17_tables_sorted :
    SortedRanges xidStartRanges ∧ SortedRanges xidContinueMinusStart :=
  ⟨sortedRanges_of (by decide +kernel), sortedRanges_of (by decide +kernel)⟩

/-- The identifier predicates decide membership in the published ranges, for every number. -/
theorem C17_xid (c : Nat) :
    (isXidStart c = true ↔ ∃ r ∈ xidStartRanges, r.1 ≤ c ∧ c ≤ r.2) ∧
    (isXidContinue c = true ↔
      ∃ r ∈ xidStartRanges ++ xidContinueMinusStart, r.1 ≤ c ∧ c ≤ r.2) := by
  refine ⟨inRanges_iff C17_tables_sorted.1 c, ?_⟩
  simp only [isXidContinue, isXidStart, Bool.or_eq_true, inRanges_iff C17_tables_sorted.1,
    inRanges_iff C17_tables_sorted.2, List.mem_append]
  grind

/-- Everything that can start an identifier can continue it. -/
theorem C17_start_continue (c : Nat) (h : isXidStart c = true) : isXidContinue c = true := by
  simp [isXidContinue, h]

/-- On ASCII the tables agree with the ASCII predicates used next to them. -/
theorem C17_ascii (c : UInt8) (h : c.toNat < 128) :
    isXidStart c.toNat = isAsciiXidStart c ∧ isXidContinue c.toNat = isAsciiXidContinue c := by
  revert h
  revert c
  apply forall_byte
  decide +kernel

example : isXidStart 0xE9 = true ∧ isXidStart 0x30 = false ∧ isXidContinue 0x30 = true := by
  decide +kernel

/-! ## C18 -/

namespace Charset
variable {N : Nat}

theorem and_one_ne_zero (x : UInt64) (n : Nat) (h : n < 64) :
    decide ((x >>> UInt64.ofNat n) &&& 1 ≠ 0) = x.toNat.testBit n := by
  have e : ((x >>> UInt64.ofNat n) &&& 1).toNat = (x.toNat >>> n) % 2 := by
    have h1 : (1 : UInt64).toNat = 1 := rfl
    rw [UInt64.toNat_and, UInt64.toNat_shiftRight, h1, Nat.and_one_is_mod, UInt64.toNat_ofNat']
    rw [Nat.mod_eq_of_lt (a := n) (by omega), Nat.mod_eq_of_lt h]
  have e2 : (x >>> UInt64.ofNat n) &&& 1 ≠ 0 ↔ (x.toNat >>> n) % 2 ≠ 0 := by
    rw [← e]
    have : (0 : UInt64).toNat = 0 := rfl
    rw [← this, Ne, Ne, UInt64.toNat_inj]
  rw [Nat.testBit, Nat.one_and_eq_mod_two, Bool.eq_iff_iff, decide_eq_true_iff, e2, bne_iff_ne]

theorem get_eq (s : Charset N) (i : Nat) : s.get i = (s.limb (i / 64)).toNat.testBit (i % 64) := by
  have := and_one_ne_zero (s.limb (i / 64)) (i % 64) (Nat.mod_lt _ (by omega))
  simpa [get] using this

theorem limb_lt {i : Nat} (h : i < N) : i / 64 < limbCount N := by
  unfold limbCount; split <;> omega

theorem limb_setLimb (s : Charset N) (i j : Nat) (v : UInt64) (h : i < limbCount N) :
    (s.setLimb i v).limb j = if j = i then v else s.limb j := by
  simp only [limb, setLimb, List.getD_eq_getElem?_getD]
  by_cases hj : j = i
  · subst hj
    rw [List.getElem?_set_self (by rw [s.size]; exact h)]
    simp
  · rw [List.getElem?_set_ne (by omega)]
    simp [hj]

theorem shl_one_testBit (n k : Nat) (h : n < 64) :
    ((1 : UInt64) <<< UInt64.ofNat n).toNat.testBit k = decide (k = n) := by
  rw [UInt64.toNat_shiftLeft]
  have h1 : (1 : UInt64).toNat = 1 := rfl
  rw [UInt64.toNat_ofNat', Nat.mod_eq_of_lt (a := n) (by omega), Nat.mod_eq_of_lt h, h1,
    Nat.one_shiftLeft, Nat.mod_eq_of_lt (Nat.pow_lt_pow_right (by omega) h), Nat.testBit_two_pow]
  simp [eq_comm]

theorem not_testBit (x : UInt64) (k : Nat) (h : k < 64) : (~~~x).toNat.testBit k = !x.toNat.testBit k := by
  rw [UInt64.toNat_not, show UInt64.size - 1 - x.toNat = 2 ^ 64 - (x.toNat + 1) by
    simp only [UInt64.size]; omega]
  rw [Nat.testBit_two_pow_sub_succ x.toNat_lt]
  simp [h]

theorem ne_of_div_mod {i j : Nat} : (j / 64 = i / 64 ∧ j % 64 = i % 64) ↔ j = i := by omega

theorem get_empty (i : Nat) : (empty : Charset N).get i = false := by
  rw [get_eq]
  have : (empty : Charset N).limb (i / 64) = 0 := by
    simp only [limb, empty, List.getD_eq_getElem?_getD, List.getElem?_replicate]
    split <;> rfl
  rw [this]
  exact Nat.zero_testBit _

theorem get_set (s : Charset N) (i j : Nat) (h : i < N) :
    (s.set i).get j = (decide (j = i) || s.get j) := by
  rw [get_eq, get_eq, set, limb_setLimb _ _ _ _ (limb_lt h)]
  have := @ne_of_div_mod i j
  split
  · rename_i hd
    rw [UInt64.toNat_or, Nat.testBit_or, shl_one_testBit _ _ (Nat.mod_lt _ (by omega)), hd]
    rw [Bool.or_comm]
    congr 1
    exact decide_eq_decide.2 (by omega)
  · simp; omega

theorem get_clear (s : Charset N) (i j : Nat) (h : i < N) :
    (s.clear i).get j = (!decide (j = i) && s.get j) := by
  rw [get_eq, get_eq, clear, limb_setLimb _ _ _ _ (limb_lt h)]
  split
  · rename_i hd
    rw [UInt64.toNat_and, Nat.testBit_and, not_testBit _ _ (Nat.mod_lt _ (by omega)),
      shl_one_testBit _ _ (Nat.mod_lt _ (by omega)), hd, Bool.and_comm]
    congr 2
    exact decide_eq_decide.2 (by omega)
  · rename_i hd
    have : ¬ j = i := by omega
    simp [this]

/-- A new set is empty; inserting and removing a character changes the membership of that
character only. -/
theorem C18_insert_remove (s : Charset N) (i j : Nat) (h : i < N) :
    (empty : Charset N).get j = false ∧
    (s.set i).get j = (decide (j = i) || s.get j) ∧
    (s.clear i).get j = (!decide (j = i) && s.get j) ∧
    ∀ v, (s.setBool i v).get j = if j = i then v else s.get j := by
  refine ⟨get_empty j, get_set s i j h, get_clear s i j h, ?_⟩
  intro v
  cases v
  · have e : s.setBool i false = s.clear i := by
      simp only [setBool]
      have : (if false = true then (1 : UInt64) else 0) <<< UInt64.ofNat (i % 64) = 0 := by
        simp
      rw [this]
      simp only [clear, setLimb, limb, UInt64.or_zero]
      congr 1
      simp only [List.getD_eq_getElem?_getD]
      have hlt : i / 64 < s.limbs.length := by rw [s.size]; exact limb_lt h
      rw [List.getElem?_set_self hlt]
      simp
    rw [e, get_clear s i j h]
    by_cases hj : j = i <;> simp [hj]
  · have e : s.setBool i true = (s.clear i).set i := by simp [setBool, set]
    rw [e, get_set _ i j h, get_clear s i j h]
    by_cases hj : j = i <;> simp [hj]

theorem limb_zip (f : UInt64 → UInt64 → UInt64) (s t : Charset N) (i : Nat) (h : i < limbCount N) :
    (zip f s t).limb i = f (s.limb i) (t.limb i) := by
  have hs : i < s.limbs.length := by rw [s.size]; exact h
  have ht : i < t.limbs.length := by rw [t.size]; exact h
  simp [limb, zip, List.getD_eq_getElem?_getD, List.getElem?_zipWith, hs, ht]

/-- The set operations act pointwise on membership. -/
theorem C18_operations (s t : Charset N) (i : Nat) (h : i < N) :
    (s.union t).get i = (s.get i || t.get i) ∧
    (s.inter t).get i = (s.get i && t.get i) ∧
    (s.diff t).get i = (s.get i && !t.get i) ∧
    s.compl.get i = !s.get i := by
  have hl := limb_lt h
  have hm : i % 64 < 64 := Nat.mod_lt _ (by omega)
  refine ⟨?_, ?_, ?_, ?_⟩
  · rw [get_eq, get_eq, get_eq, union, limb_zip _ _ _ _ hl, UInt64.toNat_or, Nat.testBit_or]
  · rw [get_eq, get_eq, get_eq, inter, limb_zip _ _ _ _ hl, UInt64.toNat_and, Nat.testBit_and]
  · rw [get_eq, get_eq, get_eq, diff, limb_zip _ _ _ _ hl, UInt64.toNat_and, Nat.testBit_and,
      not_testBit _ _ hm]
  · rw [get_eq, get_eq]
    have : s.compl.limb (i / 64) = ~~~(s.limb (i / 64)) := by
      have hs : i / 64 < s.limbs.length := by rw [s.size]; exact hl
      simp [limb, compl, List.getD_eq_getElem?_getD, hs]
    rw [this, not_testBit _ _ hm]

/-- Sets built from a predicate, a character or a string contain exactly the intended
characters. -/
theorem C18_construction (p : UInt8 → Bool) (c d : UInt8) (str : Bytes) :
    (fromPredicate p : Charset 256).contains c = p c ∧
    (ofChar d : Charset 256).contains c = (c == d) ∧
    (ofString str : Charset 256).contains c = str.contains c ∧
    (fromPredicate p : Charset 256).contains32 c.toNat = p c := by
  have hp : ∀ n (s : Charset 256), n ≤ 256 → ∀ j, j < 256 →
      ((List.range n).foldl (fun r i => if p (UInt8.ofNat i) then r.set i else r) s).get j
        = (s.get j || (decide (j < n) && p (UInt8.ofNat j))) := by
    intro n
    induction n with
    | zero => intro s _ j _; simp
    | succ n ih =>
      intro s hn j hj
      rw [List.range_succ, List.foldl_append, List.foldl_cons, List.foldl_nil]
      have ih := ih s (by omega) j hj
      by_cases hpn : p (UInt8.ofNat n) = true
      · rw [if_pos hpn, get_set _ _ _ (by omega), ih]
        by_cases hjn : j = n
        · subst hjn; simp [hpn]
        · have : decide (j < n + 1) = decide (j < n) := decide_eq_decide.2 (by omega)
          simp [hjn, this]
      · rw [if_neg hpn, ih]
        by_cases hjn : j = n
        · subst hjn; simp [hpn]
        · have : decide (j < n + 1) = decide (j < n) := decide_eq_decide.2 (by omega)
          rw [this]
  have hs : ∀ (str : Bytes) (s : Charset 256),
      (str.foldl (fun r c => r.set c.toNat) s).get c.toNat = (s.get c.toNat || str.contains c) := by
    intro str
    induction str with
    | nil => intro s; simp
    | cons a t ih =>
      intro s
      rw [List.foldl_cons, ih, get_set _ _ _ a.toNat_lt, List.contains_cons]
      have : decide (c.toNat = a.toNat) = (c == a) := by
        rw [Bool.eq_iff_iff]; simp [UInt8.toNat_inj]
      rw [this]
      cases (c == a) <;> cases s.get c.toNat <;> simp
  have h1 : (fromPredicate p : Charset 256).get c.toNat = p c := by
    rw [fromPredicate, hp 256 empty (Nat.le_refl _) c.toNat c.toNat_lt, get_empty]
    have : decide (c.toNat < 256) = true := by simpa using c.toNat_lt
    simp [this]
  refine ⟨h1, ?_, ?_, ?_⟩
  · rw [contains, ofChar, get_set _ _ _ d.toNat_lt, get_empty]
    rw [Bool.eq_iff_iff]; simp [UInt8.toNat_inj]
  · rw [contains, ofString, hs, get_empty]; simp
  · rw [contains32, if_pos (by have := c.toNat_lt; omega), h1]

/-- `range_before(i, j)` is undefined for every `j` below the first character of the last limb,
because the bound is computed relative to limbs that lie entirely behind the range. -/
theorem C18_range_before_undefined (i j : Nat) (hij : i ≤ j) (hj : j < 192) :
    rangeBefore 256 i j = .error .outOfBounds := by
  have key : ∀ n limb, j < (limb + n - 1) * 64 → 0 < n → n + limb ≤ 4 →
      rangeLimbs i j n limb = .error .outOfBounds := by
    intro n
    induction n with
    | zero => intro limb _ h; omega
    | succ n ih =>
      intro limb h _ hb
      simp only [rangeLimbs]
      by_cases hl : j < limb * 64
      · have : rangeLimb i j limb = .error .outOfBounds := by
          simp only [rangeLimb]
          rw [if_neg (c := i > limb * 64) (by omega), if_pos (c := j < limb * 64 + 64) (by omega)]
          have : (j + 2 ^ 64 - limb * 64) % 2 ^ 64 = j + 2 ^ 64 - limb * 64 := by omega
          rw [this, if_pos (by omega), if_neg (by omega), if_neg (by omega), if_pos (by omega)]
        rw [this]
      · have hr := ih (limb + 1) (by omega) (by omega) (by omega)
        have : ∃ r, rangeLimb i j limb = r := ⟨_, rfl⟩
        obtain ⟨r, hr'⟩ := this
        cases r with
        | error f =>
          rw [hr']
          simp only [rangeLimb] at hr'
          grind
        | ok x => rw [hr', hr]
  unfold rangeBefore
  rw [if_neg (by omega), show limbCount 256 = 4 from rfl]
  exact key 4 0 (by omega) (by omega) (by omega)

/-- When the range reaches the last limb, `range_before` contains exactly the characters of
`[i, j)`.  Missing for the full property: `j < 192`, where the code is undefined
(`C18_range_before_undefined`). -/
theorem C18_range_before_partial (i j : Nat) (hij : i ≤ j) (hi : i < 256) (hj : j ≤ 256) (hj' : 192 ≤ j) :
    ∃ l, ∃ _ : rangeBefore 256 i j = .ok l, ∃ hl : l.length = limbCount 256,
      ∀ k, k < 256 → (⟨l, hl⟩ : Charset 256).get k = decide (i ≤ k ∧ k < j) := by
  have hlimb : ∀ limb, limb < 4 → ∃ x, rangeLimb i j limb = .ok x ∧
      ∀ b, b < 64 → x.toNat.testBit b = decide (i ≤ limb * 64 + b ∧ limb * 64 + b < j) := by
    intro limb hl
    have all : ∀ b, b < 64 → (~~~(0 : UInt64)).toNat.testBit b = true := by
      intro b hb; rw [not_testBit _ _ hb]; simp
    have shl : ∀ lo b, lo < 64 → b < 64 →
        ((~~~(0 : UInt64)) <<< UInt64.ofNat lo).toNat.testBit b = decide (lo ≤ b) := by
      intro lo b hlo hb
      rw [UInt64.toNat_shiftLeft, UInt64.toNat_ofNat', Nat.mod_eq_of_lt (a := lo) (by omega),
        Nat.mod_eq_of_lt hlo, Nat.testBit_mod_two_pow, Nat.testBit_shiftLeft]
      by_cases h : lo ≤ b
      · simp only [hb, h, decide_true, Bool.true_and]
        exact all _ (by omega)
      · simp [h]
    have himask : ∀ hi b, hi < 64 → b < 64 →
        (((1 : UInt64) <<< UInt64.ofNat hi) - 1).toNat.testBit b = decide (b < hi) := by
      intro hi b hh hb
      have h1 : (1 : UInt64).toNat = 1 := rfl
      have e : ((1 : UInt64) <<< UInt64.ofNat hi).toNat = 2 ^ hi := by
        rw [UInt64.toNat_shiftLeft, UInt64.toNat_ofNat', Nat.mod_eq_of_lt (a := hi) (by omega),
          Nat.mod_eq_of_lt hh, h1, Nat.one_shiftLeft,
          Nat.mod_eq_of_lt (Nat.pow_lt_pow_right (by omega) hh)]
      have hle : (1 : UInt64) ≤ (1 : UInt64) <<< UInt64.ofNat hi := by
        rw [UInt64.le_iff_toNat_le, e, h1]; exact Nat.one_le_two_pow
      rw [UInt64.toNat_sub_of_le _ _ hle, e, h1, Nat.testBit_two_pow_sub_one]
    simp only [rangeLimb]
    have hjl : limb * 64 ≤ j := by omega
    have hmod : (j + 2 ^ 64 - limb * 64) % 2 ^ 64 = j - limb * 64 := by omega
    rw [hmod]
    generalize hlo : (if i > limb * 64 then i - limb * 64 else 0) = lo
    generalize hhi : (if j < limb * 64 + 64 then j - limb * 64 else 64) = hi'
    have hlo' : lo = i - limb * 64 := by rw [← hlo]; split <;> omega
    have hhi' : hi' = min 64 (j - limb * 64) := by rw [← hhi]; split <;> omega
    by_cases h : lo < hi'
    · rw [if_pos h, if_neg (by omega)]
      by_cases h64 : hi' = 64
      · rw [if_pos h64]
        refine ⟨_, rfl, fun b hb => ?_⟩
        rw [UInt64.toNat_and, Nat.testBit_and, shl _ _ (by omega) hb, all _ hb, Bool.and_true]
        exact decide_eq_decide.2 (by omega)
      · rw [if_neg h64, if_neg (by omega)]
        refine ⟨_, rfl, fun b hb => ?_⟩
        rw [UInt64.toNat_and, Nat.testBit_and, shl _ _ (by omega) hb, himask _ _ (by omega) hb,
          Bool.eq_iff_iff]
        simp; omega
    · rw [if_neg h]
      refine ⟨0, rfl, fun b hb => ?_⟩
      have : ¬ (i ≤ limb * 64 + b ∧ limb * 64 + b < j) := by omega
      simp [this]
  obtain ⟨x0, h0, b0⟩ := hlimb 0 (by omega)
  obtain ⟨x1, h1, b1⟩ := hlimb 1 (by omega)
  obtain ⟨x2, h2, b2⟩ := hlimb 2 (by omega)
  obtain ⟨x3, h3, b3⟩ := hlimb 3 (by omega)
  refine ⟨[x0, x1, x2, x3], ?_, rfl, ?_⟩
  · unfold rangeBefore
    rw [if_neg (by omega), show limbCount 256 = 4 from rfl]
    simp [rangeLimbs, h0, h1, h2, h3]
  · intro k hk
    rw [get_eq]
    have hm : k % 64 < 64 := Nat.mod_lt _ (by omega)
    have hd : k / 64 = 0 ∨ k / 64 = 1 ∨ k / 64 = 2 ∨ k / 64 = 3 := by omega
    rcases hd with h | h | h | h <;> rw [h]
    · exact (b0 _ hm).trans (decide_eq_decide.2 (by omega))
    · exact (b1 _ hm).trans (decide_eq_decide.2 (by omega))
    · exact (b2 _ hm).trans (decide_eq_decide.2 (by omega))
    · exact (b3 _ hm).trans (decide_eq_decide.2 (by omega))

example : rangeBefore 256 0x30 0x3A = .error .outOfBounds := by rfl
example : rangeBefore 256 250 256 = .ok [0, 0, 0, 0xFC00000000000000] := by rfl

end Charset

/-! ## C19 -/

namespace Ascii

theorem upper_iff_lower (x y : UInt8) : toUpper x = toUpper y ↔ toLower x = toLower y := by
  have h : ∀ x : UInt8, toLower x = toLower (toUpper x) ∧ toUpper x = toUpper (toLower x) := by
    apply forall_byte; decide +kernel
  constructor
  · intro e; rw [(h x).1, (h y).1, e]
  · intro e; rw [(h x).2, (h y).2, e]

/-- Lower-casing changes `A`–`Z` to `a`–`z` and nothing else. -/
theorem C19_to_lower (c : UInt8) :
    (toLower c).toNat = (if 0x41 ≤ c.toNat ∧ c.toNat ≤ 0x5A then c.toNat + 32 else c.toNat) ∧
    (toUpper c).toNat = (if 0x61 ≤ c.toNat ∧ c.toNat ≤ 0x7A then c.toNat - 32 else c.toNat) := by
  revert c; apply forall_byte; decide +kernel

/-- Comparing after lower-casing: the result is the lexicographic order of the lower-cased
strings. -/
theorem C19_compare (x y : Bytes) :
    (compareToLower x y = .eq ↔ x.map toLower = y.map toLower) ∧
    (compareToLower x y = .lt ↔ bytesLt (x.map toLower) (y.map toLower) = true) ∧
    (compareToLower x y = .gt ↔ bytesLt (y.map toLower) (x.map toLower) = true) := by
  induction x generalizing y with
  | nil =>
    cases y with
    | nil => simp [compareToLower, bytesLt, compare, compareOfLessAndEq]
    | cons b y => simp [compareToLower, bytesLt, compare, compareOfLessAndEq]
  | cons a x ih =>
    cases y with
    | nil => simp [compareToLower, bytesLt, compare, compareOfLessAndEq]
    | cons b y =>
      simp only [compareToLower, List.map_cons, bytesLt]
      by_cases h : toLower a = toLower b
      · simp [h, ih y, UInt8.lt_irrefl]
      · have hn : (toLower a).toNat ≠ (toLower b).toNat := fun e => h (UInt8.toNat_inj.1 e)
        simp only [ne_eq, h, not_false_eq_true, if_true, UInt8.lt_iff_toNat_lt, List.cons.injEq,
          false_and, iff_false]
        rcases Nat.lt_or_gt_of_ne hn with hl | hl
        · have hl' : ¬ (toLower b).toNat < (toLower a).toNat := by omega
          simp [compare, compareOfLessAndEq, hl, hl']
        · have hl' : ¬ (toLower a).toNat < (toLower b).toNat := by omega
          simp [compare, compareOfLessAndEq, hl, hl', hn]

theorem same_iff (x y : Bytes) (h : x.length ≤ y.length) :
    sameIgnoringCase x y = true ↔ x.map toLower = (y.take x.length).map toLower := by
  induction x generalizing y with
  | nil => cases y <;> simp [sameIgnoringCase]
  | cons a x ih =>
    cases y with
    | nil => simp at h
    | cons b y =>
      simp only [sameIgnoringCase, List.map_cons, List.length_cons, List.take_succ_cons,
        List.cons.injEq]
      have hi := upper_iff_lower a b
      by_cases he : toUpper a = toUpper b
      · simp [he, ← hi, ih y (by simpa using h)]
      · simp [he, ← hi]

/-- Equality, prefix and substring tests that ignore case are the exact tests on lower-cased
strings. -/
theorem C19_ignore_case (x y : Bytes) :
    (equalsIgnoreCase x y = true ↔ x.map toLower = y.map toLower) ∧
    (startsWithIgnoreCase x y = true ↔ y.map toLower <+: x.map toLower) ∧
    (containsIgnoreCase x y = true ↔ y.map toLower <:+: x.map toLower) := by
  have heq : ∀ x y : Bytes, equalsIgnoreCase x y = true ↔ x.map toLower = y.map toLower := by
    intro x y
    unfold equalsIgnoreCase
    by_cases h : x.length = y.length
    · rw [if_neg (by simpa using h), same_iff x y (by omega), h, List.take_length]
    · rw [if_pos h]
      simp only [Bool.false_eq_true, false_iff]
      intro e
      exact h (by simpa using congrArg List.length e)
  refine ⟨heq x y, ?_, ?_⟩
  · unfold startsWithIgnoreCase
    by_cases h : y.length ≤ x.length
    · rw [if_neg (by omega), same_iff y x h, List.prefix_iff_eq_take, List.map_take]
      simp
    · rw [if_pos (by omega)]
      simp only [Bool.false_eq_true, false_iff]
      intro e
      have := e.length_le
      simp at this; omega
  · unfold containsIgnoreCase
    by_cases hy : y = []
    · simp [hy]
    rw [if_neg hy]
    have hpos : 0 < y.length := List.length_pos_iff.2 hy
    induction x with
    | nil =>
      simp only [containsLoop]
      have : ¬ y.length ≤ 0 := by omega
      simp [this, hy]
    | cons a x ih =>
      simp only [containsLoop]
      by_cases hl : y.length ≤ (a :: x).length
      · rw [if_pos hl]
        have hpre : equalsIgnoreCase ((a :: x).take y.length) y = true ↔
            y.map toLower <+: (a :: x).map toLower := by
          rw [heq, List.prefix_iff_eq_take, List.map_take]
          simp only [List.length_map]
          exact eq_comm
        by_cases he : equalsIgnoreCase ((a :: x).take y.length) y = true
        · rw [if_pos he]
          simp only [true_iff]
          exact (hpre.1 he).isInfix
        · rw [if_neg he]
          refine ih.trans ?_
          rw [List.map_cons, List.infix_cons_iff]
          rw [hpre, List.map_cons] at he
          simp [he]
      · rw [if_neg hl]
        simp only [Bool.false_eq_true, false_iff]
        intro e
        have := e.length_le
        simp at this hl; omega

example : equalsIgnoreCase (b!"HtMl") (b!"html") = true ∧ containsIgnoreCase (b!"a <BR>") (b!"<br") = true
    ∧ equalsIgnoreCase (b!"@") (b!"`") = false := by decide +kernel

end Ascii
end Ulight
