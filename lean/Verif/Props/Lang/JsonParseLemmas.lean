import Verif.Spec.Lang.JsonParse
import Verif.Props.Lang.JsonMatch
import Verif.Props.Lang.JsCommon
import Verif.Hl.Lemmas
import Verif.Hl.Scan

/-!
# The steps of `parse_json`
-/

namespace Ulight.Json.Parser

open Spec Spec.Json Spec.JsonParse

/-! ## Positions -/

/-- The number of bytes after the last line feed. -/
def column (u : Bytes) : Nat := (u.reverse.takeWhile (· ≠ 0x0A)).length

theorem column_append_same {u v : Bytes} (h : (0x0A : UInt8) ∉ v) :
    column (u ++ v) = column u + v.length := by
  unfold column
  rw [List.reverse_append, List.takeWhile_append]
  have : v.reverse.takeWhile (· ≠ 0x0A) = v.reverse := by
    have : ∀ w : Bytes, (0x0A : UInt8) ∉ w → w.takeWhile (· ≠ 0x0A) = w := by
      intro w hw
      induction w with
      | nil => rfl
      | cons c w ih =>
        simp at hw
        rw [List.takeWhile_cons_of_pos (by simpa using Ne.symm hw.1), ih hw.2]
    exact this _ (by simpa using h)
  rw [this]
  simp
  omega

theorem column_newline (u : Bytes) : column (u ++ [0x0A]) = 0 := by
  simp [column]

theorem posAt_eq (src : Bytes) (k : Nat) :
    posAt src k = ⟨k, (src.take k).count 0x0A, column (src.take k)⟩ := rfl

theorem take_add_drop {src : Bytes} {i n : Nat} :
    src.take (i + n) = src.take i ++ (src.drop i).take n := List.take_add

theorem posAt_same {src : Bytes} {i n : Nat} (hn : i + n ≤ src.length)
    (h : (0x0A : UInt8) ∉ (src.drop i).take n) :
    posAt src (i + n) = ⟨i + n, (posAt src i).line, (posAt src i).lineCodeUnit + n⟩ := by
  simp only [posAt_eq, take_add_drop, List.count_append, column_append_same h]
  rw [List.count_eq_zero_of_not_mem h]
  simp
  omega

theorem posAt_newline {src : Bytes} {i n : Nat} (h : (0x0A : UInt8) ∉ (src.drop i).take n)
    (hc : src[i + n]? = some 0x0A) :
    posAt src (i + (n + 1)) = ⟨i + (n + 1), (posAt src i).line + 1, 0⟩ := by
  have e : (src.drop i).take (n + 1) = (src.drop i).take n ++ [0x0A] := by
    rw [List.take_add_one]
    simp [List.getElem?_drop, hc]
  simp only [posAt_eq, take_add_drop, e, List.count_append, ← List.append_assoc, column_newline]
  rw [List.count_eq_zero_of_not_mem h]
  simp

/-! ## States -/

/-- The state at the index `i` with the events `es`. -/
def st (env : HEnv) (i : Nat) (es : List Event) : HS Ext :=
  ⟨env.src.drop i, i, [], ⟨(posAt env.src i).line, (posAt env.src i).lineCodeUnit, es⟩⟩

section

variable {env : HEnv} {i n : Nat} {es : List Event}

theorem st_rem : (st env i es).rem = env.src.drop i := rfl

theorem wp_visit {p : Payload} {Q : Unit → HS Ext → Prop} : wp (visit p) Q env (st env i es) ↔
    Q () (st env i (es ++ [⟨posAt env.src i, p⟩])) := wp_of_ok rfl

theorem wp_fail {e : JError} {Q : Bool → HS Ext → Prop} : wp (fail e) Q env (st env i es) ↔
    Q false (st env i (es ++ [⟨posAt env.src i, .error e⟩])) := wp_of_ok rfl

theorem wp_same {Q : Unit → HS Ext → Prop} (hn : i + n ≤ env.src.length)
    (h : (0x0A : UInt8) ∉ (env.src.drop i).take n) :
    wp (advanceSame n) Q env (st env i es) ↔ Q () (st env (i + n) es) := by
  apply wp_of_ok
  have h1 : n ≤ (env.src.drop i).length := by simp; omega
  have h2 := posAt_same hn h
  simp only [advanceSame, bind, HM.bind, HM.advance, HM.modify, st, h1, if_true, h2, List.drop_drop]

theorem findIdx_cases (u : Bytes) :
    (u.findIdx? (· == 0x0A) = none ∧ (0x0A : UInt8) ∉ u) ∨
    ∃ k, u.findIdx? (· == 0x0A) = some k ∧ k < u.length ∧ u[k]? = some 0x0A ∧
      (0x0A : UInt8) ∉ u.take k := by
  induction u with
  | nil => simp
  | cons c u ih =>
    rw [List.findIdx?_cons]
    by_cases hc : c = 0x0A
    · right
      exact ⟨0, by simp [hc]⟩
    · rcases ih with ⟨h1, h2⟩ | ⟨k, h1, h2, h3, h4⟩
      · left
        simp [hc, h1, h2, Ne.symm hc]
      · right
        refine ⟨k + 1, by simp [hc, h1], by simp; omega, by simpa using h3, ?_⟩
        simp [h4, Ne.symm hc]

theorem wp_loop_succ {α β : Type} {σ : Type} {fuel : Nat} {body : β → HM σ (β ⊕ α)} {b : β}
    {Q : α → HS σ → Prop} {s : HS σ} :
    wp (HM.loop (fuel + 1) body b) Q env s ↔ wp (body b) (fun a s' =>
      match a with
      | .inl b' => wp (HM.loop fuel body b') Q env s'
      | .inr a => Q a s') env s := by
  conv => lhs; unfold HM.loop
  rw [wp_bind]
  constructor <;>
  · intro h
    refine wp_mono h ?_
    intro a s' h
    cases a <;> simpa using h

theorem wp_advanceLoop {Q : Unit → HS Ext → Prop} (fuel : Nat) : ∀ (i n : Nat),
    i + n ≤ env.src.length → n < fuel →
    (wp (HM.loop fuel advanceStep n) Q env (st env i es) ↔ Q () (st env (i + n) es)) := by
  induction fuel with
  | zero => intro i n _ h; omega
  | succ fuel ih =>
    intro i n hn hf
    rw [wp_loop_succ]
    conv => enter [1, 1]; unfold advanceStep
    by_cases h0 : n = 0
    · subst h0
      simp
    · rw [if_neg h0]
      simp only [wp_bind, wp_rem, st_rem]
      have hl : ((env.src.drop i).take n).length = n := by simp; omega
      rcases findIdx_cases ((env.src.drop i).take n) with ⟨h1, h2⟩ | ⟨k, h1, h2, h3, h4⟩
      · rw [h1]
        simp only [wp_bind]
        rw [wp_same hn h2]
        simp
      · rw [h1]
        simp only [wp_bind]
        rw [hl] at h2
        rw [List.take_take, Nat.min_eq_left (by omega)] at h4
        have hc : env.src[i + k]? = some 0x0A := by
          rw [List.getElem?_take_of_lt h2, List.getElem?_drop] at h3
          exact h3
        rw [wp_advance_iff (by simp [st]; omega)]
        have e1 := posAt_newline h4 hc
        rw [wp_of_ok (m := HM.modify _) (a := ()) (s' := st env (i + (k + 1)) es)
          (by simp [HM.modify, st, HS.adv, e1])]
        rw [wp_of_ok (m := HM.dassert _) (a := ()) (s' := st env (i + (k + 1)) es)
          (by simp [HM.dassert]; intro h; omega)]
        rw [wp_pure]
        simp only []
        rw [ih _ _ (by omega) (by omega)]
        rw [show i + (k + 1) + (n - (k + 1)) = i + n by omega]

theorem wp_adv {Q : Unit → HS Ext → Prop} (hn : i + n ≤ env.src.length) :
    wp (advance n) Q env (st env i es) ↔ Q () (st env (i + n) es) :=
  wp_advanceLoop (n + 1) i n hn (by omega)

end

end Ulight.Json.Parser
