import Mathlib.Data.List.Basic
import Mathlib.Tactic.Linarith
import Verif.Model.NumPy

/-! Helper lemmas about lists and Python slices. -/

namespace Resistics

theorem pyBound_of_nonneg {n : ℕ} {a : ℤ} (h : 0 ≤ a) (hn : a ≤ n) : pyBound n a = a.toNat := by
  unfold pyBound
  rw [if_neg (by omega)]
  omega

theorem pySlice_eq {α : Type _} (l : List α) {a b : ℤ} (ha : 0 ≤ a) (hab : a ≤ b)
    (hb : b ≤ l.length) : pySlice l a b = (l.drop a.toNat).take (b.toNat - a.toNat) := by
  unfold pySlice
  rw [pyBound_of_nonneg ha (by omega), pyBound_of_nonneg (by omega) hb, List.drop_take]

theorem pySlice_length {α : Type _} (l : List α) {a b : ℤ} (ha : 0 ≤ a) (hab : a ≤ b)
    (hb : b ≤ l.length) : ((pySlice l a b).length : ℤ) = b - a := by
  rw [pySlice_eq l ha hab hb]
  simp; omega

/-- Filtering an enumerated list by an index interval is slicing it. -/
theorem filter_zipIdx_interval {α : Type _} (l : List α) (a b k : ℕ) :
    ((l.zipIdx k).filter fun p => decide (a ≤ p.2 ∧ p.2 ≤ b))
      = ((l.drop (a - k)).take (b + 1 - max a k)).zipIdx (max a k) := by
  induction l generalizing k with
  | nil => simp
  | cons x l ih =>
    rw [List.zipIdx_cons]
    by_cases h1 : a ≤ k
    · by_cases h2 : k ≤ b
      · rw [List.filter_cons_of_pos (by simp [h1, h2]), ih]
        have e1 : a - (k + 1) = 0 := by omega
        have e2 : a - k = 0 := by omega
        have e3 : max a (k + 1) = k + 1 := by omega
        have e4 : max a k = k := by omega
        have e5 : b + 1 - k = (b + 1 - (k + 1)) + 1 := by omega
        rw [e1, e2, e3, e4, e5]
        simp [List.zipIdx_cons]
      · have e4 : max a k = k := by omega
        have e5 : b + 1 - k = 0 := by omega
        rw [List.filter_cons_of_neg (by simp [h2]), ih]
        have e6 : b + 1 - max a (k + 1) = 0 := by omega
        simp [e4, e5, e6]
    · rw [List.filter_cons_of_neg (by simp [h1]), ih]
      have e1 : a - k = (a - (k + 1)) + 1 := by omega
      have e2 : max a (k + 1) = max a k := by omega
      rw [e1, e2]; simp

/-- Version for a slice and arbitrary index predicate that agrees with an interval. -/
theorem filter_zipIdx_eq_slice {α : Type _} (l : List α) (P : ℕ → Bool) {a b : ℤ} (ha : 0 ≤ a)
    (hab : a ≤ b) (hb : b < l.length)
    (hP : ∀ j : ℕ, j < l.length → (P j = true ↔ a ≤ j ∧ (j : ℤ) ≤ b)) :
    (l.zipIdx.filter fun p => P p.2) = (pySlice l a (b + 1)).zipIdx a.toNat := by
  have h := filter_zipIdx_interval l a.toNat b.toNat 0
  rw [pySlice_eq l ha (by omega) (by omega)]
  have e : (b + 1).toNat - a.toNat = b.toNat + 1 - a.toNat := by omega
  simp only [Nat.sub_zero, Nat.max_zero] at h
  rw [e, ← h]
  apply List.filter_congr
  rintro ⟨x, j⟩ hj
  have hjl : j < l.length := by
    have := List.mem_zipIdx hj
    omega
  have := hP j hjl
  simp only
  by_cases hc : P j = true
  · rw [hc]; have := this.mp hc
    symm; simp; omega
  · have h2 : ¬ (a ≤ j ∧ (j : ℤ) ≤ b) := fun h => hc (this.mpr h)
    simp only [Bool.not_eq_true] at hc
    rw [hc]; symm; simp; omega

theorem zipIdx_shift_map {α β : Type _} (l : List α) (k : ℕ) (f : α → ℕ → β) :
    (l.zipIdx k).map (fun p => f p.1 p.2) = l.zipIdx.map (fun p => f p.1 (p.2 + k)) := by
  apply List.ext_getElem
  · simp
  · intro i h1 h2
    simp [Nat.add_comm]

theorem pyIndex_natCast {α : Type _} (l : List α) (k : ℕ) (h : k < l.length) :
    pyIndex l (k : ℤ) = .ok l[k] := by
  have : ¬ ((k : ℤ) < 0) := by omega
  simp [pyIndex, this, h]

theorem pyIndex_natCast_ge {α : Type _} (l : List α) (k : ℕ) (h : l.length ≤ k) :
    pyIndex l (k : ℤ) = .error .index := by
  have : ¬ ((k : ℤ) < 0) := by omega
  simp [pyIndex, this, h]

theorem pyIndex_ok {α : Type _} {l : List α} {k : ℕ} {a : α} (h : pyIndex l (k : ℤ) = .ok a) :
    l[k]? = some a := by
  by_cases hk : k < l.length
  · rw [pyIndex_natCast l k hk] at h
    injection h with h
    simp [hk, h]
  · rw [pyIndex_natCast_ge l k (by omega)] at h
    cases h

end Resistics
