import Mathlib.Tactic.Linarith
import Mathlib.Tactic.FieldSimp
import Mathlib.Tactic.Ring
import Mathlib.Data.List.Basic
import Verif.Model.NumPy

/-! Helper lemmas: `np.interp`. -/

namespace Resistics

/-- At or after point `(xp, yp)` and before `(xq, yq)` the value is on the chord. -/
theorem npInterpFrom_between (p0 : ℚ × ℚ) (l r : List (ℚ × ℚ)) (xp yp xq yq x : ℚ)
    (hx : xp ≤ x) (hxq : x < xq) (hl : ∀ p ∈ l, p.1 ≤ x) :
    npInterpFrom p0 (l ++ (xp, yp) :: (xq, yq) :: r) x = (yq - yp) / (xq - xp) * (x - xp) + yp := by
  induction l generalizing p0 with
  | nil =>
    obtain ⟨a, b⟩ := p0
    simp only [List.nil_append, npInterpFrom]
    rw [if_neg (not_lt.mpr hx), if_pos hxq, if_neg (not_lt.mpr hx)]
  | cons q l ih =>
    obtain ⟨a, b⟩ := p0
    obtain ⟨c, d⟩ := q
    have : c ≤ x := hl (c, d) (by simp)
    simp only [List.cons_append, npInterpFrom]
    rw [if_neg (not_lt.mpr this)]
    exact ih (c, d) (fun p hp => hl p (by simp [hp]))

theorem npInterp_between (l r : List (ℚ × ℚ)) (xp yp xq yq x : ℚ)
    (hx : xp ≤ x) (hxq : x < xq) (hl : ∀ p ∈ l, p.1 ≤ x) :
    npInterp (l ++ (xp, yp) :: (xq, yq) :: r) x = .ok ((yq - yp) / (xq - xp) * (x - xp) + yp) := by
  cases l with
  | nil =>
    simp only [List.nil_append, npInterp, npInterpFrom]
    rw [if_pos hxq, if_neg (not_lt.mpr hx)]
  | cons q l =>
    simp only [List.cons_append, npInterp]
    rw [npInterpFrom_between q l r xp yp xq yq x hx hxq (fun p hp => hl p (by simp [hp]))]

/-- Before the first point the value is constant. -/
theorem npInterp_before (x0 y0 : ℚ) (r : List (ℚ × ℚ)) (x : ℚ) (hx : x < x0)
    (hr : ∀ p ∈ r, x0 ≤ p.1) : npInterp ((x0, y0) :: r) x = .ok y0 := by
  cases r with
  | nil => rfl
  | cons q r =>
    obtain ⟨c, d⟩ := q
    have : x0 ≤ c := hr (c, d) (by simp)
    simp only [npInterp, npInterpFrom]
    rw [if_pos (by linarith), if_pos hx]

/-- At or after the last point the value is constant. -/
theorem npInterpFrom_after (p0 : ℚ × ℚ) (l : List (ℚ × ℚ)) (xp yp x : ℚ) (hx : xp ≤ x)
    (hl : ∀ p ∈ l, p.1 ≤ x) : npInterpFrom p0 (l ++ [(xp, yp)]) x = yp := by
  induction l generalizing p0 with
  | nil =>
    obtain ⟨a, b⟩ := p0
    simp only [List.nil_append, npInterpFrom]
    rw [if_neg (not_lt.mpr hx)]
  | cons q l ih =>
    obtain ⟨a, b⟩ := p0
    obtain ⟨c, d⟩ := q
    have : c ≤ x := hl (c, d) (by simp)
    simp only [List.cons_append, npInterpFrom]
    rw [if_neg (not_lt.mpr this)]
    exact ih (c, d) (fun p hp => hl p (by simp [hp]))

theorem npInterp_after (l : List (ℚ × ℚ)) (xp yp x : ℚ) (hx : xp ≤ x)
    (hl : ∀ p ∈ l, p.1 ≤ x) : npInterp (l ++ [(xp, yp)]) x = .ok yp := by
  cases l with
  | nil => rfl
  | cons q l =>
    simp only [List.cons_append, npInterp]
    rw [npInterpFrom_after q l xp yp x hx (fun p hp => hl p (by simp [hp]))]

/-- At a point of a strictly increasing table the value is the table's. -/
theorem npInterp_at (l r : List (ℚ × ℚ)) (xp yp : ℚ) (hl : ∀ p ∈ l, p.1 ≤ xp)
    (hr : ∀ p ∈ r, xp < p.1) : npInterp (l ++ (xp, yp) :: r) xp = .ok yp := by
  cases r with
  | nil => exact npInterp_after l xp yp xp (le_refl _) hl
  | cons q r =>
    obtain ⟨c, d⟩ := q
    rw [npInterp_between l r xp yp c d xp (le_refl _) (hr (c, d) (by simp)) hl]
    congr 1; ring

theorem npInterp_ok (pts : List (ℚ × ℚ)) (x : ℚ) (h : pts ≠ []) : ∃ y, npInterp pts x = .ok y := by
  cases pts with
  | nil => exact absurd rfl h
  | cons p r => exact ⟨_, rfl⟩

end Resistics
