import Mathlib.Data.Rat.Floor
import Mathlib.Algebra.Order.Floor.Ring
import Verif.Model.Basic

/-!
# Models of the few numpy / Python sequence operations used by the code

Arrays are lists.  These are models of library functions (numpy 1.21.2), written from their documented
behaviour; they are part of the trusted reading.
-/

namespace Resistics

/-- A Python slice bound on a sequence of length `n`: negative counts from the end, then clipped. -/
def pyBound (n : ℕ) (a : ℤ) : ℕ :=
  if a < 0 then (a + n).toNat else min a.toNat n

/-- The Python slice `l[a:b]`. -/
def pySlice {α : Type _} (l : List α) (a b : ℤ) : List α :=
  (l.take (pyBound l.length b)).drop (pyBound l.length a)

/-- The Python index `l[i]` (negative counts from the end), `IndexError` when out of range. -/
def pyIndex {α : Type _} (l : List α) (i : ℤ) : Except Err α :=
  let j := if i < 0 then i + l.length else i
  if j < 0 then .error .index
  else match l[j.toNat]? with
    | some a => .ok a
    | none => .error .index

/-- Inner loop of `np.interp`: `(x0, y0)` is the current left point. -/
def npInterpFrom : ℚ × ℚ → List (ℚ × ℚ) → ℚ → ℚ
  | (_, y0), [], _ => y0
  | (x0, y0), (x1, y1) :: rest, x =>
      if x < x1 then
        if x < x0 then y0 else (y1 - y0) / (x1 - x0) * (x - x0) + y0
      else npInterpFrom (x1, y1) rest x

/-- `np.interp(x, xp, fp)` for increasing `xp`, points given as pairs: piecewise linear between the
points, constant outside; `ValueError` when there are no points. -/
def npInterp (pts : List (ℚ × ℚ)) (x : ℚ) : Except Err ℚ :=
  match pts with
  | [] => .error .value
  | p :: rest => .ok (npInterpFrom p rest x)

/-- `np.mean` of a row (only meaningful for a non-empty row). -/
def npMean (row : List ℚ) : ℚ := row.sum / row.length

/-- `int(x)` for a number: truncation towards zero. -/
def pyInt (x : ℚ) : ℤ := if 0 ≤ x then ⌊x⌋ else ⌈x⌉

/-- `np.arange(a, b)` for integers. -/
def npArange (a b : ℤ) : List ℤ := (List.range (b - a).toNat).map fun (i : ℕ) => a + (i : ℤ)

end Resistics
