import Verif.Model.Powers64
import Verif.Model.Float64

/-!
# Model of apparent resistivity and phase in floating point numbers (/repo/resistics/transfunc.py:378-424)

Doubles are rational numbers and `fl` rounds the result of every operation.  The routines of the mathematical library are parameters.  Simplification: no overflow,
no subnormal numbers, no negative zeros.
-/

namespace Resistics

/-- `np.absolute`, `np.power(., 2)` and `np.angle` of doubles. -/
structure AngleMath where
  absolute : ℚ × ℚ → ℚ
  square : ℚ → ℚ
  angle : ℚ × ℚ → ℚ

/-- `np.pi`. -/
def piF : ℚ := 884279719003555 / 2 ^ 48

/-- /repo/resistics/transfunc.py:36-38 `to_numpy` of real and imaginary parts, which is exact.  Simplification: arrays of different lengths are a `ValueError` also when
one has length one. -/
def componentF (re im : List ℚ) : Except Err (List (ℚ × ℚ)) :=
  if re.length ≠ im.length then .error .value else .ok (List.zip re im)

/-- /repo/resistics/regression.py:692-695 `periods`, `np.reciprocal(freqs)`. -/
def periodsF (freqs : List ℚ) : List ℚ := freqs.map fun f => fl (1 / f)

/-- /repo/resistics/transfunc.py:378-396 `get_resistivity`: `0.2 * periods * squared`, from left to right.  Simplification as in `componentF`. -/
def getResistivityF (m : AngleMath) (periods re im : List ℚ) : Except Err (List ℚ) := do
  let z ← componentF re im
  if periods.length ≠ z.length then .error .value
  else .ok (List.zipWith (fun T w => fl (fl (fl (1 / 5) * T) * m.square (m.absolute w))) periods z)

/-- `fmod(a, b)` for positive `b`, which is exact: the remainder has the sign of `a`. -/
def remF (a b : ℚ) : ℚ := if 0 ≤ a then a - b * ⌊a / b⌋ else a - b * ⌈a / b⌉

/-- `np.mod(a, b)` for positive `b` (numpy 1.21, `npy_remainder`): to a negative remainder `b` is added, and the sum is rounded. -/
def modF (a b : ℚ) : ℚ := if remF a b < 0 then fl (remF a b + b) else remF a b

/-- A jump brought to half a turn at most, in `np.unwrap`. -/
def jumpF (dd : ℚ) : ℚ := fl (modF (fl (dd + piF)) (2 * piF) - piF)

/-- A jump of exactly half a turn keeps its sign. -/
def jumpSignF (dd : ℚ) : ℚ := if jumpF dd = -piF ∧ 0 < dd then piF else jumpF dd

/-- One correction of `np.unwrap` (numpy 1.21.2) with its default discontinuity. -/
def unwrapCorrectF (dd : ℚ) : ℚ := if |dd| < piF then 0 else fl (jumpSignF dd - dd)

/-- The phases after the first one: the corrections are accumulated (`cumsum`) and added. -/
def unwrapFromF : ℚ → ℚ → List ℚ → List ℚ
  | _, _, [] => []
  | prev, acc, x :: xs => fl (x + fl (acc + unwrapCorrectF (fl (x - prev)))) :: unwrapFromF x (fl (acc + unwrapCorrectF (fl (x - prev)))) xs

/-- `np.unwrap(p)`: the first phase is kept. -/
def unwrapF : List ℚ → List ℚ
  | [] => []
  | x :: xs => x :: unwrapFromF x 0 xs

/-- `x * 180 / np.pi`. -/
def degreesF (x : ℚ) : ℚ := fl (fl (x * 180) / piF)

/-- /repo/resistics/transfunc.py:422-423 `np.mod(phase, 360) - 180`. -/
def halfTurnF (d : ℚ) : ℚ := fl (modF d 360 - 180)

/-- /repo/resistics/transfunc.py:398-424 `get_phase`. -/
def getPhaseF (m : AngleMath) (key : String) (re im : List ℚ) : Except Err (List ℚ) := do
  let z ← componentF re im
  if key = "ExHx" ∨ key = "ExHy" then .ok (((unwrapF (z.map m.angle)).map degreesF).map halfTurnF)
  else .ok ((unwrapF (z.map m.angle)).map degreesF)

end Resistics
