import Verif.Model.NumTypes
import Verif.Model.Powers64
import Verif.Model.Spectra

/-!
# Model of the Fourier transform in floating point numbers (/repo/resistics/spectra.py:507-553)

The routines of NumPy and SciPy are parameters; what the code does with their results is rounded in the number type of the windows.  Simplification: no overflow.
-/

namespace Resistics

/-- `np.mean` of a row, `scipy.signal.detrend(row, type="linear")` and `scipy.fft.rfft(row, n, norm="ortho")` in a number type. -/
structure FourierMath where
  mean : NumType → List ℚ → ℚ
  line : NumType → List ℚ → List ℚ
  rfft : NumType → ℕ → List ℚ → List (ℚ × ℚ)

/-- `scipy.signal.detrend(row, type=...)` (/repo/resistics/spectra.py:539-540) in the type of its result: `type="constant"` subtracts the mean from samples taken to this type. -/
def detrendF (m : FourierMath) (t : NumType) : Detrend → List ℚ → List ℚ
  | .none, row => row
  | .constant, row => row.map fun x => t.calc (t.calc x - m.mean t row)
  | .linear, row => m.line t row

/-- /repo/resistics/spectra.py:507-544 `_get_level_data`, one row of samples of type `t`: detrend, multiply by the window function stored in the type of the data
(`coeffs`, the values of `_get_window`, 546-553), transform. -/
def fourierRowF (m : FourierMath) (outside : ℕ → ℚ → ℤ) (t : NumType) (d : Detrend) (coeffs : ℕ → List ℚ) (n : ℕ) (row : List ℚ) : List (ℚ × ℚ) :=
  m.rfft (detrendType t d) n (windowTyped outside (detrendType t d) (coeffs row.length) (detrendF m (detrendType t d) d row))

end Resistics
