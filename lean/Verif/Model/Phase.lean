import Mathlib.Analysis.SpecialFunctions.Complex.Arg
import Verif.Model.Spectra
import Verif.Model.TransFunc

/-!
# Model of the magnitudes, phases and single frequencies of spectra (/repo/resistics/spectra.py:126-140)

Simplification: exact arithmetic over `ℝ` and `ℂ`; there are no negative zeros, so the phase of a negative real number is `π`.
-/

namespace Resistics

/-- /repo/resistics/spectra.py:132-140 `get_mag_phs`; `np.unwrap` works along the last axis, the frequencies. -/
noncomputable def SpecData.getMagPhs (d : SpecData ℂ) (level : ℤ) (unwrap : Bool) : Except Err (SpecArr ℝ × SpecArr ℝ) := do
  let spec ← levelGet d.data level
  return (spec.map fun win => win.map fun row => row.map fun z => ‖z‖,
    spec.map fun win => win.map fun row => if unwrap then npUnwrap (row.map Complex.arg) else row.map Complex.arg)

/-- An array after `np.squeeze`, starting from two axes. -/
inductive Squeezed (V : Type) where
  | scalar (v : V)
  | vector (l : List V)
  | matrix (l : List (List V))
  deriving DecidableEq, Repr

/-- An array of size one without its axes. -/
def squeezeOne {V : Type} : List (List V) → Squeezed V
  | [[v]] => .scalar v
  | rows => .matrix rows

/-- `np.squeeze` of an array of windows and channels: axes of size one are dropped. -/
def npSqueeze {V : Type} (nWins nChans : ℕ) (rows : List (List V)) : Squeezed V :=
  if nWins = 1 ∧ nChans = 1 then squeezeOne rows
  else if nWins = 1 ∨ nChans = 1 then .vector rows.flatten
  else .matrix rows

/-- /repo/resistics/spectra.py:126-131 `get_freq`, with the final `np.squeeze`.  Simplification: the number of channels of the array is
that of the metadata. -/
def SpecData.getFreqSqueezed {V : Type} (d : SpecData V) (level idx : ℤ) : Except Err (Squeezed V) := do
  let rows ← d.getFreq level idx
  return npSqueeze rows.length d.md.chans.length rows

end Resistics
