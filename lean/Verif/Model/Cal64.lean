import Verif.Model.Eval64
import Verif.Model.Powers64

/-!
# Model of the calibration in floating point numbers

/repo/resistics/calibrate.py:439-535 with every floating point operation rounded.  The response is computed in double precision; spectra of single precision are
divided in double precision too, and the quotients are stored in the array of the spectra (`complex64`, `complex128`).  A complex number is the pair of its
parts.  Simplification: no overflow, and no subnormal numbers before the quotients are stored.
-/

namespace Resistics

/-- The quotient of two complex numbers (NumPy 1.21, `loops.c.src`): the smaller part of the divisor is divided by the larger one.  Simplification: a division by zero
gives some number, not an infinity or NaN. -/
def divF (x h : ℚ × ℚ) : ℚ × ℚ :=
  if |h.2| ≤ |h.1| then
    let rat := fl (h.2 / h.1)
    let scl := fl (1 / fl (h.1 + fl (h.2 * rat)))
    (fl (fl (x.1 + fl (x.2 * rat)) * scl), fl (fl (x.2 - fl (x.1 * rat)) * scl))
  else
    let rat := fl (h.1 / h.2)
    let scl := fl (1 / fl (h.2 + fl (h.1 * rat)))
    (fl (fl (fl (x.1 * rat) + x.2) * scl), fl (fl (fl (x.2 * rat) - x.1) * scl))

/-- A quotient stored in an array of a number type. -/
def storeF (t : NumType) (z : ℚ × ℚ) : ℚ × ℚ := (t.calc z.1, t.calc z.2)

/-- One value of /repo/resistics/calibrate.py:472-498 `_interpolate`; `cis` is `np.exp(1j * phase)`. -/
def calResponseAtF (cis : ℚ → ℚ × ℚ) (c : CalData) (f : ℚ) : Except Err (ℚ × ℚ) := do
  let mag ← calInterpF c.frequency c.magnitude f
  let phs ← calInterpF c.frequency c.phase f
  return (fl (mag * (cis phs).1), fl (mag * (cis phs).2))

/-- /repo/resistics/calibrate.py:472-498 `_interpolate`. -/
def calResponseF (cis : ℚ → ℚ × ℚ) (c : CalData) (freqs : List ℚ) : Except Err (List (ℚ × ℚ)) :=
  freqs.mapM (calResponseAtF cis c)

/-- One window of /repo/resistics/calibrate.py:445-470 `_calibrate` and of the assignment at 529-531, see `calibrateWin`. -/
def calibrateWinF (t : NumType) (tf : List (ℚ × ℚ)) (idx : ℤ) (nWins : ℕ) (win : List (List (ℚ × ℚ))) :
    Except Err (List (List (ℚ × ℚ))) := do
  let row ← pyIndex win idx
  if tf.length ≠ row.length ∧ tf.length ≠ 1 then throw .value
  if row.length = 1 ∧ nWins ≠ 1 then throw .value
  return win.set idx.toNat
    (if tf.length = row.length then List.zipWith (fun x h => storeF t (divF x h)) row tf
      else row.map fun x => storeF t (divF x (tf.headD (1, 0))))

/-- One level (/repo/resistics/calibrate.py:527-531); the number type may differ from level to level.  Simplification: the shape of a level without windows is not
checked. -/
def calibrateLevelF (t : ℕ → NumType) (cis : ℚ → ℚ × ℚ) (c : CalData) (levels : List SpecLevelMeta) (idx : ℤ)
    (data : List (ℕ × SpecArr (ℚ × ℚ))) (ilevel : ℕ) : Except Err (List (ℕ × SpecArr (ℚ × ℚ))) := do
  let lm ← pyIndex levels (ilevel : ℤ)
  let arr ← dictGet data ilevel
  let tf ← calResponseF cis c lm.freqs
  let arr' ← arr.mapM (calibrateWinF (t ilevel) tf idx arr.length)
  return data.map fun q => if q.1 = ilevel then (q.1, arr') else q

/-- One channel (/repo/resistics/calibrate.py:519-532). -/
def calibrateChanF (t : ℕ → NumType) (cis : ℚ → ℚ × ℚ) (md : SpecMeta) (get : String → Option CalData)
    (data : List (ℕ × SpecArr (ℚ × ℚ))) (chan : String) : Except Err (List (ℕ × SpecArr (ℚ × ℚ))) :=
  match get chan with
  | none => .ok data
  | some c => do
      let idx ← listIndex md.chans chan
      (List.range md.nLevels).foldlM (calibrateLevelF t cis c md.levels idx) data

/-- /repo/resistics/calibrate.py:512-535 `SensorCalibrator.run`. -/
def sensorCalibrateF (t : ℕ → NumType) (cis : ℚ → ℚ × ℚ) (sel : Option (List String)) (get : String → Option CalData)
    (d : SpecData (ℚ × ℚ)) : Except Err (SpecData (ℚ × ℚ)) := do
  let data ← (calChans sel d.md.chans).foldlM (calibrateChanF t cis d.md get) d.data
  mkSpecData { d.md with history := d.md.history ++ ["SensorCalibrator"] } data

end Resistics
