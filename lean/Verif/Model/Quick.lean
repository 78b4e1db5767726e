import Verif.Model.Process
import Verif.Model.Timestamps

/-!
# Model of `quick_view` of /repo/resistics/letsgo.py
-/

namespace Resistics

/-- What `quick_view` returns: the plot of the recording or that of its decimation levels. -/
inductive View where
  | time (titles : List String) (traces : List Trace)
  | decimated (titles : List String) (levels : List (List Trace))

/-- /repo/resistics/letsgo.py:531-571 `quick_view`; `d` is the number format of the data. -/
def Config.quickView (c : Config) (fs : FS ℂ) (dir : Path) (d : DType) (decimate : Bool) (maxPts : Option ℤ) :
    Except Err View := do
  let td ← c.quickRead fs dir
  let td ← runTimeProcessors c.sp c.timeProcs td
  if decimate = false then (td.plot d none none maxPts).map fun r => .time r.1 r.2
  else do
    let p ← c.decSetup.run c.defaultFreqs td.md.fs
    let dec ← c.decimate p td
    (dec.plot d maxPts).map fun r => .decimated r.1 r.2

end Resistics
