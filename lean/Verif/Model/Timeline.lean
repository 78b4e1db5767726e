import Verif.Model.Project
import Verif.Model.Timestamps
import Verif.Model.Float64

/-!
# Model of the tables and timelines of sites and projects (/repo/resistics/project.py, /repo/resistics/plot.py)

A data frame is the list of its rows.
-/

namespace Resistics

/-- A row of the table of measurements. -/
structure MeasRow where
  name : String
  fs : ℚ
  firstTime : DateTime
  lastTime : DateTime
  site : String
  deriving DecidableEq, Repr

/-- The row of a measurement (/repo/resistics/project.py:198-210): the times with the resolution of pandas. -/
def measRow {W : Type} (site : String) (m : Meas W) : MeasRow where
  name := m.name
  fs := m.md.fs
  firstTime := pandasTime m.md.firstTime
  lastTime := pandasTime m.md.lastTime
  site := site

/-- /repo/resistics/project.py:182-211 `Site.to_dataframe`. -/
def Site.toDataframe {W : Type} (s : Site W) : List MeasRow := s.measurements.map fun m => measRow s.name m.2

/-- /repo/resistics/project.py:326-331 `Project.to_dataframe`: the tables of the sites, one after the other (`DataFrame.append` of
pandas 1). -/
def Project.toDataframe {W : Type} (p : Project W) : List MeasRow := p.sites.foldl (fun df s => df ++ s.2.toDataframe) []

/-- A timeline: the bars, from below, the ends of the time axis and the line at the reference time. -/
structure Timeline where
  bars : List MeasRow
  start : DateTime
  stop : DateTime
  refLine : Option DateTime
  deriving DecidableEq, Repr

/-- `0.1 * (max_time - min_time)` of pandas: the product of numbers of nanoseconds in double precision, truncated. -/
def timePad (span : TimeDelta) : TimeDelta := (pyInt (fl (fl (1 / 10) * fl (span * 1000000000))) : ℚ) / 1000000000

/-- The order of `sort_values([y_col, "first_time"])`. -/
def barLe (y : MeasRow → String) (a b : MeasRow) : Bool := decide (y a < y b ∨ y a = y b ∧ a.firstTime ≤ b.firstTime)

/-- /repo/resistics/plot.py:112-114: the earliest time shown, before padding. -/
def earliestShown (ref : Option DateTime) (df : List MeasRow) : DateTime :=
  let m := minOr 0 (df.map MeasRow.firstTime)
  match ref with
  | some r => if r < m then r else m
  | none => m

/-- /repo/resistics/plot.py:83-130 `plot_timeline` for a table with rows. -/
def plotTimeline (df : List MeasRow) (y : MeasRow → String) (ref : Option DateTime) : Timeline :=
  let lo := earliestShown ref df
  let hi := maxOr 0 (df.map MeasRow.lastTime)
  { bars := df.insertionSort fun a b => barLe y a b, start := lo - timePad (hi - lo), stop := hi + timePad (hi - lo), refLine := ref }

/-- /repo/resistics/project.py:173-180 `Site.plot`. -/
def Site.plot {W : Type} (s : Site W) : Except Err Timeline :=
  if s.toDataframe.length = 0 then .error .value else .ok (plotTimeline s.toDataframe MeasRow.name none)

/-- /repo/resistics/project.py:316-324 `Project.plot`. -/
def Project.plot {W : Type} (p : Project W) : Except Err Timeline :=
  if p.toDataframe.length = 0 then .error .value
  else .ok (plotTimeline p.toDataframe MeasRow.site (some (pandasTime p.md.refTime)))

end Resistics
