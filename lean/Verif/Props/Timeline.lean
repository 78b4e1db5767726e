import Verif.Model.Timeline
import Verif.Props.Timestamps
import Verif.Props.ProjectDemo
import Verif.Props.Process
import Verif.Props.Float64

/-!
# C66: tables and timelines of sites and projects
-/

namespace Resistics

variable {W : Type}

/-! ## Specification -/

/-- A whole-nanosecond time just before the given one, or the same. -/
def AtNs (t u : DateTime) : Prop := WholeNs u ∧ u ≤ t ∧ t < u + 1 / 1000000000

/-- The row of the measurement of the site. -/
def RowOf (site : String) (m : Meas W) (r : MeasRow) : Prop :=
  r.site = site ∧ r.name = m.name ∧ r.fs = m.md.fs ∧ AtNs m.md.firstTime r.firstTime ∧ AtNs m.md.lastTime r.lastTime

/-! ## Tables -/

theorem atNs_pandas (t : DateTime) : AtNs t (pandasTime t) := by
  have h := pandasTime_near t
  exact ⟨pandasTime_whole t, h.2, by linarith [h.1]⟩

theorem rowOf_measRow (site : String) (m : Meas W) : RowOf site m (measRow site m) :=
  ⟨rfl, rfl, rfl, atNs_pandas _, atNs_pandas _⟩

/-- **C66 (table of a site)**: the table of a site has one row per measurement, in order, with its name, its sampling frequency and its
first and last time rounded down to nanoseconds. -/
theorem C66_site_table (s : Site W) : List.Forall₂ (fun m r => RowOf s.name m.2 r) s.measurements s.toDataframe := by
  unfold Site.toDataframe
  induction s.measurements with
  | nil => exact .nil
  | cons m l ih => exact .cons (rowOf_measRow _ _) ih

theorem toDataframe_flat (p : Project W) : p.toDataframe = p.sites.flatMap fun s => s.2.toDataframe := by
  unfold Project.toDataframe
  suffices h : ∀ (l : List (String × Site W)) acc, l.foldl (fun df s => df ++ s.2.toDataframe) acc =
      acc ++ l.flatMap fun s => s.2.toDataframe by simpa using h p.sites []
  intro l
  induction l with
  | nil => simp
  | cons s l ih => intro acc; rw [List.foldl_cons, ih, List.flatMap_cons, List.append_assoc]

theorem mem_site_table {s : Site W} {r : MeasRow} (h : r ∈ s.toDataframe) :
    ∃ m ∈ s.measurements, RowOf s.name m.2 r := by
  unfold Site.toDataframe at h
  obtain ⟨m, hm, rfl⟩ := List.mem_map.1 h
  exact ⟨m, hm, rowOf_measRow _ _⟩

theorem getMeas_iff {p : Project W} {site meas : String} {m : Meas W} :
    p.getMeas site meas = .ok m ↔ ∃ s, p.sites.lookup site = some s ∧ s.measurements.lookup meas = some m := by
  unfold Project.getMeas
  constructor
  · intro h
    obtain ⟨s, hs, h⟩ := except_bind_ok.1 h
    unfold Project.getSite at hs
    unfold Site.getMeasurement at h
    cases h1 : p.sites.lookup site with
    | none => rw [h1] at hs; cases hs
    | some s' =>
      rw [h1] at hs; cases hs
      cases h2 : s.measurements.lookup meas with
      | none => rw [h2] at h; cases h
      | some m' => rw [h2] at h; cases h; exact ⟨s, rfl, h2⟩
  · rintro ⟨s, h1, h2⟩
    refine except_bind_ok.2 ⟨s, ?_, ?_⟩
    · unfold Project.getSite; rw [h1]
    · unfold Site.getMeasurement; rw [h2]

/-- **C66 (table of a project)**: the table of a project holds the rows of its sites in order. -/
theorem C66_project_rows (p : Project W) :
    List.Forall₂ (fun (m : String × Meas W) r => RowOf m.1 m.2 r)
      (p.sites.flatMap fun s => s.2.measurements.map fun m => (s.2.name, m.2)) p.toDataframe := by
  rw [toDataframe_flat]
  induction p.sites with
  | nil => exact .nil
  | cons s l ih =>
    rw [List.flatMap_cons, List.flatMap_cons]
    refine List.rel_append (R := fun (m : String × Meas W) r => RowOf m.1 m.2 r) ?_ ih
    rw [List.forall₂_map_left_iff]
    exact C66_site_table s.2

/-- **C66 (table of a loaded project)**: the table of a loaded project has exactly one row for each measurement that can be asked for by
site and name, with its metadata, and no other row. -/
theorem C66_project_table (ls : Path → List String) (now : Path → DateTime × DateTime) (readers : List (TReader W))
    (fs : FS W) (dir : Path) (hls : IsListing ls fs) (p : Project W) (h : loadProject ls now readers fs dir = .ok p) :
    (p.toDataframe.map fun r => (r.site, r.name)).Nodup ∧
    (∀ r ∈ p.toDataframe, ∃ m, p.getMeas r.site r.name = .ok m ∧ RowOf r.site m r) ∧
    (∀ site meas m, p.getMeas site meas = .ok m → ∃ r ∈ p.toDataframe, r.site = site ∧ r.name = meas ∧ RowOf site m r) := by
  obtain ⟨-, -, hnd, -, hsite, -⟩ := C44_lists_exactly ls now readers fs dir hls p h
  have hname : ∀ name s, (name, s) ∈ p.sites → ∀ k x, (k, x) ∈ s.measurements → x.name = k := by
    intro name s hs k x hx
    obtain ⟨-, -, hl, -⟩ := hsite name s hs
    obtain ⟨-, -, hd, -⟩ := (hl.2 k x).1 hx
    unfold Meas.name
    rw [hd, pathName_append]
  refine ⟨?_, ?_, ?_⟩
  · rw [toDataframe_flat, List.map_flatMap, List.nodup_flatMap]
    constructor
    · rintro ⟨name, s⟩ hs
      obtain ⟨-, -, hl, -⟩ := hsite name s hs
      have h1 : s.toDataframe.map (fun r => (r.site, r.name)) = (s.measurements.map Prod.fst).map fun k => (s.name, k) := by
        unfold Site.toDataframe
        rw [List.map_map, List.map_map]
        apply List.map_congr_left
        rintro ⟨k, x⟩ hx
        show (s.name, x.name) = (s.name, k)
        rw [hname name s hs k x hx]
      rw [h1]
      exact hl.1.map fun a b hab => by simpa using hab
    · have hp : p.sites.Pairwise fun a b => a.1 ≠ b.1 := List.pairwise_map.1 hnd
      refine hp.imp_of_mem ?_
      rintro ⟨n1, s1⟩ ⟨n2, s2⟩ h1 h2 hne
      show List.Disjoint _ _
      intro x hx1 hx2
      obtain ⟨r1, hr1, rfl⟩ := List.mem_map.1 hx1
      obtain ⟨r2, hr2, he⟩ := List.mem_map.1 hx2
      obtain ⟨_, _, hro1⟩ := mem_site_table hr1
      obtain ⟨_, _, hro2⟩ := mem_site_table hr2
      have e1 := (hsite n1 s1 h1).2.1
      have e2 := (hsite n2 s2 h2).2.1
      apply hne
      have h3 : r2.site = r1.site := congrArg Prod.fst he
      rw [hro1.1, hro2.1, e1, e2] at h3
      exact h3.symm
  · intro r hr
    rw [toDataframe_flat] at hr
    obtain ⟨⟨name, s⟩, hs, hr⟩ := List.mem_flatMap.1 hr
    obtain ⟨⟨k, x⟩, hx, hro⟩ := mem_site_table hr
    obtain ⟨-, hsn, hl, -⟩ := hsite name s hs
    refine ⟨x, getMeas_iff.2 ⟨s, ?_, ?_⟩, ?_⟩
    · rw [hro.1, hsn]; exact lookup_keyed hnd hs
    · rw [hro.2.1, hname name s hs k x hx]; exact lookup_keyed hl.1 hx
    · rw [hro.1]; exact hro
  · intro site meas m hm
    obtain ⟨s, h1, h2⟩ := getMeas_iff.1 hm
    have hs := lookup_some_mem h1
    have hx := lookup_some_mem h2
    obtain ⟨-, hsn, hl, -⟩ := hsite site s hs
    refine ⟨measRow s.name m, ?_, hsn, hname site s hs meas m hx, ?_⟩
    · rw [toDataframe_flat]
      exact List.mem_flatMap.2 ⟨_, hs, List.mem_map.2 ⟨_, hx, rfl⟩⟩
    · rw [← hsn]; exact rowOf_measRow _ _

/-! ## Timelines -/

theorem bars_perm (y : MeasRow → String) (df : List MeasRow) : (df.insertionSort fun a b => barLe y a b).Perm df :=
  List.perm_insertionSort _ _

theorem barLe_iff (y : MeasRow → String) (a b : MeasRow) :
    barLe y a b = true ↔ y a < y b ∨ y a = y b ∧ a.firstTime ≤ b.firstTime := by
  unfold barLe; rw [decide_eq_true_iff]

theorem bars_sorted (y : MeasRow → String) (df : List MeasRow) :
    (df.insertionSort fun a b => barLe y a b).Pairwise fun a b => y a < y b ∨ y a = y b ∧ a.firstTime ≤ b.firstTime := by
  have : Std.Total fun a b => (barLe y a b : Bool) = true := ⟨fun a b => by
    rw [barLe_iff, barLe_iff]
    rcases lt_trichotomy (y a) (y b) with h | h | h
    · exact .inl (.inl h)
    · rcases le_total a.firstTime b.firstTime with g | g
      · exact .inl (.inr ⟨h, g⟩)
      · exact .inr (.inr ⟨h.symm, g⟩)
    · exact .inr (.inl h)⟩
  have : IsTrans MeasRow fun a b => (barLe y a b : Bool) = true := ⟨fun a b c h1 h2 => by
    rw [barLe_iff] at *
    rcases h1 with h1 | ⟨h1, g1⟩ <;> rcases h2 with h2 | ⟨h2, g2⟩
    · exact .inl (h1.trans h2)
    · exact .inl (h2 ▸ h1)
    · exact .inl (h1 ▸ h2)
    · exact .inr ⟨h1.trans h2, g1.trans g2⟩⟩
  have h := List.pairwise_insertionSort (fun a b => (barLe y a b : Bool) = true) df
  exact h.imp fun hab => (barLe_iff y _ _).1 hab

theorem timePad_nonneg {d : ℚ} (h : 0 ≤ d) : 0 ≤ timePad d := by
  unfold timePad
  have h1 : 0 ≤ fl (fl (1 / 10) * fl (d * 1000000000)) :=
    fl_nonneg (mul_nonneg (fl_nonneg (by norm_num)) (fl_nonneg (by positivity)))
  unfold pyInt
  rw [if_pos h1]
  have : (0 : ℤ) ≤ ⌊fl (fl (1 / 10) * fl (d * 1000000000))⌋ := Int.floor_nonneg.2 h1
  positivity

/-- **C66 (margin)**: the margin left on either side of a timeline is a tenth of the time shown, up to a nanosecond and the rounding of
double precision. -/
theorem C66_margin {d : ℚ} (h : 0 ≤ d) : |timePad d - d / 10| ≤ 1 / 1000000000 + d / 2 ^ 50 := by
  have hx : (0 : ℚ) ≤ d * 1000000000 := by positivity
  have ha : |fl (1 / 10) - 1 / 10| ≤ 1 / 10 * unitRoundoff := by
    have := fl_near (1 / 10); rwa [abs_of_nonneg (by norm_num : (0 : ℚ) ≤ 1 / 10)] at this
  have hb : |fl (d * 1000000000) - d * 1000000000| ≤ d * 1000000000 * unitRoundoff := by
    have := fl_near (d * 1000000000); rwa [abs_of_nonneg hx] at this
  have ha0 : 0 ≤ fl (1 / 10 : ℚ) := fl_nonneg (by norm_num)
  have hb0 : 0 ≤ fl (d * 1000000000) := fl_nonneg hx
  set a := fl (1 / 10 : ℚ)
  set b := fl (d * 1000000000)
  have hc : |fl (a * b) - a * b| ≤ a * b * unitRoundoff := by
    have := fl_near (a * b); rwa [abs_of_nonneg (mul_nonneg ha0 hb0)] at this
  have hc0 : 0 ≤ fl (a * b) := fl_nonneg (mul_nonneg ha0 hb0)
  have hf1 := Int.floor_le (fl (a * b))
  have hf2 := Int.lt_floor_add_one (fl (a * b))
  have e : timePad d = (⌊fl (a * b)⌋ : ℚ) / 1000000000 := by
    unfold timePad pyInt; rw [if_pos hc0]
  rw [e]
  have hu : unitRoundoff = 1 / 2 ^ 53 := rfl
  rw [hu] at ha hb hc
  rw [abs_le] at ha hb hc
  have hab1 : a * b ≤ (1 / 10 + 1 / 10 * (1 / 2 ^ 53)) * (d * 1000000000 + d * 1000000000 * (1 / 2 ^ 53)) :=
    mul_le_mul (by linarith [ha.2]) (by linarith [hb.2]) hb0 (by norm_num)
  have hab2 : (1 / 10 - 1 / 10 * (1 / 2 ^ 53)) * (d * 1000000000 - d * 1000000000 * (1 / 2 ^ 53)) ≤ a * b :=
    mul_le_mul (by linarith [ha.1]) (by linarith [hb.1]) (by nlinarith) ha0
  rw [abs_le]
  constructor
  · rw [neg_le_sub_iff_le_add, div_le_iff₀ (by norm_num : (0 : ℚ) < 10)]
    have : (⌊fl (a * b)⌋ : ℚ) / 1000000000 ≥ (fl (a * b) - 1) / 1000000000 :=
      div_le_div_of_nonneg_right (by linarith) (by norm_num)
    linarith [hc.1, hc.2]
  · rw [sub_le_iff_le_add, div_le_iff₀ (by norm_num : (0 : ℚ) < 1000000000)]
    linarith [hc.1, hc.2]

/-- What a timeline of the rows shows: one bar per row, the bars ordered by their label and then by their first time, a line at the
reference time and a time axis on which every bar lies with the margin. -/
def ShowsBars (df : List MeasRow) (y : MeasRow → String) (ref : Option DateTime) (t : Timeline) : Prop :=
  t.bars.Perm df ∧ (t.bars.Pairwise fun a b => y a < y b ∨ y a = y b ∧ a.firstTime ≤ b.firstTime) ∧ t.refLine = ref ∧
  ∃ lo hi, IsLeast {u | (∃ r ∈ df, r.firstTime = u) ∨ ∃ v, ref = some v ∧ u = v ∧ ∀ r ∈ df, v < r.firstTime} lo ∧
    IsGreatest {u | ∃ r ∈ df, r.lastTime = u} hi ∧ t.start = lo - timePad (hi - lo) ∧ t.stop = hi + timePad (hi - lo)

theorem plotTimeline_shows (df : List MeasRow) (h : df ≠ []) (y : MeasRow → String) (ref : Option DateTime) :
    ShowsBars df y ref (plotTimeline df y ref) := by
  obtain ⟨r0, l, rfl⟩ := List.exists_cons_of_ne_nil h
  have hmin := minOr_least 0 r0.firstTime (l.map MeasRow.firstTime)
  have hmax := maxOr_greatest 0 r0.lastTime (l.map MeasRow.lastTime)
  rw [← List.map_cons] at hmin hmax
  set df := r0 :: l with hdf
  have hle : ∀ r ∈ df, minOr 0 (df.map MeasRow.firstTime) ≤ r.firstTime := fun r hr => hmin.2 (List.mem_map.2 ⟨r, hr, rfl⟩)
  obtain ⟨rm, hrm, erm⟩ := List.mem_map.1 hmin.1
  refine ⟨bars_perm y df, bars_sorted y df, rfl, earliestShown ref df, maxOr 0 (df.map MeasRow.lastTime), ?_, ?_, rfl, rfl⟩
  · unfold earliestShown
    cases ref with
    | none =>
      refine ⟨.inl ⟨rm, hrm, erm⟩, ?_⟩
      rintro u (⟨r, hr, rfl⟩ | ⟨v, hv, _⟩)
      · exact hle r hr
      · cases hv
    | some v =>
      simp only
      split
      · rename_i hlt
        refine ⟨.inr ⟨v, rfl, rfl, fun r hr => hlt.trans_le (hle r hr)⟩, ?_⟩
        rintro u (⟨r, hr, rfl⟩ | ⟨v', hv, rfl, _⟩)
        · exact hlt.le.trans (hle r hr)
        · cases hv; exact le_rfl
      · rename_i hge
        refine ⟨.inl ⟨rm, hrm, erm⟩, ?_⟩
        rintro u (⟨r, hr, rfl⟩ | ⟨v', hv, rfl, hall⟩)
        · exact hle r hr
        · cases hv; exact absurd (erm ▸ hall rm hrm) hge
  · refine ⟨?_, ?_⟩
    · obtain ⟨r, hr, er⟩ := List.mem_map.1 hmax.1
      exact ⟨r, hr, er⟩
    · rintro u ⟨r, hr, rfl⟩
      exact hmax.2 (List.mem_map.2 ⟨r, hr, rfl⟩)

/-- **C66 (timelines)**: a site (project) without measurements has no timeline, which is a `ValueError`; any other one has the timeline of
its table, labelled by measurement (by site, with a line at the reference time of the project rounded down to nanoseconds). -/
theorem C66_plot (s : Site W) (p : Project W) :
    (s.measurements = [] → s.plot = .error .value) ∧
    (s.measurements ≠ [] → ∃ t, s.plot = .ok t ∧ ShowsBars s.toDataframe MeasRow.name none t) ∧
    ((∀ q ∈ p.sites, q.2.measurements = []) → p.plot = .error .value) ∧
    ((∃ q ∈ p.sites, q.2.measurements ≠ []) →
      ∃ t u, p.plot = .ok t ∧ AtNs p.md.refTime u ∧ ShowsBars p.toDataframe MeasRow.site (some u) t) := by
  have hs : s.toDataframe.length = 0 ↔ s.measurements = [] := by
    unfold Site.toDataframe; rw [List.length_map, List.length_eq_zero_iff]
  refine ⟨fun h => ?_, fun h => ?_, fun h => ?_, fun h => ?_⟩
  · unfold Site.plot; rw [if_pos (hs.2 h)]
  · refine ⟨_, by unfold Site.plot; rw [if_neg (fun h' => h (hs.1 h'))], plotTimeline_shows _ ?_ _ _⟩
    intro h'; rw [← List.length_eq_zero_iff] at h'; exact h (hs.1 h')
  · unfold Project.plot
    rw [if_pos]
    rw [List.length_eq_zero_iff, toDataframe_flat, List.flatMap_eq_nil_iff]
    intro q hq
    unfold Site.toDataframe; rw [h q hq]; rfl
  · have hne : p.toDataframe ≠ [] := by
      obtain ⟨q, hq, hm⟩ := h
      intro h'
      rw [toDataframe_flat, List.flatMap_eq_nil_iff] at h'
      have := h' q hq
      unfold Site.toDataframe at this
      exact hm (List.map_eq_nil_iff.1 this)
    refine ⟨_, pandasTime p.md.refTime, ?_, atNs_pandas _, plotTimeline_shows _ hne _ _⟩
    unfold Project.plot
    rw [if_neg (fun h' => hne (List.length_eq_zero_iff.1 h'))]

/-- **C66 (every bar is in view)**: when no recording ends before it begins, every bar lies on the time axis, and so does a reference time
that is not after the end of the last recording. -/
theorem C66_in_view (df : List MeasRow) (y : MeasRow → String) (ref : Option DateTime) (t : Timeline) (h : ShowsBars df y ref t)
    (ho : ∀ r ∈ df, r.firstTime ≤ r.lastTime) :
    (∀ r ∈ df, t.start ≤ r.firstTime ∧ r.lastTime ≤ t.stop) ∧
    (∀ u, ref = some u → (∃ r ∈ df, u ≤ r.lastTime) → t.start ≤ u ∧ u ≤ t.stop) := by
  obtain ⟨-, -, -, lo, hi, hlo, hhi, hs, ht⟩ := h
  have hlh : lo ≤ hi := by
    obtain ⟨r, hr, er⟩ := hhi.1
    have h1 := hlo.2 (.inl ⟨r, hr, rfl⟩)
    rw [← er]
    exact le_trans h1 (ho r hr)
  have hp : 0 ≤ timePad (hi - lo) := timePad_nonneg (by linarith)
  constructor
  · intro r hr
    have h1 : lo ≤ r.firstTime := hlo.2 (.inl ⟨r, hr, rfl⟩)
    have h2 : r.lastTime ≤ hi := hhi.2 ⟨r, hr, rfl⟩
    rw [hs, ht]
    constructor <;> linarith
  · rintro u hu ⟨r, hr, hur⟩
    have h2 : r.lastTime ≤ hi := hhi.2 ⟨r, hr, rfl⟩
    rw [hs, ht]
    refine ⟨?_, by linarith⟩
    by_cases hall : ∀ r ∈ df, u < r.firstTime
    · have : lo ≤ u := hlo.2 (.inr ⟨u, hu, rfl, hall⟩)
      linarith
    · push Not at hall
      obtain ⟨r', hr', h'⟩ := hall
      have : lo ≤ r'.firstTime := hlo.2 (.inl ⟨r', hr', rfl⟩)
      linarith

/-- **C66 (limit)**: a reference time after the end of every recording is out of view when it is later than the margin, because only an
early one widens the time axis. -/
theorem C66_late_reference (df : List MeasRow) (y : MeasRow → String) (u : DateTime) (t : Timeline) (h : ShowsBars df y (some u) t)
    (a b : DateTime) (ha : IsLeast {v | ∃ r ∈ df, r.firstTime = v} a) (hb : IsGreatest {v | ∃ r ∈ df, r.lastTime = v} b)
    (hu : a ≤ u) : t.stop = b + timePad (b - a) ∧ (b + timePad (b - a) < u → t.refLine = some u ∧ t.stop < u) := by
  obtain ⟨-, -, hr, lo, hi, hlo, hhi, hs, ht⟩ := h
  have e1 : hi = b := hhi.unique hb
  have e2 : lo = a := by
    apply le_antisymm
    · obtain ⟨r, hr, er⟩ := ha.1
      exact hlo.2 (.inl ⟨r, hr, er⟩)
    · rcases hlo.1 with ⟨r, hr, er⟩ | ⟨v, hv, rfl, -⟩
      · exact ha.2 ⟨r, hr, er⟩
      · cases hv; exact hu
  rw [e1, e2] at ht
  exact ⟨ht, fun h => ⟨hr, by rw [ht]; exact h⟩⟩

/-! ## Instances -/

/-- the table of the demonstration project has the four measurements; its timeline begins before the reference time 0 and ends after 70;
a reference time of 100 is beyond the axis -/
example : demoLoaded.map (fun p => p.toDataframe) =
      .ok [⟨"m1", 8, 10, 20, "A"⟩, ⟨"m2", 4, 30, 40, "A"⟩, ⟨"m1", 8, 40, 50, "B"⟩, ⟨"m1", 8, 60, 70, "C"⟩] ∧
    (demoLoaded.bind fun p => p.plot) =
      .ok ⟨[⟨"m1", 8, 10, 20, "A"⟩, ⟨"m2", 4, 30, 40, "A"⟩, ⟨"m1", 8, 40, 50, "B"⟩, ⟨"m1", 8, 60, 70, "C"⟩], -7, 77, some 0⟩ := by
  decide +kernel

example : (plotTimeline [⟨"m1", 8, 10, 20, "A"⟩, ⟨"m2", 8, 0, 5, "A"⟩] MeasRow.site (some 100)).stop = 22 ∧
    (plotTimeline [⟨"m1", 8, 10, 20, "A"⟩, ⟨"m2", 8, 0, 5, "A"⟩] MeasRow.site (some 100)).bars.map MeasRow.name = ["m2", "m1"] := by
  decide +kernel

end Resistics
