import Verif.Props.Linear
import Verif.Props.TimePoint

/-!
# Exact linear data through the whole chain (C50)
-/

namespace Resistics

open Finset (range)

/-! ## Linear operations on rows -/

theorem complexRow_getD (row : List ℚ) (j : ℕ) : (complexRow row).getD j 0 = ((row.getD j 0 : ℚ) : ℂ) := by
  unfold complexRow
  rw [List.getD_eq_getElem?_getD, List.getD_eq_getElem?_getD, List.getElem?_map]
  cases row[j]? <;> simp

theorem IsCombo.all {n : ℕ} {z : ℕ → ℂ} {ins : ℕ → List ℂ} {out : List ℂ} (h : IsCombo n z ins out) (j : ℕ) :
    out.getD j 0 = ∑ i ∈ range n, z i * (ins i).getD j 0 := by
  by_cases hj : j < out.length
  · exact h.val j hj
  · have e : ∀ l : List ℂ, l.length = out.length → l.getD j 0 = 0 := by
      intro l hl
      rw [List.getD_eq_getElem?_getD, List.getElem?_eq_none (by omega)]; rfl
    rw [e out rfl]
    symm
    apply Finset.sum_eq_zero
    intro i hi
    rw [e _ (h.len i (Finset.mem_range.1 hi)), mul_zero]

/-- Values that are linear functionals of rows keep the relation. -/
theorem IsCombo.linear {n : ℕ} {z : ℕ → ℂ} {ins : ℕ → List ℂ} {out : List ℂ} (h : IsCombo n z ins out)
    {m : ℕ} (φ : ℕ → ((ℕ → ℂ) →ₗ[ℂ] ℂ)) {ins' : ℕ → List ℂ} {out' : List ℂ}
    (hi : ∀ i < n, (ins' i).length = m ∧ ∀ k < m, (ins' i).getD k 0 = φ k fun j => (ins i).getD j 0)
    (ho : out'.length = m ∧ ∀ k < m, out'.getD k 0 = φ k fun j => out.getD j 0) : IsCombo n z ins' out' := by
  refine ⟨fun i hin => by rw [(hi i hin).1, ho.1], fun k hk => ?_⟩
  rw [ho.1] at hk
  have : (fun j => out.getD j 0) = ∑ i ∈ range n, z i • fun j => (ins i).getD j 0 := by
    funext j
    rw [h.all j]
    simp
  rw [ho.2 k hk, this, map_sum]
  refine Finset.sum_congr rfl fun i hin => ?_
  rw [map_smul, (hi i (Finset.mem_range.1 hin)).2 k hk, smul_eq_mul]

theorem rowOf_mem {V : Type} {chans : List String} {rows : List (List V)} (hl : rows.length = chans.length) {c : String}
    (hc : c ∈ chans) : rows[chans.idxOf c]? = some (rowOf chans rows c) := by
  have hlt := List.idxOf_lt_length_of_mem hc
  rw [rowOf, List.getD_eq_getElem?_getD, List.getElem?_eq_getElem (by omega)]
  rfl

/-- The relation for arrays whose rows are linear functionals of the rows of another array. -/
theorem ExactRows.linear {chans : List String} {rows rows' : List (List ℂ)} (hl : rows.length = chans.length)
    (hl' : rows'.length = chans.length) {inC : List String} {z : ℕ → ℂ} {out : String} (hin : ∀ c ∈ inC, c ∈ chans)
    (hout : out ∈ chans) (h : ExactRows chans rows inC z out) {m : ℕ} (φ : ℕ → ((ℕ → ℂ) →ₗ[ℂ] ℂ))
    (hφ : ∀ (c : ℕ) (row row' : List ℂ), rows[c]? = some row → rows'[c]? = some row' →
      row'.length = m ∧ ∀ k < m, row'.getD k 0 = φ k fun j => row.getD j 0) : ExactRows chans rows' inC z out :=
  IsCombo.linear h φ (fun _ hi => hφ _ _ _ (rowOf_mem hl (inC_mem hin hi)) (rowOf_mem hl' (inC_mem hin hi)))
    (hφ _ _ _ (rowOf_mem hl hout) (rowOf_mem hl' hout))

/-! ## Time data processors -/

/-- Specification: the processors that treat all channels by one linear operation: not the addition of a constant, not
factors that differ from channel to channel, and not custom functions. -/
def Proc.Linear : Proc → Prop
  | .add _ => False
  | .multiply (.dict _) => False
  | .apply _ _ => False
  | _ => True

theorem exact_filter {sp : SciPy} (hsp : sp.Linear) {kind : String} {o : ℕ} {band : Except Err (List ℚ)}
    {td td' : TimeData ℚ} (h : filterProc sp kind o band td = .ok td') (hl : td.data.length = td.md.chans.length)
    {inC : List String} {z : ℕ → ℝ} {out : String}
    (hin : ∀ c ∈ inC, c ∈ td.md.chans) (hout : out ∈ td.md.chans) (he : td.ExactRows inC z out) : td'.ExactRows inC z out := by
  unfold filterProc at h
  simp only [except_bind_ok, except_pure_ok] at h
  obtain ⟨wn, -, data, hd, rfl⟩ := h
  exact ExactRows.mapM (hsp.sosfilt _ _ _) hd hl hin hout he

theorem exact_subsection {f t : DateTime} {td td' : TimeData ℚ} (h : subsection f t td = .ok td')
    (hl : td.data.length = td.md.chans.length) {inC : List String} {z : ℕ → ℝ} {out : String}
    (hin : ∀ c ∈ inC, c ∈ td.md.chans) (hout : out ∈ td.md.chans) (he : td.ExactRows inC z out) : td'.ExactRows inC z out := by
  unfold subsection at h
  simp only [except_bind_ok, except_pure_ok] at h
  obtain ⟨q, -, q2, -, md, hmd, rfl⟩ := h
  show Resistics.ExactRows md.chans _ _ _ _
  rw [(adjust_chans hmd).1]
  have e : (td.data.map fun row => pySlice row q.1 (q.2 + 1)).map complexRow =
      (td.data.map complexRow).map fun row => pySlice row q.1 (q.2 + 1) := by
    rw [List.map_map, List.map_map]
    refine List.map_congr_left fun r _ => ?_
    simp [complexRow, pySlice, List.map_take, List.map_drop]
  show Resistics.ExactRows _ ((td.data.map fun row => pySlice row q.1 (q.2 + 1)).map complexRow) _ _ _
  rw [e]
  have hl' : (td.data.map complexRow).length = td.md.chans.length := by simpa using hl
  refine IsCombo.congr ?_ (fun i hi => rowOf_map _ _ _ _ hl' (inC_mem hin hi)) (rowOf_map _ _ _ _ hl' hout)
  -- all rows have one length, so that all slices have the same bounds
  have hs : ∀ l : List ℂ, l.length = (rowOf td.md.chans (td.data.map complexRow) out).length → pySlice l q.1 (q.2 + 1) =
      (l.drop (pyBound (rowOf td.md.chans (td.data.map complexRow) out).length q.1)).take
        (pyBound (rowOf td.md.chans (td.data.map complexRow) out).length (q.2 + 1) -
          pyBound (rowOf td.md.chans (td.data.map complexRow) out).length q.1) := by
    intro l hlen
    rw [pySlice, List.drop_take, hlen]
  exact (IsCombo.slice he _ _).congr (fun i hi => (hs _ (IsCombo.len he i hi))) (hs _ rfl)

/-- Rows of time data that are linear functionals of the rows of other time data. -/
theorem exact_functionals {td td' : TimeData ℚ} (hch : td'.md.chans = td.md.chans)
    (hl : td.data.length = td.md.chans.length) (hl' : td'.data.length = td.data.length) {inC : List String} {z : ℕ → ℝ}
    {out : String} (hin : ∀ c ∈ inC, c ∈ td.md.chans) (hout : out ∈ td.md.chans) (he : td.ExactRows inC z out) {m : ℕ}
    (φ : ℕ → ((ℕ → ℂ) →ₗ[ℂ] ℂ)) (hφ : ∀ (c : ℕ) (row row' : List ℚ), td.data[c]? = some row → td'.data[c]? = some row' →
      row'.length = m ∧ ∀ k < m, ((row'.getD k 0 : ℚ) : ℂ) = φ k fun j => ((row.getD j 0 : ℚ) : ℂ)) :
    td'.ExactRows inC z out := by
  show Resistics.ExactRows td'.md.chans _ _ _ _
  rw [hch]
  refine ExactRows.linear (by simpa using hl) (by simp [hl', hl]) hin hout he (m := m) φ ?_
  intro c row row' h1 h2
  rw [List.getElem?_map] at h1 h2
  obtain ⟨r, hr, rfl⟩ := Option.map_eq_some_iff.1 h1
  obtain ⟨r', hr', rfl⟩ := Option.map_eq_some_iff.1 h2
  obtain ⟨h3, h4⟩ := hφ c r r' hr hr'
  refine ⟨by simpa [complexRow] using h3, fun k hk => ?_⟩
  rw [complexRow_getD, h4 k hk]
  congr 1
  funext j
  rw [complexRow_getD]

theorem exact_removeMean {td : TimeData ℚ} (hc : td.Consistent) {inC : List String} {z : ℕ → ℝ} {out : String}
    (hin : ∀ c ∈ inC, c ∈ td.md.chans) (hout : out ∈ td.md.chans) (he : td.ExactRows inC z out) :
    (removeMean td).ExactRows inC z out := by
  refine exact_functionals (td := td) (td' := removeMean td) (m := td.md.nSamples.toNat) rfl hc.rows (by simp [removeMean, newTimeData]) hin hout he
    (fun k => LinearMap.proj k - (1 / ((td.md.nSamples.toNat : ℕ) : ℂ)) • ∑ j ∈ range td.md.nSamples.toNat, LinearMap.proj j) ?_
  intro c row row' h1 h2
  have h3 : row' = row.map (· - npMean row) := by
    simp only [removeMean, newTimeData, Option.getD_some, List.getElem?_map, h1, Option.map_some, Option.some.injEq] at h2
    exact h2.symm
  have hlen : row.length = td.md.nSamples.toNat := by
    have := hc.cols row (List.mem_of_getElem? h1); omega
  subst h3
  refine ⟨by simpa using hlen, fun k hk => ?_⟩
  have hk' : k < row.length := by omega
  have hsum : ∀ l : List ℚ, ((l.sum : ℚ) : ℂ) = ∑ j ∈ range l.length, ((l.getD j 0 : ℚ) : ℂ) := by
    intro l
    induction l with
    | nil => simp
    | cons x l ih =>
      rw [List.sum_cons, List.length_cons, Finset.sum_range_succ', Rat.cast_add, ih]
      simp [add_comm]
  have e : (row.map (· - npMean row)).getD k 0 = row.getD k 0 - npMean row := by
    rw [List.getD_eq_getElem?_getD, List.getD_eq_getElem?_getD, List.getElem?_map, List.getElem?_eq_getElem hk']
    rfl
  rw [e, npMean, Rat.cast_sub, Rat.cast_div, hsum row]
  simp only [LinearMap.sub_apply, LinearMap.smul_apply, LinearMap.proj_apply, LinearMap.sum_apply, smul_eq_mul]
  rw [hlen, Rat.cast_natCast]
  ring

theorem exact_scale {td : TimeData ℚ} (hc : td.Consistent) (x : ℚ) {inC : List String} {z : ℕ → ℝ} {out : String}
    (hin : ∀ c ∈ inC, c ∈ td.md.chans) (hout : out ∈ td.md.chans) (he : td.ExactRows inC z out) :
    (multiplyProc (.scalar x) td).ExactRows inC z out := by
  have hd : (multiplyProc (.scalar x) td).data = td.data.map fun row => row.map (· * (1 * x)) := by
    simp only [multiplyProc, newTimeData, Option.getD_some, perChanVector]
    apply List.ext_getElem
    · simp [hc.rows]
    · intro i h1 h2
      simp
  refine exact_functionals (td := td) (td' := multiplyProc (.scalar x) td) (m := td.md.nSamples.toNat) rfl hc.rows (by rw [hd]; simp) hin hout he
    (fun k => (x : ℂ) • LinearMap.proj k) ?_
  intro c row row' h1 h2
  rw [hd, List.getElem?_map, h1] at h2
  simp only [Option.map_some, Option.some.injEq] at h2
  subst h2
  have hlen : row.length = td.md.nSamples.toNat := by
    have := hc.cols row (List.mem_of_getElem? h1); omega
  refine ⟨by simpa using hlen, fun k hk => ?_⟩
  have hk' : k < row.length := by omega
  rw [List.getD_eq_getElem?_getD, List.getElem?_map, List.getElem?_eq_getElem hk']
  simp only [LinearMap.smul_apply, LinearMap.proj_apply, getD_get hk', Option.map_some, Option.getD_some, smul_eq_mul]
  push_cast
  ring

theorem exact_shift {s : ℚ} (hs : 0 < s) {td td' : TimeData ℚ} (hc : td.Consistent) (h : shiftTimestamps s td = .ok td')
    {inC : List String} {z : ℕ → ℝ} {out : String}
    (hin : ∀ c ∈ inC, c ∈ td.md.chans) (hout : out ∈ td.md.chans) (he : td.ExactRows inC z out) : td'.ExactRows inC z out := by
  by_cases hn : 1 ≤ td.md.nSamples
  · obtain ⟨h1, h2⟩ := C25_shift_timestamps s hs td hc hn
    by_cases hlt : s < 1 / td.md.fs
    · obtain ⟨o, e1, -, -, e3, -, -, e4, e5⟩ := h2 hlt
      rw [h, Except.ok.injEq] at e1
      subst e1
      refine exact_functionals (td := td) (m := td.md.nSamples.toNat - 1) e3 hc.rows e4 hin hout he
        (fun k => (LinearMap.proj k : (ℕ → ℂ) →ₗ[ℂ] ℂ) + ((s * td.md.fs : ℚ) : ℂ) • ((LinearMap.proj (k + 1) : (ℕ → ℂ) →ₗ[ℂ] ℂ) - LinearMap.proj k)) ?_
      intro c row row' g1 g2
      obtain ⟨f1, f2⟩ := e5 c row row' g1 g2
      have hlen : row.length = td.md.nSamples.toNat := by
        have := hc.cols row (List.mem_of_getElem? g1); omega
      refine ⟨by omega, fun k hk => ?_⟩
      have hk' : k + 1 < row.length := by omega
      rw [List.getD_eq_getElem?_getD, f2 k hk']
      simp only [LinearMap.add_apply, LinearMap.sub_apply, LinearMap.smul_apply, LinearMap.proj_apply, smul_eq_mul,
        Option.getD_some, getD_get hk', getD_get (show k < row.length by omega)]
      push_cast
      ring
    · rw [h1 (not_lt.1 hlt)] at h
      cases h
  · unfold shiftTimestamps at h
    simp only [bind, Except.bind, pure, Except.pure, throw, throwThe, MonadExceptOf.throw] at h
    split at h
    · cases h
    split at h
    · cases h
    rw [if_pos (by omega)] at h
    cases h

theorem exact_proc {sp : SciPy} (hsp : sp.Linear) {p : Proc} (hv : p.Valid) (hp : p.Linear)
    {td td' : TimeData ℚ} (hc : td.Consistent) (h : p.run sp td = .ok td')
    {inC : List String} {z : ℕ → ℝ} {out : String}
    (hin : ∀ c ∈ inC, c ∈ td.md.chans) (hout : out ∈ td.md.chans) (he : td.ExactRows inC z out) : td'.ExactRows inC z out := by
  cases p with
  | subsection f t => exact exact_subsection h hc.rows hin hout he
  | interpolateNans =>
    simp only [Proc.run, Except.ok.injEq] at h
    subst h
    exact he
  | removeMean =>
    simp only [Proc.run, Except.ok.injEq] at h
    subst h
    exact exact_removeMean hc hin hout he
  | add p => exact absurd hp (by simp [Proc.Linear])
  | multiply p =>
    cases p with
    | scalar x =>
      simp only [Proc.run, Except.ok.injEq] at h
      subst h
      exact exact_scale hc x hin hout he
    | dict d => exact absurd hp (by simp [Proc.Linear])
  | lowPass c o => exact exact_filter hsp h hc.rows hin hout he
  | highPass c o => exact exact_filter hsp h hc.rows hin hout he
  | bandPass l hi o => exact exact_filter hsp h hc.rows hin hout he
  | notch f b o => exact exact_filter hsp h hc.rows hin hout he
  | resample f => exact exact_resample hsp h hc.rows hin hout he
  | decimate m f => exact exact_decimate hsp h hc.rows hin hout he
  | shift s => exact exact_shift hv hc h hin hout he
  | apply j f => exact absurd hp (by simp [Proc.Linear])

theorem exact_timeProcs {sp : SciPy} (hl : sp.Lawful) (hsp : sp.Linear) {procs : List Proc}
    (hp : ∀ p ∈ procs, p.Valid ∧ p.Linear) {td td' : TimeData ℚ} (hc : td.Consistent)
    (h : runTimeProcessors sp procs td = .ok td') {inC : List String} {z : ℕ → ℝ} {out : String}
    (hin : ∀ c ∈ inC, c ∈ td.md.chans) (hout : out ∈ td.md.chans) (he : td.ExactRows inC z out) : td'.ExactRows inC z out := by
  induction procs generalizing td with
  | nil =>
    simp only [runTimeProcessors, List.foldlM_nil, except_pure_ok] at h
    subst h
    exact he
  | cons p procs ih =>
    unfold runTimeProcessors at h
    rw [List.foldlM_cons, except_bind_ok] at h
    obtain ⟨t, h1, h2⟩ := h
    obtain ⟨g1, g2, -⟩ := Proc.run_consistent sp hl p (hp p (by simp)).1 td t hc h1
    refine ih (fun q hq => hp q (by simp [hq])) g1 h2 (by rw [g2]; exact hin) (by rw [g2]; exact hout) ?_
    exact exact_proc hsp (hp p (by simp)).1 (hp p (by simp)).2 hc h1 hin hout he

/-! ## The Fourier transform -/

/-- The transform of the package is linear, for every kind of detrending, every window function and every length. -/
theorem linear_fourierRow (d : Detrend) (coeffs : ℕ → List ℝ) (m : ℕ) :
    LinearTransform fun row => fourierRow d coeffs m (row.map fun (q : ℚ) => (q : ℝ)) := by
  have hlen : ∀ x : List ℝ, (fourierRow d coeffs m x).length = m / 2 + 1 := by
    intro x; unfold fourierRow; rw [rfftOrtho_length]
  -- partial combinations of real rows
  have key : ∀ (n : ℕ) (z : ℕ → ℝ) (ins : ℕ → List ℝ) (out : List ℝ), (∀ i < n, (ins i).length = out.length) →
      (∀ k < out.length, out.getD k 0 = ∑ i ∈ range n, z i * (ins i).getD k 0) → ∀ k < m / 2 + 1,
      (fourierRow d coeffs m out).getD k 0 = ∑ i ∈ range n, (z i : ℂ) * (fourierRow d coeffs m (ins i)).getD k 0 := by
    intro n z ins
    induction n with
    | zero =>
      intro out _ hval k hk
      have hc : Combines 0 0 out out out := by
        refine ⟨rfl, rfl, fun j hj => ?_⟩
        have := hval j hj
        simpa [hj] using this
      rw [C53_linear d coeffs m 0 0 out out out hc, List.getD_eq_getElem?_getD, List.getElem?_zipWith]
      rw [List.getElem?_eq_getElem (by rw [hlen]; exact hk)]
      simp
    | succ n ih =>
      intro out hl hval k hk
      let part : List ℝ := (List.range out.length).map fun j => ∑ i ∈ range n, z i * (ins i).getD j 0
      have hpl : part.length = out.length := by simp [part]
      have hpv : ∀ j < part.length, part.getD j 0 = ∑ i ∈ range n, z i * (ins i).getD j 0 := by
        intro j hj
        rw [getD_get hj]
        simp [part]
      have h1 := ih part (fun i hi => by rw [hpl]; exact hl i (by omega)) hpv k hk
      have hc : Combines 1 (z n) part (ins n) out := by
        refine ⟨hpl, hl n (by omega), fun j hj => ?_⟩
        have := hval j hj
        rw [Finset.sum_range_succ, ← hpv j (by omega)] at this
        simpa using this
      rw [C53_linear d coeffs m 1 (z n) part (ins n) out hc, List.getD_eq_getElem?_getD, List.getElem?_zipWith,
        List.getElem?_eq_getElem (by rw [hlen]; exact hk), List.getElem?_eq_getElem (by rw [hlen]; exact hk),
        Finset.sum_range_succ, ← h1, getD_get (by rw [hlen]; exact hk), getD_get (by rw [hlen]; exact hk)]
      simp
  intro n z ins out h
  refine ⟨fun i _ => by rw [hlen, hlen], fun k hk => ?_⟩
  rw [hlen] at hk
  have hget : ∀ (l : List ℚ) (j : ℕ), (l.map fun (q : ℚ) => (q : ℝ)).getD j 0 = ((l.getD j 0 : ℚ) : ℝ) := by
    intro l j
    rw [List.getD_eq_getElem?_getD, List.getD_eq_getElem?_getD, List.getElem?_map]
    cases l[j]? <;> simp
  refine key n z _ _ ?_ ?_ k hk
  · intro i hi
    have := h.len i hi
    simpa [complexRow] using this
  · intro j hj
    have := h.val j (by simpa [complexRow] using hj)
    rw [complexRow_getD] at this
    simp only [complexRow_getD] at this
    rw [hget]
    simp only [hget]
    have e : (((out.getD j 0 : ℚ) : ℝ) : ℂ) = ((∑ i ∈ range n, z i * ((ins i).getD j 0 : ℚ) : ℝ) : ℂ) := by
      push_cast
      exact_mod_cast this
    exact_mod_cast e

/-! ## Spectra processors -/

/-- Specification: a spectra processor that keeps the shape and the frequencies of the data, and every linear relation
between channels. -/
def KeepsRelations (f : SpecData ℂ → Except Err (SpecData ℂ)) : Prop :=
  ∀ spec spec' : SpecData ℂ, spec.Shaped → f spec = .ok spec' →
    (spec'.Shaped ∧ spec'.md.chans = spec.md.chans ∧ spec'.md.nLevels = spec.md.nLevels ∧ spec'.md.levels = spec.md.levels) ∧
    ∀ (inC : List String) (z : ℕ → ℂ) (out : String), (∀ c ∈ inC, c ∈ spec.md.chans) → out ∈ spec.md.chans →
      spec.ExactRel inC z out → spec'.ExactRel inC z out

/-- Specification: a filter of complex rows that keeps the length and is linear. -/
def LinearFilter (g : List ℂ → List ℂ) : Prop :=
  (∀ row, (g row).length = row.length) ∧
    ∀ (n : ℕ) (z : ℕ → ℂ) (ins : ℕ → List ℂ) (out : List ℂ), IsCombo n z ins out → IsCombo n z (fun i => g (ins i)) (g out)

/-- Smoothing with a linear filter keeps relations. -/
theorem smooth_keeps (name : String) (filt : ℕ → List ℂ → List ℂ) (hf : ∀ n, LinearFilter (filt n)) :
    KeepsRelations (smoothRun name filt) := by
  intro spec spec' hsh h
  obtain ⟨o, h1, h2, h3, h4, -, h5⟩ := smoothRun_spec name filt spec hsh
  rw [h, Except.ok.injEq] at h1
  subst h1
  have hkeys : spec'.data.map Prod.fst = List.range spec.md.nLevels := by
    unfold smoothRun mkSpecData at h
    obtain ⟨out, ho, h⟩ := except_bind_ok.1 h
    have hlen : out.length = spec.md.nLevels := by simpa using mapM_ok_length ho
    have e : (out.zipIdx.map fun q => (q.2, q.1)).map Prod.fst = List.range spec.md.nLevels := by
      rw [List.map_map, show (Prod.fst ∘ fun q : SpecArr ℂ × ℕ => (q.2, q.1)) = Prod.snd from rfl, List.zipIdx_map_snd,
        ← List.range_eq_range', hlen]
    simp only [except_bind_ok, except_pure_ok] at h
    obtain ⟨x, -, rfl⟩ := h
    exact e
  have hlook : ∀ (i : ℕ) (lm : SpecLevelMeta), spec.md.levels[i]? = some lm → ∃ arr, spec.data.lookup i = some arr ∧
      spec'.data.lookup i = some (arr.map fun win => win.map fun row => filt lm.nFreqs row) := by
    intro i lm hlm
    obtain ⟨arr, e1, e2⟩ := h5 i lm hlm
    exact ⟨arr, lookup_of_getLevel e1, lookup_of_getLevel e2⟩
  have hshape : spec'.Shaped := by
    refine ⟨by rw [h2, h4]; exact hsh.n_levels, by rw [h4]; exact hsh.some_level, by rw [h2]; exact hsh.n_freqs,
      by rw [hkeys, h4], ?_⟩
    intro i lm hlm
    rw [h2] at hlm
    obtain ⟨arr, e1, e2⟩ := hlook i lm hlm
    obtain ⟨arr', f1, f2, f3⟩ := hsh.array i lm hlm
    rw [e1, Option.some.injEq] at f1
    subst f1
    refine ⟨_, e2, by simpa using f2, ?_⟩
    intro win hwin
    obtain ⟨w, hw, rfl⟩ := List.mem_map.1 hwin
    refine ⟨by rw [h3]; simpa using (f3 w hw).1, ?_⟩
    intro row hrow
    obtain ⟨r, hr, rfl⟩ := List.mem_map.1 hrow
    rw [(hf _).1, (f3 w hw).2 r hr]
  refine ⟨⟨hshape, h3, h4, h2⟩, ?_⟩
  intro inC z out hin hout he i arr' harr' win' hwin'
  have hi : i < spec.md.levels.length := by rw [hsh.n_levels, ← h4]; exact lookup_lt hshape harr'
  obtain ⟨arr, e1, e2⟩ := hlook i _ (List.getElem?_eq_getElem hi)
  rw [harr', Option.some.injEq] at e2
  subst e2
  obtain ⟨arr2, f1, f2, f3⟩ := hsh.array i _ (List.getElem?_eq_getElem hi)
  rw [e1, Option.some.injEq] at f1
  subst f1
  obtain ⟨win, hwin, rfl⟩ := List.mem_map.1 hwin'
  have hl := (f3 win hwin).1
  rw [h3]
  exact ((hf _).2 _ _ _ _ (he i arr e1 win hwin)).congr (fun k hk => rowOf_map _ _ _ _ hl (inC_mem hin hk))
    (rowOf_map _ _ _ _ hl hout)

theorem linear_uniformFilter (len : ℤ) : LinearFilter fun row => uniformFilter row len := by
  refine ⟨fun row => by simp [uniformFilter], ?_⟩
  intro n z ins out h
  refine IsCombo.linear h (m := out.length) (fun k => ((1 / (len : ℚ) : ℚ) : ℂ) • ∑ d ∈ range len.toNat,
    (LinearMap.proj (reflectIndex out.length ((k : ℤ) - len / 2 + d)) : (ℕ → ℂ) →ₗ[ℂ] ℂ)) ?_ ?_
  all_goals
    have key : ∀ row : List ℂ, row.length = out.length → (uniformFilter row len).length = out.length ∧ ∀ k < out.length,
        (uniformFilter row len).getD k 0 = (((1 / (len : ℚ) : ℚ) : ℂ) • ∑ d ∈ range len.toNat,
          (LinearMap.proj (reflectIndex out.length ((k : ℤ) - len / 2 + d)) : (ℕ → ℂ) →ₗ[ℂ] ℂ)) fun j => row.getD j 0 := by
      intro row hl
      refine ⟨by simpa [uniformFilter] using hl, fun k hk => ?_⟩
      have hsum : ∀ (m : ℕ) (f : ℕ → ℂ), ((List.range m).map f).sum = ∑ d ∈ range m, f d := by
        intro m f
        induction m with
        | zero => simp
        | succ m ih => rw [List.range_succ, List.map_append, List.sum_append, ih, Finset.sum_range_succ]; simp
      rw [List.getD_eq_getElem?_getD]
      unfold uniformFilter
      rw [List.getElem?_map, List.getElem?_range (by omega)]
      simp only [Option.map_some, Option.getD_some, LinearMap.smul_apply, LinearMap.sum_apply, LinearMap.proj_apply, hsum,
        smul_eq_mul, hl, List.getD_eq_getElem?_getD]
      rw [Rat.smul_def]
  · intro i hi
    exact key _ (h.len i hi)
  · exact key _ rfl

/-- The smoother of the package with a uniform window keeps relations. -/
theorem uniform_keeps (prop : ℚ) : KeepsRelations (smoothUniformRun prop) :=
  smooth_keeps _ _ fun n => linear_uniformFilter (getSmoothLength prop n)

/-- The Gaussian smoother keeps relations when the Gaussian filter is linear. -/
theorem gaussian_keeps (gauss : ℚ → List ℂ → List ℂ) (hg : LinearFilter (gauss 1)) (sigma : ℚ) :
    KeepsRelations (smoothGaussianRun gauss sigma) :=
  smooth_keeps _ _ fun _ => hg

theorem keeps_chain {procs : List (SpecData ℂ → Except Err (SpecData ℂ))} (hp : ∀ f ∈ procs, KeepsRelations f) :
    KeepsRelations fun spec => procs.foldlM (fun s f => f s) spec := by
  induction procs with
  | nil =>
    intro spec spec' hsh h
    simp only [List.foldlM_nil, except_pure_ok] at h
    subst h
    exact ⟨⟨hsh, rfl, rfl, rfl⟩, fun _ _ _ _ _ h => h⟩
  | cons f procs ih =>
    intro spec spec' hsh h
    simp only [List.foldlM_cons, except_bind_ok] at h
    obtain ⟨mid, h1, h2⟩ := h
    obtain ⟨⟨a1, a2, a3, a4⟩, a5⟩ := hp f (by simp) spec mid hsh h1
    obtain ⟨⟨b1, b2, b3, b4⟩, b5⟩ := ih (fun g hg => hp g (by simp [hg])) mid spec' a1 h2
    refine ⟨⟨b1, b2.trans a2, b3.trans a3, b4.trans a4⟩, ?_⟩
    intro inC z out hin hout he
    exact b5 inC z out (by rw [a2]; exact hin) (by rw [a2]; exact hout) (a5 inC z out hin hout he)

/-! ## From time data to the evaluation frequencies -/

/-- Specification: a configuration all of whose steps are linear.  `freqs`, `maxSingle`, `minSamples` and `minNWins` are what
the package checks or computes itself (at least two windows, so that arrays keep their three dimensions). -/
structure Config.LinearChain (c : Config) : Prop where
  lawful : c.sp.Lawful
  scipy : c.sp.Linear
  procs : ∀ p ∈ c.timeProcs, p.Valid ∧ p.Linear
  maxSingle : 2 ≤ c.maxSingle
  freqs : ∀ f n, (c.defaultFreqs f n).length = n
  windower : StandardWindower c.windower
  minNWins : 2 ≤ c.winSetup.minNWins
  ft_length : ∀ n row, (c.ft n row).length = n / 2 + 1
  ft_linear : ∀ n, LinearTransform (c.ft n)
  specProcs : ∀ f ∈ c.specProcs, KeepsRelations f

/-- The steps from time data to the evaluation frequencies keep every real linear relation between channels. -/
theorem exact_toEvals {c : Config} (hc : c.LinearChain) {ref : DateTime} {td : TimeData ℚ} (htd : td.Consistent)
    (hch : 2 ≤ td.md.chans.length)
    (hfs : ∀ tdp, runTimeProcessors c.sp c.timeProcs td = .ok tdp → tdp.md.fs ≤ 10 ^ 13)
    {p : DecParams ℚ} {evals : SpecData ℂ} (h : c.toEvals ref td = .ok (p, evals)) :
    evals.Shaped ∧ evals.md.chans = td.md.chans ∧ (∀ lm ∈ evals.md.levels, lm.freqs.length = p.perLevel) ∧
      ∀ (inC : List String) (z : ℕ → ℝ) (out : String), (∀ a ∈ inC, a ∈ td.md.chans) → out ∈ td.md.chans →
        td.ExactRows inC z out → evals.ExactRel inC (fun i => (z i : ℂ)) out := by
  unfold Config.toEvals Config.toSpectra Config.processSpectra Config.window Config.decimate at h
  simp only [except_bind_ok, except_pure_ok, Prod.mk.injEq] at h
  obtain ⟨-, ⟨tdp, h1, p', h2, dec, h3, win, ⟨wp, h4, h5⟩, spec0, h6, rfl⟩, spec, h7, ev, h8, rfl, rfl⟩ := h
  change evalFreqsRun p' spec = .ok ev at h8
  change ev.Shaped ∧ ev.md.chans = td.md.chans ∧ (∀ lm ∈ ev.md.levels, lm.freqs.length = p'.perLevel) ∧ _
  obtain ⟨a1, a2, -⟩ := C23_chain_consistent c.sp hc.lawful c.timeProcs (fun q hq => (hc.procs q hq).1) td tdp htd h1
  obtain ⟨-, -, -, hpos, -⟩ := DecSetup.run_spec _ _ _ _ h2
  obtain ⟨b1, b2, b3, b4, b5⟩ := exact_decimator hc.lawful hc.scipy hc.maxSingle (by omega) a1 (by rw [a2]; omega)
    (hfs tdp h1) h3
  have hw := (C14_one_size_per_level _ _ _ _ h4).2.1
  obtain ⟨c1, c2, c3, c4, c5⟩ := windower_windows hc.windower b1 (by rw [b2, a2]; exact hch) (by rw [hw]; exact hc.minNWins) h5
  obtain ⟨d1, d2, d3, d4, d5⟩ := exact_fourier hc.ft_length hc.ft_linear c1 (by
    intro wlm hwlm
    obtain ⟨i, hi, rfl⟩ := List.mem_iff_getElem.1 hwlm
    obtain ⟨lm, e1, e2⟩ := c4 i _ (List.getElem?_eq_getElem hi)
    rw [e2]
    exact b4 lm (List.mem_of_getElem? e1)) h6
  obtain ⟨⟨e1, e2, e3, e4⟩, e5⟩ := keeps_chain hc.specProcs spec0 spec d1 h7
  obtain ⟨f1, f2, f3, f4, f5⟩ := exact_evaluation e1 (by rw [e4]; exact d4) (by omega) h8
  have hchans : ev.md.chans = td.md.chans := by rw [f2, e2, d2, c2, b2, a2]
  refine ⟨f1, hchans, ?_, ?_⟩
  · intro lm hlm
    obtain ⟨i, hi, rfl⟩ := List.mem_iff_getElem.1 hlm
    have g1 := f4 i _ (List.getElem?_eq_getElem hi)
    have g2 := C19_setup_length _ _ hc.freqs _ _ h2
    have hi' : i < p'.nLevels := by rw [f1.n_levels] at hi; omega
    obtain ⟨j1, -, -⟩ := C19_eval_freq_lookup p' g2 i 0
    by_cases h0 : 0 < p'.perLevel
    · obtain ⟨row, x, k1, k2, -⟩ := j1 ⟨by omega, by exact_mod_cast hi', le_rfl, by exact_mod_cast h0⟩
      rw [k1, Except.ok.injEq] at g1
      rw [← g1, k2]
    · unfold DecParams.getEvalFreqs at g1
      obtain ⟨-, -, g1⟩ := except_bind_ok.1 g1
      rw [except_pure_ok] at g1
      rw [← g1]
      have h0' : p'.perLevel = 0 := by omega
      simp [h0', pySlice]
  · intro inC z out hin hout he
    have g1 := exact_timeProcs hc.lawful hc.scipy hc.procs htd h1 hin hout he
    have g2 := b5 inC z out (by rw [a2]; exact hin) (by rw [a2]; exact hout) g1
    have wch : win.md.chans = td.md.chans := by rw [c2, b2, a2]
    have g3 := d5 inC z out (by rw [wch]; exact hin) (by rw [wch]; exact hout) (by
      intro i wins hi hwins x hx
      obtain ⟨rows, r1, r2, r3⟩ := c5 i wins hi hwins
      obtain ⟨u, v, rfl⟩ := r3 x hx
      have hch' : dec.md.chans = tdp.md.chans := b2
      rw [c2, hch']
      exact exact_window (by rw [r2, hch']) (by rw [a2]; exact hin) (by rw [a2]; exact hout) (g2 i rows r1) u v)
    have s0 : spec0.md.chans = td.md.chans := by rw [d2, wch]
    have g4 := e5 inC _ out (by rw [s0]; exact hin) (by rw [s0]; exact hout) g3
    exact f5 inC _ out (by rw [e2, s0]; exact hin) (by rw [e2, s0]; exact hout) g4

/-! ## Gathered data -/

/-- The gathered data of evaluation data, as numbers. -/
theorem quick_gathered (name : String) (p : DecParams ℚ) (d : SpecData ℂ) (hsh : d.Shaped) (hnd : d.md.chans.Nodup)
    (tf : TransFunc) (ho : ∀ c ∈ tf.outChans, c ∈ d.md.chans)
    (hi : ∀ c ∈ tf.inChans, c ∈ d.md.chans) (hx : ∀ c ∈ tf.crossChans, c ∈ d.md.chans)
    (hni : tf.nIn = tf.inChans.length) (hnc : tf.nCross = tf.crossChans.length)
    (hper : ∀ lm ∈ d.md.levels, lm.freqs.length = p.perLevel) :
    ∃ (g : Gathered ℂ) (nw : ℕ → ℕ), quickGather name p tf.gatherChans d = .ok g ∧
      g.outData.evalFreqs = (d.md.levels.map (·.freqs)).flatten ∧
      GatheredIs tf g nw
        (fun k w o => cellVal d (k / p.perLevel) w (tf.outChans.getD o "") (k % p.perLevel))
        (fun k w o => cellVal d (k / p.perLevel) w (tf.inChans.getD o "") (k % p.perLevel))
        (fun k w o => cellVal d (k / p.perLevel) w (tf.crossChans.getD o "") (k % p.perLevel)) ∧
      ∀ k < g.outData.evalFreqs.length, ∃ lm : SpecLevelMeta, d.md.levels[k / p.perLevel]? = some lm ∧
        nw k = lm.nWins.toNat ∧ k % p.perLevel < lm.freqs.length := by
  obtain ⟨g, hg, q1, q2, q3, q4⟩ := C32_quick_gather name p d hsh hnd tf.chans ho hi hx hper
  let nwOf : ℕ → ℕ := fun k => ((d.md.levels[k / p.perLevel]?).map fun lm => lm.nWins.toNat).getD 0
  have hlen : g.outData.evalFreqs.length = d.md.nLevels * p.perLevel := by
    rw [q4, flatten_freqs_length _ _ hper, hsh.n_levels]
  have hat : ∀ k < g.outData.evalFreqs.length, ∃ lm : SpecLevelMeta, d.md.levels[k / p.perLevel]? = some lm ∧
      k % p.perLevel < p.perLevel ∧ nwOf k = lm.nWins.toNat ∧ p.perLevel * (k / p.perLevel) + k % p.perLevel = k := by
    intro k hk
    rw [hlen] at hk
    have hp : 0 < p.perLevel := Nat.pos_of_ne_zero (by intro h; rw [h] at hk; omega)
    have hlt : k / p.perLevel < d.md.levels.length := by
      rw [hsh.n_levels]; exact Nat.div_lt_of_lt_mul (by rwa [mul_comm])
    refine ⟨d.md.levels[k / p.perLevel], List.getElem?_eq_getElem hlt, Nat.mod_lt _ hp, ?_, Nat.div_add_mod _ _⟩
    simp [nwOf, List.getElem?_eq_getElem hlt]
  refine ⟨g, nwOf, hg, q4, ⟨hni, hnc, ?_, ?_, ?_⟩, ?_⟩
  · intro k hk
    obtain ⟨lm, h1, h2, h3, h4⟩ := hat k hk
    have := quick_rows d hnd p.perLevel tf.outChans _ q1 _ _ lm h1 h2
    rw [h4] at this
    rw [this, h3]
  · intro k hk
    obtain ⟨lm, h1, h2, h3, h4⟩ := hat k hk
    have := quick_rows d hnd p.perLevel tf.inChans _ q2 _ _ lm h1 h2
    rw [h4] at this
    rw [this, h3]
  · intro k hk
    obtain ⟨lm, h1, h2, h3, h4⟩ := hat k hk
    have := quick_rows d hnd p.perLevel tf.crossChans _ q3 _ _ lm h1 h2
    rw [h4] at this
    rw [this, h3]
  · intro k hk
    obtain ⟨lm, h1, h2, h3, -⟩ := hat k hk
    exact ⟨lm, h1, h3, by rw [hper lm (List.mem_of_getElem? h1)]; exact h2⟩

theorem cells_of_exact {d : SpecData ℂ} (hsh : d.Shaped) {inC : List String} {z : ℕ → ℂ} {out : String}
    (hout : out ∈ d.md.chans) (h : d.ExactRel inC z out) {i : ℕ} {lm : SpecLevelMeta} (hlm : d.md.levels[i]? = some lm)
    {w : ℕ} (hw : w < lm.nWins.toNat) {j : ℕ} (hj : j < lm.freqs.length) :
    cellVal d i w out j = ∑ k ∈ range inC.length, z k * cellVal d i w (inC.getD k "") j := by
  obtain ⟨arr, h1, h2, h3⟩ := hsh.array i lm hlm
  have hwa : w < arr.length := by omega
  have hmem := List.getElem_mem hwa
  have hrow := rowOf_mem (h3 _ hmem).1 hout
  have hl : (rowOf d.md.chans arr[w] out).length = lm.freqs.length :=
    (h3 _ hmem).2 _ (List.mem_of_getElem? hrow)
  have := (h i arr h1 _ hmem).val j (by rw [hl]; exact hj)
  unfold cellVal
  simp only [h1, Option.getD_some, getD_get hwa]
  exact this

/-! ## The theorems -/

/-- Specification: what the channels of the transfer function and of the recording must satisfy: the transfer function is
complete, its channels are in the recording, and there are no duplicates. -/
structure Config.Suits (c : Config) (td : TimeData ℚ) : Prop where
  consistent : td.Consistent
  chans : td.md.chans.Nodup
  two : 2 ≤ td.md.chans.length
  out : ∀ a ∈ c.tf.outChans, a ∈ td.md.chans
  inp : ∀ a ∈ c.tf.inChans, a ∈ td.md.chans
  cross : ∀ a ∈ c.tf.crossChans, a ∈ td.md.chans
  nodup : c.tf.outChans.Nodup
  counts : CountsOk c.tf
  n_cross : c.tf.nCross = c.tf.crossChans.length
  rate : ∀ tdp, runTimeProcessors c.sp c.timeProcs td = .ok tdp → tdp.md.fs ≤ 10 ^ 13

/-- **C50**. When the samples of an output channel are a fixed real combination of the samples of the input channels, then
after the time data processors, decimation, windowing, Fourier transform, spectra processors, evaluation frequencies and
gathering, the regression system of that channel at every evaluation frequency is satisfied exactly by that combination. -/
theorem C50_end_to_end (c : Config) (hc : c.LinearChain) (td : TimeData ℚ) (hs : c.Suits td) (ref : DateTime) (name : String)
    (p : DecParams ℚ) (evals : SpecData ℂ) (h : c.toEvals ref td = .ok (p, evals)) :
    ∃ g r, quickGather name p c.tf.gatherChans evals = .ok g ∧ prepareGathered c.tf g = .ok r ∧
      r.freqs = (evals.md.levels.map (·.freqs)).flatten ∧
      ∀ (out : String) (z : ℕ → ℝ), out ∈ c.tf.outChans → td.Exact c.tf.inChans z out → ∀ k < r.freqs.length,
        ∃ obs preds, r.getInputs k out = .ok (obs, preds) ∧
          predict preds (realCoefs c.tf.inChans.length fun i => (z i : ℂ)) = obs := by
  obtain ⟨a1, a2, a3, a4⟩ := exact_toEvals hc hs.consistent hs.two hs.rate h
  obtain ⟨g, nw, b1, b2, b3, b4⟩ := quick_gathered name p evals a1 (by rw [a2]; exact hs.chans) c.tf
    (by rw [a2]; exact hs.out) (by rw [a2]; exact hs.inp) (by rw [a2]; exact hs.cross) hs.counts.n_in hs.n_cross a3
  obtain ⟨r, hr, -, hrf, -⟩ := C33_rows c.tf hs.nodup g nw _ _ _ b3
  refine ⟨g, r, b1, hr, hrf.trans b2, ?_⟩
  intro out z hout he k hk
  rw [hrf] at hk
  obtain ⟨o, ho⟩ := List.getElem?_of_mem hout
  refine C33_exact_data c.tf hs.nodup g nw _ _ _ b3 r hr k hk o out ho (fun i => (z i : ℂ)) ?_
  intro w hw
  obtain ⟨lm, e1, e2, e3⟩ := b4 k hk
  have hget : c.tf.outChans.getD o "" = out := by rw [List.getD_eq_getElem?_getD, ho]; rfl
  show cellVal _ _ _ (c.tf.outChans.getD o "") _ = _
  rw [hget]
  refine cells_of_exact a1 (by rw [a2]; exact hs.out out hout) (a4 _ _ _ hs.inp (hs.out out hout) ?_) e1 (by omega) e3
  exact (exact_rows td hs.consistent hs.chans _ z out hs.inp (hs.out out hout)).1 he

/-- Specification: the predictors of a regression system determine a transfer function with `n` inputs. -/
def Determined (n : ℕ) (preds : List (List ℝ)) : Prop :=
  ∀ W W' : ℕ → ℂ, predict preds (realCoefs n W) = predict preds (realCoefs n W') → ∀ i < n, W i = W' i

/-- When the regression returns given coefficients for every system, then these are the solution. -/
theorem solved_by {getCoef : List (List ℝ) → List ℝ → Except Err (List ℝ)} (r : RegInput)
    (hc : CountsOk r.tf) (hk : KeysDistinct r.tf) (Z : ℕ → ℕ → ℕ → ℂ)
    (h : ∀ k < r.freqs.length, ∀ (o : ℕ) (name : String), r.tf.outChans[o]? = some name →
      ∃ obs preds coef, r.getInputs k name = .ok (obs, preds) ∧ getCoef preds obs = .ok coef ∧
        2 * r.tf.inChans.length ≤ coef.length ∧ ∀ i < r.tf.inChans.length, coefComplex coef i = Z k o i) :
    ∃ s, solveWith getCoef r = .ok s ∧ s.freqs = r.freqs ∧
      (∀ (o i : ℕ) (a b : String), r.tf.outChans[o]? = some a → r.tf.inChans[i]? = some b →
        s.getComponent (a ++ b) = .ok ((List.range r.freqs.length).map fun k => Z k o i)) ∧
      (∀ k < r.freqs.length, s.getTensor k = .ok ((List.range r.tf.outChans.length).map fun o =>
        (List.range r.tf.inChans.length).map fun i => Z k o i)) := by
  have hcoef : ∀ (k o : ℕ), ∃ coef : List ℝ, k < r.freqs.length → ∀ name, r.tf.outChans[o]? = some name →
      ∃ obs preds, r.getInputs k name = .ok (obs, preds) ∧ getCoef preds obs = .ok coef ∧
        2 * r.tf.inChans.length ≤ coef.length ∧ ∀ i < r.tf.inChans.length, coefComplex coef i = Z k o i := by
    intro k o
    by_cases hko : k < r.freqs.length ∧ o < r.tf.outChans.length
    · obtain ⟨hk', ho⟩ := hko
      have ho? : r.tf.outChans[o]? = some r.tf.outChans[o] := List.getElem?_eq_getElem ho
      obtain ⟨obs, preds, coef, h1, h2⟩ := h k hk' o _ ho?
      refine ⟨coef, fun _ name hname => ?_⟩
      have : name = r.tf.outChans[o] := by rw [ho?] at hname; simpa using hname.symm
      subst this
      exact ⟨obs, preds, h1, h2⟩
    · refine ⟨[], fun hk' name hname => ?_⟩
      exact absurd ⟨hk', (List.getElem?_eq_some_iff.mp hname).1⟩ hko
  choose coefs hcoefs using hcoef
  have hreg : Regresses getCoef r coefs := by
    intro k hk' o name hname
    obtain ⟨obs, preds, a1, a2, a3, -⟩ := hcoefs k o hk' name hname
    exact ⟨obs, preds, a1, a2, a3⟩
  obtain ⟨s, s1, s2, s3, s4, s5, -⟩ := C34_solution getCoef r hc hk coefs hreg
  refine ⟨s, s1, s3, ?_, ?_⟩
  · intro o i a b ho hi
    rw [s4 o i a b ho hi]
    congr 1
    refine List.map_congr_left fun k hk' => ?_
    obtain ⟨-, -, -, -, -, h⟩ := hcoefs k o (List.mem_range.mp hk') a ho
    exact h i (List.getElem?_eq_some_iff.mp hi).1
  · intro k hk'
    rw [s5 k hk']
    congr 1
    refine List.map_congr_left fun o ho => ?_
    rw [List.mem_range] at ho
    obtain ⟨-, -, -, -, -, h⟩ := hcoefs k o hk' _ (List.getElem?_eq_getElem ho)
    exact List.map_congr_left fun i hi => h i (List.mem_range.mp hi)

/-- Any regression that fits exact data exactly returns the coefficients that satisfy a system exactly, when the predictors determine
them. -/
theorem coef_exactly {getCoef : List (List ℝ) → List ℝ → Except Err (List ℝ)} (hls : FitsExactly getCoef) {n : ℕ} (hn : 0 < n)
    {preds : List (List ℝ)} {obs : List ℝ} (h2 : obs.length = preds.length) (h3 : ∀ row ∈ preds, row.length = 2 * n)
    (h4 : Determined n preds) {Z : ℕ → ℂ} (h5 : predict preds (realCoefs n Z) = obs) :
    ∃ coef, getCoef preds obs = .ok coef ∧ 2 * n ≤ coef.length ∧ ∀ i < n, coefComplex coef i = Z i := by
  have hpne : preds ≠ [] := by
    rintro rfl
    have := h4 (fun _ => 0) (fun _ => 1) (by simp [predict]) 0 hn
    simp at this
  obtain ⟨coef, g1, g2, g3⟩ := hls _ preds obs (by omega) hpne h2 h3 (realCoefs n Z) (by simp [realCoefs, List.length_flatMap, mul_comm]) h5
  exact ⟨coef, g1, by omega, h4 (coefComplex coef) Z (by rw [realCoefs_coefComplex _ _ g2, g3, h5])⟩

/-- The solution of systems that are satisfied exactly. -/
theorem solved_exactly {getCoef : List (List ℝ) → List ℝ → Except Err (List ℝ)} (hls : FitsExactly getCoef) (r : RegInput)
    (hc : CountsOk r.tf) (hk : KeysDistinct r.tf) (hin : r.tf.inChans ≠ []) (Z : ℕ → ℕ → ℕ → ℂ)
    (h : ∀ k < r.freqs.length, ∀ (o : ℕ) (name : String), r.tf.outChans[o]? = some name →
      ∃ obs preds, r.getInputs k name = .ok (obs, preds) ∧ obs.length = preds.length ∧
        (∀ row ∈ preds, row.length = 2 * r.tf.inChans.length) ∧ Determined r.tf.inChans.length preds ∧
        predict preds (realCoefs r.tf.inChans.length (Z k o)) = obs) :
    ∃ s, solveWith getCoef r = .ok s ∧ s.freqs = r.freqs ∧
      (∀ (o i : ℕ) (a b : String), r.tf.outChans[o]? = some a → r.tf.inChans[i]? = some b →
        s.getComponent (a ++ b) = .ok ((List.range r.freqs.length).map fun k => Z k o i)) ∧
      (∀ k < r.freqs.length, s.getTensor k = .ok ((List.range r.tf.outChans.length).map fun o =>
        (List.range r.tf.inChans.length).map fun i => Z k o i)) := by
  refine solved_by r hc hk Z fun k hk' o name hname => ?_
  obtain ⟨obs, preds, h1, h2, h3, h4, h5⟩ := h k hk' o name hname
  obtain ⟨coef, g⟩ := coef_exactly hls (List.length_pos_of_ne_nil hin) h2 h3 h4 h5
  exact ⟨obs, preds, coef, h1, g⟩

/-- **C50**. The spectra of a recording are those of the processed recording, decimated with the parameters for the sampling frequency it
then has; with the standard windower their windows are counted from the reference time asked for. -/
theorem C50_stages (c : Config) (ref : DateTime) (td : TimeData ℚ) (p : DecParams ℚ) (spec : SpecData ℂ)
    (h : c.toSpectra ref td = .ok (p, spec)) :
    (∃ tdp dec, runTimeProcessors c.sp c.timeProcs td = .ok tdp ∧ c.decSetup.run c.defaultFreqs tdp.md.fs = .ok p ∧
      c.decimate p tdp = .ok dec) ∧ (c.windower = windowerRun → spec.md.refTime = ref) := by
  unfold Config.toSpectra Config.window at h
  simp only [except_bind_ok, except_pure_ok, Prod.mk.injEq] at h
  obtain ⟨tdp, h1, p', h2, dec, h3, win, ⟨wp, -, h5⟩, sp0, h6, rfl, rfl⟩ := h
  refine ⟨⟨tdp, dec, h1, h2, h3⟩, fun hw => ?_⟩
  rw [hw] at h5
  unfold windowerRun at h5
  obtain ⟨acc, -, h5⟩ := except_bind_ok.1 h5
  have hwin : win.md.refTime = ref := by
    unfold windowedResult at h5
    simp only [except_bind_ok, except_pure_ok] at h5
    obtain ⟨-, -, rfl⟩ := h5
    rfl
  unfold fourierRun mkSpecData at h6
  simp only [except_bind_ok, except_pure_ok] at h6
  obtain ⟨out, -, -, -, rfl⟩ := h6
  exact hwin

/-- `quick_tf` without calibration data, when the regression returns given coefficients for every system. -/
theorem quick_by (c : Config) (hk : KeysDistinct c.tf) (fs : FS ℂ) (dir : Path) (td : TimeData ℚ)
    (hread : c.quickRead fs dir = .ok td) (hs : c.Suits td) (p : DecParams ℚ) (evals : SpecData ℂ)
    (h : c.toEvals td.md.firstTime td = .ok (p, evals)) (a1 : evals.Shaped) (a2 : evals.md.chans = td.md.chans)
    (a3 : ∀ lm ∈ evals.md.levels, lm.freqs.length = p.perLevel) (Z : ℕ → ℕ → ℕ → ℂ)
    (hfit : ∀ g r, quickGather (pathName dir) p c.tf.gatherChans evals = .ok g → prepareGathered c.tf g = .ok r →
      ∀ k < r.freqs.length, ∀ (o : ℕ) (out : String), c.tf.outChans[o]? = some out → ∀ obs preds, r.getInputs k out = .ok (obs, preds) →
        obs.length = preds.length → (∀ row ∈ preds, row.length = 2 * c.tf.inChans.length) →
        (∃ lm : SpecLevelMeta, evals.md.levels[k / p.perLevel]? = some lm ∧ preds.length = lm.nWins.toNat * (2 * c.tf.crossChans.length)) →
        ∃ coef, c.getCoef preds obs = .ok coef ∧ 2 * c.tf.inChans.length ≤ coef.length ∧
          ∀ i < c.tf.inChans.length, coefComplex coef i = Z k o i) :
    ∃ s, c.quickTf fs dir none = .ok s ∧ s.freqs = (evals.md.levels.map (·.freqs)).flatten ∧
      (∀ (o i : ℕ) (a b : String), c.tf.outChans[o]? = some a → c.tf.inChans[i]? = some b →
        s.getComponent (a ++ b) = .ok ((List.range s.freqs.length).map fun k => Z k o i)) ∧
      (∀ k < s.freqs.length, s.getTensor k = .ok ((List.range c.tf.outChans.length).map fun o =>
        (List.range c.tf.inChans.length).map fun i => Z k o i)) := by
  obtain ⟨g, nw, b1, b2, b3, b4⟩ := quick_gathered (pathName dir) p evals a1 (by rw [a2]; exact hs.chans) c.tf
    (by rw [a2]; exact hs.out) (by rw [a2]; exact hs.inp) (by rw [a2]; exact hs.cross) hs.counts.n_in hs.n_cross a3
  obtain ⟨r, hr, hrtf, hrf, hrows⟩ := C33_rows c.tf hs.nodup g nw _ _ _ b3
  obtain ⟨s, s1, s2, s3, s4⟩ := solved_by (getCoef := c.getCoef) r (by rw [hrtf]; exact hs.counts) (by rw [hrtf]; exact hk) Z (by
      rw [hrtf]
      intro k hk' o out ho
      have hmem := List.mem_of_getElem? ho
      obtain ⟨obs, preds, f1, f2, f3, f4, f5, f6⟩ := hrows k (by rw [← hrf]; exact hk') o out ho
      obtain ⟨lm, q1, q2, -⟩ := b4 k (by rw [← hrf]; exact hk')
      obtain ⟨coef, g1⟩ := hfit g r b1 hr k hk' o out ho obs preds f1 f5.symm f6 ⟨lm, q1, by rw [f5, f4, q2]⟩
      exact ⟨obs, preds, coef, f1, g1⟩)
  refine ⟨s, ?_, by rw [s2, hrf, b2], ?_, ?_⟩
  · unfold Config.quickTf Config.solve Config.calibrateOpt
    simp only [hread, h, b1, hr, s1, bind, Except.bind]
  · rw [s2]
    rw [hrtf] at s3
    exact s3
  · rw [s2]
    rw [hrtf] at s4
    exact s4

/-- `quick_tf` without calibration data, when the regression returns the right coefficients for every system that they satisfy
exactly. -/
theorem recovered_by (c : Config) (hc : c.LinearChain) (hk : KeysDistinct c.tf)
    (fs : FS ℂ) (dir : Path) (td : TimeData ℚ) (hread : c.quickRead fs dir = .ok td)
    (hs : c.Suits td) (p : DecParams ℚ) (evals : SpecData ℂ) (h : c.toEvals td.md.firstTime td = .ok (p, evals))
    (Z : ℕ → ℕ → ℝ) (hZ : ∀ (o : ℕ) (out : String), c.tf.outChans[o]? = some out → td.Exact c.tf.inChans (Z o) out)
    (hfit : ∀ g r, quickGather (pathName dir) p c.tf.gatherChans evals = .ok g → prepareGathered c.tf g = .ok r →
      ∀ k < r.freqs.length, ∀ (o : ℕ) (out : String), c.tf.outChans[o]? = some out → ∀ obs preds, r.getInputs k out = .ok (obs, preds) →
        obs.length = preds.length → (∀ row ∈ preds, row.length = 2 * c.tf.inChans.length) →
        predict preds (realCoefs c.tf.inChans.length fun i => (Z o i : ℂ)) = obs →
        ∃ coef, c.getCoef preds obs = .ok coef ∧ 2 * c.tf.inChans.length ≤ coef.length ∧
          ∀ i < c.tf.inChans.length, coefComplex coef i = Z o i) :
    ∃ s, c.quickTf fs dir none = .ok s ∧ s.freqs = (evals.md.levels.map (·.freqs)).flatten ∧
      (∀ (o i : ℕ) (a b : String), c.tf.outChans[o]? = some a → c.tf.inChans[i]? = some b →
        s.getComponent (a ++ b) = .ok ((List.range s.freqs.length).map fun _ => (Z o i : ℂ))) ∧
      (∀ k < s.freqs.length, s.getTensor k = .ok ((List.range c.tf.outChans.length).map fun o =>
        (List.range c.tf.inChans.length).map fun i => (Z o i : ℂ))) := by
  obtain ⟨a1, a2, a3, -⟩ := exact_toEvals hc hs.consistent hs.two hs.rate h
  refine quick_by c hk fs dir td hread hs p evals h a1 a2 a3 (fun _ o i => (Z o i : ℂ)) ?_
  intro g r hg hr k hk' o out ho obs preds h1 h2 h3 _
  obtain ⟨g', r', e1, e2, e3, e4⟩ := C50_end_to_end c hc td hs td.md.firstTime (pathName dir) p evals h
  rw [hg, Except.ok.injEq] at e1
  subst e1
  rw [hr, Except.ok.injEq] at e2
  subst e2
  obtain ⟨obs', preds', k1, k2⟩ := e4 out (Z o) (List.mem_of_getElem? ho) (hZ o out ho) k hk'
  rw [h1, Except.ok.injEq, Prod.mk.injEq] at k1
  obtain ⟨rfl, rfl⟩ := k1
  exact hfit g r hg hr k hk' o out ho obs preds h1 h2 h3 k2

/-- **C50**. `quick_tf` without calibration data, with any least squares regression (or any other
that fits exact data exactly): when every output channel of the
recording is a fixed real combination of the input channels and the predictors determine a transfer function at every
evaluation frequency, the estimated transfer function is that combination, at every evaluation frequency. -/
theorem C50_recovered (c : Config) (hc : c.LinearChain) (hls : FitsExactly c.getCoef) (hk : KeysDistinct c.tf)
    (hin : c.tf.inChans ≠ []) (fs : FS ℂ) (dir : Path) (td : TimeData ℚ) (hread : c.quickRead fs dir = .ok td)
    (hs : c.Suits td) (p : DecParams ℚ) (evals : SpecData ℂ) (h : c.toEvals td.md.firstTime td = .ok (p, evals))
    (hdet : ∀ g r, quickGather (pathName dir) p c.tf.gatherChans evals = .ok g → prepareGathered c.tf g = .ok r →
      ∀ k < r.freqs.length, ∀ out ∈ c.tf.outChans, ∀ obs preds, r.getInputs k out = .ok (obs, preds) →
        Determined c.tf.inChans.length preds)
    (Z : ℕ → ℕ → ℝ) (hZ : ∀ (o : ℕ) (out : String), c.tf.outChans[o]? = some out → td.Exact c.tf.inChans (Z o) out) :
    ∃ s, c.quickTf fs dir none = .ok s ∧ s.freqs = (evals.md.levels.map (·.freqs)).flatten ∧
      (∀ (o i : ℕ) (a b : String), c.tf.outChans[o]? = some a → c.tf.inChans[i]? = some b →
        s.getComponent (a ++ b) = .ok ((List.range s.freqs.length).map fun _ => (Z o i : ℂ))) ∧
      (∀ k < s.freqs.length, s.getTensor k = .ok ((List.range c.tf.outChans.length).map fun o =>
        (List.range c.tf.inChans.length).map fun i => (Z o i : ℂ))) := by
  refine recovered_by c hc hk fs dir td hread hs p evals h Z hZ ?_
  intro g r hg hr k hk' o out ho obs preds h1 h2 h3 h4
  exact coef_exactly hls (List.length_pos_of_ne_nil hin) h2 h3 (hdet g r hg hr k hk' out (List.mem_of_getElem? ho) obs preds h1) h4

end Resistics
