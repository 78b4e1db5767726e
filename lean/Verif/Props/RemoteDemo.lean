import Verif.Props.Remote

/-!
# A concrete remote reference (C60)

Two sites with one measurement each, processed on an empty file system; the transfer function of the first with the second as
remote reference.
-/

namespace Resistics

open Finset (range)

/-- the measurement of a site -/
def demoPairMeas (site : String) : Meas ℂ where
  siteName := site
  dirPath := ["proj", "time", site, "m"]
  md := demoLin.md
  reader := fixedReader demoLin

/-- a site with one measurement -/
def demoPairSite (site : String) : Site ℂ where
  dirPath := ["proj", "time", site]
  measurements := [("m", demoPairMeas site)]
  beginTime := 10
  endTime := 27 / 2

/-- a project with two sites -/
def demoPair : Project ℂ where
  dirPath := ["proj"]
  beginTime := 10
  endTime := 27 / 2
  md := { refTime := 10 }
  sites := [("A", demoPairSite "A"), ("B", demoPairSite "B")]

theorem demoPair_getMeas {site meas : String} {m : Meas ℂ} (h : demoPair.getMeas site meas = .ok m) :
    (site = "A" ∨ site = "B") ∧ meas = "m" ∧ m = demoPairMeas site := by
  unfold Project.getMeas Project.getSite at h
  obtain ⟨st, h1, h2⟩ := except_bind_ok.1 h
  have key : (site = "A" ∨ site = "B") ∧ st = demoPairSite site := by
    by_cases hA : site = "A"
    · subst hA
      simp only [demoPair, List.lookup_cons, BEq.rfl, Except.ok.injEq] at h1
      exact ⟨Or.inl rfl, h1.symm⟩
    · have hA' : (site == "A") = false := by simpa using hA
      by_cases hB : site = "B"
      · subst hB
        simp only [demoPair, List.lookup_cons, hA', BEq.rfl, Except.ok.injEq] at h1
        exact ⟨Or.inr rfl, h1.symm⟩
      · have hB' : (site == "B") = false := by simpa using hB
        simp only [demoPair, List.lookup_cons, hA', hB', List.lookup_nil] at h1
        cases h1
  obtain ⟨hs, rfl⟩ := key
  unfold Site.getMeasurement at h2
  by_cases hm : meas = "m"
  · subst hm
    simp only [demoPairSite, List.lookup_cons, BEq.rfl, Except.ok.injEq] at h2
    exact ⟨hs, rfl, h2.symm⟩
  · have : (meas == "m") = false := by simpa using hm
    simp only [demoPairSite, List.lookup_cons, this, List.lookup_nil] at h2
    cases h2

theorem demoPair_placed : demoPair.WellPlaced := by
  intro site meas m h
  obtain ⟨-, rfl, rfl⟩ := demoPair_getMeas h
  exact ⟨rfl, rfl, fun _ _ _ _ => ⟨rfl, fun _ _ => rfl⟩⟩

theorem demoPair_keyed : demoPair.Keyed := by
  intro site s h
  unfold Project.getSite at h
  split at h
  · rename_i s' hs'
    have := lookup_some_mem hs'
    simp only [demoPair, List.mem_cons, Prod.mk.injEq, List.not_mem_nil, or_false] at this
    rw [Except.ok.injEq] at h
    subst h
    rcases this with ⟨-, rfl⟩ | ⟨-, rfl⟩ <;> simp [demoPairSite]
  · cases h

theorem demoPair_meas {site : String} (h : site = "A" ∨ site = "B") : demoPair.getMeas site "m" = .ok (demoPairMeas site) := by
  rcases h with rfl | rfl <;> rfl

/-- processing both sites -/
theorem demoPair_processed (evals : SpecData ℂ) (h : demoConfig.toEvals 10 demoLin = .ok (demoLinParams, evals)) :
    ∃ s', processMeasurements demoConfig demoPair (fun _ => []) [("A", "m"), ("B", "m")] { fs := demoEmptyFs } = (.ok (), s') := by
  have hl : ∀ x ∈ [("A", "m"), ("B", "m")], IsName x.1 ∧ IsName x.2 := by
    unfold IsName
    decide
  have hn : IsName demoConfig.name := by
    show IsName "demo"
    unfold IsName
    decide
  have hloc : demoConfig.LocalCal := by intro _ _ _ _ _; rfl
  have hev : ∀ x ∈ [("A", "m"), ("B", "m")], ∃ m, demoConfig.evalsOf demoPair demoEmptyFs x.1 x.2 = .ok (m, evals) := by
    intro x hx
    simp only [List.mem_cons, List.not_mem_nil, or_false] at hx
    have key : ∀ site, (site = "A" ∨ site = "B") → demoConfig.evalsOf demoPair demoEmptyFs site "m" = .ok (demoPairMeas site, evals) := by
      intro site hs
      unfold Config.evalsOf
      rw [demoPair_meas hs]
      show (do
        let ps ← demoConfig.toEvals 10 demoLin
        let evals ← (Except.ok ps.2 : Except Err (SpecData ℂ))
        return (demoPairMeas site, evals) : Except Err (Meas ℂ × SpecData ℂ)) = _
      rw [h]
      rfl
    rcases hx with rfl | rfl
    · exact ⟨_, key "A" (Or.inl rfl)⟩
    · exact ⟨_, key "B" (Or.inr rfl)⟩
  have hdir : ∀ x ∈ [("A", "m"), ("B", "m")], demoPair.dirPath ++ ["evals"] <+: getMeasEvalsPath demoPair.dirPath x.1 x.2 demoConfig.name := by
    intro x hx
    rw [evalsPath _ (hl x hx).1 (hl x hx).2 hn]
    exact ⟨[x.1, demoConfig.name, x.2], by simp⟩
  rw [processMeasurements_eq demoPair_placed hloc hdir (d := fun _ => evals) (fun x hx => hev x hx) (s := { fs := demoEmptyFs })
    demoEmptyFs_tree (fun q _ => rfl)]
  obtain ⟨steps, r1, -⟩ := (writeOuts_run (s := { fs := demoEmptyFs }) (evals_apart demoConfig demoPair (fun _ => []) (fun _ => evals) hn hl)
    demoEmptyFs_tree).1 (by
      intro y hy
      have hdirn : ∀ q : Path, q ≠ [] → demoEmptyFs q = none := fun q hq => if_neg hq
      obtain ⟨x, hx, rfl⟩ := List.mem_map.1 hy
      have hne : (evalOut demoConfig demoPair (fun _ => []) (fun _ => evals) x).dir ≠ [] := by
        show getMeasEvalsPath demoPair.dirPath x.1 x.2 demoConfig.name ≠ []
        rw [evalsPath _ (hl x hx).1 (hl x hx).2 hn]
        simp
      show CanWrite demoEmptyFs _
      refine ⟨Or.inr ⟨hdirn _ hne, fun q _ => ?_⟩, ?_, ?_⟩
      · unfold FS.isFile demoEmptyFs
        by_cases hq : q = []
        · simp [hq]
        · simp [hq]
      · rw [hdirn _ (by simp)]; simp
      · rw [hdirn _ (by simp)]; simp)
  exact ⟨_, r1⟩

theorem demo_records : demoConfig.Records demoLin :=
  ⟨demoConfig_suits.consistent, demoConfig_suits.chans, demoConfig_suits.two, demoConfig_suits.rate⟩

/-- a cell of the input channel -/
theorem demo_cell {evals : SpecData ℂ} {lm : SpecLevelMeta} (h : demoConfig.toEvals 10 demoLin = .ok (demoLinParams, evals))
    (hlm : evals.md.levels[0]? = some lm) (hv : cellVal evals 0 0 "Hx" 0 = -8) {v : ℂ}
    (hc : IsCell evals 0 lm.indexOffset "Hx" 0 v) : v = -8 := by
  obtain ⟨-, a2, -⟩ := exact_toEvals demoConfig_linear demo_records.consistent demo_records.two demo_records.rate h
  obtain ⟨lm', arr, win, row, c, b1, b2, -, b4, b5, b6, b7⟩ := hc
  rw [hlm, Option.some.injEq] at b1
  subst b1
  rw [sub_self, Int.toNat_zero] at b4
  have hnd : evals.md.chans.Nodup := by rw [a2]; exact demo_records.chans
  obtain ⟨hk, hke⟩ := List.getElem?_eq_some_iff.1 b5
  have hidx : evals.md.chans.idxOf "Hx" = c := by
    rw [← hke]
    exact List.Nodup.idxOf_getElem hnd _ _
  unfold cellVal at hv
  rw [b2, hidx] at hv
  simp only [Option.getD_some, List.getD_eq_getElem?_getD, b4, b6, b7] at hv
  exact hv

/-- **C60** on the demonstration: site A with remote reference B gives the factor three at the evaluation frequency. -/
theorem demo_remote : ∃ (s' : FsState ℂ) (sol : Solution),
    processMeasurements demoConfig demoPair (fun _ => []) [("A", "m"), ("B", "m")] { fs := demoEmptyFs } = (.ok (), s') ∧
    demoConfig.tfOf demoPair s'.fs 2 "A" none (some "B") = .ok sol ∧ sol.getTensor 0 = .ok [[3]] := by
  obtain ⟨evals, lm, h, hlm, hn, hw, hf, hv⟩ := demo_evals
  obtain ⟨s', hs'⟩ := demoPair_processed evals h
  have hl : ∀ x ∈ [("A", "m"), ("B", "m")], IsName x.1 ∧ IsName x.2 := by
    unfold IsName
    decide
  have hname : IsName demoConfig.name := by
    show IsName "demo"
    unfold IsName
    decide
  have hkeep : demoConfig.CalKeeps := keeps_of_none rfl
  have hloc : demoConfig.LocalCal := by intro _ _ _ _ _; rfl
  have hmem : ∀ site, (site = "A" ∨ site = "B") → (site, "m") ∈ [("A", "m"), ("B", "m")] := by
    rintro site (rfl | rfl) <;> simp
  have hstored : ∀ site, (site = "A" ∨ site = "B") → demoConfig.HasEvals demoPair s'.fs 2 site "m" evals := by
    intro site hs
    obtain ⟨dp, ev, d, e1, e2, e3⟩ := stored_evals demoConfig_linear hkeep demoPair_placed hloc hname hl demoEmptyFs_tree hs'
      (hmem site hs) (demoPair_meas hs) (td := demoLin) rfl demo_records
    have e1' : demoConfig.toEvals 10 demoLin = .ok (dp, ev) := e1
    rw [h, Except.ok.injEq, Prod.mk.injEq] at e1'
    obtain ⟨-, rfl⟩ := e1'
    have e2' : evals = d := Except.ok.inj e2
    subst e2'
    exact ⟨⟨_, demoPair_meas hs, rfl⟩, e3⟩
  have hrec : ∀ site chans, (∀ a ∈ chans, a ∈ demoLin.md.chans) →
      demoConfig.SiteRecorded demoPair demoEmptyFs [("A", "m"), ("B", "m")] 2 site chans := by
    intro site chans hch meas m hm hfs
    obtain ⟨hs, rfl, rfl⟩ := demoPair_getMeas hm
    exact ⟨hmem site hs, demoLin, rfl, demo_records, hch⟩
  have hdp : demoConfig.decSetup.run demoConfig.defaultFreqs 2 = .ok demoLinParams := by
    show DecSetup.run (K := ℚ) { nLevels := 1, perLevel := 1, minSamples := 1, evalFreqs := some [1 / 2] }
      (fun _ n => List.replicate n 1) 2 = _
    decide +kernel
  have hAB : ∀ t ∈ ["A", "A", "B"], t = "A" ∨ t = "B" := by decide
  have hholds : evals.md.Holds 0 lm.indexOffset := ⟨by omega, lm, hlm, le_rfl, by omega⟩
  obtain ⟨sol, n, labels, r1, r2, r3, -, -, r4⟩ := C60_end_to_end demoConfig demoConfig_linear rfl (C33_least_squares_fits someLeastSquares_spec) (by
      intro o o' i i' a a' b b' h1 h2 h3 h4 _
      have e1 := (List.getElem?_eq_some_iff.1 h1).1
      have e2 := (List.getElem?_eq_some_iff.1 h2).1
      have e3 := (List.getElem?_eq_some_iff.1 h3).1
      have e4 := (List.getElem?_eq_some_iff.1 h4).1
      simp [demoConfig, demoTf] at e1 e2 e3 e4
      omega) (by decide) (by decide) ⟨rfl, rfl⟩ rfl demoPair demoPair_placed demoPair_keyed hname (fun _ => [])
    [("A", "m"), ("B", "m")] hl { fs := demoEmptyFs } s' demoEmptyFs_tree hs' 2 demoLinParams hdp "A" "B" (by decide) (by decide)
    (by
      intro t ht
      have ht' : t = "A" ∨ t = "B" := by simpa using ht
      exact ⟨"m", _, demoPair_meas ht', rfl⟩)
    (hrec "A" _ (by decide)) (hrec "B" _ (by decide))
    ⟨0, lm.indexOffset, fun t ht => ⟨"m", evals, hstored t (hAB t ht), hholds⟩⟩
    (by
      intro i hi _ j hj W hW a ha
      have hi0 : i = 0 := by
        change i < 1 at hi
        omega
      have hj0 : j = 0 := by
        change j < 1 at hj
        omega
      have ha0 : a = 0 := by
        change a < 1 at ha
        omega
      subst hi0 hj0 ha0
      obtain ⟨mi, mx, dI, dX, hI, hX, vs, xs, h1, h2, h3⟩ := hW lm.indexOffset fun t ht => ⟨"m", evals, hstored t (hAB t ht), hholds⟩
      have conv : ∀ (site meas : String) (d : SpecData ℂ), demoConfig.HasEvals demoPair s'.fs 2 site meas d → ∀ v,
          IsCell d 0 lm.indexOffset "Hx" 0 v → v = -8 := by
        intro site meas d hd v hcell
        obtain ⟨⟨m, hm, -⟩, hst⟩ := hd
        obtain ⟨hs, rfl, -⟩ := demoPair_getMeas hm
        obtain ⟨u1, u2, u3, -⟩ := stored_unique hst (hstored site hs).2
        refine demo_cell h hlm hv ?_
        unfold IsCell at hcell ⊢
        rw [u1, u2, u3] at hcell
        exact hcell
      have e1 := conv _ _ _ hI _ (h1 0 "Hx" rfl)
      have e2 := conv _ _ _ hX _ (h2 0 "Hx" rfl)
      have e3 := h3 0 (by decide)
      rw [show demoConfig.tf.inChans.length = 1 from rfl, Finset.sum_range_one, e1, e2] at e3
      simpa using e3)
    (fun _ _ => 3) (by
      intro meas m td hm _ hr o out ho
      obtain ⟨-, rfl, rfl⟩ := demoPair_getMeas hm
      have htd : demoLin = td := Except.ok.inj hr
      subst htd
      have hout : out = "Ex" := by simpa [demoConfig, demoTf] using List.mem_of_getElem? ho
      rw [hout]
      exact demoLin_exact)
  refine ⟨s', sol, hs', r1, ?_⟩
  have hn1 : 0 < n := by
    obtain ⟨t, ht, hle⟩ := r2
    have := hle "m" evals (hstored t (hAB t ht))
    omega
  have := r4 0 hn1 0 (by decide)
  rw [show ((demoLinParams.perLevel * 0 + 0 : ℕ) : ℤ) = 0 by simp] at this
  rw [this]
  simp [demoConfig, demoTf]

/-- the hypotheses of `C60_same_time` hold of the demonstration -/
example : ∃ (s' : FsState ℂ) (d : SpecData ℂ) (i : ℕ) (g : ℤ) (fs startA startB : ℚ),
    processMeasurements demoConfig demoPair (fun _ => []) [("A", "m"), ("B", "m")] { fs := demoEmptyFs } = (.ok (), s') ∧
    demoConfig.WindowOf 10 demoLin d i g fs startA ∧ demoConfig.WindowOf 10 demoLin d i g fs startB := by
  obtain ⟨evals, lm, h, hlm, hn, hw, hf, hv⟩ := demo_evals
  obtain ⟨s', hs'⟩ := demoPair_processed evals h
  have hl : ∀ x ∈ [("A", "m"), ("B", "m")], IsName x.1 ∧ IsName x.2 := by
    unfold IsName
    decide
  have hname : IsName demoConfig.name := by
    show IsName "demo"
    unfold IsName
    decide
  have hstored : ∀ site, (site = "A" ∨ site = "B") → StoredAs s'.fs demoPair.dirPath demoConfig.name (site, "m") evals := by
    intro site hs
    obtain ⟨dp, ev, d, e1, e2, e3⟩ := stored_evals demoConfig_linear (keeps_of_none rfl) demoPair_placed (by intro _ _ _ _ _; rfl) hname
      hl demoEmptyFs_tree hs' (x := (site, "m")) (by rcases hs with rfl | rfl <;> simp) (demoPair_meas hs) (td := demoLin) rfl
      demo_records
    have e1' : demoConfig.toEvals 10 demoLin = .ok (dp, ev) := e1
    rw [h, Except.ok.injEq, Prod.mk.injEq] at e1'
    obtain ⟨-, rfl⟩ := e1'
    have e2' : evals = d := Except.ok.inj e2
    subst e2'
    exact e3
  obtain ⟨fs, a, b, h1, h2, -⟩ := C60_same_time demoConfig demoConfig_linear (keeps_of_none rfl) rfl demoPair demoPair_placed
    (by intro _ _ _ _ _; rfl) hname (fun _ => []) [("A", "m"), ("B", "m")] hl { fs := demoEmptyFs } s' demoEmptyFs_tree hs'
    ("A", "m") ("B", "m") (by simp) (by simp) _ _ (demoPair_meas (Or.inl rfl)) (demoPair_meas (Or.inr rfl)) demoLin demoLin rfl rfl
    demo_records demo_records (by intro ta tb h1 h2; rw [h1, Except.ok.injEq] at h2; rw [h2]) evals evals (hstored "A" (Or.inl rfl))
    (hstored "B" (Or.inr rfl)) 0 lm.indexOffset ⟨by omega, lm, hlm, le_rfl, by omega⟩ ⟨by omega, lm, hlm, le_rfl, by omega⟩
  exact ⟨s', evals, 0, lm.indexOffset, fs, a, b, hs', h1, h2⟩

end Resistics
