import Verif.Props.Quick

/-!
# Transfer functions between sites of a project (C60)

`process_evals_to_tf` with an output site, an input site and a cross (remote reference) site.
-/

namespace Resistics

open Finset (range)
open ComplexConjugate

/-! ## Specification -/

/-- Specification: `d` are the data at the evaluation frequencies stored for a measurement of the site that was recorded at the
sampling frequency. -/
def Config.HasEvals (c : Config) (p : Project ℂ) (disk : FS ℂ) (fs : ℚ) (site meas : String) (d : SpecData ℂ) : Prop :=
  (∃ m, p.getMeas site meas = .ok m ∧ m.md.fs = fs) ∧ StoredAs disk p.dirPath c.name (site, meas) d

/-- Specification: what a site needs to take part: some measurement recorded at the sampling frequency has stored data; and every
measurement recorded at it either has no readable metadata of stored data (it has not been processed) or has stored data that fit
their metadata, with the channels, with at most `nLevels` levels and with at least `perLevel` frequencies on each. -/
structure Config.SiteReady (c : Config) (p : Project ℂ) (disk : FS ℂ) (fs : ℚ) (nLevels perLevel : ℕ) (site : String)
    (chans : List String) : Prop where
  name_ok : site ≠ "combined_index"
  some_data : ∃ meas d, c.HasEvals p disk fs site meas d
  all_data : ∀ meas m, p.getMeas site meas = .ok m → m.md.fs = fs →
    (∃ e, readSpecMetaFile disk (getMeasEvalsPath p.dirPath site meas c.name) = .error e) ∨
    ∃ d, StoredAs disk p.dirPath c.name (site, meas) d ∧ d.Shaped ∧ d.md.chans.Nodup ∧ (∀ a ∈ chans, a ∈ d.md.chans) ∧
      d.md.nLevels ≤ nLevels ∧ ∀ lm ∈ d.md.levels, perLevel ≤ lm.freqs.length

/-- Specification: some stored measurement of the site has the window at the level. -/
def Config.SiteWindow (c : Config) (p : Project ℂ) (disk : FS ℂ) (fs : ℚ) (site : String) (level : ℕ) (w : ℤ) : Prop :=
  ∃ meas d, c.HasEvals p disk fs site meas d ∧ d.md.Holds level w

/-- Specification: the rows of a site: for each level and frequency an array with one row for each of the windows; a row holds the
values, one for each of the channels, of that window in the stored data of the measurement `holder level window`. -/
def Config.RowsFrom (c : Config) (p : Project ℂ) (disk : FS ℂ) (fs : ℚ) (perLevel n : ℕ) (wins : ℕ → List ℤ)
    (site : String) (holder : ℕ → ℤ → String) (chans : List String) (data : List (ℕ × List (Option (List ℂ)))) : Prop :=
  data.map Prod.fst = List.range (n * perLevel) ∧
  ∀ i < n, ∀ j < perLevel, ∃ rows, data.lookup (perLevel * i + j) = some rows ∧ rows.length = (wins i).length ∧
    ∀ (r : ℕ) (w : ℤ), (wins i)[r]? = some w → ∃ vals d, rows[r]? = some (some vals) ∧ vals.length = chans.length ∧
      c.HasEvals p disk fs site (holder i w) d ∧
      ∀ (k : ℕ) (chan : String), chans[k]? = some chan → ∃ v, vals[k]? = some v ∧ IsCell d i w chan j v

/-- Specification: gathered data of an output, an input and a cross site: `n` is the number of levels of the site with the fewest
levels (a site has as many as its deepest measurement); `wins i` are, in increasing order, exactly the windows that all three
sites have at level `i`; and the three data sets are the rows of these windows, each of its own site and for its own channels.
Rows of the same site come from the same measurement. -/
structure Config.IsBetween (c : Config) (p : Project ℂ) (disk : FS ℂ) (fs : ℚ) (perLevel : ℕ) (sites : List String)
    (outSite inSite crossSite : String) (g : Gathered ℂ) (n : ℕ) (wins : ℕ → List ℤ) (holder : String → ℕ → ℤ → String) : Prop where
  levels : (∃ s ∈ sites, ∀ meas d, c.HasEvals p disk fs s meas d → d.md.nLevels ≤ n) ∧
    ∀ s ∈ sites, ∃ meas d, c.HasEvals p disk fs s meas d ∧ n ≤ d.md.nLevels
  increasing : ∀ i < n, (wins i).Pairwise (· < ·)
  shared : ∀ i < n, ∀ w, w ∈ wins i ↔ ∀ s ∈ sites, c.SiteWindow p disk fs s i w
  out : c.RowsFrom p disk fs perLevel n wins outSite (holder outSite) c.tf.outChans g.outData.data
  inp : c.RowsFrom p disk fs perLevel n wins inSite (holder inSite) c.tf.inChans g.inData.data
  cross : c.RowsFrom p disk fs perLevel n wins crossSite (holder crossSite) c.tf.crossChans g.crossData.data

/-- Specification: measurements are dictionaries: no two of a site have the same name. -/
def Project.Keyed {W : Type} (p : Project W) : Prop :=
  ∀ site s, p.getSite site = .ok s → (s.measurements.map Prod.fst).Nodup

/-! ## Stores -/

open scoped Classical in
/-- a store that knows just the measurements of some sites at the sampling frequency -/
noncomputable def EvalStore.only {V : Type} (store : EvalStore V) (proj : GProject) (fs : ℚ) (names : List String) : EvalStore V :=
  ⟨fun s n => if s ∈ names ∧ ∃ ms, proj.sites.lookup s = some ms ∧ (n, fs) ∈ ms then store.readMeta s n else .error .read,
   store.readData⟩

theorem only_hasMeas {V : Type} {store : EvalStore V} {proj : GProject} {fs : ℚ} {names : List String} {site meas : String}
    {md : SpecMeta} (hs : site ∈ names) :
    HasMeas (store.only proj fs names) proj fs site meas md ↔ HasMeas store proj fs site meas md := by
  unfold HasMeas EvalStore.only
  constructor
  · rintro ⟨ms, h1, h2, h3⟩
    simp only at h3
    rw [if_pos ⟨hs, ms, h1, h2⟩] at h3
    exact ⟨ms, h1, h2, h3⟩
  · rintro ⟨ms, h1, h2, h3⟩
    refine ⟨ms, h1, h2, ?_⟩
    simp only
    rw [if_pos ⟨hs, ms, h1, h2⟩]
    exact h3

theorem mapM_congr_mem {α β ε : Type} {f g : α → Except ε β} {l : List α} (h : ∀ a ∈ l, f a = g a) : l.mapM f = l.mapM g := by
  induction l with
  | nil => rfl
  | cons a l ih =>
    rw [List.mapM_cons, List.mapM_cons, h a (by simp), ih fun b hb => h b (by simp [hb])]

theorem only_selector {V : Type} (store : EvalStore V) (proj : GProject) (names : List String) (p : DecParams ℚ) :
    selectorRun (store.only proj p.fs names) proj names p = selectorRun store proj names p := by
  have : ∀ s ∈ sortedSet names, getSiteWins (store.only proj p.fs names) proj p.fs s = getSiteWins store proj p.fs s := by
    intro s hs
    rw [mem_sortedSet] at hs
    have : getSiteEvalsMetadata (store.only proj p.fs names) proj s p.fs = getSiteEvalsMetadata store proj s p.fs := by
      unfold getSiteEvalsMetadata GProject.getSite
      cases h : proj.sites.lookup s with
      | none => rfl
      | some ms =>
        simp only [bind, Except.bind, pure, Except.pure, Except.ok.injEq]
        apply List.filterMap_congr
        rintro ⟨n, r⟩ hn
        rw [List.mem_filter, decide_eq_true_eq] at hn
        obtain ⟨h1, h2⟩ := hn
        simp only at h2
        subst h2
        have hr : (store.only proj p.fs names).readMeta s n = store.readMeta s n := by
          unfold EvalStore.only
          simp only
          rw [if_pos ⟨hs, ms, h, h1⟩]
        unfold evalsMetaOf
        simp only [hr]
    unfold getSiteWins
    rw [this]
  unfold selectorRun
  simp only
  rw [mapM_congr_mem this]

theorem only_wf {V : Type} {store : EvalStore V} {proj : GProject} {fs : ℚ} {names : List String}
    (h : ∀ s ∈ names, ∀ n md, HasMeas store proj fs s n md → md.levels.length = md.nLevels) :
    StoreWf (store.only proj fs names) := by
  intro s n md hm
  unfold EvalStore.only at hm
  simp only at hm
  split at hm
  · rename_i hc
    obtain ⟨h1, ms, h2, h3⟩ := hc
    exact h s h1 n md ⟨ms, h2, h3, hm⟩
  · cases hm

/-! ## Projects as gathering sees them -/

theorem forGather_lookup {W : Type} (p : Project W) (site : String) (ms : List (String × ℚ)) :
    p.forGather.sites.lookup site = some ms ↔
      ∃ s, p.getSite site = .ok s ∧ ms = s.measurements.map fun m => (m.1, m.2.md.fs) := by
  unfold Project.forGather Project.getSite
  rw [lookup_map_snd (fun s : Site W => s.measurements.map fun m => (m.1, m.2.md.fs))]
  cases p.sites.lookup site with
  | none => simp
  | some s => simp [eq_comm]

/-- the measurements of the project at a sampling frequency, as gathering sees them -/
theorem hasMeas_iff {p : Project ℂ} (hk : p.Keyed) (store : EvalStore ℂ) (fs : ℚ) (site meas : String) (md : SpecMeta) :
    HasMeas store p.forGather fs site meas md ↔
      (∃ m, p.getMeas site meas = .ok m ∧ m.md.fs = fs) ∧ store.readMeta site meas = .ok md := by
  unfold HasMeas Project.getMeas
  constructor
  · rintro ⟨ms, h1, h2, h3⟩
    obtain ⟨s, hs, rfl⟩ := (forGather_lookup p site ms).1 h1
    obtain ⟨⟨n, m⟩, hm, e⟩ := List.mem_map.1 h2
    simp only [Prod.mk.injEq] at e
    obtain ⟨rfl, rfl⟩ := e
    refine ⟨⟨m, ?_, rfl⟩, h3⟩
    simp only [hs, bind, Except.bind]
    unfold Site.getMeasurement
    rw [(lookup_of_mem (hk site s hs)).2 hm]
  · rintro ⟨⟨m, h1, rfl⟩, h3⟩
    obtain ⟨s, hs, hm⟩ := except_bind_ok.1 h1
    refine ⟨_, (forGather_lookup p site _).2 ⟨s, hs, rfl⟩, ?_, h3⟩
    unfold Site.getMeasurement at hm
    split at hm
    · rename_i m' hm'
      rw [Except.ok.injEq] at hm
      subst hm
      exact List.mem_map.2 ⟨(meas, m'), lookup_some_mem hm', rfl⟩
    · cases hm

theorem mem_sitesOf (o : String) (i x : Option String) (s : String) :
    s ∈ sitesOf o i x ↔ s = o ∨ s = i.getD o ∨ s = x.getD (i.getD o) := by
  unfold sitesOf
  cases i <;> cases x <;> simp

/-! ## Gathering from several sites -/

/-- what a measurement with readable metadata of a ready site has -/
theorem SiteReady.stored {c : Config} {p : Project ℂ} {disk : FS ℂ} {fs : ℚ} {nLevels perLevel : ℕ} {site : String}
    {chans : List String} (h : c.SiteReady p disk fs nLevels perLevel site chans) (hk : p.Keyed) {meas : String} {md : SpecMeta}
    (hm : HasMeas (evalStoreOf disk p.dirPath c.name) p.forGather fs site meas md) :
    ∃ d, c.HasEvals p disk fs site meas d ∧ d.md.SameLevels md ∧ d.Shaped ∧ d.md.chans.Nodup ∧ (∀ a ∈ chans, a ∈ d.md.chans) ∧
      d.md.nLevels ≤ nLevels ∧ ∀ lm ∈ d.md.levels, perLevel ≤ lm.freqs.length := by
  obtain ⟨⟨m, h1, h2⟩, h3⟩ := (hasMeas_iff hk _ _ _ _ _).1 hm
  rcases h.all_data meas m h1 h2 with ⟨e, he⟩ | ⟨d, a1, a2⟩
  · change readSpecMetaFile disk (getMeasEvalsPath p.dirPath site meas c.name) = .ok md at h3
    rw [he] at h3
    cases h3
  · have a1' := a1.2
    simp only at a1'
    rw [h3, Except.ok.injEq] at a1'
    subst a1'
    exact ⟨d, ⟨⟨m, h1, h2⟩, a1⟩, ⟨rfl, rfl⟩, a2⟩

theorem HasEvals.hasMeas {c : Config} {p : Project ℂ} {disk : FS ℂ} {fs : ℚ} {site meas : String} {d : SpecData ℂ} (hk : p.Keyed)
    (h : c.HasEvals p disk fs site meas d) :
    HasMeas (evalStoreOf disk p.dirPath c.name) p.forGather fs site meas
      { d.md with history := d.md.history ++ ["SpectraDataWriter"] } :=
  (hasMeas_iff hk _ _ _ _ _).2 ⟨h.1, h.2.2⟩

/-- the windows of a ready site -/
theorem siteHas_iff {c : Config} {p : Project ℂ} {disk : FS ℂ} {fs : ℚ} {nLevels perLevel : ℕ} {site : String}
    {chans : List String} (h : c.SiteReady p disk fs nLevels perLevel site chans) (hk : p.Keyed) (i : ℕ) (w : ℤ) :
    SiteHas (evalStoreOf disk p.dirPath c.name) p.forGather fs site i w ↔ c.SiteWindow p disk fs site i w := by
  constructor
  · rintro ⟨n, md, hm, hh⟩
    obtain ⟨d, h1, h2, -⟩ := SiteReady.stored h hk hm
    exact ⟨n, d, h1, (h2.holds _ _).2 hh⟩
  · rintro ⟨n, d, h1, h2⟩
    exact ⟨n, _, HasEvals.hasMeas hk h1, h2⟩

/-- the measurement that a selection names -/
def Selection.holder (sel : Selection) (site : String) (i : ℕ) (w : ℤ) : String :=
  ((((sel.tables[i]?).getD []).find? fun row => row.win = w).map fun row => row.measOf (sel.sites.idxOf site)).getD ""

theorem find_of_increasing {t : List SelRow} (h : (t.map SelRow.win).Pairwise (· < ·)) {row : SelRow} (hr : row ∈ t) :
    (t.find? fun x => decide (x.win = row.win)) = some row := by
  induction t with
  | nil => simp at hr
  | cons a t ih =>
    rw [List.map_cons, List.pairwise_cons] at h
    rcases List.mem_cons.1 hr with rfl | hr
    · simp
    · have hlt := h.1 row.win (List.mem_map_of_mem hr)
      rw [List.find?_cons_of_neg (by simpa using hlt.ne)]
      exact ih h.2 hr

theorem holder_eq {sel : Selection} {i : ℕ} {t : List SelRow} (hit : sel.tables[i]? = some t)
    (hinc : (t.map SelRow.win).Pairwise (· < ·)) {row : SelRow} (hr : row ∈ t) {k : ℕ} {site : String} (hnd : sel.sites.Nodup)
    (hk : sel.sites[k]? = some site) : sel.holder site i row.win = row.measOf k := by
  unfold Selection.holder
  rw [hit, Option.getD_some, find_of_increasing hinc hr]
  obtain ⟨hlt, rfl⟩ := List.getElem?_eq_some_iff.1 hk
  rw [List.Nodup.idxOf_getElem hnd]
  rfl

/-- the rows that a selection gathers -/
theorem rowsFrom_of {c : Config} {p : Project ℂ} {disk : FS ℂ} {fs : ℚ} {nLevels perLevel : ℕ} {site : String}
    {chans : List String} (h : c.SiteReady p disk fs nLevels perLevel site chans) (hk : p.Keyed)
    {sel : Selection} (hnd : sel.sites.Nodup) (hper : sel.decParams.perLevel = perLevel) {k : ℕ} (hsite : sel.sites[k]? = some site)
    (hinc : ∀ (i : ℕ) (t : List SelRow), sel.tables[i]? = some t → (t.map SelRow.win).Pairwise (· < ·))
    (hmeas : ∀ (i : ℕ) (t : List SelRow), sel.tables[i]? = some t → ∀ row ∈ t, ∃ md,
      HasMeas (evalStoreOf disk p.dirPath c.name) p.forGather fs site (row.measOf k) md)
    {data : List (ℕ × List (Option (List ℂ)))}
    (hg : IsGathered (evalStoreOf disk p.dirPath c.name) sel k site chans data) :
    c.RowsFrom p disk fs perLevel sel.nLevels (fun i => ((sel.tables[i]?).getD []).map SelRow.win) site (sel.holder site) chans
      data := by
  obtain ⟨h1, h2⟩ := hg
  rw [hper] at h1 h2
  refine ⟨h1, ?_⟩
  intro i hi j hj
  have hit : sel.tables[i]? = some (sel.tables[i]'hi) := List.getElem?_eq_getElem hi
  generalize sel.tables[i]'hi = t at hit
  obtain ⟨rows, a1, a2, a3⟩ := h2 i j t hit hj
  refine ⟨rows, a1, by simp [hit, a2], ?_⟩
  intro r w hw
  simp only [hit, Option.getD_some, List.getElem?_map, Option.map_eq_some_iff] at hw
  obtain ⟨row, hr, rfl⟩ := hw
  obtain ⟨vals, b1, b2, d', b3, b4⟩ := a3 r row hr
  have hrow := List.mem_of_getElem? hr
  obtain ⟨md, hm⟩ := hmeas i t hit row hrow
  obtain ⟨d, e1, -⟩ := SiteReady.stored h hk hm
  have e2 := e1.2.1
  simp only at e2
  rw [b3, Except.ok.injEq] at e2
  subst e2
  rw [holder_eq hit (hinc i t hit) hrow hnd hsite]
  exact ⟨vals, d, b1, b2, e1, b4⟩

/-- Specification: the channels that a site needs: those of the parts it plays. -/
def TransFunc.chansOf (tf : TransFunc) (outSite inSite crossSite site : String) : List String :=
  (if site = outSite then tf.outChans else []) ++ (if site = inSite then tf.inChans else []) ++
    (if site = crossSite then tf.crossChans else [])

theorem SiteReady.mono {c : Config} {p : Project ℂ} {disk : FS ℂ} {fs : ℚ} {nLevels perLevel : ℕ} {site : String}
    {chans chans' : List String} (h : c.SiteReady p disk fs nLevels perLevel site chans) (hsub : ∀ a ∈ chans', a ∈ chans) :
    c.SiteReady p disk fs nLevels perLevel site chans' := by
  refine ⟨h.name_ok, h.some_data, ?_⟩
  intro meas m h1 h2
  rcases h.all_data meas m h1 h2 with he | ⟨d, a1, a2, a3, a4, a5⟩
  · exact Or.inl he
  · exact Or.inr ⟨d, a1, a2, a3, fun a ha => a4 a (hsub a ha), a5⟩

/-- **C60**. The transfer function of an output site from an input site with a cross (remote reference) site, where the input site
defaults to the output site and the cross site to the input site.  When all of them have stored data for the channels they have to
provide, and share a window at some level, then the result is the solution for gathered data whose rows are exactly the windows
that all three sites have, in increasing order, each row with the values of its own site and its own channels; the evaluation
frequencies are those of the decimation parameters, for the levels that all sites have. -/
theorem C60_between_sites (c : Config) (p : Project ℂ) (hk : p.Keyed) (disk : FS ℂ) (fs : ℚ) (outSite : String)
    (inSite? crossSite? : Option String) (inSite crossSite : String) (hin : inSite = inSite?.getD outSite)
    (hcr : crossSite = crossSite?.getD inSite) (dp : DecParams ℚ) (hdp : c.decSetup.run c.defaultFreqs fs = .ok dp)
    (hready : ∀ s ∈ [outSite, inSite, crossSite],
      c.SiteReady p disk fs dp.nLevels dp.perLevel s (c.tf.chansOf outSite inSite crossSite s))
    (hwin : ∃ i w, ∀ s ∈ [outSite, inSite, crossSite], c.SiteWindow p disk fs s i w) :
    ∃ g n wins holder labels, c.tfOf p disk fs outSite inSite? crossSite? = c.solve g ∧
      c.IsBetween p disk fs dp.perLevel [outSite, inSite, crossSite] outSite inSite crossSite g n wins holder ∧
      n ≤ dp.nLevels ∧ (List.range n).mapM (fun (i : ℕ) => dp.getEvalFreqs (i : ℤ)) = .ok labels ∧
      g.outData.evalFreqs = labels.flatten := by
  have hfs : dp.fs = fs := (DecSetup.run_spec _ _ _ _ hdp).1
  have hmem : ∀ s, s ∈ sitesOf outSite inSite? crossSite? ↔ s ∈ [outSite, inSite, crossSite] := by
    intro s
    rw [mem_sitesOf, hcr, hin]
    simp
  generalize hnames : sitesOf outSite inSite? crossSite? = names at hmem
  let store := evalStoreOf disk p.dirPath c.name
  let store1 := store.only p.forGather dp.fs names
  have hst : StoreWf store1 := by
    apply only_wf
    intro s hs n md hm
    rw [hfs] at hm
    obtain ⟨d, -, a2, a3, -⟩ := SiteReady.stored (hready s ((hmem s).1 hs)) hk hm
    rw [← a2.1, ← a2.2]
    exact a3.n_levels
  have hall : ∀ s ∈ names, ∃ name md, HasMeas store1 p.forGather dp.fs s name md := by
    intro s hs
    obtain ⟨meas, d, hd⟩ := (hready s ((hmem s).1 hs)).some_data
    exact ⟨meas, _, (only_hasMeas hs).2 (hfs ▸ HasEvals.hasMeas hk hd)⟩
  have hne : names ≠ [] := by
    rw [← hnames]
    simp [sitesOf]
  have hhas : ∀ s ∈ names, ∀ i w, SiteHas store1 p.forGather dp.fs s i w ↔ c.SiteWindow p disk fs s i w := by
    intro s hs i w
    rw [← siteHas_iff (hready s ((hmem s).1 hs)) hk]
    unfold SiteHas
    constructor
    · rintro ⟨n, md, h1, h2⟩
      exact ⟨n, md, hfs ▸ (only_hasMeas hs).1 h1, h2⟩
    · rintro ⟨n, md, h1, h2⟩
      exact ⟨n, md, (only_hasMeas hs).2 (hfs ▸ h1), h2⟩
  obtain ⟨sel, h1, h2, h3, h4, h5, h6⟩ := C30_selection store1 hst p.forGather names dp hne hall
  -- levels
  have hlevels : ∀ s ∈ names, ∃ k, IsSiteLevels store1 p.forGather dp.fs s k := by
    intro s hs
    obtain ⟨tables, -, hl, -⟩ := (C29_site_wins store1 hst p.forGather dp.fs s).1 (hall s hs)
    exact ⟨_, hl⟩
  have hdeep : ∀ s ∈ names, ∃ meas d, c.HasEvals p disk fs s meas d ∧ sel.nLevels ≤ d.md.nLevels ∧ d.md.nLevels ≤ dp.nLevels := by
    intro s hs
    obtain ⟨k, hkl⟩ := hlevels s hs
    have hle := h5.2 s hs k hkl
    obtain ⟨⟨n, md, hm, rfl⟩, -⟩ := hkl
    obtain ⟨d, a1, a2, -, -, -, a3, -⟩ := SiteReady.stored (hready s ((hmem s).1 hs)) hk (hfs ▸ (only_hasMeas hs).1 hm)
    exact ⟨n, d, a1, by rw [a2.1]; exact hle, a3⟩
  have hlev : sel.nLevels ≤ dp.nLevels := by
    obtain ⟨s, hs⟩ := List.exists_mem_of_ne_nil _ hne
    obtain ⟨_, _, -, e1, e2⟩ := hdeep s hs
    exact e1.trans e2
  have hwins : ∃ t ∈ sel.tables, t ≠ [] := by
    obtain ⟨i, w, hw⟩ := hwin
    have hi : i < sel.nLevels := by
      obtain ⟨s, hs, hsl⟩ := h5.1
      obtain ⟨n, md, hm, hh⟩ := (hhas s hs i w).2 (hw s ((hmem s).1 hs))
      exact lt_of_lt_of_le hh.1 (hsl.2 n md hm)
    refine ⟨sel.tables[i]'hi, List.getElem_mem _, ?_⟩
    intro h
    have := ((h6 i _ (List.getElem?_eq_getElem hi)).2.1 w).2 fun s hs => (hhas s hs i w).2 (hw s ((hmem s).1 hs))
    rw [h] at this
    simp at this
  have hsub : ∀ s ∈ names, ∀ chans, (∀ a ∈ chans, a ∈ c.tf.chansOf outSite inSite crossSite s) →
      SiteReadable store1 p.forGather dp.fs dp.perLevel s chans := by
    intro s hs chans hch n md hm
    obtain ⟨d, a1, a2, a3, a4, a5, a6, a7⟩ := SiteReady.stored (SiteReady.mono (hready s ((hmem s).1 hs)) hch) hk
      (hfs ▸ (only_hasMeas hs).1 hm)
    exact ⟨_, a1.2.1, a2, a3.history _, a4, a5, a7⟩
  have hmeas : ∀ s ∈ names, ∀ (k : ℕ), sel.sites[k]? = some s → ∀ (i : ℕ) (t : List SelRow), sel.tables[i]? = some t → ∀ row ∈ t, ∃ md,
      HasMeas store p.forGather fs s (row.measOf k) md := by
    intro s hs k hks i t hit row hrow
    obtain ⟨md, hm, -⟩ := ((h6 i t hit).2.2 row hrow).2.2 k s hks
    exact ⟨md, hfs ▸ (only_hasMeas hs).1 hm⟩
  have key : ∀ s ∈ names, ∀ chans, (∀ a ∈ chans, a ∈ c.tf.chansOf outSite inSite crossSite s) →
      ∃ g, getSiteData store p.forGather sel s chans = .ok g ∧
        c.RowsFrom p disk fs dp.perLevel sel.nLevels (fun i => ((sel.tables[i]?).getD []).map SelRow.win) s (sel.holder s) chans
          g.data ∧ sel.getEvalFreqs = .ok g.evalFreqs := by
    intro s hs chans hch
    obtain ⟨g, k, a1, a2, a3, -, -, -, -, a4, -⟩ := C31_site_data store1 hst p.forGather names dp hall s hs
      (hready s ((hmem s).1 hs)).name_ok chans (hsub s hs chans hch) sel h1 hlev hwins
    refine ⟨g, a1, ?_, a4⟩
    exact rowsFrom_of (SiteReady.mono (hready s ((hmem s).1 hs)) hch) hk h3 (by rw [h2]) a2 (fun i t hit => (h6 i t hit).1)
      (hmeas s hs k a2) a3
  obtain ⟨go, o1, o2, o3⟩ := key outSite ((hmem _).2 (by simp)) c.tf.outChans (by intro a ha; simp [TransFunc.chansOf, ha])
  obtain ⟨gi, i1, i2, -⟩ := key inSite ((hmem _).2 (by simp)) c.tf.inChans (by intro a ha; simp [TransFunc.chansOf, ha])
  obtain ⟨gx, x1, x2, -⟩ := key crossSite ((hmem _).2 (by simp)) c.tf.crossChans (by intro a ha; simp [TransFunc.chansOf, ha])
  have hlab := o3
  unfold Selection.getEvalFreqs at hlab
  obtain ⟨labels, l1, l2⟩ := except_bind_ok.1 hlab
  rw [h2] at l1
  rw [except_pure_ok] at l2
  refine ⟨⟨go, gi, gx⟩, sel.nLevels, fun i => ((sel.tables[i]?).getD []).map SelRow.win, sel.holder, labels, ?_, ?_, hlev, l1, l2.symm⟩
  · have hp : projectGather store p.forGather sel c.tf.gatherChans outSite inSite? crossSite? = .ok ⟨go, gi, gx⟩ := by
      unfold projectGather
      simp only [← hin, ← hcr]
      change (do
        let outData ← getSiteData store p.forGather sel outSite c.tf.outChans
        let inData ← getSiteData store p.forGather sel inSite c.tf.inChans
        let crossData ← getSiteData store p.forGather sel crossSite c.tf.crossChans
        return ⟨outData, inData, crossData⟩ : Except Err (Gathered ℂ)) = _
      rw [o1, i1, x1]
      rfl
    have hs : selectorRun store p.forGather names dp = .ok sel := by
      rw [← only_selector]
      exact h1
    unfold Config.tfOf
    rw [hnames]
    simp only [hdp, bind, Except.bind]
    rw [show selectorRun (evalStoreOf disk p.dirPath c.name) p.forGather names dp = .ok sel from hs]
    simp only
    rw [show projectGather (evalStoreOf disk p.dirPath c.name) p.forGather sel c.tf.gatherChans outSite inSite? crossSite? =
      .ok ⟨go, gi, gx⟩ from hp]
  · refine ⟨⟨?_, ?_⟩, ?_, ?_, o2, i2, x2⟩
    · obtain ⟨s, hs, hsl⟩ := h5.1
      refine ⟨s, (hmem s).1 hs, fun meas d hd => ?_⟩
      have := hsl.2 meas { d.md with history := d.md.history ++ ["SpectraDataWriter"] }
        ((only_hasMeas hs).2 (hfs ▸ HasEvals.hasMeas hk hd))
      exact this
    · intro s hs
      obtain ⟨meas, d, e1, e2, -⟩ := hdeep s ((hmem s).2 hs)
      exact ⟨meas, d, e1, e2⟩
    · intro i hi
      have hit : sel.tables[i]? = some (sel.tables[i]'hi) := List.getElem?_eq_getElem hi
      simp only [hit, Option.getD_some]
      exact (h6 i _ hit).1
    · intro i hi w
      have hit : sel.tables[i]? = some (sel.tables[i]'hi) := List.getElem?_eq_getElem hi
      simp only [hit, Option.getD_some]
      rw [(h6 i _ hit).2.1 w]
      constructor
      · intro h s hs
        exact (hhas s ((hmem s).2 hs) i w).1 (h s ((hmem s).2 hs))
      · intro h s hs
        exact (hhas s hs i w).2 (h s ((hmem s).1 hs))

/-- **C60**. When there is no window that all three sites have, a transfer function is refused with `AttributeError`. -/
theorem C60_no_common_windows (c : Config) (p : Project ℂ) (hk : p.Keyed) (disk : FS ℂ) (fs : ℚ) (outSite : String)
    (inSite? crossSite? : Option String) (inSite crossSite : String) (hin : inSite = inSite?.getD outSite)
    (hcr : crossSite = crossSite?.getD inSite) (dp : DecParams ℚ) (hdp : c.decSetup.run c.defaultFreqs fs = .ok dp)
    (hready : ∀ s ∈ [outSite, inSite, crossSite],
      c.SiteReady p disk fs dp.nLevels dp.perLevel s (c.tf.chansOf outSite inSite crossSite s))
    (hwin : ∀ i w, ¬ ∀ s ∈ [outSite, inSite, crossSite], c.SiteWindow p disk fs s i w) :
    c.tfOf p disk fs outSite inSite? crossSite? = .error .attribute := by
  have hfs : dp.fs = fs := (DecSetup.run_spec _ _ _ _ hdp).1
  have hmem : ∀ s, s ∈ sitesOf outSite inSite? crossSite? ↔ s ∈ [outSite, inSite, crossSite] := by
    intro s
    rw [mem_sitesOf, hcr, hin]
    simp
  generalize hnames : sitesOf outSite inSite? crossSite? = names at hmem
  let store := evalStoreOf disk p.dirPath c.name
  let store1 := store.only p.forGather dp.fs names
  have hst : StoreWf store1 := by
    apply only_wf
    intro s hs n md hm
    rw [hfs] at hm
    obtain ⟨d, -, a2, a3, -⟩ := SiteReady.stored (hready s ((hmem s).1 hs)) hk hm
    rw [← a2.1, ← a2.2]
    exact a3.n_levels
  have hall : ∀ s ∈ names, ∃ name md, HasMeas store1 p.forGather dp.fs s name md := by
    intro s hs
    obtain ⟨meas, d, hd⟩ := (hready s ((hmem s).1 hs)).some_data
    exact ⟨meas, _, (only_hasMeas hs).2 (hfs ▸ HasEvals.hasMeas hk hd)⟩
  have hne : names ≠ [] := by
    rw [← hnames]
    simp [sitesOf]
  obtain ⟨sel, h1, h2, h3, h4, h5, h6⟩ := C30_selection store1 hst p.forGather names dp hne hall
  have hempty : ∀ t ∈ sel.tables, t = [] := by
    intro t ht
    obtain ⟨i, hi, rfl⟩ := List.mem_iff_getElem.1 ht
    by_contra hcon
    obtain ⟨row, hrow⟩ := List.exists_mem_of_ne_nil _ hcon
    refine hwin i row.win fun s hs => ?_
    rw [← siteHas_iff (hready s hs) hk]
    obtain ⟨n, md, e1, e2⟩ := ((h6 i _ (List.getElem?_eq_getElem hi)).2.1 row.win).1 (List.mem_map_of_mem hrow) s ((hmem s).2 hs)
    exact ⟨n, md, hfs ▸ (only_hasMeas ((hmem s).2 hs)).1 e1, e2⟩
  have ho := C31_no_windows store1 hst p.forGather names dp hall outSite ((hmem _).2 (by simp)) c.tf.outChans sel h1 hempty
  have hp : projectGather store p.forGather sel c.tf.gatherChans outSite inSite? crossSite? = .error .attribute := by
    unfold projectGather
    simp only [bind, Except.bind]
    rw [show getSiteData store p.forGather sel outSite c.tf.gatherChans.outChans = .error .attribute from ho]
  have hs : selectorRun store p.forGather names dp = .ok sel := by
    rw [← only_selector]
    exact h1
  unfold Config.tfOf
  rw [hnames]
  simp only [hdp, bind, Except.bind]
  rw [show selectorRun (evalStoreOf disk p.dirPath c.name) p.forGather names dp = .ok sel from hs]
  simp only
  rw [show projectGather (evalStoreOf disk p.dirPath c.name) p.forGather sel c.tf.gatherChans outSite inSite? crossSite? =
    .error .attribute from hp]

/-- **C60**. A transfer function is refused when the output, input or cross site is not in the project or has no measurement at the
sampling frequency: a missing reference is never left out silently. -/
theorem C60_missing_site (c : Config) (p : Project ℂ) (disk : FS ℂ) (fs : ℚ) (outSite : String)
    (inSite? crossSite? : Option String) (dp : DecParams ℚ) (hdp : c.decSetup.run c.defaultFreqs fs = .ok dp)
    (site : String) (hs : site ∈ sitesOf outSite inSite? crossSite?)
    (hno : ∀ meas m, p.getMeas site meas = .ok m → m.md.fs ≠ fs) (hk : p.Keyed) :
    ∃ e, c.tfOf p disk fs outSite inSite? crossSite? = .error e := by
  have hfs : dp.fs = fs := (DecSetup.run_spec _ _ _ _ hdp).1
  have hw : ∃ e, getSiteWins (evalStoreOf disk p.dirPath c.name) p.forGather dp.fs site = .error e := by
    cases hl : p.forGather.sites.lookup site with
    | none =>
      refine ⟨.siteNotFound, ?_⟩
      unfold getSiteWins getSiteEvalsMetadata GProject.getSite
      rw [hl]
      rfl
    | some ms =>
      refine ⟨.value, ?_⟩
      obtain ⟨mm, h1, h2, -⟩ := getSiteEvalsMetadata_spec (evalStoreOf disk p.dirPath c.name) p.forGather site dp.fs ms hl
      have : mm = [] := by
        rw [List.eq_nil_iff_forall_not_mem]
        intro x hx
        obtain ⟨⟨m, e1, e2⟩, -⟩ := (hasMeas_iff hk _ _ _ _ _).1 ((h2 x.1 x.2).1 hx)
        exact hno _ _ e1 (e2.trans hfs)
      subst this
      unfold getSiteWins
      rw [h1]
      rfl
  have hsel : ∃ e, selectorRun (evalStoreOf disk p.dirPath c.name) p.forGather (sitesOf outSite inSite? crossSite?) dp = .error e := by
    unfold selectorRun
    simp only
    cases hm : (sortedSet (sitesOf outSite inSite? crossSite?)).mapM
        (getSiteWins (evalStoreOf disk p.dirPath c.name) p.forGather dp.fs) with
    | error e => exact ⟨e, rfl⟩
    | ok l =>
      exfalso
      obtain ⟨i, hi, e⟩ := List.mem_iff_getElem.1 ((mem_sortedSet _ _).2 hs)
      have := mapM_ok_getElem hm i hi (by rw [mapM_ok_length hm]; exact hi)
      rw [e] at this
      obtain ⟨e', he⟩ := hw
      rw [he] at this
      cases this
  obtain ⟨e, he⟩ := hsel
  refine ⟨e, ?_⟩
  unfold Config.tfOf
  simp only [hdp, bind, Except.bind, he]

/-! ## The regression -/

/-- Specification: `F k r o` is the value of channel `o` in window `r` at evaluation frequency `k`, counted over the levels, of the
stored data of the site. -/
def Config.ValuesFrom (c : Config) (p : Project ℂ) (disk : FS ℂ) (fs : ℚ) (perLevel n : ℕ) (wins : ℕ → List ℤ)
    (site : String) (holder : ℕ → ℤ → String) (chans : List String) (F : ℕ → ℕ → ℕ → ℂ) : Prop :=
  ∀ i < n, ∀ j < perLevel, ∀ (r : ℕ) (w : ℤ), (wins i)[r]? = some w → ∃ d, c.HasEvals p disk fs site (holder i w) d ∧
    ∀ (o : ℕ) (chan : String), chans[o]? = some chan → IsCell d i w chan j (F (perLevel * i + j) r o)

/-- the values in an array of rows -/
noncomputable def rowsValue (data : List (ℕ × List (Option (List ℂ)))) (k r o : ℕ) : ℂ :=
  ((((((data.lookup k).getD [])[r]?).getD none).getD [])[o]?).getD 0

theorem level_split {perLevel n k : ℕ} (hk : k < n * perLevel) :
    0 < perLevel ∧ k / perLevel < n ∧ k % perLevel < perLevel ∧ perLevel * (k / perLevel) + k % perLevel = k := by
  have hp : 0 < perLevel := Nat.pos_of_ne_zero (by intro h; rw [h] at hk; omega)
  exact ⟨hp, Nat.div_lt_of_lt_mul (by rwa [mul_comm]), Nat.mod_lt _ hp, Nat.div_add_mod _ _⟩

theorem rowsFrom_values {c : Config} {p : Project ℂ} {disk : FS ℂ} {fs : ℚ} {perLevel n : ℕ} {wins : ℕ → List ℤ}
    {site : String} {holder : ℕ → ℤ → String} {chans : List String} {data : List (ℕ × List (Option (List ℂ)))}
    (h : c.RowsFrom p disk fs perLevel n wins site holder chans data) :
    (∀ k < n * perLevel, data.lookup k = some ((arr2 (wins (k / perLevel)).length chans.length (rowsValue data k)).map some)) ∧
      c.ValuesFrom p disk fs perLevel n wins site holder chans (rowsValue data) := by
  constructor
  · intro k hk
    obtain ⟨-, h1, h2, h3⟩ := level_split hk
    obtain ⟨rows, a1, a2, a3⟩ := h.2 _ h1 _ h2
    rw [h3] at a1
    have hval : ∀ r o, rowsValue data k r o = (((rows[r]?).getD none).getD [])[o]?.getD 0 := by
      intro r o
      simp [rowsValue, a1]
    rw [a1, Option.some.injEq]
    apply List.ext_getElem
    · simp [arr2, a2]
    · intro r hr1 hr2
      have hw : r < (wins (k / perLevel)).length := by rw [← a2]; exact hr1
      obtain ⟨vals, d, b1, b2, -⟩ := a3 r _ (List.getElem?_eq_getElem hw)
      have : rows[r] = some vals := by
        rw [List.getElem?_eq_getElem hr1, Option.some.injEq] at b1
        exact b1
      rw [this]
      simp only [arr2, List.getElem_map, List.getElem_range, Option.some.injEq]
      apply List.ext_getElem
      · simp [b2]
      · intro o ho1 ho2
        simp only [List.getElem_map, List.getElem_range, hval, b1, Option.getD_some]
        rw [List.getElem?_eq_getElem ho1]
        rfl
  · intro i hi j hj r w hw
    obtain ⟨rows, a1, a2, a3⟩ := h.2 i hi j hj
    obtain ⟨vals, d, b1, b2, b3, b4⟩ := a3 r w hw
    refine ⟨d, b3, ?_⟩
    intro o chan ho
    obtain ⟨v, e1, e2⟩ := b4 o chan ho
    have : rowsValue data (perLevel * i + j) r o = v := by
      simp [rowsValue, a1, b1, e1]
    rw [this]
    exact e2

/-- Specification: the windows of the regression: `n` levels, and at each the windows that all the sites have, in increasing
order. -/
structure Config.SharedWindows (c : Config) (p : Project ℂ) (disk : FS ℂ) (fs : ℚ) (sites : List String) (n : ℕ)
    (wins : ℕ → List ℤ) : Prop where
  levels : (∃ s ∈ sites, ∀ meas d, c.HasEvals p disk fs s meas d → d.md.nLevels ≤ n) ∧
    ∀ s ∈ sites, ∃ meas d, c.HasEvals p disk fs s meas d ∧ n ≤ d.md.nLevels
  increasing : ∀ i < n, (wins i).Pairwise (· < ·)
  shared : ∀ i < n, ∀ w, w ∈ wins i ↔ ∀ s ∈ sites, c.SiteWindow p disk fs s i w

/-- **C60**. The regression behind a transfer function between sites: for each evaluation frequency and output channel, two rows
(real and imaginary part) for each shared window and cross channel: the observation is the output of the output site times the
conjugate of the cross channel of the cross site, and the predictors are the inputs of the input site times the same conjugate. -/
theorem C60_equations (c : Config) (p : Project ℂ) (hk : p.Keyed) (disk : FS ℂ) (fs : ℚ) (outSite : String)
    (inSite? crossSite? : Option String) (inSite crossSite : String) (hin : inSite = inSite?.getD outSite)
    (hcr : crossSite = crossSite?.getD inSite) (dp : DecParams ℚ) (hdp : c.decSetup.run c.defaultFreqs fs = .ok dp)
    (hdef : ∀ f n, (c.defaultFreqs f n).length = n)
    (hready : ∀ s ∈ [outSite, inSite, crossSite],
      c.SiteReady p disk fs dp.nLevels dp.perLevel s (c.tf.chansOf outSite inSite crossSite s))
    (hwin : ∃ i w, ∀ s ∈ [outSite, inSite, crossSite], c.SiteWindow p disk fs s i w)
    (hnd : c.tf.outChans.Nodup) (hcount : CountsOk c.tf) (hnc : c.tf.nCross = c.tf.crossChans.length) :
    ∃ (r : RegInput) (n : ℕ) (wins : ℕ → List ℤ) (holder : String → ℕ → ℤ → String) (F I C : ℕ → ℕ → ℕ → ℂ) (labels : List (List ℚ)),
      c.tfOf p disk fs outSite inSite? crossSite? = solveWith c.getCoef r ∧ r.tf = c.tf ∧
      c.SharedWindows p disk fs [outSite, inSite, crossSite] n wins ∧
      c.ValuesFrom p disk fs dp.perLevel n wins outSite (holder outSite) c.tf.outChans F ∧
      c.ValuesFrom p disk fs dp.perLevel n wins inSite (holder inSite) c.tf.inChans I ∧
      c.ValuesFrom p disk fs dp.perLevel n wins crossSite (holder crossSite) c.tf.crossChans C ∧
      n ≤ dp.nLevels ∧ (List.range n).mapM (fun (i : ℕ) => dp.getEvalFreqs (i : ℤ)) = .ok labels ∧ r.freqs = labels.flatten ∧
      r.freqs.length = n * dp.perLevel ∧
      ∀ i < n, ∀ j < dp.perLevel, ∀ (o : ℕ) (name : String), c.tf.outChans[o]? = some name →
        ∃ obs preds, r.getInputs ((dp.perLevel * i + j : ℕ) : ℤ) name = .ok (obs, preds) ∧
          obs = complexRows (wins i).length c.tf.crossChans.length
            (fun w x => F (dp.perLevel * i + j) w o * conj (C (dp.perLevel * i + j) w x)) ∧
          (∀ Z : ℕ → ℂ, predict preds (realCoefs c.tf.inChans.length Z) =
            complexRows (wins i).length c.tf.crossChans.length fun w x =>
              ∑ a ∈ range c.tf.inChans.length, Z a * (I (dp.perLevel * i + j) w a * conj (C (dp.perLevel * i + j) w x))) ∧
          preds.length = obs.length ∧ ∀ row ∈ preds, row.length = 2 * c.tf.inChans.length := by
  obtain ⟨g, n, wins, holder, labels, h1, h2, h3, h4, h5⟩ := C60_between_sites c p hk disk fs outSite inSite? crossSite? inSite
    crossSite hin hcr dp hdp hready hwin
  obtain ⟨o1, o2⟩ := rowsFrom_values h2.out
  obtain ⟨i1, i2⟩ := rowsFrom_values h2.inp
  obtain ⟨x1, x2⟩ := rowsFrom_values h2.cross
  have hlen : g.outData.evalFreqs.length = n * dp.perLevel := by
    rw [h5]
    exact labels_length dp (C19_setup_length _ _ hdef _ _ hdp) n h3 labels h4
  have hg : GatheredIs c.tf g (fun k => (wins (k / dp.perLevel)).length) (rowsValue g.outData.data) (rowsValue g.inData.data)
      (rowsValue g.crossData.data) := by
    refine ⟨hcount.n_in, hnc, ?_, ?_, ?_⟩
    · intro k hk'
      rw [hlen] at hk'
      exact o1 k hk'
    · intro k hk'
      rw [hlen] at hk'
      exact i1 k hk'
    · intro k hk'
      rw [hlen] at hk'
      exact x1 k hk'
  obtain ⟨r, r1, r2, r3, r4⟩ := C33_rows c.tf hnd g _ _ _ _ hg
  refine ⟨r, n, wins, holder, rowsValue g.outData.data, rowsValue g.inData.data, rowsValue g.crossData.data, labels, ?_, r2,
    ⟨h2.levels, h2.increasing, h2.shared⟩, o2, i2, x2, h3, h4, by rw [r3, h5], by rw [r3, hlen], ?_⟩
  · rw [h1]
    unfold Config.solve
    rw [r1]
    rfl
  · intro i hi j hj o name ho
    have hklt : dp.perLevel * i + j < n * dp.perLevel := by
      calc dp.perLevel * i + j < dp.perLevel * i + dp.perLevel := by omega
        _ = dp.perLevel * (i + 1) := by ring
        _ ≤ dp.perLevel * n := Nat.mul_le_mul_left _ hi
        _ = n * dp.perLevel := mul_comm _ _
    have hdiv : (dp.perLevel * i + j) / dp.perLevel = i := by
      rw [Nat.mul_add_div (by omega), Nat.div_eq_of_lt hj, add_zero]
    obtain ⟨obs, preds, e1, e2, e3, -, e4, e5⟩ := r4 (dp.perLevel * i + j) (by rw [hlen]; exact hklt) o name ho
    simp only [hdiv] at e2 e3
    exact ⟨obs, preds, e1, e2, e3, e4, e5⟩

/-- Specification: impedances `Z` (by level, frequency, output and input channel) relate the stored data of two sites: in every
window that measurements of both have, each output is the combination of the inputs.  When the two sites are the same, output and
input are taken from the same measurement. -/
def Config.Related (c : Config) (p : Project ℂ) (disk : FS ℂ) (fs : ℚ) (outSite inSite : String) (Z : ℕ → ℕ → ℕ → ℕ → ℂ) : Prop :=
  ∀ mo mi dO dI, c.HasEvals p disk fs outSite mo dO → c.HasEvals p disk fs inSite mi dI → (outSite = inSite → mo = mi) →
    ∀ (i j : ℕ) (w : ℤ) (o : ℕ) (name : String) (v : ℂ) (vs : ℕ → ℂ), c.tf.outChans[o]? = some name → IsCell dO i w name j v →
      (∀ (a : ℕ) (chan : String), c.tf.inChans[a]? = some chan → IsCell dI i w chan j (vs a)) →
      v = ∑ a ∈ range c.tf.inChans.length, Z i j o a * vs a

/-- Specification: the inputs of the input site and the cross channels of the cross site determine a transfer function at a level
and frequency: only the coefficients zero give zero for every shared window and cross channel. -/
def Config.Determines (c : Config) (p : Project ℂ) (disk : FS ℂ) (fs : ℚ) (sites : List String) (inSite crossSite : String)
    (i j : ℕ) : Prop :=
  ∀ W : ℕ → ℂ, (∀ w, (∀ s ∈ sites, c.SiteWindow p disk fs s i w) → ∃ mi mx dI dX, c.HasEvals p disk fs inSite mi dI ∧
      c.HasEvals p disk fs crossSite mx dX ∧ ∃ vs xs : ℕ → ℂ,
        (∀ (a : ℕ) (chan : String), c.tf.inChans[a]? = some chan → IsCell dI i w chan j (vs a)) ∧
        (∀ (b : ℕ) (chan : String), c.tf.crossChans[b]? = some chan → IsCell dX i w chan j (xs b)) ∧
        ∀ b < c.tf.crossChans.length, ∑ a ∈ range c.tf.inChans.length, W a * (vs a * conj (xs b)) = 0) →
    ∀ a < c.tf.inChans.length, W a = 0

/-- **C60**. Remote reference: when, at every frequency, the stored outputs of the output site are combinations of the stored inputs of
the input site (the same site by default) with impedances that may depend on the frequency, then any least squares regression
(or any other that fits exact data exactly) returns exactly these impedances, whatever the cross site recorded, as long as the system determines a transfer function. -/
theorem C60_recovered (c : Config) (hls : FitsExactly c.getCoef) (hkeys : KeysDistinct c.tf) (hne : c.tf.inChans ≠ [])
    (p : Project ℂ) (hk : p.Keyed) (disk : FS ℂ) (fs : ℚ) (outSite : String)
    (inSite? crossSite? : Option String) (inSite crossSite : String) (hin : inSite = inSite?.getD outSite)
    (hcr : crossSite = crossSite?.getD inSite) (dp : DecParams ℚ) (hdp : c.decSetup.run c.defaultFreqs fs = .ok dp)
    (hdef : ∀ f n, (c.defaultFreqs f n).length = n)
    (hready : ∀ s ∈ [outSite, inSite, crossSite],
      c.SiteReady p disk fs dp.nLevels dp.perLevel s (c.tf.chansOf outSite inSite crossSite s))
    (hwin : ∃ i w, ∀ s ∈ [outSite, inSite, crossSite], c.SiteWindow p disk fs s i w)
    (hnd : c.tf.outChans.Nodup) (hcount : CountsOk c.tf) (hnc : c.tf.nCross = c.tf.crossChans.length)
    (Z : ℕ → ℕ → ℕ → ℕ → ℂ) (hZ : c.Related p disk fs outSite inSite Z)
    (hdet : ∀ i < dp.nLevels, (∀ s ∈ [outSite, inSite, crossSite], ∃ meas d, c.HasEvals p disk fs s meas d ∧ i < d.md.nLevels) →
      ∀ j < dp.perLevel, c.Determines p disk fs [outSite, inSite, crossSite] inSite crossSite i j) :
    ∃ (s : Solution) (n : ℕ) (labels : List (List ℚ)), c.tfOf p disk fs outSite inSite? crossSite? = .ok s ∧
      (∃ t ∈ [outSite, inSite, crossSite], ∀ meas d, c.HasEvals p disk fs t meas d → d.md.nLevels ≤ n) ∧
      (∀ t ∈ [outSite, inSite, crossSite], ∃ meas d, c.HasEvals p disk fs t meas d ∧ n ≤ d.md.nLevels) ∧
      (List.range n).mapM (fun (i : ℕ) => dp.getEvalFreqs (i : ℤ)) = .ok labels ∧ s.freqs = labels.flatten ∧
      ∀ i < n, ∀ j < dp.perLevel, s.getTensor ((dp.perLevel * i + j : ℕ) : ℤ) = .ok ((List.range c.tf.outChans.length).map fun o =>
        (List.range c.tf.inChans.length).map fun a => Z i j o a) := by
  obtain ⟨r, n, wins, holder, F, I, C, labels, h1, h2, h3, hF, hI, hC, h4, h5, h6, h7, h8⟩ := C60_equations c p hk disk fs outSite
    inSite? crossSite? inSite crossSite hin hcr dp hdp hdef hready hwin hnd hcount hnc
  obtain ⟨s, s1, s2, -, s3⟩ := solved_exactly hls r (by rw [h2]; exact hcount) (by rw [h2]; exact hkeys) (by rw [h2]; exact hne)
    (fun k o a => Z (k / dp.perLevel) (k % dp.perLevel) o a) (by
      rw [h2]
      intro k hk' o name ho
      rw [h7] at hk'
      obtain ⟨-, k1, k2, k3⟩ := level_split hk'
      obtain ⟨obs, preds, e1, e2, e3, e4, e5⟩ := h8 _ k1 _ k2 o name ho
      rw [k3] at e1 e2 e3
      generalize k / dp.perLevel = i at *
      generalize k % dp.perLevel = j at *
      refine ⟨obs, preds, e1, e4.symm, e5, ?_, ?_⟩
      · intro W W' hW a ha
        rw [e3, e3, complexRows_inj] at hW
        have := hdet i (by omega) (fun s hs => by
            obtain ⟨meas, d, hd, hle⟩ := h3.levels.2 s hs
            exact ⟨meas, d, hd, by omega⟩) j k2 (fun a => W a - W' a) (by
          intro w hw
          have hmem := (h3.shared i k1 w).2 hw
          obtain ⟨q, hq, hqe⟩ := List.mem_iff_getElem.1 hmem
          have hq? : (wins i)[q]? = some w := by rw [List.getElem?_eq_getElem hq, hqe]
          obtain ⟨dI, i1, i2⟩ := hI i k1 j k2 q w hq?
          obtain ⟨dX, x1, x2⟩ := hC i k1 j k2 q w hq?
          refine ⟨_, _, dI, dX, i1, x1, _, _, i2, x2, ?_⟩
          intro b hb
          have := hW q hq b hb
          rw [k3]
          simp only [sub_mul, Finset.sum_sub_distrib]
          rw [this, sub_self]) a ha
        exact sub_eq_zero.1 this
      · rw [e3, e2, complexRows_inj]
        intro q hq x hx
        have hq? : (wins i)[q]? = some (wins i)[q] := List.getElem?_eq_getElem hq
        obtain ⟨dO, o1, o2⟩ := hF i k1 j k2 q _ hq?
        obtain ⟨dI, i1, i2⟩ := hI i k1 j k2 q _ hq?
        have := hZ _ _ dO dI o1 i1 (by intro h; rw [h]) i j _ o name _ _ ho (o2 o name ho) i2
        rw [k3] at this
        rw [this, Finset.sum_mul]
        apply Finset.sum_congr rfl
        intros
        ring)
  refine ⟨s, n, labels, h1.trans s1, h3.levels.1, h3.levels.2, h5, s2.trans h6, ?_⟩
  intro i hi j hj
  have hklt : dp.perLevel * i + j < n * dp.perLevel := by
    calc dp.perLevel * i + j < dp.perLevel * i + dp.perLevel := by omega
      _ = dp.perLevel * (i + 1) := by ring
      _ ≤ dp.perLevel * n := Nat.mul_le_mul_left _ hi
      _ = n * dp.perLevel := mul_comm _ _
  have hdiv : (dp.perLevel * i + j) / dp.perLevel = i := by
    rw [Nat.mul_add_div (by omega), Nat.div_eq_of_lt hj, add_zero]
  have hmod : (dp.perLevel * i + j) % dp.perLevel = j := by
    rw [Nat.mul_add_mod, Nat.mod_eq_of_lt hj]
  have := s3 (dp.perLevel * i + j) (by rw [h7]; exact hklt)
  rw [h2, hdiv, hmod] at this
  exact this

/-! ## The times of windows -/

/-- Specification: window `g` at level `i` of evaluation data `d` made from a recording: the spectra of the chain are the Fourier
transforms of the samples `a, …, a + winSize - 1` of the decimated recording, all of them inside it, and the window starts at the
reference time plus `g` increments, up to less than one sample of the level: exactly when the level starts at a whole number of
samples from the reference time. -/
def Config.WindowOf (c : Config) (ref : DateTime) (td : TimeData ℚ) (d : SpecData ℂ) (i : ℕ) (g : ℤ) (fs start : ℚ) : Prop :=
  ∃ (tdp : TimeData ℚ) (dp : DecParams ℚ) (dec : DecData ℚ) (lm : LevelMeta) (elm : SpecLevelMeta) (raw : List (List ℚ)) (a : ℤ)
      (spec : SpecData ℂ) (arr : SpecArr ℂ),
    runTimeProcessors c.sp c.timeProcs td = .ok tdp ∧ c.decimate dp tdp = .ok dec ∧ dec.md.levels[i]? = some lm ∧
    dec.getLevel i = .ok raw ∧ d.md.levels[i]? = some elm ∧ elm.fs = lm.fs ∧ lm.fs = fs ∧ 0 < fs ∧
    c.toSpectra ref td = .ok (dp, spec) ∧ spec.getLevel i = .ok arr ∧
    arr[(g - elm.indexOffset).toNat]? =
      some (raw.map fun row => c.ft (c.nfl elm.winSize.toNat) ((row.drop a.toNat).take elm.winSize.toNat)) ∧
    0 ≤ a ∧ 1 ≤ elm.winSize ∧ a + elm.winSize ≤ lm.nSamples ∧ start = lm.firstTime + a / fs ∧
    (PeriodKept fs → start ≤ ref + g * (elm.winSize - elm.olapSize : ℤ) / fs ∧
      ref + g * (elm.winSize - elm.olapSize : ℤ) / fs < start + 1 / fs ∧
      ((∃ m : ℤ, lm.firstTime = ref + m / fs) → start = ref + g * (elm.winSize - elm.olapSize : ℤ) / fs))

/-- how the sizes of a level come about -/
def Config.LevelSizes (c : Config) (td : TimeData ℚ) (d : SpecData ℂ) (i : ℕ) : Prop :=
  ∃ (tdp : TimeData ℚ) (dp : DecParams ℚ) (n : ℕ) (decFs : List ℚ) (wp : WinParams) (elm : SpecLevelMeta),
    runTimeProcessors c.sp c.timeProcs td = .ok tdp ∧ c.decSetup.run c.defaultFreqs tdp.md.fs = .ok dp ∧
    c.winSetup.run n decFs = .ok wp ∧ i < n ∧ decFs[i]? = some (tdp.md.fs / ((dp.decIncrements.take (i + 1)).prod : ℕ)) ∧
    d.md.levels[i]? = some elm ∧ elm.fs = tdp.md.fs / ((dp.decIncrements.take (i + 1)).prod : ℕ) ∧
    wp.winSizes[i]? = some elm.winSize ∧ wp.olapSizes[i]? = some elm.olapSize

theorem setup_agrees {s : WindowSetup} {n n' : ℕ} {L L' : List ℚ} {p p' : WinParams} (h : s.run n L = .ok p) (h' : s.run n' L' = .ok p')
    {i : ℕ} (hi : i < n) (hi' : i < n') (hL : L[i]? = L'[i]?) :
    p.winSizes[i]? = p'.winSizes[i]? ∧ p.olapSizes[i]? = p'.olapSizes[i]? := by
  obtain ⟨ws, h1, h2, h3, rfl⟩ := windowSetup_run h
  obtain ⟨ws', h1', h2', h3', rfl⟩ := windowSetup_run h'
  have hw : ws[i]? = ws'[i]? := by
    cases hs : s.winSizes with
    | some w =>
      rw [hs] at h1 h1'
      simp only [Except.ok.injEq] at h1 h1'
      rw [← h1, ← h1']
    | none =>
      rw [hs] at h1 h1'
      simp only at h1 h1'
      unfold WindowSetup.getWinSizes at h1 h1'
      have e := mapM_ok_getElem h1 i (by simpa using hi) (by omega)
      have e' := mapM_ok_getElem h1' i (by simpa using hi') (by omega)
      simp only [List.getElem_range] at e e'
      have hsame : s.levelWinSize L i = s.levelWinSize L' i := by
        have : pyIndex L (i : ℤ) = pyIndex L' (i : ℤ) := by
          by_cases hl : i < L.length
          · have hl' : i < L'.length := by
              by_contra hcon
              rw [List.getElem?_eq_getElem hl, List.getElem?_eq_none (by omega)] at hL
              cases hL
            rw [pyIndex_natCast _ _ hl, pyIndex_natCast _ _ hl']
            rw [List.getElem?_eq_getElem hl, List.getElem?_eq_getElem hl', Option.some.injEq] at hL
            rw [hL]
          · have hl' : ¬ i < L'.length := by
              intro hcon
              rw [List.getElem?_eq_none (by omega), List.getElem?_eq_getElem hcon] at hL
              cases hL
            rw [pyIndex_natCast_ge _ _ (by omega), pyIndex_natCast_ge _ _ (by omega)]
        unfold WindowSetup.levelWinSize
        rw [this]
      rw [hsame, e', Except.ok.injEq] at e
      rw [List.getElem?_eq_getElem (by omega), List.getElem?_eq_getElem (by omega), e]
  refine ⟨by simp [List.getElem?_take_of_lt, hi, hi', hw], ?_⟩
  simp only [List.getElem?_take_of_lt hi, List.getElem?_take_of_lt hi']
  cases s.olapSizes with
  | some o => rfl
  | none =>
    simp only [Option.getD_none]
    unfold WindowSetup.getOlapSizes
    simp [List.getElem?_take_of_lt, hi, hi', hw]

theorem sizes_agree {c : Config} {ta tb : TimeData ℚ} {da db : SpecData ℂ} {i : ℕ} (ha : c.LevelSizes ta da i)
    (hb : c.LevelSizes tb db i)
    (hrate : ∀ tda tdb, runTimeProcessors c.sp c.timeProcs ta = .ok tda → runTimeProcessors c.sp c.timeProcs tb = .ok tdb →
      tda.md.fs = tdb.md.fs) (ea eb : SpecLevelMeta) (hea : da.md.levels[i]? = some ea) (heb : db.md.levels[i]? = some eb) :
    ea.fs = eb.fs ∧ ea.winSize - ea.olapSize = eb.winSize - eb.olapSize := by
  obtain ⟨tdp, dp, n, L, wp, elm, a1, a2, a3, a4, a5, a6, a7, a8, a9⟩ := ha
  obtain ⟨tdp', dp', n', L', wp', elm', b1, b2, b3, b4, b5, b6, b7, b8, b9⟩ := hb
  have hr := hrate _ _ a1 b1
  rw [hr, b2, Except.ok.injEq] at a2
  subst a2
  rw [a6, Option.some.injEq] at hea
  rw [b6, Option.some.injEq] at heb
  subst hea; subst heb
  obtain ⟨h1, h2⟩ := setup_agrees a3 b3 a4 b4 (by rw [a5, b5, hr])
  rw [a8, b8, Option.some.injEq] at h1
  rw [a9, b9, Option.some.injEq] at h2
  exact ⟨by rw [a7, b7, hr], by rw [h1, h2]⟩

/-- the windows that the chain makes -/
theorem toEvals_window_times {c : Config} (hc : c.LinearChain) (hwd : c.windower = windowerRun) {ref : DateTime} {td : TimeData ℚ}
    (htd : td.Consistent) (hch : 2 ≤ td.md.chans.length)
    (hfs : ∀ tdp, runTimeProcessors c.sp c.timeProcs td = .ok tdp → tdp.md.fs ≤ 10 ^ 13)
    {p : DecParams ℚ} {evals d : SpecData ℂ} (h : c.toEvals ref td = .ok (p, evals))
    (hd : d.md.levels = evals.md.levels ∧ d.md.nLevels = evals.md.nLevels) {i : ℕ} {g : ℤ} (hg : d.md.Holds i g) :
    (∃ fs start, c.WindowOf ref td d i g fs start) ∧ c.LevelSizes td d i := by
  unfold Config.toEvals Config.toSpectra Config.processSpectra Config.window Config.decimate at h
  simp only [except_bind_ok, except_pure_ok, Prod.mk.injEq] at h
  obtain ⟨-, ⟨tdp, h1, p', h2, dec, h3, win, ⟨wp, h4, h5⟩, spec0, h6, rfl⟩, spec, h7, ev, h8, rfl, rfl⟩ := h
  change evalFreqsRun p' spec = .ok ev at h8
  obtain ⟨a1, a2, -⟩ := C23_chain_consistent c.sp hc.lawful c.timeProcs (fun q hq => (hc.procs q hq).1) td tdp htd h1
  obtain ⟨-, -, -, hpos, -⟩ := DecSetup.run_spec _ _ _ _ h2
  obtain ⟨b1, b2, b3, b4, b5⟩ := exact_decimator hc.lawful hc.scipy hc.maxSingle (by omega) a1 (by rw [a2]; omega)
    (hfs tdp h1) h3
  have hw := (C14_one_size_per_level _ _ _ _ h4).2.1
  obtain ⟨c1, c2, c3, c4, c5⟩ := windower_windows hc.windower b1 (by rw [b2, a2]; exact hch) (by rw [hw]; exact hc.minNWins) h5
  obtain ⟨d1, d2, d3, d4, d5⟩ := exact_fourier hc.ft_length hc.ft_linear c1 (by
    intro wlm hwlm
    obtain ⟨i, hi, rfl⟩ := List.mem_iff_getElem.1 hwlm
    obtain ⟨lm, e1, e2⟩ := c4 i _ (List.getElem?_eq_getElem hi)
    rw [e2]
    exact b4 lm (List.mem_of_getElem? e1)) h6
  obtain ⟨spec1, s1, -, -, s3, -, s2⟩ := C51_fourier_run c.nfl c.ft hc.ft_length win c1
  rw [h6, Except.ok.injEq] at s1
  subst s1
  obtain ⟨⟨e1, e2, e3, e4⟩, -⟩ := keeps_chain hc.specProcs spec0 spec d1 h7
  obtain ⟨ev', k1, -, -, k3, -, k2⟩ := C27_evaluation p' spec e1 (by rw [e4]; exact d4) (by omega)
  rw [h8, Except.ok.injEq] at k1
  subst k1
  rw [hwd] at h5
  obtain ⟨hi, elm, g1, g2, g3⟩ := hg
  rw [hd.2] at hi
  change i < ev.md.nLevels at hi
  rw [k3, e3, s3] at hi
  obtain ⟨-, -, -, -, -, -, w1, -⟩ := C12_levels ref wp dec b1 win h5
  obtain ⟨lm, w, o, table, wlm, x1, x2, x3, x4, -, x5, x6, x7, x8, x9, x10⟩ := w1 i hi
  obtain ⟨lm', w', o', table', raw, wins, y1, y2, y3, y4, y5, y6, y7, y8, y9, y10⟩ := window_level ref wp dec b1
    (by rw [b2, a2]; exact hch) (by rw [hw]; exact hc.minNWins) win h5 i hi
  rw [x1, Option.some.injEq] at y1
  rw [x2, Option.some.injEq] at y2
  rw [x3, Option.some.injEq] at y3
  subst y1; subst y2; subst y3
  rw [x4, Except.ok.injEq] at y4
  subst y4
  obtain ⟨wins', slm, z1, z2, z3, -, z4, z5, z6, z7, z8⟩ := s2 i wlm x5
  rw [y6, Except.ok.injEq, WinArr.d3.injEq] at z1
  subst z1
  obtain ⟨-, -, -, elm', -, -, -, v1, -, v2, v3, v4, v5, v6, -⟩ := k2 i slm (by rw [e4]; exact z3)
  rw [hd.1] at g1
  have helm : elm' = elm := by
    change ev.md.levels[i]? = some elm at g1
    rw [v1, Option.some.injEq] at g1
    exact g1
  subst helm
  have hoff : elm'.indexOffset = wlm.indexOffset := by rw [v3, z8]
  have hn : elm'.nWins = table.length := by rw [v2, z5, x7]
  have hws : elm'.winSize = w := by rw [v4, z6, x8]
  have hos : elm'.olapSize = o := by rw [v5, z7, x9]
  have hfs' : elm'.fs = lm.fs := by rw [v6, z4, x6]
  have hlp : 0 < lm.fs := b4 lm (List.mem_of_getElem? x1)
  obtain ⟨q, hq⟩ : ∃ q : ℕ, (g - elm'.indexOffset) = q := ⟨(g - elm'.indexOffset).toNat, by omega⟩
  have hqlt : q < table.length := by omega
  obtain ⟨f, l, -, -, -, hrows⟩ := getWinTable_ok hlp.ne' x4
  obtain ⟨r1, r2, -⟩ := hrows q hqlt
  have hglob : table[q].globalWin = g := by
    rw [x10 _ (List.getElem_mem hqlt), r2]
    omega
  obtain ⟨i1, -, i2, i3⟩ := C07_windows_inside lm (b1.meta_ok lm (List.mem_of_getElem? x1)) ref w o y9 (by omega) table x4 _
    (List.getElem_mem hqlt)
  have hspec : c.toSpectra ref td = .ok (p', spec0) := by
    unfold Config.toSpectra Config.window Config.decimate
    rw [hwd]
    simp only [h1, h2, h3, h4, h5, h6, bind, Except.bind, pure, Except.pure]
  have hlevel : dec.md.fs[i]? = some lm.fs ∧ lm.fs = tdp.md.fs / ((p'.decIncrements.take (i + 1)).prod : ℕ) := by
    obtain ⟨tds, t1, -, -, -, -, t2, t3, -⟩ := C20_pyramid _ p' tdp dec h3
    obtain ⟨tds', u1, u2, u3, u4⟩ := C20_levels_consistent c.sp hc.lawful c.useResample c.maxSingle hc.maxSingle p' tdp a1 dec h3
    have hi' : i < tds.length := by omega
    have hi2 : i < tds'.length := by omega
    have q1 := x1
    rw [t2, List.getElem?_map, List.getElem?_eq_getElem hi', Option.map_some, Option.some.injEq] at q1
    have q2 := x1
    rw [u2, List.getElem?_map, List.getElem?_eq_getElem hi2, Option.map_some, Option.some.injEq] at q2
    refine ⟨?_, ?_⟩
    · rw [t3, List.getElem?_map, List.getElem?_eq_getElem hi', Option.map_some, ← q1]
      rfl
    · rw [← (u4 i hi2).2.2.2, ← q2]
      rfl
  refine ⟨?_, tdp, p', dec.md.nLevels, dec.md.fs, wp, elm', h1, h2, h4, by omega, by rw [hlevel.1, hlevel.2], by rw [hd.1]; exact g1,
    by rw [hfs', ← hlevel.2], by rw [hws]; exact x2, by rw [hos]; exact x3⟩
  refine ⟨lm.fs, lm.firstTime + table[q].fromSample / lm.fs, tdp, p', dec, lm, elm', raw, table[q].fromSample, spec0, _, h1, h3, x1,
    y5, by rw [hd.1]; exact g1, hfs', rfl, hlp, hspec, z2, ?_, i1, by omega, by omega, rfl, ?_⟩
  · rw [hq, Int.toNat_natCast, List.getElem?_map, y10 q _ (List.getElem?_eq_getElem hqlt), x8, hws]
    simp [windowAt]
  · intro hp
    have key := C10_window_start_near_instant lm hlp hp ref w o table x4 _ (List.getElem_mem hqlt)
    rw [hglob] at key
    have hwi : winInstant lm.fs ref w o g = ref + g * (elm'.winSize - elm'.olapSize : ℤ) / lm.fs := by
      unfold winInstant
      rw [hp, hws, hos]
      push_cast
      ring
    rw [hwi] at key
    exact key

/-- Specification: a recording that the chain can process: consistent metadata, at least two channels without repetition, and a
sampling frequency of at most 10 THz after the time processors. -/
structure Config.Records (c : Config) (td : TimeData ℚ) : Prop where
  consistent : td.Consistent
  chans : td.md.chans.Nodup
  two : 2 ≤ td.md.chans.length
  rate : ∀ tdp, runTimeProcessors c.sp c.timeProcs td = .ok tdp → tdp.md.fs ≤ 10 ^ 13

/-- stored data are determined up to the history -/
theorem stored_unique {fs : FS ℂ} {proj : Path} {config : String} {x : String × String} {d d' : SpecData ℂ}
    (h : StoredAs fs proj config x d) (h' : StoredAs fs proj config x d') :
    d.data = d'.data ∧ d.md.chans = d'.md.chans ∧ d.md.levels = d'.md.levels ∧ d.md.nLevels = d'.md.nLevels := by
  have e1 := h.1.symm.trans h'.1
  have e2 := h.2.symm.trans h'.2
  rw [Except.ok.injEq, SpecData.mk.injEq] at e1
  rw [Except.ok.injEq, SpecMeta.mk.injEq] at e2
  tauto

/-- what processing stores for a measurement -/
theorem stored_evals {c : Config} (hc : c.LinearChain) (hk : c.CalKeeps) {p : Project ℂ}
    (hp : p.WellPlaced) (hcal : c.LocalCal) (hn : IsName c.name) {files : String × String → List (String × List String)}
    {l : List (String × String)} (hl : ∀ x ∈ l, IsName x.1 ∧ IsName x.2) {s s' : FsState ℂ} (ht : s.fs.Tree)
    (h : processMeasurements c p files l s = (.ok (), s')) {x : String × String} (hx : x ∈ l) {m : Meas ℂ}
    (hm : p.getMeas x.1 x.2 = .ok m) {td : TimeData ℚ} (hr : m.reader.readData s.fs m.dirPath m.md {} = .ok td)
    (hrec : c.Records td) :
    ∃ dp ev d, c.toEvals p.md.refTime td = .ok (dp, ev) ∧ c.calibrate s.fs (getCalibrationPath p.dirPath) ev = .ok d ∧
      StoredAs s'.fs p.dirPath c.name x d := by
  obtain ⟨h1, -⟩ := C55_stored c p hp hcal hn files l hl s s' ht h
  obtain ⟨m', d', e1, e2⟩ := h1 x hx
  obtain ⟨rfl, dp, ev, e3, e4⟩ := evalsOf_eq e1 hm hr
  obtain ⟨k1, k2⟩ := hk.levels _ _ _ _ e4
  have hsh := (exact_toEvals hc hrec.consistent hrec.two hrec.rate e3).1
  have hsh' := hk.shaped _ _ _ _ e4 hsh
  obtain ⟨lm0, hlm0, -⟩ := toEvals_windows hc hrec.consistent hrec.two hrec.rate e3
  have h0 : (d'.data.lookup 0).isSome = true := by
    obtain ⟨arr, q1, -⟩ := hsh'.array 0 (d'.md.levels[0]'(by rw [k1]; exact List.length_pos_of_mem hlm0))
      (List.getElem?_eq_getElem _)
    rw [q1]
    rfl
  exact ⟨dp, ev, d', e3, e4, e2 h0⟩

theorem stored_window_times (c : Config) (hc : c.LinearChain) (hk : c.CalKeeps) (hwd : c.windower = windowerRun) (p : Project ℂ)
    (hp : p.WellPlaced) (hcal : c.LocalCal) (hn : IsName c.name) (files : String × String → List (String × List String))
    (l : List (String × String)) (hl : ∀ x ∈ l, IsName x.1 ∧ IsName x.2) (s s' : FsState ℂ) (ht : s.fs.Tree)
    (h : processMeasurements c p files l s = (.ok (), s')) (x : String × String) (hx : x ∈ l) (m : Meas ℂ)
    (hm : p.getMeas x.1 x.2 = .ok m) (td : TimeData ℚ) (hr : m.reader.readData s.fs m.dirPath m.md {} = .ok td) (hsuit : c.Records td)
    (d : SpecData ℂ) (hd : StoredAs s'.fs p.dirPath c.name x d) (i : ℕ) (g : ℤ) (hg : d.md.Holds i g) :
    (∃ fs start, c.WindowOf p.md.refTime td d i g fs start) ∧ c.LevelSizes td d i := by
  obtain ⟨dp, ev, d', e3, e4, hst⟩ := stored_evals hc hk hp hcal hn hl ht h hx hm hr hsuit
  obtain ⟨k1, k2⟩ := hk.levels _ _ _ _ e4
  obtain ⟨-, -, u1, u2⟩ := stored_unique hd hst
  exact toEvals_window_times hc hwd hsuit.consistent hsuit.two hsuit.rate e3 ⟨u1.trans k1, u2.trans k2⟩ hg

/-- **C60**. What the windows of stored data are.  When processing measurements to data at the evaluation frequencies succeeds, then a
window with global index `g` at level `i` in the stored data of any of them comes from consecutive samples of the decimated
recording of that measurement that start at the reference time of the project plus `g` increments, up to less than one sample. -/
theorem C60_window_times (c : Config) (hc : c.LinearChain) (hk : c.CalKeeps) (hwd : c.windower = windowerRun) (p : Project ℂ)
    (hp : p.WellPlaced) (hcal : c.LocalCal) (hn : IsName c.name) (files : String × String → List (String × List String))
    (l : List (String × String)) (hl : ∀ x ∈ l, IsName x.1 ∧ IsName x.2) (s s' : FsState ℂ) (ht : s.fs.Tree)
    (h : processMeasurements c p files l s = (.ok (), s')) (x : String × String) (hx : x ∈ l) (m : Meas ℂ)
    (hm : p.getMeas x.1 x.2 = .ok m) (td : TimeData ℚ) (hr : m.reader.readData s.fs m.dirPath m.md {} = .ok td) (hsuit : c.Records td)
    (d : SpecData ℂ) (hd : StoredAs s'.fs p.dirPath c.name x d) (i : ℕ) (g : ℤ) (hg : d.md.Holds i g) :
    ∃ fs start, c.WindowOf p.md.refTime td d i g fs start :=
  (stored_window_times c hc hk hwd p hp hcal hn files l hl s s' ht h x hx m hm td hr hsuit d hd i g hg).1

/-- windows with the same index and the same increment align -/
theorem windows_align (c : Config) (ref : DateTime) (tda tdb : TimeData ℚ) (da db : SpecData ℂ) (i : ℕ) (g : ℤ)
    (fsa fsb startA startB : ℚ) (ha : c.WindowOf ref tda da i g fsa startA) (hb : c.WindowOf ref tdb db i g fsb startB)
    (hsame : ∀ ea eb : SpecLevelMeta, da.md.levels[i]? = some ea → db.md.levels[i]? = some eb →
      ea.fs = eb.fs ∧ ea.winSize - ea.olapSize = eb.winSize - eb.olapSize) (hp : PeriodKept fsa) :
    |startA - startB| < 1 / fsa ∧
      ((∃ m : ℤ, startA = ref + m / fsa) → (∃ m : ℤ, startB = ref + m / fsa) → startA = startB) := by
  obtain ⟨-, -, -, la, ea, -, -, -, -, -, -, -, -, a1, a2, a3, a4, -, -, -, -, -, -, -, a5⟩ := ha
  obtain ⟨-, -, -, lb, eb, -, -, -, -, -, -, -, -, b1, b2, b3, b4, -, -, -, -, -, -, -, b5⟩ := hb
  obtain ⟨h1, h2⟩ := hsame ea eb a1 b1
  have hfs : fsb = fsa := by rw [← a3, ← b3, ← a2, ← b2, h1]
  subst hfs
  obtain ⟨a6, a7, -⟩ := a5 hp
  obtain ⟨b6, b7, -⟩ := b5 hp
  rw [← h2] at b6 b7
  have hlt : |startA - startB| < 1 / fsb := by
    rw [abs_lt]
    constructor <;> linarith
  refine ⟨hlt, ?_⟩
  rintro ⟨m, hm⟩ ⟨n, hn⟩
  have : |((m : ℚ) - n) / fsb| < 1 / fsb := by
    have e : ((m : ℚ) - n) / fsb = startA - startB := by rw [hm, hn]; ring
    rw [e]
    exact hlt
  rw [abs_div, abs_of_pos b4, div_lt_div_iff_of_pos_right b4] at this
  have h0 : |m - n| < 1 := by exact_mod_cast this
  have : m = n := by
    rw [Int.abs_lt_one_iff] at h0
    omega
  rw [hm, hn, this]

/-- **C60**. Rows of different measurements, of the same or of different sites, with the same global index show the same time: when
the recordings have the same sampling frequency after the time processors, their windows start less than one sample apart, and
at the same instant when both recordings start a whole number of samples of the level from the reference time. -/
theorem C60_same_time (c : Config) (hc : c.LinearChain) (hk : c.CalKeeps) (hwd : c.windower = windowerRun) (p : Project ℂ)
    (hp : p.WellPlaced) (hcal : c.LocalCal) (hn : IsName c.name) (files : String × String → List (String × List String))
    (l : List (String × String)) (hl : ∀ x ∈ l, IsName x.1 ∧ IsName x.2) (s s' : FsState ℂ) (ht : s.fs.Tree)
    (h : processMeasurements c p files l s = (.ok (), s'))
    (xa xb : String × String) (hxa : xa ∈ l) (hxb : xb ∈ l) (ma mb : Meas ℂ) (hma : p.getMeas xa.1 xa.2 = .ok ma)
    (hmb : p.getMeas xb.1 xb.2 = .ok mb) (ta tb : TimeData ℚ) (hra : ma.reader.readData s.fs ma.dirPath ma.md {} = .ok ta)
    (hrb : mb.reader.readData s.fs mb.dirPath mb.md {} = .ok tb) (hsa : c.Records ta) (hsb : c.Records tb)
    (hrate : ∀ tda tdb, runTimeProcessors c.sp c.timeProcs ta = .ok tda → runTimeProcessors c.sp c.timeProcs tb = .ok tdb →
      tda.md.fs = tdb.md.fs)
    (da db : SpecData ℂ) (hda : StoredAs s'.fs p.dirPath c.name xa da) (hdb : StoredAs s'.fs p.dirPath c.name xb db)
    (i : ℕ) (g : ℤ) (hga : da.md.Holds i g) (hgb : db.md.Holds i g) :
    ∃ fs startA startB, c.WindowOf p.md.refTime ta da i g fs startA ∧ c.WindowOf p.md.refTime tb db i g fs startB ∧
      (PeriodKept fs → |startA - startB| < 1 / fs ∧
        ((∃ m : ℤ, startA = p.md.refTime + m / fs) → (∃ m : ℤ, startB = p.md.refTime + m / fs) → startA = startB)) := by
  obtain ⟨⟨fsa, sa, wa⟩, la⟩ := stored_window_times c hc hk hwd p hp hcal hn files l hl s s' ht h xa hxa ma hma ta hra hsa da hda i g
    hga
  obtain ⟨⟨fsb, sb, wb⟩, lb⟩ := stored_window_times c hc hk hwd p hp hcal hn files l hl s s' ht h xb hxb mb hmb tb hrb hsb db hdb i g
    hgb
  have hsame := sizes_agree la lb hrate
  have hfs : fsb = fsa := by
    obtain ⟨-, -, -, lma, ea, -, -, -, -, -, -, -, -, a1, a2, a3, -⟩ := wa
    obtain ⟨-, -, -, lmb, eb, -, -, -, -, -, -, -, -, b1, b2, b3, -⟩ := wb
    rw [← a3, ← b3, ← a2, ← b2, (hsame ea eb a1 b1).1]
  subst hfs
  exact ⟨fsb, sa, sb, wa, wb, fun hpk => windows_align c _ _ _ _ _ i g _ _ _ _ wa wb hsame hpk⟩

/-- **C60**. The projects that `load` gives are keyed: measurements and sites are dictionaries. -/
theorem C60_loaded_keyed {W : Type} (ls : Path → List String) (now : Path → DateTime × DateTime) (readers : List (TReader W))
    (fs : FS W) (dir : Path) (hls : IsListing ls fs) (p : Project W) (h : loadProject ls now readers fs dir = .ok p) : p.Keyed := by
  obtain ⟨-, -, -, -, h1, -⟩ := C44_lists_exactly ls now readers fs dir hls p h
  intro site s hs
  unfold Project.getSite at hs
  split at hs
  · rename_i s' hs'
    rw [Except.ok.injEq] at hs
    subst hs
    exact (h1 site s' (lookup_some_mem hs')).2.2.1.1
  · cases hs

/-! ## From recordings to transfer functions between sites -/

/-- Specification: the recordings of a site at a sampling frequency: every measurement of the site that was recorded at it is among
the processed ones, and has a recording that can be processed, with the channels. -/
def Config.SiteRecorded (c : Config) (p : Project ℂ) (disk : FS ℂ) (l : List (String × String)) (fs : ℚ) (site : String)
    (chans : List String) : Prop :=
  ∀ meas m, p.getMeas site meas = .ok m → m.md.fs = fs → (site, meas) ∈ l ∧
    ∃ td, m.reader.readData disk m.dirPath m.md {} = .ok td ∧ c.Records td ∧ ∀ a ∈ chans, a ∈ td.md.chans

/-- **C60**. Sites are ready for transfer functions once all their measurements at the sampling frequency have been processed. -/
theorem C60_ready (c : Config) (hc : c.LinearChain) (hk : c.CalKeeps) (p : Project ℂ)
    (hp : p.WellPlaced) (hcal : c.LocalCal) (hn : IsName c.name) (files : String × String → List (String × List String))
    (l : List (String × String)) (hl : ∀ x ∈ l, IsName x.1 ∧ IsName x.2) (s s' : FsState ℂ) (ht : s.fs.Tree)
    (h : processMeasurements c p files l s = (.ok (), s')) (fs : ℚ) (dp : DecParams ℚ)
    (hdp : c.decSetup.run c.defaultFreqs fs = .ok dp) (site : String) (hsn : site ≠ "combined_index") (chans : List String)
    (hsome : ∃ meas m, p.getMeas site meas = .ok m ∧ m.md.fs = fs) (hrec : c.SiteRecorded p s.fs l fs site chans) :
    c.SiteReady p s'.fs fs dp.nLevels dp.perLevel site chans := by
  have key : ∀ meas m, p.getMeas site meas = .ok m → m.md.fs = fs →
      ∃ d, StoredAs s'.fs p.dirPath c.name (site, meas) d ∧ d.Shaped ∧ d.md.chans.Nodup ∧ (∀ a ∈ chans, a ∈ d.md.chans) ∧
        d.md.nLevels ≤ dp.nLevels ∧ ∀ lm ∈ d.md.levels, dp.perLevel ≤ lm.freqs.length := by
    intro meas m hm hf
    obtain ⟨hx, td, hr, hrec', hch⟩ := hrec meas m hm hf
    obtain ⟨dp', ev, d, e1, e2, e3⟩ := stored_evals hc hk hp hcal hn hl ht h hx hm hr hrec'
    obtain ⟨a1, a2, a3, -⟩ := exact_toEvals hc hrec'.consistent hrec'.two hrec'.rate e1
    obtain ⟨⟨tdp, t1, t2⟩, t3⟩ := toEvals_levels e1
    obtain ⟨-, b1, b2, -⟩ := DecSetup.run_spec _ _ _ _ t2
    obtain ⟨-, c1, c2, -⟩ := DecSetup.run_spec _ _ _ _ hdp
    have k1 := hk.chans _ _ _ _ e2
    obtain ⟨k2, k3⟩ := hk.levels _ _ _ _ e2
    refine ⟨d, e3, hk.shaped _ _ _ _ e2 a1, by rw [k1, a2]; exact hrec'.chans, by rw [k1, a2]; exact hch, ?_, ?_⟩
    · rw [k3, c1, ← b1]
      by_contra hcon
      have hlt : ev.md.nLevels - 1 < ev.md.levels.length := by rw [t3.1]; omega
      have := t3.2 _ _ (List.getElem?_eq_getElem hlt)
      unfold DecParams.getEvalFreqs at this
      obtain ⟨_, hch', -⟩ := except_bind_ok.1 this
      unfold DecParams.checkLevel at hch'
      split at hch'
      · cases hch'
      · omega
    · intro lm hlm
      rw [k2] at hlm
      rw [a3 lm hlm, b2, c2]
  refine ⟨hsn, ?_, ?_⟩
  · obtain ⟨meas, m, hm, hf⟩ := hsome
    obtain ⟨d, hd, -⟩ := key meas m hm hf
    exact ⟨meas, d, ⟨m, hm, hf⟩, hd⟩
  · intro meas m hm hf
    exact Or.inr (key meas m hm hf)

/-- the channels of one measurement stay in their relation at the evaluation frequencies -/
theorem related_cells {c : Config} (hc : c.LinearChain) {ref : DateTime} {td : TimeData ℚ} (hrec : c.Records td)
    {dp : DecParams ℚ} {ev : SpecData ℂ} (h : c.toEvals ref td = .ok (dp, ev)) {inC : List String} {z : ℕ → ℝ} {out : String}
    (hin : ∀ a ∈ inC, a ∈ td.md.chans) (hout : out ∈ td.md.chans) (he : td.Exact inC z out)
    {i j : ℕ} {w : ℤ} {v : ℂ} {vs : ℕ → ℂ} (hv : IsCell ev i w out j v)
    (hvs : ∀ (a : ℕ) (chan : String), inC[a]? = some chan → IsCell ev i w chan j (vs a)) :
    v = ∑ a ∈ range inC.length, (z a : ℂ) * vs a := by
  obtain ⟨a1, a2, -, a4⟩ := exact_toEvals hc hrec.consistent hrec.two hrec.rate h
  have hrel := a4 inC z out hin hout ((exact_rows td hrec.consistent hrec.chans inC z out hin hout).1 he)
  have hnd : ev.md.chans.Nodup := by rw [a2]; exact hrec.chans
  obtain ⟨lm, arr, win, row, k, b1, b2, b3, b4, b5, b6, b7⟩ := hv
  have hcombo := hrel i arr b2 win (List.mem_of_getElem? b4)
  have hrow : ∀ (chan : String) (k : ℕ) (r : List ℂ), ev.md.chans[k]? = some chan → win[k]? = some r →
      rowOf ev.md.chans win chan = r := by
    intro chan k r h1 h2
    obtain ⟨hk, rfl⟩ := List.getElem?_eq_some_iff.1 h1
    unfold rowOf
    rw [List.Nodup.idxOf_getElem hnd, List.getD_eq_getElem?_getD, h2]
    rfl
  unfold ExactRows at hcombo
  rw [hrow out k row b5 b6] at hcombo
  have hjlt : j < row.length := (List.getElem?_eq_some_iff.1 b7).1
  have hval := hcombo.val j hjlt
  rw [List.getD_eq_getElem?_getD, b7] at hval
  simp only [Option.getD_some] at hval
  rw [hval]
  refine Finset.sum_congr rfl fun a ha => ?_
  rw [Finset.mem_range] at ha
  congr 1
  have ha? : inC[a]? = some inC[a] := List.getElem?_eq_getElem ha
  obtain ⟨lm', arr', win', row', k', d1, d2, d3, d4, d5, d6, d7⟩ := hvs a _ ha?
  rw [b1, Option.some.injEq] at d1
  subst d1
  rw [b2, Option.some.injEq] at d2
  subst d2
  rw [b4, Option.some.injEq] at d4
  subst d4
  have hg : inC.getD a "" = inC[a] := by rw [List.getD_eq_getElem?_getD, ha?]; rfl
  rw [hg, hrow _ k' row' d5 d6, List.getD_eq_getElem?_getD, d7]
  rfl

/-- **C60**. From recordings to a remote reference transfer function: all measurements of a site and of a remote site at a sampling
frequency have been processed, without calibration.  When every output channel of each recording of the site is the combination
of its input channels with real impedances, then the transfer function of the site with the remote reference is exactly that, at
every evaluation frequency, whatever the remote site recorded, as long as it determines a transfer function. -/
theorem C60_end_to_end (c : Config) (hc : c.LinearChain) (hnone : c.calibrate = fun _ _ d => .ok d) (hls : FitsExactly c.getCoef)
    (hkeys : KeysDistinct c.tf) (hne : c.tf.inChans ≠ []) (hnd : c.tf.outChans.Nodup) (hcount : CountsOk c.tf)
    (hnc : c.tf.nCross = c.tf.crossChans.length) (p : Project ℂ) (hp : p.WellPlaced) (hk : p.Keyed) (hn : IsName c.name)
    (files : String × String → List (String × List String)) (l : List (String × String))
    (hl : ∀ x ∈ l, IsName x.1 ∧ IsName x.2) (s s' : FsState ℂ) (ht : s.fs.Tree)
    (h : processMeasurements c p files l s = (.ok (), s')) (fs : ℚ) (dp : DecParams ℚ)
    (hdp : c.decSetup.run c.defaultFreqs fs = .ok dp) (site remote : String) (hs1 : site ≠ "combined_index")
    (hs2 : remote ≠ "combined_index")
    (hsome : ∀ t ∈ [site, remote], ∃ meas m, p.getMeas t meas = .ok m ∧ m.md.fs = fs)
    (hrec1 : c.SiteRecorded p s.fs l fs site (c.tf.chansOf site site remote site))
    (hrec2 : c.SiteRecorded p s.fs l fs remote (c.tf.chansOf site site remote remote))
    (hwin : ∃ i w, ∀ t ∈ [site, site, remote], c.SiteWindow p s'.fs fs t i w)
    (hdet : ∀ i < dp.nLevels, (∀ t ∈ [site, site, remote], ∃ meas d, c.HasEvals p s'.fs fs t meas d ∧ i < d.md.nLevels) →
      ∀ j < dp.perLevel, c.Determines p s'.fs fs [site, site, remote] site remote i j)
    (Z : ℕ → ℕ → ℝ)
    (hZ : ∀ meas m td, p.getMeas site meas = .ok m → m.md.fs = fs → m.reader.readData s.fs m.dirPath m.md {} = .ok td →
      ∀ (o : ℕ) (out : String), c.tf.outChans[o]? = some out → td.Exact c.tf.inChans (Z o) out) :
    ∃ (sol : Solution) (n : ℕ) (labels : List (List ℚ)), c.tfOf p s'.fs fs site none (some remote) = .ok sol ∧
      (∃ t ∈ [site, site, remote], ∀ meas d, c.HasEvals p s'.fs fs t meas d → d.md.nLevels ≤ n) ∧
      (∀ t ∈ [site, site, remote], ∃ meas d, c.HasEvals p s'.fs fs t meas d ∧ n ≤ d.md.nLevels) ∧
      (List.range n).mapM (fun (i : ℕ) => dp.getEvalFreqs (i : ℤ)) = .ok labels ∧ sol.freqs = labels.flatten ∧
      ∀ i < n, ∀ j < dp.perLevel, sol.getTensor ((dp.perLevel * i + j : ℕ) : ℤ) = .ok ((List.range c.tf.outChans.length).map fun o =>
        (List.range c.tf.inChans.length).map fun a => (Z o a : ℂ)) := by
  have hcal : c.LocalCal := by intro _ _ _ _ _; rw [hnone]
  have hkeep := keeps_of_none hnone
  have hr1 := C60_ready c hc hkeep p hp hcal hn files l hl s s' ht h fs dp hdp site hs1 _ (hsome site (by simp)) hrec1
  have hr2 := C60_ready c hc hkeep p hp hcal hn files l hl s s' ht h fs dp hdp remote hs2 _ (hsome remote (by simp)) hrec2
  refine C60_recovered c hls hkeys hne p hk s'.fs fs site none (some remote) site remote rfl rfl dp hdp hc.freqs ?_ hwin hnd hcount hnc
    (fun _ _ o a => (Z o a : ℂ)) ?_ hdet
  · intro t hmem
    simp only [List.mem_cons, List.not_mem_nil, or_false] at hmem
    rcases hmem with rfl | rfl | rfl
    · exact hr1
    · exact hr1
    · exact hr2
  · intro mo mi dO dI hO hI hsame i j w o name v vs ho hv hvs
    obtain rfl := hsame rfl
    obtain ⟨⟨m, hm, hf⟩, hst⟩ := hO
    obtain ⟨hx, td, hr, hrec', hch⟩ := hrec1 mo m hm hf
    obtain ⟨dp', ev, d, e1, e2, e3⟩ := stored_evals hc hkeep hp hcal hn hl ht h hx hm hr hrec'
    rw [hnone, Except.ok.injEq] at e2
    subst e2
    have conv : ∀ {d : SpecData ℂ}, StoredAs s'.fs p.dirPath c.name (site, mo) d → ∀ {chan : String} {v : ℂ}, IsCell d i w chan j v →
        IsCell ev i w chan j v := by
      intro d hd chan v hcell
      obtain ⟨u1, u2, u3, u4⟩ := stored_unique hd e3
      unfold IsCell at hcell ⊢
      rw [u1, u2, u3] at hcell
      exact hcell
    refine related_cells hc hrec' e1 (fun a ha => hch a (by simp [TransFunc.chansOf, ha]))
      (hch name (by simp [TransFunc.chansOf, List.mem_of_getElem? ho]))
      (hZ mo m td hm hf hr o name ho) (conv hst hv) fun a chan ha => conv hI.2 (hvs a chan ha)

end Resistics
