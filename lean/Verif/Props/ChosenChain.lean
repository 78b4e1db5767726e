import Verif.Props.Chosen
import Verif.Props.EndToEndDemo
import Verif.Props.Remote

/-!
# Property C72, from the recording to the transfer function

Channels that the transfer function does not use have no effect on the solution.
-/

namespace Resistics

/-! ## Specification -/

/-- Specification: every window of every level has a row for every channel. -/
def SpecData.Rowed {V : Type} (d : SpecData V) : Prop := ∀ q ∈ d.data, ∀ win ∈ q.2, win.length = d.md.chans.length

/-- Specification: a process for spectra that treats every channel by itself. -/
def Channelwise (f : SpecData ℂ → Except Err (SpecData ℂ)) : Prop :=
  ∀ spec out : SpecData ℂ, f spec = .ok out →
    out.md.chans = spec.md.chans ∧ (spec.Rowed → out.Rowed) ∧ ∀ sel, f (spec.only sel) = .ok (out.only sel)

/-- Specification: a configuration that treats every channel by itself: valid time data processors (a function for every channel where
functions are applied), windows of the package with at least two windows a level, and channelwise processors of spectra. -/
structure Config.ByChannel (c : Config) (chans : List String) : Prop where
  lawful : c.sp.Lawful
  procs : ∀ p ∈ c.timeProcs, p.Valid ∧ p.Covers chans
  maxSingle : 2 ≤ c.maxSingle
  windower : StandardWindower c.windower
  minNWins : 2 ≤ c.winSetup.minNWins
  specProcs : ∀ f ∈ c.specProcs, Channelwise f

/-! ## Rows -/

theorem numbered_rowed {V : Type} {l : List (SpecArr V)} {n : ℕ} (h : ∀ arr ∈ l, ∀ win ∈ arr, win.length = n) :
    ∀ q ∈ l.zipIdx.map (fun q => (q.2, q.1)), ∀ win ∈ q.2, win.length = n := by
  intro q hq
  obtain ⟨x, hx, rfl⟩ := List.mem_map.1 hq
  exact h _ (List.fst_mem_of_mem_zipIdx hx)

theorem mkSpec_ok {V : Type} {md : SpecMeta} {data : List (ℕ × SpecArr V)} {out : SpecData V} (h : mkSpecData md data = .ok out) :
    out = ⟨md, data⟩ := by
  unfold mkSpecData at h
  obtain ⟨-, -, h⟩ := except_bind_ok.1 h
  rw [except_pure_ok] at h
  exact h.symm

theorem mapM_all {α β : Type} {f : α → Except Err β} {P : β → Prop} {l : List α} {r : List β}
    (h : ∀ a ∈ l, ∀ b, f a = .ok b → P b) (hr : l.mapM f = .ok r) : ∀ b ∈ r, P b := by
  intro b hb
  obtain ⟨j, hj, rfl⟩ := List.mem_iff_getElem.1 hb
  have hl := mapM_ok_length hr
  exact h l[j] (List.getElem_mem _) _ (mapM_ok_getElem hr j (by omega) hj)

theorem getLevel_mem {V : Type} {d : SpecData V} {i : ℤ} {arr : SpecArr V} (h : d.getLevel i = .ok arr) : (i.toNat, arr) ∈ d.data := by
  unfold SpecData.getLevel levelGet at h
  split at h
  · cases h
  · split at h
    · cases h
    · unfold dictGet at h
      split at h
      · rename_i x hx
        cases h
        exact lookup_some_mem hx
      · cases h

theorem smooth_channelwise (name : String) (filt : ℕ → List ℂ → List ℂ) : Channelwise (smoothRun name filt) := by
  intro spec out h
  refine ⟨?_, ?_, fun sel => smooth_only _ _ _ _ _ h⟩
  · unfold smoothRun at h
    obtain ⟨res, -, h⟩ := except_bind_ok.1 h
    rw [mkSpec_ok h]
  · intro hr
    unfold smoothRun at h
    obtain ⟨res, hres, h⟩ := except_bind_ok.1 h
    rw [mkSpec_ok h]
    refine numbered_rowed (n := spec.md.chans.length) (mapM_all ?_ hres)
    intro i _ b hb
    unfold smoothLevel at hb
    obtain ⟨lm, -, hb⟩ := except_bind_ok.1 hb
    obtain ⟨arr, harr, hb⟩ := except_bind_ok.1 hb
    rw [except_pure_ok] at hb
    subst hb
    intro win hwin
    obtain ⟨w, hw, rfl⟩ := List.mem_map.1 hwin
    rw [List.length_map]
    exact hr _ (getLevel_mem harr) w hw

theorem fourier_rowed {V W : Type} {nfl : ℕ → ℕ} {ft : ℕ → List V → List W} {win : WinData V} (hsh : win.Shaped) {spec : SpecData W}
    (h : fourierRun nfl ft win = .ok spec) : spec.md.chans = win.md.chans ∧ spec.Rowed := by
  unfold fourierRun at h
  obtain ⟨out, hout, h⟩ := except_bind_ok.1 h
  rw [mkSpec_ok h]
  refine ⟨rfl, ?_⟩
  refine numbered_rowed (n := win.md.chans.length) ?_
  intro arr harr
  obtain ⟨q, hq, rfl⟩ := List.mem_map.1 harr
  revert q
  refine fun q hq _ => mapM_all (P := fun q : SpecArr W × SpecLevelMeta => ∀ w ∈ q.1, w.length = win.md.chans.length) ?_ hout q hq
  intro i hi b hb
  unfold fourierLevel at hb
  obtain ⟨lm, hlm, hb⟩ := except_bind_ok.1 hb
  obtain ⟨raw, hraw, hb⟩ := except_bind_ok.1 hb
  obtain ⟨arr, harr, hb⟩ := except_bind_ok.1 hb
  rw [except_pure_ok] at hb
  subst hb
  have hi' : i < win.md.levels.length := by rw [hsh.n_levels]; exact List.mem_range.1 hi
  obtain ⟨wins, g1, -, g2⟩ := hsh.array i _ (List.getElem?_eq_getElem hi')
  rw [hraw, Except.ok.injEq] at g1
  subst g1
  simp only [winArr3, Except.ok.injEq] at harr
  subst harr
  intro w hw
  obtain ⟨x, hx, rfl⟩ := List.mem_map.1 hw
  rw [List.length_map]
  exact (g2 x hx).1

theorem evals_rowed {V : Type} [AddCommGroup V] [Module ℚ V] {p : DecParams ℚ} {spec evals : SpecData V} (hr : spec.Rowed)
    (h : evalFreqsRun p spec = .ok evals) : evals.md.chans = spec.md.chans ∧ evals.Rowed := by
  unfold evalFreqsRun at h
  obtain ⟨out, hout, h⟩ := except_bind_ok.1 h
  rw [mkSpec_ok h]
  refine ⟨rfl, ?_⟩
  refine numbered_rowed (n := spec.md.chans.length) ?_
  intro arr harr
  obtain ⟨q, hq, rfl⟩ := List.mem_map.1 harr
  revert q
  refine fun q hq _ => mapM_all (P := fun q : SpecArr V × SpecLevelMeta => ∀ w ∈ q.1, w.length = spec.md.chans.length) ?_ hout q hq
  intro i hi b hb
  unfold evalLevel at hb
  obtain ⟨lm, -, hb⟩ := except_bind_ok.1 hb
  obtain ⟨fr, -, hb⟩ := except_bind_ok.1 hb
  obtain ⟨arr, harr, hb⟩ := except_bind_ok.1 hb
  obtain ⟨res, hres, hb⟩ := except_bind_ok.1 hb
  rw [except_pure_ok] at hb
  subst hb
  unfold evalLevelData at hres
  obtain ⟨idxs, -, hres⟩ := except_bind_ok.1 hres
  refine mapM_all ?_ hres
  intro w hw b hb
  rw [mapM_ok_length hb]
  exact hr _ (getLevel_mem harr) w hw

/-! ## Looking up channels -/

/-- **C72**, looking up channels: a channel that is among the chosen ones is found with the same values, and so is a list of channels. -/
theorem C72_get_chans {V : Type} (d : SpecData V) (hr : d.Rowed) (hnd : d.md.chans.Nodup) (sel : List ℕ)
    (hsel : Choice sel d.md.chans.length 0) (cs : List String) (hcs : ∀ c ∈ cs, c ∈ chosen sel d.md.chans) (level : ℤ) :
    (d.only sel).getChans level cs = d.getChans level cs := by
  have hv : ∀ c ∈ cs, ∃ (k i : ℕ), (chosen sel d.md.chans)[k]? = some c ∧ sel[k]? = some i ∧ d.md.chans[i]? = some c := by
    intro c hc
    obtain ⟨k, hk⟩ := List.mem_iff_getElem?.1 (hcs c hc)
    have h2 := hk
    rw [chosen_get hsel.valid] at h2
    obtain ⟨i, hi, h3⟩ := Option.bind_eq_some_iff.1 h2
    exact ⟨k, i, hk, hi, h3⟩
  have h1 : ¬ ∃ c ∈ cs, c ∉ (d.only sel).md.chans := fun ⟨c, hc, hn⟩ => hn (hcs c hc)
  have h2 : ¬ ∃ c ∈ cs, c ∉ d.md.chans := fun ⟨c, hc, hn⟩ => hn (chosen_mem (hcs c hc))
  unfold SpecData.getChans
  rw [if_neg h1, if_neg h2]
  simp only [pure, Except.pure, bind, Except.bind]
  let pos : List String → String → ℤ := fun l c => ((l.findIdx? (· == c)).getD 0 : ℕ)
  have hpos : ∀ (l : List String), (∀ c ∈ cs, c ∈ l) → cs.mapM (listIndex l) = .ok (cs.map (pos l)) := by
    intro l hl
    refine mapM_ok_map fun c hc => ?_
    unfold listIndex
    cases hf : l.findIdx? (· == c) with
    | none =>
      rw [List.findIdx?_eq_none_iff] at hf
      simpa using hf c (hl c hc)
    | some i => simp [pos, hf]
  have hat : ∀ (l : List String), l.Nodup → ∀ (k : ℕ) (c : String), l[k]? = some c → pos l c = (k : ℤ) := by
    intro l hl k c hk
    obtain ⟨hlt, rfl⟩ := List.getElem?_eq_some_iff.1 hk
    have := listIndex_get l hl k hlt
    unfold listIndex at this
    cases hf : l.findIdx? (· == l[k]) with
    | none => rw [hf] at this; cases this
    | some i =>
      rw [hf] at this
      simp only [Except.ok.injEq] at this
      simp [pos, hf, this]
  rw [hpos (d.only sel).md.chans hcs, hpos _ fun c hc => chosen_mem (hcs c hc)]
  simp only
  have hlev : levelGet (d.only sel).data level = (levelGet d.data level).map fun arr => arr.map (chosen sel) := by
    unfold levelGet
    split
    · rfl
    · unfold dictGet
      have := lookup_image (fun arr : SpecArr V => arr.map (chosen sel)) d.data level.toNat
      rw [show (d.only sel).data = d.data.map fun q => (q.1, q.2.map (chosen sel)) from rfl, this]
      cases d.data.lookup level.toNat <;> rfl
  rw [hlev]
  cases hl : levelGet d.data level with
  | error e => rfl
  | ok arr =>
    have hmem : (level.toNat, arr) ∈ d.data := by
      unfold levelGet at hl
      split at hl
      · cases hl
      · unfold dictGet at hl
        split at hl
        · rename_i x hx
          cases hl
          exact lookup_some_mem hx
        · cases hl
    simp only [Except.map, List.mapM_map]
    refine mapM_congr_mem fun win hwin => ?_
    have hw := hr _ hmem win hwin
    refine mapM_congr_mem fun c hc => ?_
    obtain ⟨k, i, e1, e2, e3⟩ := hv c hc
    have hi : i < win.length := by rw [hw]; exact (List.getElem?_eq_some_iff.1 e3).1
    have hch := chosen_get (l := win) (sel := sel) (fun j hj => by rw [hw]; exact hsel.valid j hj) k
    rw [e2, Option.bind_some, List.getElem?_eq_getElem hi] at hch
    obtain ⟨hk, hkv⟩ := List.getElem?_eq_some_iff.1 hch
    show pyIndex (chosen sel win) (pos (chosen sel d.md.chans) c) = pyIndex win (pos d.md.chans c)
    rw [hat _ (chosen_nodup hsel.nodup hnd) k c e1, hat _ hnd i c e3, pyIndex_natCast _ _ hk, pyIndex_natCast _ _ hi, hkv]

theorem quickSite_only {V : Type} (name : String) (p : DecParams ℚ) (d : SpecData V) (hr : d.Rowed) (hnd : d.md.chans.Nodup)
    (sel : List ℕ) (hsel : Choice sel d.md.chans.length 0) (cs : List String) (hcs : ∀ c ∈ cs, c ∈ chosen sel d.md.chans) :
    quickSite name p (d.only sel) cs = quickSite name p d cs := by
  unfold quickSite
  have h1 : quickEvalFreqs (d.only sel) = quickEvalFreqs d := rfl
  have h2 : quickLevel p (d.only sel) cs = quickLevel p d cs := by
    funext data i
    unfold quickLevel
    rw [C72_get_chans d hr hnd sel hsel cs hcs]
    rfl
  rw [h1, h2]
  rfl

/-- **C72**, gathering: what is gathered for a transfer function whose channels are among the chosen ones is the same. -/
theorem C72_gathered {V : Type} (name : String) (p : DecParams ℚ) (tf : TfChans) (d : SpecData V) (hr : d.Rowed) (hnd : d.md.chans.Nodup)
    (sel : List ℕ) (hsel : Choice sel d.md.chans.length 0)
    (htf : ∀ c, c ∈ tf.outChans ∨ c ∈ tf.inChans ∨ c ∈ tf.crossChans → c ∈ chosen sel d.md.chans) :
    quickGather name p tf (d.only sel) = quickGather name p tf d := by
  unfold quickGather
  rw [quickSite_only name p d hr hnd sel hsel _ fun c hc => htf c (.inl hc),
    quickSite_only name p d hr hnd sel hsel _ fun c hc => htf c (.inr (.inl hc)),
    quickSite_only name p d hr hnd sel hsel _ fun c hc => htf c (.inr (.inr hc))]

/-! ## The chain of processes -/

theorem specProcs_only {procs : List (SpecData ℂ → Except Err (SpecData ℂ))} (hp : ∀ f ∈ procs, Channelwise f) :
    ∀ spec out : SpecData ℂ, procs.foldlM (fun s f => f s) spec = .ok out →
      out.md.chans = spec.md.chans ∧ (spec.Rowed → out.Rowed) ∧
        ∀ sel, procs.foldlM (fun s f => f s) (spec.only sel) = .ok (out.only sel) := by
  induction procs with
  | nil =>
    intro spec out h
    simp only [List.foldlM_nil, except_pure_ok] at h
    subst h
    exact ⟨rfl, id, fun _ => rfl⟩
  | cons f procs ih =>
    intro spec out h
    simp only [List.foldlM_cons, except_bind_ok] at h
    obtain ⟨mid, h1, h2⟩ := h
    obtain ⟨a1, a2, a3⟩ := hp f (by simp) spec mid h1
    obtain ⟨b1, b2, b3⟩ := ih (fun g hg => hp g (by simp [hg])) mid out h2
    refine ⟨b1.trans a1, fun hr => b2 (a2 hr), fun sel => ?_⟩
    rw [List.foldlM_cons, a3 sel]
    exact b3 sel

/-- **C72**, all processes: from the recording to the evaluation frequencies, the chosen channels alone (two or more) give what the whole
recording gives for them. -/
theorem C72_chain (c : Config) (ref : DateTime) (td : TimeData ℚ) (hc : c.ByChannel td.md.chans) (htd : td.Consistent)
    (hnd : td.md.chans.Nodup) (hfs : ∀ tdp, runTimeProcessors c.sp c.timeProcs td = .ok tdp → tdp.md.fs ≤ 10 ^ 13)
    (sel : List ℕ) (hsel : Choice sel td.md.chans.length 2) (p : DecParams ℚ) (evals : SpecData ℂ)
    (h : c.toEvals ref td = .ok (p, evals)) :
    c.toEvals ref (td.only sel) = .ok (p, evals.only sel) ∧ evals.md.chans = td.md.chans ∧ evals.Rowed := by
  have hsel1 : Choice sel td.md.chans.length 1 := ⟨hsel.valid, hsel.nodup, le_trans (by omega) hsel.enough⟩
  have htwo : 2 ≤ td.md.chans.length := le_trans hsel.enough hsel.le
  unfold Config.toEvals Config.toSpectra Config.processSpectra Config.window Config.decimate at h
  simp only [except_bind_ok, except_pure_ok, Prod.mk.injEq] at h
  obtain ⟨-, ⟨tdp, h1, p', h2, dec, h3, win, ⟨wp, h4, h5⟩, spec0, h6, rfl⟩, spec, h7, ev, h8, rfl, rfl⟩ := h
  change evalFreqsRun p' spec = .ok ev at h8
  change c.toEvals ref (td.only sel) = .ok (p', ev.only sel) ∧ _
  obtain ⟨a1, a2, -⟩ := C23_chain_consistent c.sp hc.lawful c.timeProcs (fun q hq => (hc.procs q hq).1) td tdp htd h1
  obtain ⟨-, -, -, hpos, -⟩ := DecSetup.run_spec _ _ _ _ h2
  obtain ⟨b1, b2, b3, b4, -⟩ := decimator_consistent hc.lawful hc.maxSingle (by omega) a1 (by rw [a2]; omega) (hfs tdp h1) h3
  have hw := (C14_one_size_per_level _ _ _ _ h4).2.1
  obtain ⟨c1, c2, -⟩ := windower_windows hc.windower b1 (by rw [b2, a2]; exact htwo) (by rw [hw]; exact hc.minNWins) h5
  obtain ⟨d1, d2⟩ := fourier_rowed c1 h6
  obtain ⟨e1, e2, e3⟩ := specProcs_only hc.specProcs spec0 spec h7
  obtain ⟨f1, f2⟩ := evals_rowed (e2 d2) h8
  refine ⟨?_, by rw [f1, e1, d1, c2, b2, a2], f2⟩
  have g1 := C72_time c.sp hc.lawful c.timeProcs (fun q hq => (hc.procs q hq).1) sel td tdp htd hnd hsel1 (fun q hq => (hc.procs q hq).2) h1
  have g3 := C72_decimated c.sp hc.lawful c.useResample c.maxSingle hc.maxSingle p' sel tdp dec a1 (by rw [a2]; exact hnd)
    (by rw [a2]; exact hsel1) h3
  have g5 : c.windower ref wp (dec.only sel) = .ok (win.only sel) := by
    have hs2 : Choice sel dec.md.chans.length 2 := by rw [b2, a2]; exact hsel
    have hm : 2 ≤ wp.minNWins := by rw [hw]; exact hc.minNWins
    rcases hc.windower with hwd | ⟨t, hwd⟩
    · rw [hwd] at h5 ⊢
      exact (C72_windowed ref wp dec b1 hm sel hs2).1 win h5
    · rw [hwd] at h5 ⊢
      exact (C72_windowed ref wp dec b1 hm sel hs2).2 t win h5
  have g6 := C72_fourier c.nfl c.ft win spec0 sel h6
  have g7 := e3 sel
  have g8 := C72_evals p' spec ev sel h8
  unfold Config.toEvals Config.toSpectra Config.processSpectra Config.window Config.decimate
  have k2 : c.decSetup.run c.defaultFreqs (tdp.only sel).md.fs = .ok p' := h2
  have k4 : c.winSetup.run (dec.only sel).md.nLevels (dec.only sel).md.fs = .ok wp := h4
  simp only [g1, k2, g3, k4, g5, g6, g7, g8, bind, Except.bind, pure, Except.pure]

/-- **C72**, the result: channels that the transfer function does not use have no effect.  When the processes up to the evaluation frequencies
succeed for a recording, its directory gives the same result (the same solution, or the same failure of gathering or solving) as a directory of
the same name whose recording has only some of the channels, those of the transfer function included. -/
theorem C72_unused_channels (c : Config) (disk disk' : FS ℂ) (dir dir' : Path) (hname : pathName dir' = pathName dir) (td : TimeData ℚ)
    (hc : c.ByChannel td.md.chans) (htd : td.Consistent) (hnd : td.md.chans.Nodup)
    (hfs : ∀ tdp, runTimeProcessors c.sp c.timeProcs td = .ok tdp → tdp.md.fs ≤ 10 ^ 13)
    (sel : List ℕ) (hsel : Choice sel td.md.chans.length 2)
    (htf : ∀ a, a ∈ c.tf.outChans ∨ a ∈ c.tf.inChans ∨ a ∈ c.tf.crossChans → a ∈ chosen sel td.md.chans)
    (hread : c.quickRead disk dir = .ok td) (hread' : c.quickRead disk' dir' = .ok (td.only sel)) (p : DecParams ℚ) (evals : SpecData ℂ)
    (h : c.toEvals td.md.firstTime td = .ok (p, evals)) :
    c.quickTf disk' dir' none = c.quickTf disk dir none := by
  obtain ⟨k1, k2, k3⟩ := C72_chain c td.md.firstTime td hc htd hnd hfs sel hsel p evals h
  have k1' : c.toEvals (td.only sel).md.firstTime (td.only sel) = .ok (p, evals.only sel) := k1
  unfold Config.quickTf
  simp only [hread, hread', h, k1', bind, Except.bind, Config.calibrateOpt, hname]
  rw [C72_gathered (pathName dir) p c.tf.gatherChans evals k3 (by rw [k2]; exact hnd) sel
    (by rw [k2]; exact ⟨hsel.valid, hsel.nodup, Nat.zero_le _⟩) (by rw [k2]; exact htf)]

/-- **C72**: in particular, a solution obtained with more channels is the solution obtained without them. -/
theorem C72_same_solution (c : Config) (disk disk' : FS ℂ) (dir dir' : Path) (hname : pathName dir' = pathName dir) (td : TimeData ℚ)
    (hc : c.ByChannel td.md.chans) (htd : td.Consistent) (hnd : td.md.chans.Nodup)
    (hfs : ∀ tdp, runTimeProcessors c.sp c.timeProcs td = .ok tdp → tdp.md.fs ≤ 10 ^ 13)
    (sel : List ℕ) (hsel : Choice sel td.md.chans.length 2)
    (htf : ∀ a, a ∈ c.tf.outChans ∨ a ∈ c.tf.inChans ∨ a ∈ c.tf.crossChans → a ∈ chosen sel td.md.chans)
    (hread : c.quickRead disk dir = .ok td) (hread' : c.quickRead disk' dir' = .ok (td.only sel)) (sol : Solution)
    (h : c.quickTf disk dir none = .ok sol) :
    c.quickTf disk' dir' none = .ok sol := by
  have h' := h
  unfold Config.quickTf at h'
  simp only [hread, bind, Except.bind] at h'
  cases hev : c.toEvals td.md.firstTime td with
  | error e => rw [hev] at h'; cases h'
  | ok q => rw [C72_unused_channels c disk disk' dir dir' hname td hc htd hnd hfs sel hsel htf hread hread' q.1 q.2 hev, h]

/-! ## A concrete case -/

/-- the recording of `demoLin` with a third channel, which comes first -/
def demoWide : TimeData ℚ where
  md := { fs := 2, chans := ["Bz", "Hx", "Ex"], nSamples := 8, firstTime := 10, lastTime := 27 / 2 }
  data := [[5, 0, 2, 0, 0, 1, 0, 0], [1, 2, 3, 4, 5, 6, 7, 8], [3, 6, 9, 12, 15, 18, 21, 24]]

example : demoWide.only [1, 2] = demoLin := by decide +kernel

example : Choice [1, 2] demoWide.md.chans.length 2 := ⟨by decide, by decide, by decide⟩

/-- the configuration treats every channel by itself -/
theorem demoConfig_byChannel (chans : List String) : demoConfig.ByChannel chans where
  lawful := demoSciPy_lawful
  procs := by
    intro p hp
    simp only [demoConfig, List.mem_singleton] at hp
    subst hp
    exact ⟨trivial, trivial⟩
  maxSingle := by decide
  windower := Or.inl rfl
  minNWins := by decide
  specProcs := by simp [demoConfig]

/-- the wide recording in the directory "wide", the narrow one elsewhere -/
def demoWideReader : TReader ℂ where
  name := "Demo"
  readMeta := fun _ dir => .ok (if dir = ["a", "rec"] then demoWide.md else demoLin.md)
  readData := fun _ dir _ _ => .ok (if dir = ["a", "rec"] then demoWide else demoLin)

/-- the configuration with the reader for both -/
noncomputable def demoWideConfig : Config := { demoConfig with readers := [demoWideReader] }

theorem demoWide_read (disk : FS ℂ) :
    demoWideConfig.quickRead disk ["a", "rec"] = .ok demoWide ∧ demoWideConfig.quickRead disk ["b", "rec"] = .ok (demoWide.only [1, 2]) :=
  ⟨rfl, by rw [show demoWide.only [1, 2] = demoLin by decide +kernel]; rfl⟩

/-- time data to windows -/
def demoWideWindows : Except Err (DecParams ℚ × WinData ℚ) := do
  let td ← runTimeProcessors demoSciPy [.removeMean] demoWide
  let p ← DecSetup.run (K := ℚ) { nLevels := 1, perLevel := 1, minSamples := 1, evalFreqs := some [1 / 2] }
    (fun _ n => List.replicate n 1) td.md.fs
  let dec ← Decimator.run demoSciPy false 3 p td
  let wp ← WindowSetup.run { minNWins := 2, winSizes := some [4], olapSizes := some [2] } dec.md.nLevels dec.md.fs
  let win ← windowerRun 10 wp dec
  return (p, win)

/-- the windows of the wide recording -/
def demoWideWin : WinData ℚ where
  md := {
    fs := [2]
    chans := ["Bz", "Hx", "Ex"]
    nLevels := 1
    firstTime := 10
    lastTime := 27 / 2
    levels := [⟨2, 3, 4, 2, 0⟩]
    refTime := 10
    history := ["RemoveMean", "Decimator", "Windower"] }
  data := [(0, .d3 [[[4, -1, 1, -1], [-7/2, -5/2, -3/2, -1/2], [-21/2, -15/2, -9/2, -3/2]],
    [[1, -1, -1, 0], [-3/2, -1/2, 1/2, 3/2], [-9/2, -3/2, 3/2, 9/2]], [[-1, 0, -1, -1], [1/2, 3/2, 5/2, 7/2], [3/2, 9/2, 15/2, 21/2]]])]

theorem demoWideWindows_eq : demoWideWindows = .ok (demoLinParams, demoWideWin) := by decide +kernel

example : demoWideWin.only [1, 2] = demoLinWin := by decide +kernel

theorem demoWideWin_shaped : demoWideWin.Shaped := by
  refine ⟨rfl, by decide, ?_⟩
  intro i lm h
  cases i with
  | zero =>
    rw [show demoWideWin.md.levels[0]? = some ⟨2, 3, 4, 2, 0⟩ from rfl, Option.some.injEq] at h
    subst h
    exact ⟨_, rfl, rfl, by decide⟩
  | succ i => simp [demoWideWin] at h

/-- the processes succeed for the wide recording -/
theorem demoWide_evals : ∃ evals, demoWideConfig.toEvals 10 demoWide = .ok (demoLinParams, evals) := by
  obtain ⟨spec, a1, a2, a3, a4, -, a5⟩ := C51_fourier_run id sumTransform (fun n row => by simp [sumTransform]) demoWideWin demoWideWin_shaped
  obtain ⟨wins, slm, b1, b2, b3, b4, -⟩ := a5 0 ⟨2, 3, 4, 2, 0⟩ rfl
  have b4' : slm.freqs = [0, 1 / 2, 1] := b4.trans (by decide +kernel)
  have hgrid : ∀ lm ∈ spec.md.levels, lm.freqs.Pairwise (· < ·) ∧ 0 < lm.freqs.length := by
    intro lm hlm
    obtain ⟨i, hi, rfl⟩ := List.mem_iff_getElem.1 hlm
    have : i = 0 := by
      rw [a2.n_levels, a4] at hi
      change i < 1 at hi
      omega
    subst this
    rw [List.getElem?_eq_getElem hi, Option.some.injEq] at b3
    rw [b3, b4']
    constructor
    · norm_num
    · simp
  obtain ⟨evals, c1, -⟩ := C27_evaluation demoLinParams spec a2 hgrid (by rw [a4]; decide)
  refine ⟨evals, ?_⟩
  have hw := demoWideWindows_eq
  unfold demoWideWindows at hw
  simp only [except_bind_ok, except_pure_ok, Prod.mk.injEq] at hw
  obtain ⟨td, h1, p, h2, dec, h3, wp, h4, win, h5, h6, h7⟩ := hw
  subst h6 h7
  unfold Config.toEvals Config.toSpectra Config.processSpectra Config.window Config.decimate
  simp only [except_bind_ok, except_pure_ok]
  exact ⟨(demoLinParams, spec), ⟨td, h1, demoLinParams, h2, dec, h3, demoWideWin, ⟨wp, h4, h5⟩, spec, a1, rfl⟩, spec, rfl, evals, c1, rfl⟩

/-- the third channel has no effect on the transfer function from `Hx` to `Ex` -/
example (disk : FS ℂ) : demoWideConfig.quickTf disk ["b", "rec"] none = demoWideConfig.quickTf disk ["a", "rec"] none := by
  obtain ⟨evals, h⟩ := demoWide_evals
  refine C72_unused_channels demoWideConfig disk disk ["a", "rec"] ["b", "rec"] rfl demoWide
    ⟨demoSciPy_lawful, (demoConfig_byChannel demoWide.md.chans).procs, by decide, Or.inl rfl, by decide, (demoConfig_byChannel []).specProcs⟩
    ⟨by decide, by decide, by decide, by decide +kernel⟩ (by decide) ?_ [1, 2] ⟨by decide, by decide, by decide⟩ ?_
    (demoWide_read disk).1 (demoWide_read disk).2 demoLinParams evals h
  · intro tdp h
    simp only [demoWideConfig, demoConfig, runTimeProcessors, List.foldlM_cons, List.foldlM_nil, Proc.run, bind, Except.bind,
      except_pure_ok] at h
    subst h
    show (2 : ℚ) ≤ 10 ^ 13
    norm_num
  · intro a ha
    have : a ∈ ["Ex"] ∨ a ∈ ["Hx"] ∨ a ∈ ["Hx"] := ha
    rw [show chosen [1, 2] demoWide.md.chans = ["Hx", "Ex"] from rfl]
    simp only [List.mem_cons, List.not_mem_nil, or_false] at this ⊢
    tauto

end Resistics
