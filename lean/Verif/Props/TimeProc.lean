import Verif.Props.TimeRead
import Verif.Lemmas.TimeProc

/-!
# Properties C21 – C26: time data processors
-/

namespace Resistics

/-! ## C22 prime factorisation, C21 staged down-sampling -/

/-- **C22**. For every `n ≥ 1` the factorisation used by the staged decimation is the ascending list of
prime factors with multiplicity. -/
theorem C22_prime_factorisation (n : ℕ) (hn : 1 ≤ n) :
    (primeFactorisation n).prod = n ∧ (∀ p ∈ primeFactorisation n, p.Prime) ∧
      (primeFactorisation n).Pairwise (· ≤ ·) :=
  primeFactorisation_spec n hn

/-- **C22**, by uniqueness of factorisation: it is the list of prime factors of number theory. -/
theorem C22_is_the_factorisation (n : ℕ) (hn : 1 ≤ n) :
    primeFactorisation n = n.primeFactorsList := by
  obtain ⟨h1, h2, h3⟩ := C22_prime_factorisation n hn
  exact List.Perm.eq_of_pairwise (fun a b _ _ h1 h2 => Nat.le_antisymm h1 h2) h3
    (Nat.primeFactorsList_sorted n).pairwise (Nat.primeFactorsList_unique h1 h2)

example : primeFactorisation 360 = [2, 2, 2, 3, 3, 5] := by decide +kernel
example : primeFactorisation 9409 = [97, 97] := by decide +kernel

/-- **C21**. The stage factors multiply to the requested factor, and a stage exceeds the maximum single
factor only if it is one prime factor of the request. -/
theorem C21_downsample_factors (maxSingle factor : ℕ) (hm : 2 ≤ maxSingle) (hf : 1 ≤ factor) :
    (getDownsampleFactors maxSingle factor).prod = factor ∧
    ∀ f ∈ getDownsampleFactors maxSingle factor, 1 ≤ f ∧ (f ≤ maxSingle ∨ f.Prime) := by
  have hprod : (getDownsampleFactors maxSingle factor).prod = factor := by
    unfold getDownsampleFactors
    split
    · simp
    · rw [(groupFactors_spec _ _ _ _).1, (C22_prime_factorisation factor hf).1]; simp
  refine ⟨hprod, ?_⟩
  intro f hmem
  constructor
  · by_contra hc
    have h0 : f = 0 := by omega
    subst h0
    have := List.prod_eq_zero hmem
    omega
  · unfold getDownsampleFactors at hmem
    split at hmem
    · rw [List.mem_singleton] at hmem; left; omega
    · exact (groupFactors_spec _ _ _ _).2 (C22_prime_factorisation factor hf).2.1
        (Or.inl (by omega)) (by simp) f hmem

/-- **C21**. When every prime factor of the request is at most the maximum, no stage exceeds it. -/
theorem C21_stages_bounded (maxSingle factor : ℕ) (hm : 2 ≤ maxSingle) (hf : 1 ≤ factor)
    (hp : ∀ p, p.Prime → p ∣ factor → p ≤ maxSingle) :
    ∀ f ∈ getDownsampleFactors maxSingle factor, f ≤ maxSingle := by
  intro f hmem
  obtain ⟨h1, h2⟩ := C21_downsample_factors maxSingle factor hm hf
  rcases (h2 f hmem).2 with h | h
  · exact h
  · exact hp f h (h1 ▸ List.dvd_prod hmem)

/-- the unconditional bound is false: a prime above the maximum becomes its own stage -/
theorem C21_bound_fails_for_large_primes :
    ¬ ∀ (maxSingle factor : ℕ), 2 ≤ maxSingle → 1 ≤ factor →
      ∀ f ∈ getDownsampleFactors maxSingle factor, f ≤ maxSingle := by
  intro h
  have := h 3 25 (by norm_num) (by norm_num) 5 (by decide +kernel)
  omega

example : getDownsampleFactors 8 96 = [8, 4, 3] := by decide +kernel

/-! ## C23 consistency is preserved by every chain of processors -/

theorem newTimeData_core {V : Type} (td : TimeData V) (name : String) (md : TimeMeta)
    (data : List (List V)) :
    newTimeData td name (some md) (some data)
      = { md := { md with history := md.history ++ [name] }, data := data } := rfl

theorem TimeData.Consistent.of_data {V : Type} {td : TimeData V} (hc : td.Consistent) (name : String)
    (data : List (List V)) (h : List.Forall₂ (fun r r' => r'.length = r.length) td.data data) :
    (newTimeData td name none (some data)).Consistent := by
  refine ⟨hc.fs_pos, ?_, ?_, hc.last⟩
  · exact h.length_eq.symm.trans hc.rows
  · intro row hr
    obtain ⟨r, hr', hrr⟩ : ∃ r ∈ td.data, row.length = r.length := by
      obtain ⟨i, hi, rfl⟩ := List.mem_iff_getElem.mp hr
      have hi' : i < td.data.length := by rw [h.length_eq]; exact hi
      exact ⟨td.data[i], List.getElem_mem hi', (List.forall₂_iff_get.mp h).2 i hi' hi⟩
    rw [hrr]; exact hc.cols r hr'

theorem Consistent.of_adjust {V : Type} {td : TimeData V} {fs first : ℚ} {n : ℤ} {md : TimeMeta}
    (name : String) (data : List (List V)) (hfs : 0 < fs)
    (hmd : adjustTimeMetadata td.md fs first n = .ok md) (hrows : data.length = td.md.chans.length)
    (hcols : ∀ row ∈ data, (row.length : ℤ) = n) :
    (newTimeData td name (some md) (some data)).Consistent ∧
    (newTimeData td name (some md) (some data)).md.chans = td.md.chans ∧
    (newTimeData td name (some md) (some data)).md.history = td.md.history ++ [name] := by
  rw [adjust_ok hfs.ne'] at hmd
  injection hmd with hmd
  subst hmd
  refine ⟨⟨hfs, hrows, hcols, ?_⟩, rfl, rfl⟩
  simp only [newTimeData, Option.getD_some]; ring

theorem zipWith_rows_forall₂ (g : ℚ → ℚ → ℚ) (data : List (List ℚ)) (v : List ℚ)
    (h : v.length = data.length) :
    List.Forall₂ (fun r r' => r'.length = r.length) data
      (List.zipWith (fun row x => row.map (g x)) data v) := by
  induction data generalizing v with
  | nil => simp
  | cons r data ih =>
    cases v with
    | nil => simp at h
    | cons x v =>
      simp only [List.zipWith_cons_cons]
      exact List.Forall₂.cons (by simp) (ih v (by simpa using h))

theorem subsection_consistent {V : Type} {td out : TimeData V} {f t : ℚ} (hc : td.Consistent)
    (h : subsection f t td = .ok out) :
    out.Consistent ∧ out.md.chans = td.md.chans ∧ out.md.history = td.md.history ++ ["Subsection"] := by
  have hne := hc.fs_pos.ne'
  unfold subsection at h
  simp only [except_bind_ok] at h
  obtain ⟨⟨a, b⟩, hab, ⟨x, y⟩, hxy, md, hmd, h⟩ := h
  simp only [except_pure_ok] at h
  have hlt : a < b := by
    by_contra hc
    simp only [samplesToDatetimes, if_pos (not_lt.mp hc), bind, Except.bind] at hxy
    cases hxy
  -- bounds on the samples
  unfold datetimesToSamples at hab
  simp only [except_bind_ok, except_pure_ok, Prod.mk.injEq] at hab
  obtain ⟨a', ha', b', hb', rfl, rfl⟩ := hab
  have ha0 : 0 ≤ a' := by
    by_cases hle : f ≤ td.md.lastTime
    · rw [fromTimeToSample_ok hle] at ha'
      injection ha' with ha'
      rw [← ha']
      exact Int.ceil_nonneg (mul_nonneg (by linarith [le_max_right f td.md.firstTime]) hc.fs_pos.le)
    · rw [fromTimeToSample_err (not_le.mp hle)] at ha'; cases ha'
  have hb1 : b' < td.md.nSamples := by
    by_cases hle : td.md.firstTime ≤ t
    · rw [toTimeToSample_ok hle] at hb'
      injection hb' with hb'
      have hdt := toTimedelta_le (1 / td.md.fs)
      have hdt0 := toTimedelta_nonneg (x := 1 / td.md.fs) (by have := hc.fs_pos; positivity)
      have h1 : (min t td.md.lastTime - td.md.firstTime) * td.md.fs
          ≤ ((td.md.nSamples - 1 : ℤ) : ℚ) * toTimedelta (1 / td.md.fs) * td.md.fs := by
        apply mul_le_mul_of_nonneg_right _ hc.fs_pos.le
        have := min_le_right t td.md.lastTime
        have := hc.last
        linarith
      have hb'' : (b' : ℚ) ≤ ((td.md.nSamples - 1 : ℤ) : ℚ) * toTimedelta (1 / td.md.fs) * td.md.fs := by
        have := Int.floor_le ((min t td.md.lastTime - td.md.firstTime) * td.md.fs)
        rw [hb'] at this
        linarith
      have hu : toTimedelta (1 / td.md.fs) * td.md.fs ≤ 1 := by
        have := mul_le_mul_of_nonneg_right hdt hc.fs_pos.le
        rwa [one_div_mul_cancel hne] at this
      have hu0 : 0 ≤ toTimedelta (1 / td.md.fs) * td.md.fs := mul_nonneg hdt0 hc.fs_pos.le
      have hbpos : (0:ℚ) < b' := by exact_mod_cast (by omega : 0 < b')
      rw [mul_assoc] at hb''
      have hn0 : 0 ≤ ((td.md.nSamples - 1 : ℤ) : ℚ) := by
        by_contra hneg
        have := mul_nonpos_of_nonpos_of_nonneg (not_le.mp hneg).le hu0
        linarith
      have : (b' : ℚ) ≤ ((td.md.nSamples - 1 : ℤ) : ℚ) := by
        have := mul_le_mul_of_nonneg_left hu hn0
        linarith
      have : b' ≤ td.md.nSamples - 1 := by exact_mod_cast this
      omega
    · rw [toTimeToSample_err (not_le.mp hle)] at hb'; cases hb'
  subst h
  apply Consistent.of_adjust "Subsection" _ hc.fs_pos hmd
  · simpa using hc.rows
  · intro row hr
    simp only [List.mem_map] at hr
    obtain ⟨r, hr, rfl⟩ := hr
    rw [pySlice_length r ha0 (by omega) (by have := hc.cols r hr; omega)]
    ring

theorem decimateRow_length {sp : SciPy} (hl : sp.Lawful) (fs : List ℕ) (hfs : ∀ f ∈ fs, 1 ≤ f)
    (r r' s s' : List ℚ) (hrs : r.length = s.length)
    (hr : decimateRow sp fs r = .ok r') (hs : decimateRow sp fs s = .ok s') : r'.length = s'.length := by
  induction fs generalizing r s with
  | nil =>
    simp [decimateRow, pure, Except.pure] at hr hs
    subst hr; subst hs; exact hrs
  | cons f fs ih =>
    unfold decimateRow at hr hs
    rw [List.foldlM_cons, except_bind_ok] at hr hs
    obtain ⟨r1, hr1, hr⟩ := hr
    obtain ⟨s1, hs1, hs⟩ := hs
    refine ih (fun g hg => hfs g (by simp [hg])) r1 s1 ?_ hr hs
    by_cases h1 : f = 1
    · simp only [h1, if_true, except_pure_ok] at hr1 hs1
      subst hr1; subst hs1; exact hrs
    · rw [if_neg h1] at hr1 hs1
      rw [hl.decimate_length f r r1 (hfs f (by simp)) hr1, hl.decimate_length f s s1 (hfs f (by simp)) hs1, hrs]

theorem shape1_eq {V : Type} {data : List (List V)} (h : ∀ r ∈ data, ∀ s ∈ data, r.length = s.length) :
    ∀ r ∈ data, r.length = shape1 data := by
  intro r hr
  cases data with
  | nil => simp at hr
  | cons d l => simpa [shape1] using h r hr d (by simp)

/-- Every single processor keeps time data consistent, keeps the channels and appends its record. -/
theorem Proc.run_consistent (sp : SciPy) (hl : sp.Lawful) (p : Proc) (hv : p.Valid) (td out : TimeData ℚ)
    (hc : td.Consistent) (h : p.run sp td = .ok out) :
    out.Consistent ∧ out.md.chans = td.md.chans ∧ out.md.history = td.md.history ++ [p.name] := by
  have hrowlen : ∀ r ∈ td.data, ∀ s ∈ td.data, r.length = s.length := by
    intro r hr s hs
    have h1 := hc.cols r hr
    have h2 := hc.cols s hs
    omega
  have filt : ∀ kind o band, filterProc sp kind o band td = .ok out →
      out.Consistent ∧ out.md.chans = td.md.chans ∧ out.md.history = td.md.history ++ [kind] := by
    intro kind o band h
    unfold filterProc at h
    simp only [except_bind_ok, except_pure_ok] at h
    obtain ⟨wn, -, data, hdata, rfl⟩ := h
    refine ⟨hc.of_data kind data ?_, rfl, rfl⟩
    exact (mapM_ok_iff.mp hdata).imp (fun r r' hrr => hl.sosfilt_length _ _ _ _ _ hrr)
  cases p with
  | subsection f t => exact subsection_consistent hc h
  | interpolateNans =>
    simp only [Proc.run, Except.ok.injEq] at h
    subst h
    refine ⟨hc.of_data _ _ ?_, rfl, rfl⟩
    exact List.forall₂_same.mpr (fun r _ => rfl)
  | removeMean =>
    simp only [Proc.run, Except.ok.injEq] at h
    subst h
    refine ⟨hc.of_data _ _ ?_, rfl, rfl⟩
    rw [List.forall₂_map_right_iff]
    exact List.forall₂_same.mpr (fun r _ => by simp)
  | add p =>
    simp only [Proc.run, Except.ok.injEq] at h
    subst h
    refine ⟨hc.of_data _ _ ?_, rfl, rfl⟩
    exact zipWith_rows_forall₂ (fun x y => y + x) _ _ (by rw [perChanVector_length, hc.rows])
  | multiply p =>
    simp only [Proc.run, Except.ok.injEq] at h
    subst h
    refine ⟨hc.of_data _ _ ?_, rfl, rfl⟩
    exact zipWith_rows_forall₂ (fun x y => y * x) _ _ (by rw [perChanVector_length, hc.rows])
  | lowPass c o => exact filt _ _ _ h
  | highPass c o => exact filt _ _ _ h
  | bandPass l h' o => exact filt _ _ _ h
  | notch f b o => exact filt _ _ _ h
  | resample newFs =>
    simp only [Proc.run, Resistics.resample] at h
    rw [if_neg hc.fs_pos.ne'] at h
    by_cases hnum : (sp.limitDen (newFs / td.md.fs)).num < 1
    · simp [hnum, bind, Except.bind, pure, Except.pure, throw, throwThe, MonadExceptOf.throw] at h
    rw [if_neg hnum] at h
    simp only [except_bind_ok, except_pure_ok] at h
    obtain ⟨md, hmd, rfl⟩ := h
    have hnew : 0 < newFs := by
      by_contra hcon
      have : newFs / td.md.fs ≤ 0 := div_nonpos_of_nonpos_of_nonneg (not_lt.mp hcon) hc.fs_pos.le
      have := hl.limitDen_nonpos _ this
      have := Rat.num_nonpos.mpr this
      omega
    apply Consistent.of_adjust "Resample" _ hnew hmd
    · simpa using hc.rows
    · intro row hr
      have : ∀ r ∈ td.data.map (sp.resample (sp.limitDen (newFs / td.md.fs)).num.toNat
          (sp.limitDen (newFs / td.md.fs)).den), ∀ s ∈ td.data.map (sp.resample
          (sp.limitDen (newFs / td.md.fs)).num.toNat (sp.limitDen (newFs / td.md.fs)).den),
          r.length = s.length := by
        intro r hr s hs
        simp only [List.mem_map] at hr hs
        obtain ⟨r0, hr0, rfl⟩ := hr
        obtain ⟨s0, hs0, rfl⟩ := hs
        rw [hl.resample_length _ _ _ (Rat.den_pos _), hl.resample_length _ _ _ (Rat.den_pos _),
          hrowlen r0 hr0 s0 hs0]
      exact_mod_cast shape1_eq this row hr
  | decimate m f =>
    obtain ⟨hm, hf⟩ := hv
    simp only [Proc.run, decimateProc] at h
    simp only [if_neg (by omega : ¬ f = 0), except_bind_ok, except_pure_ok] at h
    obtain ⟨data, hdata, md, hmd, rfl⟩ := h
    have hnew : (0:ℚ) < td.md.fs / f := by
      have := hc.fs_pos
      have : (0:ℚ) < f := by exact_mod_cast (by omega : 0 < f)
      positivity
    apply Consistent.of_adjust "Decimate" _ hnew hmd
    · rw [mapM_ok_length hdata]; exact hc.rows
    · intro row hr
      have hall : ∀ r ∈ data, ∀ s ∈ data, r.length = s.length := by
        intro r hr s hs
        obtain ⟨i, hi, rfl⟩ := List.mem_iff_getElem.mp hr
        obtain ⟨j, hj, rfl⟩ := List.mem_iff_getElem.mp hs
        have hlen := mapM_ok_length hdata
        have hi' : i < td.data.length := by omega
        have hj' : j < td.data.length := by omega
        exact decimateRow_length hl _ (fun g hg => ((C21_downsample_factors m f hm hf).2 g hg).1)
          _ _ _ _ (hrowlen _ (List.getElem_mem hi') _ (List.getElem_mem hj'))
          (mapM_ok_getElem hdata i hi' hi) (mapM_ok_getElem hdata j hj' hj)
      exact_mod_cast shape1_eq hall row hr
  | shift s =>
    simp only [Proc.run, shiftTimestamps] at h
    rw [if_neg hc.fs_pos.ne'] at h
    by_cases h1 : td.md.dt ≤ s
    · simp [h1, bind, Except.bind, pure, Except.pure, throw, throwThe, MonadExceptOf.throw] at h
    by_cases h2 : td.md.nSamples < 1
    · simp [h1, h2, bind, Except.bind, pure, Except.pure, throw, throwThe, MonadExceptOf.throw] at h
    rw [if_neg h1, if_neg h2] at h
    simp only [except_bind_ok, except_pure_ok] at h
    obtain ⟨data, hdata, md, hmd, rfl⟩ := h
    apply Consistent.of_adjust "ShiftTimestamps" _ hc.fs_pos hmd
    · rw [mapM_ok_length hdata]; exact hc.rows
    · intro row hr
      obtain ⟨i, hi, rfl⟩ := List.mem_iff_getElem.mp hr
      have hi' : i < td.data.length := by rw [← mapM_ok_length hdata]; exact hi
      have := mapM_ok_length (mapM_ok_getElem hdata i hi' hi)
      rw [this]
      simp [npArange]; omega
  | apply junk fncs =>
    simp only [Proc.run, applyFunction] at h
    simp only [except_bind_ok, except_pure_ok] at h
    obtain ⟨data, hdata, rfl⟩ := h
    refine ⟨hc.of_data _ _ ?_, rfl, rfl⟩
    refine foldlM_inv (fun d => List.Forall₂ (fun r r' => r'.length = r.length) td.data d) hdata ?_ ?_
    · rw [List.forall₂_iff_get]
      refine ⟨by simp, ?_⟩
      intro i h1 h2
      simp
    · intro d q d' _ hd hq
      unfold applyStep at hq
      split at hq
      · rw [except_bind_ok] at hq
        obtain ⟨row, hrow, hq⟩ := hq
        by_cases hlen : (q.2 row).length = row.length
        · cases hci : chanIndex td.md.chans q.1 with
          | none => simp [hci, hlen] at hq
          | some k =>
            simp only [hci, hlen, if_true] at hq
            injection hq with hq
            subst hq
            rw [List.forall₂_iff_get] at hd ⊢
            refine ⟨by simpa using hd.1, ?_⟩
            intro i h1 h2
            simp only [List.get_eq_getElem]
            rw [List.getElem_set]
            split
            · rename_i hki
              subst hki
              rw [hlen]
              -- the row read is a row of the input
              unfold TimeData.getChan at hrow
              rw [except_bind_ok] at hrow
              obtain ⟨-, -, hrow⟩ := hrow
              rw [hci] at hrow
              simp only [pyIndex_natCast _ _ h1] at hrow
              injection hrow with hrow
              rw [← hrow]
            · exact hd.2 i h1 (by simpa using h2)
        · simp only [hlen, if_false] at hq
          cases hq
      · injection hq with hq
        exact hq ▸ hd

/-- **C23**. After any finite chain of time processors that runs without raising, data and metadata are
consistent (one row per channel, one column per sample, last time = first time + (n-1) periods), the
channels are unchanged, and the history is the input's history followed by one record per processor. -/
theorem C23_chain_consistent (sp : SciPy) (hl : sp.Lawful) (procs : List Proc)
    (hv : ∀ p ∈ procs, p.Valid) (td out : TimeData ℚ) (hc : td.Consistent)
    (h : runTimeProcessors sp procs td = .ok out) :
    out.Consistent ∧ out.md.chans = td.md.chans ∧
      out.md.history = td.md.history ++ procs.map Proc.name := by
  induction procs generalizing td with
  | nil =>
    simp [runTimeProcessors, pure, Except.pure] at h
    subst h; exact ⟨hc, rfl, by simp⟩
  | cons p procs ih =>
    unfold runTimeProcessors at h
    rw [List.foldlM_cons, except_bind_ok] at h
    obtain ⟨t1, ht1, h⟩ := h
    obtain ⟨h1, h2, h3⟩ := Proc.run_consistent sp hl p (hv p (by simp)) td t1 hc ht1
    obtain ⟨g1, g2, g3⟩ := ih (fun q hq => hv q (by simp [hq])) t1 h1 h
    exact ⟨g1, g2.trans h2, by rw [g3, h3]; simp⟩

/-- **C23**. Consistency in terms of instants: when the sampling period of the result is kept exactly, the
last time is the instant of the last sample. -/
theorem C23_last_time {V : Type} (td : TimeData V) (hc : td.Consistent) (hp : PeriodKept td.md.fs) :
    td.md.lastTime = sampleInstant td.md.fs td.md.firstTime (td.md.nSamples - 1) := by
  rw [hc.last, hp]; unfold sampleInstant; ring

/-- a lawful instance of the external routines (keep every q-th sample, nearest-sample resampling) -/
def demoSciPy : SciPy where
  sosfilt := fun _ _ _ r => .ok r
  decimate := fun q r => .ok ((List.range ((r.length + q - 1) / q)).map fun i => (r[i * q]?).getD 0)
  resample := fun u d r => (List.range ((r.length * u + d - 1) / d)).map fun i => (r[i * d / u]?).getD 0
  limitDen := id

theorem demoSciPy_lawful : demoSciPy.Lawful where
  sosfilt_length := by intro k o w r r' h; cases h; rfl
  decimate_length := by intro q r r' _ h; cases h; simp
  resample_length := by intro u d r _; simp [demoSciPy]
  limitDen_nonpos := fun x hx => hx

/-- a chain of four processors runs on concrete data -/
example : (runTimeProcessors demoSciPy
    [.subsection 0 100, .removeMean, .multiply (.dict [("Hy", 2)]), .decimate 3 2] demoRec).map
      (fun o => (o.md.nSamples, o.md.lastTime, o.data))
    = .ok (3, 12, [[-5/2, -1/2, 3/2], [-50, -10, 30]]) := by decide +kernel

end Resistics
