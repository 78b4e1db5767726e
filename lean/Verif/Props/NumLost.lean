import Verif.Props.NumShift

/-!
# Property C80: `ShiftTimestamps` as a whole, and where the shift is lost
-/

namespace Resistics

/-! ## The shift in samples -/

theorem normShift_near {shift fs : ℚ} (hs : 0 < shift) (hfs : 0 < fs) (hmax : fs ≤ 2 ^ 1000) (hlt : shift < nearestDouble (1 / fs)) :
    0 ≤ normShift shift fs ∧ normShift shift fs ≤ 1 ∧ |normShift shift fs - shift * fs| ≤ 8 / 2 ^ 53 := by
  have ht : NumType.double.Floating := Or.inr rfl
  have hd := nearestDouble_error (1 / fs)
  have hp : 0 < 1 / fs := by positivity
  rw [abs_of_pos hp] at hd
  have htiny : (1 : ℚ) / 2 ^ 1075 ≤ 1 / fs / 2 ^ 53 := by
    rw [div_div]
    apply one_div_le_one_div_of_le (by positivity)
    calc fs * 2 ^ 53 ≤ 2 ^ 1000 * 2 ^ 53 := mul_le_mul_of_nonneg_right hmax (by positivity)
      _ = 2 ^ 1053 := by rw [← pow_add]
      _ ≤ 2 ^ 1075 := pow_le_pow_right₀ (by norm_num) (by norm_num)
  generalize hp' : nearestDouble (1 / fs) = p at *
  have hpp : 0 < p := hs.trans hlt
  have hdd : |p - 1 / fs| ≤ 2 / 2 ^ 53 * (1 / fs) := by
    refine hd.trans ?_
    have : 1 / fs / 2 ^ 53 = 1 / 2 ^ 53 * (1 / fs) := by ring
    rw [this] at htiny ⊢
    linarith
  have hq1 : shift / p < 1 := by rw [div_lt_one hpp]; exact hlt
  have hq0 : 0 < shift / p := by positivity
  have hone : Holds .double 1 := one_holds .double
  have hzero : Holds .double 0 := ⟨0, 0, by norm_num, by norm_num, by norm_num, by norm_num⟩
  have hb := ht.calc_between hzero hone hq0.le hq1.le
  have e : normShift shift fs = NumType.calc .double (shift / p) := by
    unfold normShift
    rw [hp']
    rfl
  rw [e]
  refine ⟨hb.1, hb.2, ?_⟩
  -- relative error of the quotient
  have h1 : |shift / p - shift * fs| ≤ 2 / 2 ^ 53 := by
    have e1 : shift / p - shift * fs = -(shift / p * ((p - 1 / fs) * fs)) := by
      field_simp
      ring
    rw [e1, abs_neg, abs_mul, abs_mul, abs_of_pos hq0, abs_of_pos hfs]
    have h2 : |p - 1 / fs| * fs ≤ 2 / 2 ^ 53 := by
      have := mul_le_mul_of_nonneg_right hdd hfs.le
      rw [mul_assoc, one_div_mul_cancel hfs.ne', mul_one] at this
      exact this
    have h3 : 0 ≤ |p - 1 / fs| * fs := by positivity
    calc shift / p * (|p - 1 / fs| * fs) ≤ 1 * (2 / 2 ^ 53) := mul_le_mul hq1.le h2 h3 (by norm_num)
      _ = 2 / 2 ^ 53 := one_mul _
  have h2 := nearestDouble_error (shift / p)
  rw [abs_of_pos hq0] at h2
  have h3 : (1 : ℚ) / 2 ^ 1075 ≤ 1 / 2 ^ 53 :=
    one_div_le_one_div_of_le (by positivity) (pow_le_pow_right₀ (by norm_num) (by norm_num))
  have h4 : shift / p / 2 ^ 53 ≤ 1 / 2 ^ 53 := div_le_div_of_nonneg_right hq1.le (by positivity)
  change |nearestDouble (shift / p) - shift * fs| ≤ 8 / 2 ^ 53
  calc |nearestDouble (shift / p) - shift * fs| = |(nearestDouble (shift / p) - shift / p) + (shift / p - shift * fs)| := by ring_nf
    _ ≤ |nearestDouble (shift / p) - shift / p| + |shift / p - shift * fs| := abs_add_le _ _
    _ ≤ (1 / 2 ^ 53 + 1 / 2 ^ 53) + 2 / 2 ^ 53 := by linarith
    _ ≤ 8 / 2 ^ 53 := by norm_num

/-- a successful shift, row by row -/
theorem shiftTyped_rows (outside : ℕ → ℚ → ℤ) (shift : ℚ) (d : TypedData) (hfs : 0 < d.td.md.fs) (hlt : shift < nearestDouble (1 / d.td.md.fs))
    (hne : 1 ≤ d.td.md.nSamples) (data : List (List ℚ)) (hdata : d.td.data.mapM (shiftRow outside d.type (normShift shift d.td.md.fs) d.td.md.nSamples) = .ok data) :
    ∃ out, shiftTyped outside shift d = .ok out ∧ out.type = d.type.withFloat ∧ out.td.data = data ∧ out.td.md.nSamples = d.td.md.nSamples - 1 ∧
      out.td.md.firstTime = d.td.md.firstTime + toTimedelta shift := by
  unfold shiftTyped
  simp only [if_neg hfs.ne', if_neg (not_le.2 hlt), if_neg (not_lt.2 hne), hdata, adjustTimeMetadata, pyRecip, bind, Except.bind, pure, Except.pure]
  exact ⟨_, rfl, rfl, rfl, rfl, rfl⟩

/-- **C80**. Shifting time stamps as long as the positions can be held: the result is off from the exact interpolation by a few roundings, and by
roundings that grow with the position of the sample. -/
theorem C80_shift_close (outside : ℕ → ℚ → ℤ) (shift : ℚ) (d : TypedData) (hb : ∀ b, d.type = .integer b → 1 ≤ b) (hs : 0 < shift)
    (hfs : 0 < d.td.md.fs) (hmax : d.td.md.fs ≤ 2 ^ 1000) (hlt : shift < nearestDouble (1 / d.td.md.fs)) (hne : 1 ≤ d.td.md.nSamples)
    (hlen : ∀ row ∈ d.td.data, (row.length : ℤ) = d.td.md.nSamples) (hok : ∀ row ∈ d.td.data, ∀ x ∈ row, Holds d.type.withFloat x)
    (hn : ∀ row ∈ d.td.data, row.length ≤ d.type.places) :
    ∃ out, shiftTyped outside shift d = .ok out ∧ out.type = d.type.withFloat ∧
      out.td.md.nSamples = d.td.md.nSamples - 1 ∧ out.td.md.firstTime = d.td.md.firstTime + toTimedelta shift ∧
      List.Forall₂ (fun row row' => row'.length = row.length - 1 ∧ ∀ M, (∀ y ∈ row, |y| ≤ M) → ∀ i, i + 1 < row.length →
        |row'.getD i 0 - between row i (shift * d.td.md.fs)| ≤ (2 * i + 44) * (d.type.withFloat.unit * M) + 16 * d.type.withFloat.tiny)
        d.td.data out.td.data := by
  obtain ⟨h0, h1, h2⟩ := normShift_near hs hfs hmax hlt
  have ht := withFloat_floating d.type
  obtain ⟨hu, -, -, -⟩ := ht.unit_bounds
  have hu53 : (1 : ℚ) / 2 ^ 53 ≤ d.type.withFloat.unit := by
    rcases ht with h | h <;> rw [h] <;> simp only [NumType.unit] <;> norm_num
  have hrow : ∀ row ∈ d.td.data, ∃ row', shiftRow outside d.type (normShift shift d.td.md.fs) d.td.md.nSamples row = .ok row' ∧
      row'.length = row.length - 1 ∧ ∀ M, (∀ y ∈ row, |y| ≤ M) → ∀ i, i + 1 < row.length →
        |row'.getD i 0 - between row i (shift * d.td.md.fs)| ≤ (2 * i + 44) * (d.type.withFloat.unit * M) + 16 * d.type.withFloat.tiny := by
    intro row hr
    rw [← hlen row hr]
    obtain ⟨out, ho, hl, -⟩ := shiftRow_total outside hb h0 h1 row (hok row hr) (hn row hr) ((row.map fun y => |y|).sum) (by
      intro y hy
      exact List.single_le_sum (by intro a ha; obtain ⟨z, -, rfl⟩ := List.mem_map.1 ha; exact abs_nonneg z) _ (List.mem_map.2 ⟨y, hy, rfl⟩))
    refine ⟨out, ho, hl, ?_⟩
    intro M hM i hi
    obtain ⟨out', ho', -, hd⟩ := shiftRow_total outside hb h0 h1 row (hok row hr) (hn row hr) M hM
    rw [ho, Except.ok.injEq] at ho'
    subst ho'
    have h3 := hd i hi
    have hM0 : 0 ≤ M := (abs_nonneg _).trans (hM _ (List.getElem_mem (by omega : i < row.length)))
    have ha := getD_bound hM (by omega : i < row.length)
    have hbb := getD_bound hM (by omega : i + 1 < row.length)
    have hD : |row.getD (i + 1) 0 - row.getD i 0| ≤ 2 * M := (abs_sub _ _).trans (by linarith)
    have e : between row i (normShift shift d.td.md.fs) - between row i (shift * d.td.md.fs) =
        (row.getD (i + 1) 0 - row.getD i 0) * (normShift shift d.td.md.fs - shift * d.td.md.fs) := by
      unfold between; ring
    have h5 : |between row i (normShift shift d.td.md.fs) - between row i (shift * d.td.md.fs)| ≤ 2 * M * (8 / 2 ^ 53) := by
      rw [e, abs_mul]
      exact mul_le_mul hD h2 (abs_nonneg _) (by linarith)
    have h6 : 2 * M * (8 / 2 ^ 53) ≤ 16 * (d.type.withFloat.unit * M) := by
      have := mul_le_mul_of_nonneg_right hu53 hM0
      linarith
    calc |out.getD i 0 - between row i (shift * d.td.md.fs)| = |(out.getD i 0 - between row i (normShift shift d.td.md.fs)) +
          (between row i (normShift shift d.td.md.fs) - between row i (shift * d.td.md.fs))| := by ring_nf
      _ ≤ |out.getD i 0 - between row i (normShift shift d.td.md.fs)| + |between row i (normShift shift d.td.md.fs) - between row i (shift * d.td.md.fs)| :=
        abs_add_le _ _
      _ ≤ _ := by linarith
  obtain ⟨data, hdata⟩ := mapM_exists (f := shiftRow outside d.type (normShift shift d.td.md.fs) d.td.md.nSamples) (l := d.td.data)
    (fun row hr => (hrow row hr).imp fun _ h => h.1)
  obtain ⟨out, ho, hty, hdat, hns, hft⟩ := shiftTyped_rows outside shift d hfs hlt hne data hdata
  refine ⟨out, ho, hty, hns, hft, ?_⟩
  rw [hdat]
  have hl := mapM_ok_length hdata
  refine List.forall₂_iff_get.mpr ⟨hl.symm, fun j h1 h2 => ?_⟩
  simp only [List.get_eq_getElem]
  obtain ⟨row', hr1, hr2⟩ := hrow _ (List.getElem_mem h1)
  have := mapM_ok_getElem hdata j h1 h2
  rw [hr1, Except.ok.injEq] at this
  rw [← this]
  exact hr2

/-! ## Where the shift is lost -/

theorem log_eq {x : ℚ} {g : ℕ} (h1 : 2 ^ g ≤ x) (h2 : x < 2 ^ (g + 1)) : Int.log 2 |x| = g := by
  have hx : 0 < x := lt_of_lt_of_le (by positivity) h1
  have hb := log_bounds hx
  rw [abs_of_pos hx]
  have a : (2 : ℚ) ^ Int.log 2 x < 2 ^ ((g : ℤ) + 1) := lt_of_le_of_lt hb.1 (by exact_mod_cast h2)
  have b : (2 : ℚ) ^ (g : ℤ) < 2 ^ (Int.log 2 x + 1) := lt_of_le_of_lt (by exact_mod_cast h1) hb.2
  have a := (zpow_lt_zpow_iff_right₀ (by norm_num : (1 : ℚ) < 2)).1 a
  have b := (zpow_lt_zpow_iff_right₀ (by norm_num : (1 : ℚ) < 2)).1 b
  omega

/-- between `2 ^ 23` and `2 ^ 24` the singles are the whole numbers -/
theorem nearestSingle_whole {x : ℚ} (h1 : 2 ^ 23 ≤ x) (h2 : x < 2 ^ 24) : nearestSingle x = pyRound x := by
  have hx : x ≠ 0 := by
    have : (0 : ℚ) < 2 ^ 23 := by positivity
    linarith [this, h1, show x ≤ x from le_refl x] |> fun h : 0 < x => h.ne'
  have hl := log_eq (g := 23) h1 h2
  have hg : lastBitSingle x = 0 := by
    unfold lastBitSingle
    rw [hl]
    norm_num
  rw [nearestSingle, if_neg hx, hg]
  simp

/-- between `2 ^ 24` and `2 ^ 25` the singles are the even numbers -/
theorem nearestSingle_even {x : ℚ} (h1 : 2 ^ 24 ≤ x) (h2 : x < 2 ^ 25) : nearestSingle x = pyRound (x / 2) * 2 := by
  have hx : x ≠ 0 := by
    have : (0 : ℚ) < 2 ^ 24 := by positivity
    linarith [this, h1, show x ≤ x from le_refl x] |> fun h : 0 < x => h.ne'
  have hl := log_eq (g := 24) h1 h2
  have hg : lastBitSingle x = 1 := by
    unfold lastBitSingle
    rw [hl]
    norm_num
  rw [nearestSingle, if_neg hx, hg, zpow_one]

/-- the rounded shift in samples -/
theorem shift_single {shift fs : ℚ} (hs : 0 < shift) (hfs : 0 < fs) (hmax : fs ≤ 2 ^ 1000) (hlt : shift < nearestDouble (1 / fs)) :
    (shift * fs ≤ 49 / 100 → 0 ≤ nearestSingle (normShift shift fs) ∧ nearestSingle (normShift shift fs) < 1 / 2) ∧
    (51 / 100 ≤ shift * fs → 1 / 2 < nearestSingle (normShift shift fs) ∧ nearestSingle (normShift shift fs) ≤ 1) := by
  obtain ⟨h0, h1, h2⟩ := normShift_near hs hfs hmax hlt
  have ht : NumType.single.Floating := Or.inl rfl
  have hone : Holds .single 1 := one_holds .single
  have hzero : Holds .single 0 := ⟨0, 0, by norm_num, by norm_num, by norm_num, by norm_num⟩
  have hb := ht.calc_between hzero hone h0 h1
  have he := nearestSingle_error (normShift shift fs)
  rw [abs_of_nonneg h0] at he
  rw [abs_le] at he h2
  have h3 : (8 : ℚ) / 2 ^ 53 ≤ 1 / 1000 := by norm_num
  have h4 : (1 : ℚ) / 2 ^ 150 ≤ 1 / 1000 := by norm_num
  have h5 : normShift shift fs / 2 ^ 24 ≤ 1 / 1000 := by
    have : normShift shift fs / 2 ^ 24 ≤ 1 / 2 ^ 24 := div_le_div_of_nonneg_right h1 (by positivity)
    refine this.trans (by norm_num)
  generalize normShift shift fs = σ at *
  refine ⟨fun h => ⟨hb.1, ?_⟩, fun h => ⟨?_, hb.2⟩⟩
  · linarith [he.2, h2.2]
  · linarith [he.1, h2.1]

/-- **C80** (finding). Single precision data, from sample 8388608 on: the places of the samples are whole numbers, so that the shift is not applied at all when it is less
than half a sample, and is a whole sample when it is more – while the time stamps are those of the shift asked for. -/
theorem C80_shift_lost (outside : ℕ → ℚ → ℤ) (shift : ℚ) (d : TypedData) (ht : d.type = .single) (hok : d.Ok) (hs : 0 < shift)
    (hfs : 0 < d.td.md.fs) (hmax : d.td.md.fs ≤ 2 ^ 1000) (hlt : shift < nearestDouble (1 / d.td.md.fs)) (hne : 1 ≤ d.td.md.nSamples)
    (hlen : ∀ row ∈ d.td.data, (row.length : ℤ) = d.td.md.nSamples) (hn : d.td.md.nSamples ≤ 2 ^ 24) :
    ∃ out, shiftTyped outside shift d = .ok out ∧ out.td.md.firstTime = d.td.md.firstTime + toTimedelta shift ∧
      List.Forall₂ (fun row row' => ∀ M, (∀ y ∈ row, |y| ≤ M) → ∀ i, 2 ^ 23 ≤ i → i + 1 < row.length →
        (shift * d.td.md.fs ≤ 49 / 100 → |row'.getD i 0 - row.getD i 0| ≤ 16 * (M / 2 ^ 24 + 1 / 2 ^ 150)) ∧
        (51 / 100 ≤ shift * d.td.md.fs → |row'.getD i 0 - row.getD (i + 1) 0| ≤ 16 * (M / 2 ^ 24 + 1 / 2 ^ 150)))
        d.td.data out.td.data := by
  have hb : ∀ b, d.type = .integer b → 1 ≤ b := by rw [ht]; intro b h; cases h
  have hok' : ∀ row ∈ d.td.data, ∀ x ∈ row, Holds d.type.withFloat x := by
    intro row hr x hx
    have := hok row hr x hx
    rw [ht] at this ⊢
    exact this
  have hn' : ∀ row ∈ d.td.data, row.length ≤ d.type.places := by
    intro row hr
    have := hlen row hr
    rw [ht]
    simp only [NumType.places]
    omega
  obtain ⟨out, ho, -, -, hft, hrows⟩ := C80_shift_close outside shift d hb hs hfs hmax hlt hne hlen hok' hn'
  refine ⟨out, ho, hft, ?_⟩
  -- the rows of the result
  obtain ⟨q0, q1, -⟩ := normShift_near hs hfs hmax hlt
  obtain ⟨z1, z2⟩ := shift_single hs hfs hmax hlt
  have hex : ∀ row ∈ d.td.data, ∃ row', shiftRow outside d.type (normShift shift d.td.md.fs) d.td.md.nSamples row = .ok row' := by
    intro row hr
    rw [← hlen row hr]
    obtain ⟨o, h, -⟩ := shiftRow_total outside hb q0 q1 row (hok' row hr) (hn' row hr) ((row.map fun y => |y|).sum) (by
      intro y hy
      exact List.single_le_sum (by intro a ha; obtain ⟨z, -, rfl⟩ := List.mem_map.1 ha; exact abs_nonneg z) _ (List.mem_map.2 ⟨y, hy, rfl⟩))
    exact ⟨o, h⟩
  obtain ⟨data, hdata⟩ := mapM_exists (f := shiftRow outside d.type (normShift shift d.td.md.fs) d.td.md.nSamples) (l := d.td.data) hex
  obtain ⟨out', ho', -, hdat, -, -⟩ := shiftTyped_rows outside shift d hfs hlt hne data hdata
  rw [ho, Except.ok.injEq] at ho'
  subst ho'
  rw [hdat]
  have hl := mapM_ok_length hdata
  refine List.forall₂_iff_get.mpr ⟨hl.symm, fun j h1 h2 => ?_⟩
  simp only [List.get_eq_getElem]
  have hj := mapM_ok_getElem hdata j h1 h2
  have hr := List.getElem_mem h1
  generalize d.td.data[j] = row at *
  generalize data[j] = row' at *
  intro M hM i hi hin
  rw [← hlen row hr] at hj
  obtain ⟨hl', hget⟩ := shiftRow_ok outside d.type _ row row' hj
  have hv := hget i (by omega) (by omega)
  have e : row'.getD i 0 = row'[i]'(by omega) := by simp [List.getElem?_eq_getElem (by omega : i < row'.length)]
  rw [e]
  have hwide : row.map (d.type.withFloat.cast outside) = row := by
    conv_rhs => rw [← List.map_id row]
    apply List.map_congr_left
    intro x hx
    exact cast_fixed outside (hok' row hr x hx)
  rw [widePoints_exact outside hb row (hn' row hr), hwide] at hv
  have hplace : shiftPlace outside d.type (normShift shift d.td.md.fs) i = nearestSingle (i + nearestSingle (normShift shift d.td.md.fs)) := by
    unfold shiftPlace
    rw [position_exact hb (hn' row hr) (by omega : i < row.length), cast_fixed outside (places_hold (hn' row hr) (by omega : i < row.length)).1, ht]
    rfl
  rw [hplace] at hv
  have hi24 : i + 1 < 2 ^ 24 := by
    have := hlen row hr
    omega
  have hiq : (2 : ℚ) ^ 23 ≤ i := by exact_mod_cast hi
  have hiq2 : (i : ℚ) + 1 < 2 ^ 24 := by exact_mod_cast hi24
  have hf : d.type.withFloat.Floating := withFloat_floating _
  have hone : Holds d.type.withFloat 1 := one_holds _
  have hun : d.type.withFloat.unit * M + d.type.withFloat.tiny = M / 2 ^ 24 + 1 / 2 ^ 150 := by
    rw [ht]
    simp only [NumType.withFloat, NumType.unit, NumType.tiny]
    ring
  constructor
  · intro hsmall
    obtain ⟨w0, w1⟩ := z1 hsmall
    have hp : nearestSingle ((i : ℚ) + nearestSingle (normShift shift d.td.md.fs)) = i := by
      rw [nearestSingle_whole (by linarith) (by linarith)]
      rw [pyRound_of_near (m := (i : ℤ)) (by push_cast; rw [abs_lt]; constructor <;> linarith)]
      simp
    rw [hp] at hv
    obtain ⟨v, hv', hd⟩ := segment_near hf row i hin i M (le_refl _) (by linarith) hone hM
    rw [hv, Except.ok.injEq] at hv'
    rw [← hv', hun] at hd
    simpa [between] using hd
  · intro hbig
    obtain ⟨w0, w1⟩ := z2 hbig
    have hp : nearestSingle ((i : ℚ) + nearestSingle (normShift shift d.td.md.fs)) = i + 1 := by
      rw [nearestSingle_whole (by linarith) (by linarith)]
      rw [pyRound_of_near (m := (i : ℤ) + 1) (by push_cast; rw [abs_lt]; constructor <;> linarith)]
      simp
    rw [hp] at hv
    obtain ⟨v, hv', hd⟩ := segment_near hf row i hin (i + 1) M (by linarith) (le_refl _) hone hM
    rw [hv, Except.ok.injEq] at hv'
    rw [← hv', hun] at hd
    have e2 : between row i ((i : ℚ) + 1 - i) = row.getD (i + 1) 0 := by
      unfold between
      ring
    rw [e2] at hd
    exact hd

/-! ## Beyond the positions that can be held -/

/-- even numbers up to `2 ^ 25` are singles -/
theorem even_single {m : ℕ} (h : m ≤ 2 ^ 25) (he : m % 2 = 0) : IsSingle (m : ℚ) := by
  obtain ⟨k, rfl⟩ : ∃ k, m = 2 * k := ⟨m / 2, by omega⟩
  by_cases hk : k = 2 ^ 24
  · subst hk
    exact ⟨1, 25, by norm_num, by norm_num, by norm_num, by norm_num⟩
  · refine ⟨k, 1, ?_, by norm_num, by norm_num, ?_⟩
    · rw [abs_of_nonneg (by positivity)]
      exact_mod_cast (by omega : k < 2 ^ 24)
    · push_cast
      norm_num
      ring

/-- the positions of single precision data between `2 ^ 24` and `2 ^ 25` -/
theorem position_even {i : ℕ} (h : i < 2 ^ 25) (he : i % 2 = 0) : NumType.position .single i = i :=
  nearestSingle_single (even_single h.le he)

theorem position_odd {i : ℕ} (h1 : 2 ^ 24 ≤ i) (h : i < 2 ^ 25) (ho : i % 2 = 1) :
    NumType.position .single i = ((i - 1 : ℕ) : ℚ) ∨ NumType.position .single i = ((i + 1 : ℕ) : ℚ) := by
  have hq1 : (2 : ℚ) ^ 24 ≤ i := by exact_mod_cast h1
  have hq2 : (i : ℚ) < 2 ^ 25 := by exact_mod_cast h
  have e : NumType.position .single i = pyRound ((i : ℚ) / 2) * 2 := nearestSingle_even hq1 hq2
  rw [e]
  have hn := pyRound_near ((i : ℚ) / 2)
  rw [abs_le] at hn
  obtain ⟨m, rfl⟩ : ∃ m, i = 2 * m + 1 := ⟨i / 2, by omega⟩
  push_cast at hn
  have a : (m : ℚ) ≤ pyRound (((2 * m + 1 : ℕ) : ℚ) / 2) := by push_cast; linarith [hn.1]
  have b : (pyRound (((2 * m + 1 : ℕ) : ℚ) / 2) : ℚ) ≤ m + 1 := by push_cast; linarith [hn.2]
  generalize pyRound (((2 * m + 1 : ℕ) : ℚ) / 2) = k at *
  have a : (m : ℤ) ≤ k := by exact_mod_cast a
  have b : k ≤ m + 1 := by exact_mod_cast b
  rcases (by omega : k = m ∨ k = m + 1) with rfl | rfl
  · left
    rw [Nat.add_sub_cancel]
    push_cast
    ring
  · right
    push_cast
    ring

/-- **C80** (finding). Single precision data with more than 16777216 samples: from there on every other sample of the shifted data is a repetition of
one of its neighbours, whatever the data and the shift. -/
theorem C80_shift_repeats (outside : ℕ → ℚ → ℤ) (shift : ℚ) (d out : TypedData) (ht : d.type = .single) (h : shiftTyped outside shift d = .ok out)
    (hlen : ∀ row ∈ d.td.data, (row.length : ℤ) = d.td.md.nSamples) (row : List ℚ) (hrow : row ∈ out.td.data) (i : ℕ) (h1 : 2 ^ 24 ≤ i) (h2 : i < 2 ^ 25)
    (ho : i % 2 = 1) (hi : i + 1 < row.length) : row[i]? = row[i - 1]? ∨ row[i]? = row[i + 1]? := by
  -- the row it comes from
  have hrows : ∃ data, d.td.data.mapM (shiftRow outside d.type (normShift shift d.td.md.fs) d.td.md.nSamples) = .ok data ∧ out.td.data = data := by
    unfold shiftTyped at h
    simp only [bind, Except.bind, pure, Except.pure, throw, throwThe, MonadExceptOf.throw] at h
    split at h
    · cases h
    split at h
    · cases h
    split at h
    · cases h
    split at h
    · cases h
    · next data hd =>
      split at h
      · cases h
      simp only [Except.ok.injEq] at h
      exact ⟨data, hd, by rw [← h]; rfl⟩
  obtain ⟨data, hdata, hout⟩ := hrows
  rw [hout] at hrow
  obtain ⟨j, hj, rfl⟩ := List.mem_iff_getElem.mp hrow
  have hl := mapM_ok_length hdata
  have hg := mapM_ok_getElem hdata j (by omega) hj
  have hr := List.getElem_mem (by omega : j < d.td.data.length)
  generalize d.td.data[j] = src at *
  rw [← hlen src hr] at hg
  obtain ⟨hl', hget⟩ := shiftRow_ok outside d.type _ src _ hg
  have hplace : ∀ a b : ℕ, NumType.position .single a = NumType.position .single b →
      shiftPlace outside d.type (normShift shift d.td.md.fs) a = shiftPlace outside d.type (normShift shift d.td.md.fs) b := by
    intro a b hab
    unfold shiftPlace
    rw [ht, hab]
  have same : ∀ k, k < data[j].length → NumType.position .single i = NumType.position .single k → data[j][i]? = data[j][k]? := by
    intro k hk hp
    have g1 := hget i (by omega) (by omega)
    have g2 := hget k (by omega) hk
    rw [hplace i k hp, g2, Except.ok.injEq] at g1
    rw [List.getElem?_eq_getElem (by omega), List.getElem?_eq_getElem hk, g1]
  rcases position_odd h1 h2 ho with hp | hp
  · left
    refine same (i - 1) (by omega) ?_
    rw [hp, position_even (by omega) (by omega)]
  · by_cases hlast : i + 1 < 2 ^ 25
    · right
      refine same (i + 1) hi ?_
      rw [hp, position_even hlast (by omega)]
    · right
      refine same (i + 1) hi ?_
      have : i + 1 = 2 ^ 25 := by omega
      rw [hp, this]
      have hs : IsSingle ((2 ^ 25 : ℕ) : ℚ) := ⟨1, 25, by norm_num, by norm_num, by norm_num, by norm_num⟩
      exact (nearestSingle_single hs).symm

/-- positions of single precision data do not go back -/
theorem position_mono {i j : ℕ} (hij : i < j) (hj : j < 2 ^ 25) : NumType.position .single i ≤ NumType.position .single j ∧
    (NumType.position .single i = NumType.position .single j ∨ NumType.position .single i + 1 ≤ NumType.position .single j) := by
  have exactBelow : ∀ k : ℕ, k ≤ 2 ^ 24 → NumType.position .single k = k := fun k hk => nearestSingle_single (single_nat hk)
  have cases3 : ∀ k : ℕ, k < 2 ^ 25 → ∃ m : ℕ, NumType.position .single k = (m : ℚ) ∧ ((m = k ∧ (k ≤ 2 ^ 24 ∨ k % 2 = 0)) ∨ (k % 2 = 1 ∧ 2 ^ 24 ≤ k ∧ (m = k - 1 ∨ m = k + 1))) := by
    intro k hk
    by_cases h1 : k ≤ 2 ^ 24
    · exact ⟨k, exactBelow k h1, Or.inl ⟨rfl, Or.inl h1⟩⟩
    by_cases he : k % 2 = 0
    · exact ⟨k, position_even hk he, Or.inl ⟨rfl, Or.inr he⟩⟩
    · rcases position_odd (by omega) hk (by omega) with h | h
      · exact ⟨k - 1, h, Or.inr ⟨by omega, by omega, Or.inl rfl⟩⟩
      · exact ⟨k + 1, h, Or.inr ⟨by omega, by omega, Or.inr rfl⟩⟩
  obtain ⟨a, ha, ha'⟩ := cases3 i (by omega)
  obtain ⟨b, hb, hb'⟩ := cases3 j hj
  have hab : a ≤ b := by omega
  rw [ha, hb]
  refine ⟨by exact_mod_cast hab, ?_⟩
  rcases Nat.lt_or_ge a b with h | h
  · right
    exact_mod_cast h
  · left
    exact_mod_cast le_antisymm hab h

/-- shifting less than half a sample works for all single precision data with less than `2 ^ 25` samples, so that the repetitions do occur -/
theorem C80_shift_repeats_occurs (outside : ℕ → ℚ → ℤ) (shift : ℚ) (d : TypedData) (ht : d.type = .single) (hs : 0 < shift)
    (hfs : 0 < d.td.md.fs) (hmax : d.td.md.fs ≤ 2 ^ 1000) (hsmall : shift * d.td.md.fs ≤ 49 / 100) (hlt : shift < nearestDouble (1 / d.td.md.fs))
    (hne : 1 ≤ d.td.md.nSamples) (hlen : ∀ row ∈ d.td.data, (row.length : ℤ) = d.td.md.nSamples) (hn : d.td.md.nSamples < 2 ^ 25) :
    ∃ out, shiftTyped outside shift d = .ok out := by
  obtain ⟨w0, w1⟩ := (shift_single hs hfs hmax hlt).1 hsmall
  clear hmax
  have hex : ∀ row ∈ d.td.data, ∃ row', shiftRow outside d.type (normShift shift d.td.md.fs) d.td.md.nSamples row = .ok row' := by
    intro row hr
    unfold shiftRow
    rw [if_pos (hlen row hr)]
    apply mapM_exists
    intro i hi
    rw [List.mem_range] at hi
    have hln := hlen row hr
    have hsort : shiftPoints d.type row = row.zipIdx.map fun (p : ℚ × ℕ) => (d.type.position p.2, p.1) := by
      unfold shiftPoints
      apply List.Pairwise.insertionSort_eq
      rw [List.pairwise_map, List.pairwise_iff_getElem]
      intro a b ha hb hab
      simp only [List.getElem_zipIdx, zero_add, ht]
      simp only [List.length_zipIdx] at hb
      exact (position_mono hab (by omega)).1
    have hpos : ∀ k, d.type.withFloat.cast outside (d.type.position k) = d.type.position k ∨ 2 ^ 25 ≤ k := by
      intro k
      by_cases hk : k < 2 ^ 25
      · left
        rw [ht]
        apply cast_fixed
        have h3 : |NumType.position .single k| ≤ maxSingle := by
          have e := nearestSingle_error (k : ℚ)
          have hkq : (k : ℚ) < 2 ^ 25 := by exact_mod_cast hk
          have hk0 : (0 : ℚ) ≤ k := by positivity
          have h4 : |nearestSingle (k : ℚ)| ≤ 2 ^ 26 := by
            rw [abs_le] at e ⊢
            rw [abs_of_nonneg hk0] at e
            have : (k : ℚ) / 2 ^ 24 ≤ 2 := by rw [div_le_iff₀ (by positivity)]; linarith
            have : (1 : ℚ) / 2 ^ 150 ≤ 1 := by norm_num
            constructor <;> linarith [e.1, e.2]
          refine h4.trans ?_
          unfold maxSingle
          norm_num
        exact nearestSingle_isSingle h3
      · right; omega
    rw [hsort]
    unfold interpPoints
    rw [if_neg]
    · exact ⟨_, rfl⟩
    have hi2 : i + 1 < row.length := by omega
    have hne' : row ≠ [] := by rintro rfl; simp at hi2
    have hhead : ((((row.zipIdx.map fun (p : ℚ × ℕ) => (d.type.position p.2, p.1)).map fun p =>
        (d.type.withFloat.cast outside p.1, d.type.withFloat.cast outside p.2)).headD (0, 0)).1) = 0 := by
      rw [List.headD_eq_head?_getD, List.head?_eq_getElem?]
      simp only [List.getElem?_map, List.getElem?_zipIdx]
      rw [List.getElem?_eq_getElem (by omega : 0 < row.length)]
      simp only [Option.map_some, Option.getD_some, zero_add]
      rw [(hpos 0).resolve_right (by norm_num), ht]
      simp [NumType.position, NumType.calc, nearestSingle]
    have hlast : ((((row.zipIdx.map fun (p : ℚ × ℕ) => (d.type.position p.2, p.1)).map fun p =>
        (d.type.withFloat.cast outside p.1, d.type.withFloat.cast outside p.2)).getLastD (0, 0)).1) = d.type.position (row.length - 1) := by
      rw [List.getLastD_eq_getLast?, List.getLast?_eq_getElem?]
      simp only [List.length_map, List.length_zipIdx, List.getElem?_map, List.getElem?_zipIdx]
      rw [List.getElem?_eq_getElem (by omega : row.length - 1 < row.length)]
      simp only [Option.map_some, Option.getD_some, zero_add]
      exact (hpos _).resolve_right (by omega)
    rw [hhead, hlast]
    have hplace : shiftPlace outside d.type (normShift shift d.td.md.fs) i = nearestSingle (NumType.position .single i + nearestSingle (normShift shift d.td.md.fs)) := by
      unfold shiftPlace
      rw [(hpos i).resolve_right (by omega), ht]
      rfl
    rw [hplace, ht]
    have hf : NumType.single.Floating := Or.inl rfl
    have hz : Holds .single 0 := ⟨0, 0, by norm_num, by norm_num, by norm_num, by norm_num⟩
    have hholds : ∀ k, k < 2 ^ 25 → Holds .single (NumType.position .single k) := by
      intro k hk
      by_cases h1 : k ≤ 2 ^ 24
      · rw [show NumType.position .single k = k from nearestSingle_single (single_nat h1)]
        exact single_nat h1
      by_cases he : k % 2 = 0
      · rw [position_even hk he]
        exact even_single hk.le he
      · rcases position_odd (by omega) hk (by omega) with h | h
        · rw [h]; exact even_single (by omega) (by omega)
        · rw [h]; exact even_single (by omega) (by omega)
    have hpi : 0 ≤ NumType.position .single i := by
      rcases Nat.eq_zero_or_pos i with h0 | h0
      · subst h0; simp [NumType.position, NumType.calc, nearestSingle]
      · have := (position_mono h0 (by omega : i < 2 ^ 25)).1
        have e : NumType.position .single 0 = 0 := by simp [NumType.position, NumType.calc, nearestSingle]
        rwa [e] at this
    obtain ⟨hm1, hm2⟩ := position_mono (by omega : i < row.length - 1) (by omega)
    rcases hm2 with heq | hlt'
    · -- the place is the position itself
      have hbig : 2 ^ 24 ≤ i := by
        by_contra hc
        have e1 : NumType.position .single i = i := nearestSingle_single (single_nat (by omega))
        by_cases h5 : row.length - 1 ≤ 2 ^ 24
        · have e2 : NumType.position .single (row.length - 1) = ((row.length - 1 : ℕ) : ℚ) := nearestSingle_single (single_nat h5)
          rw [e1, e2] at heq
          have : i = row.length - 1 := by exact_mod_cast heq
          omega
        · have := (position_mono (by omega : 2 ^ 24 < row.length - 1) (by omega)).1
          have e2 : NumType.position .single (2 ^ 24) = ((2 ^ 24 : ℕ) : ℚ) := nearestSingle_single (single_nat (le_refl _))
          rw [e2, ← heq, e1] at this
          have : 2 ^ 24 ≤ i := by exact_mod_cast this
          omega
      have hev : ∃ m : ℕ, 2 ^ 23 ≤ m ∧ m < 2 ^ 24 ∧ NumType.position .single i = ((2 * m : ℕ) : ℚ) := by
        by_cases he : i % 2 = 0
        · exact ⟨i / 2, by omega, by omega, by rw [position_even (by omega) he]; congr 1; omega⟩
        · rcases position_odd hbig (by omega) (by omega) with h | h
          · exact ⟨(i - 1) / 2, by omega, by omega, by rw [h]; congr 1; omega⟩
          · exact ⟨(i + 1) / 2, by omega, by omega, by rw [h]; congr 1; omega⟩
      obtain ⟨m, hm1, hm2, hm⟩ := hev
      have hr : nearestSingle (NumType.position .single i + nearestSingle (normShift shift d.td.md.fs)) = NumType.position .single i := by
        rw [hm]
        have a1 : (2 : ℚ) ^ 23 ≤ m := by exact_mod_cast hm1
        have a2 : (m : ℚ) + 1 ≤ 2 ^ 24 := by exact_mod_cast hm2
        push_cast
        rw [nearestSingle_even (by linarith) (by linarith), pyRound_of_near (m := (m : ℤ)) (by push_cast; rw [abs_lt]; constructor <;> linarith)]
        push_cast
        ring
      rw [hr]
      rintro (h | h) <;> linarith
    · have hb := hf.calc_between hz (hholds (row.length - 1) (by omega)) (x := NumType.position .single i + nearestSingle (normShift shift d.td.md.fs))
        (by linarith) (by linarith)
      change ¬ (NumType.calc .single _ < 0 ∨ NumType.position .single (row.length - 1) < NumType.calc .single _)
      rintro (h | h) <;> linarith [hb.1, hb.2]
  obtain ⟨data, hdata⟩ := mapM_exists (f := shiftRow outside d.type (normShift shift d.td.md.fs) d.td.md.nSamples) (l := d.td.data) hex
  obtain ⟨out, ho, -⟩ := shiftTyped_rows outside shift d hfs hlt hne data hdata
  exact ⟨out, ho⟩

/-- **C80** (finding). Integer data with more samples than the largest integer of the type cannot be shifted at all: the positions wrap around, and the
call fails with `ValueError`. -/
theorem C80_shift_integer_refused (outside : ℕ → ℚ → ℤ) (shift : ℚ) (d : TypedData) (b : ℕ) (hb : 1 ≤ b) (hb2 : b ≤ 32) (ht : d.type = .integer b)
    (hs : 0 < shift) (hfs : 0 < d.td.md.fs) (hmax : d.td.md.fs ≤ 2 ^ 1000) (hbig : 1 / 2 ^ 20 ≤ shift * d.td.md.fs) (hlt : shift < nearestDouble (1 / d.td.md.fs))
    (hn : 2 ^ (b - 1) < d.td.md.nSamples) (hne : d.td.data ≠ []) : shiftTyped outside shift d = .error .value := by
  have hf : NumType.double.Floating := Or.inr rfl
  obtain ⟨q0, q1, q2⟩ := normShift_near hs hfs hmax hlt
  clear hmax
  have hp1 : (1 : ℤ) ≤ 2 ^ (b - 1) := one_le_pow₀ (by norm_num)
  have hpb : (2 : ℕ) ^ (b - 1) ≤ 2 ^ 31 := Nat.pow_le_pow_right (by norm_num) (by omega)
  have hrow : ∀ row, shiftRow outside d.type (normShift shift d.td.md.fs) d.td.md.nSamples row = .error .value := by
    intro row
    unfold shiftRow
    split_ifs with hl
    · have hbad : ∃ e, interpPoints d.type.withFloat ((shiftPoints d.type row).map fun p => (d.type.withFloat.cast outside p.1, d.type.withFloat.cast outside p.2))
          (shiftPlace outside d.type (normShift shift d.td.md.fs) (2 ^ (b - 1) - 1)) = .error e := by
        unfold interpPoints
        rw [if_pos]
        · exact ⟨_, rfl⟩
        right
        -- the last point
        have hlast : (((shiftPoints d.type row).map fun p => (d.type.withFloat.cast outside p.1, d.type.withFloat.cast outside p.2)).getLastD (0, 0)).1
            ≤ ((2 ^ (b - 1) - 1 : ℕ) : ℚ) := by
          have hmem : ∀ q ∈ (shiftPoints d.type row).map (fun p => (d.type.withFloat.cast outside p.1, d.type.withFloat.cast outside p.2)),
              q.1 ≤ ((2 ^ (b - 1) - 1 : ℕ) : ℚ) := by
            intro q hq
            obtain ⟨p, hp, rfl⟩ := List.mem_map.1 hq
            unfold shiftPoints at hp
            rw [List.mem_insertionSort] at hp
            obtain ⟨⟨y, i⟩, -, rfl⟩ := List.mem_map.1 hp
            simp only [NumType.position, ht]
            obtain ⟨k, hk, k1, k2⟩ := calc_integer_holds b hb (i : ℚ)
            rw [hk]
            have hkd : Holds NumType.double (k : ℚ) := by
              refine ⟨k, 0, ?_, by norm_num, by norm_num, by simp⟩
              have : (2 : ℤ) ^ (b - 1) ≤ 2 ^ 31 := by exact_mod_cast hpb
              rw [abs_lt]
              constructor <;> omega
            simp only [NumType.withFloat]
            rw [cast_fixed outside hkd]
            have h3 : k ≤ ((2 ^ (b - 1) - 1 : ℕ) : ℤ) := by
              rw [Nat.cast_sub Nat.one_le_two_pow]
              push_cast
              omega
            exact_mod_cast h3
          rw [List.getLastD_eq_getLast?]
          cases hgl : ((shiftPoints d.type row).map fun p => (d.type.withFloat.cast outside p.1, d.type.withFloat.cast outside p.2)).getLast? with
          | none => simp only [Option.getD_none]; positivity
          | some q => exact hmem q (List.mem_of_getLast? hgl)
        refine lt_of_le_of_lt hlast ?_
        -- the place
        set N := 2 ^ (b - 1) - 1 with hN
        have hNp : N < 2 ^ (b - 1) := by
          have : 1 ≤ 2 ^ (b - 1) := Nat.one_le_two_pow
          omega
        have hpos : NumType.position (.integer b) N = N := by
          unfold NumType.position
          refine calc_fixed ⟨N, by simp, ?_, ?_⟩ (by rintro b' h; cases h; exact hb)
          · have : (0 : ℤ) ≤ N := by positivity
            omega
          · exact_mod_cast hNp
        have hNd : Holds NumType.double (N : ℚ) := double_nat (by omega)
        unfold shiftPlace
        rw [ht, hpos]
        simp only [NumType.withFloat]
        rw [cast_fixed outside hNd, hf.cast_eq]
        -- the shift is at least half of 2^-20
        have hσ : 1 / 2 ^ 21 ≤ normShift shift d.td.md.fs := by
          rw [abs_le] at q2
          have : (8 : ℚ) / 2 ^ 53 ≤ 1 / 2 ^ 21 := by norm_num
          have h5 : (1 : ℚ) / 2 ^ 20 = 1 / 2 ^ 21 + 1 / 2 ^ 21 := by norm_num
          linarith [q2.1]
        have hh : Holds NumType.double (1 / 2 ^ 21) := ⟨1, -21, by norm_num, by norm_num, by norm_num, by norm_num⟩
        have hone : Holds NumType.double 1 := one_holds .double
        have hσ' := (hf.calc_between hh hone hσ q1).1
        have hNh : Holds NumType.double ((N : ℚ) + 1 / 2 ^ 21) := by
          refine ⟨N * 2 ^ 21 + 1, -21, ?_, by norm_num, by norm_num, ?_⟩
          · rw [abs_of_nonneg (by positivity)]
            have : N * 2 ^ 21 + 1 < 2 ^ 53 := by omega
            exact_mod_cast this
          · push_cast
            rw [zpow_neg, show (21 : ℤ) = ((21 : ℕ) : ℤ) from rfl, zpow_natCast]
            field_simp
            norm_num
        have hN2 : Holds NumType.double ((N : ℚ) + 1) := by
          have := double_nat (n := N + 1) (by omega)
          push_cast at this
          exact this
        have hle1 : NumType.calc .double (normShift shift d.td.md.fs) ≤ 1 := (hf.calc_between hh hone hσ q1).2
        have := (hf.calc_between hNh hN2 (x := (N : ℚ) + NumType.calc .double (normShift shift d.td.md.fs)) (by linarith) (by linarith)).1
        have hpos' : (0 : ℚ) < 1 / 2 ^ 21 := by positivity
        linarith
      cases hm : (List.range (d.td.md.nSamples - 1).toNat).mapM fun i =>
          interpPoints d.type.withFloat ((shiftPoints d.type row).map fun p => (d.type.withFloat.cast outside p.1, d.type.withFloat.cast outside p.2))
            (shiftPlace outside d.type (normShift shift d.td.md.fs) i) with
      | ok out =>
        exfalso
        obtain ⟨e, he⟩ := hbad
        have hlen := mapM_ok_length hm
        rw [List.length_range] at hlen
        have hidx : 2 ^ (b - 1) - 1 < (d.td.md.nSamples - 1).toNat := by
          have h1 : ((2 ^ (b - 1) : ℕ) : ℤ) < d.td.md.nSamples := by push_cast; exact hn
          have h2 : 1 ≤ 2 ^ (b - 1) := Nat.one_le_two_pow
          omega
        have := mapM_ok_getElem hm (2 ^ (b - 1) - 1) (by rw [List.length_range]; exact hidx) (by omega)
        rw [List.getElem_range, he] at this
        cases this
      | error e =>
        obtain ⟨i, -, hi⟩ := mapM_error hm
        unfold interpPoints at hi
        split_ifs at hi
        · cases hi; rfl
    · rfl
  unfold shiftTyped
  have hm : d.td.data.mapM (shiftRow outside d.type (normShift shift d.td.md.fs) d.td.md.nSamples) = .error .value := by
    cases hc : d.td.data.mapM (shiftRow outside d.type (normShift shift d.td.md.fs) d.td.md.nSamples) with
    | error e =>
      obtain ⟨r, -, hr⟩ := mapM_error hc
      rw [hrow r] at hr
      cases hr
      rfl
    | ok l =>
      cases hd : d.td.data with
      | nil => exact absurd hd hne
      | cons r rs =>
        rw [hd] at hc
        have := mapM_ok_getElem hc 0 (by simp) (by have := mapM_ok_length hc; simp at this; omega)
        rw [hrow] at this
        cases this
  simp only [if_neg hfs.ne', if_neg (not_le.2 hlt), if_neg (by omega : ¬ d.td.md.nSamples < 1), hm, bind, Except.bind]

end Resistics
