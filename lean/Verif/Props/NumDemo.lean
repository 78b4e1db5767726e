import Verif.Props.NumLost

/-!
# Property C80: concrete data
-/

namespace Resistics

/-- Counts of a digitiser: integers of 32 bits. -/
def countsDemo : TypedData where
  type := .integer 32
  td := { md := { fs := 128, chans := ["Ex", "Hy"], nSamples := 4, firstTime := 0, lastTime := 3 / 128 }, data := [[1500, -2500, 3999, 7], [10, 20, 30, 40]] }

theorem countsDemo_ok : countsDemo.Ok := by
  intro row hr x hx
  simp only [countsDemo, List.mem_cons, List.not_mem_nil, or_false] at hr
  rcases hr with rfl | rfl <;> simp only [List.mem_cons, List.not_mem_nil, or_false] at hx <;> rcases hx with rfl | rfl | rfl | rfl
  · exact ⟨1500, by norm_num, by norm_num, by norm_num⟩
  · exact ⟨-2500, by norm_num, by norm_num, by norm_num⟩
  · exact ⟨3999, by norm_num, by norm_num, by norm_num⟩
  · exact ⟨7, by norm_num, by norm_num, by norm_num⟩
  · exact ⟨10, by norm_num, by norm_num, by norm_num⟩
  · exact ⟨20, by norm_num, by norm_num, by norm_num⟩
  · exact ⟨30, by norm_num, by norm_num, by norm_num⟩
  · exact ⟨40, by norm_num, by norm_num, by norm_num⟩

/-- the hypotheses of `C80_integer_factor_erases` and `C80_integer_scalar` -/
example : countsDemo.type = .integer 32 ∧ countsDemo.td.data.length = countsDemo.td.md.chans.length ∧ countsDemo.td.md.chans.Nodup ∧
    ([("Ex", (1 / 1000 : ℚ))] : List (String × ℚ)).lookup "Ex" = some (1 / 1000) ∧ |(1 / 1000 : ℚ)| < 1 := by
  refine ⟨rfl, rfl, by decide, by decide +kernel, by norm_num [abs_lt]⟩

/-- What becomes of numbers outside the range of the integers: there are none in these examples. -/
def noneOutside : ℕ → ℚ → ℤ := fun _ _ => 0

theorem four_small : (4 : ℚ) ≤ 2 ^ 1000 :=
  (by norm_num : (4 : ℚ) ≤ 2 ^ 2).trans (pow_le_pow_right₀ (by norm_num) (by norm_num))

/-- **C80** (finding). The same factor gives different results as one number for all channels and as a factor for each channel: counts scaled by a half
are right in the first case and zero in the second. -/
theorem C80_scalar_and_dict_differ :
    (multiplyTyped noneOutside (.scalar (1 / 2)) countsDemo).td.data = [[750, -1250, 3999 / 2, 7 / 2], [5, 10, 15, 20]] ∧
    (multiplyTyped noneOutside (.dict [("Ex", 1 / 2), ("Hy", 1 / 2)]) countsDemo).td.data = [[0, 0, 0, 0], [0, 0, 0, 0]] ∧
    (addTyped noneOutside (.dict [("Ex", 3 / 2)]) countsDemo).td.data = [[1501, -2499, 4000, 8], [10, 20, 30, 40]] := by
  refine ⟨?_, ?_, ?_⟩
  · decide +kernel
  · decide +kernel
  · decide +kernel

/-- **C80** (setting a channel). A row of another number type is refused, whatever its numbers; a row of the type of the data is stored without a change, and the type,
the metadata and the other channels stay. -/
theorem C80_set_chan (d : TypedData) (hrows : d.td.data.length = d.td.md.chans.length) (hnd : d.td.md.chans.Nodup) (c : String) (t : NumType) (row : List ℚ) :
    (c ∉ d.td.md.chans → setChanTyped d c t row = .error .chanNotFound) ∧
    (c ∈ d.td.md.chans → (row.length : ℤ) ≠ d.td.md.nSamples ∨ t ≠ d.type → setChanTyped d c t row = .error .value) ∧
    (c ∈ d.td.md.chans → (row.length : ℤ) = d.td.md.nSamples → t = d.type → ∃ out, setChanTyped d c t row = .ok out ∧
      out.type = d.type ∧ out.td.md = d.td.md ∧ out.td.getChan c = .ok row ∧ ∀ c', c' ≠ c → out.td.getChan c' = d.td.getChan c') := by
  obtain ⟨-, -, h3⟩ := C49_set_chan d.td hrows hnd c row
  refine ⟨?_, ?_, ?_⟩
  · intro hc
    simp [setChanTyped, checkChan, hc, bind, Except.bind]
  · intro hc h
    by_cases hl : (row.length : ℤ) = d.td.md.nSamples
    · have ht : t ≠ d.type := by tauto
      simp [setChanTyped, checkChan, hc, bind, Except.bind, hl, ht, throw, throwThe, MonadExceptOf.throw]
    · simp [setChanTyped, checkChan, hc, bind, Except.bind, hl, throw, throwThe, MonadExceptOf.throw]
  · intro hc hl ht
    obtain ⟨out, h1, h2, h3, h4⟩ := h3 hc hl
    refine ⟨⟨d.type, out⟩, ?_, rfl, h2, h3, h4⟩
    simp [setChanTyped, checkChan, hc, bind, Except.bind, hl, ht, h1, pure, Except.pure]

/-- **C80** (finding). A channel cannot be taken from data of integers and set again after a processor that makes them doubles, such as removing the mean,
multiplying with one number or shifting: the row is refused. -/
theorem C80_set_chan_widened (outside : ℕ → ℚ → ℤ) (order : ℕ → SumTree) (sp : SciPy) (p : Proc) (hp : widensIntegers p = true) (d out : TypedData)
    (h : p.runTyped outside order sp d = .ok out) (b : ℕ) (ht : d.type = .integer b) (c : String) (hc : c ∈ out.td.md.chans) (row : List ℚ) :
    setChanTyped out c d.type row = .error .value := by
  have := C80_integer_type outside order sp p d out h b ht
  rw [if_pos hp] at this
  have hne : d.type ≠ out.type := by rw [this, ht]; simp
  by_cases hl : (row.length : ℤ) = out.td.md.nSamples
  · simp [setChanTyped, checkChan, hc, bind, Except.bind, hl, hne, throw, throwThe, MonadExceptOf.throw]
  · simp [setChanTyped, checkChan, hc, bind, Except.bind, hl, throw, throwThe, MonadExceptOf.throw]

example : (setChanTyped countsDemo "Ex" (.integer 32) [1, 2, 3, 4]).map (fun d => (d.type, d.td.data)) = .ok (.integer 32, [[1, 2, 3, 4], [10, 20, 30, 40]]) ∧
    (setChanTyped countsDemo "Ex" (.integer 64) [1, 2, 3, 4]).map (fun d => (d.type, d.td.data)) = .error .value ∧
    (setChanTyped (multiplyTyped noneOutside (.scalar (1 / 2)) countsDemo) "Ex" (.integer 32) [1, 2, 3, 4]).map (fun d => (d.type, d.td.data)) = .error .value := by
  decide +kernel

/-- A long record in single precision. -/
def longRecord (n : ℕ) : TypedData where
  type := .single
  td := { md := { fs := 4, chans := ["Ex"], nSamples := n, firstTime := 0, lastTime := (n - 1) / 4 }, data := [List.replicate n 3] }

theorem longRecord_ok (n : ℕ) : (longRecord n).Ok := by
  intro row hr x hx
  simp only [longRecord, List.mem_cons, List.not_mem_nil, or_false] at hr
  subst hr
  rw [List.eq_of_mem_replicate hx]
  exact ⟨3, 0, by norm_num, by norm_num, by norm_num, by norm_num⟩

theorem quarter_double : nearestDouble (1 / 4) = 1 / 4 := nearestDouble_double ⟨1, -2, by norm_num, by norm_num, by norm_num, by norm_num⟩

/-- the hypotheses of `C80_shift_lost` are met by a record of `2 ^ 24` samples at 4 Hz and a shift of 0.1 s -/
example (outside : ℕ → ℚ → ℤ) : ∃ out, shiftTyped outside (1 / 10) (longRecord (2 ^ 24)) = .ok out := by
  have h4 : (longRecord (2 ^ 24)).td.md.fs = 4 := rfl
  have hlt : (1 / 10 : ℚ) < nearestDouble (1 / (longRecord (2 ^ 24)).td.md.fs) := by
    rw [h4, quarter_double]; norm_num
  obtain ⟨out, h, -⟩ := C80_shift_lost outside (1 / 10) (longRecord (2 ^ 24)) rfl (longRecord_ok _) (by norm_num) (by rw [h4]; norm_num)
    (by rw [h4]; exact four_small) hlt (by show (1 : ℤ) ≤ ((2 ^ 24 : ℕ) : ℤ); norm_num)
    (by intro row hr; simp only [longRecord, List.mem_cons, List.not_mem_nil, or_false] at hr; subst hr; exact congrArg _ List.length_replicate)
    (by show ((2 ^ 24 : ℕ) : ℤ) ≤ 2 ^ 24; norm_num)
  exact ⟨out, h⟩

/-- and those of `C80_shift_repeats` by one of twenty million samples -/
example (outside : ℕ → ℚ → ℤ) : ∃ out, shiftTyped outside (1 / 10) (longRecord 20000000) = .ok out := by
  have h4 : (longRecord 20000000).td.md.fs = 4 := rfl
  have hlt : (1 / 10 : ℚ) < nearestDouble (1 / (longRecord 20000000).td.md.fs) := by
    rw [h4, quarter_double]; norm_num
  exact C80_shift_repeats_occurs outside (1 / 10) (longRecord 20000000) rfl (by norm_num) (by rw [h4]; norm_num) (by rw [h4]; exact four_small)
    (by rw [h4]; norm_num) hlt (by show (1 : ℤ) ≤ ((20000000 : ℕ) : ℤ); norm_num)
    (by intro row hr; simp only [longRecord, List.mem_cons, List.not_mem_nil, or_false] at hr; subst hr; exact congrArg _ List.length_replicate)
    (by show ((20000000 : ℕ) : ℤ) < 2 ^ 25; norm_num)

/-- A long record of integers of 16 bits. -/
def longCounts : TypedData where
  type := .integer 16
  td := { md := { fs := 4, chans := ["Ex"], nSamples := 40000, firstTime := 0, lastTime := 39999 / 4 }, data := [List.replicate 40000 3] }

/-- The hypotheses of `C80_shift_integer_refused`. -/
example (outside : ℕ → ℚ → ℤ) : shiftTyped outside (1 / 10) longCounts = .error .value := by
  have h4 : longCounts.td.md.fs = 4 := rfl
  exact C80_shift_integer_refused outside (1 / 10) longCounts 16 (by norm_num) (by norm_num) rfl (by norm_num) (by rw [h4]; norm_num)
    (by rw [h4]; exact four_small) (by rw [h4]; norm_num) (by rw [h4, quarter_double]; norm_num) (by show (2 : ℤ) ^ 15 < 40000; norm_num) (List.cons_ne_nil _ _)

/-- Pairwise summation of a row of four: the hypotheses of `C80_mean_close` and `C80_mean_left`. -/
example : (SumTree.add (.add (.one 0) (.one 1)) (.add (.one 2) (.one 3))).Covers 4 ∧
    (SumTree.add (.add (.one 0) (.one 1)) (.add (.one 2) (.one 3))).height + 4 ≤ 2 ^ 20 := by
  constructor
  · show List.Perm [0, 1, 2, 3] (List.range 4)
    exact List.Perm.refl _
  · decide

/-- a third in single precision, minus its mean, in pairwise order -/
example : removeMeanRow noneOutside (fun _ => .add (.add (.one 0) (.one 1)) (.add (.one 2) (.one 3))) .single [1, 2, 4, 6] =
    [-9 / 4, -5 / 4, 3 / 4, 11 / 4] := by
  decide +kernel

/-- the middle of a window is all that is left of counts that are not detrended -/
example : windowTyped noneOutside (detrendType (.integer 32) .none) [0, 1 / 2, 1, 1 / 2] [1500, -2500, 3999, 7] = [0, 0, 3999, 0] := by
  decide +kernel

end Resistics
