import Verif.Model.NumTypes
import Verif.Lemmas.Single
import Verif.Props.TimePoint
import Verif.Props.TimeProc

/-!
# Property C80: the number types of samples
-/

namespace Resistics

/-! ## Specification -/

/-- The numbers an array of the type can hold. -/
def Holds : NumType → ℚ → Prop
  | .integer b, x => ∃ k : ℤ, x = k ∧ -2 ^ (b - 1) ≤ k ∧ k < 2 ^ (b - 1)
  | .single, x => IsSingle x
  | .double, x => IsDouble x

/-- Single or double precision. -/
def NumType.Floating (t : NumType) : Prop := t = .single ∨ t = .double

/-- The largest number, for the floating point types. -/
def NumType.largest : NumType → ℚ
  | .integer b => 2 ^ (b - 1)
  | .single => maxSingle
  | .double => maxDouble

/-- The relative error of rounding to the type. -/
def NumType.unit : NumType → ℚ
  | .integer _ => 0
  | .single => 1 / 2 ^ 24
  | .double => 1 / 2 ^ 53

/-- The absolute error of rounding to the type near zero. -/
def NumType.tiny : NumType → ℚ
  | .integer _ => 0
  | .single => 1 / 2 ^ 150
  | .double => 1 / 2 ^ 1075

/-- Every sample is a number of the type of the array. -/
def TypedData.Ok (d : TypedData) : Prop := ∀ row ∈ d.td.data, ∀ x ∈ row, Holds d.type x

/-! ## Rounding -/

theorem NumType.Floating.cast_eq {t : NumType} (h : t.Floating) (outside : ℕ → ℚ → ℤ) (x : ℚ) : t.cast outside x = t.calc x := by
  rcases h with rfl | rfl <;> rfl

theorem NumType.Floating.withFloat {t : NumType} (h : t.Floating) : t.withFloat = t := by rcases h with rfl | rfl <;> rfl

theorem withFloat_floating (t : NumType) : t.withFloat.Floating := by
  cases t with
  | integer b => exact Or.inr rfl
  | single => exact Or.inl rfl
  | double => exact Or.inr rfl

theorem NumType.Floating.near {t : NumType} (h : t.Floating) (x : ℚ) : |t.calc x - x| ≤ t.unit * |x| + t.tiny := by
  rcases h with rfl | rfl
  · have := nearestSingle_error x
    simp only [NumType.calc, NumType.unit, NumType.tiny]
    linarith
  · have := nearestDouble_error x
    simp only [NumType.calc, NumType.unit, NumType.tiny]
    linarith

theorem NumType.Floating.fixed {t : NumType} (h : t.Floating) {x : ℚ} (hx : Holds t x) : t.calc x = x := by
  rcases h with rfl | rfl
  · exact nearestSingle_single hx
  · exact nearestDouble_double hx

theorem NumType.Floating.holds {t : NumType} (h : t.Floating) {x : ℚ} (hx : |t.calc x| ≤ t.largest) : Holds t (t.calc x) := by
  rcases h with rfl | rfl
  · exact nearestSingle_isSingle hx
  · exact nearestDouble_isDouble hx

theorem NumType.Floating.nearest {t : NumType} (h : t.Floating) (x r : ℚ) (hr : Holds t r) : |t.calc x - x| ≤ |r - x| := by
  rcases h with rfl | rfl
  · exact nearestSingle_nearest x r hr
  · exact nearestDouble_nearest x r hr

theorem pyInt_int (k : ℤ) : pyInt (k : ℚ) = k := by
  unfold pyInt
  split_ifs <;> simp

theorem cast_fixed (outside : ℕ → ℚ → ℤ) {t : NumType} {x : ℚ} (hx : Holds t x) : t.cast outside x = x := by
  cases t with
  | integer b =>
    obtain ⟨k, rfl, h1, h2⟩ := hx
    simp only [NumType.cast, pyInt_int, fits]
    rw [if_pos (by simpa using ⟨h1, h2⟩)]
  | single => exact nearestSingle_single hx
  | double => exact nearestDouble_double hx

theorem calc_fixed {t : NumType} {x : ℚ} (hx : Holds t x) (hb : ∀ b, t = .integer b → 1 ≤ b) : t.calc x = x := by
  cases t with
  | integer b =>
    obtain ⟨k, rfl, h1, h2⟩ := hx
    simp only [NumType.calc, Int.floor_intCast]
    have hb := hb b rfl
    obtain ⟨c, rfl⟩ : ∃ c, b = c + 1 := ⟨b - 1, by omega⟩
    simp only [Nat.add_sub_cancel] at h1 h2
    have hp : ((2 ^ (c + 1) : ℕ) : ℤ) = 2 * 2 ^ c := by push_cast; ring
    congr 1
    rw [Int.bmod_eq_of_le_mul_two] <;> rw [hp] <;> omega
  | single => exact nearestSingle_single hx
  | double => exact nearestDouble_double hx

theorem calc_integer_holds (b : ℕ) (hb : 1 ≤ b) (x : ℚ) : Holds (.integer b) (NumType.calc (.integer b) x) := by
  obtain ⟨c, rfl⟩ : ∃ c, b = c + 1 := ⟨b - 1, by omega⟩
  refine ⟨Int.bmod ⌊x⌋ (2 ^ (c + 1)), rfl, ?_, ?_⟩
  · have := @Int.le_bmod ⌊x⌋ (2 ^ (c + 1)) (by positivity)
    have hp : ((2 ^ (c + 1) : ℕ) : ℤ) = 2 * 2 ^ c := by push_cast; ring
    rw [hp] at this
    simp only [Nat.add_sub_cancel]
    have h2 : (2 * 2 ^ c : ℤ) / 2 = 2 ^ c := by omega
    rw [h2] at this
    exact this
  · have := @Int.bmod_lt ⌊x⌋ (2 ^ (c + 1)) (by positivity)
    have hp : ((2 ^ (c + 1) : ℕ) : ℤ) = 2 * 2 ^ c := by push_cast; ring
    rw [hp] at this
    simp only [Nat.add_sub_cancel]
    have h2 : ((2 * 2 ^ c : ℤ) + 1) / 2 = 2 ^ c := by omega
    rw [h2] at this
    exact this

/-! ## The type of the result -/

/-- **C80**. A processor that succeeds gives data of single or double precision back in the same type, unless it is `ApplyFunction`, which
always gives double precision. -/
theorem C80_floating_type_kept (outside : ℕ → ℚ → ℤ) (order : ℕ → SumTree) (sp : SciPy) (p : Proc) (d out : TypedData)
    (h : p.runTyped outside order sp d = .ok out) (ht : d.type.Floating) :
    (∀ junk fncs, p = .apply junk fncs → out.type = .double) ∧ ((∀ junk fncs, p ≠ .apply junk fncs) → out.type = d.type) := by
  have thru : ∀ run, throughDouble outside run d = .ok out → out.type = d.type := by
    intro run h
    unfold throughDouble at h
    simp only [except_bind_ok, except_pure_ok] at h
    obtain ⟨o, -, rfl⟩ := h
    rfl
  cases p with
  | subsection f t =>
    simp only [Proc.runTyped, except_bind_ok, except_pure_ok] at h
    obtain ⟨o, -, rfl⟩ := h
    exact ⟨by simp, fun _ => rfl⟩
  | interpolateNans =>
    simp only [Proc.runTyped, Except.ok.injEq] at h
    subst h
    exact ⟨by simp, fun _ => rfl⟩
  | removeMean =>
    simp only [Proc.runTyped, Except.ok.injEq] at h
    subst h
    exact ⟨by simp, fun _ => ht.withFloat⟩
  | add p =>
    simp only [Proc.runTyped, Except.ok.injEq] at h
    subst h
    refine ⟨by simp, fun _ => ?_⟩
    cases p with
    | scalar x => exact ht.withFloat
    | dict m => rfl
  | multiply p =>
    simp only [Proc.runTyped, Except.ok.injEq] at h
    subst h
    refine ⟨by simp, fun _ => ?_⟩
    cases p with
    | scalar x => exact ht.withFloat
    | dict m => rfl
  | lowPass c o => exact ⟨by simp, fun _ => thru _ h⟩
  | highPass c o => exact ⟨by simp, fun _ => thru _ h⟩
  | bandPass l hh o => exact ⟨by simp, fun _ => thru _ h⟩
  | notch f b o => exact ⟨by simp, fun _ => thru _ h⟩
  | resample f => exact ⟨by simp, fun _ => thru _ h⟩
  | decimate m f => exact ⟨by simp, fun _ => thru _ h⟩
  | shift s =>
    refine ⟨by simp, fun _ => ?_⟩
    simp only [Proc.runTyped] at h
    unfold shiftTyped at h
    simp only [bind, Except.bind, pure, Except.pure, throw, throwThe, MonadExceptOf.throw] at h
    split at h
    · cases h
    split at h
    · cases h
    split at h
    · cases h
    split at h
    · cases h
    split at h
    · cases h
    simp only [Except.ok.injEq] at h
    rw [← h]
    exact ht.withFloat
  | apply junk fncs =>
    simp only [Proc.runTyped] at h
    unfold applyTyped at h
    simp only [except_bind_ok, except_pure_ok] at h
    obtain ⟨o, -, rfl⟩ := h
    exact ⟨fun _ _ _ => rfl, fun hn => absurd rfl (hn _ _)⟩

/-- A chain of processors without `ApplyFunction` keeps single and double precision. -/
theorem C80_chain_type_kept (outside : ℕ → ℚ → ℤ) (order : ℕ → SumTree) (sp : SciPy) (procs : List Proc) (d out : TypedData)
    (h : runTyped outside order sp procs d = .ok out) (ht : d.type.Floating) (hp : ∀ p ∈ procs, ∀ junk fncs, p ≠ .apply junk fncs) :
    out.type = d.type := by
  induction procs generalizing d with
  | nil =>
    simp only [runTyped, List.foldlM_nil, pure, Except.pure, Except.ok.injEq] at h
    rw [h]
  | cons p ps ih =>
    simp only [runTyped, List.foldlM_cons, except_bind_ok] at h
    obtain ⟨d1, h1, h2⟩ := h
    have e := (C80_floating_type_kept outside order sp p d d1 h1 ht).2 (hp p (by simp))
    rw [ih d1 h2 (by rw [e]; exact ht) (fun q hq => hp q (by simp [hq])), e]

/-- Specification: the processors that give double precision for integer data. -/
def widensIntegers : Proc → Bool
  | .removeMean | .add (.scalar _) | .multiply (.scalar _) | .shift _ | .apply _ _ => true
  | _ => false

/-- **C80**. What becomes of integer data: cutting out, filling gaps, filters, resampling, decimation and amounts per channel give integers of
the same size; removal of the mean, one amount for all channels, shifting and functions give double precision. -/
theorem C80_integer_type (outside : ℕ → ℚ → ℤ) (order : ℕ → SumTree) (sp : SciPy) (p : Proc) (d out : TypedData)
    (h : p.runTyped outside order sp d = .ok out) (b : ℕ) (ht : d.type = .integer b) :
    out.type = if widensIntegers p then .double else .integer b := by
  have thru : ∀ run, throughDouble outside run d = .ok out → out.type = .integer b := by
    intro run h
    unfold throughDouble at h
    simp only [except_bind_ok, except_pure_ok] at h
    obtain ⟨o, -, rfl⟩ := h
    exact ht
  have hw : d.type.withFloat = .double := by rw [ht]; rfl
  cases p with
  | subsection f t =>
    simp only [Proc.runTyped, except_bind_ok, except_pure_ok] at h
    obtain ⟨o, -, rfl⟩ := h
    exact ht
  | interpolateNans =>
    simp only [Proc.runTyped, Except.ok.injEq] at h
    subst h
    exact ht
  | removeMean =>
    simp only [Proc.runTyped, Except.ok.injEq] at h
    subst h
    exact hw
  | add p =>
    simp only [Proc.runTyped, Except.ok.injEq] at h
    subst h
    cases p with
    | scalar x => exact hw
    | dict m => exact ht
  | multiply p =>
    simp only [Proc.runTyped, Except.ok.injEq] at h
    subst h
    cases p with
    | scalar x => exact hw
    | dict m => exact ht
  | lowPass c o => exact thru _ h
  | highPass c o => exact thru _ h
  | bandPass l hh o => exact thru _ h
  | notch f b o => exact thru _ h
  | resample f => exact thru _ h
  | decimate m f => exact thru _ h
  | shift s =>
    simp only [Proc.runTyped] at h
    unfold shiftTyped at h
    simp only [bind, Except.bind, pure, Except.pure, throw, throwThe, MonadExceptOf.throw] at h
    split at h
    · cases h
    split at h
    · cases h
    split at h
    · cases h
    split at h
    · cases h
    split at h
    · cases h
    simp only [Except.ok.injEq] at h
    rw [← h]
    exact hw
  | apply junk fncs =>
    simp only [Proc.runTyped] at h
    unfold applyTyped at h
    simp only [except_bind_ok, except_pure_ok] at h
    obtain ⟨o, -, rfl⟩ := h
    rfl

/-! ## Add and Multiply -/

/-- The amount a channel really gets. -/
def typedAmount (outside : ℕ → ℚ → ℤ) (neutral : ℚ) (op : ℚ → ℚ → ℚ) (t : NumType) (c : String) : PerChan → ℚ
  | .scalar x => t.withFloat.calc (op neutral (t.withFloat.cast outside x))
  | .dict d => ((d.lookup c).map (t.cast outside)).getD neutral

theorem lookup_castDict (outside : ℕ → ℚ → ℤ) (t : NumType) (d : List (String × ℚ)) (c : String) :
    (castDict outside t d).lookup c = (d.lookup c).map (t.cast outside) := by
  induction d with
  | nil => rfl
  | cons p d ih =>
    obtain ⟨k, v⟩ := p
    simp only [castDict, List.map_cons, List.lookup_cons] at ih ⊢
    cases c == k with
    | true => rfl
    | false => exact ih

theorem typedVector_get (outside : ℕ → ℚ → ℤ) (n : ℚ) (op : ℚ → ℚ → ℚ) (t : NumType) (chans : List String) (hnd : chans.Nodup) (p : PerChan) :
    (typedVector outside n op t chans p).2.length = chans.length ∧
    ∀ (i : ℕ) (hi : i < chans.length), (typedVector outside n op t chans p).2[i]? = some (typedAmount outside n op t chans[i] p) := by
  cases p with
  | scalar x => exact ⟨by simp [typedVector], fun i hi => by simp [typedVector, typedAmount, hi]⟩
  | dict d =>
    refine ⟨perChanVector_length (.dict (castDict outside t d)) n op chans, fun i hi => ?_⟩
    have := perChanVector_dict (castDict outside t d) n op chans hnd i hi
    simp only [typedVector, typedAmount, this, lookup_castDict]

/-- the row of a channel after `Add` -/
theorem addTyped_chan (outside : ℕ → ℚ → ℤ) (p : PerChan) (d : TypedData) (hrows : d.td.data.length = d.td.md.chans.length)
    (hnd : d.td.md.chans.Nodup) (c : String) (hc : c ∈ d.td.md.chans) :
    ∃ row, d.td.getChan c = .ok row ∧ (addTyped outside p d).td.getChan c = .ok (row.map fun y =>
      (addTyped outside p d).type.calc ((addTyped outside p d).type.cast outside y + typedAmount outside 0 (· + ·) d.type c p)) := by
  have hv := typedVector_get outside 0 (· + ·) d.type d.td.md.chans hnd p
  exact zipWith_chan d.td hrows hnd "Add" _ (fun y x => (addTyped outside p d).type.calc ((addTyped outside p d).type.cast outside y + x))
    (fun c => typedAmount outside 0 (· + ·) d.type c p) hv.2 hv.1 c hc

/-- the row of a channel after `Multiply` -/
theorem multiplyTyped_chan (outside : ℕ → ℚ → ℤ) (p : PerChan) (d : TypedData) (hrows : d.td.data.length = d.td.md.chans.length)
    (hnd : d.td.md.chans.Nodup) (c : String) (hc : c ∈ d.td.md.chans) :
    ∃ row, d.td.getChan c = .ok row ∧ (multiplyTyped outside p d).td.getChan c = .ok (row.map fun y =>
      (multiplyTyped outside p d).type.calc ((multiplyTyped outside p d).type.cast outside y * typedAmount outside 1 (· * ·) d.type c p)) := by
  have hv := typedVector_get outside 1 (· * ·) d.type d.td.md.chans hnd p
  exact zipWith_chan d.td hrows hnd "Multiply" _ (fun y x => (multiplyTyped outside p d).type.calc ((multiplyTyped outside p d).type.cast outside y * x))
    (fun c => typedAmount outside 1 (· * ·) d.type c p) hv.2 hv.1 c hc

theorem getChan_row {d : TypedData} {c : String} {row : List ℚ} (h : d.td.getChan c = .ok row) : row ∈ d.td.data := by
  unfold TimeData.getChan at h
  simp only [except_bind_ok] at h
  obtain ⟨_, -, h⟩ := h
  split at h
  · cases h
  · next i _ =>
    by_cases hi : i < d.td.data.length
    · rw [pyIndex_natCast _ _ hi, Except.ok.injEq] at h
      rw [← h]; exact List.getElem_mem hi
    · rw [pyIndex_natCast_ge _ _ (by omega)] at h
      cases h

theorem typedAmount_exact (outside : ℕ → ℚ → ℤ) {t : NumType} {n : ℚ} {op : ℚ → ℚ → ℚ} (hop : ∀ x, op n x = x) (c : String) {p : PerChan}
    (hs : ∀ x, p = .scalar x → Holds t.withFloat x) (hd : ∀ m, p = .dict m → ∀ a, m.lookup c = some a → Holds t a) :
    typedAmount outside n op t c p = p.amountFor n c := by
  cases p with
  | scalar x =>
    have hx := hs x rfl
    simp only [typedAmount, PerChan.amountFor, cast_fixed outside hx, hop]
    exact (withFloat_floating t).fixed hx
  | dict m =>
    simp only [typedAmount, PerChan.amountFor]
    cases hl : m.lookup c with
    | none => rfl
    | some a => exact cast_fixed outside (hd m rfl a hl)

/-- **C80**. When the amount for a channel and all the sums can be held exactly, `Add` gives exactly the sums, whatever the type. -/
theorem C80_add_exact (outside : ℕ → ℚ → ℤ) (p : PerChan) (d : TypedData) (hrows : d.td.data.length = d.td.md.chans.length)
    (hnd : d.td.md.chans.Nodup) (c : String) (row : List ℚ) (hrow : d.td.getChan c = .ok row) (hc : c ∈ d.td.md.chans)
    (hb : ∀ b, d.type = .integer b → 1 ≤ b)
    (hs : ∀ x, p = .scalar x → Holds d.type.withFloat x) (hd : ∀ m, p = .dict m → ∀ a, m.lookup c = some a → Holds d.type a)
    (hin : ∀ y ∈ row, Holds (addTyped outside p d).type y) (hout : ∀ y ∈ row, Holds (addTyped outside p d).type (y + p.amountFor 0 c)) :
    (addTyped outside p d).td.getChan c = .ok (row.map (· + p.amountFor 0 c)) := by
  obtain ⟨row', hr, ho⟩ := addTyped_chan outside p d hrows hnd c hc
  rw [hrow, Except.ok.injEq] at hr
  subst hr
  rw [ho]
  congr 1
  apply List.map_congr_left
  intro y hy
  rw [typedAmount_exact outside (fun x => zero_add x) c hs hd, cast_fixed outside (hin y hy)]
  refine calc_fixed (hout y hy) ?_
  intro b hb'
  cases p with
  | scalar x =>
    have := withFloat_floating d.type
    have e : (addTyped outside (.scalar x) d).type = d.type.withFloat := rfl
    rw [← e, hb'] at this
    rcases this with h | h <;> cases h
  | dict m => exact hb b hb'

/-- **C80**. When the factor for a channel and all the products can be held exactly, `Multiply` gives exactly the products, whatever the type. -/
theorem C80_multiply_exact (outside : ℕ → ℚ → ℤ) (p : PerChan) (d : TypedData) (hrows : d.td.data.length = d.td.md.chans.length)
    (hnd : d.td.md.chans.Nodup) (c : String) (row : List ℚ) (hrow : d.td.getChan c = .ok row) (hc : c ∈ d.td.md.chans)
    (hb : ∀ b, d.type = .integer b → 1 ≤ b)
    (hs : ∀ x, p = .scalar x → Holds d.type.withFloat x) (hd : ∀ m, p = .dict m → ∀ a, m.lookup c = some a → Holds d.type a)
    (hin : ∀ y ∈ row, Holds (multiplyTyped outside p d).type y)
    (hout : ∀ y ∈ row, Holds (multiplyTyped outside p d).type (y * p.amountFor 1 c)) :
    (multiplyTyped outside p d).td.getChan c = .ok (row.map (· * p.amountFor 1 c)) := by
  obtain ⟨row', hr, ho⟩ := multiplyTyped_chan outside p d hrows hnd c hc
  rw [hrow, Except.ok.injEq] at hr
  subst hr
  rw [ho]
  congr 1
  apply List.map_congr_left
  intro y hy
  rw [typedAmount_exact outside (fun x => one_mul x) c hs hd, cast_fixed outside (hin y hy)]
  refine calc_fixed (hout y hy) ?_
  intro b hb'
  cases p with
  | scalar x =>
    have := withFloat_floating d.type
    have e : (multiplyTyped outside (.scalar x) d).type = d.type.withFloat := rfl
    rw [← e, hb'] at this
    rcases this with h | h <;> cases h
  | dict m => exact hb b hb'

/-- one rounding more -/
theorem NumType.Floating.step {t : NumType} (h : t.Floating) {a' a E A : ℚ} (hE : |a' - a| ≤ E) (hA : |a| ≤ A) :
    |t.calc a' - a| ≤ E + t.unit * (A + E) + t.tiny := by
  have h1 := h.near a'
  have hu : 0 ≤ t.unit := by rcases h with rfl | rfl <;> simp only [NumType.unit] <;> positivity
  have h2 : |a'| ≤ A + E := by
    calc |a'| = |a + (a' - a)| := by ring_nf
      _ ≤ |a| + |a' - a| := abs_add_le _ _
      _ ≤ A + E := add_le_add hA hE
  have h3 : t.unit * |a'| ≤ t.unit * (A + E) := mul_le_mul_of_nonneg_left h2 hu
  calc |t.calc a' - a| = |(t.calc a' - a') + (a' - a)| := by ring_nf
    _ ≤ |t.calc a' - a'| + |a' - a| := abs_add_le _ _
    _ ≤ _ := by linarith

theorem NumType.Floating.unit_bounds {t : NumType} (h : t.Floating) : 0 < t.unit ∧ t.unit ≤ 1 / 2 ^ 24 ∧ 0 < t.tiny ∧ t.tiny ≤ t.unit := by
  rcases h with rfl | rfl
  · simp only [NumType.unit, NumType.tiny]
    refine ⟨by positivity, le_refl _, by positivity, ?_⟩
    exact one_div_le_one_div_of_le (by positivity) (pow_le_pow_right₀ (by norm_num) (by norm_num))
  · simp only [NumType.unit, NumType.tiny]
    refine ⟨by positivity, ?_, by positivity, ?_⟩ <;>
    exact one_div_le_one_div_of_le (by positivity) (pow_le_pow_right₀ (by norm_num) (by norm_num))

/-- the amount of a channel is off by two roundings at most -/
theorem typedAmount_near (outside : ℕ → ℚ → ℤ) {t : NumType} (ht : t.Floating) {n : ℚ} {op : ℚ → ℚ → ℚ} (hop : ∀ x, op n x = x) (c : String) (p : PerChan) :
    |typedAmount outside n op t c p - p.amountFor n c| ≤ 3 * (t.unit * |p.amountFor n c| + t.tiny) := by
  obtain ⟨hu, hu1, ht0, -⟩ := ht.unit_bounds
  cases p with
  | scalar x =>
    simp only [typedAmount, PerChan.amountFor, hop, ht.withFloat, ht.cast_eq]
    have h1 := ht.near x
    have h2 := ht.step h1 (le_refl |x|)
    have hx := abs_nonneg x
    refine h2.trans ?_
    have h5 : t.unit * (t.unit * |x| + t.tiny) ≤ t.unit * |x| + t.tiny := by
      have : 0 ≤ t.unit * |x| + t.tiny := by positivity
      nlinarith
    nlinarith
  | dict m =>
    simp only [typedAmount, PerChan.amountFor]
    cases hl : m.lookup c with
    | none =>
      simp only [Option.map_none, Option.getD_none, sub_self, abs_zero]
      positivity
    | some a =>
      simp only [Option.map_some, Option.getD_some, ht.cast_eq]
      have h1 := ht.near a
      have : 0 ≤ t.unit * |a| + t.tiny := by positivity
      linarith

/-- **C80**. For data of single and double precision, `Add` is off from the exact sum by a few roundings. -/
theorem C80_add_close (outside : ℕ → ℚ → ℤ) (p : PerChan) (d : TypedData) (hrows : d.td.data.length = d.td.md.chans.length)
    (hnd : d.td.md.chans.Nodup) (ht : d.type.Floating) (hok : d.Ok) (c : String) (hc : c ∈ d.td.md.chans) :
    ∃ row row', d.td.getChan c = .ok row ∧ (addTyped outside p d).td.getChan c = .ok row' ∧
      List.Forall₂ (fun y y' => |y' - (y + p.amountFor 0 c)| ≤ 5 * (d.type.unit * (|y| + |p.amountFor 0 c|) + d.type.tiny)) row row' := by
  obtain ⟨row, hr, ho⟩ := addTyped_chan outside p d hrows hnd c hc
  refine ⟨row, _, hr, ho, ?_⟩
  rw [List.forall₂_map_right_iff]
  apply List.forall₂_same.mpr
  intro y hy
  have hy : Holds d.type y := hok row (getChan_row hr) y hy
  have hty : (addTyped outside p d).type = d.type := by
    cases p with
    | scalar x => exact ht.withFloat
    | dict m => rfl
  rw [hty, cast_fixed outside hy]
  have ha := typedAmount_near outside ht (fun x => zero_add x) c p (n := 0) (op := (· + ·))
  generalize typedAmount outside 0 (· + ·) d.type c p = a' at *
  generalize p.amountFor 0 c = a at *
  obtain ⟨hu, hu1, ht0, -⟩ := ht.unit_bounds
  have h1 : |y + a' - (y + a)| ≤ 3 * (d.type.unit * |a| + d.type.tiny) := by rw [add_sub_add_left_eq_sub]; exact ha
  have h2 := ht.step h1 (abs_add_le y a)
  refine h2.trans ?_
  generalize d.type.unit = u at *
  generalize d.type.tiny = e at *
  have hy0 := abs_nonneg y
  have ha0 := abs_nonneg a
  have h5 : u * (u * |a| + e) ≤ (1 / 2 ^ 24) * (u * |a| + e) := mul_le_mul_of_nonneg_right hu1 (by positivity)
  have h6 : 0 ≤ u * |y| := by positivity
  have h7 : 0 ≤ u * |a| := by positivity
  nlinarith

/-- **C80**. For data of single and double precision, `Multiply` is off from the exact product by a few roundings. -/
theorem C80_multiply_close (outside : ℕ → ℚ → ℤ) (p : PerChan) (d : TypedData) (hrows : d.td.data.length = d.td.md.chans.length)
    (hnd : d.td.md.chans.Nodup) (ht : d.type.Floating) (hok : d.Ok) (c : String) (hc : c ∈ d.td.md.chans) :
    ∃ row row', d.td.getChan c = .ok row ∧ (multiplyTyped outside p d).td.getChan c = .ok row' ∧
      List.Forall₂ (fun y y' => |y' - y * p.amountFor 1 c| ≤ 5 * (d.type.unit * |y * p.amountFor 1 c| + d.type.tiny * (1 + |y|))) row row' := by
  obtain ⟨row, hr, ho⟩ := multiplyTyped_chan outside p d hrows hnd c hc
  refine ⟨row, _, hr, ho, ?_⟩
  rw [List.forall₂_map_right_iff]
  apply List.forall₂_same.mpr
  intro y hy
  have hy : Holds d.type y := hok row (getChan_row hr) y hy
  have hty : (multiplyTyped outside p d).type = d.type := by
    cases p with
    | scalar x => exact ht.withFloat
    | dict m => rfl
  rw [hty, cast_fixed outside hy]
  have ha := typedAmount_near outside ht (fun x => one_mul x) c p (n := 1) (op := (· * ·))
  generalize typedAmount outside 1 (· * ·) d.type c p = a' at *
  generalize p.amountFor 1 c = a at *
  obtain ⟨hu, hu1, ht0, -⟩ := ht.unit_bounds
  have h1 : |y * a' - y * a| ≤ |y| * (3 * (d.type.unit * |a| + d.type.tiny)) := by
    rw [← mul_sub, abs_mul]
    exact mul_le_mul_of_nonneg_left ha (abs_nonneg y)
  have h2 := ht.step h1 (le_refl |y * a|)
  refine h2.trans ?_
  generalize d.type.unit = u at *
  generalize d.type.tiny = e at *
  rw [abs_mul]
  have hy0 := abs_nonneg y
  have ha0 := abs_nonneg a
  generalize |y| = Y at *
  generalize |a| = A at *
  have h5 : u * (Y * (3 * (u * A + e))) ≤ (1 / 2 ^ 24) * (Y * (3 * (u * A + e))) := mul_le_mul_of_nonneg_right hu1 (by positivity)
  have h6 : 0 ≤ u * (Y * A) := by positivity
  have h7 : 0 ≤ e * Y := by positivity
  nlinarith

/-! ## Integer data -/

/-- **C80** (finding). For integer data the amounts per channel count only by their whole part: amounts with the same whole part give the
same result, for `Add` and for `Multiply`. -/
theorem C80_integer_amounts_cut (outside : ℕ → ℚ → ℤ) (d : TypedData) (b : ℕ) (ht : d.type = .integer b) (m m' : List (String × ℚ))
    (hm : List.Forall₂ (fun p q => p.1 = q.1 ∧ pyInt p.2 = pyInt q.2 ∧ fits b (pyInt p.2)) m m') :
    addTyped outside (.dict m) d = addTyped outside (.dict m') d ∧ multiplyTyped outside (.dict m) d = multiplyTyped outside (.dict m') d := by
  have e : castDict outside d.type m = castDict outside d.type m' := by
    rw [ht]
    unfold castDict
    induction hm with
    | nil => rfl
    | cons h _ ih =>
      simp only [List.map_cons, ih]
      congr 1
      obtain ⟨h1, h2, h3⟩ := h
      simp only [h1, NumType.cast, ← h2, if_pos h3]
  simp only [addTyped, multiplyTyped, typedVector, e, and_self]

/-- **C80** (finding). A factor between -1 and 1 for a channel turns the whole channel of integer data into zeros. -/
theorem C80_integer_factor_erases (outside : ℕ → ℚ → ℤ) (d : TypedData) (b : ℕ) (ht : d.type = .integer b)
    (hrows : d.td.data.length = d.td.md.chans.length) (hnd : d.td.md.chans.Nodup) (c : String) (hc : c ∈ d.td.md.chans)
    (m : List (String × ℚ)) (a : ℚ) (hm : m.lookup c = some a) (ha : |a| < 1) :
    ∃ row, d.td.getChan c = .ok row ∧ (multiplyTyped outside (.dict m) d).td.getChan c = .ok (row.map fun _ => 0) := by
  obtain ⟨row, hr, ho⟩ := multiplyTyped_chan outside (.dict m) d hrows hnd c hc
  refine ⟨row, hr, ?_⟩
  rw [ho]
  congr 1
  apply List.map_congr_left
  intro y _
  have h0 : pyInt a = 0 := by
    rw [abs_lt] at ha
    unfold pyInt
    split_ifs with h
    · rw [Int.floor_eq_iff]; constructor <;> push_cast <;> linarith
    · rw [Int.ceil_eq_iff]; constructor <;> push_cast <;> linarith
  have hf : fits b 0 = true := by
    unfold fits
    simp
  have hz : typedAmount outside 1 (· * ·) d.type c (.dict m) = 0 := by
    simp only [typedAmount, hm, Option.map_some, Option.getD_some, ht, NumType.cast, h0, hf, if_true, Int.cast_zero]
  rw [hz, mul_zero]
  have hty : (multiplyTyped outside (.dict m) d).type = .integer b := ht
  rw [hty]
  simp only [NumType.calc, Int.floor_zero, Int.zero_bmod, Int.cast_zero]

/-- **C80** (finding). The same amount for all channels, given as one number, is not cut: integer data are widened to double precision. -/
theorem C80_integer_scalar (outside : ℕ → ℚ → ℤ) (x : ℚ) (d : TypedData) (b : ℕ) (hb : b ≤ 53) (ht : d.type = .integer b) (hok : d.Ok)
    (hrows : d.td.data.length = d.td.md.chans.length) (hnd : d.td.md.chans.Nodup) (hx : IsDouble x) (c : String) (hc : c ∈ d.td.md.chans) :
    ∃ row, d.td.getChan c = .ok row ∧
      (addTyped outside (.scalar x) d).td.getChan c = .ok (row.map fun y => nearestDouble (y + x)) ∧
      (multiplyTyped outside (.scalar x) d).td.getChan c = .ok (row.map fun y => nearestDouble (y * x)) := by
  obtain ⟨row, hr, ho⟩ := addTyped_chan outside (.scalar x) d hrows hnd c hc
  obtain ⟨row', hr', ho'⟩ := multiplyTyped_chan outside (.scalar x) d hrows hnd c hc
  rw [hr, Except.ok.injEq] at hr'
  subst hr'
  refine ⟨row, hr, ?_, ?_⟩
  all_goals
    first
    | rw [ho]
    | rw [ho']
    congr 1
    apply List.map_congr_left
    intro y hy
    have hy := hok row (getChan_row hr) y hy
    rw [ht] at hy
    obtain ⟨k, rfl, h1, h2⟩ := hy
    have hk : IsDouble (k : ℚ) := by
      by_cases hb0 : b = 0
      · subst hb0
        simp only [zero_tsub, pow_zero] at h1 h2
        exact ⟨k, 0, by rw [abs_lt]; constructor <;> omega, by norm_num, by norm_num, by simp⟩
      · have : (2 : ℤ) ^ (b - 1) ≤ 2 ^ 52 := pow_le_pow_right₀ (by norm_num) (by omega)
        exact ⟨k, 0, by rw [abs_lt]; constructor <;> omega, by norm_num, by norm_num, by simp⟩
    simp only [addTyped, multiplyTyped, typedVector, typedAmount, ht, NumType.withFloat, NumType.calc, NumType.cast, nearestDouble_double hk,
      nearestDouble_double hx, zero_add, one_mul]

/-! ## Filters, resampling, decimation -/

/-- Specification: cut towards zero. -/
def CutTowardsZero (v : ℚ) (k : ℤ) : Prop := (0 ≤ v → (k : ℚ) ≤ v ∧ v < k + 1) ∧ (v ≤ 0 → v ≤ k ∧ (k : ℚ) < v + 1)

theorem pyInt_cut (v : ℚ) : CutTowardsZero v (pyInt v) := by
  unfold CutTowardsZero pyInt
  constructor
  · intro h
    rw [if_pos h]
    exact ⟨Int.floor_le v, Int.lt_floor_add_one v⟩
  · intro h
    split_ifs with h0
    · have : v = 0 := le_antisymm h h0
      subst this
      simp
    · exact ⟨Int.le_ceil v, Int.ceil_lt_add_one v⟩

/-- Specification: the processors that compute in double precision and store the result in the type of the data. -/
def usesDouble : Proc → Bool
  | .lowPass _ _ | .highPass _ _ | .bandPass _ _ _ | .notch _ _ _ | .resample _ | .decimate _ _ => true
  | _ => false

/-- Specification: what is found in an array of the type after the number `v` was stored in it. -/
def StoredInType (t : NumType) (v v' : ℚ) : Prop :=
  match t with
  | .integer b => ∀ k : ℤ, CutTowardsZero v k → -2 ^ (b - 1) ≤ k → k < 2 ^ (b - 1) → v' = k
  | .single => v' = nearestSingle v
  | .double => v' = nearestDouble v

theorem cut_unique (v : ℚ) (k k' : ℤ) (h1 : CutTowardsZero v k) (h2 : CutTowardsZero v k') : k = k' := by
  rcases le_total 0 v with h0 | h0
  · have a := h1.1 h0
    have b := h2.1 h0
    have h3 : (k : ℚ) < k' + 1 := by linarith
    have h4 : (k' : ℚ) < k + 1 := by linarith
    have h3 : k < k' + 1 := by exact_mod_cast h3
    have h4 : k' < k + 1 := by exact_mod_cast h4
    omega
  · have a := h1.2 h0
    have b := h2.2 h0
    have h3 : (k : ℚ) < k' + 1 := by linarith
    have h4 : (k' : ℚ) < k + 1 := by linarith
    have h3 : k < k' + 1 := by exact_mod_cast h3
    have h4 : k' < k + 1 := by exact_mod_cast h4
    omega

theorem cast_stored (outside : ℕ → ℚ → ℤ) (t : NumType) (v : ℚ) : StoredInType t v (t.cast outside v) := by
  cases t with
  | integer b =>
    intro k hk h1 h2
    have := cut_unique v k (pyInt v) hk (pyInt_cut v)
    subst this
    simp only [NumType.cast]
    rw [if_pos (by simpa [fits] using ⟨h1, h2⟩)]
  | single => rfl
  | double => rfl

/-- **C80**. The filters, `Resample` and `Decimate` work on the samples in double precision; metadata are those of the computation and each sample of the result is the
number computed, rounded to single precision, or cut towards zero for integers that fit. -/
theorem C80_through_double (outside : ℕ → ℚ → ℤ) (order : ℕ → SumTree) (sp : SciPy) (p : Proc) (d out : TypedData)
    (hp : usesDouble p = true)
    (h : p.runTyped outside order sp d = .ok out) :
    ∃ exact, p.run sp { d.td with data := d.td.data.map fun row => row.map nearestDouble } = .ok exact ∧ out.type = d.type ∧ out.td.md = exact.md ∧
      List.Forall₂ (List.Forall₂ (StoredInType d.type)) exact.data out.td.data := by
  have key : ∀ run, throughDouble outside run d = .ok out →
      ∃ exact, run { d.td with data := d.td.data.map fun row => row.map nearestDouble } = .ok exact ∧ out.type = d.type ∧ out.td.md = exact.md ∧
      List.Forall₂ (List.Forall₂ (StoredInType d.type)) exact.data out.td.data := by
    intro run h
    unfold throughDouble at h
    simp only [except_bind_ok, except_pure_ok] at h
    obtain ⟨o, ho, rfl⟩ := h
    refine ⟨o, ho, rfl, rfl, ?_⟩
    simp only [storeIn]
    rw [List.forall₂_map_right_iff]
    apply List.forall₂_same.mpr
    intro row _
    rw [List.forall₂_map_right_iff]
    apply List.forall₂_same.mpr
    intro v _
    exact cast_stored outside d.type v
  cases p with
  | lowPass c o => exact key _ h
  | highPass c o => exact key _ h
  | bandPass l hh o => exact key _ h
  | notch f b o => exact key _ h
  | resample f => exact key _ h
  | decimate m f => exact key _ h
  | subsection f t => cases hp
  | interpolateNans => cases hp
  | removeMean => cases hp
  | add p => cases hp
  | multiply p => cases hp
  | shift s => cases hp
  | apply j f => cases hp

/-- **C80** (finding). Filtered integer data that stay below one count everywhere are lost: all samples are zero. -/
theorem C80_integer_filter_erases (outside : ℕ → ℚ → ℤ) (order : ℕ → SumTree) (sp : SciPy) (p : Proc) (d out : TypedData)
    (hp : usesDouble p = true)
    (h : p.runTyped outside order sp d = .ok out) (b : ℕ) (ht : d.type = .integer b) (exact : TimeData ℚ)
    (he : p.run sp { d.td with data := d.td.data.map fun row => row.map nearestDouble } = .ok exact)
    (hs : ∀ row ∈ exact.data, ∀ v ∈ row, |v| < 1) : ∀ row ∈ out.td.data, ∀ v ∈ row, v = 0 := by
  obtain ⟨e, h1, -, -, h2⟩ := C80_through_double outside order sp p d out hp h
  rw [he, Except.ok.injEq] at h1
  subst h1
  rw [ht] at h2
  intro row hr v hv
  obtain ⟨i, hi, rfl⟩ := List.mem_iff_getElem.mp hr
  have h3 := (List.forall₂_iff_get.mp h2)
  have hi' : i < exact.data.length := by rw [h3.1]; exact hi
  have h4 := h3.2 i hi' hi
  obtain ⟨j, hj, rfl⟩ := List.mem_iff_getElem.mp hv
  have h5 := List.forall₂_iff_get.mp h4
  have hj' : j < (exact.data[i]).length := by
    have := h5.1
    simp only [List.get_eq_getElem] at this
    omega
  have h6 := h5.2 j hj' hj
  simp only [List.get_eq_getElem] at h6
  have h7 := hs _ (List.getElem_mem hi') _ (List.getElem_mem hj')
  rw [abs_lt] at h7
  have := h6 0 ⟨fun h0 => ⟨by simpa using h0, by simpa using h7.2⟩, fun h0 => ⟨by simpa using h0, by push_cast; linarith⟩⟩
    (by simp) (by positivity)
  simpa using this

/-! ## Gaps -/

/-- **C80**. `InterpolateNans` leaves the samples that are there bit for bit and stores the interpolated numbers in the type of the data. -/
theorem C80_gaps (outside : ℕ → ℚ → ℤ) (t : NumType) (row : List (Option ℚ)) :
    (∀ e, interpolateNansRow row = .error e → interpolateNansTyped outside t row = .error e) ∧
    (∀ out, interpolateNansRow row = .ok out → ∃ out', interpolateNansTyped outside t row = .ok out' ∧ out'.length = row.length ∧
      (∀ (i : ℕ) (v : ℚ), row[i]? = some (some v) → out'[i]? = some (some v)) ∧
      (∀ (i : ℕ) (v : ℚ), row[i]? = some none → out[i]? = some (some v) → ∃ v', out'[i]? = some (some v') ∧ StoredInType t v v')) := by
  constructor
  · intro e he
    simp only [interpolateNansTyped, he, bind, Except.bind]
  · intro out ho
    refine ⟨List.zipWith (fun x y => if x.isSome then x else y.map (t.cast outside)) row out,
      by simp only [interpolateNansTyped, ho, bind, Except.bind, pure, Except.pure], ?_, ?_, ?_⟩
    · have := (C24_interpolate_nans_keeps row out ho).1
      simp [this]
    · intro i v hv
      have := (C24_interpolate_nans_keeps row out ho).2.1 i v hv
      simp [List.getElem?_zipWith, hv, this]
    · intro i v hr hv
      refine ⟨t.cast outside v, by simp [List.getElem?_zipWith, hr, hv], ?_⟩
      exact cast_stored outside t v

/-! ## The window function -/

/-- **C80** (finding). Integer data that are not detrended: the window function is cut to integers as well, so that only samples with a coefficient of one or
more in size survive. -/
theorem C80_integer_window (outside : ℕ → ℚ → ℤ) (b : ℕ) (hb : 2 ≤ b) (coeffs row : List ℚ) (i : ℕ) (x c : ℚ) (hx : row[i]? = some x)
    (hc : coeffs[i]? = some c) (hrow : Holds (.integer b) x) :
    (|c| < 1 → (windowTyped outside (detrendType (.integer b) .none) coeffs row)[i]? = some 0) ∧
    (c = 1 → (windowTyped outside (detrendType (.integer b) .none) coeffs row)[i]? = some x) := by
  have hget : (windowTyped outside (detrendType (.integer b) .none) coeffs row)[i]? =
      some (NumType.calc (.integer b) (x * NumType.cast outside (.integer b) c)) := by
    simp only [windowTyped, detrendType, List.getElem?_zipWith, hx, hc]
  rw [hget]
  constructor
  · intro h1
    have h0 : pyInt c = 0 := by
      rw [abs_lt] at h1
      unfold pyInt
      split_ifs with h
      · rw [Int.floor_eq_iff]; constructor <;> push_cast <;> linarith
      · rw [Int.ceil_eq_iff]; constructor <;> push_cast <;> linarith
    simp only [NumType.cast, h0, fits]
    rw [if_pos (by simp), Int.cast_zero, mul_zero]
    simp only [NumType.calc, Int.floor_zero, Int.zero_bmod, Int.cast_zero]
  · intro h1
    subst h1
    have hf : fits b (pyInt 1) = true := by
      have h1 : pyInt 1 = 1 := by decide +kernel
      obtain ⟨c, rfl⟩ : ∃ c, b = c + 2 := ⟨b - 2, by omega⟩
      simp only [h1, fits, decide_eq_true_eq, show c + 2 - 1 = c + 1 by omega]
      have : (1 : ℤ) ≤ 2 ^ c := one_le_pow₀ (by norm_num)
      rw [pow_succ]
      constructor <;> omega
    have h1 : pyInt 1 = 1 := by decide +kernel
    have hcast : NumType.cast outside (.integer b) 1 = 1 := by
      show (if fits b (pyInt 1) = true then ((pyInt 1 : ℤ) : ℚ) else _) = 1
      rw [if_pos hf, h1, Int.cast_one]
    rw [hcast, mul_one, calc_fixed hrow (by rintro b' h; cases h; omega)]

/-- **C80**. Otherwise – floating point data, or detrended ones – the windowed samples are off from the exact products by a few roundings. -/
theorem C80_window_close (outside : ℕ → ℚ → ℤ) (t : NumType) (d : Detrend) (hd : t.Floating ∨ d ≠ .none) (coeffs row : List ℚ) :
    (detrendType t d).Floating ∧ List.Forall₂ (fun (p : ℚ × ℚ) v => |v - p.1 * p.2| ≤
      3 * ((detrendType t d).unit * |p.1 * p.2| + (detrendType t d).tiny * (1 + |p.1|))) (row.zip coeffs)
      (windowTyped outside (detrendType t d) coeffs row) := by
  have hf : (detrendType t d).Floating := by
    cases d with
    | none => exact hd.elim id (fun h => absurd rfl h)
    | constant => exact withFloat_floating t
    | linear => exact withFloat_floating t
  refine ⟨hf, ?_⟩
  generalize detrendType t d = u at *
  have : windowTyped outside u coeffs row = (row.zip coeffs).map fun p => u.calc (p.1 * u.cast outside p.2) := by
    simp only [windowTyped, List.zip, List.map_zipWith]
  rw [this, List.forall₂_map_right_iff]
  apply List.forall₂_same.mpr
  rintro ⟨y, a⟩ _
  simp only [hf.cast_eq]
  obtain ⟨hu, hu1, ht0, -⟩ := hf.unit_bounds
  have h1 : |y * u.calc a - y * a| ≤ |y| * (u.unit * |a| + u.tiny) := by
    rw [← mul_sub, abs_mul]
    exact mul_le_mul_of_nonneg_left (hf.near a) (abs_nonneg y)
  have h2 := hf.step h1 (le_refl |y * a|)
  refine h2.trans ?_
  generalize u.unit = e at *
  generalize u.tiny = g at *
  rw [abs_mul]
  have hy0 := abs_nonneg y
  have ha0 := abs_nonneg a
  generalize |y| = Y at *
  generalize |a| = A at *
  have h5 : e * (Y * (e * A + g)) ≤ (1 / 2 ^ 24) * (Y * (e * A + g)) := mul_le_mul_of_nonneg_right hu1 (by positivity)
  have h6 : 0 ≤ e * (Y * A) := by positivity
  have h7 : 0 ≤ g * Y := by positivity
  nlinarith

end Resistics
