import Verif.Props.NumMean
import Verif.Props.Spectra

/-!
# Property C80: shifting time stamps in the arithmetic of the number type
-/

namespace Resistics

/-! ## Specification -/

/-- The number of samples whose positions an array of the type can hold. -/
def NumType.places : NumType → ℕ
  | .integer b => min (2 ^ (b - 1)) (2 ^ 53)
  | .single => 2 ^ 24
  | .double => 2 ^ 53

/-- Linear interpolation between sample `i` and the next one. -/
def between (row : List ℚ) (i : ℕ) (s : ℚ) : ℚ := row.getD i 0 + (row.getD (i + 1) 0 - row.getD i 0) * s

/-! ## Places -/

theorem double_nat {n : ℕ} (h : n ≤ 2 ^ 53) : IsDouble (n : ℚ) := by
  rcases Nat.lt_or_ge n (2 ^ 53) with h1 | h1
  · exact ⟨n, 0, by rw [abs_of_nonneg (by positivity)]; exact_mod_cast h1, by norm_num, by norm_num, by simp⟩
  · have : n = 2 ^ 53 := le_antisymm h h1
    subst this
    exact ⟨1, 53, by norm_num, by norm_num, by norm_num, by norm_num⟩

theorem single_nat {n : ℕ} (h : n ≤ 2 ^ 24) : IsSingle (n : ℚ) := by
  rcases Nat.lt_or_ge n (2 ^ 24) with h1 | h1
  · exact ⟨n, 0, by rw [abs_of_nonneg (by positivity)]; exact_mod_cast h1, by norm_num, by norm_num, by simp⟩
  · have : n = 2 ^ 24 := le_antisymm h h1
    subst this
    exact ⟨1, 24, by norm_num, by norm_num, by norm_num, by norm_num⟩

theorem places_hold {t : NumType} {n i : ℕ} (h : n ≤ t.places) (hi : i < n) : Holds t.withFloat (i : ℚ) ∧ Holds t.withFloat ((i : ℚ) + 1) := by
  have e : ((i : ℚ) + 1) = ((i + 1 : ℕ) : ℚ) := by push_cast; rfl
  rw [e]
  cases t with
  | integer b =>
    simp only [NumType.places] at h
    exact ⟨double_nat (by omega), double_nat (by omega)⟩
  | single =>
    simp only [NumType.places] at h
    exact ⟨single_nat (by omega), single_nat (by omega)⟩
  | double =>
    simp only [NumType.places] at h
    exact ⟨double_nat (by omega), double_nat (by omega)⟩

theorem position_exact {t : NumType} (hb : ∀ b, t = .integer b → 1 ≤ b) {n i : ℕ} (h : n ≤ t.places) (hi : i < n) : t.position i = i := by
  unfold NumType.position
  refine calc_fixed ?_ hb
  cases t with
  | integer b =>
    simp only [NumType.places] at h
    refine ⟨i, by simp, ?_, ?_⟩
    · have : (0 : ℤ) < 2 ^ (b - 1) := by positivity
      omega
    · have : i < 2 ^ (b - 1) := by omega
      exact_mod_cast this
  | single => exact (places_hold h hi).1
  | double => exact (places_hold h hi).1

/-- rounding stays between numbers of the type -/
theorem NumType.Floating.calc_between {t : NumType} (h : t.Floating) {a b x : ℚ} (ha : Holds t a) (hb : Holds t b) (h1 : a ≤ x) (h2 : x ≤ b) :
    a ≤ t.calc x ∧ t.calc x ≤ b := by
  have n1 := h.nearest x a ha
  have n2 := h.nearest x b hb
  rw [abs_of_nonpos (by linarith : a - x ≤ 0)] at n1
  rw [abs_of_nonneg (by linarith : 0 ≤ b - x)] at n2
  rw [abs_le] at n1 n2
  constructor <;> linarith

theorem shiftPlace_between (outside : ℕ → ℚ → ℤ) {t : NumType} (hb : ∀ b, t = .integer b → 1 ≤ b) {n i : ℕ} (h : n ≤ t.places) (hi : i < n) {s : ℚ}
    (h0 : 0 ≤ s) (h1 : s ≤ 1) : (i : ℚ) ≤ shiftPlace outside t s i ∧ shiftPlace outside t s i ≤ i + 1 := by
  have ht := withFloat_floating t
  obtain ⟨p1, p2⟩ := places_hold h hi
  unfold shiftPlace
  rw [position_exact hb h hi, cast_fixed outside p1, ht.cast_eq]
  have hz : Holds t.withFloat 0 := by
    have := (places_hold (t := t) (n := n) (i := 0) h (by omega)).1
    simpa using this
  have ho : Holds t.withFloat 1 := by
    have := (places_hold (t := t) (n := n) (i := 0) h (by omega)).2
    simpa using this
  obtain ⟨q1, q2⟩ := ht.calc_between hz ho h0 h1
  exact ht.calc_between p1 p2 (by linarith) (by linarith)

/-- the place is off by roundings of the position and of the shift -/
theorem shiftPlace_near (outside : ℕ → ℚ → ℤ) {t : NumType} (hb : ∀ b, t = .integer b → 1 ≤ b) {n i : ℕ} (h : n ≤ t.places) (hi : i < n) {s : ℚ}
    (h0 : 0 ≤ s) (h1 : s ≤ 1) : |shiftPlace outside t s i - (i + s)| ≤ (i + 3) * t.withFloat.unit + 3 * t.withFloat.tiny := by
  have ht := withFloat_floating t
  obtain ⟨p1, p2⟩ := places_hold h hi
  unfold shiftPlace
  rw [position_exact hb h hi, cast_fixed outside p1, ht.cast_eq]
  obtain ⟨hu, hu1, ht0, htu⟩ := ht.unit_bounds
  have hs := ht.near s
  rw [abs_of_nonneg h0] at hs
  have hi0 : (0 : ℚ) ≤ i := by positivity
  have e1 : |(i : ℚ) + t.withFloat.calc s - (i + s)| ≤ t.withFloat.unit * s + t.withFloat.tiny := by
    rw [add_sub_add_left_eq_sub]; exact hs
  have e2 := ht.step e1 (by rw [abs_of_nonneg (by linarith)] : |(i : ℚ) + s| ≤ i + s)
  refine e2.trans ?_
  generalize t.withFloat.unit = u at *
  generalize t.withFloat.tiny = e at *
  have a1 : u * s ≤ u := by nlinarith
  have a2 : u * (u * s + e) ≤ u + e := by
    have : u * s + e ≤ 1 + 1 := by nlinarith
    nlinarith
  nlinarith

/-! ## Points -/

theorem shiftPoints_exact {t : NumType} (hb : ∀ b, t = .integer b → 1 ≤ b) (row : List ℚ) (h : row.length ≤ t.places) :
    shiftPoints t row = row.zipIdx.map fun (p : ℚ × ℕ) => ((p.2 : ℚ), p.1) := by
  have e : (row.zipIdx.map fun (p : ℚ × ℕ) => (t.position p.2, p.1)) = row.zipIdx.map fun (p : ℚ × ℕ) => ((p.2 : ℚ), p.1) := by
    apply List.map_congr_left
    rintro ⟨y, i⟩ hm
    have := List.mem_zipIdx hm
    simp only [position_exact hb h (by omega : i < row.length)]
  unfold shiftPoints
  rw [e]
  apply List.Pairwise.insertionSort_eq
  rw [List.pairwise_map, List.pairwise_iff_getElem]
  intro i j hi hj hij
  simp only [List.getElem_zipIdx, zero_add]
  exact_mod_cast hij.le

/-- the points given to the interpolation -/
theorem widePoints_exact (outside : ℕ → ℚ → ℤ) {t : NumType} (hb : ∀ b, t = .integer b → 1 ≤ b) (row : List ℚ) (h : row.length ≤ t.places) :
    (shiftPoints t row).map (fun p => (t.withFloat.cast outside p.1, t.withFloat.cast outside p.2)) =
      (row.map (t.withFloat.cast outside)).zipIdx.map fun (p : ℚ × ℕ) => ((p.2 : ℚ), p.1) := by
  rw [shiftPoints_exact hb row h]
  apply List.ext_getElem (by simp)
  intro i h1 h2
  simp only [List.length_map, List.length_zipIdx] at h1
  simp only [List.getElem_map, List.getElem_zipIdx, zero_add]
  rw [cast_fixed outside (places_hold h h1).1]

theorem countP_range (n k : ℕ) (x : ℚ) (hk : k ≤ n) (h1 : ∀ j : ℕ, j < k → (j : ℚ) < x) (h2 : ∀ j : ℕ, k ≤ j → x ≤ (j : ℚ)) :
    (List.range n).countP (fun (j : ℕ) => decide ((j : ℚ) < x)) = k := by
  obtain ⟨m, rfl⟩ : ∃ m, n = k + m := ⟨n - k, by omega⟩
  rw [List.range_add, List.countP_append]
  have a : (List.range k).countP (fun (j : ℕ) => decide ((j : ℚ) < x)) = k := by
    have := List.countP_eq_length (p := fun j : ℕ => decide ((j : ℚ) < x)) (l := List.range k)
    rw [List.length_range] at this
    exact this.2 fun j hj => by simpa using h1 j (List.mem_range.1 hj)
  have b : ((List.range m).map (k + ·)).countP (fun (j : ℕ) => decide ((j : ℚ) < x)) = 0 := by
    rw [List.countP_eq_zero]
    intro j hj
    obtain ⟨i, -, rfl⟩ := List.mem_map.1 hj
    simpa using h2 (k + i) (by omega)
  rw [a, b, Nat.add_zero]

/-- interpolation at a place of the segment from `i` to `i + 1` -/
theorem interpPoints_segment (t : NumType) (W : List ℚ) (i : ℕ) (hi : i + 1 < W.length) (x : ℚ) (h1 : (i : ℚ) ≤ x) (h2 : x ≤ i + 1) :
    interpPoints t (W.zipIdx.map fun (p : ℚ × ℕ) => ((p.2 : ℚ), p.1)) x =
      .ok (if x = i ∧ 1 ≤ i then lineAt t (((i - 1 : ℕ) : ℚ), W.getD (i - 1) 0) ((i : ℚ), W.getD i 0) x
        else lineAt t ((i : ℚ), W.getD i 0) (((i + 1 : ℕ) : ℚ), W.getD (i + 1) 0) x) := by
  set pts := W.zipIdx.map fun (p : ℚ × ℕ) => ((p.2 : ℚ), p.1) with hp
  have hl : pts.length = W.length := by simp [hp]
  have hget : ∀ j : ℕ, j < W.length → pts.getD j (0, 0) = ((j : ℚ), W.getD j 0) := by
    intro j hj
    simp [hp, List.getElem?_eq_getElem hj]
  have hi0 : (0 : ℚ) ≤ i := by positivity
  have hhead : (pts.headD (0, 0)).1 = 0 := by
    have := hget 0 (by omega)
    rw [List.headD_eq_head?_getD, List.head?_eq_getElem?, ← List.getD_eq_getElem?_getD, this]
    simp
  have hlast : (pts.getLastD (0, 0)).1 = (W.length - 1 : ℕ) := by
    have := hget (W.length - 1) (by omega)
    rw [List.getLastD_eq_getLast?, List.getLast?_eq_getElem?, hl, ← List.getD_eq_getElem?_getD, this]
  have hin : ¬ (x < (pts.headD (0, 0)).1 ∨ (pts.getLastD (0, 0)).1 < x) := by
    rw [hhead, hlast]
    have : ((i + 1 : ℕ) : ℚ) ≤ ((W.length - 1 : ℕ) : ℚ) := by exact_mod_cast (by omega : i + 1 ≤ W.length - 1)
    push_cast at this
    rintro (h | h) <;> push_cast at * <;> linarith
  have hcount : pts.countP (fun p => decide (p.1 < x)) = (List.range W.length).countP (fun (j : ℕ) => decide ((j : ℚ) < x)) := by
    have e : pts.map Prod.fst = (List.range W.length).map fun j => ((j : ℕ) : ℚ) := by
      apply List.ext_getElem (by simp [hp])
      intro j h1 h2
      simp [hp]
    have e1 : pts.countP (fun p => decide (p.1 < x)) = (pts.map Prod.fst).countP (fun a => decide (a < x)) := by
      rw [List.countP_map (l := pts) (f := Prod.fst)]; rfl
    rw [e1, e, List.countP_map]
    rfl
  unfold interpPoints
  rw [if_neg hin, hcount, hl]
  simp only
  congr 1
  by_cases hx : x = i
  · have hc : (List.range W.length).countP (fun (j : ℕ) => decide ((j : ℚ) < x)) = i := by
      apply countP_range _ _ _ (by omega)
      · intro j hj
        rw [hx]; exact_mod_cast hj
      · intro j hj
        rw [hx]; exact_mod_cast hj
    rw [hc]
    by_cases h3 : 1 ≤ i
    · rw [if_pos ⟨hx, h3⟩, show min (max i 1) (W.length - 1) = i by omega, hget _ (by omega), hget _ (by omega)]
    · have : i = 0 := by omega
      subst this
      rw [if_neg (by omega), show min (max 0 1) (W.length - 1) = 1 by omega, hget _ (by omega), hget _ (by omega)]
  · have hlt : (i : ℚ) < x := lt_of_le_of_ne h1 (Ne.symm hx)
    have hc : (List.range W.length).countP (fun (j : ℕ) => decide ((j : ℚ) < x)) = i + 1 := by
      apply countP_range _ _ _ (by omega)
      · intro j hj
        have : (j : ℚ) ≤ i := by exact_mod_cast (by omega : j ≤ i)
        linarith
      · intro j hj
        have : ((i + 1 : ℕ) : ℚ) ≤ j := by exact_mod_cast hj
        push_cast at this
        linarith
    rw [hc, if_neg (fun h => hx h.1), show min (max (i + 1) 1) (W.length - 1) = i + 1 by omega, Nat.add_sub_cancel, hget _ (by omega), hget _ (by omega)]

/-! ## Rounding on a segment -/

/-- one linear interpolation over a step of one -/
theorem lineAt_near {t : NumType} (ht : t.Floating) (a ya yb x M : ℚ) (h1 : a ≤ x) (h2 : x ≤ a + 1) (ho : Holds t 1) (hya : |ya| ≤ M) (hyb : |yb| ≤ M) :
    |lineAt t (a, ya) (a + 1, yb) x - (ya + (yb - ya) * (x - a))| ≤ 16 * (t.unit * M + t.tiny) := by
  obtain ⟨hu, hu1, ht0, htu⟩ := ht.unit_bounds
  have hM : 0 ≤ M := (abs_nonneg _).trans hya
  simp only [lineAt]
  rw [show a + 1 - a = 1 by ring, ht.fixed ho, div_one]
  set u := t.unit
  set e := t.tiny
  set D := yb - ya with hD
  have hDM : |D| ≤ 2 * M := by
    rw [hD]
    exact (abs_sub _ _).trans (by linarith)
  set w := x - a with hw
  have hw0 : 0 ≤ w := by rw [hw]; linarith
  have hw1 : w ≤ 1 := by rw [hw]; linarith
  set z := u * M + e with hz
  have hz0 : 0 ≤ z := by positivity
  have huz : u * z ≤ z / 1000 := by
    have := mul_le_mul_of_nonneg_right hu1 hz0
    norm_num at this ⊢
    linarith
  have huM : u * M ≤ z := by rw [hz]; linarith
  have hez : e ≤ z := by rw [hz]; nlinarith
  -- the difference
  have s1 : |t.calc D - D| ≤ 2 * z := by
    refine (ht.near D).trans ?_
    have : u * |D| ≤ u * (2 * M) := mul_le_mul_of_nonneg_left hDM hu.le
    rw [hz]; linarith
  -- the slope
  have s2 : |t.calc (t.calc D) - D| ≤ 5 * z := by
    refine (ht.step s1 hDM).trans ?_
    change 2 * z + u * (2 * M + 2 * z) + e ≤ 5 * z
    rw [mul_add]
    linarith
  -- the place in the segment
  have s3 : |t.calc w - w| ≤ 2 * u := by
    refine (ht.near w).trans ?_
    rw [abs_of_nonneg hw0]
    change u * w + e ≤ 2 * u
    nlinarith
  have hs' : |t.calc (t.calc D)| ≤ 2 * M + 5 * z := by
    calc |t.calc (t.calc D)| = |(t.calc (t.calc D) - D) + D| := by ring_nf
      _ ≤ |t.calc (t.calc D) - D| + |D| := abs_add_le _ _
      _ ≤ _ := by linarith
  have s4 : |t.calc (t.calc D) * t.calc w - D * w| ≤ 10 * z := by
    have e1 : t.calc (t.calc D) * t.calc w - D * w = t.calc (t.calc D) * (t.calc w - w) + (t.calc (t.calc D) - D) * w := by ring
    rw [e1]
    refine (abs_add_le _ _).trans ?_
    rw [abs_mul, abs_mul, abs_of_nonneg hw0]
    have b1 : |t.calc (t.calc D)| * |t.calc w - w| ≤ (2 * M + 5 * z) * (2 * u) := mul_le_mul hs' s3 (abs_nonneg _) (by positivity)
    have b2 : |t.calc (t.calc D) - D| * w ≤ 5 * z * 1 := mul_le_mul s2 hw1 hw0 (by positivity)
    have b3 : (2 * M + 5 * z) * (2 * u) = 4 * (u * M) + 10 * (u * z) := by ring
    linarith
  have hDw : |D * w| ≤ 2 * M := by
    rw [abs_mul, abs_of_nonneg hw0]
    have := mul_le_mul hDM hw1 hw0 (by positivity)
    linarith
  have s5 : |t.calc (t.calc (t.calc D) * t.calc w) - D * w| ≤ 13 * z := by
    refine (ht.step s4 hDw).trans ?_
    change 10 * z + u * (2 * M + 10 * z) + e ≤ 13 * z
    rw [mul_add]
    have : u * (2 * M) + e ≤ 2 * z := by rw [hz]; linarith
    linarith
  have s6 : |t.calc (t.calc (t.calc D) * t.calc w) + ya - (ya + D * w)| ≤ 13 * z := by
    have e1 : t.calc (t.calc (t.calc D) * t.calc w) + ya - (ya + D * w) = t.calc (t.calc (t.calc D) * t.calc w) - D * w := by ring
    rw [e1]; exact s5
  have hyM : |ya + D * w| ≤ M := by
    rw [abs_le] at hya hyb ⊢
    rw [hD]
    constructor
    · nlinarith
    · nlinarith
  refine (ht.step s6 hyM).trans ?_
  change 13 * z + u * (M + 13 * z) + e ≤ 16 * z
  rw [mul_add]
  have : u * M + e ≤ z := le_refl _
  linarith

theorem getD_bound {row : List ℚ} {M : ℚ} (hM : ∀ y ∈ row, |y| ≤ M) {j : ℕ} (h : j < row.length) : |row.getD j 0| ≤ M := by
  have : row.getD j 0 = row[j] := by simp [List.getElem?_eq_getElem h]
  rw [this]
  exact hM _ (List.getElem_mem h)

/-- interpolation on the right segment -/
theorem segment_near {t : NumType} (ht : t.Floating) (W : List ℚ) (i : ℕ) (hi : i + 1 < W.length) (x M : ℚ) (h1 : (i : ℚ) ≤ x) (h2 : x ≤ i + 1)
    (ho : Holds t 1) (hM : ∀ y ∈ W, |y| ≤ M) :
    ∃ v, interpPoints t (W.zipIdx.map fun (p : ℚ × ℕ) => ((p.2 : ℚ), p.1)) x = .ok v ∧ |v - between W i (x - i)| ≤ 16 * (t.unit * M + t.tiny) := by
  refine ⟨_, interpPoints_segment t W i hi x h1 h2, ?_⟩
  split_ifs with hx
  · obtain ⟨hx, h3⟩ := hx
    have e : ((i - 1 : ℕ) : ℚ) + 1 = i := by
      have : ((i - 1 : ℕ) + 1 : ℕ) = i := by omega
      exact_mod_cast this
    have := lineAt_near ht ((i - 1 : ℕ) : ℚ) (W.getD (i - 1) 0) (W.getD i 0) x M (by rw [hx]; linarith) (by rw [hx]; linarith) ho
      (getD_bound hM (by omega)) (getD_bound hM (by omega))
    rw [e] at this
    have e2 : W.getD (i - 1) 0 + (W.getD i 0 - W.getD (i - 1) 0) * (x - ((i - 1 : ℕ) : ℚ)) = between W i (x - i) := by
      unfold between
      have : x - ((i - 1 : ℕ) : ℚ) = 1 := by rw [hx]; linarith
      rw [this, hx]
      ring
    rw [e2] at this
    exact this
  · have := lineAt_near ht (i : ℚ) (W.getD i 0) (W.getD (i + 1) 0) x M h1 h2 ho (getD_bound hM (by omega)) (getD_bound hM (by omega))
    push_cast
    exact this

/-! ## One row -/

theorem shiftRow_ok (outside : ℕ → ℚ → ℤ) (t : NumType) (s : ℚ) (row out : List ℚ) (h : shiftRow outside t s row.length row = .ok out) :
    out.length = row.length - 1 ∧ ∀ (i : ℕ) (h1 : i < row.length - 1) (h2 : i < out.length),
      interpPoints t.withFloat ((shiftPoints t row).map fun p => (t.withFloat.cast outside p.1, t.withFloat.cast outside p.2)) (shiftPlace outside t s i) =
        .ok out[i] := by
  unfold shiftRow at h
  rw [if_pos rfl] at h
  have hl := mapM_ok_length h
  rw [List.length_range] at hl
  refine ⟨by omega, ?_⟩
  intro i h1 h2
  have := mapM_ok_getElem h i (by rw [List.length_range]; omega) h2
  rwa [List.getElem_range] at this

theorem one_holds (t : NumType) : Holds t.withFloat 1 := by
  cases t with
  | integer b => exact ⟨1, 0, by norm_num, by norm_num, by norm_num, by norm_num⟩
  | single => exact ⟨1, 0, by norm_num, by norm_num, by norm_num, by norm_num⟩
  | double => exact ⟨1, 0, by norm_num, by norm_num, by norm_num, by norm_num⟩

theorem shiftRow_total (outside : ℕ → ℚ → ℤ) {t : NumType} (hb : ∀ b, t = .integer b → 1 ≤ b) {s : ℚ} (h0 : 0 ≤ s) (h1 : s ≤ 1) (row : List ℚ)
    (hrow : ∀ x ∈ row, Holds t.withFloat x) (hn : row.length ≤ t.places) (M : ℚ) (hM : ∀ y ∈ row, |y| ≤ M) :
    ∃ out, shiftRow outside t s row.length row = .ok out ∧ out.length = row.length - 1 ∧
      ∀ i, i + 1 < row.length → |out.getD i 0 - between row i s| ≤ (2 * i + 28) * (t.withFloat.unit * M) + 16 * t.withFloat.tiny := by
  have ht := withFloat_floating t
  have hwide : row.map (t.withFloat.cast outside) = row := by
    conv_rhs => rw [← List.map_id row]
    apply List.map_congr_left
    intro x hx
    exact cast_fixed outside (hrow x hx)
  have seg : ∀ i, i + 1 < row.length → ∃ v, interpPoints t.withFloat ((shiftPoints t row).map fun p => (t.withFloat.cast outside p.1, t.withFloat.cast outside p.2))
      (shiftPlace outside t s i) = .ok v ∧ |v - between row i s| ≤ (2 * i + 28) * (t.withFloat.unit * M) + 16 * t.withFloat.tiny := by
    intro i hi
    obtain ⟨p1, p2⟩ := shiftPlace_between outside hb hn (by omega : i < row.length) h0 h1
    have p3 := shiftPlace_near outside hb hn (by omega : i < row.length) h0 h1
    rw [widePoints_exact outside hb row hn, hwide]
    obtain ⟨v, hv, hd⟩ := segment_near ht row i hi _ M p1 p2 (one_holds t) hM
    refine ⟨v, hv, ?_⟩
    obtain ⟨hu, hu1, ht0, htu⟩ := ht.unit_bounds
    have hM0 : 0 ≤ M := (abs_nonneg _).trans (hM _ (List.getElem_mem (by omega : i < row.length)))
    have ha := getD_bound hM (by omega : i < row.length)
    have hbb := getD_bound hM (by omega : i + 1 < row.length)
    have hD : |row.getD (i + 1) 0 - row.getD i 0| ≤ 2 * M := (abs_sub _ _).trans (by linarith)
    have e : between row i (shiftPlace outside t s i - i) - between row i s =
        (row.getD (i + 1) 0 - row.getD i 0) * (shiftPlace outside t s i - (i + s)) := by
      unfold between; ring
    have h5 : |between row i (shiftPlace outside t s i - i) - between row i s| ≤ 2 * M * ((i + 3) * t.withFloat.unit + 3 * t.withFloat.tiny) := by
      rw [e, abs_mul]
      exact mul_le_mul hD p3 (abs_nonneg _) (by linarith)
    have h6 : |v - between row i s| ≤ |v - between row i (shiftPlace outside t s i - i)| + |between row i (shiftPlace outside t s i - i) - between row i s| := by
      calc |v - between row i s| = |(v - between row i (shiftPlace outside t s i - i)) + (between row i (shiftPlace outside t s i - i) - between row i s)| := by ring_nf
        _ ≤ _ := abs_add_le _ _
    have h7 : M * t.withFloat.tiny ≤ M * t.withFloat.unit := mul_le_mul_of_nonneg_left htu hM0
    nlinarith
  have hall : ∃ out, shiftRow outside t s row.length row = .ok out := by
    unfold shiftRow
    rw [if_pos rfl]
    apply mapM_exists
    intro i hi
    rw [List.mem_range] at hi
    obtain ⟨v, hv, -⟩ := seg i (by omega)
    exact ⟨v, hv⟩
  obtain ⟨out, ho⟩ := hall
  obtain ⟨hl, hget⟩ := shiftRow_ok outside t s row out ho
  refine ⟨out, ho, hl, ?_⟩
  intro i hi
  obtain ⟨v, hv, hd⟩ := seg i hi
  have := hget i (by omega) (by omega)
  rw [hv, Except.ok.injEq] at this
  have e : out.getD i 0 = out[i]'(by omega) := by simp [List.getElem?_eq_getElem (by omega : i < out.length)]
  rw [e, ← this]
  exact hd

end Resistics
