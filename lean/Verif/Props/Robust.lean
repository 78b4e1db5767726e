import Mathlib.Analysis.InnerProductSpace.PiL2
import Mathlib.Analysis.InnerProductSpace.Projection.Minimal
import Verif.Props.Solution

/-!
# Robust weights and weighted least squares (C36)
-/

namespace Resistics

/-! ## Weight functions -/

/-- The properties of a weight function on residual sizes: weights in `[0, 1]`, full weight for no residual, and never
more weight for a larger residual. -/
structure IsWeight (f : ℝ → ℝ) : Prop where
  nonneg : ∀ r, 0 ≤ r → 0 ≤ f r
  le_one : ∀ r, 0 ≤ r → f r ≤ 1
  zero : f 0 = 1
  anti : ∀ r r', 0 ≤ r → r ≤ r' → f r' ≤ f r

/-- **C36**. -/
theorem C36_bisquare (k : ℝ) (hk : 0 < k) : IsWeight (bisquare k) := by
  have hm : ∀ r, 0 ≤ r → 0 ≤ min 1 (r / k) ∧ min 1 (r / k) ≤ 1 := fun r hr =>
    ⟨le_min zero_le_one (div_nonneg hr hk.le), min_le_left _ _⟩
  refine ⟨fun r _ => sq_nonneg _, ?_, ?_, ?_⟩
  · intro r hr
    obtain ⟨h0, h1⟩ := hm r hr
    unfold bisquare
    have h2 : (min 1 (r / k)) ^ 2 ≤ 1 := by nlinarith
    have h3 := sq_nonneg (min 1 (r / k))
    nlinarith
  · simp [bisquare]
  · intro r r' hr hrr
    obtain ⟨h0, h1⟩ := hm r hr
    obtain ⟨h0', h1'⟩ := hm r' (hr.trans hrr)
    have hle : min 1 (r / k) ≤ min 1 (r' / k) := min_le_min le_rfl (by gcongr)
    unfold bisquare
    have h2 : (min 1 (r / k)) ^ 2 ≤ (min 1 (r' / k)) ^ 2 := by gcongr
    have h3 : (min 1 (r' / k)) ^ 2 ≤ 1 := by nlinarith
    nlinarith

/-- **C36**. Beyond its threshold a residual has no bisquare weight; below, it has some. -/
theorem C36_bisquare_support (k : ℝ) (hk : 0 < k) (r : ℝ) (hr : 0 ≤ r) : bisquare k r = 0 ↔ k ≤ r := by
  unfold bisquare
  constructor
  · intro h
    by_contra hlt
    push Not at hlt
    have h1 : r / k < 1 := by rw [div_lt_one hk]; exact hlt
    have h2 : 0 ≤ r / k := div_nonneg hr hk.le
    rw [min_eq_right h1.le] at h
    have h3 : 1 - (r / k) ^ 2 = 0 := by simpa using h
    nlinarith
  · intro h
    rw [min_eq_left (by rw [le_div_iff₀ hk]; linarith)]
    norm_num

/-- **C36**. -/
theorem C36_huber (k : ℝ) (hk : 0 < k) : IsWeight (huber k) := by
  refine ⟨?_, ?_, ?_, ?_⟩
  · intro r hr; unfold huber; split
    · positivity
    · norm_num
  · intro r hr; unfold huber; split
    · rename_i h; rw [div_le_one (hk.trans h)]; exact h.le
    · exact le_rfl
  · unfold huber; rw [if_neg (by linarith)]
  · intro r r' hr hrr
    unfold huber
    split
    · rename_i h'
      split
      · rename_i h; exact div_le_div_of_nonneg_left hk.le (hk.trans h) hrr
      · rw [div_le_one (hk.trans h')]; exact h'.le
    · rename_i h'
      rw [if_neg (by linarith)]

/-- **C36**. Huber weights bound the influence of a residual: weight times residual never exceeds the threshold. -/
theorem C36_huber_influence (k : ℝ) (hk : 0 < k) (r : ℝ) (hr : 0 ≤ r) : huber k r * r = min r k := by
  unfold huber
  split
  · rename_i h
    have : r ≠ 0 := by linarith
    rw [div_mul_cancel₀ _ this, min_eq_right h.le]
  · rename_i h
    rw [one_mul, min_eq_left (by linarith)]

/-- **C36**. -/
theorem C36_trimmed_mean (k : ℝ) (hk : 0 ≤ k) : IsWeight (trimmedMean k) := by
  refine ⟨?_, ?_, ?_, ?_⟩
  · intro r hr; unfold trimmedMean; split <;> norm_num
  · intro r hr; unfold trimmedMean; split <;> norm_num
  · unfold trimmedMean; rw [if_pos hk]
  · intro r r' hr hrr
    unfold trimmedMean
    split
    · rename_i h; rw [if_pos (hrr.trans h)]
    · split <;> norm_num

/-- **C36**. The functions are not made for negative arguments: bisquare exceeds one there, and Huber weights and trimmed
means ignore the size. -/
theorem C36_negative_residuals (k : ℝ) (hk : 0 < k) (r : ℝ) (hr : r < 0) :
    huber k r = 1 ∧ trimmedMean k r = 1 ∧ (2 * k ^ 2 < r ^ 2 → 1 < bisquare k r) := by
  refine ⟨?_, ?_, ?_⟩
  · unfold huber; rw [if_neg (by linarith)]
  · unfold trimmedMean; rw [if_pos (by linarith)]
  · intro h
    unfold bisquare
    have h1 : r / k < 0 := div_neg_of_neg_of_pos hr hk
    rw [min_eq_right (by linarith), div_pow]
    have h2 : 2 < r ^ 2 / k ^ 2 := by rw [lt_div_iff₀ (by positivity)]; exact h
    nlinarith

/-! ## Quantiles -/

theorem npSort_perm (l : List ℝ) : (npSort l).Perm l := List.perm_insertionSort _ _

theorem npSort_length (l : List ℝ) : (npSort l).length = l.length := (npSort_perm l).length_eq

theorem npSort_mono (l : List ℝ) (i j : ℕ) (hij : i ≤ j) (hj : j < (npSort l).length) :
    (npSort l)[i] ≤ (npSort l)[j] := by
  have h : (npSort l).Pairwise (· ≤ ·) := by unfold npSort; exact List.pairwise_insertionSort _ _
  rcases hij.lt_or_eq with h' | h'
  · exact List.pairwise_iff_getElem.mp h i j (by omega) hj h'
  · subst h'; exact le_rfl

/-- Interpolation in the sorted list. -/
theorem npQuantile_between (l : List ℝ) (hl : l ≠ []) (q : ℝ) (h0 : 0 ≤ q) (h1 : q ≤ 1) :
    ∃ (lo : ℕ) (hlo : lo < (npSort l).length), lo = ⌊q * ((l.length - 1 : ℕ) : ℝ)⌋₊ ∧ (npSort l)[lo] ≤ npQuantile l q ∧
      ∀ (j : ℕ) (hj : j < (npSort l).length), lo < j → npQuantile l q ≤ (npSort l)[j] := by
  have hpos : 0 < l.length := List.length_pos_of_ne_nil hl
  have hlen := npSort_length l
  have hp0 : 0 ≤ q * ((l.length - 1 : ℕ) : ℝ) := by positivity
  have hp1 : q * ((l.length - 1 : ℕ) : ℝ) ≤ ((l.length - 1 : ℕ) : ℝ) :=
    mul_le_of_le_one_left (by positivity) h1
  have hlo : ⌊q * ((l.length - 1 : ℕ) : ℝ)⌋₊ < (npSort l).length := by
    have : ⌊q * ((l.length - 1 : ℕ) : ℝ)⌋₊ ≤ l.length - 1 := by
      have := Nat.floor_le_floor hp1
      rwa [Nat.floor_natCast] at this
    omega
  refine ⟨_, hlo, rfl, ?_, ?_⟩
  · unfold npQuantile
    simp only [hlen]
    rw [List.getD_eq_getElem?_getD, List.getElem?_eq_getElem hlo]
    have hf := Nat.floor_le hp0
    rw [List.getD_eq_getElem?_getD]
    rcases Nat.lt_or_ge (⌊q * ((l.length - 1 : ℕ) : ℝ)⌋₊ + 1) (npSort l).length with h | h
    · rw [List.getElem?_eq_getElem h]
      have := npSort_mono l _ _ (Nat.le_succ _) h
      simp only [Option.getD_some]
      nlinarith
    · rw [List.getElem?_eq_none h]
      simp
  · intro j hj hlj
    unfold npQuantile
    simp only [hlen]
    rw [List.getD_eq_getElem?_getD, List.getElem?_eq_getElem hlo]
    have hf := Nat.lt_floor_add_one (q * ((l.length - 1 : ℕ) : ℝ))
    have h : ⌊q * ((l.length - 1 : ℕ) : ℝ)⌋₊ + 1 < (npSort l).length := by omega
    rw [List.getD_eq_getElem?_getD, List.getElem?_eq_getElem h]
    have h2 := npSort_mono l _ _ (Nat.le_succ _) h
    have h3 := npSort_mono l _ j hlj hj
    simp only [Option.getD_some]
    have hf0 := Nat.floor_le hp0
    simp only [Nat.succ_eq_add_one] at h2 h3
    nlinarith

theorem npQuantile_mono (l : List ℝ) (hl : l ≠ []) (q q' : ℝ) (h0 : 0 ≤ q) (hq : q ≤ q') (h1 : q' ≤ 1) :
    npQuantile l q ≤ npQuantile l q' := by
  obtain ⟨lo, hlo, e, -, ha2⟩ := npQuantile_between l hl q h0 (hq.trans h1)
  obtain ⟨lo', hlo', e', hb1, -⟩ := npQuantile_between l hl q' (h0.trans hq) h1
  have hp : q * ((l.length - 1 : ℕ) : ℝ) ≤ q' * ((l.length - 1 : ℕ) : ℝ) := by gcongr
  have hle : lo ≤ lo' := by rw [e, e']; exact Nat.floor_le_floor hp
  rcases hle.lt_or_eq with h | h
  · exact (ha2 lo' hlo' h).trans hb1
  · -- same interval: the interpolation increases
    have hlen := npSort_length l
    unfold npQuantile
    simp only [hlen, ← e, ← e', ← h]
    have : (npSort l).getD lo 0 ≤ (npSort l).getD (lo + 1) ((npSort l).getD lo 0) := by
      rw [List.getD_eq_getElem?_getD, List.getD_eq_getElem?_getD, List.getElem?_eq_getElem hlo]
      rcases Nat.lt_or_ge (lo + 1) (npSort l).length with h | h
      · rw [List.getElem?_eq_getElem h]; exact npSort_mono l _ _ (Nat.le_succ _) h
      · rw [List.getElem?_eq_none h]; simp
    nlinarith

theorem robustScale_pos (l : List ℝ) (hl : l ≠ []) : 0 < robustScale l := by
  have := npQuantile_mono l hl (1 / 4) (3 / 4) (by norm_num) (by norm_num) (by norm_num)
  unfold robustScale
  simp only
  split
  · norm_num
  · rename_i h
    have : npQuantile l (3 / 4) - npQuantile l (1 / 4) ≠ 0 := h
    exact lt_of_le_of_ne (by linarith) (Ne.symm this)

/-! ## Weighted least squares -/

/-- The weight which an iteration gives a residual: one up to the median plus twice the scale, then none. -/
theorem wlsWeights_eq (preds : List (List ℝ)) (obs coef : List ℝ) :
    let res := absResiduals preds obs coef
    wlsWeights preds obs coef =
      res.map fun x => trimmedMean (npQuantile res (1 / 2) + 2 * robustScale res) x := by
  intro res
  unfold wlsWeights robustScaled
  rw [List.map_map]
  refine List.map_congr_left fun x hx => ?_
  have hne : res ≠ [] := List.ne_nil_of_mem hx
  have hs := robustScale_pos res hne
  simp only [Function.comp, trimmedMean]
  congr 1
  rw [div_le_iff₀ hs]
  exact propext ⟨fun h => by linarith, fun h => by linarith⟩

/-- Specification: `v` is the percentile `100 q` of the numbers `l`: with the numbers in increasing order as `s 0 ≤ s 1 ≤ …`,
it is the number at the position `q (n - 1)`, by linear interpolation between the two numbers next to it when the
position is not whole. -/
def IsPercentile (l : List ℝ) (q v : ℝ) : Prop :=
  ∃ s : List ℝ, s.Perm l ∧ s.Pairwise (· ≤ ·) ∧
    (∀ k : ℕ, q * ((l.length : ℝ) - 1) = k → s[k]? = some v) ∧
    ∀ (k : ℕ) (a b : ℝ), (k : ℝ) < q * ((l.length : ℝ) - 1) → q * ((l.length : ℝ) - 1) < k + 1 → s[k]? = some a →
      s[k + 1]? = some b → v = a + (q * ((l.length : ℝ) - 1) - k) * (b - a)

theorem npQuantile_percentile (l : List ℝ) (hl : l ≠ []) (q : ℝ) (h0 : 0 ≤ q) (h1 : q ≤ 1) :
    IsPercentile l q (npQuantile l q) := by
  have hpos : 0 < l.length := List.length_pos_of_ne_nil hl
  have hcast : ((l.length - 1 : ℕ) : ℝ) = (l.length : ℝ) - 1 := by push_cast [Nat.cast_sub hpos]; ring
  have hlen := npSort_length l
  refine ⟨npSort l, npSort_perm l, by unfold npSort; exact List.pairwise_insertionSort _ _, ?_, ?_⟩
  · intro k hk
    have hk' : k < (npSort l).length := by
      have h2 : (k : ℝ) ≤ (l.length : ℝ) - 1 := by
        rw [← hk]; exact mul_le_of_le_one_left (by rw [← hcast]; positivity) h1
      have h3 : (k : ℝ) < (l.length : ℝ) := by linarith
      rw [hlen]; exact_mod_cast h3
    unfold npQuantile
    simp only [hlen, hcast, hk, Nat.floor_natCast, sub_self, mul_zero, add_zero]
    rw [List.getD_eq_getElem?_getD, List.getElem?_eq_getElem hk']; rfl
  · intro k a b hlo hhi ha hb
    have hfl : ⌊q * ((l.length : ℝ) - 1)⌋₊ = k := by
      rw [Nat.floor_eq_iff (by rw [← hcast]; positivity)]; exact ⟨hlo.le, hhi⟩
    unfold npQuantile
    simp only [hlen, hcast, hfl]
    rw [List.getD_eq_getElem?_getD, List.getD_eq_getElem?_getD, ha, hb]
    simp only [Option.getD_some]; ring

open scoped Classical in
/-- **C36**. After each fit, an equation keeps its full weight exactly when its absolute residual is at most the median
plus twice the interquartile range of all absolute residuals (the range counting as one when it is zero), and otherwise
has no weight. -/
theorem C36_trim_rule (preds : List (List ℝ)) (obs coef : List ℝ) (hp : preds ≠ []) (ho : obs ≠ []) :
    ∃ res med q1 q3, res.length = min obs.length preds.length ∧
      IsPercentile res (1 / 2) med ∧ IsPercentile res (1 / 4) q1 ∧ IsPercentile res (3 / 4) q3 ∧
      ∀ (i : ℕ) (row : List ℝ) (o : ℝ), preds[i]? = some row → obs[i]? = some o →
        ∃ x, res[i]? = some x ∧ x = |o - (List.zipWith (· * ·) row coef).sum| ∧
          (wlsWeights preds obs coef)[i]? =
            some (if x ≤ med + 2 * (if q3 = q1 then 1 else q3 - q1) then 1 else 0) := by
  have hlen : (absResiduals preds obs coef).length = min obs.length preds.length := by simp [absResiduals, predict]
  have hne : absResiduals preds obs coef ≠ [] := by
    have h1 := List.length_pos_of_ne_nil hp
    have h2 := List.length_pos_of_ne_nil ho
    exact List.ne_nil_of_length_pos (by omega)
  refine ⟨absResiduals preds obs coef, _, _, _, hlen, npQuantile_percentile _ hne _ (by norm_num) (by norm_num),
    npQuantile_percentile _ hne _ (by norm_num) (by norm_num), npQuantile_percentile _ hne _ (by norm_num) (by norm_num), ?_⟩
  intro i row o hrow hobs
  have hx : (absResiduals preds obs coef)[i]? = some |o - (List.zipWith (· * ·) row coef).sum| := by
    simp [absResiduals, predict, List.getElem?_zipWith, hobs, hrow]
  refine ⟨_, hx, rfl, ?_⟩
  rw [wlsWeights_eq]
  simp only [List.getElem?_map, hx, Option.map_some]
  unfold trimmedMean robustScale
  simp only [sub_eq_zero]

/-- **C36**. At least half of the equations keep their full weight after every fit: the next fit never runs out of data. -/
theorem C36_half_kept (preds : List (List ℝ)) (obs coef : List ℝ) :
    (wlsWeights preds obs coef).length ≤ 2 * (wlsWeights preds obs coef).countP (fun w => w = 1) := by
  rw [wlsWeights_eq]
  generalize hres : absResiduals preds obs coef = res
  simp only [List.length_map, List.countP_map]
  rcases eq_or_ne res [] with rfl | hne
  · simp
  have hs := robustScale_pos res hne
  obtain ⟨lo, hlo, e, h1, -⟩ := npQuantile_between res hne (1 / 2) (by norm_num) (by norm_num)
  rw [← (npSort_perm res).countP_eq]
  have hpos : 0 < res.length := List.length_pos_of_ne_nil hne
  have hlen := npSort_length res
  have hhalf : res.length ≤ 2 * (lo + 1) := by
    have : (1 / 2 : ℝ) * ((res.length - 1 : ℕ) : ℝ) < lo + 1 := by rw [e]; exact Nat.lt_floor_add_one _
    have h2 : ((res.length - 1 : ℕ) : ℝ) < ((2 * (lo + 1) : ℕ) : ℝ) := by push_cast; linarith
    have := Nat.cast_lt.mp h2
    omega
  have htake : lo + 1 ≤ (npSort res).countP ((fun w => decide (w = 1)) ∘ fun x =>
      trimmedMean (npQuantile res (1 / 2) + 2 * robustScale res) x) := by
    have hall : ((npSort res).take (lo + 1)).countP ((fun w => decide (w = 1)) ∘ fun x =>
        trimmedMean (npQuantile res (1 / 2) + 2 * robustScale res) x) = ((npSort res).take (lo + 1)).length := by
      rw [List.countP_eq_length]
      intro x hx
      obtain ⟨j, hj, rfl⟩ := List.mem_iff_getElem.mp hx
      rw [List.length_take] at hj
      rw [List.getElem_take]
      have := npSort_mono res j lo (by omega) hlo
      refine decide_eq_true ?_
      show trimmedMean _ _ = 1
      unfold trimmedMean
      rw [if_pos (by linarith)]
    have hsub := List.Sublist.countP_le (p := ((fun w => decide (w = 1)) ∘ fun x =>
        trimmedMean (npQuantile res (1 / 2) + 2 * robustScale res) x)) (List.take_sublist (lo + 1) (npSort res))
    rw [hall, List.length_take] at hsub
    omega
  omega

theorem absResiduals_exact (preds : List (List ℝ)) (obs coef : List ℝ) (h : predict preds coef = obs) :
    absResiduals preds obs coef = List.replicate obs.length 0 := by
  unfold absResiduals
  rw [h, List.zipWith_self]
  simp [List.eq_replicate_iff]

theorem npQuantile_replicate (n : ℕ) (q : ℝ) (h0 : 0 ≤ q) (h1 : q ≤ 1) : npQuantile (List.replicate n 0) q = 0 := by
  rcases Nat.eq_zero_or_pos n with rfl | hn
  · simp [npQuantile, npSort]
  · have hs : npSort (List.replicate n 0) = List.replicate n 0 :=
      List.eq_replicate_iff.mpr ⟨by rw [npSort_length, List.length_replicate], fun b hb =>
        List.eq_of_mem_replicate ((npSort_perm _).mem_iff.mp hb)⟩
    unfold npQuantile
    simp only [hs]
    have hz : ∀ i (d : ℝ), d = 0 → (List.replicate n (0 : ℝ)).getD i d = 0 := by
      intro i d hd
      rw [List.getD_eq_getElem?_getD, List.getElem?_replicate]
      split <;> simp [hd]
    rw [hz _ 0 rfl, hz _ 0 rfl]
    ring

theorem wlsWeights_exact (preds : List (List ℝ)) (obs coef : List ℝ) (h : predict preds coef = obs) :
    wlsWeights preds obs coef = List.replicate obs.length 1 := by
  unfold wlsWeights robustScaled
  rw [absResiduals_exact preds obs coef h, npQuantile_replicate _ _ (by norm_num) (by norm_num)]
  simp [trimmedMean]

/-- **C36**. When the first, unweighted fit leaves no residual, no equation loses weight, and the result after any number
of iterations is that of the unweighted fit: weighted and ordinary least squares agree on exact data. -/
theorem C36_exact_data (fit : List (List ℝ) → List ℝ → List ℝ → Except Err (List ℝ)) (nIter : ℤ) (hn : 0 < nIter)
    (preds : List (List ℝ)) (obs coef : List ℝ) (hfit : fit preds obs (List.replicate obs.length 1) = .ok coef)
    (hex : predict preds coef = obs) : wlsCoef fit nIter preds obs = .ok coef := by
  have loop : ∀ n, wlsLoop fit preds obs n (List.replicate obs.length 1) (some coef) = .ok coef := by
    intro n
    induction n with
    | zero => rfl
    | succ n ih =>
      unfold wlsLoop
      rw [hfit]
      simp only [bind, Except.bind, wlsWeights_exact preds obs coef hex, ih]
  unfold wlsCoef
  obtain ⟨n, hn'⟩ : ∃ n, nIter.toNat = n + 1 := ⟨nIter.toNat - 1, by omega⟩
  rw [hn', wlsLoop, hfit]
  simp only [bind, Except.bind, wlsWeights_exact preds obs coef hex, loop]

/-- **C36**. Without iterations there are no coefficients. -/
theorem C36_no_iterations (fit : List (List ℝ) → List ℝ → List ℝ → Except Err (List ℝ)) (nIter : ℤ) (hn : nIter ≤ 0)
    (preds : List (List ℝ)) (obs : List ℝ) : wlsCoef fit nIter preds obs = .error .attribute := by
  unfold wlsCoef
  rw [show nIter.toNat = 0 by omega]
  rfl

/-- **C36**. Every result is the fit of the equations with weights of zero or one, at least half of them one. -/
theorem C36_result_is_a_fit (fit : List (List ℝ) → List ℝ → List ℝ → Except Err (List ℝ)) (nIter : ℤ)
    (preds : List (List ℝ)) (obs coef : List ℝ) (hlen : preds.length = obs.length)
    (h : wlsCoef fit nIter preds obs = .ok coef) :
    ∃ weights, fit preds obs weights = .ok coef ∧ weights.length = obs.length ∧ (∀ w ∈ weights, w = 0 ∨ w = 1) ∧
      obs.length ≤ 2 * weights.countP (fun w => w = 1) := by
  let Good : List ℝ → Prop := fun weights => weights.length = obs.length ∧ (∀ w ∈ weights, w = 0 ∨ w = 1) ∧
      obs.length ≤ 2 * weights.countP (fun w => w = 1)
  have hgood : ∀ coef, Good (wlsWeights preds obs coef) := by
    intro coef
    have hl : (wlsWeights preds obs coef).length = obs.length := by
      simp [wlsWeights, robustScaled, absResiduals, predict, hlen]
    refine ⟨hl, ?_, ?_⟩
    · intro w hw
      unfold wlsWeights at hw
      simp only [List.mem_map] at hw
      obtain ⟨x, -, rfl⟩ := hw
      unfold trimmedMean
      split
      · exact Or.inr rfl
      · exact Or.inl rfl
    · have := C36_half_kept preds obs coef
      rwa [hl] at this
  have loop : ∀ n weights last, Good weights → (∀ c, last = some c → ∃ w, fit preds obs w = .ok c ∧ Good w) →
      wlsLoop fit preds obs n weights last = .ok coef → ∃ w, fit preds obs w = .ok coef ∧ Good w := by
    intro n
    induction n with
    | zero =>
      intro weights last _ hlast h
      cases last with
      | none => simp [wlsLoop] at h
      | some c =>
        simp only [wlsLoop, Except.ok.injEq] at h
        subst h; exact hlast c rfl
    | succ n ih =>
      intro weights last hw _ h
      unfold wlsLoop at h
      rw [except_bind_ok] at h
      obtain ⟨c, h1, h2⟩ := h
      exact ih _ _ (hgood c) (fun c' hc' => by
        rw [Option.some.injEq] at hc'; subst hc'; exact ⟨weights, h1, hw⟩) h2
  exact loop nIter.toNat _ none ⟨by simp, fun w hw => Or.inr (List.eq_of_mem_replicate hw), by
    simp [List.countP_replicate]; omega⟩ (by simp) h

/-! ## Recovery of an exact transfer function -/

/-- The sum of the squared residuals. -/
def sqResidual (preds : List (List ℝ)) (obs coef : List ℝ) : ℝ :=
  (List.zipWith (fun o p => (o - p) ^ 2) obs (predict preds coef)).sum

/-- A regression that returns, for every non-empty system with rows of `n > 0` numbers, `n` coefficients whose squared
residuals are as small as any. -/
def LeastSquares (getCoef : List (List ℝ) → List ℝ → Except Err (List ℝ)) : Prop :=
  ∀ (n : ℕ) (preds : List (List ℝ)) (obs : List ℝ), 0 < n → preds ≠ [] → obs.length = preds.length →
    (∀ row ∈ preds, row.length = n) → ∃ coef, getCoef preds obs = .ok coef ∧ coef.length = n ∧
      ∀ c : List ℝ, c.length = n → sqResidual preds obs coef ≤ sqResidual preds obs c

theorem zipWith_sq_zero (a b : List ℝ) (h : a.length = b.length) :
    (List.zipWith (fun o p => (o - p) ^ 2) a b).sum ≤ 0 → b = a := by
  have hnn : ∀ a b : List ℝ, 0 ≤ (List.zipWith (fun o p => (o - p) ^ 2) a b).sum := by
    intro a
    induction a with
    | nil => simp
    | cons x a ih =>
      intro b
      cases b with
      | nil => simp
      | cons y b =>
        rw [List.zipWith_cons_cons, List.sum_cons]
        have := ih b
        positivity
  induction a generalizing b with
  | nil => intro _; simpa using h.symm
  | cons x a ih =>
    cases b with
    | nil => simp at h
    | cons y b =>
      intro hs
      rw [List.zipWith_cons_cons, List.sum_cons] at hs
      have h1 := hnn a b
      have h2 := sq_nonneg (x - y)
      have h3 : (x - y) ^ 2 = 0 := by linarith
      have h4 : x = y := by
        have := pow_eq_zero_iff (two_ne_zero) |>.mp h3; linarith
      rw [h4, ih b (by simpa using h) (by linarith)]

/-- Least squares leaves no residual when some coefficients do not. -/
theorem leastSquares_exact {getCoef : List (List ℝ) → List ℝ → Except Err (List ℝ)} (hls : LeastSquares getCoef)
    (n : ℕ) (preds : List (List ℝ)) (obs : List ℝ) (hpos : 0 < n) (hne : preds ≠ []) (hlen : obs.length = preds.length)
    (hrows : ∀ row ∈ preds, row.length = n) (c : List ℝ) (hc : c.length = n) (hex : predict preds c = obs) :
    ∃ coef, getCoef preds obs = .ok coef ∧ coef.length = n ∧ predict preds coef = obs := by
  obtain ⟨coef, h1, h2, h3⟩ := hls n preds obs hpos hne hlen hrows
  refine ⟨coef, h1, h2, ?_⟩
  have h4 := h3 c hc
  have h5 : sqResidual preds obs c = 0 := by
    unfold sqResidual
    rw [hex, List.zipWith_self]
    simp
  rw [h5] at h4
  exact zipWith_sq_zero obs (predict preds coef) (by simp [predict, hlen]) h4

/-- A regression that leaves no residual whenever some coefficients leave none. -/
def FitsExactly (getCoef : List (List ℝ) → List ℝ → Except Err (List ℝ)) : Prop :=
  ∀ (n : ℕ) (preds : List (List ℝ)) (obs : List ℝ), 0 < n → preds ≠ [] → obs.length = preds.length →
    (∀ row ∈ preds, row.length = n) → ∀ c : List ℝ, c.length = n → predict preds c = obs →
    ∃ coef, getCoef preds obs = .ok coef ∧ coef.length = n ∧ predict preds coef = obs

/-- **C33**. Least squares regressions fit exactly. -/
theorem C33_least_squares_fits {getCoef : List (List ℝ) → List ℝ → Except Err (List ℝ)} (hls : LeastSquares getCoef) :
    FitsExactly getCoef := fun n preds obs hpos hne hlen hrows c hc hex =>
  leastSquares_exact hls n preds obs hpos hne hlen hrows c hc hex

theorem realCoefs_coefComplex (n : ℕ) (coef : List ℝ) (h : coef.length = 2 * n) :
    realCoefs n (coefComplex coef) = coef := by
  induction n generalizing coef with
  | zero => rw [List.length_eq_zero_iff.mp h]; rfl
  | succ n ih =>
    match coef, h with
    | x :: y :: rest, h =>
      have hr : rest.length = 2 * n := by simp at h; omega
      have := ih rest hr
      unfold realCoefs at this ⊢
      rw [List.range_succ_eq_map, List.flatMap_cons, List.flatMap_map]
      simp only [coefComplex, Nat.mul_zero, List.getD_cons_zero, zero_add, List.getD_cons_succ, List.cons_append,
        List.nil_append]
      exact congrArg (fun t => x :: y :: t) this
    | [], h => simp at h
    | [_], h => simp at h; omega

open scoped ComplexConjugate
open Finset (range)

/-- **C33, C34**. Recovery: when the output spectra of every window are exactly `Z` times the input spectra, and the
inputs are independent of each other over the windows and cross channels, then preparing the gathered data and solving
with any least squares regression (or any other that fits exact data exactly) returns exactly `Z`, for every evaluation
frequency and every pair of channels. -/
theorem C33_recovery (getCoef : List (List ℝ) → List ℝ → Except Err (List ℝ)) (hls : FitsExactly getCoef)
    (tf : TransFunc) (hc : CountsOk tf) (hk : KeysDistinct tf) (hnd : tf.outChans.Nodup)
    (hi : tf.inChans ≠ []) (hx : tf.crossChans ≠ [])
    (g : Gathered ℂ) (nw : ℕ → ℕ) (F I C : ℕ → ℕ → ℕ → ℂ) (hg : GatheredIs tf g nw F I C)
    (hnw : ∀ k < g.outData.evalFreqs.length, 0 < nw k)
    (hind : ∀ k < g.outData.evalFreqs.length, ∀ W : ℕ → ℂ,
      (∀ w < nw k, ∀ c < tf.crossChans.length, ∑ i ∈ range tf.inChans.length, W i * (I k w i * conj (C k w c)) = 0) →
      ∀ i < tf.inChans.length, W i = 0)
    (Z : ℕ → ℕ → ℕ → ℂ) (hZ : ∀ k < g.outData.evalFreqs.length, ∀ w < nw k, ∀ o < tf.outChans.length,
      F k w o = ∑ i ∈ range tf.inChans.length, Z k o i * I k w i) :
    ∃ r s, prepareGathered tf g = .ok r ∧ solveWith getCoef r = .ok s ∧ s.freqs = g.outData.evalFreqs ∧
      (∀ (o i : ℕ) (a b : String), tf.outChans[o]? = some a → tf.inChans[i]? = some b →
        s.getComponent (a ++ b) = .ok ((List.range g.outData.evalFreqs.length).map fun k => Z k o i)) ∧
      (∀ k < g.outData.evalFreqs.length, s.getTensor k = .ok ((List.range tf.outChans.length).map fun o =>
        (List.range tf.inChans.length).map fun i => Z k o i)) := by
  obtain ⟨r, hr, hrtf, hrf, hrows⟩ := C33_rows tf hnd g nw F I C hg
  -- the coefficients of every regression
  have hcoef : ∀ (k o : ℕ), ∃ coef : List ℝ, k < g.outData.evalFreqs.length → ∀ name, tf.outChans[o]? = some name →
      ∃ obs preds, r.getInputs k name = .ok (obs, preds) ∧ getCoef preds obs = .ok coef ∧
        2 * tf.inChans.length ≤ coef.length ∧ ∀ i < tf.inChans.length, coefComplex coef i = Z k o i := by
    intro k o
    by_cases hko : k < g.outData.evalFreqs.length ∧ o < tf.outChans.length
    · obtain ⟨hk', ho⟩ := hko
      have ho? : tf.outChans[o]? = some tf.outChans[o] := List.getElem?_eq_getElem ho
      obtain ⟨obs, preds, h1, h2, h3, h4, h5, h6⟩ := hrows k hk' o _ ho?
      obtain ⟨obs', preds', e1, e2⟩ := C33_exact_data tf hnd g nw F I C hg r hr k hk' o _ ho? (Z k o)
        (fun w hw => hZ k hk' w hw o ho)
      rw [h1, Except.ok.injEq, Prod.mk.injEq] at e1
      obtain ⟨rfl, rfl⟩ := e1
      have hcpos : 0 < tf.crossChans.length := List.length_pos_of_ne_nil hx
      have hpne : preds ≠ [] := by
        intro h
        rw [h, List.length_nil, h4] at h5
        have := hnw k hk'
        have : 0 < nw k * (2 * tf.crossChans.length) := by positivity
        omega
      obtain ⟨coef, g1, g2, g3⟩ := hls _ preds obs (by have := List.length_pos_of_ne_nil hi; omega) hpne h5.symm h6
        (realCoefs tf.inChans.length (Z k o)) (by simp [realCoefs, List.length_flatMap, mul_comm]) e2
      refine ⟨coef, fun _ name hname => ?_⟩
      have : name = tf.outChans[o] := by rw [ho?] at hname; simpa using hname.symm
      subst this
      refine ⟨obs, preds, h1, g1, by omega, ?_⟩
      exact C33_unique (nw k) _ _ (I k) (C k) (hind k hk') preds h3 (coefComplex coef) (Z k o) (by
        rw [realCoefs_coefComplex _ _ g2, g3, e2])
    · refine ⟨[], fun hk' name hname => ?_⟩
      exact absurd ⟨hk', (List.getElem?_eq_some_iff.mp hname).1⟩ hko
  choose coefs hcoefs using hcoef
  subst hrtf
  have hreg : Regresses getCoef r coefs := by
    intro k hk' o name hname
    rw [hrf] at hk'
    obtain ⟨obs, preds, a1, a2, a3, -⟩ := hcoefs k o hk' name hname
    exact ⟨obs, preds, a1, a2, a3⟩
  obtain ⟨s, s1, s2, s3, s4, s5, -⟩ := C34_solution getCoef r hc hk coefs hreg
  refine ⟨r, s, hr, s1, s3.trans hrf, ?_, ?_⟩
  · intro o i a b ho hi
    rw [s4 o i a b ho hi, hrf]
    congr 1
    refine List.map_congr_left fun k hk' => ?_
    obtain ⟨-, -, -, -, -, h⟩ := hcoefs k o (List.mem_range.mp hk') a ho
    exact h i (List.getElem?_eq_some_iff.mp hi).1
  · intro k hk'
    rw [s5 k (by rw [hrf]; exact hk')]
    congr 1
    refine List.map_congr_left fun o ho => ?_
    rw [List.mem_range] at ho
    obtain ⟨-, -, -, -, -, h⟩ := hcoefs k o hk' _ (List.getElem?_eq_getElem ho)
    exact List.map_congr_left fun i hi => h i (List.mem_range.mp hi)

/-! ## Least squares regressions exist, and the recovery theorem has instances -/

theorem zipWith_sum_fin {β γ : Type} (f : β → γ → ℝ) (a : List β) (b : List γ) (n : ℕ) (ha : a.length = n) (hb : b.length = n) :
    (List.zipWith f a b).sum = ∑ i : Fin n, f a[i] b[i] := by
  rw [← List.sum_ofFn]
  congr 1
  apply List.ext_getElem
  · simp [ha, hb]
  · intro i h1 h2; simp

theorem leastSquares_exists (n : ℕ) (preds : List (List ℝ)) (obs : List ℝ) (hlen : obs.length = preds.length)
    (hrows : ∀ row ∈ preds, row.length = n) :
    ∃ coef : List ℝ, coef.length = n ∧ ∀ c : List ℝ, c.length = n → sqResidual preds obs coef ≤ sqResidual preds obs c := by
  have hrl : ∀ j : Fin preds.length, (preds[j]).length = n := fun j => hrows _ (List.getElem_mem _)
  let A : Matrix (Fin preds.length) (Fin n) ℝ := fun j i => (preds[j])[i]'(by rw [hrl j]; exact i.2)
  let L : (Fin n → ℝ) →ₗ[ℝ] EuclideanSpace ℝ (Fin preds.length) :=
    (WithLp.linearEquiv 2 ℝ (Fin preds.length → ℝ)).symm.toLinearMap ∘ₗ A.mulVecLin
  let u : EuclideanSpace ℝ (Fin preds.length) := WithLp.toLp 2 fun j => obs[j]'(by rw [hlen]; exact j.2)
  have key : ∀ c : Fin n → ℝ, sqResidual preds obs (List.ofFn c) = ‖u - L c‖ ^ 2 := by
    intro c
    rw [EuclideanSpace.real_norm_sq_eq]
    unfold sqResidual
    rw [zipWith_sum_fin _ obs (predict preds (List.ofFn c)) preds.length hlen (by simp [predict])]
    apply Finset.sum_congr rfl
    intro j _
    congr 2
    simp only [predict, Fin.getElem_fin, List.getElem_map]
    rw [zipWith_sum_fin (· * ·) (preds[(j : ℕ)]) (List.ofFn c) n (hrl j) (by simp)]
    simp only [List.getElem_ofFn, Fin.getElem_fin]
    rfl
  have hcomp : IsComplete ((LinearMap.range L : Submodule ℝ _) : Set (EuclideanSpace ℝ (Fin preds.length))) :=
    Submodule.complete_of_finiteDimensional _
  obtain ⟨v, hv, hmin⟩ := (LinearMap.range L).exists_norm_eq_iInf_of_complete_subspace hcomp u
  obtain ⟨c0, rfl⟩ := hv
  refine ⟨List.ofFn c0, by simp, ?_⟩
  intro c hc
  obtain ⟨f, rfl⟩ : ∃ f : Fin n → ℝ, c = List.ofFn f := ⟨fun i => c[i], by
    apply List.ext_getElem
    · simp [hc]
    · intros; simp⟩
  rw [key, key, hmin]
  have hle : (⨅ w : ((LinearMap.range L : Submodule ℝ _) : Set (EuclideanSpace ℝ (Fin preds.length))), ‖u - w‖) ≤ ‖u - L f‖ :=
    ciInf_le ⟨0, by rintro _ ⟨w, rfl⟩; exact norm_nonneg _⟩
      (⟨L f, LinearMap.mem_range_self L f⟩ : ((LinearMap.range L : Submodule ℝ _) : Set (EuclideanSpace ℝ (Fin preds.length))))
  have h0 : 0 ≤ (⨅ w : ((LinearMap.range L : Submodule ℝ _) : Set (EuclideanSpace ℝ (Fin preds.length))), ‖u - w‖) :=
    Real.iInf_nonneg fun _ => norm_nonneg _
  exact pow_le_pow_left₀ h0 hle 2

/-- A least squares regression, by choice. -/
noncomputable def someLeastSquares (preds : List (List ℝ)) (obs : List ℝ) : Except Err (List ℝ) :=
  open Classical in
  if h : ∃ n, ∃ coef : List ℝ, (∀ row ∈ preds, row.length = n) ∧ coef.length = n ∧
      ∀ c : List ℝ, c.length = n → sqResidual preds obs coef ≤ sqResidual preds obs c
  then .ok h.choose_spec.choose else .error .value

theorem someLeastSquares_spec : LeastSquares someLeastSquares := by
  intro n preds obs _ hne hlen hrows
  have h : ∃ n, ∃ coef : List ℝ, (∀ row ∈ preds, row.length = n) ∧ coef.length = n ∧
      ∀ c : List ℝ, c.length = n → sqResidual preds obs coef ≤ sqResidual preds obs c := by
    obtain ⟨coef, h1, h2⟩ := leastSquares_exists n preds obs hlen hrows
    exact ⟨n, coef, hrows, h1, h2⟩
  refine ⟨h.choose_spec.choose, ?_, ?_⟩
  · unfold someLeastSquares; rw [dif_pos h]
  · obtain ⟨a1, a2, a3⟩ := h.choose_spec.choose_spec
    have hn : h.choose = n := by
      obtain ⟨row, rest, rfl⟩ := List.exists_cons_of_ne_nil hne
      rw [← a1 row (by simp), hrows row (by simp)]
    exact ⟨a2.trans hn, fun c hc => a3 c (hc.trans hn.symm)⟩

/-- a transfer function from one magnetic to one electric channel -/
def demoTf1 : TransFunc := ⟨"TransferFunction", "generic", ["E"], ["H"], ["H"], 1, 1, 1⟩
/-- gathered data of one frequency and two windows, with `E = 3j H` -/
noncomputable def demoGathered : Gathered ℂ where
  outData := ⟨"s", 8, ["m"], ["E"], 1, [2], [], [(0, [some [6 * Complex.I], some [3 * Complex.I]])]⟩
  inData := ⟨"s", 8, ["m"], ["H"], 1, [2], [], [(0, [some [2], some [1]])]⟩
  crossData := ⟨"s", 8, ["m"], ["H"], 1, [2], [], [(0, [some [2], some [1]])]⟩

example : ∃ r s, prepareGathered demoTf1 demoGathered = .ok r ∧ solveWith someLeastSquares r = .ok s ∧
    s.getComponent "EH" = .ok [3 * Complex.I] := by
  obtain ⟨r, s, h1, h2, -, h3, -⟩ := C33_recovery someLeastSquares (C33_least_squares_fits someLeastSquares_spec) demoTf1 ⟨rfl, rfl⟩
    (C35_equal_lengths demoTf1 (by decide) (by decide) (Or.inl ⟨1, by decide⟩)) (by decide) (by simp [demoTf1]) (by simp [demoTf1])
    demoGathered (fun _ => 2) (fun _ w _ => if w = 0 then 6 * Complex.I else 3 * Complex.I)
    (fun _ w _ => if w = 0 then 2 else 1) (fun _ w _ => if w = 0 then 2 else 1)
    ⟨rfl, rfl, by
      intro k hk
      have : k = 0 := by simpa [demoGathered] using hk
      subst this
      simp [demoGathered, demoTf1, arr2, List.range_succ], by
      intro k hk
      have : k = 0 := by simpa [demoGathered] using hk
      subst this
      simp [demoGathered, demoTf1, arr2, List.range_succ], by
      intro k hk
      have : k = 0 := by simpa [demoGathered] using hk
      subst this
      simp [demoGathered, demoTf1, arr2, List.range_succ]⟩
    (by simp)
    (by
      intro k hk W h i hi
      have h0 := h 0 (by norm_num) 0 (by simp [demoTf1])
      have : i = 0 := by simpa [demoTf1] using hi
      subst this
      simpa [demoTf1] using h0)
    (fun _ _ _ => 3 * Complex.I)
    (by
      intro k hk w hw o ho
      simp only [demoTf1, List.length_singleton, Finset.sum_range_one]
      split <;> ring)
  refine ⟨r, s, h1, h2, ?_⟩
  have := h3 0 0 "E" "H" rfl rfl
  simpa [demoGathered] using this

end Resistics
