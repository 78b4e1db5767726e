import Verif.Props.Accuracy
import Verif.Props.Solvers

/-!
# C89: how accurate the iteratively weighted least squares solver is on noisy data
-/

namespace Resistics

open scoped ComplexConjugate
open Finset (range)

/-! ## Specification -/

/-- Specification: weights of zero or one, at least half of them one. -/
structure HalfKept (weights : List ℝ) (rows : ℕ) : Prop where
  length : weights.length = rows
  values : ∀ w ∈ weights, w = 0 ∨ w = 1
  half : rows ≤ 2 * weights.countP (fun w => w = 1)

/-- The size of the numbers of weight one. -/
noncomputable def keptSize (weights values : List ℝ) : ℝ := √(List.zipWith (fun w x => w * x ^ 2) weights values).sum

/-- Whatever half of the (real) equations is left: coefficients of size one contribute at least `σ` to them. -/
def HalfGain (n : ℕ) (preds : List (List ℝ)) (σ : ℝ) : Prop :=
  ∀ weights c : List ℝ, HalfKept weights preds.length → c.length = n → σ * √(c.map (· ^ 2)).sum ≤ keptSize weights (predict preds c)

/-! ## Lemmas -/

theorem dot_line (t : ℝ) (row a b : List ℝ) (h : a.length = b.length) :
    (List.zipWith (· * ·) row (List.zipWith (fun a b => a - t * (a - b)) a b)).sum =
      (List.zipWith (· * ·) row a).sum - t * ((List.zipWith (· * ·) row a).sum - (List.zipWith (· * ·) row b).sum) := by
  induction row generalizing a b with
  | nil => simp
  | cons x row ih =>
    cases a with
    | nil => cases b with
      | nil => simp
      | cons => simp at h
    | cons y a =>
      cases b with
      | nil => simp at h
      | cons z b =>
        simp only [List.zipWith_cons_cons, List.sum_cons]
        rw [ih a b (by simpa using h)]
        ring

theorem predict_line (t : ℝ) (preds : List (List ℝ)) (a b : List ℝ) (h : a.length = b.length) :
    predict preds (List.zipWith (fun a b => a - t * (a - b)) a b) =
      List.zipWith (fun x y => x - t * (x - y)) (predict preds a) (predict preds b) := by
  unfold predict
  simp only [List.zipWith_map, List.zipWith_self]
  exact List.map_congr_left fun row _ => dot_line t row a b h

theorem dot_difference (row a b : List ℝ) (h : a.length = b.length) :
    (List.zipWith (· * ·) row (List.zipWith (fun a b => a - b) a b)).sum = (List.zipWith (· * ·) row a).sum - (List.zipWith (· * ·) row b).sum := by
  induction row generalizing a b with
  | nil => simp
  | cons x row ih =>
    cases a with
    | nil => cases b with
      | nil => simp
      | cons => simp at h
    | cons y a =>
      cases b with
      | nil => simp at h
      | cons z b =>
        simp only [List.zipWith_cons_cons, List.sum_cons]
        rw [ih a b (by simpa using h)]
        ring

theorem predict_difference (preds : List (List ℝ)) (a b : List ℝ) (h : a.length = b.length) :
    predict preds (List.zipWith (fun a b => a - b) a b) = List.zipWith (fun x y => x - y) (predict preds a) (predict preds b) := by
  unfold predict
  simp only [List.zipWith_map, List.zipWith_self]
  exact List.map_congr_left fun row _ => dot_difference row a b h

/-- numbers of weight one as a vector -/
noncomputable def keptVector (weights values : List ℝ) (N : ℕ) : EuclideanSpace ℝ (Fin N) := WithLp.toLp 2 fun j => weights.getD j 0 * values.getD j 0

theorem keptSize_eq_norm (weights values : List ℝ) (N : ℕ) (hw : weights.length = N) (hv : values.length = N) (h01 : ∀ w ∈ weights, w = 0 ∨ w = 1) :
    keptSize weights values = ‖keptVector weights values N‖ := by
  rw [keptSize, zipWith_sum_fin _ _ _ N hw hv, EuclideanSpace.norm_eq]
  congr 1
  refine Finset.sum_congr rfl fun j _ => ?_
  have hj1 : j.1 < weights.length := by omega
  have hj2 : j.1 < values.length := by omega
  simp only [keptVector, Real.norm_eq_abs, sq_abs, List.getD_eq_getElem?_getD, List.getElem?_eq_getElem hj1, List.getElem?_eq_getElem hj2, Option.getD_some]
  rcases h01 _ (List.getElem_mem hj1) with h | h <;> simp [h]

theorem kept_pythagoras (weights obs p q : List ℝ) (N : ℕ) (hw : weights.length = N) (h01 : ∀ w ∈ weights, w = 0 ∨ w = 1)
    (ho : obs.length = N) (hp : p.length = N) (hq : q.length = N)
    (h : ∀ t : ℝ, keptSize weights (List.zipWith (· - ·) obs p) ≤ keptSize weights (List.zipWith (· - ·) obs (List.zipWith (fun x y => x - t * (x - y)) p q))) :
    keptSize weights (List.zipWith (fun x y => x - y) p q) ≤ keptSize weights (List.zipWith (· - ·) obs q) := by
  rw [keptSize_eq_norm _ _ N hw (by simp [hp, hq]) h01, keptSize_eq_norm _ _ N hw (by simp [ho, hq]) h01]
  have hget : ∀ (l : List ℝ), l.length = N → ∀ j : Fin N, ∃ x, l[j.1]? = some x := fun l hl j => ⟨_, List.getElem?_eq_getElem (by omega)⟩
  have := least_pythagoras (keptVector weights (List.zipWith (· - ·) obs p) N) (keptVector weights (List.zipWith (fun x y => x - y) p q) N) (by
    intro t
    have h1 := h t
    rw [keptSize_eq_norm _ _ N hw (by simp [hp, ho]) h01, keptSize_eq_norm _ _ N hw (by simp [ho, hp, hq]) h01] at h1
    refine h1.trans (le_of_eq (congrArg norm ?_))
    ext j
    obtain ⟨x, hx⟩ := hget p hp j
    obtain ⟨y, hy⟩ := hget q hq j
    obtain ⟨z, hz⟩ := hget obs ho j
    simp only [keptVector, PiLp.add_apply, PiLp.smul_apply, smul_eq_mul, List.getD_eq_getElem?_getD, List.getElem?_zipWith, hx, hy, hz, Option.getD_some]
    ring)
  refine this.trans (le_of_eq (congrArg norm ?_))
  ext j
  obtain ⟨x, hx⟩ := hget p hp j
  obtain ⟨y, hy⟩ := hget q hq j
  obtain ⟨z, hz⟩ := hget obs ho j
  simp only [keptVector, PiLp.add_apply, List.getD_eq_getElem?_getD, List.getElem?_zipWith, hx, hy, hz, Option.getD_some]
  ring

theorem half_sum_pos {weights : List ℝ} {rows : ℕ} (h : HalfKept weights rows) (hr : 0 < rows) : 0 < weights.sum := by
  have h1 : 0 < weights.countP (fun w => w = 1) := by have := h.half; omega
  rw [List.countP_pos_iff] at h1
  obtain ⟨w, hw, hw1⟩ := h1
  have hnn : ∀ w ∈ weights, 0 ≤ w := fun w hw => by rcases h.values w hw with h | h <;> simp [h]
  have := List.single_le_sum hnn w hw
  have hw1 : w = 1 := by simpa using hw1
  linarith

theorem wls_half (preds : List (List ℝ)) (obs coef : List ℝ) (hlen : preds.length = obs.length) : HalfKept (wlsWeights preds obs coef) obs.length := by
  have hl : (wlsWeights preds obs coef).length = obs.length := by
    simp [wlsWeights, robustScaled, absResiduals, predict, hlen]
  refine ⟨hl, ?_, ?_⟩
  · intro w hw
    unfold wlsWeights at hw
    simp only [List.mem_map] at hw
    obtain ⟨x, -, rfl⟩ := hw
    unfold trimmedMean
    split
    · exact Or.inr rfl
    · exact Or.inl rfl
  · have := C36_half_kept preds obs coef
    rwa [hl] at this

theorem wlsLoop_ok (fit : List (List ℝ) → List ℝ → List ℝ → Except Err (List ℝ)) (preds : List (List ℝ)) (obs : List ℝ) (hlen : preds.length = obs.length)
    (hfit : ∀ weights, HalfKept weights obs.length → ∃ c, fit preds obs weights = .ok c) (n : ℕ) :
    ∀ weights last, HalfKept weights obs.length → (0 < n ∨ ∃ c, last = some c) → ∃ c, wlsLoop fit preds obs n weights last = .ok c := by
  induction n with
  | zero =>
    intro weights last _ h
    obtain ⟨c, rfl⟩ := h.resolve_left (by omega)
    exact ⟨c, rfl⟩
  | succ n ih =>
    intro weights last hw _
    obtain ⟨c, hc⟩ := hfit weights hw
    obtain ⟨c', hc'⟩ := ih _ (some c) (wls_half preds obs c hlen) (Or.inr ⟨c, rfl⟩)
    refine ⟨c', ?_⟩
    unfold wlsLoop
    simp only [hc, bind, Except.bind]
    exact hc'

/-- **C89**. The iteratively weighted solver, on any observations: at least half of the equations are kept, and in these the result differs from what any
coefficients predict by at most their noise: what is left of the observations of the kept equations, and of no other. -/
theorem C89_weighted (sk : Sklearn) (hsk : LinearSpec sk) (normalize : Bool) (nIter : ℤ) (hn : 0 < nIter) (n : ℕ) (preds : List (List ℝ)) (obs : List ℝ)
    (hp : Problem n preds obs) :
    ∃ coef weights, (SolverConfig.wls false normalize nIter).getCoef sk preds obs = .ok coef ∧ coef.length = n ∧ HalfKept weights obs.length ∧
      ∀ c : List ℝ, c.length = n → keptSize weights (predict preds (List.zipWith (fun a b => a - b) coef c)) ≤
        keptSize weights (List.zipWith (· - ·) obs (predict preds c)) := by
  have hrows : 0 < obs.length := by rw [hp.length]; exact List.length_pos_of_ne_nil hp.some_rows
  have hfit : ∀ weights, HalfKept weights obs.length →
      ∃ m, sk.fit (.linear false normalize) preds obs (some weights) = .ok m ∧ LeastFit false n weights preds obs m := by
    intro weights hw
    exact hsk false normalize n preds obs (some weights) hp (by
      intro ws hws
      rw [Option.some.injEq] at hws
      subst hws
      exact ⟨hw.length, fun w hw' => by rcases hw.values w hw' with h | h <;> simp [h], half_sum_pos hw hrows⟩)
  have hones : HalfKept (List.replicate obs.length 1) obs.length :=
    ⟨by simp, fun w hw => Or.inr (List.eq_of_mem_replicate hw), by simp [List.countP_replicate]; omega⟩
  obtain ⟨coef, hcoef⟩ := wlsLoop_ok (fun p o w => (sk.fit (.linear false normalize) p o (some w)).map Fitted.coef) preds obs hp.length.symm (by
    intro weights hw
    obtain ⟨m, hm, -⟩ := hfit weights hw
    exact ⟨m.coef, by simp [hm, Except.map]⟩) nIter.toNat _ none hones (Or.inl (by omega))
  obtain ⟨weights, h1, h2, h3, h4⟩ := C36_result_is_a_fit _ nIter preds obs coef hp.length.symm hcoef
  have hw : HalfKept weights obs.length := ⟨h2, h3, h4⟩
  obtain ⟨m, hm, hleast⟩ := hfit weights hw
  have hmc : m.coef = coef := by simpa [hm, Except.map] using h1
  have hm0 : m.intercept = 0 := hleast.1.2 rfl
  refine ⟨coef, weights, (C62_wls_weights sk hsk normalize nIter n preds obs hp).trans hcoef, hmc ▸ hleast.1.1, hw, fun c hc => ?_⟩
  have hlen : coef.length = c.length := by rw [← hmc, hleast.1.1, hc]
  rw [predict_difference _ _ _ hlen]
  refine kept_pythagoras weights obs _ _ obs.length h2 h3 rfl (by simp [predict, hp.length]) (by simp [predict, hp.length]) fun t => ?_
  rw [← predict_line t preds coef c hlen]
  refine Real.sqrt_le_sqrt ?_
  have := hleast.2 ⟨List.zipWith (fun a b => a - t * (a - b)) coef c, 0⟩ ⟨by simp [hc, hlen], fun _ => rfl⟩
  unfold weightedSq at this
  rw [fitted_predict_zero, fitted_predict_of_zero hm0, hmc] at this
  exact this

theorem keptSize_le (weights obs p : List ℝ) (h01 : ∀ w ∈ weights, w = 0 ∨ w = 1) :
    keptSize weights (List.zipWith (· - ·) obs p) ≤ √(List.zipWith (fun o p => (o - p) ^ 2) obs p).sum := by
  refine Real.sqrt_le_sqrt ?_
  have hnn : ∀ a b : List ℝ, 0 ≤ (List.zipWith (fun o p => (o - p) ^ 2) a b).sum := by
    intro a b
    refine List.sum_nonneg fun x hx => ?_
    rw [List.mem_iff_getElem] at hx
    obtain ⟨i, hi, rfl⟩ := hx
    rw [List.getElem_zipWith]
    exact sq_nonneg _
  induction weights generalizing obs p with
  | nil => simpa using hnn obs p
  | cons w weights ih =>
    match obs, p with
    | [], _ => simp
    | _ :: _, [] => simp
    | o :: obs, q :: p =>
      simp only [List.zipWith_cons_cons, List.sum_cons]
      have h1 := ih obs p fun w hw => h01 w (by simp [hw])
      have h2 : w * (o - q) ^ 2 ≤ (o - q) ^ 2 := by
        rcases h01 w (by simp) with h | h <;> simp [h, sq_nonneg]
      linarith

theorem sum_sq_realCoefs (n : ℕ) (Z Y : ℕ → ℂ) :
    √((List.zipWith (fun a b => a - b) (realCoefs n Z) (realCoefs n Y)).map (· ^ 2)).sum = size (range n) fun i => Z i - Y i := by
  unfold size realCoefs
  rw [List.map_zipWith, zipWith_flatMap_sum _ _ _ _ (by simp), range_sum]
  congr 1
  refine Finset.sum_congr rfl fun i _ => ?_
  rw [← Complex.normSq_eq_norm_sq, Complex.normSq_apply]
  simp
  ring

/-- **C89**. Gathered data and the iteratively weighted solver: for any transfer function `Z`, the error of the solution times the gain of the inputs in whatever half
of the equations is at most the size of the noise. -/
theorem C89_weighted_noise (sk : Sklearn) (hsk : LinearSpec sk) (normalize : Bool) (nIter : ℤ) (hn : 0 < nIter)
    (tf : TransFunc) (hc : CountsOk tf) (hk : KeysDistinct tf) (hnd : tf.outChans.Nodup) (hi : tf.inChans ≠ []) (hx : tf.crossChans ≠ [])
    (g : Gathered ℂ) (nw : ℕ → ℕ) (F I C : ℕ → ℕ → ℕ → ℂ) (hg : GatheredIs tf g nw F I C)
    (hnw : ∀ k < g.outData.evalFreqs.length, 0 < nw k) :
    ∃ r s Zh, prepareGathered tf g = .ok r ∧ solveWith ((SolverConfig.wls false normalize nIter).getCoef sk) r = .ok s ∧
      s.Holds tf g.outData.evalFreqs Zh ∧
      ∀ k < g.outData.evalFreqs.length, ∀ (o : ℕ) (name : String), tf.outChans[o]? = some name → ∃ obs preds, r.getInputs k name = .ok (obs, preds) ∧
        ∀ (Z : ℕ → ℂ) (σ : ℝ), HalfGain (2 * tf.inChans.length) preds σ →
        σ * size (range tf.inChans.length) (fun i => Zh k o i - Z i) ≤
          size (equations (nw k) tf.crossChans.length) fun p =>
            (F k p.1 o - ∑ i ∈ range tf.inChans.length, Z i * I k p.1 i) * conj (C k p.1 p.2) := by
  obtain ⟨r, hr, rfl, hrf, he⟩ := equations_exact tf hnd g nw F I C hg
  rw [← hrf] at hnw
  have hcoef : ∀ (k o : ℕ), ∃ coef : List ℝ, k < r.freqs.length → ∀ name, r.tf.outChans[o]? = some name →
      ∃ obs preds, r.getInputs k name = .ok (obs, preds) ∧ (SolverConfig.wls false normalize nIter).getCoef sk preds obs = .ok coef ∧
        coef.length = 2 * r.tf.inChans.length ∧
        ∀ (Z : ℕ → ℂ) (σ : ℝ), HalfGain (2 * r.tf.inChans.length) preds σ → σ * size (range r.tf.inChans.length) (fun i => coefComplex coef i - Z i) ≤
          misfit (nw k) r.tf.crossChans.length r.tf.inChans.length (fun w c => F k w o * conj (C k w c)) (fun w i c => I k w i * conj (C k w c)) Z := by
    intro k o
    by_cases hko : k < r.freqs.length ∧ o < r.tf.outChans.length
    · obtain ⟨hk', ho⟩ := hko
      have ho? : r.tf.outChans[o]? = some r.tf.outChans[o] := List.getElem?_eq_getElem ho
      obtain ⟨obs, preds, h1, h2, h3, h4, h5, h6⟩ := he.rows k hk' o _ ho?
      have hcpos : 0 < r.tf.crossChans.length := List.length_pos_of_ne_nil hx
      have hpne : preds ≠ [] := by
        intro h
        rw [h, List.length_nil, h4] at h5
        have := hnw k hk'
        have : 0 < nw k * (2 * r.tf.crossChans.length) := by positivity
        omega
      obtain ⟨coef, weights, g1, g2, g3, g4⟩ := C89_weighted sk hsk normalize nIter hn (2 * r.tf.inChans.length) preds obs
        ⟨by have := List.length_pos_of_ne_nil hi; omega, hpne, h5.symm, h6⟩
      refine ⟨coef, fun _ name hname => ?_⟩
      have : name = r.tf.outChans[o] := by rw [ho?] at hname; simpa using hname.symm
      subst this
      refine ⟨obs, preds, h1, g1, g2, fun Z σ hσ => ?_⟩
      have hZl : (realCoefs r.tf.inChans.length Z).length = 2 * r.tf.inChans.length := by simp [realCoefs, List.length_flatMap, mul_comm]
      have a1 := g4 (realCoefs r.tf.inChans.length Z) hZl
      have a2 := hσ weights (List.zipWith (fun a b => a - b) coef (realCoefs r.tf.inChans.length Z)) (by rw [h5]; exact g3) (by simp [g2, hZl])
      have a3 := keptSize_le weights obs (predict preds (realCoefs r.tf.inChans.length Z)) g3.values
      have a4 := sqrt_residual (P := fun k w i c => I k w i * conj (C k w c)) h2 h3 Z
      rw [← sum_sq_realCoefs, realCoefs_coefComplex _ _ g2]
      unfold sqResidual at a4
      rw [a4] at a3
      exact a2.trans (a1.trans a3)
    · refine ⟨[], fun hk' name hname => ?_⟩
      exact absurd ⟨hk', (List.getElem?_eq_some_iff.mp hname).1⟩ hko
  choose coefs hcoefs using hcoef
  have hreg : Regresses ((SolverConfig.wls false normalize nIter).getCoef sk) r coefs := by
    intro k hk' o name hname
    obtain ⟨obs, preds, a1, a2, a3, -⟩ := hcoefs k o hk' name hname
    exact ⟨obs, preds, a1, a2, a3.ge⟩
  obtain ⟨s, s1, s2, s3, s4, s5, -⟩ := C34_solution _ r hc hk coefs hreg
  rw [hrf] at s3 s4 s5
  refine ⟨r, s, fun k o => coefComplex (coefs k o), hr, s1, ⟨s3, s4, s5⟩, fun k hk' o name hname => ?_⟩
  rw [← hrf] at hk'
  obtain ⟨obs, preds, a1, -, -, a4⟩ := hcoefs k o hk' name hname
  refine ⟨obs, preds, a1, fun Z σ hσ => (a4 Z σ hσ).trans (le_of_eq ?_)⟩
  unfold misfit
  congr 1
  funext p
  simp only [sub_mul, Finset.sum_mul, mul_assoc]

/-- **C89**. When every half of the equations determines the coefficients, there is a positive gain in every half. -/
theorem C89_half_gain_exists (n : ℕ) (preds : List (List ℝ)) (hrows : ∀ row ∈ preds, row.length = n)
    (h : ∀ weights c : List ℝ, HalfKept weights preds.length → c.length = n →
      (∀ (j : ℕ) (row : List ℝ), weights[j]? = some 1 → preds[j]? = some row → (List.zipWith (· * ·) row c).sum = 0) → ∀ x ∈ c, x = 0) :
    ∃ σ > 0, HalfGain n preds σ := by
  have hone : ∀ b : Fin preds.length → Bool, ∃ σ > 0, HalfKept (List.ofFn fun j => if b j then (1 : ℝ) else 0) preds.length →
      ∀ c : List ℝ, c.length = n → σ * √(c.map (· ^ 2)).sum ≤ keptSize (List.ofFn fun j => if b j then (1 : ℝ) else 0) (predict preds c) := by
    intro b
    by_cases hb : HalfKept (List.ofFn fun j => if b j then (1 : ℝ) else 0) preds.length
    swap
    · exact ⟨1, one_pos, fun h => absurd h hb⟩
    let dot : Fin preds.length → EuclideanSpace ℝ (Fin n) → ℝ := fun j W => ∑ i : Fin n, (preds[j]).getD i 0 * W i
    let L : EuclideanSpace ℝ (Fin n) →ₗ[ℝ] EuclideanSpace ℝ (Fin preds.length) :=
      { toFun := fun W => WithLp.toLp 2 fun j => (if b j then 1 else 0) * dot j W
        map_add' := by
          intro U V
          ext j
          simp [dot, mul_add, Finset.sum_add_distrib]
        map_smul' := by
          intro a U
          ext j
          simp only [dot, PiLp.smul_apply, smul_eq_mul, RingHom.id_apply, Finset.mul_sum]
          refine Finset.sum_congr rfl fun i _ => ?_
          ring }
    have hdot : ∀ (c : List ℝ), c.length = n → ∀ j : Fin preds.length, (List.zipWith (· * ·) preds[j] c).sum = dot j (WithLp.toLp 2 fun i : Fin n => c.getD i 0) := by
      intro c hc j
      have hl : (preds[j]).length = n := hrows _ (List.getElem_mem _)
      rw [zipWith_sum_fin _ _ _ n hl hc]
      refine Finset.sum_congr rfl fun i _ => ?_
      have h1 : i.1 < (preds[j.1]).length := by
        have : (preds[j]).length = n := hl
        simp only [Fin.getElem_fin] at this
        omega
      have h2 : i.1 < c.length := by omega
      simp [List.getD_eq_getElem?_getD, List.getElem?_eq_getElem h1, List.getElem?_eq_getElem h2]
    have hL : L.ker = ⊥ := by
      rw [LinearMap.ker_eq_bot']
      intro U hU
      have hofn : (WithLp.toLp 2 fun i : Fin n => (List.ofFn fun i => U i).getD i 0 : EuclideanSpace ℝ (Fin n)) = U := by
        ext i
        simp [List.getD_eq_getElem?_getD]
      have := h _ (List.ofFn fun i => U i) hb (by simp) (by
        intro j row hj hrow
        obtain ⟨hlt, hget⟩ := List.getElem?_eq_some_iff.mp hrow
        have h1 : (List.zipWith (· * ·) preds[j] (List.ofFn fun i => U i)).sum = _ := hdot _ (by simp) ⟨j, hlt⟩
        rw [hofn] at h1
        rw [← hget, h1]
        have h2 := congrArg (fun v : EuclideanSpace ℝ (Fin preds.length) => v ⟨j, hlt⟩) hU
        have h3 : (if b ⟨j, hlt⟩ then (1 : ℝ) else 0) = 1 := by
          simpa [List.getElem?_ofFn, hlt] using hj
        have h4 : (if b ⟨j, hlt⟩ then (1 : ℝ) else 0) * dot ⟨j, hlt⟩ U = 0 := h2
        rwa [h3, one_mul] at h4)
      ext i
      exact this (U i) (by rw [List.mem_ofFn]; exact ⟨i, rfl⟩)
    obtain ⟨K, hK, hanti⟩ := L.exists_antilipschitzWith hL
    have hK' : (0 : ℝ) < K := by exact_mod_cast hK
    refine ⟨(K : ℝ)⁻¹, by positivity, fun _ c hc => ?_⟩
    have h1 := hanti.le_mul_dist (WithLp.toLp 2 fun i : Fin n => c.getD i 0) 0
    rw [map_zero, dist_zero_right, dist_zero_right] at h1
    have e1 : √(c.map (· ^ 2)).sum = ‖(WithLp.toLp 2 fun i : Fin n => c.getD i 0 : EuclideanSpace ℝ (Fin n))‖ := by
      rw [EuclideanSpace.norm_eq]
      congr 1
      have : (c.map (· ^ 2)).sum = (List.zipWith (fun x _ => x ^ 2) c c).sum := by rw [List.zipWith_self]
      rw [this, zipWith_sum_fin _ _ _ n hc hc]
      refine Finset.sum_congr rfl fun i _ => ?_
      have h2 : i.1 < c.length := by omega
      simp [List.getD_eq_getElem?_getD, List.getElem?_eq_getElem h2]
    have e2 : keptSize (List.ofFn fun j => if b j then (1 : ℝ) else 0) (predict preds c) = ‖L (WithLp.toLp 2 fun i : Fin n => c.getD i 0)‖ := by
      rw [keptSize_eq_norm _ _ preds.length (by simp) (by simp [predict]) hb.values]
      congr 1
      ext j
      change _ = (if b j then (1 : ℝ) else 0) * dot j _
      rw [← hdot c hc j]
      simp [keptVector, predict, List.getD_eq_getElem?_getD]
    rw [e1, e2, inv_mul_le_iff₀ hK']
    exact h1
  choose σ hσ hb using hone
  obtain ⟨b0, hb0⟩ := Finite.exists_min σ
  refine ⟨σ b0, hσ b0, fun weights c hw hc => ?_⟩
  have hwe : weights = List.ofFn fun j : Fin preds.length => if weights.getD j 0 = 1 then (1 : ℝ) else 0 := by
    apply List.ext_getElem
    · simp [hw.length]
    · intro j h1 h2
      rcases hw.values _ (List.getElem_mem h1) with h3 | h3 <;> simp [List.getD_eq_getElem?_getD, List.getElem?_eq_getElem h1, h3]
  have h1 := hb (fun j => decide (weights.getD j 0 = 1))
  simp only [decide_eq_true_eq] at h1
  rw [← hwe] at h1
  exact (mul_le_mul_of_nonneg_right (hb0 _) (Real.sqrt_nonneg _)).trans (h1 hw c hc)

/-! Example: any two of these four equations determine two unknowns. -/

example : HalfGain 2 [[1, 0], [0, 1], [1, 1], [1, -1]] (3 / 5) := by
  intro weights c hw hc
  obtain ⟨w1, w2, w3, w4, rfl⟩ : ∃ a b c d, weights = [a, b, c, d] := by
    match weights, hw.length with
    | [a, b, c, d], _ => exact ⟨a, b, c, d, rfl⟩
  obtain ⟨x, y, rfl⟩ : ∃ x y, c = [x, y] := by
    match c, hc with
    | [x, y], _ => exact ⟨x, y, rfl⟩
  refine Real.le_sqrt_of_sq_le ?_
  rw [mul_pow, Real.sq_sqrt (by simp; positivity)]
  have h1 := hw.values w1 (by simp)
  have h2 := hw.values w2 (by simp)
  have h3 := hw.values w3 (by simp)
  have h4 := hw.values w4 (by simp)
  have h5 := hw.half
  rcases h1 with rfl | rfl <;> rcases h2 with rfl | rfl <;> rcases h3 with rfl | rfl <;> rcases h4 with rfl | rfl <;>
    simp [predict, List.countP_cons] at h5 ⊢ <;>
    nlinarith [sq_nonneg (x + 2 * y), sq_nonneg (2 * x + y), sq_nonneg (x - 2 * y), sq_nonneg (2 * x - y), sq_nonneg (x + y), sq_nonneg (x - y), sq_nonneg x, sq_nonneg y,
      sq_nonneg (8 * x + 5 * y), sq_nonneg (8 * x - 5 * y), sq_nonneg (5 * x + 8 * y), sq_nonneg (5 * x - 8 * y)]

end Resistics
