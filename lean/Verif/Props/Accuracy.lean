import Verif.Props.Robust
import Verif.Props.Powers64
import Mathlib.Analysis.InnerProductSpace.PiL2

/-!
# C89: how accurate a transfer function from noisy and rounded data is
-/

namespace Resistics

open scoped ComplexConjugate
open Finset (range)

/-! ## Specification -/

/-- The size of a list of complex numbers: the root of the sum of the squares. -/
noncomputable def size {ι : Type} (s : Finset ι) (v : ι → ℂ) : ℝ := √(∑ p ∈ s, ‖v p‖ ^ 2)

/-- The equations of one output channel at one frequency: one for each window and each cross channel. -/
def equations (nw nc : ℕ) : Finset (ℕ × ℕ) := range nw ×ˢ range nc

/-- A regression whose residual is as small as that of any coefficients, up to `slack preds obs` (the inaccuracy of the numerical method). -/
def NearlyLeast (slack : List (List ℝ) → List ℝ → ℝ) (getCoef : List (List ℝ) → List ℝ → Except Err (List ℝ)) : Prop :=
  ∀ (n : ℕ) (preds : List (List ℝ)) (obs : List ℝ), 0 < n → preds ≠ [] → obs.length = preds.length →
    (∀ row ∈ preds, row.length = n) → ∃ coef, getCoef preds obs = .ok coef ∧ coef.length = n ∧
      ∀ c : List ℝ, c.length = n → √(sqResidual preds obs coef) ≤ √(sqResidual preds obs c) + slack preds obs

/-! ## Sizes -/

/-- the values as a vector of a Euclidean space -/
noncomputable def asVector {ι : Type} (s : Finset ι) (v : ι → ℂ) : EuclideanSpace ℂ s := WithLp.toLp 2 fun p => v p

theorem size_eq_norm {ι : Type} (s : Finset ι) (v : ι → ℂ) : size s v = ‖asVector s v‖ := by
  rw [size, EuclideanSpace.norm_eq, ← Finset.sum_coe_sort s]
  rfl

theorem size_nonneg {ι : Type} (s : Finset ι) (v : ι → ℂ) : 0 ≤ size s v := Real.sqrt_nonneg _

theorem size_add_le {ι : Type} (s : Finset ι) (u v : ι → ℂ) : size s (fun p => u p + v p) ≤ size s u + size s v := by
  simp only [size_eq_norm]
  exact norm_add_le (asVector s u) (asVector s v)

theorem size_sub_comm {ι : Type} (s : Finset ι) (u v : ι → ℂ) : size s (fun p => u p - v p) = size s fun p => v p - u p := by
  simp only [size, norm_sub_rev]

theorem size_le {ι : Type} (s : Finset ι) (v : ι → ℂ) (b : ι → ℝ) (h : ∀ p ∈ s, ‖v p‖ ≤ b p) : size s v ≤ √(∑ p ∈ s, b p ^ 2) :=
  Real.sqrt_le_sqrt (Finset.sum_le_sum fun p hp => pow_le_pow_left₀ (norm_nonneg _) (h p hp) 2)

/-- Pythagoras: a least residual is orthogonal to what the coefficients can change. -/
theorem least_pythagoras {E : Type} [NormedAddCommGroup E] [InnerProductSpace ℝ E] (r d : E) (h : ∀ t : ℝ, ‖r‖ ≤ ‖r + t • d‖) : ‖d‖ ≤ ‖r + d‖ := by
  have hsq : ∀ t : ℝ, 0 ≤ 2 * t * inner ℝ r d + t ^ 2 * ‖d‖ ^ 2 := by
    intro t
    have h1 := pow_le_pow_left₀ (norm_nonneg _) (h t) 2
    rw [norm_add_sq_real, inner_smul_right, norm_smul, mul_pow, Real.norm_eq_abs, sq_abs] at h1
    linarith
  by_cases hd : ‖d‖ = 0
  · rw [hd]; exact norm_nonneg _
  · have hpos : 0 < ‖d‖ ^ 2 := by positivity
    have h0 : inner ℝ r d = 0 := by
      have h2 := hsq (-(inner ℝ r d) / ‖d‖ ^ 2)
      have e : 2 * (-(inner ℝ r d) / ‖d‖ ^ 2) * inner ℝ r d + (-(inner ℝ r d) / ‖d‖ ^ 2) ^ 2 * ‖d‖ ^ 2 = -(inner ℝ r d ^ 2 / ‖d‖ ^ 2) := by
        field_simp
        ring
      rw [e] at h2
      have h3 : 0 ≤ inner ℝ r d ^ 2 / ‖d‖ ^ 2 := by positivity
      have h4 : inner ℝ r d ^ 2 / ‖d‖ ^ 2 = 0 := by linarith
      rw [div_eq_zero_iff] at h4
      rcases h4 with h4 | h4
      · exact pow_eq_zero_iff two_ne_zero |>.1 h4
      · exact absurd h4 hpos.ne'
    refine le_of_sq_le_sq ?_ (norm_nonneg _)
    rw [norm_add_sq_real, h0]
    nlinarith [sq_nonneg ‖r‖]

/-! ## From lists of real numbers to complex equations -/

theorem zipWith_flatMap_sum (f : ℝ → ℝ → ℝ) (l : List ℕ) (a b : ℕ → List ℝ) (h : ∀ x, (a x).length = (b x).length) :
    (List.zipWith f (l.flatMap a) (l.flatMap b)).sum = (l.map fun x => (List.zipWith f (a x) (b x)).sum).sum := by
  induction l with
  | nil => simp
  | cons x l ih =>
    rw [List.flatMap_cons, List.flatMap_cons, List.zipWith_append (h x), List.sum_append, ih, List.map_cons, List.sum_cons]

theorem range_sum (n : ℕ) (f : ℕ → ℝ) : ((List.range n).map f).sum = ∑ i ∈ range n, f i := by
  induction n with
  | zero => simp
  | succ n ih => rw [List.range_succ, List.map_append, List.sum_append, ih, Finset.sum_range_succ]; simp

theorem complexRows_residual (nw nc : ℕ) (A B : ℕ → ℕ → ℂ) :
    (List.zipWith (fun o p => (o - p) ^ 2) (complexRows nw nc A) (complexRows nw nc B)).sum =
      ∑ p ∈ equations nw nc, ‖A p.1 p.2 - B p.1 p.2‖ ^ 2 := by
  unfold complexRows equations
  rw [zipWith_flatMap_sum _ _ _ _ (by simp [List.length_flatMap]), range_sum, Finset.sum_product]
  refine Finset.sum_congr rfl fun w _ => ?_
  rw [zipWith_flatMap_sum _ _ _ _ (by simp), range_sum]
  refine Finset.sum_congr rfl fun c _ => ?_
  rw [← Complex.normSq_eq_norm_sq, Complex.normSq_apply]
  simp
  ring

/-- Specification: the regression input holds at every frequency `k`, for every output channel `o`, the complex equations "sum of `Z i` times
`P k w i c` is `A k o w c`", one for each window `w` and cross channel `c`. -/
structure Equations (r : RegInput) (nw : ℕ → ℕ) (A : ℕ → ℕ → ℕ → ℕ → ℂ) (P : ℕ → ℕ → ℕ → ℕ → ℂ) : Prop where
  rows : ∀ (k : ℕ), k < r.freqs.length → ∀ (o : ℕ) (name : String), r.tf.outChans[o]? = some name →
    ∃ obs preds, r.getInputs k name = .ok (obs, preds) ∧ obs = complexRows (nw k) r.tf.crossChans.length (A k o) ∧
      (∀ Z : ℕ → ℂ, predict preds (realCoefs r.tf.inChans.length Z) =
        complexRows (nw k) r.tf.crossChans.length fun w c => ∑ i ∈ range r.tf.inChans.length, Z i * P k w i c) ∧
      obs.length = nw k * (2 * r.tf.crossChans.length) ∧ preds.length = obs.length ∧ ∀ row ∈ preds, row.length = 2 * r.tf.inChans.length

/-- The misfit of coefficients `Z` at a frequency: the size of what is left of the equations of an output channel. -/
noncomputable def misfit (nw nc n : ℕ) (A : ℕ → ℕ → ℂ) (P : ℕ → ℕ → ℕ → ℂ) (Z : ℕ → ℂ) : ℝ :=
  size (equations nw nc) fun p => A p.1 p.2 - ∑ i ∈ range n, Z i * P p.1 i p.2

/-- What coefficients `W` contribute to the equations. -/
noncomputable def effect (nw nc n : ℕ) (P : ℕ → ℕ → ℕ → ℂ) (W : ℕ → ℂ) : ℝ :=
  size (equations nw nc) fun p => ∑ i ∈ range n, W i * P p.1 i p.2

theorem effect_le_slack {nw nc n : ℕ} {A : ℕ → ℕ → ℂ} {P : ℕ → ℕ → ℕ → ℂ} {Zh Z : ℕ → ℂ} {η : ℝ}
    (h : misfit nw nc n A P Zh ≤ misfit nw nc n A P Z + η) : effect nw nc n P (fun i => Zh i - Z i) ≤ 2 * misfit nw nc n A P Z + η := by
  have e : effect nw nc n P (fun i => Zh i - Z i) = size (equations nw nc) fun p =>
      (A p.1 p.2 - ∑ i ∈ range n, Z i * P p.1 i p.2) + (∑ i ∈ range n, Zh i * P p.1 i p.2 - A p.1 p.2) := by
    unfold effect
    congr 1
    funext p
    simp only [sub_mul, Finset.sum_sub_distrib]
    ring
  rw [e]
  refine (size_add_le _ _ _).trans ?_
  rw [size_sub_comm _ (fun p : ℕ × ℕ => ∑ i ∈ range n, Zh i * P p.1 i p.2)]
  change misfit nw nc n A P Z + misfit nw nc n A P Zh ≤ _
  linarith

theorem effect_le_least {nw nc n : ℕ} {A : ℕ → ℕ → ℂ} {P : ℕ → ℕ → ℕ → ℂ} {Zh : ℕ → ℂ}
    (h : ∀ W, misfit nw nc n A P Zh ≤ misfit nw nc n A P W) (Z : ℕ → ℂ) :
    effect nw nc n P (fun i => Zh i - Z i) ≤ misfit nw nc n A P Z := by
  unfold effect misfit at *
  simp only [size_eq_norm] at *
  letI : InnerProductSpace ℝ (EuclideanSpace ℂ (equations nw nc)) := InnerProductSpace.complexToReal
  have := least_pythagoras (asVector (equations nw nc) fun p => A p.1 p.2 - ∑ i ∈ range n, Zh i * P p.1 i p.2)
    (asVector (equations nw nc) fun p => ∑ i ∈ range n, (Zh i - Z i) * P p.1 i p.2) (by
      intro t
      refine (h fun i => Zh i - t * (Zh i - Z i)).trans (le_of_eq (congrArg norm ?_))
      ext p
      simp only [asVector, PiLp.add_apply, PiLp.smul_apply, Complex.real_smul, sub_mul, Finset.sum_sub_distrib, mul_assoc, mul_sub, Finset.mul_sum]
      ring)
  refine this.trans (le_of_eq (congrArg norm ?_))
  ext p
  simp only [asVector, PiLp.add_apply, sub_mul, Finset.sum_sub_distrib]
  ring

/-! ## Solving -/

/-- Specification: the solution holds the values `Zh k o i` for output channel `o` and input channel `i` at frequency `k`, as components and as tensors. -/
structure Solution.Holds (s : Solution) (tf : TransFunc) (freqs : List ℚ) (Zh : ℕ → ℕ → ℕ → ℂ) : Prop where
  at_freqs : s.freqs = freqs
  component : ∀ (o i : ℕ) (a b : String), tf.outChans[o]? = some a → tf.inChans[i]? = some b →
    s.getComponent (a ++ b) = .ok ((List.range freqs.length).map fun k => Zh k o i)
  tensor : ∀ k < freqs.length, s.getTensor k = .ok ((List.range tf.outChans.length).map fun o => (List.range tf.inChans.length).map fun i => Zh k o i)

/-- The inputs are independent of each other, and how much: coefficients of size one contribute at least `σ` to the equations. -/
def Gain (nw nc n : ℕ) (P : ℕ → ℕ → ℕ → ℂ) (σ : ℝ) : Prop := ∀ W : ℕ → ℂ, σ * size (range n) W ≤ effect nw nc n P W

theorem sqrt_residual {r : RegInput} {nw k : ℕ} {A : ℕ → ℕ → ℂ} {P : ℕ → ℕ → ℕ → ℕ → ℂ} {obs : List ℝ} {preds : List (List ℝ)}
    (h2 : obs = complexRows nw r.tf.crossChans.length A)
    (h3 : ∀ Z : ℕ → ℂ, predict preds (realCoefs r.tf.inChans.length Z) =
        complexRows nw r.tf.crossChans.length fun w c => ∑ i ∈ range r.tf.inChans.length, Z i * P k w i c) (Z : ℕ → ℂ) :
    √(sqResidual preds obs (realCoefs r.tf.inChans.length Z)) = misfit nw r.tf.crossChans.length r.tf.inChans.length A (P k) Z := by
  unfold sqResidual misfit size
  rw [h3, h2, complexRows_residual]

theorem solve_equations (slack : List (List ℝ) → List ℝ → ℝ) (getCoef : List (List ℝ) → List ℝ → Except Err (List ℝ)) (hls : NearlyLeast slack getCoef)
    (r : RegInput) (hc : CountsOk r.tf) (hk : KeysDistinct r.tf) (hi : r.tf.inChans ≠ []) (hx : r.tf.crossChans ≠ [])
    (nw : ℕ → ℕ) (A P : ℕ → ℕ → ℕ → ℕ → ℂ) (he : Equations r nw A P) (hnw : ∀ k < r.freqs.length, 0 < nw k) :
    ∃ s Zh, solveWith getCoef r = .ok s ∧ s.Holds r.tf r.freqs Zh ∧ ∀ k < r.freqs.length, ∀ (o : ℕ) (name : String), r.tf.outChans[o]? = some name →
      ∃ obs preds, r.getInputs k name = .ok (obs, preds) ∧ ∀ Z, misfit (nw k) r.tf.crossChans.length r.tf.inChans.length (A k o) (P k) (Zh k o) ≤
        misfit (nw k) r.tf.crossChans.length r.tf.inChans.length (A k o) (P k) Z + slack preds obs := by
  have hcoef : ∀ (k o : ℕ), ∃ coef : List ℝ, k < r.freqs.length → ∀ name, r.tf.outChans[o]? = some name →
      ∃ obs preds, r.getInputs k name = .ok (obs, preds) ∧ getCoef preds obs = .ok coef ∧ coef.length = 2 * r.tf.inChans.length ∧
        ∀ Z, misfit (nw k) r.tf.crossChans.length r.tf.inChans.length (A k o) (P k) (coefComplex coef) ≤
          misfit (nw k) r.tf.crossChans.length r.tf.inChans.length (A k o) (P k) Z + slack preds obs := by
    intro k o
    by_cases hko : k < r.freqs.length ∧ o < r.tf.outChans.length
    · obtain ⟨hk', ho⟩ := hko
      have ho? : r.tf.outChans[o]? = some r.tf.outChans[o] := List.getElem?_eq_getElem ho
      obtain ⟨obs, preds, h1, h2, h3, h4, h5, h6⟩ := he.rows k hk' o _ ho?
      have hcpos : 0 < r.tf.crossChans.length := List.length_pos_of_ne_nil hx
      have hpne : preds ≠ [] := by
        intro h
        rw [h, List.length_nil, h4] at h5
        have := hnw k hk'
        have : 0 < nw k * (2 * r.tf.crossChans.length) := by positivity
        omega
      obtain ⟨coef, g1, g2, g3⟩ := hls _ preds obs (by have := List.length_pos_of_ne_nil hi; omega) hpne h5.symm h6
      refine ⟨coef, fun _ name hname => ?_⟩
      have : name = r.tf.outChans[o] := by rw [ho?] at hname; simpa using hname.symm
      subst this
      refine ⟨obs, preds, h1, g1, g2, fun Z => ?_⟩
      have := g3 (realCoefs r.tf.inChans.length Z) (by simp [realCoefs, List.length_flatMap, mul_comm])
      rw [sqrt_residual h2 h3] at this
      rw [← realCoefs_coefComplex _ _ g2, sqrt_residual h2 h3] at this
      exact this
    · refine ⟨[], fun hk' name hname => ?_⟩
      exact absurd ⟨hk', (List.getElem?_eq_some_iff.mp hname).1⟩ hko
  choose coefs hcoefs using hcoef
  have hreg : Regresses getCoef r coefs := by
    intro k hk' o name hname
    obtain ⟨obs, preds, a1, a2, a3, -⟩ := hcoefs k o hk' name hname
    exact ⟨obs, preds, a1, a2, a3.ge⟩
  obtain ⟨s, s1, s2, s3, s4, s5, -⟩ := C34_solution getCoef r hc hk coefs hreg
  refine ⟨s, fun k o => coefComplex (coefs k o), s1, ⟨s3, s4, s5⟩, fun k hk' o name hname => ?_⟩
  obtain ⟨obs, preds, a1, -, -, a4⟩ := hcoefs k o hk' name hname
  exact ⟨obs, preds, a1, a4⟩

theorem nearlyLeast_of_least {getCoef : List (List ℝ) → List ℝ → Except Err (List ℝ)} (h : LeastSquares getCoef) : NearlyLeast (fun _ _ => 0) getCoef := by
  intro n preds obs h1 h2 h3 h4
  obtain ⟨coef, g1, g2, g3⟩ := h n preds obs h1 h2 h3 h4
  exact ⟨coef, g1, g2, fun c hc => by rw [add_zero]; exact Real.sqrt_le_sqrt (g3 c hc)⟩

theorem equations_exact (tf : TransFunc) (hnd : tf.outChans.Nodup) (g : Gathered ℂ) (nw : ℕ → ℕ) (F I C : ℕ → ℕ → ℕ → ℂ) (hg : GatheredIs tf g nw F I C) :
    ∃ r, prepareGathered tf g = .ok r ∧ r.tf = tf ∧ r.freqs = g.outData.evalFreqs ∧
      Equations r nw (fun k o w c => F k w o * conj (C k w c)) (fun k w i c => I k w i * conj (C k w c)) := by
  obtain ⟨r, h1, h2, h3, h4⟩ := C33_rows tf hnd g nw F I C hg
  refine ⟨r, h1, h2, h3, ⟨?_⟩⟩
  rw [h2, h3]
  exact h4

theorem equations_rounded (t : ℕ → NumType) (tf : TransFunc) (hnd : tf.outChans.Nodup) (g : Gathered (ℚ × ℚ)) (nw : ℕ → ℕ) (F I C : ℕ → ℕ → ℕ → ℚ × ℚ)
    (hg : GatheredPairs tf g nw F I C) :
    ∃ r, prepareGatheredF t tf g = .ok r ∧ r.tf = tf ∧ r.freqs = g.outData.evalFreqs ∧
      Equations r nw (fun k o w c => asComplex (mulF (t k) (F k w o) (conjF (C k w c)))) (fun k w i c => asComplex (mulF (t k) (I k w i) (conjF (C k w c)))) := by
  obtain ⟨r, h1, h2, h3, h4⟩ := C87_rows t tf hnd g nw F I C hg
  refine ⟨r, h1, h2, h3, ⟨?_⟩⟩
  rw [h2, h3]
  exact h4

/-! ## Noise -/

/-- **C89**. Least squares on any gathered data: for any transfer function `Z` (the true one, say), the error of the solution at a frequency times the gain of
the inputs is at most the size of the noise: of what the output spectra are besides `Z` times the input spectra, multiplied with the cross channels. -/
theorem C89_noise (getCoef : List (List ℝ) → List ℝ → Except Err (List ℝ)) (hls : LeastSquares getCoef)
    (tf : TransFunc) (hc : CountsOk tf) (hk : KeysDistinct tf) (hnd : tf.outChans.Nodup) (hi : tf.inChans ≠ []) (hx : tf.crossChans ≠ [])
    (g : Gathered ℂ) (nw : ℕ → ℕ) (F I C : ℕ → ℕ → ℕ → ℂ) (hg : GatheredIs tf g nw F I C)
    (hnw : ∀ k < g.outData.evalFreqs.length, 0 < nw k) :
    ∃ r s Zh, prepareGathered tf g = .ok r ∧ solveWith getCoef r = .ok s ∧ s.Holds tf g.outData.evalFreqs Zh ∧
      ∀ k < g.outData.evalFreqs.length, ∀ o < tf.outChans.length, ∀ (Z : ℕ → ℂ) (σ : ℝ),
        Gain (nw k) tf.crossChans.length tf.inChans.length (fun w i c => I k w i * conj (C k w c)) σ →
        σ * size (range tf.inChans.length) (fun i => Zh k o i - Z i) ≤
          size (equations (nw k) tf.crossChans.length) fun p =>
            (F k p.1 o - ∑ i ∈ range tf.inChans.length, Z i * I k p.1 i) * conj (C k p.1 p.2) := by
  obtain ⟨r, h1, rfl, h3, h4⟩ := equations_exact tf hnd g nw F I C hg
  rw [← h3] at hnw
  obtain ⟨s, Zh, e1, e2, e3⟩ := solve_equations _ getCoef (nearlyLeast_of_least hls) r hc hk hi hx nw _ _ h4 hnw
  rw [h3] at e2
  refine ⟨r, s, Zh, h1, e1, e2, fun k hk' o ho Z σ hσ => ?_⟩
  rw [← h3] at hk'
  obtain ⟨obs, preds, -, h5⟩ := e3 k hk' o _ (List.getElem?_eq_getElem ho)
  simp only [add_zero] at h5
  refine (hσ _).trans ((effect_le_least h5 Z).trans (le_of_eq ?_))
  unfold misfit
  congr 1
  funext p
  simp only [sub_mul, Finset.sum_mul, mul_assoc]

/-- **C89**. The same with a numerical method that is only nearly as good as least squares. -/
theorem C89_noise_nearly (slack : List (List ℝ) → List ℝ → ℝ) (getCoef : List (List ℝ) → List ℝ → Except Err (List ℝ)) (hls : NearlyLeast slack getCoef)
    (tf : TransFunc) (hc : CountsOk tf) (hk : KeysDistinct tf) (hnd : tf.outChans.Nodup) (hi : tf.inChans ≠ []) (hx : tf.crossChans ≠ [])
    (g : Gathered ℂ) (nw : ℕ → ℕ) (F I C : ℕ → ℕ → ℕ → ℂ) (hg : GatheredIs tf g nw F I C)
    (hnw : ∀ k < g.outData.evalFreqs.length, 0 < nw k) :
    ∃ r s Zh, prepareGathered tf g = .ok r ∧ solveWith getCoef r = .ok s ∧ s.Holds tf g.outData.evalFreqs Zh ∧
      ∀ k < g.outData.evalFreqs.length, ∀ (o : ℕ) (name : String), tf.outChans[o]? = some name → ∃ obs preds, r.getInputs k name = .ok (obs, preds) ∧
        ∀ (Z : ℕ → ℂ) (σ : ℝ), Gain (nw k) tf.crossChans.length tf.inChans.length (fun w i c => I k w i * conj (C k w c)) σ →
        σ * size (range tf.inChans.length) (fun i => Zh k o i - Z i) ≤
          2 * (size (equations (nw k) tf.crossChans.length) fun p =>
            (F k p.1 o - ∑ i ∈ range tf.inChans.length, Z i * I k p.1 i) * conj (C k p.1 p.2)) + slack preds obs := by
  obtain ⟨r, h1, rfl, h3, h4⟩ := equations_exact tf hnd g nw F I C hg
  rw [← h3] at hnw
  obtain ⟨s, Zh, e1, e2, e3⟩ := solve_equations _ getCoef hls r hc hk hi hx nw _ _ h4 hnw
  rw [h3] at e2
  refine ⟨r, s, Zh, h1, e1, e2, fun k hk' o name ho => ?_⟩
  rw [← h3] at hk'
  obtain ⟨obs, preds, h6, h5⟩ := e3 k hk' o _ ho
  refine ⟨obs, preds, h6, fun Z σ hσ => ?_⟩
  refine (hσ _).trans ((effect_le_slack (h5 Z)).trans (le_of_eq ?_))
  unfold misfit
  congr 3
  funext p
  simp only [sub_mul, Finset.sum_mul, mul_assoc]

/-! ## Rounding -/

theorem sum_norm_mul_le (n : ℕ) (W : ℕ → ℂ) (d : ℕ → ℝ) : (∑ i ∈ range n, ‖W i‖ * d i) ≤ size (range n) W * √(∑ i ∈ range n, d i ^ 2) := by
  unfold size
  exact Real.sum_mul_le_sqrt_mul_sqrt _ _ _

/-- what inexact equations make of the gain -/
theorem gain_inexact {nw nc n : ℕ} {P Q : ℕ → ℕ → ℕ → ℂ} {σ : ℝ} (h : Gain nw nc n P σ) (d : ℕ → ℕ → ℕ → ℝ)
    (hd : ∀ w < nw, ∀ i < n, ∀ c < nc, ‖Q w i c - P w i c‖ ≤ d w i c) :
    Gain nw nc n Q (σ - √(∑ p ∈ equations nw nc, ∑ i ∈ range n, d p.1 i p.2 ^ 2)) := by
  intro W
  have h1 := h W
  have e : effect nw nc n P W ≤ effect nw nc n Q W + size (equations nw nc) fun p => ∑ i ∈ range n, W i * (P p.1 i p.2 - Q p.1 i p.2) := by
    have e1 : effect nw nc n P W = size (equations nw nc) fun p => (∑ i ∈ range n, W i * Q p.1 i p.2) + ∑ i ∈ range n, W i * (P p.1 i p.2 - Q p.1 i p.2) := by
      unfold effect
      congr 1
      funext p
      rw [← Finset.sum_add_distrib]
      exact Finset.sum_congr rfl fun i _ => by ring
    rw [e1]
    exact size_add_le _ _ _
  have h2 : (size (equations nw nc) fun p => ∑ i ∈ range n, W i * (P p.1 i p.2 - Q p.1 i p.2)) ≤
      √(∑ p ∈ equations nw nc, (size (range n) W * √(∑ i ∈ range n, d p.1 i p.2 ^ 2)) ^ 2) := by
    refine size_le _ _ _ fun p hp => ?_
    rw [equations, Finset.mem_product, Finset.mem_range, Finset.mem_range] at hp
    refine (norm_sum_le _ _).trans (le_trans ?_ (sum_norm_mul_le n W _))
    refine Finset.sum_le_sum fun i hi' => ?_
    rw [norm_mul, norm_sub_rev]
    exact mul_le_mul_of_nonneg_left (hd _ hp.1 _ (Finset.mem_range.1 hi') _ hp.2) (norm_nonneg _)
  have h3 : √(∑ p ∈ equations nw nc, (size (range n) W * √(∑ i ∈ range n, d p.1 i p.2 ^ 2)) ^ 2) =
      size (range n) W * √(∑ p ∈ equations nw nc, ∑ i ∈ range n, d p.1 i p.2 ^ 2) := by
    have : ∀ p : ℕ × ℕ, (size (range n) W * √(∑ i ∈ range n, d p.1 i p.2 ^ 2)) ^ 2 = size (range n) W ^ 2 * ∑ i ∈ range n, d p.1 i p.2 ^ 2 := by
      intro p
      rw [mul_pow, Real.sq_sqrt (Finset.sum_nonneg fun i _ => sq_nonneg _)]
    rw [Finset.sum_congr rfl fun p _ => this p, ← Finset.mul_sum, Real.sqrt_mul (sq_nonneg _), Real.sqrt_sq (size_nonneg _ _)]
  rw [h3] at h2
  linarith

/-- Specification: the largest error of a rounded cross power of these two numbers. -/
noncomputable def powerError (t : NumType) (a b : ℚ × ℚ) : ℝ := 6 * t.unit * (‖asComplex a‖ * ‖asComplex b‖) + 8 * t.tiny

theorem misfit_rounded {t : NumType} (ht : t.Floating) (n : ℕ) (Z : ℕ → ℂ) (F C : ℚ × ℚ) (I : ℕ → ℚ × ℚ) :
    ‖asComplex (mulF t F (conjF C)) - ∑ i ∈ range n, Z i * asComplex (mulF t (I i) (conjF C))‖ ≤
      ‖asComplex F - ∑ i ∈ range n, Z i * asComplex (I i)‖ * ‖asComplex C‖ + (powerError t F C + ∑ i ∈ range n, ‖Z i‖ * powerError t (I i) C) := by
  have e : asComplex (mulF t F (conjF C)) - ∑ i ∈ range n, Z i * asComplex (mulF t (I i) (conjF C)) =
      (asComplex F - ∑ i ∈ range n, Z i * asComplex (I i)) * conj (asComplex C) +
      ((asComplex (mulF t F (conjF C)) - asComplex F * conj (asComplex C)) -
      ∑ i ∈ range n, Z i * (asComplex (mulF t (I i) (conjF C)) - asComplex (I i) * conj (asComplex C))) := by
    simp only [mul_sub, sub_mul, Finset.sum_sub_distrib, Finset.sum_mul, mul_assoc]
    ring
  rw [e]
  refine (norm_add_le _ _).trans (add_le_add ?_ ((norm_sub_le _ _).trans (add_le_add (C87_product_norm ht F C) ?_)))
  · rw [norm_mul, Complex.norm_conj]
  · refine (norm_sum_le _ _).trans (Finset.sum_le_sum fun i _ => ?_)
    rw [norm_mul]
    exact mul_le_mul_of_nonneg_left (C87_product_norm ht _ _) (norm_nonneg _)

/-- Specification: the size of noise and rounding errors together in the equations of one output channel: in each, the noise times the cross channel, and the largest
rounding errors of the cross powers of the output and of the inputs times `Z`. -/
noncomputable def noiseAndRounding (t : NumType) (nw nc n : ℕ) (F : ℕ → ℚ × ℚ) (I C : ℕ → ℕ → ℚ × ℚ) (Z : ℕ → ℂ) : ℝ :=
  √(∑ p ∈ equations nw nc, (‖asComplex (F p.1) - ∑ i ∈ range n, Z i * asComplex (I p.1 i)‖ * ‖asComplex (C p.1 p.2)‖ +
    (powerError t (F p.1) (C p.1 p.2) + ∑ i ∈ range n, ‖Z i‖ * powerError t (I p.1 i) (C p.1 p.2))) ^ 2)

/-- Specification: the rounding errors of the cross powers of the inputs. -/
noncomputable def inputRounding (t : NumType) (nw nc n : ℕ) (I C : ℕ → ℕ → ℚ × ℚ) : ℝ :=
  √(∑ p ∈ equations nw nc, ∑ i ∈ range n, powerError t (I p.1 i) (C p.1 p.2) ^ 2)

theorem misfit_le_noise {t : NumType} (ht : t.Floating) (nw nc n : ℕ) (F : ℕ → ℚ × ℚ) (I C : ℕ → ℕ → ℚ × ℚ) (Z : ℕ → ℂ) :
    misfit nw nc n (fun w c => asComplex (mulF t (F w) (conjF (C w c)))) (fun w i c => asComplex (mulF t (I w i) (conjF (C w c)))) Z ≤
      noiseAndRounding t nw nc n F I C Z :=
  size_le _ _ _ fun _ _ => misfit_rounded ht n Z _ _ _

theorem gain_rounded {t : NumType} (ht : t.Floating) {nw nc n : ℕ} {I C : ℕ → ℕ → ℚ × ℚ} {σ : ℝ}
    (h : Gain nw nc n (fun w i c => asComplex (I w i) * conj (asComplex (C w c))) σ) :
    Gain nw nc n (fun w i c => asComplex (mulF t (I w i) (conjF (C w c)))) (σ - inputRounding t nw nc n I C) :=
  gain_inexact h (fun w i c => powerError t (I w i) (C w c)) fun w _ i _ c _ => C87_product_norm ht (I w i) (C w c)

/-- **C89**. Data of single or double precision with rounded cross powers: the error of the least squares solution times the gain of the inputs, less the rounding
errors of their cross powers, is at most the size of noise and rounding errors together. -/
theorem C89_rounded (getCoef : List (List ℝ) → List ℝ → Except Err (List ℝ)) (hls : LeastSquares getCoef) (t : ℕ → NumType) (ht : ∀ k, (t k).Floating)
    (tf : TransFunc) (hc : CountsOk tf) (hk : KeysDistinct tf) (hnd : tf.outChans.Nodup) (hi : tf.inChans ≠ []) (hx : tf.crossChans ≠ [])
    (g : Gathered (ℚ × ℚ)) (nw : ℕ → ℕ) (F I C : ℕ → ℕ → ℕ → ℚ × ℚ) (hg : GatheredPairs tf g nw F I C)
    (hnw : ∀ k < g.outData.evalFreqs.length, 0 < nw k) :
    ∃ r s Zh, prepareGatheredF t tf g = .ok r ∧ solveWith getCoef r = .ok s ∧ s.Holds tf g.outData.evalFreqs Zh ∧
      ∀ k < g.outData.evalFreqs.length, ∀ o < tf.outChans.length, ∀ (Z : ℕ → ℂ) (σ : ℝ),
        Gain (nw k) tf.crossChans.length tf.inChans.length (fun w i c => asComplex (I k w i) * conj (asComplex (C k w c))) σ →
        (σ - inputRounding (t k) (nw k) tf.crossChans.length tf.inChans.length (I k) (C k)) * size (range tf.inChans.length) (fun i => Zh k o i - Z i) ≤
          noiseAndRounding (t k) (nw k) tf.crossChans.length tf.inChans.length (fun w => F k w o) (I k) (C k) Z := by
  obtain ⟨r, h1, rfl, h3, h4⟩ := equations_rounded t tf hnd g nw F I C hg
  rw [← h3] at hnw
  obtain ⟨s, Zh, e1, e2, e3⟩ := solve_equations _ getCoef (nearlyLeast_of_least hls) r hc hk hi hx nw _ _ h4 hnw
  rw [h3] at e2
  refine ⟨r, s, Zh, h1, e1, e2, fun k hk' o ho Z σ hσ => ?_⟩
  rw [← h3] at hk'
  obtain ⟨obs, preds, -, h5⟩ := e3 k hk' o _ (List.getElem?_eq_getElem ho)
  simp only [add_zero] at h5
  exact (gain_rounded (ht k) hσ _).trans ((effect_le_least h5 Z).trans (misfit_le_noise (ht k) _ _ _ _ _ _ _))

/-- **C89**. The same with a numerical method that is only nearly as good as least squares. -/
theorem C89_rounded_nearly (slack : List (List ℝ) → List ℝ → ℝ) (getCoef : List (List ℝ) → List ℝ → Except Err (List ℝ)) (hls : NearlyLeast slack getCoef)
    (t : ℕ → NumType) (ht : ∀ k, (t k).Floating)
    (tf : TransFunc) (hc : CountsOk tf) (hk : KeysDistinct tf) (hnd : tf.outChans.Nodup) (hi : tf.inChans ≠ []) (hx : tf.crossChans ≠ [])
    (g : Gathered (ℚ × ℚ)) (nw : ℕ → ℕ) (F I C : ℕ → ℕ → ℕ → ℚ × ℚ) (hg : GatheredPairs tf g nw F I C)
    (hnw : ∀ k < g.outData.evalFreqs.length, 0 < nw k) :
    ∃ r s Zh, prepareGatheredF t tf g = .ok r ∧ solveWith getCoef r = .ok s ∧ s.Holds tf g.outData.evalFreqs Zh ∧
      ∀ k < g.outData.evalFreqs.length, ∀ (o : ℕ) (name : String), tf.outChans[o]? = some name → ∃ obs preds, r.getInputs k name = .ok (obs, preds) ∧
        ∀ (Z : ℕ → ℂ) (σ : ℝ),
        Gain (nw k) tf.crossChans.length tf.inChans.length (fun w i c => asComplex (I k w i) * conj (asComplex (C k w c))) σ →
        (σ - inputRounding (t k) (nw k) tf.crossChans.length tf.inChans.length (I k) (C k)) * size (range tf.inChans.length) (fun i => Zh k o i - Z i) ≤
          2 * noiseAndRounding (t k) (nw k) tf.crossChans.length tf.inChans.length (fun w => F k w o) (I k) (C k) Z + slack preds obs := by
  obtain ⟨r, h1, rfl, h3, h4⟩ := equations_rounded t tf hnd g nw F I C hg
  rw [← h3] at hnw
  obtain ⟨s, Zh, e1, e2, e3⟩ := solve_equations _ getCoef hls r hc hk hi hx nw _ _ h4 hnw
  rw [h3] at e2
  refine ⟨r, s, Zh, h1, e1, e2, fun k hk' o name ho => ?_⟩
  rw [← h3] at hk'
  obtain ⟨obs, preds, h6, h5⟩ := e3 k hk' o _ ho
  refine ⟨obs, preds, h6, fun Z σ hσ => ?_⟩
  refine (gain_rounded (ht k) hσ _).trans ((effect_le_slack (h5 Z)).trans ?_)
  have := misfit_le_noise (ht k) (nw k) r.tf.crossChans.length r.tf.inChans.length (fun w => F k w o) (I k) (C k) Z
  linarith

/-- **C89**. Independent inputs have a positive gain: unless some coefficients contribute nothing to any equation, the error bounds above say something. -/
theorem C89_gain_exists (nw nc n : ℕ) (P : ℕ → ℕ → ℕ → ℂ)
    (hind : ∀ W : ℕ → ℂ, (∀ w < nw, ∀ c < nc, ∑ i ∈ range n, W i * P w i c = 0) → ∀ i < n, W i = 0) : ∃ σ > 0, Gain nw nc n P σ := by
  let L : EuclideanSpace ℂ (Fin n) →ₗ[ℂ] EuclideanSpace ℂ (equations nw nc) :=
    { toFun := fun W => asVector (equations nw nc) fun p => ∑ i : Fin n, W i * P p.1 i p.2
      map_add' := by
        intro U V
        ext p
        simp [asVector, add_mul, Finset.sum_add_distrib]
      map_smul' := by
        intro a U
        ext p
        simp [asVector, Finset.mul_sum, mul_assoc] }
  have hsum : ∀ (W : ℕ → ℂ) (w c : ℕ), ∑ i : Fin n, W i * P w i c = ∑ i ∈ range n, W i * P w i c :=
    fun W w c => (Finset.sum_range fun i => W i * P w i c).symm
  have hL : L.ker = ⊥ := by
    rw [LinearMap.ker_eq_bot']
    intro U hU
    ext i
    have := hind (fun j => if h : j < n then U ⟨j, h⟩ else 0) (by
      intro w hw c hc
      rw [← hsum]
      have h1 := congrArg (fun v : EuclideanSpace ℂ (equations nw nc) => v ⟨(w, c), by simp [equations, hw, hc]⟩) hU
      simp only [Fin.is_lt, dite_true]
      exact h1) i i.2
    simpa using this
  obtain ⟨K, hK, hanti⟩ := L.exists_antilipschitzWith hL
  have hK' : (0 : ℝ) < K := by exact_mod_cast hK
  refine ⟨(K : ℝ)⁻¹, by positivity, fun W => ?_⟩
  have h1 := hanti.le_mul_dist (WithLp.toLp 2 fun i : Fin n => W i) 0
  rw [map_zero, dist_zero_right, dist_zero_right] at h1
  have e1 : size (range n) W = ‖(WithLp.toLp 2 fun i : Fin n => W i : EuclideanSpace ℂ (Fin n))‖ := by
    rw [size, EuclideanSpace.norm_eq, Finset.sum_range]
  have e2 : effect nw nc n P W = ‖L (WithLp.toLp 2 fun i : Fin n => W i)‖ := by
    rw [effect, size_eq_norm]
    congr 1
    ext p
    exact (hsum W p.1.1 p.1.2).symm
  rw [e1, e2, inv_mul_le_iff₀ hK']
  exact h1

/-- **C89**. In numbers: noise of at most `ε` in every window and cross channels of at most `M` make an error of at most `ε M / σ` times the root of the number of
windows and cross channels, for each component. -/
theorem C89_noise_level (getCoef : List (List ℝ) → List ℝ → Except Err (List ℝ)) (hls : LeastSquares getCoef)
    (tf : TransFunc) (hc : CountsOk tf) (hk : KeysDistinct tf) (hnd : tf.outChans.Nodup) (hi : tf.inChans ≠ []) (hx : tf.crossChans ≠ [])
    (g : Gathered ℂ) (nw : ℕ → ℕ) (F I C : ℕ → ℕ → ℕ → ℂ) (hg : GatheredIs tf g nw F I C)
    (hnw : ∀ k < g.outData.evalFreqs.length, 0 < nw k) (Z : ℕ → ℕ → ℕ → ℂ) (ε M σ : ℝ) (hε : 0 ≤ ε) (hσ : 0 < σ)
    (hgain : ∀ k < g.outData.evalFreqs.length, Gain (nw k) tf.crossChans.length tf.inChans.length (fun w i c => I k w i * conj (C k w c)) σ)
    (hnoise : ∀ k < g.outData.evalFreqs.length, ∀ w < nw k, ∀ o < tf.outChans.length,
      ‖F k w o - ∑ i ∈ range tf.inChans.length, Z k o i * I k w i‖ ≤ ε)
    (hM : ∀ k < g.outData.evalFreqs.length, ∀ w < nw k, ∀ c < tf.crossChans.length, ‖C k w c‖ ≤ M) :
    ∃ r s Zh, prepareGathered tf g = .ok r ∧ solveWith getCoef r = .ok s ∧ s.Holds tf g.outData.evalFreqs Zh ∧
      ∀ k < g.outData.evalFreqs.length, ∀ o < tf.outChans.length, ∀ i < tf.inChans.length,
        ‖Zh k o i - Z k o i‖ ≤ ε * M / σ * √(nw k * tf.crossChans.length) := by
  obtain ⟨r, s, Zh, h1, h2, h3, h4⟩ := C89_noise getCoef hls tf hc hk hnd hi hx g nw F I C hg hnw
  refine ⟨r, s, Zh, h1, h2, h3, fun k hk' o ho i hi' => ?_⟩
  have h5 := h4 k hk' o ho (Z k o) σ (hgain k hk')
  have h6 : (size (equations (nw k) tf.crossChans.length) fun p =>
      (F k p.1 o - ∑ i ∈ range tf.inChans.length, Z k o i * I k p.1 i) * conj (C k p.1 p.2)) ≤ ε * M * √(nw k * tf.crossChans.length) := by
    refine (size_le _ _ (fun _ => ε * M) fun p hp => ?_).trans (le_of_eq ?_)
    · rw [equations, Finset.mem_product, Finset.mem_range, Finset.mem_range] at hp
      rw [norm_mul, Complex.norm_conj]
      exact mul_le_mul (hnoise k hk' _ hp.1 o ho) (hM k hk' _ hp.1 _ hp.2) (norm_nonneg _) hε
    · have hM0 : 0 ≤ M := (norm_nonneg _).trans (hM k hk' 0 (hnw k hk') 0 (List.length_pos_of_ne_nil hx))
      rw [Finset.sum_const, equations, Finset.card_product, Finset.card_range, Finset.card_range, nsmul_eq_mul, mul_comm,
        Real.sqrt_mul (sq_nonneg _), Real.sqrt_sq (by positivity)]
      push_cast
      rfl
  have h7 : ‖Zh k o i - Z k o i‖ ≤ size (range tf.inChans.length) fun i => Zh k o i - Z k o i := by
    refine Real.le_sqrt_of_sq_le ?_
    exact Finset.single_le_sum (f := fun i => ‖Zh k o i - Z k o i‖ ^ 2) (fun _ _ => sq_nonneg _) (Finset.mem_range.2 hi')
  have h8 : σ * ‖Zh k o i - Z k o i‖ ≤ ε * M * √(nw k * tf.crossChans.length) :=
    (mul_le_mul_of_nonneg_left h7 hσ.le).trans (h5.trans h6)
  rw [div_mul_eq_mul_div, le_div_iff₀ hσ]
  linarith

/-! Examples. -/

/-- A gain: the one input of the data below contributes 4 and 1. -/
theorem demo_gain : Gain 2 1 1 (fun w _ _ => (if w = 0 then 2 else 1) * conj (if w = 0 then 2 else 1)) 4 := by
  intro W
  refine Real.le_sqrt_of_sq_le ?_
  have : size (range 1) W ^ 2 = ‖W 0‖ ^ 2 := by
    rw [size, Real.sq_sqrt (Finset.sum_nonneg fun _ _ => sq_nonneg _)]; simp
  rw [mul_pow, this]
  simp [equations, Finset.sum_product, Finset.sum_range_succ, mul_pow]
  nlinarith [sq_nonneg ‖W 0‖]

/-- The data `E = 3i H` of `demoGathered`, with noise `1/2` in the second window. -/
noncomputable def demoNoisy : Gathered ℂ where
  outData := ⟨"s", 8, ["m"], ["E"], 1, [2], [], [(0, [some [6 * Complex.I], some [3 * Complex.I + 1 / 2]])]⟩
  inData := ⟨"s", 8, ["m"], ["H"], 1, [2], [], [(0, [some [2], some [1]])]⟩
  crossData := ⟨"s", 8, ["m"], ["H"], 1, [2], [], [(0, [some [2], some [1]])]⟩

example : ∃ r s Zh, prepareGathered demoTf1 demoNoisy = .ok r ∧ solveWith someLeastSquares r = .ok s ∧ s.Holds demoTf1 [2] Zh ∧
    ‖Zh 0 0 0 - 3 * Complex.I‖ ≤ 1 / 4 * √2 := by
  obtain ⟨r, s, Zh, h1, h2, h3, h4⟩ := C89_noise_level someLeastSquares someLeastSquares_spec demoTf1 ⟨rfl, rfl⟩
    (C35_equal_lengths demoTf1 (by decide) (by decide) (Or.inl ⟨1, by decide⟩)) (by decide) (by simp [demoTf1]) (by simp [demoTf1])
    demoNoisy (fun _ => 2) (fun _ w _ => if w = 0 then 6 * Complex.I else 3 * Complex.I + 1 / 2)
    (fun _ w _ => if w = 0 then 2 else 1) (fun _ w _ => if w = 0 then 2 else 1)
    ⟨rfl, rfl, by
      intro k hk
      have : k = 0 := by simpa [demoNoisy] using hk
      subst this
      simp [demoNoisy, demoTf1, arr2, List.range_succ], by
      intro k hk
      have : k = 0 := by simpa [demoNoisy] using hk
      subst this
      simp [demoNoisy, demoTf1, arr2, List.range_succ], by
      intro k hk
      have : k = 0 := by simpa [demoNoisy] using hk
      subst this
      simp [demoNoisy, demoTf1, arr2, List.range_succ]⟩ (by simp) (fun _ _ _ => 3 * Complex.I) (1 / 2) 2 4 (by norm_num) (by norm_num)
    (fun _ _ => demo_gain) (by
      intro k _ w hw o _
      by_cases h : w = 0
      · subst h
        have : (6 * Complex.I - 3 * Complex.I * 2 : ℂ) = 0 := by ring
        simp [demoTf1, this]
      · simp [demoTf1, h]) (by
      intro k _ w _ c _
      by_cases h : w = 0 <;> simp [h])
  refine ⟨r, s, Zh, h1, h2, h3, (h4 0 (by simp [demoNoisy]) 0 (by simp [demoTf1]) 0 (by simp [demoTf1])).trans (le_of_eq ?_)⟩
  norm_num [demoTf1]

/-- Data of single precision: the hypotheses of the theorem on rounded data are met. -/
example : ∃ r s Zh, prepareGatheredF (fun _ => .single) demoPairsTf demoPairs = .ok r ∧ solveWith someLeastSquares r = .ok s ∧
    s.Holds demoPairsTf [1 / 4] Zh := by
  obtain ⟨r, s, Zh, h1, h2, h3, -⟩ := C89_rounded someLeastSquares someLeastSquares_spec (fun _ => .single) (fun _ => Or.inl rfl) demoPairsTf ⟨rfl, rfl⟩
    (C35_equal_lengths demoPairsTf (by decide) (by decide) (Or.inl ⟨2, by decide⟩)) (by decide) (by simp [demoPairsTf]) (by simp [demoPairsTf])
    demoPairs _ _ _ _ demoPairs_is (by simp)
  exact ⟨r, s, Zh, h1, h2, h3⟩

end Resistics
