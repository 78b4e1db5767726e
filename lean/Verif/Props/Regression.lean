import Verif.Model.Regression
import Verif.Lemmas.Except
import Verif.Lemmas.Lists
import Verif.Props.GatherData

/-!
# Regression input (C33, C37)

Arrays are described by functions: `F k w o` is the value of output channel `o` in window `w` at evaluation frequency
`k`, and so on.
-/

namespace Resistics

open scoped ComplexConjugate
open Finset (range)

/-! ## Specification -/

/-- An array of `nw` windows and `n` channels. -/
def arr2 {V : Type} (nw n : ℕ) (f : ℕ → ℕ → V) : List (List V) := (List.range nw).map fun w => (List.range n).map (f w)

/-- The gathered data hold, at every evaluation frequency `k`, `nw k` windows with output values `F k`, input values
`I k` and cross values `C k`, one per channel of the transfer function. -/
structure GatheredIs (tf : TransFunc) (g : Gathered ℂ) (nw : ℕ → ℕ) (F I C : ℕ → ℕ → ℕ → ℂ) : Prop where
  n_in : tf.nIn = tf.inChans.length
  n_cross : tf.nCross = tf.crossChans.length
  out : ∀ k < g.outData.evalFreqs.length,
    g.outData.data.lookup k = some ((arr2 (nw k) tf.outChans.length (F k)).map some)
  inp : ∀ k < g.outData.evalFreqs.length,
    g.inData.data.lookup k = some ((arr2 (nw k) tf.inChans.length (I k)).map some)
  cross : ∀ k < g.outData.evalFreqs.length,
    g.crossData.data.lookup k = some ((arr2 (nw k) tf.crossChans.length (C k)).map some)

/-- The real coefficients of `n` complex ones: real and imaginary part of each in turn. -/
def realCoefs (n : ℕ) (Z : ℕ → ℂ) : List ℝ := (List.range n).flatMap fun i => [(Z i).re, (Z i).im]

/-- For every window and cross channel, the real and the imaginary part of a complex number. -/
def complexRows (nw nc : ℕ) (v : ℕ → ℕ → ℂ) : List ℝ :=
  (List.range nw).flatMap fun w => (List.range nc).flatMap fun c => [(v w c).re, (v w c).im]

/-! ## Lemmas -/

theorem zipWith_flatMap_pair (l : List ℕ) (a b x y : ℕ → ℝ) :
    (List.zipWith (· * ·) (l.flatMap fun i => [a i, b i]) (l.flatMap fun i => [x i, y i])).sum =
      (l.map fun i => a i * x i + b i * y i).sum := by
  induction l with
  | nil => rfl
  | cons i l ih =>
    simp only [List.flatMap_cons, List.cons_append, List.nil_append, List.zipWith_cons_cons, List.sum_cons, ih,
      List.map_cons]
    ring

theorem list_sum_range {M : Type*} [AddCommMonoid M] (n : ℕ) (f : ℕ → M) :
    ((List.range n).map f).sum = ∑ i ∈ range n, f i := by
  induction n with
  | zero => rfl
  | succ n ih => rw [List.range_succ, List.map_append, List.sum_append, ih, Finset.sum_range_succ]; simp

theorem predict_append (p q : List (List ℝ)) (c : List ℝ) : predict (p ++ q) c = predict p c ++ predict q c :=
  List.map_append

theorem predict_flatMap {α : Type*} (l : List α) (f : α → List (List ℝ)) (c : List ℝ) :
    predict (l.flatMap f) c = l.flatMap fun a => predict (f a) c := by
  induction l with
  | nil => rfl
  | cons a l ih => rw [List.flatMap_cons, List.flatMap_cons, predict_append, ih]

/-- The two rows of a cross channel applied to the real coefficients: the complex combination. -/
theorem predict_predsRows (n : ℕ) (col Z : ℕ → ℂ) :
    predict (predsRows ((List.range n).map col)) (realCoefs n Z) =
      [(∑ i ∈ range n, Z i * col i).re, (∑ i ∈ range n, Z i * col i).im] := by
  unfold predict predsRows realCoefs
  simp only [List.map_cons, List.map_nil, List.flatMap_map, zipWith_flatMap_pair, list_sum_range, Complex.re_sum,
    Complex.im_sum, Complex.mul_re, Complex.mul_im]
  congr 1
  · apply Finset.sum_congr rfl; intros; ring
  · congr 1
    apply Finset.sum_congr rfl; intros; ring

theorem winPowers_range (n m : ℕ) (f g : ℕ → ℂ) :
    winPowers ((List.range n).map f) ((List.range m).map g) =
      (List.range n).map fun i => (List.range m).map fun c => f i * conj (g c) := by
  simp only [winPowers, List.map_map]; rfl

theorem crossPowers_arr2 (nw n m : ℕ) (f g : ℕ → ℕ → ℂ) :
    crossPowers (arr2 nw n f) (arr2 nw m g) =
      .ok ((List.range nw).map fun w => (List.range n).map fun i => (List.range m).map fun c =>
        f w i * conj (g w c)) := by
  unfold crossPowers arr2
  rw [if_neg (by simp)]
  simp only [List.zipWith_map, List.zipWith_self, winPowers_range]

theorem range_map_getD {α : Type*} (n c : ℕ) (f : ℕ → α) (d : α) (h : c < n) : ((List.range n).map f).getD c d = f c := by
  simp [List.getD_eq_getElem?_getD, h]

theorem flatMap_congr' {α β : Type*} {l : List α} {f g : α → List β} (h : ∀ a ∈ l, f a = g a) :
    l.flatMap f = l.flatMap g := by
  induction l with
  | nil => rfl
  | cons a l ih =>
    rw [List.flatMap_cons, List.flatMap_cons, h a (by simp), ih fun b hb => h b (by simp [hb])]

theorem predsWin_range (tf : TransFunc) (n m : ℕ) (hn : tf.nIn = n) (hm : tf.nCross = m) (v : ℕ → ℕ → ℂ) :
    predsWin tf ((List.range n).map fun i => (List.range m).map fun c => v i c) =
      .ok ((List.range m).flatMap fun c => predsRows ((List.range n).map fun i => v i c)) := by
  unfold predsWin
  rw [if_neg (by simp [hn, hm])]
  congr 1
  rw [hm, Int.toNat_natCast]
  apply flatMap_congr'
  intro c hc
  rw [List.map_map]
  congr 2
  funext i
  exact range_map_getD m c _ 0 (List.mem_range.mp hc)

theorem getPreds_range (tf : TransFunc) (nw n m : ℕ) (hn : tf.nIn = n) (hm : tf.nCross = m) (v : ℕ → ℕ → ℕ → ℂ) :
    getPreds tf ((List.range nw).map fun w => (List.range n).map fun i => (List.range m).map fun c => v w i c) =
      .ok ((List.range nw).flatMap fun w => (List.range m).flatMap fun c => predsRows ((List.range n).map fun i => v w i c)) := by
  unfold getPreds
  rw [if_neg (by rw [hn, hm]; omega)]
  have : ((List.range nw).map fun w => (List.range n).map fun i => (List.range m).map fun c => v w i c).mapM (predsWin tf)
      = .ok ((List.range nw).map fun w => (List.range m).flatMap fun c => predsRows ((List.range n).map fun i => v w i c)) := by
    rw [List.mapM_map]
    exact mapM_ok_map fun w _ => predsWin_range tf n m hn hm (v w)
  simp only [this, pure, Except.pure, bind, Except.bind, List.flatMap_def]

theorem interleave_flatten (l : List ℕ) (m : ℕ) (v : ℕ → ℕ → ℂ) :
    interleave (l.map fun w => (List.range m).map fun c => v w c).flatten =
      l.flatMap fun w => (List.range m).flatMap fun c => [(v w c).re, (v w c).im] := by
  unfold interleave
  induction l with
  | nil => rfl
  | cons w l ih =>
    rw [List.map_cons, List.flatten_cons, List.flatMap_append, ih, List.flatMap_cons, List.flatMap_map]

theorem obsChan_range (nw n m o : ℕ) (ho : o < n) (v : ℕ → ℕ → ℕ → ℂ) :
    obsChan ((List.range nw).map fun w => (List.range n).map fun i => (List.range m).map fun c => v w i c) o =
      .ok (complexRows nw m fun w c => v w o c) := by
  unfold obsChan
  have : ((List.range nw).map fun w => (List.range n).map fun i => (List.range m).map fun c => v w i c).mapM
      (fun win => pyIndex win (o : ℤ)) = .ok ((List.range nw).map fun w => (List.range m).map fun c => v w o c) := by
    rw [List.mapM_map]
    refine mapM_ok_map fun w _ => ?_
    rw [Function.comp, pyIndex_natCast _ _ (by simpa using ho)]
    simp
  simp only [this, pure, Except.pure, bind, Except.bind, interleave_flatten]
  rfl

/-- The observations dictionary: the last channel of a name wins; with distinct names, the channel itself. -/
theorem getObs_range (tf : TransFunc) (hnd : tf.outChans.Nodup) (nw m : ℕ) (v : ℕ → ℕ → ℕ → ℂ) :
    ∃ obs, getObs tf ((List.range nw).map fun w => (List.range tf.outChans.length).map fun i =>
        (List.range m).map fun c => v w i c) = .ok obs ∧
      ∀ (o : ℕ) (name : String), tf.outChans[o]? = some name →
        obs.lookup name = some (complexRows nw m fun w c => v w o c) := by
  unfold getObs
  obtain ⟨obs, h1, h2⟩ := foldlM_total_prefix (f := obsStep ((List.range nw).map fun w =>
      (List.range tf.outChans.length).map fun i => (List.range m).map fun c => v w i c))
    (P := fun done (d : List (String × List ℝ)) => ∀ p ∈ done, d.lookup p.1 = some (complexRows nw m fun w c => v w p.2 c))
    tf.outChans.zipIdx [] (by simp) (by
      intro done a d hpre hP
      have ha : a ∈ tf.outChans.zipIdx := hpre.subset (by simp)
      have hlt : a.2 < tf.outChans.length := by
        have := List.mem_zipIdx ha; omega
      refine ⟨dictSet d a.1 (complexRows nw m fun w c => v w a.2 c), ?_, ?_⟩
      · unfold obsStep
        rw [obsChan_range nw _ m a.2 hlt v]; rfl
      · intro p hp
        rw [dictSet_lookup]
        rcases List.mem_append.mp hp with hp | hp
        · have hne : p.1 ≠ a.1 := by
            have hnd2 : ((done ++ [a]).map Prod.fst).Nodup := by
              have hs : ((done ++ [a]).map Prod.fst).Sublist (tf.outChans.zipIdx.map Prod.fst) :=
                (hpre.sublist).map _
              rw [List.zipIdx_map_fst] at hs
              exact hs.nodup hnd
            rw [List.map_append, List.nodup_append] at hnd2
            exact fun h => hnd2.2.2 p.1 (List.mem_map_of_mem hp) a.1 (by simp) h
          rw [if_neg hne]; exact hP p hp
        · simp only [List.mem_singleton] at hp
          subst hp; simp)
  refine ⟨obs, h1, ?_⟩
  intro o name ho
  exact h2 (name, o) (by
    rw [List.mem_zipIdx_iff_getElem?]; exact ho)

theorem filledRows_some {V : Type} (rows : List (List V)) : filledRows (rows.map some) = .ok rows := by
  unfold filledRows
  rw [List.mapM_map]
  have := mapM_ok_map (f := (fun r : Option (List V) => (match r with
    | some row => .ok row
    | none => .error .other : Except Err (List V))) ∘ some) (g := id) (l := rows) (fun a _ => rfl)
  rw [List.map_id] at this
  exact this

theorem siteRows_some {V : Type} (s : SiteCombined V) (k : ℕ) (rows : List (List V))
    (h : s.data.lookup k = some (rows.map some)) : siteRows s k = .ok rows := by
  unfold siteRows dictGet
  rw [h]
  exact filledRows_some rows

/-- One evaluation frequency. -/
theorem prepareEval_spec (tf : TransFunc) (hnd : tf.outChans.Nodup) (g : Gathered ℂ) (nw : ℕ → ℕ)
    (F I C : ℕ → ℕ → ℕ → ℂ) (hg : GatheredIs tf g nw F I C) (k : ℕ) (hk : k < g.outData.evalFreqs.length) :
    ∃ obs preds, prepareEval tf g k = .ok (obs, preds) ∧
      (∀ (o : ℕ) (name : String), tf.outChans[o]? = some name →
        obs.lookup name = some (complexRows (nw k) tf.crossChans.length fun w c => F k w o * conj (C k w c))) ∧
      preds = (List.range (nw k)).flatMap fun w => (List.range tf.crossChans.length).flatMap fun c =>
        predsRows ((List.range tf.inChans.length).map fun i => I k w i * conj (C k w c)) := by
  obtain ⟨obs, h1, h2⟩ := getObs_range tf hnd (nw k) tf.crossChans.length (fun w o c => F k w o * conj (C k w c))
  refine ⟨obs, _, ?_, h2, rfl⟩
  unfold prepareEval
  simp only [siteRows_some _ _ _ (hg.out k hk), siteRows_some _ _ _ (hg.inp k hk), siteRows_some _ _ _ (hg.cross k hk),
    bind, Except.bind, crossPowers_arr2, h1,
    getPreds_range tf (nw k) tf.inChans.length tf.crossChans.length hg.n_in hg.n_cross
      (fun w i c => I k w i * conj (C k w c))]
  rfl

theorem predict_window (nw m n : ℕ) (Z : ℕ → ℂ) (v : ℕ → ℕ → ℕ → ℂ) :
    predict ((List.range nw).flatMap fun w => (List.range m).flatMap fun c =>
        predsRows ((List.range n).map fun i => v w i c)) (realCoefs n Z) =
      complexRows nw m fun w c => ∑ i ∈ range n, Z i * v w i c := by
  unfold complexRows
  simp only [predict_flatMap, predict_predsRows]

theorem predsRows_length (nw m n : ℕ) (v : ℕ → ℕ → ℕ → ℂ) :
    ((List.range nw).flatMap fun w => (List.range m).flatMap fun c =>
        predsRows ((List.range n).map fun i => v w i c)).length = nw * (2 * m) := by
  simp [List.length_flatMap, predsRows, mul_comm]

theorem complexRows_length (nw m : ℕ) (v : ℕ → ℕ → ℂ) : (complexRows nw m v).length = nw * (2 * m) := by
  simp [complexRows, List.length_flatMap, mul_comm]

theorem flatMap_eq_iff {α β : Type*} (l : List α) (f g : α → List β) (h : ∀ a ∈ l, (f a).length = (g a).length) :
    l.flatMap f = l.flatMap g ↔ ∀ a ∈ l, f a = g a := by
  refine ⟨?_, flatMap_congr'⟩
  induction l with
  | nil => simp
  | cons a l ih =>
    intro he
    rw [List.flatMap_cons, List.flatMap_cons] at he
    obtain ⟨e1, e2⟩ := List.append_inj he (h a (by simp))
    intro b hb
    rcases List.mem_cons.mp hb with rfl | hb
    · exact e1
    · exact ih (fun a ha => h a (by simp [ha])) e2 b hb

/-- Two systems of complex numbers have the same real rows only if they are the same. -/
theorem complexRows_inj (nw m : ℕ) (u v : ℕ → ℕ → ℂ) :
    complexRows nw m u = complexRows nw m v ↔ ∀ w < nw, ∀ c < m, u w c = v w c := by
  unfold complexRows
  rw [flatMap_eq_iff _ _ _ (by simp [List.length_flatMap])]
  constructor
  · intro h w hw c hc
    have h1 := h w (by simpa using hw)
    rw [flatMap_eq_iff _ _ _ (by simp)] at h1
    have h2 := h1 c (by simpa using hc)
    simp only [List.cons.injEq, and_true] at h2
    exact Complex.ext h2.1 h2.2
  · intro h w hw
    apply flatMap_congr'
    intro c hc
    rw [h w (by simpa using hw) c (by simpa using hc)]

/-! ## Theorems -/

/-- **C33, C37**. Preparing gathered data succeeds, and for every evaluation frequency and output channel: the
observations are, window by window and cross channel by cross channel, the real and imaginary part of
`out * conj cross`; the predictors times the real coefficients of any complex `Z` are the real and imaginary parts of
`Σᵢ Zᵢ (inᵢ * conj cross)`; there are two rows per window and cross channel, and two columns per input channel. -/
theorem C33_rows (tf : TransFunc) (hnd : tf.outChans.Nodup) (g : Gathered ℂ) (nw : ℕ → ℕ)
    (F I C : ℕ → ℕ → ℕ → ℂ) (hg : GatheredIs tf g nw F I C) :
    ∃ r, prepareGathered tf g = .ok r ∧ r.tf = tf ∧ r.freqs = g.outData.evalFreqs ∧
      ∀ (k : ℕ), k < g.outData.evalFreqs.length → ∀ (o : ℕ) (name : String), tf.outChans[o]? = some name →
        ∃ obs preds, r.getInputs k name = .ok (obs, preds) ∧
          obs = complexRows (nw k) tf.crossChans.length (fun w c => F k w o * conj (C k w c)) ∧
          (∀ Z : ℕ → ℂ, predict preds (realCoefs tf.inChans.length Z) =
            complexRows (nw k) tf.crossChans.length fun w c =>
              ∑ i ∈ range tf.inChans.length, Z i * (I k w i * conj (C k w c))) ∧
          obs.length = nw k * (2 * tf.crossChans.length) ∧ preds.length = obs.length ∧
          ∀ row ∈ preds, row.length = 2 * tf.inChans.length := by
  obtain ⟨rows, hrows⟩ := mapM_exists (f := prepareEval tf g) (l := List.range g.outData.evalFreqs.length) (by
    intro k hk
    obtain ⟨obs, preds, h, -⟩ := prepareEval_spec tf hnd g nw F I C hg k (List.mem_range.mp hk)
    exact ⟨_, h⟩)
  have hlen := mapM_ok_length hrows
  rw [List.length_range] at hlen
  refine ⟨_, by unfold prepareGathered; rw [hrows]; rfl, rfl, rfl, ?_⟩
  intro k hk o name ho
  obtain ⟨obs, preds, h, h2, h3⟩ := prepareEval_spec tf hnd g nw F I C hg k hk
  have hk' : k < rows.length := by omega
  have hrow : rows[k] = (obs, preds) := by
    have := mapM_ok_getElem hrows k (by simpa using hk) hk'
    rw [List.getElem_range, h, Except.ok.injEq] at this
    exact this.symm
  refine ⟨_, preds, ?_, rfl, ?_, complexRows_length _ _ _, ?_, ?_⟩
  · unfold RegInput.getInputs
    simp only [pyIndex_natCast (rows.map (·.1)) k (by simpa using hk'), pyIndex_natCast (rows.map (·.2)) k (by simpa using hk'),
      List.getElem_map, hrow, bind, Except.bind, dictGet, h2 o name ho]
    rfl
  · intro Z; rw [h3, predict_window]
  · rw [h3, predsRows_length, complexRows_length]
  · intro row hrow'
    rw [h3] at hrow'
    simp only [List.mem_flatMap, predsRows, List.mem_cons, List.not_mem_nil, or_false] at hrow'
    obtain ⟨w, -, c, -, hr | hr⟩ := hrow' <;> (subst hr; simp [List.length_flatMap, List.map_map, Function.comp_def, mul_comm])

/-- **C33**. A complex transfer function satisfies the cross-power equations of all windows and cross channels exactly
when its real coefficients solve the system that the preparer built, with no residual in any row. -/
theorem C33_solves_iff (tf : TransFunc) (hnd : tf.outChans.Nodup) (g : Gathered ℂ) (nw : ℕ → ℕ)
    (F I C : ℕ → ℕ → ℕ → ℂ) (hg : GatheredIs tf g nw F I C) (r : RegInput) (hr : prepareGathered tf g = .ok r)
    (k : ℕ) (hk : k < g.outData.evalFreqs.length) (o : ℕ) (name : String) (ho : tf.outChans[o]? = some name)
    (obs : List ℝ) (preds : List (List ℝ)) (hin : r.getInputs k name = .ok (obs, preds)) (Z : ℕ → ℂ) :
    predict preds (realCoefs tf.inChans.length Z) = obs ↔
      ∀ w < nw k, ∀ c < tf.crossChans.length,
        F k w o * conj (C k w c) = ∑ i ∈ range tf.inChans.length, Z i * (I k w i * conj (C k w c)) := by
  obtain ⟨r', h1, -, -, h2⟩ := C33_rows tf hnd g nw F I C hg
  rw [hr, Except.ok.injEq] at h1
  subst h1
  obtain ⟨obs', preds', h3, h4, h5, -⟩ := h2 k hk o name ho
  rw [hin, Except.ok.injEq, Prod.mk.injEq] at h3
  obtain ⟨rfl, rfl⟩ := h3
  rw [h5, h4, complexRows_inj]
  constructor <;> intro h w hw c hc <;> exact (h w hw c hc).symm

/-- **C33**. Output data which are exactly `Z` times the input data are fitted without residual by `Z`. -/
theorem C33_exact_data (tf : TransFunc) (hnd : tf.outChans.Nodup) (g : Gathered ℂ) (nw : ℕ → ℕ)
    (F I C : ℕ → ℕ → ℕ → ℂ) (hg : GatheredIs tf g nw F I C) (r : RegInput) (hr : prepareGathered tf g = .ok r)
    (k : ℕ) (hk : k < g.outData.evalFreqs.length) (o : ℕ) (name : String) (ho : tf.outChans[o]? = some name)
    (Z : ℕ → ℂ) (hZ : ∀ w < nw k, F k w o = ∑ i ∈ range tf.inChans.length, Z i * I k w i) :
    ∃ obs preds, r.getInputs k name = .ok (obs, preds) ∧ predict preds (realCoefs tf.inChans.length Z) = obs := by
  obtain ⟨r', h1, -, -, h2⟩ := C33_rows tf hnd g nw F I C hg
  rw [hr, Except.ok.injEq] at h1
  subst h1
  obtain ⟨obs, preds, h3, -⟩ := h2 k hk o name ho
  refine ⟨obs, preds, h3, ?_⟩
  rw [C33_solves_iff tf hnd g nw F I C hg r hr k hk o name ho obs preds h3]
  intro w hw c hc
  rw [hZ w hw, Finset.sum_mul]
  apply Finset.sum_congr rfl
  intros; ring

/-- **C33**. When the cross powers of the windows with the inputs are independent, only one complex transfer function
solves the equations: a system without residual determines it. -/
theorem C33_unique (nw n m : ℕ) (I C : ℕ → ℕ → ℂ)
    (hind : ∀ W : ℕ → ℂ, (∀ w < nw, ∀ c < m, ∑ i ∈ range n, W i * (I w i * conj (C w c)) = 0) → ∀ i < n, W i = 0)
    (preds : List (List ℝ)) (hp : ∀ Z : ℕ → ℂ, predict preds (realCoefs n Z) =
      complexRows nw m fun w c => ∑ i ∈ range n, Z i * (I w i * conj (C w c))) (Z Z' : ℕ → ℂ)
    (h : predict preds (realCoefs n Z) = predict preds (realCoefs n Z')) : ∀ i < n, Z i = Z' i := by
  rw [hp, hp, complexRows_inj] at h
  intro i hi
  have := hind (fun i => Z i - Z' i) (by
    intro w hw c hc
    have := h w hw c hc
    simp only [sub_mul, Finset.sum_sub_distrib, this, sub_self]) i hi
  exact sub_eq_zero.mp this

/-- **C33 (numbers of equations)**: per window an output channel has as many complex equations, and as many complex unknowns, as the
transfer function says (`n_eqns_per_output` and `n_regressors`): two real rows for each equation, two real columns for each unknown. -/
theorem C33_equations (tf : TransFunc) (hnd : tf.outChans.Nodup) (g : Gathered ℂ) (nw : ℕ → ℕ)
    (F I C : ℕ → ℕ → ℕ → ℂ) (hg : GatheredIs tf g nw F I C) (r : RegInput) (hr : prepareGathered tf g = .ok r)
    (k : ℕ) (hk : k < g.outData.evalFreqs.length) (o : ℕ) (name : String) (ho : tf.outChans[o]? = some name)
    (obs : List ℝ) (preds : List (List ℝ)) (hin : r.getInputs k name = .ok (obs, preds)) :
    obs.length = nw k * (2 * tf.nEqnsPerOutput) ∧ preds.length = nw k * (2 * tf.nEqnsPerOutput) ∧
      ∀ row ∈ preds, (row.length : ℤ) = 2 * tf.nRegressors := by
  obtain ⟨r', h1, -, -, h2⟩ := C33_rows tf hnd g nw F I C hg
  rw [hr, Except.ok.injEq] at h1
  subst h1
  obtain ⟨obs', preds', h3, -, -, h5, h6, h7⟩ := h2 k hk o name ho
  rw [hin, Except.ok.injEq, Prod.mk.injEq] at h3
  obtain ⟨rfl, rfl⟩ := h3
  refine ⟨h5, h6.trans h5, fun row hrow => ?_⟩
  rw [h7 row hrow, TransFunc.nRegressors, hg.n_in]
  push_cast
  rfl

/-- **C33 (windows that do not belong together)**: gathered data in which the cross channels have, at some evaluation frequency, another
number of windows than the output or the input channels are refused; no equations are made.  (A single window is left out: numpy would
repeat it.) -/
theorem C33_windows_must_match (tf : TransFunc) (g : Gathered ℂ) (k : ℕ) (hk : k < g.outData.evalFreqs.length)
    (out inp cross : List (List ℂ)) (ho : g.outData.data.lookup k = some (out.map some))
    (hi : g.inData.data.lookup k = some (inp.map some)) (hc : g.crossData.data.lookup k = some (cross.map some))
    (_h1 : out.length ≠ 1 ∧ inp.length ≠ 1 ∧ cross.length ≠ 1) (hne : out.length ≠ cross.length ∨ inp.length ≠ cross.length) :
    ∃ e, prepareGathered tf g = .error e := by
  cases hp : prepareGathered tf g with
  | error e => exact ⟨e, rfl⟩
  | ok r =>
    exfalso
    unfold prepareGathered at hp
    obtain ⟨rows, hr, -⟩ := except_bind_ok.1 hp
    have hl := mapM_ok_length hr
    rw [List.length_range] at hl
    have hkr := mapM_ok_getElem hr k (by simpa using hk) (by omega)
    rw [List.getElem_range] at hkr
    unfold prepareEval at hkr
    simp only [siteRows_some _ _ _ ho, siteRows_some _ _ _ hi, siteRows_some _ _ _ hc, bind, Except.bind] at hkr
    unfold crossPowers at hkr
    rcases hne with hne | hne
    · rw [if_pos hne] at hkr
      cases hkr
    · rw [if_pos hne] at hkr
      split at hkr <;> cases hkr

/-- the hypotheses of `C33_windows_must_match` are met -/
example : ∃ e, prepareGathered ⟨"T", "", ["Ex"], ["Hx"], ["Hx"], 1, 1, 1⟩
    ⟨⟨"A", 1, [], ["Ex"], 1, [1 / 4], [], [(0, [some [1], some [2]])]⟩, ⟨"A", 1, [], ["Hx"], 1, [1 / 4], [], [(0, [some [1], some [2]])]⟩,
      ⟨"B", 1, [], ["Hx"], 1, [1 / 4], [], [(0, [some [1], some [2], some [3]])]⟩⟩ = .error e :=
  C33_windows_must_match _ _ 0 (by simp) [[1], [2]] [[1], [2]] [[1], [2], [3]] rfl rfl rfl (by simp) (by simp)

end Resistics
