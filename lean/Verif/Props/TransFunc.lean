import Verif.Props.Regression

/-!
# Transfer function definitions, resistivity and phase (C37, C52)
-/

namespace Resistics

/-! ## C37: definitions -/

/-- **C37**. Construction with channel lists: the fields given are kept, and what was omitted is completed – the counts
with the lengths of the lists, the cross channels with the input channels, the name with the class. -/
theorem C37_completed (cls : TfClass) (a : TfArgs) (o i : List String) (ho : a.outChans.or cls.outChans = some o)
    (hi : a.inChans.or cls.inChans = some i) (hv : (a.variation.getD cls.variation).length ≤ 16) :
    ∃ tf, mkTransFunc cls a = .ok tf ∧ tf.outChans = o ∧ tf.inChans = i ∧
      tf.variation = a.variation.getD cls.variation ∧
      (a.crossChans = none → tf.crossChans = i) ∧ (∀ c, a.crossChans = some c → tf.crossChans = c) ∧
      (a.nOut = none → tf.nOut = o.length) ∧ (a.nIn = none → tf.nIn = i.length) ∧
      (a.nCross = none → tf.nCross = tf.crossChans.length) ∧
      (a.name = none → tf.name = cls.className) ∧ (∀ n, a.name = some n → tf.name = n) ∧
      (∀ n, a.nOut = some n → tf.nOut = n) ∧ (∀ n, a.nIn = some n → tf.nIn = n) ∧ (∀ n, a.nCross = some n → tf.nCross = n) := by
  refine ⟨completeTf cls a o i, ?_, rfl, rfl, rfl, ?_⟩
  · unfold mkTransFunc
    simp only [ho, hi, neededBy, bind, Except.bind, finishTf]
    rw [if_neg (by omega)]
  · refine ⟨?_, ?_, ?_, ?_, ?_, ?_, ?_, ?_, ?_, ?_⟩ <;> intros <;> simp_all [completeTf]

/-- **C37**. An over-long variation is refused. -/
theorem C37_long_variation (cls : TfClass) (a : TfArgs) (o i : List String) (ho : a.outChans.or cls.outChans = some o)
    (hi : a.inChans.or cls.inChans = some i) (hv : 16 < (a.variation.getD cls.variation).length) :
    mkTransFunc cls a = .error .value := by
  unfold mkTransFunc
  simp only [ho, hi, neededBy, bind, Except.bind, finishTf]
  rw [if_pos hv]

/-- **C37**. Without channel lists (neither given nor defaulted by the class) nothing is constructed; the error is a
`KeyError` unless all the values derived from the missing list were given. -/
theorem C37_missing_lists (cls : TfClass) (a : TfArgs)
    (h : a.outChans.or cls.outChans = none ∨ a.inChans.or cls.inChans = none) :
    mkTransFunc cls a = .error .key ∨ mkTransFunc cls a = .error .value := by
  unfold mkTransFunc
  rcases h with h | h
  · cases hi : a.inChans.or cls.inChans <;> cases hc : a.crossChans <;> cases ho : a.nOut <;> cases hn : a.nIn <;>
      simp [h, neededBy, bind, Except.bind, finishTf]
  · cases hi : a.outChans.or cls.outChans <;> cases hc : a.crossChans <;> cases ho : a.nOut <;> cases hn : a.nIn <;>
      simp [h, neededBy, bind, Except.bind, finishTf]

/-- **C37**. The built-in transfer functions need no arguments. -/
theorem C37_builtin :
    mkTransFunc tfImpedance {} = .ok ⟨"ImpedanceTensor", "default", ["Ex", "Ey"], ["Hx", "Hy"], ["Hx", "Hy"], 2, 2, 2⟩ ∧
    mkTransFunc tfTipper {} = .ok ⟨"Tipper", "default", ["Hz"], ["Hx", "Hy"], ["Hx", "Hy"], 1, 2, 2⟩ ∧
    mkTransFunc tfBase {} = .error .key := by
  decide +kernel

/-- **C37**. A transfer function survives being turned into a dictionary and validated again, if its class is registered
(or it is a plain transfer function): reading a saved solution gives back the same definition. -/
theorem C37_dict_roundtrip (types : List (String × TfClass)) (cls : TfClass) (a : TfArgs) (tf : TransFunc)
    (ha : a.name = none) (h : mkTransFunc cls a = .ok tf)
    (hreg : cls.className = "TransferFunction" ∧ cls = tfBase ∨
      cls.className ≠ "TransferFunction" ∧ types.lookup cls.className = some cls) :
    tfValidate tfBase types tf.toDict = .ok tf := by
  -- the lists and the variation were accepted
  have hfin : ∃ o i, a.outChans.or cls.outChans = some o ∧ a.inChans.or cls.inChans = some i ∧
      (a.variation.getD cls.variation).length ≤ 16 := by
    by_contra hcon
    push Not at hcon
    cases ho : a.outChans.or cls.outChans with
    | none => rcases C37_missing_lists cls a (Or.inl ho) with e | e <;> rw [h] at e <;> simp at e
    | some o =>
      cases hi : a.inChans.or cls.inChans with
      | none => rcases C37_missing_lists cls a (Or.inr hi) with e | e <;> rw [h] at e <;> simp at e
      | some i =>
        have := C37_long_variation cls a o i ho hi (hcon o i ho hi)
        rw [h] at this
        simp at this
  obtain ⟨o, i, ho, hi, hv⟩ := hfin
  have hname : tf.name = cls.className ∧ tf.variation.length ≤ 16 := by
    obtain ⟨tf', e1, -, -, e2, -, -, -, -, -, e3, -⟩ := C37_completed cls a o i ho hi hv
    rw [h, Except.ok.injEq] at e1
    subst e1
    exact ⟨e3 ha, by rw [e2]; exact hv⟩
  have hcons : ∀ c : TfClass, c.className = tf.name → mkTransFunc c { tf.toArgs with name := none } = .ok tf := by
    intro c hc
    show (if 16 < tf.variation.length then Except.error Err.value
      else Except.ok (completeTf c { tf.toArgs with name := none } tf.outChans tf.inChans)) = _
    rw [if_neg (by have := hname.2; omega)]
    simp [completeTf, hc, TransFunc.toArgs]
  unfold tfValidate TransFunc.toDict
  simp only
  rcases hreg with ⟨h1, h2⟩ | ⟨h1, h2⟩
  · rw [if_pos (hname.1.trans h1), hcons tfBase (by rw [hname.1, h1]; rfl)]
  · rw [if_neg (by rw [hname.1]; exact h1), hname.1, h2]
    simp only [hcons cls hname.1.symm]

/-- **C37**. What validation refuses: dictionaries without a name, unknown names, and anything that is neither a
dictionary nor a transfer function; transfer functions are returned as they are. -/
theorem C37_validate (cls : TfClass) (types : List (String × TfClass)) (tf : TransFunc) (args : TfArgs) (name : String)
    (hn : name ≠ "TransferFunction") (hu : types.lookup name = none) :
    tfValidate cls types (.obj tf) = .ok tf ∧ tfValidate cls types .other = .error .value ∧
      tfValidate cls types (.dict none args) = .error .key ∧ tfValidate cls types (.dict (some name) args) = .error .value := by
  refine ⟨rfl, rfl, rfl, ?_⟩
  simp only [tfValidate]
  rw [if_neg hn, hu]

/-- **C37**. Defining a transfer function class makes it known under its name, and changes no other name. -/
theorem C37_registered (types : List (String × TfClass)) (c : TfClass) (name : String) :
    (tfRegister types c).lookup name = if name = c.className then some c else types.lookup name := by
  unfold tfRegister
  rw [dictSet_lookup]

/-! ## Components -/

/-- **C37**. Values and arrays of a component agree. -/
theorem C37_component (c : Component) (z : List ℂ) (h : c.toNumpy = .ok z) :
    z.length = c.real.length ∧ ∀ (k : ℕ) (v : ℂ), z[k]? = some v → c.getValue k = .ok v := by
  unfold Component.toNumpy at h
  split at h
  · simp at h
  · rename_i hl
    push Not at hl
    rw [Except.ok.injEq] at h
    subst h
    refine ⟨by simp [hl], ?_⟩
    intro k v hv
    rw [List.getElem?_zipWith] at hv
    unfold Component.getValue
    by_cases hk : k < c.real.length
    · have hk' : k < c.imag.length := by omega
      rw [List.getElem?_eq_getElem hk, List.getElem?_eq_getElem hk'] at hv
      rw [pyIndex_natCast _ _ hk, pyIndex_natCast _ _ hk']
      simp only [Option.some.injEq] at hv
      simp only [bind, Except.bind, pure, Except.pure, hv]
    · rw [List.getElem?_eq_none (by omega)] at hv
      simp at hv

/-! ## Resistivity -/

/-- **C37**. Apparent resistivity is `0.2 T |Z|²` for each period. -/
theorem C37_resistivity (periods : List ℝ) (c : Component) (z : List ℂ) (hz : c.toNumpy = .ok z)
    (hl : periods.length = z.length) :
    ∃ rho, getResistivity periods c = .ok rho ∧ rho.length = z.length ∧
      ∀ (k : ℕ) (T : ℝ) (w : ℂ), periods[k]? = some T → z[k]? = some w → rho[k]? = some (0.2 * T * (w.re ^ 2 + w.im ^ 2)) := by
  refine ⟨List.zipWith (fun T (w : ℂ) => 0.2 * T * ‖w‖ ^ 2) periods z, ?_, by simp [hl], ?_⟩
  · unfold getResistivity
    simp only [hz, bind, Except.bind]
    rw [if_neg (by simpa using hl)]
    rfl
  · intro k T w hT hw
    rw [List.getElem?_zipWith, hT, hw]
    simp only [Option.some.injEq]
    rw [← Complex.normSq_eq_norm_sq, Complex.normSq_apply]
    ring

/-- **C37**: the periods of a solution are the reciprocals of its frequencies, in the same order. -/
theorem C37_periods (s : Solution) : s.periods.length = s.freqs.length ∧
    ∀ (k : ℕ) (f : ℚ), s.freqs[k]? = some f → f ≠ 0 → ∃ T, s.periods[k]? = some T ∧ T * f = 1 := by
  refine ⟨by simp [Solution.periods], fun k f hk hf => ⟨1 / f, ?_, by field_simp⟩⟩
  simp [Solution.periods, hk]

/-- **C37**. Multiplying an impedance by a complex number multiplies its resistivity by the square of the number's size:
resistivity scales quadratically, and does not depend on phase. -/
theorem C37_resistivity_scaling (periods : List ℝ) (c c' : Component) (z : List ℂ) (s : ℂ) (hz : c.toNumpy = .ok z)
    (hz' : c'.toNumpy = .ok (z.map (s * ·))) (rho : List ℝ) (h : getResistivity periods c = .ok rho) :
    getResistivity periods c' = .ok (rho.map (‖s‖ ^ 2 * ·)) := by
  unfold getResistivity at h ⊢
  simp only [hz, hz', bind, Except.bind] at h ⊢
  split at h
  · simp [throw, throwThe, MonadExceptOf.throw] at h
  · rename_i hl
    rw [if_neg (by simpa using hl)]
    simp only [pure, Except.pure, Except.ok.injEq] at h ⊢
    subst h
    rw [List.zipWith_map_right, List.map_zipWith]
    congr 1
    funext T w
    rw [norm_mul]; ring

/-- **C37**. A rotation of the phase leaves the resistivity as it is. -/
theorem C37_resistivity_phase (periods : List ℝ) (c c' : Component) (z : List ℂ) (s : ℂ) (hs : ‖s‖ = 1)
    (hz : c.toNumpy = .ok z) (hz' : c'.toNumpy = .ok (z.map (s * ·))) (rho : List ℝ)
    (h : getResistivity periods c = .ok rho) : getResistivity periods c' = .ok rho := by
  rw [C37_resistivity_scaling periods c c' z s hz hz' rho h, hs]
  simp

example : getResistivity [10] ⟨[3], [4]⟩ = .ok [50] := by
  obtain ⟨rho, h1, h2, h3⟩ := C37_resistivity [10] ⟨[3], [4]⟩ [(3 : ℝ) + Complex.I * (4 : ℝ)] rfl rfl
  have := h3 0 10 _ rfl rfl
  rw [h1]
  match rho, h2, this with
  | [x], _, this =>
    simp only [List.getElem?_cons_zero, Option.some.injEq] at this
    rw [this]; norm_num

/-! ## C52: phase -/

theorem unwrapCorrect_multiple (dd : ℝ) : ∃ m : ℤ, unwrapCorrect dd = m * (2 * Real.pi) := by
  unfold unwrapCorrect
  simp only
  split
  · exact ⟨0, by simp⟩
  · have h1 : toIcoMod Real.two_pi_pos (-Real.pi) dd = dd - toIcoDiv Real.two_pi_pos (-Real.pi) dd • (2 * Real.pi) := rfl
    rw [zsmul_eq_mul] at h1
    split
    · rename_i h
      rw [h1] at h
      refine ⟨1 - toIcoDiv Real.two_pi_pos (-Real.pi) dd, ?_⟩
      push_cast
      linarith [h.1]
    · refine ⟨-toIcoDiv Real.two_pi_pos (-Real.pi) dd, ?_⟩
      rw [h1]; push_cast; ring

theorem unwrapCorrect_bound (dd : ℝ) : |dd + unwrapCorrect dd| ≤ Real.pi := by
  have hpi := Real.pi_pos
  unfold unwrapCorrect
  simp only
  split
  · rename_i h; rw [add_zero]; exact h.le
  · have hm := toIcoMod_mem_Ico Real.two_pi_pos (-Real.pi) dd
    split
    · rw [show dd + (Real.pi - dd) = Real.pi by ring, abs_of_pos hpi]
    · rw [show dd + (toIcoMod Real.two_pi_pos (-Real.pi) dd - dd) = toIcoMod Real.two_pi_pos (-Real.pi) dd by ring, abs_le]
      constructor
      · exact hm.1
      · have := hm.2; linarith

theorem npUnwrapFrom_spec (xs : List ℝ) : ∀ (prev acc : ℝ), (∃ m : ℤ, acc = m * (2 * Real.pi)) →
    (npUnwrapFrom prev acc xs).length = xs.length ∧
    (∀ (k : ℕ) (x y : ℝ), xs[k]? = some x → (npUnwrapFrom prev acc xs)[k]? = some y → ∃ m : ℤ, y = x + m * (2 * Real.pi)) ∧
    (∀ (y : ℝ), (npUnwrapFrom prev acc xs)[0]? = some y → |y - (prev + acc)| ≤ Real.pi) ∧
    (∀ (k : ℕ) (y y' : ℝ), (npUnwrapFrom prev acc xs)[k]? = some y → (npUnwrapFrom prev acc xs)[k + 1]? = some y' →
      |y' - y| ≤ Real.pi) := by
  induction xs with
  | nil => intro prev acc _; simp [npUnwrapFrom]
  | cons x xs ih =>
    intro prev acc hacc
    obtain ⟨m, hm⟩ := hacc
    obtain ⟨m', hm'⟩ := unwrapCorrect_multiple (x - prev)
    obtain ⟨h1, h2, h3, h4⟩ := ih x (acc + unwrapCorrect (x - prev)) ⟨m + m', by rw [hm, hm']; push_cast; ring⟩
    simp only [npUnwrapFrom]
    refine ⟨by simp [h1], ?_, ?_, ?_⟩
    · intro k a y ha hy
      cases k with
      | zero =>
        simp only [List.getElem?_cons_zero, Option.some.injEq] at ha hy
        exact ⟨m + m', by rw [← hy, ← ha, hm, hm']; push_cast; ring⟩
      | succ k => exact h2 k a y (by simpa using ha) (by simpa using hy)
    · intro y hy
      simp only [List.getElem?_cons_zero, Option.some.injEq] at hy
      rw [← hy, show x + (acc + unwrapCorrect (x - prev)) - (prev + acc) = (x - prev) + unwrapCorrect (x - prev) by ring]
      exact unwrapCorrect_bound _
    · intro k y y' hy hy'
      cases k with
      | zero =>
        simp only [List.getElem?_cons_zero, Option.some.injEq, zero_add, List.getElem?_cons_succ] at hy hy'
        rw [← hy]
        exact h3 y' hy'
      | succ k => exact h4 k y y' (by simpa using hy) (by simpa using hy')

/-- `np.unwrap`: same phases up to full turns, no jump larger than half a turn. -/
theorem npUnwrap_spec (xs : List ℝ) :
    (npUnwrap xs).length = xs.length ∧ (npUnwrap xs)[0]? = xs[0]? ∧
    (∀ (k : ℕ) (x y : ℝ), xs[k]? = some x → (npUnwrap xs)[k]? = some y → ∃ m : ℤ, y = x + m * (2 * Real.pi)) ∧
    (∀ (k : ℕ) (y y' : ℝ), (npUnwrap xs)[k]? = some y → (npUnwrap xs)[k + 1]? = some y' → |y' - y| ≤ Real.pi) := by
  cases xs with
  | nil => simp [npUnwrap]
  | cons x xs =>
    obtain ⟨h1, h2, h3, h4⟩ := npUnwrapFrom_spec xs x 0 ⟨0, by simp⟩
    simp only [npUnwrap]
    refine ⟨by simp [h1], rfl, ?_, ?_⟩
    · intro k a y ha hy
      cases k with
      | zero =>
        simp only [List.getElem?_cons_zero, Option.some.injEq] at ha hy
        exact ⟨0, by rw [← hy, ← ha]; simp⟩
      | succ k => exact h2 k a y (by simpa using ha) (by simpa using hy)
    · intro k y y' hy hy'
      cases k with
      | zero =>
        simp only [List.getElem?_cons_zero, Option.some.injEq, zero_add, List.getElem?_cons_succ] at hy hy'
        rw [← hy]
        have := h3 y' hy'
        rwa [add_zero] at this
      | succ k => exact h4 k y y' (by simpa using hy) (by simpa using hy')

/-- **C52**. Phases of all components except `ExHx` and `ExHy`: the angle in degrees of each impedance up to full turns, the
first one unchanged, and no jump from one period to the next exceeds 180 degrees. -/
theorem C52_phase (key : String) (hk : key ≠ "ExHx" ∧ key ≠ "ExHy") (c : Component) (z : List ℂ) (hz : c.toNumpy = .ok z) :
    ∃ phase, getPhase key c = .ok phase ∧ phase.length = z.length ∧
      (∀ (k : ℕ) (w : ℂ) (y : ℝ), z[k]? = some w → phase[k]? = some y → ∃ m : ℤ, y = w.arg * (180 / Real.pi) + m * 360) ∧
      (∀ (w : ℂ), z[0]? = some w → phase[0]? = some (w.arg * (180 / Real.pi))) ∧
      (∀ (k : ℕ) (y y' : ℝ), phase[k]? = some y → phase[k + 1]? = some y' → |y' - y| ≤ 180) := by
  obtain ⟨h1, h2, h3, h4⟩ := npUnwrap_spec (z.map Complex.arg)
  have hpi := Real.pi_pos
  refine ⟨(npUnwrap (z.map Complex.arg)).map fun x => x * 180 / Real.pi, ?_, by simpa using h1, ?_, ?_, ?_⟩
  · unfold getPhase
    simp only [hz, bind, Except.bind]
    rw [if_neg (by simpa using hk)]
    rfl
  · intro k w y hw hy
    rw [List.getElem?_map, Option.map_eq_some_iff] at hy
    obtain ⟨x, hx, rfl⟩ := hy
    obtain ⟨m, hm⟩ := h3 k w.arg x (by rw [List.getElem?_map, hw]; rfl) hx
    refine ⟨m, ?_⟩
    rw [hm]; field_simp; ring
  · intro w hw
    rw [List.getElem?_map, h2, List.getElem?_map, hw]
    simp only [Option.map_some, Option.some.injEq]
    ring
  · intro k y y' hy hy'
    rw [List.getElem?_map, Option.map_eq_some_iff] at hy hy'
    obtain ⟨x, hx, rfl⟩ := hy
    obtain ⟨x', hx', rfl⟩ := hy'
    have := h4 k x x' hx hx'
    rw [show x' * 180 / Real.pi - x * 180 / Real.pi = (x' - x) * (180 / Real.pi) by ring, abs_mul,
      abs_of_pos (by positivity : (0 : ℝ) < 180 / Real.pi)]
    calc |x' - x| * (180 / Real.pi) ≤ Real.pi * (180 / Real.pi) := by gcongr
      _ = 180 := by field_simp

/-- **C52**. Phases of `ExHx` and `ExHy` are the angles turned by half a turn, in `[-180, 180)`. -/
theorem C52_phase_ex (key : String) (hk : key = "ExHx" ∨ key = "ExHy") (c : Component) (z : List ℂ) (hz : c.toNumpy = .ok z) :
    ∃ phase, getPhase key c = .ok phase ∧ phase.length = z.length ∧
      (∀ (k : ℕ) (w : ℂ) (y : ℝ), z[k]? = some w → phase[k]? = some y →
        -180 ≤ y ∧ y < 180 ∧ ∃ m : ℤ, y = w.arg * (180 / Real.pi) + 180 + m * 360) := by
  obtain ⟨h1, h2, h3, h4⟩ := npUnwrap_spec (z.map Complex.arg)
  have hpi := Real.pi_pos
  refine ⟨((npUnwrap (z.map Complex.arg)).map fun x => x * 180 / Real.pi).map fun x =>
    toIcoMod (by norm_num : (0 : ℝ) < 360) 0 x - 180, ?_, by simpa using h1, ?_⟩
  · unfold getPhase
    simp only [hz, bind, Except.bind]
    rw [if_pos hk]
    rfl
  · intro k w y hw hy
    rw [List.map_map, List.getElem?_map, Option.map_eq_some_iff] at hy
    obtain ⟨x, hx, rfl⟩ := hy
    obtain ⟨m, hm⟩ := h3 k w.arg x (by rw [List.getElem?_map, hw]; rfl) hx
    have hmem := toIcoMod_mem_Ico (by norm_num : (0 : ℝ) < 360) 0 (x * 180 / Real.pi)
    simp only [Function.comp]
    refine ⟨by linarith [hmem.1], by linarith [hmem.2], ?_⟩
    have h5 : toIcoMod (by norm_num : (0 : ℝ) < 360) 0 (x * 180 / Real.pi) =
      x * 180 / Real.pi - toIcoDiv (by norm_num : (0 : ℝ) < 360) 0 (x * 180 / Real.pi) • (360 : ℝ) := rfl
    rw [zsmul_eq_mul] at h5
    refine ⟨m - 1 - toIcoDiv (by norm_num : (0 : ℝ) < 360) 0 (x * 180 / Real.pi), ?_⟩
    rw [h5]
    generalize toIcoDiv (by norm_num : (0 : ℝ) < 360) 0 (x * 180 / Real.pi) = q
    rw [hm]
    push_cast
    field_simp
    ring

/-- **C52**. The length of the tipper is that of the real parts of its two components. -/
theorem C52_tipper_length (comps : List (String × Component)) (tx ty : Component) (hx : comps.lookup "HzHx" = some tx)
    (hy : comps.lookup "HzHy" = some ty) (hl : tx.real.length = ty.real.length) :
    ∃ len, tipperLength comps = .ok len ∧ len.length = tx.real.length ∧
      ∀ (k : ℕ) (x y l : ℝ), tx.real[k]? = some x → ty.real[k]? = some y → len[k]? = some l →
        0 ≤ l ∧ l ^ 2 = x ^ 2 + y ^ 2 := by
  refine ⟨List.zipWith (fun x y => Real.sqrt (x ^ 2 + y ^ 2)) tx.real ty.real, ?_, by simp [hl], ?_⟩
  · unfold tipperLength dictGet
    simp only [hx, hy, bind, Except.bind]
    rw [if_neg (by simpa using hl)]
    rfl
  · intro k x y l h1 h2 h3
    rw [List.getElem?_zipWith, h1, h2] at h3
    simp only [Option.some.injEq] at h3
    subst h3
    exact ⟨Real.sqrt_nonneg _, Real.sq_sqrt (by positivity)⟩

example : getPhase "EyHx" ⟨[1], [0]⟩ = .ok [0] := by
  obtain ⟨ph, h1, h2, -, h3, -⟩ := C52_phase "EyHx" (by decide) ⟨[1], [0]⟩ [(1 : ℝ) + Complex.I * (0 : ℝ)] rfl
  have := h3 _ rfl
  rw [h1]
  match ph, h2, this with
  | [x], _, this => simpa using this

end Resistics
