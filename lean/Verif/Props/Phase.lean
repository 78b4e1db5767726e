import Verif.Model.Phase
import Verif.Lemmas.Except
import Verif.Lemmas.Lists
import Verif.Props.TransFunc
import Mathlib.Analysis.SpecialFunctions.Complex.Arg

/-!
# C69: magnitudes, phases and single frequencies of spectra
-/

namespace Resistics

/-! ## Specification -/

/-- `m` and `p` are the magnitude and a phase of `z`. -/
def IsPolar (m p : ℝ) (z : ℂ) : Prop := 0 ≤ m ∧ (m : ℂ) * Complex.exp ((p : ℂ) * Complex.I) = z

/-- Two lists have the same length and, at every position, a property holds. -/
def EachAt {α β γ : Type} (P : α → β → γ → Prop) (a : SpecArr α) (b : SpecArr β) (c : SpecArr γ) : Prop :=
  a.length = c.length ∧ b.length = c.length ∧
    ∀ (w : ℕ) (wc : List (List γ)), c[w]? = some wc → ∃ wa wb, a[w]? = some wa ∧ b[w]? = some wb ∧ wa.length = wc.length ∧
      wb.length = wc.length ∧
      ∀ (ch : ℕ) (rc : List γ), wc[ch]? = some rc → ∃ ra rb, wa[ch]? = some ra ∧ wb[ch]? = some rb ∧ ra.length = rc.length ∧
        rb.length = rc.length ∧
        ∀ (k : ℕ) (z : γ), rc[k]? = some z → ∃ m p, ra[k]? = some m ∧ rb[k]? = some p ∧ P m p z

/-- Neighbouring values of a row differ by at most half a turn. -/
def SmallSteps (l : List ℝ) : Prop := ∀ (i : ℕ) (a b : ℝ), l[i]? = some a → l[i + 1]? = some b → |b - a| ≤ Real.pi

/-- Neighbouring values of a row differ by less than half a turn. -/
def SmallerSteps (l : List ℝ) : Prop := ∀ (i : ℕ) (a b : ℝ), l[i]? = some a → l[i + 1]? = some b → |b - a| < Real.pi

/-- Two rows have the same length and values that differ by whole turns. -/
def WholeTurns (l l' : List ℝ) : Prop :=
  l.length = l'.length ∧ ∀ (i : ℕ) (a b : ℝ), l[i]? = some a → l'[i]? = some b → ∃ k : ℤ, a = b + 2 * Real.pi * (k : ℝ)

/-! ## Lemmas -/

theorem unwrapCorrect_turns (dd : ℝ) : ∃ k : ℤ, unwrapCorrect dd = 2 * Real.pi * (k : ℝ) := by
  obtain ⟨k, hk⟩ := unwrapCorrect_multiple dd
  exact ⟨k, by rw [hk]; ring⟩

/-- The rest of an unwrapped row. -/
noncomputable def unwrapFrom (acc a : ℝ) (l : List ℝ) : List ℝ := npUnwrapFrom a acc l

theorem unwrapFrom_nil (acc a : ℝ) : unwrapFrom acc a [] = [] := rfl

theorem unwrapFrom_cons (acc a b : ℝ) (l : List ℝ) :
    unwrapFrom acc a (b :: l) = (b + (acc + unwrapCorrect (b - a))) :: unwrapFrom (acc + unwrapCorrect (b - a)) b l := rfl

theorem npUnwrap_cons (a : ℝ) (l : List ℝ) : npUnwrap (a :: l) = a :: unwrapFrom 0 a l := rfl

theorem unwrapFrom_length (acc a : ℝ) (l : List ℝ) : (unwrapFrom acc a l).length = l.length := by
  induction l generalizing acc a with
  | nil => rfl
  | cons b l ih => rw [unwrapFrom_cons, List.length_cons, ih, List.length_cons]

theorem unwrapFrom_steps (acc a : ℝ) (l : List ℝ) : SmallSteps ((a + acc) :: unwrapFrom acc a l) := by
  induction l generalizing acc a with
  | nil => intro i x y h1 h2; simp [unwrapFrom_nil] at h2
  | cons b l ih =>
    rw [unwrapFrom_cons]
    intro i x y h1 h2
    cases i with
    | zero =>
      simp only [List.getElem?_cons_zero, Option.some.injEq, zero_add, List.getElem?_cons_succ] at h1 h2
      subst h1 h2
      rw [show b + (acc + unwrapCorrect (b - a)) - (a + acc) = (b - a) + unwrapCorrect (b - a) by ring]
      exact unwrapCorrect_bound _
    | succ i => exact ih _ _ i x y h1 h2

theorem unwrapFrom_turns (acc a : ℝ) (hacc : ∃ k : ℤ, acc = 2 * Real.pi * (k : ℝ)) (l : List ℝ) :
    WholeTurns (unwrapFrom acc a l) l := by
  refine ⟨unwrapFrom_length acc a l, ?_⟩
  induction l generalizing acc a with
  | nil => intro i x y h1; simp [unwrapFrom_nil] at h1
  | cons b l ih =>
    rw [unwrapFrom_cons]
    obtain ⟨k, hk⟩ := hacc
    obtain ⟨k', hk'⟩ := unwrapCorrect_turns (b - a)
    have hnew : ∃ j : ℤ, acc + unwrapCorrect (b - a) = 2 * Real.pi * (j : ℝ) := ⟨k + k', by rw [hk, hk']; push_cast; ring⟩
    intro i x y h1 h2
    cases i with
    | zero =>
      simp only [List.getElem?_cons_zero, Option.some.injEq] at h1 h2
      subst h1 h2
      obtain ⟨j, hj⟩ := hnew
      exact ⟨j, by rw [hj]⟩
    | succ i => exact ih _ _ hnew i x y h1 h2

/-- Half-turn steps and whole turns determine a row from its first value. -/
theorem steps_unique (l : List ℝ) (a : ℝ) (u v : List ℝ) (hu : SmallSteps (a :: u)) (hv : SmallerSteps (a :: v)) (htu : WholeTurns u l)
    (htv : WholeTurns v l) : u = v := by
  induction l generalizing a u v with
  | nil =>
    have h1 := htu.1
    have h2 := htv.1
    rw [List.length_nil, List.length_eq_zero_iff] at h1 h2
    rw [h1, h2]
  | cons c l ih =>
    obtain ⟨u0, u', rfl⟩ := List.exists_cons_of_length_pos (l := u) (by rw [htu.1]; simp)
    obtain ⟨v0, v', rfl⟩ := List.exists_cons_of_length_pos (l := v) (by rw [htv.1]; simp)
    have h1 := hu 0 a u0 rfl rfl
    have h2 := hv 0 a v0 rfl rfl
    obtain ⟨k, hk⟩ := htu.2 0 u0 c rfl rfl
    obtain ⟨k', hk'⟩ := htv.2 0 v0 c rfl rfl
    have hpi := Real.pi_pos
    have hkk : k = k' := by
      by_contra hne
      have h3 : (1 : ℝ) ≤ |((k - k' : ℤ) : ℝ)| := by
        rw [← Int.cast_abs]
        exact_mod_cast Int.one_le_abs (sub_ne_zero.mpr hne)
      have h4 : u0 - v0 = 2 * Real.pi * ((k - k' : ℤ) : ℝ) := by rw [hk, hk']; push_cast; ring
      have h5 : |u0 - v0| = 2 * Real.pi * |((k - k' : ℤ) : ℝ)| := by
        rw [h4, abs_mul, abs_of_pos (by linarith : (0 : ℝ) < 2 * Real.pi)]
      have h6 : |u0 - v0| < 2 * Real.pi := by
        rw [abs_lt]
        rw [abs_le] at h1
        rw [abs_lt] at h2
        constructor <;> linarith [h1.1, h1.2, h2.1, h2.2]
      rw [h5] at h6
      nlinarith
    have h0 : u0 = v0 := by rw [hk, hk', hkk]
    subst h0
    rw [ih u0 u' v' (fun i x y p q => hu (i + 1) x y p q) (fun i x y p q => hv (i + 1) x y p q)
      ⟨by simpa using htu.1, fun i x y p q => htu.2 (i + 1) x y p q⟩ ⟨by simpa using htv.1, fun i x y p q => htv.2 (i + 1) x y p q⟩]

/-! ## Theorems -/

/-- **C69 (unwrapping a row of phases)**: an unwrapped row has as many values as the row given; it starts with the same value; every value
differs from the one given by whole turns; and neighbouring values differ by at most half a turn. -/
theorem C69_unwrap (row : List ℝ) :
    (npUnwrap row)[0]? = row[0]? ∧ WholeTurns (npUnwrap row) row ∧ SmallSteps (npUnwrap row) := by
  cases row with
  | nil => exact ⟨rfl, ⟨rfl, fun i a b h => by simp [npUnwrap] at h⟩, fun i a b h => by simp [npUnwrap] at h⟩
  | cons a l =>
    rw [npUnwrap_cons]
    refine ⟨rfl, ⟨by rw [List.length_cons, List.length_cons, unwrapFrom_length], ?_⟩, ?_⟩
    · intro i x y h1 h2
      cases i with
      | zero =>
        simp only [List.getElem?_cons_zero, Option.some.injEq] at h1 h2
        exact ⟨0, by rw [← h1, ← h2]; simp⟩
      | succ i => exact (unwrapFrom_turns 0 a ⟨0, by simp⟩ l).2 i x y h1 h2
    · have := unwrapFrom_steps 0 a l
      rwa [add_zero] at this

/-- **C69 (what unwrapping recovers)**: phases that change by less than half a turn from one frequency to the next are recovered exactly
from any phases that differ from them by whole turns and start with the same value. -/
theorem C69_recovers (row truth : List ℝ) (hstart : truth[0]? = row[0]?) (hturns : WholeTurns truth row) (hsteps : SmallerSteps truth) :
    npUnwrap row = truth := by
  obtain ⟨h1, h2, h3⟩ := C69_unwrap row
  cases row with
  | nil =>
    have := hturns.1
    rw [List.length_nil, List.length_eq_zero_iff] at this
    rw [this]; rfl
  | cons a l =>
    obtain ⟨t0, t', rfl⟩ := List.exists_cons_of_length_pos (l := truth) (by rw [hturns.1]; simp)
    simp only [List.getElem?_cons_zero, Option.some.injEq] at hstart
    subst hstart
    rw [npUnwrap_cons] at h2 h3 ⊢
    rw [steps_unique l t0 _ t' h3 hsteps ⟨by simpa using h2.1, fun i x y p q => h2.2 (i + 1) x y p q⟩
      ⟨by simpa using hturns.1, fun i x y p q => hturns.2 (i + 1) x y p q⟩]

/-- **C69 (phases without jumps)**: phases that change by less than half a turn from one frequency to the next stay as they are. -/
theorem C69_unchanged (row : List ℝ) (h : SmallerSteps row) : npUnwrap row = row :=
  C69_recovers row row rfl ⟨rfl, fun i a b h1 h2 => ⟨0, by rw [h1, Option.some.injEq] at h2; simp [h2]⟩⟩ h

/-- **C69 (unwrapping twice)**: unless a step is exactly half a turn, unwrapping again changes nothing. -/
theorem C69_twice (row : List ℝ) (h : ∀ (i : ℕ) (a b : ℝ), (npUnwrap row)[i]? = some a → (npUnwrap row)[i + 1]? = some b →
    |b - a| ≠ Real.pi) : npUnwrap (npUnwrap row) = npUnwrap row :=
  C69_unchanged _ fun i a b h1 h2 => lt_of_le_of_ne ((C69_unwrap row).2.2 i a b h1 h2) (h i a b h1 h2)

theorem levelGet_natCast {β : Type} (d : List (ℕ × β)) (level : ℕ) (x : β) (h : d.lookup level = some x) :
    levelGet d (level : ℤ) = .ok x := by
  unfold levelGet; rw [if_neg (by omega), Int.toNat_natCast, dictGet, h]

theorem levelGet_none {β : Type} (d : List (ℕ × β)) (level : ℤ) (h : level < 0 ∨ d.lookup level.toNat = none) :
    levelGet d level = .error .key := by
  unfold levelGet
  split
  · rfl
  · rename_i h1
    rw [dictGet, h.resolve_left h1]

theorem isPolar_arg (z : ℂ) : IsPolar ‖z‖ (Complex.arg z) z := ⟨norm_nonneg z, Complex.norm_mul_exp_arg_mul_I z⟩

theorem isPolar_turns (z : ℂ) (p : ℝ) (k : ℤ) (h : p = Complex.arg z + 2 * Real.pi * (k : ℝ)) : IsPolar ‖z‖ p z := by
  refine ⟨norm_nonneg z, ?_⟩
  have : Complex.exp ((p : ℂ) * Complex.I) = Complex.exp ((Complex.arg z : ℂ) * Complex.I) := by
    rw [Complex.exp_eq_exp_iff_exists_int]
    exact ⟨k, by rw [h]; push_cast; ring⟩
  rw [this]
  exact Complex.norm_mul_exp_arg_mul_I z

theorem magPhs_each (spec : SpecArr ℂ) (f : List ℝ → List ℝ) (P : ℝ → ℝ → ℂ → Prop)
    (hf : ∀ row : List ℂ, (f (row.map Complex.arg)).length = row.length ∧
      ∀ (k : ℕ) (z : ℂ), row[k]? = some z → ∃ p, (f (row.map Complex.arg))[k]? = some p ∧ P ‖z‖ p z) :
    EachAt P (spec.map fun win => win.map fun row => row.map fun z => ‖z‖)
      (spec.map fun win => win.map fun row => f (row.map Complex.arg)) spec := by
  refine ⟨by simp, by simp, ?_⟩
  intro w wc hw
  refine ⟨_, _, by rw [List.getElem?_map, hw]; rfl, by rw [List.getElem?_map, hw]; rfl, by simp, by simp, ?_⟩
  intro ch rc hch
  refine ⟨_, _, by rw [List.getElem?_map, hch]; rfl, by rw [List.getElem?_map, hch]; rfl, by simp, (hf rc).1, ?_⟩
  intro k z hz
  obtain ⟨p, h1, h2⟩ := (hf rc).2 k z hz
  exact ⟨‖z‖, p, by rw [List.getElem?_map, hz]; rfl, h1, h2⟩

/-- **C69 (magnitude and phase)**: for every level there is, the magnitudes and the phases have the shape of the spectra, and at every window,
channel and frequency they are the magnitude and a phase of the value; the phases are above minus half a turn and at most half a turn. -/
theorem C69_mag_phs (d : SpecData ℂ) (level : ℕ) (spec : SpecArr ℂ) (h : d.data.lookup level = some spec) :
    ∃ mag phs, d.getMagPhs level false = .ok (mag, phs) ∧
      EachAt (fun m p z => IsPolar m p z ∧ -Real.pi < p ∧ p ≤ Real.pi) mag phs spec := by
  refine ⟨_, _, ?_, magPhs_each spec id _ ?_⟩
  · unfold SpecData.getMagPhs
    rw [levelGet_natCast _ _ _ h]; rfl
  · intro row
    refine ⟨by simp, fun k z hz => ⟨Complex.arg z, by simp [hz], isPolar_arg z, Complex.neg_pi_lt_arg z, Complex.arg_le_pi z⟩⟩

/-- **C69 (unwrapped phases)**: unwrapped, the values are still the magnitudes and phases of the spectra, the row of every window and channel
starts with the phase in the usual range, and from one frequency to the next a phase changes by at most half a turn. -/
theorem C69_mag_phs_unwrapped (d : SpecData ℂ) (level : ℕ) (spec : SpecArr ℂ) (h : d.data.lookup level = some spec) :
    ∃ mag phs raw, d.getMagPhs level true = .ok (mag, phs) ∧ d.getMagPhs level false = .ok (mag, raw) ∧ EachAt IsPolar mag phs spec ∧
      (∀ (w : ℕ) (win : List (List ℝ)), phs[w]? = some win → ∀ row ∈ win, SmallSteps row) ∧
      ∀ (w c : ℕ) (win win' : List (List ℝ)) (row row' : List ℝ), phs[w]? = some win → raw[w]? = some win' → win[c]? = some row →
        win'[c]? = some row' → row[0]? = row'[0]? := by
  refine ⟨_, _, _, by unfold SpecData.getMagPhs; rw [levelGet_natCast _ _ _ h]; rfl, by unfold SpecData.getMagPhs; rw [levelGet_natCast _ _ _ h]; rfl,
    magPhs_each spec npUnwrap _ ?_, ?_, ?_⟩
  · intro row
    obtain ⟨-, h2, -⟩ := C69_unwrap (row.map Complex.arg)
    have hl : (npUnwrap (row.map Complex.arg)).length = row.length := by rw [h2.1, List.length_map]
    refine ⟨hl, fun k z hz => ?_⟩
    obtain ⟨hk, -⟩ := List.getElem?_eq_some_iff.1 hz
    have hg : (npUnwrap (row.map Complex.arg))[k]? = some (npUnwrap (row.map Complex.arg))[k] := List.getElem?_eq_getElem (by omega)
    obtain ⟨j, hj⟩ := h2.2 k _ (Complex.arg z) hg (by simp [hz])
    exact ⟨_, hg, isPolar_turns z _ j hj⟩
  · intro w win hw row hrow
    rw [List.getElem?_map] at hw
    obtain ⟨win0, -, rfl⟩ := Option.map_eq_some_iff.1 hw
    obtain ⟨row0, -, rfl⟩ := List.mem_map.1 hrow
    exact (C69_unwrap _).2.2
  · intro w c win win' row row' hw hw' hc hc'
    rw [List.getElem?_map] at hw hw'
    obtain ⟨win0, h0, rfl⟩ := Option.map_eq_some_iff.1 hw
    rw [h0] at hw'
    obtain rfl := (Option.some.inj hw')
    rw [List.getElem?_map] at hc hc'
    obtain ⟨row0, h1, rfl⟩ := Option.map_eq_some_iff.1 hc
    rw [h1] at hc'
    obtain rfl := (Option.some.inj hc')
    exact (C69_unwrap _).1

/-- **C69 (levels that are not there)**: magnitudes and phases of a level without data are a `KeyError`, whatever the number of levels. -/
theorem C69_no_level (d : SpecData ℂ) (level : ℤ) (unwrap : Bool) (h : level < 0 ∨ d.data.lookup level.toNat = none) :
    d.getMagPhs level unwrap = .error .key := by
  unfold SpecData.getMagPhs
  have : levelGet d.data level = .error .key := levelGet_none _ _ h
  rw [this]; rfl

theorem flatten_singletons {V : Type} (vs : List V) : (vs.map fun v => [v]).flatten = vs := by
  induction vs with
  | nil => rfl
  | cons v l ih => rw [List.map_cons, List.flatten_cons, ih]; rfl

/-- **C69 (values at one frequency)**: axes of size one are dropped from the values at a frequency.  With several windows and several
channels they are a matrix, with one window a list over the channels, with one channel a list over the windows, with one of each a
number. -/
theorem C69_freq {V : Type} (d : SpecData V) (level idx : ℤ) (rows : List (List V)) (h : d.getFreq level idx = .ok rows)
    (hrows : ∀ row ∈ rows, row.length = d.md.chans.length) :
    (rows.length ≠ 1 → d.md.chans.length ≠ 1 → d.getFreqSqueezed level idx = .ok (.matrix rows)) ∧
    (∀ row, rows = [row] → d.md.chans.length ≠ 1 → d.getFreqSqueezed level idx = .ok (.vector row)) ∧
    (rows.length ≠ 1 → d.md.chans.length = 1 → ∃ vs : List V, rows = vs.map (fun v => [v]) ∧ d.getFreqSqueezed level idx = .ok (.vector vs)) ∧
    (∀ row, rows = [row] → d.md.chans.length = 1 → ∃ v, row = [v] ∧ d.getFreqSqueezed level idx = .ok (.scalar v)) := by
  have hsq : d.getFreqSqueezed level idx = .ok (npSqueeze rows.length d.md.chans.length rows) := by
    unfold SpecData.getFreqSqueezed; rw [h]; rfl
  refine ⟨?_, ?_, ?_, ?_⟩
  · intro h1 h2
    rw [hsq, npSqueeze, if_neg (by tauto), if_neg (by tauto)]
  · rintro row rfl h2
    rw [hsq, npSqueeze, if_neg (by tauto), if_pos (by simp)]
    simp
  · intro h1 h2
    have : ∃ vs : List V, rows = vs.map (fun v => [v]) := by
      clear h hsq h1
      induction rows with
      | nil => exact ⟨[], rfl⟩
      | cons r l ih =>
        obtain ⟨vs, hvs⟩ := ih fun row hr => hrows row (by simp [hr])
        have hr := hrows r (by simp)
        rw [h2, List.length_eq_one_iff] at hr
        obtain ⟨v, rfl⟩ := hr
        exact ⟨v :: vs, by rw [hvs]; rfl⟩
    obtain ⟨vs, rfl⟩ := this
    refine ⟨vs, rfl, ?_⟩
    rw [hsq, npSqueeze, if_neg (by tauto), if_pos (by tauto)]
    rw [flatten_singletons]
  · rintro row rfl h2
    have hr := hrows row (by simp)
    rw [h2, List.length_eq_one_iff] at hr
    obtain ⟨v, rfl⟩ := hr
    exact ⟨v, rfl, by rw [hsq, npSqueeze, if_pos ⟨rfl, h2⟩]; rfl⟩

/-! ## The hypotheses are met -/

/-- Spectra of two windows, one channel and three frequencies. -/
def phaseDemo : SpecData ℂ where
  md := { fs := [8], chans := ["Ex"], nLevels := 1, firstTime := 0, lastTime := 10,
          levels := [⟨8, 2, 8, 2, 0, 3, [0, 1, 2]⟩], refTime := 0, history := [] }
  data := [(0, [[[1, -1, Complex.I]], [[1, 1, -Complex.I]]])]

/-- the hypotheses of `C69_mag_phs` and of `C69_mag_phs_unwrapped` are met -/
example : phaseDemo.data.lookup 0 = some [[[1, -1, Complex.I]], [[1, 1, -Complex.I]]] := rfl

/-- the hypotheses of `C69_no_level` are met, for a level above and one below -/
example : phaseDemo.getMagPhs 1 true = .error .key ∧ phaseDemo.getMagPhs (-1) false = .error .key :=
  ⟨C69_no_level _ _ _ (.inr rfl), C69_no_level _ _ _ (.inl (by norm_num))⟩

/-- a phase that grows by three eighths of a turn at a time is recovered from the values in the usual range -/
example : npUnwrap [0, 3 * Real.pi / 4, -Real.pi / 2, Real.pi / 4] = [0, 3 * Real.pi / 4, 3 * Real.pi / 2, 9 * Real.pi / 4] := by
  have hpi := Real.pi_pos
  apply C69_recovers
  · rfl
  · refine ⟨rfl, ?_⟩
    intro i a b h1 h2
    rcases i with _ | _ | _ | _ | i
    · simp at h1 h2; exact ⟨0, by rw [← h1, ← h2]; simp⟩
    · simp at h1 h2; exact ⟨0, by rw [← h1, ← h2]; simp⟩
    · simp at h1 h2; exact ⟨1, by rw [← h1, ← h2]; push_cast; ring⟩
    · simp at h1 h2; exact ⟨1, by rw [← h1, ← h2]; push_cast; ring⟩
    · simp at h1
  · intro i a b h1 h2
    rcases i with _ | _ | _ | i
    · simp at h1 h2; rw [← h1, ← h2, abs_lt]; constructor <;> linarith
    · simp at h1 h2; rw [← h1, ← h2, abs_lt]; constructor <;> linarith
    · simp at h1 h2; rw [← h1, ← h2, abs_lt]; constructor <;> linarith
    · simp at h2

/-- The same values of two windows of one channel and of one window of two channels. -/
def squeezeDemo (chans : List String) (nWins : ℤ) (arr : SpecArr ℚ) : SpecData ℚ where
  md := { fs := [8], chans := chans, nLevels := 1, firstTime := 0, lastTime := 10,
          levels := [⟨8, nWins, 8, 2, 0, 1, [1]⟩], refTime := 0, history := [] }
  data := [(0, arr)]

/-- **C69 (what cannot be told apart)**: two windows of one channel and one window of two channels look the same at a frequency. -/
theorem C69_freq_ambiguous :
    (squeezeDemo ["Ex"] 2 [[[5]], [[7]]]).getFreqSqueezed 0 0 = (squeezeDemo ["Ex", "Ey"] 1 [[[5], [7]]]).getFreqSqueezed 0 0 ∧
      (squeezeDemo ["Ex"] 2 [[[5]], [[7]]]).getFreqSqueezed 0 0 = .ok (.vector [5, 7]) := by
  constructor <;> rfl

end Resistics
