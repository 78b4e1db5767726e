import Verif.Props.Setup64
import Verif.Props.Default
import Verif.Props.Remote

/-!
# C79: evaluation frequencies and levels in double precision
-/

namespace Resistics

/-- What is assumed of `np.power(2, i / 2)`: whole powers of two are exact and the others are correct to the last place. -/
structure PowOk (pow : ℕ → ℚ) : Prop where
  even : ∀ j, pow (2 * j) = 2 ^ j
  near : ∀ i, |(pow i : ℝ) - Real.sqrt 2 ^ i| ≤ Real.sqrt 2 ^ i / 2 ^ 52

/-- A power function that rounds correctly: `6369051672525773 / 2 ^ 52` is the double nearest to the square root of two. -/
def demoPow (i : ℕ) : ℚ := if i % 2 = 0 then 2 ^ (i / 2) else 6369051672525773 / 2 ^ 52 * 2 ^ (i / 2)

theorem sqrt2_pow_even (j : ℕ) : Real.sqrt 2 ^ (2 * j) = 2 ^ j := by
  rw [pow_mul, Real.sq_sqrt (by norm_num)]

theorem sqrt2_pow_odd (j : ℕ) : Real.sqrt 2 ^ (2 * j + 1) = Real.sqrt 2 * 2 ^ j := by
  rw [pow_succ, sqrt2_pow_even, mul_comm]

/-- the assumption is met -/
theorem demoPow_ok : PowOk demoPow where
  even j := by
    unfold demoPow
    rw [if_pos (by omega), show 2 * j / 2 = j by omega]
  near i := by
    rcases Nat.even_or_odd' i with ⟨j, rfl | rfl⟩
    · unfold demoPow
      rw [if_pos (by omega), show 2 * j / 2 = j by omega, sqrt2_pow_even]
      push_cast
      rw [sub_self, abs_zero]
      positivity
    · unfold demoPow
      rw [if_neg (by omega), show (2 * j + 1) / 2 = j by omega, sqrt2_pow_odd]
      push_cast
      rw [← sub_mul, abs_mul, abs_of_pos (show (0 : ℝ) < 2 ^ j by positivity), mul_div_right_comm]
      refine mul_le_mul_of_nonneg_right ?_ (by positivity)
      have h1 : (6369051672525772 / 2 ^ 52 : ℝ) ≤ Real.sqrt 2 := Real.le_sqrt_of_sq_le (by norm_num)
      have h2 : Real.sqrt 2 ≤ (6369051672525774 / 2 ^ 52 : ℝ) := by
        rw [Real.sqrt_le_left (by norm_num)]; norm_num
      rw [abs_le]
      constructor <;> linarith [sqrt2_gt]

namespace PowOk
variable {pow : ℕ → ℚ}

theorem odd_bounds (h : PowOk pow) (j : ℕ) : 7 / 5 * 2 ^ j ≤ pow (2 * j + 1) ∧ pow (2 * j + 1) ≤ 3 / 2 * 2 ^ j := by
  have h1 := h.near (2 * j + 1)
  rw [sqrt2_pow_odd, abs_le] at h1
  have h2 : (0 : ℝ) < 2 ^ j := by positivity
  have s1 : (141 / 100 : ℝ) ≤ Real.sqrt 2 := Real.le_sqrt_of_sq_le (by norm_num)
  have s2 : Real.sqrt 2 ≤ (142 / 100 : ℝ) := by
    rw [Real.sqrt_le_left (by norm_num)]; norm_num
  have t1 := mul_le_mul_of_nonneg_right s1 h2.le
  have t2 := mul_le_mul_of_nonneg_right s2 h2.le
  have e : Real.sqrt 2 * 2 ^ j / 2 ^ 52 ≤ 142 / 100 * 2 ^ j / 2 ^ 52 := div_le_div_of_nonneg_right t2 (by norm_num)
  have e' : (142 / 100 * 2 ^ j / 2 ^ 52 : ℝ) ≤ 1 / 100 * 2 ^ j := by
    rw [div_le_iff₀ (by norm_num)]; nlinarith
  constructor
  · have : (7 / 5 * 2 ^ j : ℝ) ≤ (pow (2 * j + 1) : ℝ) := by linarith [h1.1]
    have := (Rat.cast_le (K := ℝ) (p := 7 / 5 * 2 ^ j) (q := pow (2 * j + 1))).1 (by push_cast; exact this)
    exact this
  · have : (pow (2 * j + 1) : ℝ) ≤ 3 / 2 * 2 ^ j := by linarith [h1.2]
    have := (Rat.cast_le (K := ℝ) (p := pow (2 * j + 1)) (q := 3 / 2 * 2 ^ j)).1 (by push_cast; exact this)
    exact this

theorem pos (h : PowOk pow) (i : ℕ) : 0 < pow i := by
  rcases Nat.even_or_odd' i with ⟨j, rfl | rfl⟩
  · rw [h.even]; positivity
  · have := (h.odd_bounds j).1
    have h2 : (0 : ℚ) < 2 ^ j := by positivity
    linarith

end PowOk

variable {pow : ℕ → ℚ}

theorem quarter_bits {fs : ℚ} (h : Bits53 fs) : Bits53 (fs / 4) := by
  have := h.div_pow 2
  norm_num at this
  exact this

theorem ladder_even (hp : PowOk pow) {fs : ℚ} (h : Bits53 fs) (j : ℕ) : ladderFreqF pow fs (2 * j) = fs / 4 / 2 ^ j := by
  unfold ladderFreqF
  rw [(quarter_bits h).fl_eq, hp.even, ((quarter_bits h).div_pow j).fl_eq]

theorem ladder_odd (hp : PowOk pow) {fs : ℚ} (h : Bits53 fs) (hfs : 0 < fs) (j : ℕ) :
    fs / 4 / 2 ^ (j + 1) < ladderFreqF pow fs (2 * j + 1) ∧ ladderFreqF pow fs (2 * j + 1) < fs / 4 / 2 ^ j := by
  obtain ⟨b1, b2⟩ := hp.odd_bounds j
  have h2 : (0 : ℚ) < 2 ^ j := by positivity
  have hpp := hp.pos (2 * j + 1)
  unfold ladderFreqF
  rw [(quarter_bits h).fl_eq]
  generalize pow (2 * j + 1) = q at *
  have hn := fl_near (fs / 4 / q)
  have hx : 0 < fs / 4 / q := by positivity
  rw [abs_of_pos hx, abs_le] at hn
  unfold unitRoundoff at hn
  have c1 : 2 / 3 * (fs / 4 / 2 ^ j) ≤ fs / 4 / q := by
    rw [show 2 / 3 * (fs / 4 / 2 ^ j) = fs / 4 / (3 / 2 * 2 ^ j) by field_simp]
    exact div_le_div_of_nonneg_left (by positivity) hpp b2
  have c2 : fs / 4 / q ≤ 5 / 7 * (fs / 4 / 2 ^ j) := by
    rw [show 5 / 7 * (fs / 4 / 2 ^ j) = fs / 4 / (7 / 5 * 2 ^ j) by field_simp]
    exact div_le_div_of_nonneg_left (by positivity) (by positivity) b1
  have hy : 0 < fs / 4 / 2 ^ j := by positivity
  have e : fs / 4 / 2 ^ (j + 1) = fs / 4 / 2 ^ j / 2 := by rw [pow_succ, div_mul_eq_div_div]
  rw [e]
  generalize fs / 4 / 2 ^ j = y at *
  generalize fs / 4 / q = x at *
  norm_num at hn
  constructor <;> linarith [hn.1, hn.2]

theorem ladder_step (hp : PowOk pow) {fs : ℚ} (h : Bits53 fs) (hfs : 0 < fs) (i : ℕ) :
    ladderFreqF pow fs (i + 1) < ladderFreqF pow fs i := by
  rcases Nat.even_or_odd' i with ⟨j, rfl | rfl⟩
  · rw [ladder_even hp h]
    exact (ladder_odd hp h hfs j).2
  · rw [show 2 * j + 1 + 1 = 2 * (j + 1) by ring, ladder_even hp h]
    exact (ladder_odd hp h hfs j).1

theorem ladder_anti (hp : PowOk pow) {fs : ℚ} (h : Bits53 fs) (hfs : 0 < fs) : StrictAnti (ladderFreqF pow fs) :=
  strictAnti_nat_of_succ_lt (ladder_step hp h hfs)

theorem ladder_pos (hp : PowOk pow) {fs : ℚ} (h : Bits53 fs) (hfs : 0 < fs) (i : ℕ) : 0 < ladderFreqF pow fs i := by
  unfold ladderFreqF
  rw [(quarter_bits h).fl_eq]
  exact fl_pos (div_pos (by positivity) (hp.pos i))

theorem ladder_near (hp : PowOk pow) {fs : ℚ} (h : Bits53 fs) (hfs : 0 < fs) (i : ℕ) :
    |(ladderFreqF pow fs i : ℝ) - rung fs i| ≤ rung fs i / 2 ^ 51 := by
  have hs : (0 : ℝ) < Real.sqrt 2 ^ i := by positivity
  have hq : (0 : ℝ) < (pow i : ℝ) := by exact_mod_cast hp.pos i
  have hfs' : (0 : ℝ) < (fs : ℝ) := by exact_mod_cast hfs
  have h1 := hp.near i
  unfold ladderFreqF
  rw [(quarter_bits h).fl_eq]
  have h2 : |((fl (fs / 4 / pow i) : ℚ) : ℝ) - (fs / 4 / pow i : ℝ)| ≤ (fs / 4 / pow i : ℝ) / 2 ^ 53 := by
    have := fl_near (fs / 4 / pow i)
    rw [abs_of_pos (div_pos (by positivity) (hp.pos i))] at this
    unfold unitRoundoff at this
    have h3 : ((|fl (fs / 4 / pow i) - fs / 4 / pow i| : ℚ) : ℝ) ≤ ((fs / 4 / pow i * (1 / 2 ^ 53) : ℚ) : ℝ) := by exact_mod_cast this
    push_cast at h3
    rw [mul_one_div] at h3
    exact h3
  unfold rung
  generalize Real.sqrt 2 ^ i = s at *
  generalize (pow i : ℝ) = q at *
  generalize ((fl (fs / 4 / pow i) : ℚ) : ℝ) = z at *
  -- q is near s, so a / q is near a / s
  have ha : (0 : ℝ) < (fs : ℝ) / 4 := by positivity
  generalize (fs : ℝ) / 4 = a at *
  have hq2 : s * (1 - 1 / 2 ^ 52) ≤ q := by have := (abs_le.1 h1).1; linarith
  have key : |a / q - a / s| ≤ a / s * ((1 / 2 ^ 52) / (1 - 1 / 2 ^ 52)) := by
    have e : a / q - a / s = a * (s - q) / (q * s) := by field_simp
    rw [e, abs_div, abs_mul, abs_of_pos ha, abs_of_pos (mul_pos hq hs), abs_sub_comm, div_le_iff₀ (mul_pos hq hs)]
    have e2 : a / s * (1 / 2 ^ 52 / (1 - 1 / 2 ^ 52)) * (q * s) = a * ((1 / 2 ^ 52) / (1 - 1 / 2 ^ 52) * q) := by field_simp
    rw [e2]
    refine mul_le_mul_of_nonneg_left (h1.trans ?_) ha.le
    have e3 : (1 / 2 ^ 52 / (1 - 1 / 2 ^ 52) : ℝ) * (s * (1 - 1 / 2 ^ 52)) = s / 2 ^ 52 := by field_simp
    rw [← e3]
    exact mul_le_mul_of_nonneg_left hq2 (by norm_num)
  have hy : 0 < a / s := by positivity
  generalize a / s = y at *
  generalize a / q = x at *
  rw [abs_le] at *
  norm_num at h2 key ⊢
  constructor <;> linarith [h2.1, h2.2, key.1, key.2]

/-- **C79 (evaluation frequencies)**: every second frequency of the ladder is exactly a power of two below a quarter of the sampling
frequency, the others are within a part in `2 ^ 51` of their real value (`rung` of C16), and the ladder is strictly decreasing. -/
theorem C79_eval_freqs (hp : PowOk pow) (fs : ℚ) (hb : Bits53 fs) (hfs : 0 < fs) (n : ℕ) :
    (getEvalFreqsSizeF pow fs n).length = n ∧
      (∀ (i : ℕ) (f : ℚ), (getEvalFreqsSizeF pow fs n)[i]? = some f → 0 < f ∧ |(f : ℝ) - rung fs i| ≤ rung fs i / 2 ^ 51 ∧
        ∀ j, i = 2 * j → f = fs / 4 / 2 ^ j) ∧
      (getEvalFreqsSizeF pow fs n).Pairwise (· > ·) := by
  refine ⟨by simp [getEvalFreqsSizeF], ?_, ?_⟩
  · intro i f hi
    unfold getEvalFreqsSizeF at hi
    rw [List.getElem?_map, Option.map_eq_some_iff] at hi
    obtain ⟨i', hi', rfl⟩ := hi
    have : i' = i := by
      obtain ⟨h1, h2⟩ := List.getElem?_eq_some_iff.1 hi'
      rw [List.getElem_range] at h2
      exact h2.symm
    subst this
    refine ⟨ladder_pos hp hb hfs _, ladder_near hp hb hfs _, ?_⟩
    rintro j rfl
    exact ladder_even hp hb j
  · unfold getEvalFreqsSizeF
    rw [List.pairwise_map]
    exact List.pairwise_lt_range.imp fun h => ladder_anti hp hb hfs h

example : getEvalFreqsSizeF demoPow 128 4 = [32, 6369051672525772 / 281474976710656, 16, 6369051672525772 / 562949953421312] := by
  decide +kernel

theorem evalFreqsLoopF_eq (pow : ℕ → ℚ) (fs fMin : ℚ) : ∀ (fuel i : ℕ) (acc : List ℚ),
    ∃ k, k ≤ fuel ∧ evalFreqsLoopF pow fs fMin fuel i acc = acc ++ (List.range k).map (fun t => ladderFreqF pow fs (i + t)) ∧
      (∀ t < k, fMin ≤ ladderFreqF pow fs (i + t)) ∧ (k < fuel → ladderFreqF pow fs (i + k) < fMin)
  | 0, i, acc => ⟨0, le_rfl, by simp [evalFreqsLoopF], by intro t ht; omega, by omega⟩
  | fuel + 1, i, acc => by
    by_cases h : ladderFreqF pow fs i < fMin
    · exact ⟨0, by omega, by simp [evalFreqsLoopF, h], by intro t ht; omega, fun _ => h⟩
    · obtain ⟨k, h1, h2, h3, h4⟩ := evalFreqsLoopF_eq pow fs fMin fuel (i + 1) (acc ++ [ladderFreqF pow fs i])
      refine ⟨k + 1, by omega, ?_, ?_, ?_⟩
      · rw [evalFreqsLoopF, if_neg h, h2, List.range_succ_eq_map, List.map_cons, List.map_map, List.append_assoc]
        simp only [List.singleton_append, Nat.add_zero]
        congr 2
        apply List.map_congr_left
        intro t _
        simp only [Function.comp_apply]
        congr 1; omega
      · intro t ht
        rcases t with _ | t
        · exact not_lt.1 h
        · have := h3 t (by omega)
          rwa [show i + 1 + t = i + (t + 1) by omega] at this
      · intro hk
        have := h4 (by omega)
        rwa [show i + 1 + k = i + (k + 1) by omega] at this

/-- **C79 (down to a frequency)**: `get_eval_freqs` with a minimum gives the frequencies of the ladder that are at least the minimum, all
of them; in particular the minimum itself when it is a quarter of the sampling frequency divided by a power of two. -/
theorem C79_eval_freqs_min (hp : PowOk pow) (fs fMin : ℚ) (hb : Bits53 fs) (hf : 0 < fMin) (h : fMin ≤ fs / 4) :
    ∃ n, getEvalFreqsMinF pow fs fMin = .ok (getEvalFreqsSizeF pow fs n) ∧ (∀ i, fMin ≤ ladderFreqF pow fs i ↔ i < n) ∧
      ∀ j : ℕ, fMin = fs / 4 / 2 ^ j → n = 2 * j + 1 := by
  have hfs : 0 < fs := by linarith
  obtain ⟨k, h1, h2, h3, h4⟩ := evalFreqsLoopF_eq pow fs fMin (⌈(fs / 4 / fMin) ^ 2⌉₊ + 3) 0 []
  have hlast : ladderFreqF pow fs k < fMin := by
    have hanti := (ladder_anti hp hb hfs).antitone
    by_cases hk : k < ⌈(fs / 4 / fMin) ^ 2⌉₊ + 3
    · simpa using h4 hk
    · have hk : k = ⌈(fs / 4 / fMin) ^ 2⌉₊ + 3 := by omega
      set R := fs / 4 / fMin with hR
      have hc : R ^ 2 ≤ (⌈R ^ 2⌉₊ : ℚ) := Nat.le_ceil _
      obtain ⟨j, hj1, hj2⟩ : ∃ j, 2 * j ≤ k ∧ k ≤ 2 * j + 1 := ⟨k / 2, by omega, by omega⟩
      have hjR : R ≤ (j : ℚ) := by
        have e1 : (k : ℚ) ≤ 2 * j + 1 := by exact_mod_cast hj2
        have e2 : (k : ℚ) = (⌈R ^ 2⌉₊ : ℚ) + 3 := by rw [hk]; push_cast; ring
        nlinarith [sq_nonneg (R - 1)]
      have h5 : (j : ℚ) < 2 ^ j := by exact_mod_cast Nat.lt_two_pow_self
      have h6 := hanti hj1
      rw [ladder_even hp hb] at h6
      refine lt_of_le_of_lt h6 ?_
      rw [div_lt_iff₀ (by positivity)]
      have h7 : R < 2 ^ j := by linarith
      rw [hR, div_lt_iff₀ hf] at h7
      linarith
  have hiff : ∀ i, fMin ≤ ladderFreqF pow fs i ↔ i < k := by
    intro i
    constructor
    · intro hi
      by_contra hc
      have := (ladder_anti hp hb hfs).antitone (not_lt.1 hc)
      linarith
    · intro hi
      simpa using h3 i hi
  refine ⟨k, ?_, hiff, ?_⟩
  · unfold getEvalFreqsMinF
    rw [if_neg (not_le.2 hf), (quarter_bits hb).fl_eq, if_neg (not_lt.2 h), h2]
    simp [getEvalFreqsSizeF]
  · intro j hj
    have e1 := (hiff (2 * j)).1 (by rw [ladder_even hp hb, hj])
    have e2 : ¬ 2 * j + 1 < k := by
      rw [← hiff, not_le, hj]
      exact (ladder_odd hp hb hfs j).2
    omega

example : getEvalFreqsMinF demoPow 128 20 = .ok [32, 6369051672525772 / 281474976710656] ∧
    getEvalFreqsMinF demoPow 128 40 = .error .value := by decide +kernel

/-! ## Sampling frequencies of the levels -/

theorem near_twice {x y z : ℚ} (hy : 0 < y) (e2 : |z - x| ≤ x * (1 / 2 ^ 53)) (e3 : |x - y| ≤ y / 2 ^ 53) :
    |z - y| ≤ 3 / 2 ^ 53 * y := by
  rw [abs_le] at *
  norm_num at e2 e3 ⊢
  constructor <;> linarith [e2.1, e2.2, e3.1, e3.2]

/-- **C79 (sampling frequencies)**: the sampling frequency of a level is the recording's divided by the factor: exactly for a power of
two, and within three units in the last place for any factor. -/
theorem C79_level_fs (fs : ℚ) (hb : Bits53 fs) (hfs : 0 < fs) (factors : List ℕ) (hpos : ∀ f ∈ factors, 0 < f) :
    (decFsListF fs factors).length = factors.length ∧
      ∀ (i f : ℕ) (g : ℚ), factors[i]? = some f → (decFsListF fs factors)[i]? = some g →
        0 < g ∧ |g - fs / f| ≤ 3 / 2 ^ 53 * (fs / f) ∧ ∀ m : ℕ, f = 2 ^ m → g = fs / f := by
  refine ⟨by simp [decFsListF], ?_⟩
  intro i f g hf hg
  unfold decFsListF at hg
  rw [List.getElem?_map, hf] at hg
  simp only [Option.map_some, Option.some.injEq] at hg
  subst hg
  have hf0 : (0 : ℚ) < f := by exact_mod_cast hpos f (List.mem_of_getElem? hf)
  have hr : 0 < fl (1 / (f : ℚ)) := fl_pos (by positivity)
  refine ⟨fl_pos (mul_pos hfs hr), ?_, ?_⟩
  · have e1 := fl_near (1 / (f : ℚ))
    rw [abs_of_pos (show 0 < 1 / (f : ℚ) by positivity)] at e1
    have e2 := fl_near (fs * fl (1 / (f : ℚ)))
    rw [abs_of_pos (mul_pos hfs hr)] at e2
    unfold unitRoundoff at e1 e2
    have e3 : |fs * fl (1 / (f : ℚ)) - fs / f| ≤ fs / f / 2 ^ 53 := by
      rw [show fs * fl (1 / (f : ℚ)) - fs / f = fs * (fl (1 / (f : ℚ)) - 1 / f) by ring, abs_mul, abs_of_pos hfs]
      calc _ ≤ fs * (1 / (f : ℚ) * (1 / 2 ^ 53)) := mul_le_mul_of_nonneg_left e1 hfs.le
        _ = _ := by ring
    have hy : 0 < fs / (f : ℚ) := by positivity
    exact near_twice hy e2 e3
  · rintro m rfl
    have h1 : Bits53 (1 / ((2 ^ m : ℕ) : ℚ)) := by
      have := (bits53_nat (k := 1) (by norm_num)).div_pow m
      push_cast at this ⊢
      exact this
    have h2 : fs * (1 / ((2 ^ m : ℕ) : ℚ)) = fs / 2 ^ m := by push_cast; ring
    rw [h1.fl_eq, h2, (hb.div_pow m).fl_eq]
    push_cast; rfl

/-- **C79 (finding)**: with a division factor of 7 the sampling frequency of a level decimated by 49 comes out just below the whole number
that it is, and the window of that level one sample shorter. -/
theorem C79_level_fs_rounded :
    decFsListF 196000 [49] = [fl (196000 * fl (1 / 49))] ∧ decFsListF 196000 [49] ≠ [4000] ∧
      ({} : WindowSetup).getWinSizesF 1 (decFsListF 196000 [49]) = .ok [999] ∧
      ({} : WindowSetup).getWinSizes 1 (decFsList 196000 [49]) = .ok [1000] := by
  decide +kernel

/-! ## The setup -/

theorem setup_positive (hp : PowOk pow) (s : DecSetup ℚ) (fs : ℚ) (hb : Bits53 fs) (hfs : 0 < fs)
    (hfreqs : ∀ l, s.evalFreqs = some l → ∀ f ∈ l, 0 < f ∧ Bits53 f) (freqs : List ℚ) (h : s.getEvalFreqsF pow fs = .ok freqs) :
    ∀ f ∈ freqs, 0 < f ∧ Bits53 f := by
  unfold DecSetup.getEvalFreqsF DecSetup.getEvalFreqs at h
  simp only at h
  cases he : s.evalFreqs with
  | none =>
    rw [he] at h
    simp only [Except.ok.injEq] at h
    subst h
    intro f hf
    obtain ⟨i, -, rfl⟩ := List.mem_map.1 hf
    exact ⟨ladder_pos hp hb hfs i, fl_bits53 _⟩
  | some l =>
    rw [he] at h
    simp only at h
    split at h
    · cases h
    · split at h
      · cases h
      · cases h
        exact hfreqs _ he

/-- **C79 (decimation setup)**: with a division factor that is a power of two, as by default, `DecimationSetup` computes from the doubles it
is given, and from the ladder of `C79_eval_freqs`, exactly what it would with real numbers: the properties C18 and C63 are those of the
program, rounding included. -/
theorem C79_decimation_setup (hp : PowOk pow) (s : DecSetup ℚ) (a : ℕ) (ha : 1 ≤ a) (hdiv : s.divFactor = 2 ^ a) (fs : ℚ)
    (hb : Bits53 fs) (hfs : 0 < fs) (hfreqs : ∀ l, s.evalFreqs = some l → ∀ f ∈ l, 0 < f ∧ Bits53 f) :
    s.runF pow fs = s.run (getEvalFreqsSizeF pow) fs := by
  have hd2 : 2 ≤ 2 ^ a := by
    calc 2 = 2 ^ 1 := rfl
      _ ≤ 2 ^ a := Nat.pow_le_pow_right (by norm_num) ha
  unfold DecSetup.runF DecSetup.run
  show (s.getEvalFreqsF pow fs >>= _) = (s.getEvalFreqsF pow fs >>= _)
  cases hf : s.getEvalFreqsF pow fs with
  | error e => rfl
  | ok freqs =>
    have hpos := setup_positive hp s fs hb hfs hfreqs freqs hf
    have hmem : ∀ l m, npMax (reshapeRow freqs s.perLevel l) = .ok m → 0 < m ∧ Bits53 m := by
      intro l m hm
      obtain ⟨j, -, -, hj⟩ := mem_reshapeRow (npMax_spec hm).1
      exact hpos m (List.mem_of_getElem? hj)
    have hfac : getFactorsF s.nLevels s.perLevel s.divFactor fs freqs = getFactors s.nLevels s.perLevel s.divFactor fs freqs := by
      unfold getFactorsF getFactors
      refine mapM_congr_mem fun l _ => ?_
      unfold levelFactorF levelFactor
      cases hm : npMax (reshapeRow freqs s.perLevel l) with
      | error e => rfl
      | ok m =>
        obtain ⟨m0, m1⟩ := hmem l m hm
        show Except.ok _ = Except.ok _
        rw [hdiv, C79_factor_power_of_two a ha fs m hb m1 m0]
    show (getFactorsF s.nLevels s.perLevel s.divFactor fs freqs >>= _) = (getFactors s.nLevels s.perLevel s.divFactor fs freqs >>= _)
    rw [hfac]
    cases hg : getFactors s.nLevels s.perLevel s.divFactor fs freqs with
    | error e => rfl
    | ok factors =>
      have hpow : ∀ f ∈ factors, ∃ m, f = 2 ^ m := by
        intro f hfm
        obtain ⟨i, hi, rfl⟩ := List.mem_iff_getElem.1 hfm
        have hlen := mapM_ok_length hg
        have := mapM_ok_getElem hg i (by omega) hi
        unfold levelFactor at this
        simp only [except_bind_ok, except_pure_ok] at this
        obtain ⟨m, hm, he⟩ := this
        obtain ⟨⟨k, hk⟩, -⟩ := C17_decimation_factor s.divFactor (by rw [hdiv]; exact hd2) fs m (hmem _ m hm).1
        exact ⟨a * k, by rw [← he, hk, hdiv, pow_mul]⟩
      have hfs' : decFsListF fs factors = decFsList fs factors := by
        unfold decFsListF decFsList
        refine List.map_congr_left fun f hfm => ?_
        obtain ⟨m, rfl⟩ := hpow f hfm
        have h1 : Bits53 (1 / ((2 ^ m : ℕ) : ℚ)) := by
          have := (bits53_nat (k := 1) (by norm_num)).div_pow m
          push_cast at this ⊢
          exact this
        have h2 : fs * (1 / ((2 ^ m : ℕ) : ℚ)) = fs / 2 ^ m := by push_cast; ring
        rw [h1.fl_eq, h2, (hb.div_pow m).fl_eq]
        push_cast
        rw [div_eq_mul_inv]
      show mkDecParamsF _ _ _ _ _ _ = mkDecParams _ _ _ _ _ _
      unfold mkDecParamsF mkDecParams
      rw [hfs']

theorem ladder_isLadder (hp : PowOk pow) (fs : ℚ) (hb : Bits53 fs) (hfs : 0 < fs) (n : ℕ) : IsLadder fs (getEvalFreqsSizeF pow fs n) := by
  have get : ∀ (i : ℕ) (f : ℚ), (getEvalFreqsSizeF pow fs n)[i]? = some f → f = ladderFreqF pow fs i := by
    intro i f hi
    unfold getEvalFreqsSizeF at hi
    rw [List.getElem?_map, Option.map_eq_some_iff] at hi
    obtain ⟨i', hi', rfl⟩ := hi
    obtain ⟨h1, h2⟩ := List.getElem?_eq_some_iff.1 hi'
    rw [List.getElem_range] at h2
    rw [h2]
  exact ⟨fun k f h => by rw [get _ _ h, ladder_even hp hb], fun k f h => by rw [get _ _ h]; exact ladder_odd hp hb hfs k⟩

/-- **C79 (default decimation)**: the default setup accepts every sampling frequency and makes, in double precision, eight levels of five
frequencies decimated by 1, 4, 32, 128, 1024, 4096, 32768 and 131072; the sampling frequencies of the levels are exact. -/
theorem C79_default_decimation (hp : PowOk pow) (fs : ℚ) (hb : Bits53 fs) (hfs : 0 < fs) :
    ({} : DecSetup ℚ).runF pow fs = .ok {
      fs := fs, nLevels := 8, perLevel := 5, minSamples := 256, evalFreqs := getEvalFreqsSizeF pow fs 40,
      decFactors := [1, 4, 32, 128, 1024, 4096, 32768, 131072], decIncrements := [1, 4, 8, 4, 8, 4, 8, 4],
      decFs := [fs, fs / 4, fs / 32, fs / 128, fs / 1024, fs / 4096, fs / 32768, fs / 131072] } := by
  rw [C79_decimation_setup hp {} 1 le_rfl rfl fs hb hfs (fun l hl => by cases hl),
    C63_decimation _ fs hfs (C79_eval_freqs hp fs hb hfs 40).1 (ladder_isLadder hp fs hb hfs 40)]
  congr 2
  simp [List.range_succ, defaultFactor]
  norm_num

example : Bits53 128 ∧ (0 : ℚ) < 128 := ⟨by simpa using bits53_nat (k := 128) (by norm_num), by norm_num⟩

end Resistics
