import Verif.Props.SetupWindows
import Verif.Props.TimeProc

/-!
# C22: prime factors with the square root of doubles
-/

namespace Resistics

/-- The nearest number of 53 bits to a positive real number. -/
noncomputable def nearest53 (y : ℝ) : ℚ := (round (y / 2 ^ (Int.log 2 y - 52)) : ℚ) * 2 ^ (Int.log 2 y - 52)

theorem nearest53_bits {y : ℝ} (hy : 0 < y) : Bits53 (nearest53 y) := by
  unfold nearest53
  apply bits53_of_le
  have h1 := Int.lt_zpow_succ_log_self (b := 2) (by norm_num) y
  generalize Int.log 2 y = L at *
  have h2 : (0 : ℝ) < 2 ^ (L - 52) := by positivity
  have h3 : y / 2 ^ (L - 52) < 2 ^ 53 := by
    rw [div_lt_iff₀ h2]
    calc y < (2 : ℝ) ^ (L + 1) := by exact_mod_cast h1
      _ = 2 ^ (53 : ℤ) * 2 ^ (L - 52) := by rw [← zpow_add₀ (by norm_num)]; congr 1; ring
      _ = _ := by norm_num
  have h0 : 0 < y / 2 ^ (L - 52) := by positivity
  generalize y / 2 ^ (L - 52) = z at *
  have h4 := abs_le.1 (abs_sub_round z)
  rw [abs_le]
  constructor
  · have : (-1 : ℝ) < (round z : ℝ) := by linarith [h4.1, h4.2]
    have : -1 < round z := by exact_mod_cast this
    have h5 : (0 : ℤ) ≤ round z := by omega
    linarith [show (0 : ℤ) ≤ 2 ^ 53 by positivity]
  · have : (round z : ℝ) < 2 ^ 53 + 1 := by linarith [h4.1, h4.2]
    have : round z < 2 ^ 53 + 1 := by exact_mod_cast this
    omega

theorem nearest53_nearest {y : ℝ} (hy : 0 < y) (r : ℚ) (hr : Bits53 r) : |(nearest53 y : ℝ) - y| ≤ |(r : ℝ) - y| := by
  have hlow : (2 : ℝ) ^ Int.log 2 y ≤ y := by exact_mod_cast Int.zpow_log_le_self (b := 2) (by norm_num) hy
  unfold nearest53
  generalize hg : Int.log 2 y - 52 = g
  have h2 : (0 : ℝ) < 2 ^ g := by positivity
  -- it is the nearest multiple of `2 ^ g`
  have hmul : ∀ m : ℤ, |((round (y / 2 ^ g) : ℚ) * 2 ^ g : ℚ) - y| ≤ |(m : ℝ) * 2 ^ g - y| := by
    intro m
    have e : ∀ a : ℤ, |(a : ℝ) * 2 ^ g - y| = |y / 2 ^ g - a| * 2 ^ g := by
      intro a
      rw [abs_sub_comm, show y - (a : ℝ) * 2 ^ g = (y / 2 ^ g - a) * 2 ^ g by rw [sub_mul, div_mul_cancel₀ _ h2.ne'], abs_mul,
        abs_of_pos h2]
    push_cast
    rw [e, e]
    exact mul_le_mul_of_nonneg_right (round_le _ m) h2.le
  obtain ⟨k, e, hk, rfl⟩ := hr
  by_cases hge : g ≤ e
  · obtain ⟨n, hn⟩ : ∃ n : ℕ, e = g + n := ⟨(e - g).toNat, by omega⟩
    have := hmul (k * 2 ^ n)
    refine this.trans (le_of_eq ?_)
    rw [hn]
    push_cast
    rw [zpow_add₀ (by norm_num), zpow_natCast]
    ring_nf
  · have hL : Int.log 2 y = g + 52 := by omega
    have h52 := hmul (2 ^ 52)
    rw [hL] at hlow
    have e1 : (2 : ℝ) ^ (g + 52) = 2 ^ 52 * 2 ^ g := by
      rw [zpow_add₀ (by norm_num)]; norm_num; ring
    rw [e1] at hlow
    have hr : (k : ℝ) * 2 ^ e ≤ 2 ^ 52 * 2 ^ g := by
      have a1 : (k : ℝ) ≤ 2 ^ 53 := by exact_mod_cast (le_abs_self k).trans hk.le
      have a2 : (0 : ℝ) < 2 ^ e := by positivity
      have a3 : (2 : ℝ) ^ e ≤ 2 ^ (g - 1) := zpow_le_zpow_right₀ (by norm_num) (by omega)
      calc (k : ℝ) * 2 ^ e ≤ 2 ^ 53 * 2 ^ e := mul_le_mul_of_nonneg_right a1 a2.le
        _ ≤ 2 ^ 53 * 2 ^ (g - 1) := mul_le_mul_of_nonneg_left a3 (by norm_num)
        _ = 2 ^ 52 * 2 ^ g := by rw [zpow_sub₀ (by norm_num)]; norm_num; ring
    refine h52.trans ?_
    push_cast
    rw [abs_sub_comm, abs_of_nonneg (by linarith), abs_sub_comm, abs_of_nonneg (by linarith)]
    linarith

/-- What IEEE 754 requires of the square root: the nearest double. -/
def SqrtOk (sqrt : ℚ → ℚ) : Prop :=
  ∀ x : ℚ, 0 < x → Bits53 (sqrt x) ∧ ∀ r, Bits53 r → |(sqrt x : ℝ) - Real.sqrt x| ≤ |(r : ℝ) - Real.sqrt x|

/-- the requirement can be met -/
theorem sqrtOk_nearest : SqrtOk fun x => nearest53 (Real.sqrt x) := by
  intro x hx
  have : 0 < Real.sqrt x := Real.sqrt_pos.2 (by exact_mod_cast hx)
  exact ⟨nearest53_bits this, nearest53_nearest this⟩

theorem sqrt_le_intSqrtF {sqrt : ℚ → ℚ} (h : SqrtOk sqrt) {n : ℕ} (hn : n < 2 ^ 53) (h0 : 0 < n) : Nat.sqrt n ≤ intSqrtF sqrt n := by
  unfold intSqrtF
  rw [(bits53_nat hn).fl_eq]
  have hs : Nat.sqrt n ≤ n := Nat.sqrt_le_self n
  obtain ⟨-, h2⟩ := h n (by exact_mod_cast h0)
  have hle : (Nat.sqrt n : ℝ) ≤ Real.sqrt n := by
    apply Real.le_sqrt_of_sq_le
    exact_mod_cast Nat.sqrt_le' n
  have hb := h2 (Nat.sqrt n) (bits53_nat (by omega))
  have key : (Nat.sqrt n : ℚ) ≤ sqrt n := by
    by_contra hc
    push Not at hc
    have hc' : (sqrt n : ℝ) < (Nat.sqrt n : ℝ) := by exact_mod_cast hc
    push_cast at hb
    rw [abs_of_neg (by linarith), abs_of_nonpos (by linarith)] at hb
    linarith
  have hfl : (Nat.sqrt n : ℤ) ≤ pyInt (sqrt n) := by
    unfold pyInt
    rw [if_pos (le_trans (by positivity) key)]
    exact Int.le_floor.2 (by push_cast; exact key)
  omega

/-- **C22 (in double precision)**. The bound `int(math.sqrt(n))` of the loop, with the square root rounded to the nearest double, changes
nothing: the factors are the prime factors for every `n` below `2 ^ 53`. -/
theorem C22_square_root_rounded (sqrt : ℚ → ℚ) (h : SqrtOk sqrt) (n : ℕ) (hn : 1 ≤ n) (hmax : n < 2 ^ 53) :
    primeFactorisationF sqrt n = n.primeFactorsList := by
  have hroot : ∀ m ≤ n, Nat.sqrt m ≤ intSqrtF sqrt m := by
    intro m hm
    rcases Nat.eq_zero_or_pos m with rfl | h0
    · simp
    · exact sqrt_le_intSqrtF h (by omega) h0
  obtain ⟨h1, h2, h3⟩ := primeFactorisationWith_spec (intSqrtF sqrt) n hn hroot
  exact List.Perm.eq_of_pairwise (fun a b _ _ h1 h2 => Nat.le_antisymm h1 h2) h3
    (Nat.primeFactorsList_sorted n).pairwise (Nat.primeFactorsList_unique h1 h2)

end Resistics
