import Mathlib.Data.Nat.Prime.Basic
import Mathlib.Data.Nat.Factors
import Mathlib.Data.List.Sort
import Mathlib.Algebra.BigOperators.Group.List.Basic
import Mathlib.Tactic.Ring
import Mathlib.Tactic.Linarith
import Verif.Model.Time

/-! Helper lemmas: the trial-division loop of the staged decimation. -/

namespace Resistics

theorem stripTwos_eq (fuel n : ℕ) (acc : List ℕ) :
    stripTwos fuel n acc = stripFactor 2 fuel n acc := by
  induction fuel generalizing n acc with
  | zero => rfl
  | succ f ih => simp only [stripTwos, stripFactor, ih]

theorem stripFactor_spec (ii : ℕ) (hii : 2 ≤ ii) (fuel n : ℕ) (acc : List ℕ) (hn : 1 ≤ n) (hf : n ≤ fuel) :
    ∃ k m, stripFactor ii fuel n acc = (acc ++ List.replicate k ii, m) ∧ n = ii ^ k * m ∧ ¬ ii ∣ m ∧ 1 ≤ m := by
  induction fuel generalizing n acc with
  | zero => omega
  | succ f ih =>
    unfold stripFactor
    split
    · rename_i h
      have hd : ii ∣ n := Nat.dvd_of_mod_eq_zero h
      have hle : ii ≤ n := Nat.le_of_dvd hn hd
      have h1 : 1 ≤ n / ii := Nat.div_pos hle (by omega)
      have h2 : n / ii < n := Nat.div_lt_self hn hii
      obtain ⟨k, m, he, hn', hm, hm1⟩ := ih (n / ii) (acc ++ [ii]) h1 (by omega)
      refine ⟨k + 1, m, ?_, ?_, hm, hm1⟩
      · rw [he, List.append_assoc]; rfl
      · rw [← Nat.mul_div_cancel' hd, hn', pow_succ]; ring
    · rename_i h
      exact ⟨0, n, by simp, by simp, fun hd => h (Nat.mod_eq_zero_of_dvd hd), hn⟩

/-- Invariant of the loop over odd candidates, after the candidates below `B`. -/
structure FacInv (N B : ℕ) (s : List ℕ × ℕ) : Prop where
  prod : s.1.prod * s.2 = N
  pos : 1 ≤ s.2
  primes : ∀ p ∈ s.1, p.Prime
  lt : ∀ p ∈ s.1, p < B
  sorted : s.1.Pairwise (· ≤ ·)
  free : ∀ p, p.Prime → p < B → ¬ p ∣ s.2

theorem FacInv.step {N B : ℕ} {s : List ℕ × ℕ} (h : FacInv N B s) (hB : 2 ≤ B) :
    FacInv N (B + 1) (stripFactor B s.2 s.2 s.1) := by
  obtain ⟨k, m, he, hn, hm, hm1⟩ := stripFactor_spec B hB s.2 s.2 s.1 h.pos (le_refl _)
  rw [he]
  have hmd : m ∣ s.2 := ⟨B ^ k, by rw [hn]; ring⟩
  have hprime : k ≠ 0 → B.Prime := by
    intro hk
    have hBd : B ∣ s.2 := by rw [hn]; exact Dvd.dvd.mul_right (dvd_pow_self B hk) m
    have hf := Nat.minFac_prime (by omega : B ≠ 1)
    by_contra hnp
    have hlt : B.minFac < B := by
      rcases Nat.lt_or_ge B.minFac B with h' | h'
      · exact h'
      · exfalso; apply hnp
        rw [← (Nat.le_antisymm (Nat.minFac_le (by omega)) h')]; exact hf
    exact h.free _ hf hlt ((Nat.minFac_dvd B).trans hBd)
  constructor
  · simp only [List.prod_append, List.prod_replicate]
    rw [← h.prod, hn]; ring
  · exact hm1
  · intro p hp
    simp only [List.mem_append, List.mem_replicate] at hp
    rcases hp with hp | ⟨hk, rfl⟩
    · exact h.primes p hp
    · exact hprime hk
  · intro p hp
    simp only [List.mem_append, List.mem_replicate] at hp
    rcases hp with hp | ⟨hk, rfl⟩
    · have := h.lt p hp; omega
    · omega
  · simp only [List.pairwise_append]
    refine ⟨h.sorted, List.pairwise_replicate.mpr (Or.inr (le_refl _)), ?_⟩
    intro a ha b hb
    have := h.lt a ha
    rw [List.mem_replicate] at hb
    omega
  · intro p hp hlt hd
    rcases Nat.lt_or_ge p B with h' | h'
    · exact h.free p hp h' (hd.trans hmd)
    · have : p = B := by omega
      subst this
      exact hm hd

theorem FacInv.skip_even {N B : ℕ} {s : List ℕ × ℕ} (h : FacInv N B s) (hB : 3 ≤ B) (he : B % 2 = 0) :
    FacInv N (B + 1) s := by
  refine ⟨h.prod, h.pos, h.primes, fun p hp => by have := h.lt p hp; omega, h.sorted, ?_⟩
  intro p hp hlt
  rcases Nat.lt_or_ge p B with h' | h'
  · exact h.free p hp h'
  · have : p = B := by omega
    subst this
    rcases hp.eq_two_or_odd with h2 | h2 <;> omega

theorem FacInv.loop {N : ℕ} (s : List ℕ × ℕ) (h : FacInv N 3 s) (k : ℕ) :
    FacInv N (3 + 2 * k) (((List.range k).map fun i => 3 + 2 * i).foldl
      (fun (s : List ℕ × ℕ) ii => stripFactor ii s.2 s.2 s.1) s) := by
  induction k with
  | zero => simpa using h
  | succ k ih =>
    rw [List.range_succ, List.map_append, List.foldl_append]
    simp only [List.map_cons, List.map_nil, List.foldl_cons, List.foldl_nil]
    have h1 := ih.step (by omega)
    have h2 := h1.skip_even (by omega) (by omega)
    have e : 3 + 2 * (k + 1) = 3 + 2 * k + 1 + 1 := by ring
    rw [e]; exact h2

/-- any bound that is at least the square root will do -/
theorem primeFactorisationWith_spec (root : ℕ → ℕ) (n : ℕ) (hn : 1 ≤ n) (hroot : ∀ m ≤ n, Nat.sqrt m ≤ root m) :
    (primeFactorisationWith root n).prod = n ∧ (∀ p ∈ primeFactorisationWith root n, p.Prime) ∧
      (primeFactorisationWith root n).Pairwise (· ≤ ·) := by
  have h0 : FacInv n 2 ([], n) :=
    ⟨by simp, hn, by simp, by simp, List.Pairwise.nil, fun p hp hlt => by
      have := hp.two_le; omega⟩
  have h1 := h0.step (le_refl _)
  unfold primeFactorisationWith
  rw [stripTwos_eq]
  generalize hs : stripFactor 2 n n [] = s at h1
  obtain ⟨l, m⟩ := s
  simp only
  split
  · rename_i hm
    subst hm
    refine ⟨by simpa using h1.prod, h1.primes, h1.sorted⟩
  · rename_i hm
    have h2 := FacInv.loop (l, m) h1 ((root m + 1 - 3 + 1) / 2)
    unfold oddRange
    generalize hs2 : ((List.range ((root m + 1 - 3 + 1) / 2)).map fun i => 3 + 2 * i).foldl
      (fun (s : List ℕ × ℕ) ii => stripFactor ii s.2 s.2 s.1) (l, m) = s2 at h2
    obtain ⟨l2, m2⟩ := s2
    simp only
    -- what remains divides the odd part `m`
    have hm2 : m2 ≤ m := by
      have a1 := h1.prod
      have a2 := h2.prod
      simp only at a1 a2
      -- the collected prefix only grows: use the loop itself
      have grow : ∀ (is : List ℕ) (s : List ℕ × ℕ), 1 ≤ s.2 → (∀ i ∈ is, 2 ≤ i) →
          (is.foldl (fun (s : List ℕ × ℕ) ii => stripFactor ii s.2 s.2 s.1) s).2 ≤ s.2 := by
        intro is
        induction is with
        | nil => intro s _ _; simp
        | cons i is ih =>
          intro s hs hi
          obtain ⟨k, q, he, hq, -, hq1⟩ :=
            stripFactor_spec i (hi i (by simp)) s.2 s.2 s.1 hs (le_refl _)
          rw [List.foldl_cons, he]
          refine (ih _ hq1 (fun j hj => hi j (by simp [hj]))).trans ?_
          simp only
          rw [hq]
          exact Nat.le_mul_of_pos_left q (Nat.pow_pos (by have := hi i (by simp); omega))
      have := grow ((List.range ((root m + 1 - 3 + 1) / 2)).map fun i => 3 + 2 * i) (l, m)
        h1.pos (by intro i hi; simp at hi; omega)
      rw [hs2] at this
      exact this
    have hmn : m ≤ n := by
      have := h1.prod
      simp only at this
      rw [← this]
      refine Nat.le_mul_of_pos_left m (Nat.pos_of_ne_zero fun h => ?_)
      rw [h] at this
      omega
    have hsq : Nat.sqrt m < 3 + 2 * ((root m + 1 - 3 + 1) / 2) := by
      have := hroot m hmn
      omega
    have hpr : m2 ≠ 1 → m2.Prime ∧ ∀ p ∈ l2, p ≤ m2 := by
      intro hne
      have hpos := h2.pos
      simp only at hpos
      have hp : m2.Prime := by
        by_contra hnp
        have hf := Nat.minFac_prime hne
        have hle : m2.minFac ^ 2 ≤ m2 := Nat.minFac_sq_le_self (by omega) hnp
        have : m2.minFac ≤ Nat.sqrt m := by
          rw [Nat.le_sqrt']; omega
        exact h2.free _ hf (by omega) (Nat.minFac_dvd m2)
      refine ⟨hp, ?_⟩
      intro p hpm
      have := h2.lt p hpm
      by_contra hlt
      exact h2.free m2 hp (by omega) (dvd_refl _)
    split
    · rename_i hgt
      obtain ⟨hp, hle⟩ := hpr (by omega)
      refine ⟨by simpa using h2.prod, ?_, ?_⟩
      · intro p hpm
        rw [List.mem_append, List.mem_singleton] at hpm
        rcases hpm with h | rfl
        · exact h2.primes p h
        · exact hp
      · rw [List.pairwise_append]
        refine ⟨h2.sorted, List.pairwise_singleton _ _, ?_⟩
        intro a ha b hb
        rw [List.mem_singleton] at hb
        subst hb
        exact hle a ha
    · rename_i hgt
      have hpos := h2.pos
      simp only at hpos
      have h1' : m2 = 1 := by
        by_contra hne
        have hp := (hpr hne).1
        have : m2 = 2 := by have := hp.two_le; omega
        subst this
        exact h2.free 2 Nat.prime_two (by omega) (dvd_refl _)
      subst h1'
      exact ⟨by simpa using h2.prod, h2.primes, h2.sorted⟩

theorem groupFactors_spec (maxS : ℕ) (fs : List ℕ) (val : ℕ) (acc : List ℕ) :
    (groupFactors maxS fs val acc).prod = acc.prod * val * fs.prod ∧
    ((∀ f ∈ fs, f.Prime) → (val ≤ maxS ∨ val.Prime) → (∀ f ∈ acc, f ≤ maxS ∨ f.Prime) →
      ∀ f ∈ groupFactors maxS fs val acc, f ≤ maxS ∨ f.Prime) := by
  induction fs generalizing val acc with
  | nil =>
    refine ⟨by simp [groupFactors], ?_⟩
    intro _ hv ha f hf
    simp only [groupFactors, List.mem_append, List.mem_singleton] at hf
    rcases hf with hf | rfl
    · exact ha f hf
    · exact hv
  | cons x fs ih =>
    unfold groupFactors
    split
    · refine ⟨by rw [(ih x (acc ++ [val])).1]; simp; ring, ?_⟩
      intro hp hv ha
      apply (ih x (acc ++ [val])).2 (fun f hf => hp f (by simp [hf])) (Or.inr (hp x (by simp)))
      intro f hf
      rw [List.mem_append, List.mem_singleton] at hf
      rcases hf with hf | rfl
      · exact ha f hf
      · exact hv
    · rename_i h
      refine ⟨by rw [(ih (val * x) acc).1]; simp; ring, ?_⟩
      intro hp hv ha
      exact (ih (val * x) acc).2 (fun f hf => hp f (by simp [hf])) (Or.inl (by omega)) ha

theorem primeFactorisation_spec (n : ℕ) (hn : 1 ≤ n) :
    (primeFactorisation n).prod = n ∧ (∀ p ∈ primeFactorisation n, p.Prime) ∧
      (primeFactorisation n).Pairwise (· ≤ ·) :=
  primeFactorisationWith_spec Nat.sqrt n hn fun _ _ => le_rfl

end Resistics
