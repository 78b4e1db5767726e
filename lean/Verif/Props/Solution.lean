import Mathlib.Tactic.IntervalCases
import Verif.Props.Regression

/-!
# Solutions: assembly, lookup, component keys (C34, C35)
-/

namespace Resistics

open scoped ComplexConjugate
open Finset (range)

/-! ## Specification -/

/-- The counts of a transfer function are the lengths of its channel lists. -/
structure CountsOk (tf : TransFunc) : Prop where
  n_out : tf.nOut = tf.outChans.length
  n_in : tf.nIn = tf.inChans.length

/-- No two pairs of an output and an input channel share a component key. -/
def KeysDistinct (tf : TransFunc) : Prop :=
  ∀ (o o' i i' : ℕ) (a a' b b' : String), tf.outChans[o]? = some a → tf.outChans[o']? = some a' →
    tf.inChans[i]? = some b → tf.inChans[i']? = some b' → getComponentKey a b = getComponentKey a' b' → o = o' ∧ i = i'

/-- The complex value which coefficients give input channel `i`. -/
noncomputable def coefComplex (coef : List ℝ) (i : ℕ) : ℂ := ⟨coef.getD (2 * i) 0, coef.getD (2 * i + 1) 0⟩

/-- Every regression of the input succeeds; `coefs k o` are the coefficients of output channel `o` at evaluation
frequency `k`. -/
def Regresses (getCoef : List (List ℝ) → List ℝ → Except Err (List ℝ)) (r : RegInput) (coefs : ℕ → ℕ → List ℝ) : Prop :=
  ∀ k < r.freqs.length, ∀ (o : ℕ) (name : String), r.tf.outChans[o]? = some name →
    ∃ obs preds, r.getInputs k name = .ok (obs, preds) ∧ getCoef preds obs = .ok (coefs k o) ∧
      2 * r.tf.inChans.length ≤ (coefs k o).length

/-! ## Lemmas -/

theorem complex_mk_eq (a b : ℝ) : (a : ℂ) + Complex.I * (b : ℂ) = ⟨a, b⟩ := by
  apply Complex.ext <;> simp

theorem coefTensor_spec (tf : TransFunc) (n : ℕ) (hn : tf.nIn = n) (coef : List ℝ) (h : 2 * n ≤ coef.length) :
    coefTensor tf coef = .ok ((List.range n).map (coefComplex coef)) := by
  unfold coefTensor
  rw [if_neg (by rw [hn]; omega), hn, Int.toNat_natCast]
  refine mapM_ok_map fun i hi => ?_
  rw [List.mem_range] at hi
  unfold coefValue
  rw [pyIndex_natCast _ _ (by omega), pyIndex_natCast _ _ (by omega)]
  simp only [bind, Except.bind, pure, Except.pure, complex_mk_eq, coefComplex, mul_comm i 2]
  rw [List.getD_eq_getElem?_getD, List.getD_eq_getElem?_getD, List.getElem?_eq_getElem (by omega),
    List.getElem?_eq_getElem (by omega)]
  rfl

theorem range_map_eq_of_zipIdx {α β : Type} (l : List α) (f : ℕ → β) :
    (l.zipIdx.map fun p => f p.2) = (List.range l.length).map f := by
  have : l.zipIdx.map Prod.snd = List.range l.length := by
    rw [List.zipIdx_map_snd, List.range_eq_range']
  rw [← this, List.map_map]; rfl

theorem solveEval_spec (getCoef : List (List ℝ) → List ℝ → Except Err (List ℝ)) (r : RegInput) (hc : CountsOk r.tf)
    (coefs : ℕ → ℕ → List ℝ) (hr : Regresses getCoef r coefs) (k : ℕ) (hk : k < r.freqs.length) :
    solveEval getCoef r k = .ok ((List.range r.tf.outChans.length).map fun o =>
      (List.range r.tf.inChans.length).map (coefComplex (coefs k o))) := by
  unfold solveEval
  rw [← range_map_eq_of_zipIdx r.tf.outChans]
  refine mapM_ok_map fun p hp => ?_
  have hp' := List.mem_zipIdx_iff_getElem?.mp hp
  obtain ⟨obs, preds, h1, h2, h3⟩ := hr k hk p.2 p.1 hp'
  have hlt : p.2 < r.tf.outChans.length := by
    have := List.getElem?_eq_some_iff.mp hp'; exact this.1
  unfold solveChan
  simp only [h1, h2, coefTensor_spec r.tf _ hc.n_in _ h3, bind, Except.bind]
  rw [if_neg (by rw [hc.n_out]; omega)]
  rfl

/-- The component of a pair of channels in tensors given by a function. -/
def compOf (nf : ℕ) (V : ℕ → ℕ → ℕ → ℂ) (o i : ℕ) : Component where
  real := (List.range nf).map fun k => (V k o i).re
  imag := (List.range nf).map fun k => (V k o i).im

theorem tensorComponent_spec (nf no ni : ℕ) (V : ℕ → ℕ → ℕ → ℂ) (o i : ℕ) (ho : o < no) (hi : i < ni) :
    tensorComponent ((List.range nf).map fun k => (List.range no).map fun o => (List.range ni).map fun i => V k o i) o i =
      .ok (compOf nf V o i) := by
  unfold tensorComponent
  have : ((List.range nf).map fun k => (List.range no).map fun o => (List.range ni).map fun i => V k o i).mapM
      (fun t => (do pyIndex (← pyIndex t (o : ℤ)) (i : ℤ) : Except Err ℂ)) = .ok ((List.range nf).map fun k => V k o i) := by
    rw [List.mapM_map]
    refine mapM_ok_map fun k _ => ?_
    simp only [Function.comp, pyIndex_natCast ((List.range no).map fun o => (List.range ni).map fun i => V k o i) o (by simpa using ho),
      bind, Except.bind, List.getElem_map, List.getElem_range]
    rw [pyIndex_natCast _ _ (by simpa using hi)]
    simp
  rw [this]
  simp only [bind, Except.bind, pure, Except.pure, List.map_map]
  rfl

/-- The key of a pair. -/
def keyOf (p : (String × ℕ) × (String × ℕ)) : String := getComponentKey p.1.1 p.2.1

theorem mem_chanPairs (tf : TransFunc) (p : (String × ℕ) × (String × ℕ)) :
    p ∈ chanPairs tf ↔ tf.outChans[p.1.2]? = some p.1.1 ∧ tf.inChans[p.2.2]? = some p.2.1 := by
  unfold chanPairs
  obtain ⟨⟨a, o⟩, ⟨b, i⟩⟩ := p
  simp only [List.mem_flatMap, List.mem_map, Prod.mk.injEq, Prod.exists, List.mem_zipIdx_iff_getElem?]
  constructor
  · rintro ⟨a', o', h1, b', i', h2, ⟨rfl, rfl⟩, rfl, rfl⟩; exact ⟨h1, h2⟩
  · rintro ⟨h1, h2⟩; exact ⟨a, o, h1, b, i, h2, ⟨rfl, rfl⟩, rfl, rfl⟩

/-- The components of a solution: under each key, the component of the last pair with that key. -/
theorem getSolutionOf_spec (tf : TransFunc) (freqs : List ℚ) (nf : ℕ) (V : ℕ → ℕ → ℕ → ℂ) :
    ∃ comps, getSolutionOf tf freqs ((List.range nf).map fun k => (List.range tf.outChans.length).map fun o =>
        (List.range tf.inChans.length).map fun i => V k o i) = .ok ⟨tf, freqs, comps⟩ ∧
      ∀ key, comps.lookup key =
        ((chanPairs tf).reverse.find? fun p => keyOf p = key).map fun p => compOf nf V p.1.2 p.2.2 := by
  obtain ⟨comps, h1, h2⟩ := foldlM_total_prefix (f := solutionStep ((List.range nf).map fun k =>
      (List.range tf.outChans.length).map fun o => (List.range tf.inChans.length).map fun i => V k o i))
    (P := fun done (comps : List (String × Component)) => ∀ key, comps.lookup key =
      (done.reverse.find? fun p => keyOf p = key).map fun p => compOf nf V p.1.2 p.2.2)
    (chanPairs tf) [] (by simp) (by
      intro done p comps hpre hP
      have hp : p ∈ chanPairs tf := hpre.subset (by simp)
      rw [mem_chanPairs] at hp
      have h1 : p.1.2 < tf.outChans.length := (List.getElem?_eq_some_iff.mp hp.1).1
      have h2 : p.2.2 < tf.inChans.length := (List.getElem?_eq_some_iff.mp hp.2).1
      refine ⟨dictSet comps (keyOf p) (compOf nf V p.1.2 p.2.2), ?_, ?_⟩
      · unfold solutionStep
        rw [tensorComponent_spec _ _ _ _ _ _ h1 h2]; rfl
      · intro key
        rw [dictSet_lookup, List.reverse_append, List.reverse_singleton, List.singleton_append, List.find?_cons]
        by_cases hk : key = keyOf p
        · simp [hk]
        · rw [if_neg hk, hP]
          have : ¬ keyOf p = key := fun h => hk h.symm
          simp [this])
  refine ⟨comps, ?_, h2⟩
  unfold getSolutionOf
  rw [h1]; rfl

theorem find_reverse_distinct (tf : TransFunc) (hk : KeysDistinct tf) (o i : ℕ) (a b : String)
    (ho : tf.outChans[o]? = some a) (hi : tf.inChans[i]? = some b) :
    (chanPairs tf).reverse.find? (fun p => keyOf p = getComponentKey a b) = some ((a, o), (b, i)) := by
  have hmem : ((a, o), (b, i)) ∈ (chanPairs tf).reverse := by
    rw [List.mem_reverse, mem_chanPairs]; exact ⟨ho, hi⟩
  cases hf : (chanPairs tf).reverse.find? (fun p => keyOf p = getComponentKey a b) with
  | none =>
    rw [List.find?_eq_none] at hf
    exact absurd (hf _ hmem) (by simp [keyOf])
  | some p =>
    have h1 := List.find?_some hf
    have h2 := List.mem_of_find?_eq_some hf
    rw [List.mem_reverse, mem_chanPairs] at h2
    obtain ⟨⟨a', o'⟩, ⟨b', i'⟩⟩ := p
    replace h1 := of_decide_eq_true h1
    rw [keyOf] at h1
    obtain ⟨rfl, rfl⟩ := hk o' o i' i a' a b' b h2.1 ho h2.2 hi h1
    have e1 : a' = a := by have := h2.1.symm.trans ho; simpa using this
    have e2 : b' = b := by have := h2.2.symm.trans hi; simpa using this
    rw [e1, e2]

theorem compOf_toNumpy (nf : ℕ) (V : ℕ → ℕ → ℕ → ℂ) (o i : ℕ) :
    (compOf nf V o i).toNumpy = .ok ((List.range nf).map fun k => V k o i) := by
  unfold Component.toNumpy compOf
  rw [if_neg (by simp)]
  simp only [List.zipWith_map, List.zipWith_self, complex_mk_eq]

theorem compOf_getValue (nf : ℕ) (V : ℕ → ℕ → ℕ → ℂ) (o i k : ℕ) (hk : k < nf) :
    (compOf nf V o i).getValue k = .ok (V k o i) := by
  unfold Component.getValue compOf
  simp only [pyIndex_natCast ((List.range nf).map fun k => (V k o i).re) k (by simpa using hk),
    pyIndex_natCast ((List.range nf).map fun k => (V k o i).im) k (by simpa using hk), bind, Except.bind, pure, Except.pure,
    List.getElem_map, List.getElem_range, complex_mk_eq]

theorem getTensor_spec (s : Solution) (hc : CountsOk s.tf) (nf : ℕ) (V : ℕ → ℕ → ℕ → ℂ) (sel : ℕ → ℕ → ℕ × ℕ)
    (h : ∀ (o i : ℕ) (a b : String), s.tf.outChans[o]? = some a → s.tf.inChans[i]? = some b →
      s.components.lookup (getComponentKey a b) = some (compOf nf V (sel o i).1 (sel o i).2)) (k : ℕ) (hk : k < nf) :
    s.getTensor k = .ok ((List.range s.tf.outChans.length).map fun o => (List.range s.tf.inChans.length).map fun i =>
      V k (sel o i).1 (sel o i).2) := by
  have hrow : ∀ p ∈ s.tf.outChans.zipIdx, tensorRow s k p =
      .ok ((List.range s.tf.inChans.length).map fun i => V k (sel p.2 i).1 (sel p.2 i).2) := by
    intro p hp
    have hp' := List.mem_zipIdx_iff_getElem?.mp hp
    have hlt : p.2 < s.tf.outChans.length := (List.getElem?_eq_some_iff.mp hp').1
    have : s.tf.inChans.zipIdx.mapM (tensorEntry s k p) =
        .ok (s.tf.inChans.zipIdx.map fun q => V k (sel p.2 q.2).1 (sel p.2 q.2).2) := by
      refine mapM_ok_map fun q hq => ?_
      have hq' := List.mem_zipIdx_iff_getElem?.mp hq
      have hlt' : q.2 < s.tf.inChans.length := (List.getElem?_eq_some_iff.mp hq').1
      unfold tensorEntry dictGet
      simp only [h p.2 q.2 p.1 q.1 hp' hq', bind, Except.bind, compOf_getValue _ _ _ _ _ hk]
      rw [if_neg (by rw [hc.n_out, hc.n_in]; omega)]
      rfl
    unfold tensorRow
    simp only [this, bind, Except.bind, pure, Except.pure,
      range_map_eq_of_zipIdx s.tf.inChans (fun i => V k (sel p.2 i).1 (sel p.2 i).2), hc.n_in, List.length_map,
      List.length_range, Int.toNat_natCast, Nat.sub_self, List.replicate_zero, List.append_nil]
  unfold Solution.getTensor
  rw [if_neg (by rw [hc.n_out, hc.n_in]; omega)]
  have := mapM_ok_map hrow
  rw [range_map_eq_of_zipIdx s.tf.outChans (fun o => (List.range s.tf.inChans.length).map fun i => V k (sel o i).1 (sel o i).2)] at this
  simp only [this, bind, Except.bind, pure, Except.pure, hc.n_out, List.length_map, List.length_range, Int.toNat_natCast,
    Nat.sub_self, List.replicate_zero, List.append_nil]

/-! ## C34 -/

/-- **C34**. Solving succeeds when every regression does; and every channel pair's component, as well as the entry of
the tensor at every evaluation frequency, is the complex number made of the two coefficients of that pair.  The solution
keeps the transfer function and the frequencies. -/
theorem C34_solution (getCoef : List (List ℝ) → List ℝ → Except Err (List ℝ)) (r : RegInput) (hc : CountsOk r.tf)
    (hk : KeysDistinct r.tf) (coefs : ℕ → ℕ → List ℝ) (hr : Regresses getCoef r coefs) :
    ∃ s, solveWith getCoef r = .ok s ∧ s.tf = r.tf ∧ s.freqs = r.freqs ∧
      (∀ (o i : ℕ) (a b : String), r.tf.outChans[o]? = some a → r.tf.inChans[i]? = some b →
        s.getComponent (a ++ b) = .ok ((List.range r.freqs.length).map fun k => coefComplex (coefs k o) i)) ∧
      (∀ k < r.freqs.length, s.getTensor k = .ok ((List.range r.tf.outChans.length).map fun o =>
        (List.range r.tf.inChans.length).map fun i => coefComplex (coefs k o) i)) ∧
      (∀ key, (∀ a ∈ r.tf.outChans, ∀ b ∈ r.tf.inChans, key ≠ a ++ b) → s.getComponent key = .error .value) := by
  have htens : (List.range r.nFreqs).mapM (solveEval getCoef r) = .ok ((List.range r.freqs.length).map fun k =>
      (List.range r.tf.outChans.length).map fun o => (List.range r.tf.inChans.length).map fun i =>
        coefComplex (coefs k o) i) :=
    mapM_ok_map fun k hk' => solveEval_spec getCoef r hc coefs hr k (List.mem_range.mp hk')
  obtain ⟨comps, h1, h2⟩ := getSolutionOf_spec r.tf r.freqs r.freqs.length (fun k o i => coefComplex (coefs k o) i)
  have hlk : ∀ (o i : ℕ) (a b : String), r.tf.outChans[o]? = some a → r.tf.inChans[i]? = some b →
      comps.lookup (getComponentKey a b) = some (compOf r.freqs.length (fun k o i => coefComplex (coefs k o) i) o i) := by
    intro o i a b ho hi
    rw [h2, find_reverse_distinct r.tf hk o i a b ho hi]; rfl
  refine ⟨⟨r.tf, r.freqs, comps⟩, ?_, rfl, rfl, ?_, ?_, ?_⟩
  · unfold solveWith
    rw [if_neg (by rw [hc.n_out, hc.n_in]; omega)]
    simp only [htens, bind, Except.bind]
    exact h1
  · intro o i a b ho hi
    unfold Solution.getComponent
    have := hlk o i a b ho hi
    rw [getComponentKey] at this
    simp only [this, compOf_toNumpy]
  · intro k hk'
    exact getTensor_spec ⟨r.tf, r.freqs, comps⟩ hc r.freqs.length _ (fun o i => (o, i)) hlk k hk'
  · intro key hkey
    unfold Solution.getComponent
    have : comps.lookup key = none := by
      rw [h2, Option.map_eq_none_iff, List.find?_eq_none]
      intro p hp
      rw [List.mem_reverse, mem_chanPairs] at hp
      have := hkey p.1.1 (List.mem_of_getElem? hp.1) p.2.1 (List.mem_of_getElem? hp.2)
      exact fun hd => this (of_decide_eq_true hd).symm
    simp only [this]

/-- **C34**. Asking for an evaluation frequency that does not exist is an `IndexError` (when there are channels). -/
theorem C34_bad_index (getCoef : List (List ℝ) → List ℝ → Except Err (List ℝ)) (r : RegInput) (hc : CountsOk r.tf)
    (hk : KeysDistinct r.tf) (coefs : ℕ → ℕ → List ℝ) (hr : Regresses getCoef r coefs)
    (ho : r.tf.outChans ≠ []) (hi : r.tf.inChans ≠ []) (s : Solution) (hs : solveWith getCoef r = .ok s) (k : ℕ)
    (hkl : r.freqs.length ≤ k) : s.getTensor k = .error .index := by
  obtain ⟨s', h1, h2, -, h3, -⟩ := C34_solution getCoef r hc hk coefs hr
  rw [hs, Except.ok.injEq] at h1
  subst h1
  obtain ⟨a, as, ha⟩ := List.exists_cons_of_ne_nil ho
  obtain ⟨b, bs, hb⟩ := List.exists_cons_of_ne_nil hi
  have hcomp := h3 0 0 a b (by rw [ha]; rfl) (by rw [hb]; rfl)
  unfold Solution.getComponent at hcomp
  cases hl : s.components.lookup (a ++ b) with
  | none => rw [hl] at hcomp; simp at hcomp
  | some c =>
    rw [hl] at hcomp
    simp only [Component.toNumpy] at hcomp
    split at hcomp
    · simp at hcomp
    · rename_i hlen
      push Not at hlen
      rw [Except.ok.injEq] at hcomp
      have hl2 := congrArg List.length hcomp
      simp only [List.length_zipWith, List.length_map, List.length_range] at hl2
      have hv : c.getValue k = .error .index := by
        unfold Component.getValue
        rw [pyIndex_natCast_ge _ _ (by omega)]; rfl
      have hentry : tensorEntry s k (a, 0) (b, 0) = .error .index := by
        unfold tensorEntry dictGet
        simp only [getComponentKey, hl, hv, bind, Except.bind]
      have hrow : tensorRow s k (a, 0) = .error .index := by
        unfold tensorRow
        rw [h2, hb, List.zipIdx_cons, List.mapM_cons, hentry]; rfl
      unfold Solution.getTensor
      rw [if_neg (by rw [h2, hc.n_out, hc.n_in]; omega), h2, ha, List.zipIdx_cons, List.mapM_cons, hrow]
      rfl

/-! ## C35 -/

/-- **C35**. Component keys are distinct for distinct pairs when all output names have the same length, or all input
names do (and no list repeats a name): the names can be read off the key. -/
theorem C35_equal_lengths (tf : TransFunc) (ho : tf.outChans.Nodup) (hi : tf.inChans.Nodup)
    (h : (∃ n, ∀ a ∈ tf.outChans, a.length = n) ∨ (∃ n, ∀ b ∈ tf.inChans, b.length = n)) : KeysDistinct tf := by
  intro o o' i i' a a' b b' ha ha' hb hb' hkey
  have hl : a.toList ++ b.toList = a'.toList ++ b'.toList := by
    have := congrArg String.toList hkey
    simpa [getComponentKey] using this
  have hab : a = a' ∧ b = b' := by
    have hsplit : a.toList = a'.toList ∧ b.toList = b'.toList := by
      rcases h with ⟨n, hn⟩ | ⟨n, hn⟩
      · exact List.append_inj hl (by
          have h1 := hn a (List.mem_of_getElem? ha)
          have h2 := hn a' (List.mem_of_getElem? ha')
          rw [String.length_toList, String.length_toList, h1, h2])
      · exact List.append_inj' hl (by
          have h1 := hn b (List.mem_of_getElem? hb)
          have h2 := hn b' (List.mem_of_getElem? hb')
          rw [String.length_toList, String.length_toList, h1, h2])
    exact ⟨String.toList_inj.mp hsplit.1, String.toList_inj.mp hsplit.2⟩
  obtain ⟨rfl, rfl⟩ := hab
  obtain ⟨ho1, ho2⟩ := List.getElem?_eq_some_iff.mp ha
  obtain ⟨ho3, ho4⟩ := List.getElem?_eq_some_iff.mp ha'
  obtain ⟨hi1, hi2⟩ := List.getElem?_eq_some_iff.mp hb
  obtain ⟨hi3, hi4⟩ := List.getElem?_eq_some_iff.mp hb'
  exact ⟨(List.Nodup.getElem_inj_iff ho).mp (ho2.trans ho4.symm), (List.Nodup.getElem_inj_iff hi).mp (hi2.trans hi4.symm)⟩

/-- **C35**. In general the component stored under a key is that of the last pair with that key, and the tensor shows it
for every pair of that key. -/
theorem C35_last_pair_wins (getCoef : List (List ℝ) → List ℝ → Except Err (List ℝ)) (r : RegInput) (hc : CountsOk r.tf)
    (coefs : ℕ → ℕ → List ℝ) (hr : Regresses getCoef r coefs) (o i : ℕ) (a b : String)
    (ho : r.tf.outChans[o]? = some a) (hi : r.tf.inChans[i]? = some b)
    (hlast : ∀ (o' i' : ℕ) (a' b' : String), r.tf.outChans[o']? = some a' → r.tf.inChans[i']? = some b' →
      a' ++ b' = a ++ b → o' < o ∨ o' = o ∧ i' ≤ i) :
    ∃ s, solveWith getCoef r = .ok s ∧
      s.getComponent (a ++ b) = .ok ((List.range r.freqs.length).map fun k => coefComplex (coefs k o) i) := by
  have htens : (List.range r.nFreqs).mapM (solveEval getCoef r) = .ok ((List.range r.freqs.length).map fun k =>
      (List.range r.tf.outChans.length).map fun o => (List.range r.tf.inChans.length).map fun i =>
        coefComplex (coefs k o) i) :=
    mapM_ok_map fun k hk' => solveEval_spec getCoef r hc coefs hr k (List.mem_range.mp hk')
  obtain ⟨comps, h1, h2⟩ := getSolutionOf_spec r.tf r.freqs r.freqs.length (fun k o i => coefComplex (coefs k o) i)
  refine ⟨⟨r.tf, r.freqs, comps⟩, ?_, ?_⟩
  · unfold solveWith
    rw [if_neg (by rw [hc.n_out, hc.n_in]; omega)]
    simp only [htens, bind, Except.bind]
    exact h1
  · -- the last pair with the key
    have hsorted : (chanPairs r.tf).Pairwise fun p q => p.1.2 < q.1.2 ∨ p.1.2 = q.1.2 ∧ p.2.2 < q.2.2 := by
      have hz : ∀ (l : List String), l.zipIdx.Pairwise fun p q => p.2 < q.2 := by
        intro l
        have : (l.zipIdx.map Prod.snd).Pairwise (· < ·) := by
          rw [List.zipIdx_map_snd, ← List.range_eq_range']; exact List.pairwise_lt_range
        rwa [List.pairwise_map] at this
      unfold chanPairs
      rw [List.pairwise_flatMap]
      refine ⟨?_, ?_⟩
      · intro p _
        rw [List.pairwise_map]
        exact (hz r.tf.inChans).imp fun {q q'} h => Or.inr ⟨rfl, h⟩
      · refine (hz r.tf.outChans).imp ?_
        intro p p' h q hq q' hq'
        simp only [List.mem_map] at hq hq'
        obtain ⟨_, -, rfl⟩ := hq
        obtain ⟨_, -, rfl⟩ := hq'
        exact Or.inl h
    have hmem : ((a, o), (b, i)) ∈ chanPairs r.tf := by rw [mem_chanPairs]; exact ⟨ho, hi⟩
    obtain ⟨pre, post, hsplit⟩ := List.append_of_mem hmem
    have hpost : ∀ p ∈ post, keyOf p ≠ getComponentKey a b := by
      intro p hp hkey
      have hp' : p ∈ chanPairs r.tf := by rw [hsplit]; simp [hp]
      rw [mem_chanPairs] at hp'
      have h3 := hlast p.1.2 p.2.2 p.1.1 p.2.1 hp'.1 hp'.2 hkey
      rw [hsplit, List.pairwise_append, List.pairwise_cons] at hsorted
      have h4 := hsorted.2.1.1 p hp
      simp only at h4
      omega
    unfold Solution.getComponent
    have : comps.lookup (a ++ b) = some (compOf r.freqs.length (fun k o i => coefComplex (coefs k o) i) o i) := by
      have hk2 := h2 (getComponentKey a b)
      rw [hsplit, List.reverse_append, List.reverse_cons, List.append_assoc, List.find?_append] at hk2
      have hnone : post.reverse.find? (fun p => keyOf p = getComponentKey a b) = none := by
        rw [List.find?_eq_none]
        intro p hp
        simpa using hpost p (List.mem_reverse.mp hp)
      rw [hnone, Option.none_or, List.singleton_append, List.find?_cons] at hk2
      simpa [keyOf, getComponentKey] using hk2
    simp only [this, compOf_toNumpy]

/-- channels whose names run together: `E` + `xH` and `Ex` + `H` -/
def collidingTf : TransFunc := ⟨"TransferFunction", "generic", ["E", "Ex"], ["xH", "H"], ["xH", "H"], 2, 2, 2⟩

theorem colliding_keys : ¬ KeysDistinct collidingTf := by
  intro h
  have := h 0 1 0 1 "E" "Ex" "xH" "H" rfl rfl rfl rfl (by decide)
  omega

/-- **C35**. Without equal lengths distinct pairs can share a key; whatever the coefficients, the component of the first
pair is then that of the other pair. -/
theorem C35_collision (getCoef : List (List ℝ) → List ℝ → Except Err (List ℝ)) (r : RegInput) (htf : r.tf = collidingTf)
    (coefs : ℕ → ℕ → List ℝ) (hr : Regresses getCoef r coefs) :
    ∃ s, solveWith getCoef r = .ok s ∧
      s.getComponent (getComponentKey "E" "xH") = .ok ((List.range r.freqs.length).map fun k => coefComplex (coefs k 1) 1) := by
  have hc : CountsOk r.tf := by rw [htf]; exact ⟨rfl, rfl⟩
  have key : getComponentKey "E" "xH" = "Ex" ++ "H" := by decide
  rw [key]
  refine C35_last_pair_wins getCoef r hc coefs hr 1 1 "Ex" "H" (by rw [htf]; rfl) (by rw [htf]; rfl) ?_
  intro o' i' a' b' ho hi _
  rw [htf] at ho hi
  have h1 : o' < 2 := (List.getElem?_eq_some_iff.mp ho).1
  have h2 : i' < 2 := (List.getElem?_eq_some_iff.mp hi).1
  omega

/-- the impedance tensor -/
def demoImpedance : TransFunc := ⟨"ImpedanceTensor", "default", ["Ex", "Ey"], ["Hx", "Hy"], ["Hx", "Hy"], 2, 2, 2⟩

theorem demoImpedance_keys : KeysDistinct demoImpedance :=
  C35_equal_lengths demoImpedance (by decide) (by decide) (Or.inl ⟨2, by decide⟩)

/-- One frequency, one window; the regression returns fixed coefficients. -/
example : ∃ s, solveWith (fun _ _ => .ok [1, 2, 3, 4]) ⟨demoImpedance, [8], [[("Ex", [0, 0]), ("Ey", [0, 0])]], [[[1, 0, 0, 0], [0, 1, 0, 0]]]⟩ = .ok s ∧
    s.getComponent "ExHy" = .ok [⟨3, 4⟩] ∧ s.getTensor 0 = .ok [[⟨1, 2⟩, ⟨3, 4⟩], [⟨1, 2⟩, ⟨3, 4⟩]] := by
  obtain ⟨s, h1, -, -, h2, h3, -⟩ := C34_solution (fun _ _ => .ok [1, 2, 3, 4])
    ⟨demoImpedance, [8], [[("Ex", [0, 0]), ("Ey", [0, 0])]], [[[1, 0, 0, 0], [0, 1, 0, 0]]]⟩ ⟨rfl, rfl⟩ demoImpedance_keys
    (fun _ _ => [1, 2, 3, 4]) (by
      intro k hk o name ho
      have hk0 : k = 0 := by simpa using hk
      subst hk0
      have ho2 : o < 2 := (List.getElem?_eq_some_iff.mp ho).1
      interval_cases o
      · have : name = "Ex" := by simpa [demoImpedance] using ho.symm
        subst this
        exact ⟨_, _, rfl, rfl, by simp [demoImpedance]⟩
      · have : name = "Ey" := by simpa [demoImpedance] using ho.symm
        subst this
        exact ⟨_, _, rfl, rfl, by simp [demoImpedance]⟩)
  refine ⟨s, h1, ?_, ?_⟩
  · have := h2 0 1 "Ex" "Hy" rfl rfl
    simpa [coefComplex] using this
  · have := h3 0 (by simp)
    simpa [coefComplex, demoImpedance, List.range_succ] using this

end Resistics
