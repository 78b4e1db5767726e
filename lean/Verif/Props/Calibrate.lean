import Verif.Model.Calibrate
import Verif.Lemmas.Except
import Verif.Lemmas.Interp
import Verif.Lemmas.Lists
import Verif.Props.Spectra
import Verif.Props.HistorySession

/-!
# Property C41: sensor calibration
-/

namespace Resistics

/-! ## Specification -/

/-- Specification: `y` is the value at `x` of the piecewise linear function through the points (given in increasing order
of their first components), constant to the left of the first and to the right of the last point. -/
inductive OnPolyline (pts : List (ℚ × ℚ)) (x y : ℚ) : Prop where
  | left (p : ℚ × ℚ) (h : pts.head? = some p) (hx : x ≤ p.1) (hy : y = p.2)
  | right (p : ℚ × ℚ) (h : pts.getLast? = some p) (hx : p.1 ≤ x) (hy : y = p.2)
  | between (i : ℕ) (p q : ℚ × ℚ) (hp : pts[i]? = some p) (hq : pts[i + 1]? = some q) (hx : p.1 ≤ x) (hx' : x ≤ q.1)
      (hy : y = p.2 + (q.2 - p.2) * ((x - p.1) / (q.1 - p.1)))

/-- Specification: the calibration table can be interpolated: columns of one length, not empty, frequencies strictly
increasing. -/
structure CalData.Table (c : CalData) : Prop where
  mag : c.magnitude.length = c.frequency.length
  phs : c.phase.length = c.frequency.length
  ne : c.frequency ≠ []
  inc : c.frequency.Pairwise (· < ·)

/-- Specification: the response of a calibrated sensor at a frequency. -/
def Response {W : Type} [Field W] (expj : ℚ → W) (c : CalData) (f : ℚ) (z : W) : Prop :=
  ∃ m p : ℚ, OnPolyline (c.frequency.zip c.magnitude) f m ∧ OnPolyline (c.frequency.zip c.phase) f p ∧
    z = (m : W) * expj p

/-- Specification: the arrays fit the metadata: every level has metadata and an array, every window has one row for each
channel, every row one value for each frequency. -/
structure SpecData.CalShaped {W : Type} (d : SpecData W) : Prop where
  keys : (d.data.map (·.1)).Nodup
  zero : (d.data.lookup 0).isSome = true
  level : ∀ k < d.md.nLevels, ∃ lm arr, d.md.levels[k]? = some lm ∧ (k, arr) ∈ d.data ∧
    ∀ win ∈ arr, win.length = d.md.chans.length ∧ ∀ row ∈ win, row.length = lm.freqs.length

/-! ## Interpolation -/

theorem getLast_append_singleton {α : Type} {l : List α} (h : l ≠ []) : ∃ m p, l = m ++ [p] :=
  ⟨l.dropLast, l.getLast h, (List.dropLast_append_getLast h).symm⟩

/-- Where a number lies in an increasing table. -/
theorem table_cases (pts : List (ℚ × ℚ)) (hne : pts ≠ []) (hinc : pts.Pairwise fun a b => a.1 < b.1) (x : ℚ) :
    (∃ p r, pts = p :: r ∧ x < p.1) ∨ (∃ l p, pts = l ++ [p] ∧ p.1 ≤ x) ∨
      ∃ l p q r, pts = l ++ p :: q :: r ∧ p.1 ≤ x ∧ x < q.1 := by
  induction pts with
  | nil => exact absurd rfl hne
  | cons p r ih =>
    by_cases hx : x < p.1
    · exact Or.inl ⟨p, r, rfl, hx⟩
    · right
      rw [not_lt] at hx
      cases r with
      | nil => exact Or.inl ⟨[], p, rfl, hx⟩
      | cons q r =>
        by_cases hq : x < q.1
        · exact Or.inr ⟨[], p, q, r, rfl, hx, hq⟩
        · rw [not_lt] at hq
          rcases ih (by simp) hinc.tail with ⟨a, b, hab, h⟩ | ⟨l, a, hl, h⟩ | ⟨l, a, b, s, hl, h1, h2⟩
          · cases hab
            exact absurd h (not_lt.2 hq)
          · exact Or.inl ⟨p :: l, a, by rw [hl]; rfl, h⟩
          · exact Or.inr ⟨p :: l, a, b, s, by rw [hl]; rfl, h1, h2⟩

theorem npInterp_polyline (pts : List (ℚ × ℚ)) (hne : pts ≠ []) (hinc : pts.Pairwise fun a b => a.1 < b.1) (x : ℚ) :
    ∃ y, npInterp pts x = .ok y ∧ OnPolyline pts x y := by
  rcases table_cases pts hne hinc x with ⟨p, r, rfl, h⟩ | ⟨l, p, rfl, h⟩ | ⟨l, p, q, r, rfl, h1, h2⟩
  · refine ⟨p.2, ?_, .left p rfl h.le rfl⟩
    exact npInterp_before p.1 p.2 r x h fun b hb => ((List.pairwise_cons.1 hinc).1 b hb).le
  · refine ⟨p.2, ?_, .right p (by simp) h rfl⟩
    have hlt := (List.pairwise_append.1 hinc).2.2
    exact npInterp_after l p.1 p.2 x h fun b hb => (hlt b hb p (by simp)).le.trans h
  · refine ⟨_, npInterp_between l r p.1 p.2 q.1 q.2 x h1 h2 ?_, .between l.length p q (by simp) ?_ h1 h2.le ?_⟩
    · have hlt := (List.pairwise_append.1 hinc).2.2
      exact fun b hb => (hlt b hb p (by simp)).le.trans h1
    · rw [List.getElem?_append_right (by omega)]
      simp
    · ring

theorem zip_inc {xs ys : List ℚ} (h : xs.Pairwise (· < ·)) : (xs.zip ys).Pairwise fun a b => a.1 < b.1 := by
  induction xs generalizing ys with
  | nil => simp
  | cons x xs ih =>
    cases ys with
    | nil => simp
    | cons y ys =>
      rw [List.zip_cons_cons, List.pairwise_cons]
      rw [List.pairwise_cons] at h
      exact ⟨fun q hq => h.1 _ (List.of_mem_zip hq).1, ih h.2⟩

/-- **C41 (the response)**: for a usable table, at every frequency there is exactly one response, and the calibrator
computes it: magnitude and phase interpolated linearly between the neighbouring table entries, held constant outside. -/
theorem C41_response_is_interpolated {W : Type} [Field W] (expj : ℚ → W) (c : CalData) (ht : c.Table) (f : ℚ) :
    ∃ z, calResponseAt expj c f = .ok z ∧ Response expj c f z := by
  have hz : ∀ ys : List ℚ, ys.length = c.frequency.length → c.frequency.zip ys ≠ [] := by
    intro ys hys h
    have := congrArg List.length h
    rw [List.length_zip, hys, Nat.min_self] at this
    exact ht.ne (List.length_eq_zero_iff.1 (by simpa using this))
  obtain ⟨m, hm, hm'⟩ := npInterp_polyline _ (hz _ ht.mag) (zip_inc ht.inc) f
  obtain ⟨p, hp, hp'⟩ := npInterp_polyline _ (hz _ ht.phs) (zip_inc ht.inc) f
  refine ⟨(m : W) * expj p, ?_, m, p, hm', hp', rfl⟩
  unfold calResponseAt calInterp
  rw [if_neg (by rw [ht.mag]; simp), if_neg (by rw [ht.phs]; simp), hm, hp]
  rfl

/-- What lies on the polyline is what the interpolation computes. -/
theorem polyline_npInterp (pts : List (ℚ × ℚ)) (hinc : pts.Pairwise fun a b => a.1 < b.1) (x y : ℚ) (h : OnPolyline pts x y) :
    npInterp pts x = .ok y := by
  cases h with
  | left p hp hx hy =>
    subst hy
    cases pts with
    | nil => cases hp
    | cons q r =>
      cases hp
      rcases lt_or_eq_of_le hx with h | h
      · exact npInterp_before p.1 p.2 r x h fun b hb => ((List.pairwise_cons.1 hinc).1 b hb).le
      · rw [h]
        exact npInterp_at [] r p.1 p.2 (by simp) fun b hb => (List.pairwise_cons.1 hinc).1 b hb
  | right p hp hx hy =>
    subst hy
    obtain ⟨l, rfl⟩ := List.getLast?_eq_some_iff.1 hp
    have hlt := (List.pairwise_append.1 hinc).2.2
    exact npInterp_after l p.1 p.2 x hx fun b hb => (hlt b hb p (by simp)).le.trans hx
  | between i p q hp hq hx hx' hy =>
    subst hy
    obtain ⟨hi, ep⟩ := List.getElem?_eq_some_iff.1 hp
    obtain ⟨hi', eq⟩ := List.getElem?_eq_some_iff.1 hq
    have hsplit : pts = pts.take i ++ p :: q :: pts.drop (i + 2) := by
      conv_lhs => rw [← List.take_append_drop i pts, ← List.getElem_cons_drop hi, ← List.getElem_cons_drop hi', ep, eq]
    rw [hsplit] at hinc ⊢
    obtain ⟨-, h2, h3⟩ := List.pairwise_append.1 hinc
    have hpq : p.1 < q.1 := (List.pairwise_cons.1 h2).1 q (by simp)
    rcases lt_or_eq_of_le hx' with h | h
    · rw [npInterp_between _ _ p.1 p.2 q.1 q.2 x hx h fun b hb => (h3 b hb p (by simp)).le.trans hx]
      congr 1
      ring
    · have e : pts.take i ++ p :: q :: pts.drop (i + 2) = (pts.take i ++ [p]) ++ q :: pts.drop (i + 2) := by simp
      rw [e, h, npInterp_at (pts.take i ++ [p]) (pts.drop (i + 2)) q.1 q.2]
      · have : q.1 - p.1 ≠ 0 := by linarith
        rw [div_self this]
        congr 1
        ring
      · intro b hb
        rcases List.mem_append.1 hb with hb | hb
        · exact (h3 b hb q (by simp)).le
        · rw [List.mem_singleton] at hb
          rw [hb]; exact hpq.le
      · exact (List.pairwise_cons.1 (List.pairwise_cons.1 h2).2).1

/-- **C41 (the response)**: there is no other response at a frequency. -/
theorem C41_response_unique {W : Type} [Field W] (expj : ℚ → W) (c : CalData) (ht : c.Table) (f : ℚ) (z z' : W)
    (h : Response expj c f z) (h' : Response expj c f z') : z = z' := by
  obtain ⟨m, p, hm, hp, rfl⟩ := h
  obtain ⟨m', p', hm', hp', rfl⟩ := h'
  have e1 := (polyline_npInterp _ (zip_inc ht.inc) _ _ hm).symm.trans (polyline_npInterp _ (zip_inc ht.inc) _ _ hm')
  have e2 := (polyline_npInterp _ (zip_inc ht.inc) _ _ hp).symm.trans (polyline_npInterp _ (zip_inc ht.inc) _ _ hp')
  injection e1 with e1
  injection e2 with e2
  rw [e1, e2]

/-- At the frequencies of the table the response is the table's. -/
theorem C41_response_at_table_entry {W : Type} [Field W] (expj : ℚ → W) (c : CalData) (ht : c.Table) (i : ℕ)
    (f m p : ℚ) (hf : c.frequency[i]? = some f) (hm : c.magnitude[i]? = some m) (hp : c.phase[i]? = some p) :
    calResponseAt expj c f = .ok ((m : W) * expj p) := by
  have key : ∀ (ys : List ℚ) (y : ℚ), ys.length = c.frequency.length → ys[i]? = some y →
      npInterp (c.frequency.zip ys) f = .ok y := by
    intro ys y hlen hy
    have hi : i < (c.frequency.zip ys).length := by
      rw [List.length_zip, hlen, Nat.min_self]
      exact (List.getElem?_eq_some_iff.1 hf).1
    have hget : (c.frequency.zip ys)[i] = (f, y) := by
      rw [List.getElem_zip]
      rw [(List.getElem?_eq_some_iff.1 hf).2, (List.getElem?_eq_some_iff.1 hy).2]
    have hsplit : c.frequency.zip ys = (c.frequency.zip ys).take i ++ (f, y) :: (c.frequency.zip ys).drop (i + 1) := by
      rw [← hget, List.getElem_cons_drop]
      exact (List.take_append_drop _ _).symm
    have hinc := zip_inc (ys := ys) ht.inc
    rw [hsplit] at hinc ⊢
    rw [List.pairwise_append, List.pairwise_cons] at hinc
    exact npInterp_at _ _ f y (fun q hq => (hinc.2.2 q hq (f, y) (by simp)).le) (fun q hq => hinc.2.1.1 q hq)
  unfold calResponseAt calInterp
  rw [if_neg (by rw [ht.mag]; simp), if_neg (by rw [ht.phs]; simp), key _ _ ht.mag hm, key _ _ ht.phs hp]
  rfl

/-! ## Which data -/

/-- **C41 (which data)**: the calibration data of a channel are those of the first reader in the list that raises nothing,
whatever the later ones would return; there are none exactly when all readers raise. -/
theorem C41_first_reader_that_succeeds (read : CalReader → String → Except Err CalData) (readers : List CalReader)
    (chan : String) :
    (∀ c, getCalData read readers chan = some c ↔ ∃ pre r post, readers = pre ++ r :: post ∧ read r chan = .ok c ∧
      ∀ r' ∈ pre, ∃ e, read r' chan = .error e) ∧
    (getCalData read readers chan = none ↔ ∀ r ∈ readers, ∃ e, read r chan = .error e) := by
  have hnone : ∀ r, (read r chan).toOption = none ↔ ∃ e, read r chan = .error e := by
    intro r
    cases read r chan with
    | error e => simp [Except.toOption]
    | ok a => simp [Except.toOption]
  have hsome : ∀ r c, (read r chan).toOption = some c ↔ read r chan = .ok c := by
    intro r c
    cases read r chan with
    | error e => simp [Except.toOption]
    | ok a => simp [Except.toOption]
  constructor
  · intro c
    unfold getCalData
    rw [List.findSome?_eq_some_iff]
    constructor
    · rintro ⟨pre, r, post, h1, h2, h3⟩
      exact ⟨pre, r, post, h1, (hsome r c).1 h2, fun r' hr' => (hnone r').1 (h3 r' hr')⟩
    · rintro ⟨pre, r, post, h1, h2, h3⟩
      exact ⟨pre, r, post, h1, (hsome r c).2 h2, fun r' hr' => (hnone r').2 (h3 r' hr')⟩
  · unfold getCalData
    rw [List.findSome?_eq_none_iff]
    exact ⟨fun h r hr => (hnone r).1 (h r hr), fun h r hr => (hnone r).2 (h r hr)⟩

/-! ## The run -/

section Run

variable {W : Type} [Field W]

/-- Division of one channel of a level. -/
def divLevel (tf : List W) (i : ℕ) (arr : SpecArr W) : SpecArr W :=
  arr.map fun win => win.set i (List.zipWith (· / ·) (win.getD i []) tf)

/-- The shape of the data of the levels, as `SpecData.Shaped`, together with the condition on single frequencies. -/
structure ShapedData (md : SpecMeta) (data : List (ℕ × SpecArr W)) : Prop where
  keys : (data.map (·.1)).Nodup
  level : ∀ k < md.nLevels, ∃ lm arr, md.levels[k]? = some lm ∧ (k, arr) ∈ data ∧
    (∀ win ∈ arr, win.length = md.chans.length ∧ ∀ row ∈ win, row.length = lm.freqs.length) ∧
    (lm.freqs.length = 1 → arr.length = 1)

theorem nodup_keys_unique {α β : Type} {l : List (α × β)} (h : (l.map (·.1)).Nodup) {k : α} {a b : β}
    (ha : (k, a) ∈ l) (hb : (k, b) ∈ l) : a = b := by
  have := List.inj_on_of_nodup_map h ha hb rfl
  simpa using this

theorem lookup_of_nodup {β : Type} {l : List (ℕ × β)} (h : (l.map (·.1)).Nodup) {k : ℕ} {a : β}
    (ha : (k, a) ∈ l) : l.lookup k = some a := by
  induction l with
  | nil => simp at ha
  | cons q l ih =>
    rw [List.map_cons, List.nodup_cons] at h
    obtain ⟨k', b⟩ := q
    rw [List.lookup_cons]
    rcases List.mem_cons.1 ha with he | he
    · cases he; simp
    · have hne : k ≠ k' := by
        rintro rfl
        exact h.1 (List.mem_map.2 ⟨_, he, rfl⟩)
      have : (k == k') = false := by simpa using hne
      rw [this]
      exact ih h.2 he

theorem calibrateWin_ok {tf : List W} {i : ℕ} {n : ℕ} {win : List (List W)} (hi : i < win.length)
    (hrow : ∀ row ∈ win, row.length = tf.length) (h1 : tf.length = 1 → n = 1) :
    calibrateWin tf (i : ℤ) n win = .ok (win.set i (List.zipWith (· / ·) (win.getD i []) tf)) := by
  have hr : (win[i]).length = tf.length := hrow _ (List.getElem_mem hi)
  unfold calibrateWin
  rw [pyIndex_natCast _ _ hi]
  simp only [bind, Except.bind]
  rw [if_neg (by rintro ⟨h, _⟩; exact h hr.symm), if_neg (by rintro ⟨h, h'⟩; exact h' (h1 (hr ▸ h)))]
  rw [if_pos hr.symm]
  simp only [Int.toNat_natCast, List.getD_eq_getElem?_getD, List.getElem?_eq_getElem hi, Option.getD_some]
  rfl

theorem calibrateLevel_ok {expj : ℚ → W} {c : CalData} {md : SpecMeta} {data : List (ℕ × SpecArr W)}
    (hs : ShapedData md data) {i k : ℕ} (hi : i < md.chans.length) (hk : k < md.nLevels) {lm : SpecLevelMeta}
    (hlm : md.levels[k]? = some lm) {tf : List W} (htf : calResponse expj c lm.freqs = .ok tf) :
    calibrateLevel expj c md.levels (i : ℤ) data k =
      .ok (data.map fun q => if q.1 = k then (q.1, divLevel tf i q.2) else q) := by
  obtain ⟨lm', arr, hlm', hmem, hsh, hone⟩ := hs.level k hk
  rw [hlm] at hlm'
  cases hlm'
  have htl : tf.length = lm.freqs.length := mapM_ok_length htf
  unfold calibrateLevel
  have hidx : pyIndex md.levels ((k : ℕ) : ℤ) = .ok lm := by
    have hkl := (List.getElem?_eq_some_iff.1 hlm).1
    rw [pyIndex_natCast _ _ hkl, (List.getElem?_eq_some_iff.1 hlm).2]
  have hget : dictGet data k = .ok arr := by
    unfold dictGet
    rw [lookup_of_nodup hs.keys hmem]
  have hmap : arr.mapM (calibrateWin tf (i : ℤ) arr.length) = .ok (divLevel tf i arr) := by
    unfold divLevel
    apply mapM_ok_map
    intro win hwin
    obtain ⟨h1, h2⟩ := hsh win hwin
    exact calibrateWin_ok (by rw [h1]; exact hi) (fun row hr => by rw [h2 row hr, htl])
      (fun h => hone (htl ▸ h))
  rw [hidx]
  simp only [bind, Except.bind, hget, htf, hmap]
  show Except.ok _ = _
  congr 1
  apply List.map_congr_left
  rintro ⟨k', b⟩ hq
  simp only
  split
  · rename_i h
    subst h
    rw [nodup_keys_unique hs.keys hq hmem]
  · rfl

theorem shaped_map {md : SpecMeta} {data : List (ℕ × SpecArr W)} (hs : ShapedData md data) (i : ℕ)
    (tf : ℕ → List W) (P : ℕ → Prop) [DecidablePred P]
    (htf : ∀ k lm, P k → md.levels[k]? = some lm → (tf k).length = lm.freqs.length) :
    ShapedData md (data.map fun q => if P q.1 then (q.1, divLevel (tf q.1) i q.2) else q) := by
  constructor
  · rw [List.map_map]
    have : ((fun x : ℕ × SpecArr W => x.1) ∘ fun q => if P q.1 then (q.1, divLevel (tf q.1) i q.2) else q) =
        fun x => x.1 := by
      funext q
      simp only [Function.comp]
      split <;> rfl
    rw [this]
    exact hs.keys
  · intro k hk
    obtain ⟨lm, arr, h1, h2, h3, h4⟩ := hs.level k hk
    by_cases hP : P k
    · refine ⟨lm, divLevel (tf k) i arr, h1, List.mem_map.2 ⟨_, h2, by simp [hP]⟩, ?_, ?_⟩
      · intro win hwin
        obtain ⟨w, hw, rfl⟩ := List.mem_map.1 hwin
        obtain ⟨h5, h6⟩ := h3 w hw
        refine ⟨by simpa using h5, ?_⟩
        intro row hrow
        by_cases hi : i < w.length
        · rcases List.mem_or_eq_of_mem_set hrow with h | rfl
          · exact h6 row h
          · rw [List.length_zipWith, List.getD_eq_getElem?_getD, List.getElem?_eq_getElem hi, Option.getD_some,
              h6 _ (List.getElem_mem hi), htf k lm hP h1, Nat.min_self]
        · rw [List.set_eq_of_length_le (by omega)] at hrow
          exact h6 row hrow
      · intro h
        unfold divLevel
        rw [List.length_map]
        exact h4 h
    · exact ⟨lm, arr, h1, List.mem_map.2 ⟨_, h2, by simp [hP]⟩, h3, h4⟩

theorem calibrateLevels_ok {expj : ℚ → W} {c : CalData} {md : SpecMeta} {data : List (ℕ × SpecArr W)}
    (hs : ShapedData md data) {i : ℕ} (hi : i < md.chans.length) {tf : ℕ → List W}
    (htf : ∀ k lm, k < md.nLevels → md.levels[k]? = some lm → calResponse expj c lm.freqs = .ok (tf k)) (n : ℕ)
    (hn : n ≤ md.nLevels) :
    (List.range n).foldlM (calibrateLevel expj c md.levels (i : ℤ)) data =
      .ok (data.map fun q => if q.1 < n then (q.1, divLevel (tf q.1) i q.2) else q) := by
  induction n with
  | zero => simp only [List.range_zero, List.foldlM_nil, Nat.not_lt_zero, if_false, List.map_id']; rfl
  | succ n ih =>
    rw [List.range_succ, List.foldlM_append, ih (by omega)]
    have hs' := shaped_map hs i tf (fun k => k < n) fun k lm hk hlm =>
      mapM_ok_length (htf k lm (by omega) hlm)
    obtain ⟨lm, _, hlm, _⟩ := hs.level n (by omega)
    show (List.foldlM (calibrateLevel expj c md.levels (i : ℤ)) _ [n] : Except Err (List (ℕ × SpecArr W))) = _
    rw [List.foldlM_cons, calibrateLevel_ok hs' hi (by omega) hlm (htf n lm (by omega) hlm)]
    show Except.ok _ = _
    congr 1
    rw [List.map_map]
    apply List.map_congr_left
    rintro ⟨k, b⟩ _
    simp only [Function.comp]
    by_cases h1 : k < n
    · simp only [h1, if_true]
      rw [if_neg (by omega), if_pos (by omega)]
    · simp only [h1, if_false]
      by_cases h2 : k = n
      · subst h2; simp
      · rw [if_neg h2, if_neg (by omega)]

/-- The response at the frequencies of a level. -/
def respOf (expj : ℚ → W) (md : SpecMeta) (c : CalData) (k : ℕ) : List W :=
  match md.levels[k]? with
  | some lm => (calResponse expj c lm.freqs).toOption.getD []
  | none => []

/-- A level after the calibration of one channel. -/
def stepLevel (expj : ℚ → W) (md : SpecMeta) (get : String → Option CalData) (k : ℕ) (arr : SpecArr W)
    (ch : String) : SpecArr W :=
  match get ch with
  | none => arr
  | some c => divLevel (respOf expj md c k) (md.chans.idxOf ch) arr

theorem table_response {expj : ℚ → W} {c : CalData} (ht : c.Table) (freqs : List ℚ) :
    ∃ tf, calResponse expj c freqs = .ok tf := by
  unfold calResponse
  refine ⟨freqs.map fun f => (calResponseAt expj c f).toOption.getD 0, mapM_ok_map fun f _ => ?_⟩
  obtain ⟨z, hz, -⟩ := C41_response_is_interpolated expj c ht f
  rw [hz]; rfl

theorem respOf_eq {expj : ℚ → W} {md : SpecMeta} {c : CalData} (ht : c.Table) {k : ℕ} {lm : SpecLevelMeta}
    (hlm : md.levels[k]? = some lm) : calResponse expj c lm.freqs = .ok (respOf expj md c k) := by
  obtain ⟨tf, htf⟩ := table_response (expj := expj) ht lm.freqs
  unfold respOf
  rw [hlm]
  simp only [htf]
  rfl

theorem listIndex_idxOf {l : List String} (hnd : l.Nodup) {c : String} (hc : c ∈ l) :
    listIndex l c = .ok ((l.idxOf c : ℕ) : ℤ) := by
  have hlt := List.idxOf_lt_length_of_mem hc
  have := listIndex_get l hnd (l.idxOf c) hlt
  rwa [List.getElem_idxOf hlt] at this

theorem calibrateChans_ok {expj : ℚ → W} {md : SpecMeta} (hnd : md.chans.Nodup) {get : String → Option CalData}
    (cs : List String) (hcs : ∀ c ∈ cs, c ∈ md.chans) (ht : ∀ ch ∈ cs, ∀ c, get ch = some c → c.Table)
    (data : List (ℕ × SpecArr W)) (hs : ShapedData md data) :
    cs.foldlM (calibrateChan expj md get) data = .ok (data.map fun q =>
      if q.1 < md.nLevels then (q.1, cs.foldl (stepLevel expj md get q.1) q.2) else q) := by
  induction cs generalizing data with
  | nil =>
    have : (fun q : ℕ × SpecArr W => if q.1 < md.nLevels then (q.1, q.2) else q) = fun q => q := by
      funext q; split <;> rfl
    simp only [List.foldlM_nil, List.foldl_nil, this, List.map_id']
    rfl
  | cons ch cs ih =>
    have hcs' : ∀ c ∈ cs, c ∈ md.chans := fun c hc => hcs c (by simp [hc])
    have ht' : ∀ ch ∈ cs, ∀ c, get ch = some c → c.Table := fun x hx => ht x (by simp [hx])
    rw [List.foldlM_cons]
    cases hget : get ch with
    | none =>
      have hstep : calibrateChan expj md get data ch = .ok data := by unfold calibrateChan; rw [hget]
      rw [hstep]
      show (cs.foldlM (calibrateChan expj md get) data : Except Err (List (ℕ × SpecArr W))) = _
      rw [ih hcs' ht' data hs]
      congr 1
      apply List.map_congr_left
      rintro ⟨k, b⟩ _
      simp only [List.foldl_cons]
      have : stepLevel expj md get k b ch = b := by unfold stepLevel; rw [hget]
      rw [this]
    | some c =>
      have htc := ht ch (by simp) c hget
      have hch := hcs ch (by simp)
      have hlt := List.idxOf_lt_length_of_mem hch
      have hstep : calibrateChan expj md get data ch = .ok (data.map fun q => if q.1 < md.nLevels then
          (q.1, divLevel (respOf expj md c q.1) (md.chans.idxOf ch) q.2) else q) := by
        unfold calibrateChan
        rw [hget]
        simp only [listIndex_idxOf hnd hch, bind, Except.bind]
        exact calibrateLevels_ok hs hlt (tf := respOf expj md c) (fun k lm _ hlm => respOf_eq htc hlm) md.nLevels
          (le_refl _)
      rw [hstep]
      show (cs.foldlM (calibrateChan expj md get) _ : Except Err (List (ℕ × SpecArr W))) = _
      have hs' := shaped_map hs (md.chans.idxOf ch) (respOf expj md c) (fun k => k < md.nLevels)
        fun k lm _ hlm => mapM_ok_length (respOf_eq htc hlm)
      rw [ih hcs' ht' _ hs']
      congr 1
      rw [List.map_map]
      apply List.map_congr_left
      rintro ⟨k, b⟩ _
      simp only [Function.comp, List.foldl_cons]
      by_cases hk : k < md.nLevels
      · simp only [hk, if_true]
        have : stepLevel expj md get k b ch = divLevel (respOf expj md c k) (md.chans.idxOf ch) b := by
          unfold stepLevel; rw [hget]
        rw [this]
      · simp only [hk, if_false]

/-- One row after calibration. -/
def calRow (expj : ℚ → W) (md : SpecMeta) (get : String → Option CalData) (cs : List String) (k : ℕ) (ch : String)
    (row : List W) : List W :=
  if ch ∈ cs then (match get ch with
    | none => row
    | some c => List.zipWith (· / ·) row (respOf expj md c k)) else row

theorem foldl_stepLevel {expj : ℚ → W} {md : SpecMeta} (hnd : md.chans.Nodup) {get : String → Option CalData}
    (cs : List String) (hcn : cs.Nodup) (hcs : ∀ c ∈ cs, c ∈ md.chans) (k : ℕ) (arr : SpecArr W) :
    (cs.foldl (stepLevel expj md get k) arr).length = arr.length ∧ ∀ (w : ℕ) (win : List (List W)),
      arr[w]? = some win → ∃ win', (cs.foldl (stepLevel expj md get k) arr)[w]? = some win' ∧
        win'.length = win.length ∧ ∀ (i : ℕ) (ch : String) (row : List W), md.chans[i]? = some ch →
          win[i]? = some row → win'[i]? = some (calRow expj md get cs k ch row) := by
  induction cs generalizing arr with
  | nil =>
    refine ⟨rfl, fun w win hw => ⟨win, hw, rfl, fun i ch row _ hr => ?_⟩⟩
    simpa [calRow] using hr
  | cons c0 cs ih =>
    rw [List.nodup_cons] at hcn
    have hcs' : ∀ c ∈ cs, c ∈ md.chans := fun c hc => hcs c (by simp [hc])
    rw [List.foldl_cons]
    obtain ⟨h1, h2⟩ := ih hcn.2 hcs' (stepLevel expj md get k arr c0)
    cases hget : get c0 with
    | none =>
      have hst : stepLevel expj md get k arr c0 = arr := by unfold stepLevel; rw [hget]
      rw [hst] at h1 h2 ⊢
      refine ⟨h1, fun w win hw => ?_⟩
      obtain ⟨win', h3, h4, h5⟩ := h2 w win hw
      refine ⟨win', h3, h4, fun i ch row hch hr => ?_⟩
      rw [h5 i ch row hch hr]
      congr 1
      unfold calRow
      by_cases he : ch = c0
      · subst he
        simp [hget, hcn.1]
      · simp [he]
    | some c =>
      have hst : stepLevel expj md get k arr c0 = divLevel (respOf expj md c k) (md.chans.idxOf c0) arr := by
        unfold stepLevel; rw [hget]
      rw [hst] at h1 h2 ⊢
      refine ⟨by rw [h1]; simp [divLevel], fun w win hw => ?_⟩
      have hw' : (divLevel (respOf expj md c k) (md.chans.idxOf c0) arr)[w]? =
          some (win.set (md.chans.idxOf c0) (List.zipWith (· / ·) (win.getD (md.chans.idxOf c0) [])
            (respOf expj md c k))) := by
        unfold divLevel
        rw [List.getElem?_map, hw]
        rfl
      obtain ⟨win', h3, h4, h5⟩ := h2 w _ hw'
      refine ⟨win', h3, by simpa using h4, fun i ch row hch hr => ?_⟩
      have hmem := hcs c0 (by simp)
      by_cases he : ch = c0
      · subst he
        have hi : md.chans.idxOf ch = i := by
          obtain ⟨hlt, hgi⟩ := List.getElem?_eq_some_iff.1 hch
          rw [← hgi]
          exact List.Nodup.idxOf_getElem hnd i hlt
        have hir : i < win.length := (List.getElem?_eq_some_iff.1 hr).1
        have hrow' : (win.set (md.chans.idxOf ch) (List.zipWith (· / ·) (win.getD (md.chans.idxOf ch) [])
            (respOf expj md c k)))[i]? = some (List.zipWith (· / ·) row (respOf expj md c k)) := by
          rw [hi, List.getElem?_set_self (by omega), List.getD_eq_getElem?_getD, hr]
          rfl
        rw [h5 i ch _ hch hrow']
        congr 1
        unfold calRow
        simp [hcn.1, hget]
      · have hi : md.chans.idxOf c0 ≠ i := by
          intro h
          subst h
          rw [List.getElem?_eq_getElem (List.idxOf_lt_length_of_mem hmem), List.getElem_idxOf] at hch
          exact he (Option.some.inj hch).symm
        have hrow' : (win.set (md.chans.idxOf c0) (List.zipWith (· / ·) (win.getD (md.chans.idxOf c0) [])
            (respOf expj md c k)))[i]? = some row := by
          rw [List.getElem?_set_ne hi, hr]
        rw [h5 i ch _ hch hrow']
        congr 1
        unfold calRow
        simp [he]

/-- **C41**: for data that fit their metadata, distinct channels, a selection without repetitions, and usable calibration
tables for the selected channels that have any (and, on levels of a single frequency, a single window; see
`C41_single_frequency_refused`), the calibrator succeeds.  The metadata get one history record and are otherwise
unchanged, the levels are the same in the same order, and each window has the same channels; the row of a channel that is
selected and has calibration data is divided, frequency by frequency, by the response of the sensor at that frequency;
the rows of all other channels, and levels beyond the number of levels, are unchanged. -/
theorem C41_calibrates_exactly_the_selected (expj : ℚ → W) (sel : Option (List String))
    (get : String → Option CalData) (d : SpecData W) (hs : d.CalShaped) (hnd : d.md.chans.Nodup)
    (hsel : ∀ l, sel = some l → l.Nodup)
    (ht : ∀ ch ∈ d.md.chans, (∀ l, sel = some l → ch ∈ l) → ∀ c, get ch = some c → c.Table)
    (hone : ∀ k < d.md.nLevels, ∀ lm arr, d.md.levels[k]? = some lm → (k, arr) ∈ d.data → lm.freqs.length = 1 →
      arr.length = 1) :
    ∃ out, sensorCalibrate expj sel get d = .ok out ∧
      out.md = { d.md with history := d.md.history ++ ["SensorCalibrator"] } ∧
      out.data.map (·.1) = d.data.map (·.1) ∧
      ∀ k arr, (k, arr) ∈ d.data → (d.md.nLevels ≤ k → (k, arr) ∈ out.data) ∧
        (∀ lm, k < d.md.nLevels → d.md.levels[k]? = some lm → ∃ arr', (k, arr') ∈ out.data ∧ arr'.length = arr.length ∧
          ∀ (w : ℕ) (win : List (List W)), arr[w]? = some win → ∃ win', arr'[w]? = some win' ∧
            win'.length = win.length ∧ ∀ (i : ℕ) (ch : String) (row : List W), d.md.chans[i]? = some ch →
              win[i]? = some row → ∃ row', win'[i]? = some row' ∧ row'.length = row.length ∧
                ((∀ c, (∀ l, sel = some l → ch ∈ l) → get ch = some c → ∀ (j : ℕ) (x : W) (f : ℚ), row[j]? = some x →
                  lm.freqs[j]? = some f → ∃ z, Response expj c f z ∧ row'[j]? = some (x / z)) ∧
                ((∃ l, sel = some l ∧ ch ∉ l) ∨ get ch = none → row' = row))) := by
  set cs := calChans sel d.md.chans with hcsdef
  have hcsmem : ∀ ch, ch ∈ cs ↔ ch ∈ d.md.chans ∧ ∀ l, sel = some l → ch ∈ l := by
    intro ch
    rw [hcsdef]
    unfold calChans
    cases sel with
    | none => simp
    | some l =>
      simp only [List.mem_filter, decide_eq_true_eq, Option.some.injEq]
      exact ⟨fun h => ⟨h.2, fun l' hl => hl ▸ h.1⟩, fun h => ⟨h.2 l rfl, h.1⟩⟩
  have hcn : cs.Nodup := by
    rw [hcsdef]
    unfold calChans
    cases hse : sel with
    | none => exact hnd
    | some l => exact (hsel l hse).filter _
  have hcs : ∀ c ∈ cs, c ∈ d.md.chans := fun c hc => ((hcsmem c).1 hc).1
  have htab : ∀ ch ∈ cs, ∀ c, get ch = some c → c.Table := fun ch hch c hc =>
    ht ch ((hcsmem ch).1 hch).1 ((hcsmem ch).1 hch).2 c hc
  have hshd : ShapedData d.md d.data := by
    refine ⟨hs.keys, fun k hk => ?_⟩
    obtain ⟨lm, arr, h1, h2, h3⟩ := hs.level k hk
    exact ⟨lm, arr, h1, h2, h3, hone k hk lm arr h1 h2⟩
  have hrun := calibrateChans_ok (expj := expj) hnd (get := get) cs hcs htab d.data hshd
  set data' := d.data.map fun q => if q.1 < d.md.nLevels then
    (q.1, cs.foldl (stepLevel expj d.md get q.1) q.2) else q with hdata'
  have hkeys : data'.map (·.1) = d.data.map (·.1) := by
    rw [hdata', List.map_map]
    apply List.map_congr_left
    intro q _
    simp only [Function.comp]
    split <;> rfl
  have h0 : (data'.lookup 0).isSome = true := by
    have : ∀ l : List (ℕ × SpecArr W), (l.lookup 0).isSome = true ↔ 0 ∈ l.map (·.1) := by
      intro l
      induction l with
      | nil => simp
      | cons q l ih =>
        rw [List.lookup_cons, List.map_cons, List.mem_cons]
        by_cases hq : 0 = q.1
        · have hb : ((0 : ℕ) == q.1) = true := by simpa using hq
          rw [hb]; simp [hq]
        · have hb : ((0 : ℕ) == q.1) = false := by simpa using hq
          rw [hb, ih]; simp [hq]
    rw [this, hkeys, ← this]
    exact hs.zero
  refine ⟨{ md := { d.md with history := d.md.history ++ ["SensorCalibrator"] }, data := data' }, ?_, rfl, hkeys, ?_⟩
  · unfold sensorCalibrate
    rw [hrun]
    show mkSpecData _ _ = _
    unfold mkSpecData dictGet
    cases hl : data'.lookup 0 with
    | none => rw [hl] at h0; cases h0
    | some x => rfl
  · intro k arr hmem
    refine ⟨fun hk => List.mem_map.2 ⟨_, hmem, by simp only; rw [if_neg (by omega)]⟩, ?_⟩
    intro lm hk hlm
    obtain ⟨hlen, hwin⟩ := foldl_stepLevel (expj := expj) hnd (get := get) cs hcn hcs k arr
    refine ⟨_, List.mem_map.2 ⟨_, hmem, by simp only; rw [if_pos hk]⟩, hlen, ?_⟩
    intro w win hw
    obtain ⟨win', h1, h2, h3⟩ := hwin w win hw
    refine ⟨win', h1, h2, ?_⟩
    intro i ch row hch hr
    have hchm : ch ∈ d.md.chans := List.mem_of_getElem? hch
    have hrl : row.length = lm.freqs.length := by
      obtain ⟨lm', arr', h4, h5, h6⟩ := hs.level k hk
      rw [hlm] at h4
      cases h4
      rw [nodup_keys_unique hs.keys h5 hmem] at h6
      exact (h6 win (List.mem_of_getElem? hw)).2 row (List.mem_of_getElem? hr)
    refine ⟨_, h3 i ch row hch hr, ?_, ?_, ?_⟩
    · unfold calRow
      split
      · rename_i hin
        cases hg : get ch with
        | none => rfl
        | some c =>
          simp only
          rw [List.length_zipWith, mapM_ok_length (respOf_eq (expj := expj) (htab ch hin c hg) hlm), hrl, Nat.min_self]
      · rfl
    · intro c hsel' hg j x f hx hf
      have hin : ch ∈ cs := (hcsmem ch).2 ⟨hchm, hsel'⟩
      have hresp := respOf_eq (expj := expj) (htab ch hin c hg) hlm
      obtain ⟨hjf, hf'⟩ := List.getElem?_eq_some_iff.1 hf
      have hjr : j < (respOf expj d.md c k).length := by rw [mapM_ok_length hresp]; exact hjf
      have hz := mapM_ok_getElem hresp j hjf hjr
      rw [hf'] at hz
      obtain ⟨z, hz1, hz2⟩ := C41_response_is_interpolated expj c (htab ch hin c hg) f
      rw [hz1] at hz
      cases hz
      refine ⟨_, hz2, ?_⟩
      unfold calRow
      rw [if_pos hin, hg]
      simp only
      rw [List.getElem?_zipWith, hx, List.getElem?_eq_getElem hjr]
    · intro hno
      unfold calRow
      rcases hno with ⟨l, hl, hnot⟩ | hg
      · rw [if_neg]
        intro hin
        exact hnot (((hcsmem ch).1 hin).2 l hl)
      · split
        · rw [hg]
        · rfl

/-- A fold whose steps keep an invariant or stop with `e`, one of which stops with `e`, stops with `e`. -/
theorem foldlM_refused {α σ : Type} {f : σ → α → Except Err σ} {e : Err} {Inv : σ → Prop} {l : List α}
    (hstep : ∀ x ∈ l, ∀ s, Inv s → f s x = .error e ∨ ∃ s', f s x = .ok s' ∧ Inv s')
    (hbad : ∃ x ∈ l, ∀ s, Inv s → f s x = .error e) (s : σ) (hs : Inv s) : l.foldlM f s = .error e := by
  induction l generalizing s with
  | nil => obtain ⟨x, hx, -⟩ := hbad; simp at hx
  | cons a l ih =>
    rw [List.foldlM_cons]
    rcases hstep a (by simp) s hs with h | ⟨s', h, hs'⟩
    · rw [h]; rfl
    · rw [h]
      show (l.foldlM f s' : Except Err σ) = _
      refine ih (fun x hx => hstep x (by simp [hx])) ?_ s' hs'
      obtain ⟨x, hx, hb⟩ := hbad
      rcases List.mem_cons.1 hx with rfl | hx
      · rw [hb s hs] at h; cases h
      · exact ⟨x, hx, hb⟩

/-- The shape of the data without the condition on single frequencies; level `k` has more than one window. -/
structure ShapedBut (md : SpecMeta) (k : ℕ) (data : List (ℕ × SpecArr W)) : Prop where
  keys : (data.map (·.1)).Nodup
  level : ∀ k < md.nLevels, ∃ lm arr, md.levels[k]? = some lm ∧ (k, arr) ∈ data ∧
    (∀ win ∈ arr, win.length = md.chans.length ∧ ∀ row ∈ win, row.length = lm.freqs.length)
  many : ∀ arr, (k, arr) ∈ data → 1 < arr.length

theorem calibrateWin_cases {tf : List W} {i : ℕ} {n : ℕ} {win : List (List W)} (hi : i < win.length)
    (hrow : ∀ row ∈ win, row.length = tf.length) :
    calibrateWin tf (i : ℤ) n win = .error .value ∨
      calibrateWin tf (i : ℤ) n win = .ok (win.set i (List.zipWith (· / ·) (win.getD i []) tf)) := by
  by_cases h1 : tf.length = 1 → n = 1
  · exact Or.inr (calibrateWin_ok hi hrow h1)
  · left
    push Not at h1
    have hr : (win[i]).length = tf.length := hrow _ (List.getElem_mem hi)
    unfold calibrateWin
    rw [pyIndex_natCast _ _ hi]
    simp only [bind, Except.bind]
    rw [if_neg (by rintro ⟨h, _⟩; exact h hr.symm), if_pos ⟨hr.trans h1.1, h1.2⟩]
    rfl

theorem calibrateWin_refused {tf : List W} {i : ℕ} {n : ℕ} {win : List (List W)} (hi : i < win.length)
    (hrow : ∀ row ∈ win, row.length = tf.length) (h1 : tf.length = 1) (hn : n ≠ 1) :
    calibrateWin tf (i : ℤ) n win = .error .value := by
  have hr : (win[i]).length = tf.length := hrow _ (List.getElem_mem hi)
  unfold calibrateWin
  rw [pyIndex_natCast _ _ hi]
  simp only [bind, Except.bind]
  rw [if_neg (by rintro ⟨h, _⟩; exact h hr.symm), if_pos ⟨hr.trans h1, hn⟩]
  rfl

theorem mapM_cases {α β : Type} {f : α → Except Err β} {g : α → β} {e : Err} {l : List α}
    (h : ∀ x ∈ l, f x = .error e ∨ f x = .ok (g x)) : l.mapM f = .error e ∨ l.mapM f = .ok (l.map g) := by
  induction l with
  | nil => exact Or.inr rfl
  | cons a l ih =>
    rw [List.mapM_cons]
    rcases h a (by simp) with ha | ha
    · left; rw [ha]; rfl
    · rcases ih (fun x hx => h x (by simp [hx])) with hl | hl
      · left; rw [ha, hl]; rfl
      · right; rw [ha, hl]; rfl

theorem calibrateLevel_step {expj : ℚ → W} {c : CalData} (ht : c.Table) {md : SpecMeta} {k₀ : ℕ}
    {data : List (ℕ × SpecArr W)} (hs : ShapedBut md k₀ data) {i k : ℕ} (hi : i < md.chans.length)
    (hk : k < md.nLevels) :
    (calibrateLevel expj c md.levels (i : ℤ) data k = .error .value ∨
      ∃ data', calibrateLevel expj c md.levels (i : ℤ) data k = .ok data' ∧ ShapedBut md k₀ data') ∧
    (k = k₀ → (∀ lm, md.levels[k]? = some lm → lm.freqs.length = 1) →
      calibrateLevel expj c md.levels (i : ℤ) data k = .error .value) := by
  obtain ⟨lm, arr, hlm, hmem, hsh⟩ := hs.level k hk
  obtain ⟨tf, htf⟩ := table_response (expj := expj) ht lm.freqs
  have htl : tf.length = lm.freqs.length := mapM_ok_length htf
  have hidx : pyIndex md.levels ((k : ℕ) : ℤ) = .ok lm := by
    have hkl := (List.getElem?_eq_some_iff.1 hlm).1
    rw [pyIndex_natCast _ _ hkl, (List.getElem?_eq_some_iff.1 hlm).2]
  have hget : dictGet data k = .ok arr := by
    unfold dictGet
    rw [lookup_of_nodup hs.keys hmem]
  constructor
  · have hmap := mapM_cases (f := calibrateWin tf (i : ℤ) arr.length) (e := .value)
      (g := fun win => win.set i (List.zipWith (· / ·) (win.getD i []) tf)) (l := arr)
      (fun win hwin => calibrateWin_cases (by rw [(hsh win hwin).1]; exact hi)
        (fun row hr => by rw [(hsh win hwin).2 row hr, htl]))
    unfold calibrateLevel
    rcases hmap with hmap | hmap
    · left
      rw [hidx]
      simp only [bind, Except.bind, hget, htf, hmap]
    · right
      refine ⟨data.map fun q => if q.1 = k then (q.1, divLevel tf i q.2) else q, ?_, ?_, ?_, ?_⟩
      · rw [hidx]
        simp only [bind, Except.bind, hget, htf, hmap]
        show Except.ok _ = _
        congr 1
        apply List.map_congr_left
        rintro ⟨k', b⟩ hq
        simp only
        split
        · rename_i h
          subst h
          rw [nodup_keys_unique hs.keys hq hmem]
          rfl
        · rfl
      · rw [List.map_map]
        have : ((fun x : ℕ × SpecArr W => x.1) ∘ fun q => if q.1 = k then (q.1, divLevel tf i q.2) else q) =
            fun x => x.1 := by
          funext q
          simp only [Function.comp]
          split <;> rfl
        rw [this]
        exact hs.keys
      · intro k' hk'
        obtain ⟨lm', arr', h1, h2, h3⟩ := hs.level k' hk'
        by_cases hkk : k' = k
        · subst hkk
          refine ⟨lm', divLevel tf i arr', h1, List.mem_map.2 ⟨_, h2, by simp⟩, ?_⟩
          intro win hwin
          obtain ⟨w, hw, rfl⟩ := List.mem_map.1 hwin
          obtain ⟨h5, h6⟩ := h3 w hw
          refine ⟨by simpa using h5, ?_⟩
          rw [hlm] at h1
          cases h1
          intro row hrow
          rcases List.mem_or_eq_of_mem_set hrow with h | rfl
          · exact h6 row h
          · have hiw : i < w.length := by omega
            rw [List.length_zipWith, List.getD_eq_getElem?_getD, List.getElem?_eq_getElem hiw, Option.getD_some,
              h6 _ (List.getElem_mem hiw), htl, Nat.min_self]
        · exact ⟨lm', arr', h1, List.mem_map.2 ⟨_, h2, by simp [hkk]⟩, h3⟩
      · intro arr' harr'
        obtain ⟨⟨k', b⟩, hb, he⟩ := List.mem_map.1 harr'
        simp only at he
        split at he
        · cases he
          unfold divLevel
          rw [List.length_map]
          exact hs.many _ hb
        · cases he
          exact hs.many _ hb
  · rintro rfl hone
    have h1 : tf.length = 1 := by rw [htl]; exact hone lm hlm
    have hlen := hs.many arr hmem
    have hmap : arr.mapM (calibrateWin tf (i : ℤ) arr.length) = .error .value := by
      cases harr : arr with
      | nil => rw [harr] at hlen; simp at hlen
      | cons win rest =>
        rw [List.mapM_cons]
        have hw : win ∈ arr := by rw [harr]; simp
        rw [calibrateWin_refused (by rw [(hsh win hw).1]; exact hi)
          (fun row hr => by rw [(hsh win hw).2 row hr, htl]) h1 (by rw [← harr]; omega)]
        rfl
    unfold calibrateLevel
    rw [hidx]
    simp only [bind, Except.bind, hget, htf, hmap]

/-- **C41 (limits)**: the condition on single frequencies is needed: data that fit their metadata but have a level of a
single frequency and more than one window are refused with a `ValueError` as soon as some selected channel has
calibration data. -/
theorem C41_single_frequency_refused (expj : ℚ → W) (sel : Option (List String)) (get : String → Option CalData)
    (d : SpecData W) (hs : d.CalShaped) (hnd : d.md.chans.Nodup)
    (ht : ∀ ch ∈ d.md.chans, (∀ l, sel = some l → ch ∈ l) → ∀ c, get ch = some c → c.Table)
    (ch : String) (hch : ch ∈ d.md.chans) (hsel : ∀ l, sel = some l → ch ∈ l) (hget : get ch ≠ none)
    (k : ℕ) (hk : k < d.md.nLevels) (lm : SpecLevelMeta) (arr : SpecArr W) (hlm : d.md.levels[k]? = some lm)
    (harr : (k, arr) ∈ d.data) (hone : lm.freqs.length = 1) (hmany : 1 < arr.length) :
    sensorCalibrate expj sel get d = .error .value := by
  have hcsmem : ∀ c, c ∈ calChans sel d.md.chans ↔ c ∈ d.md.chans ∧ ∀ l, sel = some l → c ∈ l := by
    intro c
    unfold calChans
    cases sel with
    | none => simp
    | some l =>
      simp only [List.mem_filter, decide_eq_true_eq, Option.some.injEq]
      exact ⟨fun h => ⟨h.2, fun l' hl => hl ▸ h.1⟩, fun h => ⟨h.2 l rfl, h.1⟩⟩
  have hrun : (calChans sel d.md.chans).foldlM (calibrateChan expj d.md get) d.data = .error .value := by
    refine foldlM_refused (Inv := ShapedBut d.md k) ?_ ⟨ch, (hcsmem ch).2 ⟨hch, hsel⟩, ?_⟩ d.data
      ⟨hs.keys, hs.level, fun a ha => by rwa [nodup_keys_unique hs.keys ha harr]⟩
    · intro x hx s hs'
      unfold calibrateChan
      cases hg : get x with
      | none => exact Or.inr ⟨s, rfl, hs'⟩
      | some c =>
        have hxm := (hcsmem x).1 hx
        have htx := ht x hxm.1 hxm.2 c hg
        simp only [listIndex_idxOf hnd hxm.1, bind, Except.bind]
        left
        refine foldlM_refused (Inv := ShapedBut d.md k)
          (fun j hj s hs => (calibrateLevel_step htx hs (List.idxOf_lt_length_of_mem hxm.1) (List.mem_range.1 hj)).1)
          ⟨k, List.mem_range.2 hk, fun s hs =>
            (calibrateLevel_step htx hs (List.idxOf_lt_length_of_mem hxm.1) hk).2 rfl ?_⟩ s hs'
        intro lm' hlm'
        rw [hlm] at hlm'
        cases hlm'
        exact hone
    · intro s hs'
      unfold calibrateChan
      cases hg : get ch with
      | none => exact absurd hg hget
      | some c =>
        have htx := ht ch hch hsel c hg
        simp only [listIndex_idxOf hnd hch, bind, Except.bind]
        refine foldlM_refused (Inv := ShapedBut d.md k)
          (fun j hj s hs => (calibrateLevel_step htx hs (List.idxOf_lt_length_of_mem hch) (List.mem_range.1 hj)).1)
          ⟨k, List.mem_range.2 hk, fun s hs =>
            (calibrateLevel_step htx hs (List.idxOf_lt_length_of_mem hch) hk).2 rfl ?_⟩ s hs'
        intro lm' hlm'
        rw [hlm] at hlm'
        cases hlm'
        exact hone
  unfold sensorCalibrate
  rw [hrun]
  rfl

/-- **C41 (the input)**: in any session, after any number of calibrations of any objects, every object made before is
exactly what it was: contents, history and data files. -/
theorem C41_input_unchanged (sp : SciPy) (s : Session W) (hs : s.Sound) (calls : List (ℕ × Option (List String)))
    (expj : ℚ → W) (get : String → Option CalData) (o : Obj W) (v : Value W) (hv : s.heap.read o = .ok v)
    (f : List (String × List String)) (hf : s.heap.filesOf o.md = .ok f) :
    (s.exec sp (calls.map fun c => (.spec "SensorCalibrator" (sensorCalibrate expj c.2 get), c.1))).heap.read o = .ok v ∧
    (s.exec sp (calls.map fun c => (.spec "SensorCalibrator" (sensorCalibrate expj c.2 get), c.1))).heap.filesOf o.md =
      .ok f := by
  refine C38_inputs_unchanged sp s hs _ ?_ o v hv f hf
  intro c hc
  obtain ⟨q, -, rfl⟩ := List.mem_map.1 hc
  refine ⟨?_, trivial⟩
  intro d out h
  unfold sensorCalibrate at h
  obtain ⟨data, -, h⟩ := except_bind_ok.1 h
  unfold mkSpecData at h
  obtain ⟨_, -, h⟩ := except_bind_ok.1 h
  cases h
  rfl

end Run

/-! ## File names -/

/-- **C41 (which file)**: a sensor or channel unknown to the metadata is a `KeyError`; a file that is not in the directory
is refused; otherwise the reader parses the file of that name and no other. -/
theorem C41_reads_the_named_file (toNum : String → Except Err ℚ) (deg : ℚ) (env env' : CalEnv) (r : CalReader)
    (chan sensor serial : String) (h : env.sensors chan = some (sensor, serial))
    (h' : env'.sensors chan = some (sensor, serial))
    (hf : env'.files (r.fileName sensor serial) = env.files (r.fileName sensor serial)) :
    r.run toNum deg env' chan = r.run toNum deg env chan ∧
    (env.files (r.fileName sensor serial) = none → r.run toNum deg env chan = .error .calFileNotFound) ∧
    ∀ f, env.files (r.fileName sensor serial) = some f → r.run toNum deg env chan = readCalFile toNum deg r.kind f := by
  unfold CalReader.run
  rw [h, h']
  simp only [hf]
  refine ⟨trivial, fun hn => by rw [hn], fun f hn => by rw [hn]⟩

/-- **C41 (which file)**: without metadata for the channel a `KeyError` is raised. -/
theorem C41_unknown_channel (toNum : String → Except Err ℚ) (deg : ℚ) (env : CalEnv) (r : CalReader) (chan : String)
    (h : env.sensors chan = none) : r.run toNum deg env chan = .error .key := by
  unfold CalReader.run; rw [h]

/-- Specification: a part of a file name pattern is text without a dollar sign or one of the three place holders. -/
inductive NamePart where
  | text (t : List Char)
  | sensor
  | serial
  | extension

/-- Specification: what is written in the pattern for a part. -/
def NamePart.pattern : NamePart → List Char
  | .text t => t
  | .sensor => "$sensor".toList
  | .serial => "$serial".toList
  | .extension => "$extension".toList

/-- Specification: what stands in the file name for a part; without an extension the place holder stays. -/
def NamePart.filled (sensor serial : String) (ext : Option String) : NamePart → List Char
  | .text t => t
  | .sensor => sensor.toList
  | .serial => serial.toList
  | .extension => (ext.getD "$extension").toList

theorem replaceChars_skip (pat rep a b : List Char) : replaceChars pat rep (a ++ b) a.length = replaceChars pat rep b 0 := by
  induction a with
  | nil => rfl
  | cons c a ih => simpa [replaceChars] using ih

theorem replaceChars_plain (p rep t rest : List Char) (ht : '$' ∉ t) :
    replaceChars ('$' :: p) rep (t ++ rest) 0 = t ++ replaceChars ('$' :: p) rep rest 0 := by
  induction t with
  | nil => rfl
  | cons c t ih =>
    have hc : c ≠ '$' := fun h => ht (by simp [h])
    have ht' : '$' ∉ t := fun h => ht (by simp [h])
    rw [List.cons_append, replaceChars, if_neg (by simp [List.isPrefixOf, hc.symm]), ih ht', List.cons_append]

theorem replaceChars_hit (p rep rest : List Char) :
    replaceChars ('$' :: p) rep ('$' :: p ++ rest) 0 = rep ++ replaceChars ('$' :: p) rep rest 0 := by
  rw [List.cons_append, replaceChars, if_pos (by
    rw [List.isPrefixOf_iff_prefix]; exact ⟨rest, by simp⟩)]
  simp only [List.length_cons, Nat.add_sub_cancel]
  rw [replaceChars_skip]

theorem replaceChars_miss (p rep q rest : List Char) (hq : '$' ∉ q) (hl : p.length ≤ q.length) (hp : ¬ p <+: q) :
    replaceChars ('$' :: p) rep ('$' :: q ++ rest) 0 = '$' :: q ++ replaceChars ('$' :: p) rep rest 0 := by
  have h : ¬ p <+: q ++ rest := fun h => hp (List.prefix_of_prefix_length_le h (List.prefix_append q rest) hl)
  rw [List.cons_append, replaceChars, if_neg (by
    rw [List.isPrefixOf_iff_prefix, List.cons_prefix_cons]; exact fun h' => h h'.2), replaceChars_plain _ _ _ _ hq,
    List.cons_append]

/-- **C41 (file names)**: the name of the calibration file is the pattern with the sensor, the serial number and the
extension of the reader in place of their place holders, wherever and however often these occur (none of the values
having a dollar sign itself). -/
theorem C41_file_name (r : CalReader) (parts : List NamePart) (sensor serial : String)
    (hpat : r.fileStr.toList = parts.flatMap NamePart.pattern) (htext : ∀ t, NamePart.text t ∈ parts → '$' ∉ t)
    (hs : '$' ∉ sensor.toList) (hn : '$' ∉ serial.toList) :
    (r.fileName sensor serial).toList = parts.flatMap (NamePart.filled sensor serial r.extension) := by
  have h1 : ∀ ps : List NamePart, (∀ t, NamePart.text t ∈ ps → '$' ∉ t) →
      replaceChars "$sensor".toList sensor.toList (ps.flatMap NamePart.pattern) 0 = ps.flatMap (fun
        | .text t => t | .sensor => sensor.toList | .serial => "$serial".toList | .extension => "$extension".toList) := by
    intro ps
    induction ps with
    | nil => intro _; rfl
    | cons q ps ih =>
      intro ht
      have ih := ih fun t h => ht t (by simp [h])
      rw [List.flatMap_cons, List.flatMap_cons, ← ih]
      cases q with
      | text t => exact replaceChars_plain _ _ _ _ (ht t (by simp))
      | sensor => exact replaceChars_hit _ _ _
      | serial => exact replaceChars_miss _ _ _ _ (by decide) (by decide) (by decide)
      | extension => exact replaceChars_miss _ _ _ _ (by decide) (by decide) (by decide)
  have h2 : ∀ ps : List NamePart, (∀ t, NamePart.text t ∈ ps → '$' ∉ t) →
      replaceChars "$serial".toList serial.toList (ps.flatMap (fun
        | .text t => t | .sensor => sensor.toList | .serial => "$serial".toList | .extension => "$extension".toList)) 0 =
        ps.flatMap (fun
        | .text t => t | .sensor => sensor.toList | .serial => serial.toList | .extension => "$extension".toList) := by
    intro ps
    induction ps with
    | nil => intro _; rfl
    | cons q ps ih =>
      intro ht
      have ih := ih fun t h => ht t (by simp [h])
      rw [List.flatMap_cons, List.flatMap_cons, ← ih]
      cases q with
      | text t => exact replaceChars_plain _ _ _ _ (ht t (by simp))
      | sensor => exact replaceChars_plain _ _ _ _ hs
      | serial => exact replaceChars_hit _ _ _
      | extension => exact replaceChars_miss _ _ _ _ (by decide) (by decide) (by decide)
  have h3 : ∀ (ps : List NamePart) (e : String), (∀ t, NamePart.text t ∈ ps → '$' ∉ t) →
      replaceChars "$extension".toList e.toList (ps.flatMap (fun
        | .text t => t | .sensor => sensor.toList | .serial => serial.toList | .extension => "$extension".toList)) 0 =
        ps.flatMap (fun
        | .text t => t | .sensor => sensor.toList | .serial => serial.toList | .extension => e.toList) := by
    intro ps e
    induction ps with
    | nil => intro _; rfl
    | cons q ps ih =>
      intro ht
      have ih := ih fun t h => ht t (by simp [h])
      rw [List.flatMap_cons, List.flatMap_cons, ← ih]
      cases q with
      | text t => exact replaceChars_plain _ _ _ _ (ht t (by simp))
      | sensor => exact replaceChars_plain _ _ _ _ hs
      | serial => exact replaceChars_plain _ _ _ _ hn
      | extension => exact replaceChars_hit _ _ _
  unfold CalReader.fileName pyReplace
  simp only [hpat, String.toList_ofList, h1 parts htext, h2 parts htext]
  cases r.extension with
  | none =>
    simp only [String.toList_ofList]
    congr 1
  | some e =>
    simp only [String.toList_ofList, h3 parts e htext]
    congr 1

/-- The examples of the documentation. -/
example : (CalReader.mk .json "IC_$sensor$extension" (some ".json")).fileName "example" "254" = "IC_example.json" := by
  decide +kernel

example : (CalReader.mk .json "$sensor_$serial$extension" (some ".json")).fileName "example" "254" =
    "example_254.json" := by decide +kernel

/-- Their patterns are of this form. -/
example : "$sensor_$serial$extension".toList =
    [NamePart.sensor, .text ['_'], .serial, .extension].flatMap NamePart.pattern ∧
    "IC_$sensor$extension".toList = [NamePart.text ['I', 'C', '_'], .sensor, .extension].flatMap NamePart.pattern := by
  decide +kernel

/-! ## A case with the hypotheses -/

/-- A table of two frequencies. -/
def demoCal : CalData where
  serial := "1"
  frequency := [1, 3]
  magnitude := [2, 4]
  phase := [0, 1]

example : demoCal.Table := ⟨rfl, rfl, by decide, by decide +kernel⟩

example : demoSpec.CalShaped ∧ demoSpec.md.chans.Nodup := by
  refine ⟨⟨by decide, by decide, ?_⟩, by decide⟩
  intro k hk
  have : k = 0 := by simp [demoSpec] at hk; exact hk
  subst this
  exact ⟨_, _, rfl, List.mem_singleton.2 rfl, by decide⟩

/-- Selected with calibration data: divided at the frequencies 0, 2, 4 by the magnitudes 2, 3, 4 (with a response that
does not depend on the phase). -/
example : sensorCalibrate (fun _ => (1 : ℚ)) none (fun _ => some demoCal) demoSpec =
    .ok ⟨{ demoSpec.md with history := ["SensorCalibrator"] }, [(0, [[[0, 10 / 3, 14 / 4]], [[1 / 2, 2 / 3, 3 / 4]]])]⟩ := by
  decide +kernel

/-- Not selected: unchanged. -/
example : sensorCalibrate (fun _ => (1 : ℚ)) (some ["Hx"]) (fun _ => some demoCal) demoSpec =
    .ok ⟨{ demoSpec.md with history := ["SensorCalibrator"] }, demoSpec.data⟩ := by decide +kernel

/-- The code divides twice by the response of a channel listed twice. -/
example : sensorCalibrate (fun _ => (1 : ℚ)) (some ["Ex", "Ex"]) (fun _ => some demoCal) demoSpec =
    .ok ⟨{ demoSpec.md with history := ["SensorCalibrator"] },
      [(0, [[[0, 10 / 9, 14 / 16]], [[1 / 4, 2 / 9, 3 / 16]]])]⟩ := by
  decide +kernel

end Resistics
