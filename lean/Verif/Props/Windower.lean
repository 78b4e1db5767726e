import Verif.Props.Window
import Verif.Props.Decimate

/-!
# Properties C12-C15: windowed data, window parameters, the target windower
-/

namespace Resistics

/-- Specification: decimated data whose arrays and metadata agree: one array per level with one row per channel
and one column per sample, and consistent level metadata. -/
structure DecData.Consistent {V : Type} (d : DecData V) : Prop where
  n_levels : d.md.levels.length = d.md.nLevels
  meta_ok : ∀ lm ∈ d.md.levels, lm.Consistent
  chans_pos : 1 ≤ d.md.chans.length
  array : ∀ (i : ℕ) (lm : LevelMeta), d.md.levels[i]? = some lm → ∃ rows, d.data.lookup i = some rows ∧
    rows.length = d.md.chans.length ∧ ∀ row ∈ rows, (row.length : ℤ) = lm.nSamples

/-- Specification: the samples of the window starting at sample `j`: `w` consecutive samples of every channel. -/
def windowAt {V : Type} (rows : List (List V)) (j w : ℤ) : List (List V) :=
  rows.map fun row => (row.drop j.toNat).take w.toNat

/-! ### slicing a view with a step -/

theorem ceil_div_step (m inc : ℕ) (hinc : 0 < inc) : ((m * inc + 1) + inc - 1) / inc = m + 1 := by
  have : (m * inc + 1) + inc - 1 = (m + 1) * inc := by rw [Nat.add_mul]; omega
  rw [this, Nat.mul_div_cancel _ hinc]

theorem pySliceStep_eq {α : Type _} (l : List α) (F : ℤ) (m inc : ℕ) (hF : 0 ≤ F) (hinc : 0 < inc)
    (h : F + m * inc < l.length) :
    ∃ s, pySliceStep l F (F + m * inc + 1) inc = s ∧ s.length = m + 1 ∧
      ∀ k, k ≤ m → s[k]? = l[F.toNat + k * inc]? := by
  have hb : (0 : ℤ) ≤ m * inc := by positivity
  have hs := pySlice_eq l hF (b := F + m * inc + 1) (by omega) (by omega)
  have hlen : (pySlice l F (F + m * inc + 1)).length = m * inc + 1 := by
    have := pySlice_length l hF (b := F + m * inc + 1) (by omega) (by omega)
    have e : (((m * inc : ℕ) : ℤ)) = (m : ℤ) * inc := by push_cast; ring
    omega
  have hget : ∀ k, k ≤ m → (pySlice l F (F + m * inc + 1))[k * inc]? = l[F.toNat + k * inc]? := by
    intro k hk
    have hle : k * inc ≤ m * inc := Nat.mul_le_mul_right _ hk
    have hlen' := hlen
    rw [hs] at hlen' ⊢
    rw [List.getElem?_take_of_lt, List.getElem?_drop]
    have e : (((m * inc : ℕ) : ℤ)) = (m : ℤ) * inc := by push_cast; ring
    omega
  have hform : pySliceStep l F (F + m * inc + 1) inc
      = (List.range (m + 1)).filterMap fun k => (pySlice l F (F + m * inc + 1))[k * inc]? := by
    unfold pySliceStep
    simp only [hlen, ceil_div_step m inc hinc]
  have hmap : pySliceStep l F (F + m * inc + 1) inc
      = (List.range (m + 1)).pmap (fun k hk => l[F.toNat + k * inc]'hk) (by
          intro k hk
          rw [List.mem_range] at hk
          have hle : k * inc ≤ m * inc := Nat.mul_le_mul_right _ (by omega)
          have e : (((m * inc : ℕ) : ℤ)) = (m : ℤ) * inc := by push_cast; ring
          omega) := by
    rw [hform]
    have : ∀ (r : List ℕ) (hr : ∀ k ∈ r, k ≤ m) (hr' : ∀ k ∈ r, F.toNat + k * inc < l.length),
        r.filterMap (fun k => (pySlice l F (F + m * inc + 1))[k * inc]?)
          = r.pmap (fun k hk => l[F.toNat + k * inc]'hk) hr' := by
      intro r
      induction r with
      | nil => intros; rfl
      | cons a r ih =>
        intro h1 h2
        have ha : (pySlice l F (F + m * inc + 1))[a * inc]? = some (l[F.toNat + a * inc]'(h2 a (by simp))) := by
          rw [hget a (h1 a (by simp)), List.getElem?_eq_getElem]
        simp only [List.filterMap_cons, ha, List.pmap_cons]
        rw [ih (fun k hk => h1 k (by simp [hk]))]
    exact this _ (fun k hk => by rw [List.mem_range] at hk; omega) _
  refine ⟨_, rfl, by rw [hmap]; simp, ?_⟩
  intro k hk
  have hlt : F.toNat + k * inc < l.length := by
    have hle : k * inc ≤ m * inc := Nat.mul_le_mul_right _ hk
    have e : (((m * inc : ℕ) : ℤ)) = (m : ℤ) * inc := by push_cast; ring
    omega
  rw [hmap, List.getElem?_eq_getElem hlt, List.getElem?_eq_getElem (by simp; omega)]
  simp

theorem slidingWindows_getElem? {V : Type} (rows : List (List V)) (w j : ℕ) (h : j + w ≤ shape1 rows) :
    (slidingWindows rows w)[j]? = some (windowAt rows j w) := by
  unfold slidingWindows windowAt
  rw [List.getElem?_map, List.getElem?_range (by omega)]
  simp

/-- a window table whose rows lie inside the data, in terms of its first row -/
theorem table_rows {ref : ℚ} {md : LevelMeta} {w o : ℤ} {table : List WinRow} (hc : md.Consistent) (ho : o < w)
    (hw : 1 ≤ w) (h : getWinTable ref md w o = .ok table) (first last : WinRow)
    (hf : table.head? = some first) (hl : table.getLast? = some last) :
    0 ≤ first.fromSample ∧ last.fromSample = first.fromSample + (table.length - 1 : ℕ) * (w - o) ∧
    last.fromSample + w ≤ md.nSamples ∧
    ∀ k (hk : k < table.length), table[k].fromSample = first.fromSample + k * (w - o) := by
  obtain ⟨f, l, -, -, -, hrows⟩ := getWinTable_ok hc.fs_pos.ne' h
  have hin := C07_windows_inside md hc ref w o ho hw table h
  have hpos : 0 < table.length := by
    cases table with
    | nil => simp at hf
    | cons a t => simp
  have hf0 : first = table[0] := by
    rw [List.head?_eq_getElem?, List.getElem?_eq_getElem hpos] at hf
    exact (Option.some.inj hf).symm
  have hl0 : last = table[table.length - 1] := by
    rw [List.getLast?_eq_getElem?, List.getElem?_eq_getElem (by omega)] at hl
    exact (Option.some.inj hl).symm
  have hk : ∀ k (hk : k < table.length), table[k].fromSample = first.fromSample + k * (w - o) := by
    intro k hk
    rw [hf0, (hrows k hk).2.2.1, (hrows 0 hpos).2.2.1]
    push_cast; ring
  have h1 := hin first (by rw [hf0]; exact List.getElem_mem _)
  have h2 := hin last (by rw [hl0]; exact List.getElem_mem _)
  refine ⟨h1.1, ?_, by omega, hk⟩
  rw [hl0]
  have := hk (table.length - 1) (by omega)
  exact this

theorem shape1_cols {V : Type} {rows : List (List V)} {n : ℤ} (h : ∀ row ∈ rows, (row.length : ℤ) = n)
    (hne : 1 ≤ rows.length) : (shape1 rows : ℤ) = n := by
  cases rows with
  | nil => simp at hne
  | cons a t => simpa [shape1] using h a (by simp)

/-- what `_get_level_data` is given in a windower run on consistent data -/
theorem getLevelData_eq {V : Type} {ref : ℚ} {md : LevelMeta} {w o : ℤ} {table : List WinRow}
    {rows : List (List V)} {c : ℕ} (hc : md.Consistent) (ho : o < w) (hw : 1 ≤ w)
    (h : getWinTable ref md w o = .ok table) (hne : table ≠ []) (hc1 : 1 ≤ c) (hrl : rows.length = c)
    (hrows : ∀ row ∈ rows, (row.length : ℤ) = md.nSamples) :
    ∃ F : ℤ, 0 ≤ F ∧ F + (table.length - 1 : ℕ) * (w - o) + w ≤ md.nSamples ∧
      (∀ k (hk : k < table.length), table[k].fromSample = F + k * (w - o)) ∧
      getLevelData rows table c w o =
        (squeezeView (slidingWindows rows w.toNat) c w.toNat).slice F
          (F + (table.length - 1 : ℕ) * ((w - o).toNat : ℕ) + 1) (w - o).toNat := by
  obtain ⟨first, hf⟩ : ∃ r, table.head? = some r := by
    cases table with
    | nil => exact absurd rfl hne
    | cons a t => exact ⟨a, rfl⟩
  obtain ⟨last, hl⟩ : ∃ r, table.getLast? = some r := by
    cases hh : table.getLast? with
    | none => rw [List.getLast?_eq_none_iff] at hh; exact absurd hh hne
    | some r => exact ⟨r, rfl⟩
  obtain ⟨h1, h2, h3, h4⟩ := table_rows hc ho hw h first last hf hl
  have hs := shape1_cols hrows (by omega)
  have hm : (0 : ℤ) ≤ (table.length - 1 : ℕ) * (w - o) := mul_nonneg (by omega) (by omega)
  refine ⟨first.fromSample, h1, by omega, h4, ?_⟩
  unfold getLevelData
  rw [hf, hl]
  simp only
  rw [if_neg (by rw [hrl, hs]; omega), if_neg (by omega), h2]
  congr 3
  rw [Int.toNat_of_nonneg (by omega)]

/-- the array of a level has one entry per window whatever the shape. -/
theorem getLevelData_shape0 {V : Type} {ref : ℚ} {md : LevelMeta} {w o : ℤ} {table : List WinRow}
    {rows : List (List V)} {c : ℕ} (hc : md.Consistent) (ho : o < w) (ho1 : 1 ≤ o)
    (h : getWinTable ref md w o = .ok table) (hne : table ≠ []) (hc1 : 1 ≤ c) (hrl : rows.length = c)
    (hrows : ∀ row ∈ rows, (row.length : ℤ) = md.nSamples) :
    ∃ arr, getLevelData rows table c w o = .ok arr ∧ arr.shape0 = table.length := by
  obtain ⟨F, h1, h2, -, h4⟩ := getLevelData_eq hc ho (by omega) h hne hc1 hrl hrows
  have hs := shape1_cols hrows (by omega)
  have hpos : 0 < table.length := List.length_pos_iff.mpr hne
  have hinc : 0 < (w - o).toNat := by omega
  have hincZ : (((w - o).toNat : ℕ) : ℤ) = w - o := Int.toNat_of_nonneg (by omega)
  have hm : (0 : ℤ) ≤ (table.length - 1 : ℕ) * (w - o) := mul_nonneg (by omega) (by omega)
  have hlenW : (slidingWindows rows w.toNat).length = shape1 rows + 1 - w.toNat := by simp [slidingWindows]
  have hlt : F + (table.length - 1 : ℕ) * ((w - o).toNat : ℕ) < (slidingWindows rows w.toNat).length := by
    rw [hlenW, hincZ]; omega
  have hw1 : w.toNat ≠ 1 := by omega
  rw [h4]
  unfold squeezeView
  by_cases hone : (slidingWindows rows w.toNat).length = 1
  · -- one window in all
    have hF : F = 0 := by rw [hone, hincZ] at hlt; omega
    have hT : table.length = 1 := by
      rw [hone, hincZ] at hlt
      by_contra hT
      have : (1 : ℤ) * 1 ≤ (table.length - 1 : ℕ) * (w - o) := mul_le_mul (by omega) (by omega) (by omega) (by omega)
      omega
    obtain ⟨win, hwin⟩ := List.length_eq_one_iff.mp hone
    have hwin' : win = windowAt rows 0 w.toNat := by
      have := slidingWindows_getElem? rows w.toNat 0 (by omega)
      rw [hwin] at this
      exact Option.some.inj this
    have hwl : win.length = c := by rw [hwin']; simp [windowAt, hrl]
    rw [if_pos hone, hF, hT]
    have hst : ∀ {α : Type} (l : List α), 0 < l.length →
        (pySliceStep l 0 (0 + ((1 - 1 : ℕ) : ℤ) * ((w - o).toNat : ℕ) + 1) (w - o).toNat).length = 1 := by
      intro α l hl
      obtain ⟨s, e1, e2, -⟩ := pySliceStep_eq l 0 (1 - 1) (w - o).toNat (by omega) hinc (by simpa using hl)
      rw [e1, e2]
    rw [hwin]
    by_cases hc1 : c = 1
    · rw [if_pos hc1, if_neg hw1]
      refine ⟨_, rfl, ?_⟩
      apply hst
      have : win.length = 1 := by omega
      obtain ⟨row, hrow⟩ := List.length_eq_one_iff.mp this
      have hr : row.length = w.toNat := by
        have hmem : row ∈ windowAt rows 0 w.toNat := by rw [← hwin', hrow]; simp
        simp only [windowAt, List.mem_map] at hmem
        obtain ⟨r0, hr0, rfl⟩ := hmem
        have := hrows r0 hr0
        simp; omega
      simp [hrow, hr]; omega
    · rw [if_neg hc1, if_neg hw1]
      refine ⟨_, rfl, ?_⟩
      apply hst
      simp; omega
  · rw [if_neg hone]
    by_cases hc1 : c = 1
    · rw [if_pos hc1, if_neg hw1]
      refine ⟨_, rfl, ?_⟩
      have hfl : (slidingWindows rows w.toNat).flatten.length = (slidingWindows rows w.toNat).length := by
        have : rows.length = 1 := by omega
        obtain ⟨row, hrow⟩ := List.length_eq_one_iff.mp this
        simp [slidingWindows, hrow, List.length_flatten, Function.comp_def]
      obtain ⟨s, e1, e2, -⟩ := pySliceStep_eq (slidingWindows rows w.toNat).flatten F (table.length - 1) (w - o).toNat
        h1 hinc (by rw [hfl]; exact hlt)
      show (pySliceStep _ _ _ _).length = _
      rw [e1, e2]; omega
    · rw [if_neg hc1, if_neg hw1]
      refine ⟨_, rfl, ?_⟩
      obtain ⟨s, e1, e2, -⟩ := pySliceStep_eq (slidingWindows rows w.toNat) F (table.length - 1) (w - o).toNat
        h1 hinc hlt
      show (pySliceStep _ _ _ _).length = _
      rw [e1, e2]; omega

/-- with two or more channels and two or more windows, every window holds the samples of its row in the table -/
theorem getLevelData_windows {V : Type} {ref : ℚ} {md : LevelMeta} {w o : ℤ} {table : List WinRow}
    {rows : List (List V)} {c : ℕ} (hc : md.Consistent) (ho : o < w) (ho1 : 1 ≤ o)
    (h : getWinTable ref md w o = .ok table) (h2 : 2 ≤ table.length) (hc2 : 2 ≤ c) (hrl : rows.length = c)
    (hrows : ∀ row ∈ rows, (row.length : ℤ) = md.nSamples) :
    getLevelData rows table c w o = .ok (.d3 (table.map fun r => windowAt rows r.fromSample w)) := by
  have hne : table ≠ [] := by rintro rfl; simp at h2
  obtain ⟨F, h1, h3, h4, h5⟩ := getLevelData_eq hc ho (by omega) h hne (by omega) hrl hrows
  have hs := shape1_cols hrows (by omega)
  have hinc : 0 < (w - o).toNat := by omega
  have hincZ : (((w - o).toNat : ℕ) : ℤ) = w - o := Int.toNat_of_nonneg (by omega)
  have hm : (1 : ℤ) * 1 ≤ (table.length - 1 : ℕ) * (w - o) := mul_le_mul (by omega) (by omega) (by omega) (by omega)
  have hlenW : (slidingWindows rows w.toNat).length = shape1 rows + 1 - w.toNat := by simp [slidingWindows]
  have hlt : F + (table.length - 1 : ℕ) * ((w - o).toNat : ℕ) < (slidingWindows rows w.toNat).length := by
    rw [hlenW, hincZ]; omega
  rw [h5]
  unfold squeezeView
  rw [if_neg (by omega), if_neg (by omega), if_neg (by omega)]
  obtain ⟨s, e1, e2, e3⟩ := pySliceStep_eq (slidingWindows rows w.toNat) F (table.length - 1) (w - o).toNat
        h1 hinc hlt
  show Except.ok (WinArr.d3 (pySliceStep _ _ _ _)) = _
  rw [e1]
  congr 2
  apply List.ext_getElem?
  intro k
  by_cases hk : k < table.length
  · rw [e3 k (by omega), List.getElem?_map, List.getElem?_eq_getElem hk]
    have hle : ((k * (w - o).toNat : ℕ) : ℤ) ≤ (table.length - 1 : ℕ) * (w - o) := by
      push_cast [hincZ]
      exact mul_le_mul_of_nonneg_right (by omega) (by omega)
    rw [slidingWindows_getElem? rows w.toNat _ (by omega)]
    have e : ((F.toNat + k * (w - o).toNat : ℕ) : ℤ) = table[k].fromSample := by
      rw [h4 k hk]; push_cast [hincZ]; omega
    simp only [Option.map_some]
    congr 1
    rw [e]
    simp only [windowAt, Int.toNat_natCast]
  · rw [List.getElem?_eq_none (by omega), List.getElem?_eq_none (by simp; omega)]

/-! ### the loop -/

/-- Specification: `(w, o, table)` is the windowing of level `i` of the data for the sizes given by `sizes`. -/
def LevelWindowing {V : Type} (sizes : ℕ → LevelMeta → Except Err (ℤ × ℤ)) (ref : DateTime) (dec : DecData V)
    (i : ℕ) (w o : ℤ) (table : List WinRow) : Prop :=
  ∃ lm, dec.md.levels[i]? = some lm ∧ sizes i lm = .ok (w, o) ∧ getWinTable ref lm w o = .ok table

theorem uniqueOffsets_table {table : List WinRow} (off : ℤ) (hu : uniqueOffsets table = [off]) :
    ∀ r ∈ table, r.globalWin = r.localWin + off := by
  intro r hr
  have : r.globalWin - (r.localWin : ℤ) ∈ uniqueOffsets table := by
    unfold uniqueOffsets
    rw [List.mem_dedup]
    exact List.mem_map.mpr ⟨r, hr, rfl⟩
  rw [hu, List.mem_singleton] at this
  omega

theorem uniqueOffsets_ok {ref : ℚ} {md : LevelMeta} {w o : ℤ} {table : List WinRow} (hfs : md.fs ≠ 0)
    (h : getWinTable ref md w o = .ok table) (hne : table ≠ []) : ∃ off, uniqueOffsets table = [off] := by
  obtain ⟨f, l, -, -, -, hrows⟩ := getWinTable_ok hfs h
  refine ⟨f, ?_⟩
  unfold uniqueOffsets
  have : (table.map fun r => r.globalWin - (r.localWin : ℤ)) = List.replicate table.length f := by
    apply List.ext_getElem
    · simp
    · intro k h1 h2
      simp only [List.length_map] at h1
      simp [(hrows k h1).1, (hrows k h1).2.1]
  rw [this, List.replicate_dedup]
  have := List.length_pos_iff.mpr hne
  omega

/-- the loop over levels -/
theorem windowLoop_spec {V : Type} (checked : Bool) (sizes : ℕ → LevelMeta → Except Err (ℤ × ℤ))
    (ref : DateTime) (minN : ℤ) (dec : DecData V) (m a : ℕ) (acc acc' : WinAcc V)
    (h : windowLoop checked sizes ref minN dec (List.range' a m) acc = .ok acc') :
    ∃ lv : List (ℤ × ℤ × List WinRow × WinArr V × WinLevelMeta), lv.length ≤ m ∧
      acc'.data = acc.data ++ (lv.zipIdx a).map (fun q => (q.2, q.1.2.2.2.1)) ∧
      acc'.levels = acc.levels ++ lv.map (fun q => q.2.2.2.2) ∧
      (∀ i (hi : i < lv.length), ∃ lm raw, dec.md.levels[a + i]? = some lm ∧
        sizes (a + i) lm = .ok (lv[i].1, lv[i].2.1) ∧
        getWinTable ref lm lv[i].1 lv[i].2.1 = .ok lv[i].2.2.1 ∧
        minN ≤ (lv[i].2.2.1.length : ℤ) ∧ dec.getLevel (a + i : ℕ) = .ok raw ∧
        getLevelData raw lv[i].2.2.1 dec.md.chans.length lv[i].1 lv[i].2.1 = .ok lv[i].2.2.2.1 ∧
        getLevelMetadata lm lv[i].2.2.1 lv[i].1 lv[i].2.1 = .ok lv[i].2.2.2.2) ∧
      (lv.length = m ∨ ∃ w o table, LevelWindowing sizes ref dec (a + lv.length) w o table ∧
        (table.length : ℤ) < minN) := by
  induction m generalizing a acc with
  | zero =>
    simp only [List.range'_zero, windowLoop, Except.ok.injEq] at h
    subst h
    exact ⟨[], by simp, by simp, by simp, by simp, by simp⟩
  | succ m ih =>
    rw [List.range'_succ, windowLoop] at h
    simp only [except_bind_ok] at h
    obtain ⟨lm, hlm, wo, hwo, table, htab, h⟩ := h
    have hlm' := pyIndex_ok hlm
    by_cases hmin : (table.length : ℤ) < minN
    · rw [if_pos hmin, Except.ok.injEq] at h
      subst h
      exact ⟨[], by simp, by simp, by simp, by simp, Or.inr ⟨wo.1, wo.2, table, ⟨lm, by simpa using hlm', hwo, htab⟩, hmin⟩⟩
    · rw [if_neg hmin] at h
      simp only [except_bind_ok] at h
      obtain ⟨raw, hraw, arr, harr, _, -, wlm, hwlm, h⟩ := h
      obtain ⟨lv, h1, h2, h3, h4, h5⟩ := ih (a + 1) _ h
      refine ⟨(wo.1, wo.2, table, arr, wlm) :: lv, by simpa using h1, ?_, ?_, ?_, ?_⟩
      · rw [h2]; simp [List.zipIdx_cons]
      · rw [h3]; simp
      · intro i hi
        cases i with
        | zero => exact ⟨lm, raw, by simpa using hlm', hwo, htab, by simpa using hmin, by simpa using hraw, harr, hwlm⟩
        | succ i =>
          have := h4 i (by simpa using hi)
          simpa [Nat.add_assoc, Nat.add_comm 1] using this
      · rcases h5 with h5 | ⟨w, o, t, h5, h6⟩
        · left; simp [h5]
        · right
          refine ⟨w, o, t, ?_, h6⟩
          have e : a + ((wo.1, wo.2, table, arr, wlm) :: lv).length = a + 1 + lv.length := by simp; omega
          rw [e]; exact h5

/-! ## C12 -/

/-- what both windowers return, level by level -/
theorem windower_result {V : Type} (checked : Bool) (sizes : ℕ → LevelMeta → Except Err (ℤ × ℤ)) (name : String)
    (ref stored : DateTime) (minN : ℤ) (dec : DecData V) (acc : WinAcc V) (out : WinData V)
    (h1 : windowLoop checked sizes ref minN dec (List.range dec.md.nLevels) {} = .ok acc)
    (h2 : windowedResult name dec stored acc = .ok out) :
    1 ≤ out.md.nLevels ∧ out.md.nLevels ≤ dec.md.nLevels ∧ out.md.levels.length = out.md.nLevels ∧
    out.data.map Prod.fst = List.range out.md.nLevels ∧ out.md.refTime = stored ∧ out.md.chans = dec.md.chans ∧
    (∀ i, i < out.md.nLevels → ∃ w o table arr raw lm wlm, LevelWindowing sizes ref dec i w o table ∧
      dec.md.levels[i]? = some lm ∧ minN ≤ (table.length : ℤ) ∧ dec.getLevel i = .ok raw ∧
      getLevelData raw table dec.md.chans.length w o = .ok arr ∧
      getLevelMetadata lm table w o = .ok wlm ∧ out.md.levels[i]? = some wlm ∧ out.getLevel i = .ok arr) ∧
    (out.md.nLevels < dec.md.nLevels → ∃ w o table, LevelWindowing sizes ref dec out.md.nLevels w o table ∧
        (table.length : ℤ) < minN) := by
  rw [List.range_eq_range'] at h1
  obtain ⟨lv, a1, a2, a3, a4, a5⟩ := windowLoop_spec checked sizes ref minN dec dec.md.nLevels 0 _ acc h1
  simp only [List.nil_append] at a2 a3
  unfold windowedResult at h2
  simp only [except_bind_ok, except_pure_ok] at h2
  obtain ⟨x, hx, rfl⟩ := h2
  have hlen : acc.levels.length = lv.length := by rw [a3, List.length_map]
  have hkeys : acc.data.map Prod.fst = List.range lv.length := by
    rw [a2, List.map_map]
    have : (Prod.fst ∘ fun (q : (ℤ × ℤ × List WinRow × WinArr V × WinLevelMeta) × ℕ) => (q.2, q.1.2.2.2.1)) = Prod.snd := rfl
    rw [this, List.zipIdx_map_snd, List.range_eq_range']
  have hpos : 1 ≤ lv.length := by
    cases lv with
    | nil => rw [a2] at hx; simp [dictGet] at hx
    | cons a t => simp
  refine ⟨by simpa [hlen] using hpos, by simpa [hlen] using a1, rfl, by simpa [hlen] using hkeys, rfl, rfl, ?_, ?_⟩
  · intro i hi
    simp only [hlen] at hi
    obtain ⟨lm, raw, b1, b2, b3, b4, b5, b6, b7⟩ := a4 i hi
    simp only [Nat.zero_add] at b1 b2 b5
    refine ⟨lv[i].1, lv[i].2.1, lv[i].2.2.1, lv[i].2.2.2.1, raw, lm, lv[i].2.2.2.2, ⟨lm, b1, b2, b3⟩, b1, b4, b5, b6,
      b7, ?_, ?_⟩
    · simp only [a3, List.getElem?_map, List.getElem?_eq_getElem hi, Option.map_some]
    · unfold WinData.getLevel
      simp only [hlen]
      rw [if_neg (by omega), if_neg (by omega)]
      unfold dictGet
      have : acc.data.lookup ((i : ℤ).toNat) = some lv[i].2.2.2.1 := by
        rw [a2, Int.toNat_natCast]
        have gen : ∀ (l : List (ℤ × ℤ × List WinRow × WinArr V × WinLevelMeta)) (a i : ℕ) (hi : i < l.length),
            ((l.zipIdx a).map (fun q => (q.2, q.1.2.2.2.1))).lookup (a + i) = some l[i].2.2.2.1 := by
          intro l
          induction l with
          | nil => intro a i hi; simp at hi
          | cons x l ih =>
            intro a i hi
            cases i with
            | zero => simp [List.zipIdx_cons]
            | succ i =>
              have := ih (a + 1) i (by simpa using hi)
              rw [List.zipIdx_cons, List.map_cons, List.lookup_cons]
              have hne : (a + (i + 1) == a) = false := by simp
              simp only [hne]
              rw [show a + (i + 1) = a + 1 + i by omega, this]
              simp
        simpa using gen lv 0 i hi
      rw [this]
  · intro hlt
    simp only [hlen] at hlt ⊢
    rcases a5 with a5 | ⟨w, o, t, a5, a6⟩
    · omega
    · exact ⟨w, o, t, by simpa using a5, a6⟩

/-- **C12**. `Windower.run` keeps levels `0 .. k-1` without gaps, `k` at least one, and stops only at a level
with fewer windows than `min_n_wins`.  The metadata of every kept level say how many windows the window table
of that level has, the sizes from the parameters and the offset from local to global index; the reference time
is stored. -/
theorem C12_levels {V : Type} (ref : DateTime) (p : WinParams) (dec : DecData V) (hc : dec.Consistent)
    (out : WinData V) (h : windowerRun ref p dec = .ok out) :
    1 ≤ out.md.nLevels ∧ out.md.nLevels ≤ dec.md.nLevels ∧ out.md.levels.length = out.md.nLevels ∧
    out.data.map Prod.fst = List.range out.md.nLevels ∧ out.md.refTime = ref ∧ out.md.chans = dec.md.chans ∧
    (∀ i, i < out.md.nLevels → ∃ lm w o table wlm, dec.md.levels[i]? = some lm ∧ p.winSizes[i]? = some w ∧
      p.olapSizes[i]? = some o ∧ getWinTable ref lm w o = .ok table ∧ p.minNWins ≤ (table.length : ℤ) ∧
      out.md.levels[i]? = some wlm ∧ wlm.fs = lm.fs ∧ wlm.nWins = table.length ∧ wlm.winSize = w ∧
      wlm.olapSize = o ∧ ∀ r ∈ table, r.globalWin = r.localWin + wlm.indexOffset) ∧
    (out.md.nLevels < dec.md.nLevels → ∃ lm w o table, dec.md.levels[out.md.nLevels]? = some lm ∧
      p.winSizes[out.md.nLevels]? = some w ∧ p.olapSizes[out.md.nLevels]? = some o ∧
      getWinTable ref lm w o = .ok table ∧ (table.length : ℤ) < p.minNWins) := by
  unfold windowerRun at h
  rw [except_bind_ok] at h
  obtain ⟨acc, h1, h2⟩ := h
  obtain ⟨a1, a2, a3, a4, a5, a6, a7, a8⟩ := windower_result _ _ _ _ _ _ _ _ _ h1 h2
  have hsz : ∀ i lm w o, windowerSizes p i lm = .ok (w, o) → p.winSizes[i]? = some w ∧ p.olapSizes[i]? = some o := by
    intro i lm w o hs
    unfold windowerSizes WinParams.getWinSize WinParams.getOlapSize at hs
    simp only [except_bind_ok, except_pure_ok, Prod.mk.injEq] at hs
    obtain ⟨w', ⟨_, -, hw⟩, o', ⟨_, -, ho⟩, rfl, rfl⟩ := hs
    exact ⟨pyIndex_ok hw, pyIndex_ok ho⟩
  refine ⟨a1, a2, a3, a4, a5, a6, ?_, ?_⟩
  · intro i hi
    obtain ⟨w, o, table, arr, raw, lm, wlm, ⟨lm', e1, e2, e3⟩, hlm, b1, b2, b3, b4, b5, b6⟩ := a7 i hi
    rw [hlm, Option.some.injEq] at e1
    subst e1
    obtain ⟨c1, c2⟩ := hsz i _ w o e2
    refine ⟨lm, w, o, table, wlm, hlm, c1, c2, e3, b1, b5, ?_⟩
    unfold getLevelMetadata at b4
    split at b4
    · rename_i off hoff
      split at b4
      · cases b4
      · rw [Except.ok.injEq] at b4
        subst b4
        exact ⟨rfl, rfl, rfl, rfl, uniqueOffsets_table off hoff⟩
    · cases b4
  · intro hlt
    obtain ⟨w, o, table, ⟨lm, e1, e2, e3⟩, e4⟩ := a8 hlt
    obtain ⟨c1, c2⟩ := hsz _ _ w o e2
    exact ⟨lm, w, o, table, e1, c1, c2, e3, e4⟩

/-- the windows of a level, with what is known of sizes and overlaps -/
theorem window_level {V : Type} (ref : DateTime) (p : WinParams) (dec : DecData V) (hc : dec.Consistent)
    (hch : 2 ≤ dec.md.chans.length) (hmin : 2 ≤ p.minNWins) (out : WinData V)
    (h : windowerRun ref p dec = .ok out) (i : ℕ) (hi : i < out.md.nLevels) :
    ∃ lm w o table raw, ∃ wins : List (List (List V)), dec.md.levels[i]? = some lm ∧ p.winSizes[i]? = some w ∧ p.olapSizes[i]? = some o ∧
      getWinTable ref lm w o = .ok table ∧ dec.getLevel i = .ok raw ∧ out.getLevel i = .ok (.d3 wins) ∧
      wins.length = table.length ∧ 1 ≤ o ∧ o < w ∧
      ∀ (k : ℕ) (r : WinRow), table[k]? = some r → wins[k]? = some (windowAt raw r.fromSample w) := by
  obtain ⟨-, -, -, -, -, -, hlev, -⟩ := C12_levels ref p dec hc out h
  unfold windowerRun at h
  rw [except_bind_ok] at h
  obtain ⟨acc, h1, h2⟩ := h
  obtain ⟨-, -, -, -, -, -, a7, -⟩ := windower_result _ _ _ _ _ _ _ _ _ h1 h2
  obtain ⟨w, o, table, arr, raw, lm, wlm, ⟨lm', e1, e2, e3⟩, hlm, b1, b2, b3, b4, b5, b6⟩ := a7 i hi
  obtain ⟨lm2, w2, o2, t2, wlm2, c1, c2, c3, c4, c5, c6, c7, c8, c9, c10, c11⟩ := hlev i hi
  rw [hlm, Option.some.injEq] at e1 c1
  subst e1; subst c1
  rw [b5, Option.some.injEq] at c6
  subst c6
  have hpos : 0 < w ∧ 0 < o ∧ wlm.winSize = w ∧ wlm.olapSize = o := by
    unfold getLevelMetadata at b4
    split at b4
    · split at b4
      · cases b4
      · rename_i hn
        rw [Except.ok.injEq] at b4
        subst b4
        exact ⟨by omega, by omega, rfl, rfl⟩
    · cases b4
  have hw2 : w2 = w := by rw [← c9, hpos.2.2.1]
  have ho2 : o2 = o := by rw [← c10, hpos.2.2.2]
  subst hw2; subst ho2
  have hinc : o2 < w2 := by
    by_contra hcon
    unfold getLevelData at b3
    split at b3
    · split at b3
      · cases b3
      · rw [if_pos (by omega)] at b3; cases b3
    · cases b3
  have hlc := hc.meta_ok lm (List.mem_of_getElem? hlm)
  obtain ⟨rows, r1, r2, r3⟩ := hc.array i lm hlm
  have hraw : raw = rows := by
    unfold DecData.getLevel at b2
    split at b2
    · cases b2
    · rw [if_neg (by omega)] at b2
      simp only [dictGet, Int.toNat_natCast, r1, Except.ok.injEq] at b2
      exact b2.symm
  subst hraw
  have := getLevelData_windows hlc hinc (by omega) e3 (by omega) hch r2 r3
  rw [b3, Except.ok.injEq] at this
  subst this
  refine ⟨lm, w2, o2, table, raw, _, hlm, c2, c3, e3, b2, b6, by simp, by omega, hinc, ?_⟩
  intro k r hr
  rw [List.getElem?_map, hr]; rfl

/-- **C12**. With two or more channels, window `k` of a level is exactly the run of `win_size` samples of every
channel that the window table of the level announces for row `k`, and there are as many windows as rows. -/
theorem C12_window_contents {V : Type} (ref : DateTime) (p : WinParams) (dec : DecData V) (hc : dec.Consistent)
    (hch : 2 ≤ dec.md.chans.length) (hmin : 2 ≤ p.minNWins) (out : WinData V)
    (h : windowerRun ref p dec = .ok out) (i : ℕ) (hi : i < out.md.nLevels) :
    ∃ lm w o table raw, ∃ wins : List (List (List V)), dec.md.levels[i]? = some lm ∧ p.winSizes[i]? = some w ∧ p.olapSizes[i]? = some o ∧
      getWinTable ref lm w o = .ok table ∧ dec.getLevel i = .ok raw ∧ out.getLevel i = .ok (.d3 wins) ∧
      wins.length = table.length ∧
      ∀ (k : ℕ) (r : WinRow), table[k]? = some r → wins[k]? = some (windowAt raw r.fromSample w) := by
  obtain ⟨lm, w, o, table, raw, wins, h1, h2, h3, h4, h5, h6, h7, -, -, h8⟩ := window_level ref p dec hc hch hmin out h i hi
  exact ⟨lm, w, o, table, raw, wins, h1, h2, h3, h4, h5, h6, h7, h8⟩

theorem windowLoop_ok {V : Type} (p : WinParams) (ref : DateTime) (dec : DecData V)
    (hc : dec.Consistent) (hmin : 1 ≤ p.minNWins)
    (hsz : ∀ i lm, dec.md.levels[i]? = some lm → ∃ w o table, windowerSizes p i lm = .ok (w, o) ∧ 1 ≤ o ∧ o < w ∧
      getWinTable ref lm w o = .ok table) (m a : ℕ) (ha : a + m ≤ dec.md.nLevels) (acc : WinAcc V) :
    ∃ acc', windowLoop true (windowerSizes p) ref p.minNWins dec (List.range' a m) acc = .ok acc' := by
  induction m generalizing a acc with
  | zero => exact ⟨acc, rfl⟩
  | succ m ih =>
    have hal : a < dec.md.levels.length := by rw [hc.n_levels]; omega
    obtain ⟨w, o, table, h1, h2, h3, h4⟩ := hsz a _ (List.getElem?_eq_getElem hal)
    rw [List.range'_succ, windowLoop, pyIndex_natCast _ _ hal]
    simp only [bind, Except.bind, h1, h4]
    by_cases hlt : (table.length : ℤ) < p.minNWins
    · rw [if_pos hlt]; exact ⟨acc, rfl⟩
    · rw [if_neg hlt]
      have hne : table ≠ [] := by rintro rfl; simp at hlt; omega
      have hlc := hc.meta_ok _ (List.getElem_mem hal)
      obtain ⟨rows, r1, r2, r3⟩ := hc.array a _ (List.getElem?_eq_getElem hal)
      have hget : dec.getLevel a = .ok rows := by
        unfold DecData.getLevel
        rw [if_neg (by omega), if_neg (by omega)]
        simp [dictGet, r1]
      obtain ⟨arr, g1, g2⟩ := getLevelData_shape0 hlc h3 h2 h4 hne hc.chans_pos r2 r3
      obtain ⟨off, hoff⟩ := uniqueOffsets_ok hlc.fs_pos.ne' h4 hne
      simp only [hget, g1, checkShape, g2, ne_eq, not_true_eq_false, and_false, if_false, getLevelMetadata, hoff]
      rw [if_neg (by omega)]
      exact ih (a + 1) (by omega) _

/-- **C12**. Windowing consistent data succeeds whenever every level has a size and an overlap with
`1 ≤ overlap < size`, the window table of every level can be made (C09) and the first level has enough windows:
in particular the check that the number of windows agrees with the table never fires. -/
theorem C12_succeeds {V : Type} (ref : DateTime) (p : WinParams) (dec : DecData V) (hc : dec.Consistent)
    (hmin : 1 ≤ p.minNWins) (hn : dec.md.nLevels ≤ p.nLevels)
    (hsz : ∀ i lm, dec.md.levels[i]? = some lm → ∃ w o table, p.winSizes[i]? = some w ∧ p.olapSizes[i]? = some o ∧
      1 ≤ o ∧ o < w ∧ getWinTable ref lm w o = .ok table ∧ (i = 0 → p.minNWins ≤ (table.length : ℤ)))
    (h0 : 1 ≤ dec.md.nLevels) :
    ∃ out, windowerRun ref p dec = .ok out := by
  have hsizes : ∀ i lm w o, i < dec.md.nLevels → p.winSizes[i]? = some w → p.olapSizes[i]? = some o →
      windowerSizes p i lm = .ok (w, o) := by
    intro i lm w o hi hw ho
    obtain ⟨hw1, hw2⟩ := List.getElem?_eq_some_iff.mp hw
    obtain ⟨ho1, ho2⟩ := List.getElem?_eq_some_iff.mp ho
    unfold windowerSizes WinParams.getWinSize WinParams.getOlapSize WinParams.checkLevel
    rw [if_neg (by omega), pyIndex_natCast _ _ hw1, pyIndex_natCast _ _ ho1, hw2, ho2]
    rfl
  obtain ⟨acc, hacc⟩ := windowLoop_ok p ref dec hc hmin (by
    intro i lm hlm
    obtain ⟨w, o, t, e1, e2, e3, e4, e5, -⟩ := hsz i lm hlm
    have hi : i < dec.md.nLevels := by
      rw [← hc.n_levels]
      exact (List.getElem?_eq_some_iff.mp hlm).1
    exact ⟨w, o, t, hsizes i lm w o hi e1 e2, e3, e4, e5⟩) dec.md.nLevels 0 (by omega) {}
  obtain ⟨lv, -, a2, -, -, a5⟩ := windowLoop_spec _ _ _ _ _ _ _ _ _ hacc
  unfold windowerRun
  rw [List.range_eq_range', hacc]
  simp only [bind, Except.bind, windowedResult]
  have hpos : 1 ≤ lv.length := by
    rcases a5 with a5 | ⟨w, o, t, ⟨lm, e1, e2, e3⟩, e4⟩
    · omega
    · by_contra hcon
      have hz : lv.length = 0 := by omega
      rw [hz] at e1 e2
      simp only [Nat.add_zero] at e1 e2
      obtain ⟨w', o', t', f1, f2, f3, f4, f5, f6⟩ := hsz 0 lm e1
      rw [hsizes 0 lm w' o' h0 f1 f2, Except.ok.injEq, Prod.mk.injEq] at e2
      obtain ⟨rfl, rfl⟩ := e2
      rw [f5, Except.ok.injEq] at e3
      subst e3
      have := f6 rfl
      omega
  cases lv with
  | nil => simp at hpos
  | cons x l =>
    rw [a2]
    simp only [List.nil_append, List.zipIdx_cons, List.map_cons, dictGet, List.lookup_cons, beq_self_eq_true]
    exact ⟨_, rfl⟩

/-- **C12**, one channel: the channel axis is squeezed away, so the array is windows × samples and `get_chan`
returns the samples of the first window only. -/
theorem C12_single_channel_squeezed {V : Type} (ref : DateTime) (md : LevelMeta) (hc : md.Consistent) (w o : ℤ)
    (ho : o < w) (ho1 : 1 ≤ o) (table : List WinRow) (row : List V) (hrow : (row.length : ℤ) = md.nSamples)
    (h : getWinTable ref md w o = .ok table) (h2 : 2 ≤ table.length) :
    ∃ arr, getLevelData [row] table 1 w o = .ok (.d2 arr) ∧ arr.length = table.length ∧
      (WinArr.d2 arr).chan 0 = .ok (.d1 ((row.drop table[0].fromSample.toNat).take w.toNat)) := by
  have hne : table ≠ [] := by rintro rfl; simp at h2
  obtain ⟨F, h1, h3, h4, h5⟩ := getLevelData_eq hc ho (by omega) h hne (c := 1) (by omega) (rows := [row]) rfl (by simpa using hrow)
  have hs := shape1_cols (rows := [row]) (n := md.nSamples) (by simpa using hrow) (by simp)
  have hinc : 0 < (w - o).toNat := by omega
  have hincZ : (((w - o).toNat : ℕ) : ℤ) = w - o := Int.toNat_of_nonneg (by omega)
  have hm : (1 : ℤ) * 1 ≤ (table.length - 1 : ℕ) * (w - o) := mul_le_mul (by omega) (by omega) (by omega) (by omega)
  have hlenW : (slidingWindows [row] w.toNat).length = shape1 [row] + 1 - w.toNat := by simp [slidingWindows]
  rw [h5]
  unfold squeezeView
  rw [if_neg (by omega), if_pos rfl, if_neg (by omega)]
  have hflat : (slidingWindows [row] w.toNat).flatten
      = (List.range (shape1 [row] + 1 - w.toNat)).map fun j => (row.drop j).take w.toNat := by
    simp only [slidingWindows, List.map_cons, List.map_nil]
    generalize List.range (shape1 [row] + 1 - w.toNat) = r
    induction r with
    | nil => rfl
    | cons a r ih => simp [ih]
  obtain ⟨s, e1, e2, e3⟩ := pySliceStep_eq (slidingWindows [row] w.toNat).flatten F (table.length - 1) (w - o).toNat
        h1 hinc (by rw [hflat]; simp only [List.length_map, List.length_range]; rw [hincZ]; omega)
  refine ⟨s, ?_, by omega, ?_⟩
  · show Except.ok (WinArr.d2 (pySliceStep _ _ _ _)) = _
    rw [e1]
  · have h0 := e3 0 (by omega)
    rw [hflat, List.getElem?_map, List.getElem?_range (by omega)] at h0
    simp only [WinArr.chan, pyIndex, lt_irrefl, if_false, Int.toNat_zero, h0]
    have e := h4 0 (by omega)
    simp only [Nat.cast_zero, zero_mul, add_zero] at e
    simp only [zero_mul, add_zero, Option.map_some, Except.map, e]

/-- **C12**, a level that is exactly one window long (allowed when `min_n_wins = 1`): the window axis is squeezed
away and the slice keeps only the first channel. -/
theorem C12_single_window_loses_channels :
    ∃ (dec : DecData ℤ) (p : WinParams) (out : WinData ℤ), dec.Consistent ∧ dec.md.chans = ["Ex", "Hy"] ∧
      windowerRun 0 p dec = .ok out ∧ out.md.levels.map (·.nWins) = [1] ∧
      out.getLevel 0 = .ok (.d2 [[1, 2, 3, 4]]) ∧ out.getChan 0 "Hy" = .error .index := by
  refine ⟨⟨⟨[1], ["Ex", "Hy"], 1, 0, 3, [⟨1, 4, 0, 3⟩], []⟩, [(0, [[1, 2, 3, 4], [5, 6, 7, 8]])]⟩,
    ⟨1, 1, [4], [1]⟩, ⟨⟨[1], ["Ex", "Hy"], 1, 0, 3, [⟨1, 1, 4, 1, 0⟩], 0, ["Windower"]⟩, [(0, .d2 [[1, 2, 3, 4]])]⟩,
    ⟨by decide, ?_, by decide, ?_⟩, rfl, by decide +kernel, by decide, by decide +kernel, by decide +kernel⟩
  · intro lm hlm
    simp only [List.mem_singleton] at hlm
    subst hlm
    exact ⟨by decide +kernel, by decide +kernel, by decide +kernel, by decide +kernel⟩
  · intro i lm h
    cases i with
    | zero =>
      simp only [List.getElem?_cons_zero, Option.some.injEq] at h
      subst h
      exact ⟨_, rfl, rfl, by decide⟩
    | succ i => simp at h

/-- The loop pairs every array with metadata that count its windows. -/
theorem windowLoop_counted {V : Type} (sizes : ℕ → LevelMeta → Except Err (ℤ × ℤ)) (ref : DateTime) (minN : ℤ)
    (dec : DecData V) (ls : List ℕ) (acc acc' : WinAcc V) (h : windowLoop true sizes ref minN dec ls acc = .ok acc')
    (hacc : List.Forall₂ (fun (q : ℕ × WinArr V) (l : WinLevelMeta) => (q.2.shape0 : ℤ) = l.nWins) acc.data acc.levels) :
    List.Forall₂ (fun (q : ℕ × WinArr V) (l : WinLevelMeta) => (q.2.shape0 : ℤ) = l.nWins) acc'.data acc'.levels := by
  induction ls generalizing acc with
  | nil => simp only [windowLoop, Except.ok.injEq] at h; subst h; exact hacc
  | cons i ls ih =>
    rw [windowLoop] at h
    simp only [except_bind_ok] at h
    obtain ⟨lm, hlm, wo, hwo, table, htab, h⟩ := h
    split at h
    · rw [Except.ok.injEq] at h; subst h; exact hacc
    · simp only [except_bind_ok] at h
      obtain ⟨raw, hraw, arr, harr, _, hchk, wlm, hwlm, h⟩ := h
      refine ih _ h ?_
      refine List.rel_append hacc (.cons ?_ .nil)
      unfold checkShape at hchk
      split at hchk
      · cases hchk
      · rename_i hne
        have hs : arr.shape0 = table.length := by
          by_contra hh
          exact hne ⟨rfl, hh⟩
        unfold getLevelMetadata at hwlm
        split at hwlm
        · split at hwlm
          · cases hwlm
          · rw [Except.ok.injEq] at hwlm
            subst hwlm
            simp [hs]
        · cases hwlm

/-- **C12**. Whatever the number of channels and windows, what `Windower` returns is counted right: the first axis of
the array of a level has as many entries as its metadata say it has windows (otherwise the run is refused). -/
theorem C12_windows_counted {V : Type} (ref : DateTime) (p : WinParams) (dec : DecData V) (out : WinData V)
    (h : windowerRun ref p dec = .ok out) :
    List.Forall₂ (fun (q : ℕ × WinArr V) (l : WinLevelMeta) => (q.2.shape0 : ℤ) = l.nWins) out.data out.md.levels := by
  unfold windowerRun at h
  rw [except_bind_ok] at h
  obtain ⟨acc, h1, h2⟩ := h
  have := windowLoop_counted _ _ _ _ _ _ _ h1 .nil
  unfold windowedResult at h2
  simp only [except_bind_ok, except_pure_ok] at h2
  obtain ⟨_, -, rfl⟩ := h2
  exact this

/-- **C12**. An overlap of zero is refused (the level metadata require a positive overlap). -/
theorem C12_zero_overlap_refused (md : LevelMeta) (table : List WinRow) (w : ℤ) :
    getLevelMetadata md table w 0 = .error .value := by
  unfold getLevelMetadata
  split
  · rw [if_pos (by omega)]
  · rfl

/-! a concrete case: two channels, twelve samples, windows of four samples overlapping by two -/

def demoDec : DecData ℤ :=
  ⟨⟨[1], ["Ex", "Hy"], 1, 3, 14, [⟨1, 12, 3, 14⟩], []⟩,
    [(0, [[0, 1, 2, 3, 4, 5, 6, 7, 8, 9, 10, 11], [20, 21, 22, 23, 24, 25, 26, 27, 28, 29, 30, 31]])]⟩

theorem demoDec_consistent : demoDec.Consistent := by
  refine ⟨by decide, ?_, by decide, ?_⟩
  · intro lm hlm
    simp only [demoDec, List.mem_singleton] at hlm
    subst hlm
    exact ⟨by decide +kernel, by decide +kernel, by decide +kernel, by decide +kernel⟩
  · intro i lm h
    cases i with
    | zero =>
      simp only [demoDec, List.getElem?_cons_zero, Option.some.injEq] at h
      subst h
      exact ⟨_, rfl, rfl, by decide⟩
    | succ i => simp [demoDec] at h

def demoWin : WinData ℤ :=
  ⟨⟨[1], ["Ex", "Hy"], 1, 3, 14, [⟨1, 4, 4, 2, 2⟩], 0, ["Windower"]⟩,
    [(0, .d3 [[[1, 2, 3, 4], [21, 22, 23, 24]], [[3, 4, 5, 6], [23, 24, 25, 26]],
      [[5, 6, 7, 8], [25, 26, 27, 28]], [[7, 8, 9, 10], [27, 28, 29, 30]]])]⟩

theorem demoWin_run : windowerRun 0 ⟨1, 2, [4], [2]⟩ demoDec = .ok demoWin := by decide +kernel

/-! ## C13 -/

/-- **C13**. Fetching by local index gives that window, and any other index is refused. -/
theorem C13_get_local {V : Type} (d : WinData V) (level : ℕ) (lm : WinLevelMeta) (wins : List (List (List V)))
    (hl : d.md.levels[level]? = some lm) (harr : d.getLevel level = .ok (.d3 wins)) (hn : lm.nWins = wins.length)
    (k : ℤ) :
    (∀ win, 0 ≤ k → wins[k.toNat]? = some win → d.getLocal level k = .ok (.d2 win)) ∧
    (¬ (0 ≤ k ∧ k < lm.nWins) → d.getLocal level k = .error .value) := by
  obtain ⟨hl1, hl2⟩ := List.getElem?_eq_some_iff.mp hl
  constructor
  · intro win h0 hwin
    obtain ⟨hk1, hk2⟩ := List.getElem?_eq_some_iff.mp hwin
    unfold WinData.getLocal
    rw [pyIndex_natCast _ _ hl1, hl2]
    simp only [bind, Except.bind]
    rw [if_neg (by omega), harr]
    simp only [WinArr.get]
    have : pyIndex wins k = .ok win := by
      have e : k = (k.toNat : ℤ) := by omega
      rw [e, pyIndex_natCast _ _ hk1, hk2]
    rw [this]
    rfl
  · intro hk
    unfold WinData.getLocal
    rw [pyIndex_natCast _ _ hl1, hl2]
    simp only [bind, Except.bind]
    rw [if_pos (by omega)]
    rfl

/-- **C13**. Fetching by global index `g` gives the window with local index `g + index_offset`, whereas the window
with global index `g` has local index `g - index_offset`. The result is the requested window when the offset is
zero; for a positive offset it is another one, `2 * index_offset` further on, or an error. -/
theorem C13_get_global {V : Type} (d : WinData V) (level : ℕ) (lm : WinLevelMeta) (wins : List (List (List V)))
    (hl : d.md.levels[level]? = some lm) (harr : d.getLevel level = .ok (.d3 wins)) (hn : lm.nWins = wins.length)
    (g : ℤ) (h0 : lm.indexOffset ≤ g) (h1 : g < lm.indexOffset + lm.nWins) :
    (lm.indexOffset = 0 → d.getGlobal level g = d.getLocal level (g - lm.indexOffset)) ∧
    (0 < lm.indexOffset →
      d.getGlobal level g = d.getLocal level (g - lm.indexOffset + 2 * lm.indexOffset) ∧
      (lm.nWins ≤ g + lm.indexOffset → d.getGlobal level g = .error .value)) := by
  obtain ⟨hl1, hl2⟩ := List.getElem?_eq_some_iff.mp hl
  have e : d.getGlobal level g = d.getLocal level (g + lm.indexOffset) := by
    unfold WinData.getGlobal
    rw [pyIndex_natCast _ _ hl1, hl2]; rfl
  refine ⟨fun hz => by rw [e, hz]; simp, fun hp => ⟨by rw [e]; congr 1; ring, fun hge => ?_⟩⟩
  rw [e]
  exact (C13_get_local d level lm wins hl harr hn _).2 (by omega)

/-- **C13**, witness: a window that exists (global index 2, the first one) is not found by its global index, and
a window is returned for global index 0 although the recording has none. -/
theorem C13_get_global_wrong_witness :
    demoWin.getLocal 0 0 = .ok (.d2 [[1, 2, 3, 4], [21, 22, 23, 24]]) ∧
    demoWin.getGlobal 0 2 = .error .value ∧
    demoWin.getGlobal 0 0 = .ok (.d2 [[5, 6, 7, 8], [25, 26, 27, 28]]) := by
  refine ⟨by decide +kernel, by decide +kernel, by decide +kernel⟩

/-- **C49**. The channel of a windowed level is that channel of every window; unknown channels are refused. -/
theorem C49_windowed_get_chan {V : Type} (d : WinData V) (level : ℕ) (wins : List (List (List V)))
    (hnd : d.md.chans.Nodup)
    (harr : d.getLevel level = .ok (.d3 wins)) (hrows : ∀ win ∈ wins, win.length = d.md.chans.length) :
    (∀ (c : ℕ) (hc : c < d.md.chans.length), ∃ rows : List (List V), d.getChan level d.md.chans[c] = .ok (.d2 rows) ∧
      rows.length = wins.length ∧ ∀ (k : ℕ) (win : List (List V)), wins[k]? = some win → rows[k]? = win[c]?) ∧
    (∀ chan, chan ∉ d.md.chans → d.getChan level chan = .error .chanNotFound) := by
  constructor
  · intro c hc
    have hidx : listIndex d.md.chans d.md.chans[c] = .ok (c : ℤ) := by
      unfold listIndex
      have : d.md.chans.findIdx? (· == d.md.chans[c]) = some c := by
        rw [List.findIdx?_eq_some_iff_getElem]
        refine ⟨hc, by simp, ?_⟩
        intro j hj
        have : d.md.chans[j] ≠ d.md.chans[c] := by
          intro heq
          have := (List.Nodup.getElem_inj_iff hnd).mp heq
          omega
        simpa using this
      rw [this]
    have gen : ∀ (l : List (List (List V))) (hl : ∀ win ∈ l, c < win.length),
        l.mapM (fun win => pyIndex win (c : ℤ)) = .ok (l.pmap (fun win (h : c < win.length) => win[c]) hl) := by
      intro l
      induction l with
      | nil => intro _; rfl
      | cons a l ih =>
        intro hl
        rw [List.mapM_cons, pyIndex_natCast _ _ (hl a (by simp)), ih (fun x hx => hl x (by simp [hx]))]
        rfl
    have hmap := gen wins (by intro win hwin; rw [hrows win hwin]; exact hc)
    refine ⟨wins.pmap (fun win (h : c < win.length) => win[c]) (by
        intro win hwin; rw [hrows win hwin]; exact hc), ?_, ?_, ?_⟩
    · unfold WinData.getChan
      rw [if_neg (by simp), hidx, harr]
      simp only [bind, Except.bind, WinArr.chan, hmap, Except.map]
    · simp
    · intro k win hk
      rw [List.getElem?_pmap]
      have hm := List.mem_of_getElem? hk
      simp [hk, hrows win hm, hc]
  · intro chan hch
    unfold WinData.getChan
    rw [if_pos hch]; rfl

/-! ## C14 -/

theorem fitLevels_ok {n : ℕ} {l l' : List ℤ} : fitLevels n l = .ok l' ↔ n ≤ l.length ∧ l' = l.take n := by
  unfold fitLevels
  split
  · rename_i h
    simp only [reduceCtorEq, false_iff]; omega
  · rename_i h
    simp only [Except.ok.injEq]
    exact ⟨fun e => ⟨by omega, e.symm⟩, fun e => e.2.symm⟩

/-- what `WindowSetup.run` computes -/
theorem windowSetup_run {s : WindowSetup} {n : ℕ} {decFs : List ℚ} {p : WinParams} (h : s.run n decFs = .ok p) :
    ∃ ws, (match s.winSizes with | none => s.getWinSizes n decFs | some w => .ok w) = .ok ws ∧ n ≤ ws.length ∧
      n ≤ (s.olapSizes.getD (s.getOlapSizes (ws.take n))).length ∧
      p = ⟨n, s.minNWins, ws.take n, (s.olapSizes.getD (s.getOlapSizes (ws.take n))).take n⟩ := by
  unfold WindowSetup.run at h
  cases hw : s.winSizes with
  | none =>
    rw [hw] at h
    simp only [except_bind_ok, except_pure_ok, fitLevels_ok] at h
    obtain ⟨ws, h1, w2, ⟨h2, rfl⟩, o2, ⟨h3, rfl⟩, rfl⟩ := h
    exact ⟨ws, h1, h2, h3, rfl⟩
  | some w =>
    rw [hw] at h
    simp only [except_bind_ok, except_pure_ok, fitLevels_ok] at h
    obtain ⟨ws, rfl, w2, ⟨h2, rfl⟩, o2, ⟨h3, rfl⟩, rfl⟩ := h
    exact ⟨w, rfl, h2, h3, rfl⟩

/-- **C14**. There is exactly one window size and one overlap per level. -/
theorem C14_one_size_per_level (s : WindowSetup) (n : ℕ) (decFs : List ℚ) (p : WinParams)
    (h : s.run n decFs = .ok p) :
    p.nLevels = n ∧ p.minNWins = s.minNWins ∧ p.winSizes.length = n ∧ p.olapSizes.length = n := by
  obtain ⟨ws, -, h2, h3, rfl⟩ := windowSetup_run h
  refine ⟨rfl, rfl, ?_, ?_⟩
  · simpa using h2
  · simpa using h3

/-- **C14**. Without explicit sizes, the size of level `i` is the sampling frequency of the level divided by the
window factor, rounded down, but at least the minimum size. -/
theorem C14_default_sizes (s : WindowSetup) (hs : s.winSizes = none) (n : ℕ) (decFs : List ℚ) (p : WinParams)
    (h : s.run n decFs = .ok p) (i : ℕ) (hi : i < n) :
    ∃ fs w, decFs[i]? = some fs ∧ p.winSizes[i]? = some w ∧ s.minSize ≤ w ∧ ⌊fs / (s.winFactor : ℚ)⌋ ≤ w ∧
      (w = s.minSize ∨ w = ⌊fs / (s.winFactor : ℚ)⌋) := by
  obtain ⟨ws, h1, h2, h3, rfl⟩ := windowSetup_run h
  rw [hs] at h1
  simp only at h1
  unfold WindowSetup.getWinSizes at h1
  have hlen := mapM_ok_length h1
  rw [List.length_range] at hlen
  have := mapM_ok_getElem h1 i (by simpa using hi) (by omega)
  simp only [List.getElem_range, WindowSetup.levelWinSize] at this
  rw [except_bind_ok] at this
  obtain ⟨fs, hfs, this⟩ := this
  by_cases hz : s.winFactor = 0
  · simp [hz] at this; cases this
  · simp only [hz, if_false] at this
    have this : max ⌊fs / (s.winFactor : ℚ)⌋ s.minSize = ws[i] := by
      simpa [bind, Except.bind, pure, Except.pure] using this
    refine ⟨fs, ws[i], pyIndex_ok hfs, ?_, ?_, ?_, ?_⟩
    · simp [List.getElem?_take_of_lt hi, List.getElem?_eq_getElem (show i < ws.length by omega)]
    · rw [← this]; exact le_max_right _ _
    · rw [← this]; exact le_max_left _ _
    · rw [← this]; rcases max_choice ⌊fs / (s.winFactor : ℚ)⌋ s.minSize with h | h
      · right; exact h
      · left; exact h

/-- **C14**. Explicit sizes are used as given (extra ones dropped) and too few are refused. -/
theorem C14_explicit_sizes (s : WindowSetup) (w : List ℤ) (hs : s.winSizes = some w) (n : ℕ) (decFs : List ℚ) :
    (w.length < n → s.run n decFs = .error .value) ∧
    (∀ p, s.run n decFs = .ok p → p.winSizes = w.take n) ∧
    (∀ o, s.olapSizes = some o → n ≤ w.length →
      (o.length < n → s.run n decFs = .error .value) ∧
      (n ≤ o.length → s.run n decFs = .ok ⟨n, s.minNWins, w.take n, o.take n⟩)) := by
  refine ⟨?_, ?_, ?_⟩
  · intro hlt
    unfold WindowSetup.run
    rw [hs]
    simp only [pure, Except.pure, bind, Except.bind, fitLevels]
    rw [if_pos hlt]
  · intro p h
    obtain ⟨ws, h1, h2, h3, rfl⟩ := windowSetup_run h
    rw [hs] at h1
    simp only [Except.ok.injEq] at h1
    subst h1; rfl
  · intro o ho hn
    constructor
    · intro hlt
      unfold WindowSetup.run
      rw [hs]
      simp only [pure, Except.pure, bind, Except.bind, fitLevels]
      rw [if_neg (by omega)]
      simp only [ho, Option.getD_some]
      rw [if_pos hlt]
    · intro hle
      unfold WindowSetup.run
      rw [hs]
      simp only [pure, Except.pure, bind, Except.bind, fitLevels]
      rw [if_neg (by omega)]
      simp only [ho, Option.getD_some]
      rw [if_neg (by omega)]

theorem pyInt_lt {w : ℤ} {x : ℚ} (hw : 1 ≤ w) (hx : x < 1) : pyInt ((w : ℚ) * x) < w := by
  have hwq : (1 : ℚ) ≤ w := by exact_mod_cast hw
  unfold pyInt
  split
  · have h1 : (w : ℚ) * x < w := by nlinarith
    have := Int.floor_le ((w : ℚ) * x)
    exact_mod_cast lt_of_le_of_lt this h1
  · rename_i hneg
    push Not at hneg
    have : ⌈(w : ℚ) * x⌉ ≤ 0 := Int.ceil_le.mpr (by simpa using hneg.le)
    omega

/-- **C14**. Computed overlaps are at least the minimum overlap, and they are smaller than the window whenever the
overlap proportion is below one and the minimum overlap is below every window size; with computed sizes it is
enough that the minimum overlap is below the minimum size. -/
theorem C14_overlaps (s : WindowSetup) (ho : s.olapSizes = none) (hp : s.olapProportion < 1) (n : ℕ)
    (decFs : List ℚ) (p : WinParams) (h : s.run n decFs = .ok p) (i : ℕ) (hi : i < n) :
    ∃ w o, p.winSizes[i]? = some w ∧ p.olapSizes[i]? = some o ∧ s.minOlap ≤ o ∧
      (1 ≤ w → s.minOlap < w → o < w) ∧
      (s.winSizes = none → 1 ≤ s.minSize → s.minOlap < s.minSize → o < w) := by
  have hlen := C14_one_size_per_level s n decFs p h
  have hdef := fun hs => C14_default_sizes s hs n decFs p h i hi
  obtain ⟨ws, h1, h2, h3, rfl⟩ := windowSetup_run h
  simp only at hlen hdef ⊢
  have hw : (ws.take n)[i]? = some (ws.take n)[i] := List.getElem?_eq_getElem (by omega)
  have hoi : ((s.olapSizes.getD (s.getOlapSizes (ws.take n))).take n)[i]?
      = some (max (pyInt (((ws.take n)[i] : ℤ) * s.olapProportion)) s.minOlap) := by
    rw [ho, Option.getD_none, List.getElem?_take_of_lt hi]
    unfold WindowSetup.getOlapSizes
    rw [List.getElem?_map, hw]; rfl
  refine ⟨_, _, hw, hoi, le_max_right _ _, ?_, ?_⟩
  · intro hw1 hmo
    exact max_lt (pyInt_lt hw1 hp) hmo
  · intro hs hm hmo
    obtain ⟨fs, w, -, e2, e3, -, -⟩ := hdef hs
    rw [hw, Option.some.injEq] at e2
    rw [e2]
    exact max_lt (pyInt_lt (by omega) hp) (by omega)

/-- **C14**. With explicit small windows the computed overlap can exceed the window: the minimum overlap of 32 is
used for a window of 16 samples, and windowing any data with it is refused. -/
theorem C14_overlap_can_exceed_explicit_window :
    (({ winSizes := some [16] } : WindowSetup).run 1 [128]) = .ok ⟨1, 5, [16], [32]⟩ := by decide +kernel

/-- **C14**. The setup with nothing configured: five windows at least; windows of a quarter of a second but at least 128 samples;
overlaps of a quarter of the window but at least 32 samples. -/
theorem C14_default_setup (decFs : List ℚ) :
    ∃ p, (({} : WindowSetup).run decFs.length decFs) = .ok p ∧ p.minNWins = 5 ∧
      p.winSizes = decFs.map (fun fs => max ⌊fs / 4⌋ 128) ∧
      p.olapSizes = p.winSizes.map (fun w => max (w / 4) 32) := by
  have hw : (({} : WindowSetup).getWinSizes decFs.length decFs) = .ok (decFs.map fun fs => max ⌊fs / 4⌋ 128) := by
    unfold WindowSetup.getWinSizes
    rw [mapM_ok_map (g := fun i => max ⌊(decFs.getD i 0) / 4⌋ 128)]
    · congr 1
      apply List.ext_getElem
      · simp
      · intro i h1 h2
        have : i < decFs.length := by simpa using h2
        simp [this]
    · intro i hi
      have hi : i < decFs.length := by simpa using hi
      unfold WindowSetup.levelWinSize
      rw [pyIndex_natCast _ _ hi]
      simp [bind, Except.bind, pure, Except.pure, hi]
  refine ⟨⟨decFs.length, 5, decFs.map (fun fs => max ⌊fs / 4⌋ 128),
    (decFs.map (fun fs => max ⌊fs / 4⌋ 128)).map (fun w => max (w / 4) 32)⟩, ?_, rfl, rfl, rfl⟩
  have ho : (({} : WindowSetup).getOlapSizes (decFs.map fun fs => max ⌊fs / 4⌋ 128))
      = (decFs.map (fun fs => max ⌊fs / 4⌋ 128)).map (fun w => max (w / 4) 32) := by
    unfold WindowSetup.getOlapSizes
    apply List.map_congr_left
    intro w hw
    simp only [List.mem_map] at hw
    obtain ⟨fs, -, rfl⟩ := hw
    have h0 : (0 : ℤ) ≤ max ⌊fs / 4⌋ 128 := le_trans (by norm_num) (le_max_right _ _)
    generalize max ⌊fs / 4⌋ 128 = w at h0 ⊢
    have h0q : (0 : ℚ) ≤ w := by exact_mod_cast h0
    simp only
    unfold pyInt
    rw [if_pos (by positivity)]
    congr 1
    have h4 : (w : ℚ) * (1 / 4) = (w : ℚ) / ((4 : ℕ) : ℚ) := by push_cast; ring
    rw [h4, Rat.floor_intCast_div_natCast w 4]
    rfl
  unfold WindowSetup.run
  simp only [hw, ho, bind, Except.bind, fitLevels, List.length_map, lt_irrefl, if_false, Option.getD_none, pure, Except.pure]
  rw [List.take_of_length_le (by simp)]
  simp only [ho, List.length_map, lt_irrefl, if_false]
  rw [List.take_of_length_le (by simp)]

example : (({} : WindowSetup).run 3 [4096, 1024, 256]) = .ok ⟨3, 5, [1024, 256, 128], [256, 64, 32]⟩ := by
  decide +kernel

/-! ## C15 -/

/-- **C15**. The window size chosen for a level is the number of samples divided by the effective number of
samples per target window, rounded down, but at least the minimum size, and the overlap is smaller than it. -/
theorem C15_target_size (t : WindowerTarget) (i : ℕ) (lm : LevelMeta) (ht : 1 ≤ t.target) (hp0 : 0 ≤ t.olapProportion)
    (hp : t.olapProportion < 1) :
    ∃ w o, t.sizes i lm = .ok (w, o) ∧ t.minSize ≤ w ∧
      w = max ⌊(lm.nSamples : ℚ) / ((1 - t.olapProportion) * t.target)⌋ t.minSize ∧
      o = ⌊t.olapProportion * w⌋ ∧ (1 ≤ t.minSize → 0 ≤ o ∧ o < w) := by
  have hd : (1 - t.olapProportion) * (t.target : ℚ) ≠ 0 := by
    have h1 : (0 : ℚ) < t.target := by exact_mod_cast (by omega : 0 < t.target)
    have : 0 < (1 - t.olapProportion) * (t.target : ℚ) := mul_pos (by linarith) h1
    exact this.ne'
  have hw : t.getWinSize lm = .ok (max ⌊(lm.nSamples : ℚ) / ((1 - t.olapProportion) * t.target)⌋ t.minSize) := by
    unfold WindowerTarget.getWinSize
    simp only [hd, if_false]
    split
    · rename_i h; rw [max_eq_right h.le]
    · rename_i h; rw [max_eq_left (not_lt.mp h)]
  refine ⟨_, _, ?_, le_max_right _ _, rfl, rfl, ?_⟩
  · unfold WindowerTarget.sizes
    rw [hw]; rfl
  · intro hm
    have hmax : 1 ≤ max ⌊(lm.nSamples : ℚ) / ((1 - t.olapProportion) * t.target)⌋ t.minSize :=
      le_trans hm (le_max_right _ _)
    generalize max ⌊(lm.nSamples : ℚ) / ((1 - t.olapProportion) * t.target)⌋ t.minSize = w at hmax
    have hwq : (1 : ℚ) ≤ w := by exact_mod_cast hmax
    have h1 : t.olapProportion * (w : ℚ) < w := by nlinarith
    have h2 := Int.floor_le (t.olapProportion * (w : ℚ))
    exact ⟨Int.floor_nonneg.mpr (by positivity), by exact_mod_cast lt_of_le_of_lt h2 h1⟩

/-- **C15**. `WindowerTarget.run` is the same windowing with the sizes chosen from the target: levels without
gaps, the size of every level as above and the window table of those sizes, and it stops only at a level with
fewer windows than `min_n_wins`.  The reference time it stores is the first time of the data. -/
theorem C15_target_levels {V : Type} (t : WindowerTarget) (ref : DateTime) (p : WinParams) (dec : DecData V)
    (out : WinData V) (h : t.run ref p dec = .ok out) :
    1 ≤ out.md.nLevels ∧ out.md.nLevels ≤ dec.md.nLevels ∧ out.md.levels.length = out.md.nLevels ∧
    out.data.map Prod.fst = List.range out.md.nLevels ∧ out.md.refTime = dec.md.firstTime ∧
    (∀ i, i < out.md.nLevels → ∃ lm w o table wlm, dec.md.levels[i]? = some lm ∧ t.sizes i lm = .ok (w, o) ∧
      getWinTable ref lm w o = .ok table ∧ p.minNWins ≤ (table.length : ℤ) ∧
      out.md.levels[i]? = some wlm ∧ wlm.fs = lm.fs ∧ wlm.nWins = table.length ∧ wlm.winSize = w ∧
      wlm.olapSize = o ∧ ∀ r ∈ table, r.globalWin = r.localWin + wlm.indexOffset) ∧
    (out.md.nLevels < dec.md.nLevels → ∃ lm w o table, dec.md.levels[out.md.nLevels]? = some lm ∧
      t.sizes out.md.nLevels lm = .ok (w, o) ∧
      getWinTable ref lm w o = .ok table ∧ (table.length : ℤ) < p.minNWins) := by
  unfold WindowerTarget.run at h
  rw [except_bind_ok] at h
  obtain ⟨acc, h1, h2⟩ := h
  obtain ⟨a1, a2, a3, a4, a5, a6, a7, a8⟩ := windower_result _ _ _ _ _ _ _ _ _ h1 h2
  refine ⟨a1, a2, a3, a4, a5, ?_, ?_⟩
  · intro i hi
    obtain ⟨w, o, table, arr, raw, lm, wlm, ⟨lm', e1, e2, e3⟩, hlm, b1, b2, b3, b4, b5, b6⟩ := a7 i hi
    rw [hlm, Option.some.injEq] at e1
    subst e1
    refine ⟨lm, w, o, table, wlm, hlm, e2, e3, b1, b5, ?_⟩
    unfold getLevelMetadata at b4
    split at b4
    · rename_i off hoff
      split at b4
      · cases b4
      · rw [Except.ok.injEq] at b4
        subst b4
        exact ⟨rfl, rfl, rfl, rfl, uniqueOffsets_table off hoff⟩
    · cases b4
  · intro hlt
    obtain ⟨w, o, table, ⟨lm, e1, e2, e3⟩, e4⟩ := a8 hlt
    exact ⟨lm, w, o, table, e1, e2, e3, e4⟩

/-- the start times computed from a reference time, sizes and an index offset are those of the window table when
the reference time is the table's, and are shifted by the difference of the reference times otherwise -/
theorem getWinStarts_table {ref ref' : ℚ} {lm : LevelMeta} {w o off : ℤ} {table : List WinRow} (hfs : lm.fs ≠ 0)
    (h : getWinTable ref lm w o = .ok table) (hoff : ∀ r ∈ table, r.globalWin = r.localWin + off) :
    getWinStarts ref' w o lm.fs table.length off = .ok (table.map fun r => r.winStart + (ref' - ref)) := by
  obtain ⟨f, l, -, -, -, hrows⟩ := getWinTable_ok hfs h
  unfold getWinStarts
  rw [incDuration_ok hfs]
  simp only [bind, Except.bind, pure, Except.pure, Except.ok.injEq]
  apply List.ext_getElem
  · simp
  · intro k h1 h2
    have hk : k < table.length := by simpa using h1
    have e := hoff _ (List.getElem_mem hk)
    obtain ⟨r1, r2, -, -, r5, -⟩ := hrows k hk
    rw [r1, r2] at e
    have ef : f = off := by omega
    simp only [List.getElem_map, List.getElem_range, r5, ef]
    unfold winToDatetime winInstant
    by_cases hz : ((w - o : ℤ) : ℚ) = 0
    · rw [hz]; simp
    · field_simp; ring

/-- **C15**. For `Windower` the start times recomputed from the stored metadata (reference time, sizes, offset) are
those of the windows. -/
theorem C15_windower_starts_reproduced {V : Type} (ref : DateTime) (p : WinParams) (dec : DecData V)
    (hc : dec.Consistent) (out : WinData V) (h : windowerRun ref p dec = .ok out) (i : ℕ) (hi : i < out.md.nLevels) :
    ∃ lm wlm table, dec.md.levels[i]? = some lm ∧ out.md.levels[i]? = some wlm ∧
      getWinTable ref lm wlm.winSize wlm.olapSize = .ok table ∧
      getWinStarts out.md.refTime wlm.winSize wlm.olapSize wlm.fs wlm.nWins.toNat wlm.indexOffset
        = .ok (table.map WinRow.winStart) := by
  obtain ⟨-, -, -, -, a5, -, a7, -⟩ := C12_levels ref p dec hc out h
  obtain ⟨lm, w, o, table, wlm, e1, e2, e3, e4, e5, e6, e7, e8, e9, e10, e11⟩ := a7 i hi
  have hfs := (hc.meta_ok lm (List.mem_of_getElem? e1)).fs_pos.ne'
  refine ⟨lm, wlm, table, e1, e6, by rw [e9, e10]; exact e4, ?_⟩
  rw [e7, e8, e9, e10, a5, Int.toNat_natCast, getWinStarts_table hfs e4 e11]
  simp

/-- **C15**. For `WindowerTarget` they are shifted by the difference between the first time of the data and the
reference time used for the windows: right exactly when the two are equal. -/
theorem C15_target_starts_shifted {V : Type} (t : WindowerTarget) (ref : DateTime) (p : WinParams) (dec : DecData V)
    (hc : dec.Consistent) (out : WinData V) (h : t.run ref p dec = .ok out) (i : ℕ) (hi : i < out.md.nLevels) :
    ∃ lm wlm table starts, dec.md.levels[i]? = some lm ∧ out.md.levels[i]? = some wlm ∧
      getWinTable ref lm wlm.winSize wlm.olapSize = .ok table ∧
      getWinStarts out.md.refTime wlm.winSize wlm.olapSize wlm.fs wlm.nWins.toNat wlm.indexOffset = .ok starts ∧
      starts = table.map (fun r => r.winStart + (dec.md.firstTime - ref)) ∧
      (1 ≤ p.minNWins → (starts = table.map WinRow.winStart ↔ ref = dec.md.firstTime)) := by
  obtain ⟨-, -, -, -, a5, a7, -⟩ := C15_target_levels t ref p dec out h
  obtain ⟨lm, w, o, table, wlm, e1, e2, e4, e5, e6, e7, e8, e9, e10, e11⟩ := a7 i hi
  have hfs := (hc.meta_ok lm (List.mem_of_getElem? e1)).fs_pos.ne'
  refine ⟨lm, wlm, table, _, e1, e6, by rw [e9, e10]; exact e4, ?_, rfl, ?_⟩
  · rw [e7, e8, e9, e10, a5, Int.toNat_natCast, getWinStarts_table hfs e4 e11]
  · intro hm
    constructor
    · intro heq
      cases table with
      | nil => simp at e5; omega
      | cons r t =>
        simp only [List.map_cons, List.cons.injEq] at heq
        linarith [heq.1]
    · intro heq
      rw [heq]; simp

/-- a run of the target windower in which they differ -/
example : ∃ out : WinData ℤ,
    (({ target := 5, minSize := 4, olapProportion := 1 / 2 } : WindowerTarget).run 0 ⟨1, 2, [], []⟩ demoDec) = .ok out ∧
    out.md.refTime = 3 ∧ out.md.levels = [⟨1, 4, 4, 2, 2⟩] := by
  refine ⟨⟨⟨[1], ["Ex", "Hy"], 1, 3, 14, [⟨1, 4, 4, 2, 2⟩], 3, ["WindowerTarget"]⟩, demoWin.data⟩, by decide +kernel,
    rfl, rfl⟩

end Resistics
