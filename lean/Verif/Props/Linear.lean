import Verif.Props.RegressionSpectra
import Verif.Props.Robust
import Verif.Props.Fourier
import Verif.Model.Process
import Verif.Props.Project

/-!
# Linear relations between channels through the stages of processing (C50)
-/

namespace Resistics

open Finset (range)

/-! ## Specification -/

/-- Specification: the row `out` is, value by value, the combination of the rows `ins 0`, ..., `ins (n - 1)` with the
coefficients `z`, and all these rows have one length. -/
structure IsCombo (n : ℕ) (z : ℕ → ℂ) (ins : ℕ → List ℂ) (out : List ℂ) : Prop where
  len : ∀ i < n, (ins i).length = out.length
  val : ∀ k < out.length, out.getD k 0 = ∑ i ∈ range n, z i * (ins i).getD k 0

/-- Samples as complex numbers. -/
noncomputable def complexRow (row : List ℚ) : List ℂ := row.map fun (x : ℚ) => (x : ℂ)

/-- Specification: an operation on rows of samples that is linear: rows in a real linear relation go to rows in the same
relation. -/
def LinearOnRows (f : List ℚ → Except Err (List ℚ)) : Prop :=
  ∀ (n : ℕ) (z : ℕ → ℝ) (ins : ℕ → List ℚ) (out : List ℚ) (ins' : ℕ → List ℚ) (out' : List ℚ),
    IsCombo n (fun i => (z i : ℂ)) (fun i => complexRow (ins i)) (complexRow out) →
    (∀ i < n, f (ins i) = .ok (ins' i)) → f out = .ok out' →
    IsCombo n (fun i => (z i : ℂ)) (fun i => complexRow (ins' i)) (complexRow out')

/-- Specification: the filters, the decimation and the resampling of scipy are linear. -/
structure SciPy.Linear (sp : SciPy) : Prop where
  sosfilt : ∀ k o w, LinearOnRows (sp.sosfilt k o w)
  decimate : ∀ q, LinearOnRows (sp.decimate q)
  resample : ∀ u d, LinearOnRows fun r => .ok (sp.resample u d r)

/-- Specification: a transform of rows of samples to rows of complex numbers is linear. -/
def LinearTransform (ft : List ℚ → List ℂ) : Prop :=
  ∀ (n : ℕ) (z : ℕ → ℝ) (ins : ℕ → List ℚ) (out : List ℚ),
    IsCombo n (fun i => (z i : ℂ)) (fun i => complexRow (ins i)) (complexRow out) →
    IsCombo n (fun i => (z i : ℂ)) (fun i => ft (ins i)) (ft out)

/-- Specification: in the recording, the samples of the channel `out` are the combination of the samples of the channels
`inC` with the real coefficients `z`. -/
def TimeData.Exact (td : TimeData ℚ) (inC : List String) (z : ℕ → ℝ) (out : String) : Prop :=
  ∃ (ins : ℕ → List ℚ) (row : List ℚ), (∀ i < inC.length, td.getChan (inC.getD i "") = .ok (ins i)) ∧
    td.getChan out = .ok row ∧ IsCombo inC.length (fun i => (z i : ℂ)) (fun i => complexRow (ins i)) (complexRow row)

/-! ## Rows of channels -/

/-- The row of a channel. -/
def rowOf {V : Type} (chans : List String) (rows : List (List V)) (c : String) : List V := rows.getD (chans.idxOf c) []

/-- The relation holds for the rows of an array. -/
def ExactRows (chans : List String) (rows : List (List ℂ)) (inC : List String) (z : ℕ → ℂ) (out : String) : Prop :=
  IsCombo inC.length z (fun i => rowOf chans rows (inC.getD i "")) (rowOf chans rows out)

theorem IsCombo.congr {n : ℕ} {z : ℕ → ℂ} {ins ins' : ℕ → List ℂ} {out out' : List ℂ} (h : IsCombo n z ins out)
    (hi : ∀ i < n, ins' i = ins i) (ho : out' = out) : IsCombo n z ins' out' := by
  subst ho
  refine ⟨fun i h' => by rw [hi i h', h.len i h'], fun k hk => ?_⟩
  rw [h.val k hk]
  exact Finset.sum_congr rfl fun i h' => by rw [hi i (Finset.mem_range.1 h')]

theorem inC_mem {inC chans : List String} (hin : ∀ c ∈ inC, c ∈ chans) {i : ℕ} (hi : i < inC.length) :
    inC.getD i "" ∈ chans := by
  rw [List.getD_eq_getElem?_getD, List.getElem?_eq_getElem hi]
  exact hin _ (List.getElem_mem hi)

theorem rowOf_map {V W : Type} (chans : List String) (rows : List (List V)) (f : List V → List W) (c : String)
    (hl : rows.length = chans.length) (hc : c ∈ chans) : rowOf chans (rows.map f) c = f (rowOf chans rows c) := by
  have h := List.idxOf_lt_length_of_mem hc
  unfold rowOf
  rw [List.getD_eq_getElem?_getD, List.getD_eq_getElem?_getD, List.getElem?_map,
    List.getElem?_eq_getElem (by omega)]
  rfl

theorem rowOf_mapM {V W : Type} {chans : List String} {rows : List (List V)} {f : List V → Except Err (List W)}
    {rows' : List (List W)} (h : rows.mapM f = .ok rows') {c : String}
    (hl : rows.length = chans.length) (hc : c ∈ chans) : f (rowOf chans rows c) = .ok (rowOf chans rows' c) := by
  have hlt := List.idxOf_lt_length_of_mem hc
  have hl' := mapM_ok_length h
  unfold rowOf
  rw [List.getD_eq_getElem?_getD, List.getD_eq_getElem?_getD, List.getElem?_eq_getElem (by omega),
    List.getElem?_eq_getElem (by omega)]
  exact mapM_ok_getElem h _ (by omega) (by omega)

/-- The relation in a recording, in terms of its rows. -/
theorem exact_rows (td : TimeData ℚ) (hc : td.Consistent) (hnd : td.md.chans.Nodup) (inC : List String) (z : ℕ → ℝ)
    (out : String) (hin : ∀ c ∈ inC, c ∈ td.md.chans) (hout : out ∈ td.md.chans) :
    td.Exact inC z out ↔ ExactRows td.md.chans (td.data.map complexRow) inC (fun i => (z i : ℂ)) out := by
  have key : ∀ c ∈ td.md.chans, td.getChan c = .ok (rowOf td.md.chans td.data c) := by
    intro c hcm
    have hlt := List.idxOf_lt_length_of_mem hcm
    have hci := chanIndex_nodup hnd _ hlt
    rw [List.getElem_idxOf] at hci
    unfold TimeData.getChan checkChan
    rw [if_pos hcm, hci]
    simp only [bind, Except.bind]
    rw [pyIndex_natCast _ _ (by rw [hc.rows]; exact hlt)]
    unfold rowOf
    rw [List.getD_eq_getElem?_getD, List.getElem?_eq_getElem (by rw [hc.rows]; exact hlt)]
    rfl
  have hrow : ∀ c ∈ td.md.chans, rowOf td.md.chans (td.data.map complexRow) c = complexRow (rowOf td.md.chans td.data c) :=
    fun c hcm => rowOf_map _ _ _ _ hc.rows hcm
  constructor
  · rintro ⟨ins, row, h1, h2, h3⟩
    rw [key _ hout, Except.ok.injEq] at h2
    subst h2
    refine h3.congr (fun i hi => ?_) (hrow _ hout)
    have := h1 i hi
    rw [key _ (inC_mem hin hi), Except.ok.injEq] at this
    rw [hrow _ (inC_mem hin hi), this]
  · intro h
    refine ⟨fun i => rowOf td.md.chans td.data (inC.getD i ""), rowOf td.md.chans td.data out, ?_, key _ hout, ?_⟩
    · exact fun i hi => key _ (inC_mem hin hi)
    · exact h.congr (fun i hi => (hrow _ (inC_mem hin hi)).symm) (hrow _ hout).symm

/-- A linear operation applied to every row keeps the relation. -/
theorem ExactRows.mapM {f : List ℚ → Except Err (List ℚ)} (hf : LinearOnRows f) {chans : List String}
    {rows rows' : List (List ℚ)} (h : rows.mapM f = .ok rows') (hl : rows.length = chans.length) {inC : List String}
    {z : ℕ → ℝ} {out : String} (hin : ∀ c ∈ inC, c ∈ chans) (hout : out ∈ chans)
    (he : ExactRows chans (rows.map complexRow) inC (fun i => (z i : ℂ)) out) :
    ExactRows chans (rows'.map complexRow) inC (fun i => (z i : ℂ)) out := by
  have hl' : rows'.length = chans.length := (mapM_ok_length h).trans hl
  have := hf inC.length z (fun i => rowOf chans rows (inC.getD i "")) (rowOf chans rows out)
    (fun i => rowOf chans rows' (inC.getD i "")) (rowOf chans rows' out)
    (IsCombo.congr he (fun i hi => (rowOf_map _ _ _ _ hl (inC_mem hin hi)).symm) (rowOf_map _ _ _ _ hl hout).symm)
    (fun i hi => rowOf_mapM h hl (inC_mem hin hi)) (rowOf_mapM h hl hout)
  exact this.congr (fun i hi => rowOf_map _ _ _ _ hl' (inC_mem hin hi)) (rowOf_map _ _ _ _ hl' hout)

theorem mapM_pure_map {α β : Type} (f : α → β) (l : List α) : l.mapM (fun a => (Except.ok (f a) : Except Err β)) = .ok (l.map f) :=
  mapM_ok_map fun _ _ => rfl

theorem LinearOnRows.id : LinearOnRows fun r => .ok r := by
  intro n z ins out ins' out' h hi ho
  rw [Except.ok.injEq] at ho
  subst ho
  exact h.congr (fun i hn => by rw [Except.ok.inj (hi i hn)]) rfl

theorem LinearOnRows.comp {f g : List ℚ → Except Err (List ℚ)} (hf : LinearOnRows f) (hg : LinearOnRows g) :
    LinearOnRows fun r => f r >>= g := by
  intro n z ins out ins' out' h hi ho
  obtain ⟨m, hm, ho⟩ := except_bind_ok.1 ho
  have : ∀ i, ∃ mi, i < n → f (ins i) = .ok mi ∧ g mi = .ok (ins' i) := by
    intro i
    by_cases hn : i < n
    · obtain ⟨mi, h1, h2⟩ := except_bind_ok.1 (hi i hn)
      exact ⟨mi, fun _ => ⟨h1, h2⟩⟩
    · exact ⟨[], fun h => absurd h hn⟩
  choose mi hmi using this
  exact hg n z mi m ins' out' (hf n z ins out mi m h (fun i hn => (hmi i hn).1) hm) (fun i hn => (hmi i hn).2) ho

theorem linear_decimateRow {sp : SciPy} (hsp : sp.Linear) (factors : List ℕ) : LinearOnRows (decimateRow sp factors) := by
  induction factors with
  | nil => exact LinearOnRows.id
  | cons f l ih =>
    have h1 : LinearOnRows fun r => if f = 1 then (pure r : Except Err (List ℚ)) else sp.decimate f r := by
      by_cases hf : f = 1
      · simp only [hf, if_true]; exact LinearOnRows.id
      · simp only [hf, if_false]; exact hsp.decimate f
    exact h1.comp ih

/-! ## Time processors -/

/-- `adjust_time_metadata` keeps the channels. -/
theorem adjust_chans {md : TimeMeta} {fs first : ℚ} {n : ℤ} {md' : TimeMeta} (h : adjustTimeMetadata md fs first n = .ok md') :
    md'.chans = md.chans ∧ md'.fs = fs := by
  unfold adjustTimeMetadata at h
  simp only [except_bind_ok, except_pure_ok] at h
  obtain ⟨r, -, rfl⟩ := h
  exact ⟨rfl, rfl⟩

/-- The relation for time data, in terms of rows. -/
def TimeData.ExactRows (td : TimeData ℚ) (inC : List String) (z : ℕ → ℝ) (out : String) : Prop :=
  Resistics.ExactRows td.md.chans (td.data.map complexRow) inC (fun i => (z i : ℂ)) out

theorem exact_resample {sp : SciPy} (hsp : sp.Linear) {newFs : ℚ} {td td' : TimeData ℚ} (h : resample sp newFs td = .ok td')
    (hl : td.data.length = td.md.chans.length) {inC : List String} {z : ℕ → ℝ} {out : String}
    (hin : ∀ c ∈ inC, c ∈ td.md.chans) (hout : out ∈ td.md.chans) (he : td.ExactRows inC z out) : td'.ExactRows inC z out := by
  simp only [resample] at h
  split at h
  · cases h
  split at h
  · cases h
  simp only [except_bind_ok, except_pure_ok] at h
  obtain ⟨md, hmd, rfl⟩ := h
  have := ExactRows.mapM (hsp.resample (sp.limitDen (newFs / td.md.fs)).num.toNat (sp.limitDen (newFs / td.md.fs)).den)
    (mapM_pure_map _ _) hl hin hout he
  show Resistics.ExactRows md.chans _ _ _ _
  rw [(adjust_chans hmd).1]
  exact this

theorem exact_decimate {sp : SciPy} (hsp : sp.Linear) {m factor : ℕ} {td td' : TimeData ℚ}
    (h : decimateProc sp m factor td = .ok td') (hl : td.data.length = td.md.chans.length) {inC : List String} {z : ℕ → ℝ}
    {out : String} (hin : ∀ c ∈ inC, c ∈ td.md.chans) (hout : out ∈ td.md.chans) (he : td.ExactRows inC z out) :
    td'.ExactRows inC z out := by
  unfold decimateProc at h
  simp only [except_bind_ok] at h
  obtain ⟨data, hd, h⟩ := h
  split at h
  · cases h
  simp only [except_bind_ok, except_pure_ok] at h
  obtain ⟨md, hmd, rfl⟩ := h
  have := ExactRows.mapM (linear_decimateRow hsp _) hd hl hin hout he
  show Resistics.ExactRows md.chans _ _ _ _
  rw [(adjust_chans hmd).1]
  exact this

/-- One step of the decimator keeps the relation. -/
theorem exact_step {sp : SciPy} (hsp : sp.Linear) {useResample : Bool} {m inc : ℕ} {td td' : TimeData ℚ}
    (h : (if useResample then decimatorResample sp else decimatorDecimate sp m) td inc = .ok td')
    (hl : td.data.length = td.md.chans.length) {inC : List String} {z : ℕ → ℝ}
    {out : String} (hin : ∀ c ∈ inC, c ∈ td.md.chans) (hout : out ∈ td.md.chans) (he : td.ExactRows inC z out) :
    td'.ExactRows inC z out := by
  cases useResample with
  | true =>
    simp only [if_true, decimatorResample] at h
    split at h
    · rw [Except.ok.injEq] at h; subst h; exact he
    split at h
    · cases h
    exact exact_resample hsp h hl hin hout he
  | false =>
    simp only [Bool.false_eq_true, if_false, decimatorDecimate] at h
    split at h
    · rw [Except.ok.injEq] at h; subst h; exact he
    split at h
    · cases h
    exact exact_decimate hsp h hl hin hout he

/-! ## Decimation -/

/-- A period of at least `1e-13` seconds does not vanish as a time delta. -/
theorem toTimedelta_pos {d : ℚ} (h : 1 / 10 ^ 13 ≤ d) : 0 < toTimedelta d := by
  have hd : (0 : ℚ) < d := lt_of_lt_of_le (by norm_num) h
  have h1 := Int.floor_le d
  have h2 := Int.lt_floor_add_one d
  have h3 := Int.floor_le ((d - (⌊d⌋ : ℚ)) * 1000000)
  have h4 := Int.lt_floor_add_one ((d - (⌊d⌋ : ℚ)) * 1000000)
  have hs : (0 : ℤ) ≤ ⌊d⌋ := Int.floor_nonneg.2 hd.le
  have hm : (0 : ℤ) ≤ ⌊(d - (⌊d⌋ : ℚ)) * 1000000⌋ := Int.floor_nonneg.2 (by nlinarith)
  have hsq : (0 : ℚ) ≤ (⌊d⌋ : ℚ) := by exact_mod_cast hs
  have hmq : (0 : ℚ) ≤ (⌊(d - (⌊d⌋ : ℚ)) * 1000000⌋ : ℚ) := by exact_mod_cast hm
  unfold toTimedelta
  simp only
  split
  · rename_i hc
    by_cases h0 : ⌊d⌋ = 0 ∧ ⌊(d - (⌊d⌋ : ℚ)) * 1000000⌋ = 0
    · rw [h0.2, h0.1] at hc
      obtain ⟨_, hc⟩ := hc
      norm_num at hc h
      linarith
    · have : (1 : ℚ) ≤ (⌊d⌋ : ℚ) ∨ (1 : ℚ) ≤ (⌊(d - (⌊d⌋ : ℚ)) * 1000000⌋ : ℚ) := by
        by_cases h5 : ⌊d⌋ = 0
        · right
          have : 1 ≤ ⌊(d - (⌊d⌋ : ℚ)) * 1000000⌋ := by
            rcases lt_or_eq_of_le hm with h6 | h6
            · omega
            · exact absurd ⟨h5, h6.symm⟩ h0
          exact_mod_cast this
        · left
          have : 1 ≤ ⌊d⌋ := by omega
          exact_mod_cast this
      rcases this with h6 | h6 <;> simp only [zero_div, add_zero] <;> nlinarith
  · have : (⌊d⌋ : ℚ) + (⌊(d - (⌊d⌋ : ℚ)) * 1000000⌋ : ℚ) / 1000000 +
        ((d - (⌊d⌋ : ℚ)) * 1000000 - (⌊(d - (⌊d⌋ : ℚ)) * 1000000⌋ : ℚ)) * 1000 / 1000000000 = d := by ring
    rw [this]; exact hd

theorem lookup_zipIdx_data (tds : List (TimeData ℚ)) (i : ℕ) (rows : List (List ℚ))
    (h : (tds.zipIdx.map fun q => (q.2, q.1.data)).lookup i = some rows) : ∃ hi : i < tds.length, rows = tds[i].data := by
  have e : (tds.zipIdx.map fun q => (q.2, q.1.data)) = ((tds.map (·.data)).zipIdx.map fun q => (q.2, q.1)) := by
    rw [List.zipIdx_map, List.map_map]; rfl
  rw [e] at h
  by_cases hi : i < tds.length
  · have := lookup_zipIdx (tds.map (·.data)) 0 i (by simpa using hi)
    rw [Nat.zero_add] at this
    rw [this, Option.some.injEq] at h
    exact ⟨hi, by rw [← h, List.getElem_map]⟩
  · exfalso
    have : ∀ (l : List (List (List ℚ))) (a i : ℕ), a + l.length ≤ i → ((l.zipIdx a).map fun q => (q.2, q.1)).lookup i = none := by
      intro l
      induction l with
      | nil => intros; rfl
      | cons x l ih =>
        intro a i hle
        rw [List.zipIdx_cons, List.map_cons, List.lookup_cons]
        have hne : (i == a) = false := by simp only [List.length_cons] at hle; simp; omega
        simp only [hne]
        exact ih _ _ (by simp only [List.length_cons] at hle; omega)
    rw [this _ 0 i (by simpa using hi)] at h
    cases h

/-- Decimation of a recording gives consistent levels and keeps the relation at every level. -/
theorem decimator_consistent {sp : SciPy} (hl : sp.Lawful) {useResample : Bool} {m : ℕ} (hm : 2 ≤ m)
    {p : DecParams ℚ} (hp : 1 ≤ p.minSamples) {td : TimeData ℚ} (hc : td.Consistent) (hch : 1 ≤ td.md.chans.length)
    (hfs : td.md.fs ≤ 10 ^ 13) {dec : DecData ℚ} (h : Decimator.run sp useResample m p td = .ok dec) :
    dec.Consistent ∧ dec.md.chans = td.md.chans ∧ dec.md.nLevels ≤ p.nLevels ∧
      (∀ lm ∈ dec.md.levels, 0 < lm.fs) ∧
      (sp.Linear → ∀ (inC : List String) (z : ℕ → ℝ) (out : String), (∀ c ∈ inC, c ∈ td.md.chans) → out ∈ td.md.chans →
        td.ExactRows inC z out → ∀ (i : ℕ) (rows : List (List ℚ)), dec.data.lookup i = some rows →
          ExactRows td.md.chans (rows.map complexRow) inC (fun i => (z i : ℂ)) out) := by
  obtain ⟨tds, a1, a2, a3, a4, a5, a6, a7, a8, a9, -⟩ := C20_pyramid _ p td dec h
  obtain ⟨tds', b1, b2, b3, b4⟩ := C20_levels_consistent sp hl useResample m hm p td hc dec h
  have hchans : dec.md.chans = td.md.chans := by
    unfold Decimator.run decimatorRun at h
    simp only [except_bind_ok, except_pure_ok] at h
    obtain ⟨acc, -, x, -, rfl⟩ := h
    rfl
  have hdata : tds'.map (·.data) = tds.map (·.data) := by
    have e2 : (Prod.snd ∘ fun (q : TimeData ℚ × ℕ) => (q.2, q.1.data)) = (fun t : TimeData ℚ => t.data) ∘ Prod.fst := rfl
    rw [← a5, b1, List.map_map, e2, ← List.map_map, List.zipIdx_map_fst]
  have hlen : tds'.length = tds.length := by simpa using congrArg List.length hdata
  have hlevels : tds'.map (fun t => levelMetaOf t.md) = tds.map (fun t => levelMetaOf t.md) := by rw [← a6, ← b2]
  have hns : ∀ (i : ℕ) (hi : i < tds'.length) , (p.minSamples : ℤ) ≤ tds'[i].md.nSamples := by
    intro i hi
    have e := congrArg (fun l : List LevelMeta => l[i]?) hlevels
    simp only [List.getElem?_map, List.getElem?_eq_getElem hi, List.getElem?_eq_getElem (hlen ▸ hi), Option.map_some,
      Option.some.injEq] at e
    have e2 := congrArg LevelMeta.nSamples e
    have := a9 (tds[i]'(hlen ▸ hi)) (List.getElem_mem _)
    simp only [levelMetaOf] at e2
    rw [e2]; exact this
  have hfsle : ∀ (i : ℕ) (hi : i < tds'.length), tds'[i].md.fs ≤ td.md.fs := by
    intro i hi
    obtain ⟨c1, -, -, c4⟩ := b4 i hi
    have hpos := c1.fs_pos
    rw [c4] at hpos ⊢
    have hpr : (1 : ℚ) ≤ (((p.decIncrements.take (i + 1)).prod : ℕ) : ℚ) := by
      have : (p.decIncrements.take (i + 1)).prod ≠ 0 := by
        intro h0
        rw [h0] at hpos
        simp at hpos
      exact_mod_cast Nat.one_le_iff_ne_zero.2 this
    exact div_le_self hc.fs_pos.le hpr
  have hcons : dec.Consistent := by
    refine ⟨by rw [b2, b3, List.length_map], ?_, by rw [hchans]; exact hch, ?_⟩
    · intro lm hlm
      rw [b2] at hlm
      obtain ⟨t, ht, rfl⟩ := List.mem_map.1 hlm
      obtain ⟨i, hi, rfl⟩ := List.mem_iff_getElem.1 ht
      obtain ⟨c1, c2, c3, c4⟩ := b4 i hi
      refine ⟨c1.fs_pos, ?_, ?_, c1.last⟩
      · apply toTimedelta_pos
        have := hfsle i hi
        exact one_div_le_one_div_of_le c1.fs_pos (this.trans hfs)
      · have := hns i hi
        show 1 ≤ tds'[i].md.nSamples
        omega
    · intro i lm hlm
      rw [b2, List.getElem?_map] at hlm
      by_cases hi : i < tds'.length
      · rw [List.getElem?_eq_getElem hi, Option.map_some, Option.some.injEq] at hlm
        subst hlm
        obtain ⟨c1, c2, c3, c4⟩ := b4 i hi
        refine ⟨tds'[i].data, ?_, by rw [c1.rows, c2, hchans], c1.cols⟩
        rw [b1]
        have e : (tds'.zipIdx.map fun q => (q.2, q.1.data)) = ((tds'.map (·.data)).zipIdx.map fun q => (q.2, q.1)) := by
          rw [List.zipIdx_map, List.map_map]; rfl
        rw [e]
        have := lookup_zipIdx (tds'.map (·.data)) 0 i (by simpa using hi)
        rw [Nat.zero_add] at this
        rw [this, List.getElem_map]
      · rw [List.getElem?_eq_none (by omega)] at hlm; cases hlm
  refine ⟨hcons, hchans, a3, fun lm hlm => (hcons.meta_ok lm hlm).fs_pos, ?_⟩
  intro hsp inC z out hin hout he i rows hrows
  -- the relation at every level of the pyramid
  have hall : ∀ (i : ℕ) (hi : i < tds.length), tds[i].Consistent ∧ tds[i].md.chans = td.md.chans ∧ tds[i].ExactRows inC z out := by
    intro i
    induction i with
    | zero =>
      intro hi
      obtain ⟨x, inc, g1, g2, g3⟩ := a8 0 hi
      simp only [List.getElem?_cons_zero, Option.some.injEq] at g1
      subst g1
      obtain ⟨d1, d2, -, -⟩ := decimator_step sp hl useResample m hm _ _ inc hc g3
      exact ⟨d1, d2, exact_step hsp g3 hc.rows hin hout he⟩
    | succ i ih =>
      intro hi
      obtain ⟨c0, c1, c2⟩ := ih (by omega)
      obtain ⟨x, inc, g1, g2, g3⟩ := a8 (i + 1) hi
      rw [List.getElem?_cons_succ, List.getElem?_eq_getElem (by omega)] at g1
      injection g1 with g1
      subst g1
      obtain ⟨d1, d2, -, -⟩ := decimator_step sp hl useResample m hm _ _ inc c0 g3
      exact ⟨d1, d2.trans c1, exact_step hsp g3 c0.rows (by rw [c1]; exact hin) (by rw [c1]; exact hout) c2⟩
  rw [b1] at hrows
  obtain ⟨hi, rfl⟩ := lookup_zipIdx_data _ _ _ hrows
  have e := congrArg (fun l : List (List (List ℚ)) => l[i]?) hdata
  simp only [List.getElem?_map, List.getElem?_eq_getElem hi, List.getElem?_eq_getElem (hlen ▸ hi), Option.map_some,
    Option.some.injEq] at e
  obtain ⟨-, c1, c2⟩ := hall i (hlen ▸ hi)
  unfold TimeData.ExactRows at c2
  rw [c1] at c2
  rw [e]; exact c2

/-- Decimation of a recording gives consistent levels and keeps the relation at every level. -/
theorem exact_decimator {sp : SciPy} (hl : sp.Lawful) (hsp : sp.Linear) {useResample : Bool} {m : ℕ} (hm : 2 ≤ m)
    {p : DecParams ℚ} (hp : 1 ≤ p.minSamples) {td : TimeData ℚ} (hc : td.Consistent) (hch : 1 ≤ td.md.chans.length)
    (hfs : td.md.fs ≤ 10 ^ 13) {dec : DecData ℚ} (h : Decimator.run sp useResample m p td = .ok dec) :
    dec.Consistent ∧ dec.md.chans = td.md.chans ∧ dec.md.nLevels ≤ p.nLevels ∧
      (∀ lm ∈ dec.md.levels, 0 < lm.fs) ∧
      ∀ (inC : List String) (z : ℕ → ℝ) (out : String), (∀ c ∈ inC, c ∈ td.md.chans) → out ∈ td.md.chans →
        td.ExactRows inC z out → ∀ (i : ℕ) (rows : List (List ℚ)), dec.data.lookup i = some rows →
          ExactRows td.md.chans (rows.map complexRow) inC (fun i => (z i : ℂ)) out := by
  obtain ⟨b1, b2, b3, b4, b5⟩ := decimator_consistent hl hm hp hc hch hfs h
  exact ⟨b1, b2, b3, b4, b5 hsp⟩

/-! ## Windowing -/

theorem IsCombo.slice {n : ℕ} {z : ℕ → ℂ} {ins : ℕ → List ℂ} {out : List ℂ} (h : IsCombo n z ins out) (a b : ℕ) :
    IsCombo n z (fun i => ((ins i).drop a).take b) ((out.drop a).take b) := by
  have hg : ∀ (l : List ℂ) (k : ℕ), k < b → ((l.drop a).take b).getD k 0 = l.getD (a + k) 0 := by
    intro l k hk
    rw [List.getD_eq_getElem?_getD, List.getD_eq_getElem?_getD, List.getElem?_take_of_lt hk, List.getElem?_drop]
  refine ⟨fun i hi => by simp [h.len i hi], fun k hk => ?_⟩
  have hk' : k < b ∧ a + k < out.length := by
    simp only [List.length_take, List.length_drop] at hk; omega
  rw [hg _ _ hk'.1, h.val _ hk'.2]
  exact Finset.sum_congr rfl fun i _ => by rw [hg _ _ hk'.1]

/-- The windowers of the package. -/
def StandardWindower (w : DateTime → WinParams → DecData ℚ → Except Err (WinData ℚ)) : Prop :=
  w = windowerRun ∨ ∃ t : WindowerTarget, w = t.run

/-- The levels of a windower, with the window table that their windows come from. -/
theorem windower_levels {w : DateTime → WinParams → DecData ℚ → Except Err (WinData ℚ)} (hw : StandardWindower w)
    {ref : DateTime} {p : WinParams} {dec : DecData ℚ} {win : WinData ℚ} (h : w ref p dec = .ok win) :
    ∃ (checked : Bool) (sizes : ℕ → LevelMeta → Except Err (ℤ × ℤ)) (name : String) (stored : DateTime) (acc : WinAcc ℚ),
      windowLoop checked sizes ref p.minNWins dec (List.range dec.md.nLevels) {} = .ok acc ∧
      windowedResult name dec stored acc = .ok win := by
  rcases hw with rfl | ⟨t, rfl⟩
  · unfold windowerRun at h
    obtain ⟨acc, h1, h2⟩ := except_bind_ok.1 h
    exact ⟨_, _, _, _, acc, h1, h2⟩
  · unfold WindowerTarget.run at h
    obtain ⟨acc, h1, h2⟩ := except_bind_ok.1 h
    exact ⟨_, _, _, _, acc, h1, h2⟩

/-- Windowing of consistent data gives shaped data whose windows are runs of samples of the levels. -/
theorem windower_windows {w : DateTime → WinParams → DecData ℚ → Except Err (WinData ℚ)} (hw : StandardWindower w)
    {ref : DateTime} {p : WinParams} {dec : DecData ℚ} (hc : dec.Consistent) (hch : 2 ≤ dec.md.chans.length)
    (hmin : 2 ≤ p.minNWins) {win : WinData ℚ} (h : w ref p dec = .ok win) :
    win.Shaped ∧ win.md.chans = dec.md.chans ∧ win.md.nLevels ≤ dec.md.nLevels ∧
      (∀ (i : ℕ) (wlm : WinLevelMeta), win.md.levels[i]? = some wlm → ∃ lm, dec.md.levels[i]? = some lm ∧ wlm.fs = lm.fs) ∧
      ∀ (i : ℕ) (wins : List (List (List ℚ))), i < win.md.nLevels → win.getLevel i = .ok (.d3 wins) →
        ∃ rows, dec.data.lookup i = some rows ∧ rows.length = dec.md.chans.length ∧
          ∀ x ∈ wins, ∃ a b, x = windowAt rows a b := by
  obtain ⟨checked, sizes, name, stored, acc, h1, h2⟩ := windower_levels hw h
  obtain ⟨a1, a2, a3, a4, a5, a6, a7, -⟩ := windower_result checked sizes name ref stored p.minNWins dec acc win h1 h2
  have key : ∀ i, i < win.md.nLevels → ∃ lm w o table rows wlm, dec.md.levels[i]? = some lm ∧
      getWinTable ref lm w o = .ok table ∧ 1 ≤ o ∧ o < w ∧ dec.data.lookup i = some rows ∧
      rows.length = dec.md.chans.length ∧ (∀ row ∈ rows, (row.length : ℤ) = lm.nSamples) ∧
      win.md.levels[i]? = some wlm ∧ wlm.fs = lm.fs ∧ wlm.nWins = table.length ∧ wlm.winSize = w ∧
      win.getLevel i = .ok (.d3 (table.map fun r => windowAt rows r.fromSample w)) := by
    intro i hi
    obtain ⟨w, o, table, arr, raw, lm, wlm, ⟨lm', e1, e2, e3⟩, hlm, b1, b2, b3, b4, b5, b6⟩ := a7 i hi
    rw [hlm, Option.some.injEq] at e1
    subst e1
    have hpos : 0 < w ∧ 0 < o ∧ wlm.winSize = w ∧ wlm.olapSize = o ∧ wlm.fs = lm.fs ∧ wlm.nWins = table.length := by
      unfold getLevelMetadata at b4
      split at b4
      · split at b4
        · cases b4
        · rename_i hn
          rw [Except.ok.injEq] at b4
          subst b4
          exact ⟨by omega, by omega, rfl, rfl, rfl, rfl⟩
      · cases b4
    have hinc : o < w := by
      by_contra hcon
      unfold getLevelData at b3
      split at b3
      · split at b3
        · cases b3
        · rw [if_pos (by omega)] at b3; cases b3
      · cases b3
    have hlc := hc.meta_ok lm (List.mem_of_getElem? hlm)
    obtain ⟨rows, r1, r2, r3⟩ := hc.array i lm hlm
    have hraw : raw = rows := by
      unfold DecData.getLevel at b2
      split at b2
      · cases b2
      · rw [if_neg (by omega)] at b2
        simp only [dictGet, Int.toNat_natCast, r1, Except.ok.injEq] at b2
        exact b2.symm
    subst hraw
    have := getLevelData_windows hlc hinc (by omega) e3 (by omega) hch r2 r3
    rw [b3, Except.ok.injEq] at this
    subst this
    exact ⟨lm, w, o, table, raw, wlm, hlm, e3, by omega, hinc, r1, r2, r3, b5, hpos.2.2.2.2.1, hpos.2.2.2.2.2, hpos.2.2.1, b6⟩
  have hlt : ∀ (i : ℕ) (wlm : WinLevelMeta), win.md.levels[i]? = some wlm → i < win.md.nLevels := by
    intro i wlm hi
    rw [← a3]; exact (List.getElem?_eq_some_iff.mp hi).1
  refine ⟨⟨a3, a1, ?_⟩, a6, a2, ?_, ?_⟩
  · intro i wlm hwlm
    obtain ⟨lm, w, o, table, rows, wlm', c1, c2, c3, c4, c5, c6, c7, c8, c9, c10, c11, c12⟩ := key i (hlt i wlm hwlm)
    rw [hwlm, Option.some.injEq] at c8
    subst c8
    refine ⟨_, c12, by rw [List.length_map, c10], ?_⟩
    intro x hx
    obtain ⟨r, hr, rfl⟩ := List.mem_map.1 hx
    have hlc := hc.meta_ok lm (List.mem_of_getElem? c1)
    obtain ⟨i1, i2, i3, i4⟩ := C07_windows_inside lm hlc ref w o c4 (by omega) table c2 r hr
    refine ⟨by simp [windowAt, c6, a6], ?_⟩
    intro row hrow
    obtain ⟨r0, hr0, rfl⟩ := List.mem_map.mp hrow
    have hr' := c7 r0 hr0
    rw [c11]
    simp only [List.length_take, List.length_drop]
    omega
  · intro i wlm hwlm
    obtain ⟨lm, w, o, table, rows, wlm', c1, c2, c3, c4, c5, c6, c7, c8, c9, c10, c11, c12⟩ := key i (hlt i wlm hwlm)
    rw [hwlm, Option.some.injEq] at c8
    subst c8
    exact ⟨lm, c1, c9⟩
  · intro i wins hi hwins
    obtain ⟨lm, w, o, table, rows, wlm', c1, c2, c3, c4, c5, c6, c7, c8, c9, c10, c11, c12⟩ := key i hi
    rw [c12, Except.ok.injEq, WinArr.d3.injEq] at hwins
    subst hwins
    refine ⟨rows, c5, c6, ?_⟩
    intro x hx
    obtain ⟨r, hr, rfl⟩ := List.mem_map.1 hx
    exact ⟨_, _, rfl⟩

theorem exact_window {chans : List String} {rows : List (List ℚ)} (hl : rows.length = chans.length) {inC : List String}
    {z : ℕ → ℂ} {out : String} (hin : ∀ c ∈ inC, c ∈ chans) (hout : out ∈ chans)
    (h : ExactRows chans (rows.map complexRow) inC z out) (a b : ℤ) :
    ExactRows chans ((windowAt rows a b).map complexRow) inC z out := by
  have e : (windowAt rows a b).map complexRow = (rows.map complexRow).map fun row => (row.drop a.toNat).take b.toNat := by
    unfold windowAt complexRow
    rw [List.map_map, List.map_map]
    refine List.map_congr_left fun r _ => ?_
    simp [List.map_take, List.map_drop]
  rw [e]
  have hl' : (rows.map complexRow).length = chans.length := by simpa using hl
  exact (IsCombo.slice h a.toNat b.toNat).congr (fun i hi => rowOf_map _ _ _ _ hl' (inC_mem hin hi)) (rowOf_map _ _ _ _ hl' hout)

/-! ## Spectra -/

/-- Specification: in every window of every level of spectra, the row of the channel `out` is the combination of the rows of
the channels `inC` with the coefficients `z`. -/
def SpecData.ExactRel (d : SpecData ℂ) (inC : List String) (z : ℕ → ℂ) (out : String) : Prop :=
  ∀ (i : ℕ) (arr : SpecArr ℂ), d.data.lookup i = some arr → ∀ win ∈ arr, ExactRows d.md.chans win inC z out

theorem lookup_lt {V : Type} {d : SpecData V} (hsh : d.Shaped) {i : ℕ} {arr : SpecArr V} (h : d.data.lookup i = some arr) :
    i < d.md.nLevels := by
  have hm : i ∈ d.data.map Prod.fst := by
    rw [List.mem_map]
    exact ⟨(i, arr), lookup_some_mem h, rfl⟩
  rw [hsh.keys, List.mem_range] at hm
  exact hm

theorem lookup_of_getLevel {V : Type} {d : SpecData V} {i : ℕ} {arr : SpecArr V} (h : d.getLevel i = .ok arr) :
    d.data.lookup i = some arr := by
  unfold SpecData.getLevel levelGet dictGet at h
  split at h
  · cases h
  · rw [if_neg (by omega)] at h
    rw [Int.toNat_natCast] at h
    split at h
    · rename_i x hx
      rw [Except.ok.injEq] at h
      rw [hx, h]
    · cases h

theorem exact_transform {ft : List ℚ → List ℂ} (hft : LinearTransform ft) {chans : List String} {rows : List (List ℚ)}
    (hl : rows.length = chans.length) {inC : List String} {z : ℕ → ℝ} {out : String} (hin : ∀ c ∈ inC, c ∈ chans)
    (hout : out ∈ chans) (h : ExactRows chans (rows.map complexRow) inC (fun i => (z i : ℂ)) out) :
    ExactRows chans (rows.map ft) inC (fun i => (z i : ℂ)) out := by
  have := hft inC.length z (fun i => rowOf chans rows (inC.getD i "")) (rowOf chans rows out)
    (IsCombo.congr h (fun i hi => (rowOf_map _ _ _ _ hl (inC_mem hin hi)).symm) (rowOf_map _ _ _ _ hl hout).symm)
  exact this.congr (fun i hi => rowOf_map _ _ _ _ hl (inC_mem hin hi)) (rowOf_map _ _ _ _ hl hout)

/-- The frequency grid of any transform length is increasing and not empty. -/
theorem rfftfreq_grid (n : ℕ) {fs : ℚ} (hfs : 0 < fs) : (rfftfreq n fs).Pairwise (· < ·) ∧ 0 < (rfftfreq n fs).length := by
  by_cases hn : 2 ≤ n
  · obtain ⟨h1, h2, -⟩ := C51_frequency_grid n fs hn hfs
    exact ⟨h2, by omega⟩
  · have : n / 2 = 0 := by omega
    unfold rfftfreq
    rw [this]
    simp

/-- The Fourier transform of windows in which the relation holds. -/
theorem exact_fourier {nfl : ℕ → ℕ} {ft : ℕ → List ℚ → List ℂ} (hlen : ∀ n row, (ft n row).length = n / 2 + 1)
    (hft : ∀ n, LinearTransform (ft n)) {win : WinData ℚ} (hsh : win.Shaped)
    (hfs : ∀ wlm ∈ win.md.levels, 0 < wlm.fs) {spec : SpecData ℂ} (h : fourierRun nfl ft win = .ok spec) :
    spec.Shaped ∧ spec.md.chans = win.md.chans ∧ spec.md.nLevels = win.md.nLevels ∧
      (∀ lm ∈ spec.md.levels, lm.freqs.Pairwise (· < ·) ∧ 0 < lm.freqs.length) ∧
      ∀ (inC : List String) (z : ℕ → ℝ) (out : String), (∀ c ∈ inC, c ∈ win.md.chans) → out ∈ win.md.chans →
        (∀ (i : ℕ) (wins : List (List (List ℚ))), i < win.md.nLevels → win.getLevel i = .ok (.d3 wins) → ∀ x ∈ wins,
          ExactRows win.md.chans (x.map complexRow) inC (fun i => (z i : ℂ)) out) →
        spec.ExactRel inC (fun i => (z i : ℂ)) out := by
  obtain ⟨spec', h1, h2, h3, h4, -, h5⟩ := C51_fourier_run nfl ft hlen win hsh
  rw [h, Except.ok.injEq] at h1
  subst h1
  have hlev : ∀ i, i < win.md.nLevels → ∃ lm, win.md.levels[i]? = some lm := by
    intro i hi
    exact ⟨_, List.getElem?_eq_getElem (by rw [hsh.n_levels]; exact hi)⟩
  refine ⟨h2, h3, h4, ?_, ?_⟩
  · intro lm hlm
    obtain ⟨i, hi, rfl⟩ := List.mem_iff_getElem.1 hlm
    obtain ⟨wlm, hw⟩ := hlev i (by rw [← h4, ← h2.n_levels]; exact hi)
    obtain ⟨wins, lm', -, -, e3, e4, -⟩ := h5 i wlm hw
    rw [List.getElem?_eq_getElem hi, Option.some.injEq] at e3
    rw [e3, e4]
    exact rfftfreq_grid _ (hfs wlm (List.mem_of_getElem? hw))
  · intro inC z out hin hout he i arr harr x hx
    have hi : i < win.md.nLevels := by rw [← h4]; exact lookup_lt h2 harr
    obtain ⟨wlm, hw⟩ := hlev i hi
    obtain ⟨wins, lm', e1, e2, -⟩ := h5 i wlm hw
    obtain ⟨wins', f1, f2, f3⟩ := hsh.array i wlm hw
    rw [e1, Except.ok.injEq, WinArr.d3.injEq] at f1
    subst f1
    have := lookup_of_getLevel e2
    rw [harr, Option.some.injEq] at this
    subst this
    obtain ⟨y, hy, rfl⟩ := List.mem_map.1 hx
    rw [h3]
    exact exact_transform (hft _) (f3 y hy).1 hin hout (he i wins hi e1 y hy)

/-! ## Evaluation -/

theorem getD_get {V : Type} {l : List V} {k : ℕ} (hk : k < l.length) (d : V) : l.getD k d = l[k] := by
  rw [List.getD_eq_getElem?_getD, List.getElem?_eq_getElem hk]; rfl

/-- Interpolation at one frequency is a fixed linear combination of the values. -/
theorem interp_formula (freqs : List ℚ) (h0 : 0 < freqs.length) (f : ℚ) :
    ∃ (a b : ℕ) (s t : ℂ), a < freqs.length ∧ b < freqs.length ∧
      ∀ (row : List ℂ) (v : ℂ), row.length = freqs.length → IsInterp freqs row f v →
        v = s * row.getD a 0 + t * row.getD b 0 := by
  rcases locate freqs f h0 with h | h | ⟨j, hj, h1, h2⟩
  · refine ⟨0, 0, 1, 0, h0, h0, fun row v hl hv => ?_⟩
    have := hv.2.1 freqs[0] (row[0]'(by omega)) (by rw [List.head?_eq_getElem?, List.getElem?_eq_getElem h0])
      (by rw [List.head?_eq_getElem?, List.getElem?_eq_getElem (by omega)]) h.le
    rw [this, getD_get (by omega)]
    ring
  · refine ⟨freqs.length - 1, 0, 1, 0, by omega, h0, fun row v hl hv => ?_⟩
    have := hv.2.2 (freqs[freqs.length - 1]) (row[freqs.length - 1]'(by omega))
      (by rw [List.getLast?_eq_getElem?, List.getElem?_eq_getElem (by omega)])
      (by rw [List.getLast?_eq_getElem?, List.getElem?_eq_getElem (by omega)]; simp only [hl]) h
    rw [this, getD_get (by omega)]
    ring
  · refine ⟨j, j + 1, 1 - (((f - freqs[j]) / (freqs[j + 1] - freqs[j]) : ℚ) : ℂ),
      (((f - freqs[j]) / (freqs[j + 1] - freqs[j]) : ℚ) : ℂ), by omega, hj, fun row v hl hv => ?_⟩
    have := hv.1 j freqs[j] freqs[j + 1] (row[j]'(by omega)) (row[j + 1]'(by omega))
      (List.getElem?_eq_getElem (by omega)) (List.getElem?_eq_getElem hj) (List.getElem?_eq_getElem (by omega))
      (List.getElem?_eq_getElem (by omega)) h1 h2.le
    rw [this, getD_get (by omega), getD_get (by omega), Rat.smul_def]
    ring

/-- Evaluation keeps the relation. -/
theorem exact_evaluation {p : DecParams ℚ} {spec : SpecData ℂ} (hsh : spec.Shaped)
    (hgrid : ∀ lm ∈ spec.md.levels, lm.freqs.Pairwise (· < ·) ∧ 0 < lm.freqs.length) (hn : spec.md.nLevels ≤ p.nLevels)
    {evals : SpecData ℂ} (h : evalFreqsRun p spec = .ok evals) :
    evals.Shaped ∧ evals.md.chans = spec.md.chans ∧ evals.md.nLevels = spec.md.nLevels ∧
      (∀ (i : ℕ) (lm : SpecLevelMeta), evals.md.levels[i]? = some lm → p.getEvalFreqs i = .ok lm.freqs) ∧
      ∀ (inC : List String) (z : ℕ → ℂ) (out : String), (∀ c ∈ inC, c ∈ spec.md.chans) → out ∈ spec.md.chans →
        spec.ExactRel inC z out → evals.ExactRel inC z out := by
  obtain ⟨evals', h1, h2, h3, h4, -, h5⟩ := C27_evaluation p spec hsh hgrid hn
  rw [h, Except.ok.injEq] at h1
  subst h1
  have hlev : ∀ i, i < spec.md.nLevels → ∃ lm, spec.md.levels[i]? = some lm := by
    intro i hi
    exact ⟨_, List.getElem?_eq_getElem (by rw [hsh.n_levels]; exact hi)⟩
  refine ⟨h2, h3, h4, ?_, ?_⟩
  · intro i lm hlm
    have hi : i < spec.md.nLevels := by
      rw [← h4, ← h2.n_levels]; exact (List.getElem?_eq_some_iff.1 hlm).1
    obtain ⟨slm, hs⟩ := hlev i hi
    obtain ⟨ef, arr, arr', lm', e1, e2, e3, e4, e5, -⟩ := h5 i slm hs
    rw [hlm, Option.some.injEq] at e4
    subst e4
    rw [e1, e5]
  · intro inC z out hin hout he i arr' harr' win' hwin'
    have hi : i < spec.md.nLevels := by rw [← h4]; exact lookup_lt h2 harr'
    obtain ⟨slm, hs⟩ := hlev i hi
    obtain ⟨ef, arr, arr2, lm', e1, e2, e3, e4, e5, -, -, -, -, -, e6⟩ := h5 i slm hs
    have := lookup_of_getLevel e3
    rw [harr', Option.some.injEq] at this
    subst this
    have harr := lookup_of_getLevel e2
    obtain ⟨arrs, s1, s2, s3⟩ := hsh.array i slm hs
    rw [harr, Option.some.injEq] at s1
    subst s1
    obtain ⟨arrs', t1, t2, t3⟩ := h2.array i lm' e4
    rw [harr', Option.some.injEq] at t1
    subst t1
    obtain ⟨k, hk, rfl⟩ := List.mem_iff_getElem.1 hwin'
    -- there is a window of the spectra with the same index
    have hkarr : k < arr.length := by
      by_contra hcon
      have e7 := (h5 i slm hs)
      obtain ⟨ef2, arr3, arr4, lm2, g1, g2, g3, g4, g5, g6, -⟩ := e7
      rw [e4, Option.some.injEq] at g4
      subst g4
      omega
    have hgr := hgrid slm (List.mem_of_getElem? hs)
    have hcell : ∀ c ∈ spec.md.chans, ∃ row', rowOf spec.md.chans arr'[k] c = row' ∧ row'.length = ef.length ∧
        ∀ (m : ℕ) (hm : m < ef.length), IsInterp slm.freqs (rowOf spec.md.chans arr[k] c) ef[m] (row'.getD m 0) := by
      intro c hc
      have hlt := List.idxOf_lt_length_of_mem hc
      have hl1 := (s3 arr[k] (List.getElem_mem hkarr)).1
      have hl2 := (t3 arr'[k] (List.getElem_mem hk)).1
      rw [h3] at hl2
      refine ⟨_, rfl, ?_, ?_⟩
      · rw [rowOf, getD_get (by omega)]
        rw [(t3 arr'[k] (List.getElem_mem hk)).2 _ (List.getElem_mem _), e5]
      · intro m hm
        obtain ⟨w2, r2, v, f1, f2, f3, f4⟩ := e6 k (spec.md.chans.idxOf c) m arr[k]
          (arr[k][spec.md.chans.idxOf c]'(by omega)) ef[m] (List.getElem?_eq_getElem hkarr)
          (List.getElem?_eq_getElem (by omega)) (List.getElem?_eq_getElem hm)
        rw [List.getElem?_eq_getElem hk, Option.some.injEq] at f1
        subst f1
        rw [rowOf, rowOf, List.getD_eq_getElem?_getD (l := arr'[k]), f2, getD_get (by omega)]
        simp only [Option.getD_some]
        rw [List.getD_eq_getElem?_getD, f3]
        exact f4
    have hrl : ∀ c ∈ spec.md.chans, (rowOf spec.md.chans arr[k] c).length = slm.freqs.length := by
      intro c hc
      have hlt := List.idxOf_lt_length_of_mem hc
      have hl1 := (s3 arr[k] (List.getElem_mem hkarr)).1
      rw [rowOf, getD_get (by omega)]
      exact (s3 arr[k] (List.getElem_mem hkarr)).2 _ (List.getElem_mem _)
    have hx := he i arr harr arr[k] (List.getElem_mem hkarr)
    rw [h3]
    obtain ⟨ro, -, o1, o2⟩ := hcell out hout
    obtain ⟨ro', ho', o1', o2'⟩ := hcell out hout
    refine ⟨?_, ?_⟩
    · intro j hj
      obtain ⟨r, rfl, r1, -⟩ := hcell _ (inC_mem hin hj)
      rw [r1, ho', o1']
    · intro m hm
      rw [ho', o1'] at hm
      obtain ⟨a, b, s, t, ha, hb, hf⟩ := interp_formula slm.freqs hgr.2 ef[m]
      have hv : ∀ c ∈ spec.md.chans, (rowOf spec.md.chans arr'[k] c).getD m 0 =
          s * (rowOf spec.md.chans arr[k] c).getD a 0 + t * (rowOf spec.md.chans arr[k] c).getD b 0 := by
        intro c hc
        obtain ⟨r, rfl, r1, r2⟩ := hcell c hc
        exact hf _ _ (hrl c hc) (r2 m hm)
      have hout' := hrl out hout
      rw [hv out hout, hx.val a (by omega), hx.val b (by omega), Finset.mul_sum, Finset.mul_sum, ← Finset.sum_add_distrib]
      refine Finset.sum_congr rfl fun j hj => ?_
      rw [hv _ (inC_mem hin (Finset.mem_range.1 hj))]
      ring

end Resistics
