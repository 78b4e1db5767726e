import Verif.Props.TextData
import Verif.Props.FilesRead

/-!
# C78: recordings as text, samples and files
-/

namespace Resistics

/-! ## Single precision -/

theorem toSingle_float (q : ℚ) :
    toSingle (.float q) = if |nearestSingle q| ≤ maxSingle then .float (nearestSingle q) else .inf (decide (q < 0)) := rfl

theorem toDouble_cases (x : ℚ) : toDouble x = .float (nearestDouble x) ∨ toDouble x = .inf (decide (x < 0)) := by
  unfold toDouble
  split
  · exact Or.inl rfl
  · exact Or.inr rfl

/-- **C78 (single precision)**: a sample that is read is a single precision number, and none is nearer to the number that was in the
text; so it is off by at most one part in `2 ^ 24`, and not at all if the number is a single precision number; infinity and `nan` stay. -/
theorem C78_single : (∀ q s, toSingle (.float q) = .float s →
      IsSingle s ∧ (∀ r, IsSingle r → |s - q| ≤ |r - q|) ∧ |s - q| ≤ |q| / 2 ^ 24 + 1 / 2 ^ 150) ∧
    (∀ q, IsSingle q → toSingle (.float q) = .float q) ∧ (∀ neg, toSingle (.inf neg) = .inf neg) ∧ toSingle .nan = .nan := by
  refine ⟨?_, fun q h => toSingle_single h, fun _ => rfl, rfl⟩
  intro q s h
  rw [toSingle_float] at h
  split at h
  · rename_i hle
    have := PyNum.float.inj h
    subst this
    exact ⟨nearestSingle_isSingle hle, fun r hr => nearestSingle_nearest q r hr, nearestSingle_error q⟩
  · exact absurd h (by simp)

/-- **C78 (too large)**: a finite number is read as infinite only if it is larger than all single precision numbers. -/
theorem C78_too_large (q : ℚ) (neg : Bool) (h : toSingle (.float q) = .inf neg) : (neg = true ↔ q < 0) ∧ ∀ r, IsSingle r → |r| < |q| := by
  rw [toSingle_float] at h
  split at h
  · exact absurd h (by simp)
  · rename_i hle
    push Not at hle
    have hneg := PyNum.inf.inj h
    refine ⟨by rw [← hneg]; simp, fun r hr => ?_⟩
    by_contra hcon
    push Not at hcon
    have hmax := hr.le_max
    have hs : IsSingle (if 0 ≤ q then maxSingle else -maxSingle) := by
      have hm : IsSingle maxSingle := ⟨2 ^ 24 - 1, 104, by norm_num, by norm_num, by norm_num, by unfold maxSingle; norm_num⟩
      split
      · exact hm
      · obtain ⟨k, e, h1, h2, h3, h4⟩ := hm
        exact ⟨-k, e, by rwa [abs_neg], h2, h3, by rw [h4]; push_cast; ring⟩
    have h1 := nearestSingle_nearest q _ hs
    -- the largest single is at least as large as `q`, and so would be nearer
    have h2 : |q| ≤ maxSingle := hcon.trans hmax
    have h0 : 0 ≤ maxSingle := le_trans (abs_nonneg _) h2
    rw [abs_le] at h2
    split at h1
    · rename_i hq
      rw [abs_of_nonneg (by linarith : 0 ≤ maxSingle - q)] at h1
      have h3 := abs_le.1 h1
      rcases abs_cases (nearestSingle q) with ⟨h4, h5⟩ | ⟨h4, h5⟩
      · linarith [h3.2]
      · -- zero is nearer than any negative number
        have hz := nearestSingle_nearest q 0 ⟨0, 0, by norm_num, by norm_num, by norm_num, by simp⟩
        rw [zero_sub, abs_neg, abs_of_nonneg hq] at hz
        have := (abs_le.1 hz).1
        linarith
    · rename_i hq
      push Not at hq
      rw [abs_of_nonpos (by linarith : -maxSingle - q ≤ 0)] at h1
      have h3 := abs_le.1 h1
      rcases abs_cases (nearestSingle q) with ⟨h4, h5⟩ | ⟨h4, h5⟩
      · have hz := nearestSingle_nearest q 0 ⟨0, 0, by norm_num, by norm_num, by norm_num, by simp⟩
        rw [zero_sub, abs_neg, abs_of_neg hq] at hz
        have := (abs_le.1 hz).2
        linarith
      · linarith [h3.1]

/-! ## Samples -/

theorem transposeN_get {V : Type} (m : ℕ) (rows : List (List V)) (h : ∀ x ∈ rows, x.length = m) (c j : ℕ) (hc : c < m) :
    ((transposeN m rows)[c]?.bind fun l => l[j]?) = rows[j]?.bind fun x => x[c]? := by
  unfold transposeN
  rw [List.getElem?_map, List.getElem?_range hc]
  simp only [Option.map_some, Option.bind_some]
  induction rows generalizing j with
  | nil => simp
  | cons x rows ih =>
    have hx : c < x.length := by rw [h x (by simp)]; exact hc
    rw [List.filterMap_cons_some (b := x[c]) (by simp [hx])]
    cases j with
    | zero => simp [hx]
    | succ j => simpa using ih (fun y hy => h y (by simp [hy])) j

theorem transposeN_length {V : Type} (m : ℕ) (rows : List (List V)) : (transposeN m rows).length = m := by simp [transposeN]

theorem transposeN_columns {V : Type} (m : ℕ) (rows : List (List V)) (h : ∀ x ∈ rows, x.length = m) :
    ∀ l ∈ transposeN m rows, l.length = rows.length := by
  intro l hl
  unfold transposeN at hl
  obtain ⟨c, hc, rfl⟩ := List.mem_map.1 hl
  rw [List.mem_range] at hc
  clear hl
  induction rows with
  | nil => rfl
  | cons x rows ih =>
    have hx : c < x.length := by rw [h x (by simp)]; exact hc
    rw [List.filterMap_cons_some (b := x[c]) (by simp [hx])]
    simp [ih fun y hy => h y (by simp [hy])]

/-- The array of at least two rows of at least two columns. -/
theorem loadtxtArray_d2 {V : Type} (rows : List (List V)) (m : ℕ) (hm : 2 ≤ m) (h2 : 2 ≤ rows.length) (h : ∀ x ∈ rows, x.length = m) :
    loadtxtArray rows = .ok (.d2 (transposeN m rows)) := by
  match rows, h2 with
  | x :: y :: l, _ =>
    have hx : x.length = m := h x (by simp)
    have hall : ((y :: l).all fun z => decide (z.length = x.length)) = true := by
      rw [List.all_eq_true]
      intro z hz
      rw [decide_eq_true_iff, hx]
      exact h z (List.mem_cons_of_mem _ hz)
    unfold loadtxtArray
    simp only [hall, if_true]
    match x, hx with
    | _ :: _ :: _, hx => rw [← hx]
    | [_], hx => simp at hx; omega
    | [], hx => simp at hx; omega

/-- The array of at least two rows of one column. -/
theorem loadtxtArray_d1 {V : Type} (vs : List V) (h2 : 2 ≤ vs.length) : loadtxtArray (vs.map fun v => [v]) = .ok (.d1 vs) := by
  match vs, h2 with
  | x :: y :: l, _ =>
    have hall : (((y :: l).map fun v => [v]).all fun z => decide (z.length = [x].length)) = true := by
      rw [List.all_eq_true]
      intro z hz
      obtain ⟨w, -, rfl⟩ := List.mem_map.1 hz
      simp
    unfold loadtxtArray
    simp only [List.map_cons] at hall ⊢
    simp only [hall, if_true]
    congr 2
    simp
    induction l with
    | nil => rfl
    | cons a l ih => simpa using ih

/-- what is read when the lines looked at have these values -/
theorem readText_samples {delimiter : Option Char} {text : List Char} {lines : List (List Char)} (ht : TextOf text lines) (nHeader : ℕ)
    {md : TimeMeta} {a b : ℕ} (hab : a < b) (hb : (b : ℤ) < md.nSamples) (hfs : md.fs ≠ 0) (hskip : a + nHeader ≤ lines.length)
    {rows : List (List PyNum)} (hf : List.Forall₂ (SampleLine delimiter) (linesRead delimiter lines (a + nHeader) (b - a + 1)) rows)
    {arr : NDArr PyNum} (harr : loadtxtArray (rows.map (List.map toSingle)) = .ok arr) :
    ∃ out, readText delimiter nHeader text md (samplesReq a b) = .ok out ∧ out.1.nSamples = b - a + 1 ∧
      out.1.firstTime = md.firstTime + a * toTimedelta (1 / md.fs) ∧ out.1.chans = md.chans ∧ out.1.fs = md.fs ∧ out.2 = arr := by
  have hl : loadText delimiter lines (a + nHeader) (b - a + 1) = .ok arr := by
    unfold loadText
    rw [if_neg (by omega), readRows_ok hf]
    exact harr
  unfold readText
  rw [getReadSamples_samples hab hb, textLines_eq ht]
  simp only [bind, Except.bind]
  unfold readDataText
  have e1 : ((a : ℕ) : ℤ).toNat = a := by omega
  have e2 : ((b : ℤ) - (a : ℤ) + 1).toNat = b - a + 1 := by omega
  rw [e1, e2, hl]
  simp only [bind, Except.bind, getReturnMetadata_ok hfs, pure, Except.pure]
  exact ⟨_, rfl, rfl, by push_cast; rfl, rfl, rfl, rfl⟩

theorem linesRead_full {delimiter : Option Char} {header data : List (List Char)} (hb : ∀ l ∈ data, bareLine delimiter l = false)
    (a k : ℕ) : linesRead delimiter (header ++ data) (a + header.length) k = (data.drop a).take k := by
  unfold linesRead
  have e1 : (header ++ data).drop (a + header.length) = data.drop a := by
    rw [List.drop_append, List.drop_of_length_le (by omega)]
    simp
  rw [e1, (filter_not_bare fun l hl => hb l (List.mem_of_mem_drop hl)).2,
    (filter_not_bare fun l hl => hb l (List.mem_of_mem_drop (List.mem_of_mem_take hl))).1]

/-- **C78 (samples)**: samples `a` to `b` of a text recording: sample `j` of channel `c` is the single precision number of word `c` on
line `a + j` after the header. -/
theorem C78_samples (delimiter : Option Char) (text : List Char) (header data : List (List Char)) (rows : List (List PyNum))
    (md : TimeMeta) (a b : ℕ) (ht : TextOf text (header ++ data)) (hd : List.Forall₂ (SampleLine delimiter) data rows)
    (hfs : 0 < md.fs) (hn : md.nSamples = rows.length) (hch : 2 ≤ md.chans.length) (hrows : ∀ x ∈ rows, x.length = md.chans.length)
    (hab : a < b) (hb : b < rows.length) :
    ∃ out arr, readText delimiter header.length text md (samplesReq a b) = .ok out ∧ out.2 = .d2 arr ∧ out.1.nSamples = b - a + 1 ∧
      out.1.firstTime = md.firstTime + a * toTimedelta (1 / md.fs) ∧ arr.length = md.chans.length ∧
      ∀ c j, c < md.chans.length → j ≤ b - a → (arr[c]?.bind fun l => l[j]?) = (rows[a + j]?.bind fun x => x[c]?).map toSingle := by
  have hne : ∀ x ∈ rows, x ≠ [] := fun x hx h => by have := hrows x hx; rw [h] at this; simp at this; omega
  have hlen := hd.length_eq
  have hf : List.Forall₂ (SampleLine delimiter) (linesRead delimiter (header ++ data) (a + header.length) (b - a + 1))
      ((rows.drop a).take (b - a + 1)) := by
    rw [linesRead_full (not_bare hd hne)]
    exact List.forall₂_take _ (List.forall₂_drop _ hd)
  have hlens : ∀ x ∈ (((rows.drop a).take (b - a + 1)).map (List.map toSingle)), x.length = md.chans.length := by
    intro x hx
    obtain ⟨y, hy, rfl⟩ := List.mem_map.1 hx
    rw [List.length_map]
    exact hrows y (List.mem_of_mem_drop (List.mem_of_mem_take hy))
  have harr := loadtxtArray_d2 (((rows.drop a).take (b - a + 1)).map (List.map toSingle)) md.chans.length hch (by simp; omega) hlens
  obtain ⟨out, h1, h2, h3, -, -, h4⟩ := readText_samples ht header.length hab (by omega) hfs.ne' (by simp; omega) hf harr
  refine ⟨out, _, h1, h4, h2, h3, transposeN_length _ _, ?_⟩
  intro c j hc hj
  rw [transposeN_get _ _ hlens c j hc, List.getElem?_map, List.getElem?_take, if_pos (by omega), List.getElem?_drop]
  cases rows[a + j]? with
  | none => rfl
  | some x => simp

/-! ## Comments between the samples -/

theorem bareLine_true {delimiter : Option Char} {line : List Char} (h : LineWords delimiter line []) : bareLine delimiter line = true := by
  unfold bareLine
  rw [(splitLine_iff _ _ _).2 h]
  rfl

/-- **C78 (comments shift samples)**: a line without numbers between the samples - blank, or only a comment - is counted as a sample by
the reader when it is skipped: samples `a` to `b` behind it are in truth samples `a - 1` to `b - 1` of the recording. -/
theorem C78_comment_shifts (delimiter : Option Char) (text : List Char) (header d1 d2 : List (List Char)) (bare : List Char)
    (rows1 rows2 : List (List PyNum)) (md : TimeMeta) (a b : ℕ) (ht : TextOf text (header ++ (d1 ++ bare :: d2)))
    (hbare : LineWords delimiter bare []) (hd1 : List.Forall₂ (SampleLine delimiter) d1 rows1)
    (hd2 : List.Forall₂ (SampleLine delimiter) d2 rows2) (hfs : 0 < md.fs) (hn : md.nSamples = (rows1 ++ rows2).length)
    (hch : 2 ≤ md.chans.length) (hrows : ∀ x ∈ rows1 ++ rows2, x.length = md.chans.length) (ha : rows1.length < a) (hab : a < b)
    (hb : b < (rows1 ++ rows2).length) :
    ∃ out arr, readText delimiter header.length text md (samplesReq a b) = .ok out ∧ out.2 = .d2 arr ∧ out.1.nSamples = b - a + 1 ∧
      out.1.firstTime = md.firstTime + a * toTimedelta (1 / md.fs) ∧
      ∀ c j, c < md.chans.length → j ≤ b - a →
        (arr[c]?.bind fun l => l[j]?) = ((rows1 ++ rows2)[a - 1 + j]?.bind fun x => x[c]?).map toSingle := by
  have hne : ∀ x ∈ rows1 ++ rows2, x ≠ [] := fun x hx h => by have := hrows x hx; rw [h] at this; simp at this; omega
  have hl1 := hd1.length_eq
  have hl2 := hd2.length_eq
  rw [List.length_append] at hb
  have hlines : linesRead delimiter (header ++ (d1 ++ bare :: d2)) (a + header.length) (b - a + 1) =
      (d2.drop (a - 1 - rows1.length)).take (b - a + 1) := by
    have h2 := not_bare hd2 fun x hx => hne x (by simp [hx])
    have e : header ++ (d1 ++ bare :: d2) = (header ++ (d1 ++ [bare])) ++ d2 := by simp
    rw [e, show a + header.length = (a - 1 - rows1.length) + (header ++ (d1 ++ [bare])).length by simp; omega]
    exact linesRead_full h2 _ _
  have hf : List.Forall₂ (SampleLine delimiter) (linesRead delimiter (header ++ (d1 ++ bare :: d2)) (a + header.length) (b - a + 1))
      ((rows2.drop (a - 1 - rows1.length)).take (b - a + 1)) := by
    rw [hlines]
    exact List.forall₂_take _ (List.forall₂_drop _ hd2)
  have hlens : ∀ x ∈ (((rows2.drop (a - 1 - rows1.length)).take (b - a + 1)).map (List.map toSingle)), x.length = md.chans.length := by
    intro x hx
    obtain ⟨y, hy, rfl⟩ := List.mem_map.1 hx
    rw [List.length_map]
    exact hrows y (by simp [List.mem_of_mem_drop (List.mem_of_mem_take hy)])
  have harr := loadtxtArray_d2 _ md.chans.length hch (by simp; omega) hlens
  obtain ⟨out, h1, h2, h3, -, -, h4⟩ := readText_samples ht header.length hab (by rw [hn]; simp; omega) hfs.ne' (by simp; omega) hf harr
  refine ⟨out, _, h1, h4, h2, h3, ?_⟩
  intro c j hc hj
  rw [transposeN_get _ _ hlens c j hc, List.getElem?_map, List.getElem?_take, if_pos (by omega), List.getElem?_drop,
    List.getElem?_append_right (by omega), show a - 1 + j - rows1.length = a - 1 - rows1.length + j by omega]
  cases rows2[a - 1 - rows1.length + j]? with
  | none => rfl
  | some x => simp

/-- **C78 (comments lose samples)**: when samples `a` to `b` are on both sides of such a line, the metadata of what is read say
`b - a + 1` samples, but the array has only `b - a`. -/
theorem C78_comment_loses (delimiter : Option Char) (text : List Char) (header d1 d2 : List (List Char)) (bare : List Char)
    (rows1 rows2 : List (List PyNum)) (md : TimeMeta) (a b : ℕ) (ht : TextOf text (header ++ (d1 ++ bare :: d2)))
    (hbare : LineWords delimiter bare []) (hd1 : List.Forall₂ (SampleLine delimiter) d1 rows1)
    (hd2 : List.Forall₂ (SampleLine delimiter) d2 rows2) (hfs : 0 < md.fs) (hn : md.nSamples = (rows1 ++ rows2).length)
    (hch : 2 ≤ md.chans.length) (hrows : ∀ x ∈ rows1 ++ rows2, x.length = md.chans.length) (ha : a < rows1.length)
    (hab : a + 2 ≤ b) (hb1 : rows1.length ≤ b) (hb : b < (rows1 ++ rows2).length) :
    ∃ out arr, readText delimiter header.length text md (samplesReq a b) = .ok out ∧ out.2 = .d2 arr ∧ out.1.nSamples = b - a + 1 ∧
      arr.length = md.chans.length ∧ ∀ l ∈ arr, l.length = b - a := by
  have hne : ∀ x ∈ rows1 ++ rows2, x ≠ [] := fun x hx h => by have := hrows x hx; rw [h] at this; simp at this; omega
  have hl1 := hd1.length_eq
  have hl2 := hd2.length_eq
  rw [List.length_append] at hb
  have n1 := not_bare hd1 fun x hx => hne x (by simp [hx])
  have n2 := not_bare hd2 fun x hx => hne x (by simp [hx])
  have hlines : linesRead delimiter (header ++ (d1 ++ bare :: d2)) (a + header.length) (b - a + 1) =
      d1.drop a ++ d2.take (b - rows1.length) := by
    unfold linesRead
    have e1 : (header ++ (d1 ++ bare :: d2)).drop (a + header.length) = d1.drop a ++ bare :: d2 := by
      rw [List.drop_append, List.drop_of_length_le (by omega), List.nil_append, List.drop_append_of_le_length (by omega)]
      simp
    have e2 : (d1.drop a ++ bare :: d2).dropWhile (bareLine delimiter) = d1.drop a ++ bare :: d2 := by
      cases hc : d1.drop a with
      | nil => rw [List.drop_eq_nil_iff] at hc; omega
      | cons x xs =>
        rw [List.cons_append, List.dropWhile_cons_of_neg]
        rw [n1 x (List.mem_of_mem_drop (i := a) (by rw [hc]; simp))]
        simp
    have e3 : (d1.drop a ++ bare :: d2).take (b - a + 1) = d1.drop a ++ bare :: d2.take (b - rows1.length) := by
      rw [List.take_append, List.take_of_length_le (by simp; omega), List.length_drop,
        show b - a + 1 - (d1.length - a) = (b - rows1.length) + 1 by omega, List.take_succ_cons]
    rw [e1, e2, e3, List.filter_append, List.filter_cons_of_neg (by simp [bareLine_true hbare]),
      (filter_not_bare fun l hl => n1 l (List.mem_of_mem_drop hl)).1, (filter_not_bare fun l hl => n2 l (List.mem_of_mem_take hl)).1]
  have hf : List.Forall₂ (SampleLine delimiter) (linesRead delimiter (header ++ (d1 ++ bare :: d2)) (a + header.length) (b - a + 1))
      (rows1.drop a ++ rows2.take (b - rows1.length)) := by
    rw [hlines]
    exact List.rel_append (List.forall₂_drop _ hd1) (List.forall₂_take _ hd2)
  have hlens : ∀ x ∈ ((rows1.drop a ++ rows2.take (b - rows1.length)).map (List.map toSingle)), x.length = md.chans.length := by
    intro x hx
    obtain ⟨y, hy, rfl⟩ := List.mem_map.1 hx
    rw [List.length_map]
    apply hrows
    rcases List.mem_append.1 hy with h | h
    · simp [List.mem_of_mem_drop h]
    · simp [List.mem_of_mem_take h]
  have harr := loadtxtArray_d2 _ md.chans.length hch (by simp; omega) hlens
  obtain ⟨out, h1, h2, h3, -, -, h4⟩ := readText_samples ht header.length (by omega) (by rw [hn]; simp; omega) hfs.ne' (by simp; omega) hf harr
  refine ⟨out, _, h1, h4, h2, transposeN_length _ _, ?_⟩
  intro l hl
  rw [transposeN_columns _ _ hlens l hl]
  simp
  omega

/-! ## Words that are no numbers -/

theorem readSample_error (w : List Char) (e : Err) (h : readSample w = .error e) : e = .value := by
  unfold readSample at h
  cases hr : readWord w with
  | none => rw [hr] at h; cases h; rfl
  | some v => rw [hr] at h; cases h

theorem readRow_error {delimiter : Option Char} {line : List Char} {e : Err} (h : readRow delimiter line = .error e) : e = .value := by
  obtain ⟨w, -, hw⟩ := mapM_error h
  exact readSample_error w e hw

/-- **C78 (words that are no numbers)**: if a word on one of the lines of the samples asked for is not a number, a `ValueError` is
raised. -/
theorem C78_refused (delimiter : Option Char) (text : List Char) (header data : List (List Char)) (md : TimeMeta) (a b i : ℕ)
    (ht : TextOf text (header ++ data)) (hd : ∀ l ∈ data, ∃ ws, ws ≠ [] ∧ LineWords delimiter l ws) (hn : md.nSamples = data.length)
    (hab : a < b) (hb : b < data.length) (hai : a ≤ i) (hib : i ≤ b) (line : List Char) (hi : data[i]? = some line)
    (ws : List (List Char)) (hl : LineWords delimiter line ws) (w : List Char) (hw : w ∈ ws) (hbad : ∀ v, ¬ NumberText w v) :
    readText delimiter header.length text md (samplesReq a b) = .error .value := by
  have hnb : ∀ l ∈ data, bareLine delimiter l = false := by
    intro l hm
    obtain ⟨ws, hne, h⟩ := hd l hm
    unfold bareLine
    rw [(splitLine_iff _ _ _).2 h]
    simpa using hne
  have hload : loadText delimiter (header ++ data) (a + header.length) (b - a + 1) = .error .value := by
    unfold loadText
    rw [if_neg (by simp; omega), linesRead_full hnb]
    cases hm : ((data.drop a).take (b - a + 1)).mapM (readRow delimiter) with
    | error e =>
      obtain ⟨l, -, hl⟩ := mapM_error hm
      rw [readRow_error hl]
      rfl
    | ok rows =>
      have hmem : line ∈ (data.drop a).take (b - a + 1) := by
        rw [List.mem_iff_getElem?]
        refine ⟨i - a, ?_⟩
        rw [List.getElem?_take, if_pos (by omega), List.getElem?_drop, show a + (i - a) = i by omega, hi]
      obtain ⟨k, hk, hk'⟩ := List.mem_iff_getElem.1 hmem
      have hr := mapM_ok_getElem hm k hk (by rw [mapM_ok_length hm]; exact hk)
      rw [hk'] at hr
      obtain ⟨xs, ⟨ws', h1, h2⟩, -⟩ := (C78_line _ _ _).1 hr
      have : ws' = ws := by rw [← (splitLine_iff _ _ _).2 h1, (splitLine_iff _ _ _).2 hl]
      subst this
      obtain ⟨k, hk⟩ := List.mem_iff_getElem?.1 hw
      obtain ⟨hk1, hk2⟩ := List.getElem?_eq_some_iff.1 hk
      have := (List.forall₂_iff_get.1 h2).2 k hk1 (by rw [← h2.length_eq]; exact hk1)
      simp only [List.get_eq_getElem] at this
      rw [hk2] at this
      exact absurd this (hbad _)
  unfold readText
  rw [getReadSamples_samples hab (by omega), textLines_eq ht]
  simp only [bind, Except.bind]
  unfold readDataText
  have e1 : ((a : ℕ) : ℤ).toNat = a := by omega
  have e2 : ((b : ℤ) - (a : ℤ) + 1).toNat = b - a + 1 := by omega
  rw [e1, e2, hload]
  rfl

/-- All the characters of numbers, with those of infinity and `nan`. -/
def allNumChars : List Char := "0123456789+-.eEinftyaINFTYA".toList

theorem lower_inv {c d : Char} (h : c.toLower = d) (hd : d ∈ "infityna".toList) : c ∈ allNumChars := by
  have hc : c = d ∨ c.toNat + 32 = d.toNat := by
    unfold Char.toLower at h
    split at h
    · right
      rename_i hr
      have := congrArg Char.toNat h
      rw [← this]
      have h1 : c.val.toNat ≤ 90 := hr.2
      show c.val.toNat + 32 = (c.val + ('a'.val - 'A'.val)).toNat
      rw [UInt32.toNat_add]
      have : ('a'.val - 'A'.val).toNat = 32 := by decide
      rw [this]
      omega
    · exact Or.inl h
  rcases hc with rfl | hc
  · revert hd
    have : ∀ d ∈ "infityna".toList, d ∈ allNumChars := by decide
    exact this c
  · have : ∀ d ∈ "infityna".toList, Char.ofNat (d.toNat - 32) ∈ allNumChars := by decide
    have := this d hd
    rw [← hc] at this
    simpa [Char.ofNat_toNat] using this

/-- **C78 (foreign characters)**: a number has no comma, semicolon, colon, or any other character that is not a blank and none of those
of decimal numbers, infinity and `nan`; so a table separated by commas is refused when no delimiter is given. -/
theorem C78_foreign_character (w : List Char) (c : Char) (hc : c ∈ w) (hs : isSpace c = false) (hn : c ∉ allNumChars) (v : PyNum) :
    ¬ NumberText w v := by
  rintro ⟨t, ⟨g, k, he, hg, hk, -, -⟩, h⟩
  have hct : c ∈ t := by
    rw [he, List.mem_append, List.mem_append] at hc
    rcases hc with (hc | hc) | hc
    · exact absurd (hg c hc) (by simp [hs])
    · exact hc
    · exact absurd (hk c hc) (by simp [hs])
  have hsub : ∀ c ∈ numChars, c ∈ allNumChars := by decide
  have hname : ∀ (s : Option Bool) (name : List Char) (n : String), (∀ d ∈ n.toList, d ∈ "infityna".toList) →
      name.map Char.toLower = n.toList → c ∈ signChars s ++ name → c ∈ allNumChars := by
    intro s name n hnn hmap hm
    rcases List.mem_append.1 hm with hm | hm
    · exact hsub c (signChars_numChars s c hm)
    · have : c.toLower ∈ n.toList := by rw [← hmap]; exact List.mem_map_of_mem hm
      exact lower_inv rfl (hnn _ this)
  apply hn
  rcases h with ⟨d, hd, rfl, -⟩ | ⟨s, name, rfl, h, -⟩ | ⟨s, name, rfl, h, -⟩
  · exact hsub c (decimal_chars hd c hct)
  · rcases h with h | h
    · exact hname s name _ (by decide) h hct
    · exact hname s name _ (by decide) h hct
  · exact hname s name _ (by decide) h hct

/-! ## The files of the writer -/

/-- What a sample is in the text of a channel, exactly. -/
def writtenValue : PyNum → PyNum
  | .int n => toDouble (fixedDecimal (nearestDouble n)).value
  | .float q => toDouble (fixedDecimal q).value
  | v => v

theorem fixedText_number (x : ℚ) : NumberText (fixedText x) (toDouble (fixedDecimal x).value) := by
  rw [← (fixedDecimal_legal x).2]
  exact NumberText.decimal (fixedDecimal_legal x).1

theorem fixedText_chars (x : ℚ) : ∀ c ∈ fixedText x, c ∈ numChars := by
  rw [← (fixedDecimal_legal x).2]
  exact decimal_chars (fixedDecimal_legal x).1

theorem fixedText_ne_nil (x : ℚ) : fixedText x ≠ [] := by simp [fixedText]

theorem sampleText_chars (v : PyNum) : ∀ c ∈ sampleText v, isSpace c = false ∧ c ≠ '#' ∧ c ≠ '\n' ∧ c ≠ '\r' := by
  cases v with
  | int n => exact fun c hc => numChar_not_space (fixedText_chars _ c hc)
  | float q => exact fun c hc => numChar_not_space (fixedText_chars _ c hc)
  | inf neg => cases neg <;> decide
  | nan => decide

theorem sampleText_ne_nil (v : PyNum) : sampleText v ≠ [] := by
  cases v with
  | int n => exact fixedText_ne_nil _
  | float q => exact fixedText_ne_nil _
  | inf neg => cases neg <;> decide
  | nan => decide

theorem sampleText_number (v : PyNum) : NumberText (sampleText v) (writtenValue v) := by
  cases v with
  | int n => exact fixedText_number _
  | float q => exact fixedText_number _
  | inf neg =>
    refine ⟨_, trimmed_self fun c hc => (sampleText_chars (.inf neg) c hc).1, Or.inr (Or.inl ?_)⟩
    cases neg with
    | false => exact ⟨none, "inf".toList, rfl, Or.inl (by decide), by simp [writtenValue]⟩
    | true => exact ⟨some true, "inf".toList, by decide, Or.inl (by decide), by simp [writtenValue]⟩
  | nan => exact ⟨_, trimmed_self fun c hc => (sampleText_chars .nan c hc).1, Or.inr (Or.inr ⟨none, "nan".toList, rfl, by decide, rfl⟩)⟩

theorem line_of_word {w : List Char} (hne : w ≠ []) (h : ∀ c ∈ w, isSpace c = false ∧ c ≠ '#') : LineWords none w [w] := by
  refine ⟨w, [], by simp, fun hc => (h _ hc).2 rfl, by simp, ?_⟩
  have := Words.cons [] w [] [] (by simp [Blank]) hne (fun c hc => (h c hc).1) (by simp) (.nil [] (by simp [Blank]))
  simpa [WordsOf] using this

theorem sampleLine_written (v : PyNum) : SampleLine none (sampleText v) [writtenValue v] :=
  ⟨_, line_of_word (sampleText_ne_nil v) fun c hc => ⟨(sampleText_chars v c hc).1, (sampleText_chars v c hc).2.1⟩,
    .cons (sampleText_number v) .nil⟩

theorem sampleLines_written (vs : List PyNum) :
    List.Forall₂ (SampleLine none) (vs.map sampleText) (vs.map fun v => [writtenValue v]) := by
  induction vs with
  | nil => exact .nil
  | cons v vs ih => exact .cons (sampleLine_written v) ih

theorem saveText_lines (vs : List PyNum) : TextOf (saveText vs) (vs.map sampleText) := by
  refine ⟨?_, ['\n'], .unix, Or.inl ?_⟩
  · intro l hl
    obtain ⟨v, -, rfl⟩ := List.mem_map.1 hl
    exact ⟨fun h => (sampleText_chars v _ h).2.2.1 rfl, fun h => (sampleText_chars v _ h).2.2.2 rfl⟩
  · unfold saveText
    rw [List.flatMap_map]

/-- what one sample becomes -/
theorem written_near (x : ℚ) (hx : |x| ≤ 2 ^ 127) :
    ∃ y, toSingle (toDouble (fixedDecimal x).value) = .float y ∧ |y - x| ≤ 1 / 10 ^ 6 + |x| / 2 ^ 23 := by
  have h1 := fixedDecimal_near x
  set z := (fixedDecimal x).value with hz
  have h2 := nearestDouble_error z
  have h3 := nearestSingle_error (nearestDouble z)
  have hz' : |z| ≤ |x| + 1 / 2000000 := by
    have := abs_add_le (z - x) x
    rw [sub_add_cancel] at this
    linarith
  have hd' : |nearestDouble z| ≤ |z| + (|z| / 2 ^ 53 + 1 / 2 ^ 1075) := by
    have := abs_add_le (nearestDouble z - z) z
    rw [sub_add_cancel] at this
    linarith
  have hs' : |nearestSingle (nearestDouble z)| ≤ |nearestDouble z| + (|nearestDouble z| / 2 ^ 24 + 1 / 2 ^ 150) := by
    have := abs_add_le (nearestSingle (nearestDouble z) - nearestDouble z) (nearestDouble z)
    rw [sub_add_cancel] at this
    linarith
  have ht : (1 : ℚ) / 2 ^ 1075 ≤ 1 / 2 ^ 53 := by
    apply one_div_le_one_div_of_le (by positivity)
    exact pow_le_pow_right₀ (by norm_num) (by norm_num)
  have ht2 : (1 : ℚ) / 2 ^ 150 ≤ 1 / 2 ^ 53 := by
    apply one_div_le_one_div_of_le (by positivity)
    exact pow_le_pow_right₀ (by norm_num) (by norm_num)
  have hx0 := abs_nonneg x
  generalize hE : (1 : ℚ) / 2 ^ 1075 = E at *
  generalize hF : (1 : ℚ) / 2 ^ 150 = F at *
  have hdm : |nearestDouble z| ≤ maxDouble := by
    have hbig : (2 : ℚ) ^ 128 ≤ maxDouble := by
      unfold maxDouble
      have : (2 : ℚ) ^ 128 ≤ 2 ^ 971 := pow_le_pow_right₀ (by norm_num) (by norm_num)
      have h0 : (0 : ℚ) < 2 ^ 971 := by positivity
      generalize (2 : ℚ) ^ 971 = P at *
      nlinarith
    refine le_trans ?_ hbig
    norm_num at hx ht ⊢
    linarith
  have hdd : toDouble z = .float (nearestDouble z) := by
    unfold toDouble
    rw [if_pos hdm]
  have hsm : |nearestSingle (nearestDouble z)| ≤ maxSingle := by
    unfold maxSingle
    norm_num at hx ht ht2 ⊢
    linarith
  refine ⟨nearestSingle (nearestDouble z), ?_, ?_⟩
  · rw [hdd, toSingle_float, if_pos hsm]
  · have e : nearestSingle (nearestDouble z) - x = (nearestSingle (nearestDouble z) - nearestDouble z) + (nearestDouble z - z) + (z - x) := by
      ring
    rw [e]
    have t1 := abs_add_le ((nearestSingle (nearestDouble z) - nearestDouble z) + (nearestDouble z - z)) (z - x)
    have t2 := abs_add_le (nearestSingle (nearestDouble z) - nearestDouble z) (nearestDouble z - z)
    refine t1.trans ((add_le_add t2 le_rfl).trans ?_)
    clear t1 t2 e hsm hdm hs'
    generalize |nearestSingle (nearestDouble z) - nearestDouble z| = A at *
    generalize |nearestDouble z - z| = B at *
    generalize |nearestDouble z| = D at *
    generalize |z - x| = C at *
    norm_num at ht ht2 h1 hz' h2 h3 hd' ⊢
    linarith

/-- a single with six decimals -/
theorem written_exact (x : ℚ) (hx : IsSingle x) (h6 : ∃ k : ℤ, x * 10 ^ 6 = k) :
    toSingle (toDouble (fixedDecimal x).value) = .float x := by
  have hv : (fixedDecimal x).value = x := by
    obtain ⟨k, hk⟩ := h6
    rw [fixedDecimal_value]
    have ha : |x| * 1000000 = ((|k| : ℤ) : ℚ) := by
      rw [Int.cast_abs, ← hk, abs_mul]
      norm_num
    rw [ha, pyRound_int]
    have hc : (((|k| : ℤ).toNat : ℕ) : ℚ) = ((|k| : ℤ) : ℚ) := by exact_mod_cast Int.toNat_of_nonneg (abs_nonneg k)
    rw [hc, ← ha]
    split
    · rename_i h
      rw [abs_of_neg h]; ring
    · rename_i h
      rw [abs_of_nonneg (not_lt.1 h)]; ring
  rw [hv, toDouble_double hx.isDouble, toSingle_single hx]

/-- **C78 (written channels)**: the file the writer makes for a channel has one line for each sample, and `np.loadtxt` reads it back
sample by sample: each finite sample to a millionth and one part in `2 ^ 23`; exactly if it is a single precision number of at most six
decimals, so for all whole numbers of up to 24 bits; infinity and `nan` too. -/
theorem C78_channel_file (vs : List PyNum) (h2 : 2 ≤ vs.length) :
    ∃ ws, loadText none (textLines (saveText vs)) 0 vs.length = .ok (.d1 ws) ∧ ws.length = vs.length ∧ ∀ i : ℕ,
      (∀ x, vs[i]? = some (.float x) → |x| ≤ 2 ^ 127 → ∃ y, ws[i]? = some (.float y) ∧ |y - x| ≤ 1 / 10 ^ 6 + |x| / 2 ^ 23) ∧
      (∀ x, vs[i]? = some (.float x) → IsSingle x → (∃ k : ℤ, x * 10 ^ 6 = k) → ws[i]? = some (.float x)) ∧
      (∀ n : ℤ, vs[i]? = some (.int n) → |n| ≤ 2 ^ 24 → ws[i]? = some (.float n)) ∧
      (∀ neg, vs[i]? = some (.inf neg) → ws[i]? = some (.inf neg)) ∧ (vs[i]? = some .nan → ws[i]? = some .nan) := by
  have hl := loadText_full (header := []) (sampleLines_written vs) (by simp) 0 vs.length (by simp)
  have hrows : (((vs.map fun v => [writtenValue v]).drop 0).take vs.length).map (List.map toSingle) =
      (vs.map fun v => toSingle (writtenValue v)).map fun v => [v] := by
    rw [List.drop_zero, List.take_of_length_le (by simp)]
    simp
  rw [hrows, loadtxtArray_d1 _ (by simpa using h2)] at hl
  rw [textLines_eq (saveText_lines vs)]
  refine ⟨_, by simpa using hl, by simp, fun i => ?_⟩
  simp only [List.getElem?_map]
  refine ⟨?_, ?_, ?_, ?_, ?_⟩
  · intro x hx hb
    obtain ⟨y, h1, h3⟩ := written_near x hb
    exact ⟨y, by rw [hx]; simp [writtenValue, h1], h3⟩
  · intro x hx hs h6
    rw [hx]
    simp [writtenValue, written_exact x hs h6]
  · intro n hx hn
    rw [hx]
    have hsn : IsSingle (n : ℚ) := by
      rcases lt_or_eq_of_le hn with h | h
      · exact ⟨n, 0, h, by norm_num, by norm_num, by simp⟩
      · rcases abs_choice n with hc | hc
        · exact ⟨1, 24, by norm_num, by norm_num, by norm_num, by rw [← hc, h]; norm_num⟩
        · refine ⟨-1, 24, by norm_num, by norm_num, by norm_num, ?_⟩
          rw [show n = -2 ^ 24 by omega]; norm_num
    have hnd : nearestDouble (n : ℚ) = n := nearestDouble_double hsn.isDouble
    simp [writtenValue, hnd, written_exact (n : ℚ) hsn ⟨n * 10 ^ 6, by push_cast; ring⟩]
  · intro neg hx
    rw [hx]; rfl
  · intro hx
    rw [hx]; rfl

/-! ## Written and read -/

theorem ascii_suffix (n : String) (hn : n ≠ "") : hasSuffix ".ascii" (n ++ ".ascii") = true := by
  unfold hasSuffix
  rw [String.toList_append, Bool.and_eq_true]
  constructor
  · rw [List.isSuffixOf_iff_suffix]
    exact List.suffix_append _ _
  · rw [decide_eq_true_iff, List.length_append]
    have : n.toList ≠ [] := fun h => hn (String.toList_inj.1 (by rw [h]; rfl))
    have := List.length_pos_iff.2 this
    omega

theorem not_metadata (n : String) : n ++ ".ascii" ≠ "metadata.json" := by
  intro h
  have h1 := congrArg String.toList h
  rw [String.toList_append] at h1
  have h2 := congrArg List.getLast? h1
  rw [List.getLast?_append_of_ne_nil _ (by decide)] at h2
  revert h2
  decide

theorem toLower_ne {c : String} (h : c ≠ "") : c.toLower ≠ "" := by
  intro hc
  have h1 := congrArg String.toList hc
  rw [String.toLower, String.toList_map] at h1
  have : c.toList = [] := by simpa using h1
  exact h (String.toList_inj.1 (by rw [this]; rfl))

variable {W : Type}

/-- **C78 (written, then read)**: what the writer of text makes of a recording, a reader of text for its file extension reads without
complaint, but not as the recording: whatever the number of channels, the metadata name all of them and the array is the one-dimensional
series of the first channel alone (to a millionth and single precision). -/
theorem C78_written_then_read (ov : Bool) (dir : Path) (files : List (String × List String)) (d : TimeData ℚ) (s : FsState W)
    (hu : Usable ov s.fs dir) (hn : ∀ c ∈ d.md.chans, s.fs (dir ++ [c.toLower ++ ".ascii"]) ≠ some .dir)
    (hnm : s.fs (dir ++ ["metadata.json"]) ≠ some .dir) (hfiles : files.map Prod.fst = d.md.chans)
    (hrow : ∀ c ∈ d.md.chans, ∃ row, d.getChan c = .ok row) (hdist : (d.md.chans.map String.toLower).Nodup)
    (hne : ∀ c ∈ d.md.chans, c ≠ "") (c0 : String) (rest : List String) (hc0 : d.md.chans = c0 :: rest) (row0 : List ℚ)
    (hrow0 : d.getChan c0 = .ok row0) (hlen : d.md.nSamples = row0.length) (hfs : 0 < d.md.fs) (a b : ℕ) (hab : a < b)
    (hb : b < row0.length) :
    ∃ s', writeTimeAscii ov channelLines dir files d s = (.ok (), s') ∧
      ∃ out ws, readTimeAsciiFiles ".ascii" none 0 s'.fs dir (samplesReq a b) = .ok out ∧ out.1.chans = d.md.chans ∧
        out.1.nSamples = b - a + 1 ∧ out.2 = .d1 ws ∧ ws.length = b - a + 1 ∧
        ∀ j x, j ≤ b - a → row0[a + j]? = some x → |x| ≤ 2 ^ 127 →
          ∃ y, ws[j]? = some (.float y) ∧ |y - x| ≤ 1 / 10 ^ 6 + |x| / 2 ^ 23 := by
  obtain ⟨mk, hck, hfs0, -, -⟩ := checkDir_usable hu
  have hd : (s.after mk).fs dir = some .dir := by rw [hfs0]; exact readyFs_dir hu
  obtain ⟨st, h1, h2, -, h4, h5⟩ := writeAsciiChans_ok channelLines d d.md.chans (s.after mk) hd
    (fun c hc => by rw [hfs0, readyFs_file]; exact hn c hc) hrow
  have hmeta : ((s.after mk).after st).fs (dir ++ ["metadata.json"]) ≠ some .dir := by
    rw [Ne, h2, hfs0, readyFs_file]
    exact hnm
  have hall : ∀ q ∈ files, q.1 ∈ d.md.chans := fun q hq => by rw [← hfiles]; exact List.mem_map_of_mem hq
  have hin : ∀ c ∈ d.md.chans, ∃ q ∈ files, q.1 = c := by
    intro c hc
    rw [← hfiles] at hc
    exact List.mem_map.1 hc
  set f : List (String × List String) := files.map fun q => if q.1 ∈ d.md.chans then (q.1, [q.1.toLower ++ ".ascii"]) else q with hf
  have hf' : f = d.md.chans.map fun c => (c, [c.toLower ++ ".ascii"]) := by
    rw [hf, ← hfiles, List.map_map]
    apply List.map_congr_left
    intro q hq
    rw [hfiles]
    simp only [Function.comp]
    rw [if_pos (hall q hq)]
  set md' : TimeMeta := { d.md with history := d.md.history ++ ["TimeWriterAscii"] } with hmd'
  have hwf := writeFile_ok (c := .metaJson (.time md') f) ((h2 dir).2 hd) hmeta
  refine ⟨((s.after mk).after st).after [((s.after mk).after st).fs.set (dir ++ ["metadata.json"]) (.file .torn),
    ((s.after mk).after st).fs.set (dir ++ ["metadata.json"]) (.file (.metaJson (.time md') f))], ?_, ?_⟩
  · unfold writeTimeAscii
    rw [fs_bind, hck]
    simp only
    rw [fs_bind, h1]
    simp only
    rw [fs_read_bind, setDataFiles_ok _ _ _ hin]
    exact hwf
  · set fs' := ((s.after mk).after st).fs.set (dir ++ ["metadata.json"]) (.file (.metaJson (.time md') f)) with hfs'
    have hfsEq : (((s.after mk).after st).after [((s.after mk).after st).fs.set (dir ++ ["metadata.json"]) (.file .torn),
      ((s.after mk).after st).fs.set (dir ++ ["metadata.json"]) (.file (.metaJson (.time md') f))]).fs = fs' := rfl
    rw [hfsEq]
    have hfile : ∀ c ∈ d.md.chans, fs' (dir ++ [c.toLower ++ ".ascii"]) = ((s.after mk).after st).fs (dir ++ [c.toLower ++ ".ascii"]) :=
      fun c _ => set_ne (by simpa using not_metadata c.toLower)
    have hcmem : c0 ∈ d.md.chans := by rw [hc0]; simp
    have hcont : fs' (dir ++ [c0.toLower ++ ".ascii"]) = some (.file (.text (channelLines row0))) := by
      rw [hfile c0 hcmem]
      exact h4 hdist c0 hcmem row0 hrow0
    have htm : fs'.timeMetadata ".ascii" dir = .ok (md', f) := by
      have t1 : (f.all fun c => c.2.all fun x => fs'.isFile (dir ++ [x])) = true := by
        rw [hf', List.all_map, List.all_eq_true]
        intro c hc
        obtain ⟨x, hx⟩ := h5 c hc
        have hx' := hfile c hc
        rw [hx] at hx'
        simp [FS.isFile, hx']
      have t2 : (f.all fun c => c.2.all fun x => hasSuffix ".ascii" x) = true := by
        rw [hf', List.all_map, List.all_eq_true]
        intro c hc
        simp [ascii_suffix _ (toLower_ne (hne c hc))]
      unfold FS.timeMetadata
      rw [metadata_of (by rw [hfs']; exact set_eq)]
      simp only [bind, Except.bind, timePayload, t1, t2]
      rfl
    have hvs : (row0.map fun x => (PyNum.float x)).map sampleText = (channelLines row0).map String.toList := by
      simp [channelLines, sampleText]
    have hload := loadText_full (header := []) (sampleLines_written (row0.map fun x => (PyNum.float x))) (by simp) a (b - a + 1)
      (by simp; omega)
    have hrows : ((((row0.map fun x => (PyNum.float x)).map fun v => [writtenValue v]).drop a).take (b - a + 1)).map (List.map toSingle) =
        (((row0.drop a).take (b - a + 1)).map fun x => toSingle (toDouble (fixedDecimal x).value)).map fun v => [v] := by
      rw [← List.map_drop, ← List.map_drop, ← List.map_take, ← List.map_take]
      simp only [List.map_map]
      rfl
    rw [hrows, loadtxtArray_d1 _ (by simp; omega), hvs] at hload
    have hread : readTimeAsciiFiles ".ascii" none 0 fs' dir (samplesReq a b) =
        readDataText none 0 ((channelLines row0).map String.toList) md' a b := by
      unfold readTimeAsciiFiles
      rw [htm]
      simp only [bind, Except.bind]
      rw [getReadSamples_samples hab (by show (b : ℤ) < d.md.nSamples; omega)]
      have e1 : pyIndex md'.chans 0 = .ok c0 := by
        show pyIndex d.md.chans 0 = _
        rw [hc0]; rfl
      have e2 : dictGet f c0 = .ok [c0.toLower ++ ".ascii"] := by
        rw [hf', hc0]
        simp [dictGet]
      have e3 : pyIndex [c0.toLower ++ ".ascii"] 0 = .ok (c0.toLower ++ ".ascii") := rfl
      simp only [e1, e2, e3, content_of hcont, contentText]
    rw [hread]
    unfold readDataText
    have e1 : ((a : ℕ) : ℤ).toNat = a := by omega
    have e2 : ((b : ℤ) - (a : ℤ) + 1).toNat = b - a + 1 := by omega
    simp only [List.nil_append, List.length_nil] at hload
    rw [e1, e2, hload]
    simp only [bind, Except.bind, getReturnMetadata_ok (show md'.fs ≠ 0 from hfs.ne'), pure, Except.pure]
    refine ⟨_, _, rfl, rfl, rfl, rfl, by simp; omega, ?_⟩
    intro j x hj hx hbx
    obtain ⟨y, g1, g2⟩ := written_near x hbx
    refine ⟨y, ?_, g2⟩
    rw [List.getElem?_map, List.getElem?_take, if_pos (by omega), List.getElem?_drop, hx]
    simp [g1]

end Resistics
