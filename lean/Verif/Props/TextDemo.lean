import Verif.Props.TextFiles
import Verif.Props.FilesCrash

/-!
# C78: examples of recordings as text
-/

namespace Resistics

theorem sampleLine_of {delimiter : Option Char} {line : List Char} {ws : List (List Char)} {xs : List PyNum}
    (h1 : splitLine delimiter line = ws) (h2 : ws.map readWord = xs.map some) : SampleLine delimiter line xs := by
  refine ⟨ws, (splitLine_iff _ _ _).1 h1, ?_⟩
  clear h1
  induction ws generalizing xs with
  | nil => cases xs with
    | nil => exact .nil
    | cons => simp at h2
  | cons w ws ih => cases xs with
    | nil => simp at h2
    | cons x xs =>
      simp only [List.map_cons, List.cons.injEq] at h2
      exact .cons ((C78_number _ _).1 h2.1) (ih h2.2)

/-- Two header lines, then four samples of two channels with Windows newlines, one with a comment behind it. -/
def recordText : List Char := "Ex, Hy\r\nmV, nT\r\n1.5,-2\r\n 1e2 ,.25#dc\r\n+3.,0.1\r\n4,nan\r\n".toList

def demoHeader : List (List Char) := ["Ex, Hy".toList, "mV, nT".toList]

def demoLines : List (List Char) := ["1.5,-2".toList, " 1e2 ,.25#dc".toList, "+3.,0.1".toList, "4,nan".toList]

/-- The double nearest to a tenth. -/
def tenth : ℚ := 3602879701896397 / 36028797018963968

def demoRows : List (List PyNum) :=
  [[.float (3 / 2), .float (-2)], [.float 100, .float (1 / 4)], [.float 3, .float tenth], [.float 4, .nan]]

def recordMeta : TimeMeta where
  fs := 10
  chans := ["Ex", "Hy"]
  nSamples := 4
  firstTime := 0
  lastTime := 3 / 10

theorem recordText_of : TextOf recordText (demoHeader ++ demoLines) := by
  refine ⟨by decide +kernel, ['\r', '\n'], .windows, Or.inl (by decide +kernel)⟩

theorem demoLines_of : List.Forall₂ (SampleLine (some ',')) demoLines demoRows :=
  .cons (sampleLine_of rfl (by decide +kernel)) (.cons (sampleLine_of rfl (by decide +kernel))
    (.cons (sampleLine_of rfl (by decide +kernel)) (.cons (sampleLine_of rfl (by decide +kernel)) .nil)))

/-- Samples one to three: `C78_samples` applies, and a tenth is read as the nearest single precision number. -/
example : ∃ out arr, readText (some ',') 2 recordText recordMeta (samplesReq 1 3) = .ok out ∧ out.2 = .d2 arr ∧ out.1.nSamples = 3 ∧
    out.1.firstTime = recordMeta.firstTime + (1 : ℕ) * toTimedelta (1 / recordMeta.fs) ∧
    (arr[1]?.bind fun l => l[1]?) = some (.float (13421773 / 134217728)) := by
  obtain ⟨out, arr, h1, h2, h3, h4, -, h5⟩ := C78_samples (some ',') recordText demoHeader demoLines demoRows recordMeta 1 3 recordText_of
    demoLines_of (by decide +kernel) (by decide +kernel) (by decide) (by decide +kernel) (by decide) (by decide)
  refine ⟨out, arr, h1, h2, by rw [h3]; rfl, h4, ?_⟩
  rw [h5 1 1 (by decide) (by decide)]
  decide +kernel

/-- `C78_recording` applies. -/
example (r : ReadReq) := C78_recording (some ',') recordText demoHeader demoLines demoRows recordMeta r recordText_of demoLines_of
  (by decide +kernel) (by decide +kernel) (by decide) (by decide) (by decide +kernel) (by decide +kernel)

/-- The same samples, separated by blanks, and with a comment between them. -/
def commentText : List Char := "1 2\n3 4\n# battery changed\n5 6\n7 8\n9 10".toList

def commentMeta : TimeMeta where
  fs := 10
  chans := ["Ex", "Hy"]
  nSamples := 5
  firstTime := 0
  lastTime := 4 / 10

theorem commentText_of : TextOf commentText ([] ++ (["1 2".toList, "3 4".toList] ++ "# battery changed".toList ::
    ["5 6".toList, "7 8".toList, "9 10".toList])) := by
  refine ⟨by decide +kernel, ['\n'], .unix, Or.inr ⟨["1 2".toList, "3 4".toList, "# battery changed".toList, "5 6".toList, "7 8".toList],
    "9 10".toList, by decide, by decide, by decide⟩⟩

theorem commentLines1 : List.Forall₂ (SampleLine none) ["1 2".toList, "3 4".toList] [[.float 1, .float 2], [.float 3, .float 4]] :=
  .cons (sampleLine_of rfl (by decide +kernel)) (.cons (sampleLine_of rfl (by decide +kernel)) .nil)

theorem commentLines2 : List.Forall₂ (SampleLine none) ["5 6".toList, "7 8".toList, "9 10".toList]
    [[.float 5, .float 6], [.float 7, .float 8], [.float 9, .float 10]] :=
  .cons (sampleLine_of rfl (by decide +kernel)) (.cons (sampleLine_of rfl (by decide +kernel))
    (.cons (sampleLine_of rfl (by decide +kernel)) .nil))

/-- `C78_comment_shifts` applies: samples three and four are asked for, two and three are read. -/
example := C78_comment_shifts none commentText [] _ _ _ _ _ commentMeta 3 4 commentText_of
  ((splitLine_iff _ _ _).1 (by decide)) commentLines1 commentLines2 (by decide +kernel) (by decide +kernel) (by decide) (by decide +kernel)
  (by decide) (by decide) (by decide)

/-- `C78_comment_loses` applies: five samples are asked for, four are read. -/
example := C78_comment_loses none commentText [] _ _ _ _ _ commentMeta 0 4 commentText_of
  ((splitLine_iff _ _ _).1 (by decide)) commentLines1 commentLines2 (by decide +kernel) (by decide +kernel) (by decide) (by decide +kernel)
  (by decide) (by decide) (by decide) (by decide)

/-- `C78_refused` applies: decimal commas read with blanks as delimiters. -/
example : readText none 0 "1,5 2\n3,5 4\n".toList { commentMeta with nSamples := 2 } (samplesReq 0 1) = .error .value := by
  refine C78_refused none _ [] ["1,5 2".toList, "3,5 4".toList] _ 0 1 0 ⟨by decide, ['\n'], .unix, Or.inl (by decide)⟩ ?_ (by decide)
    (by decide) (by decide) (by decide) (by decide) _ rfl ["1,5".toList, "2".toList] ((splitLine_iff _ _ _).1 (by decide)) "1,5".toList
    (by simp) fun v => C78_foreign_character _ ',' (by decide) (by decide) (by decide) v
  intro l hl
  rcases List.mem_cons.1 hl with rfl | hl
  · exact ⟨["1,5".toList, "2".toList], by simp, (splitLine_iff _ _ _).1 (by decide)⟩
  · rw [List.mem_singleton] at hl
    subst hl
    exact ⟨["3,5".toList, "4".toList], by simp, (splitLine_iff _ _ _).1 (by decide)⟩

/-- Three samples of two channels. -/
def demoWritten : TimeData ℚ where
  md := { fs := 10, chans := ["Ex", "Hy"], nSamples := 3, firstTime := 0, lastTime := 2 / 10 }
  data := [[1, 1 / 4, -2], [5, 6, 7]]

/-- `C78_written_then_read` applies: only channel `Ex` is read. -/
example : ∃ s', writeTimeAscii false channelLines ["data", "site", "meas"] [("Ex", []), ("Hy", [])] demoWritten { fs := demoFs } =
    (.ok (), s') ∧ ∃ out ws, readTimeAsciiFiles ".ascii" none 0 s'.fs ["data", "site", "meas"] (samplesReq 0 2) = .ok out ∧
      out.1.chans = ["Ex", "Hy"] ∧ out.1.nSamples = 3 ∧ out.2 = .d1 ws ∧ ws.length = 3 := by
  have hd : ∀ x : String, demoFs (["data", "site", "meas"] ++ [x]) ≠ some .dir := by
    intro x; simp [demoFs]
  have hnf : ∀ q : Path, q <+: ["data", "site", "meas"] → demoFs.isFile q = false := by
    intro q _
    unfold FS.isFile demoFs
    split <;> rename_i h <;> split at h <;> simp_all
  obtain ⟨s', h1, out, ws, h2, h3, h4, h5, h6, -⟩ := C78_written_then_read false ["data", "site", "meas"] [("Ex", []), ("Hy", [])]
    demoWritten { fs := demoFs } (Or.inr ⟨by simp [demoFs], hnf⟩) (fun c _ => hd (c.toLower ++ ".ascii")) (hd "metadata.json") rfl
    (by
      intro c hc
      rcases List.mem_cons.1 hc with rfl | hc
      · exact ⟨[1, 1 / 4, -2], by decide +kernel⟩
      · rw [List.mem_singleton] at hc
        subst hc
        exact ⟨[5, 6, 7], by decide +kernel⟩)
    (by
      have : "Ex".toLower ≠ "Hy".toLower := by
        rw [Ne, ← String.toList_inj, String.toLower, String.toLower, String.toList_map, String.toList_map]
        decide
      simpa [demoWritten] using this)
    (by decide) "Ex" ["Hy"] rfl [1, 1 / 4, -2] (by decide +kernel) rfl (by decide +kernel) 0 2 (by decide) (by decide)
  exact ⟨s', h1, out, ws, h2, h3, by rw [h4]; rfl, h5, h6⟩

end Resistics
